import Verif.Vocoder.Model
import Verif.Filters.Linear
import Mathlib.Topology.Algebra.Order.LiminfLimsup
import Mathlib.Analysis.SpecialFunctions.Trigonometric.Bounds
import Mathlib.Analysis.SpecificLimits.Basic
/-!
# The vocoder: where the bands are, stability, envelopes, decay (C137-C140)
-/
namespace Verif.Vocoder
open Verif.Filters

/-! ## Where the bands are (C137) -/

namespace Spec

/-- The frequency of a note counted from concert A. -/
noncomputable def hz (note : ℝ) : ℝ := 440 * (2 : ℝ) ^ (note / 12)

/-- Band `i` of `n` bands spread evenly over an interval of notes. -/
noncomputable def even (lo hi : ℝ) (n i : ℕ) : ℝ := lo + i * ((hi - lo) / (n - 1))

/-- The carriers lie between the two limits, whichever knob holds the lower one. -/
noncomputable def carrier (p : Settings) (n i : ℕ) : ℝ := even (min p.lo p.hi) (max p.lo p.hi) n i

/-- The modulators: the same interval moved by `center` and widened by `expand`, cut off at note 60. -/
noncomputable def modulator (p : Settings) (n i : ℕ) : ℝ :=
  let lo := min p.lo p.hi
  let hi := max p.lo p.hi
  let half := (hi - lo) / 2
  let mid := (lo + hi) / 2 + 0.3 * p.center * half
  even (mid - half * (1 + 0.7 * p.expand)) (min 60 (mid + half * (1 + 0.7 * p.expand))) n i

/-- The settings in the ranges of the parameters. -/
structure InRange (p : Settings) : Prop where
  quality : -1 ≤ p.quality ∧ p.quality ≤ 1
  lo : -36 ≤ p.lo ∧ p.lo ≤ 36
  hi : 0 ≤ p.hi ∧ p.hi ≤ 60
  center : -1 ≤ p.center ∧ p.center ≤ 1
  expand : -1 ≤ p.expand ∧ p.expand ≤ 1
  bands : 4 ≤ p.bands ∧ p.bands ≤ 20

end Spec

theorem place_loop (p : Settings) (dhz mdhz : ℝ) (sep : Bool) (v : Voc) (fb mb : ℝ) (n : ℕ) :
    let Q := 20 * (1 + 0.5 * p.quality)
    let r := (List.range n).foldl (place p dhz mdhz sep) (v, fb, mb)
    r.2 = (fb * dhz ^ n, mb * mdhz ^ n) ∧ r.1.active = v.active ∧ r.1.carL = v.carL ∧ r.1.carR = v.carR ∧ r.1.mod = v.mod ∧ r.1.env = v.env ∧
    (∀ i, i < n → r.1.cCar i = setCoeff (fb * dhz ^ i * p.srInv) Q (0.4 / Q) ∧
      r.1.cMod i = if sep then setCoeff (mb * mdhz ^ i * p.srInv) Q (0.4 / Q) else setCoeff (fb * dhz ^ i * p.srInv) Q (0.4 / Q)) ∧
    ∀ i, n ≤ i → r.1.cCar i = v.cCar i ∧ r.1.cMod i = v.cMod i := by
  intro Q r
  induction n with
  | zero => exact ⟨by simp [r], rfl, rfl, rfl, rfl, rfl, fun i h => absurd h (by omega), fun i _ => ⟨rfl, rfl⟩⟩
  | succ n ih =>
    simp only at ih
    have e : r = place p dhz mdhz sep ((List.range n).foldl (place p dhz mdhz sep) (v, fb, mb)) n := by
      simp only [r, List.range_succ, List.foldl_append, List.foldl_cons, List.foldl_nil]
    rw [e]
    set s := (List.range n).foldl (place p dhz mdhz sep) (v, fb, mb) with hs
    obtain ⟨h1, h2, h3, h4, h5, h6, h7, h8⟩ := ih
    have k1 : s.2.1 = fb * dhz ^ n := by rw [h1]
    have k2 : s.2.2 = mb * mdhz ^ n := by rw [h1]
    simp only [place, k1, k2]
    refine ⟨by rw [pow_succ, pow_succ, mul_assoc, mul_assoc], h2, h3, h4, h5, h6, fun i hi => ?_, fun i hi => ?_⟩
    · by_cases h : i = n
      · subst h
        simp only [Function.update_self]
        exact ⟨rfl, rfl⟩
      · simp only [Function.update_of_ne h]
        exact h7 i (by omega)
    · simp only [Function.update_of_ne (by omega : i ≠ n)]
      exact h8 i (by omega)

theorem hz_even (lo hi : ℝ) (n i : ℕ) : 440 * (2 : ℝ) ^ (lo / 12) * ((2 : ℝ) ^ ((hi - lo) / (n - 1) / 12)) ^ i = Spec.hz (Spec.even lo hi n i) := by
  unfold Spec.hz Spec.even
  rw [← Real.rpow_natCast, ← Real.rpow_mul (by norm_num), mul_assoc, ← Real.rpow_add (by norm_num)]
  congr 2
  ring

theorem order_eq (lo hi : ℝ) : order lo hi = (min lo hi, max lo hi) := by
  unfold order
  split
  · rw [min_eq_right (by linarith), max_eq_left (by linarith)]
  · rw [min_eq_left (by linarith), max_eq_right (by linarith)]

/-- **C137.** After `update`, the number of active bands is the wanted number rounded down to a multiple of 4, and their centres are spread evenly (in notes) over the interval between the two limits, whichever
is the lower one; modulator bands are the same unless moved or widened, then evenly spread over the moved and widened interval cut at note 60.  All bands have the same quality and a relative detuning of their
two stages inverse to it.  Bands that are not active are left alone. -/
theorem C137_bands (v : Voc) (p : Settings) (hb : 4 ≤ p.bands) :
    let n := 4 * (p.bands / 4)
    let Q := 20 * (1 + 0.5 * p.quality)
    (v.update p).active = n ∧
    (∀ i, i < n → (v.update p).cCar i = setCoeff (Spec.hz (Spec.carrier p n i) * p.srInv) Q (0.4 / Q) ∧
      (p.center = 0 ∧ p.expand = 0 → (v.update p).cMod i = (v.update p).cCar i) ∧
      (¬(p.center = 0 ∧ p.expand = 0) → (v.update p).cMod i = setCoeff (Spec.hz (Spec.modulator p n i) * p.srInv) Q (0.4 / Q))) ∧
    (∀ i, n ≤ i → (v.update p).cCar i = v.cCar i ∧ (v.update p).cMod i = v.cMod i) ∧
    (v.update p).carL = v.carL ∧ (v.update p).carR = v.carR ∧ (v.update p).mod = v.mod ∧ (v.update p).env = v.env := by
  intro n Q
  have hn : p.bands - p.bands % 4 = n := by simp only [n]; omega
  have hn1 : ((n : ℕ) : ℝ) - 1 ≠ 0 := by
    have : (4 : ℝ) ≤ n := by exact_mod_cast (by simp only [n]; omega : 4 ≤ n)
    linarith
  unfold Voc.update
  simp only [hn]
  by_cases h : p.center ≠ 0 ∨ p.expand ≠ 0
  · have hp : plan p n = ((440 * (2 : ℝ) ^ (min p.lo p.hi / 12), (2 : ℝ) ^ ((max p.lo p.hi - min p.lo p.hi) / (n - 1) / 12)),
        (440 * (2 : ℝ) ^ ((modRange (min p.lo p.hi) (max p.lo p.hi) p.center p.expand n).1 / 12),
          (2 : ℝ) ^ ((modRange (min p.lo p.hi) (max p.lo p.hi) p.center p.expand n).2 / 12)), true) := by
      simp only [plan, order_eq, if_pos h]
    rw [hp]
    obtain ⟨h1, h2, h3, h4, h5, h6, h7, h8⟩ := place_loop p ((2 : ℝ) ^ ((max p.lo p.hi - min p.lo p.hi) / (n - 1) / 12))
      ((2 : ℝ) ^ ((modRange (min p.lo p.hi) (max p.lo p.hi) p.center p.expand n).2 / 12)) true { v with active := n }
      (440 * (2 : ℝ) ^ (min p.lo p.hi / 12)) (440 * (2 : ℝ) ^ ((modRange (min p.lo p.hi) (max p.lo p.hi) p.center p.expand n).1 / 12)) n
    refine ⟨h2, fun i hi => ⟨?_, fun h' => ?_, fun _ => ?_⟩, h8, h3, h4, h5, h6⟩
    · rw [(h7 i hi).1, hz_even]; rfl
    · rcases h with h | h
      · exact absurd h'.1 h
      · exact absurd h'.2 h
    · rw [(h7 i hi).2, if_pos rfl]
      have e : (modRange (min p.lo p.hi) (max p.lo p.hi) p.center p.expand n).2 =
          (min 60 ((min p.lo p.hi + max p.lo p.hi) / 2 + 0.3 * p.center * ((max p.lo p.hi - min p.lo p.hi) / 2) + (max p.lo p.hi - min p.lo p.hi) / 2 * (1 + 0.7 * p.expand))
            - (modRange (min p.lo p.hi) (max p.lo p.hi) p.center p.expand n).1) / (n - 1) := by
        simp only [modRange]
        generalize min p.lo p.hi = lo
        generalize max p.lo p.hi = hi'
        have c : (hi' - lo) / 2 * 2 * (1 + 0.7 * p.expand) / (n - 1) * (n - 1) = (hi' - lo) * (1 + 0.7 * p.expand) := by field_simp
        rw [c]
        split
        · rename_i h9
          rw [min_eq_left (by linarith)]
        · rename_i h9
          rw [min_eq_right (by linarith)]
          congr 1
          ring
      rw [e, hz_even]
      congr 2
      unfold Spec.modulator
      simp only [modRange]
      congr 2
      ring
  · have hp : plan p n = ((440 * (2 : ℝ) ^ (min p.lo p.hi / 12), (2 : ℝ) ^ ((max p.lo p.hi - min p.lo p.hi) / (n - 1) / 12)),
        (440 * (2 : ℝ) ^ (min p.lo p.hi / 12), (2 : ℝ) ^ ((max p.lo p.hi - min p.lo p.hi) / (n - 1) / 12)), false) := by
      simp only [plan, order_eq, if_neg h]
    rw [hp]
    obtain ⟨h1, h2, h3, h4, h5, h6, h7, h8⟩ := place_loop p ((2 : ℝ) ^ ((max p.lo p.hi - min p.lo p.hi) / (n - 1) / 12))
      ((2 : ℝ) ^ ((max p.lo p.hi - min p.lo p.hi) / (n - 1) / 12)) false { v with active := n }
      (440 * (2 : ℝ) ^ (min p.lo p.hi / 12)) (440 * (2 : ℝ) ^ (min p.lo p.hi / 12)) n
    refine ⟨h2, fun i hi => ⟨?_, fun h' => ?_, fun h' => ?_⟩, h8, h3, h4, h5, h6⟩
    · rw [(h7 i hi).1, hz_even]; rfl
    · rw [(h7 i hi).2, (h7 i hi).1]; rfl
    · push Not at h; exact absurd ⟨h.1, h.2⟩ h'

/-! ## Stability (C138) -/

/-- A band filter is stable: both of its stages are. -/
def Spec.StableBand (c : Coef) : Prop := 0 < c.f1 ∧ 0 < c.f2 ∧ 0 < c.q ∧ c.f1 ^ 2 + 2 * (c.f1 * c.q) < 4 ∧ c.f2 ^ 2 + 2 * (c.f2 * c.q) < 4

theorem calcF_ok {w q : ℝ} (h0 : 0 < w) (h1 : w ≤ 0.34) (hq : q ≤ 0.1) (hq0 : 0 < q) : 0 < calcF w ∧ calcF w ^ 2 + 2 * (calcF w * q) < 4 := by
  have hpi := Real.pi_pos
  have s0 : 0 < Real.sin (Real.pi * w) := Real.sin_pos_of_pos_of_lt_pi (by positivity) (by nlinarith)
  have s1 := Real.sin_le_one (Real.pi * w)
  have hc : 1 - 2 * w ≤ Real.cos (Real.pi * w) := by
    have := Real.le_sin_mul (x := 1 - 2 * w) (by linarith) (by linarith)
    rwa [show Real.pi / 2 * (1 - 2 * w) = Real.pi / 2 - Real.pi * w by ring, Real.sin_pi_div_two_sub] at this
  have hsq := Real.sin_sq_add_cos_sq (Real.pi * w)
  have c0 : 0.32 ≤ Real.cos (Real.pi * w) := by linarith
  unfold calcF
  refine ⟨by positivity, ?_⟩
  nlinarith

/-- **C138.** For all settings within the ranges of the parameters and every sample rate from 44100 Hz up, every band filter, of the carriers and of the modulators, is stable after `update`. -/
theorem C138_stable (v : Voc) (p : Settings) (hp : Spec.InRange p) (hs0 : 0 < p.srInv) (hs : p.srInv ≤ 1 / 44100) (i : ℕ) (hi : i < (v.update p).active) :
    Spec.StableBand ((v.update p).cCar i) ∧ Spec.StableBand ((v.update p).cMod i) := by
  obtain ⟨ha, hc, -⟩ := C137_bands v p hp.bands.1
  set n := 4 * (p.bands / 4) with hn
  rw [ha] at hi
  obtain ⟨h1, h2, h3⟩ := hc i hi
  have hq := hp.quality
  have hn4 : 4 ≤ n := by have := hp.bands.1; omega
  -- a band between two notes, the upper at most 60
  have key : ∀ note : ℝ, note ≤ 60 → Spec.StableBand (setCoeff (Spec.hz note * p.srInv) (20 * (1 + 0.5 * p.quality)) (0.4 / (20 * (1 + 0.5 * p.quality)))) := by
    intro note hno
    have hQ : 10 ≤ 20 * (1 + 0.5 * p.quality) := by linarith
    generalize 20 * (1 + 0.5 * p.quality) = Q at hQ
    have hsp0 : 0 < 0.4 / Q := by positivity
    have hsp : 0.4 / Q ≤ 0.04 := by rw [div_le_iff₀ (by linarith)]; linarith
    have hhz0 : 0 < Spec.hz note := by unfold Spec.hz; positivity
    have hhz : Spec.hz note ≤ 14080 := by
      unfold Spec.hz
      have : (2 : ℝ) ^ (note / 12) ≤ (2 : ℝ) ^ (5 : ℝ) := Real.rpow_le_rpow_of_exponent_le (by norm_num) (by linarith)
      have h5 : (2 : ℝ) ^ (5 : ℝ) = 32 := by
        rw [show (5 : ℝ) = ((5 : ℕ) : ℝ) by norm_num, Real.rpow_natCast]; norm_num
      rw [h5] at this
      linarith
    have hw0 : 0 < Spec.hz note * p.srInv := by positivity
    have hw : Spec.hz note * p.srInv ≤ 14080 / 44100 := by
      calc Spec.hz note * p.srInv ≤ 14080 * (1 / 44100) := mul_le_mul hhz hs hs0.le (by norm_num)
        _ = _ := by norm_num
    generalize Spec.hz note * p.srInv = w at hw0 hw
    have hq0 : 0 < calcQ Q := by unfold calcQ; positivity
    have hq1 : calcQ Q ≤ 0.1 := by unfold calcQ; rw [div_le_iff₀ (by linarith)]; linarith
    obtain ⟨a1, a2⟩ := calcF_ok (w := w * (1 - 0.4 / Q)) (by apply mul_pos hw0; linarith) (by nlinarith) hq1 hq0
    obtain ⟨b1, b2⟩ := calcF_ok (w := w * (1 + 0.4 / Q)) (by apply mul_pos hw0; linarith) (by nlinarith) hq1 hq0
    exact ⟨a1, b1, hq0, a2, b2⟩
  have ev : ∀ lo hi' : ℝ, lo ≤ 60 → hi' ≤ 60 → Spec.even lo hi' n i ≤ 60 := by
    intro lo hi' hl hh
    have hn' : (4 : ℝ) ≤ n := by exact_mod_cast hn4
    have hi'' : (i : ℝ) ≤ n - 1 := by
      have : i + 1 ≤ n := hi
      have : ((i + 1 : ℕ) : ℝ) ≤ n := by exact_mod_cast this
      push_cast at this; linarith
    unfold Spec.even
    set t := (i : ℝ) / (n - 1) with ht
    have t0 : 0 ≤ t := div_nonneg (Nat.cast_nonneg _) (by linarith)
    have t1 : t ≤ 1 := (div_le_one (by linarith)).mpr hi''
    have : (i : ℝ) * ((hi' - lo) / (n - 1)) = t * (hi' - lo) := by rw [ht]; ring
    rw [this]
    nlinarith
  have hmax : max p.lo p.hi ≤ 60 := max_le (by linarith [hp.lo.2]) hp.hi.2
  have hmin : min p.lo p.hi ≤ max p.lo p.hi := min_le_max
  have hcar := key (Spec.carrier p n i) (ev _ _ (hmin.trans hmax) hmax)
  rw [h1]
  refine ⟨hcar, ?_⟩
  by_cases h : p.center = 0 ∧ p.expand = 0
  · rw [h2 h, h1]; exact hcar
  · rw [h3 h]
    refine key _ (ev _ _ ?_ (min_le_left _ _))
    have hx := hp.expand
    have hcn := hp.center
    nlinarith

/-- The matrix of one stage. -/
def stageM (f q : ℝ) : M2 := ⟨1, f, -f, 1 - f ^ 2 - f * q⟩

theorem stage_contract {f q : ℝ} (hf : 0 < f) (hq : 0 < q) (h : f ^ 2 + 2 * (f * q) < 4) : |(stageM f q).det| < 1 ∧ |(stageM f q).tr| < 1 + (stageM f q).det := by
  have h1 : (stageM f q).det = 1 - f * q := by simp only [M2.det, stageM]; ring
  have h2 : (stageM f q).tr = 2 - f ^ 2 - f * q := by simp only [M2.tr, stageM]; ring
  have hfq : 0 < f * q := by positivity
  rw [h1, h2, abs_lt, abs_lt]
  refine ⟨⟨by nlinarith [sq_nonneg f], by linarith⟩, by linarith, by nlinarith [sq_nonneg f, pow_pos hf 2]⟩

/-- A driven linear system. -/
def driven (A : M2) (E : ℝ × ℝ) (s : ℝ × ℝ) (x : ℕ → ℝ) : ℕ → ℝ × ℝ
  | 0 => s
  | n + 1 => ((A.act (driven A E s x n)).1 + x n * E.1, (A.act (driven A E s x n)).2 + x n * E.2)

/-- The size of a state. -/
def size (s : ℝ × ℝ) : ℝ := |s.1| + |s.2|

theorem size_nonneg (s : ℝ × ℝ) : 0 ≤ size s := add_nonneg (abs_nonneg _) (abs_nonneg _)

theorem size_add (s t : ℝ × ℝ) : size (s.1 + t.1, s.2 + t.2) ≤ size s + size t := by
  have := abs_add_le s.1 t.1
  have := abs_add_le s.2 t.2
  simp only [size]; linarith

theorem driven_shift (A : M2) (E s : ℝ × ℝ) (x : ℕ → ℝ) (m : ℕ) : ∀ k, driven A E s x (m + k) = driven A E (driven A E s x m) (fun i => x (m + i)) k := by
  intro k
  induction k with
  | zero => rfl
  | succ k ih => rw [← add_assoc]; simp only [driven, ih]

/-- The response to a bounded input: the old state decays, the input adds a bounded amount. -/
theorem driven_bound {A : M2} (h2 : |A.det| < 1) (h1 : |A.tr| < 1 + A.det) (E : ℝ × ℝ) :
    ∃ K r : ℝ, 0 < K ∧ 0 < r ∧ r < 1 ∧ ∀ (s : ℝ × ℝ) (x : ℕ → ℝ) (B : ℝ) (n : ℕ), (∀ k, k < n → |x k| ≤ B) → 0 ≤ B → size (driven A E s x n) ≤ K * size s * r ^ n + K * B := by
  obtain ⟨K, r, K0, r0, r1, hb⟩ := power_decay h2 h1
  have hr : 0 < 1 - r := by linarith
  refine ⟨K + K * size E / (1 - r) + 1, r, by have := size_nonneg E; positivity, r0, r1, ?_⟩
  -- variation of constants, from the front
  have voc : ∀ (n : ℕ) (s : ℝ × ℝ) (x : ℕ → ℝ) (B : ℝ), (∀ k, k < n → |x k| ≤ B) → 0 ≤ B →
      size (driven A E s x n) ≤ K * size s * r ^ n + K * size E * B * ((1 - r ^ n) / (1 - r)) ∨ n = 0 := by
    intro n
    -- split the state at each step: driven n = A^n s + sum; prove a stronger form by decomposing the input
    have lin : ∀ (n : ℕ) (s : ℝ × ℝ) (x : ℕ → ℝ), driven A E s x n =
        ((A.act^[n] s).1 + (driven A E (0, 0) x n).1, (A.act^[n] s).2 + (driven A E (0, 0) x n).2) := by
      intro n
      induction n with
      | zero => intro s x; simp [driven]
      | succ n ih =>
        intro s x
        simp only [driven, Function.iterate_succ_apply']
        rw [ih s x, act_add]
        ext <;> simp <;> ring
    have zero : ∀ (n : ℕ) (x : ℕ → ℝ) (B : ℝ), (∀ k, k < n → |x k| ≤ B) → 0 ≤ B → size (driven A E (0, 0) x n) ≤ K * size E * B * ((1 - r ^ n) / (1 - r)) := by
      intro n
      induction n with
      | zero => intro x B _ _; simp [driven, size]
      | succ n ih =>
        intro x B hx hB
        rw [show n + 1 = 1 + n by omega, driven_shift, lin]
        have e : driven A E (0, 0) x 1 = (x 0 * E.1, x 0 * E.2) := by simp [driven, M2.act]
        rw [e, show ((A.act^[n] (x 0 * E.1, x 0 * E.2))) = (x 0 * (A.act^[n] E).1, x 0 * (A.act^[n] E).2) from iter_smul A (x 0) n E]
        refine le_trans (size_add (x 0 * (A.act^[n] E).1, x 0 * (A.act^[n] E).2) _) ?_
        have i1 := ih (fun i => x (1 + i)) B (fun k hk => hx _ (by omega)) hB
        have i2 : size (x 0 * (A.act^[n] E).1, x 0 * (A.act^[n] E).2) ≤ B * (K * size E * r ^ n) := by
          have : size (x 0 * (A.act^[n] E).1, x 0 * (A.act^[n] E).2) = |x 0| * size (A.act^[n] E) := by simp only [size, abs_mul]; ring
          rw [this]
          exact mul_le_mul (hx 0 (by omega)) (hb E n) (size_nonneg _) hB
        have : K * size E * B * ((1 - r ^ (1 + n)) / (1 - r)) = B * (K * size E * r ^ n) + K * size E * B * ((1 - r ^ n) / (1 - r)) := by
          field_simp; ring
        rw [this]
        linarith
    intro s x B hx hB
    left
    rw [lin]
    exact le_trans (size_add _ _) (add_le_add (hb s n) (zero n x B hx hB))
  intro s x B n hx hB
  have hE := size_nonneg E
  have hS := size_nonneg s
  rcases voc n s x B hx hB with h | rfl
  · refine h.trans (add_le_add ?_ ?_)
    · have : 0 ≤ K * size E / (1 - r) + 1 := by positivity
      have : K * (size s * r ^ n) ≤ (K + K * size E / (1 - r) + 1) * (size s * r ^ n) := mul_le_mul_of_nonneg_right (by linarith) (by positivity)
      linarith
    · have : (1 - r ^ n) / (1 - r) ≤ 1 / (1 - r) := by
        rw [div_le_div_iff_of_pos_right hr]; linarith [pow_pos r0 n]
      have h3 : K * size E * B * ((1 - r ^ n) / (1 - r)) ≤ K * size E * B * (1 / (1 - r)) := mul_le_mul_of_nonneg_left this (by positivity)
      have h4 : K * size E * B * (1 / (1 - r)) = K * size E / (1 - r) * B := by ring
      nlinarith
  · simp only [driven, pow_zero, mul_one]
    have : 0 ≤ K * size E / (1 - r) := by positivity
    nlinarith

/-- An input that dies away leaves a state that dies away. -/
theorem driven_tendsto {A : M2} (h2 : |A.det| < 1) (h1 : |A.tr| < 1 + A.det) (E s : ℝ × ℝ) {x : ℕ → ℝ} (hx : ∀ ε > 0, ∃ N, ∀ n ≥ N, |x n| ≤ ε) :
    ∀ ε > 0, ∃ N, ∀ n ≥ N, size (driven A E s x n) ≤ ε := by
  obtain ⟨K, r, K0, r0, r1, hb⟩ := driven_bound h2 h1 E
  intro ε hε
  obtain ⟨N, hN⟩ := hx (ε / (2 * K)) (by positivity)
  set t := driven A E s x N with ht
  obtain ⟨m, hm⟩ := exists_pow_lt_of_lt_one (show 0 < ε / (2 * (K * size t + 1)) by have := size_nonneg t; positivity) r1
  refine ⟨N + m, fun n hn => ?_⟩
  obtain ⟨k, rfl⟩ : ∃ k, n = N + k := ⟨n - N, by omega⟩
  rw [driven_shift]
  refine (hb t (fun i => x (N + i)) (ε / (2 * K)) k (fun i _ => hN _ (by omega)) (by positivity)).trans ?_
  have hk : r ^ k ≤ r ^ m := pow_le_pow_of_le_one r0.le r1.le (by omega)
  have hS := size_nonneg t
  have e1 : K * (ε / (2 * K)) = ε / 2 := by field_simp
  have e2 : K * size t * r ^ k ≤ ε / 2 := by
    have : K * size t * r ^ k ≤ (K * size t + 1) * (ε / (2 * (K * size t + 1))) :=
      mul_le_mul (by linarith) (hk.trans hm.le) (by positivity) (by positivity)
    refine this.trans (le_of_eq ?_)
    field_simp
  linarith

end Verif.Vocoder
