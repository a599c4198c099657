import Verif.Vocoder.Claims
import Mathlib.Algebra.BigOperators.Fin
import Mathlib.Algebra.Order.BigOperators.Group.Finset
/-!
# The vocoder at work: bounds, envelopes, silence, linearity (C138-C140)
-/
namespace Verif.Vocoder
open Verif.Filters

/-! ## One band filter, driven by a signal -/

/-- The state of a band filter after `n` samples. -/
def bandRun (c : Coef) (s : Band) (x : ℕ → ℝ) : ℕ → Band
  | 0 => s
  | n + 1 => (calcBpf c (bandRun c s x n) (x n)).1

/-- What it puts out for sample `n`. -/
def bandOut (c : Coef) (s : Band) (x : ℕ → ℝ) (n : ℕ) : ℝ := (calcBpf c (bandRun c s x n) (x n)).2

/-- The size of a band state. -/
def Band.size (s : Band) : ℝ := |s.l1| + |s.b1| + |s.l2| + |s.b2|

theorem bandOut_eq (c : Coef) (s : Band) (x : ℕ → ℝ) (n : ℕ) : bandOut c s x n = (bandRun c s x (n + 1)).b2 := rfl

theorem stage1 (c : Coef) (s : Band) (x : ℕ → ℝ) (n : ℕ) : ((bandRun c s x n).l1, (bandRun c s x n).b1) = driven (stageM c.f1 c.q) (0, c.f1 * c.q) (s.l1, s.b1) x n := by
  induction n with
  | zero => rfl
  | succ n ih =>
    simp only [driven, ← ih]
    simp only [bandRun, calcBpf, M2.act, stageM]
    ext <;> simp only <;> ring

theorem stage2 (c : Coef) (s : Band) (x : ℕ → ℝ) (n : ℕ) :
    ((bandRun c s x n).l2, (bandRun c s x n).b2) = driven (stageM c.f2 c.q) (0, c.f2 * c.q) (s.l2, s.b2) (fun k => (bandRun c s x (k + 1)).b1) n := by
  induction n with
  | zero => rfl
  | succ n ih =>
    simp only [driven, ← ih]
    simp only [bandRun, calcBpf, M2.act, stageM]
    ext <;> simp only <;> ring

/-- **C138.** A stable band filter has a bounded response: one constant bounds the output by the size of the old state and the largest input, for all time and all inputs. -/
theorem C138_bounded {c : Coef} (hc : Spec.StableBand c) :
    ∃ K, 0 < K ∧ ∀ (s : Band) (x : ℕ → ℝ) (B : ℝ) (n : ℕ), (∀ k, k ≤ n → |x k| ≤ B) → |bandOut c s x n| ≤ K * (s.size + B) := by
  obtain ⟨h1, h2, hq, e1, e2⟩ := hc
  obtain ⟨d1, t1⟩ := stage_contract h1 hq e1
  obtain ⟨d2, t2⟩ := stage_contract h2 hq e2
  obtain ⟨K1, r1, K10, r10, r11, b1⟩ := driven_bound d1 t1 (0, c.f1 * c.q)
  obtain ⟨K2, r2, K20, r20, r21, b2⟩ := driven_bound d2 t2 (0, c.f2 * c.q)
  refine ⟨K2 + K2 * K1, by positivity, fun s x B n hx => ?_⟩
  have hB : 0 ≤ B := (abs_nonneg _).trans (hx 0 (by omega))
  have hS1 : 0 ≤ size (s.l1, s.b1) := size_nonneg _
  have hS2 : 0 ≤ size (s.l2, s.b2) := size_nonneg _
  have hsz : s.size = size (s.l1, s.b1) + size (s.l2, s.b2) := by simp only [Band.size, size]; ring
  have i1 : ∀ k, k ≤ n → |(bandRun c s x (k + 1)).b1| ≤ K1 * (size (s.l1, s.b1) + B) := by
    intro k hk
    have := b1 (s.l1, s.b1) x B (k + 1) (fun i hi => hx i (by omega)) hB
    rw [← stage1] at this
    have hp : r1 ^ (k + 1) ≤ 1 := pow_le_one₀ r10.le r11.le
    have hm : K1 * size (s.l1, s.b1) * r1 ^ (k + 1) ≤ K1 * size (s.l1, s.b1) := by
      have := mul_le_mul_of_nonneg_left hp (show 0 ≤ K1 * size (s.l1, s.b1) by positivity)
      linarith
    have hl : |(bandRun c s x (k + 1)).b1| ≤ size ((bandRun c s x (k + 1)).l1, (bandRun c s x (k + 1)).b1) := by
      simp only [size]; linarith [abs_nonneg (bandRun c s x (k + 1)).l1]
    linarith
  have := b2 (s.l2, s.b2) (fun k => (bandRun c s x (k + 1)).b1) (K1 * (size (s.l1, s.b1) + B)) (n + 1) (fun i hi => i1 i (by omega)) (by positivity)
  rw [← stage2] at this
  have hp : r2 ^ (n + 1) ≤ 1 := pow_le_one₀ r20.le r21.le
  have hm : K2 * size (s.l2, s.b2) * r2 ^ (n + 1) ≤ K2 * size (s.l2, s.b2) := by
    have := mul_le_mul_of_nonneg_left hp (show 0 ≤ K2 * size (s.l2, s.b2) by positivity)
    linarith
  have hl : |(bandRun c s x (n + 1)).b2| ≤ size ((bandRun c s x (n + 1)).l2, (bandRun c s x (n + 1)).b2) := by
    simp only [size]; linarith [abs_nonneg (bandRun c s x (n + 1)).l2]
  rw [bandOut_eq, hsz]
  have p1 : 0 ≤ K2 * K1 * size (s.l2, s.b2) := by positivity
  have p2 : 0 ≤ K2 * size (s.l1, s.b1) := by positivity
  have p3 : 0 ≤ K2 * B := by positivity
  have p4 : 0 ≤ K2 * K1 * B := by positivity
  nlinarith

/-- A signal that dies away. -/
def Spec.Dies (x : ℕ → ℝ) : Prop := ∀ ε > 0, ∃ N, ∀ n ≥ N, |x n| ≤ ε

/-- **C138.** What dies away before a stable band filter dies away behind it, whatever the filter held. -/
theorem C138_dies {c : Coef} (hc : Spec.StableBand c) (s : Band) {x : ℕ → ℝ} (hx : Spec.Dies x) : Spec.Dies (bandOut c s x) := by
  obtain ⟨h1, h2, hq, e1, e2⟩ := hc
  obtain ⟨d1, t1⟩ := stage_contract h1 hq e1
  obtain ⟨d2, t2⟩ := stage_contract h2 hq e2
  have k1 := driven_tendsto d1 t1 (0, c.f1 * c.q) (s.l1, s.b1) hx
  have k2 := driven_tendsto d2 t2 (0, c.f2 * c.q) (s.l2, s.b2) (x := fun k => (bandRun c s x (k + 1)).b1) (by
    intro ε hε
    obtain ⟨N, hN⟩ := k1 ε hε
    refine ⟨N, fun n hn => ?_⟩
    have := hN (n + 1) (by omega)
    rw [← stage1] at this
    simp only [size] at this
    linarith [abs_nonneg (bandRun c s x (n + 1)).l1])
  intro ε hε
  obtain ⟨N, hN⟩ := k2 ε hε
  refine ⟨N, fun n hn => ?_⟩
  have := hN (n + 1) (by omega)
  rw [← stage2] at this
  simp only [size] at this
  rw [bandOut_eq]
  linarith [abs_nonneg (bandRun c s x (n + 1)).l2]

/-- **C138.** A constant input does not pass a stable band filter. -/
theorem C138_blocks_dc {c : Coef} (hc : Spec.StableBand c) (s : Band) (a : ℝ) : Spec.Dies (bandOut c s (fun _ => a)) := by
  -- the first stage holds `q a` in its low-pass; what remains is the response to silence
  have key : ∀ n, let r := bandRun c s (fun _ => a) n
      let t := bandRun c ⟨s.l1 - c.q * a, s.b1, s.l2, s.b2⟩ (fun _ => 0) n
      r.l1 = t.l1 + c.q * a ∧ r.b1 = t.b1 ∧ r.l2 = t.l2 ∧ r.b2 = t.b2 := by
    intro n
    induction n with
    | zero => simp [bandRun]
    | succ n ih =>
      obtain ⟨i1, i2, i3, i4⟩ := ih
      simp only [bandRun, calcBpf, i1, i2, i3, i4]
      refine ⟨?_, ?_, ?_, ?_⟩
      · ring
      · ring
      · trivial
      · ring
  have := C138_dies hc ⟨s.l1 - c.q * a, s.b1, s.l2, s.b2⟩ (x := fun _ => 0) (fun ε hε => ⟨0, fun n _ => by simpa using hε.le⟩)
  intro ε hε
  obtain ⟨N, hN⟩ := this ε hε
  refine ⟨N, fun n hn => ?_⟩
  rw [bandOut_eq, (key (n + 1)).2.2.2, ← bandOut_eq]
  exact hN n hn

/-! ## The envelope followers (C139) -/

/-- A configuration made from the parameters: rate between 0 and 1. -/
theorem rate_range {rate level : ℝ} (h0 : 0 ≤ rate) (h1 : rate ≤ 1) : 0.001 ≤ (BlockCfg.new rate level).rate ∧ (BlockCfg.new rate level).rate ≤ 0.016 := by
  simp only [BlockCfg.new]
  have a1 : (2 : ℝ) ^ (0 : ℝ) ≤ (2 : ℝ) ^ (4 * rate) := Real.rpow_le_rpow_of_exponent_le (by norm_num) (by linarith)
  have a2 : (2 : ℝ) ^ (4 * rate) ≤ (2 : ℝ) ^ (4 : ℝ) := Real.rpow_le_rpow_of_exponent_le (by norm_num) (by linarith)
  have h4 : (2 : ℝ) ^ (4 : ℝ) = 16 := by
    rw [show (4 : ℝ) = ((4 : ℕ) : ℝ) by norm_num, Real.rpow_natCast]; norm_num
  rw [Real.rpow_zero] at a1
  rw [h4] at a2
  constructor <;> linarith

namespace Spec

/-- The level an envelope heads for: the square of the band's signal, at most 6, nothing below the gate. -/
noncomputable def level (gate y : ℝ) : ℝ := if min (y ^ 2) 6 < gate then 0 else min (y ^ 2) 6

end Spec

theorem level_range (gate y : ℝ) : 0 ≤ Spec.level gate y ∧ Spec.level gate y ≤ 6 := by
  unfold Spec.level
  have : 0 ≤ min (y ^ 2) 6 := le_min (sq_nonneg _) (by norm_num)
  split
  · constructor <;> norm_num
  · exact ⟨this, min_le_right _ _⟩

theorem follow_eq (c : BlockCfg) (e y : ℝ) : follow c e y = e + c.rate * (Spec.level c.gate y - e) := by
  unfold follow Spec.level
  simp only [← pow_two]
  by_cases h : min (y ^ 2) 6 < c.gate
  · rw [if_neg (not_le.mpr h), if_pos h]; ring
  · rw [if_pos (not_lt.mp h), if_neg h]; ring

/-- **C139.** One sample moves the envelope towards the level, never past it, so it stays between 0 and 6. -/
theorem C139_step (rate level e y : ℝ) (h0 : 0 ≤ rate) (h1 : rate ≤ 1) (he0 : 0 ≤ e) (he : e ≤ 6) :
    let c := BlockCfg.new rate level
    let t := Spec.level (level ^ 2) y
    follow c e y = e + 0.001 * (2 : ℝ) ^ (4 * rate) * (t - e) ∧ min e t ≤ follow c e y ∧ follow c e y ≤ max e t ∧ 0 ≤ follow c e y ∧ follow c e y ≤ 6 := by
  intro c t
  have hr := rate_range (level := level) h0 h1
  have hf : follow c e y = e + c.rate * (t - e) := by
    rw [follow_eq]
    simp only [c, BlockCfg.new, t, pow_two]
  have hl := level_range (level ^ 2) y
  change 0.001 ≤ c.rate ∧ c.rate ≤ 0.016 at hr
  have hmin : min e t ≤ follow c e y := by
    rw [hf]
    rcases le_total e t with h | h
    · rw [min_eq_left h]; nlinarith
    · rw [min_eq_right h]; nlinarith
  have hmax : follow c e y ≤ max e t := by
    rw [hf]
    rcases le_total e t with h | h
    · rw [max_eq_right h]; nlinarith
    · rw [max_eq_left h]; nlinarith
  exact ⟨hf, hmin, hmax, (le_min he0 hl.1).trans hmin, hmax.trans (max_le he hl.2)⟩

/-- The envelope after a list of modulator samples (already filtered). -/
noncomputable def followAll (c : BlockCfg) (e : ℝ) (ys : List ℝ) : ℝ := ys.foldl (follow c) e

/-- **C139.** While the filtered modulator keeps one level (in particular while it is below the gate: level 0), the distance of the envelope from it shrinks by the same factor with every sample. -/
theorem C139_approach (c : BlockCfg) (e t : ℝ) (ys : List ℝ) (h : ∀ y ∈ ys, Spec.level c.gate y = t) : followAll c e ys - t = (1 - c.rate) ^ ys.length * (e - t) := by
  induction ys generalizing e with
  | nil => simp [followAll]
  | cons y ys ih =>
    have := ih (follow c e y) (fun z hz => h z (by simp [hz]))
    simp only [followAll, List.foldl_cons, List.length_cons] at this ⊢
    rw [this, follow_eq, h y (by simp)]
    ring

/-- Beside C139: at the slowest rate an envelope on a full level is more than halfway there after 1000 samples. -/
example : followAll (BlockCfg.new 0 0.1) 0 (List.replicate 2 3) = 6 - 0.999 ^ 2 * 6 := by
  have := C139_approach (BlockCfg.new 0 0.1) 0 6 (List.replicate 2 3) (fun y hy => by
    rw [List.eq_of_mem_replicate hy]
    unfold Spec.level
    rw [min_eq_right (by norm_num), if_neg (by norm_num [BlockCfg.new])])
  simp only [List.length_replicate, BlockCfg.new, mul_zero, Real.rpow_zero] at this
  norm_num at this ⊢
  simp only [BlockCfg.new, mul_zero, Real.rpow_zero]
  norm_num
  linarith

/-! ## The whole effect -/

theorem band_loop (root : ℝ → ℝ) (c : BlockCfg) (x l r : ℝ) (v : Voc) (n : ℕ) :
    let m j := calcBpf (v.cMod j) (v.mod j) x
    let e j := follow c (v.env j) (m j).2
    let L j := calcBpf (v.cCar j) (v.carL j) (l * root (e j))
    let R j := calcBpf (v.cCar j) (v.carR j) (r * root (e j))
    let s := (List.range n).foldl (bandStep root c x l r) (v, 0, 0)
    s.1 = ⟨fun j => if j < n then (L j).1 else v.carL j, fun j => if j < n then (R j).1 else v.carR j, fun j => if j < n then (m j).1 else v.mod j, fun j => if j < n then e j else v.env j, v.cCar, v.cMod, v.active⟩ ∧
    s.2.1 = ∑ j ∈ Finset.range n, (L j).2 ∧ s.2.2 = ∑ j ∈ Finset.range n, (R j).2 := by
  intro m e L R s
  induction n with
  | zero => simp [s]
  | succ n ih =>
    simp only at ih
    obtain ⟨h1, h2, h3⟩ := ih
    have es : s = bandStep root c x l r ((List.range n).foldl (bandStep root c x l r) (v, 0, 0)) n := by
      simp only [s, List.range_succ, List.foldl_append, List.foldl_cons, List.foldl_nil]
    rw [es]
    set t := (List.range n).foldl (bandStep root c x l r) (v, 0, 0) with ht
    have upd : ∀ {α : Type} (f g : ℕ → α), Function.update (fun j => if j < n then f j else g j) n (f n) = fun j => if j < n + 1 then f j else g j := by
      intro α f g
      funext j
      by_cases h : j = n
      · subst h; simp
      · rw [Function.update_of_ne h]
        by_cases h' : j < n
        · rw [if_pos h', if_pos (by omega)]
        · rw [if_neg h', if_neg (by omega)]
    simp only [bandStep, h2, h3, h1, lt_self_iff_false, if_false, Finset.sum_range_succ]
    refine ⟨?_, rfl, rfl⟩
    rw [← upd (fun j => (L j).1), ← upd (fun j => (R j).1), ← upd (fun j => (m j).1), ← upd e]

/-- Successive samples with one configuration; the input is modulator, left, right. -/
noncomputable def run (root : ℝ → ℝ) (c : BlockCfg) (v : Voc) (x : ℕ → ℝ × ℝ × ℝ) : ℕ → Voc
  | 0 => v
  | n + 1 => (sample root c (run root c v x n) (x n).1 (x n).2.1 (x n).2.2).1

/-- What is put out for sample `n`. -/
noncomputable def out (root : ℝ → ℝ) (c : BlockCfg) (v : Voc) (x : ℕ → ℝ × ℝ × ℝ) (n : ℕ) : ℝ × ℝ := (sample root c (run root c v x n) (x n).1 (x n).2.1 (x n).2.2).2

theorem run_const (root : ℝ → ℝ) (c : BlockCfg) (v : Voc) (x : ℕ → ℝ × ℝ × ℝ) (n : ℕ) : (run root c v x n).cCar = v.cCar ∧ (run root c v x n).cMod = v.cMod ∧ (run root c v x n).active = v.active := by
  induction n with
  | zero => exact ⟨rfl, rfl, rfl⟩
  | succ n ih =>
    have := (band_loop root c (x n).1 (x n).2.1 (x n).2.2 (run root c v x n) (4 * ((run root c v x n).active / 4))).1
    simp only [run, sample]
    rw [this]
    exact ih

/-- The gain of band `j` at sample `n`. -/
noncomputable def gainAt (root : ℝ → ℝ) (c : BlockCfg) (v : Voc) (x : ℕ → ℝ × ℝ × ℝ) (j n : ℕ) : ℝ := root ((run root c v x (n + 1)).env j)

theorem run_band (root : ℝ → ℝ) (c : BlockCfg) (v : Voc) (x : ℕ → ℝ × ℝ × ℝ) (j : ℕ) (hj : j < 4 * (v.active / 4)) (n : ℕ) :
    (run root c v x n).mod j = bandRun (v.cMod j) (v.mod j) (fun k => (x k).1) n ∧
    (run root c v x (n + 1)).env j = follow c ((run root c v x n).env j) (bandOut (v.cMod j) (v.mod j) (fun k => (x k).1) n) ∧
    (run root c v x n).carL j = bandRun (v.cCar j) (v.carL j) (fun k => (x k).2.1 * gainAt root c v x j k) n ∧
    (run root c v x n).carR j = bandRun (v.cCar j) (v.carR j) (fun k => (x k).2.2 * gainAt root c v x j k) n := by
  have step : ∀ n, (run root c v x (n + 1)).mod j = (calcBpf (v.cMod j) ((run root c v x n).mod j) (x n).1).1 ∧
      (run root c v x (n + 1)).env j = follow c ((run root c v x n).env j) (calcBpf (v.cMod j) ((run root c v x n).mod j) (x n).1).2 ∧
      (run root c v x (n + 1)).carL j = (calcBpf (v.cCar j) ((run root c v x n).carL j) ((x n).2.1 * gainAt root c v x j n)).1 ∧
      (run root c v x (n + 1)).carR j = (calcBpf (v.cCar j) ((run root c v x n).carR j) ((x n).2.2 * gainAt root c v x j n)).1 := by
    intro n
    obtain ⟨k1, k2, k3⟩ := run_const root c v x n
    have e := (band_loop root c (x n).1 (x n).2.1 (x n).2.2 (run root c v x n) (4 * ((run root c v x n).active / 4))).1
    change run root c v x (n + 1) = _ at e
    rw [k3] at e
    have he : (run root c v x (n + 1)).env j = follow c ((run root c v x n).env j) (calcBpf (v.cMod j) ((run root c v x n).mod j) (x n).1).2 := by
      rw [e]; simp only [if_pos hj, k2]
    refine ⟨by rw [e]; simp only [if_pos hj, k2], he, ?_, ?_⟩
    · unfold gainAt; rw [he, e]; simp only [if_pos hj, k1, k2]
    · unfold gainAt; rw [he, e]; simp only [if_pos hj, k1, k2]
  have hm : ∀ n, (run root c v x n).mod j = bandRun (v.cMod j) (v.mod j) (fun k => (x k).1) n := by
    intro n
    induction n with
    | zero => rfl
    | succ n ih => rw [(step n).1, ih]; rfl
  refine ⟨hm n, by rw [(step n).2.1, hm n]; rfl, ?_, ?_⟩
  · induction n with
    | zero => rfl
    | succ n ih => rw [(step n).2.2.1, ih]; rfl
  · induction n with
    | zero => rfl
    | succ n ih => rw [(step n).2.2.2, ih]; rfl

/-- **C140.** What comes out: the sum over the active bands of the carrier, multiplied by the band's gain and passed through the band's filter, four times. -/
theorem C140_output (root : ℝ → ℝ) (c : BlockCfg) (v : Voc) (x : ℕ → ℝ × ℝ × ℝ) (n : ℕ) :
    out root c v x n = (4 * ∑ j ∈ Finset.range (4 * (v.active / 4)), bandOut (v.cCar j) (v.carL j) (fun k => (x k).2.1 * gainAt root c v x j k) n,
      4 * ∑ j ∈ Finset.range (4 * (v.active / 4)), bandOut (v.cCar j) (v.carR j) (fun k => (x k).2.2 * gainAt root c v x j k) n) := by
  obtain ⟨k1, k2, k3⟩ := run_const root c v x n
  obtain ⟨b1, b2, b3⟩ := band_loop root c (x n).1 (x n).2.1 (x n).2.2 (run root c v x n) (4 * ((run root c v x n).active / 4))
  unfold out sample
  simp only
  rw [b2, b3, k3]
  ext
  · simp only
    rw [mul_comm]
    congr 1
    refine Finset.sum_congr rfl fun j hj => ?_
    obtain ⟨h1, h2, h3, h4⟩ := run_band root c v x j (Finset.mem_range.mp hj) n
    unfold bandOut
    rw [← h3, k1, k2]
    unfold gainAt
    simp only
    rw [h2, h1]; rfl
  · simp only
    rw [mul_comm]
    congr 1
    refine Finset.sum_congr rfl fun j hj => ?_
    obtain ⟨h1, h2, h3, h4⟩ := run_band root c v x j (Finset.mem_range.mp hj) n
    unfold bandOut
    rw [← h4, k1, k2]
    unfold gainAt
    simp only
    rw [h2, h1]; rfl

/-- What `v_sqrt_fast` must satisfy (surge-math/src/square.rs 3-8: two hardware approximations, each within a relative error). -/
def Spec.Root (ε : ℝ) (root : ℝ → ℝ) : Prop := ∀ a, 0 ≤ a → |root a - Real.sqrt a| ≤ ε * Real.sqrt a

theorem root_le {ε : ℝ} {root : ℝ → ℝ} (h : Spec.Root ε root) {a b : ℝ} (ha : 0 ≤ a) (hab : a ≤ b ^ 2) (hb : 0 ≤ b) (hε : 0 ≤ ε) : |root a| ≤ (1 + ε) * b := by
  have h1 := h a ha
  have h2 : Real.sqrt a ≤ b := by rw [Real.sqrt_le_left hb]; exact hab
  have h3 := Real.sqrt_nonneg a
  have h4 : |root a| ≤ |root a - Real.sqrt a| + |Real.sqrt a| := by
    have := abs_add_le (root a - Real.sqrt a) (Real.sqrt a)
    simpa using this
  rw [abs_of_nonneg h3] at h4
  nlinarith

theorem env_range {root : ℝ → ℝ} {rate level : ℝ} (h0 : 0 ≤ rate) (h1 : rate ≤ 1) {v : Voc} {j : ℕ} (hj : j < 4 * (v.active / 4)) (hv : 0 ≤ v.env j ∧ v.env j ≤ 6)
    (x : ℕ → ℝ × ℝ × ℝ) (n : ℕ) : 0 ≤ (run root (BlockCfg.new rate level) v x n).env j ∧ (run root (BlockCfg.new rate level) v x n).env j ≤ 6 := by
  induction n with
  | zero => exact hv
  | succ n ih =>
    rw [(run_band root _ v x j hj n).2.1]
    exact (C139_step rate level _ _ h0 h1 ih.1 ih.2).2.2.2

/-- **C140.** Whatever the modulator does (even if it is not bounded), a bounded carrier comes out bounded. -/
theorem C140_bounded {ε : ℝ} (hε : 0 ≤ ε) {root : ℝ → ℝ} (hr : Spec.Root ε root) {rate level : ℝ} (h0 : 0 ≤ rate) (h1 : rate ≤ 1) (v : Voc)
    (hv : ∀ j, 0 ≤ v.env j ∧ v.env j ≤ 6) (hs : ∀ j, j < v.active → Spec.StableBand (v.cCar j)) :
    ∃ K, 0 < K ∧ ∀ (x : ℕ → ℝ × ℝ × ℝ) (B : ℝ), (∀ k, |(x k).2.1| ≤ B ∧ |(x k).2.2| ≤ B) →
      ∀ n, |(out root (BlockCfg.new rate level) v x n).1| ≤ K * (1 + B) ∧ |(out root (BlockCfg.new rate level) v x n).2| ≤ K * (1 + B) := by
  have hk : ∀ j, ∃ K, 0 ≤ K ∧ (j < 4 * (v.active / 4) → ∀ (x : ℕ → ℝ × ℝ × ℝ) (B : ℝ), (∀ k, |(x k).2.1| ≤ B ∧ |(x k).2.2| ≤ B) → ∀ n,
      |bandOut (v.cCar j) (v.carL j) (fun k => (x k).2.1 * gainAt root (BlockCfg.new rate level) v x j k) n| ≤ K * (1 + B) ∧
      |bandOut (v.cCar j) (v.carR j) (fun k => (x k).2.2 * gainAt root (BlockCfg.new rate level) v x j k) n| ≤ K * (1 + B)) := by
    intro j
    by_cases hj : j < 4 * (v.active / 4)
    · obtain ⟨K, K0, hK⟩ := C138_bounded (hs j (by omega))
      have s1 : 0 ≤ (v.carL j).size := by simp only [Band.size]; positivity
      have s2 : 0 ≤ (v.carR j).size := by simp only [Band.size]; positivity
      refine ⟨K * ((v.carL j).size + (v.carR j).size + (1 + ε) * 3), by positivity, fun _ x B hx n => ?_⟩
      have hB : 0 ≤ B := (abs_nonneg _).trans (hx 0).1
      have hg : ∀ k, |gainAt root (BlockCfg.new rate level) v x j k| ≤ (1 + ε) * 3 := by
        intro k
        have := env_range (root := root) (level := level) h0 h1 hj (hv j) x (k + 1)
        exact root_le hr this.1 (by linarith) (by norm_num) hε
      have hm : ∀ a g : ℝ, |a| ≤ B → |g| ≤ (1 + ε) * 3 → |a * g| ≤ (1 + ε) * 3 * B := by
        intro a g ha hg
        rw [abs_mul, mul_comm]
        exact mul_le_mul hg ha (abs_nonneg _) (by positivity)
      constructor
      · refine (hK _ _ ((1 + ε) * 3 * B) n (fun k _ => hm _ _ (hx k).1 (hg k))).trans ?_
        rw [mul_assoc K]
        refine mul_le_mul_of_nonneg_left ?_ K0.le
        nlinarith [mul_nonneg s1 hB, mul_nonneg s2 hB]
      · refine (hK _ _ ((1 + ε) * 3 * B) n (fun k _ => hm _ _ (hx k).2 (hg k))).trans ?_
        rw [mul_assoc K]
        refine mul_le_mul_of_nonneg_left ?_ K0.le
        nlinarith [mul_nonneg s1 hB, mul_nonneg s2 hB]
    · exact ⟨0, le_refl _, fun h => absurd h hj⟩
  choose K K0 hK using hk
  have hS : 0 ≤ ∑ j ∈ Finset.range (4 * (v.active / 4)), K j := Finset.sum_nonneg fun j _ => K0 j
  refine ⟨4 * (∑ j ∈ Finset.range (4 * (v.active / 4)), K j) + 1, by positivity, fun x B hx n => ?_⟩
  have hB : 0 ≤ B := (abs_nonneg _).trans (hx 0).1
  have fin : ∀ y : ℕ → ℝ, (∀ j, j < 4 * (v.active / 4) → |y j| ≤ K j * (1 + B)) →
      |4 * ∑ j ∈ Finset.range (4 * (v.active / 4)), y j| ≤ (4 * (∑ j ∈ Finset.range (4 * (v.active / 4)), K j) + 1) * (1 + B) := by
    intro y hy
    rw [abs_mul, abs_of_pos (by norm_num : (0 : ℝ) < 4)]
    have a1 := Finset.abs_sum_le_sum_abs y (Finset.range (4 * (v.active / 4)))
    have a2 : ∑ j ∈ Finset.range (4 * (v.active / 4)), |y j| ≤ ∑ j ∈ Finset.range (4 * (v.active / 4)), K j * (1 + B) :=
      Finset.sum_le_sum fun j hj => hy j (Finset.mem_range.mp hj)
    rw [← Finset.sum_mul] at a2
    nlinarith
  rw [C140_output]
  exact ⟨fin _ fun j hj => (hK j hj x B hx n).1, fin _ fun j hj => (hK j hj x B hx n).2⟩

/-- **C140.** When the modulator dies away, so does the output, however long the carrier goes on. -/
theorem C140_silent_modulator {ε : ℝ} (hε : 0 ≤ ε) {root : ℝ → ℝ} (hr : Spec.Root ε root) {rate level : ℝ} (h0 : 0 ≤ rate) (h1 : rate ≤ 1) (v : Voc)
    (hv : ∀ j, 0 ≤ v.env j ∧ v.env j ≤ 6) (hs : ∀ j, j < v.active → Spec.StableBand (v.cCar j) ∧ Spec.StableBand (v.cMod j))
    (x : ℕ → ℝ × ℝ × ℝ) {B : ℝ} (hx : ∀ k, |(x k).2.1| ≤ B ∧ |(x k).2.2| ≤ B) (hm : Spec.Dies fun k => (x k).1) :
    Spec.Dies (fun n => (out root (BlockCfg.new rate level) v x n).1) ∧ Spec.Dies (fun n => (out root (BlockCfg.new rate level) v x n).2) := by
  set c := BlockCfg.new rate level with hc
  have hB : 0 ≤ B := (abs_nonneg _).trans (hx 0).1
  have hrate := rate_range (level := level) h0 h1
  rw [← hc] at hrate
  -- the gain of every band dies away
  have gain : ∀ j, j < 4 * (v.active / 4) → Spec.Dies (gainAt root c v x j) := by
    intro j hj δ hδ
    have dm := C138_dies (hs j (by omega)).2 (v.mod j) hm
    -- the envelope as a driven system
    have env : ∀ n, ((run root c v x n).env j, (0 : ℝ)) = driven ⟨1 - c.rate, 0, 0, 0⟩ (c.rate, 0) (v.env j, 0) (fun n => Spec.level c.gate (bandOut (v.cMod j) (v.mod j) (fun k => (x k).1) n)) n := by
      intro n
      induction n with
      | zero => rfl
      | succ n ih =>
        simp only [driven, ← ih]
        rw [(run_band root c v x j hj n).2.1, follow_eq]
        simp only [M2.act]
        ext <;> simp; ring
    have lev : ∀ η > 0, ∃ N, ∀ n ≥ N, |Spec.level c.gate (bandOut (v.cMod j) (v.mod j) (fun k => (x k).1) n)| ≤ η := by
      intro η hη
      obtain ⟨N, hN⟩ := dm (min 1 η) (lt_min one_pos hη)
      refine ⟨N, fun n hn => ?_⟩
      have := hN n hn
      set y := bandOut (v.cMod j) (v.mod j) (fun k => (x k).1) n
      have hy : y ^ 2 ≤ η := by
        have h1 := le_min_iff.mp this
        rw [← sq_abs]
        nlinarith [abs_nonneg y]
      rw [abs_of_nonneg (level_range _ _).1]
      unfold Spec.level
      split
      · exact hη.le
      · exact (min_le_left _ _).trans hy
    have det : |(⟨1 - c.rate, 0, 0, 0⟩ : M2).det| < 1 := by simp [M2.det]
    have tr : |(⟨1 - c.rate, 0, 0, 0⟩ : M2).tr| < 1 + (⟨1 - c.rate, 0, 0, 0⟩ : M2).det := by
      simp only [M2.det, M2.tr]
      rw [abs_lt]
      constructor <;> linarith
    obtain ⟨N, hN⟩ := driven_tendsto det tr (c.rate, 0) (v.env j, 0) lev ((δ / (1 + ε)) ^ 2) (by positivity)
    refine ⟨N, fun n hn => ?_⟩
    have := hN (n + 1) (by omega)
    rw [← env] at this
    simp only [size, abs_zero, add_zero] at this
    have e0 := env_range (root := root) (level := level) h0 h1 hj (hv j) x (n + 1)
    rw [← hc] at e0
    have := root_le hr e0.1 ((le_abs_self _).trans this) (by positivity) hε
    refine this.trans (le_of_eq ?_)
    field_simp
  have prod : ∀ j, j < 4 * (v.active / 4) → Spec.Dies (fun k => (x k).2.1 * gainAt root c v x j k) ∧ Spec.Dies (fun k => (x k).2.2 * gainAt root c v x j k) := by
    intro j hj
    have hh : ∀ δ > 0, ∃ N, ∀ n ≥ N, ∀ a : ℝ, |a| ≤ B → |a * gainAt root c v x j n| ≤ δ := by
      intro δ hδ
      obtain ⟨N, hN⟩ := gain j hj (δ / (B + 1)) (by positivity)
      refine ⟨N, fun n hn a ha => ?_⟩
      rw [abs_mul]
      calc |a| * |gainAt root c v x j n| ≤ (B + 1) * (δ / (B + 1)) := mul_le_mul (by linarith) (hN n hn) (abs_nonneg _) (by linarith)
        _ = δ := by field_simp
    constructor
    · intro δ hδ
      obtain ⟨N, hN⟩ := hh δ hδ
      exact ⟨N, fun n hn => hN n hn _ (hx n).1⟩
    · intro δ hδ
      obtain ⟨N, hN⟩ := hh δ hδ
      exact ⟨N, fun n hn => hN n hn _ (hx n).2⟩
  have fin : ∀ (m : ℕ) (y : ℕ → ℕ → ℝ), (∀ j, j < m → Spec.Dies (y j)) → Spec.Dies (fun n => ∑ j ∈ Finset.range m, y j n) := by
    intro m
    induction m with
    | zero => intro y _ δ hδ; exact ⟨0, fun n _ => by simpa using hδ.le⟩
    | succ m ih =>
      intro y hy δ hδ
      obtain ⟨N1, a1⟩ := ih y (fun j hj => hy j (by omega)) (δ / 2) (by positivity)
      obtain ⟨N2, a2⟩ := hy m (by omega) (δ / 2) (by positivity)
      refine ⟨max N1 N2, fun n hn => ?_⟩
      simp only [Finset.sum_range_succ]
      have b1 := a1 n ((le_max_left _ _).trans hn)
      have b2 := a2 n ((le_max_right _ _).trans hn)
      exact (abs_add_le _ _).trans (by linarith)
  have four : ∀ y : ℕ → ℝ, Spec.Dies y → Spec.Dies (fun n => 4 * y n) := by
    intro y hy δ hδ
    obtain ⟨N, hN⟩ := hy (δ / 4) (by positivity)
    refine ⟨N, fun n hn => ?_⟩
    rw [abs_mul, abs_of_pos (by norm_num : (0 : ℝ) < 4)]
    linarith [hN n hn]
  have eq := fun n => C140_output root c v x n
  constructor
  · have := four _ (fin (4 * (v.active / 4)) (fun j n => bandOut (v.cCar j) (v.carL j) (fun k => (x k).2.1 * gainAt root c v x j k) n)
      (fun j hj => C138_dies (hs j (by omega)).1 _ (prod j hj).1))
    intro δ hδ
    obtain ⟨N, hN⟩ := this δ hδ
    refine ⟨N, fun n hn => ?_⟩
    simp only [eq]; exact hN n hn
  · have := four _ (fin (4 * (v.active / 4)) (fun j n => bandOut (v.cCar j) (v.carR j) (fun k => (x k).2.2 * gainAt root c v x j k) n)
      (fun j hj => C138_dies (hs j (by omega)).1 _ (prod j hj).2))
    intro δ hδ
    obtain ⟨N, hN⟩ := this δ hδ
    refine ⟨N, fun n hn => ?_⟩
    simp only [eq]; exact hN n hn

/-! ## Linear in the carrier, the same for both sides -/

theorem bandOut_linear (c : Coef) (s t u : Band) (a b : ℝ) (hu : u.l1 = a * s.l1 + b * t.l1 ∧ u.b1 = a * s.b1 + b * t.b1 ∧ u.l2 = a * s.l2 + b * t.l2 ∧ u.b2 = a * s.b2 + b * t.b2)
    (x y : ℕ → ℝ) (n : ℕ) : bandOut c u (fun k => a * x k + b * y k) n = a * bandOut c s x n + b * bandOut c t y n := by
  have : ∀ n, let r := bandRun c u (fun k => a * x k + b * y k) n
      let p := bandRun c s x n
      let q := bandRun c t y n
      r.l1 = a * p.l1 + b * q.l1 ∧ r.b1 = a * p.b1 + b * q.b1 ∧ r.l2 = a * p.l2 + b * q.l2 ∧ r.b2 = a * p.b2 + b * q.b2 := by
    intro n
    induction n with
    | zero => exact hu
    | succ n ih =>
      obtain ⟨h1, h2, h3, h4⟩ := ih
      simp only [bandRun, calcBpf, h1, h2, h3, h4]
      refine ⟨by ring, by ring, by ring, by ring⟩
  rw [bandOut_eq, bandOut_eq, bandOut_eq]
  exact (this (n + 1)).2.2.2

theorem gain_carrier (root : ℝ → ℝ) (c : BlockCfg) (v w : Voc) (hw : w.mod = v.mod ∧ w.env = v.env ∧ w.cMod = v.cMod ∧ w.active = v.active) (x y : ℕ → ℝ × ℝ × ℝ) (h : ∀ k, (y k).1 = (x k).1)
    (j : ℕ) (hj : j < 4 * (v.active / 4)) (n : ℕ) : gainAt root c w y j n = gainAt root c v x j n := by
  obtain ⟨a1, a2, a3, a4⟩ := hw
  have : ∀ n, (run root c w y n).env j = (run root c v x n).env j := by
    intro n
    induction n with
    | zero => simp only [run, a2]
    | succ n ih => rw [(run_band root c v x j hj n).2.1, (run_band root c w y j (by rw [a4]; exact hj) n).2.1, ih, a1, a3, funext h]
  unfold gainAt
  rw [this]

/-- **C140.** With one modulator signal, the vocoder is linear in the carrier: the output for a mixture of two carriers (starting from filters holding nothing) is the mixture of the outputs. -/
theorem C140_linear (root : ℝ → ℝ) (c : BlockCfg) (v : Voc) (hv : ∀ j, v.carL j = .zero ∧ v.carR j = .zero) (m l r l' r' : ℕ → ℝ) (a b : ℝ) (n : ℕ) :
    out root c v (fun k => (m k, a * l k + b * l' k, a * r k + b * r' k)) n =
      (a * (out root c v (fun k => (m k, l k, r k)) n).1 + b * (out root c v (fun k => (m k, l' k, r' k)) n).1,
       a * (out root c v (fun k => (m k, l k, r k)) n).2 + b * (out root c v (fun k => (m k, l' k, r' k)) n).2) := by
  rw [C140_output, C140_output, C140_output]
  have hz : ∀ s : Band, s = .zero → s.l1 = a * s.l1 + b * s.l1 ∧ s.b1 = a * s.b1 + b * s.b1 ∧ s.l2 = a * s.l2 + b * s.l2 ∧ s.b2 = a * s.b2 + b * s.b2 := by
    rintro s rfl; simp [Band.zero]
  have g1 : ∀ j, j < 4 * (v.active / 4) → ∀ k, gainAt root c v (fun k => (m k, a * l k + b * l' k, a * r k + b * r' k)) j k = gainAt root c v (fun k => (m k, l k, r k)) j k :=
    fun j hj k => gain_carrier root c v v ⟨rfl, rfl, rfl, rfl⟩ _ _ (by intro k; rfl) j hj k
  have g2 : ∀ j, j < 4 * (v.active / 4) → ∀ k, gainAt root c v (fun k => (m k, l' k, r' k)) j k = gainAt root c v (fun k => (m k, l k, r k)) j k :=
    fun j hj k => gain_carrier root c v v ⟨rfl, rfl, rfl, rfl⟩ _ _ (by intro k; rfl) j hj k
  have main : ∀ (car : ℕ → Band) (p q : ℕ → ℝ), (∀ j, car j = .zero) →
      4 * ∑ j ∈ Finset.range (4 * (v.active / 4)), bandOut (v.cCar j) (car j) (fun k => (a * p k + b * q k) * gainAt root c v (fun k => (m k, a * l k + b * l' k, a * r k + b * r' k)) j k) n =
      a * (4 * ∑ j ∈ Finset.range (4 * (v.active / 4)), bandOut (v.cCar j) (car j) (fun k => p k * gainAt root c v (fun k => (m k, l k, r k)) j k) n) +
      b * (4 * ∑ j ∈ Finset.range (4 * (v.active / 4)), bandOut (v.cCar j) (car j) (fun k => q k * gainAt root c v (fun k => (m k, l' k, r' k)) j k) n) := by
    intro car p q hcar
    rw [mul_left_comm a, mul_left_comm b, ← mul_add, Finset.mul_sum _ _ a, Finset.mul_sum _ _ b, ← Finset.sum_add_distrib]
    congr 1
    refine Finset.sum_congr rfl fun j hj => ?_
    have hj' := Finset.mem_range.mp hj
    rw [← bandOut_linear (v.cCar j) (car j) (car j) (car j) a b (hz _ (hcar j))]
    congr 1
    funext k
    rw [g1 j hj', g2 j hj']
    ring
  ext
  · exact main v.carL l l' fun j => (hv j).1
  · exact main v.carR r r' fun j => (hv j).2

/-- **C140.** The two sides are treated alike: with the sides of the carrier and of the filters exchanged, the outputs are exchanged. -/
theorem C140_sides (root : ℝ → ℝ) (c : BlockCfg) (v : Voc) (m l r : ℕ → ℝ) (n : ℕ) :
    out root c { v with carL := v.carR, carR := v.carL } (fun k => (m k, r k, l k)) n = (out root c v (fun k => (m k, l k, r k)) n).swap := by
  rw [C140_output, C140_output]
  have g : ∀ j, j < 4 * (v.active / 4) → ∀ k, gainAt root c { v with carL := v.carR, carR := v.carL } (fun k => (m k, r k, l k)) j k = gainAt root c v (fun k => (m k, l k, r k)) j k :=
    fun j hj k => gain_carrier root c v { v with carL := v.carR, carR := v.carL } ⟨rfl, rfl, rfl, rfl⟩ _ _ (by intro k; rfl) j hj k
  ext
  · simp only [Prod.fst_swap]
    congr 1
    refine Finset.sum_congr rfl fun j hj => ?_
    congr 1
    funext k
    rw [g j (Finset.mem_range.mp hj)]
  · simp only [Prod.snd_swap]
    congr 1
    refine Finset.sum_congr rfl fun j hj => ?_
    congr 1
    funext k
    rw [g j (Finset.mem_range.mp hj)]

/-- Beside C138 and C140: the vocoder as the engine starts it, at 48 kHz with the default settings, meets the hypotheses. -/
example : let v := Voc.new.update ⟨0, -3, 49, 0, 0, 20, 1 / 48000⟩
    (∀ j, 0 ≤ v.env j ∧ v.env j ≤ 6) ∧ v.active = 20 ∧ (∀ j, j < v.active → Spec.StableBand (v.cCar j) ∧ Spec.StableBand (v.cMod j)) ∧ Spec.Root 0 Real.sqrt := by
  intro v
  have hp : Spec.InRange ⟨0, -3, 49, 0, 0, 20, 1 / 48000⟩ := ⟨by norm_num, by norm_num, by norm_num, by norm_num, by norm_num, by norm_num⟩
  obtain ⟨h1, h2, h3, h4, h5, h6, h7⟩ := C137_bands Voc.new _ hp.bands.1
  refine ⟨fun j => ?_, h1, fun j hj => C138_stable Voc.new _ hp (by norm_num) (by norm_num) j hj, fun a ha => by simp⟩
  change 0 ≤ (Voc.new.update _).env j ∧ _
  rw [h7]; norm_num [Voc.new]

end Verif.Vocoder
