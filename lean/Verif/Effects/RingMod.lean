import Verif.Dsp.Fast
import Mathlib.Analysis.SpecialFunctions.Pow.Real
import Mathlib.Analysis.SpecialFunctions.Trigonometric.Bounds
import Mathlib.Data.Real.Sqrt
import Mathlib.Algebra.BigOperators.Fin
import Mathlib.Algebra.Order.Archimedean.Basic
/-!
# The ring modulator (C144–C146), in exact real arithmetic

Not modelled: rounding, the half-band filters before and after, the two cut filters after it (C94–C99, C108–C112 are about those),
and the tuning table that turns the carrier parameter into a phase step.
-/
namespace Verif.Effects.RingMod
open Verif.Dsp.Fast

/-- surgefx-ringmod/src/diode_sim.rs 5-28: `diode_sim`, with the two parameters explicit (`h = 1`). -/
noncomputable def diode (bias linear : ℝ) (v : ℝ) : ℝ :=
  let linear := max linear (bias + 0.02)
  if v < bias then 0
  else if v < linear then (v - bias) * (v - bias) / (2 * linear - 2 * bias)
  else v - linear + (linear - bias) * (linear - bias) / (2 * linear - 2 * bias)

/-- process.rs 113-121: the four diodes for one input sample and one carrier value. -/
noncomputable def ring (bias linear vin vc : ℝ) : ℝ :=
  let a := 0.5 * vin + vc
  let b := vc - 0.5 * vin
  diode bias linear a + diode bias linear (-a) - diode bias linear b - diode bias linear (-b)

/-- surgeosc-sine/src/compute.rs 5-79: `value_from_sin_and_cos`. -/
noncomputable def carrier (s c : ℝ) (shape : ℤ) : ℝ :=
  let q : ℕ := if 0 < s then (if 0 < c then 1 else 2) else (if 0 < c then 4 else 3)
  if shape = 1 then 2 * (if q = 3 ∨ q = 4 then 0 else s) - 1
  else if shape = 2 then (if q = 1 ∨ q = 3 then 0 else s)
  else if shape = 3 then (if q = 2 ∨ q = 4 then 0 else s)
  else if shape = 4 then (if q = 1 then 1 - c else if q = 2 then 1 + c else if q = 3 then -1 - c else -1 + c)
  else if shape = 5 then 2 * (if q = 1 then 1 - c else if q = 2 then 1 + c else 0) - 1
  else if shape = 6 then (if q ≤ 2 then 2 * s * c else 0)
  else if shape = 7 then (if q = 2 ∨ q = 3 then -(2 * s * c) else 2 * s * c)
  else if shape = 8 then (if q = 2 ∨ q = 4 then 0 else if q = 3 then -(2 * s * c) else 2 * s * c)
  else s

/-- One carrier of the unison: ringmod.rs 15-19. -/
structure Carrier where
  phase : ℝ
  detune : ℝ
  panL : ℝ
  panR : ℝ

/-- update.rs 4-26: `update_unison_settings`, the carriers `0 .. n`. -/
noncomputable def unison (n : ℕ) (u : ℕ) : Carrier :=
  if n = 1 then ⟨0, 0, 1, 1⟩
  else ⟨u * 1 / n, -1 + 2 / ((n : ℝ) - 1) * u, u / ((n : ℝ) - 1), ((n : ℝ) - 1 - u) / ((n : ℝ) - 1)⟩

/-- process.rs 82-86: the carrier value at a phase. -/
noncomputable def value (phase : ℝ) (shape : ℤ) : ℝ :=
  carrier (fastsin (2 * Real.pi * (phase - 0.5))) (fastcos (2 * Real.pi * (phase - 0.5))) shape

/-- process.rs 88-93: the phase after one (oversampled) sample. The subtrahend is the phase itself, as in the code. -/
noncomputable def advance (phase dphase : ℝ) : ℝ :=
  let p := phase + dphase
  if p > 1 then p - p else p

/-- process.rs 33: the gain for `n` carriers. -/
noncomputable def gscale (n : ℕ) : ℝ := 0.4 + 0.6 * (1 / Real.sqrt n)

/-- process.rs 144-145: the saturation. -/
noncomputable def saturate (x : ℝ) : ℝ := 1.5 * x - 0.5 * x * x * x

/-- process.rs 72-145: one oversampled stereo sample for the carriers `cs` (phase as it is before the advance). The results for both input channels go to both output channels. -/
noncomputable def sample (bias linear mix : ℝ) (shape : ℤ) (n : ℕ) (cs : ℕ → Carrier) (l r : ℝ) : ℝ × ℝ :=
  let both (u : ℕ) := ring bias linear l (value (cs u).phase shape) + ring bias linear r (value (cs u).phase shape)
  let resL := ∑ u ∈ Finset.range n, both u * (cs u).panL
  let resR := ∑ u ∈ Finset.range n, both u * (cs u).panR
  (saturate (gscale n * (mix * resL + (1 - mix) * l)), saturate (gscale n * (mix * resR + (1 - mix) * r)))

/-! ## The diode -/

section
variable {bias linear : ℝ}

theorem diode_below {v : ℝ} (h : v ≤ bias) : diode bias linear v = 0 := by
  unfold diode
  rcases h.lt_or_eq with h | h
  · simp [h]
  · have : v < max linear (bias + 0.02) := lt_max_of_lt_right (by rw [h]; norm_num)
    simp only [h, lt_irrefl, if_false, sub_self, mul_zero, zero_div]
    rw [if_pos (h ▸ this)]

/-- The characteristic as one formula: half the square of the part inside the knee, plus the part beyond it. -/
theorem diode_eq (v : ℝ) : diode bias linear v =
    (max 0 (min v (max linear (bias + 0.02)) - bias)) ^ 2 / (2 * (max linear (bias + 0.02) - bias)) + max 0 (v - max linear (bias + 0.02)) := by
  set L := max linear (bias + 0.02) with hL
  have hb : bias + 0.02 ≤ L := le_max_right _ _
  have hb' : bias < L := by norm_num at hb; linarith
  simp only [diode]
  rw [← hL]
  have e : 2 * L - 2 * bias = 2 * (L - bias) := by ring
  by_cases h1 : v < bias
  · rw [if_pos h1, min_eq_left (by linarith), max_eq_left (by linarith), max_eq_left (by linarith)]; simp
  · push Not at h1
    rw [if_neg (not_lt.2 h1)]
    by_cases h2 : v < L
    · rw [if_pos h2, min_eq_left h2.le, max_eq_right (by linarith), max_eq_left (by linarith), e, add_zero]; ring
    · push Not at h2
      rw [if_neg (not_lt.2 h2), min_eq_right h2, max_eq_right (by linarith), max_eq_right (by linarith), e]; ring

/-- Slopes between 0 and 1. -/
theorem diode_slope {v w : ℝ} (h : v ≤ w) : 0 ≤ diode bias linear w - diode bias linear v ∧ diode bias linear w - diode bias linear v ≤ w - v := by
  rw [diode_eq, diode_eq]
  have hb' : bias < max linear (bias + 0.02) := lt_max_of_lt_right (by norm_num)
  generalize max linear (bias + 0.02) = L at *
  have hd : 0 < L - bias := by linarith
  have key : ∀ p q : ℝ, 0 ≤ p → p ≤ q → q ≤ L - bias → 0 ≤ q ^ 2 / (2 * (L - bias)) - p ^ 2 / (2 * (L - bias)) ∧ q ^ 2 / (2 * (L - bias)) - p ^ 2 / (2 * (L - bias)) ≤ q - p := by
    intro p q hp hpq hq
    rw [← sub_div]
    constructor
    · apply div_nonneg <;> nlinarith
    · rw [div_le_iff₀ (by linarith)]; nlinarith
  set p := max 0 (min v L - bias)
  set q := max 0 (min w L - bias)
  have hp : 0 ≤ p := le_max_left _ _
  have hpq : p ≤ q := max_le_max_left _ (by linarith [min_le_min_right L h])
  have hq : q ≤ L - bias := max_le hd.le (by linarith [min_le_right w L])
  obtain ⟨k1, k2⟩ := key p q hp hpq hq
  have m1 : max 0 (v - L) ≤ max 0 (w - L) := max_le_max_left _ (by linarith)
  have m2 : q - p + (max 0 (w - L) - max 0 (v - L)) ≤ w - v := by
    simp only [p, q]
    rcases le_total v L with a | a <;> rcases le_total w L with b | b <;>
      simp only [a, b, min_eq_left, min_eq_right]
    · rw [max_eq_left (by linarith : w - L ≤ 0), max_eq_left (by linarith : v - L ≤ 0)]
      rcases le_total 0 (w - bias) with c | c
      · rw [max_eq_right c]; have := le_max_right 0 (v - bias); linarith
      · rw [max_eq_left c]; have := le_max_left 0 (v - bias); linarith
    · rw [max_eq_right (by linarith : (0 : ℝ) ≤ w - L), max_eq_left (by linarith : v - L ≤ 0), max_eq_right hd.le]
      have := le_max_right 0 (v - bias); linarith
    · rw [max_eq_left (by linarith : w - L ≤ 0), max_eq_right (by linarith : (0 : ℝ) ≤ v - L), max_eq_right hd.le]
      have : w = v := by linarith
      subst this; rw [max_eq_right (by linarith)]; linarith
    · rw [max_eq_right (by linarith : (0 : ℝ) ≤ w - L), max_eq_right (by linarith : (0 : ℝ) ≤ v - L)]; linarith
  constructor <;> linarith

/-- **C144** The diode lets nothing through up to its bias, never conducts backwards, and its slope is everywhere between 0 and 1, exactly 1 beyond the knee. -/
theorem C144_diode (bias linear : ℝ) : (∀ v, v ≤ bias → diode bias linear v = 0) ∧ (∀ v, 0 ≤ diode bias linear v)
    ∧ (∀ v w, v ≤ w → diode bias linear v ≤ diode bias linear w ∧ diode bias linear w - diode bias linear v ≤ w - v)
    ∧ (∀ v w, bias + 0.02 ≤ v → linear ≤ v → v ≤ w → diode bias linear w - diode bias linear v = w - v) := by
  have d := fun v w => @diode_slope bias linear v w
  refine ⟨fun v => diode_below, fun v => ?_, fun v w h => ⟨by linarith [(d v w h).1], (d v w h).2⟩, fun v w h1 h2 h => ?_⟩
  · rcases le_total v bias with h | h
    · rw [diode_below h]
    · have := (d bias v h).1
      rw [diode_below le_rfl] at this; linarith
  · have hm : max linear (bias + 0.02) ≤ v := max_le h2 h1
    have hb : bias < max linear (bias + 0.02) := lt_max_of_lt_right (by norm_num)
    simp only [diode]
    generalize max linear (bias + 0.02) = L at *
    rw [if_neg (by linarith), if_neg (by linarith), if_neg (by linarith), if_neg (by linarith)]; ring

theorem ring_swap (vin vc : ℝ) : ring bias linear (2 * vc) (vin / 2) = ring bias linear vin vc := by
  simp only [ring]
  have e1 : 0.5 * (2 * vc) + vin / 2 = 0.5 * vin + vc := by norm_num; ring
  have e2 : vin / 2 - 0.5 * (2 * vc) = -(vc - 0.5 * vin) := by norm_num; ring
  rw [e1, e2, neg_neg]; ring

/-- Even part of the diode. -/
theorem pair_slope (a b : ℝ) : |(diode bias linear a + diode bias linear (-a)) - (diode bias linear b + diode bias linear (-b))| ≤ |a - b| := by
  have one : ∀ a b : ℝ, a ≤ b → |(diode bias linear a + diode bias linear (-a)) - (diode bias linear b + diode bias linear (-b))| ≤ b - a := by
    intro a b h
    have k1 := diode_slope (bias := bias) (linear := linear) h
    have k2 := diode_slope (bias := bias) (linear := linear) (neg_le_neg h)
    rw [abs_le]; constructor <;> linarith [k1.1, k1.2, k2.1, k2.2]
  rcases le_total a b with h | h
  · rw [abs_sub_comm a b, abs_of_nonneg (sub_nonneg.2 h)]; exact one a b h
  · rw [abs_of_nonneg (sub_nonneg.2 h), abs_sub_comm]; exact one b a h

theorem ring_bound (vin vc : ℝ) : |ring bias linear vin vc| ≤ |vin| := by
  have := pair_slope (bias := bias) (linear := linear) (0.5 * vin + vc) (vc - 0.5 * vin)
  have e : 0.5 * vin + vc - (vc - 0.5 * vin) = vin := by norm_num; ring
  rw [e] at this
  have e2 : ring bias linear vin vc = (diode bias linear (0.5 * vin + vc) + diode bias linear (-(0.5 * vin + vc))) - (diode bias linear (vc - 0.5 * vin) + diode bias linear (-(vc - 0.5 * vin))) := by
    simp only [ring]; ring
  rw [e2]; exact this

/-- **C144** The ring of four diodes: silent when either the signal or the carrier is zero, or when both together stay within the bias; odd in each of them; never larger than the signal nor than twice the carrier. -/
theorem C144_ring (bias linear vin vc : ℝ) : ring bias linear 0 vc = 0 ∧ ring bias linear vin 0 = 0 ∧ ring bias linear (-vin) vc = -ring bias linear vin vc
    ∧ ring bias linear vin (-vc) = -ring bias linear vin vc ∧ |ring bias linear vin vc| ≤ min |vin| (2 * |vc|)
    ∧ (|vin| / 2 + |vc| ≤ bias → ring bias linear vin vc = 0) := by
  have odd : ∀ x y, ring bias linear (-x) y = -ring bias linear x y := by
    intro x y
    simp only [ring]
    have e1 : 0.5 * -x + y = y - 0.5 * x := by ring
    have e2 : y - 0.5 * -x = 0.5 * x + y := by ring
    rw [e1, e2]; ring
  refine ⟨?_, ?_, odd vin vc, ?_, le_min (ring_bound vin vc) ?_, ?_⟩
  · simp [ring]
  · have := odd vin 0
    rw [← ring_swap]; simp [ring]
  · rw [← ring_swap, mul_neg, odd, ring_swap]
  · rw [← ring_swap]
    exact (ring_bound _ _).trans (by rw [abs_mul]; norm_num)
  · intro h
    have a1 := neg_abs_le vin
    have a2 := le_abs_self vin
    have a3 := neg_abs_le vc
    have a4 := le_abs_self vc
    simp only [ring]
    rw [diode_below (by norm_num; linarith), diode_below (by norm_num; linarith), diode_below (by norm_num; linarith), diode_below (by norm_num; linarith)]; simp

end

/-- With the smallest knee and no bias, well inside: the product of signs and the signal itself. -/
example : ring 0 0 1 0.75 = 1 ∧ ring 0.3 0.7 0.1 0.2 = 0 ∧ ring 0.3 0.7 1 1 = 0.95 := by
  have m1 : max (0 : ℝ) (0 + 0.02) = 0.02 := by norm_num
  have m2 : max (0.7 : ℝ) (0.3 + 0.02) = 0.7 := by norm_num
  simp only [ring, diode, m1, m2]; norm_num

/-! ## C145: the carrier -/

theorem value_parts {phase : ℝ} (h0 : 0 ≤ phase) (h1 : phase ≤ 1) :
    |fastsin (2 * Real.pi * (phase - 0.5)) - Real.sin (2 * Real.pi * (phase - 0.5))| ≤ 1.12e-5 ∧ |fastcos (2 * Real.pi * (phase - 0.5)) - Real.cos (2 * Real.pi * (phase - 0.5))| ≤ 7.4e-5 := by
  have hp := Real.pi_pos
  have a : -Real.pi ≤ 2 * Real.pi * (phase - 0.5) := by norm_num; nlinarith
  have b : 2 * Real.pi * (phase - 0.5) ≤ Real.pi := by norm_num; nlinarith
  exact ⟨(C141_sine a b).1, (C141_cosine a b).1⟩

theorem carrier_bound {s c : ℝ} (p1 : 2 * s * c ≤ 1 + 2 / 10 ^ 4) (p2 : -(1 + 2 / 10 ^ 4) ≤ 2 * s * c) (b1 : -(1 + 8 / 10 ^ 5) ≤ s) (b2 : s ≤ 1 + 8 / 10 ^ 5) (b3 : -(1 + 8 / 10 ^ 5) ≤ c) (b4 : c ≤ 1 + 8 / 10 ^ 5) (shape : ℤ) :
    -(1 + 3 / 10 ^ 4) ≤ carrier s c shape ∧ carrier s c shape ≤ 1 + 3 / 10 ^ 4 := by
  generalize hp : 2 * s * c = p at *
  unfold carrier
  rw [hp]
  by_cases hs0 : 0 < s <;> by_cases hc0 : 0 < c <;> simp only [hs0, hc0, if_true, if_false, Nat.reduceEqDiff, or_true, or_false, false_or, true_or, Nat.reduceLeDiff] <;>
    (split_ifs <;> constructor <;> linarith)

/-- **C145** Whatever the shape, the carrier stays within 1.0003 at every phase of the cycle; for the plain shape it is a sine to 1.12·10⁻⁵. -/
theorem C145_carrier {phase : ℝ} (h0 : 0 ≤ phase) (h1 : phase ≤ 1) (shape : ℤ) :
    |value phase shape| ≤ 1.0003 ∧ |value phase 0 + Real.sin (2 * Real.pi * phase)| ≤ 1.12e-5 := by
  obtain ⟨hs, hc⟩ := value_parts h0 h1
  set x := 2 * Real.pi * (phase - 0.5) with hx
  have e0 : Real.sin x = -Real.sin (2 * Real.pi * phase) := by
    have : x = 2 * Real.pi * phase - Real.pi := by rw [hx]; norm_num; ring
    rw [this, Real.sin_sub_pi]
  refine ⟨?_, ?_⟩
  · have q := Real.sin_sq_add_cos_sq x
    have s1 := Real.neg_one_le_sin x
    have s2 := Real.sin_le_one x
    have c1 := Real.neg_one_le_cos x
    have c2 := Real.cos_le_one x
    unfold value
    rw [← hx]
    generalize fastsin x = s at *
    generalize fastcos x = c at *
    generalize Real.sin x = S at *
    generalize Real.cos x = C at *
    rw [abs_le] at hs hc
    norm_num at hs hc
    obtain ⟨hs1, hs2⟩ := hs
    obtain ⟨hc1, hc2⟩ := hc
    have hsq : s ^ 2 ≤ S ^ 2 + 3 / 10 ^ 5 := by nlinarith
    have hcq : c ^ 2 ≤ C ^ 2 + 17 / 10 ^ 5 := by nlinarith
    have p1 : 2 * s * c ≤ 1 + 2 / 10 ^ 4 := by nlinarith [sq_nonneg (s - c)]
    have p2 : -(1 + 2 / 10 ^ 4) ≤ 2 * s * c := by nlinarith [sq_nonneg (s + c)]
    have b1 : -(1 + 8 / 10 ^ 5) ≤ s ∧ s ≤ 1 + 8 / 10 ^ 5 ∧ -(1 + 8 / 10 ^ 5) ≤ c ∧ c ≤ 1 + 8 / 10 ^ 5 := by
      refine ⟨?_, ?_, ?_, ?_⟩ <;> linarith
    obtain ⟨b1, b2, b3, b4⟩ := b1
    have := carrier_bound p1 p2 b1 b2 b3 b4 shape
    rw [abs_le]; norm_num at this ⊢; exact this
  · rw [← sub_neg_eq_add, ← e0]
    have : value phase 0 = fastsin x := by simp [value, carrier, hx]
    rw [this]; exact hs

/-- The phase of a carrier that starts at 0 and advances by `d` each sample. -/
noncomputable def phaseAt (d : ℝ) : ℕ → ℝ
  | 0 => 0
  | k + 1 => advance (phaseAt d k) d

/-- **C145** The phase never leaves [0, 1]. -/
theorem C145_phase {p d : ℝ} (h0 : 0 ≤ p) (hd : 0 ≤ d) : 0 ≤ advance p d ∧ advance p d ≤ 1 := by
  unfold advance
  simp only
  split
  · simp
  · next h => exact ⟨by linarith, by linarith⟩

theorem phase_closed {d : ℝ} (h0 : 0 < d) (k : ℕ) : phaseAt d k = ((k % (⌊1 / d⌋₊ + 1) : ℕ) : ℝ) * d := by
  set m := ⌊1 / d⌋₊ with hm
  have lo : (m : ℝ) * d ≤ 1 := by
    have := Nat.floor_le (a := 1 / d) (by positivity)
    rw [← hm, le_div_iff₀ h0] at this; exact this
  have hi : 1 < ((m : ℝ) + 1) * d := by
    have := Nat.lt_floor_add_one (1 / d)
    rw [← hm, div_lt_iff₀ h0] at this; exact this
  induction k with
  | zero => simp [phaseAt]
  | succ k ih =>
    rw [phaseAt, ih]
    have hlt : k % (m + 1) < m + 1 := Nat.mod_lt _ (by omega)
    unfold advance
    simp only
    by_cases h : k % (m + 1) = m
    · have e : (k + 1) % (m + 1) = 0 := by
        rw [Nat.add_mod, h]
        rcases Nat.eq_zero_or_pos m with h0 | h0
        · simp [h0]
        · rw [Nat.mod_eq_of_lt (show 1 < m + 1 by omega), Nat.mod_self]
      rw [e, h, if_pos (by linarith)]; simp
    · have h2 : k % (m + 1) + 1 ≤ m := by omega
      have e : (k + 1) % (m + 1) = k % (m + 1) + 1 := by
        rw [Nat.add_mod]
        rcases Nat.eq_zero_or_pos m with h0 | h0
        · omega
        · rw [Nat.mod_eq_of_lt (show 1 < m + 1 by omega), Nat.mod_eq_of_lt (by omega)]
      have : ((k % (m + 1) + 1 : ℕ) : ℝ) ≤ m := by exact_mod_cast h2
      push_cast at this
      rw [e, if_neg (by nlinarith)]; push_cast; ring

/-- How many times the carrier has started a new cycle after `k` samples. -/
noncomputable def cycles (d : ℝ) (k : ℕ) : ℕ := (Finset.range k).sum fun j => if 1 < phaseAt d j + d then 1 else 0

/-- **C145** What the wrap does: the phase is put back to 0 and not by one turn, so a new cycle starts exactly every ⌊1/d⌋ + 1 samples. -/
theorem C145_cycles {d : ℝ} (h0 : 0 < d) (k : ℕ) : cycles d k = k / (⌊1 / d⌋₊ + 1) := by
  set m := ⌊1 / d⌋₊ with hm
  have lo : (m : ℝ) * d ≤ 1 := by
    have := Nat.floor_le (a := 1 / d) (by positivity)
    rw [← hm, le_div_iff₀ h0] at this; exact this
  have hi : 1 < ((m : ℝ) + 1) * d := by
    have := Nat.lt_floor_add_one (1 / d)
    rw [← hm, div_lt_iff₀ h0] at this; exact this
  unfold cycles
  induction k with
  | zero => simp
  | succ k ih =>
    rw [Finset.sum_range_succ, ih, phase_closed h0, ← hm, Nat.succ_div]
    congr 1
    have hlt : k % (m + 1) < m + 1 := Nat.mod_lt _ (by omega)
    have hdvd : (m + 1 ∣ k + 1) ↔ k % (m + 1) = m := by
      constructor
      · rintro ⟨q, hq⟩
        have : k = (m + 1) * (q - 1) + m := by
          cases q with
          | zero => omega
          | succ q => simp only [Nat.add_sub_cancel]; rw [Nat.mul_add] at hq; omega
        rw [this, Nat.mul_add_mod]; exact Nat.mod_eq_of_lt (by omega)
      · intro h
        have := Nat.div_add_mod k (m + 1)
        exact ⟨k / (m + 1) + 1, by rw [Nat.mul_add]; omega⟩
    by_cases h : k % (m + 1) = m
    · rw [if_pos (by rw [h]; linarith), if_pos (hdvd.2 h)]
    · have h2 : k % (m + 1) + 1 ≤ m := by omega
      have : ((k % (m + 1) + 1 : ℕ) : ℝ) ≤ m := by exact_mod_cast h2
      push_cast at this
      rw [if_neg (by nlinarith), if_neg (fun c => h (hdvd.1 c))]

/-- **C145** So the carrier never has the frequency asked for: for every step `d` the cycles per sample tend to 1/(⌊1/d⌋ + 1), which is below `d`; a step of 0.34 sounds at 1/3 and one of 0.5 does too. -/
theorem C145_frequency_refuted : (∀ d : ℝ, 0 < d → (1 : ℝ) / (⌊1 / d⌋₊ + 1) < d) ∧ (∀ d : ℝ, 0 < d → ∀ k, |(cycles d k : ℝ) - k * (1 / (⌊1 / d⌋₊ + 1))| ≤ 1)
    ∧ ¬ (∀ d : ℝ, 0 < d → d ≤ 1 → ∀ k, |(cycles d k : ℝ) - k * d| ≤ 1) := by
  have near : ∀ d : ℝ, 0 < d → ∀ k, |(cycles d k : ℝ) - k * (1 / (⌊1 / d⌋₊ + 1))| ≤ 1 := by
    intro d h0 k
    rw [C145_cycles h0]
    set q := ⌊1 / d⌋₊ + 1 with hq
    have hq0 : (0 : ℝ) < q := by rw [hq]; positivity
    have e : ((⌊1 / d⌋₊ : ℝ) + 1) = q := by rw [hq]; push_cast; ring
    have a : (k : ℝ) = q * ((k / q : ℕ) : ℝ) + ((k % q : ℕ) : ℝ) := by exact_mod_cast (Nat.div_add_mod k q).symm
    have b : ((k % q : ℕ) : ℝ) < q := by exact_mod_cast Nat.mod_lt k (by omega)
    have e2 : ((k / q : ℕ) : ℝ) - k * (1 / q) = -(((k % q : ℕ) : ℝ) / q) := by
      rw [show (k : ℝ) * (1 / q) = (q * ((k / q : ℕ) : ℝ) + ((k % q : ℕ) : ℝ)) * (1 / q) by rw [← a]]
      field_simp; ring
    rw [e, e2, abs_neg, abs_of_nonneg (by positivity), div_le_one hq0]
    exact b.le
  refine ⟨fun d h0 => ?_, near, fun h => ?_⟩
  · have := Nat.lt_floor_add_one (1 / d)
    rw [div_lt_iff₀ (by positivity)]
    rw [div_lt_iff₀ h0] at this; linarith
  · have c := C145_cycles (d := 1 / 2) (by norm_num) 30
    have f : ⌊1 / (1 / 2 : ℝ)⌋₊ = 2 := by norm_num
    rw [f] at c
    have := h (1 / 2) (by norm_num) (by norm_num) 30
    rw [c] at this
    norm_num at this

/-! ## C146: the output -/

theorem saturate_bound {x : ℝ} (h : |x| ≤ 2) : |saturate x| ≤ 1 := by
  rw [abs_le] at h ⊢
  obtain ⟨a, b⟩ := h
  unfold saturate
  norm_num
  constructor
  · nlinarith [sq_nonneg (x + 1), sq_nonneg (x - 1)]
  · nlinarith [sq_nonneg (x + 1), sq_nonneg (x - 1)]

theorem gscale_bounds {n : ℕ} (h : 1 ≤ n) : 0.4 ≤ gscale n ∧ gscale n ≤ 1 := by
  have h1 : (1 : ℝ) ≤ Real.sqrt n := by rw [Real.one_le_sqrt]; exact_mod_cast h
  have : 1 / Real.sqrt n ≤ 1 := by rw [div_le_one (by linarith)]; exact h1
  have : 0 ≤ 1 / Real.sqrt (n : ℝ) := by positivity
  unfold gscale
  constructor <;> norm_num at * <;> linarith

/-- The channel weights of `n ≥ 2` carriers: mirrored, complementary, from one side to the other; the detunings are mirrored too. -/
theorem C146_unison {n u : ℕ} (hn : 2 ≤ n) (hu : u < n) : (unison n u).panL + (unison n u).panR = 1 ∧ 0 ≤ (unison n u).panL ∧ 0 ≤ (unison n u).panR
    ∧ (unison n (n - 1 - u)).panL = (unison n u).panR ∧ (unison n (n - 1 - u)).detune = -(unison n u).detune ∧ |(unison n u).detune| ≤ 1
    ∧ 0 ≤ (unison n u).phase ∧ (unison n u).phase < 1 := by
  have h1 : n ≠ 1 := by omega
  have hpos : (0 : ℝ) < (n : ℝ) - 1 := by have : (2 : ℝ) ≤ n := by exact_mod_cast hn
                                          linarith
  have hu' : (u : ℝ) ≤ (n : ℝ) - 1 := by have : (u : ℝ) + 1 ≤ n := by exact_mod_cast hu
                                         linarith
  have hc : ((n - 1 - u : ℕ) : ℝ) = (n : ℝ) - 1 - u := by
    rw [Nat.cast_sub (by omega), Nat.cast_sub (by omega)]; simp
  have u0 : (0 : ℝ) ≤ u := Nat.cast_nonneg u
  simp only [unison, if_neg h1, hc]
  have e : 2 / ((n : ℝ) - 1) * u = 2 * (u / ((n : ℝ) - 1)) := by ring
  have f1 : (u : ℝ) / ((n : ℝ) - 1) ≤ 1 := by rw [div_le_one hpos]; exact hu'
  have f0 : 0 ≤ (u : ℝ) / ((n : ℝ) - 1) := by positivity
  refine ⟨by field_simp; ring, f0, div_nonneg (by linarith) hpos.le, trivial, by field_simp; ring, ?_, by positivity, ?_⟩
  · rw [e, abs_le]; constructor <;> linarith
  · rw [mul_one, div_lt_one (by linarith)]; linarith

/-- **C146** With one or two carriers, whatever their phases, and an input within ±1 the saturated output is within ±1, for every setting of the diodes, the shape and the mix. -/
theorem C146_bounded {n : ℕ} (h1 : 1 ≤ n) (h2 : n ≤ 2) (bias linear mix : ℝ) (m0 : 0 ≤ mix) (m1 : mix ≤ 1) (shape : ℤ) (cs : ℕ → Carrier)
    (hcs : ∀ u, u < n → (cs u).panL = (unison n u).panL ∧ (cs u).panR = (unison n u).panR) {l r : ℝ} (hl : |l| ≤ 1) (hr : |r| ≤ 1) :
    |(sample bias linear mix shape n cs l r).1| ≤ 1 ∧ |(sample bias linear mix shape n cs l r).2| ≤ 1 := by
  have one : ∀ u, |ring bias linear l (value (cs u).phase shape) + ring bias linear r (value (cs u).phase shape)| ≤ 2 := by
    intro u
    have a := (ring_bound (bias := bias) (linear := linear) l (value (cs u).phase shape)).trans hl
    have b := (ring_bound (bias := bias) (linear := linear) r (value (cs u).phase shape)).trans hr
    have := abs_add_le (ring bias linear l (value (cs u).phase shape)) (ring bias linear r (value (cs u).phase shape))
    linarith
  have fin : ∀ res x : ℝ, |res| ≤ 2 → |x| ≤ 1 → |saturate (gscale n * (mix * res + (1 - mix) * x))| ≤ 1 := by
    intro res x hres hx
    apply saturate_bound
    obtain ⟨g0, g1⟩ := gscale_bounds h1
    have g0' : 0 ≤ gscale n := by norm_num at g0; linarith
    rw [abs_le] at hres hx
    have y : |mix * res + (1 - mix) * x| ≤ 2 := by
      rw [abs_le]
      constructor <;> nlinarith [mul_nonneg m0 (sub_nonneg.2 hres.2), mul_nonneg m0 (by linarith : 0 ≤ res + 2), mul_nonneg (sub_nonneg.2 m1) (sub_nonneg.2 hx.2), mul_nonneg (sub_nonneg.2 m1) (by linarith : 0 ≤ x + 1)]
    rw [abs_mul, abs_of_nonneg g0']
    nlinarith [abs_nonneg (mix * res + (1 - mix) * x)]
  unfold sample
  simp only
  have : n = 1 ∨ n = 2 := by omega
  rcases this with rfl | rfl
  · obtain ⟨e1, e2⟩ := hcs 0 (by norm_num)
    simp only [unison, if_true] at e1 e2
    simp only [Finset.sum_range_one, e1, e2, mul_one]
    exact ⟨fin _ _ (one 0) hl, fin _ _ (one 0) hr⟩
  · obtain ⟨e1, e2⟩ := hcs 0 (by norm_num)
    obtain ⟨e3, e4⟩ := hcs 1 (by norm_num)
    norm_num [unison] at e1 e2 e3 e4
    simp only [Finset.sum_range_succ, Finset.sum_range_zero, e1, e2, e3, e4, mul_one, mul_zero, zero_add, add_zero]
    exact ⟨fin _ _ (one 1) hl, fin _ _ (one 0) hr⟩

/-- **C146** Silence in gives silence out, for any number of carriers in any state; fully dry, the carriers have no influence; and swapping the input channels of a fully wet effect changes nothing (the modulated sum is the same for both). -/
theorem C146_silence_dry (bias linear mix : ℝ) (shape : ℤ) (n : ℕ) (cs : ℕ → Carrier) (l r : ℝ) :
    sample bias linear mix shape n cs 0 0 = (0, 0)
    ∧ sample bias linear 0 shape n cs l r = (saturate (gscale n * l), saturate (gscale n * r))
    ∧ sample bias linear 1 shape n cs l r = sample bias linear 1 shape n cs r l := by
  refine ⟨?_, ?_, ?_⟩
  · simp [sample, (C144_ring _ _ 0 _).1, saturate]
  · simp [sample]
  · simp only [sample, sub_self, zero_mul, add_zero]
    congr 3 <;> (congr 1; exact Finset.sum_congr rfl fun u _ => by ring)

/-! With sixteen carriers the saturation folds over. -/

theorem sin_mid {x : ℝ} (h0 : Real.pi / 4 ≤ x) (h1 : x ≤ 3 * Real.pi / 4) : 0.7 ≤ Real.sin x := by
  have a : |Real.pi / 2 - x| ≤ Real.pi / 4 := by rw [abs_le]; constructor <;> linarith
  have b := Real.cos_le_cos_of_nonneg_of_le_pi (abs_nonneg _) (by linarith [Real.pi_pos]) a
  rw [Real.cos_abs, Real.cos_pi_div_two_sub, Real.cos_pi_div_four] at b
  have : (1.4 : ℝ) ≤ Real.sqrt 2 := Real.le_sqrt_of_sq_le (by norm_num)
  norm_num at *; linarith

theorem ring_one {vc : ℝ} (h : 0.52 ≤ vc) : ring 0 0 1 vc = 1 := by
  have m1 : max (0 : ℝ) (0 + 0.02) = 0.02 := by norm_num
  simp only [ring, diode, m1]
  norm_num at h
  norm_num
  rw [if_neg (by linarith), if_neg (by linarith), if_pos (by linarith), if_neg (by linarith), if_neg (by linarith)]
  by_cases e : vc = 1 / 2
  · linarith
  · rw [if_pos (by linarith)]; ring

theorem ring_nonneg {vc : ℝ} (h : 0 ≤ vc) : 0 ≤ ring 0 0 1 vc := by
  simp only [ring]
  have d := C144_diode 0 0
  rw [d.1 (-(0.5 * 1 + vc)) (by norm_num; linarith)]
  rcases le_total 0 (vc - 0.5 * 1) with k | k
  · rw [d.1 (-(vc - 0.5 * 1)) (by linarith)]
    have := (d.2.2.1 (vc - 0.5 * 1) (0.5 * 1 + vc) (by norm_num; linarith)).1
    linarith
  · rw [d.1 (vc - 0.5 * 1) k]
    have := (d.2.2.1 (-(vc - 0.5 * 1)) (0.5 * 1 + vc) (by norm_num; linarith)).1
    linarith

/-- **C146** The saturation is no limiter with many carriers: on the first sample after switching to 16 of them, fully wet with ideal diodes, full-scale input in both channels gives an output below −2. -/
theorem C146_many_refuted : (sample 0 0 1 0 16 (unison 16) 1 1).1 < -2 := by
  have hp := Real.pi_pos
  have ph : ∀ u : ℕ, (unison 16 u).phase = u / 16 := by intro u; norm_num [unison]
  have pl : ∀ u : ℕ, (unison 16 u).panL = u / 15 := by intro u; norm_num [unison]
  have lb : ∀ u : ℕ, -1 ≤ ring 0 0 1 (value (unison 16 u).phase 0) := by
    intro u
    have := ring_bound (bias := 0) (linear := 0) 1 (value (unison 16 u).phase 0)
    rw [abs_one] at this; exact (abs_le.1 this).1
  have near : ∀ u : ℕ, u < 16 → |value (unison 16 u).phase 0 - Real.sin (2 * Real.pi * (u / 16) - Real.pi)| ≤ 1.12e-5 := by
    intro u hu
    have hu' : (u : ℝ) ≤ 16 := by exact_mod_cast hu.le
    have := (C145_carrier (phase := (u : ℝ) / 16) (by positivity) (by linarith) 0).2
    rw [ph, Real.sin_sub_pi, sub_neg_eq_add]; exact this
  have one : ∀ u : ℕ, 10 ≤ u → u ≤ 14 → ring 0 0 1 (value (unison 16 u).phase 0) = 1 := by
    intro u h1 h2
    have a1 : (10 : ℝ) ≤ u := by exact_mod_cast h1
    have a2 : (u : ℝ) ≤ 14 := by exact_mod_cast h2
    have a := (abs_le.1 (near u (by omega))).1
    have b := sin_mid (x := 2 * Real.pi * (u / 16) - Real.pi) (by nlinarith) (by nlinarith)
    apply ring_one
    norm_num at *; linarith
  have pos : ∀ u : ℕ, u = 9 ∨ u = 15 → 0 ≤ ring 0 0 1 (value (unison 16 u).phase 0) := by
    intro u h
    have a1 : (9 : ℝ) ≤ u := by have : 9 ≤ u := by omega
                                exact_mod_cast this
    have a2 : (u : ℝ) ≤ 15 := by have : u ≤ 15 := by omega
                                 exact_mod_cast this
    have a := (abs_le.1 (near u (by omega))).1
    apply ring_nonneg
    have b : 0.2 ≤ Real.sin (2 * Real.pi * (u / 16) - Real.pi) := by
      have j : ∀ y : ℝ, Real.pi / 8 ≤ y → y ≤ Real.pi / 2 → 0.2 ≤ Real.sin y := by
        intro y y0 y1
        have := Real.mul_le_sin (by linarith) y1
        have : 2 / Real.pi * (Real.pi / 8) ≤ 2 / Real.pi * y := by gcongr
        have e : 2 / Real.pi * (Real.pi / 8) = 1 / 4 := by field_simp; norm_num
        norm_num; linarith
      rcases h with rfl | rfl
      · apply j <;> push_cast <;> nlinarith
      · rw [← Real.sin_pi_sub]; apply j <;> push_cast <;> nlinarith
    norm_num at *; linarith
  have g : gscale 16 = 0.55 := by
    have : Real.sqrt ((16 : ℕ) : ℝ) = 4 := by rw [show ((16 : ℕ) : ℝ) = 4 ^ 2 by norm_num]; exact Real.sqrt_sq (by norm_num)
    unfold gscale; rw [this]; norm_num
  have eight : ring 0 0 1 (value (unison 16 8).phase 0) = 0 := by
    have : value (unison 16 8).phase 0 = 0 := by rw [ph]; norm_num [value, carrier, fastsin]
    rw [this]; exact (C144_ring 0 0 1 0).2.1
  have key : ∃ y, 2.2 ≤ y ∧ (sample 0 0 1 0 16 (unison 16) 1 1).1 = saturate y := by
    refine ⟨_, ?_, rfl⟩
    simp only [Finset.sum_range_succ, Finset.sum_range_zero, pl, g, sub_self, zero_mul, add_zero, zero_add, one_mul, eight,
      one 10 (by norm_num) (by norm_num), one 11 (by norm_num) (by norm_num), one 12 (by norm_num) (by norm_num), one 13 (by norm_num) (by norm_num), one 14 (by norm_num) (by norm_num)]
    have p9 := pos 9 (Or.inl rfl)
    have p15 := pos 15 (Or.inr rfl)
    have l1 := lb 1
    have l2 := lb 2
    have l3 := lb 3
    have l4 := lb 4
    have l5 := lb 5
    have l6 := lb 6
    have l7 := lb 7
    norm_num
    linarith
  obtain ⟨y, hy, e⟩ := key
  rw [e]
  unfold saturate
  norm_num at hy ⊢
  nlinarith [mul_nonneg (sub_nonneg.2 hy) (sub_nonneg.2 hy), mul_nonneg (mul_nonneg (sub_nonneg.2 hy) (sub_nonneg.2 hy)) (sub_nonneg.2 hy)]

end Verif.Effects.RingMod
