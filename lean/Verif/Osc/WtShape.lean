import Verif.Osc.Wt
/-!
# The wavetable oscillator's skew and saturation (C219)
-/
namespace Verif.Osc
open Verif

/-- update.rs 19-30: what the `Saturate` control `s` makes the smoothed `clip`, and `SkewV` the smoothed `vskew`. -/
noncomputable def clipOf (s : ℝ) : ℝ := -8 * max 0 (min s 1) * max 0 (min s 1) * max 0 (min s 1)
noncomputable def skewOf (v : ℝ) : ℝ := max (-1) (min v 1)

theorem clipOf_range (s : ℝ) : -8 ≤ clipOf s ∧ clipOf s ≤ 0 := by
  unfold clipOf
  have a : 0 ≤ max 0 (min s 1) := le_max_left _ _
  have b : max 0 (min s 1) ≤ 1 := max_le (by norm_num) (min_le_right _ _)
  generalize max 0 (min s 1) = t at *
  have c : 0 ≤ t * t * t := by positivity
  have d : t * t * t ≤ 1 := by nlinarith [mul_nonneg a a]
  constructor <;> nlinarith

theorem skewOf_range (v : ℝ) : -1 ≤ skewOf v ∧ skewOf v ≤ 1 := ⟨le_max_left _ _, max_le (by norm_num) (min_le_right _ _)⟩

/-- The saturation before the limit. -/
theorem sat_mono_pos {c p q : ℝ} (hc : 0 ≤ c) (p0 : 0 ≤ p) (pq : p ≤ q) (q1 : q ≤ 1) : min (p + c * p * (1 - p * p)) 1 ≤ min (q + c * q * (1 - q * q)) 1 := by
  by_cases h : 3 * c * (q * q) ≤ 1 + c
  · refine min_le_min_right _ ?_
    have e : q + c * q * (1 - q * q) - (p + c * p * (1 - p * p)) = (q - p) * (1 + c - c * (p * p + p * q + q * q)) := by ring
    have : c * (p * p + p * q + q * q) ≤ 3 * c * (q * q) := by nlinarith [mul_nonneg hc (show 0 ≤ 2 * (q * q) - p * p - p * q by nlinarith)]
    nlinarith [mul_nonneg (sub_nonneg.2 pq) (show 0 ≤ 1 + c - c * (p * p + p * q + q * q) by linarith)]
  · push Not at h
    have q0 : 0 ≤ q := p0.trans pq
    have c2 : 1 / 2 < c := by nlinarith [mul_nonneg hc (show 0 ≤ 1 - q * q by nlinarith)]
    have k : c * (q * q) ≤ c * q := by nlinarith [mul_nonneg hc (mul_nonneg q0 (sub_nonneg.2 q1))]
    have g : 1 ≤ q + c * q * (1 - q * q) := by
      have : q + c * q * (1 - q * q) - 1 = (1 - q) * (c * q + c * (q * q) - 1) := by ring
      nlinarith [mul_nonneg (sub_nonneg.2 q1) (show 0 ≤ c * q + c * (q * q) - 1 by linarith)]
    rw [min_eq_right g]
    exact min_le_right _ _

theorem sat_mono {c p q : ℝ} (hc : 0 ≤ c) (p0 : -1 ≤ p) (pq : p ≤ q) (q1 : q ≤ 1) : min (max (p + c * p * (1 - p * p)) (-1)) 1 ≤ min (max (q + c * q * (1 - q * q)) (-1)) 1 := by
  have pos : ∀ t, 0 ≤ t → t ≤ 1 → 0 ≤ t + c * t * (1 - t * t) := fun t t0 t1 => by
    have : 0 ≤ 1 - t * t := by nlinarith
    positivity
  have neg : ∀ t, -1 ≤ t → t ≤ 0 → t + c * t * (1 - t * t) ≤ 0 := fun t t0 t1 => by
    have := pos (-t) (by linarith) (by linarith)
    have e : -t + c * -t * (1 - -t * -t) = -(t + c * t * (1 - t * t)) := by ring
    linarith
  rcases le_total 0 p with h | h
  · rw [max_eq_left (by linarith [pos p h (by linarith)]), max_eq_left (by linarith [pos q (by linarith) q1])]
    exact sat_mono_pos hc h pq q1
  rcases le_total q 0 with h' | h'
  · have := sat_mono_pos hc (p := -q) (q := -p) (by linarith) (by linarith) (by linarith)
    have e : ∀ t : ℝ, -t + c * -t * (1 - -t * -t) = -(t + c * t * (1 - t * t)) := fun t => by ring
    rw [e, e] at this
    have f : ∀ t : ℝ, min (-t) 1 = -max t (-1) := fun t => by rw [max_def, min_def]; split_ifs <;> linarith
    rw [f, f] at this
    exact min_le_min_right _ (by linarith)
  · refine min_le_min_right _ (max_le_max_right _ ?_)
    exact (neg p p0 h).trans (pos q h' q1)

theorem skewed_range {a x : ℝ} (h0 : -1 / 2 ≤ a) (h1 : a ≤ 1 / 2) (x0 : -1 ≤ x) (x1 : x ≤ 1) : -1 ≤ x - a * x * x + a ∧ x - a * x * x + a ≤ 1 := by
  have e1 : x - a * x * x + a + 1 = (1 + x) * (1 + a * (1 - x)) := by ring
  have e2 : 1 - (x - a * x * x + a) = (1 - x) * (1 - a * (1 + x)) := by ring
  have k1 : 0 ≤ 1 + a * (1 - x) := by nlinarith
  have k2 : 0 ≤ 1 - a * (1 + x) := by nlinarith
  have := mul_nonneg (show 0 ≤ 1 + x by linarith) k1
  have := mul_nonneg (sub_nonneg.2 x1) k2
  constructor <;> linarith

theorem distort_form (v s x : ℝ) : distort v s x = min (max ((x - v / 2 * x * x + v / 2) + (-s) * (x - v / 2 * x * x + v / 2) * (1 - (x - v / 2 * x * x + v / 2) * (x - v / 2 * x * x + v / 2))) (-1)) 1 := by
  unfold distort
  have h : v * 0.5 = v / 2 := by norm_num; ring
  rw [h]
  ring_nf

/-- **C219.** With the controls at rest the shaping does nothing to a waveform within ±1. -/
theorem C219_neutral {x : ℝ} (x0 : -1 ≤ x) (x1 : x ≤ 1) : distort (skewOf 0) (clipOf 0) x = x := by
  have a : skewOf 0 = 0 := by norm_num [skewOf]
  have b : clipOf 0 = 0 := by norm_num [clipOf]
  rw [a, b, distort_form]
  rw [show x - 0 / 2 * x * x + 0 / 2 + -0 * (x - 0 / 2 * x * x + 0 / 2) * (1 - (x - 0 / 2 * x * x + 0 / 2) * (x - 0 / 2 * x * x + 0 / 2)) = x by ring]
  rw [max_eq_left x0, min_eq_left x1]

/-- **C219.** At any setting of skew and saturation the shaping keeps the peaks ±1 where they are and the order of the levels between them: it never folds a waveform over. -/
theorem C219_monotone (v s : ℝ) : distort (skewOf v) (clipOf s) 1 = 1 ∧ distort (skewOf v) (clipOf s) (-1) = -1 ∧ MonotoneOn (distort (skewOf v) (clipOf s)) (Set.Icc (-1) 1) := by
  obtain ⟨c0, c1⟩ := clipOf_range s
  obtain ⟨a0, a1⟩ := skewOf_range v
  refine ⟨?_, ?_, ?_⟩
  · rw [distort_form]
    generalize skewOf v / 2 = a
    rw [show 1 - a * 1 * 1 + a + -clipOf s * (1 - a * 1 * 1 + a) * (1 - (1 - a * 1 * 1 + a) * (1 - a * 1 * 1 + a)) = 1 by ring]
    norm_num
  · rw [distort_form]
    generalize skewOf v / 2 = a
    rw [show -1 - a * -1 * -1 + a + -clipOf s * (-1 - a * -1 * -1 + a) * (1 - (-1 - a * -1 * -1 + a) * (-1 - a * -1 * -1 + a)) = -1 by ring]
    norm_num
  · rintro x ⟨x0, x1⟩ y ⟨y0, y1⟩ h
    rw [distort_form, distort_form]
    have b0 : -1 / 2 ≤ skewOf v / 2 := by linarith
    have b1 : skewOf v / 2 ≤ 1 / 2 := by linarith
    generalize skewOf v / 2 = a at *
    refine sat_mono (by linarith) (skewed_range b0 b1 x0 x1).1 ?_ (skewed_range b0 b1 y0 y1).2
    have e : y - a * y * y + a - (x - a * x * x + a) = (y - x) * (1 - a * (x + y)) := by ring
    have k : 0 ≤ 1 - a * (x + y) := by nlinarith
    nlinarith [mul_nonneg (sub_nonneg.2 h) k]

/-- **C219.** Saturation alone only raises levels: a sample within ±1 keeps its sign and is never made smaller. -/
theorem C219_louder (s : ℝ) {x : ℝ} (x0 : 0 ≤ x) (x1 : x ≤ 1) : x ≤ distort 0 (clipOf s) x ∧ distort 0 (clipOf s) (-x) = -distort 0 (clipOf s) x := by
  obtain ⟨c0, c1⟩ := clipOf_range s
  generalize clipOf s = c at *
  have e : ∀ t : ℝ, distort 0 c t = min (max (t + (-c) * t * (1 - t * t)) (-1)) 1 := fun t => by
    rw [distort_form, show t - 0 / 2 * t * t + 0 / 2 = t by ring]
  have g : 0 ≤ (-c) * x * (1 - x * x) := by
    have : 0 ≤ 1 - x * x := by nlinarith
    have : 0 ≤ -c := by linarith
    positivity
  rw [e, e, max_eq_left (by linarith)]
  refine ⟨le_min (by linarith) x1, ?_⟩
  rw [show -x + -c * -x * (1 - -x * -x) = -(x + -c * x * (1 - x * x)) by ring]
  have g' : 0 ≤ x + -c * x * (1 - x * x) := by linarith
  generalize x + -c * x * (1 - x * x) = t at *
  rw [max_def, min_def, min_def]
  split_ifs <;> linarith

end Verif.Osc
