import Verif.Biquad.Designs
import Verif.Dsp.Fast
import Mathlib.Analysis.SpecialFunctions.Trigonometric.ArctanDeriv
import Mathlib.Analysis.SpecialFunctions.Log.Base
import Mathlib.Analysis.SpecialFunctions.Pow.Deriv
import Mathlib.Analysis.SpecialFunctions.Trigonometric.Series
/-!
# The peak equaliser design (C147), exact reals

`lin` stands for the table look-up `db_to_linear`.
-/
namespace Verif.Biquad

/-- surge-biquad/src/coeff_peak_eq.rs 56, 69-95: the gain at the Nyquist frequency, `g1`. -/
noncomputable def peakG1 (g gb ω bw : ℝ) : ℝ :=
  let g0 := 1
  let w0 := ω
  let dww := 2 * w0 * Real.sinh ((Real.logb 10 2 / 2) * bw)
  let diff := |g * g - gb * gb|
  let f00 := |gb * gb - g0 * g0|
  let num := g0 * g0 * (w0 * w0 - Real.pi * Real.pi) ^ 2 + g * g * f00 * (Real.pi * Real.pi) * dww * dww / diff
  let den := (w0 * w0 - Real.pi * Real.pi) ^ 2 + f00 * Real.pi * Real.pi * dww * dww / diff
  Real.sqrt (num / den)

/-- The quantities the coefficients are made of. -/
structure Peak where
  w2 : ℝ
  c : ℝ
  d : ℝ
  A : ℝ
  B : ℝ

/-- coeff_peak_eq.rs 121-160: from the gains `g` (centre), `gb` (band edge), `g1` (Nyquist), the distances computed before, the frequency and the bandwidth. -/
noncomputable def peakParts (g gb g1 diff g00 f00 w0 bw : ℝ) : Peak :=
  let g0 := 1
  let gg := g * g
  let gbgb := gb * gb
  let g01 := |gg - g0 * g1|
  let g11 := |gg - g1 * g1|
  let f01 := |gbgb - g0 * g1|
  let f11 := |gbgb - g1 * g1|
  let w2 := Real.sqrt (g11 / g00) * Real.tan (w0 / 2) ^ 2
  let wl := w0 * (2 : ℝ) ^ (-0.5 * bw)
  let wu := 2 * Real.arctan (Real.sqrt (f00 / f11) * Real.sqrt (g11 / g00) * Real.tan (w0 / 2) ^ 2 / Real.tan (wl / 2))
  let dw := (1 + Real.sqrt (f00 / f11) * w2) * Real.tan (|wu - wl| / 2)
  let c := f11 * dw * dw - 2 * w2 * (f01 - Real.sqrt (f00 * f11))
  let d := 2 * w2 * (g01 - Real.sqrt (g00 * g11))
  ⟨w2, c, d, Real.sqrt ((c + d) / diff), Real.sqrt ((gg * c + gbgb * d) / diff)⟩

/-- coeff_peak_eq.rs 162-171: the coefficients. -/
noncomputable def Filter.setPeak (f : Filter) (g1 : ℝ) (p : Peak) : Filter :=
  f.setCoef (1 + p.w2 + p.A) (-2 * (1 - p.w2)) (1 + p.w2 - p.A) (g1 + 1 * p.w2 + p.B) (-2 * (g1 - 1 * p.w2)) (g1 - p.B + 1 * p.w2)

/-- coeff_peak_eq.rs 31-178 `coeff_peak_eq`. -/
noncomputable def Filter.coeffPeakEq (lin : ℝ → ℝ) (f : Filter) (ω bandwidth gain : ℝ) : Filter := open Classical in
  let g := lin gain
  let gb := lin (gain * 0.5)
  let bw := max 0.0001 bandwidth
  if |g - 1| > 0.00001 then
    let diff := |g * g - gb * gb|
    let g1 := peakG1 g gb ω bw
    if ω > Real.pi then
      let g' := g1 * 0.9999
      f.setPeak g1 (peakParts g' gb g1 diff |g' * g' - 1 * 1| |gb * gb - 1 * 1| (Real.pi - 0.00001) bw)
    else f.setPeak g1 (peakParts g gb g1 diff |g * g - 1 * 1| |gb * gb - 1 * 1| ω bw)
  else f.setCoef 1 0 0 1 0 0

/-! ## The magnitude -/

theorem peak_gain_sq {g1 : ℝ} {p : Peak} (h : 0 < 1 + p.w2 + p.A) (fr : ℝ) :
    (Filter.new.setPeak g1 p).plotMagnitude fr ^ 2 =
      ((-2 * (g1 - p.w2) + 2 * (g1 + p.w2) * Real.cos (2 * Real.pi * fr)) ^ 2 + (2 * p.B * Real.sin (2 * Real.pi * fr)) ^ 2) /
      ((-2 * (1 - p.w2) + 2 * (1 + p.w2) * Real.cos (2 * Real.pi * fr)) ^ 2 + (2 * p.A * Real.sin (2 * Real.pi * fr)) ^ 2) := by
  have ez : Complex.exp (-2 * Real.pi * fr * Complex.I) = Complex.exp (-(2 * Real.pi * fr : ℝ) * Complex.I) := by push_cast; ring_nf
  unfold Filter.plotMagnitude Cf.h Filter.setPeak
  rw [rests_cf (setCoef_first Filter.new rfl _ _ _ _ _ _), ez, norm_div, div_pow]
  simp only [Spec.normal]
  set D := 1 + p.w2 + p.A with hD
  have n1 := quad_norm ((g1 + 1 * p.w2 + p.B) / D) (-2 * (g1 - 1 * p.w2) / D) ((g1 - p.B + 1 * p.w2) / D) (2 * Real.pi * fr)
  have n2 := quad_norm 1 (-2 * (1 - p.w2) / D) ((1 + p.w2 - p.A) / D) (2 * Real.pi * fr)
  rw [Complex.ofReal_one] at n2
  rw [n1, n2]
  set u := Real.cos (2 * Real.pi * fr)
  set v := Real.sin (2 * Real.pi * fr)
  have e1 : (-2 * (g1 - 1 * p.w2) / D + ((g1 + 1 * p.w2 + p.B) / D + (g1 - p.B + 1 * p.w2) / D) * u) ^ 2 + (((g1 + 1 * p.w2 + p.B) / D - (g1 - p.B + 1 * p.w2) / D) * v) ^ 2 =
      ((-2 * (g1 - p.w2) + 2 * (g1 + p.w2) * u) ^ 2 + (2 * p.B * v) ^ 2) / D ^ 2 := by field_simp; ring
  have e2 : (-2 * (1 - p.w2) / D + (1 + (1 + p.w2 - p.A) / D) * u) ^ 2 + ((1 - (1 + p.w2 - p.A) / D) * v) ^ 2 =
      ((-2 * (1 - p.w2) + 2 * (1 + p.w2) * u) ^ 2 + (2 * p.A * v) ^ 2) / D ^ 2 := by
    have : D ≠ 0 := h.ne'
    field_simp
    rw [hD]; ring
  rw [e1, e2, div_div_div_cancel_right₀ (by positivity)]

/-- The stability triangle. -/
theorem peak_stable {g1 : ℝ} {p : Peak} (hw : 0 < p.w2) (hA : 0 < p.A) {f : Filter} (hf : f.firstRun = true) :
    Spec.Stable (f.setPeak g1 p).cf := by
  have D : 0 < 1 + p.w2 + p.A := by linarith
  unfold Filter.setPeak
  rw [rests_cf (setCoef_first f hf _ _ _ _ _ _)]
  simp only [Spec.Stable, Spec.normal]
  constructor
  · rw [abs_div, abs_of_pos D, div_lt_one D, abs_lt]; constructor <;> linarith
  · have e : 1 + (1 + p.w2 - p.A) / (1 + p.w2 + p.A) = 2 * (1 + p.w2) / (1 + p.w2 + p.A) := by field_simp; ring
    rw [e, abs_div, abs_of_pos D]
    gcongr
    rw [abs_lt]; constructor <;> linarith

/-! ## The gain at the Nyquist frequency -/

/-- A boost or a cut, the band edge between the two gains. -/
def Spec.Proper (g gb : ℝ) : Prop := (1 < gb ∧ gb < g) ∨ (0 < g ∧ g < gb ∧ gb < 1)

theorem peakG1_sq {g gb ω bw : ℝ} (h0 : 0 < ω) (h1 : ω < Real.pi) (hp : Spec.Proper g gb) :
    ∃ P Q : ℝ, 0 < P ∧ 0 ≤ Q ∧ peakG1 g gb ω bw ^ 2 = (P + g ^ 2 * Q) / (P + Q)
      ∧ P = (ω * ω - Real.pi * Real.pi) ^ 2 ∧ Q = |gb * gb - 1| / |g * g - gb * gb| * Real.pi ^ 2 * (2 * ω * Real.sinh ((Real.logb 10 2 / 2) * bw)) ^ 2 := by
  have hP : 0 < (ω * ω - Real.pi * Real.pi) ^ 2 := by
    have : ω * ω - Real.pi * Real.pi ≠ 0 := by nlinarith
    positivity
  have hQ : 0 ≤ |gb * gb - 1| / |g * g - gb * gb| * Real.pi ^ 2 * (2 * ω * Real.sinh ((Real.logb 10 2 / 2) * bw)) ^ 2 := by positivity
  refine ⟨_, _, hP, hQ, ?_, rfl, rfl⟩
  unfold peakG1
  simp only [one_mul]
  set P := (ω * ω - Real.pi * Real.pi) ^ 2
  set Q := |gb * gb - 1| / |g * g - gb * gb| * Real.pi ^ 2 * (2 * ω * Real.sinh ((Real.logb 10 2 / 2) * bw)) ^ 2 with hQd
  have e1 : P + g * g * |gb * gb - 1| * (Real.pi * Real.pi) * (2 * ω * Real.sinh (Real.logb 10 2 / 2 * bw)) * (2 * ω * Real.sinh (Real.logb 10 2 / 2 * bw)) / |g * g - gb * gb| = P + g ^ 2 * Q := by
    rw [hQd]; ring
  have e2 : P + |gb * gb - 1| * Real.pi * Real.pi * (2 * ω * Real.sinh (Real.logb 10 2 / 2 * bw)) * (2 * ω * Real.sinh (Real.logb 10 2 / 2 * bw)) / |g * g - gb * gb| = P + Q := by
    rw [hQd]; ring
  rw [e1, e2, Real.sq_sqrt (by positivity)]

theorem peakG1_between {g gb ω bw : ℝ} (h0 : 0 < ω) (h1 : ω < Real.pi) (hp : Spec.Proper g gb) :
    0 < peakG1 g gb ω bw ∧ ((1 < g → 1 ≤ peakG1 g gb ω bw ∧ peakG1 g gb ω bw < g) ∧ (g < 1 → g < peakG1 g gb ω bw ∧ peakG1 g gb ω bw ≤ 1)) := by
  obtain ⟨P, Q, hP, hQ, e, -, -⟩ := peakG1_sq (bw := bw) h0 h1 hp
  have hn : 0 ≤ peakG1 g gb ω bw := Real.sqrt_nonneg _
  have hg : 0 < g := by rcases hp with ⟨a, b⟩ | ⟨a, -, -⟩ <;> linarith
  have hs : 0 < P + Q := by linarith
  rw [eq_div_iff hs.ne'] at e
  generalize peakG1 g gb ω bw = x at *
  have pos : 0 < x := by
    rcases hn.eq_or_lt with h | h
    · rw [← h] at e
      have : 0 < P + g ^ 2 * Q := by positivity
      nlinarith
    · exact h
  have hx : (x ^ 2 - 1) * (P + Q) = (g ^ 2 - 1) * Q := by linarith
  have hy : (g ^ 2 - x ^ 2) * (P + Q) = (g ^ 2 - 1) * P := by linarith
  refine ⟨pos, fun h => ⟨?_, ?_⟩, fun h => ⟨?_, ?_⟩⟩
  · have : 0 ≤ (x ^ 2 - 1) * (P + Q) := by rw [hx]; apply mul_nonneg <;> nlinarith
    have := nonneg_of_mul_nonneg_left this hs
    nlinarith
  · have : 0 < (g ^ 2 - x ^ 2) * (P + Q) := by rw [hy]; apply mul_pos <;> nlinarith
    have := (mul_pos_iff_of_pos_right hs).1 this
    nlinarith
  · have : 0 < (x ^ 2 - g ^ 2) * (P + Q) := by
      have : 0 < (1 - g ^ 2) * P := by apply mul_pos <;> nlinarith
      linarith
    have := (mul_pos_iff_of_pos_right hs).1 this
    nlinarith
  · have : 0 ≤ (1 - x ^ 2) * (P + Q) := by
      have : 0 ≤ (1 - g ^ 2) * Q := by apply mul_nonneg <;> nlinarith
      linarith
    have := nonneg_of_mul_nonneg_left this hs
    nlinarith

/-! ## The parts -/

theorem half_angle {ω : ℝ} (h0 : 0 < ω) (h1 : ω < Real.pi) : 0 < Real.tan (ω / 2) ∧ Real.cos ω = (1 - Real.tan (ω / 2) ^ 2) / (1 + Real.tan (ω / 2) ^ 2)
    ∧ Real.sin ω ^ 2 = 4 * Real.tan (ω / 2) ^ 2 / (1 + Real.tan (ω / 2) ^ 2) ^ 2 := by
  have hc : 0 < Real.cos (ω / 2) := Real.cos_pos_of_mem_Ioo ⟨by linarith [Real.pi_pos], by linarith⟩
  have hs : 0 < Real.sin (ω / 2) := Real.sin_pos_of_pos_of_lt_pi (by linarith) (by linarith)
  have q := Real.sin_sq_add_cos_sq (ω / 2)
  have e : ω = 2 * (ω / 2) := by ring
  rw [Real.tan_eq_sin_div_cos]
  refine ⟨div_pos hs hc, ?_, ?_⟩
  · conv_lhs => rw [e]
    rw [Real.cos_two_mul, div_pow]
    field_simp
    nlinarith
  · conv_lhs => rw [e]
    rw [Real.sin_two_mul, div_pow]
    have : (1 + Real.sin (ω / 2) ^ 2 / Real.cos (ω / 2) ^ 2) = 1 / Real.cos (ω / 2) ^ 2 := by field_simp; linarith
    rw [this]; field_simp; ring

/-- The facts about the parts that the response needs. -/
structure Good (g gb g1 : ℝ) (p : Peak) (T : ℝ) : Prop where
  w2 : 0 < p.w2
  d : 0 ≤ p.d
  edge : 0 ≤ p.c → (p.w2 - g1 * T) ^ 2 + p.B ^ 2 * T = g ^ 2 * ((p.w2 - T) ^ 2 + p.A ^ 2 * T)
  A : 0 < p.c + p.d → 0 < p.A

theorem parts_good {g gb g1 w0 bw : ℝ} (h0 : 0 < w0) (h1 : w0 < Real.pi) (hp : Spec.Proper g gb)
    (hg1 : 0 < g1) (hb : 1 < g → 1 ≤ g1 ∧ g1 < g) (hc : g < 1 → g < g1 ∧ g1 ≤ 1) :
    Good g gb g1 (peakParts g gb g1 |g * g - gb * gb| |g * g - 1 * 1| |gb * gb - 1 * 1| w0 bw) (Real.tan (w0 / 2) ^ 2) := by
  obtain ⟨ht, -, -⟩ := half_angle h0 h1
  have hT : 0 < Real.tan (w0 / 2) ^ 2 := by positivity
  have hg : 0 < g := by rcases hp with ⟨a, b⟩ | ⟨a, -, -⟩ <;> linarith
  -- absolute distances
  obtain ⟨σ, hσ, a00, a11, a01, ad⟩ : ∃ σ : ℝ, σ ^ 2 = 1 ∧ |g * g - 1 * 1| = σ * (g ^ 2 - 1) ∧ |g * g - g1 * g1| = σ * (g ^ 2 - g1 ^ 2)
      ∧ |g * g - 1 * g1| = σ * (g ^ 2 - g1) ∧ |g * g - gb * gb| = σ * (g ^ 2 - gb ^ 2) := by
    rcases hp with ⟨a, b⟩ | ⟨a, b, c⟩
    · obtain ⟨x1, x2⟩ := hb (by linarith)
      refine ⟨1, by norm_num, ?_, ?_, ?_, ?_⟩ <;> rw [abs_of_nonneg (by nlinarith)] <;> ring
    · obtain ⟨x1, x2⟩ := hc (by linarith)
      refine ⟨-1, by norm_num, ?_, ?_, ?_, ?_⟩ <;> rw [abs_of_nonpos (by nlinarith)] <;> ring
  have p00 : 0 < |g * g - 1 * 1| := by
    rw [abs_pos]; rcases hp with ⟨a, b⟩ | ⟨a, b, c⟩ <;> nlinarith
  have p11 : 0 < |g * g - g1 * g1| := by
    rw [abs_pos]; rcases hp with ⟨a, b⟩ | ⟨a, b, c⟩
    · have := (hb (by linarith)).2; nlinarith
    · have := (hc (by linarith)).1; nlinarith
  have pd : 0 < |g * g - gb * gb| := by
    rw [abs_pos]; rcases hp with ⟨a, b⟩ | ⟨a, b, c⟩ <;> nlinarith
  set G00 := |g * g - 1 * 1| with hG00
  set G11 := |g * g - g1 * g1| with hG11
  set G01 := |g * g - 1 * g1| with hG01
  set DF := |g * g - gb * gb| with hDF
  set T := Real.tan (w0 / 2) ^ 2 with hTd
  set k := Real.sqrt (G11 / G00) with hk
  have k0 : 0 < k := Real.sqrt_pos.2 (by positivity)
  have kk : k ^ 2 * G00 = G11 := by rw [hk, Real.sq_sqrt (by positivity)]; field_simp
  have ks : Real.sqrt (G00 * G11) = k * G00 := by
    rw [← kk, show G00 * (k ^ 2 * G00) = (k * G00) ^ 2 by ring, Real.sqrt_sq (by positivity)]
  have g01n : 0 ≤ G01 := abs_nonneg _
  have dd : k * G00 ≤ G01 := by
    have : (k * G00) ^ 2 ≤ G01 ^ 2 := by
      have e : (k * G00) ^ 2 = G00 * G11 := by rw [← kk]; ring
      rw [e, a00, a11, a01]
      have : σ * (g ^ 2 - 1) * (σ * (g ^ 2 - g1 ^ 2)) = σ ^ 2 * ((g ^ 2 - 1) * (g ^ 2 - g1 ^ 2)) := by ring
      rw [this, mul_pow, hσ]
      nlinarith [mul_nonneg (sq_nonneg g) (sq_nonneg (g1 - 1))]
    nlinarith [mul_pos k0 p00]
  have hw : 0 < k * T := by positivity
  have hd : 0 ≤ 2 * (k * T) * (G01 - k * G00) := by
    apply mul_nonneg <;> linarith
  refine ⟨?_, ?_, ?_, ?_⟩
  · simp only [peakParts]; exact hw
  · simp only [peakParts]; rw [ks]; exact hd
  · intro hc0
    simp only [peakParts] at hc0 ⊢
    rw [ks]
    simp only [← hG11, ← hG01, ← hTd, ← hk] at hc0 ⊢
    generalize hcc : |gb * gb - g1 * g1| * _ * _ - _ = c at hc0 ⊢
    have hA : Real.sqrt ((c + 2 * (k * T) * (G01 - k * G00)) / DF) ^ 2 = (c + 2 * (k * T) * (G01 - k * G00)) / DF :=
      Real.sq_sqrt (div_nonneg (by linarith) pd.le)
    have hB : Real.sqrt ((g * g * c + gb * gb * (2 * (k * T) * (G01 - k * G00))) / DF) ^ 2 = (g * g * c + gb * gb * (2 * (k * T) * (G01 - k * G00))) / DF :=
      Real.sq_sqrt (div_nonneg (by have := mul_self_nonneg g; have := mul_self_nonneg gb; positivity) pd.le)
    rw [hA, hB]
    have hdne : DF ≠ 0 := pd.ne'
    have e1 : (g * g * c + gb * gb * (2 * (k * T) * (G01 - k * G00))) / DF - g ^ 2 * ((c + 2 * (k * T) * (G01 - k * G00)) / DF) = -σ * (2 * (k * T) * (G01 - k * G00)) := by
      have : g * g * c + gb * gb * (2 * (k * T) * (G01 - k * G00)) - g ^ 2 * (c + 2 * (k * T) * (G01 - k * G00)) = -σ * DF * (2 * (k * T) * (G01 - k * G00)) := by
        rw [ad]
        have : -σ * (σ * (g ^ 2 - gb ^ 2)) = -(σ ^ 2) * (g ^ 2 - gb ^ 2) := by ring
        rw [this, hσ]; ring
      rw [← mul_div_assoc, ← sub_div, this]; field_simp
    have key : k ^ 2 * (1 - g ^ 2) - 2 * k * (g1 - g ^ 2) + (g1 ^ 2 - g ^ 2) - σ * (2 * k * (G01 - k * G00)) = 0 := by
      rw [a01]
      have k2 : k ^ 2 * (g ^ 2 - 1) = g ^ 2 - g1 ^ 2 := by
        rw [a00, a11] at kk
        have : σ * (k ^ 2 * (g ^ 2 - 1) - (g ^ 2 - g1 ^ 2)) = 0 := by linarith
        rcases mul_eq_zero.1 this with h | h
        · rw [h] at hσ; norm_num at hσ
        · linarith
      have : σ * (2 * k * (σ * (g ^ 2 - g1) - k * G00)) = σ ^ 2 * (2 * k * (g ^ 2 - g1)) - 2 * k ^ 2 * (σ * G00) := by ring
      rw [this, a00]
      have : σ * (σ * (g ^ 2 - 1)) = σ ^ 2 * (g ^ 2 - 1) := by ring
      rw [this, hσ]
      linarith
    linear_combination T * e1 + T ^ 2 * key
  · intro hcd
    simp only [peakParts] at hcd ⊢
    exact Real.sqrt_pos.2 (div_pos hcd pd)

/-- What the response is, from the parts. -/
theorem response_of_good {g gb g1 ω : ℝ} {p : Peak} (h0 : 0 < ω) (h1 : ω < Real.pi) (hg : 0 < g) (hg1 : 0 < g1) (G : Good g gb g1 p (Real.tan (ω / 2) ^ 2))
    (hc : 0 ≤ p.c) (hA : 0 < p.A) :
    (Filter.new.setPeak g1 p).plotMagnitude 0 = 1 ∧ (Filter.new.setPeak g1 p).plotMagnitude (1 / 2) = g1 ∧ (Filter.new.setPeak g1 p).plotMagnitude (ω / (2 * Real.pi)) = g := by
  have D : 0 < 1 + p.w2 + p.A := by linarith [G.w2]
  have hpi := Real.pi_pos
  refine ⟨?_, ?_, ?_⟩
  · refine eq_of_sq (magnitude_nonneg ..) (by norm_num) ?_
    rw [peak_gain_sq D]
    simp only [mul_zero, Real.cos_zero, Real.sin_zero, mul_one]
    have := G.w2
    rw [one_pow, div_eq_one_iff_eq (by have : (-2 * (1 - p.w2) + 2 * (1 + p.w2)) = 4 * p.w2 := by ring
                                       rw [this]; positivity)]
    ring
  · refine eq_of_sq (magnitude_nonneg ..) hg1.le ?_
    rw [peak_gain_sq D, show 2 * Real.pi * (1 / 2) = Real.pi by ring, Real.cos_pi, Real.sin_pi]
    have e1 : (-2 * (g1 - p.w2) + 2 * (g1 + p.w2) * -1) = -4 * g1 := by ring
    have e2 : (-2 * (1 - p.w2) + 2 * (1 + p.w2) * -1) = -4 := by ring
    rw [e1, e2]; norm_num; ring
  · refine eq_of_sq (magnitude_nonneg ..) hg.le ?_
    rw [peak_gain_sq D, show 2 * Real.pi * (ω / (2 * Real.pi)) = ω by field_simp]
    obtain ⟨ht, hcos, hsin⟩ := half_angle h0 h1
    have hT : 0 < Real.tan (ω / 2) ^ 2 := by positivity
    have e := G.edge hc
    set T := Real.tan (ω / 2) ^ 2
    have hTn : 1 + T ≠ 0 := by positivity
    have n : (-2 * (g1 - p.w2) + 2 * (g1 + p.w2) * Real.cos ω) ^ 2 + (2 * p.B * Real.sin ω) ^ 2 = 16 / (1 + T) ^ 2 * ((p.w2 - g1 * T) ^ 2 + p.B ^ 2 * T) := by
      rw [mul_pow (2 * p.B), hsin, hcos]; field_simp; ring
    have d : (-2 * (1 - p.w2) + 2 * (1 + p.w2) * Real.cos ω) ^ 2 + (2 * p.A * Real.sin ω) ^ 2 = 16 / (1 + T) ^ 2 * ((p.w2 - T) ^ 2 + p.A ^ 2 * T) := by
      rw [mul_pow (2 * p.A), hsin, hcos]; field_simp; ring
    have pos : 0 < (p.w2 - T) ^ 2 + p.A ^ 2 * T := by
      have := sq_nonneg (p.w2 - T)
      positivity
    rw [n, d, e]
    field_simp

/-! ## The condition `0 ≤ c` -/

/-- With the band edges as half-angle tangents `x` (lower) and `p/x` (upper): the closed form of `c`. -/
theorem c_eq {g gb g1 diff g00 f00 w0 bw : ℝ} (h0 : 0 < w0) (h1 : w0 < Real.pi) (hbw : 0 ≤ bw) (hf00 : 0 ≤ f00) (hf11 : 0 < |gb * gb - g1 * g1|) :
    (peakParts g gb g1 diff g00 f00 w0 bw).c = |gb * gb - g1 * g1| * Real.tan (w0 * (2 : ℝ) ^ (-0.5 * bw) / 2) ^ 2
      + f00 * ((peakParts g gb g1 diff g00 f00 w0 bw).w2 / Real.tan (w0 * (2 : ℝ) ^ (-0.5 * bw) / 2)) ^ 2
      - 2 * (peakParts g gb g1 diff g00 f00 w0 bw).w2 * |gb * gb - 1 * g1| := by
  simp only [peakParts]
  set F11 := |gb * gb - g1 * g1|
  set F01 := |gb * gb - 1 * g1|
  set k := Real.sqrt (|g * g - g1 * g1| / g00)
  set W := k * Real.tan (w0 / 2) ^ 2 with hW
  set wl := w0 * (2 : ℝ) ^ (-0.5 * bw) with hwl
  have hwl0 : 0 < wl := by positivity
  have hwl1 : wl < Real.pi := by
    have : (2 : ℝ) ^ (-0.5 * bw) ≤ 1 := Real.rpow_le_one_of_one_le_of_nonpos (by norm_num) (by norm_num; linarith)
    nlinarith
  set x := Real.tan (wl / 2) with hx
  have x0 : 0 < x := (half_angle hwl0 hwl1).1
  set s := Real.sqrt (f00 / F11) with hs
  have s0 : 0 ≤ s := Real.sqrt_nonneg _
  have k0 : 0 ≤ k := Real.sqrt_nonneg _
  have W0 : 0 ≤ W := by positivity
  have ss : s ^ 2 * F11 = f00 := by rw [hs, Real.sq_sqrt (by positivity)]; field_simp
  have sf : Real.sqrt (f00 * F11) = s * F11 := by
    rw [← ss, show s ^ 2 * F11 * F11 = (s * F11) ^ 2 by ring, Real.sqrt_sq (by positivity)]
  have harg : s * k * Real.tan (w0 / 2) ^ 2 / x = s * W / x := by rw [hW]; ring
  rw [harg]
  set y := s * W / x with hy
  have y0 : 0 ≤ y := by positivity
  have xy : x * y = s * W := by rw [hy]; field_simp
  have ax : Real.arctan x = wl / 2 := Real.arctan_tan (by linarith [Real.pi_pos]) (by linarith)
  -- the distance of the edges
  have tand : ((1 + s * W) * Real.tan (|2 * Real.arctan y - wl| / 2)) ^ 2 = (y - x) ^ 2 := by
    have e : |2 * Real.arctan y - wl| / 2 = |Real.arctan y - Real.arctan x| := by
      rw [ax, show 2 * Real.arctan y - wl = 2 * (Real.arctan y - wl / 2) by ring, abs_mul]; norm_num
    rw [e]
    have ht : Real.tan |Real.arctan y - Real.arctan x| ^ 2 = Real.tan (Real.arctan y - Real.arctan x) ^ 2 := by
      rcases abs_choice (Real.arctan y - Real.arctan x) with h | h <;> rw [h]
      rw [Real.tan_neg, neg_sq]
    rw [mul_pow, ht, ← mul_pow, ← xy]
    have hsub : Real.tan (Real.arctan y - Real.arctan x) = (y - x) / (1 + y * x) := by
      have cx : 0 < Real.cos (Real.arctan x) := Real.cos_arctan_pos x
      have cy : 0 < Real.cos (Real.arctan y) := Real.cos_arctan_pos y
      rw [Real.tan_eq_sin_div_cos, Real.sin_sub, Real.cos_sub]
      have tx := Real.tan_arctan x
      have ty := Real.tan_arctan y
      rw [Real.tan_eq_sin_div_cos, div_eq_iff cx.ne'] at tx
      rw [Real.tan_eq_sin_div_cos, div_eq_iff cy.ne'] at ty
      rw [tx, ty]
      have n1 : 1 + y * x ≠ 0 := by positivity
      have n2 : Real.cos (Real.arctan y) * Real.cos (Real.arctan x) + y * Real.cos (Real.arctan y) * (x * Real.cos (Real.arctan x)) ≠ 0 := by positivity
      rw [div_eq_div_iff n2 n1]; ring
    rw [hsub]
    have n1 : 1 + y * x ≠ 0 := by positivity
    rw [show (1 + x * y) * ((y - x) / (1 + y * x)) = y - x by rw [mul_comm x y]; field_simp]
  have e : F11 * ((1 + s * W) * Real.tan (|2 * Real.arctan y - wl| / 2)) * ((1 + s * W) * Real.tan (|2 * Real.arctan y - wl| / 2)) = F11 * (y - x) ^ 2 := by
    rw [← tand]; ring
  rw [e, sf, ← ss]
  have : s ^ 2 * F11 * (W / x) ^ 2 = F11 * y ^ 2 := by rw [hy]; ring
  rw [this]
  linear_combination (-2 * F11) * xy

theorem tan_scale {l x : ℝ} (hl0 : 0 ≤ l) (hl1 : l ≤ 1) (h0 : 0 ≤ x) (h1 : x < Real.pi / 2) : Real.tan (l * x) ≤ l * Real.tan x := by
  have hpi := Real.pi_pos
  have cpos : ∀ y, 0 ≤ y → y ≤ x → 0 < Real.cos y := fun y a b => Real.cos_pos_of_mem_Ioo ⟨by linarith, by linarith⟩
  have ly : ∀ y, 0 ≤ y → y ≤ x → 0 ≤ l * y ∧ l * y ≤ y := fun y a b => ⟨by positivity, by nlinarith⟩
  have := Verif.Dsp.Fast.nonneg_of_slope (f := fun y => l * Real.tan y - Real.tan (l * y)) (g := fun y => l * (1 / Real.cos y ^ 2) - 1 / Real.cos (l * y) ^ 2 * l) (b := x)
    (by simp) ?_ ?_ h0 le_rfl
  · linarith
  · intro y a b
    have c1 := (cpos y a b).ne'
    obtain ⟨q1, q2⟩ := ly y a b
    have c2 := (cpos (l * y) q1 (q2.trans b)).ne'
    have d := (Real.hasDerivAt_tan c2).comp y ((hasDerivAt_id y).const_mul l)
    simp only [mul_one] at d
    exact ((Real.hasDerivAt_tan c1).const_mul l).sub d
  · intro y a b
    obtain ⟨q1, q2⟩ := ly y a b
    have c1 := cpos y a b
    have c2 := cpos (l * y) q1 (q2.trans b)
    have m : Real.cos y ≤ Real.cos (l * y) := Real.cos_le_cos_of_nonneg_of_le_pi q1 (by linarith) q2
    have : 1 / Real.cos (l * y) ^ 2 ≤ 1 / Real.cos y ^ 2 := by gcongr
    nlinarith

theorem log10_two : 0 < Real.logb 10 2 ∧ Real.logb 10 2 ≤ 28 / 93 := by
  refine ⟨Real.logb_pos (by norm_num) (by norm_num), ?_⟩
  have h : Real.logb 10 ((2 : ℝ) ^ 93) ≤ Real.logb 10 ((10 : ℝ) ^ 28) := Real.logb_le_logb_of_le (by norm_num) (by norm_num) (by norm_num)
  rw [Real.logb_pow, Real.logb_pow, Real.logb_self_eq_one (by norm_num)] at h
  norm_num at h
  linarith

theorem sinh_bound {y : ℝ} (h0 : 0 ≤ y) (h1 : y ≤ 56 / 93) : 0 ≤ Real.sinh y ∧ Real.sinh y ≤ 1.2 * y := by
  refine ⟨Real.sinh_nonneg_iff.2 h0, ?_⟩
  have := Verif.Dsp.Fast.nonneg_of_slope (f := fun y => 1.2 * y - Real.sinh y) (g := fun y => 1.2 - Real.cosh y) (b := 56 / 93) (by simp)
    (fun z _ _ => (((hasDerivAt_id z).const_mul (1.2 : ℝ)).sub (Real.hasDerivAt_sinh z)).congr_deriv (by rw [mul_one])) ?_ h0 h1
  · linarith
  · intro z z0 z1
    have a := Real.cosh_le_exp_half_sq z
    have b : Real.exp (z ^ 2 / 2) ≤ Real.exp 0.1813 := Real.exp_le_exp.2 (by norm_num; nlinarith)
    have c := Verif.Dsp.Fast.C143_exp.2.2.2.1 0.1813 (by norm_num [abs_le])
    have d : Verif.Dsp.Fast.fastexp 0.1813 ≤ 1.1989 := by simp only [Verif.Dsp.Fast.fastexp]; norm_num
    have e := (abs_le.1 c).1
    have : Real.exp 0.1813 ≤ 1.2 := by norm_num at c d e ⊢; linarith
    linarith

set_option maxHeartbeats 2000000 in
/-- Where the edge condition holds outright: a centre up to a quarter of the sample rate, two to four octaves, at least −18 dB, the band edge at half the gain in dB. -/
theorem c_nonneg {g gb ω bw : ℝ} (h0 : 0 < ω) (h1 : ω ≤ Real.pi / 2) (hb0 : 2 ≤ bw) (hb1 : bw ≤ 4) (hp : Spec.Proper g gb) (hgb : gb * gb = g) (hg : 1 / 8 ≤ g) :
    0 < (peakParts g gb (peakG1 g gb ω bw) |g * g - gb * gb| |g * g - 1 * 1| |gb * gb - 1 * 1| ω bw).c := by
  have hpi := Real.pi_pos
  have h1' : ω < Real.pi := by linarith
  have gpos : 0 < g := by linarith
  have gne : g ≠ 1 := by rcases hp with ⟨a, b⟩ | ⟨a, b, c⟩ <;> intro h <;> linarith
  obtain ⟨P, Q, hP, hQ, esq, eP, eQ⟩ := peakG1_sq (bw := bw) h0 h1' hp
  obtain ⟨g1pos, gup, gdn⟩ := peakG1_between (bw := bw) h0 h1' hp
  -- the ratio Q / P
  obtain ⟨l0, l1⟩ := log10_two
  have y0 : 0 ≤ Real.logb 10 2 / 2 * bw := by positivity
  have y1 : Real.logb 10 2 / 2 * bw ≤ 14 / 93 * bw := by nlinarith
  obtain ⟨sh0, sh1⟩ := sinh_bound y0 (by nlinarith)
  have sh2 : Real.sinh (Real.logb 10 2 / 2 * bw) ≤ 0.181 * bw := by norm_num at sh1 ⊢; linarith
  set S := Real.sinh (Real.logb 10 2 / 2 * bw) with hS
  have S2 : S ^ 2 ≤ 0.0328 * bw ^ 2 := by norm_num at sh2 ⊢; nlinarith
  have ratio : |gb * gb - 1| / |g * g - gb * gb| = 1 / g := by
    rw [hgb, show g * g - g = g * (g - 1) by ring, abs_mul, abs_of_pos gpos]
    have : |g - 1| ≠ 0 := abs_ne_zero.2 (sub_ne_zero.2 gne)
    field_simp
  rw [ratio] at eQ
  have hω2 : ω ^ 2 ≤ Real.pi ^ 2 / 4 := by nlinarith
  have P1 : 9 / 16 * Real.pi ^ 4 ≤ P := by
    rw [eP]
    have : 3 / 4 * Real.pi ^ 2 ≤ Real.pi ^ 2 - ω ^ 2 := by linarith
    have e : (ω * ω - Real.pi * Real.pi) ^ 2 = (Real.pi ^ 2 - ω ^ 2) ^ 2 := by ring
    rw [e]
    have : (3 / 4 * Real.pi ^ 2) ^ 2 ≤ (Real.pi ^ 2 - ω ^ 2) ^ 2 := pow_le_pow_left₀ (by positivity) this 2
    nlinarith
  have gQ : g * Q ≤ Real.pi ^ 4 * S ^ 2 := by
    have : g * Q = 4 * ω ^ 2 * Real.pi ^ 2 * S ^ 2 := by rw [eQ]; field_simp; try ring
    rw [this]
    have : 4 * ω ^ 2 * Real.pi ^ 2 * S ^ 2 ≤ 4 * (Real.pi ^ 2 / 4) * Real.pi ^ 2 * S ^ 2 := by gcongr
    linarith
  have p4 : 0 < Real.pi ^ 4 := by positivity
  have gQP : g * Q ≤ 0.06 * bw ^ 2 * P := by
    have a : Real.pi ^ 4 * S ^ 2 ≤ Real.pi ^ 4 * (0.0328 * bw ^ 2) := by gcongr
    have b : 9 / 16 * Real.pi ^ 4 * (0.06 * bw ^ 2) ≤ P * (0.06 * bw ^ 2) := by gcongr
    have c : 0 ≤ Real.pi ^ 4 * bw ^ 2 := by positivity
    norm_num at a b ⊢
    nlinarith
  have gQP1 : g * Q < P := by
    have : 0.06 * bw ^ 2 * P ≤ 0.96 * P := by
      have : bw ^ 2 ≤ 16 := by nlinarith
      have := mul_le_mul_of_nonneg_right this hP.le
      norm_num at this ⊢; linarith
    norm_num at gQP this ⊢; linarith
  have QP : Q ≤ 0.48 * bw ^ 2 * P := by
    have : 1 / 8 * Q ≤ g * Q := mul_le_mul_of_nonneg_right hg hQ
    norm_num at gQP this ⊢; linarith
  have hs : 0 < P + Q := by linarith
  rw [eq_div_iff hs.ne'] at esq
  -- the powers of two
  have pow4 : 1 + 0.48 * bw ^ 2 ≤ (2 : ℝ) ^ (bw - 1) * (2 : ℝ) ^ (bw - 1) := by
    have e : (2 : ℝ) ^ (bw - 1) = 2 * (2 : ℝ) ^ (bw - 2) := by
      rw [show bw - 1 = 1 + (bw - 2) by ring, Real.rpow_add (by norm_num), Real.rpow_one]
    have a : 1 + 0.69 * (bw - 2) ≤ (2 : ℝ) ^ (bw - 2) := by
      rw [Real.rpow_def_of_pos (by norm_num)]
      have := Real.add_one_le_exp (Real.log 2 * (bw - 2))
      have l := Real.log_two_gt_d9
      have : 0.69 * (bw - 2) ≤ Real.log 2 * (bw - 2) := by
        apply mul_le_mul_of_nonneg_right _ (by linarith)
        norm_num at l ⊢; linarith
      linarith
    rw [e]
    norm_num at a ⊢
    nlinarith [mul_nonneg (sub_nonneg.2 hb0) (sub_nonneg.2 hb1)]
  have f11 : 0 < |gb * gb - peakG1 g gb ω bw * peakG1 g gb ω bw| := by
    rw [abs_pos, hgb]
    intro h
    have e : peakG1 g gb ω bw ^ 2 = g := by rw [pow_two]; linarith
    rw [e] at esq
    have : (1 - g) * (P - g * Q) = 0 := by linarith
    rcases mul_eq_zero.1 this with h | h
    · exact gne (by linarith)
    · linarith
  rw [c_eq h0 h1' (by linarith) (abs_nonneg _) f11]
  -- W against x
  set W := (peakParts g gb (peakG1 g gb ω bw) |g * g - gb * gb| |g * g - 1 * 1| |gb * gb - 1 * 1| ω bw).w2 with hW
  set x := Real.tan (ω * (2 : ℝ) ^ (-0.5 * bw) / 2) with hx
  set T := Real.tan (ω / 2) with hT
  have T0 : 0 < T := (half_angle h0 h1').1
  have l2 : (2 : ℝ) ^ (-0.5 * bw) ≤ 1 := Real.rpow_le_one_of_one_le_of_nonpos (by norm_num) (by norm_num; linarith)
  have x0 : 0 < x := (half_angle (by positivity) (by nlinarith [Real.rpow_pos_of_pos (show (0 : ℝ) < 2 by norm_num) (-0.5 * bw)])).1
  have xT : x ≤ (2 : ℝ) ^ (-0.5 * bw) * T := by
    have := tan_scale (l := (2 : ℝ) ^ (-0.5 * bw)) (x := ω / 2) (by positivity) l2 (by linarith) (by linarith)
    rw [show (2 : ℝ) ^ (-0.5 * bw) * (ω / 2) = ω * (2 : ℝ) ^ (-0.5 * bw) / 2 by ring] at this
    exact this
  have hsq : ((2 : ℝ) ^ (-0.5 * bw)) ^ 2 * ((2 : ℝ) ^ (bw - 1) * 2) = 1 := by
    have a : ((2 : ℝ) ^ (-0.5 * bw)) ^ 2 = (2 : ℝ) ^ (-bw) := by
      rw [← Real.rpow_natCast, ← Real.rpow_mul (by norm_num)]; congr 1; norm_num; ring
    have b : (2 : ℝ) ^ (bw - 1) * 2 = (2 : ℝ) ^ bw := by
      rw [Real.rpow_sub_one (by norm_num)]; field_simp
    rw [a, b, ← Real.rpow_add (by norm_num)]; simp
  have hWk : W = Real.sqrt (|g * g - peakG1 g gb ω bw * peakG1 g gb ω bw| / |g * g - 1 * 1|) * T ^ 2 := rfl
  set k := Real.sqrt (|g * g - peakG1 g gb ω bw * peakG1 g gb ω bw| / |g * g - 1 * 1|) with hk
  have k0 : 0 ≤ k := Real.sqrt_nonneg _
  have kk : k ^ 2 = P / (P + Q) := by
    have gg : g * g - 1 * 1 ≠ 0 := by
      have : g * g - 1 * 1 = (g - 1) * (g + 1) := by ring
      rw [this]; exact mul_ne_zero (sub_ne_zero.2 gne) (by linarith)
    rw [hk, Real.sq_sqrt (by positivity), ← abs_div]
    have : (g * g - peakG1 g gb ω bw * peakG1 g gb ω bw) / (g * g - 1 * 1) = P / (P + Q) := by
      rw [div_eq_div_iff gg hs.ne']
      linarith
    rw [this, abs_of_nonneg (by positivity)]
  -- 2 x² ≤ W
  set m := (2 : ℝ) ^ (bw - 1) with hm
  have m0 : 0 < m := by positivity
  have km : 1 ≤ k * m := by
    have : 1 ≤ (k * m) ^ 2 := by
      rw [mul_pow, kk, div_mul_eq_mul_div, le_div_iff₀ hs]
      have : (1 + 0.48 * bw ^ 2) * P ≤ m * m * P := by gcongr
      nlinarith
    nlinarith [mul_nonneg k0 m0.le]
  have xW : 2 * x ^ 2 ≤ W := by
    have a : x ^ 2 ≤ ((2 : ℝ) ^ (-0.5 * bw)) ^ 2 * T ^ 2 := by
      rw [← mul_pow]; exact pow_le_pow_left₀ x0.le xT 2
    set q := ((2 : ℝ) ^ (-0.5 * bw)) ^ 2
    have q0 : 0 ≤ q := by positivity
    have : 2 * q ≤ k := by
      have e : 2 * q * m = 1 := by linarith
      have : 2 * q * m ≤ k * m := by linarith
      exact le_of_mul_le_mul_right this m0
    rw [hWk]
    have : 2 * q * T ^ 2 ≤ k * T ^ 2 := by gcongr
    linarith
  have W0 : 0 < W := by have : 0 < x ^ 2 := by positivity
                        linarith
  -- the distances
  have f01 : |gb * gb - 1 * peakG1 g gb ω bw| ≤ |gb * gb - 1 * 1| := by
    rw [hgb]
    rcases lt_or_gt_of_ne gne with h | h
    · obtain ⟨a, b⟩ := gdn h
      rw [abs_of_nonpos (by linarith), abs_of_nonpos (by linarith)]; linarith
    · obtain ⟨a, b⟩ := gup h
      rw [abs_of_nonneg (by linarith), abs_of_nonneg (by linarith)]; linarith
  set F00 := |gb * gb - 1 * 1|
  set F01 := |gb * gb - 1 * peakG1 g gb ω bw|
  set F11 := |gb * gb - peakG1 g gb ω bw * peakG1 g gb ω bw|
  have F0 : 0 ≤ F01 := abs_nonneg _
  have main : 2 * W * F01 ≤ F00 * (W / x) ^ 2 := by
    rw [div_pow, ← mul_div_assoc, le_div_iff₀ (by positivity)]
    have a : 2 * W * F01 * x ^ 2 = W * F01 * (2 * x ^ 2) := by ring
    rw [a]
    have b : W * F01 * (2 * x ^ 2) ≤ W * F01 * W := by gcongr
    have c : W * F01 * W ≤ W * F00 * W := by gcongr
    nlinarith
  have : 0 < F11 * x ^ 2 := by positivity
  linarith

/-- **C147** The peak equaliser, centre at `ω` below the Nyquist frequency, for a boost or a cut with the band-edge gain between the two: as long as the quantity under the code's first root is not negative (otherwise every coefficient is NaN), the design is stable,
the gain at 0 is exactly 1, at the centre exactly the gain asked for, and at the Nyquist frequency between the two. -/
theorem C147_peak_partial (lin : ℝ → ℝ) {ω bw gain : ℝ} (h0 : 0 < ω) (h1 : ω < Real.pi) (hbw : 0.0001 ≤ bw) (hp : Spec.Proper (lin gain) (lin (gain * 0.5))) (hg : |lin gain - 1| > 0.00001)
    (hc : 0 < (peakParts (lin gain) (lin (gain * 0.5)) (peakG1 (lin gain) (lin (gain * 0.5)) ω bw) |lin gain * lin gain - lin (gain * 0.5) * lin (gain * 0.5)|
      |lin gain * lin gain - 1 * 1| |lin (gain * 0.5) * lin (gain * 0.5) - 1 * 1| ω bw).c) :
    Spec.Stable (Filter.new.coeffPeakEq lin ω bw gain).cf ∧ (Filter.new.coeffPeakEq lin ω bw gain).plotMagnitude 0 = 1
    ∧ (Filter.new.coeffPeakEq lin ω bw gain).plotMagnitude (ω / (2 * Real.pi)) = lin gain
    ∧ min 1 (lin gain) ≤ (Filter.new.coeffPeakEq lin ω bw gain).plotMagnitude (1 / 2) ∧ (Filter.new.coeffPeakEq lin ω bw gain).plotMagnitude (1 / 2) ≤ max 1 (lin gain) := by
  have e : Filter.new.coeffPeakEq lin ω bw gain = Filter.new.setPeak (peakG1 (lin gain) (lin (gain * 0.5)) ω bw) (peakParts (lin gain) (lin (gain * 0.5)) (peakG1 (lin gain) (lin (gain * 0.5)) ω bw) |lin gain * lin gain - lin (gain * 0.5) * lin (gain * 0.5)|
      |lin gain * lin gain - 1 * 1| |lin (gain * 0.5) * lin (gain * 0.5) - 1 * 1| ω bw) := by
    simp only [Filter.coeffPeakEq, max_eq_right hbw]
    rw [if_pos hg, if_neg (not_lt.2 h1.le)]
  rw [e]
  obtain ⟨b0, b1, b2⟩ := peakG1_between (bw := bw) h0 h1 hp
  have G := parts_good (bw := bw) h0 h1 hp b0 b1 b2
  have hpos : 0 < lin gain := by rcases hp with ⟨a, b⟩ | ⟨a, -, -⟩ <;> linarith
  have hA := G.A (by linarith [G.d])
  obtain ⟨r1, r2, r3⟩ := response_of_good h0 h1 hpos b0 G hc.le hA
  refine ⟨peak_stable G.w2 hA rfl, r1, r3, ?_, ?_⟩
  · rw [r2]
    rcases hp with ⟨a, b⟩ | ⟨a, b, c⟩
    · exact (min_le_left _ _).trans (b1 (by linarith)).1
    · exact (min_le_right _ _).trans (b2 (by linarith)).1.le
  · rw [r2]
    rcases hp with ⟨a, b⟩ | ⟨a, b, c⟩
    · exact (b1 (by linarith)).2.le.trans (le_max_right _ _)
    · exact (b2 (by linarith)).2.trans (le_max_left _ _)

/-- **C147** Without that proviso, for the settings people use: decibels in, the centre up to a quarter of the sample rate, a width of two to four octaves (two is the default) and any gain from −18 dB up (of at least 1/1000 dB). -/
theorem C147_peak_settings_partial {ω bw gain : ℝ} (h0 : 0 < ω) (h1 : ω ≤ Real.pi / 2) (hb0 : 2 ≤ bw) (hb1 : bw ≤ 4) (hlo : -18 ≤ gain) (hg : 0.001 ≤ |gain|) :
    let f := Filter.new.coeffPeakEq (fun db => (10 : ℝ) ^ (db / 20)) ω bw gain
    Spec.Stable f.cf ∧ f.plotMagnitude 0 = 1 ∧ f.plotMagnitude (ω / (2 * Real.pi)) = (10 : ℝ) ^ (gain / 20) := by
  have hpi := Real.pi_pos
  intro f
  set lin : ℝ → ℝ := fun db => (10 : ℝ) ^ (db / 20) with hl
  have sq : lin (gain * 0.5) * lin (gain * 0.5) = lin gain := by
    simp only [hl]
    rw [← Real.rpow_add (by norm_num)]; congr 1; norm_num; ring
  have pos : ∀ x, 0 < lin x := fun x => Real.rpow_pos_of_pos (by norm_num) _
  have big : ∀ x, 0 < x → 1 < lin x := fun x h => Real.one_lt_rpow (by norm_num) (by positivity)
  have small : ∀ x, x < 0 → lin x < 1 := fun x h => Real.rpow_lt_one_of_one_lt_of_neg (by norm_num) (by linarith)
  have e1 : ∀ x : ℝ, lin x = Real.exp (Real.log 10 * (x / 20)) := fun x => Real.rpow_def_of_pos (by norm_num) _
  have log10 : (2 : ℝ) ≤ Real.log 10 := by
    rw [show (10 : ℝ) = 2 ^ 3 * (10 / 8) by norm_num, Real.log_mul (by norm_num) (by norm_num), Real.log_pow]
    have := Real.log_two_gt_d9
    have : 0 ≤ Real.log (10 / 8) := Real.log_nonneg (by norm_num)
    norm_num at *; linarith
  have hne : gain ≠ 0 := by intro h; rw [h] at hg; norm_num at hg
  have hp : Spec.Proper (lin gain) (lin (gain * 0.5)) := by
    rcases lt_or_gt_of_ne hne with h | h
    · right
      have := small (gain * 0.5) (by norm_num; linarith)
      have := pos (gain * 0.5)
      exact ⟨pos _, by nlinarith, by linarith⟩
    · left
      have := big (gain * 0.5) (by positivity)
      exact ⟨this, by nlinarith⟩
  have far : |lin gain - 1| > 0.00001 := by
    rcases lt_or_gt_of_ne hne with h | h
    · have hgn : gain ≤ -0.001 := by rw [abs_of_neg h] at hg; linarith
      have a : lin gain * (1 + 0.0001) ≤ 1 := by
        have e2 : lin gain * Real.exp (-(Real.log 10 * (gain / 20))) = 1 := by rw [e1, ← Real.exp_add]; simp
        have := Real.add_one_le_exp (-(Real.log 10 * (gain / 20)))
        have : 1 + 0.0001 ≤ Real.exp (-(Real.log 10 * (gain / 20))) := by norm_num at *; nlinarith
        have := mul_le_mul_of_nonneg_left this (pos gain).le
        linarith
      have b := small gain h
      have c := pos gain
      rw [abs_of_neg (by linarith)]
      norm_num at *
      nlinarith
    · have hgn : 0.001 ≤ gain := by rw [abs_of_pos h] at hg; exact hg
      have := Real.add_one_le_exp (Real.log 10 * (gain / 20))
      rw [← e1] at this
      rw [abs_of_pos (by linarith [big gain h])]
      norm_num at *
      nlinarith
  have h8 : 1 / 8 ≤ lin gain := by
    have a : (10 : ℝ) ^ (-(9 / 10) : ℝ) ≤ lin gain := Real.rpow_le_rpow_of_exponent_le (by norm_num) (by linarith)
    have b : (1 / 8 : ℝ) ≤ (10 : ℝ) ^ (-(9 / 10) : ℝ) := by
      have : ((1 / 8 : ℝ) ^ (10 : ℕ)) ≤ ((10 : ℝ) ^ (-(9 / 10) : ℝ)) ^ (10 : ℕ) := by
        rw [← Real.rpow_natCast ((10 : ℝ) ^ (-(9 / 10) : ℝ)), ← Real.rpow_mul (by norm_num)]
        rw [show (-(9 / 10) : ℝ) * ((10 : ℕ) : ℝ) = -((9 : ℕ) : ℝ) by norm_num, Real.rpow_neg (by norm_num), Real.rpow_natCast]
        norm_num
      exact le_of_pow_le_pow_left₀ (by norm_num) (by positivity) this
    linarith
  have hc := c_nonneg h0 h1 hb0 hb1 hp sq h8
  obtain ⟨r1, r2, r3, -, -⟩ := C147_peak_partial lin (bw := bw) h0 (by linarith) (by norm_num; linarith) hp far hc
  exact ⟨r1, r2, r3⟩

/-- **C147** At no gain at all the design is the identity. -/
theorem C147_flat (lin : ℝ → ℝ) (ω bw gain : ℝ) (h : |lin gain - 1| ≤ 0.00001) (fr : ℝ) :
    Filter.new.coeffPeakEq lin ω bw gain = Filter.new.setCoef 1 0 0 1 0 0 ∧ (Filter.new.coeffPeakEq lin ω bw gain).plotMagnitude fr = 1 := by
  have e : Filter.new.coeffPeakEq lin ω bw gain = Filter.new.setCoef 1 0 0 1 0 0 := by
    simp only [Filter.coeffPeakEq]; rw [if_neg (not_lt.2 h)]
  refine ⟨e, ?_⟩
  rw [e]
  unfold Filter.plotMagnitude Cf.h
  rw [rests_cf (setCoef_first Filter.new rfl _ _ _ _ _ _)]
  simp [Spec.normal]

/-- The hypotheses can be met: +6 dB two octaves wide at a middle frequency, and a cut of 18 dB. -/
example : (0 : ℝ) < 1 ∧ (1 : ℝ) ≤ Real.pi / 2 ∧ (2 : ℝ) ≤ 2 ∧ (2 : ℝ) ≤ 4 ∧ (-18 : ℝ) ≤ 6 ∧ (0.001 : ℝ) ≤ |(6 : ℝ)| ∧ (-18 : ℝ) ≤ -18 ∧ (0.001 : ℝ) ≤ |(-18 : ℝ)| := by
  have := Real.pi_gt_three
  refine ⟨?_, ?_, ?_, ?_, ?_, ?_, ?_, ?_⟩ <;> first | linarith | norm_num

end Verif.Biquad
