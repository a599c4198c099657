import Verif.Biquad.Claims
/-!
# What each design does to a sinusoid (C97), the all-pass keeps energy (C98), unguarded designs (C99)
-/
namespace Verif.Biquad

/-- C97: **the plotted magnitude is what the filter does**: set any design with a cutoff below the Nyquist frequency on a fresh filter
(with anything in its registers) and feed a channel a sinusoid of frequency `fr`, through any processing calls: the output approaches,
geometrically and down to the `1e-30` of the denormal flush, the same sinusoid scaled by `plot_magnitude(fr)` and shifted by a
constant phase. -/
theorem C97_response_partial (d : Design) {ω q : ℝ} (h0 : 0 < ω) (h1 : ω < Real.pi) (hq : 0 < q) (fr : ℝ) :
    ∃ K r shift : ℝ, 0 ≤ K ∧ 0 ≤ r ∧ r < 1 ∧ ∀ (s : Side) (ks : List Call) (φ : ℝ), (∀ k ∈ ks, Spec.plain k) →
      (∀ n < (ks.flatMap (Spec.input s)).length, (ks.flatMap (Spec.input s)).getD n 0 = Real.cos (Spec.phase fr φ n)) →
      ∀ n < (Spec.output ((Filter.new.design d ω q).calls ks) s).length,
        |(Spec.output ((Filter.new.design d ω q).calls ks) s).getD n 0 -
          (Filter.new.design d ω q).plotMagnitude fr * Real.cos (Spec.phase fr φ n + shift)| ≤ K * (r ^ n + 1e-30) := by
  obtain ⟨g1, g2, g3, g4⟩ := design_stable d (f := Filter.new) rfl h0 h1 hq
  obtain ⟨K, r, K0, r0, r1, hb⟩ := response g2 fr
  refine ⟨K, r, ((Filter.new.design d ω q).cf.h fr).arg, K0, r0, r1, fun s ks φ hk hx n hn => ?_⟩
  have := hb _ s ks φ g1 hk hx n hn
  rw [g3, g4] at this
  have z : |s.of Filter.new.reg0| + |s.of Filter.new.reg1| + 1 = 1 := by cases s <;> simp [Filter.new, Side.of]
  rw [z, mul_one] at this
  exact this

/-! ## The magnitudes of the designs -/

theorem quad_norm (b0 b1 b2 θ : ℝ) :
    ‖(b0 + b1 * Complex.exp (-θ * Complex.I) + b2 * Complex.exp (-θ * Complex.I) * Complex.exp (-θ * Complex.I) : ℂ)‖ ^ 2 =
      (b1 + (b0 + b2) * Real.cos θ) ^ 2 + ((b0 - b2) * Real.sin θ) ^ 2 := by
  have m : (b0 + b1 * Complex.exp (-θ * Complex.I) + b2 * Complex.exp (-θ * Complex.I) * Complex.exp (-θ * Complex.I) : ℂ) =
      Complex.exp ((-θ : ℝ) * Complex.I) * (⟨b1 + (b0 + b2) * Real.cos θ, (b0 - b2) * Real.sin θ⟩ : ℂ) := by
    have k : Complex.exp (θ * Complex.I) * Complex.exp (-θ * Complex.I) = 1 := by rw [← Complex.exp_add]; simp
    have e : (⟨b1 + (b0 + b2) * Real.cos θ, (b0 - b2) * Real.sin θ⟩ : ℂ) =
        b0 * Complex.exp (θ * Complex.I) + b1 + b2 * Complex.exp (-θ * Complex.I) := by
      apply Complex.ext
      · simp [Complex.exp_re]; ring
      · simp [Complex.exp_im]; ring
    rw [e]; push_cast
    linear_combination (-(b0 : ℂ)) * k
  rw [m, norm_mul, Complex.norm_exp_ofReal_mul_I, one_mul, ← Complex.normSq_eq_norm_sq, Complex.normSq_apply]
  ring

/-- The squared magnitude of a design with denominator `(1 + α, -2c, 1 - α)`. -/
theorem gain_sq (α c b0 b1 b2 fr : ℝ) (hα : 0 < 1 + α) :
    (Filter.new.setCoef (1 + α) (-2 * c) (1 - α) b0 b1 b2).plotMagnitude fr ^ 2 =
      ((b1 + (b0 + b2) * Real.cos (2 * Real.pi * fr)) ^ 2 + ((b0 - b2) * Real.sin (2 * Real.pi * fr)) ^ 2) /
      (4 * (Real.cos (2 * Real.pi * fr) - c) ^ 2 + 4 * α ^ 2 * Real.sin (2 * Real.pi * fr) ^ 2) := by
  have ez : Complex.exp (-2 * Real.pi * fr * Complex.I) = Complex.exp (-(2 * Real.pi * fr : ℝ) * Complex.I) := by push_cast; ring_nf
  unfold Filter.plotMagnitude Cf.h
  rw [rests_cf (setCoef_first Filter.new rfl (1 + α) (-2 * c) (1 - α) b0 b1 b2), ez, norm_div, div_pow]
  simp only [Spec.normal]
  have n1 := quad_norm (b0 / (1 + α)) (b1 / (1 + α)) (b2 / (1 + α)) (2 * Real.pi * fr)
  have n2 := quad_norm 1 (-2 * c / (1 + α)) ((1 - α) / (1 + α)) (2 * Real.pi * fr)
  rw [Complex.ofReal_one] at n2
  rw [n1, n2]
  set u := Real.cos (2 * Real.pi * fr)
  set v := Real.sin (2 * Real.pi * fr)
  have e1 : (b1 / (1 + α) + (b0 / (1 + α) + b2 / (1 + α)) * u) ^ 2 + ((b0 / (1 + α) - b2 / (1 + α)) * v) ^ 2 =
      ((b1 + (b0 + b2) * u) ^ 2 + ((b0 - b2) * v) ^ 2) / (1 + α) ^ 2 := by field_simp
  have e2 : (-2 * c / (1 + α) + (1 + (1 - α) / (1 + α)) * u) ^ 2 + ((1 - (1 - α) / (1 + α)) * v) ^ 2 =
      (4 * (u - c) ^ 2 + 4 * α ^ 2 * v ^ 2) / (1 + α) ^ 2 := by field_simp; ring
  rw [e1, e2, div_div_div_cancel_right₀ (by positivity)]

theorem magnitude_nonneg (f : Filter) (fr : ℝ) : 0 ≤ f.plotMagnitude fr := norm_nonneg _

theorem eq_of_sq {a b : ℝ} (ha : 0 ≤ a) (hb : 0 ≤ b) (h : a ^ 2 = b ^ 2) : a = b := (pow_left_inj₀ ha hb (by norm_num)).1 h

theorem butterworth {u v c σ q m m' : ℝ} (hcs : σ ^ 2 + c ^ 2 = 1) (hv : v ^ 2 + u ^ 2 = 1) (hs : 0 < σ) (hq : 0 < q)
    (hb : q ^ 2 ≤ 1 / 2) (hm : 0 ≤ m) (hm' : 0 ≤ m')
    (gl : m ^ 2 = ((1 - c + ((1 - c) * 0.5 + (1 - c) * 0.5) * u) ^ 2 + (((1 - c) * 0.5 - (1 - c) * 0.5) * v) ^ 2) /
      (4 * (u - c) ^ 2 + 4 * (σ / (2 * q)) ^ 2 * v ^ 2))
    (gh : m' ^ 2 = ((-(1 + c) + ((1 + c) * 0.5 + (1 + c) * 0.5) * u) ^ 2 + (((1 + c) * 0.5 - (1 + c) * 0.5) * v) ^ 2) /
      (4 * (u - c) ^ 2 + 4 * (σ / (2 * q)) ^ 2 * v ^ 2)) : m ≤ 1 ∧ m' ≤ 1 ∧ (q ^ 2 = 1 / 2 → m ^ 2 + m' ^ 2 = 1) := by
  have nl : (1 - c + ((1 - c) * 0.5 + (1 - c) * 0.5) * u) ^ 2 + (((1 - c) * 0.5 - (1 - c) * 0.5) * v) ^ 2 = ((1 - c) * (1 + u)) ^ 2 := by
    norm_num; ring
  have nh : (-(1 + c) + ((1 + c) * 0.5 + (1 + c) * 0.5) * u) ^ 2 + (((1 + c) * 0.5 - (1 + c) * 0.5) * v) ^ 2 = ((1 + c) * (1 - u)) ^ 2 := by
    norm_num; ring
  have hd : 4 * (u - c) ^ 2 + 4 * (σ / (2 * q)) ^ 2 * v ^ 2 = 4 * (u - c) ^ 2 + (σ ^ 2 / q ^ 2) * v ^ 2 := by
    field_simp
    ring
  rw [nl, hd] at gl
  rw [nh, hd] at gh
  have hσ : σ ^ 2 = 1 - c ^ 2 := by linarith
  have hvv : v ^ 2 = 1 - u ^ 2 := by linarith
  have q2 : 0 < q ^ 2 := by positivity
  have hge : 2 * σ ^ 2 ≤ σ ^ 2 / q ^ 2 := by
    rw [le_div_iff₀ q2]
    have := mul_le_mul_of_nonneg_left hb (sq_nonneg σ)
    linarith
  have sum : ((1 - c) * (1 + u)) ^ 2 + ((1 + c) * (1 - u)) ^ 2 = 4 * (u - c) ^ 2 + 2 * σ ^ 2 * v ^ 2 := by
    rw [hσ, hvv]; ring
  have hge' := mul_le_mul_of_nonneg_right hge (sq_nonneg v)
  have D0 : 0 ≤ 4 * (u - c) ^ 2 + (σ ^ 2 / q ^ 2) * v ^ 2 := by positivity
  have one : ∀ {m N : ℝ}, 0 ≤ m → m ^ 2 = N / (4 * (u - c) ^ 2 + (σ ^ 2 / q ^ 2) * v ^ 2) →
      N ≤ 4 * (u - c) ^ 2 + (σ ^ 2 / q ^ 2) * v ^ 2 → m ≤ 1 := by
    intro m N hm h hN
    have : m ^ 2 ≤ 1 := by rw [h]; exact div_le_one_of_le₀ hN D0
    nlinarith
  have s1 := sq_nonneg ((1 - c) * (1 + u))
  have s2 := sq_nonneg ((1 + c) * (1 - u))
  refine ⟨one hm gl (by linarith), one hm' gh (by linarith), fun he => ?_⟩
  rw [gl, gh, ← add_div, sum]
  have : σ ^ 2 / q ^ 2 = 2 * σ ^ 2 := by rw [he]; ring
  rw [this]
  refine div_self ?_
  by_cases huc : u = c
  · rw [hvv, huc, ← hσ]
    have : 0 < σ ^ 2 := by positivity
    simp only [sub_self]
    positivity
  · have : 0 < (u - c) ^ 2 := by
      have := sub_ne_zero.2 huc
      positivity
    positivity

section
variable {ω q : ℝ} (h0 : 0 < ω) (h1 : ω < Real.pi) (hq : 0 < q)
include h0 h1 hq

theorem alpha_pos : 0 < Real.sin ω / (2 * q) := div_pos (Real.sin_pos_of_pos_of_lt_pi h0 h1) (by positivity)

omit hq in
theorem at_cutoff : Real.cos (2 * Real.pi * (ω / (2 * Real.pi))) = Real.cos ω ∧ Real.sin (2 * Real.pi * (ω / (2 * Real.pi))) = Real.sin ω := by
  have : 2 * Real.pi * (ω / (2 * Real.pi)) = ω := by have := Real.pi_ne_zero; field_simp
  rw [this]; exact ⟨rfl, rfl⟩

theorem lp_eq : Filter.new.coeffLp ω q = Filter.new.setCoef (1 + Real.sin ω / (2 * q)) (-2 * Real.cos ω) (1 - Real.sin ω / (2 * q))
    ((1 - Real.cos ω) * 0.5) (1 - Real.cos ω) ((1 - Real.cos ω) * 0.5) := if_neg (not_lt.2 h1.le)

theorem hp_eq : Filter.new.coeffHp ω q = Filter.new.setCoef (1 + Real.sin ω / (2 * q)) (-2 * Real.cos ω) (1 - Real.sin ω / (2 * q))
    ((1 + Real.cos ω) * 0.5) (-(1 + Real.cos ω)) ((1 + Real.cos ω) * 0.5) := if_neg (not_lt.2 h1.le)

/-- C97, low pass: it passes a constant unchanged, removes the Nyquist frequency, and its gain at the cutoff is the quality factor. -/
theorem C97_lowpass_partial : (Filter.new.coeffLp ω q).plotMagnitude 0 = 1 ∧ (Filter.new.coeffLp ω q).plotMagnitude (1 / 2) = 0 ∧
    (Filter.new.coeffLp ω q).plotMagnitude (ω / (2 * Real.pi)) = q := by
  have hα := alpha_pos h0 h1 hq
  have hs := Real.sin_pos_of_pos_of_lt_pi h0 h1
  have hc := abs_lt.1 (cos_lt_one_abs h0 h1)
  have hcs := Real.sin_sq_add_cos_sq ω
  have g := fun fr => gain_sq (Real.sin ω / (2 * q)) (Real.cos ω) ((1 - Real.cos ω) * 0.5) (1 - Real.cos ω) ((1 - Real.cos ω) * 0.5) fr
    (by linarith)
  rw [lp_eq h0 h1 hq]
  refine ⟨eq_of_sq (magnitude_nonneg ..) (by norm_num) ?_, ?_, eq_of_sq (magnitude_nonneg ..) hq.le ?_⟩
  · rw [g]
    have : 1 - Real.cos ω ≠ 0 := by linarith
    simp only [mul_zero, Real.cos_zero, Real.sin_zero]
    field_simp
    ring
  · have : (Filter.new.setCoef (1 + Real.sin ω / (2 * q)) (-2 * Real.cos ω) (1 - Real.sin ω / (2 * q))
        ((1 - Real.cos ω) * 0.5) (1 - Real.cos ω) ((1 - Real.cos ω) * 0.5)).plotMagnitude (1 / 2) ^ 2 = 0 := by
      rw [g]
      have e : 2 * Real.pi * (1 / 2) = Real.pi := by ring
      rw [e, Real.cos_pi, Real.sin_pi]
      norm_num
      left; ring
    simpa using this
  · rw [g]
    obtain ⟨e1, e2⟩ := at_cutoff h0 h1
    rw [e1, e2]
    have hs2 : Real.sin ω ^ 2 = (1 - Real.cos ω) * (1 + Real.cos ω) := by linear_combination hcs
    have : (1 - Real.cos ω + ((1 - Real.cos ω) * 0.5 + (1 - Real.cos ω) * 0.5) * Real.cos ω) ^ 2 = (Real.sin ω ^ 2) ^ 2 := by
      rw [hs2]; norm_num; ring
    rw [this]
    field_simp
    ring

/-- C97, high pass: it removes a constant, passes the Nyquist frequency unchanged, and its gain at the cutoff is the quality factor. -/
theorem C97_highpass_partial : (Filter.new.coeffHp ω q).plotMagnitude 0 = 0 ∧ (Filter.new.coeffHp ω q).plotMagnitude (1 / 2) = 1 ∧
    (Filter.new.coeffHp ω q).plotMagnitude (ω / (2 * Real.pi)) = q := by
  have hα := alpha_pos h0 h1 hq
  have hs := Real.sin_pos_of_pos_of_lt_pi h0 h1
  have hc := abs_lt.1 (cos_lt_one_abs h0 h1)
  have hcs := Real.sin_sq_add_cos_sq ω
  have g := fun fr => gain_sq (Real.sin ω / (2 * q)) (Real.cos ω) ((1 + Real.cos ω) * 0.5) (-(1 + Real.cos ω)) ((1 + Real.cos ω) * 0.5) fr
    (by linarith)
  rw [hp_eq h0 h1 hq]
  refine ⟨?_, eq_of_sq (magnitude_nonneg ..) (by norm_num) ?_, eq_of_sq (magnitude_nonneg ..) hq.le ?_⟩
  · have : (Filter.new.setCoef (1 + Real.sin ω / (2 * q)) (-2 * Real.cos ω) (1 - Real.sin ω / (2 * q))
        ((1 + Real.cos ω) * 0.5) (-(1 + Real.cos ω)) ((1 + Real.cos ω) * 0.5)).plotMagnitude 0 ^ 2 = 0 := by
      rw [g]
      simp only [mul_zero, Real.cos_zero, Real.sin_zero]
      norm_num
      left; ring
    simpa using this
  · rw [g]
    have e : 2 * Real.pi * (1 / 2) = Real.pi := by ring
    rw [e, Real.cos_pi, Real.sin_pi]
    have : 1 + Real.cos ω ≠ 0 := by linarith
    have e2 : (-1 - Real.cos ω) ≠ 0 := by linarith
    have n : (-(1 + Real.cos ω) + ((1 + Real.cos ω) * 0.5 + (1 + Real.cos ω) * 0.5) * -1) ^ 2 +
        (((1 + Real.cos ω) * 0.5 - (1 + Real.cos ω) * 0.5) * 0) ^ 2 = 4 * (-1 - Real.cos ω) ^ 2 := by norm_num; ring
    rw [n]
    field_simp
    ring
  · rw [g]
    obtain ⟨e1, e2⟩ := at_cutoff h0 h1
    rw [e1, e2]
    have hs2 : Real.sin ω ^ 2 = (1 - Real.cos ω) * (1 + Real.cos ω) := by linear_combination hcs
    have : (-(1 + Real.cos ω) + ((1 + Real.cos ω) * 0.5 + (1 + Real.cos ω) * 0.5) * Real.cos ω) ^ 2 = (Real.sin ω ^ 2) ^ 2 := by
      rw [hs2]; norm_num; ring
    rw [this]
    field_simp
    ring

/-- C97: **without resonance, the low and the high pass never amplify**: for `q² ≤ 1/2` their gain is at most 1 at every frequency,
and at `q² = 1/2` (Butterworth) the two are complementary in power. -/
theorem C97_no_gain_partial (hb : q ^ 2 ≤ 1 / 2) (fr : ℝ) :
    (Filter.new.coeffLp ω q).plotMagnitude fr ≤ 1 ∧ (Filter.new.coeffHp ω q).plotMagnitude fr ≤ 1 ∧
    (q ^ 2 = 1 / 2 → (Filter.new.coeffLp ω q).plotMagnitude fr ^ 2 + (Filter.new.coeffHp ω q).plotMagnitude fr ^ 2 = 1) := by
  have hα := alpha_pos h0 h1 hq
  have hs := Real.sin_pos_of_pos_of_lt_pi h0 h1
  have hc := abs_lt.1 (cos_lt_one_abs h0 h1)
  have hcs := Real.sin_sq_add_cos_sq ω
  have gl := gain_sq (Real.sin ω / (2 * q)) (Real.cos ω) ((1 - Real.cos ω) * 0.5) (1 - Real.cos ω) ((1 - Real.cos ω) * 0.5) fr
    (by linarith)
  have gh := gain_sq (Real.sin ω / (2 * q)) (Real.cos ω) ((1 + Real.cos ω) * 0.5) (-(1 + Real.cos ω)) ((1 + Real.cos ω) * 0.5) fr
    (by linarith)
  rw [lp_eq h0 h1 hq, hp_eq h0 h1 hq]
  have hv := Real.sin_sq_add_cos_sq (2 * Real.pi * fr)
  exact butterworth hcs hv hs hq hb (magnitude_nonneg ..) (magnitude_nonneg ..) gl gh

/-- C97, band pass: gain 1 at the cutoff, at most 1 everywhere, nothing at the two ends. -/
theorem C97_bandpass_partial : (∀ fr, (Filter.new.coeffBp ω q).plotMagnitude fr ≤ 1) ∧
    (Filter.new.coeffBp ω q).plotMagnitude (ω / (2 * Real.pi)) = 1 ∧ (Filter.new.coeffBp ω q).plotMagnitude 0 = 0 ∧
    (Filter.new.coeffBp ω q).plotMagnitude (1 / 2) = 0 := by
  have hα := alpha_pos h0 h1 hq
  have hs := Real.sin_pos_of_pos_of_lt_pi h0 h1
  have g := fun fr => gain_sq (Real.sin ω / (2 * q)) (Real.cos ω) (Real.sin ω / (2 * q)) 0 (-(Real.sin ω / (2 * q))) fr (by linarith)
  have e : Filter.new.coeffBp ω q = Filter.new.setCoef (1 + Real.sin ω / (2 * q)) (-2 * Real.cos ω) (1 - Real.sin ω / (2 * q))
    (Real.sin ω / (2 * q)) 0 (-(Real.sin ω / (2 * q))) := rfl
  rw [e]
  set α := Real.sin ω / (2 * q)
  have num : ∀ u v : ℝ, (0 + (α + -α) * u) ^ 2 + ((α - -α) * v) ^ 2 = 4 * α ^ 2 * v ^ 2 := fun u v => by ring
  simp only [num] at g
  refine ⟨fun fr => ?_, eq_of_sq (magnitude_nonneg ..) (by norm_num) ?_, ?_, ?_⟩
  · have := g fr
    have h2 : (Filter.new.setCoef (1 + α) (-2 * Real.cos ω) (1 - α) α 0 (-α)).plotMagnitude fr ^ 2 ≤ 1 := by
      rw [this]
      exact div_le_one_of_le₀ (by nlinarith [sq_nonneg (Real.cos (2 * Real.pi * fr) - Real.cos ω)]) (by positivity)
    nlinarith [magnitude_nonneg (Filter.new.setCoef (1 + α) (-2 * Real.cos ω) (1 - α) α 0 (-α)) fr]
  · rw [g]
    obtain ⟨e1, e2⟩ := at_cutoff h0 h1
    rw [e1, e2, sub_self]
    simp only [one_pow]
    have : 4 * α ^ 2 * Real.sin ω ^ 2 ≠ 0 := by positivity
    rw [zero_pow (by norm_num), mul_zero, zero_add]
    exact div_self this
  · have := g 0
    rw [mul_zero, Real.sin_zero] at this
    simpa using this
  · have := g (1 / 2)
    have e : 2 * Real.pi * (1 / 2) = Real.pi := by ring
    rw [e, Real.sin_pi] at this
    simpa using this

/-- C97, all pass: gain 1 at every frequency. -/
theorem C97_allpass_partial (fr : ℝ) : (Filter.new.coeffApf ω q).plotMagnitude fr = 1 := by
  have hα := alpha_pos h0 h1 hq
  have e : Filter.new.coeffApf ω q = Filter.new.setCoef (1 + Real.sin ω / (2 * q)) (-2 * Real.cos ω) (1 - Real.sin ω / (2 * q))
    (1 - Real.sin ω / (2 * q)) (-2 * Real.cos ω) (1 + Real.sin ω / (2 * q)) := if_neg (not_not.2 ⟨h0.le, h1.le⟩)
  rw [e]
  refine eq_of_sq (magnitude_nonneg ..) (by norm_num) ?_
  rw [gain_sq _ _ _ _ _ _ (by linarith)]
  have hs := Real.sin_pos_of_pos_of_lt_pi h0 h1
  set α := Real.sin ω / (2 * q)
  have hv := Real.sin_sq_add_cos_sq (2 * Real.pi * fr)
  have hcs := Real.sin_sq_add_cos_sq ω
  set u := Real.cos (2 * Real.pi * fr)
  set v := Real.sin (2 * Real.pi * fr)
  have : (-2 * Real.cos ω + (1 - α + (1 + α)) * u) ^ 2 + ((1 - α - (1 + α)) * v) ^ 2 = 4 * (u - Real.cos ω) ^ 2 + 4 * α ^ 2 * v ^ 2 := by
    ring
  rw [this, one_pow]
  refine div_self ?_
  by_cases huc : u = Real.cos ω
  · have : 0 < v ^ 2 := by
      have : v ^ 2 = Real.sin ω ^ 2 := by rw [huc] at hv; linarith
      rw [this]; positivity
    positivity
  · have : 0 < (u - Real.cos ω) ^ 2 := by
      have := sub_ne_zero.2 huc
      positivity
    positivity

end

/-- C97, notch: nothing at the cutoff, at most 1 everywhere, unchanged at the two ends, whatever the resonance. -/
theorem C97_notch_partial {ω : ℝ} (h0 : 0 < ω) (h1 : ω < Real.pi) (reso : ℝ) :
    (∀ fr, (Filter.new.coeffNotch ω reso).plotMagnitude fr ≤ 1) ∧
    (Filter.new.coeffNotch ω reso).plotMagnitude (ω / (2 * Real.pi)) = 0 ∧ (Filter.new.coeffNotch ω reso).plotMagnitude 0 = 1 ∧
    (Filter.new.coeffNotch ω reso).plotMagnitude (1 / 2) = 1 := by
  have hq : (0 : ℝ) < 1 / (0.02 + 30 * limit01 reso * limit01 reso) := by
    have : (0 : ℝ) < 0.02 + 30 * limit01 reso * limit01 reso :=
      add_pos_of_pos_of_nonneg (by norm_num) (by nlinarith [limit01_range reso])
    positivity
  have hα := alpha_pos h0 h1 hq
  have hs := Real.sin_pos_of_pos_of_lt_pi h0 h1
  have hc := abs_lt.1 (cos_lt_one_abs h0 h1)
  have e : Filter.new.coeffNotch ω reso = Filter.new.setCoef
    (1 + Real.sin ω / (2 * (1 / (0.02 + 30 * limit01 reso * limit01 reso)))) (-2 * Real.cos ω)
    (1 - Real.sin ω / (2 * (1 / (0.02 + 30 * limit01 reso * limit01 reso)))) 1 (-2 * Real.cos ω) 1 := if_neg (not_lt.2 h1.le)
  rw [e]
  set α := Real.sin ω / (2 * (1 / (0.02 + 30 * limit01 reso * limit01 reso)))
  have g := fun fr => gain_sq α (Real.cos ω) 1 (-2 * Real.cos ω) 1 fr (by linarith)
  have num : ∀ u v : ℝ, (-2 * Real.cos ω + (1 + 1) * u) ^ 2 + ((1 - 1) * v) ^ 2 = 4 * (u - Real.cos ω) ^ 2 := fun u v => by ring
  simp only [num] at g
  refine ⟨fun fr => ?_, ?_, eq_of_sq (magnitude_nonneg ..) (by norm_num) ?_, eq_of_sq (magnitude_nonneg ..) (by norm_num) ?_⟩
  · have h2 : (Filter.new.setCoef (1 + α) (-2 * Real.cos ω) (1 - α) 1 (-2 * Real.cos ω) 1).plotMagnitude fr ^ 2 ≤ 1 := by
      rw [g fr]
      refine div_le_one_of_le₀ ?_ (by positivity)
      have : 0 ≤ 4 * α ^ 2 * Real.sin (2 * Real.pi * fr) ^ 2 := by positivity
      linarith
    nlinarith [magnitude_nonneg (Filter.new.setCoef (1 + α) (-2 * Real.cos ω) (1 - α) 1 (-2 * Real.cos ω) 1) fr]
  · have := g (ω / (2 * Real.pi))
    obtain ⟨e1, e2⟩ := at_cutoff h0 h1
    rw [e1, sub_self] at this
    simpa using this
  · rw [g 0, mul_zero, Real.cos_zero, Real.sin_zero]
    have : 1 - Real.cos ω ≠ 0 := by linarith
    field_simp
    ring
  · rw [g (1 / 2)]
    have e : 2 * Real.pi * (1 / 2) = Real.pi := by ring
    rw [e, Real.cos_pi, Real.sin_pi]
    have : -1 - Real.cos ω ≠ 0 := by linarith
    field_simp
    ring

/-- C97, the second low pass: it passes a constant unchanged. -/
theorem C97_lp2b_partial {ω q : ℝ} (h0 : 0 < ω) (h1 : ω < Real.pi) (hq : 0 < q) : (Filter.new.coeffLp2b ω q).plotMagnitude 0 = 1 := by
  have hα := alpha_pos h0 h1 hq
  have hc := abs_lt.1 (cos_lt_one_abs h0 h1)
  have e : Filter.new.coeffLp2b ω q = Filter.new.setCoef (1 + Real.sin ω / (2 * q)) (-2 * Real.cos ω) (1 - Real.sin ω / (2 * q))
    ((1 - Real.cos ω + lp2bG1 ω q * (1 + Real.cos ω) + 2 * Real.sqrt (lp2bG1 ω q) * Real.sqrt (2 - lp2bG1 ω q) * Real.sin ω) * 0.5)
    (1 - Real.cos ω - lp2bG1 ω q * (1 + Real.cos ω))
    ((1 - Real.cos ω + lp2bG1 ω q * (1 + Real.cos ω) - 2 * Real.sqrt (lp2bG1 ω q) * Real.sqrt (2 - lp2bG1 ω q) * Real.sin ω) * 0.5) :=
    if_neg (not_lt.2 h1.le)
  rw [e]
  refine eq_of_sq (magnitude_nonneg ..) (by norm_num) ?_
  rw [gain_sq _ _ _ _ _ _ (by linarith), mul_zero, Real.cos_zero, Real.sin_zero]
  have : 1 - Real.cos ω ≠ 0 := by linarith
  field_simp
  norm_num
  ring

/-- C97, the peaking band pass: its gain at the cutoff is its quality, `0.1 + 10 r²` for the resonance `r` limited to `[0, 1]`. -/
theorem C97_pka_partial {ω : ℝ} (h0 : 0 < ω) (h1 : ω < Real.pi) (reso : ℝ) :
    (Filter.new.coeffPka ω reso).plotMagnitude (ω / (2 * Real.pi)) = 0.1 + 10 * limit01 reso ^ 2 := by
  have hq : (0 : ℝ) < 0.1 + 10 * limit01 reso * limit01 reso :=
    add_pos_of_pos_of_nonneg (by norm_num) (by nlinarith [limit01_range reso])
  have hα := alpha_pos h0 h1 hq
  have hs := Real.sin_pos_of_pos_of_lt_pi h0 h1
  have hqe : (0.1 : ℝ) + 10 * limit01 reso ^ 2 = 0.1 + 10 * limit01 reso * limit01 reso := by ring
  rw [hqe]
  set q := (0.1 : ℝ) + 10 * limit01 reso * limit01 reso with hqd
  have e : Filter.new.coeffPka ω reso = Filter.new.setCoef (1 + Real.sin ω / (2 * q)) (-2 * Real.cos ω) (1 - Real.sin ω / (2 * q))
    (q * (Real.sin ω / (2 * q))) 0 (-q * (Real.sin ω / (2 * q))) := rfl
  rw [e]
  refine eq_of_sq (magnitude_nonneg ..) hq.le ?_
  rw [gain_sq _ _ _ _ _ _ (by linarith)]
  obtain ⟨e1, e2⟩ := at_cutoff h0 h1
  rw [e1, e2, sub_self]
  clear_value q
  field_simp
  ring

/-! ## C98: the all-pass keeps energy -/

/-- The energy of a signal. -/
noncomputable def Spec.energy (xs : List ℝ) : ℝ := (xs.map (· ^ 2)).sum

/-- The energy stored in the two registers of a channel of an all-pass with feedback coefficients `a1`, `a2`. -/
noncomputable def Spec.stored (a1 a2 : ℝ) (s : ℝ × ℝ) : ℝ :=
  ((1 + a2) * (s.1 ^ 2 + s.2 ^ 2) - 2 * a1 * s.1 * s.2) / ((1 - a2) * ((1 + a2) ^ 2 - a1 ^ 2))

theorem stored_pos {c : Cf} (h : Spec.Stable c) (s : ℝ × ℝ) : 0 ≤ Spec.stored c.a1 c.a2 s ∧ (Spec.stored c.a1 c.a2 s = 0 → s = (0, 0)) := by
  obtain ⟨h2, h1⟩ := h
  obtain ⟨h2a, h2b⟩ := abs_lt.1 h2
  obtain ⟨h1a, h1b⟩ := abs_lt.1 h1
  have den : 0 < (1 - c.a2) * ((1 + c.a2) ^ 2 - c.a1 ^ 2) := by
    refine mul_pos (by linarith) ?_
    have : (1 + c.a2) ^ 2 - c.a1 ^ 2 = (1 + c.a2 - c.a1) * (1 + c.a2 + c.a1) := by ring
    rw [this]; exact mul_pos (by linarith) (by linarith)
  have num : (1 + c.a2) * (s.1 ^ 2 + s.2 ^ 2) - 2 * c.a1 * s.1 * s.2 =
      (1 + c.a2 - c.a1) / 2 * (s.1 + s.2) ^ 2 + (1 + c.a2 + c.a1) / 2 * (s.1 - s.2) ^ 2 := by ring
  have p : 0 < (1 + c.a2 - c.a1) / 2 := by linarith
  have q : 0 < (1 + c.a2 + c.a1) / 2 := by linarith
  unfold Spec.stored
  rw [num]
  refine ⟨by positivity, fun h => ?_⟩
  rw [div_eq_zero_iff] at h
  rcases h with h | h
  · have m1 : 0 ≤ (1 + c.a2 - c.a1) / 2 * (s.1 + s.2) ^ 2 := by positivity
    have m2 : 0 ≤ (1 + c.a2 + c.a1) / 2 * (s.1 - s.2) ^ 2 := by positivity
    have z1 : (1 + c.a2 - c.a1) / 2 * (s.1 + s.2) ^ 2 = 0 := by linarith
    have z2 : (1 + c.a2 + c.a1) / 2 * (s.1 - s.2) ^ 2 = 0 := by linarith
    have y1 : s.1 + s.2 = 0 := by
      rcases mul_eq_zero.1 z1 with h | h
      · linarith
      · exact pow_eq_zero_iff (by norm_num) |>.1 h
    have y2 : s.1 - s.2 = 0 := by
      rcases mul_eq_zero.1 z2 with h | h
      · linarith
      · exact pow_eq_zero_iff (by norm_num) |>.1 h
    exact Prod.ext (by linarith) (by linarith)
  · linarith

theorem energy_snoc (xs : List ℝ) (n : ℕ) (h : n < xs.length) :
    Spec.energy (xs.take (n + 1)) = Spec.energy (xs.take n) + xs.getD n 0 ^ 2 := by
  rw [List.take_add_one, List.getElem?_eq_getElem h, List.getD, List.getElem?_eq_getElem h]
  simp only [Spec.energy, List.map_append, List.sum_append, Option.toList_some, List.map_cons, List.map_nil, List.sum_cons,
    List.sum_nil, add_zero, Option.getD_some]

theorem lossless {c : Cf} (h : Spec.Stable c) (hb : c.b0 = c.a2 ∧ c.b1 = c.a1 ∧ c.b2 = 1) {xs ys : List ℝ} {T : ℕ → ℝ × ℝ}
    (t : Traj c 0 xs ys T fun _ => 0) : ∀ n ≤ xs.length,
    Spec.energy (xs.take n) + Spec.stored c.a1 c.a2 (T 0) = Spec.energy (ys.take n) + Spec.stored c.a1 c.a2 (T n) := by
  obtain ⟨h2, h1⟩ := h
  obtain ⟨h2a, h2b⟩ := abs_lt.1 h2
  obtain ⟨h1a, h1b⟩ := abs_lt.1 h1
  have d1 : 1 - c.a2 ≠ 0 := by linarith
  have d2 : (1 + c.a2) ^ 2 - c.a1 ^ 2 ≠ 0 := by
    have : (1 + c.a2) ^ 2 - c.a1 ^ 2 = (1 + c.a2 - c.a1) * (1 + c.a2 + c.a1) := by ring
    rw [this]; exact mul_ne_zero (by linarith) (by linarith)
  intro n
  induction n with
  | zero => intro _; simp [Spec.energy]
  | succ n ih =>
    intro hn
    have i := ih (by omega)
    rw [energy_snoc xs n hn, energy_snoc ys n (by rw [t.len]; exact hn), t.next n hn]
    have ho := t.out n hn
    obtain ⟨b0, b1, b2⟩ := hb
    rw [b0] at ho
    rw [b1, b2]
    set x := xs.getD n 0
    set y := ys.getD n 0
    have hT : (T n).1 = y - c.a2 * x := by linarith
    have st : Spec.stored c.a1 c.a2 (c.a1 * x - c.a1 * y + (T n).2, 1 * x - c.a2 * y) = Spec.stored c.a1 c.a2 (T n) + x ^ 2 - y ^ 2 := by
      unfold Spec.stored
      rw [hT]
      field_simp
      ring
    rw [st]; linarith

/-- C98: **the all-pass neither adds nor loses energy**: for any cutoff below the Nyquist frequency and positive quality, after any
samples through the sample-wise calls, the energy that went in equals the energy that came out plus what the registers still hold; so
the output energy never exceeds the input energy. -/
theorem C98_allpass_energy_partial {ω q : ℝ} (h0 : 0 < ω) (h1 : ω < Real.pi) (hq : 0 < q) (s : Side) (ks : List Call)
    (hk : ∀ k ∈ ks, Spec.plain k) (hn : ∀ k ∈ ks, ¬ Spec.flushes k) :
    ∃ rest, 0 ≤ rest ∧ Spec.energy (ks.flatMap (Spec.input s)) =
        Spec.energy (Spec.output ((Filter.new.coeffApf ω q).calls ks) s) + rest ∧
      (rest = 0 ↔ s.of ((Filter.new.coeffApf ω q).calls ks).1.reg0 = 0 ∧ s.of ((Filter.new.coeffApf ω q).calls ks).1.reg1 = 0) := by
  obtain ⟨g1, g2, g3, g4⟩ := design_stable .apf (f := Filter.new) rfl h0 h1 hq
  simp only [Filter.design] at g1 g2 g3 g4
  have hα := alpha_pos h0 h1 hq
  have e : Filter.new.coeffApf ω q = Filter.new.setCoef (1 + Real.sin ω / (2 * q)) (-2 * Real.cos ω) (1 - Real.sin ω / (2 * q))
    (1 - Real.sin ω / (2 * q)) (-2 * Real.cos ω) (1 + Real.sin ω / (2 * q)) := if_neg (not_not.2 ⟨h0.le, h1.le⟩)
  have ecf : (Filter.new.coeffApf ω q).cf = Spec.normal (1 + Real.sin ω / (2 * q)) (-2 * Real.cos ω) (1 - Real.sin ω / (2 * q))
    (1 - Real.sin ω / (2 * q)) (-2 * Real.cos ω) (1 + Real.sin ω / (2 * q)) := by
    rw [e]; exact rests_cf (setCoef_first Filter.new rfl ..)
  have hb : (Filter.new.coeffApf ω q).cf.b0 = (Filter.new.coeffApf ω q).cf.a2 ∧ (Filter.new.coeffApf ω q).cf.b1 = (Filter.new.coeffApf ω q).cf.a1 ∧
      (Filter.new.coeffApf ω q).cf.b2 = 1 := by
    rw [ecf]; exact ⟨rfl, rfl, div_self (by linarith)⟩
  obtain ⟨T, e0, e1, t⟩ := traj_exact g1 s ks hk hn
  have fin := lossless g2 hb t _ le_rfl
  rw [List.take_of_length_le le_rfl, List.take_of_length_le (by rw [t.len]), e0, g3, g4] at fin
  have z : Spec.stored (Filter.new.coeffApf ω q).cf.a1 (Filter.new.coeffApf ω q).cf.a2 (s.of Filter.new.reg0, s.of Filter.new.reg1) = 0 := by
    cases s <;> simp [Filter.new, Side.of, Spec.stored]
  rw [z, add_zero, e1] at fin
  refine ⟨_, (stored_pos g2 _).1, fin, fun h => ?_, fun ⟨h1, h2⟩ => ?_⟩
  · have := (stored_pos g2 _).2 h
    exact ⟨congrArg Prod.fst this, congrArg Prod.snd this⟩
  · rw [h1, h2]; simp [Spec.stored]

/-! ## C99: above the Nyquist frequency -/

/-- The designs that test the cutoff against the Nyquist frequency. -/
def Spec.guarded : Design → Prop
  | .lp | .lpBw | .lp2b | .hp | .hpBw | .notch | .apf => True
  | .bp | .bp2a | .pka | .lphMorph => False

/-- The gain of a guarded design above the Nyquist frequency. -/
def Spec.above : Design → ℝ
  | .hp | .hpBw => 0
  | _ => 1

/-- C99: **above the Nyquist frequency the low passes, the notch and the all-pass let everything through and the high passes nothing.** -/
theorem C99_guarded_partial (d : Design) (hd : Spec.guarded d) {ω : ℝ} (q : ℝ) (h : Real.pi < ω) (s : Side) (ks : List Call)
    (hk : ∀ k ∈ ks, Spec.plain k) :
    Spec.Solves 2e-30 ⟨0, 0, Spec.above d, 0, 0⟩ (ks.flatMap (Spec.input s))
      (Spec.output ((Filter.new.design d ω q).calls ks) s) := by
  have e : Filter.new.design d ω q = Filter.new.setCoef 1 0 0 (Spec.above d) 0 0 := by
    have n2 : ¬ (0 ≤ ω ∧ ω ≤ Real.pi) := fun h' => absurd h'.2 (not_le.2 h)
    cases d with
    | lp => exact if_pos h
    | lpBw => exact if_pos h
    | lp2b => exact if_pos h
    | hp => exact if_pos h
    | hpBw => exact if_pos h
    | notch => exact if_pos h
    | apf => exact if_pos n2
    | bp => exact hd.elim
    | bp2a => exact hd.elim
    | pka => exact hd.elim
    | lphMorph => exact hd.elim
  rw [e]
  have := (C94_constant_coefficients_partial s 1 0 0 (Spec.above d) 0 0 ks hk).1
  simpa only [Spec.normal, div_one] using this

/-- The impulse, followed by silence. -/
def Spec.impulse (n : ℕ) : List Call := .sample 1 :: List.replicate n (.sample 0)

theorem impulse_input (n : ℕ) : (Spec.impulse n).flatMap (Spec.input .left) = 1 :: List.replicate n 0 := by
  simp only [Spec.impulse, List.flatMap_cons, Spec.input, List.singleton_append, List.cons.injEq, true_and]
  induction n with
  | zero => rfl
  | succ n ih => rw [List.replicate_succ, List.flatMap_cons, ih]; rfl

/-- A filter whose poles multiply to more than one in magnitude, and whose impulse response is not degenerate, is unbounded. -/
theorem unbounded {c : Cf} {f : Filter} (hf : Rests c f) (hreg : f.reg0.1 = 0 ∧ f.reg1.1 = 0) (ha : 1 < |c.a2|)
    (hD : (c.b2 - c.a2 * c.b0) ^ 2 - c.a1 * (c.b1 - c.a1 * c.b0) * (c.b2 - c.a2 * c.b0) + c.a2 * (c.b1 - c.a1 * c.b0) ^ 2 ≠ 0) (M : ℝ) :
    ∃ n, ∃ y ∈ Spec.output (f.calls (Spec.impulse n)) .left, M < |y| := by
  by_contra hcon
  push Not at hcon
  set D0 := (c.b2 - c.a2 * c.b0) ^ 2 - c.a1 * (c.b1 - c.a1 * c.b0) * (c.b2 - c.a2 * c.b0) + c.a2 * (c.b1 - c.a1 * c.b0) ^ 2 with hD0
  set B := (1 + |c.a1| + |c.a2|) * M ^ 2 with hB
  obtain ⟨m, hm⟩ : ∃ m : ℕ, B / |D0| < |c.a2| ^ m := pow_unbounded_of_one_lt _ ha
  have hplain : ∀ k ∈ Spec.impulse (m + 2), Spec.plain k := by
    intro k hk
    simp only [Spec.impulse, List.mem_cons, List.mem_replicate] at hk
    rcases hk with rfl | ⟨-, rfl⟩ <;> trivial
  have hnf : ∀ k ∈ Spec.impulse (m + 2), ¬ Spec.flushes k := by
    intro k hk
    simp only [Spec.impulse, List.mem_cons, List.mem_replicate] at hk
    rcases hk with rfl | ⟨-, rfl⟩ <;> exact fun h => h
  obtain ⟨T, e0, -, t⟩ := traj_exact hf .left _ hplain hnf
  have hbd := hcon (m + 2)
  rw [impulse_input] at t
  set ys := Spec.output (f.calls (Spec.impulse (m + 2))) .left with hys
  have hlen : (1 :: List.replicate (m + 2) (0 : ℝ)).length = m + 3 := by simp
  have x0 : (1 :: List.replicate (m + 2) (0 : ℝ)).getD 0 0 = 1 := rfl
  have xn : ∀ n, (1 :: List.replicate (m + 2) (0 : ℝ)).getD (n + 1) 0 = 0 := fun n => by
    rw [List.getD_cons_succ, List.getD, List.getElem?_replicate]
    by_cases h : n < m + 2
    · rw [if_pos h]; rfl
    · rw [if_neg h]; rfl
  have yb : ∀ n < m + 3, |ys.getD n 0| ≤ M := fun n hn => by
    have : n < ys.length := by rw [t.len, hlen]; exact hn
    rw [List.getD, List.getElem?_eq_getElem this, Option.getD_some]
    exact hbd _ (List.getElem_mem this)
  have T0 : T 0 = (0, 0) := by rw [e0]; exact Prod.ext hreg.1 hreg.2
  have y0 : ys.getD 0 0 = c.b0 := by
    have := t.out 0 (by rw [hlen]; omega)
    rw [x0, T0] at this; linarith
  have T1 : T 1 = (c.b1 - c.a1 * c.b0, c.b2 - c.a2 * c.b0) := by
    have := t.next 0 (by rw [hlen]; omega)
    rw [x0, T0, y0] at this
    rw [zero_add] at this
    rw [this]; refine Prod.ext ?_ ?_ <;> simp only <;> ring
  have yn : ∀ n < m + 2, ys.getD (n + 1) 0 = (T (n + 1)).1 := fun n hn => by
    have := t.out (n + 1) (by rw [hlen]; omega)
    rw [xn] at this; linarith
  have Tn : ∀ n < m + 2, T (n + 2) = (-c.a1 * (T (n + 1)).1 + (T (n + 1)).2, -c.a2 * (T (n + 1)).1) := fun n hn => by
    have := t.next (n + 1) (by rw [hlen]; omega)
    rw [xn, yn n hn] at this
    rw [this]; refine Prod.ext ?_ ?_ <;> simp only <;> ring
  have det : ∀ n ≤ m, (T (n + 1)).2 ^ 2 - c.a1 * (T (n + 1)).1 * (T (n + 1)).2 + c.a2 * (T (n + 1)).1 ^ 2 = c.a2 ^ n * D0 := by
    intro n
    induction n with
    | zero => intro _; rw [zero_add, T1, pow_zero, one_mul, hD0]
    | succ n ih =>
      intro hn
      have i := ih (by omega)
      rw [Tn n (by omega), pow_succ c.a2 n]
      linear_combination c.a2 * i
  have d := det m le_rfl
  have y1 := yb (m + 1) (by omega)
  have y2 := yb (m + 2) (by omega)
  rw [yn m (by omega)] at y1
  rw [yn (m + 1) (by omega), Tn m (by omega)] at y2
  simp only at y2
  have M0 : 0 ≤ M := (abs_nonneg _).trans y1
  set p := (T (m + 1)).1
  set w := -c.a1 * p + (T (m + 1)).2 with hw
  have hd : c.a2 ^ m * D0 = w ^ 2 + c.a1 * p * w + c.a2 * p ^ 2 := by rw [← d, hw]; ring
  have habs : |c.a2| ^ m * |D0| ≤ B := by
    rw [← abs_pow, ← abs_mul, hd]
    have a1 : |w ^ 2| ≤ M ^ 2 := by rw [abs_pow]; exact pow_le_pow_left₀ (abs_nonneg _) y2 2
    have a2 : |p ^ 2| ≤ M ^ 2 := by rw [abs_pow]; exact pow_le_pow_left₀ (abs_nonneg _) y1 2
    have a3 : |p| * |w| ≤ M ^ 2 := by rw [sq]; exact mul_le_mul y1 y2 (abs_nonneg _) M0
    refine (abs_add_le _ _).trans ((add_le_add_left (abs_add_le _ _) _).trans ?_)
    rw [abs_mul (c.a1 * p), abs_mul c.a1, abs_mul c.a2]
    have b1 := mul_le_mul_of_nonneg_left a3 (abs_nonneg c.a1)
    have b2 := mul_le_mul_of_nonneg_left a2 (abs_nonneg c.a2)
    rw [hB]
    linarith
  have : |c.a2| ^ m * |D0| > B := by
    have hpos : 0 < |D0| := abs_pos.2 hD
    rwa [div_lt_iff₀ hpos] at hm
  linarith

/-- C99: **the band passes have no such test: between the Nyquist frequency and the sample rate they blow up.** For `π < ω < 2π` and
any positive quality (except the one value for which the code divides by zero), the response to a single sample exceeds every
bound. -/
theorem C99_bandpass_explodes {ω q : ℝ} (h1 : Real.pi < ω) (h2 : ω < 2 * Real.pi) (hq : 0 < q) (hne : Real.sin ω ≠ -(2 * q)) (M : ℝ) :
    ∃ n, ∃ y ∈ Spec.output ((Filter.new.coeffBp ω q).calls (Spec.impulse n)) .left, M < |y| := by
  have hs : Real.sin ω < 0 := by
    have := Real.sin_pos_of_pos_of_lt_pi (show 0 < ω - Real.pi by linarith) (by linarith)
    rw [Real.sin_sub_pi] at this; linarith
  set α := Real.sin ω / (2 * q) with hα
  have αneg : α < 0 := div_neg_of_neg_of_pos hs (by positivity)
  have α1 : 1 + α ≠ 0 := fun h => hne (by
    have : α = -1 := by linarith
    rw [hα, div_eq_iff (by positivity)] at this; linarith)
  have e : Filter.new.coeffBp ω q = Filter.new.setCoef (1 + α) (-2 * Real.cos ω) (1 - α) α 0 (-α) := rfl
  have hr := setCoef_first Filter.new rfl (1 + α) (-2 * Real.cos ω) (1 - α) α 0 (-α)
  rw [e]
  refine unbounded hr ⟨rfl, rfl⟩ ?_ ?_ M
  · simp only [Spec.normal]
    rw [abs_div, one_lt_div (abs_pos.2 α1)]
    rw [abs_of_pos (show 0 < 1 - α by linarith), abs_lt]
    constructor <;> linarith
  · simp only [Spec.normal]
    have hc : Real.cos ω ^ 2 = 1 - Real.sin ω ^ 2 := by linarith [Real.sin_sq_add_cos_sq ω]
    have : (-α / (1 + α) - (1 - α) / (1 + α) * (α / (1 + α))) ^ 2 - -2 * Real.cos ω / (1 + α) *
        (0 / (1 + α) - -2 * Real.cos ω / (1 + α) * (α / (1 + α))) * (-α / (1 + α) - (1 - α) / (1 + α) * (α / (1 + α))) +
        (1 - α) / (1 + α) * (0 / (1 + α) - -2 * Real.cos ω / (1 + α) * (α / (1 + α))) ^ 2 =
        4 * α ^ 2 * (1 - Real.cos ω ^ 2) / (1 + α) ^ 4 := by
      field_simp
      ring
    rw [this, hc]
    have : 1 - (1 - Real.sin ω ^ 2) = Real.sin ω ^ 2 := by ring
    rw [this]
    refine div_ne_zero (mul_ne_zero (mul_ne_zero (by norm_num) (pow_ne_zero _ αneg.ne)) (pow_ne_zero _ hs.ne)) (pow_ne_zero _ α1)

/-- The morphing design is the band pass, whatever the morph parameter says. -/
theorem C99_morph_ignored (f : Filter) (ω q m : ℝ) : f.coeffLphMorph ω q m = f.coeffBp ω q := rfl

end Verif.Biquad
