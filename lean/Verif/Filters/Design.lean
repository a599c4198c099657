import Verif.Filters.Iir
import Verif.Biquad.Designs
import Mathlib.Analysis.SpecialFunctions.Trigonometric.Bounds
/-!
# What the voice filters are tuned to (C102), and when they are stable (C103)
-/
namespace Verif.Filters
open Biquad (Cf)

/-- The angle per oversampled sample of the frequency of note `n` (note 0 is 440 Hz), at most half a turn; `sr` is the oversampled rate. -/
noncomputable def Spec.omega (sr : ℝ) (n : ℤ) : ℝ := 2 * Real.pi * min (1 / 2) (440 * (2 : ℝ) ^ ((n : ℝ) / 12) / sr)

/-- The coefficients a filter of the given kind has when it is tuned to the angle `θ`. -/
noncomputable def Spec.tunedTo (clip : ℝ) (ty : IirType) (s : SubType) (p : PoleType) (freq reso θ : ℝ) : ℕ → ℝ :=
  let q := q2inv reso freq s p
  realise (designOf (alpha (Real.sin θ) (Real.cos θ) q s) (Real.cos θ) q ty) (resoscale reso s) clip s

theorem omega_range (sr : ℝ) (hs : 0 < sr) (n : ℤ) : 0 < Spec.omega sr n ∧ Spec.omega sr n ≤ Real.pi := by
  unfold Spec.omega
  have := Real.pi_pos
  have p : (0 : ℝ) < 440 * (2 : ℝ) ^ ((n : ℝ) / 12) / sr := by positivity
  constructor
  · have : 0 < min (1 / 2) (440 * (2 : ℝ) ^ ((n : ℝ) / 12) / sr) := lt_min (by norm_num) p
    positivity
  · have : min (1 / 2) (440 * (2 : ℝ) ^ ((n : ℝ) / 12) / sr) ≤ 1 / 2 := min_le_left _ _
    nlinarith

theorem trunc_int (m : ℤ) : trunc (m : ℝ) = m := by unfold trunc; split <;> simp

theorem note_int {sr : ℝ} {n : ℤ} (h0 : -55 ≤ n) (h1 : n ≤ 75) :
    noteToOmega (1 / sr) n = (Real.sin (Spec.omega sr n), Real.cos (Spec.omega sr n)) := by
  have e : (n : ℝ) + 256.0 = ((n + 256 : ℤ) : ℝ) := by push_cast; norm_num
  unfold noteToOmega
  dsimp only
  rw [e, trunc_int]
  have i1 : ¬ (0x1fe : ℤ) < n + 256 := by omega
  have i2 : ¬ n + 256 < 0 := by omega
  have i3 : (n + 256).toNat % 512 = (n + 256).toNat := Nat.mod_eq_of_lt (by omega)
  have ang : tableAngle (1 / sr) (n + 256).toNat = Spec.omega sr n := by
    unfold tableAngle tablePitch Spec.omega
    have c : (((n + 256).toNat : ℕ) : ℝ) = (n : ℝ) + 256 := by
      have : (((n + 256).toNat : ℤ) : ℝ) = ((n + 256 : ℤ) : ℝ) := by rw [Int.toNat_of_nonneg (by omega)]
      push_cast at this ⊢; exact this
    rw [c]
    have e1 : (n : ℝ) + 256 - 256.0 = n := by norm_num
    rw [e1]
    have e2 : (n : ℝ) * (1.0 / 12.0) = n / 12 := by norm_num; ring
    have e3 : (2.0 : ℝ) = 2 := by norm_num
    have e4 : (0.5 : ℝ) = 1 / 2 := by norm_num
    have e5 : (440.0 : ℝ) = 440 := by norm_num
    rw [e2, e3, e4, e5, mul_one_div]
  rw [if_neg i1, if_neg i2, i3, sub_self, ang]
  simp [lerp]

theorem bound_int {n : ℤ} (h0 : -55 ≤ n) (h1 : n ≤ 75) : boundfreq (n : ℝ) = n := by
  have a : (-55 : ℝ) ≤ n := by exact_mod_cast h0
  have b : (n : ℝ) ≤ 75 := by exact_mod_cast h1
  unfold boundfreq
  simp only [if_neg (not_lt.2 b), if_neg (not_lt.2 a)]

/-- C102, refuted: **the cutoff is mirrored**: at every whole note from -55 to 75, every IIR filter gets the coefficients of a filter tuned
to a quarter of the oversampled sample rate *minus* the frequency of the note, because sine and cosine are exchanged. -/
theorem C102_mirrored {sr : ℝ} (clipscale : ℝ → SubType → ℝ) (ty : IirType) (s : SubType) (p : PoleType) (reso : ℝ) {n : ℤ}
    (h0 : -55 ≤ n) (h1 : n ≤ 75) :
    iirCoeffMake (1 / sr) clipscale ty s p n reso =
      Spec.tunedTo (clipscale n s) ty s p n reso (Real.pi / 2 - Spec.omega sr n) := by
  simp only [iirCoeffMake, Spec.tunedTo, bound_int h0 h1, note_int h0 h1, Real.sin_pi_div_two_sub, Real.cos_pi_div_two_sub]

/-! ## Responses -/

theorem h_sq (c : Cf) (fr : ℝ) : ‖c.h fr‖ ^ 2 =
    ((c.b1 + (c.b0 + c.b2) * Real.cos (2 * Real.pi * fr)) ^ 2 + ((c.b0 - c.b2) * Real.sin (2 * Real.pi * fr)) ^ 2) /
    ((c.a1 + (1 + c.a2) * Real.cos (2 * Real.pi * fr)) ^ 2 + ((1 - c.a2) * Real.sin (2 * Real.pi * fr)) ^ 2) := by
  have ez : Complex.exp (-2 * Real.pi * fr * Complex.I) = Complex.exp (-(2 * Real.pi * fr : ℝ) * Complex.I) := by push_cast; ring_nf
  unfold Biquad.Cf.h
  rw [ez, norm_div, div_pow]
  have n1 := Biquad.quad_norm c.b0 c.b1 c.b2 (2 * Real.pi * fr)
  have n2 := Biquad.quad_norm 1 c.a1 c.a2 (2 * Real.pi * fr)
  rw [Complex.ofReal_one] at n2
  rw [n1, n2]

theorem cs (θ : ℝ) : 2 * Real.pi * (θ / (2 * Real.pi)) = θ := by have := Real.pi_ne_zero; field_simp

/-- The notch the band-reject design makes. -/
theorem notch_sq {α c : ℝ} (hα : 0 < 1 + α) (θ : ℝ) : ‖(Spec.biquad (Fc.bandreject α c) 1).h (θ / (2 * Real.pi))‖ ^ 2 =
    4 * (Real.cos θ - c) ^ 2 / (4 * (Real.cos θ - c) ^ 2 + 4 * α ^ 2 * Real.sin θ ^ 2) := by
  rw [h_sq, cs]
  have one : (1.0 : ℝ) = 1 := by norm_num
  have two : (2.0 : ℝ) = 2 := by norm_num
  simp only [Spec.biquad, Biquad.Spec.normal, Fc.bandreject, mul_one, one, two]
  generalize Real.cos θ = u
  generalize Real.sin θ = v
  have e1 : (-2 * c / (1 + α) + (1 / (1 + α) + 1 / (1 + α)) * u) ^ 2 + ((1 / (1 + α) - 1 / (1 + α)) * v) ^ 2 =
      4 * (u - c) ^ 2 / (1 + α) ^ 2 := by field_simp; ring
  have e2 : (-2 * c / (1 + α) + (1 + (1 - α) / (1 + α)) * u) ^ 2 + ((1 - (1 - α) / (1 + α)) * v) ^ 2 =
      (4 * (u - c) ^ 2 + 4 * α ^ 2 * v ^ 2) / (1 + α) ^ 2 := by field_simp; ring
  rw [e1, e2, div_div_div_cancel_right₀ (by positivity)]

/-- The gain of the low-pass design. -/
theorem low_sq {α c gain : ℝ} (hα : 0 < 1 + α) (θ : ℝ) : ‖(Spec.biquad (Fc.lowpass α c) gain).h (θ / (2 * Real.pi))‖ ^ 2 =
    gain ^ 2 * ((1 - c) * (1 + Real.cos θ)) ^ 2 / (4 * (Real.cos θ - c) ^ 2 + 4 * α ^ 2 * Real.sin θ ^ 2) := by
  rw [h_sq, cs]
  have one : (1.0 : ℝ) = 1 := by norm_num
  have two : (2.0 : ℝ) = 2 := by norm_num
  have half : (0.5 : ℝ) = 1 / 2 := by norm_num
  simp only [Spec.biquad, Biquad.Spec.normal, Fc.lowpass, one, two, half]
  generalize Real.cos θ = u
  generalize Real.sin θ = v
  have e1 : ((1 - c) * gain / (1 + α) + ((1 - c) * (1 / 2) * gain / (1 + α) + (1 - c) * (1 / 2) * gain / (1 + α)) * u) ^ 2 +
      (((1 - c) * (1 / 2) * gain / (1 + α) - (1 - c) * (1 / 2) * gain / (1 + α)) * v) ^ 2 =
      gain ^ 2 * ((1 - c) * (1 + u)) ^ 2 / (1 + α) ^ 2 := by field_simp; ring
  have e2 : (-2 * c / (1 + α) + (1 + (1 - α) / (1 + α)) * u) ^ 2 + ((1 - (1 - α) / (1 + α)) * v) ^ 2 =
      (4 * (u - c) ^ 2 + 4 * α ^ 2 * v ^ 2) / (1 + α) ^ 2 := by field_simp; ring
  rw [e1, e2, div_div_div_cancel_right₀ (by positivity)]

/-- The damping of the band-reject filter, as its resonance knob sets it. -/
noncomputable def Spec.notchDamping (s : SubType) (reso : ℝ) : ℝ :=
  if s = .rough then 1.00 - 0.99 * limit (1.0 - (1.0 - reso) * (1.0 - reso)) 0 1 else 2.5 - 2.49 * limit (1.0 - (1.0 - reso) * (1.0 - reso)) 0 1

theorem limit01 (x : ℝ) : 0 ≤ limit x 0 1 ∧ limit x 0 1 ≤ 1 := ⟨le_max_left _ _, max_le (by norm_num) (min_le_right _ _)⟩

theorem notchDamping_pos (s : SubType) (reso : ℝ) : 0 < Spec.notchDamping s reso := by
  unfold Spec.notchDamping
  obtain ⟨a, b⟩ := limit01 (1.0 - (1.0 - reso) * (1.0 - reso))
  split <;> norm_num at * <;> linarith

/-- C102, refuted: **the notch is in the wrong place**: at every whole note below a quarter of the oversampled rate, the band-reject
filter's coefficients realise a stable biquad that removes the mirrored frequency and lets the note's own frequency through (unless the
two coincide). -/
theorem C102_notch_misplaced {sr : ℝ} (hsr : 0 < sr) (s : SubType) (reso : ℝ) {n : ℤ} (h0 : -55 ≤ n) (h1 : n ≤ 75)
    (hω : Spec.omega sr n < Real.pi / 2) :
    ∃ f : Fc, bandrejectCoeffMake (1 / sr) s n reso = f.lattice 1 0.005 ∧ Biquad.Spec.Stable (Spec.biquad f 1) ∧
      (Spec.biquad f 1).h ((Real.pi / 2 - Spec.omega sr n) / (2 * Real.pi)) = 0 ∧
      (Spec.omega sr n ≠ Real.pi / 4 → (Spec.biquad f 1).h (Spec.omega sr n / (2 * Real.pi)) ≠ 0) := by
  have hr := omega_range sr hsr n
  set ω := Spec.omega sr n with hω'
  have hq := notchDamping_pos s reso
  have hk : 0 < Real.cos ω := Real.cos_pos_of_mem_Ioo ⟨by linarith [hr.1, Real.pi_pos], hω⟩
  have hs : 0 < Real.sin ω := Real.sin_pos_of_pos_of_lt_pi hr.1 (by linarith [Real.pi_pos])
  have cs1 := Real.sin_sq_add_cos_sq ω
  set α := Real.cos ω * Spec.notchDamping s reso with hα
  have α0 : 0 < α := mul_pos hk hq
  have hs1 : Real.sin ω < 1 := by nlinarith
  have st : Biquad.Spec.Stable (Spec.biquad (Fc.bandreject α (Real.sin ω)) 1) := by
    have one : (1.0 : ℝ) = 1 := by norm_num
    have two : (2.0 : ℝ) = 2 := by norm_num
    simp only [Biquad.Spec.Stable, Spec.biquad, Biquad.Spec.normal, Fc.bandreject, one, two]
    have p : 0 < 1 + α := by linarith
    constructor
    · rw [abs_lt, lt_div_iff₀ p, div_lt_one p]; constructor <;> linarith
    · have : 1 + (1 - α) / (1 + α) = 2 / (1 + α) := by field_simp; ring
      rw [this, abs_div, abs_of_pos p, div_lt_div_iff_of_pos_right p, abs_lt]
      constructor <;> linarith
  refine ⟨Fc.bandreject α (Real.sin ω), ?_, st, ?_, fun hne => ?_⟩
  · have one : (1.0 : ℝ) = 1 := by norm_num
    simp only [bandrejectCoeffMake, bound_int h0 h1, note_int h0 h1, hα, Spec.notchDamping, one]
    rfl
  · have := notch_sq (α := α) (c := Real.sin ω) (by linarith) (Real.pi / 2 - ω)
    rw [Real.cos_pi_div_two_sub, sub_self] at this
    simpa using this
  · intro hz
    have := notch_sq (α := α) (c := Real.sin ω) (by linarith) ω
    rw [hz, norm_zero] at this
    have d : 0 < 4 * (Real.cos ω - Real.sin ω) ^ 2 + 4 * α ^ 2 * Real.sin ω ^ 2 := by positivity
    rw [eq_div_iff d.ne'] at this
    have z : Real.cos ω = Real.sin ω := by nlinarith
    rw [← Real.sin_pi_div_two_sub] at z
    have := Real.injOn_sin (x₁ := Real.pi / 2 - ω) (x₂ := ω) ⟨by linarith, by linarith [hr.1]⟩ ⟨by linarith [hr.1, Real.pi_pos], by linarith⟩ z
    exact hne (by linarith)

theorem alpha_le (sinu cosi q : ℝ) {s : SubType} (hs : s ≠ .svf) : alpha sinu cosi q s ≤ Real.sqrt (1 - cosi * cosi) - 0.0001 := by
  have one : (1.0 : ℝ) = 1 := by norm_num
  cases s <;> first | exact absurd rfl hs | (simp only [alpha, one]; exact min_le_right _ _)

/-- C103: the smooth subtype always keeps some damping, at every resonance; rough and medium do with no resonance, but at full resonance
the damping is negative. -/
theorem C103_damping (reso freq : ℝ) (p : PoleType) : 0 < q2inv reso freq .smooth p ∧ 0 < q2inv 0 freq .rough p ∧ 0 < q2inv 0 freq .medium p ∧
    (freq ≤ 58 → q2inv 1 freq .rough p < 0 ∧ q2inv 1 freq .medium p < 0) := by
  have L := fun x => limit01 x
  have t0 : taper 0 freq = 0 := by simp [taper]
  have z : limit 0 0 1 = (0 : ℝ) := by norm_num [limit]
  have z' : limit 0 0.001 1 = (0.001 : ℝ) := by norm_num [limit]
  have o : limit 1 0 1 = (1 : ℝ) := by norm_num [limit]
  have o' : limit 1 0.001 1 = (1 : ℝ) := by norm_num [limit]
  have c0 : curve 0 = 0 := by norm_num [curve]
  have c1 : curve 1 = 1 := by norm_num [curve]
  cases p
  · refine ⟨?_, ?_, ?_, fun hf => ?_⟩
    · simp only [q2inv, map2pole]; have := L (curve reso); norm_num at *; linarith
    · simp only [q2inv, map2pole, t0, c0, z']; norm_num
    · simp only [q2inv, map2pole, t0, c0, z]; norm_num
    · have t1 : taper 1 freq = 1 := by
        unfold taper
        have : max 0 ((freq - 58.0) * 0.05) = 0 := max_eq_left (by norm_num; linarith)
        rw [this]; norm_num
      simp only [q2inv, map2pole, t1, c1, o, o']; norm_num
  · refine ⟨?_, ?_, ?_, fun hf => ?_⟩
    · simp only [q2inv, map4pole]; have := L reso; norm_num at *; linarith
    · simp only [q2inv, map4pole, t0, z']; norm_num
    · simp only [q2inv, map4pole, t0, z]; norm_num
    · have t1 : taper 1 freq = 1 := by
        unfold taper
        have : max 0 ((freq - 58.0) * 0.05) = 0 := max_eq_left (by norm_num; linarith)
        rw [this]; norm_num
      simp only [q2inv, map4pole, t1, o, o']; norm_num

theorem open_ratio {σ κ α : ℝ} (h1 : σ ^ 2 + κ ^ 2 = 1) (h0 : 0 < σ) (hs1 : σ ≤ 1 / 10) (hk : 0 < κ) (α0 : 0 < α) (αle : α ≤ κ) :
    0.97 ≤ 1 ^ 2 * ((1 - σ) * (1 + κ)) ^ 2 / (4 * (κ - σ) ^ 2 + 4 * α ^ 2 * σ ^ 2) := by
  have k99 : 0.994 ≤ κ := by norm_num; nlinarith
  have k1 : κ ≤ 1 := by nlinarith
  have num : 3.976 * (1 - σ) ^ 2 ≤ ((1 - σ) * (1 + κ)) ^ 2 := by
    rw [mul_pow, mul_comm]
    exact mul_le_mul_of_nonneg_left (by norm_num at *; nlinarith) (sq_nonneg _)
  have den : 4 * (κ - σ) ^ 2 + 4 * α ^ 2 * σ ^ 2 ≤ 4 * (1 - σ) ^ 2 + 4 * σ ^ 2 := by
    have a2 : α ^ 2 ≤ 1 := by nlinarith
    have : α ^ 2 * σ ^ 2 ≤ 1 * σ ^ 2 := mul_le_mul_of_nonneg_right a2 (sq_nonneg _)
    nlinarith
  have dp : 0 < 4 * (κ - σ) ^ 2 + 4 * α ^ 2 * σ ^ 2 := by positivity
  rw [one_pow, one_mul, le_div_iff₀ dp]
  norm_num at *
  nlinarith

/-- C102, refuted: **a low-pass set low is wide open**: with no resonance, the low-pass filter (rough, smooth or medium) set to any whole
note below a sixtieth or so of the oversampled rate passes the note's own frequency with more than 97% of its power, where a low-pass of
this family tuned to the note passes a quarter. -/
theorem C102_lowpass_open {sr : ℝ} (hsr : 0 < sr) (clipscale : ℝ → SubType → ℝ) {s : SubType} (hs : s ≠ .svf) {n : ℤ} (h0 : -55 ≤ n)
    (h1 : n ≤ 75) (hω : Spec.omega sr n ≤ 1 / 10) :
    ∃ f : Fc, iirCoeffMake (1 / sr) clipscale .lowPass s .two n 0 = realise f 1 (clipscale n s) s ∧
      0.97 ≤ ‖(Spec.biquad f 1).h (Spec.omega sr n / (2 * Real.pi))‖ ^ 2 := by
  have hr := omega_range sr hsr n
  have hm := C102_mirrored (sr := sr) clipscale .lowPass s .two 0 h0 h1
  set ω := Spec.omega sr n with hω'
  have pi3 := Real.two_le_pi
  have hs0 : 0 < Real.sin ω := Real.sin_pos_of_pos_of_lt_pi hr.1 (by linarith)
  have hs1 : Real.sin ω ≤ 1 / 10 := (Real.sin_lt hr.1).le.trans hω
  have hk : 0 < Real.cos ω := Real.cos_pos_of_mem_Ioo ⟨by linarith, by linarith⟩
  have cs1 := Real.sin_sq_add_cos_sq ω
  simp only [Spec.tunedTo, Real.sin_pi_div_two_sub, Real.cos_pi_div_two_sub, designOf] at hm
  have rz : resoscale 0 s = 1 := by cases s <;> norm_num [resoscale]
  rw [rz] at hm
  set q := q2inv 0 n s .two with hq
  set α := alpha (Real.cos ω) (Real.sin ω) q s with hα
  refine ⟨Fc.lowpass α (Real.sin ω), hm, ?_⟩
  have q0 : 0 < q := by
    obtain ⟨a, b, c, -⟩ := C103_damping 0 n .two
    cases s
    · exact absurd rfl hs
    · exact b
    · exact a
    · exact c
  have αle : α ≤ Real.cos ω := by
    have := alpha_le (Real.cos ω) (Real.sin ω) q hs
    have e : 1 - Real.sin ω * Real.sin ω = Real.cos ω ^ 2 := by nlinarith
    rw [e, Real.sqrt_sq hk.le] at this
    linarith
  have α0 : 0 < α := by
    have e : (1.0 : ℝ) - Real.sin ω * Real.sin ω = Real.cos ω ^ 2 := by norm_num; nlinarith
    have k9 : 0.9 ≤ Real.cos ω := by nlinarith
    have : 0 < min (Real.cos ω * q) (Real.cos ω - 0.0001) := lt_min (mul_pos hk q0) (by norm_num at *; linarith)
    cases s
    · exact absurd rfl hs
    all_goals
      simp only [hα, alpha]
      rw [e, Real.sqrt_sq hk.le]
      exact this
  rw [low_sq (by linarith)]
  exact open_ratio cs1 hs0 hs1 hk α0 αle

/-! ## C103 -/

theorem stable_alpha {α c : ℝ} (hα : 0 < α) (hc : |c| < 1) (ty : IirType) (q gain : ℝ) :
    Biquad.Spec.Stable (Spec.biquad (designOf α c q ty) gain) := by
  have one : (1.0 : ℝ) = 1 := by norm_num
  have two : (2.0 : ℝ) = 2 := by norm_num
  have p : 0 < 1 + α := by linarith
  have key : |(1 - α) / (1 + α)| < 1 ∧ |-2 * c / (1 + α)| < 1 + (1 - α) / (1 + α) := by
    constructor
    · rw [abs_lt, lt_div_iff₀ p, div_lt_one p]; constructor <;> linarith
    · have : 1 + (1 - α) / (1 + α) = 2 / (1 + α) := by field_simp; ring
      rw [this, abs_div, abs_of_pos p, div_lt_div_iff_of_pos_right p, abs_mul]
      norm_num; exact hc
  cases ty <;>
  · simp only [Biquad.Spec.Stable, Spec.biquad, Biquad.Spec.normal, designOf, Fc.lowpass, Fc.bandpass, Fc.highpass, one, two]
    exact key

theorem complex_alpha {α c : ℝ} (hα : 0 < α) (hc : |c| < 1) (hle : α ≤ Real.sqrt (1 - c * c) - 0.0001) (ty : IirType) (q gain : ℝ) :
    Spec.Complex (Spec.biquad (designOf α c q ty) gain) := by
  have one : (1.0 : ℝ) = 1 := by norm_num
  have two : (2.0 : ℝ) = 2 := by norm_num
  have p : 0 < 1 + α := by linarith
  have c2 : 0 ≤ 1 - c * c := by have := abs_lt.1 hc; nlinarith
  have r2 := Real.sq_sqrt c2
  set r := Real.sqrt (1 - c * c)
  have r1 : r ≤ 1 := by nlinarith [mul_self_nonneg c]
  have key : (8.0 * 1.192092896e-07) ^ 2 ≤ (1 - α) / (1 + α) - (-2 * c / (1 + α) / 2) ^ 2 := by
    have e : (1 - α) / (1 + α) - (-2 * c / (1 + α) / 2) ^ 2 = (r ^ 2 - α ^ 2) / (1 + α) ^ 2 := by
      rw [r2]; field_simp; ring
    rw [e, le_div_iff₀ (by positivity)]
    have : 0.00000001 ≤ r ^ 2 - α ^ 2 := by
      have : α ^ 2 ≤ (r - 0.0001) ^ 2 := pow_le_pow_left₀ hα.le hle 2
      norm_num at *; nlinarith
    have h4 : (1 + α) ^ 2 ≤ 4 := by norm_num at hle; nlinarith
    calc _ ≤ (8.0 * 1.192092896e-07) ^ 2 * 4 := mul_le_mul_of_nonneg_left h4 (by positivity)
      _ ≤ 0.00000001 := by norm_num
      _ ≤ _ := this
  cases ty <;>
  · simp only [Spec.Complex, Spec.biquad, Biquad.Spec.normal, designOf, Fc.lowpass, Fc.bandpass, Fc.highpass, one, two]
    exact key

/-- C103: **stable below a quarter of the oversampled rate**: for every type, subtype, order and whole note whose frequency is below that
(with a margin of a ten-thousandth in the cosine), if the resonance leaves some damping then the coefficients are those of a
stable design with complex poles, to which C100 and C101 apply. -/
theorem C103_stable_partial {sr : ℝ} (hsr : 0 < sr) (clipscale : ℝ → SubType → ℝ) (ty : IirType) {s : SubType} (hs : s ≠ .svf)
    (p : PoleType) (reso : ℝ) {n : ℤ} (h0 : -55 ≤ n) (h1 : n ≤ 75) (hω : 0.0001 < Real.cos (Spec.omega sr n))
    (hq : 0 < q2inv reso n s p) :
    ∃ (f : Fc) (gain : ℝ), iirCoeffMake (1 / sr) clipscale ty s p n reso = realise f gain (clipscale n s) s ∧
      Biquad.Spec.Stable (Spec.biquad f gain) ∧ Spec.Complex (Spec.biquad f gain) := by
  have hr := omega_range sr hsr n
  have hm := C102_mirrored (sr := sr) clipscale ty s p reso h0 h1
  simp only [Spec.tunedTo, Real.sin_pi_div_two_sub, Real.cos_pi_div_two_sub] at hm
  set ω := Spec.omega sr n
  have hk : 0 < Real.cos ω := lt_trans (by norm_num) hω
  have cs1 := Real.sin_sq_add_cos_sq ω
  have hc : |Real.sin ω| < 1 := by rw [abs_lt]; constructor <;> nlinarith
  have sq : Real.sqrt (1 - Real.sin ω * Real.sin ω) = Real.cos ω := by
    rw [show 1 - Real.sin ω * Real.sin ω = Real.cos ω ^ 2 by nlinarith, Real.sqrt_sq hk.le]
  have α0 : 0 < alpha (Real.cos ω) (Real.sin ω) (q2inv reso n s p) s := by
    have : 0 < min (Real.cos ω * q2inv reso n s p) (Real.cos ω - 0.0001) := lt_min (mul_pos hk hq) (by linarith)
    have one : (1.0 : ℝ) = 1 := by norm_num
    cases s
    · exact absurd rfl hs
    all_goals
      simp only [alpha, one]
      rw [sq]
      exact this
  exact ⟨_, _, hm, stable_alpha α0 hc ty _ _, complex_alpha α0 hc (alpha_le _ _ _ hs) ty _ _⟩

/-- C103, refuted above: **unstable above a quarter of the oversampled rate**: there the exchanged cosine is negative, and whatever the
resonance (as long as it leaves damping) the design has a pole outside the unit circle: the product of its poles exceeds one. -/
theorem C103_unstable {sr : ℝ} (hsr : 0 < sr) (clipscale : ℝ → SubType → ℝ) (ty : IirType) {s : SubType} (hs : s ≠ .svf)
    (p : PoleType) (reso : ℝ) {n : ℤ} (h0 : -55 ≤ n) (h1 : n ≤ 75) (hω : Real.pi / 2 < Spec.omega sr n)
    (hq : 0 < q2inv reso n s p) :
    ∃ (f : Fc) (gain : ℝ), iirCoeffMake (1 / sr) clipscale ty s p n reso = realise f gain (clipscale n s) s ∧
      (f.a0 ≠ 0 → 1 < |(Spec.biquad f gain).a2|) := by
  have hr := omega_range sr hsr n
  have hm := C102_mirrored (sr := sr) clipscale ty s p reso h0 h1
  simp only [Spec.tunedTo, Real.sin_pi_div_two_sub, Real.cos_pi_div_two_sub] at hm
  set ω := Spec.omega sr n
  have hk : Real.cos ω < 0 := Real.cos_neg_of_pi_div_two_lt_of_lt hω (by linarith [hr.2, Real.pi_pos])
  have α0 : alpha (Real.cos ω) (Real.sin ω) (q2inv reso n s p) s < 0 := by
    have : Real.cos ω * q2inv reso n s p < 0 := mul_neg_of_neg_of_pos hk hq
    cases s
    · exact absurd rfl hs
    all_goals
      simp only [alpha]
      exact lt_of_le_of_lt (min_le_left _ _) this
  set α := alpha (Real.cos ω) (Real.sin ω) (q2inv reso n s p) s
  have one : (1.0 : ℝ) = 1 := by norm_num
  refine ⟨_, _, hm, ?_⟩
  set f := designOf α (Real.sin ω) (q2inv reso n s p) ty with hf
  have f0 : f.a0 = 1 + α := by rw [hf]; cases ty <;> simp [designOf, Fc.lowpass, Fc.bandpass, Fc.highpass, one]
  have f2 : f.a2 = 1 - α := by rw [hf]; cases ty <;> simp [designOf, Fc.lowpass, Fc.bandpass, Fc.highpass, one]
  have f1 : f.a1 = -2 * Real.sin ω := by rw [hf]; cases ty <;> simp [designOf, Fc.lowpass, Fc.bandpass, Fc.highpass] <;> norm_num
  have big : f.a0 ≠ 0 → 1 < |(Spec.biquad f (resoscale reso s)).a2| := by
    intro hne
    have e : (Spec.biquad f (resoscale reso s)).a2 = (1 - α) / (1 + α) := by simp [Spec.biquad, Biquad.Spec.normal, f0, f2]
    rw [f0] at hne
    rw [e, abs_div, lt_div_iff₀ (abs_pos.2 hne), one_mul, abs_of_pos (by linarith : 0 < 1 - α), abs_lt]
    constructor <;> linarith
  exact big

/-- At 44.1 kHz, note 0 (440 Hz) is a case of `C102_lowpass_open` and `C102_notch_misplaced`. -/
example : Spec.omega 88200 0 ≤ 1 / 10 ∧ Spec.omega 88200 0 < Real.pi / 2 := by
  unfold Spec.omega
  have p4 := Real.pi_le_four
  have := Real.pi_pos
  have e : min (1 / 2) (440 * (2 : ℝ) ^ (((0 : ℤ) : ℝ) / 12) / 88200) = 11 / 2205 := by norm_num
  rw [e]
  constructor <;> linarith

/-- At 44.1 kHz, note 69, inside the knob's range, is above a quarter of the oversampled rate: a case of `C103_unstable`. -/
example : Real.pi / 2 < Spec.omega 88200 69 := by
  unfold Spec.omega
  have := Real.pi_pos
  have k : (51 : ℝ) < (2 : ℝ) ^ (((69 : ℤ) : ℝ) / 12) := by
    have : ((2 : ℝ) ^ (((69 : ℤ) : ℝ) / 12)) ^ 4 = 2 ^ 23 := by
      rw [← Real.rpow_natCast, ← Real.rpow_mul (by norm_num)]; norm_num
    by_contra hn
    have h2 := pow_le_pow_left₀ (by positivity) (not_lt.1 hn) 4
    rw [this] at h2
    norm_num at h2
  have : (1 / 4 : ℝ) < min (1 / 2) (440 * (2 : ℝ) ^ (((69 : ℤ) : ℝ) / 12) / 88200) := lt_min (by norm_num) (by linarith)
  nlinarith

end Verif.Filters
