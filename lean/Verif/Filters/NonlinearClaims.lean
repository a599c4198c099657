import Verif.Filters.Nonlinear
/-!
# Claims about the nonlinear filters (C201–C205)
-/
namespace Verif.Filters
open Verif Verif.Dsp.Fast

/-! ## C202: the designs -/

theorem nl_trig {w : ℝ} (h0 : 0 < w) (h1 : w ≤ 0.6 * Real.pi) : 0 < fastsin w ∧ fastsin w ≤ 1 ∧ -0.34 < fastcos w ∧ fastcos w < 1 := by
  have hp := Real.pi_lt_d4
  have hw : w ≤ 1.8852 := by norm_num at h1 hp ⊢; linarith
  have hw' : w ≤ 1.886 := by linarith
  have ht : w * w ≤ 3.56 := by nlinarith
  have t0 : 0 < w * w := by positivity
  generalize he : w * w = t at ht t0
  have d1 : 0 < 11511339840 + t * (277920720 + t * (3177720 + t * 18361)) := by positivity
  have d2 : 0 < 39251520 + t * (1154160 + t * (16632 + t * 127)) := by positivity
  have s1 : fastsin w ≤ 1 := by
    have := (C141_sine (x := w) (by linarith [Real.pi_pos]) (by linarith [Real.pi_pos])).2.2.2 h0.le
    exact this.trans (Real.sin_le_one _)
  refine ⟨?_, s1, ?_, ?_⟩
  · simp only [fastsin, he]
    refine div_pos ?_ d1
    have : 0 < 11511339840 - t * (1640635920 - t * (52785432 - t * 479249)) := by
      have a : 0 ≤ t * (t * (52785432 - t * 479249)) := mul_nonneg t0.le (mul_nonneg t0.le (by linarith))
      nlinarith
    have e : -w * (-11511339840 + t * (1640635920 + t * (-52785432 + t * 479249))) = w * (11511339840 - t * (1640635920 - t * (52785432 - t * 479249))) := by ring
    rw [e]; exact mul_pos h0 this
  · simp only [fastcos, he]
    rw [lt_div_iff₀ d2]
    have a : 0 ≤ t * (t * (1075032 - t * 14615)) := mul_nonneg t0.le (mul_nonneg t0.le (by linarith))
    have b : 0 ≤ t * (t * (t * 127)) := by positivity
    have c : 0 ≤ t * (t * (3.56 - t)) := mul_nonneg t0.le (mul_nonneg t0.le (by linarith))
    norm_num at c ⊢
    nlinarith [sq_nonneg (t - 3.56)]
  · simp only [fastcos, he]
    rw [div_lt_iff₀ d2]
    have a : 0 < t * (19625760 - t * 1058400) := mul_pos t0 (by linarith)
    have b : 0 ≤ t * (t * (t * 14742)) := by positivity
    nlinarith

theorem nl_angle {f sr : ℝ} (h : 17 ≤ sr) : 0 < 2.0 * Real.pi * nlFreq f sr / sr ∧ 2.0 * Real.pi * nlFreq f sr / sr ≤ 0.6 * Real.pi ∧
    Real.pi * (2.0 * nlFreq f sr / sr) = 2.0 * Real.pi * nlFreq f sr / sr := by
  have hp := Real.pi_pos
  have l : 5 ≤ nlFreq f sr := le_max_left _ _
  have u : nlFreq f sr ≤ sr * 0.3 := max_le (by norm_num; linarith) (min_le_right _ _)
  refine ⟨by positivity, ?_, by generalize (2.0 : ℝ) = c; ring⟩
  rw [div_le_iff₀ (by linarith)]
  norm_num at u ⊢
  nlinarith

/-- The quality factor of a resonance setting. -/
noncomputable def Spec.nlQ (reso : ℝ) : ℝ := 18 * (limit reso 0 1) ^ 3 + 0.1

theorem nlQ_pos (reso : ℝ) : 0.1 ≤ Spec.nlQ reso := by
  have : 0 ≤ limit reso 0 1 := le_max_left _ _
  unfold Spec.nlQ
  have := pow_nonneg this 3
  linarith

/-- The coefficients in terms of the cosine and `a = 1/(1+α)`. -/
theorem nl_form (ty : NlType) {w : ℝ} (h0 : 0 < w) (h1 : w ≤ 0.6 * Real.pi) (reso : ℝ) : ∃ a : ℝ, 0 < a ∧ a < 1 ∧ a * fastsin w = 2 * Spec.nlQ reso * (1 - a) ∧ nlDesign ty w reso = fun i =>
    match ty, i with
    | _, 0 => -2 * fastcos w * a
    | _, 1 => 2 * a - 1
    | .lowPass, 2 => (1 - fastcos w) * a / 2 | .lowPass, 3 => (1 - fastcos w) * a | .lowPass, 4 => (1 - fastcos w) * a / 2
    | .highPass, 2 => (1 + fastcos w) * a / 2 | .highPass, 3 => -((1 + fastcos w) * a) | .highPass, 4 => (1 + fastcos w) * a / 2
    | .bandPass, 2 => fastsin w * a / 2 | .bandPass, 3 => 0 | .bandPass, 4 => -(fastsin w * a / 2)
    | .notch, 2 => a | .notch, 3 => -2 * fastcos w * a | .notch, 4 => a
    | .allpass, 2 => 2 * a - 1 | .allpass, 3 => -2 * fastcos w * a | .allpass, 4 => 1
    | _, _ => 0 := by
  obtain ⟨s0, -, -, -⟩ := nl_trig h0 h1
  have q0 := nlQ_pos reso
  have q1 : 0 < Spec.nlQ reso := by linarith
  have eq : limit reso 0 1 * limit reso 0 1 * limit reso 0 1 * 18.0 + 0.1 = Spec.nlQ reso := by
    unfold Spec.nlQ; rw [show (18.0 : ℝ) = 18 by norm_num]; generalize (0.1 : ℝ) = t; ring
  set α := fastsin w / (2 * Spec.nlQ reso) with hα
  have α0 : 0 < α := div_pos s0 (by linarith)
  have o1 : (1.0 : ℝ) = 1 := by norm_num
  have o2 : (2.0 : ℝ) = 2 := by norm_num
  have o3 : (0.5 : ℝ) = 1 / 2 := by norm_num
  have o4 : (0.0 : ℝ) = 0 := by norm_num
  have as : α * (2 * Spec.nlQ reso) = fastsin w := by rw [hα]; field_simp
  have n1 : 1 + α ≠ 0 := by positivity
  refine ⟨1 / (1 + α), by positivity, by rw [div_lt_one (by positivity)]; linarith, by rw [← as]; field_simp; ring, ?_⟩
  have e2 : (1 - α) * (1 / (1 + α)) = 2 * (1 / (1 + α)) - 1 := by field_simp; ring
  funext i
  cases ty <;> simp only [nlDesign, eq, o1, o2, o3, o4, ← hα, e2] <;> (match i with | 0 => rfl | 1 => rfl | 2 => simp only; try ring | 3 => simp only; try ring | 4 => simp only; try ring | _ + 5 => rfl)

/-- **C202.** Every setting of either filter designs a stable second-order filter. -/
theorem C202_stable (ty : NlType) (sub : Fin 4) (f reso : ℝ) {sr : ℝ} (h : 17 ≤ sr) : Biquad.Spec.Stable (Spec.nlBiquad (nlsCoeffMake ty f sr reso)) ∧
    Spec.nlBiquad (nlfCoeffMake ty sub f sr reso) = Spec.nlBiquad (nlsCoeffMake ty f sr reso) := by
  obtain ⟨w0, w1, we⟩ := nl_angle (f := f) h
  refine ⟨?_, by simp [Spec.nlBiquad, nlfCoeffMake, nlsCoeffMake, we]⟩
  obtain ⟨-, -, c0, c1⟩ := nl_trig w0 w1
  obtain ⟨a, a0, a1, -, e⟩ := nl_form ty w0 w1 reso
  unfold nlsCoeffMake
  rw [e]
  constructor
  · show |2 * a - 1| < 1
    rw [abs_lt]; constructor <;> linarith
  · show |-2 * fastcos _ * a| < 1 + (2 * a - 1)
    have c0' : -1 < fastcos (2.0 * Real.pi * nlFreq f sr / sr) := by linarith
    rw [abs_lt]; constructor <;> nlinarith

/-- **C202.** What passes passes at unity and what is to be blocked is blocked: the low-pass at DC and half the sample rate, the high-pass the other way round, the band-pass blocks both ends, the notch passes them;
the all-pass has gain one at all frequencies. -/
theorem C202_gains (f reso : ℝ) {sr : ℝ} (h : 17 ≤ sr) :
    (Spec.numAt (Spec.nlBiquad (nlsCoeffMake .lowPass f sr reso)) 1 = Spec.denAt (Spec.nlBiquad (nlsCoeffMake .lowPass f sr reso)) 1 ∧
      Spec.numAt (Spec.nlBiquad (nlsCoeffMake .lowPass f sr reso)) (-1) = 0) ∧
    (Spec.numAt (Spec.nlBiquad (nlsCoeffMake .highPass f sr reso)) 1 = 0 ∧
      Spec.numAt (Spec.nlBiquad (nlsCoeffMake .highPass f sr reso)) (-1) = Spec.denAt (Spec.nlBiquad (nlsCoeffMake .highPass f sr reso)) (-1)) ∧
    (Spec.numAt (Spec.nlBiquad (nlsCoeffMake .bandPass f sr reso)) 1 = 0 ∧ Spec.numAt (Spec.nlBiquad (nlsCoeffMake .bandPass f sr reso)) (-1) = 0) ∧
    (Spec.numAt (Spec.nlBiquad (nlsCoeffMake .notch f sr reso)) 1 = Spec.denAt (Spec.nlBiquad (nlsCoeffMake .notch f sr reso)) 1 ∧
      Spec.numAt (Spec.nlBiquad (nlsCoeffMake .notch f sr reso)) (-1) = Spec.denAt (Spec.nlBiquad (nlsCoeffMake .notch f sr reso)) (-1)) ∧
    ∀ w : ℂ, ‖w‖ = 1 → ‖Spec.numAt (Spec.nlBiquad (nlsCoeffMake .allpass f sr reso)) w‖ = ‖Spec.denAt (Spec.nlBiquad (nlsCoeffMake .allpass f sr reso)) w‖ := by
  obtain ⟨w0, w1, we⟩ := nl_angle (f := f) h
  unfold nlsCoeffMake
  refine ⟨?_, ?_, ?_, ?_, ?_⟩
  · obtain ⟨a, -, -, -, e⟩ := nl_form .lowPass w0 w1 reso
    rw [e]; constructor <;> (simp only [Spec.numAt, Spec.denAt, Spec.nlBiquad]; push_cast; ring)
  · obtain ⟨a, -, -, -, e⟩ := nl_form .highPass w0 w1 reso
    rw [e]; constructor <;> (simp only [Spec.numAt, Spec.denAt, Spec.nlBiquad]; push_cast; ring)
  · obtain ⟨a, -, -, -, e⟩ := nl_form .bandPass w0 w1 reso
    rw [e]; constructor <;> (simp only [Spec.numAt, Spec.denAt, Spec.nlBiquad]; push_cast; ring)
  · obtain ⟨a, -, -, -, e⟩ := nl_form .notch w0 w1 reso
    rw [e]; constructor <;> (simp only [Spec.numAt, Spec.denAt, Spec.nlBiquad]; push_cast; ring)
  · obtain ⟨a, -, -, -, e⟩ := nl_form .allpass w0 w1 reso
    intro w hw
    rw [e]
    generalize fastcos _ = c
    simp only [Spec.numAt, Spec.denAt, Spec.nlBiquad]
    have ww : (starRingEnd ℂ) w * w = 1 := by rw [mul_comm, Complex.mul_conj, Complex.normSq_eq_norm_sq, hw]; norm_num
    have key : ((2 * a - 1 : ℝ) : ℂ) + ((-2 * c * a : ℝ) : ℂ) * w + ((1 : ℝ) : ℂ) * w ^ 2 =
        w ^ 2 * (starRingEnd ℂ) (1 + ((-2 * c * a : ℝ) : ℂ) * w + ((2 * a - 1 : ℝ) : ℂ) * w ^ 2) := by
      simp only [map_add, map_mul, map_one, map_pow, Complex.conj_ofReal]
      generalize (starRingEnd ℂ) w = v at ww ⊢
      generalize ((2 * a - 1 : ℝ) : ℂ) = A
      generalize ((-2 * c * a : ℝ) : ℂ) = B
      have h2 : v ^ 2 * w ^ 2 = 1 := by rw [← mul_pow, ww, one_pow]
      push_cast
      linear_combination (-B * w) * ww - A * h2
    rw [key, norm_mul, norm_pow, hw, one_pow, one_mul, Complex.norm_conj]

/-- **C202.** At the centre, the point of the unit circle whose real part is the approximated cosine of the cutoff (which is within 7.4·10⁻⁵ of the cosine), the notch blocks and the band-pass has the quality factor as its gain. -/
theorem C202_centre (f reso : ℝ) {sr : ℝ} (h : 17 ≤ sr) {w : ℂ} (hw : ‖w‖ = 1) (hr : w.re = fastcos (2.0 * Real.pi * nlFreq f sr / sr)) :
    Spec.numAt (Spec.nlBiquad (nlsCoeffMake .notch f sr reso)) w = 0 ∧
    Spec.numAt (Spec.nlBiquad (nlsCoeffMake .bandPass f sr reso)) w = Spec.nlQ reso * Spec.denAt (Spec.nlBiquad (nlsCoeffMake .bandPass f sr reso)) w ∧
    |w.re - Real.cos (2.0 * Real.pi * nlFreq f sr / sr)| ≤ 7.4e-5 := by
  obtain ⟨w0, w1, we⟩ := nl_angle (f := f) h
  have quad : w ^ 2 = 2 * (w.re : ℂ) * w - 1 := by
    have n : w.re ^ 2 + w.im ^ 2 = 1 := by
      have := Complex.normSq_eq_norm_sq w
      rw [hw, Complex.normSq_apply] at this
      nlinarith
    apply Complex.ext <;> simp [sq] <;> nlinarith
  refine ⟨?_, ?_, ?_⟩
  · unfold nlsCoeffMake
    obtain ⟨a, -, -, -, e⟩ := nl_form .notch w0 w1 reso
    rw [e, ← hr]
    simp only [Spec.numAt, Spec.nlBiquad]
    rw [quad]; push_cast; ring
  · unfold nlsCoeffMake
    obtain ⟨a, -, -, hs, e⟩ := nl_form .bandPass w0 w1 reso
    rw [e, ← hr]
    simp only [Spec.numAt, Spec.denAt, Spec.nlBiquad]
    have hs' : (a : ℂ) * (fastsin (2.0 * Real.pi * nlFreq f sr / sr) : ℂ) = 2 * (Spec.nlQ reso : ℂ) * (1 - a) := by exact_mod_cast hs
    push_cast
    rw [quad]
    linear_combination (1 - (w.re : ℂ) * w) * hs'
  · rw [hr]
    refine (C141_cosine ?_ ?_).1
    · linarith [Real.pi_pos]
    · norm_num at w1 ⊢; linarith [Real.pi_pos]

/-! ## C201: the nonlinear-states filter has no memory -/

theorem sat_zero {sat : NlSat} (h : sat ≠ .ojd) : sat.fn 0 = 0 := by
  cases sat
  · simp [NlSat.fn, fasttanhClamped, fasttanh]
  · norm_num [NlSat.fn, Dsp.softclip]
  · exact absurd rfl h
  · simp [NlSat.fn, fastsin]

theorem nls_chain {sat : NlSat} (h : sat ≠ .ojd) {u : FU} (hu : ∀ i, u.reg i = 0) (x : ℝ) (n : ℕ) : (∀ i, (nlChain (nlsSection sat.fn) u x n).1.reg i = 0) ∧
    (nlChain (nlsSection sat.fn) u x n).1.coeff = u.coeff ∧ (nlChain (nlsSection sat.fn) u x n).1.dcoeff = u.dcoeff ∧ (nlChain (nlsSection sat.fn) u x n).1.stage = u.stage ∧
    (nlChain (nlsSection sat.fn) u x n).2 = u.coeff 2 ^ n * x := by
  induction n with
  | zero => simp [nlChain, hu]
  | succ n ih =>
    obtain ⟨h1, h2, h3, h4, h5⟩ := ih
    simp only [nlChain]
    refine ⟨fun i => ?_, h2, h3, h4, ?_⟩
    · simp only [nlsSection, FU.set, Function.update_apply, h1, sat_zero h]
      split_ifs <;> rfl
    · simp only [nlsSection, h1, h2, h5, pow_succ]; ring

/-- **C201 (refutation).** The nonlinear-states filter started from rest never stores anything: its registers stay zero and each output is the input of the same sample times the first coefficient
to the power of the number of sections, whatever the type, the cutoff and the resonance. So it does not filter. -/
theorem C201_memoryless_refuted {sat : NlSat} (h : sat ≠ .ojd) (xs : List ℝ) : ∀ u : FU, (∀ i, u.reg i = 0) → (∀ i, (run (nls sat) u xs).1.reg i = 0) ∧
    (run (nls sat) u xs).2 = (List.range xs.length).map fun (n : ℕ) => (u.coeff 2 + n * u.dcoeff 2) ^ nlSections u.stage * xs.getD n 0 := by
  induction xs with
  | nil => intro u hu; exact ⟨hu, rfl⟩
  | cons x xs ih =>
    intro u hu
    obtain ⟨h1, h2, h3, h4, h5⟩ := nls_chain h hu x (nlSections u.stage)
    obtain ⟨i1, i2⟩ := ih (nls sat u x).1 h1
    refine ⟨i1, ?_⟩
    simp only [run, i2, List.length_cons, List.range_succ_eq_map, List.map_cons, List.map_map]
    refine congrArg₂ _ ?_ (List.map_congr_left fun n _ => ?_)
    · simp only [nls, h5]; simp
    · simp only [nls, FU.adv, h2, h3, h4, Function.comp, List.getD_cons_succ]
      simp only [List.mem_cons, List.not_mem_nil, or_false]
      push_cast
      norm_num
      left; congr 1; ring

/-- For instance the low-pass: a constant passes the design unchanged (`C202_gains`), but the code attenuates it by the same factor as everything else. -/
theorem C201_lowpass_refuted (f reso : ℝ) {sr : ℝ} (h : 17 ≤ sr) : ∃ g : ℝ, 0 < g ∧ g < 1 ∧
    ∀ xs : List ℝ, (run (nls .tanh) ⟨nlsCoeffMake .lowPass f sr reso, fun _ => 0, fun _ => 0, 0⟩ xs).2 = xs.map (g * ·) := by
  obtain ⟨w0, w1, we⟩ := nl_angle (f := f) h
  obtain ⟨-, -, c0, c1⟩ := nl_trig w0 w1
  obtain ⟨a, a0, a1, -, e⟩ := nl_form .lowPass w0 w1 reso
  refine ⟨nlsCoeffMake .lowPass f sr reso 2, ?_, ?_, fun xs => ?_⟩
  · unfold nlsCoeffMake; rw [e]; show 0 < (1 - fastcos _) * a / 2
    have := mul_pos (sub_pos.2 c1) a0; linarith
  · unfold nlsCoeffMake; rw [e]; show (1 - fastcos _) * a / 2 < 1
    nlinarith
  · rw [(C201_memoryless_refuted (sat := .tanh) (by simp) xs ⟨nlsCoeffMake .lowPass f sr reso, fun _ => 0, fun _ => 0, 0⟩ (fun _ => rfl)).2]
    refine List.ext_getElem (by simp) fun n h1 h2 => ?_
    simp only [List.length_map] at h2
    simp [nlSections, h2]

/-- **C201 (refutation).** The saturator bits allow four values; with two of them `process_quad` panics, with the other two it does not. -/
theorem C201_saturator_panics_refuted (u : FU) (x : ℝ) : (∃ w, nlsProcess u x = .panic w) ↔ 2 ≤ u.stage / 4 % 4 := by
  have h0 : 0 ≤ u.stage / 4 % 4 := Int.emod_nonneg _ (by norm_num)
  unfold nlsProcess nlsSat
  by_cases h1 : u.stage / 4 % 4 = 0
  · simp [h1, Res.bind]
  · by_cases h2 : u.stage / 4 % 4 = 1
    · simp [h2, Res.bind]
    · simp only [h1, h2, if_false, Res.bind]
      exact ⟨fun _ => by omega, fun _ => ⟨_, rfl⟩⟩

/-! ## C203: the nonlinear-feedback filter is bounded -/

theorem sat_le {sat : NlSat} (h : sat ≠ .sine) (x : ℝ) : |sat.fn x| ≤ 1.03 := by
  cases sat
  · have := (C142_tanh_clamped x).2.1
    simp only [NlSat.fn]; linarith
  · have := softclip_le x
    simp only [NlSat.fn]; linarith
  · have : ojd x = -1 ∨ ojd x = 1 := by
      unfold ojd
      by_cases h1 : x ≤ 1.7
      · exact .inl (if_pos h1)
      · rw [if_neg h1]
        have : 1.7 < x := not_le.1 h1
        rw [if_neg (by rintro ⟨-, h⟩; norm_num at h this; linarith), if_neg (by rintro ⟨-, h⟩; norm_num at h this; linarith)]
        exact .inr rfl
    simp only [NlSat.fn]
    rcases this with e | e <;> rw [e] <;> norm_num
  · exact absurd rfl h

theorem rpow_tenth {x : ℝ} (h : 0.001 ≤ x) : 1 / 2 ≤ x ^ (0.1 : ℝ) := by
  have e : (1 / 2 : ℝ) = ((1 / 2 : ℝ) ^ (10 : ℕ)) ^ (0.1 : ℝ) := by
    rw [← Real.rpow_natCast, ← Real.rpow_mul (by norm_num)]; norm_num
  rw [e]
  exact Real.rpow_le_rpow (by positivity) (by norm_num at h ⊢; linarith) (by norm_num)

theorem lpNorm_le (sub : Fin 4) : 0 < lpNorm sub ∧ lpNorm sub ≤ 1.53273 := by
  fin_cases sub <;> simp only [lpNorm] <;> norm_num

/-- The coefficients of all settings are in this box. -/
def Spec.nlBox : Set (ℕ → ℝ) := {v | |v 0| ≤ 2 ∧ |v 1| ≤ 1 ∧ |v 2| ≤ 1 ∧ |v 3| ≤ 2 ∧ |v 4| ≤ 1 ∧ |v 5| ≤ 3.1}

theorem nlf_box {v : ℕ → ℝ} (h : Spec.nlfSetting v) : v ∈ Spec.nlBox := by
  obtain ⟨ty, sub, f, sr, reso, hsr, rfl⟩ := h
  obtain ⟨w0, w1, we⟩ := nl_angle (f := f) hsr
  obtain ⟨s0, s1, c0, c1⟩ := nl_trig w0 w1
  obtain ⟨a, a0, a1, -, e⟩ := nl_form ty w0 w1 reso
  have c : ∀ i, i ≠ 5 → nlfCoeffMake ty sub f sr reso i = nlDesign ty (2.0 * Real.pi * nlFreq f sr / sr) reso i := fun i hi => by
    simp only [nlfCoeffMake, hi, if_false, we]
  have mk : ∀ n : ℝ, |1.0 * lpNorm sub / (max n 0.001) ^ (0.1 : ℝ)| ≤ 3.1 := fun n => by
    have r := rpow_tenth (le_max_right n 0.001)
    obtain ⟨l0, l1⟩ := lpNorm_le sub
    have r0 : 0 < (max n 0.001) ^ (0.1 : ℝ) := by linarith
    rw [abs_of_nonneg (by positivity), div_le_iff₀ r0]
    norm_num at l1 ⊢
    linarith
  have m5 : |nlfCoeffMake ty sub f sr reso 5| ≤ 3.1 := by
    simp only [nlfCoeffMake, if_true]
    cases ty
    · exact mk _
    · exact mk _
    all_goals norm_num
  refine ⟨?_, ?_, ?_, ?_, ?_, m5⟩
  all_goals
    rw [c _ (by norm_num), e]
    clear e c m5
    generalize fastcos _ = p at c0 c1
    generalize fastsin _ = q at s0 s1
  · show |-2 * p * a| ≤ 2
    rw [abs_le]; constructor <;> nlinarith
  · show |2 * a - 1| ≤ 1
    rw [abs_le]; constructor <;> linarith
  all_goals
    cases ty <;> (simp only; rw [abs_le]; constructor <;> nlinarith)

theorem nlBox_convex : Convex ℝ Spec.nlBox := by
  have ab : ∀ {B a b x y : ℝ}, 0 ≤ a → 0 ≤ b → a + b = 1 → |x| ≤ B → |y| ≤ B → |a * x + b * y| ≤ B := fun ha hb hab hx hy => abs_mix ha hb hab hx hy
  intro v hv w hw a b ha hb hab
  exact ⟨ab ha hb hab hv.1 hw.1, ab ha hb hab hv.2.1 hw.2.1, ab ha hb hab hv.2.2.1 hw.2.2.1, ab ha hb hab hv.2.2.2.1 hw.2.2.2.1, ab ha hb hab hv.2.2.2.2.1 hw.2.2.2.2.1,
    ab ha hb hab hv.2.2.2.2.2 hw.2.2.2.2.2⟩

theorem nlf_chain_keeps (sat : ℝ → ℝ) (u : FU) (x : ℝ) (n : ℕ) : (nlChain (nlfSection sat) u x n).1.coeff = u.coeff ∧ (nlChain (nlfSection sat) u x n).1.dcoeff = u.dcoeff ∧
    (nlChain (nlfSection sat) u x n).1.stage = u.stage := by
  induction n with
  | zero => exact ⟨rfl, rfl, rfl⟩
  | succ n ih => exact ⟨ih.1, ih.2.1, ih.2.2⟩

theorem nlf_advances : Spec.Advances nlf [0, 1, 2, 3, 4, 5] := fun u x => by
  obtain ⟨h1, h2, -⟩ := nlf_chain_keeps (nlfSat u.stage).fn u x (nlSections u.stage)
  refine ⟨?_, h2⟩
  simp only [nlf, FU.adv, h1, h2]

theorem nlf_stage (u : FU) (x : ℝ) : (nlf u x).1.stage = u.stage := (nlf_chain_keeps _ u x _).2.2

/-- The registers are within what section `k` can put there. -/
def NlRegs (M : ℝ) (r : ℕ → ℝ) : Prop := ∀ k < 4, |r (2 * k)| ≤ 3 * Spec.nlBound M k + 3.09 ∧ |r (2 * k + 1)| ≤ Spec.nlBound M k + 1.03

theorem nlBound_nonneg {M : ℝ} (h : 0 ≤ M) (n : ℕ) : 0 ≤ Spec.nlBound M n := by
  induction n with
  | zero => exact h
  | succ n ih => unfold Spec.nlBound; positivity

theorem nlBound_mono {M : ℝ} (h : 0 ≤ M) {m n : ℕ} (hmn : m ≤ n) : Spec.nlBound M m ≤ Spec.nlBound M n := by
  refine monotone_nat_of_le_succ (fun n => ?_) hmn
  have := nlBound_nonneg h n
  show _ ≤ 3.1 * (4 * Spec.nlBound M n + 3.1)
  linarith

theorem abs_mul_le {a b A B : ℝ} (ha : |a| ≤ A) (hb : |b| ≤ B) : |a * b| ≤ A * B := by
  rw [abs_mul]; exact mul_le_mul ha hb (abs_nonneg _) ((abs_nonneg _).trans ha)

theorem nlf_chain_bound {sat : ℝ → ℝ} (hs : ∀ x, |sat x| ≤ 1.03) {u : FU} (hc : Spec.Within Spec.nlBox [0, 1, 2, 3, 4, 5] u.coeff) {M x : ℝ} (hM : 0 ≤ M) (hx : |x| ≤ M) (hi : NlRegs M u.reg) :
    ∀ n ≤ 4, NlRegs M (nlChain (nlfSection sat) u x n).1.reg ∧ |(nlChain (nlfSection sat) u x n).2| ≤ Spec.nlBound M n := by
  obtain ⟨v, ⟨v0, v1, v2, v3, v4, v5⟩, ev⟩ := hc
  rw [← ev 0 (by simp)] at v0
  rw [← ev 1 (by simp)] at v1
  rw [← ev 2 (by simp)] at v2
  rw [← ev 3 (by simp)] at v3
  rw [← ev 4 (by simp)] at v4
  rw [← ev 5 (by simp)] at v5
  intro n hn
  induction n with
  | zero => exact ⟨hi, hx⟩
  | succ n ih =>
    obtain ⟨i1, i2⟩ := ih (by omega)
    obtain ⟨k1, k2, k3⟩ := nlf_chain_keeps sat u x n
    simp only [nlChain]
    generalize nlChain (nlfSection sat) u x n = r at *
    obtain ⟨z1, z2⟩ := i1 n (by omega)
    have o : |r.1.reg (2 * n) + u.coeff 2 * r.2| ≤ 4 * Spec.nlBound M n + 3.09 := by
      have := abs_mul_le v2 i2
      refine (abs_add_le _ _).trans ?_
      linarith
    have f := hs (r.1.reg (2 * n) + u.coeff 2 * r.2)
    have y1 : |r.1.reg (2 * n + 1) + (u.coeff 3 * r.2 - u.coeff 0 * sat (r.1.reg (2 * n) + u.coeff 2 * r.2))| ≤ 3 * Spec.nlBound M n + 3.09 := by
      have a := abs_mul_le v3 i2
      have b := abs_mul_le v0 f
      refine (abs_add_le _ _).trans ?_
      have := abs_sub (u.coeff 3 * r.2) (u.coeff 0 * sat (r.1.reg (2 * n) + u.coeff 2 * r.2))
      linarith
    have y2 : |u.coeff 4 * r.2 - u.coeff 1 * sat (r.1.reg (2 * n) + u.coeff 2 * r.2)| ≤ Spec.nlBound M n + 1.03 := by
      have a := abs_mul_le v4 i2
      have b := abs_mul_le v1 f
      have := abs_sub (u.coeff 4 * r.2) (u.coeff 1 * sat (r.1.reg (2 * n) + u.coeff 2 * r.2))
      linarith
    refine ⟨fun k hk => ?_, ?_⟩
    · simp only [nlfSection, FU.set, k1, Function.update_apply]
      by_cases hkn : k = n
      · subst hkn
        simp only [if_true, show (2 * k = 2 * k + 1) = False by simp, if_false]
        exact ⟨y1, y2⟩
      · rw [if_neg (by omega), if_neg (by omega), if_neg (by omega), if_neg (by omega)]
        exact i1 k hk
    · simp only [nlfSection, FU.set, k1]
      have := abs_mul_le o v5
      refine this.trans ?_
      have := nlBound_nonneg hM n
      show _ ≤ 3.1 * (4 * Spec.nlBound M n + 3.1)
      nlinarith

theorem always_both {step : FU → ℝ → FU × ℝ} {P Q : FU → ℝ → Prop} (xs : List ℝ) : ∀ u, Spec.Always step P u xs → Spec.Always step Q u xs → Spec.Always step (fun u x => P u x ∧ Q u x) u xs := by
  induction xs with
  | nil => intros; trivial
  | cons x xs ih => exact fun u hp hq => ⟨⟨hp.1, hq.1⟩, ih _ hp.2 hq.2⟩

theorem always_stage {step : FU → ℝ → FU × ℝ} (h : ∀ u x, (step u x).1.stage = u.stage) (xs : List ℝ) : ∀ u : FU, Spec.Always step (fun v _ => v.stage = u.stage) u xs := by
  induction xs with
  | nil => intros; trivial
  | cons x xs ih =>
    intro u
    refine ⟨rfl, ?_⟩
    have := ih (step u x).1
    rwa [h] at this

theorem life_stage {step : FU → ℝ → FU × ℝ} {P : FU → ℝ → Prop} (h : ∀ u x, (step u x).1.stage = u.stage) (stage : ℤ) (bs : List ((ℕ → ℝ) × List ℝ)) : ∀ m reg,
    Spec.LifeAlways step P stage m reg bs → Spec.LifeAlways step (fun u x => P u x ∧ u.stage = stage) stage m reg bs := by
  induction bs with
  | nil => intros; trivial
  | cons b bs ih => exact fun m reg hp => ⟨always_both _ _ hp.1 (always_stage h b.2 ⟨(m.fromDirect b.1).coeff, (m.fromDirect b.1).dcoeff, reg, stage⟩), ih _ _ hp.2⟩

theorem nlfSat_ne {stage : ℤ} (h : stage / 4 % 4 ≠ 3) : nlfSat stage ≠ .sine := by
  have h0 : 0 ≤ stage / 4 % 4 := Int.emod_nonneg _ (by norm_num)
  have h4 : stage / 4 % 4 < 4 := Int.emod_lt_of_pos _ (by norm_num)
  unfold nlfSat
  split_ifs with a b c
  · simp
  · simp
  · simp
  · omega

/-- **C203.** With every saturator but the sine, over a whole life of 64-sample blocks with any settings in each block and inputs within `M`, the nonlinear-feedback filter's output stays within a bound that depends on `M` only. -/
theorem C203_bounded {stage : ℤ} (hs : stage / 4 % 4 ≠ 3) {M : ℝ} (hM : 0 ≤ M) (bs : List ((ℕ → ℝ) × List ℝ)) (hb : ∀ b ∈ bs, Spec.nlfSetting b.1 ∧ b.2.length = 64 ∧ ∀ x ∈ b.2, |x| ≤ M) :
    ∀ y ∈ (life nlf stage Maker.new (fun _ => 0) bs).2.2, |y| ≤ Spec.nlBound M (nlSections stage) := by
  have hul := life_stage nlf_stage stage bs _ _ (C104_hull nlf_advances nlBox_convex (by simp only [Spec.nlBox, Set.mem_setOf_eq, abs_zero]; norm_num) stage (fun _ => 0) bs
    (fun b h => ⟨nlf_box (hb b h).1, (hb b h).2.1⟩))
  refine (life_out (A := fun x => |x| ≤ M) (Q := fun y => |y| ≤ Spec.nlBound M (nlSections stage)) (Inv := NlRegs M) ?_ stage bs _ _ hul (fun b h => (hb b h).2.2) (fun k _ => ?_)).2
  · rintro u x ⟨⟨hc, -⟩, hst⟩ hx hi
    have := nlf_chain_bound (sat := (nlfSat u.stage).fn) (fun x => sat_le (by rw [hst]; exact nlfSat_ne hs) x) hc hM hx hi (nlSections u.stage) (by unfold nlSections; omega)
    refine ⟨this.1, ?_⟩
    rw [← hst]; exact this.2
  · have := nlBound_nonneg hM k
    simp only [abs_zero]
    constructor <;> positivity

/-- The hypotheses hold: a block of a low-pass at 1 kHz, 48 kHz, with a constant input. -/
example : Spec.nlfSetting (nlfCoeffMake .lowPass 0 1000 48000 0.5) ∧ (List.replicate 64 (0.3 : ℝ)).length = 64 ∧ ∀ x ∈ List.replicate 64 (0.3 : ℝ), |x| ≤ 1 :=
  ⟨⟨_, _, _, _, _, by norm_num, rfl⟩, by simp, fun x hx => by rw [List.eq_of_mem_replicate hx]; norm_num [abs_of_pos]⟩

theorem sat_neg {sat : NlSat} (h : sat ≠ .ojd) (x : ℝ) : sat.fn (-x) = -sat.fn x := by
  cases sat
  · simp only [NlSat.fn, fasttanhClamped]
    rw [show min (5 : ℝ) (max (-5) (-x)) = -(min 5 (max (-5) x)) by
      rcases le_total x 5 with h1 | h1 <;> rcases le_total (-5) x with h2 | h2 <;> simp [min_def, max_def] <;> split_ifs <;> linarith, C142_tanh.1]
  · exact (Dsp.C62_softclip_partial (K := ℝ)).1.odd x
  · exact absurd rfl h
  · exact fastsin_odd x

theorem nlf_chain_odd {sat : ℝ → ℝ} (h : ∀ x, sat (-x) = -sat x) (u : FU) (x : ℝ) (n : ℕ) : nlChain (nlfSection sat) (Spec.flip u) (-x) n =
    (Spec.flip (nlChain (nlfSection sat) u x n).1, -(nlChain (nlfSection sat) u x n).2) := by
  induction n with
  | zero => rfl
  | succ n ih =>
    simp only [nlChain, ih]
    generalize nlChain (nlfSection sat) u x n = r
    have e : -r.1.reg (2 * n) + r.1.coeff 2 * -r.2 = -(r.1.reg (2 * n) + r.1.coeff 2 * r.2) := by ring
    simp only [nlfSection, Spec.flip, FU.set, e, h]
    refine Prod.ext ?_ (by simp only; ring)
    simp only [FU.mk.injEq, true_and, and_true]
    funext i
    simp only [Function.update_apply]
    split_ifs <;> ring

/-- **C203.** With the tanh, soft-clip and sine saturators both polarities are treated alike, and so silence stays silence. -/
theorem C203_odd {sat : NlSat} (hs : sat ≠ .ojd) (xs : List ℝ) : ∀ u : FU, nlfSat u.stage = sat → (run nlf (Spec.flip u) (xs.map (-·))).2 = (run nlf u xs).2.map (-·) := by
  induction xs with
  | nil => intro u _; rfl
  | cons x xs ih =>
    intro u hu
    have stp : nlf (Spec.flip u) (-x) = (Spec.flip (nlf u x).1, -(nlf u x).2) := by
      have : nlfSat (Spec.flip u).stage = sat := hu
      simp only [nlf, this, hu]
      rw [nlf_chain_odd (sat_neg hs)]
      rfl
    simp only [List.map_cons, run, stp]
    rw [ih _ (by rw [nlf_stage]; exact hu)]

/-- **C203.** Silence in, silence out, from rest, with these saturators. -/
theorem C203_silence {stage : ℤ} (hs : nlfSat stage ≠ .ojd) (c d : ℕ → ℝ) (n : ℕ) : (run nlf ⟨c, d, fun _ => 0, stage⟩ (List.replicate n 0)).2 = List.replicate n 0 := by
  have ch : ∀ (u : FU), (∀ i, u.reg i = 0) → nlfSat u.stage = nlfSat stage → ∀ k, (∀ i, (nlChain (nlfSection (nlfSat stage).fn) u 0 k).1.reg i = 0) ∧ (nlChain (nlfSection (nlfSat stage).fn) u 0 k).2 = 0 := by
    intro u hu hst k
    induction k with
    | zero => exact ⟨hu, rfl⟩
    | succ k ih =>
      obtain ⟨i1, i2⟩ := ih
      simp only [nlChain, nlfSection, i1, i2, mul_zero, add_zero, zero_mul, sat_zero hs, sub_zero, FU.set, Function.update_apply]
      exact ⟨fun i => by split_ifs <;> rfl, trivial⟩
  have : ∀ u : FU, (∀ i, u.reg i = 0) → u.stage = stage → (run nlf u (List.replicate n 0)).2 = List.replicate n 0 := by
    induction n with
    | zero => intros; rfl
    | succ n ih =>
      intro u hu hst
      obtain ⟨c1, c2⟩ := ch u hu (by rw [hst]) (nlSections u.stage)
      simp only [List.replicate_succ, run]
      rw [ih (nlf u 0).1 (by simp only [nlf, hst] at c1 ⊢; exact c1) (by rw [nlf_stage, hst])]
      congr 1
      simp only [nlf, hst] at c2 ⊢; exact c2
  exact this _ (fun _ => rfl) rfl

/-! ## C204: the OJD saturator -/

/-- The input `k` samples before sample `n`, zero before the start. -/
def Spec.before (x : ℕ → ℝ) (n k : ℕ) : ℝ := if k ≤ n then x (n - k) else 0

/-- The feed-forward part of the filter, and its feedback coefficients added as constants once they have come round. -/
def Spec.feedforward (c : ℕ → ℝ) (x : ℕ → ℝ) (n : ℕ) : ℝ :=
  c 2 * x n + c 3 * Spec.before x n 1 + c 4 * Spec.before x n 2 + (if 1 ≤ n then c 0 else 0) + (if 2 ≤ n then c 1 else 0)

theorem run_snoc (step : FU → ℝ → FU × ℝ) (xs : List ℝ) (x : ℝ) : ∀ u, run step u (xs ++ [x]) = ((step (run step u xs).1 x).1, (run step u xs).2 ++ [(step (run step u xs).1 x).2]) := by
  induction xs with
  | nil => intro u; rfl
  | cons y xs ih => intro u; simp only [List.cons_append, run, ih]

theorem ojd_low {x : ℝ} (h : x ≤ 1.7) : ojd x = -1 := if_pos h

theorem nlf_one {u : FU} (h : u.stage % 4 = 0) (x : ℝ) : nlf u x = ((nlfSection (nlfSat u.stage).fn u x 0).1.adv [0, 1, 2, 3, 4, 5], (nlfSection (nlfSat u.stage).fn u x 0).2) := by
  simp [nlf, nlSections, h, nlChain]

/-- **C204 (refutation).** With the OJD saturator and one section, no signal that stays below 1.7 before the makeup gain is fed back: the output is the feed-forward part plus the constant `a1 + a2`. There is no resonance and
no memory beyond two samples. -/
theorem C204_no_feedback_refuted {c : ℕ → ℝ} {x : ℕ → ℝ} {N : ℕ} (h : ∀ n < N, Spec.feedforward c x n ≤ 1.7) :
    (run nlf ⟨c, fun _ => 0, fun _ => 0, 8⟩ ((List.range N).map x)).2 = (List.range N).map fun n => Spec.feedforward c x n * c 5 := by
  have key : ∀ N, (∀ n < N, Spec.feedforward c x n ≤ 1.7) → (run nlf ⟨c, fun _ => 0, fun _ => 0, 8⟩ ((List.range N).map x)).2 = (List.range N).map (fun n => Spec.feedforward c x n * c 5) ∧
      (run nlf ⟨c, fun _ => 0, fun _ => 0, 8⟩ ((List.range N).map x)).1.coeff = c ∧ (run nlf ⟨c, fun _ => 0, fun _ => 0, 8⟩ ((List.range N).map x)).1.dcoeff = (fun _ => 0) ∧
      (run nlf ⟨c, fun _ => 0, fun _ => 0, 8⟩ ((List.range N).map x)).1.stage = 8 ∧
      (run nlf ⟨c, fun _ => 0, fun _ => 0, 8⟩ ((List.range N).map x)).1.reg 0 = Spec.feedforward c x N - c 2 * x N ∧
      (run nlf ⟨c, fun _ => 0, fun _ => 0, 8⟩ ((List.range N).map x)).1.reg 1 = c 4 * Spec.before x N 1 + (if 1 ≤ N then c 1 else 0) := by
    intro N
    induction N with
    | zero => intro _; simp [run, Spec.feedforward, Spec.before]
    | succ N ih =>
      intro hN
      obtain ⟨i1, i2, i3, i4, i5, i6⟩ := ih (fun n hn => hN n (by omega))
      rw [List.range_succ, List.map_append, List.map_append, List.map_singleton, List.map_singleton, run_snoc]
      generalize run nlf ⟨c, fun _ => 0, fun _ => 0, 8⟩ ((List.range N).map x) = r at *
      have sat : nlfSat 8 = .ojd := by norm_num [nlfSat]
      rw [nlf_one (by rw [i4]; rfl), i1]
      have out : r.1.reg 0 + c 2 * x N = Spec.feedforward c x N := by rw [i5]; ring
      have low : ojd (Spec.feedforward c x N) = -1 := ojd_low (hN N (by omega))
      simp only [nlfSection, i4, sat, NlSat.fn, i2, out, low, mul_zero, zero_add, FU.set, FU.adv, i3, add_zero, ite_self]
      refine ⟨trivial, trivial, trivial, trivial, ?_, ?_⟩
      · simp only [Function.update_apply]
        norm_num
        rw [i6]
        simp only [Spec.feedforward, Spec.before]
        rcases N with _ | N
        · norm_num; ring
        · simp only [show N + 1 + 1 - 1 = N + 1 by omega, show N + 1 + 1 - 2 = N by omega, show N + 1 - 1 = N by omega]
          norm_num
          ring
      · simp only [Function.update_apply]
        norm_num
        simp [Spec.before]
  exact (key N h).1

/-- **C204 (refutation).** Silence does not stay silence: a low-pass with this saturator settles on a constant, close to minus the makeup gain when the cutoff is low. -/
theorem C204_silence_refuted (sub : Fin 4) (f reso : ℝ) {sr : ℝ} (hsr : 17 ≤ sr) (N : ℕ) : ∃ a : ℝ, 0 < a ∧ a < 1 ∧
    (run nlf ⟨nlfCoeffMake .lowPass sub f sr reso, fun _ => 0, fun _ => 0, 8⟩ (List.replicate (N + 3) 0)).2.getLast? =
      some ((2 * (1 - fastcos (2.0 * Real.pi * nlFreq f sr / sr)) * a - 1) * nlfCoeffMake .lowPass sub f sr reso 5) := by
  obtain ⟨w0, w1, we⟩ := nl_angle (f := f) hsr
  obtain ⟨-, -, c0, c1⟩ := nl_trig w0 w1
  obtain ⟨a, a0, a1, -, e⟩ := nl_form .lowPass w0 w1 reso
  have k0 : nlfCoeffMake .lowPass sub f sr reso 0 = -2 * fastcos (2.0 * Real.pi * nlFreq f sr / sr) * a := by simp only [nlfCoeffMake, we, e]; rfl
  have k1 : nlfCoeffMake .lowPass sub f sr reso 1 = 2 * a - 1 := by simp only [nlfCoeffMake, we, e]; rfl
  refine ⟨a, a0, a1, ?_⟩
  have rep : List.replicate (N + 3) (0 : ℝ) = (List.range (N + 3)).map fun _ => (0 : ℝ) := by simp
  rw [rep, C204_no_feedback_refuted, List.range_succ, List.map_append, List.map_singleton, List.getLast?_append]
  · simp only [List.getLast?_singleton, Option.some_or, Spec.feedforward, Spec.before, ite_self, mul_zero, add_zero, zero_add]
    rw [if_pos (by omega), if_pos (by omega), k0, k1]
    congr 2; ring
  · intro n _
    simp only [Spec.feedforward, Spec.before, ite_self, mul_zero, add_zero, zero_add]
    rw [k0, k1]
    generalize fastcos _ = p at c0 c1
    norm_num at c0
    have k : -(2 * p * a) ≤ 0.68 := by norm_num; nlinarith
    norm_num at k
    split_ifs <;> norm_num <;> linarith

/-! ## C205: the sine saturator -/

/-- Beyond 12 the approximated sine is more than three times its argument. -/
theorem fastsin_grows {x : ℝ} (h : 12 ≤ |x|) : 3 * |x| ≤ |fastsin x| := by
  have key : ∀ y : ℝ, 12 ≤ y → 3 * y ≤ -fastsin y := fun y hy => by
    have h144 : 144 ≤ y * y := by nlinarith
    generalize he : y * y = t at h144
    have d1 : 0 < 11511339840 + t * (277920720 + t * (3177720 + t * 18361)) := by positivity
    simp only [fastsin, he]
    rw [← neg_div, le_div_iff₀ d1]
    have : 0 ≤ -11511339840 + t * (1640635920 + t * (-52785432 + t * 479249)) - 3 * (11511339840 + t * (277920720 + t * (3177720 + t * 18361))) := by
      obtain ⟨s, rfl⟩ : ∃ s, t = s + 144 := ⟨t - 144, by ring⟩
      have s0 : 0 ≤ s := by linarith
      have : -11511339840 + (s + 144) * (1640635920 + (s + 144) * (-52785432 + (s + 144) * 479249)) - 3 * (11511339840 + (s + 144) * (277920720 + (s + 144) * (3177720 + (s + 144) * 18361))) =
        424166 * s ^ 3 + 120921120 * s ^ 2 + 9245637792 * s + 44459027712 := by ring
      rw [this]; positivity
    nlinarith
  rcases le_total 0 x with hx | hx
  · rw [abs_of_nonneg hx] at h ⊢
    exact (key x h).trans (neg_le_abs _)
  · rw [abs_of_nonpos hx] at h ⊢
    have := key (-x) h
    rw [fastsin_odd, neg_neg] at this
    exact this.trans (le_abs_self _)

theorem fastcos_root : ∃ w : ℝ, 1 ≤ w ∧ w ≤ 1.7 ∧ fastcos w = 0 := by
  have cont : ContinuousOn fastcos (Set.Icc 1 1.7) := by
    unfold fastcos
    refine ContinuousOn.div (by fun_prop) (by fun_prop) fun x _ => ?_
    have := mul_self_nonneg x
    positivity
  have a : (0 : ℝ) ∈ Set.Icc (fastcos 1.7) (fastcos 1) := by
    constructor <;> (simp only [fastcos]; norm_num)
  obtain ⟨w, hw, e⟩ := intermediate_value_Icc' (by norm_num) cont a
  exact ⟨w, hw.1, hw.2, e⟩

theorem nlf_ring {u : FU} (hs : u.stage = 12) (h0 : u.coeff 0 = 0) (h5 : u.coeff 5 = 1) (hd : ∀ i, u.dcoeff i = 0) (hr : u.reg 1 = 0) :
    (nlf u 0).2 = u.reg 0 ∧ (nlf (nlf u 0).1 0).1.stage = 12 ∧ (nlf (nlf u 0).1 0).1.coeff = u.coeff ∧ (∀ i, (nlf (nlf u 0).1 0).1.dcoeff i = 0) ∧ (nlf (nlf u 0).1 0).1.reg 1 = 0 ∧
    (nlf (nlf u 0).1 0).1.reg 0 = -u.coeff 1 * fastsin (u.reg 0) := by
  have sat : nlfSat 12 = .sine := by norm_num [nlfSat]
  have e1 := nlf_one (u := u) (by rw [hs]; rfl) 0
  have s1 : (nlf u 0).1.stage = 12 := by rw [nlf_stage, hs]
  have e2 := nlf_one (u := (nlf u 0).1) (by rw [s1]; rfl) 0
  have k1 : (nlf u 0).1.coeff = u.coeff := by
    rw [(nlf_advances u 0).1]; funext i; simp [FU.adv, hd]
  have d1 : (nlf u 0).1.dcoeff = u.dcoeff := (nlf_advances u 0).2
  have r0 : (nlf u 0).1.reg 0 = 0 := by
    rw [e1]; simp [nlfSection, FU.adv, FU.set, Function.update_apply, hr, h0]
  have r1 : (nlf u 0).1.reg 1 = -u.coeff 1 * fastsin (u.reg 0) := by
    rw [e1]; simp [nlfSection, FU.adv, FU.set, Function.update_apply, hs, sat, NlSat.fn]
  refine ⟨?_, by rw [nlf_stage, s1], ?_, fun i => ?_, ?_, ?_⟩
  · rw [e1]; simp [nlfSection, FU.set, h5]
  · rw [(nlf_advances (nlf u 0).1 0).1]; funext i; simp [FU.adv, d1, hd, k1]
  · rw [(nlf_advances (nlf u 0).1 0).2, d1, hd]
  · rw [e2]; simp only [nlfSection, FU.adv, FU.set, Function.update_apply, r0, s1, sat, NlSat.fn]
    norm_num [fastsin]
  · rw [e2]; simp [nlfSection, FU.adv, FU.set, Function.update_apply, r1, k1, h0]

theorem nlf_blow (k : ℕ) : ∀ u : FU, u.stage = 12 → u.coeff 0 = 0 → u.coeff 5 = 1 → (∀ i, u.dcoeff i = 0) → u.reg 1 = 0 → 1 / 2 ≤ |u.coeff 1| → 12 ≤ |u.reg 0| →
    ∃ y ∈ (run nlf u (List.replicate (2 * k + 1) 0)).2, 12 * (3 / 2) ^ k ≤ |y| := by
  have grow : ∀ (k : ℕ) (B : ℝ), 12 ≤ B → ∀ u : FU, u.stage = 12 → u.coeff 0 = 0 → u.coeff 5 = 1 → (∀ i, u.dcoeff i = 0) → u.reg 1 = 0 → 1 / 2 ≤ |u.coeff 1| → B ≤ |u.reg 0| →
      ∃ y ∈ (run nlf u (List.replicate (2 * k + 1) 0)).2, B * (3 / 2) ^ k ≤ |y| := by
    intro k
    induction k with
    | zero =>
      intro B hB u h1 h2 h3 h4 h5 h6 h7
      exact ⟨u.reg 0, by simp [run, (nlf_ring h1 h2 h3 h4 h5).1], by simpa using h7⟩
    | succ k ih =>
      intro B hB u h1 h2 h3 h4 h5 h6 h7
      obtain ⟨-, g1, g2, g3, g4, g5⟩ := nlf_ring h1 h2 h3 h4 h5
      have gr : B * (3 / 2) ≤ |(nlf (nlf u 0).1 0).1.reg 0| := by
        rw [g5, abs_mul, abs_neg]
        have := fastsin_grows (hB.trans h7)
        nlinarith [abs_nonneg (fastsin (u.reg 0))]
      obtain ⟨y, hy, hb⟩ := ih (B * (3 / 2)) (by linarith) (nlf (nlf u 0).1 0).1 g1 (by rw [g2, h2]) (by rw [g2, h3]) g3 g4 (by rw [g2]; exact h6) gr
      refine ⟨y, ?_, by rw [pow_succ]; linarith⟩
      rw [show 2 * (k + 1) + 1 = (2 * k + 1) + 1 + 1 by omega, List.replicate_succ, List.replicate_succ]
      simp only [run, List.mem_cons]
      exact .inr (.inr hy)
  exact fun u => grow k 12 le_rfl u

/-- **C205 (refutation).** With the sine saturator the filter is not bounded: there is a cutoff at which, with the resonance all the way down, one loud sample makes a notch filter grow without limit in the silence that follows. -/
theorem C205_explodes_refuted (sub : Fin 4) : ∃ f : ℝ, 5 ≤ f ∧ f ≤ 48000 * 0.3 ∧ ∀ B : ℝ, ∃ n : ℕ,
    ∃ y ∈ (run nlf ⟨nlfCoeffMake .notch sub f 48000 0, fun _ => 0, fun _ => 0, 12⟩ (1000 :: List.replicate n 0)).2, B < |y| := by
  obtain ⟨w, w0, w1, hc⟩ := fastcos_root
  have hp := Real.pi_pos
  have p1 := Real.pi_gt_d4
  have p2 := Real.pi_lt_d4
  norm_num at p1 p2 w1
  have f0 : 5 ≤ w * 48000 / (2 * Real.pi) := by rw [le_div_iff₀ (by positivity)]; linarith
  have f1 : w * 48000 / (2 * Real.pi) ≤ 48000 * 0.3 := by rw [div_le_iff₀ (by positivity)]; norm_num; linarith
  have fe : nlFreq (w * 48000 / (2 * Real.pi)) 48000 = w * 48000 / (2 * Real.pi) := by
    unfold nlFreq limit; rw [min_eq_left f1, max_eq_right f0]
  refine ⟨w * 48000 / (2 * Real.pi), f0, f1, fun B => ?_⟩
  have we : Real.pi * (2.0 * nlFreq (w * 48000 / (2 * Real.pi)) 48000 / 48000) = w := by
    rw [fe, show (2.0 : ℝ) = 2 by norm_num]; field_simp
  have w2 : w ≤ 0.6 * Real.pi := by norm_num; linarith
  obtain ⟨a, a0, a1, hs, e⟩ := nl_form .notch (by linarith : 0 < w) w2 0
  have q : Spec.nlQ 0 = 0.1 := by norm_num [Spec.nlQ, limit]
  obtain ⟨s0, s1, -, -⟩ := nl_trig (by linarith : 0 < w) w2
  have sl : 0.6 ≤ fastsin w := by
    have c := (C141_cosine (x := w) (by linarith) (by linarith)).1
    have s := (C141_sine (x := w) (by linarith) (by linarith)).1
    rw [hc] at c
    rw [abs_le] at c s
    norm_num at c s ⊢
    have sp : 0 < Real.sin w := Real.sin_pos_of_pos_of_lt_pi (by linarith) (by linarith)
    have := Real.sin_sq_add_cos_sq w
    have cc : Real.cos w ^ 2 ≤ 1 / 4 := by nlinarith
    have : 0.7 ≤ Real.sin w := by norm_num; nlinarith
    norm_num at this
    linarith
  rw [q] at hs
  norm_num at hs sl
  have al : 1 / 6 ≤ a := by nlinarith
  have au : a ≤ 1 / 4 := by nlinarith
  set c := nlfCoeffMake .notch sub (w * 48000 / (2 * Real.pi)) 48000 0 with hcm
  have cv : ∀ i, i ≠ 5 → c i = nlDesign .notch w 0 i := fun i hi => by rw [hcm]; simp only [nlfCoeffMake, hi, if_false, we]
  have c0 : c 0 = 0 := by rw [cv 0 (by norm_num), e]; show -2 * fastcos w * a = 0; rw [hc]; ring
  have c1 : c 1 = 2 * a - 1 := by rw [cv 1 (by norm_num), e]; rfl
  have c2 : c 2 = a := by rw [cv 2 (by norm_num), e]; rfl
  have c3 : c 3 = 0 := by rw [cv 3 (by norm_num), e]; show -2 * fastcos w * a = 0; rw [hc]; ring
  have c4 : c 4 = a := by rw [cv 4 (by norm_num), e]; rfl
  have c5 : c 5 = 1 := by rw [hcm]; norm_num [nlfCoeffMake]
  have sat : nlfSat 12 = .sine := by norm_num [nlfSat]
  have st : ∀ (reg : ℕ → ℝ) (x : ℝ), nlf ⟨c, fun _ => 0, reg, 12⟩ x = (⟨c, fun _ => 0, Function.update (Function.update reg 0 (reg 1)) 1 (a * x - (2 * a - 1) * fastsin (reg 0 + a * x)), 12⟩, reg 0 + a * x) := by
    intro reg x
    rw [nlf_one rfl]
    simp only [nlfSection, FU.adv, FU.set, sat, NlSat.fn, mul_zero, zero_add, c0, c1, c2, c3, c4, c5, add_zero, ite_self, zero_mul, sub_zero, mul_one]
  set v := a * 1000 - (2 * a - 1) * fastsin (0 + a * 1000) with hv
  have big : 12 ≤ |v| := by
    have g := fastsin_grows (x := a * 1000) (by rw [abs_of_pos (by linarith)]; linarith)
    rw [abs_of_pos (show 0 < a * 1000 by linarith)] at g
    have t := abs_sub_abs_le_abs_sub ((2 * a - 1) * fastsin (0 + a * 1000)) (a * 1000)
    rw [abs_sub_comm ((2 * a - 1) * fastsin (0 + a * 1000)), ← hv, zero_add, abs_mul, abs_of_nonpos (show 2 * a - 1 ≤ 0 by linarith), abs_of_pos (show 0 < a * 1000 by linarith)] at t
    nlinarith [abs_nonneg (fastsin (a * 1000))]
  obtain ⟨k, hk⟩ := pow_unbounded_of_one_lt B (show (1 : ℝ) < 3 / 2 by norm_num)
  obtain ⟨y, hy, hb⟩ := nlf_blow k ⟨c, fun _ => 0, Function.update (Function.update (Function.update (Function.update (fun _ => (0 : ℝ)) 0 0) 1 v) 0 v) 1 0, 12⟩ rfl c0 c5 (fun _ => rfl)
    (by simp) (by show 1 / 2 ≤ |c 1|; rw [c1, abs_of_nonpos (by linarith)]; linarith) (by simpa [Function.update_apply] using big)
  refine ⟨2 * k + 1 + 1, y, ?_, ?_⟩
  · rw [List.replicate_succ]
    simp only [run, List.mem_cons, st]
    refine .inr (.inr ?_)
    have f00 : fastsin 0 = 0 := by simp [fastsin]
    simp only [← hv, Function.update_apply, mul_zero, zero_sub] at hy ⊢
    norm_num [f00] at hy ⊢
    exact hy
  · have : (0 : ℝ) < (3 / 2) ^ k := by positivity
    linarith

end Verif.Filters
