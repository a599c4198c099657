import Mathlib.Analysis.Real.Pi.Bounds
import Mathlib.Tactic.IntervalCases
import Verif.Biquad.Designs
import Verif.Biquad.Glide
import Verif.Adsr.Claims
import Verif.Adsr.Digital
/-!
# Cases: envelopes and biquad filters

Concrete cases that meet the hypotheses of theorems of these modules, by applying the theorems to them.
-/
namespace Verif.Cases.Biquad
open Verif.Biquad

theorem one_lt_pi : (1 : ℝ) < Real.pi := by linarith [Real.pi_gt_three]
theorem pi_lt_four : Real.pi < (4 : ℝ) := Real.pi_lt_four
theorem four_lt_two_pi : (4 : ℝ) < 2 * Real.pi := by linarith [Real.pi_gt_three]

/-- Some calls, through every kind of processing function. -/
def someCalls : List Call := [.sample 1, .stereo 0.5 (-1), .nolag 0.25 0.25, .noinput, .mono [1, 0, -1], .block [(1, 0), (0, 1)], .slowlag [(1, 1)]]

theorem someCalls_plain : ∀ k ∈ someCalls, Spec.plain k := by simp [someCalls, Spec.plain]

/-- Calls that flush nothing. -/
def sampleCalls : List Call := [.sample 1, .stereo 0.5 (-1), .nolag 0.25 0.25, .noinput]

theorem sampleCalls_plain : ∀ k ∈ sampleCalls, Spec.plain k := by simp [sampleCalls, Spec.plain]
theorem sampleCalls_flush : ∀ k ∈ sampleCalls, ¬ Spec.flushes k := by simp [sampleCalls, Spec.flushes]

example := C94_constant_coefficients_partial .left 2 1 1 1 1 1 someCalls someCalls_plain
example := (C94_constant_coefficients_partial .right 2 1 1 1 1 1 sampleCalls sampleCalls_plain).2 sampleCalls_flush
example := (C94_difference_equation_partial .left sampleCalls).2 sampleCalls_flush
example := C95_glide_partial (Filter.new.setCoef 1 (-1) 0.5 1 0 0) 2 1 1 1 1 1 [.sample 1, .stereo 0 1, .mono [1, 2]] (by simp [Spec.smooth])
example := C96_glide_stays_stable .left 1 (-1.8) 0.82 1 0 0 [.sample 1, .setCoef 2 1 1 1 1 1, .stereo 1 1] (by
  norm_num [Spec.designs, Spec.Stable, Spec.normal, abs_of_pos, abs_of_neg])

/-- C96: a low pass that has rung before is set up again: eight designs, one constant each. -/
example (d : Design) : ∃ K r : ℝ, 0 ≤ K ∧ 0 ≤ r ∧ r < 1 ∧ ∀ n < (Spec.output ((Filter.new.design d 1 0.7).calls someCalls) .left).length,
    |(Spec.output ((Filter.new.design d 1 0.7).calls someCalls) .left).getD n 0| ≤ K * (r ^ n * (0 + 0) + 1 + 1e-30) := by
  obtain ⟨K, r, K0, r0, r1, h⟩ := C96_bounded_output_partial d (ω := 1) (q := 0.7) (by norm_num) one_lt_pi (by norm_num)
  refine ⟨K, r, K0, r0, r1, fun n hn => ?_⟩
  have := h Filter.new .left someCalls 1 rfl someCalls_plain (by norm_num [someCalls, Spec.input, abs_of_pos]) (by norm_num) n hn
  simpa [Filter.new, Side.of] using this

/-- C97: a sinusoid of an eighth of the sample rate, three samples through `process_sample`. -/
example (d : Design) := C97_response_partial d (ω := 1) (q := 0.7) (by norm_num) one_lt_pi (by norm_num) (1 / 8)
example : ∀ n < (([Call.sample (Real.cos (Spec.phase (1 / 8) 0 0)), .sample (Real.cos (Spec.phase (1 / 8) 0 1))]).flatMap (Spec.input .left)).length,
    (([Call.sample (Real.cos (Spec.phase (1 / 8) 0 0)), .sample (Real.cos (Spec.phase (1 / 8) 0 1))]).flatMap (Spec.input .left)).getD n 0 = Real.cos (Spec.phase (1 / 8) 0 n) := by
  intro n hn
  simp [Spec.input] at hn
  interval_cases n <;> simp [Spec.input]
example := C97_lowpass_partial (ω := 1) (q := 0.7) (by norm_num) one_lt_pi (by norm_num)
example := C97_highpass_partial (ω := 1) (q := 0.7) (by norm_num) one_lt_pi (by norm_num)
example := C97_no_gain_partial (ω := 1) (q := 0.7) (by norm_num) one_lt_pi (by norm_num) (by norm_num) 0.2
example := C97_bandpass_partial (ω := 1) (q := 0.7) (by norm_num) one_lt_pi (by norm_num)
example := C97_allpass_partial (ω := 1) (q := 0.7) (by norm_num) one_lt_pi (by norm_num) 0.2
example := C97_notch_partial (ω := 1) (by norm_num) one_lt_pi 0.5
example := C97_lp2b_partial (ω := 1) (q := 0.7) (by norm_num) one_lt_pi (by norm_num)
example := C97_pka_partial (ω := 1) (by norm_num) one_lt_pi 0.5
example := C98_allpass_energy_partial (ω := 1) (q := 0.7) (by norm_num) one_lt_pi (by norm_num) .left sampleCalls sampleCalls_plain sampleCalls_flush
example := C99_guarded_partial .hp trivial (ω := 4) 0.7 pi_lt_four .left someCalls someCalls_plain
/-- C99: with quality one, at four radians per sample, since the sine is above -2. -/
example := C99_bandpass_explodes (ω := 4) (q := 1) pi_lt_four four_lt_two_pi (by norm_num) (by linarith [Real.neg_one_le_sin 4]) 1000000

end Verif.Cases.Biquad

namespace Verif.Cases.Adsr
open Verif.Adsr Verif.Float Verif.Param

/-- Parameters with shapes that are integers, as the digital envelope wants them. -/
def digital : Params := { defaultParams with attackShape := .int 0, decayShape := .int 0, releaseShape := .int 2, mode := .bool false }
/-- A platform on which every time gives a quarter per block. -/
def quarter : Env := ⟨⟨fun _ => .fin (1 / 2), fun _ => .fin 0⟩, id, id, fun _ => .fin (1 / 4), .fin 44100, .fin 1⟩

theorem isF32_half : Spec.IsF32 (1 / 2) := by unfold Spec.IsF32; decide +kernel
theorem isF32_quarter : Spec.IsF32 (1 / 4) := by unfold Spec.IsF32; decide +kernel
theorem isF32_one : Spec.IsF32 1 := by unfold Spec.IsF32; decide +kernel

example := C35_digital_decay_partial quarter { new with p := digital, phase := .fin (1 / 2), stage := .decay } (su := .fin (1 / 2)) (d := .fin (1 / 2)) (ph := 1 / 2) (q := 1 / 2) (r := 1 / 4)
  rfl rfl rfl rfl isF32_half (by norm_num) (by norm_num) rfl (by decide +kernel) (by norm_num) (by norm_num)
example := C35_digital_release_partial quarter { new with p := digital, phase := .fin (1 / 2), scalestage := .fin 1, stage := .release } (v := .fin (1 / 2)) (n := 2) (ph := 1 / 2) (r := 1 / 4) (sc := 1)
  rfl rfl rfl (by norm_num) isF32_half (by norm_num) (by decide +kernel) isF32_quarter (by norm_num) (by norm_num) rfl (by norm_num) (by norm_num) isF32_one
example := C35_retrigger_partial { new with stage := .decay } (v := .fin (1 / 2)) (m := .fin 0) rfl rfl

end Verif.Cases.Adsr
