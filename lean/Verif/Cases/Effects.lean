import Verif.Dsp.Absmax
import Verif.Dsp.Blocks
import Verif.Dsp.Clip
import Verif.Dsp.Fast
import Verif.Dsp.Noise
import Verif.Dsp.Util
import Verif.Dynamics.Claims
import Verif.Effects.Allpass
import Verif.Effects.ChorusClaims
import Verif.Effects.DualDelayClaims
import Verif.Effects.Eq
import Verif.Effects.Phaser
import Verif.Effects.RingMod
import Verif.Effects.RotaryClaims
import Verif.Filters.Comb
import Mathlib.Analysis.Real.Pi.Bounds
/-!
# Cases: block operations, dynamics, effects

Concrete cases that meet the hypotheses of theorems of these modules, by applying the theorems to them.
-/
namespace Verif.Cases.Effects
open Verif

section
open Verif.Dsp
/-- C60: two blocks, of 1.0 and of -2.0. -/
example := C60_absmax2_partial (fun _ => 0x3f800000) (fun _ => 0xc0000000) 8 (fun _ _ => by unfold Spec.finite; decide)
example := C60_meter_is_blind (fun _ => 0x3f800000) 8 (fun _ _ => by
  have : Spec.value 0x3f800000 = 1 := by simp only [Spec.value]; norm_num
  rw [this]; norm_num)
example := C58_scratch_block_overflows (1 : ℝ) (-1) 8 100 (fun _ => 0) 140 (by norm_num) (by norm_num)
example := C59_mid_side_roundtrip (K := ℚ) (fun n => n) (fun n => -n / 2) (fun _ => 0) (fun _ => 0) (fun _ => 0) (fun _ => 0) 8 31 (by norm_num)
example := C61_limit_range (.fin 7) (lo := -1) (hi := 3) (by norm_num)
example := C61_hardclip_block 8 rfl (fun _ => .nan) 31
example := Fast.C141_cosine (x := -3) (by linarith [Real.pi_gt_three]) (by linarith [Real.pi_gt_three])
example := Noise.C236_bounded (r := fun n => (-1) ^ n) (c := fun _ => 0.5) (by simp) (by intro; norm_num [abs_of_pos]) (v := 1) (w := -1) (by norm_num) (by norm_num) 40
example := Noise.C236_tilt (c := -0.25) (by norm_num [abs_of_neg])
example := Util.C238_allpass (N := 8) (by norm_num) 0.3 (fun n => (-1) ^ n) 100
example := Util.C240_windows (n := 512) (by norm_num)
end

section
open Verif.Dynamics
noncomputable def tick (x : ℝ) : Tick := ⟨0.5, -0.25, (x, 0)⟩
example := C120_root (fun x => x⁻¹) (Cond.new.init) (.inr ⟨_, rfl⟩) [tick 1, tick (-2)]
example := C122_never_amplifies (ε := 0) (rcp := fun x => x⁻¹) (fun d hd => by simp [hd]) (by norm_num) Cond.new [tick 1, tick (-2)]
  (by norm_num [tick, abs_of_pos, abs_of_neg]) (tick 3) (by norm_num [tick, abs_of_pos, abs_of_neg])
/-- C122: two histories that differ in their first sample only. -/
example := C122_ignores_refuted (fun x => x⁻¹) Cond.new [tick 1, tick 1] [tick 100, tick 1] (.cons ⟨rfl, rfl⟩ (.cons ⟨rfl, rfl⟩ .nil)) (by
  intro k h1 h2 hk
  simp at h1
  omega)
end

section
open Verif.Effects.Allpass
example := C152_first_echo_refuted (fun n => n) (tap := 441) (by norm_num) (by norm_num)
/-- C152: before the first sample, with a pre-delay of 441 samples. -/
example := C152_plays_partial (x := fun n => n) (tap := fun _ => 441) (n := 0) (S := fun _ => .new) (y := fun _ => 0) ⟨rfl, by simp⟩ (by norm_num) (by norm_num) 1
example := C153_lossless 0.75 (fun n => 100 + n % 50) (fun n => n) (fun n => by omega)
example := C153_too_long_refuted ⟨20000, 16383, fun _ => 0⟩ 1 0.5 rfl (by norm_num)
/-- The states of a delay line fed with `w`. -/
noncomputable def states (w : ℕ → ℝ) (len t1 t2 mo : ℕ → ℤ) : ℕ → Line
  | 0 => .new
  | n + 1 => (((states w len t1 t2 mo n).setLen (len n)).process (w n) (t1 n) (t2 n) (mo n)).1
theorem line_run (w : ℕ → ℝ) (len t1 t2 mo : ℕ → ℤ) : ∃ S out a b, Spec.LineRun w len t1 t2 mo S out a b :=
  ⟨states w len t1 t2 mo, fun n => (((states w len t1 t2 mo n).setLen (len n)).process (w n) (t1 n) (t2 n) (mo n)).2.1,
    fun n => (((states w len t1 t2 mo n).setLen (len n)).process (w n) (t1 n) (t2 n) (mo n)).2.2.1,
    fun n => (((states w len t1 t2 mo n).setLen (len n)).process (w n) (t1 n) (t2 n) (mo n)).2.2.2, rfl, fun _ => rfl⟩
/-- C155: a line of 1000 samples, modulated by a quarter of a sample; one of 20000. -/
example : ∃ (S : ℕ → Line) (out a b : ℕ → ℝ), Spec.LineRun (fun n => n) (fun _ => 1000) (fun _ => 300) (fun _ => 700) (fun _ => 64) S out a b ∧ a 2000 = Spec.ago (fun n => n) 2000 300 := by
  obtain ⟨S, out, a, b, h⟩ := line_run (fun n => n) (fun _ => 1000) (fun _ => 300) (fun _ => 700) (fun _ => 64)
  exact ⟨S, out, a, b, h, (C155_plays h 2000).1 (by norm_num) (by norm_num)⟩
example : ∃ (S : ℕ → Line) (out a b : ℕ → ℝ), Spec.LineRun (fun n => n) (fun _ => 20000) (fun _ => 300) (fun _ => 700) (fun _ => 0) S out a b ∧ out 30000 = Spec.ago (fun n => n) 30000 (20000 - 16384) := by
  obtain ⟨S, out, a, b, h⟩ := line_run (fun n => n) (fun _ => 20000) (fun _ => 300) (fun _ => 700) (fun _ => 0)
  exact ⟨S, out, a, b, h, C155_long_refuted h 30000 rfl (by norm_num) (by norm_num)⟩
end

section
open Verif.Effects.Chorus
noncomputable def chorus : ℕ → Verif.Effects.Chorus.Params := fun _ => ⟨0, 0.01, 500, 0.5, 1, 1, 1, 1, fun _ => 1⟩
example := C232_silence chorus (x := fun _ _ => 0) (fun _ _ => rfl) 4 true (m := 100) (by norm_num)
example := C233_delays_in_range chorus (by intro n; norm_num [chorus]) (T := 500) (by intro n; norm_num [chorus]) (d := 0.5) (by intro n; norm_num [chorus, abs_of_pos]) (i := 3) (by norm_num)
end

section
open Verif.Effects.RingMod
example := C145_carrier (phase := 0.3) (by norm_num) (by norm_num) 4
example := C145_phase (p := 0.75) (d := 0.5) (by norm_num) (by norm_num)
example := C145_cycles (d := 0.3) (by norm_num) 100
example := C146_unison (n := 5) (u := 1) (by norm_num) (by norm_num)
example := C146_bounded (n := 2) (by norm_num) (by norm_num) 0.3 0.7 0.5 (by norm_num) (by norm_num) 1 (unison 2) (fun _ _ => ⟨rfl, rfl⟩) (l := 1) (r := -1) (by norm_num) (by norm_num)
end

section
open Verif.Effects.Rotary
example := C225_silence 0.1 0.05 (still 1 20 1 fun _ => 0) (x := fun c _ => if c then -1 else 1) (by simp) 4 true (m := 100) (by norm_num)
example := C225_mono 0.1 0.05 (still 1 20 1 fun _ => 0) (x := fun c _ => if c then 1 else 0) (x' := fun c _ => if c then 0 else 1) (by simp) 4
example := C226_delay (still 1 20 1 fun _ => 0) (lo := 10) (hi := 30) (by norm_num) (by intro n; norm_num [still]) true 100
example := C226_gain (still 1 20 1 fun _ => 0) (A := 1) (by intro n; norm_num [still]) true 100
/-- C228: a crossover at 0.1 radians per sample, four blocks of a square wave. -/
example : ∃ K : ℝ, 0 ≤ K ∧ ∀ c m, m < 128 → |(play 0.1 0.05 (still 1 20 1 fun i => if i = 7 then 1 else 0) (fun _ n => (-1) ^ n) 4).2 c m| ≤ K * (1 + 1e-30) := by
  have : (3 : ℝ) < Real.pi := Real.pi_gt_three
  obtain ⟨K, K0, h⟩ := C228_bounded (ωx := 0.1) (ωb := 0.05) ⟨by norm_num, by linarith⟩ ⟨by norm_num, by linarith⟩ (S := 1) (by norm_num)
  refine ⟨K, K0, fun c m hm => h _ (fun n => ⟨by norm_num [still], fun i => by simp only [still]; split <;> simp⟩) (fun _ n => (-1) ^ n) 1 4 (by simp) c m (by omega)⟩
end

section
open Verif.Filters.Comb
example := C218_bounded (rnd := fun x => round x) (fun x => by rw [abs_sub_comm]; exact abs_sub_round x) (sinc := fun _ => 0.1) (K := 2)
  (by intro r _; norm_num [abs_of_pos]) ⟨fun _ => 100.5, fun _ => 0.9, fun _ => 1, fun _ => 0.5, fun n => (-1) ^ n⟩ (by intro n; norm_num) 1000
end
end Verif.Cases.Effects
