import Verif.Delay.Claims
import Verif.Delay.FlangerClaims
import Verif.Delay.FlangerProps
import Verif.Delay.ReverbAutomation
/-!
# Cases: delay lines, flanger and reverb

Concrete cases that meet the hypotheses of theorems of these modules, by applying the theorems to them.
-/
namespace Verif.Cases.Delay
open Verif Verif.Float

theorem f32_half : Param.Spec.IsF32 (1 / 2) := by unfold Param.Spec.IsF32; decide +kernel
theorem f32_one : Param.Spec.IsF32 1 := by unfold Param.Spec.IsF32; decide +kernel
theorem f32_zero : Param.Spec.IsF32 0 := by unfold Param.Spec.IsF32; decide +kernel
theorem f32_tap : Param.Spec.IsF32 (401 / 4) := by unfold Param.Spec.IsF32; decide +kernel

section
open Verif.Delay
example (kern : Nat → F32) := C86_dual_delay_reads_history kern [fun _ => .fin 1, fun k => .fin k] (.fin (401 / 4)) (k := 31) (by norm_num)
/-- The position a delay of 100.25 samples reads. -/
theorem position : ∃ dt row, Spec.Position 32 (.fin (401 / 4)) dt row := by
  obtain ⟨_, -, dt, row, h, -⟩ := C86_dual_delay_reads_history (fun _ => .fin 0) [] (.fin (401 / 4)) (k := 0) (by norm_num)
  exact ⟨dt, row, h⟩
example : ∃ dt row, Spec.Position 32 (.fin (401 / 4)) dt row ∧ ((64 : Int) + (31 : ℕ) - dt - 12 + (11 : ℕ) < 64 ∧ (64 : Int) - 2 ^ 18 ≤ 64 + (31 : ℕ) - dt - 12 + (11 : ℕ)) := by
  obtain ⟨dt, row, h⟩ := position
  exact ⟨dt, row, h, C86_causal h (by norm_num) (by norm_num) 64⟩
example := C86_write_in_bounds (N := 32) le_rfl (by norm_num) [fun _ => .fin 1, fun k => .fin k] fun _ => .fin 1
example (kern : Nat → F32) := C87_chorus_reads_history (N := 64) (by norm_num) (by norm_num) kern [fun _ => .fin 1] [(.fin (401 / 4), .fin 1), (.nan, .fin 1)] (k := 63) (by norm_num)
end

section
open Verif.Flanger
/-- One comb, feedback a half, damping a quarter. -/
def ctl : Flanger.Ctl := ⟨[(.fin 1, .fin (401 / 4))], .fin (1 / 2), .fin (1 / 2), .fin 1, .fin (1 / 2), .fin 0⟩
theorem half_between : Lfo.Spec.Between 0 1 (.fin (1 / 2)) := ⟨1 / 2, rfl, f32_half, by norm_num, by norm_num⟩
theorem half_between' : Lfo.Spec.Between (-1) 1 (.fin (1 / 2)) := ⟨1 / 2, rfl, f32_half, by norm_num, by norm_num⟩
/-- C89: three samples, one of them not a number. -/
example : ∃ s' ys, Chan.run [(ctl, .fin 1), (ctl, .nan), (ctl, .fin 3)] Chan.new = .ok (s', ys) ∧ Lfo.Spec.Between (-1) 1 s'.lpa := by
  obtain ⟨s', ys, h, -, -⟩ := C89_flanger_returns [(ctl, .fin 1), (ctl, .nan), (ctl, .fin 3)] (by
    intro p hp wt hw
    simp only [List.mem_cons, List.not_mem_nil, or_false] at hp
    have : p.1 = ctl := by rcases hp with rfl | rfl | rfl <;> rfl
    rw [this] at hw
    simp only [ctl, List.mem_cons, List.not_mem_nil, or_false] at hw
    subst hw
    decide +kernel)
  refine ⟨s', ys, h, (C89_flanger_bounded _ ?_ h).1⟩
  intro p hp
  simp only [List.mem_cons, List.not_mem_nil, or_false] at hp
  have : p.1 = ctl := by rcases hp with rfl | rfl | rfl <;> rfl
  rw [this]; exact half_between
example := C90_longphase [.fin (1 / 2), .fin 1] (by
  intro r hr
  simp only [List.mem_cons, List.not_mem_nil, or_false] at hr
  rcases hr with rfl | rfl
  · exact ⟨_, rfl, f32_half, by norm_num, by norm_num⟩
  · exact ⟨_, rfl, f32_one, by norm_num, by norm_num⟩)
example := C90_phase half_between half_between
example := C90_oscillator (fun _ => .fin (1 / 2)) (fun _ => half_between') .sin f32_half (by norm_num) (by norm_num) true half_between' half_between'
example := C90_voice_weights (v := 3) (by norm_num)
example (sqrt : F32 → F32) := C90_arp_weights sqrt f32_half (by norm_num) (by norm_num)
example := C88_interp_delay [.fin 1, .fin 2, .nan] f32_tap (by norm_num) (by norm_num)
example := C88_long_delay_wraps [.fin 1, .fin 2, .nan] (d := 8192.5) (by norm_num) (by norm_num)
end

section
open Verif.Reverb Finset
/-- The first preset at 44.1 kHz, one second, damping a fifth. -/
noncomputable def plate : Reverb.Ctl ℝ := settings (fun t => (presetTimes[0]!)[t]!) 44100 1 (1 / 5) 2756 false
theorem plate_time : ∀ t < 16, plate.time t < 2 ^ 23 := by
  have : ∀ t < 16, (presetTimes[0]!)[t]! < 2 ^ 23 := by decide +kernel
  exact this
theorem plate_decays : ∃ ρ < 1, Spec.Decays plate ρ := C91_settings_decay _ (by decide +kernel) (by norm_num) 1 (by norm_num) (by norm_num) _ _
example := C92_reverb_run [(plate, (1 : ℝ), (0 : ℝ)), (plate, -1, 1)] (by
  intro x hx
  simp only [List.mem_cons, List.not_mem_nil, or_false] at hx
  have : x.1 = plate := by rcases hx with rfl | rfl <;> rfl
  rw [this]
  exact ⟨plate_time, by norm_num [plate, settings], by norm_num [plate, settings], rfl⟩)
example := C92_reverb_sample new_holds plate plate_time (by norm_num [plate, settings]) (by norm_num [plate, settings]) (.inl rfl) (1 : ℝ) (0 : ℝ)
example : ∃ ρ : ℝ, ρ < 1 ∧ ∃ s ys, run ([((1 : ℝ), (0 : ℝ)), (-1, 1)].map fun x => (plate, x.1, x.2)) Rev.new = .ok (s, ys) ∧ ys.length = 2 ∧
    ∀ y ∈ ys, y.1 ^ 2 ≤ (∑ t ∈ range 16, plate.panL t ^ 2) * (4 * 1 * ρ / (1 - ρ)) ^ 2 ∧ y.2 ^ 2 ≤ (∑ t ∈ range 16, plate.panR t ^ 2) * (4 * 1 * ρ / (1 - ρ)) ^ 2 := by
  obtain ⟨ρ, h1, h⟩ := plate_decays
  exact ⟨ρ, h1, C91_bounded plate h h1 plate_time (by norm_num [plate, settings]) (by norm_num [plate, settings]) rfl [(1, 0), (-1, 1)] (P := 1) (by norm_num) (by norm_num)⟩
/-- The tail after these two samples. -/
example (m : Nat) : ∃ ρ : ℝ, ρ < 1 ∧ ∃ s ys, run (([((1 : ℝ), (0 : ℝ)), (-1, 1)] ++ List.replicate m ((0 : ℝ), (0 : ℝ))).map fun x => (plate, x.1, x.2)) Rev.new = .ok (s, ys) := by
  obtain ⟨ρ, h1, h⟩ := plate_decays
  obtain ⟨s, ys, e, -⟩ := C91_tail_decays plate h h1 plate_time (by norm_num [plate, settings]) (by norm_num [plate, settings]) rfl [(1, 0), (-1, 1)] (P := 1) (by norm_num) (by norm_num) m
  exact ⟨ρ, h1, s, ys, e⟩
/-- Feedback a half, damping a fifth, lines of at most 1000 samples. -/
example := C91_decays ⟨fun _ => 256000, fun _ => -0.5, fun _ => 1, fun _ => 1, 0.2, 0, false⟩ (by norm_num) (by norm_num) (γ := 0.5) (by norm_num) (by norm_num)
  (by norm_num [abs_of_neg]) (L := 1000) (by norm_num)
example : ∀ p ∈ presetTimes[1]!, delayTime (.fin (1 / 2)) p < 2 ^ 23 := fun _ hp => C93_presets_fit half_between (by decide +kernel) hp
example := C91_damping_one_freezes new_holds { plate with damp := 1 } plate_time (by norm_num [plate, settings]) (by norm_num [plate, settings]) rfl rfl 1 0
example := C93_long_predelay_wraps { plate with predelay := 100000 } rfl 5 (by norm_num) (by norm_num) (by norm_num)
end
end Verif.Cases.Delay
