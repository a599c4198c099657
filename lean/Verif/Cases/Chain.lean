import Verif.Chain.Handover
import Verif.Chain.Claims
/-!
# Cases: the chain of filters of a voice

Concrete cases that meet the hypotheses of theorems of these modules, by applying the theorems to them.
-/
namespace Verif.Cases.Chain
open Verif.Chain Verif.Chain.Spec Verif.Chain.Handover

/-- A voice that is switched off, and one at rest with both filters' memories at 1. -/
def off : Voice ℝ := ⟨0, 0, 0, 0, false, 1, 0.5, 0.5, 0.5, 1, 0, 0, 0, 0, 0, 0, 0, 0, 1, 1, 0, 0, 0, 0, 0, 0⟩
def lives : Voice ℝ := { off with active := true, a := 1, b := 1, a2 := 1, b2 := 1 }
/-- Two one-pole filters and a hard clipper. -/
noncomputable def units : Verif.Chain.Spec.Units ℝ := ⟨some fun u x => ((u + x) / 2, u), some fun u x => (x, (u + x) / 2), some fun x _ => max (-1) (min 1 x)⟩

example := C123_inactive_silent .stereo units off rfl (fun _ => 1) (fun _ => 0.5) 7
example (s : ChainState (Fin 4 → ℝ) × Bufs) := C123_debug_mono .serial2 (by decide) (globals units) (globals units) (fun _ _ => 1) (fun _ _ => 1) 64 s
/-- C123: the sum of the voices before this quad has reached 32. -/
example (c : ChainState (Fin 4 → ℝ)) (hc : ∀ i, c.active i = false) := C123_debug_refuted .stereo (.inl rfl) 63 c hc (fun _ => 40, fun _ => 0) (by norm_num)
example := C126_serial3_filter2_in_loop units none { lives with feedback := 0 } rfl rfl 3 1 (fun _ => 1) (fun _ => 1) (fun _ => 2) 5
example := C126_bypass_front .serial2 (.inr (.inl rfl)) units { lives with mix1 := 0 } rfl rfl (fun _ => 1) (fun _ => 1) 5
example := C126_bypass_back .serial1 (.inl rfl) units none { lives with mix2 := 0 } rfl rfl (fun _ => 1) (fun _ => 1) (fun _ => 2) 5
example := C126_wide_channels units lives ⟨rfl, rfl, rfl, rfl⟩ 3 4 1 (fun _ => 1) (fun _ => 1) (fun _ => 2) 5
example := C126_symmetric .ring (.inr rfl) units lives (fun _ => 1) (fun _ => 1) 5
example := C124_mixes .dual1 (b := -0.25) (by norm_num [abs_of_neg])
example (c : ChainState (Fin 4 → ℝ)) := C124_other_lanes .serial1 ⟨1, 0, 0.5, 0.2⟩ ⟨1, 1, 0, 0⟩ ⟨0, 0, 0, 0, 0, 0, 0, 0, 0, 0, 0, 0⟩ c 2 3 (by decide)

/-- C125: settings within the bounds: feedback of a thousand million through wires and a clipper. -/
example := C125_feedback_bounded (cfg := .serial2) (p := (⟨none, none, some fun x _ => max (-1) (min 1 x)⟩ : Verif.Chain.Spec.Units ℝ)) (v0 := lives) (M := 1) (Γ := 1) (GA := 1) (GB := 1) (S := 1)
  (by norm_num) (by norm_num) le_rfl le_rfl (by norm_num) (by
    intro w hw x d
    simp only [Option.some.injEq] at hw
    subst hw
    rw [abs_le]; exact ⟨le_max_left _ _, max_le (by norm_num) (min_le_left _ _)⟩) (by simp) (by simp)
  [⟨true, 1, 0, 10 ^ 9, 5, 1 / 2, 0, 1, 0, 3, 0, 1, -1⟩, ⟨true, 0.5, 0, 10 ^ 9, 5, 1 / 2, 0, 1, 0, 3, 0, 1, -1⟩] (by norm_num [Settings.Ok])
  ⟨true, 1, 0, 10 ^ 9, 5, 1 / 2, 0, 1, 0, 3, 0, 1, -1⟩ (by norm_num [Settings.Ok])

/-- C259: one filter, two voices. -/
def oneUnit : Verif.Chain.Spec.Units UnitLane := ⟨some fun u x => ({ u with reg := fun _ => x }, u.reg 0), none, none⟩
def firstOn : Fin 2 → Bool := fun | 0 => true | 1 => false
def memory : Mem Unit := ⟨⟨0, 0, 0, 0, 0, 0, 0, 0, 0, 0, 0, 0⟩, fun _ _ => 1, fun _ => 0, fun _ _ => 0, fun _ _ => 0, fun _ => ()⟩
def job : Job Unit := ⟨⟨1, 0, 0, 0⟩, ⟨1, 1, 0, 0⟩, fun _ x => (x.1, fun _ => 0, x.2), fun _ => 1, fun _ => 0⟩
example (old : (ℕ → V4) × (ℕ → V4)) (c : Quad) (o : Bufs) := C259_as_if_alone (cfg := .serial1) (on := firstOn) (p := oneUnit) rfl rfl [(memory, job), (memory, job)] (by simp) old old c c o
example (old : (ℕ → V4) × (ℕ → V4)) (c : Quad) (o : Bufs) := C259_life (cfg := .serial1) (on := firstOn) (p := oneUnit) rfl rfl old c
  [⟨[], [(memory, job)], old, c, o, job⟩, ⟨[(memory, job)], [], old, c, o, job⟩] (by simp) memory
example (c : Quad) := C259_keeps .serial1 firstOn job memory c c 0 3 rfl
example (c : Quad) := C259_keeps_second .serial1 (fun _ => true) job memory c c 0 3 rfl

end Verif.Cases.Chain
