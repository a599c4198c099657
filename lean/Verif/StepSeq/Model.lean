import Verif.Rust
import Verif.Float.F32
/-!
# surge-stepseq: `StepSequencer`
Models `surge-stepseq/src/{stepsequencer,mute,next,probability,random,swing}.rs` (persistence is in
`Verif.StepSeq.Persist`).
-/
namespace Verif.StepSeq
open Verif.Float

/-- Outcome of a function with no error type: a value or a panic. -/
abbrev P (α : Type) := Res Empty α

/-- stepsequencer.rs 87 `N_STEPSEQUENCER_STEPS`. -/
def nSteps : Nat := 16

/-- stepsequencer.rs 40-76 `struct StepSequencer`; `usize` fields are `Nat`. -/
structure Seq where
  steps : Fin 16 → F32
  probabilities : Fin 16 → F32
  loopStart : Nat
  loopEnd : Nat
  shuffle : F32
  trigmask : BitVec 64
  muteMask : BitVec 64
  currentStep : Nat

/-- stepsequencer.rs 89-103 `Default`. -/
def Seq.default : Seq :=
  { steps := fun _ => .fin 0, probabilities := fun _ => .fin 1, loopStart := 0, loopEnd := nSteps - 1,
    shuffle := .fin 0, trigmask := 0, muteMask := 0, currentStep := 0 }

/-- `1u64 << n` with the debug overflow check. -/
def shl1 (n : Nat) : P (BitVec 64) :=
  if n < 64 then .ok (1#64 <<< n) else .panic "shift left with overflow"

/-- Write one array cell. -/
def setCell (a : Fin 16 → F32) (i : Nat) (v : F32) : Fin 16 → F32 := fun j => if j.1 = i then v else a j

/-! ## mute.rs -/
/-- mute.rs 15-17 `mute_step`. -/
def Seq.muteStep (s : Seq) (step : Nat) : P Seq := do
  let b ← shl1 step; pure { s with muteMask := s.muteMask ||| b }
/-- mute.rs 20-22 `unmute_step`. -/
def Seq.unmuteStep (s : Seq) (step : Nat) : P Seq := do
  let b ← shl1 step; pure { s with muteMask := s.muteMask &&& ~~~b }
/-- mute.rs 25-27 `mute_all`. -/
def Seq.muteAll (s : Seq) : Seq := { s with muteMask := (BitVec.allOnes 64) >>> (64 - nSteps) }
/-- mute.rs 30-32 `unmute_all`. -/
def Seq.unmuteAll (s : Seq) : Seq := { s with muteMask := 0 }
/-- mute.rs 44-46 `mute_group`. -/
def Seq.muteGroup (s : Seq) (mask : BitVec 64) : Seq := { s with muteMask := s.muteMask ||| mask }
/-- mute.rs 58-60 `unmute_group`. -/
def Seq.unmuteGroup (s : Seq) (mask : BitVec 64) : Seq := { s with muteMask := s.muteMask &&& ~~~mask }
/-- mute.rs 65-67 `is_step_muted`. -/
def Seq.isStepMuted (s : Seq) (step : Nat) : P Bool := do
  let b ← shl1 step; pure (s.muteMask &&& b != 0)

/-! ## stepsequencer.rs 117-203: accessors -/
/-- stepsequencer.rs 119-125 `new_from_sequence`. -/
def Seq.newFromSequence (steps : Fin 16 → F32) : Seq := { Seq.default with steps := steps }
/-- stepsequencer.rs 127-131 `set_step`. -/
def Seq.setStep (s : Seq) (i : Nat) (v : F32) : Seq :=
  if i < nSteps then { s with steps := setCell s.steps i v } else s
/-- stepsequencer.rs 133-139 `step`. -/
def Seq.step (s : Seq) (i : Nat) : F32 := if h : i < 16 then s.steps ⟨i, h⟩ else .fin 0
/-- stepsequencer.rs 143-146 `set_loop`. -/
def Seq.setLoop (s : Seq) (a b : Nat) : Seq := { s with loopStart := a, loopEnd := b }
/-- stepsequencer.rs 193-195 `reset`. -/
def Seq.reset (s : Seq) : Seq := { s with currentStep := 0 }

/-! ## probability.rs -/
/-- probability.rs 7-12 `set_probability`. -/
def Seq.setProbability (s : Seq) (i : Nat) (v : F32) : Seq :=
  if i < nSteps then { s with probabilities := setCell s.probabilities i v } else s
/-- probability.rs 16-21 `set_probabilities`: copies the common prefix. -/
def Seq.setProbabilities (s : Seq) (vs : List F32) : Seq :=
  { s with probabilities := fun j => if h : j.1 < vs.length then vs[j.1] else s.probabilities j }
/-- probability.rs 25-32 `get_probability`. -/
def Seq.getProbability (s : Seq) (i : Nat) : F32 := if h : i < 16 then s.probabilities ⟨i, h⟩ else .fin 0

/-! ## next.rs -/
/-- Label of the model's own outcome "loop not finished within the fuel". -/
def outOfFuel : String := "model: out of fuel"

/-- `(loop_end - loop_start + 1) as f32`, with the `usize` underflow check. -/
def loopLen (s : Seq) : P F32 :=
  if s.loopStart ≤ s.loopEnd then .ok (F32.ofInt ((s.loopEnd - s.loopStart + 1 : Nat) : ℤ))
  else .panic "usize subtract overflow"

/-- next.rs 22-24: `while wrapped_step > loop_end { wrapped_step -= len }`. -/
def wrapDown (s : Seq) : Nat → F32 → P F32
  | 0, _ => .panic outOfFuel
  | fuel + 1, w =>
    if (F32.ofInt (s.loopEnd : ℤ)).lt w then do
      let len ← loopLen s
      wrapDown s fuel (w.sub len)
    else .ok w

/-- next.rs 26-28: `while wrapped_step < loop_start { wrapped_step += len }`. -/
def wrapUp (s : Seq) : Nat → F32 → P F32
  | 0, _ => .panic outOfFuel
  | fuel + 1, w =>
    if w.lt (F32.ofInt (s.loopStart : ℤ)) then do
      let len ← loopLen s
      wrapUp s fuel (w.add len)
    else .ok w

/-- next.rs 12-14: the half-width of the shuffle range. -/
def Seq.shuffleAmount (s : Seq) : F32 := s.shuffle.mul (.fin (1 / 2))

/-- next.rs 5-38 `next_step`.  `off` is what `rng.gen_range(-shuffle_amount..shuffle_amount)` returned; the
generator panics on an empty range.  `fuel` bounds the two `while` loops. -/
def Seq.nextStep (fuel : Nat) (s : Seq) (off : F32) : P (F32 × Seq) :=
  if h : s.currentStep < 16 then
    let step := s.steps ⟨s.currentStep, h⟩
    if !(s.shuffleAmount.neg.lt s.shuffleAmount) then .panic "cannot sample empty range"
    else do
      let next := ((F32.ofInt (((s.currentStep + 1) % nSteps : Nat) : ℤ)).add off).add
        (F32.ofInt (s.loopStart : ℤ))
      let w1 ← wrapDown s fuel next
      let w2 ← wrapUp s fuel w1
      let bit ← shl1 w2.toUsize
      if s.trigmask &&& bit = 0 then
        pure (step, { s with currentStep := (s.currentStep + 1) % nSteps })
      else
        pure (step, { s with currentStep := w2.toUsize })
  else .panic "index out of bounds"

/-! ## swing.rs, random.rs -/
/-- swing.rs 37-38 `swing_steps`. -/
def swingSteps (s : Seq) (amount : F32) : P Int := do
  let len ← loopLen s
  pure ((amount.mul len).round.toI32)

/-- swing.rs 43-45: the new value of one step. -/
def swungValue (v : F32) (k : Int) : F32 :=
  ((v.add ((F32.ofInt k).divC 16)).max (.fin 0)).min (.fin 1)

/-- swing.rs 41-46: the loop body over the indices `i, i+2, …`, `n` of them. -/
def swingLoop (k : Int) : Nat → Nat → Seq → P Seq
  | 0, _, s => .ok s
  | n + 1, i, s =>
    if h : i < 16 then
      swingLoop k n (i + 2) { s with steps := setCell s.steps i (swungValue (s.steps ⟨i, h⟩) k) }
    else .panic "index out of bounds"

/-- swing.rs 35-47 `apply_swing`; `(start..=end).step_by(2)` has `(end - start) / 2 + 1` items (none if
`end < start`, but then the subtraction has panicked). -/
def Seq.applySwing (s : Seq) (amount : F32) : P Seq := do
  let k ← swingSteps s amount
  swingLoop k ((s.loopEnd - s.loopStart) / 2 + 1) s.loopStart s

/-- random.rs 38-43: one iteration; `u` is `rng.gen::<f32>()`, `off` what `gen_range` returned. -/
def mutateOne (rate range : F32) (u off : F32) (i : Fin 16) (s : Seq) : P Seq :=
  if u.lt rate then
    if !(range.neg.lt range) then .panic "cannot sample empty range"
    else .ok { s with steps := setCell s.steps i.1 ((((s.steps i).add off).max (.fin 0)).min (.fin 1)) }
  else .ok s

/-- random.rs 33-45 `mutate_sequence`; `rnd i` are the two random draws of iteration `i`. -/
def Seq.mutate (s : Seq) (rate range : F32) (rnd : Fin 16 → F32 × F32) : P Seq :=
  (List.finRange 16).foldlM (fun s i => mutateOne rate range (rnd i).1 (rnd i).2 i s) s

end Verif.StepSeq
