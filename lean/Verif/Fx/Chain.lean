import Verif.Fx.Ringout
import Verif.Smooth.Lipol
import Mathlib.Tactic.Push
/-!
# The effect chain of the synthesizer

Models `surge-synthesizer/src/synth/process.rs` 49-57, 59-70, 72-120, 126-180, 240-340 and the part of `process` (390-460)
that runs from the scene outputs to the summed, effected output; `synth/get.rs` 9-12.

A stereo buffer is a pair of functions from sample index to value.  The eight effects are arbitrary; one state type `σ`
stands for the enum `SurgeEffect`.  Arithmetic outside the effects is exact.  The scene outputs, the effects and the
output buffers are different allocations.
-/
set_option linter.unusedSectionVars false
namespace Verif.Fx
open Verif.Smooth

variable {K : Type} [Field K] [LinearOrder K] [IsStrictOrderedRing K] {σ ε : Type}

/-- A stereo buffer. -/
abbrev Stereo (K : Type) := (Nat → K) × (Nat → K)

/-- surge-types/src/effect.rs 35-42 `FxBypassType`. -/
inductive Bypass where
  | allFX | noSendFX | sceneFXOnly | allFXOff
  deriving DecidableEq, Repr

/-- synth/get.rs 9-12 `get_fx_bypass_type`: `try_from(idx as usize).unwrap()`. -/
def bypassOf (i : Int) : Res ε Bypass :=
  if i = 0 then .ok .allFX else if i = 1 then .ok .noSendFX else if i = 2 then .ok .sceneFXOnly
  else if i = 3 then .ok .allFXOff else .panic "unwrap of Err"

/-- The parts of the synthesizer that the chain reads and writes. `sendA.1`, `sendA.2` are `scene[0].send[0]`,
`scene[0].send[1]`; `sendB` those of `scene[1]`. -/
structure Chain (K σ : Type) where
  fx : Nat → σ × Ringout
  sceneA : Stereo K
  sceneB : Stereo K
  out : Stereo K
  bypass : Int
  disable : Int
  sendA : LipolPs K × LipolPs K
  sendB : LipolPs K × LipolPs K
  returnA : LipolPs K
  returnB : LipolPs K

/-- `(flags & (1 << i)) == 0` for an `i32` (two's complement). -/
def bitClear (flags : Int) (i : Nat) : Bool := decide (flags / 2 ^ i % 2 = 0)

/-- Overwrite slot `i`. -/
def setFx (fx : Nat → σ × Ringout) (i : Nat) (v : σ × Ringout) : Nat → σ × Ringout :=
  fun j => if j = i then v else fx j

/-- `if (disable & (1 << i)) == 0 { flag = fx[i].process_ringout(l, r, flag)? }`, process.rs 91-96 and its siblings. -/
def slot (d : Dsp σ ε (Stereo K)) (disable : Int) (i : Nat) (fx : Nat → σ × Ringout) (b : Stereo K) (flag : Bool) :
    Res ε ((Nat → σ × Ringout) × Stereo K × Bool) :=
  if bitClear disable i = true then
    processRingout d (fx i).1 (fx i).2 b flag >>= fun (st, r, b', flag') => .ok (setFx fx i (st, r), b', flag')
  else .ok (fx, b, flag)

/-- process.rs 72-120 `apply_inserts`. -/
def applyInserts (d : Dsp σ ε (Stereo K)) (c : Chain K σ) (scA scB : Bool) : Res ε (Chain K σ × Bool × Bool) :=
  bypassOf c.bypass >>= fun byp =>
  if byp ≠ .noSendFX then
    slot d c.disable 0 c.fx c.sceneA scA >>= fun (fx, a, scA) =>
    slot d c.disable 1 fx a scA >>= fun (fx, a, scA) =>
    slot d c.disable 2 fx c.sceneB scB >>= fun (fx, b, scB) =>
    slot d c.disable 3 fx b scB >>= fun (fx, b, scB) =>
    .ok ({ c with fx := fx, sceneA := a, sceneB := b }, scA, scB)
  else .ok (c, scA, scB)

/-- BLOCK_SIZE_QUAD = 8: the block is 32 samples. -/
def inBlock (s : Nat) : Bool := decide (s < 32)

/-- process.rs 59-70 `sum_scenes`: copy scene A, accumulate scene B, over the block. -/
def sumScenes (c : Chain K σ) : Chain K σ :=
  { c with out := (fun s => if inBlock s then c.sceneA.1 s + c.sceneB.1 s else c.out.1 s,
                   fun s => if inBlock s then c.sceneA.2 s + c.sceneB.2 s else c.out.2 s) }

/-- `mac_2_blocks_to` with BLOCK_SIZE_QUAD quads. -/
def mac2 (l : LipolPs K) (src dst : Stereo K) : Stereo K := (l.macTo 8 src.1 dst.1, l.macTo 8 src.2 dst.2)

/-- process.rs 243-283 `maybe_add_send_a` (slot 4) and 285-338 `maybe_add_send_b` (slot 5). `sceneout` is the pair of
`sceneout.buf[0]`, `sceneout.buf[1]`. -/
def addSend (d : Dsp σ ε (Stereo K)) (i : Nat) (send : LipolPs K × LipolPs K) (ret : LipolPs K)
    (sceneout : Stereo K × Stereo K) (fxsend : Stereo K) (c : Chain K σ) (scA scB : Bool) :
    Res ε (Chain K σ × Bool) :=
  if bitClear c.disable i = true then
    let input := mac2 send.2 sceneout.2 (mac2 send.1 sceneout.1 fxsend)
    processRingout d (c.fx i).1 (c.fx i).2 input (scA || scB) >>= fun (st, r, b, added) =>
      .ok ({ c with fx := setFx c.fx i (st, r), out := mac2 ret b c.out }, added)
  else .ok (c, false)

/-- process.rs 126-180 `apply_effects`. `glob` is not updated between slots 6 and 7. -/
def applyEffects (d : Dsp σ ε (Stereo K)) (c : Chain K σ) (scA scB : Bool) (sceneout fxsendout : Stereo K × Stereo K) :
    Res ε (Chain K σ) :=
  bypassOf c.bypass >>= fun byp =>
  (if byp = .allFX then
    addSend d 4 c.sendA c.returnA sceneout fxsendout.1 c scA scB >>= fun (c, a) =>
    addSend d 5 c.sendB c.returnB sceneout fxsendout.2 c scA scB >>= fun (c, b) => .ok (c, a, b)
   else .ok (c, false, false)) >>= fun (c, addedA, addedB) =>
  if byp = .allFX ∨ byp = .noSendFX then
    let glob := scA || scB || addedA || addedB
    slot d c.disable 6 c.fx c.out glob >>= fun (fx, o, _) =>
    slot d c.disable 7 fx o glob >>= fun (fx, o, _) =>
    .ok { c with fx := fx, out := o }
  else .ok c

/-- surge-math/src/clear.rs 48-72: the pattern written by `clear_block_antidenormalnoise`. -/
def noise (eps : K) (s : Nat) : K := if s % 8 < 2 ∨ 6 ≤ s % 8 then eps else -eps

/-- process.rs 405-406: `TwoByTwoBlock::new()`, once for `sceneout` and once for `fxsendout`. Simplification: only what
the four blocks contain, not the writes past their end (see C58). -/
def noiseBlock (eps : K) : Stereo K × Stereo K := ((noise eps, noise eps), (noise eps, noise eps))

/-- process.rs 442-448: the end of `process` up to the gain stage. `playA`, `playB` are the `playscene` flags. Nothing
copies the scenes into `sceneout`. -/
def runChain (d : Dsp σ ε (Stereo K)) (eps : K) (c : Chain K σ) (playA playB : Bool) : Res ε (Chain K σ) :=
  applyInserts d c playA playB >>= fun (c, scA, scB) =>
  applyEffects d (sumScenes c) scA scB (noiseBlock eps) (noiseBlock eps)

end Verif.Fx
