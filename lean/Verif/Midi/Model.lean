import Verif.Rust
import Verif.Float.F32
/-!
# The MIDI front end

Models `surge-midi/src/{channel,unit,handle,hold_pedal}.rs`, `surge-mpe/src/{unit,handle}.rs` and
`surge-synthesizer/src/synth/{channel_controller,channel_controller_cc,channel_controller_rpn,channel_mask,midi,
pitch_bend,automation}.rs`, with the hold-pedal half of `surge-scene/src/scene/{release,drop}.rs`.

Simplifications.  Voices are not in this model (see `Verif.Scene`): a release is the event it causes, recorded in
the ghost field `released`, together with the clearing of the key state.  The shared `Rc<RefCell<..>>` units are
fields of one state.  A controller modulation source is reduced to its `target` (see `Verif.Control`).  Printing
(`save_midi_controllers`) is dropped.  `enhanced_enum!` comes from an external crate: `SceneMode::try_from(i)` is
assumed to give the `i`-th variant and to fail outside the range.
-/
namespace Verif.Midi
open Verif.Float

/-- A value or a panic (no modelled function here returns `Err`). -/
abbrev P (α : Type) := Res Empty α

/-- surge-types/src/synth.rs 12-17. -/
inductive SceneMode where
  | single | keySplit | dual | channelSplit
  deriving DecidableEq, Repr

/-- surge-synthesizer/src/synth/get.rs 14-17: `SceneMode::try_from(idx as usize).unwrap()`. -/
def sceneModeOf (i : Int) : P SceneMode :=
  if i = 0 then .ok .single else if i = 1 then .ok .keySplit else if i = 2 then .ok .dual
  else if i = 3 then .ok .channelSplit else .panic "SceneMode::try_from unwrap"

/-- channel.rs 10-26 `MidiChannelState` (the two-element arrays are two fields each; `lastdetune` dropped). -/
structure Chan where
  nrpn0 : Int := 0
  nrpn1 : Int := 0
  nrpnV0 : Int := 0
  nrpnV1 : Int := 0
  rpn0 : Int := 0
  rpn1 : Int := 0
  rpnV0 : Int := 0
  rpnV1 : Int := 0
  pitchbend : Int := 0
  nrpnLast : Bool := false
  hold : Bool := false
  pan : F32 := .fin 0
  pbSemis : F32 := .fin 0
  pressure : F32 := .fin 0
  timbre : F32 := .fin 0
  keystate : Nat → Int := fun _ => 0

/-- surge-mpe/src/unit.rs 4-12 `MPEUnit`, with the values `new` gives (28-45). -/
structure Mpe where
  enabled : Bool := false
  numVoices : Nat := 0
  pitchbendRange : F32 := .fin 48
  globalPitchbendRange : F32 := .fin 0
  pitchbend : F32 := .fin 0
  polyAftertouch : Nat → F32 := fun _ => .fin 0

/-- The targets of the scene's controller modulation sources that MIDI drives. -/
structure SceneCtl where
  modWheel : F32 := .fin 0
  pitchBend : F32 := .fin 0
  channelAftertouch : F32 := .fin 0
  deriving DecidableEq

/-- The part of `SurgeSynthesizer` (surge.rs 15-57) that MIDI messages touch, with power-on values
(init.rs 44-76). `scenes` has one element at power-on (surge-scene/src/patch/init.rs 9).
`released` is a ghost log of (scene, channel, key) releases, oldest first. -/
structure Synth where
  chans : Nat → Chan := fun _ => {}
  mpe : Mpe := {}
  holdBuffer : List (Int × Int) := []
  cc0 : Int := 0
  pch : Int := 0
  patchidQueue : Option Int := none
  learnCustom : Int := -1
  controllers : Nat → Int := fun i => 41 + i
  sceneMode : Int := 0
  sceneActive : Int := 0
  splitKey : Int := 60
  scenes : List SceneCtl := [{}]
  released : List (Nat × Int × Int) := []

/-- Array update. -/
def upd {α : Type} (f : Nat → α) (i : Nat) (a : α) : Nat → α := fun j => if j = i then a else f j

/-- Reading `channel_state[channel]` (16 entries). -/
def Synth.chan (s : Synth) (ch : Nat) : P Chan :=
  if ch < 16 then .ok (s.chans ch) else .panic "index out of bounds"

/-- Writing `channel_state[channel]`: handle.rs 24-130 (the setters). -/
def Synth.modChan (s : Synth) (ch : Nat) (f : Chan → Chan) : P Synth :=
  if ch < 16 then .ok { s with chans := upd s.chans ch (f (s.chans ch)) } else .panic "index out of bounds"

/-- `i32` two's-complement wrap (shifting left discards high bits without a panic). -/
def wrap32 (x : Int) : Int := (x + 2 ^ 31) % 2 ^ 32 - 2 ^ 31

/-- `x << 7` on `i32`. -/
def shl7 (x : Int) : Int := wrap32 (x * 128)

/-- `x as u8`. -/
def asU8 (x : Int) : Nat := (x % 256).toNat

/-- surge-math/src/convert.rs 92-99 `int7_to_bipolar_float`. -/
def int7ToBipolar (x : Int) : P F32 := do
  if 64 < x then do let d ← chkI32 (x - 64); pure ((F32.ofInt d).mul (F32.ofQ (1 / 63)))
  else if x < 64 then do let d ← chkI32 (x - 64); pure ((F32.ofInt d).mul (F32.ofQ (1 / 64)))
  else pure (.fin 0)

/-! ## Hold pedal -/

/-- hold_pedal.rs 96-98 `push`. -/
def pushHold (b : List (Int × Int)) (ch key : Nat) : List (Int × Int) := b ++ [((ch : Int), (key : Int))]

/-- hold_pedal.rs 23-32 `reset`. -/
def resetHold (b : List (Int × Int)) (ch key : Nat) : List (Int × Int) :=
  b.map fun p => if p = ((ch : Int), (key : Int)) then (-1, -1) else p

/-- hold_pedal.rs 38-58 `purge`: (retained, released).  Reading `channel_state` past its 16 entries is undefined
behaviour in the code; the model calls it a panic. -/
def purgeHold (hold : Nat → Bool) : List (Int × Int) → P (List (Int × Int) × List (Int × Int))
  | [] => .ok ([], [])
  | (c, k) :: rest =>
    if c < 0 ∨ k < 0 then .panic "caught tricky double release condition"
    else if 16 ≤ c then .panic "out-of-bounds read"
    else do
      let (keep, rel) ← purgeHold hold rest
      if !hold 0 && !hold c.toNat then pure (keep, (c, k) :: rel) else pure ((c, k) :: keep, rel)

/-- surge-scene/src/scene/release.rs 59-91 `release_note_post_hold_check`, without voices: the key state is
cleared (drop.rs 49-54, handle.rs 121-126) and the release is logged. -/
def Synth.releaseNow (s : Synth) (scene : Nat) (ch key : Nat) : P Synth := do
  if 128 ≤ key then .panic "index out of bounds"
  else do
    let s ← s.modChan ch fun c => { c with keystate := upd c.keystate key 0 }
    pure { s with released := s.released ++ [(scene, (ch : Int), (key : Int))] }

/-- drop.rs 42-44: the loop over the keys to release. -/
def Synth.releaseAll (scene : Nat) : Synth → List (Int × Int) → P Synth
  | s, [] => .ok s
  | s, (c, k) :: rest => do
    let s ← s.releaseNow scene (asU8 c) (asU8 k)
    Synth.releaseAll scene s rest

/-- surge-scene/src/scene/drop.rs 34-47 `purge_holdbuffer` called on `scene[scene]`. -/
def Synth.purgeScene (s : Synth) (scene : Int) : P Synth :=
  if scene < 0 ∨ (s.scenes.length : Int) ≤ scene then .panic "index out of bounds" else do
    let (keep, rel) ← purgeHold (fun c => (s.chans c).hold) s.holdBuffer
    Synth.releaseAll scene.toNat { s with holdBuffer := keep } rel

/-- surge-scene/src/scene/release.rs 5-16 `hold`. -/
def Synth.hold (s : Synth) (ch : Nat) : P Bool := do
  let c ← s.chan ch
  let c0 ← s.chan 0
  pure (c.hold || (s.mpe.enabled && c0.hold))

/-- surge-scene/src/scene/release.rs 39-57, 93-107 `release_note` on scene `scene`, without voices. -/
def Synth.noteOff (s : Synth) (scene ch key : Nat) : P Synth :=
  if s.scenes.length ≤ scene then .panic "index out of bounds" else do
    let h ← s.hold ch
    if h then pure { s with holdBuffer := pushHold s.holdBuffer ch key }
    else s.releaseNow scene ch key

/-- surge-scene/src/scene/play.rs 17-53 `play_note` on scene `scene`, without voices: `play_voice` (line 19) is
taken to return, although at this commit it never does (see DESIGN.md).  The `no_hold` test (32-39) is the negation of
`hold`; the reset runs twice. -/
def Synth.noteOn (s : Synth) (scene ch key : Nat) (vel : Nat) : P Synth :=
  if s.scenes.length ≤ scene then .panic "index out of bounds"
  else if 128 ≤ key then .panic "index out of bounds" else do
    let s ← s.modChan ch fun c => { c with keystate := upd c.keystate key vel }
    let h ← s.hold ch
    if h then pure { s with holdBuffer := resetHold (resetHold s.holdBuffer ch key) ch key }
    else pure s

/-- channel_controller_cc.rs 69-116 `channel_controller_cc64`. -/
def Synth.cc64 (s : Synth) (ch : Nat) (value : Int) : P Synth := do
  let mode ← sceneModeOf s.sceneMode
  let s ← s.modChan ch fun c => { c with hold := decide (63 < value) }
  match mode with
  | .single => s.purgeScene s.sceneActive
  | .keySplit | .dual => do
    let s ← s.purgeScene 0
    s.purgeScene 1
  | .channelSplit =>
    if s.mpe.enabled ∧ ch = 0 then do
      let s ← s.purgeScene 0
      s.purgeScene 1
    else if ch < asU8 (s.splitKey.tdiv 8 + 1) then s.purgeScene 0
    else s.purgeScene 1

/-! ## Registered parameters -/

/-- midi.rs 54-117 `on_rpn` (the branch guarded by `if false` is dead). -/
def Synth.onRpn (s : Synth) (ch : Nat) (lsb msb value : Int) : Synth :=
  if lsb = 0 ∧ msb = 0 then
    if ch = 0 then { s with mpe := { s.mpe with globalPitchbendRange := F32.ofInt value } }
    else if ch = 1 then { s with mpe := { s.mpe with pitchbendRange := F32.ofInt value } }
    else s
  else if lsb = 6 ∧ msb = 0 then
    { s with mpe := { s.mpe with
        enabled := decide (0 < value)
        numVoices := (value % 16).toNat
        pitchbendRange := if s.mpe.pitchbendRange.lt (.fin 0) then .fin 48 else s.mpe.pitchbendRange
        globalPitchbendRange := .fin 0 } }
  else s

/-- channel_controller_cc.rs 22-51 `channel_controller_cc6`; `on_nrpn` (midi.rs 5-14) is `todo!()`. -/
def Synth.cc6 (s : Synth) (ch : Nat) (value : Int) : P Synth := do
  let c ← s.chan ch
  if c.nrpnLast then .panic "not yet implemented"
  else do
    let s ← s.modChan ch fun c => { c with rpnV1 := value }
    pure (s.onRpn ch c.rpn0 c.rpn1 value)

/-- channel_controller_rpn.rs 5-53 `channel_controller_handle_rpn_nrpn` (the controller number it returns;
`fval` is not used afterwards). -/
def Synth.encodeCc (s : Synth) (ch cc : Nat) : P Nat :=
  if cc = 6 ∨ cc = 38 then do
    let c ← s.chan ch
    if c.nrpnLast then do
      let _ ← (chkI32 (shl7 c.nrpnV1 + c.nrpnV0) : P Int)
      let n ← (chkI32 (shl7 c.nrpn1 + c.nrpn0) : P Int)
      pure (asU8 n)
    else do
      let _ ← (chkI32 (shl7 c.rpnV1 + c.rpnV0) : P Int)
      let n ← (chkI32 (shl7 c.rpn1 + c.rpn0) : P Int)
      pure (asU8 n)
  else .ok cc

/-- channel_controller.rs 5-16 `store_learn_custom`; `N_CUSTOMCONTROLLERS` is 8 (surge-constants/src/lib.rs 182). -/
def Synth.storeLearnCustom (s : Synth) (enc : Nat) : Synth :=
  if 0 ≤ s.learnCustom ∧ s.learnCustom < 8 then
    { s with controllers := upd s.controllers s.learnCustom.toNat (enc : Int), learnCustom := -1 }
  else s

/-- channel_controller.rs 55-67: what follows a controller that did not return early. -/
def Synth.ccTail (s : Synth) (ch cc : Nat) : P Synth := do
  let enc ← s.encodeCc ch cc
  pure (s.storeLearnCustom enc)

/-- channel_controller_cc.rs 10-20 `channel_controller_cc1`. -/
def Synth.cc1 (s : Synth) (value : Int) : Synth :=
  { s with scenes := s.scenes.map fun sc =>
      { sc with modWheel := (F32.ofInt value).mul (F32.ofQ (1 / 127)) } }

/-- channel_controller.rs 26-68 `channel_controller`, with the bodies in channel_controller_cc.rs 5-8 (cc0),
53-61 (cc10), 63-69 (cc38), 118-126 (cc74), 128-154 (cc98 to cc101). -/
def Synth.controller (s : Synth) (ch cc : Nat) (value : Int) : P Synth :=
  if cc = 0 then .ok { s with cc0 := value }
  else if cc = 1 then (s.cc1 value).ccTail ch cc
  else if cc = 6 then s.cc6 ch value
  else if cc = 10 then
    if s.mpe.enabled then do
      let p ← int7ToBipolar value
      s.modChan ch fun c => { c with pan := p }
    else s.ccTail ch cc
  else if cc = 38 then do
    let s ← s.modChan ch fun c => if c.nrpnLast then { c with nrpnV0 := value } else { c with rpnV0 := value }
    s.ccTail ch cc
  else if cc = 64 then s.cc64 ch value
  else if cc = 74 then
    if s.mpe.enabled then do
      let p ← int7ToBipolar value
      s.modChan ch fun c => { c with timbre := p }
    else s.ccTail ch cc
  else if cc = 98 then s.modChan ch fun c => { c with nrpn0 := value, nrpnLast := true }
  else if cc = 99 then s.modChan ch fun c => { c with nrpn0 := value, nrpnLast := true }
  else if cc = 100 then s.modChan ch fun c => { c with rpn0 := value, nrpnLast := false }
  else if cc = 101 then s.modChan ch fun c => { c with rpn1 := value, nrpnLast := false }
  else if cc = 120 ∨ cc = 123 then .ok s
  else s.ccTail ch cc

/-! ## Program change, pitch bend, aftertouch -/

/-- midi.rs 119-124 `program_change`. -/
def Synth.programChange (s : Synth) (value : Int) : P Synth := do
  let q ← (chkI32 (shl7 s.cc0 + value) : P Int)
  pure { s with pch := value, patchidQueue := some q }

/-- pitch_bend.rs 5-65 `pitchbend` (the first of the two writes to the channel's semitones is overwritten). -/
def Synth.pitchBend (s : Synth) (ch : Nat) (value : Int) : P Synth := do
  let bend := (F32.ofInt value).divC 8192
  let s ← if s.mpe.enabled then
      s.modChan (ch % 256) fun c => { c with
        pitchbend := value
        pbSemis := bend.mul (if ch = 0 then s.mpe.globalPitchbendRange else s.mpe.pitchbendRange) }
    else pure s
  if !s.mpe.enabled || ch == 0 then
    pure { s with
      mpe := { s.mpe with pitchbend := bend }
      scenes := s.scenes.map fun sc => { sc with pitchBend := bend } }
  else pure s

/-- automation.rs 5-17 `channel_aftertouch`. -/
def Synth.channelAftertouch (s : Synth) (ch : Nat) (value : Int) : P Synth := do
  let f := (F32.ofInt value).divC 127
  let s ← s.modChan ch fun c => { c with pressure := f }
  if !s.mpe.enabled || ch == 0 then
    pure { s with scenes := s.scenes.map fun sc => { sc with channelAftertouch := f } }
  else pure s

/-- automation.rs 19-28 `poly_aftertouch` (all scenes share the one MPE unit; no scene, no write). -/
def Synth.polyAftertouch (s : Synth) (key value : Nat) : Synth :=
  if s.scenes = [] then s
  else { s with mpe := { s.mpe with
      polyAftertouch := upd s.mpe.polyAftertouch (key % 128) ((F32.ofInt value).divC 127) } }

/-! ## Scene routing -/

/-- channel_mask.rs 5-73 `calculate_channel_mask`. -/
def Synth.channelMask (s : Synth) (ch key : Nat) : P Nat := do
  let mode ← sceneModeOf s.sceneMode
  if s.splitKey < 0 ∨ 256 ≤ s.splitKey then .panic "split key does not fit u8"
  else
    let split := s.splitKey.toNat
    let single := if s.sceneActive = 1 then 2 else 1
    if ch = 0 ∨ 2 < ch ∨ s.mpe.enabled = true ∨ mode = .channelSplit then
      match mode with
      | .single => .ok single
      | .dual => .ok 3
      | .keySplit => .ok (if key < split then 1 else 2)
      | .channelSplit =>
        if ch = 0 then .panic "u8 subtract overflow"
        else .ok (if ch - 1 < split / 8 then 1 else 2)
    else if mode = .single then .ok single
    else .ok ch

/-- surge-synthesizer/src/synth/process_control.rs 38-50 `get_play_scenes`. -/
def Synth.playScenes (s : Synth) : P (Bool × Bool) := do
  let mode ← sceneModeOf s.sceneMode
  let gate := mode = .keySplit ∨ mode = .dual ∨ mode = .channelSplit
  pure (decide (gate ∨ s.sceneActive = 0), decide (gate ∨ s.sceneActive = 1))

/-! ## Histories -/

/-- One MIDI message, as the host delivers it to the engine. -/
inductive Msg where
  | controller (ch cc : Nat) (value : Int)
  | program (ch : Nat) (value : Int)
  | pitchBend (ch : Nat) (value : Int)
  | channelAftertouch (ch : Nat) (value : Int)
  | polyAftertouch (ch key value : Nat)
  | noteOff (scene ch key : Nat)
  | noteOn (scene ch key vel : Nat)
  deriving DecidableEq, Repr

def Synth.handle (s : Synth) : Msg → P Synth
  | .controller ch cc v => s.controller ch cc v
  | .program _ v => s.programChange v
  | .pitchBend ch v => s.pitchBend ch v
  | .channelAftertouch ch v => s.channelAftertouch ch v
  | .polyAftertouch _ k v => .ok (s.polyAftertouch k v)
  | .noteOff sc ch k => s.noteOff sc ch k
  | .noteOn sc ch k v => s.noteOn sc ch k v

/-- A whole history. -/
def Synth.run : Synth → List Msg → P Synth
  | s, [] => .ok s
  | s, m :: ms => do let s ← s.handle m; Synth.run s ms

end Verif.Midi
