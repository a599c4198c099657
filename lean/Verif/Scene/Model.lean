import Verif.Rust
import Mathlib.Tactic.Common
/-!
# The voices of a scene

Models `surge-scene/src/scene/{polyphony,softkill_voice,drop,release,release_monophonic,get,play_voice,process,set}.rs`
and the gate/release flags of `surge-voice/src/release.rs`, `process.rs` 113-117.

Simplifications.  A voice is the flags these functions look at.  `free_allocated_elements` (surge-voice/src/drop.rs)
is taken to succeed, and the envelope calls inside `release` and `uber_release` to return: at this commit they reach
a `todo!()` (see `Verif.Adsr`).  Nothing pushes onto `SurgeScene::voices` at this commit (polyphony.rs 22-23), so
the voice list is arbitrary here.
-/
namespace Verif.Scene

/-- surge-voice/src/voice.rs 40-41 and `SurgeVoiceState`: what the scene inspects. -/
structure Voice where
  id : Nat
  key : Int
  channel : Int
  gate : Bool
  uber : Bool
  age : Int
  ageRelease : Int
  deriving DecidableEq, Repr

abbrev P (α : Type) := Res Empty α

/-- drop.rs 5-13 `free_voice`: `Vec::remove` panics past the end. -/
def freeVoice (vs : List Voice) (i : Nat) : P (List Voice) :=
  if i < vs.length then .ok (vs.eraseIdx i) else .panic "removal index out of bounds"

/-- The removal loops (polyphony.rs 49-51, drop.rs 25-27, process.rs 186-188): indices collected beforehand. -/
def freeAll (vs : List Voice) : List Nat → P (List Voice)
  | [] => .ok vs
  | i :: is => do let vs ← freeVoice vs i; freeAll vs is

/-- polyphony.rs 36-47: the loop that collects up to `excess` indices of voices in uber-release. -/
def collect : List Voice → Nat → Int → List Nat
  | [], _, _ => []
  | v :: vs, i, excess =>
    if excess < 1 then []
    else if v.uber then i :: collect vs (i + 1) (excess - 1) else collect vs (i + 1) excess

/-- polyphony.rs 28-55 `enforce_polyphony_limit`. -/
def enforce (vs : List Voice) (limit margin : Int) : P (List Voice) := do
  let n : Int := vs.length
  let lm ← (chkI32 (limit + margin) : P Int)
  if lm < n then do
    let d ← (chkI32 (n - limit) : P Int)
    let e ← (chkI32 (d + margin) : P Int)
    freeAll vs (collect vs 0 (max 0 e))
  else pure vs

/-- drop.rs 15-32 `free` and process.rs 178-193 `all_notes_off`: the same body. -/
def freeScene (vs : List Voice) : P (List Voice) := do
  let _ ← freeAll vs (List.range vs.length)
  pure []

/-- surge-voice/src/release.rs 40-55 `uber_release`. -/
def Voice.uberRelease (v : Voice) : Voice := { v with gate := false, uber := true }

/-- surge-voice/src/release.rs 5-38 `release`. -/
def Voice.release (v : Voice) : Voice := { v with gate := false }

/-- surge-voice/src/process.rs 113-117: one block. -/
def Voice.tick (v : Voice) : Voice :=
  { v with age := v.age + 1, ageRelease := if v.gate then v.ageRelease else v.ageRelease + 1 }

/-- The variables of the loop in softkill_voice.rs 7-29: (max_age, max_playing, max_age_release, max_released),
the voices held by index. -/
structure Kill where
  maxAge : Int := 0
  playing : Option Nat := none
  maxRel : Int := 0
  released : Option Nat := none

/-- softkill_voice.rs 15-28: one iteration. -/
def Kill.step (k : Kill) (i : Nat) (v : Voice) : Kill :=
  if v.gate then
    if k.maxAge < v.age then { k with maxAge := v.age, playing := some i } else k
  else if !v.uber && decide (k.maxRel < v.ageRelease) then
    { k with maxRel := v.ageRelease, released := some i }
  else k

/-- softkill_voice.rs 14-29: the loop. -/
def Kill.scan : Kill → Nat → List Voice → Kill
  | k, _, [] => k
  | k, i, v :: vs => Kill.scan (k.step i v) (i + 1) vs

/-- `voices[i].borrow_mut().uber_release()` where the `Option` was unwrapped. -/
def uberAt (vs : List Voice) : Option Nat → P (List Voice)
  | none => .panic "unwrap of None"
  | some i => .ok (vs.modify i Voice.uberRelease)

/-- softkill_voice.rs 5-36 `softkill_voice`. -/
def softkill (vs : List Voice) : P (List Voice) :=
  let k := Kill.scan {} 0 vs
  if k.maxRel ≠ 0 then uberAt vs k.released
  else if k.maxAge ≠ 0 then uberAt vs k.playing
  else .ok vs

/-- `n` calls of `softkill_voice`. -/
def softkillN : Nat → List Voice → P (List Voice)
  | 0, vs => .ok vs
  | n + 1, vs => do let vs ← softkill vs; softkillN n vs

/-- get.rs 5-16 `get_non_ultra_release_voices`. -/
def nonUber (vs : List Voice) : Nat := vs.countP fun v => !v.uber

/-- get.rs 18-29 `get_non_released_voices`. -/
def gated (vs : List Voice) : Nat := vs.countP fun v => v.gate

/-- play_voice.rs 27-36: what `play_voice` does to make room before it creates a voice. -/
def makeRoom (vs : List Voice) (polylimit : Int) : P (List Voice) := do
  let d ← (chkI32 ((nonUber vs : Int) - polylimit) : P Int)
  let e ← (chkI32 (d + 1) : P Int)
  let vs ← softkillN (max 0 e).toNat vs
  enforce vs polylimit 3

/-! ## Latched release -/

/-- `release_if_latched`, `release_anyway` and the voices (scene.rs). -/
structure Latch where
  latched : Bool
  anyway : Bool
  voices : List Voice

/-- release.rs 18-31 `maybe_release`. -/
def Latch.maybeRelease (s : Latch) (play : Bool) : P Latch :=
  if s.latched then do
    let vs ← if !play || s.anyway then freeScene s.voices else pure s.voices
    pure { latched := false, anyway := false, voices := vs }
  else .ok s

/-- surge-synthesizer/src/synth/process_control.rs 62-65: every scene sees both flags. -/
def controlRelease (playA playB : Bool) : List Latch → P (List Latch)
  | [] => .ok []
  | s :: rest => do
    let s ← s.maybeRelease playA
    let s ← s.maybeRelease playB
    let rest ← controlRelease playA playB rest
    pure (s :: rest)

/-! ## Releasing a key in the monophonic modes -/

/-- What releasing a key asks the scene to play instead: (channel, key). -/
structure MonoOut where
  voices : List Voice
  play : Option (Nat × Nat)

/-- Keys from high to low: `(0..128).rev()` (release_voice_cfg.rs 40-44; callers pass no other range). -/
def keysDown : List Nat := (List.range 128).reverse

/-- release_monophonic.rs 76-90: the key scan without MPE. -/
def scanKeys (keystate : Nat → Nat → Int) (ch : Nat) : List Nat → Option (Nat × Nat)
  | [] => none
  | k :: ks => if keystate ch k ≠ 0 then some (ch, k) else scanKeys keystate ch ks

/-- release_monophonic.rs 63-71: the channel loop for one key with MPE (the last match wins). -/
def scanChans (keystate : Nat → Nat → Int) (ch k : Nat) : List Nat → Option (Nat × Nat) → Option (Nat × Nat)
  | [], r => r
  | c :: cs, r => scanChans keystate ch k cs (if c ≠ ch ∧ keystate c k ≠ 0 then some (c, k) else r)

/-- release_monophonic.rs 58-73: the key scan with MPE. -/
def scanKeysMpe (keystate : Nat → Nat → Int) (ch : Nat) : List Nat → Option (Nat × Nat)
  | [] => none
  | k :: ks => match scanChans keystate ch k (List.range' 1 15) none with
    | some r => some r
    | none => scanKeysMpe keystate ch ks

/-- release_monophonic.rs 13-129 `release_monophonic` for voice `i` and the released (channel, key); `latch` is
`polymode == LatchMonophonic`. The note to play is returned instead of played. -/
def releaseMono (vs : List Voice) (i : Nat) (keystate : Nat → Nat → Int) (mpe latch : Bool) (ch key : Nat) :
    P MonoOut :=
  match vs[i]? with
  | none => .panic "index out of bounds"
  | some v =>
    if v.key = key ∧ v.channel = ch then
      let target := if mpe then scanKeysMpe keystate ch keysDown else scanKeys keystate ch keysDown
      match target with
      | some t => .ok ⟨vs.modify i fun v => v.release.uberRelease, if nonUber vs = 0 then some t else none⟩
      | none => .ok ⟨vs.modify i fun v => if latch then v.release else v.release.release, none⟩
    else .ok ⟨vs, none⟩

end Verif.Scene
