import Verif.Midi.Model
/-!
# What a MIDI history means

Histories here are newest message first.  Nothing below mentions the engine's state: each definition reads off
the history what a MIDI user expects the engine to have stored.
-/
namespace Verif.Midi
open Verif.Float

/-- The newest message about which `f` says something; `f` also sees the messages before it. -/
def newest {α : Type} (f : List Msg → Msg → Option α) : List Msg → Option α
  | [] => none
  | m :: h => match f h m with
    | some a => some a
    | none => newest f h

/-- Value of the newest controller message `cc` on channel `ch` (0 at power-on). -/
def lastCc (ch cc : Nat) (h : List Msg) : Int :=
  (newest (fun _ m => match m with
    | .controller c k v => if c = ch ∧ k = cc then some v else none
    | _ => none) h).getD 0

/-- Was the newest parameter selection on `ch` a non-registered one (controllers 98 and 99) rather than a
registered one (100 and 101)? -/
def nrpnSelected (ch : Nat) (h : List Msg) : Bool :=
  (newest (fun _ m => match m with
    | .controller c k _ =>
      if c = ch ∧ (k = 98 ∨ k = 99) then some true
      else if c = ch ∧ (k = 100 ∨ k = 101) then some false else none
    | _ => none) h).getD false

/-- A data entry message on `ch` for a registered parameter: (channel, parameter LSB, MSB, value). -/
def rpnEntry (h : List Msg) : Msg → Option (Nat × Int × Int × Int)
  | .controller ch 6 v =>
    if nrpnSelected ch h then none else some (ch, lastCc ch 100 h, lastCc ch 101 h, v)
  | _ => none

/-- MPE on or off: the newest data entry for registered parameter 6. -/
def mpeOn (h : List Msg) : Bool :=
  (newest (fun older m => match rpnEntry older m with
    | some (_, 6, 0, v) => some (decide (0 < v))
    | _ => none) h).getD false

/-- Number of MPE voices: low four bits of the same entry. -/
def mpeVoices (h : List Msg) : Nat :=
  (newest (fun older m => match rpnEntry older m with
    | some (_, 6, 0, v) => some (v % 16).toNat
    | _ => none) h).getD 0

/-- Master bend range: data entry for parameter 0 on channel 0; switching MPE resets it to 0. -/
def masterRange (h : List Msg) : F32 :=
  (newest (fun older m => match rpnEntry older m with
    | some (0, 0, 0, v) => some (F32.ofInt v)
    | some (_, 6, 0, _) => some (.fin 0)
    | _ => none) h).getD (.fin 0)

/-- Per-note bend range: data entry for parameter 0 on channel 1, 48 at power-on (and again when MPE is switched
while the range is negative, which no 7-bit value makes it). -/
def noteRange : List Msg → F32
  | [] => .fin 48
  | m :: h => match rpnEntry h m with
    | some (1, 0, 0, v) => F32.ofInt v
    | some (_, 6, 0, _) => if (noteRange h).lt (.fin 0) then .fin 48 else noteRange h
    | _ => noteRange h

/-- Newest bank select, whatever its channel. -/
def bank (h : List Msg) : Int :=
  (newest (fun _ m => match m with
    | .controller _ 0 v => some v
    | _ => none) h).getD 0

/-- The patch a program change asks for: bank times 128 plus program. -/
def wantedPatch (h : List Msg) : Option Int :=
  newest (fun older m => match m with
    | .program _ v => some (bank older * 128 + v)
    | _ => none) h

/-- Does a bend on this channel move the whole instrument? Without MPE every channel, with MPE channel 0. -/
def bendsAll (older : List Msg) (ch : Nat) : Bool := !mpeOn older || ch == 0

/-- The instrument-wide bend, as a fraction of the bend range. -/
def globalBend (h : List Msg) : F32 :=
  (newest (fun older m => match m with
    | .pitchBend ch v => if bendsAll older ch then some ((F32.ofInt v).divC 8192) else none
    | _ => none) h).getD (.fin 0)

/-- The bend of one channel in semitones (only MPE sets it). -/
def channelBend (ch : Nat) (h : List Msg) : F32 :=
  (newest (fun older m => match m with
    | .pitchBend c v =>
      if c = ch ∧ mpeOn older then
        some (((F32.ofInt v).divC 8192).mul (if ch = 0 then masterRange older else noteRange older))
      else none
    | _ => none) h).getD (.fin 0)

/-- Channel pressure as a fraction. -/
def channelPressure (ch : Nat) (h : List Msg) : F32 :=
  (newest (fun _ m => match m with
    | .channelAftertouch c v => if c = ch then some ((F32.ofInt v).divC 127) else none
    | _ => none) h).getD (.fin 0)

/-- Instrument-wide pressure (same channel rule as the bend). -/
def globalPressure (h : List Msg) : F32 :=
  (newest (fun older m => match m with
    | .channelAftertouch ch v => if bendsAll older ch then some ((F32.ofInt v).divC 127) else none
    | _ => none) h).getD (.fin 0)

/-- Key pressure. -/
def keyPressure (key : Nat) (h : List Msg) : F32 :=
  (newest (fun _ m => match m with
    | .polyAftertouch _ k v => if k % 128 = key then some ((F32.ofInt v).divC 127) else none
    | _ => none) h).getD (.fin 0)

/-- Modulation wheel, any channel. -/
def modWheelOf (h : List Msg) : F32 :=
  (newest (fun _ m => match m with
    | .controller _ 1 v => some ((F32.ofInt v).mul (F32.ofQ (1 / 127)))
    | _ => none) h).getD (.fin 0)

/-- What the MIDI standard lets a message carry: 16 channels, 128 controllers and keys, 7-bit values, 14-bit
bend around 0. -/
def Msg.Legal : Msg → Prop
  | .controller ch cc v => ch < 16 ∧ cc < 128 ∧ 0 ≤ v ∧ v ≤ 127
  | .program ch v => ch < 16 ∧ 0 ≤ v ∧ v ≤ 127
  | .pitchBend ch v => ch < 16 ∧ -8192 ≤ v ∧ v ≤ 8191
  | .channelAftertouch ch v => ch < 16 ∧ 0 ≤ v ∧ v ≤ 127
  | .polyAftertouch ch k v => ch < 16 ∧ k < 128 ∧ v ≤ 127
  | .noteOff sc ch k => sc < 2 ∧ ch < 16 ∧ k < 128
  | .noteOn sc ch k v => sc < 2 ∧ ch < 16 ∧ k < 128 ∧ v ≤ 127

/-- Some data entry follows the selection of a non-registered parameter on its channel. -/
def hasNrpnEntry : List Msg → Prop
  | [] => False
  | m :: h => (match m with
      | .controller ch 6 _ => nrpnSelected ch h = true
      | _ => False) ∨ hasNrpnEntry h

/-- Is the hold pedal of this channel down? -/
def down (ch : Nat) (h : List Msg) : Bool := decide (63 < lastCc ch 64 h)

/-- Does a note off on this channel wait for the pedal?  With MPE the pedal of channel 0 holds every channel. -/
def waits (ch : Nat) (h : List Msg) : Bool := down ch h || (mpeOn h && down 0 h)

/-- Note offs waiting for the pedal, oldest first: they enter while the pedal is down and leave when a pedal
message finds both their own pedal and the one of channel 0 up. -/
def waiting : List Msg → List (Nat × Nat)
  | [] => []
  | .noteOff _ ch k :: h => if waits ch h then waiting h ++ [(ch, k)] else waiting h
  | .controller ch 64 v :: h =>
    (waiting h).filter fun p => down 0 (.controller ch 64 v :: h) || down p.1 (.controller ch 64 v :: h)
  | _ :: h => waiting h

/-- Was some key played again while its note off was waiting for the pedal? -/
def replayed : List Msg → Bool
  | [] => false
  | .noteOn _ ch k _ :: h => (waits ch h && decide ((ch, k) ∈ waiting h)) || replayed h
  | _ :: h => replayed h

/-- The two ways a legal history crashes the engine: a data entry for a non-registered parameter, and a pedal
message after a key was played again while its note off was waiting. -/
def crashes : List Msg → Bool
  | [] => false
  | .controller ch 6 _ :: h => nrpnSelected ch h || crashes h
  | .controller _ 64 _ :: h => replayed h || crashes h
  | _ :: h => crashes h

/-- A patch set up for MIDI play: two scenes, a legal scene mode and active scene. -/
structure Playable (s : Synth) : Prop where
  two : s.scenes.length = 2
  mode : 0 ≤ s.sceneMode ∧ s.sceneMode ≤ 3
  active : s.sceneActive = 0 ∨ s.sceneActive = 1

/-- How many note offs for this key the history has. -/
def noteOffs (ch k : Nat) (h : List Msg) : Nat :=
  h.countP fun m => match m with
    | .noteOff _ c q => decide (c = ch ∧ q = k)
    | _ => false

/-- The engine just after start-up: nothing received yet (any scene count, any scene-mode setting). -/
structure Fresh (s : Synth) : Prop where
  chans : s.chans = fun _ => {}
  mpe : s.mpe = {}
  hold : s.holdBuffer = []
  cc0 : s.cc0 = 0
  queue : s.patchidQueue = none
  scenes : ∀ sc ∈ s.scenes, sc = {}
  released : s.released = []

end Verif.Midi
