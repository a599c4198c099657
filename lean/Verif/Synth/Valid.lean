import Verif.Param.Table
import Mathlib.Data.List.Basic
/-!
# Which modulation connections are accepted (C271)

surge-synthesizer/src/synth/modunit_query.rs, surge-modulation/src/source.rs, surge-param/src/{parameter,control_group}.rs and the parameters' `control_group`.
-/
namespace Verif.Synth.Valid
open Verif.Param

/-! ## Model -/

/-- surge-modulation/src/source.rs 3-43 `ModSource`. -/
inductive Src where
  | original | velocity | keyTrack | polyAftertouch | channelAftertouch | pitchBend | modWheel
  | ctrl1 | ctrl2 | ctrl3 | ctrl4 | ctrl5 | ctrl6 | ctrl7 | ctrl8
  | ampEg | filterEg
  | voiceLfo1 | voiceLfo2 | voiceLfo3 | voiceLfo4 | voiceLfo5 | voiceLfo6
  | sceneLfo1 | sceneLfo2 | sceneLfo3 | sceneLfo4 | sceneLfo5 | sceneLfo6
  | timbre | releaseVelocity
  deriving DecidableEq

/-- source.rs 113-147 `is_scenelevel`. -/
def Src.sceneLevel : Src → Bool
  | .original | .channelAftertouch | .pitchBend | .modWheel => true
  | .ctrl1 | .ctrl2 | .ctrl3 | .ctrl4 | .ctrl5 | .ctrl6 | .ctrl7 | .ctrl8 => true
  | .sceneLfo1 | .sceneLfo2 | .sceneLfo3 | .sceneLfo4 | .sceneLfo5 | .sceneLfo6 => true
  | .velocity | .keyTrack | .polyAftertouch | .ampEg | .filterEg => false
  | .voiceLfo1 | .voiceLfo2 | .voiceLfo3 | .voiceLfo4 | .voiceLfo5 | .voiceLfo6 | .timbre | .releaseVelocity => false

/-- source.rs 82-84 `can_modulate_monophonic_target`. -/
def Src.monophonic (s : Src) : Bool := s.sceneLevel || s == .channelAftertouch

/-- source.rs 98-100 `can_modulate_modulators`. -/
def Src.modulators (s : Src) : Bool := s != .ampEg && s != .filterEg

/-- surge-param/src/control_group.rs 20-31 `ControlGroup`. -/
inductive Group where
  | nil | global | osc | mix | filter | env | lfo | fx
  deriving DecidableEq

/-- What `is_valid_modulation` asks of a parameter (parameter.rs 3-18, with the delegate's `modulateable`, `value_type` and `control_group`). -/
structure Target where
  group : Group
  vtype : VType
  modulateable : Bool
  perVoice : Bool

/-- parameter.rs 89-110 `ParamRT::new`: `per_voice_processing` is set here and written nowhere else. -/
def Target.new (g : Group) (e : Entry) : Target := ⟨g, e.vtype, e.modulateable, true⟩

/-- modunit_query.rs 6-22 `is_valid_modulation`. -/
def valid (p : Target) (s : Src) : Bool :=
  !([s == .original,
    !p.modulateable,
    p.vtype != .vtFloat,
    !p.perVoice && !s.monophonic,
    p.group == .lfo && !s.sceneLevel,
    p.group == .lfo && !s.modulators].any (fun x => x == true))

/-- The parameters with their `control_group` (the `impl GetControlGroup` of each parameter enum), in the order of the table. -/
def groups : List (Group × List Entry) := [
  (.env, adsrParam),
  (.lfo, lfoParam),
  (.filter, waveshaperParam),
  (.global, patchParam),
  (.global, sceneParam),
  (.filter, filterParam),
  (.osc, oscillatorParam),
  (.fx, allpassReverbParam),
  (.fx, chorusParam),
  (.fx, conditionerParam),
  (.fx, distortionParam),
  (.fx, dualDelayParam),
  (.fx, emphasizeParam),
  (.fx, eq3BandParam),
  (.fx, flangerParam),
  (.fx, freqShiftParam),
  (.fx, phaserParam),
  (.fx, reverbParam),
  (.fx, ringModulatorParam),
  (.fx, rotarySpeakerParam),
  (.fx, vocoderParam),
  (.osc, audioInputOscillatorParam),
  (.osc, fMOscillatorParam),
  (.osc, fM2OscillatorParam),
  (.osc, sineWaveOscillatorParam),
  (.osc, sampleAndHoldOscillatorParam),
  (.osc, sSOParam),
  (.osc, wTOscillatorParam),
  (.osc, windowOscillatorParam)]

/-! ## Specification -/

/-- A source that has a value of its own for each sounding note. -/
def Spec.perNote : Src → Prop
  | .velocity | .releaseVelocity | .keyTrack | .polyAftertouch | .timbre => True
  | .ampEg | .filterEg => True
  | .voiceLfo1 | .voiceLfo2 | .voiceLfo3 | .voiceLfo4 | .voiceLfo5 | .voiceLfo6 => True
  | _ => False

/-! ## C271 -/

/-- The groups cover the whole table. -/
theorem groups_all : groups.flatMap Prod.snd = allParams := by
  unfold groups allParams
  generalize windowOscillatorParam = w
  repeat rw [List.flatMap_cons]
  rw [List.flatMap_nil, List.append_nil]
  simp only [List.append_assoc]

/-- The sources that are not per note are those of the scene. -/
theorem sceneLevel_iff (s : Src) : s.sceneLevel = true ↔ ¬ Spec.perNote s := by
  cases s <;> simp [Src.sceneLevel, Spec.perNote]

/-- **C271 (exact).** Whatever the parameter: a source is accepted exactly when it is a real source, the parameter is declared modulatable and a real number, a parameter without voice processing gets no source that is per note, and a parameter of an LFO gets none either (so that neither an envelope nor an LFO of a voice can move an LFO). -/
theorem C271_accepts_iff_partial (p : Target) (s : Src) : valid p s = true ↔ s ≠ .original ∧ p.modulateable = true ∧ p.vtype = .vtFloat ∧ (p.perVoice = false → ¬ Spec.perNote s) ∧ (p.group = .lfo → ¬ Spec.perNote s) := by
  rw [← sceneLevel_iff]
  obtain ⟨g, v, m, w⟩ := p
  have e1 : (s == .original) = decide (s = .original) := rfl
  have e2 : (v == .vtFloat) = decide (v = .vtFloat) := rfl
  have e3 : (g == .lfo) = decide (g = .lfo) := rfl
  have h1 : s.monophonic = s.sceneLevel := by cases s <;> rfl
  have h2 : s.sceneLevel = true → s.modulators = true := by cases s <;> decide
  simp only [valid, h1, bne, e1, e2, e3, List.any_cons, List.any_nil]
  by_cases a : s = .original <;> by_cases b : v = .vtFloat <;> by_cases c : g = .lfo <;> cases m <;> cases w <;> cases x : s.sceneLevel <;> simp_all

/-- **C271 (over the table).** Of the 271 parameters, those that accept a modulation are the modulatable real ones, all of them parameters of oscillators, filters and effects; and each accepts every source. -/
theorem C271_table_partial (g : Group) (l : List Entry) (e : Entry) (hg : (g, l) ∈ groups) (he : e ∈ l) (s : Src) :
    (valid (.new g e) s = true ↔ s ≠ .original ∧ e.modulateable = true ∧ e.vtype = .vtFloat) ∧ (valid (.new g e) s = true → g = .osc ∨ g = .filter ∨ g = .fx) := by
  have key : ∀ x ∈ groups, ∀ e ∈ x.2, e.modulateable = true → x.1 = .osc ∨ x.1 = .filter ∨ x.1 = .fx := by decide +kernel
  have k := key _ hg _ he
  rw [C271_accepts_iff_partial]
  simp only [Target.new]
  constructor
  · constructor
    · rintro ⟨a, b, c, -, -⟩
      exact ⟨a, b, c⟩
    · rintro ⟨a, b, c⟩
      refine ⟨a, b, c, by simp, ?_⟩
      intro h
      change g = .lfo at h
      rcases k b with h' | h' | h' <;> (change g = _ at h'; rw [h] at h'; cases h')
  · rintro ⟨-, b, -⟩
    exact k b

/-- **C271, refuted.** An effect is shared by all notes, but every modulatable real parameter of every effect accepts sources that are different for each note, the velocity among them. -/
theorem C271_shared_refuted (l : List Entry) (e : Entry) (hg : (Group.fx, l) ∈ groups) (he : e ∈ l) (hm : e.modulateable = true) (hf : e.vtype = .vtFloat) (s : Src) (hs : Spec.perNote s) : valid (.new .fx e) s = true := by
  rw [(C271_table_partial .fx l e hg he s).1]
  refine ⟨?_, hm, hf⟩
  rintro rfl
  exact hs

/-- **C271, refuted.** No parameter of an LFO, an envelope, a scene (its volume, its pitch, its panning) or the patch accepts any source. -/
theorem C271_closed_refuted (g : Group) (l : List Entry) (e : Entry) (hg : (g, l) ∈ groups) (he : e ∈ l) (h : g = .lfo ∨ g = .env ∨ g = .global) (s : Src) : valid (.new g e) s = false := by
  by_contra c
  rcases (C271_table_partial g l e hg he s).2 (by simpa using c) with rfl | rfl | rfl <;> simp at h

example : (Group.fx, eq3BandParam) ∈ groups ∧ ∃ e ∈ eq3BandParam, e.modulateable = true ∧ e.vtype = .vtFloat := by
  constructor
  · simp [groups]
  · exact ⟨_, List.mem_cons_self, rfl, rfl⟩

example : Spec.perNote .velocity := trivial

end Verif.Synth.Valid
