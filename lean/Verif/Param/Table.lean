import Verif.Param.Model
/-!
# The parameters of the synthesizer

Generated by tools/gen_params.py from the 29 parameter enums of the repository.  A `float` literal is the decimal number
in the source; the program uses its `f32` rounding (`Lit.toPData`).  Simplification: `12.0 * log2(..)` in the two vocoder
frequency defaults was evaluated by the generator.
-/
namespace Verif.Param

/-- surge-adsr/src/param.rs: the enum `AdsrParam` and its trait implementations; traits without methods use the defaults of surge-param. -/
def adsrParam : List Entry := [
  ⟨"AdsrParam", "Attack", .nil, .float (1 / 2), .float (0), .float (1), .vtFloat, false, true⟩,
  ⟨"AdsrParam", "Decay", .nil, .float (1 / 2), .float (0), .float (1), .vtFloat, false, true⟩,
  ⟨"AdsrParam", "Sustain", .nil, .float (1 / 2), .float (0), .float (1), .vtFloat, false, true⟩,
  ⟨"AdsrParam", "Release", .nil, .float (1 / 2), .float (0), .float (1), .vtFloat, false, true⟩,
  ⟨"AdsrParam", "AttackShape", .nil, .float (1 / 2), .float (0), .float (1), .vtFloat, false, true⟩,
  ⟨"AdsrParam", "DecayShape", .nil, .float (1 / 2), .float (0), .float (1), .vtFloat, false, true⟩,
  ⟨"AdsrParam", "ReleaseShape", .nil, .float (1 / 2), .float (0), .float (1), .vtFloat, false, true⟩,
  ⟨"AdsrParam", "Mode", .nil, .float (1 / 2), .float (0), .float (1), .vtFloat, false, true⟩]

/-- surge-lfo/src/param.rs: the enum `LfoParam` and its trait implementations; traits without methods use the defaults of surge-param. -/
def lfoParam : List Entry := [
  ⟨"LfoParam", "Rate", .nil, .float (1 / 2), .float (0), .float (1), .vtFloat, false, true⟩,
  ⟨"LfoParam", "Shape", .nil, .float (1 / 2), .float (0), .float (1), .vtFloat, false, true⟩,
  ⟨"LfoParam", "StartPhase", .nil, .float (1 / 2), .float (0), .float (1), .vtFloat, false, true⟩,
  ⟨"LfoParam", "Magnitude", .nil, .float (1 / 2), .float (0), .float (1), .vtFloat, false, true⟩,
  ⟨"LfoParam", "Deform", .nil, .float (1 / 2), .float (0), .float (1), .vtFloat, false, true⟩,
  ⟨"LfoParam", "Trigmode", .nil, .float (1 / 2), .float (0), .float (1), .vtFloat, false, true⟩,
  ⟨"LfoParam", "Unipolar", .nil, .float (1 / 2), .float (0), .float (1), .vtFloat, false, true⟩,
  ⟨"LfoParam", "Delay", .nil, .float (1 / 2), .float (0), .float (1), .vtFloat, false, true⟩,
  ⟨"LfoParam", "Hold", .nil, .float (1 / 2), .float (0), .float (1), .vtFloat, false, true⟩,
  ⟨"LfoParam", "Attack", .nil, .float (1 / 2), .float (0), .float (1), .vtFloat, false, true⟩,
  ⟨"LfoParam", "Decay", .nil, .float (1 / 2), .float (0), .float (1), .vtFloat, false, true⟩,
  ⟨"LfoParam", "Sustain", .nil, .float (1 / 2), .float (0), .float (1), .vtFloat, false, true⟩,
  ⟨"LfoParam", "Release", .nil, .float (1 / 2), .float (0), .float (1), .vtFloat, false, true⟩]

/-- surge-qfunit/src/waveshaper.rs: the enum `WaveshaperParam` and its trait implementations; traits without methods use the defaults of surge-param. -/
def waveshaperParam : List Entry := [
  ⟨"WaveshaperParam", "Type", .nil, .float (1 / 2), .float (0), .float (1), .vtFloat, false, true⟩,
  ⟨"WaveshaperParam", "Drive", .nil, .float (1 / 2), .float (0), .float (1), .vtFloat, false, true⟩]

/-- surge-scene/src/patch/param.rs: the enum `PatchParam` and its trait implementations; traits without methods use the defaults of surge-param. -/
def patchParam : List Entry := [
  ⟨"PatchParam", "SceneActive", .nil, .float (1 / 2), .float (0), .float (1), .vtFloat, false, true⟩,
  ⟨"PatchParam", "SceneMode", .nil, .float (1 / 2), .float (0), .float (1), .vtFloat, false, true⟩,
  ⟨"PatchParam", "SceneMorph", .nil, .float (1 / 2), .float (0), .float (1), .vtFloat, false, true⟩,
  ⟨"PatchParam", "SplitKey", .nil, .float (1 / 2), .float (0), .float (1), .vtFloat, false, true⟩,
  ⟨"PatchParam", "Volume", .nil, .float (1 / 2), .float (0), .float (1), .vtFloat, false, true⟩,
  ⟨"PatchParam", "PolyLimit", .nil, .float (1 / 2), .float (0), .float (1), .vtFloat, false, true⟩,
  ⟨"PatchParam", "FxBypass", .nil, .float (1 / 2), .float (0), .float (1), .vtFloat, false, true⟩,
  ⟨"PatchParam", "FxDisable", .nil, .float (1 / 2), .float (0), .float (1), .vtFloat, false, true⟩,
  ⟨"PatchParam", "Character", .nil, .float (1 / 2), .float (0), .float (1), .vtFloat, false, true⟩]

/-- surge-scene/src/scene/param.rs: the enum `SceneParam` and its trait implementations; traits without methods use the defaults of surge-param. -/
def sceneParam : List Entry := [
  ⟨"SceneParam", "Pitch", .nil, .float (1 / 2), .float (0), .float (1), .vtFloat, false, true⟩,
  ⟨"SceneParam", "Octave", .nil, .float (1 / 2), .float (0), .float (1), .vtFloat, false, true⟩,
  ⟨"SceneParam", "FmDepth", .nil, .float (1 / 2), .float (0), .float (1), .vtFloat, false, true⟩,
  ⟨"SceneParam", "FmSwitch", .nil, .float (1 / 2), .float (0), .float (1), .vtFloat, false, true⟩,
  ⟨"SceneParam", "Drift", .nil, .float (1 / 2), .float (0), .float (1), .vtFloat, false, true⟩,
  ⟨"SceneParam", "NoiseColour", .nil, .float (1 / 2), .float (0), .float (1), .vtFloat, false, true⟩,
  ⟨"SceneParam", "KeytrackRoot", .nil, .float (1 / 2), .float (0), .float (1), .vtFloat, false, true⟩,
  ⟨"SceneParam", "OscSolo", .nil, .float (1 / 2), .float (0), .float (1), .vtFloat, false, true⟩,
  ⟨"SceneParam", "LevelO1", .nil, .float (1 / 2), .float (0), .float (1), .vtFloat, false, true⟩,
  ⟨"SceneParam", "LevelO2", .nil, .float (1 / 2), .float (0), .float (1), .vtFloat, false, true⟩,
  ⟨"SceneParam", "LevelO3", .nil, .float (1 / 2), .float (0), .float (1), .vtFloat, false, true⟩,
  ⟨"SceneParam", "LevelNoise", .nil, .float (1 / 2), .float (0), .float (1), .vtFloat, false, true⟩,
  ⟨"SceneParam", "LevelRing12", .nil, .float (1 / 2), .float (0), .float (1), .vtFloat, false, true⟩,
  ⟨"SceneParam", "LevelRing23", .nil, .float (1 / 2), .float (0), .float (1), .vtFloat, false, true⟩,
  ⟨"SceneParam", "LevelPfg", .nil, .float (1 / 2), .float (0), .float (1), .vtFloat, false, true⟩,
  ⟨"SceneParam", "MuteO1", .nil, .float (1 / 2), .float (0), .float (1), .vtFloat, false, true⟩,
  ⟨"SceneParam", "MuteO2", .nil, .float (1 / 2), .float (0), .float (1), .vtFloat, false, true⟩,
  ⟨"SceneParam", "MuteO3", .nil, .float (1 / 2), .float (0), .float (1), .vtFloat, false, true⟩,
  ⟨"SceneParam", "MuteNoise", .nil, .float (1 / 2), .float (0), .float (1), .vtFloat, false, true⟩,
  ⟨"SceneParam", "MuteRing12", .nil, .float (1 / 2), .float (0), .float (1), .vtFloat, false, true⟩,
  ⟨"SceneParam", "MuteRing23", .nil, .float (1 / 2), .float (0), .float (1), .vtFloat, false, true⟩,
  ⟨"SceneParam", "SoloO1", .nil, .float (1 / 2), .float (0), .float (1), .vtFloat, false, true⟩,
  ⟨"SceneParam", "SoloO2", .nil, .float (1 / 2), .float (0), .float (1), .vtFloat, false, true⟩,
  ⟨"SceneParam", "SoloO3", .nil, .float (1 / 2), .float (0), .float (1), .vtFloat, false, true⟩,
  ⟨"SceneParam", "SoloNoise", .nil, .float (1 / 2), .float (0), .float (1), .vtFloat, false, true⟩,
  ⟨"SceneParam", "SoloRing12", .nil, .float (1 / 2), .float (0), .float (1), .vtFloat, false, true⟩,
  ⟨"SceneParam", "SoloRing23", .nil, .float (1 / 2), .float (0), .float (1), .vtFloat, false, true⟩,
  ⟨"SceneParam", "RouteO1", .nil, .float (1 / 2), .float (0), .float (1), .vtFloat, false, true⟩,
  ⟨"SceneParam", "RouteO2", .nil, .float (1 / 2), .float (0), .float (1), .vtFloat, false, true⟩,
  ⟨"SceneParam", "RouteO3", .nil, .float (1 / 2), .float (0), .float (1), .vtFloat, false, true⟩,
  ⟨"SceneParam", "RouteNoise", .nil, .float (1 / 2), .float (0), .float (1), .vtFloat, false, true⟩,
  ⟨"SceneParam", "RouteRing12", .nil, .float (1 / 2), .float (0), .float (1), .vtFloat, false, true⟩,
  ⟨"SceneParam", "RouteRing23", .nil, .float (1 / 2), .float (0), .float (1), .vtFloat, false, true⟩,
  ⟨"SceneParam", "VcaLevel", .nil, .float (1 / 2), .float (0), .float (1), .vtFloat, false, true⟩,
  ⟨"SceneParam", "PitchBendRangeDown", .nil, .float (1 / 2), .float (0), .float (1), .vtFloat, false, true⟩,
  ⟨"SceneParam", "PitchBendRangeUp", .nil, .float (1 / 2), .float (0), .float (1), .vtFloat, false, true⟩,
  ⟨"SceneParam", "VcaVelsense", .nil, .float (1 / 2), .float (0), .float (1), .vtFloat, false, true⟩,
  ⟨"SceneParam", "PolyMode", .nil, .float (1 / 2), .float (0), .float (1), .vtFloat, false, true⟩,
  ⟨"SceneParam", "PolyLimit", .nil, .float (1 / 2), .float (0), .float (1), .vtFloat, false, true⟩,
  ⟨"SceneParam", "Portamento", .nil, .float (1 / 2), .float (0), .float (1), .vtFloat, false, true⟩,
  ⟨"SceneParam", "Volume", .nil, .float (1 / 2), .float (0), .float (1), .vtFloat, false, true⟩,
  ⟨"SceneParam", "Pan", .nil, .float (1 / 2), .float (0), .float (1), .vtFloat, false, true⟩,
  ⟨"SceneParam", "Width", .nil, .float (1 / 2), .float (0), .float (1), .vtFloat, false, true⟩,
  ⟨"SceneParam", "SendLevelA", .nil, .float (1 / 2), .float (0), .float (1), .vtFloat, false, true⟩,
  ⟨"SceneParam", "SendLevelB", .nil, .float (1 / 2), .float (0), .float (1), .vtFloat, false, true⟩,
  ⟨"SceneParam", "F2CutoffIsOffset", .nil, .float (1 / 2), .float (0), .float (1), .vtFloat, false, true⟩,
  ⟨"SceneParam", "F2LinkResonance", .nil, .float (1 / 2), .float (0), .float (1), .vtFloat, false, true⟩,
  ⟨"SceneParam", "Feedback", .nil, .float (1 / 2), .float (0), .float (1), .vtFloat, false, true⟩,
  ⟨"SceneParam", "FilterBlockConfiguration", .nil, .float (1 / 2), .float (0), .float (1), .vtFloat, false, true⟩,
  ⟨"SceneParam", "FilterBalance", .nil, .float (1 / 2), .float (0), .float (1), .vtFloat, false, true⟩,
  ⟨"SceneParam", "LowCut", .nil, .float (1 / 2), .float (0), .float (1), .vtFloat, false, true⟩]

/-- surge-types/src/filter_param.rs: the enum `FilterParam` and its trait implementations; traits without methods use the defaults of surge-param. -/
def filterParam : List Entry := [
  ⟨"FilterParam", "Type", .filterType, .int (0), .int (0), .int (1), .vtFloat, false, true⟩,
  ⟨"FilterParam", "SubType", .filterSubType, .int (0), .int (0), .int (1), .vtFloat, false, true⟩,
  ⟨"FilterParam", "Cutoff", .freqAudible, .float (1 / 2), .float (0), .float (1), .vtFloat, true, true⟩,
  ⟨"FilterParam", "Resonance", .unknown, .float (1 / 2), .float (0), .float (1), .vtFloat, true, true⟩,
  ⟨"FilterParam", "EnvelopeMode", .envelopeMode, .float (1 / 2), .float (0), .float (1), .vtFloat, false, true⟩,
  ⟨"FilterParam", "KeyTrack", .unknown, .float (1 / 2), .float (0), .float (1), .vtFloat, false, true⟩]

/-- surge-types/src/oscillator.rs: the enum `OscillatorParam` and its trait implementations; traits without methods use the defaults of surge-param. -/
def oscillatorParam : List Entry := [
  ⟨"OscillatorParam", "Type", .nil, .float (1 / 2), .float (0), .float (1), .vtFloat, false, true⟩,
  ⟨"OscillatorParam", "Pitch", .nil, .float (1 / 2), .float (0), .float (1), .vtFloat, false, true⟩,
  ⟨"OscillatorParam", "Octave", .nil, .float (1 / 2), .float (0), .float (1), .vtFloat, false, true⟩,
  ⟨"OscillatorParam", "KeyTrack", .nil, .float (1 / 2), .float (0), .float (1), .vtFloat, false, true⟩,
  ⟨"OscillatorParam", "Retrigger", .nil, .float (1 / 2), .float (0), .float (1), .vtFloat, false, true⟩]

/-- surgefx-allpass/src/param.rs: the enum `AllpassReverbParam` and its trait implementations; traits without methods use the defaults of surge-param. -/
def allpassReverbParam : List Entry := [
  ⟨"AllpassReverbParam", "PreDelay", .reverbPreDelayTime, .float (-4), .float (-4), .float (1), .vtFloat, true, true⟩,
  ⟨"AllpassReverbParam", "RoomSize", .percentBidirectional, .float (0), .float (-1), .float (1), .vtFloat, true, true⟩,
  ⟨"AllpassReverbParam", "DecayTime", .reverbTime, .float (3 / 4), .float (-4), .float (6), .vtFloat, true, true⟩,
  ⟨"AllpassReverbParam", "Diffusion", .percent, .float (1), .float (0), .float (1), .vtFloat, true, true⟩,
  ⟨"AllpassReverbParam", "BuildUp", .percent, .float (1), .float (0), .float (1), .vtFloat, true, true⟩,
  ⟨"AllpassReverbParam", "Modulation", .percent, .float (1 / 2), .float (0), .float (1), .vtFloat, true, true⟩,
  ⟨"AllpassReverbParam", "LFDamping", .percent, .float (1 / 5), .float (0), .float (1), .vtFloat, true, true⟩,
  ⟨"AllpassReverbParam", "HFDamping", .percent, .float (1 / 5), .float (0), .float (1), .vtFloat, true, true⟩,
  ⟨"AllpassReverbParam", "Mix", .percent, .float (33 / 100), .float (0), .float (1), .vtFloat, true, true⟩,
  ⟨"AllpassReverbParam", "Width", .percent, .float (3 / 4), .float (0), .float (1), .vtFloat, true, true⟩,
  ⟨"AllpassReverbParam", "ReturnLevel", .percent, .float (3 / 4), .float (0), .float (1), .vtFloat, true, true⟩]

/-- surgefx-chorus/src/param.rs: the enum `ChorusParam` and its trait implementations; traits without methods use the defaults of surge-param. -/
def chorusParam : List Entry := [
  ⟨"ChorusParam", "Time", .delayModTime, .float (-6), .float (-11), .float (-3), .vtFloat, true, true⟩,
  ⟨"ChorusParam", "Rate", .lfoRate, .float (-2), .float (-7), .float (9), .vtFloat, true, true⟩,
  ⟨"ChorusParam", "Depth", .percent, .float (3 / 10), .float (0), .float (1), .vtFloat, true, true⟩,
  ⟨"ChorusParam", "Feedback", .amplitude, .float (1 / 2), .float (0), .float (1), .vtFloat, true, true⟩,
  ⟨"ChorusParam", "LowCut", .freqAudible, .float (-36), .float (-60), .float (70), .vtFloat, true, true⟩,
  ⟨"ChorusParam", "HighCut", .freqAudible, .float (36), .float (-60), .float (70), .vtFloat, true, true⟩,
  ⟨"ChorusParam", "Mix", .percent, .float (1), .float (0), .float (1), .vtFloat, true, true⟩,
  ⟨"ChorusParam", "Width", .decibelNarrow, .float (0), .float (-24), .float (24), .vtFloat, true, true⟩,
  ⟨"ChorusParam", "ReturnLevel", .percent, .float (1), .float (0), .float (1), .vtFloat, true, true⟩]

/-- surgefx-conditioner/src/param.rs: the enum `ConditionerParam` and its trait implementations; traits without methods use the defaults of surge-param. -/
def conditionerParam : List Entry := [
  ⟨"ConditionerParam", "Bass", .decibelExtraNarrow, .float (0), .float (-12), .float (12), .vtFloat, true, true⟩,
  ⟨"ConditionerParam", "Treble", .decibelExtraNarrow, .float (0), .float (-12), .float (12), .vtFloat, true, true⟩,
  ⟨"ConditionerParam", "Width", .percentBidirectional, .float (0), .float (-1), .float (1), .vtFloat, true, true⟩,
  ⟨"ConditionerParam", "Balance", .percentBidirectional, .float (0), .float (-1), .float (1), .vtFloat, true, true⟩,
  ⟨"ConditionerParam", "Threshold", .decibelAttenuation, .float (0), .float (-48), .float (0), .vtFloat, true, true⟩,
  ⟨"ConditionerParam", "AttackRate", .percentBidirectional, .float (0), .float (-1), .float (1), .vtFloat, true, true⟩,
  ⟨"ConditionerParam", "ReleaseRate", .percentBidirectional, .float (0), .float (-1), .float (1), .vtFloat, true, true⟩,
  ⟨"ConditionerParam", "Gain", .decibelAttenuation, .float (0), .float (-48), .float (0), .vtFloat, true, true⟩,
  ⟨"ConditionerParam", "ReturnLevel", .percent, .float (1 / 2), .float (0), .float (1), .vtFloat, true, true⟩]

/-- surgefx-distortion/src/param.rs: the enum `DistortionParam` and its trait implementations; traits without methods use the defaults of surge-param. -/
def distortionParam : List Entry := [
  ⟨"DistortionParam", "PreGain", .decibelExtendable       , .float (0), .float (-48), .float (48), .vtFloat, true, true⟩,
  ⟨"DistortionParam", "PreFreq", .freqAudible             , .float (0), .float (-60), .float (70), .vtFloat, true, true⟩,
  ⟨"DistortionParam", "PreBandwidth", .bandwidth               , .float (2), .float (0), .float (5), .vtFloat, true, true⟩,
  ⟨"DistortionParam", "PreHighCut", .freqAudible             , .float (0), .float (-60), .float (70), .vtFloat, true, true⟩,
  ⟨"DistortionParam", "Drive", .decibelNarrowExtendable , .float (0), .float (-24), .float (24), .vtFloat, true, true⟩,
  ⟨"DistortionParam", "Feedback", .percentBidirectional    , .float (0), .float (-1), .float (1), .vtFloat, true, true⟩,
  ⟨"DistortionParam", "PostGain", .decibelExtendable       , .float (0), .float (-48), .float (48), .vtFloat, true, true⟩,
  ⟨"DistortionParam", "PostFreq", .freqAudible             , .float (0), .float (-60), .float (70), .vtFloat, true, true⟩,
  ⟨"DistortionParam", "PostBandwidth", .bandwidth               , .float (2), .float (0), .float (5), .vtFloat, true, true⟩,
  ⟨"DistortionParam", "PostHighCut", .freqAudible             , .float (0), .float (-60), .float (70), .vtFloat, true, true⟩,
  ⟨"DistortionParam", "OutGain", .decibelNarrow           , .float (0), .float (-24), .float (24), .vtFloat, true, true⟩,
  ⟨"DistortionParam", "Waveshaper", .distortionWaveshape     , .int (0), .int (0), .int (6), .vtInt, true, true⟩,
  ⟨"DistortionParam", "ReturnLevel", .percent, .float (1 / 2), .float (0), .float (1), .vtFloat, true, true⟩]

/-- surgefx-dualdelay/src/param.rs: the enum `DualDelayParam` and its trait implementations; traits without methods use the defaults of surge-param. -/
def dualDelayParam : List Entry := [
  ⟨"DualDelayParam", "Left", .envTime, .float (-2), .float (-8), .float (5), .vtFloat, true, true⟩,
  ⟨"DualDelayParam", "Right", .envTime, .float (-2), .float (-8), .float (5), .vtFloat, true, true⟩,
  ⟨"DualDelayParam", "Feedback", .amplitude, .float (0), .float (0), .float (1), .vtFloat, true, true⟩,
  ⟨"DualDelayParam", "CrossFeed", .amplitude, .float (0), .float (0), .float (1), .vtFloat, true, true⟩,
  ⟨"DualDelayParam", "LowCut", .freqAudible, .float (-24), .float (-60), .float (70), .vtFloat, true, true⟩,
  ⟨"DualDelayParam", "HighCut", .freqAudible, .float (30), .float (-60), .float (70), .vtFloat, true, true⟩,
  ⟨"DualDelayParam", "Rate", .lfoRate, .float (-2), .float (-7), .float (9), .vtFloat, true, true⟩,
  ⟨"DualDelayParam", "Depth", .detuning, .float (0), .float (0), .float (2), .vtFloat, true, true⟩,
  ⟨"DualDelayParam", "Pan", .percentBidirectional, .float (0), .float (-1), .float (1), .vtFloat, true, true⟩,
  ⟨"DualDelayParam", "Mix", .percent, .float (1), .float (0), .float (1), .vtFloat, true, true⟩,
  ⟨"DualDelayParam", "Width", .decibelNarrow, .float (0), .float (-24), .float (24), .vtFloat, true, true⟩,
  ⟨"DualDelayParam", "ReturnLevel", .percent, .float (1 / 2), .float (0), .float (1), .vtFloat, true, true⟩]

/-- surgefx-emphasize/src/param.rs: the enum `EmphasizeParam` and its trait implementations; traits without methods use the defaults of surge-param. -/
def emphasizeParam : List Entry := [
  ⟨"EmphasizeParam", "Time", .delayModTime, .float (-6), .float (-11), .float (-3), .vtFloat, true, true⟩,
  ⟨"EmphasizeParam", "ReturnLevel", .percent, .float (1 / 2), .float (0), .float (1), .vtFloat, true, true⟩]

/-- surgefx-eq3band/src/param.rs: the enum `Eq3BandParam` and its trait implementations; traits without methods use the defaults of surge-param. -/
def eq3BandParam : List Entry := [
  ⟨"Eq3BandParam", "LGain", .decibel, .float (0), .float (-48), .float (48), .vtFloat, true, true⟩,
  ⟨"Eq3BandParam", "LFreq", .freqAudible, .float (-30), .float (-60), .float (70), .vtFloat, true, true⟩,
  ⟨"Eq3BandParam", "LBandwidth", .bandwidth, .float (2), .float (0), .float (5), .vtFloat, true, true⟩,
  ⟨"Eq3BandParam", "MGain", .decibel, .float (0), .float (-48), .float (48), .vtFloat, true, true⟩,
  ⟨"Eq3BandParam", "MFreq", .freqAudible, .float (6), .float (-60), .float (70), .vtFloat, true, true⟩,
  ⟨"Eq3BandParam", "MBandwidth", .bandwidth, .float (2), .float (0), .float (5), .vtFloat, true, true⟩,
  ⟨"Eq3BandParam", "HGain", .decibel, .float (0), .float (-48), .float (48), .vtFloat, true, true⟩,
  ⟨"Eq3BandParam", "HFreq", .freqAudible, .float (54), .float (-60), .float (70), .vtFloat, true, true⟩,
  ⟨"Eq3BandParam", "HBandwidth", .bandwidth, .float (2), .float (0), .float (5), .vtFloat, true, true⟩,
  ⟨"Eq3BandParam", "Gain", .decibel, .float (0), .float (-48), .float (48), .vtFloat, true, true⟩,
  ⟨"Eq3BandParam", "ReturnLevel", .percent, .float (1 / 2), .float (0), .float (1), .vtFloat, true, true⟩]

/-- surgefx-flanger/src/param.rs: the enum `FlangerParam` and its trait implementations; traits without methods use the defaults of surge-param. -/
def flangerParam : List Entry := [
  ⟨"FlangerParam", "Rate", .lfoRate, .float (-2), .float (-7), .float (9), .vtFloat, true, true⟩,
  ⟨"FlangerParam", "Depth", .percent, .float (1), .float (0), .float (1), .vtFloat, true, true⟩,
  ⟨"FlangerParam", "Mode", .flangerMode, .int (0), .int (0), .int (11), .vtInt, true, true⟩,
  ⟨"FlangerParam", "Voices", .flangerVoices, .int (4), .int (1), .int (4), .vtInt, true, true⟩,
  ⟨"FlangerParam", "VoiceZeroPitch", .flangerPitch, .float (60), .float (0), .float (127), .vtFloat, true, true⟩,
  ⟨"FlangerParam", "VoiceDetune", .percent, .float (0), .float (0), .float (1), .vtFloat, true, true⟩,
  ⟨"FlangerParam", "VoiceChord", .percent, .float (0), .float (0), .float (1), .vtFloat, true, true⟩,
  ⟨"FlangerParam", "Feedback", .percent, .float (0), .float (0), .float (1), .vtFloat, true, true⟩,
  ⟨"FlangerParam", "FbLFDamping", .percent, .float (1 / 10), .float (0), .float (1), .vtFloat, true, true⟩,
  ⟨"FlangerParam", "Gain", .percentBidirectional, .float (0), .float (-1), .float (1), .vtFloat, true, true⟩,
  ⟨"FlangerParam", "StereoWidth", .percent, .float (0), .float (0), .float (1), .vtFloat, true, true⟩,
  ⟨"FlangerParam", "Mix", .percentBidirectional, .float (4 / 5), .float (-1), .float (1), .vtFloat, true, true⟩,
  ⟨"FlangerParam", "ReturnLevel", .percent, .float (1 / 2), .float (0), .float (1), .vtFloat, true, true⟩]

/-- surgefx-freqshift/src/param.rs: the enum `FreqShiftParam` and its trait implementations; traits without methods use the defaults of surge-param. -/
def freqShiftParam : List Entry := [
  ⟨"FreqShiftParam", "Shift", .freqShift, .float (0), .float (-10), .float (10), .vtFloat, true, true⟩,
  ⟨"FreqShiftParam", "RMult", .percentBidirectional, .float (1), .float (-1), .float (1), .vtFloat, true, true⟩,
  ⟨"FreqShiftParam", "Delay", .envTime, .float (-8), .float (-8), .float (5), .vtFloat, true, true⟩,
  ⟨"FreqShiftParam", "Feedback", .amplitude, .float (0), .float (0), .float (1), .vtFloat, true, true⟩,
  ⟨"FreqShiftParam", "Mix", .percent, .float (1), .float (0), .float (1), .vtFloat, true, true⟩,
  ⟨"FreqShiftParam", "ReturnLevel", .percent, .float (1 / 2), .float (0), .float (1), .vtFloat, true, true⟩]

/-- surgefx-phaser/src/param.rs: the enum `PhaserParam` and its trait implementations; traits without methods use the defaults of surge-param. -/
def phaserParam : List Entry := [
  ⟨"PhaserParam", "Base", .percentBidirectional, .float (0), .float (-1), .float (1), .vtFloat, true, true⟩,
  ⟨"PhaserParam", "Feedback", .percentBidirectional, .float (0), .float (-1), .float (1), .vtFloat, true, true⟩,
  ⟨"PhaserParam", "QualityFactor", .percentBidirectional, .float (0), .float (-1), .float (1), .vtFloat, true, true⟩,
  ⟨"PhaserParam", "LFORate", .lfoRate, .float (0), .float (-7), .float (9), .vtFloat, true, true⟩,
  ⟨"PhaserParam", "LFODepth", .percent, .float (0), .float (0), .float (1), .vtFloat, true, true⟩,
  ⟨"PhaserParam", "Stereo", .percent, .float (0), .float (0), .float (1), .vtFloat, true, true⟩,
  ⟨"PhaserParam", "Mix", .percent, .float (0), .float (0), .float (1), .vtFloat, true, true⟩,
  ⟨"PhaserParam", "ReturnLevel", .percent, .float (1 / 2), .float (0), .float (1), .vtFloat, true, true⟩]

/-- surgefx-reverb/src/param.rs: the enum `ReverbParam` and its trait implementations; traits without methods use the defaults of surge-param. -/
def reverbParam : List Entry := [
  ⟨"ReverbParam", "PreDelay", .envTime, .float (-4), .float (-8), .float (5), .vtFloat, false, true⟩,
  ⟨"ReverbParam", "RoomShape", .reverbShape, .int (0), .int (0), .int (3), .vtInt, true, true⟩,
  ⟨"ReverbParam", "RoomSize", .percent, .float (1 / 2), .float (0), .float (1), .vtFloat, true, true⟩,
  ⟨"ReverbParam", "DecayTime", .reverbTime, .float (1), .float (-4), .float (6), .vtFloat, true, true⟩,
  ⟨"ReverbParam", "Damping", .percent, .float (1 / 5), .float (0), .float (1), .vtFloat, true, true⟩,
  ⟨"ReverbParam", "LowCut", .freqAudible, .float (-24), .float (-60), .float (70), .vtFloat, true, true⟩,
  ⟨"ReverbParam", "Band1Freq", .freqAudible, .float (0), .float (-60), .float (70), .vtFloat, true, true⟩,
  ⟨"ReverbParam", "Band1Gain", .decibel, .float (0), .float (-48), .float (48), .vtFloat, true, true⟩,
  ⟨"ReverbParam", "HighCut", .freqAudible, .float (72), .float (-60), .float (70), .vtFloat, true, true⟩,
  ⟨"ReverbParam", "Mix", .percent, .float (1), .float (0), .float (1), .vtFloat, true, true⟩,
  ⟨"ReverbParam", "Width", .decibelNarrow, .float (0), .float (-24), .float (24), .vtFloat, true, true⟩,
  ⟨"ReverbParam", "ReturnLevel", .percent, .float (1 / 2), .float (0), .float (1), .vtFloat, true, true⟩]

/-- surgefx-ringmod/src/param.rs: the enum `RingModulatorParam` and its trait implementations; traits without methods use the defaults of surge-param. -/
def ringModulatorParam : List Entry := [
  ⟨"RingModulatorParam", "CarrierShape", .sineOscMode, .int (0), .int (0), .int (0), .vtInt, true, true⟩,
  ⟨"RingModulatorParam", "CarrierFreq", .flangerPitch, .float (60), .float (1 / 100), .float (0), .vtFloat, true, true⟩,
  ⟨"RingModulatorParam", "UnisonDetune", .oscSpread, .float (1 / 5), .float (1), .float (0), .vtFloat, true, true⟩,
  ⟨"RingModulatorParam", "UnisonVoices", .oscCount, .int (1), .int (1), .int (16), .vtInt, true, true⟩,
  ⟨"RingModulatorParam", "DiodeForwardBias", .percent, .float (3 / 10), .float (0), .float (1), .vtFloat, true, true⟩,
  ⟨"RingModulatorParam", "DiodeLinearRegion", .percent, .float (7 / 10), .float (0), .float (1), .vtFloat, true, true⟩,
  ⟨"RingModulatorParam", "LowCut", .freqAudible, .float (0), .float (0), .float (0), .vtFloat, true, true⟩,
  ⟨"RingModulatorParam", "HighCut", .freqAudible, .float (0), .float (0), .float (0), .vtFloat, true, true⟩,
  ⟨"RingModulatorParam", "Mix", .percent, .float (1), .float (0), .float (1), .vtFloat, true, true⟩,
  ⟨"RingModulatorParam", "ReturnLevel", .percent, .float (1), .float (0), .float (1), .vtFloat, true, true⟩]

/-- surgefx-rotary/src/param.rs: the enum `RotarySpeakerParam` and its trait implementations; traits without methods use the defaults of surge-param. -/
def rotarySpeakerParam : List Entry := [
  ⟨"RotarySpeakerParam", "HornRate", .lfoRate, .float (1), .float (-7), .float (9), .vtFloat, true, true⟩,
  ⟨"RotarySpeakerParam", "Doppler", .percent, .float (1 / 4), .float (0), .float (1), .vtFloat, true, true⟩,
  ⟨"RotarySpeakerParam", "AmpMod", .percent, .float (1 / 2), .float (0), .float (1), .vtFloat, true, true⟩,
  ⟨"RotarySpeakerParam", "ReturnLevel", .percent, .float (1 / 2), .float (0), .float (1), .vtFloat, true, true⟩]

/-- surgefx-vocoder/src/param.rs: the enum `VocoderParam` and its trait implementations; traits without methods use the defaults of surge-param. -/
def vocoderParam : List Entry := [
  ⟨"VocoderParam", "Gain", .decibel, .float (0), .float (-48), .float (48), .vtFloat, true, true⟩,
  ⟨"VocoderParam", "GateLevel", .decibelAttenuationLarge, .float (-96), .float (-96), .float (0), .vtFloat, true, true⟩,
  ⟨"VocoderParam", "Rate", .percent, .float (0), .float (0), .float (1), .vtFloat, true, true⟩,
  ⟨"VocoderParam", "UnvoicedThreshold", .decibel, .float (0), .float (-48), .float (48), .vtFloat, true, true⟩,
  ⟨"VocoderParam", "Quality", .percentBidirectional, .float (0), .float (-1), .float (1), .vtFloat, true, true⟩,
  ⟨"VocoderParam", "NumBands", .vocoderBandcount, .int (20), .int (4), .int (20), .vtInt, true, true⟩,
  ⟨"VocoderParam", "FreqLo", .freqVocoderLow, .float (-16225749 / 1048576), .float (-36), .float (36), .vtFloat, true, true⟩,
  ⟨"VocoderParam", "FreqHi", .freqVocoderHigh, .float (12870165 / 262144), .float (0), .float (60), .vtFloat, true, true⟩,
  ⟨"VocoderParam", "ModExpand", .percentBidirectional, .float (0), .float (-1), .float (1), .vtFloat, true, true⟩,
  ⟨"VocoderParam", "ModCenter", .percentBidirectional, .float (0), .float (-1), .float (1), .vtFloat, true, true⟩,
  ⟨"VocoderParam", "ReturnLevel", .percent, .float (1 / 2), .float (0), .float (1), .vtFloat, true, true⟩]

/-- surgeosc-audioin/src/param.rs: the enum `AudioInputOscillatorParam` and its trait implementations; traits without methods use the defaults of surge-param. -/
def audioInputOscillatorParam : List Entry := [
  ⟨"AudioInputOscillatorParam", "Input", .percentBidirectional, .float (0), .float (-1), .float (1), .vtFloat, true, true⟩,
  ⟨"AudioInputOscillatorParam", "Gain", .decibel, .float (0), .float (-48), .float (48), .vtFloat, true, true⟩]

/-- surgeosc-fm/src/param.rs: the enum `FMOscillatorParam` and its trait implementations; traits without methods use the defaults of surge-param. -/
def fMOscillatorParam : List Entry := [
  ⟨"FMOscillatorParam", "M1Amount", .percent, .float (0), .float (0), .float (1), .vtFloat, true, true⟩,
  ⟨"FMOscillatorParam", "M1Ratio", .fMRatio, .float (1), .float (0), .float (32), .vtFloat, true, true⟩,
  ⟨"FMOscillatorParam", "M2Amount", .percent, .float (0), .float (0), .float (1), .vtFloat, true, true⟩,
  ⟨"FMOscillatorParam", "M2Ratio", .fMRatio, .float (1), .float (0), .float (32), .vtFloat, true, true⟩,
  ⟨"FMOscillatorParam", "M3Amount", .percent, .float (0), .float (0), .float (1), .vtFloat, true, true⟩,
  ⟨"FMOscillatorParam", "M3Freq", .freqAudible, .float (0), .float (-60), .float (70), .vtFloat, true, true⟩,
  ⟨"FMOscillatorParam", "Feedback", .percent, .float (0), .float (0), .float (1), .vtFloat, true, true⟩]

/-- surgeosc-fm2/src/param.rs: the enum `FM2OscillatorParam` and its trait implementations; traits without methods use the defaults of surge-param. -/
def fM2OscillatorParam : List Entry := [
  ⟨"FM2OscillatorParam", "M1Amount", .percent, .float (0), .float (0), .float (1), .vtFloat, true, true⟩,
  ⟨"FM2OscillatorParam", "M1Ratio", .fMRatio, .int (1), .float (0), .float (32), .vtFloat, true, true⟩,
  ⟨"FM2OscillatorParam", "M2Amount", .percent, .float (0), .float (0), .float (1), .vtFloat, true, true⟩,
  ⟨"FM2OscillatorParam", "M2Ratio", .fMRatio, .int (1), .float (0), .float (32), .vtFloat, true, true⟩,
  ⟨"FM2OscillatorParam", "MxShift", .freqShift, .float (0), .float (-10), .float (10), .vtFloat, true, true⟩,
  ⟨"FM2OscillatorParam", "MxStartPhase", .percent, .float (0), .float (0), .float (1), .vtFloat, true, true⟩,
  ⟨"FM2OscillatorParam", "Feedback", .percent, .float (0), .float (0), .float (1), .vtFloat, true, true⟩]

/-- surgeosc-sine/src/param.rs: the enum `SineWaveOscillatorParam` and its trait implementations; traits without methods use the defaults of surge-param. -/
def sineWaveOscillatorParam : List Entry := [
  ⟨"SineWaveOscillatorParam", "Shape", .sineOscMode, .int (0), .int (0), .int (8), .vtInt, true, true⟩,
  ⟨"SineWaveOscillatorParam", "Feedback", .percent, .float (0), .float (0), .float (1), .vtFloat, true, true⟩,
  ⟨"SineWaveOscillatorParam", "FMBehavior", .sineFMLegacy, .int (1), .int (0), .int (1), .vtInt, true, true⟩]

/-- surgeosc-snh/src/param.rs: the enum `SampleAndHoldOscillatorParam` and its trait implementations; traits without methods use the defaults of surge-param. -/
def sampleAndHoldOscillatorParam : List Entry := [
  ⟨"SampleAndHoldOscillatorParam", "Correlation", .percentBidirectional, .float (0), .float (-1), .float (1), .vtFloat, true, true⟩,
  ⟨"SampleAndHoldOscillatorParam", "Width", .percent, .float (1 / 2), .float (0), .float (1), .vtFloat, true, true⟩,
  ⟨"SampleAndHoldOscillatorParam", "Smooth", .nil, .float (0), .int (-2147483648), .int (2147483647), .vtInt, true, true⟩,
  ⟨"SampleAndHoldOscillatorParam", "Sub", .nil, .float (0), .int (-2147483648), .int (2147483647), .vtInt, true, true⟩,
  ⟨"SampleAndHoldOscillatorParam", "Sync_", .syncPitch, .float (0), .float (0), .float (60), .vtFloat, true, true⟩,
  ⟨"SampleAndHoldOscillatorParam", "UniSpread", .oscSpread, .float (1 / 5), .float (0), .float (1), .vtFloat, true, true⟩,
  ⟨"SampleAndHoldOscillatorParam", "UniCount", .oscCount, .float (1), .int (1), .int (16), .vtInt, true, true⟩]

/-- surgeosc-super/src/params.rs: the enum `SSOParam` and its trait implementations; traits without methods use the defaults of surge-param. -/
def sSOParam : List Entry := [
  ⟨"SSOParam", "Shape", .percentBidirectional, .float (0), .float (-1), .float (1), .vtFloat, true, true⟩,
  ⟨"SSOParam", "Width", .percent, .float (1 / 2), .float (0), .float (1), .vtFloat, true, true⟩,
  ⟨"SSOParam", "SubWidth", .percent, .float (1 / 2), .float (0), .float (1), .vtFloat, true, true⟩,
  ⟨"SSOParam", "SubLevel", .percent, .float (0), .float (0), .float (1), .vtFloat, true, true⟩,
  ⟨"SSOParam", "SyncPitch", .syncPitch, .float (0), .float (0), .float (60), .vtFloat, true, true⟩,
  ⟨"SSOParam", "UniSpread", .oscSpread, .float (1 / 5), .float (0), .float (1), .vtFloat, true, true⟩,
  ⟨"SSOParam", "UniCount", .oscCount, .int (1), .int (1), .int (16), .vtInt, true, true⟩,
  ⟨"SSOParam", "Character", .character, .int (0), .int (0), .int (2), .vtInt, true, true⟩]

/-- surgeosc-wavetable/src/param.rs: the enum `WTOscillatorParam` and its trait implementations; traits without methods use the defaults of surge-param. -/
def wTOscillatorParam : List Entry := [
  ⟨"WTOscillatorParam", "Morph", .countedSetPercent, .float (0), .float (0), .float (1), .vtFloat, true, false⟩,
  ⟨"WTOscillatorParam", "SkewV", .percentBidirectional, .float (0), .float (-1), .float (1), .vtFloat, true, true⟩,
  ⟨"WTOscillatorParam", "Saturate", .percent, .float (0), .float (0), .float (1), .vtFloat, true, true⟩,
  ⟨"WTOscillatorParam", "Formant", .syncPitch, .float (0), .float (0), .float (60), .vtFloat, true, true⟩,
  ⟨"WTOscillatorParam", "SkewH", .percentBidirectional, .float (0), .float (-1), .float (1), .vtFloat, true, true⟩,
  ⟨"WTOscillatorParam", "UniSpread", .oscSpread, .float (1 / 5), .float (0), .float (1), .vtFloat, true, true⟩,
  ⟨"WTOscillatorParam", "UniCount", .oscCountWT, .float (1), .int (1), .int (16), .vtInt, true, true⟩]

/-- surgeosc-window/src/param.rs: the enum `WindowOscillatorParam` and its trait implementations; traits without methods use the defaults of surge-param. -/
def windowOscillatorParam : List Entry := [
  ⟨"WindowOscillatorParam", "Morph", .countedSetPercent, .float (0), .float (0), .float (1), .vtFloat, true, false⟩,
  ⟨"WindowOscillatorParam", "Formant", .pitch, .float (0), .float (-60), .float (60), .vtFloat, true, true⟩,
  ⟨"WindowOscillatorParam", "Window", .wt2Window, .int (0), .int (0), .int (8), .vtInt, true, true⟩,
  ⟨"WindowOscillatorParam", "UniSpread", .oscSpread, .float (1 / 5), .float (0), .float (1), .vtFloat, true, true⟩,
  ⟨"WindowOscillatorParam", "UniCount", .oscCountWT, .int (1), .int (1), .int (16), .vtInt, true, true⟩]

/-- Every parameter. -/
def allParams : List Entry :=
  adsrParam ++
  lfoParam ++
  waveshaperParam ++
  patchParam ++
  sceneParam ++
  filterParam ++
  oscillatorParam ++
  allpassReverbParam ++
  chorusParam ++
  conditionerParam ++
  distortionParam ++
  dualDelayParam ++
  emphasizeParam ++
  eq3BandParam ++
  flangerParam ++
  freqShiftParam ++
  phaserParam ++
  reverbParam ++
  ringModulatorParam ++
  rotarySpeakerParam ++
  vocoderParam ++
  audioInputOscillatorParam ++
  fMOscillatorParam ++
  fM2OscillatorParam ++
  sineWaveOscillatorParam ++
  sampleAndHoldOscillatorParam ++
  sSOParam ++
  wTOscillatorParam ++
  windowOscillatorParam

end Verif.Param
