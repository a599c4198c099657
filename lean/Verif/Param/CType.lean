namespace Verif.Param

/-- surge-param/src/control_type.rs 18-102 `ControlType` (generated by tools/gen_params.py). -/
inductive CType where
  | nil | percent | percentBidirectional | pitchOctave | pitchSemi7BP | pitchSemi7BPAbsolutable | pitch | fMRatio
  | fMRatioInt | pBDepth | syncPitch | amplitude | reverbShape | decibel | decibelNarrow | decibelNarrowExtendable
  | decibelExtraNarrow | decibelAttenuation | decibelAttenuationLarge | decibelFMDepth | decibelExtendable | freqAudible | freqMod | freqHpf
  | freqShift | freqVocoderLow | freqVocoderHigh | bandwidth | envTime | envTimeLfoDecay | envShape | envelopeMode
  | delayModTime | reverbTime | reverbPreDelayTime | portaTime | lfoRate | lfoShape | lfoTrigMode | detuning
  | oscType | fxType | fxBypass | fbConfig | fmConfig | filterType | filterSubType | waveshapeType
  | wt2Window | oscCount | oscCountWT | oscSpread | sceneMode | sceneSel | polyMode | polyLimit
  | midiKey | midiKeyOrChannel | bool | boolRelativeSwitch | boolLinkSwitch | boolKeytrack | boolRetrigger | boolUnipolar
  | boolMute | boolSolo | oscRoute | stereoWidth | boolFM | character | sineOscMode | sineFMLegacy
  | countedSetPercent | vocoderBandcount | distortionWaveshape | flangerPitch | flangerMode | flangerVoices | unknown
  deriving DecidableEq, Repr

end Verif.Param
