import Verif.Rust
import Verif.Hound.PropsA
import Verif.Hound.PropsB
import Verif.Hound.PropsC
import Verif.Hound.PropsD
import Verif.Hound.PropsE
import Verif.Float.Round
import Verif.Float.F32
import Verif.StepSeq.PropsMute
import Verif.StepSeq.PropsNext
import Verif.StepSeq.PropsSwing
import Verif.StepSeq.PropsPersist
import Verif.Tuning.PropsRetune
import Verif.Tuning.PropsLookup
import Verif.Tuning.PropsParse
import Verif.Tuning.PropsHistory
import Verif.Midi.Props
import Verif.Midi.PropsB
import Verif.Scene.Props
import Verif.Smooth.Lag
import Verif.Smooth.LagF32
import Verif.Smooth.Controller
import Verif.Smooth.Lipol
import Verif.Fx.Ringout
import Verif.Fx.Chain
import Verif.Fx.ChainProps
import Verif.Dsp.Blocks
import Verif.Dsp.Clip
import Verif.Dsp.Absmax
import Verif.Param.ParamArray
import Verif.Param.CType
import Verif.Param.Model
import Verif.Param.Table
import Verif.Param.Props
import Verif.Param.TableProps
import Verif.Param.More
import Verif.Adsr.Model
import Verif.Adsr.Level
import Verif.Adsr.Props
import Verif.Adsr.Claims
import Verif.Lfo.Steps
import Verif.Tables.Claims
import Verif.Tables.Sinc
import Verif.Wavetable.Model
import Verif.Wavetable.Sizes
import Verif.Wavetable.Mip
import Verif.Wavetable.Claims
import Verif.Wavetable.Load
import Verif.Delay.Model
import Verif.Delay.Props
import Verif.Delay.Claims
import Verif.Delay.Flanger
import Verif.Delay.FlangerProps
import Verif.Delay.FlangerClaims
import Verif.Adsr.Digital
import Verif.Delay.Reverb
import Verif.Delay.ReverbEnergy
import Verif.Delay.ReverbClaims
import Verif.Delay.ReverbAutomation
import Verif.Biquad.Model
import Verif.Biquad.Diff
import Verif.Biquad.Stable
import Verif.Biquad.Claims
import Verif.Biquad.Designs
import Verif.Filters.Model
import Verif.Filters.Iir
import Verif.Filters.Maker
import Verif.Filters.Bounded
import Verif.Filters.Design
import Verif.Filters.Linear
import Verif.Filters.Svf
import Verif.Filters.Ladder
import Verif.Filters.Nonlinear
import Verif.Filters.NonlinearClaims
import Verif.Filters.RungeKutta
import Verif.Halfrate.Model
import Verif.Halfrate.Cascade
import Verif.Halfrate.Blocks
import Verif.Halfrate.Claims
import Verif.Halfrate.Energy
import Verif.Halfrate.Response
import Verif.Halfrate.Poly
import Verif.Halfrate.Rejection
import Verif.Halfrate.Resample
import Verif.Units.QuadrOsc
import Verif.Units.Unison
import Verif.Units.Clocks
import Verif.Units.Input
import Verif.Units.Shapers
import Verif.Dynamics.Model
import Verif.Dynamics.Claims
import Verif.Chain.Model
import Verif.Chain.Spec
import Verif.Chain.Lanes
import Verif.Chain.Voice
import Verif.Chain.Claims
import Verif.Voice.Glide
import Verif.Voice.Absolute
import Verif.Voice.Mix
import Verif.Voice.MixClaims
import Verif.Voice.Control
import Verif.Vocoder.Model
import Verif.Vocoder.Claims
import Verif.Vocoder.Run
import Verif.Dsp.Fast
import Verif.Biquad.Peak
import Verif.Effects.RingMod
import Verif.Effects.Phaser
import Verif.Effects.Distortion
import Verif.Effects.Allpass
import Verif.Osc.Fm
import Verif.Osc.FmDriven
import Verif.Osc.Blit
import Verif.Osc.Super
import Verif.Osc.Wt
import Verif.Osc.Snh
import Verif.Osc.Window
import Verif.Synth.Output
import Verif.Synth.Input
import Verif.Synth.Patch
import Verif.Synth.Plugin
import Verif.Biquad.Glide
import Verif.Biquad.Rounded
import Verif.Effects.Eq
import Verif.Effects.FreqShift
import Verif.Effects.FreqShiftClaims
import Verif.Filters.Obxd
import Verif.Filters.Obxd4
import Verif.Filters.Diode
import Verif.Filters.Huovilainen
import Verif.Filters.Comb
import Verif.Osc.WtShape
import Verif.Effects.DualDelay
import Verif.Effects.DualDelayClaims
import Verif.Effects.Rotary
import Verif.Effects.RotaryClaims
import Verif.Effects.Chorus
import Verif.Effects.ChorusClaims
import Verif.Dsp.Noise
import Verif.Dsp.Util
import Verif.Scene.Single
import Verif.Scene.Modulation
import Verif.Osc.Pan
import Verif.Synth.Render
import Verif.Voice.Sources
import Verif.Chain.Handover
import Verif.Tables.Curves
import Verif.Filters.K35
import Verif.Effects.TankNet
import Verif.Voice.Pitch
import Verif.Scene.PatchName
import Verif.Filters.Wdf
import Verif.Filters.Smooth
import Verif.Cases.Biquad
import Verif.Cases.Chain
import Verif.Cases.Delay
import Verif.Cases.Effects
import Verif.Cases.Filters
import Verif.Biquad.RoundedGlide
import Verif.Biquad.Lp2b
import Verif.Osc.Heights
import Verif.Vocoder.Automation
import Verif.Filters.SvfResonant
import Verif.Filters.SvfFour
import Verif.Chain.RealFilters
import Verif.Delay.FlangerTap
import Verif.Effects.DistGlide
import Verif.Effects.PhaserGlide
import Verif.Effects.EqGlide
import Verif.Filters.K35Blend
import Verif.Tuning.BuiltinData
import Verif.Tuning.Builtin
import Verif.Dsp.Power
import Verif.Wavetable.SineData
import Verif.Wavetable.Sine
import Verif.Synth.Valid
