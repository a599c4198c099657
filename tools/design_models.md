| Biquad/Model.lean | surge-biquad (processing functions, set_coef, all designs except the peak EQ, plot_magnitude), surge-lag vlag.rs, surge-math flops.rs | exact real arithmetic; C94-C99 |
| Filters/Model.lean | surgefilter-iir, surgefilter-svf, surgefilter-snh, surgefilter-moog (processing and coefficient making), surge-coeffmaker, surge-tuning note_to_omega, the block hand-over of surge-voice | one SIMD lane, exact real arithmetic; C100-C107 |
| Halfrate/Model.lean | surge-halfrate (new, default, reset, coefficient tables, process_block, up- and down-sampling with their SIMD shuffles) | coefficients as f32, signal path in exact real arithmetic; C108-C112 |
| Units/QuadrOsc.lean | surge-quadrosc | exact reals; C113 |
| Units/Unison.lean | surge-blitter prepare_unison | exact reals; C114 |
| Units/Clocks.lean | surge-samplerate, surge-timeunit | any rounding; C115, C116 |
| Units/Input.lean | surge-input, surge-output (pointers as offsets), do_process_inputs | memory as functions; C117 |
| Units/Shapers.lean | surgeshaper-clip, -tanh, -digi, -sine, -asym | one lane, exact reals, reciprocal within its error; C118, C119 |
| Dynamics/Model.lean, Claims.lean | surgefx-conditioner: lookahead.rs, block.rs, init.rs, cfg.rs rates | exact reals, any reciprocal; C120–C122 |
| Chain/Model.lean, Spec.lean, Lanes.lean, Claims.lean | surge-qfunit: do_serial1-3, do_dual1-2, do_stereo, do_ring, do_wide, get_fn_process_quad, write_outputs | exact reals; filters and shapers arbitrary lane-wise functions; C123, C125, C126 |
| Chain/Voice.lean | surge-voice: set_qfb.rs, calc_pan.rs (levels), process.rs 94-107 | filter registers and coefficients not carried; C124, C127 |
| Voice/Glide.lean | surge-voice: portamento.rs, state.rs, init_portasrc.rs; surge-math interp.rs lerp | exact reals; C128 |
| Voice/Absolute.lean | surge-voice: note_shift.rs | exact reals, any rising table; C129 |
| Voice/Mix.lean, MixClaims.lean | surge-voice: process.rs, do_osc.rs, do_ring.rs, do_noise.rs, toggle_solo.rs, calc_route.rs | exact reals, oscillators arbitrary state machines; C130, C131 |
| Voice/Control.lean | surge-voice: calc_pan.rs, calc_pitch.rs, calc_keytrack.rs, toggle.rs, toggle_filter.rs, get.rs, process.rs 112-119, calc_modsources.rs, init_modsource.rs; surge-math pan.rs, convert.rs | exact reals; C132–C136 |
| Vocoder/{Model,Claims,Run}.lean | surge-svf: svf.rs; surgefx-vocoder: update.rs, block.rs, cfg.rs; surge-math square.rs v_sqrt_fast (as any root within a relative error) | exact reals; the gain ramp of the modulator input not carried; C137–C140 |
| Dsp/Fast.lean | surge-math/src/fast.rs: fastsin, fastcos, clamp_to_pi_range, fasttanh (and its vector forms), fasttan, fastexp | exact reals, no f32 rounding; C141–C143 |
| Biquad/Peak.lean | surge-biquad/src/coeff_peak_eq.rs | exact reals; C147 |
| Effects/RingMod.lean | surgefx-ringmod: diode_sim.rs, process.rs, update.rs (unison); surgeosc-sine compute.rs value_from_sin_and_cos | exact reals; without the oversampling and cut filters; C144–C146 |
| Effects/Phaser.lean | surgefx-phaser: block.rs, update.rs, process.rs, init.rs, constants.rs | exact reals; the tuning as a function; C148, C149 |
| Effects/Distortion.lean | surgefx-distortion: block.rs, process.rs, update.rs, init.rs | exact reals; the wave shape as any function; C150, C151 |
| `Effects/Allpass` | surgefx-allpass/src/{allpass,delay,predelay,one_pole_filter,block,calc_size}.rs, process.rs 33, surge-samplerate/src/handle.rs 50-62 | reverb2: pre-delay, diffusers, delay lines, damping, tank, lengths; exact real arithmetic. Not modelled: the LFO, the smoothing of the coefficients (they are arbitrary per sample), width and mix (see C53, C58), ringout |
| Osc/Fm.lean | surgeosc-fm, -fm2, -sine, -audioin: process_block, init, assign_fm | exact reals; drift and unison of the sine not carried (unison count 1); a null read is a panic; C156–C160 |
| Osc/Blit.lean | surge-blitter/src/{blitter,init}.rs, surgeosc-super/src/convolute/{mono,stereo,convolute}.rs, process/{process,block,handle_wrap}.rs | ring buffer of the band-limited impulses, wrap, integrators; exact reals; any kernel table; C161 |
| Osc/Super.lean | surgeosc-super/src/convolute/{convolute,get_g,get_t}.rs, process/{process,no_fm}.rs, set_pitch.rs | the unison voices' impulse cycle, sync, block filling; exact reals; drift as a given detune; C162–C164 |
| Osc/Wt.lean | surgeosc-wavetable/src/{convolute/{convolute,blitstate_zero,get},process/{nofm,update_tables},set_pitch,update,new}.rs | wavetable oscillator: cycle, skew, formant, mip level, morph, one-shot samples; exact reals; the kernel (loaded from a temporary, undefined) and fm not modelled; C165–C170 |
| Osc/Snh.lean | surgeosc-snh/src/{convolute,process,set_pitch,update}.rs | sample-and-hold oscillator: cycle, levels, correlation, sync, detune; exact reals; the kernel and fm not modelled; C171–C174 |
| Osc/Window.lean | surgeosc-window/src/{init,access,formant,subosc,process_block,process}.rs, surge-math/src/{mul,scan,limit_range}.rs | phase, latching, positions, levels, addresses, conversion loop; machine integers; the ratio and formant factor as given integers; fm, drift and sample values not modelled; C175–C182 |
| `Synth/Output` | surge-synthesizer/src/synth/process.rs 319-327, 378-388, 461-487; surge-output/src/handle.rs; surge-math ord.rs minf, maxf | the output stage on f32 bit patterns: meters, final clip, halt. What is in the buffer before is arbitrary |
| `Synth/Input` | surge-input/src/handle.rs; process.rs 329-375; surge-math/src/clear.rs (alignment checks); surgeosc-audioin/src/process.rs | addresses and layout of the input arrays; the rest of the block arbitrary; the oscillator in exact arithmetic |
| `Synth/Patch` | patchunit.rs, midi.rs 117-124, process_control.rs 5-34, fx.rs 52-82 | f32 arithmetic of the fade; effects arbitrary |
| `Synth/Plugin` | surge-synthesizer/src/vst_host.rs, freq.rs | exact real arithmetic |
| `Biquad/Glide` | surge-biquad (as `Biquad/Model`) | the recursion while its coefficients approach a design; exact real arithmetic |
| `Biquad/Rounded` | surge-biquad `process_sample*` and the flushes of the block functions | a channel with a rounding after each of its nine operations, coefficients that wander around a stable design, flushes at any sample; explicit bound |
| `Effects/Eq` | surgefx-eq3band/src/{eq3band,init,process,update}.rs | all of it but `reset` (`todo!()`); exact real arithmetic; `calc_omega` abstracted to the angular frequency |
| `Effects/FreqShift`, `FreqShiftClaims` | surgefx-freqshift/src/{freq_shift,init,update,pre_block,post_block,process}.rs, surge-quadrosc/src/lib.rs | all but the ring-out time; exact real arithmetic; wave shaper and interpolation kernel are any functions, parameter conversions abstracted to their results; the half-band filters are those of `Halfrate` |
| Osc/FmDriven.lean | surgeosc-fm, surgeosc-sine with a modulator buffer | C200: formulas with the public `master_osc` field set |
| `Filters/Nonlinear`, `NonlinearClaims` | surgefilter-nlstates/src, surgefilter-nlfeedback/src | C201–C205: both `process_quad` and both `coeff_make`; one lane, exact real arithmetic; unaligned `_mm_load_ps` not modelled |
| `Filters/RungeKutta` | surgefilter-rungekutta (whole crate, one lane) | the clip, the derivatives, the four steps per sample, the output window, the coefficients; exact arithmetic |
| `Filters/Obxd`, `Obxd4` | surgefilter-obxd/src/{obxd,process_2pole,process_4pole,coeff}.rs | C208–C211: both public processing functions (`process_quad` is `todo!()`); one lane in use, exact real arithmetic; the pitch table of `coeff_make` replaced by its result |
| `Filters/Diode` | surgefilter-diode (whole crate, one lane) | C212–C214: both section functions, `process_quad`, `coeff_make`; exact real arithmetic, `_mm_rcp_ps` taken as the exact reciprocal, the pitch table replaced by its result |
| `Filters/Huovilainen` | surgefilter-huovilainen (whole crate, one lane) | C215, C216: `process_quad`, `coeff_make`; exact real arithmetic, the pitch table replaced by its result |
| `Filters/Comb` | surgefilter-comb/src/{comb,coeff,process_sse2}.rs, surge-math/src/align.rs `simd_extract` | C217, C218: the x86-64 `process_quad` of all four lanes, `coeff_make`; exact real arithmetic, any rounding to nearest, any interpolation kernel |
| `Osc/WtShape` | surgeosc-wavetable/src/update.rs | C219: `distort_level` and the ranges `update_lagvals` gives its two controls |
| `Effects/{DualDelay,DualDelayClaims}` | surgefx-dualdelay (whole crate, without the ring-out length), surge-traits/src/ringout.rs | C220-C224: `new`, `init`, `update`, `maybe_instantize_all`, `do_dualdelay_block`, `dualdelay_set_buffer`, `stereo_process` with its two biquads, `process_only_control`; exact real arithmetic, parameters as `update` converts them, any kernel |
| `Effects/{Rotary,RotaryClaims}` | surgefx-rotary (whole crate, without the ring-out counter and the unused `drive`), surge-quadrosc | C225-C231: `new`, `init`, `suspend`, `set_lfos`, pre-, main and post-block, `stereo_process`, `process_only_control` |
| `Effects/{Chorus,ChorusClaims}` | surgefx-chorus (whole crate, without parameter conversion), surge-traits/src/ringout.rs | C232-C235: `new`, `init`, `initial_update`, `update`, `do_chorus_block`, `chorus_set_buffer`, `stereo_process`, the slot in the chain; real arithmetic |
| `Dsp/Noise` | surge-math/src/correlated_noise.rs, surge-voice/src/do_noise.rs, the oscillators' calls of `drift_noise` | C236, C237: real arithmetic, any draws within ±1, the reciprocal root up to a relative error |
| `Dsp/Util` | surge-math/src/{allpass,interp,window,convert,utility,value_cast}.rs | C238-C243: real arithmetic; bit vectors for the byte order |
| `Scene/Single` | surge-scene/src/scene/{play,play_voice,play_voice_portamento,play_voice_mono,release,release_single_triggered,create}.rs, surge-mpe | C244-C246: note on and off in the single-trigger modes, histories; without the scene LFOs, release velocity, hold pedal |
| `Scene/Modulation` | surge-scene/src/scene/{apply_modulation,set,modsource}.rs, surge-param/src/{parameter,get_value,pval,pdata}.rs | C247-C249: routing, enabling of sources, `set_parameter01`, solo buttons, the filter offset switch; real arithmetic |
| `Osc/Pan` | surgeosc-snh/src/convolute.rs, surgeosc-wavetable/src/convolute/convolute.rs | C250, C172: stereo weights of each impulse, correlated random levels; real arithmetic |
| `Synth/Render` | surge-synthesizer/src/synth/process.rs 412-458, surge-scene/src/scene/process.rs | C251-C254: one block of the engine and its scenes; voices, quad filter chain and half-rate filters are parameters of the model |
| `Voice/Sources` | surge-voice/src/{toggle_osc,toggle,init,create,drop,calc_levels,calc_envelope,calc_lfo,init_modsource,calc_modsources,calc_poly_aftertouch,release}.rs | C255-C258: oscillators as kind/initialised/pitch; levels and controllers in real arithmetic; LFO 1 and the envelopes in f32 |
| `Chain/Handover` | surge-voice/src/{set_qfb,sync_from_qfb,process,filter}.rs, surge-scene/src/scene/process.rs 211-222, 286-320 | registers, coefficients and delay lines of the filters between voice and quad (C259) |
| `Tables/Curves` | surge-tables/src/waveshape.rs | the tanh and sine tables against their curves (C260) |
| `Filters/K35` | surgefilter-k35/src/{k35,coeff,lowpass,highpass}.rs | one lane: coefficients, loop solution, settling, saturation bounds (C261, C262) |
| `Effects/TankNet` | surgefx-allpass/src/{block,process,one_pole_filter}.rs | the tank as a network of past samples (C263) |
| `Voice/Pitch` | surge-voice/src/{gen_runtime,runtime}.rs, do_osc.rs 15-36, surge-scene/src/scene/process.rs 5-35, 117-165 | notes, drift, FM depth, noise colour each oscillator is told (C264) |
| `Scene/PatchName` | surge-scene/src/patch/datum.rs 84-88 | the regular expression for patch names (C265) |
| `Filters/Wdf` | surgefilter-iir/src/quad_iir_12_WDF.rs | the wave digital section (C266) |
| `Filters/Smooth` | `surgefilter-iir/src/quad_iir_{12,24}_B.rs` over lives of blocks | the normalised lattice under modulation (C101) |
| `Param/ParamArray` | surge-derive/src/synth_parameters.rs | the array types generated for parameter enums: numbering, construction, indexing, enumeration, map, contains, equality (C267). Drop, Hash, Debug and Ord of the arrays are not modelled; `MaybeUninit` is not modelled (every slot is written before it is read) |
| `Delay/ReverbAutomation` | surgefx-reverb | the reverb of `Delay/Reverb` with decay time, predelay and pan changed at every sample (C91) |
| `Cases/*` | — | concrete cases that meet the hypotheses of theorems whose modules do not show one |
| `Biquad/RoundedGlide` | surge-lag/src/vlag.rs `process`, surge-biquad `coeff_process` and the sample functions, all rounded | bounded output in floating point while the coefficients glide to a new design (C96). The constants 0.004 and 0.996 are exact |
| `Biquad/Lp2b` | surge-biquad/src/coeff_lp2b.rs | gains of the second low pass at DC, cutoff and Nyquist (C97) |
| `Osc/Heights.lean` | the same code as `Osc/Super.lean`, `Osc/Wt.lean`, `Osc/Snh.lean` | the impulses handed to the buffer are the jumps of the wave; slope corrections add up; the recursion of the held level (C163, C166, C171, C172) |
| `Vocoder/Automation.lean` | the same code as `Vocoder/Run.lean` | rate and gate changing during the run: output formula, linearity, bound, silence (C140) |
| `Filters/SvfResonant.lean` | surgefilter-svf: `svf.rs`, `quad_svf_{lp,bp,hp}12_a.rs` | C105 with negative damping: the clip gain keeps the two-pole filter bounded |
| `Filters/SvfFour.lean` | surgefilter-svf: `quad_svf_{lp,bp,hp}24_a.rs` | C105 with negative damping, four poles: observability through the clipped band, return to calm within six samples |
| `Chain/RealFilters.lean` | surge-filter chains with `surgefilter-{svf,moog,snh,iir}` in them | C125 for the filters of the code at every held setting, self-oscillation included |
| `Delay/FlangerTap.lean` | surge-fx `flanger` comb tap positions, the same code as `Delay/Flanger.lean` | each comb reads base·(1+l·d)+1 samples back, within 1/128 (C90) |
| `Effects/DistGlide.lean` | the same code as `Effects/Distortion*.lean` | C151 after any past with automation, once the settings behind the shaper stay |
| `Effects/PhaserGlide.lean` | the same code as `Effects/Phaser*.lean` | C148 bound after any past, moving sweeps included, once the sweep is off |
| `Effects/EqGlide.lean` | the same code as `Effects/Eq.lean` | C195 after any automation of the bands, output gain still moving |
| `Filters/K35Blend.lean` | surgefilter-k35: the same code as `Filters/K35.lean` | C262 at every drive: the saturated share is a bounded disturbance of a stable loop |
| `Tuning/BuiltinData.lean` | surge-tuning: `ed2.rs` … `sd4.rs`, all constants (generated by `tools/gen_scales.py`) | the 143 shipped scale texts as data |
| `Tuning/Builtin.lean` | surge-tuning: the shipped scales, `scale_432` | an independent reader of the Scala format; every key of every shipped scale (C268) |
| `Dsp/Power.lean` | surge-math/src/white_noise.rs: `Signal::average_power_{time,freq}_domain` | C269, exact reals; the packed real transform of the external crate `dft` as documented |
| `Wavetable/SineData.lean`, `Wavetable/Sine.lean` | surge-wavetable/src/initial.rs: `BASIC_SINE_WAVE` | C270: the bytes as data (generated by `tools/gen_sinewave.py`), read by an independent reader, against the real sine |
| `Synth/Valid.lean` | surge-synthesizer: `modunit_query.rs`; surge-modulation: `source.rs`; surge-param: `control_group.rs` | C271, over the parameter table |
