# Formal model of klebs6/surge-rs in Lean 4 — design

This file says what is trusted, what is modelled and how, and, per property, what is proved, what is refuted and what is missing.
The per-property table at the end is generated by `tools/design.py` from `tools/props.py` (the property texts) and
`tools/status.json` (status and note, also the source of `MANIFEST.json`).

## Trusted base

* Lean 4.33.0's kernel. No axioms are added. `#print axioms` over every theorem in `MANIFEST.json` gives only subsets of
  `propext`, `Classical.choice`, `Quot.sound` (per-theorem list: `python3 tools/axioms.py`). `decide +kernel` is evaluated by the kernel; no
  compiled code is trusted.
* The reading of the Rust source: the code is never run here. Every model definition cites the file and lines it models and says where
  it simplifies.
* Rust semantics assumed: debug-profile arithmetic (integer overflow, shift overflow, division by zero, out-of-range indexing, `unwrap` of
  `None`/`Err`, `todo!()`, `unreachable!()` are panics — an explicit `panic` outcome of `Res` in `Verif/Rust.lean`). Where a release build differs and
  it matters (reverb predelay), the build mode is a parameter of the model.
* Floating point, three levels, stated per model:
  1. *Bit patterns / values only moved*: WAV samples, delay line contents, effect chain routing (an arbitrary type, or arbitrary `Add`/`Mul`/`Sub`).
  2. *Exact binary32*: `Verif/Float/` models `f32` as NaN, ±infinity or a rational, with round-to-nearest-even to 24 bits, gradual underflow and overflow to
     infinity (`rne`, `F32.ofQ`); `+ - *` and division round the exact result once. Simplification: one zero (the sign of zero is not modelled) and one NaN.
     Comparison, `as` casts (truncation, saturation), `_mm_min_ss`/`_mm_max_ss` (second operand on NaN) are modelled. Used by: step sequencer, tuning lookup,
     lag, parameters, ADSR, LFO, tables, delay, chorus, flanger, limiters. f64 is not modelled (reals instead).
  3. *Exact real/rational arithmetic*: interpolators, effect mixing, mid/side, soft clippers, reverb energy, biquads, tuning tables — rounding is outside, and the note
     in the table says so.
  Library functions (`exp2`, `log2`, `sqrt`, `sin`, `powf`) are parameters of the model (arbitrary functions) with any needed bound a visible hypothesis, or the real function.
* `F32Text` (step sequencer save/load, C22): Rust's documented guarantee that `f32`'s `Display` output parses back to the same value is a structure passed as
  hypothesis; integer formatting and parsing are modelled outright.
* Streams: `io::Read + io::Write + io::Seek` is an in-memory cursor (contents and position, never failing on write, failing on short read). Short reads are modelled
  separately by an explicit schedule (C14). OS level failures (disk full, partial `write_all`) are outside, except that C06 covers arbitrary bytes following the
  flushed prefix.
* SIMD intrinsics are modelled lane by lane; pointers into arrays are modelled as indices with a bounds check (an out-of-bounds pointer access, which is undefined behaviour
  in Rust, is a `panic` outcome or an explicit "touches index" statement). Alignment is not modelled.
* Random numbers, the table contents, tempo and song position are parameters: theorems quantify over every outcome.

## Method

A Rust function taking `&mut self` becomes a function returning the new state; `Result` and panics are data (`Res ε α = ok a | err e | panic why`). Loops become
structural recursion or a fold; a loop whose termination is in question takes fuel and the theorem shows that enough fuel exists (or that no amount is enough, C70).
Histories are lists of operations; properties over histories are invariants proved by induction on the list. Specifications (`namespace Spec` next to the theorem, or
`Spec.lean`) are written from the English property, not from the code. Where the property is false of the code, the negation is proved on a witness or, better, for every
member of a class of witnesses; the part that holds is proved under the suffix `_partial`.

Wrong programs: `tools/mutate.py` edits one definition of the model in a scratch copy, rebuilds, and records in `seeded/LOG.jsonl` which property theorems fail. Survivors led to
tightened theorems (field `tightened`).

## What is modelled

| Lean | Rust | covers |
|------|------|--------|
| `Rust.lean` | — | outcomes and checked integer arithmetic |
| `Float/*` | — | binary32 |
| `Hound/*` | `surge-hound` (read.rs, write.rs, lib.rs) | whole WAV reader and writer, byte for byte |
| `StepSeq/*` | `surge-stepseq` | mask, position, save/load text, swing and mutation, stores |
| `Tuning/*` | `surge-tuning` | scale/keyboard text parsers, table construction, lookups, state |
| `Midi/*` | `surge-midi`, `surge-synthesizer` (midi, controllers, hold, bend, learn) | message dispatch, RPN, hold pedal, bank/program, scene routing |
| `Scene/*` | `surge-scene` | polyphony limit, voice stealing, release, mono fallback (voices abstract) |
| `Smooth/*` | `surge-lag`, `surge-modulation` (controller), `surge-lipol` | one-pole, controller, scalar and block interpolators |
| `Fx/*` | `surgefx`, `surge-synthesizer` (fx chain) | effect slots, bypass modes, sends, ring-out |
| `Dsp/*` | `surge-math` | block functions, mid/side, meters, clippers and limiters |
| `Param/*` | `surge-param`, `surge-types`, every `*/param.rs` | parameter conversion, all 271 parameters' limits, modulation, morphing, note names, tempo sync |
| `Adsr/*` | `surge-adsr` | analog envelope, digital stages |
| `Lfo/*` | `surge-lfo` | phase, envelope, shapes, step sequence |
| `Tables/*` | `surge-tables` | lookups, shapers, gain table, sinc kernels |
| `Wavetable/*` | `surge-wavetable` | layout, mip levels, construction, loading from WAV |
| `Delay/*` | `surgefx-dualdelay`, `surgefx-chorus`, `surgefx-flanger`, `surgefx-reverb` | delay lines, flanger loop and modulators, reverb network |
| Biquad/Model.lean | surge-biquad (processing functions, set_coef, all designs except the peak EQ, plot_magnitude), surge-lag vlag.rs, surge-math flops.rs | exact real arithmetic; C94-C99 |
| Filters/Model.lean | surgefilter-iir, surgefilter-svf, surgefilter-snh, surgefilter-moog (processing and coefficient making), surge-coeffmaker, surge-tuning note_to_omega, the block hand-over of surge-voice | one SIMD lane, exact real arithmetic; C100-C107 |
| Halfrate/Model.lean | surge-halfrate (new, default, reset, coefficient tables, process_block, up- and down-sampling with their SIMD shuffles) | coefficients as f32, signal path in exact real arithmetic; C108-C112 |
| Units/QuadrOsc.lean | surge-quadrosc | exact reals; C113 |
| Units/Unison.lean | surge-blitter prepare_unison | exact reals; C114 |
| Units/Clocks.lean | surge-samplerate, surge-timeunit | any rounding; C115, C116 |
| Units/Input.lean | surge-input, surge-output (pointers as offsets), do_process_inputs | memory as functions; C117 |
| Units/Shapers.lean | surgeshaper-clip, -tanh, -digi, -sine, -asym | one lane, exact reals, reciprocal within its error; C118, C119 |
| Dynamics/Model.lean, Claims.lean | surgefx-conditioner: lookahead.rs, block.rs, init.rs, cfg.rs rates | exact reals, any reciprocal; C120–C122 |
| Chain/Model.lean, Spec.lean, Lanes.lean, Claims.lean | surge-qfunit: do_serial1-3, do_dual1-2, do_stereo, do_ring, do_wide, get_fn_process_quad, write_outputs | exact reals; filters and shapers arbitrary lane-wise functions; C123, C125, C126 |
| Chain/Voice.lean | surge-voice: set_qfb.rs, calc_pan.rs (levels), process.rs 94-107 | filter registers and coefficients not carried; C124, C127 |
| Voice/Glide.lean | surge-voice: portamento.rs, state.rs, init_portasrc.rs; surge-math interp.rs lerp | exact reals; C128 |
| Voice/Absolute.lean | surge-voice: note_shift.rs | exact reals, any rising table; C129 |
| Voice/Mix.lean, MixClaims.lean | surge-voice: process.rs, do_osc.rs, do_ring.rs, do_noise.rs, toggle_solo.rs, calc_route.rs | exact reals, oscillators arbitrary state machines; C130, C131 |
| Voice/Control.lean | surge-voice: calc_pan.rs, calc_pitch.rs, calc_keytrack.rs, toggle.rs, toggle_filter.rs, get.rs, process.rs 112-119, calc_modsources.rs, init_modsource.rs; surge-math pan.rs, convert.rs | exact reals; C132–C136 |
| Vocoder/{Model,Claims,Run}.lean | surge-svf: svf.rs; surgefx-vocoder: update.rs, block.rs, cfg.rs; surge-math square.rs v_sqrt_fast (as any root within a relative error) | exact reals; the gain ramp of the modulator input not carried; C137–C140 |
| Dsp/Fast.lean | surge-math/src/fast.rs: fastsin, fastcos, clamp_to_pi_range, fasttanh (and its vector forms), fasttan, fastexp | exact reals, no f32 rounding; C141–C143 |
| Biquad/Peak.lean | surge-biquad/src/coeff_peak_eq.rs | exact reals; C147 |
| Effects/RingMod.lean | surgefx-ringmod: diode_sim.rs, process.rs, update.rs (unison); surgeosc-sine compute.rs value_from_sin_and_cos | exact reals; without the oversampling and cut filters; C144–C146 |
| Effects/Phaser.lean | surgefx-phaser: block.rs, update.rs, process.rs, init.rs, constants.rs | exact reals; the tuning as a function; C148, C149 |
| Effects/Distortion.lean | surgefx-distortion: block.rs, process.rs, update.rs, init.rs | exact reals; the wave shape as any function; C150, C151 |
| `Effects/Allpass` | surgefx-allpass/src/{allpass,delay,predelay,one_pole_filter,block,calc_size}.rs, process.rs 33, surge-samplerate/src/handle.rs 50-62 | reverb2: pre-delay, diffusers, delay lines, damping, tank, lengths; exact real arithmetic. Not modelled: the LFO, the smoothing of the coefficients (they are arbitrary per sample), width and mix (see C53, C58), ringout |
| Osc/Fm.lean | surgeosc-fm, -fm2, -sine, -audioin: process_block, init, assign_fm | exact reals; drift and unison of the sine not carried (unison count 1); a null read is a panic; C156–C160 |
| Osc/Blit.lean | surge-blitter/src/{blitter,init}.rs, surgeosc-super/src/convolute/{mono,stereo,convolute}.rs, process/{process,block,handle_wrap}.rs | ring buffer of the band-limited impulses, wrap, integrators; exact reals; any kernel table; C161 |
| Osc/Super.lean | surgeosc-super/src/convolute/{convolute,get_g,get_t}.rs, process/{process,no_fm}.rs, set_pitch.rs | the unison voices' impulse cycle, sync, block filling; exact reals; drift as a given detune; C162–C164 |
| Osc/Wt.lean | surgeosc-wavetable/src/{convolute/{convolute,blitstate_zero,get},process/{nofm,update_tables},set_pitch,update,new}.rs | wavetable oscillator: cycle, skew, formant, mip level, morph, one-shot samples; exact reals; the kernel (loaded from a temporary, undefined) and fm not modelled; C165–C170 |
| Osc/Snh.lean | surgeosc-snh/src/{convolute,process,set_pitch,update}.rs | sample-and-hold oscillator: cycle, levels, correlation, sync, detune; exact reals; the kernel and fm not modelled; C171–C174 |
| Osc/Window.lean | surgeosc-window/src/{init,access,formant,subosc,process_block,process}.rs, surge-math/src/{mul,scan,limit_range}.rs | phase, latching, positions, levels, addresses, conversion loop; machine integers; the ratio and formant factor as given integers; fm, drift and sample values not modelled; C175–C182 |
| `Synth/Output` | surge-synthesizer/src/synth/process.rs 319-327, 378-388, 461-487; surge-output/src/handle.rs; surge-math ord.rs minf, maxf | the output stage on f32 bit patterns: meters, final clip, halt. What is in the buffer before is arbitrary |
| `Synth/Input` | surge-input/src/handle.rs; process.rs 329-375; surge-math/src/clear.rs (alignment checks); surgeosc-audioin/src/process.rs | addresses and layout of the input arrays; the rest of the block arbitrary; the oscillator in exact arithmetic |
| `Synth/Patch` | patchunit.rs, midi.rs 117-124, process_control.rs 5-34, fx.rs 52-82 | f32 arithmetic of the fade; effects arbitrary |
| `Synth/Plugin` | surge-synthesizer/src/vst_host.rs, freq.rs | exact real arithmetic |
| `Biquad/Glide` | surge-biquad (as `Biquad/Model`) | the recursion while its coefficients approach a design; exact real arithmetic |
| `Biquad/Rounded` | surge-biquad `process_sample*` and the flushes of the block functions | a channel with a rounding after each of its nine operations, coefficients that wander around a stable design, flushes at any sample; explicit bound |
| `Effects/Eq` | surgefx-eq3band/src/{eq3band,init,process,update}.rs | all of it but `reset` (`todo!()`); exact real arithmetic; `calc_omega` abstracted to the angular frequency |
| `Effects/FreqShift`, `FreqShiftClaims` | surgefx-freqshift/src/{freq_shift,init,update,pre_block,post_block,process}.rs, surge-quadrosc/src/lib.rs | all but the ring-out time; exact real arithmetic; wave shaper and interpolation kernel are any functions, parameter conversions abstracted to their results; the half-band filters are those of `Halfrate` |
| Osc/FmDriven.lean | surgeosc-fm, surgeosc-sine with a modulator buffer | C200: formulas with the public `master_osc` field set |
| `Filters/Nonlinear`, `NonlinearClaims` | surgefilter-nlstates/src, surgefilter-nlfeedback/src | C201–C205: both `process_quad` and both `coeff_make`; one lane, exact real arithmetic; unaligned `_mm_load_ps` not modelled |
| `Filters/RungeKutta` | surgefilter-rungekutta (whole crate, one lane) | the clip, the derivatives, the four steps per sample, the output window, the coefficients; exact arithmetic |
| `Filters/Obxd`, `Obxd4` | surgefilter-obxd/src/{obxd,process_2pole,process_4pole,coeff}.rs | C208–C211: both public processing functions (`process_quad` is `todo!()`); one lane in use, exact real arithmetic; the pitch table of `coeff_make` replaced by its result |
| `Filters/Diode` | surgefilter-diode (whole crate, one lane) | C212–C214: both section functions, `process_quad`, `coeff_make`; exact real arithmetic, `_mm_rcp_ps` taken as the exact reciprocal, the pitch table replaced by its result |
| `Filters/Huovilainen` | surgefilter-huovilainen (whole crate, one lane) | C215, C216: `process_quad`, `coeff_make`; exact real arithmetic, the pitch table replaced by its result |
| `Filters/Comb` | surgefilter-comb/src/{comb,coeff,process_sse2}.rs, surge-math/src/align.rs `simd_extract` | C217, C218: the x86-64 `process_quad` of all four lanes, `coeff_make`; exact real arithmetic, any rounding to nearest, any interpolation kernel |
| `Osc/WtShape` | surgeosc-wavetable/src/update.rs | C219: `distort_level` and the ranges `update_lagvals` gives its two controls |
| `Effects/{DualDelay,DualDelayClaims}` | surgefx-dualdelay (whole crate, without the ring-out length), surge-traits/src/ringout.rs | C220-C224: `new`, `init`, `update`, `maybe_instantize_all`, `do_dualdelay_block`, `dualdelay_set_buffer`, `stereo_process` with its two biquads, `process_only_control`; exact real arithmetic, parameters as `update` converts them, any kernel |
| `Effects/{Rotary,RotaryClaims}` | surgefx-rotary (whole crate, without the ring-out counter and the unused `drive`), surge-quadrosc | C225-C231: `new`, `init`, `suspend`, `set_lfos`, pre-, main and post-block, `stereo_process`, `process_only_control` |
| `Effects/{Chorus,ChorusClaims}` | surgefx-chorus (whole crate, without parameter conversion), surge-traits/src/ringout.rs | C232-C235: `new`, `init`, `initial_update`, `update`, `do_chorus_block`, `chorus_set_buffer`, `stereo_process`, the slot in the chain; real arithmetic |
| `Dsp/Noise` | surge-math/src/correlated_noise.rs, surge-voice/src/do_noise.rs, the oscillators' calls of `drift_noise` | C236, C237: real arithmetic, any draws within ±1, the reciprocal root up to a relative error |
| `Dsp/Util` | surge-math/src/{allpass,interp,window,convert,utility,value_cast}.rs | C238-C243: real arithmetic; bit vectors for the byte order |
| `Scene/Single` | surge-scene/src/scene/{play,play_voice,play_voice_portamento,play_voice_mono,release,release_single_triggered,create}.rs, surge-mpe | C244-C246: note on and off in the single-trigger modes, histories; without the scene LFOs, release velocity, hold pedal |
| `Scene/Modulation` | surge-scene/src/scene/{apply_modulation,set,modsource}.rs, surge-param/src/{parameter,get_value,pval,pdata}.rs | C247-C249: routing, enabling of sources, `set_parameter01`, solo buttons, the filter offset switch; real arithmetic |
| `Osc/Pan` | surgeosc-snh/src/convolute.rs, surgeosc-wavetable/src/convolute/convolute.rs | C250, C172: stereo weights of each impulse, correlated random levels; real arithmetic |
| `Synth/Render` | surge-synthesizer/src/synth/process.rs 412-458, surge-scene/src/scene/process.rs | C251-C254: one block of the engine and its scenes; voices, quad filter chain and half-rate filters are parameters of the model |
| `Voice/Sources` | surge-voice/src/{toggle_osc,toggle,init,create,drop,calc_levels,calc_envelope,calc_lfo,init_modsource,calc_modsources,calc_poly_aftertouch,release}.rs | C255-C258: oscillators as kind/initialised/pitch; levels and controllers in real arithmetic; LFO 1 and the envelopes in f32 |
| `Chain/Handover` | surge-voice/src/{set_qfb,sync_from_qfb,process,filter}.rs, surge-scene/src/scene/process.rs 211-222, 286-320 | registers, coefficients and delay lines of the filters between voice and quad (C259) |
| `Tables/Curves` | surge-tables/src/waveshape.rs | the tanh and sine tables against their curves (C260) |
| `Filters/K35` | surgefilter-k35/src/{k35,coeff,lowpass,highpass}.rs | one lane: coefficients, loop solution, settling, saturation bounds (C261, C262) |
| `Effects/TankNet` | surgefx-allpass/src/{block,process,one_pole_filter}.rs | the tank as a network of past samples (C263) |
| `Voice/Pitch` | surge-voice/src/{gen_runtime,runtime}.rs, do_osc.rs 15-36, surge-scene/src/scene/process.rs 5-35, 117-165 | notes, drift, FM depth, noise colour each oscillator is told (C264) |
| `Scene/PatchName` | surge-scene/src/patch/datum.rs 84-88 | the regular expression for patch names (C265) |
| `Filters/Wdf` | surgefilter-iir/src/quad_iir_12_WDF.rs | the wave digital section (C266) |
| `Filters/Smooth` | `surgefilter-iir/src/quad_iir_{12,24}_B.rs` over lives of blocks | the normalised lattice under modulation (C101) |
| `Param/ParamArray` | surge-derive/src/synth_parameters.rs | the array types generated for parameter enums: numbering, construction, indexing, enumeration, map, contains, equality (C267). Drop, Hash, Debug and Ord of the arrays are not modelled; `MaybeUninit` is not modelled (every slot is written before it is read) |
| `Delay/ReverbAutomation` | surgefx-reverb | the reverb of `Delay/Reverb` with decay time, predelay and pan changed at every sample (C91) |
| `Cases/*` | — | concrete cases that meet the hypotheses of theorems whose modules do not show one |
| `Biquad/RoundedGlide` | surge-lag/src/vlag.rs `process`, surge-biquad `coeff_process` and the sample functions, all rounded | bounded output in floating point while the coefficients glide to a new design (C96). The constants 0.004 and 0.996 are exact |
| `Biquad/Lp2b` | surge-biquad/src/coeff_lp2b.rs | gains of the second low pass at DC, cutoff and Nyquist (C97) |
| `Osc/Heights.lean` | the same code as `Osc/Super.lean`, `Osc/Wt.lean`, `Osc/Snh.lean` | the impulses handed to the buffer are the jumps of the wave; slope corrections add up; the recursion of the held level (C163, C166, C171, C172) |
| `Vocoder/Automation.lean` | the same code as `Vocoder/Run.lean` | rate and gate changing during the run: output formula, linearity, bound, silence (C140) |
| `Filters/SvfResonant.lean` | surgefilter-svf: `svf.rs`, `quad_svf_{lp,bp,hp}12_a.rs` | C105 with negative damping: the clip gain keeps the two-pole filter bounded |
| `Filters/SvfFour.lean` | surgefilter-svf: `quad_svf_{lp,bp,hp}24_a.rs` | C105 with negative damping, four poles: observability through the clipped band, return to calm within six samples |
| `Chain/RealFilters.lean` | surge-filter chains with `surgefilter-{svf,moog,snh,iir}` in them | C125 for the filters of the code at every held setting, self-oscillation included |
| `Delay/FlangerTap.lean` | surge-fx `flanger` comb tap positions, the same code as `Delay/Flanger.lean` | each comb reads base·(1+l·d)+1 samples back, within 1/128 (C90) |
| `Effects/DistGlide.lean` | the same code as `Effects/Distortion*.lean` | C151 after any past with automation, once the settings behind the shaper stay |
| `Effects/PhaserGlide.lean` | the same code as `Effects/Phaser*.lean` | C148 bound after any past, moving sweeps included, once the sweep is off |
| `Effects/EqGlide.lean` | the same code as `Effects/Eq.lean` | C195 after any automation of the bands, output gain still moving |
| `Filters/K35Blend.lean` | surgefilter-k35: the same code as `Filters/K35.lean` | C262 at every drive: the saturated share is a bounded disturbance of a stable loop |
| `Tuning/BuiltinData.lean` | surge-tuning: `ed2.rs` … `sd4.rs`, all constants (generated by `tools/gen_scales.py`) | the 143 shipped scale texts as data |
| `Tuning/Builtin.lean` | surge-tuning: the shipped scales, `scale_432` | an independent reader of the Scala format; every key of every shipped scale (C268) |
| `Dsp/Power.lean` | surge-math/src/white_noise.rs: `Signal::average_power_{time,freq}_domain` | C269, exact reals; the packed real transform of the external crate `dft` as documented |
| `Wavetable/SineData.lean`, `Wavetable/Sine.lean` | surge-wavetable/src/initial.rs: `BASIC_SINE_WAVE` | C270: the bytes as data (generated by `tools/gen_sinewave.py`), read by an independent reader, against the real sine |
| `Synth/Valid.lean` | surge-synthesizer: `modunit_query.rs`; surge-modulation: `source.rs`; surge-param: `control_group.rs` | C271, over the parameter table |

## What is not modelled

* Oscillators' sample generation, most filter units, vocoder, rotary, conditioner, EQ, phaser, distortion and frequency shifter apart from what the table above lists.
* The plugin shell, GUI hooks, patch files (unwritten in the code), threads (the engine is single threaded), allocation and alignment.
* f64 rounding; the sign of zero and NaN payloads of f32; subnormal flushing modes.
* Everything behind `todo!()` is modelled as the panic it is.

## Findings (refuted properties)

Each is a theorem; the names are in the table. In short: WAV flush inside a frame overwrites data; several panics on malformed WAV; no scale or mapping file can be loaded;
hold pedal and scene routing panics; polyphony limit not enforced; free_scene panics from two voices; mono fallback never plays; lag built with `new` misses its
target; block interpolator repeats its first 8 gains; ring-out cuts every tail; sends hear nothing; meters blind; block functions write past their end; eight parameters unusable; ADSR
release panics; LFO output always 0 and odd steps race; table lookups wrap; mip filter keeps one tap; loading wavetables panics on surplus/stereo; flanger wraps long delays; reverb's predelay
panics in debug builds and room size 0 is unstable; the biquad's band designs (band-pass, peak, morph) have no test against Nyquist and explode between
Nyquist and the sample rate; `lph_morph` ignores its morph argument; the IIR voice filters swap sine and cosine of the cutoff (tuned to a quarter of the rate minus the note,
unstable above it); the coefficient maker drops the first settings; fresh filter units forget their first sample; IIR filters with the state-variable subtype panic.

Half-rate filters made with `default()` (as the synth, scene and effects do) have no section; four coefficient tables miss the rejection in their comments (one holds a coefficient
of another table); the up-sampler halves the level.
The oversampled single-precision rate is never updated; the tempo cannot be set; the left and right input pointers are two samples apart and the input up-sampler renews 8 of 64 samples;
the sine and asymmetric shapers are constant; a quadrature oscillator stepped before its first `set_rate` turns into NaN.
The conditioner's limiter reads one leaf of its tree instead of the root and so ignores 127 of 128 samples; without `init` its first gain is 1000.
Filter blocks: the left level of `stereo` and `wide` moves twice as far as it should and jumps back each block; in debug builds these two panic when the sum of all voices reaches 32; voices other than the first of a
quad store their samples in the wrong registers (lane 0, shifted, past the end of the block).
Voices: every block panics (the tempo ratio of the portamento is `todo!()`, no voice has the pitch-bend source, generators are `todo!()`), creation panics (`default_pitch`); a legato note at phase exactly 1
panics; absolute pitch drops the fraction of the note; outside `wide` oscillators and noise never reach the right input; an `Off` oscillator panics; a ring-only voice is modulated by a stale block;
the pre-filter gain follows the noise level; the channel pan moves one of the two signals of stereo/wide; key tracking is wrong after a switch; switching to wide leaves the twin filters stale; channel
aftertouch goes to the polyphonic source; `oscillator_keytrack2` governs all three oscillators; the fingered-portamento test needs both conditions; the age overflows after 2^31 blocks.
Vocoder: the return level and the unvoiced threshold are never read (the output is always fully wet); at sample rates below about 43 kHz the highest bands are unstable; the streaming handler puts an
integer into the two float parameters `ModExpand` and `ModCenter`.
Fast math: `fastsin`/`fastcos` exceed their documented maximum error of 1e-5 (1.11e-5 and 7.35e-5 at π) and `fastcos` leaves [−1, 1]; `fasttanh_sse_clamped` reaches 1.0000098; `fastexp` is off by a factor
of more than two at −6, inside its documented range.
Ring modulator: the end of a cycle resets the phase to 0 (`phase -= phase`), so the carrier is always flat and its pitch quantised; both channels' products are added to both outputs; with many carriers the
saturation folds over and leaves [−1, 1].
Phaser: the LFO phase is reduced by 1 at most once per update, so at high rates it runs away and with it the sweep; init leaves the filter registers as they are; ReturnLevel is read nowhere.
Distortion: `hr_a` writes 64 samples into the 32-sample blocks (out of bounds); the half-band filters have no effect on the output, which is the first quarter of the oversampled block, made from the first 8 input
samples; ReturnLevel is read nowhere.  The three-band equaliser's init overrides 0 dB gains with 1.0, used as 1 dB.
- reverb2 (C152, C155): the pre-delay asserts `p > 0` although 0 is a valid position: with a constant pre-delay the effect panics when its first echo is due. The delay lines hold 16384 samples, too few from 48 kHz on at full room size: the echo comes 16384 samples early. The low-frequency damping coefficient is never advanced, the return level never read.
- Oscillators (C156–C160): `assign_fm` is empty in FM, FM2 and sine, so the FM source is always null: the FM oscillator, the default mode of the sine oscillator and FM2 under FM read through a null pointer. The depth, feedback and offset smoothers are made with `Lag::new(0.0)` and never given a rate: the modulation fades to nothing within a second and ignores later parameter changes. The legacy sine mode passes −cos: shapes 2 and 3 are swapped.
- Super oscillator (C162, C164): with absolute unison detune a period below 0.1 is replaced by 0 instead of 0.1, and then the block loop never ends; `get_t` uses n2pinv_tuningctr, which in the default tuning is 1/1024 where 1 is meant, so the oscillator sounds ten octaves high; `println!` runs on every sample; the FM path reads through a null pointer.
- Wavetable oscillator (C166–C168, C170): creation panics (`n_tables - 2` on the one default table); the 16-bit samples are not scaled to ±1 and so clip to their signs; crossing a table boundary while morphing clicks (the two comparisons are inverted) and aborts if an impulse falls on the block start (`lerp` asserts x < 1); left and right are equal whatever the panning; the convolution kernel is loaded as four floats from a temporary holding one (also in the sample-and-hold oscillator).
- Sample-and-hold oscillator (C173, C174): the block loop and `convolute` do not ask whether sync is on, so with sync off the first level is drawn twice at once and a rise of pitch restarts the cycle; the unison detune is multiplied by the number of voices (UniCount) instead of UniSpread; the smoother of the shape is never given a rate.
- Window oscillator (C176, C178–C182): the table's first sample is used as the address of the table (wild read; a null read for a new oscillator); `bitscan_reverse` counts trailing zeros, so the mip-map level does not follow the pitch; the unison count is limited to 1; the conversion loop reads the first four samples only, and their float bits as integers; a new table is heard for one sample and then the old one until the block ends; waves longer than the window panic; the FM ratios are stored in an array with its dimensions swapped.
- Synthesizer (C184–C188): `SynthInput` allocates its arrays as (block, channels) and then takes rows, so left and right are eight bytes apart: the right input is the left input two samples later, `clear_inputs` returns an alignment error and `do_process_inputs` performs a misaligned aligned load - no block is ever rendered. The output meters read zero below 2.0 (see C60) and freeze when the engine halts. A program change panics (`todo!()`) in the 40th block after it. `process_threadunsafe_operations` unwraps an empty queue. `PluginLayer::default` is `todo!()`, so `SurgeSynthesizer::new_default` itself cannot return.
- VST plugin (C191–C193): A4 is 432 Hz where the documentation says 440; the attack level is fixed per buffer, so the sound depends on the buffer size; a fresh plugin plays key 59; only MIDI channel 1 is heard; a note-on of velocity zero starts a note.
- Equaliser (C194): `init` means to start the bands at 0 dB so that the effect fades in, but passes 1.0 as decibels: a flat equaliser is not transparent for about the first thousand samples; `suspend` of a biquad filter is the empty default, so `init` keeps what is in the filters' registers.
- Frequency shifter (C197, C198): the right channel's ratio is applied twice, so a ratio of -1 does not reverse the shift and 0.5 is a quarter; `Lag::new(lp)` keeps the default's complement 0.996, so that the delay of a `Lag::new(0.0001)` settles on a fortieth of the request; the fraction of the delay is truncated before it is scaled to a row of the kernel, so that interpolation only ever uses the first or the last row.
- C201: surgefilter-nlstates computes the new state, then overwrites it with the saturated *old* state (`reg` returns a copy): from rest the filter is a gain.  Two of the four saturator selections panic.
- C204: `ojd_waveshaper` tests `input <= 1.7` where `-1.7` is meant: everything below 1.7 becomes -1, a DC offset instead of feedback.
- C205: the sine saturator uses `fastsin` outside its range; the loop diverges on loud input.
- C207: surgefilter-rungekutta takes the fourth derivative half a step away instead of a whole step, so the integrator is of first order only, not fourth.
- C208: `ObxdFilter::process_quad` (and `K35Filter::process_quad`) is `todo!()`: any voice using these filters panics; the public functions underneath work.
- C210: process_4pole.rs adds `pole_mix_scaled` to `y3` where a product is meant: the 24 dB tap is the sum of the third and fourth.
- C211: the OB-Xd tap selector is compared for equality with whole numbers after smoothing from zero: three of four sub-types are silent (in f32 for the first 61 blocks at least).
- C212, C213: surgefilter-diode stores `g/(1+g)` in the coefficient the loop equations use as `g`: at a cutoff of about a quarter of the (oversampled) rate the gain at DC is 6.5 instead of 1, and above that the filter is unstable even with no resonance.
- C215: the comment in surgefilter-huovilainen has 0.4955 where the code has 0.4995.
- C217: surgefilter-comb calls `simd_extract`, whose body is `todo!()`: any voice using a comb filter panics. (If it extracted an `i64` lane, as written, it would join two 32-bit rows, before the multiplication by 24.)
- C221: surgefx-dualdelay `do_crossfeed` multiplies by `self.feedback` instead of `self.crossfeed`: the crossfeed knob does nothing, and feedback always goes to both channels, so that a mono echo returns at twice the setting.
- C222: the delay times of surgefx-dualdelay settle at a fortieth of the setting (`Lag::new(0.0001)` leaves `lpinv` at 0.996, as in C198).
- C224: surgefx-dualdelay `process_only_control` is `todo!()`; since the ring-out never lasts (C37), the first block without input panics.
- C226: surgefx-rotary lets the horn gain go down to -0.2 at full amplitude modulation (treble inverted when the horn points away).
- C227: `lf_lfo` of surgefx-rotary is given a per-block rate and advanced per sample: the bass rotor turns at 22.4 times the horn's speed instead of 0.7; in `process_only_control` at 0.7.
- C229: the return level of surgefx-rotary is read nowhere; with Doppler at zero the horn is still 32 samples behind the bass (the delay is clamped to at least a block).
- C230: surgefx-rotary multiplies by 12 before truncating, so that the kernel coefficients straddle two rows of the table.
- C231: `suspend` of surgefx-rotary leaves the two biquads' state (their own `suspend` does nothing).
- C233: surgefx-chorus places its four voices at i/3 of the cycle, so the first and the last are a whole cycle apart and always coincide.
- C235: blocks without input stop time for surgefx-chorus; its tail is cut off at once and heard when the next sound begins. (Also there, not modelled: the rate is tempo-synced by the flag of the delay time, not its own; the return level is read nowhere.)
- C237: `correlated_noise_o2mk2` and `drift_noise` take their state by value, so the noise colour is only a volume and the oscillators' drift never wanders.
- C239: the slopes of `cubic_interpolate` are twice too steep.
- C240: `symmetric_blackman_harris` has one denominator `n - 1`; it is not symmetric.
- C241: `db_to_amp` raises 10/3 to the power, instead of 10 to a third of it.
- C245: `release_single_triggered_mpe_enabled` leaves its loop at once, because `do_release` is already true; play_voice_portamento.rs leaves the voice on its old channel without MPE, so a key from another channel hangs; at polyphony limit 1 a legato note kills its own voice.
- C246: `create_voice_runtime` reaches `todo!()`, so no note can start a voice.
- C247: `apply_scene_modulation` overwrites instead of adding, stores value + modulation as the modulation, and nothing reads what it stores.
- C248: `SurgeScene::set_parameter01` reads the old value as `i32` and as `bool` and so always panics; leaving latch mode tests `old == latch && new == latch`.
- C250: wavetable `convolute` (lines 94-96) scales both sides with `pan_l`.
- C251: `do_routing_critical_section` removes the ended voices by their old positions, so with two ends in a block a wrong voice leaves or `remove` panics.
- C252: the scene output buffers are accumulated into and never cleared.
- C253, C254: `playscene` is `voices.is_empty()`: post-processing runs only for scenes without voices, and effects are told there is no input while a scene sounds.
- C255: `maybe_toggle_osc` runs before the enables are set, so the oscillators of a new voice are never initialised; `spawn_osc(Off)` leaves `None`, on which `process_block` and `free_allocated_elements` panic.
- C256: `calc_levels` takes the pre-filter gain from `noise_level0`; `LevelPfg` is never read.
- C257: `init_lfos` replaces the LFOs by `Lfo::new`, with default parameters.
- C258: `init_aftertouch` matches the amplifier envelope; `calc_modsources` writes the channel's pressure over the polyphonic aftertouch in every block.
- C70: the start phase wraps as it should for every value up to 2^24 but the loops do not end beyond; C72: the noise shape passes ±1.
- C259: `get_quad_filter_ptr` and `voice_sync_registers_from_qfb_cfg` are `todo!()`, so the hand-over between voices and quads panics in the first block with a sounding voice; the functions it should call are sound.
- C261: the K35 filters cannot be used: `process_quad` is `todo!()`, and lowpass.rs and highpass.rs are not compiled (lib.rs does not name them).
- C264: the keyboard switches of oscillators 1 and 2 do nothing; `oscillator_keytrack2`, taken from oscillator 3, governs all three.
- C265: `is_valid_patchname` rejects every name without a blank, among them the default "init": the pattern is laid out with blanks but compiled without the `x` flag.
- C97: the low pass of `coeff_lp2b` does not fall to 0 at the Nyquist frequency, and at the cutoff its gain is more than the quality, up to twice (`C97_lp2b_gains`): the factor 2 in `a` makes the difference `b0 - b2` too large.
- C268: two of the 143 shipped scale texts are damaged: ED2_11 begins with the characters `s `, so that its first line is no comment, and SD4_48_12 has lost its title line; `Scale::scale_432` names the 25-part equal division of the octave.
- C269: `average_power_freq_domain` sums the packed spectrum of a real signal, which holds each frequency once; for a signal without mean it is half of the power.
- C270: `load_initial_wavetable` prints the 2060 bytes of the built-in wavetable and then panics (`todo!()`); no other code reads them.
- C271: `per_voice_processing` is true for every parameter and never written, so parameters of effects accept velocity, envelopes and other sources that differ per note; no parameter of an LFO, an envelope, a scene or the patch is declared modulatable, so none accepts a source.

## Per property

| id | property | model (first anchor) | status | theorems | what is proved, refuted, missing |
|--|--|--|--|--|--|
| C01 | WAV integer round trip | C01_i16_roundtrip, C01_i8_roundtrip, C01_int_roundtrip, C01_narrow_types_write_same: surge-hound/src/write.rs: WavWriter::new, write_sample, finalize | proved | `C01_int_roundtrip`, `C01_i16_roundtrip`, `C01_i8_roundtrip`, `C01_narrow_types_write_same` | i8, i16 and i32 sample types; byte-accurate model of writer and reader on an in-memory stream |
| C02 | WAV float round trip | C02_float_roundtrip: surge-hound/src/write.rs: write_le_f32 | proved | `C02_float_roundtrip` | samples are bit patterns |
| C03 | Finalized header is consistent | C03_header_consistent, C03_header_consistent_float: surge-hound/src/write.rs: update_header, finalize | proved | `C03_header_consistent`, `C03_header_consistent_float` | finalize and drop, whole and unfinished frames |
| C04 | Rejected sample changes nothing | C04_reject_i16, C04_reject_or_accept: surge-hound/src/lib.rs: narrow_to_i8, narrow_to_i16, narrow_to_i24, impl Sample for i32 | proved | `C04_reject_or_accept`, `C04_reject_i16` | as stated |
| C05 | Flush is transparent | C05_aux, C05_flush_transparent_partial, C05_midframe_flush_overwrites: surge-hound/src/write.rs: flush, update_header | partial | `C05_aux`, `C05_flush_transparent_partial`, `C05_midframe_flush_overwrites` | False of the code: a flush inside a frame returns UnfinishedSample and leaves the stream at the start of the data, so the next sample overwrites the first (C05_midframe_flush_overwrites, for every spec). Proved for histories whose flushes come at frame boundaries. |
| C06 | Flushed data survives a crash | C06_flushed_survives: surge-hound/src/write.rs: flush | proved | `C06_flushed_survives` | crash = any prefix of the later stream that contains the flushed part; torn header rewrites of a later flush are outside the model |
| C07 | Append equals writing in one go | C07_append_eq, C07_append_eq_float: surge-hound/src/write.rs: new_append, read_append | proved | `C07_append_eq`, `C07_append_eq_float` | files written by this crate; integer and float |
| C08 | Opening arbitrary bytes never panics | C08_fmt_first_never_panics_partial, C08_only_missing_fmt_panics_partial, C08_open_can_panic_no_fmt, C08_open_can_panic_short_clm: surge-hound/src/read.rs: WavReader::new, read_until_data, read_clm_chunk, read_srge_chunk, read_cue_chunk, read_smpl_chunk | partial | `C08_open_can_panic_no_fmt`, `C08_open_can_panic_short_clm`, `C08_only_missing_fmt_panics_partial`, `C08_fmt_first_never_panics_partial` | False of the code: panics on a data chunk before fmt and on short clm chunks (two theorems). Proved: without wavetable chunk ids in the bytes the missing-fmt panic is the only one; with a leading fmt chunk there is none. |
| C09 | Opening arbitrary bytes terminates | C09_open_terminates, C09_scan_terminates: surge-hound/src/read.rs: read_until_data | proved | `C09_scan_terminates`, `C09_open_terminates` | as stated |
| C10 | Unknown chunks are skipped | C10_pad_byte_not_skipped, C10_unknown_chunks: surge-hound/src/read.rs: read_until_data, skip_bytes, read_chunk_header | proved | `C10_unknown_chunks`, `C10_pad_byte_not_skipped` | also any RIFF size field and any trailing bytes. RIFF pad bytes of odd chunks are not skipped by the code (C10_pad_byte_not_skipped). |
| C11 | Accepted files are internally consistent | C11_accepted_consistent: surge-hound/src/read.rs: WavReader::new, read_fmt_chunk, duration, len | proved | `C11_accepted_consistent` | as stated |
| C12 | Seek then read returns the addressed sample | C12_failed_read_desyncs_seek, C12_seek_then_read: surge-hound/src/read.rs: WavReader::seek, iter_next | proved | `C12_seek_then_read`, `C12_failed_read_desyncs_seek` | failed reads are excluded: C12_failed_read_desyncs_seek shows the code goes wrong after one |
| C13 | Sample iterator is exact and streaming | C13_iterator_exact, C13_iterator_streams: surge-hound/src/read.rs: iter_next, iter_size_hint, samples, into_samples | proved | `C13_iterator_exact`, `C13_iterator_streams` | as stated |
| C14 | Short reads do not matter | C14_short_reads: surge-hound/src/read.rs: read_into, skip_bytes | proved | `C14_short_reads` | for the two primitives every decoder is built from |
| C15 | Batch i16 writer equals single writes | C15_batch_eq, C15_batch_misuse_panics, C15_wrong_format_panics: surge-hound/src/write.rs: get_i16_writer, SampleWriter16 | proved | `C15_batch_eq`, `C15_batch_misuse_panics`, `C15_wrong_format_panics` | as stated |
| C16 | Sample codec is exact per width | C16_codec_exact, C16_codec_exact_float, C16_offset_bijection, C16_too_wide_refused: surge-hound/src/lib.rs: Sample, signed_from_u8, u8_from_signed | proved | `C16_codec_exact`, `C16_too_wide_refused`, `C16_offset_bijection`, `C16_codec_exact_float` | as stated |
| C17 | Unfinished frames are reported and not lost | C17_unfinished: surge-hound/src/write.rs: update_header | proved | `C17_unfinished` | as stated |
| C18 | Writer never emits a header it cannot describe | C18_huge_depth_panics, C18_new_panics, C18_supported_partial, C18_unsupported_touches_stream, C18_zero_channels_accepted: surge-hound/src/write.rs: WavWriter::new, write_waveformat, channel_mask | partial | `C18_supported_partial`, `C18_new_panics`, `C18_huge_depth_panics`, `C18_unsupported_touches_stream`, `C18_zero_channels_accepted` | False of the code in four ways, each a theorem: panics, zero channels accepted, unsupported depth leaves patched bytes on the stream, huge depths overflow. Proved: supported specs give a header the reader recovers. |
| C19 | Writer length bookkeeping | C19_length_bookkeeping: surge-hound/src/write.rs: len, duration, is_empty | proved | `C19_length_bookkeeping` | histories of accepted and rejected samples, flushes and batches |
| C20 | Mute mask tracks the last operation | C20_mute_bad_step_panics, C20_mute_last_op, C20_mute_only_mask: surge-stepseq/src/mute.rs | proved | `C20_mute_last_op`, `C20_mute_only_mask`, `C20_mute_bad_step_panics` | step numbers of 64 and more panic (C20_mute_bad_step_panics) |
| C21 | Sequencer position stays in range | C21_next_step_partial, C21_no_shuffle_panics, C21_rounding_escapes, C21_runs_forever_partial: surge-stepseq/src/next.rs: next_step | partial | `C21_next_step_partial`, `C21_runs_forever_partial`, `C21_no_shuffle_panics`, `C21_rounding_escapes` | binary32 arithmetic modelled exactly. False of the code: panics for shuffle 0 (the default), and rounding can move the position to 16, after which every call panics (C21_rounding_escapes). Proved for shuffle in (0,1] and no trigger bit above 15. |
| C22 | Sequence save/load round trip | C22_save_load: surge-stepseq/src/persist.rs | proved | `C22_save_load` | relative to the documented round-trip contract of Rust's f32 Display/parse (structure F32Text); integer formatting and parsing are modelled. Probabilities, mutes and position are not stored, as the theorem says. |
| C23 | Step values edited by swing and mutation stay in [0,1] | C23_mutate_empty_range_panics, C23_mutate_range, C23_swing_bad_loop_panics, C23_swing_range, C23_swing_value: surge-stepseq/src/swing.rs | proved | `C23_swing_range`, `C23_swing_value`, `C23_swing_bad_loop_panics`, `C23_mutate_range`, `C23_mutate_empty_range_panics` | binary32 arithmetic including NaN and infinities; bad loops and empty ranges panic (two theorems) |
| C24 | Scale and mapping files parse to what they say | Tuning: surge-tuning/src/scale.rs | partial | `C24_scale_reader_exact`, `C24_no_scale_can_be_loaded`, `C24_builtin_scale_is_empty`, `C24_mapping_reader_exact`, `C24_no_mapping_can_be_loaded`, `C24_tune_a69_ignores_frequency`, `C24_tune_a69_effect` | False of the code: the reader's line buffer is never cleared, so no text at all is read as a usable scale or mapping (C24_no_scale_can_be_loaded, C24_no_mapping_can_be_loaded; exact characterisations for every text in C24_*_reader_exact). UTF-8 text only; tone-value arithmetic is a parameter. |
| C25 | Retuned table is periodic in the scale | Tuning: surge-tuning/src/retune.rs: retune_to_scale | proved | `C25_table_contents`, `C25_retune_periodic`, `C25_twelve_tone_is_standard` | linear mappings (built-in standard and key-less); exact real arithmetic, f32/f64 rounding of pitches not modelled |
| C26 | Reference note gets the reference pitch | Tuning: surge-tuning/src/retune.rs: retune_to_scale | proved | `C26_reference_pitch` | as C25 |
| C27 | Pitch table lookups stay inside the table | Tuning: surge-tuning/src/tuner.rs | partial | `C27_reads_inside_table`, `C27_lookup_entries`, `C27_interpolates_partial`, `C27_top_reads_510`, `C27_below_table`, `C27_nonfinite_panics`, `C27_whole_notes_partial` | Index and weight computation is bit-accurate for f32. False of the code below -256 (panic or wrap-around) and from 255 up (reads entry 510 instead of 511): C27_below_table, C27_top_reads_510. Interpolation between neighbours proved for [-256, 255 - 2^-15]; interpolation arithmetic itself is exact. |
| C28 | Hold pedal defers and then releases each note once | Midi: surge-midi/src: HoldPedalUnit | partial | `C28_conservation_partial`, `C28_nothing_released_while_held`, `C28_pedal_up_flushes_partial`, `C28_pedal_down_defers`, `C28_replay_then_pedal_panics`, `C28_channel0_pedal_blocks_others`, `C28_dual_never_releases_scene1` | False of the code in three ways: replaying a key while its release waits makes the next pedal message panic; without MPE the pedal of channel 0 blocks the waiting releases of all channels; in dual and key split mode the waiting releases all go to scene 0. Proved: conservation of note offs for histories without such replays, nothing is released on a held channel, the queue empties when all pedals are up. Voices are not part of this model: a release is an event. |
| C29 | RPN data entry reaches the selected parameter | Midi: surge-synthesizer/src/synth/channel_controller_cc.rs | partial | `C29_data_entry_partial`, `C29_changes_only_when_selected`, `C29_nrpn_entry_panics`, `C29_nrpn_msb_lost`, `C29_unselected_entry_sets_range` | False of the code for non-registered parameters: data entry panics, and the MSB is never stored (it overwrites the LSB). Proved for registered parameters, all histories. |
| C30 | Bank and program select compose | Midi: surge-synthesizer/src/synth/midi.rs: program_change | proved | `C30_patch_queue` | Up to the queued patch number; loading the patch is unimplemented in the code (todo!). |
| C31 | Scene routing of notes | Midi: surge-synthesizer/src/synth: calculate_channel_mask | partial | `C31_routing_partial`, `C31_channel_split_channel0_panics`, `C31_pedal_goes_where_notes_go`, `C31_play_scenes` | False of the code for channel 0 in channel split mode (panic). Proved for every other mode, channel, key, split and MPE setting. |
| C32 | Polyphony limit is enforced | Scene: surge-scene/src/scene: enforce_polyphony_limit | partial | `C32_single_uber_partial`, `C32_enforce_effect_partial`, `C32_limit_not_enforced`, `C32_frees_the_wrong_voice`, `C32_out_of_bounds` | False of the code in three ways, each proved: with no voice in uber-release nothing is freed (C32_limit_not_enforced); with two, a sounding voice is freed instead (C32_frees_the_wrong_voice); or the removal is out of bounds (C32_out_of_bounds). C32_enforce_effect_partial says exactly what is removed; C32_single_uber_partial is the case where the claim about which voice holds. |
| C33 | One-pole smoothing converges monotonically | Smooth: surge-lag/src/lag.rs | partial | `C33_lag_monotone`, `C33_lag_converges`, `C33_lag_history`, `C33_lag_new_misses_target`, `C33_vlag`, `C33_lag_setting`, `C33_vlag_setting`, `C33_lag_f32` | Proved in exact arithmetic and, with an explicit error bound, in rounded f32. False of the code for a lag built with Lag::new and a rate: the inverse coefficient keeps its default (C33_lag_new_misses_target). |
| C34 | Controller modulation source converges to its target | Smooth: surge-modulation/src/controller.rs | partial | `C34_target01_roundtrip`, `C34_changed_flag`, `C34_monotone_partial`, `C34_converges_partial`, `C34_until_close`, `C34_until_close_finishes_partial`, `C34_overshoot`, `C34_diverges`, `C34_reset_at_rest` | False of the code for large distances: C34_overshoot and C34_diverges give the exact thresholds; proved below them. |
| C35 | Envelope stage order | Adsr: surge-adsr/src/adsr.rs | partial | `C35_digital_decay_partial`, `C35_digital_release_partial`, `C35_stage_only_forward_partial`, `C35_digital_stages_partial`, `C35_release_and_blocks_panic`, `C35_retrigger_partial` | proved: along every history of returning calls the stage only moves forward, and each digital stage function stays or moves one stage on; missing (false of the code): release(), uber_release() and every block in digital mode panic because get_output is todo!(), and a block of a fresh envelope panics because its mode is Float(0.5) (C35_release_and_blocks_panic), so the forward moves to Release/UberRelease cannot be made by these calls |
| C36 | Parameter normalisation round trip and range | Param: surge-param/src | partial | `C36_set_float_in_range_partial`, `C36_temposync_nan_undefined`, `C36_bool_panics`, `C36_int_ignores_input`, `C36_set_int_in_range_partial`, `C36_int_jumps_to_max`, `C36_new_in_range_partial`, `C36_normalised_float_partial`, `C36_normalised_int_partial`, `C36_roundtrip_float_partial`, `C36_convert_roundtrip_partial`, `C36_convert_int_partial`, `C36_default_reads`, `C36_nil_reads_zero` | Range, reading and round trip proved for float parameters (all inputs) and range/reading for integer ones. False of the code: boolean parameters panic on construction and setting, integer parameters ignore the value that is set, Nil-typed ones read 0, tempo-synced ones run into undefined behaviour on NaN. |
| C37 | Effect ring-out does not truncate the tail | Fx: surgefx/src: process_ringout | partial | `C37_input_processed_partial`, `C37_finished_skipped_partial`, `C37_tail_always_cut`, `C37_off_always_processed_partial`, `C37_history_partial` | False of the code: the tail is always cut at the first block without input, whatever the ring-out length (C37_tail_always_cut). Proved: exactly the blocks with input are processed, over whole histories, and the counter is right. |
| C38 | Step and probability stores behave like arrays | C38_store_last_write: surge-stepseq/src/stepsequencer.rs: set_step, step | proved | `C38_store_last_write` | as stated |
| C39 | An interrupted save is not mistaken for a sequence | C39_interrupted_save_mixes: surge-stepseq/src/persist.rs | partial | `C39_interrupted_save_mixes` | False of the code; proved: for every cut after k steps the loaded state is a mixture. |
| C40 | Mapped keyboards play their listed degrees | Tuning: surge-tuning/src/retune.rs: retune_to_scale | partial | `C40_mapped_table_partial`, `C40_reference_outside_pattern_panics` | False of the code for reference notes outside the first pattern (panic, C40_reference_outside_pattern_panics) and disabled keys sound at half the reference pitch instead of being silent. Proved: C40_mapped_table_partial. |
| C41 | Scale length is reported for every scale | Tuning: surge-tuning/src/tuner.rs: current_scale_count | partial | `C41_scale_count_partial`, `C41_long_scale_panics` | False of the code for 128 tones or more (panic). |
| C42 | Tuning state depends only on what is in force | Tuning: surge-tuning/src/retune.rs | partial | `C42_standard_flag_means_standard_tables`, `C42_standard_keyboard_forgets_history_partial`, `C42_reset_keeps_reference_pitch`, `C42_uninitialised_tables_are_zero` | False of the code: reset keeps the reference pitch (C42_reset_keeps_reference_pitch). Proved: the flag/table invariant and that going back to the standard keyboard forgets the history. |
| C43 | Pitch relative to the tuning centre is 1 at the centre | Tuning: surge-tuning/src/tuner.rs: n2p_tuningctr, n2pinv_tuningctr | partial | `C43_tuning_centre_partial` | False of the code for n2pinv_tuningctr (1/pitch^2 at the centre); proved for n2p_tuningctr. |
| C44 | Pitch bend reaches the right target | Midi: surge-synthesizer/src/synth/pitch_bend.rs: pitchbend | proved | `C44_pitch_bend` | as stated |
| C45 | Pressure and modulation wheel follow the newest message | Midi: surge-synthesizer/src/synth/automation.rs: channel_aftertouch, poly_aftertouch | proved | `C45_pressure_and_wheel` | as stated |
| C46 | Controller learning assigns the next controller, once | Midi: surge-synthesizer/src/synth/channel_controller.rs: store_learn_custom, channel_controller | partial | `C46_learn_partial`, `C46_learned_parameter_truncated` | False of the code for parameters learned from data entry LSB: the number is cut to eight bits (C46_learned_parameter_truncated). Proved for all ordinary controllers. |
| C47 | MIDI input does not crash the engine | Midi: surge-synthesizer/src/synth/channel_controller.rs | partial | `C47_runs_iff_partial` | False of the code: exactly two kinds of history panic. C47_runs_iff_partial characterises them exactly, in both directions. |
| C48 | Freeing a scene frees every voice | Scene: surge-scene/src/scene/drop.rs: free | partial | `C48_free_scene_partial` | False of the code for two or more voices: C48_free_scene_partial proves it works exactly for at most one voice and panics otherwise. |
| C49 | Voice stealing picks the right voice and makes room | Scene: surge-scene/src/scene/softkill_voice.rs | partial | `C49_softkill`, `C49_room_for_new_voice_partial`, `C49_new_voices_not_stolen`, `C49_make_room_partial` | The choice of voice is proved in full (C49_softkill). Making room needs every voice to be at least one block old; C49_new_voices_not_stolen shows it fails without. |
| C50 | A latched release follows its own scene | Scene: surge-scene/src/scene/release.rs: maybe_release | partial | `C50_latched_release_uses_scene_a`, `C50_no_pending_release_partial` | False of the code: every scene follows the play flag of scene A (C50_latched_release_uses_scene_a). Proved: scenes without a pending release are untouched. |
| C51 | Monophonic modes fall back to the highest held key | Scene: surge-scene/src/scene/release_monophonic.rs | partial | `C51_fallback_is_highest_partial`, `C51_fallback_never_played`, `C51_other_key_untouched_partial`, `C51_mpe_fallback_partial`, `C51_voice_released_partial` | False of the code: the fallback note is found correctly (C51_fallback_is_highest_partial) but never played (C51_fallback_never_played). |
| C52 | The scalar interpolator is a straight line that lands on its target | Smooth: surge-lipol/src/lipol.rs | proved | `C52_line`, `C52_blocks_join`, `C52_blocksize`, `C52_instantize` | Exact arithmetic over any ordered field. |
| C53 | The block interpolator ramps from the previous target to the new one | Smooth: surge-lipol/src/lipol_ps.rs | partial | `C53_block_repeats_first_segment`, `C53_target_not_reached`, `C53_ramp_partial`, `C53_smoothed_target`, `C53_instant` | False of the code: the ramp variables are passed by value, so every group of 8 samples repeats the first 8 gains and the target is never reached for blocks over 8 samples (C53_block_repeats_first_segment, C53_target_not_reached). C53_ramp_partial is the case where it holds. |
| C54 | Panning follows its ramp and keeps the sum of the channels | Smooth: surge-lipol/src/trixpan.rs | proved | `C54_pan`, `C54_pan_preserves_sum` | Exact arithmetic over any ordered field. |
| C55 | Effect bypass modes and disable flags decide which effects run | Fx: surge-synthesizer/src/synth/process.rs: apply_inserts, apply_effects | partial | `C55_slots_run_partial`, `C55_bypass_partial`, `C55_disabled_slot_untouched`, `C55_all_off_still_runs_inserts`, `C55_no_send_skips_inserts` | False of the code: 'all off' still runs the scene inserts, 'no sends' also stops them (two theorems). C55_slots_run_partial gives, for every mode, exactly which slots run. |
| C56 | Send effects process the scenes | Fx: surge-synthesizer/src/synth/process.rs: process, maybe_add_send_a, maybe_add_send_b | partial | `C56_sends_hear_nothing` | False of the code: the scene copies are never filled, so the sends process antidenormal noise only (C56_sends_hear_nothing). |
| C57 | Scene inserts are isolated and the dry output is the sum of the scenes | Fx: surge-synthesizer/src/synth/process.rs: apply_inserts, sum_scenes | proved | `C57_inserts_isolated`, `C57_dry_sum`, `C57_series` | effects are arbitrary state machines; exact arithmetic outside them |
| C58 | Block functions write exactly the block they are given | Dsp: surge-math/src/clear.rs | partial | `C58_clear`, `C58_accumulate`, `C58_unrolled_partial`, `C58_writes_past_the_end`, `C58_scratch_block_overflows` | False of the code: the unrolled loops round the size up and write past the end (C58_writes_past_the_end), and the scratch blocks of process overflow (C58_scratch_block_overflows). Proved for clear and accumulate at every size, for the others at multiples of their unroll factor. |
| C59 | Mid/side encoding is invertible | Dsp: surge-math/src/encode.rs | proved | `C59_mid_side_roundtrip`, `C59_mono_has_no_side` | exact arithmetic |
| C60 | Peak detectors return the peak | Dsp: surge-math/src/absmax.rs | partial | `C60_absmax2_partial`, `C60_meter_is_blind` | False of the code for get_absmax: the mask is the bit pattern of 2147483648.0 (C60_meter_is_blind). Proved for get_absmax_2, on bit patterns. |
| C61 | Hard limiters bound every input | Dsp: surge-math/src/hardclip.rs: hardclip_ps, hardclip_block, hardclip_block8 | proved | `C61_hardclip`, `C61_hardclip_block`, `C61_limit_range`, `C61_clamp01`, `C61_limit_range_int`, `C61_boundfreq` | f32 with NaN and infinities; NaN passes boundfreq (stated in C61_boundfreq) |
| C62 | Soft clippers are monotone, odd and bounded by their nominal level | Dsp: surge-math/src/softclip.rs: softclip_ps, softclip8_ps, softclip_f64, softclip2_f64, softclip4_f64, softclip8_f64 | partial | `C62_softclip_partial`, `C62_softclip2_folds_over`, `C62_wide_clippers_exceed` | Proved for softclip_ss/ps/f64; softclip4/8 are monotone, odd and bounded but exceed their nominal level; softclip2_f64 folds over (two theorems). |
| C63 | Every parameter of the synthesizer stays in its range | Param: surge-param/src/parameter.rs | partial | `C63_every_parameter_stays_in_range_partial`, `C63_every_reading_normalised_partial`, `C63_crossed_limits_stuck`, `C63_mixed_kinds_panic`, `C63_empty_range_reads_nan` | Proved for all 271 parameters except eight, for all histories; the eight exceptions are proved to fail (six panic when set, two have crossed limits). Tempo-synced parameters: for normalised arguments. |
| C64 | Modulation depth handles | Param: surge-param/src/get_modulation.rs get_modulation_f01 | partial | `C64_handle_in_range_partial`, `C64_handle_roundtrip_partial`, `C64_every_handle_partial`, `C64_filter_type_panics` | Proved for every parameter except the filter's type and subtype, which panic (proved). |
| C65 | Morphing between two parameters | Param: surge-param/src/morph.rs morph, morph_alt | partial | `C65_morph_float`, `C65_morph_other`, `C65_morph_alt`, `C65_leaves_range` | Everything but 'never leaves the range', which is refuted by rounding (60 and 60 mix to 60.000004). |
| C66 | Note names | Param: surge-param/src/notation.rs get_notename | partial | `C66_note_names_partial`, `C66_negative_notes` | Proved from 0 upward; refuted below 0 (panics unless the note is a C). |
| C67 | Extended ranges and flags take effect | Param: surge-param/src/extend.rs | partial | `C67_can_extend`, `C67_flags_have_no_effect` | Factor list agrees with can_extend_range; the flags are refuted: setters write fields the getters never read. |
| C68 | Tempo sync lands on note lengths | Param: surge-param/src/bound_value.rs bound_value | partial | `C68_sync_lands`, `C68_no_sync`, `C68_sync_idempotent_partial`, `C68_force_integer_wins` | Landing, no-sync and force-integer proved; idempotence for integer limits and assuming powf/log2 accurate to a few per cent at three places. |
| C69 | The analog envelope keeps its level in range, follows its stages and ends | Adsr: surge-adsr/src/process_block_analog.rs: process_block_analog | proved | `C69_output_bounded`, `C69_block_returns`, `C69_attack_rises`, `C69_decay_latched`, `C69_decay_to_sustain`, `C69_release_falls`, `C69_uber_release_stops`, `C69_idle_stays`, `C69_release_terminates` | the release stages are entered through the public set_envstate because release/uber_release panic (C35); 2^x and log2 are arbitrary functions, the speeds are assumed in 0..1 (coef_unit shows this for every finite setting if 2^x is in 0..1 for x<=0); f32 rounding modelled exactly |
| C70 | LFO start phase | Lfo: surge-lfo/src/init.rs: init_phase_from_start_phase | partial | `C70_start_phase`, `C70_ends_iff_refuted`, `C70_once` | proved for every f32 start phase of size at most 2^24 + 2; proved that for every other finite or infinite one the call never ends (C70_ends_iff_refuted is an exact characterisation over all f32), so the property is false there |
| C71 | LFO envelope | Lfo: surge-lfo/src/attack.rs: attack | partial | `C71_level_unit_partial`, `C71_stage_order`, `C71_rests_at_sustain_partial`, `C71_release_rests_at_zero_partial`, `C71_release_at_max_ignored`, `C71_release_jumps_up`, `C71_default_panics` | Proved without release for non-negative stage rates and sustain 0 or 1, and the resting level for usable rates (2^-20..1 per block). Refuted for release: the level jumps up by 1 - rate. Default parameters panic. |
| C72 | LFO phase and output range | Lfo, Tables: surge-lfo/src/process.rs: process | partial | `C72_phase_and_output_partial`, `C72_unipolar_partial`, `C72_delivers_zero`, `C72_envelope_exceeds_one`, `C72_noise_overshoots_refuted`, `C72_sine_table` | Proved for the shapes sine, triangle, square, ramp, sample&hold, envelope without release, integer or 0..1 deform, any f32 start phase. Refuted for envelope with negative deform and for the noise shape (overshoots to 1.5); get_output always returns 0. |
| C73 | LFO step sequence | Lfo: surge-lfo/src/phase_over_one.rs: update_step_sequencer_for_phase_over_one | partial | `C73_step_in_range`, `C73_retriggers`, `C73_attack_plays_first`, `C73_attack_plays`, `C73_step_speed`, `C73_plays_in_order`, `C73_holds_step`, `C73_odd_steps_race`, `C73_loop_panics` | Order, range, retriggers and held values proved. Equal step times refuted (odd steps run about 100 times too fast); some loop points panic on attack. |
| C74 | Table lookups return for every input | Tables: surge-tables/src/envelope.rs:EnvelopeTables::envelope_rate_linear | partial | `C74_lookups_return_partial`, `C74_waveshaper_returns`, `C74_large_inputs_panic` | Inputs up to 2^20 (and not-a-number, minus infinity) return; the wave shaper returns for every input. Refuted beyond: e + 1 overflows for inputs of 2^27 (rate), 2^31 (dB), 2^23 (shaped sine) and for infinity. |
| C75 | Envelope rates and gains are interpolated in their tables | Tables: surge-tables/src/envelope.rs:EnvelopeTables::envelope_rate_lpf | partial | `C75_rate_partial`, `C75_gain_partial`, `C75_wraps_around`, `C75_below_extrapolates` | Proved inside the table range, with the rounding error bounded. Refuted outside: indices are masked, so the table is read round the corner (128 dB reads as -384 dB) and just below its start it is extrapolated. |
| C76 | Wave shapers stay between -1 and 1 | Tables: surge-tables/src/waveshape.rs:lookup_waveshape | partial | `C76_waveshaper_bounded`, `C76_warp_bounded`, `C76_asym_exceeds` | Proved for tables between -1 and 1 and every input. Refuted for the asymmetric shaper, whose first entry is below -19 in exact arithmetic. |
| C77 | A pointer into a shaping table points at the requested element | Tables: surge-tables/src/tables.rs:get_waveshaper_ptr | partial | `C77_offset_ignored`, `C77_pointer_in_table_partial` | Refuted: the offset argument is ignored; the pointer does stay inside the table. |
| C78 | Initialising the interpolation kernels fills every row | Tables: surge-tables/src/sinc.rs:init | partial | `C78_kernels_filled_partial`, `C78_i16_kernel_flat` | Proved for the two float tables. Refuted for the 16-bit table: 16384 is added instead of multiplied, leaving every entry 16383..16385. |
| C79 | The gain table follows the decibel scale | Tables: surge-tables/src/gain.rs:init | proved | `C79_gain_accurate`, `C79_gain_rises` | In exact (real) arithmetic; the rounding of the lookup is bounded in C75. |
| C80 | Wavetable samples have a place of their own | Wavetable: surge-wavetable/src/calc.rs:required_wt_size | proved | `C80_regions_disjoint`, `C80_size_estimate_covers`, `C80_empty_wave_panics` | Disjointness for all inputs; size estimate covers all levels for padding up to 11 (12 for powers of two). C80_empty_wave_panics is an extra finding. |
| C81 | Number of mip levels | Wavetable: surge-wavetable/src/dim.rs:required_mipmap_levels | proved | `C81_levels_least`, `C81_levels_nonempty`, `C81_levels_pow2` | For all lengths. |
| C82 | Coarser mip levels are filtered versions of finer ones | Wavetable: surge-wavetable/src/mipmap.rs:populate_mipmaps | partial | `C82_one_tap_partial`, `C82_i16_is_decimation`, `C82_constant_lost` | False of the code: each product overwrites the last instead of being added, so one tap remains (C82_one_tap_partial is the exact behaviour). C82_i16_is_decimation and C82_constant_lost refute the property. |
| C83 | A wavetable holds the samples it was built from | Wavetable: surge-wavetable/src/init.rs:populate_base_mipmap_level | proved | `C83_base_level_exact`, `C83_tail_silent`, `C83_wrong_count_panics`, `C83_few_waves_panics` | For all buildable dimensions and contents; wrong counts are rejected by a panic (assertion). |
| C84 | Loading a wavetable file | Wavetable: surge-wavetable/src/try_from_wavfile.rs | partial | `C84_load_partial`, `C84_load_float_partial`, `C84_surplus_panics`, `C84_stereo_panics`, `C84_bad_loop_refused`, `C84_recording_partial`, `C84_recording_panics`, `C84_srgo_panics` | Successful loads proved end to end from file bytes (C84_load_partial, C84_load_float_partial, C84_recording_partial) and bad loop lengths refused; the never-panics part is false: C84_surplus_panics, C84_stereo_panics, C84_recording_panics, C84_srgo_panics. |
| C85 | Derived wavetable sizes | Wavetable: surge-wavetable/src/base.rs:num_samples_per_table_po2 | partial | `C85_pow2_exact`, `C85_odd_log` | Exact for powers of two; false for other lengths (C85_odd_log): bitscan_reverse counts trailing zeros. |
| C86 | The dual delay plays back what was written, exactly the requested time ago | Delay: surgefx-dualdelay/src/block.rs do_dualdelay_block | proved | `C86_dual_delay_reads_history`, `C86_causal`, `C86_write_in_bounds` | Kernel contents arbitrary; delay times, filters and feedback that produce the written blocks are inputs. dual delay smoothing (Lag::new(0.0001)) is covered by C33: it misses its target by 2.5 percent. |
| C87 | The chorus voices read what was written, for every block size | Delay: surgefx-chorus/src/block.rs do_chorus_block | proved | `C87_chorus_reads_history` | Kernel contents, voice times and pan gains arbitrary. Smaller block sizes are outside (copy_block moves 32 floats at a time, see C58). |
| C88 | The flanger's delay line returns what was written that many samples ago | Flanger: surgefx-flanger/src/interp_delay.rs InterpDelay::value, push | partial | `C88_interp_delay`, `C88_long_delay_wraps`, `C88_read_returns` | Holds for delays below 8191 samples (C88_interp_delay); longer delays, which the parameters allow at low pitches, wrap around and return newer samples (C88_long_delay_wraps). Reads never fail (C88_read_returns). |
| C89 | The flanger's output is bounded and never fails | Flanger: surgefx-flanger/src/block.rs do_flanger_block | proved | `C89_flanger_bounded`, `C89_flanger_returns`, `C89_sample` | Kernel-free f32 model of one channel; damping in 0..1; C89_flanger_returns asks delays above -2^30 samples (a -inf delay overflows). |
| C90 | The flanger's modulators stay in range | Flanger: surgefx-flanger/src/weights.rs | partial | `C90_longphase`, `C90_phase`, `C90_oscillator`, `C90_phase_one_panics`, `C90_voice_weights`, `C90_arp_weights`, `C90_tap_place` | Phases, waves, weights and tap place (C90_tap_place) proved; the claim that the sine wave never fails is refuted when the phase lands exactly on 1 (C90_phase_one_panics). |
| C91 | The reverb is stable | Reverb: surgefx-reverb/src/block.rs do_reverb_block | partial | `C91_automated_envelope`, `C91_automated_bounded`, `C91_automated_settings`, `C91_output_envelope`, `C91_bounded`, `C91_tail_decays`, `C91_decays`, `C91_settings_decay`, `C91_pan_power`, `C91_room_zero_unbounded`, `C91_damping_one_freezes` | Proved over the reals (no rounding) for damping below 1 and delay times of at least 1, with fixed settings (C91_output_envelope, C91_bounded, C91_tail_decays, C91_settings_decay) and with decay time, predelay and pan changed at every sample (C91_automated_*). Refuted at room size 0 with damping 0 (C91_room_zero_unbounded) and at damping 1, where the taps freeze (C91_damping_one_freezes). Missing: f32 rounding, changes of room size and damping during the run. |
| C92 | The reverb's delay lines return what was written that many samples ago | Reverb: surgefx-reverb/src/block.rs delay_idx, do_pre_taps, do_post_taps | proved | `C92_reverb_sample`, `C92_reverb_run` | Arithmetic abstract, so for f32 as well; predelay 0..32767 in a build with wrapping subtraction (see C93 for the checked build). |
| C93 | The reverb's predelay delays the input and every preset fits | Reverb: surgefx-reverb/src/get.rs get_fb | partial | `C93_predelay_panics`, `C93_presets_fit`, `C93_long_predelay_wraps` | Presets fit (C93_presets_fit). The predelay is right for 0..32767 samples in a build with wrapping subtraction (C92_reverb_sample); refuted in a checked build (C93_predelay_panics: the default settings panic on the first sample) and for longer predelays (C93_long_predelay_wraps). |
| C94 | A biquad filter computes its difference equation whatever is called | Biquad: surge-biquad/src/process_sample.rs process_sample | partial | `C94_difference_equation_partial`, `C94_constant_coefficients_partial` | Exact real arithmetic instead of f64/f32 rounding. |
| C95 | Changing a filter's design is a geometric glide that never overshoots | Biquad: surge-lag/src/vlag.rs VLag::process | partial | `C95_glide_partial`, `C95_first_is_immediate`, `C95_instantize`, `C95_no_overshoot_partial` | Exact real arithmetic instead of f64/f32 rounding. |
| C96 | Every filter design below the Nyquist frequency is stable | Biquad: surge-biquad/src/coeff_lp.rs | partial | `C96_bounded_output_partial`, `C96_glide_stays_stable`, `C96_bounded_while_gliding_partial`, `C96_rounded_bounded`, `C96_rounded_while_gliding` | Bounded output and forgetting are proved for constant coefficients of every design in exact arithmetic; for a glide from any coefficients to a stable design in exact arithmetic (C96_bounded_while_gliding_partial) and with every operation of filter and smoothers rounded (C96_rounded_while_gliding); and with coefficients anywhere within a margin of a stable design, rounded, with explicit constants (C96_rounded_bounded). Missing: designs that change again by more than that margin before the glide has come near, and the rounding inside the computation of the coefficients from cutoff and quality. |
| C97 | The filters have the frequency response they plot, with the gains their names promise | Biquad: surge-biquad/src/plot_magnitude.rs | partial | `C97_response_partial`, `C97_lowpass_partial`, `C97_highpass_partial`, `C97_no_gain_partial`, `C97_bandpass_partial`, `C97_allpass_partial`, `C97_notch_partial`, `C97_lp2b_partial`, `C97_pka_partial`, `C97_lp2b_gains` | Exact real arithmetic instead of f64/f32 rounding. Every gain in the statement is proved for every cutoff and quality; also those of the second low pass (C97_lp2b_gains) and of the peaking band pass at the cutoff. The peak EQ is C147. |
| C98 | The all-pass filter conserves energy | Biquad: surge-biquad/src/coeff_apf.rs coeff_apf | partial | `C98_allpass_energy_partial` | Exact real arithmetic instead of f64/f32 rounding. For the sample-wise functions (the block functions flush registers below 1e-30). |
| C99 | A cutoff above the Nyquist frequency is harmless | Biquad: surge-biquad/src/coeff_bp.rs coeff_bp | partial | `C99_guarded_partial`, `C99_bandpass_explodes`, `C99_morph_ignored` | Exact real arithmetic instead of f64/f32 rounding. Proved for the guarded designs; refuted for the band pass (C99_bandpass_explodes). |
| C100 | The voice filters compute the filter they were designed as | Filters: surgefilter-iir/src/iir_process_quad.rs process_quad | partial | `C100_biquad_partial`, `C100_svf_panics`, `C100_fresh_forgets`, `C100_fresh_medium` | Exact real arithmetic instead of f32 rounding. Rough and medium need complex poles, medium an output within one half (limiter idle). Deviations of fresh units and the unreachable subtype are theorems (C100_fresh_forgets, C100_fresh_medium, C100_svf_panics). |
| C101 | Modulated voice filters stay bounded | Filters: surgefilter-iir/src/quad_iir_12_cfc.rs | partial | `C101_bounded_partial`, `C101_small_signal_partial`, `C101_radius`, `C101_smooth_partial`, `C101_smooth_four_modulated_partial`, `C101_smooth_two_modulated_partial` | Exact real arithmetic instead of f32 rounding. All filters over whole lives of modulation among uniformly stable designs; the two-pole smooth filter, whose halves see different coefficients, only where its margins exceed what a sample's glide can add (C101_smooth_two_modulated_partial), and at fixed coefficients for every stable design (C101_smooth_partial); small-signal statement for the two-pole rough filter. |
| C102 | A voice filter is tuned to the note it is given | Filters: surgefilter-iir/src/iir.rs coeff_make | partial | `C102_mirrored`, `C102_notch_misplaced`, `C102_lowpass_open` | Refuted: C102_mirrored shows what the filters are tuned to instead, C102_notch_misplaced and C102_lowpass_open the audible consequence. Integer notes, exact real arithmetic. |
| C103 | The voice filters' settings are stable | Filters: surgefilter-iir/src/iir.rs coeff_make | partial | `C103_damping`, `C103_stable_partial`, `C103_unstable` | Exact real arithmetic instead of f32 rounding. Integer notes. Proved below a quarter of the oversampled rate with positive damping; refuted above it (C103_unstable) and at full resonance (C103_damping). |
| C104 | Filter coefficients move smoothly to what is wanted | Filters: surge-coeffmaker/src/maker.rs from_direct | proved | `C104_advances`, `C104_ramp_lands`, `C104_first_block_silent`, `C104_converges`, `C104_hull` | Exact real arithmetic; the dropped first settings are C104_first_block_silent. |
| C105 | The state-variable filter is a stable biquad with the right gains at DC | Filters: surgefilter-svf/src/svf.rs coeff_make | partial | `C105_biquad_partial`, `C105_stable_iff`, `C105_design_stability`, `C105_dc`, `C105_bounded_partial`, `C105_bounded_resonant_four`, `C105_bounded_settings`, `C105_bounded_resonant`, `C105_bounded_two_pole` | Exact real arithmetic instead of f32 rounding; fixed coefficients. Boundedness: a multiple of the input where the section is stable (C105_bounded_partial), and K(1 + M) at every cutoff and resonance, self-oscillation included, for both orders (C105_bounded_settings). |
| C106 | The sample-and-hold filter renews its value at the note's rate | Filters: surgefilter-snh/src/snh.rs process_quad | partial | `C106_holds_partial`, `C106_rate`, `C106_rate_made`, `C106_bounded` | Exact real arithmetic instead of f32 rounding. C106_bounded holds for every modulation; the exact timing for fixed coefficients. |
| C107 | The ladder filter cannot blow up | Filters: surgefilter-moog/src/process.rs process_quad | proved | `C107_bounded`, `C107_odd`, `C107_coefficients` | Exact real arithmetic for the filter step; settings from any real pitch, period and resonance. |
| C108 | However cut into blocks, the half-rate filter is one half-band filter per channel | Halfrate: surge-halfrate/src/halfratefilter.rs new/reset/default | partial | `C108_one_filter`, `C108_reset`, `C108_new_iff`, `C108_default_is_no_filter`, `C108_oversize` | Exact real arithmetic for the signal path (coefficients are the f32 values). Filters of new(1..6, _) satisfy it; refuted for default() (C108_default_is_no_filter). new(0) and blocks over 256 samples panic (C108_new_iff, C108_oversize). |
| C109 | The half-rate filter never adds energy | Halfrate: surge-halfrate/src/process_block.rs | proved | `C109_no_energy_gain` | Exact real arithmetic instead of f32 rounding in the signal path. |
| C110 | The half-rate filter's frequency response is that of its all-pass pair | Halfrate: surge-halfrate/src/process_block.rs | proved | `C110_sinusoid`, `C110_shape` | Exact real arithmetic instead of f32 rounding in the signal path; the coefficients are the rounded f32 ones. |
| C111 | The half-rate filter reaches the rejection its tables advertise | Halfrate: surge-halfrate/src/softer.rs | partial | `C111_reached`, `C111_output`, `C111_passband`, `C111_shortfall` | Refuted for four of the twelve tables (C111_shortfall); C111_reached proves for every table the rejection it does reach, which is the advertised one for the other eight. |
| C112 | Resampling by two keeps tones and suppresses images | Halfrate: surge-halfrate/src/process_block_u2.rs | proved | `C112_upsample`, `C112_halved`, `C112_image`, `C112_downsample` | Exact real arithmetic instead of f32 rounding in the signal path. |
| C113 | The quadrature oscillator stays on the unit circle and keeps its phase | Units: surge-quadrosc/src/lib.rs QuadrOsc | proved | `C113_phase`, `C113_sine`, `C113_untuned` | Exact real arithmetic instead of f64 rounding. The need of a first set_rate is C113_untuned. |
| C114 | Unison voices are balanced | Units: surge-blitter/src/prepare_unison.rs prepare_unison | proved | `C114_balanced`, `C114_distinct`, `C114_too_many` | Exact real arithmetic instead of f32 rounding. |
| C115 | A change of the sample rate reaches every rate | Units: surge-samplerate/src/handle.rs set_samplerate | partial | `C115_rates_partial`, `C115_stale` | Refuted for two of the eight rates (C115_stale); the other six are C115_rates_partial, for any rounding. |
| C116 | The tempo ratio follows the host's tempo | Units: surge-timeunit/src/unit.rs TimeUnit/TimeUnitHandle | partial | `C116_update_partial`, `C116_no_tempo` | Refuted (C116_no_tempo); what update does with the tempo it holds is C116_update_partial. |
| C117 | Audio inputs and outputs have separate channels, renewed each block | Units: surge-input/src/handle.rs | partial | `C117_inputs_overlap`, `C117_inputs_stale`, `C117_outputs_distinct_partial` | Refuted for the inputs (C117_inputs_overlap, C117_inputs_stale); the outputs are C117_outputs_distinct_partial. |
| C118 | The clip, tanh and digital wave shapers follow their curves | Units: surgeshaper-tanh/src/tanh.rs | proved | `C118_tanh`, `C118_tanh_curve`, `C118_clip`, `C118_digi` | Exact real arithmetic except for the reciprocal, which is any function within its relative error; integer overflow of the digital shaper beyond 2^31 not modelled. |
| C119 | The sine and asymmetric wave shapers follow their tables | Units: surgeshaper-sine/src/sse2.rs | partial | `C119_constant` | Refuted: C119_constant. |
| C120 | The limiter's tree holds the maximum of its look-ahead window | Dynamics: surgefx-conditioner/src/lookahead.rs: do_lookahead | proved | `C120_root` | Exact real arithmetic instead of f32 rounding. |
| C121 | The limiter delays by exactly its look-ahead | Dynamics: surgefx-conditioner/src/block.rs: do_conditioner_block, update_delayed, increment_bufpos | proved | `C121_delay` | Exact real arithmetic instead of f32 rounding. |
| C122 | The limiter limits | Dynamics: surgefx-conditioner/src/lookahead.rs: get_lookahead | partial | `C122_gain_partial`, `C122_never_amplifies`, `C122_ignores_refuted`, `C122_peak_passes_refuted`, `C122_uninitialised_refuted` | Gain bounds: C122_gain_partial, C122_never_amplifies. The rest is refuted: get_lookahead reads leaf 126 instead of the root, so all samples but those at positions 126 mod 128 are ignored (C122_ignores_refuted, C122_peak_passes_refuted); without init the first gain is 1000 (C122_uninitialised_refuted). |
| C123 | Voices of a quad do not disturb each other | Chain: surge-qfunit/src/do_*.rs | partial | `C123_voices_independent`, `C123_inactive_silent`, `C123_debug_mono`, `C123_debug_refuted` | Proved in full for builds without debug assertions and, with them, for the six one-signal configurations; stereo and wide panic in debug builds when the sum of all voices reaches 32 (C123_debug_refuted). Exact reals; each filter treats lanes separately (hypothesis built into globals). |
| C124 | A voice's settings glide to their targets | Chain: surge-voice/src/set_qfb.rs: set_quad_filterblock | partial | `C124_targets_partial`, `C124_other_lanes`, `C124_continues`, `C124_left_overshoots_refuted`, `C124_mixes` | Proved except the left level of stereo and wide, which moves twice as far as it should (C124_left_overshoots_refuted). |
| C125 | Filter feedback cannot run away | Chain: surge-qfunit/src/do_serial2.rs, do_serial3.rs, do_dual1.rs, do_dual2.rs, do_stereo.rs, do_ring.rs, do_wide.rs | proved | `C125_feedback_bounded`, `C125_filters_have_peak_gain`, `C125_voice_bounded` | Exact real arithmetic; peak gains of the filters are hypotheses. |
| C126 | Filter-block paths are what their names say | Chain: surge-qfunit/src/do_serial1.rs | proved | `C126_serial1_no_feedback`, `C126_serial3_filter2_in_loop`, `C126_bypass_front`, `C126_bypass_back`, `C126_wide_channels`, `C126_symmetric` | Exact real arithmetic. |
| C127 | Each voice's samples reach its own lane | Chain: surge-voice/src/process.rs: process_block | partial | `C127_first_voice_partial`, `C127_lanes_refuted` | Only the first voice of a quad is right (C127_first_voice_partial); refuted for the others (C127_lanes_refuted). |
| C128 | A legato note glides from the pitch that is sounding | Voice: surge-voice/src/portamento.rs: update_portamento, legato | partial | `C128_legato_glides_partial`, `C128_glide`, `C128_legato_at_end_panics_refuted`, `C128_code_panics_refuted`, `C128_first_source` | Glide proved for histories whose phase is not exactly 1 at the legato note and with a tempo ratio; the code's ratio is todo!() (every block panics) and a legato note at phase exactly 1 fails lerp's assertion. |
| C129 | Oscillator pitch shift: relative in notes, absolute in hertz | Voice: surge-voice/src/note_shift.rs: note_shift_from_pitch_param | partial | `C129_relative`, `C129_absolute_partial`, `C129_whole_notes`, `C129_fraction_lost_refuted`, `C129_low_panics_refuted` | Relative mode and whole notes proved; absolute mode drops the fraction of the note, and notes at or below -257 panic (refuted). |
| C130 | A voice plays the level-weighted sum of its enabled sources | Voice: surge-voice/src/process.rs: process_block | partial | `C130_mix_partial`, `C130_right_silent_refuted`, `C130_stale_modulator_refuted`, `C130_off_panics_refuted`, `C130_routes` | Left input, and both inputs in the wide path, proved; outside wide the oscillators never reach the right input, a ring-only voice with FM uses a stale modulator, an Off oscillator panics (refuted). |
| C131 | Solo and mute | Voice: surge-voice/src/toggle_solo.rs: maybe_toggle_solo | proved | `C131_solo_mute`, `C131_disabled_inaudible` | Enables and non-interference of disabled sources. |
| C132 | Pan law | Voice: surge-math/src/pan.rs: megapan_left, megapan_right | partial | `C132_mono`, `C132_direction`, `C132_mirror`, `C132_two_signals_partial`, `C132_channel_pan_refuted` | Law proved for one-signal paths, mirror symmetry for all; channel pan does not move the second signal of stereo/wide (refuted). |
| C133 | Pitch, bend, key tracking and cutoff of a voice | Voice: surge-voice/src/calc_pitch.rs: get_pitchbend, calc_pitch | partial | `C133_bend_partial`, `C133_octave_partial`, `C133_no_bend_source_refuted`, `C133_keytrack`, `C133_keytrack_toggled_refuted`, `C133_cutoff` | Formulas proved given a bend source; no voice has one (panic), and key tracking after a switch is wrong (refuted). |
| C134 | Switching filter types restarts the filters | Voice: surge-voice/src/toggle_filter.rs: maybe_toggle_filter | partial | `C134_switch_partial`, `C134_wide_stale_refuted` | Proved for the two main filters; switching to wide leaves the twin filters stale (refuted). |
| C135 | Ages and end of a voice | Voice: surge-voice/src/process.rs: process_block | partial | `C135_life_partial`, `C135_stops_for_good`, `C135_overflow_refuted` | Proved up to 2^31 blocks; then the age overflows (refuted). Release calls inside the envelope are todo!() (C35). |
| C136 | Aftertouch reaches the notes | Voice: surge-voice/src/calc_modsources.rs: calc_modsources | partial | `C136_channel_pressure_refuted` | Refuted: the channel source keeps the pressure at note start; the channel pressure goes to the polyphonic source. |
| C137 | Vocoder bands are spread evenly between the limits | Vocoder: surgefx-vocoder/src/update.rs: update | proved | `C137_bands` | Exact real arithmetic. |
| C138 | Vocoder band filters are stable band-passes | Vocoder: surge-svf/src/svf.rs: calc_bpf, calc_f, calc_q | partial | `C138_stable`, `C138_bounded`, `C138_dies`, `C138_blocks_dc` | Exact real arithmetic; for rates from 44100 Hz up (below about 43 kHz the top bands are unstable). |
| C139 | Vocoder envelopes follow the modulator | Vocoder: surgefx-vocoder/src/block.rs: do_vocoder_block | proved | `C139_step`, `C139_approach` | Exact real arithmetic. |
| C140 | The vocoder imposes the modulator's envelopes on the carrier | Vocoder: surgefx-vocoder/src/block.rs: do_vocoder_block | partial | `C140_output_automated`, `C140_linear_automated`, `C140_bounded_automated`, `C140_silent_modulator_automated`, `C140_output`, `C140_bounded`, `C140_silent_modulator`, `C140_linear`, `C140_sides` | Exact real arithmetic. Rate and gate may change at any time (the _automated theorems); the band filters (number, places, Q) are fixed during the run. |
| C141 | Fast sine and cosine follow the real ones | Dsp: surge-math/src/fast.rs: fastsin, fastcos, clamp_to_pi_range | proved | `C141_sine`, `C141_cosine`, `C141_wrap`, `C141_everywhere`, `C141_documented_refuted` | f32 rounding of the evaluation is not modelled; the documented error bound 1e-5 is refuted in C141_documented_refuted |
| C142 | Fast tanh and tan follow the real ones | Dsp: surge-math/src/fast.rs: fasttanh, fasttanh_sse, fasttanh_sse_clamped, fasttan | proved | `C142_tanh`, `C142_tanh_clamped`, `C142_limiter_refuted`, `C142_tan` | f32 rounding not modelled; not a limiter: C142_limiter_refuted |
| C143 | Fast exp follows the real one | Dsp: surge-math/src/fast.rs: fastexp, fastexp_sse | proved | `C143_exp`, `C143_range_refuted` | f32 rounding not modelled; documented range refuted in C143_range_refuted |
| C144 | The ring modulator's diodes: dead zone, slope, four-quadrant product | Effects: surgefx-ringmod/src/diode_sim.rs diode_sim | proved | `C144_diode`, `C144_ring` | Exact reals, no f32 rounding. |
| C145 | The ring modulator's carrier stays in range and runs at the asked frequency | Effects: surgefx-ringmod/src/process.rs | partial | `C145_carrier`, `C145_phase`, `C145_cycles`, `C145_frequency_refuted` | Exact reals. The frequency part of the claim is refuted (C145_frequency_refuted) and the frequency the code does have is proved (C145_cycles); the other parts are proved. |
| C146 | The ring modulator's output: full scale in, full scale out; silence; dry | Effects: surgefx-ringmod/src/process.rs | partial | `C146_unison`, `C146_bounded`, `C146_silence_dry`, `C146_many_refuted` | Exact reals; the cut filters and the oversampling filters around it are not part of this model. The bound is proved for up to two carriers and refuted for sixteen. |
| C147 | The peak equaliser leaves 0 Hz alone, reaches the asked gain at the centre and is stable | Biquad: surge-biquad/src/coeff_peak_eq.rs coeff_peak_eq | partial | `C147_peak_partial`, `C147_peak_settings_partial`, `C147_flat` | Exact reals; decibels exact in C147_peak_settings_partial, arbitrary in the others. The response needs the quantity under the first root to be positive: proved for centres up to a quarter of the sample rate, two to four octaves and gains from -18 dB; missing is where else it is (outside it every coefficient is NaN). |
| C148 | The phaser never gains energy | Effects: surgefx-phaser/src/block.rs process_block | partial | `C148_energy_partial`, `C148_bounded_partial`, `C148_mix`, `C148_bounded_after_sweep_partial` | energy and bound with sweep depth 0 and base, quality constant; the bound also after any past, moving sweeps included, once the sweep is off (C148_bounded_after_sweep_partial); cross-fade for all runs. Missing: the bound while the sweep keeps moving, f32 rounding |
| C149 | The phaser's sweep stays in range | Effects: surgefx-phaser/src/update.rs update | partial | `C149_lfo_partial`, `C149_lfo_runs_away_refuted` | proved for a step of at most 1 per update; refuted above (reachable: rate 9 at 44.1 kHz moves 2.97 per update), the phase is reduced by 1 only once |
| C150 | The distortion's output is made from the whole block and only the block is written | Effects: surgefx-distortion/src/process.rs stereo_process | partial | `C150_first_eight_refuted`, `C150_overrun_refuted` | refuted: the output is made from the first 8 of 32 input samples, and the first half-band filter writes 32 samples past the block |
| C151 | The distortion's output is bounded whatever the drive and feedback | Effects: surgefx-distortion/src/process.rs stereo_process | partial | `C151_bounded_after_automation_partial`, `C151_bounded_partial` | stable post filters, any shape bounded by W; also after any automation once the settings behind the shaper stay (C151_bounded_after_automation_partial). Missing: the bound while the post filters keep moving, f32 rounding |
| C152 | The pre-delay of the all-pass reverb delays by the time it is set to | Effects: surgefx-allpass/src/predelay.rs: PreDelay::process | partial | `C152_plays_partial`, `C152_first_echo_refuted` | Proved: every call plays the sample of the set number of calls ago or panics, and exactly when. Refuted: with a constant pre-delay the assertion p > 0 fails on the very sample on which the first echo is due. |
| C153 | The diffusers of the all-pass reverb lose and add no energy | Effects: surgefx-allpass/src/allpass.rs: Allpass::process | partial | `C153_lossless`, `C153_too_long_refuted` | Proved for every input and history of lengths up to 16384, in real arithmetic. Refuted beyond (not reachable below about 135 kHz): the index leaves the buffer. Missing: rounding to f32. |
| C154 | The tail of the all-pass reverb is finite and dies away | Effects: surgefx-allpass/src/block.rs: do_allpass_block, do_process_block | partial | `C154_total`, `C154_tail_partial`, `C154_dies_partial`, `C154_gain` | Proved: totality for all settings, energy bound and decay with fixed lengths and coefficients (the decay itself may move), modulation off. Missing: modulation of the lines, moving lengths, f32. |
| C155 | The delay lines of the all-pass reverb play the set time back | Effects: surgefx-allpass/src/delay.rs: Delay::process | partial | `C155_plays`, `C155_long_refuted`, `C155_sizes`, `C155_48k_refuted` | Proved for lengths and taps up to 16384 samples, all modulations; all lengths fit up to a product of sample rate and room scale of 91633 Hz. Refuted at 48 kHz and full room size. |
| C156 | The FM2 oscillator plays the FM formula | Osc: surgeosc-fm2/src/process.rs, surgeosc-fm2/src/block.rs, surgeosc-fm2/src/init.rs: process_block, init | proved | `C156_formula`, `C156_bounded`, `C156_pure` | exact reals; unmodulated (see C159 for external FM) |
| C157 | FM modulation depths follow the parameters | Osc: surgeosc-fm2/src/process.rs: process_block | partial | `C157_deaf_refuted`, `C157_dies_refuted` | refuted: the depth smoothers are made with Lag::new(0.0), whose target weight is 0, so depths fade as 0.996^n and later values are ignored |
| C158 | The sine oscillator shapes the same phase in all modes | Osc: surgeosc-sine/src/legacy.rs, surgeosc-sine/src/compute.rs: process_block_legacy, value_from_sin_and_cos | partial | `C158_legacy`, `C158_bounded`, `C158_swapped_refuted` | closed form and bound proved; legacy mode passes the negated cosine, so shapes 2 and 3 are swapped |
| C159 | Oscillators never read an invalid FM source | Osc: surgeosc-fm/src/process.rs, surgeosc-fm/src/fm.rs: process_block, assign_fm | partial | `C159_sine_refuted`, `C159_fm_refuted`, `C159_fm2_partial` | refuted for FM and sine (assign_fm is empty, the pointer stays null); FM2 is safe exactly without FM |
| C160 | The audio-input oscillator balances its two inputs | Osc: surgeosc-audioin/src/process.rs: process_block | proved | `C160_balance` | exact reals |
| C161 | The super oscillator's band-limited impulses overlap-add without gap or loss | Osc: surgeosc-super/src/convolute/convolute.rs: convolute | proved | `C161_superposition`, `C161_total` | exact reals; any number of impulses, any placement inside the block, mono and stereo |
| C162 | The super oscillator's pitch does not depend on its shape | Osc: surgeosc-super/src/convolute/convolute.rs: convolute | partial | `C162_period`, `C162_pitch_refuted` | C162_period: a cycle takes exactly two periods whatever the shape; C162_pitch_refuted: in the default tuning the period used is 1/1024 of the note's (ten octaves too high) |
| C163 | The super oscillator does not drift | Osc: surgeosc-super/src/convolute/convolute.rs: convolute | proved | `C163_impulses`, `C163_slope`, `C163_no_drift`, `C163_steady` | exact reals with an exact reciprocal (the code's rcp is approximate) |
| C164 | Every block of the super oscillator ends, with each impulse at its time | Osc: surgeosc-super/src/process/process.rs: process_block | partial | `C164_terminates`, `C164_placed`, `C164_absolute_refuted`, `C164_plays` | proved for relative detuning; C164_absolute_refuted: with absolute detuning a period below 0.1 is replaced by 0 and the block never ends |
| C165 | The wavetable oscillator keeps its pitch whatever the skew and the formant | Osc: surgeosc-wavetable/src/convolute/convolute.rs: convolute | proved | `C165_ends`, `C165_period`, `C165_plays` | exact reals; morph steady for the run theorems, any place between two tables for C165_ends |
| C166 | The wavetable oscillator plays the wave of the table | Osc: surgeosc-wavetable/src/convolute/get.rs: get_newlevel | partial | `C166_impulses`, `C166_no_drift`, `C166_wave`, `C166_scale_refuted`, `C166_same_refuted` | C166_no_drift, C166_wave proved; C166_scale_refuted: the 16-bit samples are not scaled, so that only their signs are heard |
| C167 | Morphing through the tables neither clicks nor aborts | Osc: surgeosc-wavetable/src/process/update_tables.rs: update_tables | partial | `C167_in_range`, `C167_smooth_partial`, `C167_clicks_refuted`, `C167_abort_refuted` | C167_in_range; no click within a pair of tables (C167_smooth_partial); C167_clicks_refuted and C167_abort_refuted: crossing a table boundary clicks, and can abort |
| C168 | A wavetable oscillator can be created and fed any table | Osc: surgeosc-wavetable/src/new.rs: new | partial | `C168_create_refuted`, `C168_one_table_refuted` | refuted: creation always panics, a single table makes the next impulse panic |
| C169 | One-shot samples play their tables in order, the set number of times | Osc: surgeosc-wavetable/src/convolute/blitstate_zero.rs: do_blitstate_zero_for_convolute | proved | `C169_loops` | as stated |
| C170 | The unison voices of the wavetable oscillator are panned | Osc: surgeosc-wavetable/src/convolute/convolute.rs: convolute | partial | `C170_mono_refuted` | refuted: left and right are always equal |
| C171 | The sample-and-hold oscillator finishes every block with its impulses in their samples | Osc: surgeosc-snh/src/process.rs: process_block | proved | `C171_impulses`, `C171_ends`, `C171_placed` | exact real arithmetic, the kernel's values and fm not modelled |
| C172 | The sample-and-hold oscillator's held level stays within its range | Osc: surgeosc-snh/src/convolute.rs: convolute | proved | `C172_levels`, `C172_sign`, `C172_correlation`, `C172_sync`, `C172_held`, `C172_uncorrelated` | exact real arithmetic |
| C173 | The sample-and-hold oscillator holds its levels for the pulse width and the rest of the period | Osc: surgeosc-snh/src/process.rs: process_block | partial | `C173_period_partial`, `C173_reached`, `C173_double_refuted`, `C173_restart_refuted` | proved from the second block on; refuted before it and when the pitch rises: the sync that is off still restarts the cycle (first level doubled, rising pitch restarts) |
| C174 | The sample-and-hold oscillator's unison detune follows the spread | Osc: surgeosc-snh/src/convolute.rs: convolute | partial | `C174_spread_refuted`, `C174_count_refuted` | refuted: the voice count is used in place of the spread |
| C175 | The window oscillator's pitch is exact for ever | Osc: surgeosc-window/src/process_block.rs: process_oscillator_block | proved | `C175_plays`, `C175_phase` | ratio < 2^30, tables of 2^k samples with all their levels |
| C176 | The window oscillator changes formant and wave only where a window starts | Osc: surgeosc-window/src/process_block.rs: process_oscillator_block | partial | `C176_formant`, `C176_table_refuted` | proved for the formant; refuted for the wave: the new table's address is kept for one sample only, the rest of the block plays the old table |
| C177 | The window oscillator's positions lie inside its tables | Osc: surgeosc-window/src/process_block.rs: process_oscillator_block | proved | `C177_inside` | the positions, not the reads themselves (C178) |
| C178 | The window oscillator reads only from its tables | Osc: surgeosc-window/src/access.rs: get_wave, get_win | partial | `C178_wild_refuted`, `C178_null_refuted` | refuted: the first sample's value is used as the table's address |
| C179 | The window oscillator's mip-map level follows the pitch | Osc: surgeosc-window/src/subosc.rs: process_sub_osc | partial | `C179_low_partial`, `C179_odd_refuted`, `C179_level_refuted` | proved below 4/3 sample per step; refuted above: trailing zeros instead of the highest bit; the tables of a new oscillator have one level and one window, and others panic |
| C180 | The window oscillator plays the chosen number of unison voices | Osc: surgeosc-window/src/init.rs: init | partial | `C180_unison_refuted` | refuted: always one voice |
| C181 | Every sample of the window oscillator's block is heard | Osc: surgeosc-window/src/process.rs: process_block | partial | `C181_first_four_refuted`, `C181_unheard_refuted` | refuted: only the first four samples of a block are heard |
| C182 | At the centre formant the window oscillator's wave and window run in step | Osc: surgeosc-window/src/formant.rs: get_formant_mul | partial | `C182_step_partial`, `C182_longer_refuted` | proved for waves not longer than the window; longer ones panic (usize subtraction) |
| C183 | The synthesizer never outputs a sample beyond eight times full scale | Synth: surge-synthesizer/src/synth/process.rs: process, do_halt | proved | `C183_output`, `C183_nan_is_loud` | as stated |
| C184 | The output meters show the level of the output | Synth: surge-synthesizer/src/synth/process.rs: process 461-481 | partial | `C184_meter_range_partial`, `C184_falloff_partial`, `C184_meter_refuted`, `C184_halt_freezes_refuted` | range and fall-off proved; false of the code: the meter mask blinds it below 2.0, and halting freezes it |
| C185 | Every block is rendered | Synth: surge-synthesizer/src/synth/process.rs: process, clear_inputs, do_process_inputs | partial | `C185_never_renders_refuted`, `C185_halt_partial` | false of the code: input rows are eight bytes apart, so clearing fails with an alignment error and processing inputs performs a misaligned aligned load; the halted path is proved for aligned output buffers |
| C186 | The two audio inputs are independent channels | Synth: surge-input/src/handle.rs: audio_in0, audio_in1 | partial | `C186_channels_alias_refuted`, `C186_oscillator_partial`, `C186_stereo_refuted` | false of the code: right sample k is left sample k+2; the oscillator's mixing is proved |
| C187 | A program change loads a program and the engine keeps playing | Synth: surge-synthesizer/src/synth/patchunit.rs: handle_patchid_queue | partial | `C187_program_change_refuted`, `C187_any_state_refuted`, `C187_idle_partial` | false of the code: the 40th block after a program change panics; idle behaviour proved |
| C188 | The housekeeping call is safe at any time | Synth: surge-synthesizer/src/synth/patchunit.rs: process_threadunsafe_operations | partial | `C188_housekeeping_refuted` | false of the code: panics when nothing is queued |
| C189 | Suspending and reloading effects touches exactly the requested effects, once | Synth: surge-synthesizer/src/synth/process_control.rs: maybe_suspend_fx | proved | `C189_suspend`, `C189_load` | as stated |
| C190 | The VST plugin plays the pressed key as a bounded sine, equal on all channels | Synth: surge-synthesizer/src/vst_host.rs: process, note_on | proved | `C190_sound`, `C190_attack`, `C190_bad_key` | as stated |
| C191 | The plugin is tuned to A4 = 440 Hz, equal temperament | Synth: surge-synthesizer/src/freq.rs: midi_pitch_to_freq | partial | `C191_scale_partial`, `C191_concert_pitch_refuted` | false of the code: A4 is 432 Hz; temperament proved |
| C192 | The plugin's sound does not depend on the host's buffer size | Synth: surge-synthesizer/src/vst_host.rs: process | partial | `C192_cut_partial`, `C192_cut_refuted` | false during the attack; proved half a second into the note |
| C193 | The plugin plays what the MIDI messages say | Synth: surge-synthesizer/src/vst_host.rs: process_midi_event, note_on, note_off, default | partial | `C193_notes_partial`, `C193_notes_refuted` | false of the code in three respects; note-on/note-off proved |
| C194 | A flat equaliser is transparent | Effects: surgefx-eq3band/src/init.rs: Eq3Band::init | partial | `C194_flat_settles_partial`, `C194_flat_is_transparent_refuted` | Refuted as stated: init starts the bands at +1 dB (the comment says 0 dB), so the first sample comes out louder; proved that the deviation dies away by 0.996 per sample. Exact real arithmetic. |
| C195 | The equaliser's output stays bounded | Effects: surgefx-eq3band/src/process.rs: stereo_process | partial | `C195_bounded_partial`, `C195_usual_settings_partial`, `C195_bounded_after_automation_partial` | Exact real arithmetic; from a fresh effect at constant parameters, and after any automation once the bands stay, output gain still moving (C195_bounded_after_automation_partial). Missing: bands moving for ever, f32 rounding |
| C196 | The frequency shifter moves a tone by the shift | Effects: surgefx-freqshift/src/process.rs | partial | `C196_frequency_shift_partial` | exact real arithmetic, feedback off, constant settings; C196_frequency_shift_partial |
| C197 | The right channel of the frequency shifter follows the sign of its ratio | Effects: surgefx-freqshift/src/update.rs | partial | `C197_squared_partial`, `C197_refuted` | refuted: the ratio is applied twice, so the right channel gets the square (C197_refuted, C197_squared_partial) |
| C198 | The delay of the frequency shifter | Effects: surgefx-freqshift/src/pre_block.rs | partial | `C198_delay_is_a_fortieth`, `C198_fraction_ignored` | refuted in effect: the lag's two coefficients do not add up to one, so that the delay settles on a fortieth of the request (C198_delay_is_a_fortieth), and fractions are lost (C198_fraction_ignored) |
| C199 | The frequency shifter stays bounded under automation | Effects: surgefx-freqshift/src/process.rs | proved | `C199_bounded_under_automation` | exact real arithmetic |
| C200 | With a modulator the FM and sine oscillators play their formulas | Osc: surgeosc-fm/src/block.rs | proved | `C200_fm`, `C200_fm_bounded`, `C200_sine`, `C200_legacy` | Proved for buffers set through the public field (assign_fm does nothing, C159); the external FM flag of the FM oscillator is constant over the run. |
| C201 | The nonlinear-states filter filters | Filters: surgefilter-nlstates/src/process.rs | partial | `C201_memoryless_refuted`, `C201_lowpass_refuted`, `C201_saturator_panics_refuted` | Refuted: the saturator overwrites the new state with the saturated old one, so the filter is memoryless (C201_memoryless_refuted, C201_lowpass_refuted) and half of the saturator selections panic (C201_saturator_panics_refuted). |
| C202 | The nonlinear filters' designs are stable and hit their targets | Filters: surgefilter-nlstates/src/coeff.rs | proved | `C202_stable`, `C202_gains`, `C202_centre` | as stated |
| C203 | The nonlinear-feedback filter cannot blow up and keeps silence | Filters: surgefilter-nlfeedback/src/process.rs | proved | `C203_bounded`, `C203_odd`, `C203_silence` | as stated |
| C204 | The OJD saturator is transparent for small signals | Filters: surgefilter-nlfeedback/src/nlff.rs: ojd_waveshaper | partial | `C204_no_feedback_refuted`, `C204_silence_refuted` | Refuted: the first arm of ojd_waveshaper reads input <= 1.7 instead of <= -1.7, so below 1.7 there is no feedback at all (C204_no_feedback_refuted) and silence turns into a constant (C204_silence_refuted). |
| C205 | The sine saturator limits the feedback | Filters: surgefilter-nlfeedback/src/nlff.rs: fastsin_ps | partial | `C205_explodes_refuted` | Refuted: fastsin is applied outside [-pi, pi] without clamping, where it grows like -26x; a notch at zero resonance diverges after one loud sample (C205_explodes_refuted). |
| C206 | The Runge-Kutta ladder never blows up | Filters: surgefilter-rungekutta/src/runge_kutta_process.rs: process_quad | proved | `C206_bounded`, `C206_odd`, `C206_silence` | as stated |
| C207 | The Runge-Kutta ladder integrates its circuit to fourth order | Filters: surgefilter-rungekutta/src/runge_kutta_process.rs: process_quad | partial | `C207_order_refuted` | Refuted: the code takes all derivatives half a step away, including the last; the error is proved to be between (hc)^2/24 and (hc)^2/12 for every step, i.e. the integrator is of first order. |
| C208 | The two-pole OB-Xd filter is passive | Filters: surgefilter-obxd/src/process_2pole.rs: process_2_pole | proved | `C208_circuit`, `C208_passive`, `C208_lowpass_within`, `C208_input_energy`, `C208_settles` | The public process_2_pole is proved; the trait's process_quad is todo!() and panics. |
| C209 | The four-pole OB-Xd filter stays bounded at every resonance | Filters: surgefilter-obxd/src/process_4pole.rs: process_4_pole | proved | `C209_bounded` | One lane in use; arctan exact. |
| C210 | The OB-Xd pole taps agree at DC | Filters: surgefilter-obxd/src/process_4pole.rs: process_4_pole | partial | `C210_fourth_tap_refuted` | Refuted: the tap of sub-type 3 adds the third tap to the fourth. |
| C211 | A selected OB-Xd tap is heard | Filters: surgefilter-obxd/src/process_4pole.rs: process_4_pole | partial | `C211_silent_refuted` | Refuted in exact arithmetic: the selector is compared with whole numbers but is faded in from zero and never reaches them. In f32 rounding eventually makes some of the comparisons true (for sub-types 1 and 2 after about 61 blocks); that is not modelled. |
| C212 | Diode ladder: unit gain at DC | Filters: surgefilter-diode/src/coeff.rs coeff_make | partial | `C212_dc_gain_refuted`, `C212_intended` | refuted at one cutoff for every sample rate (settled gain 6.5); what was meant is proved for every cutoff and resonance |
| C213 | Diode ladder: stability without resonance | Filters: surgefilter-diode/src/coeff.rs coeff_make | partial | `C213_stable_refuted` | refuted: unstable at zero resonance |
| C214 | Diode ladder: superposition and silence | Filters: surgefilter-diode/src/process_quad.rs process_quad | proved | `C214_linear`, `C214_silence` | any coefficient ramp |
| C215 | Huovilainen ladder: bounded whatever is played | Filters: surgefilter-huovilainen/src/huovilainen_process.rs process_quad | partial | `C215_bounded`, `C215_gain_partial` | bounded for all inputs and settings; the bound relative to the input only for resonance up to 0.2 |
| C216 | Huovilainen ladder: symmetric and silent | Filters: surgefilter-huovilainen/src/huovilainen_process.rs process_quad | proved | `C216_odd`, `C216_silence` | as stated |
| C217 | Comb filter: processes a sample | Filters: surgefilter-comb/src/process_sse2.rs process_quad | partial | `C217_runs_refuted` | refuted: always panics with an active voice |
| C218 | Comb filter: a safe feedback delay | Filters: surgefilter-comb/src/process_sse2.rs process_quad | proved | `C218_in_bounds`, `C218_feedback_delay`, `C218_bounded` | for the filter with simd_extract supplied |
| C219 | Wavetable oscillator: shaping never folds | Osc: surgeosc-wavetable/src/update.rs distort_level, update_lagvals | proved | `C219_neutral`, `C219_monotone`, `C219_louder` | as stated |
| C220 | Dual delay: the signal flow holds under any automation | Effects: surgefx-dualdelay/src/process.rs: stereo_process | partial | `C220_flow`, `C220_in_bounds`, `C220_dry`, `C220_silence` | complete signal flow, bounds, dry and silence proved for any automation, in exact real arithmetic (no rounding) |
| C221 | Dual delay: feedback stays in its channel, crossfeed goes to the other | Effects: surgefx-dualdelay/src/process.rs: do_feedback, do_crossfeed | partial | `C221_crossfeed_ignored_refuted`, `C221_feedback_is_shared_refuted` | refuted: do_crossfeed uses the feedback gain; the crossfeed setting has no effect on any output, feedback is always the sum of both channels |
| C222 | Dual delay: the echo comes after the time that is set | Effects: surgefx-dualdelay/src/update.rs: update | partial | `C222_modulation_bounded`, `C222_delay_is_a_fortieth_refuted` | refuted: Lag::new leaves the complement of the rate at 0.996, so the delay settles at a fortieth of the setting; modulation bound proved |
| C223 | Dual delay: the output stays bounded whatever the feedback | Effects: surgefx-dualdelay/src/process.rs: do_softclip, do_filters | proved | `C223_bounded` | exact real arithmetic, cuts constant |
| C224 | Dual delay: the echoes ring out after the input has ended | Effects: surgefx-dualdelay/src/process.rs: process_only_control | partial | `C224_ends_with_input_refuted` | refuted: process_only_control is todo!(): the first block without input panics |
| C225 | Rotary speaker: the output is horn plus bass of the mono input | Effects: surgefx-rotary/src/process.rs: stereo_process | proved | `C225_flow`, `C225_in_bounds`, `C225_mono`, `C225_silence` | as stated |
| C226 | Rotary speaker: delay and gain of the horn stay within the geometry | Effects: surgefx-rotary/src/process.rs: stereo_process | partial | `C226_delay`, `C226_gain`, `C226_never_inverts_refuted` | The ranges of delay and gain are proved; that the gain never turns negative is refuted (it reaches -0.2). |
| C227 | Rotary speaker: the bass rotor turns at seven tenths of the horn's speed | Effects: surgefx-rotary/src/set.rs: set_lfos | partial | `C227_seven_tenths_refuted` | Refuted: it turns 32 times too fast. |
| C228 | Rotary speaker: bounded, and silent after the input has ended | Effects: surgefx-rotary/src/process.rs: stereo_process | proved | `C228_bounded`, `C228_fades` | as stated |
| C229 | Rotary speaker: the return level sets the level, and without Doppler effect there is no delay | Effects: surgefx-rotary/src/param.rs | partial | `C229_return_level_scales_refuted`, `C229_no_doppler_no_delay_refuted` | Refuted: the return level is read nowhere, and the horn is always at least 32 samples late. |
| C230 | Rotary speaker: the interpolation uses one row of the kernel | Effects: surgefx-rotary/src/block.rs: do_rotaryspeaker_block | partial | `C230_one_row_refuted` | Refuted: the row offset is multiplied by 12 before it is truncated. |
| C231 | Rotary speaker: suspending silences it | Effects: surgefx-rotary/src/init.rs: suspend | partial | `C231_suspend_silences_refuted` | Refuted: the filters keep their state. |
| C232 | The chorus follows its signal flow for every input and automation | Effects: surgefx-chorus/src/process.rs stereo_process | proved | `C232_flow`, `C232_in_bounds`, `C232_mix`, `C232_silence` | exact real arithmetic; parameters arrive converted |
| C233 | The chorus voices are spread evenly in the cycle and in the stereo field | Effects: surgefx-chorus/src/init.rs init | partial | `C233_equal_power`, `C233_delays_in_range`, `C233_three_voices_refuted` | power, panning and range proved; four places in the cycle refuted: voices 0 and 3 coincide |
| C234 | The chorus cannot blow up | Effects: surgefx-chorus/src/process.rs stereo_process | proved | `C234_bounded` | cuts constant; exact real arithmetic |
| C235 | The chorus rings out when its input ends | Effects: surge-traits/src/ringout.rs process_ringout | partial | `C235_tail_waits_refuted` | refuted: the tail waits |
| C236 | Correlated noise stays in range and tilts the way it is told | Dsp: surge-math/src/correlated_noise.rs: correlated_noise | proved | `C236_bounded`, `C236_tilt` | as stated |
| C237 | The colour of the noise changes its spectrum, and the pitch drift wanders | Dsp: surge-math/src/correlated_noise.rs: correlated_noise_o2mk2, drift_noise | partial | `C237_colour_is_volume_refuted`, `C237_drift_stays_refuted` | refuted |
| C238 | The all-pass filter passes all | Dsp: surge-math/src/allpass.rs: AllpassFilter | proved | `C238_allpass` | as stated |
| C239 | Cubic interpolation joins its points smoothly and reproduces straight lines | Dsp: surge-math/src/interp.rs: cubic_interpolate | partial | `C239_cubic_joins`, `C239_lines_refuted` | the curve's joins proved; straight lines refuted |
| C240 | The windows are windows | Dsp: surge-math/src/window.rs | partial | `C240_windows`, `C240_sym_harris_refuted` | proved for five windows; the symmetric Blackman-Harris window refuted |
| C241 | Conversions of level and time are inverse to each other | Dsp: surge-math/src/convert.rs | partial | `C241_levels`, `C241_db_to_amp_refuted` | inverses proved; db_to_amp refuted |
| C242 | Big-endian words have their bytes reversed and are read back as written | Dsp: surge-math/src/utility.rs: vt_write_int32_be, vt_read_int32_be, vt_write_int16_be, vt_read_int16_be | proved | `C242_byte_order` | as stated |
| C243 | 15-bit samples survive conversion to floating point and back | Dsp: surge-math/src/value_cast.rs: float2i15_block, i152float_block | proved | `C243_samples` | as stated |
| C244 | Legato in the single-trigger modes follows the keys | Scene: surge-scene/src/scene/play_voice_portamento.rs | proved | `C244_legato` | pedal up, one channel, MPE off; the envelope calls inside release are taken to return |
| C245 | Legato in the single-trigger modes works with MPE, over several channels and at every polyphony limit | Scene: surge-scene/src/scene/release_single_triggered.rs: release_single_triggered_mpe_enabled | partial | `C245_mpe_refuted`, `C245_other_channel_refuted`, `C245_limit_one_refuted` | refuted |
| C246 | A note can be started | Scene: surge-scene/src/scene/play_voice.rs | partial | `C246_no_note_refuted` | refuted |
| C247 | Modulation routings switch their sources on, move their destinations and add up | Scene: surge-scene/src/scene/apply_modulation.rs | partial | `C247_enabled`, `C247_no_effect_refuted`, `C247_last_wins_refuted` | the switching of sources proved; the rest refuted |
| C248 | A parameter of a scene can be set, and leaving latch mode releases the latched note | Scene: surge-scene/src/scene/set.rs: set_parameter01, release_old_notes_if_previous_polymode_was_latch | partial | `C248_cannot_set_refuted`, `C248_leaving_latch_refuted` | refuted |
| C249 | Solo is exclusive, and the filter offset switch is inaudible | Scene: surge-scene/src/scene/modsource.rs: handle_boolsolo, handle_boolrelative_switching | proved | `C249_solo`, `C249_relative_switch` | as stated |
| C250 | Unison voices are spread in stereo | Osc: surgeosc-snh/src/convolute.rs | partial | `C250_snh`, `C250_wavetable_refuted` | proved for the sample-and-hold oscillator; refuted for the wavetable oscillator, whose right side uses the left gain |
| C251 | Voices that have ended leave, the others go on | Render: surge-scene/src/scene/process.rs: do_routing_critical_section, process | partial | `C251_one_ends_partial`, `C251_two_end_refuted`, `C251_voice_limit_partial`, `C251_code_panics_refuted` | Proved when at most one voice ends per block and there are at most 64; refuted when two end, above 64, and for the code as it stands (unfinished look-ups). |
| C252 | Every block is rendered afresh, and a scene without voices is silent | Render: surge-synthesizer/src/synth/process.rs: process | partial | `C252_adds_up_refuted`, `C252_drone_refuted` | False at this commit: refuted for every number of blocks (adding up) and after the last voice (drone). |
| C253 | All rendered samples are heard | Render: surge-scene/src/scene/process.rs: playscene, post_process | partial | `C253_half_lost_refuted`, `C253_silent_downsampled_partial` | False at this commit: two voices engines differing only in the second half of a block sound the same; only silent scenes are down-sampled. |
| C254 | Effects are applied while a scene sounds | Render: surge-scene/src/scene/process.rs: playscene | partial | `C254_bypassed_while_playing_refuted` | False at this commit: with every effect ringing out the output is the dry sum of the scenes. |
| C255 | Each oscillator of a voice is of the type the patch asks for, started and in tune | Voice: surge-voice/src/toggle_osc.rs | partial | `C255_type_partial`, `C255_never_started_refuted`, `C255_off_is_a_sine_refuted`, `C255_switch_off_panics_refuted` | Proved: the type. Refuted: initialisation, silence of an oscillator that is off, switching off. |
| C256 | The mixer knobs set the levels of their sources | Voice: surge-voice/src/calc_levels.rs | partial | `C256_levels_partial`, `C256_first_block_refuted`, `C256_pfg_refuted`, `C256_noise_scales_all_refuted` | Proved: independence of the knobs, range and rest value in every block after any history. Refuted: full level from the first block, the pre-filter gain knob. |
| C257 | A voice's LFOs are those of the patch, and steps retrigger the envelopes | Voice: surge-voice/src/init_modsource.rs: init_lfos | partial | `C257_retriggers_partial`, `C257_new_voice_refuted` | Proved: the retriggering of both envelopes. Refuted: the parameters of a new voice's LFOs. |
| C258 | Velocity, pressure and timbre reach the voice | Voice: surge-voice/src/init_modsource.rs | partial | `C258_velocity_timbre_partial`, `C258_channel_pressure_refuted`, `C258_poly_pressure_refuted`, `C258_poly_start_refuted` | Proved: velocity, release velocity, timbre. Refuted: channel pressure and key pressure. |
| C259 | A voice keeps its filters from block to block whatever place it has | Chain: surge-voice/src/set_qfb.rs | partial | `C259_as_if_alone`, `C259_life`, `C259_keeps`, `C259_keeps_second` | Proved for voices whose samples are in their own lanes (at this commit they are not: C127), for filters that treat each lane by itself (the Moog ladder keeps its subtype in lane 0's write position and is left out); the scene's loop is modelled past get_quad_filter_ptr and voice_sync_registers_from_qfb_cfg, which are todo!() in the code. |
| C260 | Wave shaping tables give the curves they are filled with | Tables: surge-tables/src/waveshape.rs:init | proved | `C260_tanh`, `C260_sine` | f32 lookups against the exact curves; that the platform's tanh and sin in f64, rounded to f32, are within 2^-23 of the curve is a hypothesis on the table. |
| C261 | The K35 filters solve their feedback loop without a delay | Filters: surgefilter-k35/src/k35.rs: do_lpf, do_hpf, clamped_frequency | proved | `C261_coefficients`, `C261_lowpass`, `C261_highpass`, `C261_lowpass_driven`, `C261_highpass_driven` | k35.rs, coeff.rs, lowpass.rs, highpass.rs in exact arithmetic, one lane. process_quad is todo!() and lowpass.rs, highpass.rs are not modules of the crate; they are modelled as they stand. Saturation 0 (clean) for the circuit identity. |
| C262 | The K35 filters ring off, and saturation bounds them | Filters: surgefilter-k35/src/lowpass.rs: process_lp | proved | `C262_lowpass_settles`, `C262_highpass_settles`, `C262_lowpass_bounded`, `C262_highpass_bounded`, `C262_lowpass_held`, `C262_highpass_held`, `C262_designed_held`, `C262_drive` | Clean filters at fixed resonance and swept cutoff; fully saturated ones under any modulation; every drive in between at held settings. |
| C263 | The tank of the all-pass reverb is the documented network | Effects: surgefx-allpass/src/block.rs: do_allpass_block, do_process_block | proved | `C263_network` | Sizes held (the effect recomputes them every block from the room size); exact arithmetic. Pre-delay and wet/dry mix are C152. |
| C264 | Each oscillator of a voice plays its own note | Voice: surge-voice/src/gen_runtime.rs: gen_oscillator_runtime | partial | `C264_note_partial`, `C264_switch_refuted`, `C264_fixed_follows_refuted`, `C264_transposes_partial`, `C264_colour` | false for the keyboard switches of the first two oscillators, which are not read (only the third's is, for all); the rest holds when they agree. Exact arithmetic. |
| C265 | A patch name is valid if there is something to read in it | Scene: surge-scene/src/patch/datum.rs: is_valid_patchname | partial | `C265_accepts_partial`, `C265_sound`, `C265_no_blank_refuted`, `C265_default_refuted` | false of the code: without the x flag the blanks in the pattern are literal, so no name without a blank is accepted, not even the default name; what is accepted is characterised exactly, and is sound |
| C266 | The wave digital section is passive | Filters: surgefilter-iir/src/quad_iir_12_WDF.rs: iir_12_wdf_quad | proved | `C266_passive`, `C266_rings_off`, `C266_response` | exact arithmetic, one lane; the coefficients are those the comments describe, as nothing in the workspace makes them |
| C267 | Parameter arrays hold one value per parameter | ParamArray: surge-derive/src/synth_parameters.rs: generate_array_type, generate_try_from_impl, generate_count_method | proved | `C267_new_with`, `C267_numbers`, `C267_stores`, `C267_enumerate`, `C267_map`, `C267_contains`, `C267_explicit_value_panics` | For enums without explicit values, which all 29 are (checked by reading); C267_explicit_value_panics shows the limit. |
| C268 | The built-in scales are what their names say | Tuning: surge-tuning/src/ed2.rs, ed3.rs, ed4.rs: ED* | partial | `C268_equal_division_partial`, `C268_harmonic_division`, `C268_subharmonic_division_partial`, `C268_damaged_refuted`, `C268_names`, `C268_scale_432_refuted` | Proved for 141 of the 143 texts; refuted for ED2_11 (stray characters before the first comment) and SD4_48_12 (no title line), and for scale_432, which is the 25-part equal division (C268_damaged_refuted, C268_scale_432_refuted). The texts are read by an independent reader of the format; the crate's own loads none (C24). |
| C269 | The two power measures of a signal agree | Dsp: surge-math/src/white_noise.rs: Signal::average_power_time_domain, average_power_freq_domain | partial | `C269_power_partial`, `C269_bounds_partial`, `C269_half_refuted` | Refuted: the crate dft packs the spectrum of real data, so all frequencies but the lowest and highest are counted once instead of twice; what comes out is half of the power plus half of what lies at those two (C269_power_partial), between half and all of it. The packing of dft 0.5.5 is taken from its documentation. |
| C270 | The built-in wavetable holds the first sixteen harmonics | Wavetable: surge-wavetable/src/initial.rs: BASIC_SINE_WAVE | proved | `C270_header`, `C270_harmonics` | The bytes are read by an independent reader of the format; load_initial_wavetable itself is todo!(). |
| C271 | Only meaningful modulation connections are accepted | Synth: surge-synthesizer/src/synth/modunit_query.rs: is_valid_modulation | partial | `C271_accepts_iff_partial`, `C271_table_partial`, `C271_shared_refuted`, `C271_closed_refuted` | The exact rule is proved for every parameter and source. Refuted: the flag for voice processing is always true, so effects accept sources that differ per note (C271_shared_refuted); no parameter of an LFO, envelope, scene or the patch accepts anything (C271_closed_refuted). |
