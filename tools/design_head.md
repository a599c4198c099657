# Formal model of klebs6/surge-rs in Lean 4 — design

This file says what is trusted, what is modelled and how, and, per property, what is proved, what is refuted and what is missing.
The per-property table at the end is generated by `tools/design.py` from `tools/props.py` (the property texts) and
`tools/status.json` (status and note, also the source of `MANIFEST.json`).

## Trusted base

* Lean 4.33.0's kernel. No axioms are added. `#print axioms` over every theorem in `MANIFEST.json` gives only subsets of
  `propext`, `Classical.choice`, `Quot.sound` (per-theorem list: `python3 tools/axioms.py`). `decide +kernel` is evaluated by the kernel; no
  compiled code is trusted.
* The reading of the Rust source: the code is never run here. Every model definition cites the file and lines it models and says where
  it simplifies.
* Rust semantics assumed: debug-profile arithmetic (integer overflow, shift overflow, division by zero, out-of-range indexing, `unwrap` of
  `None`/`Err`, `todo!()`, `unreachable!()` are panics — an explicit `panic` outcome of `Res` in `Verif/Rust.lean`). Where a release build differs and
  it matters (reverb predelay), the build mode is a parameter of the model.
* Floating point, three levels, stated per model:
  1. *Bit patterns / values only moved*: WAV samples, delay line contents, effect chain routing (an arbitrary type, or arbitrary `Add`/`Mul`/`Sub`).
  2. *Exact binary32*: `Verif/Float/` models `f32` as NaN, ±infinity or a rational, with round-to-nearest-even to 24 bits, gradual underflow and overflow to
     infinity (`rne`, `F32.ofQ`); `+ - *` and division round the exact result once. Simplification: one zero (the sign of zero is not modelled) and one NaN.
     Comparison, `as` casts (truncation, saturation), `_mm_min_ss`/`_mm_max_ss` (second operand on NaN) are modelled. Used by: step sequencer, tuning lookup,
     lag, parameters, ADSR, LFO, tables, delay, chorus, flanger, limiters. f64 is not modelled (reals instead).
  3. *Exact real/rational arithmetic*: interpolators, effect mixing, mid/side, soft clippers, reverb energy, biquads, tuning tables — rounding is outside, and the note
     in the table says so.
  Library functions (`exp2`, `log2`, `sqrt`, `sin`, `powf`) are parameters of the model (arbitrary functions) with any needed bound a visible hypothesis, or the real function.
* `F32Text` (step sequencer save/load, C22): Rust's documented guarantee that `f32`'s `Display` output parses back to the same value is a structure passed as
  hypothesis; integer formatting and parsing are modelled outright.
* Streams: `io::Read + io::Write + io::Seek` is an in-memory cursor (contents and position, never failing on write, failing on short read). Short reads are modelled
  separately by an explicit schedule (C14). OS level failures (disk full, partial `write_all`) are outside, except that C06 covers arbitrary bytes following the
  flushed prefix.
* SIMD intrinsics are modelled lane by lane; pointers into arrays are modelled as indices with a bounds check (an out-of-bounds pointer access, which is undefined behaviour
  in Rust, is a `panic` outcome or an explicit "touches index" statement). Alignment is not modelled.
* Random numbers, the table contents, tempo and song position are parameters: theorems quantify over every outcome.

## Method

A Rust function taking `&mut self` becomes a function returning the new state; `Result` and panics are data (`Res ε α = ok a | err e | panic why`). Loops become
structural recursion or a fold; a loop whose termination is in question takes fuel and the theorem shows that enough fuel exists (or that no amount is enough, C70).
Histories are lists of operations; properties over histories are invariants proved by induction on the list. Specifications (`namespace Spec` next to the theorem, or
`Spec.lean`) are written from the English property, not from the code. Where the property is false of the code, the negation is proved on a witness or, better, for every
member of a class of witnesses; the part that holds is proved under the suffix `_partial`.

Wrong programs: `tools/mutate.py` edits one definition of the model in a scratch copy, rebuilds, and records in `seeded/LOG.jsonl` which property theorems fail. Survivors led to
tightened theorems (field `tightened`).

## What is modelled

| Lean | Rust | covers |
|------|------|--------|
| `Rust.lean` | — | outcomes and checked integer arithmetic |
| `Float/*` | — | binary32 |
| `Hound/*` | `surge-hound` (read.rs, write.rs, lib.rs) | whole WAV reader and writer, byte for byte |
| `StepSeq/*` | `surge-stepseq` | mask, position, save/load text, swing and mutation, stores |
| `Tuning/*` | `surge-tuning` | scale/keyboard text parsers, table construction, lookups, state |
| `Midi/*` | `surge-midi`, `surge-synthesizer` (midi, controllers, hold, bend, learn) | message dispatch, RPN, hold pedal, bank/program, scene routing |
| `Scene/*` | `surge-scene` | polyphony limit, voice stealing, release, mono fallback (voices abstract) |
| `Smooth/*` | `surge-lag`, `surge-modulation` (controller), `surge-lipol` | one-pole, controller, scalar and block interpolators |
| `Fx/*` | `surgefx`, `surge-synthesizer` (fx chain) | effect slots, bypass modes, sends, ring-out |
| `Dsp/*` | `surge-math` | block functions, mid/side, meters, clippers and limiters |
| `Param/*` | `surge-param`, `surge-types`, every `*/param.rs` | parameter conversion, all 271 parameters' limits, modulation, morphing, note names, tempo sync |
| `Adsr/*` | `surge-adsr` | analog envelope, digital stages |
| `Lfo/*` | `surge-lfo` | phase, envelope, shapes, step sequence |
| `Tables/*` | `surge-tables` | lookups, shapers, gain table, sinc kernels |
| `Wavetable/*` | `surge-wavetable` | layout, mip levels, construction, loading from WAV |
| `Delay/*` | `surgefx-dualdelay`, `surgefx-chorus`, `surgefx-flanger`, `surgefx-reverb` | delay lines, flanger loop and modulators, reverb network |
@EXTRA_MODELS@

## What is not modelled

* Oscillators' sample generation, most filter units, vocoder, rotary, conditioner, EQ, phaser, distortion and frequency shifter apart from what the table above lists.
* The plugin shell, GUI hooks, patch files (unwritten in the code), threads (the engine is single threaded), allocation and alignment.
* f64 rounding; the sign of zero and NaN payloads of f32; subnormal flushing modes.
* Everything behind `todo!()` is modelled as the panic it is.

## Findings (refuted properties)

Each is a theorem; the names are in the table. In short: WAV flush inside a frame overwrites data; several panics on malformed WAV; no scale or mapping file can be loaded;
hold pedal and scene routing panics; polyphony limit not enforced; free_scene panics from two voices; mono fallback never plays; lag built with `new` misses its
target; block interpolator repeats its first 8 gains; ring-out cuts every tail; sends hear nothing; meters blind; block functions write past their end; eight parameters unusable; ADSR
release panics; LFO output always 0 and odd steps race; table lookups wrap; mip filter keeps one tap; loading wavetables panics on surplus/stereo; flanger wraps long delays; reverb's predelay
panics in debug builds and room size 0 is unstable; the biquad's band designs (band-pass, peak, morph) have no test against Nyquist and explode between
Nyquist and the sample rate; `lph_morph` ignores its morph argument; the IIR voice filters swap sine and cosine of the cutoff (tuned to a quarter of the rate minus the note,
unstable above it); the coefficient maker drops the first settings; fresh filter units forget their first sample; IIR filters with the state-variable subtype panic.

Half-rate filters made with `default()` (as the synth, scene and effects do) have no section; four coefficient tables miss the rejection in their comments (one holds a coefficient
of another table); the up-sampler halves the level.
The oversampled single-precision rate is never updated; the tempo cannot be set; the left and right input pointers are two samples apart and the input up-sampler renews 8 of 64 samples;
the sine and asymmetric shapers are constant; a quadrature oscillator stepped before its first `set_rate` turns into NaN.
The conditioner's limiter reads one leaf of its tree instead of the root and so ignores 127 of 128 samples; without `init` its first gain is 1000.
Filter blocks: the left level of `stereo` and `wide` moves twice as far as it should and jumps back each block; in debug builds these two panic when the sum of all voices reaches 32; voices other than the first of a
quad store their samples in the wrong registers (lane 0, shifted, past the end of the block).
Voices: every block panics (the tempo ratio of the portamento is `todo!()`, no voice has the pitch-bend source, generators are `todo!()`), creation panics (`default_pitch`); a legato note at phase exactly 1
panics; absolute pitch drops the fraction of the note; outside `wide` oscillators and noise never reach the right input; an `Off` oscillator panics; a ring-only voice is modulated by a stale block;
the pre-filter gain follows the noise level; the channel pan moves one of the two signals of stereo/wide; key tracking is wrong after a switch; switching to wide leaves the twin filters stale; channel
aftertouch goes to the polyphonic source; `oscillator_keytrack2` governs all three oscillators; the fingered-portamento test needs both conditions; the age overflows after 2^31 blocks.
Vocoder: the return level and the unvoiced threshold are never read (the output is always fully wet); at sample rates below about 43 kHz the highest bands are unstable; the streaming handler puts an
integer into the two float parameters `ModExpand` and `ModCenter`.
Fast math: `fastsin`/`fastcos` exceed their documented maximum error of 1e-5 (1.11e-5 and 7.35e-5 at π) and `fastcos` leaves [−1, 1]; `fasttanh_sse_clamped` reaches 1.0000098; `fastexp` is off by a factor
of more than two at −6, inside its documented range.
Ring modulator: the end of a cycle resets the phase to 0 (`phase -= phase`), so the carrier is always flat and its pitch quantised; both channels' products are added to both outputs; with many carriers the
saturation folds over and leaves [−1, 1].
Phaser: the LFO phase is reduced by 1 at most once per update, so at high rates it runs away and with it the sweep; init leaves the filter registers as they are; ReturnLevel is read nowhere.
Distortion: `hr_a` writes 64 samples into the 32-sample blocks (out of bounds); the half-band filters have no effect on the output, which is the first quarter of the oversampled block, made from the first 8 input
samples; ReturnLevel is read nowhere.  The three-band equaliser's init overrides 0 dB gains with 1.0, used as 1 dB.
- reverb2 (C152, C155): the pre-delay asserts `p > 0` although 0 is a valid position: with a constant pre-delay the effect panics when its first echo is due. The delay lines hold 16384 samples, too few from 48 kHz on at full room size: the echo comes 16384 samples early. The low-frequency damping coefficient is never advanced, the return level never read.
- Oscillators (C156–C160): `assign_fm` is empty in FM, FM2 and sine, so the FM source is always null: the FM oscillator, the default mode of the sine oscillator and FM2 under FM read through a null pointer. The depth, feedback and offset smoothers are made with `Lag::new(0.0)` and never given a rate: the modulation fades to nothing within a second and ignores later parameter changes. The legacy sine mode passes −cos: shapes 2 and 3 are swapped.
- Super oscillator (C162, C164): with absolute unison detune a period below 0.1 is replaced by 0 instead of 0.1, and then the block loop never ends; `get_t` uses n2pinv_tuningctr, which in the default tuning is 1/1024 where 1 is meant, so the oscillator sounds ten octaves high; `println!` runs on every sample; the FM path reads through a null pointer.
- Wavetable oscillator (C166–C168, C170): creation panics (`n_tables - 2` on the one default table); the 16-bit samples are not scaled to ±1 and so clip to their signs; crossing a table boundary while morphing clicks (the two comparisons are inverted) and aborts if an impulse falls on the block start (`lerp` asserts x < 1); left and right are equal whatever the panning; the convolution kernel is loaded as four floats from a temporary holding one (also in the sample-and-hold oscillator).
- Sample-and-hold oscillator (C173, C174): the block loop and `convolute` do not ask whether sync is on, so with sync off the first level is drawn twice at once and a rise of pitch restarts the cycle; the unison detune is multiplied by the number of voices (UniCount) instead of UniSpread; the smoother of the shape is never given a rate.
- Window oscillator (C176, C178–C182): the table's first sample is used as the address of the table (wild read; a null read for a new oscillator); `bitscan_reverse` counts trailing zeros, so the mip-map level does not follow the pitch; the unison count is limited to 1; the conversion loop reads the first four samples only, and their float bits as integers; a new table is heard for one sample and then the old one until the block ends; waves longer than the window panic; the FM ratios are stored in an array with its dimensions swapped.
- Synthesizer (C184–C188): `SynthInput` allocates its arrays as (block, channels) and then takes rows, so left and right are eight bytes apart: the right input is the left input two samples later, `clear_inputs` returns an alignment error and `do_process_inputs` performs a misaligned aligned load - no block is ever rendered. The output meters read zero below 2.0 (see C60) and freeze when the engine halts. A program change panics (`todo!()`) in the 40th block after it. `process_threadunsafe_operations` unwraps an empty queue. `PluginLayer::default` is `todo!()`, so `SurgeSynthesizer::new_default` itself cannot return.
- VST plugin (C191–C193): A4 is 432 Hz where the documentation says 440; the attack level is fixed per buffer, so the sound depends on the buffer size; a fresh plugin plays key 59; only MIDI channel 1 is heard; a note-on of velocity zero starts a note.
- Equaliser (C194): `init` means to start the bands at 0 dB so that the effect fades in, but passes 1.0 as decibels: a flat equaliser is not transparent for about the first thousand samples; `suspend` of a biquad filter is the empty default, so `init` keeps what is in the filters' registers.
- Frequency shifter (C197, C198): the right channel's ratio is applied twice, so a ratio of -1 does not reverse the shift and 0.5 is a quarter; `Lag::new(lp)` keeps the default's complement 0.996, so that the delay of a `Lag::new(0.0001)` settles on a fortieth of the request; the fraction of the delay is truncated before it is scaled to a row of the kernel, so that interpolation only ever uses the first or the last row.
- C201: surgefilter-nlstates computes the new state, then overwrites it with the saturated *old* state (`reg` returns a copy): from rest the filter is a gain.  Two of the four saturator selections panic.
- C204: `ojd_waveshaper` tests `input <= 1.7` where `-1.7` is meant: everything below 1.7 becomes -1, a DC offset instead of feedback.
- C205: the sine saturator uses `fastsin` outside its range; the loop diverges on loud input.
- C207: surgefilter-rungekutta takes the fourth derivative half a step away instead of a whole step, so the integrator is of first order only, not fourth.
- C208: `ObxdFilter::process_quad` (and `K35Filter::process_quad`) is `todo!()`: any voice using these filters panics; the public functions underneath work.
- C210: process_4pole.rs adds `pole_mix_scaled` to `y3` where a product is meant: the 24 dB tap is the sum of the third and fourth.
- C211: the OB-Xd tap selector is compared for equality with whole numbers after smoothing from zero: three of four sub-types are silent (in f32 for the first 61 blocks at least).
- C212, C213: surgefilter-diode stores `g/(1+g)` in the coefficient the loop equations use as `g`: at a cutoff of about a quarter of the (oversampled) rate the gain at DC is 6.5 instead of 1, and above that the filter is unstable even with no resonance.
- C215: the comment in surgefilter-huovilainen has 0.4955 where the code has 0.4995.
- C217: surgefilter-comb calls `simd_extract`, whose body is `todo!()`: any voice using a comb filter panics. (If it extracted an `i64` lane, as written, it would join two 32-bit rows, before the multiplication by 24.)
- C221: surgefx-dualdelay `do_crossfeed` multiplies by `self.feedback` instead of `self.crossfeed`: the crossfeed knob does nothing, and feedback always goes to both channels, so that a mono echo returns at twice the setting.
- C222: the delay times of surgefx-dualdelay settle at a fortieth of the setting (`Lag::new(0.0001)` leaves `lpinv` at 0.996, as in C198).
- C224: surgefx-dualdelay `process_only_control` is `todo!()`; since the ring-out never lasts (C37), the first block without input panics.
- C226: surgefx-rotary lets the horn gain go down to -0.2 at full amplitude modulation (treble inverted when the horn points away).
- C227: `lf_lfo` of surgefx-rotary is given a per-block rate and advanced per sample: the bass rotor turns at 22.4 times the horn's speed instead of 0.7; in `process_only_control` at 0.7.
- C229: the return level of surgefx-rotary is read nowhere; with Doppler at zero the horn is still 32 samples behind the bass (the delay is clamped to at least a block).
- C230: surgefx-rotary multiplies by 12 before truncating, so that the kernel coefficients straddle two rows of the table.
- C231: `suspend` of surgefx-rotary leaves the two biquads' state (their own `suspend` does nothing).
- C233: surgefx-chorus places its four voices at i/3 of the cycle, so the first and the last are a whole cycle apart and always coincide.
- C235: blocks without input stop time for surgefx-chorus; its tail is cut off at once and heard when the next sound begins. (Also there, not modelled: the rate is tempo-synced by the flag of the delay time, not its own; the return level is read nowhere.)
- C237: `correlated_noise_o2mk2` and `drift_noise` take their state by value, so the noise colour is only a volume and the oscillators' drift never wanders.
- C239: the slopes of `cubic_interpolate` are twice too steep.
- C240: `symmetric_blackman_harris` has one denominator `n - 1`; it is not symmetric.
- C241: `db_to_amp` raises 10/3 to the power, instead of 10 to a third of it.
- C245: `release_single_triggered_mpe_enabled` leaves its loop at once, because `do_release` is already true; play_voice_portamento.rs leaves the voice on its old channel without MPE, so a key from another channel hangs; at polyphony limit 1 a legato note kills its own voice.
- C246: `create_voice_runtime` reaches `todo!()`, so no note can start a voice.
- C247: `apply_scene_modulation` overwrites instead of adding, stores value + modulation as the modulation, and nothing reads what it stores.
- C248: `SurgeScene::set_parameter01` reads the old value as `i32` and as `bool` and so always panics; leaving latch mode tests `old == latch && new == latch`.
- C250: wavetable `convolute` (lines 94-96) scales both sides with `pan_l`.
- C251: `do_routing_critical_section` removes the ended voices by their old positions, so with two ends in a block a wrong voice leaves or `remove` panics.
- C252: the scene output buffers are accumulated into and never cleared.
- C253, C254: `playscene` is `voices.is_empty()`: post-processing runs only for scenes without voices, and effects are told there is no input while a scene sounds.
- C255: `maybe_toggle_osc` runs before the enables are set, so the oscillators of a new voice are never initialised; `spawn_osc(Off)` leaves `None`, on which `process_block` and `free_allocated_elements` panic.
- C256: `calc_levels` takes the pre-filter gain from `noise_level0`; `LevelPfg` is never read.
- C257: `init_lfos` replaces the LFOs by `Lfo::new`, with default parameters.
- C258: `init_aftertouch` matches the amplifier envelope; `calc_modsources` writes the channel's pressure over the polyphonic aftertouch in every block.
- C70: the start phase wraps as it should for every value up to 2^24 but the loops do not end beyond; C72: the noise shape passes ±1.
- C259: `get_quad_filter_ptr` and `voice_sync_registers_from_qfb_cfg` are `todo!()`, so the hand-over between voices and quads panics in the first block with a sounding voice; the functions it should call are sound.
- C261: the K35 filters cannot be used: `process_quad` is `todo!()`, and lowpass.rs and highpass.rs are not compiled (lib.rs does not name them).
- C264: the keyboard switches of oscillators 1 and 2 do nothing; `oscillator_keytrack2`, taken from oscillator 3, governs all three.
- C265: `is_valid_patchname` rejects every name without a blank, among them the default "init": the pattern is laid out with blanks but compiled without the `x` flag.
- C97: the low pass of `coeff_lp2b` does not fall to 0 at the Nyquist frequency, and at the cutoff its gain is more than the quality, up to twice (`C97_lp2b_gains`): the factor 2 in `a` makes the difference `b0 - b2` too large.
- C268: two of the 143 shipped scale texts are damaged: ED2_11 begins with the characters `s `, so that its first line is no comment, and SD4_48_12 has lost its title line; `Scale::scale_432` names the 25-part equal division of the octave.
- C269: `average_power_freq_domain` sums the packed spectrum of a real signal, which holds each frequency once; for a signal without mean it is half of the power.
- C270: `load_initial_wavetable` prints the 2060 bytes of the built-in wavetable and then panics (`todo!()`); no other code reads them.
- C271: `per_voice_processing` is true for every parameter and never written, so parameters of effects accept velocity, envelopes and other sources that differ per note; no parameter of an LFO, an envelope, a scene or the patch is declared modulatable, so none accepts a source.
