#!/usr/bin/env python3
"""Source of /verif/properties.jsonl (run from /verif: python3 tools/props.py)."""
import json
P = []
def p(title, statement, quantifier, why, anchors):
    P.append(dict(id="C%02d" % (len(P)+1), title=title, statement=statement,
                  quantifier=quantifier, why_tests_cant=why, anchors=anchors))

# ---------------------------------------------------------------- surge-hound
p("WAV integer round trip",
  "Writing any list of integer samples with WavWriter (new, write_sample..., finalize) to an empty in-memory stream and opening the result with WavReader gives back the same WavSpec, the same number of samples, and exactly the same sample values in the same order, without error.",
  "every supported spec (8/16/24/32 bit Int, 1..32 channels, any sample rate for which the header arithmetic does not overflow) and every sample list whose values fit the bit depth, whose length is a multiple of the channel count and whose file fits the 32-bit length fields",
  "tests write one or two thousand samples for four fixed specs; the property is about every spec, every list length and every sample value",
  ["surge-hound/src/write.rs: WavWriter::new, write_sample, finalize", "surge-hound/src/read.rs: WavReader::new, samples", "surge-hound/src/lib.rs: Sample"])
p("WAV float round trip",
  "Writing any list of f32 samples (as bit patterns) with a Float/32 spec and reading the file back yields bit-identical samples and the same spec, NaN payloads included.",
  "every channel count 1..32, every sample rate without header overflow, every list of 32-bit patterns",
  "2^32 bit patterns times every list",
  ["surge-hound/src/write.rs: write_le_f32", "surge-hound/src/read.rs: read_le_f32", "surge-hound/src/lib.rs: impl Sample for f32"])
p("Finalized header is consistent",
  "After finalize the RIFF size field equals the file length minus 8, the data chunk size field equals the number of sample bytes written, and the file is exactly header followed by those bytes.",
  "every supported spec and every list of samples (whole frames or not)",
  "the size fields depend on all samples ever written",
  ["surge-hound/src/write.rs: update_header, finalize"])
p("Rejected sample changes nothing",
  "write_sample of a value that does not fit the bit depth returns TooWide and leaves the stream bytes, the stream position and the length bookkeeping exactly as before; a value that fits is always accepted.",
  "every bit depth, every writer state and every i32 sample value",
  "four boundary values per width are tested, not the whole range nor every writer state",
  ["surge-hound/src/lib.rs: narrow_to_i8, narrow_to_i16, narrow_to_i24, impl Sample for i32", "surge-hound/src/write.rs: write_sample"])
p("Flush is transparent",
  "Calling flush any number of times between write_sample calls does not change the file produced by finalize.",
  "every interleaving of write_sample and flush calls",
  "quantifies over all interleavings; the unit test flushes at one frame boundary only",
  ["surge-hound/src/write.rs: flush, update_header"])
p("Flushed data survives a crash",
  "If a flush succeeded and the process later dies at any point while writing further samples (mid-write included), the file on the stream opens and yields exactly the samples written before that flush.",
  "every sample prefix ending on a frame boundary, every later byte-level partial write",
  "quantifies over all crash points",
  ["surge-hound/src/write.rs: flush", "surge-hound/src/read.rs: WavReader::new"])
p("Append equals writing in one go",
  "Opening a finalized file with new_append, writing more samples and finalizing produces byte-for-byte the file that writing all samples with one writer would have produced.",
  "every supported spec and every pair of whole-frame sample lists",
  "unit test uses one fixed file",
  ["surge-hound/src/write.rs: new_append, read_append"])
p("Opening arbitrary bytes never panics",
  "WavReader::new on an arbitrary byte string returns Ok or Err; it never panics.",
  "every byte string",
  "the fuzz regression test replays a handful of files",
  ["surge-hound/src/read.rs: WavReader::new, read_until_data, read_clm_chunk, read_srge_chunk, read_cue_chunk, read_smpl_chunk"])
p("Opening arbitrary bytes terminates",
  "The header scan of WavReader::new terminates on every byte string, visiting at most one chunk header per eight bytes of input.",
  "every byte string",
  "non-termination cannot be excluded by running finitely many inputs",
  ["surge-hound/src/read.rs: read_until_data"])
p("Unknown chunks are skipped",
  "Inserting any number of chunks with unrecognised ids and arbitrary contents between the RIFF header, the fmt chunk and the data chunk changes neither the spec, the length nor any sample that the reader reports.",
  "every list of unknown chunks with every content, every valid file",
  "all ids, lengths and contents",
  ["surge-hound/src/read.rs: read_until_data, skip_bytes, read_chunk_header"])
p("Accepted files are internally consistent",
  "If WavReader::new succeeds, the reported channel count and container size are non-zero, len() times the container size is the data chunk length, and duration() times channels equals len().",
  "every byte string that is accepted",
  "quantifies over all accepted inputs",
  ["surge-hound/src/read.rs: WavReader::new, read_fmt_chunk, duration, len"])
p("Seek then read returns the addressed sample",
  "After seek(t) the next sample read is the first channel of frame t, whatever reads and seeks happened before.",
  "every file whose container size equals its bit depth, every history of successful reads and seeks, every t within the duration",
  "quantifies over histories",
  ["surge-hound/src/read.rs: WavReader::seek, iter_next"])
p("Sample iterator is exact and streaming",
  "The sample iterator yields exactly len() items and then None for ever; size_hint is the exact remaining count at every point; reading k samples, dropping the iterator and continuing with a new one gives the same sequence as one iterator.",
  "every opened reader and every split of the reading",
  "all lengths and all split points",
  ["surge-hound/src/read.rs: iter_next, iter_size_hint, samples, into_samples"])
p("Short reads do not matter",
  "Decoding gives the same result whether the underlying reader returns the requested bytes at once or in arbitrary smaller pieces.",
  "every schedule of short reads (at least one byte per call while bytes remain), every buffer size and content",
  "quantifies over schedules of the io::Read implementation",
  ["surge-hound/src/read.rs: read_into, skip_bytes"])
p("Batch i16 writer equals single writes",
  "Filling a get_i16_writer(n) batch with n i16 samples and flushing it leaves the writer in the same observable state as n write_sample calls; flushing with fewer samples or writing one more panics instead of emitting undefined bytes.",
  "every n, every sample list, every previous buffer size",
  "the buffer is recycled uninitialised memory; only a proof covers all batch sizes and previous contents",
  ["surge-hound/src/write.rs: get_i16_writer, SampleWriter16"])
p("Sample codec is exact per width",
  "For each width 1,2,3,4 bytes, decoding the bytes an accepted sample was encoded to returns the same value, encodings have exactly that width, and 8-bit offset conversion is a bijection.",
  "every i32 value, every width",
  "2^32 values per width",
  ["surge-hound/src/lib.rs: Sample, signed_from_u8, u8_from_signed", "surge-hound/src/read.rs: ReadExt", "surge-hound/src/write.rs: WriteExt"])
p("Unfinished frames are reported and not lost",
  "finalize and flush report UnfinishedSample exactly when the number of samples written is not a multiple of the channel count, and even then the header size fields cover all samples written.",
  "every spec and every number of samples",
  "all remainders for all channel counts",
  ["surge-hound/src/write.rs: update_header"])
p("Writer never emits a header it cannot describe",
  "WavWriter::new either returns Unsupported without touching the stream, or writes a header from which the reader recovers the same spec; it does not panic for any spec.",
  "every WavSpec (channels, rate, bits, format)",
  "2^16 * 2^32 * 2^16 specs",
  ["surge-hound/src/write.rs: WavWriter::new, write_waveformat, channel_mask"])
p("Writer length bookkeeping",
  "At every point len() of the writer is the number of accepted samples, duration() is that number divided by the channel count, and is_empty() holds iff no sample was accepted.",
  "every history of write_sample (accepted and rejected), flush and batch writes",
  "quantifies over histories",
  ["surge-hound/src/write.rs: len, duration, is_empty"])
# ---------------------------------------------------------------- stepseq
p("Mute mask tracks the last operation",
  "After any sequence of mute/unmute operations (single, group, all), a step is muted iff the last operation that affected it was a mute; operations never affect other steps.",
  "every sequence of operations, every step 0..15",
  "quantifies over histories",
  ["surge-stepseq/src/mute.rs"])
p("Sequencer position stays in range",
  "For every loop with start <= end <= 15 and every random outcome, next_step returns normally, returns the value of the current step, and leaves the position inside the 16 steps.",
  "every sequencer state with a valid loop, every outcome of the random generator, every number of calls",
  "depends on random draws and on unbounded histories",
  ["surge-stepseq/src/next.rs: next_step", "surge-stepseq/src/stepsequencer.rs"])
p("Sequence save/load round trip",
  "load_sequence of a file written by save_sequence restores all steps, the loop bounds, the shuffle amount and the trigger mask.",
  "every sequencer state",
  "2^(16*32) step patterns",
  ["surge-stepseq/src/persist.rs"])
p("Step values edited by swing and mutation stay in [0,1]",
  "apply_swing and mutate_sequence leave every touched step in [0,1] and every untouched step unchanged, and touch only steps inside the loop (swing: every second one).",
  "every sequencer with a valid loop, every amount, every random outcome",
  "random draws and real-valued inputs",
  ["surge-stepseq/src/swing.rs", "surge-stepseq/src/random.rs"])
# ---------------------------------------------------------------- tuning
p("Scale and mapping files parse to what they say",
  "Parsing the text of a well-formed scale yields its note count and tones; in particular the built-in 12-tone scale is valid.",
  "every well-formed scale text",
  "all texts",
  ["surge-tuning/src/scale.rs", "surge-tuning/src/keyboard_mapping.rs"])
p("Retuned table is periodic in the scale",
  "After retuning to a valid scale with the standard mapping, moving up by one scale length adds exactly the scale's period to the pitch, for every pair of table entries.",
  "every scale (any count >= 1, any tones), every table index",
  "all scales, all indices, including indices below the scale origin where truncating division is involved",
  ["surge-tuning/src/retune.rs: retune_to_scale"])
p("Reference note gets the reference pitch",
  "After retuning with the standard mapping the tuning-constant note has exactly the configured pitch.",
  "every scale, every reference note",
  "all scales",
  ["surge-tuning/src/retune.rs: retune_to_scale"])
p("Pitch table lookups stay inside the table",
  "note_to_pitch, note_to_inverse_pitch and note_to_omega read table entries inside the 512-entry table for every note value and interpolate between the two neighbouring entries.",
  "every finite note value",
  "continuum of inputs",
  ["surge-tuning/src/tuner.rs"])
# ---------------------------------------------------------------- midi / synth
p("Hold pedal defers and then releases each note once",
  "While the pedal is down a released key is only queued; when the pedal goes up every queued key is released exactly once and none is lost; nothing is released on channels still held.",
  "every history of note offs, re-triggers and pedal changes",
  "quantifies over histories",
  ["surge-midi/src: HoldPedalUnit", "surge-scene/src/scene/release.rs"])
p("RPN data entry reaches the selected parameter",
  "For every sequence of controller messages, data entry changes pitch-bend range or MPE state only if the most recently selected RPN says so, and NRPN selection messages set their own MSB and LSB.",
  "every sequence of controller messages on every channel",
  "quantifies over message histories",
  ["surge-synthesizer/src/synth/channel_controller_cc.rs"])
p("Bank and program select compose",
  "A program change queues patch bank*128+program for the last received bank select, for every bank and program number.",
  "every message history",
  "histories",
  ["surge-synthesizer/src/synth/midi.rs: program_change"])
p("Scene routing of notes",
  "In every scene mode each note is routed to a non-empty set of scenes: key split routes to exactly one scene by comparing with the split point, dual to both, single to the active one.",
  "every mode, channel, key, split point and MPE setting",
  "full product space of modes, channels and keys",
  ["surge-synthesizer/src/synth: calculate_channel_mask"])
p("Polyphony limit is enforced",
  "After enforcing the polyphony limit at most limit voices remain, the voices removed are the oldest, and no removal goes out of bounds.",
  "every voice list and every limit",
  "all list lengths",
  ["surge-scene/src/scene: enforce_polyphony_limit"])
# ---------------------------------------------------------------- dsp control
p("One-pole smoothing converges monotonically",
  "A lag smoother moves monotonically towards its target and never overshoots it, and the distance shrinks geometrically with every step.",
  "every start value, target, rate in (0,1) and number of steps",
  "real-valued and unbounded number of steps",
  ["surge-lag/src/lag.rs", "surge-lag/src/vlag.rs"])
p("Controller modulation source converges to its target",
  "process_block moves the controller output towards the target without overshoot, and set_target01/get_target01 round-trip for unipolar and bipolar controllers.",
  "every state, target and number of blocks",
  "real-valued, unbounded number of blocks",
  ["surge-modulation/src/controller.rs"])
p("Envelope stage order",
  "Without retriggering, an envelope only moves forward through attack, decay, sustain, release, uber-release and idle, for every parameter setting and every number of blocks.",
  "every parameter setting, gate history and number of blocks",
  "histories",
  ["surge-adsr/src/adsr.rs"])
p("Parameter normalisation round trip and range",
  "For every parameter the normalised value lies in [0,1] and converting to the parameter range and back is the identity; set_value_f01 always leaves the value inside the parameter's range.",
  "every parameter range and value",
  "continuum of values",
  ["surge-param/src"])
p("Effect ring-out does not truncate the tail",
  "After the input stops, an effect with a ring-out of n blocks keeps being processed for n blocks and then stops; silence in and finished ring-out means the effect is skipped.",
  "every input activity history and every ring-out length",
  "histories",
  ["surgefx/src: process_ringout"])
# ---------------------------------------------------------------- stepseq, continued
p("Step and probability stores behave like arrays",
  "Reading a step or a probability returns the value last stored at that index; indices of 16 and more read as 0 and writes to them are ignored; no access panics.",
  "every history of set_step, set_probability and set_probabilities calls, every index",
  "quantifies over histories and all indices",
  ["surge-stepseq/src/stepsequencer.rs: set_step, step", "surge-stepseq/src/probability.rs"])
p("An interrupted save is not mistaken for a sequence",
  "If save_sequence is interrupted, a later load_sequence reports an error or gives the old or the new sequence, never a mixture.",
  "every crash point during the save, every pair of sequencers",
  "crash points",
  ["surge-stepseq/src/persist.rs"])
p("Mapped keyboards play their listed degrees",
  "Retuning with a keyboard mapping gives every enabled key the pitch of the scale degree it lists (repeating with the mapping), relative to the reference key, and silences disabled keys; any reference note is allowed.",
  "every mapping, every well-formed scale, every key of the table",
  "all mappings times all scales times all keys",
  ["surge-tuning/src/retune.rs: retune_to_scale"])
p("Scale length is reported for every scale",
  "current_scale_count returns the number of tones of the scale in force.",
  "every scale", "all lengths",
  ["surge-tuning/src/tuner.rs: current_scale_count"])
p("Tuning state depends only on what is in force",
  "After any history of retune, remap and reset calls, the pitch tables are those of the scale and mapping now in force; a reset forgets everything.",
  "every history of tuning calls from a fresh tuner",
  "quantifies over histories",
  ["surge-tuning/src/retune.rs", "surge-tuning/src/remap.rs", "surge-tuning/src/tuner.rs: init"])
p("Pitch relative to the tuning centre is 1 at the centre",
  "n2p_tuningctr(0) and n2pinv_tuningctr(0) are both 1 (a note at the tuning centre has relative pitch 1), for every tuning.",
  "every tuner state whose reference entry is the reference pitch",
  "all tunings",
  ["surge-tuning/src/tuner.rs: n2p_tuningctr, n2pinv_tuningctr"])
p("Pitch bend reaches the right target",
  "The instrument-wide bend equals the newest pitch-bend message that applies to the whole instrument (any channel without MPE, channel 0 with MPE) divided by 8192, in every scene; a channel's own bend in semitones is the newest bend received on that channel while MPE was on, times the bend range in force at that moment.",
  "every legal history of MIDI messages, any length",
  "the value depends on the whole message history and on when MPE was toggled",
  ["surge-synthesizer/src/synth/pitch_bend.rs: pitchbend", "surge-mpe/src/unit.rs"])
p("Pressure and modulation wheel follow the newest message",
  "Channel pressure, instrument-wide pressure, key pressure and modulation wheel always equal the value of the newest message that concerns them, and no other message changes them.",
  "every legal history of MIDI messages, any length",
  "frame conditions over all message histories",
  ["surge-synthesizer/src/synth/automation.rs: channel_aftertouch, poly_aftertouch", "surge-synthesizer/src/synth/channel_controller_cc.rs: channel_controller_cc1"])
p("Controller learning assigns the next controller, once",
  "A custom controller armed for learning takes the number of the next non-reserved controller message, only that slot changes, and learning is disarmed; reserved controllers neither change nor disarm it.",
  "every engine state, channel, controller number and value",
  "quantifies over all states and controller numbers",
  ["surge-synthesizer/src/synth/channel_controller.rs: store_learn_custom, channel_controller", "surge-synthesizer/src/synth/channel_controller_rpn.rs"])
p("MIDI input does not crash the engine",
  "No legal sequence of MIDI messages makes the engine panic.",
  "every legal history of MIDI messages, any length, from power-on with a two-scene patch",
  "needs an argument over all histories; the crashing ones are rare interleavings",
  ["surge-synthesizer/src/synth/channel_controller.rs", "surge-synthesizer/src/synth/midi.rs", "surge-midi/src/hold_pedal.rs"])
p("Freeing a scene frees every voice",
  "Freeing the voices of a scene, or an all-notes-off on it, succeeds whatever voices are sounding and leaves the scene with no voices.",
  "every list of voices",
  "all list lengths; a test with one voice passes",
  ["surge-scene/src/scene/drop.rs: free", "surge-scene/src/scene/process.rs: all_notes_off"])
p("Voice stealing picks the right voice and makes room",
  "Stealing a voice silences the voice released longest ago, or the oldest held voice if none is in release, changes no other voice, never panics, and repeating it before a new note leaves fewer than limit sounding voices.",
  "every list of voices and ages, every limit",
  "all list lengths and age orders",
  ["surge-scene/src/scene/softkill_voice.rs", "surge-scene/src/scene/play_voice.rs"])
p("A latched release follows its own scene",
  "When a latched release is pending, a scene's voices are freed exactly if that scene is not playing or the release is forced, and a scene without a pending release is not touched.",
  "every number of scenes, every set of voices and play flags",
  "combination of flags and voice lists",
  ["surge-scene/src/scene/release.rs: maybe_release", "surge-synthesizer/src/synth/process_control.rs"])
p("Monophonic modes fall back to the highest held key",
  "When the sounding key of a monophonic scene is released while other keys are held, the highest of them starts to sound; releasing any other key changes nothing.",
  "every set of held keys, every voice list, every channel and key",
  "2^128 key states per channel",
  ["surge-scene/src/scene/release_monophonic.rs"])
p("The scalar interpolator is a straight line that lands on its target",
  "After newvalue, each of the n process calls of a block advances the scalar interpolator by the same step; after n calls it equals the new value exactly, and the next block starts where the last one ended.",
  "every sequence of values, every block size n > 0, exact arithmetic",
  "all histories of values",
  ["surge-lipol/src/lipol.rs"])
p("The block interpolator ramps from the previous target to the new one",
  "Multiplying, adding, fading or storing a block with the SSE interpolator applies gains on the straight line from the previous target to the new one, reaching it at the last sample.",
  "every block length, every previous and new target, every source buffer",
  "all buffers and lengths",
  ["surge-lipol/src/lipol_ps.rs", "surge-lipol/src/sse_block.rs", "surge-lipol/src/multiply.rs", "surge-lipol/src/mac.rs", "surge-lipol/src/fade.rs"])
p("Panning follows its ramp and keeps the sum of the channels",
  "trixpan_blocks moves one channel into the other by the pan position, which follows the straight line to the new target; the sum of left and right is unchanged at every sample, and nothing outside the block is written.",
  "every block length, every pan history, every pair of buffers, exact arithmetic",
  "all buffers",
  ["surge-lipol/src/trixpan.rs"])
p("Effect bypass modes and disable flags decide which effects run",
  "With 'all effects' every enabled slot is processed once per block; with 'no sends' all but the send slots; with 'scene effects only' just the scene inserts; with 'all off' none. A slot whose disable flag is set is never touched in any mode.",
  "every bypass mode, every disable flag set, every effect, every block and play state",
  "4 modes x 256 flag sets x arbitrary effects and states",
  ["surge-synthesizer/src/synth/process.rs: apply_inserts, apply_effects", "surge-synthesizer/src/synth/get.rs: get_fx_bypass_type"])
p("Send effects process the scenes",
  "A send effect's input is the sum of the scene outputs scaled by the send levels.",
  "every scene output, send level and effect",
  "continuum of signals",
  ["surge-synthesizer/src/synth/process.rs: process, maybe_add_send_a, maybe_add_send_b"])
p("Scene inserts are isolated and the dry output is the sum of the scenes",
  "What the inserts of one scene deliver depends only on that scene's signal and its own insert slots, never on the other scene; with every slot disabled the output block is the sample-wise sum of the two scenes and the rest of the buffers is unchanged.",
  "every pair of scene signals, effects, flags and bypass modes",
  "two-run property over arbitrary effects",
  ["surge-synthesizer/src/synth/process.rs: apply_inserts, sum_scenes"])
p("Block functions write exactly the block they are given",
  "Each block operation (clear, copy, accumulate, add, subtract, multiply, clip, encode) given n quads computes its result in the 4n floats at its destination and changes no other memory.",
  "every block size, every memory content",
  "memory safety over all sizes; writes past the end need not crash",
  ["surge-math/src/clear.rs", "surge-math/src/copy.rs", "surge-math/src/accum.rs", "surge-math/src/add.rs", "surge-math/src/sub.rs", "surge-math/src/mul.rs", "surge-math/src/hardclip.rs", "surge-math/src/softclip.rs", "surge-math/src/encode.rs"])
p("Mid/side encoding is invertible",
  "Encoding a stereo block to mid/side and decoding it gives both channels back; equal channels have no side part, opposite channels no mid part.",
  "every pair of blocks, every length, exact arithmetic",
  "continuum of signals",
  ["surge-math/src/encode.rs"])
p("Peak detectors return the peak",
  "The block peak functions return the largest absolute sample value of the block or blocks they are given.",
  "every block of finite f32 samples, every length",
  "2^32 patterns per sample",
  ["surge-math/src/absmax.rs", "surge-math/src/m128.rs"])
p("Hard limiters bound every input",
  "Hard clippers and range limiters deliver a finite value within their limits for every input, NaN and infinities included, do not change values already inside, and clip others to the nearest limit.",
  "every f32 (finite, infinite, NaN), every range",
  "all bit patterns and ranges",
  ["surge-math/src/hardclip.rs: hardclip_ps, hardclip_block, hardclip_block8", "surge-math/src/limit_range.rs", "surge-math/src/clamp.rs", "surge-math/src/saturate.rs: boundfreq"])
p("Soft clippers are monotone, odd and bounded by their nominal level",
  "Every soft clipper is non-decreasing, odd and never exceeds its nominal output level.",
  "every input, exact arithmetic",
  "continuum; monotonicity is a two-point property",
  ["surge-math/src/softclip.rs: softclip_ps, softclip8_ps, softclip_f64, softclip2_f64, softclip4_f64, softclip8_f64"])
p("Every parameter of the synthesizer stays in its range",
  "Each parameter of every module (oscillators, filters, effects, envelopes, LFOs, scene and patch) can be constructed, starts at its declared default, and after any sequence of normalised-value, direct-value and flag changes holds a value between its declared minimum and maximum; its normalised reading is then in [0, 1].",
  "every parameter of the repository's 29 parameter enums and every finite history of changes, including NaN, infinite and out-of-range arguments",
  "271 parameters times all histories of calls; a test tries one parameter and a few values.",
  ["surge-param/src/parameter.rs", "surge-param/src/set_value.rs set_value_f01", "surge-param/src/bound_value.rs", "surge-param/src/limit_range.rs", "surgefx-*/src/param.rs", "surgeosc-*/src/param.rs"])
p("Modulation depth handles",
  "The position of a modulation handle read from a depth is always a number in [-1, 1]; setting the handle and reading it back returns the same position up to rounding, for every parameter.",
  "every parameter and every f32 depth, NaN and infinities included",
  "All f32 depths and all parameters.",
  ["surge-param/src/get_modulation.rs get_modulation_f01", "surge-param/src/set_modulation.rs set_modulation_f01"])
p("Morphing between two parameters",
  "Morphing two float parameters of one control type gives exactly the first value at 0, exactly the second at 1, and the linear mix (up to f32 rounding) in between, never leaving the range; parameters that cannot be mixed switch over at one half; both morph calls agree.",
  "every pair of parameters and every morph position",
  "All pairs of values and all positions in f32.",
  ["surge-param/src/morph.rs morph, morph_alt"])
p("Note names",
  "Every note number has a name made of one of twelve note names and the octave number, and different notes have different names.",
  "every i32 note number",
  "Infinite (2^32) note numbers; injectivity quantifies over pairs.",
  ["surge-param/src/notation.rs get_notename"])
p("Extended ranges and flags take effect",
  "A parameter that can be extended is multiplied by the factor of its control type once its extend flag is set, and is unchanged otherwise; the flags set on a parameter are the flags it reports.",
  "every control type, parameter and value",
  "All parameters and values; the observable is a relation between setter and getter.",
  ["surge-param/src/extend.rs", "surge-param/src/extend_range.rs", "surge-param/src/snap.rs", "surge-param/src/parameter.rs set_extend_range, set_snap"])
p("Tempo sync lands on note lengths",
  "A tempo-synced parameter only takes values that are a plain, triplet or dotted note length or a limit of its range, and syncing an already synced value does not move it; without sync the value is only limited; forcing an integer gives the nearest integer inside the range.",
  "every f32 value, every range",
  "All f32 values; idempotence relates two calls.",
  ["surge-param/src/bound_value.rs bound_value", "surge-math/src/flops.rs split_float"])
p("The analog envelope keeps its level in range, follows its stages and ends",
"With finite parameters whose speeds lie in 0..1 and a sustain level in 0..1, the output of the analog ADSR envelope is a number in 0..1.5 after every history of attacks, retriggers, releases, parameter changes and blocks; no block fails before the idle counter overflows; while the gate is open and the peak has not been passed the level never falls; once it has passed 1 the envelope decays until the gate closes, each block moving the level towards the square of the sustain level (overshoot at most 2^-22); after the gate closes the level never rises; a release with a speed of at least 2^-20 per block reaches idle and silence after finitely many blocks; an uber-release is silent after one block; an idle envelope stays idle and silent.",
"every history of attack/retrigger/set_envstate/parameter change/process_block_analog calls, every parameter setting with speeds in 0..1, every sample rate",
"Boundedness and termination are statements over unbounded block histories with f32 rounding at every step; tests run a few envelopes.",
["surge-adsr/src/process_block_analog.rs: process_block_analog","surge-adsr/src/attack.rs: attack","surge-adsr/src/retrigger.rs: retrigger","surge-adsr/src/adsr.rs: AdsrEnvelope::is_idle, set_envstate"])
p("LFO start phase","On its first use a low-frequency oscillator takes its phase from the start-phase parameter: the call ends, the phase lies in 0..1, equals the parameter when that is in 0..1, and otherwise differs from it by a whole number.","every start-phase value and oscillator state","The wrapping loop runs once per unit; for large values a step of 1 is lost in rounding and the loop never ends, so a test either hangs or does not see it.",["surge-lfo/src/init.rs: init_phase_from_start_phase","surge-lfo/src/phaseslider.rs: get_phaseslider"])
p("LFO envelope","In every history of attacks, blocks and parameter changes the level of the LFO's envelope stays in 0..1, its stages follow one another in order, and after an attack (or release) it comes to rest at the sustain level (or 0) within a bounded number of blocks.","every history, every parameter setting in range, every rate table, tempo and random sequence","Quantifies over all histories and rate tables; the release error only shows when a release starts from a non-zero level.",["surge-lfo/src/attack.rs: attack","surge-lfo/src/update_envelope.rs: update_envelope_for_process","surge-lfo/src/release.rs: release"])
p("LFO phase and output range","In every history with parameters in range the LFO's phase stays in 0..1 and its output in -1..1, not negative in unipolar mode, and the output reaches the modulation system.","every history, parameter setting in range, wave table bounded by 1, random sequence","Bounds on an accumulated f32 phase and on the cubic bend must hold for every rounding, not for sampled values.",["surge-lfo/src/process.rs: process","surge-lfo/src/bend.rs: lfo_bend3","surge-lfo/src/modsource.rs: get_output"])
p("LFO step sequence","With the step-sequence shape the steps are played in order around the loop, each held at its value; the step counter never leaves the 16 steps; a block asks for a retrigger of the filter or amplifier envelope exactly when it ends a step whose trigger bits say so; and all steps take the time the rate says.","every pattern with loop points among the 16 steps and every history","Quantifies over patterns, loop points and histories of any length; the wrong minimum in the step speed needs the odd steps of a pattern.",["surge-lfo/src/phase_over_one.rs: update_step_sequencer_for_phase_over_one","surge-lfo/src/attack_shape_stepseq.rs: attack_shape_stepseq","surge-lfo/src/process_shape_stepseq.rs: process_shape_stepseq"])
p("Table lookups return for every input","The envelope rate, the decibel conversion, the clip scale, the wave shaper and the shaped sine return a value for every float, never reading outside their tables; only a wrong table number panics.","every input float including infinities and not-a-number, every table contents, every table number","inputs range over all floats; the ones that fail are far outside what a test tries",["surge-tables/src/envelope.rs:EnvelopeTables::envelope_rate_linear","surge-tables/src/gain.rs:db_to_linear","surge-tables/src/gain.rs:clipscale","surge-tables/src/waveshape.rs:lookup_waveshape","surge-tables/src/waveshape.rs:lookup_waveshape_warp"])
p("Envelope rates and gains are interpolated in their tables","The looked-up envelope rate or gain lies on the straight line between the two table entries around the input, up to float rounding, equals the entry at a grid point, and inputs outside the table's range are held at its ends.","every table contents and every input float","the property is about all inputs between and beyond grid points and all rounding errors",["surge-tables/src/envelope.rs:EnvelopeTables::envelope_rate_lpf","surge-tables/src/envelope.rs:EnvelopeTables::envelope_rate_linear","surge-tables/src/gain.rs:db_to_linear"])
p("Wave shapers stay between -1 and 1","Looking up any input in a wave shaping table gives a value between -1 and 1.","every input float including infinities and not-a-number, every shaping table","holds for every float and every table; rounding of the interpolation could exceed 1 by an ulp at some input",["surge-tables/src/waveshape.rs:lookup_waveshape","surge-tables/src/waveshape.rs:lookup_waveshape_warp","surge-tables/src/waveshape.rs:init","surge-math/src/tanh.rs:shafted_tanh"])
p("A pointer into a shaping table points at the requested element","Asking for the address of an element of a shaping table gives the address of that element of that table, or panics when the element does not exist.","every table number and offset","quantifies over all offsets",["surge-tables/src/tables.rs:get_waveshaper_ptr","surge-tables/src/surge.rs:_get_waveshaper_ptr"])
p("Initialising the interpolation kernels fills every row","Initialisation writes every sample of every row of the three windowed-sinc tables at the place the oscillators read it, the differences to the next row beside it, and the 16-bit table holds the scaled samples.","every kernel function and every row and column","the claim covers every one of the table's entries for an arbitrary kernel",["surge-tables/src/sinc.rs:init"])
p("The gain table follows the decibel scale","The interpolated gain of x decibels is within 1.4 % of 10^(x/20) and rises with x.","every real number of decibels in the range of the table","a statement over a continuum",["surge-tables/src/gain.rs:init","surge-tables/src/gain.rs:db_to_linear"])
p("Wavetable samples have a place of their own","For every wave length, number of waves and padding, the positions computed for two different (mip level, wave) pairs never overlap, and whenever the size estimate for the table is within the limit every non-empty level of every wave gets a position and ends within the estimate.","all wave lengths (powers of two or not), wave counts, paddings up to the interpolation margin, mip levels and waves","the positions are sums over levels with shifts that round; overlaps depend on the combination of length, count, level and padding",["surge-wavetable/src/calc.rs:required_wt_size","surge-wavetable/src/calc.rs:get_wt_index"])
p("Number of mip levels","The number of mip levels for a table is the least number from 1 to 16 whose power of two reaches the table length (16 if none does); every level of a non-empty table has at least one sample; a table of 2^k samples has k levels.","all table lengths","quantifies over all lengths",["surge-wavetable/src/dim.rs:required_mipmap_levels"])
p("Coarser mip levels are filtered versions of finer ones","Each sample of a coarser mip level is the 64-tap half-band filter applied to the level above, so that a constant table stays constant and content above the new Nyquist frequency is removed.","all tables, sample types, levels, waves and samples","quantifies over all table contents and dimensions",["surge-wavetable/src/mipmap.rs:populate_mipmaps"])
p("A wavetable holds the samples it was built from","Building a table from the right number of samples for at least three waves succeeds, reports the dimensions asked for, and its finest level returns exactly the given samples in order; unused places of coarser levels are silent. Any other number of samples, or fewer than three waves, is rejected.","all dimensions, sample types and contents","quantifies over all contents and sizes",["surge-wavetable/src/init.rs:populate_base_mipmap_level","surge-wavetable/src/init.rs:WaveTableBase::new"])
p("Loading a wavetable file","Loading any readable WAV file either yields a table holding the file's samples cut into waves of the loop length the file announces, or returns an error; it never panics.","all WAV files: loop lengths, sample counts, channels, sample formats, contents","quantifies over all files",["surge-wavetable/src/try_from_wavfile.rs"])
p("Derived wavetable sizes","For every table, the logarithm of the wave length is its base-two logarithm and the step is one over the length.","all tables","quantifies over all lengths",["surge-wavetable/src/base.rs:num_samples_per_table_po2","surge-wavetable/src/base.rs:dt","surge-math/src/scan.rs:bitscan_reverse"])
p("The dual delay plays back what was written, exactly the requested time ago",
  "Whatever blocks have been written since the delay was reset, and whatever delay is requested (any f32, including NaN and infinities, at every sample), the sample read is a twelve-tap interpolation of samples that were really written (silence before the first), with the newest tap dt+1 samples old; dt is the requested delay rounded down, clamped to 32 .. 2^18-13 samples, and the interpolation row is the fraction in 1/256 steps. Reads never leave the buffer or the kernel table and never touch the block being processed, also when the ring wraps.",
  "every history of written blocks of any length (any number of wrap-arounds), every f32 delay, every sample of the block",
  "The ring has 2^18 samples and mirrors its first twelve behind its end; errors only show when a read straddles the wrap after more than 8192 blocks with particular delays.",
  ["surgefx-dualdelay/src/block.rs do_dualdelay_block","surgefx-dualdelay/src/set_buffer.rs dualdelay_set_buffer","surgefx-dualdelay/src/process.rs update_wpos"])
p("The chorus voices read what was written, for every block size",
  "For every block size that is a power of two from 32 to 2^17, after any history of blocks, each voice of the chorus reads the twelve samples belonging to its own delay (clamped to the block size .. 2^18-13), never outside its buffer, and the output channel is the sum of the voices weighted with their pan gains.",
  "every block size (power of two from 32), every history of blocks, every number of voices, every f32 delay and pan gain, every sample of the block",
  "Same wrap-around and clamping cases as the delay, times the block size parameter.",
  ["surgefx-chorus/src/block.rs do_chorus_block","surgefx-chorus/src/set_buffer.rs chorus_set_buffer","surgefx-chorus/src/process.rs stereo_process"])
p("The flanger's delay line returns what was written that many samples ago",
  "Reading the flanger's delay line at a delay of d samples gives the linear interpolation of the samples written floor(d) and floor(d)+1 samples ago (silence before the first write), after every history of writes and for every delay the parameters can produce; reads never leave the line.",
  "every history of written samples, every f32 delay",
  "The line has 8192 samples; wrong results show only after it wraps or for particular long delays.",
  ["surgefx-flanger/src/interp_delay.rs InterpDelay::value, push"])
p("The flanger's output is bounded and never fails",
  "Whatever is fed in (NaN and infinities included) and however the feedback, gain and mix are set, each output sample of the flanger lies in -1..1, the feedback path stays in -1..1, and what is written to the line exceeds the input by at most 2; each sample is the softly clipped sum of the dry input and the weighted comb taps.",
  "every history of input samples and control settings with damping in 0..1",
  "Feedback makes every sample depend on the whole history; boundedness must hold at every step with f32 rounding.",
  ["surgefx-flanger/src/block.rs do_flanger_block","surgefx-flanger/src/block_comb_process.rs","surgefx-flanger/src/softclip_feedback.rs"])
p("The flanger's modulators stay in range",
  "The flanger's modulation phases stay in their ranges over every run, every modulation wave gives a value in -1..1 without failing, the voice weights switch on exactly the requested number of combs, and in arpeggio modes one comb is heard with a crossfade to the next at the end of its step. Each comb reads the delay line its base delay times one plus modulation times depth, plus one, samples back.",
  "every phase, rate sequence, wave shape, number of voices",
  "A phase that lands exactly on 1 happens only for particular f32 sums.",
  ["surgefx-flanger/src/weights.rs","surgefx-flanger/src/init_comb.rs","surgefx-flanger/src/aux.rs"])
p("The reverb is stable",
  "For every setting of its parameters the reverb answers bounded input with bounded output, whatever the length of the signal, and after the input stops its output decays to silence.",
  "every input signal of any length, every decay time, room size, damping, preset, sample rate",
  "Sixteen recirculating delay lines mix through a feedback matrix; growth of some mode can take millions of samples to become audible.",
  ["surgefx-reverb/src/block.rs do_reverb_block","surgefx-reverb/src/get.rs get_fb","surgefx-reverb/src/post_tap.rs do_post_tap","surgefx-reverb/src/update.rs update_rtime","surgefx-reverb/src/init.rs init_taps"])
p("The reverb's delay lines return what was written that many samples ago",
  "After every history of samples and parameter changes each of the sixteen taps reads exactly what was written to its own line its delay time ago (silence before the first), each sample writes each line once, and no access leaves the buffers.",
  "every history of samples and settings, every delay time below 32768 samples",
  "The lines are interleaved in one ring; mixing up lines or positions shows only for particular positions and delay times.",
  ["surgefx-reverb/src/block.rs delay_idx, do_pre_taps, do_post_taps","surgefx-reverb/src/pre_tap.rs do_pre_tap"])
p("The reverb's predelay delays the input and every preset fits",
  "The reverb hears its input exactly the predelay later for every value of the predelay parameter, without failing, and for every room size the delay times of every preset fit its lines.",
  "every predelay, every ring position, every room size and preset",
  "The ring position at which a subtraction underflows depends on the history.",
  ["surgefx-reverb/src/get.rs get_fb","surgefx-reverb/src/block.rs calculate_predelay_time","surgefx-reverb/src/preset.rs load_preset"])
p("A biquad filter computes its difference equation whatever is called","Whatever sequence of the nine processing functions of a biquad filter is called (single sample, stereo sample, no-lag, no-input, mono block, stereo block, slow-lag block), with coefficient changes anywhere in between, each channel's output satisfies y[n] = b0 x[n] + b1 x[n-1] + b2 x[n-2] - a1 y[n-1] - a2 y[n-2] with the coefficients in force when each sample was processed; mixing the functions, or splitting a signal into blocks, changes nothing but the (at most 2e-30) flush of tiny register values at the end of a block, and the mono functions leave the right channel alone.","all histories of calls, all inputs, all coefficients, both channels","A test filters a few blocks with one function; the equivalence of all call patterns over all histories is an induction over the history.",["surge-biquad/src/process_sample.rs process_sample","surge-biquad/src/process_stereo.rs process_block_stereo","surge-biquad/src/process_slowlag.rs process_block_slowlag","surge-biquad/src/process_sample_nolag_noinput.rs"])
p("Changing a filter's design is a geometric glide that never overshoots","The first design given to a fresh filter takes effect at once; every later one is approached along a straight line, by 1/250 of the remaining distance per sample (per block in the slow variant, never in the no-lag variants), so the coefficients in force always stay within any convex region that contains all designs asked for.","all histories of set_coef, instantize and processing calls","The bound must hold at every sample of every sequence of parameter changes.",["surge-lag/src/vlag.rs VLag::process","surge-biquad/src/set_coeffs.rs set_coef","surge-biquad/src/biquad.rs coeff_process"])
p("Every filter design below the Nyquist frequency is stable","For each of the eleven designs (low pass, high pass, band pass, notch, all pass and their variants), any cutoff strictly between 0 and the Nyquist frequency and any positive quality, bounded input gives bounded output for ever and whatever was in the registers dies away geometrically; and while gliding between stable designs every momentary setting is stable.","all designs, cutoffs, qualities, inputs and lengths","Instability shows only after arbitrarily long runs and for some parameters out of a continuum.",["surge-biquad/src/coeff_lp.rs","surge-biquad/src/coeff_hp.rs","surge-biquad/src/coeff_bp.rs","surge-biquad/src/coeff_notch.rs","surge-biquad/src/coeff_apf.rs"])
p("The filters have the frequency response they plot, with the gains their names promise","Feeding a sinusoid of any frequency, the output converges to that sinusoid scaled by plot_magnitude at that frequency. The low pass has gain 1 at DC, 0 at Nyquist and q at the cutoff; the high pass the mirror image; the band pass 1 at the cutoff and at most 1 anywhere; the notch 0 at the cutoff and at most 1 anywhere; the all pass 1 everywhere; and without resonance (q^2 <= 1/2) the low and high pass never amplify.","all frequencies, cutoffs, qualities and phases","Gains are claims over a continuum of frequencies, and convergence is a statement about the limit.",["surge-biquad/src/plot_magnitude.rs","surge-biquad/src/coeff_lp.rs","surge-biquad/src/coeff_hp.rs","surge-biquad/src/coeff_notch.rs"])
p("The all-pass filter conserves energy","Over any input whatever, the energy that has come out of an all-pass plus the energy left in its registers equals the energy that went in; the output energy never exceeds the input energy.","all inputs, cutoffs and qualities","An exact balance over all inputs of any length.",["surge-biquad/src/coeff_apf.rs coeff_apf"])
p("A cutoff above the Nyquist frequency is harmless","With a cutoff at or above the Nyquist frequency every design still gives bounded output: low passes, notch and all pass let the signal through, high passes silence it. (The band-pass designs lack the test and explode between the Nyquist frequency and the sample rate.)","all cutoffs above Nyquist, all inputs","Only some cutoffs show it, and only after the oscillation has grown.",["surge-biquad/src/coeff_bp.rs coeff_bp","surge-biquad/src/coeff_pka.rs","surge-biquad/src/coeff_lph.rs","surge-biquad/src/coeff_lp.rs"])
p("The voice filters compute the filter they were designed as",
  "With fixed settings and no clipping, every IIR voice filter (low, band, high pass; rough, smooth, medium; two or four poles) solves the difference equation of its design, once for two poles and twice in series for four, whatever the input. (A unit whose registers are all zero, as a new voice has them, forgets its first sample, and the medium filters start without their poles; the state-variable subtype reaches unreachable!.)",
  "all types, subtypes, orders, designs and inputs of any length",
  "An equality of a recursive computation with its specification over unbounded inputs.",
  ["surgefilter-iir/src/iir_process_quad.rs process_quad", "surgefilter-iir/src/quad_iir_12_b.rs", "surgefilter-iir/src/quad_iir_24_cfg.rs", "surgefilter-iir/src/coupled.rs", "surgefilter-iir/src/lattice.rs"])
p("Modulated voice filters stay bounded",
  "However the wanted coefficients jump from block to block, the output of the rough and medium filters is bounded by a constant that depends only on the largest input, the largest pole radius below one and the largest output gain; the smooth filters are bounded at fixed stable settings. For small signals clipping changes the output only by a term cubic in the level.",
  "all sequences of blocks, settings and inputs",
  "Quantifies over unbounded histories of modulation.",
  ["surgefilter-iir/src/quad_iir_12_cfc.rs", "surgefilter-iir/src/quad_iir_12_cfl.rs", "surgefilter-iir/src/quad_iir_24_cfl.rs", "surgefilter-iir/src/quad_iir_24_b.rs"])
p("A voice filter is tuned to the note it is given",
  "The cutoff, centre or notch of an IIR voice filter set to note n lies at the frequency of note n. (It does not: the pair returned by note_to_omega is destructured in the wrong order, so every filter is tuned to a quarter of the oversampled rate minus that frequency; a low pass at a low note lets nearly everything through.)",
  "all notes, types, resonances and sample rates",
  "A wrong tuning is a claim about a continuum of frequencies; tests that only check finiteness pass.",
  ["surgefilter-iir/src/iir.rs coeff_make", "surgefilter-iir/src/bandreject.rs coeff_make", "surge-tuning/src/tuner.rs note_to_omega"])
p("The voice filters' settings are stable",
  "At every note and resonance the coefficients made have their poles inside the unit circle. (Holds while the damping made is positive and the note lies below a quarter of the oversampled rate; above it every positive damping is unstable, and at full resonance the rough and medium dampings are negative.)",
  "all notes, types, orders and resonances",
  "Instability needs the right note, sample rate and enough time to show.",
  ["surgefilter-iir/src/iir.rs coeff_make", "surgefilter-iir/src/reso.rs", "surgefilter-iir/src/coeffs.rs alpha"])
p("Filter coefficients move smoothly to what is wanted",
  "Each block of 64 samples takes every coefficient in a straight line exactly to the smoothed target; with fixed settings the coefficients approach them geometrically; every coefficient in use at any sample is a mixture of zero and wanted ones, so properties closed under mixing are kept. (The first call stores zeros instead of the wanted coefficients.)",
  "all processing routines, histories of settings and inputs",
  "An invariant over unbounded histories of blocks.",
  ["surge-coeffmaker/src/maker.rs from_direct", "surge-voice/src/set_qfb.rs", "surge-voice/src/sync_from_qfb.rs"])
p("The state-variable filter is a stable biquad with the right gains at DC",
  "With fixed coefficients and no clipping the state-variable filter solves the difference equation of two Chamberlin steps per sample. It is stable exactly when damping and frequency satisfy 0 < q and f^2 + 2fq < 4; every cutoff with resonance up to 0.86 is; the low output passes a constant unchanged, the band and high outputs remove it; at stable settings any clip gain leaves the output bounded by a multiple of the input. At full resonance the damping is negative at every cutoff, and the clip gain still keeps the output of every bounded input bounded, at every cutoff and resonance.",
  "all cutoffs, sample rates, resonances, types, orders and inputs of any length",
  "Stability and boundedness quantify over all inputs and times.",
  ["surgefilter-svf/src/svf.rs coeff_make", "surgefilter-svf/src/quad_svf_lp12_a.rs", "surgefilter-svf/src/quad_svf_hp24_a.rs", "surgefilter-svf/src/svf_process.rs"])
p("The sample-and-hold filter renews its value at the note's rate",
  "A fresh sample-and-hold filter at rate r in [0,1] renews its value at exactly the samples where the phase r*n passes an integer, so ceil(n*r) times in n samples; between renewals the output is constant; a renewal takes the soft-clipped input minus feedback times the held value; and no output ever leaves [-1, 1] whatever the inputs and modulation.",
  "all rates, feedbacks and inputs of any length",
  "Exact timing over unbounded runs; the bound over all inputs and modulations.",
  ["surgefilter-snh/src/snh.rs process_quad", "surgefilter-snh/src/snh.rs coeff_make"])
p("The ladder filter cannot blow up",
  "Whatever the notes, resonances, modulation and inputs, no output of any stage of the ladder filter exceeds 11.50001; its coefficients are always finite and in range; negating registers and input negates the output.",
  "all settings per block, all inputs, all stages, lives of any number of blocks",
  "A bound over all inputs, settings and histories.",
  ["surgefilter-moog/src/process.rs process_quad", "surgefilter-moog/src/coeff.rs coeff_make", "surge-math/src/softclip.rs softclip8_ps"])
p("However cut into blocks, the half-rate filter is one half-band filter per channel",
  "Feeding a freshly built half-rate filter any sequence of blocks (multiples of four samples, at most 256; eight for down-sampling, 128 for up-sampling) gives in each channel exactly the mean of two all-pass chains, one delayed by a sample, applied to the concatenated signal of that channel: no block boundary shows, the channels do not leak into each other, old contents of the output buffers do not matter, down-sampling keeps the odd-numbered results, up-sampling filters the signal with a zero after each sample, and reset makes it fresh. (The filters made with default(), which the synth, scene and effects use, have no section at all and only average neighbouring samples.)",
  "all orders and steepnesses, all block sequences of any number and sizes",
  "Quantifies over all histories of blocks and all ways to cut a signal.",
  ["surge-halfrate/src/halfratefilter.rs new/reset/default", "surge-halfrate/src/process_block.rs process_block", "surge-halfrate/src/process_block_d2.rs process_block_downsample_by_two", "surge-halfrate/src/process_block_u2.rs process_block_upsample_by_two", "surge-halfrate/src/loadstore.rs"])
p("The half-rate filter never adds energy",
  "After any number of samples, the energy that came out of a channel of a half-rate filter (filtering, up- or down-sampling) is at most the energy that went into that channel.",
  "all orders, inputs and block sequences of any length",
  "A bound over all inputs and all times.",
  ["surge-halfrate/src/process_block.rs", "surge-halfrate/src/softer.rs", "surge-halfrate/src/steep.rs"])
p("The half-rate filter's frequency response is that of its all-pass pair",
  "A tone comes out as a tone of the same frequency with the amplitude and phase of the all-pass formula, up to a geometrically dying start-up term; the gain is one at zero frequency, zero at half the sample rate, never above one, and squared gains at mirrored frequencies add to one.",
  "all orders, frequencies and phases",
  "Quantifies over a continuum of frequencies and all times.",
  ["surge-halfrate/src/process_block.rs", "surge-halfrate/src/softer.rs", "surge-halfrate/src/steep.rs"])
p("The half-rate filter reaches the rejection its tables advertise",
  "Every tone from half a transition band above a quarter of the sample rate up to half the sample rate is reduced by the number of decibels in the comment of the table used. (Refuted for four tables: the softer sets of 70, 133 and 150 dB reach 68, 97 and 139 dB, one of them because of a pasted coefficient, and the steep set of 104 dB reaches 103; with these values the claim holds for all twelve.)",
  "all twelve tables, every frequency of the stop band",
  "A continuum of frequencies; the worst one has to be found, not guessed.",
  ["surge-halfrate/src/softer.rs", "surge-halfrate/src/steep.rs"])
p("Resampling by two keeps tones and suppresses images",
  "Up-sampling turns a tone into that tone at half level times the filter gain plus its mirror image reduced by the rejection; a constant comes out at half its level; down-sampling keeps tones of the lower band and reduces those that would fold back by the rejection reached.",
  "all orders, frequencies, phases and block sequences",
  "Quantifies over a continuum of frequencies and all histories.",
  ["surge-halfrate/src/process_block_u2.rs", "surge-halfrate/src/process_block_d2.rs"])
p("The quadrature oscillator stays on the unit circle and keeps its phase",
  "After any history of set_rate, set_phase and process calls in which a rate is set before the first process, the oscillator holds the sine and minus the cosine of the phase obtained by adding the current rate at each process; it never decays, grows or becomes NaN. (A process before the first set_rate collapses it to zero, and the next set_rate makes it NaN.)",
  "all histories of calls, all rates and phases",
  "Quantifies over unbounded histories of calls.",
  ["surge-quadrosc/src/lib.rs QuadrOsc"])
p("Unison voices are balanced",
  "For every requested voice count the pans of all voices add up to the same total left and right, each voice's two gains are non-negative and sum to two, detunings are equally spaced, pairwise different, symmetric and span -1 to 1, a single voice is not detuned, and the output attenuation is one over the count; more than 16 voices asked for directly panics.",
  "all requested counts",
  "Holds for every count; symmetry of the sign pattern is easy to get wrong for odd counts.",
  ["surge-blitter/src/prepare_unison.rs prepare_unison", "surgeosc-super/src/init.rs"])
p("A change of the sample rate reaches every rate",
  "After any history of set_samplerate calls all eight rates of a handle are those of a unit built at the last rate set. (Refuted: the single-precision oversampled rate and its inverse keep the values of the construction; the other six hold.)",
  "all histories of rate changes, any rounding",
  "Quantifies over histories of changes.",
  ["surge-samplerate/src/handle.rs set_samplerate", "surge-samplerate/src/unit.rs new_with_samplerate"])
p("The tempo ratio follows the host's tempo",
  "After update the tempo ratio is the host tempo over 120 and its inverse belongs to it. (Refuted: through the handle the tempo can never be set, so every update yields ratio zero and an infinite inverse.)",
  "all histories of calls on the handle",
  "That no history of calls can set a value is a universal statement.",
  ["surge-timeunit/src/unit.rs TimeUnit/TimeUnitHandle"])
p("Audio inputs and outputs have separate channels, renewed each block",
  "What a host writes to the left and right inputs reads back on each side, and each block's processing renews all up-sampled input samples; output channels are disjoint. (Refuted for the inputs: the channels overlap from the third sample on, and only ten of 128 up-sampled samples are renewed; it holds for the outputs.)",
  "all blocks, buffer contents and samples",
  "An aliasing claim over all samples and contents.",
  ["surge-input/src/handle.rs", "surge-output/src/handle.rs", "surge-synthesizer/src/synth/process.rs do_process_inputs"])
p("The clip, tanh and digital wave shapers follow their curves",
  "The clip shaper is the driven input held in [-1,1]; the tanh shaper never leaves [-1,1] and lies within the reciprocal's error of an odd, increasing curve that equals tanh of a slightly stretched argument and lies above tanh; the digital shaper returns odd multiples of a 32nd of the drive within a 32nd of the drive (plus the reciprocal's error) of its input.",
  "all inputs and drives, any hardware reciprocal within its error",
  "Quantifies over all reals and over the hardware's freedom.",
  ["surgeshaper-tanh/src/tanh.rs", "surgeshaper-digi/src/digi.rs", "surgeshaper-clip/src/clipper.rs", "surge-filter/src/filter_traits.rs clip_bipolar"])
p("The sine and asymmetric wave shapers follow their tables",
  "The sine and asymmetric shapers interpolate their tables at the driven input. (Refuted: both return one fixed table entry whatever the input.)",
  "all inputs and drives",
  "Quantifies over all inputs.",
  ["surgeshaper-sine/src/sse2.rs", "surgeshaper-asym/src/sse2.rs", "surge-tables/src/tables.rs get_waveshaper_ptr"])
p("The limiter's tree holds the maximum of its look-ahead window","After any life of the conditioner's limiter from construction or init, whatever the settings and samples, the root of its tree of maxima is the largest squared peak (larger of |left| and |right|) of the last 128 samples: no sample of the window has a larger one and one has it (0 if fewer than 128 were played).","every life (sequence of stereo samples with attack/release settings) and every length","a test plays a few signals; the tree is updated one path at a time and must be right after every history",["surgefx-conditioner/src/lookahead.rs: do_lookahead","surgefx-conditioner/src/block.rs: update_lamax, do_conditioner_block"])
p("The limiter delays by exactly its look-ahead","Each output sample of the limiter, left and right, is the input of 128 samples earlier (silence for the first 128) times one gain common to both channels.","every life and every sample","for all inputs, settings and lengths",["surgefx-conditioner/src/block.rs: do_conditioner_block, update_delayed, increment_bufpos"])
p("The limiter limits","After init, with the rates in their range, every gain is positive and at most one (up to the reciprocal's error), so no sample is amplified; and the gain follows the largest peak of the look-ahead window, so peaks above the threshold are reduced.","every life, every settings in range, every reciprocal of a given accuracy","peaks may come at any position and of any size",["surgefx-conditioner/src/lookahead.rs: get_lookahead","surgefx-conditioner/src/block.rs: update_filtered_lamax, update_gain","surgefx-conditioner/src/init.rs: init, new"])
p("Voices of a quad do not disturb each other","For every filter-block configuration, every subset of the two filters and the shaper (each treating lanes separately), and all states and inputs of the four voices: processing a block never panics (without debug assertions), leaves each voice as if processed alone, and adds to each output sample exactly the sum of what the four voices put out alone; inactive lanes add nothing.","every configuration, unit set, chain state, input block and block length","four-lane state, eight configurations and eight unit sets, arbitrary audio",["surge-qfunit/src/do_*.rs","surge-qfunit/src/config.rs: get_fn_process_quad","surge-qfunit/src/write_outputs.rs"])
p("A voice's settings glide to their targets","When a voice sets up its lane and its block of 64 samples is processed, gain, feedback, drive, mixes and output levels end exactly at the targets the voice computed, the next block starts from there, and other lanes are untouched; mixes of an in-range balance lie in [0,1].","every configuration, targets, previous values, chain state and audio","for all values and histories",["surge-voice/src/set_qfb.rs: set_quad_filterblock","surge-voice/src/calc_pan.rs: calc_pan","surge-qfunit/src/write_outputs.rs"])
p("Filter feedback cannot run away","In every configuration, with filters of bounded peak gain and a bounded shaper, the output of a voice stays within a bound that does not depend on the feedback amount, however large and however it changes, for ever. The state-variable filter, the ladder, sample-and-hold and the smooth lattice filters are such filters at every setting held (the first two also where they oscillate by themselves).","every life: any number of samples with inputs, gains, mixes in bounds, and any feedback","an unbounded run of a feedback loop",["surge-qfunit/src/do_serial2.rs, do_serial3.rs, do_dual1.rs, do_dual2.rs, do_stereo.rs, do_ring.rs, do_wide.rs","surge-math/src/softclip.rs: softclip_ps"])
p("Filter-block paths are what their names say","serial1 has no feedback; serial3 uses filter 2 only in the feedback path; a first mix of 0 bypasses filter 1 and the shaper, a second mix of 0 bypasses filter 2; the channels of wide never mix; dual1 and ring are symmetric in their branches.","every units, states, inputs and block lengths","noninterference properties compare two whole runs",["surge-qfunit/src/do_serial1.rs","surge-qfunit/src/do_serial3.rs","surge-qfunit/src/do_wide.rs","surge-qfunit/src/do_dual1.rs","surge-qfunit/src/do_ring.rs"])
p("Each voice's samples reach its own lane","After the voices of a quad have stored their oscillator samples, lane e of register k holds sample k of voice e and nothing outside the block is written.","every samples and memory contents","pointer arithmetic must be right for each lane",["surge-voice/src/process.rs: process_block"])
p("A legato note glides from the pitch that is sounding","When a legato note changes the key of a voice, the pitch starts at the pitch sounding at that moment, moves towards the new key in proportion to the accumulated portamento rate without overshoot, and stays there once it arrives.","every history of blocks, bends and legato notes, every key and rate","a note can come at any moment of any glide",["surge-voice/src/portamento.rs: update_portamento, legato","surge-voice/src/state.rs: get_pitch, set_portasrc_key","surge-math/src/interp.rs: lerp"])
p("Oscillator pitch shift: relative in notes, absolute in hertz","In relative mode the pitch parameter shifts by that many notes (octaves in the extended range). In absolute mode the frequency differs from that of the unshifted note by ten hertz per unit, for every note.","every note, shift and rising pitch table","the table search has to land on the right interval for all real notes",["surge-voice/src/note_shift.rs: note_shift_from_pitch_param"])
p("A voice plays the level-weighted sum of its enabled sources","Per block: each input of the filter block is the pre-filter gain times the sum over the enabled sources routed there of level times source (three oscillators, two ring products, noise), each oscillator processed in this block with the modulator of the FM configuration.","every combination of enables, routes, FM configurations, ramps and oscillator behaviours","2^6 enables x 4 FM modes x routes with stateful sources",["surge-voice/src/process.rs: process_block","surge-voice/src/do_osc.rs, do_ring.rs, do_noise.rs","surge-voice/src/calc_route.rs: calc_routes"])
p("Solo and mute","If any source is soloed exactly the soloed sources sound, otherwise exactly those not muted; level and route of a silent source do not matter.","all solo/mute combinations, all voices","noninterference over every block",["surge-voice/src/toggle_solo.rs: maybe_toggle_solo"])
p("Pan law","The two output levels of a voice depend on the limited sum of scene and channel pans: monotone in opposite directions, equal in the middle, one-sided at the ends, constant power within an eighth, mirror symmetric; in stereo and wide the width spreads the two signals and the channel pan moves both.","every pan, width, volume and path","inequalities over real parameters",["surge-math/src/pan.rs: megapan_left, megapan_right","surge-voice/src/calc_pan.rs: calc_pan","surge-math/src/convert.rs: amp_to_linear"])
p("Pitch, bend, key tracking and cutoff of a voice","The wheel moves the pitch by its range on either side, monotonically; an octave step by the length of the scale; key tracking is 0 at the root and 1 per octave, also right after a switch; full key tracking moves the cutoff with the pitch.","every wheel position, range, tuning and key","for all real settings",["surge-voice/src/calc_pitch.rs: get_pitchbend, calc_pitch","surge-voice/src/calc_keytrack.rs","surge-voice/src/toggle.rs: switch_toggled","surge-voice/src/get.rs: get_cutoff, get_cutoff_pair"])
p("Switching filter types restarts the filters","After a switch all filters in use (four in the wide path) have the wanted types; a filter whose type changed starts from silence, one that did not change goes on undisturbed.","every history of switches and blocks","stale state depends on the whole history",["surge-voice/src/toggle_filter.rs: maybe_toggle_filter","surge-voice/src/filterblock.rs: FU::init"])
p("Ages and end of a voice","The age of a voice is its number of blocks, its release age the number of blocks since release; it asks to be kept until the first block with an idle amplitude envelope and never again.","every history of blocks and releases","unbounded histories",["surge-voice/src/process.rs: process_block","surge-voice/src/calc_modsources.rs","surge-voice/src/release.rs"])
p("Aftertouch reaches the notes","In every block the channel aftertouch source of a voice follows the pressure of its channel, and polyphonic aftertouch follows its key.","every history of pressures","histories of any length",["surge-voice/src/calc_modsources.rs: calc_modsources","surge-voice/src/init_modsource.rs: init_aftertouch, init_channel_aftertouch"])
p("Vocoder bands are spread evenly between the limits","After every update the number of active bands is the wanted number rounded down to a multiple of four; carrier bands are spread evenly in notes between the two frequency limits whichever knob holds the lower one; modulator bands are the same ones unless shifted or widened, then evenly spread over the shifted and widened interval cut at note 60; all filter registers and envelopes are kept.","every settings, sample rate and previous state","real-valued settings",["surgefx-vocoder/src/update.rs: update","surge-svf/src/svf.rs: set_coeff"])
p("Vocoder band filters are stable band-passes","For all settings in the ranges of the parameters and sample rates from 44100 Hz every band filter is stable: bounded input gives bounded output, a signal that dies away dies away behind it, and a constant signal is blocked.","all settings in range, all states and signals","stability quantifies over unbounded signals",["surge-svf/src/svf.rs: calc_bpf, calc_f, calc_q","surgefx-vocoder/src/update.rs"])
p("Vocoder envelopes follow the modulator","The envelope of a band moves towards the squared band signal (at most 6, nothing below the gate), never past it; it stays within [0,6]; at a constant level the distance shrinks geometrically.","every rate and gate in range, every signal","inequalities over real signals of any length",["surgefx-vocoder/src/block.rs: do_vocoder_block","surgefx-vocoder/src/cfg.rs"])
p("The vocoder imposes the modulator's envelopes on the carrier","The output is four times the sum over the active bands of the carrier times the band's gain through the band's filter: linear in the carrier, alike for left and right, bounded for a bounded carrier whatever the modulator, and dying away when the modulator dies away.","every carrier and modulator signal, all stable settings, every square-root approximation of a given accuracy","limits and linearity over infinite signals",["surgefx-vocoder/src/block.rs: do_vocoder_block","surge-math/src/square.rs: v_sqrt_fast"])
p("Fast sine and cosine follow the real ones","On [-pi, pi] fastsin and fastcos differ from sin and cos by at most 1.12e-5 and 7.4e-5 (never above the true value on the positive side), fastsin is odd and fastcos even; clamp_to_pi_range moves any argument into [-pi, pi] by whole turns, so both approximations follow sin and cos at every argument after wrapping. The documented maximum error of 1e-5 does not hold for either.","every real argument (exact arithmetic)","an error bound is a statement about a continuum of arguments; sampling cannot exclude a worse point between samples",["surge-math/src/fast.rs: fastsin, fastcos, clamp_to_pi_range"])
p("Fast tanh and tan follow the real ones","fasttanh is odd and strictly increasing on the whole line and within 2.3e-4 of tanh on [-5, 5]; its clamped form is within 2.3e-4 of tanh everywhere, monotone and at most 1.00001 in size (but not at most 1); fasttan is odd and within four millionths of tan, relatively, up to 1.57.","every real argument (exact arithmetic)","monotonicity and error bounds quantify over all pairs of arguments",["surge-math/src/fast.rs: fasttanh, fasttanh_sse, fasttanh_sse_clamped, fasttan"])
p("Fast exp follows the real one","fastexp is positive everywhere, fastexp(x)*fastexp(-x) = 1, it is below exp to the right of 0 and above it to the left, with relative error at most 2e-7 on [-1, 1] and 2e-4 on [-2, 2]; the documented range -6..4 is not covered (at -6 it is more than twice exp(-6)).","every real argument (exact arithmetic)","an error bound is a statement about a continuum of arguments",["surge-math/src/fast.rs: fastexp, fastexp_sse"])
p("The ring modulator's diodes: dead zone, slope, four-quadrant product",
  "A diode passes nothing up to the forward bias, is never negative, never falls and never rises faster than its input, and above the linear region rises exactly with it. The ring of four diodes is silent if either input is, odd in each input, never exceeds the smaller of the input and twice the carrier, and is silent while half the input plus the carrier stay below the bias.",
  "every bias, linear region, input and carrier value",
  "a continuous family of curves with two knees; the bound and the symmetries are for all pairs of inputs",
  ["surgefx-ringmod/src/diode_sim.rs diode_sim", "surgefx-ringmod/src/process.rs"])
p("The ring modulator's carrier stays in range and runs at the asked frequency",
  "For every phase in [0, 1] every carrier shape stays within ±1.0003 and the sine shape within 1.12e-5 of the sine; the phase stays in [0, 1]; over any time the number of cycles differs by at most one from time times the frequency asked for. The last is refuted: at the end of a cycle the phase is set to 0 rather than wrapped, so the carrier runs at 1/(⌊1/d⌋+1) < d cycles per sample.",
  "every phase, carrier shape, phase step and number of samples",
  "drift accumulates over unboundedly many samples",
  ["surgefx-ringmod/src/process.rs", "surgeosc-sine/src/compute.rs value_from_sin_and_cos"])
p("The ring modulator's output: full scale in, full scale out; silence; dry",
  "With inputs within ±1 the output of the ring modulator is within ±1 for every mix (proved for one or two carriers, refuted for sixteen, where the saturation folds over below −2); silence gives silence; at mix 0 the output is the saturated input alone. The unison carriers' pans are mirror images which sum to one, the detunes mirror images within ±1.",
  "every input sample, mix, shape, bias, unison count",
  "a bound on a nonlinear function over a continuous domain with up to sixteen carriers",
  ["surgefx-ringmod/src/process.rs", "surgefx-ringmod/src/update.rs"])
p("The peak equaliser leaves 0 Hz alone, reaches the asked gain at the centre and is stable",
  "Designed for a centre frequency below the Nyquist frequency, a bandwidth and a gain, the peak equaliser has gain exactly 1 at 0 Hz, exactly the gain asked for at the centre, a gain between the two at the Nyquist frequency, and is stable; at 0 dB it is the identity.",
  "every centre frequency, bandwidth and gain",
  "a closed-form response over three continuous parameters; samples of it show nothing about the values between",
  ["surge-biquad/src/coeff_peak_eq.rs coeff_peak_eq", "surge-biquad/src/plot_magnitude.rs plot_magnitude"])
p("The phaser never gains energy","However feedback and mix are set and moved, the energy of the phaser's wet signal is at most 400 times that of its input, its value stays within a bound that does not depend on how long it runs, and the output is a cross-fade of dry and wet with a factor between 0 and 1.","every sequence of blocks, parameters and inputs","energy is summed over an unbounded run through eight filters and a feedback path; no finite number of samples settles it",["surgefx-phaser/src/block.rs process_block","surgefx-phaser/src/process.rs stereo_process","surgefx-phaser/src/update.rs update","surge-biquad/src/coeff_apf.rs coeff_apf"])
p("The phaser's sweep stays in range","The sweep phase stays in [0, 1] and so the sweep of each filter within ±1 of its centre, at any rate, for ever.","every sequence of rates, any number of updates","a phase accumulator over an unbounded run: leaving the range takes a rate and a history tests do not visit",["surgefx-phaser/src/update.rs update"])
p("The distortion's output is made from the whole block and only the block is written","Each block of output depends on every sample of the block of input, and processing a block changes no memory outside the 32 samples of each channel.","every state, parameter set and block","which inputs an output depends on and which memory stays untouched quantify over all inputs and all memory",["surgefx-distortion/src/process.rs stereo_process","surgefx-distortion/src/block.rs process_block","surge-halfrate/src/process_block_d2.rs process_block_downsample_by_two"])
p("The distortion's output is bounded whatever the drive and feedback","With a bounded wave shape the output stays within a bound given by the filters behind the shaper, the shape and the output gain only, however strong drive, input equaliser and feedback are, and no block panics.","every run of any length, every input, drive, feedback and pre-filter history","a feedback loop with gain far above 1 around a nonlinearity: only an invariant excludes that some history blows it up",["surgefx-distortion/src/process.rs stereo_process","surgefx-distortion/src/block.rs process_block","surgefx-distortion/src/update.rs update","surgefx-distortion/src/init.rs init"])
p("The pre-delay of the all-pass reverb delays by the time it is set to","Every sample that comes out of the pre-delay of reverb2 is the one that went in the set number of samples earlier, and silence before the first; it never aborts.","all inputs, all delay settings, all numbers of samples","the failing sample depends on the history of the buffer position and the delay setting; a test has to run for exactly the pre-delay time to see it",["surgefx-allpass/src/predelay.rs: PreDelay::process"])
p("The diffusers of the all-pass reverb lose and add no energy","After any number of samples the energy a diffuser has put out plus what it holds is the energy that was put in, whatever its length does meanwhile; it never aborts for lengths the effect can set.","all inputs, coefficients, histories of lengths","a statement about every finite input and every sequence of room sizes",["surgefx-allpass/src/allpass.rs: Allpass::process","surgefx-allpass/src/calc_size.rs: calc_size"])
p("The tail of the all-pass reverb is finite and dies away","The reverb tank never aborts; with fixed settings the energy of its output is bounded by a multiple of the energy of its input that depends on the decay setting alone, and once the input has stopped the tail tends to zero.","all inputs, all room sizes, dampings, diffusions, decay times","stability of a feedback network for every input; no finite run shows it",["surgefx-allpass/src/block.rs: do_allpass_block, do_process_block","surgefx-allpass/src/one_pole_filter.rs","surgefx-allpass/src/process.rs: stereo_process"])
p("The delay lines of the all-pass reverb play the set time back","A tap plays exactly what went in the set number of samples ago, the line itself the interpolated value at the modulated length, at every sample rate and every room size.","all inputs, histories of lengths, taps, modulations","circular-buffer indexing over unbounded histories",["surgefx-allpass/src/delay.rs: Delay::process","surgefx-allpass/src/calc_size.rs: calc_size","surge-samplerate/src/handle.rs: ms_2_samples"])
p("The FM2 oscillator plays the FM formula","Without external FM, sample n of the FM2 oscillator is sin(phase + depth1*sin(modulator 1) + depth2*sin(modulator 2) + offset + feedback*previous sample), the phases being the running sums of the block-wise frequencies; no block clicks, the output stays in [-1, 1], and with all depths zero it is a pure sine.","all parameter histories (pitch, ratios, shift, depths, feedback, start phase), all runs of any length","a closed form over unbounded runs and every parameter history",["surgeosc-fm2/src/process.rs, surgeosc-fm2/src/block.rs, surgeosc-fm2/src/init.rs: process_block, init","surge-quadrosc: QuadrOsc::set_rate, process"])
p("FM modulation depths follow the parameters","Changing an FM depth, the feedback or the start offset while a note is held is heard, and a constant setting keeps its depth for the whole note.","all pairs of parameter histories, all times","compares any two histories over unbounded runs",["surgeosc-fm2/src/process.rs: process_block","surge-lag: Lag::new, new_value, process"])
p("The sine oscillator shapes the same phase in all modes","In the legacy mode the sine oscillator shapes the sine and cosine of the accumulated phase, stays in [-1, 1], and each shape number gives the same quadrants as in the other modes.","all pitch and shape histories, all runs","a closed form over unbounded runs and all phases",["surgeosc-sine/src/legacy.rs, surgeosc-sine/src/compute.rs: process_block_legacy, value_from_sin_and_cos"])
p("Oscillators never read an invalid FM source","Whatever the parameters and whatever calls came before (init, assign_fm, blocks), processing a block reads the modulator only if one was assigned.","all reachable oscillator states, all parameters","reachability over all call histories",["surgeosc-fm/src/process.rs, surgeosc-fm/src/fm.rs: process_block, assign_fm","surgeosc-fm2/src/process.rs, surgeosc-fm2/src/fm2.rs: process_block, assign_fm","surgeosc-sine/src/process.rs, surgeosc-sine/src/sine.rs: process_block, assign_fm"])
p("The audio-input oscillator balances its two inputs","The channel parameter cross-fades between the two inputs with non-negative weights whose sum is twice the gain, full left and full right silencing the other side; values outside [-1, 1] act as the ends.","all samples, gains and channel positions","an algebraic identity over all reals",["surgeosc-audioin/src/process.rs: process_block"])
p("The super oscillator's band-limited impulses overlap-add without gap or loss","Every impulse placed into the ring buffer contributes its twelve interpolated kernel samples at exactly the instant it was placed, across block ends and the wrap of the buffer, and every later sample of the output is the high-passed, leaky integral of the sum of all impulses minus the accumulated slope correction; no sample is heard twice, none lost.","all sequences of blocks, all numbers and placements of impulses in a block, mono and stereo","superposition over unbounded runs and every placement of impulses, including those that straddle the end of the ring",["surgeosc-super/src/convolute/convolute.rs: convolute","surgeosc-super/src/process/process.rs: process_block","surgeosc-super/src/process/handle_wrap.rs: handle_wrap"])
p("The super oscillator's pitch does not depend on its shape","One cycle of four impulses takes exactly two periods of the note, whatever pulse widths, waveform mix and sub level are set, so the pitch is that of the note; the fundamental equals the note's frequency in the tuning in force.","all pulse widths, waveforms, sub levels, notes and states","the sum of four durations over a continuum of parameters",["surgeosc-super/src/convolute/convolute.rs: convolute","surgeosc-super/src/convolute/get_t.rs: get_t"])
p("The super oscillator does not drift","For every history of parameters and hard-syncs the level reached after each impulse stays within [-6, 4]; at fixed settings the levels are those of the waveform, repeated exactly in every cycle.","all histories of parameters and syncs, any number of impulses","an integral of impulses over an unbounded run: the error of a single one never decays",["surgeosc-super/src/convolute/convolute.rs: convolute"])
p("Every block of the super oscillator ends, with each impulse at its time","Filling a block takes finitely many impulses, each placed inside the block at the time it is due, in order, for every pitch, pulse width, sync setting and unison voice.","all parameters, all states, all unison voices","termination of a loop over reals for every input: absolute unison detuning can make the period 0",["surgeosc-super/src/process/process.rs: process_block","surgeosc-super/src/convolute/convolute.rs: convolute"])
p("The wavetable oscillator keeps its pitch whatever the skew and the formant","A cycle of the wavetable oscillator takes exactly one period of the note however the wave is skewed horizontally and whatever the formant; each step of it is longer than zero, so that every block ends, with any number of voices, and a steady note plays for ever without abort.","all tables, skews, formants, pitches, numbers of voices, runs of any length","a sum over up to 4096 steps of a cubic for a continuum of skews, and termination of a loop over reals",["surgeosc-wavetable/src/convolute/convolute.rs: convolute","surgeosc-wavetable/src/convolute/blitstate_zero.rs: do_blitstate_zero_for_convolute","surgeosc-wavetable/src/process/nofm.rs: process_block_nofm"])
p("The wavetable oscillator plays the wave of the table","At steady settings the levels reached are, in every cycle, the samples of the chosen mip level, morphed between the two tables, skewed and clipped; they never leave [-1, 1] nor drift, whatever is modulated; a 16-bit sample counts as a fraction of full scale.","all tables, settings, modulation histories, runs of any length","an accumulation of differences over an unbounded run",["surgeosc-wavetable/src/convolute/get.rs: get_newlevel","surgeosc-wavetable/src/update.rs: distort_level","surgeosc-wavetable/src/convolute/convolute.rs: convolute"])
p("Morphing through the tables neither clicks nor aborts","For every history of the morph parameter each block begins at the place among the tables where the last one ended, moves to the place asked for, only tables that exist are read, and no block aborts.","all histories of the morph parameter, all table counts, all voice phases","a property of successive blocks that fails only where a table boundary is crossed",["surgeosc-wavetable/src/process/update_tables.rs: update_tables","surgeosc-wavetable/src/convolute/get.rs: get_newlevel"])
p("A wavetable oscillator can be created and fed any table","Creating the oscillator succeeds, and it plays tables files with any number of tables from one on.","all parameters, all tables","an underflow and an out-of-bounds index that depend on the number of tables",["surgeosc-wavetable/src/new.rs: new","surgeosc-wavetable/src/set_pitch.rs: set_pitch","surgeosc-wavetable/src/process/update_tables.rs: update_tables"])
p("One-shot samples play their tables in order, the set number of times","A table file marked as a sample plays its tables in order, as many times as the unison count says (1 to 6), and is then over; from 7 on it loops for ever.","all table counts, loop counts, any number of cycles","a count over unboundedly many cycles",["surgeosc-wavetable/src/convolute/blitstate_zero.rs: do_blitstate_zero_for_convolute","surgeosc-wavetable/src/init.rs: init"])
p("The unison voices of the wavetable oscillator are panned","In stereo, each unison voice reaches the left and right channel with its own two pan gains.","all voices, pannings, runs","compares whole output streams for every panning",["surgeosc-wavetable/src/convolute/convolute.rs: convolute","surgeosc-wavetable/src/convolute/stereo.rs: convolute_stereo"])
p("The sample-and-hold oscillator finishes every block with its impulses in their samples","For any pulse width, correlation, sync and pitch within their ranges, and any random numbers, every block of the sample-and-hold oscillator ends, and every step of the held level is placed in the sample of the block, and with the sub-sample delay, that its point in time falls on.","for every starting state, every sequence of parameters and periods, every random sequence and every number of blocks","the loop has no counter: whether it ends depends on every period it draws","surgeosc-snh/src/process.rs: process_block;surgeosc-snh/src/convolute.rs: convolute".split(";"))
p("The sample-and-hold oscillator's held level stays within its range","The level held by the sample-and-hold oscillator is within ±1/2 at every moment, for any correlation and any random numbers; with the correlation at zero every new level is the random number itself (limited).","for every run, correlation and random sequence","a feedback of earlier levels, over unbounded histories","surgeosc-snh/src/convolute.rs: convolute".split(";"))
p("The sample-and-hold oscillator holds its levels for the pulse width and the rest of the period","With sync off and a constant period, two successive levels of the sample-and-hold oscillator together last exactly one period, whatever the pulse width does, and the pitch is thus exact over any number of periods.","for every run with sync off","accumulates over unboundedly many periods","surgeosc-snh/src/process.rs: process_block;surgeosc-snh/src/convolute.rs: convolute".split(";"))
p("The sample-and-hold oscillator's unison detune follows the spread","The unison voices of the sample-and-hold oscillator are detuned in proportion to the unison spread, and not at all when it is zero.","for every spread, number of voices and drift","the spread is continuous","surgeosc-snh/src/convolute.rs: convolute".split(";"))
A=lambda *x:["surgeosc-window/src/"+y for y in x]
p("The window oscillator's pitch is exact for ever","However the pitch changes from block to block, the window oscillator plays every sample at the starting phase plus one step for each sample played, modulo the window's length: no phase is lost where the window ends, and it never panics with parameters in their ranges and complete tables.","for every history of pitches, formants, tables and windows, over any number of blocks","an accumulating phase over unbounded histories, with 32-bit wrap-around",A("process_block.rs: process_oscillator_block","subosc.rs: process_sub_osc"))
p("The window oscillator changes formant and wave only where a window starts","A change of formant or morph takes effect at the next start of the window, where the window is silent, and both keep their values throughout a window.","for every run and every sample","depends on where in a block the window happens to start",A("process_block.rs: process_oscillator_block"))
p("The window oscillator's positions lie inside its tables","Every position at which the window oscillator looks up its wave and its window is inside the table at the mip-map level used, for every pitch and formant.","for every run and every sample","all 2^32 phases, ratios and formants",A("process_block.rs: process_oscillator_block","subosc.rs: process_sub_osc"))
p("The window oscillator reads only from its tables","Every memory read of the window oscillator's wave and window is inside the table it plays.","for every table and position","undefined behaviour: no output to compare",A("access.rs: get_wave, get_win"))
p("The window oscillator's mip-map level follows the pitch","The window oscillator picks the mip-map level at which it advances by less than 4/3 of a sample per output sample (or its coarsest), and that level exists in its tables.","for every pitch","2^30 ratios; a wrong level only aliases",A("subosc.rs: process_sub_osc")+["surge-math/src/scan.rs: bitscan_reverse"])
p("The window oscillator plays the chosen number of unison voices","For every unison count from 1 to its maximum of 16, the window oscillator plays that many voices.","for every unison count","an audible property of the configuration",A("init.rs: init"))
p("Every sample of the window oscillator's block is heard","Each sample of the window oscillator's output block is the (scaled) sum of its voices at that sample.","for every block of sums","any content of the block",A("process.rs: process_block"))
p("At the centre formant the window oscillator's wave and window run in step","With the formant at its centre, the wave is played exactly once per window, whatever the lengths of the two tables, shorter or longer.","for every pair of table lengths and every phase","all table sizes and phases",A("formant.rs: get_formant_mul"))
p("The synthesizer never outputs a sample beyond eight times full scale","After every block, whatever scenes and effects computed (infinities and NaN included), each of the 64 output samples is a number in [-8, 8]; a sample inside that range is passed on bit for bit; a halted engine outputs zeros.","every content of the output buffer before the final stage, every state","the contents before the clip are any bit patterns",["surge-synthesizer/src/synth/process.rs: process, do_halt","surge-math/src/hardclip.rs: hardclip_block8"])
p("The output meters show the level of the output","After every history of blocks the two meters are at least the peak of the last block, never NaN or infinite, and without new peaks fall by 0.3 percent per block.","every history of blocks of any content","a meter accumulates over an unbounded history",["surge-synthesizer/src/synth/process.rs: process 461-481","surge-output/src/handle.rs: set_vu_peak, get_vu_peak","surge-math/src/absmax.rs: get_absmax"])
p("Every block is rendered","On an engine that is not halted, process renders a block, with external input switched on or off, wherever the allocator places the buffers.","every placement of the buffers, every memory content, both input modes","depends on addresses chosen by the allocator",["surge-synthesizer/src/synth/process.rs: process, clear_inputs, do_process_inputs","surge-input/src/handle.rs: SynthInput","surge-math/src/clear.rs"])
p("The two audio inputs are independent channels","What the host writes to the left input is heard on the left and what it writes to the right on the right: neither channel's samples are part of the other; the audio input oscillator mixes them by its balance, each with a gain between zero and twice its own, adding up to twice its gain.","every memory content and order of writing, every sample index, gain and balance","aliasing shows only for particular contents",["surge-input/src/handle.rs: audio_in0, audio_in1","surgeosc-audioin/src/process.rs"])
p("A program change loads a program and the engine keeps playing","After a program change the engine fades out, loads the patch and continues; without one it neither fades nor stops.","every bank and program, every later number of blocks, every fade state","effect comes 40 blocks later",["surge-synthesizer/src/synth/patchunit.rs: handle_patchid_queue","surge-synthesizer/src/synth/midi.rs: program_change"])
p("The housekeeping call is safe at any time","process_threadunsafe_operations returns in every state, whether or not a patch change is pending.","every state of queue and audio processing","depends on the history of calls",["surge-synthesizer/src/synth/patchunit.rs: process_threadunsafe_operations"])
p("Suspending and reloading effects touches exactly the requested effects, once","A control pass suspends exactly the effects whose bit is set and clears the request; reloading initialises exactly the flagged effects, all if forced, clears the flags and reports whether any was initialised.","every list of effects, mask, flags","all masks and flag combinations",["surge-synthesizer/src/synth/process_control.rs: maybe_suspend_fx","surge-synthesizer/src/synth/fx.rs: load_fx"])
p("The VST plugin plays the pressed key as a bounded sine, equal on all channels","In every state and for every buffer: no note gives silence; a note gives a sine of the key's frequency continuing in phase from the plugin's clock, the same on all channels, within [-1, 1]. A note-on restarts the level from 0; it rises to 1 in half a second.","every state, buffer length and channel count","unbounded lengths",["surge-synthesizer/src/vst_host.rs: process, note_on","surge-synthesizer/src/freq.rs: midi_pitch_to_freq"])
p("The plugin is tuned to A4 = 440 Hz, equal temperament","As documented, A4 sounds at 440 Hz, each key is above the one before by the twelfth root of two, twelve keys double the frequency.","every key","every key",["surge-synthesizer/src/freq.rs: midi_pitch_to_freq","surge-constants/src/lib.rs: A4_FREQ"])
p("The plugin's sound does not depend on the host's buffer size","Two consecutive buffers contain together what one buffer of their joint length would.","every state, every pair of lengths","all ways of cutting",["surge-synthesizer/src/vst_host.rs: process"])
p("The plugin plays what the MIDI messages say","Silence before the first note-on; a note-on starts its key; the note-off of the sounding key (or a note-on of velocity zero) ends it; other note-offs change nothing; all MIDI channels are heard.","every history of messages","every history",["surge-synthesizer/src/vst_host.rs: process_midi_event, note_on, note_off, default"])
p("A flat equaliser is transparent","A freshly initialised three-band equaliser with every gain at 0 dB leaves the sound as it is; whatever it does to the sound otherwise dies away geometrically.","Every frequency and bandwidth setting, every history of blocks, every input","A test plays a few blocks; the claim is about every sample of every history, including the first",["surgefx-eq3band/src/init.rs: Eq3Band::init","surgefx-eq3band/src/update.rs: instantize_unity_gain, band_gain, update_all_bands","surgefx-eq3band/src/process.rs: stereo_process","surge-biquad/src/biquad.rs: coeff_instantize, Suspend"])
p("The equaliser's output stays bounded","At constant stable settings the output of the three-band equaliser never exceeds a fixed multiple of the largest input sample, however long it runs and although its coefficients glide to the settings.","Every constant stable setting, every history of blocks, every input","Instability shows after arbitrarily many samples and at any setting",["surgefx-eq3band/src/process.rs: stereo_process","surgefx-eq3band/src/update.rs: maybe_update","surge-biquad/src/set_coeffs.rs: set_coef","surge-biquad/src/process_stereo.rs"])
p("The frequency shifter moves a tone by the shift","With feedback off and constant settings, a tone fed into a channel comes out, at the wet level, at its frequency plus that channel's shift, at the gain of the delay line, and the opposite sideband is at least 103 dB below; the dry tone stays at the dry level; the difference dies out geometrically.","all shifts, tones in the band (a hundredth of the spectrum at each end, and the shift where it is downwards, excluded), phases, mixes, delays, interpolation kernels, signals in the other channel, run lengths","single-sideband modulation is a statement about every tone and every time, with the transient of a recursive filter and four smoothers in it",["surgefx-freqshift/src/process.rs","surgefx-freqshift/src/pre_block.rs","surgefx-freqshift/src/post_block.rs","surge-quadrosc/src/lib.rs"])
p("The right channel of the frequency shifter follows the sign of its ratio","The right channel is shifted by the left shift times the ratio, so that a ratio of -1 sends it the other way.","all ratios, shifts, tones","needs the limit behaviour of the whole effect, for tones of any length",["surgefx-freqshift/src/update.rs","FreqShiftParam::RMult"])
p("The delay of the frequency shifter","The delay line settles on the requested time, between samples if need be.","all delay times, inputs, run lengths","the smoother approaches its value only in the limit; the interpolator must be right for every fraction",["surgefx-freqshift/src/pre_block.rs","surge-lag/src/lag.rs"])
p("The frequency shifter stays bounded under automation","Whatever the settings do from block to block, feedback of any size included, the effect does not panic and the output stays within a fixed multiple of the input level and the wave shaper's level.","all parameter histories with delays below 2^22 samples and mixes in [0, 1], all bounded inputs, all run lengths","unbounded histories; the oscillators are renormalised only once per block",["surgefx-freqshift/src/process.rs","surgefx-freqshift/src/update.rs"])
p("With a modulator the FM and sine oscillators play their formulas","When the modulator buffer is set before each block, the FM oscillator's sample n is sin(carrier phase + three sine modulators + external FM + feedback * previous sample) and the sine oscillator's is the shape of (phase + feedback * previous sample + external FM); in legacy mode the external signal modulates the frequency instead. Depths are those of the first block, fading by 0.996 a sample, and the FM output stays in [-1, 1].","all parameter histories, all modulator contents, all block counts","a formula over unbounded histories of parameters and modulator samples with feedback",["surgeosc-fm/src/block.rs","surgeosc-fm/src/process.rs","surgeosc-sine/src/block.rs","surgeosc-sine/src/legacy.rs","surge-macros/src/lib.rs: master_osc!"])
p("The nonlinear-states filter filters","From rest, the nonlinear-states filter realises (for small signals) the second-order sections its coefficients design, and accepts every saturator selection.","all inputs of any length, all coefficients and increments, all numbers of sections and saturator bits","a statement about all input signals and all settings",["surgefilter-nlstates/src/process.rs","surge-qfunit/src/qf_unit_state.rs: reg"])
p("The nonlinear filters' designs are stable and hit their targets","For every cutoff, resonance and type both nonlinear filters design stable second-order sections: unity in the pass band and zero in the stop band, an all-pass of gain one everywhere, a notch and a band-pass centred on the cutoff with the quality factor as gain.","all frequencies (clamped by the code), all resonances, all sample rates above 17 Hz, all points of the unit circle","real-valued parameters; a frequency response",["surgefilter-nlstates/src/coeff.rs","surgefilter-nlfeedback/src/coeff.rs"])
p("The nonlinear-feedback filter cannot blow up and keeps silence","With the tanh, soft-clip and OJD saturators the output is bounded by a function of the input's bound over any life of blocks with any settings; with tanh, soft clip and sine both polarities are treated alike and silence stays silence.","all histories of settings, all bounded inputs of any length","unbounded runs with modulation",["surgefilter-nlfeedback/src/process.rs","surgefilter-nlfeedback/src/coeff.rs","surge-coeffmaker/src/maker.rs"])
p("The OJD saturator is transparent for small signals","With the OJD saturator small signals are filtered as designed and silence stays silence.","all signals below the clipping threshold, all coefficients","all signals and coefficients",["surgefilter-nlfeedback/src/nlff.rs: ojd_waveshaper"])
p("The sine saturator limits the feedback","With the sine saturator bounded input gives bounded output, at least with no resonance.","all input signals, all lengths","divergence only shows in the limit",["surgefilter-nlfeedback/src/nlff.rs: fastsin_ps","surge-math/src/fast.rs: fastsin"])
p("The Runge-Kutta ladder never blows up","From rest, with any cutoff, resonance and gain compensation and any input samples, however loud, the Runge-Kutta ladder filter's output never exceeds 14.74 in magnitude; it treats both polarities alike, and silence into a filter at rest is silence out.","all sample rates, all sequences of blocks with settings made by the filter's own coefficient function (gliding between blocks), all input samples","The bound is an invariant of a four-stage nonlinear feedback recursion with no bound on its input or its length.",["surgefilter-rungekutta/src/runge_kutta_process.rs: process_quad","surgefilter-rungekutta/src/derivatives.rs: calculate_derivatives","surgefilter-rungekutta/src/runge_kutta_coeff.rs: coeff_make"])
p("The Runge-Kutta ladder integrates its circuit to fourth order","With no input and no feedback a small charge on the first capacitor obeys y' = -c y, so one step of length h of the filter, which is documented as Runge-Kutta integration, leaves exp(-hc) of it up to an error of order (hc)^5.","all step lengths and cutoffs with 0 < hc <= 1/2","The order of an integrator is a statement about the limit of small steps, for every step size.",["surgefilter-rungekutta/src/runge_kutta_process.rs: process_quad"])
p("The two-pole OB-Xd filter is passive","Each sample solves the circuit equations of the two-pole OB-Xd filter without a delay in the loop. As long as the damping setting outweighs the diode-pair nonlinearity, the energy stored relative to a constant input never grows, however cutoff, resonance and mode are modulated from sample to sample; with any input it grows by no more than the input delivers; with fixed settings the filter settles from every state, the low-pass passing DC, the high-pass and band-pass blocking it.","all register states, all coefficient sequences changing at every sample, all inputs, all run lengths","Stability under audio-rate modulation of a nonlinear state-space filter is an invariant over unbounded histories and real-valued states.",["surgefilter-obxd/src/process_2pole.rs: process_2_pole","surgefilter-obxd/src/obxd.rs: newton_raphson_12db, get_12db_self_osc, diode_pair_resistance_approx"])
p("The four-pole OB-Xd filter stays bounded at every resonance","At oversampled rates from 88 kHz up, over a whole life of blocks with any cutoff and any resonance up to full in each and inputs within X, the output of the four-pole OB-Xd filter stays within a bound that depends only on the sample rate and X, although the cutoff is read before its increment and the feedback solved with it after.","all sample rates, all lists of blocks and settings, all inputs","A feedback loop at full resonance with gliding coefficients can only be shown stable by an invariant over all histories.",["surgefilter-obxd/src/process_4pole.rs: process_4_pole","surgefilter-obxd/src/obxd.rs: newton_raphson_r24_db, tptpc","surgefilter-obxd/src/coeff.rs: coeff_make"])
p("The OB-Xd pole taps agree at DC","The four sub-types of the four-pole OB-Xd filter are taps of one chain: with a constant input, once settled, they all give the same output.","all cutoffs, resonances and settled states","Quantifies over a continuum of steady states of a nonlinear loop.",["surgefilter-obxd/src/process_4pole.rs: process_4_pole"])
p("A selected OB-Xd tap is heard","When a sub-type of the four-pole OB-Xd filter is selected through the coefficient maker, the corresponding tap is heard.","all settings, inputs and numbers of blocks","Silence for ever is a statement about unboundedly many blocks.",["surgefilter-obxd/src/process_4pole.rs: process_4_pole","surgefilter-obxd/src/coeff.rs: coeff_make","surge-coeffmaker/src/maker.rs: from_direct"])
p("Diode ladder: unit gain at DC","With the resonance at zero, the diode ladder filter settles, for a constant input, at an output equal to the input, at every cutoff.","every cutoff, sample rate, constant input and settled state","A test measures a few cutoffs after a finite wait; the claim is about every settled state at every cutoff.",["surgefilter-diode/src/coeff.rs coeff_make","surgefilter-diode/src/process_quad.rs process_quad"])
p("Diode ladder: stability without resonance","With the resonance at zero the diode ladder filter is stable: after an impulse its output stays bounded, at every cutoff the clamp allows.","every cutoff, sample rate and length of run","Instability is a limit statement; a short run at one cutoff can look fine.",["surgefilter-diode/src/coeff.rs coeff_make","surgefilter-diode/src/process_quad.rs process_quad"])
p("Diode ladder: superposition and silence","The diode ladder is a linear filter even while its coefficients glide: the response to a weighted sum of signals is the weighted sum of the responses, and a silent filter fed silence stays silent.","all signals, weights, memories, coefficient ramps and lengths","All pairs of signals and all ramps.",["surgefilter-diode/src/process_quad.rs process_quad","surgefilter-diode/src/lpf.rs do_lpf","surgefilter-diode/src/diode.rs get_feedback_output"])
p("Huovilainen ladder: bounded whatever is played","The Huovilainen ladder's output stays bounded by a constant for every input signal and every sequence of cutoff, resonance and gain-compensation settings, and, with little resonance, by a multiple of the input's peak.","all inputs, all settings in every block, any number of blocks","A feedback loop can blow up after any number of samples, for some signal and automation.",["surgefilter-huovilainen/src/huovilainen_process.rs process_quad","surgefilter-huovilainen/src/huovilainen_coeff.rs coeff_make"])
p("Huovilainen ladder: symmetric and silent","The Huovilainen ladder treats both polarities alike (negating the input negates the output) and turns silence into silence.","all signals, states and coefficient ramps","All signals and all states.",["surgefilter-huovilainen/src/huovilainen_process.rs process_quad"])
p("Comb filter: processes a sample","A voice using a comb filter can be played: processing a sample returns for every state, coefficient and input.","all states and inputs","The refutation is about every state and input; a test shows one.",["surgefilter-comb/src/process_sse2.rs process_quad","surge-math/src/align.rs simd_extract"])
p("Comb filter: a safe feedback delay","With the missing lane extraction supplied, every access of the comb filter is inside its buffers, whatever delay the settings give; its stored signal is the soft-clipped input plus the fed-back delayed stored signal; its output is the mix of the input and the delayed signal, and is bounded whatever the feedback.","all inputs, all delay, feedback and mix automation, any number of samples","Ring-buffer wrap-around and the copied tail depend on position, delay and history.",["surgefilter-comb/src/process_sse2.rs process_quad","surgefilter-comb/src/coeff.rs coeff_make","surgefilter-comb/src/comb.rs"])
p("Wavetable oscillator: shaping never folds","The wavetable oscillator's vertical skew and saturation leave a waveform within ±1 unchanged when at rest, and at any setting keep the peaks ±1 in place and the order of the levels between them; saturation alone never lowers a level.","all control settings and all levels within ±1","Order of every pair of levels at every setting.",["surgeosc-wavetable/src/update.rs distort_level, update_lagvals"])
p("Dual delay: the signal flow holds under any automation",
  "Whatever the input and however its parameters are automated, block after block, the dual delay is this: each channel reads its stored signal at the smoothed delay with the twelve-point kernel, soft-clips it and sends it through high cut and low cut; the echoes times the smoothed feedback are added to the panned input and stored; the output fades between the input and the echoes of adjusted width. No access leaves the buffers; with the mix at zero the output is the input; silence from the start gives silence.",
  "every automation of all parameters, every input, every number of blocks, every position of the ring buffer",
  "The ring buffer wraps after 8192 blocks, and the smoothed delay can take any value while it moves; tests visit a few positions only.",
  ["surgefx-dualdelay/src/process.rs: stereo_process", "surgefx-dualdelay/src/block.rs: do_dualdelay_block", "surgefx-dualdelay/src/set_buffer.rs: dualdelay_set_buffer", "surgefx-dualdelay/src/update.rs: update"])
p("Dual delay: feedback stays in its channel, crossfeed goes to the other",
  "The feedback setting returns each channel's echo to itself, the crossfeed setting feeds it to the other channel; at crossfeed zero a signal in one channel never reaches the other.",
  "every automation, every input",
  "A statement about the effect of one parameter on all outputs for all values of the others.",
  ["surgefx-dualdelay/src/process.rs: do_feedback, do_crossfeed"])
p("Dual delay: the echo comes after the time that is set",
  "With a constant delay setting of T samples and no modulation the echo settles at T samples; the modulation stays within a fixed multiple of its step.",
  "every delay, every input, every automation of the other parameters, all time",
  "The smoothing takes thousands of samples to settle and its limit is a statement about all of them.",
  ["surgefx-dualdelay/src/update.rs: update", "surgefx-dualdelay/src/init.rs: new", "surge-lag/src: Lag"])
p("Dual delay: the output stays bounded whatever the feedback",
  "With the two cuts left where they are, there is a bound depending on them alone such that for every input and every automation of delay, feedback, crossfeed, panning and modulation the output exceeds the input by no more than it.",
  "every input, every automation, all time",
  "Feedback above one only fails after arbitrarily many repeats.",
  ["surgefx-dualdelay/src/process.rs: do_softclip, do_filters"])
p("Dual delay: the echoes ring out after the input has ended",
  "When the input ends, the delay goes on for its ring-out time and is then skipped.",
  "every history of blocks with and without input",
  "A statement about every schedule of silent and sounding blocks.",
  ["surgefx-dualdelay/src/process.rs: process_only_control", "surge-traits/src/ringout.rs: process_ringout"])
p("Rotary speaker: the output is horn plus bass of the mono input",
  "Every output sample is the treble of the mono sum, read at the Doppler delay of the channel and scaled by the gain of the channel, plus the bass, whose upper part the bass rotor modulates. Reading never leaves the buffer or the kernel table. Only the sum of the input channels matters; channels in opposite phase give exact silence.",
  "every input, every automation of rate, Doppler and amplitude modulation, any number of blocks",
  "The delay line and both filters remember unboundedly much of the past.",
  ["surgefx-rotary/src/process.rs: stereo_process", "surgefx-rotary/src/block.rs: do_rotaryspeaker_block", "surgefx-rotary/src/pre_block.rs", "surgefx-rotary/src/post_block.rs"])
p("Rotary speaker: delay and gain of the horn stay within the geometry",
  "The delay of the horn stays between the nearest and the farthest distance to the microphone times the Doppler setting; its gain stays between 1 - 1.2 times the modulation depth and 1, and should never turn negative.",
  "every rate, angle, automation and sample",
  "Angles and ramps take a continuum of values.",
  ["surgefx-rotary/src/process.rs: stereo_process", "surge-quadrosc/src/lib.rs: set_rate, process"])
p("Rotary speaker: the bass rotor turns at seven tenths of the horn's speed",
  "The modulation of the bass is meant to turn at 0.7 of the rate of the horn.",
  "every automation of the rate, any number of blocks",
  "The ratio has to hold over every history.",
  ["surgefx-rotary/src/set.rs: set_lfos", "surgefx-rotary/src/post_block.rs: do_rotaryspeaker_post_block", "surgefx-rotary/src/process.rs: process_only_control"])
p("Rotary speaker: bounded, and silent after the input has ended",
  "The output never exceeds a fixed multiple of the loudest input, and once the input has ended the output falls to the level of the filters' denormal threshold.",
  "every bounded input, every automation, any length",
  "A statement about unbounded time.",
  ["surgefx-rotary/src/process.rs: stereo_process", "surgefx-rotary/src/init.rs: init"])
p("Rotary speaker: the return level sets the level, and without Doppler effect there is no delay",
  "The return level scales the effect; with Doppler at zero treble and bass stay together.",
  "every input and setting",
  "Independence of a control is a statement about all its values and all inputs.",
  ["surgefx-rotary/src/param.rs", "surgefx-rotary/src/block.rs: do_rotaryspeaker_block"])
p("Rotary speaker: the interpolation uses one row of the kernel",
  "For every fractional delay the twelve coefficients are one row of the kernel table.",
  "every delay",
  "Delays take a continuum of values; only some fractions go wrong.",
  ["surgefx-rotary/src/block.rs: do_rotaryspeaker_block"])
p("Rotary speaker: suspending silences it",
  "After suspend, silence in gives silence out.",
  "every history before the suspension",
  "The state left behind depends on the whole past.",
  ["surgefx-rotary/src/init.rs: suspend", "surge-biquad/src/biquad.rs: suspend"])
p("The chorus follows its signal flow for every input and automation","Whatever stereo input is played and however the parameters are automated block by block, the chorus outputs a fade between the input and a wet signal of adjusted width; the wet signal is four voices reading one stored mono signal at their own smoothed, modulated delays, panned from left to right, filtered by the high cut and the low cut; what is stored is both input channels plus the wet channels times the feedback, clipped to 1. No access to the buffer or the kernel is out of bounds. Mix 0 gives the input, mix 1 the wet signal; silence gives silence.","every input signal, automation of all parameters, kernel and number of blocks","the ring buffer wraps after 8192 blocks and delays, phases and smoothed controls depend on the whole history",["surgefx-chorus/src/process.rs stereo_process","surgefx-chorus/src/block.rs do_chorus_block","surgefx-chorus/src/set_buffer.rs chorus_set_buffer","surgefx-chorus/src/update.rs update","surgefx-chorus/src/init.rs init"])
p("The chorus voices are spread evenly in the cycle and in the stereo field","Four voices of equal power are panned from left to right, together with the power of one signal; their delays stay between zero and (1 + depth) times the set time; and they run at four different places in the modulation cycle. (The last is false: the first and the last voice always have the same delay.)","every automation of rate (up to a cycle per block), time and depth, and every sample","the phases wrap irregularly under automation; the coincidence of two voices must hold at every sample to be one",["surgefx-chorus/src/init.rs init","surgefx-chorus/src/update.rs update","surgefx-chorus/src/block.rs do_chorus_block"])
p("The chorus cannot blow up","With the two cuts left where they are, the output of the chorus is bounded by a multiple, depending on the cuts alone, of the input's bound plus one, for every feedback however large and every automation of rate, depth and time.","every input, automation and number of blocks","a loop with delay, filters and feedback can grow slowly; only an invariant over all blocks excludes it",["surgefx-chorus/src/process.rs stereo_process","surge-math/src/hardclip.rs hardclip_block"])
p("The chorus rings out when its input ends","When the input of the chorus ends in the effect chain, the delayed sound still in it is heard, and a later sound begins clean. (False: blocks without input pass unchanged and stop time for the effect, so the tail is heard when the next sound begins, however much later.)","every history of blocks with and without input","the tail may be released after any number of silent blocks",["surge-traits/src/ringout.rs process_ringout","surgefx-chorus/src/chorus.rs","surgefx-chorus/src/process.rs stereo_process"])
p("Correlated noise stays in range and tilts the way it is told","Correlated noise whose result is fed back stays between -1 and 1 for every sequence of draws and every automation of the correlation; without correlation it is the draws; it forgets its start; and positive correlation favours alternating over constant draws (bright), negative the reverse.",
  "every sequence of draws, every automation of the correlation, every start, every number of steps",
  "Boundedness and forgetting are about infinite random sequences; a run samples one.",
  ["surge-math/src/correlated_noise.rs: correlated_noise"])
p("The colour of the noise changes its spectrum, and the pitch drift wanders","A voice's noise colour changes the spectrum of the noise, and the oscillators' drift wanders slowly away from its start. (False: the state is passed by value and never kept; colour is only volume, up to 42 dB less at both ends, and the drift jumps by at most 0.0064 around a fixed value for ever.)",
  "every sequence of draws, every automation of the colour, every number of blocks",
  "Whiteness of the result for every colour is a statement about all sequences of draws; a listening test hears noise either way.",
  ["surge-math/src/correlated_noise.rs: correlated_noise_o2mk2, drift_noise", "surge-voice/src/do_noise.rs", "surgeosc-super/src/process/no_fm.rs"])
p("The all-pass filter passes all","For every positive length, every coefficient and every input the all-pass filter of the maths crate obeys the all-pass recurrence, and the energy it has put out plus what its line still holds is the energy put in.",
  "every length, coefficient, input and number of samples",
  "An energy identity over all inputs of all lengths.",
  ["surge-math/src/allpass.rs: AllpassFilter"])
p("Cubic interpolation joins its points smoothly and reproduces straight lines","The cubic interpolation passes through its points, its pieces join with equal slope, it is symmetric and linear in its points. (False part: on a straight line it should give the line; its slopes are twice too steep and it is off by up to a tenth of a step.)",
  "every four points, every position between",
  "An identity of polynomials in five real variables.",
  ["surge-math/src/interp.rs: cubic_interpolate"])
p("The windows are windows","For every length from 2 on each window function is symmetric, between its floor and 1, and has its floor at the ends; the symmetric forms are so around the origin. (False for the symmetric Blackman-Harris window: one term has another period.)",
  "every length from 2 on, every position",
  "Ranges over all lengths and positions.",
  ["surge-math/src/window.rs"])
p("Conversions of level and time are inverse to each other","Decibels to gain and back, level to gain and back, are identities over their ranges; 20 dB are a factor of ten and 1200 timecents of two. (False for decibels to level: -60 dB gives the level of -94 dB.)",
  "every level",
  "Identities over all reals.",
  ["surge-math/src/convert.rs"])
p("Big-endian words have their bytes reversed and are read back as written","For every 32-bit and 16-bit word the big-endian form has the bytes in reverse order and converting twice gives the word back.",
  "every 32-bit and 16-bit word",
  "Four billion words; a test tries a few.",
  ["surge-math/src/utility.rs: vt_write_int32_be, vt_read_int32_be, vt_write_int16_be, vt_read_int16_be"])
p("15-bit samples survive conversion to floating point and back","Every 15-bit sample comes back from the conversion to floating point unchanged; every value within range comes back with an error below one step, towards zero; values out of range are clipped; the order of samples is kept.",
  "every sample and every real value",
  "Ranges over all reals.",
  ["surge-math/src/value_cast.rs: float2i15_block, i152float_block"])
p("Legato in the single-trigger modes follows the keys","In a single-trigger monophonic mode, for every history of keys pressed and released on the channel of the sounding voice with a key held all the time, nothing panics and that voice stays the only held one, never restarted; it plays the key pressed last, moves to the highest key still held when its key is released, ignores the release of other keys, and is released with the last key.",
  "every history of key events of any length, every set of other voices, every polyphony limit above their number",
  "The sounding key depends on the whole history of presses and releases; a test plays a few.",
  ["surge-scene/src/scene/play_voice_portamento.rs", "surge-scene/src/scene/release_single_triggered.rs", "surge-scene/src/scene/play_voice.rs", "surge-scene/src/scene/release.rs"])
p("Legato in the single-trigger modes works with MPE, over several channels and at every polyphony limit","The behaviour of single-trigger modes is the same with MPE, for keys on other channels and at every polyphony limit. (False three times: with MPE the release of the sounding key always releases the voice, whatever else is held; without MPE a key from another channel takes the voice over and then sounds for ever after its release; at limit 1 a legato note kills the sounding voice.)",
  "every state of the keys on all channels, every voice",
  "All combinations of held keys on 16 channels.",
  ["surge-scene/src/scene/release_single_triggered.rs: release_single_triggered_mpe_enabled", "surge-scene/src/scene/play_voice_portamento.rs", "surge-scene/src/scene/play_voice.rs"])
p("A note can be started","Playing a note on a scene starts a voice. (False at this commit: in every mode, on every scene without a held voice, playing a note panics, because building a voice needs an unfinished function.)",
  "every polyphony mode and limit, every set of voices, every note",
  "Ranges over every scene state.",
  ["surge-scene/src/scene/play_voice.rs", "surge-scene/src/scene/create.rs: voice_constructor", "surge-scene/src/scene/process.rs: create_voice_runtime", "surge-scene/src/scene/get.rs: modulation_voice"])
p("Modulation routings switch their sources on, move their destinations and add up","Exactly the sources used by a routing are switched on. A routing moves its destination by depth times the source; several routings of one destination add up; depth 0 does nothing. (False but for the first: no parameter ever reads differently, only the last routing is stored, and it stores the parameter's own position too.)",
  "every list of routings of any length, every source output, depth and parameter",
  "Lists of routings of any length.",
  ["surge-scene/src/scene/apply_modulation.rs", "surge-param/src/parameter.rs: set_modulation_val, get_value", "surge-param/src/pval.rs"])
p("A parameter of a scene can be set, and leaving latch mode releases the latched note","Setting a parameter of a scene to a normalised value sets it; changing the polyphony mode from latch to another releases the latched note. (False: setting any parameter panics, since its old value is read both as an integer and as a truth value; the release is asked for when latch is set again and never when it is left.)",
  "every parameter, every type, every value, every pair of modes",
  "Universal over parameters and values.",
  ["surge-scene/src/scene/set.rs: set_parameter01, release_old_notes_if_previous_polymode_was_latch", "surge-param/src/pdata.rs"])
p("Solo is exclusive, and the filter offset switch is inaudible","For every sequence of solo buttons pressed and released at most one source is soloed; switching the second filter's cutoff between absolute and relative leaves both sounding cutoffs as they were for every pitch and envelope, and switching back restores the parameters.",
  "every sequence of presses, every parameter setting, pitch and envelope value",
  "Sequences of any length and real-valued parameters.",
  ["surge-scene/src/scene/modsource.rs: handle_boolsolo, handle_boolrelative_switching", "surge-voice/src/get.rs: get_cutoff_pair"])
p("Unison voices are spread in stereo", "With several unison voices in stereo, every impulse a voice writes reaches the left and the right buffer weighted by that voice's left and right pan gain. This holds for the sample-and-hold oscillator. It is false for the wavetable oscillator, which weights both sides with the left gain, so unison voices are never panned.", "every oscillator state, every sequence of impulses, every parameter setting", "the weights apply to every impulse of an unbounded run; a test looks at one block", ["surgeosc-snh/src/convolute.rs", "surgeosc-wavetable/src/convolute/convolute.rs"])
p("Voices that have ended leave, the others go on","After every block exactly the voices that report their end are gone, and every other voice goes on playing in its place. (False: if two voices end in one block, a voice that is still playing is cut off and an ended one stays, or the program panics; with more than 64 voices it panics; and as the code stands every block panics on unfinished look-ups.)",
  "every number of voices, every set of voices that end in the block",
  "All subsets of voices ending together.",
  ["surge-scene/src/scene/process.rs: do_routing_critical_section, process", "surge-synthesizer/src/synth/process.rs"])
p("Every block is rendered afresh, and a scene without voices is silent","What is heard in a block is what the voices of that block produce; once the last voice has ended and its effects have rung out there is silence. (False: a scene's output buffer is never cleared, so a constant voice adds up block by block without bound, and after the last voice the remains are played for ever.)",
  "every number of blocks, every output of the voices",
  "Histories of any number of blocks.",
  ["surge-synthesizer/src/synth/process.rs: process", "surge-scene/src/scene/process.rs"])
p("All rendered samples are heard","The oversampled output of a sounding scene is clipped and down-sampled, so that every rendered sample contributes. (False: the test for a sounding scene is inverted, so only scenes without voices are down-sampled; the second half of what the voices render is never heard and the first half is played at the oversampled rate.)",
  "every output of the voices, every state of the engine",
  "Universal over everything voices can render.",
  ["surge-scene/src/scene/process.rs: playscene, post_process"])
p("Effects are applied while a scene sounds","While a scene has voices its insert effects, the send effects and the global effects are applied to its sound. (False: the flag that says there is input is inverted, so that effects with a ring-out time are skipped exactly while the scenes sound.)",
  "every set of effects with a ring-out time, every setting of the bypass and the switches of the slots, every output of the voices",
  "Ranges over all engine states.",
  ["surge-scene/src/scene/process.rs: playscene", "surge-synthesizer/src/synth/process.rs", "surgefx/src/effect.rs"])
p("Each oscillator of a voice is of the type the patch asks for, started and in tune","After every history of patch changes each oscillator of a voice is of the type last asked for, has been initialised and set to the pitch of the note; an oscillator that is switched off is silent. (Only the type is right: an oscillator whose type does not change during the note is never initialised; off from the start means a sine; switching one off during a note makes the next block, or the end of the note, panic.)",
  "every patch at the note on, every later sequence of patches of any length",
  "Histories of switches of any length, with any combination of solo and mute.",
  ["surge-voice/src/toggle_osc.rs", "surge-voice/src/toggle.rs", "surge-voice/src/init.rs", "surge-voice/src/drop.rs", "surge-voice/src/process.rs"])
p("The mixer knobs set the levels of their sources","In every block each source sounds at the level of its own knob (the cube of it), gliding from the level before, after any history of the knobs; the pre-filter gain follows its own knob. (False in part: in the first block of a note no source reaches an eighth of its level; the pre-filter gain knob does nothing, the gain is the noise level read as decibels, so the noise knob changes the loudness of everything.)",
  "every history of the knobs, every source, every sample",
  "Real-valued knobs and histories of any length.",
  ["surge-voice/src/calc_levels.rs", "surge-voice/src/create.rs: create_voice_osclevels", "surge-math/src/convert.rs: amp_to_linear"])
p("A voice's LFOs are those of the patch, and steps retrigger the envelopes","The LFOs of a new voice have the parameters of the patch; with a step sequencer in LFO 1 an envelope is retriggered exactly in the blocks that end a step marked for it. (The first part is false: the parameters are always the defaults, and starting such an LFO panics.)",
  "every patch, every state of the LFO and the envelopes, every step pattern",
  "All 2^48 trigger masks and all phases.",
  ["surge-voice/src/init_modsource.rs: init_lfos", "surge-voice/src/calc_envelope.rs", "surge-voice/src/calc_lfo.rs"])
p("Velocity, pressure and timbre reach the voice","During the whole note velocity is the MIDI velocity over 127; release velocity is 0 and after the release the MIDI release velocity over 127; timbre, channel pressure and the pressure of the key are followed in every block. (False for pressure: channel pressure is read once at the note on; key pressure starts each block from the channel's pressure and never arrives: half pressure reads as 0.225; pressure already on the key is ignored at the note on.)",
  "every velocity, every history of pressures and timbres of any length",
  "Histories of any length and real values.",
  ["surge-voice/src/init_modsource.rs", "surge-voice/src/calc_modsources.rs", "surge-voice/src/calc_poly_aftertouch.rs", "surge-voice/src/release.rs"])
p("A voice keeps its filters from block to block whatever place it has",
"A voice's filter registers, delay lines, write positions and coefficients are handed to its lane of a quad at the start of a block and fetched back after it. Whichever quad and lane the voice is given, whatever was in that quad, and whoever its companions are, its filters after every block - and so after its whole life - are those of a voice playing the same notes alone, and what the quad puts out is the sum of what the voices put out alone.",
"all filter configurations, all filters that treat their lanes independently, all sequences of blocks, all placements and companions, all previous contents of the quads",
"voices come and go at any moment, so a test fixes one placement history out of unboundedly many",
["surge-voice/src/set_qfb.rs", "surge-voice/src/sync_from_qfb.rs", "surge-voice/src/filter.rs", "surge-scene/src/scene/process.rs", "surge-qfunit/src/qf_unit_state.rs"])
p("Wave shaping tables give the curves they are filled with",
"Looking up any finite float in the table of the hyperbolic tangent gives tanh of that float within 1/2000, also beyond the ends of the table; looking up the sine gives sin(pi x / 2) within 1/90000 over the whole period that the table holds.",
"every finite float (for the sine: every float from -2 to 2 - 1/256), every table whose entries are within one part in 2^23 of the curve",
"tests look at grid points or a few inputs; the claim is about all floats, the interpolation error between grid points and all rounding errors",
["surge-tables/src/waveshape.rs:init", "surge-tables/src/waveshape.rs:lookup_waveshape", "surge-tables/src/waveshape.rs:lookup_waveshape_warp"])
p("The K35 filters solve their feedback loop without a delay","Every sample of the clean K35 low-pass and high-pass is exactly one trapezoidal step of the circuit it imitates: two first-order sections with the output fed back, k times, through a third, with no unit delay in the loop. For every pitch, resonance and sample rate the designed coefficients keep the integrator gain, the resonance (at most 1.96, below self-oscillation at 2) and the loop's divisor in their safe ranges.","all pitches, resonances and rates of at least 17 Hz; all register contents and inputs","A loop solved with one wrong coefficient still filters and still passes listening tests; exactness is an identity over all states, inputs and settings.",["surgefilter-k35/src/k35.rs: do_lpf, do_hpf, clamped_frequency","surgefilter-k35/src/coeff.rs: coeff_make","surgefilter-k35/src/lowpass.rs: process_lp","surgefilter-k35/src/highpass.rs: process_hp"])
p("The K35 filters ring off, and saturation bounds them","From every state, at any resonance the designer can make and however the cutoff is swept between two positive limits, the clean K35 low-pass settles on a constant input and the clean high-pass settles to 0. With the saturation fully on, the low-pass output stays within 2.00002 for every input and every modulation of cutoff, resonance and drive, and the high-pass output within 1.00001 divided by the resonance gain. At held settings with any drive, in between as well, both outputs stay within a fixed multiple of what the filter held, the peak of the input, and 1.","all initial states, all resonances, all cutoff sweeps within positive limits, all input signals","Stability under sweeping is about infinite runs from every state; a test runs finitely many samples of a few sweeps.",["surgefilter-k35/src/lowpass.rs: process_lp","surgefilter-k35/src/highpass.rs: process_hp","surgefilter-k35/src/coeff.rs: coeff_make"])
p("The tank of the all-pass reverb is the documented network","From silence, for every input and every course of decay, diffusion, damping and modulation, the reverb tank plays exactly this network: four all-passes in series at the input; four segments in a ring, each of two all-passes, a low-pass, a high-pass and a modulated delay line, each hearing the input and the line before it times the decay; left and right the sum of one tap of each line, weighted 0.375, 0.3, 0.25, 0.2.","all inputs, all parameter histories, all sizes in range","An impulse test exercises one input at one setting; a wrong tap, weight or path can hide below the diffuse tail.",["surgefx-allpass/src/block.rs: do_allpass_block, do_process_block","surgefx-allpass/src/process.rs: stereo_process","surgefx-allpass/src/one_pole_filter.rs"])
p("Each oscillator of a voice plays its own note","In every block an oscillator is told the note made of the voice's pitch (or middle C if its keyboard switch is off), its octaves and its own detuning, in semitones, octaves or hertz as it is set; it is told of a modulator, with the linear depth, exactly when the FM routing has one; the noise colour never leaves its range.","all parameter settings, voice pitches and tuning tables; all three oscillators","All combinations of switches of three oscillators, over all real pitches.",["surge-voice/src/gen_runtime.rs: gen_oscillator_runtime","surge-voice/src/runtime.rs: gen_process_cfg","surge-voice/src/do_osc.rs: process_osc","surge-scene/src/scene/process.rs: create_voice_runtime"])
p("A patch name is valid if there is something to read in it","`is_valid_patchname` accepts a name exactly when it contains a letter, a digit, a punctuation mark or white space; the empty name is not valid.","every string","All strings.",["surge-scene/src/patch/datum.rs: is_valid_patchname"])
p("The wave digital section is passive","With no input the energy stored in the section never grows, from every state and however its coefficients are modulated among dissipating sections; a fixed strictly dissipating section falls silent; its clip gain stays between 0.1 and 1.","all states, all courses of coefficients, infinite runs","Stability over infinite runs from every state.",["surgefilter-iir/src/quad_iir_12_WDF.rs: iir_12_wdf_quad"])
p("Parameter arrays hold one value per parameter","An array indexed by a parameter enum, as generated for every effect, oscillator, envelope, scene and patch, holds for each parameter exactly the value it was made with or the one stored for it last; storing one parameter changes no other; parameters and their numbers convert into each other without loss and no other number converts; enumerating visits every parameter once with its value, in the order of declaration; mapping, searching and comparing work parameter by parameter; none of it panics.","every parameter enum without explicit values (all 29 of the code), every initial function, every history of stores","a test picks one enum and a few writes; this is about every generated array and all histories",["surge-derive/src/synth_parameters.rs: generate_array_type, generate_try_from_impl, generate_count_method","surge-adsr/src/param.rs: AdsrParam","surge-scene/src/patch/param.rs"])
p("The built-in scales are what their names say","Each of the 143 scale texts shipped as constants is a valid Scala scale of the kind in its name: EDp-n divides the interval 1:p into n equal steps, so that every key, any distance up or down, is within 0.000006 cents of its place; HDp a-b and SDp a-b are exactly the harmonics or subharmonics from a to b, repeating at the interval 1:p on every key. The scale offered under the name 432 is the one the name promises.","all shipped texts, all keys (integers)","143 texts of up to 48 notes each, and a statement about every key; the crate's tests load none of them, and its own reader cannot",["surge-tuning/src/ed2.rs, ed3.rs, ed4.rs: ED*","surge-tuning/src/hd2.rs, hd3.rs, hd4.rs: HD*","surge-tuning/src/sd2.rs, sd3.rs, sd4.rs: SD*","surge-tuning/src/scale.rs: scale_432"])
p("The two power measures of a signal agree","For every signal whose length is a power of two, the average power computed from the samples and the average power computed from the spectrum are the same number (Parseval).","all signals, all lengths that are powers of two","an identity over all signals; the crate's test compares one measure with itself before and after a filter, and only on noise, whose power it measures to one per cent",["surge-math/src/white_noise.rs: Signal::average_power_time_domain, average_power_freq_domain"])
p("The built-in wavetable holds the first sixteen harmonics","The bytes of the built-in wavetable are a well-formed table file (mark `vawt`, tables of 64 samples, sixteen of them, sixteen bits each, length as the header says) and table n is exactly one cycle of harmonic n + 1: every sample is the whole number nearest to 16384 times the sine.","every table and every sample of it","A test compares samples with a sine computed in floating point; it does not show that each is the nearest whole number to the real sine.",["surge-wavetable/src/initial.rs: BASIC_SINE_WAVE","surge-wavetable/src/base.rs: load_initial_wavetable"])
p("Only meaningful modulation connections are accepted","is_valid_modulation accepts a source for a parameter exactly when the parameter is a modulatable real number and the source makes sense for it: sources with a value per note (velocity, key tracking, envelopes, voice LFOs, timbre, release velocity, polyphonic pressure) only for parameters that exist per note, and never for the parameters of an LFO; every modulatable parameter accepts at least the controllers of the scene.","every parameter of the synthesizer and every source","The rule is over all pairs of parameter and source, and over parameters as they can come to be (the flag for voice processing).",["surge-synthesizer/src/synth/modunit_query.rs: is_valid_modulation","surge-modulation/src/source.rs: ModSource","surge-param/src/parameter.rs: ParamRT::new","surge-param/src/control_group.rs"])

if __name__ == "__main__":
    with open("properties.jsonl", "w") as f:
        for x in P: f.write(json.dumps(x) + "\n")
    print(len(P), "properties")
