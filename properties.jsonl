{"id": "C01", "title": "WAV integer round trip", "statement": "Writing any list of integer samples with WavWriter (new, write_sample..., finalize) to an empty in-memory stream and opening the result with WavReader gives back the same WavSpec, the same number of samples, and exactly the same sample values in the same order, without error.", "quantifier": "every supported spec (8/16/24/32 bit Int, 1..32 channels, any sample rate for which the header arithmetic does not overflow) and every sample list whose values fit the bit depth, whose length is a multiple of the channel count and whose file fits the 32-bit length fields", "why_tests_cant": "tests write one or two thousand samples for four fixed specs; the property is about every spec, every list length and every sample value", "anchors": ["surge-hound/src/write.rs: WavWriter::new, write_sample, finalize", "surge-hound/src/read.rs: WavReader::new, samples", "surge-hound/src/lib.rs: Sample"]}
{"id": "C02", "title": "WAV float round trip", "statement": "Writing any list of f32 samples (as bit patterns) with a Float/32 spec and reading the file back yields bit-identical samples and the same spec, NaN payloads included.", "quantifier": "every channel count 1..32, every sample rate without header overflow, every list of 32-bit patterns", "why_tests_cant": "2^32 bit patterns times every list", "anchors": ["surge-hound/src/write.rs: write_le_f32", "surge-hound/src/read.rs: read_le_f32", "surge-hound/src/lib.rs: impl Sample for f32"]}
{"id": "C03", "title": "Finalized header is consistent", "statement": "After finalize the RIFF size field equals the file length minus 8, the data chunk size field equals the number of sample bytes written, and the file is exactly header followed by those bytes.", "quantifier": "every supported spec and every list of samples (whole frames or not)", "why_tests_cant": "the size fields depend on all samples ever written", "anchors": ["surge-hound/src/write.rs: update_header, finalize"]}
{"id": "C04", "title": "Rejected sample changes nothing", "statement": "write_sample of a value that does not fit the bit depth returns TooWide and leaves the stream bytes, the stream position and the length bookkeeping exactly as before; a value that fits is always accepted.", "quantifier": "every bit depth, every writer state and every i32 sample value", "why_tests_cant": "four boundary values per width are tested, not the whole range nor every writer state", "anchors": ["surge-hound/src/lib.rs: narrow_to_i8, narrow_to_i16, narrow_to_i24, impl Sample for i32", "surge-hound/src/write.rs: write_sample"]}
{"id": "C05", "title": "Flush is transparent", "statement": "Calling flush any number of times between write_sample calls does not change the file produced by finalize.", "quantifier": "every interleaving of write_sample and flush calls", "why_tests_cant": "quantifies over all interleavings; the unit test flushes at one frame boundary only", "anchors": ["surge-hound/src/write.rs: flush, update_header"]}
{"id": "C06", "title": "Flushed data survives a crash", "statement": "If a flush succeeded and the process later dies at any point while writing further samples (mid-write included), the file on the stream opens and yields exactly the samples written before that flush.", "quantifier": "every sample prefix ending on a frame boundary, every later byte-level partial write", "why_tests_cant": "quantifies over all crash points", "anchors": ["surge-hound/src/write.rs: flush", "surge-hound/src/read.rs: WavReader::new"]}
{"id": "C07", "title": "Append equals writing in one go", "statement": "Opening a finalized file with new_append, writing more samples and finalizing produces byte-for-byte the file that writing all samples with one writer would have produced.", "quantifier": "every supported spec and every pair of whole-frame sample lists", "why_tests_cant": "unit test uses one fixed file", "anchors": ["surge-hound/src/write.rs: new_append, read_append"]}
{"id": "C08", "title": "Opening arbitrary bytes never panics", "statement": "WavReader::new on an arbitrary byte string returns Ok or Err; it never panics.", "quantifier": "every byte string", "why_tests_cant": "the fuzz regression test replays a handful of files", "anchors": ["surge-hound/src/read.rs: WavReader::new, read_until_data, read_clm_chunk, read_srge_chunk, read_cue_chunk, read_smpl_chunk"]}
{"id": "C09", "title": "Opening arbitrary bytes terminates", "statement": "The header scan of WavReader::new terminates on every byte string, visiting at most one chunk header per eight bytes of input.", "quantifier": "every byte string", "why_tests_cant": "non-termination cannot be excluded by running finitely many inputs", "anchors": ["surge-hound/src/read.rs: read_until_data"]}
{"id": "C10", "title": "Unknown chunks are skipped", "statement": "Inserting any number of chunks with unrecognised ids and arbitrary contents between the RIFF header, the fmt chunk and the data chunk changes neither the spec, the length nor any sample that the reader reports.", "quantifier": "every list of unknown chunks with every content, every valid file", "why_tests_cant": "all ids, lengths and contents", "anchors": ["surge-hound/src/read.rs: read_until_data, skip_bytes, read_chunk_header"]}
{"id": "C11", "title": "Accepted files are internally consistent", "statement": "If WavReader::new succeeds, the reported channel count and container size are non-zero, len() times the container size is the data chunk length, and duration() times channels equals len().", "quantifier": "every byte string that is accepted", "why_tests_cant": "quantifies over all accepted inputs", "anchors": ["surge-hound/src/read.rs: WavReader::new, read_fmt_chunk, duration, len"]}
{"id": "C12", "title": "Seek then read returns the addressed sample", "statement": "After seek(t) the next sample read is the first channel of frame t, whatever reads and seeks happened before.", "quantifier": "every file whose container size equals its bit depth, every history of successful reads and seeks, every t within the duration", "why_tests_cant": "quantifies over histories", "anchors": ["surge-hound/src/read.rs: WavReader::seek, iter_next"]}
{"id": "C13", "title": "Sample iterator is exact and streaming", "statement": "The sample iterator yields exactly len() items and then None for ever; size_hint is the exact remaining count at every point; reading k samples, dropping the iterator and continuing with a new one gives the same sequence as one iterator.", "quantifier": "every opened reader and every split of the reading", "why_tests_cant": "all lengths and all split points", "anchors": ["surge-hound/src/read.rs: iter_next, iter_size_hint, samples, into_samples"]}
{"id": "C14", "title": "Short reads do not matter", "statement": "Decoding gives the same result whether the underlying reader returns the requested bytes at once or in arbitrary smaller pieces.", "quantifier": "every schedule of short reads (at least one byte per call while bytes remain), every buffer size and content", "why_tests_cant": "quantifies over schedules of the io::Read implementation", "anchors": ["surge-hound/src/read.rs: read_into, skip_bytes"]}
{"id": "C15", "title": "Batch i16 writer equals single writes", "statement": "Filling a get_i16_writer(n) batch with n i16 samples and flushing it leaves the writer in the same observable state as n write_sample calls; flushing with fewer samples or writing one more panics instead of emitting undefined bytes.", "quantifier": "every n, every sample list, every previous buffer size", "why_tests_cant": "the buffer is recycled uninitialised memory; only a proof covers all batch sizes and previous contents", "anchors": ["surge-hound/src/write.rs: get_i16_writer, SampleWriter16"]}
{"id": "C16", "title": "Sample codec is exact per width", "statement": "For each width 1,2,3,4 bytes, decoding the bytes an accepted sample was encoded to returns the same value, encodings have exactly that width, and 8-bit offset conversion is a bijection.", "quantifier": "every i32 value, every width", "why_tests_cant": "2^32 values per width", "anchors": ["surge-hound/src/lib.rs: Sample, signed_from_u8, u8_from_signed", "surge-hound/src/read.rs: ReadExt", "surge-hound/src/write.rs: WriteExt"]}
{"id": "C17", "title": "Unfinished frames are reported and not lost", "statement": "finalize and flush report UnfinishedSample exactly when the number of samples written is not a multiple of the channel count, and even then the header size fields cover all samples written.", "quantifier": "every spec and every number of samples", "why_tests_cant": "all remainders for all channel counts", "anchors": ["surge-hound/src/write.rs: update_header"]}
{"id": "C18", "title": "Writer never emits a header it cannot describe", "statement": "WavWriter::new either returns Unsupported without touching the stream, or writes a header from which the reader recovers the same spec; it does not panic for any spec.", "quantifier": "every WavSpec (channels, rate, bits, format)", "why_tests_cant": "2^16 * 2^32 * 2^16 specs", "anchors": ["surge-hound/src/write.rs: WavWriter::new, write_waveformat, channel_mask"]}
{"id": "C19", "title": "Writer length bookkeeping", "statement": "At every point len() of the writer is the number of accepted samples, duration() is that number divided by the channel count, and is_empty() holds iff no sample was accepted.", "quantifier": "every history of write_sample (accepted and rejected), flush and batch writes", "why_tests_cant": "quantifies over histories", "anchors": ["surge-hound/src/write.rs: len, duration, is_empty"]}
{"id": "C20", "title": "Mute mask tracks the last operation", "statement": "After any sequence of mute/unmute operations (single, group, all), a step is muted iff the last operation that affected it was a mute; operations never affect other steps.", "quantifier": "every sequence of operations, every step 0..15", "why_tests_cant": "quantifies over histories", "anchors": ["surge-stepseq/src/mute.rs"]}
{"id": "C21", "title": "Sequencer position stays in range", "statement": "For every loop with start <= end <= 15 and every random outcome, next_step returns normally, returns the value of the current step, and leaves the position inside the 16 steps.", "quantifier": "every sequencer state with a valid loop, every outcome of the random generator, every number of calls", "why_tests_cant": "depends on random draws and on unbounded histories", "anchors": ["surge-stepseq/src/next.rs: next_step", "surge-stepseq/src/stepsequencer.rs"]}
{"id": "C22", "title": "Sequence save/load round trip", "statement": "load_sequence of a file written by save_sequence restores all steps, the loop bounds, the shuffle amount and the trigger mask.", "quantifier": "every sequencer state", "why_tests_cant": "2^(16*32) step patterns", "anchors": ["surge-stepseq/src/persist.rs"]}
{"id": "C23", "title": "Step values edited by swing and mutation stay in [0,1]", "statement": "apply_swing and mutate_sequence leave every touched step in [0,1] and every untouched step unchanged, and touch only steps inside the loop (swing: every second one).", "quantifier": "every sequencer with a valid loop, every amount, every random outcome", "why_tests_cant": "random draws and real-valued inputs", "anchors": ["surge-stepseq/src/swing.rs", "surge-stepseq/src/random.rs"]}
{"id": "C24", "title": "Scale and mapping files parse to what they say", "statement": "Parsing the text of a well-formed scale yields its note count and tones; in particular the built-in 12-tone scale is valid.", "quantifier": "every well-formed scale text", "why_tests_cant": "all texts", "anchors": ["surge-tuning/src/scale.rs", "surge-tuning/src/keyboard_mapping.rs"]}
{"id": "C25", "title": "Retuned table is periodic in the scale", "statement": "After retuning to a valid scale with the standard mapping, moving up by one scale length adds exactly the scale's period to the pitch, for every pair of table entries.", "quantifier": "every scale (any count >= 1, any tones), every table index", "why_tests_cant": "all scales, all indices, including indices below the scale origin where truncating division is involved", "anchors": ["surge-tuning/src/retune.rs: retune_to_scale"]}
{"id": "C26", "title": "Reference note gets the reference pitch", "statement": "After retuning with the standard mapping the tuning-constant note has exactly the configured pitch.", "quantifier": "every scale, every reference note", "why_tests_cant": "all scales", "anchors": ["surge-tuning/src/retune.rs: retune_to_scale"]}
{"id": "C27", "title": "Pitch table lookups stay inside the table", "statement": "note_to_pitch, note_to_inverse_pitch and note_to_omega read table entries inside the 512-entry table for every note value and interpolate between the two neighbouring entries.", "quantifier": "every finite note value", "why_tests_cant": "continuum of inputs", "anchors": ["surge-tuning/src/tuner.rs"]}
{"id": "C28", "title": "Hold pedal defers and then releases each note once", "statement": "While the pedal is down a released key is only queued; when the pedal goes up every queued key is released exactly once and none is lost; nothing is released on channels still held.", "quantifier": "every history of note offs, re-triggers and pedal changes", "why_tests_cant": "quantifies over histories", "anchors": ["surge-midi/src: HoldPedalUnit", "surge-scene/src/scene/release.rs"]}
{"id": "C29", "title": "RPN data entry reaches the selected parameter", "statement": "For every sequence of controller messages, data entry changes pitch-bend range or MPE state only if the most recently selected RPN says so, and NRPN selection messages set their own MSB and LSB.", "quantifier": "every sequence of controller messages on every channel", "why_tests_cant": "quantifies over message histories", "anchors": ["surge-synthesizer/src/synth/channel_controller_cc.rs"]}
{"id": "C30", "title": "Bank and program select compose", "statement": "A program change queues patch bank*128+program for the last received bank select, for every bank and program number.", "quantifier": "every message history", "why_tests_cant": "histories", "anchors": ["surge-synthesizer/src/synth/midi.rs: program_change"]}
{"id": "C31", "title": "Scene routing of notes", "statement": "In every scene mode each note is routed to a non-empty set of scenes: key split routes to exactly one scene by comparing with the split point, dual to both, single to the active one.", "quantifier": "every mode, channel, key, split point and MPE setting", "why_tests_cant": "full product space of modes, channels and keys", "anchors": ["surge-synthesizer/src/synth: calculate_channel_mask"]}
{"id": "C32", "title": "Polyphony limit is enforced", "statement": "After enforcing the polyphony limit at most limit voices remain, the voices removed are the oldest, and no removal goes out of bounds.", "quantifier": "every voice list and every limit", "why_tests_cant": "all list lengths", "anchors": ["surge-scene/src/scene: enforce_polyphony_limit"]}
{"id": "C33", "title": "One-pole smoothing converges monotonically", "statement": "A lag smoother moves monotonically towards its target and never overshoots it, and the distance shrinks geometrically with every step.", "quantifier": "every start value, target, rate in (0,1) and number of steps", "why_tests_cant": "real-valued and unbounded number of steps", "anchors": ["surge-lag/src/lag.rs", "surge-lag/src/vlag.rs"]}
{"id": "C34", "title": "Controller modulation source converges to its target", "statement": "process_block moves the controller output towards the target without overshoot, and set_target01/get_target01 round-trip for unipolar and bipolar controllers.", "quantifier": "every state, target and number of blocks", "why_tests_cant": "real-valued, unbounded number of blocks", "anchors": ["surge-modulation/src/controller.rs"]}
{"id": "C35", "title": "Envelope stage order", "statement": "Without retriggering, an envelope only moves forward through attack, decay, sustain, release, uber-release and idle, for every parameter setting and every number of blocks.", "quantifier": "every parameter setting, gate history and number of blocks", "why_tests_cant": "histories", "anchors": ["surge-adsr/src/adsr.rs"]}
{"id": "C36", "title": "Parameter normalisation round trip and range", "statement": "For every parameter the normalised value lies in [0,1] and converting to the parameter range and back is the identity; set_value_f01 always leaves the value inside the parameter's range.", "quantifier": "every parameter range and value", "why_tests_cant": "continuum of values", "anchors": ["surge-param/src"]}
{"id": "C37", "title": "Effect ring-out does not truncate the tail", "statement": "After the input stops, an effect with a ring-out of n blocks keeps being processed for n blocks and then stops; silence in and finished ring-out means the effect is skipped.", "quantifier": "every input activity history and every ring-out length", "why_tests_cant": "histories", "anchors": ["surgefx/src: process_ringout"]}
{"id": "C38", "title": "Step and probability stores behave like arrays", "statement": "Reading a step or a probability returns the value last stored at that index; indices of 16 and more read as 0 and writes to them are ignored; no access panics.", "quantifier": "every history of set_step, set_probability and set_probabilities calls, every index", "why_tests_cant": "quantifies over histories and all indices", "anchors": ["surge-stepseq/src/stepsequencer.rs: set_step, step", "surge-stepseq/src/probability.rs"]}
{"id": "C39", "title": "An interrupted save is not mistaken for a sequence", "statement": "If save_sequence is interrupted, a later load_sequence reports an error or gives the old or the new sequence, never a mixture.", "quantifier": "every crash point during the save, every pair of sequencers", "why_tests_cant": "crash points", "anchors": ["surge-stepseq/src/persist.rs"]}
{"id": "C40", "title": "Mapped keyboards play their listed degrees", "statement": "Retuning with a keyboard mapping gives every enabled key the pitch of the scale degree it lists (repeating with the mapping), relative to the reference key, and silences disabled keys; any reference note is allowed.", "quantifier": "every mapping, every well-formed scale, every key of the table", "why_tests_cant": "all mappings times all scales times all keys", "anchors": ["surge-tuning/src/retune.rs: retune_to_scale"]}
{"id": "C41", "title": "Scale length is reported for every scale", "statement": "current_scale_count returns the number of tones of the scale in force.", "quantifier": "every scale", "why_tests_cant": "all lengths", "anchors": ["surge-tuning/src/tuner.rs: current_scale_count"]}
{"id": "C42", "title": "Tuning state depends only on what is in force", "statement": "After any history of retune, remap and reset calls, the pitch tables are those of the scale and mapping now in force; a reset forgets everything.", "quantifier": "every history of tuning calls from a fresh tuner", "why_tests_cant": "quantifies over histories", "anchors": ["surge-tuning/src/retune.rs", "surge-tuning/src/remap.rs", "surge-tuning/src/tuner.rs: init"]}
{"id": "C43", "title": "Pitch relative to the tuning centre is 1 at the centre", "statement": "n2p_tuningctr(0) and n2pinv_tuningctr(0) are both 1 (a note at the tuning centre has relative pitch 1), for every tuning.", "quantifier": "every tuner state whose reference entry is the reference pitch", "why_tests_cant": "all tunings", "anchors": ["surge-tuning/src/tuner.rs: n2p_tuningctr, n2pinv_tuningctr"]}
{"id": "C44", "title": "Pitch bend reaches the right target", "statement": "The instrument-wide bend equals the newest pitch-bend message that applies to the whole instrument (any channel without MPE, channel 0 with MPE) divided by 8192, in every scene; a channel's own bend in semitones is the newest bend received on that channel while MPE was on, times the bend range in force at that moment.", "quantifier": "every legal history of MIDI messages, any length", "why_tests_cant": "the value depends on the whole message history and on when MPE was toggled", "anchors": ["surge-synthesizer/src/synth/pitch_bend.rs: pitchbend", "surge-mpe/src/unit.rs"]}
{"id": "C45", "title": "Pressure and modulation wheel follow the newest message", "statement": "Channel pressure, instrument-wide pressure, key pressure and modulation wheel always equal the value of the newest message that concerns them, and no other message changes them.", "quantifier": "every legal history of MIDI messages, any length", "why_tests_cant": "frame conditions over all message histories", "anchors": ["surge-synthesizer/src/synth/automation.rs: channel_aftertouch, poly_aftertouch", "surge-synthesizer/src/synth/channel_controller_cc.rs: channel_controller_cc1"]}
{"id": "C46", "title": "Controller learning assigns the next controller, once", "statement": "A custom controller armed for learning takes the number of the next non-reserved controller message, only that slot changes, and learning is disarmed; reserved controllers neither change nor disarm it.", "quantifier": "every engine state, channel, controller number and value", "why_tests_cant": "quantifies over all states and controller numbers", "anchors": ["surge-synthesizer/src/synth/channel_controller.rs: store_learn_custom, channel_controller", "surge-synthesizer/src/synth/channel_controller_rpn.rs"]}
{"id": "C47", "title": "MIDI input does not crash the engine", "statement": "No legal sequence of MIDI messages makes the engine panic.", "quantifier": "every legal history of MIDI messages, any length, from power-on with a two-scene patch", "why_tests_cant": "needs an argument over all histories; the crashing ones are rare interleavings", "anchors": ["surge-synthesizer/src/synth/channel_controller.rs", "surge-synthesizer/src/synth/midi.rs", "surge-midi/src/hold_pedal.rs"]}
{"id": "C48", "title": "Freeing a scene frees every voice", "statement": "Freeing the voices of a scene, or an all-notes-off on it, succeeds whatever voices are sounding and leaves the scene with no voices.", "quantifier": "every list of voices", "why_tests_cant": "all list lengths; a test with one voice passes", "anchors": ["surge-scene/src/scene/drop.rs: free", "surge-scene/src/scene/process.rs: all_notes_off"]}
{"id": "C49", "title": "Voice stealing picks the right voice and makes room", "statement": "Stealing a voice silences the voice released longest ago, or the oldest held voice if none is in release, changes no other voice, never panics, and repeating it before a new note leaves fewer than limit sounding voices.", "quantifier": "every list of voices and ages, every limit", "why_tests_cant": "all list lengths and age orders", "anchors": ["surge-scene/src/scene/softkill_voice.rs", "surge-scene/src/scene/play_voice.rs"]}
{"id": "C50", "title": "A latched release follows its own scene", "statement": "When a latched release is pending, a scene's voices are freed exactly if that scene is not playing or the release is forced, and a scene without a pending release is not touched.", "quantifier": "every number of scenes, every set of voices and play flags", "why_tests_cant": "combination of flags and voice lists", "anchors": ["surge-scene/src/scene/release.rs: maybe_release", "surge-synthesizer/src/synth/process_control.rs"]}
{"id": "C51", "title": "Monophonic modes fall back to the highest held key", "statement": "When the sounding key of a monophonic scene is released while other keys are held, the highest of them starts to sound; releasing any other key changes nothing.", "quantifier": "every set of held keys, every voice list, every channel and key", "why_tests_cant": "2^128 key states per channel", "anchors": ["surge-scene/src/scene/release_monophonic.rs"]}
{"id": "C52", "title": "The scalar interpolator is a straight line that lands on its target", "statement": "After newvalue, each of the n process calls of a block advances the scalar interpolator by the same step; after n calls it equals the new value exactly, and the next block starts where the last one ended.", "quantifier": "every sequence of values, every block size n > 0, exact arithmetic", "why_tests_cant": "all histories of values", "anchors": ["surge-lipol/src/lipol.rs"]}
{"id": "C53", "title": "The block interpolator ramps from the previous target to the new one", "statement": "Multiplying, adding, fading or storing a block with the SSE interpolator applies gains on the straight line from the previous target to the new one, reaching it at the last sample.", "quantifier": "every block length, every previous and new target, every source buffer", "why_tests_cant": "all buffers and lengths", "anchors": ["surge-lipol/src/lipol_ps.rs", "surge-lipol/src/sse_block.rs", "surge-lipol/src/multiply.rs", "surge-lipol/src/mac.rs", "surge-lipol/src/fade.rs"]}
{"id": "C54", "title": "Panning follows its ramp and keeps the sum of the channels", "statement": "trixpan_blocks moves one channel into the other by the pan position, which follows the straight line to the new target; the sum of left and right is unchanged at every sample, and nothing outside the block is written.", "quantifier": "every block length, every pan history, every pair of buffers, exact arithmetic", "why_tests_cant": "all buffers", "anchors": ["surge-lipol/src/trixpan.rs"]}
{"id": "C55", "title": "Effect bypass modes and disable flags decide which effects run", "statement": "With 'all effects' every enabled slot is processed once per block; with 'no sends' all but the send slots; with 'scene effects only' just the scene inserts; with 'all off' none. A slot whose disable flag is set is never touched in any mode.", "quantifier": "every bypass mode, every disable flag set, every effect, every block and play state", "why_tests_cant": "4 modes x 256 flag sets x arbitrary effects and states", "anchors": ["surge-synthesizer/src/synth/process.rs: apply_inserts, apply_effects", "surge-synthesizer/src/synth/get.rs: get_fx_bypass_type"]}
{"id": "C56", "title": "Send effects process the scenes", "statement": "A send effect's input is the sum of the scene outputs scaled by the send levels.", "quantifier": "every scene output, send level and effect", "why_tests_cant": "continuum of signals", "anchors": ["surge-synthesizer/src/synth/process.rs: process, maybe_add_send_a, maybe_add_send_b"]}
{"id": "C57", "title": "Scene inserts are isolated and the dry output is the sum of the scenes", "statement": "What the inserts of one scene deliver depends only on that scene's signal and its own insert slots, never on the other scene; with every slot disabled the output block is the sample-wise sum of the two scenes and the rest of the buffers is unchanged.", "quantifier": "every pair of scene signals, effects, flags and bypass modes", "why_tests_cant": "two-run property over arbitrary effects", "anchors": ["surge-synthesizer/src/synth/process.rs: apply_inserts, sum_scenes"]}
{"id": "C58", "title": "Block functions write exactly the block they are given", "statement": "Each block operation (clear, copy, accumulate, add, subtract, multiply, clip, encode) given n quads computes its result in the 4n floats at its destination and changes no other memory.", "quantifier": "every block size, every memory content", "why_tests_cant": "memory safety over all sizes; writes past the end need not crash", "anchors": ["surge-math/src/clear.rs", "surge-math/src/copy.rs", "surge-math/src/accum.rs", "surge-math/src/add.rs", "surge-math/src/sub.rs", "surge-math/src/mul.rs", "surge-math/src/hardclip.rs", "surge-math/src/softclip.rs", "surge-math/src/encode.rs"]}
{"id": "C59", "title": "Mid/side encoding is invertible", "statement": "Encoding a stereo block to mid/side and decoding it gives both channels back; equal channels have no side part, opposite channels no mid part.", "quantifier": "every pair of blocks, every length, exact arithmetic", "why_tests_cant": "continuum of signals", "anchors": ["surge-math/src/encode.rs"]}
{"id": "C60", "title": "Peak detectors return the peak", "statement": "The block peak functions return the largest absolute sample value of the block or blocks they are given.", "quantifier": "every block of finite f32 samples, every length", "why_tests_cant": "2^32 patterns per sample", "anchors": ["surge-math/src/absmax.rs", "surge-math/src/m128.rs"]}
{"id": "C61", "title": "Hard limiters bound every input", "statement": "Hard clippers and range limiters deliver a finite value within their limits for every input, NaN and infinities included, do not change values already inside, and clip others to the nearest limit.", "quantifier": "every f32 (finite, infinite, NaN), every range", "why_tests_cant": "all bit patterns and ranges", "anchors": ["surge-math/src/hardclip.rs: hardclip_ps, hardclip_block, hardclip_block8", "surge-math/src/limit_range.rs", "surge-math/src/clamp.rs", "surge-math/src/saturate.rs: boundfreq"]}
{"id": "C62", "title": "Soft clippers are monotone, odd and bounded by their nominal level", "statement": "Every soft clipper is non-decreasing, odd and never exceeds its nominal output level.", "quantifier": "every input, exact arithmetic", "why_tests_cant": "continuum; monotonicity is a two-point property", "anchors": ["surge-math/src/softclip.rs: softclip_ps, softclip8_ps, softclip_f64, softclip2_f64, softclip4_f64, softclip8_f64"]}
{"id": "C63", "title": "Every parameter of the synthesizer stays in its range", "statement": "Each parameter of every module (oscillators, filters, effects, envelopes, LFOs, scene and patch) can be constructed, starts at its declared default, and after any sequence of normalised-value, direct-value and flag changes holds a value between its declared minimum and maximum; its normalised reading is then in [0, 1].", "quantifier": "every parameter of the repository's 29 parameter enums and every finite history of changes, including NaN, infinite and out-of-range arguments", "why_tests_cant": "271 parameters times all histories of calls; a test tries one parameter and a few values.", "anchors": ["surge-param/src/parameter.rs", "surge-param/src/set_value.rs set_value_f01", "surge-param/src/bound_value.rs", "surge-param/src/limit_range.rs", "surgefx-*/src/param.rs", "surgeosc-*/src/param.rs"]}
{"id": "C64", "title": "Modulation depth handles", "statement": "The position of a modulation handle read from a depth is always a number in [-1, 1]; setting the handle and reading it back returns the same position up to rounding, for every parameter.", "quantifier": "every parameter and every f32 depth, NaN and infinities included", "why_tests_cant": "All f32 depths and all parameters.", "anchors": ["surge-param/src/get_modulation.rs get_modulation_f01", "surge-param/src/set_modulation.rs set_modulation_f01"]}
{"id": "C65", "title": "Morphing between two parameters", "statement": "Morphing two float parameters of one control type gives exactly the first value at 0, exactly the second at 1, and the linear mix (up to f32 rounding) in between, never leaving the range; parameters that cannot be mixed switch over at one half; both morph calls agree.", "quantifier": "every pair of parameters and every morph position", "why_tests_cant": "All pairs of values and all positions in f32.", "anchors": ["surge-param/src/morph.rs morph, morph_alt"]}
{"id": "C66", "title": "Note names", "statement": "Every note number has a name made of one of twelve note names and the octave number, and different notes have different names.", "quantifier": "every i32 note number", "why_tests_cant": "Infinite (2^32) note numbers; injectivity quantifies over pairs.", "anchors": ["surge-param/src/notation.rs get_notename"]}
{"id": "C67", "title": "Extended ranges and flags take effect", "statement": "A parameter that can be extended is multiplied by the factor of its control type once its extend flag is set, and is unchanged otherwise; the flags set on a parameter are the flags it reports.", "quantifier": "every control type, parameter and value", "why_tests_cant": "All parameters and values; the observable is a relation between setter and getter.", "anchors": ["surge-param/src/extend.rs", "surge-param/src/extend_range.rs", "surge-param/src/snap.rs", "surge-param/src/parameter.rs set_extend_range, set_snap"]}
{"id": "C68", "title": "Tempo sync lands on note lengths", "statement": "A tempo-synced parameter only takes values that are a plain, triplet or dotted note length or a limit of its range, and syncing an already synced value does not move it; without sync the value is only limited; forcing an integer gives the nearest integer inside the range.", "quantifier": "every f32 value, every range", "why_tests_cant": "All f32 values; idempotence relates two calls.", "anchors": ["surge-param/src/bound_value.rs bound_value", "surge-math/src/flops.rs split_float"]}
{"id": "C69", "title": "The analog envelope keeps its level in range, follows its stages and ends", "statement": "With finite parameters whose speeds lie in 0..1 and a sustain level in 0..1, the output of the analog ADSR envelope is a number in 0..1.5 after every history of attacks, retriggers, releases, parameter changes and blocks; no block fails before the idle counter overflows; while the gate is open and the peak has not been passed the level never falls; once it has passed 1 the envelope decays until the gate closes, each block moving the level towards the square of the sustain level (overshoot at most 2^-22); after the gate closes the level never rises; a release with a speed of at least 2^-20 per block reaches idle and silence after finitely many blocks; an uber-release is silent after one block; an idle envelope stays idle and silent.", "quantifier": "every history of attack/retrigger/set_envstate/parameter change/process_block_analog calls, every parameter setting with speeds in 0..1, every sample rate", "why_tests_cant": "Boundedness and termination are statements over unbounded block histories with f32 rounding at every step; tests run a few envelopes.", "anchors": ["surge-adsr/src/process_block_analog.rs: process_block_analog", "surge-adsr/src/attack.rs: attack", "surge-adsr/src/retrigger.rs: retrigger", "surge-adsr/src/adsr.rs: AdsrEnvelope::is_idle, set_envstate"]}
{"id": "C70", "title": "LFO start phase", "statement": "On its first use a low-frequency oscillator takes its phase from the start-phase parameter: the call ends, the phase lies in 0..1, equals the parameter when that is in 0..1, and otherwise differs from it by a whole number.", "quantifier": "every start-phase value and oscillator state", "why_tests_cant": "The wrapping loop runs once per unit; for large values a step of 1 is lost in rounding and the loop never ends, so a test either hangs or does not see it.", "anchors": ["surge-lfo/src/init.rs: init_phase_from_start_phase", "surge-lfo/src/phaseslider.rs: get_phaseslider"]}
{"id": "C71", "title": "LFO envelope", "statement": "In every history of attacks, blocks and parameter changes the level of the LFO's envelope stays in 0..1, its stages follow one another in order, and after an attack (or release) it comes to rest at the sustain level (or 0) within a bounded number of blocks.", "quantifier": "every history, every parameter setting in range, every rate table, tempo and random sequence", "why_tests_cant": "Quantifies over all histories and rate tables; the release error only shows when a release starts from a non-zero level.", "anchors": ["surge-lfo/src/attack.rs: attack", "surge-lfo/src/update_envelope.rs: update_envelope_for_process", "surge-lfo/src/release.rs: release"]}
{"id": "C72", "title": "LFO phase and output range", "statement": "In every history with parameters in range the LFO's phase stays in 0..1 and its output in -1..1, not negative in unipolar mode, and the output reaches the modulation system.", "quantifier": "every history, parameter setting in range, wave table bounded by 1, random sequence", "why_tests_cant": "Bounds on an accumulated f32 phase and on the cubic bend must hold for every rounding, not for sampled values.", "anchors": ["surge-lfo/src/process.rs: process", "surge-lfo/src/bend.rs: lfo_bend3", "surge-lfo/src/modsource.rs: get_output"]}
{"id": "C73", "title": "LFO step sequence", "statement": "With the step-sequence shape the steps are played in order around the loop, each held at its value; the step counter never leaves the 16 steps; a block asks for a retrigger of the filter or amplifier envelope exactly when it ends a step whose trigger bits say so; and all steps take the time the rate says.", "quantifier": "every pattern with loop points among the 16 steps and every history", "why_tests_cant": "Quantifies over patterns, loop points and histories of any length; the wrong minimum in the step speed needs the odd steps of a pattern.", "anchors": ["surge-lfo/src/phase_over_one.rs: update_step_sequencer_for_phase_over_one", "surge-lfo/src/attack_shape_stepseq.rs: attack_shape_stepseq", "surge-lfo/src/process_shape_stepseq.rs: process_shape_stepseq"]}
{"id": "C74", "title": "Table lookups return for every input", "statement": "The envelope rate, the decibel conversion, the clip scale, the wave shaper and the shaped sine return a value for every float, never reading outside their tables; only a wrong table number panics.", "quantifier": "every input float including infinities and not-a-number, every table contents, every table number", "why_tests_cant": "inputs range over all floats; the ones that fail are far outside what a test tries", "anchors": ["surge-tables/src/envelope.rs:EnvelopeTables::envelope_rate_linear", "surge-tables/src/gain.rs:db_to_linear", "surge-tables/src/gain.rs:clipscale", "surge-tables/src/waveshape.rs:lookup_waveshape", "surge-tables/src/waveshape.rs:lookup_waveshape_warp"]}
{"id": "C75", "title": "Envelope rates and gains are interpolated in their tables", "statement": "The looked-up envelope rate or gain lies on the straight line between the two table entries around the input, up to float rounding, equals the entry at a grid point, and inputs outside the table's range are held at its ends.", "quantifier": "every table contents and every input float", "why_tests_cant": "the property is about all inputs between and beyond grid points and all rounding errors", "anchors": ["surge-tables/src/envelope.rs:EnvelopeTables::envelope_rate_lpf", "surge-tables/src/envelope.rs:EnvelopeTables::envelope_rate_linear", "surge-tables/src/gain.rs:db_to_linear"]}
{"id": "C76", "title": "Wave shapers stay between -1 and 1", "statement": "Looking up any input in a wave shaping table gives a value between -1 and 1.", "quantifier": "every input float including infinities and not-a-number, every shaping table", "why_tests_cant": "holds for every float and every table; rounding of the interpolation could exceed 1 by an ulp at some input", "anchors": ["surge-tables/src/waveshape.rs:lookup_waveshape", "surge-tables/src/waveshape.rs:lookup_waveshape_warp", "surge-tables/src/waveshape.rs:init", "surge-math/src/tanh.rs:shafted_tanh"]}
{"id": "C77", "title": "A pointer into a shaping table points at the requested element", "statement": "Asking for the address of an element of a shaping table gives the address of that element of that table, or panics when the element does not exist.", "quantifier": "every table number and offset", "why_tests_cant": "quantifies over all offsets", "anchors": ["surge-tables/src/tables.rs:get_waveshaper_ptr", "surge-tables/src/surge.rs:_get_waveshaper_ptr"]}
{"id": "C78", "title": "Initialising the interpolation kernels fills every row", "statement": "Initialisation writes every sample of every row of the three windowed-sinc tables at the place the oscillators read it, the differences to the next row beside it, and the 16-bit table holds the scaled samples.", "quantifier": "every kernel function and every row and column", "why_tests_cant": "the claim covers every one of the table's entries for an arbitrary kernel", "anchors": ["surge-tables/src/sinc.rs:init"]}
{"id": "C79", "title": "The gain table follows the decibel scale", "statement": "The interpolated gain of x decibels is within 1.4 % of 10^(x/20) and rises with x.", "quantifier": "every real number of decibels in the range of the table", "why_tests_cant": "a statement over a continuum", "anchors": ["surge-tables/src/gain.rs:init", "surge-tables/src/gain.rs:db_to_linear"]}
{"id": "C80", "title": "Wavetable samples have a place of their own", "statement": "For every wave length, number of waves and padding, the positions computed for two different (mip level, wave) pairs never overlap, and whenever the size estimate for the table is within the limit every non-empty level of every wave gets a position and ends within the estimate.", "quantifier": "all wave lengths (powers of two or not), wave counts, paddings up to the interpolation margin, mip levels and waves", "why_tests_cant": "the positions are sums over levels with shifts that round; overlaps depend on the combination of length, count, level and padding", "anchors": ["surge-wavetable/src/calc.rs:required_wt_size", "surge-wavetable/src/calc.rs:get_wt_index"]}
{"id": "C81", "title": "Number of mip levels", "statement": "The number of mip levels for a table is the least number from 1 to 16 whose power of two reaches the table length (16 if none does); every level of a non-empty table has at least one sample; a table of 2^k samples has k levels.", "quantifier": "all table lengths", "why_tests_cant": "quantifies over all lengths", "anchors": ["surge-wavetable/src/dim.rs:required_mipmap_levels"]}
{"id": "C82", "title": "Coarser mip levels are filtered versions of finer ones", "statement": "Each sample of a coarser mip level is the 64-tap half-band filter applied to the level above, so that a constant table stays constant and content above the new Nyquist frequency is removed.", "quantifier": "all tables, sample types, levels, waves and samples", "why_tests_cant": "quantifies over all table contents and dimensions", "anchors": ["surge-wavetable/src/mipmap.rs:populate_mipmaps"]}
{"id": "C83", "title": "A wavetable holds the samples it was built from", "statement": "Building a table from the right number of samples for at least three waves succeeds, reports the dimensions asked for, and its finest level returns exactly the given samples in order; unused places of coarser levels are silent. Any other number of samples, or fewer than three waves, is rejected.", "quantifier": "all dimensions, sample types and contents", "why_tests_cant": "quantifies over all contents and sizes", "anchors": ["surge-wavetable/src/init.rs:populate_base_mipmap_level", "surge-wavetable/src/init.rs:WaveTableBase::new"]}
{"id": "C84", "title": "Loading a wavetable file", "statement": "Loading any readable WAV file either yields a table holding the file's samples cut into waves of the loop length the file announces, or returns an error; it never panics.", "quantifier": "all WAV files: loop lengths, sample counts, channels, sample formats, contents", "why_tests_cant": "quantifies over all files", "anchors": ["surge-wavetable/src/try_from_wavfile.rs"]}
{"id": "C85", "title": "Derived wavetable sizes", "statement": "For every table, the logarithm of the wave length is its base-two logarithm and the step is one over the length.", "quantifier": "all tables", "why_tests_cant": "quantifies over all lengths", "anchors": ["surge-wavetable/src/base.rs:num_samples_per_table_po2", "surge-wavetable/src/base.rs:dt", "surge-math/src/scan.rs:bitscan_reverse"]}
{"id": "C86", "title": "The dual delay plays back what was written, exactly the requested time ago", "statement": "Whatever blocks have been written since the delay was reset, and whatever delay is requested (any f32, including NaN and infinities, at every sample), the sample read is a twelve-tap interpolation of samples that were really written (silence before the first), with the newest tap dt+1 samples old; dt is the requested delay rounded down, clamped to 32 .. 2^18-13 samples, and the interpolation row is the fraction in 1/256 steps. Reads never leave the buffer or the kernel table and never touch the block being processed, also when the ring wraps.", "quantifier": "every history of written blocks of any length (any number of wrap-arounds), every f32 delay, every sample of the block", "why_tests_cant": "The ring has 2^18 samples and mirrors its first twelve behind its end; errors only show when a read straddles the wrap after more than 8192 blocks with particular delays.", "anchors": ["surgefx-dualdelay/src/block.rs do_dualdelay_block", "surgefx-dualdelay/src/set_buffer.rs dualdelay_set_buffer", "surgefx-dualdelay/src/process.rs update_wpos"]}
{"id": "C87", "title": "The chorus voices read what was written, for every block size", "statement": "For every block size that is a power of two from 32 to 2^17, after any history of blocks, each voice of the chorus reads the twelve samples belonging to its own delay (clamped to the block size .. 2^18-13), never outside its buffer, and the output channel is the sum of the voices weighted with their pan gains.", "quantifier": "every block size (power of two from 32), every history of blocks, every number of voices, every f32 delay and pan gain, every sample of the block", "why_tests_cant": "Same wrap-around and clamping cases as the delay, times the block size parameter.", "anchors": ["surgefx-chorus/src/block.rs do_chorus_block", "surgefx-chorus/src/set_buffer.rs chorus_set_buffer", "surgefx-chorus/src/process.rs stereo_process"]}
{"id": "C88", "title": "The flanger's delay line returns what was written that many samples ago", "statement": "Reading the flanger's delay line at a delay of d samples gives the linear interpolation of the samples written floor(d) and floor(d)+1 samples ago (silence before the first write), after every history of writes and for every delay the parameters can produce; reads never leave the line.", "quantifier": "every history of written samples, every f32 delay", "why_tests_cant": "The line has 8192 samples; wrong results show only after it wraps or for particular long delays.", "anchors": ["surgefx-flanger/src/interp_delay.rs InterpDelay::value, push"]}
{"id": "C89", "title": "The flanger's output is bounded and never fails", "statement": "Whatever is fed in (NaN and infinities included) and however the feedback, gain and mix are set, each output sample of the flanger lies in -1..1, the feedback path stays in -1..1, and what is written to the line exceeds the input by at most 2; each sample is the softly clipped sum of the dry input and the weighted comb taps.", "quantifier": "every history of input samples and control settings with damping in 0..1", "why_tests_cant": "Feedback makes every sample depend on the whole history; boundedness must hold at every step with f32 rounding.", "anchors": ["surgefx-flanger/src/block.rs do_flanger_block", "surgefx-flanger/src/block_comb_process.rs", "surgefx-flanger/src/softclip_feedback.rs"]}
{"id": "C90", "title": "The flanger's modulators stay in range", "statement": "The flanger's modulation phases stay in their ranges over every run, every modulation wave gives a value in -1..1 without failing, the voice weights switch on exactly the requested number of combs, and in arpeggio modes one comb is heard with a crossfade to the next at the end of its step. Each comb reads the delay line its base delay times one plus modulation times depth, plus one, samples back.", "quantifier": "every phase, rate sequence, wave shape, number of voices", "why_tests_cant": "A phase that lands exactly on 1 happens only for particular f32 sums.", "anchors": ["surgefx-flanger/src/weights.rs", "surgefx-flanger/src/init_comb.rs", "surgefx-flanger/src/aux.rs"]}
{"id": "C91", "title": "The reverb is stable", "statement": "For every setting of its parameters the reverb answers bounded input with bounded output, whatever the length of the signal, and after the input stops its output decays to silence.", "quantifier": "every input signal of any length, every decay time, room size, damping, preset, sample rate", "why_tests_cant": "Sixteen recirculating delay lines mix through a feedback matrix; growth of some mode can take millions of samples to become audible.", "anchors": ["surgefx-reverb/src/block.rs do_reverb_block", "surgefx-reverb/src/get.rs get_fb", "surgefx-reverb/src/post_tap.rs do_post_tap", "surgefx-reverb/src/update.rs update_rtime", "surgefx-reverb/src/init.rs init_taps"]}
{"id": "C92", "title": "The reverb's delay lines return what was written that many samples ago", "statement": "After every history of samples and parameter changes each of the sixteen taps reads exactly what was written to its own line its delay time ago (silence before the first), each sample writes each line once, and no access leaves the buffers.", "quantifier": "every history of samples and settings, every delay time below 32768 samples", "why_tests_cant": "The lines are interleaved in one ring; mixing up lines or positions shows only for particular positions and delay times.", "anchors": ["surgefx-reverb/src/block.rs delay_idx, do_pre_taps, do_post_taps", "surgefx-reverb/src/pre_tap.rs do_pre_tap"]}
{"id": "C93", "title": "The reverb's predelay delays the input and every preset fits", "statement": "The reverb hears its input exactly the predelay later for every value of the predelay parameter, without failing, and for every room size the delay times of every preset fit its lines.", "quantifier": "every predelay, every ring position, every room size and preset", "why_tests_cant": "The ring position at which a subtraction underflows depends on the history.", "anchors": ["surgefx-reverb/src/get.rs get_fb", "surgefx-reverb/src/block.rs calculate_predelay_time", "surgefx-reverb/src/preset.rs load_preset"]}
{"id": "C94", "title": "A biquad filter computes its difference equation whatever is called", "statement": "Whatever sequence of the nine processing functions of a biquad filter is called (single sample, stereo sample, no-lag, no-input, mono block, stereo block, slow-lag block), with coefficient changes anywhere in between, each channel's output satisfies y[n] = b0 x[n] + b1 x[n-1] + b2 x[n-2] - a1 y[n-1] - a2 y[n-2] with the coefficients in force when each sample was processed; mixing the functions, or splitting a signal into blocks, changes nothing but the (at most 2e-30) flush of tiny register values at the end of a block, and the mono functions leave the right channel alone.", "quantifier": "all histories of calls, all inputs, all coefficients, both channels", "why_tests_cant": "A test filters a few blocks with one function; the equivalence of all call patterns over all histories is an induction over the history.", "anchors": ["surge-biquad/src/process_sample.rs process_sample", "surge-biquad/src/process_stereo.rs process_block_stereo", "surge-biquad/src/process_slowlag.rs process_block_slowlag", "surge-biquad/src/process_sample_nolag_noinput.rs"]}
{"id": "C95", "title": "Changing a filter's design is a geometric glide that never overshoots", "statement": "The first design given to a fresh filter takes effect at once; every later one is approached along a straight line, by 1/250 of the remaining distance per sample (per block in the slow variant, never in the no-lag variants), so the coefficients in force always stay within any convex region that contains all designs asked for.", "quantifier": "all histories of set_coef, instantize and processing calls", "why_tests_cant": "The bound must hold at every sample of every sequence of parameter changes.", "anchors": ["surge-lag/src/vlag.rs VLag::process", "surge-biquad/src/set_coeffs.rs set_coef", "surge-biquad/src/biquad.rs coeff_process"]}
{"id": "C96", "title": "Every filter design below the Nyquist frequency is stable", "statement": "For each of the eleven designs (low pass, high pass, band pass, notch, all pass and their variants), any cutoff strictly between 0 and the Nyquist frequency and any positive quality, bounded input gives bounded output for ever and whatever was in the registers dies away geometrically; and while gliding between stable designs every momentary setting is stable.", "quantifier": "all designs, cutoffs, qualities, inputs and lengths", "why_tests_cant": "Instability shows only after arbitrarily long runs and for some parameters out of a continuum.", "anchors": ["surge-biquad/src/coeff_lp.rs", "surge-biquad/src/coeff_hp.rs", "surge-biquad/src/coeff_bp.rs", "surge-biquad/src/coeff_notch.rs", "surge-biquad/src/coeff_apf.rs"]}
{"id": "C97", "title": "The filters have the frequency response they plot, with the gains their names promise", "statement": "Feeding a sinusoid of any frequency, the output converges to that sinusoid scaled by plot_magnitude at that frequency. The low pass has gain 1 at DC, 0 at Nyquist and q at the cutoff; the high pass the mirror image; the band pass 1 at the cutoff and at most 1 anywhere; the notch 0 at the cutoff and at most 1 anywhere; the all pass 1 everywhere; and without resonance (q^2 <= 1/2) the low and high pass never amplify.", "quantifier": "all frequencies, cutoffs, qualities and phases", "why_tests_cant": "Gains are claims over a continuum of frequencies, and convergence is a statement about the limit.", "anchors": ["surge-biquad/src/plot_magnitude.rs", "surge-biquad/src/coeff_lp.rs", "surge-biquad/src/coeff_hp.rs", "surge-biquad/src/coeff_notch.rs"]}
{"id": "C98", "title": "The all-pass filter conserves energy", "statement": "Over any input whatever, the energy that has come out of an all-pass plus the energy left in its registers equals the energy that went in; the output energy never exceeds the input energy.", "quantifier": "all inputs, cutoffs and qualities", "why_tests_cant": "An exact balance over all inputs of any length.", "anchors": ["surge-biquad/src/coeff_apf.rs coeff_apf"]}
{"id": "C99", "title": "A cutoff above the Nyquist frequency is harmless", "statement": "With a cutoff at or above the Nyquist frequency every design still gives bounded output: low passes, notch and all pass let the signal through, high passes silence it. (The band-pass designs lack the test and explode between the Nyquist frequency and the sample rate.)", "quantifier": "all cutoffs above Nyquist, all inputs", "why_tests_cant": "Only some cutoffs show it, and only after the oscillation has grown.", "anchors": ["surge-biquad/src/coeff_bp.rs coeff_bp", "surge-biquad/src/coeff_pka.rs", "surge-biquad/src/coeff_lph.rs", "surge-biquad/src/coeff_lp.rs"]}
{"id": "C100", "title": "The voice filters compute the filter they were designed as", "statement": "With fixed settings and no clipping, every IIR voice filter (low, band, high pass; rough, smooth, medium; two or four poles) solves the difference equation of its design, once for two poles and twice in series for four, whatever the input. (A unit whose registers are all zero, as a new voice has them, forgets its first sample, and the medium filters start without their poles; the state-variable subtype reaches unreachable!.)", "quantifier": "all types, subtypes, orders, designs and inputs of any length", "why_tests_cant": "An equality of a recursive computation with its specification over unbounded inputs.", "anchors": ["surgefilter-iir/src/iir_process_quad.rs process_quad", "surgefilter-iir/src/quad_iir_12_b.rs", "surgefilter-iir/src/quad_iir_24_cfg.rs", "surgefilter-iir/src/coupled.rs", "surgefilter-iir/src/lattice.rs"]}
{"id": "C101", "title": "Modulated voice filters stay bounded", "statement": "However the wanted coefficients jump from block to block, the output of the rough and medium filters is bounded by a constant that depends only on the largest input, the largest pole radius below one and the largest output gain; the smooth filters are bounded at fixed stable settings. For small signals clipping changes the output only by a term cubic in the level.", "quantifier": "all sequences of blocks, settings and inputs", "why_tests_cant": "Quantifies over unbounded histories of modulation.", "anchors": ["surgefilter-iir/src/quad_iir_12_cfc.rs", "surgefilter-iir/src/quad_iir_12_cfl.rs", "surgefilter-iir/src/quad_iir_24_cfl.rs", "surgefilter-iir/src/quad_iir_24_b.rs"]}
{"id": "C102", "title": "A voice filter is tuned to the note it is given", "statement": "The cutoff, centre or notch of an IIR voice filter set to note n lies at the frequency of note n. (It does not: the pair returned by note_to_omega is destructured in the wrong order, so every filter is tuned to a quarter of the oversampled rate minus that frequency; a low pass at a low note lets nearly everything through.)", "quantifier": "all notes, types, resonances and sample rates", "why_tests_cant": "A wrong tuning is a claim about a continuum of frequencies; tests that only check finiteness pass.", "anchors": ["surgefilter-iir/src/iir.rs coeff_make", "surgefilter-iir/src/bandreject.rs coeff_make", "surge-tuning/src/tuner.rs note_to_omega"]}
{"id": "C103", "title": "The voice filters' settings are stable", "statement": "At every note and resonance the coefficients made have their poles inside the unit circle. (Holds while the damping made is positive and the note lies below a quarter of the oversampled rate; above it every positive damping is unstable, and at full resonance the rough and medium dampings are negative.)", "quantifier": "all notes, types, orders and resonances", "why_tests_cant": "Instability needs the right note, sample rate and enough time to show.", "anchors": ["surgefilter-iir/src/iir.rs coeff_make", "surgefilter-iir/src/reso.rs", "surgefilter-iir/src/coeffs.rs alpha"]}
{"id": "C104", "title": "Filter coefficients move smoothly to what is wanted", "statement": "Each block of 64 samples takes every coefficient in a straight line exactly to the smoothed target; with fixed settings the coefficients approach them geometrically; every coefficient in use at any sample is a mixture of zero and wanted ones, so properties closed under mixing are kept. (The first call stores zeros instead of the wanted coefficients.)", "quantifier": "all processing routines, histories of settings and inputs", "why_tests_cant": "An invariant over unbounded histories of blocks.", "anchors": ["surge-coeffmaker/src/maker.rs from_direct", "surge-voice/src/set_qfb.rs", "surge-voice/src/sync_from_qfb.rs"]}
{"id": "C105", "title": "The state-variable filter is a stable biquad with the right gains at DC", "statement": "With fixed coefficients and no clipping the state-variable filter solves the difference equation of two Chamberlin steps per sample. It is stable exactly when damping and frequency satisfy 0 < q and f^2 + 2fq < 4; every cutoff with resonance up to 0.86 is; the low output passes a constant unchanged, the band and high outputs remove it; at stable settings any clip gain leaves the output bounded by a multiple of the input. At full resonance the damping is negative at every cutoff, and the clip gain still keeps the output of every bounded input bounded, at every cutoff and resonance.", "quantifier": "all cutoffs, sample rates, resonances, types, orders and inputs of any length", "why_tests_cant": "Stability and boundedness quantify over all inputs and times.", "anchors": ["surgefilter-svf/src/svf.rs coeff_make", "surgefilter-svf/src/quad_svf_lp12_a.rs", "surgefilter-svf/src/quad_svf_hp24_a.rs", "surgefilter-svf/src/svf_process.rs"]}
{"id": "C106", "title": "The sample-and-hold filter renews its value at the note's rate", "statement": "A fresh sample-and-hold filter at rate r in [0,1] renews its value at exactly the samples where the phase r*n passes an integer, so ceil(n*r) times in n samples; between renewals the output is constant; a renewal takes the soft-clipped input minus feedback times the held value; and no output ever leaves [-1, 1] whatever the inputs and modulation.", "quantifier": "all rates, feedbacks and inputs of any length", "why_tests_cant": "Exact timing over unbounded runs; the bound over all inputs and modulations.", "anchors": ["surgefilter-snh/src/snh.rs process_quad", "surgefilter-snh/src/snh.rs coeff_make"]}
{"id": "C107", "title": "The ladder filter cannot blow up", "statement": "Whatever the notes, resonances, modulation and inputs, no output of any stage of the ladder filter exceeds 11.50001; its coefficients are always finite and in range; negating registers and input negates the output.", "quantifier": "all settings per block, all inputs, all stages, lives of any number of blocks", "why_tests_cant": "A bound over all inputs, settings and histories.", "anchors": ["surgefilter-moog/src/process.rs process_quad", "surgefilter-moog/src/coeff.rs coeff_make", "surge-math/src/softclip.rs softclip8_ps"]}
{"id": "C108", "title": "However cut into blocks, the half-rate filter is one half-band filter per channel", "statement": "Feeding a freshly built half-rate filter any sequence of blocks (multiples of four samples, at most 256; eight for down-sampling, 128 for up-sampling) gives in each channel exactly the mean of two all-pass chains, one delayed by a sample, applied to the concatenated signal of that channel: no block boundary shows, the channels do not leak into each other, old contents of the output buffers do not matter, down-sampling keeps the odd-numbered results, up-sampling filters the signal with a zero after each sample, and reset makes it fresh. (The filters made with default(), which the synth, scene and effects use, have no section at all and only average neighbouring samples.)", "quantifier": "all orders and steepnesses, all block sequences of any number and sizes", "why_tests_cant": "Quantifies over all histories of blocks and all ways to cut a signal.", "anchors": ["surge-halfrate/src/halfratefilter.rs new/reset/default", "surge-halfrate/src/process_block.rs process_block", "surge-halfrate/src/process_block_d2.rs process_block_downsample_by_two", "surge-halfrate/src/process_block_u2.rs process_block_upsample_by_two", "surge-halfrate/src/loadstore.rs"]}
{"id": "C109", "title": "The half-rate filter never adds energy", "statement": "After any number of samples, the energy that came out of a channel of a half-rate filter (filtering, up- or down-sampling) is at most the energy that went into that channel.", "quantifier": "all orders, inputs and block sequences of any length", "why_tests_cant": "A bound over all inputs and all times.", "anchors": ["surge-halfrate/src/process_block.rs", "surge-halfrate/src/softer.rs", "surge-halfrate/src/steep.rs"]}
{"id": "C110", "title": "The half-rate filter's frequency response is that of its all-pass pair", "statement": "A tone comes out as a tone of the same frequency with the amplitude and phase of the all-pass formula, up to a geometrically dying start-up term; the gain is one at zero frequency, zero at half the sample rate, never above one, and squared gains at mirrored frequencies add to one.", "quantifier": "all orders, frequencies and phases", "why_tests_cant": "Quantifies over a continuum of frequencies and all times.", "anchors": ["surge-halfrate/src/process_block.rs", "surge-halfrate/src/softer.rs", "surge-halfrate/src/steep.rs"]}
{"id": "C111", "title": "The half-rate filter reaches the rejection its tables advertise", "statement": "Every tone from half a transition band above a quarter of the sample rate up to half the sample rate is reduced by the number of decibels in the comment of the table used. (Refuted for four tables: the softer sets of 70, 133 and 150 dB reach 68, 97 and 139 dB, one of them because of a pasted coefficient, and the steep set of 104 dB reaches 103; with these values the claim holds for all twelve.)", "quantifier": "all twelve tables, every frequency of the stop band", "why_tests_cant": "A continuum of frequencies; the worst one has to be found, not guessed.", "anchors": ["surge-halfrate/src/softer.rs", "surge-halfrate/src/steep.rs"]}
{"id": "C112", "title": "Resampling by two keeps tones and suppresses images", "statement": "Up-sampling turns a tone into that tone at half level times the filter gain plus its mirror image reduced by the rejection; a constant comes out at half its level; down-sampling keeps tones of the lower band and reduces those that would fold back by the rejection reached.", "quantifier": "all orders, frequencies, phases and block sequences", "why_tests_cant": "Quantifies over a continuum of frequencies and all histories.", "anchors": ["surge-halfrate/src/process_block_u2.rs", "surge-halfrate/src/process_block_d2.rs"]}
{"id": "C113", "title": "The quadrature oscillator stays on the unit circle and keeps its phase", "statement": "After any history of set_rate, set_phase and process calls in which a rate is set before the first process, the oscillator holds the sine and minus the cosine of the phase obtained by adding the current rate at each process; it never decays, grows or becomes NaN. (A process before the first set_rate collapses it to zero, and the next set_rate makes it NaN.)", "quantifier": "all histories of calls, all rates and phases", "why_tests_cant": "Quantifies over unbounded histories of calls.", "anchors": ["surge-quadrosc/src/lib.rs QuadrOsc"]}
{"id": "C114", "title": "Unison voices are balanced", "statement": "For every requested voice count the pans of all voices add up to the same total left and right, each voice's two gains are non-negative and sum to two, detunings are equally spaced, pairwise different, symmetric and span -1 to 1, a single voice is not detuned, and the output attenuation is one over the count; more than 16 voices asked for directly panics.", "quantifier": "all requested counts", "why_tests_cant": "Holds for every count; symmetry of the sign pattern is easy to get wrong for odd counts.", "anchors": ["surge-blitter/src/prepare_unison.rs prepare_unison", "surgeosc-super/src/init.rs"]}
{"id": "C115", "title": "A change of the sample rate reaches every rate", "statement": "After any history of set_samplerate calls all eight rates of a handle are those of a unit built at the last rate set. (Refuted: the single-precision oversampled rate and its inverse keep the values of the construction; the other six hold.)", "quantifier": "all histories of rate changes, any rounding", "why_tests_cant": "Quantifies over histories of changes.", "anchors": ["surge-samplerate/src/handle.rs set_samplerate", "surge-samplerate/src/unit.rs new_with_samplerate"]}
{"id": "C116", "title": "The tempo ratio follows the host's tempo", "statement": "After update the tempo ratio is the host tempo over 120 and its inverse belongs to it. (Refuted: through the handle the tempo can never be set, so every update yields ratio zero and an infinite inverse.)", "quantifier": "all histories of calls on the handle", "why_tests_cant": "That no history of calls can set a value is a universal statement.", "anchors": ["surge-timeunit/src/unit.rs TimeUnit/TimeUnitHandle"]}
{"id": "C117", "title": "Audio inputs and outputs have separate channels, renewed each block", "statement": "What a host writes to the left and right inputs reads back on each side, and each block's processing renews all up-sampled input samples; output channels are disjoint. (Refuted for the inputs: the channels overlap from the third sample on, and only ten of 128 up-sampled samples are renewed; it holds for the outputs.)", "quantifier": "all blocks, buffer contents and samples", "why_tests_cant": "An aliasing claim over all samples and contents.", "anchors": ["surge-input/src/handle.rs", "surge-output/src/handle.rs", "surge-synthesizer/src/synth/process.rs do_process_inputs"]}
{"id": "C118", "title": "The clip, tanh and digital wave shapers follow their curves", "statement": "The clip shaper is the driven input held in [-1,1]; the tanh shaper never leaves [-1,1] and lies within the reciprocal's error of an odd, increasing curve that equals tanh of a slightly stretched argument and lies above tanh; the digital shaper returns odd multiples of a 32nd of the drive within a 32nd of the drive (plus the reciprocal's error) of its input.", "quantifier": "all inputs and drives, any hardware reciprocal within its error", "why_tests_cant": "Quantifies over all reals and over the hardware's freedom.", "anchors": ["surgeshaper-tanh/src/tanh.rs", "surgeshaper-digi/src/digi.rs", "surgeshaper-clip/src/clipper.rs", "surge-filter/src/filter_traits.rs clip_bipolar"]}
{"id": "C119", "title": "The sine and asymmetric wave shapers follow their tables", "statement": "The sine and asymmetric shapers interpolate their tables at the driven input. (Refuted: both return one fixed table entry whatever the input.)", "quantifier": "all inputs and drives", "why_tests_cant": "Quantifies over all inputs.", "anchors": ["surgeshaper-sine/src/sse2.rs", "surgeshaper-asym/src/sse2.rs", "surge-tables/src/tables.rs get_waveshaper_ptr"]}
{"id": "C120", "title": "The limiter's tree holds the maximum of its look-ahead window", "statement": "After any life of the conditioner's limiter from construction or init, whatever the settings and samples, the root of its tree of maxima is the largest squared peak (larger of |left| and |right|) of the last 128 samples: no sample of the window has a larger one and one has it (0 if fewer than 128 were played).", "quantifier": "every life (sequence of stereo samples with attack/release settings) and every length", "why_tests_cant": "a test plays a few signals; the tree is updated one path at a time and must be right after every history", "anchors": ["surgefx-conditioner/src/lookahead.rs: do_lookahead", "surgefx-conditioner/src/block.rs: update_lamax, do_conditioner_block"]}
{"id": "C121", "title": "The limiter delays by exactly its look-ahead", "statement": "Each output sample of the limiter, left and right, is the input of 128 samples earlier (silence for the first 128) times one gain common to both channels.", "quantifier": "every life and every sample", "why_tests_cant": "for all inputs, settings and lengths", "anchors": ["surgefx-conditioner/src/block.rs: do_conditioner_block, update_delayed, increment_bufpos"]}
{"id": "C122", "title": "The limiter limits", "statement": "After init, with the rates in their range, every gain is positive and at most one (up to the reciprocal's error), so no sample is amplified; and the gain follows the largest peak of the look-ahead window, so peaks above the threshold are reduced.", "quantifier": "every life, every settings in range, every reciprocal of a given accuracy", "why_tests_cant": "peaks may come at any position and of any size", "anchors": ["surgefx-conditioner/src/lookahead.rs: get_lookahead", "surgefx-conditioner/src/block.rs: update_filtered_lamax, update_gain", "surgefx-conditioner/src/init.rs: init, new"]}
{"id": "C123", "title": "Voices of a quad do not disturb each other", "statement": "For every filter-block configuration, every subset of the two filters and the shaper (each treating lanes separately), and all states and inputs of the four voices: processing a block never panics (without debug assertions), leaves each voice as if processed alone, and adds to each output sample exactly the sum of what the four voices put out alone; inactive lanes add nothing.", "quantifier": "every configuration, unit set, chain state, input block and block length", "why_tests_cant": "four-lane state, eight configurations and eight unit sets, arbitrary audio", "anchors": ["surge-qfunit/src/do_*.rs", "surge-qfunit/src/config.rs: get_fn_process_quad", "surge-qfunit/src/write_outputs.rs"]}
{"id": "C124", "title": "A voice's settings glide to their targets", "statement": "When a voice sets up its lane and its block of 64 samples is processed, gain, feedback, drive, mixes and output levels end exactly at the targets the voice computed, the next block starts from there, and other lanes are untouched; mixes of an in-range balance lie in [0,1].", "quantifier": "every configuration, targets, previous values, chain state and audio", "why_tests_cant": "for all values and histories", "anchors": ["surge-voice/src/set_qfb.rs: set_quad_filterblock", "surge-voice/src/calc_pan.rs: calc_pan", "surge-qfunit/src/write_outputs.rs"]}
{"id": "C125", "title": "Filter feedback cannot run away", "statement": "In every configuration, with filters of bounded peak gain and a bounded shaper, the output of a voice stays within a bound that does not depend on the feedback amount, however large and however it changes, for ever. The state-variable filter, the ladder, sample-and-hold and the smooth lattice filters are such filters at every setting held (the first two also where they oscillate by themselves).", "quantifier": "every life: any number of samples with inputs, gains, mixes in bounds, and any feedback", "why_tests_cant": "an unbounded run of a feedback loop", "anchors": ["surge-qfunit/src/do_serial2.rs, do_serial3.rs, do_dual1.rs, do_dual2.rs, do_stereo.rs, do_ring.rs, do_wide.rs", "surge-math/src/softclip.rs: softclip_ps"]}
{"id": "C126", "title": "Filter-block paths are what their names say", "statement": "serial1 has no feedback; serial3 uses filter 2 only in the feedback path; a first mix of 0 bypasses filter 1 and the shaper, a second mix of 0 bypasses filter 2; the channels of wide never mix; dual1 and ring are symmetric in their branches.", "quantifier": "every units, states, inputs and block lengths", "why_tests_cant": "noninterference properties compare two whole runs", "anchors": ["surge-qfunit/src/do_serial1.rs", "surge-qfunit/src/do_serial3.rs", "surge-qfunit/src/do_wide.rs", "surge-qfunit/src/do_dual1.rs", "surge-qfunit/src/do_ring.rs"]}
{"id": "C127", "title": "Each voice's samples reach its own lane", "statement": "After the voices of a quad have stored their oscillator samples, lane e of register k holds sample k of voice e and nothing outside the block is written.", "quantifier": "every samples and memory contents", "why_tests_cant": "pointer arithmetic must be right for each lane", "anchors": ["surge-voice/src/process.rs: process_block"]}
{"id": "C128", "title": "A legato note glides from the pitch that is sounding", "statement": "When a legato note changes the key of a voice, the pitch starts at the pitch sounding at that moment, moves towards the new key in proportion to the accumulated portamento rate without overshoot, and stays there once it arrives.", "quantifier": "every history of blocks, bends and legato notes, every key and rate", "why_tests_cant": "a note can come at any moment of any glide", "anchors": ["surge-voice/src/portamento.rs: update_portamento, legato", "surge-voice/src/state.rs: get_pitch, set_portasrc_key", "surge-math/src/interp.rs: lerp"]}
{"id": "C129", "title": "Oscillator pitch shift: relative in notes, absolute in hertz", "statement": "In relative mode the pitch parameter shifts by that many notes (octaves in the extended range). In absolute mode the frequency differs from that of the unshifted note by ten hertz per unit, for every note.", "quantifier": "every note, shift and rising pitch table", "why_tests_cant": "the table search has to land on the right interval for all real notes", "anchors": ["surge-voice/src/note_shift.rs: note_shift_from_pitch_param"]}
{"id": "C130", "title": "A voice plays the level-weighted sum of its enabled sources", "statement": "Per block: each input of the filter block is the pre-filter gain times the sum over the enabled sources routed there of level times source (three oscillators, two ring products, noise), each oscillator processed in this block with the modulator of the FM configuration.", "quantifier": "every combination of enables, routes, FM configurations, ramps and oscillator behaviours", "why_tests_cant": "2^6 enables x 4 FM modes x routes with stateful sources", "anchors": ["surge-voice/src/process.rs: process_block", "surge-voice/src/do_osc.rs, do_ring.rs, do_noise.rs", "surge-voice/src/calc_route.rs: calc_routes"]}
{"id": "C131", "title": "Solo and mute", "statement": "If any source is soloed exactly the soloed sources sound, otherwise exactly those not muted; level and route of a silent source do not matter.", "quantifier": "all solo/mute combinations, all voices", "why_tests_cant": "noninterference over every block", "anchors": ["surge-voice/src/toggle_solo.rs: maybe_toggle_solo"]}
{"id": "C132", "title": "Pan law", "statement": "The two output levels of a voice depend on the limited sum of scene and channel pans: monotone in opposite directions, equal in the middle, one-sided at the ends, constant power within an eighth, mirror symmetric; in stereo and wide the width spreads the two signals and the channel pan moves both.", "quantifier": "every pan, width, volume and path", "why_tests_cant": "inequalities over real parameters", "anchors": ["surge-math/src/pan.rs: megapan_left, megapan_right", "surge-voice/src/calc_pan.rs: calc_pan", "surge-math/src/convert.rs: amp_to_linear"]}
{"id": "C133", "title": "Pitch, bend, key tracking and cutoff of a voice", "statement": "The wheel moves the pitch by its range on either side, monotonically; an octave step by the length of the scale; key tracking is 0 at the root and 1 per octave, also right after a switch; full key tracking moves the cutoff with the pitch.", "quantifier": "every wheel position, range, tuning and key", "why_tests_cant": "for all real settings", "anchors": ["surge-voice/src/calc_pitch.rs: get_pitchbend, calc_pitch", "surge-voice/src/calc_keytrack.rs", "surge-voice/src/toggle.rs: switch_toggled", "surge-voice/src/get.rs: get_cutoff, get_cutoff_pair"]}
{"id": "C134", "title": "Switching filter types restarts the filters", "statement": "After a switch all filters in use (four in the wide path) have the wanted types; a filter whose type changed starts from silence, one that did not change goes on undisturbed.", "quantifier": "every history of switches and blocks", "why_tests_cant": "stale state depends on the whole history", "anchors": ["surge-voice/src/toggle_filter.rs: maybe_toggle_filter", "surge-voice/src/filterblock.rs: FU::init"]}
{"id": "C135", "title": "Ages and end of a voice", "statement": "The age of a voice is its number of blocks, its release age the number of blocks since release; it asks to be kept until the first block with an idle amplitude envelope and never again.", "quantifier": "every history of blocks and releases", "why_tests_cant": "unbounded histories", "anchors": ["surge-voice/src/process.rs: process_block", "surge-voice/src/calc_modsources.rs", "surge-voice/src/release.rs"]}
{"id": "C136", "title": "Aftertouch reaches the notes", "statement": "In every block the channel aftertouch source of a voice follows the pressure of its channel, and polyphonic aftertouch follows its key.", "quantifier": "every history of pressures", "why_tests_cant": "histories of any length", "anchors": ["surge-voice/src/calc_modsources.rs: calc_modsources", "surge-voice/src/init_modsource.rs: init_aftertouch, init_channel_aftertouch"]}
{"id": "C137", "title": "Vocoder bands are spread evenly between the limits", "statement": "After every update the number of active bands is the wanted number rounded down to a multiple of four; carrier bands are spread evenly in notes between the two frequency limits whichever knob holds the lower one; modulator bands are the same ones unless shifted or widened, then evenly spread over the shifted and widened interval cut at note 60; all filter registers and envelopes are kept.", "quantifier": "every settings, sample rate and previous state", "why_tests_cant": "real-valued settings", "anchors": ["surgefx-vocoder/src/update.rs: update", "surge-svf/src/svf.rs: set_coeff"]}
{"id": "C138", "title": "Vocoder band filters are stable band-passes", "statement": "For all settings in the ranges of the parameters and sample rates from 44100 Hz every band filter is stable: bounded input gives bounded output, a signal that dies away dies away behind it, and a constant signal is blocked.", "quantifier": "all settings in range, all states and signals", "why_tests_cant": "stability quantifies over unbounded signals", "anchors": ["surge-svf/src/svf.rs: calc_bpf, calc_f, calc_q", "surgefx-vocoder/src/update.rs"]}
{"id": "C139", "title": "Vocoder envelopes follow the modulator", "statement": "The envelope of a band moves towards the squared band signal (at most 6, nothing below the gate), never past it; it stays within [0,6]; at a constant level the distance shrinks geometrically.", "quantifier": "every rate and gate in range, every signal", "why_tests_cant": "inequalities over real signals of any length", "anchors": ["surgefx-vocoder/src/block.rs: do_vocoder_block", "surgefx-vocoder/src/cfg.rs"]}
{"id": "C140", "title": "The vocoder imposes the modulator's envelopes on the carrier", "statement": "The output is four times the sum over the active bands of the carrier times the band's gain through the band's filter: linear in the carrier, alike for left and right, bounded for a bounded carrier whatever the modulator, and dying away when the modulator dies away.", "quantifier": "every carrier and modulator signal, all stable settings, every square-root approximation of a given accuracy", "why_tests_cant": "limits and linearity over infinite signals", "anchors": ["surgefx-vocoder/src/block.rs: do_vocoder_block", "surge-math/src/square.rs: v_sqrt_fast"]}
{"id": "C141", "title": "Fast sine and cosine follow the real ones", "statement": "On [-pi, pi] fastsin and fastcos differ from sin and cos by at most 1.12e-5 and 7.4e-5 (never above the true value on the positive side), fastsin is odd and fastcos even; clamp_to_pi_range moves any argument into [-pi, pi] by whole turns, so both approximations follow sin and cos at every argument after wrapping. The documented maximum error of 1e-5 does not hold for either.", "quantifier": "every real argument (exact arithmetic)", "why_tests_cant": "an error bound is a statement about a continuum of arguments; sampling cannot exclude a worse point between samples", "anchors": ["surge-math/src/fast.rs: fastsin, fastcos, clamp_to_pi_range"]}
{"id": "C142", "title": "Fast tanh and tan follow the real ones", "statement": "fasttanh is odd and strictly increasing on the whole line and within 2.3e-4 of tanh on [-5, 5]; its clamped form is within 2.3e-4 of tanh everywhere, monotone and at most 1.00001 in size (but not at most 1); fasttan is odd and within four millionths of tan, relatively, up to 1.57.", "quantifier": "every real argument (exact arithmetic)", "why_tests_cant": "monotonicity and error bounds quantify over all pairs of arguments", "anchors": ["surge-math/src/fast.rs: fasttanh, fasttanh_sse, fasttanh_sse_clamped, fasttan"]}
{"id": "C143", "title": "Fast exp follows the real one", "statement": "fastexp is positive everywhere, fastexp(x)*fastexp(-x) = 1, it is below exp to the right of 0 and above it to the left, with relative error at most 2e-7 on [-1, 1] and 2e-4 on [-2, 2]; the documented range -6..4 is not covered (at -6 it is more than twice exp(-6)).", "quantifier": "every real argument (exact arithmetic)", "why_tests_cant": "an error bound is a statement about a continuum of arguments", "anchors": ["surge-math/src/fast.rs: fastexp, fastexp_sse"]}
{"id": "C144", "title": "The ring modulator's diodes: dead zone, slope, four-quadrant product", "statement": "A diode passes nothing up to the forward bias, is never negative, never falls and never rises faster than its input, and above the linear region rises exactly with it. The ring of four diodes is silent if either input is, odd in each input, never exceeds the smaller of the input and twice the carrier, and is silent while half the input plus the carrier stay below the bias.", "quantifier": "every bias, linear region, input and carrier value", "why_tests_cant": "a continuous family of curves with two knees; the bound and the symmetries are for all pairs of inputs", "anchors": ["surgefx-ringmod/src/diode_sim.rs diode_sim", "surgefx-ringmod/src/process.rs"]}
{"id": "C145", "title": "The ring modulator's carrier stays in range and runs at the asked frequency", "statement": "For every phase in [0, 1] every carrier shape stays within \u00b11.0003 and the sine shape within 1.12e-5 of the sine; the phase stays in [0, 1]; over any time the number of cycles differs by at most one from time times the frequency asked for. The last is refuted: at the end of a cycle the phase is set to 0 rather than wrapped, so the carrier runs at 1/(\u230a1/d\u230b+1) < d cycles per sample.", "quantifier": "every phase, carrier shape, phase step and number of samples", "why_tests_cant": "drift accumulates over unboundedly many samples", "anchors": ["surgefx-ringmod/src/process.rs", "surgeosc-sine/src/compute.rs value_from_sin_and_cos"]}
{"id": "C146", "title": "The ring modulator's output: full scale in, full scale out; silence; dry", "statement": "With inputs within \u00b11 the output of the ring modulator is within \u00b11 for every mix (proved for one or two carriers, refuted for sixteen, where the saturation folds over below \u22122); silence gives silence; at mix 0 the output is the saturated input alone. The unison carriers' pans are mirror images which sum to one, the detunes mirror images within \u00b11.", "quantifier": "every input sample, mix, shape, bias, unison count", "why_tests_cant": "a bound on a nonlinear function over a continuous domain with up to sixteen carriers", "anchors": ["surgefx-ringmod/src/process.rs", "surgefx-ringmod/src/update.rs"]}
{"id": "C147", "title": "The peak equaliser leaves 0 Hz alone, reaches the asked gain at the centre and is stable", "statement": "Designed for a centre frequency below the Nyquist frequency, a bandwidth and a gain, the peak equaliser has gain exactly 1 at 0 Hz, exactly the gain asked for at the centre, a gain between the two at the Nyquist frequency, and is stable; at 0 dB it is the identity.", "quantifier": "every centre frequency, bandwidth and gain", "why_tests_cant": "a closed-form response over three continuous parameters; samples of it show nothing about the values between", "anchors": ["surge-biquad/src/coeff_peak_eq.rs coeff_peak_eq", "surge-biquad/src/plot_magnitude.rs plot_magnitude"]}
{"id": "C148", "title": "The phaser never gains energy", "statement": "However feedback and mix are set and moved, the energy of the phaser's wet signal is at most 400 times that of its input, its value stays within a bound that does not depend on how long it runs, and the output is a cross-fade of dry and wet with a factor between 0 and 1.", "quantifier": "every sequence of blocks, parameters and inputs", "why_tests_cant": "energy is summed over an unbounded run through eight filters and a feedback path; no finite number of samples settles it", "anchors": ["surgefx-phaser/src/block.rs process_block", "surgefx-phaser/src/process.rs stereo_process", "surgefx-phaser/src/update.rs update", "surge-biquad/src/coeff_apf.rs coeff_apf"]}
{"id": "C149", "title": "The phaser's sweep stays in range", "statement": "The sweep phase stays in [0, 1] and so the sweep of each filter within \u00b11 of its centre, at any rate, for ever.", "quantifier": "every sequence of rates, any number of updates", "why_tests_cant": "a phase accumulator over an unbounded run: leaving the range takes a rate and a history tests do not visit", "anchors": ["surgefx-phaser/src/update.rs update"]}
{"id": "C150", "title": "The distortion's output is made from the whole block and only the block is written", "statement": "Each block of output depends on every sample of the block of input, and processing a block changes no memory outside the 32 samples of each channel.", "quantifier": "every state, parameter set and block", "why_tests_cant": "which inputs an output depends on and which memory stays untouched quantify over all inputs and all memory", "anchors": ["surgefx-distortion/src/process.rs stereo_process", "surgefx-distortion/src/block.rs process_block", "surge-halfrate/src/process_block_d2.rs process_block_downsample_by_two"]}
{"id": "C151", "title": "The distortion's output is bounded whatever the drive and feedback", "statement": "With a bounded wave shape the output stays within a bound given by the filters behind the shaper, the shape and the output gain only, however strong drive, input equaliser and feedback are, and no block panics.", "quantifier": "every run of any length, every input, drive, feedback and pre-filter history", "why_tests_cant": "a feedback loop with gain far above 1 around a nonlinearity: only an invariant excludes that some history blows it up", "anchors": ["surgefx-distortion/src/process.rs stereo_process", "surgefx-distortion/src/block.rs process_block", "surgefx-distortion/src/update.rs update", "surgefx-distortion/src/init.rs init"]}
{"id": "C152", "title": "The pre-delay of the all-pass reverb delays by the time it is set to", "statement": "Every sample that comes out of the pre-delay of reverb2 is the one that went in the set number of samples earlier, and silence before the first; it never aborts.", "quantifier": "all inputs, all delay settings, all numbers of samples", "why_tests_cant": "the failing sample depends on the history of the buffer position and the delay setting; a test has to run for exactly the pre-delay time to see it", "anchors": ["surgefx-allpass/src/predelay.rs: PreDelay::process"]}
{"id": "C153", "title": "The diffusers of the all-pass reverb lose and add no energy", "statement": "After any number of samples the energy a diffuser has put out plus what it holds is the energy that was put in, whatever its length does meanwhile; it never aborts for lengths the effect can set.", "quantifier": "all inputs, coefficients, histories of lengths", "why_tests_cant": "a statement about every finite input and every sequence of room sizes", "anchors": ["surgefx-allpass/src/allpass.rs: Allpass::process", "surgefx-allpass/src/calc_size.rs: calc_size"]}
{"id": "C154", "title": "The tail of the all-pass reverb is finite and dies away", "statement": "The reverb tank never aborts; with fixed settings the energy of its output is bounded by a multiple of the energy of its input that depends on the decay setting alone, and once the input has stopped the tail tends to zero.", "quantifier": "all inputs, all room sizes, dampings, diffusions, decay times", "why_tests_cant": "stability of a feedback network for every input; no finite run shows it", "anchors": ["surgefx-allpass/src/block.rs: do_allpass_block, do_process_block", "surgefx-allpass/src/one_pole_filter.rs", "surgefx-allpass/src/process.rs: stereo_process"]}
{"id": "C155", "title": "The delay lines of the all-pass reverb play the set time back", "statement": "A tap plays exactly what went in the set number of samples ago, the line itself the interpolated value at the modulated length, at every sample rate and every room size.", "quantifier": "all inputs, histories of lengths, taps, modulations", "why_tests_cant": "circular-buffer indexing over unbounded histories", "anchors": ["surgefx-allpass/src/delay.rs: Delay::process", "surgefx-allpass/src/calc_size.rs: calc_size", "surge-samplerate/src/handle.rs: ms_2_samples"]}
{"id": "C156", "title": "The FM2 oscillator plays the FM formula", "statement": "Without external FM, sample n of the FM2 oscillator is sin(phase + depth1*sin(modulator 1) + depth2*sin(modulator 2) + offset + feedback*previous sample), the phases being the running sums of the block-wise frequencies; no block clicks, the output stays in [-1, 1], and with all depths zero it is a pure sine.", "quantifier": "all parameter histories (pitch, ratios, shift, depths, feedback, start phase), all runs of any length", "why_tests_cant": "a closed form over unbounded runs and every parameter history", "anchors": ["surgeosc-fm2/src/process.rs, surgeosc-fm2/src/block.rs, surgeosc-fm2/src/init.rs: process_block, init", "surge-quadrosc: QuadrOsc::set_rate, process"]}
{"id": "C157", "title": "FM modulation depths follow the parameters", "statement": "Changing an FM depth, the feedback or the start offset while a note is held is heard, and a constant setting keeps its depth for the whole note.", "quantifier": "all pairs of parameter histories, all times", "why_tests_cant": "compares any two histories over unbounded runs", "anchors": ["surgeosc-fm2/src/process.rs: process_block", "surge-lag: Lag::new, new_value, process"]}
{"id": "C158", "title": "The sine oscillator shapes the same phase in all modes", "statement": "In the legacy mode the sine oscillator shapes the sine and cosine of the accumulated phase, stays in [-1, 1], and each shape number gives the same quadrants as in the other modes.", "quantifier": "all pitch and shape histories, all runs", "why_tests_cant": "a closed form over unbounded runs and all phases", "anchors": ["surgeosc-sine/src/legacy.rs, surgeosc-sine/src/compute.rs: process_block_legacy, value_from_sin_and_cos"]}
{"id": "C159", "title": "Oscillators never read an invalid FM source", "statement": "Whatever the parameters and whatever calls came before (init, assign_fm, blocks), processing a block reads the modulator only if one was assigned.", "quantifier": "all reachable oscillator states, all parameters", "why_tests_cant": "reachability over all call histories", "anchors": ["surgeosc-fm/src/process.rs, surgeosc-fm/src/fm.rs: process_block, assign_fm", "surgeosc-fm2/src/process.rs, surgeosc-fm2/src/fm2.rs: process_block, assign_fm", "surgeosc-sine/src/process.rs, surgeosc-sine/src/sine.rs: process_block, assign_fm"]}
{"id": "C160", "title": "The audio-input oscillator balances its two inputs", "statement": "The channel parameter cross-fades between the two inputs with non-negative weights whose sum is twice the gain, full left and full right silencing the other side; values outside [-1, 1] act as the ends.", "quantifier": "all samples, gains and channel positions", "why_tests_cant": "an algebraic identity over all reals", "anchors": ["surgeosc-audioin/src/process.rs: process_block"]}
{"id": "C161", "title": "The super oscillator's band-limited impulses overlap-add without gap or loss", "statement": "Every impulse placed into the ring buffer contributes its twelve interpolated kernel samples at exactly the instant it was placed, across block ends and the wrap of the buffer, and every later sample of the output is the high-passed, leaky integral of the sum of all impulses minus the accumulated slope correction; no sample is heard twice, none lost.", "quantifier": "all sequences of blocks, all numbers and placements of impulses in a block, mono and stereo", "why_tests_cant": "superposition over unbounded runs and every placement of impulses, including those that straddle the end of the ring", "anchors": ["surgeosc-super/src/convolute/convolute.rs: convolute", "surgeosc-super/src/process/process.rs: process_block", "surgeosc-super/src/process/handle_wrap.rs: handle_wrap"]}
{"id": "C162", "title": "The super oscillator's pitch does not depend on its shape", "statement": "One cycle of four impulses takes exactly two periods of the note, whatever pulse widths, waveform mix and sub level are set, so the pitch is that of the note; the fundamental equals the note's frequency in the tuning in force.", "quantifier": "all pulse widths, waveforms, sub levels, notes and states", "why_tests_cant": "the sum of four durations over a continuum of parameters", "anchors": ["surgeosc-super/src/convolute/convolute.rs: convolute", "surgeosc-super/src/convolute/get_t.rs: get_t"]}
{"id": "C163", "title": "The super oscillator does not drift", "statement": "For every history of parameters and hard-syncs the level reached after each impulse stays within [-6, 4]; at fixed settings the levels are those of the waveform, repeated exactly in every cycle.", "quantifier": "all histories of parameters and syncs, any number of impulses", "why_tests_cant": "an integral of impulses over an unbounded run: the error of a single one never decays", "anchors": ["surgeosc-super/src/convolute/convolute.rs: convolute"]}
{"id": "C164", "title": "Every block of the super oscillator ends, with each impulse at its time", "statement": "Filling a block takes finitely many impulses, each placed inside the block at the time it is due, in order, for every pitch, pulse width, sync setting and unison voice.", "quantifier": "all parameters, all states, all unison voices", "why_tests_cant": "termination of a loop over reals for every input: absolute unison detuning can make the period 0", "anchors": ["surgeosc-super/src/process/process.rs: process_block", "surgeosc-super/src/convolute/convolute.rs: convolute"]}
{"id": "C165", "title": "The wavetable oscillator keeps its pitch whatever the skew and the formant", "statement": "A cycle of the wavetable oscillator takes exactly one period of the note however the wave is skewed horizontally and whatever the formant; each step of it is longer than zero, so that every block ends, with any number of voices, and a steady note plays for ever without abort.", "quantifier": "all tables, skews, formants, pitches, numbers of voices, runs of any length", "why_tests_cant": "a sum over up to 4096 steps of a cubic for a continuum of skews, and termination of a loop over reals", "anchors": ["surgeosc-wavetable/src/convolute/convolute.rs: convolute", "surgeosc-wavetable/src/convolute/blitstate_zero.rs: do_blitstate_zero_for_convolute", "surgeosc-wavetable/src/process/nofm.rs: process_block_nofm"]}
{"id": "C166", "title": "The wavetable oscillator plays the wave of the table", "statement": "At steady settings the levels reached are, in every cycle, the samples of the chosen mip level, morphed between the two tables, skewed and clipped; they never leave [-1, 1] nor drift, whatever is modulated; a 16-bit sample counts as a fraction of full scale.", "quantifier": "all tables, settings, modulation histories, runs of any length", "why_tests_cant": "an accumulation of differences over an unbounded run", "anchors": ["surgeosc-wavetable/src/convolute/get.rs: get_newlevel", "surgeosc-wavetable/src/update.rs: distort_level", "surgeosc-wavetable/src/convolute/convolute.rs: convolute"]}
{"id": "C167", "title": "Morphing through the tables neither clicks nor aborts", "statement": "For every history of the morph parameter each block begins at the place among the tables where the last one ended, moves to the place asked for, only tables that exist are read, and no block aborts.", "quantifier": "all histories of the morph parameter, all table counts, all voice phases", "why_tests_cant": "a property of successive blocks that fails only where a table boundary is crossed", "anchors": ["surgeosc-wavetable/src/process/update_tables.rs: update_tables", "surgeosc-wavetable/src/convolute/get.rs: get_newlevel"]}
{"id": "C168", "title": "A wavetable oscillator can be created and fed any table", "statement": "Creating the oscillator succeeds, and it plays tables files with any number of tables from one on.", "quantifier": "all parameters, all tables", "why_tests_cant": "an underflow and an out-of-bounds index that depend on the number of tables", "anchors": ["surgeosc-wavetable/src/new.rs: new", "surgeosc-wavetable/src/set_pitch.rs: set_pitch", "surgeosc-wavetable/src/process/update_tables.rs: update_tables"]}
{"id": "C169", "title": "One-shot samples play their tables in order, the set number of times", "statement": "A table file marked as a sample plays its tables in order, as many times as the unison count says (1 to 6), and is then over; from 7 on it loops for ever.", "quantifier": "all table counts, loop counts, any number of cycles", "why_tests_cant": "a count over unboundedly many cycles", "anchors": ["surgeosc-wavetable/src/convolute/blitstate_zero.rs: do_blitstate_zero_for_convolute", "surgeosc-wavetable/src/init.rs: init"]}
{"id": "C170", "title": "The unison voices of the wavetable oscillator are panned", "statement": "In stereo, each unison voice reaches the left and right channel with its own two pan gains.", "quantifier": "all voices, pannings, runs", "why_tests_cant": "compares whole output streams for every panning", "anchors": ["surgeosc-wavetable/src/convolute/convolute.rs: convolute", "surgeosc-wavetable/src/convolute/stereo.rs: convolute_stereo"]}
{"id": "C171", "title": "The sample-and-hold oscillator finishes every block with its impulses in their samples", "statement": "For any pulse width, correlation, sync and pitch within their ranges, and any random numbers, every block of the sample-and-hold oscillator ends, and every step of the held level is placed in the sample of the block, and with the sub-sample delay, that its point in time falls on.", "quantifier": "for every starting state, every sequence of parameters and periods, every random sequence and every number of blocks", "why_tests_cant": "the loop has no counter: whether it ends depends on every period it draws", "anchors": ["surgeosc-snh/src/process.rs: process_block", "surgeosc-snh/src/convolute.rs: convolute"]}
{"id": "C172", "title": "The sample-and-hold oscillator's held level stays within its range", "statement": "The level held by the sample-and-hold oscillator is within \u00b11/2 at every moment, for any correlation and any random numbers; with the correlation at zero every new level is the random number itself (limited).", "quantifier": "for every run, correlation and random sequence", "why_tests_cant": "a feedback of earlier levels, over unbounded histories", "anchors": ["surgeosc-snh/src/convolute.rs: convolute"]}
{"id": "C173", "title": "The sample-and-hold oscillator holds its levels for the pulse width and the rest of the period", "statement": "With sync off and a constant period, two successive levels of the sample-and-hold oscillator together last exactly one period, whatever the pulse width does, and the pitch is thus exact over any number of periods.", "quantifier": "for every run with sync off", "why_tests_cant": "accumulates over unboundedly many periods", "anchors": ["surgeosc-snh/src/process.rs: process_block", "surgeosc-snh/src/convolute.rs: convolute"]}
{"id": "C174", "title": "The sample-and-hold oscillator's unison detune follows the spread", "statement": "The unison voices of the sample-and-hold oscillator are detuned in proportion to the unison spread, and not at all when it is zero.", "quantifier": "for every spread, number of voices and drift", "why_tests_cant": "the spread is continuous", "anchors": ["surgeosc-snh/src/convolute.rs: convolute"]}
{"id": "C175", "title": "The window oscillator's pitch is exact for ever", "statement": "However the pitch changes from block to block, the window oscillator plays every sample at the starting phase plus one step for each sample played, modulo the window's length: no phase is lost where the window ends, and it never panics with parameters in their ranges and complete tables.", "quantifier": "for every history of pitches, formants, tables and windows, over any number of blocks", "why_tests_cant": "an accumulating phase over unbounded histories, with 32-bit wrap-around", "anchors": ["surgeosc-window/src/process_block.rs: process_oscillator_block", "surgeosc-window/src/subosc.rs: process_sub_osc"]}
{"id": "C176", "title": "The window oscillator changes formant and wave only where a window starts", "statement": "A change of formant or morph takes effect at the next start of the window, where the window is silent, and both keep their values throughout a window.", "quantifier": "for every run and every sample", "why_tests_cant": "depends on where in a block the window happens to start", "anchors": ["surgeosc-window/src/process_block.rs: process_oscillator_block"]}
{"id": "C177", "title": "The window oscillator's positions lie inside its tables", "statement": "Every position at which the window oscillator looks up its wave and its window is inside the table at the mip-map level used, for every pitch and formant.", "quantifier": "for every run and every sample", "why_tests_cant": "all 2^32 phases, ratios and formants", "anchors": ["surgeosc-window/src/process_block.rs: process_oscillator_block", "surgeosc-window/src/subosc.rs: process_sub_osc"]}
{"id": "C178", "title": "The window oscillator reads only from its tables", "statement": "Every memory read of the window oscillator's wave and window is inside the table it plays.", "quantifier": "for every table and position", "why_tests_cant": "undefined behaviour: no output to compare", "anchors": ["surgeosc-window/src/access.rs: get_wave, get_win"]}
{"id": "C179", "title": "The window oscillator's mip-map level follows the pitch", "statement": "The window oscillator picks the mip-map level at which it advances by less than 4/3 of a sample per output sample (or its coarsest), and that level exists in its tables.", "quantifier": "for every pitch", "why_tests_cant": "2^30 ratios; a wrong level only aliases", "anchors": ["surgeosc-window/src/subosc.rs: process_sub_osc", "surge-math/src/scan.rs: bitscan_reverse"]}
{"id": "C180", "title": "The window oscillator plays the chosen number of unison voices", "statement": "For every unison count from 1 to its maximum of 16, the window oscillator plays that many voices.", "quantifier": "for every unison count", "why_tests_cant": "an audible property of the configuration", "anchors": ["surgeosc-window/src/init.rs: init"]}
{"id": "C181", "title": "Every sample of the window oscillator's block is heard", "statement": "Each sample of the window oscillator's output block is the (scaled) sum of its voices at that sample.", "quantifier": "for every block of sums", "why_tests_cant": "any content of the block", "anchors": ["surgeosc-window/src/process.rs: process_block"]}
{"id": "C182", "title": "At the centre formant the window oscillator's wave and window run in step", "statement": "With the formant at its centre, the wave is played exactly once per window, whatever the lengths of the two tables, shorter or longer.", "quantifier": "for every pair of table lengths and every phase", "why_tests_cant": "all table sizes and phases", "anchors": ["surgeosc-window/src/formant.rs: get_formant_mul"]}
{"id": "C183", "title": "The synthesizer never outputs a sample beyond eight times full scale", "statement": "After every block, whatever scenes and effects computed (infinities and NaN included), each of the 64 output samples is a number in [-8, 8]; a sample inside that range is passed on bit for bit; a halted engine outputs zeros.", "quantifier": "every content of the output buffer before the final stage, every state", "why_tests_cant": "the contents before the clip are any bit patterns", "anchors": ["surge-synthesizer/src/synth/process.rs: process, do_halt", "surge-math/src/hardclip.rs: hardclip_block8"]}
{"id": "C184", "title": "The output meters show the level of the output", "statement": "After every history of blocks the two meters are at least the peak of the last block, never NaN or infinite, and without new peaks fall by 0.3 percent per block.", "quantifier": "every history of blocks of any content", "why_tests_cant": "a meter accumulates over an unbounded history", "anchors": ["surge-synthesizer/src/synth/process.rs: process 461-481", "surge-output/src/handle.rs: set_vu_peak, get_vu_peak", "surge-math/src/absmax.rs: get_absmax"]}
{"id": "C185", "title": "Every block is rendered", "statement": "On an engine that is not halted, process renders a block, with external input switched on or off, wherever the allocator places the buffers.", "quantifier": "every placement of the buffers, every memory content, both input modes", "why_tests_cant": "depends on addresses chosen by the allocator", "anchors": ["surge-synthesizer/src/synth/process.rs: process, clear_inputs, do_process_inputs", "surge-input/src/handle.rs: SynthInput", "surge-math/src/clear.rs"]}
{"id": "C186", "title": "The two audio inputs are independent channels", "statement": "What the host writes to the left input is heard on the left and what it writes to the right on the right: neither channel's samples are part of the other; the audio input oscillator mixes them by its balance, each with a gain between zero and twice its own, adding up to twice its gain.", "quantifier": "every memory content and order of writing, every sample index, gain and balance", "why_tests_cant": "aliasing shows only for particular contents", "anchors": ["surge-input/src/handle.rs: audio_in0, audio_in1", "surgeosc-audioin/src/process.rs"]}
{"id": "C187", "title": "A program change loads a program and the engine keeps playing", "statement": "After a program change the engine fades out, loads the patch and continues; without one it neither fades nor stops.", "quantifier": "every bank and program, every later number of blocks, every fade state", "why_tests_cant": "effect comes 40 blocks later", "anchors": ["surge-synthesizer/src/synth/patchunit.rs: handle_patchid_queue", "surge-synthesizer/src/synth/midi.rs: program_change"]}
{"id": "C188", "title": "The housekeeping call is safe at any time", "statement": "process_threadunsafe_operations returns in every state, whether or not a patch change is pending.", "quantifier": "every state of queue and audio processing", "why_tests_cant": "depends on the history of calls", "anchors": ["surge-synthesizer/src/synth/patchunit.rs: process_threadunsafe_operations"]}
{"id": "C189", "title": "Suspending and reloading effects touches exactly the requested effects, once", "statement": "A control pass suspends exactly the effects whose bit is set and clears the request; reloading initialises exactly the flagged effects, all if forced, clears the flags and reports whether any was initialised.", "quantifier": "every list of effects, mask, flags", "why_tests_cant": "all masks and flag combinations", "anchors": ["surge-synthesizer/src/synth/process_control.rs: maybe_suspend_fx", "surge-synthesizer/src/synth/fx.rs: load_fx"]}
{"id": "C190", "title": "The VST plugin plays the pressed key as a bounded sine, equal on all channels", "statement": "In every state and for every buffer: no note gives silence; a note gives a sine of the key's frequency continuing in phase from the plugin's clock, the same on all channels, within [-1, 1]. A note-on restarts the level from 0; it rises to 1 in half a second.", "quantifier": "every state, buffer length and channel count", "why_tests_cant": "unbounded lengths", "anchors": ["surge-synthesizer/src/vst_host.rs: process, note_on", "surge-synthesizer/src/freq.rs: midi_pitch_to_freq"]}
{"id": "C191", "title": "The plugin is tuned to A4 = 440 Hz, equal temperament", "statement": "As documented, A4 sounds at 440 Hz, each key is above the one before by the twelfth root of two, twelve keys double the frequency.", "quantifier": "every key", "why_tests_cant": "every key", "anchors": ["surge-synthesizer/src/freq.rs: midi_pitch_to_freq", "surge-constants/src/lib.rs: A4_FREQ"]}
{"id": "C192", "title": "The plugin's sound does not depend on the host's buffer size", "statement": "Two consecutive buffers contain together what one buffer of their joint length would.", "quantifier": "every state, every pair of lengths", "why_tests_cant": "all ways of cutting", "anchors": ["surge-synthesizer/src/vst_host.rs: process"]}
{"id": "C193", "title": "The plugin plays what the MIDI messages say", "statement": "Silence before the first note-on; a note-on starts its key; the note-off of the sounding key (or a note-on of velocity zero) ends it; other note-offs change nothing; all MIDI channels are heard.", "quantifier": "every history of messages", "why_tests_cant": "every history", "anchors": ["surge-synthesizer/src/vst_host.rs: process_midi_event, note_on, note_off, default"]}
{"id": "C194", "title": "A flat equaliser is transparent", "statement": "A freshly initialised three-band equaliser with every gain at 0 dB leaves the sound as it is; whatever it does to the sound otherwise dies away geometrically.", "quantifier": "Every frequency and bandwidth setting, every history of blocks, every input", "why_tests_cant": "A test plays a few blocks; the claim is about every sample of every history, including the first", "anchors": ["surgefx-eq3band/src/init.rs: Eq3Band::init", "surgefx-eq3band/src/update.rs: instantize_unity_gain, band_gain, update_all_bands", "surgefx-eq3band/src/process.rs: stereo_process", "surge-biquad/src/biquad.rs: coeff_instantize, Suspend"]}
{"id": "C195", "title": "The equaliser's output stays bounded", "statement": "At constant stable settings the output of the three-band equaliser never exceeds a fixed multiple of the largest input sample, however long it runs and although its coefficients glide to the settings.", "quantifier": "Every constant stable setting, every history of blocks, every input", "why_tests_cant": "Instability shows after arbitrarily many samples and at any setting", "anchors": ["surgefx-eq3band/src/process.rs: stereo_process", "surgefx-eq3band/src/update.rs: maybe_update", "surge-biquad/src/set_coeffs.rs: set_coef", "surge-biquad/src/process_stereo.rs"]}
{"id": "C196", "title": "The frequency shifter moves a tone by the shift", "statement": "With feedback off and constant settings, a tone fed into a channel comes out, at the wet level, at its frequency plus that channel's shift, at the gain of the delay line, and the opposite sideband is at least 103 dB below; the dry tone stays at the dry level; the difference dies out geometrically.", "quantifier": "all shifts, tones in the band (a hundredth of the spectrum at each end, and the shift where it is downwards, excluded), phases, mixes, delays, interpolation kernels, signals in the other channel, run lengths", "why_tests_cant": "single-sideband modulation is a statement about every tone and every time, with the transient of a recursive filter and four smoothers in it", "anchors": ["surgefx-freqshift/src/process.rs", "surgefx-freqshift/src/pre_block.rs", "surgefx-freqshift/src/post_block.rs", "surge-quadrosc/src/lib.rs"]}
{"id": "C197", "title": "The right channel of the frequency shifter follows the sign of its ratio", "statement": "The right channel is shifted by the left shift times the ratio, so that a ratio of -1 sends it the other way.", "quantifier": "all ratios, shifts, tones", "why_tests_cant": "needs the limit behaviour of the whole effect, for tones of any length", "anchors": ["surgefx-freqshift/src/update.rs", "FreqShiftParam::RMult"]}
{"id": "C198", "title": "The delay of the frequency shifter", "statement": "The delay line settles on the requested time, between samples if need be.", "quantifier": "all delay times, inputs, run lengths", "why_tests_cant": "the smoother approaches its value only in the limit; the interpolator must be right for every fraction", "anchors": ["surgefx-freqshift/src/pre_block.rs", "surge-lag/src/lag.rs"]}
{"id": "C199", "title": "The frequency shifter stays bounded under automation", "statement": "Whatever the settings do from block to block, feedback of any size included, the effect does not panic and the output stays within a fixed multiple of the input level and the wave shaper's level.", "quantifier": "all parameter histories with delays below 2^22 samples and mixes in [0, 1], all bounded inputs, all run lengths", "why_tests_cant": "unbounded histories; the oscillators are renormalised only once per block", "anchors": ["surgefx-freqshift/src/process.rs", "surgefx-freqshift/src/update.rs"]}
{"id": "C200", "title": "With a modulator the FM and sine oscillators play their formulas", "statement": "When the modulator buffer is set before each block, the FM oscillator's sample n is sin(carrier phase + three sine modulators + external FM + feedback * previous sample) and the sine oscillator's is the shape of (phase + feedback * previous sample + external FM); in legacy mode the external signal modulates the frequency instead. Depths are those of the first block, fading by 0.996 a sample, and the FM output stays in [-1, 1].", "quantifier": "all parameter histories, all modulator contents, all block counts", "why_tests_cant": "a formula over unbounded histories of parameters and modulator samples with feedback", "anchors": ["surgeosc-fm/src/block.rs", "surgeosc-fm/src/process.rs", "surgeosc-sine/src/block.rs", "surgeosc-sine/src/legacy.rs", "surge-macros/src/lib.rs: master_osc!"]}
{"id": "C201", "title": "The nonlinear-states filter filters", "statement": "From rest, the nonlinear-states filter realises (for small signals) the second-order sections its coefficients design, and accepts every saturator selection.", "quantifier": "all inputs of any length, all coefficients and increments, all numbers of sections and saturator bits", "why_tests_cant": "a statement about all input signals and all settings", "anchors": ["surgefilter-nlstates/src/process.rs", "surge-qfunit/src/qf_unit_state.rs: reg"]}
{"id": "C202", "title": "The nonlinear filters' designs are stable and hit their targets", "statement": "For every cutoff, resonance and type both nonlinear filters design stable second-order sections: unity in the pass band and zero in the stop band, an all-pass of gain one everywhere, a notch and a band-pass centred on the cutoff with the quality factor as gain.", "quantifier": "all frequencies (clamped by the code), all resonances, all sample rates above 17 Hz, all points of the unit circle", "why_tests_cant": "real-valued parameters; a frequency response", "anchors": ["surgefilter-nlstates/src/coeff.rs", "surgefilter-nlfeedback/src/coeff.rs"]}
{"id": "C203", "title": "The nonlinear-feedback filter cannot blow up and keeps silence", "statement": "With the tanh, soft-clip and OJD saturators the output is bounded by a function of the input's bound over any life of blocks with any settings; with tanh, soft clip and sine both polarities are treated alike and silence stays silence.", "quantifier": "all histories of settings, all bounded inputs of any length", "why_tests_cant": "unbounded runs with modulation", "anchors": ["surgefilter-nlfeedback/src/process.rs", "surgefilter-nlfeedback/src/coeff.rs", "surge-coeffmaker/src/maker.rs"]}
{"id": "C204", "title": "The OJD saturator is transparent for small signals", "statement": "With the OJD saturator small signals are filtered as designed and silence stays silence.", "quantifier": "all signals below the clipping threshold, all coefficients", "why_tests_cant": "all signals and coefficients", "anchors": ["surgefilter-nlfeedback/src/nlff.rs: ojd_waveshaper"]}
{"id": "C205", "title": "The sine saturator limits the feedback", "statement": "With the sine saturator bounded input gives bounded output, at least with no resonance.", "quantifier": "all input signals, all lengths", "why_tests_cant": "divergence only shows in the limit", "anchors": ["surgefilter-nlfeedback/src/nlff.rs: fastsin_ps", "surge-math/src/fast.rs: fastsin"]}
{"id": "C206", "title": "The Runge-Kutta ladder never blows up", "statement": "From rest, with any cutoff, resonance and gain compensation and any input samples, however loud, the Runge-Kutta ladder filter's output never exceeds 14.74 in magnitude; it treats both polarities alike, and silence into a filter at rest is silence out.", "quantifier": "all sample rates, all sequences of blocks with settings made by the filter's own coefficient function (gliding between blocks), all input samples", "why_tests_cant": "The bound is an invariant of a four-stage nonlinear feedback recursion with no bound on its input or its length.", "anchors": ["surgefilter-rungekutta/src/runge_kutta_process.rs: process_quad", "surgefilter-rungekutta/src/derivatives.rs: calculate_derivatives", "surgefilter-rungekutta/src/runge_kutta_coeff.rs: coeff_make"]}
{"id": "C207", "title": "The Runge-Kutta ladder integrates its circuit to fourth order", "statement": "With no input and no feedback a small charge on the first capacitor obeys y' = -c y, so one step of length h of the filter, which is documented as Runge-Kutta integration, leaves exp(-hc) of it up to an error of order (hc)^5.", "quantifier": "all step lengths and cutoffs with 0 < hc <= 1/2", "why_tests_cant": "The order of an integrator is a statement about the limit of small steps, for every step size.", "anchors": ["surgefilter-rungekutta/src/runge_kutta_process.rs: process_quad"]}
{"id": "C208", "title": "The two-pole OB-Xd filter is passive", "statement": "Each sample solves the circuit equations of the two-pole OB-Xd filter without a delay in the loop. As long as the damping setting outweighs the diode-pair nonlinearity, the energy stored relative to a constant input never grows, however cutoff, resonance and mode are modulated from sample to sample; with any input it grows by no more than the input delivers; with fixed settings the filter settles from every state, the low-pass passing DC, the high-pass and band-pass blocking it.", "quantifier": "all register states, all coefficient sequences changing at every sample, all inputs, all run lengths", "why_tests_cant": "Stability under audio-rate modulation of a nonlinear state-space filter is an invariant over unbounded histories and real-valued states.", "anchors": ["surgefilter-obxd/src/process_2pole.rs: process_2_pole", "surgefilter-obxd/src/obxd.rs: newton_raphson_12db, get_12db_self_osc, diode_pair_resistance_approx"]}
{"id": "C209", "title": "The four-pole OB-Xd filter stays bounded at every resonance", "statement": "At oversampled rates from 88 kHz up, over a whole life of blocks with any cutoff and any resonance up to full in each and inputs within X, the output of the four-pole OB-Xd filter stays within a bound that depends only on the sample rate and X, although the cutoff is read before its increment and the feedback solved with it after.", "quantifier": "all sample rates, all lists of blocks and settings, all inputs", "why_tests_cant": "A feedback loop at full resonance with gliding coefficients can only be shown stable by an invariant over all histories.", "anchors": ["surgefilter-obxd/src/process_4pole.rs: process_4_pole", "surgefilter-obxd/src/obxd.rs: newton_raphson_r24_db, tptpc", "surgefilter-obxd/src/coeff.rs: coeff_make"]}
{"id": "C210", "title": "The OB-Xd pole taps agree at DC", "statement": "The four sub-types of the four-pole OB-Xd filter are taps of one chain: with a constant input, once settled, they all give the same output.", "quantifier": "all cutoffs, resonances and settled states", "why_tests_cant": "Quantifies over a continuum of steady states of a nonlinear loop.", "anchors": ["surgefilter-obxd/src/process_4pole.rs: process_4_pole"]}
{"id": "C211", "title": "A selected OB-Xd tap is heard", "statement": "When a sub-type of the four-pole OB-Xd filter is selected through the coefficient maker, the corresponding tap is heard.", "quantifier": "all settings, inputs and numbers of blocks", "why_tests_cant": "Silence for ever is a statement about unboundedly many blocks.", "anchors": ["surgefilter-obxd/src/process_4pole.rs: process_4_pole", "surgefilter-obxd/src/coeff.rs: coeff_make", "surge-coeffmaker/src/maker.rs: from_direct"]}
{"id": "C212", "title": "Diode ladder: unit gain at DC", "statement": "With the resonance at zero, the diode ladder filter settles, for a constant input, at an output equal to the input, at every cutoff.", "quantifier": "every cutoff, sample rate, constant input and settled state", "why_tests_cant": "A test measures a few cutoffs after a finite wait; the claim is about every settled state at every cutoff.", "anchors": ["surgefilter-diode/src/coeff.rs coeff_make", "surgefilter-diode/src/process_quad.rs process_quad"]}
{"id": "C213", "title": "Diode ladder: stability without resonance", "statement": "With the resonance at zero the diode ladder filter is stable: after an impulse its output stays bounded, at every cutoff the clamp allows.", "quantifier": "every cutoff, sample rate and length of run", "why_tests_cant": "Instability is a limit statement; a short run at one cutoff can look fine.", "anchors": ["surgefilter-diode/src/coeff.rs coeff_make", "surgefilter-diode/src/process_quad.rs process_quad"]}
{"id": "C214", "title": "Diode ladder: superposition and silence", "statement": "The diode ladder is a linear filter even while its coefficients glide: the response to a weighted sum of signals is the weighted sum of the responses, and a silent filter fed silence stays silent.", "quantifier": "all signals, weights, memories, coefficient ramps and lengths", "why_tests_cant": "All pairs of signals and all ramps.", "anchors": ["surgefilter-diode/src/process_quad.rs process_quad", "surgefilter-diode/src/lpf.rs do_lpf", "surgefilter-diode/src/diode.rs get_feedback_output"]}
{"id": "C215", "title": "Huovilainen ladder: bounded whatever is played", "statement": "The Huovilainen ladder's output stays bounded by a constant for every input signal and every sequence of cutoff, resonance and gain-compensation settings, and, with little resonance, by a multiple of the input's peak.", "quantifier": "all inputs, all settings in every block, any number of blocks", "why_tests_cant": "A feedback loop can blow up after any number of samples, for some signal and automation.", "anchors": ["surgefilter-huovilainen/src/huovilainen_process.rs process_quad", "surgefilter-huovilainen/src/huovilainen_coeff.rs coeff_make"]}
{"id": "C216", "title": "Huovilainen ladder: symmetric and silent", "statement": "The Huovilainen ladder treats both polarities alike (negating the input negates the output) and turns silence into silence.", "quantifier": "all signals, states and coefficient ramps", "why_tests_cant": "All signals and all states.", "anchors": ["surgefilter-huovilainen/src/huovilainen_process.rs process_quad"]}
{"id": "C217", "title": "Comb filter: processes a sample", "statement": "A voice using a comb filter can be played: processing a sample returns for every state, coefficient and input.", "quantifier": "all states and inputs", "why_tests_cant": "The refutation is about every state and input; a test shows one.", "anchors": ["surgefilter-comb/src/process_sse2.rs process_quad", "surge-math/src/align.rs simd_extract"]}
{"id": "C218", "title": "Comb filter: a safe feedback delay", "statement": "With the missing lane extraction supplied, every access of the comb filter is inside its buffers, whatever delay the settings give; its stored signal is the soft-clipped input plus the fed-back delayed stored signal; its output is the mix of the input and the delayed signal, and is bounded whatever the feedback.", "quantifier": "all inputs, all delay, feedback and mix automation, any number of samples", "why_tests_cant": "Ring-buffer wrap-around and the copied tail depend on position, delay and history.", "anchors": ["surgefilter-comb/src/process_sse2.rs process_quad", "surgefilter-comb/src/coeff.rs coeff_make", "surgefilter-comb/src/comb.rs"]}
{"id": "C219", "title": "Wavetable oscillator: shaping never folds", "statement": "The wavetable oscillator's vertical skew and saturation leave a waveform within \u00b11 unchanged when at rest, and at any setting keep the peaks \u00b11 in place and the order of the levels between them; saturation alone never lowers a level.", "quantifier": "all control settings and all levels within \u00b11", "why_tests_cant": "Order of every pair of levels at every setting.", "anchors": ["surgeosc-wavetable/src/update.rs distort_level, update_lagvals"]}
{"id": "C220", "title": "Dual delay: the signal flow holds under any automation", "statement": "Whatever the input and however its parameters are automated, block after block, the dual delay is this: each channel reads its stored signal at the smoothed delay with the twelve-point kernel, soft-clips it and sends it through high cut and low cut; the echoes times the smoothed feedback are added to the panned input and stored; the output fades between the input and the echoes of adjusted width. No access leaves the buffers; with the mix at zero the output is the input; silence from the start gives silence.", "quantifier": "every automation of all parameters, every input, every number of blocks, every position of the ring buffer", "why_tests_cant": "The ring buffer wraps after 8192 blocks, and the smoothed delay can take any value while it moves; tests visit a few positions only.", "anchors": ["surgefx-dualdelay/src/process.rs: stereo_process", "surgefx-dualdelay/src/block.rs: do_dualdelay_block", "surgefx-dualdelay/src/set_buffer.rs: dualdelay_set_buffer", "surgefx-dualdelay/src/update.rs: update"]}
{"id": "C221", "title": "Dual delay: feedback stays in its channel, crossfeed goes to the other", "statement": "The feedback setting returns each channel's echo to itself, the crossfeed setting feeds it to the other channel; at crossfeed zero a signal in one channel never reaches the other.", "quantifier": "every automation, every input", "why_tests_cant": "A statement about the effect of one parameter on all outputs for all values of the others.", "anchors": ["surgefx-dualdelay/src/process.rs: do_feedback, do_crossfeed"]}
{"id": "C222", "title": "Dual delay: the echo comes after the time that is set", "statement": "With a constant delay setting of T samples and no modulation the echo settles at T samples; the modulation stays within a fixed multiple of its step.", "quantifier": "every delay, every input, every automation of the other parameters, all time", "why_tests_cant": "The smoothing takes thousands of samples to settle and its limit is a statement about all of them.", "anchors": ["surgefx-dualdelay/src/update.rs: update", "surgefx-dualdelay/src/init.rs: new", "surge-lag/src: Lag"]}
{"id": "C223", "title": "Dual delay: the output stays bounded whatever the feedback", "statement": "With the two cuts left where they are, there is a bound depending on them alone such that for every input and every automation of delay, feedback, crossfeed, panning and modulation the output exceeds the input by no more than it.", "quantifier": "every input, every automation, all time", "why_tests_cant": "Feedback above one only fails after arbitrarily many repeats.", "anchors": ["surgefx-dualdelay/src/process.rs: do_softclip, do_filters"]}
{"id": "C224", "title": "Dual delay: the echoes ring out after the input has ended", "statement": "When the input ends, the delay goes on for its ring-out time and is then skipped.", "quantifier": "every history of blocks with and without input", "why_tests_cant": "A statement about every schedule of silent and sounding blocks.", "anchors": ["surgefx-dualdelay/src/process.rs: process_only_control", "surge-traits/src/ringout.rs: process_ringout"]}
{"id": "C225", "title": "Rotary speaker: the output is horn plus bass of the mono input", "statement": "Every output sample is the treble of the mono sum, read at the Doppler delay of the channel and scaled by the gain of the channel, plus the bass, whose upper part the bass rotor modulates. Reading never leaves the buffer or the kernel table. Only the sum of the input channels matters; channels in opposite phase give exact silence.", "quantifier": "every input, every automation of rate, Doppler and amplitude modulation, any number of blocks", "why_tests_cant": "The delay line and both filters remember unboundedly much of the past.", "anchors": ["surgefx-rotary/src/process.rs: stereo_process", "surgefx-rotary/src/block.rs: do_rotaryspeaker_block", "surgefx-rotary/src/pre_block.rs", "surgefx-rotary/src/post_block.rs"]}
{"id": "C226", "title": "Rotary speaker: delay and gain of the horn stay within the geometry", "statement": "The delay of the horn stays between the nearest and the farthest distance to the microphone times the Doppler setting; its gain stays between 1 - 1.2 times the modulation depth and 1, and should never turn negative.", "quantifier": "every rate, angle, automation and sample", "why_tests_cant": "Angles and ramps take a continuum of values.", "anchors": ["surgefx-rotary/src/process.rs: stereo_process", "surge-quadrosc/src/lib.rs: set_rate, process"]}
{"id": "C227", "title": "Rotary speaker: the bass rotor turns at seven tenths of the horn's speed", "statement": "The modulation of the bass is meant to turn at 0.7 of the rate of the horn.", "quantifier": "every automation of the rate, any number of blocks", "why_tests_cant": "The ratio has to hold over every history.", "anchors": ["surgefx-rotary/src/set.rs: set_lfos", "surgefx-rotary/src/post_block.rs: do_rotaryspeaker_post_block", "surgefx-rotary/src/process.rs: process_only_control"]}
{"id": "C228", "title": "Rotary speaker: bounded, and silent after the input has ended", "statement": "The output never exceeds a fixed multiple of the loudest input, and once the input has ended the output falls to the level of the filters' denormal threshold.", "quantifier": "every bounded input, every automation, any length", "why_tests_cant": "A statement about unbounded time.", "anchors": ["surgefx-rotary/src/process.rs: stereo_process", "surgefx-rotary/src/init.rs: init"]}
{"id": "C229", "title": "Rotary speaker: the return level sets the level, and without Doppler effect there is no delay", "statement": "The return level scales the effect; with Doppler at zero treble and bass stay together.", "quantifier": "every input and setting", "why_tests_cant": "Independence of a control is a statement about all its values and all inputs.", "anchors": ["surgefx-rotary/src/param.rs", "surgefx-rotary/src/block.rs: do_rotaryspeaker_block"]}
{"id": "C230", "title": "Rotary speaker: the interpolation uses one row of the kernel", "statement": "For every fractional delay the twelve coefficients are one row of the kernel table.", "quantifier": "every delay", "why_tests_cant": "Delays take a continuum of values; only some fractions go wrong.", "anchors": ["surgefx-rotary/src/block.rs: do_rotaryspeaker_block"]}
{"id": "C231", "title": "Rotary speaker: suspending silences it", "statement": "After suspend, silence in gives silence out.", "quantifier": "every history before the suspension", "why_tests_cant": "The state left behind depends on the whole past.", "anchors": ["surgefx-rotary/src/init.rs: suspend", "surge-biquad/src/biquad.rs: suspend"]}
{"id": "C232", "title": "The chorus follows its signal flow for every input and automation", "statement": "Whatever stereo input is played and however the parameters are automated block by block, the chorus outputs a fade between the input and a wet signal of adjusted width; the wet signal is four voices reading one stored mono signal at their own smoothed, modulated delays, panned from left to right, filtered by the high cut and the low cut; what is stored is both input channels plus the wet channels times the feedback, clipped to 1. No access to the buffer or the kernel is out of bounds. Mix 0 gives the input, mix 1 the wet signal; silence gives silence.", "quantifier": "every input signal, automation of all parameters, kernel and number of blocks", "why_tests_cant": "the ring buffer wraps after 8192 blocks and delays, phases and smoothed controls depend on the whole history", "anchors": ["surgefx-chorus/src/process.rs stereo_process", "surgefx-chorus/src/block.rs do_chorus_block", "surgefx-chorus/src/set_buffer.rs chorus_set_buffer", "surgefx-chorus/src/update.rs update", "surgefx-chorus/src/init.rs init"]}
{"id": "C233", "title": "The chorus voices are spread evenly in the cycle and in the stereo field", "statement": "Four voices of equal power are panned from left to right, together with the power of one signal; their delays stay between zero and (1 + depth) times the set time; and they run at four different places in the modulation cycle. (The last is false: the first and the last voice always have the same delay.)", "quantifier": "every automation of rate (up to a cycle per block), time and depth, and every sample", "why_tests_cant": "the phases wrap irregularly under automation; the coincidence of two voices must hold at every sample to be one", "anchors": ["surgefx-chorus/src/init.rs init", "surgefx-chorus/src/update.rs update", "surgefx-chorus/src/block.rs do_chorus_block"]}
{"id": "C234", "title": "The chorus cannot blow up", "statement": "With the two cuts left where they are, the output of the chorus is bounded by a multiple, depending on the cuts alone, of the input's bound plus one, for every feedback however large and every automation of rate, depth and time.", "quantifier": "every input, automation and number of blocks", "why_tests_cant": "a loop with delay, filters and feedback can grow slowly; only an invariant over all blocks excludes it", "anchors": ["surgefx-chorus/src/process.rs stereo_process", "surge-math/src/hardclip.rs hardclip_block"]}
{"id": "C235", "title": "The chorus rings out when its input ends", "statement": "When the input of the chorus ends in the effect chain, the delayed sound still in it is heard, and a later sound begins clean. (False: blocks without input pass unchanged and stop time for the effect, so the tail is heard when the next sound begins, however much later.)", "quantifier": "every history of blocks with and without input", "why_tests_cant": "the tail may be released after any number of silent blocks", "anchors": ["surge-traits/src/ringout.rs process_ringout", "surgefx-chorus/src/chorus.rs", "surgefx-chorus/src/process.rs stereo_process"]}
{"id": "C236", "title": "Correlated noise stays in range and tilts the way it is told", "statement": "Correlated noise whose result is fed back stays between -1 and 1 for every sequence of draws and every automation of the correlation; without correlation it is the draws; it forgets its start; and positive correlation favours alternating over constant draws (bright), negative the reverse.", "quantifier": "every sequence of draws, every automation of the correlation, every start, every number of steps", "why_tests_cant": "Boundedness and forgetting are about infinite random sequences; a run samples one.", "anchors": ["surge-math/src/correlated_noise.rs: correlated_noise"]}
{"id": "C237", "title": "The colour of the noise changes its spectrum, and the pitch drift wanders", "statement": "A voice's noise colour changes the spectrum of the noise, and the oscillators' drift wanders slowly away from its start. (False: the state is passed by value and never kept; colour is only volume, up to 42 dB less at both ends, and the drift jumps by at most 0.0064 around a fixed value for ever.)", "quantifier": "every sequence of draws, every automation of the colour, every number of blocks", "why_tests_cant": "Whiteness of the result for every colour is a statement about all sequences of draws; a listening test hears noise either way.", "anchors": ["surge-math/src/correlated_noise.rs: correlated_noise_o2mk2, drift_noise", "surge-voice/src/do_noise.rs", "surgeosc-super/src/process/no_fm.rs"]}
{"id": "C238", "title": "The all-pass filter passes all", "statement": "For every positive length, every coefficient and every input the all-pass filter of the maths crate obeys the all-pass recurrence, and the energy it has put out plus what its line still holds is the energy put in.", "quantifier": "every length, coefficient, input and number of samples", "why_tests_cant": "An energy identity over all inputs of all lengths.", "anchors": ["surge-math/src/allpass.rs: AllpassFilter"]}
{"id": "C239", "title": "Cubic interpolation joins its points smoothly and reproduces straight lines", "statement": "The cubic interpolation passes through its points, its pieces join with equal slope, it is symmetric and linear in its points. (False part: on a straight line it should give the line; its slopes are twice too steep and it is off by up to a tenth of a step.)", "quantifier": "every four points, every position between", "why_tests_cant": "An identity of polynomials in five real variables.", "anchors": ["surge-math/src/interp.rs: cubic_interpolate"]}
{"id": "C240", "title": "The windows are windows", "statement": "For every length from 2 on each window function is symmetric, between its floor and 1, and has its floor at the ends; the symmetric forms are so around the origin. (False for the symmetric Blackman-Harris window: one term has another period.)", "quantifier": "every length from 2 on, every position", "why_tests_cant": "Ranges over all lengths and positions.", "anchors": ["surge-math/src/window.rs"]}
{"id": "C241", "title": "Conversions of level and time are inverse to each other", "statement": "Decibels to gain and back, level to gain and back, are identities over their ranges; 20 dB are a factor of ten and 1200 timecents of two. (False for decibels to level: -60 dB gives the level of -94 dB.)", "quantifier": "every level", "why_tests_cant": "Identities over all reals.", "anchors": ["surge-math/src/convert.rs"]}
{"id": "C242", "title": "Big-endian words have their bytes reversed and are read back as written", "statement": "For every 32-bit and 16-bit word the big-endian form has the bytes in reverse order and converting twice gives the word back.", "quantifier": "every 32-bit and 16-bit word", "why_tests_cant": "Four billion words; a test tries a few.", "anchors": ["surge-math/src/utility.rs: vt_write_int32_be, vt_read_int32_be, vt_write_int16_be, vt_read_int16_be"]}
{"id": "C243", "title": "15-bit samples survive conversion to floating point and back", "statement": "Every 15-bit sample comes back from the conversion to floating point unchanged; every value within range comes back with an error below one step, towards zero; values out of range are clipped; the order of samples is kept.", "quantifier": "every sample and every real value", "why_tests_cant": "Ranges over all reals.", "anchors": ["surge-math/src/value_cast.rs: float2i15_block, i152float_block"]}
{"id": "C244", "title": "Legato in the single-trigger modes follows the keys", "statement": "In a single-trigger monophonic mode, for every history of keys pressed and released on the channel of the sounding voice with a key held all the time, nothing panics and that voice stays the only held one, never restarted; it plays the key pressed last, moves to the highest key still held when its key is released, ignores the release of other keys, and is released with the last key.", "quantifier": "every history of key events of any length, every set of other voices, every polyphony limit above their number", "why_tests_cant": "The sounding key depends on the whole history of presses and releases; a test plays a few.", "anchors": ["surge-scene/src/scene/play_voice_portamento.rs", "surge-scene/src/scene/release_single_triggered.rs", "surge-scene/src/scene/play_voice.rs", "surge-scene/src/scene/release.rs"]}
{"id": "C245", "title": "Legato in the single-trigger modes works with MPE, over several channels and at every polyphony limit", "statement": "The behaviour of single-trigger modes is the same with MPE, for keys on other channels and at every polyphony limit. (False three times: with MPE the release of the sounding key always releases the voice, whatever else is held; without MPE a key from another channel takes the voice over and then sounds for ever after its release; at limit 1 a legato note kills the sounding voice.)", "quantifier": "every state of the keys on all channels, every voice", "why_tests_cant": "All combinations of held keys on 16 channels.", "anchors": ["surge-scene/src/scene/release_single_triggered.rs: release_single_triggered_mpe_enabled", "surge-scene/src/scene/play_voice_portamento.rs", "surge-scene/src/scene/play_voice.rs"]}
{"id": "C246", "title": "A note can be started", "statement": "Playing a note on a scene starts a voice. (False at this commit: in every mode, on every scene without a held voice, playing a note panics, because building a voice needs an unfinished function.)", "quantifier": "every polyphony mode and limit, every set of voices, every note", "why_tests_cant": "Ranges over every scene state.", "anchors": ["surge-scene/src/scene/play_voice.rs", "surge-scene/src/scene/create.rs: voice_constructor", "surge-scene/src/scene/process.rs: create_voice_runtime", "surge-scene/src/scene/get.rs: modulation_voice"]}
{"id": "C247", "title": "Modulation routings switch their sources on, move their destinations and add up", "statement": "Exactly the sources used by a routing are switched on. A routing moves its destination by depth times the source; several routings of one destination add up; depth 0 does nothing. (False but for the first: no parameter ever reads differently, only the last routing is stored, and it stores the parameter's own position too.)", "quantifier": "every list of routings of any length, every source output, depth and parameter", "why_tests_cant": "Lists of routings of any length.", "anchors": ["surge-scene/src/scene/apply_modulation.rs", "surge-param/src/parameter.rs: set_modulation_val, get_value", "surge-param/src/pval.rs"]}
{"id": "C248", "title": "A parameter of a scene can be set, and leaving latch mode releases the latched note", "statement": "Setting a parameter of a scene to a normalised value sets it; changing the polyphony mode from latch to another releases the latched note. (False: setting any parameter panics, since its old value is read both as an integer and as a truth value; the release is asked for when latch is set again and never when it is left.)", "quantifier": "every parameter, every type, every value, every pair of modes", "why_tests_cant": "Universal over parameters and values.", "anchors": ["surge-scene/src/scene/set.rs: set_parameter01, release_old_notes_if_previous_polymode_was_latch", "surge-param/src/pdata.rs"]}
{"id": "C249", "title": "Solo is exclusive, and the filter offset switch is inaudible", "statement": "For every sequence of solo buttons pressed and released at most one source is soloed; switching the second filter's cutoff between absolute and relative leaves both sounding cutoffs as they were for every pitch and envelope, and switching back restores the parameters.", "quantifier": "every sequence of presses, every parameter setting, pitch and envelope value", "why_tests_cant": "Sequences of any length and real-valued parameters.", "anchors": ["surge-scene/src/scene/modsource.rs: handle_boolsolo, handle_boolrelative_switching", "surge-voice/src/get.rs: get_cutoff_pair"]}
{"id": "C250", "title": "Unison voices are spread in stereo", "statement": "With several unison voices in stereo, every impulse a voice writes reaches the left and the right buffer weighted by that voice's left and right pan gain. This holds for the sample-and-hold oscillator. It is false for the wavetable oscillator, which weights both sides with the left gain, so unison voices are never panned.", "quantifier": "every oscillator state, every sequence of impulses, every parameter setting", "why_tests_cant": "the weights apply to every impulse of an unbounded run; a test looks at one block", "anchors": ["surgeosc-snh/src/convolute.rs", "surgeosc-wavetable/src/convolute/convolute.rs"]}
{"id": "C251", "title": "Voices that have ended leave, the others go on", "statement": "After every block exactly the voices that report their end are gone, and every other voice goes on playing in its place. (False: if two voices end in one block, a voice that is still playing is cut off and an ended one stays, or the program panics; with more than 64 voices it panics; and as the code stands every block panics on unfinished look-ups.)", "quantifier": "every number of voices, every set of voices that end in the block", "why_tests_cant": "All subsets of voices ending together.", "anchors": ["surge-scene/src/scene/process.rs: do_routing_critical_section, process", "surge-synthesizer/src/synth/process.rs"]}
{"id": "C252", "title": "Every block is rendered afresh, and a scene without voices is silent", "statement": "What is heard in a block is what the voices of that block produce; once the last voice has ended and its effects have rung out there is silence. (False: a scene's output buffer is never cleared, so a constant voice adds up block by block without bound, and after the last voice the remains are played for ever.)", "quantifier": "every number of blocks, every output of the voices", "why_tests_cant": "Histories of any number of blocks.", "anchors": ["surge-synthesizer/src/synth/process.rs: process", "surge-scene/src/scene/process.rs"]}
{"id": "C253", "title": "All rendered samples are heard", "statement": "The oversampled output of a sounding scene is clipped and down-sampled, so that every rendered sample contributes. (False: the test for a sounding scene is inverted, so only scenes without voices are down-sampled; the second half of what the voices render is never heard and the first half is played at the oversampled rate.)", "quantifier": "every output of the voices, every state of the engine", "why_tests_cant": "Universal over everything voices can render.", "anchors": ["surge-scene/src/scene/process.rs: playscene, post_process"]}
{"id": "C254", "title": "Effects are applied while a scene sounds", "statement": "While a scene has voices its insert effects, the send effects and the global effects are applied to its sound. (False: the flag that says there is input is inverted, so that effects with a ring-out time are skipped exactly while the scenes sound.)", "quantifier": "every set of effects with a ring-out time, every setting of the bypass and the switches of the slots, every output of the voices", "why_tests_cant": "Ranges over all engine states.", "anchors": ["surge-scene/src/scene/process.rs: playscene", "surge-synthesizer/src/synth/process.rs", "surgefx/src/effect.rs"]}
{"id": "C255", "title": "Each oscillator of a voice is of the type the patch asks for, started and in tune", "statement": "After every history of patch changes each oscillator of a voice is of the type last asked for, has been initialised and set to the pitch of the note; an oscillator that is switched off is silent. (Only the type is right: an oscillator whose type does not change during the note is never initialised; off from the start means a sine; switching one off during a note makes the next block, or the end of the note, panic.)", "quantifier": "every patch at the note on, every later sequence of patches of any length", "why_tests_cant": "Histories of switches of any length, with any combination of solo and mute.", "anchors": ["surge-voice/src/toggle_osc.rs", "surge-voice/src/toggle.rs", "surge-voice/src/init.rs", "surge-voice/src/drop.rs", "surge-voice/src/process.rs"]}
{"id": "C256", "title": "The mixer knobs set the levels of their sources", "statement": "In every block each source sounds at the level of its own knob (the cube of it), gliding from the level before, after any history of the knobs; the pre-filter gain follows its own knob. (False in part: in the first block of a note no source reaches an eighth of its level; the pre-filter gain knob does nothing, the gain is the noise level read as decibels, so the noise knob changes the loudness of everything.)", "quantifier": "every history of the knobs, every source, every sample", "why_tests_cant": "Real-valued knobs and histories of any length.", "anchors": ["surge-voice/src/calc_levels.rs", "surge-voice/src/create.rs: create_voice_osclevels", "surge-math/src/convert.rs: amp_to_linear"]}
{"id": "C257", "title": "A voice's LFOs are those of the patch, and steps retrigger the envelopes", "statement": "The LFOs of a new voice have the parameters of the patch; with a step sequencer in LFO 1 an envelope is retriggered exactly in the blocks that end a step marked for it. (The first part is false: the parameters are always the defaults, and starting such an LFO panics.)", "quantifier": "every patch, every state of the LFO and the envelopes, every step pattern", "why_tests_cant": "All 2^48 trigger masks and all phases.", "anchors": ["surge-voice/src/init_modsource.rs: init_lfos", "surge-voice/src/calc_envelope.rs", "surge-voice/src/calc_lfo.rs"]}
{"id": "C258", "title": "Velocity, pressure and timbre reach the voice", "statement": "During the whole note velocity is the MIDI velocity over 127; release velocity is 0 and after the release the MIDI release velocity over 127; timbre, channel pressure and the pressure of the key are followed in every block. (False for pressure: channel pressure is read once at the note on; key pressure starts each block from the channel's pressure and never arrives: half pressure reads as 0.225; pressure already on the key is ignored at the note on.)", "quantifier": "every velocity, every history of pressures and timbres of any length", "why_tests_cant": "Histories of any length and real values.", "anchors": ["surge-voice/src/init_modsource.rs", "surge-voice/src/calc_modsources.rs", "surge-voice/src/calc_poly_aftertouch.rs", "surge-voice/src/release.rs"]}
{"id": "C259", "title": "A voice keeps its filters from block to block whatever place it has", "statement": "A voice's filter registers, delay lines, write positions and coefficients are handed to its lane of a quad at the start of a block and fetched back after it. Whichever quad and lane the voice is given, whatever was in that quad, and whoever its companions are, its filters after every block - and so after its whole life - are those of a voice playing the same notes alone, and what the quad puts out is the sum of what the voices put out alone.", "quantifier": "all filter configurations, all filters that treat their lanes independently, all sequences of blocks, all placements and companions, all previous contents of the quads", "why_tests_cant": "voices come and go at any moment, so a test fixes one placement history out of unboundedly many", "anchors": ["surge-voice/src/set_qfb.rs", "surge-voice/src/sync_from_qfb.rs", "surge-voice/src/filter.rs", "surge-scene/src/scene/process.rs", "surge-qfunit/src/qf_unit_state.rs"]}
{"id": "C260", "title": "Wave shaping tables give the curves they are filled with", "statement": "Looking up any finite float in the table of the hyperbolic tangent gives tanh of that float within 1/2000, also beyond the ends of the table; looking up the sine gives sin(pi x / 2) within 1/90000 over the whole period that the table holds.", "quantifier": "every finite float (for the sine: every float from -2 to 2 - 1/256), every table whose entries are within one part in 2^23 of the curve", "why_tests_cant": "tests look at grid points or a few inputs; the claim is about all floats, the interpolation error between grid points and all rounding errors", "anchors": ["surge-tables/src/waveshape.rs:init", "surge-tables/src/waveshape.rs:lookup_waveshape", "surge-tables/src/waveshape.rs:lookup_waveshape_warp"]}
{"id": "C261", "title": "The K35 filters solve their feedback loop without a delay", "statement": "Every sample of the clean K35 low-pass and high-pass is exactly one trapezoidal step of the circuit it imitates: two first-order sections with the output fed back, k times, through a third, with no unit delay in the loop. For every pitch, resonance and sample rate the designed coefficients keep the integrator gain, the resonance (at most 1.96, below self-oscillation at 2) and the loop's divisor in their safe ranges.", "quantifier": "all pitches, resonances and rates of at least 17 Hz; all register contents and inputs", "why_tests_cant": "A loop solved with one wrong coefficient still filters and still passes listening tests; exactness is an identity over all states, inputs and settings.", "anchors": ["surgefilter-k35/src/k35.rs: do_lpf, do_hpf, clamped_frequency", "surgefilter-k35/src/coeff.rs: coeff_make", "surgefilter-k35/src/lowpass.rs: process_lp", "surgefilter-k35/src/highpass.rs: process_hp"]}
{"id": "C262", "title": "The K35 filters ring off, and saturation bounds them", "statement": "From every state, at any resonance the designer can make and however the cutoff is swept between two positive limits, the clean K35 low-pass settles on a constant input and the clean high-pass settles to 0. With the saturation fully on, the low-pass output stays within 2.00002 for every input and every modulation of cutoff, resonance and drive, and the high-pass output within 1.00001 divided by the resonance gain. At held settings with any drive, in between as well, both outputs stay within a fixed multiple of what the filter held, the peak of the input, and 1.", "quantifier": "all initial states, all resonances, all cutoff sweeps within positive limits, all input signals", "why_tests_cant": "Stability under sweeping is about infinite runs from every state; a test runs finitely many samples of a few sweeps.", "anchors": ["surgefilter-k35/src/lowpass.rs: process_lp", "surgefilter-k35/src/highpass.rs: process_hp", "surgefilter-k35/src/coeff.rs: coeff_make"]}
{"id": "C263", "title": "The tank of the all-pass reverb is the documented network", "statement": "From silence, for every input and every course of decay, diffusion, damping and modulation, the reverb tank plays exactly this network: four all-passes in series at the input; four segments in a ring, each of two all-passes, a low-pass, a high-pass and a modulated delay line, each hearing the input and the line before it times the decay; left and right the sum of one tap of each line, weighted 0.375, 0.3, 0.25, 0.2.", "quantifier": "all inputs, all parameter histories, all sizes in range", "why_tests_cant": "An impulse test exercises one input at one setting; a wrong tap, weight or path can hide below the diffuse tail.", "anchors": ["surgefx-allpass/src/block.rs: do_allpass_block, do_process_block", "surgefx-allpass/src/process.rs: stereo_process", "surgefx-allpass/src/one_pole_filter.rs"]}
{"id": "C264", "title": "Each oscillator of a voice plays its own note", "statement": "In every block an oscillator is told the note made of the voice's pitch (or middle C if its keyboard switch is off), its octaves and its own detuning, in semitones, octaves or hertz as it is set; it is told of a modulator, with the linear depth, exactly when the FM routing has one; the noise colour never leaves its range.", "quantifier": "all parameter settings, voice pitches and tuning tables; all three oscillators", "why_tests_cant": "All combinations of switches of three oscillators, over all real pitches.", "anchors": ["surge-voice/src/gen_runtime.rs: gen_oscillator_runtime", "surge-voice/src/runtime.rs: gen_process_cfg", "surge-voice/src/do_osc.rs: process_osc", "surge-scene/src/scene/process.rs: create_voice_runtime"]}
{"id": "C265", "title": "A patch name is valid if there is something to read in it", "statement": "`is_valid_patchname` accepts a name exactly when it contains a letter, a digit, a punctuation mark or white space; the empty name is not valid.", "quantifier": "every string", "why_tests_cant": "All strings.", "anchors": ["surge-scene/src/patch/datum.rs: is_valid_patchname"]}
{"id": "C266", "title": "The wave digital section is passive", "statement": "With no input the energy stored in the section never grows, from every state and however its coefficients are modulated among dissipating sections; a fixed strictly dissipating section falls silent; its clip gain stays between 0.1 and 1.", "quantifier": "all states, all courses of coefficients, infinite runs", "why_tests_cant": "Stability over infinite runs from every state.", "anchors": ["surgefilter-iir/src/quad_iir_12_WDF.rs: iir_12_wdf_quad"]}
{"id": "C267", "title": "Parameter arrays hold one value per parameter", "statement": "An array indexed by a parameter enum, as generated for every effect, oscillator, envelope, scene and patch, holds for each parameter exactly the value it was made with or the one stored for it last; storing one parameter changes no other; parameters and their numbers convert into each other without loss and no other number converts; enumerating visits every parameter once with its value, in the order of declaration; mapping, searching and comparing work parameter by parameter; none of it panics.", "quantifier": "every parameter enum without explicit values (all 29 of the code), every initial function, every history of stores", "why_tests_cant": "a test picks one enum and a few writes; this is about every generated array and all histories", "anchors": ["surge-derive/src/synth_parameters.rs: generate_array_type, generate_try_from_impl, generate_count_method", "surge-adsr/src/param.rs: AdsrParam", "surge-scene/src/patch/param.rs"]}
{"id": "C268", "title": "The built-in scales are what their names say", "statement": "Each of the 143 scale texts shipped as constants is a valid Scala scale of the kind in its name: EDp-n divides the interval 1:p into n equal steps, so that every key, any distance up or down, is within 0.000006 cents of its place; HDp a-b and SDp a-b are exactly the harmonics or subharmonics from a to b, repeating at the interval 1:p on every key. The scale offered under the name 432 is the one the name promises.", "quantifier": "all shipped texts, all keys (integers)", "why_tests_cant": "143 texts of up to 48 notes each, and a statement about every key; the crate's tests load none of them, and its own reader cannot", "anchors": ["surge-tuning/src/ed2.rs, ed3.rs, ed4.rs: ED*", "surge-tuning/src/hd2.rs, hd3.rs, hd4.rs: HD*", "surge-tuning/src/sd2.rs, sd3.rs, sd4.rs: SD*", "surge-tuning/src/scale.rs: scale_432"]}
{"id": "C269", "title": "The two power measures of a signal agree", "statement": "For every signal whose length is a power of two, the average power computed from the samples and the average power computed from the spectrum are the same number (Parseval).", "quantifier": "all signals, all lengths that are powers of two", "why_tests_cant": "an identity over all signals; the crate's test compares one measure with itself before and after a filter, and only on noise, whose power it measures to one per cent", "anchors": ["surge-math/src/white_noise.rs: Signal::average_power_time_domain, average_power_freq_domain"]}
{"id": "C270", "title": "The built-in wavetable holds the first sixteen harmonics", "statement": "The bytes of the built-in wavetable are a well-formed table file (mark `vawt`, tables of 64 samples, sixteen of them, sixteen bits each, length as the header says) and table n is exactly one cycle of harmonic n + 1: every sample is the whole number nearest to 16384 times the sine.", "quantifier": "every table and every sample of it", "why_tests_cant": "A test compares samples with a sine computed in floating point; it does not show that each is the nearest whole number to the real sine.", "anchors": ["surge-wavetable/src/initial.rs: BASIC_SINE_WAVE", "surge-wavetable/src/base.rs: load_initial_wavetable"]}
{"id": "C271", "title": "Only meaningful modulation connections are accepted", "statement": "is_valid_modulation accepts a source for a parameter exactly when the parameter is a modulatable real number and the source makes sense for it: sources with a value per note (velocity, key tracking, envelopes, voice LFOs, timbre, release velocity, polyphonic pressure) only for parameters that exist per note, and never for the parameters of an LFO; every modulatable parameter accepts at least the controllers of the scene.", "quantifier": "every parameter of the synthesizer and every source", "why_tests_cant": "The rule is over all pairs of parameter and source, and over parameters as they can come to be (the flag for voice processing).", "anchors": ["surge-synthesizer/src/synth/modunit_query.rs: is_valid_modulation", "surge-modulation/src/source.rs: ModSource", "surge-param/src/parameter.rs: ParamRT::new", "surge-param/src/control_group.rs"]}
