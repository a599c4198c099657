{
 "C01": [
  "proved",
  "i8, i16 and i32 sample types; byte-accurate model of writer and reader on an in-memory stream"
 ],
 "C02": [
  "proved",
  "samples are bit patterns"
 ],
 "C03": [
  "proved",
  "finalize and drop, whole and unfinished frames"
 ],
 "C04": [
  "proved",
  ""
 ],
 "C05": [
  "partial",
  "False of the code: a flush inside a frame returns UnfinishedSample and leaves the stream at the start of the data, so the next sample overwrites the first (C05_midframe_flush_overwrites, for every spec). Proved for histories whose flushes come at frame boundaries."
 ],
 "C06": [
  "proved",
  "crash = any prefix of the later stream that contains the flushed part; torn header rewrites of a later flush are outside the model"
 ],
 "C07": [
  "proved",
  "files written by this crate; integer and float"
 ],
 "C08": [
  "partial",
  "False of the code: panics on a data chunk before fmt and on short clm chunks (two theorems). Proved: without wavetable chunk ids in the bytes the missing-fmt panic is the only one; with a leading fmt chunk there is none."
 ],
 "C09": [
  "proved",
  ""
 ],
 "C10": [
  "proved",
  "also any RIFF size field and any trailing bytes. RIFF pad bytes of odd chunks are not skipped by the code (C10_pad_byte_not_skipped)."
 ],
 "C11": [
  "proved",
  ""
 ],
 "C12": [
  "proved",
  "failed reads are excluded: C12_failed_read_desyncs_seek shows the code goes wrong after one"
 ],
 "C13": [
  "proved",
  ""
 ],
 "C14": [
  "proved",
  "for the two primitives every decoder is built from"
 ],
 "C15": [
  "proved",
  ""
 ],
 "C16": [
  "proved",
  ""
 ],
 "C17": [
  "proved",
  ""
 ],
 "C18": [
  "partial",
  "False of the code in four ways, each a theorem: panics, zero channels accepted, unsupported depth leaves patched bytes on the stream, huge depths overflow. Proved: supported specs give a header the reader recovers."
 ],
 "C19": [
  "proved",
  "histories of accepted and rejected samples, flushes and batches"
 ],
 "C20": [
  "proved",
  "step numbers of 64 and more panic (C20_mute_bad_step_panics)"
 ],
 "C21": [
  "partial",
  "binary32 arithmetic modelled exactly. False of the code: panics for shuffle 0 (the default), and rounding can move the position to 16, after which every call panics (C21_rounding_escapes). Proved for shuffle in (0,1] and no trigger bit above 15."
 ],
 "C22": [
  "proved",
  "relative to the documented round-trip contract of Rust's f32 Display/parse (structure F32Text); integer formatting and parsing are modelled. Probabilities, mutes and position are not stored, as the theorem says."
 ],
 "C23": [
  "proved",
  "binary32 arithmetic including NaN and infinities; bad loops and empty ranges panic (two theorems)"
 ],
 "C38": [
  "proved",
  ""
 ],
 "C39": [
  "partial",
  "False of the code; proved: for every cut after k steps the loaded state is a mixture."
 ],
 "C24": [
  "partial",
  "False of the code: the reader's line buffer is never cleared, so no text at all is read as a usable scale or mapping (C24_no_scale_can_be_loaded, C24_no_mapping_can_be_loaded; exact characterisations for every text in C24_*_reader_exact). UTF-8 text only; tone-value arithmetic is a parameter."
 ],
 "C25": [
  "proved",
  "linear mappings (built-in standard and key-less); exact real arithmetic, f32/f64 rounding of pitches not modelled"
 ],
 "C26": [
  "proved",
  "as C25"
 ],
 "C27": [
  "partial",
  "Index and weight computation is bit-accurate for f32. False of the code below -256 (panic or wrap-around) and from 255 up (reads entry 510 instead of 511): C27_below_table, C27_top_reads_510. Interpolation between neighbours proved for [-256, 255 - 2^-15]; interpolation arithmetic itself is exact."
 ],
 "C40": [
  "partial",
  "False of the code for reference notes outside the first pattern (panic, C40_reference_outside_pattern_panics) and disabled keys sound at half the reference pitch instead of being silent. Proved: C40_mapped_table_partial."
 ],
 "C41": [
  "partial",
  "False of the code for 128 tones or more (panic)."
 ],
 "C42": [
  "partial",
  "False of the code: reset keeps the reference pitch (C42_reset_keeps_reference_pitch). Proved: the flag/table invariant and that going back to the standard keyboard forgets the history."
 ],
 "C43": [
  "partial",
  "False of the code for n2pinv_tuningctr (1/pitch^2 at the centre); proved for n2p_tuningctr."
 ],
 "C28": [
  "partial",
  "False of the code in three ways: replaying a key while its release waits makes the next pedal message panic; without MPE the pedal of channel 0 blocks the waiting releases of all channels; in dual and key split mode the waiting releases all go to scene 0. Proved: conservation of note offs for histories without such replays, nothing is released on a held channel, the queue empties when all pedals are up. Voices are not part of this model: a release is an event."
 ],
 "C29": [
  "partial",
  "False of the code for non-registered parameters: data entry panics, and the MSB is never stored (it overwrites the LSB). Proved for registered parameters, all histories."
 ],
 "C30": [
  "proved",
  "Up to the queued patch number; loading the patch is unimplemented in the code (todo!)."
 ],
 "C31": [
  "partial",
  "False of the code for channel 0 in channel split mode (panic). Proved for every other mode, channel, key, split and MPE setting."
 ],
 "C44": [
  "proved",
  ""
 ],
 "C45": [
  "proved",
  ""
 ],
 "C46": [
  "partial",
  "False of the code for parameters learned from data entry LSB: the number is cut to eight bits (C46_learned_parameter_truncated). Proved for all ordinary controllers."
 ],
 "C47": [
  "partial",
  "False of the code: exactly two kinds of history panic. C47_runs_iff_partial characterises them exactly, in both directions."
 ],
 "C32": [
  "partial",
  "False of the code in three ways, each proved: with no voice in uber-release nothing is freed (C32_limit_not_enforced); with two, a sounding voice is freed instead (C32_frees_the_wrong_voice); or the removal is out of bounds (C32_out_of_bounds). C32_enforce_effect_partial says exactly what is removed; C32_single_uber_partial is the case where the claim about which voice holds."
 ],
 "C48": [
  "partial",
  "False of the code for two or more voices: C48_free_scene_partial proves it works exactly for at most one voice and panics otherwise."
 ],
 "C49": [
  "partial",
  "The choice of voice is proved in full (C49_softkill). Making room needs every voice to be at least one block old; C49_new_voices_not_stolen shows it fails without."
 ],
 "C50": [
  "partial",
  "False of the code: every scene follows the play flag of scene A (C50_latched_release_uses_scene_a). Proved: scenes without a pending release are untouched."
 ],
 "C51": [
  "partial",
  "False of the code: the fallback note is found correctly (C51_fallback_is_highest_partial) but never played (C51_fallback_never_played)."
 ],
 "C33": [
  "partial",
  "Proved in exact arithmetic and, with an explicit error bound, in rounded f32. False of the code for a lag built with Lag::new and a rate: the inverse coefficient keeps its default (C33_lag_new_misses_target)."
 ],
 "C34": [
  "partial",
  "False of the code for large distances: C34_overshoot and C34_diverges give the exact thresholds; proved below them."
 ],
 "C52": [
  "proved",
  "Exact arithmetic over any ordered field."
 ],
 "C53": [
  "partial",
  "False of the code: the ramp variables are passed by value, so every group of 8 samples repeats the first 8 gains and the target is never reached for blocks over 8 samples (C53_block_repeats_first_segment, C53_target_not_reached). C53_ramp_partial is the case where it holds."
 ],
 "C54": [
  "proved",
  "Exact arithmetic over any ordered field."
 ],
 "C37": [
  "partial",
  "False of the code: the tail is always cut at the first block without input, whatever the ring-out length (C37_tail_always_cut). Proved: exactly the blocks with input are processed, over whole histories, and the counter is right."
 ],
 "C55": [
  "partial",
  "False of the code: 'all off' still runs the scene inserts, 'no sends' also stops them (two theorems). C55_slots_run_partial gives, for every mode, exactly which slots run."
 ],
 "C56": [
  "partial",
  "False of the code: the scene copies are never filled, so the sends process antidenormal noise only (C56_sends_hear_nothing)."
 ],
 "C57": [
  "proved",
  "effects are arbitrary state machines; exact arithmetic outside them"
 ],
 "C58": [
  "partial",
  "False of the code: the unrolled loops round the size up and write past the end (C58_writes_past_the_end), and the scratch blocks of process overflow (C58_scratch_block_overflows). Proved for clear and accumulate at every size, for the others at multiples of their unroll factor."
 ],
 "C59": [
  "proved",
  "exact arithmetic"
 ],
 "C60": [
  "partial",
  "False of the code for get_absmax: the mask is the bit pattern of 2147483648.0 (C60_meter_is_blind). Proved for get_absmax_2, on bit patterns."
 ],
 "C61": [
  "proved",
  "f32 with NaN and infinities; NaN passes boundfreq (stated in C61_boundfreq)"
 ],
 "C62": [
  "partial",
  "Proved for softclip_ss/ps/f64; softclip4/8 are monotone, odd and bounded but exceed their nominal level; softclip2_f64 folds over (two theorems)."
 ],
 "C36": [
  "partial",
  "Range, reading and round trip proved for float parameters (all inputs) and range/reading for integer ones. False of the code: boolean parameters panic on construction and setting, integer parameters ignore the value that is set, Nil-typed ones read 0, tempo-synced ones run into undefined behaviour on NaN."
 ],
 "C63": [
  "partial",
  "Proved for all 271 parameters except eight, for all histories; the eight exceptions are proved to fail (six panic when set, two have crossed limits). Tempo-synced parameters: for normalised arguments."
 ],
 "C64": [
  "partial",
  "Proved for every parameter except the filter's type and subtype, which panic (proved)."
 ],
 "C65": [
  "partial",
  "Everything but 'never leaves the range', which is refuted by rounding (60 and 60 mix to 60.000004)."
 ],
 "C66": [
  "partial",
  "Proved from 0 upward; refuted below 0 (panics unless the note is a C)."
 ],
 "C67": [
  "partial",
  "Factor list agrees with can_extend_range; the flags are refuted: setters write fields the getters never read."
 ],
 "C68": [
  "partial",
  "Landing, no-sync and force-integer proved; idempotence for integer limits and assuming powf/log2 accurate to a few per cent at three places."
 ],
 "C35": [
  "partial",
  "proved: along every history of returning calls the stage only moves forward, and each digital stage function stays or moves one stage on; missing (false of the code): release(), uber_release() and every block in digital mode panic because get_output is todo!(), and a block of a fresh envelope panics because its mode is Float(0.5) (C35_release_and_blocks_panic), so the forward moves to Release/UberRelease cannot be made by these calls"
 ],
 "C69": [
  "proved",
  "the release stages are entered through the public set_envstate because release/uber_release panic (C35); 2^x and log2 are arbitrary functions, the speeds are assumed in 0..1 (coef_unit shows this for every finite setting if 2^x is in 0..1 for x<=0); f32 rounding modelled exactly"
 ],
 "C70": [
  "partial",
  "proved for every f32 start phase of size at most 2^24 + 2; proved that for every other finite or infinite one the call never ends (C70_ends_iff_refuted is an exact characterisation over all f32), so the property is false there"
 ],
 "C71": [
  "partial",
  "Proved without release for non-negative stage rates and sustain 0 or 1, and the resting level for usable rates (2^-20..1 per block). Refuted for release: the level jumps up by 1 - rate. Default parameters panic."
 ],
 "C72": [
  "partial",
  "Proved for the shapes sine, triangle, square, ramp, sample&hold, envelope without release, integer or 0..1 deform, any f32 start phase. Refuted for envelope with negative deform and for the noise shape (overshoots to 1.5); get_output always returns 0."
 ],
 "C73": [
  "partial",
  "Order, range, retriggers and held values proved. Equal step times refuted (odd steps run about 100 times too fast); some loop points panic on attack."
 ],
 "C74": [
  "partial",
  "Inputs up to 2^20 (and not-a-number, minus infinity) return; the wave shaper returns for every input. Refuted beyond: e + 1 overflows for inputs of 2^27 (rate), 2^31 (dB), 2^23 (shaped sine) and for infinity."
 ],
 "C75": [
  "partial",
  "Proved inside the table range, with the rounding error bounded. Refuted outside: indices are masked, so the table is read round the corner (128 dB reads as -384 dB) and just below its start it is extrapolated."
 ],
 "C76": [
  "partial",
  "Proved for tables between -1 and 1 and every input. Refuted for the asymmetric shaper, whose first entry is below -19 in exact arithmetic."
 ],
 "C77": [
  "partial",
  "Refuted: the offset argument is ignored; the pointer does stay inside the table."
 ],
 "C78": [
  "partial",
  "Proved for the two float tables. Refuted for the 16-bit table: 16384 is added instead of multiplied, leaving every entry 16383..16385."
 ],
 "C79": [
  "proved",
  "In exact (real) arithmetic; the rounding of the lookup is bounded in C75."
 ],
 "C80": [
  "proved",
  "Disjointness for all inputs; size estimate covers all levels for padding up to 11 (12 for powers of two). C80_empty_wave_panics is an extra finding."
 ],
 "C81": [
  "proved",
  "For all lengths."
 ],
 "C82": [
  "partial",
  "False of the code: each product overwrites the last instead of being added, so one tap remains (C82_one_tap_partial is the exact behaviour). C82_i16_is_decimation and C82_constant_lost refute the property."
 ],
 "C83": [
  "proved",
  "For all buildable dimensions and contents; wrong counts are rejected by a panic (assertion)."
 ],
 "C84": [
  "partial",
  "Successful loads proved end to end from file bytes (C84_load_partial, C84_load_float_partial, C84_recording_partial) and bad loop lengths refused; the never-panics part is false: C84_surplus_panics, C84_stereo_panics, C84_recording_panics, C84_srgo_panics."
 ],
 "C85": [
  "partial",
  "Exact for powers of two; false for other lengths (C85_odd_log): bitscan_reverse counts trailing zeros."
 ],
 "C86": [
  "proved",
  "Kernel contents arbitrary; delay times, filters and feedback that produce the written blocks are inputs. dual delay smoothing (Lag::new(0.0001)) is covered by C33: it misses its target by 2.5 percent."
 ],
 "C87": [
  "proved",
  "Kernel contents, voice times and pan gains arbitrary. Smaller block sizes are outside (copy_block moves 32 floats at a time, see C58)."
 ],
 "C88": [
  "partial",
  "Holds for delays below 8191 samples (C88_interp_delay); longer delays, which the parameters allow at low pitches, wrap around and return newer samples (C88_long_delay_wraps). Reads never fail (C88_read_returns)."
 ],
 "C89": [
  "proved",
  "Kernel-free f32 model of one channel; damping in 0..1; C89_flanger_returns asks delays above -2^30 samples (a -inf delay overflows)."
 ],
 "C90": [
  "partial",
  "Phases, waves, weights and tap place (C90_tap_place) proved; the claim that the sine wave never fails is refuted when the phase lands exactly on 1 (C90_phase_one_panics)."
 ],
 "C91": [
  "partial",
  "Proved over the reals (no rounding) for damping below 1 and delay times of at least 1, with fixed settings (C91_output_envelope, C91_bounded, C91_tail_decays, C91_settings_decay) and with decay time, predelay and pan changed at every sample (C91_automated_*). Refuted at room size 0 with damping 0 (C91_room_zero_unbounded) and at damping 1, where the taps freeze (C91_damping_one_freezes). Missing: f32 rounding, changes of room size and damping during the run."
 ],
 "C92": [
  "proved",
  "Arithmetic abstract, so for f32 as well; predelay 0..32767 in a build with wrapping subtraction (see C93 for the checked build)."
 ],
 "C93": [
  "partial",
  "Presets fit (C93_presets_fit). The predelay is right for 0..32767 samples in a build with wrapping subtraction (C92_reverb_sample); refuted in a checked build (C93_predelay_panics: the default settings panic on the first sample) and for longer predelays (C93_long_predelay_wraps)."
 ],
 "C94": [
  "partial",
  "Exact real arithmetic instead of f64/f32 rounding."
 ],
 "C95": [
  "partial",
  "Exact real arithmetic instead of f64/f32 rounding."
 ],
 "C96": [
  "partial",
  "Bounded output and forgetting are proved for constant coefficients of every design in exact arithmetic; for a glide from any coefficients to a stable design in exact arithmetic (C96_bounded_while_gliding_partial) and with every operation of filter and smoothers rounded (C96_rounded_while_gliding); and with coefficients anywhere within a margin of a stable design, rounded, with explicit constants (C96_rounded_bounded). Missing: designs that change again by more than that margin before the glide has come near, and the rounding inside the computation of the coefficients from cutoff and quality."
 ],
 "C97": [
  "partial",
  "Exact real arithmetic instead of f64/f32 rounding. Every gain in the statement is proved for every cutoff and quality; also those of the second low pass (C97_lp2b_gains) and of the peaking band pass at the cutoff. The peak EQ is C147."
 ],
 "C98": [
  "partial",
  "Exact real arithmetic instead of f64/f32 rounding. For the sample-wise functions (the block functions flush registers below 1e-30)."
 ],
 "C99": [
  "partial",
  "Exact real arithmetic instead of f64/f32 rounding. Proved for the guarded designs; refuted for the band pass (C99_bandpass_explodes)."
 ],
 "C100": [
  "partial",
  "Exact real arithmetic instead of f32 rounding. Rough and medium need complex poles, medium an output within one half (limiter idle). Deviations of fresh units and the unreachable subtype are theorems (C100_fresh_forgets, C100_fresh_medium, C100_svf_panics)."
 ],
 "C101": [
  "partial",
  "Exact real arithmetic instead of f32 rounding. All filters over whole lives of modulation among uniformly stable designs; the two-pole smooth filter, whose halves see different coefficients, only where its margins exceed what a sample's glide can add (C101_smooth_two_modulated_partial), and at fixed coefficients for every stable design (C101_smooth_partial); small-signal statement for the two-pole rough filter."
 ],
 "C102": [
  "partial",
  "Refuted: C102_mirrored shows what the filters are tuned to instead, C102_notch_misplaced and C102_lowpass_open the audible consequence. Integer notes, exact real arithmetic."
 ],
 "C103": [
  "partial",
  "Exact real arithmetic instead of f32 rounding. Integer notes. Proved below a quarter of the oversampled rate with positive damping; refuted above it (C103_unstable) and at full resonance (C103_damping)."
 ],
 "C104": [
  "proved",
  "Exact real arithmetic; the dropped first settings are C104_first_block_silent."
 ],
 "C105": [
  "partial",
  "Exact real arithmetic instead of f32 rounding; fixed coefficients. Boundedness: a multiple of the input where the section is stable (C105_bounded_partial), and K(1 + M) at every cutoff and resonance, self-oscillation included, for both orders (C105_bounded_settings)."
 ],
 "C106": [
  "partial",
  "Exact real arithmetic instead of f32 rounding. C106_bounded holds for every modulation; the exact timing for fixed coefficients."
 ],
 "C107": [
  "proved",
  "Exact real arithmetic for the filter step; settings from any real pitch, period and resonance."
 ],
 "C108": [
  "partial",
  "Exact real arithmetic for the signal path (coefficients are the f32 values). Filters of new(1..6, _) satisfy it; refuted for default() (C108_default_is_no_filter). new(0) and blocks over 256 samples panic (C108_new_iff, C108_oversize)."
 ],
 "C109": [
  "proved",
  "Exact real arithmetic instead of f32 rounding in the signal path."
 ],
 "C110": [
  "proved",
  "Exact real arithmetic instead of f32 rounding in the signal path; the coefficients are the rounded f32 ones."
 ],
 "C111": [
  "partial",
  "Refuted for four of the twelve tables (C111_shortfall); C111_reached proves for every table the rejection it does reach, which is the advertised one for the other eight."
 ],
 "C112": [
  "proved",
  "Exact real arithmetic instead of f32 rounding in the signal path."
 ],
 "C113": [
  "proved",
  "Exact real arithmetic instead of f64 rounding. The need of a first set_rate is C113_untuned."
 ],
 "C114": [
  "proved",
  "Exact real arithmetic instead of f32 rounding."
 ],
 "C115": [
  "partial",
  "Refuted for two of the eight rates (C115_stale); the other six are C115_rates_partial, for any rounding."
 ],
 "C116": [
  "partial",
  "Refuted (C116_no_tempo); what update does with the tempo it holds is C116_update_partial."
 ],
 "C117": [
  "partial",
  "Refuted for the inputs (C117_inputs_overlap, C117_inputs_stale); the outputs are C117_outputs_distinct_partial."
 ],
 "C118": [
  "proved",
  "Exact real arithmetic except for the reciprocal, which is any function within its relative error; integer overflow of the digital shaper beyond 2^31 not modelled."
 ],
 "C119": [
  "partial",
  "Refuted: C119_constant."
 ],
 "C120": [
  "proved",
  "Exact real arithmetic instead of f32 rounding."
 ],
 "C121": [
  "proved",
  "Exact real arithmetic instead of f32 rounding."
 ],
 "C122": [
  "partial",
  "Gain bounds: C122_gain_partial, C122_never_amplifies. The rest is refuted: get_lookahead reads leaf 126 instead of the root, so all samples but those at positions 126 mod 128 are ignored (C122_ignores_refuted, C122_peak_passes_refuted); without init the first gain is 1000 (C122_uninitialised_refuted)."
 ],
 "C123": [
  "partial",
  "Proved in full for builds without debug assertions and, with them, for the six one-signal configurations; stereo and wide panic in debug builds when the sum of all voices reaches 32 (C123_debug_refuted). Exact reals; each filter treats lanes separately (hypothesis built into globals)."
 ],
 "C124": [
  "partial",
  "Proved except the left level of stereo and wide, which moves twice as far as it should (C124_left_overshoots_refuted)."
 ],
 "C125": [
  "proved",
  "Exact real arithmetic; peak gains of the filters are hypotheses."
 ],
 "C126": [
  "proved",
  "Exact real arithmetic."
 ],
 "C127": [
  "partial",
  "Only the first voice of a quad is right (C127_first_voice_partial); refuted for the others (C127_lanes_refuted)."
 ],
 "C128": [
  "partial",
  "Glide proved for histories whose phase is not exactly 1 at the legato note and with a tempo ratio; the code's ratio is todo!() (every block panics) and a legato note at phase exactly 1 fails lerp's assertion."
 ],
 "C129": [
  "partial",
  "Relative mode and whole notes proved; absolute mode drops the fraction of the note, and notes at or below -257 panic (refuted)."
 ],
 "C130": [
  "partial",
  "Left input, and both inputs in the wide path, proved; outside wide the oscillators never reach the right input, a ring-only voice with FM uses a stale modulator, an Off oscillator panics (refuted)."
 ],
 "C131": [
  "proved",
  "Enables and non-interference of disabled sources."
 ],
 "C132": [
  "partial",
  "Law proved for one-signal paths, mirror symmetry for all; channel pan does not move the second signal of stereo/wide (refuted)."
 ],
 "C133": [
  "partial",
  "Formulas proved given a bend source; no voice has one (panic), and key tracking after a switch is wrong (refuted)."
 ],
 "C134": [
  "partial",
  "Proved for the two main filters; switching to wide leaves the twin filters stale (refuted)."
 ],
 "C135": [
  "partial",
  "Proved up to 2^31 blocks; then the age overflows (refuted). Release calls inside the envelope are todo!() (C35)."
 ],
 "C136": [
  "partial",
  "Refuted: the channel source keeps the pressure at note start; the channel pressure goes to the polyphonic source."
 ],
 "C137": [
  "proved",
  "Exact real arithmetic."
 ],
 "C138": [
  "partial",
  "Exact real arithmetic; for rates from 44100 Hz up (below about 43 kHz the top bands are unstable)."
 ],
 "C139": [
  "proved",
  "Exact real arithmetic."
 ],
 "C140": [
  "partial",
  "Exact real arithmetic. Rate and gate may change at any time (the _automated theorems); the band filters (number, places, Q) are fixed during the run."
 ],
 "C141": [
  "proved",
  "f32 rounding of the evaluation is not modelled; the documented error bound 1e-5 is refuted in C141_documented_refuted"
 ],
 "C142": [
  "proved",
  "f32 rounding not modelled; not a limiter: C142_limiter_refuted"
 ],
 "C143": [
  "proved",
  "f32 rounding not modelled; documented range refuted in C143_range_refuted"
 ],
 "C144": [
  "proved",
  "Exact reals, no f32 rounding."
 ],
 "C145": [
  "partial",
  "Exact reals. The frequency part of the claim is refuted (C145_frequency_refuted) and the frequency the code does have is proved (C145_cycles); the other parts are proved."
 ],
 "C146": [
  "partial",
  "Exact reals; the cut filters and the oversampling filters around it are not part of this model. The bound is proved for up to two carriers and refuted for sixteen."
 ],
 "C147": [
  "partial",
  "Exact reals; decibels exact in C147_peak_settings_partial, arbitrary in the others. The response needs the quantity under the first root to be positive: proved for centres up to a quarter of the sample rate, two to four octaves and gains from -18 dB; missing is where else it is (outside it every coefficient is NaN)."
 ],
 "C148": [
  "partial",
  "energy and bound with sweep depth 0 and base, quality constant; the bound also after any past, moving sweeps included, once the sweep is off (C148_bounded_after_sweep_partial); cross-fade for all runs. Missing: the bound while the sweep keeps moving, f32 rounding"
 ],
 "C149": [
  "partial",
  "proved for a step of at most 1 per update; refuted above (reachable: rate 9 at 44.1 kHz moves 2.97 per update), the phase is reduced by 1 only once"
 ],
 "C150": [
  "partial",
  "refuted: the output is made from the first 8 of 32 input samples, and the first half-band filter writes 32 samples past the block"
 ],
 "C151": [
  "partial",
  "stable post filters, any shape bounded by W; also after any automation once the settings behind the shaper stay (C151_bounded_after_automation_partial). Missing: the bound while the post filters keep moving, f32 rounding"
 ],
 "C152": [
  "partial",
  "Proved: every call plays the sample of the set number of calls ago or panics, and exactly when. Refuted: with a constant pre-delay the assertion p > 0 fails on the very sample on which the first echo is due."
 ],
 "C153": [
  "partial",
  "Proved for every input and history of lengths up to 16384, in real arithmetic. Refuted beyond (not reachable below about 135 kHz): the index leaves the buffer. Missing: rounding to f32."
 ],
 "C154": [
  "partial",
  "Proved: totality for all settings, energy bound and decay with fixed lengths and coefficients (the decay itself may move), modulation off. Missing: modulation of the lines, moving lengths, f32."
 ],
 "C155": [
  "partial",
  "Proved for lengths and taps up to 16384 samples, all modulations; all lengths fit up to a product of sample rate and room scale of 91633 Hz. Refuted at 48 kHz and full room size."
 ],
 "C156": [
  "proved",
  "exact reals; unmodulated (see C159 for external FM)"
 ],
 "C157": [
  "partial",
  "refuted: the depth smoothers are made with Lag::new(0.0), whose target weight is 0, so depths fade as 0.996^n and later values are ignored"
 ],
 "C158": [
  "partial",
  "closed form and bound proved; legacy mode passes the negated cosine, so shapes 2 and 3 are swapped"
 ],
 "C159": [
  "partial",
  "refuted for FM and sine (assign_fm is empty, the pointer stays null); FM2 is safe exactly without FM"
 ],
 "C160": [
  "proved",
  "exact reals"
 ],
 "C161": [
  "proved",
  "exact reals; any number of impulses, any placement inside the block, mono and stereo"
 ],
 "C162": [
  "partial",
  "C162_period: a cycle takes exactly two periods whatever the shape; C162_pitch_refuted: in the default tuning the period used is 1/1024 of the note's (ten octaves too high)"
 ],
 "C163": [
  "proved",
  "exact reals with an exact reciprocal (the code's rcp is approximate)"
 ],
 "C164": [
  "partial",
  "proved for relative detuning; C164_absolute_refuted: with absolute detuning a period below 0.1 is replaced by 0 and the block never ends"
 ],
 "C165": [
  "proved",
  "exact reals; morph steady for the run theorems, any place between two tables for C165_ends"
 ],
 "C166": [
  "partial",
  "C166_no_drift, C166_wave proved; C166_scale_refuted: the 16-bit samples are not scaled, so that only their signs are heard"
 ],
 "C167": [
  "partial",
  "C167_in_range; no click within a pair of tables (C167_smooth_partial); C167_clicks_refuted and C167_abort_refuted: crossing a table boundary clicks, and can abort"
 ],
 "C168": [
  "partial",
  "refuted: creation always panics, a single table makes the next impulse panic"
 ],
 "C169": [
  "proved",
  ""
 ],
 "C170": [
  "partial",
  "refuted: left and right are always equal"
 ],
 "C171": [
  "proved",
  "exact real arithmetic, the kernel's values and fm not modelled"
 ],
 "C172": [
  "proved",
  "exact real arithmetic"
 ],
 "C173": [
  "partial",
  "proved from the second block on; refuted before it and when the pitch rises: the sync that is off still restarts the cycle (first level doubled, rising pitch restarts)"
 ],
 "C174": [
  "partial",
  "refuted: the voice count is used in place of the spread"
 ],
 "C175": [
  "proved",
  "ratio < 2^30, tables of 2^k samples with all their levels"
 ],
 "C176": [
  "partial",
  "proved for the formant; refuted for the wave: the new table's address is kept for one sample only, the rest of the block plays the old table"
 ],
 "C177": [
  "proved",
  "the positions, not the reads themselves (C178)"
 ],
 "C178": [
  "partial",
  "refuted: the first sample's value is used as the table's address"
 ],
 "C179": [
  "partial",
  "proved below 4/3 sample per step; refuted above: trailing zeros instead of the highest bit; the tables of a new oscillator have one level and one window, and others panic"
 ],
 "C180": [
  "partial",
  "refuted: always one voice"
 ],
 "C181": [
  "partial",
  "refuted: only the first four samples of a block are heard"
 ],
 "C182": [
  "partial",
  "proved for waves not longer than the window; longer ones panic (usize subtraction)"
 ],
 "C183": [
  "proved",
  ""
 ],
 "C184": [
  "partial",
  "range and fall-off proved; false of the code: the meter mask blinds it below 2.0, and halting freezes it"
 ],
 "C185": [
  "partial",
  "false of the code: input rows are eight bytes apart, so clearing fails with an alignment error and processing inputs performs a misaligned aligned load; the halted path is proved for aligned output buffers"
 ],
 "C186": [
  "partial",
  "false of the code: right sample k is left sample k+2; the oscillator's mixing is proved"
 ],
 "C187": [
  "partial",
  "false of the code: the 40th block after a program change panics; idle behaviour proved"
 ],
 "C188": [
  "partial",
  "false of the code: panics when nothing is queued"
 ],
 "C189": [
  "proved",
  ""
 ],
 "C190": [
  "proved",
  ""
 ],
 "C191": [
  "partial",
  "false of the code: A4 is 432 Hz; temperament proved"
 ],
 "C192": [
  "partial",
  "false during the attack; proved half a second into the note"
 ],
 "C193": [
  "partial",
  "false of the code in three respects; note-on/note-off proved"
 ],
 "C194": [
  "partial",
  "Refuted as stated: init starts the bands at +1 dB (the comment says 0 dB), so the first sample comes out louder; proved that the deviation dies away by 0.996 per sample. Exact real arithmetic."
 ],
 "C195": [
  "partial",
  "Exact real arithmetic; from a fresh effect at constant parameters, and after any automation once the bands stay, output gain still moving (C195_bounded_after_automation_partial). Missing: bands moving for ever, f32 rounding"
 ],
 "C196": [
  "partial",
  "exact real arithmetic, feedback off, constant settings; C196_frequency_shift_partial"
 ],
 "C197": [
  "partial",
  "refuted: the ratio is applied twice, so the right channel gets the square (C197_refuted, C197_squared_partial)"
 ],
 "C198": [
  "partial",
  "refuted in effect: the lag's two coefficients do not add up to one, so that the delay settles on a fortieth of the request (C198_delay_is_a_fortieth), and fractions are lost (C198_fraction_ignored)"
 ],
 "C199": [
  "proved",
  "exact real arithmetic"
 ],
 "C200": [
  "proved",
  "Proved for buffers set through the public field (assign_fm does nothing, C159); the external FM flag of the FM oscillator is constant over the run."
 ],
 "C201": [
  "partial",
  "Refuted: the saturator overwrites the new state with the saturated old one, so the filter is memoryless (C201_memoryless_refuted, C201_lowpass_refuted) and half of the saturator selections panic (C201_saturator_panics_refuted)."
 ],
 "C202": [
  "proved",
  ""
 ],
 "C203": [
  "proved",
  ""
 ],
 "C204": [
  "partial",
  "Refuted: the first arm of ojd_waveshaper reads input <= 1.7 instead of <= -1.7, so below 1.7 there is no feedback at all (C204_no_feedback_refuted) and silence turns into a constant (C204_silence_refuted)."
 ],
 "C205": [
  "partial",
  "Refuted: fastsin is applied outside [-pi, pi] without clamping, where it grows like -26x; a notch at zero resonance diverges after one loud sample (C205_explodes_refuted)."
 ],
 "C206": [
  "proved",
  ""
 ],
 "C207": [
  "partial",
  "Refuted: the code takes all derivatives half a step away, including the last; the error is proved to be between (hc)^2/24 and (hc)^2/12 for every step, i.e. the integrator is of first order."
 ],
 "C208": [
  "proved",
  "The public process_2_pole is proved; the trait's process_quad is todo!() and panics."
 ],
 "C209": [
  "proved",
  "One lane in use; arctan exact."
 ],
 "C210": [
  "partial",
  "Refuted: the tap of sub-type 3 adds the third tap to the fourth."
 ],
 "C211": [
  "partial",
  "Refuted in exact arithmetic: the selector is compared with whole numbers but is faded in from zero and never reaches them. In f32 rounding eventually makes some of the comparisons true (for sub-types 1 and 2 after about 61 blocks); that is not modelled."
 ],
 "C212": [
  "partial",
  "refuted at one cutoff for every sample rate (settled gain 6.5); what was meant is proved for every cutoff and resonance"
 ],
 "C213": [
  "partial",
  "refuted: unstable at zero resonance"
 ],
 "C214": [
  "proved",
  "any coefficient ramp"
 ],
 "C215": [
  "partial",
  "bounded for all inputs and settings; the bound relative to the input only for resonance up to 0.2"
 ],
 "C216": [
  "proved",
  ""
 ],
 "C217": [
  "partial",
  "refuted: always panics with an active voice"
 ],
 "C218": [
  "proved",
  "for the filter with simd_extract supplied"
 ],
 "C219": [
  "proved",
  ""
 ],
 "C220": [
  "partial",
  "complete signal flow, bounds, dry and silence proved for any automation, in exact real arithmetic (no rounding)"
 ],
 "C221": [
  "partial",
  "refuted: do_crossfeed uses the feedback gain; the crossfeed setting has no effect on any output, feedback is always the sum of both channels"
 ],
 "C222": [
  "partial",
  "refuted: Lag::new leaves the complement of the rate at 0.996, so the delay settles at a fortieth of the setting; modulation bound proved"
 ],
 "C223": [
  "proved",
  "exact real arithmetic, cuts constant"
 ],
 "C224": [
  "partial",
  "refuted: process_only_control is todo!(): the first block without input panics"
 ],
 "C225": [
  "proved",
  ""
 ],
 "C226": [
  "partial",
  "The ranges of delay and gain are proved; that the gain never turns negative is refuted (it reaches -0.2)."
 ],
 "C227": [
  "partial",
  "Refuted: it turns 32 times too fast."
 ],
 "C228": [
  "proved",
  ""
 ],
 "C229": [
  "partial",
  "Refuted: the return level is read nowhere, and the horn is always at least 32 samples late."
 ],
 "C230": [
  "partial",
  "Refuted: the row offset is multiplied by 12 before it is truncated."
 ],
 "C231": [
  "partial",
  "Refuted: the filters keep their state."
 ],
 "C232": [
  "proved",
  "exact real arithmetic; parameters arrive converted"
 ],
 "C233": [
  "partial",
  "power, panning and range proved; four places in the cycle refuted: voices 0 and 3 coincide"
 ],
 "C234": [
  "proved",
  "cuts constant; exact real arithmetic"
 ],
 "C235": [
  "partial",
  "refuted: the tail waits"
 ],
 "C236": [
  "proved",
  ""
 ],
 "C237": [
  "partial",
  "refuted"
 ],
 "C238": [
  "proved",
  ""
 ],
 "C239": [
  "partial",
  "the curve's joins proved; straight lines refuted"
 ],
 "C240": [
  "partial",
  "proved for five windows; the symmetric Blackman-Harris window refuted"
 ],
 "C241": [
  "partial",
  "inverses proved; db_to_amp refuted"
 ],
 "C242": [
  "proved",
  ""
 ],
 "C243": [
  "proved",
  ""
 ],
 "C244": [
  "proved",
  "pedal up, one channel, MPE off; the envelope calls inside release are taken to return"
 ],
 "C245": [
  "partial",
  "refuted"
 ],
 "C246": [
  "partial",
  "refuted"
 ],
 "C247": [
  "partial",
  "the switching of sources proved; the rest refuted"
 ],
 "C248": [
  "partial",
  "refuted"
 ],
 "C249": [
  "proved",
  ""
 ],
 "C250": [
  "partial",
  "proved for the sample-and-hold oscillator; refuted for the wavetable oscillator, whose right side uses the left gain"
 ],
 "C251": [
  "partial",
  "Proved when at most one voice ends per block and there are at most 64; refuted when two end, above 64, and for the code as it stands (unfinished look-ups)."
 ],
 "C252": [
  "partial",
  "False at this commit: refuted for every number of blocks (adding up) and after the last voice (drone)."
 ],
 "C253": [
  "partial",
  "False at this commit: two voices engines differing only in the second half of a block sound the same; only silent scenes are down-sampled."
 ],
 "C254": [
  "partial",
  "False at this commit: with every effect ringing out the output is the dry sum of the scenes."
 ],
 "C255": [
  "partial",
  "Proved: the type. Refuted: initialisation, silence of an oscillator that is off, switching off."
 ],
 "C256": [
  "partial",
  "Proved: independence of the knobs, range and rest value in every block after any history. Refuted: full level from the first block, the pre-filter gain knob."
 ],
 "C257": [
  "partial",
  "Proved: the retriggering of both envelopes. Refuted: the parameters of a new voice's LFOs."
 ],
 "C258": [
  "partial",
  "Proved: velocity, release velocity, timbre. Refuted: channel pressure and key pressure."
 ],
 "C259": [
  "partial",
  "Proved for voices whose samples are in their own lanes (at this commit they are not: C127), for filters that treat each lane by itself (the Moog ladder keeps its subtype in lane 0's write position and is left out); the scene's loop is modelled past get_quad_filter_ptr and voice_sync_registers_from_qfb_cfg, which are todo!() in the code."
 ],
 "C260": [
  "proved",
  "f32 lookups against the exact curves; that the platform's tanh and sin in f64, rounded to f32, are within 2^-23 of the curve is a hypothesis on the table."
 ],
 "C261": [
  "proved",
  "k35.rs, coeff.rs, lowpass.rs, highpass.rs in exact arithmetic, one lane. process_quad is todo!() and lowpass.rs, highpass.rs are not modules of the crate; they are modelled as they stand. Saturation 0 (clean) for the circuit identity."
 ],
 "C262": [
  "proved",
  "Clean filters at fixed resonance and swept cutoff; fully saturated ones under any modulation; every drive in between at held settings."
 ],
 "C263": [
  "proved",
  "Sizes held (the effect recomputes them every block from the room size); exact arithmetic. Pre-delay and wet/dry mix are C152."
 ],
 "C264": [
  "partial",
  "false for the keyboard switches of the first two oscillators, which are not read (only the third's is, for all); the rest holds when they agree. Exact arithmetic."
 ],
 "C265": [
  "partial",
  "false of the code: without the x flag the blanks in the pattern are literal, so no name without a blank is accepted, not even the default name; what is accepted is characterised exactly, and is sound"
 ],
 "C266": [
  "proved",
  "exact arithmetic, one lane; the coefficients are those the comments describe, as nothing in the workspace makes them"
 ],
 "C267": [
  "proved",
  "For enums without explicit values, which all 29 are (checked by reading); C267_explicit_value_panics shows the limit."
 ],
 "C268": [
  "partial",
  "Proved for 141 of the 143 texts; refuted for ED2_11 (stray characters before the first comment) and SD4_48_12 (no title line), and for scale_432, which is the 25-part equal division (C268_damaged_refuted, C268_scale_432_refuted). The texts are read by an independent reader of the format; the crate's own loads none (C24)."
 ],
 "C269": [
  "partial",
  "Refuted: the crate dft packs the spectrum of real data, so all frequencies but the lowest and highest are counted once instead of twice; what comes out is half of the power plus half of what lies at those two (C269_power_partial), between half and all of it. The packing of dft 0.5.5 is taken from its documentation."
 ],
 "C270": [
  "proved",
  "The bytes are read by an independent reader of the format; load_initial_wavetable itself is todo!()."
 ],
 "C271": [
  "partial",
  "The exact rule is proved for every parameter and source. Refuted: the flag for voice processing is always true, so effects accept sources that differ per note (C271_shared_refuted); no parameter of an LFO, envelope, scene or the patch accepts anything (C271_closed_refuted)."
 ]
}