{
 "claims": [
  {
   "property": "C01",
   "status": "proved",
   "theorems": [
    "Verif.C01_int_roundtrip",
    "Verif.C01_i16_roundtrip",
    "Verif.C01_i8_roundtrip",
    "Verif.C01_narrow_types_write_same"
   ],
   "note": "i8, i16 and i32 sample types; byte-accurate model of writer and reader on an in-memory stream"
  },
  {
   "property": "C02",
   "status": "proved",
   "theorems": [
    "Verif.C02_float_roundtrip"
   ],
   "note": "samples are bit patterns"
  },
  {
   "property": "C03",
   "status": "proved",
   "theorems": [
    "Verif.C03_header_consistent",
    "Verif.C03_header_consistent_float"
   ],
   "note": "finalize and drop, whole and unfinished frames"
  },
  {
   "property": "C04",
   "status": "proved",
   "theorems": [
    "Verif.C04_reject_or_accept",
    "Verif.C04_reject_i16"
   ],
   "note": ""
  },
  {
   "property": "C05",
   "status": "partial",
   "theorems": [
    "Verif.C05_aux",
    "Verif.C05_flush_transparent_partial",
    "Verif.C05_midframe_flush_overwrites"
   ],
   "note": "False of the code: a flush inside a frame returns UnfinishedSample and leaves the stream at the start of the data, so the next sample overwrites the first (C05_midframe_flush_overwrites, for every spec). Proved for histories whose flushes come at frame boundaries."
  },
  {
   "property": "C06",
   "status": "proved",
   "theorems": [
    "Verif.C06_flushed_survives"
   ],
   "note": "crash = any prefix of the later stream that contains the flushed part; torn header rewrites of a later flush are outside the model"
  },
  {
   "property": "C07",
   "status": "proved",
   "theorems": [
    "Verif.C07_append_eq",
    "Verif.C07_append_eq_float"
   ],
   "note": "files written by this crate; integer and float"
  },
  {
   "property": "C08",
   "status": "partial",
   "theorems": [
    "Verif.C08_open_can_panic_no_fmt",
    "Verif.C08_open_can_panic_short_clm",
    "Verif.C08_only_missing_fmt_panics_partial",
    "Verif.C08_fmt_first_never_panics_partial"
   ],
   "note": "False of the code: panics on a data chunk before fmt and on short clm chunks (two theorems). Proved: without wavetable chunk ids in the bytes the missing-fmt panic is the only one; with a leading fmt chunk there is none."
  },
  {
   "property": "C09",
   "status": "proved",
   "theorems": [
    "Verif.C09_scan_terminates",
    "Verif.C09_open_terminates"
   ],
   "note": ""
  },
  {
   "property": "C10",
   "status": "proved",
   "theorems": [
    "Verif.C10_unknown_chunks",
    "Verif.C10_pad_byte_not_skipped"
   ],
   "note": "also any RIFF size field and any trailing bytes. RIFF pad bytes of odd chunks are not skipped by the code (C10_pad_byte_not_skipped)."
  },
  {
   "property": "C11",
   "status": "proved",
   "theorems": [
    "Verif.C11_accepted_consistent"
   ],
   "note": ""
  },
  {
   "property": "C12",
   "status": "proved",
   "theorems": [
    "Verif.C12_seek_then_read",
    "Verif.C12_failed_read_desyncs_seek"
   ],
   "note": "failed reads are excluded: C12_failed_read_desyncs_seek shows the code goes wrong after one"
  },
  {
   "property": "C13",
   "status": "proved",
   "theorems": [
    "Verif.C13_iterator_exact",
    "Verif.C13_iterator_streams"
   ],
   "note": ""
  },
  {
   "property": "C14",
   "status": "proved",
   "theorems": [
    "Verif.C14_short_reads"
   ],
   "note": "for the two primitives every decoder is built from"
  },
  {
   "property": "C15",
   "status": "proved",
   "theorems": [
    "Verif.C15_batch_eq",
    "Verif.C15_batch_misuse_panics",
    "Verif.C15_wrong_format_panics"
   ],
   "note": ""
  },
  {
   "property": "C16",
   "status": "proved",
   "theorems": [
    "Verif.C16_codec_exact",
    "Verif.C16_too_wide_refused",
    "Verif.C16_offset_bijection",
    "Verif.C16_codec_exact_float"
   ],
   "note": ""
  },
  {
   "property": "C17",
   "status": "proved",
   "theorems": [
    "Verif.C17_unfinished"
   ],
   "note": ""
  },
  {
   "property": "C18",
   "status": "partial",
   "theorems": [
    "Verif.C18_supported_partial",
    "Verif.C18_new_panics",
    "Verif.C18_huge_depth_panics",
    "Verif.C18_unsupported_touches_stream",
    "Verif.C18_zero_channels_accepted"
   ],
   "note": "False of the code in four ways, each a theorem: panics, zero channels accepted, unsupported depth leaves patched bytes on the stream, huge depths overflow. Proved: supported specs give a header the reader recovers."
  },
  {
   "property": "C19",
   "status": "proved",
   "theorems": [
    "Verif.C19_length_bookkeeping"
   ],
   "note": "histories of accepted and rejected samples, flushes and batches"
  },
  {
   "property": "C20",
   "status": "proved",
   "theorems": [
    "Verif.C20_mute_last_op",
    "Verif.C20_mute_only_mask",
    "Verif.C20_mute_bad_step_panics"
   ],
   "note": "step numbers of 64 and more panic (C20_mute_bad_step_panics)"
  },
  {
   "property": "C21",
   "status": "partial",
   "theorems": [
    "Verif.C21_next_step_partial",
    "Verif.C21_runs_forever_partial",
    "Verif.C21_no_shuffle_panics",
    "Verif.C21_rounding_escapes"
   ],
   "note": "binary32 arithmetic modelled exactly. False of the code: panics for shuffle 0 (the default), and rounding can move the position to 16, after which every call panics (C21_rounding_escapes). Proved for shuffle in (0,1] and no trigger bit above 15."
  },
  {
   "property": "C22",
   "status": "proved",
   "theorems": [
    "Verif.C22_save_load"
   ],
   "note": "relative to the documented round-trip contract of Rust's f32 Display/parse (structure F32Text); integer formatting and parsing are modelled. Probabilities, mutes and position are not stored, as the theorem says."
  },
  {
   "property": "C23",
   "status": "proved",
   "theorems": [
    "Verif.C23_swing_range",
    "Verif.C23_swing_value",
    "Verif.C23_swing_bad_loop_panics",
    "Verif.C23_mutate_range",
    "Verif.C23_mutate_empty_range_panics"
   ],
   "note": "binary32 arithmetic including NaN and infinities; bad loops and empty ranges panic (two theorems)"
  },
  {
   "property": "C24",
   "status": "partial",
   "theorems": [
    "Verif.Tuning.C24_scale_reader_exact",
    "Verif.Tuning.C24_no_scale_can_be_loaded",
    "Verif.Tuning.C24_builtin_scale_is_empty",
    "Verif.Tuning.C24_mapping_reader_exact",
    "Verif.Tuning.C24_no_mapping_can_be_loaded",
    "Verif.Tuning.C24_tune_a69_ignores_frequency",
    "Verif.Tuning.C24_tune_a69_effect"
   ],
   "note": "False of the code: the reader's line buffer is never cleared, so no text at all is read as a usable scale or mapping (C24_no_scale_can_be_loaded, C24_no_mapping_can_be_loaded; exact characterisations for every text in C24_*_reader_exact). UTF-8 text only; tone-value arithmetic is a parameter."
  },
  {
   "property": "C25",
   "status": "proved",
   "theorems": [
    "Verif.Tuning.C25_table_contents",
    "Verif.Tuning.C25_retune_periodic",
    "Verif.Tuning.C25_twelve_tone_is_standard"
   ],
   "note": "linear mappings (built-in standard and key-less); exact real arithmetic, f32/f64 rounding of pitches not modelled"
  },
  {
   "property": "C26",
   "status": "proved",
   "theorems": [
    "Verif.Tuning.C26_reference_pitch"
   ],
   "note": "as C25"
  },
  {
   "property": "C27",
   "status": "partial",
   "theorems": [
    "Verif.Tuning.C27_reads_inside_table",
    "Verif.Tuning.C27_lookup_entries",
    "Verif.Tuning.C27_interpolates_partial",
    "Verif.Tuning.C27_top_reads_510",
    "Verif.Tuning.C27_below_table",
    "Verif.Tuning.C27_nonfinite_panics",
    "Verif.Tuning.C27_whole_notes_partial"
   ],
   "note": "Index and weight computation is bit-accurate for f32. False of the code below -256 (panic or wrap-around) and from 255 up (reads entry 510 instead of 511): C27_below_table, C27_top_reads_510. Interpolation between neighbours proved for [-256, 255 - 2^-15]; interpolation arithmetic itself is exact."
  },
  {
   "property": "C28",
   "status": "partial",
   "theorems": [
    "Verif.Midi.C28_conservation_partial",
    "Verif.Midi.C28_nothing_released_while_held",
    "Verif.Midi.C28_pedal_up_flushes_partial",
    "Verif.Midi.C28_pedal_down_defers",
    "Verif.Midi.C28_replay_then_pedal_panics",
    "Verif.Midi.C28_channel0_pedal_blocks_others",
    "Verif.Midi.C28_dual_never_releases_scene1"
   ],
   "note": "False of the code in three ways: replaying a key while its release waits makes the next pedal message panic; without MPE the pedal of channel 0 blocks the waiting releases of all channels; in dual and key split mode the waiting releases all go to scene 0. Proved: conservation of note offs for histories without such replays, nothing is released on a held channel, the queue empties when all pedals are up. Voices are not part of this model: a release is an event."
  },
  {
   "property": "C29",
   "status": "partial",
   "theorems": [
    "Verif.Midi.C29_data_entry_partial",
    "Verif.Midi.C29_changes_only_when_selected",
    "Verif.Midi.C29_nrpn_entry_panics",
    "Verif.Midi.C29_nrpn_msb_lost",
    "Verif.Midi.C29_unselected_entry_sets_range"
   ],
   "note": "False of the code for non-registered parameters: data entry panics, and the MSB is never stored (it overwrites the LSB). Proved for registered parameters, all histories."
  },
  {
   "property": "C30",
   "status": "proved",
   "theorems": [
    "Verif.Midi.C30_patch_queue"
   ],
   "note": "Up to the queued patch number; loading the patch is unimplemented in the code (todo!)."
  },
  {
   "property": "C31",
   "status": "partial",
   "theorems": [
    "Verif.Midi.C31_routing_partial",
    "Verif.Midi.C31_channel_split_channel0_panics",
    "Verif.Midi.C31_pedal_goes_where_notes_go",
    "Verif.Midi.C31_play_scenes"
   ],
   "note": "False of the code for channel 0 in channel split mode (panic). Proved for every other mode, channel, key, split and MPE setting."
  },
  {
   "property": "C32",
   "status": "partial",
   "theorems": [
    "Verif.Scene.C32_single_uber_partial",
    "Verif.Scene.C32_enforce_effect_partial",
    "Verif.Scene.C32_limit_not_enforced",
    "Verif.Scene.C32_frees_the_wrong_voice",
    "Verif.Scene.C32_out_of_bounds"
   ],
   "note": "False of the code in three ways, each proved: with no voice in uber-release nothing is freed (C32_limit_not_enforced); with two, a sounding voice is freed instead (C32_frees_the_wrong_voice); or the removal is out of bounds (C32_out_of_bounds). C32_enforce_effect_partial says exactly what is removed; C32_single_uber_partial is the case where the claim about which voice holds."
  },
  {
   "property": "C33",
   "status": "partial",
   "theorems": [
    "Verif.Smooth.C33_lag_monotone",
    "Verif.Smooth.C33_lag_converges",
    "Verif.Smooth.C33_lag_history",
    "Verif.Smooth.C33_lag_new_misses_target",
    "Verif.Smooth.C33_vlag",
    "Verif.Smooth.C33_lag_setting",
    "Verif.Smooth.C33_vlag_setting",
    "Verif.Smooth.C33_lag_f32"
   ],
   "note": "Proved in exact arithmetic and, with an explicit error bound, in rounded f32. False of the code for a lag built with Lag::new and a rate: the inverse coefficient keeps its default (C33_lag_new_misses_target)."
  },
  {
   "property": "C34",
   "status": "partial",
   "theorems": [
    "Verif.Smooth.C34_target01_roundtrip",
    "Verif.Smooth.C34_changed_flag",
    "Verif.Smooth.C34_monotone_partial",
    "Verif.Smooth.C34_converges_partial",
    "Verif.Smooth.C34_until_close",
    "Verif.Smooth.C34_until_close_finishes_partial",
    "Verif.Smooth.C34_overshoot",
    "Verif.Smooth.C34_diverges",
    "Verif.Smooth.C34_reset_at_rest"
   ],
   "note": "False of the code for large distances: C34_overshoot and C34_diverges give the exact thresholds; proved below them."
  },
  {
   "property": "C35",
   "status": "partial",
   "theorems": [
    "Verif.Adsr.C35_digital_decay_partial",
    "Verif.Adsr.C35_digital_release_partial",
    "Verif.Adsr.C35_stage_only_forward_partial",
    "Verif.Adsr.C35_digital_stages_partial",
    "Verif.Adsr.C35_release_and_blocks_panic",
    "Verif.Adsr.C35_retrigger_partial"
   ],
   "note": "proved: along every history of returning calls the stage only moves forward, and each digital stage function stays or moves one stage on; missing (false of the code): release(), uber_release() and every block in digital mode panic because get_output is todo!(), and a block of a fresh envelope panics because its mode is Float(0.5) (C35_release_and_blocks_panic), so the forward moves to Release/UberRelease cannot be made by these calls"
  },
  {
   "property": "C36",
   "status": "partial",
   "theorems": [
    "Verif.Param.C36_set_float_in_range_partial",
    "Verif.Param.C36_temposync_nan_undefined",
    "Verif.Param.C36_bool_panics",
    "Verif.Param.C36_int_ignores_input",
    "Verif.Param.C36_set_int_in_range_partial",
    "Verif.Param.C36_int_jumps_to_max",
    "Verif.Param.C36_new_in_range_partial",
    "Verif.Param.C36_normalised_float_partial",
    "Verif.Param.C36_normalised_int_partial",
    "Verif.Param.C36_roundtrip_float_partial",
    "Verif.Param.C36_convert_roundtrip_partial",
    "Verif.Param.C36_convert_int_partial",
    "Verif.Param.C36_default_reads",
    "Verif.Param.C36_nil_reads_zero"
   ],
   "note": "Range, reading and round trip proved for float parameters (all inputs) and range/reading for integer ones. False of the code: boolean parameters panic on construction and setting, integer parameters ignore the value that is set, Nil-typed ones read 0, tempo-synced ones run into undefined behaviour on NaN."
  },
  {
   "property": "C37",
   "status": "partial",
   "theorems": [
    "Verif.Fx.C37_input_processed_partial",
    "Verif.Fx.C37_finished_skipped_partial",
    "Verif.Fx.C37_tail_always_cut",
    "Verif.Fx.C37_off_always_processed_partial",
    "Verif.Fx.C37_history_partial"
   ],
   "note": "False of the code: the tail is always cut at the first block without input, whatever the ring-out length (C37_tail_always_cut). Proved: exactly the blocks with input are processed, over whole histories, and the counter is right."
  },
  {
   "property": "C38",
   "status": "proved",
   "theorems": [
    "Verif.C38_store_last_write"
   ],
   "note": ""
  },
  {
   "property": "C39",
   "status": "partial",
   "theorems": [
    "Verif.C39_interrupted_save_mixes"
   ],
   "note": "False of the code; proved: for every cut after k steps the loaded state is a mixture."
  },
  {
   "property": "C40",
   "status": "partial",
   "theorems": [
    "Verif.Tuning.C40_mapped_table_partial",
    "Verif.Tuning.C40_reference_outside_pattern_panics"
   ],
   "note": "False of the code for reference notes outside the first pattern (panic, C40_reference_outside_pattern_panics) and disabled keys sound at half the reference pitch instead of being silent. Proved: C40_mapped_table_partial."
  },
  {
   "property": "C41",
   "status": "partial",
   "theorems": [
    "Verif.Tuning.C41_scale_count_partial",
    "Verif.Tuning.C41_long_scale_panics"
   ],
   "note": "False of the code for 128 tones or more (panic)."
  },
  {
   "property": "C42",
   "status": "partial",
   "theorems": [
    "Verif.Tuning.C42_standard_flag_means_standard_tables",
    "Verif.Tuning.C42_standard_keyboard_forgets_history_partial",
    "Verif.Tuning.C42_reset_keeps_reference_pitch",
    "Verif.Tuning.C42_uninitialised_tables_are_zero"
   ],
   "note": "False of the code: reset keeps the reference pitch (C42_reset_keeps_reference_pitch). Proved: the flag/table invariant and that going back to the standard keyboard forgets the history."
  },
  {
   "property": "C43",
   "status": "partial",
   "theorems": [
    "Verif.Tuning.C43_tuning_centre_partial"
   ],
   "note": "False of the code for n2pinv_tuningctr (1/pitch^2 at the centre); proved for n2p_tuningctr."
  },
  {
   "property": "C44",
   "status": "proved",
   "theorems": [
    "Verif.Midi.C44_pitch_bend"
   ],
   "note": ""
  },
  {
   "property": "C45",
   "status": "proved",
   "theorems": [
    "Verif.Midi.C45_pressure_and_wheel"
   ],
   "note": ""
  },
  {
   "property": "C46",
   "status": "partial",
   "theorems": [
    "Verif.Midi.C46_learn_partial",
    "Verif.Midi.C46_learned_parameter_truncated"
   ],
   "note": "False of the code for parameters learned from data entry LSB: the number is cut to eight bits (C46_learned_parameter_truncated). Proved for all ordinary controllers."
  },
  {
   "property": "C47",
   "status": "partial",
   "theorems": [
    "Verif.Midi.C47_runs_iff_partial"
   ],
   "note": "False of the code: exactly two kinds of history panic. C47_runs_iff_partial characterises them exactly, in both directions."
  },
  {
   "property": "C48",
   "status": "partial",
   "theorems": [
    "Verif.Scene.C48_free_scene_partial"
   ],
   "note": "False of the code for two or more voices: C48_free_scene_partial proves it works exactly for at most one voice and panics otherwise."
  },
  {
   "property": "C49",
   "status": "partial",
   "theorems": [
    "Verif.Scene.C49_softkill",
    "Verif.Scene.C49_room_for_new_voice_partial",
    "Verif.Scene.C49_new_voices_not_stolen",
    "Verif.Scene.C49_make_room_partial"
   ],
   "note": "The choice of voice is proved in full (C49_softkill). Making room needs every voice to be at least one block old; C49_new_voices_not_stolen shows it fails without."
  },
  {
   "property": "C50",
   "status": "partial",
   "theorems": [
    "Verif.Scene.C50_latched_release_uses_scene_a",
    "Verif.Scene.C50_no_pending_release_partial"
   ],
   "note": "False of the code: every scene follows the play flag of scene A (C50_latched_release_uses_scene_a). Proved: scenes without a pending release are untouched."
  },
  {
   "property": "C51",
   "status": "partial",
   "theorems": [
    "Verif.Scene.C51_fallback_is_highest_partial",
    "Verif.Scene.C51_fallback_never_played",
    "Verif.Scene.C51_other_key_untouched_partial",
    "Verif.Scene.C51_mpe_fallback_partial",
    "Verif.Scene.C51_voice_released_partial"
   ],
   "note": "False of the code: the fallback note is found correctly (C51_fallback_is_highest_partial) but never played (C51_fallback_never_played)."
  },
  {
   "property": "C52",
   "status": "proved",
   "theorems": [
    "Verif.Smooth.C52_line",
    "Verif.Smooth.C52_blocks_join",
    "Verif.Smooth.C52_blocksize",
    "Verif.Smooth.C52_instantize"
   ],
   "note": "Exact arithmetic over any ordered field."
  },
  {
   "property": "C53",
   "status": "partial",
   "theorems": [
    "Verif.Smooth.C53_block_repeats_first_segment",
    "Verif.Smooth.C53_target_not_reached",
    "Verif.Smooth.C53_ramp_partial",
    "Verif.Smooth.C53_smoothed_target",
    "Verif.Smooth.C53_instant"
   ],
   "note": "False of the code: the ramp variables are passed by value, so every group of 8 samples repeats the first 8 gains and the target is never reached for blocks over 8 samples (C53_block_repeats_first_segment, C53_target_not_reached). C53_ramp_partial is the case where it holds."
  },
  {
   "property": "C54",
   "status": "proved",
   "theorems": [
    "Verif.Smooth.C54_pan",
    "Verif.Smooth.C54_pan_preserves_sum"
   ],
   "note": "Exact arithmetic over any ordered field."
  },
  {
   "property": "C55",
   "status": "partial",
   "theorems": [
    "Verif.Fx.C55_slots_run_partial",
    "Verif.Fx.C55_bypass_partial",
    "Verif.Fx.C55_disabled_slot_untouched",
    "Verif.Fx.C55_all_off_still_runs_inserts",
    "Verif.Fx.C55_no_send_skips_inserts"
   ],
   "note": "False of the code: 'all off' still runs the scene inserts, 'no sends' also stops them (two theorems). C55_slots_run_partial gives, for every mode, exactly which slots run."
  },
  {
   "property": "C56",
   "status": "partial",
   "theorems": [
    "Verif.Fx.C56_sends_hear_nothing"
   ],
   "note": "False of the code: the scene copies are never filled, so the sends process antidenormal noise only (C56_sends_hear_nothing)."
  },
  {
   "property": "C57",
   "status": "proved",
   "theorems": [
    "Verif.Fx.C57_inserts_isolated",
    "Verif.Fx.C57_dry_sum",
    "Verif.Fx.C57_series"
   ],
   "note": "effects are arbitrary state machines; exact arithmetic outside them"
  },
  {
   "property": "C58",
   "status": "partial",
   "theorems": [
    "Verif.Dsp.C58_clear",
    "Verif.Dsp.C58_accumulate",
    "Verif.Dsp.C58_unrolled_partial",
    "Verif.Dsp.C58_writes_past_the_end",
    "Verif.Dsp.C58_scratch_block_overflows"
   ],
   "note": "False of the code: the unrolled loops round the size up and write past the end (C58_writes_past_the_end), and the scratch blocks of process overflow (C58_scratch_block_overflows). Proved for clear and accumulate at every size, for the others at multiples of their unroll factor."
  },
  {
   "property": "C59",
   "status": "proved",
   "theorems": [
    "Verif.Dsp.C59_mid_side_roundtrip",
    "Verif.Dsp.C59_mono_has_no_side"
   ],
   "note": "exact arithmetic"
  },
  {
   "property": "C60",
   "status": "partial",
   "theorems": [
    "Verif.Dsp.C60_absmax2_partial",
    "Verif.Dsp.C60_meter_is_blind"
   ],
   "note": "False of the code for get_absmax: the mask is the bit pattern of 2147483648.0 (C60_meter_is_blind). Proved for get_absmax_2, on bit patterns."
  },
  {
   "property": "C61",
   "status": "proved",
   "theorems": [
    "Verif.Dsp.C61_hardclip",
    "Verif.Dsp.C61_hardclip_block",
    "Verif.Dsp.C61_limit_range",
    "Verif.Dsp.C61_clamp01",
    "Verif.Dsp.C61_limit_range_int",
    "Verif.Dsp.C61_boundfreq"
   ],
   "note": "f32 with NaN and infinities; NaN passes boundfreq (stated in C61_boundfreq)"
  },
  {
   "property": "C62",
   "status": "partial",
   "theorems": [
    "Verif.Dsp.C62_softclip_partial",
    "Verif.Dsp.C62_softclip2_folds_over",
    "Verif.Dsp.C62_wide_clippers_exceed"
   ],
   "note": "Proved for softclip_ss/ps/f64; softclip4/8 are monotone, odd and bounded but exceed their nominal level; softclip2_f64 folds over (two theorems)."
  },
  {
   "property": "C63",
   "status": "partial",
   "theorems": [
    "Verif.Param.C63_every_parameter_stays_in_range_partial",
    "Verif.Param.C63_every_reading_normalised_partial",
    "Verif.Param.C63_crossed_limits_stuck",
    "Verif.Param.C63_mixed_kinds_panic",
    "Verif.Param.C63_empty_range_reads_nan"
   ],
   "note": "Proved for all 271 parameters except eight, for all histories; the eight exceptions are proved to fail (six panic when set, two have crossed limits). Tempo-synced parameters: for normalised arguments."
  },
  {
   "property": "C64",
   "status": "partial",
   "theorems": [
    "Verif.Param.C64_handle_in_range_partial",
    "Verif.Param.C64_handle_roundtrip_partial",
    "Verif.Param.C64_every_handle_partial",
    "Verif.Param.C64_filter_type_panics"
   ],
   "note": "Proved for every parameter except the filter's type and subtype, which panic (proved)."
  },
  {
   "property": "C65",
   "status": "partial",
   "theorems": [
    "Verif.Param.C65_morph_float",
    "Verif.Param.C65_morph_other",
    "Verif.Param.C65_morph_alt",
    "Verif.Param.C65_leaves_range"
   ],
   "note": "Everything but 'never leaves the range', which is refuted by rounding (60 and 60 mix to 60.000004)."
  },
  {
   "property": "C66",
   "status": "partial",
   "theorems": [
    "Verif.Param.C66_note_names_partial",
    "Verif.Param.C66_negative_notes"
   ],
   "note": "Proved from 0 upward; refuted below 0 (panics unless the note is a C)."
  },
  {
   "property": "C67",
   "status": "partial",
   "theorems": [
    "Verif.Param.C67_can_extend",
    "Verif.Param.C67_flags_have_no_effect"
   ],
   "note": "Factor list agrees with can_extend_range; the flags are refuted: setters write fields the getters never read."
  },
  {
   "property": "C68",
   "status": "partial",
   "theorems": [
    "Verif.Param.C68_sync_lands",
    "Verif.Param.C68_no_sync",
    "Verif.Param.C68_sync_idempotent_partial",
    "Verif.Param.C68_force_integer_wins"
   ],
   "note": "Landing, no-sync and force-integer proved; idempotence for integer limits and assuming powf/log2 accurate to a few per cent at three places."
  },
  {
   "property": "C69",
   "status": "proved",
   "theorems": [
    "Verif.Adsr.C69_output_bounded",
    "Verif.Adsr.C69_block_returns",
    "Verif.Adsr.C69_attack_rises",
    "Verif.Adsr.C69_decay_latched",
    "Verif.Adsr.C69_decay_to_sustain",
    "Verif.Adsr.C69_release_falls",
    "Verif.Adsr.C69_uber_release_stops",
    "Verif.Adsr.C69_idle_stays",
    "Verif.Adsr.C69_release_terminates"
   ],
   "note": "the release stages are entered through the public set_envstate because release/uber_release panic (C35); 2^x and log2 are arbitrary functions, the speeds are assumed in 0..1 (coef_unit shows this for every finite setting if 2^x is in 0..1 for x<=0); f32 rounding modelled exactly"
  },
  {
   "property": "C70",
   "status": "partial",
   "theorems": [
    "Verif.Lfo.C70_start_phase",
    "Verif.Lfo.C70_ends_iff_refuted",
    "Verif.Lfo.C70_once"
   ],
   "note": "proved for every f32 start phase of size at most 2^24 + 2; proved that for every other finite or infinite one the call never ends (C70_ends_iff_refuted is an exact characterisation over all f32), so the property is false there"
  },
  {
   "property": "C71",
   "status": "partial",
   "theorems": [
    "Verif.Lfo.C71_level_unit_partial",
    "Verif.Lfo.C71_stage_order",
    "Verif.Lfo.C71_rests_at_sustain_partial",
    "Verif.Lfo.C71_release_rests_at_zero_partial",
    "Verif.Lfo.C71_release_at_max_ignored",
    "Verif.Lfo.C71_release_jumps_up",
    "Verif.Lfo.C71_default_panics"
   ],
   "note": "Proved without release for non-negative stage rates and sustain 0 or 1, and the resting level for usable rates (2^-20..1 per block). Refuted for release: the level jumps up by 1 - rate. Default parameters panic."
  },
  {
   "property": "C72",
   "status": "partial",
   "theorems": [
    "Verif.Lfo.C72_phase_and_output_partial",
    "Verif.Lfo.C72_unipolar_partial",
    "Verif.Lfo.C72_delivers_zero",
    "Verif.Lfo.C72_envelope_exceeds_one",
    "Verif.Lfo.C72_noise_overshoots_refuted",
    "Verif.Tables.C72_sine_table"
   ],
   "note": "Proved for the shapes sine, triangle, square, ramp, sample&hold, envelope without release, integer or 0..1 deform, any f32 start phase. Refuted for envelope with negative deform and for the noise shape (overshoots to 1.5); get_output always returns 0."
  },
  {
   "property": "C73",
   "status": "partial",
   "theorems": [
    "Verif.Lfo.C73_step_in_range",
    "Verif.Lfo.C73_retriggers",
    "Verif.Lfo.C73_attack_plays_first",
    "Verif.Lfo.C73_attack_plays",
    "Verif.Lfo.C73_step_speed",
    "Verif.Lfo.C73_plays_in_order",
    "Verif.Lfo.C73_holds_step",
    "Verif.Lfo.C73_odd_steps_race",
    "Verif.Lfo.C73_loop_panics"
   ],
   "note": "Order, range, retriggers and held values proved. Equal step times refuted (odd steps run about 100 times too fast); some loop points panic on attack."
  },
  {
   "property": "C74",
   "status": "partial",
   "theorems": [
    "Verif.Tables.C74_lookups_return_partial",
    "Verif.Tables.C74_waveshaper_returns",
    "Verif.Tables.C74_large_inputs_panic"
   ],
   "note": "Inputs up to 2^20 (and not-a-number, minus infinity) return; the wave shaper returns for every input. Refuted beyond: e + 1 overflows for inputs of 2^27 (rate), 2^31 (dB), 2^23 (shaped sine) and for infinity."
  },
  {
   "property": "C75",
   "status": "partial",
   "theorems": [
    "Verif.Tables.C75_rate_partial",
    "Verif.Tables.C75_gain_partial",
    "Verif.Tables.C75_wraps_around",
    "Verif.Tables.C75_below_extrapolates"
   ],
   "note": "Proved inside the table range, with the rounding error bounded. Refuted outside: indices are masked, so the table is read round the corner (128 dB reads as -384 dB) and just below its start it is extrapolated."
  },
  {
   "property": "C76",
   "status": "partial",
   "theorems": [
    "Verif.Tables.C76_waveshaper_bounded",
    "Verif.Tables.C76_warp_bounded",
    "Verif.Tables.C76_asym_exceeds"
   ],
   "note": "Proved for tables between -1 and 1 and every input. Refuted for the asymmetric shaper, whose first entry is below -19 in exact arithmetic."
  },
  {
   "property": "C77",
   "status": "partial",
   "theorems": [
    "Verif.Tables.C77_offset_ignored",
    "Verif.Tables.C77_pointer_in_table_partial"
   ],
   "note": "Refuted: the offset argument is ignored; the pointer does stay inside the table."
  },
  {
   "property": "C78",
   "status": "partial",
   "theorems": [
    "Verif.Tables.C78_kernels_filled_partial",
    "Verif.Tables.C78_i16_kernel_flat"
   ],
   "note": "Proved for the two float tables. Refuted for the 16-bit table: 16384 is added instead of multiplied, leaving every entry 16383..16385."
  },
  {
   "property": "C79",
   "status": "proved",
   "theorems": [
    "Verif.Tables.C79_gain_accurate",
    "Verif.Tables.C79_gain_rises"
   ],
   "note": "In exact (real) arithmetic; the rounding of the lookup is bounded in C75."
  },
  {
   "property": "C80",
   "status": "proved",
   "theorems": [
    "Verif.Wavetable.C80_regions_disjoint",
    "Verif.Wavetable.C80_size_estimate_covers",
    "Verif.Wavetable.C80_empty_wave_panics"
   ],
   "note": "Disjointness for all inputs; size estimate covers all levels for padding up to 11 (12 for powers of two). C80_empty_wave_panics is an extra finding."
  },
  {
   "property": "C81",
   "status": "proved",
   "theorems": [
    "Verif.Wavetable.C81_levels_least",
    "Verif.Wavetable.C81_levels_nonempty",
    "Verif.Wavetable.C81_levels_pow2"
   ],
   "note": "For all lengths."
  },
  {
   "property": "C82",
   "status": "partial",
   "theorems": [
    "Verif.Wavetable.C82_one_tap_partial",
    "Verif.Wavetable.C82_i16_is_decimation",
    "Verif.Wavetable.C82_constant_lost"
   ],
   "note": "False of the code: each product overwrites the last instead of being added, so one tap remains (C82_one_tap_partial is the exact behaviour). C82_i16_is_decimation and C82_constant_lost refute the property."
  },
  {
   "property": "C83",
   "status": "proved",
   "theorems": [
    "Verif.Wavetable.C83_base_level_exact",
    "Verif.Wavetable.C83_tail_silent",
    "Verif.Wavetable.C83_wrong_count_panics",
    "Verif.Wavetable.C83_few_waves_panics"
   ],
   "note": "For all buildable dimensions and contents; wrong counts are rejected by a panic (assertion)."
  },
  {
   "property": "C84",
   "status": "partial",
   "theorems": [
    "Verif.Wavetable.C84_load_partial",
    "Verif.Wavetable.C84_load_float_partial",
    "Verif.Wavetable.C84_surplus_panics",
    "Verif.Wavetable.C84_stereo_panics",
    "Verif.Wavetable.C84_bad_loop_refused",
    "Verif.Wavetable.C84_recording_partial",
    "Verif.Wavetable.C84_recording_panics",
    "Verif.Wavetable.C84_srgo_panics"
   ],
   "note": "Successful loads proved end to end from file bytes (C84_load_partial, C84_load_float_partial, C84_recording_partial) and bad loop lengths refused; the never-panics part is false: C84_surplus_panics, C84_stereo_panics, C84_recording_panics, C84_srgo_panics."
  },
  {
   "property": "C85",
   "status": "partial",
   "theorems": [
    "Verif.Wavetable.C85_pow2_exact",
    "Verif.Wavetable.C85_odd_log"
   ],
   "note": "Exact for powers of two; false for other lengths (C85_odd_log): bitscan_reverse counts trailing zeros."
  },
  {
   "property": "C86",
   "status": "proved",
   "theorems": [
    "Verif.Delay.C86_dual_delay_reads_history",
    "Verif.Delay.C86_causal",
    "Verif.Delay.C86_write_in_bounds"
   ],
   "note": "Kernel contents arbitrary; delay times, filters and feedback that produce the written blocks are inputs. dual delay smoothing (Lag::new(0.0001)) is covered by C33: it misses its target by 2.5 percent."
  },
  {
   "property": "C87",
   "status": "proved",
   "theorems": [
    "Verif.Delay.C87_chorus_reads_history"
   ],
   "note": "Kernel contents, voice times and pan gains arbitrary. Smaller block sizes are outside (copy_block moves 32 floats at a time, see C58)."
  },
  {
   "property": "C88",
   "status": "partial",
   "theorems": [
    "Verif.Flanger.C88_interp_delay",
    "Verif.Flanger.C88_long_delay_wraps",
    "Verif.Flanger.C88_read_returns"
   ],
   "note": "Holds for delays below 8191 samples (C88_interp_delay); longer delays, which the parameters allow at low pitches, wrap around and return newer samples (C88_long_delay_wraps). Reads never fail (C88_read_returns)."
  },
  {
   "property": "C89",
   "status": "proved",
   "theorems": [
    "Verif.Flanger.C89_flanger_bounded",
    "Verif.Flanger.C89_flanger_returns",
    "Verif.Flanger.C89_sample"
   ],
   "note": "Kernel-free f32 model of one channel; damping in 0..1; C89_flanger_returns asks delays above -2^30 samples (a -inf delay overflows)."
  },
  {
   "property": "C90",
   "status": "partial",
   "theorems": [
    "Verif.Flanger.C90_longphase",
    "Verif.Flanger.C90_phase",
    "Verif.Flanger.C90_oscillator",
    "Verif.Flanger.C90_phase_one_panics",
    "Verif.Flanger.C90_voice_weights",
    "Verif.Flanger.C90_arp_weights",
    "Verif.Flanger.C90_tap_place"
   ],
   "note": "Phases, waves, weights and tap place (C90_tap_place) proved; the claim that the sine wave never fails is refuted when the phase lands exactly on 1 (C90_phase_one_panics)."
  },
  {
   "property": "C91",
   "status": "partial",
   "theorems": [
    "Verif.Reverb.C91_automated_envelope",
    "Verif.Reverb.C91_automated_bounded",
    "Verif.Reverb.C91_automated_settings",
    "Verif.Reverb.C91_output_envelope",
    "Verif.Reverb.C91_bounded",
    "Verif.Reverb.C91_tail_decays",
    "Verif.Reverb.C91_decays",
    "Verif.Reverb.C91_settings_decay",
    "Verif.Reverb.C91_pan_power",
    "Verif.Reverb.C91_room_zero_unbounded",
    "Verif.Reverb.C91_damping_one_freezes"
   ],
   "note": "Proved over the reals (no rounding) for damping below 1 and delay times of at least 1, with fixed settings (C91_output_envelope, C91_bounded, C91_tail_decays, C91_settings_decay) and with decay time, predelay and pan changed at every sample (C91_automated_*). Refuted at room size 0 with damping 0 (C91_room_zero_unbounded) and at damping 1, where the taps freeze (C91_damping_one_freezes). Missing: f32 rounding, changes of room size and damping during the run."
  },
  {
   "property": "C92",
   "status": "proved",
   "theorems": [
    "Verif.Reverb.C92_reverb_sample",
    "Verif.Reverb.C92_reverb_run"
   ],
   "note": "Arithmetic abstract, so for f32 as well; predelay 0..32767 in a build with wrapping subtraction (see C93 for the checked build)."
  },
  {
   "property": "C93",
   "status": "partial",
   "theorems": [
    "Verif.Reverb.C93_predelay_panics",
    "Verif.Reverb.C93_presets_fit",
    "Verif.Reverb.C93_long_predelay_wraps"
   ],
   "note": "Presets fit (C93_presets_fit). The predelay is right for 0..32767 samples in a build with wrapping subtraction (C92_reverb_sample); refuted in a checked build (C93_predelay_panics: the default settings panic on the first sample) and for longer predelays (C93_long_predelay_wraps)."
  },
  {
   "property": "C94",
   "status": "partial",
   "theorems": [
    "Verif.Biquad.C94_difference_equation_partial",
    "Verif.Biquad.C94_constant_coefficients_partial"
   ],
   "note": "Exact real arithmetic instead of f64/f32 rounding."
  },
  {
   "property": "C95",
   "status": "partial",
   "theorems": [
    "Verif.Biquad.C95_glide_partial",
    "Verif.Biquad.C95_first_is_immediate",
    "Verif.Biquad.C95_instantize",
    "Verif.Biquad.C95_no_overshoot_partial"
   ],
   "note": "Exact real arithmetic instead of f64/f32 rounding."
  },
  {
   "property": "C96",
   "status": "partial",
   "theorems": [
    "Verif.Biquad.C96_bounded_output_partial",
    "Verif.Biquad.C96_glide_stays_stable",
    "Verif.Biquad.C96_bounded_while_gliding_partial",
    "Verif.Biquad.C96_rounded_bounded",
    "Verif.Biquad.C96_rounded_while_gliding"
   ],
   "note": "Bounded output and forgetting are proved for constant coefficients of every design in exact arithmetic; for a glide from any coefficients to a stable design in exact arithmetic (C96_bounded_while_gliding_partial) and with every operation of filter and smoothers rounded (C96_rounded_while_gliding); and with coefficients anywhere within a margin of a stable design, rounded, with explicit constants (C96_rounded_bounded). Missing: designs that change again by more than that margin before the glide has come near, and the rounding inside the computation of the coefficients from cutoff and quality."
  },
  {
   "property": "C97",
   "status": "partial",
   "theorems": [
    "Verif.Biquad.C97_response_partial",
    "Verif.Biquad.C97_lowpass_partial",
    "Verif.Biquad.C97_highpass_partial",
    "Verif.Biquad.C97_no_gain_partial",
    "Verif.Biquad.C97_bandpass_partial",
    "Verif.Biquad.C97_allpass_partial",
    "Verif.Biquad.C97_notch_partial",
    "Verif.Biquad.C97_lp2b_partial",
    "Verif.Biquad.C97_pka_partial",
    "Verif.Biquad.C97_lp2b_gains"
   ],
   "note": "Exact real arithmetic instead of f64/f32 rounding. Every gain in the statement is proved for every cutoff and quality; also those of the second low pass (C97_lp2b_gains) and of the peaking band pass at the cutoff. The peak EQ is C147."
  },
  {
   "property": "C98",
   "status": "partial",
   "theorems": [
    "Verif.Biquad.C98_allpass_energy_partial"
   ],
   "note": "Exact real arithmetic instead of f64/f32 rounding. For the sample-wise functions (the block functions flush registers below 1e-30)."
  },
  {
   "property": "C99",
   "status": "partial",
   "theorems": [
    "Verif.Biquad.C99_guarded_partial",
    "Verif.Biquad.C99_bandpass_explodes",
    "Verif.Biquad.C99_morph_ignored"
   ],
   "note": "Exact real arithmetic instead of f64/f32 rounding. Proved for the guarded designs; refuted for the band pass (C99_bandpass_explodes)."
  },
  {
   "property": "C100",
   "status": "partial",
   "theorems": [
    "Verif.Filters.C100_biquad_partial",
    "Verif.Filters.C100_svf_panics",
    "Verif.Filters.C100_fresh_forgets",
    "Verif.Filters.C100_fresh_medium"
   ],
   "note": "Exact real arithmetic instead of f32 rounding. Rough and medium need complex poles, medium an output within one half (limiter idle). Deviations of fresh units and the unreachable subtype are theorems (C100_fresh_forgets, C100_fresh_medium, C100_svf_panics)."
  },
  {
   "property": "C101",
   "status": "partial",
   "theorems": [
    "Verif.Filters.C101_bounded_partial",
    "Verif.Filters.C101_small_signal_partial",
    "Verif.Filters.C101_radius",
    "Verif.Filters.C101_smooth_partial",
    "Verif.Filters.C101_smooth_four_modulated_partial",
    "Verif.Filters.C101_smooth_two_modulated_partial"
   ],
   "note": "Exact real arithmetic instead of f32 rounding. All filters over whole lives of modulation among uniformly stable designs; the two-pole smooth filter, whose halves see different coefficients, only where its margins exceed what a sample's glide can add (C101_smooth_two_modulated_partial), and at fixed coefficients for every stable design (C101_smooth_partial); small-signal statement for the two-pole rough filter."
  },
  {
   "property": "C102",
   "status": "partial",
   "theorems": [
    "Verif.Filters.C102_mirrored",
    "Verif.Filters.C102_notch_misplaced",
    "Verif.Filters.C102_lowpass_open"
   ],
   "note": "Refuted: C102_mirrored shows what the filters are tuned to instead, C102_notch_misplaced and C102_lowpass_open the audible consequence. Integer notes, exact real arithmetic."
  },
  {
   "property": "C103",
   "status": "partial",
   "theorems": [
    "Verif.Filters.C103_damping",
    "Verif.Filters.C103_stable_partial",
    "Verif.Filters.C103_unstable"
   ],
   "note": "Exact real arithmetic instead of f32 rounding. Integer notes. Proved below a quarter of the oversampled rate with positive damping; refuted above it (C103_unstable) and at full resonance (C103_damping)."
  },
  {
   "property": "C104",
   "status": "proved",
   "theorems": [
    "Verif.Filters.C104_advances",
    "Verif.Filters.C104_ramp_lands",
    "Verif.Filters.C104_first_block_silent",
    "Verif.Filters.C104_converges",
    "Verif.Filters.C104_hull"
   ],
   "note": "Exact real arithmetic; the dropped first settings are C104_first_block_silent."
  },
  {
   "property": "C105",
   "status": "partial",
   "theorems": [
    "Verif.Filters.C105_biquad_partial",
    "Verif.Filters.C105_stable_iff",
    "Verif.Filters.C105_design_stability",
    "Verif.Filters.C105_dc",
    "Verif.Filters.C105_bounded_partial",
    "Verif.Filters.C105_bounded_resonant_four",
    "Verif.Filters.C105_bounded_settings",
    "Verif.Filters.C105_bounded_resonant",
    "Verif.Filters.C105_bounded_two_pole"
   ],
   "note": "Exact real arithmetic instead of f32 rounding; fixed coefficients. Boundedness: a multiple of the input where the section is stable (C105_bounded_partial), and K(1 + M) at every cutoff and resonance, self-oscillation included, for both orders (C105_bounded_settings)."
  },
  {
   "property": "C106",
   "status": "partial",
   "theorems": [
    "Verif.Filters.C106_holds_partial",
    "Verif.Filters.C106_rate",
    "Verif.Filters.C106_rate_made",
    "Verif.Filters.C106_bounded"
   ],
   "note": "Exact real arithmetic instead of f32 rounding. C106_bounded holds for every modulation; the exact timing for fixed coefficients."
  },
  {
   "property": "C107",
   "status": "proved",
   "theorems": [
    "Verif.Filters.C107_bounded",
    "Verif.Filters.C107_odd",
    "Verif.Filters.C107_coefficients"
   ],
   "note": "Exact real arithmetic for the filter step; settings from any real pitch, period and resonance."
  },
  {
   "property": "C108",
   "status": "partial",
   "theorems": [
    "Verif.Halfrate.C108_one_filter",
    "Verif.Halfrate.C108_reset",
    "Verif.Halfrate.C108_new_iff",
    "Verif.Halfrate.C108_default_is_no_filter",
    "Verif.Halfrate.C108_oversize"
   ],
   "note": "Exact real arithmetic for the signal path (coefficients are the f32 values). Filters of new(1..6, _) satisfy it; refuted for default() (C108_default_is_no_filter). new(0) and blocks over 256 samples panic (C108_new_iff, C108_oversize)."
  },
  {
   "property": "C109",
   "status": "proved",
   "theorems": [
    "Verif.Halfrate.C109_no_energy_gain"
   ],
   "note": "Exact real arithmetic instead of f32 rounding in the signal path."
  },
  {
   "property": "C110",
   "status": "proved",
   "theorems": [
    "Verif.Halfrate.C110_sinusoid",
    "Verif.Halfrate.C110_shape"
   ],
   "note": "Exact real arithmetic instead of f32 rounding in the signal path; the coefficients are the rounded f32 ones."
  },
  {
   "property": "C111",
   "status": "partial",
   "theorems": [
    "Verif.Halfrate.C111_reached",
    "Verif.Halfrate.C111_output",
    "Verif.Halfrate.C111_passband",
    "Verif.Halfrate.C111_shortfall"
   ],
   "note": "Refuted for four of the twelve tables (C111_shortfall); C111_reached proves for every table the rejection it does reach, which is the advertised one for the other eight."
  },
  {
   "property": "C112",
   "status": "proved",
   "theorems": [
    "Verif.Halfrate.C112_upsample",
    "Verif.Halfrate.C112_halved",
    "Verif.Halfrate.C112_image",
    "Verif.Halfrate.C112_downsample"
   ],
   "note": "Exact real arithmetic instead of f32 rounding in the signal path."
  },
  {
   "property": "C113",
   "status": "proved",
   "theorems": [
    "Verif.Units.C113_phase",
    "Verif.Units.C113_sine",
    "Verif.Units.C113_untuned"
   ],
   "note": "Exact real arithmetic instead of f64 rounding. The need of a first set_rate is C113_untuned."
  },
  {
   "property": "C114",
   "status": "proved",
   "theorems": [
    "Verif.Units.C114_balanced",
    "Verif.Units.C114_distinct",
    "Verif.Units.C114_too_many"
   ],
   "note": "Exact real arithmetic instead of f32 rounding."
  },
  {
   "property": "C115",
   "status": "partial",
   "theorems": [
    "Verif.Units.C115_rates_partial",
    "Verif.Units.C115_stale"
   ],
   "note": "Refuted for two of the eight rates (C115_stale); the other six are C115_rates_partial, for any rounding."
  },
  {
   "property": "C116",
   "status": "partial",
   "theorems": [
    "Verif.Units.C116_update_partial",
    "Verif.Units.C116_no_tempo"
   ],
   "note": "Refuted (C116_no_tempo); what update does with the tempo it holds is C116_update_partial."
  },
  {
   "property": "C117",
   "status": "partial",
   "theorems": [
    "Verif.Units.C117_inputs_overlap",
    "Verif.Units.C117_inputs_stale",
    "Verif.Units.C117_outputs_distinct_partial"
   ],
   "note": "Refuted for the inputs (C117_inputs_overlap, C117_inputs_stale); the outputs are C117_outputs_distinct_partial."
  },
  {
   "property": "C118",
   "status": "proved",
   "theorems": [
    "Verif.Units.C118_tanh",
    "Verif.Units.C118_tanh_curve",
    "Verif.Units.C118_clip",
    "Verif.Units.C118_digi"
   ],
   "note": "Exact real arithmetic except for the reciprocal, which is any function within its relative error; integer overflow of the digital shaper beyond 2^31 not modelled."
  },
  {
   "property": "C119",
   "status": "partial",
   "theorems": [
    "Verif.Units.C119_constant"
   ],
   "note": "Refuted: C119_constant."
  },
  {
   "property": "C120",
   "status": "proved",
   "theorems": [
    "Verif.Dynamics.C120_root"
   ],
   "note": "Exact real arithmetic instead of f32 rounding."
  },
  {
   "property": "C121",
   "status": "proved",
   "theorems": [
    "Verif.Dynamics.C121_delay"
   ],
   "note": "Exact real arithmetic instead of f32 rounding."
  },
  {
   "property": "C122",
   "status": "partial",
   "theorems": [
    "Verif.Dynamics.C122_gain_partial",
    "Verif.Dynamics.C122_never_amplifies",
    "Verif.Dynamics.C122_ignores_refuted",
    "Verif.Dynamics.C122_peak_passes_refuted",
    "Verif.Dynamics.C122_uninitialised_refuted"
   ],
   "note": "Gain bounds: C122_gain_partial, C122_never_amplifies. The rest is refuted: get_lookahead reads leaf 126 instead of the root, so all samples but those at positions 126 mod 128 are ignored (C122_ignores_refuted, C122_peak_passes_refuted); without init the first gain is 1000 (C122_uninitialised_refuted)."
  },
  {
   "property": "C123",
   "status": "partial",
   "theorems": [
    "Verif.Chain.C123_voices_independent",
    "Verif.Chain.C123_inactive_silent",
    "Verif.Chain.C123_debug_mono",
    "Verif.Chain.C123_debug_refuted"
   ],
   "note": "Proved in full for builds without debug assertions and, with them, for the six one-signal configurations; stereo and wide panic in debug builds when the sum of all voices reaches 32 (C123_debug_refuted). Exact reals; each filter treats lanes separately (hypothesis built into globals)."
  },
  {
   "property": "C124",
   "status": "partial",
   "theorems": [
    "Verif.Chain.C124_targets_partial",
    "Verif.Chain.C124_other_lanes",
    "Verif.Chain.C124_continues",
    "Verif.Chain.C124_left_overshoots_refuted",
    "Verif.Chain.C124_mixes"
   ],
   "note": "Proved except the left level of stereo and wide, which moves twice as far as it should (C124_left_overshoots_refuted)."
  },
  {
   "property": "C125",
   "status": "proved",
   "theorems": [
    "Verif.Chain.C125_feedback_bounded",
    "Verif.Chain.C125_filters_have_peak_gain",
    "Verif.Chain.C125_voice_bounded"
   ],
   "note": "Exact real arithmetic; peak gains of the filters are hypotheses."
  },
  {
   "property": "C126",
   "status": "proved",
   "theorems": [
    "Verif.Chain.C126_serial1_no_feedback",
    "Verif.Chain.C126_serial3_filter2_in_loop",
    "Verif.Chain.C126_bypass_front",
    "Verif.Chain.C126_bypass_back",
    "Verif.Chain.C126_wide_channels",
    "Verif.Chain.C126_symmetric"
   ],
   "note": "Exact real arithmetic."
  },
  {
   "property": "C127",
   "status": "partial",
   "theorems": [
    "Verif.Chain.C127_first_voice_partial",
    "Verif.Chain.C127_lanes_refuted"
   ],
   "note": "Only the first voice of a quad is right (C127_first_voice_partial); refuted for the others (C127_lanes_refuted)."
  },
  {
   "property": "C128",
   "status": "partial",
   "theorems": [
    "Verif.Voice.C128_legato_glides_partial",
    "Verif.Voice.C128_glide",
    "Verif.Voice.C128_legato_at_end_panics_refuted",
    "Verif.Voice.C128_code_panics_refuted",
    "Verif.Voice.C128_first_source"
   ],
   "note": "Glide proved for histories whose phase is not exactly 1 at the legato note and with a tempo ratio; the code's ratio is todo!() (every block panics) and a legato note at phase exactly 1 fails lerp's assertion."
  },
  {
   "property": "C129",
   "status": "partial",
   "theorems": [
    "Verif.Voice.C129_relative",
    "Verif.Voice.C129_absolute_partial",
    "Verif.Voice.C129_whole_notes",
    "Verif.Voice.C129_fraction_lost_refuted",
    "Verif.Voice.C129_low_panics_refuted"
   ],
   "note": "Relative mode and whole notes proved; absolute mode drops the fraction of the note, and notes at or below -257 panic (refuted)."
  },
  {
   "property": "C130",
   "status": "partial",
   "theorems": [
    "Verif.Voice.C130_mix_partial",
    "Verif.Voice.C130_right_silent_refuted",
    "Verif.Voice.C130_stale_modulator_refuted",
    "Verif.Voice.C130_off_panics_refuted",
    "Verif.Voice.C130_routes"
   ],
   "note": "Left input, and both inputs in the wide path, proved; outside wide the oscillators never reach the right input, a ring-only voice with FM uses a stale modulator, an Off oscillator panics (refuted)."
  },
  {
   "property": "C131",
   "status": "proved",
   "theorems": [
    "Verif.Voice.C131_solo_mute",
    "Verif.Voice.C131_disabled_inaudible"
   ],
   "note": "Enables and non-interference of disabled sources."
  },
  {
   "property": "C132",
   "status": "partial",
   "theorems": [
    "Verif.Voice.C132_mono",
    "Verif.Voice.C132_direction",
    "Verif.Voice.C132_mirror",
    "Verif.Voice.C132_two_signals_partial",
    "Verif.Voice.C132_channel_pan_refuted"
   ],
   "note": "Law proved for one-signal paths, mirror symmetry for all; channel pan does not move the second signal of stereo/wide (refuted)."
  },
  {
   "property": "C133",
   "status": "partial",
   "theorems": [
    "Verif.Voice.C133_bend_partial",
    "Verif.Voice.C133_octave_partial",
    "Verif.Voice.C133_no_bend_source_refuted",
    "Verif.Voice.C133_keytrack",
    "Verif.Voice.C133_keytrack_toggled_refuted",
    "Verif.Voice.C133_cutoff"
   ],
   "note": "Formulas proved given a bend source; no voice has one (panic), and key tracking after a switch is wrong (refuted)."
  },
  {
   "property": "C134",
   "status": "partial",
   "theorems": [
    "Verif.Voice.C134_switch_partial",
    "Verif.Voice.C134_wide_stale_refuted"
   ],
   "note": "Proved for the two main filters; switching to wide leaves the twin filters stale (refuted)."
  },
  {
   "property": "C135",
   "status": "partial",
   "theorems": [
    "Verif.Voice.C135_life_partial",
    "Verif.Voice.C135_stops_for_good",
    "Verif.Voice.C135_overflow_refuted"
   ],
   "note": "Proved up to 2^31 blocks; then the age overflows (refuted). Release calls inside the envelope are todo!() (C35)."
  },
  {
   "property": "C136",
   "status": "partial",
   "theorems": [
    "Verif.Voice.C136_channel_pressure_refuted"
   ],
   "note": "Refuted: the channel source keeps the pressure at note start; the channel pressure goes to the polyphonic source."
  },
  {
   "property": "C137",
   "status": "proved",
   "theorems": [
    "Verif.Vocoder.C137_bands"
   ],
   "note": "Exact real arithmetic."
  },
  {
   "property": "C138",
   "status": "partial",
   "theorems": [
    "Verif.Vocoder.C138_stable",
    "Verif.Vocoder.C138_bounded",
    "Verif.Vocoder.C138_dies",
    "Verif.Vocoder.C138_blocks_dc"
   ],
   "note": "Exact real arithmetic; for rates from 44100 Hz up (below about 43 kHz the top bands are unstable)."
  },
  {
   "property": "C139",
   "status": "proved",
   "theorems": [
    "Verif.Vocoder.C139_step",
    "Verif.Vocoder.C139_approach"
   ],
   "note": "Exact real arithmetic."
  },
  {
   "property": "C140",
   "status": "partial",
   "theorems": [
    "Verif.Vocoder.C140_output_automated",
    "Verif.Vocoder.C140_linear_automated",
    "Verif.Vocoder.C140_bounded_automated",
    "Verif.Vocoder.C140_silent_modulator_automated",
    "Verif.Vocoder.C140_output",
    "Verif.Vocoder.C140_bounded",
    "Verif.Vocoder.C140_silent_modulator",
    "Verif.Vocoder.C140_linear",
    "Verif.Vocoder.C140_sides"
   ],
   "note": "Exact real arithmetic. Rate and gate may change at any time (the _automated theorems); the band filters (number, places, Q) are fixed during the run."
  },
  {
   "property": "C141",
   "status": "proved",
   "theorems": [
    "Verif.Dsp.Fast.C141_sine",
    "Verif.Dsp.Fast.C141_cosine",
    "Verif.Dsp.Fast.C141_wrap",
    "Verif.Dsp.Fast.C141_everywhere",
    "Verif.Dsp.Fast.C141_documented_refuted"
   ],
   "note": "f32 rounding of the evaluation is not modelled; the documented error bound 1e-5 is refuted in C141_documented_refuted"
  },
  {
   "property": "C142",
   "status": "proved",
   "theorems": [
    "Verif.Dsp.Fast.C142_tanh",
    "Verif.Dsp.Fast.C142_tanh_clamped",
    "Verif.Dsp.Fast.C142_limiter_refuted",
    "Verif.Dsp.Fast.C142_tan"
   ],
   "note": "f32 rounding not modelled; not a limiter: C142_limiter_refuted"
  },
  {
   "property": "C143",
   "status": "proved",
   "theorems": [
    "Verif.Dsp.Fast.C143_exp",
    "Verif.Dsp.Fast.C143_range_refuted"
   ],
   "note": "f32 rounding not modelled; documented range refuted in C143_range_refuted"
  },
  {
   "property": "C144",
   "status": "proved",
   "theorems": [
    "Verif.Effects.RingMod.C144_diode",
    "Verif.Effects.RingMod.C144_ring"
   ],
   "note": "Exact reals, no f32 rounding."
  },
  {
   "property": "C145",
   "status": "partial",
   "theorems": [
    "Verif.Effects.RingMod.C145_carrier",
    "Verif.Effects.RingMod.C145_phase",
    "Verif.Effects.RingMod.C145_cycles",
    "Verif.Effects.RingMod.C145_frequency_refuted"
   ],
   "note": "Exact reals. The frequency part of the claim is refuted (C145_frequency_refuted) and the frequency the code does have is proved (C145_cycles); the other parts are proved."
  },
  {
   "property": "C146",
   "status": "partial",
   "theorems": [
    "Verif.Effects.RingMod.C146_unison",
    "Verif.Effects.RingMod.C146_bounded",
    "Verif.Effects.RingMod.C146_silence_dry",
    "Verif.Effects.RingMod.C146_many_refuted"
   ],
   "note": "Exact reals; the cut filters and the oversampling filters around it are not part of this model. The bound is proved for up to two carriers and refuted for sixteen."
  },
  {
   "property": "C147",
   "status": "partial",
   "theorems": [
    "Verif.Biquad.C147_peak_partial",
    "Verif.Biquad.C147_peak_settings_partial",
    "Verif.Biquad.C147_flat"
   ],
   "note": "Exact reals; decibels exact in C147_peak_settings_partial, arbitrary in the others. The response needs the quantity under the first root to be positive: proved for centres up to a quarter of the sample rate, two to four octaves and gains from -18 dB; missing is where else it is (outside it every coefficient is NaN)."
  },
  {
   "property": "C148",
   "status": "partial",
   "theorems": [
    "Verif.Effects.Phaser.C148_energy_partial",
    "Verif.Effects.Phaser.C148_bounded_partial",
    "Verif.Effects.Phaser.C148_mix",
    "Verif.Effects.Phaser.C148_bounded_after_sweep_partial"
   ],
   "note": "energy and bound with sweep depth 0 and base, quality constant; the bound also after any past, moving sweeps included, once the sweep is off (C148_bounded_after_sweep_partial); cross-fade for all runs. Missing: the bound while the sweep keeps moving, f32 rounding"
  },
  {
   "property": "C149",
   "status": "partial",
   "theorems": [
    "Verif.Effects.Phaser.C149_lfo_partial",
    "Verif.Effects.Phaser.C149_lfo_runs_away_refuted"
   ],
   "note": "proved for a step of at most 1 per update; refuted above (reachable: rate 9 at 44.1 kHz moves 2.97 per update), the phase is reduced by 1 only once"
  },
  {
   "property": "C150",
   "status": "partial",
   "theorems": [
    "Verif.Effects.Distortion.C150_first_eight_refuted",
    "Verif.Effects.Distortion.C150_overrun_refuted"
   ],
   "note": "refuted: the output is made from the first 8 of 32 input samples, and the first half-band filter writes 32 samples past the block"
  },
  {
   "property": "C151",
   "status": "partial",
   "theorems": [
    "Verif.Effects.Distortion.C151_bounded_after_automation_partial",
    "Verif.Effects.Distortion.C151_bounded_partial"
   ],
   "note": "stable post filters, any shape bounded by W; also after any automation once the settings behind the shaper stay (C151_bounded_after_automation_partial). Missing: the bound while the post filters keep moving, f32 rounding"
  },
  {
   "property": "C152",
   "status": "partial",
   "theorems": [
    "Verif.Effects.Allpass.C152_plays_partial",
    "Verif.Effects.Allpass.C152_first_echo_refuted"
   ],
   "note": "Proved: every call plays the sample of the set number of calls ago or panics, and exactly when. Refuted: with a constant pre-delay the assertion p > 0 fails on the very sample on which the first echo is due."
  },
  {
   "property": "C153",
   "status": "partial",
   "theorems": [
    "Verif.Effects.Allpass.C153_lossless",
    "Verif.Effects.Allpass.C153_too_long_refuted"
   ],
   "note": "Proved for every input and history of lengths up to 16384, in real arithmetic. Refuted beyond (not reachable below about 135 kHz): the index leaves the buffer. Missing: rounding to f32."
  },
  {
   "property": "C154",
   "status": "partial",
   "theorems": [
    "Verif.Effects.Allpass.C154_total",
    "Verif.Effects.Allpass.C154_tail_partial",
    "Verif.Effects.Allpass.C154_dies_partial",
    "Verif.Effects.Allpass.C154_gain"
   ],
   "note": "Proved: totality for all settings, energy bound and decay with fixed lengths and coefficients (the decay itself may move), modulation off. Missing: modulation of the lines, moving lengths, f32."
  },
  {
   "property": "C155",
   "status": "partial",
   "theorems": [
    "Verif.Effects.Allpass.C155_plays",
    "Verif.Effects.Allpass.C155_long_refuted",
    "Verif.Effects.Allpass.C155_sizes",
    "Verif.Effects.Allpass.C155_48k_refuted"
   ],
   "note": "Proved for lengths and taps up to 16384 samples, all modulations; all lengths fit up to a product of sample rate and room scale of 91633 Hz. Refuted at 48 kHz and full room size."
  },
  {
   "property": "C156",
   "status": "proved",
   "theorems": [
    "Verif.Osc.C156_formula",
    "Verif.Osc.C156_bounded",
    "Verif.Osc.C156_pure"
   ],
   "note": "exact reals; unmodulated (see C159 for external FM)"
  },
  {
   "property": "C157",
   "status": "partial",
   "theorems": [
    "Verif.Osc.C157_deaf_refuted",
    "Verif.Osc.C157_dies_refuted"
   ],
   "note": "refuted: the depth smoothers are made with Lag::new(0.0), whose target weight is 0, so depths fade as 0.996^n and later values are ignored"
  },
  {
   "property": "C158",
   "status": "partial",
   "theorems": [
    "Verif.Osc.C158_legacy",
    "Verif.Osc.C158_bounded",
    "Verif.Osc.C158_swapped_refuted"
   ],
   "note": "closed form and bound proved; legacy mode passes the negated cosine, so shapes 2 and 3 are swapped"
  },
  {
   "property": "C159",
   "status": "partial",
   "theorems": [
    "Verif.Osc.C159_sine_refuted",
    "Verif.Osc.C159_fm_refuted",
    "Verif.Osc.C159_fm2_partial"
   ],
   "note": "refuted for FM and sine (assign_fm is empty, the pointer stays null); FM2 is safe exactly without FM"
  },
  {
   "property": "C160",
   "status": "proved",
   "theorems": [
    "Verif.Osc.C160_balance"
   ],
   "note": "exact reals"
  },
  {
   "property": "C161",
   "status": "proved",
   "theorems": [
    "Verif.Osc.C161_superposition",
    "Verif.Osc.C161_total"
   ],
   "note": "exact reals; any number of impulses, any placement inside the block, mono and stereo"
  },
  {
   "property": "C162",
   "status": "partial",
   "theorems": [
    "Verif.Osc.C162_period",
    "Verif.Osc.C162_pitch_refuted"
   ],
   "note": "C162_period: a cycle takes exactly two periods whatever the shape; C162_pitch_refuted: in the default tuning the period used is 1/1024 of the note's (ten octaves too high)"
  },
  {
   "property": "C163",
   "status": "proved",
   "theorems": [
    "Verif.Osc.C163_impulses",
    "Verif.Osc.C163_slope",
    "Verif.Osc.C163_no_drift",
    "Verif.Osc.C163_steady"
   ],
   "note": "exact reals with an exact reciprocal (the code's rcp is approximate)"
  },
  {
   "property": "C164",
   "status": "partial",
   "theorems": [
    "Verif.Osc.C164_terminates",
    "Verif.Osc.C164_placed",
    "Verif.Osc.C164_absolute_refuted",
    "Verif.Osc.C164_plays"
   ],
   "note": "proved for relative detuning; C164_absolute_refuted: with absolute detuning a period below 0.1 is replaced by 0 and the block never ends"
  },
  {
   "property": "C165",
   "status": "proved",
   "theorems": [
    "Verif.Osc.C165_ends",
    "Verif.Osc.C165_period",
    "Verif.Osc.C165_plays"
   ],
   "note": "exact reals; morph steady for the run theorems, any place between two tables for C165_ends"
  },
  {
   "property": "C166",
   "status": "partial",
   "theorems": [
    "Verif.Osc.C166_impulses",
    "Verif.Osc.C166_no_drift",
    "Verif.Osc.C166_wave",
    "Verif.Osc.C166_scale_refuted",
    "Verif.Osc.C166_same_refuted"
   ],
   "note": "C166_no_drift, C166_wave proved; C166_scale_refuted: the 16-bit samples are not scaled, so that only their signs are heard"
  },
  {
   "property": "C167",
   "status": "partial",
   "theorems": [
    "Verif.Osc.C167_in_range",
    "Verif.Osc.C167_smooth_partial",
    "Verif.Osc.C167_clicks_refuted",
    "Verif.Osc.C167_abort_refuted"
   ],
   "note": "C167_in_range; no click within a pair of tables (C167_smooth_partial); C167_clicks_refuted and C167_abort_refuted: crossing a table boundary clicks, and can abort"
  },
  {
   "property": "C168",
   "status": "partial",
   "theorems": [
    "Verif.Osc.C168_create_refuted",
    "Verif.Osc.C168_one_table_refuted"
   ],
   "note": "refuted: creation always panics, a single table makes the next impulse panic"
  },
  {
   "property": "C169",
   "status": "proved",
   "theorems": [
    "Verif.Osc.C169_loops"
   ],
   "note": ""
  },
  {
   "property": "C170",
   "status": "partial",
   "theorems": [
    "Verif.Osc.C170_mono_refuted"
   ],
   "note": "refuted: left and right are always equal"
  },
  {
   "property": "C171",
   "status": "proved",
   "theorems": [
    "Verif.Osc.C171_impulses",
    "Verif.Osc.C171_ends",
    "Verif.Osc.C171_placed"
   ],
   "note": "exact real arithmetic, the kernel's values and fm not modelled"
  },
  {
   "property": "C172",
   "status": "proved",
   "theorems": [
    "Verif.Osc.C172_levels",
    "Verif.Osc.C172_sign",
    "Verif.Osc.C172_correlation",
    "Verif.Osc.C172_sync",
    "Verif.Osc.C172_held",
    "Verif.Osc.C172_uncorrelated"
   ],
   "note": "exact real arithmetic"
  },
  {
   "property": "C173",
   "status": "partial",
   "theorems": [
    "Verif.Osc.C173_period_partial",
    "Verif.Osc.C173_reached",
    "Verif.Osc.C173_double_refuted",
    "Verif.Osc.C173_restart_refuted"
   ],
   "note": "proved from the second block on; refuted before it and when the pitch rises: the sync that is off still restarts the cycle (first level doubled, rising pitch restarts)"
  },
  {
   "property": "C174",
   "status": "partial",
   "theorems": [
    "Verif.Osc.C174_spread_refuted",
    "Verif.Osc.C174_count_refuted"
   ],
   "note": "refuted: the voice count is used in place of the spread"
  },
  {
   "property": "C175",
   "status": "proved",
   "theorems": [
    "Verif.Osc.C175_plays",
    "Verif.Osc.C175_phase"
   ],
   "note": "ratio < 2^30, tables of 2^k samples with all their levels"
  },
  {
   "property": "C176",
   "status": "partial",
   "theorems": [
    "Verif.Osc.C176_formant",
    "Verif.Osc.C176_table_refuted"
   ],
   "note": "proved for the formant; refuted for the wave: the new table's address is kept for one sample only, the rest of the block plays the old table"
  },
  {
   "property": "C177",
   "status": "proved",
   "theorems": [
    "Verif.Osc.C177_inside"
   ],
   "note": "the positions, not the reads themselves (C178)"
  },
  {
   "property": "C178",
   "status": "partial",
   "theorems": [
    "Verif.Osc.C178_wild_refuted",
    "Verif.Osc.C178_null_refuted"
   ],
   "note": "refuted: the first sample's value is used as the table's address"
  },
  {
   "property": "C179",
   "status": "partial",
   "theorems": [
    "Verif.Osc.C179_low_partial",
    "Verif.Osc.C179_odd_refuted",
    "Verif.Osc.C179_level_refuted"
   ],
   "note": "proved below 4/3 sample per step; refuted above: trailing zeros instead of the highest bit; the tables of a new oscillator have one level and one window, and others panic"
  },
  {
   "property": "C180",
   "status": "partial",
   "theorems": [
    "Verif.Osc.C180_unison_refuted"
   ],
   "note": "refuted: always one voice"
  },
  {
   "property": "C181",
   "status": "partial",
   "theorems": [
    "Verif.Osc.C181_first_four_refuted",
    "Verif.Osc.C181_unheard_refuted"
   ],
   "note": "refuted: only the first four samples of a block are heard"
  },
  {
   "property": "C182",
   "status": "partial",
   "theorems": [
    "Verif.Osc.C182_step_partial",
    "Verif.Osc.C182_longer_refuted"
   ],
   "note": "proved for waves not longer than the window; longer ones panic (usize subtraction)"
  },
  {
   "property": "C183",
   "status": "proved",
   "theorems": [
    "Verif.Synth.C183_output",
    "Verif.Synth.C183_nan_is_loud"
   ],
   "note": ""
  },
  {
   "property": "C184",
   "status": "partial",
   "theorems": [
    "Verif.Synth.C184_meter_range_partial",
    "Verif.Synth.C184_falloff_partial",
    "Verif.Synth.C184_meter_refuted",
    "Verif.Synth.C184_halt_freezes_refuted"
   ],
   "note": "range and fall-off proved; false of the code: the meter mask blinds it below 2.0, and halting freezes it"
  },
  {
   "property": "C185",
   "status": "partial",
   "theorems": [
    "Verif.Synth.C185_never_renders_refuted",
    "Verif.Synth.C185_halt_partial"
   ],
   "note": "false of the code: input rows are eight bytes apart, so clearing fails with an alignment error and processing inputs performs a misaligned aligned load; the halted path is proved for aligned output buffers"
  },
  {
   "property": "C186",
   "status": "partial",
   "theorems": [
    "Verif.Synth.C186_channels_alias_refuted",
    "Verif.Synth.C186_oscillator_partial",
    "Verif.Synth.C186_stereo_refuted"
   ],
   "note": "false of the code: right sample k is left sample k+2; the oscillator's mixing is proved"
  },
  {
   "property": "C187",
   "status": "partial",
   "theorems": [
    "Verif.Synth.C187_program_change_refuted",
    "Verif.Synth.C187_any_state_refuted",
    "Verif.Synth.C187_idle_partial"
   ],
   "note": "false of the code: the 40th block after a program change panics; idle behaviour proved"
  },
  {
   "property": "C188",
   "status": "partial",
   "theorems": [
    "Verif.Synth.C188_housekeeping_refuted"
   ],
   "note": "false of the code: panics when nothing is queued"
  },
  {
   "property": "C189",
   "status": "proved",
   "theorems": [
    "Verif.Synth.C189_suspend",
    "Verif.Synth.C189_load"
   ],
   "note": ""
  },
  {
   "property": "C190",
   "status": "proved",
   "theorems": [
    "Verif.Synth.Plugin.C190_sound",
    "Verif.Synth.Plugin.C190_attack",
    "Verif.Synth.Plugin.C190_bad_key"
   ],
   "note": ""
  },
  {
   "property": "C191",
   "status": "partial",
   "theorems": [
    "Verif.Synth.Plugin.C191_scale_partial",
    "Verif.Synth.Plugin.C191_concert_pitch_refuted"
   ],
   "note": "false of the code: A4 is 432 Hz; temperament proved"
  },
  {
   "property": "C192",
   "status": "partial",
   "theorems": [
    "Verif.Synth.Plugin.C192_cut_partial",
    "Verif.Synth.Plugin.C192_cut_refuted"
   ],
   "note": "false during the attack; proved half a second into the note"
  },
  {
   "property": "C193",
   "status": "partial",
   "theorems": [
    "Verif.Synth.Plugin.C193_notes_partial",
    "Verif.Synth.Plugin.C193_notes_refuted"
   ],
   "note": "false of the code in three respects; note-on/note-off proved"
  },
  {
   "property": "C194",
   "status": "partial",
   "theorems": [
    "Verif.Effects.Eq.C194_flat_settles_partial",
    "Verif.Effects.Eq.C194_flat_is_transparent_refuted"
   ],
   "note": "Refuted as stated: init starts the bands at +1 dB (the comment says 0 dB), so the first sample comes out louder; proved that the deviation dies away by 0.996 per sample. Exact real arithmetic."
  },
  {
   "property": "C195",
   "status": "partial",
   "theorems": [
    "Verif.Effects.Eq.C195_bounded_partial",
    "Verif.Effects.Eq.C195_usual_settings_partial",
    "Verif.Effects.Eq.C195_bounded_after_automation_partial"
   ],
   "note": "Exact real arithmetic; from a fresh effect at constant parameters, and after any automation once the bands stay, output gain still moving (C195_bounded_after_automation_partial). Missing: bands moving for ever, f32 rounding"
  },
  {
   "property": "C196",
   "status": "partial",
   "theorems": [
    "Verif.Effects.FreqShift.C196_frequency_shift_partial"
   ],
   "note": "exact real arithmetic, feedback off, constant settings; C196_frequency_shift_partial"
  },
  {
   "property": "C197",
   "status": "partial",
   "theorems": [
    "Verif.Effects.FreqShift.C197_squared_partial",
    "Verif.Effects.FreqShift.C197_refuted"
   ],
   "note": "refuted: the ratio is applied twice, so the right channel gets the square (C197_refuted, C197_squared_partial)"
  },
  {
   "property": "C198",
   "status": "partial",
   "theorems": [
    "Verif.Effects.FreqShift.C198_delay_is_a_fortieth",
    "Verif.Effects.FreqShift.C198_fraction_ignored"
   ],
   "note": "refuted in effect: the lag's two coefficients do not add up to one, so that the delay settles on a fortieth of the request (C198_delay_is_a_fortieth), and fractions are lost (C198_fraction_ignored)"
  },
  {
   "property": "C199",
   "status": "proved",
   "theorems": [
    "Verif.Effects.FreqShift.C199_bounded_under_automation"
   ],
   "note": "exact real arithmetic"
  },
  {
   "property": "C200",
   "status": "proved",
   "theorems": [
    "Verif.Osc.C200_fm",
    "Verif.Osc.C200_fm_bounded",
    "Verif.Osc.C200_sine",
    "Verif.Osc.C200_legacy"
   ],
   "note": "Proved for buffers set through the public field (assign_fm does nothing, C159); the external FM flag of the FM oscillator is constant over the run."
  },
  {
   "property": "C201",
   "status": "partial",
   "theorems": [
    "Verif.Filters.C201_memoryless_refuted",
    "Verif.Filters.C201_lowpass_refuted",
    "Verif.Filters.C201_saturator_panics_refuted"
   ],
   "note": "Refuted: the saturator overwrites the new state with the saturated old one, so the filter is memoryless (C201_memoryless_refuted, C201_lowpass_refuted) and half of the saturator selections panic (C201_saturator_panics_refuted)."
  },
  {
   "property": "C202",
   "status": "proved",
   "theorems": [
    "Verif.Filters.C202_stable",
    "Verif.Filters.C202_gains",
    "Verif.Filters.C202_centre"
   ],
   "note": ""
  },
  {
   "property": "C203",
   "status": "proved",
   "theorems": [
    "Verif.Filters.C203_bounded",
    "Verif.Filters.C203_odd",
    "Verif.Filters.C203_silence"
   ],
   "note": ""
  },
  {
   "property": "C204",
   "status": "partial",
   "theorems": [
    "Verif.Filters.C204_no_feedback_refuted",
    "Verif.Filters.C204_silence_refuted"
   ],
   "note": "Refuted: the first arm of ojd_waveshaper reads input <= 1.7 instead of <= -1.7, so below 1.7 there is no feedback at all (C204_no_feedback_refuted) and silence turns into a constant (C204_silence_refuted)."
  },
  {
   "property": "C205",
   "status": "partial",
   "theorems": [
    "Verif.Filters.C205_explodes_refuted"
   ],
   "note": "Refuted: fastsin is applied outside [-pi, pi] without clamping, where it grows like -26x; a notch at zero resonance diverges after one loud sample (C205_explodes_refuted)."
  },
  {
   "property": "C206",
   "status": "proved",
   "theorems": [
    "Verif.Filters.C206_bounded",
    "Verif.Filters.C206_odd",
    "Verif.Filters.C206_silence"
   ],
   "note": ""
  },
  {
   "property": "C207",
   "status": "partial",
   "theorems": [
    "Verif.Filters.C207_order_refuted"
   ],
   "note": "Refuted: the code takes all derivatives half a step away, including the last; the error is proved to be between (hc)^2/24 and (hc)^2/12 for every step, i.e. the integrator is of first order."
  },
  {
   "property": "C208",
   "status": "proved",
   "theorems": [
    "Verif.Filters.C208_circuit",
    "Verif.Filters.C208_passive",
    "Verif.Filters.C208_lowpass_within",
    "Verif.Filters.C208_input_energy",
    "Verif.Filters.C208_settles"
   ],
   "note": "The public process_2_pole is proved; the trait's process_quad is todo!() and panics."
  },
  {
   "property": "C209",
   "status": "proved",
   "theorems": [
    "Verif.Filters.C209_bounded"
   ],
   "note": "One lane in use; arctan exact."
  },
  {
   "property": "C210",
   "status": "partial",
   "theorems": [
    "Verif.Filters.C210_fourth_tap_refuted"
   ],
   "note": "Refuted: the tap of sub-type 3 adds the third tap to the fourth."
  },
  {
   "property": "C211",
   "status": "partial",
   "theorems": [
    "Verif.Filters.C211_silent_refuted"
   ],
   "note": "Refuted in exact arithmetic: the selector is compared with whole numbers but is faded in from zero and never reaches them. In f32 rounding eventually makes some of the comparisons true (for sub-types 1 and 2 after about 61 blocks); that is not modelled."
  },
  {
   "property": "C212",
   "status": "partial",
   "theorems": [
    "Verif.Filters.C212_dc_gain_refuted",
    "Verif.Filters.C212_intended"
   ],
   "note": "refuted at one cutoff for every sample rate (settled gain 6.5); what was meant is proved for every cutoff and resonance"
  },
  {
   "property": "C213",
   "status": "partial",
   "theorems": [
    "Verif.Filters.C213_stable_refuted"
   ],
   "note": "refuted: unstable at zero resonance"
  },
  {
   "property": "C214",
   "status": "proved",
   "theorems": [
    "Verif.Filters.C214_linear",
    "Verif.Filters.C214_silence"
   ],
   "note": "any coefficient ramp"
  },
  {
   "property": "C215",
   "status": "partial",
   "theorems": [
    "Verif.Filters.C215_bounded",
    "Verif.Filters.C215_gain_partial"
   ],
   "note": "bounded for all inputs and settings; the bound relative to the input only for resonance up to 0.2"
  },
  {
   "property": "C216",
   "status": "proved",
   "theorems": [
    "Verif.Filters.C216_odd",
    "Verif.Filters.C216_silence"
   ],
   "note": ""
  },
  {
   "property": "C217",
   "status": "partial",
   "theorems": [
    "Verif.Filters.Comb.C217_runs_refuted"
   ],
   "note": "refuted: always panics with an active voice"
  },
  {
   "property": "C218",
   "status": "proved",
   "theorems": [
    "Verif.Filters.Comb.C218_in_bounds",
    "Verif.Filters.Comb.C218_feedback_delay",
    "Verif.Filters.Comb.C218_bounded"
   ],
   "note": "for the filter with simd_extract supplied"
  },
  {
   "property": "C219",
   "status": "proved",
   "theorems": [
    "Verif.Osc.C219_neutral",
    "Verif.Osc.C219_monotone",
    "Verif.Osc.C219_louder"
   ],
   "note": ""
  },
  {
   "property": "C220",
   "status": "partial",
   "theorems": [
    "Verif.Effects.DualDelay.C220_flow",
    "Verif.Effects.DualDelay.C220_in_bounds",
    "Verif.Effects.DualDelay.C220_dry",
    "Verif.Effects.DualDelay.C220_silence"
   ],
   "note": "complete signal flow, bounds, dry and silence proved for any automation, in exact real arithmetic (no rounding)"
  },
  {
   "property": "C221",
   "status": "partial",
   "theorems": [
    "Verif.Effects.DualDelay.C221_crossfeed_ignored_refuted",
    "Verif.Effects.DualDelay.C221_feedback_is_shared_refuted"
   ],
   "note": "refuted: do_crossfeed uses the feedback gain; the crossfeed setting has no effect on any output, feedback is always the sum of both channels"
  },
  {
   "property": "C222",
   "status": "partial",
   "theorems": [
    "Verif.Effects.DualDelay.C222_modulation_bounded",
    "Verif.Effects.DualDelay.C222_delay_is_a_fortieth_refuted"
   ],
   "note": "refuted: Lag::new leaves the complement of the rate at 0.996, so the delay settles at a fortieth of the setting; modulation bound proved"
  },
  {
   "property": "C223",
   "status": "proved",
   "theorems": [
    "Verif.Effects.DualDelay.C223_bounded"
   ],
   "note": "exact real arithmetic, cuts constant"
  },
  {
   "property": "C224",
   "status": "partial",
   "theorems": [
    "Verif.Effects.DualDelay.C224_ends_with_input_refuted"
   ],
   "note": "refuted: process_only_control is todo!(): the first block without input panics"
  },
  {
   "property": "C225",
   "status": "proved",
   "theorems": [
    "Verif.Effects.Rotary.C225_flow",
    "Verif.Effects.Rotary.C225_in_bounds",
    "Verif.Effects.Rotary.C225_mono",
    "Verif.Effects.Rotary.C225_silence"
   ],
   "note": ""
  },
  {
   "property": "C226",
   "status": "partial",
   "theorems": [
    "Verif.Effects.Rotary.C226_delay",
    "Verif.Effects.Rotary.C226_gain",
    "Verif.Effects.Rotary.C226_never_inverts_refuted"
   ],
   "note": "The ranges of delay and gain are proved; that the gain never turns negative is refuted (it reaches -0.2)."
  },
  {
   "property": "C227",
   "status": "partial",
   "theorems": [
    "Verif.Effects.Rotary.C227_seven_tenths_refuted"
   ],
   "note": "Refuted: it turns 32 times too fast."
  },
  {
   "property": "C228",
   "status": "proved",
   "theorems": [
    "Verif.Effects.Rotary.C228_bounded",
    "Verif.Effects.Rotary.C228_fades"
   ],
   "note": ""
  },
  {
   "property": "C229",
   "status": "partial",
   "theorems": [
    "Verif.Effects.Rotary.C229_return_level_scales_refuted",
    "Verif.Effects.Rotary.C229_no_doppler_no_delay_refuted"
   ],
   "note": "Refuted: the return level is read nowhere, and the horn is always at least 32 samples late."
  },
  {
   "property": "C230",
   "status": "partial",
   "theorems": [
    "Verif.Effects.Rotary.C230_one_row_refuted"
   ],
   "note": "Refuted: the row offset is multiplied by 12 before it is truncated."
  },
  {
   "property": "C231",
   "status": "partial",
   "theorems": [
    "Verif.Effects.Rotary.C231_suspend_silences_refuted"
   ],
   "note": "Refuted: the filters keep their state."
  },
  {
   "property": "C232",
   "status": "proved",
   "theorems": [
    "Verif.Effects.Chorus.C232_flow",
    "Verif.Effects.Chorus.C232_in_bounds",
    "Verif.Effects.Chorus.C232_mix",
    "Verif.Effects.Chorus.C232_silence"
   ],
   "note": "exact real arithmetic; parameters arrive converted"
  },
  {
   "property": "C233",
   "status": "partial",
   "theorems": [
    "Verif.Effects.Chorus.C233_equal_power",
    "Verif.Effects.Chorus.C233_delays_in_range",
    "Verif.Effects.Chorus.C233_three_voices_refuted"
   ],
   "note": "power, panning and range proved; four places in the cycle refuted: voices 0 and 3 coincide"
  },
  {
   "property": "C234",
   "status": "proved",
   "theorems": [
    "Verif.Effects.Chorus.C234_bounded"
   ],
   "note": "cuts constant; exact real arithmetic"
  },
  {
   "property": "C235",
   "status": "partial",
   "theorems": [
    "Verif.Effects.Chorus.C235_tail_waits_refuted"
   ],
   "note": "refuted: the tail waits"
  },
  {
   "property": "C236",
   "status": "proved",
   "theorems": [
    "Verif.Dsp.Noise.C236_bounded",
    "Verif.Dsp.Noise.C236_tilt"
   ],
   "note": ""
  },
  {
   "property": "C237",
   "status": "partial",
   "theorems": [
    "Verif.Dsp.Noise.C237_colour_is_volume_refuted",
    "Verif.Dsp.Noise.C237_drift_stays_refuted"
   ],
   "note": "refuted"
  },
  {
   "property": "C238",
   "status": "proved",
   "theorems": [
    "Verif.Dsp.Util.C238_allpass"
   ],
   "note": ""
  },
  {
   "property": "C239",
   "status": "partial",
   "theorems": [
    "Verif.Dsp.Util.C239_cubic_joins",
    "Verif.Dsp.Util.C239_lines_refuted"
   ],
   "note": "the curve's joins proved; straight lines refuted"
  },
  {
   "property": "C240",
   "status": "partial",
   "theorems": [
    "Verif.Dsp.Util.C240_windows",
    "Verif.Dsp.Util.C240_sym_harris_refuted"
   ],
   "note": "proved for five windows; the symmetric Blackman-Harris window refuted"
  },
  {
   "property": "C241",
   "status": "partial",
   "theorems": [
    "Verif.Dsp.Util.C241_levels",
    "Verif.Dsp.Util.C241_db_to_amp_refuted"
   ],
   "note": "inverses proved; db_to_amp refuted"
  },
  {
   "property": "C242",
   "status": "proved",
   "theorems": [
    "Verif.Dsp.Util.C242_byte_order"
   ],
   "note": ""
  },
  {
   "property": "C243",
   "status": "proved",
   "theorems": [
    "Verif.Dsp.Util.C243_samples"
   ],
   "note": ""
  },
  {
   "property": "C244",
   "status": "proved",
   "theorems": [
    "Verif.Scene.Single.C244_legato"
   ],
   "note": "pedal up, one channel, MPE off; the envelope calls inside release are taken to return"
  },
  {
   "property": "C245",
   "status": "partial",
   "theorems": [
    "Verif.Scene.Single.C245_mpe_refuted",
    "Verif.Scene.Single.C245_other_channel_refuted",
    "Verif.Scene.Single.C245_limit_one_refuted"
   ],
   "note": "refuted"
  },
  {
   "property": "C246",
   "status": "partial",
   "theorems": [
    "Verif.Scene.Single.C246_no_note_refuted"
   ],
   "note": "refuted"
  },
  {
   "property": "C247",
   "status": "partial",
   "theorems": [
    "Verif.Scene.Modulation.C247_enabled",
    "Verif.Scene.Modulation.C247_no_effect_refuted",
    "Verif.Scene.Modulation.C247_last_wins_refuted"
   ],
   "note": "the switching of sources proved; the rest refuted"
  },
  {
   "property": "C248",
   "status": "partial",
   "theorems": [
    "Verif.Scene.Modulation.C248_cannot_set_refuted",
    "Verif.Scene.Modulation.C248_leaving_latch_refuted"
   ],
   "note": "refuted"
  },
  {
   "property": "C249",
   "status": "proved",
   "theorems": [
    "Verif.Scene.Modulation.C249_solo",
    "Verif.Scene.Modulation.C249_relative_switch"
   ],
   "note": ""
  },
  {
   "property": "C250",
   "status": "partial",
   "theorems": [
    "Verif.Osc.C250_snh",
    "Verif.Osc.C250_wavetable_refuted"
   ],
   "note": "proved for the sample-and-hold oscillator; refuted for the wavetable oscillator, whose right side uses the left gain"
  },
  {
   "property": "C251",
   "status": "partial",
   "theorems": [
    "Verif.Render.C251_one_ends_partial",
    "Verif.Render.C251_two_end_refuted",
    "Verif.Render.C251_voice_limit_partial",
    "Verif.Render.C251_code_panics_refuted"
   ],
   "note": "Proved when at most one voice ends per block and there are at most 64; refuted when two end, above 64, and for the code as it stands (unfinished look-ups)."
  },
  {
   "property": "C252",
   "status": "partial",
   "theorems": [
    "Verif.Render.C252_adds_up_refuted",
    "Verif.Render.C252_drone_refuted"
   ],
   "note": "False at this commit: refuted for every number of blocks (adding up) and after the last voice (drone)."
  },
  {
   "property": "C253",
   "status": "partial",
   "theorems": [
    "Verif.Render.C253_half_lost_refuted",
    "Verif.Render.C253_silent_downsampled_partial"
   ],
   "note": "False at this commit: two voices engines differing only in the second half of a block sound the same; only silent scenes are down-sampled."
  },
  {
   "property": "C254",
   "status": "partial",
   "theorems": [
    "Verif.Render.C254_bypassed_while_playing_refuted"
   ],
   "note": "False at this commit: with every effect ringing out the output is the dry sum of the scenes."
  },
  {
   "property": "C255",
   "status": "partial",
   "theorems": [
    "Verif.Voice.Sources.C255_type_partial",
    "Verif.Voice.Sources.C255_never_started_refuted",
    "Verif.Voice.Sources.C255_off_is_a_sine_refuted",
    "Verif.Voice.Sources.C255_switch_off_panics_refuted"
   ],
   "note": "Proved: the type. Refuted: initialisation, silence of an oscillator that is off, switching off."
  },
  {
   "property": "C256",
   "status": "partial",
   "theorems": [
    "Verif.Voice.Sources.C256_levels_partial",
    "Verif.Voice.Sources.C256_first_block_refuted",
    "Verif.Voice.Sources.C256_pfg_refuted",
    "Verif.Voice.Sources.C256_noise_scales_all_refuted"
   ],
   "note": "Proved: independence of the knobs, range and rest value in every block after any history. Refuted: full level from the first block, the pre-filter gain knob."
  },
  {
   "property": "C257",
   "status": "partial",
   "theorems": [
    "Verif.Voice.Sources.C257_retriggers_partial",
    "Verif.Voice.Sources.C257_new_voice_refuted"
   ],
   "note": "Proved: the retriggering of both envelopes. Refuted: the parameters of a new voice's LFOs."
  },
  {
   "property": "C258",
   "status": "partial",
   "theorems": [
    "Verif.Voice.Sources.C258_velocity_timbre_partial",
    "Verif.Voice.Sources.C258_channel_pressure_refuted",
    "Verif.Voice.Sources.C258_poly_pressure_refuted",
    "Verif.Voice.Sources.C258_poly_start_refuted"
   ],
   "note": "Proved: velocity, release velocity, timbre. Refuted: channel pressure and key pressure."
  },
  {
   "property": "C259",
   "status": "partial",
   "theorems": [
    "Verif.Chain.Handover.C259_as_if_alone",
    "Verif.Chain.Handover.C259_life",
    "Verif.Chain.Handover.C259_keeps",
    "Verif.Chain.Handover.C259_keeps_second"
   ],
   "note": "Proved for voices whose samples are in their own lanes (at this commit they are not: C127), for filters that treat each lane by itself (the Moog ladder keeps its subtype in lane 0's write position and is left out); the scene's loop is modelled past get_quad_filter_ptr and voice_sync_registers_from_qfb_cfg, which are todo!() in the code."
  },
  {
   "property": "C260",
   "status": "proved",
   "theorems": [
    "Verif.Tables.C260_tanh",
    "Verif.Tables.C260_sine"
   ],
   "note": "f32 lookups against the exact curves; that the platform's tanh and sin in f64, rounded to f32, are within 2^-23 of the curve is a hypothesis on the table."
  },
  {
   "property": "C261",
   "status": "proved",
   "theorems": [
    "Verif.Filters.C261_coefficients",
    "Verif.Filters.C261_lowpass",
    "Verif.Filters.C261_highpass",
    "Verif.Filters.C261_lowpass_driven",
    "Verif.Filters.C261_highpass_driven"
   ],
   "note": "k35.rs, coeff.rs, lowpass.rs, highpass.rs in exact arithmetic, one lane. process_quad is todo!() and lowpass.rs, highpass.rs are not modules of the crate; they are modelled as they stand. Saturation 0 (clean) for the circuit identity."
  },
  {
   "property": "C262",
   "status": "proved",
   "theorems": [
    "Verif.Filters.C262_lowpass_settles",
    "Verif.Filters.C262_highpass_settles",
    "Verif.Filters.C262_lowpass_bounded",
    "Verif.Filters.C262_highpass_bounded",
    "Verif.Filters.C262_lowpass_held",
    "Verif.Filters.C262_highpass_held",
    "Verif.Filters.C262_designed_held",
    "Verif.Filters.C262_drive"
   ],
   "note": "Clean filters at fixed resonance and swept cutoff; fully saturated ones under any modulation; every drive in between at held settings."
  },
  {
   "property": "C263",
   "status": "proved",
   "theorems": [
    "Verif.Effects.Allpass.C263_network"
   ],
   "note": "Sizes held (the effect recomputes them every block from the room size); exact arithmetic. Pre-delay and wet/dry mix are C152."
  },
  {
   "property": "C264",
   "status": "partial",
   "theorems": [
    "Verif.Voice.C264_note_partial",
    "Verif.Voice.C264_switch_refuted",
    "Verif.Voice.C264_fixed_follows_refuted",
    "Verif.Voice.C264_transposes_partial",
    "Verif.Voice.C264_colour"
   ],
   "note": "false for the keyboard switches of the first two oscillators, which are not read (only the third's is, for all); the rest holds when they agree. Exact arithmetic."
  },
  {
   "property": "C265",
   "status": "partial",
   "theorems": [
    "Verif.Scene.PatchName.C265_accepts_partial",
    "Verif.Scene.PatchName.C265_sound",
    "Verif.Scene.PatchName.C265_no_blank_refuted",
    "Verif.Scene.PatchName.C265_default_refuted"
   ],
   "note": "false of the code: without the x flag the blanks in the pattern are literal, so no name without a blank is accepted, not even the default name; what is accepted is characterised exactly, and is sound"
  },
  {
   "property": "C266",
   "status": "proved",
   "theorems": [
    "Verif.Filters.C266_passive",
    "Verif.Filters.C266_rings_off",
    "Verif.Filters.C266_response"
   ],
   "note": "exact arithmetic, one lane; the coefficients are those the comments describe, as nothing in the workspace makes them"
  },
  {
   "property": "C267",
   "status": "proved",
   "theorems": [
    "Verif.ParamArray.C267_new_with",
    "Verif.ParamArray.C267_numbers",
    "Verif.ParamArray.C267_stores",
    "Verif.ParamArray.C267_enumerate",
    "Verif.ParamArray.C267_map",
    "Verif.ParamArray.C267_contains",
    "Verif.ParamArray.C267_explicit_value_panics"
   ],
   "note": "For enums without explicit values, which all 29 are (checked by reading); C267_explicit_value_panics shows the limit."
  },
  {
   "property": "C268",
   "status": "partial",
   "theorems": [
    "Verif.Tuning.Builtin.C268_equal_division_partial",
    "Verif.Tuning.Builtin.C268_harmonic_division",
    "Verif.Tuning.Builtin.C268_subharmonic_division_partial",
    "Verif.Tuning.Builtin.C268_damaged_refuted",
    "Verif.Tuning.Builtin.C268_names",
    "Verif.Tuning.Builtin.C268_scale_432_refuted"
   ],
   "note": "Proved for 141 of the 143 texts; refuted for ED2_11 (stray characters before the first comment) and SD4_48_12 (no title line), and for scale_432, which is the 25-part equal division (C268_damaged_refuted, C268_scale_432_refuted). The texts are read by an independent reader of the format; the crate's own loads none (C24)."
  },
  {
   "property": "C269",
   "status": "partial",
   "theorems": [
    "Verif.Dsp.Power.C269_power_partial",
    "Verif.Dsp.Power.C269_bounds_partial",
    "Verif.Dsp.Power.C269_half_refuted"
   ],
   "note": "Refuted: the crate dft packs the spectrum of real data, so all frequencies but the lowest and highest are counted once instead of twice; what comes out is half of the power plus half of what lies at those two (C269_power_partial), between half and all of it. The packing of dft 0.5.5 is taken from its documentation."
  },
  {
   "property": "C270",
   "status": "proved",
   "theorems": [
    "Verif.Wavetable.Sine.C270_header",
    "Verif.Wavetable.Sine.C270_harmonics"
   ],
   "note": "The bytes are read by an independent reader of the format; load_initial_wavetable itself is todo!()."
  },
  {
   "property": "C271",
   "status": "partial",
   "theorems": [
    "Verif.Synth.Valid.C271_accepts_iff_partial",
    "Verif.Synth.Valid.C271_table_partial",
    "Verif.Synth.Valid.C271_shared_refuted",
    "Verif.Synth.Valid.C271_closed_refuted"
   ],
   "note": "The exact rule is proved for every parameter and source. Refuted: the flag for voice processing is always true, so effects accept sources that differ per note (C271_shared_refuted); no parameter of an LFO, envelope, scene or the patch accepts anything (C271_closed_refuted)."
  }
 ]
}