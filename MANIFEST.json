{"claims": [
 {"property": "C01", "status": "proved", "theorems": ["Iamf.Props.C01_uleb128_generation"], "note": ""},
 {"property": "C02", "status": "proved", "theorems": ["Iamf.Props.C02_write_buffer_appends", "Iamf.Props.C02_write_literal_all_or_nothing"], "note": ""},
 {"property": "C03", "status": "proved", "theorems": ["Iamf.Props.C03_read_buffer_is_cursor", "Iamf.Props.C03_capacity_is_unobservable", "Iamf.Props.C03_capacity_zero_diverges"], "note": "capacity 0 is excluded; the last theorem shows why"},
 {"property": "C04", "status": "proved", "theorems": ["Iamf.Props.C04_typed_round_trip"], "note": ""},
 {"property": "C05", "status": "proved", "theorems": ["Iamf.Props.C05_stream_is_queue"], "note": ""},
 {"property": "C06", "status": "proved", "theorems": ["Iamf.Props.C06_header_round_trip", "Iamf.Props.C06_header_flags"], "note": ""},
 {"property": "C07", "status": "proved", "theorems": ["Iamf.Props.C07_peek_exact", "Iamf.Props.C07_peek_keeps_position", "Iamf.Props.C07_peek_total_wraps", "Iamf.Props.C07_peek_agrees_with_read"], "note": ""},
 {"property": "C08", "status": "proved", "theorems": ["Iamf.Props.C08_ia_sequence_header_round_trip", "Iamf.Props.C08_ia_sequence_header_rejects", "Iamf.Props.C08_additional_profile_unchecked"], "note": ""},
 {"property": "C09", "status": "proved", "theorems": ["Iamf.Props.C09_codec_config_round_trip", "Iamf.Props.C09_too_many_flac_blocks_unreadable", "Iamf.Props.C09_read_codec_config_is_sound", "Iamf.Props.C09_create_overrides_roll_distance", "Iamf.Props.C09_mismatched_decoder_config_aborts"], "note": ""},
 {"property": "C10", "status": "proved", "theorems": ["Iamf.Props.C10_audio_element_round_trip", "Iamf.Props.C10_read_element_is_sound", "Iamf.Props.C10_reserved_type_config_is_dropped", "Iamf.Props.C10_reserved_ambisonics_mode_is_accepted", "Iamf.Props.C10_many_layers_never_read_back", "Iamf.Props.C10_many_ambisonics_channels_never_read_back", "Iamf.Props.C10_ambisonics_factory_accepts_unwritable", "Iamf.Props.C10_duplicate_substream_written_but_rejected"], "note": ""},
 {"property": "C11", "status": "proved", "theorems": ["Iamf.Props.C11_mix_presentation_round_trip", "Iamf.Props.C11_read_presentation_is_sound", "Iamf.Props.C11_too_many_labels_or_sub_mixes_unreadable", "Iamf.Props.C11_footer_without_tags_is_ambiguous", "Iamf.Props.C11_unknown_rendering_parameter_not_preserved", "Iamf.Props.C11_rendering_config_depends_on_following_data", "Iamf.Props.C11_read_tags_not_writable", "Iamf.Props.C11_mismatched_layout_aborts", "Iamf.Props.C11_channels_from_layout"], "note": ""},
 {"property": "C12", "status": "proved", "theorems": ["Iamf.Props.C12_parameter_block_round_trip", "Iamf.Props.C12_read_block_matches_definition", "Iamf.Props.C12_definition_round_trip", "Iamf.Props.C12_extended_definition_round_trip", "Iamf.Props.C12_mode1_definition_unchecked", "Iamf.Props.C12_extended_blocks_unreadable", "Iamf.Props.C12_unflagged_recon_gain_lost"], "note": ""},
 {"property": "C13", "status": "proved", "theorems": ["Iamf.Props.C13_audio_frame_round_trip", "Iamf.Props.C13_temporal_delimiter_round_trip", "Iamf.Props.C13_metadata_round_trip", "Iamf.Props.C13_itu_t35_extension_byte_dropped", "Iamf.Props.C13_arbitrary_obus_with_hook"], "note": ""},
 {"property": "C14", "status": "proved", "theorems": ["Iamf.Props.C14_payload_ends_at_obu_size", "Iamf.Props.C14_footer_preserved"], "note": ""},
 {"property": "C15", "status": "proved", "theorems": ["Iamf.Props.C15_parsing_never_crashes"], "note": ""},
 {"property": "C16", "status": "proved", "theorems": ["Iamf.Props.C16_more_data_changes_nothing", "Iamf.Props.C16_mix_presentation_depends_on_following_obu"], "note": ""},
 {"property": "C17", "status": "proved", "theorems": ["Iamf.Props.C17_obu_at_most_two_megabytes"], "note": ""},
 {"property": "C18", "status": "proved", "theorems": ["Iamf.Props.C18_created_schedules_add_up", "Iamf.Props.C18_read_schedules_add_up", "Iamf.Props.C18_constant_accepts_iff"], "note": ""},
 {"property": "C19", "status": "proved", "theorems": ["Iamf.Props.C19_w_index_in_range", "Iamf.Props.C19_lookups_never_throw", "Iamf.Props.C19_elements_do_not_interfere", "Iamf.Props.C19_w_follows_specification", "Iamf.Props.C19_specification_moves_by_one", "Iamf.Props.C19_default_without_blocks", "Iamf.Props.C19_gap_is_refused", "Iamf.Props.C19_shared_parameter_id_breaks_second_element"], "note": ""},
 {"property": "C20", "status": "proved", "theorems": ["Iamf.Props.C20_accepted_iff_consistent", "Iamf.Props.C20_view_is_sorted_and_complete", "Iamf.Props.C20_order_is_unobservable", "Iamf.Props.C20_trim_sum_wraps", "Iamf.Props.C20_frame_size_depends_on_order"], "note": ""},
 {"property": "C21", "status": "proved", "theorems": ["Iamf.Props.C21_descriptors_of_any_data", "Iamf.Props.C21_returned_descriptors_are_consistent", "Iamf.Props.C21_written_descriptors_are_collected", "Iamf.Props.C21_beginnings_of_a_stream", "Iamf.Props.C21_exactly_the_descriptors", "Iamf.Props.C21_next_sequence_is_left_alone", "Iamf.Props.C21_pieces_as_one", "Iamf.Props.C21_stream_in_pieces", "Iamf.Props.C21_strange_stream_depends_on_arrival"], "note": ""},
 {"property": "C22", "status": "proved", "theorems": ["Iamf.Props.C22_created_iff", "Iamf.Props.C22_frames_are_contiguous", "Iamf.Props.C22_blocks_are_contiguous", "Iamf.Props.C22_global_timestamp", "Iamf.Props.C22_refused_block_still_advances"], "note": ""},
 {"property": "C23", "status": "proved", "theorems": ["Iamf.Props.C23_selection", "Iamf.Props.C23_selection_can_be_rendered", "Iamf.Props.C23_layers_needed"], "note": ""},
 {"property": "C24", "status": "proved", "theorems": ["Iamf.Props.C24_mix_presentation", "Iamf.Props.C24_succeeds_iff_supported", "Iamf.Props.C24_audio_element", "Iamf.Props.C24_reserved_profile_has_no_limits"], "note": ""},
 {"property": "C25", "status": "proved", "theorems": ["Iamf.Props.C25_output_does_not_depend_on_pieces", "Iamf.Props.C25_output_so_far", "Iamf.Props.C25_every_way_works", "Iamf.Props.C25_everything_comes_out", "Iamf.Props.C25_written_streams", "Iamf.Props.C25_idle_is_drained", "Iamf.Props.C25_end_may_have_to_be_signalled_again", "Iamf.Props.C25_small_buffer_loses_a_unit", "Iamf.Props.C25_reordering_depends_on_pieces"], "note": ""},
 {"property": "C26", "status": "proved", "theorems": ["Iamf.Props.C26_recon_gains_match_layers"], "note": ""},
 {"property": "C27", "status": "proved", "theorems": ["Iamf.Props.C27_channels", "Iamf.Props.C27_expanded_layer_with_others_is_accepted", "Iamf.Props.C27_labelling_never_crashes", "Iamf.Props.C27_accepted_iff", "Iamf.Props.C27_labels_and_gains", "Iamf.Props.C27_expanded", "Iamf.Props.C27_ambisonics_mono", "Iamf.Props.C27_ambisonics_projection", "Iamf.Props.C27_objects"], "note": ""},
 {"property": "C28", "status": "proved", "theorems": ["Iamf.Props.C28_reconstruction", "Iamf.Props.C28_modes_are_reversible", "Iamf.Props.C28_output_gain_is_not_undone", "Iamf.Props.C28_factors_of_the_modes"], "note": ""},
 {"property": "C29", "status": "proved", "theorems": ["Iamf.Props.C29_accepted_codec_config", "Iamf.Props.C29_legal_codec_config_accepted", "Iamf.Props.C29_set_codec_delay"], "note": ""},
 {"property": "C30", "status": "proved", "theorems": ["Iamf.Props.C30_ia_sequence_header", "Iamf.Props.C30_temporal_delimiter", "Iamf.Props.C30_audio_frame", "Iamf.Props.C30_metadata", "Iamf.Props.C30_codec_config", "Iamf.Props.C30_audio_element", "Iamf.Props.C30_mix_presentation", "Iamf.Props.C30_parameter_block"], "note": ""},
 {"property": "C31", "status": "proved", "theorems": ["Iamf.Props.C31_sleb128_generation"], "note": ""},
 {"property": "C32", "status": "proved", "theorems": ["Iamf.Props.C32_one_sample", "Iamf.Props.C32_frames_are_interleaved", "Iamf.Props.C32_frames_refused", "Iamf.Props.C32_exact_buffer", "Iamf.Props.C32_values", "Iamf.Props.C32_integers_come_back"], "note": ""},
 {"property": "C33", "status": "proved", "theorems": ["Iamf.Props.C33_only_the_order_changes", "Iamf.Props.C33_android_order", "Iamf.Props.C33_fails_exactly_with_too_few"], "note": ""},
 {"property": "C34", "status": "proved", "theorems": ["Iamf.Props.C34_file_of_a_sequence", "Iamf.Props.C34_file_of_an_updated_sequence", "Iamf.Props.C34_failure_leaves_no_file", "Iamf.Props.C34_closing_is_final", "Iamf.Props.C34_abort_removes_the_file", "Iamf.Props.C34_accepted_iff", "Iamf.Props.C34_independent_of_map_order", "Iamf.Props.C34_results_do_not_depend_on_the_sink", "Iamf.Props.C34_streaming_answers_alike", "Iamf.Props.C34_streaming_gives_the_file", "Iamf.Props.C34_delayed_descriptors", "Iamf.Props.C34_delayed_close", "Iamf.Props.C34_delayed_units_get_lost", "Iamf.Props.C34_delayed_update_skips_descriptors", "Iamf.Props.C34_refused_call_destroys_descriptors", "Iamf.Props.C34_bit_depths_may_differ"], "note": ""},
 {"property": "C35", "status": "proved", "theorems": ["Iamf.Props.C35_units_come_back", "Iamf.Props.C35_gapless_units_come_back", "Iamf.Props.C35_late_parameter_is_dropped"], "note": ""},
 {"property": "C36", "status": "proved", "theorems": ["Iamf.Props.C36_what_is_written_is_decoded", "Iamf.Props.C36_every_way_of_decoding_works"], "note": ""},
 {"property": "C37", "status": "proved", "theorems": ["Iamf.Props.C37_decoder_for_valid_configurations", "Iamf.Props.C37_frames_that_decode", "Iamf.Props.C37_what_is_encoded_is_decoded", "Iamf.Props.C37_kept_exactly", "Iamf.Props.C37_what_is_decoded_is_encoded", "Iamf.Props.C37_what_an_encoder_takes", "Iamf.Props.C37_frames_in_order", "Iamf.Props.C37_short_second_channel", "Iamf.Props.C37_encoding_after_finalize"], "note": ""},
 {"property": "C38", "status": "proved", "theorems": ["Iamf.Props.C38_gain_of_every_tick", "Iamf.Props.C38_read_blocks_have_gains", "Iamf.Props.C38_one_value_at_a_time", "Iamf.Props.C38_begins_with_the_first_value", "Iamf.Props.C38_stays_within_its_values", "Iamf.Props.C38_default_gain", "Iamf.Props.C38_on_real_numbers"], "note": ""},
 {"property": "C39", "status": "proved", "theorems": ["Iamf.Props.C39_pass_through_is_exact", "Iamf.Props.C39_scene_rendering", "Iamf.Props.C39_channel_rendering", "Iamf.Props.C39_down_mixing_to_3_1_2", "Iamf.Props.C39_down_mixing_to_7_1_2", "Iamf.Props.C39_projection", "Iamf.Props.C39_mono", "Iamf.Props.C39_channels_go_to_their_loudspeakers", "Iamf.Props.C39_pass_through_exactly_for_matching_layers", "Iamf.Props.C39_no_channel_is_lost", "Iamf.Props.C39_gains_for_the_right_layouts", "Iamf.Props.C39_made_renderers_work", "Iamf.Props.C39_a_renderer_exists", "Iamf.Props.C39_headphones_get_stereo", "Iamf.Props.C39_doubled_substream_has_no_renderer"], "note": ""},
 {"property": "C40", "status": "proved", "theorems": ["Iamf.Props.C40_the_mix", "Iamf.Props.C40_gains_of_the_mix", "Iamf.Props.C40_every_unit_and_layout", "Iamf.Props.C40_making_never_crashes", "Iamf.Props.C40_elements_of_descriptors", "Iamf.Props.C40_trimming_shifts_gains", "Iamf.Props.C40_missing_frame_repeats_sound", "Iamf.Props.C40_unused_block_spoils_unit", "Iamf.Props.C40_the_last_block_counts"], "note": ""},
 {"property": "C41", "status": "proved", "theorems": ["Iamf.Props.C41_every_unit", "Iamf.Props.C41_lossless_samples", "Iamf.Props.C41_no_bit_is_lost", "Iamf.Props.C41_lossless_file"], "note": ""},
 {"property": "C42", "status": "proved", "theorems": ["Iamf.Props.C42_when_a_part_can_be_made", "Iamf.Props.C42_parameters_over_time", "Iamf.Props.C42_frame_aligned", "Iamf.Props.C42_all_blocks", "Iamf.Props.C42_gains_out_of_range_are_wrapped", "Iamf.Props.C42_gains_in_q78"], "note": ""},
 {"property": "C43", "status": "proved", "theorems": ["Iamf.Props.C43_frames_are_a_queue", "Iamf.Props.C43_unequal_channels_break_the_queue", "Iamf.Props.C43_no_channels_never_end"], "note": ""},
 {"property": "C44", "status": "proved", "theorems": ["Iamf.Props.C44_frames_hold_the_samples", "Iamf.Props.C44_one_frame_for_every_substream", "Iamf.Props.C44_trimmed_frames_are_the_samples", "Iamf.Props.C44_end_trim_may_be_lost", "Iamf.Props.C44_short_block_is_trimmed_twice", "Iamf.Props.C44_end_depends_on_iteration_order", "Iamf.Props.C44_missing_metadata_crashes", "Iamf.Props.C44_unlisted_label_makes_silence", "Iamf.Props.C44_codec_delay_without_samples_never_ends", "Iamf.Props.C44_lpcm_frames_decode_to_their_samples"], "note": ""},
 {"property": "C45", "status": "proved", "theorems": ["Iamf.Props.C45_blocks_say_what_their_metadata_say", "Iamf.Props.C45_accepted_iff", "Iamf.Props.C45_recon_gains_do_not_depend_on_the_order"], "note": ""},
 {"property": "C46", "status": "proved", "theorems": ["Iamf.Props.C46_finalizing_again_does_nothing", "Iamf.Props.C46_samples_after_finalizing_are_ignored", "Iamf.Props.C46_generating_does_not_resume", "Iamf.Props.C46_generating_until_finalized", "Iamf.Props.C46_when_descriptors_are_final", "Iamf.Props.C46_no_redundant_descriptors", "Iamf.Props.C46_nothing_after_the_end"], "note": ""},
 {"property": "C47", "status": "proved", "theorems": ["Iamf.Props.C47_runs_are_histories", "Iamf.Props.C47_the_file_is_what_was_returned", "Iamf.Props.C47_samples_may_be_lost", "Iamf.Props.C47_late_arbitrary_obus_fail", "Iamf.Props.C47_stale_bytes"], "note": ""},
 {"property": "C48", "status": "proved", "theorems": ["Iamf.Props.C48_what_goes_in_comes_out"], "note": ""},
 {"property": "C49", "status": "proved", "theorems": ["Iamf.Props.C49_the_decoder_is_a_queue"], "note": ""},
 {"property": "C50", "status": "proved", "theorems": ["Iamf.Props.C50_reset_is_a_new_decoder", "Iamf.Props.C50_reset_works", "Iamf.Props.C50_new_mix_is_a_new_decoder", "Iamf.Props.C50_standalone_decoders_stay", "Iamf.Props.C50_layouts_are_reported_as_asked", "Iamf.Props.C50_reported_layouts"], "note": ""},
 {"property": "C51", "status": "proved", "theorems": ["Iamf.Props.C51_documented_size_is_enough"], "note": ""},
 {"property": "C52", "status": "proved", "theorems": ["Iamf.Props.C52_the_decoder_never_crashes", "Iamf.Props.C52_creation_never_crashes", "Iamf.Props.C52_android_order_can_crash"], "note": ""},
 {"property": "C53", "status": "proved", "theorems": ["Iamf.Props.C53_which_descriptors_can_be_played", "Iamf.Props.C53_what_a_created_decoder_plays", "Iamf.Props.C53_which_streams_can_be_played"], "note": ""},
 {"property": "C54", "status": "proved", "theorems": ["Iamf.Props.C54_samples_of_a_layout", "Iamf.Props.C54_post_processors_are_flushed", "Iamf.Props.C54_which_units_are_taken", "Iamf.Props.C54_measured_loudness", "Iamf.Props.C54_order_of_calls", "Iamf.Props.C54_without_rendering", "Iamf.Props.C54_second_request_is_not_validated", "Iamf.Props.C54_loudness_of_unrendered_layout_is_lost", "Iamf.Props.C54_doubled_id_is_accessed_out_of_range"], "note": ""},
 {"property": "C55", "status": "proved", "theorems": ["Iamf.Props.C55_loudness_of_what_was_encoded", "Iamf.Props.C55_loudness_of_the_input"], "note": ""},
 {"property": "C56", "status": "proved", "theorems": ["Iamf.Props.C56_what_the_encoder_is_given", "Iamf.Props.C56_samples_of_the_files", "Iamf.Props.C56_reading_never_fails", "Iamf.Props.C56_which_files_are_accepted", "Iamf.Props.C56_floating_point_samples", "Iamf.Props.C56_frames_without_parameter_blocks_fail", "Iamf.Props.C56_the_end_depends_on_the_order", "Iamf.Props.C56_an_incomplete_tick_makes_an_empty_frame", "Iamf.Props.C56_the_program_is_a_proper_loop", "Iamf.Props.C56_a_wav_file_comes_out_as_it_is"], "note": ""},
 {"property": "C57", "status": "proved", "theorems": ["Iamf.Props.C57_the_decoder_program_writes_the_sound", "Iamf.Props.C57_the_decoder_program_adds_nothing", "Iamf.Props.C57_abort_after_flush", "Iamf.Props.C57_files_left_behind", "Iamf.Props.C57_no_descriptors_no_file", "Iamf.Props.C57_units_may_be_lost", "Iamf.Props.C57_blocks_of_nothing", "Iamf.Props.C57_the_mix_as_a_wav_file", "Iamf.Props.C57_from_wav_to_wav", "Iamf.Props.C57_what_is_in_the_file", "Iamf.Props.C57_which_calls_are_accepted", "Iamf.Props.C57_which_files_are_written", "Iamf.Props.C57_output_formats", "Iamf.Props.C57_files_of_the_encoder"], "note": ""},
 {"property": "C58", "status": "proved", "theorems": ["Iamf.Props.C58_which_recon_gain", "Iamf.Props.C58_every_demixed_channel_gets_a_gain", "Iamf.Props.C58_which_channel_it_is_mixed_into", "Iamf.Props.C58_without_loss", "Iamf.Props.C58_gains_without_loss", "Iamf.Props.C58_the_gain_does_not_restore_the_level", "Iamf.Props.C58_weak_channels_are_undefined"], "note": ""},
 {"property": "C59", "status": "proved", "theorems": ["Iamf.Props.C59_presets", "Iamf.Props.C59_channels_are_copied", "Iamf.Props.C59_channels_are_mixed", "Iamf.Props.C59_flushing", "Iamf.Props.C59_demixing_undoes_mixing", "Iamf.Props.C59_level_of_mixed_channels", "Iamf.Props.C59_mixing_can_overload", "Iamf.Props.C59_down_mixing", "Iamf.Props.C59_is_a_down_mixer", "Iamf.Props.C59_substreams", "Iamf.Props.C59_mixed_ambisonics_are_heard", "Iamf.Props.C59_which_mixer"], "note": ""},
 {"property": "C60", "status": "proved", "theorems": ["Iamf.Props.C60_data_survive_metadata", "Iamf.Props.C60_known_positions", "Iamf.Props.C60_read_data_have_metadata", "Iamf.Props.C60_generated_data_have_metadata", "Iamf.Props.C60_unknown_positions_are_dropped", "Iamf.Props.C60_extension_metadata"], "note": ""},
 {"property": "C61", "status": "proved", "theorems": ["Iamf.Props.C61_codec_config", "Iamf.Props.C61_codec_configs", "Iamf.Props.C61_written_codec_config_is_read", "Iamf.Props.C61_sequence_header", "Iamf.Props.C61_sequence_header_metadata", "Iamf.Props.C61_example_opus", "Iamf.Props.C61_same_id_is_dropped", "Iamf.Props.C61_large_delay_wraps", "Iamf.Props.C61_extension_bytes"], "note": ""},
 {"property": "C62", "status": "proved", "theorems": ["Iamf.Props.C62_element", "Iamf.Props.C62_elements", "Iamf.Props.C62_written_element_is_read", "Iamf.Props.C62_example", "Iamf.Props.C62_objects_lose_parameters", "Iamf.Props.C62_reserved_bits_of_layouts_are_dropped", "Iamf.Props.C62_reserved_bits_are_narrowed", "Iamf.Props.C62_objects_are_counted_in_a_byte", "Iamf.Props.C62_two_subblocks_are_not_written"], "note": ""},
 {"property": "C63", "status": "proved", "theorems": ["Iamf.Props.C63_mix_presentation", "Iamf.Props.C63_mix_presentations", "Iamf.Props.C63_written_presentation_is_read", "Iamf.Props.C63_example", "Iamf.Props.C63_left_out_tags_are_written", "Iamf.Props.C63_positions_wrap", "Iamf.Props.C63_unwritable_presentations_are_made"], "note": ""},
 {"property": "C64", "status": "proved", "theorems": ["Iamf.Props.C64_arbitrary_obu", "Iamf.Props.C64_arbitrary_obus", "Iamf.Props.C64_metadata_obu", "Iamf.Props.C64_metadata_obus", "Iamf.Props.C64_written_metadata_is_read", "Iamf.Props.C64_country_codes_are_narrowed", "Iamf.Props.C64_leb_generator", "Iamf.Props.C64_example"], "note": ""},
 {"property": "C65", "status": "proved", "theorems": ["Iamf.Props.C65_declared_sequences_are_built", "Iamf.Props.C65_what_is_declared_is_read", "Iamf.Props.C65_objects_are_not_played", "Iamf.Props.C65_encoders_from_metadata", "Iamf.Props.C65_what_is_written", "Iamf.Props.C65_final_descriptors", "Iamf.Props.C65_example", "Iamf.Props.C65_final_example"], "note": ""},
 {"property": "C66", "status": "proved", "theorems": ["Iamf.Props.C66_elements_are_made", "Iamf.Props.C66_written_elements_are_read", "Iamf.Props.C66_frames", "Iamf.Props.C66_labels", "Iamf.Props.C66_lpcm", "Iamf.Props.C66_opus", "Iamf.Props.C66_opus_accepted", "Iamf.Props.C66_example", "Iamf.Props.C66_pack_formats", "Iamf.Props.C66_pack_formats_are_compared_as_text", "Iamf.Props.C66_ambisonics_labels"], "note": ""},
 {"property": "C67", "status": "proved", "theorems": ["Iamf.Props.C67_mixes_exactly", "Iamf.Props.C67_mixes", "Iamf.Props.C67_choices_lose_objects", "Iamf.Props.C67_later_programmes_are_lost", "Iamf.Props.C67_elements", "Iamf.Props.C67_layouts", "Iamf.Props.C67_without_programmes", "Iamf.Props.C67_layouts_found", "Iamf.Props.C67_layouts_are_exchanged", "Iamf.Props.C67_example", "Iamf.Props.C67_layouts_example", "Iamf.Props.C67_frame_size", "Iamf.Props.C67_frame_size_wraps"], "note": ""},
 {"property": "C68", "status": "proved", "theorems": ["Iamf.Props.C68_presentation", "Iamf.Props.C68_gains_fit", "Iamf.Props.C68_gains_clash", "Iamf.Props.C68_example"], "note": ""}
]}
