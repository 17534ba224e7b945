# Axioms used by each property theorem

Written by `tools/axioms.py` from `#print axioms`.

| theorem | axioms |
|---|---|
| `Infrared.C01_nec_pack_layout` | propext, Classical.choice, Quot.sound |
| `Infrared.C01_nec_roundtrip` | propext, Classical.choice, Quot.sound |
| `Infrared.C01_nec_validate_iff` | propext, Classical.choice, Quot.sound |
| `Infrared.C02_samsung_pack_layout` | propext, Classical.choice, Quot.sound |
| `Infrared.C02_samsung_roundtrip` | propext, Classical.choice, Quot.sound |
| `Infrared.C02_samsung_validate_iff` | propext, Classical.choice, Quot.sound |
| `Infrared.C03_nec16_pack_layout` | propext, Classical.choice, Quot.sound |
| `Infrared.C03_nec16_roundtrip` | propext, Classical.choice, Quot.sound |
| `Infrared.C03_nec16_validate_iff` | propext, Classical.choice, Quot.sound |
| `Infrared.C03_raw_roundtrip` | none |
| `Infrared.C04_apple_encode_panics` | propext, Quot.sound |
| `Infrared.C04_apple_injective` | propext, Classical.choice, Quot.sound |
| `Infrared.C04_apple_unpack` | propext, Classical.choice, Quot.sound |
| `Infrared.C04_apple_validate_iff` | propext, Classical.choice, Quot.sound |
| `Infrared.C05_disjoint_and_sub` | propext, Classical.choice, Quot.sound |
| `Infrared.C06_rc5_pack_layout` | propext, Classical.choice, Quot.sound |
| `Infrared.C06_rc5_pack_unpack` | propext, Classical.choice, Quot.sound |
| `Infrared.C06_rc5_roundtrip_iff` | propext, Classical.choice, Quot.sound |
| `Infrared.C06_rc5_unpack_fields` | propext, Classical.choice, Quot.sound |
| `Infrared.C07_sbp_ignores_unknown_bits` | propext, Classical.choice, Quot.sound |
| `Infrared.C07_sbp_unpack` | propext, Classical.choice, Quot.sound |
| `Infrared.C08_apple_create` | propext, Quot.sound |
| `Infrared.C08_nec_samsung_create` | propext |
| `Infrared.C08_rc5_create` | propext, Classical.choice, Quot.sound |
| `Infrared.C08_rc6_create` | propext, Classical.choice, Quot.sound |
| `Infrared.C08_sbp_create` | propext, Quot.sound |
| `Infrared.C09_protocol_id` | none |
| `Infrared.C100_busy` | propext, Classical.choice, Quot.sound |
| `Infrared.C100_ignored` | propext, Quot.sound |
| `Infrared.C100_nec` | propext, Classical.choice, Quot.sound |
| `Infrared.C100_nec_micros` | propext, Classical.choice, Quot.sound |
| `Infrared.C100_nec_stop_mark` | propext, Classical.choice, Quot.sound |
| `Infrared.C100_ones` | propext, Classical.choice, Quot.sound |
| `Infrared.C100_rc5` | propext, Classical.choice, Quot.sound |
| `Infrared.C100_rc6` | propext, Classical.choice, Quot.sound |
| `Infrared.C100_spare` | propext, Quot.sound |
| `Infrared.C101_nec` | propext, Classical.choice, Quot.sound |
| `Infrared.C101_rc5` | propext, Classical.choice, Quot.sound |
| `Infrared.C101_rc6` | propext, Classical.choice, Quot.sound |
| `Infrared.C102_falls_instants` | propext, Classical.choice, Quot.sound |
| `Infrared.C102_falls_polled` | propext, Classical.choice, Quot.sound |
| `Infrared.C102_falls_polled_runs` | propext, Classical.choice, Quot.sound |
| `Infrared.C102_rc5` | propext, Classical.choice, Quot.sound |
| `Infrared.C102_rc6` | propext, Classical.choice, Quot.sound |
| `Infrared.C102_too_much` | propext, Classical.choice, Quot.sound |
| `Infrared.C103_apple_accepts` | propext, Classical.choice, Quot.sound |
| `Infrared.C103_apple_nec16` | propext, Classical.choice, Quot.sound |
| `Infrared.C103_apple_rejects` | propext, Classical.choice, Quot.sound |
| `Infrared.C103_low_address` | propext, Classical.choice, Quot.sound |
| `Infrared.C103_same_words` | propext, Quot.sound |
| `Infrared.C103_same_words_instants` | propext, Quot.sound |
| `Infrared.C103_same_words_polled` | propext, Quot.sound |
| `Infrared.C103_session` | propext, Classical.choice, Quot.sound |
| `Infrared.C103_standard_remote` | propext, Classical.choice, Quot.sound |
| `Infrared.C104_nec` | propext, Classical.choice, Quot.sound |
| `Infrared.C104_nec_live` | propext, Classical.choice, Quot.sound |
| `Infrared.C104_nec_to_rc5_live` | propext, Classical.choice, Quot.sound |
| `Infrared.C104_rc5` | propext, Classical.choice, Quot.sound |
| `Infrared.C104_rc5_to_nec_live` | propext, Classical.choice, Quot.sound |
| `Infrared.C104_rc6` | propext, Classical.choice, Quot.sound |
| `Infrared.C104_rc6_live` | propext, Classical.choice, Quot.sound |
| `Infrared.C105_nec_session` | propext, Classical.choice, Quot.sound |
| `Infrared.C105_relay` | propext, Classical.choice, Quot.sound |
| `Infrared.C105_standard` | propext, Classical.choice, Quot.sound |
| `Infrared.C106_nec_to_rc5` | propext, Classical.choice, Quot.sound |
| `Infrared.C106_rc5_session` | propext, Classical.choice, Quot.sound |
| `Infrared.C106_rc5_to_nec` | propext, Classical.choice, Quot.sound |
| `Infrared.C106_rc6_relay` | propext, Classical.choice, Quot.sound |
| `Infrared.C106_rc6_session` | propext, Classical.choice, Quot.sound |
| `Infrared.C107_chain` | propext, Classical.choice, Quot.sound |
| `Infrared.C108_nec_to_rc6` | propext, Classical.choice, Quot.sound |
| `Infrared.C108_rc5_relay` | propext, Classical.choice, Quot.sound |
| `Infrared.C108_rc5_to_rc6` | propext, Classical.choice, Quot.sound |
| `Infrared.C108_rc6_to_nec` | propext, Classical.choice, Quot.sound |
| `Infrared.C108_rc6_to_rc5` | propext, Classical.choice, Quot.sound |
| `Infrared.C109_row` | propext, Classical.choice, Quot.sound |
| `Infrared.C10_any_fields` | none |
| `Infrared.C10_any_injective_nec_samsung_rc6` | propext |
| `Infrared.C10_any_injective_rc5_sbp` | propext |
| `Infrared.C10_any_tells_protocols` | propext, Quot.sound |
| `Infrared.C10_apple_iff` | propext, Classical.choice, Quot.sound |
| `Infrared.C10_apple_not_injective` | propext, Quot.sound |
| `Infrared.C110_heard` | propext, Classical.choice, Quot.sound |
| `Infrared.C110_nec` | propext, Classical.choice, Quot.sound |
| `Infrared.C110_relay` | propext, Classical.choice, Quot.sound |
| `Infrared.C111_any` | propext, Classical.choice, Quot.sound |
| `Infrared.C111_nec_presses` | propext, Classical.choice, Quot.sound |
| `Infrared.C111_rc5_heard` | propext, Classical.choice, Quot.sound |
| `Infrared.C111_rc5_presses` | propext, Classical.choice, Quot.sound |
| `Infrared.C111_rc5_relay` | propext, Classical.choice, Quot.sound |
| `Infrared.C111_rc6_heard` | propext, Classical.choice, Quot.sound |
| `Infrared.C111_rc6_presses` | propext, Classical.choice, Quot.sound |
| `Infrared.C111_rc6_relay` | propext, Classical.choice, Quot.sound |
| `Infrared.C112_row` | propext, Classical.choice, Quot.sound |
| `Infrared.C112_same` | propext, Classical.choice, Quot.sound |
| `Infrared.C11_build_profile_independent` | propext, Quot.sound |
| `Infrared.C11_build_total` | propext, Quot.sound |
| `Infrared.C12_scale_accuracy` | propext, Quot.sound |
| `Infrared.C12_scale_exact` | propext, Quot.sound |
| `Infrared.C13_scale_no_panic` | propext, Quot.sound |
| `Infrared.C13_scale_panics_iff` | propext, Quot.sound |
| `Infrared.C14_classification_unambiguous` | propext, Classical.choice, Quot.sound |
| `Infrared.C15_rc6_classification_partial` | propext, Classical.choice, Quot.sound |
| `Infrared.C15_rc6_nominal_partial` | propext, Classical.choice, Quot.sound |
| `Infrared.C15_rc6_overlap` | propext, Quot.sound |
| `Infrared.C16_check_overlaps_iff` | propext, Classical.choice, Quot.sound |
| `Infrared.C16_check_overlaps_useless` | propext, Quot.sound |
| `Infrared.C17_nec_frame_decoded` | propext, Classical.choice, Quot.sound |
| `Infrared.C17_nec_frame_decoded_any_clock` | propext, Classical.choice, Quot.sound |
| `Infrared.C17_nec_fresh_receiver` | propext, Classical.choice, Quot.sound |
| `Infrared.C18_nec_sound` | propext, Classical.choice, Quot.sound |
| `Infrared.C19_nec16_repeat_partial` | propext, Classical.choice, Quot.sound |
| `Infrared.C19_nec_repeat_generic_partial` | propext, Classical.choice, Quot.sound |
| `Infrared.C19_nec_repeat_partial` | propext, Classical.choice, Quot.sound |
| `Infrared.C19_repeat_after_abort` | propext, Quot.sound |
| `Infrared.C19_repeat_before_command` | propext, Quot.sound |
| `Infrared.C19_samsung_repeat_partial` | propext, Classical.choice, Quot.sound |
| `Infrared.C20_nec_resync` | propext, Classical.choice, Quot.sound |
| `Infrared.C21_apple_partial` | propext, Classical.choice, Quot.sound |
| `Infrared.C21_nec_returns_invalid_words` | propext, Classical.choice, Quot.sound |
| `Infrared.C21_nec_validate_not_called` | propext, Classical.choice, Quot.sound |
| `Infrared.C21_samsung_validate_not_called` | propext, Quot.sound |
| `Infrared.C22_sbp_consecutive_rising` | propext, Quot.sound |
| `Infrared.C22_sbp_frame_decoded` | propext, Classical.choice, Quot.sound |
| `Infrared.C22_sbp_sound` | propext, Classical.choice, Quot.sound |
| `Infrared.C23_denon_frame_partial` | propext, Classical.choice, Quot.sound |
| `Infrared.C23_denon_last_bit_lost` | propext, Classical.choice, Quot.sound |
| `Infrared.C23_denon_stale_bits` | propext, Classical.choice, Quot.sound |
| `Infrared.C24_rc5_frame_decoded` | propext, Classical.choice, Quot.sound |
| `Infrared.C25_rc5_sound` | propext, Classical.choice, Quot.sound |
| `Infrared.C26_rc6_frame_decoded` | propext, Classical.choice, Quot.sound |
| `Infrared.C26_rc6_short_leader_dropped` | propext, Quot.sound |
| `Infrared.C27_rc6_mode_ignored` | propext, Classical.choice, Quot.sound |
| `Infrared.C27_rc6_sound` | propext, Classical.choice, Quot.sound |
| `Infrared.C28_denon_no_error` | propext, Quot.sound |
| `Infrared.C28_nec_errors` | propext, Quot.sound |
| `Infrared.C28_rc5_no_error` | propext, Classical.choice, Quot.sound |
| `Infrared.C28_rc6_no_error` | propext, Classical.choice, Quot.sound |
| `Infrared.C28_sbp_errors` | propext, Quot.sound |
| `Infrared.C29_rc5_gap_forgets` | propext, Classical.choice, Quot.sound |
| `Infrared.C29_rc6_gap_forgets` | propext, Classical.choice, Quot.sound |
| `Infrared.C30_denon_panics_iff` | propext, Classical.choice, Quot.sound |
| `Infrared.C30_nec_panics_iff` | propext, Classical.choice, Quot.sound |
| `Infrared.C30_rc5_clock_overflow` | propext, Quot.sound |
| `Infrared.C30_rc5_no_panic` | propext, Classical.choice, Quot.sound |
| `Infrared.C30_rc6_clock_overflow` | propext, Quot.sound |
| `Infrared.C30_rc6_no_panic` | propext, Classical.choice, Quot.sound |
| `Infrared.C30_sbp_panics_iff` | propext, Quot.sound |
| `Infrared.C30_sbp_release` | propext, Quot.sound |
| `Infrared.C31_rc5_profile` | propext, Classical.choice, Quot.sound |
| `Infrared.C31_rc5_word_size` | propext, Classical.choice, Quot.sound |
| `Infrared.C31_rc6_profile` | propext, Classical.choice, Quot.sound |
| `Infrared.C31_rc6_word_size` | propext, Classical.choice, Quot.sound |
| `Infrared.C32_denon_ready` | propext, Quot.sound |
| `Infrared.C32_nec_ready` | propext, Classical.choice, Quot.sound |
| `Infrared.C32_rc5_ready` | propext, Quot.sound |
| `Infrared.C32_rc6_ready` | propext, Quot.sound |
| `Infrared.C32_sbp_ready` | propext, Quot.sound |
| `Infrared.C33_apple_stops_at_foreign_frame` | propext, Classical.choice, Quot.sound |
| `Infrared.C33_buffer_collect_partial` | propext, Classical.choice, Quot.sound |
| `Infrared.C33_buffer_denon` | propext, Classical.choice, Quot.sound |
| `Infrared.C33_buffer_next_sequence` | propext, Classical.choice, Quot.sound |
| `Infrared.C33_buffer_rc5` | propext, Classical.choice, Quot.sound |
| `Infrared.C33_buffer_rc6` | propext, Classical.choice, Quot.sound |
| `Infrared.C33_collect_stops_at_error` | propext, Classical.choice, Quot.sound |
| `Infrared.C34_poll_equiv` | propext, Quot.sound |
| `Infrared.C35_instant_equiv` | propext, Quot.sound |
| `Infrared.C35_instant_roundtrip` | propext, Classical.choice, Quot.sound |
| `Infrared.C35_wraparound_loses_frame` | propext, Quot.sound |
| `Infrared.C36_multi_independent` | propext, Quot.sound |
| `Infrared.C36_multi_panics_iff` | propext, Quot.sound |
| `Infrared.C36_multi_width` | propext, Quot.sound |
| `Infrared.C37_multi_pin` | Quot.sound |
| `Infrared.C37_multi_pin_iter` | Quot.sound |
| `Infrared.C37_pin_event` | propext, Quot.sound |
| `Infrared.C37_pin_event_instant` | propext, Quot.sound |
| `Infrared.C37_pin_poll` | propext, Quot.sound |
| `Infrared.C38_nec_compiles` | propext, Classical.choice, Quot.sound |
| `Infrared.C38_nec_encode` | propext, Classical.choice, Quot.sound |
| `Infrared.C38_nec_ticks` | propext, Classical.choice, Quot.sound |
| `Infrared.C38_nec_unchecked` | propext, Classical.choice, Quot.sound |
| `Infrared.C38_rc5_encode` | propext, Classical.choice, Quot.sound |
| `Infrared.C38_rc6_compiles` | propext, Quot.sound |
| `Infrared.C38_rc6_encode` | propext, Classical.choice, Quot.sound |
| `Infrared.C39_nec16_roundtrip` | propext, Classical.choice, Quot.sound |
| `Infrared.C39_nec_roundtrip` | propext, Classical.choice, Quot.sound |
| `Infrared.C39_nec_roundtrip_generic` | propext, Classical.choice, Quot.sound |
| `Infrared.C39_raw_roundtrip` | propext, Classical.choice, Quot.sound |
| `Infrared.C39_samsung_fails_at_13khz` | propext, Quot.sound |
| `Infrared.C39_samsung_roundtrip` | propext, Classical.choice, Quot.sound |
| `Infrared.C40_rc5_roundtrip` | propext, Classical.choice, Quot.sound |
| `Infrared.C40_rc5_roundtrip_exact` | propext, Classical.choice, Quot.sound |
| `Infrared.C41_rc6_bands` | propext, Classical.choice, Quot.sound |
| `Infrared.C41_rc6_fails_at_20khz` | propext, Classical.choice, Quot.sound |
| `Infrared.C41_rc6_fails_at_27027hz` | propext, Quot.sound |
| `Infrared.C41_rc6_roundtrip_partial` | propext, Classical.choice, Quot.sound |
| `Infrared.C42_first_on` | propext, Quot.sound |
| `Infrared.C42_load_panics_iff` | propext, Quot.sound |
| `Infrared.C42_run_length` | propext, Quot.sound |
| `Infrared.C43_command_first_partial` | propext, Quot.sound |
| `Infrared.C43_exact_buffer_partial` | propext, Quot.sound |
| `Infrared.C43_refuted_fresh` | propext, Classical.choice, Quot.sound |
| `Infrared.C43_refuted_fresh_load_dropped` | propext, Classical.choice, Quot.sound |
| `Infrared.C43_refuted_leftover` | propext, Classical.choice, Quot.sound |
| `Infrared.C43_refuted_stale` | propext |
| `Infrared.C44_idle_iff` | propext, Classical.choice, Quot.sound |
| `Infrared.C44_load_accepted` | propext, Classical.choice, Quot.sound |
| `Infrared.C44_load_ignored` | propext, Classical.choice, Quot.sound |
| `Infrared.C45_nec16_end_to_end` | propext, Classical.choice, Quot.sound |
| `Infrared.C45_nec_end_to_end` | propext, Classical.choice, Quot.sound |
| `Infrared.C45_raw_end_to_end` | propext, Classical.choice, Quot.sound |
| `Infrared.C45_rc5_end_to_end` | propext, Classical.choice, Quot.sound |
| `Infrared.C45_rc6_end_to_end` | propext, Classical.choice, Quot.sound |
| `Infrared.C45_samsung_end_to_end` | propext, Classical.choice, Quot.sound |
| `Infrared.C46_apple` | propext, Classical.choice, Quot.sound |
| `Infrared.C46_blu_ray` | propext, Classical.choice, Quot.sound |
| `Infrared.C46_cd_player` | propext, Classical.choice, Quot.sound |
| `Infrared.C46_samsung_tv` | propext, Classical.choice, Quot.sound |
| `Infrared.C46_special_for_mp3` | propext, Classical.choice, Quot.sound |
| `Infrared.C47_button_transparent` | none |
| `Infrared.C47_foreign_address` | propext, Classical.choice, Quot.sound |
| `Infrared.C48_names` | propext |
| `Infrared.C48_names_injective` | propext |
| `Infrared.C49_build_polled` | none |
| `Infrared.C49_builder` | propext, Quot.sound |
| `Infrared.C49_calls_commute` | propext |
| `Infrared.C50_denon_receiver` | propext, Classical.choice, Quot.sound |
| `Infrared.C50_nec_receiver` | propext, Classical.choice, Quot.sound |
| `Infrared.C50_samsung_receiver` | propext, Classical.choice, Quot.sound |
| `Infrared.C50_sbp_receiver` | propext, Classical.choice, Quot.sound |
| `Infrared.C51_denon_sound` | propext, Classical.choice, Quot.sound |
| `Infrared.C52_accepts` | propext, Quot.sound |
| `Infrared.C52_nec_variants` | propext, Quot.sound |
| `Infrared.C52_rejects` | propext, Quot.sound |
| `Infrared.C53_denon_real_time` | propext, Classical.choice, Quot.sound |
| `Infrared.C53_nec_limits` | propext, Classical.choice, Quot.sound |
| `Infrared.C53_nec_real_time` | propext, Classical.choice, Quot.sound |
| `Infrared.C53_rc5_real_time` | propext, Classical.choice, Quot.sound |
| `Infrared.C53_rc6_real_time` | propext, Classical.choice, Quot.sound |
| `Infrared.C53_samsung_real_time` | propext, Classical.choice, Quot.sound |
| `Infrared.C53_sbp_real_time` | propext, Classical.choice, Quot.sound |
| `Infrared.C54_nec_polled` | propext, Classical.choice, Quot.sound |
| `Infrared.C54_polled_line` | propext, Classical.choice, Quot.sound |
| `Infrared.C54_polled_line_long` | propext, Classical.choice, Quot.sound |
| `Infrared.C54_silent_line` | propext, Quot.sound |
| `Infrared.C55_nec_any_buffer` | propext, Classical.choice, Quot.sound |
| `Infrared.C55_nec_two_clocks` | propext, Classical.choice, Quot.sound |
| `Infrared.C55_rc5_two_clocks` | propext, Classical.choice, Quot.sound |
| `Infrared.C55_rc6_two_clocks` | propext, Classical.choice, Quot.sound |
| `Infrared.C55_refuted_slow_receiver` | propext, Quot.sound |
| `Infrared.C55_sender` | propext, Classical.choice, Quot.sound |
| `Infrared.C55_two_clocks` | propext, Classical.choice, Quot.sound |
| `Infrared.C55_two_clocks_long` | propext, Classical.choice, Quot.sound |
| `Infrared.C56_denon_series` | propext, Classical.choice, Quot.sound |
| `Infrared.C56_nec_series` | propext, Classical.choice, Quot.sound |
| `Infrared.C56_rc5_series` | propext, Classical.choice, Quot.sound |
| `Infrared.C56_rc6_series` | propext, Classical.choice, Quot.sound |
| `Infrared.C56_sbp_series` | propext, Classical.choice, Quot.sound |
| `Infrared.C57_nec16_session` | propext, Classical.choice, Quot.sound |
| `Infrared.C57_nec_session` | propext, Classical.choice, Quot.sound |
| `Infrared.C57_raw_session` | propext, Classical.choice, Quot.sound |
| `Infrared.C57_samsung_session` | propext, Classical.choice, Quot.sound |
| `Infrared.C57_standard_session` | propext, Classical.choice, Quot.sound |
| `Infrared.C58_rc5_new` | propext, Classical.choice, Quot.sound |
| `Infrared.C58_rc5_session` | propext, Classical.choice, Quot.sound |
| `Infrared.C58_rc6_new` | propext, Classical.choice, Quot.sound |
| `Infrared.C58_rc6_session` | propext, Classical.choice, Quot.sound |
| `Infrared.C59_cd_player` | propext, Classical.choice, Quot.sound |
| `Infrared.C59_samsung_tv` | propext, Classical.choice, Quot.sound |
| `Infrared.C59_special_for_mp3` | propext, Classical.choice, Quot.sound |
| `Infrared.C60_refuted_denon` | propext, Classical.choice, Quot.sound |
| `Infrared.C60_room` | propext, Classical.choice, Quot.sound |
| `Infrared.C60_room_pin` | propext, Classical.choice, Quot.sound |
| `Infrared.C61_appends` | propext, Quot.sound |
| `Infrared.C61_iterate` | propext, Quot.sound |
| `Infrared.C61_prepared` | propext, Classical.choice, Quot.sound |
| `Infrared.C61_recording_denon` | propext, Classical.choice, Quot.sound |
| `Infrared.C61_recording_nec` | propext, Classical.choice, Quot.sound |
| `Infrared.C61_recording_rc5` | propext, Classical.choice, Quot.sound |
| `Infrared.C61_recording_rc6` | propext, Classical.choice, Quot.sound |
| `Infrared.C61_recording_sbp` | propext, Classical.choice, Quot.sound |
| `Infrared.C61_resolution` | propext, Quot.sound |
| `Infrared.C61_transfer_nec` | propext, Classical.choice, Quot.sound |
| `Infrared.C61_transfer_nec16` | propext, Classical.choice, Quot.sound |
| `Infrared.C61_transfer_raw` | propext, Classical.choice, Quot.sound |
| `Infrared.C61_transfer_rc5` | propext, Classical.choice, Quot.sound |
| `Infrared.C61_transfer_rc6` | propext, Classical.choice, Quot.sound |
| `Infrared.C61_transfer_samsung` | propext, Classical.choice, Quot.sound |
| `Infrared.C62_nec_samsung_arrive_partial` | propext, Classical.choice, Quot.sound |
| `Infrared.C62_nec_truncates` | propext, Classical.choice, Quot.sound |
| `Infrared.C62_rc5_arrives_partial` | propext, Classical.choice, Quot.sound |
| `Infrared.C62_rc5_mixes` | propext, Classical.choice, Quot.sound |
| `Infrared.C62_rc6_arrives` | propext, Classical.choice, Quot.sound |
| `Infrared.C62_refuted` | propext, Classical.choice, Quot.sound |
| `Infrared.C62_samsung_truncates` | propext, Classical.choice, Quot.sound |
| `Infrared.C63_build` | propext, Quot.sound |
| `Infrared.C63_denon_series` | propext, Classical.choice, Quot.sound |
| `Infrared.C63_long_pause_panics` | propext, Quot.sound |
| `Infrared.C63_nec_series` | propext, Classical.choice, Quot.sound |
| `Infrared.C63_rc5_series` | propext, Classical.choice, Quot.sound |
| `Infrared.C63_rc6_series` | propext, Classical.choice, Quot.sound |
| `Infrared.C63_sbp_series` | propext, Classical.choice, Quot.sound |
| `Infrared.C63_unambiguous` | propext, Classical.choice, Quot.sound |
| `Infrared.C64_denon_real_time` | propext, Classical.choice, Quot.sound |
| `Infrared.C64_instants` | propext, Classical.choice, Quot.sound |
| `Infrared.C64_nec_real_time` | propext, Classical.choice, Quot.sound |
| `Infrared.C64_rc5_real_time` | propext, Classical.choice, Quot.sound |
| `Infrared.C64_rc6_real_time` | propext, Classical.choice, Quot.sound |
| `Infrared.C64_sbp_real_time` | propext, Classical.choice, Quot.sound |
| `Infrared.C65_denon_events` | propext, Classical.choice, Quot.sound |
| `Infrared.C65_denon_polled` | propext, Classical.choice, Quot.sound |
| `Infrared.C65_nec_events` | propext, Classical.choice, Quot.sound |
| `Infrared.C65_nec_polled` | propext, Classical.choice, Quot.sound |
| `Infrared.C65_rc5_events` | propext, Classical.choice, Quot.sound |
| `Infrared.C65_rc5_polled` | propext, Classical.choice, Quot.sound |
| `Infrared.C65_rc6_events` | propext, Classical.choice, Quot.sound |
| `Infrared.C65_rc6_polled` | propext, Classical.choice, Quot.sound |
| `Infrared.C65_sbp_events` | propext, Classical.choice, Quot.sound |
| `Infrared.C65_sbp_polled` | propext, Classical.choice, Quot.sound |
| `Infrared.C66_denon` | propext, Classical.choice, Quot.sound |
| `Infrared.C66_nec` | propext, Classical.choice, Quot.sound |
| `Infrared.C66_nec_frame_first` | none |
| `Infrared.C66_rc5` | propext, Classical.choice, Quot.sound |
| `Infrared.C66_rc6` | propext, Classical.choice, Quot.sound |
| `Infrared.C66_sbp` | propext, Classical.choice, Quot.sound |
| `Infrared.C67_denon` | propext, Classical.choice, Quot.sound |
| `Infrared.C67_nec` | propext, Classical.choice, Quot.sound |
| `Infrared.C67_rc5` | propext, Classical.choice, Quot.sound |
| `Infrared.C67_rc6` | propext, Classical.choice, Quot.sound |
| `Infrared.C67_sbp` | propext, Classical.choice, Quot.sound |
| `Infrared.C68_heard` | propext, Classical.choice, Quot.sound |
| `Infrared.C68_output` | propext, Classical.choice, Quot.sound |
| `Infrared.C69_external` | propext, Quot.sound |
| `Infrared.C69_newest` | propext |
| `Infrared.C69_nothing_lost` | propext, Classical.choice, Quot.sound |
| `Infrared.C69_polled` | propext |
| `Infrared.C69_polled_nec` | propext, Classical.choice, Quot.sound |
| `Infrared.C69_sublist` | propext |
| `Infrared.C70_held_partial` | propext, Classical.choice, Quot.sound |
| `Infrared.C70_mouse` | propext, Quot.sound |
| `Infrared.C70_mouse_never_clicks` | propext, Quot.sound |
| `Infrared.C70_moved` | propext, Classical.choice, Quot.sound |
| `Infrared.C70_no_click` | propext, Quot.sound |
| `Infrared.C70_overflow` | propext, Quot.sound |
| `Infrared.C71_media` | propext, Classical.choice, Quot.sound |
| `Infrared.C71_never_stop` | propext, Classical.choice, Quot.sound |
| `Infrared.C71_typed` | propext, Classical.choice, Quot.sound |
| `Infrared.C72_event` | propext, Quot.sound |
| `Infrared.C72_gaps` | propext, Quot.sound |
| `Infrared.C72_multi` | propext, Quot.sound |
| `Infrared.C72_nec_heard` | propext, Classical.choice, Quot.sound |
| `Infrared.C72_rc5_first_lost` | propext, Classical.choice, Quot.sound |
| `Infrared.C72_rc6_first_lost` | propext, Classical.choice, Quot.sound |
| `Infrared.C73_lines` | propext, Quot.sound |
| `Infrared.C73_other_wires` | propext, Quot.sound |
| `Infrared.C73_samplerate` | propext, Classical.choice, Quot.sound |
| `Infrared.C73_samsung` | propext, Classical.choice, Quot.sound |
| `Infrared.C74_remote` | propext, Classical.choice, Quot.sound |
| `Infrared.C74_tutorial` | propext, Classical.choice, Quot.sound |
| `Infrared.C75_nec` | propext, Classical.choice, Quot.sound |
| `Infrared.C75_rc5` | propext, Classical.choice, Quot.sound |
| `Infrared.C75_rc6` | propext, Classical.choice, Quot.sound |
| `Infrared.C76_denon` | propext, Classical.choice, Quot.sound |
| `Infrared.C76_multi` | propext, Quot.sound |
| `Infrared.C76_nec` | propext, Classical.choice, Quot.sound |
| `Infrared.C76_poll_no_panic` | propext, Classical.choice, Quot.sound |
| `Infrared.C76_poll_no_panic_manchester` | propext, Classical.choice, Quot.sound |
| `Infrared.C76_poll_panics_iff` | propext, Classical.choice, Quot.sound |
| `Infrared.C76_rc5` | propext, Classical.choice, Quot.sound |
| `Infrared.C76_rc5_square_wave` | propext, Quot.sound |
| `Infrared.C76_rc6` | propext, Classical.choice, Quot.sound |
| `Infrared.C76_sbp` | propext, Classical.choice, Quot.sound |
| `Infrared.C77_denon` | propext, Quot.sound |
| `Infrared.C77_lenient` | propext, Quot.sound |
| `Infrared.C77_multi` | propext, Quot.sound |
| `Infrared.C77_nec` | propext, Quot.sound |
| `Infrared.C77_rc5` | propext, Quot.sound |
| `Infrared.C77_rc5_encode` | propext, Quot.sound |
| `Infrared.C77_rc6` | propext, Quot.sound |
| `Infrared.C77_sbp` | propext, Quot.sound |
| `Infrared.C78_denon` | propext, Classical.choice, Quot.sound |
| `Infrared.C78_denon_polled` | propext, Classical.choice, Quot.sound |
| `Infrared.C78_nec` | propext, Classical.choice, Quot.sound |
| `Infrared.C78_nec_polled` | propext, Classical.choice, Quot.sound |
| `Infrared.C78_rc5` | propext, Classical.choice, Quot.sound |
| `Infrared.C78_rc5_polled` | propext, Classical.choice, Quot.sound |
| `Infrared.C78_rc6` | propext, Classical.choice, Quot.sound |
| `Infrared.C78_rc6_polled` | propext, Classical.choice, Quot.sound |
| `Infrared.C78_sbp` | propext, Classical.choice, Quot.sound |
| `Infrared.C78_sbp_polled` | propext, Classical.choice, Quot.sound |
| `Infrared.C78_symbol_iff` | propext, Classical.choice, Quot.sound |
| `Infrared.C79_denon_partial` | propext, Classical.choice, Quot.sound |
| `Infrared.C79_nec_partial` | propext, Classical.choice, Quot.sound |
| `Infrared.C79_rc5_partial` | propext, Classical.choice, Quot.sound |
| `Infrared.C79_rc6_deaf` | propext, Classical.choice, Quot.sound |
| `Infrared.C79_rc6_deaf_buffer` | propext, Classical.choice, Quot.sound |
| `Infrared.C79_rc6_deaf_polled` | propext, Classical.choice, Quot.sound |
| `Infrared.C79_sbp_partial` | propext, Classical.choice, Quot.sound |
| `Infrared.C79_tolerances` | propext, Quot.sound |
| `Infrared.C80_never_power` | propext, Classical.choice, Quot.sound |
| `Infrared.C80_polled` | propext, Classical.choice, Quot.sound |
| `Infrared.C80_polled_heard` | propext, Classical.choice, Quot.sound |
| `Infrared.C80_rtic` | propext |
| `Infrared.C80_rtic_heard` | propext, Classical.choice, Quot.sound |
| `Infrared.C80_tutorial` | propext, Quot.sound |
| `Infrared.C80_tutorial_heard` | propext, Classical.choice, Quot.sound |
| `Infrared.C81_denon` | propext, Classical.choice, Quot.sound |
| `Infrared.C81_denon_polled` | propext, Classical.choice, Quot.sound |
| `Infrared.C81_limits` | propext, Classical.choice, Quot.sound |
| `Infrared.C81_limits_polled` | propext, Classical.choice, Quot.sound |
| `Infrared.C81_nec` | propext, Classical.choice, Quot.sound |
| `Infrared.C81_nec_polled` | propext, Classical.choice, Quot.sound |
| `Infrared.C81_nec_telling` | propext, Quot.sound |
| `Infrared.C81_rc5` | propext, Classical.choice, Quot.sound |
| `Infrared.C81_rc5_polled` | propext, Classical.choice, Quot.sound |
| `Infrared.C81_rc6` | propext, Classical.choice, Quot.sound |
| `Infrared.C81_rc6_polled` | propext, Classical.choice, Quot.sound |
| `Infrared.C81_sbp` | propext, Classical.choice, Quot.sound |
| `Infrared.C81_sbp_polled` | propext, Classical.choice, Quot.sound |
| `Infrared.C82_denon` | propext, Classical.choice, Quot.sound |
| `Infrared.C82_nec` | propext, Classical.choice, Quot.sound |
| `Infrared.C82_rc5` | propext, Classical.choice, Quot.sound |
| `Infrared.C82_rc6` | propext, Classical.choice, Quot.sound |
| `Infrared.C82_sbp` | propext, Classical.choice, Quot.sound |
| `Infrared.C83_delay` | propext, Classical.choice, Quot.sound |
| `Infrared.C83_denon_events` | propext, Classical.choice, Quot.sound |
| `Infrared.C83_denon_polled` | propext, Classical.choice, Quot.sound |
| `Infrared.C83_nec_events` | propext, Classical.choice, Quot.sound |
| `Infrared.C83_nec_polled` | propext, Classical.choice, Quot.sound |
| `Infrared.C83_placement` | propext, Classical.choice, Quot.sound |
| `Infrared.C83_rc5_events` | propext, Classical.choice, Quot.sound |
| `Infrared.C83_rc5_polled` | propext, Classical.choice, Quot.sound |
| `Infrared.C83_rc6_events` | propext, Classical.choice, Quot.sound |
| `Infrared.C83_rc6_polled` | propext, Classical.choice, Quot.sound |
| `Infrared.C83_sbp_events` | propext, Classical.choice, Quot.sound |
| `Infrared.C83_sbp_polled` | propext, Classical.choice, Quot.sound |
| `Infrared.C84_apple_events` | propext, Classical.choice, Quot.sound |
| `Infrared.C84_apple_polled` | propext, Classical.choice, Quot.sound |
| `Infrared.C84_nec_events` | propext, Classical.choice, Quot.sound |
| `Infrared.C84_nec_polled` | propext, Classical.choice, Quot.sound |
| `Infrared.C84_rc5_events_partial` | propext, Classical.choice, Quot.sound |
| `Infrared.C84_rc5_polled_partial` | propext, Classical.choice, Quot.sound |
| `Infrared.C84_rc6_events_partial` | propext, Classical.choice, Quot.sound |
| `Infrared.C84_rc6_polled_partial` | propext, Classical.choice, Quot.sound |
| `Infrared.C84_refuted` | propext, Classical.choice, Quot.sound |
| `Infrared.C84_samsung_events` | propext, Classical.choice, Quot.sound |
| `Infrared.C84_samsung_polled` | propext, Classical.choice, Quot.sound |
| `Infrared.C84_sbp_events_partial` | propext, Classical.choice, Quot.sound |
| `Infrared.C84_sbp_polled_partial` | propext, Classical.choice, Quot.sound |
| `Infrared.C85_denon_late` | propext, Classical.choice, Quot.sound |
| `Infrared.C85_denon_uneven` | propext, Classical.choice, Quot.sound |
| `Infrared.C85_nec_late` | propext, Classical.choice, Quot.sound |
| `Infrared.C85_nec_uneven` | propext, Classical.choice, Quot.sound |
| `Infrared.C85_rc5_late` | propext, Classical.choice, Quot.sound |
| `Infrared.C85_rc5_uneven` | propext, Classical.choice, Quot.sound |
| `Infrared.C85_rc6_late` | propext, Classical.choice, Quot.sound |
| `Infrared.C85_rc6_uneven` | propext, Classical.choice, Quot.sound |
| `Infrared.C85_sbp_late` | propext, Classical.choice, Quot.sound |
| `Infrared.C85_sbp_uneven` | propext, Classical.choice, Quot.sound |
| `Infrared.C86_denon` | propext, Classical.choice, Quot.sound |
| `Infrared.C86_nec` | propext, Classical.choice, Quot.sound |
| `Infrared.C86_rc5` | propext, Classical.choice, Quot.sound |
| `Infrared.C86_rc6` | propext, Classical.choice, Quot.sound |
| `Infrared.C86_sbp` | propext, Classical.choice, Quot.sound |
| `Infrared.C87_nec_late` | propext, Classical.choice, Quot.sound |
| `Infrared.C87_nec_uneven` | propext, Classical.choice, Quot.sound |
| `Infrared.C87_rc5_late` | propext, Classical.choice, Quot.sound |
| `Infrared.C87_rc5_uneven` | propext, Classical.choice, Quot.sound |
| `Infrared.C87_rc6_late` | propext, Classical.choice, Quot.sound |
| `Infrared.C87_rc6_uneven` | propext, Classical.choice, Quot.sound |
| `Infrared.C88_denon` | propext, Classical.choice, Quot.sound |
| `Infrared.C88_denon_complete_only` | propext, Quot.sound |
| `Infrared.C88_denon_polled` | propext, Classical.choice, Quot.sound |
| `Infrared.C88_nec` | propext, Classical.choice, Quot.sound |
| `Infrared.C88_nec_complete_only` | propext, Quot.sound |
| `Infrared.C88_nec_polled` | propext, Classical.choice, Quot.sound |
| `Infrared.C88_rc5` | propext, Classical.choice, Quot.sound |
| `Infrared.C88_rc5_polled` | propext, Classical.choice, Quot.sound |
| `Infrared.C88_rc6` | propext, Classical.choice, Quot.sound |
| `Infrared.C88_rc6_polled` | propext, Classical.choice, Quot.sound |
| `Infrared.C88_sbp` | propext, Classical.choice, Quot.sound |
| `Infrared.C88_sbp_complete_only` | propext, Quot.sound |
| `Infrared.C88_sbp_polled` | propext, Classical.choice, Quot.sound |
| `Infrared.C89_denon` | propext, Classical.choice, Quot.sound |
| `Infrared.C89_denon_polled` | propext, Classical.choice, Quot.sound |
| `Infrared.C89_nec` | propext, Classical.choice, Quot.sound |
| `Infrared.C89_nec_polled` | propext, Classical.choice, Quot.sound |
| `Infrared.C89_rc5` | propext, Classical.choice, Quot.sound |
| `Infrared.C89_rc5_polled` | propext, Classical.choice, Quot.sound |
| `Infrared.C89_rc6` | propext, Classical.choice, Quot.sound |
| `Infrared.C89_rc6_polled` | propext, Classical.choice, Quot.sound |
| `Infrared.C89_sbp` | propext, Classical.choice, Quot.sound |
| `Infrared.C89_sbp_polled` | propext, Classical.choice, Quot.sound |
| `Infrared.C90_denon_deaf` | propext, Classical.choice, Quot.sound |
| `Infrared.C90_denon_deaf_polled` | propext, Classical.choice, Quot.sound |
| `Infrared.C90_nec_fast` | propext, Classical.choice, Quot.sound |
| `Infrared.C90_nec_fast_polled` | propext, Classical.choice, Quot.sound |
| `Infrared.C90_nec_slow` | propext, Classical.choice, Quot.sound |
| `Infrared.C90_nec_slow_polled` | propext, Classical.choice, Quot.sound |
| `Infrared.C90_rc5_deaf` | propext, Classical.choice, Quot.sound |
| `Infrared.C90_rc5_deaf_polled` | propext, Classical.choice, Quot.sound |
| `Infrared.C90_rc6_deaf` | propext, Classical.choice, Quot.sound |
| `Infrared.C90_rc6_deaf_polled` | propext, Classical.choice, Quot.sound |
| `Infrared.C90_samsung_slow` | propext, Classical.choice, Quot.sound |
| `Infrared.C90_samsung_slow_polled` | propext, Classical.choice, Quot.sound |
| `Infrared.C90_sbp_deaf` | propext, Classical.choice, Quot.sound |
| `Infrared.C90_sbp_deaf_polled` | propext, Classical.choice, Quot.sound |
| `Infrared.C91_denon` | propext, Classical.choice, Quot.sound |
| `Infrared.C91_denon_polled` | propext, Classical.choice, Quot.sound |
| `Infrared.C91_nec` | propext, Classical.choice, Quot.sound |
| `Infrared.C91_nec_polled` | propext, Classical.choice, Quot.sound |
| `Infrared.C91_rc5` | propext, Classical.choice, Quot.sound |
| `Infrared.C91_rc5_polled` | propext, Classical.choice, Quot.sound |
| `Infrared.C91_rc6` | propext, Classical.choice, Quot.sound |
| `Infrared.C91_rc6_polled` | propext, Classical.choice, Quot.sound |
| `Infrared.C91_sbp` | propext, Classical.choice, Quot.sound |
| `Infrared.C91_sbp_polled` | propext, Classical.choice, Quot.sound |
| `Infrared.C92_denon` | propext, Classical.choice, Quot.sound |
| `Infrared.C92_denon_polled` | propext, Classical.choice, Quot.sound |
| `Infrared.C92_mailbox` | propext, Classical.choice, Quot.sound |
| `Infrared.C92_nec` | propext, Classical.choice, Quot.sound |
| `Infrared.C92_nec_polled` | propext, Classical.choice, Quot.sound |
| `Infrared.C92_polled_nec` | propext, Classical.choice, Quot.sound |
| `Infrared.C92_rate` | propext, Classical.choice, Quot.sound |
| `Infrared.C92_rc5` | propext, Classical.choice, Quot.sound |
| `Infrared.C92_rc5_no_time_false` | propext, Quot.sound |
| `Infrared.C92_rc5_polled` | propext, Classical.choice, Quot.sound |
| `Infrared.C92_rc6` | propext, Classical.choice, Quot.sound |
| `Infrared.C92_rc6_polled` | propext, Classical.choice, Quot.sound |
| `Infrared.C92_samsung` | propext, Classical.choice, Quot.sound |
| `Infrared.C92_samsung_polled` | propext, Classical.choice, Quot.sound |
| `Infrared.C92_sbp` | propext, Classical.choice, Quot.sound |
| `Infrared.C92_sbp_missing_edges_false` | propext, Quot.sound |
| `Infrared.C92_sbp_polled` | propext, Classical.choice, Quot.sound |
| `Infrared.C93_denon` | propext, Classical.choice, Quot.sound |
| `Infrared.C93_denon_polled` | propext, Classical.choice, Quot.sound |
| `Infrared.C93_nec` | propext, Classical.choice, Quot.sound |
| `Infrared.C93_nec_detected` | propext, Quot.sound |
| `Infrared.C93_nec_polled` | propext, Classical.choice, Quot.sound |
| `Infrared.C93_nec_slipped` | propext, Quot.sound |
| `Infrared.C93_sbp` | propext, Classical.choice, Quot.sound |
| `Infrared.C93_sbp_detected` | propext, Quot.sound |
| `Infrared.C93_sbp_polled` | propext, Classical.choice, Quot.sound |
| `Infrared.C93_slip_invalid` | propext, Classical.choice, Quot.sound |
| `Infrared.C93_validated` | propext, Classical.choice, Quot.sound |
| `Infrared.C94_denon` | propext, Classical.choice, Quot.sound |
| `Infrared.C94_denon_missing` | propext, Quot.sound |
| `Infrared.C94_denon_polled` | propext, Classical.choice, Quot.sound |
| `Infrared.C94_fuse_invalid` | propext, Classical.choice, Quot.sound |
| `Infrared.C94_nec` | propext, Classical.choice, Quot.sound |
| `Infrared.C94_nec_detected` | propext, Quot.sound |
| `Infrared.C94_nec_polled` | propext, Classical.choice, Quot.sound |
| `Infrared.C94_sbp` | propext, Classical.choice, Quot.sound |
| `Infrared.C94_sbp_detected` | propext, Quot.sound |
| `Infrared.C94_sbp_polled` | propext, Classical.choice, Quot.sound |
| `Infrared.C94_validated` | propext, Classical.choice, Quot.sound |
| `Infrared.C95_denon` | propext, Classical.choice, Quot.sound |
| `Infrared.C95_denon_commands` | propext, Quot.sound |
| `Infrared.C95_denon_polled` | propext, Classical.choice, Quot.sound |
| `Infrared.C95_nec` | propext, Classical.choice, Quot.sound |
| `Infrared.C95_nec_fresh` | propext, Classical.choice, Quot.sound |
| `Infrared.C95_nec_heard` | propext, Quot.sound |
| `Infrared.C95_nec_polled` | propext, Classical.choice, Quot.sound |
| `Infrared.C95_rc5` | propext, Classical.choice, Quot.sound |
| `Infrared.C95_rc5_commands` | propext, Quot.sound |
| `Infrared.C95_rc5_polled` | propext, Classical.choice, Quot.sound |
| `Infrared.C95_rc6` | propext, Classical.choice, Quot.sound |
| `Infrared.C95_rc6_commands` | propext, Quot.sound |
| `Infrared.C95_rc6_polled` | propext, Classical.choice, Quot.sound |
| `Infrared.C95_sbp` | propext, Classical.choice, Quot.sound |
| `Infrared.C95_sbp_commands` | propext, Quot.sound |
| `Infrared.C95_sbp_polled` | propext, Classical.choice, Quot.sound |
| `Infrared.C96_rc5` | propext, Classical.choice, Quot.sound |
| `Infrared.C96_rc5_commands` | propext, Quot.sound |
| `Infrared.C96_rc5_polled` | propext, Classical.choice, Quot.sound |
| `Infrared.C96_rc6` | propext, Classical.choice, Quot.sound |
| `Infrared.C96_rc6_commands` | propext, Quot.sound |
| `Infrared.C96_rc6_polled` | propext, Classical.choice, Quot.sound |
| `Infrared.C96_short_spike_wrong` | propext, Quot.sound |
| `Infrared.C97_apple_receiver` | propext, Classical.choice, Quot.sound |
| `Infrared.C97_apple_validate` | propext, Classical.choice, Quot.sound |
| `Infrared.C97_burst_noticed` | propext, Classical.choice, Quot.sound |
| `Infrared.C97_burst_of_nine` | propext, Quot.sound |
| `Infrared.C97_nec16_receiver` | propext, Classical.choice, Quot.sound |
| `Infrared.C97_nec16_unpack` | propext, Classical.choice, Quot.sound |
| `Infrared.C97_nec16_validate` | propext, Classical.choice, Quot.sound |
| `Infrared.C97_nec_receiver` | propext, Classical.choice, Quot.sound |
| `Infrared.C97_nec_unpack` | propext, Classical.choice, Quot.sound |
| `Infrared.C97_nec_validate` | propext, Classical.choice, Quot.sound |
| `Infrared.C97_odd_noticed` | propext, Classical.choice, Quot.sound |
| `Infrared.C97_raw_checked` | propext, Classical.choice, Quot.sound |
| `Infrared.C97_samsung_receiver` | propext, Classical.choice, Quot.sound |
| `Infrared.C97_samsung_unpack` | propext, Classical.choice, Quot.sound |
| `Infrared.C97_samsung_validate` | propext, Classical.choice, Quot.sound |
| `Infrared.C97_sbp_receiver` | propext, Classical.choice, Quot.sound |
| `Infrared.C97_sbp_valid` | propext, Classical.choice, Quot.sound |
| `Infrared.C98_denon` | propext, Classical.choice, Quot.sound |
| `Infrared.C98_nec` | propext, Classical.choice, Quot.sound |
| `Infrared.C98_one_lap` | propext, Classical.choice, Quot.sound |
| `Infrared.C98_sbp` | propext, Classical.choice, Quot.sound |
| `Infrared.C99_rc5` | propext, Classical.choice, Quot.sound |
| `Infrared.C99_rc5_wrong` | propext, Classical.choice, Quot.sound |
| `Infrared.C99_rc6` | propext, Classical.choice, Quot.sound |
| `Infrared.C99_rc6_wrong` | propext, Classical.choice, Quot.sound |
