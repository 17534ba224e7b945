{
 "claims": [
  {
   "property": "C01",
   "status": "proved",
   "theorems": [
    "Infrared.C01_nec_pack_layout",
    "Infrared.C01_nec_roundtrip",
    "Infrared.C01_nec_validate_iff"
   ],
   "note": ""
  },
  {
   "property": "C02",
   "status": "proved",
   "theorems": [
    "Infrared.C02_samsung_pack_layout",
    "Infrared.C02_samsung_roundtrip",
    "Infrared.C02_samsung_validate_iff"
   ],
   "note": ""
  },
  {
   "property": "C03",
   "status": "proved",
   "theorems": [
    "Infrared.C03_nec16_pack_layout",
    "Infrared.C03_nec16_roundtrip",
    "Infrared.C03_nec16_validate_iff",
    "Infrared.C03_raw_roundtrip"
   ],
   "note": ""
  },
  {
   "property": "C04",
   "status": "proved",
   "theorems": [
    "Infrared.C04_apple_validate_iff",
    "Infrared.C04_apple_unpack",
    "Infrared.C04_apple_injective",
    "Infrared.C04_apple_encode_panics"
   ],
   "note": ""
  },
  {
   "property": "C05",
   "status": "proved",
   "theorems": [
    "Infrared.C05_disjoint_and_sub"
   ],
   "note": ""
  },
  {
   "property": "C06",
   "status": "proved",
   "theorems": [
    "Infrared.C06_rc5_pack_layout",
    "Infrared.C06_rc5_unpack_fields",
    "Infrared.C06_rc5_roundtrip_iff",
    "Infrared.C06_rc5_pack_unpack"
   ],
   "note": ""
  },
  {
   "property": "C07",
   "status": "proved",
   "theorems": [
    "Infrared.C07_sbp_unpack",
    "Infrared.C07_sbp_ignores_unknown_bits"
   ],
   "note": ""
  },
  {
   "property": "C08",
   "status": "proved",
   "theorems": [
    "Infrared.C08_nec_samsung_create",
    "Infrared.C08_rc5_create",
    "Infrared.C08_rc6_create",
    "Infrared.C08_sbp_create",
    "Infrared.C08_apple_create"
   ],
   "note": ""
  },
  {
   "property": "C09",
   "status": "proved",
   "theorems": [
    "Infrared.C09_protocol_id"
   ],
   "note": ""
  },
  {
   "property": "C10",
   "status": "proved",
   "theorems": [
    "Infrared.C10_apple_iff",
    "Infrared.C10_any_tells_protocols",
    "Infrared.C10_any_fields",
    "Infrared.C10_any_injective_nec_samsung_rc6",
    "Infrared.C10_any_injective_rc5_sbp",
    "Infrared.C10_apple_not_injective"
   ],
   "note": "The property excludes Apple; for Apple C10_apple_not_injective exhibits the Apple collision and C10_apple_iff says exactly which Apple commands collide (only the command, the low bit of the page and the repeat flag survive)."
  },
  {
   "property": "C11",
   "status": "proved",
   "theorems": [
    "Infrared.C11_build_total",
    "Infrared.C11_build_profile_independent"
   ],
   "note": ""
  },
  {
   "property": "C12",
   "status": "proved",
   "theorems": [
    "Infrared.C12_scale_accuracy",
    "Infrared.C12_scale_exact"
   ],
   "note": ""
  },
  {
   "property": "C13",
   "status": "proved",
   "theorems": [
    "Infrared.C13_scale_panics_iff",
    "Infrared.C13_scale_no_panic"
   ],
   "note": ""
  },
  {
   "property": "C14",
   "status": "proved",
   "theorems": [
    "Infrared.C14_classification_unambiguous"
   ],
   "note": ""
  },
  {
   "property": "C15",
   "status": "partial",
   "theorems": [
    "Infrared.C15_rc6_classification_partial",
    "Infrared.C15_rc6_nominal_partial",
    "Infrared.C15_rc6_overlap"
   ],
   "note": "False of the code: C15_rc6_overlap shows in-tolerance RC6 pulses of 4/5 and 5/6 half-bits that are classified as the neighbour. Proved for the other symbols and for nominal lengths."
  },
  {
   "property": "C16",
   "status": "partial",
   "theorems": [
    "Infrared.C16_check_overlaps_iff",
    "Infrared.C16_check_overlaps_useless"
   ],
   "note": "The decision itself is characterised (C16_check_overlaps_iff); the claim that it detects confusable symbols is refuted (C16_check_overlaps_useless)."
  },
  {
   "property": "C17",
   "status": "proved",
   "theorems": [
    "Infrared.C17_nec_frame_decoded",
    "Infrared.C17_nec_frame_decoded_any_clock",
    "Infrared.C17_nec_fresh_receiver"
   ],
   "note": ""
  },
  {
   "property": "C18",
   "status": "proved",
   "theorems": [
    "Infrared.C18_nec_sound"
   ],
   "note": ""
  },
  {
   "property": "C19",
   "status": "partial",
   "theorems": [
    "Infrared.C19_nec_repeat_generic_partial",
    "Infrared.C19_nec_repeat_partial",
    "Infrared.C19_samsung_repeat_partial",
    "Infrared.C19_nec16_repeat_partial",
    "Infrared.C19_repeat_after_abort",
    "Infrared.C19_repeat_before_command"
   ],
   "note": "False without restriction: C19_repeat_after_abort and C19_repeat_before_command are counterexamples. Proved for repeats following a completed command with no aborted frame in between. What is said for every sequence of edges is C67_nec."
  },
  {
   "property": "C20",
   "status": "proved",
   "theorems": [
    "Infrared.C20_nec_resync"
   ],
   "note": ""
  },
  {
   "property": "C21",
   "status": "partial",
   "theorems": [
    "Infrared.C21_nec_returns_invalid_words",
    "Infrared.C21_nec_validate_not_called",
    "Infrared.C21_samsung_validate_not_called",
    "Infrared.C21_apple_partial"
   ],
   "note": "False for NEC and Samsung (C21_*_validate_not_called): invalid words are returned. True for Apple."
  },
  {
   "property": "C22",
   "status": "proved",
   "theorems": [
    "Infrared.C22_sbp_frame_decoded",
    "Infrared.C22_sbp_sound",
    "Infrared.C22_sbp_consecutive_rising"
   ],
   "note": "C22_sbp_consecutive_rising shows why alternating edges are required."
  },
  {
   "property": "C23",
   "status": "partial",
   "theorems": [
    "Infrared.C23_denon_frame_partial",
    "Infrared.C23_denon_last_bit_lost",
    "Infrared.C23_denon_stale_bits"
   ],
   "note": "False as stated: C23_denon_last_bit_lost and C23_denon_stale_bits. Proved for the first 47 bits after a clean history. What is said for every sequence of edges is C67_denon."
  },
  {
   "property": "C24",
   "status": "proved",
   "theorems": [
    "Infrared.C24_rc5_frame_decoded"
   ],
   "note": ""
  },
  {
   "property": "C25",
   "status": "proved",
   "theorems": [
    "Infrared.C25_rc5_sound"
   ],
   "note": ""
  },
  {
   "property": "C26",
   "status": "proved",
   "theorems": [
    "Infrared.C26_rc6_frame_decoded",
    "Infrared.C26_rc6_short_leader_dropped"
   ],
   "note": "C26_rc6_short_leader_dropped: the weaker reading (leader anywhere within its 12% tolerance) is false because of the overlap in C15."
  },
  {
   "property": "C27",
   "status": "proved",
   "theorems": [
    "Infrared.C27_rc6_sound",
    "Infrared.C27_rc6_mode_ignored"
   ],
   "note": "C27_rc6_mode_ignored: frames of other even modes are reported as mode-0 commands."
  },
  {
   "property": "C28",
   "status": "proved",
   "theorems": [
    "Infrared.C28_rc5_no_error",
    "Infrared.C28_rc6_no_error",
    "Infrared.C28_denon_no_error",
    "Infrared.C28_nec_errors",
    "Infrared.C28_sbp_errors"
   ],
   "note": ""
  },
  {
   "property": "C29",
   "status": "proved",
   "theorems": [
    "Infrared.C29_rc5_gap_forgets",
    "Infrared.C29_rc6_gap_forgets"
   ],
   "note": ""
  },
  {
   "property": "C30",
   "status": "proved",
   "theorems": [
    "Infrared.C30_nec_panics_iff",
    "Infrared.C30_denon_panics_iff",
    "Infrared.C30_sbp_panics_iff",
    "Infrared.C30_sbp_release",
    "Infrared.C30_rc5_no_panic",
    "Infrared.C30_rc6_no_panic",
    "Infrared.C30_rc5_clock_overflow",
    "Infrared.C30_rc6_clock_overflow"
   ],
   "note": "The bound on the number of events is needed: C30_rc5_clock_overflow, C30_rc6_clock_overflow."
  },
  {
   "property": "C31",
   "status": "proved",
   "theorems": [
    "Infrared.C31_rc5_word_size",
    "Infrared.C31_rc6_word_size",
    "Infrared.C31_rc5_profile",
    "Infrared.C31_rc6_profile"
   ],
   "note": ""
  },
  {
   "property": "C32",
   "status": "proved",
   "theorems": [
    "Infrared.C32_rc5_ready",
    "Infrared.C32_sbp_ready",
    "Infrared.C32_denon_ready",
    "Infrared.C32_rc6_ready",
    "Infrared.C32_nec_ready"
   ],
   "note": ""
  },
  {
   "property": "C33",
   "status": "partial",
   "theorems": [
    "Infrared.C33_buffer_collect_partial",
    "Infrared.C33_buffer_next_sequence",
    "Infrared.C33_buffer_rc5",
    "Infrared.C33_buffer_rc6",
    "Infrared.C33_buffer_denon",
    "Infrared.C33_collect_stops_at_error",
    "Infrared.C33_apple_stops_at_foreign_frame"
   ],
   "note": "False in general: C33_collect_stops_at_error (and, for Apple, C33_apple_stops_at_foreign_frame). Proved up to the first error for all protocols, unconditionally for RC5, RC6, Denon; C33_buffer_next_sequence covers calling next() past a None."
  },
  {
   "property": "C34",
   "status": "proved",
   "theorems": [
    "Infrared.C34_poll_equiv"
   ],
   "note": ""
  },
  {
   "property": "C35",
   "status": "proved",
   "theorems": [
    "Infrared.C35_instant_equiv",
    "Infrared.C35_instant_roundtrip",
    "Infrared.C35_wraparound_loses_frame"
   ],
   "note": "C35_wraparound_loses_frame shows what happens when the clock wraps."
  },
  {
   "property": "C36",
   "status": "proved",
   "theorems": [
    "Infrared.C36_multi_independent",
    "Infrared.C36_multi_panics_iff",
    "Infrared.C36_multi_width"
   ],
   "note": ""
  },
  {
   "property": "C37",
   "status": "proved",
   "theorems": [
    "Infrared.C37_pin_event",
    "Infrared.C37_pin_event_instant",
    "Infrared.C37_pin_poll",
    "Infrared.C37_multi_pin",
    "Infrared.C37_multi_pin_iter"
   ],
   "note": ""
  },
  {
   "property": "C38",
   "status": "proved",
   "theorems": [
    "Infrared.C38_nec_encode",
    "Infrared.C38_nec_ticks",
    "Infrared.C38_nec_compiles",
    "Infrared.C38_nec_unchecked",
    "Infrared.C38_rc5_encode",
    "Infrared.C38_rc6_encode",
    "Infrared.C38_rc6_compiles"
   ],
   "note": ""
  },
  {
   "property": "C39",
   "status": "proved",
   "theorems": [
    "Infrared.C39_nec_roundtrip_generic",
    "Infrared.C39_nec_roundtrip",
    "Infrared.C39_samsung_roundtrip",
    "Infrared.C39_nec16_roundtrip",
    "Infrared.C39_raw_roundtrip",
    "Infrared.C39_samsung_fails_at_13khz"
   ],
   "note": "C39_samsung_fails_at_13khz: just below 14 kHz the Samsung round trip fails."
  },
  {
   "property": "C40",
   "status": "proved",
   "theorems": [
    "Infrared.C40_rc5_roundtrip",
    "Infrared.C40_rc5_roundtrip_exact"
   ],
   "note": "Fields in range as stated; start values 0 and 1 come back with the first start bit set."
  },
  {
   "property": "C41",
   "status": "partial",
   "theorems": [
    "Infrared.C41_rc6_roundtrip_partial",
    "Infrared.C41_rc6_fails_at_20khz",
    "Infrared.C41_rc6_fails_at_27027hz",
    "Infrared.C41_rc6_bands"
   ],
   "note": "False at 20 kHz (C41_rc6_fails_at_20khz: for every command) and still at 27027 Hz; proved from 27028 Hz to the compile-time limit. C41_rc6_bands is exact: the twelve bands of frequencies in which every command survives; outside them no command is heard."
  },
  {
   "property": "C42",
   "status": "proved",
   "theorems": [
    "Infrared.C42_run_length",
    "Infrared.C42_load_panics_iff",
    "Infrared.C42_first_on"
   ],
   "note": "Durations are the u32 slot values; the model covers counter wrap-around."
  },
  {
   "property": "C43",
   "status": "partial",
   "theorems": [
    "Infrared.C43_refuted_fresh",
    "Infrared.C43_refuted_fresh_load_dropped",
    "Infrared.C43_command_first_partial",
    "Infrared.C43_exact_buffer_partial",
    "Infrared.C43_refuted_leftover",
    "Infrared.C43_refuted_stale"
   ],
   "note": "False: C43_refuted_fresh, C43_refuted_fresh_load_dropped, C43_refuted_leftover, C43_refuted_stale. Proved: the loaded waveform comes first and unchanged (any buffer), and nothing else follows when the buffer has exactly the length of the waveform."
  },
  {
   "property": "C44",
   "status": "proved",
   "theorems": [
    "Infrared.C44_idle_iff",
    "Infrared.C44_load_ignored",
    "Infrared.C44_load_accepted"
   ],
   "note": ""
  },
  {
   "property": "C45",
   "status": "proved",
   "theorems": [
    "Infrared.C45_nec_end_to_end",
    "Infrared.C45_samsung_end_to_end",
    "Infrared.C45_nec16_end_to_end",
    "Infrared.C45_raw_end_to_end",
    "Infrared.C45_rc5_end_to_end",
    "Infrared.C45_rc6_end_to_end"
   ],
   "note": ""
  },
  {
   "property": "C46",
   "status": "proved",
   "theorems": [
    "Infrared.C46_samsung_tv",
    "Infrared.C46_special_for_mp3",
    "Infrared.C46_cd_player",
    "Infrared.C46_blu_ray",
    "Infrared.C46_apple"
   ],
   "note": "Exhaustive over the actions of each remote (finite tables) and over all command values. The tables in the statements are Spec/RemoteTables.lean, read from the sources by tools/remotes.py and separate from the tables of the model."
  },
  {
   "property": "C47",
   "status": "proved",
   "theorems": [
    "Infrared.C47_foreign_address",
    "Infrared.C47_button_transparent"
   ],
   "note": ""
  },
  {
   "property": "C48",
   "status": "proved",
   "theorems": [
    "Infrared.C48_names_injective",
    "Infrared.C48_names"
   ],
   "note": ""
  },
  {
   "property": "C49",
   "status": "proved",
   "theorems": [
    "Infrared.C49_builder",
    "Infrared.C49_build_polled",
    "Infrared.C49_calls_commute"
   ],
   "note": ""
  },
  {
   "property": "C50",
   "status": "proved",
   "theorems": [
    "Infrared.C50_nec_receiver",
    "Infrared.C50_samsung_receiver",
    "Infrared.C50_sbp_receiver",
    "Infrared.C50_denon_receiver"
   ],
   "note": "All twelve ordered pairs of the four pulse-distance timings; the gap after each frame must not itself be a symbol of the receiver."
  },
  {
   "property": "C51",
   "status": "proved",
   "theorems": [
    "Infrared.C51_denon_sound"
   ],
   "note": ""
  },
  {
   "property": "C52",
   "status": "proved",
   "theorems": [
    "Infrared.C52_nec_variants",
    "Infrared.C52_accepts",
    "Infrared.C52_rejects"
   ],
   "note": ""
  },
  {
   "property": "C53",
   "status": "proved",
   "theorems": [
    "Infrared.C53_nec_real_time",
    "Infrared.C53_samsung_real_time",
    "Infrared.C53_nec_limits",
    "Infrared.C53_sbp_real_time",
    "Infrared.C53_denon_real_time",
    "Infrared.C53_rc5_real_time",
    "Infrared.C53_rc6_real_time"
   ],
   "note": "Denon needs a receiver that is new or has just returned a command and loses the last bit, because of C23."
  },
  {
   "property": "C54",
   "status": "proved",
   "theorems": [
    "Infrared.C54_polled_line_long",
    "Infrared.C54_polled_line",
    "Infrared.C54_nec_polled",
    "Infrared.C54_silent_line"
   ],
   "note": ""
  },
  {
   "property": "C55",
   "status": "proved",
   "theorems": [
    "Infrared.C55_two_clocks_long",
    "Infrared.C55_two_clocks",
    "Infrared.C55_nec_two_clocks",
    "Infrared.C55_sender",
    "Infrared.C55_nec_any_buffer",
    "Infrared.C55_rc5_two_clocks",
    "Infrared.C55_rc6_two_clocks",
    "Infrared.C55_refuted_slow_receiver"
   ],
   "note": "The receiver must not be slower than the sender: C55_refuted_slow_receiver shows a command lost at one phase and received at another. NEC with a 67-slot buffer is proved for any number of further ticks and polls; other buffers up to the end of the frame, since the sender then goes on with old contents of the buffer (C43)."
  },
  {
   "property": "C56",
   "status": "proved",
   "theorems": [
    "Infrared.C56_nec_series",
    "Infrared.C56_sbp_series",
    "Infrared.C56_denon_series",
    "Infrared.C56_rc5_series",
    "Infrared.C56_rc6_series"
   ],
   "note": ""
  },
  {
   "property": "C57",
   "status": "proved",
   "theorems": [
    "Infrared.C57_nec_session",
    "Infrared.C57_standard_session",
    "Infrared.C57_samsung_session",
    "Infrared.C57_nec16_session",
    "Infrared.C57_raw_session"
   ],
   "note": "The remaining slots of the buffer must be empty (as in Sender::new; NEC waveforms all have 67 slots, so they stay empty): the pulses of one tick they cause are shown to be ignored."
  },
  {
   "property": "C58",
   "status": "proved",
   "theorems": [
    "Infrared.C58_rc5_session",
    "Infrared.C58_rc6_session",
    "Infrared.C58_rc5_new",
    "Infrared.C58_rc6_new"
   ],
   "note": "Old contents of the buffer are limited to pulses of at most two (RC6: three) units, as every earlier command leaves them; the spare slots behind the longest waveform must be empty, as in Sender::new. C58_rc5_new and C58_rc6_new start from Sender::new without either assumption."
  },
  {
   "property": "C59",
   "status": "proved",
   "theorems": [
    "Infrared.C59_samsung_tv",
    "Infrared.C59_special_for_mp3",
    "Infrared.C59_cd_player"
   ],
   "note": ""
  },
  {
   "property": "C60",
   "status": "proved",
   "theorems": [
    "Infrared.C60_room_pin",
    "Infrared.C60_room",
    "Infrared.C60_refuted_denon"
   ],
   "note": "C60_refuted_denon: without the exception for a Denon listener next to SBP transmissions the statement is false. Samsung repeat codes and NEC16/raw NEC are not among the messages and listeners (NEC16 and raw commands do not convert to AnyCommand)."
  },
  {
   "property": "C61",
   "status": "proved",
   "theorems": [
    "Infrared.C61_recording_nec",
    "Infrared.C61_recording_sbp",
    "Infrared.C61_recording_denon",
    "Infrared.C61_recording_rc5",
    "Infrared.C61_recording_rc6",
    "Infrared.C61_resolution",
    "Infrared.C61_prepared",
    "Infrared.C61_appends",
    "Infrared.C61_iterate",
    "Infrared.C61_transfer_nec",
    "Infrared.C61_transfer_samsung",
    "Infrared.C61_transfer_nec16",
    "Infrared.C61_transfer_raw",
    "Infrared.C61_transfer_rc5",
    "Infrared.C61_transfer_rc6"
   ],
   "note": "Apple NEC is excluded from the recordings: its unpack may return None, which ends the iterator (C33)."
  },
  {
   "property": "C62",
   "status": "partial",
   "theorems": [
    "Infrared.C62_nec_truncates",
    "Infrared.C62_samsung_truncates",
    "Infrared.C62_nec_samsung_arrive_partial",
    "Infrared.C62_rc6_arrives",
    "Infrared.C62_rc5_mixes",
    "Infrared.C62_rc5_arrives_partial",
    "Infrared.C62_refuted"
   ],
   "note": "Proved for RC6 without restriction (C62_rc6_arrives), for NEC and Samsung if both values are bytes, for RC5 exactly if a < 32 and c < 64 (an iff). C62_refuted: create accepts larger values, which arrive as other addresses or as a repeat; C62_nec_truncates, C62_samsung_truncates and C62_rc5_mixes say exactly what arrives."
  },
  {
   "property": "C63",
   "status": "proved",
   "theorems": [
    "Infrared.C63_build",
    "Infrared.C63_unambiguous",
    "Infrared.C63_nec_series",
    "Infrared.C63_sbp_series",
    "Infrared.C63_denon_series",
    "Infrared.C63_rc5_series",
    "Infrared.C63_rc6_series",
    "Infrared.C63_long_pause_panics"
   ],
   "note": "Under the assumption FugitClock about fugit (source not in the repository): micros() rounds somehow, instants are compared modulo wrap-around. The panic on a long pause is C63_long_pause_panics."
  },
  {
   "property": "C64",
   "status": "proved",
   "theorems": [
    "Infrared.C64_instants",
    "Infrared.C64_nec_real_time",
    "Infrared.C64_sbp_real_time",
    "Infrared.C64_denon_real_time",
    "Infrared.C64_rc5_real_time",
    "Infrared.C64_rc6_real_time"
   ],
   "note": "Under the assumption FugitClock about fugit (source not in the repository). For the pulse-distance protocols the time before the first edge, as the receiver sees it (firstGap), must not be a header."
  },
  {
   "property": "C65",
   "status": "proved",
   "theorems": [
    "Infrared.C65_nec_events",
    "Infrared.C65_sbp_events",
    "Infrared.C65_denon_events",
    "Infrared.C65_rc5_events",
    "Infrared.C65_rc6_events",
    "Infrared.C65_nec_polled",
    "Infrared.C65_sbp_polled",
    "Infrared.C65_denon_polled",
    "Infrared.C65_rc5_polled",
    "Infrared.C65_rc6_polled"
   ],
   "note": "Denon: the first 47 bits (C23)."
  },
  {
   "property": "C66",
   "status": "proved",
   "theorems": [
    "Infrared.C66_nec",
    "Infrared.C66_nec_frame_first",
    "Infrared.C66_sbp",
    "Infrared.C66_denon",
    "Infrared.C66_rc5",
    "Infrared.C66_rc6"
   ],
   "note": "The two exceptions are the defects of C19 (repeat before a command) and C23 (stale bits); C66_nec_frame_first says that the history does not matter if the first transmission is a frame."
  },
  {
   "property": "C67",
   "status": "proved",
   "theorems": [
    "Infrared.C67_nec",
    "Infrared.C67_denon",
    "Infrared.C67_sbp",
    "Infrared.C67_rc5",
    "Infrared.C67_rc6"
   ],
   "note": "The parsers are Spec/Parse.lean. The panics excluded are those characterised in C30. For SBP see C22 about two consecutive rising edges."
  },
  {
   "property": "C68",
   "status": "proved",
   "theorems": [
    "Infrared.C68_output",
    "Infrared.C68_heard"
   ],
   "note": "The output includes the defects of C43: a train of 64 one-tick pulses before the first command and 54 after each. C68_heard starts after the initial train."
  },
  {
   "property": "C69",
   "status": "proved",
   "theorems": [
    "Infrared.C69_polled",
    "Infrared.C69_external",
    "Infrared.C69_sublist",
    "Infrared.C69_nothing_lost",
    "Infrared.C69_newest",
    "Infrared.C69_polled_nec"
   ],
   "note": ""
  },
  {
   "property": "C70",
   "status": "partial",
   "theorems": [
    "Infrared.C70_mouse",
    "Infrared.C70_no_click",
    "Infrared.C70_mouse_never_clicks",
    "Infrared.C70_held_partial",
    "Infrared.C70_overflow",
    "Infrared.C70_moved"
   ],
   "note": "The click is refuted: C70_no_click and C70_mouse_never_clicks show that no report ever has a button pressed (the counter is incremented before it is compared with 0). C70_overflow: a debug build panics at the 2^32-th repetition. Everything else is proved."
  },
  {
   "property": "C71",
   "status": "proved",
   "theorems": [
    "Infrared.C71_media",
    "Infrared.C71_never_stop",
    "Infrared.C71_typed"
   ],
   "note": "C71_typed is under the assumption FugitClock (see C64)."
  },
  {
   "property": "C72",
   "status": "proved",
   "theorems": [
    "Infrared.C72_event",
    "Infrared.C72_multi",
    "Infrared.C72_gaps",
    "Infrared.C72_nec_heard",
    "Infrared.C72_rc5_first_lost",
    "Infrared.C72_rc6_first_lost"
   ],
   "note": "Losing the first RC5 or RC6 transmission is a defect of the examples' pattern; the statement says what happens."
  },
  {
   "property": "C73",
   "status": "proved",
   "theorems": [
    "Infrared.C73_lines",
    "Infrared.C73_other_wires",
    "Infrared.C73_samplerate",
    "Infrared.C73_samsung"
   ],
   "note": "The parsing of the file itself (crate vcd) is not modelled: a capture is the list of its records."
  },
  {
   "property": "C74",
   "status": "proved",
   "theorems": [
    "Infrared.C74_remote",
    "Infrared.C74_tutorial"
   ],
   "note": "At 40 kHz the windows of RC6 hold with 5 % jitter although they do not at every frequency above (C65 asks for 80 kHz); rc6Clock_40k is the computation."
  },
  {
   "property": "C75",
   "status": "proved",
   "theorems": [
    "Infrared.C75_rc5",
    "Infrared.C75_rc6",
    "Infrared.C75_nec"
   ],
   "note": ""
  },
  {
   "property": "C76",
   "status": "proved",
   "theorems": [
    "Infrared.C76_nec",
    "Infrared.C76_denon",
    "Infrared.C76_sbp",
    "Infrared.C76_rc5",
    "Infrared.C76_rc6",
    "Infrared.C76_multi",
    "Infrared.C76_poll_panics_iff",
    "Infrared.C76_poll_no_panic",
    "Infrared.C76_poll_no_panic_manchester",
    "Infrared.C76_rc5_square_wave"
   ],
   "note": "C76_rc5_square_wave: beyond the bound a debug build with 16-bit usize panics on a square wave of 1778 us after 58 s."
  },
  {
   "property": "C77",
   "status": "proved",
   "theorems": [
    "Infrared.C77_nec",
    "Infrared.C77_sbp",
    "Infrared.C77_denon",
    "Infrared.C77_rc5",
    "Infrared.C77_rc6",
    "Infrared.C77_rc5_encode",
    "Infrared.C77_multi",
    "Infrared.C77_lenient"
   ],
   "note": "fugit: additions of durations are assumed to panic in every profile (see the model of Mono.fugit)."
  },
  {
   "property": "C78",
   "status": "proved",
   "theorems": [
    "Infrared.C78_symbol_iff",
    "Infrared.C78_nec",
    "Infrared.C78_sbp",
    "Infrared.C78_denon",
    "Infrared.C78_rc5",
    "Infrared.C78_rc6",
    "Infrared.C78_nec_polled",
    "Infrared.C78_sbp_polled",
    "Infrared.C78_denon_polled",
    "Infrared.C78_rc5_polled",
    "Infrared.C78_rc6_polled"
   ],
   "note": "C78_symbol_iff is the exact criterion; the converse for whole transmissions is C81 (over all transmissions: a receiver may hear a single one by luck)."
  },
  {
   "property": "C79",
   "status": "partial",
   "theorems": [
    "Infrared.C79_rc6_deaf",
    "Infrared.C79_rc6_deaf_polled",
    "Infrared.C79_rc6_deaf_buffer",
    "Infrared.C79_tolerances",
    "Infrared.C79_nec_partial",
    "Infrared.C79_sbp_partial",
    "Infrared.C79_denon_partial",
    "Infrared.C79_rc5_partial"
   ],
   "note": "Refuted for RC6: C79_rc6_deaf, C79_rc6_deaf_polled, C79_rc6_deaf_buffer show that no RC6 transmission within 4 % is ever heard at 20 kHz. Proved for the NEC family and RC5 (6 %), SBP (5 %) and Denon (1 %); C79_tolerances says these percentages are the largest."
  },
  {
   "property": "C80",
   "status": "proved",
   "theorems": [
    "Infrared.C80_polled",
    "Infrared.C80_never_power",
    "Infrared.C80_polled_heard",
    "Infrared.C80_tutorial",
    "Infrared.C80_tutorial_heard",
    "Infrared.C80_rtic",
    "Infrared.C80_rtic_heard"
   ],
   "note": "C80_rtic_heard is under the assumption FugitClock (see C64)."
  },
  {
   "property": "C81",
   "status": "proved",
   "theorems": [
    "Infrared.C81_nec",
    "Infrared.C81_nec_telling",
    "Infrared.C81_sbp",
    "Infrared.C81_denon",
    "Infrared.C81_rc5",
    "Infrared.C81_rc6",
    "Infrared.C81_limits",
    "Infrared.C81_nec_polled",
    "Infrared.C81_sbp_polled",
    "Infrared.C81_denon_polled",
    "Infrared.C81_rc5_polled",
    "Infrared.C81_rc6_polled",
    "Infrared.C81_limits_polled"
   ],
   "note": "Telling (C81_nec) says that a command of the variant can be told from those a misread symbol gives; C81_nec_telling shows it for the five shipped variants. Event driven (C81_nec \u2026) and polled receivers (C81_nec_polled \u2026)."
  },
  {
   "property": "C82",
   "status": "proved",
   "theorems": [
    "Infrared.C82_nec",
    "Infrared.C82_sbp",
    "Infrared.C82_denon",
    "Infrared.C82_rc5",
    "Infrared.C82_rc6"
   ],
   "note": "The polled counterpart of C66. RC5 and RC6 builds with overflow checks need 8*noise.length below 2^usizeBits (see C30)."
  },
  {
   "property": "C83",
   "status": "proved",
   "theorems": [
    "Infrared.C83_placement",
    "Infrared.C83_delay",
    "Infrared.C83_sbp_events",
    "Infrared.C83_denon_events",
    "Infrared.C83_nec_events",
    "Infrared.C83_rc5_events",
    "Infrared.C83_rc6_events",
    "Infrared.C83_nec_polled",
    "Infrared.C83_sbp_polled",
    "Infrared.C83_denon_polled",
    "Infrared.C83_rc5_polled",
    "Infrared.C83_rc6_polled"
   ],
   "note": "Times are those of the edges of the line (edgeTimes), poll number k looks at the line when time*f+phase = k*u (C83_delay bounds the delay). Same hypotheses as C65."
  },
  {
   "property": "C84",
   "status": "partial",
   "theorems": [
    "Infrared.C84_nec_events",
    "Infrared.C84_samsung_events",
    "Infrared.C84_apple_events",
    "Infrared.C84_nec_polled",
    "Infrared.C84_samsung_polled",
    "Infrared.C84_apple_polled",
    "Infrared.C84_rc5_events_partial",
    "Infrared.C84_rc5_polled_partial",
    "Infrared.C84_rc6_events_partial",
    "Infrared.C84_rc6_polled_partial",
    "Infrared.C84_sbp_events_partial",
    "Infrared.C84_sbp_polled_partial",
    "Infrared.C84_refuted"
   ],
   "note": "NEC family: proved, events and polled. RC5, RC6: TogglesHeard states what is reported, when is_repeat is right (almost never) and that the presses can be recovered; C84_refuted is a line with one press that is reported as a repetition. SBP: when is_repeat is right (an iff)."
  },
  {
   "property": "C85",
   "status": "proved",
   "theorems": [
    "Infrared.C85_nec_late",
    "Infrared.C85_sbp_late",
    "Infrared.C85_denon_late",
    "Infrared.C85_rc5_late",
    "Infrared.C85_rc6_late",
    "Infrared.C85_nec_uneven",
    "Infrared.C85_sbp_uneven",
    "Infrared.C85_denon_uneven",
    "Infrared.C85_rc5_uneven",
    "Infrared.C85_rc6_uneven"
   ],
   "note": "A clock is any monotone function at most c ticks off (Follows); edges handled late and uneven polls are such clocks (follows_late, follows_uneven). In the polled theorems every level lasts at least two polling periods."
  },
  {
   "property": "C86",
   "status": "proved",
   "theorems": [
    "Infrared.C86_nec",
    "Infrared.C86_sbp",
    "Infrared.C86_denon",
    "Infrared.C86_rc5",
    "Infrared.C86_rc6"
   ],
   "note": "A failed read does not advance the clock of the receiver, so what it counts are the successful polls (goodPolls), a clock that follows time with at most e+1 polls off within 17 ms (follows_good). The receiver must be polled on for more than e polls after the last edge."
  },
  {
   "property": "C87",
   "status": "proved",
   "theorems": [
    "Infrared.C87_nec_late",
    "Infrared.C87_nec_uneven",
    "Infrared.C87_rc5_late",
    "Infrared.C87_rc5_uneven",
    "Infrared.C87_rc6_late",
    "Infrared.C87_rc6_uneven"
   ],
   "note": "Spec/Ticks.lean: tick number k happens at any time tick k that is at most L late. Sender ticks, late edges and uneven polls together are one clock that follows the ticks (follows_ticks, ticking_late). Polled: two ticks of the sender are at least two polling periods apart. RC5 and RC6, events: the receiver's clock moves on between two ticks of the sender (a pulse of length 0 matches the unused windows of the table, C58); old contents of the buffer as in C58."
  },
  {
   "property": "C88",
   "status": "proved",
   "theorems": [
    "Infrared.C88_nec",
    "Infrared.C88_sbp",
    "Infrared.C88_denon",
    "Infrared.C88_nec_polled",
    "Infrared.C88_sbp_polled",
    "Infrared.C88_denon_polled",
    "Infrared.C88_nec_complete_only",
    "Infrared.C88_sbp_complete_only",
    "Infrared.C88_denon_complete_only",
    "Infrared.C88_rc5",
    "Infrared.C88_rc6",
    "Infrared.C88_rc5_polled",
    "Infrared.C88_rc6_polled"
   ],
   "note": "Spec/Broken.lean: the answers to a series, frame by frame (necAnswer, sbpAnswer, denonAnswer), and SentFor for Manchester transmissions. NEC, SBP, Denon: the pulses are parsed by the grammar of C67, the number of periods sent is arbitrary; the *_complete_only theorems read off which commands come. RC5 and RC6: C67 with positions counted in half-bits; a mark that breaks off lasts at least one tick of the clock (a reading of 0 matches the unused windows of the table) and the mark before the very last edge is either sent or not (shortened slightly it is not distinguishable)."
  },
  {
   "property": "C89",
   "status": "proved",
   "theorems": [
    "Infrared.C89_nec",
    "Infrared.C89_sbp",
    "Infrared.C89_denon",
    "Infrared.C89_rc5",
    "Infrared.C89_rc6",
    "Infrared.C89_nec_polled",
    "Infrared.C89_sbp_polled",
    "Infrared.C89_denon_polled",
    "Infrared.C89_rc5_polled",
    "Infrared.C89_rc6_polled"
   ],
   "note": "Spec/Drift.lean: ClockWithin, Together. A clock of r Hz sees a line as a clock of f Hz sees the line with all distances multiplied by r/f (clocked_scaled, polled_scaled), which reduces to C78. Real pauses of 20 ms or more; NEC family, SBP and Denon: d at most 20."
  },
  {
   "property": "C90",
   "status": "proved",
   "theorems": [
    "Infrared.C90_nec_slow",
    "Infrared.C90_samsung_slow",
    "Infrared.C90_nec_fast",
    "Infrared.C90_sbp_deaf",
    "Infrared.C90_denon_deaf",
    "Infrared.C90_nec_slow_polled",
    "Infrared.C90_samsung_slow_polled",
    "Infrared.C90_nec_fast_polled",
    "Infrared.C90_sbp_deaf_polled",
    "Infrared.C90_denon_deaf_polled",
    "Infrared.C90_rc5_deaf",
    "Infrared.C90_rc6_deaf",
    "Infrared.C90_rc5_deaf_polled",
    "Infrared.C90_rc6_deaf_polled"
   ],
   "note": "Spec/Drift.lean: Seems (lo to hi percent of the nominal length, as the receiver counts it), necMistaken. All periods (edges) of a series seem off in the same direction, each by its own amount. NEC family with a fast clock: no command (errors are possible). RC5 and RC6 builds with overflow checks need 8 times the number of edges below 2^usizeBits (see C30)."
  },
  {
   "property": "C91",
   "status": "proved",
   "theorems": [
    "Infrared.C91_nec",
    "Infrared.C91_nec_polled",
    "Infrared.C91_sbp",
    "Infrared.C91_sbp_polled",
    "Infrared.C91_denon",
    "Infrared.C91_denon_polled",
    "Infrared.C91_rc5",
    "Infrared.C91_rc6",
    "Infrared.C91_rc5_polled",
    "Infrared.C91_rc6_polled"
   ],
   "note": "Spec/Inverted.lean: inverted (high and low swapped), NearPulses (marks and spaces each within j percent, j at most 20), StopAndPause, SentApart. The polled line is high from the first poll on. RC5: the all-ones command is heard if the end of its last mark is on the line, which at this polarity is the last edge of the last bit."
  },
  {
   "property": "C92",
   "status": "proved",
   "theorems": [
    "Infrared.C92_nec",
    "Infrared.C92_nec_polled",
    "Infrared.C92_samsung",
    "Infrared.C92_samsung_polled",
    "Infrared.C92_sbp",
    "Infrared.C92_sbp_polled",
    "Infrared.C92_denon",
    "Infrared.C92_denon_polled",
    "Infrared.C92_rc5",
    "Infrared.C92_rc5_polled",
    "Infrared.C92_rc6",
    "Infrared.C92_rc6_polled",
    "Infrared.C92_rate",
    "Infrared.C92_mailbox",
    "Infrared.C92_polled_nec",
    "Infrared.C92_rc5_no_time_false",
    "Infrared.C92_sbp_missing_edges_false"
   ],
   "note": "Spec/Spacing.lean: SpacedBy f need t xs (each result r at least need r microseconds after the one before it, the first after t). C92_rc5_no_time_false and C92_sbp_missing_edges_false show that the two hypotheses on the edges are needed in the event-driven theorems; polled receivers need none. Hypothesis hr: the run does not panic (see C30)."
  },
  {
   "property": "C93",
   "status": "proved",
   "theorems": [
    "Infrared.C93_nec",
    "Infrared.C93_sbp",
    "Infrared.C93_denon",
    "Infrared.C93_nec_polled",
    "Infrared.C93_sbp_polled",
    "Infrared.C93_denon_polled",
    "Infrared.C93_nec_detected",
    "Infrared.C93_sbp_detected",
    "Infrared.C93_slip_invalid",
    "Infrared.C93_validated",
    "Infrared.C93_nec_slipped"
   ],
   "note": "Spec/Spike.lean: Divided (one period becomes two), slip (the word that is read if a one is taken for two zeros), and the answers as relations (where the spike hits within the bit decides which of the allowed answers comes; Where.side, .middle determine it). RC5 and RC6 are not covered. The last bit of a frame is special: the first part alone completes the frame (constructor final)."
  },
  {
   "property": "C94",
   "status": "proved",
   "theorems": [
    "Infrared.C94_nec",
    "Infrared.C94_sbp",
    "Infrared.C94_denon",
    "Infrared.C94_nec_polled",
    "Infrared.C94_sbp_polled",
    "Infrared.C94_denon_polled",
    "Infrared.C94_nec_detected",
    "Infrared.C94_sbp_detected",
    "Infrared.C94_denon_missing",
    "Infrared.C94_fuse_invalid",
    "Infrared.C94_validated"
   ],
   "note": "Spec/Missing.lean: Joined (two periods become one), fuse (the bits read if two zeros are taken for a one), and the answers as relations. They contain the answers of C93, so spikes and missing marks may occur in the same series (not in the same frame). C94_validated excludes a missing mark after the header: if the joined period were taken for the header, a repeat code would stand for the word shifted down by one bit, which may be valid. RC5 and RC6 are not covered."
  },
  {
   "property": "C95",
   "status": "proved",
   "theorems": [
    "Infrared.C95_nec",
    "Infrared.C95_sbp",
    "Infrared.C95_denon",
    "Infrared.C95_nec_heard",
    "Infrared.C95_nec_fresh",
    "Infrared.C95_sbp_commands",
    "Infrared.C95_denon_commands",
    "Infrared.C95_rc5_commands",
    "Infrared.C95_rc6_commands",
    "Infrared.C95_rc5",
    "Infrared.C95_rc6",
    "Infrared.C95_nec_polled",
    "Infrared.C95_sbp_polled",
    "Infrared.C95_denon_polled",
    "Infrared.C95_rc5_polled",
    "Infrared.C95_rc6_polled"
   ],
   "note": "Spec/Noisy.lean: pieces (a transmission of C88/C93/C94 or noise), each with the pause after it (RC5, RC6: before it); NecMade, SbpMade, DenonMade say what can be made of n periods of noise. A period of noise must not overflow the counter of the receiver (Countable); RC5 and RC6 builds with overflow checks need 8 times the edges of each piece of noise below 2^usizeBits (see C30). Polled: levels of at least one polling period, i.e. the line as the polls see it."
  },
  {
   "property": "C96",
   "status": "proved",
   "theorems": [
    "Infrared.C96_rc5_polled",
    "Infrared.C96_rc6_polled",
    "Infrared.C96_rc5_commands",
    "Infrared.C96_rc6_commands",
    "Infrared.C96_short_spike_wrong",
    "Infrared.C96_rc5",
    "Infrared.C96_rc6"
   ],
   "note": "Spec/HurtBi.lean: Spiked divides one interval of a complete transmission into three, MarkMissing joins three intervals. C96_rc5, C96_rc6: each piece is answered alone; C96_rc5_commands, C96_rc6_commands: order, no wrong command, none of an undisturbed transmission lost (noise of fewer than 14 or 24 edges). C96_short_spike_wrong shows that the lower limit of a tick for a spike is needed: intervals of zero ticks fit the unused entries of the table and count as three half-bits. The last mark of a transmission is not followed by an edge, so its absence is a transmission that breaks off (C88)."
  },
  {
   "property": "C97",
   "status": "proved",
   "theorems": [
    "Infrared.C97_nec_validate",
    "Infrared.C97_samsung_validate",
    "Infrared.C97_nec16_validate",
    "Infrared.C97_apple_validate",
    "Infrared.C97_sbp_valid",
    "Infrared.C97_odd_noticed",
    "Infrared.C97_burst_noticed",
    "Infrared.C97_burst_of_nine",
    "Infrared.C97_nec_unpack",
    "Infrared.C97_samsung_unpack",
    "Infrared.C97_nec16_unpack",
    "Infrared.C97_nec_receiver",
    "Infrared.C97_samsung_receiver",
    "Infrared.C97_nec16_receiver",
    "Infrared.C97_apple_receiver",
    "Infrared.C97_raw_checked",
    "Infrared.C97_sbp_receiver"
   ],
   "note": "Spec/BitErrors.lean: an error is the word of the wrong bits (HitsPairs, Burst, OddErrors). C97_burst_of_nine shows that eight is the limit. That receivers of standard NEC and Samsung do not call validate is C21; C97_raw_checked is about a program that does."
  },
  {
   "property": "C98",
   "status": "proved",
   "theorems": [
    "Infrared.C98_nec",
    "Infrared.C98_sbp",
    "Infrared.C98_denon",
    "Infrared.C98_one_lap"
   ],
   "note": "Spec/Wrap.lean: laps, wrapAt, leftOf (what is left of each transmission of a series). A transmission and the pause after it must take less than one lap of the counter (StopAndRest). hg says that the reading at the first edge, which the receiver takes for an interval since time 0, is not a header. What a single wrapped interval becomes is C35."
  },
  {
   "property": "C99",
   "status": "proved",
   "theorems": [
    "Infrared.C99_rc5",
    "Infrared.C99_rc5_wrong",
    "Infrared.C99_rc6",
    "Infrared.C99_rc6_wrong"
   ],
   "note": "Spec/WrapBi.lean: wrapsOf (where the counter wraps around in each transmission), longAt, intervalAt, rc5Wrapped and rc6Wrapped (the answers). A transmission and the pause before it must take less than half a lap of the counter (RestBefore). C99_rc5_wrong and C99_rc6_wrong are wrong commands. The cause is that the unused entry of the symbol table is the span from 0 to 0 ticks, which an interval measured as 0 matches."
  },
  {
   "property": "C100",
   "status": "proved",
   "theorems": [
    "Infrared.C100_ignored",
    "Infrared.C100_busy",
    "Infrared.C100_spare",
    "Infrared.C100_nec",
    "Infrared.C100_nec_stop_mark",
    "Infrared.C100_ones",
    "Infrared.C100_nec_micros",
    "Infrared.C100_rc5",
    "Infrared.C100_rc6"
   ],
   "note": "Spec/Busy.lean. The short stop mark of NEC is C100_nec_stop_mark; TrailsOff says what the output does after the last edge of the waveform, C100_spare what that is for empty slots."
  },
  {
   "property": "C101",
   "status": "proved",
   "theorems": [
    "Infrared.C101_nec",
    "Infrared.C101_rc5",
    "Infrared.C101_rc6"
   ],
   "note": "Spec/Swallow.lean. A consequence of the one-tick stop mark (C100); the same sessions without the module are received completely (C57, C58)."
  },
  {
   "property": "C102",
   "status": "proved",
   "theorems": [
    "Infrared.C102_falls_polled",
    "Infrared.C102_falls_polled_runs",
    "Infrared.C102_falls_instants",
    "Infrared.C102_rc5",
    "Infrared.C102_rc6",
    "Infrared.C102_too_much"
   ],
   "note": "Spec/Stretch.lean. C102_falls_polled holds for every pair of runs that do not panic; when that is, is C76_poll_panics_iff. C102_too_much gives two commands that are lost."
  },
  {
   "property": "C103",
   "status": "proved",
   "theorems": [
    "Infrared.C103_same_words",
    "Infrared.C103_same_words_polled",
    "Infrared.C103_same_words_instants",
    "Infrared.C103_low_address",
    "Infrared.C103_apple_rejects",
    "Infrared.C103_apple_accepts",
    "Infrared.C103_apple_nec16",
    "Infrared.C103_session",
    "Infrared.C103_standard_remote"
   ],
   "note": "Spec/Variants.lean. Samsung has a different timing; that the two do not trigger each other is C50."
  },
  {
   "property": "C104",
   "status": "proved",
   "theorems": [
    "Infrared.C104_nec",
    "Infrared.C104_rc5",
    "Infrared.C104_rc6",
    "Infrared.C104_nec_live",
    "Infrared.C104_rc5_to_nec_live",
    "Infrared.C104_nec_to_rc5_live",
    "Infrared.C104_rc6_live"
   ],
   "note": "Spec/Relay.lean. The program is not part of the repository: it combines the polling and the sending example. The sender must have played its (empty) buffer once; C104_nec, _rc5, _rc6 make no assumption on what the receiver hears, the _live theorems start from a remote."
  },
  {
   "property": "C105",
   "status": "proved",
   "theorems": [
    "Infrared.C105_nec_session",
    "Infrared.C105_standard",
    "Infrared.C105_relay"
   ],
   "note": "Spec/SessionTime.lean. The polls are numbered from 1 (numberedSaid of C83)."
  },
  {
   "property": "C106",
   "status": "proved",
   "theorems": [
    "Infrared.C106_rc5_session",
    "Infrared.C106_rc6_session",
    "Infrared.C106_rc5_to_nec",
    "Infrared.C106_nec_to_rc5",
    "Infrared.C106_rc6_relay"
   ],
   "note": "Uses Spec/SessionTime.lean of C105. Sharpens the distances of C104_rc5_to_nec_live, C104_nec_to_rc5_live and C104_rc6_live."
  },
  {
   "property": "C107",
   "status": "proved",
   "theorems": [
    "Infrared.C107_chain"
   ],
   "note": "Spec/Chain.lean. The programs are those of C104 and not part of the repository; 108 + N rather than 108 because each change of clock may cost a poll."
  },
  {
   "property": "C108",
   "status": "proved",
   "theorems": [
    "Infrared.C108_rc5_relay",
    "Infrared.C108_rc5_to_rc6",
    "Infrared.C108_rc6_to_rc5",
    "Infrared.C108_rc6_to_nec",
    "Infrared.C108_nec_to_rc6"
   ],
   "note": "NEC to NEC is C105_relay, RC5 to NEC, NEC to RC5 and RC6 to RC6 are C106. From NEC only the standard variant, whose frames all have the same length; the other variants at 218 ms are C104_nec_live."
  },
  {
   "property": "C109",
   "status": "proved",
   "theorems": [
    "Infrared.C109_row"
   ],
   "note": "Spec/Row.lean. One bound for all sequences of protocols; a row of NEC only is C107 with 108 + N ms and lower rates, and single pairs with their own bounds are C105, C106 and C108."
  },
  {
   "property": "C110",
   "status": "proved",
   "theorems": [
    "Infrared.C110_nec",
    "Infrared.C110_heard",
    "Infrared.C110_relay"
   ],
   "note": "Spec/Taken.lean. The spare slots must be zero, as in a new sender that has only been given NEC commands. For RC5 and RC6 the time for which a command keeps the sender busy depends on what the buffer held before (C100); these are in C111."
  },
  {
   "property": "C111",
   "status": "proved",
   "theorems": [
    "Infrared.C111_any",
    "Infrared.C111_nec_presses",
    "Infrared.C111_rc5_presses",
    "Infrared.C111_rc6_presses",
    "Infrared.C111_rc5_heard",
    "Infrared.C111_rc6_heard",
    "Infrared.C111_rc5_relay",
    "Infrared.C111_rc6_relay"
   ],
   "note": "Spec/Kept.lean. C111_any makes no assumption on the protocol, only that every encoder writes a waveform that fits into the buffer (C38) with durations below 2^32. C110 gives the NEC case with numbers."
  },
  {
   "property": "C112",
   "status": "proved",
   "theorems": [
    "Infrared.C112_same",
    "Infrared.C112_row"
   ],
   "note": "Uses Spec/Kept.lean (presses) and Spec/Row.lean (programs in a row). 22 ms is the shortest frame, that of RC6."
  }
 ]
}