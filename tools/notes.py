PARTIAL = {"C15", "C16", "C19", "C21", "C23", "C33", "C41", "C43", "C62", "C70", "C79", "C84"}
NOTES = {
 "C112": "Uses Spec/Kept.lean (presses) and Spec/Row.lean (programs in a row). 22 ms is the shortest frame, that of RC6.",
 "C111": "Spec/Kept.lean. C111_any makes no assumption on the protocol, only that every encoder writes a waveform that fits into the buffer (C38) with durations below 2^32. C110 gives the NEC case with numbers.",
 "C110": "Spec/Taken.lean. The spare slots must be zero, as in a new sender that has only been given NEC commands. For RC5 and RC6 the time for which a command keeps the sender busy depends on what the buffer held before (C100); these are in C111.",
 "C109": "Spec/Row.lean. One bound for all sequences of protocols; a row of NEC only is C107 with 108 + N ms and lower rates, and single pairs with their own bounds are C105, C106 and C108.",
 "C108": "NEC to NEC is C105_relay, RC5 to NEC, NEC to RC5 and RC6 to RC6 are C106. From NEC only the standard variant, whose frames all have the same length; the other variants at 218 ms are C104_nec_live.",
 "C107": "Spec/Chain.lean. The programs are those of C104 and not part of the repository; 108 + N rather than 108 because each change of clock may cost a poll.",
 "C106": "Uses Spec/SessionTime.lean of C105. Sharpens the distances of C104_rc5_to_nec_live, C104_nec_to_rc5_live and C104_rc6_live.",
 "C105": "Spec/SessionTime.lean. The polls are numbered from 1 (numberedSaid of C83).",
 "C104": "Spec/Relay.lean. The program is not part of the repository: it combines the polling and the sending example. The sender must have played its (empty) buffer once; C104_nec, _rc5, _rc6 make no assumption on what the receiver hears, the _live theorems start from a remote.",
 "C103": "Spec/Variants.lean. Samsung has a different timing; that the two do not trigger each other is C50.",
 "C102": "Spec/Stretch.lean. C102_falls_polled holds for every pair of runs that do not panic; when that is, is C76_poll_panics_iff. C102_too_much gives two commands that are lost.",
 "C101": "Spec/Swallow.lean. A consequence of the one-tick stop mark (C100); the same sessions without the module are received completely (C57, C58).",
 "C100": "Spec/Busy.lean. The short stop mark of NEC is C100_nec_stop_mark; TrailsOff says what the output does after the last edge of the waveform, C100_spare what that is for empty slots.",
 "C10": "The property excludes Apple; for Apple C10_apple_not_injective exhibits the Apple collision and C10_apple_iff says exactly which Apple commands collide (only the command, the low bit of the page and the repeat flag survive).",
 "C15": "False of the code: C15_rc6_overlap shows in-tolerance RC6 pulses of 4/5 and 5/6 half-bits that are classified as the neighbour. Proved for the other symbols and for nominal lengths.",
 "C16": "The decision itself is characterised (C16_check_overlaps_iff); the claim that it detects confusable symbols is refuted (C16_check_overlaps_useless).",
 "C19": "False without restriction: C19_repeat_after_abort and C19_repeat_before_command are counterexamples. Proved for repeats following a completed command with no aborted frame in between. What is said for every sequence of edges is C67_nec.",
 "C21": "False for NEC and Samsung (C21_*_validate_not_called): invalid words are returned. True for Apple.",
 "C22": "C22_sbp_consecutive_rising shows why alternating edges are required.",
 "C26": "C26_rc6_short_leader_dropped: the weaker reading (leader anywhere within its 12% tolerance) is false because of the overlap in C15.",
 "C27": "C27_rc6_mode_ignored: frames of other even modes are reported as mode-0 commands.",
 "C33": "False in general: C33_collect_stops_at_error (and, for Apple, C33_apple_stops_at_foreign_frame). Proved up to the first error for all protocols, unconditionally for RC5, RC6, Denon; C33_buffer_next_sequence covers calling next() past a None.",
 "C35": "C35_wraparound_loses_frame shows what happens when the clock wraps.",
 "C30": "The bound on the number of events is needed: C30_rc5_clock_overflow, C30_rc6_clock_overflow.",
 "C23": "False as stated: C23_denon_last_bit_lost and C23_denon_stale_bits. Proved for the first 47 bits after a clean history. What is said for every sequence of edges is C67_denon.",
 "C39": "C39_samsung_fails_at_13khz: just below 14 kHz the Samsung round trip fails.",
 "C40": "Fields in range as stated; start values 0 and 1 come back with the first start bit set.",
 "C41": "False at 20 kHz (C41_rc6_fails_at_20khz: for every command) and still at 27027 Hz; proved from 27028 Hz to the compile-time limit. C41_rc6_bands is exact: the twelve bands of frequencies in which every command survives; outside them no command is heard.",
 "C42": "Durations are the u32 slot values; the model covers counter wrap-around.",
 "C43": "False: C43_refuted_fresh, C43_refuted_fresh_load_dropped, C43_refuted_leftover, C43_refuted_stale. Proved: the loaded waveform comes first and unchanged (any buffer), and nothing else follows when the buffer has exactly the length of the waveform.",
 "C46": "Exhaustive over the actions of each remote (finite tables) and over all command values. The tables in the statements are Spec/RemoteTables.lean, read from the sources by tools/remotes.py and separate from the tables of the model.",
 "C50": "All twelve ordered pairs of the four pulse-distance timings; the gap after each frame must not itself be a symbol of the receiver.",
 "C58": "Old contents of the buffer are limited to pulses of at most two (RC6: three) units, as every earlier command leaves them; the spare slots behind the longest waveform must be empty, as in Sender::new. C58_rc5_new and C58_rc6_new start from Sender::new without either assumption.",
 "C57": "The remaining slots of the buffer must be empty (as in Sender::new; NEC waveforms all have 67 slots, so they stay empty): the pulses of one tick they cause are shown to be ignored.",
 "C55": "The receiver must not be slower than the sender: C55_refuted_slow_receiver shows a command lost at one phase and received at another. NEC with a 67-slot buffer is proved for any number of further ticks and polls; other buffers up to the end of the frame, since the sender then goes on with old contents of the buffer (C43).",
 "C61": "Apple NEC is excluded from the recordings: its unpack may return None, which ends the iterator (C33).",
 "C62": "Proved for RC6 without restriction (C62_rc6_arrives), for NEC and Samsung if both values are bytes, for RC5 exactly if a < 32 and c < 64 (an iff). C62_refuted: create accepts larger values, which arrive as other addresses or as a repeat; C62_nec_truncates, C62_samsung_truncates and C62_rc5_mixes say exactly what arrives.",
 "C63": "Under the assumption FugitClock about fugit (source not in the repository): micros() rounds somehow, instants are compared modulo wrap-around. The panic on a long pause is C63_long_pause_panics.",
 "C64": "Under the assumption FugitClock about fugit (source not in the repository). For the pulse-distance protocols the time before the first edge, as the receiver sees it (firstGap), must not be a header.",
 "C65": "Denon: the first 47 bits (C23).",
 "C66": "The two exceptions are the defects of C19 (repeat before a command) and C23 (stale bits); C66_nec_frame_first says that the history does not matter if the first transmission is a frame.",
 "C67": "The parsers are Spec/Parse.lean. The panics excluded are those characterised in C30. For SBP see C22 about two consecutive rising edges.",
 "C60": "C60_refuted_denon: without the exception for a Denon listener next to SBP transmissions the statement is false. Samsung repeat codes and NEC16/raw NEC are not among the messages and listeners (NEC16 and raw commands do not convert to AnyCommand).",
 "C53": "Denon needs a receiver that is new or has just returned a command and loses the last bit, because of C23.",
 "C68": "The output includes the defects of C43: a train of 64 one-tick pulses before the first command and 54 after each. C68_heard starts after the initial train.",
 "C70": "The click is refuted: C70_no_click and C70_mouse_never_clicks show that no report ever has a button pressed (the counter is incremented before it is compared with 0). C70_overflow: a debug build panics at the 2^32-th repetition. Everything else is proved.",
 "C71": "C71_typed is under the assumption FugitClock (see C64).",
 "C72": "Losing the first RC5 or RC6 transmission is a defect of the examples' pattern; the statement says what happens.",
 "C73": "The parsing of the file itself (crate vcd) is not modelled: a capture is the list of its records.",
 "C74": "At 40 kHz the windows of RC6 hold with 5 % jitter although they do not at every frequency above (C65 asks for 80 kHz); rc6Clock_40k is the computation.",
 "C76": "C76_rc5_square_wave: beyond the bound a debug build with 16-bit usize panics on a square wave of 1778 us after 58 s.",
 "C77": "fugit: additions of durations are assumed to panic in every profile (see the model of Mono.fugit).",
 "C78": "C78_symbol_iff is the exact criterion; the converse for whole transmissions is C81 (over all transmissions: a receiver may hear a single one by luck).",
 "C79": "Refuted for RC6: C79_rc6_deaf, C79_rc6_deaf_polled, C79_rc6_deaf_buffer show that no RC6 transmission within 4 % is ever heard at 20 kHz. Proved for the NEC family and RC5 (6 %), SBP (5 %) and Denon (1 %); C79_tolerances says these percentages are the largest.",
 "C81": "Telling (C81_nec) says that a command of the variant can be told from those a misread symbol gives; C81_nec_telling shows it for the five shipped variants. Event driven (C81_nec …) and polled receivers (C81_nec_polled …).",
 "C83": "Times are those of the edges of the line (edgeTimes), poll number k looks at the line when time*f+phase = k*u (C83_delay bounds the delay). Same hypotheses as C65.",
 "C84": "NEC family: proved, events and polled. RC5, RC6: TogglesHeard states what is reported, when is_repeat is right (almost never) and that the presses can be recovered; C84_refuted is a line with one press that is reported as a repetition. SBP: when is_repeat is right (an iff).",
 "C85": "A clock is any monotone function at most c ticks off (Follows); edges handled late and uneven polls are such clocks (follows_late, follows_uneven). In the polled theorems every level lasts at least two polling periods.",
 "C86": "A failed read does not advance the clock of the receiver, so what it counts are the successful polls (goodPolls), a clock that follows time with at most e+1 polls off within 17 ms (follows_good). The receiver must be polled on for more than e polls after the last edge.",
 "C87": "Spec/Ticks.lean: tick number k happens at any time tick k that is at most L late. Sender ticks, late edges and uneven polls together are one clock that follows the ticks (follows_ticks, ticking_late). Polled: two ticks of the sender are at least two polling periods apart. RC5 and RC6, events: the receiver's clock moves on between two ticks of the sender (a pulse of length 0 matches the unused windows of the table, C58); old contents of the buffer as in C58.",
 "C88": "Spec/Broken.lean: the answers to a series, frame by frame (necAnswer, sbpAnswer, denonAnswer), and SentFor for Manchester transmissions. NEC, SBP, Denon: the pulses are parsed by the grammar of C67, the number of periods sent is arbitrary; the *_complete_only theorems read off which commands come. RC5 and RC6: C67 with positions counted in half-bits; a mark that breaks off lasts at least one tick of the clock (a reading of 0 matches the unused windows of the table) and the mark before the very last edge is either sent or not (shortened slightly it is not distinguishable).",
 "C89": "Spec/Drift.lean: ClockWithin, Together. A clock of r Hz sees a line as a clock of f Hz sees the line with all distances multiplied by r/f (clocked_scaled, polled_scaled), which reduces to C78. Real pauses of 20 ms or more; NEC family, SBP and Denon: d at most 20.",
 "C90": "Spec/Drift.lean: Seems (lo to hi percent of the nominal length, as the receiver counts it), necMistaken. All periods (edges) of a series seem off in the same direction, each by its own amount. NEC family with a fast clock: no command (errors are possible). RC5 and RC6 builds with overflow checks need 8 times the number of edges below 2^usizeBits (see C30).",
 "C91": "Spec/Inverted.lean: inverted (high and low swapped), NearPulses (marks and spaces each within j percent, j at most 20), StopAndPause, SentApart. The polled line is high from the first poll on. RC5: the all-ones command is heard if the end of its last mark is on the line, which at this polarity is the last edge of the last bit.",
 "C92": "Spec/Spacing.lean: SpacedBy f need t xs (each result r at least need r microseconds after the one before it, the first after t). C92_rc5_no_time_false and C92_sbp_missing_edges_false show that the two hypotheses on the edges are needed in the event-driven theorems; polled receivers need none. Hypothesis hr: the run does not panic (see C30).",
 "C96": "Spec/HurtBi.lean: Spiked divides one interval of a complete transmission into three, MarkMissing joins three intervals. C96_rc5, C96_rc6: each piece is answered alone; C96_rc5_commands, C96_rc6_commands: order, no wrong command, none of an undisturbed transmission lost (noise of fewer than 14 or 24 edges). C96_short_spike_wrong shows that the lower limit of a tick for a spike is needed: intervals of zero ticks fit the unused entries of the table and count as three half-bits. The last mark of a transmission is not followed by an edge, so its absence is a transmission that breaks off (C88).",
 "C99": "Spec/WrapBi.lean: wrapsOf (where the counter wraps around in each transmission), longAt, intervalAt, rc5Wrapped and rc6Wrapped (the answers). A transmission and the pause before it must take less than half a lap of the counter (RestBefore). C99_rc5_wrong and C99_rc6_wrong are wrong commands. The cause is that the unused entry of the symbol table is the span from 0 to 0 ticks, which an interval measured as 0 matches.",
 "C98": "Spec/Wrap.lean: laps, wrapAt, leftOf (what is left of each transmission of a series). A transmission and the pause after it must take less than one lap of the counter (StopAndRest). hg says that the reading at the first edge, which the receiver takes for an interval since time 0, is not a header. What a single wrapped interval becomes is C35.",
 "C97": "Spec/BitErrors.lean: an error is the word of the wrong bits (HitsPairs, Burst, OddErrors). C97_burst_of_nine shows that eight is the limit. That receivers of standard NEC and Samsung do not call validate is C21; C97_raw_checked is about a program that does.",
 "C95": "Spec/Noisy.lean: pieces (a transmission of C88/C93/C94 or noise), each with the pause after it (RC5, RC6: before it); NecMade, SbpMade, DenonMade say what can be made of n periods of noise. A period of noise must not overflow the counter of the receiver (Countable); RC5 and RC6 builds with overflow checks need 8 times the edges of each piece of noise below 2^usizeBits (see C30). Polled: levels of at least one polling period, i.e. the line as the polls see it.",
 "C94": "Spec/Missing.lean: Joined (two periods become one), fuse (the bits read if two zeros are taken for a one), and the answers as relations. They contain the answers of C93, so spikes and missing marks may occur in the same series (not in the same frame). C94_validated excludes a missing mark after the header: if the joined period were taken for the header, a repeat code would stand for the word shifted down by one bit, which may be valid. RC5 and RC6 are not covered.",
 "C93": "Spec/Spike.lean: Divided (one period becomes two), slip (the word that is read if a one is taken for two zeros), and the answers as relations (where the spike hits within the bit decides which of the allowed answers comes; Where.side, .middle determine it). RC5 and RC6 are not covered. The last bit of a frame is special: the first part alone completes the frame (constructor final).",
 "C82": "The polled counterpart of C66. RC5 and RC6 builds with overflow checks need 8*noise.length below 2^usizeBits (see C30).",
 "C80": "C80_rtic_heard is under the assumption FugitClock (see C64).",
}
