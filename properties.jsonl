{"id": "C01", "title": "NEC command words round-trip and carry their check bytes", "statement": "For every NecCommand c: pack() yields a word that NecCommand::validate accepts and unpack(pack(c), c.repeat) returns exactly c; conversely every word accepted by validate is pack() of the command unpack() returns for it.", "quantifier": "all addr, cmd in u8, all repeat flags; all 2^32 words", "why_tests_cant": "The repo tests check a handful of literal commands; the claim ranges over the whole command space (2^16..2^32 words) and both directions.", "anchors": ["src/protocol/nec/standard.rs: NecCommand::{pack,unpack,validate}"]}
{"id": "C02", "title": "Samsung command words round-trip and carry their check bytes", "statement": "For every SamsungNecCommand c: validate(pack(c)) holds and unpack(pack(c), c.repeat) = Some(c); conversely each word accepted by SamsungNecCommand::validate equals pack() of its unpack().", "quantifier": "all addr, cmd in u8, all repeat flags; all 2^32 words", "why_tests_cant": "The repo tests check a handful of literal commands; the claim ranges over the whole command space (2^16..2^32 words) and both directions.", "anchors": ["src/protocol/nec/samsung.rs: SamsungNecCommand::{pack,unpack,validate}"]}
{"id": "C03", "title": "Nec16 and raw NEC words round-trip", "statement": "For every Nec16Command and every NecDebugCmd c: validate(pack(c)) holds and unpack(pack(c), repeat) gives back c; each word accepted by validate is pack() of its unpack().", "quantifier": "all 16-bit addresses, 8-bit commands, 32-bit raw words", "why_tests_cant": "The repo tests check a handful of literal commands; the claim ranges over the whole command space (2^16..2^32 words) and both directions.", "anchors": ["src/protocol/nec/nec16.rs", "src/protocol/nec/raw.rs"]}
{"id": "C04", "title": "Apple NEC accepts exactly vendor-0x43F, odd-parity words, and loses nothing", "statement": "AppleNecCommand::unpack(bits, r) returns a command iff bits 5..15 equal 0x43F and the word has odd parity; the returned page/command/device are bits 0..4, 17..23 and 24..31; two accepted words with the same page, command and device are the same word; sending an Apple command (pack) always panics.", "quantifier": "all 2^32 words", "why_tests_cant": "The repo tests check a handful of literal commands; the claim ranges over the whole command space (2^16..2^32 words) and both directions.", "anchors": ["src/protocol/nec/apple.rs: AppleNecCommand::{validate,unpack,pack}"]}
{"id": "C05", "title": "No word is both a valid standard NEC and a valid Samsung word", "statement": "There is no 32-bit word accepted by both NecCommand::validate and SamsungNecCommand::validate; every word accepted by either is accepted by Nec16Command::validate.", "quantifier": "all 2^32 words", "why_tests_cant": "The repo tests check a handful of literal commands; the claim ranges over the whole command space (2^16..2^32 words) and both directions.", "anchors": ["src/protocol/nec/standard.rs: validate", "src/protocol/nec/samsung.rs: validate", "src/protocol/nec/nec16.rs: validate"]}
{"id": "C06", "title": "RC5 command words round-trip exactly on the 5/6/2-bit field ranges", "statement": "Rc5Command::unpack(c.pack()) = c if and only if addr < 32, cmd < 64 and start < 4; for every 14-bit word w, unpack(w).pack() = w.", "quantifier": "all Rc5Command values (u8 fields, bool), all u16 words", "why_tests_cant": "The repo tests check a handful of literal commands; the claim ranges over the whole command space (2^16..2^32 words) and both directions.", "anchors": ["src/protocol/rc5/mod.rs: Rc5Command::{pack,unpack,new}"]}
{"id": "C07", "title": "SBP checksum flag is exactly the complement check and the unknown bits are ignored", "statement": "SbpCommand::unpack(a, w) reports valid = true iff the 8 bits 12..19 are the bitwise complement of bits 4..11; command is bits 4..11; the four low bits never influence the result; address is passed through.", "quantifier": "all u16 addresses, all u32 command words", "why_tests_cant": "The repo tests check a handful of literal commands; the claim ranges over the whole command space (2^16..2^32 words) and both directions.", "anchors": ["src/protocol/sbp/mod.rs: SbpCommand::unpack"]}
{"id": "C08", "title": "create / address / command agree", "statement": "For NEC, Samsung, RC5, RC6 and SBP: create(a, c) followed by address() and command() returns the values given whenever they fit the field types; RC5, RC6 and SBP return None exactly when a value does not fit; NEC and Samsung never return None and truncate modulo 256; Apple always returns None.", "quantifier": "all u32 address/command pairs", "why_tests_cant": "The repo tests check a handful of literal commands; the claim ranges over the whole command space (2^16..2^32 words) and both directions.", "anchors": ["src/cmd.rs: AddressCommand", "src/protocol/nec/standard.rs: impl AddressCommand", "src/protocol/nec/samsung.rs: impl AddressCommand", "src/protocol/nec/apple.rs: impl AddressCommand", "src/protocol/rc5/mod.rs: impl AddressCommand", "src/protocol/rc6/cmd.rs: impl AddressCommand", "src/protocol/sbp/mod.rs: impl AddressCommand"]}
{"id": "C09", "title": "ProtocolId survives the u8 round trip", "statement": "ProtocolId::from(id as u8) = id for every id, every byte outside 1..=8 maps to Unknown, and distinct ids have distinct bytes.", "quantifier": "all ProtocolId values and all bytes", "why_tests_cant": "Whole-domain statement in both directions; there is no test for it in the repo.", "anchors": ["src/protocol.rs: ProtocolId, From<u8>"]}
{"id": "C10", "title": "AnyCommand preserves address, command and repeat of the source command", "statement": "Converting any command into AnyCommand keeps its protocol id, address(), command() and is_repeat(); two NEC (or Samsung, RC5, RC6, SBP) commands of one protocol that differ in address or command value convert to different AnyCommands. (The analogous claim for Apple is false: the command page is lost.)", "quantifier": "all command values of every protocol", "why_tests_cant": "The repo tests check a handful of literal commands; the claim ranges over the whole command space (2^16..2^32 words) and both directions.", "anchors": ["src/cmd.rs: AnyCommand, From<Cmd>", "src/protocol/nec/apple.rs: command()", "src/protocol/denon/mod.rs: From<DenonCommand>"]}
{"id": "C11", "title": "Building any shipped receiver never panics, at any frequency", "statement": "For every u32 frequency, creating a receiver for NEC (all variants), RC5, RC6, SBP or Denon with a u32 or u64 clock performs no overflowing arithmetic and no division by zero, so it yields the same tolerance table in debug and release builds.", "quantifier": "all 2^32 frequencies, all protocols, both overflow profiles", "why_tests_cant": "The claim ranges over every 32-bit clock frequency and all jitter inside the tolerance; tests use two or three frequencies and fixed captures.", "anchors": ["src/receiver/time/primitives.rs: Span::{new,scaled}", "src/protocol/utils.rs: scale_with_samplerate", "src/receiver/time.rs: PulseSpans::new"]}
{"id": "C12", "title": "Pulse lengths are scaled to ticks accurately at every frequency", "statement": "For every frequency and every pulse length of at most 13500 us the tick count used for the tolerance table is never above the exact length*freq/10^6 and never more than 0.32% + 1 tick below it.", "quantifier": "all 2^32 frequencies x all lengths 0..13500", "why_tests_cant": "The claim ranges over every 32-bit clock frequency and all jitter inside the tolerance; tests use two or three frequencies and fixed captures.", "anchors": ["src/protocol/utils.rs: scale_with_samplerate"]}
{"id": "C13", "title": "Scaling terminates and panics only on absurd pulse lengths", "statement": "For every (length, frequency) the overflow-avoidance loop terminates; it divides by zero (panics) exactly when length * (freq / 10^6) does not fit u32, hence never for lengths of a million microseconds or less.", "quantifier": "all u32 lengths and frequencies", "why_tests_cant": "The claim ranges over every 32-bit clock frequency and all jitter inside the tolerance; tests use two or three frequencies and fixed captures.", "anchors": ["src/protocol/utils.rs: scale_with_samplerate"]}
{"id": "C14", "title": "Pulse classification is unambiguous for NEC, Samsung, RC5, SBP and Denon", "statement": "At every frequency of at least 20 kHz a duration is classified as a given symbol iff it lies in that symbol's tolerance interval: the intervals of different symbols never intersect, so the first-match search order is irrelevant.", "quantifier": "all frequencies >= 20 kHz, all durations", "why_tests_cant": "The claim ranges over every 32-bit clock frequency and all jitter inside the tolerance; tests use two or three frequencies and fixed captures.", "anchors": ["src/receiver/time.rs: PulseSpans::get", "src/protocol/nec/decoder.rs: pulselens, TOL", "src/protocol/rc5/decoder.rs", "src/protocol/sbp/mod.rs", "src/protocol/denon/mod.rs"]}
{"id": "C15", "title": "Every RC6 pulse within the +-12% tolerance is classified as its own symbol", "statement": "At every frequency >= 20 kHz, a duration within the 12% interval of k time units is classified as k units. (False: the 4/5 and 5/6 unit intervals overlap and the smaller one wins; true for 1..4 units.)", "quantifier": "all frequencies >= 20 kHz, all durations, all k in 1..6", "why_tests_cant": "The claim ranges over every 32-bit clock frequency and all jitter inside the tolerance; tests use two or three frequencies and fixed captures.", "anchors": ["src/protocol/rc6/decoder.rs: PULSE, TOL", "src/receiver/time.rs: PulseSpans::get"]}
{"id": "C16", "title": "check_overlaps tells whether two symbols can be confused", "statement": "PulseSpans::check_overlaps() returns true iff some duration lies in two different intervals of the table; in particular it is a usable configuration check for the shipped protocols. (The second half is false: unused table slots are all the interval [0,0], so it returns true for every shipped protocol at every frequency.)", "quantifier": "all tables with low <= high; all frequencies", "why_tests_cant": "The claim ranges over every 32-bit clock frequency and all jitter inside the tolerance; tests use two or three frequencies and fixed captures.", "anchors": ["src/receiver/time.rs: PulseSpans::check_overlaps, Span::overlaps"]}
{"id": "C17", "title": "Every in-tolerance NEC frame is decoded", "statement": "For every 32-bit word and every choice of pulse/space durations whose sums lie in the tolerance intervals, an idle NEC-family receiver returns nothing for the first 32 pulses and the command unpack(word, false) on the last rising edge; this holds from any idle state, whatever was received before.", "quantifier": "all words, all jitter within tolerance, all prior histories that leave the receiver idle, all clock types", "why_tests_cant": "The claim ranges over every 32-bit clock frequency and all jitter inside the tolerance; tests use two or three frequencies and fixed captures.", "anchors": ["src/protocol/nec/decoder.rs: NecDecoder::event", "src/receiver.rs: Receiver::event_edge"]}
{"id": "C18", "title": "NEC receivers never invent a command", "statement": "Whenever a NEC-family receiver returns a command, the most recent 33 rising-edge periods are a sync followed by 32 bit periods spelling, least significant first, the word of that command, or the most recent period is a repeat code.", "quantifier": "all finite event histories (any edges, any durations), all clock types, both overflow profiles", "why_tests_cant": "The claim ranges over every finite history of edges (unbounded length, arbitrary durations, arbitrary interleaving of noise and frames); tests replay a few recorded captures.", "anchors": ["src/protocol/nec/decoder.rs: NecDecoder::{event,command}"]}
{"id": "C19", "title": "A NEC repeat code reports the last command received", "statement": "When a repeat code is received the receiver returns the most recently returned command with repeat = true. (False after an aborted frame, whose partial bits are reported, and before any command, when 0/0 is reported; true as long as no decoding error occurred since that command.)", "quantifier": "all finite event histories", "why_tests_cant": "The claim ranges over every finite history of edges (unbounded length, arbitrary durations, arbitrary interleaving of noise and frames); tests replay a few recorded captures.", "anchors": ["src/protocol/nec/decoder.rs: NecDecoder::{event,command,reset}"]}
{"id": "C20", "title": "A NEC receiver resynchronises after at most one lost frame", "statement": "After any history whatsoever, if a well-formed frame is sent twice the receiver returns its command at the end of the second copy.", "quantifier": "all finite event histories, all words, all in-tolerance jitter", "why_tests_cant": "The claim ranges over every finite history of edges (unbounded length, arbitrary durations, arbitrary interleaving of noise and frames); tests replay a few recorded captures.", "anchors": ["src/protocol/nec/decoder.rs: NecDecoder::event", "src/receiver.rs: Receiver::event_edge"]}
{"id": "C21", "title": "Standard and Samsung NEC receivers only return checksum-valid commands", "statement": "Each non-repeat command returned by a NEC/Samsung receiver comes from a word accepted by validate. (False: validate is never called by the decoder; it holds for the Apple variant.)", "quantifier": "all finite event histories", "why_tests_cant": "The claim ranges over every finite history of edges (unbounded length, arbitrary durations, arbitrary interleaving of noise and frames); tests replay a few recorded captures.", "anchors": ["src/protocol/nec/decoder.rs: NecDecoder::command", "src/protocol/nec/standard.rs: unpack"]}
{"id": "C22", "title": "SBP frames: complete and sound decoding", "statement": "From any idle state each in-tolerance SBP frame (sync, 16 address bits, divider, 20 command bits, LSB first) returns exactly SbpCommand::unpack(address, word) on its last edge; and every command returned by an SBP receiver fed alternating edges is preceded by exactly such a frame.", "quantifier": "all addresses, words, jitter; all finite alternating-edge histories", "why_tests_cant": "The claim ranges over every finite history of edges (unbounded length, arbitrary durations, arbitrary interleaving of noise and frames); tests replay a few recorded captures.", "anchors": ["src/protocol/sbp/mod.rs: SbpDecoder::{event,command,reset}"]}
{"id": "C23", "title": "Denon frames are decoded to the 48 bits sent", "statement": "An in-tolerance Denon frame is returned as the 48-bit word sent, regardless of what was received before. (False twice: the last bit is always reported as 0, and bits of an earlier aborted frame are OR-ed into the next command; true for the low 47 bits after a clean history.)", "quantifier": "all 48-bit words, all jitter, all prior histories", "why_tests_cant": "The claim ranges over every finite history of edges (unbounded length, arbitrary durations, arbitrary interleaving of noise and frames); tests replay a few recorded captures.", "anchors": ["src/protocol/denon/mod.rs: DenonDecoder::{event,reset}"]}
{"id": "C24", "title": "Every in-tolerance RC5 frame is decoded", "statement": "For every 14-bit word with leading start bit 1 and every choice of in-tolerance durations of its Manchester waveform, an idle RC5 receiver returns nothing until the last edge and then exactly Rc5Command::unpack(word).", "quantifier": "all words, all jitter within tolerance, all idle states", "why_tests_cant": "The claim ranges over every 32-bit clock frequency and all jitter inside the tolerance; tests use two or three frequencies and fixed captures.", "anchors": ["src/protocol/rc5/decoder.rs: Rc5Decoder::event"]}
{"id": "C25", "title": "RC5 receivers never invent a command", "statement": "Whenever an RC5 receiver returns a command, the history ends with a start edge followed only by classified durations, exactly 13 of whose edges fall on whole bit periods, and the command's bits are 1 followed by the directions of those edges.", "quantifier": "all finite event histories, both overflow profiles, every word size", "why_tests_cant": "The claim ranges over every finite history of edges (unbounded length, arbitrary durations, arbitrary interleaving of noise and frames); tests replay a few recorded captures.", "anchors": ["src/protocol/rc5/decoder.rs: Rc5Decoder::{event,command,reset}"]}
{"id": "C26", "title": "Every in-tolerance RC6 frame is decoded with the right toggle", "statement": "For every address, command and toggle bit and every choice of durations of the RC6 mode-0 waveform that the tolerance table classifies as the right number of half-bits, an idle RC6 receiver returns nothing until the last mid-bit edge and then exactly that command. For all symbols but the 6-half-bit leader being within tolerance is enough; a leader near its lower tolerance limit is classified as 5 half-bits and the frame is dropped.", "quantifier": "all 2^17 commands, all jitter within the classified intervals, all idle states", "why_tests_cant": "The claim ranges over every 32-bit clock frequency and all jitter inside the tolerance; tests use two or three frequencies and fixed captures.", "anchors": ["src/protocol/rc6/decoder.rs: Rc6Decoder::event"]}
{"id": "C27", "title": "RC6 receivers never invent a command", "statement": "Whenever an RC6 receiver returns a command the history ends with leader, pause, four header bits, toggle bit and sixteen data bits (read at half-bit clock positions) whose data and toggle are those of the command. (The stronger claim that the header must be mode 0 is false: header bits are ignored.)", "quantifier": "all finite event histories, both overflow profiles", "why_tests_cant": "The claim ranges over every finite history of edges (unbounded length, arbitrary durations, arbitrary interleaving of noise and frames); tests replay a few recorded captures.", "anchors": ["src/protocol/rc6/decoder.rs: Rc6Decoder::{event,command,reset}"]}
{"id": "C28", "title": "RC5, RC6 and Denon receivers never report a decoding error", "statement": "No event history makes an RC5, RC6 or Denon receiver return Err; malformed input is dropped silently. NEC receivers only report Data errors; SBP only Address or Data errors; Validation and RemoteControlError are never reported.", "quantifier": "all finite event histories, all protocols", "why_tests_cant": "The claim ranges over every finite history of edges (unbounded length, arbitrary durations, arbitrary interleaving of noise and frames); tests replay a few recorded captures.", "anchors": ["src/protocol/rc5/decoder.rs: event", "src/protocol/rc6/decoder.rs: event", "src/protocol/denon/mod.rs: event", "src/receiver/error.rs"]}
{"id": "C29", "title": "A gap makes RC5 and RC6 receivers forget the past", "statement": "If an event's duration matches no interval, then from that event on an RC5 or RC6 receiver returns exactly what a brand-new receiver would return for the remaining events, whatever happened before.", "quantifier": "all pairs of finite histories (before, after)", "why_tests_cant": "The claim ranges over every finite history of edges (unbounded length, arbitrary durations, arbitrary interleaving of noise and frames); tests replay a few recorded captures.", "anchors": ["src/protocol/rc5/decoder.rs: event/reset", "src/protocol/rc6/decoder.rs: event/reset"]}
{"id": "C30", "title": "Decoders do not panic", "statement": "No history of events makes a receiver panic: in release builds unconditionally; with overflow checks as long as consecutive mark+space durations fit the duration type and (RC5/RC6) at most 2^usize_bits/8 events arrive.", "quantifier": "all finite event histories, all protocols, both overflow profiles, every usize width", "why_tests_cant": "The claim ranges over every finite history of edges (unbounded length, arbitrary durations, arbitrary interleaving of noise and frames); tests replay a few recorded captures.", "anchors": ["src/protocol/rc5/decoder.rs: event", "src/protocol/rc6/decoder.rs: event"]}
{"id": "C31", "title": "RC5/RC6 results do not depend on the machine word size", "statement": "The half-bit clock of the RC5/RC6 decoders may wrap around; in a release build the outputs for any history are the same on 16-, 32- and 64-bit targets.", "quantifier": "all finite event histories, all usize widths", "why_tests_cant": "The claim ranges over every finite history of edges (unbounded length, arbitrary durations, arbitrary interleaving of noise and frames); tests replay a few recorded captures.", "anchors": ["src/protocol/rc5/decoder.rs: clock", "src/protocol/rc6/decoder.rs: clock"]}
{"id": "C32", "title": "A receiver is ready for the next frame after every command or error", "statement": "After event_edge returns a command or an error the receiver accepts a following well-formed frame from scratch: its decoder is in the idle state and a fresh receiver and this one return the same results for every continuation (NEC: up to the word reported by repeat codes).", "quantifier": "all histories and all continuations", "why_tests_cant": "The claim ranges over every finite history of edges (unbounded length, arbitrary durations, arbitrary interleaving of noise and frames); tests replay a few recorded captures.", "anchors": ["src/receiver.rs: Receiver::event_edge", "src/receiver/decoder.rs: event_total"]}
{"id": "C33", "title": "BufferInputReceiver yields exactly what an event-driven receiver would return", "statement": "Collecting BufferInputReceiver::iter(buf) gives the commands an event receiver returns when fed the durations with alternating edges starting with a rising one. (False in general: the iterator stops at the first decoding error; true up to that point, and unconditionally for RC5, RC6 and Denon.)", "quantifier": "all buffers of any length, all protocols", "why_tests_cant": "The claim ranges over every finite history of edges (unbounded length, arbitrary durations, arbitrary interleaving of noise and frames); tests replay a few recorded captures.", "anchors": ["src/receiver/iter.rs: BufferIterator::next", "src/receiver/bufferinput.rs"]}
{"id": "C34", "title": "Polling is equivalent to edge timing", "statement": "For every sequence of pin samples, PeriodicPoll returns at each level change exactly what an event receiver returns for that edge with the number of polls since the previous change (mod 2^32, also across wrap-around of its clock), and Ok(None) at all other polls.", "quantifier": "all finite sample sequences", "why_tests_cant": "The claim ranges over every finite history of edges (unbounded length, arbitrary durations, arbitrary interleaving of noise and frames); tests replay a few recorded captures.", "anchors": ["src/receiver/ppoll.rs: PeriodicPoll::poll_base"]}
{"id": "C35", "title": "Absolute timestamps are equivalent to durations", "statement": "Feeding event_instant with non-decreasing timestamps returns what event_edge returns for the successive differences; a timestamp that went backwards counts as duration 0. (With a u32/u64 clock that wraps around, the true elapsed time is therefore lost.)", "quantifier": "all timestamp sequences", "why_tests_cant": "The claim ranges over every finite history of edges (unbounded length, arbitrary durations, arbitrary interleaving of noise and frames); tests replay a few recorded captures.", "anchors": ["src/receiver.rs: event_instant", "src/receiver/time/primitives.rs: checked_sub"]}
{"id": "C36", "title": "MultiReceiver components do not interfere", "statement": "For every event history slot i of every MultiReceiver result equals what a stand-alone receiver of protocol i returns for the same events (errors reported as None), for any number of component protocols.", "quantifier": "all histories, all lists of component protocols", "why_tests_cant": "The claim ranges over every finite history of edges (unbounded length, arbitrary durations, arbitrary interleaving of noise and frames); tests replay a few recorded captures.", "anchors": ["src/receiver/multi.rs: MultiReceiver, ReceiverWrapper::event"]}
{"id": "C37", "title": "A failing pin read changes nothing", "statement": "If reading the pin fails, event/event_instant/poll (and event/event_iter of a MultiReceiver) return the HAL error and leave the receiver in exactly the state before the call, so all later results are as if the call had not been made.", "quantifier": "all histories with pin failures at any positions", "why_tests_cant": "The claim ranges over every finite history of edges (unbounded length, arbitrary durations, arbitrary interleaving of noise and frames); tests replay a few recorded captures.", "anchors": ["src/receiver.rs: event, event_instant (pin)", "src/receiver/ppoll.rs: poll (pin)", "src/receiver/multi.rs: event, event_iter", "src/receiver/error.rs: From<DecodingError>"]}
{"id": "C38", "title": "Encoders write exactly the documented waveform and never past it", "statement": "encode() of NEC, RC5 and RC6 panics iff the slice is shorter than the waveform, otherwise it overwrites exactly a prefix with the waveform, leaves the rest unchanged and returns its length: NEC exactly 67 entries, RC5 14..27 and RC6 at most 44 entries; entry 0 is always 0. The entries are the documented microseconds in ticks, at every frequency at which the encoder compiles with overflow checks (NEC up to 477.218999 MHz, Samsung 954.437999 MHz, RC5 all, RC6 9.673349 MHz); without overflow checks the NEC encoders compile beyond that limit too, with a wrong header at every frequency.", "quantifier": "all commands, all slices of any length, all compile-time frequencies", "why_tests_cant": "The repo tests check a handful of literal commands; the claim ranges over the whole command space (2^16..2^32 words) and both directions.", "anchors": ["src/protocol/nec/encoder.rs", "src/protocol/rc5/encoder.rs", "src/protocol/rc6/encoder.rs"]}
{"id": "C39", "title": "NEC-family encode/decode round trip at every practical frequency", "statement": "For every frequency from 14 kHz up to the encoder's compile-time limit (477.218999 MHz) and every NEC, Samsung, Nec16 or raw command, decoding the encoded waveform with a receiver of the same frequency returns exactly that command with repeat = false.", "quantifier": "all frequencies in range x all commands", "why_tests_cant": "The claim ranges over every 32-bit clock frequency and all jitter inside the tolerance; tests use two or three frequencies and fixed captures.", "anchors": ["src/protocol/nec/encoder.rs: calc_ticks, encode", "src/protocol/nec/decoder.rs"]}
{"id": "C40", "title": "RC5 encode/decode round trip at every practical frequency", "statement": "For every u32 frequency of at least 13 kHz and every Rc5Command with addr < 32, cmd < 64, start in {2,3}, decoding the encoded waveform returns exactly that command (with the first start bit forced to 1 otherwise).", "quantifier": "all frequencies >= 13 kHz x all commands", "why_tests_cant": "The claim ranges over every 32-bit clock frequency and all jitter inside the tolerance; tests use two or three frequencies and fixed captures.", "anchors": ["src/protocol/rc5/encoder.rs: calc_freq, encode", "src/protocol/rc5/decoder.rs"]}
{"id": "C41", "title": "RC6 encode/decode round trip", "statement": "For every usable frequency and every Rc6Command, decoding the encoded waveform with a receiver of the same frequency returns exactly that command. (False at 20 kHz, the polling rate the documentation suggests; true for every frequency from 27 028 Hz to the compile-time limit 9 673 349 Hz.)", "quantifier": "all frequencies x all commands", "why_tests_cant": "The claim ranges over every 32-bit clock frequency and all jitter inside the tolerance; tests use two or three frequencies and fixed captures.", "anchors": ["src/protocol/rc6/encoder.rs: DATA, encode", "src/protocol/rc6/decoder.rs"]}
{"id": "C42", "title": "The sender's output is the run-length expansion of its buffer", "statement": "After loading a command, the PWM enable states over successive tick() calls are: off for the number of ticks in the first slot (0 for every shipped encoder), then alternating levels starting with on, each held for the number of ticks in its slot (a 0 counts as one tick), then off forever.", "quantifier": "all buffers, all tick counts (also across counter wrap-around)", "why_tests_cant": "Unbounded tick histories and every buffer content; the repo has no sender tests at all.", "anchors": ["src/sender/senders.rs: PulsedataSender::tick", "src/sender/hal.rs: Sender::tick"]}
{"id": "C43", "title": "A sender transmits nothing but the loaded command", "statement": "A sender with nothing loaded keeps the output disabled, and after a loaded command has been sent the output stays disabled. (False: buffer slots beyond the loaded command are transmitted too, a fresh sender toggles its output once per buffer slot, a fresh sender ticked before its first load drops that load, and stale slots of an earlier longer command are replayed; true when the buffer size equals the waveform length.)", "quantifier": "all buffer sizes, all commands, all tick counts", "why_tests_cant": "Unbounded tick histories and every buffer content; the repo has no sender tests at all.", "anchors": ["src/sender/senders.rs: tick", "src/sender/buffer.rs: get"]}
{"id": "C44", "title": "Loading while transmitting is ignored", "statement": "Sender::load during a transmission (from the first switch-on to the end) changes neither buffer nor output: the results of all later calls are as if load had not been called; before the first switch-on and once idle, load starts the new command from its beginning.", "quantifier": "all interleavings of load and tick", "why_tests_cant": "Arbitrary interleavings of load and tick; the repo has no sender tests at all.", "anchors": ["src/sender/hal.rs: Sender::{load,tick}", "src/sender/senders.rs: load_command, reset"]}
{"id": "C45", "title": "Sender to polling receiver, end to end", "statement": "A command loaded into a Sender ticked at F and sampled once per tick by a PeriodicPoll receiver built for F is received: the first result other than Ok(None) is exactly that command. (NEC family, RC5 and RC6, for all F in the ranges of C39-C41 and every sufficient buffer size.)", "quantifier": "all commands, all frequencies in range, all buffer sizes", "why_tests_cant": "The claim ranges over every 32-bit clock frequency and all jitter inside the tolerance; tests use two or three frequencies and fixed captures.", "anchors": ["src/sender/hal.rs", "src/receiver/ppoll.rs", "src/protocol/nec/encoder.rs", "src/protocol/nec/decoder.rs", "src/protocol/rc5/encoder.rs", "src/protocol/rc5/decoder.rs"]}
{"id": "C46", "title": "Remote control button maps are inverse to each other", "statement": "For every shipped remote except Apple: encode(a) = Some(c) implies decode(c) = Some(a); decode(c) = Some(a) implies encode(a) has the same address and command; encode(a) is Some exactly for the listed actions, with the listed code and address. Apple: decode is defined on exactly the ten listed (page, command) pairs, encode is always None.", "quantifier": "all actions, all command values", "why_tests_cant": "Whole-domain statement over every action and every command value for each remote; tests check one action.", "anchors": ["src/remotecontrol/mod.rs: RemoteControlModel::{decode,encode}", "src/remotecontrol/nec", "src/remotecontrol/rc5", "src/remotecontrol/sbp"]}
{"id": "C47", "title": "A remote never reacts to another device's address", "statement": "For every command whose address differs from the remote's, decode (hence Button::action) is None, whatever the command byte; the Button always exposes the unchanged command and its repeat flag.", "quantifier": "all command values, all remotes with an address check", "why_tests_cant": "Universal over all addresses/commands.", "anchors": ["src/remotecontrol/mod.rs: decode", "src/remotecontrol/mapper.rs: Button"]}
{"id": "C48", "title": "Action names are unambiguous", "statement": "Action::to_str gives different strings to different actions: the listed names.", "quantifier": "all pairs of actions", "why_tests_cant": "All pairs; no test exists.", "anchors": ["src/remotecontrol/mod.rs: Action::to_str"]}
{"id": "C49", "title": "Builder calls commute", "statement": "Whatever the order and repetition of builder calls, the receiver built uses the last frequency given (1 MHz if none) and the last pin given; calls that set protocol, clock or remote do not disturb them.", "quantifier": "all finite sequences of builder calls", "why_tests_cant": "Arbitrary call sequences; tests use two.", "anchors": ["src/receiver/builder.rs: Builder"]}
{"id": "C50", "title": "Protocols do not trigger each other's receivers", "statement": "Any number of frames of standard NEC timing, separated by gaps, never makes a Samsung, SBP or Denon receiver return a command, and likewise for Samsung, SBP and Denon frames before receivers of the other three, whichever words are sent, with any jitter inside the tolerance and for every clock of at least 20 kHz.", "quantifier": "all words, all in-tolerance jitter, all pairs of pulse-distance protocols", "why_tests_cant": "The claim ranges over every 32-bit clock frequency and all jitter inside the tolerance; tests use two or three frequencies and fixed captures.", "anchors": ["src/protocol/nec/mod.rs: PULSE_DISTANCE", "src/protocol/sbp/mod.rs: PULSE", "src/protocol/denon/mod.rs: PULSE"]}
{"id": "C51", "title": "Denon receivers never invent a frame", "statement": "Whenever a Denon receiver returns a command, the history up to that edge ends with a sync pulse and 48 bit pulses; every bit set among the first 47 of them is set in the command, and bits 47..63 of the command are 0.", "quantifier": "all finite event histories, any clock", "why_tests_cant": "The claim ranges over every finite history of edges (unbounded length, arbitrary durations, arbitrary interleaving of noise and frames); tests replay a few recorded captures.", "anchors": ["src/protocol/denon/mod.rs: DenonDecoder::event"]}
{"id": "C52", "title": "Tolerance windows are the documented ones", "statement": "For each protocol and clock frequency, a duration is accepted as a symbol if it lies within the documented tolerance of the documented length in microseconds (shrunk at the top by 0.32 % and about a tick of rounding), and rejected if it lies outside the tolerance (widened at the bottom by the same); unused slots accept only a zero duration.", "quantifier": "all protocols, symbols, durations, frequencies below 2^32 Hz", "why_tests_cant": "The claim ranges over every 32-bit clock frequency and all jitter inside the tolerance; tests use two or three frequencies and fixed captures.", "anchors": ["src/receiver/time.rs: PulseSpans, InfraMonotonic", "src/protocol/nec/decoder.rs: pulselens, TOL", "src/protocol/rc5/decoder.rs", "src/protocol/rc6/decoder.rs", "src/protocol/sbp/mod.rs", "src/protocol/denon/mod.rs"]}
{"id": "C53", "title": "Real transmissions are received whatever their phase and jitter", "statement": "A transmission whose periods in real time are within 5 % (NEC family, RC5, RC6) or 3 % (SBP, Denon) of the documented lengths is decoded to the word sent, for every clock frequency from 20 kHz (NEC family), 40 kHz (SBP, Denon, RC5) or 80 kHz (RC6) and every position of the transmission relative to the ticks of the clock.", "quantifier": "all words, all jitter within the bounds, all frequencies and clock phases", "why_tests_cant": "The claim ranges over every 32-bit clock frequency and all jitter inside the tolerance; tests use two or three frequencies and fixed captures.", "anchors": ["src/receiver.rs: Receiver::event_edge", "src/receiver/time.rs: PulseSpans"]}
{"id": "C54", "title": "Polling a real line equals receiving its edges with a clock", "statement": "A receiver polled f times per second on a line whose edges are at least one polling period apart returns (Ok(None) aside) exactly what an event receiver returns whose clock runs at f Hz, whatever the decoder and the phase of the polls; a real NEC transmission within 5 % of the documented periods is so received by polling at 20 kHz or more; a silent line yields nothing.", "quantifier": "all decoders, lines, frequencies, phases, numbers of polls (pauses below 2^32 polls)", "why_tests_cant": "The claim ranges over every 32-bit clock frequency and all jitter inside the tolerance; tests use two or three frequencies and fixed captures.", "anchors": ["src/receiver/ppoll.rs: PeriodicPoll::poll_base", "src/receiver.rs: Receiver::event_edge"]}
{"id": "C55", "title": "Sender and polled receiver with different clocks", "statement": "A command sent by an idle Sender ticked fs times per second is received, exactly once and unchanged, by a new PeriodicPoll receiver polled f times per second on the same line, for independent frequencies fs <= f and any phase between the two timers: NEC family, RC5 and RC6. With f < fs it may be lost, because the sender holds the last mark of a frame for one tick only.", "quantifier": "all commands, pauses before the frame, phases, sender frequencies (NEC: 20 kHz or from 21 kHz; RC5: from 42 kHz or whole kHz from 20 kHz; RC6: from 46 kHz) and receiver frequencies not below the sender's (RC5: from 40 kHz, RC6: from 80 kHz)", "why_tests_cant": "The claim ranges over every 32-bit clock frequency and all jitter inside the tolerance; tests use two or three frequencies and fixed captures.", "anchors": ["src/sender/hal.rs: Sender::load, tick", "src/sender/senders.rs: PulsedataSender::tick", "src/receiver/ppoll.rs: PeriodicPoll::poll_base", "src/protocol/nec/encoder.rs", "src/protocol/rc5/encoder.rs", "src/protocol/rc6/encoder.rs"]}
{"id": "C56", "title": "A receiver hears any number of transmissions, each once", "statement": "A new receiver listening to any number of in-tolerance transmissions separated by pauses returns exactly the commands sent, in order, each once, and no error: NEC family (frames and repeat codes, a repeat code giving the preceding word again), SBP, Denon (first 47 bits), RC5 and RC6 (pauses of any length; the half-bit counter never overflows, whatever the number of transmissions).", "quantifier": "all finite series of transmissions, all words, all durations within tolerance, all pauses, frequencies from 20 kHz", "why_tests_cant": "The claim ranges over every finite history of edges (unbounded length, arbitrary durations, arbitrary interleaving of noise and frames); tests replay a few recorded captures.", "anchors": ["src/receiver.rs: Receiver::event_edge", "src/protocol/nec/decoder.rs: NecDecoder", "src/protocol/sbp/mod.rs", "src/protocol/denon/mod.rs", "src/protocol/rc5/decoder.rs", "src/protocol/rc6/decoder.rs"]}
{"id": "C57", "title": "A sender and a polled receiver work together over a whole session", "statement": "A new (or idle, with empty remaining slots) Sender of the NEC family ticked fs times per second and given any number of commands, one every 108 ms or more, makes a new PeriodicPoll receiver polled f >= fs times per second return exactly these commands, in order, each once, and nothing else, for any buffer size of at least 67 slots, although the sender toggles its output for every unused slot.", "quantifier": "all lists of commands and distances between them, buffer sizes, sender frequencies of 20 kHz or from 21 kHz, receiver frequencies not below, phases, numbers of further polls", "why_tests_cant": "The claim ranges over every finite history of edges (unbounded length, arbitrary durations, arbitrary interleaving of noise and frames); tests replay a few recorded captures.", "anchors": ["src/sender/hal.rs: Sender::load, tick", "src/sender/senders.rs: PulsedataSender::tick", "src/sender/buffer.rs: PulsedataBuffer", "src/receiver/ppoll.rs: PeriodicPoll::poll_base", "src/protocol/nec/encoder.rs", "src/protocol/nec/decoder.rs"]}
{"id": "C58", "title": "RC5 and RC6 sessions survive the old contents of the sender's buffer", "statement": "A Sender given any number of RC5 (RC6) commands, one every 114 ms (106 ms) or more plus one tick per spare slot, makes a new PeriodicPoll receiver polled f >= fs times per second return exactly these commands in order, each once and nothing else (for RC5 with the first start bit, which is always sent as one, set), although RC5 and RC6 waveforms differ in length and the sender therefore replays the end of earlier commands after shorter ones and toggles its output for every unused slot.", "quantifier": "all lists of commands and distances between them, buffer sizes from 27 (44) slots, old buffer contents of earlier commands, sender frequencies (RC5 from 42 kHz or whole kHz from 20 kHz, RC6 from 46 kHz), receiver frequencies from 40 kHz (80 kHz) and not below the sender's, phases, numbers of further polls", "why_tests_cant": "The claim ranges over every finite history of edges (unbounded length, arbitrary durations, arbitrary interleaving of noise and frames); tests replay a few recorded captures.", "anchors": ["src/sender/hal.rs: Sender::load, tick", "src/sender/senders.rs: PulsedataSender::tick, load_command", "src/sender/buffer.rs: PulsedataBuffer::load, reset", "src/receiver/ppoll.rs: PeriodicPoll::poll_base", "src/protocol/rc5/encoder.rs", "src/protocol/rc5/decoder.rs", "src/protocol/rc6/encoder.rs", "src/protocol/rc6/decoder.rs"]}
{"id": "C59", "title": "Pressing a button on one side gives its action on the other side", "statement": "A program that turns any list of actions known to a Samsung TV, SpecialForMp3 or CD-player remote into commands with RemoteControlModel::encode and loads them into a Sender, one every 108 ms (CD player 114 ms) or more plus one tick per spare slot, makes a PeriodicPoll receiver whose output type is Button<that remote> report exactly these actions in this order, each once, none of them marked as a repetition, and nothing else.", "quantifier": "all lists of actions of the remote and distances between them, buffer sizes, sender frequencies from 21 kHz (or whole kHz from 20 kHz; CD player 42 kHz or whole kHz from 20 kHz), receiver frequencies not below the sender's (CD player from 40 kHz), phases, numbers of further polls", "why_tests_cant": "The claim ranges over every finite history of edges (unbounded length, arbitrary durations, arbitrary interleaving of noise and frames); tests replay a few recorded captures.", "anchors": ["src/remotecontrol/mod.rs: RemoteControlModel::encode, decode", "src/remotecontrol/mapper.rs: Button", "src/remotecontrol/nec", "src/remotecontrol/rc5", "src/sender/hal.rs: Sender::load, tick", "src/receiver/ppoll.rs: PeriodicPoll::poll_base"]}
{"id": "C60", "title": "A MultiReceiver in a room full of remote controls", "statement": "Remote controls for NEC (frames and repeat codes), Samsung, SBP, Denon, RC5 and RC6 send one message after the other, in any order, 15 ms or more apart. A new MultiReceiver for any selection of the protocols NEC, Apple NEC, Samsung NEC, SBP, Denon, RC5 and RC6 then gives, through event_generic_iter, for every message exactly the AnyCommands that the listeners for this kind of message are to hear (address, command and repeat flag taken bit by bit from what was sent), in the order of the selection, and nothing else; it never panics. Exception, shown to be one: a Denon listener next to SBP transmissions keeps bits of them and may report the next Denon command wrongly.", "quantifier": "all selections (any number, any order, repetitions), all finite series of messages, all words, all durations within tolerance (marks of pulse-distance transmissions below 0.7 ms or from 3.1 ms), all pauses from 15 ms, frequencies from 20 kHz", "why_tests_cant": "The claim ranges over every finite history of edges (unbounded length, arbitrary durations, arbitrary interleaving of noise and frames); tests replay a few recorded captures.", "anchors": ["src/receiver/multi.rs: MultiReceiver::new, event_generic_iter", "src/cmd.rs: AnyCommand", "src/receiver.rs: Receiver::event_edge", "src/protocol/nec/decoder.rs", "src/protocol/sbp/mod.rs", "src/protocol/denon/mod.rs", "src/protocol/rc5/decoder.rs", "src/protocol/rc6/decoder.rs"]}
{"id": "C61", "title": "Buffers: recordings are decoded completely and prepared buffers hold exactly the waveform", "statement": "BufferInputReceiver, given the durations of a recording of any number of in-tolerance transmissions with pauses, yields exactly the commands, in order (NEC, Samsung, NEC16, raw, SBP, Denon's first 47 bits, RC5, RC6). A PulsedataSender, whatever was loaded into it, ticked or reset before, panics on load_command exactly if the waveform does not fit its buffer, and otherwise buffer() is exactly the waveform, also while it is ticked; iterating over the buffer gives its entries and then None forever. Handing this buffer() to a BufferInputReceiver of the same frequency yields exactly the loaded command (not marked as a repeat for the NEC family).", "quantifier": "all series of transmissions, words, durations within tolerance and pauses; all earlier uses of a sender; all buffer sizes, commands (RC5: fields in range), frequencies in the encoders' ranges", "why_tests_cant": "The claim ranges over every finite history of edges (unbounded length, arbitrary durations, arbitrary interleaving of noise and frames); tests replay a few recorded captures.", "anchors": ["src/receiver/bufferinput.rs: BufferInputReceiver", "src/receiver/iter.rs: BufferIterator::next", "src/sender/senders.rs: PulsedataSender::load_command, buffer", "src/sender/buffer.rs: PulsedataBuffer, PulseIterator"]}
{"id": "C62", "title": "Commands made with create(address, command) arrive with this address and command", "statement": "If AddressCommand::create(a, c) returns a command of NEC, Samsung, RC5 or RC6, then loading it into a PulsedataSender (whatever it was used for before) and decoding its buffer() with a BufferInputReceiver of the same frequency yields exactly one AnyCommand: the protocol's, with address a, command c, and not marked as a repeat.", "quantifier": "all u32 addresses and commands that create accepts, all buffer sizes from 67 (RC5 27, RC6 44), all earlier uses of the sender, all frequencies in the encoders' ranges", "why_tests_cant": "The field widths on the air (5 and 6 bits for RC5) differ from the types; only a statement over all values and a full encode/decode path shows which pairs survive.", "anchors": ["src/cmd.rs: AddressCommand::create, AnyCommand", "src/protocol/nec/standard.rs: create", "src/protocol/nec/samsung.rs: create", "src/protocol/rc5/mod.rs: create, pack", "src/protocol/rc6/cmd.rs: create", "src/sender/senders.rs: PulsedataSender::load_command", "src/receiver/bufferinput.rs: BufferInputReceiver::iter"]}
{"id": "C63", "title": "Receivers with a fugit clock decode like the others", "statement": "Building a receiver of any shipped protocol for a fugit clock (TimerInstantU32<HZ>, TimerInstantU64<HZ>) does not panic; its windows are the documented tolerances around the documented lengths up to the rounding of a tick, whatever frequency argument is given and whatever the build profile; a duration is taken for a symbol exactly if it is in its window. Any number of in-tolerance transmissions separated by pauses gives exactly the commands, in order, each once, no error (NEC family with repeat codes, SBP, Denon's first 47 bits, RC5, RC6). But a mark and the following space that together exceed the range of the clock panic in every build profile.", "quantifier": "all HZ from 20 kHz (RC6 40 kHz) below 2^32, both widths, all rounding modes, series of transmissions, words, durations within tolerance, pauses", "why_tests_cant": "The claim ranges over every 32-bit clock frequency and all jitter inside the tolerance; tests use two or three frequencies and fixed captures.", "anchors": ["src/receiver/time/fgt.rs: create_span, Span::new, checked_sub", "src/receiver/time.rs: InfraMonotonic, PulseSpans", "src/receiver.rs: with_fugit, with_fugit64, event_edge"]}
{"id": "C64", "title": "Wrap-around of a fugit clock is invisible", "statement": "A receiver with a fugit clock fed with event_instant timestamps returns the same as with the true distances between the edges, however often and wherever the counter wraps, as long as two consecutive edges are less than half the range apart; the first timestamp of a new receiver counts from 0 (or as 0 in the upper half of the range). So any number of real transmissions within 5 % (SBP, Denon 3 %) of the documented periods, at any time and phase of the counter, gives exactly the commands sent, in order, each once and no error.", "quantifier": "all protocols, series of transmissions, start times, phases, jitter within the bounds, HZ from 20 kHz (NEC family), 40 kHz (SBP, Denon, RC5), 80 kHz (RC6), both widths", "why_tests_cant": "The claim ranges over every finite history of edges (unbounded length, arbitrary durations, arbitrary interleaving of noise and frames); tests replay a few recorded captures.", "anchors": ["src/receiver/time/fgt.rs: checked_sub", "src/receiver.rs: Receiver::event_instant, with_fugit, with_fugit64", "src/receiver/time.rs: PulseSpans"]}
{"id": "C65", "title": "Event-driven and polled receivers hear any number of real transmissions", "statement": "Any number of real transmissions within 5 % (SBP, Denon 3 %) of the documented periods, separated by pauses from 16 ms, starting at any real time, measured by a u32 or u64 clock of any phase and given to event (edge and time since the last edge), yield exactly the commands sent, in order, each once and no error. The same holds for PeriodicPoll called at that rate on the real line, if every level lasts at least one polling period: exactly the same values, in order, are returned by poll.", "quantifier": "all protocols, series of transmissions (NEC with repeat codes), start times, phases of the clock or of polling, jitter within the bounds, frequencies from 20 kHz (NEC family), 40 kHz (SBP, Denon, RC5), 80 kHz (RC6)", "why_tests_cant": "The claim ranges over every finite history of edges (unbounded length, arbitrary durations, arbitrary interleaving of noise and frames); tests replay a few recorded captures.", "anchors": ["src/receiver.rs: Receiver::event, event_edge", "src/receiver/ppoll.rs: PeriodicPoll::poll, poll_base", "src/receiver/time/primitives.rs"]}
{"id": "C66", "title": "Whatever the receiver saw before, transmissions after a pause are heard", "statement": "After any history of edges on which the receiver did not panic (noise, broken transmissions, other remotes), a pause of no protocol length followed by any number of in-tolerance transmissions yields, besides what was said about the history, exactly the commands sent, in order, each once, and at most one error in the pause (none for Denon, RC5, RC6). Exceptions, stated in the theorem: a NEC repeat code before the first frame repeats an unknown word; the first Denon command may have additional bits set.", "quantifier": "all histories, protocols, variants, series of transmissions, words, durations within tolerance, pauses, frequencies from 20 kHz", "why_tests_cant": "The claim ranges over every finite history of edges (unbounded length, arbitrary durations, arbitrary interleaving of noise and frames); tests replay a few recorded captures.", "anchors": ["src/receiver.rs: Receiver::event_edge", "src/protocol/nec/decoder.rs: NecDecoder::event", "src/protocol/sbp/mod.rs", "src/protocol/denon/mod.rs", "src/protocol/rc5/decoder.rs", "src/protocol/rc6/decoder.rs"]}
{"id": "C67", "title": "Everything a receiver says, well-formed input or not", "statement": "For every history of edges, what the receiver says (commands and errors, in order) is exactly what a parser reads off it. NEC family: a header and 32 bits is a command, a frame that breaks off is one error, a repeat code repeats the bits of the last frame begun, everything else is passed over. SBP: header, 16 bits, divider, 20 bits; one error where it breaks off. Denon: header and 48 bits, the last one dropped, plus the bits of frames broken off since the last command. RC5: a rising edge and 13 more edges at whole bits from it, begun again at an edge that cannot be measured. RC6: the same with leader, header, toggle and 16 bits. Nothing else is ever said.", "quantifier": "all histories on which the receiver does not panic (SBP: with alternating edges), tables, clocks, variants, build profiles", "why_tests_cant": "The claim ranges over every finite history of edges (unbounded length, arbitrary durations, arbitrary interleaving of noise and frames); tests replay a few recorded captures.", "anchors": ["src/receiver.rs: Receiver::event_edge", "src/protocol/nec/decoder.rs: NecDecoder::event", "src/protocol/sbp/mod.rs", "src/protocol/denon/mod.rs", "src/protocol/rc5/decoder.rs", "src/protocol/rc6/decoder.rs"]}
{"id": "C68", "title": "The sending example transmits \"next\" every two seconds, for ever", "statement": "The program sender.rs (timer interrupt at 20 kHz, Sender<Rc5>, CD player remote) never panics and its output is known at every tick, for ever: the RC5 waveform of the CD player's Next button is loaded every 40000 ticks. An RC5 receiver with the CD player remote, polled at 40 kHz or faster and switched on at any moment of the first two seconds after the initial train of pulses, reports exactly one Next per transmission and nothing else.", "quantifier": "all numbers of ticks, build profiles, receiver frequencies from 40 kHz, phases, moments at which the receiver is switched on", "why_tests_cant": "The statement is about an endless run and about every phase between two clocks; the example has no test and needs hardware.", "anchors": ["examples/bluepill/src/bin/sender.rs", "src/sender/hal.rs: Sender::load, tick", "src/remotecontrol/rc5/cdplayer.rs", "src/receiver/ppoll.rs: PeriodicPoll::poll"]}
{"id": "C69", "title": "A mailbox between interrupt handler and main loop keeps order and the newest command", "statement": "In the Arduino examples (polled.rs, external-interrupt.rs) the interrupt handler stores each received command in one cell and the main loop takes it out and prints it. However interrupts, clock ticks and rounds interleave: the program panics only if the receiver does; each round prints the last command received since the round before; so nothing is printed that was not received, nothing twice, order is kept and the newest command is never lost; if at most one command comes between two rounds, all are printed. The LEDs of external-interrupt.rs show the parity of the number of edges and whether the last report was an error. With a line that carries NEC transmissions the commands are those that were sent.", "quantifier": "all interleavings, samples and edges, decoders; for the last sentence all series of NEC transmissions within 5 %, phases", "why_tests_cant": "The claim ranges over every interleaving of interrupts and main-loop rounds and every history of edges; the examples cannot be run without the hardware and have no tests.", "anchors": ["examples/arduino_uno/src/bin/polled.rs", "examples/arduino_uno/src/bin/external-interrupt.rs", "src/receiver/ppoll.rs: PeriodicPoll::poll", "src/receiver.rs: Receiver::event_instant"]}
{"id": "C70", "title": "The infrared mouse moves as long as a key is held", "statement": "For every sequence of Apple-remote buttons the mouse example sends the reports computed from the buttons, one per button with an action; pressing an arrow key and holding it for k repetitions moves the pointer k+1 times in its direction, by min(2^(i+1), 64) steps in the i-th report. As intended, PlayPause presses the mouse button.", "quantifier": "all histories of edges and time stamps; all keys, numbers of repetitions, earlier contents of the repeat counter", "why_tests_cant": "The claim ranges over every interleaving of interrupts and main-loop rounds and every history of edges; the examples cannot be run without the hardware and have no tests.", "anchors": ["examples/bluepill/src/bin/mouse.rs: ir_rx, process_ir_cmd, button_to_mousereport", "src/remotecontrol/nec/apple2009.rs", "src/receiver.rs: Receiver::event_instant"]}
{"id": "C71", "title": "The media keyboard types the key of each received command", "statement": "For every history of edges the keyboard example panics only if the receiver does and sends exactly the keys assigned to the received Apple commands, in order, repetitions included; other commands send nothing; the Stop key, which the program handles, is never sent. With a line that carries any series of Apple transmissions and a wrapping 100 kHz clock, the keys are those of the commands sent.", "quantifier": "all histories of edges and time stamps; all series of transmissions within 5 %, phases and wrap-arounds of the clock", "why_tests_cant": "The claim ranges over every interleaving of interrupts and main-loop rounds and every history of edges; the examples cannot be run without the hardware and have no tests.", "anchors": ["examples/bluepill/src/bin/mediakeyboard.rs: ir_rx, action_to_mediakey", "src/remotecontrol/nec/apple2009.rs", "src/receiver.rs: Receiver::event_instant"]}
{"id": "C72", "title": "Event-driven programs that skip the first edge", "statement": "The programs receiver-event-driven.rs and multireceiver.rs log exactly the commands of a receiver that is given the distances between consecutive edges without the first edge. The distances are those of the edges up to the delays of the handler, wherever the cycle counter wraps. For the NEC family every transmission is heard, the first one included. For RC5 and RC6 the first transmission after power-up is never heard and every later one is.", "quantifier": "all histories of edges and handler delays, all selections of protocols; all series of transmissions within tolerance", "why_tests_cant": "The claim ranges over every interleaving of interrupts and main-loop rounds and every history of edges; the examples cannot be run without the hardware and have no tests.", "anchors": ["examples/bluepill/src/bin/receiver-event-driven.rs", "examples/bluepill/src/bin/multireceiver.rs", "src/receiver.rs: Receiver::event_edge", "src/receiver/multi.rs: MultiReceiver::event_generic_iter"]}
{"id": "C73", "title": "The capture reader prints the commands of the selected wire", "statement": "For every VCD capture, vcd-parser prints exactly the commands and errors, in order, that the receiver returns for the changes of the selected wire, each at the last time stamp before it; other wires and records have no effect. It accepts exactly time scales of a positive number of milliseconds or microseconds. A capture with a resolution of up to 50 us of a Samsung remote (any number of frames and repeat codes within 5 %) prints exactly the commands sent, no errors.", "quantifier": "all captures, wires and time scales; all series of transmissions, resolutions, phases of the analyser's clock", "why_tests_cant": "The claim ranges over all capture files; the example has no tests and one capture.", "anchors": ["examples/vcd-parser/src/main.rs: main, vcd_ir_parser", "src/receiver.rs: Receiver::event_instant", "src/receiver/time/primitives.rs", "src/protocol/nec/decoder.rs"]}
{"id": "C74", "title": "The tutorial program logs one line per RC6 transmission", "statement": "The remote control model written in tutorial1b.rs is a lossless table of its buttons. The program, polling a line 40000 times per second on which any number of RC6 transmissions of mode 0 arrive, logs exactly one line per transmission, in order: Teletext and Power for their buttons and otherwise the command with the action of the table.", "quantifier": "all series of RC6 commands, edge times within 5 %, pauses, phases, numbers of further polls", "why_tests_cant": "The claim ranges over every 32-bit clock frequency and all jitter inside the tolerance; tests use two or three frequencies and fixed captures.", "anchors": ["examples/bluepill/src/bin/tutorial1b.rs", "src/remotecontrol/mod.rs: RemoteControlModel", "src/remotecontrol/mapper.rs: Button", "src/receiver/ppoll.rs: PeriodicPoll::poll", "src/protocol/rc6/decoder.rs"]}
{"id": "C75", "title": "The whole array of a used buffer still starts with the loaded command", "statement": "After reset and load of any RC5, RC6 or NEC-family command into a PulsedataBuffer of any sufficient length with any old contents, a BufferInputReceiver given the whole array (not only the loaded part) returns that command first; what an earlier command left behind cannot change it.", "quantifier": "all commands, earlier buffer contents, buffer lengths, carrier frequencies covered by C39-C41, build profiles", "why_tests_cant": "The crate's own round-trip tests read the whole array, but each one only after one particular sequence of earlier commands and at one frequency.", "anchors": ["src/sender/buffer.rs: PulsedataBuffer::reset, load", "src/receiver/iter.rs: BufferIterator::next", "src/protocol/rc5/encoder.rs", "src/protocol/rc6/encoder.rs", "src/protocol/nec/encoder.rs"]}
{"id": "C76", "title": "Everything a polled or time-stamped receiver says about any line", "statement": "For every sequence of samples of a line, PeriodicPoll says (commands and errors, in order) exactly what the protocol's parser (C67) reads off the edges of the sampled line; for every sequence of time-stamped edges, event_instant says exactly what the parser reads off the elapsed times; in a MultiReceiver each protocol's column holds exactly the commands of its own parser. A polled NEC, SBP or Denon receiver panics exactly if checks are on and a period reaches 2^32 samples; so none panics within 2^32 samples, and RC5 and RC6 not within 2^usize-bits / 8 samples.", "quantifier": "all sample sequences, time stamps, tables, clocks, variants, protocols, build profiles", "why_tests_cant": "The claim ranges over every finite history of edges (unbounded length, arbitrary durations, arbitrary interleaving of noise and frames); tests replay a few recorded captures.", "anchors": ["src/receiver/ppoll.rs: PeriodicPoll::poll, poll_base", "src/receiver.rs: Receiver::event_instant", "src/receiver/multi.rs: MultiReceiver::event_generic", "src/receiver/decoder.rs: ProtocolDecoder::event_total"]}
{"id": "C77", "title": "Debug and release builds behave alike wherever the debug build does not panic", "statement": "For every protocol, clock type and frequency, and every input, given as edges, time stamps, samples, a recorded buffer or to a MultiReceiver: if a build with overflow checks constructs the receiver and processes the input without a panic, a build without them returns the same results; the same holds for the RC5 encoder. So what was tested in a debug build is what a release build does.", "quantifier": "all inputs of all lengths, protocols, NEC variants, clocks (u32, u64, any fugit clock), frequencies, widths of usize", "why_tests_cant": "A test runs one profile on one input; the claim compares two builds over all inputs.", "anchors": ["src/receiver/time/primitives.rs", "src/receiver/decoder.rs: ProtocolDecoder::event, event_total", "src/receiver.rs", "src/receiver/ppoll.rs", "src/receiver/iter.rs", "src/receiver/multi.rs", "src/protocol/rc5/encoder.rs"]}
{"id": "C78", "title": "How exact a transmitter must be for a receiver with a given clock", "statement": "For every protocol, clock frequency f from 20 kHz and percentage j: the durations within j % of a symbol are all recognised, whatever the phase of the clock, exactly if the interval of the symbol contains the shortest and the longest reading of the clock for them; and if that holds for the symbols of the protocol, an event-driven or polled receiver returns exactly the commands of any series of transmissions that are within j %.", "quantifier": "all frequencies from 20 kHz below 2^32, all percentages, all NEC variants, all phases and time resolutions, all series of transmissions, pauses and poll counts", "why_tests_cant": "A test runs at one frequency with exact timing; the claim is an exact criterion for any frequency and any inexact transmitter, for unboundedly many transmissions.", "anchors": ["src/receiver/time.rs: PulseSpans::get", "src/receiver/decoder.rs", "src/receiver/ppoll.rs: PeriodicPoll::poll", "src/protocol/nec/decoder.rs: event", "src/protocol/sbp/mod.rs: event", "src/protocol/denon/mod.rs: event", "src/protocol/rc5/decoder.rs: event", "src/protocol/rc6/decoder.rs: event"]}
{"id": "C79", "title": "A receiver polled at the documented 20 kHz hears every protocol", "statement": "The module documentation recommends a timer of something like 20 kHz and uses 20_000 in its examples. At that rate a polled receiver of every protocol returns exactly the commands of any series of nearly exact transmissions.", "quantifier": "all protocols, NEC variants, all series of transmissions, pauses, phases and poll counts", "why_tests_cant": "The tests use recordings and 40 kHz and above; the claim is about all transmissions and all phases of the sampling at the documented rate.", "anchors": ["src/receiver.rs:49-107 (documentation)", "src/receiver/ppoll.rs", "src/receiver/time.rs", "src/protocol/nec/decoder.rs: event", "src/protocol/sbp/mod.rs: event", "src/protocol/denon/mod.rs: event", "src/protocol/rc5/decoder.rs: event", "src/protocol/rc6/decoder.rs: event"]}
{"id": "C80", "title": "The logging programs log exactly what was sent", "statement": "receiver-polled.rs, tutorial1a.rs and receiver-event-driven-rtic.rs never add, drop or reorder anything their receiver reports: for every input the log is the list of its commands (the first two: and errors), for receiver-polled.rs only those that are buttons of the Apple remote; its line Power on/off is never logged. On a line that carries any series of transmissions (NEC frames and repeat codes within 6 % resp. 5 %, RC6 within 5 %) the log is exactly the transmissions for the receiver, in order, without errors.", "quantifier": "all sample sequences, edges and clock readings; all series of transmissions, pauses, phases, resolutions, numbers of polls, start values of the 64-bit clock", "why_tests_cant": "The examples have no tests; the claims range over all inputs and all series of transmissions.", "anchors": ["examples/bluepill/src/bin/receiver-polled.rs: TIM2", "examples/bluepill/src/bin/tutorial1a.rs: TIM2", "examples/rp-pico/src/bin/receiver-event-driven-rtic.rs: do_ir", "src/receiver/ppoll.rs", "src/receiver.rs: Receiver::event_instant", "src/remotecontrol/nec/apple2009.rs: Apple2009"]}
{"id": "C81", "title": "A receiver hears everything within j percent exactly when its tolerance table covers those lengths", "statement": "For NEC (all variants), SBP, Denon, RC5 and RC6 and every sample rate from 20 kHz: a receiver, called at every edge or polled, hears every series of transmissions whose lengths are within j % of nominal (polled: and whose levels last at least a polling period), at every phase of its clock, if and only if every reading of such a length falls into the window of its own symbol (RC6: and the leader is not taken for a five half-bit pulse). So C78's sufficient condition is necessary too, and the limits are exact: e.g. NEC hears everything within 6 % at 20 kHz, 40 kHz and 1 MHz and fails on some transmission within 7 %; SBP 5 %; Denon 1, 7, 8 %; RC5 6, 9, 9 %; RC6 never, 6, 6 %.", "quantifier": "all sample rates from 20 kHz, all percentages j, all series of transmissions, pauses, phases and clock resolutions", "why_tests_cant": "Tests cannot show that a receiver hears all of infinitely many transmissions, nor that some transmission just outside a limit is missed at every rate.", "anchors": ["src/protocol/nec/decoder.rs: event", "src/protocol/sbp/mod.rs: event", "src/protocol/denon/mod.rs: event", "src/protocol/rc5/decoder.rs: event", "src/protocol/rc6/decoder.rs: event", "src/receiver/time.rs: PulseSpans", "src/receiver/time/primitives.rs", "src/protocol/utils.rs: scale_with_samplerate"]}
{"id": "C82", "title": "After any noise and a quiet pause a polled receiver hears every transmission", "statement": "Whatever a polled receiver of any protocol sampled before (glitches, halves of transmissions, other remote controls), if the line ends quiet and stays quiet for 16 ms, everything it reported so far stays as it was and it then reports exactly the commands of the transmissions that follow, in order, at most one error first (NEC, SBP; none for Denon, RC5, RC6); the first Denon command may have stale bits added (C23), and a NEC repeat code that comes first may repeat an older command.", "quantifier": "all noise sample sequences (shorter than 2^32 with the pause), all protocols, NEC variants, sample rates (NEC from 20 kHz, SBP, Denon and RC5 from 40 kHz, RC6 from 80 kHz), all series of transmissions within tolerance, pauses, phases, resolutions and numbers of polls", "why_tests_cant": "A test tries some noise; the claim is about every sequence of samples before every series of transmissions.", "anchors": ["src/receiver/ppoll.rs: PeriodicPoll::poll", "src/protocol/nec/decoder.rs: event", "src/protocol/sbp/mod.rs: event", "src/protocol/denon/mod.rs: event", "src/protocol/rc5/decoder.rs: event", "src/protocol/rc6/decoder.rs: event", "src/receiver/time.rs", "src/receiver/decoder.rs"]}
{"id": "C83", "title": "A command is reported as soon as it is complete on the line", "statement": "A receiver called at every edge reports every NEC, Samsung, Apple, SBP and Denon command at the edge that ends its last bit (the start of the stop mark), every NEC repeat code at the edge that ends its space, and every RC5 and RC6 command at the last edge of the transmission; at no other edge does it report anything. A polled receiver reports the same things at the first poll after those edges, i.e. at most one polling period later, and nothing at any other poll.", "quantifier": "for the polled placement: all decoders and all lines with edges at least one polling period apart; for the transmissions: all protocols and NEC variants, clocks and sample rates (NEC from 20 kHz, SBP, Denon and RC5 from 40 kHz, RC6 from 80 kHz), all series of transmissions within tolerance with their pauses, phases and resolutions, any number of polls", "why_tests_cant": "A test sees that a command arrives; the claim is when, to the edge, for every command in every series.", "anchors": ["src/receiver/ppoll.rs: PeriodicPoll::poll", "src/receiver.rs: Receiver::event_edge", "src/protocol/nec/decoder.rs: event", "src/protocol/sbp/mod.rs: event", "src/protocol/denon/mod.rs: event", "src/protocol/rc5/decoder.rs: event", "src/protocol/rc6/decoder.rs: event", "src/receiver/decoder.rs"]}
{"id": "C84", "title": "is_repeat tells a held key from a new press", "statement": "A receiver in front of a remote control whose keys are pressed, each held for any number of further transmissions, reports the first transmission of every press with is_repeat() false and all others with is_repeat() true, address and command unchanged. (True for NEC, Samsung and Apple, where a held key sends repeat codes. False for RC5, RC6 and SBP: for RC5 and RC6 is_repeat() is the toggle bit, so it is right only if at most one key is pressed, for one transmission, with the toggle bit clear; comparing the flags of successive commands does recover the presses. For SBP it is always false, so it is right exactly when no key is held.)", "quantifier": "all series of presses with any holding times, keys, first toggle bits; all transmissions within tolerance, pauses, clocks or sample rates, phases", "why_tests_cant": "Whether a flag means what its documentation says depends on the whole series of transmissions, not on one command.", "anchors": ["src/cmd.rs: Command::is_repeat", "src/protocol/nec/decoder.rs", "src/protocol/rc5/mod.rs: is_repeat", "src/protocol/rc6/cmd.rs: is_repeat", "src/protocol/sbp/mod.rs: is_repeat"]}
{"id": "C85", "title": "Late interrupts and uneven polls", "statement": "An event-driven receiver whose edges are handled late, every edge by another time of at most c clock ticks but in order, still returns exactly the commands sent, and so does a receiver that is polled once per polling period at any moment of the period. (NEC family within 5 % with a clock of at least 10000*(c+2) Hz, or polled 30000 times per second; SBP and Denon within 3 % and RC5 within 5 % with 20000*(c+2) Hz, or polled 60000 times per second; RC6 within 5 % with 40000*(c+2) Hz, or polled 120000 times per second.)", "quantifier": "all delays (a different one for every edge or poll), all series of transmissions within tolerance, pauses, clock rates, phases, integer types and targets", "why_tests_cant": "The delays of edges and polls are arbitrary functions; a test uses a fixed pattern, usually none.", "anchors": ["src/receiver.rs: event_edge", "src/receiver/ppoll.rs: poll", "src/protocol/nec/decoder.rs: event", "src/protocol/sbp/mod.rs: event", "src/protocol/denon/mod.rs: event", "src/protocol/rc5/decoder.rs: event", "src/protocol/rc6/decoder.rs: event", "src/receiver/time.rs: PulseSpans"]}
{"id": "C86", "title": "Polls whose pin read fails", "statement": "A polled receiver with a pin survives pin reads that fail: if of all polls within any 17 ms at most e fail, it still returns exactly the commands sent, in order, and besides them exactly the errors of the pin, one for every read that failed. (NEC family within 5 % with at least 10000*(e+2) polls per second; SBP and Denon within 3 % and RC5 within 5 % with 20000*(e+2); RC6 within 5 % with 40000*(e+2); no level shorter than e+1 polls.)", "quantifier": "all patterns of failing reads with at most e failures within 17 ms, all series of transmissions within tolerance, pauses, polling rates, phases and targets", "why_tests_cant": "Which reads fail is an arbitrary function of the poll; the clock of the receiver falls behind by one poll for every failure, without bound over a long run.", "anchors": ["src/receiver/ppoll.rs: poll (with pin)", "src/receiver/ppoll.rs: poll_base", "src/protocol/nec/decoder.rs: event", "src/protocol/sbp/mod.rs: event", "src/protocol/denon/mod.rs: event", "src/protocol/rc5/decoder.rs: event", "src/protocol/rc6/decoder.rs: event", "src/receiver/time.rs: PulseSpans"]}
{"id": "C87", "title": "A sender whose ticks are late", "statement": "If the timer interrupt that calls tick comes late, every tick by another time of at most L but in order, a receiver still returns exactly the commands of a session (load a command, tick for at least 108 ms, RC5 114 ms, RC6 106 ms, load the next one), in order, even if its own edges are handled late too (together at most c ticks of its clock, of at least 10000*(c+2) Hz for the NEC family, 20000*(c+2) Hz for RC5, 40000*(c+2) Hz for RC6) or it is polled at any moment of each polling period (c+3 instead of c+2). Leftover buffer slots, which the sender plays as pulses, are not taken for anything.", "quantifier": "all lists of commands and waiting times, all delays (a different one for every tick, edge and poll), sender rates (NEC: from 56 kHz, whole kHz from 36, and 20 kHz; RC5: from 42 kHz and whole kHz from 20; RC6: from 46 kHz), receiver clocks, phases, integer types, targets and sender buffers that hold the longest waveform", "why_tests_cant": "The delays of ticks, edges and polls are arbitrary functions; a test uses a fixed pattern, usually none.", "anchors": ["src/sender/hal.rs: Sender::load, tick", "src/sender/senders.rs: PulsedataSender::tick", "src/sender/buffer.rs: PulsedataBuffer", "src/protocol/nec/encoder.rs: encode", "src/protocol/rc5/encoder.rs: encode", "src/protocol/rc6/encoder.rs: encode", "src/protocol/nec/decoder.rs: event", "src/protocol/rc5/decoder.rs: event", "src/protocol/rc6/decoder.rs: event", "src/receiver.rs: event_edge", "src/receiver/ppoll.rs: poll"]}
{"id": "C88", "title": "Transmissions that break off", "statement": "A transmission that breaks off at any point (the sender loses power or is covered) never yields a command, and does not keep the receiver from hearing the next one: of a series of transmissions, complete or broken off, 16 ms or more apart, exactly the complete ones are reported, in order. A broken NEC-family or SBP transmission is answered with one error (none if not even the header was sent); RC5, RC6 and Denon say nothing. What remains is spelled out: a NEC repeat code after a broken frame repeats the bits received so far, and the bits of a broken Denon transmission are mixed into the next Denon command.", "quantifier": "all series of transmissions and all points at which each breaks off (between two marks; RC5 and RC6 also within a mark before the last edge), all durations within the tolerance the table covers, all clocks from 20 kHz, phases, integer types and targets, event-driven and polled", "why_tests_cant": "Every command can break off at every edge with every remaining duration, and what a fragment leaves behind depends on all fragments before it; a test tries a few cut-offs of a few commands.", "anchors": ["src/protocol/nec/decoder.rs: event", "src/protocol/sbp/mod.rs: event", "src/protocol/denon/mod.rs: event", "src/protocol/rc5/decoder.rs: event", "src/protocol/rc6/decoder.rs: event", "src/receiver.rs: event_edge", "src/receiver/ppoll.rs: poll"]}
{"id": "C89", "title": "A clock that is not as fast as the receiver was told", "statement": "If the clock of a receiver (its polling rate, or the timer its durations come from) really runs up to d percent slower or faster than the frequency it was built for and the transmitter is up to e percent off, and the two errors together are within the tolerance the pulse tables cover, the receiver still returns exactly the commands sent, in order. (With the rates of C78: from 40 kHz up, for instance, a clock 3 percent off and an exact NEC transmitter.)", "quantifier": "all frequencies from 20 kHz, all real clock rates within d percent, all series of transmissions within e percent at least 20 ms apart, phases, integer types and targets, all protocols, event-driven and polled", "why_tests_cant": "The real rate of a clock, the jitter of every pulse and the phase are all free; a test runs with an exact simulated clock.", "anchors": ["src/receiver/builder.rs: frequency", "src/receiver/ppoll.rs: PeriodicPoll::new, poll", "src/receiver/time.rs: PulseSpans, InfraMonotonic", "src/protocol/nec/decoder.rs: event", "src/protocol/sbp/mod.rs: event", "src/protocol/denon/mod.rs: event", "src/protocol/rc5/decoder.rs: event", "src/protocol/rc6/decoder.rs: event"]}
{"id": "C90", "title": "A receiver built for the wrong frequency", "statement": "A receiver whose real clock is too far from the frequency it was built for does not report wrong keys: SBP (everything seems to take 50-93 or 107-160 percent of its time), Denon (50-89, 110-200), RC5 (59-77, 118-168) and RC6 (50-84, 114-168) receivers say nothing at all, and a NEC-family receiver with a clock too fast (109-200 percent) reports no command. The exception is spelled out: to a NEC receiver with a clock too slow (78-88 percent; Samsung: 71-78) every frame looks like a repeat code, so each key press is reported as a repetition of the key with all bits 0, and the real repeat codes are missed.", "quantifier": "all frequencies from 20 kHz, all real clock rates in the given ranges, all series of transmissions (every pulse seeming off by its own amount within the range), phases, integer types and targets, event-driven and polled", "why_tests_cant": "The wrong rate is a continuous parameter and every pulse may be off by a different amount; a test tries one wrong rate with one frame.", "anchors": ["src/receiver/builder.rs: frequency", "src/receiver/ppoll.rs: PeriodicPoll::new, poll", "src/receiver/time.rs: PulseSpans", "src/protocol/nec/decoder.rs: event", "src/protocol/sbp/mod.rs: event", "src/protocol/denon/mod.rs: event", "src/protocol/rc5/decoder.rs: event", "src/protocol/rc6/decoder.rs: event"]}
{"id": "C91", "title": "A line of the wrong polarity", "statement": "A receiver that gets its line upside down (infrared modules pull their output low while they see light; the user did not invert it) never reports a wrong key: NEC-family, SBP, Denon and RC6 receivers say nothing at all, neither a command nor an error, and an RC5 receiver nothing but the command whose 14 bits are all ones, which reads the same either way up and is reported as itself.", "quantifier": "all series of transmissions at least 20 ms apart (RC5, RC6: 16 ms) with every mark and space within 20 percent of its nominal length (RC5: within what the table covers), all clocks from 20 kHz, phases, integer types and targets, event-driven and polled", "why_tests_cant": "Every command, series and jitter gives another upside-down line; a test would try a few commands with exact timing.", "anchors": ["src/receiver.rs: event_edge", "src/receiver/ppoll.rs: poll", "src/protocol/nec/decoder.rs: event", "src/protocol/sbp/mod.rs: event", "src/protocol/denon/mod.rs: event", "src/protocol/rc5/decoder.rs: event", "src/protocol/rc6/decoder.rs: event", "src/receiver/time.rs: PulseSpans"]}
{"id": "C92", "title": "However noisy the line, results come at least so far apart", "statement": "Whatever happens on the line, a receiver does not flood the application: between two results (commands or errors) of a NEC receiver there are at least 10 ms (Samsung 6 ms), and a command that is not a repeat comes at least 38 ms (Samsung 33 ms) after the result before it; for SBP it is 8 ms, and 43 ms before a command; for Denon 38 ms, RC5 19 ms, RC6 16 ms.  So n polls give at most as many results as fit into their time, and polled.rs prints every command the receiver reports if its main loop gets a turn every 10 ms.", "quantifier": "all histories of edges (SBP: alternating edges; RC5, RC6: no two edges at the same tick), all sequences of samples, all clocks from 20 kHz, integer types and targets; all schedules of the main loop", "why_tests_cant": "The bound is over every possible input; a test sees the results of the lines it thought of.", "anchors": ["src/receiver.rs: event", "src/receiver/ppoll.rs: poll", "src/protocol/nec/decoder.rs: event", "src/protocol/sbp/mod.rs: event", "src/protocol/denon/mod.rs: event", "src/protocol/rc5/decoder.rs: event", "src/protocol/rc6/decoder.rs: event", "src/receiver/time.rs: PulseSpans", "examples/arduino_uno/src/bin/polled.rs"]}
{"id": "C93", "title": "What one spike in a bit does", "statement": "A spike (a short extra mark in a space, or a short gap in a mark) within a bit of a NEC-family, SBP or Denon frame harms nothing but that frame and, in the NEC family, a repeat code after it: the frames before and after are answered as ever (Denon: the bits before the spike get mixed into the next command).  If one of the parts of the bit is too short to be a bit itself, or the bit is a zero, and it is not the last bit of the frame, the spike is answered with an error and no command comes of that frame (Denon: no answer); in the address of SBP it always is.  A spike in the middle of a one makes two zeros of it: the bits after it move up and a wrong command is reported without an error.  One who receives raw NEC words and has them checked with NecCommand::validate never takes a word for sent that was not.", "quantifier": "all words, positions of the bit and of the spike in it, series of disturbed, broken-off and undisturbed transmissions, clocks from 20 kHz whose tables cover the timing error, clock phases; event-driven and polled; all variants of the NEC family", "why_tests_cant": "The spike may come at any moment of any bit of any word, with anything before and after it.", "anchors": ["src/protocol/nec/decoder.rs: event", "src/protocol/nec/standard.rs: validate", "src/protocol/nec/raw.rs", "src/protocol/sbp/mod.rs: event", "src/protocol/denon/mod.rs: event", "src/receiver/ppoll.rs: poll"]}
{"id": "C94", "title": "What one missing mark does", "statement": "If a mark of a NEC-family, SBP or Denon frame does not arrive, so that two periods become one, no command comes of that frame, whichever mark it is, and the frames before and after are answered as ever.  The NEC family and SBP answer with exactly one error, or not at all if the header cannot be recognised any more; the error of SBP tells whether the mark was missing before or after the divider.  Denon does not answer; what was read of the frame gets mixed into the next command.  One who receives raw NEC words and has them checked with NecCommand::validate never takes a word for sent that was not (by a repeat code after the frame), as long as the mark after the header arrives.", "quantifier": "all words, positions of the mark, series of such frames, spiked, broken-off and undisturbed transmissions, clocks from 20 kHz whose tables cover the timing error, clock phases; event-driven and polled; all variants of the NEC family", "why_tests_cant": "Any mark of any word may be missing, with anything before and after the frame; two zeros may make a one.", "anchors": ["src/protocol/nec/decoder.rs: event", "src/protocol/nec/standard.rs: validate", "src/protocol/nec/raw.rs", "src/protocol/sbp/mod.rs: event", "src/protocol/denon/mod.rs: event", "src/receiver/ppoll.rs: poll"]}
{"id": "C95", "title": "Noise between transmissions", "statement": "Whatever happens on the line between two pauses of 16 ms or more (noise, other remote controls), however often, it changes nothing about the transmissions: each one before, between and after is answered as without it.  The exceptions are spelled out: a NEC repeat code right after noise repeats whatever the noise looked like the beginning of, and the bits of noise that looks like the beginning of a Denon frame get mixed into the next Denon command.  What a receiver can make of the noise itself is limited by the number of its pulses: a command that is not a repeat takes 33 of them in the NEC family, 38 for SBP, 49 for Denon; 14 edges for RC5, 24 for RC6.  So shorter noise never produces a command: exactly the commands of the complete undisturbed transmissions come, in order (NEC family: besides repeats).", "quantifier": "all series of transmissions (undisturbed, broken off; NEC family, SBP, Denon: also with a spike or a missing mark) and pieces of noise of arbitrary pulses or edges, in any order; clocks from 20 kHz whose tables cover the timing error, clock phases, integer types, targets; event-driven and polled; all variants of the NEC family", "why_tests_cant": "The noise is arbitrary, in any number of places between arbitrary transmissions; a test tries some.", "anchors": ["src/protocol/nec/decoder.rs: event", "src/protocol/sbp/mod.rs: event", "src/protocol/denon/mod.rs: event", "src/protocol/rc5/decoder.rs: event", "src/protocol/rc6/decoder.rs: event", "src/receiver.rs: event_edge", "src/receiver/ppoll.rs: poll"]}
{"id": "C96", "title": "Spikes and missing marks in RC5 and RC6 transmissions", "statement": "If a transmission has a spike in it (RC5: up to 600 us, RC6: up to 250 us; at least a tick of the receiver's clock) or one of its marks is missing, an RC5 or RC6 receiver never gives a wrong command for it: with a spike it gives the right command or nothing (nothing, unless the spike is in the pause before it or in the first or the last interval; always the command if it is in the pause), with a missing mark nothing.  Each transmission of a series, 16 ms or more apart, is answered as if it were alone.  So of a series with disturbed, broken-off and undisturbed transmissions and short noise the commands come in the order in which they were sent, none of them wrong or twice, and none of an undisturbed transmission is lost.  The lower limit for spikes is needed: a shorter spike can lead to a wrong command.", "quantifier": "all series of RC5 and RC6 (mode 0) transmissions that are undisturbed, broken off, with a spike anywhere or without any of their marks (except the last), and noise in between; all commands; clocks from 20 kHz whose tables cover the timing error, clock phases, integer types, targets; event-driven and polled", "why_tests_cant": "There are as many disturbed transmissions as commands times places times lengths of spikes, and every place is a different case for the decoder; tests try a few.", "anchors": ["src/protocol/rc5/decoder.rs: event", "src/protocol/rc6/decoder.rs: event", "src/receiver/time.rs: PulseSpans::get", "src/receiver.rs: event_edge", "src/receiver/ppoll.rs: poll"]}
{"id": "C97", "title": "Wrong bits: what the check bits reveal and what receivers report", "statement": "Of a valid word that arrives with wrong bits `validate` says that it is valid exactly if: standard NEC and Samsung - every wrong bit is wrong together with its partner (bit i and i+8 of address or command half); Nec16 - the same for the command half, the address is not checked; Apple - the vendor id is right and an even number of bits is wrong; the flag `valid` of SBP - the wrong bits of the command come with their check bits.  So an odd number of wrong bits and all wrong bits within 8 consecutive ones are always noticed (standard NEC, Samsung; odd numbers also by Apple), 9 consecutive ones are not.  Standard NEC, Samsung and Nec16 receivers report the word nevertheless, with exactly the wrong bits of address and command wrong; Apple receivers report nothing if it is noticed; SBP receivers report it with the flag.  A program with a receiver of raw words that asks `validate` takes none of the noticed words for a command.", "quantifier": "all command words, all sets of wrong bits, all in-tolerance frames, clocks from 20 kHz, targets, states of an idle receiver", "why_tests_cant": "2^32 sets of wrong bits times 2^16 commands.", "anchors": ["src/protocol/nec/standard.rs: validate, unpack, pack", "src/protocol/nec/samsung.rs: validate, unpack, pack", "src/protocol/nec/nec16.rs: validate, unpack, pack", "src/protocol/nec/apple.rs: validate, unpack", "src/protocol/nec/raw.rs", "src/protocol/sbp/mod.rs: SbpCommand::unpack", "src/protocol/nec/decoder.rs: command"]}
{"id": "C98", "title": "A counter that wraps around breaks off the transmission under way", "statement": "A receiver is given the reading of a counter of 32 or 64 bits at every edge, the counter wraps around while a series of transmissions arrives, also often.  NEC family, SBP, Denon: the transmission in which the counter wraps around is answered as if it had broken off there (C88: the error of the part reached, or nothing; a repeat code after it repeats what was received; for Denon the bits received also spoil the next command).  A wrap-around in a pause changes nothing, and every other transmission is reported as it was sent.  If the counter wraps around once during the series at most one transmission is cut.", "quantifier": "all series of transmissions, complete or not, with pauses of 16 ms or more, jitter 7 % (SBP 3 %, Denon 8 %), clocks from 20 kHz, phases, beginnings, targets", "why_tests_cant": "A 32-bit counter at 1 MHz wraps around every 71 minutes: a test sees it in one place or not at all.", "anchors": ["src/receiver/time/primitives.rs: checked_sub", "src/receiver.rs: event_instant", "src/protocol/nec/decoder.rs: event", "src/protocol/sbp/mod.rs: event", "src/protocol/denon/mod.rs: event"]}
{"id": "C99", "title": "A counter that wraps around can turn a Manchester command into a wrong one", "statement": "A receiver of RC5 or RC6 is given the reading of a counter of 32 or 64 bits at every edge; the counter wraps around while a series of transmissions arrives, also often.  The interval in which it wraps around is taken for 3 (RC5) or 7 (RC6) half-bits.  A wrap-around in a pause, before the end of the last mark, or in a bit's interval of an odd number of half-bits changes nothing; in the leader or the toggle bit of RC6 the transmission is lost without an error.  In an interval of 2 half-bits it is lost, too, except that some commands become wrong ones: RC5 if all bits from there on are ones (reported as zeros), RC6 if all bits from there on are zeros (reported as ones) or, at the beginning of the data, if they are ones followed by zeros (all inverted).  Every other transmission of the series is reported as it was sent.", "quantifier": "all series of complete transmissions with pauses of 16 ms or more, jitter (as far as the table covers it), clocks from 20 kHz, phases, beginnings, targets", "why_tests_cant": "The wrong command needs a wrap-around of the counter within one of a few intervals of 1 or 2 ms.", "anchors": ["src/receiver/time/primitives.rs: checked_sub", "src/receiver.rs: event_instant", "src/protocol/rc5/decoder.rs: event", "src/protocol/rc6/decoder.rs: event", "src/receiver/time.rs: PulseSpans::get"]}
{"id": "C100", "title": "How long a sender is busy with a command, and how its transmissions end", "statement": "A Sender that was idle and is loaded with a command ignores other loads from its first tick on for exactly the ticks of the waveform, one tick more, and one for each empty slot of the buffer (a used slot: its old contents).  From the first edge to the last one a standard NEC command takes 67.42 ms whatever the command, a Samsung command 53.88 to 71.96 ms, a Nec16 command 58.38 to 76.46 ms (depending on the ones of the address; each of the 66 pulses may be up to a tick shorter), an RC5 command always 26 half-bits, an RC6 command 51 half-bits if it is odd, else 52.  The end is not as the protocols want it, except for RC6: the stop mark of NEC is one tick long instead of 560 us, and so is the last mark of RC5 if the command is odd and no used slot follows.", "quantifier": "all commands, frequencies from 20 kHz (RC6: 27 028 Hz) as far as the encoders compile, sizes and former contents of the buffer", "why_tests_cant": "The number of ticks depends on every bit of the command, the frequency's rounding and the contents of the buffer; a test looks at one waveform.", "anchors": ["src/sender/senders.rs: load_command, tick", "src/sender/hal.rs: load, tick", "src/protocol/nec/encoder.rs: encode", "src/protocol/rc5/encoder.rs: encode", "src/protocol/rc6/encoder.rs: encode"]}
{"id": "C101", "title": "Through a module that swallows short pulses the sender's NEC commands are never heard, nor odd RC5 commands", "statement": "A demodulating receiver module lets only marks of some minimum length through.  Take any minimum from two ticks of the sender up to the shortest proper mark of the protocol.  Then no command of a NEC family protocol that a Sender transmits is ever reported by a polled Receiver, however many are sent: the 32nd bit ends at the stop mark, which the module swallows, so that every transmission but the last yields a data error when the next one begins.  Of RC5 commands sent by a new Sender the even ones are reported and the odd ones are not; RC6 commands are all reported.", "quantifier": "all commands and lists of commands, minimum lengths, frequencies from 20 kHz (RC6: 46 kHz), receiver clocks at least as fast as the sender, phases and pauses, buffer sizes (NEC: any idle sender whose spare slots are empty)", "why_tests_cant": "The round-trip tests hand the sender's buffer or its pin levels straight to the receiver; the failure needs a model of the module in between and holds for every command.", "anchors": ["src/sender/hal.rs: load, tick", "src/sender/senders.rs: tick", "src/protocol/nec/encoder.rs: encode", "src/protocol/rc5/encoder.rs: encode", "src/protocol/rc6/encoder.rs: encode", "src/receiver/ppoll.rs: poll"]}
{"id": "C102", "title": "Receiver modules that lengthen or shorten marks: irrelevant for pulse-distance protocols, limited for RC5 and RC6", "statement": "The demodulating module in front of a receiver makes marks longer and spaces shorter, or the other way round.  What receivers of the NEC family, SBP and Denon say about any line depends on its rising edges only: two lines that rise at the same polls (or time stamps) give the same results, wherever they fall in between.  RC5 and RC6 receivers report all transmissions within j percent if the marks become longer or shorter by at most k percent of a half-bit and the receiver's windows cover j + k percent; 130 microseconds are too much for a receiver at 1 MHz.", "quantifier": "all lines, well-formed or not (pulse-distance); all series of transmissions, lengths of the marks, rates and phases (RC5, RC6)", "why_tests_cant": "Tests use marks and spaces of nominal length; that no position of any falling edge can ever matter is a statement about all pairs of lines.", "anchors": ["src/protocol/nec/decoder.rs: event", "src/protocol/sbp/mod.rs: event", "src/protocol/denon/mod.rs: event", "src/protocol/rc5/decoder.rs: event", "src/protocol/rc6/decoder.rs: event", "src/receiver/ppoll.rs: poll"]}
{"id": "C103", "title": "Receivers for different variants of the NEC protocol on one line: the same words, read differently", "statement": "Receivers for standard NEC, Nec16, Apple and raw commands have the same timing.  On any line they take the same words and repeat codes at the same moments, give the same errors and differ only in how they read a word.  So the standard receiver says what the Nec16 one says with the high byte of the address cut off.  A Nec16 receiver reports every command of a standard remote, to the 16 bit address made of the address and, above it, its complement.  An Apple receiver accepts no word of a standard remote, and of the words of Nec16 remotes exactly those to addresses 0x87E0 to 0x87FF with an odd number of ones, whatever the command; wherever it reports a command, the Nec16 receiver reports one to 0x87E0 plus the page.  A receiver of any variant that listens to the session of a sender of another variant reports its reading of each word, leaves out those it rejects and says nothing else.", "quantifier": "all lines (edges, samples, time stamps), well-formed or not; all words; all lists of commands, clock ratios, phases and pauses", "why_tests_cant": "Each test has one variant on both ends; which remotes a receiver mistakes for its own is a statement about all words, and about all lines.", "anchors": ["src/protocol/nec/decoder.rs: event, command", "src/protocol/nec/standard.rs: unpack", "src/protocol/nec/nec16.rs: unpack", "src/protocol/nec/apple.rs: validate, unpack", "src/protocol/nec/raw.rs: unpack", "src/protocol/nec/encoder.rs: encode"]}
{"id": "C104", "title": "A program that passes on what it hears: what its receivers hear, and how often a remote may send", "statement": "A timer interrupt polls a Receiver, loads every command it reports, as it is or converted, into a Sender and ticks the Sender.  Whatever the receiver hears: if the commands it reports come at least 108 ms (sent as NEC), 114 ms (RC5) or 106 ms (RC6) apart, and one tick more per spare slot of the buffer, then a receiver of the program's output reports exactly those commands, converted, in order, once each, and nothing else.  So a remote may send a command every 218 ms (NEC to NEC), 224 ms (RC5 to NEC, NEC to RC5) or 214 ms (RC6 to RC6), and one tick per spare slot, and all of its commands come through, whatever the clocks, their phases and the pauses.", "quantifier": "all decoders, conversions and input lines (first part); all lists of commands, NEC variants, conversions, rates (each part at least as fast as the one before), phases, pauses and sizes of the buffers (second part)", "why_tests_cant": "Two receivers, two senders and three clocks interact; a test picks one remote, one program and one phase.", "anchors": ["src/receiver/ppoll.rs: poll", "src/sender/hal.rs: load, tick", "src/sender/senders.rs: load_command, tick", "src/protocol/nec/decoder.rs: event", "src/protocol/rc5/decoder.rs: event", "src/protocol/rc6/decoder.rs: event", "src/protocol/nec/encoder.rs: encode", "src/protocol/rc5/encoder.rs: encode", "src/protocol/rc6/encoder.rs: encode"]}
{"id": "C105", "title": "The poll at which each NEC command of a sender is reported, and passing on at the full rate of a remote", "statement": "A Sender of the NEC family is given any list of commands as in C57.  A polled Receiver reports each of them at exactly one poll, the first one after the time it was loaded and the length of its frame up to the end of the last bit, and says nothing at any other poll.  The length of a frame is that of the header, of its one bits and of its zero bits; for standard NEC it is the same for all commands, 67.42 ms with each duration rounded down to whole ticks, so that the polls between two reports are those of the ticks between the two loads, or one more.  So a standard NEC remote may send a command every 109 ms, and one tick more per spare slot of the buffers, and a program that passes on what it hears (C104) delivers all of them, if it runs for 68 ms longer than the remote.", "quantifier": "all NEC variants, lists of commands and distances between them, rates (the receiver at least as fast as the sender), phases, pauses, sizes of the buffer and numbers of further polls", "why_tests_cant": "A test sees one session at one phase; the poll that reports depends on both clocks, their phase and every bit sent before.", "anchors": ["src/receiver/ppoll.rs: poll", "src/sender/hal.rs: load, tick", "src/sender/senders.rs: load_command, tick", "src/protocol/nec/decoder.rs: event", "src/protocol/nec/encoder.rs: encode"]}
{"id": "C106", "title": "The poll at which each RC5 or RC6 command of a sender is reported, and passing on at the full rate of a remote", "statement": "A Sender is given any list of RC5 or RC6 commands as in C58.  A polled Receiver reports each of them at exactly one poll, the first one after the middle of its last bit: 26 half-bits (RC5) or 51 units (RC6) after it was loaded, whatever the command; and says nothing at any other poll, although the sender replays parts of earlier commands.  So the reports are as far apart as the loads, and a program that passes on what it hears (C104) delivers all commands of an RC5 remote at 114 ms as NEC, of a standard NEC remote at 115 ms as RC5, and of an RC6 remote at 107 ms as RC6, and one tick more per spare slot of the buffers, if it runs long enough after the last one: 24, 68 and 23 ms.", "quantifier": "all lists of RC5 commands (address below 32, command below 64) and of RC6 commands, distances between them, rates (the receiver at least as fast as the sender), phases, pauses, sizes and permitted former contents of the buffers, and numbers of further polls", "why_tests_cant": "A test sees one session at one phase; which poll reports depends on both clocks, their phase, and on the stale part of the buffer that the sender replays after each command.", "anchors": ["src/receiver/ppoll.rs: poll", "src/sender/hal.rs: load, tick", "src/sender/senders.rs: load_command, tick", "src/protocol/rc5/decoder.rs: event", "src/protocol/rc5/encoder.rs: encode", "src/protocol/rc6/decoder.rs: event", "src/protocol/rc6/encoder.rs: encode"]}
{"id": "C107", "title": "Any number of programs in a row that pass on standard NEC commands", "statement": "A new Sender of standard NEC is given any list of commands, and any number N of programs stand in a row, each of which polls a Receiver and ticks a Sender from the same interrupt and loads what is reported, converted in its own way (C104).  If the commands are given 108 + N ms apart (and one tick more per spare slot of the largest buffer), and each program is at least as fast as the one before and listens to it from 16 ms before it starts until 68 ms after it stops, then no program panics, and any polled Receiver that listens to the last one reports every command, converted by all the programs, in order, exactly once, and nothing else.", "quantifier": "all numbers of programs, conversions, lists of commands, rates (not decreasing along the row), phases, pauses, sizes of the buffers and numbers of polls", "why_tests_cant": "A test sees a row of a few programs with a few commands; losses could build up with every program, and they depend on all the clocks and phases.", "anchors": ["src/receiver/ppoll.rs: poll", "src/sender/hal.rs: load, tick", "src/sender/senders.rs: load_command, tick", "src/protocol/nec/decoder.rs: event", "src/protocol/nec/encoder.rs: encode"]}
{"id": "C108", "title": "Passing on between any two of the protocols NEC, RC5 and RC6", "statement": "A program that passes on what it hears (C104) may stand between a remote of one protocol and a receiver of another.  With C105 and C106 for the other pairs, all nine are covered: it delivers every command, converted, in order, exactly once, and nothing else, if the remote is given a command every 115 ms (RC5 to RC5, RC6 to RC5), 114 ms (RC5 to RC6), 109 ms (RC6 to NEC) or 108 ms (standard NEC to RC6), and one tick more per spare slot of the buffers, and the program runs for 24 ms (from RC5), 23 ms (from RC6) or 68 ms (from NEC) after the last command has had its time.", "quantifier": "all lists of commands (for RC5: address below 32, command below 64), conversions, NEC variants, rates (each part at least as fast as the one before, at least what the protocol needs), phases, pauses, sizes and permitted former contents of the buffers, and numbers of further polls", "why_tests_cant": "Two receivers, two senders and three clocks of two protocols interact; a test picks one remote, one program and one phase, for one pair of protocols.", "anchors": ["src/receiver/ppoll.rs: poll", "src/sender/hal.rs: load, tick", "src/sender/senders.rs: load_command, tick", "src/protocol/nec/decoder.rs: event", "src/protocol/nec/encoder.rs: encode", "src/protocol/rc5/decoder.rs: event", "src/protocol/rc5/encoder.rs: encode", "src/protocol/rc6/decoder.rs: event", "src/protocol/rc6/encoder.rs: encode"]}
{"id": "C109", "title": "Any number of programs in a row that pass on commands from one protocol to another", "statement": "A new Sender of standard NEC, RC5 or RC6 is given any list of commands that fit into frames, and any number N of programs stand in a row, each of which hears one of the three protocols, sends the same or another one, and converts the commands in its own way (C104).  If the commands are given 115 + N ms apart (and one tick more per spare slot of the largest buffer), all rates are between 80 kHz and the largest for which RC6 senders compile, and each program is at least as fast as the one before and listens to it from 16 ms before it starts until 68 ms after it stops, then every program compiles, none panics, and any polled Receiver of the last protocol reports every command, converted by all the programs, in order, exactly once, and nothing else.", "quantifier": "all numbers of programs, sequences of protocols, conversions, lists of commands, rates (not decreasing along the row), phases, pauses, sizes of the buffers and numbers of polls", "why_tests_cant": "A test sees a row of a few programs with a few commands; losses could build up with every program, and they depend on the protocols, on all the clocks and on the phases.", "anchors": ["src/receiver/ppoll.rs: poll", "src/sender/hal.rs: load, tick", "src/sender/senders.rs: load_command, tick", "src/protocol/nec/decoder.rs: event", "src/protocol/nec/encoder.rs: encode", "src/protocol/rc5/decoder.rs: event", "src/protocol/rc5/encoder.rs: encode", "src/protocol/rc6/decoder.rs: event", "src/protocol/rc6/encoder.rs: encode"]}
{"id": "C110", "title": "Which commands a NEC sender takes when they come at any distances", "statement": "A Sender of the NEC family is given commands at any distances, with ticks between them.  It behaves, state and output, exactly as if it had only been given those commands that it takes.  A command keeps the Sender busy for the length of its frame up to the end of the last bit, one tick for each spare slot of the buffer, and one more for the stop mark; commands that come in that time are lost without effect on the output, one that comes before the first tick takes the place of the one before, and the others are taken.  If the commands taken are 108 ms or more apart (and one tick per spare slot), a polled Receiver reports exactly these, in order, once each, and nothing else.  The same holds of a program that passes on what any Receiver reports at any distances (C104).", "quantifier": "all NEC variants, lists of commands and numbers of ticks between them (also zero), rates, phases, pauses, sizes of the buffer; for the program also all decoders, conversions and input lines", "why_tests_cant": "A test loads a few commands at a few moments; a command lost or half sent in the middle of another shows only at some distances and after some histories.", "anchors": ["src/sender/hal.rs: load, tick", "src/sender/senders.rs: load_command, tick", "src/protocol/nec/encoder.rs: encode", "src/protocol/nec/decoder.rs: event", "src/receiver/ppoll.rs: poll"]}
{"id": "C111", "title": "Which commands a sender of any protocol takes, and keys that bounce", "statement": "A Sender is given commands of any encoder at any distances, and its buffer may hold anything.  It behaves, state and output, exactly as if it had not been given those commands that come between the first edge of the one taken before and the end of its transmission, including the durations that longer commands left behind it in the buffer.  If the RC5 or RC6 commands taken are 114 or 106 ms apart, and one tick more per spare slot, a polled Receiver reports exactly these; the same holds of a program that passes on what any Receiver reports at any distances (C104).  So a key may bounce: if for each press the Sender is given a command and then, after the first tick and within the length of the frame (NEC), 26 half-bits (RC5, 23 ms) or 51 units (RC6, 22 ms), any others, and the presses are 108 ms (NEC), 114 ms (RC5) or 106 ms (RC6) apart, and one tick more per spare slot, then a polled Receiver reports exactly the first command of each press, in order, once each, and nothing else.", "quantifier": "all encoders that write a waveform, contents of the buffer, lists of commands and numbers of ticks between them (first part); all lists of presses with any number of further commands, NEC variants, rates, phases, pauses, sizes of the buffer (second part)", "why_tests_cant": "A test loads a few commands at a few moments; for how long a command keeps the sender busy depends on what all the commands before it left in the buffer.", "anchors": ["src/sender/hal.rs: load, tick", "src/sender/senders.rs: load_command, tick", "src/protocol/nec/encoder.rs: encode", "src/protocol/rc5/encoder.rs: encode", "src/protocol/rc6/encoder.rs: encode", "src/receiver/ppoll.rs: poll"]}
{"id": "C112", "title": "Keys that bounce, through any number of programs that pass on commands", "statement": "As C109, but the keys of the remote bounce: for each press its new Sender is given a command and then, after the first tick and within 22 ms, any number of others, whatever they are.  The Sender does, tick for tick, what it does without these.  So if the presses are 115 + N ms apart, and one tick more per spare slot of the largest buffer, any polled Receiver that listens to the last of the N programs reports exactly the first command of each press, converted by all the programs, in order, once each, and nothing else.", "quantifier": "all lists of presses with any number of further commands, sequences of the protocols NEC, RC5 and RC6, conversions, rates (from 80 kHz, not decreasing along the row), phases, pauses, sizes of the buffers and numbers of polls", "why_tests_cant": "A test presses a few keys with a few bounces; which commands get through depends on every tick between two loads and on what earlier commands left in the buffer.", "anchors": ["src/sender/hal.rs: load, tick", "src/sender/senders.rs: load_command, tick", "src/receiver/ppoll.rs: poll", "src/protocol/nec/encoder.rs: encode", "src/protocol/rc5/encoder.rs: encode", "src/protocol/rc6/encoder.rs: encode", "src/protocol/nec/decoder.rs: event", "src/protocol/rc5/decoder.rs: event", "src/protocol/rc6/decoder.rs: event"]}
