# Formal model of jkristell/infrared in Lean 4

Sources modelled: `/repo/src` (crate `infrared` 0.14.2) and the handlers of `/repo/examples`.  Lean project: `/verif/lean`.

## 1. Shape of the model

| Lean module | Rust source |
|---|---|
| `Verif/Model/Arith.lean` | Rust integer semantics: overflow profile, `usize` width, checked/wrapping ops, shifts |
| `Verif/Model/Time.lean` | `protocol/utils.rs`, `receiver/time.rs`, `receiver/time/{primitives,fgt}.rs` |
| `Verif/Model/Decoder.lean` | `receiver/decoder.rs`, `receiver/error.rs` |
| `Verif/Model/Receiver.lean` | `receiver.rs`, `receiver/{iter,bufferinput,ppoll,multi}.rs` |
| `Verif/Model/Builder.lean` | `receiver/builder.rs` |
| `Verif/Model/Nec.lean` | `protocol/nec/*` |
| `Verif/Model/{Rc5,Rc6,Sbp,Denon}.lean` | the other protocols |
| `Verif/Model/Cmd.lean` | `cmd.rs`, `protocol.rs` |
| `Verif/Model/Sender.lean` | `sender/{buffer,senders,hal}.rs` |
| `Verif/Model/Buffers.lean` | `receiver/bufferinput.rs`, the `build` functions, the iterator of `sender/buffer.rs`, `MultiReceiver::event_iter` |
| `Verif/Model/Remote.lean` | `remotecontrol/*` |
| `Verif/Model/Examples.lean` | interrupt handlers, tasks and loops of `examples/*` |

The specification vocabulary is separate from the model and is what theorem statements use:

| Lean module | Content |
|---|---|
| `Spec/Words` | bit layouts of the command words |
| `Spec/Run`, `Spec/Robust`, `Spec/Streams` | histories of edges, what a receiver said, many transmissions in a row |
| `Spec/Frames`, `Spec/Manchester`, `Spec/Waveforms` | frames as lists of pulses, bi-phase waveforms, waveforms to be sent |
| `Spec/Drivers`, `Spec/Sampling`, `Spec/Physical` | sampled levels, time stamps, real lines with edges at rational times, clocks |
| `Spec/Sending`, `Spec/Session` | run-length expansion, calls made to a sender, whole sessions |
| `Spec/Fugit` | what is assumed of fugit; a wrapping counter read at the edges of a signal |
| `Spec/RemoteTables` | button tables read from the sources by a script |
| `Spec/Parse` | what each receiver says about any history, as a parser |
| `Spec/Examples` | running the example programs: interleavings, mailboxes, captures |
| `Spec/Remotes`, `Spec/Cross`, `Spec/Room` | what remotes and builders must do, two protocols in one room, any number of remotes |
| `Spec/Latency`, `Spec/Held` | when a command is reported, keys pressed and held |
| `Spec/Late`, `Spec/Missed`, `Spec/Ticks` | late interrupts, uneven polls, polls that fail, a sender whose ticks are late |
| `Spec/Inverted`, `Spec/Spacing` | lines of the wrong polarity, how close together results can be |
| `Spec/Spike`, `Spec/Missing`, `Spec/HurtBi`, `Spec/Noisy`, `Spec/BitErrors` | spikes, missing marks, noise between transmissions, wrong bits |
| `Spec/Busy` | how long a sender is busy and how its output ends |
| `Spec/Swallow` | a receiver module that does not let short marks through |
| `Spec/Stretch` | rising edges of a line; a receiver module that makes marks longer or shorter |
| `Spec/Variants` | how a variant of the NEC protocol reads a received word; 8 bit addresses as 16 bit ones and back |
| `Spec/Relay` | a program that polls a receiver and passes on what it reports through a sender; the reports with the polls between them |
| `Spec/SessionTime` | when the commands of a session are complete on the line; the length of a NEC frame; distances between reports |
| `Spec/Chain` | programs in a row that pass on what they hear, and what is required of the way they listen |
| `Spec/Row` | the same with programs that hear one protocol and send another |
| `Spec/Taken` | the commands that a sender takes, among commands given at any distances, if each keeps it busy for some number of ticks |
| `Spec/Kept` | the same for any waveforms, following the contents of the buffer; key presses that bounce |
| `Spec/Wrap`, `Spec/WrapBi` | counters that wrap around during a series |

`Verif/Lemmas/*` holds helper lemmas, `Verif/Props/*` the property theorems (named after the property, e.g.
`C17_…`) with a non-vacuity `example` beside each.

Conventions

* `&mut self` methods become functions returning the new state.
* A panic is the value `none` of `Option`.  Every arithmetic operation of the code that
  can overflow is modelled by an operation taking a `Target` (overflow checks on/off =
  debug/release profile, and the width of `usize`): with checks it returns `none`, without
  it wraps.  Theorems quantify over `Target` unless they say otherwise.
* Word-typed values whose *bits* matter (`u8/u16/u32/u64` command words) are `BitVec n`.
  Durations, clocks, frequencies, indices are `Nat` with the bounds made explicit.
* A decoder is the record `Decoder Cmd` (state, `event`, `command`, `reset`), the model of
  `trait ProtocolDecoder`; all receivers are generic in it, as in the code.
* The immutable `PulseSpans` field of each decoder is a parameter of its `event` function
  (no code writes it after `build`).
* The clock type (`InfraMonotonic`) is the record `Mono` (`add`, `checkedSub`, `createSpan`);
  instances: `u32`, `u64`, and fugit with the tick conversion left as a parameter, because
  fugit's source is not in the repository.

## 2. Trusted base

* Lean 4.33.0 kernel; axioms `propext`, `Classical.choice`, `Quot.sound` at most.  No own
  axioms, no `sorry`, no `native_decide`/`bv_decide`.  `AXIOMS.md` lists the axioms of every property
  theorem (written by `tools/axioms.py` from `#print axioms`).
* Faithfulness of my reading of the Rust source (the code is not executed here).  Each
  definition cites file and lines.  As a check, `Verif/Conformance.lean` runs the crate's own unit tests, with
  their inputs and expected values, and the recording `samsung-tv.vcd` on the model (`example`s, not property proofs).
* Rust semantics assumed: overflow panics with `overflow-checks`, wraps without; slice
  indexing out of bounds panics; `match` arms are tried in order; `as` casts truncate.  At compile time an
  overflow in a constant expression is an error in every profile (RC6 encoder); in a `const fn` it is an error
  with overflow checks and wraps without (NEC encoders: `necData`, `necDataUnchecked`).
* Assumed about dependencies (source not available): `embedded_hal::PwmPin::enable/disable`
  only set the output; `InputPin::is_low` returns a level or an error; fugit's `Duration` addition
  is exact when it fits, and its `checked_duration_since` / `micros` are parameters.  C63 and C64 assume
  of these two (structure `FugitClock` in `Spec/Fugit.lean`) that `micros` gives the number of ticks up
  to rounding, for pulse lengths up to 13.5 ms, and that instants are compared modulo wrap-around.  If
  fugit's own arithmetic overflows at some frequency the statements do not apply there.

Not modelled: `trace!/debug!` logging (`fmt.rs`), `defmt`/`Debug` formatting, the `release`/`pin`/
`pin_mut` accessors, `DeviceType`/`MODEL` strings; of the examples: set-up of the hardware, text formatting,
USB (a report handed to `keydown` counts as sent) and reading of VCD files (a capture is the list of its records).
Interrupt scheduling is not modelled but quantified over.  Real
time enters only through `Spec/Physical` and `Spec/Sampling`: a signal is a list of edges at rational
times, a clock of `f` Hz reads the number of its ticks before a moment, a polled receiver sees the level
at every tick.  A clock at a constant wrong rate is C89 and C90, one that wanders by a few ticks C85; carrier
modulation and the demodulating hardware are not modelled (the line is the demodulated signal).

Where the model simplifies:

* type parameters of the builder (protocol, clock, command type) are recorded as data;
* `MultiReceiver` has any number of components, the code 2 to 6;
* an encoder applied to a command is a function on the slice it writes to (`Encode`);
* slots of `PulseSpans` are a list of eight entries;
* `BufferIterator::next`'s index check `pos == len` is written `¬ pos < len` (the invariant `pos ≤ len` holds).

## 3. Plan per property

| id | what is modelled | how it is proved |
|---|---|---|
| C01–C05 | the five NEC variants' `pack/unpack/validate` on `BitVec 32` | bit extensionality |
| C06 | `Rc5Command::{pack,unpack}` on `BitVec 16` | bit extensionality; iff |
| C07 | `SbpCommand::unpack` | bit extensionality |
| C08–C10 | `AddressCommand` impls, `ProtocolId`, `AnyCommand` | case analysis; Apple collision refuted by witness |
| C11–C13 | `scale_with_samplerate` as well-founded recursion, `Span::new` with checked/wrapping arithmetic | linear arithmetic over all frequencies |
| C14–C16 | `PulseSpans::{get,check_overlaps}` | interval disjointness by `omega`; RC6 overlap refuted by witness |
| C17–C21 | NEC decoder + `Receiver::event_edge` | invariant relating state to history of rising-edge periods; frame lemma by induction over bits |
| C22, C23 | SBP, Denon decoders | as NEC; Denon bugs refuted by witness + `_partial` |
| C24–C27 | RC5, RC6 decoders | invariant: clock parity = parity of cumulative half-bit ticks, word = directions of edges at bit centres |
| C28–C32 | all decoders | invariants over all histories, bisimulation for "forgets the past" |
| C33–C37 | drivers generic in `Decoder` | refinement to the event receiver, by induction over the input |
| C38–C41 | encoders writing into a slice; compile-time tick constants | loop lemma (`encode` = prefix write of a spec waveform), then C17/C24/C26 with linear arithmetic over all frequencies |
| C42–C45 | `PulsedataSender`, `Sender` with an output log | induction over ticks: output = run-length expansion; composed with C34 and C39–C41 |
| C46–C48 | remote tables | kernel-checked finite tables lifted by lemmas to all commands; the tables of the statements are read from the sources by `tools/remotes.py`, those of the model were typed |
| C49 | `Builder` as a fold of calls | induction over call list |
| C50 | C18-style soundness + interval disjointness across protocols | no period of a frame classifies as the other protocol's sync |
| C51 | Denon decoder | invariant over all histories: a returned command implies 48 pulses of a frame |
| C52 | tolerance tables in microseconds | linear arithmetic over all frequencies |
| C53 | real-time signals through a clock of any phase | C52 + a phase lemma for `⌊·⌋` differences, then C17/C22/C23/C24/C26 |
| C54 | `PeriodicPoll` on a real line | sampled line = list of clock readings, then C34 |
| C55 | `Sender` at fs, `PeriodicPoll` at f ≥ fs | an edge at a sender tick is a rational time; C54 + C53-style windows |
| C56 | receivers on streams of frames | induction over the stream; each frame leaves the receiver ready (C32) |
| C57, C58 | `Sender` + `PeriodicPoll` over whole sessions | session = list of held chunks; NEC: spare slots give pulses no symbol matches; RC5/RC6: stale slots cannot complete a command (counting, no leader), the following pause resets |
| C59 | remotes + `Sender` + `PeriodicPoll` | actions encoded by `RemoteControlModel::encode` form a C57/C58 session; C46 turns the received commands back into the actions |
| C60 | `MultiReceiver` with any selection of protocols | per listener: a state predicate between transmissions, kept by its own and by every foreign transmission (interval disjointness; RC6: no leader; RC5: counting of half bits); C36 puts the listeners together |
| C61 | recorded and prepared buffers | C56 through C33 for recordings; induction over the calls of a `PulsedataSender` (buffer length is invariant); C38-C41 for the transfer |
| C62 | `create`, send, receive | C61 with the fields of the packed word; exact result for values that do not fit |
| C63 | receivers with a fugit clock | windows from the rounding bounds; disjointness of the windows for every rounding; the C56 inductions over any lawful clock |
| C64 | `event_instant` with a wrapping clock | distances modulo 2^w below half the range are exact; readings of a counter at real times (C53) inside the windows of C63 |
| C65 | `event` and `PeriodicPoll` on series of real transmissions | readings of a clock of any phase stay inside the windows (C52, C53); C54 for the polled line; then C56 |
| C66 | any history, then transmissions | every reachable state is of the invariant of C31/C32; a pulse of no symbol leads to the idle state; RC5/RC6: the gap resets (C29); then C56 from that state |
| C67 | everything a receiver says | pulse-distance: run on symbols instead of edges, then by strong induction on the symbols left, a frame at a time; RC5/RC6: the same from the abstract machines of C24/C26 |
| C68 | `sender.rs` | one period of 40 000 ticks computed by the run-length lemmas, repeated by induction; C58 session for the listener |
| C69 | `polled.rs`, `external-interrupt.rs` | simulation: the cell holds the last command of the results since the last round; any interleaving |
| C70, C71 | `mouse.rs`, `mediakeyboard.rs` | induction over the calls; reports and keys are functions of the commands received; C64 for the received ones |
| C72 | `receiver-event-driven.rs`, `multireceiver.rs` | the handler's state is the receiver plus the last time stamp; C67 parsers for the lost first transmission |
| C73 | `vcd-parser` | the loop refines `event_instant` (C35); C65 for the received commands |
| C74 | `tutorial1b.rs` | C46-style table; C65 with the windows computed at 40 kHz |
| C75 | whole array of a used buffer | the first report depends on the entries up to it; C39–C41 for those |
| C76 | polled and time-stamped receivers on any line | C34, C35, C36 reduce them to edges; C67 and C30 for those |
| C77 | debug against release | pointwise refinement of the arithmetic, lifted through decoders and drivers by simulation |
| C78 | receivers at any clock from 20 kHz | extreme readings of a clock for a duration, attained at some phase; then C56 and C54 |
| C79 | receivers at 20 kHz | C78 with the tables computed; RC6: two consecutive units never both measure as one unit, and without a leader nothing is said |
| C80 | `receiver-polled.rs`, `tutorial1a.rs`, `receiver-event-driven-rtic.rs` | induction over the calls: log = receiver's results; then C79, C74's clock, C64 |
| C81 | `decoder.rs` of all protocols, `time.rs`, `primitives.rs` | if: C78; only if: if a reading of a length within j % misses its window, put that length at the right place of a nominal transmission with the phase that gives the reading; the parsers of C67 say that the receiver then reports something else; polled receivers: the same transmissions 40 ms after the start, C54 gives the intervals the receiver sees |
| C82 | `ppoll.rs`, `decoder.rs` of all protocols | the edges a poller sees are those in the noise, one rising edge after at least the pause, and those of the transmissions (`edges_noise`); 16 ms are longer than any symbol, so the lemmas behind C29/C66 (a pause resets) and C65 (what follows is heard) apply |
| C83 | `ppoll.rs`, `Receiver::event_edge`, `decoder.rs` of all protocols | results are stamped with the time of their edge (`timedSaid`) or the number of their poll (`numberedSaid`) and compared with the times at which the items of the series end (`finishes`, `necHeardAt`), which know nothing of the decoder; the exact outputs of one frame (C17, C20, C23, C25, C26) are chained over the series with the clock running; for polls, induction over the edges of the line places every result at the poll that sees the edge |
| C84 | `Command::is_repeat` of all protocols, receivers | presses and what should be noted about them (`noted`) are stated without the code; NEC presses are frames and repeat codes (`NecPress`), RC5 and RC6 presses transmissions with a toggle bit (`toggled`); by C65 the receivers report every transmission, which leaves list lemmas: `necHeard` of presses is `noted`, `toggled` is `noted` only for one short press, `readToggles` of `toggled` is `noted` |
| C85 | `Receiver::event_edge`, `PeriodicPoll::poll`, decoders, `PulseSpans` | Spec/Late.lean: edges handled `late t` after they happened (`handled`), polls `delay k` after their turn (`unevenly`); both are readings of a monotone clock at most `c` ticks off (`Follows`); through such a clock a series of transmissions is measured as a series of the same words within the tables (C52 with `c` ticks of slack), so C56 applies; polls are reduced to C54 on the line measured in polls |
| C86 | `PeriodicPoll::poll` with a pin, `poll_base`, decoders, `PulseSpans` | Spec/Missed.lean: which reads fail is a function of the poll (`failing`), `FewFail` bounds the failures of any `w` polls; the receiver counts successful polls only (`goodPolls`), which is a clock in the sense of C85 (`Follows`) with `e + 1` ticks of slack; the results other than pin errors are the run over the successful polls |
| C87 | `Sender::load`, `Sender::tick`, encoders, decoders, `event_edge`, `poll` | Spec/Ticks.lean: tick `k` happens at time `tick k`, at most `L` late (`Ticking`), the line changes at those times (`ticked`); the receiver's clock read at the ticks is a clock that follows the sender's tick count (`follows_ticks`, C85), so the sessions of C57 and C58 are measured within the tables |
| C88 | decoders, `event_edge`, `poll` | Spec/Broken.lean: what is answered to each transmission when any number of its periods (edges) is sent; NEC, SBP, Denon: the parser of C67 on the cut-off pulses (Props/Broken.lean), RC5 and RC6: the series is cut at its gaps (C29), a fragment has too few half-bits for a frame of C67 (Props/BrokenBi.lean) |
| C89 | `Builder::frequency`, `PeriodicPoll`, decoders, `PulseSpans` | Spec/Drift.lean; readings of a clock of `r` Hz are the readings of a clock of `f` Hz of the line stretched by `r / f`; a line within `e` percent stretched by at most `d` percent is within `j` percent (`Together`), so C78 applies |
| C90 | the same | `Seems lo hi`: what the receiver counts is in a range of percentages; in these ranges the windows of the tables reject (C52) the sync or leader or every edge; the parsers of C67 on such a line: no sync, no leader, no two half-bits in a row; the sync of NEC at 78–88 percent is in the window of the repeat code |
| C91 | the same | `inverted`: the decoders then measure sums of a space and the next mark; no such sum is in the window of a header (C52), so no decoder leaves its first state; RC5: the parser of C67 on swapped edges finds an edge in the middle of all 14 bits only if there is none between any two; RC6: no mark of six half-bits |
| C92 | the same, and the models of the example programs | an invariant for each decoder: the state tells how long ago the last result was at least (header plus the bits so far at their lowest tolerated lengths, from C52); polled: the clock that goes round only makes durations shorter than they were; mailbox: by C69, at most one result fits between two turns |
| C93 | decoders of the NEC family, SBP, Denon; `validate` | the parsers of C67 on the symbols of a frame with one symbol replaced by two; which symbols the two parts can be follows from the windows (C52): both bits only if both are zeros and the whole is a one; `validate`: bit by bit |
| C94 | decoders of the NEC family, SBP, Denon; `validate` | the parsers of C67 on the symbols of a frame with two neighbouring symbols replaced by one; the joined period can only be a one, and only of two zeros, or a header (windows as in C93); in every case a symbol is missing at the end, so the gap after the frame comes too early |
| C95 | all decoders; `event_edge`, `poll` | NEC family, SBP, Denon: the parsers of C67 on arbitrary symbols up to a symbol that is none: induction on the number of symbols shows what can have been read and that reading begins anew after it; then the series lemmas of C93.  RC5, RC6: a gap makes the decoder forget (C29), so the results are those of the pieces; the parsers of C67 use up 14 and 24 edges for a command |
| C96 | RC5 and RC6 decoders; `PulseSpans::get`, `event_edge`, `poll` | A spike is no known interval (C52 bounds the intervals of the table), so the parsers of C67 begin anew there: what is before and what is after it are too short for a frame, which is shown by counting half-bits (RC5) and edges or leaders (RC6).  Without a mark three intervals become one, which RC5 does not know; RC6 may take it for 3 to 6 half-bits, so the edges at odd positions are counted by induction on the bits, and the header is a finite case analysis with an edge-by-edge automaton.  Then C29 and the series lemmas of C95 |
| C97 | `validate`, `unpack`, `pack` of the NEC family; SBP `unpack`; NEC and SBP receivers | Bit by bit with the characterisations of C01-C04 and C07; parity over halves for odd numbers, distances of partners for bursts; receivers by C17 and C22 |
| C98 | Monotonic clocks of 32 and 64 bits; `event_instant`; NEC, SBP, Denon receivers | Interval between readings = true ticks, or 0 if the lap count changes; 0 is no symbol in use; then the series theorem of C88 with the cut transmissions |
| C99 | As C98, for RC5 and RC6 | The wrapped interval is 0 ticks, which is the unused symbol of 3 (RC6: 7) half-bits; the parser of C67 on a transmission with one interval replaced by it: parity kept, or the boundaries between bits read instead of the middles |
| C100 | Formula for the number of ticks, bounds in microseconds; shape of the output's end | `C100_busy` for any waveform (from C42, C44): `BusyFor`, `TrailsOff` (Spec/Busy.lean); the sum of the durations from the number of ones (`C100_ones`), the tick bounds of C38 added up; RC5 and RC6: the durations of the edges added up bit by bit |
| C101 | Sender, module and receiver in a row; `swallow` (Spec/Swallow.lean) | The pin levels of the sessions of C57 as pairs of a mark and a space; `swallow` merges the one-tick marks into the spaces (`swallow_pair`), so what is left of a NEC command is a transmission that breaks off before its last edge: C88.  RC5, RC6: the last rising edge of the waveform is lost if there is one, by the parity of C100; then C88 again |
| C102 | decoders of all protocols; `poll`, `event_instant` | C76 reduces the results to the periods; by induction on the samples (time stamps) the periods are the differences of the rising edges' positions.  RC5, RC6: an interval within j percent that changes by at most k percent of a half-bit is within j + k percent; then C78 |
| C103 | NEC decoder, `unpack` of all variants | the decoder's state does not depend on the variant: results of any variant are those of a variant whose commands are the words, mapped; lifted to samples by C34 and to time stamps by C35.  Readings of a word bit by bit; sessions from C57 for the variant of words |
| C104 | `poll`, `load`, `tick`, decoders, encoders | the loads and ticks of the program are a session (C57, C58) of the reported commands with the polls between them.  Where a remote is heard, C57/C58 for the first j commands and for the first j with the next one cut short bracket the poll of report j; the brackets give the distances between reports |
| C105 | `poll`, `load`, `tick`, NEC decoder and encoder | the proof of C57 with the time of each edge kept beside the result (`timedSaid`), and C83's placement of edges in polls.  Frames of standard NEC have 16 ones (C100), so their reports keep the distances of the loads, which C104 needs |
| C106 | `poll`, `load`, `tick`, RC5 and RC6 decoders and encoders | the proof of C58 with the time of each edge kept beside the result; the edges up to the middle of the last bit always add up to 26 half-bits or 51 units, so the reports keep the distances of the loads |
| C107 | `poll`, `load`, `tick`, NEC decoder and encoder | induction over the programs: a line on which every receiver hears the commands at least q + 1 ms apart becomes, through C105 and C104, a line on which every receiver hears them at least q ms apart |
| C108 | `poll`, `load`, `tick`, NEC, RC5 and RC6 decoders and encoders | the exact times of C105 and C106 give the distances of the reports, C104 what is heard of commands at these distances; one lemma per protocol heard and one per protocol sent |
| C109 | `poll`, `load`, `tick`, NEC, RC5 and RC6 decoders and encoders | as C107, with the protocol as an index of the induction; one lemma says for all three protocols that a session is heard at the distances at which it was given |
| C110 | `load`, `tick`, NEC encoder and decoder, `poll` | induction on the commands with the busy time of C100: a command that comes while the sender is busy is dropped and its ticks are added to those of the one before; then C57 for the commands taken, and C104 for the program |
| C111 | `load`, `tick`, all encoders | as C110 with the buffer carried through the induction and the busy time of C44; a press collapses to its first command, then C57 and C58 |
| C112 | `load`, `tick`, `poll`, NEC, RC5 and RC6 | the presses of C111 leave the calls of a new sender as they are without the further commands, for each of the three protocols; then C109 |

Properties known to be false of the code (found while reading) keep their full English statement; the
refutation is a theorem with a concrete witness and the provable part is a theorem with suffix `_partial`
(or carries the needed hypothesis, named in `MANIFEST.json`).

## 4. Defects found

| property | what the code does | theorem |
|---|---|---|
| C10 | Apple commands that differ in the command page or the device give the same `AnyCommand` | `C10_apple_not_injective`; exactly: `C10_apple_iff` |
| C15 | RC6 windows of 4/5 and 5/6 half-bits overlap: in-tolerance pulses are taken for the neighbour | `C15_rc6_overlap` |
| C16 | `check_overlaps` is true for every shipped protocol at every frequency (unused entries overlap each other) | `C16_check_overlaps_useless` |
| C19 | NEC repeat codes repeat an aborted frame, or a command never sent | `C19_repeat_after_abort`, `C19_repeat_before_command` |
| C21 | `validate` is not called for NEC and Samsung: corrupted words are returned | `C21_*_validate_not_called` |
| C22 | SBP: two consecutive rising edges corrupt a frame silently | `C22_sbp_consecutive_rising` |
| C23 | Denon: the last bit of a frame is lost; bits of an aborted frame stay | `C23_denon_last_bit_lost`, `C23_denon_stale_bits` |
| C26 | RC6: leaders shorter than nominal but in tolerance are dropped | `C26_rc6_short_leader_dropped` |
| C27 | RC6: other modes are reported as mode 0 | `C27_rc6_mode_ignored` |
| C30 | RC5/RC6: the clock counter overflows on long noise | `C30_rc5_clock_overflow`, `C30_rc6_clock_overflow` |
| C33 | `BufferIterator` ends at the first decoding error | `C33_collect_stops_at_error`, `C33_apple_stops_at_foreign_frame` |
| C35 | `event_instant` loses a frame when the clock wraps | `C35_wraparound_loses_frame` |
| C39 | Samsung round trip fails just below 14 kHz | `C39_samsung_fails_at_13khz` |
| C41 | RC6 round trip fails up to 27 027 Hz (except in eleven narrow bands) | `C41_rc6_fails_at_20khz`, `C41_rc6_fails_at_27027hz`; exactly: `C41_rc6_bands` |
| C43 | the sender replays old buffer contents; a new sender is not idle and drops the first load | `C43_refuted_*` |
| C55 | a receiver polled more slowly than the sender loses commands at some phases | `C55_refuted_slow_receiver` |
| C60 | a Denon receiver that hears an SBP transmission keeps its bits and reports the next Denon command wrongly | `C60_refuted_denon` |
| C62 | `create` accepts addresses and commands that do not fit the frame (NEC, Samsung: above 255, truncated; RC5: address from 32, command from 64, mixed into other fields and the toggle bit) | `C62_refuted`, `C62_rc5_mixes` |
| C63 | with a fugit clock a mark and a space that together exceed the range of the clock panic in release builds too | `C63_long_pause_panics` |
| C70 | the mouse example never presses a mouse button; debug builds overflow the repeat counter | `C70_no_click`, `C70_mouse_never_clicks`, `C70_overflow` |
| C71 | the media keyboard's Stop key cannot be reached | `C71_never_stop` |
| C72 | the event-driven examples lose the first RC5 or RC6 transmission after power-up | `C72_rc5_first_lost`, `C72_rc6_first_lost` |
| C76 | RC5: a debug build with 16-bit `usize` panics after 58 s of a square wave | `C76_rc5_square_wave` |
| C79 | RC6 receivers at the documented 20 kHz never hear anything (polled, event-driven, buffers) | `C79_rc6_deaf`, `C79_rc6_deaf_polled`, `C79_rc6_deaf_buffer` |
| C98 | a counter that wraps around during a transmission loses it (`event_instant`) | `C98_nec`, `C98_sbp`, `C98_denon` |
| C99 | a counter that wraps around can turn an RC5 or RC6 command into a wrong one | `C99_rc5_wrong`, `C99_rc6_wrong` |
| C100 | the stop mark of a NEC transmission is one tick long instead of 560 us, and so is the last mark of odd RC5 commands | `C100_nec_stop_mark`, `C100_rc5` |
| C101 | a module that swallows such short marks hides all NEC commands and the odd RC5 commands of the sender | `C101_nec`, `C101_rc5` |
| C84 | RC5 and RC6: `is_repeat()` is the toggle bit, so every second press is reported as a repetition and held keys as new presses; SBP: never a repetition | `C84_refuted` |

## 5. Testing the theorems against wrong programs

Realistic bugs are seeded into a scratch copy of the model (outside this repository), one at a time, and
the modules whose theorems mention the edited definition are rebuilt with every theorem checked on its own.  `seeded/LOG.jsonl`
records for each attempt the definition, the edit, the claim it breaks, the theorems that failed, and those
that were tightened because they survived.
