import Verif.Lemmas.Sending
import Verif.Props.Encoders

/-!
# The sender (C42 to C45)
-/

namespace Infrared

open Spec

variable {C K : Type}

/-! ## C42: run-length expansion -/

/-- **C42**: an idle sender (whatever it did before) that loads a command, leaving `b` in its
buffer, afterwards shows for any number of ticks: off for `b[0]` ticks, then on, off, … for
`b[1]`, `b[2]`, … ticks (at least one each), one tick of the last level, and off for ever.  The
tick counter may wrap around any number of times. -/
theorem C42_run_length (s : Sender) (hidle : s.buffer.status = .idle) (enc : Encode)
    (b : List Nat) (len : Nat) (henc : enc s.buffer.ptb.buf = some (b, len))
    (hb : ∀ d ∈ b, d < 2 ^ 32) :
    ∃ s', s.load enc = some s' ∧ ∀ n,
      s'.pins n = (transmission b ++ List.replicate n false).take n := by
  obtain ⟨s', h1, -, -, -, h2⟩ := load_idle hidle henc hb
  refine ⟨s', h1, fun n => ?_⟩
  rw [pins_sending h2]
  cases b <;> rfl

/-- **C42**: loading panics exactly if the encoder does. -/
theorem C42_load_panics_iff (s : Sender) (hidle : s.buffer.status = .idle) (enc : Encode) :
    s.load enc = none ↔ enc s.buffer.ptb.buf = none := by
  unfold Sender.load PulsedataSender.loadCommand PulsedataBuffer.load PulsedataSender.reset
    PulsedataBuffer.reset
  rcases h : enc s.buffer.ptb.buf with _ | p <;> simp [hidle, h]

/-- The first entry of all shipped encoders is 0, so that the first tick switches on. -/
theorem C42_first_on (ds : List Nat) : (transmission (0 :: ds)).head? = some true := by
  rw [transmission, List.replicate_zero, List.nil_append, heldLevels_cons]
  rfl

/-- Non-vacuity: a waveform with a mark of 3 and a space of 2 ticks in a buffer of three. -/
example : ∃ s', (Sender.new 3 false).load (fun _ => some ([0, 3, 2], 3)) = some s' ∧
    s'.pins 9 = [true, true, true, false, false, true, false, false, false] := by
  obtain ⟨s', h1, h2⟩ := C42_run_length (Sender.new 3 false) rfl (fun _ => some ([0, 3, 2], 3)) _ _
    rfl (by decide)
  exact ⟨s', h1, h2 9⟩

/-! ## C43: nothing but the loaded command -/

/-- **C43** refuted: a sender that never loaded anything switches its output on and off, once per
slot of its buffer. -/
theorem C43_refuted_fresh (S : Nat) (pin : Bool) (n : Nat) :
    (Sender.new S pin).pins n = (List.range n).map fun i => decide (i < S ∧ i % 2 = 0) := by
  have hheld : ∀ S l, heldLevels l (List.replicate S 0) =
      (List.range (S + 1)).map fun i => (xor l (i % 2 == 1)) := by
    intro S
    induction S with
    | zero => intro l; cases l <;> rfl
    | succ S ih =>
      intro l
      rw [List.replicate_succ, heldLevels, ih, List.range_succ_eq_map (n := S + 1), List.map_cons,
        List.map_map]
      refine List.cons_eq_cons.mpr ⟨by cases l <;> rfl, List.map_congr_left fun i _ => ?_⟩
      simp only [Function.comp, Nat.succ_eq_add_one]
      rcases Nat.mod_two_eq_zero_or_one i with h | h
      · rw [h, show (i + 1) % 2 = 1 by omega]; cases l <;> rfl
      · rw [h, show (i + 1) % 2 = 0 by omega]; cases l <;> rfl
  rw [pins_sending (new_sending S pin)]
  apply List.ext_getElem?
  intro i
  rcases S with _ | S
  · by_cases hi : i < n
    · simp [remaining, hi]
    · simp [remaining, hi]
  · rw [List.replicate_succ, remaining, Nat.sub_zero, List.replicate_zero, List.nil_append, hheld]
    by_cases hi : i < n
    · rw [List.getElem?_take_of_lt hi]
      by_cases hS : i < S + 1
      · rw [List.getElem?_append_left (by simpa using hS)]
        simp only [List.getElem?_map, List.getElem?_range hS, List.getElem?_range hi, Option.map_some,
          hS, true_and, Bool.not_false, Bool.true_xor]
        rcases Nat.mod_two_eq_zero_or_one i with h | h <;> simp [h]
      · rw [List.getElem?_append_right (by simp; omega)]
        simp only [List.getElem?_map, List.getElem?_range hi, Option.map_some, hS, false_and,
          List.length_map, List.length_range]
        rw [List.getElem?_replicate_of_lt (by omega)]
        rfl
    · simp [hi]

/-- **C43** refuted, consequence: a sender with a buffer of `S` slots that has been ticked between
once and `S` times since power-up drops the first command it is given, because it believes to be
transmitting. -/
theorem C43_refuted_fresh_load_dropped (S : Nat) (pin : Bool) (n : Nat) (hlo : 0 < n) (hhi : n ≤ S)
    (enc : Encode) (cs : List SenderCall) :
    (Sender.new S pin).calls (List.replicate n .tick ++ [.load enc] ++ cs) =
      (Sender.new S pin).calls (List.replicate n .tick ++ cs) := by
  have hlen : ∀ S l, (heldLevels l (List.replicate S 0)).length = S + 1 := by
    intro S
    induction S with
    | zero => intro l; rfl
    | succ S ih => intro l; simp [List.replicate_succ, heldLevels, ih]
  have hst : ¬ ((Sender.new S pin).ticks n).buffer.status = .idle := by
    rw [status_start (new_sending S pin) rfl]
    rcases S with _ | S
    · omega
    · simp only [List.replicate_succ, List.headD_cons, remaining, hlen, Nat.sub_zero,
        List.replicate_zero, List.nil_append]
      omega
  rw [List.append_assoc, calls_ticks, calls_ticks]
  simp only [List.cons_append, List.nil_append, Sender.calls, Sender.load, if_neg hst,
    Option.bind_some]

/-- Whatever the rest of the buffer holds, the loaded waveform is sent first. -/
theorem transmission_append (wave rest : List Nat) (hw : wave ≠ []) :
    transmission (wave ++ rest) = transmission wave ++
      (heldLevels (wave.length % 2 == 1) rest).tail := by
  cases wave with
  | nil => exact absurd rfl hw
  | cons d ds =>
    obtain ⟨l, h1, h2⟩ := heldLevels_append true ds rest
    rw [List.cons_append, transmission, h1, transmission, List.append_assoc, h2, List.length_cons]
    congr 4
    rcases Nat.mod_two_eq_zero_or_one ds.length with h | h
    · rw [h, show (ds.length + 1) % 2 = 1 by omega]; rfl
    · rw [h, show (ds.length + 1) % 2 = 0 by omega]; rfl

/-- **C43**, what is true for every buffer size: the loaded waveform is what is sent first. -/
theorem C43_command_first_partial (s : Sender) (hidle : s.buffer.status = .idle) (enc : Encode)
    (wave : List Nat) (henc : Writes enc wave) (hne : wave ≠ [])
    (hlen : wave.length ≤ s.buffer.ptb.buf.length)
    (hw : ∀ d ∈ wave, d < 2 ^ 32) (hold : ∀ d ∈ s.buffer.ptb.buf, d < 2 ^ 32) :
    ∃ s', s.load enc = some s' ∧ s'.pins (transmission wave).length = transmission wave ∧
      ∀ n, s'.pins n = (transmission (wave ++ s.buffer.ptb.buf.drop wave.length) ++
        List.replicate n false).take n := by
  have h := henc s.buffer.ptb.buf
  rw [if_pos hlen] at h
  obtain ⟨s', h1, h2⟩ := C42_run_length s hidle enc _ _ h (by
    intro d hd
    rcases List.mem_append.mp hd with hd | hd
    · exact hw d hd
    · exact hold d (List.mem_of_mem_drop hd))
  refine ⟨s', h1, ?_, h2⟩
  rw [h2, transmission_append _ _ hne, List.append_assoc, List.take_left]

/-- **C43** for a buffer of exactly the length of the waveform: the command and nothing else. -/
theorem C43_exact_buffer_partial (s : Sender) (hidle : s.buffer.status = .idle) (enc : Encode)
    (wave : List Nat) (henc : Writes enc wave) (hlen : wave.length = s.buffer.ptb.buf.length)
    (hw : ∀ d ∈ wave, d < 2 ^ 32) :
    ∃ s', s.load enc = some s' ∧
      ∀ n, s'.pins n = (transmission wave ++ List.replicate n false).take n := by
  have h := henc s.buffer.ptb.buf
  rw [if_pos (by omega), hlen, List.drop_length, List.append_nil] at h
  exact C42_run_length s hidle enc _ _ h hw

/-- **C43** refuted: if the buffer has at least two slots more than the waveform, whatever they
contain, the output is switched on again after the waveform has been sent completely. -/
theorem C43_refuted_leftover (s : Sender) (hidle : s.buffer.status = .idle) (enc : Encode)
    (wave : List Nat) (henc : Writes enc wave) (hne : wave ≠ [])
    (hlen : wave.length + 2 ≤ s.buffer.ptb.buf.length)
    (hw : ∀ d ∈ wave, d < 2 ^ 32) (hold : ∀ d ∈ s.buffer.ptb.buf, d < 2 ^ 32) :
    ∃ s', s.load enc = some s' ∧ ∃ n i, (transmission wave).length ≤ i ∧
      (s'.pins n)[i]? = some true := by
  obtain ⟨s', h1, -, h2⟩ := C43_command_first_partial s hidle enc wave henc hne (by omega) hw hold
  refine ⟨s', h1, ?_⟩
  obtain ⟨x, y, rest, hr⟩ : ∃ x y rest, s.buffer.ptb.buf.drop wave.length = x :: y :: rest := by
    have hl : (s.buffer.ptb.buf.drop wave.length).length ≥ 2 := by rw [List.length_drop]; omega
    generalize s.buffer.ptb.buf.drop wave.length = l at hl
    rcases l with _ | ⟨x, _ | ⟨y, rest⟩⟩
    · simp at hl
    · simp at hl
    · exact ⟨x, y, rest, rfl⟩
  rw [hr, transmission_append _ _ hne] at h2
  have hmem : true ∈ (heldLevels (wave.length % 2 == 1) (x :: y :: rest)).tail := by
    rw [heldLevels_cons]
    simp only [List.tail_cons, remaining]
    rw [heldLevels, Bool.not_not, heldLevels_cons]
    rcases (wave.length % 2 == 1) with _ | _
    · refine List.mem_append_right _ (List.mem_append_left _ ?_)
      rw [List.mem_replicate]
      exact ⟨by omega, rfl⟩
    · exact List.mem_append_right _ (List.mem_append_right _ (by simp))
  obtain ⟨i, hi⟩ := List.mem_iff_getElem?.mp hmem
  refine ⟨(transmission wave).length + i + 1, (transmission wave).length + i, by omega, ?_⟩
  rw [h2, List.getElem?_take_of_lt (by omega), List.append_assoc,
    List.getElem?_append_right (by omega), Nat.add_sub_cancel_left, List.getElem?_append_left, hi]
  exact (List.getElem?_eq_some_iff.mp hi).1

/-- **C43** refuted: stale slots are replayed.  After `[0, 1, 1, 9]` has been sent, sending `[0, 2]`
switches the output on again for the 9 ticks of the first command's last slot. -/
theorem C43_refuted_stale :
    ((Sender.new 4 false).calls ([.load fun b => some ([0, 1, 1, 9] ++ b.drop 4, 4)] ++
      List.replicate 13 .tick ++ [.load fun b => some ([0, 2] ++ b.drop 2, 2)] ++
      List.replicate 15 .tick)).map Prod.snd =
    some ([true, false] ++ List.replicate 9 true ++ [false, false] ++
      [true, true, false] ++ List.replicate 9 true ++ List.replicate 3 false) := by decide +kernel

/-! ## C44: loading during a transmission -/

/-- **C44**: after `n` ticks since a load that left `b` in the buffer, the sender is idle (and
accepts the next command) exactly if its output has not been switched on yet or the transmission is
over. -/
theorem C44_idle_iff (s : Sender) (hidle : s.buffer.status = .idle) (enc : Encode)
    (b : List Nat) (len : Nat) (henc : enc s.buffer.ptb.buf = some (b, len))
    (hb : ∀ d ∈ b, d < 2 ^ 32) :
    ∃ s', s.load enc = some s' ∧ ∀ n, (s'.ticks n).buffer.status = .idle ↔
      n ≤ b.headD 0 ∨ (transmission b).length < n := by
  obtain ⟨s', h1, -, -, h3, h2⟩ := load_idle hidle henc hb
  refine ⟨s', h1, fun n => ?_⟩
  rw [status_start h2 h3, Nat.sub_zero]
  cases b <;> rfl

/-- **C44**: a load during a transmission (from the first tick that switched the output on to the
last tick) is ignored, even if its encoder would panic: the whole sequence of calls, whatever
follows, gives the same output and the same sender as without it. -/
theorem C44_load_ignored (s : Sender) (hidle : s.buffer.status = .idle) (enc : Encode)
    (b : List Nat) (len : Nat) (henc : enc s.buffer.ptb.buf = some (b, len))
    (hb : ∀ d ∈ b, d < 2 ^ 32) (n : Nat) (hlo : b.headD 0 < n) (hhi : n ≤ (transmission b).length)
    (enc' : Encode) (cs : List SenderCall) :
    s.calls ([.load enc] ++ List.replicate n .tick ++ [.load enc'] ++ cs) =
      s.calls ([.load enc] ++ List.replicate n .tick ++ cs) := by
  obtain ⟨s', h1, h2⟩ := C44_idle_iff s hidle enc b len henc hb
  simp only [List.append_assoc, List.cons_append, List.nil_append, Sender.calls, h1, Option.bind_some,
    calls_ticks]
  have : ¬ (s'.ticks n).buffer.status = .idle := by rw [h2]; omega
  simp only [Sender.load, if_neg this, Option.bind_some]

/-- **C44**: a load after the end of a transmission (or before its first edge) starts the new command
from its beginning, on top of what the buffer held. -/
theorem C44_load_accepted (s : Sender) (hidle : s.buffer.status = .idle) (enc : Encode)
    (b : List Nat) (len : Nat) (henc : enc s.buffer.ptb.buf = some (b, len))
    (hb : ∀ d ∈ b, d < 2 ^ 32) (n : Nat) (hn : n ≤ b.headD 0 ∨ (transmission b).length < n)
    (enc' : Encode) (b' : List Nat) (len' : Nat) (henc' : enc' b = some (b', len'))
    (hb' : ∀ d ∈ b', d < 2 ^ 32) (k : Nat) :
    (s.calls ([.load enc] ++ List.replicate n .tick ++ [.load enc'] ++
        List.replicate k .tick)).map Prod.snd =
      some ((transmission b ++ List.replicate n false).take n ++
        (transmission b' ++ List.replicate k false).take k) := by
  obtain ⟨s1, h1, h2, -, h4, h3⟩ := load_idle hidle henc hb
  have hid : (s1.ticks n).buffer.status = .idle := by
    rw [status_start h3 h4, Nat.sub_zero]
    cases b <;> exact hn
  obtain ⟨s2, i1, i2⟩ := C42_run_length (s1.ticks n) hid enc' b' len'
    (by rw [ticks_buf, h2]; exact henc') hb'
  have h5 : s1.pins n = (transmission b ++ List.replicate n false).take n := by
    rw [pins_sending h3]
    cases b <;> rfl
  have h6 := calls_ticks s2 k []
  rw [List.append_nil] at h6
  simp only [List.append_assoc, List.cons_append, List.nil_append, Sender.calls, h1, Option.bind_some,
    calls_ticks, i1, h6, Option.map_some, List.append_nil, i2, h5]

/-- Non-vacuity: a load after one tick of `[0, 3, 2]` is ignored, after seven ticks it is not. -/
example : ((Sender.new 3 false).calls ([.load fun _ => some ([0, 3, 2], 3)] ++
      List.replicate 1 .tick ++ [.load fun _ => none] ++ List.replicate 6 .tick ++
      [.load fun _ => some ([0, 1, 1], 3)] ++ List.replicate 3 .tick)).map Prod.snd =
    some [true, true, true, false, false, true, false, true, false, true] := by decide +kernel

/-! ## C45: sender to polling receiver -/

/-- A receiver that gets a waveform with first duration 1 right, gets it right through a sender and a
polling front end. -/
theorem sender_to_poll (D : Decoder C) (conv : C → K) (s : Sender) (hidle : s.buffer.status = .idle)
    (enc : Encode) (ds : List Nat) (henc : Writes enc (0 :: ds))
    (hlen : (0 :: ds).length ≤ s.buffer.ptb.buf.length)
    (hds : ∀ d ∈ ds, 0 < d ∧ d < 2 ^ 32) (hold : ∀ d ∈ s.buffer.ptb.buf, d < 2 ^ 32)
    (k j : Nat) (x : Res K)
    (hres : results D conv ((true, 1) :: alternating false ds) =
      some (List.replicate k (.ok none) ++ [x] ++ List.replicate j (.ok none))) :
    ∃ s' n a b, s.load enc = some s' ∧ n = (transmission (0 :: ds)).length ∧
      pollRun D conv (s'.pins n) =
        some (List.replicate a (.ok none) ++ [x] ++ List.replicate b (.ok none)) := by
  obtain ⟨s', h1, h2, -⟩ := C43_command_first_partial s hidle enc _ henc (by simp) hlen
    (by
      intro d hd
      rcases List.mem_cons.mp hd with rfl | hd
      · decide
      · exact (hds d hd).2) hold
  have hs := sampled_held true 0 (by decide) ds hds
  have he : (sampledEdges false 0 (transmission (0 :: ds))).filterMap id =
      (true, 1) :: alternating false ds := hs
  have hkj : k + 1 + j = ds.length + 1 := by
    have hr := hres
    rw [results_snd] at hr
    obtain ⟨p, hp, hp2⟩ := Option.map_eq_some_iff.mp hr
    obtain ⟨q, hq, hq2⟩ := Option.map_eq_some_iff.mp hp
    have := run_length hq
    rw [hq2, ← List.length_map (f := Res.map conv), hp2] at this
    simp only [List.length_append, List.length_replicate, List.length_cons, List.length_nil,
      alternating_length] at this
    omega
  obtain ⟨a, b, h3, -⟩ := placeResults_one (K := K) (sampledEdges false 0 (transmission (0 :: ds))) k j x
    (by rw [he, List.length_cons, alternating_length]; omega)
  refine ⟨s', _, a, b, h1, rfl, ?_⟩
  rw [C34_poll_equiv, h2, he, hres, Option.map_some, h3]

theorem necWave_pos (hm hs mk z o : Nat) (w : BitVec 32) (h1 : 0 < hm ∧ hm < 2 ^ 32)
    (h2 : 0 < hs ∧ hs < 2 ^ 32) (h3 : 0 < mk ∧ mk < 2 ^ 32) (h4 : 0 < z ∧ z < 2 ^ 32)
    (h5 : 0 < o ∧ o < 2 ^ 32) : ∀ d ∈ (necWave hm hs mk z o w).tail, 0 < d ∧ d < 2 ^ 32 := by
  intro d hd
  simp only [necWave, List.cons_append, List.nil_append, List.tail_cons, List.mem_cons,
    List.mem_flatMap] at hd
  rcases hd with rfl | rfl | ⟨i, -, hd⟩
  · exact h1
  · exact h2
  · simp only [List.mem_cons, List.not_mem_nil, or_false] at hd
    rcases hd with rfl | rfl
    · exact h3
    · split
      · exact h5
      · exact h4

theorem necData_pos {p : NecPulseLen} {f : Nat} {data : NecData} (hf : 14000 ≤ f)
    (h : necData p f = some data) (hv : p = necStandardTiming ∨ p = necSamsungTiming) :
    (0 < data.headerHigh ∧ data.headerHigh < 2 ^ 32) ∧
    (0 < data.headerLow ∧ data.headerLow < 2 ^ 32) ∧
    (0 < data.dataHigh ∧ data.dataHigh < 2 ^ 32) ∧
    (0 < data.dataZeroLow ∧ data.dataZeroLow < 2 ^ 32) ∧
    (0 < data.dataOneLow ∧ data.dataOneLow < 2 ^ 32) := by
  unfold necData at h
  simp only [Option.bind_eq_bind, Option.bind_eq_some_iff, Option.some.injEq] at h
  obtain ⟨a, ha, b, hb, c, hc, d, hd, e, he, g, hg, rfl⟩ := h
  obtain ⟨a1, a2⟩ := calcTicks_eq (by omega) ha
  obtain ⟨b1, b2⟩ := calcTicks_eq (by omega) hb
  obtain ⟨d1, d2⟩ := calcTicks_eq (by omega) hd
  obtain ⟨e1, e2⟩ := calcTicks_eq (by omega) he
  obtain ⟨g1, g2⟩ := calcTicks_eq (by omega) hg
  rcases hv with rfl | rfl <;> simp only [necStandardTiming, necSamsungTiming] at * <;> omega

/-- **C45**, generic form for the NEC family. -/
theorem nec_sent_received (t : Target) (f : Nat) (hlo : 14000 ≤ f) (hf : f < 2 ^ 32)
    (v : NecVariant C) (hv : v.Shipped) (data : NecData)
    (hdata : necData v.pulseDistance f = some data) (tbl : PulseSpans)
    (htbl : necSpans t Mono.u32 v f = some tbl) (conv : C → K) (cmd : C) (w : BitVec 32)
    (hw : v.pack cmd = some w) (cmd' : C) (hun : v.unpack w false = some cmd')
    (s : Sender) (hidle : s.buffer.status = .idle) (hS : 67 ≤ s.buffer.ptb.buf.length)
    (hold : ∀ d ∈ s.buffer.ptb.buf, d < 2 ^ 32) :
    ∃ s' n a b, s.load (necEncode v data cmd) = some s' ∧
      pollRun (necDecoder t Mono.u32 tbl v) conv (s'.pins n) =
        some (List.replicate a (.ok none) ++ [.ok (some (conv cmd'))] ++
          List.replicate b (.ok none)) := by
  obtain ⟨h1, h2⟩ := C38_nec_encode v data cmd w hw
  obtain ⟨p1, p2, p3, p4, p5⟩ := necData_pos hlo hdata hv
  have h := nec_wave_received (.inl rfl) t hlo hf v hv hdata htbl w 1 (by decide)
  rw [hun] at h
  have hres := results_of (D := necDecoder t Mono.u32 tbl v) conv h
  obtain ⟨s', n, a, b, e1, -, e3⟩ := sender_to_poll (necDecoder t Mono.u32 tbl v) conv s hidle
    (necEncode v data cmd) _ h1 (by rw [← h2] at hS; exact hS)
    (necWave_pos _ _ _ _ _ w p1 p2 p3 p4 p5) hold 66 0 (.ok (some (conv cmd')))
    (hres.trans (by simp [Res.map]))
  exact ⟨s', n, a, b, e1, e3⟩

/-- The buffer of a sender that has not loaded anything. -/
theorem new_buf (S : Nat) (pin : Bool) :
    (Sender.new S pin).buffer.ptb.buf.length = S ∧
    ∀ d ∈ (Sender.new S pin).buffer.ptb.buf, d < 2 ^ 32 := by
  refine ⟨List.length_replicate .., fun d hd => ?_⟩
  rw [List.eq_of_mem_replicate (n := S) hd]
  decide

/-- **C45** for standard NEC: any idle sender with a buffer of at least 67 slots, ticked and sampled
once per tick by a new polling receiver built for the same frequency: after enough ticks exactly one
result is not `Ok(None)`, and it is the command. -/
theorem C45_nec_end_to_end (t : Target) (f : Nat) (hlo : 14000 ≤ f) (hhi : f ≤ 477218999)
    (tbl : PulseSpans) (htbl : necSpans t Mono.u32 nec f = some tbl) (conv : NecCommand → K)
    (cmd : NecCommand) (s : Sender) (hidle : s.buffer.status = .idle)
    (hS : 67 ≤ s.buffer.ptb.buf.length) (hold : ∀ d ∈ s.buffer.ptb.buf, d < 2 ^ 32) :
    ∃ data s' n a b, necData nec.pulseDistance f = some data ∧
      s.load (necEncode nec data cmd) = some s' ∧
      pollRun (necDecoder t Mono.u32 tbl nec) conv (s'.pins n) =
        some (List.replicate a (.ok none) ++ [.ok (some (conv { cmd with rep := false }))] ++
          List.replicate b (.ok none)) := by
  obtain ⟨data, hdata⟩ := Option.isSome_iff_exists.mp ((C38_nec_compiles f (by omega)).1.mpr hhi)
  exact ⟨data, (nec_sent_received t f hlo (by omega) nec (.inl rfl) data hdata tbl htbl conv cmd
    cmd.pack rfl _ (C01_nec_roundtrip { cmd with rep := false }).2 s hidle hS hold).imp
    fun s' ⟨n, a, b, h⟩ => ⟨n, a, b, hdata, h⟩⟩

/-- **C45** for Samsung. -/
theorem C45_samsung_end_to_end (t : Target) (f : Nat) (hlo : 14000 ≤ f) (hhi : f ≤ 954437999)
    (tbl : PulseSpans) (htbl : necSpans t Mono.u32 samsungNec f = some tbl)
    (conv : SamsungNecCommand → K)
    (cmd : SamsungNecCommand) (s : Sender) (hidle : s.buffer.status = .idle)
    (hS : 67 ≤ s.buffer.ptb.buf.length) (hold : ∀ d ∈ s.buffer.ptb.buf, d < 2 ^ 32) :
    ∃ data s' n a b, necData samsungNec.pulseDistance f = some data ∧
      s.load (necEncode samsungNec data cmd) = some s' ∧
      pollRun (necDecoder t Mono.u32 tbl samsungNec) conv (s'.pins n) =
        some (List.replicate a (.ok none) ++ [.ok (some (conv { cmd with rep := false }))] ++
          List.replicate b (.ok none)) := by
  obtain ⟨data, hdata⟩ := Option.isSome_iff_exists.mp ((C38_nec_compiles f (by omega)).2.mpr hhi)
  exact ⟨data, (nec_sent_received t f hlo (by omega) samsungNec (.inr rfl) data hdata tbl htbl conv cmd
    cmd.pack rfl _ (C02_samsung_roundtrip { cmd with rep := false }).2 s hidle hS hold).imp
    fun s' ⟨n, a, b, h⟩ => ⟨n, a, b, hdata, h⟩⟩

/-- **C45** for 16-bit addresses. -/
theorem C45_nec16_end_to_end (t : Target) (f : Nat) (hlo : 14000 ≤ f) (hhi : f ≤ 477218999)
    (tbl : PulseSpans) (htbl : necSpans t Mono.u32 nec16 f = some tbl) (conv : Nec16Command → K)
    (cmd : Nec16Command) (s : Sender) (hidle : s.buffer.status = .idle)
    (hS : 67 ≤ s.buffer.ptb.buf.length) (hold : ∀ d ∈ s.buffer.ptb.buf, d < 2 ^ 32) :
    ∃ data s' n a b, necData nec16.pulseDistance f = some data ∧
      s.load (necEncode nec16 data cmd) = some s' ∧
      pollRun (necDecoder t Mono.u32 tbl nec16) conv (s'.pins n) =
        some (List.replicate a (.ok none) ++ [.ok (some (conv { cmd with rep := false }))] ++
          List.replicate b (.ok none)) := by
  obtain ⟨data, hdata⟩ := Option.isSome_iff_exists.mp ((C38_nec_compiles f (by omega)).1.mpr hhi)
  exact ⟨data, (nec_sent_received t f hlo (by omega) nec16 (.inl rfl) data hdata tbl htbl conv cmd
    cmd.pack rfl _ (C03_nec16_roundtrip { cmd with rep := false }).2 s hidle hS hold).imp
    fun s' ⟨n, a, b, h⟩ => ⟨n, a, b, hdata, h⟩⟩

/-- **C45** for raw words. -/
theorem C45_raw_end_to_end (t : Target) (f : Nat) (hlo : 14000 ≤ f) (hhi : f ≤ 477218999)
    (tbl : PulseSpans) (htbl : necSpans t Mono.u32 necDebug f = some tbl) (conv : NecDebugCmd → K)
    (cmd : NecDebugCmd) (s : Sender) (hidle : s.buffer.status = .idle)
    (hS : 67 ≤ s.buffer.ptb.buf.length) (hold : ∀ d ∈ s.buffer.ptb.buf, d < 2 ^ 32) :
    ∃ data s' n a b, necData necDebug.pulseDistance f = some data ∧
      s.load (necEncode necDebug data cmd) = some s' ∧
      pollRun (necDecoder t Mono.u32 tbl necDebug) conv (s'.pins n) =
        some (List.replicate a (.ok none) ++ [.ok (some (conv cmd))] ++
          List.replicate b (.ok none)) := by
  obtain ⟨data, hdata⟩ := Option.isSome_iff_exists.mp ((C38_nec_compiles f (by omega)).1.mpr hhi)
  exact ⟨data, (nec_sent_received t f hlo (by omega) necDebug (.inl rfl) data hdata tbl htbl conv cmd
    cmd.bits rfl cmd rfl s hidle hS hold).imp
    fun s' ⟨n, a, b, h⟩ => ⟨n, a, b, hdata, h⟩⟩

/-- **C45** for RC5: the command with its first start bit set. -/
theorem C45_rc5_end_to_end (t : Target) (hus : 16 ≤ t.usizeBits) (f : Nat) (hlo : 13000 ≤ f)
    (hf : f < 2 ^ 32) (tbl : PulseSpans) (htbl : rc5Spans t Mono.u32 f = some tbl)
    (conv : Rc5Command → K) (cmd : Rc5Command) (ha : cmd.addr.toNat < 32) (hc : cmd.cmd.toNat < 64)
    (hs : cmd.start.toNat < 4) (s : Sender) (hidle : s.buffer.status = .idle)
    (hS : 27 ≤ s.buffer.ptb.buf.length) (hold : ∀ d ∈ s.buffer.ptb.buf, d < 2 ^ 32) :
    ∃ len s' n a b, rc5CalcFreq f = some len ∧ s.load (rc5Encode t len cmd) = some s' ∧
      pollRun (rc5Decoder t tbl) conv (s'.pins n) =
        some (List.replicate a (.ok none) ++
          [.ok (some (conv { cmd with start := cmd.start ||| 2 }))] ++
          List.replicate b (.ok none)) := by
  rw [rc5Spans_eq (.inl rfl) t hf, Option.some.injEq] at htbl
  subst htbl
  obtain ⟨len, hlen, -, henc⟩ := C38_rc5_encode t f hf
  obtain ⟨hw, h14, h27⟩ := henc cmd
  have e := (rc5CalcFreq_eq hf hlen).2 (by omega)
  have hl2 := (rc5CalcFreq_eq hf hlen).1
  obtain ⟨r', hr, -⟩ := rc5_wave_received t hus f hlo conv cmd 1
  rw [← e, rc5_received_cmd cmd ha hc hs] at hr
  have h13 : (rc5Word cmd.pack).getLsbD 13 = true := by
    rw [rc5Word_bits _ _ (by decide)]; simp
  have hpos : ∀ d ∈ (rc5Wave len (rc5Word cmd.pack)).tail, 0 < d ∧ d < 2 ^ 32 := by
    intro d hd
    unfold rc5Wave at hd
    rw [rc5Edges_eq _ h13] at hd
    simp only [manchesterWave, List.tail_cons, List.mem_map] at hd
    obtain ⟨x, hx, rfl⟩ := hd
    have : 0 < len := by rw [e]; omega
    rcases rc5_edges_len _ 13 true x hx with h | h <;> rw [h] <;> omega
  rw [rc5Wave_cons _ _ h13] at hw h27
  obtain ⟨s', n, a, b, e1, -, e3⟩ := sender_to_poll (rc5Decoder t (rc5Table f)) conv s hidle
    (rc5Encode t len cmd) _ hw (by omega) hpos hold
    ((rc5Wave len (rc5Word cmd.pack)).length - 1) 0
    (.ok (some (conv { cmd with start := cmd.start ||| 2 })))
    ((congrArg (Option.map Prod.snd) hr).trans (by simp))
  exact ⟨len, s', n, a, b, hlen, e1, e3⟩

theorem edgesFrom_pos (prev : Bool) (n : Nat) (hn : 0 < n) (ls : List Bool) :
    ∀ e ∈ edgesFrom prev n ls, 0 < e.2 := by
  induction ls generalizing prev n with
  | nil => simp [edgesFrom]
  | cons l ls ih =>
    intro e he
    rw [edgesFrom] at he
    split at he
    · exact ih _ _ (by omega) e he
    · rcases List.mem_cons.mp he with rfl | he
      · exact hn
      · exact ih _ _ (by decide) e he

theorem rc6_wave_pos (f : Nat) (hlo : 27028 ≤ f) (hhi : f ≤ 9673349) (cmd : Rc6Command) :
    ∀ d ∈ (rc6Wave (444 * f / 1000000) (cmd.addr ++ cmd.cmd) cmd.toggle).tail,
      0 < d ∧ d < 2 ^ 32 := by
  intro d hd
  obtain ⟨u, hu, hu6⟩ := rc6_wave_units _ _ _ d (List.mem_of_mem_tail hd)
  unfold rc6Wave at hd
  rw [rc6Levels_edges] at hd
  simp only [manchesterWave, List.tail_cons, List.mem_map, List.mem_append] at hd
  obtain ⟨x, hx, rfl⟩ := hd
  have h0 : 0 < x.2 := by
    rcases hx with hx | hx
    · have : ∀ e ∈ rc6Head 0 cmd.toggle, 0 < e.2 := by cases cmd.toggle <;> decide
      exact this x hx
    · exact edgesFrom_pos _ _ (by decide) _ x hx
  have hlen : 0 < 444 * f / 1000000 := by omega
  refine ⟨Nat.mul_pos h0 hlen, ?_⟩
  rw [hu]
  have : u * (444 * f / 1000000) ≤ 6 * (444 * f / 1000000) := Nat.mul_le_mul_right _ hu6
  omega

/-- **C45** for RC6, from 27 028 Hz (below, the receiver does not understand the encoder at all:
C41). -/
theorem C45_rc6_end_to_end (t : Target) (hus : 16 ≤ t.usizeBits) (f : Nat) (hlo : 27028 ≤ f)
    (hhi : f ≤ 9673349) (tbl : PulseSpans) (htbl : rc6Spans t Mono.u32 f = some tbl)
    (conv : Rc6Command → K) (cmd : Rc6Command) (s : Sender) (hidle : s.buffer.status = .idle)
    (hS : 44 ≤ s.buffer.ptb.buf.length) (hold : ∀ d ∈ s.buffer.ptb.buf, d < 2 ^ 32) :
    ∃ len s' n a b, rc6Data f = some len ∧ s.load (rc6Encode len cmd) = some s' ∧
      pollRun (rc6Decoder t tbl) conv (s'.pins n) =
        some (List.replicate a (.ok none) ++ [.ok (some (conv cmd))] ++
          List.replicate b (.ok none)) := by
  rw [rc6Spans_eq (.inl rfl) t (by omega), Option.some.injEq] at htbl
  subst htbl
  have hdata : rc6Data f = some (444 * f / 1000000) := if_pos (by omega)
  obtain ⟨-, hw, h44⟩ := C38_rc6_encode f _ hdata cmd
  obtain ⟨k, j, hres, -⟩ := rc6_wave_received t hus f hlo conv cmd 1
  have hpos := rc6_wave_pos f hlo hhi cmd
  rw [rc6Wave_cons] at hw h44
  obtain ⟨s', n, a, b, e1, -, e3⟩ := sender_to_poll (rc6Decoder t (rc6Table f)) conv s hidle
    (rc6Encode (444 * f / 1000000) cmd) _ hw (by omega) hpos hold k j _ hres
  exact ⟨_, s', n, a, b, hdata, e1, e3⟩

/-- Non-vacuity: new senders, at 40 kHz, with buffers larger than needed. -/
example : ∃ data s' n a b, necData nec.pulseDistance 40000 = some data ∧
    (Sender.new 128 false).load (necEncode nec data ⟨20, 10, false⟩) = some s' ∧
    pollRun (necDecoder ⟨true, 32⟩ Mono.u32 (necTable 40000) nec) id (s'.pins n) =
      some (List.replicate a (.ok none) ++ [.ok (some ⟨20, 10, false⟩)] ++
        List.replicate b (.ok none)) :=
  C45_nec_end_to_end ⟨true, 32⟩ 40000 (by decide) (by decide) _
    (necSpans_standard (.inl rfl) _ (by decide) nec rfl) id ⟨20, 10, false⟩ _ rfl (by simp [new_buf])
    (new_buf 128 false).2

example : ∃ len s' n a b, rc6Data 40000 = some len ∧
    (Sender.new 96 true).load (rc6Encode len ⟨70, 2, true⟩) = some s' ∧
    pollRun (rc6Decoder ⟨true, 32⟩ (rc6Table 40000)) id (s'.pins n) =
      some (List.replicate a (.ok none) ++ [.ok (some ⟨70, 2, true⟩)] ++
        List.replicate b (.ok none)) :=
  C45_rc6_end_to_end ⟨true, 32⟩ (by decide) 40000 (by decide) (by decide) _
    (rc6Spans_eq (.inl rfl) _ (by decide)) id ⟨70, 2, true⟩ _ rfl (by simp [new_buf])
    (new_buf 96 true).2

end Infrared
