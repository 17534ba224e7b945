import Verif.Lemmas.Drivers
import Verif.Props.Robust
import Verif.Props.Nec

/-!
# C33–C37: the receiver front ends
-/

namespace Infrared

open Spec

variable {C K E : Type}

/-! ## C33: buffers -/

theorem rc5_commits (t : Target) (tbl : PulseSpans) : (rc5Decoder t tbl).Commits :=
  fun _ _ _ _ _ => ⟨_, rfl⟩

theorem rc6_commits (t : Target) (tbl : PulseSpans) : (rc6Decoder t tbl).Commits :=
  fun _ _ _ _ _ => ⟨_, rfl⟩

theorem sbp_commits (t : Target) (m : Mono) (tbl : PulseSpans) : (sbpDecoder t m tbl).Commits :=
  fun _ _ _ _ _ => ⟨_, rfl⟩

theorem DenonState.toState_done {st : DenonState} (h : st.toState = .done) : st = .done := by
  cases st <;> first | rfl | (simp [DenonState.toState] at h)

theorem NecState.toState_done {st : NecState} (h : st.toState = .done) :
    st = .done ∨ st = .repeatDone := by
  cases st <;> first | exact .inl rfl | exact .inr rfl | (simp [NecState.toState] at h)

theorem denon_event_done {t : Target} {m : Mono} {tbl : PulseSpans} {s s' : DenonDecoder}
    {edge : Bool} {dt : Nat} (h : DenonDecoder.event t m tbl s edge dt = some (s', .done)) :
    s'.state = .done := by
  simp only [DenonDecoder.event] at h
  cases edge with
  | false =>
    simp only [Bool.false_eq_true, if_false, Option.some.injEq, Prod.mk.injEq] at h
    obtain ⟨rfl, h2⟩ := h
    exact DenonState.toState_done h2
  | true =>
    simp only [if_true, Option.bind_eq_bind] at h
    rcases ha : m.add t s.dtSave dt with _ | total
    · simp [ha] at h
    simp only [ha, Option.bind_some] at h
    rcases hb : DenonDecoder.transition t s.state s.buf (DenonPulse.classify tbl total) with _ | ⟨st, b⟩
    · simp [hb] at h
    simp only [hb, Option.bind_some, Option.some.injEq, Prod.mk.injEq] at h
    obtain ⟨rfl, h2⟩ := h
    exact DenonState.toState_done h2

theorem denon_commits (t : Target) (m : Mono) (tbl : PulseSpans) :
    (denonDecoder t m tbl).Commits := fun _ _ _ s' h =>
  ⟨_, if_pos (c := DenonDecoder.state s' = .done) (denon_event_done h)⟩

theorem nec_event_done {t : Target} {m : Mono} {tbl : PulseSpans} {s s' : NecDecoder}
    {edge : Bool} {dt : Nat} (h : NecDecoder.event t m tbl s edge dt = some (s', .done)) :
    s'.state = .done ∨ s'.state = .repeatDone := by
  simp only [NecDecoder.event] at h
  cases edge with
  | false =>
    simp only [Bool.false_eq_true, if_false, Option.some.injEq, Prod.mk.injEq] at h
    obtain ⟨rfl, h2⟩ := h
    exact NecState.toState_done h2
  | true =>
    simp only [if_true, Option.bind_eq_bind] at h
    rcases ha : m.add t dt s.dtSave with _ | total
    · simp [ha] at h
    simp only [ha, Option.bind_some] at h
    rcases hb : NecDecoder.transition t s.state s.bitbuf (NecPulse.classify tbl total) with _ | ⟨st, b⟩
    · simp [hb] at h
    simp only [hb, Option.bind_some, Option.some.injEq, Prod.mk.injEq] at h
    obtain ⟨rfl, h2⟩ := h
    exact NecState.toState_done h2

/-- NEC variants that accept every word (all but Apple). -/
def NecVariant.Total (v : NecVariant C) : Prop := ∀ w r, ∃ c, v.unpack w r = some c

theorem nec_command_some {v : NecVariant C} (hv : v.Total) {s : NecDecoder}
    (h : s.state = .done ∨ s.state = .repeatDone) : ∃ c, NecDecoder.command v s = some c := by
  rcases h with h | h
  · obtain ⟨c, hc⟩ := hv s.bitbuf false
    exact ⟨c, by simp [NecDecoder.command, h, hc]⟩
  · obtain ⟨c, hc⟩ := hv s.bitbuf true
    exact ⟨c, by simp [NecDecoder.command, h, hc]⟩

theorem nec_commits (t : Target) (m : Mono) (tbl : PulseSpans) (v : NecVariant C) (hv : v.Total) :
    (necDecoder t m tbl v).Commits := fun _ _ _ _ h => nec_command_some hv (nec_event_done h)

theorem nec_total : nec.Total := fun _ _ => ⟨_, rfl⟩

theorem buffer_start (D : Decoder C) (buf : List Nat) {conv : C → K} {outs : List (Res K)}
    (h : results D conv (alternating true buf) = some outs) :
    ∃ s o, runStep D.step (BufferIterator.new D buf).decoder
      (alternating (decide ((BufferIterator.new D buf).pos % 2 = 0))
        ((BufferIterator.new D buf).buf.drop (BufferIterator.new D buf).pos)) = some (s, o) ∧
      outs = o.map (Res.map conv) :=
  results_inv h

/-- **C33**, what is true for every protocol whose finished frames always give a command:
collecting the iterator returns the commands an event-driven receiver returns for the durations
with alternating edges (first a rising one), up to the first decoding error. -/
theorem C33_buffer_collect_partial (D : Decoder C) (hD : D.Commits) (conv : C → K) (buf : List Nat)
    (outs : List (Res K)) (h : results D conv (alternating true buf) = some outs) :
    bufferCollect D conv buf = some (commands (outs.takeWhile isOk)) := by
  obtain ⟨s, o, hrun, rfl⟩ := buffer_start D buf h
  exact collect_spec D hD conv (buf.length + 1) (BufferIterator.new D buf)
    (by simp [BufferIterator.new]) hrun

/-- Calling `next` again and again (also beyond a `None`) reports everything: commands as `Some`,
errors as `None`, and `None` forever at the end of the buffer. -/
theorem C33_buffer_next_sequence (D : Decoder C) (hD : D.Commits) (conv : C → K) (buf : List Nat)
    (outs : List (Res K)) (h : results D conv (alternating true buf) = some outs) (n : Nat) :
    (BufferIterator.new D buf).nextN D conv n =
      some ((reports outs ++ List.replicate n none).take n) := by
  obtain ⟨s, o, hrun, rfl⟩ := buffer_start D buf h
  exact nextN_spec D hD conv n (BufferIterator.new D buf) hrun

theorem takeWhile_all_ok (outs : List (Res K)) (h : ∀ x ∈ outs, ∃ c, x = .ok c) :
    outs.takeWhile isOk = outs := by
  induction outs with
  | nil => rfl
  | cons x xs ih =>
    obtain ⟨c, rfl⟩ := h x (by simp)
    rw [List.takeWhile_cons_of_pos rfl, ih fun y hy => h y (by simp [hy])]

/-- **C33** for RC5, unconditionally. -/
theorem C33_buffer_rc5 (t : Target) (hus : 16 ≤ t.usizeBits) (tbl : PulseSpans)
    (hlen : tbl.spans.length ≤ 8) (conv : Rc5Command → K) (buf : List Nat) (outs : List (Res K))
    (h : results (rc5Decoder t tbl) conv (alternating true buf) = some outs) :
    bufferCollect (rc5Decoder t tbl) conv buf = some (commands outs) := by
  rw [C33_buffer_collect_partial _ (rc5_commits t tbl) conv buf outs h,
    takeWhile_all_ok _ (C28_rc5_no_error t hus tbl hlen conv _ outs h)]

/-- **C33** for RC6, unconditionally. -/
theorem C33_buffer_rc6 (t : Target) (hus : 16 ≤ t.usizeBits) (tbl : PulseSpans)
    (hlen : tbl.spans.length ≤ 8) (conv : Rc6Command → K) (buf : List Nat) (outs : List (Res K))
    (h : results (rc6Decoder t tbl) conv (alternating true buf) = some outs) :
    bufferCollect (rc6Decoder t tbl) conv buf = some (commands outs) := by
  rw [C33_buffer_collect_partial _ (rc6_commits t tbl) conv buf outs h,
    takeWhile_all_ok _ (C28_rc6_no_error t hus tbl hlen conv _ outs h)]

/-- **C33** for Denon, unconditionally. -/
theorem C33_buffer_denon (t : Target) (m : Mono) (tbl : PulseSpans) (conv : DenonCommand → K)
    (buf : List Nat) (outs : List (Res K))
    (h : results (denonDecoder t m tbl) conv (alternating true buf) = some outs) :
    bufferCollect (denonDecoder t m tbl) conv buf = some (commands outs) := by
  rw [C33_buffer_collect_partial _ (denon_commits t m tbl) conv buf outs h,
    takeWhile_all_ok _ (C28_denon_no_error t m tbl conv _ outs h)]

/-- A NEC recording: a spurious short pulse after a header, then a complete frame. -/
def glitchedRecording : List Nat :=
  [0, 9000, 4500, 100, 100] ++ (nominalNec 0xF708FB04#32).flatMap fun p => [p.1, p.2]

/-- The unrestricted claim is false: after the error nothing more is collected, although an
event-driven receiver returns the command that follows. -/
theorem C33_collect_stops_at_error :
    bufferCollect (necDecoder ⟨true, 32⟩ Mono.u32 (necTable 1000000) nec) id glitchedRecording =
      some [] ∧
    (results (necDecoder ⟨true, 32⟩ Mono.u32 (necTable 1000000) nec) id
      (alternating true glitchedRecording)).map commands =
        some [{ addr := 4, cmd := 8, rep := false }] := by
  have h : results (necDecoder ⟨true, 32⟩ Mono.u32 (necTable 1000000) nec) id
      (alternating true glitchedRecording) =
        some ([.ok none, .ok none, .ok none, .ok none, .error .data] ++ List.replicate 65 (.ok none) ++
          [.ok (some { addr := 4, cmd := 8, rep := false })]) := rfl
  constructor
  · rw [C33_buffer_collect_partial _ (nec_commits _ _ _ _ nec_total) _ _ _ h]; rfl
  · rw [h]; rfl

/-- A frame of another vendor, then an Apple frame (menu key). -/
def mixedRecording : List Nat :=
  0 :: ((nominalNec 0xF708FB04#32).flatMap fun p => [p.1, p.2]) ++
    (nominalNec 0x9B0687EE#32).flatMap fun p => [p.1, p.2]

/-- Apple receivers are not covered by `C33_buffer_collect_partial`: there the iterator also stops
at the first complete frame of another vendor, although no error occurred. -/
theorem C33_apple_stops_at_foreign_frame :
    bufferCollect (necDecoder ⟨true, 32⟩ Mono.u32 (necTable 1000000) appleNec) id mixedRecording =
      some [] ∧
    (results (necDecoder ⟨true, 32⟩ Mono.u32 (necTable 1000000) appleNec) id
      (alternating true mixedRecording)).map commands =
        some [{ commandPage := 0x0E, command := 0x03, deviceId := 0x9B, rep := false }] := by
  constructor
  · have h1 : ∃ it, (BufferIterator.new (necDecoder ⟨true, 32⟩ Mono.u32 (necTable 1000000) appleNec)
        mixedRecording).next _ id = some (it, none) := by
      have hl : mixedRecording.length = 133 := by
        simp [mixedRecording, nominalNec, List.length_flatMap, Function.comp_def]
        rfl
      rw [next_eq_fuel _ _ 200 _ (by simp only [BufferIterator.new]; rw [hl]; omega)]
      exact ⟨_, rfl⟩
    obtain ⟨it, h1⟩ := h1
    simp only [bufferCollect, BufferIterator.collectFuel, h1]
  · rfl

/-- Non-vacuity: a clean recording of two frames. -/
example : bufferCollect (necDecoder ⟨true, 32⟩ Mono.u32 (necTable 1000000) nec) id
      (0 :: ((nominalNec 0xF708FB04#32).flatMap fun p => [p.1, p.2]) ++
        (nominalNec 0x00FF00FF#32).flatMap fun p => [p.1, p.2]) =
    some [{ addr := 4, cmd := 8, rep := false }, { addr := 255, cmd := 255, rep := false }] := by
  have h : results (necDecoder ⟨true, 32⟩ Mono.u32 (necTable 1000000) nec) id
      (alternating true (0 :: ((nominalNec 0xF708FB04#32).flatMap fun p => [p.1, p.2]) ++
        (nominalNec 0x00FF00FF#32).flatMap fun p => [p.1, p.2])) =
        some (List.replicate 66 (.ok none) ++ [.ok (some { addr := 4, cmd := 8, rep := false })] ++
          List.replicate 65 (.ok none) ++
          [.ok (some { addr := 255, cmd := 255, rep := false })]) := rfl
  rw [C33_buffer_collect_partial _ (nec_commits _ _ _ _ nec_total) _ _ _ h]
  rfl

/-! ## C34: polling -/

theorem poll_spec (D : Decoder C) (conv : C → K) (samples : List Bool) (p : PeriodicPoll D)
    (n : Nat) (h1 : p.clock < 2 ^ 32) (h2 : p.lastEdge < 2 ^ 32)
    (h3 : (2 ^ 32 + p.clock - p.lastEdge) % 2 ^ 32 = n % 2 ^ 32) :
    (runStep (fun p s => PeriodicPoll.pollBase D conv p s) p samples).map Prod.snd =
      (((runStep D.step p.decoder ((sampledEdges p.edge n samples).filterMap id)).map Prod.snd).map
        (List.map (Res.map conv))).map (placeResults (sampledEdges p.edge n samples)) := by
  induction samples generalizing p n with
  | nil => rfl
  | cons s ss ih =>
    by_cases hs : s = p.edge
    · subst hs
      have hstep : PeriodicPoll.pollBase D conv p p.edge =
          some ({ p with clock := wrappingAdd 32 p.clock 1 }, .ok none) := by
        simp [PeriodicPoll.pollBase]
      have := ih { p with clock := wrappingAdd 32 p.clock 1 } (n + 1)
        (Nat.mod_lt _ (by decide)) h2 (by
          simp only [wrappingAdd, Nat.reducePow] at h1 h2 h3 ⊢
          omega)
      dsimp only at this
      simp only [runStep, hstep, sampledEdges, if_true, List.filterMap_cons, id]
      rcases h4 : runStep (fun p s => PeriodicPoll.pollBase D conv p s)
        { p with clock := wrappingAdd 32 p.clock 1 } ss with _ | q
      · rw [h4] at this
        rcases h5 : runStep D.step p.decoder ((sampledEdges p.edge (n + 1) ss).filterMap id) with _ | q'
        · rfl
        · rw [h5] at this; simp at this
      · rw [h4] at this
        rcases h5 : runStep D.step p.decoder ((sampledEdges p.edge (n + 1) ss).filterMap id) with _ | q'
        · rw [h5] at this; simp at this
        · rw [h5] at this
          simp only [Option.map_some, Option.some.injEq] at this
          simp [placeResults, this]
    · have hds : wrappingSub 32 (wrappingAdd 32 p.clock 1) p.lastEdge = (n + 1) % 2 ^ 32 := by
        simp only [wrappingAdd, wrappingSub, Nat.reducePow] at h1 h2 h3 ⊢
        omega
      have hstep : PeriodicPoll.pollBase D conv p s =
          (D.step p.decoder (s, (n + 1) % 2 ^ 32)).map fun q =>
            ({ clock := wrappingAdd 32 p.clock 1, edge := s, lastEdge := wrappingAdd 32 p.clock 1,
               decoder := q.1 }, Res.map conv q.2) := by
        simp only [PeriodicPoll.pollBase, hs, if_false, hds, Decoder.step, Option.bind_eq_bind]
        rcases D.eventTotal p.decoder s ((n + 1) % 2 ^ 32) with _ | q <;> rfl
      simp only [runStep, hstep, sampledEdges, hs, if_false, List.filterMap_cons, id]
      rcases D.step p.decoder (s, (n + 1) % 2 ^ 32) with _ | ⟨d, r⟩
      · rfl
      simp only [Option.map_some]
      have := ih { clock := wrappingAdd 32 p.clock 1, edge := s,
                   lastEdge := wrappingAdd 32 p.clock 1, decoder := d } 0
        (Nat.mod_lt _ (by decide)) (Nat.mod_lt _ (by decide)) (by
          dsimp only
          rw [Nat.add_sub_cancel]; decide)
      dsimp only at this
      rcases h4 : runStep (fun p s => PeriodicPoll.pollBase D conv p s)
        { clock := wrappingAdd 32 p.clock 1, edge := s,
          lastEdge := wrappingAdd 32 p.clock 1, decoder := d } ss with _ | q
      · rw [h4] at this
        rcases h5 : runStep D.step d ((sampledEdges s 0 ss).filterMap id) with _ | q'
        · rfl
        · rw [h5] at this; simp at this
      · rw [h4] at this
        rcases h5 : runStep D.step d ((sampledEdges s 0 ss).filterMap id) with _ | q'
        · rw [h5] at this; simp at this
        · rw [h5] at this
          simp only [Option.map_some, Option.some.injEq] at this
          simp [placeResults, this]

/-- **C34**: for every sequence of samples a polling receiver returns at each level change what an
event receiver returns for that edge with the number of polls since the previous change
(mod `2^32`), and `Ok(None)` at all other polls; it panics exactly when the event receiver does. -/
theorem C34_poll_equiv (D : Decoder C) (conv : C → K) (samples : List Bool) :
    pollRun D conv samples =
      (results D conv ((sampledEdges false 0 samples).filterMap id)).map
        (placeResults (sampledEdges false 0 samples)) := by
  rw [results_snd]
  exact poll_spec D conv samples (PeriodicPoll.new D) 0 (show 0 < 2 ^ 32 by decide)
    (show 0 < 2 ^ 32 by decide) (show (2 ^ 32 + 0 - 0) % 2 ^ 32 = 0 % 2 ^ 32 by decide)

/-- Non-vacuity: four samples, two level changes. -/
example : sampledEdges false 0 [false, true, true, false] =
    [none, some (true, 2), none, some (false, 2)] := by decide

example : ((sampledEdges false 0 (List.replicate 5 true ++ List.replicate 3 false)).filterMap id) =
    [(true, 1), (false, 5)] := by decide

/-! ## C35: timestamps -/

theorem instant_spec (m : Mono)
    (hm : ∀ t p, m.checkedSub t p = if p ≤ t then some (t - p) else none) (D : Decoder C)
    (conv : C → K) (calls : List (Bool × Nat)) (r : Receiver D) :
    (runStep (fun r (c : Bool × Nat) => Receiver.eventInstant m D conv r c.2 c.1) r calls).map
      Prod.snd = ((runStep D.step r.decoder (elapsed r.prevInstant calls)).map Prod.snd).map
        (List.map (Res.map conv)) := by
  induction calls generalizing r with
  | nil => rfl
  | cons c cs ih =>
    obtain ⟨edge, t⟩ := c
    have hstep : Receiver.eventInstant m D conv r t edge =
        (D.step r.decoder (edge, if r.prevInstant ≤ t then t - r.prevInstant else 0)).map fun q =>
          ({ prevInstant := t, decoder := q.1 }, Res.map conv q.2) := by
      have hdt : (m.checkedSub t r.prevInstant).getD 0 =
          if r.prevInstant ≤ t then t - r.prevInstant else 0 := by
        rw [hm]; split <;> rfl
      simp only [Receiver.eventInstant, hdt, Receiver.eventEdge_eq, Decoder.step]
    simp only [runStep, hstep, elapsed]
    rcases D.step r.decoder (edge, if r.prevInstant ≤ t then t - r.prevInstant else 0) with _ | ⟨d, x⟩
    · rfl
    simp only [Option.map_some]
    have := ih { prevInstant := t, decoder := d }
    dsimp only at this
    rcases h4 : runStep (fun r (c : Bool × Nat) => Receiver.eventInstant m D conv r c.2 c.1)
      { prevInstant := t, decoder := d } cs with _ | q
    · rw [h4] at this
      rcases h5 : runStep D.step d (elapsed t cs) with _ | q'
      · rfl
      · rw [h5] at this; simp at this
    · rw [h4] at this
      rcases h5 : runStep D.step d (elapsed t cs) with _ | q'
      · rw [h5] at this; simp at this
      · rw [h5] at this
        simp only [Option.map_some, Option.some.injEq] at this
        simp [this]

/-- **C35**: with a `u32` or `u64` clock, feeding timestamps to `event_instant` returns what
`event` returns for the elapsed times; a timestamp before the previous one counts as 0.
(The previous timestamp of a new receiver is 0.) -/
theorem C35_instant_equiv (m : Mono) (hm : m = Mono.u32 ∨ m = Mono.u64) (D : Decoder C)
    (conv : C → K) (calls : List (Bool × Nat)) :
    instantRun m D conv calls = results D conv (elapsed 0 calls) := by
  rw [results_snd]
  refine instant_spec m ?_ D conv calls (Receiver.new D)
  rcases hm with rfl | rfl <;> intro t p <;> rfl

/-- Timestamps of successive events, on a clock of `w` bits that started at `now`. -/
def Spec.timestamps (w : Nat) : (now : Nat) → List Ev → List (Bool × Nat)
  | _, [] => []
  | now, (edge, dt) :: es => (edge, (now + dt) % 2 ^ w) :: timestamps w (now + dt) es

theorem elapsed_timestamps (w : Nat) (evs : List Ev) (now : Nat)
    (h : now + (evs.map Prod.snd).sum < 2 ^ w) : elapsed now (timestamps w now evs) = evs := by
  induction evs generalizing now with
  | nil => rfl
  | cons e es ih =>
    obtain ⟨edge, dt⟩ := e
    simp only [List.map_cons, List.sum_cons] at h
    have hm : (now + dt) % 2 ^ w = now + dt := Nat.mod_eq_of_lt (by omega)
    have := ih (now + dt) (by omega)
    simp only [timestamps, elapsed, hm]
    rw [this]
    simp

/-- **C35**: as long as the clock does not wrap around, timestamps of a history give exactly the
results of the history. -/
theorem C35_instant_roundtrip (m : Mono) (hm : m = Mono.u32 ∨ m = Mono.u64) (D : Decoder C)
    (conv : C → K) (evs : List Ev) (h : (evs.map Prod.snd).sum < 2 ^ m.width) :
    instantRun m D conv (timestamps m.width 0 evs) = results D conv evs := by
  rw [C35_instant_equiv m hm, elapsed_timestamps _ _ _ (by simpa using h)]

/-- Time is lost when a `u32` clock wraps around: the same NEC frame, once recorded by a clock that
just started and once by a clock that wraps around in the middle of it. -/
theorem C35_wraparound_loses_frame :
    (instantRun Mono.u32 (necDecoder ⟨true, 32⟩ Mono.u32 (necTable 1000000) nec) id
      (timestamps 32 0 ((true, 0) :: pulses (nominalNec 0xF708FB04#32)))).map commands =
        some [{ addr := 4, cmd := 8, rep := false }] ∧
    (instantRun Mono.u32 (necDecoder ⟨true, 32⟩ Mono.u32 (necTable 1000000) nec) id
      (timestamps 32 4294937296 ((true, 0) :: pulses (nominalNec 0xF708FB04#32)))).map commands =
        some [] :=
  ⟨rfl, rfl⟩

/-! ## C36: MultiReceiver -/

theorem multiMake_get (cs : List Component) (i : Nat) (c : Component) (h : cs[i]? = some c) :
    (multiMake cs)[i]? = some { comp := c, recv := Receiver.new c.D } := by
  simp [multiMake, h]

theorem results_id (D : Decoder C) (evs : List Ev) :
    results D id evs = (runStep D.step D.init evs).map Prod.snd := by
  rw [results_snd]
  have : (List.map (Res.map id) : List (Res C) → List (Res C)) = id := by
    funext l
    refine Eq.trans (List.map_congr_left ?_) (List.map_id l)
    intro r _
    exact Res.map_id r
  rw [this]
  simp

/-- **C36**: slot `i` of every result equals what a stand-alone receiver of protocol `i` returns
for the same events (errors as `None`), for any list of component protocols. -/
theorem C36_multi_independent (cs : List Component) (evs : List Ev) (ss' : List Slot)
    (outs : List (List (Option AnyCommand))) (h : multiRun (multiMake cs) evs = some (ss', outs))
    (i : Nat) (c : Component) (hc : cs[i]? = some c) :
    ∃ ro, results c.D id evs = some ro ∧
      outs.map (fun row => row[i]?) = ro.map fun r => some (slotOf c.into r) := by
  obtain ⟨q, h1, h2⟩ := multiRun_some _ _ _ _ h i _ (multiMake_get cs i c hc)
  refine ⟨q.2, ?_, h2⟩
  rw [results_id]
  exact congrArg (Option.map Prod.snd) h1

/-- It panics exactly when one of the stand-alone receivers does. -/
theorem C36_multi_panics_iff (cs : List Component) (evs : List Ev) :
    multiRun (multiMake cs) evs = none ↔ ∃ c ∈ cs, results c.D id evs = none := by
  rw [multiRun_none]
  constructor
  · rintro ⟨s, hs, h⟩
    obtain ⟨c, hc, rfl⟩ := List.mem_map.mp hs
    refine ⟨c, hc, ?_⟩
    rw [results_id]
    exact congrArg (Option.map Prod.snd) h
  · rintro ⟨c, hc, h⟩
    refine ⟨_, List.mem_map.mpr ⟨c, hc, rfl⟩, ?_⟩
    rw [results_id, Option.map_eq_none_iff] at h
    exact h

/-- Every row has one entry per component. -/
theorem C36_multi_width (cs : List Component) (evs : List Ev) (ss' : List Slot)
    (outs : List (List (Option AnyCommand))) (h : multiRun (multiMake cs) evs = some (ss', outs)) :
    outs.length = evs.length ∧ ∀ row ∈ outs, row.length = cs.length := by
  have key : ∀ (evs : List Ev) (ss ss' : List Slot) outs, multiRun ss evs = some (ss', outs) →
      outs.length = evs.length ∧ ∀ row ∈ outs, row.length = ss.length := by
    intro evs
    induction evs with
    | nil =>
      intro ss ss' outs h
      simp only [multiRun, Option.some.injEq, Prod.mk.injEq] at h
      simp [← h.2]
    | cons e es ih =>
      intro ss ss' outs h
      simp only [multiRun] at h
      rcases hm : multiEvent ss e.2 e.1 with _ | rs
      · simp [hm] at h
      rw [hm] at h
      dsimp only at h
      rcases hr : multiRun (rs.map Prod.fst) es with _ | ⟨ss2, outs2⟩
      · simp [hr] at h
      simp only [hr, Option.some.injEq, Prod.mk.injEq] at h
      obtain ⟨-, rfl⟩ := h
      obtain ⟨h1, h2⟩ := ih _ _ _ hr
      have hl := mapM_length _ _ _ hm
      refine ⟨by simp [h1], ?_⟩
      intro row hrow
      rcases List.mem_cons.mp hrow with rfl | hrow
      · simp [hl]
      · rw [h2 row hrow]; simp [hl]
  have := key _ _ _ _ h
  simpa [multiMake] using this

/-- Non-vacuity: a NEC and an SBP component, one NEC frame. -/
example : (multiRun (multiMake
      [⟨_, necDecoder ⟨true, 32⟩ Mono.u32 (necTable 1000000) nec, AnyCommand.from necAC⟩,
       ⟨_, sbpDecoder ⟨true, 32⟩ Mono.u32 (sbpTable 1000000), AnyCommand.from sbpAC⟩])
      ((true, 0) :: pulses (nominalNec 0xF708FB04#32))).map (fun p => p.2[66]?) =
    some (some [some { protocol := .nec, raw := 0, address := 4, command := 8, rep := false },
      none]) := rfl

/-! ## C37: failing pins -/

/-- **C37**: calls of `event` whose pin read fails return the HAL error and otherwise have no
effect: the other calls return what a receiver returns that never saw the failing ones. -/
theorem C37_pin_event (D : Decoder C) (conv : C → K) (calls : List (Except E Bool × Nat)) :
    pinRun D conv calls =
      (results D conv (readable calls)).map (pinResults (calls.map Prod.fst)) := by
  have := pin_fill (E := E) (fun (r : Receiver D) (c : Bool × Nat) => r.eventEdge D conv c.2 c.1)
    (fun r (c : Except E Bool × Nat) => Receiver.eventPin D conv r c.1 c.2) readOf
    (by
      rintro s ⟨e | b, i⟩ e' h
      · cases h; rfl
      · cases h)
    (by
      rintro s ⟨e | b, i⟩ a h
      · cases h
      · cases h
        simp only [Receiver.eventPin, Option.bind_eq_bind]
        rcases s.eventEdge D conv i b with _ | q <;> rfl)
    (Receiver.new D) calls
  rw [goodReads_pair, goodReads_map] at this
  rw [pinRun, this, results]
  congr 1
  have hrun : ∀ (r : Receiver D) (evs : List Ev),
      (runStep (fun (r : Receiver D) (c : Bool × Nat) => r.eventEdge D conv c.2 c.1) r evs) =
        r.run D conv evs := by
    intro r evs
    induction evs generalizing r with
    | nil => rfl
    | cons e es ih =>
      simp only [runStep, Receiver.run, Receiver.event, ih]
      rcases r.eventEdge D conv e.2 e.1 with _ | ⟨a, x⟩
      · rfl
      dsimp only
      rcases a.run D conv es with _ | q <;> rfl
  rw [hrun]

/-- **C37** for `event_instant` (a failing call does not count as an edge: the next duration is
measured from the last successful call). -/
theorem C37_pin_event_instant (m : Mono) (D : Decoder C) (conv : C → K)
    (calls : List (Except E Bool × Nat)) :
    instantPinRun m D conv calls =
      (instantRun m D conv (readable calls)).map (pinResults (calls.map Prod.fst)) := by
  have := pin_fill (E := E)
    (fun (r : Receiver D) (c : Bool × Nat) => r.eventInstant m D conv c.2 c.1)
    (fun r (c : Except E Bool × Nat) => Receiver.eventInstantPin m D conv r c.1 c.2) readOf
    (by
      rintro s ⟨e | b, i⟩ e' h
      · cases h; rfl
      · cases h)
    (by
      rintro s ⟨e | b, i⟩ a h
      · cases h
      · cases h
        simp only [Receiver.eventInstantPin, Receiver.eventInstant, Option.bind_eq_bind]
        rcases Receiver.eventEdge D conv { s with prevInstant := i }
          ((m.checkedSub i s.prevInstant).getD 0) b with _ | q <;> rfl)
    (Receiver.new D) calls
  rw [goodReads_pair, goodReads_map] at this
  exact this

/-- **C37** for polling (a failing poll does not count as a sample: its time is lost). -/
theorem C37_pin_poll (D : Decoder C) (conv : C → K) (calls : List (Except E Bool)) :
    pollPinRun D conv calls =
      (pollRun D conv (readableSamples calls)).map (pinResults calls) := by
  have := pin_fill (E := E)
    (fun (p : PeriodicPoll D) (c : Bool × Unit) => p.pollBase D conv c.1)
    (fun p (c : Except E Bool) => PeriodicPoll.pollPin D conv p c) readUnit
    (by
      rintro s (e | b) e' h
      · cases h; rfl
      · cases h)
    (by
      rintro s (e | b) a h
      · cases h
      · cases h
        simp only [PeriodicPoll.pollPin, Option.bind_eq_bind]
        rcases s.pollBase D conv b with _ | q <;> rfl)
    (PeriodicPoll.new D) calls
  rw [goodReads_unit_map, runStep_map (fun (p : PeriodicPoll D) s => p.pollBase D conv s) Prod.fst,
    goodReads_unit] at this
  exact this

/-- Non-vacuity: a failing read between the two edges of a pulse. -/
example : pinRun (E := Unit) (necDecoder ⟨true, 32⟩ Mono.u32 (necTable 1000000) nec) id
    [(.ok false, 9000), (.error (), 7), (.ok true, 4500), (.ok false, 1), (.ok true, 1)] =
    some [.ok none, .error (.hal ()), .ok none, .ok none, .error .data] := rfl

end Infrared
