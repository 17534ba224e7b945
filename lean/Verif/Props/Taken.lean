import Verif.Spec.Taken
import Verif.Props.SessionTime

/-!
# C110: which commands a sender takes, at any distances
-/

namespace Infrared
open Spec

variable {A C C' K : Type}

theorem session_cons (enc : A → Encode) (x : A × Nat) (l : List (A × Nat)) :
    session enc (x :: l) = .load (enc x.1) :: (List.replicate x.2 .tick ++ session enc l) := by
  rw [session, List.flatMap_cons, List.cons_append]
  rfl

theorem calls_load {s s' : Sender} {enc : Encode} (h : s.load enc = some s') (cs : List SenderCall) :
    s.calls (.load enc :: cs) = s'.calls cs := by
  rw [Sender.calls, h, Option.bind_some]

/-- The general form: `Inv` holds of a sender that is not busy. -/
theorem calls_taken (enc : A → Encode) (busy : A → Nat) (Ok : A → Prop) (Inv : Sender → Prop)
    (hload : ∀ s c, Inv s → Ok c → ∃ s', s.load (enc c) = some s' ∧ BusyFor s' (busy c) ∧
      (∀ k, busy c < k → Inv (s'.ticks k)) ∧ ∀ c', Ok c' → s'.load (enc c') = s.load (enc c'))
    (l : List (A × Nat)) : ∀ (s : Sender) (c : A) (d : Nat), Inv s → Ok c → (∀ x ∈ l, Ok x.1) →
    s.calls (session enc ((c, d) :: l)) = s.calls (session enc (takenFrom busy c d l)) := by
  induction l with
  | nil => intro s c d _ _ _; rfl
  | cons x l ih =>
    intro s c d hs hc hl
    have hx := hl x (by simp)
    have hl' : ∀ y ∈ l, Ok y.1 := fun y hy => hl y (by simp [hy])
    obtain ⟨s', h1, h2, h3, h4⟩ := hload s c hs hc
    rw [takenFrom]
    split
    · rename_i h
      subst h
      rw [← ih s x.1 x.2 hs hx hl', session_cons, session_cons, calls_load h1, List.replicate_zero, List.nil_append,
        Sender.calls, h4 _ hx]
      rfl
    · rename_i h
      split
      · rename_i hb
        have hn : ¬ (s'.ticks d).buffer.status = .idle := by rw [h2 d]; omega
        rw [← ih s c (d + x.2) hs hc hl', session_cons, session_cons, session_cons, calls_load h1, calls_load h1]
        dsimp only
        rw [calls_ticks, calls_load (show (s'.ticks d).load (enc x.1) = some (s'.ticks d) from if_neg hn),
          ← calls_ticks, ← List.append_assoc, List.replicate_append_replicate]
      · rename_i hb
        rw [session_cons enc (c, d) (x :: l), session_cons enc (c, d) (takenFrom busy x.1 x.2 l), calls_load h1, calls_load h1]
        dsimp only
        rw [calls_ticks, calls_ticks, show x = (x.1, x.2) from rfl, ih (s'.ticks d) x.1 x.2 (h3 d (by omega)) hx hl']

theorem takenFrom_mem (busy : A → Nat) (l : List (A × Nat)) : ∀ (c : A) (d : Nat), ∀ y ∈ takenFrom busy c d l,
    y.1 = c ∨ ∃ x ∈ l, y.1 = x.1 := by
  induction l with
  | nil => intro c d y hy; simp only [takenFrom, List.mem_singleton] at hy; exact .inl (by rw [hy])
  | cons x l ih =>
    intro c d y hy
    have step : ∀ c' d', y ∈ takenFrom busy c' d' l → c' = c ∨ c' = x.1 → y.1 = c ∨ ∃ z ∈ x :: l, y.1 = z.1 := by
      intro c' d' h hc
      rcases ih c' d' y h with h | ⟨z, hz, h⟩
      · rcases hc with rfl | rfl
        · exact .inl h
        · exact .inr ⟨x, by simp, h⟩
      · exact .inr ⟨z, by simp [hz], h⟩
    rw [takenFrom] at hy
    split at hy
    · exact step _ _ hy (.inr rfl)
    · split at hy
      · exact step _ _ hy (.inl rfl)
      · rcases List.mem_cons.mp hy with rfl | hy
        · exact .inl rfl
        · exact step _ _ hy (.inr rfl)

theorem taken_mem (busy : A → Nat) (l : List (A × Nat)) : ∀ y ∈ taken busy l, ∃ x ∈ l, y.1 = x.1 := by
  intro y hy
  cases l with
  | nil => cases hy
  | cons x l =>
    rcases takenFrom_mem busy l x.1 x.2 y hy with h | ⟨z, hz, h⟩
    · exact ⟨x, by simp, h⟩
    · exact ⟨z, by simp [hz], h⟩

theorem taken_ticks (busy : A → Nat) (l : List (A × Nat)) : sessionTicks (taken busy l) = sessionTicks l := by
  have h : ∀ (l : List (A × Nat)) (c : A) (d : Nat), sessionTicks (takenFrom busy c d l) = d + sessionTicks l := by
    intro l
    induction l with
    | nil => intro c d; simp [takenFrom, sessionTicks]
    | cons x l ih =>
      intro c d
      rw [takenFrom]
      simp only [sessionTicks, List.map_cons, List.sum_cons] at ih ⊢
      split
      · rw [ih]; omega
      · split
        · rw [ih]; omega
        · rw [List.map_cons, List.sum_cons, ih]
  cases l with
  | nil => rfl
  | cons x l => rw [taken, h]; simp [sessionTicks]

/-- The ticks for which a NEC command keeps a sender with `k` spare slots busy. -/
def necBusy (v : NecVariant C) (data : NecData) (k : Nat) (c : C) : Nat :=
  frameTicks data.headerHigh data.headerLow data.dataHigh data.dataZeroLow data.dataOneLow (ones ((v.pack c).getD 0)) + k + 1

theorem nec_taken_load (v : NecVariant C) (hv : v.Shipped) (f : Nat) (hlo : 20000 ≤ f) (data : NecData)
    (hdata : necData v.pulseDistance f = some data) (k : Nat) (s : Sender) (c : C)
    (hs : s.buffer.status = .idle ∧ s.buffer.ptb.buf.length = 67 + k ∧ s.buffer.ptb.buf.drop 67 = List.replicate k 0)
    (hc : (v.pack c).isSome = true) :
    ∃ s', s.load (necEncode v data c) = some s' ∧ BusyFor s' (necBusy v data k c) ∧
      (∀ n, necBusy v data k c < n → (s'.ticks n).buffer.status = .idle ∧ (s'.ticks n).buffer.ptb.buf.length = 67 + k ∧
        (s'.ticks n).buffer.ptb.buf.drop 67 = List.replicate k 0) ∧
      ∀ c', (v.pack c').isSome = true → s'.load (necEncode v data c') = s.load (necEncode v data c') := by
  obtain ⟨hidle, hlen, hz⟩ := hs
  obtain ⟨w, hw⟩ := Option.isSome_iff_exists.mp hc
  obtain ⟨h1, h2⟩ := C38_nec_encode v data c w hw
  obtain ⟨p1, p2, p3, p4, p5⟩ := necData_pos (by omega) hdata hv
  have hds := necWave_pos _ _ _ _ _ w p1 p2 p3 p4 p5
  have hsum := necWave_sum data.headerHigh data.headerLow data.dataHigh data.dataZeroLow data.dataOneLow w
  have hl : (necWave data.headerHigh data.headerLow data.dataHigh data.dataZeroLow data.dataOneLow w).tail.length = 66 := by
    rw [List.length_tail, h2]
  have h1' : Writes (necEncode v data c)
    (0 :: (necWave data.headerHigh data.headerLow data.dataHigh data.dataZeroLow data.dataOneLow w).tail) := h1
  obtain ⟨s', e1, e2, -⟩ := C100_busy s hidle _ _ h1' (by intro h; rw [h] at hl; simp at hl) hds (by omega) (by
    rw [hl, hz]; intro d hd; rw [(List.mem_replicate.mp hd).2]; decide)
  rw [hl, hz, hsum] at e2
  have e2' : BusyFor s' (necBusy v data k c) := by
    rw [necBusy, hw]
    simpa [frameTicks] using e2
  have hload : ∀ (s : Sender) (c : C), (v.pack c).isSome = true → s.buffer.status = .idle → s.buffer.ptb.buf.length = 67 + k → ∃ wave,
      wave.length = 67 ∧ s.load (necEncode v data c) = some
        { s with counter := 0, buffer :=
          { ptb := { buf := wave ++ s.buffer.ptb.buf.drop 67, offset := 67 }, pos := 0, tsLastedge := 0, status := .idle } } ∧
      ∀ s' : Sender, s'.pinEnabled = s.pinEnabled → s'.buffer.status = .idle → s'.buffer.ptb.buf.length = 67 + k →
        s'.buffer.ptb.buf.drop 67 = s.buffer.ptb.buf.drop 67 →
        s'.load (necEncode v data c) = s.load (necEncode v data c) := by
    intro s c hc hi hln
    obtain ⟨w, hw⟩ := Option.isSome_iff_exists.mp hc
    obtain ⟨g1, g2⟩ := C38_nec_encode v data c w hw
    have key : ∀ s : Sender, s.buffer.status = .idle → s.buffer.ptb.buf.length = 67 + k →
        s.load (necEncode v data c) = some { s with counter := 0, buffer :=
          { ptb := { buf := necWave data.headerHigh data.headerLow data.dataHigh data.dataZeroLow data.dataOneLow w ++
              s.buffer.ptb.buf.drop 67, offset := 67 }, pos := 0, tsLastedge := 0, status := .idle } } := by
      intro s hi hln
      have g := g1 s.buffer.ptb.buf
      rw [if_pos (by omega), g2] at g
      rw [Sender.load, if_pos hi]
      simp only [PulsedataSender.loadCommand, PulsedataSender.reset, PulsedataBuffer.reset, PulsedataBuffer.load, List.drop_zero,
        Nat.zero_le, if_true, g, List.take_zero, List.nil_append, Nat.zero_add, Option.bind_eq_bind, Option.bind_some]
    refine ⟨_, g2, key s hi hln, fun s' q1 q2 q3 q4 => ?_⟩
    rw [key s hi hln, key s' q2 q3, q4]
    cases s; cases s'
    simp only at q1
    rw [q1]
  obtain ⟨wave, g1, g2, -⟩ := hload s c hc hidle hlen
  rw [e1, Option.some.injEq] at g2
  have b1 : s'.buffer.ptb.buf.drop 67 = s.buffer.ptb.buf.drop 67 := by
    rw [g2]
    exact List.drop_left' g1
  have b2 : s'.buffer.ptb.buf.length = 67 + k := by
    rw [g2]
    show (wave ++ s.buffer.ptb.buf.drop 67).length = _
    rw [List.length_append, g1, hz, List.length_replicate]
  refine ⟨s', e1, e2', fun n hn => ⟨(e2' n).mpr (.inr hn), by rw [ticks_buf]; exact b2, by rw [ticks_buf, b1]; exact hz⟩, fun c' hc' => ?_⟩
  obtain ⟨-, -, -, g4⟩ := hload s c' hc' hidle hlen
  exact g4 s' (by rw [g2]) (by rw [g2]) b2 b1

/-- **C110**: an idle sender of the NEC family is given any commands, at any distances.  It behaves as if it had been given
only those that it takes: a command is lost if it comes while an earlier one keeps the sender busy, which is for the length
of its frame and one tick for each spare slot and the stop mark; and one that comes before the first tick takes the place of
the earlier one. -/
theorem C110_nec (v : NecVariant C) (hv : v.Shipped) (f : Nat) (hlo : 20000 ≤ f) (data : NecData)
    (hdata : necData v.pulseDistance f = some data) (s : Sender) (hidle : s.buffer.status = .idle) (k : Nat)
    (hlen : s.buffer.ptb.buf.length = 67 + k) (hz : s.buffer.ptb.buf.drop 67 = List.replicate k 0)
    (cmds : List (C × Nat)) (hcmds : ∀ x ∈ cmds, (v.pack x.1).isSome = true) :
    s.calls (session (necEncode v data) cmds) =
      s.calls (session (necEncode v data) (taken (fun c => frameTicks data.headerHigh data.headerLow data.dataHigh
        data.dataZeroLow data.dataOneLow (ones ((v.pack c).getD 0)) + k + 1) cmds)) := by
  cases cmds with
  | nil => rfl
  | cons x l =>
    exact calls_taken (necEncode v data) (necBusy v data k) (fun c => (v.pack c).isSome = true)
      (fun s => s.buffer.status = .idle ∧ s.buffer.ptb.buf.length = 67 + k ∧ s.buffer.ptb.buf.drop 67 = List.replicate k 0)
      (fun s c hs hc => nec_taken_load v hv f hlo data hdata k s c hs hc) l s x.1 x.2 ⟨hidle, hlen, hz⟩
      (hcmds x (by simp)) (fun y hy => hcmds y (by simp [hy]))

/-- C110, what is heard: if the commands that are taken are 108 ms or more apart (and one tick per spare slot), a receiver
reports exactly these, whatever else the sender was given in between. -/
theorem C110_heard (t : Target) (fs : Nat)
    (hfs : 21000 ≤ fs ∨ (20000 ≤ fs ∧ fs % 1000 = 0)) (f : Nat) (hle : fs ≤ f) (hf : f < 2 ^ 32)
    (v : NecVariant C) (hv : v.Shipped) (data : NecData) (hdata : necData v.pulseDistance fs = some data)
    (tbl : PulseSpans) (htbl : necSpans t Mono.u32 v f = some tbl) (conv : C → K)
    (cmds : List (C × Nat)) (hear : C → C)
    (hcmds : ∀ x ∈ cmds, ∃ w, v.pack x.1 = some w ∧ v.unpack w false = some (hear x.1))
    (s : Sender) (hidle : s.buffer.status = .idle) (k : Nat) (hlen : s.buffer.ptb.buf.length = 67 + k)
    (hz : s.buffer.ptb.buf.drop 67 = List.replicate k 0) (took : List (C × Nat))
    (htook : taken (fun c => frameTicks data.headerHigh data.headerLow data.dataHigh
      data.dataZeroLow data.dataOneLow (ones ((v.pack c).getD 0)) + k + 1) cmds = took)
    (hticks : ∀ x ∈ took, 108 * fs + 1000 * k ≤ 1000 * x.2 ∧ x.2 * f / fs + 1 < 2 ^ 32) :
    ∃ s' levels, s.calls (session (necEncode v data) cmds) = some (s', levels) ∧
      s'.buffer.status = .idle ∧ ∀ pause phase n, phase < fs →
      Pause tbl 32 [0, 1] (0, reading fs f phase pause + 1) →
      reading fs f phase (pause + sessionTicks cmds) < n →
      (pollRun (necDecoder t Mono.u32 tbl v) conv (overhear fs f phase pause levels n)).map said =
        some (oks (took.map fun x => conv (hear x.1))) := by
  subst htook
  rw [C110_nec v hv fs (by omega) data hdata s hidle k hlen hz cmds fun x hx => by
    obtain ⟨w, h, -⟩ := hcmds x hx
    rw [h]; rfl]
  rw [← taken_ticks (fun c => frameTicks data.headerHigh data.headerLow data.dataHigh
    data.dataZeroLow data.dataOneLow (ones ((v.pack c).getD 0)) + k + 1) cmds]
  refine C57_nec_session t fs hfs f hle hf v hv data hdata tbl htbl conv _ hear (fun x hx => ?_) s hidle k hlen hz hticks
  obtain ⟨y, hy, e⟩ := taken_mem _ _ x hx
  rw [e]
  exact hcmds y hy

/-- C110, passing on (C104): a program polls any receiver on any line and sends what is reported.  Reports may come at any
distances; a receiver of the program's output reports exactly those that the sender takes, if these are 108 ms or more
apart. -/
theorem C110_relay (D : Decoder C') (convert : C' → C) (t : Target) (fs : Nat)
    (hfs : 21000 ≤ fs ∨ (20000 ≤ fs ∧ fs % 1000 = 0)) (f : Nat) (hle : fs ≤ f) (hf : f < 2 ^ 32)
    (v : NecVariant C) (hv : v.Shipped) (data : NecData) (hdata : necData v.pulseDistance fs = some data)
    (tbl : PulseSpans) (htbl : necSpans t Mono.u32 v f = some tbl) (conv : C → K)
    (s : Sender) (hs : Silent s) (k : Nat) (hlen : s.buffer.ptb.buf.length = 67 + k)
    (hz : s.buffer.ptb.buf.drop 67 = List.replicate k 0)
    (samples : List Bool) (outs : List (Res C)) (hpoll : pollRun D convert samples = some outs) (hear : C → C)
    (hcmds : ∀ x ∈ spaced outs, ∃ w, v.pack x.1 = some w ∧ v.unpack w false = some (hear x.1)) (took : List (C × Nat))
    (htook : taken (fun c => frameTicks data.headerHigh data.headerLow data.dataHigh
      data.dataZeroLow data.dataOneLow (ones ((v.pack c).getD 0)) + k + 1) (spaced outs) = took)
    (hticks : ∀ x ∈ took, 108 * fs + 1000 * k ≤ 1000 * x.2 ∧ x.2 * f / fs + 1 < 2 ^ 32) :
    ∃ levels, relayRun D convert (necEncode v data) s samples = some levels ∧
      ∀ pause phase n, phase < fs → Pause tbl 32 [0, 1] (0, reading fs f phase (pause + quietPolls outs) + 1) →
      reading fs f phase (pause + samples.length) < n →
      (pollRun (necDecoder t Mono.u32 tbl v) conv (overhear fs f phase pause levels n)).map said =
        some (oks (took.map fun x => conv (hear x.1))) := by
  obtain ⟨s', levels, h1, -, h2⟩ := relay_session D convert (necEncode v data) s hs samples outs hpoll _
    fun s1 h1 => C110_heard t fs hfs f hle hf v hv data hdata tbl htbl conv (spaced outs) hear hcmds s1
      (by rw [h1]; exact hs.1) k (by rw [h1]; exact hlen) (by rw [h1]; exact hz) took htook hticks
  refine ⟨_, h1, fun pause phase n hp hg hn => ?_⟩
  rw [overhear_silent]
  refine h2 (pause + quietPolls outs) phase n hp hg ?_
  rw [Nat.add_assoc, spaced_total, polled_length D convert samples outs hpoll]
  exact hn

/-! ### The hypotheses can be met -/

/-- Four commands at 20 kHz, 0, 1200 and 1200 ticks apart, in a buffer with 61 spare slots: a frame takes 1326 ticks and
keeps the sender busy for 1388.  The second takes the place of the first, the third is lost and the fourth is sent. -/
theorem taken_example (a b c d : NecCommand) :
    taken (fun c => frameTicks 180 90 11 11 33 (ones ((Infrared.nec.pack c).getD 0)) + 61 + 1)
      [(a, 0), (b, 1200), (c, 1200), (d, 2300)] = [(b, 2400), (d, 2300)] := by
  have h : ∀ c : NecCommand, ones ((Infrared.nec.pack c).getD 0) = 16 := fun c =>
    (C100_ones c ⟨0, 0, false⟩ ⟨0, 0, false⟩).1
  simp only [h]
  simp [taken, takenFrom, frameTicks]

example (t : Target) (a b c d : NecCommand) :
    ∃ data s' levels, necData Infrared.nec.pulseDistance 20000 = some data ∧
      (Sender.new 128 false).calls (session (necEncode Infrared.nec data) [(a, 0), (b, 1200), (c, 1200), (d, 2300)]) =
        some (s', levels) ∧
      (pollRun (necDecoder t Mono.u32 (necTable 20000) Infrared.nec) id (overhear 20000 20000 0 400 levels 6000)).map said =
        some (oks [{ b with rep := false }, { d with rep := false }]) := by
  have hdata : necData Infrared.nec.pulseDistance 20000 = some ⟨180, 90, 45, 11, 11, 33⟩ := by decide +kernel
  obtain ⟨s', levels, h1, -, h2⟩ := C110_heard t 20000 (.inr (by decide)) 20000 (by decide) (by decide)
    Infrared.nec (.inl rfl) _ hdata (necTable 20000) (necSpans_standard (.inl rfl) t (by omega) _ rfl) id
    [(a, 0), (b, 1200), (c, 1200), (d, 2300)]
    (fun c => { c with rep := false }) (fun x _ => ⟨x.1.pack, rfl, (C01_nec_roundtrip { x.1 with rep := false }).2⟩)
    (Sender.new 128 false) rfl 61 rfl rfl _ (taken_example a b c d) (by simp)
  exact ⟨_, s', levels, hdata, h1, h2 400 0 6000 (by decide)
    (pause_long (.inl rfl) (by decide) (by decide) (by decide)
      (necSpans_standard (.inl rfl) t (by omega) Infrared.nec rfl) (by decide) (by decide))
    (by simp [sessionTicks, reading])⟩

/-- A remote that sends a command every 110 ms (2200 ticks at 20 kHz) to a program whose buffer has 1000 spare slots: every
other command is lost, since one keeps the sender busy for 2327 ticks. -/
example (a b c : NecCommand) :
    taken (fun c => frameTicks 180 90 11 11 33 (ones ((Infrared.nec.pack c).getD 0)) + 1000 + 1)
      [(a, 2200), (b, 2200), (c, 4000)] = [(a, 4400), (c, 4000)] := by
  have h : ∀ c : NecCommand, ones ((Infrared.nec.pack c).getD 0) = 16 := fun c =>
    (C100_ones c ⟨0, 0, false⟩ ⟨0, 0, false⟩).1
  simp only [h]
  simp [taken, takenFrom, frameTicks]

end Infrared
