import Verif.Spec.Relay
import Verif.Props.Session
import Verif.Props.ManchesterSession

/-!
# C104: a program that passes on what it hears
-/

namespace Infrared
open Spec

variable {C C' K K' : Type}

/-! ### The program as calls of the sender -/

/-- What the program does with its sender, poll by poll. -/
def relayCalls (enc : K → Encode) : List (Res K) → List SenderCall
  | [] => []
  | .ok (some c) :: l => .load (enc c) :: .tick :: relayCalls enc l
  | _ :: l => .tick :: relayCalls enc l

theorem runStep_bind {S I R : Type} (f : S → I → Option (S × R)) (s : S) (e : I) (es : List I) :
    (runStep f s (e :: es)).map Prod.snd =
      (f s e).bind fun x => ((runStep f x.1 es).map Prod.snd).map fun o => x.2 :: o := by
  rw [runStep]
  rcases f s e with _ | ⟨s', r⟩
  · rfl
  · rcases h : runStep f s' es with _ | ⟨s'', o⟩ <;> simp [h]

theorem relay_from (D : Decoder C) (conv : C → K) (enc : K → Encode) (samples : List Bool) :
    ∀ (p : PeriodicPoll D) (s : Sender),
    (runStep (relayTick D conv enc) (p, s) samples).map Prod.snd =
      ((runStep (fun p x => PeriodicPoll.pollBase D conv p x) p samples).map Prod.snd).bind fun outs =>
        (s.calls (relayCalls enc outs)).map Prod.snd := by
  induction samples with
  | nil => intro p s; rfl
  | cons x xs ih =>
    intro p s
    rw [runStep_bind, runStep_bind, relayTick]
    rcases PeriodicPoll.pollBase D conv p x with _ | ⟨p', r⟩
    · rfl
    · have silent : ∀ r : Res K, (∀ l, relayCalls enc (r :: l) = .tick :: relayCalls enc l) →
          ((runStep (relayTick D conv enc) (p', s.tick) xs).map Prod.snd).map (fun o => s.tick.pinEnabled :: o) =
          (((runStep (fun p x => PeriodicPoll.pollBase D conv p x) p' xs).map Prod.snd).map fun o => r :: o).bind
            fun outs => (s.calls (relayCalls enc outs)).map Prod.snd := by
        intro r hr
        rw [ih p' s.tick]
        rcases (runStep (fun p x => PeriodicPoll.pollBase D conv p x) p' xs).map Prod.snd with _ | outs
        · rfl
        · simp only [Option.map_some, Option.bind_some, hr, Sender.calls, Option.map_map]
          rfl
      rcases r with e | c
      · exact silent (.error e) fun l => rfl
      · rcases c with _ | c
        · exact silent (.ok none) fun l => rfl
        · rcases hl : s.load (enc c) with _ | s1
          · simp only [hl, Option.map_none, Option.bind_none, Option.bind_some]
            rcases (runStep (fun p x => PeriodicPoll.pollBase D conv p x) p' xs).map Prod.snd with _ | outs
            · rfl
            · simp [relayCalls, Sender.calls, hl]
          · simp only [hl, Option.map_some, Option.bind_some]
            rw [ih p' s1.tick]
            rcases (runStep (fun p x => PeriodicPoll.pollBase D conv p x) p' xs).map Prod.snd with _ | outs
            · rfl
            · simp only [Option.map_some, Option.bind_some, relayCalls, Sender.calls, hl, Option.map_map]
              rfl

theorem relayCalls_eq (enc : K → Encode) (outs : List (Res K)) :
    relayCalls enc outs = List.replicate (quietPolls outs) .tick ++ session enc (spaced outs) := by
  induction outs with
  | nil => rfl
  | cons r l ih =>
    rcases r with e | c
    · simp only [relayCalls, quietPolls, spaced, ih, List.replicate_succ, List.cons_append]
    · rcases c with _ | c
      · simp only [relayCalls, quietPolls, spaced, ih, List.replicate_succ, List.cons_append]
      · simp only [relayCalls, quietPolls, spaced, ih, List.replicate_zero, List.nil_append]
        simp only [session, List.flatMap_cons, List.replicate_succ, List.cons_append]

theorem spaced_total (outs : List (Res K)) : quietPolls outs + sessionTicks (spaced outs) = outs.length := by
  induction outs with
  | nil => rfl
  | cons r l ih =>
    rcases r with e | c
    · simp only [quietPolls, spaced, List.length_cons]; omega
    · rcases c with _ | c
      · simp only [quietPolls, spaced, List.length_cons]; omega
      · simp only [quietPolls, spaced, List.length_cons, sessionTicks, List.map_cons, List.sum_cons] at ih ⊢
        omega

theorem silent_tick (s : Sender) (h : Silent s) : s.tick.buffer = s.buffer ∧ s.tick.pinEnabled = false := by
  obtain ⟨h1, h2⟩ := h
  have hg : s.buffer.ptb.get s.buffer.pos = none := List.getElem?_eq_none h2
  have ht : s.buffer.tick s.counter = (s.buffer, .idle) := by
    unfold PulsedataSender.tick
    rw [hg, ← h1]
  unfold Sender.tick
  simp only [ht, and_self]

theorem silent_calls (g : Nat) (cs : List SenderCall) : ∀ s : Sender, Silent s →
    ∃ s1 : Sender, s1.buffer = s.buffer ∧ s.calls (List.replicate g .tick ++ cs) =
      (s1.calls cs).map fun x => (x.1, List.replicate g false ++ x.2) := by
  induction g with
  | zero =>
    intro s _
    exact ⟨s, rfl, by simp⟩
  | succ g ih =>
    intro s hs
    obtain ⟨h1, h2⟩ := silent_tick s hs
    obtain ⟨s1, h3, h4⟩ := ih s.tick (by unfold Silent; rw [h1]; exact hs)
    refine ⟨s1, h3.trans h1, ?_⟩
    rw [List.replicate_succ, List.cons_append]
    simp only [Sender.calls, h4, h2, Option.map_map]
    rfl

theorem polled_length (D : Decoder C) (conv : C → K) (samples : List Bool) (outs : List (Res K))
    (h : pollRun D conv samples = some outs) : outs.length = samples.length := by
  unfold pollRun at h
  generalize PeriodicPoll.new D = p at h
  induction samples generalizing p outs with
  | nil => cases h; rfl
  | cons x xs ih =>
    simp only [runStep] at h
    rcases h1 : PeriodicPoll.pollBase D conv p x with _ | ⟨p', r⟩
    · simp [h1] at h
    · rcases h2 : runStep (fun p x => PeriodicPoll.pollBase D conv p x) p' xs with _ | ⟨p2, o⟩
      · simp [h1, h2] at h
      · simp only [h1, h2, Option.map_some, Option.some.injEq] at h
        subst h
        rw [List.length_cons, List.length_cons, ih o p' (by rw [h2]; rfl)]

/-- From a session to the program: the program sends the session of what its receiver reports, after as many silent
ticks as there were polls before the first report. -/
theorem relay_session (D : Decoder C) (conv : C → K) (enc : K → Encode) (s : Sender) (hs : Silent s)
    (samples : List Bool) (outs : List (Res K)) (hpoll : pollRun D conv samples = some outs)
    (P : Sender → List Bool → Prop)
    (h : ∀ s1 : Sender, s1.buffer = s.buffer → ∃ s' levels, s1.calls (session enc (spaced outs)) = some (s', levels) ∧
      P s' levels) :
    ∃ s' levels, relayRun D conv enc s samples = some (List.replicate (quietPolls outs) false ++ levels) ∧
      P s' levels := by
  obtain ⟨s1, h1, h2⟩ := silent_calls (quietPolls outs) (session enc (spaced outs)) s hs
  obtain ⟨s', levels, h3, h4⟩ := h s1 h1
  refine ⟨s', levels, ?_, h4⟩
  unfold relayRun
  rw [relay_from D conv enc samples]
  unfold pollRun at hpoll
  rw [hpoll, Option.bind_some, relayCalls_eq, h2, h3]
  rfl

theorem overhear_silent (fs f phase pause g : Nat) (levels : List Bool) (n : Nat) :
    overhear fs f phase pause (List.replicate g false ++ levels) n = overhear fs f phase (pause + g) levels n := by
  unfold overhear
  rw [← List.append_assoc, List.replicate_append_replicate]

/-! ### The properties -/

/-- C104 (NEC family): a program polls any receiver on any line and sends what is reported, converted to commands of a NEC
variant, from the same interrupt.  If the reports come 108 ms or more apart, another receiver that listens to the program
reports exactly these commands, in order and once each. -/
theorem C104_nec (D : Decoder C') (convert : C' → C) (t : Target) (fs : Nat)
    (hfs : 21000 ≤ fs ∨ (20000 ≤ fs ∧ fs % 1000 = 0)) (f : Nat) (hle : fs ≤ f) (hf : f < 2 ^ 32)
    (v : NecVariant C) (hv : v.Shipped) (data : NecData) (hdata : necData v.pulseDistance fs = some data)
    (tbl : PulseSpans) (htbl : necSpans t Mono.u32 v f = some tbl) (conv : C → K)
    (s : Sender) (hs : Silent s) (k : Nat) (hlen : s.buffer.ptb.buf.length = 67 + k)
    (hz : s.buffer.ptb.buf.drop 67 = List.replicate k 0)
    (samples : List Bool) (outs : List (Res C)) (hpoll : pollRun D convert samples = some outs) (hear : C → C)
    (hcmds : ∀ x ∈ spaced outs, ∃ w, v.pack x.1 = some w ∧ v.unpack w false = some (hear x.1))
    (hticks : ∀ x ∈ spaced outs, 108 * fs + 1000 * k ≤ 1000 * x.2 ∧ x.2 * f / fs + 1 < 2 ^ 32) :
    ∃ levels, relayRun D convert (necEncode v data) s samples = some levels ∧
      ∀ pause phase n, phase < fs → Pause tbl 32 [0, 1] (0, reading fs f phase (pause + quietPolls outs) + 1) →
      reading fs f phase (pause + samples.length) < n →
      (pollRun (necDecoder t Mono.u32 tbl v) conv (overhear fs f phase pause levels n)).map said =
        some (oks ((spaced outs).map fun x => conv (hear x.1))) := by
  obtain ⟨s', levels, h1, -, h2⟩ := relay_session D convert (necEncode v data) s hs samples outs hpoll _
    fun s1 h1 => C57_nec_session t fs hfs f hle hf v hv data hdata tbl htbl conv (spaced outs) hear hcmds s1
      (by rw [h1]; exact hs.1) k (by rw [h1]; exact hlen) (by rw [h1]; exact hz) hticks
  refine ⟨_, h1, fun pause phase n hp hg hn => ?_⟩
  rw [overhear_silent]
  refine h2 (pause + quietPolls outs) phase n hp hg ?_
  rw [Nat.add_assoc, spaced_total, polled_length D convert samples outs hpoll]
  exact hn

/-- C104 (RC5): the same with RC5 commands, 114 ms apart. -/
theorem C104_rc5 (D : Decoder C') (convert : C' → Rc5Command) (t : Target) (hus : 16 ≤ t.usizeBits) (fs : Nat)
    (hfs : 42000 ≤ fs ∨ (20000 ≤ fs ∧ fs % 1000 = 0)) (f : Nat) (hlo : 40000 ≤ f) (hle : fs ≤ f)
    (hf : f < 2 ^ 32) (tbl : PulseSpans) (htbl : rc5Spans t Mono.u32 f = some tbl)
    (conv : Rc5Command → K) (l : Nat) (hl : rc5CalcFreq fs = some l)
    (s : Sender) (hs : Silent s) (k : Nat) (hlen : s.buffer.ptb.buf.length = 27 + k)
    (hz : s.buffer.ptb.buf.drop 27 = List.replicate k 0) (hold : ∀ d ∈ s.buffer.ptb.buf, d ≤ 2 * l)
    (samples : List Bool) (outs : List (Res Rc5Command)) (hpoll : pollRun D convert samples = some outs)
    (hcmds : ∀ x ∈ spaced outs, x.1.addr.toNat < 32 ∧ x.1.cmd.toNat < 64 ∧ x.1.start.toNat < 4)
    (hticks : ∀ x ∈ spaced outs, 114 * fs + 1000 * k ≤ 1000 * x.2 ∧ x.2 * f / fs + 1 < 2 ^ 32) :
    ∃ levels, relayRun D convert (rc5Encode t l) s samples = some levels ∧
      ∀ pause phase n, phase < fs → reading fs f phase (pause + quietPolls outs) + 1 < 2 ^ 32 →
      reading fs f phase (pause + samples.length) < n →
      (pollRun (rc5Decoder t tbl) conv (overhear fs f phase pause levels n)).map said =
        some (oks ((spaced outs).map fun x => conv { x.1 with start := x.1.start ||| 2 })) := by
  obtain ⟨s', levels, h1, -, h2⟩ := relay_session D convert (rc5Encode t l) s hs samples outs hpoll _
    fun s1 h1 => C58_rc5_session t hus fs hfs f hlo hle hf tbl htbl conv l hl (spaced outs) hcmds s1
      (by rw [h1]; exact hs.1) k (by rw [h1]; exact hlen) (by rw [h1]; exact hz) (by rw [h1]; exact hold) hticks
  refine ⟨_, h1, fun pause phase n hp hg hn => ?_⟩
  rw [overhear_silent]
  refine h2 (pause + quietPolls outs) phase n hp hg ?_
  rw [Nat.add_assoc, spaced_total, polled_length D convert samples outs hpoll]
  exact hn

/-- C104 (RC6): the same with RC6 commands, 106 ms apart. -/
theorem C104_rc6 (D : Decoder C') (convert : C' → Rc6Command) (t : Target) (hus : 16 ≤ t.usizeBits) (fs : Nat)
    (hfs : 46000 ≤ fs) (f : Nat) (hlo : 80000 ≤ f) (hle : fs ≤ f)
    (hf : f < 2 ^ 32) (tbl : PulseSpans) (htbl : rc6Spans t Mono.u32 f = some tbl)
    (conv : Rc6Command → K) (l : Nat) (hl : rc6Data fs = some l)
    (s : Sender) (hs : Silent s) (k : Nat) (hlen : s.buffer.ptb.buf.length = 44 + k)
    (hz : s.buffer.ptb.buf.drop 44 = List.replicate k 0) (hold : ∀ d ∈ s.buffer.ptb.buf.drop 2, d ≤ 3 * l)
    (samples : List Bool) (outs : List (Res Rc6Command)) (hpoll : pollRun D convert samples = some outs)
    (hticks : ∀ x ∈ spaced outs, 106 * fs + 1000 * k ≤ 1000 * x.2 ∧ x.2 * f / fs + 1 < 2 ^ 32) :
    ∃ levels, relayRun D convert (rc6Encode l) s samples = some levels ∧
      ∀ pause phase n, phase < fs → reading fs f phase (pause + quietPolls outs) + 1 < 2 ^ 32 →
      reading fs f phase (pause + samples.length) < n →
      (pollRun (rc6Decoder t tbl) conv (overhear fs f phase pause levels n)).map said =
        some (oks ((spaced outs).map fun x => conv x.1)) := by
  obtain ⟨s', levels, h1, -, h2⟩ := relay_session D convert (rc6Encode l) s hs samples outs hpoll _
    fun s1 h1 => C58_rc6_session t hus fs hfs f hlo hle hf tbl htbl conv l hl (spaced outs) s1
      (by rw [h1]; exact hs.1) k (by rw [h1]; exact hlen) (by rw [h1]; exact hz) (by rw [h1]; exact hold) hticks
  refine ⟨_, h1, fun pause phase n hp hg hn => ?_⟩
  rw [overhear_silent]
  refine h2 (pause + quietPolls outs) phase n hp hg ?_
  rw [Nat.add_assoc, spaced_total, polled_length D convert samples outs hpoll]
  exact hn

end Infrared
