import Verif.Props.Drivers
import Verif.Props.Encoders
import Verif.Model.Buffers

/-!
# Debug and release builds (C77)

A build without overflow checks does what the build with them does, as long as that one does not panic.
-/

namespace Infrared

open Spec

variable {C K S I O A B : Type}

/-- The same machine, overflow checks off. -/
def Spec.release (t : Target) : Target := { t with overflowChecks := false }

/-- `y` agrees with `x` unless `x` is a panic. -/
def Spec.Unless (x y : Option A) : Prop := ∀ a, x = some a → y = some a

theorem Unless.refl (x : Option A) : Unless x x := fun _ h => h

theorem Unless.bind {x y : Option A} {f g : A → Option B} (h : Unless x y) (hf : ∀ a, Unless (f a) (g a)) :
    Unless (x.bind f) (y.bind g) := by
  intro b hb
  obtain ⟨a, ha, hb⟩ := Option.bind_eq_some_iff.mp hb
  rw [h a ha, Option.bind_some]
  exact hf a b hb

theorem Unless.map {x y : Option A} (h : Unless x y) (f : A → B) : Unless (x.map f) (y.map f) := by
  intro b hb
  obtain ⟨a, ha, rfl⟩ := Option.map_eq_some_iff.mp hb
  rw [h a ha, Option.map_some]

/-! ### Arithmetic -/

theorem uadd_unless (t : Target) (w a b : Nat) : Unless (uadd t w a b) (uadd (release t) w a b) := by
  intro c h
  unfold uadd at h ⊢
  split at h
  · rename_i hlt; rw [if_pos hlt]; exact h
  · rename_i hlt
    rw [if_neg hlt]
    cases ht : t.overflowChecks <;> simp [ht, release] at h ⊢
    exact h

theorem usub_unless (t : Target) (w a b : Nat) : Unless (usub t w a b) (usub (release t) w a b) := by
  intro c h
  unfold usub at h ⊢
  split at h
  · rename_i hlt; rw [if_pos hlt]; exact h
  · rename_i hlt
    rw [if_neg hlt]
    cases ht : t.overflowChecks <;> simp [ht, release] at h ⊢
    exact h

theorem umul_unless (t : Target) (w a b : Nat) : Unless (umul t w a b) (umul (release t) w a b) := by
  intro c h
  unfold umul at h ⊢
  split at h
  · rename_i hlt; rw [if_pos hlt]; exact h
  · rename_i hlt
    rw [if_neg hlt]
    cases ht : t.overflowChecks <;> simp [ht, release] at h ⊢
    exact h

theorem shl1_unless (t : Target) (w k : Nat) : Unless (shl1 t w k) (shl1 (release t) w k) := by
  intro c h
  unfold shl1 at h ⊢
  split at h
  · rename_i hlt; rw [if_pos hlt]; exact h
  · rename_i hlt
    rw [if_neg hlt]
    cases ht : t.overflowChecks <;> simp [ht, release] at h ⊢
    exact h

/-- The clocks of the crate: `u32`, `u64`, or a `fugit` instant of any width and resolution. -/
inductive Spec.Clock : Mono → Prop
  | u32 : Clock Mono.u32
  | u64 : Clock Mono.u64
  | fugit (w : Nat) (micros : Nat → Option Nat) (since : Nat → Nat → Option Nat) : Clock (Mono.fugit w micros since)

theorem mono_add_unless {m : Mono} (hm : Clock m) (t : Target) (a b : Nat) :
    Unless (m.add t a b) (m.add (release t) a b) := by
  cases hm
  · exact uadd_unless t _ a b
  · exact uadd_unless t _ a b
  · exact Unless.refl _

theorem createSpan_unless {m : Mono} (hm : Clock m) (t : Target) (freq p tol : Nat) :
    Unless (m.createSpan t freq p tol) (m.createSpan (release t) freq p tol) := by
  have h : Unless (Span.scaled t p freq tol) (Span.scaled (release t) p freq tol) :=
    Unless.bind (Unless.refl _) fun base => Unless.bind (umul_unless t _ _ _) fun _ =>
      Unless.bind (usub_unless t _ _ _) fun _ => Unless.bind (uadd_unless t _ _ _) fun _ => Unless.refl _
  cases hm
  · exact h
  · exact h
  · exact Unless.bind (Unless.refl _) fun base => Unless.bind (umul_unless t _ _ _) fun _ => Unless.refl _

theorem mapM_unless {f g : A → Option B} (h : ∀ a, Unless (f a) (g a)) (l : List A) :
    Unless (l.mapM f) (l.mapM g) := by
  induction l with
  | nil => exact Unless.refl _
  | cons a l ih =>
    rw [List.mapM_cons, List.mapM_cons]
    exact Unless.bind (h a) fun _ => Unless.bind ih fun _ => Unless.refl _

theorem foldlM_unless {f g : S → A → Option S} (h : ∀ s a, Unless (f s a) (g s a)) (l : List A) (s : S) :
    Unless (l.foldlM f s) (l.foldlM g s) := by
  induction l generalizing s with
  | nil => exact Unless.refl _
  | cons a l ih =>
    rw [List.foldlM_cons, List.foldlM_cons]
    exact Unless.bind (h s a) fun s => ih s

theorem spans_unless {m : Mono} (hm : Clock m) (t : Target) (freq : Nat) (pulse tol : List Nat) :
    Unless (PulseSpans.new t m freq pulse tol) (PulseSpans.new (release t) m freq pulse tol) :=
  Unless.bind (mapM_unless (fun _ => createSpan_unless hm t _ _ _) _) fun _ => Unless.refl _

/-! ### Events -/

/-- Walk through the branches; both sides branch alike and differ in the checked operations only. -/
macro "walk_unless" : tactic => `(tactic| repeat' first
  | exact Unless.refl _
  | exact Unless.map (uadd_unless _ _ _ _) _
  | refine Unless.bind (uadd_unless _ _ _ _) fun _ => ?_
  | refine Unless.bind (shl1_unless _ _ _) fun _ => ?_
  | split)

theorem nec_event_unless {m : Mono} (hm : Clock m) (t : Target) (tbl : PulseSpans)
    (d : NecDecoder) (b : Bool) (dt : Nat) :
    Unless (NecDecoder.event t m tbl d b dt) (NecDecoder.event (release t) m tbl d b dt) := by
  unfold NecDecoder.event
  split
  · refine Unless.bind (mono_add_unless hm t _ _) fun total => Unless.bind ?_ fun _ => Unless.refl _
    unfold NecDecoder.transition
    walk_unless
  · exact Unless.refl _

theorem sbp_event_unless {m : Mono} (hm : Clock m) (t : Target) (tbl : PulseSpans)
    (d : SbpDecoder) (b : Bool) (dt : Nat) :
    Unless (SbpDecoder.event t m tbl d b dt) (SbpDecoder.event (release t) m tbl d b dt) := by
  unfold SbpDecoder.event
  split
  · refine Unless.bind (mono_add_unless hm t _ _) fun total => Unless.bind ?_ fun _ => Unless.refl _
    unfold SbpDecoder.transition
    walk_unless
  · exact Unless.refl _

theorem denon_event_unless {m : Mono} (hm : Clock m) (t : Target) (tbl : PulseSpans)
    (d : DenonDecoder) (b : Bool) (dt : Nat) :
    Unless (DenonDecoder.event t m tbl d b dt) (DenonDecoder.event (release t) m tbl d b dt) := by
  unfold DenonDecoder.event
  split
  · refine Unless.bind (mono_add_unless hm t _ _) fun total => Unless.bind ?_ fun _ => Unless.refl _
    unfold DenonDecoder.transition
    walk_unless
  · exact Unless.refl _

theorem rc5_event_unless (t : Target) (tbl : PulseSpans) (d : Rc5Decoder) (b : Bool) (dt : Nat) :
    Unless (Rc5Decoder.event t tbl d b dt) (Rc5Decoder.event (release t) tbl d b dt) := by
  unfold Rc5Decoder.event
  refine Unless.bind ?_ fun d => Unless.bind ?_ fun _ => Unless.refl _
  · unfold Rc5Decoder.tick
    walk_unless
  · unfold Rc5Decoder.transition
    dsimp only
    walk_unless

theorem rc6_event_unless (t : Target) (tbl : PulseSpans) (d : Rc6Decoder) (b : Bool) (dt : Nat) :
    Unless (Rc6Decoder.event t tbl d b dt) (Rc6Decoder.event (release t) tbl d b dt) := by
  have key : ∀ ticks, Unless
      ((d.tick t ticks).bind fun d => (d.transition t b ticks).bind fun d => some (d, d.state.toState))
      ((d.tick (release t) ticks).bind fun d =>
        (d.transition (release t) b ticks).bind fun d => some (d, d.state.toState)) := by
    intro ticks
    refine Unless.bind ?_ fun d => Unless.bind ?_ fun _ => Unless.refl _
    · unfold Rc6Decoder.tick
      walk_unless
    · unfold Rc6Decoder.transition
      dsimp only
      walk_unless
  unfold Rc6Decoder.event
  dsimp only
  split
  · exact Unless.bind (Unless.map (uadd_unless t _ _ _) _) key
  · exact Unless.bind (Unless.refl _) key

/-! ### Receivers -/

/-- The decoder with another `event`. -/
def Spec.withEvent (D : Decoder C) (e : D.St → Bool → Nat → Option (D.St × State)) : Decoder C :=
  { D with event := e }

theorem runStep_unless {S' : Type} {f : S → I → Option (S × O)} {g : S' → I → Option (S' × O)} (φ : S → S')
    (h : ∀ s i s' o, f s i = some (s', o) → g (φ s) i = some (φ s', o)) (l : List I) (s : S) :
    Unless ((runStep f s l).map Prod.snd) ((runStep g (φ s) l).map Prod.snd) := by
  induction l generalizing s with
  | nil => intro a ha; exact ha
  | cons i l ih =>
    intro a ha
    obtain ⟨⟨s'', out⟩, hr, rfl⟩ := Option.map_eq_some_iff.mp ha
    rw [runStep] at hr ⊢
    rcases hf : f s i with _ | ⟨s', o⟩
    · rw [hf] at hr; cases hr
    · rw [hf] at hr
      dsimp only at hr
      rw [h s i s' o hf]
      dsimp only
      rcases hl : runStep f s' l with _ | ⟨s3, out'⟩
      · rw [hl] at hr; cases hr
      · rw [hl] at hr
        cases hr
        have := ih s' out' (by rw [hl]; rfl)
        obtain ⟨⟨s4, o4⟩, h4, h5⟩ := Option.map_eq_some_iff.mp this
        rw [h4]
        simp only at h5
        subst h5
        rfl

section
variable {D : Decoder C} {e : D.St → Bool → Nat → Option (D.St × State)}

theorem eventEdge_unless (h : ∀ s b dt, Unless (D.event s b dt) (e s b dt)) (conv : C → K) (r r' : Receiver D)
    (b : Bool) (dt : Nat) (o : Res K) (hr : r.eventEdge D conv dt b = some (r', o)) :
    Receiver.eventEdge (withEvent D e) conv ⟨r.decoder, r.prevInstant⟩ dt b =
      some (⟨r'.decoder, r'.prevInstant⟩, o) := by
  unfold Receiver.eventEdge at hr ⊢
  rcases he : D.event r.decoder b dt with _ | ⟨d, st⟩
  · rw [he] at hr; cases hr
  · have : (withEvent D e).event r.decoder b dt = some (d, st) := h _ _ _ _ he
    rw [he] at hr
    rw [this]
    cases st <;> cases hr <;> rfl

theorem receiver_run_runStep (D : Decoder C) (conv : C → K) (r : Receiver D) (evs : List Ev) :
    r.run D conv evs = runStep (fun r (c : Ev) => r.eventEdge D conv c.2 c.1) r evs := by
  induction evs generalizing r with
  | nil => rfl
  | cons e es ih =>
    simp only [runStep, Receiver.run, Receiver.event, ih]
    rcases r.eventEdge D conv e.2 e.1 with _ | ⟨r', o⟩
    · rfl
    · dsimp only
      generalize runStep (fun (r : Receiver D) c => r.eventEdge D conv c.2 c.1) r' es = q
      rcases q with _ | p <;> rfl

theorem results_unless (h : ∀ s b dt, Unless (D.event s b dt) (e s b dt)) (conv : C → K) (evs : List Ev) :
    Unless (results D conv evs) (results (withEvent D e) conv evs) := by
  rw [results, results, receiver_run_runStep, receiver_run_runStep]
  exact runStep_unless (fun r : Receiver D => (⟨r.decoder, r.prevInstant⟩ : Receiver (withEvent D e)))
    (fun s i s' o hs => eventEdge_unless h conv s s' i.1 i.2 o hs) evs (Receiver.new D)

theorem instantRun_unless (h : ∀ s b dt, Unless (D.event s b dt) (e s b dt)) (m : Mono) (conv : C → K)
    (calls : List (Bool × Nat)) : Unless (instantRun m D conv calls) (instantRun m (withEvent D e) conv calls) :=
  runStep_unless (fun r : Receiver D => (⟨r.decoder, r.prevInstant⟩ : Receiver (withEvent D e)))
    (fun s i s' o hs => eventEdge_unless h conv { s with prevInstant := i.2 } s' i.1 _ o hs) calls (Receiver.new D)

theorem pollRun_unless (h : ∀ s b dt, Unless (D.event s b dt) (e s b dt)) (conv : C → K) (samples : List Bool) :
    Unless (pollRun D conv samples) (pollRun (withEvent D e) conv samples) := by
  refine runStep_unless (fun p : PeriodicPoll D => (⟨p.clock, p.edge, p.lastEdge, p.decoder⟩ : PeriodicPoll (withEvent D e)))
    ?_ samples (PeriodicPoll.new D)
  intro p b p' o hp
  unfold PeriodicPoll.pollBase at hp ⊢
  dsimp only at hp ⊢
  split at hp
  · rename_i hb
    rw [if_pos hb]
    cases hp
    rfl
  · rename_i hb
    rw [if_neg hb]
    unfold Decoder.eventTotal at hp ⊢
    rcases he : D.event p.decoder b (wrappingSub 32 (wrappingAdd 32 p.clock 1) p.lastEdge) with _ | ⟨d, st⟩
    · rw [he] at hp; cases hp
    · have : (withEvent D e).event p.decoder b (wrappingSub 32 (wrappingAdd 32 p.clock 1) p.lastEdge) =
          some (d, st) := h _ _ _ _ he
      rw [he] at hp
      rw [this]
      cases st <;> cases hp <;> rfl

theorem next_unless (h : ∀ s b dt, Unless (D.event s b dt) (e s b dt)) (conv : C → K) (n : Nat) :
    ∀ (it it' : BufferIterator D) (k : Option K), it.buf.length - it.pos = n → it.next D conv = some (it', k) →
      BufferIterator.next (withEvent D e) conv ⟨it.pos, it.buf, it.decoder⟩ =
        some (⟨it'.pos, it'.buf, it'.decoder⟩, k) := by
  induction n with
  | zero =>
    intro it it' k hn hk
    have hp : ¬ it.pos < it.buf.length := by omega
    rw [BufferIterator.next, dif_neg hp] at hk ⊢
    cases hk
    rfl
  | succ n ih =>
    intro it it' k hn hk
    have hp : it.pos < it.buf.length := by omega
    rw [BufferIterator.next, dif_pos hp] at hk ⊢
    dsimp only at hk ⊢
    rcases he : D.event it.decoder (decide (it.pos % 2 = 0)) it.buf[it.pos] with _ | ⟨d, st⟩
    · rw [he] at hk; cases hk
    · have : (withEvent D e).event it.decoder (decide (it.pos % 2 = 0)) it.buf[it.pos] = some (d, st) :=
        h _ _ _ _ he
      rw [he] at hk
      rw [this]
      cases st with
      | idle => exact ih ⟨it.pos + 1, it.buf, d⟩ it' k (by show it.buf.length - (it.pos + 1) = n; omega) hk
      | receiving => exact ih ⟨it.pos + 1, it.buf, d⟩ it' k (by show it.buf.length - (it.pos + 1) = n; omega) hk
      | done => cases hk; rfl
      | error x => cases hk; rfl

theorem collectFuel_unless (h : ∀ s b dt, Unless (D.event s b dt) (e s b dt)) (conv : C → K) (fuel : Nat)
    (it : BufferIterator D) : Unless (BufferIterator.collectFuel D conv fuel it)
      (BufferIterator.collectFuel (withEvent D e) conv fuel ⟨it.pos, it.buf, it.decoder⟩) := by
  induction fuel generalizing it with
  | zero => intro a ha; exact ha
  | succ fuel ih =>
    intro a ha
    rw [BufferIterator.collectFuel] at ha ⊢
    rcases hn : it.next D conv with _ | ⟨it', k⟩
    · rw [hn] at ha; cases ha
    · rw [hn] at ha
      rw [next_unless h conv _ it it' k rfl hn]
      cases k with
      | none => exact ha
      | some k => exact Unless.map (ih it') _ a ha

theorem bufferCollect_unless (h : ∀ s b dt, Unless (D.event s b dt) (e s b dt)) (conv : C → K) (buf : List Nat) :
    Unless (bufferCollect D conv buf) (bufferCollect (withEvent D e) conv buf) :=
  collectFuel_unless h conv _ (BufferIterator.new D buf)

end

/-! ### C77 -/

/-- Whatever the input, and however it is fed in, the second receiver returns what the first one returns, unless
building or running the first one panics. -/
structure Spec.Agrees (b b' : Build C) : Prop where
  event {K : Type} (conv : C → K) (freq : Nat) (evs : List Ev) :
    Unless ((b freq).bind fun D => results D conv evs) ((b' freq).bind fun D => results D conv evs)
  instant {K : Type} (m : Mono) (conv : C → K) (freq : Nat) (calls : List (Bool × Nat)) :
    Unless ((b freq).bind fun D => instantRun m D conv calls) ((b' freq).bind fun D => instantRun m D conv calls)
  poll {K : Type} (conv : C → K) (freq : Nat) (samples : List Bool) :
    Unless ((b freq).bind fun D => pollRun D conv samples) ((b' freq).bind fun D => pollRun D conv samples)
  buffer {K : Type} (r : BufferInputReceiver) (conv : C → K) (buf : List Nat) :
    Unless (r.collect b conv buf) (r.collect b' conv buf)

theorem agrees_of {b b' : Build C} (h : ∀ freq D, b freq = some D →
    ∃ e, b' freq = some (withEvent D e) ∧ ∀ s x dt, Unless (D.event s x dt) (e s x dt)) : Agrees b b' := by
  have key : ∀ {A : Type} (f : Decoder C → Option A) (freq : Nat),
      (∀ D e, (∀ s x dt, Unless (D.event s x dt) (e s x dt)) → Unless (f D) (f (withEvent D e))) →
      Unless ((b freq).bind f) ((b' freq).bind f) := by
    intro A f freq hf a ha
    obtain ⟨D, hD, ha⟩ := Option.bind_eq_some_iff.mp ha
    obtain ⟨e, he, hu⟩ := h freq D hD
    rw [he, Option.bind_some]
    exact hf D e hu a ha
  exact ⟨fun conv freq evs => key _ freq fun D e h => results_unless h conv evs,
    fun m conv freq calls => key _ freq fun D e h => instantRun_unless h m conv calls,
    fun conv freq samples => key _ freq fun D e h => pollRun_unless h conv samples,
    fun r conv buf => key _ _ fun D e h => bufferCollect_unless h conv buf⟩

/-- **C77** for NEC, NEC16, Samsung, Apple and Raw. -/
theorem C77_nec (t : Target) {m : Mono} (hm : Clock m) (v : NecVariant C) :
    Agrees (necBuild t m v) (necBuild (release t) m v) := by
  refine agrees_of fun freq D hD => ?_
  obtain ⟨spans, hs, rfl⟩ := Option.map_eq_some_iff.mp hD
  refine ⟨NecDecoder.event (release t) m spans, ?_, fun s x dt => nec_event_unless hm t spans s x dt⟩
  rw [necBuild, show necSpans (release t) m v freq = some spans from spans_unless hm t _ _ _ _ hs]
  rfl

/-- **C77** for the Samsung blu-ray protocol. -/
theorem C77_sbp (t : Target) {m : Mono} (hm : Clock m) : Agrees (sbpBuild t m) (sbpBuild (release t) m) := by
  refine agrees_of fun freq D hD => ?_
  obtain ⟨spans, hs, rfl⟩ := Option.map_eq_some_iff.mp hD
  refine ⟨SbpDecoder.event (release t) m spans, ?_, fun s x dt => sbp_event_unless hm t spans s x dt⟩
  rw [sbpBuild, show sbpSpans (release t) m freq = some spans from spans_unless hm t _ _ _ _ hs]
  rfl

/-- **C77** for Denon. -/
theorem C77_denon (t : Target) {m : Mono} (hm : Clock m) : Agrees (denonBuild t m) (denonBuild (release t) m) := by
  refine agrees_of fun freq D hD => ?_
  obtain ⟨spans, hs, rfl⟩ := Option.map_eq_some_iff.mp hD
  refine ⟨DenonDecoder.event (release t) m spans, ?_, fun s x dt => denon_event_unless hm t spans s x dt⟩
  rw [denonBuild, show denonSpans (release t) m freq = some spans from spans_unless hm t _ _ _ _ hs]
  rfl

/-- **C77** for RC5. -/
theorem C77_rc5 (t : Target) {m : Mono} (hm : Clock m) : Agrees (rc5Build t m) (rc5Build (release t) m) := by
  refine agrees_of fun freq D hD => ?_
  obtain ⟨spans, hs, rfl⟩ := Option.map_eq_some_iff.mp hD
  refine ⟨Rc5Decoder.event (release t) spans, ?_, fun s x dt => rc5_event_unless t spans s x dt⟩
  rw [rc5Build, show rc5Spans (release t) m freq = some spans from spans_unless hm t _ _ _ _ hs]
  rfl

/-- **C77** for RC6. -/
theorem C77_rc6 (t : Target) {m : Mono} (hm : Clock m) : Agrees (rc6Build t m) (rc6Build (release t) m) := by
  refine agrees_of fun freq D hD => ?_
  obtain ⟨spans, hs, rfl⟩ := Option.map_eq_some_iff.mp hD
  refine ⟨Rc6Decoder.event (release t) spans, ?_, fun s x dt => rc6_event_unless t spans s x dt⟩
  rw [rc6Build, show rc6Spans (release t) m freq = some spans from spans_unless hm t _ _ _ _ hs]
  rfl

/-- **C77** for the RC5 sender, the only encoder with arithmetic at run time: for any carrier period, command and
buffer. -/
theorem C77_rc5_encode (t : Target) (rc5len : Nat) (cmd : Rc5Command) (buf : List Nat) :
    Unless (rc5Encode t rc5len cmd buf) (rc5Encode (release t) rc5len cmd buf) := by
  unfold rc5Encode
  refine Unless.bind (Unless.refl _) fun buf => Unless.bind (foldlM_unless (fun s b => ?_) _ _) fun _ => Unless.refl _
  unfold rc5EncodeBit
  dsimp only
  split
  · exact Unless.refl _
  · exact Unless.bind (umul_unless t _ _ _) fun _ => Unless.refl _

/-! ### `MultiReceiver` -/

/-- The same receiver built without overflow checks: it may differ from the first one where that one panics. -/
inductive Spec.Lenient : Component → Component → Prop
  | mk {C : Type} (D : Decoder C) (into : C → AnyCommand) (e : D.St → Bool → Nat → Option (D.St × State))
      (h : ∀ s b dt, Unless (D.event s b dt) (e s b dt)) : Lenient ⟨C, D, into⟩ ⟨C, withEvent D e, into⟩

/-- Two such receivers in the same state. -/
inductive SlotLenient : Slot → Slot → Prop
  | mk {C : Type} (D : Decoder C) (into : C → AnyCommand) (e : D.St → Bool → Nat → Option (D.St × State))
      (h : ∀ s b dt, Unless (D.event s b dt) (e s b dt)) (d : D.St) (n : Nat) :
      SlotLenient ⟨⟨C, D, into⟩, ⟨d, n⟩⟩ ⟨⟨C, withEvent D e, into⟩, ⟨d, n⟩⟩

theorem slot_event_unless {s s' : Slot} (h : SlotLenient s s') (dt : Nat) (b : Bool) (x : Slot) (o : Option AnyCommand)
    (hx : s.event dt b = some (x, o)) : ∃ x', s'.event dt b = some (x', o) ∧ SlotLenient x x' := by
  obtain ⟨D, into, e, hu, d, n⟩ := h
  unfold Slot.event at hx ⊢
  rcases he : Receiver.event D (id : _ → _) ⟨d, n⟩ dt b with _ | ⟨r, res⟩
  · simp only [he] at hx; cases hx
  · have h2 := eventEdge_unless hu id ⟨d, n⟩ r b dt res he
    simp only [Receiver.event] at hx he ⊢
    rw [he] at hx
    rw [h2]
    rcases res with err | c
    · cases hx; exact ⟨_, rfl, .mk D into e hu _ _⟩
    · cases hx; exact ⟨_, rfl, .mk D into e hu _ _⟩

theorem multiEvent_unless {ss ss' : List Slot} (h : List.Forall₂ SlotLenient ss ss') (dt : Nat) (b : Bool)
    (rs : List (Slot × Option AnyCommand)) (hr : multiEvent ss dt b = some rs) :
    ∃ rs', multiEvent ss' dt b = some rs' ∧ rs'.map Prod.snd = rs.map Prod.snd ∧
      List.Forall₂ SlotLenient (rs.map Prod.fst) (rs'.map Prod.fst) := by
  unfold multiEvent at hr ⊢
  induction h generalizing rs with
  | nil => cases hr; exact ⟨[], rfl, rfl, .nil⟩
  | @cons s s' ss ss' hs hss ih =>
    rw [List.mapM_cons] at hr ⊢
    obtain ⟨⟨x, o⟩, hx, hr⟩ := Option.bind_eq_some_iff.mp hr
    obtain ⟨rs0, h0, hr⟩ := Option.bind_eq_some_iff.mp hr
    cases hr
    obtain ⟨x', hx', hl⟩ := slot_event_unless hs dt b x o hx
    obtain ⟨rs', h1, h2, h3⟩ := ih rs0 h0
    refine ⟨(x', o) :: rs', ?_, ?_, ?_⟩
    · rw [hx', h1]; rfl
    · simp only [List.map_cons, h2]
    · exact .cons hl h3

theorem multiRun_unless {ss ss' : List Slot} (h : List.Forall₂ SlotLenient ss ss') (evs : List Ev) :
    Unless ((multiRun ss evs).map Prod.snd) ((multiRun ss' evs).map Prod.snd) := by
  induction evs generalizing ss ss' with
  | nil => intro a ha; exact ha
  | cons e es ih =>
    intro a ha
    rw [multiRun] at ha ⊢
    rcases hr : multiEvent ss e.2 e.1 with _ | rs
    · rw [hr] at ha; cases ha
    · rw [hr] at ha
      obtain ⟨rs', h1, h2, h3⟩ := multiEvent_unless h e.2 e.1 rs hr
      rw [h1]
      dsimp only at ha ⊢
      rcases hm : multiRun (rs.map Prod.fst) es with _ | ⟨s1, o1⟩
      · rw [hm] at ha; cases ha
      · rw [hm] at ha
        cases ha
        have := ih h3 o1 (by rw [hm]; rfl)
        obtain ⟨⟨s4, o4⟩, h4, h5⟩ := Option.map_eq_some_iff.mp this
        simp only at h5
        subst h5
        rw [h4, h2]
        rfl

/-- **C77** for `MultiReceiver`. -/
theorem C77_multi {cs cs' : List Component} (h : List.Forall₂ Lenient cs cs') (evs : List Ev) :
    Unless ((multiRun (multiMake cs) evs).map Prod.snd) ((multiRun (multiMake cs') evs).map Prod.snd) := by
  refine multiRun_unless ?_ evs
  unfold multiMake
  induction h with
  | nil => exact .nil
  | @cons c c' cs cs' hc _ ih =>
    refine .cons ?_ ih
    obtain ⟨D, into, e, hu⟩ := hc
    exact .mk D into e hu _ _

/-- The receivers of the crate qualify, on the same table. -/
theorem C77_lenient (t : Target) {m : Mono} (hm : Clock m) (tbl : PulseSpans) :
    (∀ {C : Type} (v : NecVariant C) into, Lenient ⟨C, necDecoder t m tbl v, into⟩ ⟨C, necDecoder (release t) m tbl v, into⟩) ∧
    (∀ into, Lenient ⟨_, sbpDecoder t m tbl, into⟩ ⟨_, sbpDecoder (release t) m tbl, into⟩) ∧
    (∀ into, Lenient ⟨_, denonDecoder t m tbl, into⟩ ⟨_, denonDecoder (release t) m tbl, into⟩) ∧
    (∀ into, Lenient ⟨_, rc5Decoder t tbl, into⟩ ⟨_, rc5Decoder (release t) tbl, into⟩) ∧
    (∀ into, Lenient ⟨_, rc6Decoder t tbl, into⟩ ⟨_, rc6Decoder (release t) tbl, into⟩) :=
  ⟨fun v into => .mk (necDecoder t m tbl v) into (NecDecoder.event (release t) m tbl)
      fun s x dt => nec_event_unless hm t tbl s x dt,
    fun into => .mk (sbpDecoder t m tbl) into (SbpDecoder.event (release t) m tbl)
      fun s x dt => sbp_event_unless hm t tbl s x dt,
    fun into => .mk (denonDecoder t m tbl) into (DenonDecoder.event (release t) m tbl)
      fun s x dt => denon_event_unless hm t tbl s x dt,
    fun into => .mk (rc5Decoder t tbl) into (Rc5Decoder.event (release t) tbl)
      fun s x dt => rc5_event_unless t tbl s x dt,
    fun into => .mk (rc6Decoder t tbl) into (Rc6Decoder.event (release t) tbl)
      fun s x dt => rc6_event_unless t tbl s x dt⟩

/-- A frame (an RC6 key, 1 µs ticks) which a checked build decodes without a panic. -/
example : ((rc6Build ⟨true, 32⟩ Mono.u32 1000000).bind fun D => results D id
      [(true, 0), (false, 2664), (true, 888)]) = some [.ok none, .ok none, .ok none] ∧
    ((rc6Build ⟨false, 32⟩ Mono.u32 1000000).bind fun D => results D id
      [(true, 0), (false, 2664), (true, 888)]) = some [.ok none, .ok none, .ok none] := by
  have h : ((rc6Build ⟨true, 32⟩ Mono.u32 1000000).bind fun D => results D id
      [(true, 0), (false, 2664), (true, 888)]) = some [.ok none, .ok none, .ok none] := by
    rw [rc6Build, rc6Spans_eq (.inl rfl) _ (by decide)]
    decide +kernel
  exact ⟨h, (C77_rc6 ⟨true, 32⟩ .u32).event id 1000000 _ _ h⟩

/-- The premise is needed: a mark and a space of 36 minutes each make the checked build panic, the other one goes on. -/
example : results (necDecoder ⟨true, 32⟩ Mono.u32 (necTable 1000000) necDebug) id
      [(false, 2 ^ 31), (true, 2 ^ 31)] = none ∧
    results (necDecoder (release ⟨true, 32⟩) Mono.u32 (necTable 1000000) necDebug) id
      [(false, 2 ^ 31), (true, 2 ^ 31)] = some [.ok none, .ok none] := by decide +kernel

end Infrared
