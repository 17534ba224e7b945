import Verif.Spec.Drivers
import Verif.Lemmas.Run

/-!
# Lemmas about the receiver front ends
-/

namespace Infrared

open Spec

variable {C K E I : Type}

/-! ### Buffers -/

/-- A finished decoder always has a command. -/
def Decoder.Commits (D : Decoder C) : Prop :=
  ∀ s edge dt s', D.event s edge dt = some (s', .done) → ∃ c, D.command s' = some c

/-- What `next` reports for a result. -/
def reportOf (conv : C → K) : Res C → Option K
  | .ok c => c.map conv
  | .error _ => none

theorem next_done (D : Decoder C) (conv : C → K) (it : BufferIterator D)
    (h : ¬ it.pos < it.buf.length) : it.next D conv = some (it, none) := by
  rw [BufferIterator.next, dif_neg h]

theorem next_step (D : Decoder C) (hD : D.Commits) (conv : C → K) (it : BufferIterator D)
    (h : it.pos < it.buf.length) :
    it.next D conv = match D.eventTotal it.decoder (decide (it.pos % 2 = 0)) it.buf[it.pos] with
      | none => none
      | some (d, .ok none) =>
        BufferIterator.next D conv { pos := it.pos + 1, buf := it.buf, decoder := d }
      | some (d, r) => some ({ pos := it.pos + 1, buf := it.buf, decoder := d }, reportOf conv r) := by
  rw [BufferIterator.next, dif_pos h, Decoder.eventTotal]
  dsimp only
  rcases he : D.event it.decoder (decide (it.pos % 2 = 0)) it.buf[it.pos] with _ | ⟨d, st⟩
  · rfl
  · cases st with
    | done =>
      obtain ⟨c, hc⟩ := hD _ _ _ _ he
      simp [hc, reportOf]
    | _ => simp [reportOf]

theorem alternating_drop (b : Bool) (buf : List Nat) (n : Nat) (h : n < buf.length)
    (hb : b = decide (n % 2 = 0)) :
    alternating b (buf.drop n) = (b, buf[n]) :: alternating (decide ((n + 1) % 2 = 0))
      (buf.drop (n + 1)) := by
  rw [List.drop_eq_getElem_cons h]
  simp only [alternating]
  congr 2
  subst hb
  by_cases h2 : n % 2 = 0
  · have : ¬ (n + 1) % 2 = 0 := by omega
    simp [h2, this]
  · have : (n + 1) % 2 = 0 := by omega
    simp [h2, this]

/-- One call of `next`. -/
theorem next_spec (D : Decoder C) (hD : D.Commits) (conv : C → K) (it : BufferIterator D)
    {s' : D.St} {o : List (Res C)}
    (h : runStep D.step it.decoder (alternating (decide (it.pos % 2 = 0)) (it.buf.drop it.pos)) =
      some (s', o)) :
    (∃ it', it.next D conv = some (it', none) ∧ it'.buf = it.buf ∧ ¬ it'.pos < it'.buf.length ∧
      ∀ x ∈ o, x = .ok none) ∨
    ∃ k r rest it', o = List.replicate k (.ok none) ++ r :: rest ∧ r ≠ .ok none ∧
      it.next D conv = some (it', reportOf conv r) ∧ it'.buf = it.buf ∧
      it'.pos = it.pos + k + 1 ∧ it'.pos ≤ it'.buf.length ∧
      runStep D.step it'.decoder (alternating (decide (it'.pos % 2 = 0)) (it'.buf.drop it'.pos)) =
        some (s', rest) := by
  by_cases hlt : it.pos < it.buf.length
  · rw [alternating_drop _ _ _ hlt rfl] at h
    obtain ⟨s1, r, o', h1, h2, rfl⟩ := run_cons_inv h
    rw [next_step D hD conv it hlt]
    simp only [Decoder.step] at h1
    rw [h1]
    by_cases hr : r = .ok none
    · subst hr
      dsimp only
      rcases next_spec D hD conv { pos := it.pos + 1, buf := it.buf, decoder := s1 } h2 with
        ⟨it', h3, h4, h5, h6⟩ | ⟨k, r, rest, it', rfl, h4, h5, h6, h7, h8, h9⟩
      · exact .inl ⟨it', h3, h4, h5, by simpa using h6⟩
      · refine .inr ⟨k + 1, r, rest, it', ?_, h4, h5, h6, ?_, h8, h9⟩
        · rw [List.replicate_succ]; rfl
        · rw [h7]; dsimp only; omega
    · right
      refine ⟨0, r, o', { pos := it.pos + 1, buf := it.buf, decoder := s1 }, rfl, hr, ?_, rfl, rfl,
        hlt, h2⟩
      rcases r with e | _ | c
      · rfl
      · exact absurd rfl hr
      · rfl
  · left
    refine ⟨it, next_done D conv it hlt, rfl, hlt, ?_⟩
    rw [List.drop_eq_nil_of_le (by omega)] at h
    simp only [alternating, runStep, Option.some.injEq, Prod.mk.injEq] at h
    rw [← h.2]
    simp
termination_by it.buf.length - it.pos

theorem reports_okNone (o : List (Res K)) (h : ∀ x ∈ o, x = .ok none) : reports o = [] := by
  rw [reports, List.filterMap_eq_nil_iff]
  intro x hx
  rw [h x hx]

theorem commands_append (a b : List (Res K)) : commands (a ++ b) = commands a ++ commands b := by
  simp [commands]

theorem reports_append (a b : List (Res K)) : reports (a ++ b) = reports a ++ reports b := by
  simp [reports]

theorem commands_okNone (o : List (Res K)) (h : ∀ x ∈ o, x = .ok none) : commands o = [] := by
  rw [commands, List.filterMap_eq_nil_iff]
  intro x hx
  rw [h x hx]

theorem map_okNone {conv : C → K} {o : List (Res C)} (h : ∀ x ∈ o, x = .ok none) :
    ∀ x ∈ o.map (Res.map conv), x = .ok none := by
  intro x hx
  obtain ⟨y, hy, rfl⟩ := List.mem_map.mp hx
  rw [h y hy]; rfl

theorem map_replicate_none (conv : C → K) (k : Nat) :
    (List.replicate k (.ok none : Res C)).map (Res.map conv) = List.replicate k (.ok none) := by
  rw [List.map_replicate]; rfl

theorem nextN_end (D : Decoder C) (conv : C → K) (n : Nat) (it : BufferIterator D)
    (h : ¬ it.pos < it.buf.length) : it.nextN D conv n = some (List.replicate n none) := by
  induction n with
  | zero => rfl
  | succ n ih => simp [BufferIterator.nextN, next_done D conv it h, ih, List.replicate_succ]

theorem nextN_spec (D : Decoder C) (hD : D.Commits) (conv : C → K) (n : Nat)
    (it : BufferIterator D) {s' : D.St} {o : List (Res C)}
    (h : runStep D.step it.decoder (alternating (decide (it.pos % 2 = 0)) (it.buf.drop it.pos)) =
      some (s', o)) :
    it.nextN D conv n =
      some ((reports (o.map (Res.map conv)) ++ List.replicate n none).take n) := by
  induction n generalizing it o with
  | zero => rfl
  | succ n ih =>
    rcases next_spec D hD conv it h with ⟨it', h1, -, h2, h3⟩ |
      ⟨k, r, rest, it', rfl, h4, h5, h6, h7, h8, h9⟩
    · rw [reports_okNone _ (map_okNone h3)]
      simp [BufferIterator.nextN, h1, nextN_end D conv n it' h2, List.replicate_succ]
    · have hrep : reports ((List.replicate k (.ok none : Res C) ++ r :: rest).map (Res.map conv)) =
          reportOf conv r :: reports (rest.map (Res.map conv)) := by
        rw [List.map_append, reports_append, map_replicate_none,
          reports_okNone _ (by intro x hx; exact List.eq_of_mem_replicate hx)]
        rcases r with e | _ | c
        · rfl
        · exact absurd rfl h4
        · rfl
      rw [hrep]
      simp only [BufferIterator.nextN, h5, ih it' h9, Option.map_some, List.cons_append,
        List.take_succ_cons]
      congr 2
      rw [List.replicate_succ', ← List.append_assoc,
        List.take_append_of_le_length (l₂ := [none]) (by simp)]

theorem collect_spec (D : Decoder C) (hD : D.Commits) (conv : C → K) (n : Nat)
    (it : BufferIterator D) (hn : it.buf.length - it.pos < n) {s' : D.St} {o : List (Res C)}
    (h : runStep D.step it.decoder (alternating (decide (it.pos % 2 = 0)) (it.buf.drop it.pos)) =
      some (s', o)) :
    BufferIterator.collectFuel D conv n it =
      some (commands ((o.map (Res.map conv)).takeWhile isOk)) := by
  induction n generalizing it o with
  | zero => omega
  | succ n ih =>
    rcases next_spec D hD conv it h with ⟨it', h1, -, h2, h3⟩ |
      ⟨k, r, rest, it', rfl, h4, h5, h6, h7, h8, h9⟩
    · have h3' := map_okNone (conv := conv) h3
      rw [commands_okNone _ (fun x hx => h3' x (List.takeWhile_subset _ hx))]
      simp [BufferIterator.collectFuel, h1]
    · have hpre : ((List.replicate k (.ok none : Res C) ++ r :: rest).map (Res.map conv)).takeWhile isOk =
          List.replicate k (.ok none) ++ ((r :: rest).map (Res.map conv)).takeWhile isOk := by
        rw [List.map_append, map_replicate_none, List.takeWhile_append_of_pos]
        intro x hx
        rw [List.eq_of_mem_replicate hx]; rfl
      rw [hpre, commands_append,
        commands_okNone _ (by intro x hx; exact List.eq_of_mem_replicate hx), List.nil_append]
      simp only [BufferIterator.collectFuel, h5]
      rcases r with e | _ | c
      · rfl
      · exact absurd rfl h4
      · simp only [reportOf, Option.map_some]
        rw [ih it' (by rw [h6] at h8 ⊢; rw [h7] at h8 ⊢; omega) h9]
        rfl

/-! ### Pins -/

/-- Successful reads. -/
def goodReads {J A : Type} (rd : J → Except E (Bool × A)) : List J → List (Bool × A)
  | [] => []
  | j :: js =>
    match rd j with
    | .ok a => a :: goodReads rd js
    | .error _ => goodReads rd js

theorem pin_fill {S J A : Type} (f : S → Bool × A → Option (S × Res K))
    (g : S → J → Option (S × PinRes E K)) (rd : J → Except E (Bool × A))
    (hf : ∀ s j e, rd j = .error e → g s j = some (s, .error (.hal e)))
    (hg : ∀ s j a, rd j = .ok a → g s j = (f s a).map fun p => (p.1, PinRes.ofRes p.2))
    (s : S) (calls : List J) :
    (runStep g s calls).map Prod.snd = ((runStep f s (goodReads rd calls)).map Prod.snd).map
        (pinResults (calls.map fun j => (rd j).map Prod.fst)) := by
  induction calls generalizing s with
  | nil => rfl
  | cons c cs ih =>
    rcases hrd : rd c with e | b
    · simp only [runStep, hf s c e hrd, goodReads, List.map_cons, hrd]
      have h := ih s
      rcases h1 : runStep g s cs with _ | ⟨s1, o1⟩
      · rw [h1] at h
        rcases h2 : runStep f s (goodReads rd cs) with _ | ⟨s2, o2⟩
        · rfl
        · rw [h2] at h; simp at h
      · rw [h1] at h
        rcases h2 : runStep f s (goodReads rd cs) with _ | ⟨s2, o2⟩
        · rw [h2] at h; simp at h
        · rw [h2] at h
          simp only [Option.map_some, Option.some.injEq] at h
          simp [pinResults, h, Except.map]
    · simp only [runStep, hg s c b hrd, goodReads, List.map_cons, hrd]
      rcases f s b with _ | ⟨s', r⟩
      · rfl
      simp only [Option.map_some]
      have h := ih s'
      rcases h1 : runStep g s' cs with _ | ⟨s1, o1⟩
      · rw [h1] at h
        rcases h2 : runStep f s' (goodReads rd cs) with _ | ⟨s2, o2⟩
        · rfl
        · rw [h2] at h; simp at h
      · rw [h1] at h
        rcases h2 : runStep f s' (goodReads rd cs) with _ | ⟨s2, o2⟩
        · rw [h2] at h; simp at h
        · rw [h2] at h
          simp only [Option.map_some, Option.some.injEq] at h
          rcases r with (_ | _ | _ | _) | c <;>
            simp [pinResults, PinRes.ofRes, Error.ofDecoding, h, Except.map]

/-- The read of a call with an argument. -/
def readOf (c : Except E Bool × Nat) : Except E (Bool × Nat) := c.1.map fun b => (b, c.2)

theorem goodReads_pair (calls : List (Except E Bool × Nat)) :
    goodReads readOf calls = readable calls := by
  induction calls with
  | nil => rfl
  | cons c cs ih => obtain ⟨e | b, i⟩ := c <;> simp [goodReads, readOf, readable, Except.map, ih]

theorem goodReads_map (calls : List (Except E Bool × Nat)) :
    (calls.map fun j => (readOf j).map Prod.fst) = calls.map Prod.fst := by
  apply List.map_congr_left
  rintro ⟨e | b, i⟩ - <;> rfl

/-- The read of a call without argument. -/
def readUnit (c : Except E Bool) : Except E (Bool × Unit) := c.map fun b => (b, ())

theorem goodReads_unit (calls : List (Except E Bool)) :
    (goodReads readUnit calls).map Prod.fst = readableSamples calls := by
  induction calls with
  | nil => rfl
  | cons c cs ih =>
    obtain e | b := c <;> simp [goodReads, readUnit, readableSamples, Except.map, ih]

theorem goodReads_unit_map (calls : List (Except E Bool)) :
    (calls.map fun c => (readUnit c).map Prod.fst) = calls := by
  refine Eq.trans (List.map_congr_left ?_) (List.map_id calls)
  rintro (e | b) - <;> rfl

theorem runStep_map {S A B R : Type} (f : S → B → Option (S × R)) (h : A → B) (s : S)
    (as : List A) : runStep (fun s a => f s (h a)) s as = runStep f s (as.map h) := by
  induction as generalizing s with
  | nil => rfl
  | cons a as ih =>
    simp only [runStep, List.map_cons]
    rcases f s (h a) with _ | ⟨s', r⟩
    · rfl
    · simp only [ih]

/-! ### Components -/

theorem mapM_some_cons {A : Type _} {B : Type _} (f : A → Option B) (a : A) (as : List A) :
    (a :: as).mapM f = (f a).bind fun b => (as.mapM f).map (b :: ·) := by
  rw [List.mapM_cons]
  rcases f a with _ | b
  · rfl
  · rcases as.mapM f with _ | bs <;> rfl

theorem Res.map_id (r : Res C) : Res.map id r = r := by
  rcases r with e | c <;> simp [Res.map]

theorem slot_event (s : Slot) (dt : Nat) (edge : Bool) :
    s.event dt edge = (s.comp.D.eventTotal s.recv.decoder edge dt).map fun p =>
      (⟨s.comp, { s.recv with decoder := p.1 }⟩, slotOf s.comp.into p.2) := by
  unfold Slot.event Receiver.event
  rw [Receiver.eventEdge_eq]
  rcases s.comp.D.eventTotal s.recv.decoder edge dt with _ | ⟨d, e | c⟩
  · rfl
  · rfl
  · simp [Res.map, slotOf]

theorem mapM_none {A : Type _} {B : Type _} (f : A → Option B) (as : List A) :
    as.mapM f = none ↔ ∃ a ∈ as, f a = none := by
  induction as with
  | nil => simp
  | cons a as ih =>
    rw [mapM_some_cons]
    rcases h : f a with _ | b
    · simp [h]
    · simp [h, ih]

theorem mapM_get {A : Type _} {B : Type _} (f : A → Option B) (as : List A) (bs : List B)
    (h : as.mapM f = some bs) (i : Nat) (a : A) (ha : as[i]? = some a) :
    ∃ b, f a = some b ∧ bs[i]? = some b := by
  induction as generalizing bs i with
  | nil => simp at ha
  | cons x xs ih =>
    rw [mapM_some_cons] at h
    rcases hx : f x with _ | y
    · simp [hx] at h
    rcases hxs : xs.mapM f with _ | ys
    · simp [hx, hxs] at h
    simp only [hx, hxs, Option.bind_some, Option.map_some, Option.some.injEq] at h
    subst h
    cases i with
    | zero =>
      simp only [List.getElem?_cons_zero, Option.some.injEq] at ha
      subst ha
      exact ⟨y, hx, rfl⟩
    | succ i => exact ih ys hxs i ha

theorem mapM_length {A : Type _} {B : Type _} (f : A → Option B) (as : List A) (bs : List B)
    (h : as.mapM f = some bs) : bs.length = as.length := by
  induction as generalizing bs with
  | nil => simp at h; simp [← h]
  | cons x xs ih =>
    rw [mapM_some_cons] at h
    rcases hx : f x with _ | y
    · simp [hx] at h
    rcases hxs : xs.mapM f with _ | ys
    · simp [hx, hxs] at h
    simp only [hx, hxs, Option.bind_some, Option.map_some, Option.some.injEq] at h
    subst h
    simp [ih ys hxs]

/-- The slot after a step. -/
def Slot.put (s : Slot) (d : s.comp.D.St) : Slot := ⟨s.comp, { s.recv with decoder := d }⟩

theorem multiRun_none (ss : List Slot) (evs : List Ev) : multiRun ss evs = none ↔
    ∃ s ∈ ss, runStep s.comp.D.step s.recv.decoder evs = none := by
  induction evs generalizing ss with
  | nil => simp [multiRun, runStep]
  | cons e es ih =>
    simp only [multiRun]
    rcases hm : multiEvent ss e.2 e.1 with _ | rs
    · simp only [true_iff]
      obtain ⟨s, hs, h1⟩ := (mapM_none _ _).mp hm
      refine ⟨s, hs, ?_⟩
      rw [slot_event, Option.map_eq_none_iff] at h1
      simp [runStep, Decoder.step, h1]
    · have hget : ∀ s ∈ ss, ∃ p, s.comp.D.step s.recv.decoder e = some p ∧
          (s.put p.1, slotOf s.comp.into p.2) ∈ rs := by
        intro s hs
        obtain ⟨i, hi⟩ := List.mem_iff_getElem?.mp hs
        obtain ⟨b, h1, h2⟩ := mapM_get _ _ _ hm i s hi
        rw [slot_event, Option.map_eq_some_iff] at h1
        obtain ⟨p, h1, rfl⟩ := h1
        exact ⟨p, h1, List.mem_of_getElem? h2⟩
      have hget' : ∀ x ∈ rs, ∃ s ∈ ss, ∃ p, s.comp.D.step s.recv.decoder e = some p ∧
          x = (s.put p.1, slotOf s.comp.into p.2) := by
        intro x hx
        obtain ⟨i, hi⟩ := List.mem_iff_getElem?.mp hx
        have hlen : i < ss.length := by
          rcases Nat.lt_or_ge i ss.length with h | h
          · exact h
          · exfalso
            have hl := mapM_length _ _ _ hm
            rw [List.getElem?_eq_none (by omega)] at hi
            cases hi
        obtain ⟨b, h1, h2⟩ := mapM_get _ _ _ hm i ss[i] (List.getElem?_eq_getElem hlen)
        rw [hi] at h2
        cases h2
        rw [slot_event, Option.map_eq_some_iff] at h1
        obtain ⟨p, h1, rfl⟩ := h1
        exact ⟨ss[i], List.getElem_mem hlen, p, h1, rfl⟩
      have h3 : multiRun (rs.map Prod.fst) es = none ↔
          ∃ s ∈ ss, ∃ p, s.comp.D.step s.recv.decoder e = some p ∧
            runStep s.comp.D.step p.1 es = none := by
        rw [ih]
        constructor
        · rintro ⟨s, hs, h1⟩
          obtain ⟨x, hx, rfl⟩ := List.mem_map.mp hs
          obtain ⟨s0, hs0, p, h2, rfl⟩ := hget' x hx
          exact ⟨s0, hs0, p, h2, h1⟩
        · rintro ⟨s, hs, p, h1, h2⟩
          obtain ⟨p', h3, h4⟩ := hget s hs
          rw [h1] at h3
          cases h3
          exact ⟨_, List.mem_map.mpr ⟨_, h4, rfl⟩, h2⟩
      have h4 : (∃ s ∈ ss, ∃ p, s.comp.D.step s.recv.decoder e = some p ∧
            runStep s.comp.D.step p.1 es = none) ↔
          ∃ s ∈ ss, runStep s.comp.D.step s.recv.decoder (e :: es) = none := by
        refine exists_congr fun s => and_congr_right fun hs => ?_
        obtain ⟨⟨s', res⟩, h1, -⟩ := hget s hs
        simp only [runStep, h1, Option.some.injEq]
        rcases h5 : runStep s.comp.D.step s' es with _ | q <;> simp [h5]
      rw [← h4, ← h3]
      dsimp only
      rcases multiRun (rs.map Prod.fst) es with _ | q <;> simp

theorem multiRun_some (ss ss' : List Slot) (evs : List Ev) (outs : List (List (Option AnyCommand)))
    (h : multiRun ss evs = some (ss', outs)) (i : Nat) (s : Slot) (hs : ss[i]? = some s) :
    ∃ q, runStep s.comp.D.step s.recv.decoder evs = some q ∧
      outs.map (fun row => row[i]?) = q.2.map fun r => some (slotOf s.comp.into r) := by
  induction evs generalizing ss outs s with
  | nil =>
    simp only [multiRun, Option.some.injEq, Prod.mk.injEq] at h
    exact ⟨_, rfl, by simp [← h.2]⟩
  | cons e es ih =>
    simp only [multiRun] at h
    rcases hm : multiEvent ss e.2 e.1 with _ | rs
    · simp [hm] at h
    rw [hm] at h
    dsimp only at h
    rcases hr : multiRun (rs.map Prod.fst) es with _ | ⟨ss2, outs2⟩
    · simp [hr] at h
    simp only [hr, Option.some.injEq, Prod.mk.injEq] at h
    obtain ⟨rfl, rfl⟩ := h
    obtain ⟨b, h1, h2⟩ := mapM_get _ _ _ hm i s hs
    rw [slot_event, Option.map_eq_some_iff] at h1
    obtain ⟨p, h1, rfl⟩ := h1
    obtain ⟨q, h3, h4⟩ := ih (rs.map Prod.fst) outs2 hr (s.put p.1) (by simp [h2, Slot.put])
    have h1' : s.comp.D.step s.recv.decoder e = some p := h1
    have h3' : runStep s.comp.D.step p.1 es = some q := h3
    refine ⟨(q.1, p.2 :: q.2), ?_, ?_⟩
    · simp only [runStep, h1', h3']
    · simp only [List.map_cons, List.getElem?_map, h2, Option.map_some, h4]
      rfl

/-! ### Structural version of `next` -/

/-- `next` with explicit fuel. -/
def BufferIterator.nextFuel (D : Decoder C) (conv : C → K) :
    Nat → BufferIterator D → Option (BufferIterator D × Option K)
  | 0, it => some (it, none)
  | fuel + 1, it =>
    match it.buf[it.pos]? with
    | none => some (it, none)
    | some dt =>
      match D.event it.decoder (decide (it.pos % 2 = 0)) dt with
      | none => none
      | some (d, .idle) => nextFuel D conv fuel { pos := it.pos + 1, buf := it.buf, decoder := d }
      | some (d, .receiving) =>
        nextFuel D conv fuel { pos := it.pos + 1, buf := it.buf, decoder := d }
      | some (d, .done) =>
        some ({ pos := it.pos + 1, buf := it.buf, decoder := D.reset d }, (D.command d).map conv)
      | some (d, .error _) =>
        some ({ pos := it.pos + 1, buf := it.buf, decoder := D.reset d }, none)

theorem next_eq_fuel (D : Decoder C) (conv : C → K) (n : Nat) (it : BufferIterator D)
    (hn : it.buf.length - it.pos < n) : it.next D conv = it.nextFuel D conv n := by
  induction n generalizing it with
  | zero => omega
  | succ n ih =>
    rw [BufferIterator.next]
    by_cases h : it.pos < it.buf.length
    · simp only [h, dite_true, BufferIterator.nextFuel, List.getElem?_eq_getElem h]
      rcases D.event it.decoder (decide (it.pos % 2 = 0)) it.buf[it.pos] with _ | ⟨d, st⟩
      · rfl
      · cases st
        · exact ih { pos := it.pos + 1, buf := it.buf, decoder := d } (by dsimp only; omega)
        · exact ih { pos := it.pos + 1, buf := it.buf, decoder := d } (by dsimp only; omega)
        · rfl
        · rfl
    · simp only [h, dite_false, BufferIterator.nextFuel]
      rw [List.getElem?_eq_none (by omega)]

end Infrared
