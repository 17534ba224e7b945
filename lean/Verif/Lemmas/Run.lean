import Verif.Spec.Run
import Verif.Lemmas.Time

/-!
# Generic lemmas about histories
-/

namespace Infrared

variable {C K : Type}

/-- `event_total` as a step function. -/
def Decoder.step (D : Decoder C) (s : D.St) (e : Ev) : Option (D.St × Res C) :=
  D.eventTotal s e.1 e.2

theorem Receiver.eventEdge_eq (D : Decoder C) (conv : C → K) (r : Receiver D) (dt : Nat)
    (edge : Bool) : r.eventEdge D conv dt edge =
      (D.eventTotal r.decoder edge dt).map fun p =>
        ({ r with decoder := p.1 }, Res.map conv p.2) := by
  unfold Receiver.eventEdge Decoder.eventTotal
  rcases D.event r.decoder edge dt with _ | ⟨d, _ | _ | _ | _⟩ <;> rfl

theorem Receiver.run_eq (D : Decoder C) (conv : C → K) (r : Receiver D) (evs : List Ev) :
    r.run D conv evs = (runStep D.step r.decoder evs).map fun p =>
      ({ r with decoder := p.1 }, p.2.map (Res.map conv)) := by
  induction evs generalizing r with
  | nil => rfl
  | cons e es ih =>
    simp only [Receiver.run, runStep, Decoder.step, Receiver.event, Receiver.eventEdge_eq]
    rcases D.eventTotal r.decoder e.1 e.2 with _ | ⟨s', res⟩
    · rfl
    · simp only [Option.map_some]
      rw [ih]
      rcases runStep D.step s' es with _ | ⟨s'', out⟩ <;> rfl

theorem results_eq (D : Decoder C) (conv : C → K) (evs : List Ev) :
    results D conv evs = (runStep D.step D.init evs).map fun p => p.2.map (Res.map conv) := by
  unfold results
  rw [Receiver.run_eq]
  simp [Receiver.new, Function.comp_def]

theorem Receiver.run_of {D : Decoder C} (conv : C → K) {r : Receiver D} {evs : List Ev}
    {s' : D.St} {o : List (Res C)} (h : runStep D.step r.decoder evs = some (s', o)) :
    r.run D conv evs = some ({ r with decoder := s' }, o.map (Res.map conv)) := by
  rw [Receiver.run_eq, h]; rfl

theorem Receiver.run_inv {D : Decoder C} {conv : C → K} {r r' : Receiver D} {evs : List Ev}
    {outs : List (Res K)} (h : r.run D conv evs = some (r', outs)) :
    ∃ o, runStep D.step r.decoder evs = some (r'.decoder, o) ∧ outs = o.map (Res.map conv) ∧
      r'.prevInstant = r.prevInstant := by
  rw [Receiver.run_eq] at h
  rcases hr : runStep D.step r.decoder evs with _ | ⟨s, o⟩
  · simp [hr] at h
  · rw [hr] at h
    simp only [Option.map_some, Option.some.injEq, Prod.mk.injEq] at h
    obtain ⟨rfl, rfl⟩ := h
    exact ⟨o, rfl, rfl, rfl⟩

theorem results_of {D : Decoder C} (conv : C → K) {evs : List Ev}
    {s' : D.St} {o : List (Res C)} (h : runStep D.step D.init evs = some (s', o)) :
    results D conv evs = some (o.map (Res.map conv)) := by
  rw [results_eq, h]; rfl

theorem results_inv {D : Decoder C} {conv : C → K} {evs : List Ev}
    {outs : List (Res K)} (h : results D conv evs = some outs) :
    ∃ s o, runStep D.step D.init evs = some (s, o) ∧ outs = o.map (Res.map conv) := by
  rw [results_eq] at h
  rcases hr : runStep D.step D.init evs with _ | ⟨s, o⟩
  · simp [hr] at h
  · rw [hr] at h
    simp only [Option.map_some, Option.some.injEq] at h
    exact ⟨s, o, rfl, h.symm⟩

section
variable {S I R : Type} (f : S → I → Option (S × R))

theorem run_append (s : S) (a b : List I) :
    runStep f s (a ++ b) = (runStep f s a).bind fun p =>
      (runStep f p.1 b).map fun q => (q.1, p.2 ++ q.2) := by
  induction a generalizing s with
  | nil => simp [runStep]
  | cons e es ih =>
    simp only [List.cons_append, runStep]
    rcases f s e with _ | ⟨s', res⟩
    · rfl
    · simp only [ih]
      rcases runStep f s' es with _ | ⟨s'', out⟩
      · rfl
      · simp only [Option.bind_some]
        rcases runStep f s'' b with _ | ⟨s3, out3⟩ <;> rfl

variable {f}

theorem run_append_some {s s1 s2 : S} {a b : List I}
    {o1 o2 : List R} (h1 : runStep f s a = some (s1, o1)) (h2 : runStep f s1 b = some (s2, o2)) :
    runStep f s (a ++ b) = some (s2, o1 ++ o2) := by
  rw [run_append, h1]; simp [h2]

theorem run_append_inv {s s2 : S} {a b : List I}
    {o : List R} (h : runStep f s (a ++ b) = some (s2, o)) :
    ∃ s1 o1 o2, runStep f s a = some (s1, o1) ∧ runStep f s1 b = some (s2, o2) ∧ o = o1 ++ o2 := by
  rw [run_append] at h
  rcases h1 : runStep f s a with _ | ⟨s1, o1⟩
  · simp [h1] at h
  · rw [h1] at h
    simp only [Option.bind_some] at h
    rcases h2 : runStep f s1 b with _ | ⟨s3, o3⟩
    · simp [h2] at h
    · rw [h2] at h
      simp only [Option.map_some, Option.some.injEq, Prod.mk.injEq] at h
      exact ⟨s1, o1, o3, rfl, by rw [h2, h.1], h.2.symm⟩

theorem run_singleton (s : S) (e : I) :
    runStep f s [e] = (f s e).map fun p => (p.1, [p.2]) := by
  simp only [runStep]
  rcases f s e with _ | ⟨s', res⟩ <;> rfl

theorem run_cons_inv {s s2 : S} {e : I} {es : List I} {o : List R}
    (h : runStep f s (e :: es) = some (s2, o)) :
    ∃ s1 r o', f s e = some (s1, r) ∧ runStep f s1 es = some (s2, o') ∧ o = r :: o' := by
  simp only [runStep] at h
  rcases h1 : f s e with _ | ⟨s1, res⟩
  · simp [h1] at h
  · simp only [h1] at h
    rcases h2 : runStep f s1 es with _ | ⟨s3, out⟩
    · simp [h2] at h
    · simp only [h2, Option.some.injEq, Prod.mk.injEq] at h
      exact ⟨s1, res, out, rfl, by rw [h2, h.1], h.2.symm⟩

theorem run_length {s s' : S} {evs : List I} {o : List R}
    (h : runStep f s evs = some (s', o)) : o.length = evs.length := by
  induction evs generalizing s o with
  | nil => simp [runStep] at h; simp [← h.2]
  | cons e es ih =>
    obtain ⟨s1, r, o', -, h2, rfl⟩ := run_cons_inv h
    simp [ih h2]

/-- Induction over histories: an invariant relating the history so far to the state. -/
theorem run_inv (Inv : List I → S → Prop)
    (hstep : ∀ h s e s' r, Inv h s → f s e = some (s', r) → Inv (h ++ [e]) s')
    {h0 : List I} {s0 : S} (hinit : Inv h0 s0) {evs : List I} {s' : S}
    {o : List R} (h : runStep f s0 evs = some (s', o)) : Inv (h0 ++ evs) s' := by
  induction evs generalizing h0 s0 o with
  | nil => simp [runStep] at h; simpa [← h.1] using hinit
  | cons e es ih =>
    obtain ⟨s1, r, o', h1, h2, -⟩ := run_cons_inv h
    have := ih (hstep _ _ _ _ _ hinit h1) h2
    simpa using this

/-- Last event of a history. -/
theorem run_snoc_inv {s s2 : S} {a : List I} {e : I}
    {o : List R} (h : runStep f s (a ++ [e]) = some (s2, o)) :
    ∃ s1 o1 r, runStep f s a = some (s1, o1) ∧ f s1 e = some (s2, r) ∧ o = o1 ++ [r] := by
  obtain ⟨s1, o1, o2, h1, h2, h3⟩ := run_append_inv h
  obtain ⟨s3, r, o', h4, h5, rfl⟩ := run_cons_inv h2
  simp only [runStep, Option.some.injEq, Prod.mk.injEq] at h5
  obtain ⟨rfl, rfl⟩ := h5
  exact ⟨s1, o1, r, h1, h4, h3⟩

/-- A result at position `i` is the result of event `i` in the state reached before it. -/
theorem run_get {s s2 : S} {evs : List I} {o : List R}
    (h : runStep f s evs = some (s2, o)) {i : Nat} {r : R} (hr : o[i]? = some r) :
    ∃ e s1 o1 s1', evs[i]? = some e ∧ runStep f s (evs.take i) = some (s1, o1) ∧
      f s1 e = some (s1', r) ∧
      evs.take (i + 1) = evs.take i ++ [e] ∧
      runStep f s (evs.take (i + 1)) = some (s1', o1 ++ [r]) ∧ o1 = o.take i := by
  have hlen := run_length h
  obtain ⟨hi, -⟩ := List.getElem?_eq_some_iff.mp hr
  have hi' : i < evs.length := by omega
  have h' := h
  rw [← List.take_append_drop (i + 1) evs] at h'
  obtain ⟨s3, o3, o4, h3, h4, h5⟩ := run_append_inv h'
  rw [List.take_add_one, List.getElem?_eq_getElem hi'] at h3
  simp only [Option.toList_some] at h3
  obtain ⟨s1, o1, r', h6, h7, h8⟩ := run_snoc_inv h3
  have hl1 := run_length h6
  have hl1' : o1.length = i := by simp [hl1]; omega
  have hrr : r' = r := by
    rw [h5, h8, List.append_assoc, List.getElem?_append_right (by omega)] at hr
    simpa [hl1'] using hr
  subst hrr
  have htake : evs.take (i + 1) = evs.take i ++ [evs[i]] := by
    rw [List.take_add_one, List.getElem?_eq_getElem hi']; rfl
  refine ⟨evs[i], s1, o1, s3, List.getElem?_eq_getElem hi', h6, h7, htake, ?_, ?_⟩
  · rw [htake, h3, h8]
  · rw [h5, h8, List.append_assoc, List.take_append_of_le_length (by omega), ← hl1',
      List.take_length]

end

theorem Spec.periodsFrom_append_rising (w saved : Nat) (evs : List Ev) (dt : Nat) :
    ∃ sv, Spec.periodsFrom w saved (evs ++ [(true, dt)]) =
      Spec.periodsFrom w saved evs ++ [(sv + dt) % 2 ^ w] := by
  induction evs generalizing saved with
  | nil => exact ⟨saved, rfl⟩
  | cons e es ih =>
    obtain ⟨_ | _, d⟩ := e
    · exact ih d
    · obtain ⟨sv, h⟩ := ih 0
      exact ⟨sv, by simp [Spec.periodsFrom, h]⟩

/-- Mark in progress at the end of a history. -/
def savedAfter : Nat → List Ev → Nat
  | sv, [] => sv
  | _, (false, dt) :: es => savedAfter dt es
  | _, (true, _) :: es => savedAfter 0 es

theorem savedAfter_append (sv : Nat) (a b : List Ev) :
    savedAfter sv (a ++ b) = savedAfter (savedAfter sv a) b := by
  induction a generalizing sv with
  | nil => rfl
  | cons e es ih => obtain ⟨_ | _, d⟩ := e <;> exact ih _

theorem periodsFrom_append (w sv : Nat) (a b : List Ev) :
    Spec.periodsFrom w sv (a ++ b) =
      Spec.periodsFrom w sv a ++ Spec.periodsFrom w (savedAfter sv a) b := by
  induction a generalizing sv with
  | nil => rfl
  | cons e es ih => obtain ⟨_ | _, d⟩ := e <;> simp [Spec.periodsFrom, savedAfter, ih]

/-! ### Clocks -/

/-- What the decoders need of `Duration + Duration`. -/
structure Mono.Lawful (m : Mono) : Prop where
  exact : ∀ t a b, a + b < 2 ^ m.width → m.add t a b = some (a + b)
  wraps : ∀ t a b c, m.add t a b = some c → c = (a + b) % 2 ^ m.width

theorem uadd_exact (t : Target) (w a b : Nat) (h : a + b < 2 ^ w) : uadd t w a b = some (a + b) := by
  simp [uadd, h]

theorem uadd_mod {t : Target} {w a b c : Nat} (h : uadd t w a b = some c) : c = (a + b) % 2 ^ w := by
  unfold uadd at h
  split at h
  · rename_i hlt
    rw [Nat.mod_eq_of_lt hlt]; simpa using h.symm
  · split at h
    · simp at h
    · simpa using h.symm

theorem uadd_release {t : Target} (ht : t.overflowChecks = false) (w a b : Nat) :
    uadd t w a b = some ((a + b) % 2 ^ w) := by
  unfold uadd
  split
  · rename_i hlt; rw [Nat.mod_eq_of_lt hlt]
  · simp [ht]

theorem Mono.u32_lawful : Mono.u32.Lawful :=
  ⟨fun t a b h => uadd_exact t 32 a b h, fun _ _ _ _ h => uadd_mod h⟩

theorem Mono.u64_lawful : Mono.u64.Lawful :=
  ⟨fun t a b h => uadd_exact t 64 a b h, fun _ _ _ _ h => uadd_mod h⟩

theorem Mono.fugit_lawful (w : Nat) (mi : Nat → Option Nat) (si : Nat → Nat → Option Nat) :
    (Mono.fugit w mi si).Lawful := by
  constructor
  · intro t a b h
    have h' : a + b < 2 ^ w := h
    simp [Mono.fugit, h']
  · intro t a b c h
    simp only [Mono.fugit] at h
    split at h
    · rename_i hlt
      show c = (a + b) % 2 ^ w
      rw [Nat.mod_eq_of_lt hlt]; simpa using h.symm
    · simp at h

theorem shl1_lt (t : Target) {w k : Nat} (h : k < w) : shl1 t w k = some ((1 : BitVec w) <<< k) := by
  simp [shl1, h]

theorem getLsbD_one_shl (w k i : Nat) (h : k < w) :
    ((1 : BitVec w) <<< k).getLsbD i = decide (i = k) := by
  by_cases hi : i < w
  · by_cases hik : i = k
    · subst hik; simp [hi]
    · by_cases hlt : i < k
      · simp [hi, hlt, hik]
      · have : i - k ≠ 0 := by omega
        simp [hi, hlt, hik, this]
  · have : ¬ i = k := by omega
    simp [hi, this]

theorem getLsbD_or_shl (w k i : Nat) (b : BitVec w) (h : k < w) :
    (b ||| (1 : BitVec w) <<< k).getLsbD i = (b.getLsbD i || decide (i = k)) := by
  rw [BitVec.getLsbD_or, getLsbD_one_shl w k i h]

theorem Mono.prim_lawful {m : Mono} (h : m.IsPrim) : m.Lawful := by
  rcases h with rfl | rfl
  · exact Mono.u32_lawful
  · exact Mono.u64_lawful

end Infrared
