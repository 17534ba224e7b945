import Verif.Spec.Robust
import Verif.Lemmas.Nec
import Verif.Lemmas.Sbp
import Verif.Lemmas.Denon
import Verif.Lemmas.Rc6

/-!
# Generic lemmas about runs: outputs, panics, bisimulation
-/

namespace Infrared

open Spec

section
variable {S S' I R : Type} {f : S → I → Option (S × R)} {g : S' → I → Option (S' × R)}

/-- A property of all outputs, from an invariant. -/
theorem run_outputs (Inv : S → Prop) (P : R → Prop)
    (hstep : ∀ s e s' r, Inv s → f s e = some (s', r) → Inv s' ∧ P r)
    {s s' : S} (hs : Inv s) {evs : List I} {o : List R} (h : runStep f s evs = some (s', o)) :
    ∀ x ∈ o, P x := by
  induction evs generalizing s o with
  | nil => simp [runStep] at h; obtain ⟨-, rfl⟩ := h; simp
  | cons e es ih =>
    obtain ⟨s1, r, o', h1, h2, rfl⟩ := run_cons_inv h
    obtain ⟨h3, h4⟩ := hstep _ _ _ _ hs h1
    intro x hx
    rcases List.mem_cons.mp hx with rfl | hx
    · exact h4
    · exact ih h3 h2 x hx

/-- Two step results agree: both panic, or both return the same and lead to related states. -/
def StepRel (Rel : S → S' → Prop) (a : Option (S × R)) (b : Option (S' × R)) : Prop :=
  (a = none ∧ b = none) ∨ ∃ s s' r, a = some (s, r) ∧ b = some (s', r) ∧ Rel s s'

theorem run_rel (Rel : S → S' → Prop) (hstep : ∀ s s' e, Rel s s' → StepRel Rel (f s e) (g s' e))
    {s : S} {s' : S'} (hs : Rel s s') (evs : List I) :
    StepRel Rel (runStep f s evs) (runStep g s' evs) := by
  induction evs generalizing s s' with
  | nil => exact .inr ⟨_, _, _, rfl, rfl, hs⟩
  | cons e es ih =>
    rcases hstep s s' e hs with ⟨h1, h2⟩ | ⟨s1, s1', r, h1, h2, h3⟩
    · exact .inl ⟨by simp [runStep, h1], by simp [runStep, h2]⟩
    · rcases ih h3 with ⟨h4, h5⟩ | ⟨s2, s2', r2, h4, h5, h6⟩
      · exact .inl ⟨by simp [runStep, h1, h4], by simp [runStep, h2, h5]⟩
      · exact .inr ⟨s2, s2', r :: r2, by simp [runStep, h1, h4], by simp [runStep, h2, h5], h6⟩

theorem StepRel.snd {Rel : S → S' → Prop} {a : Option (S × R)} {b : Option (S' × R)}
    (h : StepRel Rel a b) : a.map Prod.snd = b.map Prod.snd := by
  rcases h with ⟨h1, h2⟩ | ⟨s, s', r, h1, h2, -⟩ <;> simp [h1, h2]

/-- A run panics iff some step does. -/
theorem run_none_iff {s : S} {evs : List I} :
    runStep f s evs = none ↔ ∃ i e s1 o1, evs[i]? = some e ∧
      runStep f s (evs.take i) = some (s1, o1) ∧ f s1 e = none := by
  induction evs generalizing s with
  | nil => simp [runStep]
  | cons e es ih =>
    rcases h1 : f s e with _ | ⟨s1, r⟩
    · simp only [runStep, h1, true_iff]
      exact ⟨0, e, s, [], rfl, rfl, h1⟩
    · constructor
      · intro h
        have : runStep f s1 es = none := by
          simp only [runStep, h1] at h
          rcases h2 : runStep f s1 es with _ | ⟨s2, o⟩
          · rfl
          · simp [h2] at h
        obtain ⟨i, e', s2, o1, h3, h4, h5⟩ := ih.mp this
        exact ⟨i + 1, e', s2, r :: o1, by simpa using h3, by simp [runStep, h1, h4], h5⟩
      · rintro ⟨i, e', s2, o1, h3, h4, h5⟩
        cases i with
        | zero =>
          simp only [List.take_zero, runStep, Option.some.injEq, Prod.mk.injEq] at h4
          obtain ⟨rfl, rfl⟩ := h4
          simp only [List.getElem?_cons_zero, Option.some.injEq] at h3
          subst h3
          rw [h1] at h5; cases h5
        | succ i =>
          simp only [List.take_succ_cons] at h4
          obtain ⟨s1', r', o', h6, h7, rfl⟩ := run_cons_inv h4
          rw [h1] at h6
          simp only [Option.some.injEq, Prod.mk.injEq] at h6
          obtain ⟨rfl, rfl⟩ := h6
          have := ih.mpr ⟨i, e', s2, o', by simpa using h3, h7, h5⟩
          simp [runStep, h1, this]

end

/-- Results of a receiver in terms of its decoder. -/
theorem Receiver.run_snd {C K : Type} (D : Decoder C) (conv : C → K) (r : Receiver D)
    (evs : List Ev) : (r.run D conv evs).map Prod.snd =
      ((runStep D.step r.decoder evs).map Prod.snd).map (List.map (Res.map conv)) := by
  rw [Receiver.run_eq]
  rcases runStep D.step r.decoder evs with _ | ⟨s, o⟩ <;> rfl

theorem results_snd {C K : Type} (D : Decoder C) (conv : C → K) (evs : List Ev) :
    results D conv evs = ((runStep D.step D.init evs).map Prod.snd).map (List.map (Res.map conv)) := by
  rw [results_eq]
  rcases runStep D.step D.init evs with _ | ⟨s, o⟩ <;> rfl

theorem gap_iff (tbl : PulseSpans) (d : Nat) : Gap tbl d ↔ tbl.get d = none := by
  constructor
  · intro h
    rcases hg : tbl.get d with _ | k
    · rfl
    · exact absurd ((get_eq_iff' tbl k d).mp hg).1 (h k)
  · intro h i hi
    obtain ⟨s, hs, h1, h2⟩ := hi
    unfold PulseSpans.get at h
    rw [List.findIdx?_eq_none_iff] at h
    have := h s (List.mem_of_getElem? hs)
    simp [Span.contains, h1, h2] at this

/-! ### Pulse-distance decoders: panics are additions that overflow -/

/-- Generic: a decoder that remembers the last mark and adds it to the next space. -/
theorem sum_panics {S R : Type} {f : S → Ev → Option (S × R)} (saved : S → Nat) (Inv : S → Prop)
    (bad : Nat → Prop)
    (hfall : ∀ s dt, Inv s → ∃ s' r, f s (false, dt) = some (s', r) ∧ Inv s' ∧ saved s' = dt)
    (hrise : ∀ s dt, Inv s → ¬ bad (saved s + dt) →
      ∃ s' r, f s (true, dt) = some (s', r) ∧ Inv s' ∧ saved s' = 0)
    (hbad : ∀ s dt, Inv s → bad (saved s + dt) → f s (true, dt) = none)
    {s : S} (hs : Inv s) (evs : List Ev) :
    runStep f s evs = none ↔ ∃ p ∈ sumsFrom (saved s) evs, bad p := by
  induction evs generalizing s with
  | nil => simp [runStep, sumsFrom]
  | cons e es ih =>
    obtain ⟨_ | _, dt⟩ := e
    · obtain ⟨s', r, h1, h2, h3⟩ := hfall s dt hs
      have := ih h2
      rw [h3] at this
      simp only [sumsFrom, ← this, runStep, h1]
      rcases runStep f s' es with _ | ⟨s2, o⟩ <;> simp
    · by_cases hb : bad (saved s + dt)
      · simp only [runStep, hbad s dt hs hb, true_iff]
        exact ⟨_, by simp [sumsFrom], hb⟩
      · obtain ⟨s', r, h1, h2, h3⟩ := hrise s dt hs hb
        have := ih h2
        rw [h3] at this
        simp only [sumsFrom, List.mem_cons, exists_eq_or_imp, hb, false_or, ← this, runStep, h1]
        rcases runStep f s' es with _ | ⟨s2, o⟩ <;> simp

/-- When does adding two durations panic? -/
def Mono.Bad (m : Mono) (t : Target) (p : Nat) : Prop := t.overflowChecks = true ∧ 2 ^ m.width ≤ p

theorem prim_add_none {m : Mono} (hm : m.IsPrim) (t : Target) (a b : Nat) :
    m.add t a b = none ↔ m.Bad t (a + b) := by
  rcases hm with rfl | rfl <;>
  · simp only [Mono.u32, Mono.u64, uadd, Mono.Bad]
    split
    · rename_i h; simp; omega
    · rename_i h
      cases t.overflowChecks <;> simp <;> omega

end Infrared
