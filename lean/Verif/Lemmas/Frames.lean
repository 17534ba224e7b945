import Verif.Spec.Frames
import Verif.Lemmas.Bits

/-!
# Lemmas about slot sequences
-/

namespace Infrared

open Spec

/-- Slots of the first `n` bits of `g`. -/
def bitSlots (lo hi : Nat) (g : Nat → Bool) (n : Nat) : List Nat :=
  (List.range n).map fun i => if g i then hi else lo

theorem bitSlots_length (lo hi : Nat) (g : Nat → Bool) (n : Nat) :
    (bitSlots lo hi g n).length = n := by simp [bitSlots]

theorem bitSlots_succ (lo hi : Nat) (g : Nat → Bool) (n : Nat) :
    bitSlots lo hi g (n + 1) = bitSlots lo hi g n ++ [if g n then hi else lo] := by
  simp [bitSlots, List.range_succ]

theorem bitSlots_congr (lo hi : Nat) {g g' : Nat → Bool} {n : Nat} (h : ∀ i, i < n → g i = g' i) :
    bitSlots lo hi g n = bitSlots lo hi g' n := by
  apply List.map_congr_left
  intro i hi'
  rw [h i (List.mem_range.mp hi')]

theorem Matches.append_inv {tbl : PulseSpans} {s1 s2 : List Nat} {ps : List (Nat × Nat)}
    (h : Matches tbl (s1 ++ s2) ps) :
    ∃ p1 p2, ps = p1 ++ p2 ∧ Matches tbl s1 p1 ∧ Matches tbl s2 p2 := by
  obtain ⟨hlen, hm⟩ := h
  simp only [List.length_append] at hlen
  refine ⟨ps.take s1.length, ps.drop s1.length, (List.take_append_drop _ _).symm,
    ⟨by simp; omega, ?_⟩, ⟨by simp; omega, ?_⟩⟩
  · intro i p s hp hs
    obtain ⟨hi, -⟩ := List.getElem?_eq_some_iff.mp hs
    rw [List.getElem?_take_of_lt hi] at hp
    exact hm i p s hp (by rw [List.getElem?_append_left hi]; exact hs)
  · intro i p s hp hs
    rw [List.getElem?_drop] at hp
    refine hm (s1.length + i) p s hp ?_
    rw [List.getElem?_append_right (by omega)]
    simpa using hs

theorem Matches.singleton_inv {tbl : PulseSpans} {s : Nat} {ps : List (Nat × Nat)}
    (h : Matches tbl [s] ps) : ∃ p, ps = [p] ∧ InTol tbl s (p.1 + p.2) := by
  obtain ⟨hlen, hm⟩ := h
  match ps, hlen with
  | [p], _ => exact ⟨p, rfl, hm 0 p s rfl rfl⟩

theorem Matches.bits_inv {tbl : PulseSpans} {lo hi : Nat} {g : Nat → Bool} {n : Nat}
    {ps : List (Nat × Nat)} (h : Matches tbl (bitSlots lo hi g n) ps) :
    ps.length = n ∧ ∀ i p, ps[i]? = some p → InTol tbl (if g i then hi else lo) (p.1 + p.2) := by
  obtain ⟨hlen, hm⟩ := h
  rw [bitSlots_length] at hlen
  refine ⟨hlen, fun i p hp => hm i p _ hp ?_⟩
  obtain ⟨hi', -⟩ := List.getElem?_eq_some_iff.mp hp
  rw [bitSlots, List.getElem?_map, List.getElem?_range (by omega)]
  rfl

theorem Matches.append {tbl : PulseSpans} {s1 s2 : List Nat} {p1 p2 : List (Nat × Nat)}
    (h1 : Matches tbl s1 p1) (h2 : Matches tbl s2 p2) : Matches tbl (s1 ++ s2) (p1 ++ p2) := by
  refine ⟨by simp [h1.1, h2.1], ?_⟩
  intro i p s hp hs
  by_cases hi : i < p1.length
  · rw [List.getElem?_append_left hi] at hp
    rw [List.getElem?_append_left (by rw [← h1.1]; exact hi)] at hs
    exact h1.2 i p s hp hs
  · rw [List.getElem?_append_right (by omega)] at hp
    rw [List.getElem?_append_right (by rw [← h1.1]; omega), ← h1.1] at hs
    exact h2.2 _ p s hp hs

theorem Matches.singleton {tbl : PulseSpans} {s : Nat} {p : Nat × Nat}
    (h : InTol tbl s (p.1 + p.2)) : Matches tbl [s] [p] := by
  refine ⟨rfl, ?_⟩
  intro i q u hq hu
  rcases i with _ | i
  · simp at hq hu; subst hq; subst hu; exact h
  · simp at hq

theorem Matches.bits {tbl : PulseSpans} {lo hi : Nat} {g : Nat → Bool} {n : Nat}
    {q : Nat → Nat × Nat} (h : ∀ i, i < n → InTol tbl (if g i then hi else lo) ((q i).1 + (q i).2)) :
    Matches tbl (bitSlots lo hi g n) ((List.range n).map q) := by
  induction n with
  | zero => exact ⟨rfl, by simp⟩
  | succ n ih =>
    rw [bitSlots_succ, List.range_succ, List.map_append]
    exact Matches.append (ih fun i hi => h i (by omega)) (Matches.singleton (h n (by omega)))

/-- The end of a list of periods matches the slots. -/
def EndsP (tbl : PulseSpans) (P : List Nat) (slots : List Nat) : Prop :=
  ∃ pre ps, P = pre ++ ps ∧ ps.length = slots.length ∧
    ∀ (i : Nat) (p s : Nat), ps[i]? = some p → slots[i]? = some s → InTol tbl s p

theorem EndsP.nil (tbl : PulseSpans) (P : List Nat) : EndsP tbl P [] :=
  ⟨P, [], by simp, rfl, by simp⟩

theorem EndsP.snoc {tbl : PulseSpans} {P slots : List Nat} (h : EndsP tbl P slots) {p s : Nat}
    (hp : InTol tbl s p) : EndsP tbl (P ++ [p]) (slots ++ [s]) := by
  obtain ⟨pre, ps, rfl, hlen, hm⟩ := h
  refine ⟨pre, ps ++ [p], by simp, by simp [hlen], ?_⟩
  intro i q t hq ht
  by_cases hi : i < ps.length
  · rw [List.getElem?_append_left hi] at hq
    rw [List.getElem?_append_left (by omega)] at ht
    exact hm i q t hq ht
  · rw [List.getElem?_append_right (by omega)] at hq ht
    have h0 : i - ps.length = 0 := by
      obtain ⟨h1, -⟩ := List.getElem?_eq_some_iff.mp hq
      simpa using h1
    rw [hlen] at h0 hq
    rw [h0] at hq ht
    simp at hq ht
    subst hq; subst ht
    exact hp

theorem Alternating.snoc_inv {h : List Ev} {e : Ev} (ha : Alternating (h ++ [e])) :
    Alternating h ∧ ∀ x, h.getLast? = some x → x.1 ≠ e.1 := by
  induction h with
  | nil => simp [Alternating]
  | cons a t ih =>
    rcases t with _ | ⟨b, t⟩
    · simp only [List.cons_append, List.nil_append, Alternating] at ha
      refine ⟨trivial, ?_⟩
      intro x hx
      simp at hx
      subst hx
      exact ha.1
    · simp only [List.cons_append, Alternating] at ha
      obtain ⟨h1, h2⟩ := ih ha.2
      refine ⟨⟨ha.1, h1⟩, ?_⟩
      intro x hx
      exact h2 x (by simpa using hx)

theorem Alternating.append_left {h k : List Ev} (ha : Alternating (h ++ k)) : Alternating h := by
  induction h with
  | nil => trivial
  | cons a h ih =>
    rcases h with _ | ⟨b, h⟩
    · trivial
    · exact ⟨ha.1, ih ha.2⟩

end Infrared
