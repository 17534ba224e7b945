import Verif.Spec.Manchester
import Verif.Lemmas.Run

/-!
# Running total step functions; timed events
-/

namespace Infrared

open Spec

/-- Run a total step function with output. -/
def runTotal {S I R : Type} (f : S → I → S × R) (s : S) : List I → S × List R
  | [] => (s, [])
  | e :: es => let p := f s e; let q := runTotal f p.1 es; (q.1, p.2 :: q.2)

theorem runTotal_append {S I R : Type} (f : S → I → S × R) (s : S) (a b : List I) :
    runTotal f s (a ++ b) =
      ((runTotal f (runTotal f s a).1 b).1, (runTotal f s a).2 ++ (runTotal f (runTotal f s a).1 b).2) := by
  induction a generalizing s with
  | nil => rfl
  | cons e es ih => simp [runTotal, ih]

theorem runTotal_length {S I R : Type} (f : S → I → S × R) (s : S) (a : List I) :
    (runTotal f s a).2.length = a.length := by
  induction a generalizing s with
  | nil => rfl
  | cons e es ih => simp [runTotal, ih]

/-- Number of half-bits of a duration. -/
def PulseSpans.half (tbl : PulseSpans) (d : Nat) : Option Nat := (tbl.get d).map (· + 1)

/-- An event with its measured length. -/
def measure (tbl : PulseSpans) (e : Ev) : Bool × Option Nat := (e.1, tbl.half e.2)

theorem get_eq_iff' (tbl : PulseSpans) (k d : Nat) :
    tbl.get d = some k ↔ InTol tbl k d ∧ ∀ j, j < k → ¬ InTol tbl j d := by
  rw [get_eq_iff]
  refine and_congr Iff.rfl (forall_congr' fun j => forall_congr' fun _ => ?_)
  constructor
  · rintro h ⟨s, hs, h1⟩; exact h s hs h1
  · intro h s hs h1; exact h ⟨s, hs, h1⟩

theorem halfBits_iff (tbl : PulseSpans) (d n : Nat) : HalfBits tbl d n ↔ tbl.half d = some n := by
  unfold HalfBits PulseSpans.half
  constructor
  · rintro ⟨k, rfl, h⟩
    rw [(get_eq_iff' tbl k d).mpr h]; rfl
  · intro h
    rcases hg : tbl.get d with _ | k
    · simp [hg] at h
    · rw [hg] at h
      simp at h
      exact ⟨k, h.symm, (get_eq_iff' tbl k d).mp hg⟩

theorem timed_iff (tbl : PulseSpans) (evs : List Ev) (ws : List (Bool × Nat)) :
    Timed (HalfBits tbl) evs ws ↔ evs.map (measure tbl) = ws.map fun w => (w.1, some w.2) := by
  induction evs generalizing ws with
  | nil => cases ws <;> simp [Timed]
  | cons e es ih =>
    cases ws with
    | nil => simp [Timed]
    | cons w ws =>
      simp only [Timed, List.map_cons, List.cons.injEq, ih, halfBits_iff, measure, Prod.mk.injEq]
      exact ⟨fun ⟨a, b, c⟩ => ⟨⟨a, b⟩, c⟩, fun ⟨⟨a, b⟩, c⟩ => ⟨a, b, c⟩⟩

theorem timed_snoc {tbl : PulseSpans} {evs : List Ev} {ws : List (Bool × Nat)} {e : Ev} {n : Nat}
    (h : Timed (HalfBits tbl) evs ws) (hn : tbl.half e.2 = some n) :
    Timed (HalfBits tbl) (evs ++ [e]) (ws ++ [(e.1, n)]) := by
  rw [timed_iff] at h ⊢
  simp [h, measure, hn]

theorem Timed.imp {R R' : Nat → Nat → Prop} {evs : List Ev} {ws : List (Bool × Nat)}
    (h : Timed R evs ws) (hi : ∀ d w, w ∈ ws → R d w.2 → R' d w.2) : Timed R' evs ws := by
  induction evs generalizing ws with
  | nil => cases ws with
    | nil => trivial
    | cons w ws => exact h.elim
  | cons e es ih =>
    cases ws with
    | nil => exact h.elim
    | cons w ws =>
      exact ⟨h.1, hi _ _ (by simp) h.2.1, ih h.2.2 fun d w hw => hi d w (by simp [hw])⟩

theorem Timed.length {R : Nat → Nat → Prop} {evs : List Ev} {ws : List (Bool × Nat)}
    (h : Timed R evs ws) : evs.length = ws.length := by
  induction evs generalizing ws with
  | nil => cases ws with
    | nil => rfl
    | cons w ws => exact h.elim
  | cons e es ih =>
    cases ws with
    | nil => exact h.elim
    | cons w ws => simp [ih h.2.2]

theorem sampled_append (par pos : Nat) (a b : List (Bool × Nat)) :
    sampled par pos (a ++ b) = sampled par pos a ++ sampled par (pos + total a) b := by
  induction a generalizing pos with
  | nil => simp [sampled, total]
  | cons e es ih =>
    obtain ⟨d, n⟩ := e
    have : pos + total ((d, n) :: es) = pos + n + total es := by simp [total]; omega
    rw [this]
    simp only [List.cons_append, sampled, ih]
    split <;> rfl

theorem total_append (a b : List (Bool × Nat)) : total (a ++ b) = total a + total b := by
  simp [total]

theorem half_lt {tbl : PulseSpans} (hlen : tbl.spans.length ≤ 8) {d n : Nat}
    (h : tbl.half d = some n) : 1 ≤ n ∧ n ≤ 8 := by
  obtain ⟨k, rfl, ⟨s, hs, -⟩, -⟩ := (halfBits_iff tbl d n).mpr h
  obtain ⟨hk, -⟩ := List.getElem?_eq_some_iff.mp hs
  omega

/-- The end of a bit: from level `prev`, one half-bit into it. -/
theorem edgesFrom_bit (prev b : Bool) (ls : List Bool) :
    edgesFrom prev 1 ((!b) :: b :: ls) =
      if b = prev then (!b, 1) :: (b, 1) :: edgesFrom b 1 ls else (b, 2) :: edgesFrom b 1 ls := by
  cases b <;> cases prev <;> simp [edgesFrom]

/-- The edges of a sequence of bits, `first b` being the level of the first half-bit. -/
theorem edgesFrom_bit' (prev b : Bool) (ls : List Bool) :
    edgesFrom prev 1 (b :: (!b) :: ls) =
      if b = prev then (!b, 2) :: edgesFrom (!b) 1 ls
      else (b, 1) :: (!b, 1) :: edgesFrom (!b) 1 ls := by
  cases b <;> cases prev <;> simp [edgesFrom]

end Infrared
