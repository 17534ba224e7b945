import Verif.Props.HurtBi

/-!
# Spikes and missing marks in RC6 transmissions (C96)
-/

namespace Infrared

open Spec

variable {C K : Type}

/-! ## An edge that cannot be measured is a new beginning -/

theorem toggleEdges_none (pos : Nat) (as : List HalfEdge) (d : Bool) (bs : List HalfEdge) :
    toggleEdges pos (as ++ (d, none) :: bs) = ((toggleEdges pos as).1, (toggleEdges pos as).2 ++ (d, none) :: bs) := by
  induction as generalizing pos with
  | nil => cases d <;> simp [toggleEdges, missed]
  | cons a as ih =>
    obtain ⟨_ | _, _ | n⟩ := a <;> simp only [List.cons_append, toggleEdges]
    · rfl
    · split
      · exact ih _
      · split <;> rfl
    · rfl
    · split <;> rfl

theorem rc6Frame_none (as : List HalfEdge) (d : Bool) (bs : List HalfEdge) :
    rc6Frame (as ++ (d, none) :: bs) = ((rc6Frame as).1, (rc6Frame as).2 ++ (d, none) :: bs) := by
  by_cases h6 : ∃ es, as = (false, some 6) :: es
  · obtain ⟨es, rfl⟩ := h6
    by_cases h2 : ∃ es', es = (true, some 2) :: es'
    · obtain ⟨es, rfl⟩ := h2
      simp only [List.cons_append, rc6Frame, midEdges_none, toggleEdges_none]
      split
      · rcases toggleEdges (midEdges 1 8 4 es).2.1 (midEdges 1 8 4 es).2.2 with ⟨_ | ⟨tg, pos⟩, es'⟩
        · rfl
        · dsimp only
          rw [midEdges_none]
          split <;> rfl
      · rfl
    · have e1 : ∀ x, (∀ y, x ≠ (true, some 2) :: y) → rc6Frame ((false, some 6) :: x) = (none, missed x) := by
        intro x hx
        unfold rc6Frame
        split
        · rename_i h; cases h; exact absurd rfl (hx _)
        · rename_i h; cases h; rfl
        · rename_i h; exact absurd rfl (h _)
      rw [List.cons_append, e1, e1]
      · rcases es with _ | ⟨⟨l, _ | n⟩, es⟩ <;> rfl
      · exact fun y hy => h2 ⟨y, hy⟩
      · intro y hy
        rcases es with _ | ⟨e, es⟩
        · cases hy
        · rw [List.cons_append, List.cons.injEq] at hy
          exact h2 ⟨es, by rw [hy.1]⟩
  · have e1 : ∀ x : List HalfEdge, (∀ y, x ≠ (false, some 6) :: y) → rc6Frame x = (none, missed x) := by
      intro x hx
      unfold rc6Frame
      split
      · exact absurd rfl (hx _)
      · exact absurd rfl (hx _)
      · rfl
    rw [e1, e1]
    · rcases as with _ | ⟨⟨l, _ | n⟩, as⟩ <;> rfl
    · exact fun y hy => h6 ⟨y, hy⟩
    · intro y hy
      rcases as with _ | ⟨e, as⟩
      · cases hy
      · rw [List.cons_append, List.cons.injEq] at hy
        exact h6 ⟨as, by rw [hy.1]⟩

theorem rc6Parse_none (n : Nat) (as : List HalfEdge) (hn : as.length ≤ n) (d : Bool) (bs : List HalfEdge) :
    rc6Parse (as ++ (d, none) :: bs) = rc6Parse as ++ rc6Parse ((d, none) :: bs) := by
  induction n generalizing as with
  | zero =>
    obtain rfl := List.eq_nil_of_length_eq_zero (Nat.le_zero.mp hn)
    rw [rc6Parse.eq_1]
    rfl
  | succ n ih =>
    rcases as with _ | ⟨⟨_ | _, o⟩, as⟩
    · rw [rc6Parse.eq_1]
      rfl
    · rw [List.cons_append, rc6Parse.eq_2, rc6Parse.eq_2]
      exact ih as (by simpa using hn)
    · rw [List.cons_append, rc6Parse.eq_3, rc6Parse.eq_3, rc6Frame_none]
      dsimp only
      rw [ih _ (Nat.le_trans (rc6Frame_length as) (by simpa using hn))]
      rcases (rc6Frame as).1 with _ | c <;> rfl

/-- What is left after an attempt to read a frame. -/
theorem rc6_frame_rest (o' : Option Nat) (ms : List HalfEdge) : (rc6Frame ((false, o') :: ms)).2 <:+ ms ∨
    o' ≠ some 6 ∧ (rc6Frame ((false, o') :: ms)).2 <:+ (false, o') :: ms := by
  by_cases h6 : o' = some 6
  · subst h6
    left
    unfold rc6Frame
    split
    · rename_i es he
      cases he
      have h1 := midEdges_suffix 1 8 4 es
      have hts : ∀ pos (es : List HalfEdge), (toggleEdges pos es).2 <:+ es := by
        intro pos es
        induction es generalizing pos with
        | nil => simp [toggleEdges, missed]
        | cons e es ih =>
          obtain ⟨_ | _, _ | n⟩ := e <;> unfold toggleEdges
          · exact List.suffix_refl _
          · split
            · exact (ih _).trans (List.suffix_cons _ _)
            · split <;> exact List.suffix_cons _ _
          · exact List.suffix_refl _
          · split <;> exact List.suffix_cons _ _
      have h2 := hts (midEdges 1 8 4 es).2.1 (midEdges 1 8 4 es).2.2
      dsimp only
      split
      · split
        · rename_i tg pos es' heq
          rw [heq] at h2
          have h3 := midEdges_suffix 1 pos 16 es'
          split <;> exact ((h3.trans h2).trans h1).trans (List.suffix_cons _ _)
        · rename_i es' heq
          rw [heq] at h2
          exact (h2.trans h1).trans (List.suffix_cons _ _)
      · exact h1.trans (List.suffix_cons _ _)
    · rename_i es _ he
      cases he
      rcases ms with _ | ⟨⟨l, _ | n⟩, ms⟩
      · exact List.suffix_refl _
      · exact List.suffix_refl _
      · exact List.suffix_cons _ _
    · rename_i h
      exact absurd rfl (h ms)
  · right
    refine ⟨h6, ?_⟩
    unfold rc6Frame
    split
    · rename_i he; cases he; exact absurd rfl h6
    · rename_i he; cases he; exact absurd rfl h6
    · cases o' with
      | none => exact List.suffix_refl _
      | some _ => exact List.suffix_cons _ _

theorem rc6_frame_left (o' : Option Nat) (ms : List HalfEdge) (h : (false, some 6) ∉ ms) :
    rc6Parse (rc6Frame ((false, o') :: ms)).2 = [] := by
  refine rc6Parse_no_leader _ _ (Nat.le_refl _) fun hm => ?_
  rcases rc6_frame_rest o' ms with hs | ⟨h6, hs⟩
  · exact h (hs.subset hm)
  · rcases List.mem_cons.mp (hs.subset hm) with he | he
    · cases he; exact h6 rfl
    · exact h he

/-- Only the first edge can be the end of a leader, and this is no frame: nothing is heard. -/
theorem rc6_one_leader (o o' : Option Nat) (ms : List HalfEdge) (h : (false, some 6) ∉ ms)
    (hf : (rc6Frame ((false, o') :: ms)).1 = none) : rc6Parse ((true, o) :: (false, o') :: ms) = [] := by
  rw [rc6Parse.eq_3]
  simp only [hf]
  exact rc6_frame_left o' ms h

/-! ## Edges at odd positions -/

/-- How many of the edges are at odd positions; an edge that cannot be measured ends the count. -/
def hits : Nat → List HalfEdge → Nat
  | _, [] => 0
  | _, (_, none) :: _ => 0
  | pos, (_, some n) :: es => (if (pos + n) % 2 = 1 then 1 else 0) + hits (pos + n) es

theorem hits_parity (es : List HalfEdge) {p q : Nat} (h : p % 2 = q % 2) : hits p es = hits q es := by
  induction es generalizing p q with
  | nil => rfl
  | cons e es ih =>
    obtain ⟨l, _ | n⟩ := e
    · rfl
    · rw [hits, hits, ih (p := p + n) (q := q + n) (by omega)]
      congr 2
      exact propext ⟨fun h => by omega, fun h => by omega⟩

theorem midEdges_hits (pos k : Nat) (es : List HalfEdge) : (midEdges 1 pos k es).1.length ≤ hits pos es := by
  induction es generalizing pos k with
  | nil => cases k <;> simp [midEdges, hits]
  | cons e es ih =>
    obtain ⟨l, _ | n⟩ := e <;> cases k <;> simp only [midEdges, hits, List.length_nil, Nat.zero_le]
    split
    · have := ih (pos + n) ‹_›
      rw [List.length_cons]
      omega
    · have := ih (pos + n) (‹_› + 1)
      omega

theorem rightly_cons (a : Bool × Nat) (l : List (Bool × Nat)) : rightly (a :: l) = (a.1, some a.2) :: rightly l := rfl

/-- The end of the last mark, after `n` more bits if the line is at `b`. -/
def EndsAfter (w : BitVec 16) (n : Nat) (b : Bool) (tl : List (Bool × Nat)) : Prop :=
  tl = [] ∨ tl = [(false, 1)] ∧ (if n = 0 then b = true else w.getLsbD 0 = false)

theorem EndsAfter.step {w : BitVec 16} {n : Nat} {b : Bool} {tl : List (Bool × Nat)} (h : EndsAfter w (n + 1) b tl) :
    EndsAfter w n (!w.getLsbD n) tl := by
  rcases h with h | ⟨h, h'⟩
  · exact .inl h
  · rw [if_neg (by omega)] at h'
    refine .inr ⟨h, ?_⟩
    split
    · rename_i h0; subst h0; rw [h']; rfl
    · exact h'

theorem hits_bits (w : BitVec 16) (n : Nat) (b : Bool) {tl : List (Bool × Nat)} (htl : EndsAfter w n b tl) (pos : Nat) :
    hits pos (rightly (edgesFrom b 1 (rc6Tail w n) ++ tl)) ≤ n + (if pos % 2 = 0 ∧ b = true then 1 else 0) := by
  induction n generalizing b pos with
  | zero =>
    rw [show edgesFrom b 1 (rc6Tail w 0) = [] from rfl, List.nil_append]
    rcases htl with rfl | ⟨rfl, hb⟩
    · simp [rightly, hits]
    · rw [if_pos rfl] at hb
      subst hb
      simp only [rightly, List.map_cons, List.map_nil, hits, Nat.add_zero, and_true]
      split <;> split <;> omega
  | succ n ih =>
    have ih := fun pos => ih (!w.getLsbD n) htl.step pos
    rw [rc6Tail, edgesFrom_bit2]
    generalize w.getLsbD n = v at ih
    split
    · rename_i hv
      subst hv
      have := ih (pos + 2)
      rw [List.cons_append, rightly_cons, hits]
      dsimp only
      cases v <;> simp at this ⊢ <;> (repeat' split at this) <;> (repeat' split) <;> omega
    · rename_i hv
      have := ih (pos + 1 + 1)
      rw [List.cons_append, List.cons_append, rightly_cons, rightly_cons, hits, hits]
      dsimp only
      cases v <;> cases b <;> simp at hv this ⊢ <;> (repeat' split at this) <;> (repeat' split) <;> omega

theorem hits_after (q n : Nat) (o : Option Nat) (es : List HalfEdge)
    (h : ∀ p, (if p % 2 = 1 then 1 else 0) + hits p es ≤ n) : hits q ((true, o) :: es) ≤ n := by
  rcases o with _ | i
  · rw [hits]; omega
  · rw [hits]; exact h _

theorem hits_bits_two (w : BitVec 16) (n : Nat) {tl : List (Bool × Nat)} (htl : EndsAfter w n true tl)
    {e : Bool × Nat} (he : (edgesFrom true 1 (rc6Tail w n))[1]? = some e) (p : Nat) :
    (if p % 2 = 1 then 1 else 0) + hits p (rightly ((edgesFrom true 1 (rc6Tail w n)).drop 2 ++ tl)) ≤ n := by
  rcases n with _ | n
  · cases he
  · have htl := htl.step
    rw [rc6Tail, edgesFrom_bit2] at he ⊢
    generalize hv : w.getLsbD n = v at htl he ⊢
    by_cases hvt : v = true
    · subst hvt
      rw [if_pos rfl] at he ⊢
      rcases n with _ | n
      · cases he
      · have htl := htl.step
        rw [rc6Tail, edgesFrom_bit2] at he ⊢
        generalize w.getLsbD n = v' at htl he ⊢
        have h1 := hits_bits w n (!v') htl p
        have h2 := hits_bits w n (!v') htl (p + 1)
        by_cases hv' : v' = !true
        · rw [if_pos hv']
          rw [show ∀ (a b : Bool × Nat) l, (a :: b :: l).drop 2 = l from fun _ _ _ => rfl]
          (repeat' split at h1) <;> split <;> omega
        · rw [if_neg hv']
          rw [show ∀ (a b c : Bool × Nat) l, (a :: b :: c :: l).drop 2 = c :: l from fun _ _ _ _ => rfl, List.cons_append,
            rightly_cons, hits]
          cases v' <;> simp at hv' h2 ⊢
          split <;> split <;> omega
    · rw [if_neg hvt]
      have h1 := hits_bits w n (!v) htl p
      rw [show ∀ (a b : Bool × Nat) l, (a :: b :: l).drop 2 = l from fun _ _ _ => rfl]
      (repeat' split at h1) <;> split <;> omega

theorem hits_bits_one (w : BitVec 16) (n : Nat) {tl : List (Bool × Nat)} (htl : EndsAfter w n false tl)
    {e : Bool × Nat} (he : (edgesFrom false 1 (rc6Tail w n))[0]? = some e) (p : Nat) :
    (if p % 2 = 1 then 1 else 0) + hits p (rightly ((edgesFrom false 1 (rc6Tail w n)).drop 1 ++ tl)) ≤ n := by
  rcases n with _ | n
  · cases he
  · have htl := htl.step
    rw [rc6Tail, edgesFrom_bit2]
    generalize hv : w.getLsbD n = v at htl ⊢
    have h1 := hits_bits w n (!v) htl p
    have h2 := hits_bits w n (!v) htl (p + 1)
    by_cases hvt : v = false
    · rw [if_pos hvt, List.drop_succ_cons, List.drop_zero]
      (repeat' split at h1) <;> split <;> omega
    · rw [if_neg hvt, List.drop_succ_cons, List.drop_zero, List.cons_append, rightly_cons, hits]
      cases v <;> simp at hvt h2 ⊢
      split <;> split <;> omega

/-- Without one of its marks a frame has fewer edges in the middle of bits. -/
theorem hits_missing (w : BitVec 16) (n : Nat) (b : Bool) {tl : List (Bool × Nat)} (htl : EndsAfter w n b tl)
    (k : Nat) {a c d : Nat} (h1 : (edgesFrom b 1 (rc6Tail w n))[k]? = some (true, a))
    (h2 : (edgesFrom b 1 (rc6Tail w n))[k + 1]? = some (false, c)) (h3 : (edgesFrom b 1 (rc6Tail w n))[k + 2]? = some (true, d))
    (pos : Nat) (o : Option Nat) (hpos : pos % 2 = 1) :
    hits pos (rightly ((edgesFrom b 1 (rc6Tail w n)).take k) ++
      (true, o) :: rightly ((edgesFrom b 1 (rc6Tail w n)).drop (k + 3) ++ tl)) + 1 ≤ n := by
  induction n generalizing b pos k with
  | zero => cases h1
  | succ n ih =>
    have htl := htl.step
    have ih := fun k h1 h2 h3 pos hp => ih (!w.getLsbD n) htl k h1 h2 h3 pos hp
    rw [rc6Tail, edgesFrom_bit2] at h1 h2 h3 ⊢
    generalize w.getLsbD n = v at ih htl h1 h2 h3 ⊢
    split
    · rename_i hv
      rw [if_pos hv] at h1 h2 h3
      rcases k with _ | k
      · rw [List.getElem?_cons_zero, Option.some.injEq, Prod.mk.injEq] at h1
        rw [h1.1] at h2 h3 htl ⊢
        rw [Nat.zero_add, List.getElem?_cons_succ] at h3
        refine Nat.succ_le_succ (hits_after _ _ _ _ fun p => ?_)
        exact hits_bits_two w n htl h3 p
      · have := ih k h1 h2 h3 (pos + (1 + 1)) (by omega)
        rw [List.take_succ_cons, rightly_cons, List.cons_append, List.drop_succ_cons, hits]
        dsimp only
        rw [if_pos (by omega)]
        omega
    · rename_i hv
      rw [if_neg hv] at h1 h2 h3
      rcases k with _ | _ | k
      · rw [List.getElem?_cons_zero, Option.some.injEq, Prod.mk.injEq] at h1
        rw [h1.1, Bool.not_true] at h3 htl ⊢
        rw [Nat.zero_add, List.getElem?_cons_succ, List.getElem?_cons_succ] at h3
        refine Nat.succ_le_succ (hits_after _ _ _ _ fun p => ?_)
        exact hits_bits_one w n htl h3 p
      · rw [Nat.zero_add, List.getElem?_cons_succ, List.getElem?_cons_zero, Option.some.injEq, Prod.mk.injEq] at h1
        rw [h1.1] at h3 htl ⊢
        rw [Nat.zero_add, List.getElem?_cons_succ, List.getElem?_cons_succ] at h3
        rw [Nat.zero_add, List.take_succ_cons, rightly_cons, List.cons_append, hits]
        dsimp only
        rw [if_neg (by omega), Nat.zero_add]
        refine Nat.succ_le_succ (hits_after _ _ _ _ fun p => ?_)
        exact hits_bits_two w n htl h3 p
      · have := ih k h1 h2 h3 (pos + 1 + 1) (by omega)
        rw [List.take_succ_cons, List.take_succ_cons, rightly_cons, rightly_cons, List.cons_append, List.cons_append,
          show k + 1 + 1 + 3 = (k + 3) + 1 + 1 by omega, List.drop_succ_cons, List.drop_succ_cons, hits, hits]
        dsimp only
        rw [if_neg (by omega), if_pos (by omega)]
        omega

/-! ## A frame, edge by edge -/

/-- How far a frame is. -/
inductive Phase where
  | head (pos k : Nat)
  | toggle (pos : Nat)
  | data (pos k : Nat)
  | won
  | lost
  deriving DecidableEq

/-- One more edge; of the header (and of the data) `k + 1` bits are missing. -/
def Phase.step : Phase → HalfEdge → Phase
  | .won, _ => .won
  | .lost, _ => .lost
  | _, (_, none) => .lost
  | .head pos 0, (_, some n) => if (pos + n) % 2 = 1 then .toggle (pos + n) else .head (pos + n) 0
  | .head pos (k + 1), (_, some n) => if (pos + n) % 2 = 1 then .head (pos + n) k else .head (pos + n) (k + 1)
  | .toggle pos, (false, some n) => if n = 1 then .toggle (pos + 1) else if n = 3 then .data (pos + 3) 15 else .lost
  | .toggle pos, (true, some n) => if n = 2 then .data (pos + 2) 15 else .lost
  | .data pos 0, (_, some n) => if (pos + n) % 2 = 1 then .won else .data (pos + n) 0
  | .data pos (k + 1), (_, some n) => if (pos + n) % 2 = 1 then .data (pos + n) k else .data (pos + n) (k + 1)

theorem won_stays (es : List HalfEdge) : es.foldl Phase.step .won = .won := by
  induction es with
  | nil => rfl
  | cons e es ih => exact ih

theorem lost_stays (es : List HalfEdge) : es.foldl Phase.step .lost = .lost := by
  induction es with
  | nil => rfl
  | cons e es ih => exact ih

theorem data_steps (pos k : Nat) (es : List HalfEdge) (h : (midEdges 1 pos (k + 1) es).1.length = k + 1) :
    es.foldl Phase.step (.data pos k) = .won := by
  induction es generalizing pos k with
  | nil => simp [midEdges] at h
  | cons e es ih =>
    obtain ⟨l, _ | n⟩ := e
    · simp [midEdges] at h
    · rw [midEdges] at h
      rw [List.foldl_cons]
      split at h
      · rename_i hp
        rw [List.length_cons] at h
        rcases k with _ | k
        · rw [Phase.step, if_pos hp]
          exact won_stays es
        · rw [Phase.step, if_pos hp]
          exact ih (pos + n) k (by omega)
      · rename_i hp
        have e1 : Phase.step (.data pos k) (l, some n) = .data (pos + n) k := by
          cases k <;> rw [Phase.step, if_neg hp]
        rw [e1]
        exact ih _ _ h

theorem head_steps (pos k : Nat) (es : List HalfEdge) (h : (midEdges 1 pos (k + 1) es).1.length = k + 1) :
    es.foldl Phase.step (.head pos k) =
      (midEdges 1 pos (k + 1) es).2.2.foldl Phase.step (.toggle (midEdges 1 pos (k + 1) es).2.1) := by
  induction es generalizing pos k with
  | nil => simp [midEdges] at h
  | cons e es ih =>
    obtain ⟨l, _ | n⟩ := e
    · simp [midEdges] at h
    · rw [midEdges] at h ⊢
      rw [List.foldl_cons]
      split at h
      · rename_i hp
        rw [List.length_cons] at h
        rcases k with _ | k
        · rw [Phase.step, if_pos hp, if_pos hp]
          simp only [midEdges]
        · rw [Phase.step, if_pos hp, if_pos hp]
          exact ih (pos + n) k (by omega)
      · rename_i hp
        have e1 : Phase.step (.head pos k) (l, some n) = .head (pos + n) k := by
          cases k <;> rw [Phase.step, if_neg hp]
        rw [e1, if_neg hp]
        exact ih _ _ h

theorem toggle_steps (pos : Nat) (es : List HalfEdge) (tg : Bool) (pos' : Nat) (es' : List HalfEdge)
    (h : toggleEdges pos es = (some (tg, pos'), es')) :
    es.foldl Phase.step (.toggle pos) = es'.foldl Phase.step (.data pos' 15) := by
  induction es generalizing pos with
  | nil => simp [toggleEdges] at h
  | cons e es ih =>
    obtain ⟨_ | _, _ | n⟩ := e <;> unfold toggleEdges at h
    · cases h
    · rw [List.foldl_cons, Phase.step]
      split at h
      · rename_i hp
        rw [if_pos hp]
        exact ih _ h
      · rename_i hp
        rw [if_neg hp]
        split at h
        · rename_i hp
          rw [if_pos hp]
          cases h
          rfl
        · cases h
    · cases h
    · rw [List.foldl_cons, Phase.step]
      split at h
      · rename_i hp
        rw [if_pos hp]
        cases h
        rfl
      · cases h

theorem frame_steps (es : List HalfEdge) (h : (rc6Frame ((false, some 6) :: (true, some 2) :: es)).1 ≠ none) :
    es.foldl Phase.step (.head 8 3) = .won := by
  rw [rc6Frame] at h
  dsimp only at h
  split at h
  · rename_i h4
    rw [head_steps 8 3 es h4]
    rcases ht : toggleEdges (midEdges 1 8 4 es).2.1 (midEdges 1 8 4 es).2.2 with ⟨_ | ⟨tg, pos⟩, es'⟩
    · rw [ht] at h
      exact absurd rfl h
    · rw [ht] at h
      rw [toggle_steps _ _ _ _ _ ht]
      dsimp only at h
      split at h
      · rename_i h16
        exact data_steps pos 15 es' h16
      · exact absurd rfl h
  · exact absurd rfl h

theorem data_hits (pos k : Nat) (es : List HalfEdge) (h : es.foldl Phase.step (.data pos k) = .won) : k + 1 ≤ hits pos es := by
  induction es generalizing pos k with
  | nil => cases h
  | cons e es ih =>
    obtain ⟨l, _ | n⟩ := e
    · rw [List.foldl_cons, show Phase.step (.data pos k) (l, none) = .lost by cases k <;> rfl, lost_stays] at h
      cases h
    · rw [List.foldl_cons] at h
      rw [hits]
      by_cases hp : (pos + n) % 2 = 1
      · rw [if_pos hp]
        rcases k with _ | k
        · omega
        · rw [Phase.step, if_pos hp] at h
          have := ih _ _ h
          omega
      · have e1 : Phase.step (.data pos k) (l, some n) = .data (pos + n) k := by
          cases k <;> rw [Phase.step, if_neg hp]
        rw [e1] at h
        have := ih _ _ h
        omega

theorem hits_suffix (a : List (Bool × Nat)) (es : List HalfEdge) (p : Nat) :
    hits p es ≤ hits (p + total a) (rightly a ++ es) := by
  induction a generalizing p with
  | nil => exact Nat.le_refl _
  | cons e a ih =>
    have h1 := ih p
    rw [rightly_cons, List.cons_append, hits, total_cons,
      hits_parity (rightly a ++ es) (p := p + (e.2 + total a) + e.2) (q := p + total a) (by omega)]
    omega

/-- Not so far that thirteen bits after a line at `b` are enough. -/
def Phase.weak (b : Bool) : Phase → Bool
  | .head _ _ => true
  | .toggle _ => true
  | .data pos k => 13 + (if pos % 2 = 0 ∧ b = true then 1 else 0) ≤ k
  | .won => false
  | .lost => true

theorem weak_loses (b : Bool) (R : List (Bool × Nat))
    (h : ∀ p, hits p (rightly R) ≤ 13 + (if p % 2 = 0 ∧ b = true then 1 else 0)) (s : Phase) (hs : s.weak b = true) :
    (rightly R).foldl Phase.step s ≠ .won := by
  have key : ∀ (S : List (Bool × Nat)) s, (∃ a, R = a ++ S) →
      (s ≠ .won ∧ ∀ pos k, s = .data pos k → 14 ≤ k) → (rightly S).foldl Phase.step s ≠ .won := by
    intro S
    induction S with
    | nil => intro s _ hs hw; rw [show (rightly []).foldl Phase.step s = s from rfl] at hw; exact hs.1 hw
    | cons e S ih =>
      intro s hR hs hw
      obtain ⟨a, ha⟩ := hR
      have hb : ∀ p, hits p (rightly (e :: S)) ≤ 14 := fun p => by
        have h1 := hits_suffix a (rightly (e :: S)) p
        rw [← rightly_append, ← ha] at h1
        have := h (p + total a)
        split at this <;> omega
      have ih := fun s hs => ih s ⟨a ++ [e], by rw [ha]; simp⟩ hs
      cases s with
      | won => exact hs.1 rfl
      | lost => rw [lost_stays] at hw; cases hw
      | data pos k =>
        have h1 := data_hits _ _ _ hw
        have h2 := hb pos
        have h3 := hs.2 _ _ rfl
        omega
      | head pos k =>
        rw [rightly_cons, List.foldl_cons] at hw
        refine ih _ ?_ hw
        cases k <;> rw [Phase.step] <;> split <;> simp
      | toggle pos =>
        rw [rightly_cons, List.foldl_cons] at hw
        refine ih _ ?_ hw
        obtain ⟨_ | _, n⟩ := e
        · simp only [Phase.step]
          split
          · simp
          · split <;> simp
        · simp only [Phase.step]
          split <;> simp
  cases s with
  | won => cases hs
  | data pos k =>
    intro hw
    have h1 := data_hits _ _ _ hw
    have h2 := h pos
    simp only [Phase.weak, decide_eq_true_eq] at hs
    omega
  | head _ _ => exact key R _ ⟨[], rfl⟩ (by simp)
  | toggle _ => exact key R _ ⟨[], rfl⟩ (by simp)
  | lost => exact key R _ ⟨[], rfl⟩ (by simp)

/-- All ways in which a mark of the header can be missing: after three bits of data thirteen are not enough. -/
theorem head_missing : ∀ tg v1 v2 v3 : Bool, ∀ k < (rc6Head 0 tg).length, 3 ≤ k →
    ((rc6Head 0 tg)[k]?.map Prod.fst) = some true → ∀ o ∈ [none, some 3, some 4, some 5, some 6],
    ((rightly ((rc6Head 0 tg ++ edgesFrom (!tg) 2 [v1, !v1, v2, !v2, v3, !v3]).take k) ++ (true, o) ::
      rightly ((rc6Head 0 tg ++ edgesFrom (!tg) 2 [v1, !v1, v2, !v2, v3, !v3]).drop (k + 3))).drop 2 |>.foldl
        Phase.step (.head 8 3)).weak (!v3) = true := by
  decide +kernel

/-! ## RC6: the parser -/

/-- A complete transmission is a command. -/
theorem rc6_whole_parse (c : Rc6Command) (o : Option Nat) {tl : List (Bool × Nat)} (htl : tl = [] ∨ tl = [(false, 1)]) :
    rc6Parse ((true, o) :: rightly (rc6Head 0 c.toggle ++ edgesFrom (!c.toggle) 2 (rc6Tail (c.addr ++ c.cmd) 16) ++ tl)) =
      [.ok (some c)] := by
  have hsp := rc6Spans_eq (f := 1000000) (m := .u32) (.inl rfl) ⟨true, 32⟩ (by decide)
  have hc : coversRc6 (rc6Table 1000000) 1000000 0 = true := by decide +kernel
  have hclk := rc6Clock_of_covers (u := 1000000) (phase := 0) (by decide) hc
  have hlen := rc6_edges_len (c.addr ++ c.cmd) c.toggle
  have hed := rc6Edges_eq 0 (.inl rfl) (c.addr ++ c.cmd) c.toggle
  generalize rc6Head 0 c.toggle ++ edgesFrom (!c.toggle) 2 (rc6Tail (c.addr ++ c.cmd) 16) = E at *
  have hall := C78_rc6 ⟨true, 32⟩ (by decide) 1000000 0 (by decide) (by decide) .u32 (.inl rfl) _ hsp hc (fun c => c) 1000000
    (by decide) 0 [(c, (true, 0) :: atUnit 444 E, tl.head?.map fun _ => 444)] (by
      intro i hi
      rw [List.mem_singleton] at hi
      subst hi
      exact ⟨0, 0, _, _, rfl, hed, atUnit_timed ..⟩) true 0
      (atUnit 444 (E ++ tl)) (by
        rcases htl with rfl | rfl <;> simp [withTail, atUnit]) 0 0
  obtain ⟨outs, ho, hs⟩ := Option.map_eq_some_iff.mp hall
  have hp := C67_rc6 ⟨true, 32⟩ (by decide) _ (rc6_length (.inl rfl) (by decide) hsp) (fun c => c) _ outs ho
  rw [hs, res_map_id, List.map_id] at hp
  have hm : halfEdges (rc6Table 1000000) (clocked 1000000 1000000 0 (0 + 0) (atUnit 444 (E ++ tl))) = rightly (E ++ tl) := by
    have hlen : ∀ e ∈ E ++ tl, e.2 = 1 ∨ e.2 = 2 ∨ e.2 = 3 ∨ e.2 = 6 := by
      intro e he
      rcases List.mem_append.mp he with he | he
      · exact hlen e he
      · rcases htl with rfl | rfl
        · cases he
        · rw [List.mem_singleton.mp he]; exact .inl rfl
    exact halfEdges_timed (clocked_timed (fun t ns e he hn => rc6_right_get (.inl rfl) (by decide) (by decide) hsp (hlen e he)
      (hclk t _ _ (hlen e he) hn)) _ (atUnit_timed ..))
  have he : ∀ e es, halfEdges (rc6Table 1000000) (e :: es) =
      (e.1, ((rc6Table 1000000).get e.2).map (· + 1)) :: halfEdges (rc6Table 1000000) es := fun _ _ => rfl
  rw [he, hm, rc6Parse_first] at hp
  rw [rc6Parse_first, ← hp]
  rfl

theorem rc6_last (w : BitVec 16) (n : Nat) (b : Bool) (c : Nat) :
    (edgesFrom b c (rc6Tail w (n + 1))).getLast?.map Prod.fst = some (!w.getLsbD 0) := by
  induction n generalizing b c with
  | zero =>
    rw [rc6Tail, edgesFrom_bit2]
    split <;> rfl
  | succ n ih =>
    have ih := ih (!w.getLsbD (n + 1)) 1
    rw [rc6Tail, edgesFrom_bit2]
    generalize edgesFrom (!w.getLsbD (n + 1)) 1 (rc6Tail w (n + 1)) = es at ih ⊢
    rcases es with _ | ⟨e, es⟩
    · cases ih
    · split
      · rw [List.getLast?_cons_cons]; exact ih
      · rw [List.getLast?_cons_cons, List.getLast?_cons_cons]; exact ih

theorem rc6_ends (w : BitVec 16) (tg : Bool) (n : Nat) (b : Bool) {tl : List (Bool × Nat)}
    (h : Ending (rc6Head 0 tg ++ edgesFrom (!tg) 2 (rc6Tail w 16)) tl) : EndsAfter w (n + 1) b tl := by
  rcases h with h | ⟨h, h'⟩
  · exact .inl h
  · refine .inr ⟨h, ?_⟩
    have := rc6_last w 15 (!tg) 2
    generalize edgesFrom (!tg) 2 (rc6Tail w 16) = es at this h'
    obtain ⟨e, he, h1⟩ := Option.map_eq_some_iff.mp this
    rw [List.getLast?_append, he, Option.some_or, Option.map_some, h1, Option.some.injEq] at h'
    rw [if_neg (by omega)]
    simpa using h'

/-- Edges of which the first comes a half-bit later. -/
def bump : List (Bool × Nat) → List (Bool × Nat)
  | [] => []
  | (l, n) :: r => (l, n + 1) :: r

theorem edgesFrom_bump (b : Bool) (c : Nat) (ls : List Bool) : edgesFrom b (c + 1) ls = bump (edgesFrom b c ls) := by
  induction ls generalizing c with
  | nil => rfl
  | cons l ls ih =>
    rw [edgesFrom, edgesFrom]
    split
    · exact ih _
    · rfl

theorem data_missing (w : BitVec 16) (b : Bool) {tl : List (Bool × Nat)} (htl : EndsAfter w 16 b tl)
    (k : Nat) {a c d : Nat} (h1 : (edgesFrom b 2 (rc6Tail w 16))[k]? = some (true, a))
    (h2 : (edgesFrom b 2 (rc6Tail w 16))[k + 1]? = some (false, c))
    (h3 : (edgesFrom b 2 (rc6Tail w 16))[k + 2]? = some (true, d)) (o : Option Nat) :
    hits 18 (rightly ((edgesFrom b 2 (rc6Tail w 16)).take k) ++
      (true, o) :: rightly ((edgesFrom b 2 (rc6Tail w 16)).drop (k + 3) ++ tl)) + 1 ≤ 16 := by
  have key := fun k {a c d : Nat} h1 h2 h3 o => hits_missing w 16 b htl k (a := a) (c := c) (d := d) h1 h2 h3 19 o (by decide)
  rw [edgesFrom_bump] at h1 h2 h3 ⊢
  generalize edgesFrom b 1 (rc6Tail w 16) = D at *
  rcases D with _ | ⟨⟨l, n⟩, D⟩
  · cases h1
  rcases k with _ | k
  · rw [bump, List.getElem?_cons_zero, Option.some.injEq, Prod.mk.injEq] at h1
    have := key 0 (a := n) (by rw [List.getElem?_cons_zero, h1.1]) h2 h3 (o.map (· + 1))
    rcases o with _ | i
    · simp [hits, rightly]
    · simp only [List.take_zero, Option.map_some, bump, Nat.zero_add, List.drop_succ_cons, hits,
        show rightly [] = [] from rfl, List.nil_append] at this ⊢
      rw [hits_parity _ (p := 18 + i) (q := 19 + (i + 1)) (by omega)]
      split at this <;> split <;> omega
  · have := key (k + 1) h1 h2 h3 o
    simp only [bump, List.take_succ_cons, List.drop_succ_cons, rightly_cons, List.cons_append, hits] at this ⊢
    rw [show 18 + (n + 1) = 19 + n by omega]
    exact this

theorem rc6_head_cons (tg : Bool) : ∃ r, rc6Head 0 tg = (false, 6) :: (true, 2) :: (false, 1) :: r := by
  cases tg <;> exact ⟨_, rfl⟩

theorem edgesFrom_three (tg v1 v2 v3 : Bool) (ls : List Bool) :
    edgesFrom (!tg) 2 (v1 :: (!v1) :: v2 :: (!v2) :: v3 :: (!v3) :: ls) =
      edgesFrom (!tg) 2 [v1, !v1, v2, !v2, v3, !v3] ++ edgesFrom (!v3) 1 ls := by
  cases tg <;> cases v1 <;> cases v2 <;> cases v3 <;> rfl

theorem edgesFrom_three_length (tg v1 v2 v3 : Bool) : 3 ≤ (edgesFrom (!tg) 2 [v1, !v1, v2, !v2, v3, !v3]).length := by
  cases tg <;> cases v1 <;> cases v2 <;> cases v3 <;> decide

theorem rc6_head_missing (w : BitVec 16) (tg : Bool) {k : Nat} {tl : List (Bool × Nat)} (o : Option Nat)
    (ho : ∀ i, o = some i → 3 ≤ i ∧ i ≤ 6) (htl : EndsAfter w 13 (!w.getLsbD 13) tl) (hk : k < (rc6Head 0 tg).length)
    {a : Nat} (h1 : (rc6Head 0 tg)[k]? = some (true, a)) :
    (rc6Frame (rightly ((rc6Head 0 tg ++ edgesFrom (!tg) 2 (rc6Tail w 16)).take k) ++
      (true, o) :: rightly ((rc6Head 0 tg ++ edgesFrom (!tg) 2 (rc6Tail w 16)).drop (k + 3) ++ tl))).1 = none := by
  have hmem : o ∈ [none, some 3, some 4, some 5, some 6] := by
    rcases o with _ | i
    · simp
    · have := ho i rfl
      simp; omega
  obtain ⟨r, hr⟩ := rc6_head_cons tg
  have hm := head_missing tg (w.getLsbD 15) (w.getLsbD 14) (w.getLsbD 13) k hk
  have hl3 := edgesFrom_three_length tg (w.getLsbD 15) (w.getLsbD 14) (w.getLsbD 13)
  have hb := hits_bits w 13 (!w.getLsbD 13) htl
  have hsplit := edgesFrom_three tg (w.getLsbD 15) (w.getLsbD 14) (w.getLsbD 13) (rc6Tail w 13)
  rw [show rc6Tail w 16 = w.getLsbD 15 :: (!w.getLsbD 15) :: w.getLsbD 14 :: (!w.getLsbD 14) :: w.getLsbD 13 ::
    (!w.getLsbD 13) :: rc6Tail w 13 from rfl, hsplit]
  clear hsplit
  generalize edgesFrom (!tg) 2 [w.getLsbD 15, !w.getLsbD 15, w.getLsbD 14, !w.getLsbD 14, w.getLsbD 13, !w.getLsbD 13] = P at *
  generalize edgesFrom (!w.getLsbD 13) 1 (rc6Tail w 13) = R at *
  have hk1 : k + 3 ≤ (rc6Head 0 tg ++ P).length := by
    rw [List.length_append]; omega
  rw [← List.append_assoc, List.take_append_of_le_length (by omega), List.drop_append_of_le_length (by omega),
    List.append_assoc, rightly_append _ (R ++ tl), ← List.cons_append, ← List.append_assoc]
  rcases k with _ | _ | _ | k
  · rw [hr] at h1; cases h1
  · rw [hr]
    simp only [List.cons_append, Nat.zero_add, List.take_succ_cons, List.take_zero, rightly_cons,
      show rightly [] = [] from rfl, List.nil_append]
    unfold rc6Frame
    split
    · rename_i he
      simp only [List.cons.injEq, Prod.mk.injEq] at he
      have := (ho 2 he.2.1.2).1
      omega
    · rfl
    · rfl
  · rw [hr] at h1; cases h1
  · have hm := hm (by omega) (by rw [h1]; rfl) o hmem
    have hcons : ∃ X, rightly ((rc6Head 0 tg ++ P).take (k + 1 + 1 + 1)) ++
        (true, o) :: rightly ((rc6Head 0 tg ++ P).drop (k + 1 + 1 + 1 + 3)) =
          (false, some 6) :: (true, some 2) :: X := by
      rw [hr]
      exact ⟨_, rfl⟩
    obtain ⟨X, hX⟩ := hcons
    rw [hX] at hm ⊢
    rw [List.cons_append, List.cons_append]
    refine Classical.not_not.mp fun hne => ?_
    have hw := frame_steps _ hne
    rw [List.foldl_append] at hw
    exact weak_loses (!w.getLsbD 13) (R ++ tl) hb _ hm hw

/-- Without one of its marks a transmission is no command. -/
theorem rc6_missing_parse (w : BitVec 16) (tg : Bool) (o : Option Nat) {k : Nat} {tl : List (Bool × Nat)} {ms : List HalfEdge}
    (htl : Ending (rc6Head 0 tg ++ edgesFrom (!tg) 2 (rc6Tail w 16)) tl)
    (h : MissingAs (fun _ o => ∀ i, o = some i → 3 ≤ i ∧ i ≤ 6) (rc6Head 0 tg ++ edgesFrom (!tg) 2 (rc6Tail w 16)) k tl ms) :
    rc6Parse ((true, o) :: ms) = [] := by
  obtain ⟨a, b, c, o', h1, h2, h3, rfl, ho⟩ := h
  have hframe : (rc6Frame (rightly ((rc6Head 0 tg ++ edgesFrom (!tg) 2 (rc6Tail w 16)).take k) ++
      (true, o') :: rightly ((rc6Head 0 tg ++ edgesFrom (!tg) 2 (rc6Tail w 16)).drop (k + 3) ++ tl))).1 = none := by
    by_cases hk : k < (rc6Head 0 tg).length
    · rw [List.getElem?_append_left hk] at h1
      exact rc6_head_missing w tg o' ho (rc6_ends w tg 12 _ htl) hk h1
    · obtain ⟨i, rfl⟩ : ∃ i, k = (rc6Head 0 tg).length + i := ⟨_, (Nat.add_sub_of_le (by omega)).symm⟩
      rw [List.getElem?_append_right (by omega)] at h1 h2 h3
      rw [Nat.add_sub_cancel_left] at h1
      rw [show (rc6Head 0 tg).length + i + 1 - (rc6Head 0 tg).length = i + 1 by omega] at h2
      rw [show (rc6Head 0 tg).length + i + 2 - (rc6Head 0 tg).length = i + 2 by omega] at h3
      have hd := data_missing w (!tg) (rc6_ends w tg 15 _ htl) i h1 h2 h3 o'
      rw [List.take_append, List.take_of_length_le (by omega), Nat.add_sub_cancel_left, Nat.add_assoc,
        List.drop_append, List.drop_eq_nil_of_le (by omega), List.nil_append, Nat.add_sub_cancel_left, rightly_append,
        List.append_assoc, rc6_whole_head]
      have hle := midEdges_hits 18 16 (rightly ((edgesFrom (!tg) 2 (rc6Tail w 16)).take i) ++
        (true, o') :: rightly ((edgesFrom (!tg) 2 (rc6Tail w 16)).drop (i + 3) ++ tl))
      rw [if_neg (by omega)]
  obtain ⟨r, hr, hno⟩ := rc6_rest_no_leader w tg
  rw [hr] at h1 hframe ⊢
  rcases k with _ | k
  · cases h1
  rw [List.take_succ_cons, rightly_cons, List.cons_append] at hframe ⊢
  refine rc6_one_leader _ _ _ (fun hm => ?_) hframe
  have hright : ∀ {es : List (Bool × Nat)}, (∀ e ∈ es, e ∈ r ∨ e ∈ tl) → (false, some 6) ∉ rightly es := by
    intro es hes hm
    obtain ⟨e, he, heq⟩ := List.mem_map.mp hm
    obtain ⟨l, n⟩ := e
    simp only [Prod.mk.injEq, Option.some.injEq] at heq
    obtain ⟨rfl, rfl⟩ := heq
    rcases hes _ he with he | he
    · exact hno he
    · rcases htl with rfl | ⟨rfl, -⟩
      · cases he
      · simp at he
  rcases List.mem_append.mp hm with hm | hm
  · exact hright (fun e he => .inl (List.mem_of_mem_take he)) hm
  rcases List.mem_cons.mp hm with he | hm
  · cases he
  · refine hright (fun e he => ?_) hm
    rcases List.mem_append.mp he with he | he
    · rw [show k + 1 + 3 = (k + 3) + 1 by omega, List.drop_succ_cons] at he
      exact .inl (List.mem_of_mem_drop he)
    · exact .inr he

/-- Edges that break off in the data are no frame. -/
theorem rc6_cut (D : List (Bool × Nat)) (hpos : ∀ e ∈ D, 1 ≤ e.2) (htot : total D ≤ 32) {i n : Nat} {b : Bool} {cx : Option Nat}
    (hi : (bump D)[i]? = some (b, n)) (hx : ∀ j, cx = some j → 1 ≤ j ∧ j ≤ n) (hpart : ¬ (i + 1 = D.length ∧ cx = some n)) :
    (midEdges 1 18 16 (rightly ((bump D).take i) ++ [(b, cx)])).1.length ≤ 15 := by
  rcases D with _ | ⟨⟨l, n0⟩, D⟩
  · cases hi
  rcases i with _ | i
  · have h1 := midEdges_hits 18 16 (rightly ((bump ((l, n0) :: D)).take 0) ++ [(b, cx)])
    have h2 : hits 18 (rightly ((bump ((l, n0) :: D)).take 0) ++ [(b, cx)]) ≤ 1 := by
      rw [List.take_zero, show rightly [] = [] from rfl, List.nil_append]
      rcases cx with _ | j
      · simp [hits]
      · simp only [hits]; split <;> omega
    omega
  · rw [bump, List.getElem?_cons_succ] at hi
    have hk := (List.getElem?_eq_some_iff.mp hi).1
    have hn := hpos _ (List.mem_cons_of_mem _ (List.mem_of_getElem? hi))
    have h0 := hpos _ (List.mem_cons_self ..)
    dsimp only at hn h0
    have h1 := midEdges_odd 19 16 ((l, some n0) :: (rightly (D.take i) ++ [(b, cx)])) (by
      intro m hm
      rcases List.mem_cons.mp hm with rfl | hm
      · simp only [ne_eq, Option.some.injEq]; omega
      rcases List.mem_append.mp hm with hm | hm
      · exact rightly_pos (fun e he => hpos e (List.mem_cons_of_mem _ (List.mem_of_mem_take he))) m hm
      · rw [List.mem_singleton.mp hm]
        intro h0
        have := (hx 0 h0).1
        omega)
    have e1 : midEdges 1 19 16 ((l, some n0) :: (rightly (D.take i) ++ [(b, cx)])) =
        midEdges 1 18 16 (rightly ((bump ((l, n0) :: D)).take (i + 1)) ++ [(b, cx)]) := by
      rw [bump, List.take_succ_cons, rightly_cons, List.cons_append, midEdges, midEdges, show 18 + (n0 + 1) = 19 + n0 by omega]
    rw [e1, span_cons, gaps_append, gaps_rightly, span_cons] at h1
    simp only [gaps, List.map_nil, List.sum_nil, Nat.add_zero, Option.getD_some] at h1
    rw [total_cons] at htot
    dsimp only at htot
    have gx : cx.getD 0 ≤ n := by
      rcases cx with _ | j
      · simp
      · exact (hx j rfl).2
    have e2 : total D = total (D.take i) + n + total (D.drop (i + 1)) := by
      have h3 : D.drop i = (b, n) :: D.drop (i + 1) := by
        rw [List.getElem?_eq_getElem hk, Option.some.injEq] at hi
        rw [← hi]
        exact (List.getElem_cons_drop hk).symm
      have h4 : total D = total (D.take i) + total (D.drop i) := by rw [← total_append, List.take_append_drop]
      rw [h4, h3, total_cons]
      omega
    by_cases hl : i + 1 = D.length
    · have : cx ≠ some n := fun h => hpart ⟨by rw [List.length_cons]; omega, h⟩
      have : cx.getD 0 ≠ n := by
        rcases cx with _ | j
        · simp; omega
        · intro h; exact this (by simpa using h)
      omega
    · have : 1 ≤ total (D.drop (i + 1)) := by
        rcases hd : D.drop (i + 1) with _ | ⟨e, r⟩
        · have := List.drop_eq_nil_iff.mp hd
          omega
        · rw [total_cons]
          have := hpos e (List.mem_cons_of_mem _ (List.mem_of_mem_drop (by rw [hd]; exact List.mem_cons_self ..)))
          omega
      omega

/-- With a spike before one of the edges after the first the command is heard, or nothing. -/
theorem rc6_spiked_parse (c : Rc6Command) (o : Option Nat) {k : Nat} {tl : List (Bool × Nat)} {ms : List HalfEdge}
    (htl : tl = [] ∨ tl = [(false, 1)])
    (h : SpikedAs (rc6Head 0 c.toggle ++ edgesFrom (!c.toggle) 2 (rc6Tail (c.addr ++ c.cmd) 16)) k tl ms) :
    rc6Parse ((true, o) :: ms) = [] ∨
      (k = 0 ∨ k + 1 = (rc6Head 0 c.toggle ++ edgesFrom (!c.toggle) 2 (rc6Tail (c.addr ++ c.cmd) 16)).length) ∧
        rc6Parse ((true, o) :: ms) = [.ok (some c)] := by
  obtain ⟨b, n, cx, cz, hk, rfl, hx, hz⟩ := h
  have hwhole := fun o => rc6_whole_parse c o (tl := []) (.inl rfl)
  have hwhole' := fun o => rc6_whole_parse c o htl
  obtain ⟨r, hr, hno⟩ := rc6_rest_no_leader (c.addr ++ c.cmd) c.toggle
  have hlen := rc6_edges_len (c.addr ++ c.cmd) c.toggle
  have hD : ∀ e ∈ edgesFrom (!c.toggle) 1 (rc6Tail (c.addr ++ c.cmd) 16), 1 ≤ e.2 := fun e he => by
    rcases rc6_tail_len _ 16 (!c.toggle) 1 (.inl rfl) e he with h | h | h <;> omega
  have htot : total (edgesFrom (!c.toggle) 1 (rc6Tail (c.addr ++ c.cmd) 16)) ≤ 32 := by
    by_cases hne : edgesFrom (!c.toggle) 1 (rc6Tail (c.addr ++ c.cmd) 16) = []
    · rw [hne]; simp [total]
    · have := edges_total _ _ _ hne
      have h32 : (rc6Tail (c.addr ++ c.cmd) 16).length = 32 := rfl
      omega
  have hhl : (rc6Head 0 c.toggle).length ≤ 10 := by cases c.toggle <;> decide
  have hH0 : (rc6Head 0 c.toggle).length ≠ 0 := by cases c.toggle <;> decide
  have hhead := rc6_whole_head c.toggle
  rw [show edgesFrom (!c.toggle) 2 (rc6Tail (c.addr ++ c.cmd) 16) = bump (edgesFrom (!c.toggle) 1 (rc6Tail (c.addr ++ c.cmd) 16))
    from edgesFrom_bump _ 1 _] at *
  generalize edgesFrom (!c.toggle) 1 (rc6Tail (c.addr ++ c.cmd) 16) = D at *
  generalize rc6Head 0 c.toggle = H at *
  generalize hE : H ++ bump D = E at *
  have hkl : k < E.length := (List.getElem?_eq_some_iff.mp hk).1
  have e2 : E.drop k = (b, n) :: E.drop (k + 1) := by
    rw [List.getElem?_eq_getElem hkl, Option.some.injEq] at hk
    rw [← hk]
    exact (List.getElem_cons_drop hkl).symm
  have hn := hlen _ (List.mem_of_getElem? hk)
  dsimp only at hn
  have hright : ∀ {es : List (Bool × Nat)}, (∀ e ∈ es, e ∈ r ∨ e ∈ tl) → (false, some 6) ∉ rightly es := by
    intro es hes hm
    obtain ⟨e, he, heq⟩ := List.mem_map.mp hm
    obtain ⟨l, n⟩ := e
    simp only [Prod.mk.injEq, Option.some.injEq] at heq
    obtain ⟨rfl, rfl⟩ := heq
    rcases hes _ he with he | he
    · exact hno he
    · rcases htl with rfl | rfl
      · cases he
      · simp at he
  -- an edge after the first is not the end of a leader, and no part of it is
  have hnot : k ≠ 0 → ∀ {cy : Option Nat}, (∀ i, cy = some i → 1 ≤ i ∧ i ≤ n) → (b, cy) ≠ (false, some 6) := by
    intro hk0 cy hy he
    rw [Prod.mk.injEq] at he
    obtain ⟨rfl, rfl⟩ := he
    have h6 := (hy 6 rfl).2
    obtain ⟨k', rfl⟩ := Nat.exists_eq_succ_of_ne_zero hk0
    rw [hr, List.getElem?_cons_succ] at hk
    refine hno (List.mem_of_getElem? (i := k') ?_)
    rw [hk]
    congr 2
    omega
  have hA : rc6Parse ((true, o) :: (rightly (E.take k) ++ [(b, cx)])) = [] ∨ k + 1 = E.length ∧
      rc6Parse ((true, o) :: (rightly (E.take k) ++ [(b, cx)])) = [.ok (some c)] := by
    by_cases hfull : k + 1 = E.length ∧ cx = some n
    · refine .inr ⟨hfull.1, ?_⟩
      rw [← hwhole o, List.append_nil]
      congr 2
      rw [hfull.2]
      have e3 : E = E.take k ++ [(b, n)] := by
        have := (List.take_append_drop k E).symm
        rwa [e2, List.drop_eq_nil_of_le (by omega)] at this
      conv => rhs; rw [e3]
      rw [rightly_append]
      rfl
    · left
      by_cases hkH : k < H.length
      · obtain ⟨cs, h1, h2⟩ := rc6Parse_count _ ((true, o) :: (rightly (E.take k) ++ [(b, cx)])) (Nat.le_refl _)
        simp only [List.length_cons, List.length_append, rightly, List.length_map, List.length_take, List.length_nil] at h2
        have : cs = [] := List.eq_nil_of_length_eq_zero (by omega)
        rw [h1, this]
        rfl
      · obtain ⟨i, rfl⟩ : ∃ i, k = H.length + i := ⟨_, (Nat.add_sub_of_le (by omega)).symm⟩
        have hi : (bump D)[i]? = some (b, n) := by
          rw [← hE, List.getElem?_append_right (by omega), Nat.add_sub_cancel_left] at hk
          exact hk
        have hcut := rc6_cut D hD htot hi hx (fun h => hfull ⟨by
          rw [← hE, List.length_append]
          have : (bump D).length = D.length := by rcases D with _ | ⟨⟨l, n⟩, D⟩ <;> rfl
          omega, h.2⟩)
        have hframe : (rc6Frame (rightly (E.take (H.length + i)) ++ [(b, cx)])).1 = none := by
          rw [← hE, List.take_append, List.take_of_length_le (by omega), Nat.add_sub_cancel_left, rightly_append,
            List.append_assoc, hhead, if_neg (by omega)]
        have hk0 : H.length + i ≠ 0 := by omega
        have hnot' := hnot hk0 hx
        obtain ⟨k', hk'⟩ := Nat.exists_eq_succ_of_ne_zero hk0
        rw [hk'] at hframe ⊢
        rw [hr, List.take_succ_cons, rightly_cons, List.cons_append] at hframe ⊢
        refine rc6_one_leader _ _ _ (fun hm => ?_) hframe
        rcases List.mem_append.mp hm with hm | hm
        · exact hright (fun e he => .inl (List.mem_of_mem_take he)) hm
        · exact hnot' (List.mem_singleton.mp hm).symm
  have hB : rc6Parse ((!b, none) :: (b, cz) :: rightly (E.drop (k + 1) ++ tl)) = [] ∨ k = 0 ∧
      rc6Parse ((!b, none) :: (b, cz) :: rightly (E.drop (k + 1) ++ tl)) = [.ok (some c)] := by
    have hrest : (false, some 6) ∉ rightly (E.drop (k + 1) ++ tl) := hright fun e he => by
      rcases List.mem_append.mp he with he | he
      · rw [hr, List.drop_succ_cons] at he
        exact .inl (List.mem_of_mem_drop he)
      · exact .inr he
    by_cases hz6 : (b, cz) = (false, some 6)
    · right
      have hk0 : k = 0 := Classical.byContradiction fun h => hnot h hz hz6
      refine ⟨hk0, ?_⟩
      subst hk0
      rw [Prod.mk.injEq] at hz6
      obtain ⟨rfl, rfl⟩ := hz6
      rw [← hwhole' none, Bool.not_false]
      rw [List.drop_zero] at e2
      conv => rhs; rw [e2]
      rw [hr, List.getElem?_cons_zero, Option.some.injEq, Prod.mk.injEq] at hk
      rw [← hk.2]
      rfl
    · left
      refine rc6Parse_no_leader _ _ (Nat.le_refl _) fun hm => ?_
      rcases List.mem_cons.mp hm with hm | hm
      · exact absurd (congrArg Prod.snd hm) (by simp)
      rcases List.mem_cons.mp hm with hm | hm
      · exact hz6 hm.symm
      · exact hrest hm
  have hsplit := rc6Parse_none _ ((true, o) :: (rightly (E.take k) ++ [(b, cx)])) (Nat.le_refl _) (!b)
    ((b, cz) :: rightly (E.drop (k + 1) ++ tl))
  rw [List.cons_append, List.append_assoc, List.singleton_append] at hsplit
  rw [hsplit]
  rcases hA with hA | ⟨hA, hA'⟩ <;> rcases hB with hB | ⟨hB, hB'⟩
  · exact .inl (by rw [hA, hB]; rfl)
  · exact .inr ⟨.inl hB, by rw [hA, hB']; rfl⟩
  · exact .inr ⟨.inr hA, by rw [hA', hB]; rfl⟩
  · exfalso
    obtain ⟨cs, h1, h2⟩ := rc6Parse_count _ ((true, o) :: (rightly (E.take k) ++ [(b, cx)])) (Nat.le_refl _)
    rw [hB, List.take_zero] at h1 h2 hA'
    rw [hA'] at h1
    cases cs with
    | nil => cases h1
    | cons _ _ => simp [rightly] at h2; omega

/-! ## Readings -/

theorem rc6_hurt_brief {t : Target} {m : Mono} (hm : m = Mono.u32 ∨ m = Mono.u64) {f : Nat} (hlo : 20000 ≤ f)
    (hf : f < 2 ^ 32) {tbl : PulseSpans} (htbl : rc6Spans t m f = some tbl) {d : Nat} (h1 : 1 ≤ d)
    (h2 : 1000000 * d ≤ 250 * f + 1000000) : tbl.get d = none := by
  refine get_none_of fun i hi => ?_
  obtain ⟨h3, h4⟩ := C52_rejects .rc6 t m hm f hf tbl htbl i d hi
  rcases i with _ | _ | _ | _ | _ | _ | i
  · have := (h3 444 12 rfl).2
    omega
  · have := (h3 888 12 rfl).2
    omega
  · have := (h3 1332 12 rfl).2
    omega
  · have := (h3 1776 12 rfl).2
    omega
  · have := (h3 2220 12 rfl).2
    omega
  · have := (h3 2664 12 rfl).2
    omega
  · have := h4 rfl
    omega

theorem rc6_long {t : Target} {m : Mono} (hm : m = Mono.u32 ∨ m = Mono.u64) {f : Nat} (hlo : 20000 ≤ f)
    (hf : f < 2 ^ 32) {tbl : PulseSpans} (htbl : rc6Spans t m f = some tbl) {d j n : Nat} (hj : j ≤ 12) (hn : 3 ≤ n)
    (h : (100 - j) * (444 * n) * f ≤ 100000000 * (d + 1)) : ∀ i, (tbl.get d).map (· + 1) = some i → 3 ≤ i ∧ i ≤ 6 := by
  have h0 : 88 * (444 * 3) * f ≤ (100 - j) * (444 * n) * f :=
    Nat.mul_le_mul_right _ (Nat.mul_le_mul (by omega) (by omega))
  intro i hi
  obtain ⟨i', hi', rfl⟩ := Option.map_eq_some_iff.mp hi
  obtain ⟨h3, h4⟩ := C52_rejects .rc6 t m hm f hf tbl htbl i' d ((get_eq_iff' tbl i' d).mp hi').1
  rcases i' with _ | _ | _ | _ | _ | _ | i'
  · have := (h3 444 12 rfl).1
    omega
  · have := (h3 888 12 rfl).1
    omega
  · omega
  · omega
  · omega
  · omega
  · have := h4 rfl
    omega

/-! ## RC6: one transmission -/

theorem rc6_hurt_of {t : Target} (hus : 16 ≤ t.usizeBits) {f : Nat} (hf : f < 2 ^ 32) {m : Mono}
    (hm : m = Mono.u32 ∨ m = Mono.u64) {tbl : PulseSpans} (htbl : rc6Spans t m f = some tbl) (conv : Rc6Command → K)
    {evs : List Ev} (hl : evs.length ≤ 1000) {cs : List (Res Rc6Command)} (h : rc6Parse (halfEdges tbl evs) = cs) :
    (results (rc6Decoder t tbl) conv evs).map said = some (cs.map (Res.map conv)) := by
  have hsp := rc6_length hm hf htbl
  have hpow : 2 ^ 16 ≤ 2 ^ t.usizeBits := Nat.pow_le_pow_right (by decide) hus
  obtain ⟨o, ho⟩ := Option.ne_none_iff_exists'.mp (C30_rc6_no_panic t hus tbl hsp conv evs (.inr (by omega)))
  rw [ho, Option.map_some, C67_rc6 t hus tbl hsp conv _ o ho, h]

theorem rc6_hurt_one (t : Target) (hus : 16 ≤ t.usizeBits) (f j : Nat) (hlo : 20000 ≤ f) (hf : f < 2 ^ 32) (m : Mono)
    (hm : m = Mono.u32 ∨ m = Mono.u64) (tbl : PulseSpans) (htbl : rc6Spans t m f = some tbl)
    (hc : coversRc6 tbl f j = true) (conv : Rc6Command → K) (u : Nat) (hu : 0 < u) (phase : Nat)
    (i : Rc6Hurt × List (Bool × Nat) × Option Nat) (h : i.1.Wire u j f i.2.1 i.2.2)
    (hp : ∀ n, i.1 = .other (.noise n) → NoPanic t n) :
    ∃ b p es, withTail i.2.1 i.2.2 = (b, p) :: es ∧
      (∀ t, Gap tbl (reading u f phase (t + p) - reading u f phase t)) ∧
      ∀ g t', ∃ r, (results (rc6Decoder t tbl) conv ((b, g) :: clocked u f phase (t' + p) es)).map said =
        some (r.map (Res.map conv)) ∧ rc6HurtAnswer () i.1 r () := by
  obtain ⟨s, evs, tail⟩ := i
  have hgap : ∀ p, 16000 * u ≤ 1000000 * p → ∀ t', Gap tbl (reading u f phase (t' + p) - reading u f phase t') :=
    fun p hp t' => long_gap hm hlo hf .rc6 (fun i l tol hi => by
      have : ∀ x ∈ Kind.symbols .rc6, (100 + x.2) * x.1 ≤ 300000 := by decide
      exact this (l, tol) (List.mem_of_getElem? hi)) htbl hu phase t' p hp
  have hclk := rc6Clock_of_covers (phase := phase) hu hc
  have hcov : ∀ n, n = 1 ∨ n = 2 ∨ n = 3 ∨ n = 6 → covers tbl f j (n - 1) (444 * n) = true := by
    simp only [coversRc6, Bool.and_eq_true] at hc
    obtain ⟨⟨⟨⟨h1, h2⟩, h3⟩, h6⟩, -⟩ := hc
    rintro n (rfl | rfl | rfl | rfl)
    · exact h1
    · exact h2
    · exact h3
    · exact h6
  have hj : j ≤ 12 := Nat.le_of_not_lt fun hj => by
    have h0 := hcov 1 (.inl rfl)
    rw [Nat.sub_self, Nat.mul_one, not_covers_more (k := .rc6) hm hlo hf htbl (s := 0) (tol := 12) rfl (by decide) hj] at h0
    cases h0
  have hget : ∀ t' x n, n = 1 ∨ n = 2 ∨ n = 3 ∨ n = 6 → Near u j (444 * n) x →
      (tbl.get (reading u f phase (t' + x) - reading u f phase t')).map (· + 1) = some n := fun t' x n hn hx =>
    rc6_right_get hm hlo hf htbl hn (hclk t' _ _ hn hx)
  have hpart : ∀ t' x n, n = 1 ∨ n = 2 ∨ n = 3 ∨ n = 6 → u ≤ x * f → 100000000 * x ≤ (100 + j) * (444 * n) * u →
      ∀ i, tbl.get (reading u f phase (t' + x) - reading u f phase t') = some i → i + 1 ≤ n := by
    intro t' x n hn h0 hx
    obtain ⟨r1, r2⟩ := reading_early hu f phase j _ t' x h0 hx
    obtain ⟨w, hw, -, hh⟩ := covers_iff.mp (hcov n hn)
    refine tail_get (by rcases hn with h | h | h | h <;> omega) hw (Nat.le_trans r2 hh)
      (low_le hm hlo hf .rc6 htbl (n := n) (l := 444 * n) (tol := 12) ?_ hw r1 ?_)
    · rcases hn with h | h | h | h <;> rw [h] <;> rfl
    · intro i l' tol' hi hs
      rcases i with _ | _ | _ | _ | _ | _ | i
      · rcases hn with h | h | h | h <;> omega
      all_goals simp [Kind.symbols] at hs
      all_goals
        obtain ⟨rfl, rfl⟩ := hs
        rcases hn with h | h | h | h <;> omega
  have hbrief : ∀ t' y, u ≤ y * f → 1000000 * y ≤ 250 * u →
      tbl.get (reading u f phase (t' + y) - reading u f phase t') = none := fun t' y h1 h2 => by
    obtain ⟨h3, h4⟩ := brief_reading hu f phase t' y 250 h1 h2
    exact rc6_hurt_brief hm hlo hf htbl h3 h4
  have hcons : ∀ e es, halfEdges tbl (e :: es) = (e.1, (tbl.get e.2).map (· + 1)) :: halfEdges tbl es := fun _ _ => rfl
  have hcl : ∀ t' es, (clocked u f phase t' es).length = es.length := fun _ _ => clocked_length ..
  have hE : ∀ (w : BitVec 16) (tg : Bool), (rc6Head 0 tg ++ edgesFrom (!tg) 2 (rc6Tail w 16)).length ≤ 42 := fun w tg => by
    have := edgesFrom_length (!tg) 2 (rc6Tail w 16)
    have h3 : (rc6Tail w 16).length = 32 := rfl
    have hhl : (rc6Head 0 tg).length ≤ 10 := by cases tg <;> decide
    rw [List.length_append]
    omega
  cases s with
  | other s =>
    obtain ⟨b, p, es, h1, h2, h3⟩ := rc6_noisy_one t hus f j hlo hf m hm tbl htbl hc conv u hu phase (s, evs, tail) h
      fun n hn => hp n (by rw [← hn])
    refine ⟨b, p, es, h1, h2, fun g t' => ?_⟩
    obtain ⟨r, h4, h5⟩ := h3 g t'
    exact ⟨r, h4, .other s r h5⟩
  | spiked c k =>
    obtain ⟨h16, whole, ⟨⟨p, n0, evs', E, rfl, hedges, hT⟩, htail⟩, b, x, y, z, hk, hevs, hx, hy, hz, hus'⟩ := h
    dsimp only at hevs h16 htail ⊢
    have hlast : ∀ x, tail = some x → Near u j (444 * 1) x := fun x hx => (htail x hx).1
    rw [rc6Edges, rc6Edges_eq 0 (.inl rfl), List.cons.injEq] at hedges
    obtain ⟨-, rfl⟩ := hedges
    have hlen := rc6_edges_len (c.addr ++ c.cmd) c.toggle
    have hl' := timed_len hT
    have hE := hE (c.addr ++ c.cmd) c.toggle
    have htl := fun t' => tail_edges (tbl := tbl) (f := f) (phase := phase) (fun t' x hx => hget t' x 1 (.inl rfl) hx) hlast t'
    rcases k with _ | k
    · rw [List.getElem?_cons_zero, Option.some.injEq, Prod.mk.injEq] at hk
      obtain ⟨rfl, -⟩ := hk
      rw [List.take_zero, List.nil_append, Nat.zero_add, List.drop_succ_cons, List.drop_zero] at hevs
      subst hevs
      refine ⟨true, x, (false, y) :: (true, z) :: withTail evs' tail, by simp only [withTail_cons, Bool.not_true],
        hgap x (h16 _ rfl), fun g t' => ⟨_, rc6_hurt_of hus hf hm htbl conv ?_ ?_, .heard c 0 (.inl rfl)⟩⟩
      · have := withTail_length evs' tail
        simp only [List.length_cons, hcl]
        omega
      · rw [clocked, clocked, hcons, hcons, hcons, hbrief _ _ hy hus', Option.map_none, withTail_nil]
        obtain ⟨t2, ht2⟩ := clocked_append_at u f phase evs' (withTail [] tail) (t' + x + y + z)
        rw [ht2, halfEdges_append, htl, halfEdges_timed (clocked_timed (fun t ns w' hw' hn => hget t ns _ (hlen w' hw') hn) _ hT),
          ← rightly_append]
        have := rc6Parse_none 1 [(true, (tbl.get g).map (· + 1))] (Nat.le_refl _) false
          ((true, (tbl.get (reading u f phase (t' + x + y + z) - reading u f phase (t' + x + y))).map (· + 1)) ::
            rightly (rc6Head 0 c.toggle ++ edgesFrom (!c.toggle) 2 (rc6Tail (c.addr ++ c.cmd) 16) ++ tailUnit tail))
        rw [List.singleton_append] at this
        rw [this, rc6Parse_no_leader _ [(true, _)] (Nat.le_refl _) (by simp), List.nil_append, rc6Parse.eq_2,
          rc6_whole_parse c _ (tailUnit_cases tail)]
        rfl
    · rw [List.getElem?_cons_succ] at hk
      rw [List.take_succ_cons, List.drop_succ_cons, List.cons_append] at hevs
      subst hevs
      have hkl := (List.getElem?_eq_some_iff.mp hk).1
      refine ⟨true, p, evs'.take k ++ (b, x) :: (!b, y) :: (b, z) :: (evs'.drop (k + 1) ++ withTail [] tail), ?_,
        hgap p (h16 _ rfl), fun g t' => ?_⟩
      · rw [withTail_nil]; simp
      have hms := spiked_edges (tbl := tbl) (f := f) (phase := phase) (us := 250)
        (fun t' x e he hn => hget t' x _ (hlen e he) hn)
        (fun t' x e he h0 hx => hpart t' x _ (hlen e he) h0 hx) hbrief hT hk hx hy hz hus' htl (t' + p)
      have hres := rc6_spiked_parse c ((tbl.get g).map (· + 1)) (tailUnit_cases tail) hms
      have hsmall : ((true, g) :: clocked u f phase (t' + p) (evs'.take k ++ (b, x) :: (!b, y) :: (b, z) ::
          (evs'.drop (k + 1) ++ withTail [] tail))).length ≤ 1000 := by
        have := withTail_length [] tail
        simp only [List.length_nil] at this
        simp only [List.length_cons, hcl, List.length_append, List.length_take, List.length_drop]
        omega
      rcases hres with h0 | ⟨h1, h2⟩
      · exact ⟨[], rc6_hurt_of hus hf hm htbl conv hsmall h0, .lost c (k + 1) (by omega)⟩
      · refine ⟨_, rc6_hurt_of hus hf hm htbl conv hsmall h2, .heard c (k + 1) ?_⟩
        rw [rc6Edges, rc6Edges_eq 0 (.inl rfl), List.length_cons]
        rcases h1 with rfl | h1
        · exact .inr (.inl rfl)
        · exact .inr (.inr (by omega))
  | missing c k =>
    obtain ⟨h16, whole, ⟨⟨p, n0, evs', E, rfl, hedges, hT⟩, htail⟩, x, y, z, hk1, hk2, hk3, hevs⟩ := h
    dsimp only at hevs h16 htail ⊢
    have hlast : ∀ x, tail = some x → Near u j (444 * 1) x := fun x hx => (htail x hx).1
    have hend : Ending (rc6Head 0 c.toggle ++ edgesFrom (!c.toggle) 2 (rc6Tail (c.addr ++ c.cmd) 16)) (tailUnit tail) := by
      cases tail with
      | none => exact .inl rfl
      | some x =>
        have h1 := (htail x rfl).2
        have hne : rc6Head 0 c.toggle ++ edgesFrom (!c.toggle) 2 (rc6Tail (c.addr ++ c.cmd) 16) ≠ [] := by
          obtain ⟨r, hr, -⟩ := rc6_rest_no_leader (c.addr ++ c.cmd) c.toggle
          rw [hr]; simp
        rw [rc6Edges, rc6Edges_eq 0 (.inl rfl), List.getLast?_cons_of_ne_nil hne] at h1
        exact .inr ⟨rfl, h1⟩
    rw [rc6Edges, rc6Edges_eq 0 (.inl rfl), List.cons.injEq] at hedges
    obtain ⟨-, rfl⟩ := hedges
    have hlen := rc6_edges_len (c.addr ++ c.cmd) c.toggle
    have hl' := timed_len hT
    have hE := hE (c.addr ++ c.cmd) c.toggle
    have htl := fun t' => tail_edges (tbl := tbl) (f := f) (phase := phase) (fun t' x hx => hget t' x 1 (.inl rfl) hx) hlast t'
    rcases k with _ | k
    · rw [List.take_zero, List.nil_append, Nat.zero_add, List.drop_succ_cons] at hevs
      subst hevs
      have hkl := (List.getElem?_eq_some_iff.mp hk3).1
      rw [List.length_cons] at hkl
      refine ⟨true, x + y + z, evs'.drop 2 ++ withTail [] tail, by rw [withTail_cons, withTail_nil], hgap _ (h16 _ rfl),
        fun g t' => ⟨[], rc6_hurt_of hus hf hm htbl conv ?_ ?_, .missing c 0⟩⟩
      · have := withTail_length [] tail
        simp only [List.length_nil] at this
        simp only [List.length_cons, hcl, List.length_append, List.length_drop]
        omega
      · obtain ⟨t2, ht2⟩ := clocked_append_at u f phase (evs'.drop 2) (withTail [] tail) (t' + (x + y + z))
        rw [hcons, ht2, halfEdges_append, htl, halfEdges_timed (clocked_timed
          (fun t ns w' hw' hn => hget t ns _ (hlen w' (List.mem_of_mem_drop hw')) hn) _ (timed_drop 2 hT)), ← rightly_append]
        refine rc6Parse_no_leader _ _ (Nat.le_refl _) fun hm => ?_
        obtain ⟨r, hr, hno⟩ := rc6_rest_no_leader (c.addr ++ c.cmd) c.toggle
        rcases List.mem_cons.mp hm with hm | hm
        · cases hm
        · obtain ⟨⟨l, n⟩, he, heq⟩ := List.mem_map.mp hm
          simp only [Prod.mk.injEq, Option.some.injEq] at heq
          obtain ⟨rfl, rfl⟩ := heq
          rcases List.mem_append.mp he with he | he
          · rw [hr, List.drop_succ_cons] at he
            exact hno (List.mem_of_mem_drop he)
          · rcases tailUnit_cases tail with h | h <;> rw [h] at he <;> simp at he
    · rw [List.getElem?_cons_succ] at hk1 hk2 hk3
      rw [List.take_succ_cons, List.drop_succ_cons, List.cons_append] at hevs
      subst hevs
      have hkl := (List.getElem?_eq_some_iff.mp hk3).1
      refine ⟨true, p, evs'.take k ++ (true, x + y + z) :: (evs'.drop (k + 3) ++ withTail [] tail), ?_,
        hgap p (h16 _ rfl), fun g t' => ⟨[], rc6_hurt_of hus hf hm htbl conv ?_ ?_, .missing c (k + 1)⟩⟩
      · rw [withTail_nil]; simp
      · have := withTail_length [] tail
        simp only [List.length_nil] at this
        simp only [List.length_cons, hcl, List.length_append, List.length_take, List.length_drop]
        omega
      · exact rc6_missing_parse _ _ _ hend (missing_edges (P := fun _ o => ∀ i, o = some i → 3 ≤ i ∧ i ≤ 6)
          (fun t' x e he hn => hget t' x _ (hlen e he) hn) (fun e he => by rcases hlen e he with h | h | h | h <;> omega)
          (fun t' x n hn hx => rc6_long hm hlo hf htbl hj hn (long_reading hu f phase t' x j _ hx)) hT hk1 hk2 hk3 htl (t' + p))

/-- **C96**, RC6 (mode 0): as for RC5, with spikes of 250 microseconds or less. -/
theorem C96_rc6 (t : Target) (hus : 16 ≤ t.usizeBits) (f j : Nat) (hlo : 20000 ≤ f) (hf : f < 2 ^ 32) (m : Mono)
    (hm : m = Mono.u32 ∨ m = Mono.u64) (tbl : PulseSpans) (htbl : rc6Spans t m f = some tbl)
    (hc : coversRc6 tbl f j = true) (conv : Rc6Command → K) (u : Nat) (hu : 0 < u) (phase : Nat)
    (items : List (Rc6Hurt × List (Bool × Nat) × Option Nat))
    (hok : ∀ i ∈ items, i.1.Wire u j f i.2.1 i.2.2 ∧ ∀ n, i.1 = .other (.noise n) → NoPanic t n)
    (b : Bool) (pause : Nat) (es : List (Bool × Nat))
    (hes : (items.flatMap fun i => withTail i.2.1 i.2.2) = (b, pause) :: es) (t0 g : Nat) :
    ∃ rs, (results (rc6Decoder t tbl) conv ((b, g) :: clocked u f phase (t0 + pause) es)).map said =
        some (rs.map (Res.map conv)) ∧
      Tells rc6HurtAnswer () (items.map fun i => i.1) rs :=
  (pieces_tells (rc6Decoder t tbl) conv tbl u f phase (C29_rc6_gap_forgets t tbl conv) rc6HurtAnswer items fun i hi =>
    rc6_hurt_one t hus f j hlo hf m hm tbl htbl hc conv u hu phase i (hok i hi).1 (hok i hi).2).2 b pause es hes g t0

end Infrared
