import Verif.Props.WrapBi

/-!
# C99: a counter that wraps around, and RC6
-/

namespace Infrared

open Spec

variable {K : Type}

/-! ## Reading bits -/

theorem read6 (w : BitVec 16) (n : Nat) (b : Bool) (pos : Nat) (hpos : pos % 2 = 1) (rest : List HalfEdge) :
    (midEdges 1 pos n (rightly (edgesFrom b 1 (rc6Tail w n)) ++ rest)).1 = (bitsFrom w n).map not ∧
      (midEdges 1 pos n (rightly (edgesFrom b 1 (rc6Tail w n)) ++ rest)).2.2 = rest := by
  induction n generalizing b pos with
  | zero =>
    rw [midEdges]
    exact ⟨rfl, rfl⟩
  | succ n ih =>
    rw [rc6Tail, edgesFrom_bit2, bitsFrom, List.map_cons]
    generalize w.getLsbD n = v at ih ⊢
    split
    · rw [rightly_cons, List.cons_append, midEdges, if_pos (by dsimp only; omega)]
      obtain ⟨h1, h2⟩ := ih (!v) (pos + 2) (by omega)
      exact ⟨by rw [h1], h2⟩
    · rw [rightly_cons, rightly_cons, List.cons_append, List.cons_append, midEdges, if_neg (by dsimp only; omega),
        midEdges, if_pos (by dsimp only; omega)]
      obtain ⟨h1, h2⟩ := ih (!v) (pos + 1 + 1) (by omega)
      exact ⟨by rw [h1], h2⟩

/-- The directions of the edges at the boundaries between bits. -/
def between (w : BitVec 16) (tl : List (Bool × Nat)) : Nat → Bool → List Bool
  | 0, _ => tl.map Prod.fst
  | n + 1, b => if w.getLsbD n = b then between w tl n (!w.getLsbD n) else w.getLsbD n :: between w tl n (!w.getLsbD n)

theorem between_read (w : BitVec 16) (n : Nat) (b : Bool) {tl : List (Bool × Nat)} (htl : tl = [] ∨ tl = [(false, 1)])
    (pos : Nat) (hpos : pos % 2 = 0) (k : Nat) :
    (midEdges 1 pos k (rightly (edgesFrom b 1 (rc6Tail w n) ++ tl))).1 = (between w tl n b).take k := by
  cases k with
  | zero => rw [midEdges]; rfl
  | succ k =>
    induction n generalizing b pos k with
    | zero =>
      rw [show edgesFrom b 1 (rc6Tail w 0) = [] from rfl, List.nil_append, between]
      rcases htl with rfl | rfl
      · rfl
      · rw [rightly_cons, midEdges, if_pos (by dsimp only; omega)]
        cases k <;> rfl
    | succ n ih =>
      rw [rc6Tail, edgesFrom_bit2, between]
      generalize w.getLsbD n = v at ih ⊢
      split
      · rw [List.cons_append, rightly_cons, midEdges, if_neg (by dsimp only; omega)]
        exact ih _ (pos + 2) (by omega) k
      · rw [List.cons_append, List.cons_append, rightly_cons, rightly_cons, midEdges, if_pos (by dsimp only; omega),
          List.take_succ_cons]
        cases k with
        | zero => rw [midEdges]; rfl
        | succ k =>
          rw [midEdges, if_neg (by dsimp only; omega)]
          dsimp only
          rw [ih _ (pos + 1 + 1) (by omega) k]

theorem between_le (w : BitVec 16) (n : Nat) (b : Bool) {tl : List (Bool × Nat)} (htl : EndsAfter w n b tl) :
    (between w tl n b).length ≤ n + (if b then 1 else 0) := by
  induction n generalizing b with
  | zero =>
    rcases htl with rfl | ⟨rfl, hb⟩
    · exact Nat.zero_le _
    · rw [if_pos rfl] at hb
      rw [hb]
      exact Nat.le_refl _
  | succ n ih =>
    have := ih _ htl.step
    rw [between]
    cases hv : w.getLsbD n <;> rw [hv] at this <;> cases b <;> simp at this ⊢ <;> omega

theorem all_succ (w : BitVec 16) (n : Nat) (x : Bool) :
    (∀ i < n + 1, w.getLsbD i = x) ↔ w.getLsbD n = x ∧ ∀ i < n, w.getLsbD i = x := by
  refine ⟨fun h => ⟨h n (by omega), fun i hi => h i (by omega)⟩, fun h i hi => ?_⟩
  rcases Nat.lt_succ_iff_lt_or_eq.mp hi with hi | rfl
  · exact h.2 i hi
  · exact h.1

/-- One boundary more than bits. -/
theorem between_over (w : BitVec 16) (n : Nat) (b : Bool) {tl : List (Bool × Nat)} (htl : EndsAfter w n b tl) :
    if tl = [(false, 1)] ∧ b = true ∧ ∀ i < n, w.getLsbD i = false then
      between w tl n b = List.replicate (n + 1) false
    else (between w tl n b).length < n + 1 := by
  induction n generalizing b with
  | zero =>
    rcases htl with rfl | ⟨rfl, hb⟩
    · rw [if_neg (by simp)]
      exact Nat.zero_lt_one
    · rw [if_pos rfl] at hb
      rw [if_pos ⟨rfl, hb, by simp⟩]
      rfl
  | succ n ih =>
    have ih := ih _ htl.step
    have hle := between_le w n _ htl.step
    simp only [all_succ]
    rw [between]
    cases hv : w.getLsbD n
    · rw [hv] at ih hle
      cases b
      · simp only [Bool.not_false] at ih hle ⊢
        simp at hle ⊢
        omega
      · simp only [Bool.not_false, true_and] at ih
        simp only [Bool.false_eq_true, if_false, true_and, Bool.not_false]
        split
        · rename_i hc
          rw [if_pos hc] at ih
          rw [ih]
          rfl
        · rename_i hc
          rw [if_neg hc] at ih
          simpa using ih
    · rw [hv] at hle
      cases b <;> simp at hle ⊢ <;> omega

/-- As many boundaries as bits. -/
theorem between_full (w : BitVec 16) (n : Nat) (b : Bool) {tl : List (Bool × Nat)} (htl : EndsAfter w n b tl) :
    if (b = true ∧ ∀ i < n, w.getLsbD i = false) ∨
        (b = false ∧ (∀ j < n, ∀ i < j, w.getLsbD i = true → w.getLsbD j = true) ∧
          (tl = [(false, 1)] ∨ ∀ i < n, w.getLsbD i = true)) then
      (between w tl n b).take n = bitsFrom w n
    else (between w tl n b).length < n := by
  induction n generalizing b with
  | zero =>
    rw [if_pos (by cases b <;> simp)]
    rfl
  | succ n ih =>
    have ih := ih _ htl.step
    have hle := between_le w n _ htl.step
    have hov := between_over w n _ htl.step
    simp only [all_succ]
    rw [between]
    cases hv : w.getLsbD n
    · rw [hv] at ih hle hov
      cases b
      · simp only [Bool.not_false, true_and] at hov
        simp only [if_true, Bool.false_eq_true, false_and, or_false, false_or, true_and, Bool.not_false]
        have hiff : (∀ j < n + 1, ∀ i < j, w.getLsbD i = true → w.getLsbD j = true) ↔ ∀ i < n, w.getLsbD i = false := by
          constructor
          · intro h i hi
            have := h n (by omega) i hi
            rw [hv] at this
            simpa using this
          · intro h j hj i hi h1
            rw [h i (by omega)] at h1
            cases h1
        simp only [hiff]
        split
        · rename_i hc
          rw [if_pos ⟨hc.2, hc.1⟩] at hov
          rw [hov, List.take_of_length_le (by simp), bitsFrom, hv, List.replicate_succ]
          congr 1
          have : ∀ m ≤ n, bitsFrom w m = List.replicate m false := by
            intro m
            induction m with
            | zero => intro _; rfl
            | succ m ihm => intro hm; rw [bitsFrom, ihm (by omega), hc.1 m (by omega), List.replicate_succ]
          exact (this n (Nat.le_refl _)).symm
        · rename_i hc
          rw [if_neg (fun h => hc ⟨h.2, h.1⟩)] at hov
          exact hov
      · simp only [Bool.not_false, true_and, Bool.true_eq_false, false_and, or_false] at ih
        simp only [Bool.false_eq_true, if_false, true_and, Bool.not_false, Bool.true_eq_false, false_and, or_false]
        split
        · rename_i hc
          rw [if_pos hc] at ih
          rw [List.take_succ_cons, ih, bitsFrom, hv]
        · rename_i hc
          rw [if_neg hc] at ih
          simpa using ih
    · rw [hv] at ih hle
      cases b
      · simp only [Bool.not_true, Bool.false_eq_true, false_and, false_or, true_and] at ih
        simp only [Bool.true_eq_false, if_false, true_and, Bool.not_true, Bool.false_eq_true, false_and, false_or]
        have hiff : (∀ j < n + 1, ∀ i < j, w.getLsbD i = true → w.getLsbD j = true) ↔
            ∀ j < n, ∀ i < j, w.getLsbD i = true → w.getLsbD j = true := by
          refine ⟨fun h j hj => h j (by omega), fun h j hj => ?_⟩
          rcases Nat.lt_succ_iff_lt_or_eq.mp hj with hj | rfl
          · exact h j hj
          · intro _ _ _; exact hv
        simp only [hiff]
        split
        · rename_i hc
          rw [if_pos hc] at ih
          rw [List.take_succ_cons, ih, bitsFrom, hv]
        · rename_i hc
          rw [if_neg hc] at ih
          simpa using ih
      · simp at hle ⊢
        omega

/-! ## Hits within the data -/

/-- The bit in whose middle the interval of 2 half-bits before edge `k` ends. -/
def hitBit6 (w : BitVec 16) : Nat → Bool → Nat → Option Nat
  | 0, _, _ => none
  | n + 1, b, k =>
    if w.getLsbD n = b then if k = 0 then some n else hitBit6 w n (!w.getLsbD n) (k - 1)
    else if k < 2 then none else hitBit6 w n (!w.getLsbD n) (k - 2)

theorem hitBit6_eq (w : BitVec 16) (n : Nat) (b : Bool) (k : Nat) :
    hitBit6 w n b k = if (edgesFrom b 1 (rc6Tail w n))[k]?.map Prod.snd = some 2 then
      some (n - total ((edgesFrom b 1 (rc6Tail w n)).take (k + 1)) / 2) else none := by
  induction n generalizing b k with
  | zero => rfl
  | succ n ih =>
    have key : ∀ (T n : Nat), n + 1 - (2 + T) / 2 = n - T / 2 := fun T n => by omega
    rw [rc6Tail, edgesFrom_bit2, hitBit6]
    split
    · match k with
      | 0 => simp [total]
      | k + 1 =>
        rw [if_neg (by omega), Nat.add_sub_cancel]
        simp only [List.getElem?_cons_succ, List.take_succ_cons, total_cons]
        rw [ih, key]
    · match k with
      | 0 => rfl
      | 1 => rfl
      | k + 2 =>
        rw [if_neg (by omega), Nat.add_sub_cancel]
        simp only [List.getElem?_cons_succ, List.take_succ_cons, total_cons]
        rw [ih, ← Nat.add_assoc, key]

/-- The lowest `m` bits set. -/
def lowSet (w : BitVec 16) (m : Nat) : BitVec 16 := w ||| BitVec.allOnes 16 >>> (16 - m)

theorem lowSet_get (w : BitVec 16) {m : Nat} (hm : m ≤ 16) (j : Nat) :
    (lowSet w m).getLsbD j = (w.getLsbD j || decide (j < m)) := by
  rw [lowSet, BitVec.getLsbD_or, BitVec.getLsbD_ushiftRight, BitVec.getLsbD_allOnes]
  congr 2
  exact propext ⟨fun h => by omega, fun h => by omega⟩

theorem read6_struck (w : BitVec 16) (n : Nat) (hn : n ≤ 16) (b : Bool) {tl : List (Bool × Nat)}
    (htl : EndsAfter w n b tl) (pos : Nat) (hpos : pos % 2 = 1) (k : Nat) (M : List Bool)
    (hM : (midEdges 1 pos n (strike 7 k (rightly (edgesFrom b 1 (rc6Tail w n) ++ tl)))).1 = M) :
    match hitBit6 w n b k with
    | none => M = (bitsFrom w n).map not
    | some i => i < n ∧ if tl = [(false, 1)] ∧ ∀ j < i + 1, w.getLsbD j = false then
        M = (bitsFrom (lowSet w (i + 1)) n).map not
      else M.length < n := by
  subst hM
  have hcases : tl = [] ∨ tl = [(false, 1)] := htl.imp id And.left
  induction n generalizing b pos k with
  | zero =>
    rw [hitBit6, midEdges]
    rfl
  | succ n ih =>
    have ih := fun pos hp k => ih (by omega) _ htl.step pos hp k
    have hr := fun pos hp => (read6 w n (!w.getLsbD n) pos hp (rightly tl)).1
    have hlap := fun pos hp => between_read w n (!w.getLsbD n) hcases pos hp (n + 1)
    have hov := between_over w n _ htl.step
    have hall := all_succ w n false
    have next : ∀ (M : List Bool) (k : Nat),
        (match hitBit6 w n (!w.getLsbD n) k with
        | none => M = (bitsFrom w n).map not
        | some i => i < n ∧ if tl = [(false, 1)] ∧ ∀ j < i + 1, w.getLsbD j = false then
            M = (bitsFrom (lowSet w (i + 1)) n).map not
          else M.length < n) →
        match hitBit6 w n (!w.getLsbD n) k with
        | none => (!w.getLsbD n) :: M = (bitsFrom w (n + 1)).map not
        | some i => i < n + 1 ∧ if tl = [(false, 1)] ∧ ∀ j < i + 1, w.getLsbD j = false then
            (!w.getLsbD n) :: M = (bitsFrom (lowSet w (i + 1)) (n + 1)).map not
          else ((!w.getLsbD n) :: M).length < n + 1 := by
      intro M k h
      revert h
      rcases hitBit6 w n (!w.getLsbD n) k with _ | i <;> intro h
      · dsimp only at h ⊢
        rw [h]; rfl
      · obtain ⟨hi, h⟩ := h
        refine ⟨by omega, ?_⟩
        split
        · rename_i hc
          rw [if_pos hc] at h
          rw [h, bitsFrom, List.map_cons, lowSet_get w (by omega) n]
          simp [show ¬ n < i + 1 by omega]
        · rename_i hc
          rw [if_neg hc] at h
          simpa using h
    rw [rc6Tail, edgesFrom_bit2, hitBit6]
    by_cases hv : w.getLsbD n = b
    · rw [if_pos hv, if_pos hv, List.cons_append, rightly_cons]
      match k with
      | 0 =>
        rw [if_pos rfl]
        dsimp only
        rw [strike, midEdges, if_neg (show ¬ (pos + 7) % 2 = 1 by omega), hlap (pos + 7) (by omega)]
        refine ⟨by omega, ?_⟩
        have he : (tl = [(false, 1)] ∧ (!w.getLsbD n) = true ∧ ∀ i < n, w.getLsbD i = false) ↔
            tl = [(false, 1)] ∧ ∀ j < n + 1, w.getLsbD j = false := by
          rw [hall]; simp
        simp only [he] at hov
        split
        · rename_i hc
          rw [if_pos hc] at hov
          rw [hov, List.take_of_length_le (by simp)]
          have hz : ∀ m, m ≤ n + 1 → (bitsFrom (lowSet w (n + 1)) m).map not = List.replicate m false := by
            intro m
            induction m with
            | zero => intro _; rfl
            | succ m ihm =>
              intro hm
              rw [bitsFrom, List.map_cons, ihm (by omega), List.replicate_succ, lowSet_get w (by omega) m]
              simp [show m < n + 1 by omega]
          rw [hz _ (Nat.le_refl _)]
        · rename_i hc
          rw [if_neg hc] at hov
          rw [List.length_take]
          omega
      | k + 1 =>
        rw [if_neg (by omega), Nat.add_sub_cancel]
        dsimp only
        rw [strike, midEdges, if_pos (by omega)]
        exact next _ _ (ih (pos + 2) (by omega) k)
    · rw [if_neg hv, if_neg hv, List.cons_append, List.cons_append, rightly_cons, rightly_cons]
      match k with
      | 0 =>
        rw [if_pos (by omega)]
        dsimp only
        rw [strike, midEdges, if_neg (by omega), midEdges, if_pos (by omega), rightly_append]
        rw [hr (pos + 7 + 1) (by omega)]
        rfl
      | 1 =>
        rw [if_pos (by omega)]
        dsimp only
        rw [strike, strike, midEdges, if_neg (by omega), midEdges, if_pos (by omega), rightly_append]
        rw [hr (pos + 1 + 7) (by omega)]
        rfl
      | k + 2 =>
        rw [if_neg (by omega), Nat.add_sub_cancel]
        dsimp only
        rw [strike, strike, midEdges, if_neg (by omega), midEdges, if_pos (by omega)]
        exact next _ _ (ih (pos + 1 + 1) (by omega) k)

/-! ## Frames -/

/-- The data, read from position `pos` on. -/
def dataFrom (tg : Bool) (pos : Nat) (es : List HalfEdge) : Option Rc6Command :=
  if (midEdges 1 pos 16 es).1.length = 16 then
    some (Rc6Command.fromBits (wordOf 16 ((midEdges 1 pos 16 es).1.map not).reverse) tg)
  else none

theorem rc6_word (w : BitVec 16) : wordOf 16 (bitsFrom w 16).reverse = w := by
  rw [bitsFrom_range]
  have := wordOf_wide 16 w
  simpa using this

theorem dataFrom_of (tg : Bool) (pos : Nat) (es : List HalfEdge) (x : BitVec 16)
    (h : (midEdges 1 pos 16 es).1 = (bitsFrom x 16).map not) :
    dataFrom tg pos es = some (Rc6Command.fromBits x tg) := by
  have hx : ((bitsFrom x 16).map not).map not = bitsFrom x 16 := by
    rw [List.map_map]
    exact (List.map_congr_left fun a _ => Bool.not_not a).trans (List.map_id _)
  rw [dataFrom, h, List.length_map, bitsFrom_length, if_pos rfl, hx, rc6_word]

theorem rc6_answer (o o' : Option Nat) (ms : List HalfEdge) (h : (false, some 6) ∉ ms) (x : Option Rc6Command)
    (hf : (rc6Frame ((false, o') :: ms)).1 = x) :
    rc6Parse ((true, o) :: (false, o') :: ms) = oks x.toList := by
  have hl := rc6_frame_left o' ms h
  rw [rc6Parse.eq_3]
  rcases x with _ | x
  · simp only [hf]
    exact hl
  · simp only [hf, hl]
    rfl

/-- The edges up to the toggle bit. -/
def headOf : Bool → List (Bool × Nat)
  | false => [(false, 6), (true, 2), (false, 1), (true, 2), (false, 1), (true, 1), (false, 1), (true, 1), (false, 1), (true, 2)]
  | true => [(false, 6), (true, 2), (false, 1), (true, 2), (false, 1), (true, 1), (false, 1), (true, 1), (false, 3)]

theorem headOf_eq (tg : Bool) : rc6Head 0 tg = headOf tg := by cases tg <;> rfl

theorem frame_head (tg : Bool) (R : List HalfEdge) :
    rc6Frame (rightly (headOf tg) ++ R) = (dataFrom tg 18 R, (midEdges 1 18 16 R).2.2) := by
  unfold dataFrom
  cases tg <;> simp [rightly, headOf, rc6Frame, midEdges, toggleEdges]
  all_goals split <;> rfl

/-- With a hit before edge `k` of the head: none is read (leader, toggle bit), the data are read at the right places, or
at the wrong ones. -/
theorem frame_head_struck (tg : Bool) (R : List HalfEdge) (k : Nat) (hk : k < (headOf tg).length) (hk3 : k ≠ 3) :
    (rc6Frame (strike 7 k (rightly (headOf tg)) ++ R)).1 = if 2 ≤ k ∧ k < 8 then dataFrom tg 24 R else none := by
  unfold dataFrom
  cases tg <;> simp only [headOf, List.length_cons, List.length_nil] at hk
  · have : k = 0 ∨ k = 1 ∨ k = 2 ∨ k = 4 ∨ k = 5 ∨ k = 6 ∨ k = 7 ∨ k = 8 ∨ k = 9 := by omega
    rcases this with rfl | rfl | rfl | rfl | rfl | rfl | rfl | rfl | rfl <;>
      simp [rightly, headOf, strike, rc6Frame, midEdges, toggleEdges]
    all_goals split <;> rfl
  · have : k = 0 ∨ k = 1 ∨ k = 2 ∨ k = 4 ∨ k = 5 ∨ k = 6 ∨ k = 7 ∨ k = 8 := by omega
    rcases this with rfl | rfl | rfl | rfl | rfl | rfl | rfl | rfl <;>
      simp [rightly, headOf, strike, rc6Frame, midEdges, toggleEdges]
    all_goals split <;> rfl

theorem frame_head_long (R : List HalfEdge) :
    (rc6Frame (strike 7 3 (rightly (headOf false)) ++ R)).1 = dataFrom false 23 R := by
  unfold dataFrom
  simp [rightly, headOf, strike, rc6Frame, midEdges, toggleEdges]
  split <;> rfl

theorem frame_head_long_set (R : List HalfEdge) :
    (rc6Frame (strike 7 3 (rightly (headOf true)) ++ R)).1 = match toggleEdges 23 R with
      | (some (tg, pos), es) => dataFrom tg pos es
      | (none, _) => none := by
  unfold dataFrom
  simp [rightly, headOf, strike, rc6Frame, midEdges]
  rcases toggleEdges 23 R with ⟨_ | ⟨tg, pos⟩, es⟩
  · rfl
  · dsimp only
    split <;> rfl

/-! ## The data -/

theorem data_read (w : BitVec 16) (b : Bool) (pos : Nat) (hpos : pos % 2 = 0) (rest : List HalfEdge) :
    (midEdges 1 pos 16 (rightly (edgesFrom b 2 (rc6Tail w 16)) ++ rest)).1 = (bitsFrom w 16).map not ∧
      (midEdges 1 pos 16 (rightly (edgesFrom b 2 (rc6Tail w 16)) ++ rest)).2.2 = rest := by
  rw [rc6Tail, edgesFrom_bit2, bitsFrom, List.map_cons]
  generalize w.getLsbD 15 = v
  split
  · rw [rightly_cons, List.cons_append, midEdges, if_pos (by dsimp only; omega)]
    obtain ⟨h1, h2⟩ := read6 w 15 (!v) (pos + 3) (by omega) rest
    exact ⟨by rw [← h1], h2⟩
  · rw [rightly_cons, rightly_cons, List.cons_append, List.cons_append, midEdges, if_neg (by dsimp only; omega),
      midEdges, if_pos (by dsimp only; omega)]
    obtain ⟨h1, h2⟩ := read6 w 15 (!v) (pos + 2 + 1) (by omega) rest
    exact ⟨by rw [← h1], h2⟩

theorem data_between (w : BitVec 16) (b : Bool) {tl : List (Bool × Nat)} (htl : tl = [] ∨ tl = [(false, 1)])
    (pos : Nat) (hpos : pos % 2 = 1) :
    (midEdges 1 pos 16 (rightly (edgesFrom b 2 (rc6Tail w 16) ++ tl))).1 = (between w tl 16 b).take 16 := by
  rw [rc6Tail, edgesFrom_bit2, between]
  generalize w.getLsbD 15 = v
  split
  · rw [List.cons_append, rightly_cons, midEdges, if_neg (by dsimp only; omega)]
    exact between_read w 15 _ htl (pos + 3) (by omega) 16
  · rw [List.cons_append, List.cons_append, rightly_cons, rightly_cons, midEdges, if_pos (by dsimp only; omega),
      midEdges, if_neg (by dsimp only; omega), List.take_succ_cons]
    dsimp only
    rw [between_read w 15 _ htl (pos + 2 + 1) (by omega) 15]

/-- Taking the boundaries for the bits. -/
theorem dataFrom_between (w : BitVec 16) (tg : Bool) {tl : List (Bool × Nat)} (htl : EndsAfter w 16 (!tg) tl) (pos : Nat)
    (es : List HalfEdge) (h : (midEdges 1 pos 16 es).1 = (between w tl 16 (!tg)).take 16) :
    dataFrom tg pos es =
      if (tg = false ∧ w = 0#16) ∨ (tg = true ∧ Sinking w ∧ (tl = [(false, 1)] ∨ w = BitVec.allOnes 16)) then
        some (Rc6Command.fromBits (~~~w) tg)
      else none := by
  have hf := between_full w 16 _ htl
  have h0 : w = 0#16 ↔ ∀ i < 16, w.getLsbD i = false := by
    refine ⟨fun h => by rw [h]; simp, fun h => BitVec.eq_of_getLsbD_eq fun i hi => ?_⟩
    rw [h i hi]; simp
  have h1 : w = BitVec.allOnes 16 ↔ ∀ i < 16, w.getLsbD i = true := by
    refine ⟨fun h i hi => by rw [h, BitVec.getLsbD_allOnes]; exact decide_eq_true hi, fun h =>
      BitVec.eq_of_getLsbD_eq fun i hi => ?_⟩
    rw [h i hi, BitVec.getLsbD_allOnes]; exact (decide_eq_true hi).symm
  have hcond : ((!tg) = true ∧ ∀ i < 16, w.getLsbD i = false) ∨
      ((!tg) = false ∧ (∀ j < 16, ∀ i < j, w.getLsbD i = true → w.getLsbD j = true) ∧
        (tl = [(false, 1)] ∨ ∀ i < 16, w.getLsbD i = true)) ↔
      (tg = false ∧ w = 0#16) ∨ (tg = true ∧ Sinking w ∧ (tl = [(false, 1)] ∨ w = BitVec.allOnes 16)) := by
    rw [h0, h1, Sinking]
    cases tg <;> simp
  simp only [hcond] at hf
  split
  · rename_i hc
    rw [if_pos hc] at hf
    refine dataFrom_of tg pos es _ ?_
    rw [h, hf]
    have : ∀ n ≤ 16, bitsFrom w n = (bitsFrom (~~~w) n).map not := by
      intro n
      induction n with
      | zero => intro _; rfl
      | succ n ih =>
        intro hn
        rw [bitsFrom, bitsFrom, List.map_cons, ← ih (by omega), BitVec.getLsbD_not]
        simp [show n < 16 by omega]
    exact this 16 (Nat.le_refl _)
  · rename_i hc
    rw [if_neg hc] at hf
    rw [dataFrom, h, if_neg]
    rw [List.length_take]
    omega

/-! ## Transmissions -/

theorem strike_left (z : Nat) {k : Nat} {a : List HalfEdge} (hk : k < a.length) (b : List HalfEdge) :
    strike z k (a ++ b) = strike z k a ++ b := by
  induction a generalizing k with
  | nil => cases hk
  | cons x a ih =>
    cases k with
    | zero => rfl
    | succ k => rw [List.cons_append, strike, strike, ih (by simpa using hk), List.cons_append]

theorem strike_right (z k : Nat) (a b : List HalfEdge) : strike z (a.length + k) (a ++ b) = a ++ strike z k b := by
  induction a with
  | nil => rw [List.length_nil, Nat.zero_add]; rfl
  | cons x a ih =>
    rw [List.length_cons, Nat.add_right_comm, List.cons_append, strike, ih, List.cons_append]

theorem strike_mem {z k : Nat} {es : List HalfEdge} {e : HalfEdge} (h : e ∈ strike z k es) : e ∈ es ∨ e.2 = some z := by
  induction es generalizing k with
  | nil => cases k <;> cases h
  | cons x es ih =>
    cases k with
    | zero =>
      rcases List.mem_cons.mp h with rfl | h
      · exact .inr rfl
      · exact .inl (by simp [h])
    | succ k =>
      rcases List.mem_cons.mp h with rfl | h
      · exact .inl (by simp)
      · exact (ih h).imp (fun h => by simp [h]) id

/-- Only the first edge can be the end of a leader. -/
theorem struck_answer (w : BitVec 16) (tg : Bool) (o : Option Nat) (k : Nat) {tl : List (Bool × Nat)}
    (htl : tl = [] ∨ tl = [(false, 1)]) :
    rc6Parse ((true, o) :: strike 7 k (rightly (headOf tg) ++ rightly (edgesFrom (!tg) 2 (rc6Tail w 16) ++ tl))) =
      oks (rc6Frame (strike 7 k (rightly (headOf tg) ++
        rightly (edgesFrom (!tg) 2 (rc6Tail w 16) ++ tl)))).1.toList := by
  have hno : (false, some 6) ∉ rightly (edgesFrom (!tg) 2 (rc6Tail w 16) ++ tl) := by
    intro hm
    obtain ⟨e, he, h⟩ := List.mem_map.mp hm
    simp only [Prod.mk.injEq, Option.some.injEq] at h
    rcases List.mem_append.mp he with he | he
    · have := rc6_tail_len w 16 (!tg) 2 (.inr rfl) e he
      omega
    · rcases htl with rfl | rfl
      · cases he
      · rw [List.mem_singleton] at he
        rw [he] at h
        exact absurd h.2 (by decide)
  obtain ⟨hs, hh, hhs⟩ : ∃ hs, rightly (headOf tg) = (false, some 6) :: hs ∧ (false, some 6) ∉ hs := by
    cases tg
    · exact ⟨_, rfl, by decide⟩
    · exact ⟨_, rfl, by decide⟩
  have hms : (false, some 6) ∉ hs ++ rightly (edgesFrom (!tg) 2 (rc6Tail w 16) ++ tl) := by
    simp [hhs, hno]
  rw [hh, List.cons_append]
  cases k with
  | zero => exact rc6_answer _ _ _ hms _ rfl
  | succ k =>
    refine rc6_answer _ _ _ (fun hm => ?_) _ rfl
    rcases strike_mem hm with h | h
    · exact hms h
    · cases h

theorem frame_right (w : BitVec 16) (tg : Bool) (k : Nat) {tl : List (Bool × Nat)} :
    (rc6Frame (strike 7 ((headOf tg).length + k) (rightly (headOf tg) ++
      rightly (edgesFrom (!tg) 2 (rc6Tail w 16) ++ tl)))).1 =
    dataFrom tg 18 (strike 7 k (rightly (edgesFrom (!tg) 2 (rc6Tail w 16) ++ tl))) := by
  have h : (headOf tg).length = (rightly (headOf tg)).length := by rw [rightly, List.length_map]
  rw [h, strike_right, frame_head]

/-- `rc6Wrapped` in terms of the interval. -/
def wrappedAt (c : Rc6Command) (ended : Bool) : Option (Nat × Nat) → List (Res Rc6Command)
  | none => oks [c]
  | some (n, q) =>
    if q = 6 ∨ q = 8 ∨ q = 16 ∨ q = 18 then []
    else if n ≠ 2 then oks [c]
    else if q ≤ 20 then
      if (c.toggle = false ∧ c.addr ++ c.cmd = 0#16) ∨
          (c.toggle = true ∧ q = 20 ∧ Sinking (c.addr ++ c.cmd) ∧
            (ended = true ∨ c.addr ++ c.cmd = BitVec.allOnes 16)) then
        oks [Rc6Command.fromBits (~~~(c.addr ++ c.cmd)) c.toggle]
      else []
    else if ended = true ∧ ∀ i < 16 - (q - 21) / 2, (c.addr ++ c.cmd).getLsbD i = false then
      oks [Rc6Command.fromBits (lowSet (c.addr ++ c.cmd) (16 - (q - 21) / 2)) c.toggle]
    else []

theorem rc6Wrapped_eq (c : Rc6Command) (ended : Bool) (k : Option Nat) :
    rc6Wrapped c ended k = wrappedAt c ended (k.bind (intervalAt (rc6Edges (c.addr ++ c.cmd) c.toggle))) := by
  unfold rc6Wrapped wrappedAt
  rfl

theorem rc6_tail_total (w : BitVec 16) (n : Nat) (b : Bool) : total (edgesFrom b 1 (rc6Tail w n)) = 2 * n := by
  induction n generalizing b with
  | zero => rfl
  | succ n ih =>
    rw [rc6Tail, edgesFrom_bit2]
    split
    · rw [total_cons, ih]
      dsimp only
      omega
    · rw [total_cons, total_cons, ih]
      dsimp only
      omega

/-- A hit after the first bit of the data. -/
theorem data_struck (c : Rc6Command) {tl : List (Bool × Nat)}
    (htl : EndsAfter (c.addr ++ c.cmd) 15 (!(c.addr ++ c.cmd).getLsbD 15) tl) (pos pos' : Nat) (hpos : pos' % 2 = 1)
    (es : List HalfEdge) (j : Nat) (h : (midEdges 1 pos 16 es).1 = (!(c.addr ++ c.cmd).getLsbD 15) ::
      (midEdges 1 pos' 15 (strike 7 j
        (rightly (edgesFrom (!(c.addr ++ c.cmd).getLsbD 15) 1 (rc6Tail (c.addr ++ c.cmd) 15) ++ tl)))).1) :
    oks (dataFrom c.toggle pos es).toList = wrappedAt c (tl = [(false, 1)])
      ((edgesFrom (!(c.addr ++ c.cmd).getLsbD 15) 1 (rc6Tail (c.addr ++ c.cmd) 15))[j]?.map fun e =>
        (e.2, 21 + total ((edgesFrom (!(c.addr ++ c.cmd).getLsbD 15) 1 (rc6Tail (c.addr ++ c.cmd) 15)).take (j + 1)))) := by
  have hb := read6_struck (c.addr ++ c.cmd) 15 (by decide) _ htl pos' hpos j _ rfl
  have hright := rc6_fromBits_append c
  rw [hitBit6_eq] at hb
  generalize hw : c.addr ++ c.cmd = w at *
  have hlen := rc6_tail_len w 15 (!w.getLsbD 15) 1 (.inl rfl)
  have hsum := rc6_tail_total w 15 (!w.getLsbD 15)
  generalize edgesFrom (!w.getLsbD 15) 1 (rc6Tail w 15) = E at *
  cases hE : E[j]? with
  | none =>
    rw [hE] at hb
    simp only [Option.map_none, reduceCtorEq, if_false] at hb
    rw [dataFrom_of c.toggle pos es w (by rw [h, hb]; rfl), hright]
    rfl
  | some e =>
    have hpos := hlen e (List.mem_of_getElem? hE)
    have hle := total_take_le E (j + 1)
    rw [hE, Option.map_some] at hb
    have htake : total (E.take (j + 1)) = total (E.take j) + e.2 := by
      rw [List.take_add_one, hE, total_append]
      show _ + total [e] = _
      rw [total_cons]
      rfl
    rw [Option.map_some, wrappedAt]
    rw [hw, if_neg (by omega)]
    by_cases he : e.2 = 2
    · rw [if_neg (by simp [he]), if_neg (by omega)]
      rw [if_pos (by rw [he])] at hb
      dsimp only at hb
      obtain ⟨h15, hb⟩ := hb
      rw [Nat.add_sub_cancel_left, show 16 - total (E.take (j + 1)) / 2 = 15 - total (E.take (j + 1)) / 2 + 1 by omega]
      generalize 15 - total (E.take (j + 1)) / 2 = i at hb h15 ⊢
      simp only [decide_eq_true_eq]
      split
      · rename_i hc
        rw [if_pos hc] at hb
        rw [dataFrom_of c.toggle pos es (lowSet w (i + 1))]
        · rfl
        · rw [h, hb, show bitsFrom (lowSet w (i + 1)) 16 = (lowSet w (i + 1)).getLsbD 15 :: bitsFrom (lowSet w (i + 1)) 15
            from rfl, List.map_cons, lowSet_get w (by omega), decide_eq_false (by omega), Bool.or_false]
      · rename_i hc
        rw [if_neg hc] at hb
        rw [dataFrom, h, if_neg]
        · rfl
        · rw [List.length_cons]
          omega
    · rw [if_pos he]
      rw [if_neg (by simpa using he)] at hb
      dsimp only at hb
      rw [dataFrom_of c.toggle pos es w (by rw [h, hb]; rfl), hright]
      rfl

theorem wrappedAt_long (c : Rc6Command) (ended : Bool) (q : Nat) (hq : q = 11 ∨ q = 20) :
    wrappedAt c ended (some (2, q)) = if (c.toggle = false ∧ c.addr ++ c.cmd = 0#16) ∨
          (c.toggle = true ∧ q = 20 ∧ Sinking (c.addr ++ c.cmd) ∧
            (ended = true ∨ c.addr ++ c.cmd = BitVec.allOnes 16)) then
        oks [Rc6Command.fromBits (~~~(c.addr ++ c.cmd)) c.toggle]
      else [] := by
  rw [wrappedAt, if_neg (by omega), if_neg (by simp), if_pos (by omega)]

theorem wrappedAt_odd (c : Rc6Command) (ended : Bool) (n : Nat) (hn : n ≠ 2) :
    wrappedAt c ended (some (n, 21)) = oks [c] := by
  rw [wrappedAt, if_neg (by omega), if_pos hn]

theorem mid_at {pos n k : Nat} {l : Bool} {es : List HalfEdge} (h : (pos + n) % 2 = 1) :
    (midEdges 1 pos (k + 1) ((l, some n) :: es)).1 = l :: (midEdges 1 (pos + n) k es).1 := by
  rw [midEdges, if_pos h]

theorem mid_skip {pos n k : Nat} {l : Bool} {es : List HalfEdge} (h : (pos + n) % 2 = 0) :
    (midEdges 1 pos (k + 1) ((l, some n) :: es)).1 = (midEdges 1 (pos + n) (k + 1) es).1 := by
  rw [midEdges, if_neg (by omega)]

/-- With a wrap-around before one of the edges after the first. -/
theorem rc6_wrapped_parse (c : Rc6Command) (o : Option Nat) (k : Nat) {tl : List (Bool × Nat)}
    (htl : EndsAfter (c.addr ++ c.cmd) 16 (!c.toggle) tl) :
    rc6Parse ((true, o) :: strike 7 k (rightly (rc6Head 0 c.toggle ++
        edgesFrom (!c.toggle) 2 (rc6Tail (c.addr ++ c.cmd) 16) ++ tl))) =
      rc6Wrapped c (tl = [(false, 1)]) (some (k + 1)) := by
  have hcases : tl = [] ∨ tl = [(false, 1)] := htl.imp id And.left
  have hright := rc6_fromBits_append c
  rw [headOf_eq, List.append_assoc, rightly_append, struck_answer _ _ _ _ hcases, rc6Wrapped_eq, Option.bind_some,
    intervalAt, rc6Edges, rc6Edges_eq 0 (.inl rfl), headOf_eq, List.getElem?_cons_succ, List.tail_cons]
  by_cases hk : k < (headOf c.toggle).length
  · have hr : rightly (headOf c.toggle) = (headOf c.toggle).map fun e => (e.1, some e.2) := rfl
    rw [strike_left 7 (by rw [hr, List.length_map]; exact hk), List.getElem?_append_left hk,
      List.take_append_of_le_length (by omega)]
    have hdr : ∀ pos, pos % 2 = 0 → dataFrom c.toggle pos (rightly (edgesFrom (!c.toggle) 2
        (rc6Tail (c.addr ++ c.cmd) 16) ++ tl)) = some c := fun pos hp => by
      rw [dataFrom_of c.toggle pos _ (c.addr ++ c.cmd) (by rw [rightly_append]; exact (data_read _ _ pos hp _).1), hright]
    have hlong := fun pos hp => dataFrom_between (c.addr ++ c.cmd) c.toggle htl pos _ (data_between _ _ hcases pos hp)
    by_cases hk3 : k = 3
    · subst hk3
      have hle := between_le (c.addr ++ c.cmd) 15 _ htl.step
      clear hdr
      obtain ⟨a, cm, tg⟩ := c
      dsimp only at *
      cases tg
      · rw [frame_head_long, hlong 23 rfl]
        refine Eq.trans ?_ (wrappedAt_long _ _ 11 (.inl rfl)).symm
        simp only [true_and, Bool.false_eq_true, false_and, or_false]
        split <;> rfl
      · rw [frame_head_long_set]
        refine Eq.trans ?_ (wrappedAt_long _ _ 11 (.inl rfl)).symm
        rw [if_neg (by simp)]
        have hbr := between_read (a ++ cm) 15 (!(a ++ cm).getLsbD 15) hcases 26 rfl 16
        rw [rc6Tail, edgesFrom_bit2]
        cases hv : (a ++ cm).getLsbD 15
        · rfl
        · rw [hv] at hbr hle
          simp only [Bool.not_true, Bool.true_eq_false, if_false, List.cons_append, rightly_cons]
          show oks (dataFrom false 25 _).toList = []
          have hm := (mid_skip (pos := 25) (n := 1) (k := 15) (l := false) rfl).trans hbr
          rw [dataFrom, if_neg]
          · rfl
          · refine fun h => ?_
            replace h := (congrArg List.length hm).symm.trans h
            simp only [Bool.not_true, Bool.false_eq_true, if_false] at hle h
            rw [List.length_take] at h
            omega
    · rw [frame_head_struck _ _ _ hk hk3, hdr 24 rfl]
      clear hdr hlong
      obtain ⟨a, cm, tg⟩ := c
      dsimp only at *
      cases tg <;> simp only [headOf, List.length_cons, List.length_nil] at hk
      · have : k = 0 ∨ k = 1 ∨ k = 2 ∨ k = 4 ∨ k = 5 ∨ k = 6 ∨ k = 7 ∨ k = 8 ∨ k = 9 := by omega
        rcases this with rfl | rfl | rfl | rfl | rfl | rfl | rfl | rfl | rfl <;> rfl
      · have : k = 0 ∨ k = 1 ∨ k = 2 ∨ k = 4 ∨ k = 5 ∨ k = 6 ∨ k = 7 ∨ k = 8 := by omega
        rcases this with rfl | rfl | rfl | rfl | rfl | rfl | rfl | rfl <;> rfl
  · obtain ⟨j, rfl⟩ := Nat.exists_eq_add_of_le (Nat.le_of_not_lt hk)
    rw [frame_right, List.getElem?_append_right (by omega), Nat.add_sub_cancel_left]
    have htot : total (headOf c.toggle) = 18 := by cases c.toggle <;> rfl
    have htake : total ((headOf c.toggle ++ edgesFrom (!c.toggle) 2 (rc6Tail (c.addr ++ c.cmd) 16)).take
        ((headOf c.toggle).length + j + 1)) =
        18 + total ((edgesFrom (!c.toggle) 2 (rc6Tail (c.addr ++ c.cmd) 16)).take (j + 1)) := by
      rw [Nat.add_assoc, List.take_length_add_append, total_append, htot]
    rw [htake]
    have hstep := htl.step
    have hlong := fun pos es => dataFrom_between (c.addr ++ c.cmd) c.toggle htl pos es
    have hdata := fun pos pos' hp es j => data_struck c hstep pos pos' hp es j
    have hread := fun pos hp => (read6 (c.addr ++ c.cmd) 15 (!(c.addr ++ c.cmd).getLsbD 15) pos hp (rightly tl)).1
    have hbtw := fun pos hp => between_read (c.addr ++ c.cmd) 15 (!(c.addr ++ c.cmd).getLsbD 15) hcases pos hp 15
    have hright' := fun pos es hm => (dataFrom_of c.toggle pos es (c.addr ++ c.cmd) hm).trans (congrArg some hright)
    have hb16 : bitsFrom (c.addr ++ c.cmd) 16 = (c.addr ++ c.cmd).getLsbD 15 :: bitsFrom (c.addr ++ c.cmd) 15 := rfl
    have hbt : between (c.addr ++ c.cmd) tl 16 (!c.toggle) = if (c.addr ++ c.cmd).getLsbD 15 = (!c.toggle) then
        between (c.addr ++ c.cmd) tl 15 (!(c.addr ++ c.cmd).getLsbD 15) else (c.addr ++ c.cmd).getLsbD 15 ::
          between (c.addr ++ c.cmd) tl 15 (!(c.addr ++ c.cmd).getLsbD 15) := rfl
    rw [rc6Tail, edgesFrom_bit2]
    by_cases hv : (c.addr ++ c.cmd).getLsbD 15 = !c.toggle
    · rw [if_pos hv]
      cases j with
      | zero =>
        refine Eq.trans ?_ (wrappedAt_odd c _ 3 (by decide)).symm
        rw [hright']
        · rfl
        · rw [List.cons_append, rightly_cons, strike, hb16, List.map_cons, ← hread (18 + 7) rfl, ← rightly_append]
          exact mid_at rfl
      | succ j =>
        rw [List.getElem?_cons_succ, List.take_succ_cons, total_cons, ← Nat.add_assoc]
        refine hdata 18 21 rfl _ j ?_
        rw [List.cons_append, rightly_cons, strike]
        exact mid_at (by simp)
    · rw [if_neg hv]
      match j with
      | 0 =>
        rw [hlong 18]
        · refine Eq.trans ?_ (wrappedAt_long c _ 20 (.inr rfl)).symm
          simp only [true_and, decide_eq_true_eq]
          split <;> rfl
        · rw [List.cons_append, List.cons_append, rightly_cons, rightly_cons, strike, hbt, if_neg hv, List.take_succ_cons,
            ← hbtw (18 + 7 + 1) rfl]
          exact (mid_at (by simp)).trans (congrArg _ (mid_skip (by simp)))
      | 1 =>
        refine Eq.trans ?_ (wrappedAt_odd c _ 1 (by decide)).symm
        rw [hright']
        · rfl
        · rw [List.cons_append, List.cons_append, rightly_cons, rightly_cons, strike, strike, hb16, List.map_cons,
            ← hread (18 + 2 + 7) rfl, ← rightly_append]
          exact (mid_skip (by simp)).trans (mid_at (by simp))
      | j + 2 =>
        rw [List.getElem?_cons_succ, List.getElem?_cons_succ, List.take_succ_cons, List.take_succ_cons, total_cons,
          total_cons, ← Nat.add_assoc, ← Nat.add_assoc]
        refine hdata 18 21 rfl _ j ?_
        rw [List.cons_append, List.cons_append, rightly_cons, rightly_cons, strike, strike]
        exact (mid_skip (by simp)).trans (mid_at (by simp))

/-- After a transmission the decoder is idle. -/
theorem rc6_then_idle (c : Rc6Command) (o o' : Option Nat) (bs : List HalfEdge) {tl : List (Bool × Nat)}
    (htl : tl = [] ∨ tl = [(false, 1)]) :
    rc6Parse ((true, o) :: (rightly (rc6Head 0 c.toggle ++ edgesFrom (!c.toggle) 2 (rc6Tail (c.addr ++ c.cmd) 16) ++ tl) ++
        (true, o') :: bs)) = oks [c] ++ rc6Parse ((true, o') :: bs) := by
  obtain ⟨h1, h2⟩ := data_read (c.addr ++ c.cmd) (!c.toggle) 18 rfl (rightly tl ++ (true, o') :: bs)
  have hf := frame_head c.toggle
    (rightly (edgesFrom (!c.toggle) 2 (rc6Tail (c.addr ++ c.cmd) 16)) ++ (rightly tl ++ (true, o') :: bs))
  rw [h2, dataFrom_of _ _ _ _ h1, rc6_fromBits_append] at hf
  rw [rc6Parse.eq_3, headOf_eq, rightly_append, rightly_append, List.append_assoc, List.append_assoc, hf]
  rcases htl with rfl | rfl
  · rfl
  · show _ :: rc6Parse ((false, some 1) :: (true, o') :: bs) = _
    rw [rc6Parse.eq_2]
    rfl

theorem rc6_get_zero {t : Target} {m : Mono} (hm : m = Mono.u32 ∨ m = Mono.u64) {f : Nat} (hlo : 20000 ≤ f)
    (hf : f < 2 ^ 32) {tbl : PulseSpans} (htbl : rc6Spans t m f = some tbl) :
    (tbl.get 0).map (· + 1) = some 7 := by
  rw [rc6Spans_eq hm t hf, Option.some.injEq] at htbl
  subst htbl
  have h := fun l (h1 : 444 ≤ l) (h2 : l ≤ 2664) =>
    spanOf_low_pos (l := l) (tol := 12) (f := f) (by omega) (by decide)
      (Nat.le_trans (by decide) (Nat.mul_le_mul h1 hlo))
  rw [(get_eq_iff (rc6Table f) 6 0).mpr]
  · rfl
  · refine ⟨⟨⟨0, 0⟩, rfl, Nat.le_refl _, Nat.le_refl _⟩, ?_⟩
    intro j hj s hs
    have : j = 0 ∨ j = 1 ∨ j = 2 ∨ j = 3 ∨ j = 4 ∨ j = 5 := by omega
    have h1 := h 444 (by decide) (by decide)
    have h2 := h 888 (by decide) (by decide)
    have h3 := h 1332 (by decide) (by decide)
    have h4 := h 1776 (by decide) (by decide)
    have h5 := h 2220 (by decide) (by decide)
    have h6 := h 2664 (by decide) (by decide)
    rcases this with rfl | rfl | rfl | rfl | rfl | rfl <;> cases hs <;> omega

/-! ## Series -/

/-- **C99**, RC6: a receiver that is given the readings of a counter reports the commands of a series of transmissions,
except for those in which the counter wraps around during the leader, the toggle bit or an interval of 2 half-bits. -/
theorem C99_rc6 (t : Target) (hus : 16 ≤ t.usizeBits) (f j : Nat) (hlo : 20000 ≤ f) (hf : f < 2 ^ 32) (m : Mono)
    (hm : m = Mono.u32 ∨ m = Mono.u64) (tbl : PulseSpans) (htbl : rc6Spans t m f = some tbl)
    (hc : coversRc6 tbl f j = true) (conv : Rc6Command → K) (u : Nat) (hu : 0 < u) (phase t0 : Nat)
    (items : List (Rc6Command × List (Bool × Nat) × Option Nat))
    (hok : ∀ i ∈ items, Complete u j 444 (rc6Edges (i.1.addr ++ i.1.cmd) i.1.toggle) i.2.1 i.2.2 ∧
      RestBefore u f m.width i.2.1 i.2.2) :
    (instantRun m (rc6Decoder t tbl) conv
        (stamps u f phase m.width t0 (items.flatMap fun i => withTail i.2.1 i.2.2))).map said =
      some (((wrapsOf u f phase m.width t0 items).flatMap fun x => rc6Wrapped x.1 x.2.1 x.2.2).map (Res.map conv)) := by
  have hgap : ∀ p, 16000 * u ≤ 1000000 * p → ∀ t', Gap tbl (reading u f phase (t' + p) - reading u f phase t') :=
    fun p hp t' => long_gap hm hlo hf .rc6 (fun i l tol hi => by
      have : ∀ x ∈ Kind.symbols .rc6, (100 + x.2) * x.1 ≤ 300000 := by decide
      exact this (l, tol) (List.mem_of_getElem? hi)) htbl hu phase t' p hp
  have hclk := rc6Clock_of_covers (phase := phase) hu hc
  have hget : ∀ t' x n, n = 1 ∨ n = 2 ∨ n = 3 ∨ n = 6 → Near u j (444 * n) x →
      (tbl.get (reading u f phase (t' + x) - reading u f phase t')).map (· + 1) = some n := fun t' x n hn hx =>
    rc6_right_get hm hlo hf htbl hn (hclk t' _ _ hn hx)
  have hitems : ∀ i ∈ items, ∃ p es E, Struck tbl u f phase m.width 7 rc6Parse rc6Wrapped i p es E := by
    rintro ⟨c, evs, tail⟩ hi
    obtain ⟨⟨⟨p, n0, evs', E, rfl, hedges, hT⟩, htail⟩, h16, hshort⟩ := hok _ hi
    dsimp only at hedges htail h16 hshort
    have hlast : ∀ x, tail = some x → Near u j (444 * 1) x := fun x hx => (htail x hx).1
    have hend : Ending (rc6Head 0 c.toggle ++ edgesFrom (!c.toggle) 2 (rc6Tail (c.addr ++ c.cmd) 16)) (tailUnit tail) := by
      cases tail with
      | none => exact .inl rfl
      | some x =>
        have h1 := (htail x rfl).2
        have hne : rc6Head 0 c.toggle ++ edgesFrom (!c.toggle) 2 (rc6Tail (c.addr ++ c.cmd) 16) ≠ [] := by
          obtain ⟨r, hr, -⟩ := rc6_rest_no_leader (c.addr ++ c.cmd) c.toggle
          rw [hr]; simp
        rw [rc6Edges, rc6Edges_eq 0 (.inl rfl), List.getLast?_cons_of_ne_nil hne] at h1
        exact .inr ⟨rfl, h1⟩
    have hended : tail.isSome = decide (tailUnit tail = [(false, 1)]) := by cases tail <;> rfl
    rw [rc6Edges, rc6Edges_eq 0 (.inl rfl), List.cons.injEq] at hedges
    obtain ⟨-, rfl⟩ := hedges
    have hlen := rc6_edges_len (c.addr ++ c.cmd) c.toggle
    have hl := timed_len hT
    have hl2 : (rc6Head 0 c.toggle ++ edgesFrom (!c.toggle) 2 (rc6Tail (c.addr ++ c.cmd) 16)).length ≤ 50 := by
      have := edgesFrom_length (!c.toggle) 2 (rc6Tail (c.addr ++ c.cmd) 16)
      have h3 : (rc6Tail (c.addr ++ c.cmd) 16).length = 32 := rfl
      have h4 : (rc6Head 0 c.toggle).length ≤ 10 := by cases c.toggle <;> decide
      rw [List.length_append]
      omega
    have hl3 := withTail_length evs' tail
    have hpause : rc6Wrapped c tail.isSome (some 0) = oks [c] := by
      rw [rc6Wrapped_eq, Option.bind_some, intervalAt, rc6Edges, rc6Edges_eq 0 (.inl rfl)]
      rfl
    refine ⟨p, withTail evs' tail, rightly (rc6Head 0 c.toggle ++
      edgesFrom (!c.toggle) 2 (rc6Tail (c.addr ++ c.cmd) 16) ++ tailUnit tail), withTail_cons .., by omega,
      hgap p (h16 _ rfl), fun t' => ?_, ?_, hpause, fun o => ?_, fun o k _ => ?_, fun o o' bs => ?_⟩
    · rw [withTail_nil]
      obtain ⟨t2, ht2⟩ := clocked_append_at u f phase evs' (withTail [] tail) t'
      rw [ht2, halfEdges_append, tail_edges (fun t' x hx => hget t' x 1 (.inl rfl) hx) hlast,
        halfEdges_timed (clocked_timed (fun t ns w' hw' hn => hget t ns _ (hlen w' hw') hn) _ hT), ← rightly_append]
    · rw [withTail_cons, total_cons] at hshort
      exact hshort
    · rw [rc6_whole_parse c _ (tailUnit_cases tail)]
      rfl
    · dsimp only
      rw [hended]
      exact rc6_wrapped_parse c o k (rc6_ends _ _ 15 _ hend)
    · exact rc6_then_idle c o o' bs (tailUnit_cases tail)
  rcases items with _ | ⟨i, items⟩
  · rfl
  · obtain ⟨p, es, E, hs⟩ := hitems i (by simp)
    have hall : ((i :: items).flatMap fun i => withTail i.2.1 i.2.2) =
        (true, p) :: (es ++ items.flatMap fun i => withTail i.2.1 i.2.2) := by
      rw [List.flatMap_cons, hs.eq, List.cons_append]
    rw [hall, instant_edges hm]
    · exact wrapped_series (rc6Decoder t tbl) conv hu (rc6_get_zero hm hlo hf htbl)
        (fun evs hl => rc6_hurt_of hus hf hm htbl conv hl rfl) (C29_rc6_gap_forgets t tbl conv) _ _ (Nat.le_refl _) hitems
        _ _ hall _ _
    · intro e he t'
      have he : e ∈ (i :: items).flatMap fun i => withTail i.2.1 i.2.2 := by rw [hall]; exact List.mem_cons_of_mem _ he
      obtain ⟨i', hi', he⟩ := List.mem_flatMap.mp he
      obtain ⟨-, -, hshort⟩ := hok i' hi'
      exact edge_small hu hshort he t'

/-! ## Non-vacuity -/

/-- Two RC6 transmissions in microseconds: command 2 for device 0, command 0 for device 255. -/
def wrappedRc6 : List (Rc6Command × List (Bool × Nat) × Option Nat) :=
  [⟨0, 2, false⟩, ⟨0xff, 0, true⟩].map fun c =>
    (c, (true, 60000) :: atUnit 444 (rc6Edges (c.addr ++ c.cmd) c.toggle).tail, some 444)

theorem wrappedRc6_ok : ∀ i ∈ wrappedRc6,
    Complete 1000000 0 444 (rc6Edges (i.1.addr ++ i.1.cmd) i.1.toggle) i.2.1 i.2.2 ∧
      RestBefore 1000000 1000000 Mono.u32.width i.2.1 i.2.2 := by
  intro i hi
  obtain ⟨c, hc, rfl⟩ := List.mem_map.mp hi
  clear hi
  refine ⟨⟨⟨60000, 0, _, _, rfl, ?_, atUnit_timed ..⟩, ?_⟩, ?_, ?_⟩
  · rw [rc6Edges, rc6Edges_eq 0 (.inl rfl)]
    rfl
  · intro x hx
    dsimp only at hx ⊢
    cases hx
    refine ⟨⟨by decide, by decide⟩, ?_⟩
    revert c
    decide +kernel
  · intro e he
    cases he
    decide
  · revert c
    decide +kernel

/-- The counter of 1 MHz and 32 bits wraps around in the last interval of the first transmission, which is of 2 half-bits:
the receiver reports command 3 instead of 2. -/
theorem C99_rc6_wrong (t : Target) (hus : 16 ≤ t.usizeBits) :
    (instantRun Mono.u32 (rc6Decoder t (rc6Table 1000000)) id
        (stamps 1000000 1000000 0 Mono.u32.width (2 ^ 32 - 82300)
          (wrappedRc6.flatMap fun i => withTail i.2.1 i.2.2))).map said =
      some (oks [⟨0, 3, false⟩, ⟨0xff, 0, true⟩]) := by
  rw [C99_rc6 t hus 1000000 0 (by decide) (by decide) Mono.u32 (.inl rfl) _ (rc6Spans_eq (.inl rfl) t (by decide))
    (by decide +kernel) id 1000000 (by decide) 0 _ wrappedRc6 wrappedRc6_ok]
  decide +kernel

/-- It wraps around at the beginning of the data of the second transmission: device 0 and command 255 are reported instead
of device 255 and command 0. -/
example (t : Target) (hus : 16 ≤ t.usizeBits) :
    (instantRun Mono.u32 (rc6Decoder t (rc6Table 1000000)) id
        (stamps 1000000 1000000 0 Mono.u32.width (2 ^ 32 - 151588)
          (wrappedRc6.flatMap fun i => withTail i.2.1 i.2.2))).map said =
      some (oks [⟨0, 2, false⟩, ⟨0, 0xff, true⟩]) := by
  rw [C99_rc6 t hus 1000000 0 (by decide) (by decide) Mono.u32 (.inl rfl) _ (rc6Spans_eq (.inl rfl) t (by decide))
    (by decide +kernel) id 1000000 (by decide) 0 _ wrappedRc6 wrappedRc6_ok]
  decide +kernel

/-- It wraps around in the leader of the second transmission: nothing is reported of it. -/
example (t : Target) (hus : 16 ≤ t.usizeBits) :
    (instantRun Mono.u32 (rc6Decoder t (rc6Table 1000000)) id
        (stamps 1000000 1000000 0 Mono.u32.width (2 ^ 32 - 144088)
          (wrappedRc6.flatMap fun i => withTail i.2.1 i.2.2))).map said =
      some (oks [⟨0, 2, false⟩]) := by
  rw [C99_rc6 t hus 1000000 0 (by decide) (by decide) Mono.u32 (.inl rfl) _ (rc6Spans_eq (.inl rfl) t (by decide))
    (by decide +kernel) id 1000000 (by decide) 0 _ wrappedRc6 wrappedRc6_ok]
  decide +kernel

/-- It wraps around in the pause: nothing is lost. -/
example (t : Target) (hus : 16 ≤ t.usizeBits) :
    (instantRun Mono.u32 (rc6Decoder t (rc6Table 1000000)) id
        (stamps 1000000 1000000 0 Mono.u32.width (2 ^ 32 - 113088)
          (wrappedRc6.flatMap fun i => withTail i.2.1 i.2.2))).map said =
      some (oks [⟨0, 2, false⟩, ⟨0xff, 0, true⟩]) := by
  rw [C99_rc6 t hus 1000000 0 (by decide) (by decide) Mono.u32 (.inl rfl) _ (rc6Spans_eq (.inl rfl) t (by decide))
    (by decide +kernel) id 1000000 (by decide) 0 _ wrappedRc6 wrappedRc6_ok]
  decide +kernel

end Infrared
