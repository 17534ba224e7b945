import Verif.Props.NoisyBi
import Verif.Spec.HurtBi

/-!
# Spikes and missing marks in RC5 transmissions (C96)

What is measured of a disturbed transmission, for both Manchester codes, and the parser for RC5.
-/

namespace Infrared

open Spec

variable {C K : Type}

/-! ## What is measured -/

theorem timed_take {R : Nat → Nat → Prop} (k : Nat) {as bs : List (Bool × Nat)} (h : Timed R as bs) :
    Timed R (as.take k) (bs.take k) := by
  induction k generalizing as bs with
  | zero => trivial
  | succ k ih =>
    cases as with
    | nil => cases bs with
      | nil => trivial
      | cons _ _ => exact h.elim
    | cons a as => cases bs with
      | nil => exact h.elim
      | cons b bs => exact ⟨h.1, h.2.1, ih h.2.2⟩

theorem timed_drop {R : Nat → Nat → Prop} (k : Nat) {as bs : List (Bool × Nat)} (h : Timed R as bs) :
    Timed R (as.drop k) (bs.drop k) := by
  induction k generalizing as bs with
  | zero => exact h
  | succ k ih =>
    cases as with
    | nil => cases bs with
      | nil => trivial
      | cons _ _ => exact h.elim
    | cons a as => cases bs with
      | nil => exact h.elim
      | cons b bs => exact ih h.2.2

theorem timed_get {R : Nat → Nat → Prop} (k : Nat) {as bs : List (Bool × Nat)} (h : Timed R as bs) {b : Bool} {x : Nat}
    (hk : as[k]? = some (b, x)) : ∃ n, bs[k]? = some (b, n) ∧ R x n := by
  induction k generalizing as bs with
  | zero =>
    cases as with
    | nil => cases hk
    | cons a as => cases bs with
      | nil => exact h.elim
      | cons c bs =>
        obtain ⟨h1, h2, -⟩ := h
        simp only [List.getElem?_cons_zero, Option.some.injEq] at hk
        subst hk
        dsimp only at h1 h2
        subst h1
        exact ⟨c.2, rfl, h2⟩
  | succ k ih =>
    cases as with
    | nil => cases hk
    | cons a as => cases bs with
      | nil => exact h.elim
      | cons c bs => exact ih h.2.2 hk

theorem timed_len {R : Nat → Nat → Prop} {as bs : List (Bool × Nat)} (h : Timed R as bs) : as.length = bs.length := by
  induction as generalizing bs with
  | nil => cases bs with
    | nil => rfl
    | cons _ _ => exact h.elim
  | cons a as ih => cases bs with
    | nil => exact h.elim
    | cons b bs => rw [List.length_cons, List.length_cons, ih h.2.2]

/-- The end of the last mark, as it is measured. -/
def Ending (edges : List (Bool × Nat)) (tl : List (Bool × Nat)) : Prop :=
  tl = [] ∨ tl = [(false, 1)] ∧ edges.getLast?.map Prod.fst = some true

/-- What is measured of a transmission with a spike before edge `k`. -/
def SpikedAs (edges : List (Bool × Nat)) (k : Nat) (tl : List (Bool × Nat)) (ms : List HalfEdge) : Prop :=
  ∃ b n cx cz, edges[k]? = some (b, n) ∧
    ms = rightly (edges.take k) ++ (b, cx) :: (!b, none) :: (b, cz) :: rightly (edges.drop (k + 1) ++ tl) ∧
    (∀ i, cx = some i → 1 ≤ i ∧ i ≤ n) ∧ ∀ i, cz = some i → 1 ≤ i ∧ i ≤ n

theorem spiked_edges {tbl : PulseSpans} {u f phase j unit us : Nat} {edges evs : List (Bool × Nat)}
    (hread : ∀ t x, ∀ e ∈ edges, Near u j (unit * e.2) x →
      (tbl.get (reading u f phase (t + x) - reading u f phase t)).map (· + 1) = some e.2)
    (htail : ∀ t x, ∀ e ∈ edges, u ≤ x * f → 100000000 * x ≤ (100 + j) * (unit * e.2) * u →
      ∀ i, tbl.get (reading u f phase (t + x) - reading u f phase t) = some i → i + 1 ≤ e.2)
    (hbrief : ∀ t y, u ≤ y * f → 1000000 * y ≤ us * u →
      tbl.get (reading u f phase (t + y) - reading u f phase t) = none)
    (h : Timed (fun x n => Near u j (unit * n) x) evs edges) {k : Nat} {b : Bool} {x y z : Nat}
    (hk : evs[k]? = some (b, x + y + z)) (hx : u ≤ x * f) (hy : u ≤ y * f) (hz : u ≤ z * f) (hus : 1000000 * y ≤ us * u)
    {tl : List (Bool × Nat)} {tlw : List (Bool × Nat)}
    (htl : ∀ t, halfEdges tbl (clocked u f phase t tl) = rightly tlw) (t : Nat) :
    SpikedAs edges k tlw (halfEdges tbl (clocked u f phase t
      (evs.take k ++ (b, x) :: (!b, y) :: (b, z) :: (evs.drop (k + 1) ++ tl)))) := by
  obtain ⟨n, hn, hnear⟩ := timed_get k h hk
  have hmem := List.mem_of_getElem? hn
  have hm : ∀ {as bs : List (Bool × Nat)}, Timed (fun x n => Near u j (unit * n) x) as bs → (∀ e ∈ bs, e ∈ edges) →
      ∀ t, halfEdges tbl (clocked u f phase t as) = rightly bs := fun hT hsub t =>
    halfEdges_timed (clocked_timed (fun t ns w hw hn => hread t ns w (hsub w hw) hn) t hT)
  obtain ⟨t1, h1⟩ := clocked_append_at u f phase (evs.take k) ((b, x) :: (!b, y) :: (b, z) :: (evs.drop (k + 1) ++ tl)) t
  obtain ⟨t2, h2⟩ := clocked_append_at u f phase (evs.drop (k + 1)) tl (t1 + x + y + z)
  refine ⟨b, n, (tbl.get (reading u f phase (t1 + x) - reading u f phase t1)).map (· + 1),
    (tbl.get (reading u f phase (t1 + x + y + z) - reading u f phase (t1 + x + y))).map (· + 1), hn, ?_, ?_, ?_⟩
  · rw [h1, halfEdges_append, hm (timed_take k h) (fun e he => List.mem_of_mem_take he)]
    congr 1
    rw [clocked, clocked, clocked, h2]
    have e2 : halfEdges tbl (clocked u f phase (t1 + x + y + z) (evs.drop (k + 1)) ++ clocked u f phase t2 tl) =
        rightly (edges.drop (k + 1) ++ tlw) := by
      rw [halfEdges_append, hm (timed_drop (k + 1) h) (fun e he => List.mem_of_mem_drop he), htl]
      exact List.map_append.symm
    have e3 := hbrief (t1 + x) y hy hus
    unfold halfEdges at e2 ⊢
    rw [List.map_cons, List.map_cons, List.map_cons, e2, e3]
    rfl
  · intro i hi
    obtain ⟨i', hi', rfl⟩ := Option.map_eq_some_iff.mp hi
    refine ⟨by omega, htail t1 x _ hmem hx ?_ i' hi'⟩
    have := hnear.2
    dsimp only at this ⊢
    omega
  · intro i hi
    obtain ⟨i', hi', rfl⟩ := Option.map_eq_some_iff.mp hi
    refine ⟨by omega, htail (t1 + x + y) z _ hmem hz ?_ i' hi'⟩
    have := hnear.2
    dsimp only at this ⊢
    omega

/-- What is measured of a transmission without the mark that begins with edge `k`; `P n o` if an interval of `n` half-bits
can be measured as `o`. -/
def MissingAs (P : Nat → Option Nat → Prop) (edges : List (Bool × Nat)) (k : Nat) (tl : List (Bool × Nat)) (ms : List HalfEdge) : Prop :=
  ∃ a b c o, edges[k]? = some (true, a) ∧ edges[k + 1]? = some (false, b) ∧ edges[k + 2]? = some (true, c) ∧
    ms = rightly (edges.take k) ++ (true, o) :: rightly (edges.drop (k + 3) ++ tl) ∧
    P (a + b + c) o

theorem near_add {u j l l' x x' : Nat} (h : Near u j l x) (h' : Near u j l' x') : Near u j (l + l') (x + x') := by
  obtain ⟨h1, h2⟩ := h
  obtain ⟨h3, h4⟩ := h'
  refine ⟨?_, ?_⟩
  · rw [Nat.mul_add _ l l', Nat.add_mul, Nat.mul_add]; omega
  · rw [Nat.mul_add _ l l', Nat.add_mul, Nat.mul_add]; omega

theorem missing_edges {tbl : PulseSpans} {u f phase j unit : Nat} {edges evs : List (Bool × Nat)}
    (hread : ∀ t x, ∀ e ∈ edges, Near u j (unit * e.2) x →
      (tbl.get (reading u f phase (t + x) - reading u f phase t)).map (· + 1) = some e.2)
    (hpos : ∀ e ∈ edges, 1 ≤ e.2)
    {P : Nat → Option Nat → Prop} (hlong : ∀ t x n, 3 ≤ n → Near u j (unit * n) x →
      P n ((tbl.get (reading u f phase (t + x) - reading u f phase t)).map (· + 1)))
    (h : Timed (fun x n => Near u j (unit * n) x) evs edges) {k : Nat} {x y z : Nat}
    (hx : evs[k]? = some (true, x)) (hy : evs[k + 1]? = some (false, y)) (hz : evs[k + 2]? = some (true, z))
    {tl : List (Bool × Nat)} {tlw : List (Bool × Nat)}
    (htl : ∀ t, halfEdges tbl (clocked u f phase t tl) = rightly tlw) (t : Nat) :
    MissingAs P edges k tlw (halfEdges tbl (clocked u f phase t
      (evs.take k ++ (true, x + y + z) :: (evs.drop (k + 3) ++ tl)))) := by
  obtain ⟨a, ha, hna⟩ := timed_get k h hx
  obtain ⟨b, hb, hnb⟩ := timed_get (k + 1) h hy
  obtain ⟨c, hc, hnc⟩ := timed_get (k + 2) h hz
  have pa := hpos _ (List.mem_of_getElem? ha)
  have pb := hpos _ (List.mem_of_getElem? hb)
  have pc := hpos _ (List.mem_of_getElem? hc)
  dsimp only at pa pb pc
  have hm : ∀ {as bs : List (Bool × Nat)}, Timed (fun x n => Near u j (unit * n) x) as bs → (∀ e ∈ bs, e ∈ edges) →
      ∀ t, halfEdges tbl (clocked u f phase t as) = rightly bs := fun hT hsub t =>
    halfEdges_timed (clocked_timed (fun t ns w hw hn => hread t ns w (hsub w hw) hn) t hT)
  obtain ⟨t1, h1⟩ := clocked_append_at u f phase (evs.take k) ((true, x + y + z) :: (evs.drop (k + 3) ++ tl)) t
  obtain ⟨t2, h2⟩ := clocked_append_at u f phase (evs.drop (k + 3)) tl (t1 + (x + y + z))
  have hsum : Near u j (unit * (a + b + c)) (x + y + z) := by
    rw [Nat.mul_add, Nat.mul_add]
    exact near_add (near_add hna hnb) hnc
  refine ⟨a, b, c, _, ha, hb, hc, ?_, hlong t1 _ _ (by omega) hsum⟩
  rw [h1, halfEdges_append, hm (timed_take k h) (fun e he => List.mem_of_mem_take he)]
  congr 1
  rw [clocked, h2]
  have e2 : halfEdges tbl (clocked u f phase (t1 + (x + y + z)) (evs.drop (k + 3)) ++ clocked u f phase t2 tl) =
      rightly (edges.drop (k + 3) ++ tlw) := by
    rw [halfEdges_append, hm (timed_drop (k + 3) h) (fun e he => List.mem_of_mem_drop he), htl]
    exact List.map_append.symm
  unfold halfEdges at e2 ⊢
  rw [List.map_cons, e2]

/-! ## The parser: an edge that cannot be measured is a new beginning -/

theorem midEdges_none (par pos k : Nat) (as : List HalfEdge) (d : Bool) (bs : List HalfEdge) :
    midEdges par pos k (as ++ (d, none) :: bs) = ((midEdges par pos k as).1, (midEdges par pos k as).2.1,
      (midEdges par pos k as).2.2 ++ (d, none) :: bs) := by
  induction as generalizing pos k with
  | nil => cases k <;> simp [midEdges]
  | cons a as ih =>
    obtain ⟨l, _ | n⟩ := a <;> cases k <;> rw [List.cons_append] <;> simp only [midEdges, List.cons_append]
    rw [ih, ih]
    split <;> rfl

theorem rc5Parse_none (n : Nat) (as : List HalfEdge) (hn : as.length ≤ n) (d : Bool) (bs : List HalfEdge) :
    rc5Parse (as ++ (d, none) :: bs) = rc5Parse as ++ rc5Parse ((d, none) :: bs) := by
  induction n generalizing as with
  | zero =>
    obtain rfl := List.eq_nil_of_length_eq_zero (Nat.le_zero.mp hn)
    rw [rc5Parse.eq_1]
    rfl
  | succ n ih =>
    rcases as with _ | ⟨⟨_ | _, o⟩, as⟩
    · rw [rc5Parse.eq_1]
      rfl
    · rw [List.cons_append, rc5Parse.eq_2, rc5Parse.eq_2]
      exact ih as (by simpa using hn)
    · rw [List.cons_append, rc5Parse.eq_3, rc5Parse.eq_3, midEdges_none]
      dsimp only
      rw [ih _ (Nat.le_trans (midEdges_length 0 0 13 as) (by simpa using hn))]
      split <;> rfl

theorem rc5Parse_first (o o' : Option Nat) (b : Bool) (es : List HalfEdge) : rc5Parse ((b, o) :: es) =
    rc5Parse ((b, o') :: es) := by
  cases b
  · rw [rc5Parse.eq_2, rc5Parse.eq_2]
  · rw [rc5Parse.eq_3, rc5Parse.eq_3]

/-! ## RC5: the parser -/

theorem rightly_append (a b : List (Bool × Nat)) : rightly (a ++ b) = rightly a ++ rightly b := List.map_append

theorem rightly_pos {es : List (Bool × Nat)} (h : ∀ e ∈ es, 1 ≤ e.2) : ∀ m ∈ rightly es, m.2 ≠ some 0 := by
  intro m hm he
  obtain ⟨e, h1, rfl⟩ := List.mem_map.mp hm
  have := h e h1
  simp only [Option.some.injEq] at he
  omega

/-- The edges in microseconds. -/
def atUnit (unit : Nat) (es : List (Bool × Nat)) : List (Bool × Nat) := es.map fun e => (e.1, unit * e.2)

theorem atUnit_timed (unit : Nat) (es : List (Bool × Nat)) :
    Timed (fun x n => Near 1000000 0 (unit * n) x) (atUnit unit es) es := by
  induction es with
  | nil => trivial
  | cons e es ih =>
    have h : ∀ l, Near 1000000 0 l l := fun l => ⟨by omega, by omega⟩
    exact ⟨rfl, h _, ih⟩

/-- A complete transmission is a command. -/
theorem rc5_whole_parse (w : BitVec 14) (hw : w.getLsbD 13 = true) (o : Option Nat) {tl : List (Bool × Nat)}
    (htl : tl = [] ∨ tl = [(false, 1)]) :
    rc5Parse ((true, o) :: rightly (edgesFrom true 1 (rc5Tail w 13) ++ tl)) =
      [.ok (some (Rc5Command.unpack (w.setWidth 16)))] := by
  have hsp := rc5Spans_eq (f := 1000000) (m := .u32) (.inl rfl) ⟨true, 32⟩ (by decide)
  have hc : coversAll (rc5Table 1000000) 1000000 0 rc5Lengths = true := by decide +kernel
  have hclk := rc5Clock_of_covers (u := 1000000) (phase := 0) (by decide) hc
  have hall := C78_rc5 ⟨true, 32⟩ (by decide) 1000000 0 (by decide) (by decide) .u32 (.inl rfl) _ hsp hc (fun c => c) 1000000
    (by decide) 0 [(w, (true, 0) :: atUnit 889 (edgesFrom true 1 (rc5Tail w 13)), tl.head?.map fun _ => 889)] (by
      intro i hi
      rw [List.mem_singleton] at hi
      subst hi
      exact ⟨hw, 0, 1, _, _, rfl, rc5Edges_eq w hw, atUnit_timed ..⟩) true 0
      (atUnit 889 (edgesFrom true 1 (rc5Tail w 13) ++ tl)) (by
        rcases htl with rfl | rfl <;> simp [withTail, atUnit]) 0 0
  obtain ⟨outs, ho, hs⟩ := Option.map_eq_some_iff.mp hall
  have hp := C67_rc5 ⟨true, 32⟩ (by decide) _ (rc5_length (.inl rfl) (by decide) hsp) (fun c => c) _ outs ho
  rw [hs, res_map_id, List.map_id] at hp
  have hm : halfEdges (rc5Table 1000000) (clocked 1000000 1000000 0 (0 + 0)
      (atUnit 889 (edgesFrom true 1 (rc5Tail w 13) ++ tl))) = rightly (edgesFrom true 1 (rc5Tail w 13) ++ tl) := by
    have hlen : ∀ e ∈ edgesFrom true 1 (rc5Tail w 13) ++ tl, e.2 = 1 ∨ e.2 = 2 := by
      intro e he
      rcases List.mem_append.mp he with he | he
      · exact rc5_edges_len w 13 true e he
      · rcases htl with rfl | rfl
        · cases he
        · rw [List.mem_singleton.mp he]; exact .inl rfl
    exact halfEdges_timed (clocked_timed (fun t ns e he hn => rc5_right_get (.inl rfl) (by decide) (by decide) hsp (hlen e he)
      (hclk t _ _ (hlen e he) hn)) _ (atUnit_timed ..))
  have he : ∀ e es, halfEdges (rc5Table 1000000) (e :: es) =
      (e.1, ((rc5Table 1000000).get e.2).map (· + 1)) :: halfEdges (rc5Table 1000000) es := fun _ _ => rfl
  rw [he, hm, rc5Parse_first _ o] at hp
  rw [← hp]
  rfl

theorem rc5_total (w : BitVec 14) (hw : w.getLsbD 13 = true) : total (edgesFrom true 1 (rc5Tail w 13)) = 26 := by
  have h1 := rc5_whole_parse w hw none (tl := []) (.inl rfl)
  rw [List.append_nil] at h1
  have hne : edgesFrom true 1 (rc5Tail w 13) ≠ [] := by
    intro h
    rw [h] at h1
    simp [rightly, rc5Parse, midEdges] at h1
  have h2 := edges_total _ _ _ hne
  have h3 : (rc5Tail w 13).length = 26 := rfl
  refine Nat.le_antisymm (by omega) (Nat.le_of_not_lt fun h => ?_)
  rw [rc5Parse_gaps _ _ (Nat.le_refl _)] at h1
  · cases h1
  · intro m hm
    rcases List.mem_cons.mp hm with rfl | hm
    · simp
    · exact rightly_pos (fun e he => by rcases rc5_edges_len w 13 true e he with h | h <;> omega) m hm
  · rw [List.tail_cons, gaps_rightly]
    omega

/-- Of `n` bits no more than `n` boundaries can be seen if the level before them is low. -/
theorem rc5_boundaries (w : BitVec 14) (n : Nat) (b : Bool) {tl : List (Bool × Nat)}
    (htl : tl = [] ∨ tl = [(false, 1)] ∧ (if n = 0 then b = true else w.getLsbD 0 = true)) (pos k : Nat) (hpos : pos % 2 = 1) :
    (midEdges 0 pos k (rightly (edgesFrom b 1 (rc5Tail w n) ++ tl))).1.length ≤ n + (if b then 1 else 0) := by
  induction n generalizing b pos k with
  | zero =>
    rw [show edgesFrom b 1 (rc5Tail w 0) = [] from rfl, List.nil_append]
    rcases htl with rfl | ⟨rfl, hb⟩
    · cases k <;> simp [rightly, midEdges]
    · rw [if_pos rfl] at hb
      subst hb
      rcases k with _ | _ | k <;> simp only [rightly, List.map_cons, List.map_nil, midEdges] <;> split <;> simp
  | succ n ih =>
    have htl' : tl = [] ∨ tl = [(false, 1)] ∧ (if n = 0 then w.getLsbD n = true else w.getLsbD 0 = true) := by
      rcases htl with h | ⟨h, h'⟩
      · exact .inl h
      · rw [if_neg (by omega)] at h'
        refine .inr ⟨h, ?_⟩
        split
        · rename_i h0; subst h0; exact h'
        · exact h'
    have ih := fun pos k hp => ih (w.getLsbD n) htl' pos k hp
    rw [rc5Tail, edgesFrom_bit]
    generalize w.getLsbD n = v at ih
    split
    · rename_i hv
      subst hv
      rw [List.cons_append, List.cons_append]
      have er : ∀ (a c : Bool × Nat) l, rightly (a :: c :: l) = (a.1, some a.2) :: (c.1, some c.2) :: rightly l :=
        fun _ _ _ => rfl
      rw [er]
      cases k with
      | zero => simp [midEdges]
      | succ k =>
        rw [midEdges, if_pos (by dsimp only; omega)]
        cases k with
        | zero => simp [midEdges]; omega
        | succ k =>
          rw [midEdges, if_neg (by dsimp only; omega)]
          have := ih (pos + 1 + 1) (k + 1) (by omega)
          simp only [List.length_cons]
          omega
    · rw [List.cons_append]
      have er : ∀ (a : Bool × Nat) l, rightly (a :: l) = (a.1, some a.2) :: rightly l := fun _ _ => rfl
      rw [er]
      cases k with
      | zero => simp [midEdges]
      | succ k =>
        rw [midEdges, if_neg (by dsimp only; omega)]
        have := ih (pos + 2) (k + 1) (by omega)
        cases v <;> simp at this ⊢ <;> omega

theorem rc5_last (w : BitVec 14) (n : Nat) (b : Bool) :
    (edgesFrom b 1 (rc5Tail w (n + 1))).getLast?.map Prod.fst = some (w.getLsbD 0) := by
  induction n generalizing b with
  | zero =>
    rw [rc5Tail, edgesFrom_bit]
    split <;> rfl
  | succ n ih =>
    have ih := ih (w.getLsbD (n + 1))
    rw [rc5Tail, edgesFrom_bit]
    generalize edgesFrom (w.getLsbD (n + 1)) 1 (rc5Tail w (n + 1)) = es at ih ⊢
    rcases es with _ | ⟨e, es⟩
    · cases ih
    · split
      · rw [List.getLast?_cons_cons, List.getLast?_cons_cons]; exact ih
      · rw [List.getLast?_cons_cons]; exact ih

/-- With a spike before one of the edges after the first the command is heard, or nothing. -/
theorem rc5_spiked_parse (w : BitVec 14) (hw : w.getLsbD 13 = true) (o : Option Nat) {k : Nat} {tl : List (Bool × Nat)}
    {ms : List HalfEdge} (htl : Ending (edgesFrom true 1 (rc5Tail w 13)) tl)
    (h : SpikedAs (edgesFrom true 1 (rc5Tail w 13)) k tl ms) :
    rc5Parse ((true, o) :: ms) = [] ∨ (k = 0 ∨ k + 1 = (edgesFrom true 1 (rc5Tail w 13)).length) ∧
      rc5Parse ((true, o) :: ms) = [.ok (some (Rc5Command.unpack (w.setWidth 16)))] := by
  obtain ⟨b, n, cx, cz, hk, rfl, hx, hz⟩ := h
  rw [rc5Parse_first o none]
  have htot := rc5_total w hw
  have hch := edgesFrom_changes (rc5Tail w 13) true 1
  have hlen := rc5_edges_len w 13 true
  have hwhole := fun o => rc5_whole_parse w hw o (tl := []) (.inl rfl)
  have hwhole' := fun o => rc5_whole_parse w hw o (tl := tl) (by rcases htl with h | ⟨h, -⟩ <;> simp [h])
  have hbit : tl = [] ∨ tl = [(false, 1)] ∧ w.getLsbD 0 = true := by
    rcases htl with h | ⟨h, h'⟩
    · exact .inl h
    · rw [rc5_last w 12 true, Option.some.injEq] at h'
      exact .inr ⟨h, h'⟩
  have hb0 : ∀ n r, edgesFrom true 1 (rc5Tail w 13) = (false, n) :: r → n = 2 → ∀ pos k, pos % 2 = 1 →
      (midEdges 0 pos k (rightly (r ++ tl))).1.length ≤ 12 := by
    intro n r he hn pos k hp
    rw [show rc5Tail w 13 = (!w.getLsbD 12) :: w.getLsbD 12 :: rc5Tail w 12 from rfl, edgesFrom_bit] at he
    split at he
    · rw [List.cons.injEq, Prod.mk.injEq] at he
      omega
    · rw [List.cons.injEq, Prod.mk.injEq] at he
      obtain ⟨⟨h1, -⟩, rfl⟩ := he
      have := rc5_boundaries w 12 (w.getLsbD 12) (tl := tl) (by simpa using hbit) pos k hp
      rw [h1] at this ⊢
      simpa using this
  generalize edgesFrom true 1 (rc5Tail w 13) = E at *
  have hpos : ∀ e ∈ E, 1 ≤ e.2 := fun e he => by rcases hlen e he with h | h <;> omega
  have htp : ∀ e ∈ tl, 1 ≤ e.2 := by
    rcases htl with rfl | ⟨rfl, -⟩ <;> simp
  have htt : total tl ≤ 1 := by rcases htl with rfl | ⟨rfl, -⟩ <;> simp [total]
  have hkl : k < E.length := (List.getElem?_eq_some_iff.mp hk).1
  have e1 : total E = total (E.take k) + total (E.drop k) := by
    rw [← total_append, List.take_append_drop]
  have e2 : E.drop k = (b, n) :: E.drop (k + 1) := by
    rw [List.getElem?_eq_getElem hkl, Option.some.injEq] at hk
    rw [← hk]
    exact (List.getElem_cons_drop hkl).symm
  rw [e2, total_cons] at e1
  dsimp only at e1
  have hn := hlen _ (List.mem_of_getElem? hk)
  dsimp only at hn
  have hn1 : 1 ≤ n := by omega
  have gx : cx.getD 0 ≤ n := by
    rcases cx with _ | i
    · simp
    · exact (hx i rfl).2
  have gz : cz.getD 0 ≤ n := by
    rcases cz with _ | i
    · simp
    · exact (hz i rfl).2
  have pR : ∀ m ∈ rightly (E.drop (k + 1) ++ tl), m.2 ≠ some 0 := rightly_pos fun e he => by
    rcases List.mem_append.mp he with he | he
    · exact hpos e (List.mem_of_mem_drop he)
    · exact htp e he
  have pz : ∀ d, ∀ m ∈ (d, cz) :: rightly (E.drop (k + 1) ++ tl), m.2 ≠ some 0 := by
    intro d m hm
    rcases List.mem_cons.mp hm with rfl | hm
    · intro h0
      have := (hz 0 h0).1
      omega
    · exact pR m hm
  -- what is before the spike
  have hA : rc5Parse ((true, none) :: (rightly (E.take k) ++ [(b, cx)])) = [] ∨ k + 1 = E.length ∧
      rc5Parse ((true, none) :: (rightly (E.take k) ++ [(b, cx)])) = [.ok (some (Rc5Command.unpack (w.setWidth 16)))] := by
    by_cases hfull : k + 1 = E.length ∧ cx = some n
    · refine .inr ⟨hfull.1, ?_⟩
      rw [← hwhole none, List.append_nil]
      congr 2
      rw [hfull.2]
      have e3 : E = E.take k ++ [(b, n)] := by
        have := (List.take_append_drop k E).symm
        rwa [e2, List.drop_eq_nil_of_le (by omega)] at this
      conv => rhs; rw [e3]
      rw [rightly_append]
      rfl
    · refine .inl (rc5Parse_gaps _ _ (Nat.le_refl _) ?_ ?_)
      · intro m hm
        rcases List.mem_cons.mp hm with rfl | hm
        · simp
        rcases List.mem_append.mp hm with hm | hm
        · exact rightly_pos (fun e he => hpos e (List.mem_of_mem_take he)) m hm
        · rw [List.mem_singleton.mp hm]
          intro h0
          have := (hx 0 h0).1
          omega
      · rw [List.tail_cons, gaps_append, gaps_rightly, span_cons]
        simp only [gaps, List.map_nil, List.sum_nil, Nat.add_zero]
        by_cases hl : k + 1 = E.length
        · have : cx ≠ some n := fun h => hfull ⟨hl, h⟩
          have : cx.getD 0 ≠ n := by
            rcases cx with _ | i
            · simp; omega
            · intro h; exact this (by simpa using h)
          omega
        · have := (total_take hpos (by omega : k < E.length)).2 (by omega) _ hk
          dsimp only at this
          omega
  -- what is after it
  have hB : rc5Parse ((!b, none) :: (b, cz) :: rightly (E.drop (k + 1) ++ tl)) = [] ∨ k = 0 ∧
      rc5Parse ((!b, none) :: (b, cz) :: rightly (E.drop (k + 1) ++ tl)) =
        [.ok (some (Rc5Command.unpack (w.setWidth 16)))] := by
    cases b with
    | true =>
      left
      rw [Bool.not_true, rc5Parse.eq_2]
      refine rc5Parse_gaps _ _ (Nat.le_refl _) (pz true) ?_
      rw [List.tail_cons, gaps_rightly, total_append]
      have hk0 : k ≠ 0 := by
        rintro rfl
        rcases E with _ | ⟨e, E⟩
        · cases hk
        · simp only [List.getElem?_cons_zero, Option.some.injEq] at hk
          subst hk
          cases hch.1
      have : 1 ≤ total (E.take k) := by
        rcases E with _ | ⟨e, E⟩
        · cases hk
        · obtain ⟨k', rfl⟩ := Nat.exists_eq_succ_of_ne_zero hk0
          rw [List.take_succ_cons, total_cons]
          have := hpos e (by simp)
          omega
      omega
    | false =>
      rw [Bool.not_false]
      rcases Nat.eq_zero_or_pos k with rfl | hk0
      · rw [List.take_zero] at e1
        rw [List.drop_zero, Nat.zero_add] at e2
        rw [Nat.zero_add] at *
        have hr1 : ∀ r, E.drop 1 = r → total r = 26 - n := fun r hr => by
          rw [← hr]
          have : total ([] : List (Bool × Nat)) = 0 := rfl
          omega
        by_cases hzn : cz = some n
        · right
          refine ⟨rfl, ?_⟩
          rw [← hwhole' none, hzn]
          conv => rhs; rw [e2]
          rfl
        left
        by_cases hsp : cz = some 1 ∧ n = 2
        · obtain ⟨rfl, rfl⟩ := hsp
          have hbd := hb0 2 _ e2 rfl 1 13 (by decide)
          have hcnt := (midEdges_count (E.drop 1 ++ tl) (fun e he => by
            rcases List.mem_append.mp he with he | he
            · exact hpos e (List.mem_of_mem_drop he)
            · exact htp e he) 1 13).2
          rw [← rightly] at hcnt
          have hm : midEdges 0 0 13 ((false, some 1) :: rightly (E.drop 1 ++ tl)) =
              midEdges 0 1 13 (rightly (E.drop 1 ++ tl)) := by
            rw [midEdges, if_neg (by decide)]
          rw [rc5Parse.eq_3, hm, if_neg (by omega), hcnt (by omega), rc5Parse]
        · have hcz : cz = none := by
            rcases cz with _ | i
            · rfl
            · have := hz i rfl
              exfalso
              have h1 : i ≠ n := fun h => hzn (by rw [h])
              exact hsp ⟨by congr 1; omega, by omega⟩
          subst hcz
          have := rc5Parse_none 1 [(true, none)] (Nat.le_refl _) false (rightly (E.drop 1 ++ tl))
          rw [List.singleton_append] at this
          rw [this, rc5Parse.eq_2, rc5Parse_gaps _ [(true, none)] (Nat.le_refl _) (by simp) (by simp [gaps]), List.nil_append]
          refine rc5Parse_gaps _ _ (Nat.le_refl _) pR ?_
          rcases hr : E.drop 1 with _ | ⟨e, r⟩
          · have h5 : gaps (rightly (([] : List (Bool × Nat)) ++ tl)).tail ≤ gaps (rightly tl) :=
              span_suffix (List.tail_suffix _)
            rw [gaps_rightly] at h5
            omega
          · have h5 := hr1 _ hr
            rw [total_cons] at h5
            have h6 := hpos e (List.mem_of_mem_drop (by rw [hr]; exact List.mem_cons_self ..))
            rw [List.cons_append, show (rightly (e :: (r ++ tl))).tail = rightly (r ++ tl) from rfl, gaps_rightly, total_append]
            omega
      · left
        refine rc5Parse_gaps _ _ (Nat.le_refl _) ?_ ?_
        · intro m hm
          rcases List.mem_cons.mp hm with rfl | hm
          · simp
          · exact pz false m hm
        · rw [List.tail_cons, span_cons, gaps_rightly, total_append]
          have : 2 ≤ total (E.take k) := by
            rcases E with _ | ⟨e, _ | ⟨e', E⟩⟩
            · cases hk
            · rw [List.length_singleton] at hkl; omega
            · rcases k with _ | _ | k
              · omega
              · exfalso
                simp only [Nat.zero_add, List.getElem?_cons_succ, List.getElem?_cons_zero, Option.some.injEq] at hk
                subst hk
                obtain ⟨c1, c2, -⟩ := hch
                rw [c1] at c2
                cases c2
              · rw [List.take_succ_cons, List.take_succ_cons, total_cons, total_cons]
                have h1 := hpos e (by simp)
                have h2 := hpos e' (by simp)
                omega
          dsimp only
          omega
  have hsplit := rc5Parse_none _ ((true, none) :: (rightly (E.take k) ++ [(b, cx)])) (Nat.le_refl _) (!b)
    ((b, cz) :: rightly (E.drop (k + 1) ++ tl))
  rw [List.cons_append, List.append_assoc, List.singleton_append] at hsplit
  rw [hsplit]
  rcases hA with hA | ⟨hA, hA'⟩ <;> rcases hB with hB | ⟨hB, hB'⟩
  · exact .inl (by rw [hA, hB]; rfl)
  · exact .inr ⟨.inl hB, by rw [hA, hB']; rfl⟩
  · exact .inr ⟨.inr hA, by rw [hA', hB]; rfl⟩
  · exfalso
    subst hB
    rw [List.take_zero, List.drop_eq_nil_of_le (by omega)] at e1
    have : total ([] : List (Bool × Nat)) = 0 := rfl
    omega

/-- Without the first mark there is no command. -/
theorem rc5_missing_first (w : BitVec 14) (hw : w.getLsbD 13 = true) (o : Option Nat) {tl : List (Bool × Nat)}
    (htl : tl = [] ∨ tl = [(false, 1)]) (h2 : 2 ≤ (edgesFrom true 1 (rc5Tail w 13)).length) :
    rc5Parse ((true, o) :: rightly ((edgesFrom true 1 (rc5Tail w 13)).drop 2 ++ tl)) = [] := by
  have htot := rc5_total w hw
  have hpos : ∀ e ∈ edgesFrom true 1 (rc5Tail w 13), 1 ≤ e.2 := fun e he => by
    rcases rc5_edges_len w 13 true e he with h | h <;> omega
  rw [rc5Parse_first o none]
  generalize edgesFrom true 1 (rc5Tail w 13) = E at *
  have htt : total tl ≤ 1 := by rcases htl with rfl | rfl <;> simp [total]
  refine rc5Parse_gaps _ _ (Nat.le_refl _) ?_ ?_
  · intro m hm
    rcases List.mem_cons.mp hm with rfl | hm
    · simp
    · refine rightly_pos (fun e he => ?_) m hm
      rcases List.mem_append.mp he with he | he
      · exact hpos e (List.mem_of_mem_drop he)
      · rcases htl with rfl | rfl
        · cases he
        · rw [List.mem_singleton.mp he]
  · rw [List.tail_cons, gaps_rightly, total_append]
    rcases E with _ | ⟨e, _ | ⟨e', E⟩⟩
    · simp at h2
    · simp at h2
    · rw [total_cons, total_cons] at htot
      have h3 := hpos e (by simp)
      have h4 := hpos e' (by simp)
      rw [List.drop_succ_cons, List.drop_succ_cons, List.drop_zero]
      omega

/-- Without another mark neither. -/
theorem rc5_missing_parse (w : BitVec 14) (hw : w.getLsbD 13 = true) (o : Option Nat) {k : Nat} {tl : List (Bool × Nat)}
    {ms : List HalfEdge} (htl : tl = [] ∨ tl = [(false, 1)])
    (h : MissingAs (fun _ o => o = none) (edgesFrom true 1 (rc5Tail w 13)) k tl ms) : rc5Parse ((true, o) :: ms) = [] := by
  obtain ⟨a, b, c, o', h1, h2, h3, rfl, ho⟩ := h
  subst ho
  have htot := rc5_total w hw
  have hpos : ∀ e ∈ edgesFrom true 1 (rc5Tail w 13), 1 ≤ e.2 := fun e he => by
    rcases rc5_edges_len w 13 true e he with h | h <;> omega
  rw [rc5Parse_first o none]
  generalize edgesFrom true 1 (rc5Tail w 13) = E at *
  have htt : total tl ≤ 1 := by rcases htl with rfl | rfl <;> simp [total]
  have p1 := hpos _ (List.mem_of_getElem? h1)
  have hkl := (List.getElem?_eq_some_iff.mp h1).1
  have e1 : total E = total (E.take k) + total (E.drop k) := by rw [← total_append, List.take_append_drop]
  have e2 : E.drop k = (true, a) :: E.drop (k + 1) := by
    rw [List.getElem?_eq_getElem hkl, Option.some.injEq] at h1
    rw [← h1]
    exact (List.getElem_cons_drop hkl).symm
  have p2 := hpos _ (List.mem_of_getElem? h2)
  have e3 : E.drop (k + 1) = (false, b) :: E.drop (k + 2) := by
    have hkl := (List.getElem?_eq_some_iff.mp h2).1
    rw [List.getElem?_eq_getElem hkl, Option.some.injEq] at h2
    rw [← h2]
    exact (List.getElem_cons_drop hkl).symm
  have e4 : total (E.drop (k + 3)) ≤ total (E.drop (k + 2)) := by
    rcases hd : E.drop (k + 2) with _ | ⟨e, r⟩
    · have := List.drop_eq_nil_iff.mp hd
      rw [List.drop_eq_nil_of_le (by omega)]
    · have : E.drop (k + 3) = (E.drop (k + 2)).drop 1 := by rw [List.drop_drop]
      rw [this, hd, total_cons]
      exact Nat.le_add_left _ _
  rw [e2, total_cons, e3, total_cons] at e1
  refine rc5Parse_gaps _ _ (Nat.le_refl _) ?_ ?_
  · intro m hm
    rcases List.mem_cons.mp hm with rfl | hm
    · simp
    rcases List.mem_append.mp hm with hm | hm
    · exact rightly_pos (fun e he => hpos e (List.mem_of_mem_take he)) m hm
    rcases List.mem_cons.mp hm with rfl | hm
    · simp
    refine rightly_pos (fun e he => ?_) m hm
    rcases List.mem_append.mp he with he | he
    · exact hpos e (List.mem_of_mem_drop he)
    · rcases htl with rfl | rfl
      · cases he
      · rw [List.mem_singleton.mp he]
  · rw [List.tail_cons, gaps_append, gaps_rightly, span_cons, gaps_rightly, total_append]
    dsimp only [Option.getD_none] at p1 p2 e1 ⊢
    omega

/-! ## Readings -/

theorem get_none_of {tbl : PulseSpans} {d : Nat} (h : ∀ i, ¬ InTol tbl i d) : tbl.get d = none := by
  rcases hg : tbl.get d with _ | i
  · rfl
  · exact absurd ((get_eq_iff' tbl i d).mp hg).1 (h i)

/-- A spike is measured as one tick or more, and as no more than a tick too much. -/
theorem brief_reading {u : Nat} (hu : 0 < u) (f phase t y us : Nat) (h1 : u ≤ y * f) (h2 : 1000000 * y ≤ us * u) :
    1 ≤ reading u f phase (t + y) - reading u f phase t ∧
      1000000 * (reading u f phase (t + y) - reading u f phase t) ≤ us * f + 1000000 := by
  have h3 := reading_succ (phase := phase) (t := t) hu h1
  obtain ⟨h4, -⟩ := reading_bounds hu f phase t y
  refine ⟨by omega, ?_⟩
  generalize reading u f phase (t + y) - reading u f phase t = d at h4
  refine Nat.le_of_mul_le_mul_left (c := u) ?_ hu
  have h5 := Nat.mul_le_mul_right f h2
  rw [Nat.mul_assoc] at h5
  have e1 : u * (1000000 * d) = 1000000 * (u * d) := by ac_rfl
  have e2 : u * (us * f + 1000000) = us * u * f + 1000000 * u := by rw [Nat.mul_add]; ac_rfl
  rw [e1, e2]
  omega

/-- An interval of `l` microseconds is measured as no more than a tick too little. -/
theorem long_reading {u : Nat} (hu : 0 < u) (f phase t x j l : Nat) (h : Near u j l x) :
    (100 - j) * l * f ≤ 100000000 * (reading u f phase (t + x) - reading u f phase t + 1) := by
  obtain ⟨-, h1⟩ := reading_bounds hu f phase t x
  generalize reading u f phase (t + x) - reading u f phase t = d at h1
  refine Nat.le_of_mul_le_mul_left (c := u) ?_ hu
  have h2 := Nat.mul_le_mul_right f h.1
  have e1 : u * ((100 - j) * l * f) = (100 - j) * l * u * f := by ac_rfl
  have e2 : u * (100000000 * (d + 1)) = 100000000 * (u * d + u) := by rw [Nat.mul_left_comm, Nat.mul_add, Nat.mul_one]
  rw [e1, e2]
  rw [Nat.mul_assoc 100000000] at h2
  omega

theorem rc5_brief {t : Target} {m : Mono} (hm : m = Mono.u32 ∨ m = Mono.u64) {f : Nat} (hlo : 20000 ≤ f)
    (hf : f < 2 ^ 32) {tbl : PulseSpans} (htbl : rc5Spans t m f = some tbl) {d : Nat} (h1 : 1 ≤ d)
    (h2 : 1000000 * d ≤ 600 * f + 1000000) : tbl.get d = none := by
  refine get_none_of fun i hi => ?_
  obtain ⟨h3, h4⟩ := C52_rejects .rc5 t m hm f hf tbl htbl i d hi
  rcases i with _ | _ | i
  · have := (h3 889 12 rfl).2
    omega
  · have := (h3 1778 10 rfl).2
    omega
  · have := h4 rfl
    omega

theorem rc5_long {t : Target} {m : Mono} (hm : m = Mono.u32 ∨ m = Mono.u64) {f : Nat} (hlo : 20000 ≤ f)
    (hf : f < 2 ^ 32) {tbl : PulseSpans} (htbl : rc5Spans t m f = some tbl) {d j n : Nat} (hj : j ≤ 12) (hn : 3 ≤ n)
    (h : (100 - j) * (889 * n) * f ≤ 100000000 * (d + 1)) : tbl.get d = none := by
  have h0 : 88 * (889 * 3) * f ≤ (100 - j) * (889 * n) * f :=
    Nat.mul_le_mul_right _ (Nat.mul_le_mul (by omega) (by omega))
  refine get_none_of fun i hi => ?_
  obtain ⟨h3, h4⟩ := C52_rejects .rc5 t m hm f hf tbl htbl i d hi
  rcases i with _ | _ | i
  · have := (h3 889 12 rfl).1
    omega
  · have := (h3 1778 10 rfl).1
    omega
  · have := h4 rfl
    omega

/-! ## RC5: one transmission -/

theorem withTail_append (as bs : List (Bool × Nat)) (tail : Option Nat) :
    withTail (as ++ bs) tail = as ++ withTail bs tail := by
  cases tail <;> simp [withTail]

theorem withTail_nil (bs : List (Bool × Nat)) (tail : Option Nat) : withTail bs tail = bs ++ withTail [] tail := by
  cases tail <;> simp [withTail]

/-- The end of the last mark, measured. -/
def tailUnit (tail : Option Nat) : List (Bool × Nat) := tail.toList.map fun _ => (false, 1)

theorem tailUnit_cases (tail : Option Nat) : tailUnit tail = [] ∨ tailUnit tail = [(false, 1)] := by
  cases tail
  · exact .inl rfl
  · exact .inr rfl

theorem withTail_length (bs : List (Bool × Nat)) (tail : Option Nat) : (withTail bs tail).length ≤ bs.length + 1 := by
  cases tail <;> simp [withTail]

theorem tail_edges {tbl : PulseSpans} {u f phase j unit : Nat} {tail : Option Nat}
    (hread : ∀ t x, Near u j (unit * 1) x →
      (tbl.get (reading u f phase (t + x) - reading u f phase t)).map (· + 1) = some 1)
    (h : ∀ x, tail = some x → Near u j (unit * 1) x) (t : Nat) :
    halfEdges tbl (clocked u f phase t (withTail [] tail)) = rightly (tailUnit tail) := by
  cases tail with
  | none => rfl
  | some x =>
    have := hread t x (h x rfl)
    simp only [withTail, List.nil_append, clocked, halfEdges, List.map_cons, List.map_nil, this]
    rfl

theorem rc5_hurt_of {t : Target} (hus : 16 ≤ t.usizeBits) {f : Nat} (hf : f < 2 ^ 32) {m : Mono}
    (hm : m = Mono.u32 ∨ m = Mono.u64) {tbl : PulseSpans} (htbl : rc5Spans t m f = some tbl) (conv : Rc5Command → K)
    {evs : List Ev} (hl : evs.length ≤ 1000) {cs : List (Res Rc5Command)} (h : rc5Parse (halfEdges tbl evs) = cs) :
    (results (rc5Decoder t tbl) conv evs).map said = some (cs.map (Res.map conv)) := by
  have hsp := rc5_length hm hf htbl
  have hpow : 2 ^ 16 ≤ 2 ^ t.usizeBits := Nat.pow_le_pow_right (by decide) hus
  obtain ⟨o, ho⟩ := Option.ne_none_iff_exists'.mp (C30_rc5_no_panic t hus tbl hsp conv evs (.inr (by omega)))
  rw [ho, Option.map_some, C67_rc5 t hus tbl hsp conv _ o ho, h]

theorem rc5_hurt_one (t : Target) (hus : 16 ≤ t.usizeBits) (f j : Nat) (hlo : 20000 ≤ f) (hf : f < 2 ^ 32) (m : Mono)
    (hm : m = Mono.u32 ∨ m = Mono.u64) (tbl : PulseSpans) (htbl : rc5Spans t m f = some tbl)
    (hc : coversAll tbl f j rc5Lengths = true) (conv : Rc5Command → K) (u : Nat) (hu : 0 < u) (phase : Nat)
    (i : Rc5Hurt × List (Bool × Nat) × Option Nat) (h : i.1.Wire u j f i.2.1 i.2.2)
    (hp : ∀ n, i.1 = .other (.noise n) → NoPanic t n) :
    ∃ b p es, withTail i.2.1 i.2.2 = (b, p) :: es ∧
      (∀ t, Gap tbl (reading u f phase (t + p) - reading u f phase t)) ∧
      ∀ g t', ∃ r, (results (rc5Decoder t tbl) conv ((b, g) :: clocked u f phase (t' + p) es)).map said =
        some (r.map (Res.map conv)) ∧ rc5HurtAnswer () i.1 r () := by
  obtain ⟨s, evs, tail⟩ := i
  have hgap : ∀ p, 16000 * u ≤ 1000000 * p → ∀ t', Gap tbl (reading u f phase (t' + p) - reading u f phase t') :=
    fun p hp t' => long_gap hm hlo hf .rc5 (fun i l tol hi => by
      have : ∀ x ∈ Kind.symbols .rc5, (100 + x.2) * x.1 ≤ 300000 := by decide
      exact this (l, tol) (List.mem_of_getElem? hi)) htbl hu phase t' p hp
  have hj : j ≤ 12 := Nat.le_of_not_lt fun hj => by
    have h0 := coversAll_get hc (s := 0) rfl
    rw [not_covers_more (k := .rc5) hm hlo hf htbl (s := 0) (tol := 12) rfl (by decide) hj] at h0
    cases h0
  have hclk := rc5Clock_of_covers (phase := phase) hu hc
  have hget : ∀ t' x n, n = 1 ∨ n = 2 → Near u j (889 * n) x →
      (tbl.get (reading u f phase (t' + x) - reading u f phase t')).map (· + 1) = some n := fun t' x n hn hx =>
    rc5_right_get hm hlo hf htbl hn (hclk t' _ _ hn hx)
  have hpart : ∀ t' x n, n = 1 ∨ n = 2 → u ≤ x * f → 100000000 * x ≤ (100 + j) * (889 * n) * u →
      ∀ i, tbl.get (reading u f phase (t' + x) - reading u f phase t') = some i → i + 1 ≤ n := by
    intro t' x n hn h0 hx
    obtain ⟨r1, r2⟩ := reading_early hu f phase j _ t' x h0 hx
    rcases hn with rfl | rfl
    · rw [Nat.mul_one] at r2
      obtain ⟨w, hw, -, hh⟩ := covers_iff.mp (coversAll_get hc (s := 0) rfl)
      exact tail_get (Nat.le_refl _) hw (Nat.le_trans r2 hh) (low_le hm hlo hf .rc5 htbl (n := 1) rfl hw r1 (by
        intro i l' tol' hi hs
        rcases i with _ | _ | i
        · omega
        · simp [Kind.symbols] at hs; obtain ⟨rfl, rfl⟩ := hs; decide
        · simp [Kind.symbols] at hs))
    · obtain ⟨w, hw, -, hh⟩ := covers_iff.mp (coversAll_get hc (s := 1) rfl)
      exact tail_get (by decide) hw (Nat.le_trans r2 hh) (low_le hm hlo hf .rc5 htbl (n := 2) rfl hw r1 (by
        intro i l' tol' hi hs
        rcases i with _ | _ | i
        · omega
        · omega
        · simp [Kind.symbols] at hs))
  have hbrief : ∀ t' y, u ≤ y * f → 1000000 * y ≤ 600 * u →
      tbl.get (reading u f phase (t' + y) - reading u f phase t') = none := fun t' y h1 h2 => by
    obtain ⟨h3, h4⟩ := brief_reading hu f phase t' y 600 h1 h2
    exact rc5_brief hm hlo hf htbl h3 h4
  have hcons : ∀ e es, halfEdges tbl (e :: es) = (e.1, (tbl.get e.2).map (· + 1)) :: halfEdges tbl es := fun _ _ => rfl
  have hcl : ∀ t' es, (clocked u f phase t' es).length = es.length := fun _ _ => clocked_length ..
  have hE : ∀ w : BitVec 14, (edgesFrom true 1 (rc5Tail w 13)).length ≤ 26 := fun w => by
    have := edgesFrom_length true 1 (rc5Tail w 13)
    have h3 : (rc5Tail w 13).length = 26 := rfl
    omega
  cases s with
  | other s =>
    obtain ⟨b, p, es, h1, h2, h3⟩ := rc5_noisy_one t hus f j hlo hf m hm tbl htbl hc conv u hu phase (s, evs, tail) h
      fun n hn => hp n (by rw [← hn])
    refine ⟨b, p, es, h1, h2, fun g t' => ?_⟩
    obtain ⟨r, h4, h5⟩ := h3 g t'
    exact ⟨r, h4, .other s r h5⟩
  | spiked w k =>
    obtain ⟨hw, h16, whole, ⟨⟨p, n0, evs', E, rfl, hedges, hT⟩, htail⟩, b, x, y, z, hk, hevs, hx, hy, hz, hus'⟩ := h
    dsimp only at hevs h16 htail ⊢
    have hlast : ∀ x, tail = some x → Near u j (889 * 1) x := fun x hx => (htail x hx).1
    have hend : Ending (edgesFrom true 1 (rc5Tail w 13)) (tailUnit tail) := by
      cases tail with
      | none => exact .inl rfl
      | some x =>
        have h1 := (htail x rfl).2
        have hne : edgesFrom true 1 (rc5Tail w 13) ≠ [] := by
          intro h; have := rc5_total w hw; rw [h] at this; simp [total] at this
        rw [rc5Edges_eq w hw, List.getLast?_cons_of_ne_nil hne] at h1
        exact .inr ⟨rfl, h1⟩
    rw [rc5Edges_eq w hw, List.cons.injEq] at hedges
    obtain ⟨-, rfl⟩ := hedges
    have hlen := rc5_edges_len w 13 true
    have hl' := timed_len hT
    have hE := hE w
    have htl := fun t' => tail_edges (tbl := tbl) (f := f) (phase := phase) (fun t' x hx => hget t' x 1 (.inl rfl) hx) hlast t'
    rcases k with _ | k
    · rw [List.getElem?_cons_zero, Option.some.injEq, Prod.mk.injEq] at hk
      obtain ⟨rfl, -⟩ := hk
      rw [List.take_zero, List.nil_append, Nat.zero_add, List.drop_succ_cons, List.drop_zero] at hevs
      subst hevs
      refine ⟨true, x, (false, y) :: (true, z) :: withTail evs' tail, by simp only [withTail_cons, Bool.not_true],
        hgap x (h16 _ rfl), fun g t' => ⟨_, rc5_hurt_of hus hf hm htbl conv ?_ ?_, .heard w 0 (.inl rfl)⟩⟩
      · have := withTail_length evs' tail
        simp only [List.length_cons, hcl]
        omega
      · rw [clocked, clocked, hcons, hcons, hcons, hbrief _ _ hy hus', Option.map_none, withTail_nil]
        obtain ⟨t2, ht2⟩ := clocked_append_at u f phase evs' (withTail [] tail) (t' + x + y + z)
        rw [ht2, halfEdges_append, htl, halfEdges_timed (clocked_timed (fun t ns w' hw' hn => hget t ns _ (hlen w' hw') hn) _ hT),
          ← rightly_append]
        have := rc5Parse_none 1 [(true, (tbl.get g).map (· + 1))] (Nat.le_refl _) false
          ((true, (tbl.get (reading u f phase (t' + x + y + z) - reading u f phase (t' + x + y))).map (· + 1)) ::
            rightly (edgesFrom true 1 (rc5Tail w 13) ++ tailUnit tail))
        rw [List.singleton_append] at this
        rw [this, rc5Parse_first _ none, rc5Parse_gaps _ [(true, none)] (Nat.le_refl _) (by simp) (by simp [gaps]),
          List.nil_append, rc5Parse.eq_2, rc5_whole_parse w hw _ (tailUnit_cases tail)]
        rfl
    · rw [List.getElem?_cons_succ] at hk
      rw [List.take_succ_cons, List.drop_succ_cons, List.cons_append] at hevs
      subst hevs
      have hkl := (List.getElem?_eq_some_iff.mp hk).1
      refine ⟨true, p, evs'.take k ++ (b, x) :: (!b, y) :: (b, z) :: (evs'.drop (k + 1) ++ withTail [] tail), ?_,
        hgap p (h16 _ rfl), fun g t' => ?_⟩
      · rw [withTail_nil]; simp
      have hms := spiked_edges (tbl := tbl) (f := f) (phase := phase) (us := 600)
        (fun t' x e he hn => hget t' x _ (hlen e he) hn)
        (fun t' x e he h0 hx => hpart t' x _ (hlen e he) h0 hx) hbrief hT hk hx hy hz hus' htl (t' + p)
      have hres := rc5_spiked_parse w hw ((tbl.get g).map (· + 1)) hend hms
      have hsmall : ((true, g) :: clocked u f phase (t' + p) (evs'.take k ++ (b, x) :: (!b, y) :: (b, z) ::
          (evs'.drop (k + 1) ++ withTail [] tail))).length ≤ 1000 := by
        have := withTail_length [] tail
        simp only [List.length_nil] at this
        simp only [List.length_cons, hcl, List.length_append, List.length_take, List.length_drop]
        omega
      rcases hres with h0 | ⟨h1, h2⟩
      · exact ⟨[], rc5_hurt_of hus hf hm htbl conv hsmall h0, .lost w (k + 1) (by omega)⟩
      · refine ⟨_, rc5_hurt_of hus hf hm htbl conv hsmall h2, .heard w (k + 1) ?_⟩
        rw [rc5Edges_eq w hw, List.length_cons]
        rcases h1 with rfl | h1
        · exact .inr (.inl rfl)
        · exact .inr (.inr (by omega))
  | missing w k =>
    obtain ⟨hw, h16, whole, ⟨⟨p, n0, evs', E, rfl, hedges, hT⟩, htail⟩, x, y, z, hk1, hk2, hk3, hevs⟩ := h
    dsimp only at hevs h16 htail ⊢
    have hlast : ∀ x, tail = some x → Near u j (889 * 1) x := fun x hx => (htail x hx).1
    rw [rc5Edges_eq w hw, List.cons.injEq] at hedges
    obtain ⟨-, rfl⟩ := hedges
    have hlen := rc5_edges_len w 13 true
    have hl' := timed_len hT
    have hE := hE w
    have htl := fun t' => tail_edges (tbl := tbl) (f := f) (phase := phase) (fun t' x hx => hget t' x 1 (.inl rfl) hx) hlast t'
    rcases k with _ | k
    · rw [List.take_zero, List.nil_append, Nat.zero_add, List.drop_succ_cons] at hevs
      subst hevs
      have hkl := (List.getElem?_eq_some_iff.mp hk3).1
      rw [List.length_cons] at hkl
      refine ⟨true, x + y + z, evs'.drop 2 ++ withTail [] tail, by rw [withTail_cons, withTail_nil], hgap _ (h16 _ rfl),
        fun g t' => ⟨[], rc5_hurt_of hus hf hm htbl conv ?_ ?_, .missing w 0⟩⟩
      · have := withTail_length [] tail
        simp only [List.length_nil] at this
        simp only [List.length_cons, hcl, List.length_append, List.length_drop]
        omega
      · obtain ⟨t2, ht2⟩ := clocked_append_at u f phase (evs'.drop 2) (withTail [] tail) (t' + (x + y + z))
        rw [hcons, ht2, halfEdges_append, htl, halfEdges_timed (clocked_timed
          (fun t ns w' hw' hn => hget t ns _ (hlen w' (List.mem_of_mem_drop hw')) hn) _ (timed_drop 2 hT)), ← rightly_append]
        exact rc5_missing_first w hw _ (tailUnit_cases tail) (by omega)
    · rw [List.getElem?_cons_succ] at hk1 hk2 hk3
      rw [List.take_succ_cons, List.drop_succ_cons, List.cons_append] at hevs
      subst hevs
      have hkl := (List.getElem?_eq_some_iff.mp hk3).1
      refine ⟨true, p, evs'.take k ++ (true, x + y + z) :: (evs'.drop (k + 3) ++ withTail [] tail), ?_,
        hgap p (h16 _ rfl), fun g t' => ⟨[], rc5_hurt_of hus hf hm htbl conv ?_ ?_, .missing w (k + 1)⟩⟩
      · rw [withTail_nil]; simp
      · have := withTail_length [] tail
        simp only [List.length_nil] at this
        simp only [List.length_cons, hcl, List.length_append, List.length_take, List.length_drop]
        omega
      · refine rc5_missing_parse w hw _ (tailUnit_cases tail) (missing_edges
          (fun t' x e he hn => hget t' x _ (hlen e he) hn) (fun e he => by rcases hlen e he with h | h <;> omega)
          (fun t' x n hn hx => ?_) hT hk1 hk2 hk3 htl (t' + p))
        rw [rc5_long hm hlo hf htbl hj hn (long_reading hu f phase t' x j _ hx)]
        rfl

/-- **C96**, RC5: of transmissions that may have a spike or lack a mark (or break off), and of noise between them, 16 ms
or more apart: a transmission with a spike gives its command or nothing, one without a mark nothing, and each is answered
as if it were alone. -/
theorem C96_rc5 (t : Target) (hus : 16 ≤ t.usizeBits) (f j : Nat) (hlo : 20000 ≤ f) (hf : f < 2 ^ 32) (m : Mono)
    (hm : m = Mono.u32 ∨ m = Mono.u64) (tbl : PulseSpans) (htbl : rc5Spans t m f = some tbl)
    (hc : coversAll tbl f j rc5Lengths = true) (conv : Rc5Command → K) (u : Nat) (hu : 0 < u) (phase : Nat)
    (items : List (Rc5Hurt × List (Bool × Nat) × Option Nat))
    (hok : ∀ i ∈ items, i.1.Wire u j f i.2.1 i.2.2 ∧ ∀ n, i.1 = .other (.noise n) → NoPanic t n)
    (b : Bool) (pause : Nat) (es : List (Bool × Nat))
    (hes : (items.flatMap fun i => withTail i.2.1 i.2.2) = (b, pause) :: es) (t0 g : Nat) :
    ∃ rs, (results (rc5Decoder t tbl) conv ((b, g) :: clocked u f phase (t0 + pause) es)).map said =
        some (rs.map (Res.map conv)) ∧
      Tells rc5HurtAnswer () (items.map fun i => i.1) rs :=
  (pieces_tells (rc5Decoder t tbl) conv tbl u f phase (C29_rc5_gap_forgets t tbl conv) rc5HurtAnswer items fun i hi =>
    rc5_hurt_one t hus f j hlo hf m hm tbl htbl hc conv u hu phase i (hok i hi).1 (hok i hi).2).2 b pause es hes g t0

end Infrared
