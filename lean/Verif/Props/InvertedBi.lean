import Verif.Props.Inverted
import Verif.Props.FirstEdge

/-!
# Lines of the wrong polarity (C91): RC5 and RC6
-/

namespace Infrared

open Spec

variable {C K : Type}

theorem inverted_append (a b : List (Bool × Nat)) : inverted (a ++ b) = inverted a ++ inverted b := List.map_append

/-! ## RC5, in half-bits -/

/-- From the middle of a bit `b`: the edges between the bits that follow are all there only if these are all `b`. -/
theorem inverted_between (w : BitVec 14) (tl : List (Bool × Nat)) (htl : tl = [] ∨ tl = [(true, 1)]) (n : Nat) (b : Bool)
    (pos : Nat) (hodd : pos % 2 = 1) (k : Nat) :
    (midEdges 0 pos k (rightly (inverted (edgesFrom b 1 (rc5Tail w n)) ++ tl))).1.length ≤ n + 1 ∧
    ((midEdges 0 pos k (rightly (inverted (edgesFrom b 1 (rc5Tail w n)) ++ tl))).1.length = n + 1 →
      tl = [(true, 1)] ∧ ∀ i < n, w.getLsbD i = b) := by
  induction n generalizing b pos k with
  | zero =>
    rw [rc5Tail, edgesFrom, inverted, List.map_nil, List.nil_append]
    rcases htl with rfl | rfl
    · cases k <;> simp [midEdges, rightly]
    · rcases k with _ | k
      · simp [midEdges, rightly]
      · have : (pos + 1) % 2 = 0 := by omega
        cases k <;> simp [midEdges, rightly, this]
  | succ n ih =>
    rw [rc5Tail, edgesFrom_bit]
    rcases k with _ | k
    · simp [midEdges]
    split
    · rename_i hb
      have e1 : (pos + 1) % 2 = 0 := by omega
      have e2 : ¬ (pos + 1 + 1) % 2 = 0 := by omega
      simp only [inverted, List.map_cons, List.cons_append, rightly, midEdges, e1, if_true, List.length_cons]
      rcases k with _ | k
      · simp only [midEdges, List.length_nil]
        omega
      · rw [midEdges, if_neg e2, hb]
        obtain ⟨h1, h2⟩ := ih b (pos + 1 + 1) (by omega) (k + 1)
        refine ⟨Nat.succ_le_succ h1, fun h => ?_⟩
        obtain ⟨h3, h4⟩ := h2 (by simp only [inverted, rightly]; omega)
        refine ⟨h3, fun i hi => ?_⟩
        rcases Nat.lt_succ_iff_lt_or_eq.mp hi with hi | rfl
        · exact h4 i hi
        · exact hb
    · rename_i hb
      have e1 : ¬ (pos + 2) % 2 = 0 := by omega
      simp only [inverted, List.map_cons, List.cons_append, rightly, midEdges, e1, if_false]
      obtain ⟨h1, -⟩ := ih (w.getLsbD n) (pos + 2) (by omega) (k + 1)
      simp only [inverted, rightly] at h1
      exact ⟨by omega, fun h => by omega⟩

/-- An RC5 transmission with high and low swapped reads as a command only if all bits are ones; then as the same one. -/
theorem rc5_inverted_parse (w : BitVec 14) (hw : w.getLsbD 13 = true) (tl : List (Bool × Nat))
    (htl : tl = [] ∨ tl = [(true, 1)]) :
    rc5Parse (rightly (inverted (edgesFrom true 1 (rc5Tail w 13)) ++ tl)) =
      if w = 0x3FFF ∧ tl = [(true, 1)] then [.ok (some (Rc5Command.unpack (w.setWidth 16)))] else [] := by
  by_cases hall : w = 0x3FFF ∧ tl = [(true, 1)]
  · obtain ⟨rfl, rfl⟩ := hall
    decide +kernel
  rw [if_neg hall]
  have hlt : total tl ≤ 1 := by rcases htl with rfl | rfl <;> decide
  have hpt : ∀ e ∈ tl, 1 ≤ e.2 := by rcases htl with rfl | rfl <;> simp
  rw [show (13 : Nat) = 12 + 1 from rfl, rc5Tail, edgesFrom_bit]
  have hpos : ∀ b, ∀ e ∈ inverted (edgesFrom b 1 (rc5Tail w 12)) ++ tl, 1 ≤ e.2 := by
    intro b e he
    rcases List.mem_append.mp he with he | he
    · obtain ⟨e', he', rfl⟩ := List.mem_map.mp he
      rcases rc5_edges_len w 12 b e' he' with h | h <;> (dsimp only; omega)
    · exact hpt e he
  have htot : ∀ b, total (inverted (edgesFrom b 1 (rc5Tail w 12)) ++ tl) ≤ 25 := by
    intro b
    have h2 : total (inverted (edgesFrom b 1 (rc5Tail w 12))) = total (edgesFrom b 1 (rc5Tail w 12)) := by
      simp [total, inverted, Function.comp_def]
    rw [total_append, h2]
    have hl : (rc5Tail w 12).length = 24 := rfl
    rcases total_edgesFrom b 1 (rc5Tail w 12) with h | h
    · omega
    · rw [h]; simp only [total, List.map_nil, List.sum_nil]; simp only [total] at hlt; omega
  split
  · rename_i hb
    rw [hb]
    simp only [inverted, List.map_cons, List.cons_append, rightly, Bool.not_true, Bool.not_false]
    rw [rc5Parse, midEdges, if_neg (show ¬ (0 + 1) % 2 = 0 by decide)]
    obtain ⟨h1, h2⟩ := inverted_between w tl htl 12 true 1 rfl 13
    obtain ⟨-, h3⟩ := midEdges_count _ (hpos true) 1 13
    have hlen : (midEdges 0 1 13 (rightly (inverted (edgesFrom true 1 (rc5Tail w 12)) ++ tl))).1.length < 13 := by
      refine Nat.lt_of_le_of_ne h1 fun h => hall ?_
      obtain ⟨h4, h5⟩ := h2 h
      refine ⟨BitVec.eq_of_getLsbD_eq fun i hi => ?_, h4⟩
      rw [show (0x3FFF : BitVec 14).getLsbD i = true by revert i; decide]
      rcases Nat.lt_or_ge i 12 with h | h
      · exact h5 i h
      · obtain rfl | rfl : i = 12 ∨ i = 13 := by omega
        · exact hb
        · exact hw
    have h3 := h3 hlen
    refine (if_neg (Nat.ne_of_lt hlen)).trans ((congrArg rc5Parse h3).trans ?_)
    rw [rc5Parse]
  · rename_i hb
    have hb : w.getLsbD 12 = false := by simpa using hb
    rw [hb]
    simp only [inverted, List.map_cons, List.cons_append, rightly, Bool.not_false]
    rw [rc5Parse]
    obtain ⟨h1, h3⟩ := midEdges_count _ (hpos false) 0 13
    have := htot false
    have hlen : (midEdges 0 0 13 (rightly (inverted (edgesFrom false 1 (rc5Tail w 12)) ++ tl))).1.length < 13 := by
      simp only [rightly]
      omega
    have h3 := h3 hlen
    simp only [inverted, rightly] at hlen h3
    rw [if_neg (by omega), h3, rc5Parse]

/-! ## Pieces -/

theorem timed_append {R : Nat → Nat → Prop} {as bs : List (Bool × Nat)} {as' bs' : List (Bool × Nat)}
    (h : Timed R as as') (h' : Timed R bs bs') : Timed R (as ++ bs) (as' ++ bs') := by
  induction as generalizing as' with
  | nil => cases as' with
    | nil => exact h'
    | cons w ws => exact h.elim
  | cons e as ih => cases as' with
    | nil => exact h.elim
    | cons w ws =>
      obtain ⟨h1, h2, h3⟩ := h
      exact ⟨h1, h2, ih h3⟩


theorem inverted_flatMap {A B : Type} (items : List (A × List (Bool × Nat) × Option Nat)) (h : A → Bool → B) :
    ((items.map fun i => (h i.1 i.2.2.isSome, inverted (withTail i.2.1 i.2.2), (none : Option Nat))).flatMap fun i =>
      withTail i.2.1 i.2.2) = inverted (items.flatMap fun i => withTail i.2.1 i.2.2) := by
  induction items with
  | nil => rfl
  | cons i items ih =>
    rw [List.map_cons, List.flatMap_cons, ih, List.flatMap_cons, inverted_append]
    rfl

theorem halfEdges_inverted (tbl : PulseSpans) (u f phase t : Nat) (es : List (Bool × Nat)) :
    halfEdges tbl (clocked u f phase t (inverted es)) =
      (halfEdges tbl (clocked u f phase t es)).map fun e => (!e.1, e.2) := by
  induction es generalizing t with
  | nil => rfl
  | cons e es ih =>
    obtain ⟨b, x⟩ := e
    have := ih (t + x)
    unfold halfEdges at *
    simp only [inverted, List.map_cons, clocked] at this ⊢
    rw [this]

theorem rc5_inverted_of (t : Target) (hus : 16 ≤ t.usizeBits) (f j : Nat) (hlo : 20000 ≤ f) (hf : f < 2 ^ 32) (m : Mono)
    (hm : m = Mono.u32 ∨ m = Mono.u64) (tbl : PulseSpans) (htbl : rc5Spans t m f = some tbl)
    (hc : coversAll tbl f j rc5Lengths = true) (conv : Rc5Command → K) (u : Nat) (hu : 0 < u) (phase : Nat)
    (w : BitVec 14) (hw : w.getLsbD 13 = true) (evs : List (Bool × Nat)) (tail : Option Nat)
    (hsent : SentApart u j 889 (rc5Edges w) evs tail) :
    ∃ b p es, inverted (withTail evs tail) = (b, p) :: es ∧
      (∀ t, Gap tbl (reading u f phase (t + p) - reading u f phase t)) ∧
      ∀ g t', (results (rc5Decoder t tbl) conv ((b, g) :: clocked u f phase (t' + p) es)).map said =
        some (if w = 0x3FFF ∧ tail.isSome then oks [conv (Rc5Command.unpack (w.setWidth 16))] else []) := by
  obtain ⟨⟨p, n, evs', edges', he, hed, htm⟩, htl, hp⟩ := hsent
  rw [he] at hp
  have hgap : ∀ t', Gap tbl (reading u f phase (t' + p) - reading u f phase t') :=
    fun t' => long_gap hm hlo hf .rc5 (fun i l tol hi => by
      have : ∀ x ∈ Kind.symbols .rc5, (100 + x.2) * x.1 ≤ 300000 := by decide
      exact this (l, tol) (List.mem_of_getElem? hi)) htbl hu phase t' p (hp _ rfl)
  have hclk := rc5Clock_of_covers (phase := phase) hu hc
  rw [rc5Edges_eq w hw, List.cons.injEq] at hed
  obtain ⟨-, rfl⟩ := hed
  have hmeas : ∀ (evs : List (Bool × Nat)) (ws : List (Bool × Nat)) (t' : Nat), (∀ e ∈ ws, e.2 = 1 ∨ e.2 = 2) →
      Timed (fun x n => Near u j (889 * n) x) evs ws →
      halfEdges tbl (clocked u f phase t' evs) = rightly ws := by
    intro evs
    induction evs with
    | nil => intro ws t' _ h; cases ws with
      | nil => rfl
      | cons w ws => exact h.elim
    | cons e evs ih => intro ws t' hws h; cases ws with
      | nil => exact h.elim
      | cons w ws =>
        obtain ⟨b, x⟩ := e
        obtain ⟨h1, h2, h3⟩ := h
        have := ih ws (t' + x) (fun e he => hws e (by simp [he])) h3
        have h4 := rc5_right_get hm hlo hf htbl (hws w (by simp)) (hclk t' _ _ (hws w (by simp)) h2)
        unfold halfEdges rightly at *
        rw [clocked, List.map_cons, List.map_cons, this]
        dsimp only at h1 h4 ⊢
        rw [h4, h1]
  have hsp := rc5_length hm hf htbl
  have hlen := rc5_edges_len w 13 true
  have htot : (edgesFrom true 1 (rc5Tail w 13)).length ≤ 26 := by
    have := edgesFrom_length true 1 (rc5Tail w 13)
    have h3 : (rc5Tail w 13).length = 26 := rfl
    omega
  have hpow : 2 ^ 16 ≤ 2 ^ t.usizeBits := Nat.pow_le_pow_right (by decide) hus
  have main : ∀ (rest ws : List (Bool × Nat)), ws = [] ∨ ws = [(false, 1)] →
      Timed (fun x n => Near u j (889 * n) x) rest (edgesFrom true 1 (rc5Tail w 13) ++ ws) → ∀ g t',
      (results (rc5Decoder t tbl) conv ((false, g) :: clocked u f phase (t' + p) (inverted rest))).map said =
        some (if w = 0x3FFF ∧ ws = [(false, 1)] then oks [conv (Rc5Command.unpack (w.setWidth 16))] else []) := by
    intro rest ws hws hT g t'
    have hh := hmeas rest _ (t' + p) (by
      intro e he
      rcases List.mem_append.mp he with he | he
      · exact hlen e he
      · rcases hws with rfl | rfl
        · cases he
        · rw [List.mem_singleton] at he; subst he; exact .inl rfl) hT
    have hl : rest.length ≤ 27 := by
      have h1 := congrArg List.length hh
      have h2 : ws.length ≤ 1 := by rcases hws with rfl | rfl <;> decide
      simp only [halfEdges, rightly, List.length_map, clocked_length, List.length_append] at h1
      omega
    obtain ⟨o, ho⟩ := Option.ne_none_iff_exists'.mp (C30_rc5_no_panic t hus tbl hsp conv
      ((false, g) :: clocked u f phase (t' + p) (inverted rest)) (.inr (by
        rw [List.length_cons, clocked_length, inverted, List.length_map]; omega)))
    have hpar : halfEdges tbl (clocked u f phase (t' + p) (inverted rest)) =
        rightly (inverted (edgesFrom true 1 (rc5Tail w 13)) ++ inverted ws) := by
      rw [halfEdges_inverted, hh, ← inverted_append]
      simp only [rightly, inverted, List.map_map]
      rfl
    rw [ho, Option.map_some, C67_rc5 t hus tbl hsp conv _ o ho, halfEdges, List.map_cons]
    rw [show List.map (fun e : Ev => (e.1, (tbl.get e.2).map (· + 1))) (clocked u f phase (t' + p) (inverted rest)) =
      halfEdges tbl (clocked u f phase (t' + p) (inverted rest)) from rfl, hpar, rc5Parse,
      rc5_inverted_parse w hw _ (by rcases hws with rfl | rfl <;> simp [inverted])]
    rcases hws with rfl | rfl
    · simp [inverted]
    · by_cases hall : w = 0x3FFF
      · simp [inverted, hall, oks, Res.map]
      · rw [if_neg (fun h => hall h.1), if_neg (fun h => hall h.1)]
        rfl
  rw [he]
  cases tail with
  | none =>
    refine ⟨false, p, inverted evs', rfl, hgap, fun g t' => ?_⟩
    rw [main evs' [] (.inl rfl) (by simpa using htm) g t']
    simp
  | some x =>
    refine ⟨false, p, inverted (evs' ++ [(false, x)]), rfl, hgap, fun g t' => ?_⟩
    have hT : Timed (fun x n => Near u j (889 * n) x) (evs' ++ [(false, x)]) (edgesFrom true 1 (rc5Tail w 13) ++ [(false, 1)]) :=
      timed_append htm ⟨rfl, htl x rfl, trivial⟩
    rw [main _ [(false, 1)] (.inr rfl) hT g t']
    simp

theorem rc6_brief {t : Target} {m : Mono} (hm : m = Mono.u32 ∨ m = Mono.u64) {f : Nat} (hlo : 20000 ≤ f)
    (hf : f < 2 ^ 32) {tbl : PulseSpans} (htbl : rc6Spans t m f = some tbl) {u : Nat} (hu : 0 < u) {j : Nat} (hj : j ≤ 20)
    (phase t' x n : Nat) (hn : n ≤ 3) (hx : Near u j (444 * n) x) :
    tbl.get (reading u f phase (t' + x) - reading u f phase t') ≠ some 5 := by
  refine kind_rejects (k := .rc6) hm hf htbl (i := 5) (l := 2664) (tol := 12) rfl (.inr ?_)
  obtain ⟨hb, -⟩ := reading_bounds hu f phase t' x
  generalize reading u f phase (t' + x) - reading u f phase t' = d at *
  have a : 100000000 * d ≤ 159840 * f + 100000000 := by
    refine Nat.le_of_mul_le_mul_right (c := u) ?_ hu
    have h1 : (100 + j) * (444 * n) ≤ 159840 :=
      Nat.le_trans (Nat.mul_le_mul (show 100 + j ≤ 120 by omega) (show 444 * n ≤ 1332 by omega)) (by decide)
    have h2 := Nat.mul_le_mul_right f (Nat.le_trans hx.2 (Nat.mul_le_mul_right u h1))
    have e1 : 100000000 * x * f = 100000000 * (x * f) := by ac_rfl
    have e2 : 159840 * u * f = 159840 * f * u := by ac_rfl
    have e3 : 100000000 * d * u = 100000000 * (u * d) := by ac_rfl
    rw [e1, e2] at h2
    rw [Nat.add_mul, e3]
    omega
  omega

/-- Turned over, an RC6 transmission has no leader. -/
theorem rc6_inverted_unled {t : Target} {m : Mono} (hm : m = Mono.u32 ∨ m = Mono.u64) {f : Nat} (hlo : 20000 ≤ f)
    (hf : f < 2 ^ 32) {tbl : PulseSpans} (htbl : rc6Spans t m f = some tbl) {u : Nat} (hu : 0 < u) {j : Nat} (hj : j ≤ 20)
    (phase t' : Nat) {es ws : List (Bool × Nat)} (hws : ∀ w ∈ ws, w.1 = true → w.2 ≤ 3)
    (h : Timed (fun x n => Near u j (444 * n) x) es ws) :
    (false, some 6) ∉ halfEdges tbl (clocked u f phase t' (inverted es)) := by
  induction es generalizing ws t' with
  | nil => simp [halfEdges, clocked, inverted]
  | cons e es ih =>
    cases ws with
    | nil => exact h.elim
    | cons w ws =>
      obtain ⟨h1, h2, h3⟩ := h
      obtain ⟨b, x⟩ := e
      obtain ⟨b', n⟩ := w
      dsimp only at h1 h2
      subst h1
      have hrest := ih (t' + x) (fun w hw => hws w (by simp [hw])) h3
      rw [inverted, List.map_cons, clocked, halfEdges, List.map_cons, List.mem_cons, not_or]
      refine ⟨fun hh => ?_, hrest⟩
      rw [Prod.mk.injEq] at hh
      obtain ⟨hb, hg⟩ := hh
      have hb : b = true := by simpa using hb.symm
      dsimp only at hg
      rcases hq : tbl.get (reading u f phase (t' + x) - reading u f phase t') with _ | q
      · rw [hq] at hg; cases hg
      · rw [hq, Option.map_some, Option.some.injEq] at hg
        exact rc6_brief hm hlo hf htbl hu hj phase t' x n (hws (b, n) (by simp) hb) h2 (by rw [hq]; congr 1; omega)

theorem rc6_inverted_of (t : Target) (hus : 16 ≤ t.usizeBits) (f j : Nat) (hlo : 20000 ≤ f) (hf : f < 2 ^ 32) (m : Mono)
    (hm : m = Mono.u32 ∨ m = Mono.u64) (tbl : PulseSpans) (htbl : rc6Spans t m f = some tbl) (hj : j ≤ 20)
    (conv : Rc6Command → K) (u : Nat) (hu : 0 < u) (phase : Nat) (w : BitVec 16) (toggle : Bool)
    (evs : List (Bool × Nat)) (tail : Option Nat) (hsent : SentApart u j 444 (rc6Edges w toggle) evs tail) :
    ∃ b p es, inverted (withTail evs tail) = (b, p) :: es ∧
      (∀ t, Gap tbl (reading u f phase (t + p) - reading u f phase t)) ∧
      ∀ g t', (results (rc6Decoder t tbl) conv ((b, g) :: clocked u f phase (t' + p) es)).map said = some [] := by
  obtain ⟨⟨p, n, evs', edges', he, hed, htm⟩, htl, hp⟩ := hsent
  rw [he] at hp
  have hgap : ∀ t', Gap tbl (reading u f phase (t' + p) - reading u f phase t') :=
    fun t' => long_gap hm hlo hf .rc6 (fun i l tol hi => by
      have : ∀ x ∈ Kind.symbols .rc6, (100 + x.2) * x.1 ≤ 300000 := by decide
      exact this (l, tol) (List.mem_of_getElem? hi)) htbl hu phase t' p (hp _ rfl)
  rw [rc6_split w toggle, List.cons.injEq] at hed
  have hed := hed.2
  have hlong : ∀ e ∈ edges', e.1 = true → e.2 ≤ 3 := by
    intro e h hb
    rw [← hed] at h
    simp only [List.mem_cons] at h
    rcases h with rfl | rfl | rfl | rfl | rfl | rfl | h
    · cases hb
    · decide
    · decide
    · decide
    · decide
    · decide
    · exact rc6Behind_len w toggle e h
  have hnum : edges'.length ≤ 100 := by
    have h1 := edgesFrom_length (!toggle) 2 (rc6Tail w 16)
    have h2 : (rc6Tail w 16).length = 32 := rfl
    have h3 : ((rc6Head 0 toggle).drop 6).length ≤ 20 := by cases toggle <;> decide
    rw [← hed, rc6Behind]
    simp only [List.length_cons, List.length_append]
    omega
  have hl8 : tbl.spans.length ≤ 8 := by
    rw [rc6Spans_eq hm t hf, Option.some.injEq] at htbl
    subst htbl
    simp [rc6Table]
  have hpow : 2 ^ 16 ≤ 2 ^ t.usizeBits := Nat.pow_le_pow_right (by decide) hus
  have main : ∀ (rest ws : List (Bool × Nat)), ws.length ≤ 1 → (∀ w ∈ ws, w.1 = true → w.2 ≤ 3) →
      Timed (fun x n => Near u j (444 * n) x) rest (edges' ++ ws) → ∀ g t',
      (results (rc6Decoder t tbl) conv ((false, g) :: clocked u f phase (t' + p) (inverted rest))).map said = some [] := by
    intro rest ws hws1 hws hT g t'
    have hl := Infrared.Timed.length hT
    rw [List.length_append] at hl
    obtain ⟨o, ho⟩ := Option.ne_none_iff_exists'.mp (C30_rc6_no_panic t hus tbl hl8 conv
      ((false, g) :: clocked u f phase (t' + p) (inverted rest)) (.inr (by
        rw [List.length_cons, clocked_length, inverted, List.length_map]; omega)))
    have hun := rc6_inverted_unled hm hlo hf htbl hu hj phase (t' + p) (fun w hw => by
      rcases List.mem_append.mp hw with h | h
      · exact hlong w h
      · exact hws w h) hT
    unfold halfEdges at hun
    rw [ho, Option.map_some, C67_rc6 t hus tbl hl8 conv _ o ho, halfEdges, List.map_cons, rc6Parse,
      rc6Parse_unled _ _ (Nat.le_refl _) hun]
    rfl
  rw [he]
  cases tail with
  | none => exact ⟨false, p, inverted evs', rfl, hgap, main evs' [] (by simp) (by simp) (by simpa using htm)⟩
  | some x =>
    exact ⟨false, p, inverted (evs' ++ [(false, x)]), rfl, hgap,
      main _ [(false, 1)] (by simp) (by simp) (timed_append htm ⟨rfl, htl x rfl, trivial⟩)⟩

/-! ## The theorems -/

/-- The first event of a polled line of the wrong polarity tells nothing. -/
theorem polled_inverted_of {D : Decoder C} {conv : C → K} {tbl : PulseSpans} {u f phase : Nat} (hu : 0 < u)
    (hph : phase < u) {line : List (Bool × Nat)} (hch : Changes false line) (hmin : ∀ e ∈ line, u ≤ e.2 * f)
    (hmax : ∀ e ∈ line, e.2 * f / u + 1 < 2 ^ 32) (n : Nat) (hn : reading u f phase (duration line) < n)
    (hforget : ∀ (r : Receiver D) (e : Ev), Gap tbl e.2 → ∀ after,
      (r.run _ conv (e :: after)).map Prod.snd = results D conv (e :: after))
    (hgap : ∀ e, line.head? = some e → Gap tbl (reading u f phase (0 + e.2) - reading u f phase 0))
    (hone : (results D conv [(true, 1)]).map said = some []) :
    (pollRun D conv (polled u f phase ((true, 0) :: inverted line) n)).map said =
      (results D conv (clocked u f phase 0 (inverted line))).map said := by
  rw [polled_inverted D conv hu hph hch hmin hmax n hn]
  obtain ⟨o, ho, hone⟩ := Option.map_eq_some_iff.mp hone
  have := results_append_gap D conv ho (clocked u f phase 0 (inverted line)) (fun r => by
    rcases line with _ | ⟨⟨b, p⟩, es⟩
    · rfl
    · exact hforget r _ (hgap _ rfl) _)
  rw [List.singleton_append] at this
  rw [this, Option.map_map]
  congr 1
  funext o'
  rw [Function.comp, said_append, hone, List.nil_append]

/-- **C91**, RC5: at the wrong polarity a receiver reports only the commands whose bits are all ones, and those rightly
(provided that the line falls again after the last bit, which is what ends the last half-bit at this polarity). -/
theorem C91_rc5 (t : Target) (hus : 16 ≤ t.usizeBits) (f j : Nat) (hlo : 20000 ≤ f) (hf : f < 2 ^ 32) (m : Mono)
    (hm : m = Mono.u32 ∨ m = Mono.u64) (tbl : PulseSpans) (htbl : rc5Spans t m f = some tbl)
    (hc : coversAll tbl f j rc5Lengths = true) (conv : Rc5Command → K) (u : Nat) (hu : 0 < u) (phase t0 : Nat)
    (items : List (BitVec 14 × List (Bool × Nat) × Option Nat))
    (hok : ∀ i ∈ items, i.1.getLsbD 13 = true ∧ SentApart u j 889 (rc5Edges i.1) i.2.1 i.2.2) :
    (results (rc5Decoder t tbl) conv
        (clocked u f phase t0 (inverted (items.flatMap fun i => withTail i.2.1 i.2.2)))).map said =
      some (oks ((items.filter fun i => i.1 = 0x3FFF && i.2.2.isSome).map fun i =>
        conv (Rc5Command.unpack (i.1.setWidth 16)))) := by
  have h := (pieces_results (rc5Decoder t tbl) conv tbl u f phase (C29_rc5_gap_forgets t tbl conv)
    (fun a : BitVec 14 × Bool =>
      if a.1 = 0x3FFF ∧ a.2 then oks [conv (Rc5Command.unpack (a.1.setWidth 16))] else [])
    (items.map fun i => ((i.1, i.2.2.isSome), inverted (withTail i.2.1 i.2.2), none)) (by
      intro i hi
      obtain ⟨i', hi', rfl⟩ := List.mem_map.mp hi
      obtain ⟨b, p, es, h1, h2, h3⟩ := rc5_inverted_of t hus f j hlo hf m hm tbl htbl hc conv u hu phase i'.1
        (hok i' hi').1 i'.2.1 i'.2.2 (hok i' hi').2
      exact ⟨b, p, es, h1, h2, h3⟩)).1 t0
  rw [inverted_flatMap items (fun a b => (a, b))] at h
  rw [h]
  congr 1
  clear h hok
  induction items with
  | nil => rfl
  | cons i items ih =>
    rw [List.map_cons, List.flatMap_cons, ih, List.filter_cons]
    by_cases hi : i.1 = 0x3FFF ∧ i.2.2.isSome = true
    · simp [hi, oks]
    · rw [if_neg hi, if_neg (by simpa using hi)]
      rfl

/-- **C91**, RC6: at the wrong polarity a receiver reports nothing. -/
theorem C91_rc6 (t : Target) (hus : 16 ≤ t.usizeBits) (f : Nat) (hlo : 20000 ≤ f) (hf : f < 2 ^ 32) (m : Mono)
    (hm : m = Mono.u32 ∨ m = Mono.u64) (tbl : PulseSpans) (htbl : rc6Spans t m f = some tbl) (conv : Rc6Command → K)
    (u : Nat) (hu : 0 < u) (j : Nat) (hj : j ≤ 20) (phase t0 : Nat)
    (items : List (Rc6Command × List (Bool × Nat) × Option Nat))
    (hok : ∀ i ∈ items, SentApart u j 444 (rc6Edges (i.1.addr ++ i.1.cmd) i.1.toggle) i.2.1 i.2.2) :
    (results (rc6Decoder t tbl) conv
        (clocked u f phase t0 (inverted (items.flatMap fun i => withTail i.2.1 i.2.2)))).map said = some [] := by
  have h := (pieces_results (rc6Decoder t tbl) conv tbl u f phase (C29_rc6_gap_forgets t tbl conv)
    (fun _ : Rc6Command × Bool => [])
    (items.map fun i => ((i.1, i.2.2.isSome), inverted (withTail i.2.1 i.2.2), none)) (by
      intro i hi
      obtain ⟨i', hi', rfl⟩ := List.mem_map.mp hi
      exact rc6_inverted_of t hus f j hlo hf m hm tbl htbl hj conv u hu phase _ _ i'.2.1 i'.2.2 (hok i' hi'))).1 t0
  rw [inverted_flatMap items (fun a b => (a, b))] at h
  rw [h]
  simp

/-- The first pause of a line of transmissions is a gap. -/
theorem head_gap {tbl : PulseSpans} {u f phase : Nat} {A : Type} {items : List (A × List (Bool × Nat) × Option Nat)}
    (h : ∀ i ∈ items, ∃ b p es, inverted (withTail i.2.1 i.2.2) = (b, p) :: es ∧
      ∀ t, Gap tbl (reading u f phase (t + p) - reading u f phase t)) (e : Bool × Nat)
    (he : (items.flatMap fun i => withTail i.2.1 i.2.2).head? = some e) :
    Gap tbl (reading u f phase (0 + e.2) - reading u f phase 0) := by
  cases items with
  | nil => cases he
  | cons i items =>
    obtain ⟨b, p, es, h1, h2⟩ := h i (by simp)
    rw [List.flatMap_cons] at he
    rcases hw : withTail i.2.1 i.2.2 with _ | ⟨e', es'⟩
    · rw [hw] at h1; cases h1
    · rw [hw, inverted, List.map_cons, List.cons.injEq, Prod.mk.injEq] at h1
      rw [hw, List.cons_append, List.head?_cons, Option.some.injEq] at he
      subst he
      rw [h1.1.2]
      exact h2 0

/-- **C91**, RC5, polled. -/
theorem C91_rc5_polled (t : Target) (hus : 16 ≤ t.usizeBits) (f j : Nat) (hlo : 20000 ≤ f) (hf : f < 2 ^ 32)
    (tbl : PulseSpans) (htbl : rc5Spans t Mono.u32 f = some tbl) (hc : coversAll tbl f j rc5Lengths = true)
    (conv : Rc5Command → K) (u : Nat) (hu : 0 < u) (phase : Nat) (hph : phase < u)
    (items : List (BitVec 14 × List (Bool × Nat) × Option Nat))
    (hok : ∀ i ∈ items, i.1.getLsbD 13 = true ∧ SentApart u j 889 (rc5Edges i.1) i.2.1 i.2.2)
    (hch : Changes false (items.flatMap fun i => withTail i.2.1 i.2.2))
    (hmin : ∀ e ∈ items.flatMap fun i => withTail i.2.1 i.2.2, u ≤ e.2 * f)
    (hmax : ∀ e ∈ items.flatMap fun i => withTail i.2.1 i.2.2, e.2 * f / u + 1 < 2 ^ 32)
    (n : Nat) (hn : reading u f phase (duration (items.flatMap fun i => withTail i.2.1 i.2.2)) < n) :
    (pollRun (rc5Decoder t tbl) conv
        (polled u f phase ((true, 0) :: inverted (items.flatMap fun i => withTail i.2.1 i.2.2)) n)).map said =
      some (oks ((items.filter fun i => i.1 = 0x3FFF && i.2.2.isSome).map fun i =>
        conv (Rc5Command.unpack (i.1.setWidth 16)))) := by
  rw [polled_inverted_of (tbl := tbl) hu hph hch hmin hmax n hn (C29_rc5_gap_forgets t tbl conv)
    (head_gap fun i hi => by
      obtain ⟨b, p, es, h1, h2, -⟩ := rc5_inverted_of t hus f j hlo hf Mono.u32 (.inl rfl) tbl htbl hc conv u hu phase i.1
        (hok i hi).1 i.2.1 i.2.2 (hok i hi).2
      exact ⟨b, p, es, h1, h2⟩) ?_]
  · exact C91_rc5 t hus f j hlo hf Mono.u32 (.inl rfl) tbl htbl hc conv u hu phase 0 items hok
  · have hl : tbl.spans.length ≤ 8 := by
      rw [rc5Spans_eq (.inl rfl) t hf, Option.some.injEq] at htbl
      subst htbl
      simp [rc5Table]
    have hpow : 2 ^ 16 ≤ 2 ^ t.usizeBits := Nat.pow_le_pow_right (by decide) hus
    obtain ⟨o, ho⟩ := Option.ne_none_iff_exists'.mp (C30_rc5_no_panic t hus tbl hl conv [(true, 1)] (.inr (by
      rw [List.length_singleton]; omega)))
    rw [ho, Option.map_some, C67_rc5 t hus tbl hl conv _ o ho]
    cases h : tbl.get 1 <;> simp [halfEdges, h, rc5Parse, midEdges]

/-- **C91**, RC6, polled. -/
theorem C91_rc6_polled (t : Target) (hus : 16 ≤ t.usizeBits) (f : Nat) (hlo : 20000 ≤ f) (hf : f < 2 ^ 32)
    (tbl : PulseSpans) (htbl : rc6Spans t Mono.u32 f = some tbl) (conv : Rc6Command → K)
    (u : Nat) (hu : 0 < u) (j : Nat) (hj : j ≤ 20) (phase : Nat) (hph : phase < u)
    (items : List (Rc6Command × List (Bool × Nat) × Option Nat))
    (hok : ∀ i ∈ items, SentApart u j 444 (rc6Edges (i.1.addr ++ i.1.cmd) i.1.toggle) i.2.1 i.2.2)
    (hch : Changes false (items.flatMap fun i => withTail i.2.1 i.2.2))
    (hmin : ∀ e ∈ items.flatMap fun i => withTail i.2.1 i.2.2, u ≤ e.2 * f)
    (hmax : ∀ e ∈ items.flatMap fun i => withTail i.2.1 i.2.2, e.2 * f / u + 1 < 2 ^ 32)
    (n : Nat) (hn : reading u f phase (duration (items.flatMap fun i => withTail i.2.1 i.2.2)) < n) :
    (pollRun (rc6Decoder t tbl) conv
        (polled u f phase ((true, 0) :: inverted (items.flatMap fun i => withTail i.2.1 i.2.2)) n)).map said =
      some [] := by
  rw [polled_inverted_of (tbl := tbl) hu hph hch hmin hmax n hn (C29_rc6_gap_forgets t tbl conv)
    (head_gap fun i hi => by
      obtain ⟨b, p, es, h1, h2, -⟩ := rc6_inverted_of t hus f j hlo hf Mono.u32 (.inl rfl) tbl htbl hj conv u hu phase _ _
        i.2.1 i.2.2 (hok i hi)
      exact ⟨b, p, es, h1, h2⟩) ?_]
  · exact C91_rc6 t hus f hlo hf Mono.u32 (.inl rfl) tbl htbl conv u hu j hj phase 0 items hok
  · have hl : tbl.spans.length ≤ 8 := by
      rw [rc6Spans_eq (.inl rfl) t hf, Option.some.injEq] at htbl
      subst htbl
      simp [rc6Table]
    have hpow : 2 ^ 16 ≤ 2 ^ t.usizeBits := Nat.pow_le_pow_right (by decide) hus
    obtain ⟨o, ho⟩ := Option.ne_none_iff_exists'.mp (C30_rc6_no_panic t hus tbl hl conv [(true, 1)] (.inr (by
      rw [List.length_singleton]; omega)))
    rw [ho, Option.map_some, C67_rc6 t hus tbl hl conv _ o ho]
    cases h : tbl.get 1 <;> simp [halfEdges, h, rc6Parse, rc6Frame, missed]

/-! ## Non-vacuity -/

theorem exact_near (j l : Nat) : Near 1000000000 j l (1000 * l) := by
  have h1 : (100 - j) * l ≤ 100 * l := Nat.mul_le_mul_right _ (by omega)
  have h2 : 100 * l ≤ (100 + j) * l := Nat.mul_le_mul_right _ (by omega)
  unfold Near
  omega

theorem exact_timed_near (j U : Nat) (es : List (Bool × Nat)) :
    Timed (fun x n => Near 1000000000 j (U * n) x) (es.map fun e => (e.1, 1000 * (U * e.2))) es := by
  induction es with
  | nil => trivial
  | cons e es ih => exact ⟨rfl, exact_near _ _, ih⟩

/-- Two RC5 commands, sent exactly, each after a pause of 30 ms; the bits of the second are all ones. -/
def twoRc5 : List (BitVec 14 × List (Bool × Nat) × Option Nat) :=
  [(0x3001, (true, 30000000) :: (rc5Edges 0x3001).tail.map fun e => (e.1, 1000 * (889 * e.2)), some 889000),
    (0x3FFF, (true, 30000000) :: (rc5Edges 0x3FFF).tail.map fun e => (e.1, 1000 * (889 * e.2)), some 889000)]

/-- A polled RC5 receiver on the wrong polarity: the second one only. -/
example (t : Target) (hus : 16 ≤ t.usizeBits) (phase : Nat) (hp : phase < 1000000000) :
    (pollRun (rc5Decoder t (rc5Table 40000)) id
      (polled 1000000000 40000 phase ((true, 0) :: inverted (twoRc5.flatMap fun i => withTail i.2.1 i.2.2)) 10000)).map
        said = some [.ok (some ⟨31, 63, 3, true⟩)] := by
  rw [C91_rc5_polled t hus 40000 5 (by decide) (by decide) _ (rc5Spans_eq (.inl rfl) t (by decide)) (by decide +kernel) id
    1000000000 (by decide) phase hp twoRc5 ?_ (by decide +kernel) (by decide +kernel) (by decide +kernel) _ ?_]
  · decide +kernel
  · intro i hi
    simp only [twoRc5, List.mem_cons, List.not_mem_nil, or_false] at hi
    rcases hi with rfl | rfl
    · exact ⟨by decide, ⟨_, 1, _, _, rfl, by decide +kernel, exact_timed_near 5 889 (rc5Edges 0x3001).tail⟩,
        by intro x hx; cases hx; exact exact_near 5 889, by intro e he; cases he; decide⟩
    · exact ⟨by decide, ⟨_, 1, _, _, rfl, by decide +kernel, exact_timed_near 5 889 (rc5Edges 0x3FFF).tail⟩,
        by intro x hx; cases hx; exact exact_near 5 889, by intro e he; cases he; decide⟩
  · have hd : duration (twoRc5.flatMap fun i => withTail i.2.1 i.2.2) ≤ 200000000 := by decide +kernel
    unfold reading
    omega

/-- An RC6 command, sent exactly twice, each time after a pause of 30 ms. -/
def twoRc6 : List (Rc6Command × List (Bool × Nat) × Option Nat) :=
  [(⟨70, 2, true⟩, (true, 30000000) :: (nominalRc6 ⟨70, 2, true⟩).tail, some 444000),
    (⟨70, 2, true⟩, (true, 30000000) :: (nominalRc6 ⟨70, 2, true⟩).tail, some 444000)]

/-- A polled RC6 receiver on the wrong polarity misses both. -/
example (t : Target) (hus : 16 ≤ t.usizeBits) (phase : Nat) (hp : phase < 1000000000) :
    (pollRun (rc6Decoder t (rc6Table 40000)) id
      (polled 1000000000 40000 phase ((true, 0) :: inverted (twoRc6.flatMap fun i => withTail i.2.1 i.2.2)) 10000)).map
        said = some [] := by
  refine C91_rc6_polled t hus 40000 (by decide) (by decide) _ (rc6Spans_eq (.inl rfl) t (by decide)) id
    1000000000 (by decide) 5 (by decide) phase hp twoRc6 ?_ (by decide +kernel) (by decide +kernel) (by decide +kernel)
    _ ?_
  · intro i hi
    have hfr : ∀ p, ManchesterFrame (fun x n => Near 1000000000 5 (444 * n) x)
        (rc6Edges ((70#8 : BitVec 8) ++ (2#8 : BitVec 8)) true) ((true, p) :: (nominalRc6 ⟨70, 2, true⟩).tail) := by
      intro p
      refine ⟨p, 0, _, _, rfl, rc6_split _ _, ?_⟩
      rw [nominalRc6]
      dsimp only
      rw [rc6_split]
      exact exact_timed_near 5 444 _
    simp only [twoRc6, List.mem_cons, List.not_mem_nil, or_false] at hi
    rcases hi with rfl | rfl
    · exact ⟨hfr _, by intro x hx; cases hx; exact exact_near 5 444, by intro e he; cases he; decide⟩
    · exact ⟨hfr _, by intro x hx; cases hx; exact exact_near 5 444, by intro e he; cases he; decide⟩
  · have hd : duration (twoRc6.flatMap fun i => withTail i.2.1 i.2.2) ≤ 200000000 := by decide +kernel
    unfold reading
    omega

end Infrared
