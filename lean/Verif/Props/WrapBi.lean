import Verif.Spec.WrapBi
import Verif.Props.Wrap
import Verif.Props.HurtRc6

/-!
# C99: a counter that wraps around, and the Manchester codes
-/

namespace Infrared

open Spec

variable {A C K : Type}

/-! ## What is measured -/

/-- What the receiver takes the intervals for. -/
def gaugedEvs (u f phase w : Nat) : Nat → List (Bool × Nat) → List Ev
  | _, [] => []
  | t, (b, x) :: es => (b, gauged u f phase w t x) :: gaugedEvs u f phase w (t + x) es

theorem gaugedEvs_append (u f phase w : Nat) (a b : List (Bool × Nat)) (t : Nat) :
    gaugedEvs u f phase w t (a ++ b) = gaugedEvs u f phase w t a ++ gaugedEvs u f phase w (t + total a) b := by
  induction a generalizing t with
  | nil => rfl
  | cons e a ih => rw [List.cons_append, gaugedEvs, gaugedEvs, ih, total_cons, List.cons_append, Nat.add_assoc]

theorem gaugedEvs_length (u f phase w : Nat) (es : List (Bool × Nat)) (t : Nat) :
    (gaugedEvs u f phase w t es).length = es.length := by
  induction es generalizing t with
  | nil => rfl
  | cons e es ih => rw [gaugedEvs, List.length_cons, List.length_cons, ih]

theorem elapsed_edges (u f phase w : Nat) (es : List (Bool × Nat)) (t : Nat)
    (h : ∀ e ∈ es, ∀ t, reading u f phase (t + e.2) - reading u f phase t < 2 ^ w) :
    elapsed (reading u f phase t % 2 ^ w) (stamps u f phase w t es) = gaugedEvs u f phase w t es := by
  induction es generalizing t with
  | nil => rfl
  | cons e es ih =>
    obtain ⟨b, x⟩ := e
    rw [stamps, elapsed, gaugedEvs, ih _ (fun e he => h e (by simp [he])),
      mod_elapsed (reading_mono u f phase t x) (h (b, x) (by simp) t)]
    rfl

theorem gaugedEvs_same {u f phase w : Nat} (es : List (Bool × Nat)) (t : Nat)
    (h : laps u f phase w t = laps u f phase w (t + total es)) :
    gaugedEvs u f phase w t es = clocked u f phase t es ∧ wrapEdge u f phase w t es = none := by
  induction es generalizing t with
  | nil => exact ⟨rfl, rfl⟩
  | cons e es ih =>
    obtain ⟨b, x⟩ := e
    rw [total_cons, ← Nat.add_assoc] at h
    have h1 := laps_mono u f phase w t x
    have h2 := laps_mono u f phase w (t + x) (total es)
    dsimp only at h
    obtain ⟨i1, i2⟩ := ih (t + x) (by omega)
    rw [gaugedEvs, clocked, wrapEdge, i1, i2]
    dsimp only
    rw [if_pos (by omega), gauged, if_pos (by omega)]
    exact ⟨rfl, rfl⟩

/-- Edge `k` is measured as `z` half-bits. -/
def strike (z : Nat) : Nat → List HalfEdge → List HalfEdge
  | _, [] => []
  | 0, e :: es => (e.1, some z) :: es
  | k + 1, e :: es => e :: strike z k es

theorem gaugedEvs_struck {tbl : PulseSpans} {z : Nat} (hz : (tbl.get 0).map (· + 1) = some z) {u f phase w : Nat}
    (es : List (Bool × Nat)) (t : Nat) (hsm : reading u f phase (t + total es) - reading u f phase t < 2 ^ w)
    (h : laps u f phase w t ≠ laps u f phase w (t + total es)) :
    ∃ k, k < es.length ∧ wrapEdge u f phase w t es = some k ∧
      halfEdges tbl (gaugedEvs u f phase w t es) = strike z k (halfEdges tbl (clocked u f phase t es)) := by
  induction es generalizing t with
  | nil => exact absurd rfl h
  | cons e es ih =>
    obtain ⟨b, x⟩ := e
    have hl := laps_step hsm
    rw [total_cons, ← Nat.add_assoc] at h hsm hl
    dsimp only at h hsm hl
    have h1 := laps_mono u f phase w t x
    have h2 := laps_mono u f phase w (t + x) (total es)
    have r1 := reading_mono u f phase t x
    have r2 := reading_mono u f phase (t + x) (total es)
    have hc : ∀ (e : Ev) es, halfEdges tbl (e :: es) = (e.1, (tbl.get e.2).map (· + 1)) :: halfEdges tbl es :=
      fun _ _ => rfl
    rw [gaugedEvs, clocked, wrapEdge, hc, hc]
    dsimp only
    by_cases he : laps u f phase w t = laps u f phase w (t + x)
    · obtain ⟨k, i1, i2, i3⟩ := ih (t + x) (by omega) (by omega)
      refine ⟨k + 1, by simpa using i1, by rw [if_pos he, i2]; rfl, ?_⟩
      rw [i3, gauged, if_pos he]
      rfl
    · refine ⟨0, by simp, by rw [if_neg he], ?_⟩
      rw [gauged, if_neg he, hz, (gaugedEvs_same es (t + x) (by omega)).1]
      rfl

/-! ## Series -/

/-- What the receiver of a series depends on. -/
structure Struck (tbl : PulseSpans) (u f phase w z : Nat) (parse : List HalfEdge → List (Res C))
    (ans : A → Bool → Option Nat → List (Res C)) (i : A × List (Bool × Nat) × Option Nat) (p : Nat)
    (es : List (Bool × Nat)) (E : List HalfEdge) : Prop where
  eq : withTail i.2.1 i.2.2 = (true, p) :: es
  len : es.length ≤ 400
  gap : ∀ t, Gap tbl (reading u f phase (t + p) - reading u f phase t)
  read : ∀ t, halfEdges tbl (clocked u f phase t es) = E
  short : 2 * (p + total es) * f + u < 2 ^ w * u
  pause : ans i.1 i.2.2.isSome (some 0) = ans i.1 i.2.2.isSome none
  whole : ∀ o, parse ((true, o) :: E) = ans i.1 i.2.2.isSome none
  hit : ∀ o k, k < es.length → parse ((true, o) :: strike z k E) = ans i.1 i.2.2.isSome (some (k + 1))
  idle : ∀ o o' bs, parse ((true, o) :: (E ++ (true, o') :: bs)) =
    ans i.1 i.2.2.isSome none ++ parse ((true, o') :: bs)

theorem short_step {u : Nat} (hu : 0 < u) {f phase w a b : Nat} (ha : 2 * a * f + u < 2 ^ w * u)
    (hb : 2 * b * f + u < 2 ^ w * u) (t : Nat) :
    reading u f phase (t + (a + b)) - reading u f phase t < 2 ^ w := by
  obtain ⟨h, -⟩ := reading_bounds hu f phase t (a + b)
  refine Nat.lt_of_mul_lt_mul_left (a := u) (Nat.lt_of_le_of_lt h ?_)
  rw [Nat.mul_comm u, Nat.add_mul]
  rw [Nat.mul_assoc] at ha hb
  omega

theorem struck_one {tbl : PulseSpans} {u f phase w z : Nat} (hu : 0 < u) (hz : (tbl.get 0).map (· + 1) = some z)
    {parse : List HalfEdge → List (Res C)} {ans : A → Bool → Option Nat → List (Res C)}
    {i : A × List (Bool × Nat) × Option Nat} {p : Nat} {es : List (Bool × Nat)} {E : List HalfEdge}
    (h : Struck tbl u f phase w z parse ans i p es E) (o : Option Nat) (t : Nat) :
    parse ((true, o) :: halfEdges tbl (gaugedEvs u f phase w (t + p) es)) =
      ans i.1 i.2.2.isSome (wrapEdge u f phase w t (withTail i.2.1 i.2.2)) := by
  have hs := laps_step (short_step hu (phase := phase) h.short h.short t)
  have h0 : 2 * 0 * f + u < 2 ^ w * u := Nat.lt_of_le_of_lt (by omega) h.short
  have hs := short_step hu (phase := phase) h.short h0 t
  rw [Nat.add_zero] at hs
  have hl := laps_step hs
  rw [← Nat.add_assoc] at hs hl
  have l1 := laps_mono u f phase w t p
  have l2 := laps_mono u f phase w (t + p) (total es)
  have r1 := reading_mono u f phase t p
  rw [h.eq, wrapEdge]
  dsimp only
  by_cases he : laps u f phase w (t + p) = laps u f phase w (t + p + total es)
  · obtain ⟨e1, e2⟩ := gaugedEvs_same es (t + p) he
    rw [e1, e2, h.read, h.whole]
    split
    · rfl
    · exact h.pause.symm
  · obtain ⟨k, e1, e2, e3⟩ := gaugedEvs_struck hz es (t + p) (by omega) he
    rw [e3, e2, h.read, if_pos (by omega), h.hit _ _ e1]
    rfl

theorem wrapped_series (D : Decoder C) (conv : C → K) {tbl : PulseSpans} {u f phase w z : Nat} (hu : 0 < u)
    (hz : (tbl.get 0).map (· + 1) = some z) {parse : List HalfEdge → List (Res C)}
    {ans : A → Bool → Option Nat → List (Res C)}
    (hrun : ∀ evs, evs.length ≤ 1000 →
      (results D conv evs).map said = some ((parse (halfEdges tbl evs)).map (Res.map conv)))
    (hforget : ∀ (r : Receiver D) (e : Ev), Gap tbl e.2 → ∀ after,
      (r.run _ conv (e :: after)).map Prod.snd = results D conv (e :: after))
    (n : Nat) (items : List (A × List (Bool × Nat) × Option Nat)) (hn : items.length ≤ n)
    (h : ∀ i ∈ items, ∃ p es E, Struck tbl u f phase w z parse ans i p es E) (p : Nat) (es : List (Bool × Nat))
    (hes : (items.flatMap fun i => withTail i.2.1 i.2.2) = (true, p) :: es) (g t : Nat) :
    (results D conv ((true, g) :: gaugedEvs u f phase w (t + p) es)).map said =
      some (((wrapsOf u f phase w t items).flatMap fun x => ans x.1 x.2.1 x.2.2).map (Res.map conv)) := by
  have hc : ∀ (e : Ev) es, halfEdges tbl (e :: es) = (e.1, (tbl.get e.2).map (· + 1)) :: halfEdges tbl es :=
    fun _ _ => rfl
  have step : ∀ (a : List Ev) (rs : List (Res C)) (gp : Nat) (rest : List Ev) (rs' : List (Res C)), a.length ≤ 1000 →
      parse (halfEdges tbl a) = rs → Gap tbl gp →
      (results D conv ((true, gp) :: rest)).map said = some (rs'.map (Res.map conv)) →
      (results D conv (a ++ (true, gp) :: rest)).map said = some ((rs ++ rs').map (Res.map conv)) := by
    intro a rs gp rest rs' ha hp hg hr
    have h1 := hrun a ha
    obtain ⟨o1, h1, h2⟩ := Option.map_eq_some_iff.mp h1
    obtain ⟨o2, h3, h4⟩ := Option.map_eq_some_iff.mp hr
    rw [results_append_gap D conv h1 _ (fun r => hforget r _ hg _), h3, Option.map_some, Option.map_some, said_append, h2,
      h4, hp, List.map_append]
  induction n generalizing items p es g t with
  | zero =>
    rw [List.eq_nil_of_length_eq_zero (Nat.le_zero.mp hn)] at hes
    cases hes
  | succ n ih =>
    cases items with
    | nil => cases hes
    | cons i rest =>
      obtain ⟨p1, es1, E1, s1⟩ := h i (by simp)
      rw [List.flatMap_cons, s1.eq, List.cons_append, List.cons.injEq, Prod.mk.injEq] at hes
      obtain ⟨⟨-, rfl⟩, rfl⟩ := hes
      rw [wrapsOf, List.flatMap_cons]
      dsimp only
      rw [gaugedEvs_append, s1.eq, total_cons, ← Nat.add_assoc, ← s1.eq]
      have hone := fun o => struck_one hu hz s1 o t
      cases rest with
      | nil =>
        rw [List.flatMap_nil, gaugedEvs, List.append_nil, wrapsOf, List.flatMap_nil, List.append_nil,
          hrun _ (by have := s1.len; simp only [List.length_cons, gaugedEvs_length]; omega), hc, hone]
      | cons i2 rest2 =>
        obtain ⟨p2, es2, E2, s2⟩ := h i2 (by simp)
        have hR : ((i2 :: rest2).flatMap fun i => withTail i.2.1 i.2.2) =
            (true, p2) :: (es2 ++ rest2.flatMap fun i => withTail i.2.1 i.2.2) := by
          rw [List.flatMap_cons, s2.eq, List.cons_append]
        have hl : 1 ≤ n := by simp only [List.length_cons] at hn; omega
        dsimp only
        by_cases he : laps u f phase w (t + p1 + total es1) = laps u f phase w (t + p1 + total es1 + p2)
        · rw [hR, gaugedEvs, gauged, if_pos he, ← List.cons_append]
          refine step _ _ _ _ _ (by have := s1.len; simp only [List.length_cons, gaugedEvs_length]; omega) ?_ (s2.gap _) ?_
          · rw [hc, hone]
          · exact ih _ (by simpa using hn) (fun i hi => h i (by simp [hi])) _ _ hR _ _
        · have hp12 := laps_step (short_step hu (phase := phase) s1.short s2.short t)
          have etime : t + (p1 + total es1 + (p2 + total es2)) = t + p1 + total es1 + p2 + total es2 := by omega
          rw [etime] at hp12
          have l1 := laps_mono u f phase w t p1
          have l2 := laps_mono u f phase w (t + p1) (total es1)
          have l3 := laps_mono u f phase w (t + p1 + total es1) p2
          have l4 := laps_mono u f phase w (t + p1 + total es1 + p2) (total es2)
          have w1 : wrapEdge u f phase w t (withTail i.2.1 i.2.2) = none := by
            rw [s1.eq, wrapEdge]
            dsimp only
            rw [if_pos (by omega), (gaugedEvs_same es1 (t + p1) (by omega)).2]
            rfl
          have w2 : wrapEdge u f phase w (t + p1 + total es1) (withTail i2.2.1 i2.2.2) = some 0 := by
            rw [s2.eq, wrapEdge, if_neg he]
          have e1 := (gaugedEvs_same (u := u) (f := f) (phase := phase) (w := w) es1 (t + p1) (by omega)).1
          have e2 := (gaugedEvs_same (u := u) (f := f) (phase := phase) (w := w) es2 (t + p1 + total es1 + p2) (by omega)).1
          have hA : parse (halfEdges tbl ((true, g) :: (gaugedEvs u f phase w (t + p1) es1 ++
              (true, gauged u f phase w (t + p1 + total es1) p2) ::
                gaugedEvs u f phase w (t + p1 + total es1 + p2) es2))) =
              ans i.1 i.2.2.isSome none ++ ans i2.1 i2.2.2.isSome none := by
            rw [e1, e2, hc, halfEdges_append, hc, s1.read, s2.read, s1.idle, s2.whole]
          have hlenA : ((true, g) :: (gaugedEvs u f phase w (t + p1) es1 ++
              (true, gauged u f phase w (t + p1 + total es1) p2) ::
                gaugedEvs u f phase w (t + p1 + total es1 + p2) es2)).length ≤ 1000 := by
            have := s1.len
            have := s2.len
            simp only [List.length_cons, List.length_append, gaugedEvs_length]
            omega
          rw [hR, wrapsOf, List.flatMap_cons, gaugedEvs, gaugedEvs_append, w1]
          dsimp only
          rw [w2, s2.pause, s2.eq, total_cons]
          dsimp only
          rw [← Nat.add_assoc, ← List.append_assoc]
          cases rest2 with
          | nil =>
            rw [List.flatMap_nil, gaugedEvs, List.append_nil, wrapsOf, List.flatMap_nil, List.append_nil, hrun _ hlenA, hA]
          | cons i3 rest3 =>
            obtain ⟨p3, es3, E3, s3⟩ := h i3 (by simp)
            have hR3 : ((i3 :: rest3).flatMap fun i => withTail i.2.1 i.2.2) =
                (true, p3) :: (es3 ++ rest3.flatMap fun i => withTail i.2.1 i.2.2) := by
              rw [List.flatMap_cons, s3.eq, List.cons_append]
            have hp23 := laps_step (short_step hu (phase := phase) s2.short s3.short (t + p1 + total es1))
            have etime : t + p1 + total es1 + (p2 + total es2 + (p3 + total es3)) =
              t + p1 + total es1 + p2 + total es2 + p3 + total es3 := by omega
            rw [etime] at hp23
            have l5 := laps_mono u f phase w (t + p1 + total es1 + p2 + total es2) p3
            have l6 := laps_mono u f phase w (t + p1 + total es1 + p2 + total es2 + p3) (total es3)
            have hg3 : gauged u f phase w (t + p1 + total es1 + p2 + total es2) p3 =
                reading u f phase (t + p1 + total es1 + p2 + total es2 + p3) -
                  reading u f phase (t + p1 + total es1 + p2 + total es2) := by
              rw [gauged, if_pos (by omega)]
            have key := step _ _ _ _ _ hlenA hA (s3.gap (t + p1 + total es1 + p2 + total es2))
              (ih _ (by simp only [List.length_cons] at hn ⊢; omega) (fun i hi => h i (by simp [hi])) _ _ hR3 _
                (t + p1 + total es1 + p2 + total es2))
            rw [hR3, gaugedEvs, hg3]
            simp only [List.cons_append, List.append_assoc] at key ⊢
            exact key

theorem total_mem {e : Bool × Nat} {es : List (Bool × Nat)} (h : e ∈ es) : e.2 ≤ total es := by
  induction es with
  | nil => cases h
  | cons x es ih =>
    rw [total_cons]
    rcases List.mem_cons.mp h with rfl | h
    · omega
    · have := ih h
      omega

theorem total_take_le (es : List (Bool × Nat)) (k : Nat) : total (es.take k) ≤ total es := by
  induction es generalizing k with
  | nil => simp
  | cons e es ih =>
    cases k with
    | zero => exact Nat.zero_le _
    | succ k =>
      rw [List.take_succ_cons, total_cons, total_cons]
      exact Nat.add_le_add_left (ih k) _

theorem edge_small {u : Nat} (hu : 0 < u) {f phase w : Nat} {es : List (Bool × Nat)} (h : 2 * total es * f + u < 2 ^ w * u)
    {e : Bool × Nat} (he : e ∈ es) (t : Nat) : reading u f phase (t + e.2) - reading u f phase t < 2 ^ w := by
  obtain ⟨z, hz⟩ := Nat.exists_eq_add_of_le (total_mem he)
  have h0 : 2 * 0 * f + u < 2 ^ w * u := Nat.lt_of_le_of_lt (by omega) h
  have := short_step hu (phase := phase) h h0 t
  have r := reading_mono u f phase (t + e.2) z
  rw [Nat.add_zero, hz, ← Nat.add_assoc] at this
  omega

/-- The receiver's intervals. -/
theorem instant_edges {m : Mono} (hm : m = Mono.u32 ∨ m = Mono.u64) (D : Decoder C) (conv : C → K) {u f phase : Nat}
    (t0 x0 : Nat) (b : Bool) (es : List (Bool × Nat))
    (h : ∀ e ∈ es, ∀ t, reading u f phase (t + e.2) - reading u f phase t < 2 ^ m.width) :
    instantRun m D conv (stamps u f phase m.width t0 ((b, x0) :: es)) =
      results D conv ((b, reading u f phase (t0 + x0) % 2 ^ m.width) :: gaugedEvs u f phase m.width (t0 + x0) es) := by
  rw [C35_instant_equiv m hm, stamps, elapsed, if_pos (Nat.zero_le _), Nat.sub_zero, elapsed_edges _ _ _ _ _ _ h]

/-! ## RC5: the parser -/

/-- The lowest `n` bits, most significant first. -/
def bitsFrom {l : Nat} (w : BitVec l) : Nat → List Bool
  | 0 => []
  | n + 1 => w.getLsbD n :: bitsFrom w n

theorem bitsFrom_length {l : Nat} (w : BitVec l) (n : Nat) : (bitsFrom w n).length = n := by
  induction n with
  | zero => rfl
  | succ n ih => rw [bitsFrom, List.length_cons, ih]

theorem read5 (w : BitVec 14) (n : Nat) (b : Bool) (pos : Nat) (hpos : pos % 2 = 0) (rest : List HalfEdge) :
    (midEdges 0 pos n (rightly (edgesFrom b 1 (rc5Tail w n)) ++ rest)).1 = bitsFrom w n ∧
      (midEdges 0 pos n (rightly (edgesFrom b 1 (rc5Tail w n)) ++ rest)).2.2 = rest := by
  induction n generalizing b pos with
  | zero =>
    rw [midEdges]
    exact ⟨rfl, rfl⟩
  | succ n ih =>
    rw [rc5Tail, edgesFrom_bit, bitsFrom]
    generalize w.getLsbD n = v at ih ⊢
    split
    · rw [rightly_cons, rightly_cons, List.cons_append, List.cons_append, midEdges, if_neg (by dsimp only; omega),
        midEdges, if_pos (by dsimp only; omega)]
      obtain ⟨h1, h2⟩ := ih v (pos + 1 + 1) (by omega)
      exact ⟨by rw [h1], h2⟩
    · rw [rightly_cons, List.cons_append, midEdges, if_pos (by dsimp only; omega)]
      obtain ⟨h1, h2⟩ := ih v (pos + 2) (by omega)
      exact ⟨by rw [h1], h2⟩

/-- The bit in whose middle the interval of 2 half-bits before edge `k` ends. -/
def hitBit (w : BitVec 14) : Nat → Bool → Nat → Option Nat
  | 0, _, _ => none
  | n + 1, b, k =>
    if w.getLsbD n = b then if k < 2 then none else hitBit w n (w.getLsbD n) (k - 2)
    else if k = 0 then some n else hitBit w n (w.getLsbD n) (k - 1)

theorem hitBit_eq (w : BitVec 14) (n : Nat) (b : Bool) (k : Nat) :
    hitBit w n b k = if (edgesFrom b 1 (rc5Tail w n))[k]?.map Prod.snd = some 2 then
      some (n - total ((edgesFrom b 1 (rc5Tail w n)).take (k + 1)) / 2) else none := by
  induction n generalizing b k with
  | zero => rfl
  | succ n ih =>
    have key : ∀ (T n : Nat), n + 1 - (2 + T) / 2 = n - T / 2 := fun T n => by omega
    rw [rc5Tail, edgesFrom_bit, hitBit]
    split
    · match k with
      | 0 => rfl
      | 1 => rfl
      | k + 2 =>
        rw [if_neg (by omega), Nat.add_sub_cancel]
        simp only [List.getElem?_cons_succ, List.take_succ_cons, total_cons]
        rw [ih, ← Nat.add_assoc, key]
    · match k with
      | 0 => simp [total]
      | k + 1 =>
        rw [if_neg (by omega), Nat.add_sub_cancel]
        simp only [List.getElem?_cons_succ, List.take_succ_cons, total_cons]
        rw [ih, key]

/-- Without unmeasurable edges everything is used up if bits are missing. -/
theorem midEdges_all (par pos k : Nat) (es : List HalfEdge) (hn : ∀ e ∈ es, e.2 ≠ none)
    (h : (midEdges par pos k es).1.length < k) : (midEdges par pos k es).2.2 = [] := by
  induction es generalizing pos k with
  | nil => cases k <;> rfl
  | cons e es ih =>
    obtain ⟨l, _ | n⟩ := e
    · exact absurd rfl (hn (l, none) (by simp))
    · cases k with
      | zero => simp [midEdges] at h
      | succ k =>
        rw [midEdges] at h ⊢
        split
        · rename_i hp
          rw [if_pos hp] at h
          exact ih _ _ (fun e he => hn e (by simp [he])) (by simpa using h)
        · rename_i hp
          rw [if_neg hp] at h
          exact ih _ _ (fun e he => hn e (by simp [he])) h

theorem rightly_some (es : List (Bool × Nat)) : ∀ e ∈ rightly es, e.2 ≠ none := by
  intro e he h
  obtain ⟨x, -, rfl⟩ := List.mem_map.mp he
  cases h

theorem strike_some {z k : Nat} {es : List HalfEdge} (h : ∀ e ∈ es, e.2 ≠ none) : ∀ e ∈ strike z k es, e.2 ≠ none := by
  induction es generalizing k with
  | nil => cases k <;> simp [strike]
  | cons x es ih =>
    cases k with
    | zero =>
      intro e he
      rcases List.mem_cons.mp he with rfl | he
      · simp
      · exact h e (by simp [he])
    | succ k =>
      intro e he
      rcases List.mem_cons.mp he with rfl | he
      · exact h e (by simp)
      · exact ih (fun e he => h e (by simp [he])) e he

/-- The boundaries between the bits are as many as there are bits only if all are ones and the end is seen. -/
theorem rc5_lapsed (w : BitVec 14) (n : Nat) (b : Bool) {tl : List (Bool × Nat)}
    (htl : tl = [] ∨ tl = [(false, 1)] ∧ (if n = 0 then b = true else w.getLsbD 0 = true)) (pos : Nat) (hpos : pos % 2 = 1) :
    if tl = [(false, 1)] ∧ b = true ∧ ∀ i < n, w.getLsbD i = true then
      (midEdges 0 pos (n + 1) (rightly (edgesFrom b 1 (rc5Tail w n) ++ tl))).1 = List.replicate (n + 1) false ∧
      (midEdges 0 pos (n + 1) (rightly (edgesFrom b 1 (rc5Tail w n) ++ tl))).2.2 = []
    else (midEdges 0 pos (n + 1) (rightly (edgesFrom b 1 (rc5Tail w n) ++ tl))).1.length < n + 1 := by
  induction n generalizing b pos with
  | zero =>
    rw [show edgesFrom b 1 (rc5Tail w 0) = [] from rfl, List.nil_append]
    rcases htl with rfl | ⟨rfl, hb⟩
    · rw [if_neg (by simp)]
      exact Nat.zero_lt_one
    · rw [if_pos rfl] at hb
      rw [if_pos ⟨rfl, hb, by simp⟩, rightly_cons, midEdges, if_pos (by dsimp only; omega)]
      exact ⟨rfl, rfl⟩
  | succ n ih =>
    have htl' : tl = [] ∨ tl = [(false, 1)] ∧ (if n = 0 then w.getLsbD n = true else w.getLsbD 0 = true) := by
      rcases htl with h | ⟨h, h'⟩
      · exact .inl h
      · rw [if_neg (by omega)] at h'
        refine .inr ⟨h, ?_⟩
        split
        · rename_i h0; subst h0; exact h'
        · exact h'
    have ih := fun pos hp => ih (w.getLsbD n) htl' pos hp
    have hb := fun pos k hp => rc5_boundaries w n (w.getLsbD n) htl' pos k hp
    have hall : (∀ i < n + 1, w.getLsbD i = true) ↔ w.getLsbD n = true ∧ ∀ i < n, w.getLsbD i = true := by
      refine ⟨fun h => ⟨h n (by omega), fun i hi => h i (by omega)⟩, fun h i hi => ?_⟩
      rcases Nat.lt_succ_iff_lt_or_eq.mp hi with hi | rfl
      · exact h.2 i hi
      · exact h.1
    rw [rc5Tail, edgesFrom_bit]
    simp only [hall]
    generalize w.getLsbD n = v at ih hb ⊢
    split
    · rename_i hc
      obtain ⟨h1, rfl, rfl, h2⟩ := hc
      rw [if_pos rfl, List.cons_append, List.cons_append, rightly_cons, rightly_cons, midEdges,
        if_pos (by dsimp only; omega), midEdges, if_neg (by dsimp only; omega)]
      have := ih (pos + 1 + 1) (by omega)
      rw [if_pos ⟨h1, rfl, h2⟩] at this
      exact ⟨by rw [this.1]; rfl, this.2⟩
    · rename_i hc
      split
      · rename_i hv
        subst hv
        rw [List.cons_append, List.cons_append, rightly_cons, rightly_cons, midEdges,
          if_pos (by dsimp only; omega), midEdges, if_neg (by dsimp only; omega)]
        have := ih (pos + 1 + 1) (by omega)
        rw [if_neg (fun h => hc ⟨h.1, h.2.1, h.2.1, h.2.2⟩)] at this
        simpa using this
      · rw [List.cons_append, rightly_cons, midEdges, if_neg (by dsimp only; omega)]
        have := hb (pos + 2) (n + 1 + 1) (by omega)
        refine Nat.lt_of_le_of_lt this ?_
        split <;> omega

theorem read5_struck (w : BitVec 14) (n : Nat) (b : Bool) {tl : List (Bool × Nat)}
    (htl : tl = [] ∨ tl = [(false, 1)] ∧ (if n = 0 then b = true else w.getLsbD 0 = true)) (pos : Nat) (hpos : pos % 2 = 0)
    (k : Nat) (M : List Bool × Nat × List HalfEdge)
    (hM : midEdges 0 pos n (strike 3 k (rightly (edgesFrom b 1 (rc5Tail w n) ++ tl))) = M) :
    match hitBit w n b k with
    | none => M.1 = bitsFrom w n ∧ ∀ e ∈ M.2.2, e.1 = false
    | some i => i < n ∧ if tl = [(false, 1)] ∧ ∀ j < i + 1, w.getLsbD j = true then
        M.1 = bitsFrom (w >>> (i + 1) <<< (i + 1)) n ∧ M.2.2 = []
      else M.1.length < n := by
  subst hM
  have hfalse : ∀ k, ∀ e ∈ strike 3 k (rightly tl), e.1 = false := by
    rcases htl with rfl | ⟨rfl, -⟩
    · intro k; cases k <;> simp [rightly, strike]
    · intro k; rcases k with _ | _ | k <;> simp [rightly, strike]
  have hfalse' : ∀ e ∈ rightly tl, e.1 = false := by
    rcases htl with rfl | ⟨rfl, -⟩ <;> simp [rightly]
  induction n generalizing b pos k with
  | zero =>
    rw [show edgesFrom b 1 (rc5Tail w 0) = [] from rfl, List.nil_append, hitBit, midEdges]
    exact ⟨rfl, hfalse k⟩
  | succ n ih =>
    have htl' : tl = [] ∨ tl = [(false, 1)] ∧ (if n = 0 then w.getLsbD n = true else w.getLsbD 0 = true) := by
      rcases htl with h | ⟨h, h'⟩
      · exact .inl h
      · rw [if_neg (by omega)] at h'
        refine .inr ⟨h, ?_⟩
        split
        · rename_i h0; subst h0; exact h'
        · exact h'
    have hmap : ∀ i, i < n → (w >>> (i + 1) <<< (i + 1)).getLsbD n = (decide (n < 14) && w.getLsbD n) := by
      intro i hi
      rw [BitVec.getLsbD_shiftLeft, BitVec.getLsbD_ushiftRight]
      by_cases hn : n < 14
      · rw [show i + 1 + (n - (i + 1)) = n by omega]
        simp [hn, show ¬ n < i + 1 by omega]
      · simp [hn]
    have hge : ¬ n < 14 → w.getLsbD n = false := fun h => BitVec.getLsbD_of_ge w n (by omega)
    have hmap' : ∀ i, i < n → (w >>> (i + 1) <<< (i + 1)).getLsbD n = w.getLsbD n := by
      intro i hi
      rw [hmap i hi]
      by_cases hn : n < 14
      · simp [hn]
      · simp [hn, hge hn]
    have ih := fun pos hp k => ih (w.getLsbD n) htl' pos hp k
    have hr := fun pos hp => read5 w n (w.getLsbD n) pos hp (rightly tl)
    have hlap := fun pos hp => rc5_lapsed w n (w.getLsbD n) htl' pos hp
    have hall : (∀ i < n + 1, w.getLsbD i = true) ↔ w.getLsbD n = true ∧ ∀ i < n, w.getLsbD i = true := by
      refine ⟨fun h => ⟨h n (by omega), fun i hi => h i (by omega)⟩, fun h i hi => ?_⟩
      rcases Nat.lt_succ_iff_lt_or_eq.mp hi with hi | rfl
      · exact h.2 i hi
      · exact h.1
    have next : ∀ (M : List Bool × Nat × List HalfEdge) (k : Nat),
        (match hitBit w n (w.getLsbD n) k with
        | none => M.1 = bitsFrom w n ∧ ∀ e ∈ M.2.2, e.1 = false
        | some i => i < n ∧ if tl = [(false, 1)] ∧ ∀ j < i + 1, w.getLsbD j = true then
            M.1 = bitsFrom (w >>> (i + 1) <<< (i + 1)) n ∧ M.2.2 = []
          else M.1.length < n) →
        match hitBit w n (w.getLsbD n) k with
        | none => w.getLsbD n :: M.1 = bitsFrom w (n + 1) ∧ ∀ e ∈ M.2.2, e.1 = false
        | some i => i < n + 1 ∧ if tl = [(false, 1)] ∧ ∀ j < i + 1, w.getLsbD j = true then
            w.getLsbD n :: M.1 = bitsFrom (w >>> (i + 1) <<< (i + 1)) (n + 1) ∧ M.2.2 = []
          else (w.getLsbD n :: M.1).length < n + 1 := by
      intro M k h
      revert h
      rcases hitBit w n (w.getLsbD n) k with _ | i <;> intro h
      · exact ⟨by rw [h.1]; rfl, h.2⟩
      · obtain ⟨hi, h⟩ := h
        refine ⟨by omega, ?_⟩
        split
        · rename_i hc
          rw [if_pos hc] at h
          exact ⟨by rw [h.1, bitsFrom, hmap' i hi], h.2⟩
        · rename_i hc
          rw [if_neg hc] at h
          simpa using h
    rw [rc5Tail, edgesFrom_bit, hitBit]
    by_cases hv : w.getLsbD n = b
    · rw [if_pos hv, if_pos hv, List.cons_append, List.cons_append, rightly_cons, rightly_cons]
      match k with
      | 0 =>
        rw [if_pos (by omega)]
        dsimp only
        rw [strike, midEdges, if_neg (by omega), midEdges, if_pos (by omega), rightly_append]
        obtain ⟨h1, h2⟩ := hr (pos + 3 + 1) (by omega)
        exact ⟨by rw [h1]; rfl, by rw [h2]; exact hfalse'⟩
      | 1 =>
        rw [if_pos (by omega)]
        dsimp only
        rw [strike, strike, midEdges, if_neg (by omega), midEdges, if_pos (by omega),
          rightly_append]
        obtain ⟨h1, h2⟩ := hr (pos + 1 + 3) (by omega)
        exact ⟨by rw [h1]; rfl, by rw [h2]; exact hfalse'⟩
      | k + 2 =>
        rw [if_neg (by omega), Nat.add_sub_cancel]
        dsimp only
        rw [strike, strike, midEdges, if_neg (by omega), midEdges, if_pos (by omega)]
        exact next _ _ (ih (pos + 1 + 1) (by omega) k)
    · rw [if_neg hv, if_neg hv, List.cons_append, rightly_cons]
      match k with
      | 0 =>
        rw [if_pos rfl]
        dsimp only
        rw [strike, midEdges, if_neg (show ¬ (pos + 3) % 2 = 0 by omega)]
        refine ⟨by omega, ?_⟩
        have := hlap (pos + 3) (by omega)
        simp only [← hall] at this
        split
        · rename_i hc
          rw [if_pos hc] at this
          refine ⟨?_, this.2⟩
          rw [this.1]
          have hz : ∀ m, m ≤ n + 1 → bitsFrom (w >>> (n + 1) <<< (n + 1)) m = List.replicate m false := by
            intro m
            induction m with
            | zero => intro _; rfl
            | succ m ihm =>
              intro hm
              rw [bitsFrom, ihm (by omega), List.replicate_succ, BitVec.getLsbD_shiftLeft]
              simp [show m < n + 1 by omega]
          rw [hz _ (Nat.le_refl _)]
        · rename_i hc
          rwa [if_neg hc] at this
      | k + 1 =>
        rw [if_neg (by omega), Nat.add_sub_cancel]
        dsimp only
        rw [strike, midEdges, if_pos (by omega)]
        exact next _ _ (ih (pos + 2) (by omega) k)

theorem rc5Parse_falling (es : List HalfEdge) (h : ∀ e ∈ es, e.1 = false) : rc5Parse es = [] := by
  induction es with
  | nil => rw [rc5Parse.eq_1]
  | cons e es ih =>
    obtain ⟨b, o⟩ := e
    obtain rfl : b = false := h (b, o) (by simp)
    rw [rc5Parse.eq_2]
    exact ih fun e he => h e (by simp [he])

theorem bitsFrom_range {l : Nat} (w : BitVec l) (n : Nat) : (bitsFrom w n).reverse = (List.range n).map w.getLsbD := by
  induction n with
  | zero => rfl
  | succ n ih => rw [bitsFrom, List.reverse_cons, ih, List.range_succ, List.map_append]; rfl

theorem rc5_word (w : BitVec 14) (hw : w.getLsbD 13 = true) :
    wordOf 16 (true :: bitsFrom w 13).reverse = w.setWidth 16 := by
  rw [← wordOf_wide, ← bitsFrom_range, ← hw]
  rfl

/-- With a wrap-around before one of the edges after the first. -/
theorem rc5_wrapped_parse (w : BitVec 14) (hw : w.getLsbD 13 = true) (o : Option Nat) (k : Nat) {tl : List (Bool × Nat)}
    (htl : tl = [] ∨ tl = [(false, 1)] ∧ w.getLsbD 0 = true) :
    rc5Parse ((true, o) :: strike 3 k (rightly (edgesFrom true 1 (rc5Tail w 13) ++ tl))) =
      rc5Wrapped w (tl = [(false, 1)]) (some (k + 1)) := by
  have hb := read5_struck w 13 true htl 0 rfl k _ rfl
  rw [rc5Parse.eq_3]
  have hall := midEdges_all 0 0 13 (strike 3 k (rightly (edgesFrom true 1 (rc5Tail w 13) ++ tl)))
    (strike_some (rightly_some _))
  generalize midEdges 0 0 13 (strike 3 k (rightly (edgesFrom true 1 (rc5Tail w 13) ++ tl))) = M at hb hall ⊢
  unfold rc5Wrapped longAt
  rw [rc5Edges_eq w hw, Option.bind_some, List.getElem?_cons_succ, List.tail_cons]
  rw [hitBit_eq] at hb
  by_cases he : (edgesFrom true 1 (rc5Tail w 13))[k]?.map Prod.snd = some 2
  · rw [if_pos he] at hb ⊢
    dsimp only at hb ⊢
    have hle : total ((edgesFrom true 1 (rc5Tail w 13)).take (k + 1)) ≤ 26 := by
      rw [← rc5_total w hw]
      exact total_take_le _ _
    have hle : total ((edgesFrom true 1 (rc5Tail w 13)).take (k + 1)) / 2 ≤ 13 := by omega
    generalize total ((edgesFrom true 1 (rc5Tail w 13)).take (k + 1)) / 2 = x at hb hle ⊢
    obtain ⟨hx, hb⟩ := hb
    rw [show 14 - x = 13 - x + 1 by omega]
    generalize 13 - x = i at hx hb ⊢
    simp only [decide_eq_true_eq]
    by_cases hc : tl = [(false, 1)] ∧ ∀ j < i + 1, w.getLsbD j = true
    · rw [if_pos hc] at hb ⊢
      rw [hb.1, bitsFrom_length, if_pos rfl, hb.2, rc5_word]
      · rw [rc5Parse.eq_1]; rfl
      · rw [BitVec.getLsbD_shiftLeft, BitVec.getLsbD_ushiftRight, show i + 1 + (13 - (i + 1)) = 13 by omega, hw]
        simp
        omega
    · rw [if_neg hc] at hb ⊢
      rw [if_neg (by omega), hall hb, rc5Parse.eq_1]
  · rw [if_neg he] at hb ⊢
    dsimp only at hb ⊢
    rw [hb.1, bitsFrom_length, if_pos rfl, rc5_word w hw, rc5Parse_falling _ hb.2]
    rfl

/-- After a transmission the decoder is idle. -/
theorem rc5_then_idle (w : BitVec 14) (hw : w.getLsbD 13 = true) (o o' : Option Nat) (bs : List HalfEdge)
    {tl : List (Bool × Nat)} (htl : tl = [] ∨ tl = [(false, 1)]) :
    rc5Parse ((true, o) :: (rightly (edgesFrom true 1 (rc5Tail w 13) ++ tl) ++ (true, o') :: bs)) =
      oks [Rc5Command.unpack (w.setWidth 16)] ++ rc5Parse ((true, o') :: bs) := by
  rw [rc5Parse.eq_3]
  obtain ⟨h1, h2⟩ := read5 w 13 true 0 rfl (rightly tl ++ (true, o') :: bs)
  rw [rightly_append, List.append_assoc, h1, h2, bitsFrom_length, if_pos rfl, rc5_word w hw]
  rcases htl with rfl | rfl
  · rfl
  · rw [rightly_cons, List.cons_append, rc5Parse.eq_2]
    rfl

theorem spanOf_low_pos {l tol f : Nat} (hl : l ≤ 13500) (ht : tol ≤ 25) (h : 2000000 ≤ l * f) :
    0 < (spanOf l tol f).low := by
  have h1 := scaleVal_ge f hl
  have h2 : 1 ≤ scaleVal l f := by omega
  have h3 : scaleVal l f * tol ≤ scaleVal l f * 25 := Nat.mul_le_mul_left _ ht
  unfold spanOf
  dsimp only
  omega

theorem rc5_get_zero {t : Target} {m : Mono} (hm : m = Mono.u32 ∨ m = Mono.u64) {f : Nat} (hlo : 20000 ≤ f)
    (hf : f < 2 ^ 32) {tbl : PulseSpans} (htbl : rc5Spans t m f = some tbl) :
    (tbl.get 0).map (· + 1) = some 3 := by
  rw [rc5Spans_eq hm t hf, Option.some.injEq] at htbl
  subst htbl
  have h1 := spanOf_low_pos (l := 889) (tol := 12) (f := f) (by decide) (by decide) (by omega)
  have h2 := spanOf_low_pos (l := 1778) (tol := 10) (f := f) (by decide) (by decide) (by omega)
  rw [(get_eq_iff (rc5Table f) 2 0).mpr]
  · rfl
  · refine ⟨⟨⟨0, 0⟩, rfl, Nat.le_refl _, Nat.le_refl _⟩, ?_⟩
    intro j hj s hs
    rcases j with _ | _ | j
    · cases hs; omega
    · cases hs; omega
    · omega

/-! ## RC5: series -/

/-- **C99**, RC5: a receiver that is given the readings of a counter reports the commands of a series of transmissions,
except for those in which the counter wraps around during an interval of 2 half-bits. -/
theorem C99_rc5 (t : Target) (hus : 16 ≤ t.usizeBits) (f j : Nat) (hlo : 20000 ≤ f) (hf : f < 2 ^ 32) (m : Mono)
    (hm : m = Mono.u32 ∨ m = Mono.u64) (tbl : PulseSpans) (htbl : rc5Spans t m f = some tbl)
    (hc : coversAll tbl f j rc5Lengths = true) (conv : Rc5Command → K) (u : Nat) (hu : 0 < u) (phase t0 : Nat)
    (items : List (BitVec 14 × List (Bool × Nat) × Option Nat))
    (hok : ∀ i ∈ items, i.1.getLsbD 13 = true ∧ Complete u j 889 (rc5Edges i.1) i.2.1 i.2.2 ∧
      RestBefore u f m.width i.2.1 i.2.2) :
    (instantRun m (rc5Decoder t tbl) conv
        (stamps u f phase m.width t0 (items.flatMap fun i => withTail i.2.1 i.2.2))).map said =
      some (((wrapsOf u f phase m.width t0 items).flatMap fun x => rc5Wrapped x.1 x.2.1 x.2.2).map (Res.map conv)) := by
  have hgap : ∀ p, 16000 * u ≤ 1000000 * p → ∀ t', Gap tbl (reading u f phase (t' + p) - reading u f phase t') :=
    fun p hp t' => long_gap hm hlo hf .rc5 (fun i l tol hi => by
      have : ∀ x ∈ Kind.symbols .rc5, (100 + x.2) * x.1 ≤ 300000 := by decide
      exact this (l, tol) (List.mem_of_getElem? hi)) htbl hu phase t' p hp
  have hclk := rc5Clock_of_covers (phase := phase) hu hc
  have hget : ∀ t' x n, n = 1 ∨ n = 2 → Near u j (889 * n) x →
      (tbl.get (reading u f phase (t' + x) - reading u f phase t')).map (· + 1) = some n := fun t' x n hn hx =>
    rc5_right_get hm hlo hf htbl hn (hclk t' _ _ hn hx)
  have hitems : ∀ i ∈ items, ∃ p es E, Struck tbl u f phase m.width 3 rc5Parse rc5Wrapped i p es E := by
    rintro ⟨w, evs, tail⟩ hi
    obtain ⟨hw, ⟨⟨p, n0, evs', E, rfl, hedges, hT⟩, htail⟩, h16, hshort⟩ := hok _ hi
    dsimp only at hw hedges htail h16 hshort
    have hlast : ∀ x, tail = some x → Near u j (889 * 1) x := fun x hx => (htail x hx).1
    have hend : tailUnit tail = [] ∨ tailUnit tail = [(false, 1)] ∧ w.getLsbD 0 = true := by
      cases tail with
      | none => exact .inl rfl
      | some x =>
        have h1 := (htail x rfl).2
        have hne : edgesFrom true 1 (rc5Tail w 13) ≠ [] := by
          intro h; have := rc5_total w hw; rw [h] at this; simp [total] at this
        rw [rc5Edges_eq w hw, List.getLast?_cons_of_ne_nil hne, rc5_last w 12 true] at h1
        exact .inr ⟨rfl, by simpa using h1⟩
    have hended : tail.isSome = decide (tailUnit tail = [(false, 1)]) := by cases tail <;> rfl
    rw [rc5Edges_eq w hw, List.cons.injEq] at hedges
    obtain ⟨-, rfl⟩ := hedges
    have hlen := rc5_edges_len w 13 true
    have hl := timed_len hT
    have hl2 : (edgesFrom true 1 (rc5Tail w 13)).length ≤ 26 := by
      have := edgesFrom_length true 1 (rc5Tail w 13)
      have h3 : (rc5Tail w 13).length = 26 := rfl
      omega
    have hl3 := withTail_length evs' tail
    have hpause : rc5Wrapped w tail.isSome (some 0) = oks [Rc5Command.unpack (w.setWidth 16)] := by
      rw [rc5Wrapped, Option.bind_some, longAt, rc5Edges_eq w hw, if_neg (by simp)]
    refine ⟨p, withTail evs' tail, rightly (edgesFrom true 1 (rc5Tail w 13) ++ tailUnit tail), withTail_cons .., by omega,
      hgap p (h16 _ rfl), fun t' => ?_, ?_, hpause, fun o => ?_, fun o k _ => ?_, fun o o' bs => ?_⟩
    · rw [withTail_nil]
      obtain ⟨t2, ht2⟩ := clocked_append_at u f phase evs' (withTail [] tail) t'
      rw [ht2, halfEdges_append, tail_edges (fun t' x hx => hget t' x 1 (.inl rfl) hx) hlast,
        halfEdges_timed (clocked_timed (fun t ns w' hw' hn => hget t ns _ (hlen w' hw') hn) _ hT), ← rightly_append]
    · rw [withTail_cons, total_cons] at hshort
      exact hshort
    · rw [rc5_whole_parse w hw _ (tailUnit_cases tail)]
      rfl
    · dsimp only
      rw [hended]
      exact rc5_wrapped_parse w hw o k hend
    · exact rc5_then_idle w hw o o' bs (tailUnit_cases tail)
  rcases items with _ | ⟨i, items⟩
  · rfl
  · obtain ⟨p, es, E, hs⟩ := hitems i (by simp)
    have hall : ((i :: items).flatMap fun i => withTail i.2.1 i.2.2) =
        (true, p) :: (es ++ items.flatMap fun i => withTail i.2.1 i.2.2) := by
      rw [List.flatMap_cons, hs.eq, List.cons_append]
    rw [hall, instant_edges hm]
    · exact wrapped_series (rc5Decoder t tbl) conv hu (rc5_get_zero hm hlo hf htbl)
        (fun evs hl => rc5_hurt_of hus hf hm htbl conv hl rfl) (C29_rc5_gap_forgets t tbl conv) _ _ (Nat.le_refl _) hitems
        _ _ hall _ _
    · intro e he t'
      have he : e ∈ (i :: items).flatMap fun i => withTail i.2.1 i.2.2 := by rw [hall]; exact List.mem_cons_of_mem _ he
      obtain ⟨i', hi', he⟩ := List.mem_flatMap.mp he
      obtain ⟨-, -, -, hshort⟩ := hok i' hi'
      refine edge_small hu hshort ?_ t'
      exact he

/-! ## Non-vacuity -/

/-- Three RC5 transmissions in microseconds: commands 1, 1 and 2 for device 0. -/
def wrappedRc5 : List (BitVec 14 × List (Bool × Nat) × Option Nat) :=
  [(0x3001#14, some 889), (0x3001#14, some 889), (0x3002#14, none)].map fun s =>
    (s.1, (true, 60000) :: atUnit 889 (edgesFrom true 1 (rc5Tail s.1 13)), s.2)

theorem wrappedRc5_ok : ∀ i ∈ wrappedRc5, i.1.getLsbD 13 = true ∧ Complete 1000000 0 889 (rc5Edges i.1) i.2.1 i.2.2 ∧
    RestBefore 1000000 1000000 Mono.u32.width i.2.1 i.2.2 := by
  intro i hi
  obtain ⟨s, hs, rfl⟩ := List.mem_map.mp hi
  clear hi
  have hw : s.1.getLsbD 13 = true := by revert s; decide
  refine ⟨hw, ⟨⟨60000, 1, _, _, rfl, rc5Edges_eq _ hw, atUnit_timed ..⟩, ?_⟩, ?_, ?_⟩
  · intro x hx
    dsimp only at hx ⊢
    have h : ∀ s ∈ [(0x3001#14, some 889), (0x3001#14, some 889), (0x3002#14, none)], ∀ x, s.2 = some x →
        x = 889 ∧ (rc5Edges s.1).getLast?.map Prod.fst = some true := by
      intro s hs
      simp only [List.mem_cons, List.not_mem_nil, or_false] at hs
      rcases hs with rfl | rfl | rfl
      · intro x hx; exact ⟨(Option.some.inj hx).symm, by decide +kernel⟩
      · intro x hx; exact ⟨(Option.some.inj hx).symm, by decide +kernel⟩
      · intro x hx; cases hx
    obtain ⟨rfl, h2⟩ := h s hs x hx
    exact ⟨⟨by decide, by decide⟩, h2⟩
  · intro e he
    cases he
    decide
  · revert s
    decide +kernel

/-- The counter of 1 MHz and 32 bits wraps around in the last interval of the first transmission, which is of 2 half-bits:
the receiver reports command 0 instead of 1. -/
theorem C99_rc5_wrong (t : Target) (hus : 16 ≤ t.usizeBits) :
    (instantRun Mono.u32 (rc5Decoder t (rc5Table 1000000)) id
        (stamps 1000000 1000000 0 Mono.u32.width (2 ^ 32 - 82614)
          (wrappedRc5.flatMap fun i => withTail i.2.1 i.2.2))).map said =
      some (oks [⟨0, 0, 3, false⟩, ⟨0, 1, 3, false⟩, ⟨0, 2, 3, false⟩]) := by
  rw [C99_rc5 t hus 1000000 0 (by decide) (by decide) Mono.u32 (.inl rfl) _ (rc5Spans_eq (.inl rfl) t (by decide))
    (by decide +kernel) id 1000000 (by decide) 0 _ wrappedRc5 wrappedRc5_ok]
  decide +kernel

/-- It wraps around in the first interval (1 half-bit) of the first transmission: nothing is lost. -/
example (t : Target) (hus : 16 ≤ t.usizeBits) :
    (instantRun Mono.u32 (rc5Decoder t (rc5Table 1000000)) id
        (stamps 1000000 1000000 0 Mono.u32.width (2 ^ 32 - 60500)
          (wrappedRc5.flatMap fun i => withTail i.2.1 i.2.2))).map said =
      some (oks [⟨0, 1, 3, false⟩, ⟨0, 1, 3, false⟩, ⟨0, 2, 3, false⟩]) := by
  rw [C99_rc5 t hus 1000000 0 (by decide) (by decide) Mono.u32 (.inl rfl) _ (rc5Spans_eq (.inl rfl) t (by decide))
    (by decide +kernel) id 1000000 (by decide) 0 _ wrappedRc5 wrappedRc5_ok]
  decide +kernel

/-- It wraps around in the second interval of 2 half-bits: the first command is lost. -/
example (t : Target) (hus : 16 ≤ t.usizeBits) :
    (instantRun Mono.u32 (rc5Decoder t (rc5Table 1000000)) id
        (stamps 1000000 1000000 0 Mono.u32.width (2 ^ 32 - 63000)
          (wrappedRc5.flatMap fun i => withTail i.2.1 i.2.2))).map said =
      some (oks [⟨0, 1, 3, false⟩, ⟨0, 2, 3, false⟩]) := by
  rw [C99_rc5 t hus 1000000 0 (by decide) (by decide) Mono.u32 (.inl rfl) _ (rc5Spans_eq (.inl rfl) t (by decide))
    (by decide +kernel) id 1000000 (by decide) 0 _ wrappedRc5 wrappedRc5_ok]
  decide +kernel

end Infrared
