import Verif.Props.ExactBi
import Verif.Props.Noise
import Verif.Spec.Broken

/-!
# Transmissions that break off (C88): RC5 and RC6
-/

namespace Infrared

open Spec

variable {C K : Type}

/-! ## A series with gaps is received piece by piece -/

theorem pieces_results {A : Type} (D : Decoder C) (conv : C → K) (tbl : PulseSpans) (u f phase : Nat)
    (hforget : ∀ (r : Receiver D) (e : Ev), Gap tbl e.2 → ∀ after,
      (r.run _ conv (e :: after)).map Prod.snd = results D conv (e :: after))
    (out : A → List (Res K)) (items : List (A × List (Bool × Nat) × Option Nat))
    (hcons : ∀ i ∈ items, ∃ b p es, withTail i.2.1 i.2.2 = (b, p) :: es ∧
      (∀ t, Gap tbl (reading u f phase (t + p) - reading u f phase t)) ∧
      ∀ g t, (results D conv ((b, g) :: clocked u f phase (t + p) es)).map said = some (out i.1)) :
    (∀ t, (results D conv (clocked u f phase t (items.flatMap fun i => withTail i.2.1 i.2.2))).map said =
      some (items.flatMap fun i => out i.1)) ∧
    ∀ b p es, (items.flatMap fun i => withTail i.2.1 i.2.2) = (b, p) :: es → ∀ g t,
      (results D conv ((b, g) :: clocked u f phase (t + p) es)).map said = some (items.flatMap fun i => out i.1) := by
  have later : ∀ (items : List (A × List (Bool × Nat) × Option Nat)),
      (∀ i ∈ items, ∃ b p es, withTail i.2.1 i.2.2 = (b, p) :: es ∧
        ∀ t, Gap tbl (reading u f phase (t + p) - reading u f phase t)) → ∀ t (r : Receiver D),
      (r.run _ conv (clocked u f phase t (items.flatMap fun i => withTail i.2.1 i.2.2))).map Prod.snd =
        results D conv (clocked u f phase t (items.flatMap fun i => withTail i.2.1 i.2.2)) := by
    intro items h t r
    cases items with
    | nil => rfl
    | cons i items =>
      obtain ⟨b, p, es, he, hg⟩ := h i (by simp)
      rw [List.flatMap_cons, he, List.cons_append, clocked]
      exact hforget r _ (hg t) _
  induction items with
  | nil => exact ⟨fun _ => rfl, fun _ _ _ h => by cases h⟩
  | cons i items ih =>
    obtain ⟨ih, -⟩ := ih fun i hi => hcons i (by simp [hi])
    obtain ⟨b, p, es, he, -, hres⟩ := hcons i (by simp)
    have main : ∀ g t, (results D conv
        ((b, g) :: clocked u f phase (t + p) (es ++ items.flatMap fun i => withTail i.2.1 i.2.2))).map said =
        some ((i :: items).flatMap fun i => out i.1) := by
      intro g t
      obtain ⟨t', ht'⟩ := clocked_append_at u f phase es (items.flatMap fun i => withTail i.2.1 i.2.2) (t + p)
      obtain ⟨o1, h1, h2⟩ := Option.map_eq_some_iff.mp (hres g t)
      obtain ⟨o2, h3, h4⟩ := Option.map_eq_some_iff.mp (ih t')
      rw [ht', ← List.cons_append, results_append_gap D conv h1 _ (later items (fun i hi => by
        obtain ⟨b, p, es, h, hg, -⟩ := hcons i (by simp [hi])
        exact ⟨b, p, es, h, hg⟩) t'), h3, Option.map_some, Option.map_some, said_append, h2, h4, List.flatMap_cons]
    refine ⟨fun t => ?_, fun b' p' es' h g t => ?_⟩
    · rw [List.flatMap_cons, he, List.cons_append, clocked]
      exact main _ _
    · rw [List.flatMap_cons, he, List.cons_append] at h
      cases h
      exact main g t

/-- 16 ms are a gap. -/
theorem long_gap {t : Target} {m : Mono} (hm : m = Mono.u32 ∨ m = Mono.u64) {f : Nat} (hlo : 20000 ≤ f)
    (hf : f < 2 ^ 32) {tbl : PulseSpans} (k : Kind)
    (hk : ∀ (i l tol : Nat), k.symbols[i]? = some (l, tol) → (100 + tol) * l ≤ 300000)
    (htbl : k.build t m f = some tbl) {u : Nat} (hu : 0 < u) (phase t' p : Nat) (hp : 16000 * u ≤ 1000000 * p) :
    Gap tbl (reading u f phase (t' + p) - reading u f phase t') := by
  intro i hin
  obtain ⟨-, hb⟩ := reading_bounds hu f phase t' p
  obtain ⟨h1, h2⟩ := C52_rejects k t m hm f hf tbl htbl i _ hin
  generalize reading u f phase (t' + p) - reading u f phase t' = d at *
  have a : 16000 * f ≤ 1000000 * (d + 1) := by
    refine Nat.le_of_mul_le_mul_right (c := u) ?_ hu
    have e1 := Nat.mul_le_mul_right f hp
    rw [Nat.mul_right_comm] at e1
    rw [Nat.mul_assoc 1000000 p f] at e1
    have e2 : 1000000 * (d + 1) * u = 1000000 * (u * d + u) := by
      rw [Nat.mul_assoc, Nat.add_mul, Nat.one_mul, Nat.mul_comm d u]
    omega
  rcases hs : k.symbols[i]? with _ | ⟨l, tol⟩
  · have := h2 hs
    omega
  · obtain ⟨h1, -⟩ := h1 l tol hs
    have := Nat.mul_le_mul_right f (hk i l tol hs)
    omega

/-! ## What is measured of a transmission that breaks off -/

theorem halfEdges_timed {tbl : PulseSpans} {evs : List Ev} {ws : List (Bool × Nat)}
    (h : Timed (fun d n => (tbl.get d).map (· + 1) = some n) evs ws) : halfEdges tbl evs = rightly ws := by
  induction evs generalizing ws with
  | nil => cases ws with
    | nil => rfl
    | cons w ws => exact h.elim
  | cons e evs ih => cases ws with
    | nil => exact h.elim
    | cons w ws =>
      obtain ⟨h1, h2, h3⟩ := h
      have := ih h3
      unfold halfEdges rightly at *
      rw [List.map_cons, List.map_cons, this, h2, h1]

theorem halfEdges_append (tbl : PulseSpans) (a b : List Ev) :
    halfEdges tbl (a ++ b) = halfEdges tbl a ++ halfEdges tbl b := List.map_append

/-- A mark that ends early is measured as no more than it would have been. -/
theorem tail_get {tbl : PulseSpans} {n d : Nat} {w : Span} (hn : 1 ≤ n) (hw : tbl.spans[n - 1]? = some w) (hd : d ≤ w.high)
    (hlow : ∀ i, n ≤ i → InTol tbl i d → w.low ≤ d) : ∀ i, tbl.get d = some i → i + 1 ≤ n := by
  intro i hi
  refine Nat.le_of_not_lt fun hlt => ?_
  obtain ⟨h1, h2⟩ := (get_eq_iff' tbl i d).mp hi
  exact h2 (n - 1) (by omega) ⟨w, hw, hlow i (by omega) h1, hd⟩

theorem reading_early {u : Nat} (hu : 0 < u) (f phase j l t x : Nat) (h0 : u ≤ x * f)
    (h2 : 100000000 * x ≤ (100 + j) * l * u) :
    1 ≤ reading u f phase (t + x) - reading u f phase t ∧
      reading u f phase (t + x) - reading u f phase t ≤ longest f j l := by
  unfold reading longest
  rw [Nat.add_mul]
  have a := Nat.div_add_mod (t * f + phase) u
  have b := Nat.div_add_mod (t * f + x * f + phase) u
  have a' := Nat.mod_lt (t * f + phase) hu
  have b' := Nat.mod_lt (t * f + x * f + phase) hu
  have c : (t * f + phase) / u ≤ (t * f + x * f + phase) / u := Nat.div_le_div_right (by omega)
  obtain ⟨d, hd⟩ := Nat.exists_eq_add_of_le c
  rw [hd] at b ⊢
  rw [Nat.mul_add] at b
  rw [Nat.add_sub_cancel_left]
  have e1 : u * d < x * f + u := by omega
  have e2 : x * f < u * d + u := by omega
  have g2 : 100000000 * (x * f) ≤ (100 + j) * l * f * u := by
    have := Nat.mul_le_mul_right f h2
    rw [Nat.mul_assoc 100000000] at this
    rwa [Nat.mul_right_comm] at this
  constructor
  · rcases d with _ | d
    · rw [Nat.mul_zero] at e2; omega
    · omega
  · refine (Nat.le_div_iff_mul_le (by decide)).mpr ?_
    have h3 : d * 100000000 * u < (100 + j) * l * f * u + 100000000 * u := by
      have : d * 100000000 * u = 100000000 * (u * d) := by
        rw [Nat.mul_comm d, Nat.mul_assoc, Nat.mul_comm d u]
      omega
    rw [← Nat.add_mul] at h3
    have := Nat.lt_of_mul_lt_mul_right h3
    omega

/-- What may come after the first `k` edges: nothing, or the end of the mark that was to end with edge `k`. -/
def Remnant (edges : List (Bool × Nat)) (k : Nat) (tl : List HalfEdge) : Prop :=
  tl = [] ∨ k + 1 < edges.length ∧ ∃ n o, edges[k]? = some (false, n) ∧ tl = [(false, o)] ∧
    ∀ i, o = some i → 1 ≤ i ∧ i ≤ n

theorem broken_edges {tbl : PulseSpans} {u f phase j unit : Nat} {e0 : Bool × Nat} {edges : List (Bool × Nat)}
    (hread : ∀ t x, ∀ e ∈ edges, Near u j (unit * e.2) x →
      (tbl.get (reading u f phase (t + x) - reading u f phase t)).map (· + 1) = some e.2)
    (htail : ∀ t x, ∀ e ∈ edges, u ≤ x * f → 100000000 * x ≤ (100 + j) * (unit * e.2) * u →
      ∀ i, tbl.get (reading u f phase (t + x) - reading u f phase t) = some i → i + 1 ≤ e.2)
    {k : Nat} {evs : List (Bool × Nat)} {tail : Option Nat} (h : SentFor u j f unit (e0 :: edges) k evs tail)
    (hk : k < (e0 :: edges).length) :
    ∃ p es k', withTail evs tail = (true, p) :: es ∧ k = k' + 1 ∧ 16000 * u ≤ 1000000 * p ∧
      es.length ≤ edges.length + 1 ∧
      ∀ t, ∃ tl, halfEdges tbl (clocked u f phase t es) = rightly (edges.take k') ++ tl ∧ Remnant edges k' tl := by
  obtain ⟨⟨p, n, evs', edges', rfl, he, ht⟩, hp, hx⟩ := h
  rcases k with _ | k
  · simp at he
  rw [List.take_succ_cons, List.cons.injEq] at he
  obtain ⟨rfl, rfl⟩ := he
  have hp := hp _ rfl
  have hlen : evs'.length ≤ edges.length := by
    have hl : ∀ (a b : List (Bool × Nat)), Timed (fun x n => Near u j (unit * n) x) a b → a.length = b.length := by
      intro a
      induction a with
      | nil => intro b h; cases b with
        | nil => rfl
        | cons _ _ => exact h.elim
      | cons x a ih => intro b h; cases b with
        | nil => exact h.elim
        | cons y b => rw [List.length_cons, List.length_cons, ih b h.2.2]
    rw [hl _ _ ht, List.length_take]
    omega
  have hm : ∀ t, halfEdges tbl (clocked u f phase t evs') = rightly (edges.take k) := fun t =>
    halfEdges_timed (clocked_timed (fun t ns w hw hn => hread t ns w (List.mem_of_mem_take hw) hn) t ht)
  cases tail with
  | none =>
    exact ⟨p, evs', k, rfl, rfl, hp, by omega, fun t => ⟨[], by rw [hm, List.append_nil], .inl rfl⟩⟩
  | some x =>
    obtain ⟨h1, h2, m, h3, h4⟩ := hx hk x rfl
    rw [List.getElem?_cons_succ] at h3
    refine ⟨p, evs' ++ [(false, x)], k, rfl, rfl, hp, by simp; omega, fun t => ?_⟩
    obtain ⟨t', ht'⟩ := clocked_append_at u f phase evs' [(false, x)] t
    refine ⟨halfEdges tbl (clocked u f phase t' [(false, x)]), by rw [ht', halfEdges_append, hm], .inr ⟨by simpa using h1, m,
      (tbl.get (reading u f phase (t' + x) - reading u f phase t')).map (· + 1), h3, by simp [halfEdges, clocked], ?_⟩⟩
    intro i hi
    obtain ⟨i', hi', rfl⟩ := Option.map_eq_some_iff.mp hi
    exact ⟨by omega, htail t' x _ (List.mem_of_getElem? h3) h2 h4 i' hi'⟩

/-! ## Positions -/

theorem edges_total (ls : List Bool) (prev : Bool) (n : Nat) (h : edgesFrom prev n ls ≠ []) :
    total (edgesFrom prev n ls) + 1 ≤ n + ls.length := by
  induction ls generalizing prev n with
  | nil => simp [edgesFrom] at h
  | cons l ls ih =>
    rw [edgesFrom] at h ⊢
    rw [List.length_cons]
    split at h
    · rename_i hl
      rw [if_pos hl]
      have := ih prev (n + 1) h
      omega
    · rename_i hl
      rw [if_neg hl]
      have e : total ((l, n) :: edgesFrom l 1 ls) = n + total (edgesFrom l 1 ls) := by simp [total]
      rw [e]
      by_cases h' : edgesFrom l 1 ls = []
      · rw [h']; simp [total]
      · have := ih l 1 h'
        omega

theorem total_cons (e : Bool × Nat) (es : List (Bool × Nat)) : total (e :: es) = e.2 + total es := by simp [total]

theorem total_take {edges : List (Bool × Nat)} (hpos : ∀ e ∈ edges, 1 ≤ e.2) {k : Nat} (hk : k < edges.length) :
    total (edges.take k) + 1 ≤ total edges ∧
      (k + 1 < edges.length → ∀ e, edges[k]? = some e → total (edges.take k) + e.2 + 1 ≤ total edges) := by
  have e1 : total edges = total (edges.take k) + total (edges.drop k) := by
    rw [← total_append, List.take_append_drop]
  have e2 : edges.drop k = edges[k] :: edges.drop (k + 1) := (List.getElem_cons_drop hk).symm
  have e3 : total (edges.drop k) = edges[k].2 + total (edges.drop (k + 1)) := by rw [e2, total_cons]
  have h1 := hpos _ (List.getElem_mem hk)
  refine ⟨by omega, fun hk' e he => ?_⟩
  have e4 : edges.drop (k + 1) = edges[k + 1] :: edges.drop (k + 1 + 1) := (List.getElem_cons_drop hk').symm
  have e5 : total (edges.drop (k + 1)) = edges[k + 1].2 + total (edges.drop (k + 1 + 1)) := by rw [e4, total_cons]
  have h2 := hpos _ (List.getElem_mem hk')
  rw [List.getElem?_eq_getElem hk, Option.some.injEq] at he
  subst he
  omega

theorem gaps_append (a b : List HalfEdge) : gaps (a ++ b) = gaps a + gaps b := by simp [gaps]

theorem gaps_rightly (es : List (Bool × Nat)) : gaps (rightly es) = total es := by
  simp [gaps, rightly, total, Function.comp_def]

theorem remnant_gaps {edges : List (Bool × Nat)} (hpos : ∀ e ∈ edges, 1 ≤ e.2) {k : Nat} (hk : k < edges.length)
    {tl : List HalfEdge} (h : Remnant edges k tl) : gaps (rightly (edges.take k) ++ tl) + 1 ≤ total edges := by
  rw [gaps_append, gaps_rightly]
  obtain ⟨h1, h2⟩ := total_take hpos hk
  rcases h with rfl | ⟨h3, n, o, h4, rfl, h5⟩
  · simpa [gaps] using h1
  · have := h2 h3 _ h4
    dsimp only at this
    rcases o with _ | i
    · simp only [gaps, List.map_cons, List.map_nil, Option.getD_none, List.sum_cons, List.sum_nil]
      omega
    · have := (h5 i rfl).2
      simp only [gaps, List.map_cons, List.map_nil, Option.getD_some, List.sum_cons, List.sum_nil]
      omega

/-! ## RC5 -/

theorem flatMap_whole {A B : Type} (whole : A → Bool) (out : A → B) (items : List A) :
    (items.flatMap fun i => if whole i then oks [out i] else []) = oks ((items.filter whole).map out) := by
  induction items with
  | nil => rfl
  | cons i items ih =>
    rw [List.flatMap_cons, ih, List.filter_cons]
    split <;> simp [oks]

/-- The slot for `n` units begins no later than a reading in a later slot. -/
theorem low_le {t : Target} {m : Mono} (hm : m = Mono.u32 ∨ m = Mono.u64) {f : Nat} (hlo : 20000 ≤ f)
    (hf : f < 2 ^ 32) {tbl : PulseSpans} (k : Kind) (htbl : k.build t m f = some tbl) {n d : Nat} {l tol : Nat}
    (hs : k.symbols[n - 1]? = some (l, tol)) {w : Span} (hw : tbl.spans[n - 1]? = some w) (hd : 1 ≤ d)
    (hk : ∀ (i l' tol' : Nat), n ≤ i → k.symbols[i]? = some (l', tol') →
      10000 * ((100 - tol) * l) + 500000 * (100 - tol') ≤ 9968 * ((100 - tol') * l')) :
    ∀ i, n ≤ i → InTol tbl i d → w.low ≤ d := by
  intro i hi hin
  obtain ⟨h1, -, ht⟩ := (build_get hm t hf k htbl (n - 1)).1 l tol hs
  rw [h1, Option.some.injEq] at hw
  subst hw
  obtain ⟨h2, h3⟩ := C52_rejects k t m hm f hf tbl htbl i d hin
  rcases hs' : k.symbols[i]? with _ | ⟨l', tol'⟩
  · have := h3 hs'
    omega
  · obtain ⟨-, h4⟩ := h2 l' tol' hs'
    have h5 := hk i l' tol' hi hs'
    have h6 := scaleVal_le l f
    simp only [spanOf]
    generalize scaleVal l f = s at *
    have a1 : 100 * (s - s * tol / 100) ≤ (100 - tol) * s + 99 := by
      have : (100 - tol) * s + s * tol = 100 * s := by
        rw [Nat.mul_comm s tol, ← Nat.add_mul, Nat.sub_add_cancel ht]
      omega
    have a2 : 1000000 * ((100 - tol) * s) ≤ (100 - tol) * l * f := by
      have := Nat.mul_le_mul_left (100 - tol) h6
      rw [← Nat.mul_assoc] at this
      rw [← Nat.mul_assoc, Nat.mul_comm 1000000, Nat.mul_assoc, Nat.mul_comm 1000000 s] at *
      omega
    have a3 := Nat.mul_le_mul_right f h5
    rw [Nat.add_mul, Nat.mul_assoc 10000, Nat.mul_assoc 9968] at a3
    have a4 : 500000 * (100 - tol') * 20000 ≤ 500000 * (100 - tol') * f := Nat.mul_le_mul_left _ hlo
    omega

theorem rc5_right_get {t : Target} {m : Mono} (hm : m = Mono.u32 ∨ m = Mono.u64) {f : Nat} (hlo : 20000 ≤ f)
    (hf : f < 2 ^ 32) {tbl : PulseSpans} (htbl : rc5Spans t m f = some tbl) {n d : Nat} (hn : n = 1 ∨ n = 2)
    (h : Spec.Within tbl d n) : (tbl.get d).map (· + 1) = some n := by
  rw [rc5Spans_eq hm t hf, Option.some.injEq] at htbl
  subst htbl
  have hu := rc5_unambiguous f hlo
  rcases hn with rfl | rfl
  · rw [inTol_get hu (by decide) h]; rfl
  · rw [inTol_get hu (by decide) h]; rfl

/-- Fewer edges than the frame has, and perhaps the end of a mark: no frame. -/
theorem rc5_broken_parse (w : BitVec 14) {tbl : PulseSpans} {evs : List Ev} {k g : Nat} {tl : List HalfEdge}
    (hk : k < (edgesFrom true 1 (rc5Tail w 13)).length)
    (h : halfEdges tbl evs = rightly ((edgesFrom true 1 (rc5Tail w 13)).take k) ++ tl)
    (ht : Remnant (edgesFrom true 1 (rc5Tail w 13)) k tl) : rc5Parse (halfEdges tbl ((true, g) :: evs)) = [] := by
  refine rc5Parse_gaps _ _ (Nat.le_refl _) (halfEdges_pos tbl _) ?_
  have e : (halfEdges tbl ((true, g) :: evs)).tail = halfEdges tbl evs := rfl
  rw [e, h]
  have h1 := remnant_gaps (fun e he => by rcases rc5_edges_len w 13 true e he with h | h <;> omega) hk ht
  have h2 := edges_total (rc5Tail w 13) true 1 (fun h => by rw [h] at hk; simp at hk)
  have h3 : (rc5Tail w 13).length = 26 := rfl
  omega

theorem rc5_broken_of (t : Target) (hus : 16 ≤ t.usizeBits) (f j : Nat) (hlo : 20000 ≤ f) (hf : f < 2 ^ 32) (m : Mono)
    (hm : m = Mono.u32 ∨ m = Mono.u64) (tbl : PulseSpans) (htbl : rc5Spans t m f = some tbl)
    (hc : coversAll tbl f j rc5Lengths = true) (conv : Rc5Command → K) (u : Nat) (hu : 0 < u) (phase : Nat)
    (i : (BitVec 14 × Nat) × List (Bool × Nat) × Option Nat) (hw : i.1.1.getLsbD 13 = true)
    (hsent : SentFor u j f 889 (rc5Edges i.1.1) i.1.2 i.2.1 i.2.2) :
    ∃ b p es, withTail i.2.1 i.2.2 = (b, p) :: es ∧
      (∀ t, Gap tbl (reading u f phase (t + p) - reading u f phase t)) ∧
      ∀ g t', (results (rc5Decoder t tbl) conv ((b, g) :: clocked u f phase (t' + p) es)).map said =
        some (if rc5Whole i.1 then
          oks [conv (Rc5Command.unpack (i.1.1.setWidth 16))] else []) := by
  have hgap : ∀ p, 16000 * u ≤ 1000000 * p → ∀ t', Gap tbl (reading u f phase (t' + p) - reading u f phase t') :=
    fun p hp t' => long_gap hm hlo hf .rc5 (fun i l tol hi => by
      have : ∀ x ∈ Kind.symbols .rc5, (100 + x.2) * x.1 ≤ 300000 := by decide
      exact this (l, tol) (List.mem_of_getElem? hi)) htbl hu phase t' p hp
  have hclk := rc5Clock_of_covers (phase := phase) hu hc
  by_cases hk : (rc5Edges i.1.1).length ≤ i.1.2
  · obtain ⟨hfr, hp, -⟩ := hsent
    rw [List.take_of_length_le hk] at hfr
    have hfr' := hfr
    obtain ⟨p, n, evs', edges', he, -, -⟩ := hfr'
    rw [he] at hp
    have hes : withTail i.2.1 i.2.2 = (true, p) :: withTail evs' i.2.2 := by
      rw [he]
      cases i.2.2 <;> rfl
    refine ⟨true, p, _, hes, hgap p (hp _ rfl), fun g t' => ?_⟩
    have := C78_rc5 t hus f j hlo hf m hm tbl htbl hc conv u hu phase [(i.1.1, i.2)] (by
      intro x hx
      rw [List.mem_singleton] at hx
      subst hx
      exact ⟨hw, hfr⟩) true p (withTail evs' i.2.2) (by rw [← hes]; simp) t' g
    rw [this]
    simp [rc5Whole, hk]
  · rw [rc5Edges_eq _ hw] at hsent hk
    rw [Nat.not_le] at hk
    have hlen := rc5_edges_len i.1.1 13 true
    obtain ⟨p, es, k', he, hk', hp, hl, hall⟩ := broken_edges (tbl := tbl) (phase := phase) (fun t' x e he hn =>
      rc5_right_get hm hlo hf htbl (hlen e he) (hclk t' _ _ (hlen e he) hn)) (fun t' x e he h0 hx => by
        obtain ⟨r1, r2⟩ := reading_early hu f phase j _ t' x h0 hx
        rcases hlen e he with h | h <;> rw [h] at r2 ⊢
        · rw [Nat.mul_one] at r2
          obtain ⟨w, hw, -, hh⟩ := covers_iff.mp (coversAll_get hc (s := 0) rfl)
          exact tail_get (Nat.le_refl _) hw (Nat.le_trans r2 hh) (low_le hm hlo hf .rc5 htbl (n := 1) rfl hw r1 (by
            intro i l' tol' hi hs
            rcases i with _ | _ | i
            · omega
            · simp [Kind.symbols] at hs; obtain ⟨rfl, rfl⟩ := hs; decide
            · simp [Kind.symbols] at hs))
        · obtain ⟨w, hw, -, hh⟩ := covers_iff.mp (coversAll_get hc (s := 1) rfl)
          exact tail_get (by decide) hw (Nat.le_trans r2 hh) (low_le hm hlo hf .rc5 htbl (n := 2) rfl hw r1 (by
            intro i l' tol' hi hs
            rcases i with _ | _ | i
            · omega
            · omega
            · simp [Kind.symbols] at hs))) hsent hk
    refine ⟨true, p, es, he, hgap p hp, fun g t' => ?_⟩
    obtain ⟨tl, h1, h2⟩ := hall (t' + p)
    have hsp := rc5_length hm hf htbl
    have hcl : (clocked u f phase (t' + p) es).length = es.length := clocked_length ..
    have htot : (edgesFrom true 1 (rc5Tail i.1.1 13)).length ≤ 26 := by
      have := edgesFrom_length true 1 (rc5Tail i.1.1 13)
      have h3 : (rc5Tail i.1.1 13).length = 26 := rfl
      omega
    have hpow : 2 ^ 16 ≤ 2 ^ t.usizeBits := Nat.pow_le_pow_right (by decide) hus
    obtain ⟨o, ho⟩ := Option.ne_none_iff_exists'.mp (C30_rc5_no_panic t hus tbl hsp conv
      ((true, g) :: clocked u f phase (t' + p) es) (.inr (by rw [List.length_cons, hcl]; omega)))
    rw [ho, Option.map_some, C67_rc5 t hus tbl hsp conv _ o ho, rc5_broken_parse i.1.1 (by
      rw [List.length_cons] at hk; omega) h1 h2, rc5Whole, rc5Edges_eq _ hw, if_neg (by simp; simp at hk; omega)]
    rfl

/-! ## RC6 -/

theorem rc6_right_get {t : Target} {m : Mono} (hm : m = Mono.u32 ∨ m = Mono.u64) {f : Nat} (hlo : 20000 ≤ f)
    (hf : f < 2 ^ 32) {tbl : PulseSpans} (htbl : rc6Spans t m f = some tbl) {n d : Nat}
    (hn : n = 1 ∨ n = 2 ∨ n = 3 ∨ n = 6) (h : WithinRc6 tbl d n) : (tbl.get d).map (· + 1) = some n := by
  obtain ⟨hu, -, h6⟩ := C15_rc6_classification_partial f hlo hf t m hm tbl htbl
  obtain ⟨hin, h5⟩ := h
  rcases hn with rfl | rfl | rfl | rfl
  · rw [inTol_get hu (by decide) hin]; rfl
  · rw [inTol_get hu (by decide) hin]; rfl
  · rw [inTol_get hu (by decide) hin]; rfl
  · have h5' := h5 rfl
    rw [rc6Spans_eq hm t hf, Option.some.injEq] at htbl
    subst htbl
    obtain ⟨s, hs, hs1, hs2⟩ := hin
    obtain ⟨s5, hs5⟩ : ∃ s5, (rc6Table f).spans[4]? = some s5 := ⟨_, rfl⟩
    rw [(h6 d).mpr ⟨s, s5, hs, hs5, ?_, hs1, hs2⟩]
    · rfl
    · refine Nat.lt_of_not_le fun hle => h5' ⟨s5, hs5, ?_, hle⟩
      refine Nat.le_trans ?_ hs1
      cases hs; cases hs5
      have g4 := scaleVal_le 2220 f
      have g5' := scaleVal_ge f (l := 2664) (by decide)
      simp only [spanOf]
      omega

/-- There are at most as many edges at odd positions as there are odd positions. -/
theorem midEdges_odd (pos k : Nat) (ms : List HalfEdge) (hpos : ∀ m ∈ ms, m.2 ≠ some 0) :
    (midEdges 1 pos k ms).1.length + (pos + 1) / 2 ≤ (pos + gaps ms + 1) / 2 := by
  induction ms generalizing pos k with
  | nil => cases k <;> simp [midEdges, gaps]
  | cons m ms ih =>
    obtain ⟨l, o⟩ := m
    have hp' : ∀ m ∈ ms, m.2 ≠ some 0 := fun x hx => hpos x (List.mem_cons_of_mem _ hx)
    rw [span_cons]
    cases k with
    | zero => simp only [midEdges, List.length_nil]; omega
    | succ k =>
      cases o with
      | none => simp only [midEdges, List.length_nil]; omega
      | some n =>
        have hn : n ≠ 0 := fun h => hpos (l, some n) (by simp) (by rw [h])
        rw [midEdges]
        simp only [Option.getD_some]
        split
        · have := ih (pos + n) k hp'
          simp only [List.length_cons]
          omega
        · have := ih (pos + n) (k + 1) hp'
          omega

/-- What is left when the edges do not suffice. -/
theorem midEdges_left (pos k : Nat) (as : List (Bool × Nat)) (tl : List HalfEdge)
    (htl : tl = [] ∨ ∃ o, tl = [(false, o)]) (h : (midEdges 1 pos k (rightly as ++ tl)).1.length ≠ k) :
    rc6Parse (midEdges 1 pos k (rightly as ++ tl)).2.2 = [] := by
  induction as generalizing pos k with
  | nil =>
    cases k with
    | zero => simp [midEdges] at h
    | succ k =>
      rcases htl with rfl | ⟨_ | n, rfl⟩
      · simp [rightly, midEdges, rc6Parse]
      · simp [rightly, midEdges, rc6Parse]
      · simp only [rightly, List.map_nil, List.nil_append, midEdges]
        split
        · cases k <;> simp [midEdges, rc6Parse]
        · simp [rc6Parse]
  | cons a as ih =>
    have er : rightly (a :: as) = (a.1, some a.2) :: rightly as := rfl
    rw [er, List.cons_append] at h ⊢
    cases k with
    | zero => simp [midEdges] at h
    | succ k =>
      rw [midEdges] at h ⊢
      split at h
      · rename_i hp
        rw [if_pos hp]
        exact ih _ k (by simpa using h)
      · rename_i hp
        rw [if_neg hp]
        exact ih _ (k + 1) h

theorem edgesFrom_head (prev : Bool) (n : Nat) (ls : List Bool) : ∀ e, (edgesFrom prev n ls).head? = some e → n ≤ e.2 := by
  induction ls generalizing prev n with
  | nil => simp [edgesFrom]
  | cons l ls ih =>
    intro e he
    rw [edgesFrom] at he
    split at he
    · have := ih _ _ e he; omega
    · simp at he; rw [← he]

theorem rc6Parse_first (o : Option Nat) (es : List HalfEdge) : rc6Parse ((true, o) :: es) = rc6Parse ((true, none) :: es) := by
  rw [rc6Parse, rc6Parse]

theorem rc6_whole_head (tg : Bool) (ms : List HalfEdge) : rc6Frame (rightly (rc6Head 0 tg) ++ ms) =
    if (midEdges 1 18 16 ms).1.length = 16 then
      (some (Rc6Command.fromBits (wordOf 16 ((midEdges 1 18 16 ms).1.map not).reverse) tg), (midEdges 1 18 16 ms).2.2)
    else (none, (midEdges 1 18 16 ms).2.2) := by
  cases tg
  · rw [show rightly (rc6Head 0 false) = [(false, some 6), (true, some 2), (false, some 1), (true, some 2),
      (false, some 1), (true, some 1), (false, some 1), (true, some 1), (false, some 1), (true, some 2)] by decide]
    rfl
  · rw [show rightly (rc6Head 0 true) = [(false, some 6), (true, some 2), (false, some 1), (true, some 2),
      (false, some 1), (true, some 1), (false, some 1), (true, some 1), (false, some 3)] by decide]
    rfl

/-- All ways in which a transmission can break off before the data. -/
theorem rc6_head_parse : ∀ tg : Bool, ∀ k < (rc6Head 0 tg).length,
    rc6Parse ((true, none) :: rightly ((rc6Head 0 tg).take k)) = [] ∧
      ∀ o ∈ none :: (List.range 7).map some, ((rc6Head 0 tg)[k]?.all fun e => o.all (· ≤ e.2)) = true →
        rc6Parse ((true, none) :: (rightly ((rc6Head 0 tg).take k) ++ [(false, o)])) = [] := by
  decide +kernel

/-- Fewer edges than the frame has, and perhaps the end of a mark: no frame. -/
theorem rc6_broken_parse (w : BitVec 16) (tg : Bool) {tbl : PulseSpans} {evs : List Ev} {k g : Nat} {tl : List HalfEdge}
    (hk : k < (rc6Head 0 tg ++ edgesFrom (!tg) 2 (rc6Tail w 16)).length)
    (h : halfEdges tbl evs = rightly ((rc6Head 0 tg ++ edgesFrom (!tg) 2 (rc6Tail w 16)).take k) ++ tl)
    (ht : Remnant (rc6Head 0 tg ++ edgesFrom (!tg) 2 (rc6Tail w 16)) k tl) :
    rc6Parse (halfEdges tbl ((true, g) :: evs)) = [] := by
  have e : halfEdges tbl ((true, g) :: evs) = (true, (tbl.get g).map (· + 1)) :: halfEdges tbl evs := rfl
  rw [e, rc6Parse_first, h]
  have hpos := halfEdges_pos tbl evs
  rw [h] at hpos
  have hlen := rc6_edges_len w tg
  by_cases hk' : k < (rc6Head 0 tg).length
  · rw [List.take_append_of_le_length (by omega)]
    obtain ⟨h1, h2⟩ := rc6_head_parse tg k hk'
    rcases ht with rfl | ⟨-, n, o, h3, rfl, h4⟩
    · rwa [List.append_nil]
    · rw [List.getElem?_append_left hk'] at h3
      have hn : n ≤ 6 := by
        have : ∀ e ∈ rc6Head 0 tg, e.2 ≤ 6 := by cases tg <;> decide
        exact this _ (List.mem_of_getElem? h3)
      refine h2 o ?_ ?_
      · rcases o with _ | i
        · simp
        · have := (h4 i rfl).2
          simp; omega
      · rw [h3]
        rcases o with _ | i
        · rfl
        · have := (h4 i rfl).2
          simpa using this
  · have hdpos : ∀ e ∈ edgesFrom (!tg) 2 (rc6Tail w 16), 1 ≤ e.2 := fun e he => by
      rcases rc6_tail_len w 16 (!tg) 2 (.inr rfl) e he with h | h | h <;> omega
    have hhead := edgesFrom_head (!tg) 2 (rc6Tail w 16)
    rw [List.length_append] at hk
    have htot := edges_total (rc6Tail w 16) (!tg) 2 (fun h => by rw [h, List.length_nil] at hk; omega)
    have h32 : (rc6Tail w 16).length = 32 := rfl
    rw [List.take_append, List.take_of_length_le (by omega)] at hpos ⊢
    have er : ∀ a b, rightly (a ++ b) = rightly a ++ rightly b := fun a b => List.map_append
    rw [er, List.append_assoc] at hpos ⊢
    have hrem : Remnant (edgesFrom (!tg) 2 (rc6Tail w 16)) (k - (rc6Head 0 tg).length) tl := by
      rcases ht with rfl | ⟨h1, n, o, h2, h3, h4⟩
      · exact .inl rfl
      · rw [List.length_append] at h1
        rw [List.getElem?_append_right (by omega)] at h2
        exact .inr ⟨by omega, n, o, h2, h3, h4⟩
    generalize hd : edgesFrom (!tg) 2 (rc6Tail w 16) = data at *
    obtain ⟨k', rfl⟩ : ∃ k', k = (rc6Head 0 tg).length + k' := ⟨_, (Nat.add_sub_of_le (by omega)).symm⟩
    rw [Nat.add_sub_cancel_left] at *
    have hk2 : k' < data.length := by omega
    have hg := remnant_gaps hdpos hk2 hrem
    have hp' : ∀ m ∈ rightly (data.take k') ++ tl, m.2 ≠ some 0 := fun m hm => hpos m (List.mem_append_right _ hm)
    have htl : tl = [] ∨ ∃ o, tl = [(false, o)] := by
      rcases hrem with rfl | ⟨-, n, o, -, rfl, -⟩
      · exact .inl rfl
      · exact .inr ⟨o, rfl⟩
    have hfew : (midEdges 1 18 16 (rightly (data.take k') ++ tl)).1.length ≠ 16 := by
      rcases k' with _ | k'
      · rw [List.take_zero]
        rcases htl with rfl | ⟨_ | n, rfl⟩
        · simp [rightly, midEdges]
        · simp [rightly, midEdges]
        · simp only [rightly, List.map_nil, List.nil_append, midEdges]
          split <;> simp
      · rcases data with _ | ⟨⟨l, n⟩, data⟩
        · simp at hk2
        have hn := hhead _ rfl
        dsimp only at hn
        have er' : rightly (((l, n) :: data).take (k' + 1)) ++ tl = (l, some n) :: (rightly (data.take k') ++ tl) := rfl
        rw [er'] at hp' hg ⊢
        rw [span_cons] at hg
        simp only [Option.getD_some] at hg
        have hp2 : ∀ m ∈ rightly (data.take k') ++ tl, m.2 ≠ some 0 := fun m hm => hp' m (List.mem_cons_of_mem _ hm)
        rw [midEdges]
        split
        · have := midEdges_odd (18 + n) 15 _ hp2
          simp only [List.length_cons]
          omega
        · have := midEdges_odd (18 + n) (15 + 1) _ hp2
          omega
    rw [rc6Parse, rc6_whole_head, if_neg hfew]
    exact midEdges_left 18 16 _ tl htl hfew

theorem rc6_broken_of (t : Target) (hus : 16 ≤ t.usizeBits) (f j : Nat) (hlo : 20000 ≤ f) (hf : f < 2 ^ 32) (m : Mono)
    (hm : m = Mono.u32 ∨ m = Mono.u64) (tbl : PulseSpans) (htbl : rc6Spans t m f = some tbl)
    (hc : coversRc6 tbl f j = true) (conv : Rc6Command → K) (u : Nat) (hu : 0 < u) (phase : Nat)
    (i : (Rc6Command × Nat) × List (Bool × Nat) × Option Nat)
    (hsent : SentFor u j f 444 (rc6Edges (i.1.1.addr ++ i.1.1.cmd) i.1.1.toggle) i.1.2 i.2.1 i.2.2) :
    ∃ b p es, withTail i.2.1 i.2.2 = (b, p) :: es ∧
      (∀ t, Gap tbl (reading u f phase (t + p) - reading u f phase t)) ∧
      ∀ g t', (results (rc6Decoder t tbl) conv ((b, g) :: clocked u f phase (t' + p) es)).map said =
        some (if rc6Whole i.1 then
          oks [conv i.1.1] else []) := by
  have hgap : ∀ p, 16000 * u ≤ 1000000 * p → ∀ t', Gap tbl (reading u f phase (t' + p) - reading u f phase t') :=
    fun p hp t' => long_gap hm hlo hf .rc6 (fun i l tol hi => by
      have : ∀ x ∈ Kind.symbols .rc6, (100 + x.2) * x.1 ≤ 300000 := by decide
      exact this (l, tol) (List.mem_of_getElem? hi)) htbl hu phase t' p hp
  have hclk := rc6Clock_of_covers (phase := phase) hu hc
  by_cases hk : (rc6Edges (i.1.1.addr ++ i.1.1.cmd) i.1.1.toggle).length ≤ i.1.2
  · obtain ⟨hfr, hp, -⟩ := hsent
    rw [List.take_of_length_le hk] at hfr
    have hfr' := hfr
    obtain ⟨p, n, evs', edges', he, -, -⟩ := hfr'
    rw [he] at hp
    have hes : withTail i.2.1 i.2.2 = (true, p) :: withTail evs' i.2.2 := by
      rw [he]
      cases i.2.2 <;> rfl
    refine ⟨true, p, _, hes, hgap p (hp _ rfl), fun g t' => ?_⟩
    have := C78_rc6 t hus f j hlo hf m hm tbl htbl hc conv u hu phase [(i.1.1, i.2)] (by
      intro x hx
      rw [List.mem_singleton] at hx
      subst hx
      exact hfr) true p (withTail evs' i.2.2) (by rw [← hes]; simp) t' g
    rw [this]
    simp [rc6Whole, hk]
  · rw [rc6Edges, rc6Edges_eq 0 (.inl rfl)] at hsent hk
    rw [Nat.not_le] at hk
    have hlen := rc6_edges_len (i.1.1.addr ++ i.1.1.cmd) i.1.1.toggle
    have hcov : ∀ n, n = 1 ∨ n = 2 ∨ n = 3 ∨ n = 6 → covers tbl f j (n - 1) (444 * n) = true := by
      simp only [coversRc6, Bool.and_eq_true] at hc
      obtain ⟨⟨⟨⟨h1, h2⟩, h3⟩, h6⟩, -⟩ := hc
      rintro n (rfl | rfl | rfl | rfl)
      · exact h1
      · exact h2
      · exact h3
      · exact h6
    obtain ⟨p, es, k', he, hk', hp, hl, hall⟩ := broken_edges (tbl := tbl) (phase := phase) (fun t' x e he hn =>
      rc6_right_get hm hlo hf htbl (hlen e he) (hclk t' _ _ (hlen e he) hn)) (fun t' x e he h0 hx => by
        obtain ⟨r1, r2⟩ := reading_early hu f phase j _ t' x h0 hx
        obtain ⟨w, hw, -, hh⟩ := covers_iff.mp (hcov e.2 (hlen e he))
        refine tail_get (by rcases hlen e he with h | h | h | h <;> omega) hw (Nat.le_trans r2 hh)
          (low_le hm hlo hf .rc6 htbl (n := e.2) (l := 444 * e.2) (tol := 12) ?_ hw r1 ?_)
        · rcases hlen e he with h | h | h | h <;> rw [h] <;> rfl
        · intro i l' tol' hi hs
          rcases i with _ | _ | _ | _ | _ | _ | i
          · rcases hlen e he with h | h | h | h <;> omega
          all_goals simp [Kind.symbols] at hs
          all_goals
            obtain ⟨rfl, rfl⟩ := hs
            rcases hlen e he with h | h | h | h <;> omega) hsent hk
    refine ⟨true, p, es, he, hgap p hp, fun g t' => ?_⟩
    obtain ⟨tl, h1, h2⟩ := hall (t' + p)
    have hsp := rc6_length hm hf htbl
    have hcl : (clocked u f phase (t' + p) es).length = es.length := clocked_length ..
    have htot := edgesFrom_length (!i.1.1.toggle) 2 (rc6Tail (i.1.1.addr ++ i.1.1.cmd) 16)
    have h32 : (rc6Tail (i.1.1.addr ++ i.1.1.cmd) 16).length = 32 := rfl
    have hhd : (rc6Head 0 i.1.1.toggle).length ≤ 10 := by cases i.1.1.toggle <;> decide
    rw [List.length_append] at hl
    have hpow : 2 ^ 16 ≤ 2 ^ t.usizeBits := Nat.pow_le_pow_right (by decide) hus
    obtain ⟨o, ho⟩ := Option.ne_none_iff_exists'.mp (C30_rc6_no_panic t hus tbl hsp conv
      ((true, g) :: clocked u f phase (t' + p) es) (.inr (by rw [List.length_cons, hcl]; omega)))
    rw [ho, Option.map_some, C67_rc6 t hus tbl hsp conv _ o ho, rc6_broken_parse (i.1.1.addr ++ i.1.1.cmd) i.1.1.toggle (by
      rw [List.length_cons] at hk; omega) h1 h2, rc6Whole, rc6Edges, rc6Edges_eq 0 (.inl rfl), if_neg (by
        rw [decide_eq_true_eq]; omega)]
    rfl

/-! ## C88 -/

/-- **C88**, RC5: of a series of transmissions 16 ms or more apart, each of which may break off anywhere, the receiver
gives the commands of those that were completed, and nothing else. -/
theorem C88_rc5 (t : Target) (hus : 16 ≤ t.usizeBits) (f j : Nat) (hlo : 20000 ≤ f) (hf : f < 2 ^ 32) (m : Mono)
    (hm : m = Mono.u32 ∨ m = Mono.u64) (tbl : PulseSpans) (htbl : rc5Spans t m f = some tbl)
    (hc : coversAll tbl f j rc5Lengths = true) (conv : Rc5Command → K) (u : Nat) (hu : 0 < u) (phase : Nat)
    (items : List ((BitVec 14 × Nat) × List (Bool × Nat) × Option Nat))
    (hok : ∀ i ∈ items, i.1.1.getLsbD 13 = true ∧ SentFor u j f 889 (rc5Edges i.1.1) i.1.2 i.2.1 i.2.2)
    (b : Bool) (pause : Nat) (es : List (Bool × Nat))
    (hes : (items.flatMap fun i => withTail i.2.1 i.2.2) = (b, pause) :: es) (t0 g : Nat) :
    (results (rc5Decoder t tbl) conv ((b, g) :: clocked u f phase (t0 + pause) es)).map said =
      some (oks ((items.filter fun i => rc5Whole i.1).map fun i =>
        conv (Rc5Command.unpack (i.1.1.setWidth 16)))) := by
  rw [(pieces_results (rc5Decoder t tbl) conv tbl u f phase (C29_rc5_gap_forgets t tbl conv)
    (fun x => if rc5Whole x then oks [conv (Rc5Command.unpack (x.1.setWidth 16))] else [])
    items fun i hi => rc5_broken_of t hus f j hlo hf m hm tbl htbl hc conv u hu phase i (hok i hi).1 (hok i hi).2).2
    b pause es hes g t0]
  exact congrArg some (flatMap_whole (fun i : (BitVec 14 × Nat) × List (Bool × Nat) × Option Nat => rc5Whole i.1)
    (fun i => conv (Rc5Command.unpack (i.1.1.setWidth 16))) items)

/-- **C88**, RC6 (mode 0). -/
theorem C88_rc6 (t : Target) (hus : 16 ≤ t.usizeBits) (f j : Nat) (hlo : 20000 ≤ f) (hf : f < 2 ^ 32) (m : Mono)
    (hm : m = Mono.u32 ∨ m = Mono.u64) (tbl : PulseSpans) (htbl : rc6Spans t m f = some tbl)
    (hc : coversRc6 tbl f j = true) (conv : Rc6Command → K) (u : Nat) (hu : 0 < u) (phase : Nat)
    (items : List ((Rc6Command × Nat) × List (Bool × Nat) × Option Nat))
    (hok : ∀ i ∈ items,
      SentFor u j f 444 (rc6Edges (i.1.1.addr ++ i.1.1.cmd) i.1.1.toggle) i.1.2 i.2.1 i.2.2)
    (b : Bool) (pause : Nat) (es : List (Bool × Nat))
    (hes : (items.flatMap fun i => withTail i.2.1 i.2.2) = (b, pause) :: es) (t0 g : Nat) :
    (results (rc6Decoder t tbl) conv ((b, g) :: clocked u f phase (t0 + pause) es)).map said =
      some (oks ((items.filter fun i => rc6Whole i.1).map fun i => conv i.1.1)) := by
  rw [(pieces_results (rc6Decoder t tbl) conv tbl u f phase (C29_rc6_gap_forgets t tbl conv)
    (fun x => if rc6Whole x then oks [conv x.1] else [])
    items fun i hi => rc6_broken_of t hus f j hlo hf m hm tbl htbl hc conv u hu phase i (hok i hi)).2
    b pause es hes g t0]
  exact congrArg some (flatMap_whole (fun i : (Rc6Command × Nat) × List (Bool × Nat) × Option Nat => rc6Whole i.1)
    (fun i => conv i.1.1) items)

/-! ## Polled receivers -/

/-- A line of events far enough apart is heard by a polled receiver as by one that is given the events. -/
theorem polled_pieces {D : Decoder C} {conv : C → K} {u : Nat} (hu : 0 < u) {f phase : Nat}
    {line : List (Bool × Nat)} {out : List (Res K)} (hnil : line = [] → out = [])
    (h : ∀ b pause es, line = (b, pause) :: es → ∀ t0 g,
      (results D conv ((b, g) :: clocked u f phase (t0 + pause) es)).map said = some out)
    (hch : Changes false line) (hmin : ∀ e ∈ line.tail, u ≤ e.2 * f)
    (hmax : ∀ e ∈ line, (e.2 * f + phase) / u + 1 < 2 ^ 32) (n : Nat) (hn : reading u f phase (duration line) < n) :
    (pollRun D conv (polled u f phase line n)).map said = some out := by
  rcases line with _ | ⟨⟨b, pause⟩, es⟩
  · rw [hnil rfl, show polled u f phase [] n = List.replicate n false from ?_, C54_silent_line, Option.map_some]
    · rw [said, List.filter_eq_nil_iff.mpr (by intro x hx; rw [List.eq_of_mem_replicate hx]; simp)]
    · rw [polled, List.eq_replicate_iff]
      exact ⟨by simp, by intro b hb; obtain ⟨i, -, rfl⟩ := List.mem_map.mp hb; rfl⟩
  · rw [C54_polled_line_long _ conv u hu f phase b pause es hch hmin n hn
      (hmax (b, pause) (List.mem_cons_self ..)) fun e he => ?_]
    · have := h b pause es rfl 0 (reading u f phase pause + 1)
      rwa [Nat.zero_add] at this
    · have := hmax e (List.mem_cons_of_mem _ he)
      have h2 : e.2 * f / u ≤ (e.2 * f + phase) / u := Nat.div_le_div_right (by omega)
      omega

theorem sent_nonempty {u j f unit k : Nat} {edges evs : List (Bool × Nat)} {tail : Option Nat}
    (h : SentFor u j f unit edges k evs tail) : withTail evs tail ≠ [] := by
  obtain ⟨⟨p, n, evs', edges', rfl, -, -⟩, -, -⟩ := h
  cases tail <;> simp [withTail]

/-- **C88**, RC5, polled. -/
theorem C88_rc5_polled (t : Target) (hus : 16 ≤ t.usizeBits) (f j : Nat) (hlo : 20000 ≤ f) (hf : f < 2 ^ 32)
    (tbl : PulseSpans) (htbl : rc5Spans t Mono.u32 f = some tbl) (hc : coversAll tbl f j rc5Lengths = true)
    (conv : Rc5Command → K) (u : Nat) (hu : 0 < u) (phase : Nat)
    (items : List ((BitVec 14 × Nat) × List (Bool × Nat) × Option Nat))
    (hok : ∀ i ∈ items, i.1.1.getLsbD 13 = true ∧ SentFor u j f 889 (rc5Edges i.1.1) i.1.2 i.2.1 i.2.2)
    (hch : Changes false (items.flatMap fun i => withTail i.2.1 i.2.2))
    (hmin : ∀ e ∈ (items.flatMap fun i => withTail i.2.1 i.2.2).tail, u ≤ e.2 * f)
    (hmax : ∀ e ∈ items.flatMap fun i => withTail i.2.1 i.2.2, (e.2 * f + phase) / u + 1 < 2 ^ 32)
    (n : Nat) (hn : reading u f phase (duration (items.flatMap fun i => withTail i.2.1 i.2.2)) < n) :
    (pollRun (rc5Decoder t tbl) conv
        (polled u f phase (items.flatMap fun i => withTail i.2.1 i.2.2) n)).map said =
      some (oks ((items.filter fun i => rc5Whole i.1).map fun i =>
        conv (Rc5Command.unpack (i.1.1.setWidth 16)))) := by
  refine polled_pieces hu (fun h => ?_) (fun b pause es h t0 g =>
    C88_rc5 t hus f j hlo hf Mono.u32 (.inl rfl) tbl htbl hc conv u hu phase items hok b pause es h t0 g) hch hmin hmax n hn
  cases items with
  | nil => rfl
  | cons i items =>
    rw [List.flatMap_cons, List.append_eq_nil_iff] at h
    exact absurd h.1 (sent_nonempty (hok i (by simp)).2)

/-- **C88**, RC6 (mode 0), polled. -/
theorem C88_rc6_polled (t : Target) (hus : 16 ≤ t.usizeBits) (f j : Nat) (hlo : 20000 ≤ f) (hf : f < 2 ^ 32)
    (tbl : PulseSpans) (htbl : rc6Spans t Mono.u32 f = some tbl) (hc : coversRc6 tbl f j = true)
    (conv : Rc6Command → K) (u : Nat) (hu : 0 < u) (phase : Nat)
    (items : List ((Rc6Command × Nat) × List (Bool × Nat) × Option Nat))
    (hok : ∀ i ∈ items,
      SentFor u j f 444 (rc6Edges (i.1.1.addr ++ i.1.1.cmd) i.1.1.toggle) i.1.2 i.2.1 i.2.2)
    (hch : Changes false (items.flatMap fun i => withTail i.2.1 i.2.2))
    (hmin : ∀ e ∈ (items.flatMap fun i => withTail i.2.1 i.2.2).tail, u ≤ e.2 * f)
    (hmax : ∀ e ∈ items.flatMap fun i => withTail i.2.1 i.2.2, (e.2 * f + phase) / u + 1 < 2 ^ 32)
    (n : Nat) (hn : reading u f phase (duration (items.flatMap fun i => withTail i.2.1 i.2.2)) < n) :
    (pollRun (rc6Decoder t tbl) conv
        (polled u f phase (items.flatMap fun i => withTail i.2.1 i.2.2) n)).map said =
      some (oks ((items.filter fun i => rc6Whole i.1).map fun i => conv i.1.1)) := by
  refine polled_pieces hu (fun h => ?_) (fun b pause es h t0 g =>
    C88_rc6 t hus f j hlo hf Mono.u32 (.inl rfl) tbl htbl hc conv u hu phase items hok b pause es h t0 g) hch hmin hmax n hn
  cases items with
  | nil => rfl
  | cons i items =>
    rw [List.flatMap_cons, List.append_eq_nil_iff] at h
    exact absurd h.1 (sent_nonempty (hok i (by simp)))

/-! ## Non-vacuity -/

/-- The first `k` edges in nanoseconds, after a pause of 100 ms. -/
def sentPart (unit : Nat) (edges : List (Bool × Nat)) (k : Nat) : List (Bool × Nat) :=
  match edges.take k with
  | [] => []
  | e :: es => (e.1, 100000000) :: es.map fun x => (x.1, 1000 * (unit * x.2))

theorem sentPart_sent {f unit k : Nat} {edges : List (Bool × Nat)} {tail : Option Nat}
    (h1 : (edges.take k).head?.map Prod.fst = some true)
    (h2 : k < edges.length → ∀ x, tail = some x → k + 1 < edges.length ∧ 1000000000 ≤ x * f ∧
      ∃ n, edges[k]? = some (false, n) ∧ 100000000 * x ≤ (100 + 5) * (unit * n) * 1000000000) :
    SentFor 1000000000 5 f unit edges k (sentPart unit edges k) tail := by
  unfold sentPart SentFor
  cases ht : edges.take k with
  | nil => rw [ht] at h1; cases h1
  | cons e es =>
    obtain ⟨b, n⟩ := e
    rw [ht] at h1
    obtain rfl : b = true := by simpa using h1
    refine ⟨⟨_, _, _, _, rfl, rfl, ?_⟩, fun e he => ?_, h2⟩
    · clear h1 h2 ht
      induction es with
      | nil => trivial
      | cons e es ih =>
        refine ⟨rfl, ⟨?_, ?_⟩, ih⟩
        all_goals
          dsimp only
          generalize unit * e.2 = l
          omega
    · cases he
      dsimp only
      omega

/-- An RC5 transmission that breaks off within a mark, one that stops before its last edge and a complete
one. -/
def brokenRc5 : List ((BitVec 14 × Nat) × List (Bool × Nat) × Option Nat) :=
  [((0x3175, 9), sentPart 889 (rc5Edges 0x3175) 9, some 300000),
   ((0x3175, 18), sentPart 889 (rc5Edges 0x3175) 18, none),
   ((0x314A, 40), sentPart 889 (rc5Edges 0x314A) 40, some 889000)]

example (t : Target) (hus : 16 ≤ t.usizeBits) (phase g : Nat) :
    ∃ es, (brokenRc5.flatMap fun i => withTail i.2.1 i.2.2) = (true, 100000000) :: es ∧
      (results (rc5Decoder t (rc5Table 40000)) id
        ((true, g) :: clocked 1000000000 40000 phase (0 + 100000000) es)).map said =
      some (oks [Rc5Command.unpack 0x314A]) := by
  refine ⟨(brokenRc5.flatMap fun i => withTail i.2.1 i.2.2).tail, by decide +kernel, ?_⟩
  rw [C88_rc5 t hus 40000 5 (by decide) (by decide) Mono.u32 (.inl rfl) (rc5Table 40000)
    (rc5Spans_eq (.inl rfl) t (by decide)) (by decide +kernel) id 1000000000 (by decide) phase brokenRc5 ?_ true
    100000000 _ (by decide +kernel) 0 g]
  · decide +kernel
  · intro i hi
    simp only [brokenRc5, List.mem_cons, List.not_mem_nil, or_false] at hi
    rcases hi with rfl | rfl | rfl
    · refine ⟨by decide, sentPart_sent (by decide) fun _ x hx => ?_⟩
      cases hx
      exact ⟨by decide, by decide, 2, by decide, by decide⟩
    · exact ⟨by decide, sentPart_sent (by decide) fun _ x hx => by cases hx⟩
    · exact ⟨by decide, sentPart_sent (by decide) fun h => absurd h (by decide)⟩

/-- The same for RC6: one transmission breaks off in the leader, one in the data. -/
def brokenRc6 : List ((Rc6Command × Nat) × List (Bool × Nat) × Option Nat) :=
  [((⟨0x04, 0x5C, false⟩, 1), sentPart 444 (rc6Edges 0x045C false) 1, some 1000000),
   ((⟨0x04, 0x5C, true⟩, 20), sentPart 444 (rc6Edges 0x045C true) 20, none),
   ((⟨0x04, 0x5D, true⟩, 60), sentPart 444 (rc6Edges 0x045D true) 60, none)]

example (t : Target) (hus : 16 ≤ t.usizeBits) (phase g : Nat) :
    ∃ es, (brokenRc6.flatMap fun i => withTail i.2.1 i.2.2) = (true, 100000000) :: es ∧
      (results (rc6Decoder t (rc6Table 80000)) id
        ((true, g) :: clocked 1000000000 80000 phase (0 + 100000000) es)).map said =
      some (oks [⟨0x04, 0x5D, true⟩]) := by
  refine ⟨(brokenRc6.flatMap fun i => withTail i.2.1 i.2.2).tail, by decide +kernel, ?_⟩
  rw [C88_rc6 t hus 80000 5 (by decide) (by decide) Mono.u32 (.inl rfl) (rc6Table 80000)
    (rc6Spans_eq (.inl rfl) t (by decide)) (by decide +kernel) id 1000000000 (by decide) phase brokenRc6 ?_ true
    100000000 _ (by decide +kernel) 0 g]
  · decide +kernel
  · intro i hi
    simp only [brokenRc6, List.mem_cons, List.not_mem_nil, or_false] at hi
    rcases hi with rfl | rfl | rfl
    · refine sentPart_sent (by decide) fun _ x hx => ?_
      cases hx
      exact ⟨by decide, by decide, 6, by decide, by decide⟩
    · exact sentPart_sent (by decide) fun _ x hx => by cases hx
    · exact sentPart_sent (by decide) fun h => absurd h (by decide)

end Infrared
