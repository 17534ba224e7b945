import Verif.Props.Noisy
import Verif.Props.BrokenBi

/-!
# Noise between transmissions of the Manchester codes (C95)
-/

namespace Infrared

open Spec

variable {C K : Type}

/-! ## How many edges a command takes -/

theorem midEdges_used (par pos k : Nat) (es : List HalfEdge) :
    (midEdges par pos k es).1.length + (midEdges par pos k es).2.2.length ≤ es.length := by
  induction es generalizing pos k with
  | nil => cases k <;> simp [midEdges]
  | cons e es ih =>
    obtain ⟨l, _ | n⟩ := e <;> cases k <;> simp only [midEdges, List.length_nil, Nat.zero_add, Nat.le_refl]
    split
    · have := ih (pos + n) ‹_›
      simp only [List.length_cons]
      omega
    · have := ih (pos + n) (‹_› + 1)
      simp only [List.length_cons]
      omega

theorem toggleEdges_used (pos : Nat) (es : List HalfEdge) (h : (toggleEdges pos es).1 ≠ none) :
    (toggleEdges pos es).2.length < es.length := by
  induction es generalizing pos with
  | nil => simp [toggleEdges] at h
  | cons e es ih =>
    obtain ⟨_ | _, _ | n⟩ := e <;> unfold toggleEdges at h ⊢
    · simp at h
    · split
      · rename_i hn
        rw [if_pos hn] at h
        exact Nat.lt_succ_of_lt (ih _ h)
      · split <;> simp
    · simp at h
    · split <;> simp

theorem rc6Frame_used (es : List HalfEdge) (h : (rc6Frame es).1 ≠ none) : (rc6Frame es).2.length + 23 ≤ es.length := by
  revert h
  unfold rc6Frame
  split
  · rename_i es
    have h1 := midEdges_used 1 8 4 es
    have h2 := toggleEdges_used (midEdges 1 8 4 es).2.1 (midEdges 1 8 4 es).2.2
    dsimp only
    split
    · rename_i h4
      split
      · rename_i tg pos es' heq
        rw [heq] at h2
        have h2 := h2 (by simp)
        dsimp only at h2
        have h3 := midEdges_used 1 pos 16 es'
        split
        · intro _
          simp only [List.length_cons]
          omega
        · exact fun h => absurd rfl h
      · exact fun h => absurd rfl h
    · exact fun h => absurd rfl h
  · exact fun h => absurd rfl h
  · exact fun h => absurd rfl h

theorem rc5Parse_count (n : Nat) (es : List HalfEdge) (hn : es.length ≤ n) :
    ∃ cs, rc5Parse es = oks cs ∧ 14 * cs.length ≤ es.length := by
  induction n generalizing es with
  | zero =>
    have : es = [] := List.length_eq_zero_iff.mp (by omega)
    subst this
    exact ⟨[], by rw [rc5Parse]; rfl, by simp⟩
  | succ n ih =>
    rcases es with _ | ⟨⟨_ | _, d⟩, es⟩
    · exact ⟨[], by rw [rc5Parse]; rfl, by simp⟩
    · obtain ⟨cs, h1, h2⟩ := ih es (by simpa using hn)
      exact ⟨cs, by rw [rc5Parse, h1], by rw [List.length_cons]; omega⟩
    · rw [List.length_cons] at hn
      have hu := midEdges_used 0 0 13 es
      obtain ⟨cs, h1, h2⟩ := ih (midEdges 0 0 13 es).2.2 (by omega)
      by_cases h : (midEdges 0 0 13 es).1.length = 13
      · refine ⟨Rc5Command.unpack (wordOf 16 (true :: (midEdges 0 0 13 es).1).reverse) :: cs, ?_, ?_⟩
        · rw [rc5Parse]
          rw [if_pos h, h1]
          rfl
        · simp only [List.length_cons]
          omega
      · refine ⟨cs, ?_, by rw [List.length_cons]; omega⟩
        rw [rc5Parse]
        rw [if_neg h, h1]

theorem rc6Parse_count (n : Nat) (es : List HalfEdge) (hn : es.length ≤ n) :
    ∃ cs, rc6Parse es = oks cs ∧ 24 * cs.length ≤ es.length := by
  induction n generalizing es with
  | zero =>
    have : es = [] := List.length_eq_zero_iff.mp (by omega)
    subst this
    exact ⟨[], by rw [rc6Parse]; rfl, by simp⟩
  | succ n ih =>
    rcases es with _ | ⟨⟨_ | _, d⟩, es⟩
    · exact ⟨[], by rw [rc6Parse]; rfl, by simp⟩
    · obtain ⟨cs, h1, h2⟩ := ih es (by simpa using hn)
      exact ⟨cs, by rw [rc6Parse, h1], by rw [List.length_cons]; omega⟩
    · rw [List.length_cons] at hn
      have hl := rc6Frame_length es
      have hu := rc6Frame_used es
      obtain ⟨cs, h1, h2⟩ := ih (rc6Frame es).2 (by omega)
      rcases hc : (rc6Frame es).1 with _ | c
      · refine ⟨cs, ?_, by rw [List.length_cons]; omega⟩
        rw [rc6Parse]
        simp only [hc, h1]
      · have hu := hu (by rw [hc]; simp)
        refine ⟨c :: cs, ?_, by simp only [List.length_cons]; omega⟩
        rw [rc6Parse]
        simp only [hc, h1]
        rfl

/-! ## Piece by piece -/

/-- As `pieces_results`, if the answer to a piece is not determined by what it is. -/
theorem pieces_tells {A : Type} (D : Decoder C) (conv : C → K) (tbl : PulseSpans) (u f phase : Nat)
    (hforget : ∀ (r : Receiver D) (e : Ev), Gap tbl e.2 → ∀ after,
      (r.run _ conv (e :: after)).map Prod.snd = results D conv (e :: after))
    (ans : Unit → A → List (Res C) → Unit → Prop) (items : List (A × List (Bool × Nat) × Option Nat))
    (hcons : ∀ i ∈ items, ∃ b p es, withTail i.2.1 i.2.2 = (b, p) :: es ∧
      (∀ t, Gap tbl (reading u f phase (t + p) - reading u f phase t)) ∧
      ∀ g t, ∃ r, (results D conv ((b, g) :: clocked u f phase (t + p) es)).map said = some (r.map (Res.map conv)) ∧
        ans () i.1 r ()) :
    (∀ t, ∃ rs, (results D conv (clocked u f phase t (items.flatMap fun i => withTail i.2.1 i.2.2))).map said =
      some (rs.map (Res.map conv)) ∧ Tells ans () (items.map fun i => i.1) rs) ∧
    ∀ b p es, (items.flatMap fun i => withTail i.2.1 i.2.2) = (b, p) :: es → ∀ g t,
      ∃ rs, (results D conv ((b, g) :: clocked u f phase (t + p) es)).map said = some (rs.map (Res.map conv)) ∧
        Tells ans () (items.map fun i => i.1) rs := by
  have later : ∀ (items : List (A × List (Bool × Nat) × Option Nat)),
      (∀ i ∈ items, ∃ b p es, withTail i.2.1 i.2.2 = (b, p) :: es ∧
        ∀ t, Gap tbl (reading u f phase (t + p) - reading u f phase t)) → ∀ t (r : Receiver D),
      (r.run _ conv (clocked u f phase t (items.flatMap fun i => withTail i.2.1 i.2.2))).map Prod.snd =
        results D conv (clocked u f phase t (items.flatMap fun i => withTail i.2.1 i.2.2)) := by
    intro items h t r
    cases items with
    | nil => rfl
    | cons i items =>
      obtain ⟨b, p, es, he, hg⟩ := h i (by simp)
      rw [List.flatMap_cons, he, List.cons_append, clocked]
      exact hforget r _ (hg t) _
  induction items with
  | nil => exact ⟨fun _ => ⟨[], rfl, .nil ()⟩, fun _ _ _ h => by cases h⟩
  | cons i items ih =>
    obtain ⟨ih, -⟩ := ih fun i hi => hcons i (by simp [hi])
    obtain ⟨b, p, es, he, -, hres⟩ := hcons i (by simp)
    have main : ∀ g t, ∃ rs, (results D conv
        ((b, g) :: clocked u f phase (t + p) (es ++ items.flatMap fun i => withTail i.2.1 i.2.2))).map said =
        some (rs.map (Res.map conv)) ∧ Tells ans () ((i :: items).map fun i => i.1) rs := by
      intro g t
      obtain ⟨t', ht'⟩ := clocked_append_at u f phase es (items.flatMap fun i => withTail i.2.1 i.2.2) (t + p)
      obtain ⟨r1, hr1, ha1⟩ := hres g t
      obtain ⟨r2, hr2, ha2⟩ := ih t'
      obtain ⟨o1, h1, h2⟩ := Option.map_eq_some_iff.mp hr1
      obtain ⟨o2, h3, h4⟩ := Option.map_eq_some_iff.mp hr2
      refine ⟨r1 ++ r2, ?_, .cons ha1 ha2⟩
      rw [ht', ← List.cons_append, results_append_gap D conv h1 _ (later items (fun i hi => by
        obtain ⟨b, p, es, h, hg, -⟩ := hcons i (by simp [hi])
        exact ⟨b, p, es, h, hg⟩) t'), h3, Option.map_some, Option.map_some, said_append, h2, h4, List.map_append]
    refine ⟨fun t => ?_, fun b' p' es' h g t => ?_⟩
    · rw [List.flatMap_cons, he, List.cons_append, clocked]
      exact main _ _
    · rw [List.flatMap_cons, he, List.cons_append, List.cons.injEq, Prod.mk.injEq] at h
      obtain ⟨⟨rfl, rfl⟩, rfl⟩ := h
      exact main g t

theorem clocked_len (u f phase t : Nat) (es : List (Bool × Nat)) : (clocked u f phase t es).length = es.length := by
  induction es generalizing t with
  | nil => rfl
  | cons e es ih => simp [clocked, ih]

theorem rc5_noisy_one (t : Target) (hus : 16 ≤ t.usizeBits) (f j : Nat) (hlo : 20000 ≤ f) (hf : f < 2 ^ 32) (m : Mono)
    (hm : m = Mono.u32 ∨ m = Mono.u64) (tbl : PulseSpans) (htbl : rc5Spans t m f = some tbl)
    (hc : coversAll tbl f j rc5Lengths = true) (conv : Rc5Command → K) (u : Nat) (hu : 0 < u) (phase : Nat)
    (i : Rc5Noisy × List (Bool × Nat) × Option Nat) (h : i.1.Wire u j f i.2.1 i.2.2)
    (hp : ∀ n, i.1 = .noise n → NoPanic t n) :
    ∃ b p es, withTail i.2.1 i.2.2 = (b, p) :: es ∧
      (∀ t, Gap tbl (reading u f phase (t + p) - reading u f phase t)) ∧
      ∀ g t', ∃ r, (results (rc5Decoder t tbl) conv ((b, g) :: clocked u f phase (t' + p) es)).map said =
        some (r.map (Res.map conv)) ∧ rc5NoisyAnswer () i.1 r () := by
  obtain ⟨s, evs, tail⟩ := i
  cases s with
  | sent w k =>
    obtain ⟨b, p, es, h1, h2, h3⟩ := rc5_broken_of t hus f j hlo hf m hm tbl htbl hc conv u hu phase ((w, k), evs, tail) h.1 h.2
    refine ⟨b, p, es, h1, h2, fun g t' => ?_⟩
    by_cases hk : (rc5Edges w).length ≤ k
    · refine ⟨_, ?_, .whole w k hk⟩
      rw [h3, rc5Whole, decide_eq_true hk, if_pos rfl, oks_map]
      rfl
    · refine ⟨_, ?_, .part w k (by omega)⟩
      rw [h3, rc5Whole, decide_eq_false hk]
      rfl
  | noise n =>
    obtain ⟨hl, ht, e, es, he, hg⟩ := h
    dsimp only at hl ht he ⊢
    subst ht
    have hp := hp n rfl
    refine ⟨e.1, e.2, es, by rw [withTail, he], fun t' => long_gap hm hlo hf .rc5 (fun i l tol hi => by
      have : ∀ x ∈ Kind.symbols .rc5, (100 + x.2) * x.1 ≤ 300000 := by decide
      exact this (l, tol) (List.mem_of_getElem? hi)) htbl hu phase t' e.2 hg, fun g t' => ?_⟩
    have hsp := rc5_length hm hf htbl
    have hlen : ((e.1, g) :: clocked u f phase (t' + e.2) es).length = n := by
      rw [← hl, he, List.length_cons, List.length_cons, clocked_len]
    obtain ⟨o, ho⟩ := Option.ne_none_iff_exists'.mp (C30_rc5_no_panic t hus tbl hsp conv
      ((e.1, g) :: clocked u f phase (t' + e.2) es) (by rw [hlen]; exact hp))
    obtain ⟨cs, h1, h2⟩ := rc5Parse_count _ (halfEdges tbl ((e.1, g) :: clocked u f phase (t' + e.2) es)) (Nat.le_refl _)
    refine ⟨oks cs, ?_, .noise n cs (by rw [halfEdges, List.length_map, hlen] at h2; exact h2)⟩
    rw [ho, Option.map_some, C67_rc5 t hus tbl hsp conv _ o ho, h1]

theorem rc6_noisy_one (t : Target) (hus : 16 ≤ t.usizeBits) (f j : Nat) (hlo : 20000 ≤ f) (hf : f < 2 ^ 32) (m : Mono)
    (hm : m = Mono.u32 ∨ m = Mono.u64) (tbl : PulseSpans) (htbl : rc6Spans t m f = some tbl)
    (hc : coversRc6 tbl f j = true) (conv : Rc6Command → K) (u : Nat) (hu : 0 < u) (phase : Nat)
    (i : Rc6Noisy × List (Bool × Nat) × Option Nat) (h : i.1.Wire u j f i.2.1 i.2.2)
    (hp : ∀ n, i.1 = .noise n → NoPanic t n) :
    ∃ b p es, withTail i.2.1 i.2.2 = (b, p) :: es ∧
      (∀ t, Gap tbl (reading u f phase (t + p) - reading u f phase t)) ∧
      ∀ g t', ∃ r, (results (rc6Decoder t tbl) conv ((b, g) :: clocked u f phase (t' + p) es)).map said =
        some (r.map (Res.map conv)) ∧ rc6NoisyAnswer () i.1 r () := by
  obtain ⟨s, evs, tail⟩ := i
  cases s with
  | sent c k =>
    obtain ⟨b, p, es, h1, h2, h3⟩ := rc6_broken_of t hus f j hlo hf m hm tbl htbl hc conv u hu phase ((c, k), evs, tail) h
    refine ⟨b, p, es, h1, h2, fun g t' => ?_⟩
    by_cases hk : (rc6Edges (c.addr ++ c.cmd) c.toggle).length ≤ k
    · refine ⟨_, ?_, .whole c k hk⟩
      rw [h3, rc6Whole, decide_eq_true hk, if_pos rfl, oks_map]
      rfl
    · refine ⟨_, ?_, .part c k (by omega)⟩
      rw [h3, rc6Whole, decide_eq_false hk]
      rfl
  | noise n =>
    obtain ⟨hl, ht, e, es, he, hg⟩ := h
    dsimp only at hl ht he ⊢
    subst ht
    have hp := hp n rfl
    refine ⟨e.1, e.2, es, by rw [withTail, he], fun t' => long_gap hm hlo hf .rc6 (fun i l tol hi => by
      have : ∀ x ∈ Kind.symbols .rc6, (100 + x.2) * x.1 ≤ 300000 := by decide
      exact this (l, tol) (List.mem_of_getElem? hi)) htbl hu phase t' e.2 hg, fun g t' => ?_⟩
    have hsp := rc6_length hm hf htbl
    have hlen : ((e.1, g) :: clocked u f phase (t' + e.2) es).length = n := by
      rw [← hl, he, List.length_cons, List.length_cons, clocked_len]
    obtain ⟨o, ho⟩ := Option.ne_none_iff_exists'.mp (C30_rc6_no_panic t hus tbl hsp conv
      ((e.1, g) :: clocked u f phase (t' + e.2) es) (by rw [hlen]; exact hp))
    obtain ⟨cs, h1, h2⟩ := rc6Parse_count _ (halfEdges tbl ((e.1, g) :: clocked u f phase (t' + e.2) es)) (Nat.le_refl _)
    refine ⟨oks cs, ?_, .noise n cs (by rw [halfEdges, List.length_map, hlen] at h2; exact h2)⟩
    rw [ho, Option.map_some, C67_rc6 t hus tbl hsp conv _ o ho, h1]

/-- **C95**, RC5: transmissions (complete or not) and pieces of noise in any order, 16 ms or more apart: every transmission
is answered as without the noise. -/
theorem C95_rc5 (t : Target) (hus : 16 ≤ t.usizeBits) (f j : Nat) (hlo : 20000 ≤ f) (hf : f < 2 ^ 32) (m : Mono)
    (hm : m = Mono.u32 ∨ m = Mono.u64) (tbl : PulseSpans) (htbl : rc5Spans t m f = some tbl)
    (hc : coversAll tbl f j rc5Lengths = true) (conv : Rc5Command → K) (u : Nat) (hu : 0 < u) (phase : Nat)
    (items : List (Rc5Noisy × List (Bool × Nat) × Option Nat))
    (hok : ∀ i ∈ items, i.1.Wire u j f i.2.1 i.2.2 ∧ ∀ n, i.1 = .noise n → NoPanic t n)
    (b : Bool) (pause : Nat) (es : List (Bool × Nat))
    (hes : (items.flatMap fun i => withTail i.2.1 i.2.2) = (b, pause) :: es) (t0 g : Nat) :
    ∃ rs, (results (rc5Decoder t tbl) conv ((b, g) :: clocked u f phase (t0 + pause) es)).map said =
        some (rs.map (Res.map conv)) ∧
      Tells rc5NoisyAnswer () (items.map fun i => i.1) rs :=
  (pieces_tells (rc5Decoder t tbl) conv tbl u f phase (C29_rc5_gap_forgets t tbl conv) rc5NoisyAnswer items fun i hi =>
    rc5_noisy_one t hus f j hlo hf m hm tbl htbl hc conv u hu phase i (hok i hi).1 (hok i hi).2).2 b pause es hes g t0

/-- **C95**, RC6 (mode 0). -/
theorem C95_rc6 (t : Target) (hus : 16 ≤ t.usizeBits) (f j : Nat) (hlo : 20000 ≤ f) (hf : f < 2 ^ 32) (m : Mono)
    (hm : m = Mono.u32 ∨ m = Mono.u64) (tbl : PulseSpans) (htbl : rc6Spans t m f = some tbl)
    (hc : coversRc6 tbl f j = true) (conv : Rc6Command → K) (u : Nat) (hu : 0 < u) (phase : Nat)
    (items : List (Rc6Noisy × List (Bool × Nat) × Option Nat))
    (hok : ∀ i ∈ items, i.1.Wire u j f i.2.1 i.2.2 ∧ ∀ n, i.1 = .noise n → NoPanic t n)
    (b : Bool) (pause : Nat) (es : List (Bool × Nat))
    (hes : (items.flatMap fun i => withTail i.2.1 i.2.2) = (b, pause) :: es) (t0 g : Nat) :
    ∃ rs, (results (rc6Decoder t tbl) conv ((b, g) :: clocked u f phase (t0 + pause) es)).map said =
        some (rs.map (Res.map conv)) ∧
      Tells rc6NoisyAnswer () (items.map fun i => i.1) rs :=
  (pieces_tells (rc6Decoder t tbl) conv tbl u f phase (C29_rc6_gap_forgets t tbl conv) rc6NoisyAnswer items fun i hi =>
    rc6_noisy_one t hus f j hlo hf m hm tbl htbl hc conv u hu phase i (hok i hi).1 (hok i hi).2).2 b pause es hes g t0

/-! ## Polled receivers -/

/-- **C95**, NEC family, polled. -/
theorem C95_nec_polled (t : Target) (f j : Nat) (hlo : 20000 ≤ f) (hf : f < 2 ^ 32) (v : NecVariant C) (hv : v.Shipped)
    (tbl : PulseSpans) (htbl : necSpans t Mono.u32 v f = some tbl) (hc : coversAll tbl f j (necLengths v) = true)
    (conv : C → K) (u : Nat) (hu : 0 < u) (phase pause : Nat)
    (hg : Pause tbl 32 [0, 1] (0, reading u f phase pause + 1))
    (items : List ((NecNoisy × List (Nat × Nat)) × (Nat × Nat)))
    (hok : ∀ i ∈ items,
      i.1.1.Wire u f 32 j (v.pulseDistance.headerHigh + v.pulseDistance.headerLow)
        (v.pulseDistance.headerHigh + v.pulseDistance.repeatLow) i.1.2 ∧
      16000 * u ≤ 1000000 * (i.2.1 + i.2.2) ∧ (i.2.1 + i.2.2) * f + u < 2 ^ 32 * u)
    (hmin : ∀ e ∈ series (fun i => i.2) items, u ≤ e.2 * f)
    (hmax : ∀ e ∈ series (fun i => i.2) items, e.2 * f / u + 1 < 2 ^ 32)
    (n : Nat) (hn : reading u f phase (duration ((true, pause) :: series (fun i => i.2) items)) < n) :
    ∃ rs, (pollRun (necDecoder t Mono.u32 tbl v) conv
        (polled u f phase ((true, pause) :: series (fun i => i.2) items) n)).map said = some (rs.map (Res.map conv)) ∧
      Tells (necNoisyAnswer v.unpack) 0 (items.map fun i => i.1.1) rs := by
  have hg1 := hg.1
  dsimp only at hg1
  rw [C54_polled_line_long _ conv u hu f phase true pause _ (changes_series ..) hmin n hn (by omega) hmax]
  exact C95_nec t f j hlo hf v hv Mono.u32 (.inl rfl) tbl htbl hc conv u hu phase pause _ hg items hok

/-- **C95**, SBP, polled. -/
theorem C95_sbp_polled (t : Target) (f j : Nat) (hlo : 20000 ≤ f) (hf : f < 2 ^ 32) (tbl : PulseSpans)
    (htbl : sbpSpans t Mono.u32 f = some tbl) (hc : coversAll tbl f j sbpLengths = true)
    (conv : SbpCommand → K) (u : Nat) (hu : 0 < u) (phase pause : Nat)
    (hg : Pause tbl 32 [0] (0, reading u f phase pause + 1))
    (items : List ((SbpNoisy × List (Nat × Nat)) × (Nat × Nat)))
    (hok : ∀ i ∈ items, i.1.1.Wire u f 32 j i.1.2 ∧
      16000 * u ≤ 1000000 * (i.2.1 + i.2.2) ∧ (i.2.1 + i.2.2) * f + u < 2 ^ 32 * u)
    (hmin : ∀ e ∈ series (fun i => i.2) items, u ≤ e.2 * f)
    (hmax : ∀ e ∈ series (fun i => i.2) items, e.2 * f / u + 1 < 2 ^ 32)
    (n : Nat) (hn : reading u f phase (duration ((true, pause) :: series (fun i => i.2) items)) < n) :
    ∃ rs, (pollRun (sbpDecoder t Mono.u32 tbl) conv
        (polled u f phase ((true, pause) :: series (fun i => i.2) items) n)).map said = some (rs.map (Res.map conv)) ∧
      Tells sbpNoisyAnswer () (items.map fun i => i.1.1) rs := by
  have hg1 := hg.1
  dsimp only at hg1
  rw [C54_polled_line_long _ conv u hu f phase true pause _ (changes_series ..) hmin n hn (by omega) hmax]
  exact C95_sbp t f j hlo hf Mono.u32 (.inl rfl) tbl htbl hc conv u hu phase pause _ hg items hok

/-- **C95**, Denon, polled. -/
theorem C95_denon_polled (t : Target) (f j : Nat) (hlo : 20000 ≤ f) (hf : f < 2 ^ 32) (tbl : PulseSpans)
    (htbl : denonSpans t Mono.u32 f = some tbl) (hc : coversAll tbl f j denonLengths = true)
    (conv : DenonCommand → K) (u : Nat) (hu : 0 < u) (phase pause : Nat)
    (hg : Pause tbl 32 [0] (0, reading u f phase pause + 1))
    (items : List ((DenonNoisy × List (Nat × Nat)) × (Nat × Nat)))
    (hok : ∀ i ∈ items, i.1.1.Wire u f 32 j i.1.2 ∧
      16000 * u ≤ 1000000 * (i.2.1 + i.2.2) ∧ (i.2.1 + i.2.2) * f + u < 2 ^ 32 * u)
    (hmin : ∀ e ∈ series (fun i => i.2) items, u ≤ e.2 * f)
    (hmax : ∀ e ∈ series (fun i => i.2) items, e.2 * f / u + 1 < 2 ^ 32)
    (n : Nat) (hn : reading u f phase (duration ((true, pause) :: series (fun i => i.2) items)) < n) :
    ∃ rs, (pollRun (denonDecoder t Mono.u32 tbl) conv
        (polled u f phase ((true, pause) :: series (fun i => i.2) items) n)).map said = some (rs.map (Res.map conv)) ∧
      Tells denonNoisyAnswer 0 (items.map fun i => i.1.1) rs := by
  have hg1 := hg.1
  dsimp only at hg1
  rw [C54_polled_line_long _ conv u hu f phase true pause _ (changes_series ..) hmin n hn (by omega) hmax]
  exact C95_denon t f j hlo hf Mono.u32 (.inl rfl) tbl htbl hc conv u hu phase pause _ hg items hok

theorem wire5_nonempty {u j f : Nat} {s : Rc5Noisy} {evs : List (Bool × Nat)} {tail : Option Nat}
    (h : s.Wire u j f evs tail) : withTail evs tail ≠ [] := by
  cases s with
  | sent w k => exact sent_nonempty h.2
  | noise n =>
    obtain ⟨-, rfl, e, es, rfl, -⟩ := h
    simp [withTail]

theorem wire6_nonempty {u j f : Nat} {s : Rc6Noisy} {evs : List (Bool × Nat)} {tail : Option Nat}
    (h : s.Wire u j f evs tail) : withTail evs tail ≠ [] := by
  cases s with
  | sent c k => exact sent_nonempty h
  | noise n =>
    obtain ⟨-, rfl, e, es, rfl, -⟩ := h
    simp [withTail]

/-- **C95**, RC5, polled. -/
theorem C95_rc5_polled (t : Target) (hus : 16 ≤ t.usizeBits) (f j : Nat) (hlo : 20000 ≤ f) (hf : f < 2 ^ 32)
    (tbl : PulseSpans) (htbl : rc5Spans t Mono.u32 f = some tbl) (hc : coversAll tbl f j rc5Lengths = true)
    (conv : Rc5Command → K) (u : Nat) (hu : 0 < u) (phase : Nat)
    (items : List (Rc5Noisy × List (Bool × Nat) × Option Nat))
    (hok : ∀ i ∈ items, i.1.Wire u j f i.2.1 i.2.2 ∧ ∀ n, i.1 = .noise n → NoPanic t n)
    (hch : Changes false (items.flatMap fun i => withTail i.2.1 i.2.2))
    (hmin : ∀ e ∈ (items.flatMap fun i => withTail i.2.1 i.2.2).tail, u ≤ e.2 * f)
    (hmax : ∀ e ∈ items.flatMap fun i => withTail i.2.1 i.2.2, (e.2 * f + phase) / u + 1 < 2 ^ 32)
    (n : Nat) (hn : reading u f phase (duration (items.flatMap fun i => withTail i.2.1 i.2.2)) < n) :
    ∃ rs, (pollRun (rc5Decoder t tbl) conv
        (polled u f phase (items.flatMap fun i => withTail i.2.1 i.2.2) n)).map said = some (rs.map (Res.map conv)) ∧
      Tells rc5NoisyAnswer () (items.map fun i => i.1) rs := by
  rcases hl : (items.flatMap fun i => withTail i.2.1 i.2.2) with _ | ⟨⟨b, pause⟩, es⟩
  · cases items with
    | nil => exact ⟨[], polled_pieces (line := []) hu (fun _ => rfl) (fun _ _ _ h => by cases h) trivial (by simp) (by simp) n
        (by rw [← hl]; exact hn), .nil ()⟩
    | cons i items =>
      rw [List.flatMap_cons, List.append_eq_nil_iff] at hl
      exact absurd hl.1 (wire5_nonempty (hok i (by simp)).1)
  · obtain ⟨rs, h1, h2⟩ := C95_rc5 t hus f j hlo hf Mono.u32 (.inl rfl) tbl htbl hc conv u hu phase items hok b pause es hl 0
      (reading u f phase pause + 1)
    refine ⟨rs, ?_, h2⟩
    rw [hl] at hch hmin hmax hn
    rw [hl, C54_polled_line_long _ conv u hu f phase b pause es hch hmin n hn (hmax (b, pause) (List.mem_cons_self ..))
      fun e he => ?_]
    · rwa [Nat.zero_add] at h1
    · have := hmax e (List.mem_cons_of_mem _ he)
      have h2 : e.2 * f / u ≤ (e.2 * f + phase) / u := Nat.div_le_div_right (by omega)
      omega

/-- **C95**, RC6 (mode 0), polled. -/
theorem C95_rc6_polled (t : Target) (hus : 16 ≤ t.usizeBits) (f j : Nat) (hlo : 20000 ≤ f) (hf : f < 2 ^ 32)
    (tbl : PulseSpans) (htbl : rc6Spans t Mono.u32 f = some tbl) (hc : coversRc6 tbl f j = true)
    (conv : Rc6Command → K) (u : Nat) (hu : 0 < u) (phase : Nat)
    (items : List (Rc6Noisy × List (Bool × Nat) × Option Nat))
    (hok : ∀ i ∈ items, i.1.Wire u j f i.2.1 i.2.2 ∧ ∀ n, i.1 = .noise n → NoPanic t n)
    (hch : Changes false (items.flatMap fun i => withTail i.2.1 i.2.2))
    (hmin : ∀ e ∈ (items.flatMap fun i => withTail i.2.1 i.2.2).tail, u ≤ e.2 * f)
    (hmax : ∀ e ∈ items.flatMap fun i => withTail i.2.1 i.2.2, (e.2 * f + phase) / u + 1 < 2 ^ 32)
    (n : Nat) (hn : reading u f phase (duration (items.flatMap fun i => withTail i.2.1 i.2.2)) < n) :
    ∃ rs, (pollRun (rc6Decoder t tbl) conv
        (polled u f phase (items.flatMap fun i => withTail i.2.1 i.2.2) n)).map said = some (rs.map (Res.map conv)) ∧
      Tells rc6NoisyAnswer () (items.map fun i => i.1) rs := by
  rcases hl : (items.flatMap fun i => withTail i.2.1 i.2.2) with _ | ⟨⟨b, pause⟩, es⟩
  · cases items with
    | nil => exact ⟨[], polled_pieces (line := []) hu (fun _ => rfl) (fun _ _ _ h => by cases h) trivial (by simp) (by simp) n
        (by rw [← hl]; exact hn), .nil ()⟩
    | cons i items =>
      rw [List.flatMap_cons, List.append_eq_nil_iff] at hl
      exact absurd hl.1 (wire6_nonempty (hok i (by simp)).1)
  · obtain ⟨rs, h1, h2⟩ := C95_rc6 t hus f j hlo hf Mono.u32 (.inl rfl) tbl htbl hc conv u hu phase items hok b pause es hl 0
      (reading u f phase pause + 1)
    refine ⟨rs, ?_, h2⟩
    rw [hl] at hch hmin hmax hn
    rw [hl, C54_polled_line_long _ conv u hu f phase b pause es hch hmin n hn (hmax (b, pause) (List.mem_cons_self ..))
      fun e he => ?_]
    · rwa [Nat.zero_add] at h1
    · have := hmax e (List.mem_cons_of_mem _ he)
      have h2 : e.2 * f / u ≤ (e.2 * f + phase) / u := Nat.div_le_div_right (by omega)
      omega

end Infrared
