import Verif.Props.DriftBad
import Verif.Props.BrokenBi
import Verif.Props.Documented
import Verif.Props.Parse
import Verif.Props.Robust

/-!
# Clocks that are too far off, RC5 and RC6 (C90)
-/

namespace Infrared

open Spec

variable {K : Type}

theorem seems_reject {k : Kind} {t : Target} {m : Mono} (hm : m = Mono.u32 ∨ m = Mono.u64) {f : Nat} (hf : f < 2 ^ 32)
    {tbl : PulseSpans} (htbl : k.build t m f = some tbl) {d : Nat} (hd : 0 < d)
    (h : ∀ i l tol : Nat, k.symbols[i]? = some (l, tol) → (100 + tol) * l * f < 100000000 * d ∨
      10000000000 * (100 * d + (100 - tol)) < 9968 * ((100 - tol) * l * f)) : tbl.get d = none := by
  rcases hg : tbl.get d with _ | i
  · rfl
  · obtain ⟨h1, h2⟩ := C52_rejects k t m hm f hf tbl htbl i d (get_inTol hg)
    rcases hs : k.symbols[i]? with _ | ⟨l, tol⟩
    · exact absurd (h2 hs) (by omega)
    · have := h1 l tol hs
      have := h i l tol hs
      omega

/-! ## RC5 -/

/-- At most `k` measurable edges come before the next that is not, and at most two in a row after that. -/
def Calm : Nat → List HalfEdge → Prop
  | _, [] => True
  | _, (_, none) :: es => Calm 2 es
  | 0, (_, some _) :: _ => False
  | k + 1, (_, some _) :: es => Calm k es

theorem Calm.mono {k k' : Nat} {es : List HalfEdge} (h : Calm k es) (hk : k ≤ k') : Calm k' es := by
  induction es generalizing k k' with
  | nil => trivial
  | cons e es ih =>
    obtain ⟨l, _ | n⟩ := e
    · cases k <;> cases k' <;> exact h
    · cases k with
      | zero => exact h.elim
      | succ k => cases k' with
        | zero => omega
        | succ k' => exact ih (k' := k') h (by omega)

theorem calm_mid {k : Nat} {es : List HalfEdge} (hk : k ≤ 2) (h : Calm k es) (pos n : Nat) :
    (midEdges 0 pos n es).1.length ≤ k ∧ Calm 2 (midEdges 0 pos n es).2.2 := by
  induction es generalizing k pos n with
  | nil => cases n <;> simp [midEdges, Calm]
  | cons e es ih =>
    cases n with
    | zero => exact ⟨by simp [midEdges], by rw [midEdges]; exact h.mono hk⟩
    | succ n =>
      obtain ⟨l, _ | x⟩ := e
      · rw [midEdges]; exact ⟨by simp, h.mono hk⟩
      · cases k with
        | zero => exact h.elim
        | succ k =>
          rw [midEdges]
          split
          · obtain ⟨a, b⟩ := ih (by omega) h (pos + x) n
            exact ⟨by simpa using a, b⟩
          · obtain ⟨a, b⟩ := ih (by omega) h (pos + x) (n + 1)
            exact ⟨by omega, b⟩

theorem rc5Parse_calm (n : Nat) (es : List HalfEdge) (hn : es.length ≤ n) (h : Calm 2 es) : rc5Parse es = [] := by
  induction n generalizing es with
  | zero =>
    rw [List.eq_nil_of_length_eq_zero (Nat.le_zero.mp hn), rc5Parse]
  | succ n ih =>
    cases es with
    | nil => rw [rc5Parse]
    | cons e es =>
      rw [List.length_cons] at hn
      have h' : Calm 2 es := by
        obtain ⟨l, _ | x⟩ := e
        · exact h
        · exact Calm.mono (k := 1) h (by decide)
      obtain ⟨_ | _, x⟩ := e
      · rw [rc5Parse]
        exact ih es (by omega) h'
      · obtain ⟨a, b⟩ := calm_mid (Nat.le_refl 2) h' 0 13
        rw [rc5Parse, if_neg (by omega)]
        have := midEdges_length 0 0 13 es
        exact ih _ (by omega) b

theorem calm_none {a b : List HalfEdge} (ha : ∀ e ∈ a, e.2 = none) (hne : a ≠ []) (h : Calm 2 b) (k : Nat) :
    Calm k (a ++ b) := by
  induction a generalizing k with
  | nil => exact absurd rfl hne
  | cons e a ih =>
    have he := ha e (by simp)
    obtain ⟨l, x⟩ := e
    dsimp only at he
    subst he
    rw [List.cons_append]
    cases k <;>
    · show Calm 2 (a ++ b)
      by_cases hn : a = []
      · subst hn; exact h
      · exact ih (fun e he => ha e (by simp [he])) hn 2

theorem calm_cons {k : Nat} {e : HalfEdge} {es : List HalfEdge} (hk : k ≤ 2) (h : Calm k es) : Calm (k + 1) (e :: es) := by
  obtain ⟨l, _ | x⟩ := e
  · exact h.mono hk
  · exact h

/-- Edges that seem to be of the given lengths are all rejected. -/
theorem timed_rejected {tbl : PulseSpans} {u f r lo hi unit : Nat} (hu : 0 < u)
    (hrej : ∀ n d, n = 1 ∨ n = 2 → lo * (unit * n) * f ≤ 100000000 * (d + 1) →
      100000000 * d ≤ hi * (unit * n) * f + 100000000 → tbl.get d = none)
    {es ws : List (Bool × Nat)} (hws : ∀ w ∈ ws, w.2 = 1 ∨ w.2 = 2)
    (h : Timed (fun x n => Seems u f r lo hi (unit * n) x) es ws) (phase t : Nat) :
    ∀ e ∈ halfEdges tbl (clocked u r phase t es), e.2 = none := by
  induction es generalizing ws t with
  | nil => simp [halfEdges, clocked]
  | cons e es ih =>
    cases ws with
    | nil => exact h.elim
    | cons w ws =>
      obtain ⟨-, h2, h3⟩ := h
      intro x hx
      obtain ⟨b, y⟩ := e
      rw [clocked, halfEdges, List.map_cons, List.mem_cons] at hx
      rcases hx with rfl | hx
      · obtain ⟨a1, a2⟩ := seems_ticks hu h2 phase t
        dsimp only at a1 a2 ⊢
        rw [hrej _ _ (hws w (by simp)) a1 a2]
        rfl
      · exact ih (fun w hw => hws w (by simp [hw])) h3 (t + y) x hx

theorem calm_series {tbl : PulseSpans} {u f r lo hi phase : Nat} (hu : 0 < u)
    (hrej : ∀ n d, n = 1 ∨ n = 2 → lo * (889 * n) * f ≤ 100000000 * (d + 1) →
      100000000 * d ≤ hi * (889 * n) * f + 100000000 → tbl.get d = none)
    (items : List (BitVec 14 × List (Bool × Nat) × Option Nat))
    (hok : ∀ i ∈ items, i.1.getLsbD 13 = true ∧
      ManchesterFrame (fun x n => Seems u f r lo hi (889 * n) x) (rc5Edges i.1) i.2.1) (t : Nat) :
    ∀ e es, (items.flatMap fun i => withTail i.2.1 i.2.2) = e :: es → Calm 0 (halfEdges tbl (clocked u r phase t es)) := by
  induction items generalizing t with
  | nil => intro e es h; cases h
  | cons i items ih =>
    obtain ⟨h13, p, n, evs', edges', he, hed, ht⟩ := hok i (by simp)
    rw [rc5Edges_eq i.1 h13, List.cons.injEq] at hed
    obtain ⟨-, rfl⟩ := hed
    have hne : evs' ≠ [] := by
      rintro rfl
      have := (rc5_edges_count i.1 13 true).1
      cases hl : edgesFrom true 1 (rc5Tail i.1 13) with
      | nil => rw [hl] at this; simp at this
      | cons _ _ => rw [hl] at ht; exact ht
    have hnone := fun t' => timed_rejected (tbl := tbl) hu hrej (fun w hw => rc5_edges_len i.1 13 true w hw) ht phase t'
    have ih' : ∀ t, Calm 1 (halfEdges tbl (clocked u r phase t (items.flatMap fun i => withTail i.2.1 i.2.2))) := by
      intro t
      have h := ih fun i hi => hok i (by simp [hi])
      rcases hf : items.flatMap (fun i => withTail i.2.1 i.2.2) with _ | ⟨⟨b, x⟩, es⟩
      · rw [hf]; trivial
      · rw [hf, clocked, halfEdges, List.map_cons]
        exact calm_cons (by decide) (h _ _ _ hf)
    have key : ∀ (tl : List (Bool × Nat)), (tl = [] ∨ ∃ x, tl = [(false, x)]) →
        Calm 0 (halfEdges tbl (clocked u r phase t (evs' ++ (tl ++ items.flatMap fun i => withTail i.2.1 i.2.2)))) := by
      intro tl htl
      obtain ⟨t1, h1⟩ := clocked_append_at u r phase evs' (tl ++ items.flatMap fun i => withTail i.2.1 i.2.2) t
      rw [h1, halfEdges_append]
      refine calm_none (hnone _) ?_ ?_ 0
      · intro h
        rw [halfEdges, List.map_eq_nil_iff] at h
        have := congrArg List.length h
        rw [clocked_length] at this
        exact hne (List.eq_nil_of_length_eq_zero this)
      · rcases htl with rfl | ⟨x, rfl⟩
        · exact (ih' t1).mono (by decide)
        · rw [List.singleton_append, clocked, halfEdges, List.map_cons]
          exact calm_cons (k := 1) (by decide) (ih' _)
    intro e es hes
    rw [List.flatMap_cons, he] at hes
    cases h2 : i.2.2 with
    | none =>
      rw [h2, withTail, List.cons_append, List.cons.injEq] at hes
      rw [← hes.2]
      simpa using key [] (.inl rfl)
    | some x =>
      rw [h2, withTail, List.cons_append, List.cons_append, List.cons.injEq] at hes
      rw [← hes.2, List.append_assoc]
      exact key [(false, x)] (.inr ⟨x, rfl⟩)

/-- **C90**, RC5: if everything seems to take between 59 and 77, or between 118 and 168 percent of its time, a receiver
says nothing. -/
theorem C90_rc5_deaf (t : Target) (hus : 16 ≤ t.usizeBits) (f : Nat) (hlo : 20000 ≤ f) (hf : f < 2 ^ 32) (m : Mono)
    (hm : m = Mono.u32 ∨ m = Mono.u64) (tbl : PulseSpans) (htbl : rc5Spans t m f = some tbl) (conv : Rc5Command → K)
    (r lo hi : Nat) (hlh : lo = 59 ∧ hi = 77 ∨ lo = 118 ∧ hi = 168) (u : Nat) (hu : 0 < u) (phase : Nat)
    (items : List (BitVec 14 × List (Bool × Nat) × Option Nat))
    (hok : ∀ i ∈ items, i.1.getLsbD 13 = true ∧
      ManchesterFrame (fun x n => Seems u f r lo hi (889 * n) x) (rc5Edges i.1) i.2.1)
    (b : Bool) (pause : Nat) (es : List (Bool × Nat))
    (hes : (items.flatMap fun i => withTail i.2.1 i.2.2) = (b, pause) :: es)
    (hlen : t.overflowChecks = false ∨ 8 * (es.length + 1) < 2 ^ t.usizeBits) (t0 g : Nat) :
    (results (rc5Decoder t tbl) conv ((b, g) :: clocked u r phase (t0 + pause) es)).map said = some [] := by
  have hb : Kind.rc5.build t m f = some tbl := htbl
  have hl8 : tbl.spans.length ≤ 8 := by
    rw [rc5Spans_eq hm t hf, Option.some.injEq] at htbl
    subst htbl
    simp [rc5Table]
  rcases hr : results (rc5Decoder t tbl) conv ((b, g) :: clocked u r phase (t0 + pause) es) with _ | outs
  · exact absurd hr (C30_rc5_no_panic t hus tbl hl8 conv _ (by simpa [clocked_length] using hlen))
  · rw [Option.map_some, C67_rc5 t hus tbl hl8 conv _ outs hr, rc5Parse_calm _ _ (Nat.le_refl _)]
    · rfl
    · have := calm_series (tbl := tbl) (phase := phase) hu (by
        intro n d hn h1 h2
        refine seems_reject hm hf hb ?_ ?_
        · rcases hlh with ⟨rfl, rfl⟩ | ⟨rfl, rfl⟩ <;> rcases hn with rfl | rfl <;> omega
        · intro i l tol hs
          match i with
          | 0 =>
            cases hs
            rcases hlh with ⟨rfl, rfl⟩ | ⟨rfl, rfl⟩ <;> rcases hn with rfl | rfl <;> omega
          | 1 =>
            cases hs
            rcases hlh with ⟨rfl, rfl⟩ | ⟨rfl, rfl⟩ <;> rcases hn with rfl | rfl <;> omega
          | i + 2 => cases hs) items hok (t0 + pause) _ _ hes
      rw [halfEdges, List.map_cons]
      exact (calm_cons (k := 0) (by decide) this).mono (by decide)

/-! ## RC6 -/

theorem rc6Parse_unled (n : Nat) (es : List HalfEdge) (hn : es.length ≤ n) (h : (false, some 6) ∉ es) :
    rc6Parse es = [] := by
  induction n generalizing es with
  | zero => rw [List.eq_nil_of_length_eq_zero (Nat.le_zero.mp hn), rc6Parse]
  | succ n ih =>
    cases es with
    | nil => rw [rc6Parse]
    | cons e es =>
      rw [List.length_cons] at hn
      have h' : (false, some 6) ∉ es := fun hm => h (List.mem_cons_of_mem _ hm)
      obtain ⟨_ | _, x⟩ := e
      · rw [rc6Parse]
        exact ih es (by omega) h'
      · have hfr : rc6Frame es = (none, missed es) := by
          unfold rc6Frame
          split
          · exact absurd (List.mem_cons_self ..) h'
          · exact absurd (List.mem_cons_self ..) h'
          · rfl
        rw [rc6Parse, hfr]
        have hl := missed_length es
        refine ih _ (by dsimp only; omega) fun hm => ?_
        rcases es with _ | ⟨⟨l, _ | y⟩, es⟩
        · exact h' hm
        · exact h' hm
        · exact h' (List.mem_cons_of_mem _ hm)

/-- No edge that seems to be of a length `n` other than the leader, or of a leader that is out of tolerance, is read as
six half-bits. -/
theorem timed_unled {tbl : PulseSpans} {u f r lo hi : Nat} (hu : 0 < u)
    (hrej : ∀ n d, n = 1 ∨ n = 2 ∨ n = 3 ∨ n = 6 → lo * (444 * n) * f ≤ 100000000 * (d + 1) →
      100000000 * d ≤ hi * (444 * n) * f + 100000000 → tbl.get d ≠ some 5)
    {es ws : List (Bool × Nat)} (hws : ∀ w ∈ ws, w.2 = 1 ∨ w.2 = 2 ∨ w.2 = 3 ∨ w.2 = 6)
    (h : Timed (fun x n => Seems u f r lo hi (444 * n) x) es ws) (phase t : Nat) :
    (false, some 6) ∉ halfEdges tbl (clocked u r phase t es) := by
  induction es generalizing ws t with
  | nil => simp [halfEdges, clocked]
  | cons e es ih =>
    cases ws with
    | nil => exact h.elim
    | cons w ws =>
      obtain ⟨-, h2, h3⟩ := h
      obtain ⟨b, y⟩ := e
      rw [clocked, halfEdges, List.map_cons, List.mem_cons]
      rintro (hx | hx)
      · obtain ⟨a1, a2⟩ := seems_ticks hu h2 phase t
        dsimp only at a1 a2 hx
        rw [Prod.mk.injEq] at hx
        have hx := hx.2
        rw [eq_comm, Option.map_eq_some_iff] at hx
        obtain ⟨z, hz, hz'⟩ := hx
        rw [show z = 5 by omega] at hz
        exact hrej _ _ (hws w (by simp)) a1 a2 hz
      · exact ih (fun w hw => hws w (by simp [hw])) h3 (t + y) hx

theorem unled_series {tbl : PulseSpans} {u f r lo hi phase : Nat} (hu : 0 < u)
    (hrej : ∀ n d, n = 1 ∨ n = 2 ∨ n = 3 ∨ n = 6 → lo * (444 * n) * f ≤ 100000000 * (d + 1) →
      100000000 * d ≤ hi * (444 * n) * f + 100000000 → tbl.get d ≠ some 5)
    (items : List (Rc6Command × List (Bool × Nat) × Option Nat))
    (hok : ∀ i ∈ items, ManchesterFrame (fun x n => Seems u f r lo hi (444 * n) x)
      (rc6Edges (i.1.addr ++ i.1.cmd) i.1.toggle) i.2.1 ∧ ∀ x, i.2.2 = some x → Seems u f r lo hi (444 * 1) x) (t : Nat) :
    (false, some 6) ∉ halfEdges tbl (clocked u r phase t (items.flatMap fun i => withTail i.2.1 i.2.2)) := by
  induction items generalizing t with
  | nil => simp [halfEdges, clocked]
  | cons i items ih =>
    obtain ⟨⟨p, n, evs', edges', he, hed, ht⟩, htl⟩ := hok i (by simp)
    have hws : ∀ w ∈ edges', w.2 = 1 ∨ w.2 = 2 ∨ w.2 = 3 ∨ w.2 = 6 := by
      rw [rc6Edges, rc6Edges_eq 0 (.inl rfl), List.cons.injEq] at hed
      rw [← hed.2]
      exact rc6_edges_len _ _
    obtain ⟨t1, h1⟩ := clocked_append_at u r phase (withTail i.2.1 i.2.2) (items.flatMap fun i => withTail i.2.1 i.2.2) t
    rw [List.flatMap_cons, h1, halfEdges_append, List.mem_append]
    rintro (h | h)
    · rw [he] at h
      have key : ∀ (tl : List (Bool × Nat)) (ws : List (Bool × Nat)), (tl = [] ∧ ws = [] ∨
          ∃ x, tl = [(false, x)] ∧ ws = [(false, 1)] ∧ Seems u f r lo hi (444 * 1) x) →
          (false, some 6) ∉ halfEdges tbl (clocked u r phase t ((true, p) :: (evs' ++ tl))) := by
        intro tl ws hw
        rw [clocked, halfEdges, List.map_cons, List.mem_cons]
        rintro (h | h)
        · cases h
        · obtain ⟨t2, h2⟩ := clocked_append_at u r phase evs' tl (t + p)
          rw [h2, List.map_append, List.mem_append] at h
          rcases h with h | h
          · exact timed_unled hu hrej hws ht phase _ h
          · rcases hw with ⟨rfl, -⟩ | ⟨x, rfl, rfl, hx⟩
            · cases h
            · refine timed_unled (ws := [(false, 1)]) hu hrej (by simp) ?_ phase t2 h
              exact ⟨rfl, hx, trivial⟩
      cases h2 : i.2.2 with
      | none =>
        rw [h2, withTail] at h
        exact key [] [] (.inl ⟨rfl, rfl⟩) (by simpa using h)
      | some x =>
        rw [h2, withTail, List.cons_append] at h
        exact key [(false, x)] [(false, 1)] (.inr ⟨x, rfl, rfl, htl x h2⟩) h
    · exact ih (fun i hi => hok i (by simp [hi])) t1 h

/-- **C90**, RC6 (mode 0): if everything seems to take between 50 and 84, or between 114 and 168 percent of its time, a
receiver says nothing. -/
theorem C90_rc6_deaf (t : Target) (hus : 16 ≤ t.usizeBits) (f : Nat) (hlo : 20000 ≤ f) (hf : f < 2 ^ 32) (m : Mono)
    (hm : m = Mono.u32 ∨ m = Mono.u64) (tbl : PulseSpans) (htbl : rc6Spans t m f = some tbl) (conv : Rc6Command → K)
    (r lo hi : Nat) (hlh : lo = 50 ∧ hi = 84 ∨ lo = 114 ∧ hi = 168) (u : Nat) (hu : 0 < u) (phase : Nat)
    (items : List (Rc6Command × List (Bool × Nat) × Option Nat))
    (hok : ∀ i ∈ items, ManchesterFrame (fun x n => Seems u f r lo hi (444 * n) x)
      (rc6Edges (i.1.addr ++ i.1.cmd) i.1.toggle) i.2.1 ∧ ∀ x, i.2.2 = some x → Seems u f r lo hi (444 * 1) x)
    (b : Bool) (pause : Nat) (es : List (Bool × Nat))
    (hes : (items.flatMap fun i => withTail i.2.1 i.2.2) = (b, pause) :: es)
    (hlen : t.overflowChecks = false ∨ 8 * (es.length + 1) < 2 ^ t.usizeBits) (t0 g : Nat) :
    (results (rc6Decoder t tbl) conv ((b, g) :: clocked u r phase (t0 + pause) es)).map said = some [] := by
  have hb : Kind.rc6.build t m f = some tbl := htbl
  have hl8 : tbl.spans.length ≤ 8 := by
    rw [rc6Spans_eq hm t hf, Option.some.injEq] at htbl
    subst htbl
    simp [rc6Table]
  have hb1 : b = true := by
    cases items with
    | nil => cases hes
    | cons i items =>
      obtain ⟨p, es1, h1⟩ := withTail_frame (hok i (by simp)).1 i.2.2
      rw [List.flatMap_cons, h1, List.cons_append, List.cons.injEq, Prod.mk.injEq] at hes
      exact hes.1.1.symm
  subst hb1
  rcases hr : results (rc6Decoder t tbl) conv ((true, g) :: clocked u r phase (t0 + pause) es) with _ | outs
  · exact absurd hr (C30_rc6_no_panic t hus tbl hl8 conv _ (by simpa [clocked_length] using hlen))
  · rw [Option.map_some, C67_rc6 t hus tbl hl8 conv _ outs hr, rc6Parse_unled _ _ (Nat.le_refl _)]
    · rfl
    · have := unled_series (tbl := tbl) (phase := phase) hu (by
        intro n d hn h1 h2
        refine kind_rejects hm hf hb (i := 5) (l := 2664) (tol := 12) rfl ?_
        rcases hlh with ⟨rfl, rfl⟩ | ⟨rfl, rfl⟩ <;> rcases hn with rfl | rfl | rfl | rfl <;> omega) items hok t0
      rw [hes, clocked, halfEdges, List.map_cons, List.mem_cons, not_or] at this
      rw [halfEdges, List.map_cons, List.mem_cons, not_or]
      exact ⟨by simp, this.2⟩

/-! ## Polled receivers -/

/-- **C90**, RC5, polled. -/
theorem C90_rc5_deaf_polled (t : Target) (hus : 16 ≤ t.usizeBits) (f : Nat) (hlo : 20000 ≤ f) (hf : f < 2 ^ 32)
    (tbl : PulseSpans) (htbl : rc5Spans t Mono.u32 f = some tbl) (conv : Rc5Command → K)
    (r lo hi : Nat) (hlh : lo = 59 ∧ hi = 77 ∨ lo = 118 ∧ hi = 168) (u : Nat) (hu : 0 < u) (phase : Nat)
    (items : List (BitVec 14 × List (Bool × Nat) × Option Nat))
    (hok : ∀ i ∈ items, i.1.getLsbD 13 = true ∧
      ManchesterFrame (fun x n => Seems u f r lo hi (889 * n) x) (rc5Edges i.1) i.2.1)
    (hlen : t.overflowChecks = false ∨ 8 * (items.flatMap fun i => withTail i.2.1 i.2.2).length < 2 ^ t.usizeBits)
    (hch : Changes false (items.flatMap fun i => withTail i.2.1 i.2.2))
    (hmin : ∀ e ∈ (items.flatMap fun i => withTail i.2.1 i.2.2).tail, u ≤ e.2 * r)
    (hmax : ∀ e ∈ items.flatMap fun i => withTail i.2.1 i.2.2, (e.2 * r + phase) / u + 1 < 2 ^ 32)
    (n : Nat) (hn : reading u r phase (duration (items.flatMap fun i => withTail i.2.1 i.2.2)) < n) :
    (pollRun (rc5Decoder t tbl) conv
        (polled u r phase (items.flatMap fun i => withTail i.2.1 i.2.2) n)).map said = some [] :=
  polled_pieces hu (fun _ => rfl) (fun b pause es h t0 g =>
    C90_rc5_deaf t hus f hlo hf Mono.u32 (.inl rfl) tbl htbl conv r lo hi hlh u hu phase items hok b pause es h
      (by rwa [h, List.length_cons] at hlen) t0 g) hch hmin hmax n hn

/-- **C90**, RC6 (mode 0), polled. -/
theorem C90_rc6_deaf_polled (t : Target) (hus : 16 ≤ t.usizeBits) (f : Nat) (hlo : 20000 ≤ f) (hf : f < 2 ^ 32)
    (tbl : PulseSpans) (htbl : rc6Spans t Mono.u32 f = some tbl) (conv : Rc6Command → K)
    (r lo hi : Nat) (hlh : lo = 50 ∧ hi = 84 ∨ lo = 114 ∧ hi = 168) (u : Nat) (hu : 0 < u) (phase : Nat)
    (items : List (Rc6Command × List (Bool × Nat) × Option Nat))
    (hok : ∀ i ∈ items, ManchesterFrame (fun x n => Seems u f r lo hi (444 * n) x)
      (rc6Edges (i.1.addr ++ i.1.cmd) i.1.toggle) i.2.1 ∧ ∀ x, i.2.2 = some x → Seems u f r lo hi (444 * 1) x)
    (hlen : t.overflowChecks = false ∨ 8 * (items.flatMap fun i => withTail i.2.1 i.2.2).length < 2 ^ t.usizeBits)
    (hch : Changes false (items.flatMap fun i => withTail i.2.1 i.2.2))
    (hmin : ∀ e ∈ (items.flatMap fun i => withTail i.2.1 i.2.2).tail, u ≤ e.2 * r)
    (hmax : ∀ e ∈ items.flatMap fun i => withTail i.2.1 i.2.2, (e.2 * r + phase) / u + 1 < 2 ^ 32)
    (n : Nat) (hn : reading u r phase (duration (items.flatMap fun i => withTail i.2.1 i.2.2)) < n) :
    (pollRun (rc6Decoder t tbl) conv
        (polled u r phase (items.flatMap fun i => withTail i.2.1 i.2.2) n)).map said = some [] :=
  polled_pieces hu (fun _ => rfl) (fun b pause es h t0 g =>
    C90_rc6_deaf t hus f hlo hf Mono.u32 (.inl rfl) tbl htbl conv r lo hi hlh u hu phase items hok b pause es h
      (by rwa [h, List.length_cons] at hlen) t0 g) hch hmin hmax n hn

/-! ## Non-vacuity -/

theorem exact_seems {f r lo hi : Nat} (h1 : lo * f ≤ 100 * r) (h2 : 100 * r ≤ hi * f) (l : Nat) :
    Seems 1000000000 f r lo hi l (1000 * l) := by
  unfold Seems
  have m1 := Nat.mul_le_mul_left (1000000000 * l) h1
  have m2 := Nat.mul_le_mul_left (1000000000 * l) h2
  have e1 : 1000000000 * l * (lo * f) = lo * l * (1000000000 * f) := by ac_rfl
  have e2 : 1000000000 * l * (hi * f) = hi * l * (1000000000 * f) := by ac_rfl
  have e3 : 1000000000 * l * (100 * r) = 100000000 * (1000 * l * r) := by
    rw [show 1000000000 * l * (100 * r) = 1000000000 * 100 * (l * r) by ac_rfl,
      show 100000000 * (1000 * l * r) = 100000000 * 1000 * (l * r) by ac_rfl]
  omega

theorem exact_timed {f r lo hi : Nat} (h1 : lo * f ≤ 100 * r) (h2 : 100 * r ≤ hi * f) (unit : Nat)
    (es : List (Bool × Nat)) :
    Timed (fun x n => Seems 1000000000 f r lo hi (unit * n) x) (es.map fun e => (e.1, 1000 * (unit * e.2))) es := by
  induction es with
  | nil => trivial
  | cons e es ih => exact ⟨rfl, exact_seems h1 h2 _, ih⟩

/-- An RC5 command, sent exactly, 5 ms after the receiver was switched on. -/
def onceRc5 : List (BitVec 14 × List (Bool × Nat) × Option Nat) :=
  [(0x3001, (true, 5000000) :: (rc5Edges 0x3001).tail.map fun e => (e.1, 1000 * (889 * e.2)), none)]

/-- An RC5 receiver for 40 kHz, polled 30 000 times per second, misses it. -/
example (t : Target) (hus : 16 ≤ t.usizeBits) (phase : Nat) (hp : phase < 1000000000) :
    (pollRun (rc5Decoder t (rc5Table 40000)) id
      (polled 1000000000 30000 phase (onceRc5.flatMap fun i => withTail i.2.1 i.2.2) 10000)).map said = some [] := by
  have hp16 : 2 ^ 16 ≤ 2 ^ t.usizeBits := Nat.pow_le_pow_right (by decide) hus
  have hl : (onceRc5.flatMap fun i => withTail i.2.1 i.2.2).length ≤ 28 := by decide +kernel
  refine C90_rc5_deaf_polled t hus 40000 (by decide) (by decide) _ (rc5Spans_eq (.inl rfl) t (by decide)) id
    30000 59 77 (.inl ⟨rfl, rfl⟩) 1000000000 (by decide) phase onceRc5 ?_ (.inr (by omega)) (by decide +kernel)
    (by decide +kernel) ?_ _ ?_
  · intro i hi
    simp only [onceRc5, List.mem_cons, List.not_mem_nil, or_false] at hi
    subst hi
    exact ⟨by decide, _, 1, _, _, rfl, by decide +kernel,
      exact_timed (by decide) (by decide) 889 (rc5Edges 0x3001).tail⟩
  · intro e he
    have h : ∀ e ∈ onceRc5.flatMap fun i => withTail i.2.1 i.2.2, e.2 ≤ 90000000 := by decide +kernel
    have := h e he
    omega
  · have hd : duration (onceRc5.flatMap fun i => withTail i.2.1 i.2.2) ≤ 200000000 := by decide +kernel
    unfold reading
    omega

/-- An RC6 receiver for 40 kHz, polled 50 000 times per second, misses both commands of `twiceRc6`. -/
example (t : Target) (hus : 16 ≤ t.usizeBits) (phase : Nat) (hp : phase < 1000000000) :
    (pollRun (rc6Decoder t (rc6Table 40000)) id
      (polled 1000000000 50000 phase (twiceRc6.flatMap fun i => withTail i.2.1 i.2.2) 20000)).map said = some [] := by
  have hp16 : 2 ^ 16 ≤ 2 ^ t.usizeBits := Nat.pow_le_pow_right (by decide) hus
  have hl : (twiceRc6.flatMap fun i => withTail i.2.1 i.2.2).length ≤ 100 := by decide +kernel
  refine C90_rc6_deaf_polled t hus 40000 (by decide) (by decide) _ (rc6Spans_eq (.inl rfl) t (by decide)) id
    50000 114 168 (.inr ⟨rfl, rfl⟩) 1000000000 (by decide) phase twiceRc6 ?_ (.inr (by omega)) (by decide +kernel)
    (by decide +kernel) ?_ _ ?_
  · intro i hi
    have hfr : ∀ p, ManchesterFrame (fun x n => Seems 1000000000 40000 50000 114 168 (444 * n) x)
        (rc6Edges ((70#8 : BitVec 8) ++ (2#8 : BitVec 8)) true) ((true, p) :: (nominalRc6 ⟨70, 2, true⟩).tail) := by
      intro p
      refine ⟨p, 0, _, _, rfl, rc6_split _ _, ?_⟩
      rw [nominalRc6]
      dsimp only
      rw [rc6_split]
      exact exact_timed (by decide) (by decide) 444 _
    simp only [twiceRc6, List.mem_cons, List.not_mem_nil, or_false] at hi
    rcases hi with rfl | rfl
    · exact ⟨hfr _, by intro x hx; cases hx; constructor <;> decide⟩
    · exact ⟨hfr _, by intro x hx; cases hx; constructor <;> decide⟩
  · intro e he
    have h : ∀ e ∈ twiceRc6.flatMap fun i => withTail i.2.1 i.2.2, e.2 ≤ 90000000 := by decide +kernel
    have := h e he
    omega
  · have hd : duration (twiceRc6.flatMap fun i => withTail i.2.1 i.2.2) ≤ 200000000 := by decide +kernel
    unfold reading
    omega

end Infrared
