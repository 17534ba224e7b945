import Verif.Props.Exact
import Verif.Props.FirstEdge
import Verif.Props.Documented

/-!
# The tolerance of a receiver, exactly: RC5 and RC6 (C81)
-/

namespace Infrared

open Spec

variable {C K : Type}

/-- The extreme readings occur, at any time. -/
theorem extreme (f j l T : Nat) :
    (∃ x phase, Near tens j l x ∧ reading tens f phase (T + x) - reading tens f phase T = shortest f j l) ∧
    (∃ x phase, Near tens j l x ∧ reading tens f phase (T + x) - reading tens f phase T = longest f j l) := by
  have hle : (100 - j) * l ≤ (100 + j) * l := Nat.mul_le_mul_right _ (by omega)
  have hn : ∀ x, (100 - j) * l ≤ x → x ≤ (100 + j) * l → Near tens j l x := by
    intro x h1 h2
    constructor
    · rw [Nat.mul_comm]; exact Nat.mul_le_mul_left _ h1
    · rw [Nat.mul_comm _ tens]; exact Nat.mul_le_mul_left _ h2
  have hsh : ∀ x phase, reading tens f (phase + T * f * (tens - 1)) (T + x) -
      reading tens f (phase + T * f * (tens - 1)) T = reading tens f phase x - reading tens f phase 0 := by
    intro x phase
    have e0 := reading_shift (u := tens) (by decide) f phase T 0
    rw [Nat.add_zero] at e0
    rw [reading_shift (by decide), e0, Nat.add_sub_add_left]
  refine ⟨⟨(100 - j) * l, 0 + T * f * (tens - 1), hn _ (Nat.le_refl _) hle, ?_⟩,
    ⟨(100 + j) * l, 99999999 + T * f * (tens - 1), hn _ hle (Nat.le_refl _), ?_⟩⟩
  · rw [hsh]; simp [reading, shortest, tens]
  · rw [hsh]; simp [reading, longest, tens]

/-- Edges at their nominal times (`U` microseconds a half-bit). -/
def nominal (U : Nat) (es : List (Bool × Nat)) : List (Bool × Nat) := es.map fun e => (e.1, 100 * (U * e.2))

theorem timed_nominal (U j : Nat) (es : List (Bool × Nat)) :
    Timed (fun x n => Near tens j (U * n) x) (nominal U es) es := by
  induction es with
  | nil => trivial
  | cons e es ih => exact ⟨rfl, near_nominal j _, ih⟩

theorem timed_except (U j : Nat) (as bs : List (Bool × Nat)) (b : Bool) (n x : Nat) (hx : Near tens j (U * n) x) :
    Timed (fun x n => Near tens j (U * n) x) (nominal U as ++ (b, x) :: nominal U bs) (as ++ (b, n) :: bs) := by
  induction as with
  | nil => exact ⟨rfl, hx, timed_nominal U j bs⟩
  | cons a as ih => exact ⟨rfl, near_nominal j _, ih⟩

/-- The measured edges belong to these edges, each right or wrong in an allowed way. -/
def Read (R : Nat → Option Nat → Prop) : List (Bool × Nat) → List HalfEdge → Prop
  | [], [] => True
  | e :: es, m :: ms => m.1 = e.1 ∧ R e.2 m.2 ∧ Read R es ms
  | _, _ => False

theorem read_of_timed {tbl : PulseSpans} {f j U : Nat} {R : Nat → Option Nat → Prop} {ys es : List (Bool × Nat)}
    (phase : Nat) (h : Timed (fun x n => Near tens j (U * n) x) ys es)
    (hR : ∀ t n x, (∃ b, (b, n) ∈ es) → Near tens j (U * n) x →
      R n ((tbl.get (reading tens f phase (t + x) - reading tens f phase t)).map (· + 1))) (t : Nat) :
    Read R es (halfEdges tbl (clocked tens f phase t ys)) := by
  induction ys generalizing es t with
  | nil =>
    cases es with
    | nil => trivial
    | cons e es => exact h.elim
  | cons y ys ih =>
    cases es with
    | nil => exact h.elim
    | cons e es =>
      obtain ⟨h1, h2, h3⟩ := h
      refine ⟨h1, hR t e.2 y.2 ⟨e.1, List.mem_cons_self ..⟩ h2, ih h3 (fun t n x hb => ?_) _⟩
      obtain ⟨b, hb⟩ := hb
      exact hR t n x ⟨b, List.mem_cons_of_mem _ hb⟩

theorem clocked_get (u f phase : Nat) (as bs : List (Bool × Nat)) (b : Bool) (x t : Nat) :
    (clocked u f phase t (as ++ (b, x) :: bs))[as.length]? =
      some (b, reading u f phase (t + (as.map Prod.snd).sum + x) - reading u f phase (t + (as.map Prod.snd).sum)) := by
  induction as generalizing t with
  | nil => simp [clocked]
  | cons a as ih =>
    rw [List.cons_append, clocked, List.length_cons, List.getElem?_cons_succ, ih, List.map_cons, List.sum_cons,
      Nat.add_assoc t]

/-- A measured edge whose index says it is wrong. -/
theorem read_right {es : List (Bool × Nat)} {ms : List HalfEdge}
    (h : ms = es.map fun e => (e.1, some e.2)) {i n : Nat} {b : Bool} (hi : es[i]? = some (b, n)) {m : HalfEdge}
    (hm : ms[i]? = some m) : m.2 = some n := by
  rw [h, List.getElem?_map, hi] at hm
  cases hm
  rfl

/-! ## RC5 -/

/-- Half-bits measured. -/
def gaps (ms : List HalfEdge) : Nat := (ms.map fun m => m.2.getD 0).sum

theorem span_cons (m : HalfEdge) (ms : List HalfEdge) : gaps (m :: ms) = m.2.getD 0 + gaps ms := by
  simp [gaps]

theorem midEdges_span (pos k : Nat) (ms : List HalfEdge) (hpos : ∀ m ∈ ms, m.2 ≠ some 0)
    (h : (midEdges 0 pos k ms).1.length = k) : 2 * k ≤ gaps ms + pos % 2 := by
  induction ms generalizing pos k with
  | nil =>
    cases k with
    | zero => omega
    | succ k => simp [midEdges] at h
  | cons m ms ih =>
    have hp' : ∀ m ∈ ms, m.2 ≠ some 0 := fun x hx => hpos x (List.mem_cons_of_mem _ hx)
    obtain ⟨l, _ | n⟩ := m
    · cases k with
      | zero => omega
      | succ k => simp [midEdges] at h
    · have hn : n ≠ 0 := fun e => hpos _ (List.mem_cons_self ..) (by rw [e])
      rw [span_cons]
      change 2 * k ≤ n + gaps ms + pos % 2
      cases k with
      | zero => omega
      | succ k =>
        rw [midEdges] at h
        split at h
        · rename_i hpar
          have := ih (pos + n) k hp' (by simpa using h)
          omega
        · rename_i hpar
          have := ih (pos + n) (k + 1) hp' h
          omega

theorem midEdges_suffix (par pos k : Nat) (ms : List HalfEdge) : (midEdges par pos k ms).2.2 <:+ ms := by
  induction ms generalizing pos k with
  | nil => cases k <;> simp [midEdges]
  | cons m ms ih =>
    obtain ⟨l, _ | n⟩ := m <;> cases k <;> simp only [midEdges, List.suffix_refl]
    · split
      · exact (ih _ _).trans (List.suffix_cons _ _)
      · exact (ih _ _).trans (List.suffix_cons _ _)

theorem span_suffix {as bs : List HalfEdge} (h : as <:+ bs) : gaps as ≤ gaps bs := by
  obtain ⟨cs, rfl⟩ := h
  unfold gaps
  rw [List.map_append, List.sum_append]
  omega

/-- Edges less than 26 half-bits apart in all are no RC5 frame. -/
theorem rc5Parse_gaps (n : Nat) (ms : List HalfEdge) (hn : ms.length ≤ n) (hpos : ∀ m ∈ ms, m.2 ≠ some 0)
    (h : gaps ms.tail < 26) : rc5Parse ms = [] := by
  induction n generalizing ms with
  | zero =>
    obtain rfl := List.eq_nil_of_length_eq_zero (Nat.le_zero.mp hn)
    rw [rc5Parse]
  | succ n ih =>
    rcases ms with _ | ⟨⟨_ | _, m⟩, ms⟩
    · rw [rc5Parse]
    · rw [rc5Parse]
      refine ih ms (by simpa using hn) (fun x hx => hpos x (List.mem_cons_of_mem _ hx)) ?_
      exact Nat.lt_of_le_of_lt (span_suffix (List.tail_suffix _)) h
    · rw [rc5Parse]
      have hp' : ∀ m ∈ ms, m.2 ≠ some 0 := fun x hx => hpos x (List.mem_cons_of_mem _ hx)
      have hs := midEdges_suffix 0 0 13 ms
      rw [if_neg fun hl => ?_]
      · refine ih _ ?_ (fun x hx => hp' x (hs.subset hx)) ?_
        · exact Nat.le_trans hs.length_le (by simpa using hn)
        · exact Nat.lt_of_le_of_lt (span_suffix ((List.tail_suffix _).trans hs)) h
      · have := midEdges_span 0 13 ms hp' hl
        rw [List.tail_cons] at h
        omega

/-- Edges that were measured right or not at all: if nothing is missing in the sum, all were measured right. -/
theorem read_span {es : List (Bool × Nat)} {ms : List HalfEdge} (hpos : ∀ e ∈ es, e.2 ≠ 0)
    (h : Read (fun n m => m = some n ∨ m = none) es ms) :
    gaps ms ≤ total es ∧ (gaps ms = total es → ms = es.map fun e => (e.1, some e.2)) := by
  induction es generalizing ms with
  | nil =>
    cases ms with
    | nil => exact ⟨Nat.le_refl _, fun _ => rfl⟩
    | cons m ms => exact h.elim
  | cons e es ih =>
    cases ms with
    | nil => exact h.elim
    | cons m ms =>
      obtain ⟨h1, h2, h3⟩ := h
      obtain ⟨hle, heq⟩ := ih (fun x hx => hpos x (List.mem_cons_of_mem _ hx)) h3
      have hn : e.2 ≠ 0 := hpos e (List.mem_cons_self ..)
      obtain ⟨l, n⟩ := e
      obtain ⟨l', m⟩ := m
      dsimp only at h1 h2 hn
      subst h1
      have ht : total ((l', n) :: es) = n + total es := by simp [total]
      rw [span_cons, ht]
      rcases h2 with rfl | rfl
      · refine ⟨by simpa using hle, fun he => ?_⟩
        rw [heq (by simpa using he)]
        rfl
      · refine ⟨by simp; omega, fun he => ?_⟩
        simp only [Option.getD_none, Nat.zero_add] at he
        omega

/-- The receiver hears every series of frames within `j` percent. -/
def Spec.Rc5Hears (t : Target) (tbl : PulseSpans) (f j : Nat) : Prop :=
  ∀ (u phase : Nat) (items : List (BitVec 14 × List (Bool × Nat) × Option Nat)), 0 < u →
    (∀ i ∈ items, i.1.getLsbD 13 = true ∧ ManchesterFrame (fun x n => Near u j (889 * n) x) (rc5Edges i.1) i.2.1) →
    ∀ (b : Bool) (pause : Nat) (es : List (Bool × Nat)),
    (items.flatMap fun i => withTail i.2.1 i.2.2) = (b, pause) :: es → ∀ t0 g : Nat,
    (results (rc5Decoder t tbl) (fun c => c) ((b, g) :: clocked u f phase (t0 + pause) es)).map said =
      some (oks (items.map fun i => Rc5Command.unpack (i.1.setWidth 16)))

/-- A word with intervals of one and of two half-bits. -/
def w5 : BitVec 14 := 0b11010101010100#14

/-- Its edges after the first. -/
def w5Edges : List (Bool × Nat) :=
  [(false, 1), (true, 1), (false, 2), (true, 2), (false, 2), (true, 2), (false, 2), (true, 2), (false, 2), (true, 2),
    (false, 2), (true, 2), (false, 2), (true, 1), (false, 1)]

theorem w5_edges : rc5Edges w5 = (true, 1) :: w5Edges := by decide

theorem rc5_read {t : Target} {m : Mono} (hm : m = Mono.u32 ∨ m = Mono.u64) {f : Nat} (hlo : 20000 ≤ f)
    (hf : f < 2 ^ 32) {tbl : PulseSpans} (htbl : rc5Spans t m f = some tbl) {j : Nat} (hj : j ≤ 13)
    (phase t' n x : Nat) (hn : n = 1 ∨ n = 2) (hx : Near tens j (889 * n) x) :
    (tbl.get (reading tens f phase (t' + x) - reading tens f phase t')).map (· + 1) = some n ∨
      (tbl.get (reading tens f phase (t' + x) - reading tens f phase t')).map (· + 1) = none := by
  have htbl' : Kind.build .rc5 t m f = some tbl := htbl
  obtain ⟨hb1, hb2⟩ := reading_bounds (u := tens) (by decide) f phase t' x
  generalize reading tens f phase (t' + x) - reading tens f phase t' = d at hb1 hb2 ⊢
  cases hg : tbl.get d with
  | none => exact .inr rfl
  | some i =>
    left
    obtain ⟨h1, h2⟩ := C52_rejects .rc5 t m hm f hf tbl htbl' i d (get_inTol hg)
    have hx' := near_mono hj hx
    obtain ⟨hx1, hx2⟩ := hx'
    have e1 : 87 * (889 * n) * f ≤ x * f := by
      refine Nat.mul_le_mul_right _ ?_
      unfold tens at hx1
      omega
    have e2 : x * f ≤ 113 * (889 * n) * f := by
      refine Nat.mul_le_mul_right _ ?_
      unfold tens at hx2
      omega
    unfold tens at hb1 hb2
    rcases i with _ | _ | i
    · obtain ⟨a, b⟩ := h1 889 12 rfl
      rcases hn with rfl | rfl
      · rfl
      · exfalso; omega
    · obtain ⟨a, b⟩ := h1 (2 * 889) 10 rfl
      rcases hn with rfl | rfl
      · exfalso; omega
      · rfl
    · have : d = 0 := h2 rfl
      rcases hn with rfl | rfl <;> (exfalso; omega)

theorem rc5_length {t : Target} {m : Mono} (hm : m = Mono.u32 ∨ m = Mono.u64) {f : Nat} (hf : f < 2 ^ 32)
    {tbl : PulseSpans} (htbl : rc5Spans t m f = some tbl) : tbl.spans.length ≤ 8 := by
  rw [rc5Spans_eq hm t hf, Option.some.injEq] at htbl
  subst htbl
  simp [rc5Table]

theorem halfEdges_pos (tbl : PulseSpans) (evs : List Ev) : ∀ m ∈ halfEdges tbl evs, m.2 ≠ some 0 := by
  intro m hm h
  obtain ⟨e, -, rfl⟩ := List.mem_map.mp hm
  dsimp only at h
  cases hg : tbl.get e.2 <;> rw [hg] at h <;> simp at h

/-- The frame of `w5`, with any intervals within `j` percent, gives a command at every phase. -/
def Rc5Parses (tbl : PulseSpans) (f j : Nat) : Prop :=
  ∀ (phase : Nat) (ys : List (Bool × Nat)), Timed (fun x n => Near tens j (889 * n) x) ys w5Edges →
    ∃ g, rc5Parse (halfEdges tbl ((true, g) :: clocked tens f phase 0 ys)) ≠ []

theorem rc5_hears_parse {t : Target} (hus : 16 ≤ t.usizeBits) {m : Mono} (hm : m = Mono.u32 ∨ m = Mono.u64) {f : Nat}
    (hf : f < 2 ^ 32) {tbl : PulseSpans} (htbl : rc5Spans t m f = some tbl) {j : Nat} (hear : Rc5Hears t tbl f j) :
    Rc5Parses tbl f j := by
  intro phase ys hT
  have hres := hear tens phase [(w5, (true, 0) :: ys, none)] (by decide) (by
    intro i hi
    rw [List.mem_singleton] at hi
    subst hi
    exact ⟨show w5.getLsbD 13 = true by decide, 0, 1, ys, w5Edges, rfl, w5_edges, hT⟩) true 0 ys (by simp [withTail]) 0 0
  obtain ⟨outs, ho, hsaid⟩ := Option.map_eq_some_iff.mp hres
  rw [C67_rc5 t hus tbl (rc5_length hm hf htbl) _ _ outs ho, res_map_id, List.map_id] at hsaid
  refine ⟨0, fun h0 => ?_⟩
  have : rc5Parse (halfEdges tbl ((true, 0) :: clocked tens f phase (0 + 0) ys)) = [] := h0
  rw [this] at hsaid
  cases hsaid

/-- If the receiver hears everything within `j` percent, it measures every interval right. -/
theorem rc5_right {t : Target} {m : Mono} (hm : m = Mono.u32 ∨ m = Mono.u64) {f : Nat}
    (hlo : 20000 ≤ f) (hf : f < 2 ^ 32) {tbl : PulseSpans} (htbl : rc5Spans t m f = some tbl) {j : Nat} (hj : j ≤ 13)
    (hear : Rc5Parses tbl f j) (as bs : List (Bool × Nat)) (b : Bool) (n : Nat) (he : w5Edges = as ++ (b, n) :: bs)
    (x phase : Nat) (hx : Near tens j (889 * n) x) :
    tbl.get (reading tens f phase (0 + ((nominal 889 as).map Prod.snd).sum + x) -
      reading tens f phase (0 + ((nominal 889 as).map Prod.snd).sum)) = some (n - 1) := by
  let ys := nominal 889 as ++ (b, x) :: nominal 889 bs
  have hT : Timed (fun x n => Near tens j (889 * n) x) ys w5Edges := by
    rw [he]; exact timed_except 889 j as bs b n x hx
  have hlen : ∀ n, (∃ b, (b, n) ∈ w5Edges) → n = 1 ∨ n = 2 := by
    rintro n ⟨b, hb⟩
    have : ∀ e ∈ w5Edges, e.2 = 1 ∨ e.2 = 2 := by decide
    exact this _ hb
  have hread : Read (fun n m => m = some n ∨ m = none) w5Edges (halfEdges tbl (clocked tens f phase 0 ys)) :=
    read_of_timed phase hT (fun t' n x hn hx => rc5_read hm hlo hf htbl hj phase t' n x (hlen n hn) hx) 0
  obtain ⟨g, hne⟩ := hear phase ys hT
  have hpos := halfEdges_pos tbl ((true, g) :: clocked tens f phase 0 ys)
  have hspan : 26 ≤ gaps (halfEdges tbl (clocked tens f phase 0 ys)) :=
    Nat.le_of_not_lt fun hlt => hne (rc5Parse_gaps _ _ (Nat.le_refl _) hpos hlt)
  obtain ⟨h1, h2⟩ := read_span (by decide) hread
  have h26 : total w5Edges = 26 := by decide
  have hright := h2 (by omega)
  have hi : w5Edges[(nominal 889 as).length]? = some (b, n) := by
    rw [he]
    simp [nominal]
  have hg := clocked_get tens f phase (nominal 889 as) (nominal 889 bs) b x 0
  have := read_right hright hi (m := (b, _)) (by
    unfold halfEdges
    rw [List.getElem?_map, hg]
    rfl)
  dsimp only at this
  generalize tbl.get _ = o at this ⊢
  rcases o with _ | k
  · cases this
  · simp only [Option.map_some, Option.some.injEq] at this ⊢
    omega

theorem covers_of_extremes {tbl : PulseSpans} {f j s l : Nat} (h1 : tbl.get (shortest f j l) = some s)
    (h2 : tbl.get (longest f j l) = some s) : covers tbl f j s l = true := by
  obtain ⟨w, hw, a, -⟩ := get_inTol h1
  obtain ⟨w', hw', -, b⟩ := get_inTol h2
  rw [hw] at hw'
  cases hw'
  exact covers_iff.mpr ⟨w, hw, a, b⟩

theorem rc5_hears_covers {t : Target} {m : Mono} (hm : m = Mono.u32 ∨ m = Mono.u64) {f : Nat}
    (hlo : 20000 ≤ f) (hf : f < 2 ^ 32) {tbl : PulseSpans} (htbl : rc5Spans t m f = some tbl) {j : Nat} (hj : j ≤ 13)
    (hear : Rc5Parses tbl f j) : coversAll tbl f j rc5Lengths = true := by
  have key : ∀ (as bs : List (Bool × Nat)) (b : Bool) (n : Nat), w5Edges = as ++ (b, n) :: bs →
      covers tbl f j (n - 1) (889 * n) = true := by
    intro as bs b n he
    obtain ⟨⟨x, p, hx, h1⟩, ⟨y, q, hy, h2⟩⟩ := extreme f j (889 * n) (0 + ((nominal 889 as).map Prod.snd).sum)
    have r1 := rc5_right hm hlo hf htbl hj hear as bs b n he x p hx
    have r2 := rc5_right hm hlo hf htbl hj hear as bs b n he y q hy
    rw [h1] at r1
    rw [h2] at r2
    exact covers_of_extremes r1 r2
  have k1 := key [] _ false 1 rfl
  have k2 := key [(false, 1), (true, 1)] _ false 2 rfl
  unfold coversAll rc5Lengths
  simp only [List.zipIdx_cons, List.zipIdx_nil, List.all_cons, List.all_nil, Bool.and_true, Bool.and_eq_true]
  exact ⟨k1, k2⟩

theorem rc5Hears_mono {t : Target} {tbl : PulseSpans} {f j j' : Nat} (hj : j ≤ j')
    (h : Rc5Hears t tbl f j') : Rc5Hears t tbl f j := by
  intro u phase items hu hok
  refine h u phase items hu fun i hi => ⟨(hok i hi).1, ?_⟩
  obtain ⟨pause, n, evs, edges, h1, h2, h3⟩ := (hok i hi).2
  exact ⟨pause, n, evs, edges, h1, h2, Timed.imp h3 fun _ _ _ hx => near_mono hj hx⟩

/-- No table covers a symbol at more than its tolerance. -/
theorem not_covers_more {k : Kind} {t : Target} {m : Mono} (hm : m = Mono.u32 ∨ m = Mono.u64) {f : Nat}
    (hlo : 20000 ≤ f) (hf : f < 2 ^ 32) {tbl : PulseSpans} (htbl : k.build t m f = some tbl) {s l tol j : Nat}
    (hs : k.symbols[s]? = some (l, tol)) (hl : 0 < l) (hj : tol < j) : covers tbl f j s l = false := by
  rw [Bool.eq_false_iff]
  intro h
  obtain ⟨w, hw, h1, h2⟩ := covers_iff.mp h
  have hle : shortest f j l ≤ longest f j l := by
    have hh : (100 - j) * l * f ≤ (100 + j) * l * f := Nat.mul_le_mul_right _ (Nat.mul_le_mul_right _ (by omega))
    unfold shortest longest
    omega
  obtain ⟨a, -⟩ := (C52_rejects k t m hm f hf tbl htbl s (longest f j l) ⟨w, hw, by omega, h2⟩).1 l tol hs
  have hb : (100 + j) * l * f ≤ 100000000 * longest f j l := by
    unfold longest
    omega
  have hc : (100 + tol) * l * f < (100 + j) * l * f :=
    Nat.mul_lt_mul_of_pos_right (Nat.mul_lt_mul_of_pos_right (by omega) hl) (by omega)
  omega

/-- **C81**, RC5. -/
theorem C81_rc5 (t : Target) (hus : 16 ≤ t.usizeBits) (m : Mono) (hm : m = Mono.u32 ∨ m = Mono.u64) (f : Nat)
    (hlo : 20000 ≤ f) (hf : f < 2 ^ 32) (tbl : PulseSpans) (htbl : rc5Spans t m f = some tbl) (j : Nat) :
    Rc5Hears t tbl f j ↔ coversAll tbl f j rc5Lengths = true := by
  constructor
  · intro hear
    by_cases hj : j ≤ 13
    · exact rc5_hears_covers hm hlo hf htbl hj (rc5_hears_parse hus hm hf htbl hear)
    · have h := rc5_hears_covers hm hlo hf htbl (Nat.le_refl 13)
        (rc5_hears_parse hus hm hf htbl (rc5Hears_mono (by omega) hear))
      have h0 := coversAll_get h (s := 0) rfl
      rw [not_covers_more (k := .rc5) hm hlo hf htbl (s := 0) rfl (by decide) (by decide)] at h0
      cases h0
  · intro hc u phase items hu hok b pause es hes t0 g
    exact C78_rc5 t hus f j hlo hf m hm tbl htbl hc (fun c => c) u hu phase items hok b pause es hes t0 g

/-! ## RC6 -/

/-- The edges as they are if all are measured right. -/
def rightly (es : List (Bool × Nat)) : List HalfEdge := es.map fun e => (e.1, some e.2)

/-- Bits of a part of a frame are read completely only if all its edges were measured. -/
theorem midEdges_read (par pos k : Nat) (as : List (Bool × Nat)) (ms rest : List HalfEdge)
    (h : Read (fun n m => m = some n ∨ m = none) as ms) (hk : (midEdges par pos k (rightly as)).1.length = k)
    (hr : (midEdges par pos k (rightly as)).2.2 = []) :
    ms = rightly as ∧ (midEdges par pos k (ms ++ rest)).2 = ((midEdges par pos k (rightly as)).2.1, rest) ∨
      (midEdges par pos k (ms ++ rest)).1.length ≠ k := by
  induction as generalizing pos k ms with
  | nil =>
    cases ms with
    | cons m ms => exact h.elim
    | nil =>
      cases k with
      | zero => exact .inl ⟨rfl, by simp [midEdges]⟩
      | succ k => simp [rightly, midEdges] at hk
  | cons a as ih =>
    cases ms with
    | nil => exact h.elim
    | cons m ms =>
      obtain ⟨l, n⟩ := a
      obtain ⟨l', m⟩ := m
      obtain ⟨h1, h2, h3⟩ := h
      dsimp only at h1 h2
      subst h1
      have er : rightly ((l', n) :: as) = (l', some n) :: rightly as := rfl
      rw [er] at hk hr ⊢
      cases k with
      | zero => simp [midEdges] at hr
      | succ k =>
        rcases h2 with rfl | rfl
        · rw [List.cons_append]
          simp only [midEdges] at hk hr ⊢
          split at hk
          · rename_i hp
            rw [if_pos hp] at hr
            rw [if_pos hp, if_pos hp]
            rcases ih (pos + n) k ms h3 (by simpa using hk) hr with ⟨e, h4⟩ | h4
            · exact .inl ⟨by rw [e], h4⟩
            · exact .inr (by simpa using h4)
          · rename_i hp
            rw [if_neg hp] at hr
            rw [if_neg hp, if_neg hp]
            rcases ih (pos + n) (k + 1) ms h3 hk hr with ⟨e, h4⟩ | h4
            · exact .inl ⟨by rw [e], h4⟩
            · exact .inr h4
        · right
          simp [midEdges]

theorem read_append {R : Nat → Option Nat → Prop} {as bs : List (Bool × Nat)} {ms : List HalfEdge}
    (h : Read R (as ++ bs) ms) : ∃ xs ys, ms = xs ++ ys ∧ Read R as xs ∧ Read R bs ys := by
  induction as generalizing ms with
  | nil => exact ⟨[], ms, rfl, trivial, h⟩
  | cons a as ih =>
    cases ms with
    | nil => exact h.elim
    | cons m ms =>
      obtain ⟨h1, h2, h3⟩ := h
      obtain ⟨xs, ys, rfl, h4, h5⟩ := ih h3
      exact ⟨m :: xs, ys, rfl, ⟨h1, h2, h4⟩, h5⟩

theorem Read.imp {R R' : Nat → Option Nat → Prop} {es : List (Bool × Nat)} {ms : List HalfEdge}
    (h : Read R es ms) (hi : ∀ e ∈ es, ∀ m, R e.2 m → R' e.2 m) : Read R' es ms := by
  induction es generalizing ms with
  | nil =>
    cases ms with
    | nil => trivial
    | cons m ms => exact h.elim
  | cons e es ih =>
    cases ms with
    | nil => exact h.elim
    | cons m ms =>
      obtain ⟨h1, h2, h3⟩ := h
      exact ⟨h1, hi e (List.mem_cons_self ..) _ h2, ih h3 fun x hx => hi x (List.mem_cons_of_mem _ hx)⟩

theorem read_mem {R : Nat → Option Nat → Prop} {es : List (Bool × Nat)} {ms : List HalfEdge} (h : Read R es ms)
    {m : HalfEdge} (hm : m ∈ ms) : ∃ e ∈ es, R e.2 m.2 := by
  induction es generalizing ms with
  | nil =>
    cases ms with
    | nil => cases hm
    | cons m ms => exact h.elim
  | cons e es ih =>
    cases ms with
    | nil => cases hm
    | cons m' ms =>
      obtain ⟨-, h2, h3⟩ := h
      rcases List.mem_cons.mp hm with rfl | hm
      · exact ⟨e, List.mem_cons_self .., h2⟩
      · obtain ⟨e', he, hr⟩ := ih h3 hm
        exact ⟨e', List.mem_cons_of_mem _ he, hr⟩

/-- How an interval of an RC6 frame may be misread. -/
def Near6 (n : Nat) (m : Option Nat) : Prop :=
  m = some n ∨ m = none ∨ n = 6 ∧ m = some 5 ∨ n = 3 ∧ m = some 4

/-- A frame with all intervals: start and mode bits, toggle bit, data. -/
def w6Head : List (Bool × Nat) := [(false, 1), (true, 2), (false, 1), (true, 1), (false, 1), (true, 1)]

@[inherit_doc w6Head]
def w6Data : List (Bool × Nat) :=
  [(true, 2), (false, 1), (true, 2), (false, 2), (true, 2), (false, 2), (true, 2), (false, 2), (true, 2), (false, 2),
    (true, 2), (false, 2), (true, 2), (false, 2), (true, 2), (false, 2), (true, 1), (false, 1)]

@[inherit_doc w6Head]
def w6Edges : List (Bool × Nat) := (false, 6) :: (true, 2) :: (w6Head ++ (false, 3) :: w6Data)

/-- The command of that frame. -/
def w6 : Rc6Command := ⟨0xAA, 0xAB, true⟩

theorem w6_edges : rc6Edges (w6.addr ++ w6.cmd) w6.toggle = (true, 0) :: w6Edges := by decide +kernel

theorem rc6Frame_led (es : List HalfEdge) : rc6Frame ((false, some 6) :: (true, some 2) :: es) =
    if (midEdges 1 8 4 es).1.length = 4 then
      match toggleEdges (midEdges 1 8 4 es).2.1 (midEdges 1 8 4 es).2.2 with
      | (some (toggle, pos), es) =>
        if (midEdges 1 pos 16 es).1.length = 16 then
          (some (Rc6Command.fromBits (wordOf 16 ((midEdges 1 pos 16 es).1.map not).reverse) toggle),
            (midEdges 1 pos 16 es).2.2)
        else (none, (midEdges 1 pos 16 es).2.2)
      | (none, es) => (none, es)
    else (none, (midEdges 1 8 4 es).2.2) := by
  unfold rc6Frame
  rfl

/-- The frame is heard only if it was measured right. -/
theorem rc6_heard (g : Option Nat) (ms : List HalfEdge) (h : Read Near6 w6Edges ms)
    (hne : rc6Parse ((true, g) :: ms) ≠ []) : ms = rightly w6Edges := by
  have imp2 : ∀ n m, n ≤ 2 → Near6 n m → m = some n ∨ m = none := by
    rintro n m hn (h | h | ⟨rfl, h⟩ | ⟨rfl, h⟩)
    · exact .inl h
    · exact .inr h
    · omega
    · omega
  rcases ms with _ | ⟨⟨l6, m6⟩, ms⟩
  · exact h.elim
  obtain ⟨h1, h2, h3⟩ := h
  dsimp only at h1 h2
  subst h1
  -- after the leader there is no other
  have quiet : (false, some 6) ∉ ms := by
    intro hm
    obtain ⟨e, he, hr⟩ := read_mem h3 hm
    have : ∀ e ∈ (true, 2) :: (w6Head ++ (false, 3) :: w6Data), e.2 ≤ 3 := by decide
    have hle := this e he
    rcases hr with h | h | ⟨h, -⟩ | ⟨-, h⟩
    · simp only [Option.some.injEq] at h; omega
    · cases h
    · omega
    · cases h
  have quietly : ∀ es : List HalfEdge, (∀ x ∈ es, x ∈ ms) → rc6Parse es = [] := fun es hs =>
    rc6Parse_no_leader _ es (Nat.le_refl _) fun hm => quiet (hs _ hm)
  by_cases hm6 : m6 = some 6
  case neg =>
    refine absurd (rc6Parse_no_leader _ _ (Nat.le_refl _) ?_) hne
    intro hm
    rcases List.mem_cons.mp hm with hm | hm
    · cases hm
    · rcases List.mem_cons.mp hm with hm | hm
      · exact hm6 (Prod.mk.inj hm).2.symm
      · exact quiet hm
  subst hm6
  rcases ms with _ | ⟨⟨l2, m2⟩, ms⟩
  · exact h3.elim
  obtain ⟨h4, h5, h6⟩ := h3
  dsimp only at h4 h5
  subst h4
  rcases imp2 2 m2 (Nat.le_refl _) h5 with rfl | rfl
  case inr =>
    refine absurd ?_ hne
    rw [rc6Parse]
    have e : rc6Frame ((false, some 6) :: (true, none) :: ms) = (none, (true, none) :: ms) := rfl
    rw [e]
    exact quietly _ fun _ hx => hx
  obtain ⟨hd, tl, rfl, h7, h8⟩ := read_append h6
  have h7' : Read (fun n m => m = some n ∨ m = none) w6Head hd :=
    h7.imp fun e he m => imp2 e.2 m ((by decide : ∀ e ∈ w6Head, e.2 ≤ 2) e he)
  rcases tl with _ | ⟨⟨lt, mt⟩, dt⟩
  · exact h8.elim
  obtain ⟨h9, h10, h11⟩ := h8
  dsimp only at h9 h10
  subst h9
  have h11' : Read (fun n m => m = some n ∨ m = none) w6Data dt :=
    h11.imp fun e he m => imp2 e.2 m ((by decide : ∀ e ∈ w6Data, e.2 ≤ 2) e he)
  have silent : ∀ r, rc6Frame ((false, some 6) :: (true, some 2) :: (hd ++ (false, mt) :: dt)) = (none, r) →
      (∀ x ∈ r, x ∈ (true, some 2) :: (hd ++ (false, mt) :: dt)) → False := by
    intro r hr hsub
    rw [rc6Parse, hr] at hne
    exact hne (quietly r hsub)
  have hsuf := midEdges_suffix 1 8 4 (hd ++ (false, mt) :: dt)
  rw [rc6Frame_led] at silent
  by_cases hlen : (midEdges 1 8 4 (hd ++ (false, mt) :: dt)).1.length = 4
  case neg =>
    rw [if_neg hlen] at silent
    exact (silent _ rfl fun x hx => List.mem_cons_of_mem _ (hsuf.subset hx)).elim
  rcases midEdges_read 1 8 4 w6Head hd ((false, mt) :: dt) h7' (by decide) (by decide) with ⟨e, h12⟩ | h12
  case inr => exact absurd hlen h12
  rw [if_pos hlen, h12, show (midEdges 1 8 4 (rightly w6Head)).2.1 = 15 by decide] at silent
  have hmt : mt = some 3 ∨ mt = none ∨ mt = some 4 := by
    rcases h10 with h | h | ⟨h, -⟩ | ⟨-, h⟩
    · exact .inl h
    · exact .inr (.inl h)
    · cases h
    · exact .inr (.inr h)
  rcases hmt with rfl | rfl | rfl
  · have et : toggleEdges 15 ((false, some 3) :: dt) = (some (true, 18), dt) := rfl
    rw [et] at silent
    dsimp only at silent
    have hsuf2 := midEdges_suffix 1 18 16 dt
    rcases midEdges_read 1 18 16 w6Data dt [] h11' (by decide) (by decide) with ⟨e2, -⟩ | h13
    · rw [e, e2]
      simp [rightly, w6Edges]
    · rw [List.append_nil] at h13
      rw [if_neg h13] at silent
      refine (silent _ rfl fun x hx => ?_).elim
      exact List.mem_cons_of_mem _ (List.mem_append_right _ (List.mem_cons_of_mem _ (hsuf2.subset hx)))
  · exact (silent _ rfl fun x hx => List.mem_cons_of_mem _ (List.mem_append_right _ hx)).elim
  · exact (silent _ rfl fun x hx =>
      List.mem_cons_of_mem _ (List.mem_append_right _ (List.mem_cons_of_mem _ hx))).elim

theorem rc6_read {t : Target} {m : Mono} (hm : m = Mono.u32 ∨ m = Mono.u64) {f : Nat} (hlo : 20000 ≤ f)
    (hf : f < 2 ^ 32) {tbl : PulseSpans} (htbl : rc6Spans t m f = some tbl) {j : Nat} (hj : j ≤ 13)
    (phase t' n x : Nat) (hn : n = 1 ∨ n = 2 ∨ n = 3 ∨ n = 6) (hx : Near tens j (444 * n) x) :
    Near6 n ((tbl.get (reading tens f phase (t' + x) - reading tens f phase t')).map (· + 1)) := by
  have htbl' : Kind.build .rc6 t m f = some tbl := htbl
  obtain ⟨hb1, hb2⟩ := reading_bounds (u := tens) (by decide) f phase t' x
  generalize reading tens f phase (t' + x) - reading tens f phase t' = d at hb1 hb2 ⊢
  cases hg : tbl.get d with
  | none => exact .inr (.inl rfl)
  | some i =>
    obtain ⟨h1, h2⟩ := C52_rejects .rc6 t m hm f hf tbl htbl' i d (get_inTol hg)
    have hx' := near_mono hj hx
    obtain ⟨hx1, hx2⟩ := hx'
    have e1 : 87 * (444 * n) * f ≤ x * f := by
      refine Nat.mul_le_mul_right _ ?_
      unfold tens at hx1
      omega
    have e2 : x * f ≤ 113 * (444 * n) * f := by
      refine Nat.mul_le_mul_right _ ?_
      unfold tens at hx2
      omega
    unfold tens at hb1 hb2
    have hsym : ∀ k < 6, i = k → 100000000 * d ≤ (100 + 12) * ((k + 1) * 444) * f ∧
        9968 * ((100 - 12) * ((k + 1) * 444) * f) ≤ 10000000000 * (100 * d + (100 - 12)) := by
      rintro k hk rfl
      have : ∀ k < 6, (Kind.symbols .rc6)[k]? = some ((k + 1) * 444, 12) := by decide
      exact h1 _ _ (this i hk)
    by_cases hi : i < 6
    · obtain ⟨a, b⟩ := hsym i hi rfl
      unfold Near6
      simp only [Option.map_some, Option.some.injEq]
      have hcases : i = 0 ∨ i = 1 ∨ i = 2 ∨ i = 3 ∨ i = 4 ∨ i = 5 := by omega
      rcases hn with rfl | rfl | rfl | rfl <;> rcases hcases with rfl | rfl | rfl | rfl | rfl | rfl <;> omega
    · have : d = 0 := h2 (List.getElem?_eq_none (by change 6 ≤ i; omega))
      rcases hn with rfl | rfl | rfl | rfl <;> (exfalso; omega)

/-- The receiver hears every series of frames within `j` percent. -/
def Spec.Rc6Hears (t : Target) (tbl : PulseSpans) (f j : Nat) : Prop :=
  ∀ (u phase : Nat) (items : List (Rc6Command × List (Bool × Nat) × Option Nat)), 0 < u →
    (∀ i ∈ items, ManchesterFrame (fun x n => Near u j (444 * n) x)
      (rc6Edges (i.1.addr ++ i.1.cmd) i.1.toggle) i.2.1) →
    ∀ (b : Bool) (pause : Nat) (es : List (Bool × Nat)),
    (items.flatMap fun i => withTail i.2.1 i.2.2) = (b, pause) :: es → ∀ t0 g : Nat,
    (results (rc6Decoder t tbl) (fun c => c) ((b, g) :: clocked u f phase (t0 + pause) es)).map said =
      some (oks (items.map fun i => i.1))

theorem rc6_length {t : Target} {m : Mono} (hm : m = Mono.u32 ∨ m = Mono.u64) {f : Nat} (hf : f < 2 ^ 32)
    {tbl : PulseSpans} (htbl : rc6Spans t m f = some tbl) : tbl.spans.length ≤ 8 := by
  rw [rc6Spans_eq hm t hf, Option.some.injEq] at htbl
  subst htbl
  simp [rc6Table]

/-- The frame of `w6`, with any intervals within `j` percent, gives a command at every phase. -/
def Rc6Parses (tbl : PulseSpans) (f j : Nat) : Prop :=
  ∀ (phase : Nat) (ys : List (Bool × Nat)), Timed (fun x n => Near tens j (444 * n) x) ys w6Edges →
    ∃ g, rc6Parse (halfEdges tbl ((true, g) :: clocked tens f phase 0 ys)) ≠ []

theorem rc6_hears_parse {t : Target} (hus : 16 ≤ t.usizeBits) {m : Mono} (hm : m = Mono.u32 ∨ m = Mono.u64) {f : Nat}
    (hf : f < 2 ^ 32) {tbl : PulseSpans} (htbl : rc6Spans t m f = some tbl) {j : Nat} (hear : Rc6Hears t tbl f j) :
    Rc6Parses tbl f j := by
  intro phase ys hT
  have hres := hear tens phase [(w6, (true, 0) :: ys, none)] (by decide) (by
    intro i hi
    rw [List.mem_singleton] at hi
    subst hi
    exact ⟨0, 0, ys, w6Edges, rfl, w6_edges, hT⟩) true 0 ys (by simp [withTail]) 0 0
  obtain ⟨outs, ho, hsaid⟩ := Option.map_eq_some_iff.mp hres
  rw [C67_rc6 t hus tbl (rc6_length hm hf htbl) _ _ outs ho, res_map_id, List.map_id] at hsaid
  refine ⟨0, fun h0 => ?_⟩
  have : rc6Parse (halfEdges tbl ((true, 0) :: clocked tens f phase (0 + 0) ys)) = [] := h0
  rw [this] at hsaid
  cases hsaid

/-- If the receiver hears everything within `j` percent, it measures every interval right. -/
theorem rc6_right {t : Target} {m : Mono} (hm : m = Mono.u32 ∨ m = Mono.u64) {f : Nat}
    (hlo : 20000 ≤ f) (hf : f < 2 ^ 32) {tbl : PulseSpans} (htbl : rc6Spans t m f = some tbl) {j : Nat} (hj : j ≤ 13)
    (hear : Rc6Parses tbl f j) (as bs : List (Bool × Nat)) (b : Bool) (n : Nat) (he : w6Edges = as ++ (b, n) :: bs)
    (x phase : Nat) (hx : Near tens j (444 * n) x) :
    tbl.get (reading tens f phase (0 + ((nominal 444 as).map Prod.snd).sum + x) -
      reading tens f phase (0 + ((nominal 444 as).map Prod.snd).sum)) = some (n - 1) := by
  let ys := nominal 444 as ++ (b, x) :: nominal 444 bs
  have hT : Timed (fun x n => Near tens j (444 * n) x) ys w6Edges := by
    rw [he]; exact timed_except 444 j as bs b n x hx
  have hlen : ∀ n, (∃ b, (b, n) ∈ w6Edges) → n = 1 ∨ n = 2 ∨ n = 3 ∨ n = 6 := by
    rintro n ⟨b, hb⟩
    have : ∀ e ∈ w6Edges, e.2 = 1 ∨ e.2 = 2 ∨ e.2 = 3 ∨ e.2 = 6 := by decide
    exact this _ hb
  have hread : Read Near6 w6Edges (halfEdges tbl (clocked tens f phase 0 ys)) :=
    read_of_timed phase hT (fun t' n x hn hx => rc6_read hm hlo hf htbl hj phase t' n x (hlen n hn) hx) 0
  obtain ⟨g, hne⟩ := hear phase ys hT
  have hright := rc6_heard _ _ hread hne
  have hi : w6Edges[(nominal 444 as).length]? = some (b, n) := by
    rw [he]
    simp [nominal]
  have hg := clocked_get tens f phase (nominal 444 as) (nominal 444 bs) b x 0
  have := read_right hright hi (m := (b, _)) (by
    unfold halfEdges
    rw [List.getElem?_map, hg]
    rfl)
  dsimp only at this
  generalize tbl.get _ = o at this ⊢
  rcases o with _ | k
  · cases this
  · simp only [Option.map_some, Option.some.injEq] at this ⊢
    omega

theorem rc6_hears_covers {t : Target} {m : Mono} (hm : m = Mono.u32 ∨ m = Mono.u64) {f : Nat}
    (hlo : 20000 ≤ f) (hf : f < 2 ^ 32) {tbl : PulseSpans} (htbl : rc6Spans t m f = some tbl) {j : Nat} (hj : j ≤ 13)
    (hear : Rc6Parses tbl f j) : coversRc6 tbl f j = true := by
  have key : ∀ (as bs : List (Bool × Nat)) (b : Bool) (n : Nat), w6Edges = as ++ (b, n) :: bs →
      tbl.get (shortest f j (444 * n)) = some (n - 1) ∧ tbl.get (longest f j (444 * n)) = some (n - 1) := by
    intro as bs b n he
    obtain ⟨⟨x, p, hx, h1⟩, ⟨y, q, hy, h2⟩⟩ := extreme f j (444 * n) (0 + ((nominal 444 as).map Prod.snd).sum)
    have r1 := rc6_right hm hlo hf htbl hj hear as bs b n he x p hx
    have r2 := rc6_right hm hlo hf htbl hj hear as bs b n he y q hy
    rw [h1] at r1
    rw [h2] at r2
    exact ⟨r1, r2⟩
  have k6 := key [] _ false 6 rfl
  have k2 := key [(false, 6)] _ true 2 rfl
  have k1 := key [(false, 6), (true, 2)] _ false 1 rfl
  have k3 := key ((false, 6) :: (true, 2) :: w6Head) _ false 3 rfl
  have c1 := covers_of_extremes k1.1 k1.2
  have c2 := covers_of_extremes k2.1 k2.2
  have c3 := covers_of_extremes k3.1 k3.2
  have c6 := covers_of_extremes k6.1 k6.2
  unfold coversRc6
  simp only [Bool.and_eq_true]
  refine ⟨⟨⟨⟨c1, c2⟩, c3⟩, c6⟩, ?_⟩
  have hno := ((get_eq_iff' _ _ _).mp k6.1).2 4 (by decide)
  have hacc := C52_accepts .rc6 t m hm f hf tbl htbl 4 2220 12 rfl (2220 * f / 1000000) (by omega) (by omega)
  obtain ⟨w, hw, hlow, -⟩ := hacc
  rw [hw]
  refine decide_eq_true (Nat.lt_of_not_le fun hle => hno ⟨w, hw, Nat.le_trans hlow ?_, hle⟩)
  have hs : 87 * 2664 * f ≤ (100 - j) * (444 * 6) * f :=
    Nat.mul_le_mul_right _ (Nat.mul_le_mul_right _ (by omega))
  unfold shortest
  omega

theorem rc6Hears_mono {t : Target} {tbl : PulseSpans} {f j j' : Nat} (hj : j ≤ j')
    (h : Rc6Hears t tbl f j') : Rc6Hears t tbl f j := by
  intro u phase items hu hok
  refine h u phase items hu fun i hi => ?_
  obtain ⟨pause, n, evs, edges, h1, h2, h3⟩ := hok i hi
  exact ⟨pause, n, evs, edges, h1, h2, Timed.imp h3 fun _ _ _ hx => near_mono hj hx⟩

/-- **C81**, RC6 (mode 0). -/
theorem C81_rc6 (t : Target) (hus : 16 ≤ t.usizeBits) (m : Mono) (hm : m = Mono.u32 ∨ m = Mono.u64) (f : Nat)
    (hlo : 20000 ≤ f) (hf : f < 2 ^ 32) (tbl : PulseSpans) (htbl : rc6Spans t m f = some tbl) (j : Nat) :
    Rc6Hears t tbl f j ↔ coversRc6 tbl f j = true := by
  constructor
  · intro hear
    by_cases hj : j ≤ 13
    · exact rc6_hears_covers hm hlo hf htbl hj (rc6_hears_parse hus hm hf htbl hear)
    · have h := rc6_hears_covers hm hlo hf htbl (Nat.le_refl 13)
        (rc6_hears_parse hus hm hf htbl (rc6Hears_mono (by omega) hear))
      simp only [coversRc6, Bool.and_eq_true] at h
      have h0 := h.1.1.1.1
      rw [not_covers_more (k := .rc6) hm hlo hf htbl (s := 0) rfl (by decide) (by decide)] at h0
      cases h0
  · intro hc u phase items hu hok b pause es hes t0 g
    exact C78_rc6 t hus f j hlo hf m hm tbl htbl hc (fun c => c) u hu phase items hok b pause es hes t0 g

/-! ## The limits at some rates -/

theorem coversRc6_iff {tbl : PulseSpans} {f : Nat} (n : Nat) (h1 : coversRc6 tbl f n = true)
    (h2 : coversRc6 tbl f (n + 1) = false) (j : Nat) : coversRc6 tbl f j = true ↔ j ≤ n := by
  have mono : ∀ {j j'}, j ≤ j' → coversRc6 tbl f j' = true → coversRc6 tbl f j = true := by
    intro j j' hj h
    unfold coversRc6 at h ⊢
    simp only [Bool.and_eq_true] at h ⊢
    obtain ⟨⟨⟨⟨a, b⟩, c⟩, d⟩, e⟩ := h
    refine ⟨⟨⟨⟨covers_mono hj a, covers_mono hj b⟩, covers_mono hj c⟩, covers_mono hj d⟩, ?_⟩
    split at e
    · rfl
    · refine decide_eq_true (Nat.lt_of_lt_of_le (of_decide_eq_true e) ?_)
      have : (100 - j') * 2664 * f ≤ (100 - j) * 2664 * f :=
        Nat.mul_le_mul_right _ (Nat.mul_le_mul_right _ (by omega))
      unfold shortest
      omega
  constructor
  · intro h
    refine Nat.le_of_not_lt fun hlt => ?_
    rw [mono hlt h] at h2
    cases h2
  · exact fun h => mono h h1

/-- **C81**, the limits in percent at 20 kHz, 40 kHz and 1 MHz: the receivers hear all transmissions within so many
percent and no more (RC6 hears none at 20 kHz). -/
theorem C81_limits (t : Target) (hus : 16 ≤ t.usizeBits) (m : Mono) (hm : m = Mono.u32 ∨ m = Mono.u64) (j : Nat) :
    (∀ tbl, necSpans t m Infrared.nec 20000 = some tbl → (NecHears t m tbl Infrared.nec 20000 j ↔ j ≤ 6)) ∧
    (∀ tbl, necSpans t m Infrared.nec 40000 = some tbl → (NecHears t m tbl Infrared.nec 40000 j ↔ j ≤ 6)) ∧
    (∀ tbl, necSpans t m Infrared.nec 1000000 = some tbl → (NecHears t m tbl Infrared.nec 1000000 j ↔ j ≤ 6)) ∧
    (∀ tbl, sbpSpans t m 20000 = some tbl → (SbpHears t m tbl 20000 j ↔ j ≤ 5)) ∧
    (∀ tbl, sbpSpans t m 40000 = some tbl → (SbpHears t m tbl 40000 j ↔ j ≤ 5)) ∧
    (∀ tbl, sbpSpans t m 1000000 = some tbl → (SbpHears t m tbl 1000000 j ↔ j ≤ 5)) ∧
    (∀ tbl, denonSpans t m 20000 = some tbl → (DenonHears t m tbl 20000 j ↔ j ≤ 1)) ∧
    (∀ tbl, denonSpans t m 40000 = some tbl → (DenonHears t m tbl 40000 j ↔ j ≤ 7)) ∧
    (∀ tbl, denonSpans t m 1000000 = some tbl → (DenonHears t m tbl 1000000 j ↔ j ≤ 8)) ∧
    (∀ tbl, rc5Spans t m 20000 = some tbl → (Rc5Hears t tbl 20000 j ↔ j ≤ 6)) ∧
    (∀ tbl, rc5Spans t m 40000 = some tbl → (Rc5Hears t tbl 40000 j ↔ j ≤ 9)) ∧
    (∀ tbl, rc5Spans t m 1000000 = some tbl → (Rc5Hears t tbl 1000000 j ↔ j ≤ 9)) ∧
    (∀ tbl, rc6Spans t m 20000 = some tbl → ¬ Rc6Hears t tbl 20000 j) ∧
    (∀ tbl, rc6Spans t m 40000 = some tbl → (Rc6Hears t tbl 40000 j ↔ j ≤ 6)) ∧
    (∀ tbl, rc6Spans t m 1000000 = some tbl → (Rc6Hears t tbl 1000000 j ↔ j ≤ 6)) := by
  have n : ∀ {P : Prop} (f : Nat), 20000 ≤ f → f < 2 ^ 32 → (coversAll (necTable f) f j (necLengths Infrared.nec) = true ↔ P) →
      ∀ tbl, necSpans t m Infrared.nec f = some tbl → (NecHears t m tbl Infrared.nec f j ↔ P) := by
    intro P f h1 h2 h tbl htbl
    cases (necSpans_standard hm t h2 Infrared.nec rfl).symm.trans htbl
    exact (C81_nec t m hm f h1 h2 Infrared.nec (.inl rfl) _ _ C81_nec_telling.1 _ htbl j).trans h
  have s : ∀ {P : Prop} (f : Nat), 20000 ≤ f → f < 2 ^ 32 → (coversAll (sbpTable f) f j sbpLengths = true ↔ P) →
      ∀ tbl, sbpSpans t m f = some tbl → (SbpHears t m tbl f j ↔ P) := by
    intro P f h1 h2 h tbl htbl
    cases (sbpSpans_eq hm t h2).symm.trans htbl
    exact (C81_sbp t m hm f h1 h2 _ htbl j).trans h
  have d : ∀ {P : Prop} (f : Nat), 20000 ≤ f → f < 2 ^ 32 → (coversAll (denonTable f) f j denonLengths = true ↔ P) →
      ∀ tbl, denonSpans t m f = some tbl → (DenonHears t m tbl f j ↔ P) := by
    intro P f h1 h2 h tbl htbl
    cases (denonSpans_eq hm t h2).symm.trans htbl
    exact (C81_denon t m hm f h1 h2 _ htbl j).trans h
  have r : ∀ {P : Prop} (f : Nat), 20000 ≤ f → f < 2 ^ 32 → (coversAll (rc5Table f) f j rc5Lengths = true ↔ P) →
      ∀ tbl, rc5Spans t m f = some tbl → (Rc5Hears t tbl f j ↔ P) := by
    intro P f h1 h2 h tbl htbl
    cases (rc5Spans_eq hm t h2).symm.trans htbl
    exact (C81_rc5 t hus m hm f h1 h2 _ htbl j).trans h
  have q : ∀ {P : Prop} (f : Nat), 20000 ≤ f → f < 2 ^ 32 → (coversRc6 (rc6Table f) f j = true ↔ P) →
      ∀ tbl, rc6Spans t m f = some tbl → (Rc6Hears t tbl f j ↔ P) := by
    intro P f h1 h2 h tbl htbl
    cases (rc6Spans_eq hm t h2).symm.trans htbl
    exact (C81_rc6 t hus m hm f h1 h2 _ htbl j).trans h
  refine ⟨n _ (by decide) (by decide) (coversAll_iff 6 (by decide +kernel) (by decide +kernel)),
    n _ (by decide) (by decide) (coversAll_iff 6 (by decide +kernel) (by decide +kernel)),
    n _ (by decide) (by decide) (coversAll_iff 6 (by decide +kernel) (by decide +kernel)),
    s _ (by decide) (by decide) (coversAll_iff 5 (by decide +kernel) (by decide +kernel)),
    s _ (by decide) (by decide) (coversAll_iff 5 (by decide +kernel) (by decide +kernel)),
    s _ (by decide) (by decide) (coversAll_iff 5 (by decide +kernel) (by decide +kernel)),
    d _ (by decide) (by decide) (coversAll_iff 1 (by decide +kernel) (by decide +kernel)),
    d _ (by decide) (by decide) (coversAll_iff 7 (by decide +kernel) (by decide +kernel)),
    d _ (by decide) (by decide) (coversAll_iff 8 (by decide +kernel) (by decide +kernel)),
    r _ (by decide) (by decide) (coversAll_iff 6 (by decide +kernel) (by decide +kernel)),
    r _ (by decide) (by decide) (coversAll_iff 9 (by decide +kernel) (by decide +kernel)),
    r _ (by decide) (by decide) (coversAll_iff 9 (by decide +kernel) (by decide +kernel)),
    ?_,
    q _ (by decide) (by decide) (coversRc6_iff 6 (by decide +kernel) (by decide +kernel) j),
    q _ (by decide) (by decide) (coversRc6_iff 6 (by decide +kernel) (by decide +kernel) j)⟩
  intro tbl htbl h
  have := (q 20000 (by decide) (by decide) Iff.rfl tbl htbl).mp h
  rw [(C79_tolerances (C := NecCommand)).2.2.2.2 j] at this
  cases this

/-- The six percent at 40 kHz of NEC are met: the table exists, and the receiver hears within 6 percent but not within
7. -/
example (t : Target) : ∃ tbl, necSpans t .u32 Infrared.nec 40000 = some tbl ∧
    NecHears t .u32 tbl Infrared.nec 40000 6 ∧ ¬ NecHears t .u32 tbl Infrared.nec 40000 7 := by
  have htbl := necSpans_standard (m := .u32) (.inl rfl) t (f := 40000) (by decide) Infrared.nec rfl
  refine ⟨_, htbl, ?_⟩
  have h := fun j => C81_nec t .u32 (.inl rfl) 40000 (by decide) (by decide) Infrared.nec (.inl rfl) _ _
    C81_nec_telling.1 _ htbl j
  exact ⟨(h 6).mpr (by decide +kernel), fun h7 => absurd ((h 7).mp h7) (by decide +kernel)⟩

end Infrared
