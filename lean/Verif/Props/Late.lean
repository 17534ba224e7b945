import Verif.Spec.Late
import Verif.Props.Reception

/-!
# Edges handled late, polls that are not evenly spaced (C85)
-/

namespace Infrared

open Spec

variable {C K : Type}

/-- `read` follows a clock of `f` Hz: it never goes back, and the difference of two readings is at most `c` ticks off
the time between them; over more than 17 ms it may be behind by more, but not below what it counts in 17 ms. -/
def Follows (u f c : Nat) (read : Nat → Nat) : Prop :=
  ∀ t x, read t ≤ read (t + x) ∧ u * (read (t + x) - read t) ≤ x * f + c * u ∧
    (x * f ≤ u * (read (t + x) - read t) + c * u ∨ 17000 * f ≤ 1000000 * (read (t + x) - read t + c))

/-! ## Series seen through such a clock -/

section
variable (r : Nat → Nat)

/-- The pulses measured for physical pulses. -/
def pulsesBy : Nat → List (Nat × Nat) → List (Nat × Nat)
  | _, [] => []
  | t, (h, l) :: ps => (r (t + h) - r t, r (t + h + l) - r (t + h)) :: pulsesBy (t + h + l) ps

theorem clockedBy_pulses (t : Nat) (ps : List (Nat × Nat)) :
    clockedBy r t (pulses ps) = pulses (pulsesBy r t ps) := by
  induction ps generalizing t with
  | nil => rfl
  | cons p ps ih => simp only [pulses, clockedBy, pulsesBy, ih]

theorem pulsesBy_length (t : Nat) (ps : List (Nat × Nat)) : (pulsesBy r t ps).length = ps.length := by
  induction ps generalizing t with
  | nil => rfl
  | cons p ps ih => simp [pulsesBy, ih]

theorem pulsesBy_get (hr : ∀ t x, r t ≤ r (t + x)) (t : Nat) (ps : List (Nat × Nat)) (i : Nat) (q : Nat × Nat)
    (h : (pulsesBy r t ps)[i]? = some q) :
    ∃ p t', ps[i]? = some p ∧ q.1 + q.2 = r (t' + (p.1 + p.2)) - r t' := by
  induction ps generalizing t i with
  | nil => simp [pulsesBy] at h
  | cons p ps ih =>
    rcases i with _ | i
    · simp only [pulsesBy, List.getElem?_cons_zero, Option.some.injEq] at h
      subst h
      refine ⟨p, t, rfl, ?_⟩
      have a := hr t p.1
      have b := hr (t + p.1) p.2
      rw [← Nat.add_assoc]
      simp only
      omega
    · simp only [pulsesBy, List.getElem?_cons_succ] at h
      exact ih _ _ h

theorem clockedBy_append_at (a b : List (Bool × Nat)) (t : Nat) :
    ∃ t', clockedBy r t (a ++ b) = clockedBy r t a ++ clockedBy r t' b := by
  induction a generalizing t with
  | nil => exact ⟨t, rfl⟩
  | cons e es ih =>
    obtain ⟨edge, x⟩ := e
    obtain ⟨t', h⟩ := ih (t + x)
    exact ⟨t', by simp only [List.cons_append, clockedBy, h]⟩

/-- The measured version of a series: same items, measured pulses, measured pauses. -/
theorem clockedBy_series {A : Type} (wire : A → List (Nat × Nat)) (upd : A → List (Nat × Nat) → A)
    (hupd : ∀ a ps, ps.length = (wire a).length → wire (upd a ps) = ps)
    (items : List (A × (Nat × Nat))) (t : Nat) :
    ∃ ts : List (Nat × Nat), ts.length = items.length ∧
      clockedBy r t (series wire items) =
        series wire ((items.zip ts).map fun q =>
          (upd q.1.1 (pulsesBy r q.2.1 (wire q.1.1)),
            (r (q.2.2 + q.1.2.1) - r q.2.2, r (q.2.2 + q.1.2.1 + q.1.2.2) - r (q.2.2 + q.1.2.1)))) := by
  induction items generalizing t with
  | nil => exact ⟨[], rfl, rfl⟩
  | cons a as ih =>
    rw [series_eq, List.flatMap_cons]
    obtain ⟨t1, h1⟩ := clockedBy_append_at r (pulses (wire a.1) ++ pulses [a.2])
      (as.flatMap fun i => pulses (wire i.1) ++ pulses [i.2]) t
    obtain ⟨t2, h2⟩ := clockedBy_append_at r (pulses (wire a.1)) (pulses [a.2]) t
    obtain ⟨ts, hl, h3⟩ := ih t1
    refine ⟨(t, t2) :: ts, by simp [hl], ?_⟩
    rw [series_eq] at h3
    rw [h1, h2, h3, clockedBy_pulses, clockedBy_pulses, series_eq, series_eq, List.zip_cons_cons, List.map_cons,
      List.flatMap_cons]
    dsimp only
    rw [hupd _ _ (pulsesBy_length r _ _)]
    rfl

theorem clockedBy_withTail (es : List (Bool × Nat)) (tail : Option Nat) (t : Nat) :
    ∃ tail', clockedBy r t (withTail es tail) = withTail (clockedBy r t es) tail' := by
  cases tail with
  | none => exact ⟨none, rfl⟩
  | some x =>
    obtain ⟨t', h⟩ := clockedBy_append_at r es [(false, x)] t
    exact ⟨some (r (t' + x) - r t'), h⟩

/-- The measured version of a series of Manchester transmissions. -/
theorem clockedBy_tails {A : Type} (items : List (A × List (Bool × Nat) × Option Nat)) (t : Nat) :
    ∃ ts : List (Nat × Option Nat), ts.length = items.length ∧
      clockedBy r t (items.flatMap fun i => withTail i.2.1 i.2.2) =
        ((items.zip ts).map fun q => (q.1.1, clockedBy r q.2.1 q.1.2.1, q.2.2)).flatMap
          fun i => withTail i.2.1 i.2.2 := by
  induction items generalizing t with
  | nil => exact ⟨[], rfl, rfl⟩
  | cons a as ih =>
    obtain ⟨t', h⟩ := clockedBy_append_at r (withTail a.2.1 a.2.2)
      (as.flatMap fun i => withTail i.2.1 i.2.2) t
    obtain ⟨tail', h'⟩ := clockedBy_withTail r a.2.1 a.2.2 t
    obtain ⟨ts, hl, hts⟩ := ih t'
    refine ⟨(t, tail') :: ts, by simp [hl], ?_⟩
    rw [List.flatMap_cons, h, hts, h']
    rfl

theorem clockedBy_timed {R R' : Nat → Nat → Prop} {ws : List (Bool × Nat)}
    (hi : ∀ t ns w, w ∈ ws → R ns w.2 → R' (r (t + ns) - r t) w.2)
    {es : List (Bool × Nat)} (t0 : Nat) (h : Timed R es ws) : Timed R' (clockedBy r t0 es) ws := by
  induction es generalizing ws t0 with
  | nil => cases ws with
    | nil => trivial
    | cons w ws => exact h.elim
  | cons e es ih => cases ws with
    | nil => exact h.elim
    | cons w ws =>
      exact ⟨h.1, hi _ _ w (by simp) h.2.1, ih (fun t ns w hw => hi t ns w (by simp [hw])) _ h.2.2⟩

theorem frame_clockedBy {R R' : Nat → Nat → Prop} {e0 : Bool × Nat} {edges : List (Bool × Nat)}
    (hi : ∀ t ns, ∀ e ∈ edges, R ns e.2 → R' (r (t + ns) - r t) e.2)
    (t : Nat) (es : List (Bool × Nat)) (h : ManchesterFrame R (e0 :: edges) es) :
    ManchesterFrame R' (e0 :: edges) (clockedBy r t es) := by
  obtain ⟨pause, n, es', edges', rfl, he, ht⟩ := h
  simp only [List.cons.injEq] at he
  obtain ⟨rfl, rfl⟩ := he
  exact ⟨_, n, _, edges, rfl, rfl, clockedBy_timed r (fun t ns w hw => hi t ns w hw) _ ht⟩

/-- The measured version of a series of Manchester transmissions, with any pause before the first one. -/
theorem tails_by {A : Type} (fits fits' : Nat → Nat → Prop)
    (edges : A → List (Bool × Nat)) (P : A → Prop)
    (hfits : ∀ a t es, P a → ManchesterFrame fits (edges a) es →
      ManchesterFrame fits' (edges a) (clockedBy r t es))
    (items : List (A × List (Bool × Nat) × Option Nat))
    (hok : ∀ i ∈ items, P i.1 ∧ ManchesterFrame fits (edges i.1) i.2.1) (b0 : Bool) (x0 : Nat)
    (fl : List (Bool × Nat)) (hfl : (items.flatMap fun i => withTail i.2.1 i.2.2) = (b0, x0) :: fl)
    (g t0 : Nat) :
    ∃ items' : List (A × List Ev × Option Nat), items'.map Prod.fst = items.map Prod.fst ∧
      (∀ i ∈ items', P i.1 ∧ ManchesterFrame fits' (edges i.1) i.2.1) ∧
      (b0, g) :: clockedBy r (t0 + x0) fl = items'.flatMap fun i => withTail i.2.1 i.2.2 := by
  cases items with
  | nil => cases hfl
  | cons a as =>
    obtain ⟨ts, hl, hts⟩ := clockedBy_tails r (a :: as) t0
    cases ts with
    | nil => simp at hl
    | cons b bs =>
      have hall : ∀ i ∈ ((a :: as).zip (b :: bs)).map fun q : (A × List (Bool × Nat) × Option Nat) × (Nat × Option Nat) =>
          (q.1.1, clockedBy r q.2.1 q.1.2.1, q.2.2), P i.1 ∧ ManchesterFrame fits' (edges i.1) i.2.1 := by
        intro i hi
        obtain ⟨⟨x, y⟩, hq, rfl⟩ := List.mem_map.mp hi
        obtain ⟨hp, hf⟩ := hok x (List.of_mem_zip hq).1
        exact ⟨hp, hfits _ _ _ hp hf⟩
      have hfst := zip_map_fst (fun i : A × List (Bool × Nat) × Option Nat => i.1) (a :: as) (b :: bs) hl
      rw [List.zip_cons_cons, List.map_cons] at hts hall hfst
      obtain ⟨x1, es, hes⟩ := frame_nonempty (hok a (by simp)).2
      have hcons : ∀ (e : Ev) (l : List Ev) (tl : Option Nat), withTail (e :: l) tl = e :: withTail l tl := by
        intro e l tl; cases tl <;> rfl
      obtain ⟨rfl, rfl⟩ : true = b0 ∧ x1 = x0 := by
        rw [List.flatMap_cons, hes, hcons, List.cons_append, List.cons.injEq, Prod.mk.injEq] at hfl
        exact hfl.1
      rw [hfl] at hts
      rw [hes] at hall hts
      simp only [clockedBy] at hall hts
      refine ⟨(a.1, (true, g) :: clockedBy r (b.1 + x1) es, b.2) ::
        (as.zip bs).map fun q => (q.1.1, clockedBy r q.2.1 q.1.2.1, q.2.2), ?_, ?_, ?_⟩
      · rw [← hfst]
        simp only [List.map_cons, List.map_map]
        rfl
      · intro i hi
        rcases List.mem_cons.mp hi with rfl | hi
        · exact ⟨(hall _ (List.mem_cons_self ..)).1, frame_pause (hall _ (List.mem_cons_self ..)).2 _⟩
        · exact hall i (List.mem_cons_of_mem _ hi)
      · rw [List.flatMap_cons] at hts ⊢
        rw [hcons, List.cons_append] at hts ⊢
        rw [(List.cons.inj hts).2]

end

/-! ## Measuring -/

/-- Physical durations within `j` percent of `l` µs are measured as symbol `s`. -/
def MeasuresBy (tbl : PulseSpans) (r : Nat → Nat) (u j s l : Nat) : Prop :=
  ∀ t x, Near u j l x → InTol tbl s (r (t + x) - r t)

theorem matches_by {tbl : PulseSpans} {r : Nat → Nat} (hr : ∀ t x, r t ≤ r (t + x)) {u j : Nat} {us slots : List Nat}
    (hlen : us.length = slots.length)
    (hok : ∀ (i l s : Nat), us[i]? = some l → slots[i]? = some s → MeasuresBy tbl r u j s l)
    {ps : List (Nat × Nat)} (h : NearPeriods u j us ps) (t0 : Nat) :
    Matches tbl slots (pulsesBy r t0 ps) := by
  refine ⟨by rw [pulsesBy_length, h.1, hlen], fun i q s hq hs => ?_⟩
  obtain ⟨p, t', hp, hsum⟩ := pulsesBy_get r hr t0 ps i q hq
  have hi : i < us.length := hlen ▸ (List.getElem?_eq_some_iff.mp hs).1
  have hl := List.getElem?_eq_getElem hi
  rw [hsum]
  exact hok i _ s hl hs _ _ (h.2 i p _ hp hl)

theorem follows_bounds {u f c : Nat} {r : Nat → Nat} (hu : 0 < u) (hr : Follows u f c r) {t x d j l : Nat}
    (hl : (100 + j) * l ≤ 1700000) (hn : Near u j l x) (hd : d = r (t + x) - r t) :
    (100 - j) * l * f ≤ 100000000 * d + 100000000 * c ∧ 100000000 * d ≤ (100 + j) * l * f + 100000000 * c := by
  obtain ⟨-, b1, b2⟩ := hr t x
  rw [← hd] at b1 b2
  obtain ⟨n1, n2⟩ := hn
  have m1 := Nat.mul_le_mul_right f n1
  have m2 := Nat.mul_le_mul_right f n2
  have e1 : (100 - j) * l * u * f = u * ((100 - j) * l * f) := by rw [Nat.mul_comm _ u, Nat.mul_assoc u]
  have e2 : (100 + j) * l * u * f = u * ((100 + j) * l * f) := by rw [Nat.mul_comm _ u, Nat.mul_assoc u]
  have e3 : 100000000 * x * f = 100000000 * (x * f) := Nat.mul_assoc _ _ _
  rw [Nat.mul_comm c u] at b1 b2
  constructor
  · rcases b2 with b2 | b2
    · refine Nat.le_of_mul_le_mul_left (c := u) ?_ hu
      rw [Nat.mul_add, Nat.mul_left_comm u 100000000, Nat.mul_left_comm u 100000000 c]
      omega
    · have h1 := Nat.mul_le_mul_right f (Nat.le_trans (Nat.mul_le_mul_right l (show 100 - j ≤ 100 + j by omega)) hl)
      omega
  · refine Nat.le_of_mul_le_mul_left (c := u) ?_ hu
    rw [Nat.mul_add, Nat.mul_left_comm u 100000000, Nat.mul_left_comm u 100000000 c]
    omega

theorem measures_by {t : Target} {m : Mono} (hm : m = Mono.u32 ∨ m = Mono.u64) {f : Nat} (hf : f < 2 ^ 32)
    {tbl : PulseSpans} {u c j : Nat} (hj : j ≤ 5) {r : Nat → Nat} (hu : 0 < u) (hr : Follows u f c r) (k : Kind)
    (htbl : k.build t m f = some tbl) {s l tol : Nat} (hs : k.symbols[s]? = some (l, tol))
    (c1 : (100 - tol) * l * f + 100000000 * c ≤ (100 - j) * l * f)
    (c2 : 10000 * ((100 + j) * l * f) + 1000000000000 * c + 10000000000 * (100 + tol) ≤
      9968 * ((100 + tol) * l * f)) :
    MeasuresBy tbl r u j s l := by
  intro t' x hn
  have hsmall : (100 + j) * l ≤ 1700000 :=
    Nat.le_trans (Nat.mul_le_mul (show 100 + j ≤ 105 by omega) (symbols_small k hs).1) (by decide)
  obtain ⟨a, b⟩ := follows_bounds hu hr (t := t') hsmall hn rfl
  exact C52_accepts k t m hm f hf tbl htbl s l tol hs _ (by omega) (by omega)

/-- A period of 16 ms or more is longer than every symbol. -/
theorem pause_by {t : Target} {m : Mono} (hm : m = Mono.u32 ∨ m = Mono.u64) {f c : Nat} (hf : f < 2 ^ 32)
    (hlo : 10000 * (c + 1) ≤ f) {tbl : PulseSpans} {u : Nat} {r : Nat → Nat} (hu : 0 < u) (hr : Follows u f c r)
    (k : Kind) (htbl : k.build t m f = some tbl) (syms : List Nat) (hsy : ∀ i ∈ syms, i < k.symbols.length)
    (p : Nat × Nat) (hp : 16000 * u ≤ 1000000 * (p.1 + p.2))
    (h1 : (p.1 + p.2) * f + c * u < 2 ^ m.width * u) (t' : Nat) :
    Pause tbl m.width syms (r (t' + p.1) - r t', r (t' + p.1 + p.2) - r (t' + p.1)) := by
  obtain ⟨-, hb1, hb2⟩ := hr t' (p.1 + p.2)
  have m1 := (hr t' p.1).1
  have m2 := (hr (t' + p.1) p.2).1
  rw [← Nat.add_assoc] at hb1 hb2
  have he : r (t' + p.1) - r t' + (r (t' + p.1 + p.2) - r (t' + p.1)) = r (t' + p.1 + p.2) - r t' := by omega
  refine ⟨?_, fun i hi hin => ?_⟩
  · dsimp only
    rw [he]
    refine Nat.lt_of_mul_lt_mul_left (a := u) ?_
    rw [Nat.mul_comm u (2 ^ _)]
    omega
  dsimp only at hin
  rw [he] at hin
  have hlt := hsy i hi
  obtain ⟨⟨l, tol⟩, hs⟩ : ∃ s, k.symbols[i]? = some s := ⟨_, List.getElem?_eq_getElem hlt⟩
  have hrj := ((C52_rejects k t m hm f hf tbl htbl i _ hin).1 l tol hs).1
  generalize r (t' + p.1 + p.2) - r t' = d at hrj hb1 hb2
  have g1 : 16000 * f ≤ 1000000 * d + 1000000 * c := by
    rcases hb2 with hb2 | hb2
    swap
    · omega
    refine Nat.le_of_mul_le_mul_left (c := u) ?_ hu
    have := Nat.mul_le_mul_right f hp
    rw [Nat.mul_assoc, Nat.mul_assoc 1000000] at this
    rw [Nat.mul_left_comm u 16000, Nat.mul_add, Nat.mul_left_comm u 1000000, Nat.mul_left_comm u 1000000 c]
    rw [Nat.mul_comm c u] at hb2
    omega
  have hsmall : (100 + tol) * l ≤ 107 * 13500 := by
    have : ∀ k : Kind, ∀ s ∈ k.symbols, (100 + s.2) * s.1 ≤ 107 * 13500 := by
      intro k; cases k <;> decide
    exact this k (l, tol) (List.mem_of_getElem? hs)
  have h5 := Nat.mul_le_mul_right f hsmall
  omega

/-! ## What receivers hear through such a clock -/

theorem nec_by (t : Target) (m : Mono) (hm : m = Mono.u32 ∨ m = Mono.u64) (f c : Nat) (hc : 1 ≤ c)
    (hlo : 10000 * (c + 1) ≤ f) (hf : f < 2 ^ 32) (v : NecVariant C) (hv : v.Shipped) (tbl : PulseSpans)
    (htbl : necSpans t m v f = some tbl) (conv : C → K) (u : Nat) (hu : 0 < u) (r : Nat → Nat) (hr : Follows u f c r)
    (t0 g : Nat) (hg : Pause tbl m.width [0, 1] (0, g)) (items : List (NecItem × (Nat × Nat)))
    (hok : ∀ i ∈ items, i.1.Near u 5 (v.pulseDistance.headerHigh + v.pulseDistance.headerLow)
      (v.pulseDistance.headerHigh + v.pulseDistance.repeatLow) ∧
      16000 * u ≤ 1000000 * (i.2.1 + i.2.2) ∧ (i.2.1 + i.2.2) * f + c * u < 2 ^ m.width * u) :
    (results (necDecoder t m tbl v) conv
        ((true, g) :: clockedBy r t0 (series NecItem.wire items))).map said =
      some (oks ((necHeard v.unpack 0 (items.map Prod.fst)).map conv)) := by
  obtain ⟨k, hk, he⟩ := nec_kind v hv
  have htbl' := htbl
  rw [he] at htbl'
  have hclk : ∀ s l, (necLengths v)[s]? = some l → MeasuresBy tbl r u 5 s l := by
    intro s l hs
    rcases hk with ⟨rfl, hv'⟩ | ⟨rfl, hv'⟩ <;> rw [necLengths, hv'] at hs <;> rcases s with _ | _ | _ | _ | s <;>
      cases hs
    · exact measures_by hm hf (by decide) hu hr .nec htbl' (s := 0) (l := 13500) (tol := 7) rfl (by omega) (by omega)
    · exact measures_by hm hf (by decide) hu hr .nec htbl' (s := 1) (l := 11250) (tol := 7) rfl (by omega) (by omega)
    · exact measures_by hm hf (by decide) hu hr .nec htbl' (s := 2) (tol := 25) rfl (by omega) (by omega)
    · exact measures_by hm hf (by decide) hu hr .nec htbl' (s := 3) (tol := 12) rfl (by omega) (by omega)
    · exact measures_by hm hf (by decide) hu hr .samsung htbl' (s := 0) (l := 9000) (tol := 7) rfl (by omega) (by omega)
    · exact measures_by hm hf (by decide) hu hr .samsung htbl' (s := 1) (l := 6750) (tol := 7) rfl (by omega) (by omega)
    · exact measures_by hm hf (by decide) hu hr .samsung htbl' (s := 2) (tol := 25) rfl (by omega) (by omega)
    · exact measures_by hm hf (by decide) hu hr .samsung htbl' (s := 3) (tol := 12) rfl (by omega) (by omega)
  obtain ⟨ts, hl, hser⟩ := clockedBy_series r NecItem.wire NecItem.withPulses withPulses_wire items t0
  rw [hser]
  refine (C56_nec_series t m hm f (by omega) hf v hv tbl htbl conv g hg _ ?_).trans ?_
  · intro i hi
    obtain ⟨⟨⟨a, p⟩, b⟩, hq, rfl⟩ := List.mem_map.mp hi
    have hmem := (List.of_mem_zip hq).1
    obtain ⟨hnear, hp, hp'⟩ := hok _ hmem
    refine ⟨?_, pause_by hm hf hlo hu hr k htbl' [0, 1] (by rcases hk with ⟨rfl, -⟩ | ⟨rfl, -⟩ <;> decide)
      p hp hp' _⟩
    dsimp only at hnear ⊢
    cases a with
    | frame wd ps =>
      refine necFrame_of_matches ?_
      refine matches_by (fun t x => (hr t x).1)
        (us := necPeriods (v.pulseDistance.headerHigh + v.pulseDistance.headerLow) wd)
        (by simp [necPeriods, necSlots]) ?_ hnear _
      exact append_ok (l1 := [_]) (s1 := [0]) rfl (single_ok (hclk 0 _ rfl))
        (bits_ok 32 _ _ _ _ _ (hclk 3 _ rfl) (hclk 2 _ rfl))
    | rep q =>
      obtain ⟨q', t', hq', hsum⟩ := pulsesBy_get r (fun t x => (hr t x).1) b.1 [q] 0 _ rfl
      simp only [List.getElem?_cons_zero, Option.some.injEq] at hq'
      subst hq'
      show InTol _ 1 _
      rw [hsum]
      exact hclk 1 _ rfl _ _ hnear
  · rw [List.map_map]
    exact congrArg (fun l => some (oks (l.map conv))) (necHeard_withPulses v.unpack items _ ts hl 0)

theorem sbp_by (t : Target) (m : Mono) (hm : m = Mono.u32 ∨ m = Mono.u64) (f c : Nat) (hc : 1 ≤ c)
    (hlo : 20000 * (c + 1) ≤ f) (hf : f < 2 ^ 32) (tbl : PulseSpans) (htbl : sbpSpans t m f = some tbl)
    (conv : SbpCommand → K) (u : Nat) (hu : 0 < u) (r : Nat → Nat) (hr : Follows u f c r) (t0 g : Nat)
    (hg : Pause tbl m.width [0] (0, g)) (items : List ((BitVec 16 × BitVec 20 × List (Nat × Nat)) × (Nat × Nat)))
    (hok : ∀ i ∈ items, NearPeriods u 3 (sbpPeriods i.1.1 i.1.2.1) i.1.2.2 ∧
      16000 * u ≤ 1000000 * (i.2.1 + i.2.2) ∧ (i.2.1 + i.2.2) * f + c * u < 2 ^ m.width * u) :
    (results (sbpDecoder t m tbl) conv
        ((true, g) :: clockedBy r t0 (series (fun i => i.2.2) items))).map said =
      some (oks (items.map fun i => conv (SbpCommand.unpack i.1.1 (i.1.2.1.setWidth 32)))) := by
  have htbl' : Kind.build .sbp t m f = some tbl := htbl
  have hclk : ∀ s l, [4500 + 4500, 500 + 4500, 500 + 500, 500 + 1500][s]? = some l → MeasuresBy tbl r u 3 s l := by
    intro s l hs
    rcases s with _ | _ | _ | _ | s <;> cases hs
    · exact measures_by hm hf (by decide) hu hr .sbp htbl' (tol := 5) rfl (by omega) (by omega)
    · exact measures_by hm hf (by decide) hu hr .sbp htbl' (s := 1) (tol := 5) rfl (by omega) (by omega)
    · exact measures_by hm hf (by decide) hu hr .sbp htbl' (s := 2) (tol := 10) rfl (by omega) (by omega)
    · exact measures_by hm hf (by decide) hu hr .sbp htbl' (s := 3) (tol := 10) rfl (by omega) (by omega)
  obtain ⟨ts, hl, hser⟩ := clockedBy_series r
    (fun i : BitVec 16 × BitVec 20 × List (Nat × Nat) => i.2.2) (fun i ps => (i.1, i.2.1, ps))
    (fun _ _ _ => rfl) items t0
  rw [hser]
  refine (C56_sbp_series t m hm f (by omega) hf tbl htbl conv g hg _ ?_).trans ?_
  · intro i hi
    obtain ⟨⟨⟨a, p⟩, b⟩, hq, rfl⟩ := List.mem_map.mp hi
    have hmem := (List.of_mem_zip hq).1
    obtain ⟨hnear, hp, hp'⟩ := hok _ hmem
    refine ⟨?_, pause_by hm hf (by omega) hu hr .sbp htbl' [0] (by decide) p hp hp' _⟩
    refine matches_by (fun t x => (hr t x).1) (us := sbpPeriods a.1 a.2.1) (by simp [sbpPeriods, sbpSlots]) ?_ hnear _
    unfold sbpPeriods sbpSlots
    exact append_ok (by simp) (append_ok (by simp) (append_ok (by simp)
      (single_ok (hclk 0 _ rfl)) (bits_ok 16 _ _ _ _ _ (hclk 3 _ rfl) (hclk 2 _ rfl)))
      (single_ok (hclk 1 _ rfl))) (bits_ok 20 _ _ _ _ _ (hclk 3 _ rfl) (hclk 2 _ rfl))
  · rw [List.map_map]
    exact congrArg (fun l => some (oks l)) (zip_map_fst
      (fun i : (BitVec 16 × BitVec 20 × List (Nat × Nat)) × (Nat × Nat) =>
        conv (SbpCommand.unpack i.1.1 (i.1.2.1.setWidth 32))) items ts hl)

theorem denon_by (t : Target) (m : Mono) (hm : m = Mono.u32 ∨ m = Mono.u64) (f c : Nat) (hc : 1 ≤ c)
    (hlo : 20000 * (c + 1) ≤ f) (hf : f < 2 ^ 32) (tbl : PulseSpans) (htbl : denonSpans t m f = some tbl)
    (conv : DenonCommand → K) (u : Nat) (hu : 0 < u) (r : Nat → Nat) (hr : Follows u f c r) (t0 g : Nat)
    (hg : Pause tbl m.width [0] (0, g)) (items : List ((BitVec 48 × List (Nat × Nat)) × (Nat × Nat)))
    (hok : ∀ i ∈ items, NearPeriods u 3 (denonPeriods i.1.1) i.1.2 ∧
      16000 * u ≤ 1000000 * (i.2.1 + i.2.2) ∧ (i.2.1 + i.2.2) * f + c * u < 2 ^ m.width * u) :
    (results (denonDecoder t m tbl) conv
        ((true, g) :: clockedBy r t0 (series (fun i => i.2) items))).map said =
      some (oks (items.map fun i => conv { bits := (i.1.1.setWidth 47).setWidth 64 })) := by
  have htbl' : Kind.build .denon t m f = some tbl := htbl
  have hclk : ∀ s l, [3400 + 1600, 480 + 360, 480 + 1200][s]? = some l → MeasuresBy tbl r u 3 s l := by
    intro s l hs
    rcases s with _ | _ | _ | s <;> cases hs
    · exact measures_by hm hf (by decide) hu hr .denon htbl' (tol := 8) rfl (by omega) (by omega)
    · exact measures_by hm hf (by decide) hu hr .denon htbl' (s := 1) (tol := 10) rfl (by omega) (by omega)
    · exact measures_by hm hf (by decide) hu hr .denon htbl' (s := 2) (tol := 10) rfl (by omega) (by omega)
  obtain ⟨ts, hl, hser⟩ := clockedBy_series r
    (fun i : BitVec 48 × List (Nat × Nat) => i.2) (fun i ps => (i.1, ps))
    (fun _ _ _ => rfl) items t0
  rw [hser]
  refine (C56_denon_series t m hm f (by omega) hf tbl htbl conv g hg _ ?_).trans ?_
  · intro i hi
    obtain ⟨⟨⟨a, p⟩, b⟩, hq, rfl⟩ := List.mem_map.mp hi
    have hmem := (List.of_mem_zip hq).1
    obtain ⟨hnear, hp, hp'⟩ := hok _ hmem
    refine ⟨?_, pause_by hm hf (by omega) hu hr .denon htbl' [0] (by decide) p hp hp' _⟩
    refine matches_by (fun t x => (hr t x).1) (us := denonPeriods a.1) (by simp [denonPeriods, denonSlots]) ?_ hnear _
    unfold denonPeriods denonSlots
    exact append_ok (by simp) (single_ok (hclk 0 _ rfl)) (bits_ok 48 _ _ _ _ _ (hclk 2 _ rfl) (hclk 1 _ rfl))
  · rw [List.map_map]
    exact congrArg (fun l => some (oks l)) (zip_map_fst
      (fun i : (BitVec 48 × List (Nat × Nat)) × (Nat × Nat) =>
        conv { bits := (i.1.1.setWidth 47).setWidth 64 }) items ts hl)

theorem rc5_by (t : Target) (hus : 16 ≤ t.usizeBits) (m : Mono) (hm : m = Mono.u32 ∨ m = Mono.u64) (f c : Nat)
    (hc : 1 ≤ c) (hlo : 20000 * (c + 1) ≤ f) (hf : f < 2 ^ 32) (tbl : PulseSpans) (htbl : rc5Spans t m f = some tbl)
    (conv : Rc5Command → K) (u : Nat) (hu : 0 < u) (r : Nat → Nat) (hr : Follows u f c r)
    (items : List (BitVec 14 × List (Bool × Nat) × Option Nat))
    (hok : ∀ i ∈ items, i.1.getLsbD 13 = true ∧
      ManchesterFrame (fun x n => Near u 5 (889 * n) x) (rc5Edges i.1) i.2.1)
    (b : Bool) (pause : Nat) (es : List (Bool × Nat))
    (hes : (items.flatMap fun i => withTail i.2.1 i.2.2) = (b, pause) :: es) (t0 g : Nat) :
    (results (rc5Decoder t tbl) conv ((b, g) :: clockedBy r (t0 + pause) es)).map said =
      some (oks (items.map fun i => conv (Rc5Command.unpack (i.1.setWidth 16)))) := by
  have htbl' : Kind.build .rc5 t m f = some tbl := htbl
  obtain ⟨items', h1, h2, h3⟩ := tails_by r (fun x n => Near u 5 (889 * n) x) (Within tbl)
    rc5Edges (fun x => x.getLsbD 13 = true) (by
      intro x t' es hx hfr
      rw [rc5Edges_eq x hx] at hfr ⊢
      refine frame_clockedBy r ?_ t' es hfr
      intro t'' ns e he hn
      rcases rc5_edges_len x 13 true e he with h1 | h1 <;> rw [h1] at hn ⊢
      · exact measures_by hm hf (by decide) hu hr .rc5 htbl' (s := 0) (tol := 12) rfl (by omega) (by omega) _ _ hn
      · exact measures_by hm hf (by decide) hu hr .rc5 htbl' (s := 1) (tol := 10) rfl (by omega) (by omega) _ _ hn)
    items hok b pause es hes g t0
  rw [h3, C56_rc5_series t hus m hm f (by omega) hf tbl htbl conv items' h2]
  have h4 := congrArg (List.map fun x : BitVec 14 => conv (Rc5Command.unpack (x.setWidth 16))) h1
  rw [List.map_map, List.map_map] at h4
  exact congrArg (fun l => some (oks l)) h4

theorem rc6_slack {c y : Nat} (h : 444 * (40000 * (c + 1)) ≤ y) :
    10000 * ((100 + 5) * y) + 1000000000000 * c + 10000000000 * (100 + 12) ≤ 9968 * ((100 + 12) * y) := by
  have h1 := Nat.mul_le_mul_left 66416 h
  have h2 : 66416 * (444 * (40000 * (c + 1))) = 1179548160000 * c + 1179548160000 := by omega
  rw [h2] at h1
  have h3 : 9968 * ((100 + 12) * y) = 10000 * ((100 + 5) * y) + 66416 * y := by omega
  rw [h3, Nat.add_assoc]
  refine Nat.add_le_add_left (Nat.le_trans (Nat.add_le_add (Nat.mul_le_mul_right c ?_) ?_) h1) _ <;> decide

theorem rc6_by (t : Target) (hus : 16 ≤ t.usizeBits) (m : Mono) (hm : m = Mono.u32 ∨ m = Mono.u64) (f c : Nat)
    (hc : 1 ≤ c) (hlo : 40000 * (c + 1) ≤ f) (hf : f < 2 ^ 32) (tbl : PulseSpans) (htbl : rc6Spans t m f = some tbl)
    (conv : Rc6Command → K) (u : Nat) (hu : 0 < u) (r : Nat → Nat) (hr : Follows u f c r)
    (items : List (Rc6Command × List (Bool × Nat) × Option Nat))
    (hok : ∀ i ∈ items, ManchesterFrame (fun x n => Near u 5 (444 * n) x)
      (rc6Edges (i.1.addr ++ i.1.cmd) i.1.toggle) i.2.1)
    (b : Bool) (pause : Nat) (es : List (Bool × Nat))
    (hes : (items.flatMap fun i => withTail i.2.1 i.2.2) = (b, pause) :: es) (t0 g : Nat) :
    (results (rc6Decoder t tbl) conv ((b, g) :: clockedBy r (t0 + pause) es)).map said =
      some (oks (items.map fun i => conv i.1)) := by
  have htbl' : Kind.build .rc6 t m f = some tbl := htbl
  have key : ∀ i l, 444 ≤ l → (Kind.symbols .rc6)[i]? = some (l, 12) → MeasuresBy tbl r u 5 i l := by
    intro i l hl hs
    have hlf : 444 * (40000 * (c + 1)) ≤ l * f := Nat.mul_le_mul hl hlo
    refine measures_by hm hf (by decide) hu hr .rc6 htbl' (tol := 12) hs ?_ ?_
    · rw [Nat.mul_assoc, Nat.mul_assoc]
      omega
    · rw [Nat.mul_assoc (100 + 5), Nat.mul_assoc (100 + 12)]
      exact rc6_slack hlf
  obtain ⟨items', h1, h2, h3⟩ := tails_by r (fun x n => Near u 5 (444 * n) x) (WithinRc6 tbl)
    (fun c : Rc6Command => rc6Edges (c.addr ++ c.cmd) c.toggle) (fun _ => True) (by
      intro c' t' es _ hfr
      rw [rc6Edges, rc6Edges_eq 0 (.inl rfl)] at hfr ⊢
      refine frame_clockedBy r ?_ t' es hfr
      intro t'' ns e he hn
      rcases rc6_edges_len (c'.addr ++ c'.cmd) c'.toggle e he with h1 | h1 | h1 | h1 <;> rw [h1] at hn ⊢
      · exact ⟨key 0 _ (by decide) rfl _ _ hn, by simp⟩
      · exact ⟨key 1 _ (by decide) rfl _ _ hn, by simp⟩
      · exact ⟨key 2 _ (by decide) rfl _ _ hn, by simp⟩
      · refine ⟨key 5 _ (by decide) rfl _ _ hn, fun _ h5 => ?_⟩
        have hrj := ((C52_rejects .rc6 t m hm f hf tbl htbl 4 _ h5).1 _ _ rfl).1
        have hb := (follows_bounds hu hr (t := t'') (by decide) hn rfl).1
        omega)
    items (fun i hi => ⟨trivial, hok i hi⟩) b pause es hes g t0
  rw [h3, C56_rc6_series t hus m hm f (by omega) hf tbl htbl conv items' fun i hi => (h2 i hi).2]
  have h4 := congrArg (List.map conv) h1
  rw [List.map_map, List.map_map] at h4
  exact congrArg (fun l => some (oks l)) h4

/-! ## Edges handled late -/

theorem follows_late {u f phase L c : Nat} (hu : 0 < u) {late : Nat → Nat} (hlate : ∀ t, late t ≤ L)
    (horder : ∀ t x, late t ≤ x + late (t + x)) (hL : L * f ≤ c * u) :
    Follows u f (c + 1) fun t => reading u f phase (t + late t) := by
  intro t x
  have ho := horder t x
  have h1 := hlate t
  have h2 := hlate (t + x)
  obtain ⟨y, hy⟩ : ∃ y, t + x + late (t + x) = t + late t + y := ⟨x + late (t + x) - late t, by omega⟩
  dsimp only
  rw [hy]
  obtain ⟨b1, b2⟩ := reading_bounds hu f phase (t + late t) y
  have m := reading_mono u f phase (t + late t) y
  have e1 : y * f ≤ x * f + L * f := by rw [← Nat.add_mul]; exact Nat.mul_le_mul_right f (by omega)
  have e2 : x * f ≤ y * f + L * f := by rw [← Nat.add_mul]; exact Nat.mul_le_mul_right f (by omega)
  refine ⟨m, ?_, .inl ?_⟩ <;> rw [Nat.add_mul, Nat.one_mul] <;> omega

/-- **C85**, NEC family: edges handled up to `c` clock ticks late, each by a different time, in order. -/
theorem C85_nec_late (t : Target) (m : Mono) (hm : m = Mono.u32 ∨ m = Mono.u64) (f c : Nat)
    (hlo : 10000 * (c + 2) ≤ f) (hf : f < 2 ^ 32) (v : NecVariant C) (hv : v.Shipped) (tbl : PulseSpans)
    (htbl : necSpans t m v f = some tbl) (conv : C → K) (u : Nat) (hu : 0 < u) (phase : Nat)
    (late : Nat → Nat) (L : Nat) (hlate : ∀ t, late t ≤ L) (horder : ∀ t x, late t ≤ x + late (t + x))
    (hL : L * f ≤ c * u) (t0 g : Nat) (hg : Pause tbl m.width [0, 1] (0, g)) (items : List (NecItem × (Nat × Nat)))
    (hok : ∀ i ∈ items, i.1.Near u 5 (v.pulseDistance.headerHigh + v.pulseDistance.headerLow)
      (v.pulseDistance.headerHigh + v.pulseDistance.repeatLow) ∧
      16000 * u ≤ 1000000 * (i.2.1 + i.2.2) ∧ (i.2.1 + i.2.2) * f + (c + 1) * u < 2 ^ m.width * u) :
    (results (necDecoder t m tbl v) conv
        ((true, g) :: handled u f phase late t0 (series NecItem.wire items))).map said =
      some (oks ((necHeard v.unpack 0 (items.map Prod.fst)).map conv)) :=
  nec_by t m hm f (c + 1) (by omega) (by omega) hf v hv tbl htbl conv u hu _ (follows_late hu hlate horder hL) t0 g hg
    items hok

/-- **C85**, SBP: edges handled late. -/
theorem C85_sbp_late (t : Target) (m : Mono) (hm : m = Mono.u32 ∨ m = Mono.u64) (f c : Nat)
    (hlo : 20000 * (c + 2) ≤ f) (hf : f < 2 ^ 32) (tbl : PulseSpans) (htbl : sbpSpans t m f = some tbl)
    (conv : SbpCommand → K) (u : Nat) (hu : 0 < u) (phase : Nat) (late : Nat → Nat) (L : Nat)
    (hlate : ∀ t, late t ≤ L) (horder : ∀ t x, late t ≤ x + late (t + x)) (hL : L * f ≤ c * u) (t0 g : Nat)
    (hg : Pause tbl m.width [0] (0, g)) (items : List ((BitVec 16 × BitVec 20 × List (Nat × Nat)) × (Nat × Nat)))
    (hok : ∀ i ∈ items, NearPeriods u 3 (sbpPeriods i.1.1 i.1.2.1) i.1.2.2 ∧
      16000 * u ≤ 1000000 * (i.2.1 + i.2.2) ∧ (i.2.1 + i.2.2) * f + (c + 1) * u < 2 ^ m.width * u) :
    (results (sbpDecoder t m tbl) conv
        ((true, g) :: handled u f phase late t0 (series (fun i => i.2.2) items))).map said =
      some (oks (items.map fun i => conv (SbpCommand.unpack i.1.1 (i.1.2.1.setWidth 32)))) :=
  sbp_by t m hm f (c + 1) (by omega) (by omega) hf tbl htbl conv u hu _ (follows_late hu hlate horder hL) t0 g hg
    items hok

/-- **C85**, Denon (first 47 bits): edges handled late. -/
theorem C85_denon_late (t : Target) (m : Mono) (hm : m = Mono.u32 ∨ m = Mono.u64) (f c : Nat)
    (hlo : 20000 * (c + 2) ≤ f) (hf : f < 2 ^ 32) (tbl : PulseSpans) (htbl : denonSpans t m f = some tbl)
    (conv : DenonCommand → K) (u : Nat) (hu : 0 < u) (phase : Nat) (late : Nat → Nat) (L : Nat)
    (hlate : ∀ t, late t ≤ L) (horder : ∀ t x, late t ≤ x + late (t + x)) (hL : L * f ≤ c * u) (t0 g : Nat)
    (hg : Pause tbl m.width [0] (0, g)) (items : List ((BitVec 48 × List (Nat × Nat)) × (Nat × Nat)))
    (hok : ∀ i ∈ items, NearPeriods u 3 (denonPeriods i.1.1) i.1.2 ∧
      16000 * u ≤ 1000000 * (i.2.1 + i.2.2) ∧ (i.2.1 + i.2.2) * f + (c + 1) * u < 2 ^ m.width * u) :
    (results (denonDecoder t m tbl) conv
        ((true, g) :: handled u f phase late t0 (series (fun i => i.2) items))).map said =
      some (oks (items.map fun i => conv { bits := (i.1.1.setWidth 47).setWidth 64 })) :=
  denon_by t m hm f (c + 1) (by omega) (by omega) hf tbl htbl conv u hu _ (follows_late hu hlate horder hL) t0 g hg
    items hok

/-- **C85**, RC5: edges handled late. -/
theorem C85_rc5_late (t : Target) (hus : 16 ≤ t.usizeBits) (m : Mono) (hm : m = Mono.u32 ∨ m = Mono.u64) (f c : Nat)
    (hlo : 20000 * (c + 2) ≤ f) (hf : f < 2 ^ 32) (tbl : PulseSpans) (htbl : rc5Spans t m f = some tbl)
    (conv : Rc5Command → K) (u : Nat) (hu : 0 < u) (phase : Nat) (late : Nat → Nat) (L : Nat)
    (hlate : ∀ t, late t ≤ L) (horder : ∀ t x, late t ≤ x + late (t + x)) (hL : L * f ≤ c * u)
    (items : List (BitVec 14 × List (Bool × Nat) × Option Nat))
    (hok : ∀ i ∈ items, i.1.getLsbD 13 = true ∧
      ManchesterFrame (fun x n => Near u 5 (889 * n) x) (rc5Edges i.1) i.2.1)
    (b : Bool) (pause : Nat) (es : List (Bool × Nat))
    (hes : (items.flatMap fun i => withTail i.2.1 i.2.2) = (b, pause) :: es) (t0 g : Nat) :
    (results (rc5Decoder t tbl) conv ((b, g) :: handled u f phase late (t0 + pause) es)).map said =
      some (oks (items.map fun i => conv (Rc5Command.unpack (i.1.setWidth 16)))) :=
  rc5_by t hus m hm f (c + 1) (by omega) (by omega) hf tbl htbl conv u hu _ (follows_late hu hlate horder hL) items hok
    b pause es hes t0 g

/-- **C85**, RC6 (mode 0): edges handled late. -/
theorem C85_rc6_late (t : Target) (hus : 16 ≤ t.usizeBits) (m : Mono) (hm : m = Mono.u32 ∨ m = Mono.u64) (f c : Nat)
    (hlo : 40000 * (c + 2) ≤ f) (hf : f < 2 ^ 32) (tbl : PulseSpans) (htbl : rc6Spans t m f = some tbl)
    (conv : Rc6Command → K) (u : Nat) (hu : 0 < u) (phase : Nat) (late : Nat → Nat) (L : Nat)
    (hlate : ∀ t, late t ≤ L) (horder : ∀ t x, late t ≤ x + late (t + x)) (hL : L * f ≤ c * u)
    (items : List (Rc6Command × List (Bool × Nat) × Option Nat))
    (hok : ∀ i ∈ items, ManchesterFrame (fun x n => Near u 5 (444 * n) x)
      (rc6Edges (i.1.addr ++ i.1.cmd) i.1.toggle) i.2.1)
    (b : Bool) (pause : Nat) (es : List (Bool × Nat))
    (hes : (items.flatMap fun i => withTail i.2.1 i.2.2) = (b, pause) :: es) (t0 g : Nat) :
    (results (rc6Decoder t tbl) conv ((b, g) :: handled u f phase late (t0 + pause) es)).map said =
      some (oks (items.map fun i => conv i.1)) :=
  rc6_by t hus m hm f (c + 1) (by omega) (by omega) hf tbl htbl conv u hu _ (follows_late hu hlate horder hL) items hok
    b pause es hes t0 g

/-! ## Polls that are not evenly spaced -/

section
variable {u f phase : Nat} {delay : Nat → Nat}

theorem pollsBefore_le (t : Nat) : pollsBefore u f phase delay t ≤ reading u f phase t := by
  unfold pollsBefore
  split <;> omega

theorem le_pollsBefore (t : Nat) : reading u f phase t ≤ pollsBefore u f phase delay t + 1 := by
  unfold pollsBefore
  split <;> omega

theorem pollsBefore_mono (t x : Nat) :
    pollsBefore u f phase delay t ≤ pollsBefore u f phase delay (t + x) := by
  have m := reading_mono u f phase t x
  rcases Nat.lt_or_ge (reading u f phase t) (reading u f phase (t + x)) with h | h
  · have h1 := pollsBefore_le (u := u) (f := f) (phase := phase) (delay := delay) t
    have h2 := le_pollsBefore (u := u) (f := f) (phase := phase) (delay := delay) (t + x)
    omega
  · have he : reading u f phase (t + x) = reading u f phase t := by omega
    unfold pollsBefore
    rw [he, Nat.add_mul]
    split <;> split <;> omega

/-- An edge at time `t` is seen by the polls after the first `pollsBefore t`. -/
theorem seen_iff (hu : 0 < u) (hd : ∀ k, delay k < u) (t k : Nat) (hk : 1 ≤ k) :
    t * f + phase < k * u + delay k ↔ pollsBefore u f phase delay t < k := by
  have h1 : reading u f phase t * u ≤ t * f + phase := Nat.div_mul_le_self _ _
  have h2 : t * f + phase < (reading u f phase t + 1) * u := (Nat.div_lt_iff_lt_mul hu).mp (Nat.lt_succ_self _)
  rcases Nat.lt_trichotomy (reading u f phase t) k with h | h | h
  · have h3 := Nat.mul_le_mul_right u (show reading u f phase t + 1 ≤ k from h)
    have h4 := pollsBefore_le (u := u) (f := f) (phase := phase) (delay := delay) t
    constructor <;> intro _ <;> omega
  · subst h
    unfold pollsBefore
    split <;> omega
  · have h3 := Nat.mul_le_mul_right u (show k + 1 ≤ reading u f phase t from h)
    rw [Nat.add_mul, Nat.one_mul] at h3
    have h4 := hd k
    have h5 := le_pollsBefore (u := u) (f := f) (phase := phase) (delay := delay) t
    constructor <;> intro _ <;> omega

theorem follows_uneven (hu : 0 < u) : Follows u f 2 (pollsBefore u f phase delay) := by
  intro t x
  have m := pollsBefore_mono (u := u) (f := f) (phase := phase) (delay := delay) t x
  have a1 := pollsBefore_le (u := u) (f := f) (phase := phase) (delay := delay) t
  have a2 := le_pollsBefore (u := u) (f := f) (phase := phase) (delay := delay) t
  have a3 := pollsBefore_le (u := u) (f := f) (phase := phase) (delay := delay) (t + x)
  have a4 := le_pollsBefore (u := u) (f := f) (phase := phase) (delay := delay) (t + x)
  have m' := reading_mono u f phase t x
  obtain ⟨b1, b2⟩ := reading_bounds hu f phase t x
  have c1 := Nat.mul_le_mul_left u (show pollsBefore u f phase delay (t + x) - pollsBefore u f phase delay t ≤
    reading u f phase (t + x) - reading u f phase t + 1 by omega)
  have c2 := Nat.mul_le_mul_left u (show reading u f phase (t + x) - reading u f phase t ≤
    pollsBefore u f phase delay (t + x) - pollsBefore u f phase delay t + 1 by omega)
  rw [Nat.mul_add, Nat.mul_one] at c1 c2
  refine ⟨m, ?_, .inl ?_⟩ <;> omega

end

theorem reading_one (x : Nat) : reading 1 1 0 x = x := by simp [reading]

theorem clocked_one (t : Nat) (es : List (Bool × Nat)) : clocked 1 1 0 t es = es := by
  induction es generalizing t with
  | nil => rfl
  | cons e es ih =>
    obtain ⟨b, x⟩ := e
    simp only [clocked, reading_one, ih, Nat.add_sub_cancel_left]

theorem unevenAt_eq {u f phase : Nat} {delay : Nat → Nat} (hu : 0 < u) (hd : ∀ k, delay k < u)
    (es : List (Bool × Nat)) (level : Bool) (t k : Nat) (hk : 1 ≤ k) :
    unevenAt u f phase delay level t es k =
      levelAt 1 1 0 level (pollsBefore u f phase delay t) (clockedBy (pollsBefore u f phase delay) t es) k := by
  induction es generalizing level t with
  | nil => rfl
  | cons e es ih =>
    obtain ⟨b, x⟩ := e
    have m := pollsBefore_mono (u := u) (f := f) (phase := phase) (delay := delay) t x
    have e : pollsBefore u f phase delay t + (pollsBefore u f phase delay (t + x) - pollsBefore u f phase delay t) =
        pollsBefore u f phase delay (t + x) := by omega
    simp only [unevenAt, clockedBy, levelAt, e, ih, Nat.mul_one, Nat.add_zero, seen_iff hu hd _ _ hk]

theorem changes_by (r : Nat → Nat) (level : Bool) (t : Nat) (es : List (Bool × Nat)) (h : Changes level es) :
    Changes level (clockedBy r t es) := by
  induction es generalizing level t with
  | nil => trivial
  | cons e es ih => exact ⟨h.1, ih _ _ h.2⟩

theorem mem_by {r : Nat → Nat} {t : Nat} {es : List (Bool × Nat)} {e : Ev} (h : e ∈ clockedBy r t es) :
    ∃ t' x, (∃ b, (b, x) ∈ es) ∧ e.2 = r (t' + x) - r t' := by
  induction es generalizing t with
  | nil => cases h
  | cons a es ih =>
    obtain ⟨b, x⟩ := a
    rcases List.mem_cons.mp h with rfl | h
    · exact ⟨t, x, ⟨b, by simp⟩, rfl⟩
    · obtain ⟨t', x', ⟨b', hb⟩, he⟩ := ih h
      exact ⟨t', x', ⟨b', by simp [hb]⟩, he⟩

theorem duration_by (r : Nat → Nat) (hr : ∀ t x, r t ≤ r (t + x)) (t : Nat) (es : List (Bool × Nat)) :
    r t + duration (clockedBy r t es) = r (t + duration es) := by
  induction es generalizing t with
  | nil => rfl
  | cons e es ih =>
    obtain ⟨b, x⟩ := e
    have h := ih (t + x)
    have m := hr t x
    simp only [duration, clockedBy, List.map_cons, List.sum_cons] at h ⊢
    rw [← Nat.add_assoc t x, ← h]
    omega

theorem reading_diff2 {u f phase t x : Nat} (hu : 0 < u) (h : 2 * u ≤ x * f) :
    reading u f phase t + 2 ≤ reading u f phase (t + x) := by
  unfold reading
  rw [Nat.add_mul, ← Nat.add_mul_div_right _ _ hu]
  exact Nat.div_le_div_right (by omega)

/-- A receiver polled at uneven times says what an event receiver says that counts the polls. -/
theorem uneven_line (D : Decoder C) (conv : C → K) (u : Nat) (hu : 0 < u) (f phase : Nat) (delay : Nat → Nat)
    (hd : ∀ k, delay k < u) (b : Bool) (pause : Nat) (es : List (Bool × Nat))
    (hch : Changes false ((b, pause) :: es)) (hgap : ∀ e ∈ es, 2 * u ≤ e.2 * f) (n : Nat)
    (hn : reading u f phase (duration ((b, pause) :: es)) < n)
    (hfirst : pollsBefore u f phase delay pause + 1 < 2 ^ 32) (hlong : ∀ e ∈ es, e.2 * f + 3 * u < 2 ^ 32 * u) :
    (pollRun D conv (unevenly u f phase delay ((b, pause) :: es) n)).map said =
      (results D conv ((b, pollsBefore u f phase delay pause + 1) ::
        clockedBy (pollsBefore u f phase delay) pause es)).map said := by
  have hline : unevenly u f phase delay ((b, pause) :: es) n =
      polled 1 1 0 ((b, pollsBefore u f phase delay pause) :: clockedBy (pollsBefore u f phase delay) pause es) n := by
    unfold unevenly polled
    refine List.map_congr_left fun i _ => ?_
    simp only [unevenAt, levelAt, Nat.zero_add, Nat.mul_one, Nat.add_zero,
      seen_iff hu hd _ _ (Nat.succ_le_succ (Nat.zero_le i)), unevenAt_eq hu hd es b pause _ (Nat.succ_le_succ (Nat.zero_le i))]
  have hmem : ∀ e ∈ clockedBy (pollsBefore u f phase delay) pause es, 1 ≤ e.2 ∧ e.2 + 1 < 2 ^ 32 := by
    intro e he
    obtain ⟨t', x, ⟨b', hb⟩, hx⟩ := mem_by he
    have h1 := hgap _ hb
    have h2 := hlong _ hb
    dsimp only at h1 h2
    have h3 := reading_diff2 (phase := phase) (t := t') hu h1
    have a1 := pollsBefore_le (u := u) (f := f) (phase := phase) (delay := delay) t'
    have a2 := le_pollsBefore (u := u) (f := f) (phase := phase) (delay := delay) (t' + x)
    have h4 := (follows_uneven (f := f) (phase := phase) (delay := delay) hu t' x).2.1
    refine ⟨by omega, ?_⟩
    refine Nat.lt_of_mul_lt_mul_left (a := u) ?_
    rw [hx, Nat.mul_add, Nat.mul_comm u (2 ^ 32)]
    omega
  rw [hline, C54_polled_line_long D conv 1 (by decide) 1 0 b _ _ ⟨hch.1, changes_by _ _ _ _ hch.2⟩
    (fun e he => by have := (hmem e he).1; omega) n ?_ (by rw [reading_one]; exact hfirst)
    (fun e he => by have := (hmem e he).2; omega), reading_one, clocked_one]
  have h1 := duration_by (pollsBefore u f phase delay) pollsBefore_mono pause es
  have h2 := pollsBefore_le (u := u) (f := f) (phase := phase) (delay := delay) (pause + duration es)
  rw [reading_one]
  simp only [duration, List.map_cons, List.sum_cons] at *
  omega

/-- **C85**, NEC family, polled: the receiver is polled once in every polling period, at any moment of the period. -/
theorem C85_nec_uneven (t : Target) (f : Nat) (hlo : 30000 ≤ f) (hf : f < 2 ^ 32) (v : NecVariant C) (hv : v.Shipped)
    (tbl : PulseSpans) (htbl : necSpans t Mono.u32 v f = some tbl) (conv : C → K) (u : Nat) (hu : 0 < u)
    (phase : Nat) (delay : Nat → Nat) (hd : ∀ k, delay k < u) (pause : Nat)
    (hg : Pause tbl 32 [0, 1] (0, pollsBefore u f phase delay pause + 1)) (items : List (NecItem × (Nat × Nat)))
    (hok : ∀ i ∈ items, i.1.Near u 5 (v.pulseDistance.headerHigh + v.pulseDistance.headerLow)
      (v.pulseDistance.headerHigh + v.pulseDistance.repeatLow) ∧
      16000 * u ≤ 1000000 * (i.2.1 + i.2.2) ∧ (i.2.1 + i.2.2) * f + 2 * u < 2 ^ 32 * u)
    (hmin : ∀ e ∈ series NecItem.wire items, 2 * u ≤ e.2 * f)
    (hmax : ∀ e ∈ series NecItem.wire items, e.2 * f + 3 * u < 2 ^ 32 * u)
    (n : Nat) (hn : reading u f phase (duration ((true, pause) :: series NecItem.wire items)) < n) :
    (pollRun (necDecoder t Mono.u32 tbl v) conv
        (unevenly u f phase delay ((true, pause) :: series NecItem.wire items) n)).map said =
      some (oks ((necHeard v.unpack 0 (items.map Prod.fst)).map conv)) := by
  have hg1 := hg.1
  dsimp only at hg1
  rw [uneven_line _ conv u hu f phase delay hd true pause _ (changes_series ..) hmin n hn (by omega) hmax]
  exact nec_by t Mono.u32 (.inl rfl) f 2 (by decide) hlo hf v hv tbl htbl conv u hu _ (follows_uneven hu) pause _ hg
    items hok

/-- **C85**, SBP, polled at uneven times. -/
theorem C85_sbp_uneven (t : Target) (f : Nat) (hlo : 60000 ≤ f) (hf : f < 2 ^ 32) (tbl : PulseSpans)
    (htbl : sbpSpans t Mono.u32 f = some tbl) (conv : SbpCommand → K) (u : Nat) (hu : 0 < u)
    (phase : Nat) (delay : Nat → Nat) (hd : ∀ k, delay k < u) (pause : Nat)
    (hg : Pause tbl 32 [0] (0, pollsBefore u f phase delay pause + 1))
    (items : List ((BitVec 16 × BitVec 20 × List (Nat × Nat)) × (Nat × Nat)))
    (hok : ∀ i ∈ items, NearPeriods u 3 (sbpPeriods i.1.1 i.1.2.1) i.1.2.2 ∧
      16000 * u ≤ 1000000 * (i.2.1 + i.2.2) ∧ (i.2.1 + i.2.2) * f + 2 * u < 2 ^ 32 * u)
    (hmin : ∀ e ∈ series (fun i : BitVec 16 × BitVec 20 × List (Nat × Nat) => i.2.2) items, 2 * u ≤ e.2 * f)
    (hmax : ∀ e ∈ series (fun i : BitVec 16 × BitVec 20 × List (Nat × Nat) => i.2.2) items,
      e.2 * f + 3 * u < 2 ^ 32 * u)
    (n : Nat) (hn : reading u f phase (duration ((true, pause) :: series (fun i => i.2.2) items)) < n) :
    (pollRun (sbpDecoder t Mono.u32 tbl) conv
        (unevenly u f phase delay ((true, pause) :: series (fun i => i.2.2) items) n)).map said =
      some (oks (items.map fun i => conv (SbpCommand.unpack i.1.1 (i.1.2.1.setWidth 32)))) := by
  have hg1 := hg.1
  dsimp only at hg1
  rw [uneven_line _ conv u hu f phase delay hd true pause _ (changes_series ..) hmin n hn (by omega) hmax]
  exact sbp_by t Mono.u32 (.inl rfl) f 2 (by decide) hlo hf tbl htbl conv u hu _ (follows_uneven hu) pause _ hg
    items hok

/-- **C85**, Denon (first 47 bits), polled at uneven times. -/
theorem C85_denon_uneven (t : Target) (f : Nat) (hlo : 60000 ≤ f) (hf : f < 2 ^ 32) (tbl : PulseSpans)
    (htbl : denonSpans t Mono.u32 f = some tbl) (conv : DenonCommand → K) (u : Nat) (hu : 0 < u)
    (phase : Nat) (delay : Nat → Nat) (hd : ∀ k, delay k < u) (pause : Nat)
    (hg : Pause tbl 32 [0] (0, pollsBefore u f phase delay pause + 1))
    (items : List ((BitVec 48 × List (Nat × Nat)) × (Nat × Nat)))
    (hok : ∀ i ∈ items, NearPeriods u 3 (denonPeriods i.1.1) i.1.2 ∧
      16000 * u ≤ 1000000 * (i.2.1 + i.2.2) ∧ (i.2.1 + i.2.2) * f + 2 * u < 2 ^ 32 * u)
    (hmin : ∀ e ∈ series (fun i : BitVec 48 × List (Nat × Nat) => i.2) items, 2 * u ≤ e.2 * f)
    (hmax : ∀ e ∈ series (fun i : BitVec 48 × List (Nat × Nat) => i.2) items, e.2 * f + 3 * u < 2 ^ 32 * u)
    (n : Nat) (hn : reading u f phase (duration ((true, pause) :: series (fun i => i.2) items)) < n) :
    (pollRun (denonDecoder t Mono.u32 tbl) conv
        (unevenly u f phase delay ((true, pause) :: series (fun i => i.2) items) n)).map said =
      some (oks (items.map fun i => conv { bits := (i.1.1.setWidth 47).setWidth 64 })) := by
  have hg1 := hg.1
  dsimp only at hg1
  rw [uneven_line _ conv u hu f phase delay hd true pause _ (changes_series ..) hmin n hn (by omega) hmax]
  exact denon_by t Mono.u32 (.inl rfl) f 2 (by decide) hlo hf tbl htbl conv u hu _ (follows_uneven hu) pause _ hg
    items hok

theorem uneven_silent {u f phase : Nat} {delay : Nat → Nat} (D : Decoder C) (conv : C → K) (n : Nat) :
    (pollRun D conv (unevenly u f phase delay [] n)).map said = some [] := by
  rw [show unevenly u f phase delay [] n = List.replicate n false from ?_, C54_silent_line, Option.map_some]
  · rw [said, List.filter_eq_nil_iff.mpr (by intro x hx; rw [List.eq_of_mem_replicate hx]; simp)]
  · rw [unevenly, List.eq_replicate_iff]
    exact ⟨by simp, by intro b hb; obtain ⟨i, -, rfl⟩ := List.mem_map.mp hb; rfl⟩

/-- A polled line with a first edge. -/
theorem uneven_first {u f phase : Nat} {delay : Nat → Nat} (hu : 0 < u) {pause : Nat}
    (h : (pause * f + phase) + 3 * u < 2 ^ 32 * u) : pollsBefore u f phase delay pause + 1 < 2 ^ 32 := by
  have h1 := pollsBefore_le (u := u) (f := f) (phase := phase) (delay := delay) pause
  have h2 : reading u f phase pause + 1 < 2 ^ 32 := by
    unfold reading
    rw [← Nat.add_div_right _ hu, Nat.div_lt_iff_lt_mul hu]
    omega
  omega

/-- **C85**, RC5, polled at uneven times. -/
theorem C85_rc5_uneven (t : Target) (hus : 16 ≤ t.usizeBits) (f : Nat) (hlo : 60000 ≤ f) (hf : f < 2 ^ 32)
    (tbl : PulseSpans) (htbl : rc5Spans t Mono.u32 f = some tbl) (conv : Rc5Command → K) (u : Nat) (hu : 0 < u)
    (phase : Nat) (delay : Nat → Nat) (hd : ∀ k, delay k < u)
    (items : List (BitVec 14 × List (Bool × Nat) × Option Nat))
    (hok : ∀ i ∈ items, i.1.getLsbD 13 = true ∧
      ManchesterFrame (fun x n => Near u 5 (889 * n) x) (rc5Edges i.1) i.2.1)
    (hch : Changes false (items.flatMap fun i => withTail i.2.1 i.2.2))
    (hmin : ∀ e ∈ (items.flatMap fun i => withTail i.2.1 i.2.2).tail, 2 * u ≤ e.2 * f)
    (hmax : ∀ e ∈ items.flatMap fun i => withTail i.2.1 i.2.2, (e.2 * f + phase) + 3 * u < 2 ^ 32 * u)
    (n : Nat) (hn : reading u f phase (duration (items.flatMap fun i => withTail i.2.1 i.2.2)) < n) :
    (pollRun (rc5Decoder t tbl) conv
        (unevenly u f phase delay (items.flatMap fun i => withTail i.2.1 i.2.2) n)).map said =
      some (oks (items.map fun i => conv (Rc5Command.unpack (i.1.setWidth 16)))) := by
  rcases hfl : items.flatMap (fun i => withTail i.2.1 i.2.2) with _ | ⟨⟨b, pause⟩, es⟩
  · cases items with
    | nil => exact uneven_silent _ _ _
    | cons a as =>
      obtain ⟨x1, es, hes⟩ := frame_nonempty (hok a (by simp)).2
      rw [List.flatMap_cons, hes] at hfl
      cases h : a.2.2 <;> simp [h, withTail] at hfl
  · rw [hfl] at hch hmin hmax hn
    rw [hfl, uneven_line _ conv u hu f phase delay hd b pause es hch hmin n hn
      (uneven_first hu (hmax (b, pause) (List.mem_cons_self ..))) fun e he => ?_]
    · have := rc5_by t hus Mono.u32 (.inl rfl) f 2 (by decide) hlo hf tbl htbl conv u hu _
        (follows_uneven (phase := phase) (delay := delay) hu) items hok b pause es hfl 0
        (pollsBefore u f phase delay pause + 1)
      rwa [Nat.zero_add] at this
    · have := hmax e (List.mem_cons_of_mem _ he)
      omega

/-- **C85**, RC6 (mode 0), polled at uneven times. -/
theorem C85_rc6_uneven (t : Target) (hus : 16 ≤ t.usizeBits) (f : Nat) (hlo : 120000 ≤ f) (hf : f < 2 ^ 32)
    (tbl : PulseSpans) (htbl : rc6Spans t Mono.u32 f = some tbl) (conv : Rc6Command → K) (u : Nat) (hu : 0 < u)
    (phase : Nat) (delay : Nat → Nat) (hd : ∀ k, delay k < u)
    (items : List (Rc6Command × List (Bool × Nat) × Option Nat))
    (hok : ∀ i ∈ items, ManchesterFrame (fun x n => Near u 5 (444 * n) x)
      (rc6Edges (i.1.addr ++ i.1.cmd) i.1.toggle) i.2.1)
    (hch : Changes false (items.flatMap fun i => withTail i.2.1 i.2.2))
    (hmin : ∀ e ∈ (items.flatMap fun i => withTail i.2.1 i.2.2).tail, 2 * u ≤ e.2 * f)
    (hmax : ∀ e ∈ items.flatMap fun i => withTail i.2.1 i.2.2, (e.2 * f + phase) + 3 * u < 2 ^ 32 * u)
    (n : Nat) (hn : reading u f phase (duration (items.flatMap fun i => withTail i.2.1 i.2.2)) < n) :
    (pollRun (rc6Decoder t tbl) conv
        (unevenly u f phase delay (items.flatMap fun i => withTail i.2.1 i.2.2) n)).map said =
      some (oks (items.map fun i => conv i.1)) := by
  rcases hfl : items.flatMap (fun i => withTail i.2.1 i.2.2) with _ | ⟨⟨b, pause⟩, es⟩
  · cases items with
    | nil => exact uneven_silent _ _ _
    | cons a as =>
      obtain ⟨x1, es, hes⟩ := frame_nonempty (hok a (by simp))
      rw [List.flatMap_cons, hes] at hfl
      cases h : a.2.2 <;> simp [h, withTail] at hfl
  · rw [hfl] at hch hmin hmax hn
    rw [hfl, uneven_line _ conv u hu f phase delay hd b pause es hch hmin n hn
      (uneven_first hu (hmax (b, pause) (List.mem_cons_self ..))) fun e he => ?_]
    · have := rc6_by t hus Mono.u32 (.inl rfl) f 2 (by decide) hlo hf tbl htbl conv u hu _
        (follows_uneven (phase := phase) (delay := delay) hu) items hok b pause es hfl 0
        (pollsBefore u f phase delay pause + 1)
      rwa [Nat.zero_add] at this
    · have := hmax e (List.mem_cons_of_mem _ he)
      omega

/-! ## Non-vacuity -/

/-- Two NEC words 4 % slow and a repeat code, with a clock of 1 MHz; the program looks for edges only every 50 µs. -/
example (t : Target) (phase t0 : Nat) :
    (results (necDecoder t Mono.u32 (necTable 1000000) Infrared.nec) id
      ((true, 0) :: handled 1000000000 1000000 phase (fun t => 49999 - t % 50000) t0
        (series NecItem.wire (slowNec 0xE31CFF00 0x00FF00FF)))).map said =
      some (oks [{ addr := 0x00, cmd := 0x1C, rep := false }, { addr := 0x00, cmd := 0x1C, rep := true },
        { addr := 0xFF, cmd := 0xFF, rep := false }]) := by
  refine C85_nec_late t Mono.u32 (.inl rfl) 1000000 50 (by decide) (by decide) Infrared.nec (.inl rfl) _
    (necSpans_standard (.inl rfl) t (by decide) _ rfl) id 1000000000 (by decide) phase _ 50000
    (fun t => by omega) (fun t x => by omega) (by decide) t0 0 ?_ _ ?_
  · refine ⟨by decide, ?_⟩
    intro j hj
    simp only [List.mem_cons, List.not_mem_nil, or_false] at hj
    rcases hj with rfl | rfl <;> rintro ⟨s, hs, ha, hb⟩ <;> cases hs
    · exact absurd ha (by decide +kernel)
    · exact absurd ha (by decide +kernel)
  · intro i hi
    simp only [slowNec, List.mem_cons, List.not_mem_nil, or_false] at hi
    rcases hi with rfl | rfl | rfl
    · exact ⟨nearPeriods_zip (by decide +kernel), by decide, by decide⟩
    · exact ⟨⟨by decide, by decide⟩, by decide, by decide⟩
    · exact ⟨nearPeriods_zip (by decide +kernel), by decide, by decide⟩

/-- The same line polled 48 000 times per second, every poll up to 20 µs late. -/
example (t : Target) (phase : Nat) (hp : phase < 1000000000) (delay : Nat → Nat) (hd : ∀ k, delay k ≤ 960000000) :
    (pollRun (necDecoder t Mono.u32 (necTable 48000) Infrared.nec) id
      (unevenly 1000000000 48000 phase delay
        ((true, 1000000) :: series NecItem.wire (slowNec 0xE31CFF00 0x00FF00FF)) 600000)).map said =
      some (oks [{ addr := 0x00, cmd := 0x1C, rep := false }, { addr := 0x00, cmd := 0x1C, rep := true },
        { addr := 0xFF, cmd := 0xFF, rep := false }]) := by
  have hr : reading 1000000000 48000 phase 1000000 = 48 := by unfold reading; omega
  have h1 := pollsBefore_le (u := 1000000000) (f := 48000) (phase := phase) (delay := delay) 1000000
  rw [hr] at h1
  refine C85_nec_uneven t 48000 (by decide) (by decide) Infrared.nec (.inl rfl) _
    (necSpans_standard (.inl rfl) t (by decide) _ rfl) id 1000000000 (by decide) phase delay
    (fun k => Nat.lt_of_le_of_lt (hd k) (by decide)) 1000000 ?_ _ ?_
    (by decide +kernel) (by decide +kernel) 600000 ?_
  · refine ⟨by dsimp only; omega, ?_⟩
    intro j hj
    simp only [List.mem_cons, List.not_mem_nil, or_false] at hj
    rcases hj with rfl | rfl <;> rintro ⟨s, hs, ha, hb⟩ <;> cases hs
    · have : (603 : Nat) ≤ _ := Nat.le_trans (by decide +kernel) ha
      dsimp only at this
      omega
    · have : (500 : Nat) ≤ _ := Nat.le_trans (by decide +kernel) ha
      dsimp only at this
      omega
  · intro i hi
    simp only [slowNec, List.mem_cons, List.not_mem_nil, or_false] at hi
    rcases hi with rfl | rfl | rfl
    · exact ⟨nearPeriods_zip (by decide +kernel), by decide, by decide⟩
    · exact ⟨⟨by decide, by decide⟩, by decide, by decide⟩
    · exact ⟨nearPeriods_zip (by decide +kernel), by decide, by decide⟩
  · have hd' : duration ((true, 1000000) :: series NecItem.wire (slowNec 0xE31CFF00 0x00FF00FF)) ≤ 11000000000 := by
      decide +kernel
    unfold reading
    omega

/-- An SBP word, periods 2 % slow, clock of 1 MHz, edges up to 48 µs late. -/
example (t : Target) (phase t0 : Nat) :
    (results (sbpDecoder t Mono.u32 (sbpTable 1000000)) id
      ((true, 0) :: handled 1000000000 1000000 phase (fun t => 47999 - t % 48000) t0
        (series (fun i => i.2.2) [((0x1234#16, 0x9C8EA#20, jittered 1020 (sbpPeriods 0x1234 0x9C8EA)),
          (500000, 40000000))]))).map said =
      some (oks [SbpCommand.unpack 0x1234 0x9C8EA]) := by
  refine C85_sbp_late t Mono.u32 (.inl rfl) 1000000 48 (by decide) (by decide) _
    (sbpSpans_eq (.inl rfl) t (by decide)) id 1000000000 (by decide) phase _ 48000
    (fun t => by omega) (fun t x => by omega) (by decide) t0 0 ?_ _ ?_
  · refine ⟨by decide, ?_⟩
    intro j hj
    simp only [List.mem_cons, List.not_mem_nil, or_false] at hj
    subst hj
    rintro ⟨s, hs, ha, hb⟩
    cases hs
    exact absurd ha (by decide +kernel)
  · intro i hi
    simp only [List.mem_cons, List.not_mem_nil, or_false] at hi
    subst hi
    exact ⟨nearPeriods_zip (by decide +kernel), by decide, by decide⟩

/-- A Denon word, periods 2 % slow, clock of 1 MHz, edges up to 48 µs late. -/
example (t : Target) (phase t0 : Nat) :
    (results (denonDecoder t Mono.u32 (denonTable 1000000)) id
      ((true, 0) :: handled 1000000000 1000000 phase (fun t => 47999 - t % 48000) t0
        (series (fun i => i.2) [((0x2A4C028A0A88#48, jittered 1020 (denonPeriods 0x2A4C028A0A88)),
          (500000, 40000000))]))).map said =
      some (oks [{ bits := 0x2A4C028A0A88 }]) := by
  refine C85_denon_late t Mono.u32 (.inl rfl) 1000000 48 (by decide) (by decide) _
    (denonSpans_eq (.inl rfl) t (by decide)) id 1000000000 (by decide) phase _ 48000
    (fun t => by omega) (fun t x => by omega) (by decide) t0 0 ?_ _ ?_
  · refine ⟨by decide, ?_⟩
    intro j hj
    simp only [List.mem_cons, List.not_mem_nil, or_false] at hj
    subst hj
    rintro ⟨s, hs, ha, hb⟩
    cases hs
    exact absurd ha (by decide +kernel)
  · intro i hi
    simp only [List.mem_cons, List.not_mem_nil, or_false] at hi
    subst hi
    exact ⟨nearPeriods_zip (by decide +kernel), by decide, by decide⟩

/-- An RC5 transmission, 4 % slow, clock of 1 MHz, edges up to 48 µs late. -/
example (t : Target) (hus : 16 ≤ t.usizeBits) (phase : Nat) (b : Bool) (pause : Nat) (es : List (Bool × Nat))
    (hes : ([(0x3175#14, slowRc5 0x3175#14, some 889000)].flatMap fun i => withTail i.2.1 i.2.2) = (b, pause) :: es) :
    (results (rc5Decoder t (rc5Table 1000000)) id
      ((b, 0) :: handled 1000000000 1000000 phase (fun t => 47999 - t % 48000) (0 + pause) es)).map said =
      some (oks [⟨5, 53, 3, false⟩]) := by
  refine C85_rc5_late t hus Mono.u32 (.inl rfl) 1000000 48 (by decide) (by decide) _
    (rc5Spans_eq (.inl rfl) t (by decide)) id 1000000000 (by decide) phase _ 48000
    (fun t => by omega) (fun t x => by omega) (by decide) _ ?_ b pause es hes 0 0
  intro i hi
  have : i = (0x3175#14, slowRc5 0x3175#14, some 889000) := by simpa using hi
  subst this
  refine ⟨by decide, ?_⟩
  dsimp only
  rw [slowRc5, rc5Edges_eq _ (by decide)]
  exact ⟨_, _, _, _, rfl, rfl, timed_scaled 1040 5 889 (fun n => by unfold Near; omega) _⟩

/-- The same, polled 60 000 times per second. -/
example (t : Target) (hus : 16 ≤ t.usizeBits) (phase : Nat) (hp : phase < 1000000000) (delay : Nat → Nat)
    (hd : ∀ k, delay k < 1000000000) :
    (pollRun (rc5Decoder t (rc5Table 60000)) id
      (unevenly 1000000000 60000 phase delay
        ([(0x3175#14, slowRc5 0x3175#14, some 889000)].flatMap fun i => withTail i.2.1 i.2.2) 20000)).map said =
      some (oks [⟨5, 53, 3, false⟩]) := by
  refine C85_rc5_uneven t hus 60000 (by decide) (by decide) _ (rc5Spans_eq (.inl rfl) t (by decide)) id
    1000000000 (by decide) phase delay hd _ ?_ (by decide +kernel) (by decide +kernel) ?_ _ ?_
  · intro i hi
    have : i = (0x3175#14, slowRc5 0x3175#14, some 889000) := by simpa using hi
    subst this
    refine ⟨by decide, ?_⟩
    dsimp only
    rw [slowRc5, rc5Edges_eq _ (by decide)]
    exact ⟨_, _, _, _, rfl, rfl, timed_scaled 1040 5 889 (fun n => by unfold Near; omega) _⟩
  · intro e he
    have h : ∀ e ∈ [(0x3175#14, slowRc5 0x3175#14, some 889000)].flatMap fun i => withTail i.2.1 i.2.2,
        e.2 ≤ 2000000 := by decide +kernel
    have := h e he
    omega
  · have hd : duration ([(0x3175#14, slowRc5 0x3175#14, some 889000)].flatMap fun i => withTail i.2.1 i.2.2) ≤
        60000000 := by
      decide +kernel
    unfold reading
    omega

/-- An RC6 transmission, 4 % slow, polled 120 000 times per second. -/
example (t : Target) (hus : 16 ≤ t.usizeBits) (phase : Nat) (hp : phase < 1000000000) (delay : Nat → Nat)
    (hd : ∀ k, delay k < 1000000000) :
    let items : List (Rc6Command × List (Bool × Nat) × Option Nat) :=
      [⟨0, 60, true⟩, ⟨0, 76, false⟩].map fun c => (c, (true, 5000000) ::
        (rc6Edges (c.addr ++ c.cmd) c.toggle).tail.map fun e => (e.1, 1040 * (444 * e.2)), some 444000)
    (pollRun (rc6Decoder t (rc6Table 120000)) id
      (unevenly 1000000000 120000 phase delay (items.flatMap fun i => withTail i.2.1 i.2.2) 20000)).map said =
      some (oks [⟨0, 60, true⟩, ⟨0, 76, false⟩]) := by
  intro items
  refine C85_rc6_uneven t hus 120000 (by decide) (by decide) _ (rc6Spans_eq (.inl rfl) t (by decide)) id
    1000000000 (by decide) phase delay hd items ?_ (by decide +kernel) (by decide +kernel) ?_ _ ?_
  · intro i hi
    obtain ⟨c, -, rfl⟩ := List.mem_map.mp hi
    dsimp only
    rw [rc6Edges, rc6Edges_eq 0 (.inl rfl)]
    exact ⟨_, _, _, _, rfl, rfl, timed_scaled 1040 5 444 (fun n => by unfold Near; omega) _⟩
  · intro e he
    have h : ∀ e ∈ items.flatMap fun i => withTail i.2.1 i.2.2, e.2 ≤ 5000000 := by decide +kernel
    have := h e he
    omega
  · have hd : duration (items.flatMap fun i => withTail i.2.1 i.2.2) ≤ 90000000 := by decide +kernel
    unfold reading
    omega

end Infrared
