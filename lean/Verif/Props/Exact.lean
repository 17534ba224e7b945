import Verif.Props.Rates
import Verif.Props.Parse
import Verif.Props.Cross

/-!
# The tolerance of a receiver, exactly (C81)

C78 says: if the intervals of the table contain the extreme readings of the clock, every series of transmissions within
`j` percent is heard.  Here is the converse: if not, there is a single transmission within `j` percent, and a phase of
the clock, for which the receiver says something else.
-/

namespace Infrared

open Spec

variable {C K : Type}

/-! ## A duration that is misread -/

/-- Times are counted in units of ten nanoseconds here. -/
abbrev tens : Nat := 100000000

theorem reading_shift {u : Nat} (hu : 0 < u) (f phase T x : Nat) :
    reading u f (phase + T * f * (u - 1)) (T + x) = T * f + reading u f phase x := by
  obtain ⟨v, rfl⟩ : ∃ v, u = v + 1 := ⟨u - 1, by omega⟩
  unfold reading
  rw [Nat.add_sub_cancel, show (T + x) * f + (phase + T * f * v) = x * f + phase + T * f * (v + 1) by
    rw [Nat.add_mul, Nat.mul_add (T * f), Nat.mul_one]; omega, Nat.add_mul_div_right _ _ (by omega), Nat.add_comm]

/-- If a symbol is not covered there is a duration within `j` percent of it that is not in its interval, at any time
`T`, for some phase of the clock. -/
theorem misread {tbl : PulseSpans} {f j s l : Nat} (h : covers tbl f j s l = false) (T : Nat) :
    ∃ x phase, Near tens j l x ∧ (100 - j) * l ≤ x ∧ x ≤ (100 + j) * l ∧
      ¬ InTol tbl s (reading tens f phase (T + x) - reading tens f phase T) := by
  have main : ∃ x phase, Near tens j l x ∧ (100 - j) * l ≤ x ∧ x ≤ (100 + j) * l ∧
      ¬ InTol tbl s (reading tens f phase x - reading tens f phase 0) := by
    refine Classical.byContradiction fun hn => ?_
    have key : ∀ x phase, (100 - j) * l ≤ x → x ≤ (100 + j) * l →
        InTol tbl s (reading tens f phase x - reading tens f phase 0) := by
      intro x phase h1 h2
      refine Classical.byContradiction fun hx => hn ⟨x, phase, ⟨?_, ?_⟩, h1, h2, hx⟩
      · rw [Nat.mul_comm]; exact Nat.mul_le_mul_left _ h1
      · rw [Nat.mul_comm _ tens]; exact Nat.mul_le_mul_left _ h2
    have hle : (100 - j) * l ≤ (100 + j) * l := Nat.mul_le_mul_right _ (by omega)
    obtain ⟨w, hw, h1, -⟩ := key ((100 - j) * l) 0 (Nat.le_refl _) hle
    obtain ⟨w', hw', -, h2⟩ := key ((100 + j) * l) 99999999 hle (Nat.le_refl _)
    rw [hw] at hw'
    cases hw'
    have : covers tbl f j s l = true := covers_iff.mpr ⟨w, hw, by simpa [reading, shortest, tens] using h1,
      by simpa [reading, longest, tens] using h2⟩
    rw [this] at h
    cases h
  obtain ⟨x, phase, h0, h1, h2, h3⟩ := main
  refine ⟨x, phase + T * f * (tens - 1), h0, h1, h2, ?_⟩
  have e0 := reading_shift (u := tens) (by decide) f phase T 0
  rw [Nat.add_zero] at e0
  rw [reading_shift (by decide), e0, Nat.add_sub_add_left]
  exact h3

/-! ## The symbols of a pulse train -/

/-- A period as a mark and a space of the same length. -/
def halves (x : Nat) : Nat × Nat := (x / 2, x - x / 2)

theorem halves_sum (x : Nat) : (halves x).1 + (halves x).2 = x := by
  unfold halves
  dsimp only
  omega

/-- The periods as a clock measures them. -/
def measured (u f phase : Nat) : Nat → List Nat → List Nat
  | _, [] => []
  | t, x :: xs => (reading u f phase (t + x) - reading u f phase t) :: measured u f phase (t + x) xs

theorem measured_append (u f phase : Nat) (xs ys : List Nat) (t : Nat) :
    measured u f phase t (xs ++ ys) = measured u f phase t xs ++ measured u f phase (t + xs.sum) ys := by
  induction xs generalizing t with
  | nil => simp [measured]
  | cons x xs ih => simp [measured, ih, Nat.add_assoc]

theorem clockedPulses_halves (u f phase : Nat) (xs : List Nat) (t : Nat) :
    (clockedPulses u f phase t (xs.map halves)).map (fun p => p.1 + p.2) = measured u f phase t xs := by
  induction xs generalizing t with
  | nil => rfl
  | cons x xs ih =>
    have e := halves_sum x
    rw [List.map_cons, measured]
    generalize halves x = q at e ⊢
    obtain ⟨a, b⟩ := q
    rw [clockedPulses, List.map_cons]
    dsimp only at e ⊢
    rw [Nat.add_assoc, e, ih]
    have h1 := reading_mono u f phase t a
    have h2 := reading_mono u f phase (t + a) b
    rw [Nat.add_assoc, e] at h2
    congr 1
    omega

/-- The symbols of a train of periods. -/
theorem symbols_clocked (w : Nat) (tbl : PulseSpans) (u f phase t g : Nat) (xs : List Nat) (hg : g < 2 ^ w)
    (hx : ∀ d ∈ measured u f phase t xs, d < 2 ^ w) :
    symbols w tbl ((true, g) :: clocked u f phase t (pulses (xs.map halves))) =
      tbl.get g :: (measured u f phase t xs).map tbl.get := by
  unfold symbols periods
  rw [periodsFrom, Nat.zero_add, Nat.mod_eq_of_lt hg, clocked_pulses, periods_pulses, List.map_cons,
    clockedPulses_halves]
  intro p hp
  refine hx _ ?_
  rw [← clockedPulses_halves]
  exact List.mem_map_of_mem hp

/-- Nominal periods, each of them measured as its symbol. -/
theorem measured_symbols {tbl : PulseSpans} {f phase : Nat} {ls ss : List Nat}
    (h : List.Forall₂ (fun l s => ∀ t, tbl.get (reading tens f phase (t + 100 * l) - reading tens f phase t) = some s)
      ls ss) (t : Nat) :
    (measured tens f phase t (ls.map (100 * ·))).map tbl.get = ss.map some := by
  induction h generalizing t with
  | nil => rfl
  | cons h _ ih =>
    rw [List.map_cons, measured, List.map_cons, List.map_cons, h, ih]

theorem near_nominal (j l : Nat) : Near tens j l (100 * l) := by
  unfold Near
  constructor
  · rw [Nat.mul_comm _ tens]
    exact Nat.mul_le_mul_left _ (Nat.mul_le_mul_right _ (by omega))
  · rw [Nat.mul_comm _ tens]
    exact Nat.mul_le_mul_left _ (Nat.mul_le_mul_right _ (by omega))

/-- Periods that are nominal except for one. -/
theorem nearPeriods_except (j : Nat) (as bs : List Nat) (l x : Nat) (hx : Near tens j l x) :
    NearPeriods tens j (as ++ l :: bs) ((as.map (100 * ·) ++ x :: bs.map (100 * ·)).map halves) := by
  refine ⟨by simp, ?_⟩
  intro i p k hp hk
  rw [List.getElem?_map, Option.map_eq_some_iff] at hp
  obtain ⟨y, hy, rfl⟩ := hp
  rw [halves_sum]
  by_cases h1 : i < as.length
  · rw [List.getElem?_append_left (by simpa using h1), List.getElem?_map, Option.map_eq_some_iff] at hy
    rw [List.getElem?_append_left h1] at hk
    obtain ⟨z, hz, rfl⟩ := hy
    rw [hk] at hz
    cases hz
    exact near_nominal j k
  · rw [List.getElem?_append_right (by simpa using h1), List.length_map] at hy
    rw [List.getElem?_append_right (by omega)] at hk
    rcases hi : i - as.length with _ | n
    · rw [hi] at hy hk
      cases hy
      cases hk
      exact hx
    · rw [hi] at hy hk
      rw [List.getElem?_cons_succ] at hy hk
      rw [List.getElem?_map, Option.map_eq_some_iff] at hy
      obtain ⟨z, hz, rfl⟩ := hy
      rw [hk] at hz
      cases hz
      exact near_nominal j k

/-! ## Small facts about the parsers -/

theorem leadingBits_known (z o : Nat) (hzo : z ≠ o) (bs : List Bool) (tail : List (Option Nat)) (k : Nat) :
    leadingBits z o (bs.length + k) (bs.map (fun b => some (if b then o else z)) ++ tail) =
      bs ++ leadingBits z o k tail := by
  induction bs with
  | nil => simp
  | cons b bs ih =>
    rw [List.length_cons, Nat.add_right_comm, List.map_cons, List.cons_append, leadingBits, ih]
    cases b <;> simp [hzo]

theorem leadingBits_wrong (z o k : Nat) (s : Option Nat) (ss : List (Option Nat)) (h1 : s ≠ some o) (h2 : s ≠ some z) :
    leadingBits z o k (s :: ss) = [] := by
  cases k
  · rfl
  · rw [leadingBits, if_neg h1, if_neg h2]

theorem necParse_skip (unpack : BitVec 32 → Bool → Option C) (last : BitVec 32) (s : Option Nat)
    (ss : List (Option Nat)) (h0 : s ≠ some 0) (h1 : s ≠ some 1) :
    necParse unpack last (s :: ss) = necParse unpack last ss := by
  rw [necParse, if_neg h0, if_neg h1]

theorem necParse_quiet (unpack : BitVec 32 → Bool → Option C) (last : BitVec 32) (ss : List (Option Nat))
    (h : ∀ s ∈ ss, s ≠ some 0 ∧ s ≠ some 1) : necParse unpack last ss = [] := by
  induction ss with
  | nil => rw [necParse]
  | cons s ss ih =>
    obtain ⟨h0, h1⟩ := h s (by simp)
    rw [necParse_skip unpack last s ss h0 h1]
    exact ih fun s' hs => h s' (by simp [hs])

theorem reading_step_lt {f w : Nat} (hf : f < 2 ^ 32) (hw : 32 ≤ w) (phase t x : Nat) (hx : x ≤ 50000000) :
    reading tens f phase (t + x) - reading tens f phase t < 2 ^ w := by
  obtain ⟨h, -⟩ := reading_bounds (u := tens) (by decide) f phase t x
  generalize reading tens f phase (t + x) - reading tens f phase t = d at h
  have h1 : x * f ≤ 50000000 * f := Nat.mul_le_mul_right _ hx
  have h2 : 2 ^ 32 ≤ 2 ^ w := Nat.pow_le_pow_right (by decide) hw
  unfold tens at h
  omega

theorem measured_lt {f w : Nat} (hf : f < 2 ^ 32) (hw : 32 ≤ w) (phase : Nat) (xs : List Nat)
    (hx : ∀ x ∈ xs, x ≤ 50000000) (t : Nat) : ∀ d ∈ measured tens f phase t xs, d < 2 ^ w := by
  induction xs generalizing t with
  | nil => simp [measured]
  | cons x xs ih =>
    intro d hd
    rw [measured, List.mem_cons] at hd
    rcases hd with rfl | hd
    · exact reading_step_lt hf hw phase t x (hx x (by simp))
    · exact ih (fun y hy => hx y (by simp [hy])) _ d hd

/-! ## NEC family -/

/-- A word whose first bits are zero and one. -/
def w0 : BitVec 32 := 0x0C0B87EE#32

/-- Its other bits. -/
def w0Tail : List Bool := (List.range' 2 30).map w0.getLsbD

/-- The variant tells the word from what comes of misreading one of the first bits, and from a repeat code. -/
structure Telling (v : NecVariant C) (c c' : C) : Prop where
  frame : v.unpack w0 false = some c
  rep : v.unpack w0 true = some c'
  notRep : v.unpack 0 true ≠ some c
  zero : v.unpack 0x0C0B87EF#32 false ≠ some c
  one : v.unpack 0x0C0B87EC#32 false ≠ some c

/-- What the receiver does with `j` percent: it hears every series of frames and repeat codes. -/
def Spec.NecHears (t : Target) (m : Mono) (tbl : PulseSpans) (v : NecVariant C) (f j : Nat) : Prop :=
  ∀ (u phase t0 g : Nat) (items : List (NecItem × (Nat × Nat))), 0 < u → Pause tbl m.width [0, 1] (0, g) →
    (∀ i ∈ items, i.1.Near u j (v.pulseDistance.headerHigh + v.pulseDistance.headerLow)
      (v.pulseDistance.headerHigh + v.pulseDistance.repeatLow) ∧
      16000 * u ≤ 1000000 * (i.2.1 + i.2.2) ∧ (i.2.1 + i.2.2) * f + u < 2 ^ m.width * u) →
    (results (necDecoder t m tbl v) (fun c => c)
      ((true, g) :: clocked u f phase t0 (series NecItem.wire items))).map said =
        some (oks (necHeard v.unpack 0 (items.map Prod.fst)))

/-- Nominal symbols are read right at any time (from 20 kHz). -/
theorem nec_nominal (t : Target) (m : Mono) (hm : m = Mono.u32 ∨ m = Mono.u64) (f : Nat) (hlo : 20000 ≤ f)
    (hf : f < 2 ^ 32) (v : NecVariant C) (hv : v.Shipped) (tbl : PulseSpans) (htbl : necSpans t m v f = some tbl)
    (phase s l : Nat) (hs : (necLengths v)[s]? = some l) (t' : Nat) :
    tbl.get (reading tens f phase (t' + 100 * l) - reading tens f phase t') = some s := by
  have hs4 : s < 4 := by
    have := (List.getElem?_eq_some_iff.mp hs).1
    simpa [necLengths] using this
  refine inTol_get (necSpans_good hm t hlo hf v hv htbl).1 hs4 ?_
  have hM : Measures tbl tens f phase 5 s l := by
    have hu : 0 < tens := by decide
    obtain ⟨k, hk, he⟩ := nec_kind v hv
    rw [he] at htbl
    rcases hk with ⟨rfl, hv'⟩ | ⟨rfl, hv'⟩ <;> rw [necLengths, hv'] at hs <;> rcases s with _ | _ | _ | _ | s <;>
      cases hs
    · exact prim_measures hm hf hu .nec htbl (s := 0) (l := 13500) (tol := 7) rfl (by omega) (by omega)
    · exact prim_measures hm hf hu .nec htbl (s := 1) (l := 11250) (tol := 7) rfl (by omega) (by omega)
    · exact prim_measures hm hf hu .nec htbl (s := 2) (tol := 25) rfl (by omega) (by omega)
    · exact prim_measures hm hf hu .nec htbl (s := 3) (tol := 12) rfl (by omega) (by omega)
    · exact prim_measures hm hf hu .samsung htbl (s := 0) (l := 9000) (tol := 7) rfl (by omega) (by omega)
    · exact prim_measures hm hf hu .samsung htbl (s := 1) (l := 6750) (tol := 7) rfl (by omega) (by omega)
    · exact prim_measures hm hf hu .samsung htbl (s := 2) (tol := 25) rfl (by omega) (by omega)
    · exact prim_measures hm hf hu .samsung htbl (s := 3) (tol := 12) rfl (by omega) (by omega)
  exact hM t' (100 * l) (near_nominal 5 l)

/-- The symbols of a bit. -/
def bitSym (b : Bool) : Option Nat := some (if b then 3 else 2)

theorem bitSym_quiet (b : Bool) : bitSym b ≠ some 0 ∧ bitSym b ≠ some 1 := by cases b <;> decide

theorem said_exact (o : Option C) : said [(.ok o : Res C)] = oks o.toList := by cases o <;> rfl

theorem w0Tail_length : w0Tail.length = 30 := by decide

theorem parse_frame (unpack : BitVec 32 → Bool → Option C) (last : BitVec 32) (bs : List Bool) (hb : bs.length = 32)
    (tail : List (Option Nat)) :
    necParse unpack last (some 0 :: (bs.map bitSym ++ tail)) =
      oks (unpack (wordOf 32 bs) false).toList ++ necParse unpack (wordOf 32 bs) tail := by
  have hl := leadingBits_known 2 3 (by decide) bs tail 0
  rw [hb, Nat.add_zero, leadingBits, List.append_nil] at hl
  have hd : (bs.map bitSym ++ tail).drop 32 = tail := by
    rw [List.drop_append_of_le_length (by simp [hb]), List.drop_of_length_le (by simp [hb]), List.nil_append]
  rw [necParse, if_pos rfl]
  dsimp only
  unfold bitSym at *
  rw [hl, if_pos hb, hd, said_exact]

/-- A misread header. -/
theorem parse_header (unpack : BitVec 32 → Bool → Option C) (c : C) (hc : unpack 0 true ≠ some c) (s p : Option Nat)
    (bs : List Bool) (h : s ≠ some 0) (h0 : p ≠ some 0) (h1 : p ≠ some 1) :
    necParse unpack 0 (s :: (bs.map bitSym ++ [p])) ≠ oks [c] := by
  have hq : necParse unpack 0 (bs.map bitSym ++ [p]) = [] := by
    refine necParse_quiet _ _ _ fun s hs => ?_
    rw [List.mem_append, List.mem_map, List.mem_singleton] at hs
    rcases hs with ⟨b, -, rfl⟩ | rfl
    · exact bitSym_quiet b
    · exact ⟨h0, h1⟩
  rw [necParse, if_neg h, hq]
  split
  · rw [List.append_nil, said_exact]
    revert hc
    rcases unpack 0 true with _ | a
    · intro _ h; cases h
    · intro hc h; cases h; exact hc rfl
  · intro h; cases h

/-- A misread bit. -/
theorem parse_bit (unpack : BitVec 32 → Bool → Option C) (c : C) (s p : Option Nat) (as bs : List Bool) (b : Bool)
    (hl : as.length + bs.length = 31) (hc : unpack (wordOf 32 (as ++ (!b) :: bs)) false ≠ some c)
    (h : s ≠ bitSym b) (h0 : p ≠ some 0) (h1 : p ≠ some 1) :
    necParse unpack 0 (some 0 :: (as.map bitSym ++ s :: (bs.map bitSym ++ [p]))) ≠ oks [c] := by
  by_cases hs : s = bitSym (!b)
  · subst hs
    have e : as.map bitSym ++ bitSym (!b) :: (bs.map bitSym ++ [p]) = (as ++ (!b) :: bs).map bitSym ++ [p] := by simp
    rw [e, parse_frame unpack 0 (as ++ (!b) :: bs) (by simp; omega),
      necParse_quiet _ _ [p] (by simp [h0, h1]), List.append_nil]
    revert hc
    rcases unpack (wordOf 32 (as ++ (!b) :: bs)) false with _ | a
    · intro _ h; cases h
    · intro hc h; cases h; exact hc rfl
  · have h2 : s ≠ some 2 ∧ s ≠ some 3 := by
      unfold bitSym at h hs
      cases b
      · exact ⟨h, hs⟩
      · exact ⟨hs, h⟩
    have hb := leadingBits_known 2 3 (by decide) as (s :: (bs.map bitSym ++ [p])) (32 - as.length)
    rw [leadingBits_wrong _ _ _ _ _ h2.2 h2.1, List.append_nil, show as.length + (32 - as.length) = 32 by omega] at hb
    rw [necParse, if_pos rfl]
    dsimp only
    unfold bitSym at *
    rw [hb, if_neg (by omega), if_neg (by simp)]
    intro h
    cases h

/-- A misread repeat code. -/
theorem parse_rep (unpack : BitVec 32 → Bool → Option C) (last : BitVec 32) (c : C) (s p : Option Nat)
    (h : s ≠ some 1) (h0 : p ≠ some 0) (h1 : p ≠ some 1) : necParse unpack last [s, p] ≠ oks [c] := by
  by_cases hs : s = some 0
  · subst hs
    have hb := leadingBits_length_le 2 3 32 [p]
    generalize hB : leadingBits 2 3 32 [p] = B at hb
    rw [necParse, if_pos rfl]
    dsimp only
    rw [hB]
    rw [List.length_singleton] at hb
    rw [if_neg (by omega)]
    split
    · intro h; cases h
    · intro h; cases h
  · rw [necParse_quiet _ _ [s, p] (by simp [hs, h, h0, h1])]
    intro h; cases h

/-- The pause used below: 40 ms. -/
def rest : Nat := 4000000

theorem nec_rest (t : Target) (m : Mono) (hm : m = Mono.u32 ∨ m = Mono.u64) (f : Nat) (hlo : 20000 ≤ f)
    (hf : f < 2 ^ 32) (v : NecVariant C) (hv : v.Shipped) (tbl : PulseSpans) (htbl : necSpans t m v f = some tbl)
    (phase t' : Nat) :
    Pause tbl m.width [0, 1] (0, reading tens f phase (t' + rest) - reading tens f phase t') := by
  obtain ⟨k, hk, he⟩ := nec_kind v hv
  rw [he] at htbl
  have h32 : 2 ^ 32 ≤ 2 ^ m.width := Nat.pow_le_pow_right (by decide) (by rcases hm with rfl | rfl <;> decide)
  have := prim_pause hm hf hlo (u := tens) (phase := phase) (by decide) k htbl [0, 1]
    (by rcases hk with ⟨rfl, -⟩ | ⟨rfl, -⟩ <;> decide) (0, rest) (by decide)
    (by dsimp only; unfold rest tens; omega) t'
  simpa using this

/-- A frame and repeat codes within `j` percent (periods not too short) are read right at every phase. -/
def NecParses (tbl : PulseSpans) (v : NecVariant C) (f j : Nat) : Prop :=
  ∀ (phase : Nat) (w : BitVec 32) (xs rs : List Nat),
    NearPeriods tens j (necPeriods (v.pulseDistance.headerHigh + v.pulseDistance.headerLow) w) (xs.map halves) →
    (∀ r ∈ rs, Near tens j (v.pulseDistance.headerHigh + v.pulseDistance.repeatLow) r) →
    (∀ x ∈ xs ++ rs, x ≤ 50000000) → (∀ x ∈ xs ++ rs, (100 - j) * 800 ≤ x) →
    necParse v.unpack 0
      ((measured tens f phase 0 (xs ++ [rest] ++ rs.flatMap fun r => [r, rest])).map tbl.get) =
      oks ((v.unpack w false).toList ++ rs.flatMap fun _ => (v.unpack w true).toList)

/-- What hearing a frame and repeat codes with these periods means. -/
theorem nec_heard_parse {t : Target} {m : Mono} (hm : m = Mono.u32 ∨ m = Mono.u64) {f : Nat}
    (hf : f < 2 ^ 32) {v : NecVariant C} {tbl : PulseSpans} {j g : Nat} (hg : Pause tbl m.width [0, 1] (0, g))
    (phase : Nat) (w : BitVec 32) (xs rs : List Nat)
    (hear : ∀ items : List (NecItem × (Nat × Nat)),
      (∀ i ∈ items, i.1.Near tens j (v.pulseDistance.headerHigh + v.pulseDistance.headerLow)
        (v.pulseDistance.headerHigh + v.pulseDistance.repeatLow) ∧
        16000 * tens ≤ 1000000 * (i.2.1 + i.2.2) ∧ (i.2.1 + i.2.2) * f + tens < 2 ^ m.width * tens) →
      series NecItem.wire items = pulses ((xs ++ [rest] ++ rs.flatMap fun r => [r, rest]).map halves) →
      (results (necDecoder t m tbl v) (fun c => c)
        ((true, g) :: clocked tens f phase 0 (series NecItem.wire items))).map said =
          some (oks (necHeard v.unpack 0 (items.map Prod.fst))))
    (hx : NearPeriods tens j (necPeriods (v.pulseDistance.headerHigh + v.pulseDistance.headerLow) w) (xs.map halves))
    (hr : ∀ r ∈ rs, Near tens j (v.pulseDistance.headerHigh + v.pulseDistance.repeatLow) r)
    (hle : ∀ x ∈ xs ++ rs, x ≤ 50000000) :
    necParse v.unpack 0
      ((measured tens f phase 0 (xs ++ [rest] ++ rs.flatMap fun r => [r, rest])).map tbl.get) =
      oks ((v.unpack w false).toList ++ rs.flatMap fun _ => (v.unpack w true).toList) := by
  have h32 : 32 ≤ m.width := by rcases hm with rfl | rfl <;> decide
  have h2 : 2 ^ 32 ≤ 2 ^ m.width := Nat.pow_le_pow_right (by decide) h32
  have hlaw := Mono.prim_lawful hm
  let items : List (NecItem × (Nat × Nat)) :=
    (.frame w (xs.map halves), halves rest) :: rs.map fun r => (.rep (halves r), halves rest)
  have hrest : 16000 * tens ≤ 1000000 * ((halves rest).1 + (halves rest).2) ∧
      ((halves rest).1 + (halves rest).2) * f + tens < 2 ^ m.width * tens := by
    rw [halves_sum]
    unfold rest tens
    omega
  have hok : ∀ i ∈ items, i.1.Near tens j (v.pulseDistance.headerHigh + v.pulseDistance.headerLow)
      (v.pulseDistance.headerHigh + v.pulseDistance.repeatLow) ∧
      16000 * tens ≤ 1000000 * (i.2.1 + i.2.2) ∧ (i.2.1 + i.2.2) * f + tens < 2 ^ m.width * tens := by
    intro i hi
    rcases List.mem_cons.mp hi with rfl | hi
    · exact ⟨hx, hrest⟩
    · obtain ⟨r, hr', rfl⟩ := List.mem_map.mp hi
      refine ⟨?_, hrest⟩
      show Near _ _ _ _
      rw [halves_sum]
      exact hr r hr'
  have hs : series NecItem.wire items = pulses ((xs ++ [rest] ++ rs.flatMap fun r => [r, rest]).map halves) := by
    unfold series
    congr 1
    simp only [items, List.flatMap_cons, List.map_append, List.map_flatMap, List.map_cons, List.map_nil,
      List.flatMap_map, NecItem.wire]
    rfl
  have hh : necHeard v.unpack 0 (items.map Prod.fst) =
      (v.unpack w false).toList ++ rs.flatMap fun _ => (v.unpack w true).toList := by
    have : ∀ rs : List Nat, necHeard v.unpack w (rs.map fun r => .rep (halves r)) =
        rs.flatMap fun _ => (v.unpack w true).toList := by
      intro rs
      induction rs with
      | nil => rfl
      | cons r rs ih => rw [List.map_cons, necHeard, ih, List.flatMap_cons]
    simp only [items, List.map_cons, List.map_map, necHeard]
    congr 1
    exact this rs
  have hres := hear items hok hs
  rw [hs, hh, Option.map_eq_some_iff] at hres
  obtain ⟨outs, ho, hsaid⟩ := hres
  rw [C67_nec t m hlaw tbl v _ _ outs ho, symbols_clocked m.width tbl tens f phase 0 g _ (by simpa using hg.1)] at hsaid
  · have hgs : tbl.get g ≠ some 0 ∧ tbl.get g ≠ some 1 := by
      constructor <;> intro h <;> refine hg.2 _ ?_ (by simpa using get_inTol h) <;> simp
    rw [necParse_skip _ _ _ _ hgs.1 hgs.2] at hsaid
    have hid : Res.map (fun c : C => c) = id := by
      funext r
      rcases r with _ | _ | _ <;> rfl
    rw [hid, List.map_id] at hsaid
    exact hsaid
  · refine measured_lt hf h32 phase _ (fun x hx => ?_) 0
    simp only [List.mem_append, List.mem_flatMap, List.mem_cons, List.not_mem_nil, or_false] at hx
    rcases hx with (hx | rfl) | ⟨r, hr, rfl | rfl⟩
    · exact hle x (by simp [hx])
    · decide
    · exact hle x (by simp [hr])
    · decide

/-- What hearing everything means for a frame and repeat codes with these periods. -/
theorem nec_hears_parse {t : Target} {m : Mono} (hm : m = Mono.u32 ∨ m = Mono.u64) {f : Nat} (hlo : 20000 ≤ f)
    (hf : f < 2 ^ 32) {v : NecVariant C} (hv : v.Shipped) {tbl : PulseSpans} (htbl : necSpans t m v f = some tbl)
    {j : Nat} (hear : NecHears t m tbl v f j) : NecParses tbl v f j := by
  intro phase w xs rs hx hr hle _
  have hg := nec_rest t m hm f hlo hf v hv tbl htbl 0 0
  generalize reading tens f 0 (0 + rest) - reading tens f 0 0 = g at hg
  exact nec_heard_parse hm hf hg phase w xs rs (fun items hok _ => hear tens phase 0 g items (by decide) hg hok) hx hr hle

theorem near_mono {u j j' l x : Nat} (hj : j ≤ j') (h : Near u j l x) : Near u j' l x := by
  obtain ⟨h1, h2⟩ := h
  refine ⟨Nat.le_trans ?_ h1, Nat.le_trans h2 ?_⟩
  · exact Nat.mul_le_mul_right _ (Nat.mul_le_mul_right _ (by omega))
  · exact Nat.mul_le_mul_right _ (Nat.mul_le_mul_right _ (by omega))

theorem nearPeriods_mono {u j j' : Nat} {ls : List Nat} {ps : List (Nat × Nat)} (hj : j ≤ j')
    (h : NearPeriods u j ls ps) : NearPeriods u j' ls ps :=
  ⟨h.1, fun i p k hp hk => near_mono hj (h.2 i p k hp hk)⟩

theorem necHears_mono {t : Target} {m : Mono} {tbl : PulseSpans} {v : NecVariant C} {f j j' : Nat} (hj : j ≤ j')
    (h : NecHears t m tbl v f j') : NecHears t m tbl v f j := by
  intro u phase t0 g items hu hg hok
  refine h u phase t0 g items hu hg fun i hi => ⟨?_, (hok i hi).2⟩
  have := (hok i hi).1
  rcases i with ⟨_ | _, _⟩
  · exact nearPeriods_mono hj this
  · exact near_mono hj this

/-- Nothing is covered at 100 percent: the shortest reading is zero. -/
theorem not_covers_100 {tbl : PulseSpans} {f s s' l l' n : Nat} (hu : Unambiguous tbl n) (hs : s < n) (hs' : s' < n)
    (hne : s ≠ s') (h : covers tbl f 100 s l = true) (h' : covers tbl f 100 s' l' = true) : False := by
  have key : ∀ {s l : Nat}, covers tbl f 100 s l = true → InTol tbl s 0 := by
    intro s l h
    obtain ⟨w, hw, h1, -⟩ := covers_iff.mp h
    refine ⟨w, hw, ?_, Nat.zero_le _⟩
    simpa [shortest] using h1
  have e := inTol_get hu hs (key h)
  rw [inTol_get hu hs' (key h')] at e
  cases e
  exact hne rfl

theorem w0_periods (H : Nat) : necPeriods H w0 = H :: 1120 :: 2250 :: w0Tail.map (fun b => if b then 2250 else 1120) := by
  unfold necPeriods
  congr 1

theorem nec_hears_covers {t : Target} {m : Mono} (hm : m = Mono.u32 ∨ m = Mono.u64) {f : Nat} (hlo : 20000 ≤ f)
    (hf : f < 2 ^ 32) {v : NecVariant C} (hv : v.Shipped) {tbl : PulseSpans} (htbl : necSpans t m v f = some tbl)
    {c c' : C} (ht : Telling v c c') {j : Nat} (hj : j ≤ 100) (hear : NecParses tbl v f j) :
    coversAll tbl f j (necLengths v) = true := by
  unfold NecParses at hear
  obtain ⟨hu, -⟩ := necSpans_good hm t hlo hf v hv htbl
  generalize hH : v.pulseDistance.headerHigh + v.pulseDistance.headerLow = H at *
  generalize hR : v.pulseDistance.headerHigh + v.pulseDistance.repeatLow = R at *
  have hHR : H ≤ 13500 ∧ R ≤ 11250 ∧ 6750 ≤ H ∧ 6750 ≤ R := by
    rcases hv with hv | hv <;> rw [hv] at hH hR <;> subst hH <;> subst hR <;> decide
  have hlen : necLengths v = [H, R, 1120, 2250] := by unfold necLengths; rw [hH, hR]
  have nom : ∀ phase s l, [H, R, 1120, 2250][s]? = some l → ∀ t',
      tbl.get (reading tens f phase (t' + 100 * l) - reading tens f phase t') = some s := by
    intro phase s l hs
    exact nec_nominal t m hm f hlo hf v hv tbl htbl phase s l (by rw [hlen]; exact hs)
  have paused : ∀ phase t', tbl.get (reading tens f phase (t' + rest) - reading tens f phase t') ≠ some 0 ∧
      tbl.get (reading tens f phase (t' + rest) - reading tens f phase t') ≠ some 1 := by
    intro phase t'
    have hg := nec_rest t m hm f hlo hf v hv tbl htbl phase t'
    constructor <;> intro h <;> refine hg.2 _ ?_ (by simpa using get_inTol h) <;> simp
  -- bits are read right
  have bits : ∀ phase (bs : List Bool) t', (measured tens f phase t'
      ((bs.map fun b => if b then 2250 else 1120).map (100 * ·))).map tbl.get = bs.map bitSym := by
    intro phase bs t'
    rw [measured_symbols (ss := bs.map fun b => if b then 3 else 2)]
    · rw [List.map_map]; rfl
    · induction bs with
      | nil => exact .nil
      | cons b bs ih =>
        refine .cons ?_ ih
        cases b
        · exact nom phase 2 1120 rfl
        · exact nom phase 3 2250 rfl
  have heard : (v.unpack w0 false).toList = [c] := by rw [ht.frame]; rfl
  have small : ∀ bs : List Bool, ∀ y ∈ (bs.map fun b => if b then 2250 else 1120).map (100 * ·), y ≤ 50000000 := by
    intro bs y hy
    simp only [List.mem_map] at hy
    obtain ⟨_, ⟨b, -, rfl⟩, rfl⟩ := hy
    cases b <;> decide
  have hxle : ∀ x l, x ≤ (100 + j) * l → l ≤ 13500 → x ≤ 50000000 := by
    intro x l h1 h2
    have := Nat.mul_le_mul (show 100 + j ≤ 200 by omega) h2
    omega
  have big : ∀ bs : List Bool, ∀ y ∈ (bs.map fun b => if b then 2250 else 1120).map (100 * ·), (100 - j) * 800 ≤ y := by
    intro bs y hy
    simp only [List.mem_map] at hy
    obtain ⟨_, ⟨b, -, rfl⟩, rfl⟩ := hy
    cases b <;> simp only [Bool.false_eq_true, if_true, if_false] <;> omega
  have hxge : ∀ x l, (100 - j) * l ≤ x → 800 ≤ l → (100 - j) * 800 ≤ x := by
    intro x l h1 h2
    exact Nat.le_trans (Nat.mul_le_mul_left _ h2) h1
  -- one symbol at a time
  have hsync : covers tbl f j 0 H = true := by
    refine Classical.byContradiction fun hn => ?_
    obtain ⟨x, phase, hx, hx1, hx2, hmis⟩ := misread (Bool.eq_false_iff.mpr hn) 0
    have hp := hear phase w0
      (x :: ([false, true] ++ w0Tail |>.map fun b => if b then 2250 else 1120).map (100 * ·)) []
      (by rw [w0_periods]; exact nearPeriods_except j [] _ H x hx) (by simp)
      (by
        intro y hy
        rw [List.append_nil, List.mem_cons] at hy
        rcases hy with rfl | hy
        · exact hxle _ _ hx2 hHR.1
        · exact small _ y hy)
      (by
        intro y hy
        rw [List.append_nil, List.mem_cons] at hy
        rcases hy with rfl | hy
        · exact hxge _ _ hx1 (by omega)
        · exact big _ y hy)
    rw [heard, List.flatMap_nil, List.flatMap_nil, List.append_nil, List.append_nil, List.cons_append, measured,
      List.map_cons, measured_append, List.map_append, bits] at hp
    refine parse_header v.unpack c ht.notRep _ _ _ ?_ (paused _ _).1 (paused _ _).2 hp
    exact fun h => hmis (get_inTol h)
  have hbit : ∀ (as bs : List Bool) (b : Bool), as ++ b :: bs = false :: true :: w0Tail →
      v.unpack (wordOf 32 (as ++ (!b) :: bs)) false ≠ some c →
      covers tbl f j (if b then 3 else 2) (if b then 2250 else 1120) = true := by
    intro as bs b hab hne
    refine Classical.byContradiction fun hn => ?_
    obtain ⟨x, phase, hx, hx1, hx2, hmis⟩ := misread (Bool.eq_false_iff.mpr hn)
      (100 * H + ((as.map fun b => if b then 2250 else 1120).map (100 * ·)).sum)
    have hlen : as.length + bs.length = 31 := by
      have := congrArg List.length hab
      simp only [List.length_append, List.length_cons, w0Tail_length] at this
      omega
    have hper : necPeriods H w0 = (H :: as.map fun b => if b then 2250 else 1120) ++ (if b then 2250 else 1120) ::
        bs.map fun b => if b then 2250 else 1120 := by
      have := congrArg (List.map fun b => if b then 2250 else 1120) hab
      rw [List.map_append, List.map_cons, List.map_cons, List.map_cons] at this
      rw [w0_periods, List.cons_append, this]
      rfl
    have hp := hear phase w0
      ((H :: as.map fun b => if b then 2250 else 1120).map (100 * ·) ++ x ::
        (bs.map fun b => if b then 2250 else 1120).map (100 * ·)) []
      (by rw [hper]; exact nearPeriods_except j _ _ _ x hx) (by simp)
      (by
        intro y hy
        rw [List.append_nil, List.mem_append, List.map_cons, List.mem_cons, List.mem_cons] at hy
        rcases hy with (rfl | hy) | rfl | hy
        · omega
        · exact small _ y hy
        · exact hxle _ _ hx2 (by split <;> omega)
        · exact small _ y hy)
      (by
        intro y hy
        rw [List.append_nil, List.mem_append, List.map_cons, List.mem_cons, List.mem_cons] at hy
        rcases hy with (rfl | hy) | rfl | hy
        · omega
        · exact big _ y hy
        · exact hxge _ _ hx1 (by split <;> omega)
        · exact big _ y hy)
    rw [heard, List.flatMap_nil, List.flatMap_nil, List.append_nil, List.append_nil, List.map_cons, List.cons_append,
      List.cons_append, List.append_assoc, List.cons_append, measured,
      measured_append, measured, measured_append, List.map_cons, List.map_append, List.map_cons, List.map_append,
      bits, bits, nom phase 0 H rfl, Nat.zero_add] at hp
    refine parse_bit v.unpack c _ _ as bs b hlen hne ?_ (paused _ _).1 (paused _ _).2 hp
    exact fun h => hmis (get_inTol h)
  have hrep : covers tbl f j 1 R = true := by
    refine Classical.byContradiction fun hn => ?_
    obtain ⟨x, phase, hx, hx1, hx2, hmis⟩ := misread (Bool.eq_false_iff.mpr hn)
      (100 * H + ((([false, true] ++ w0Tail).map fun b => if b then 2250 else 1120).map (100 * ·)).sum + rest)
    have hp := hear phase w0
      (100 * H :: ([false, true] ++ w0Tail |>.map fun b => if b then 2250 else 1120).map (100 * ·)) [x]
      (by rw [w0_periods]; exact nearPeriods_except j [] _ H (100 * H) (near_nominal j H))
      (by simpa using hx)
      (by
        intro y hy
        rw [List.mem_append, List.mem_cons, List.mem_singleton] at hy
        rcases hy with (rfl | hy) | rfl
        · omega
        · exact small _ y hy
        · exact hxle _ _ hx2 (by omega))
      (by
        intro y hy
        rw [List.mem_append, List.mem_cons, List.mem_singleton] at hy
        rcases hy with (rfl | hy) | rfl
        · omega
        · exact big _ y hy
        · exact hxge _ _ hx1 (by omega))
    rw [heard, List.flatMap_cons, List.flatMap_nil, List.append_nil, List.flatMap_cons, List.flatMap_nil,
      List.append_nil, List.cons_append, List.cons_append, measured, List.append_assoc,
      measured_append, List.map_cons, List.map_append, bits, nom phase 0 H rfl, Nat.zero_add,
      parse_frame _ _ _ (by decide), show wordOf 32 ([false, true] ++ w0Tail) = w0 by decide, heard, ht.rep] at hp
    have hp2 : ∀ a b : List (Res C), oks [c] ++ a = oks [c] ++ b → a = b := fun _ _ => List.append_cancel_left
    have e : oks ([c] ++ (some c').toList) = oks [c] ++ oks [c'] := rfl
    rw [e] at hp
    have hp := hp2 _ _ hp
    rw [List.singleton_append, measured, measured, measured, measured, List.map_cons, List.map_cons, List.map_cons,
      List.map_nil, necParse_skip _ _ _ _ (paused _ _).1 (paused _ _).2] at hp
    refine parse_rep v.unpack _ c' _ _ ?_ (paused _ _).1 (paused _ _).2 hp
    exact fun h => hmis (get_inTol h)
  rw [hlen]
  have h2 := hbit [] (true :: w0Tail) false rfl (by
    rw [show wordOf 32 ([] ++ (!false) :: true :: w0Tail) = 0x0C0B87EF#32 by decide]; exact ht.zero)
  have h3 := hbit [false] w0Tail true rfl (by
    rw [show wordOf 32 ([false] ++ (!true) :: w0Tail) = 0x0C0B87EC#32 by decide]; exact ht.one)
  unfold coversAll
  simp only [List.zipIdx_cons, List.zipIdx_nil, List.all_cons, List.all_nil, Bool.and_true, Bool.and_eq_true]
  exact ⟨hsync, hrep, h2, h3⟩

/-- **C81**, NEC family: the receiver hears every series of transmissions within `j` percent, at every phase of the
clock and whatever its unit, exactly if the table covers the symbols at `j` percent. -/
theorem C81_nec (t : Target) (m : Mono) (hm : m = Mono.u32 ∨ m = Mono.u64) (f : Nat) (hlo : 20000 ≤ f)
    (hf : f < 2 ^ 32) (v : NecVariant C) (hv : v.Shipped) (c c' : C) (ht : Telling v c c') (tbl : PulseSpans)
    (htbl : necSpans t m v f = some tbl) (j : Nat) :
    NecHears t m tbl v f j ↔ coversAll tbl f j (necLengths v) = true := by
  constructor
  · intro hear
    by_cases hj : j ≤ 100
    · exact nec_hears_covers hm hlo hf hv htbl ht hj (nec_hears_parse hm hlo hf hv htbl hear)
    · have h100 := nec_hears_covers hm hlo hf hv htbl ht (Nat.le_refl 100)
        (nec_hears_parse hm hlo hf hv htbl (necHears_mono (by omega) hear))
      exact absurd (not_covers_100 (necSpans_good hm t hlo hf v hv htbl).1 (s := 2) (s' := 3) (by decide) (by decide)
        (by decide) (coversAll_get h100 rfl) (coversAll_get h100 rfl)) id
  · intro hc u phase t0 g items hu hg hok
    have := C78_nec t f j hlo hf v hv m hm tbl htbl hc (fun c => c) u hu phase t0 g hg items hok
    rwa [List.map_id'] at this

/-- The five variants of the crate tell the word. -/
theorem C81_nec_telling :
    Telling Infrared.nec ⟨0xEE, 0x0B, false⟩ ⟨0xEE, 0x0B, true⟩ ∧
    Telling samsungNec ⟨0xEE, 0x0B, false⟩ ⟨0xEE, 0x0B, true⟩ ∧
    Telling nec16 ⟨0x87EE, 0x0B, false⟩ ⟨0x87EE, 0x0B, true⟩ ∧
    Telling appleNec ⟨0x0E, 0x05, 0x0C, false⟩ ⟨0x0E, 0x05, 0x0C, true⟩ ∧
    Telling necDebug ⟨w0⟩ ⟨w0⟩ := by
  refine ⟨⟨?_, ?_, ?_, ?_, ?_⟩, ⟨?_, ?_, ?_, ?_, ?_⟩, ⟨?_, ?_, ?_, ?_, ?_⟩, ⟨?_, ?_, ?_, ?_, ?_⟩, ⟨?_, ?_, ?_, ?_, ?_⟩⟩ <;>
    decide

/-! ## SBP and Denon -/

theorem leadingBits_get {z o k : Nat} {ss : List (Option Nat)} {i : Nat} {b : Bool}
    (h : (leadingBits z o k ss)[i]? = some b) : ss[i]? = some (some (if b then o else z)) := by
  induction ss generalizing k i with
  | nil => cases k <;> simp [leadingBits] at h
  | cons s ss ih =>
    cases k with
    | zero => simp [leadingBits] at h
    | succ k =>
      rw [leadingBits] at h
      split at h
      · rename_i hs
        cases i with
        | zero => cases h; simpa using hs
        | succ i => rw [List.getElem?_cons_succ] at h ⊢; exact ih h
      · split at h
        · rename_i hs
          cases i with
          | zero => cases h; simpa using hs
          | succ i => rw [List.getElem?_cons_succ] at h ⊢; exact ih h
        · simp at h

theorem wordOf_getLsbD (n : Nat) (bs : List Bool) (i : Nat) (hi : i < n) :
    (wordOf n bs).getLsbD i = bs[i]?.getD false := by
  induction bs generalizing i with
  | nil => simp [wordOf]
  | cons b bs ih =>
    rw [wordOf, BitVec.getLsbD_or, BitVec.getLsbD_shiftLeft]
    cases i with
    | zero => cases b <;> simp [hi]
    | succ i =>
      rw [List.getElem?_cons_succ, ← ih i (by omega)]
      cases b <;> simp [hi]

theorem measured_get (u f phase : Nat) (as bs : List Nat) (x t : Nat) :
    (measured u f phase t (as ++ x :: bs))[as.length]? =
      some (reading u f phase (t + as.sum + x) - reading u f phase (t + as.sum)) := by
  induction as generalizing t with
  | nil => simp [measured]
  | cons a as ih =>
    rw [List.cons_append, measured, List.length_cons, List.getElem?_cons_succ, ih, List.sum_cons, Nat.add_assoc t]

theorem measured_length (u f phase : Nat) (xs : List Nat) (t : Nat) : (measured u f phase t xs).length = xs.length := by
  induction xs generalizing t with
  | nil => rfl
  | cons x xs ih => rw [measured, List.length_cons, List.length_cons, ih]

/-- A frame, nominal but for one period, that is misread. -/
theorem misread_at {tbl : PulseSpans} {f j s l : Nat} (h : covers tbl f j s l = false) (hj : j ≤ 100) {ls : List Nat}
    {i : Nat} (hi : ls[i]? = some l) (hls : ∀ l ∈ ls, 800 ≤ l ∧ l ≤ 100000) :
    ∃ xs phase, NearPeriods tens j ls (xs.map halves) ∧ xs.length = ls.length ∧
      (∀ x ∈ xs, x ≤ 50000000 ∧ (100 - j) * 800 ≤ x) ∧
      ∃ d, (measured tens f phase 0 xs)[i]? = some d ∧ tbl.get d ≠ some s := by
  obtain ⟨hlt, hl⟩ := List.getElem?_eq_some_iff.mp hi
  have e : ls = ls.take i ++ l :: ls.drop (i + 1) := by
    rw [← hl, List.getElem_cons_drop, List.take_append_drop]
  obtain ⟨x, phase, hx, hx1, hx2, hmis⟩ := misread h (0 + ((ls.take i).map (100 * ·)).sum)
  refine ⟨(ls.take i).map (100 * ·) ++ x :: (ls.drop (i + 1)).map (100 * ·), phase, ?_, ?_, ?_, _, ?_,
    fun h => hmis (get_inTol h)⟩
  · have := nearPeriods_except j (ls.take i) (ls.drop (i + 1)) l x hx
    rwa [← e] at this
  · simp only [List.length_append, List.length_map, List.length_take, List.length_cons, List.length_drop]
    omega
  · obtain ⟨hl0, hl'⟩ := hls l (List.mem_of_getElem? hi)
    intro y hy
    rw [List.mem_append, List.mem_cons, List.mem_map, List.mem_map] at hy
    rcases hy with ⟨z, hz, rfl⟩ | rfl | ⟨z, hz, rfl⟩
    · have := hls z (List.mem_of_mem_take hz); omega
    · have := Nat.mul_le_mul (show 100 + j ≤ 200 by omega) hl'
      exact ⟨by omega, Nat.le_trans (Nat.mul_le_mul_left _ hl0) hx1⟩
    · have := hls z (List.mem_of_mem_drop hz); omega
  · have := measured_get tens f phase ((ls.take i).map (100 * ·)) ((ls.drop (i + 1)).map (100 * ·)) x 0
    rwa [List.length_map, List.length_take, Nat.min_eq_left (by omega)] at this

theorem kind_rest {t : Target} {m : Mono} (hm : m = Mono.u32 ∨ m = Mono.u64) {f : Nat} (hlo : 20000 ≤ f)
    (hf : f < 2 ^ 32) (k : Kind) {tbl : PulseSpans} (htbl : k.build t m f = some tbl) (phase t' i : Nat)
    (hi : i < k.symbols.length) :
    reading tens f phase (t' + rest) - reading tens f phase t' < 2 ^ m.width ∧
      tbl.get (reading tens f phase (t' + rest) - reading tens f phase t') ≠ some i := by
  have h32 : 2 ^ 32 ≤ 2 ^ m.width := Nat.pow_le_pow_right (by decide) (by rcases hm with rfl | rfl <;> decide)
  have := prim_pause hm hf hlo (u := tens) (phase := phase) (by decide) k htbl [i]
    (by simpa using hi) (0, rest) (by decide) (by dsimp only; unfold rest tens; omega) t'
  obtain ⟨h1, h2⟩ := this
  simp only [Nat.add_zero, Nat.sub_self, Nat.zero_add] at h1 h2
  exact ⟨h1, fun h => h2 i (by simp) (get_inTol h)⟩

/-! ### SBP -/

/-- A list too short for an SBP frame: nothing but errors. -/
theorem sbpParse_short (n : Nat) (ss : List (Option Nat)) (hn : ss.length ≤ n) (h : ss.length ≤ 37) :
    ∀ c, .ok c ∉ sbpParse ss := by
  induction n generalizing ss with
  | zero =>
    have : ss = [] := List.length_eq_zero_iff.mp (by omega)
    subst this
    intro c
    rw [sbpParse]
    simp
  | succ n ih =>
    intro c
    rcases ss with _ | ⟨s, ss⟩
    · rw [sbpParse]; simp
    rw [List.length_cons] at hn h
    have hd : ∀ k, .ok c ∉ sbpParse (ss.drop k) := fun k =>
      ih _ (by rw [List.length_drop]; omega) (by rw [List.length_drop]; omega) c
    have h0 := ih ss (by omega) (by omega) c
    rw [sbpParse]
    split
    · dsimp only
      split
      · split
        · simp
        · simpa using hd _
      · split
        · simp
        · split
          · split
            · rename_i hl
              have := (leadingBits_length_le 2 3 20 (ss.drop 17)).2
              rw [hl, List.length_drop] at this
              omega
            · split
              · simp
              · simpa using hd _
          · simpa using hd _
    · exact h0

/-- A frame that is heard has been read right. -/
theorem sbp_heard (s p : Option Nat) (ss : List (Option Nat)) (hl : ss.length = 37) (hp : p ≠ some 2 ∧ p ≠ some 3)
    (c : SbpCommand) (h : sbpParse (s :: (ss ++ [p])) = [.ok (some c)]) :
    s = some 0 ∧ (∀ i < 16, ss[i]? = some (some (if c.address.getLsbD i then 3 else 2))) ∧
      ss[16]? = some (some 1) := by
  have hdrop : ∀ k, 1 ≤ k → .ok (some c) ∉ sbpParse ((ss ++ [p]).drop k) := by
    intro k hk
    refine sbpParse_short _ _ (Nat.le_refl _) ?_ _
    rw [List.length_drop, List.length_append, hl, List.length_singleton]
    omega
  have hlast : ∀ n i, (leadingBits 2 3 n ((ss ++ [p]).drop i)).length + i ≤ 37 ∨ 37 < i := by
    intro n i
    by_cases hi : 37 < i
    · exact .inr hi
    refine .inl (Nat.le_of_not_lt fun hgt => ?_)
    have hlt : 37 - i < (leadingBits 2 3 n ((ss ++ [p]).drop i)).length := by omega
    obtain ⟨b, hb⟩ : ∃ b, (leadingBits 2 3 n ((ss ++ [p]).drop i))[37 - i]? = some b := ⟨_, List.getElem?_eq_getElem hlt⟩
    have hg := leadingBits_get hb
    rw [List.getElem?_drop, show i + (37 - i) = 37 by omega, ← hl, List.getElem?_append_right (Nat.le_refl _),
      Nat.sub_self] at hg
    cases b <;> cases hg
    · exact hp.1 rfl
    · exact hp.2 rfl
  by_cases hs : s = some 0
  · subst hs
    rw [sbpParse, if_pos rfl] at h
    dsimp only at h
    generalize ha : leadingBits 2 3 16 (ss ++ [p]) = a at h
    split at h
    · split at h <;> simp at h
    · rename_i h16
      have ha16 : a.length = 16 := by
        have := (leadingBits_length_le 2 3 16 (ss ++ [p])).1
        rw [ha] at this
        omega
      split at h
      · simp at h
      · split at h
        · rename_i hdiv
          split at h
          · rw [List.cons.injEq] at h
            have hc := h.1
            injection hc with hc
            injection hc with hc
            refine ⟨rfl, fun i hi => ?_, ?_⟩
            · have haddr : c.address = wordOf 16 a := by rw [← hc]; rfl
              rw [haddr, wordOf_getLsbD 16 a i hi]
              have hg : (leadingBits 2 3 16 (ss ++ [p]))[i]? = some (a[i]?.getD false) := by
                rw [ha, List.getElem?_eq_getElem (by omega)]
                rfl
              have := leadingBits_get hg
              rwa [List.getElem?_append_left (by omega)] at this
            · rwa [List.getElem?_append_left (by omega)] at hdiv
          · split at h <;> simp at h
        · simp at h
  · exfalso
    rw [sbpParse, if_neg hs] at h
    rcases hss : ss with _ | ⟨s1, ss'⟩
    · rw [hss] at hl; simp at hl
    have hmem : .ok (some c) ∈ sbpParse (ss ++ [p]) := by rw [h]; simp
    have hd := hdrop 1 (Nat.le_refl _)
    have hl2 := hlast 20 18
    rw [hss, List.cons_append, sbpParse] at hmem
    rw [hss, List.cons_append, List.drop_succ_cons, List.drop_zero] at hd
    have hd' : ∀ k, .ok (some c) ∉ sbpParse ((ss' ++ [p]).drop k) := by
      intro k
      have := hdrop (k + 1) (by omega)
      rwa [hss, List.cons_append, List.drop_succ_cons] at this
    rw [hss, List.cons_append, List.drop_succ_cons] at hl2
    split at hmem
    · dsimp only at hmem
      split at hmem
      · split at hmem
        · simp at hmem
        · exact hd' _ (by simpa using hmem)
      · split at hmem
        · simp at hmem
        · split at hmem
          · split at hmem
            · rename_i h20
              omega
            · split at hmem
              · simp at hmem
              · exact hd' _ (by simpa using hmem)
          · exact hd' _ (by simpa using hmem)
    · exact hd hmem

/-- The receiver hears every series of frames within `j` percent. -/
def Spec.SbpHears (t : Target) (m : Mono) (tbl : PulseSpans) (f j : Nat) : Prop :=
  ∀ (u phase t0 g : Nat) (items : List ((BitVec 16 × BitVec 20 × List (Nat × Nat)) × (Nat × Nat))), 0 < u →
    Pause tbl m.width [0] (0, g) →
    (∀ i ∈ items, NearPeriods u j (sbpPeriods i.1.1 i.1.2.1) i.1.2.2 ∧
      16000 * u ≤ 1000000 * (i.2.1 + i.2.2) ∧ (i.2.1 + i.2.2) * f + u < 2 ^ m.width * u) →
    (results (sbpDecoder t m tbl) (fun c => c)
        ((true, g) :: clocked u f phase t0 (series (fun i => i.2.2) items))).map said =
      some (oks (items.map fun i => SbpCommand.unpack i.1.1 (i.1.2.1.setWidth 32)))

theorem rest_ok {f : Nat} (hf : f < 2 ^ 32) {w : Nat} (hw : 32 ≤ w) :
    16000 * tens ≤ 1000000 * ((halves rest).1 + (halves rest).2) ∧
      ((halves rest).1 + (halves rest).2) * f + tens < 2 ^ w * tens := by
  have h2 : 2 ^ 32 ≤ 2 ^ w := Nat.pow_le_pow_right (by decide) hw
  rw [halves_sum]
  unfold rest tens
  omega

theorem res_map_id {K : Type} : Res.map (fun c : K => c) = id := by
  funext r
  rcases r with _ | _ | _ <;> rfl

/-- A frame within `j` percent (periods not too short) is read right at every phase. -/
def SbpParses (tbl : PulseSpans) (f j : Nat) : Prop :=
  ∀ (phase : Nat) (a : BitVec 16) (w : BitVec 20) (xs : List Nat),
    NearPeriods tens j (sbpPeriods a w) (xs.map halves) → (∀ x ∈ xs, x ≤ 50000000 ∧ (100 - j) * 800 ≤ x) →
    sbpParse ((measured tens f phase 0 (xs ++ [rest])).map tbl.get) =
      [.ok (some (SbpCommand.unpack a (w.setWidth 32)))]

/-- What hearing one frame means. -/
theorem sbp_heard_parse {t : Target} {m : Mono} (hm : m = Mono.u32 ∨ m = Mono.u64) {f : Nat}
    (hf : f < 2 ^ 32) {tbl : PulseSpans} {g : Nat} (hg1 : g < 2 ^ m.width) (hg2 : tbl.get g ≠ some 0)
    (phase : Nat) (a : BitVec 16) (w : BitVec 20) (xs : List Nat) (hle : ∀ x ∈ xs, x ≤ 50000000)
    (hear : (results (sbpDecoder t m tbl) (fun c => c)
      ((true, g) :: clocked tens f phase 0 (pulses ((xs ++ [rest]).map halves)))).map said = some [.ok (some (SbpCommand.unpack a (w.setWidth 32)))]) :
    sbpParse ((measured tens f phase 0 (xs ++ [rest])).map tbl.get) =
      [.ok (some (SbpCommand.unpack a (w.setWidth 32)))] := by
  have h32 : 32 ≤ m.width := by rcases hm with rfl | rfl <;> decide
  rw [Option.map_eq_some_iff] at hear
  obtain ⟨outs, ho, hsaid⟩ := hear
  rw [C67_sbp t m (Mono.prim_lawful hm) tbl _ _ (by rw [clocked_pulses]; exact pulses_alternating _ _) outs ho,
    symbols_clocked m.width tbl tens f phase 0 g _ hg1, res_map_id, List.map_id] at hsaid
  · rw [sbpParse, if_neg hg2] at hsaid
    exact hsaid
  · refine measured_lt hf h32 phase _ (fun x hx => ?_) 0
    rw [List.mem_append, List.mem_singleton] at hx
    rcases hx with hx | rfl
    · exact hle x hx
    · decide

theorem sbp_one (a : BitVec 16) (w : BitVec 20) (xs : List Nat) :
    series (fun i : BitVec 16 × BitVec 20 × List (Nat × Nat) => i.2.2)
      [((a, w, xs.map halves), halves rest)] = pulses ((xs ++ [rest]).map halves) := by
  unfold series
  congr 1
  simp

/-- What hearing everything means for one frame. -/
theorem sbp_hears_parse {t : Target} {m : Mono} (hm : m = Mono.u32 ∨ m = Mono.u64) {f : Nat} (hlo : 20000 ≤ f)
    (hf : f < 2 ^ 32) {tbl : PulseSpans} (htbl : sbpSpans t m f = some tbl) {j : Nat} (hear : SbpHears t m tbl f j) :
    SbpParses tbl f j := by
  intro phase a w xs hx hle
  have h32 : 32 ≤ m.width := by rcases hm with rfl | rfl <;> decide
  obtain ⟨hg1, hg2⟩ := kind_rest hm hlo hf .sbp htbl 0 0 0 (by decide)
  generalize reading tens f 0 (0 + rest) - reading tens f 0 0 = g at hg1 hg2
  have hin : ¬ InTol tbl 0 g := fun h =>
    hg2 (inTol_get ((C14_classification_unambiguous f hlo hf t m hm).2.2.2.2.2.2.1 tbl htbl) (by decide) h)
  have hres := hear tens phase 0 g [((a, w, xs.map halves), halves rest)] (by decide)
    ⟨by simpa using hg1, by simpa using hin⟩ (by
      intro i hi
      rw [List.mem_singleton] at hi
      subst hi
      exact ⟨hx, rest_ok hf h32⟩)
  rw [sbp_one] at hres
  exact sbp_heard_parse hm hf hg1 hg2 phase a w xs (fun x hx => (hle x hx).1) hres

/-- A frame that is heard has been measured right. -/
theorem sbp_right {t : Target} {m : Mono} (hm : m = Mono.u32 ∨ m = Mono.u64) {f : Nat} (hlo : 20000 ≤ f)
    (hf : f < 2 ^ 32) {tbl : PulseSpans} (htbl : sbpSpans t m f = some tbl) {j : Nat} (hj : j ≤ 100)
    (hear : SbpParses tbl f j) (a : BitVec 16) (w : BitVec 20) (i s l : Nat) (hi : (sbpPeriods a w)[i]? = some l)
    (hs : i = 0 ∧ s = 0 ∨ i = 17 ∧ s = 1 ∨ 1 ≤ i ∧ i ≤ 16 ∧ s = if a.getLsbD (i - 1) then 3 else 2) :
    covers tbl f j s l = true := by
  refine Classical.byContradiction fun hn => ?_
  obtain ⟨xs, phase, hx, hlen, hle, d, hd, hmis⟩ := misread_at (Bool.eq_false_iff.mpr hn) hj hi (by
    intro l hl
    simp only [sbpPeriods, List.mem_append, List.mem_map, List.mem_singleton] at hl
    rcases hl with ((rfl | ⟨_, -, rfl⟩) | rfl) | ⟨_, -, rfl⟩
    · decide
    · split <;> decide
    · decide
    · split <;> decide)
  have hp := hear phase a w xs hx hle
  rw [measured_append, List.map_append, measured, measured, List.map_cons, List.map_nil] at hp
  have hl38 : (sbpPeriods a w).length = 38 := by simp [sbpPeriods]
  have hg : ((measured tens f phase 0 xs).map tbl.get)[i]? = some (tbl.get d) := by rw [List.getElem?_map, hd]; rfl
  have hml : ((measured tens f phase 0 xs).map tbl.get).length = 38 := by
    rw [List.length_map, measured_length, hlen, hl38]
  generalize (measured tens f phase 0 xs).map tbl.get = ss at hp hg hml
  rcases ss with _ | ⟨s0, ss⟩
  · simp at hml
  obtain ⟨h0, hb, h1⟩ := sbp_heard s0 _ ss (by simpa using hml)
    ⟨(kind_rest hm hlo hf .sbp htbl phase _ 2 (by decide)).2, (kind_rest hm hlo hf .sbp htbl phase _ 3 (by decide)).2⟩
    _ hp
  rcases hs with ⟨rfl, rfl⟩ | ⟨rfl, rfl⟩ | ⟨hi1, hi2, rfl⟩
  · rw [List.getElem?_cons_zero, h0, Option.some.injEq] at hg
    exact hmis hg.symm
  · rw [List.getElem?_cons_succ, h1, Option.some.injEq] at hg
    exact hmis hg.symm
  · obtain ⟨k, rfl⟩ : ∃ k, i = k + 1 := ⟨i - 1, by omega⟩
    rw [List.getElem?_cons_succ, hb k (by omega), Option.some.injEq] at hg
    exact hmis hg.symm

theorem sbpHears_mono {t : Target} {m : Mono} {tbl : PulseSpans} {f j j' : Nat} (hj : j ≤ j')
    (h : SbpHears t m tbl f j') : SbpHears t m tbl f j := fun u phase t0 g items hu hg hok =>
  h u phase t0 g items hu hg fun i hi => ⟨nearPeriods_mono hj (hok i hi).1, (hok i hi).2⟩

theorem sbp_hears_covers {t : Target} {m : Mono} (hm : m = Mono.u32 ∨ m = Mono.u64) {f : Nat} (hlo : 20000 ≤ f)
    (hf : f < 2 ^ 32) {tbl : PulseSpans} (htbl : sbpSpans t m f = some tbl) {j : Nat} (hj : j ≤ 100)
    (hear : SbpParses tbl f j) : coversAll tbl f j sbpLengths = true := by
  have key := sbp_right hm hlo hf htbl hj hear 2#16 0
  have h0 := key 0 0 9000 rfl (.inl ⟨rfl, rfl⟩)
  have h1 := key 17 1 5000 rfl (.inr (.inl ⟨rfl, rfl⟩))
  have h2 := key 1 2 1000 rfl (.inr (.inr ⟨by decide, by decide, rfl⟩))
  have h3 := key 2 3 2000 rfl (.inr (.inr ⟨by decide, by decide, rfl⟩))
  unfold coversAll sbpLengths
  simp only [List.zipIdx_cons, List.zipIdx_nil, List.all_cons, List.all_nil, Bool.and_true, Bool.and_eq_true]
  exact ⟨h0, h1, h2, h3⟩

/-- **C81**, SBP. -/
theorem C81_sbp (t : Target) (m : Mono) (hm : m = Mono.u32 ∨ m = Mono.u64) (f : Nat) (hlo : 20000 ≤ f)
    (hf : f < 2 ^ 32) (tbl : PulseSpans) (htbl : sbpSpans t m f = some tbl) (j : Nat) :
    SbpHears t m tbl f j ↔ coversAll tbl f j sbpLengths = true := by
  constructor
  · intro hear
    by_cases hj : j ≤ 100
    · exact sbp_hears_covers hm hlo hf htbl hj (sbp_hears_parse hm hlo hf htbl hear)
    · have h100 := sbp_hears_covers hm hlo hf htbl (Nat.le_refl 100)
        (sbp_hears_parse hm hlo hf htbl (sbpHears_mono (by omega) hear))
      exact absurd (not_covers_100 ((C14_classification_unambiguous f hlo hf t m hm).2.2.2.2.2.2.1 tbl htbl) (s := 2) (s' := 3) (by decide)
        (by decide) (by decide) (coversAll_get h100 rfl) (coversAll_get h100 rfl)) id
  · intro hc u phase t0 g items hu hg hok
    exact C78_sbp t f j hlo hf m hm tbl htbl hc (fun c => c) u hu phase t0 g hg items hok

/-! ### Denon -/

/-- A list too short for a Denon frame. -/
theorem denonParse_short (n : Nat) (ss : List (Option Nat)) (hn : ss.length ≤ n) (h : ss.length ≤ 48)
    (stale : BitVec 64) : denonParse stale ss = [] := by
  induction n generalizing ss stale with
  | zero =>
    have : ss = [] := List.length_eq_zero_iff.mp (by omega)
    subst this
    rw [denonParse]
  | succ n ih =>
    rcases ss with _ | ⟨s, ss⟩
    · rw [denonParse]
    rw [List.length_cons] at hn h
    rw [denonParse]
    split
    · dsimp only
      have hle := (leadingBits_length_le 1 2 48 ss).2
      rw [if_neg (by omega)]
      exact ih _ (by rw [List.length_drop]; omega) (by rw [List.length_drop]; omega) _
    · exact ih _ (by omega) (by omega) _

/-- A frame that is heard has been read right. -/
theorem denon_heard (s p : Option Nat) (ss : List (Option Nat)) (hl : ss.length = 48) (hp : p ≠ some 1 ∧ p ≠ some 2)
    (c : DenonCommand) (h : denonParse 0 (s :: (ss ++ [p])) = [.ok (some c)]) :
    s = some 0 ∧ (∀ i < 47, ss[i]? = some (some (if c.bits.getLsbD i then 2 else 1))) := by
  by_cases hs : s = some 0
  · subst hs
    rw [denonParse, if_pos rfl] at h
    dsimp only at h
    generalize ha : leadingBits 1 2 48 (ss ++ [p]) = a at h
    split at h
    · rename_i h48
      rw [List.cons.injEq] at h
      have hc := h.1
      injection hc with hc
      injection hc with hc
      refine ⟨rfl, fun i hi => ?_⟩
      rw [← hc]
      dsimp only
      rw [show (0 : BitVec 64) ||| wordOf 64 (a.take 47) = wordOf 64 (a.take 47) by simp,
        wordOf_getLsbD 64 _ i (by omega)]
      have hg : (leadingBits 1 2 48 (ss ++ [p]))[i]? = some ((a.take 47)[i]?.getD false) := by
        rw [ha, List.getElem?_take_of_lt hi, List.getElem?_eq_getElem (by omega)]
        rfl
      have := leadingBits_get hg
      rwa [List.getElem?_append_left (by omega)] at this
    · rw [denonParse_short _ _ (Nat.le_refl _) (by
        rw [List.length_drop, List.length_append, hl, List.length_singleton]; omega)] at h
      cases h
  · exfalso
    rw [denonParse, if_neg hs] at h
    rcases ss with _ | ⟨s1, ss⟩
    · simp at hl
    rw [List.length_cons] at hl
    rw [List.cons_append, denonParse] at h
    split at h
    · dsimp only at h
      split at h
      · rename_i h48
        obtain ⟨b, hb⟩ : ∃ b, (leadingBits 1 2 48 (ss ++ [p]))[47]? = some b :=
          ⟨_, List.getElem?_eq_getElem (by omega)⟩
        have hg := leadingBits_get hb
        rw [List.getElem?_append_right (by omega), show 47 - ss.length = 0 by omega] at hg
        cases b <;> cases hg
        · exact hp.1 rfl
        · exact hp.2 rfl
      · rw [denonParse_short _ _ (Nat.le_refl _) (by
          rw [List.length_drop, List.length_append, List.length_singleton]; omega)] at h
        cases h
    · rw [denonParse_short _ _ (Nat.le_refl _) (by rw [List.length_append, List.length_singleton]; omega)] at h
      cases h

/-- The receiver hears every series of frames within `j` percent. -/
def Spec.DenonHears (t : Target) (m : Mono) (tbl : PulseSpans) (f j : Nat) : Prop :=
  ∀ (u phase t0 g : Nat) (items : List ((BitVec 48 × List (Nat × Nat)) × (Nat × Nat))), 0 < u →
    Pause tbl m.width [0] (0, g) →
    (∀ i ∈ items, NearPeriods u j (denonPeriods i.1.1) i.1.2 ∧
      16000 * u ≤ 1000000 * (i.2.1 + i.2.2) ∧ (i.2.1 + i.2.2) * f + u < 2 ^ m.width * u) →
    (results (denonDecoder t m tbl) (fun c => c)
        ((true, g) :: clocked u f phase t0 (series (fun i => i.2) items))).map said =
      some (oks (items.map fun i => { bits := (i.1.1.setWidth 47).setWidth 64 }))

/-- A frame within `j` percent (periods not too short) is read right at every phase. -/
def DenonParses (tbl : PulseSpans) (f j : Nat) : Prop :=
  ∀ (phase : Nat) (w : BitVec 48) (xs : List Nat),
    NearPeriods tens j (denonPeriods w) (xs.map halves) → (∀ x ∈ xs, x ≤ 50000000 ∧ (100 - j) * 800 ≤ x) →
    denonParse 0 ((measured tens f phase 0 (xs ++ [rest])).map tbl.get) =
      [.ok (some { bits := (w.setWidth 47).setWidth 64 })]

/-- What hearing one frame means. -/
theorem denon_heard_parse {t : Target} {m : Mono} (hm : m = Mono.u32 ∨ m = Mono.u64) {f : Nat}
    (hf : f < 2 ^ 32) {tbl : PulseSpans} {g : Nat} (hg1 : g < 2 ^ m.width) (hg2 : tbl.get g ≠ some 0)
    (phase : Nat) (w : BitVec 48) (xs : List Nat) (hle : ∀ x ∈ xs, x ≤ 50000000)
    (hear : (results (denonDecoder t m tbl) (fun c => c)
      ((true, g) :: clocked tens f phase 0 (pulses ((xs ++ [rest]).map halves)))).map said = some [.ok (some { bits := (w.setWidth 47).setWidth 64 })]) :
    denonParse 0 ((measured tens f phase 0 (xs ++ [rest])).map tbl.get) =
      [.ok (some { bits := (w.setWidth 47).setWidth 64 })] := by
  have h32 : 32 ≤ m.width := by rcases hm with rfl | rfl <;> decide
  rw [Option.map_eq_some_iff] at hear
  obtain ⟨outs, ho, hsaid⟩ := hear
  rw [C67_denon t m (Mono.prim_lawful hm) tbl _ _ outs ho,
    symbols_clocked m.width tbl tens f phase 0 g _ hg1, res_map_id, List.map_id] at hsaid
  · rw [denonParse, if_neg hg2] at hsaid
    exact hsaid
  · refine measured_lt hf h32 phase _ (fun x hx => ?_) 0
    rw [List.mem_append, List.mem_singleton] at hx
    rcases hx with hx | rfl
    · exact hle x hx
    · decide

theorem denon_one (w : BitVec 48) (xs : List Nat) :
    series (fun i : BitVec 48 × List (Nat × Nat) => i.2)
      [((w, xs.map halves), halves rest)] = pulses ((xs ++ [rest]).map halves) := by
  unfold series
  congr 1
  simp

/-- What hearing everything means for one frame. -/
theorem denon_hears_parse {t : Target} {m : Mono} (hm : m = Mono.u32 ∨ m = Mono.u64) {f : Nat} (hlo : 20000 ≤ f)
    (hf : f < 2 ^ 32) {tbl : PulseSpans} (htbl : denonSpans t m f = some tbl) {j : Nat} (hear : DenonHears t m tbl f j) :
    DenonParses tbl f j := by
  intro phase w xs hx hle
  have h32 : 32 ≤ m.width := by rcases hm with rfl | rfl <;> decide
  obtain ⟨hg1, hg2⟩ := kind_rest hm hlo hf .denon htbl 0 0 0 (by decide)
  generalize reading tens f 0 (0 + rest) - reading tens f 0 0 = g at hg1 hg2
  have hin : ¬ InTol tbl 0 g := fun h =>
    hg2 (inTol_get ((C14_classification_unambiguous f hlo hf t m hm).2.2.2.2.2.2.2 tbl htbl) (by decide) h)
  have hres := hear tens phase 0 g [((w, xs.map halves), halves rest)] (by decide)
    ⟨by simpa using hg1, by simpa using hin⟩ (by
      intro i hi
      rw [List.mem_singleton] at hi
      subst hi
      exact ⟨hx, rest_ok hf h32⟩)
  rw [denon_one] at hres
  exact denon_heard_parse hm hf hg1 hg2 phase w xs (fun x hx => (hle x hx).1) hres

theorem denon_right {t : Target} {m : Mono} (hm : m = Mono.u32 ∨ m = Mono.u64) {f : Nat} (hlo : 20000 ≤ f)
    (hf : f < 2 ^ 32) {tbl : PulseSpans} (htbl : denonSpans t m f = some tbl) {j : Nat} (hj : j ≤ 100)
    (hear : DenonParses tbl f j) (w : BitVec 48) (i s l : Nat) (hi : (denonPeriods w)[i]? = some l)
    (hs : i = 0 ∧ s = 0 ∨ 1 ≤ i ∧ i ≤ 47 ∧ s = if w.getLsbD (i - 1) then 2 else 1) :
    covers tbl f j s l = true := by
  refine Classical.byContradiction fun hn => ?_
  obtain ⟨xs, phase, hx, hlen, hle, d, hd, hmis⟩ := misread_at (Bool.eq_false_iff.mpr hn) hj hi (by
    intro l hl
    simp only [denonPeriods, List.mem_append, List.mem_map, List.mem_singleton] at hl
    rcases hl with rfl | ⟨_, -, rfl⟩
    · decide
    · split <;> decide)
  have hp := hear phase w xs hx hle
  rw [measured_append, List.map_append, measured, measured, List.map_cons, List.map_nil] at hp
  have hl49 : (denonPeriods w).length = 49 := by simp [denonPeriods]
  have hg : ((measured tens f phase 0 xs).map tbl.get)[i]? = some (tbl.get d) := by rw [List.getElem?_map, hd]; rfl
  have hml : ((measured tens f phase 0 xs).map tbl.get).length = 49 := by
    rw [List.length_map, measured_length, hlen, hl49]
  generalize (measured tens f phase 0 xs).map tbl.get = ss at hp hg hml
  rcases ss with _ | ⟨s0, ss⟩
  · simp at hml
  obtain ⟨h0, hb⟩ := denon_heard s0 _ ss (by simpa using hml)
    ⟨(kind_rest hm hlo hf .denon htbl phase _ 1 (by decide)).2,
      (kind_rest hm hlo hf .denon htbl phase _ 2 (by decide)).2⟩ _ hp
  rcases hs with ⟨rfl, rfl⟩ | ⟨hi1, hi2, rfl⟩
  · rw [List.getElem?_cons_zero, h0, Option.some.injEq] at hg
    exact hmis hg.symm
  · obtain ⟨k, rfl⟩ : ∃ k, i = k + 1 := ⟨i - 1, by omega⟩
    have hk : ((w.setWidth 47).setWidth 64).getLsbD k = w.getLsbD k := by
      rw [BitVec.getLsbD_setWidth, BitVec.getLsbD_setWidth]
      simp only [show k < 64 by omega, show k < 47 by omega, decide_true, Bool.true_and]
    rw [List.getElem?_cons_succ, hb k (by omega), Option.some.injEq] at hg
    dsimp only at hg
    rw [hk] at hg
    exact hmis hg.symm

theorem denonHears_mono {t : Target} {m : Mono} {tbl : PulseSpans} {f j j' : Nat} (hj : j ≤ j')
    (h : DenonHears t m tbl f j') : DenonHears t m tbl f j := fun u phase t0 g items hu hg hok =>
  h u phase t0 g items hu hg fun i hi => ⟨nearPeriods_mono hj (hok i hi).1, (hok i hi).2⟩

theorem denon_hears_covers {t : Target} {m : Mono} (hm : m = Mono.u32 ∨ m = Mono.u64) {f : Nat} (hlo : 20000 ≤ f)
    (hf : f < 2 ^ 32) {tbl : PulseSpans} (htbl : denonSpans t m f = some tbl) {j : Nat} (hj : j ≤ 100)
    (hear : DenonParses tbl f j) : coversAll tbl f j denonLengths = true := by
  have key := denon_right hm hlo hf htbl hj hear 2#48
  have h0 := key 0 0 5000 rfl (.inl ⟨rfl, rfl⟩)
  have h1 := key 1 1 840 rfl (.inr ⟨by decide, by decide, rfl⟩)
  have h2 := key 2 2 1680 rfl (.inr ⟨by decide, by decide, rfl⟩)
  unfold coversAll denonLengths
  simp only [List.zipIdx_cons, List.zipIdx_nil, List.all_cons, List.all_nil, Bool.and_true, Bool.and_eq_true]
  exact ⟨h0, h1, h2⟩

/-- **C81**, Denon (first 47 bits). -/
theorem C81_denon (t : Target) (m : Mono) (hm : m = Mono.u32 ∨ m = Mono.u64) (f : Nat) (hlo : 20000 ≤ f)
    (hf : f < 2 ^ 32) (tbl : PulseSpans) (htbl : denonSpans t m f = some tbl) (j : Nat) :
    DenonHears t m tbl f j ↔ coversAll tbl f j denonLengths = true := by
  constructor
  · intro hear
    by_cases hj : j ≤ 100
    · exact denon_hears_covers hm hlo hf htbl hj (denon_hears_parse hm hlo hf htbl hear)
    · have h100 := denon_hears_covers hm hlo hf htbl (Nat.le_refl 100)
        (denon_hears_parse hm hlo hf htbl (denonHears_mono (by omega) hear))
      exact absurd (not_covers_100 ((C14_classification_unambiguous f hlo hf t m hm).2.2.2.2.2.2.2 tbl htbl) (s := 1) (s' := 2) (by decide)
        (by decide) (by decide) (coversAll_get h100 rfl) (coversAll_get h100 rfl)) id
  · intro hc u phase t0 g items hu hg hok
    exact C78_denon t f j hlo hf m hm tbl htbl hc (fun c => c) u hu phase t0 g hg items hok

end Infrared
