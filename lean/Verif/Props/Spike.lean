import Verif.Spec.Spike
import Verif.Props.Broken
import Verif.Props.SpacingBi

/-!
# Transmissions disturbed by a spike (C93)
-/

namespace Infrared

open Spec

variable {C K : Type}

/-! ## Series -/

theorem tells_parse {S St R : Type} {tbl : PulseSpans} {u f phase : Nat} (P : St → List (Option Nat) → List R)
    (step : St → S → List R → St → Prop) (hnil : ∀ st, P st [] = [])
    (items : List ((S × List (Nat × Nat)) × (Nat × Nat)))
    (h : ∀ i ∈ items, ∀ t st, ∃ r st', step st i.1.1 r st' ∧ ∀ ss,
      P st ((clockedPulses u f phase t (i.1.2 ++ [i.2])).map (fun p => tbl.get (p.1 + p.2)) ++ ss) = r ++ P st' ss) :
    ∀ t st, Tells step st (items.map fun i => i.1.1)
      (P st ((clockedPulses u f phase t (allPulses items)).map fun p => tbl.get (p.1 + p.2))) := by
  induction items with
  | nil =>
    intro t st
    rw [allPulses, List.flatMap_nil, clockedPulses, List.map_nil, List.map_nil, hnil]
    exact .nil st
  | cons i items ih =>
    intro t st
    obtain ⟨r, st', h1, h2⟩ := h i (by simp) t st
    rw [allPulses, List.flatMap_cons, clockedPulses_append, List.map_append, h2]
    exact .cons h1 (ih (fun j hj => h j (by simp [hj])) _ st')

theorem all_small {S : Type} {u f phase w : Nat} {items : List ((S × List (Nat × Nat)) × (Nat × Nat))}
    (h : ∀ i ∈ items, ∀ t, ∀ q ∈ clockedPulses u f phase t (i.1.2 ++ [i.2]), q.1 + q.2 < 2 ^ w) (t : Nat) :
    ∀ q ∈ clockedPulses u f phase t (allPulses items), q.1 + q.2 < 2 ^ w := by
  induction items generalizing t with
  | nil => simp [clockedPulses]
  | cons i items ih =>
    intro q hq
    rw [allPulses, List.flatMap_cons, clockedPulses_append, List.mem_append] at hq
    rcases hq with hq | hq
    · exact h i (by simp) t q hq
    · exact ih (fun j hj => h j (by simp [hj])) _ q hq

/-- What is measured of a transmission with a divided period. -/
theorem divided_symbols {tbl : PulseSpans} {n u f phase width : Nat} (hun : Unambiguous tbl n)
    (hfit : Fits tbl width) {slots : List Nat} (hs : ∀ x ∈ slots, x < n) {whole ps : List (Nat × Nat)} {k : Nat}
    {p q : Nat × Nat} (hm : ∀ t, Matches tbl slots (clockedPulses u f phase t whole)) (hd : Divided whole k p q ps) (t : Nat) :
    ∃ a b s t1, slots[k]? = some s ∧ tbl.get (a + b) = some s ∧
      a = reading u f phase (t1 + (p.1 + p.2)) - reading u f phase t1 ∧
      b = reading u f phase (t1 + (p.1 + p.2) + (q.1 + q.2)) - reading u f phase (t1 + (p.1 + p.2)) ∧
      (clockedPulses u f phase t ps).map (fun p => tbl.get (p.1 + p.2)) =
        (slots.take k).map some ++ tbl.get a :: tbl.get b :: (slots.drop (k + 1)).map some ∧
      ∀ x ∈ clockedPulses u f phase t ps, x.1 + x.2 < 2 ^ width := by
  obtain ⟨⟨x, hx, hsum⟩, rfl⟩ := hd
  obtain ⟨p1, p2⟩ := p
  obtain ⟨q1, q2⟩ := q
  obtain ⟨x1, x2⟩ := x
  dsimp only at hsum ⊢
  have hk := (List.getElem?_eq_some_iff.mp hx).1
  have hwhole : whole = whole.take k ++ (x1, x2) :: whole.drop (k + 1) := by
    conv_lhs => rw [← List.take_append_drop k whole, List.drop_eq_getElem_cons hk]
    rw [(List.getElem?_eq_some_iff.mp hx).2]
  have hlen := (hm t).1
  rw [clockedPulses_length] at hlen
  have hsym := matches_symbols hun hs (hm t)
  have hall : ∀ y ∈ clockedPulses u f phase t whole, y.1 + y.2 < 2 ^ width := by
    intro y hy
    obtain ⟨i, hi⟩ := List.mem_iff_getElem?.mp hy
    have hlt := (List.getElem?_eq_some_iff.mp hi).1
    rw [(hm t).1] at hlt
    exact inTol_lt hfit ((hm t).2 i y _ hi (List.getElem?_eq_getElem hlt))
  have htk : (whole.take k).length = k := by rw [List.length_take]; omega
  have hw2 : clockedPulses u f phase t whole = clockedPulses u f phase t (whole.take k) ++
      (reading u f phase (t + span (whole.take k) + x1) - reading u f phase (t + span (whole.take k)),
        reading u f phase (t + span (whole.take k) + x1 + x2) - reading u f phase (t + span (whole.take k) + x1)) ::
      clockedPulses u f phase (t + span (whole.take k) + x1 + x2) (whole.drop (k + 1)) := by
    conv_lhs => rw [hwhole, clockedPulses_append, clockedPulses]
  have hp2 : clockedPulses u f phase t (whole.take k ++ (p1, p2) :: (q1, q2) :: whole.drop (k + 1)) =
      clockedPulses u f phase t (whole.take k) ++
      (reading u f phase (t + span (whole.take k) + p1) - reading u f phase (t + span (whole.take k)),
        reading u f phase (t + span (whole.take k) + p1 + p2) - reading u f phase (t + span (whole.take k) + p1)) ::
      (reading u f phase (t + span (whole.take k) + p1 + p2 + q1) - reading u f phase (t + span (whole.take k) + p1 + p2),
        reading u f phase (t + span (whole.take k) + p1 + p2 + q1 + q2) -
          reading u f phase (t + span (whole.take k) + p1 + p2 + q1)) ::
      clockedPulses u f phase (t + span (whole.take k) + x1 + x2) (whole.drop (k + 1)) := by
    rw [clockedPulses_append, clockedPulses, clockedPulses]
    rw [show t + span (whole.take k) + p1 + p2 + q1 + q2 = t + span (whole.take k) + x1 + x2 by omega]
  generalize t + span (whole.take k) = t1 at hw2 hp2
  rw [hw2, List.map_append, List.map_cons] at hsym
  have hA : (clockedPulses u f phase t (whole.take k)).length = k := by rw [clockedPulses_length, htk]
  have hks : k < slots.length := by omega
  have hslots : slots.map some = (slots.take k).map some ++ some slots[k] :: (slots.drop (k + 1)).map some := by
    conv_lhs => rw [← List.take_append_drop k slots, List.drop_eq_getElem_cons hks]
    rw [List.map_append, List.map_cons]
  rw [hslots] at hsym
  obtain ⟨hs1, hs2⟩ := List.append_inj hsym (by rw [List.length_map, hA, List.length_map, List.length_take]; omega)
  rw [List.cons.injEq] at hs2
  have m1 := reading_mono u f phase t1 p1
  have m2 := reading_mono u f phase (t1 + p1) p2
  have m3 := reading_mono u f phase (t1 + p1 + p2) q1
  have m4 := reading_mono u f phase (t1 + p1 + p2 + q1) q2
  have m5 := reading_mono u f phase t1 x1
  have m6 := reading_mono u f phase (t1 + x1) x2
  have he : t1 + p1 + p2 + q1 + q2 = t1 + x1 + x2 := by omega
  have hX := hall _ (by rw [hw2]; exact List.mem_append_right _ (List.mem_cons_self ..))
  dsimp only at hX
  refine ⟨_, _, slots[k], t1, List.getElem?_eq_getElem hks, ?_, rfl, rfl, ?_, ?_⟩
  · rw [← hs2.1]
    congr 1
    rw [← Nat.add_assoc, ← Nat.add_assoc]
    dsimp only
    rw [he] at m4 ⊢
    omega
  · rw [hp2, List.map_append, List.map_cons, List.map_cons, hs1, hs2.2]
    congr 2
    · congr 1
      rw [← Nat.add_assoc]; omega
    · congr 2
      rw [← Nat.add_assoc, ← Nat.add_assoc]; omega
  · intro y hy
    rw [hp2, List.mem_append, List.mem_cons, List.mem_cons] at hy
    rcases hy with hy | rfl | rfl | hy
    · exact hall y (by rw [hw2]; exact List.mem_append_left _ hy)
    · dsimp only
      rw [he] at m4
      omega
    · dsimp only
      rw [he] at m4 ⊢
      omega
    · exact hall y (by rw [hw2]; exact List.mem_append_right _ (List.mem_cons_of_mem _ hy))

/-! ## NEC family -/

theorem necParse_bits (unpack : BitVec 32 → Bool → Option C) (last : BitVec 32) (bs : List Bool) (ss : List (Option Nat)) :
    necParse unpack last (bs.map bitSym ++ ss) = necParse unpack last ss := by
  induction bs with
  | nil => rfl
  | cons b bs ih =>
    rw [List.map_cons, List.cons_append, necParse_skip _ _ _ _ (bitSym_quiet b).1 (bitSym_quiet b).2, ih]

theorem slip_bits (w : BitVec 32) (k : Nat) (hk : k < 32) :
    wordOf 32 ((((List.range 32).map w.getLsbD).take k ++ false :: false ::
      ((List.range 32).map w.getLsbD).drop (k + 1)).take 32) = slip k w := by
  refine BitVec.eq_of_getLsbD_eq fun i hi => ?_
  rw [wordOf_getLsbD _ _ _ hi, List.getElem?_take, if_pos hi, slip, BitVec.getLsbD_or, firstBits,
    BitVec.getLsbD_setWidth, BitVec.getLsbD_setWidth, BitVec.getLsbD_shiftLeft, BitVec.getLsbD_ushiftRight]
  have hl : (((List.range 32).map w.getLsbD).take k).length = k := by simp; omega
  by_cases h1 : i < k
  · rw [List.getElem?_append_left (by omega), List.getElem?_take, if_pos h1, List.getElem?_map, List.getElem?_range hi]
    simp [hi, h1, show i < k + 2 by omega]
  · rw [List.getElem?_append_right (by omega), hl]
    obtain ⟨j, rfl⟩ : ∃ j, i = k + j := ⟨i - k, by omega⟩
    rw [show k + j - k = j by omega]
    rcases j with _ | _ | j
    · simp
    · simp
    · rw [List.getElem?_cons_succ, List.getElem?_cons_succ, List.getElem?_drop, List.getElem?_map,
        List.getElem?_range (by omega)]
      simp [show ¬ k + (j + 1 + 1) < k by omega, show ¬ k + (j + 1 + 1) < k + 2 by omega, hi,
        show k + 1 + (k + (j + 1 + 1) - (k + 2)) = k + 1 + j by omega]

theorem wordOf_false {n : Nat} (bs : List Bool) : wordOf n (bs ++ [false]) = wordOf n bs := by
  refine BitVec.eq_of_getLsbD_eq fun i hi => ?_
  rw [wordOf_getLsbD _ _ _ hi, wordOf_getLsbD _ _ _ hi]
  by_cases h : i < bs.length
  · rw [List.getElem?_append_left h]
  · rw [List.getElem?_append_right (by omega), List.getElem?_eq_none (l := bs) (by omega)]
    rcases i - bs.length with _ | j <;> simp

theorem take_bits {n : Nat} (w : BitVec n) {k : Nat} (hk : k < n) :
    ((List.range n).map w.getLsbD).take (k + 1) = ((List.range n).map w.getLsbD).take k ++ [w.getLsbD k] := by
  rw [List.take_add_one, List.getElem?_map, List.getElem?_range hk]
  rfl

/-- The parser on a frame with two symbols in the place of the last bit. -/
theorem spiked_last (unpack : BitVec 32 → Bool → Option C) (last w : BitVec 32) (a b d : Option Nat)
    (hb0 : b ≠ some 0) (hb1 : b ≠ some 1) (ha : a = some 3 → w.getLsbD 31 = true)
    (hd : ∀ x, x < 4 → d ≠ some x) (ss : List (Option Nat)) :
    (a ≠ some 2 ∧ a ≠ some 3 ∧ necParse unpack last (((necSlots w).take 32).map some ++ a :: b :: ((necSlots w).drop 33).map some ++ d :: ss) =
          .error .data :: necParse unpack (firstBits 31 w) ss) ∨
      ∃ w', (w' = w ∧ a = some 3 ∨ w' = slip 31 w ∧ a = some 2) ∧
        necParse unpack last (((necSlots w).take 32).map some ++ a :: b :: ((necSlots w).drop 33).map some ++ d :: ss) =
          oks (unpack w' false).toList ++ necParse unpack w' ss := by
  have e1 : ((necSlots w).take 32).map some = some 0 :: (((List.range 32).map w.getLsbD).take 31).map bitSym := by
    rw [necSlots, List.take_succ_cons, List.map_cons, ← List.map_take, ← List.map_take, List.map_map, List.map_map]
    rfl
  have e2 : ((necSlots w).drop 33).map some = [] := by simp [necSlots]
  rw [e1, e2]
  simp only [List.cons_append, List.append_assoc, List.nil_append]
  by_cases h1 : a = some 2 ∨ a = some 3
  · refine .inr ?_
    obtain ⟨c, rfl, hc⟩ : ∃ c, a = bitSym c ∧ (c = true → w.getLsbD 31 = true) := by
      rcases h1 with rfl | rfl
      · exact ⟨false, rfl, fun h => by cases h⟩
      · exact ⟨true, rfl, fun _ => ha rfl⟩
    have e5 : (((List.range 32).map w.getLsbD).take 31).map bitSym ++ bitSym c :: b :: d :: ss =
        (((List.range 32).map w.getLsbD).take 31 ++ [c]).map bitSym ++ b :: d :: ss := by simp
    rw [e5, parse_frame _ _ _ (by simp), necParse_skip _ _ _ _ hb0 hb1,
      necParse_skip _ _ _ _ (hd 0 (by decide)) (hd 1 (by decide))]
    refine ⟨_, ?_, rfl⟩
    cases c with
    | false =>
      refine .inr ⟨?_, rfl⟩
      rw [wordOf_false, wordOf_take, slip]
      simp
    | true =>
      refine .inl ⟨?_, rfl⟩
      rw [← hc rfl, ← take_bits w (by decide), wordOf_take, firstBits_all w (by decide)]
  · simp only [not_or] at h1
    refine .inl ⟨h1.1, h1.2, ?_⟩
    rw [parse_broken _ _ _ (by simp) _ h1.1 h1.2, wordOf_take, necParse_skip _ _ _ _ hb0 hb1,
      necParse_skip _ _ _ _ (hd 0 (by decide)) (hd 1 (by decide))]

/-- The parser on a frame with two symbols in the place of bit `k`. -/
theorem spiked_step (unpack : BitVec 32 → Bool → Option C) (last w : BitVec 32) (k : Nat) (hk : k < 31) (a b d : Option Nat)
    (hb0 : b ≠ some 0) (hb1 : b ≠ some 1) (ha : a = some 3 → w.getLsbD k = true)
    (hab : (a = some 2 ∨ a = some 3) → (b = some 2 ∨ b = some 3) → a = some 2 ∧ b = some 2 ∧ w.getLsbD k = true)
    (hd : ∀ x, x < 4 → d ≠ some x) :
    (¬ (a = some 2 ∧ b = some 2) ∧ ∃ n, (n = k ∨ n = k + 1) ∧ ∀ ss,
        necParse unpack last (((necSlots w).take (k + 1)).map some ++ a :: b :: ((necSlots w).drop (k + 2)).map some ++ d :: ss) =
          .error .data :: necParse unpack (firstBits n w) ss) ∨
      (a = some 2 ∧ b = some 2 ∧ w.getLsbD k = true ∧ ∀ ss,
        necParse unpack last (((necSlots w).take (k + 1)).map some ++ a :: b :: ((necSlots w).drop (k + 2)).map some ++ d :: ss) =
          oks (unpack (slip k w) false).toList ++ necParse unpack (slip k w) ss) := by
  have e1 : ((necSlots w).take (k + 1)).map some = some 0 :: (((List.range 32).map w.getLsbD).take k).map bitSym := by
    rw [necSlots, List.take_succ_cons, List.map_cons, ← List.map_take, ← List.map_take, List.map_map, List.map_map]
    rfl
  have e2 : ((necSlots w).drop (k + 2)).map some = (((List.range 32).map w.getLsbD).drop (k + 1)).map bitSym := by
    rw [necSlots, List.drop_succ_cons, ← List.map_drop, ← List.map_drop, List.map_map, List.map_map]
    rfl
  have hl : (((List.range 32).map w.getLsbD).take k).length = k := by simp; omega
  simp only [e1, e2, List.cons_append, List.append_assoc]
  by_cases h1 : a = some 2 ∨ a = some 3
  · by_cases h2 : b = some 2 ∨ b = some 3
    · obtain ⟨rfl, rfl, hw⟩ := hab h1 h2
      refine .inr ⟨rfl, rfl, hw, fun ss => ?_⟩
      have e3 : ((List.range 32).map w.getLsbD).take k ++ false :: false :: ((List.range 32).map w.getLsbD).drop (k + 1) =
          (((List.range 32).map w.getLsbD).take k ++ false :: false :: ((List.range 32).map w.getLsbD).drop (k + 1)).take 32 ++
          (((List.range 32).map w.getLsbD).take k ++ false :: false :: ((List.range 32).map w.getLsbD).drop (k + 1)).drop 32 :=
        (List.take_append_drop 32 _).symm
      have e4 : (((List.range 32).map w.getLsbD).take k).map bitSym ++ some 2 :: some 2 ::
            ((((List.range 32).map w.getLsbD).drop (k + 1)).map bitSym ++ d :: ss) =
          (((List.range 32).map w.getLsbD).take k ++ false :: false :: ((List.range 32).map w.getLsbD).drop (k + 1)).map bitSym ++
            d :: ss := by
        rw [List.map_append, List.map_cons, List.map_cons, List.append_assoc]
        rfl
      rw [e4, e3, List.map_append, List.append_assoc, parse_frame _ _ _ (by simp; omega), slip_bits w k (by omega), necParse_bits,
        necParse_skip _ _ _ _ (hd 0 (by decide)) (hd 1 (by decide))]
    · refine .inl ⟨fun h => h2 (.inl h.2), ?_⟩
      simp only [not_or] at h2
      obtain ⟨c, rfl, hc⟩ : ∃ c, a = bitSym c ∧ (c = true → w.getLsbD k = true) := by
        rcases h1 with rfl | rfl
        · exact ⟨false, rfl, fun h => by cases h⟩
        · exact ⟨true, rfl, fun _ => ha rfl⟩
      have e5 : ∀ ss, (((List.range 32).map w.getLsbD).take k).map bitSym ++ bitSym c :: b ::
            ((((List.range 32).map w.getLsbD).drop (k + 1)).map bitSym ++ d :: ss) =
          (((List.range 32).map w.getLsbD).take k ++ [c]).map bitSym ++ b ::
            ((((List.range 32).map w.getLsbD).drop (k + 1)).map bitSym ++ d :: ss) := fun ss => by simp
      have e6 : ∀ ss, necParse unpack last (some 0 :: ((((List.range 32).map w.getLsbD).take k).map bitSym ++ bitSym c :: b ::
            ((((List.range 32).map w.getLsbD).drop (k + 1)).map bitSym ++ d :: ss))) =
          .error .data :: necParse unpack (wordOf 32 (((List.range 32).map w.getLsbD).take k ++ [c])) ss := fun ss => by
        rw [e5, parse_broken _ _ _ (by simp; omega) _ h2.1 h2.2, necParse_bits,
          necParse_skip _ _ _ _ (hd 0 (by decide)) (hd 1 (by decide))]
      cases c with
      | false => exact ⟨k, .inl rfl, fun ss => by rw [e6, wordOf_false, wordOf_take]⟩
      | true => exact ⟨k + 1, .inr rfl, fun ss => by rw [e6, ← wordOf_take, take_bits w (by omega), hc rfl]⟩
  · simp only [not_or] at h1
    refine .inl ⟨fun h => h1.1 h.1, k, .inl rfl, fun ss => ?_⟩
    rw [parse_broken _ _ _ (by omega) _ h1.1 h1.2, wordOf_take, necParse_skip _ _ _ _ hb0 hb1, necParse_bits,
      necParse_skip _ _ _ _ (hd 0 (by decide)) (hd 1 (by decide))]

/-- Less than 700 µs is never measured as 799 µs. -/
theorem short_ticks {u f phase t x us lim : Nat} (hu : 0 < u) (hlo : 20000 ≤ f) (hx : 1000000 * x ≤ us * u)
    (hus : us + 50 < lim) : ¬ lim * f ≤ 1000000 * (reading u f phase (t + x) - reading u f phase t) := by
  intro h
  have h1 := (reading_bounds hu f phase t x).1
  have h2 : u * (lim * f) ≤ u * (1000000 * (reading u f phase (t + x) - reading u f phase t)) := Nat.mul_le_mul_left u h
  rw [Nat.mul_left_comm u 1000000] at h2
  have h3 : 1000000 * (x * f) ≤ us * u * f := by
    rw [← Nat.mul_assoc]; exact Nat.mul_le_mul_right f hx
  have h4 : u * (20000 * 50) ≤ u * (f * 50) := Nat.mul_le_mul_left u (Nat.mul_le_mul_right 50 hlo)
  have h5 : us * u * f + u * (f * 50) = u * ((us + 50) * f) := by
    rw [Nat.add_mul, Nat.mul_add, Nat.mul_comm us u, Nat.mul_assoc, Nat.mul_comm f 50]
  have h6 : u * ((us + 50) * f) < u * (lim * f) :=
    Nat.mul_lt_mul_of_pos_left ((Nat.mul_lt_mul_right (by omega)).mpr hus) hu
  omega

/-- The windows of NEC-like tables. -/
structure NecHigh (tbl : PulseSpans) (f : Nat) : Prop where
  zero : ∀ d, tbl.get d = some 2 → 1000000 * d ≤ 1400 * f
  one : ∀ d, tbl.get d = some 3 → 1000000 * d ≤ 2520 * f ∧ 1929 * f ≤ 1000000 * d

theorem nec_windows {t : Target} {m : Mono} (hm : m = Mono.u32 ∨ m = Mono.u64) {f : Nat} (hlo : 20000 ≤ f) (hf : f < 2 ^ 32)
    {v : NecVariant C} (hv : v.Shipped) {tbl : PulseSpans} (htbl : necSpans t m v f = some tbl) :
    NecHigh tbl f ∧ NecLow tbl f 8296 6210 := by
  have key : ∀ k : Kind, k.symbols[2]? = some (1120, 25) → k.symbols[3]? = some (2250, 12) → k.build t m f = some tbl →
      NecHigh tbl f := by
    intro k h2 h3 hb
    refine ⟨fun d h => ?_, fun d h => ?_⟩
    · have := ((C52_rejects k t m hm f hf tbl hb 2 d (get_inTol h)).1 _ _ h2).1
      omega
    · have := (C52_rejects k t m hm f hf tbl hb 3 d (get_inTol h)).1 _ _ h3
      omega
  rcases hv with hv | hv
  · have hb : Kind.nec.build t m f = some tbl := by
      rw [← htbl]; simp only [Kind.build, necSpans, hv]; rfl
    refine ⟨key .nec rfl rfl hb, ?_⟩
    obtain ⟨h1, h2, h3, h4⟩ := nec_low hm hlo hf hb
    exact ⟨fun d h => by have := h1 d h; omega, fun d h => by have := h2 d h; omega, h3, h4⟩
  · have hb : Kind.samsung.build t m f = some tbl := by
      rw [← htbl]; simp only [Kind.build, necSpans, hv]; rfl
    exact ⟨key .samsung rfl rfl hb, samsung_low hm hlo hf hb⟩

/-- One transmission, as it is heard. -/
theorem nec_spiked_one (t : Target) (f j : Nat) (hlo : 20000 ≤ f) (hf : f < 2 ^ 32) (v : NecVariant C)
    (hv : v.Shipped) (m : Mono) (hm : m = Mono.u32 ∨ m = Mono.u64) (tbl : PulseSpans)
    (htbl : necSpans t m v f = some tbl) (hc : coversAll tbl f j (necLengths v) = true) (u : Nat)
    (hu : 0 < u) (phase : Nat)
    (s : NecSpiked) (ps : List (Nat × Nat)) (pz : Nat × Nat)
    (h1 : s.Wire u j (v.pulseDistance.headerHigh + v.pulseDistance.headerLow)
      (v.pulseDistance.headerHigh + v.pulseDistance.repeatLow) ps)
    (h2 : 16000 * u ≤ 1000000 * (pz.1 + pz.2)) (h3 : (pz.1 + pz.2) * f + u < 2 ^ m.width * u) (t1 : Nat) :
    (∀ q ∈ clockedPulses u f phase t1 (ps ++ [pz]), q.1 + q.2 < 2 ^ m.width) ∧
      ∀ st : BitVec 32, ∃ r st', necSpikedAnswer v.unpack st s r st' ∧ ∀ ss,
        necParse v.unpack st ((clockedPulses u f phase t1 (ps ++ [pz])).map (fun p => tbl.get (p.1 + p.2)) ++ ss) =
          r ++ necParse v.unpack st' ss := by
  obtain ⟨hun, hfit⟩ := necSpans_good hm t hlo hf v hv htbl
  obtain ⟨⟨hi2, hi3⟩, ⟨lo0, lo1, lo2, -⟩⟩ := nec_windows hm hlo hf hv htbl
  obtain ⟨k, hk, he⟩ := nec_kind v hv
  have hb := htbl
  rw [he] at hb
  have hkn : ∀ x ∈ List.range 4, x < k.symbols.length := by
    rcases hk with ⟨rfl, -⟩ | ⟨rfl, -⟩ <;> decide
  have hM : ∀ s l, (necLengths v)[s]? = some l → Measures tbl u f phase j s l :=
    fun _ _ hs => measures_of_covers hu (coversAll_get hc hs)
  have hpz := prim_pause hm hf hlo hu k hb (phase := phase) (List.range 4) hkn pz h2 h3 (t1 + span ps)
  obtain ⟨z1, z2⟩ := pz
  have hcl : clockedPulses u f phase t1 (ps ++ [(z1, z2)]) = clockedPulses u f phase t1 ps ++
      [(reading u f phase (t1 + span ps + z1) - reading u f phase (t1 + span ps),
        reading u f phase (t1 + span ps + z1 + z2) - reading u f phase (t1 + span ps + z1))] := by
    rw [clockedPulses_append]; rfl
  dsimp only at hpz
  generalize (reading u f phase (t1 + span ps + z1) - reading u f phase (t1 + span ps),
        reading u f phase (t1 + span ps + z1 + z2) - reading u f phase (t1 + span ps + z1)) = z at hcl hpz
  have hd : ∀ x, x < 4 → tbl.get (z.1 + z.2) ≠ some x :=
    fun x hx h => hpz.2 x (List.mem_range.mpr hx) (get_inTol h)
  rw [hcl]
  simp only [List.map_append, List.map_cons, List.map_nil, List.append_assoc, List.cons_append, List.nil_append,
    List.mem_append, List.mem_singleton]
  cases s with
  | clean s =>
    have hmt : Matches tbl s.slots (clockedPulses u f phase t1 ps) :=
      matches_of_measures (by cases s <;> simp [NecSent.periods, NecSent.slots, necPeriods, necSlots])
        (fun i l x => nec_lengths_ok hM s i l x) h1 t1
    refine ⟨?_, fun st => ⟨_, _, .clean s, fun ss => ?_⟩⟩
    · rintro q (hq | rfl)
      · obtain ⟨i, hi⟩ := List.mem_iff_getElem?.mp hq
        have hlt := (List.getElem?_eq_some_iff.mp hi).1
        rw [hmt.1] at hlt
        exact inTol_lt hfit (hmt.2 i q _ hi (List.getElem?_eq_getElem hlt))
      · exact hpz.1
    · rw [matches_symbols hun s.slots_lt hmt, nec_step _ _ _ _ _ hd]
  | spiked w kb place =>
    obtain ⟨hkb, whole, p, q, hnear, hdiv, hparts⟩ := h1
    have hmt : ∀ t', Matches tbl (necSlots w) (clockedPulses u f phase t' whole) := fun t' => by
      have := matches_of_measures (tbl := tbl) (u := u) (f := f) (phase := phase) (j := j)
        (us := (NecSent.frame w 33).periods (v.pulseDistance.headerHigh + v.pulseDistance.headerLow)
          (v.pulseDistance.headerHigh + v.pulseDistance.repeatLow)) (slots := (NecSent.frame w 33).slots)
        (by simp [NecSent.periods, NecSent.slots, necPeriods, necSlots])
        (fun i l x => nec_lengths_ok hM (.frame w 33) i l x) (ps := whole)
      rw [NecSent.periods, NecSent.slots, List.take_of_length_le (by simp [necPeriods]),
        List.take_of_length_le (by simp [necSlots])] at this
      exact this hnear t'
    have hslt : ∀ x ∈ necSlots w, x < 4 := by
      have := (NecSent.frame w 33).slots_lt
      rwa [NecSent.slots, List.take_of_length_le (by simp [necSlots])] at this
    obtain ⟨a, b, s, t2, hs, hab, rfl, rfl, hsym, hlt⟩ := divided_symbols (width := m.width) hun hfit hslt hmt hdiv t1
    have hs' : s = if w.getLsbD kb then 3 else 2 := by
      rw [necSlots, List.getElem?_cons_succ, List.getElem?_map, List.getElem?_range hkb, Option.map_some,
        Option.some.injEq] at hs
      exact hs.symm
    refine ⟨?_, fun st => ?_⟩
    · rintro q (hq | rfl)
      · exact hlt q hq
      · exact hpz.1
    have hside : place = .side → ¬ (tbl.get (reading u f phase (t2 + (p.1 + p.2)) - reading u f phase t2) = some 2 ∧
        tbl.get (reading u f phase (t2 + (p.1 + p.2) + (q.1 + q.2)) - reading u f phase (t2 + (p.1 + p.2))) = some 2) := by
      rintro rfl ⟨ha, hb⟩
      rcases hparts with h | h
      · exact short_ticks hu hlo h (by decide) (lo2 _ ha)
      · exact short_ticks hu hlo h (by decide) (lo2 _ hb)
    have hmid : place = .middle → tbl.get (reading u f phase (t2 + (p.1 + p.2)) - reading u f phase t2) = some 2 ∧
        tbl.get (reading u f phase (t2 + (p.1 + p.2) + (q.1 + q.2)) - reading u f phase (t2 + (p.1 + p.2))) = some 2 := by
      rintro rfl
      exact ⟨inTol_get hun (by decide) (hM 2 _ rfl _ _ hparts.1), inTol_get hun (by decide) (hM 2 _ rfl _ _ hparts.2)⟩
    rw [hsym]
    generalize reading u f phase (t2 + (p.1 + p.2)) - reading u f phase t2 = a at hab hside hmid ⊢
    generalize reading u f phase (t2 + (p.1 + p.2) + (q.1 + q.2)) - reading u f phase (t2 + (p.1 + p.2)) = b
      at hab hside hmid ⊢
    have hsum : 1000000 * (a + b) ≤ 2520 * f ∧ (w.getLsbD kb = false → 1000000 * (a + b) ≤ 1400 * f) := by
      rw [hs'] at hab
      rcases hw : w.getLsbD kb with _ | _
      · rw [hw] at hab
        have := hi2 _ hab
        exact ⟨by omega, fun _ => this⟩
      · rw [hw] at hab
        exact ⟨(hi3 _ hab).1, fun h => by cases h⟩
    have hb0 : tbl.get b ≠ some 0 := fun h => by have := lo0 b h; omega
    have hb1 : tbl.get b ≠ some 1 := fun h => by have := lo1 b h; omega
    have ha3 : tbl.get a = some 3 → w.getLsbD kb = true := fun h => by
      have := (hi3 a h).2
      rcases hw : w.getLsbD kb with _ | _
      · have := hsum.2 hw; omega
      · rfl
    have habs : (tbl.get a = some 2 ∨ tbl.get a = some 3) → (tbl.get b = some 2 ∨ tbl.get b = some 3) →
        tbl.get a = some 2 ∧ tbl.get b = some 2 ∧ w.getLsbD kb = true := by
      have ha' : (tbl.get a = some 2 ∨ tbl.get a = some 3) → 799 * f ≤ 1000000 * a := by
        rintro (h | h)
        · exact lo2 a h
        · have := (hi3 a h).2; omega
      have hb' : (tbl.get b = some 2 ∨ tbl.get b = some 3) → 799 * f ≤ 1000000 * b := by
        rintro (h | h)
        · exact lo2 b h
        · have := (hi3 b h).2; omega
      intro h1 h2
      have l1 := ha' h1
      have l2 := hb' h2
      refine ⟨h1.resolve_right fun h => ?_, h2.resolve_right fun h => ?_, ?_⟩
      · have := (hi3 a h).2; omega
      · have := (hi3 b h).2; omega
      · rcases hw : w.getLsbD kb with _ | _
        · have := hsum.2 hw; omega
        · rfl
    by_cases hk31 : kb = 31
    · subst hk31
      by_cases hm' : place = .middle
      · obtain ⟨g1, g2⟩ := hmid hm'
        have hw := (habs (.inl g1) (.inl g2)).2.2
        refine ⟨_, _, .slipped w 31 place (by rw [hm']; decide) hw, fun ss => ?_⟩
        rcases spiked_last v.unpack st w _ _ (tbl.get (z.1 + z.2)) hb0 hb1 ha3 hd ss with ⟨h, -, -⟩ | ⟨w', h | h, h'⟩
        · exact absurd g1 h
        · rw [g1] at h; simp at h
        · simpa [h.1] using h'
      · by_cases h1 : tbl.get a = some 2 ∨ tbl.get a = some 3
        · rcases h1 with h1 | h1
          · refine ⟨_, _, .final w (slip 31 w) place hm' (.inr rfl), fun ss => ?_⟩
            rcases spiked_last v.unpack st w _ _ (tbl.get (z.1 + z.2)) hb0 hb1 ha3 hd ss with ⟨h, -, -⟩ | ⟨w', h | h, h'⟩
            · exact absurd h1 h
            · rw [h1] at h; simp at h
            · simpa [h.1] using h'
          · refine ⟨_, _, .final w w place hm' (.inl rfl), fun ss => ?_⟩
            rcases spiked_last v.unpack st w _ _ (tbl.get (z.1 + z.2)) hb0 hb1 ha3 hd ss with ⟨-, h, -⟩ | ⟨w', h | h, h'⟩
            · exact absurd h1 h
            · simpa [h.1] using h'
            · rw [h1] at h; simp at h
        · refine ⟨_, _, .lost w 31 31 place hm' (.inl rfl), fun ss => ?_⟩
          rcases spiked_last v.unpack st w _ _ (tbl.get (z.1 + z.2)) hb0 hb1 ha3 hd ss with ⟨-, -, h'⟩ | ⟨w', h | h, h'⟩
          · simpa using h'
          · exact absurd (.inr h.2) h1
          · exact absurd (.inl h.2) h1
    · rcases spiked_step v.unpack st w kb (by omega) _ _ (tbl.get (z.1 + z.2)) hb0 hb1 ha3 habs hd with
        ⟨h, n, hn, h'⟩ | ⟨g1, g2, hw, h'⟩
      · exact ⟨_, _, .lost w kb n place (fun h1 => h (hmid h1)) hn, fun ss => by simpa using h' ss⟩
      · exact ⟨_, _, .slipped w kb place (fun h1 => hside h1 ⟨g1, g2⟩) hw, fun ss => by simpa using h' ss⟩

/-- A series of transmissions, if it is known how each is heard. -/
theorem nec_tells {S : Type} (t : Target) (f : Nat) (v : NecVariant C) (m : Mono) (hm : m = Mono.u32 ∨ m = Mono.u64)
    (tbl : PulseSpans) (conv : C → K) (u phase t0 g : Nat) (hg : Pause tbl m.width [0, 1] (0, g))
    (step : BitVec 32 → S → List (Res C) → BitVec 32 → Prop) (items : List ((S × List (Nat × Nat)) × (Nat × Nat)))
    (hone : ∀ i ∈ items, ∀ t1, (∀ q ∈ clockedPulses u f phase t1 (i.1.2 ++ [i.2]), q.1 + q.2 < 2 ^ m.width) ∧
      ∀ st, ∃ r st', step st i.1.1 r st' ∧ ∀ ss,
        necParse v.unpack st ((clockedPulses u f phase t1 (i.1.2 ++ [i.2])).map (fun p => tbl.get (p.1 + p.2)) ++ ss) =
          r ++ necParse v.unpack st' ss) :
    ∃ rs, (results (necDecoder t m tbl v) conv
        ((true, g) :: clocked u f phase t0 (series (fun i => i.2) items))).map said = some (rs.map (Res.map conv)) ∧
      Tells step 0 (items.map fun i => i.1.1) rs := by
  have hlt : ∀ q ∈ clockedPulses u f phase t0 (allPulses items), q.1 + q.2 < 2 ^ m.width :=
    all_small (fun i hi t1 => (hone i hi t1).1) t0
  have hgw : g < 2 ^ m.width := by simpa using hg.1
  rw [clocked_all]
  rcases hr : results (necDecoder t m tbl v) conv
      ((true, g) :: pulses (clockedPulses u f phase t0 (allPulses items))) with _ | outs
  · exact absurd ((C30_nec_panics_iff t m hm tbl v conv _).mp hr).2 (pulses_small hgw hlt)
  · refine ⟨_, ?_, tells_parse (necParse v.unpack) _ (fun _ => by rw [necParse]) items
      (fun i hi t1 st => (hone i hi t1).2 st) t0 0⟩
    rw [Option.map_some, C67_nec t m (Mono.prim_lawful hm) tbl v conv _ outs hr, pulses_symbols tbl hgw hlt, necParse_skip]
    · exact fun h => hg.2 0 (by simp) (by simpa using get_inTol h)
    · exact fun h => hg.2 1 (by simp) (by simpa using get_inTol h)

/-- **C93**, NEC family: of a series of transmissions, any of them with a spike in a bit, each followed by a pause of 16 ms
or more, the undisturbed ones are answered as ever and the others as `necSpikedAnswer` says. -/
theorem C93_nec (t : Target) (f j : Nat) (hlo : 20000 ≤ f) (hf : f < 2 ^ 32) (v : NecVariant C)
    (hv : v.Shipped) (m : Mono) (hm : m = Mono.u32 ∨ m = Mono.u64) (tbl : PulseSpans)
    (htbl : necSpans t m v f = some tbl) (hc : coversAll tbl f j (necLengths v) = true) (conv : C → K) (u : Nat)
    (hu : 0 < u) (phase t0 g : Nat) (hg : Pause tbl m.width [0, 1] (0, g))
    (items : List ((NecSpiked × List (Nat × Nat)) × (Nat × Nat)))
    (hok : ∀ i ∈ items,
      i.1.1.Wire u j (v.pulseDistance.headerHigh + v.pulseDistance.headerLow)
        (v.pulseDistance.headerHigh + v.pulseDistance.repeatLow) i.1.2 ∧
      16000 * u ≤ 1000000 * (i.2.1 + i.2.2) ∧ (i.2.1 + i.2.2) * f + u < 2 ^ m.width * u) :
    ∃ rs, (results (necDecoder t m tbl v) conv
        ((true, g) :: clocked u f phase t0 (series (fun i => i.2) items))).map said = some (rs.map (Res.map conv)) ∧
      Tells (necSpikedAnswer v.unpack) 0 (items.map fun i => i.1.1) rs :=
  nec_tells t f v m hm tbl conv u phase t0 g hg _ items fun i hi =>
    nec_spiked_one t f j hlo hf v hv m hm tbl htbl hc u hu phase i.1.1 i.1.2 i.2 (hok i hi).1 (hok i hi).2.1 (hok i hi).2.2

/-! ## SBP and Denon -/

/-- The windows of the two bits, in microseconds. -/
structure BitWindows (tbl : PulseSpans) (f z o zlo zhi olo ohi : Nat) : Prop where
  zero : ∀ d, tbl.get d = some z → zlo * f ≤ 1000000 * d ∧ 1000000 * d ≤ zhi * f
  one : ∀ d, tbl.get d = some o → olo * f ≤ 1000000 * d ∧ 1000000 * d ≤ ohi * f

/-- What can be measured of the two parts of a bit. -/
theorem spike_parts {tbl : PulseSpans} {n u f phase width j : Nat} (hu : 0 < u) (hlo : 20000 ≤ f) (hun : Unambiguous tbl n)
    (hfit : Fits tbl width) {slots : List Nat} (hs : ∀ x ∈ slots, x < n) {whole ps : List (Nat × Nat)} {k : Nat}
    {p q : Nat × Nat} (hm : ∀ t, Matches tbl slots (clockedPulses u f phase t whole)) (hd : Divided whole k p q ps)
    {z o zlo zhi olo ohi : Nat} (hz : z < n) {bit : Bool} (hbit : slots[k]? = some (if bit then o else z))
    (W : BitWindows tbl f z o zlo zhi olo ohi) (c1 : zhi < 2 * zlo) (c2 : zhi < olo) (c3 : ohi < olo + zlo)
    (c4 : zlo ≤ olo) (c5 : zhi ≤ ohi) {us nought : Nat} {place : Where} (hparts : place.Parts u j us nought p q)
    (hus : us + 50 < zlo) (hM : Measures tbl u f phase j z nought) (t : Nat) :
    ∃ a b, (clockedPulses u f phase t ps).map (fun p => tbl.get (p.1 + p.2)) =
        (slots.take k).map some ++ a :: b :: (slots.drop (k + 1)).map some ∧
      (∀ x ∈ clockedPulses u f phase t ps, x.1 + x.2 < 2 ^ width) ∧
      (a = some o → bit = true) ∧
      ((a = some z ∨ a = some o) → (b = some z ∨ b = some o) → a = some z ∧ b = some z ∧ bit = true) ∧
      (place = .side → ¬ (a = some z ∧ b = some z)) ∧ (place = .middle → a = some z ∧ b = some z) ∧
      ∀ x lim, (∀ d, tbl.get d = some x → lim * f ≤ 1000000 * d) → ohi < lim → b ≠ some x := by
  obtain ⟨a, b, s, t2, hs', hab, rfl, rfl, hsym, hlt⟩ := divided_symbols (width := width) hun hfit hs hm hd t
  rw [hbit, Option.some.injEq] at hs'
  refine ⟨_, _, hsym, hlt, ?_⟩
  have hside : place = .side → ¬ (tbl.get (reading u f phase (t2 + (p.1 + p.2)) - reading u f phase t2) = some z ∧
      tbl.get (reading u f phase (t2 + (p.1 + p.2) + (q.1 + q.2)) - reading u f phase (t2 + (p.1 + p.2))) = some z) := by
    rintro rfl ⟨ha, hb⟩
    rcases hparts with h | h
    · exact short_ticks hu hlo h hus (W.zero _ ha).1
    · exact short_ticks hu hlo h hus (W.zero _ hb).1
  have hmid : place = .middle → tbl.get (reading u f phase (t2 + (p.1 + p.2)) - reading u f phase t2) = some z ∧
      tbl.get (reading u f phase (t2 + (p.1 + p.2) + (q.1 + q.2)) - reading u f phase (t2 + (p.1 + p.2))) = some z := by
    rintro rfl
    exact ⟨inTol_get hun hz (hM _ _ hparts.1), inTol_get hun hz (hM _ _ hparts.2)⟩
  generalize reading u f phase (t2 + (p.1 + p.2)) - reading u f phase t2 = a at hab hside hmid ⊢
  generalize reading u f phase (t2 + (p.1 + p.2) + (q.1 + q.2)) - reading u f phase (t2 + (p.1 + p.2)) = b
    at hab hside hmid ⊢
  have f0 : 0 < f := by omega
  have k1 : zhi * f < 2 * (zlo * f) := by
    rw [← Nat.mul_assoc]; exact (Nat.mul_lt_mul_right f0).mpr c1
  have k2 : zhi * f < olo * f := (Nat.mul_lt_mul_right f0).mpr c2
  have k3 : ohi * f < olo * f + zlo * f := by
    rw [← Nat.add_mul]; exact (Nat.mul_lt_mul_right f0).mpr c3
  have k4 : zlo * f ≤ olo * f := Nat.mul_le_mul_right f c4
  have k5 : zhi * f ≤ ohi * f := Nat.mul_le_mul_right f c5
  have hsum : 1000000 * (a + b) ≤ ohi * f ∧ (bit = false → 1000000 * (a + b) ≤ zhi * f) := by
    rw [← hs'] at hab
    cases bit with
    | false =>
      have := (W.zero _ hab).2
      exact ⟨by omega, fun _ => this⟩
    | true => exact ⟨(W.one _ hab).2, fun h => by cases h⟩
  refine ⟨fun h => ?_, fun h1 h2 => ?_, hside, hmid, fun x lim hx hl h => ?_⟩
  · have := (W.one a h).1
    cases bit with
    | false => have := hsum.2 rfl; omega
    | true => rfl
  · have low : ∀ d, tbl.get d = some z ∨ tbl.get d = some o → zlo * f ≤ 1000000 * d := by
      rintro d (h | h)
      · exact (W.zero d h).1
      · have := (W.one d h).1; omega
    have l1 := low a h1
    have l2 := low b h2
    refine ⟨h1.resolve_right fun h => ?_, h2.resolve_right fun h => ?_, ?_⟩
    · have := (W.one a h).1; omega
    · have := (W.one b h).1; omega
    · cases bit with
      | false => have := hsum.2 rfl; omega
      | true => rfl
  · have := hx b h
    have : ohi * f < lim * f := (Nat.mul_lt_mul_right f0).mpr hl
    omega

theorem sbp_bits {t : Target} {m : Mono} (hm : m = Mono.u32 ∨ m = Mono.u64) {f : Nat} (hlo : 20000 ≤ f) (hf : f < 2 ^ 32)
    {tbl : PulseSpans} (htbl : sbpSpans t m f = some tbl) : BitWindows tbl f 2 3 852 1100 1744 2200 := by
  refine ⟨fun d h => ?_, fun d h => ?_⟩
  · have := (C52_rejects .sbp t m hm f hf tbl htbl 2 d (get_inTol h)).1 _ _ rfl
    omega
  · have := (C52_rejects .sbp t m hm f hf tbl htbl 3 d (get_inTol h)).1 _ _ rfl
    omega

theorem denon_bits {t : Target} {m : Mono} (hm : m = Mono.u32 ∨ m = Mono.u64) {f : Nat} (hlo : 20000 ≤ f) (hf : f < 2 ^ 32)
    {tbl : PulseSpans} (htbl : denonSpans t m f = some tbl) : BitWindows tbl f 1 2 708 924 1460 1848 := by
  refine ⟨fun d h => ?_, fun d h => ?_⟩
  · have := (C52_rejects .denon t m hm f hf tbl htbl 1 d (get_inTol h)).1 _ _ rfl
    omega
  · have := (C52_rejects .denon t m hm f hf tbl htbl 2 d (get_inTol h)).1 _ _ rfl
    omega

/-- The bits that are read if bit `k` is taken for two zeros. -/
theorem slip_get {n : Nat} (w : BitVec n) (k : Nat) (hk : k < n) (i : Nat) (hi : i < n) :
    (((List.range n).map w.getLsbD).take k ++ false :: false :: ((List.range n).map w.getLsbD).drop (k + 1))[i]?.getD false =
      (slip k w).getLsbD i := by
  rw [slip, BitVec.getLsbD_or, firstBits,
    BitVec.getLsbD_setWidth, BitVec.getLsbD_setWidth, BitVec.getLsbD_shiftLeft, BitVec.getLsbD_ushiftRight]
  have hl : (((List.range n).map w.getLsbD).take k).length = k := by simp; omega
  by_cases h1 : i < k
  · rw [List.getElem?_append_left (by omega), List.getElem?_take, if_pos h1, List.getElem?_map, List.getElem?_range hi]
    simp [hi, h1, show i < k + 2 by omega]
  · rw [List.getElem?_append_right (by omega), hl]
    obtain ⟨j, rfl⟩ : ∃ j, i = k + j := ⟨i - k, by omega⟩
    rw [show k + j - k = j by omega]
    rcases j with _ | _ | j
    · simp
    · simp
    · rw [List.getElem?_cons_succ, List.getElem?_cons_succ, List.getElem?_drop, List.getElem?_map,
        List.getElem?_range (by omega)]
      simp [show ¬ k + (j + 1 + 1) < k by omega, show ¬ k + (j + 1 + 1) < k + 2 by omega, hi,
        show k + 1 + (k + (j + 1 + 1) - (k + 2)) = k + 1 + j by omega]

theorem slip_word {n : Nat} (w : BitVec n) (k : Nat) (hk : k < n) (r m : Nat) (hr : r ≤ n) :
    wordOf m ((((List.range n).map w.getLsbD).take k ++ false :: false ::
      ((List.range n).map w.getLsbD).drop (k + 1)).take r) = ((slip k w).setWidth r).setWidth m := by
  refine BitVec.eq_of_getLsbD_eq fun i hi => ?_
  rw [wordOf_getLsbD _ _ _ hi, BitVec.getLsbD_setWidth, BitVec.getLsbD_setWidth, List.getElem?_take]
  by_cases h : i < r
  · rw [if_pos h, slip_get w k hk i (by omega)]
    simp [hi, h]
  · simp [h]

theorem sbpParse_bits (bs : List Bool) (ss : List (Option Nat)) : sbpParse (bs.map bitSym ++ ss) = sbpParse ss := by
  induction bs with
  | nil => rfl
  | cons b bs ih => rw [List.map_cons, List.cons_append, sbpParse_skip _ _ (bitSym_quiet b).1, ih]

/-- The slots of a complete frame. -/
theorem sbpSlots_map (a : BitVec 16) (w : BitVec 20) : (sbpSlots a w).map some = some 0 ::
    (((List.range 16).map a.getLsbD).map bitSym ++ some 1 :: ((List.range 20).map w.getLsbD).map bitSym) := by
  rw [sbpSlots]
  simp only [List.append_assoc, List.cons_append, List.nil_append, List.map_cons, List.map_append, List.map_map]
  rfl

/-- The parser on a frame with two symbols in the place of bit `k` of the address. -/
theorem sbp_spiked_address (ad : BitVec 16) (w : BitVec 20) (k : Nat) (hk : k < 16) (a b d : Option Nat)
    (hb0 : b ≠ some 0) (hb1 : b ≠ some 1) (hd : ∀ x, x < 4 → d ≠ some x) :
    ∃ e, (e = DecodingError.address ∨ e = .data) ∧ ∀ ss,
      sbpParse (((sbpSlots ad w).take (1 + k)).map some ++ a :: b :: ((sbpSlots ad w).drop (1 + k + 1)).map some ++ d :: ss) =
        .error e :: sbpParse ss := by
  have e1 : ((sbpSlots ad w).take (1 + k)).map some = some 0 :: (((List.range 16).map ad.getLsbD).take k).map bitSym := by
    rw [List.map_take, sbpSlots_map, Nat.add_comm, List.take_succ_cons, List.take_append_of_le_length (by simp; omega),
      List.map_take]
  have e2 : ((sbpSlots ad w).drop (1 + k + 1)).map some =
      (((List.range 16).map ad.getLsbD).drop (k + 1)).map bitSym ++ some 1 :: ((List.range 20).map w.getLsbD).map bitSym := by
    rw [List.map_drop, sbpSlots_map, Nat.add_comm 1 k, List.drop_succ_cons, List.drop_append_of_le_length (by simp; omega),
      List.map_drop]
  have hl : (((List.range 16).map ad.getLsbD).take k).length = k := by simp; omega
  have hl2 : (((List.range 16).map ad.getLsbD).drop (k + 1)).length = 15 - k := by simp
  have hrest : ∀ ss, sbpParse ((((List.range 16).map ad.getLsbD).drop (k + 1)).map bitSym ++
      (some 1 :: (((List.range 20).map w.getLsbD).map bitSym ++ d :: ss))) = sbpParse ss := fun ss => by
    rw [sbpParse_bits, sbpParse_skip _ _ (by simp), sbpParse_bits, sbpParse_skip _ _ (hd 0 (by decide))]
  simp only [e1, e2, List.cons_append, List.append_assoc]
  generalize hA : ((List.range 16).map ad.getLsbD).take k = A at *
  generalize hB : ((List.range 16).map ad.getLsbD).drop (k + 1) = B at *
  by_cases h1 : a = some 2 ∨ a = some 3
  · obtain ⟨c, rfl⟩ : ∃ c, a = bitSym c := by
      rcases h1 with rfl | rfl
      · exact ⟨false, rfl⟩
      · exact ⟨true, rfl⟩
    by_cases h15 : k = 15
    · refine ⟨.data, .inr rfl, fun ss => ?_⟩
      have := sbp_parse_divider (A ++ [c]) (by simp [hl, h15]) b hb1
        (B.map bitSym ++ (some 1 :: (((List.range 20).map w.getLsbD).map bitSym ++ d :: ss)))
      rw [hrest] at this
      simpa using this
    · by_cases h2 : b = some 2 ∨ b = some 3
      · obtain ⟨c2, rfl⟩ : ∃ c, b = bitSym c := by
          rcases h2 with rfl | rfl
          · exact ⟨false, rfl⟩
          · exact ⟨true, rfl⟩
        refine ⟨.data, .inr rfl, fun ss => ?_⟩
        obtain ⟨B', x, hBx⟩ : ∃ B' x, B = B' ++ [x] := by
          rcases List.eq_nil_or_concat B with rfl | ⟨B', x, h⟩
          · simp at hl2; omega
          · exact ⟨B', x, by simpa using h⟩
        rw [hBx] at hl2
        have := sbp_parse_divider (A ++ c :: c2 :: B') (by simp at hl2 ⊢; omega) (bitSym x) (by cases x <;> decide)
          (some 1 :: (((List.range 20).map w.getLsbD).map bitSym ++ d :: ss))
        have hsk : sbpParse (some 1 :: (((List.range 20).map w.getLsbD).map bitSym ++ d :: ss)) = sbpParse ss := by
          rw [sbpParse_skip _ _ (by simp), sbpParse_bits, sbpParse_skip _ _ (hd 0 (by decide))]
        rw [hsk] at this
        simpa [hBx] using this
      · simp only [not_or] at h2
        refine ⟨.address, .inl rfl, fun ss => ?_⟩
        have := sbp_parse_address (A ++ [c]) (by simp [hl]; omega) b h2.1 h2.2
          (B.map bitSym ++ (some 1 :: (((List.range 20).map w.getLsbD).map bitSym ++ d :: ss)))
        rw [hrest] at this
        simpa using this
  · simp only [not_or] at h1
    refine ⟨.address, .inl rfl, fun ss => ?_⟩
    rw [sbp_parse_address _ (by omega) _ h1.1 h1.2, sbpParse_skip _ _ hb0, hrest]

/-- The parser on a frame with two symbols in the place of bit `k` of the data. -/
theorem sbp_spiked_data (ad : BitVec 16) (w : BitVec 20) (k : Nat) (hk : k < 20) (place : Where) (a b d : Option Nat)
    (hb0 : b ≠ some 0) (ha : a = some 3 → w.getLsbD k = true)
    (hab : (a = some 2 ∨ a = some 3) → (b = some 2 ∨ b = some 3) → a = some 2 ∧ b = some 2 ∧ w.getLsbD k = true)
    (hside : place = .side → ¬ (a = some 2 ∧ b = some 2)) (hmid : place = .middle → a = some 2 ∧ b = some 2)
    (hd : ∀ x, x < 4 → d ≠ some x) :
    ∃ r, sbpSpikedAnswer () (.data ad w k place) r () ∧ ∀ ss,
      sbpParse (((sbpSlots ad w).take (18 + k)).map some ++ a :: b :: ((sbpSlots ad w).drop (18 + k + 1)).map some ++ d :: ss) =
        r ++ sbpParse ss := by
  have e1 : ((sbpSlots ad w).take (18 + k)).map some = some 0 :: (((List.range 16).map ad.getLsbD).map bitSym ++
      some 1 :: (((List.range 20).map w.getLsbD).take k).map bitSym) := by
    rw [List.map_take, sbpSlots_map, show 18 + k = (16 + (k + 1)) + 1 by omega, List.take_succ_cons, List.take_append,
      List.take_of_length_le (by simp), List.length_map, List.length_map, List.length_range,
      show 16 + (k + 1) - 16 = k + 1 by omega, List.take_succ_cons, List.map_take]
  have e2 : ((sbpSlots ad w).drop (18 + k + 1)).map some = (((List.range 20).map w.getLsbD).drop (k + 1)).map bitSym := by
    rw [List.map_drop, sbpSlots_map, show 18 + k + 1 = (16 + (k + 2)) + 1 by omega, List.drop_succ_cons, List.drop_append,
      List.drop_of_length_le (by simp), List.length_map, List.length_map, List.length_range,
      show 16 + (k + 2) - 16 = k + 2 by omega, List.nil_append, List.drop_succ_cons, List.map_drop]
  have hl : (((List.range 20).map w.getLsbD).take k).length = k := by simp; omega
  have hrest : ∀ ss, sbpParse ((((List.range 20).map w.getLsbD).drop (k + 1)).map bitSym ++ d :: ss) = sbpParse ss :=
    fun ss => by rw [sbpParse_bits, sbpParse_skip _ _ (hd 0 (by decide))]
  simp only [e1, e2, List.cons_append, List.append_assoc]
  by_cases h1 : a = some 2 ∨ a = some 3
  · by_cases h2 : b = some 2 ∨ b = some 3
    · -- two zeros
      obtain ⟨rfl, rfl, hw⟩ := hab h1 h2
      refine ⟨_, .slipped ad w k place (fun h => hside h ⟨rfl, rfl⟩) hw, fun ss => ?_⟩
      have e4 : (((List.range 20).map w.getLsbD).take k).map bitSym ++ some 2 :: some 2 ::
            ((((List.range 20).map w.getLsbD).drop (k + 1)).map bitSym ++ d :: ss) =
          (((List.range 20).map w.getLsbD).take k ++ false :: false :: ((List.range 20).map w.getLsbD).drop (k + 1)).map bitSym ++
            d :: ss := by
        rw [List.map_append, List.map_cons, List.map_cons, List.append_assoc]
        rfl
      have hword := slip_word w k hk 20 32 (Nat.le_refl _)
      have hlen : (((List.range 20).map w.getLsbD).take k ++ false :: false ::
          ((List.range 20).map w.getLsbD).drop (k + 1)).length = 21 := by simp; omega
      rw [e4]
      generalize ((List.range 20).map w.getLsbD).take k ++ false :: false :: ((List.range 20).map w.getLsbD).drop (k + 1) = L
        at hword hlen ⊢
      rw [← List.take_append_drop 20 L, List.map_append, List.append_assoc,
        sbp_parse_frame _ _ (by simp) (by simp; omega), hword, sbpParse_bits, sbpParse_skip _ _ (hd 0 (by decide)), wordOf_all,
        BitVec.setWidth_eq]
      rfl
    · -- the first part is a bit
      obtain ⟨c, rfl, hc⟩ : ∃ c, a = bitSym c ∧ (c = true → w.getLsbD k = true) := by
        rcases h1 with rfl | rfl
        · exact ⟨false, rfl, fun h => by cases h⟩
        · exact ⟨true, rfl, fun _ => ha rfl⟩
      have hm' : place ≠ .middle := fun h => h2 (.inl (hmid h).2)
      simp only [not_or] at h2
      by_cases h19 : k = 19
      · subst h19
        have key : ∀ ss, sbpParse (some 0 :: (((List.range 16).map ad.getLsbD).map bitSym ++
            some 1 :: ((((List.range 20).map w.getLsbD).take 19).map bitSym ++ bitSym c :: b ::
              ((((List.range 20).map w.getLsbD).drop (19 + 1)).map bitSym ++ d :: ss)))) =
            oks [SbpCommand.unpack ad (wordOf 32 (((List.range 20).map w.getLsbD).take 19 ++ [c]))] ++ sbpParse ss := fun ss => by
          have := sbp_parse_frame ((List.range 16).map ad.getLsbD) (((List.range 20).map w.getLsbD).take 19 ++ [c])
            (by simp) (by simp)
            (b :: ((((List.range 20).map w.getLsbD).drop (19 + 1)).map bitSym ++ d :: ss))
          rw [sbpParse_skip _ _ hb0, hrest, wordOf_all] at this
          rw [List.map_append, List.append_assoc] at this
          exact this
        cases c with
        | false =>
          refine ⟨_, .final ad w (slip 19 w) place hm' (.inr rfl), fun ss => ?_⟩
          rw [key, wordOf_false, wordOf_take_wide, slip]
          simp
        | true =>
          refine ⟨_, .final ad w w place hm' (.inl rfl), fun ss => ?_⟩
          rw [key, ← hc rfl, ← take_bits w (by decide), wordOf_take_wide, firstBits_all w (by decide)]
      · refine ⟨_, .lost ad w k place hm', fun ss => ?_⟩
        have := sbp_parse_data ((List.range 16).map ad.getLsbD) (((List.range 20).map w.getLsbD).take k ++ [c])
          (by simp) (by simp; omega) b h2.1 h2.2 ((((List.range 20).map w.getLsbD).drop (k + 1)).map bitSym ++ d :: ss)
        rw [hrest, List.map_append, List.append_assoc] at this
        exact this
  · have hm' : place ≠ .middle := fun h => h1 (.inl (hmid h).1)
    simp only [not_or] at h1
    refine ⟨_, .lost ad w k place hm', fun ss => ?_⟩
    rw [sbp_parse_data _ _ (by simp) (by omega) _ h1.1 h1.2, sbpParse_skip _ _ hb0, hrest]
    rfl

/-- One transmission, as it is heard. -/
theorem sbp_spiked_one (t : Target) (f j : Nat) (hlo : 20000 ≤ f) (hf : f < 2 ^ 32) (m : Mono)
    (hm : m = Mono.u32 ∨ m = Mono.u64) (tbl : PulseSpans) (htbl : sbpSpans t m f = some tbl)
    (hc : coversAll tbl f j sbpLengths = true) (u : Nat) (hu : 0 < u) (phase : Nat)
    (s : SbpSpiked) (ps : List (Nat × Nat)) (pz : Nat × Nat)
    (h1 : s.Wire u j ps)
    (h2 : 16000 * u ≤ 1000000 * (pz.1 + pz.2)) (h3 : (pz.1 + pz.2) * f + u < 2 ^ m.width * u) (t1 : Nat) :
    (∀ q ∈ clockedPulses u f phase t1 (ps ++ [pz]), q.1 + q.2 < 2 ^ m.width) ∧
      ∀ st : Unit, ∃ r st', sbpSpikedAnswer st s r st' ∧ ∀ ss,
        sbpParse ((clockedPulses u f phase t1 (ps ++ [pz])).map (fun p => tbl.get (p.1 + p.2)) ++ ss) =
          r ++ sbpParse ss := by
  have hun : Unambiguous tbl 4 := (C14_classification_unambiguous f hlo hf t m hm).2.2.2.2.2.2.1 tbl htbl
  have hfit : Fits tbl m.width := by
    have htbl' := htbl
    rw [sbpSpans_eq hm t hf, Option.some.injEq] at htbl'
    subst htbl'
    exact sbpTable_fits hf (by rcases hm with rfl | rfl <;> decide)
  have hM : ∀ s l, sbpLengths[s]? = some l → Measures tbl u f phase j s l :=
    fun _ _ hs => measures_of_covers hu (coversAll_get hc hs)
  obtain ⟨lo0, lo1, -, -⟩ := sbp_low hm hlo hf htbl
  have W := sbp_bits hm hlo hf htbl
  have hslt : ∀ a w, ∀ x ∈ sbpSlots a w, x < 4 := fun a w x hx =>
    sbpSent_lt (a, w, 38) x (by rwa [sbpSent, List.take_of_length_le (by simp [sbpSlots])])
  have hmat : ∀ a w whole, NearPeriods u j (sbpPeriods a w) whole → ∀ t',
      Matches tbl (sbpSlots a w) (clockedPulses u f phase t' whole) := fun a w whole hn t' => by
    refine matches_of_measures (by simp [sbpPeriods, sbpSlots]) ?_ hn t'
    unfold sbpPeriods sbpSlots
    exact append_ok (by simp) (append_ok (by simp) (append_ok (by simp)
      (single_ok (hM 0 _ rfl)) (bits_ok 16 _ _ _ _ _ (hM 3 _ rfl) (hM 2 _ rfl)))
      (single_ok (hM 1 _ rfl))) (bits_ok 20 _ _ _ _ _ (hM 3 _ rfl) (hM 2 _ rfl))
  have hpz := prim_pause hm hf hlo hu .sbp htbl (phase := phase) (List.range 4) (by decide) pz h2 h3 (t1 + span ps)
  obtain ⟨z1, z2⟩ := pz
  have hcl : clockedPulses u f phase t1 (ps ++ [(z1, z2)]) = clockedPulses u f phase t1 ps ++
      [(reading u f phase (t1 + span ps + z1) - reading u f phase (t1 + span ps),
        reading u f phase (t1 + span ps + z1 + z2) - reading u f phase (t1 + span ps + z1))] := by
    rw [clockedPulses_append]; rfl
  dsimp only at hpz
  generalize (reading u f phase (t1 + span ps + z1) - reading u f phase (t1 + span ps),
        reading u f phase (t1 + span ps + z1 + z2) - reading u f phase (t1 + span ps + z1)) = z at hcl hpz
  have hd : ∀ x, x < 4 → tbl.get (z.1 + z.2) ≠ some x :=
    fun x hx h => hpz.2 x (List.mem_range.mpr hx) (get_inTol h)
  rw [hcl]
  simp only [List.map_append, List.map_cons, List.map_nil, List.append_assoc, List.cons_append, List.nil_append,
    List.mem_append, List.mem_singleton]
  cases s with
  | clean a w k =>
    have hmt : Matches tbl (sbpSent (a, w, k)) (clockedPulses u f phase t1 ps) := by
      refine matches_of_measures (us := (sbpPeriods a w).take k) (by simp [sbpPeriods, sbpSlots]) (take_ok k ?_) h1 t1
      unfold sbpPeriods sbpSlots
      exact append_ok (by simp) (append_ok (by simp) (append_ok (by simp)
        (single_ok (hM 0 _ rfl)) (bits_ok 16 _ _ _ _ _ (hM 3 _ rfl) (hM 2 _ rfl)))
        (single_ok (hM 1 _ rfl))) (bits_ok 20 _ _ _ _ _ (hM 3 _ rfl) (hM 2 _ rfl))
    refine ⟨?_, fun st => ⟨_, _, .clean a w k, fun ss => ?_⟩⟩
    · rintro q (hq | rfl)
      · obtain ⟨i, hi⟩ := List.mem_iff_getElem?.mp hq
        have hlt := (List.getElem?_eq_some_iff.mp hi).1
        rw [hmt.1] at hlt
        exact inTol_lt hfit (hmt.2 i q _ hi (List.getElem?_eq_getElem hlt))
      · exact hpz.1
    · rw [matches_symbols hun (sbpSent_lt _) hmt, sbp_step _ _ _ hd]
  | address ad w k =>
    obtain ⟨hk, whole, p, q, hnear, hdiv⟩ := h1
    obtain ⟨a, b, hsym, hlt, -, -, -, -, hb⟩ := spike_parts (width := m.width) (bit := ad.getLsbD k) (place := .anywhere)
      (us := 800) (nought := 1000) (j := j) hu hlo hun hfit (hslt ad w) (hmat ad w whole hnear) hdiv (z := 2) (o := 3)
      (by decide) (by
        rw [sbpSlots, List.append_assoc, List.append_assoc, List.getElem?_append_right (by simp),
          List.getElem?_append_left (by simp; omega), List.getElem?_map, show 1 + k - [0].length = k by simp,
          List.getElem?_range hk]
        rfl) W (by decide) (by decide) (by decide) (by decide) (by decide) trivial (by decide) (hM 2 _ rfl) t1
    obtain ⟨e, he, h⟩ := sbp_spiked_address ad w k hk a b (tbl.get (z.1 + z.2)) (hb 0 _ lo0 (by decide))
      (hb 1 _ lo1 (by decide)) hd
    refine ⟨?_, fun st => ⟨_, _, .address ad w k e he, fun ss => ?_⟩⟩
    · rintro q (hq | rfl)
      · exact hlt q hq
      · exact hpz.1
    · rw [hsym]
      simpa using h ss
  | data ad w k place =>
    obtain ⟨hk, whole, p, q, hnear, hdiv, hparts⟩ := h1
    obtain ⟨a, b, hsym, hlt, ha, hab, hside, hmid, hb⟩ := spike_parts (width := m.width) (bit := w.getLsbD k)
      (j := j) hu hlo hun hfit (hslt ad w) (hmat ad w whole hnear) hdiv (z := 2) (o := 3)
      (by decide) (by
        rw [sbpSlots, List.getElem?_append_right (by simp), List.getElem?_map]
        simp only [List.length_append, List.length_cons, List.length_nil, List.length_map, List.length_range]
        rw [show 18 + k - (0 + 1 + 16 + (0 + 1)) = k by omega, List.getElem?_range hk]
        rfl) W (by decide) (by decide) (by decide) (by decide) (by decide) hparts (by decide) (hM 2 _ rfl) t1
    obtain ⟨r, hr, h⟩ := sbp_spiked_data ad w k hk place a b (tbl.get (z.1 + z.2)) (hb 0 _ lo0 (by decide)) ha hab hside hmid hd
    refine ⟨?_, fun st => ⟨_, _, hr, fun ss => ?_⟩⟩
    · rintro q (hq | rfl)
      · exact hlt q hq
      · exact hpz.1
    · rw [hsym]
      simpa using h ss

/-- A series of transmissions, if it is known how each is heard. -/
theorem sbp_tells {S : Type} (t : Target) (f : Nat) (m : Mono) (hm : m = Mono.u32 ∨ m = Mono.u64)
    (tbl : PulseSpans) (conv : SbpCommand → K) (u phase t0 g : Nat) (hg : Pause tbl m.width [0] (0, g))
    (step : Unit → S → List (Res SbpCommand) → Unit → Prop) (items : List ((S × List (Nat × Nat)) × (Nat × Nat)))
    (hone : ∀ i ∈ items, ∀ t1, (∀ q ∈ clockedPulses u f phase t1 (i.1.2 ++ [i.2]), q.1 + q.2 < 2 ^ m.width) ∧
      ∀ st, ∃ r st', step st i.1.1 r st' ∧ ∀ ss,
        sbpParse ((clockedPulses u f phase t1 (i.1.2 ++ [i.2])).map (fun p => tbl.get (p.1 + p.2)) ++ ss) =
          r ++ sbpParse ss) :
    ∃ rs, (results (sbpDecoder t m tbl) conv
        ((true, g) :: clocked u f phase t0 (series (fun i => i.2) items))).map said = some (rs.map (Res.map conv)) ∧
      Tells step () (items.map fun i => i.1.1) rs := by
  have hlt : ∀ q ∈ clockedPulses u f phase t0 (allPulses items), q.1 + q.2 < 2 ^ m.width :=
    all_small (fun i hi t1 => (hone i hi t1).1) t0
  have hgw : g < 2 ^ m.width := by simpa using hg.1
  have halt := pulses_alternating g (clockedPulses u f phase t0 (allPulses items))
  rw [clocked_all]
  rcases hr : results (sbpDecoder t m tbl) conv
      ((true, g) :: pulses (clockedPulses u f phase t0 (allPulses items))) with _ | outs
  · exact absurd ((C30_sbp_panics_iff t m hm tbl conv _ halt).mp hr).2 (pulses_small hgw hlt)
  · refine ⟨_, ?_, tells_parse (fun _ => sbpParse) _ (fun _ => by rw [sbpParse]) items
      (fun i hi t1 st => (hone i hi t1).2 st) t0 ()⟩
    rw [Option.map_some, C67_sbp t m (Mono.prim_lawful hm) tbl conv _ halt outs hr, pulses_symbols tbl hgw hlt, sbpParse_skip]
    exact fun h => hg.2 0 (by simp) (by simpa using get_inTol h)

/-- **C93**, SBP. -/
theorem C93_sbp (t : Target) (f j : Nat) (hlo : 20000 ≤ f) (hf : f < 2 ^ 32) (m : Mono)
    (hm : m = Mono.u32 ∨ m = Mono.u64) (tbl : PulseSpans) (htbl : sbpSpans t m f = some tbl)
    (hc : coversAll tbl f j sbpLengths = true) (conv : SbpCommand → K) (u : Nat) (hu : 0 < u) (phase t0 g : Nat)
    (hg : Pause tbl m.width [0] (0, g)) (items : List ((SbpSpiked × List (Nat × Nat)) × (Nat × Nat)))
    (hok : ∀ i ∈ items, i.1.1.Wire u j i.1.2 ∧
      16000 * u ≤ 1000000 * (i.2.1 + i.2.2) ∧ (i.2.1 + i.2.2) * f + u < 2 ^ m.width * u) :
    ∃ rs, (results (sbpDecoder t m tbl) conv
        ((true, g) :: clocked u f phase t0 (series (fun i => i.2) items))).map said = some (rs.map (Res.map conv)) ∧
      Tells sbpSpikedAnswer () (items.map fun i => i.1.1) rs :=
  sbp_tells t f m hm tbl conv u phase t0 g hg _ items fun i hi =>
    sbp_spiked_one t f j hlo hf m hm tbl htbl hc u hu phase i.1.1 i.1.2 i.2 (hok i hi).1 (hok i hi).2.1 (hok i hi).2.2

/-- The symbol of a bit of Denon. -/
def denonSym (b : Bool) : Option Nat := some (if b then 2 else 1)

theorem denonParse_bits (stale : BitVec 64) (bs : List Bool) (ss : List (Option Nat)) :
    denonParse stale (bs.map denonSym ++ ss) = denonParse stale ss := by
  induction bs with
  | nil => rfl
  | cons b bs ih => rw [List.map_cons, List.cons_append, denonParse_skip _ _ _ (by cases b <;> decide), ih]

theorem denon_parse_broken (stale : BitVec 64) (bs : List Bool) (hb : bs.length < 48) (d : Option Nat) (h1 : d ≠ some 1)
    (h2 : d ≠ some 2) (ss : List (Option Nat)) :
    denonParse stale (some 0 :: (bs.map denonSym ++ d :: ss)) = denonParse (stale ||| wordOf 64 bs) ss := by
  have hl := leadingBits_known 1 2 (by decide) bs (d :: ss) (48 - bs.length)
  rw [leadingBits_wrong _ _ _ _ _ h2 h1, List.append_nil, show bs.length + (48 - bs.length) = 48 by omega] at hl
  rw [denonParse, if_pos rfl]
  dsimp only
  unfold denonSym
  rw [hl, if_neg (by omega), List.drop_append, List.drop_of_length_le (by simp)]
  simp

theorem denon_parse_frame (stale : BitVec 64) (bs : List Bool) (hb : bs.length = 48) (ss : List (Option Nat)) :
    denonParse stale (some 0 :: (bs.map denonSym ++ ss)) =
      .ok (some { bits := stale ||| wordOf 64 (bs.take 47) }) :: denonParse 0 ss := by
  have hl := leadingBits_known 1 2 (by decide) bs ss 0
  rw [leadingBits, List.append_nil, Nat.add_zero, hb] at hl
  rw [denonParse, if_pos rfl]
  dsimp only
  unfold denonSym
  rw [hl, if_pos hb, List.drop_append, List.drop_of_length_le (by simp [hb])]
  simp [hb]

/-- The parser on a frame with two symbols in the place of bit `k`. -/
theorem denon_spiked (stale : BitVec 64) (w : BitVec 48) (k : Nat) (hk : k < 48) (place : Where) (a b d : Option Nat)
    (hb0 : b ≠ some 0) (ha : a = some 2 → w.getLsbD k = true)
    (hab : (a = some 1 ∨ a = some 2) → (b = some 1 ∨ b = some 2) → a = some 1 ∧ b = some 1 ∧ w.getLsbD k = true)
    (hside : place = .side → ¬ (a = some 1 ∧ b = some 1)) (hmid : place = .middle → a = some 1 ∧ b = some 1)
    (hd : ∀ x, x < 3 → d ≠ some x) :
    ∃ r st', denonSpikedAnswer stale (.spiked w k place) r st' ∧ ∀ ss,
      denonParse stale (((denonSlots w).take (1 + k)).map some ++ a :: b :: ((denonSlots w).drop (1 + k + 1)).map some ++ d :: ss) =
        r ++ denonParse st' ss := by
  have e0 : (denonSlots w).map some = some 0 :: ((List.range 48).map w.getLsbD).map denonSym := by
    rw [denonSlots]
    simp only [List.cons_append, List.nil_append, List.map_cons, List.map_map]
    rfl
  have e1 : ((denonSlots w).take (1 + k)).map some = some 0 :: (((List.range 48).map w.getLsbD).take k).map denonSym := by
    rw [List.map_take, e0, Nat.add_comm, List.take_succ_cons, List.map_take]
  have e2 : ((denonSlots w).drop (1 + k + 1)).map some = (((List.range 48).map w.getLsbD).drop (k + 1)).map denonSym := by
    rw [List.map_drop, e0, Nat.add_comm 1 k, List.drop_succ_cons, List.map_drop]
  have hl : (((List.range 48).map w.getLsbD).take k).length = k := by simp; omega
  have hrest : ∀ st ss, denonParse st ((((List.range 48).map w.getLsbD).drop (k + 1)).map denonSym ++ d :: ss) =
      denonParse st ss := fun st ss => by rw [denonParse_bits, denonParse_skip _ _ _ (hd 0 (by decide))]
  simp only [e1, e2, List.cons_append, List.append_assoc]
  by_cases h1 : a = some 1 ∨ a = some 2
  · obtain ⟨c, hca, hc⟩ : ∃ c, a = denonSym c ∧ (c = true → w.getLsbD k = true) := by
      rcases h1 with rfl | rfl
      · exact ⟨false, rfl, fun h => by cases h⟩
      · exact ⟨true, rfl, fun _ => ha rfl⟩
    by_cases h47 : k = 47
    · subst h47
      subst hca
      refine ⟨_, _, .final stale w place, fun ss => ?_⟩
      have := denon_parse_frame stale (((List.range 48).map w.getLsbD).take 47 ++ [c]) (by simp)
        (b :: ((((List.range 48).map w.getLsbD).drop (47 + 1)).map denonSym ++ d :: ss))
      rw [denonParse_skip _ _ _ hb0, hrest, List.take_left' (by simp), wordOf_take_wide, List.map_append, List.append_assoc] at this
      have e : (firstBits 47 w).setWidth 64 = (w.setWidth 47).setWidth 64 := by
        refine BitVec.eq_of_getLsbD_eq fun i hi => ?_
        simp only [firstBits, BitVec.getLsbD_setWidth]
        by_cases h : i < 47
        · simp [h, show i < 48 by omega]
        · simp [h]
      rw [e] at this
      exact this
    · by_cases h2 : b = some 1 ∨ b = some 2
      · obtain ⟨rfl, rfl, hw⟩ := hab h1 h2
        refine ⟨_, _, .slipped stale w k place (fun h => hside h ⟨rfl, rfl⟩) hw, fun ss => ?_⟩
        have e4 : (((List.range 48).map w.getLsbD).take k).map denonSym ++ some 1 :: some 1 ::
              ((((List.range 48).map w.getLsbD).drop (k + 1)).map denonSym ++ d :: ss) =
            (((List.range 48).map w.getLsbD).take k ++ false :: false ::
              ((List.range 48).map w.getLsbD).drop (k + 1)).map denonSym ++ d :: ss := by
          rw [List.map_append, List.map_cons, List.map_cons, List.append_assoc]
          rfl
        have hword := slip_word w k hk 47 64 (by decide)
        have hlen : (((List.range 48).map w.getLsbD).take k ++ false :: false ::
            ((List.range 48).map w.getLsbD).drop (k + 1)).length = 49 := by simp; omega
        rw [e4]
        generalize ((List.range 48).map w.getLsbD).take k ++ false :: false :: ((List.range 48).map w.getLsbD).drop (k + 1) = L
          at hword hlen ⊢
        rw [← List.take_append_drop 48 L, List.map_append, List.append_assoc, denon_parse_frame _ _ (by simp; omega),
          List.take_take, show min 47 48 = 47 from rfl, hword, denonParse_bits, denonParse_skip _ _ _ (hd 0 (by decide))]
        rfl
      · have hm' : place ≠ .middle := fun h => h2 (.inl (hmid h).2)
        simp only [not_or] at h2
        subst hca
        have key : ∀ ss, denonParse stale (some 0 :: ((((List.range 48).map w.getLsbD).take k).map denonSym ++ denonSym c :: b ::
              ((((List.range 48).map w.getLsbD).drop (k + 1)).map denonSym ++ d :: ss))) =
            denonParse (stale ||| wordOf 64 (((List.range 48).map w.getLsbD).take k ++ [c])) ss := fun ss => by
          have := denon_parse_broken stale (((List.range 48).map w.getLsbD).take k ++ [c]) (by simp; omega) b h2.1 h2.2
            ((((List.range 48).map w.getLsbD).drop (k + 1)).map denonSym ++ d :: ss)
          rw [hrest, List.map_append, List.append_assoc] at this
          exact this
        cases c with
        | false =>
          refine ⟨_, _, .lost stale w k k place hm' (.inl rfl), fun ss => ?_⟩
          rw [key, wordOf_false, wordOf_take_wide]
          rfl
        | true =>
          refine ⟨_, _, .lost stale w k (k + 1) place hm' (.inr rfl), fun ss => ?_⟩
          rw [key, ← hc rfl, ← take_bits w hk, wordOf_take_wide]
          rfl
  · have hm' : place ≠ .middle := fun h => h1 (.inl (hmid h).1)
    simp only [not_or] at h1
    refine ⟨_, _, .lost stale w k k place hm' (.inl rfl), fun ss => ?_⟩
    rw [denon_parse_broken _ _ (by omega) _ h1.1 h1.2, denonParse_skip _ _ _ hb0, hrest, wordOf_take_wide]
    rfl

/-- One transmission, as it is heard. -/
theorem denon_spiked_one (t : Target) (f j : Nat) (hlo : 20000 ≤ f) (hf : f < 2 ^ 32) (m : Mono)
    (hm : m = Mono.u32 ∨ m = Mono.u64) (tbl : PulseSpans) (htbl : denonSpans t m f = some tbl)
    (hc : coversAll tbl f j denonLengths = true) (u : Nat) (hu : 0 < u) (phase : Nat)
    (s : DenonSpiked) (ps : List (Nat × Nat)) (pz : Nat × Nat)
    (h1 : s.Wire u j ps)
    (h2 : 16000 * u ≤ 1000000 * (pz.1 + pz.2)) (h3 : (pz.1 + pz.2) * f + u < 2 ^ m.width * u) (t1 : Nat) :
    (∀ q ∈ clockedPulses u f phase t1 (ps ++ [pz]), q.1 + q.2 < 2 ^ m.width) ∧
      ∀ st : BitVec 64, ∃ r st', denonSpikedAnswer st s r st' ∧ ∀ ss,
        denonParse st ((clockedPulses u f phase t1 (ps ++ [pz])).map (fun p => tbl.get (p.1 + p.2)) ++ ss) =
          r ++ denonParse st' ss := by
  have hun : Unambiguous tbl 3 := (C14_classification_unambiguous f hlo hf t m hm).2.2.2.2.2.2.2 tbl htbl
  have hfit : Fits tbl m.width := by
    have htbl' := htbl
    rw [denonSpans_eq hm t hf, Option.some.injEq] at htbl'
    subst htbl'
    exact denonTable_fits hf (by rcases hm with rfl | rfl <;> decide)
  have hM : ∀ s l, denonLengths[s]? = some l → Measures tbl u f phase j s l :=
    fun _ _ hs => measures_of_covers hu (coversAll_get hc hs)
  obtain ⟨lo0, -, -⟩ := denon_low hm hlo hf htbl
  have W := denon_bits hm hlo hf htbl
  have hslt : ∀ w, ∀ x ∈ denonSlots w, x < 3 := fun w x hx =>
    denonSent_lt (w, 49) x (by rwa [denonSent, List.take_of_length_le (by simp [denonSlots])])
  have hmat : ∀ w whole, NearPeriods u j (denonPeriods w) whole → ∀ t',
      Matches tbl (denonSlots w) (clockedPulses u f phase t' whole) := fun w whole hn t' => by
    refine matches_of_measures (by simp [denonPeriods, denonSlots]) ?_ hn t'
    unfold denonPeriods denonSlots
    exact append_ok (by simp) (single_ok (hM 0 _ rfl)) (bits_ok 48 _ _ _ _ _ (hM 2 _ rfl) (hM 1 _ rfl))
  have hpz := prim_pause hm hf hlo hu .denon htbl (phase := phase) (List.range 3) (by decide) pz h2 h3 (t1 + span ps)
  obtain ⟨z1, z2⟩ := pz
  have hcl : clockedPulses u f phase t1 (ps ++ [(z1, z2)]) = clockedPulses u f phase t1 ps ++
      [(reading u f phase (t1 + span ps + z1) - reading u f phase (t1 + span ps),
        reading u f phase (t1 + span ps + z1 + z2) - reading u f phase (t1 + span ps + z1))] := by
    rw [clockedPulses_append]; rfl
  dsimp only at hpz
  generalize (reading u f phase (t1 + span ps + z1) - reading u f phase (t1 + span ps),
        reading u f phase (t1 + span ps + z1 + z2) - reading u f phase (t1 + span ps + z1)) = z at hcl hpz
  have hd : ∀ x, x < 3 → tbl.get (z.1 + z.2) ≠ some x :=
    fun x hx h => hpz.2 x (List.mem_range.mpr hx) (get_inTol h)
  rw [hcl]
  simp only [List.map_append, List.map_cons, List.map_nil, List.append_assoc, List.cons_append, List.nil_append,
    List.mem_append, List.mem_singleton]
  cases s with
  | clean w k =>
    have hmt : Matches tbl (denonSent (w, k)) (clockedPulses u f phase t1 ps) := by
      refine matches_of_measures (us := (denonPeriods w).take k) (by simp [denonPeriods, denonSlots])
        (take_ok k ?_) h1 t1
      unfold denonPeriods denonSlots
      exact append_ok (by simp) (single_ok (hM 0 _ rfl)) (bits_ok 48 _ _ _ _ _ (hM 2 _ rfl) (hM 1 _ rfl))
    refine ⟨?_, fun st => ⟨_, _, .clean st w k, fun ss => ?_⟩⟩
    · rintro q (hq | rfl)
      · obtain ⟨i, hi⟩ := List.mem_iff_getElem?.mp hq
        have hlt := (List.getElem?_eq_some_iff.mp hi).1
        rw [hmt.1] at hlt
        exact inTol_lt hfit (hmt.2 i q _ hi (List.getElem?_eq_getElem hlt))
      · exact hpz.1
    · rw [matches_symbols hun (denonSent_lt _) hmt, denon_step _ _ _ _ hd]
  | spiked w k place =>
    obtain ⟨hk, whole, p, q, hnear, hdiv, hparts⟩ := h1
    obtain ⟨a, b, hsym, hlt, ha, hab, hside, hmid, hb⟩ := spike_parts (width := m.width) (bit := w.getLsbD k)
      (j := j) hu hlo hun hfit (hslt w) (hmat w whole hnear) hdiv (z := 1) (o := 2)
      (by decide) (by
        rw [denonSlots, List.getElem?_append_right (by simp), List.getElem?_map, show 1 + k - [0].length = k by simp,
          List.getElem?_range hk]
        rfl) W (by decide) (by decide) (by decide) (by decide) (by decide) hparts (by decide) (hM 1 _ rfl) t1
    refine ⟨?_, fun st => ?_⟩
    · rintro q (hq | rfl)
      · exact hlt q hq
      · exact hpz.1
    · obtain ⟨r, st', hr, h⟩ := denon_spiked st w k hk place a b (tbl.get (z.1 + z.2)) (hb 0 _ lo0 (by decide)) ha hab
        hside hmid hd
      refine ⟨_, _, hr, fun ss => ?_⟩
      rw [hsym]
      simpa using h ss

/-- A series of transmissions, if it is known how each is heard. -/
theorem denon_tells {S : Type} (t : Target) (f : Nat) (m : Mono) (hm : m = Mono.u32 ∨ m = Mono.u64)
    (tbl : PulseSpans) (conv : DenonCommand → K) (u phase t0 g : Nat) (hg : Pause tbl m.width [0] (0, g))
    (step : BitVec 64 → S → List (Res DenonCommand) → BitVec 64 → Prop) (items : List ((S × List (Nat × Nat)) × (Nat × Nat)))
    (hone : ∀ i ∈ items, ∀ t1, (∀ q ∈ clockedPulses u f phase t1 (i.1.2 ++ [i.2]), q.1 + q.2 < 2 ^ m.width) ∧
      ∀ st, ∃ r st', step st i.1.1 r st' ∧ ∀ ss,
        denonParse st ((clockedPulses u f phase t1 (i.1.2 ++ [i.2])).map (fun p => tbl.get (p.1 + p.2)) ++ ss) =
          r ++ denonParse st' ss) :
    ∃ rs, (results (denonDecoder t m tbl) conv
        ((true, g) :: clocked u f phase t0 (series (fun i => i.2) items))).map said = some (rs.map (Res.map conv)) ∧
      Tells step 0 (items.map fun i => i.1.1) rs := by
  have hlt : ∀ q ∈ clockedPulses u f phase t0 (allPulses items), q.1 + q.2 < 2 ^ m.width :=
    all_small (fun i hi t1 => (hone i hi t1).1) t0
  have hgw : g < 2 ^ m.width := by simpa using hg.1
  rw [clocked_all]
  rcases hr : results (denonDecoder t m tbl) conv
      ((true, g) :: pulses (clockedPulses u f phase t0 (allPulses items))) with _ | outs
  · exact absurd ((C30_denon_panics_iff t m hm tbl conv _).mp hr).2 (pulses_small hgw hlt)
  · refine ⟨_, ?_, tells_parse denonParse _ (fun _ => by rw [denonParse]) items
      (fun i hi t1 st => (hone i hi t1).2 st) t0 0⟩
    rw [Option.map_some, C67_denon t m (Mono.prim_lawful hm) tbl conv _ outs hr, pulses_symbols tbl hgw hlt, denonParse_skip]
    exact fun h => hg.2 0 (by simp) (by simpa using get_inTol h)

/-- **C93**, Denon. -/
theorem C93_denon (t : Target) (f j : Nat) (hlo : 20000 ≤ f) (hf : f < 2 ^ 32) (m : Mono)
    (hm : m = Mono.u32 ∨ m = Mono.u64) (tbl : PulseSpans) (htbl : denonSpans t m f = some tbl)
    (hc : coversAll tbl f j denonLengths = true) (conv : DenonCommand → K) (u : Nat) (hu : 0 < u) (phase t0 g : Nat)
    (hg : Pause tbl m.width [0] (0, g)) (items : List ((DenonSpiked × List (Nat × Nat)) × (Nat × Nat)))
    (hok : ∀ i ∈ items, i.1.1.Wire u j i.1.2 ∧
      16000 * u ≤ 1000000 * (i.2.1 + i.2.2) ∧ (i.2.1 + i.2.2) * f + u < 2 ^ m.width * u) :
    ∃ rs, (results (denonDecoder t m tbl) conv
        ((true, g) :: clocked u f phase t0 (series (fun i => i.2) items))).map said = some (rs.map (Res.map conv)) ∧
      Tells denonSpikedAnswer 0 (items.map fun i => i.1.1) rs :=
  denon_tells t f m hm tbl conv u phase t0 g hg _ items fun i hi =>
    denon_spiked_one t f j hlo hf m hm tbl htbl hc u hu phase i.1.1 i.1.2 i.2 (hok i hi).1 (hok i hi).2.1 (hok i hi).2.2

end Infrared
