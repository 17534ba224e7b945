import Verif.Spec.Missing
import Verif.Props.SpikeBi

/-!
# Transmissions with a missing mark (C94)
-/

namespace Infrared

open Spec

variable {C K : Type}

/-! ## What is measured -/

/-- What is measured of a transmission two periods of which became one. -/
theorem joined_symbols {tbl : PulseSpans} {n u f phase width : Nat} (hun : Unambiguous tbl n) (hfit : Fits tbl width)
    (hf : f < 2 ^ 32) (hwd : 32 ≤ width) (hbound : ∀ d x, x < n → tbl.get d = some x → 1000000 * d ≤ 20000 * f)
    {slots : List Nat} (hs : ∀ x ∈ slots, x < n) {whole ps : List (Nat × Nat)} {k : Nat} {p : Nat × Nat}
    (hm : ∀ t, Matches tbl slots (clockedPulses u f phase t whole)) (hd : Joined whole k p ps) (t : Nat) :
    ∃ a b s s', slots[k]? = some s ∧ slots[k + 1]? = some s' ∧ tbl.get a = some s ∧ tbl.get b = some s' ∧
      (clockedPulses u f phase t ps).map (fun p => tbl.get (p.1 + p.2)) =
        (slots.take k).map some ++ tbl.get (a + b) :: (slots.drop (k + 2)).map some ∧
      ∀ x ∈ clockedPulses u f phase t ps, x.1 + x.2 < 2 ^ width := by
  obtain ⟨⟨⟨x1, x2⟩, ⟨y1, y2⟩, hx, hy, hsum⟩, rfl⟩ := hd
  obtain ⟨p1, p2⟩ := p
  dsimp only at hsum ⊢
  have hk := (List.getElem?_eq_some_iff.mp hy).1
  have hwhole : whole = whole.take k ++ (x1, x2) :: (y1, y2) :: whole.drop (k + 2) := by
    conv_lhs => rw [← List.take_append_drop k whole, List.drop_eq_getElem_cons (by omega), List.drop_eq_getElem_cons hk]
    rw [(List.getElem?_eq_some_iff.mp hx).2, (List.getElem?_eq_some_iff.mp hy).2]
  have hlen := (hm t).1
  rw [clockedPulses_length] at hlen
  have hsym := matches_symbols hun hs (hm t)
  have hall : ∀ y ∈ clockedPulses u f phase t whole, y.1 + y.2 < 2 ^ width := by
    intro y hy
    obtain ⟨i, hi⟩ := List.mem_iff_getElem?.mp hy
    have hlt := (List.getElem?_eq_some_iff.mp hi).1
    rw [(hm t).1] at hlt
    exact inTol_lt hfit ((hm t).2 i y _ hi (List.getElem?_eq_getElem hlt))
  have htk : (whole.take k).length = k := by rw [List.length_take]; omega
  have hw2 : clockedPulses u f phase t whole = clockedPulses u f phase t (whole.take k) ++
      (reading u f phase (t + span (whole.take k) + x1) - reading u f phase (t + span (whole.take k)),
        reading u f phase (t + span (whole.take k) + x1 + x2) - reading u f phase (t + span (whole.take k) + x1)) ::
      (reading u f phase (t + span (whole.take k) + x1 + x2 + y1) - reading u f phase (t + span (whole.take k) + x1 + x2),
        reading u f phase (t + span (whole.take k) + x1 + x2 + y1 + y2) -
          reading u f phase (t + span (whole.take k) + x1 + x2 + y1)) ::
      clockedPulses u f phase (t + span (whole.take k) + p1 + p2) (whole.drop (k + 2)) := by
    conv_lhs => rw [hwhole, clockedPulses_append, clockedPulses, clockedPulses]
    rw [show t + span (whole.take k) + x1 + x2 + y1 + y2 = t + span (whole.take k) + p1 + p2 by omega]
  have hp2 : clockedPulses u f phase t (whole.take k ++ (p1, p2) :: whole.drop (k + 2)) =
      clockedPulses u f phase t (whole.take k) ++
      (reading u f phase (t + span (whole.take k) + p1) - reading u f phase (t + span (whole.take k)),
        reading u f phase (t + span (whole.take k) + p1 + p2) - reading u f phase (t + span (whole.take k) + p1)) ::
      clockedPulses u f phase (t + span (whole.take k) + p1 + p2) (whole.drop (k + 2)) := by
    rw [clockedPulses_append, clockedPulses]
  generalize t + span (whole.take k) = t1 at hw2 hp2
  rw [hw2, List.map_append, List.map_cons, List.map_cons] at hsym
  have hA : (clockedPulses u f phase t (whole.take k)).length = k := by rw [clockedPulses_length, htk]
  have hks : k + 1 < slots.length := by omega
  have hslots : slots.map some = (slots.take k).map some ++ some (slots[k]'(by omega)) :: some slots[k + 1] ::
      (slots.drop (k + 2)).map some := by
    conv_lhs => rw [← List.take_append_drop k slots, List.drop_eq_getElem_cons (by omega), List.drop_eq_getElem_cons hks]
    rw [List.map_append, List.map_cons, List.map_cons]
  rw [hslots] at hsym
  obtain ⟨hs1, hs2⟩ := List.append_inj hsym (by rw [List.length_map, hA, List.length_map, List.length_take]; omega)
  rw [List.cons.injEq, List.cons.injEq] at hs2
  obtain ⟨g1, g2, g3⟩ := hs2
  have m1 := reading_mono u f phase t1 x1
  have m2 := reading_mono u f phase (t1 + x1) x2
  have m3 := reading_mono u f phase (t1 + x1 + x2) y1
  have m4 := reading_mono u f phase (t1 + x1 + x2 + y1) y2
  have m5 := reading_mono u f phase t1 p1
  have m6 := reading_mono u f phase (t1 + p1) p2
  have he : t1 + x1 + x2 + y1 + y2 = t1 + p1 + p2 := by omega
  rw [he] at m4
  dsimp only at g1 g2
  rw [he] at g2
  have b1 := hbound _ _ (hs _ (List.getElem_mem (by omega))) g1
  have b2 := hbound _ _ (hs _ (List.getElem_mem hks)) g2
  have hadd : reading u f phase (t1 + p1) - reading u f phase t1 +
        (reading u f phase (t1 + p1 + p2) - reading u f phase (t1 + p1)) =
      reading u f phase (t1 + x1) - reading u f phase t1 +
        (reading u f phase (t1 + x1 + x2) - reading u f phase (t1 + x1)) +
      (reading u f phase (t1 + x1 + x2 + y1) - reading u f phase (t1 + x1 + x2) +
        (reading u f phase (t1 + p1 + p2) - reading u f phase (t1 + x1 + x2 + y1))) := by omega
  refine ⟨_, _, _, _, List.getElem?_eq_getElem (by omega), List.getElem?_eq_getElem hks, g1, g2, ?_, ?_⟩
  · rw [hp2, List.map_append, List.map_cons, hs1, g3]
    dsimp only
    rw [hadd]
  · intro y hy
    rw [hp2, List.mem_append, List.mem_cons] at hy
    rcases hy with hy | rfl | hy
    · exact hall y (by rw [hw2]; exact List.mem_append_left _ hy)
    · have : 2 ^ 32 ≤ 2 ^ width := Nat.pow_le_pow_right (by decide) hwd
      dsimp only
      rw [hadd]
      omega
    · exact hall y (by rw [hw2]; exact List.mem_append_right _ (List.mem_cons_of_mem _ (List.mem_cons_of_mem _ hy)))

/-- Two bits together are no zero, and a one only if both were zeros. -/
theorem joined_bits {tbl : PulseSpans} {f z o zlo zhi olo ohi : Nat} (hf : 0 < f) (W : BitWindows tbl f z o zlo zhi olo ohi)
    (c1 : zhi < 2 * zlo) (c3 : ohi < olo + zlo) (c4 : zlo ≤ olo) {a b : Nat} {x y : Bool}
    (ha : tbl.get a = some (if x then o else z)) (hb : tbl.get b = some (if y then o else z)) :
    tbl.get (a + b) ≠ some z ∧ (tbl.get (a + b) = some o → x = false ∧ y = false) := by
  have k1 : zhi * f < 2 * (zlo * f) := by
    rw [← Nat.mul_assoc]; exact (Nat.mul_lt_mul_right hf).mpr c1
  have k3 : ohi * f < olo * f + zlo * f := by
    rw [← Nat.add_mul]; exact (Nat.mul_lt_mul_right hf).mpr c3
  have k4 : zlo * f ≤ olo * f := Nat.mul_le_mul_right f c4
  have la : zlo * f ≤ 1000000 * a ∧ (x = true → olo * f ≤ 1000000 * a) := by
    cases x with
    | false => exact ⟨(W.zero a ha).1, fun h => by cases h⟩
    | true => have := (W.one a ha).1; exact ⟨by omega, fun _ => this⟩
  have lb : zlo * f ≤ 1000000 * b ∧ (y = true → olo * f ≤ 1000000 * b) := by
    cases y with
    | false => exact ⟨(W.zero b hb).1, fun h => by cases h⟩
    | true => have := (W.one b hb).1; exact ⟨by omega, fun _ => this⟩
  refine ⟨fun h => ?_, fun h => ?_⟩
  · have := (W.zero _ h).2
    omega
  · have := (W.one _ h).2
    constructor
    · cases x with
      | false => rfl
      | true => have := la.2 rfl; omega
    · cases y with
      | false => rfl
      | true => have := lb.2 rfl; omega

theorem fuse_getLsbD {n : Nat} (w : BitVec n) (k i : Nat) (hi : i < n) : (fuse k w).getLsbD i =
    if i < k then w.getLsbD i else if i = k then true else w.getLsbD (i + 1) := by
  rw [fuse, BitVec.getLsbD_or, BitVec.getLsbD_or, firstBits, BitVec.getLsbD_setWidth, BitVec.getLsbD_setWidth,
    BitVec.getLsbD_shiftLeft, BitVec.getLsbD_shiftLeft, BitVec.getLsbD_ushiftRight, BitVec.getLsbD_one]
  by_cases h1 : i < k
  · simp [h1, hi, show i < k + 1 by omega]
  · by_cases h2 : i = k
    · subst h2
      simp [hi]
      omega
    · simp [h1, h2, hi, show ¬ i < k + 1 by omega, show ¬ i - k = 0 by omega,
        show k + 2 + (i - (k + 1)) = i + 1 by omega]

/-- The bits that are read if two zeros are taken for a one. -/
theorem fuse_word {n : Nat} (w : BitVec n) (k : Nat) (hk : k + 1 < n) (m : Nat) :
    wordOf m (((List.range n).map w.getLsbD).take k ++ true :: ((List.range n).map w.getLsbD).drop (k + 2)) =
      (fuse k w).setWidth m := by
  refine BitVec.eq_of_getLsbD_eq fun i hi => ?_
  rw [wordOf_getLsbD _ _ _ hi, BitVec.getLsbD_setWidth]
  have hl : (((List.range n).map w.getLsbD).take k).length = k := by simp; omega
  by_cases h1 : i < k
  · rw [List.getElem?_append_left (by omega), List.getElem?_take, if_pos h1, List.getElem?_map,
      List.getElem?_range (by omega), fuse_getLsbD _ _ _ (by omega), if_pos h1]
    simp [hi]
  · rw [List.getElem?_append_right (by omega), hl]
    obtain ⟨j, rfl⟩ : ∃ j, i = k + j := ⟨i - k, by omega⟩
    rw [show k + j - k = j by omega]
    rcases j with _ | j
    · rw [fuse_getLsbD _ _ _ (by omega)]
      simp
      omega
    · rw [List.getElem?_cons_succ, List.getElem?_drop, List.getElem?_map]
      by_cases hin : k + 2 + j < n
      · rw [List.getElem?_range hin, fuse_getLsbD _ _ _ (by omega), if_neg h1, if_neg (by omega),
          show k + (j + 1) + 1 = k + 2 + j by omega]
        simp [hi]
      · rw [List.getElem?_eq_none (by simpa using by omega)]
        by_cases hin' : k + (j + 1) < n
        · rw [fuse_getLsbD _ _ _ hin', if_neg h1, if_neg (by omega), BitVec.getLsbD_of_ge w _ (by omega)]
          simp
        · rw [BitVec.getLsbD_of_ge _ _ (by omega)]
          simp

theorem drop_word {n : Nat} (w : BitVec n) (m : Nat) :
    wordOf m (((List.range n).map w.getLsbD).drop 1) = (w >>> 1).setWidth m := by
  refine BitVec.eq_of_getLsbD_eq fun i hi => ?_
  rw [wordOf_getLsbD _ _ _ hi, BitVec.getLsbD_setWidth, BitVec.getLsbD_ushiftRight, List.getElem?_drop, List.getElem?_map]
  by_cases hin : 1 + i < n
  · rw [List.getElem?_range hin]
    simp [hi]
  · rw [List.getElem?_eq_none (by simpa using by omega), BitVec.getLsbD_of_ge w _ (by omega)]
    simp

/-! ## NEC family -/

theorem nec_hurt_step (unpack : BitVec 32 → Bool → Option C) (last w : BitVec 32) (k : Nat) (hk : k < 32) (c d : Option Nat)
    (h0 : k = 0 → c ≠ some 1)
    (h1 : 0 < k → c ≠ some 2 ∧ (c = some 3 → w.getLsbD (k - 1) = false ∧ w.getLsbD k = false))
    (hd : ∀ x, x < 4 → d ≠ some x) :
    ∃ r last', necHurtAnswer unpack last (.missing w k) r last' ∧ ∀ ss,
      necParse unpack last (((necSlots w).take k).map some ++ c :: ((necSlots w).drop (k + 2)).map some ++ d :: ss) =
        r ++ necParse unpack last' ss := by
  have hd' : ∀ st ss, necParse unpack st (d :: ss) = necParse unpack st ss := fun st ss =>
    necParse_skip _ _ _ _ (hd 0 (by decide)) (hd 1 (by decide))
  have e2 : ((necSlots w).drop (k + 2)).map some = (((List.range 32).map w.getLsbD).drop (k + 1)).map bitSym := by
    rw [necSlots, List.drop_succ_cons, ← List.map_drop, ← List.map_drop, List.map_map, List.map_map]
    rfl
  rcases k with _ | k
  · simp only [e2, List.take_zero, List.map_nil, List.nil_append, List.cons_append, Nat.zero_add]
    by_cases hc : c = some 0
    · subst hc
      refine ⟨_, _, .header w, fun ss => ?_⟩
      rw [parse_broken _ _ _ (by simp) _ (hd 2 (by decide)) (hd 3 (by decide)), drop_word w, BitVec.setWidth_eq]
      rfl
    · refine ⟨_, _, .unheard w, fun ss => ?_⟩
      rw [necParse_skip _ _ _ _ hc (h0 rfl), necParse_bits, hd']
      rfl
  · obtain ⟨h2, h3⟩ := h1 (by omega)
    have e1 : ((necSlots w).take (k + 1)).map some = some 0 :: (((List.range 32).map w.getLsbD).take k).map bitSym := by
      rw [necSlots, List.take_succ_cons, List.map_cons, ← List.map_take, ← List.map_take, List.map_map, List.map_map]
      rfl
    simp only [e1, e2, List.cons_append, List.append_assoc]
    by_cases hc : c = some 3
    · obtain ⟨z0, z1⟩ := h3 hc
      rw [Nat.add_sub_cancel] at z0
      refine ⟨_, _, .fused w k z0 z1, fun ss => ?_⟩
      have e : (((List.range 32).map w.getLsbD).take k).map bitSym ++ c ::
            ((((List.range 32).map w.getLsbD).drop (k + 1 + 1)).map bitSym ++ d :: ss) =
          (((List.range 32).map w.getLsbD).take k ++ true :: ((List.range 32).map w.getLsbD).drop (k + 2)).map bitSym ++
            d :: ss := by
        rw [List.map_append, List.map_cons, List.append_assoc, hc]
        rfl
      rw [e, parse_broken _ _ _ (by simp; omega) _ (hd 2 (by decide)) (hd 3 (by decide)), fuse_word w k (by omega) 32,
        BitVec.setWidth_eq]
      rfl
    · refine ⟨_, _, .bit w k, fun ss => ?_⟩
      rw [parse_broken _ _ _ (by simp; omega) _ h2 hc, wordOf_take, necParse_bits, hd']
      rfl

theorem necSlots_bit (w : BitVec 32) (i : Nat) (hi : i < 32) : (necSlots w)[i + 1]? = some (if w.getLsbD i then 3 else 2) := by
  rw [necSlots, List.getElem?_cons_succ, List.getElem?_map, List.getElem?_range hi]
  rfl

/-- Headers and repeat codes. -/
theorem nec_header_high {t : Target} {m : Mono} (hm : m = Mono.u32 ∨ m = Mono.u64) {f : Nat} (hlo : 20000 ≤ f) (hf : f < 2 ^ 32)
    {v : NecVariant C} (hv : v.Shipped) {tbl : PulseSpans} (htbl : necSpans t m v f = some tbl) :
    (∀ d, tbl.get d = some 0 → 1000000 * d ≤ 15000 * f) ∧ (∀ d, tbl.get d = some 1 → 1000000 * d ≤ 15000 * f) ∧
      ∀ d e, tbl.get d = some 0 → tbl.get e = some 1 → e < d := by
  rcases hv with hv | hv
  · have hb : Kind.nec.build t m f = some tbl := by
      rw [← htbl]; simp only [Kind.build, necSpans, hv]; rfl
    refine ⟨fun d h => ?_, fun d h => ?_, fun d e h h' => ?_⟩
    · have := ((C52_rejects .nec t m hm f hf tbl hb 0 d (get_inTol h)).1 _ _ rfl).1
      omega
    · have := ((C52_rejects .nec t m hm f hf tbl hb 1 d (get_inTol h)).1 _ _ rfl).1
      omega
    · have h1 := ((C52_rejects .nec t m hm f hf tbl hb 0 d (get_inTol h)).1 _ _ rfl).2
      have h2 := ((C52_rejects .nec t m hm f hf tbl hb 1 e (get_inTol h')).1 _ _ rfl).1
      omega
  · have hb : Kind.samsung.build t m f = some tbl := by
      rw [← htbl]; simp only [Kind.build, necSpans, hv]; rfl
    refine ⟨fun d h => ?_, fun d h => ?_, fun d e h h' => ?_⟩
    · have := ((C52_rejects .samsung t m hm f hf tbl hb 0 d (get_inTol h)).1 _ _ rfl).1
      omega
    · have := ((C52_rejects .samsung t m hm f hf tbl hb 1 d (get_inTol h)).1 _ _ rfl).1
      omega
    · have h1 := ((C52_rejects .samsung t m hm f hf tbl hb 0 d (get_inTol h)).1 _ _ rfl).2
      have h2 := ((C52_rejects .samsung t m hm f hf tbl hb 1 e (get_inTol h')).1 _ _ rfl).1
      omega

theorem nec_hurt_one (t : Target) (f j : Nat) (hlo : 20000 ≤ f) (hf : f < 2 ^ 32) (v : NecVariant C)
    (hv : v.Shipped) (m : Mono) (hm : m = Mono.u32 ∨ m = Mono.u64) (tbl : PulseSpans)
    (htbl : necSpans t m v f = some tbl) (hc : coversAll tbl f j (necLengths v) = true) (u : Nat)
    (hu : 0 < u) (phase : Nat) (s : NecHurt) (ps : List (Nat × Nat)) (pz : Nat × Nat)
    (h1 : s.Wire u j (v.pulseDistance.headerHigh + v.pulseDistance.headerLow)
      (v.pulseDistance.headerHigh + v.pulseDistance.repeatLow) ps)
    (h2 : 16000 * u ≤ 1000000 * (pz.1 + pz.2)) (h3 : (pz.1 + pz.2) * f + u < 2 ^ m.width * u) (t1 : Nat) :
    (∀ q ∈ clockedPulses u f phase t1 (ps ++ [pz]), q.1 + q.2 < 2 ^ m.width) ∧
      ∀ st : BitVec 32, ∃ r st', necHurtAnswer v.unpack st s r st' ∧ ∀ ss,
        necParse v.unpack st ((clockedPulses u f phase t1 (ps ++ [pz])).map (fun p => tbl.get (p.1 + p.2)) ++ ss) =
          r ++ necParse v.unpack st' ss := by
  cases s with
  | other s =>
    obtain ⟨g1, g2⟩ := nec_spiked_one t f j hlo hf v hv m hm tbl htbl hc u hu phase s ps pz h1 h2 h3 t1
    refine ⟨g1, fun st => ?_⟩
    obtain ⟨r, st', hr, h⟩ := g2 st
    exact ⟨r, st', .other s r st' hr, h⟩
  | missing w k =>
    obtain ⟨hun, hfit⟩ := necSpans_good hm t hlo hf v hv htbl
    obtain ⟨⟨hi2, hi3⟩, ⟨lo0, lo1, lo2, -⟩⟩ := nec_windows hm hlo hf hv htbl
    obtain ⟨hh0, hh1, hh01⟩ := nec_header_high hm hlo hf hv htbl
    have W : BitWindows tbl f 2 3 799 1400 1929 2520 :=
      ⟨fun d h => ⟨lo2 d h, hi2 d h⟩, fun d h => ⟨(hi3 d h).2, (hi3 d h).1⟩⟩
    have hM : ∀ s l, (necLengths v)[s]? = some l → Measures tbl u f phase j s l :=
      fun _ _ hs => measures_of_covers hu (coversAll_get hc hs)
    obtain ⟨kd, hkd, he⟩ := nec_kind v hv
    have hb := htbl
    rw [he] at hb
    have hkn : ∀ x ∈ List.range 4, x < kd.symbols.length := by
      rcases hkd with ⟨rfl, -⟩ | ⟨rfl, -⟩ <;> decide
    have hpz := prim_pause hm hf hlo hu kd hb (phase := phase) (List.range 4) hkn pz h2 h3 (t1 + span ps)
    obtain ⟨z1, z2⟩ := pz
    have hcl : clockedPulses u f phase t1 (ps ++ [(z1, z2)]) = clockedPulses u f phase t1 ps ++
        [(reading u f phase (t1 + span ps + z1) - reading u f phase (t1 + span ps),
          reading u f phase (t1 + span ps + z1 + z2) - reading u f phase (t1 + span ps + z1))] := by
      rw [clockedPulses_append]; rfl
    dsimp only at hpz
    generalize (reading u f phase (t1 + span ps + z1) - reading u f phase (t1 + span ps),
          reading u f phase (t1 + span ps + z1 + z2) - reading u f phase (t1 + span ps + z1)) = z at hcl hpz
    have hd : ∀ x, x < 4 → tbl.get (z.1 + z.2) ≠ some x :=
      fun x hx h => hpz.2 x (List.mem_range.mpr hx) (get_inTol h)
    obtain ⟨hk, whole, p, hnear, hjoin⟩ := h1
    have hmt : ∀ t', Matches tbl (necSlots w) (clockedPulses u f phase t' whole) := fun t' => by
      have := matches_of_measures (tbl := tbl) (u := u) (f := f) (phase := phase) (j := j)
        (us := (NecSent.frame w 33).periods (v.pulseDistance.headerHigh + v.pulseDistance.headerLow)
          (v.pulseDistance.headerHigh + v.pulseDistance.repeatLow)) (slots := (NecSent.frame w 33).slots)
        (by simp [NecSent.periods, NecSent.slots, necPeriods, necSlots])
        (fun i l x => nec_lengths_ok hM (.frame w 33) i l x) (ps := whole)
      rw [NecSent.periods, NecSent.slots, List.take_of_length_le (by simp [necPeriods]),
        List.take_of_length_le (by simp [necSlots])] at this
      exact this hnear t'
    have hslt : ∀ x ∈ necSlots w, x < 4 := by
      have := (NecSent.frame w 33).slots_lt
      rwa [NecSent.slots, List.take_of_length_le (by simp [necSlots])] at this
    have hbound : ∀ d x, x < 4 → tbl.get d = some x → 1000000 * d ≤ 20000 * f := by
      intro d x hx h
      rcases (by omega : x = 0 ∨ x = 1 ∨ x = 2 ∨ x = 3) with rfl | rfl | rfl | rfl
      · have := hh0 d h; omega
      · have := hh1 d h; omega
      · have := hi2 d h; omega
      · have := (hi3 d h).1; omega
    obtain ⟨a, b, x, y, hx, hy, ha, hb', hsym, hlt⟩ := joined_symbols (width := m.width) hun hfit hf
      (by rcases hm with rfl | rfl <;> decide) hbound hslt hmt hjoin t1
    have g0 : k = 0 → tbl.get (a + b) ≠ some 1 := by
      rintro rfl h
      simp only [necSlots, List.getElem?_cons_zero, Option.some.injEq] at hx
      subst hx
      have := hh01 _ _ ha h
      omega
    have g1 : 0 < k → tbl.get (a + b) ≠ some 2 ∧
        (tbl.get (a + b) = some 3 → w.getLsbD (k - 1) = false ∧ w.getLsbD k = false) := by
      intro h0
      obtain ⟨i, rfl⟩ : ∃ i, k = i + 1 := ⟨k - 1, by omega⟩
      rw [necSlots_bit w i (by omega), Option.some.injEq] at hx
      rw [necSlots_bit w (i + 1) hk, Option.some.injEq] at hy
      subst hx
      subst hy
      exact joined_bits (by omega) W (by decide) (by decide) (by decide) ha hb'
    rw [hcl]
    simp only [List.map_append, List.map_cons, List.map_nil, List.append_assoc, List.cons_append, List.nil_append,
      List.mem_append, List.mem_singleton]
    refine ⟨?_, fun st => ?_⟩
    · rintro q (hq | rfl)
      · exact hlt q hq
      · exact hpz.1
    · obtain ⟨r, st', hr, h⟩ := nec_hurt_step v.unpack st w k hk (tbl.get (a + b)) (tbl.get (z.1 + z.2)) g0 g1 hd
      refine ⟨r, st', hr, fun ss => ?_⟩
      rw [hsym]
      simpa using h ss

/-- **C94**, NEC family: of a series of transmissions, any of them with a missing mark or a spike, each followed by a pause
of 16 ms or more, the undisturbed ones are answered as ever and the others as `necHurtAnswer` says. -/
theorem C94_nec (t : Target) (f j : Nat) (hlo : 20000 ≤ f) (hf : f < 2 ^ 32) (v : NecVariant C)
    (hv : v.Shipped) (m : Mono) (hm : m = Mono.u32 ∨ m = Mono.u64) (tbl : PulseSpans)
    (htbl : necSpans t m v f = some tbl) (hc : coversAll tbl f j (necLengths v) = true) (conv : C → K) (u : Nat)
    (hu : 0 < u) (phase t0 g : Nat) (hg : Pause tbl m.width [0, 1] (0, g))
    (items : List ((NecHurt × List (Nat × Nat)) × (Nat × Nat)))
    (hok : ∀ i ∈ items,
      i.1.1.Wire u j (v.pulseDistance.headerHigh + v.pulseDistance.headerLow)
        (v.pulseDistance.headerHigh + v.pulseDistance.repeatLow) i.1.2 ∧
      16000 * u ≤ 1000000 * (i.2.1 + i.2.2) ∧ (i.2.1 + i.2.2) * f + u < 2 ^ m.width * u) :
    ∃ rs, (results (necDecoder t m tbl v) conv
        ((true, g) :: clocked u f phase t0 (series (fun i => i.2) items))).map said = some (rs.map (Res.map conv)) ∧
      Tells (necHurtAnswer v.unpack) 0 (items.map fun i => i.1.1) rs :=
  nec_tells t f v m hm tbl conv u phase t0 g hg _ items fun i hi =>
    nec_hurt_one t f j hlo hf v hv m hm tbl htbl hc u hu phase i.1.1 i.1.2 i.2 (hok i hi).1 (hok i hi).2.1 (hok i hi).2.2

/-! ## SBP -/

theorem sbp_hurt_step (ad : BitVec 16) (w : BitVec 20) (k : Nat) (hk : k < 37) (c d : Option Nat)
    (h2 : 0 < k → c ≠ some 2) (h16 : k = 16 → c ≠ some 3) (h17 : k = 17 → c ≠ some 1) (hd : ∀ x, x < 4 → d ≠ some x) :
    ∃ r, sbpHurtAnswer () (.missing ad w k) r () ∧ ∀ ss,
      sbpParse (((sbpSlots ad w).take k).map some ++ c :: ((sbpSlots ad w).drop (k + 2)).map some ++ d :: ss) =
        r ++ sbpParse ss := by
  have hd' : ∀ ss, sbpParse (d :: ss) = sbpParse ss := fun ss => sbpParse_skip _ _ (hd 0 (by decide))
  have hdata : ∀ ss, sbpParse (some 1 :: (((List.range 20).map w.getLsbD).map bitSym ++ d :: ss)) = sbpParse ss := fun ss => by
    rw [sbpParse_skip _ _ (by simp), sbpParse_bits, hd']
  rw [List.map_take, List.map_drop, sbpSlots_map]
  rcases k with _ | k
  · rw [List.take_zero, List.nil_append, List.drop_succ_cons, List.drop_append_of_le_length (by simp), ← List.map_drop]
    simp only [List.cons_append, List.append_assoc]
    by_cases hc : c = some 0
    · subst hc
      refine ⟨_, .address ad w 0 (by decide), fun ss => ?_⟩
      rw [sbp_parse_address _ (by simp) _ (by decide) (by decide), sbpParse_bits, hd']
      rfl
    · refine ⟨_, .unheard ad w, fun ss => ?_⟩
      rw [sbpParse_skip _ _ hc, sbpParse_bits, hdata]
      rfl
  · rw [List.take_succ_cons, List.drop_succ_cons]
    by_cases ha : k < 15
    · -- two bits of the address
      rw [List.take_append_of_le_length (by simp; omega), List.drop_append_of_le_length (by simp; omega), ← List.map_take,
        ← List.map_drop]
      simp only [List.cons_append, List.append_assoc]
      refine ⟨_, .address ad w (k + 1) (by omega), fun ss => ?_⟩
      by_cases hc : c = some 3
      · have e : ((((List.range 16).map ad.getLsbD).take k).map bitSym ++ c ::
              ((((List.range 16).map ad.getLsbD).drop (k + 2)).map bitSym ++
                (some 1 :: (((List.range 20).map w.getLsbD).map bitSym ++ d :: ss)))) =
            (((List.range 16).map ad.getLsbD).take k ++ true :: ((List.range 16).map ad.getLsbD).drop (k + 2)).map bitSym ++
              some 1 :: (((List.range 20).map w.getLsbD).map bitSym ++ d :: ss) := by
          rw [List.map_append, List.map_cons, List.append_assoc, hc]
          rfl
        rw [show k + 1 + 1 = k + 2 from rfl, e, sbp_parse_address _ (by simp; omega) _ (by decide) (by decide), sbpParse_bits, hd']
        rfl
      · rw [sbp_parse_address _ (by simp; omega) _ (h2 (by omega)) hc, sbpParse_bits, hdata]
        rfl
    · by_cases h15 : k = 15
      · -- the last bit of the address and the divider
        subst h15
        rw [List.take_append_of_le_length (by simp), ← List.map_take,
          show 15 + 1 + 1 = (((List.range 16).map ad.getLsbD).map bitSym).length + 1 by simp, List.drop_length_add_append]
        simp only [List.cons_append, List.append_assoc, List.drop_succ_cons, List.drop_zero]
        refine ⟨_, .address ad w 16 (by decide), fun ss => ?_⟩
        rw [sbp_parse_address _ (by simp) _ (h2 (by omega)) (h16 rfl), sbpParse_bits, hd']
        rfl
      · by_cases h16' : k = 16
        · -- the divider and a bit
          subst h16'
          rw [List.take_left' (by simp),
            show 16 + 1 + 1 = (((List.range 16).map ad.getLsbD).map bitSym).length + 2 by simp, List.drop_length_add_append]
          simp only [List.cons_append, List.append_assoc, List.drop_succ_cons]
          rw [← List.map_drop]
          refine ⟨_, .data ad w 17 (by decide), fun ss => ?_⟩
          rw [sbp_parse_divider _ (by simp) _ (h17 rfl), sbpParse_bits, hd']
          rfl
        · -- two bits of the data
          obtain ⟨i, rfl⟩ : ∃ i, k = 17 + i := ⟨k - 17, by omega⟩
          have e1 : (((List.range 16).map ad.getLsbD).map bitSym ++ some 1 :: ((List.range 20).map w.getLsbD).map bitSym).take
              (17 + i) = ((List.range 16).map ad.getLsbD).map bitSym ++ some 1 :: (((List.range 20).map w.getLsbD).take i).map bitSym := by
            rw [List.take_append, List.take_of_length_le (by simp; omega), List.length_map, List.length_map, List.length_range,
              show 17 + i - 16 = i + 1 by omega, List.take_succ_cons, List.map_take]
          have e2 : (((List.range 16).map ad.getLsbD).map bitSym ++ some 1 :: ((List.range 20).map w.getLsbD).map bitSym).drop
              (17 + i + 1 + 1) = (((List.range 20).map w.getLsbD).drop (i + 2)).map bitSym := by
            rw [List.drop_append, List.drop_of_length_le (by simp; omega), List.length_map, List.length_map, List.length_range,
              show 17 + i + 1 + 1 - 16 = i + 2 + 1 by omega, List.drop_succ_cons, List.map_drop, List.nil_append]
          rw [e1, e2]
          simp only [List.cons_append, List.append_assoc]
          refine ⟨_, .data ad w (17 + i + 1) (by omega), fun ss => ?_⟩
          by_cases hc : c = some 3
          · have e : ((((List.range 20).map w.getLsbD).take i).map bitSym ++ c ::
                  ((((List.range 20).map w.getLsbD).drop (i + 2)).map bitSym ++ d :: ss)) =
                (((List.range 20).map w.getLsbD).take i ++ true :: ((List.range 20).map w.getLsbD).drop (i + 2)).map bitSym ++
                  d :: ss := by
              rw [List.map_append, List.map_cons, List.append_assoc, hc]
              rfl
            rw [e, sbp_parse_data _ _ (by simp) (by simp; omega) _ (hd 2 (by decide)) (hd 3 (by decide))]
            rfl
          · rw [sbp_parse_data _ _ (by simp) (by simp; omega) _ (h2 (by omega)) hc, sbpParse_bits, hd']
            rfl

theorem sbpSlots_address (a : BitVec 16) (w : BitVec 20) (i : Nat) (hi : i < 16) :
    (sbpSlots a w)[i + 1]? = some (if a.getLsbD i then 3 else 2) := by
  rw [sbpSlots, List.append_assoc, List.append_assoc, List.getElem?_append_right (by simp),
    List.getElem?_append_left (by simp; omega), List.getElem?_map, show i + 1 - [0].length = i by simp, List.getElem?_range hi]
  rfl

theorem sbpSlots_data (a : BitVec 16) (w : BitVec 20) (i : Nat) (hi : i < 20) :
    (sbpSlots a w)[i + 18]? = some (if w.getLsbD i then 3 else 2) := by
  rw [sbpSlots, List.getElem?_append_right (by simp), List.getElem?_map]
  simp only [List.length_append, List.length_cons, List.length_nil, List.length_map, List.length_range]
  rw [show i + 18 - (0 + 1 + 16 + (0 + 1)) = i by omega, List.getElem?_range hi]
  rfl

theorem sbpSlots_divider (a : BitVec 16) (w : BitVec 20) : (sbpSlots a w)[17]? = some 1 := by
  rw [sbpSlots, List.getElem?_append_left (by simp), List.getElem?_append_right (by simp)]
  simp

theorem sbp_hurt_one (t : Target) (f j : Nat) (hlo : 20000 ≤ f) (hf : f < 2 ^ 32) (m : Mono)
    (hm : m = Mono.u32 ∨ m = Mono.u64) (tbl : PulseSpans) (htbl : sbpSpans t m f = some tbl)
    (hc : coversAll tbl f j sbpLengths = true) (u : Nat) (hu : 0 < u) (phase : Nat)
    (s : SbpHurt) (ps : List (Nat × Nat)) (pz : Nat × Nat) (h1 : s.Wire u j ps)
    (h2 : 16000 * u ≤ 1000000 * (pz.1 + pz.2)) (h3 : (pz.1 + pz.2) * f + u < 2 ^ m.width * u) (t1 : Nat) :
    (∀ q ∈ clockedPulses u f phase t1 (ps ++ [pz]), q.1 + q.2 < 2 ^ m.width) ∧
      ∀ st : Unit, ∃ r st', sbpHurtAnswer st s r st' ∧ ∀ ss,
        sbpParse ((clockedPulses u f phase t1 (ps ++ [pz])).map (fun p => tbl.get (p.1 + p.2)) ++ ss) =
          r ++ sbpParse ss := by
  cases s with
  | other s =>
    obtain ⟨g1, g2⟩ := sbp_spiked_one t f j hlo hf m hm tbl htbl hc u hu phase s ps pz h1 h2 h3 t1
    refine ⟨g1, fun st => ?_⟩
    obtain ⟨r, st', hr, h⟩ := g2 st
    exact ⟨r, st', .other s r hr, h⟩
  | missing ad w k =>
    have hun : Unambiguous tbl 4 := (C14_classification_unambiguous f hlo hf t m hm).2.2.2.2.2.2.1 tbl htbl
    have hfit : Fits tbl m.width := by
      have htbl' := htbl
      rw [sbpSpans_eq hm t hf, Option.some.injEq] at htbl'
      subst htbl'
      exact sbpTable_fits hf (by rcases hm with rfl | rfl <;> decide)
    have hM : ∀ s l, sbpLengths[s]? = some l → Measures tbl u f phase j s l :=
      fun _ _ hs => measures_of_covers hu (coversAll_get hc hs)
    obtain ⟨lo0, lo1, -, -⟩ := sbp_low hm hlo hf htbl
    have W := sbp_bits hm hlo hf htbl
    have hi0 : ∀ d, tbl.get d = some 0 → 1000000 * d ≤ 9450 * f := fun d h => by
      have := ((C52_rejects .sbp t m hm f hf tbl htbl 0 d (get_inTol h)).1 _ _ rfl).1
      omega
    have hi1 : ∀ d, tbl.get d = some 1 → 1000000 * d ≤ 5250 * f := fun d h => by
      have := ((C52_rejects .sbp t m hm f hf tbl htbl 1 d (get_inTol h)).1 _ _ rfl).1
      omega
    have hslt : ∀ x ∈ sbpSlots ad w, x < 4 := fun x hx =>
      sbpSent_lt (ad, w, 38) x (by rwa [sbpSent, List.take_of_length_le (by simp [sbpSlots])])
    have hpz := prim_pause hm hf hlo hu .sbp htbl (phase := phase) (List.range 4) (by decide) pz h2 h3 (t1 + span ps)
    obtain ⟨z1, z2⟩ := pz
    have hcl : clockedPulses u f phase t1 (ps ++ [(z1, z2)]) = clockedPulses u f phase t1 ps ++
        [(reading u f phase (t1 + span ps + z1) - reading u f phase (t1 + span ps),
          reading u f phase (t1 + span ps + z1 + z2) - reading u f phase (t1 + span ps + z1))] := by
      rw [clockedPulses_append]; rfl
    dsimp only at hpz
    generalize (reading u f phase (t1 + span ps + z1) - reading u f phase (t1 + span ps),
          reading u f phase (t1 + span ps + z1 + z2) - reading u f phase (t1 + span ps + z1)) = z at hcl hpz
    have hd : ∀ x, x < 4 → tbl.get (z.1 + z.2) ≠ some x :=
      fun x hx h => hpz.2 x (List.mem_range.mpr hx) (get_inTol h)
    obtain ⟨hk, whole, p, hnear, hjoin⟩ := h1
    have hmt : ∀ t', Matches tbl (sbpSlots ad w) (clockedPulses u f phase t' whole) := fun t' => by
      refine matches_of_measures (by simp [sbpPeriods, sbpSlots]) ?_ hnear t'
      unfold sbpPeriods sbpSlots
      exact append_ok (by simp) (append_ok (by simp) (append_ok (by simp)
        (single_ok (hM 0 _ rfl)) (bits_ok 16 _ _ _ _ _ (hM 3 _ rfl) (hM 2 _ rfl)))
        (single_ok (hM 1 _ rfl))) (bits_ok 20 _ _ _ _ _ (hM 3 _ rfl) (hM 2 _ rfl))
    have hbound : ∀ d x, x < 4 → tbl.get d = some x → 1000000 * d ≤ 20000 * f := by
      intro d x hx h
      rcases (by omega : x = 0 ∨ x = 1 ∨ x = 2 ∨ x = 3) with rfl | rfl | rfl | rfl
      · have := hi0 d h; omega
      · have := hi1 d h; omega
      · have := (W.zero d h).2; omega
      · have := (W.one d h).2; omega
    obtain ⟨a, b, x, y, hx, hy, ha, hb', hsym, hlt⟩ := joined_symbols (width := m.width) hun hfit hf
      (by rcases hm with rfl | rfl <;> decide) hbound hslt hmt hjoin t1
    have g2 : 0 < k → tbl.get (a + b) ≠ some 2 := by
      intro h0 h
      have hh := (W.zero _ h).2
      have low : ∀ d (q : Bool), tbl.get d = some (if q then 3 else 2) → 852 * f ≤ 1000000 * d := by
        intro d q hq
        cases q with
        | false => exact (W.zero d hq).1
        | true => have := (W.one d hq).1; omega
      have l1 : 852 * f ≤ 1000000 * a := by
        by_cases h17 : k = 17
        · subst h17
          rw [sbpSlots_divider, Option.some.injEq] at hx
          subst hx
          have := lo1 a ha
          omega
        · by_cases h16 : k ≤ 16
          · obtain ⟨i, rfl⟩ : ∃ i, k = i + 1 := ⟨k - 1, by omega⟩
            rw [sbpSlots_address ad w i (by omega), Option.some.injEq] at hx
            subst hx
            exact low a _ ha
          · obtain ⟨i, rfl⟩ : ∃ i, k = i + 18 := ⟨k - 18, by omega⟩
            rw [sbpSlots_data ad w i (by omega), Option.some.injEq] at hx
            subst hx
            exact low a _ ha
      have l2 : 852 * f ≤ 1000000 * b := by
        by_cases h17 : k = 16
        · subst h17
          rw [sbpSlots_divider, Option.some.injEq] at hy
          subst hy
          have := lo1 b hb'
          omega
        · by_cases h16 : k ≤ 16
          · rw [sbpSlots_address ad w k (by omega), Option.some.injEq] at hy
            subst hy
            exact low b _ hb'
          · obtain ⟨i, rfl⟩ : ∃ i, k = i + 17 := ⟨k - 17, by omega⟩
            rw [show i + 17 + 1 = i + 18 from rfl, sbpSlots_data ad w i (by omega), Option.some.injEq] at hy
            subst hy
            exact low b _ hb'
      omega
    have g16 : k = 16 → tbl.get (a + b) ≠ some 3 := by
      rintro rfl h
      rw [sbpSlots_divider, Option.some.injEq] at hy
      subst hy
      have := lo1 b hb'
      have := (W.one _ h).2
      omega
    have g17 : k = 17 → tbl.get (a + b) ≠ some 1 := by
      rintro rfl h
      rw [sbpSlots_divider, Option.some.injEq] at hx
      subst hx
      rw [show 17 + 1 = 0 + 18 from rfl, sbpSlots_data ad w 0 (by omega), Option.some.injEq] at hy
      subst hy
      have := lo1 a ha
      have := hi1 _ h
      rcases hq : w.getLsbD 0 with _ | _
      · rw [hq] at hb'
        have := (W.zero b hb').1
        omega
      · rw [hq] at hb'
        have := (W.one b hb').1
        omega
    rw [hcl]
    simp only [List.map_append, List.map_cons, List.map_nil, List.append_assoc, List.cons_append, List.nil_append,
      List.mem_append, List.mem_singleton]
    refine ⟨?_, fun st => ?_⟩
    · rintro q (hq | rfl)
      · exact hlt q hq
      · exact hpz.1
    · obtain ⟨r, hr, h⟩ := sbp_hurt_step ad w k hk (tbl.get (a + b)) (tbl.get (z.1 + z.2)) g2 g16 g17 hd
      refine ⟨r, (), hr, fun ss => ?_⟩
      rw [hsym]
      simpa using h ss

/-- **C94**, SBP. -/
theorem C94_sbp (t : Target) (f j : Nat) (hlo : 20000 ≤ f) (hf : f < 2 ^ 32) (m : Mono)
    (hm : m = Mono.u32 ∨ m = Mono.u64) (tbl : PulseSpans) (htbl : sbpSpans t m f = some tbl)
    (hc : coversAll tbl f j sbpLengths = true) (conv : SbpCommand → K) (u : Nat) (hu : 0 < u) (phase t0 g : Nat)
    (hg : Pause tbl m.width [0] (0, g)) (items : List ((SbpHurt × List (Nat × Nat)) × (Nat × Nat)))
    (hok : ∀ i ∈ items, i.1.1.Wire u j i.1.2 ∧
      16000 * u ≤ 1000000 * (i.2.1 + i.2.2) ∧ (i.2.1 + i.2.2) * f + u < 2 ^ m.width * u) :
    ∃ rs, (results (sbpDecoder t m tbl) conv
        ((true, g) :: clocked u f phase t0 (series (fun i => i.2) items))).map said = some (rs.map (Res.map conv)) ∧
      Tells sbpHurtAnswer () (items.map fun i => i.1.1) rs :=
  sbp_tells t f m hm tbl conv u phase t0 g hg _ items fun i hi =>
    sbp_hurt_one t f j hlo hf m hm tbl htbl hc u hu phase i.1.1 i.1.2 i.2 (hok i hi).1 (hok i hi).2.1 (hok i hi).2.2

/-! ## Denon -/

theorem denon_hurt_step (stale : BitVec 64) (w : BitVec 48) (k : Nat) (hk : k < 48) (c d : Option Nat)
    (h1 : 0 < k → c ≠ some 1 ∧ (c = some 2 → w.getLsbD (k - 1) = false ∧ w.getLsbD k = false))
    (hd : ∀ x, x < 3 → d ≠ some x) :
    ∃ r st', denonHurtAnswer stale (.missing w k) r st' ∧ ∀ ss,
      denonParse stale (((denonSlots w).take k).map some ++ c :: ((denonSlots w).drop (k + 2)).map some ++ d :: ss) =
        r ++ denonParse st' ss := by
  have hd' : ∀ st ss, denonParse st (d :: ss) = denonParse st ss := fun st ss => denonParse_skip _ _ _ (hd 0 (by decide))
  have e0 : (denonSlots w).map some = some 0 :: ((List.range 48).map w.getLsbD).map denonSym := by
    rw [denonSlots]
    simp only [List.cons_append, List.nil_append, List.map_cons, List.map_map]
    rfl
  rw [List.map_take, List.map_drop, e0, List.drop_succ_cons, ← List.map_drop]
  rcases k with _ | k
  · simp only [List.take_zero, List.nil_append, List.cons_append, Nat.zero_add]
    by_cases hc : c = some 0
    · subst hc
      refine ⟨_, _, .header stale w, fun ss => ?_⟩
      rw [denon_parse_broken _ _ (by simp) _ (hd 1 (by decide)) (hd 2 (by decide)), drop_word w]
      rfl
    · refine ⟨_, _, .unheard stale w, fun ss => ?_⟩
      rw [denonParse_skip _ _ _ hc, denonParse_bits, hd']
      rfl
  · obtain ⟨h2, h3⟩ := h1 (by omega)
    rw [List.take_succ_cons, ← List.map_take]
    simp only [List.cons_append, List.append_assoc]
    by_cases hc : c = some 2
    · obtain ⟨z0, z1⟩ := h3 hc
      rw [Nat.add_sub_cancel] at z0
      refine ⟨_, _, .fused stale w k z0 z1, fun ss => ?_⟩
      have e : (((List.range 48).map w.getLsbD).take k).map denonSym ++ c ::
            ((((List.range 48).map w.getLsbD).drop (k + 1 + 1)).map denonSym ++ d :: ss) =
          (((List.range 48).map w.getLsbD).take k ++ true :: ((List.range 48).map w.getLsbD).drop (k + 2)).map denonSym ++
            d :: ss := by
        rw [List.map_append, List.map_cons, List.append_assoc, hc]
        rfl
      rw [e, denon_parse_broken _ _ (by simp; omega) _ (hd 1 (by decide)) (hd 2 (by decide)),
        fuse_word w k (by omega) 64]
      rfl
    · refine ⟨_, _, .bit stale w k, fun ss => ?_⟩
      rw [denon_parse_broken _ _ (by simp; omega) _ h2 hc, wordOf_take_wide, denonParse_bits, hd']
      rfl

theorem denonSlots_bit (w : BitVec 48) (i : Nat) (hi : i < 48) :
    (denonSlots w)[i + 1]? = some (if w.getLsbD i then 2 else 1) := by
  rw [denonSlots, List.getElem?_append_right (by simp), List.getElem?_map, show i + 1 - [0].length = i by simp,
    List.getElem?_range hi]
  rfl

theorem denon_hurt_one (t : Target) (f j : Nat) (hlo : 20000 ≤ f) (hf : f < 2 ^ 32) (m : Mono)
    (hm : m = Mono.u32 ∨ m = Mono.u64) (tbl : PulseSpans) (htbl : denonSpans t m f = some tbl)
    (hc : coversAll tbl f j denonLengths = true) (u : Nat) (hu : 0 < u) (phase : Nat)
    (s : DenonHurt) (ps : List (Nat × Nat)) (pz : Nat × Nat) (h1 : s.Wire u j ps)
    (h2 : 16000 * u ≤ 1000000 * (pz.1 + pz.2)) (h3 : (pz.1 + pz.2) * f + u < 2 ^ m.width * u) (t1 : Nat) :
    (∀ q ∈ clockedPulses u f phase t1 (ps ++ [pz]), q.1 + q.2 < 2 ^ m.width) ∧
      ∀ st : BitVec 64, ∃ r st', denonHurtAnswer st s r st' ∧ ∀ ss,
        denonParse st ((clockedPulses u f phase t1 (ps ++ [pz])).map (fun p => tbl.get (p.1 + p.2)) ++ ss) =
          r ++ denonParse st' ss := by
  cases s with
  | other s =>
    obtain ⟨g1, g2⟩ := denon_spiked_one t f j hlo hf m hm tbl htbl hc u hu phase s ps pz h1 h2 h3 t1
    refine ⟨g1, fun st => ?_⟩
    obtain ⟨r, st', hr, h⟩ := g2 st
    exact ⟨r, st', .other st s r st' hr, h⟩
  | missing w k =>
    have hun : Unambiguous tbl 3 := (C14_classification_unambiguous f hlo hf t m hm).2.2.2.2.2.2.2 tbl htbl
    have hfit : Fits tbl m.width := by
      have htbl' := htbl
      rw [denonSpans_eq hm t hf, Option.some.injEq] at htbl'
      subst htbl'
      exact denonTable_fits hf (by rcases hm with rfl | rfl <;> decide)
    have hM : ∀ s l, denonLengths[s]? = some l → Measures tbl u f phase j s l :=
      fun _ _ hs => measures_of_covers hu (coversAll_get hc hs)
    have W := denon_bits hm hlo hf htbl
    have hslt : ∀ x ∈ denonSlots w, x < 3 := fun x hx =>
      denonSent_lt (w, 49) x (by rwa [denonSent, List.take_of_length_le (by simp [denonSlots])])
    have hpz := prim_pause hm hf hlo hu .denon htbl (phase := phase) (List.range 3) (by decide) pz h2 h3 (t1 + span ps)
    obtain ⟨z1, z2⟩ := pz
    have hcl : clockedPulses u f phase t1 (ps ++ [(z1, z2)]) = clockedPulses u f phase t1 ps ++
        [(reading u f phase (t1 + span ps + z1) - reading u f phase (t1 + span ps),
          reading u f phase (t1 + span ps + z1 + z2) - reading u f phase (t1 + span ps + z1))] := by
      rw [clockedPulses_append]; rfl
    dsimp only at hpz
    generalize (reading u f phase (t1 + span ps + z1) - reading u f phase (t1 + span ps),
          reading u f phase (t1 + span ps + z1 + z2) - reading u f phase (t1 + span ps + z1)) = z at hcl hpz
    have hd : ∀ x, x < 3 → tbl.get (z.1 + z.2) ≠ some x :=
      fun x hx h => hpz.2 x (List.mem_range.mpr hx) (get_inTol h)
    obtain ⟨hk, whole, p, hnear, hjoin⟩ := h1
    have hmt : ∀ t', Matches tbl (denonSlots w) (clockedPulses u f phase t' whole) := fun t' => by
      refine matches_of_measures (by simp [denonPeriods, denonSlots]) ?_ hnear t'
      unfold denonPeriods denonSlots
      exact append_ok (by simp) (single_ok (hM 0 _ rfl)) (bits_ok 48 _ _ _ _ _ (hM 2 _ rfl) (hM 1 _ rfl))
    have hbound : ∀ d x, x < 3 → tbl.get d = some x → 1000000 * d ≤ 20000 * f := by
      intro d x hx h
      rcases (by omega : x = 0 ∨ x = 1 ∨ x = 2) with rfl | rfl | rfl
      · have := ((C52_rejects .denon t m hm f hf tbl htbl 0 d (get_inTol h)).1 _ _ rfl).1
        omega
      · have := (W.zero d h).2; omega
      · have := (W.one d h).2; omega
    obtain ⟨a, b, x, y, hx, hy, ha, hb', hsym, hlt⟩ := joined_symbols (width := m.width) hun hfit hf
      (by rcases hm with rfl | rfl <;> decide) hbound hslt hmt hjoin t1
    have g1 : 0 < k → tbl.get (a + b) ≠ some 1 ∧
        (tbl.get (a + b) = some 2 → w.getLsbD (k - 1) = false ∧ w.getLsbD k = false) := by
      intro h0
      obtain ⟨i, rfl⟩ : ∃ i, k = i + 1 := ⟨k - 1, by omega⟩
      rw [denonSlots_bit w i (by omega), Option.some.injEq] at hx
      rw [denonSlots_bit w (i + 1) hk, Option.some.injEq] at hy
      subst hx
      subst hy
      exact joined_bits (by omega) W (by decide) (by decide) (by decide) ha hb'
    rw [hcl]
    simp only [List.map_append, List.map_cons, List.map_nil, List.append_assoc, List.cons_append, List.nil_append,
      List.mem_append, List.mem_singleton]
    refine ⟨?_, fun st => ?_⟩
    · rintro q (hq | rfl)
      · exact hlt q hq
      · exact hpz.1
    · obtain ⟨r, st', hr, h⟩ := denon_hurt_step st w k hk (tbl.get (a + b)) (tbl.get (z.1 + z.2)) g1 hd
      refine ⟨r, st', hr, fun ss => ?_⟩
      rw [hsym]
      simpa using h ss

/-- **C94**, Denon. -/
theorem C94_denon (t : Target) (f j : Nat) (hlo : 20000 ≤ f) (hf : f < 2 ^ 32) (m : Mono)
    (hm : m = Mono.u32 ∨ m = Mono.u64) (tbl : PulseSpans) (htbl : denonSpans t m f = some tbl)
    (hc : coversAll tbl f j denonLengths = true) (conv : DenonCommand → K) (u : Nat) (hu : 0 < u) (phase t0 g : Nat)
    (hg : Pause tbl m.width [0] (0, g)) (items : List ((DenonHurt × List (Nat × Nat)) × (Nat × Nat)))
    (hok : ∀ i ∈ items, i.1.1.Wire u j i.1.2 ∧
      16000 * u ≤ 1000000 * (i.2.1 + i.2.2) ∧ (i.2.1 + i.2.2) * f + u < 2 ^ m.width * u) :
    ∃ rs, (results (denonDecoder t m tbl) conv
        ((true, g) :: clocked u f phase t0 (series (fun i => i.2) items))).map said = some (rs.map (Res.map conv)) ∧
      Tells denonHurtAnswer 0 (items.map fun i => i.1.1) rs :=
  denon_tells t f m hm tbl conv u phase t0 g hg _ items fun i hi =>
    denon_hurt_one t f j hlo hf m hm tbl htbl hc u hu phase i.1.1 i.1.2 i.2 (hok i hi).1 (hok i hi).2.1 (hok i hi).2.2

end Infrared
