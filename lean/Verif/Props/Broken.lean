import Verif.Props.Exact
import Verif.Props.Session
import Verif.Spec.Broken

/-!
# Transmissions that break off (C88)

Pulse-distance protocols.  In every series of complete and broken-off transmissions, each followed by a pause, the
receiver reports the complete ones, whatever is left out of the others.
-/

namespace Infrared

open Spec

variable {C K : Type}

/-! ## The symbols of a series -/

theorem matches_symbols {tbl : PulseSpans} {n : Nat} (hun : Unambiguous tbl n) {slots : List Nat}
    (hs : ∀ x ∈ slots, x < n) {ps : List (Nat × Nat)} (h : Matches tbl slots ps) :
    ps.map (fun p => tbl.get (p.1 + p.2)) = slots.map some := by
  refine List.ext_getElem? fun i => ?_
  rw [List.getElem?_map, List.getElem?_map]
  rcases hi : ps[i]? with _ | p
  · have : slots[i]? = none := by
      rw [List.getElem?_eq_none_iff] at hi ⊢
      rw [← h.1]; exact hi
    rw [this]; rfl
  · have hlt := (List.getElem?_eq_some_iff.mp hi).1
    rw [h.1] at hlt
    have hx := List.getElem?_eq_getElem hlt
    rw [hx, Option.map_some, Option.map_some,
      inTol_get hun (hs _ (List.mem_of_getElem? hx)) (h.2 i p _ hi hx)]

/-- A series of transmissions as its receiver measures it: each is its symbols, each pause is none of them. -/
def Heard {S : Type} (tbl : PulseSpans) (width n u f phase : Nat) (slots : S → List Nat)
    (items : List ((S × List (Nat × Nat)) × (Nat × Nat))) : Prop :=
  ∀ i ∈ items, ∀ t, Matches tbl (slots i.1.1) (clockedPulses u f phase t i.1.2) ∧
    Pause tbl width (List.range n) (reading u f phase (t + i.2.1) - reading u f phase t,
      reading u f phase (t + i.2.1 + i.2.2) - reading u f phase (t + i.2.1))

/-- All periods of the series. -/
abbrev allPulses {S : Type} (items : List ((S × List (Nat × Nat)) × (Nat × Nat))) : List (Nat × Nat) :=
  items.flatMap fun i => i.1.2 ++ [i.2]

theorem heard_lt {S : Type} {tbl : PulseSpans} {width n u f phase : Nat} {slots : S → List Nat}
    {items : List ((S × List (Nat × Nat)) × (Nat × Nat))} (h : Heard tbl width n u f phase slots items)
    (hfit : Fits tbl width) (t : Nat) :
    ∀ q ∈ clockedPulses u f phase t (allPulses items), q.1 + q.2 < 2 ^ width := by
  induction items generalizing t with
  | nil => simp [clockedPulses]
  | cons i items ih =>
    intro q hq
    rw [allPulses, List.flatMap_cons, clockedPulses_append, clockedPulses_append, List.mem_append,
      List.mem_append] at hq
    rcases hq with (hq | hq) | hq
    · obtain ⟨h1, -⟩ := h i (by simp) t
      obtain ⟨k, hk⟩ := List.mem_iff_getElem?.mp hq
      have hlt := (List.getElem?_eq_some_iff.mp hk).1
      rw [h1.1] at hlt
      exact inTol_lt hfit (h1.2 k q _ hk (List.getElem?_eq_getElem hlt))
    · obtain ⟨-, h2⟩ := h i (by simp) (t + span i.1.2)
      obtain ⟨a, b⟩ := i
      simp only [clockedPulses, List.mem_singleton] at hq
      subst hq
      exact h2.1
    · exact ih (fun i hi => h i (by simp [hi])) _ q hq

theorem heard_parse {S St R : Type} {tbl : PulseSpans} {width n u f phase : Nat} {slots : S → List Nat}
    (hun : Unambiguous tbl n) (hs : ∀ s, ∀ x ∈ slots s, x < n) (P : St → List (Option Nat) → List R)
    (step : St → S → List R × St) (hnil : ∀ st, P st [] = [])
    (hP : ∀ st s d ss, (∀ x, x < n → d ≠ some x) →
      P st ((slots s).map some ++ d :: ss) = (step st s).1 ++ P (step st s).2 ss)
    (items : List ((S × List (Nat × Nat)) × (Nat × Nat))) (h : Heard tbl width n u f phase slots items) (t : Nat)
    (st : St) :
    P st ((clockedPulses u f phase t (allPulses items)).map fun p => tbl.get (p.1 + p.2)) =
      told step st (items.map fun i => i.1.1) := by
  induction items generalizing t st with
  | nil => exact hnil st
  | cons i items ih =>
    obtain ⟨h1, -⟩ := h i (by simp) t
    obtain ⟨-, h2⟩ := h i (by simp) (t + span i.1.2)
    rw [allPulses, List.flatMap_cons, clockedPulses_append, clockedPulses_append, List.map_append, List.map_append,
      matches_symbols hun (hs _) h1, List.map_cons, told, ← ih (fun i hi => h i (by simp [hi])) (t + span (i.1.2 ++ [i.2])) (step st i.1.1).2,
      ← hP _ _ _ _ (fun x hx he => h2.2 x (List.mem_range.mpr hx) (get_inTol he))]
    simp [clockedPulses]

theorem sums_pulses (g : Nat) (l : List (Nat × Nat)) :
    sums ((true, g) :: pulses l) = g :: l.map fun p => p.1 + p.2 := by
  unfold sums
  rw [sumsFrom, Nat.zero_add]
  congr 1
  induction l with
  | nil => rfl
  | cons p l ih => simp only [pulses, sumsFrom, List.map_cons, ih]

theorem pulses_small {w g : Nat} {l : List (Nat × Nat)} (hg : g < 2 ^ w) (hl : ∀ q ∈ l, q.1 + q.2 < 2 ^ w) :
    ¬ ∃ p ∈ sums ((true, g) :: pulses l), 2 ^ w ≤ p := by
  rintro ⟨p, hp, h⟩
  rw [sums_pulses, List.mem_cons, List.mem_map] at hp
  rcases hp with rfl | ⟨q, hq, rfl⟩
  · omega
  · have := hl q hq; omega

theorem pulses_symbols {w g : Nat} {l : List (Nat × Nat)} (tbl : PulseSpans) (hg : g < 2 ^ w)
    (hl : ∀ q ∈ l, q.1 + q.2 < 2 ^ w) :
    symbols w tbl ((true, g) :: pulses l) = tbl.get g :: l.map fun p => tbl.get (p.1 + p.2) := by
  unfold symbols periods
  rw [periodsFrom, Nat.zero_add, Nat.mod_eq_of_lt hg, periods_pulses w l hl, List.map_cons, List.map_map]
  rfl

/-- What a transmission in real time is measured as. -/
theorem heard_of {S : Type} {t : Target} {m : Mono} (hm : m = Mono.u32 ∨ m = Mono.u64) {f : Nat} (hf : f < 2 ^ 32)
    (hlo : 20000 ≤ f) {tbl : PulseSpans} {u phase j n : Nat} (hu : 0 < u) (k : Kind)
    (htbl : k.build t m f = some tbl) (hn : n ≤ k.symbols.length) (slots lengths : S → List Nat)
    (hlen : ∀ s, (lengths s).length = (slots s).length)
    (hms : ∀ s (i l x : Nat), (lengths s)[i]? = some l → (slots s)[i]? = some x → Measures tbl u f phase j x l)
    (items : List ((S × List (Nat × Nat)) × (Nat × Nat)))
    (hok : ∀ i ∈ items, NearPeriods u j (lengths i.1.1) i.1.2 ∧
      16000 * u ≤ 1000000 * (i.2.1 + i.2.2) ∧ (i.2.1 + i.2.2) * f + u < 2 ^ m.width * u) :
    Heard tbl m.width n u f phase slots items := by
  intro i hi t'
  obtain ⟨h1, h2, h3⟩ := hok i hi
  exact ⟨matches_of_measures (hlen _) (hms _) h1 t',
    prim_pause hm hf hlo hu k htbl _ (fun x hx => by have := List.mem_range.mp hx; omega) i.2 h2 h3 t'⟩

theorem take_ok {P : Nat → Nat → Prop} {ls ss : List Nat} (k : Nat)
    (h : ∀ (i l s : Nat), ls[i]? = some l → ss[i]? = some s → P l s) (i l s : Nat)
    (hl : (ls.take k)[i]? = some l) (hs : (ss.take k)[i]? = some s) : P l s := by
  rw [List.getElem?_take] at hl hs
  split at hl
  · rename_i hik
    rw [if_pos hik] at hs
    exact h i l s hl hs
  · cases hl

/-! ## NEC family -/

/-- The slots of a transmission. -/
def Spec.NecSent.slots : NecSent → List Nat
  | .frame w k => (necSlots w).take k
  | .rep => [1]

theorem Spec.NecSent.slots_lt (s : NecSent) : ∀ x ∈ s.slots, x < 4 := by
  intro x hx
  cases s with
  | frame w k =>
    have := List.mem_of_mem_take hx
    rw [necSlots, List.mem_cons, List.mem_map] at this
    rcases this with rfl | ⟨i, -, rfl⟩
    · decide
    · split <;> decide
  | rep =>
    rw [NecSent.slots, List.mem_singleton] at hx
    subst hx; decide

theorem wordOf_take {n : Nat} (w : BitVec n) (k : Nat) :
    wordOf n (((List.range n).map w.getLsbD).take k) = firstBits k w := by
  refine BitVec.eq_of_getLsbD_eq fun i hi => ?_
  rw [wordOf_getLsbD _ _ _ hi, firstBits, BitVec.getLsbD_setWidth, BitVec.getLsbD_setWidth, List.getElem?_take]
  split
  · rename_i h
    rw [List.getElem?_map, List.getElem?_range hi]
    simp [hi, h]
  · rename_i h
    simp [h]

theorem firstBits_all {n : Nat} (w : BitVec n) {k : Nat} (hk : n ≤ k) : firstBits k w = w := by
  refine BitVec.eq_of_getLsbD_eq fun i hi => ?_
  rw [firstBits, BitVec.getLsbD_setWidth, BitVec.getLsbD_setWidth]
  simp [hi, show i < k by omega]

theorem parse_broken (unpack : BitVec 32 → Bool → Option C) (last : BitVec 32) (bs : List Bool) (hb : bs.length < 32)
    (d : Option Nat) (h2 : d ≠ some 2) (h3 : d ≠ some 3) (ss : List (Option Nat)) :
    necParse unpack last (some 0 :: (bs.map bitSym ++ d :: ss)) =
      .error .data :: necParse unpack (wordOf 32 bs) ss := by
  have hl := leadingBits_known 2 3 (by decide) bs (d :: ss) (32 - bs.length)
  rw [leadingBits_wrong _ _ _ _ _ h3 h2, List.append_nil, show bs.length + (32 - bs.length) = 32 by omega] at hl
  rw [necParse, if_pos rfl]
  dsimp only
  unfold bitSym at *
  rw [hl, if_neg (by omega), if_neg (by simp)]
  congr 2
  rw [List.drop_append, List.drop_of_length_le (by simp)]
  simp

theorem nec_step (unpack : BitVec 32 → Bool → Option C) (last : BitVec 32) (s : NecSent) (d : Option Nat)
    (ss : List (Option Nat)) (hd : ∀ x, x < 4 → d ≠ some x) :
    necParse unpack last (s.slots.map some ++ d :: ss) =
      (necAnswer unpack last s).1 ++ necParse unpack (necAnswer unpack last s).2 ss := by
  cases s with
  | rep =>
    rw [NecSent.slots, List.map_cons, List.map_nil, List.cons_append, List.nil_append, necParse, if_neg (by decide),
      if_pos rfl, said_exact, necParse_skip _ _ _ _ (hd 0 (by decide)) (hd 1 (by decide))]
    rfl
  | frame w k =>
    unfold necAnswer
    dsimp only
    rcases k with _ | k
    · rw [if_pos rfl]
      exact necParse_skip _ _ _ _ (hd 0 (by decide)) (hd 1 (by decide))
    · have e : (NecSent.slots (.frame w (k + 1))).map some =
          some 0 :: (((List.range 32).map w.getLsbD).take k).map bitSym := by
        rw [NecSent.slots, necSlots, List.take_succ_cons, List.map_cons, ← List.map_take, ← List.map_take, List.map_map,
          List.map_map]
        rfl
      rw [e, if_neg (by omega), List.cons_append]
      by_cases hk : k + 1 ≤ 32
      · rw [if_pos hk, parse_broken _ _ _ (by simp; omega) _ (hd 2 (by decide)) (hd 3 (by decide)), wordOf_take]
        rfl
      · rw [if_neg hk, parse_frame _ _ _ (by simp; omega), wordOf_take, firstBits_all w (by omega),
          necParse_skip _ _ _ _ (hd 0 (by decide)) (hd 1 (by decide))]

theorem nec_lengths_ok {v : NecVariant C} {P : Nat → Nat → Prop}
    (hP : ∀ s l, (necLengths v)[s]? = some l → P l s) (s : NecSent) (i l x : Nat)
    (hl : (s.periods (v.pulseDistance.headerHigh + v.pulseDistance.headerLow)
      (v.pulseDistance.headerHigh + v.pulseDistance.repeatLow))[i]? = some l) (hx : s.slots[i]? = some x) : P l x := by
  cases s with
  | rep => exact single_ok (hP 1 _ rfl) i l x hl hx
  | frame w k =>
    refine take_ok k (fun i l s hl hs => ?_) i l x hl hx
    exact append_ok (l1 := [_]) (s1 := [0]) (by simp) (single_ok (hP 0 _ rfl))
      (bits_ok 32 _ _ _ _ _ (hP 3 _ rfl) (hP 2 _ rfl)) i l s hl hs

/-- The events of a series. -/
theorem clocked_all {S : Type} (u f phase t0 : Nat) (items : List ((S × List (Nat × Nat)) × (Nat × Nat))) :
    clocked u f phase t0 (series (fun i => i.2) items) = pulses (clockedPulses u f phase t0 (allPulses items)) :=
  clocked_pulses u f phase t0 _

/-- **C88**, NEC family: every series of frames, complete or broken off after any number of periods, and repeat codes,
each followed by a pause of 16 ms or more, is answered as `necAnswer` says. -/
theorem C88_nec (t : Target) (f j : Nat) (hlo : 20000 ≤ f) (hf : f < 2 ^ 32) (v : NecVariant C)
    (hv : v.Shipped) (m : Mono) (hm : m = Mono.u32 ∨ m = Mono.u64) (tbl : PulseSpans)
    (htbl : necSpans t m v f = some tbl) (hc : coversAll tbl f j (necLengths v) = true) (conv : C → K) (u : Nat)
    (hu : 0 < u) (phase t0 g : Nat) (hg : Pause tbl m.width [0, 1] (0, g))
    (items : List ((NecSent × List (Nat × Nat)) × (Nat × Nat)))
    (hok : ∀ i ∈ items,
      NearPeriods u j (i.1.1.periods (v.pulseDistance.headerHigh + v.pulseDistance.headerLow)
        (v.pulseDistance.headerHigh + v.pulseDistance.repeatLow)) i.1.2 ∧
      16000 * u ≤ 1000000 * (i.2.1 + i.2.2) ∧ (i.2.1 + i.2.2) * f + u < 2 ^ m.width * u) :
    (results (necDecoder t m tbl v) conv
        ((true, g) :: clocked u f phase t0 (series (fun i => i.2) items))).map said =
      some ((told (necAnswer v.unpack) 0 (items.map fun i => i.1.1)).map (Res.map conv)) := by
  obtain ⟨hun, hfit⟩ := necSpans_good hm t hlo hf v hv htbl
  obtain ⟨k, hk, he⟩ := nec_kind v hv
  have hb := htbl
  rw [he] at hb
  have hH : Heard tbl m.width 4 u f phase NecSent.slots items := by
    refine heard_of hm hf hlo hu k hb (by rcases hk with ⟨rfl, -⟩ | ⟨rfl, -⟩ <;> decide) _ _ (fun s => ?_)
      (fun s => nec_lengths_ok (fun _ _ hs => measures_of_covers hu (coversAll_get hc hs)) s) items hok
    cases s <;> simp [NecSent.periods, NecSent.slots, necPeriods, necSlots]
  have hlt := heard_lt hH hfit t0
  have hgw : g < 2 ^ m.width := by simpa using hg.1
  rw [clocked_all]
  rcases hr : results (necDecoder t m tbl v) conv
      ((true, g) :: pulses (clockedPulses u f phase t0 (allPulses items))) with _ | outs
  · exact absurd ((C30_nec_panics_iff t m hm tbl v conv _).mp hr).2 (pulses_small hgw hlt)
  · rw [Option.map_some, C67_nec t m (Mono.prim_lawful hm) tbl v conv _ outs hr, pulses_symbols tbl hgw hlt, necParse_skip,
      heard_parse hun NecSent.slots_lt _ _ (fun _ => by rw [necParse]) (nec_step v.unpack) items hH]
    · exact fun h => hg.2 0 (by simp) (by simpa using get_inTol h)
    · exact fun h => hg.2 1 (by simp) (by simpa using get_inTol h)

/-! ## SBP -/

/-- The slots of a frame that breaks off. -/
def sbpSent (s : BitVec 16 × BitVec 20 × Nat) : List Nat := (sbpSlots s.1 s.2.1).take s.2.2

theorem sbpSent_lt (s : BitVec 16 × BitVec 20 × Nat) : ∀ x ∈ sbpSent s, x < 4 := by
  intro x hx
  have := List.mem_of_mem_take hx
  simp only [sbpSlots, List.mem_append, List.mem_singleton, List.mem_map] at this
  rcases this with ((rfl | ⟨i, -, rfl⟩) | rfl) | ⟨i, -, rfl⟩
  · decide
  · split <;> decide
  · decide
  · split <;> decide

theorem sbpParse_skip (s : Option Nat) (ss : List (Option Nat)) (h0 : s ≠ some 0) :
    sbpParse (s :: ss) = sbpParse ss := by
  rw [sbpParse, if_neg h0]

theorem wordOf_all {n : Nat} (w : BitVec n) : wordOf n ((List.range n).map w.getLsbD) = w := by
  have := wordOf_take w n
  rwa [List.take_of_length_le (by simp), firstBits_all w (Nat.le_refl _)] at this

theorem wordOf_wide {n : Nat} (m : Nat) (w : BitVec n) :
    wordOf m ((List.range n).map w.getLsbD) = w.setWidth m := by
  refine BitVec.eq_of_getLsbD_eq fun i hi => ?_
  rw [wordOf_getLsbD _ _ _ hi, BitVec.getLsbD_setWidth, List.getElem?_map]
  by_cases hin : i < n
  · rw [List.getElem?_range hin]; simp [hi]
  · rw [List.getElem?_eq_none (by simpa using hin)]
    simp [BitVec.getLsbD_of_ge w i (by omega)]

/-- SBP: what the parser makes of the beginning of a frame. -/
theorem sbp_parse_address (bs : List Bool) (hb : bs.length < 16) (d : Option Nat) (h2 : d ≠ some 2) (h3 : d ≠ some 3)
    (ss : List (Option Nat)) :
    sbpParse (some 0 :: (bs.map bitSym ++ d :: ss)) = .error .address :: sbpParse ss := by
  have hl := leadingBits_known 2 3 (by decide) bs (d :: ss) (16 - bs.length)
  rw [leadingBits_wrong _ _ _ _ _ h3 h2, List.append_nil, show bs.length + (16 - bs.length) = 16 by omega] at hl
  rw [sbpParse, if_pos rfl]
  dsimp only
  unfold bitSym at *
  rw [hl, if_pos hb, if_neg (by simp)]
  congr 2
  rw [List.drop_append, List.drop_of_length_le (by simp)]
  simp

theorem sbp_parse_divider (bs : List Bool) (hb : bs.length = 16) (d : Option Nat) (h1 : d ≠ some 1)
    (ss : List (Option Nat)) :
    sbpParse (some 0 :: (bs.map bitSym ++ d :: ss)) = .error .data :: sbpParse ss := by
  have hl := leadingBits_known 2 3 (by decide) bs (d :: ss) 0
  rw [leadingBits, List.append_nil, Nat.add_zero, hb] at hl
  rw [sbpParse, if_pos rfl]
  dsimp only
  unfold bitSym at *
  rw [hl, if_neg (by omega), if_neg (by simp [hb]), if_neg]
  · congr 2
    rw [List.drop_append, List.drop_of_length_le (by simp [hb])]
    simp [hb]
  · rw [List.getElem?_append_right (by simp [hb])]
    simpa [hb] using h1

theorem sbp_parse_data (bs cs : List Bool) (hb : bs.length = 16) (hc : cs.length < 20) (d : Option Nat)
    (h2 : d ≠ some 2) (h3 : d ≠ some 3) (ss : List (Option Nat)) :
    sbpParse (some 0 :: (bs.map bitSym ++ some 1 :: (cs.map bitSym ++ d :: ss))) = .error .data :: sbpParse ss := by
  have hl := leadingBits_known 2 3 (by decide) bs (some 1 :: (cs.map bitSym ++ d :: ss)) 0
  rw [leadingBits, List.append_nil, Nat.add_zero, hb] at hl
  have hl2 := leadingBits_known 2 3 (by decide) cs (d :: ss) (20 - cs.length)
  rw [leadingBits_wrong _ _ _ _ _ h3 h2, List.append_nil, show cs.length + (20 - cs.length) = 20 by omega] at hl2
  have hd : (bs.map bitSym ++ some 1 :: (cs.map bitSym ++ d :: ss)).drop 17 = cs.map bitSym ++ d :: ss := by
    rw [List.drop_append, List.drop_of_length_le (by simp [hb])]
    simp [hb]
  have hd2 : (bs.map bitSym ++ some 1 :: (cs.map bitSym ++ d :: ss)).drop (17 + cs.length + 1) = ss := by
    rw [Nat.add_assoc, ← List.drop_drop, hd, List.drop_append, List.drop_of_length_le (by simp)]
    simp
  rw [sbpParse, if_pos rfl]
  dsimp only
  rw [hd]
  unfold bitSym at *
  rw [hl, hl2, if_neg (by omega), if_neg (by simp [hb]), if_pos, if_neg (by omega), if_neg (by simp [hb]; omega), hd2]
  rw [List.getElem?_append_right (by simp [hb])]
  simp [hb]

theorem sbp_parse_frame (bs cs : List Bool) (hb : bs.length = 16) (hc : cs.length = 20) (ss : List (Option Nat)) :
    sbpParse (some 0 :: (bs.map bitSym ++ some 1 :: (cs.map bitSym ++ ss))) =
      .ok (some (SbpCommand.unpack (wordOf 16 bs) (wordOf 32 cs))) :: sbpParse ss := by
  have hl := leadingBits_known 2 3 (by decide) bs (some 1 :: (cs.map bitSym ++ ss)) 0
  rw [leadingBits, List.append_nil, Nat.add_zero, hb] at hl
  have hl2 := leadingBits_known 2 3 (by decide) cs ss 0
  rw [leadingBits, List.append_nil, Nat.add_zero, hc] at hl2
  have hd : (bs.map bitSym ++ some 1 :: (cs.map bitSym ++ ss)).drop 17 = cs.map bitSym ++ ss := by
    rw [List.drop_append, List.drop_of_length_le (by simp [hb])]
    simp [hb]
  have hd2 : (bs.map bitSym ++ some 1 :: (cs.map bitSym ++ ss)).drop 37 = ss := by
    rw [show 37 = 17 + 20 from rfl, ← List.drop_drop, hd, List.drop_append, List.drop_of_length_le (by simp [hc])]
    simp [hc]
  rw [sbpParse, if_pos rfl]
  dsimp only
  rw [hd]
  unfold bitSym at *
  rw [hl, hl2, if_neg (by omega), if_neg (by simp [hb]), if_pos, if_pos hc, hd2]
  rw [List.getElem?_append_right (by simp [hb])]
  simp [hb]

theorem sbp_step (s : BitVec 16 × BitVec 20 × Nat) (d : Option Nat) (ss : List (Option Nat))
    (hd : ∀ x, x < 4 → d ≠ some x) :
    sbpParse ((sbpSent s).map some ++ d :: ss) = (sbpAnswer () s).1 ++ sbpParse ss := by
  obtain ⟨a, w, k⟩ := s
  unfold sbpAnswer
  dsimp only
  rcases k with _ | k
  · rw [if_pos rfl]
    exact sbpParse_skip _ _ (hd 0 (by decide))
  · have e : (sbpSent (a, w, k + 1)).map some = some 0 ::
        (((List.range 16).map a.getLsbD).map bitSym ++ some 1 :: ((List.range 20).map w.getLsbD).map bitSym).take k := by
      rw [sbpSent, sbpSlots]
      simp only [List.append_assoc, List.cons_append, List.nil_append, List.take_succ_cons, List.map_cons,
        List.map_take, List.map_append, List.map_map]
      rfl
    rw [e, if_neg (by omega), List.cons_append]
    by_cases h16 : k < 16
    · rw [if_pos (by omega), List.take_append_of_le_length (by simp; omega), ← List.map_take,
        sbp_parse_address _ (by simp; omega) _ (hd 2 (by decide)) (hd 3 (by decide))]
      rfl
    · rw [if_neg (by omega), List.take_append, List.take_of_length_le (by simp; omega), List.length_map,
        List.length_map, List.length_range, List.append_assoc]
      by_cases h17 : k = 16
      · subst h17
        rw [if_pos (by omega), Nat.sub_self, List.take_zero, List.nil_append,
          sbp_parse_divider _ (by simp) _ (hd 1 (by decide))]
        rfl
      · obtain ⟨n, rfl⟩ : ∃ n, k = 17 + n := ⟨k - 17, by omega⟩
        rw [show 17 + n - 16 = n + 1 by omega, List.take_succ_cons, List.cons_append, ← List.map_take]
        by_cases h20 : n < 20
        · rw [if_pos (by omega), sbp_parse_data _ _ (by simp) (by simp; omega) _ (hd 2 (by decide)) (hd 3 (by decide))]
          rfl
        · rw [if_neg (by omega), List.take_of_length_le (by simp; omega), sbp_parse_frame _ _ (by simp) (by simp),
            sbpParse_skip _ _ (hd 0 (by decide)), wordOf_all, wordOf_wide 32 w]
          rfl

/-- **C88**, SBP. -/
theorem C88_sbp (t : Target) (f j : Nat) (hlo : 20000 ≤ f) (hf : f < 2 ^ 32) (m : Mono)
    (hm : m = Mono.u32 ∨ m = Mono.u64) (tbl : PulseSpans) (htbl : sbpSpans t m f = some tbl)
    (hc : coversAll tbl f j sbpLengths = true) (conv : SbpCommand → K) (u : Nat) (hu : 0 < u) (phase t0 g : Nat)
    (hg : Pause tbl m.width [0] (0, g))
    (items : List (((BitVec 16 × BitVec 20 × Nat) × List (Nat × Nat)) × (Nat × Nat)))
    (hok : ∀ i ∈ items, NearPeriods u j ((sbpPeriods i.1.1.1 i.1.1.2.1).take i.1.1.2.2) i.1.2 ∧
      16000 * u ≤ 1000000 * (i.2.1 + i.2.2) ∧ (i.2.1 + i.2.2) * f + u < 2 ^ m.width * u) :
    (results (sbpDecoder t m tbl) conv
        ((true, g) :: clocked u f phase t0 (series (fun i => i.2) items))).map said =
      some ((told sbpAnswer () (items.map fun i => i.1.1)).map (Res.map conv)) := by
  have hun : Unambiguous tbl 4 := (C14_classification_unambiguous f hlo hf t m hm).2.2.2.2.2.2.1 tbl htbl
  have hfit : Fits tbl m.width := by
    rw [sbpSpans_eq hm t hf, Option.some.injEq] at htbl
    subst htbl
    exact sbpTable_fits hf (by rcases hm with rfl | rfl <;> decide)
  have hcl : ∀ s l, sbpLengths[s]? = some l → Measures tbl u f phase j s l :=
    fun _ _ hs => measures_of_covers hu (coversAll_get hc hs)
  have hH : Heard tbl m.width 4 u f phase sbpSent items := by
    refine heard_of hm hf hlo hu .sbp htbl (by decide) _ (fun s => (sbpPeriods s.1 s.2.1).take s.2.2) (fun s => ?_)
      (fun s => take_ok s.2.2 ?_) items hok
    · simp [sbpSent, sbpPeriods, sbpSlots]
    · unfold sbpPeriods sbpSlots
      exact append_ok (by simp) (append_ok (by simp) (append_ok (by simp)
        (single_ok (hcl 0 _ rfl)) (bits_ok 16 _ _ _ _ _ (hcl 3 _ rfl) (hcl 2 _ rfl)))
        (single_ok (hcl 1 _ rfl))) (bits_ok 20 _ _ _ _ _ (hcl 3 _ rfl) (hcl 2 _ rfl))
  have hlt := heard_lt hH hfit t0
  have hgw : g < 2 ^ m.width := by simpa using hg.1
  have halt := pulses_alternating g (clockedPulses u f phase t0 (allPulses items))
  rw [clocked_all]
  rcases hr : results (sbpDecoder t m tbl) conv
      ((true, g) :: pulses (clockedPulses u f phase t0 (allPulses items))) with _ | outs
  · exact absurd ((C30_sbp_panics_iff t m hm tbl conv _ halt).mp hr).2 (pulses_small hgw hlt)
  · rw [Option.map_some, C67_sbp t m (Mono.prim_lawful hm) tbl conv _ halt outs hr, pulses_symbols tbl hgw hlt, sbpParse_skip,
      heard_parse hun sbpSent_lt (fun _ => sbpParse) _ (fun _ => by rw [sbpParse]) (fun _ => sbp_step) items hH t0 ()]
    exact fun h => hg.2 0 (by simp) (by simpa using get_inTol h)

/-! ## Denon -/

/-- The slots of a frame that breaks off. -/
def denonSent (s : BitVec 48 × Nat) : List Nat := (denonSlots s.1).take s.2

theorem denonSent_lt (s : BitVec 48 × Nat) : ∀ x ∈ denonSent s, x < 3 := by
  intro x hx
  have := List.mem_of_mem_take hx
  simp only [denonSlots, List.mem_append, List.mem_singleton, List.mem_map] at this
  rcases this with rfl | ⟨i, -, rfl⟩
  · decide
  · split <;> decide

theorem denonParse_skip (stale : BitVec 64) (s : Option Nat) (ss : List (Option Nat)) (h0 : s ≠ some 0) :
    denonParse stale (s :: ss) = denonParse stale ss := by
  rw [denonParse, if_neg h0]

theorem wordOf_take_wide {n : Nat} (m : Nat) (w : BitVec n) (k : Nat) :
    wordOf m (((List.range n).map w.getLsbD).take k) = (firstBits k w).setWidth m := by
  refine BitVec.eq_of_getLsbD_eq fun i hi => ?_
  rw [wordOf_getLsbD _ _ _ hi, firstBits, BitVec.getLsbD_setWidth, BitVec.getLsbD_setWidth, BitVec.getLsbD_setWidth,
    List.getElem?_take]
  by_cases hin : i < n
  · split
    · rename_i h
      rw [List.getElem?_map, List.getElem?_range hin]
      simp [hi, h, hin]
    · rename_i h
      simp [h]
  · rw [List.getElem?_eq_none (l := (List.range n).map _) (by simpa using hin)]
    simp [hin]

theorem denon_step (stale : BitVec 64) (s : BitVec 48 × Nat) (d : Option Nat) (ss : List (Option Nat))
    (hd : ∀ x, x < 3 → d ≠ some x) :
    denonParse stale ((denonSent s).map some ++ d :: ss) =
      (denonAnswer stale s).1 ++ denonParse (denonAnswer stale s).2 ss := by
  obtain ⟨w, k⟩ := s
  unfold denonAnswer
  dsimp only
  rcases k with _ | k
  · rw [if_pos rfl]
    exact denonParse_skip _ _ _ (hd 0 (by decide))
  · have e : (denonSent (w, k + 1)).map some = some 0 ::
        (((List.range 48).map w.getLsbD).take k).map (fun b => some (if b then 2 else 1)) := by
      rw [denonSent, denonSlots]
      simp only [List.cons_append, List.nil_append, List.take_succ_cons, List.map_cons, List.map_take, List.map_map]
      rfl
    rw [e, if_neg (by omega), List.cons_append, denonParse, if_pos rfl]
    dsimp only
    have hlen : (((List.range 48).map w.getLsbD).take k).length = min k 48 := by simp
    have hw := wordOf_take_wide 64 w k
    have hw47 := wordOf_take_wide 64 w 47
    by_cases hk : k + 1 ≤ 48
    · have hl := leadingBits_known 1 2 (by decide) (((List.range 48).map w.getLsbD).take k) (d :: ss) (48 - k)
      rw [leadingBits_wrong _ _ _ _ _ (hd 2 (by decide)) (hd 1 (by decide)), List.append_nil,
        show (((List.range 48).map w.getLsbD).take k).length + (48 - k) = 48 by omega] at hl
      rw [if_pos hk, hl, if_neg (by omega), hw, Nat.add_sub_cancel]
      rw [List.drop_append, List.drop_of_length_le (by simp)]
      simp
    · have hl := leadingBits_known 1 2 (by decide) (((List.range 48).map w.getLsbD).take k) (d :: ss) 0
      rw [leadingBits, List.append_nil, Nat.add_zero, hlen, show min k 48 = 48 by omega] at hl
      rw [if_neg hk, hl, if_pos (by omega), List.take_take, show min 47 k = 47 by omega, hw47,
        List.drop_append, List.drop_of_length_le (by simp), List.length_map, hlen, show min k 48 = 48 by omega,
        Nat.sub_self, List.drop_zero, List.nil_append, denonParse_skip _ _ _ (hd 0 (by decide))]
      have : (firstBits 47 w).setWidth 64 = (w.setWidth 47).setWidth 64 := by
        refine BitVec.eq_of_getLsbD_eq fun i hi => ?_
        simp only [firstBits, BitVec.getLsbD_setWidth]
        by_cases h : i < 47
        · simp [h, show i < 48 by omega]
        · simp [h]
      rw [this]
      rfl

/-- **C88**, Denon. -/
theorem C88_denon (t : Target) (f j : Nat) (hlo : 20000 ≤ f) (hf : f < 2 ^ 32) (m : Mono)
    (hm : m = Mono.u32 ∨ m = Mono.u64) (tbl : PulseSpans) (htbl : denonSpans t m f = some tbl)
    (hc : coversAll tbl f j denonLengths = true) (conv : DenonCommand → K) (u : Nat) (hu : 0 < u) (phase t0 g : Nat)
    (hg : Pause tbl m.width [0] (0, g))
    (items : List (((BitVec 48 × Nat) × List (Nat × Nat)) × (Nat × Nat)))
    (hok : ∀ i ∈ items, NearPeriods u j ((denonPeriods i.1.1.1).take i.1.1.2) i.1.2 ∧
      16000 * u ≤ 1000000 * (i.2.1 + i.2.2) ∧ (i.2.1 + i.2.2) * f + u < 2 ^ m.width * u) :
    (results (denonDecoder t m tbl) conv
        ((true, g) :: clocked u f phase t0 (series (fun i => i.2) items))).map said =
      some ((told denonAnswer 0 (items.map fun i => i.1.1)).map (Res.map conv)) := by
  have hun : Unambiguous tbl 3 := (C14_classification_unambiguous f hlo hf t m hm).2.2.2.2.2.2.2 tbl htbl
  have hfit : Fits tbl m.width := by
    rw [denonSpans_eq hm t hf, Option.some.injEq] at htbl
    subst htbl
    exact denonTable_fits hf (by rcases hm with rfl | rfl <;> decide)
  have hcl : ∀ s l, denonLengths[s]? = some l → Measures tbl u f phase j s l :=
    fun _ _ hs => measures_of_covers hu (coversAll_get hc hs)
  have hH : Heard tbl m.width 3 u f phase denonSent items := by
    refine heard_of hm hf hlo hu .denon htbl (by decide) _ (fun s => (denonPeriods s.1).take s.2) (fun s => ?_)
      (fun s => take_ok s.2 ?_) items hok
    · simp [denonSent, denonPeriods, denonSlots]
    · unfold denonPeriods denonSlots
      exact append_ok (by simp) (single_ok (hcl 0 _ rfl)) (bits_ok 48 _ _ _ _ _ (hcl 2 _ rfl) (hcl 1 _ rfl))
  have hlt := heard_lt hH hfit t0
  have hgw : g < 2 ^ m.width := by simpa using hg.1
  rw [clocked_all]
  rcases hr : results (denonDecoder t m tbl) conv
      ((true, g) :: pulses (clockedPulses u f phase t0 (allPulses items))) with _ | outs
  · exact absurd ((C30_denon_panics_iff t m hm tbl conv _).mp hr).2 (pulses_small hgw hlt)
  · rw [Option.map_some, C67_denon t m (Mono.prim_lawful hm) tbl conv _ outs hr, pulses_symbols tbl hgw hlt, denonParse_skip,
      heard_parse hun denonSent_lt denonParse _ (fun _ => by rw [denonParse]) denon_step items hH]
    exact fun h => hg.2 0 (by simp) (by simpa using get_inTol h)

/-! ## Polled receivers -/

/-- **C88**, NEC family, polled. -/
theorem C88_nec_polled (t : Target) (f j : Nat) (hlo : 20000 ≤ f) (hf : f < 2 ^ 32) (v : NecVariant C) (hv : v.Shipped) (tbl : PulseSpans)
    (htbl : necSpans t Mono.u32 v f = some tbl) (hc : coversAll tbl f j (necLengths v) = true)
    (conv : C → K) (u : Nat) (hu : 0 < u) (phase pause : Nat)
    (hg : Pause tbl 32 [0, 1] (0, reading u f phase pause + 1))
    (items : List ((NecSent × List (Nat × Nat)) × (Nat × Nat)))
    (hok : ∀ i ∈ items, 
      NearPeriods u j (i.1.1.periods (v.pulseDistance.headerHigh + v.pulseDistance.headerLow)
        (v.pulseDistance.headerHigh + v.pulseDistance.repeatLow)) i.1.2 ∧
      16000 * u ≤ 1000000 * (i.2.1 + i.2.2) ∧ (i.2.1 + i.2.2) * f + u < 2 ^ 32 * u)
    (hmin : ∀ e ∈ series (fun i => i.2) items, u ≤ e.2 * f)
    (hmax : ∀ e ∈ series (fun i => i.2) items, e.2 * f / u + 1 < 2 ^ 32)
    (n : Nat) (hn : reading u f phase (duration ((true, pause) :: series (fun i => i.2) items)) < n) :
    (pollRun (necDecoder t Mono.u32 tbl v) conv
        (polled u f phase ((true, pause) :: series (fun i => i.2) items) n)).map said =
      some ((told (necAnswer v.unpack) 0 (items.map fun i => i.1.1)).map (Res.map conv)) := by
  have hg1 := hg.1
  dsimp only at hg1
  rw [C54_polled_line_long _ conv u hu f phase true pause _ (changes_series ..) hmin n hn (by omega) hmax]
  exact C88_nec t f j hlo hf v hv Mono.u32 (.inl rfl) tbl htbl hc conv u hu phase pause _ hg items hok

/-- **C88**, SBP, polled. -/
theorem C88_sbp_polled (t : Target) (f j : Nat) (hlo : 20000 ≤ f) (hf : f < 2 ^ 32) (tbl : PulseSpans)
    (htbl : sbpSpans t Mono.u32 f = some tbl) (hc : coversAll tbl f j sbpLengths = true)
    (conv : SbpCommand → K) (u : Nat) (hu : 0 < u) (phase pause : Nat)
    (hg : Pause tbl 32 [0] (0, reading u f phase pause + 1))
    (items : List (((BitVec 16 × BitVec 20 × Nat) × List (Nat × Nat)) × (Nat × Nat)))
    (hok : ∀ i ∈ items, NearPeriods u j ((sbpPeriods i.1.1.1 i.1.1.2.1).take i.1.1.2.2) i.1.2 ∧
      16000 * u ≤ 1000000 * (i.2.1 + i.2.2) ∧ (i.2.1 + i.2.2) * f + u < 2 ^ 32 * u)
    (hmin : ∀ e ∈ series (fun i => i.2) items, u ≤ e.2 * f)
    (hmax : ∀ e ∈ series (fun i => i.2) items, e.2 * f / u + 1 < 2 ^ 32)
    (n : Nat) (hn : reading u f phase (duration ((true, pause) :: series (fun i => i.2) items)) < n) :
    (pollRun (sbpDecoder t Mono.u32 tbl) conv
        (polled u f phase ((true, pause) :: series (fun i => i.2) items) n)).map said =
      some ((told sbpAnswer () (items.map fun i => i.1.1)).map (Res.map conv)) := by
  have hg1 := hg.1
  dsimp only at hg1
  rw [C54_polled_line_long _ conv u hu f phase true pause _ (changes_series ..) hmin n hn (by omega) hmax]
  exact C88_sbp t f j hlo hf Mono.u32 (.inl rfl) tbl htbl hc conv u hu phase pause _ hg items hok

/-- **C88**, Denon, polled. -/
theorem C88_denon_polled (t : Target) (f j : Nat) (hlo : 20000 ≤ f) (hf : f < 2 ^ 32) (tbl : PulseSpans)
    (htbl : denonSpans t Mono.u32 f = some tbl) (hc : coversAll tbl f j denonLengths = true)
    (conv : DenonCommand → K) (u : Nat) (hu : 0 < u) (phase pause : Nat)
    (hg : Pause tbl 32 [0] (0, reading u f phase pause + 1))
    (items : List (((BitVec 48 × Nat) × List (Nat × Nat)) × (Nat × Nat)))
    (hok : ∀ i ∈ items, NearPeriods u j ((denonPeriods i.1.1.1).take i.1.1.2) i.1.2 ∧
      16000 * u ≤ 1000000 * (i.2.1 + i.2.2) ∧ (i.2.1 + i.2.2) * f + u < 2 ^ 32 * u)
    (hmin : ∀ e ∈ series (fun i => i.2) items, u ≤ e.2 * f)
    (hmax : ∀ e ∈ series (fun i => i.2) items, e.2 * f / u + 1 < 2 ^ 32)
    (n : Nat) (hn : reading u f phase (duration ((true, pause) :: series (fun i => i.2) items)) < n) :
    (pollRun (denonDecoder t Mono.u32 tbl) conv
        (polled u f phase ((true, pause) :: series (fun i => i.2) items) n)).map said =
      some ((told denonAnswer 0 (items.map fun i => i.1.1)).map (Res.map conv)) := by
  have hg1 := hg.1
  dsimp only at hg1
  rw [C54_polled_line_long _ conv u hu f phase true pause _ (changes_series ..) hmin n hn (by omega) hmax]
  exact C88_denon t f j hlo hf Mono.u32 (.inl rfl) tbl htbl hc conv u hu phase pause _ hg items hok

/-! ## No command comes of a transmission that broke off -/

theorem commands_oks (l : List C) : commands (oks l) = l := by
  simp [commands, oks, List.filterMap_map, Function.comp_def]

/-- **C88**, NEC family: the commands are those of the complete frames, whatever was kept of the others. -/
theorem C88_nec_complete_only (unpack : BitVec 32 → Bool → Option C) (last : BitVec 32)
    (l : List (BitVec 32 × Nat)) :
    commands (told (necAnswer unpack) last (l.map fun s => .frame s.1 s.2)) =
      (l.filter fun s => decide (33 ≤ s.2)).flatMap fun s => (unpack s.1 false).toList := by
  induction l generalizing last with
  | nil => rfl
  | cons s l ih =>
    rw [List.map_cons, told, commands_append, ih, List.filter_cons]
    unfold necAnswer
    dsimp only
    by_cases h0 : s.2 = 0
    · rw [if_pos h0, if_neg (by simp; omega)]; rfl
    · rw [if_neg h0]
      by_cases h1 : s.2 ≤ 32
      · rw [if_pos h1, if_neg (by simp; omega)]; rfl
      · rw [if_neg h1, if_pos (by simp; omega), List.flatMap_cons, commands_oks]

/-- **C88**, SBP: the commands are those of the complete frames. -/
theorem C88_sbp_complete_only (l : List (BitVec 16 × BitVec 20 × Nat)) :
    commands (told sbpAnswer () l) =
      (l.filter fun s => decide (38 ≤ s.2.2)).map fun s => SbpCommand.unpack s.1 (s.2.1.setWidth 32) := by
  induction l with
  | nil => rfl
  | cons s l ih =>
    rw [told, commands_append, ih, List.filter_cons]
    unfold sbpAnswer
    by_cases h0 : s.2.2 = 0
    · rw [if_pos h0, if_neg (by simp; omega)]; rfl
    · rw [if_neg h0]
      by_cases h1 : s.2.2 ≤ 16
      · rw [if_pos h1, if_neg (by simp; omega)]; rfl
      · rw [if_neg h1]
        by_cases h2 : s.2.2 ≤ 37
        · rw [if_pos h2, if_neg (by simp; omega)]; rfl
        · rw [if_neg h2, if_pos (by simp; omega), List.map_cons, commands_oks]; rfl

/-- **C88**, Denon: there are as many commands as complete frames. -/
theorem C88_denon_complete_only (stale : BitVec 64) (l : List (BitVec 48 × Nat)) :
    (commands (told denonAnswer stale l)).length = (l.filter fun s => decide (49 ≤ s.2)).length := by
  induction l generalizing stale with
  | nil => rfl
  | cons s l ih =>
    rw [told, commands_append, List.length_append, ih, List.filter_cons]
    unfold denonAnswer
    by_cases h0 : s.2 = 0
    · rw [if_pos h0, if_neg (by simp; omega)]; simp [commands]
    · rw [if_neg h0]
      by_cases h1 : s.2 ≤ 48
      · rw [if_pos h1, if_neg (by simp; omega)]; simp [commands]
      · rw [if_neg h1, if_pos (by simp; omega), commands_oks]
        simp [Nat.add_comm]

/-! ## Non-vacuity -/

theorem pause_of_get {tbl : PulseSpans} {w : Nat} {syms : List Nat} {g : Nat} (hg : g < 2 ^ w)
    (h : ∀ i ∈ syms, ∀ s ∈ tbl.spans[i]?, g < s.low ∨ s.high < g) : Pause tbl w syms (0, g) := by
  refine ⟨by simpa using hg, fun i hi hin => ?_⟩
  obtain ⟨s, hs, h1, h2⟩ := hin
  have := h i hi s hs
  dsimp only at h1 h2
  omega

/-- Periods of the given lengths in µs (times in ns), 2 % slow, each with a mark of 500 µs. -/
def slowPeriods (ls : List Nat) : List (Nat × Nat) := ls.map fun l => (500000, 1020 * l - 500000)

theorem slowPeriods_near (ls : List Nat) (h : ∀ l ∈ ls, 500 ≤ l) : NearPeriods 1000000000 3 ls (slowPeriods ls) := by
  refine ⟨by simp [slowPeriods], fun i p l hp hl => ?_⟩
  rw [slowPeriods, List.getElem?_map, hl, Option.map_some, Option.some.injEq] at hp
  subst hp
  have := h l (List.mem_of_getElem? hl)
  unfold Near
  dsimp only
  omega

/-- A frame broken off after 12 bits, a repeat code, a complete frame and a stray mark. -/
def brokenNec : List ((NecSent × List (Nat × Nat)) × (Nat × Nat)) :=
  [.frame 0xE718FF00#32 13, .rep, .frame 0xE916FF00#32 33, .frame 0 0].map fun s =>
    ((s, slowPeriods (s.periods (9000 + 4500) (9000 + 2250))), (560000, 40000000))

/-- At 48 kHz: an error, the repetition of what was received of the first frame, and the command of the other. -/
example (t : Target) (phase t0 : Nat) :
    (results (necDecoder t Mono.u32 (necTable 48000) Infrared.nec) id
        ((true, 4000) :: clocked 1000000000 48000 phase t0 (series (fun i => i.2) brokenNec))).map said =
      some [.error .data, .ok (some ⟨0x00, 0x00, true⟩), .ok (some ⟨0x00, 0x16, false⟩)] := by
  have htbl : necSpans t Mono.u32 Infrared.nec 48000 = some (necTable 48000) :=
    necSpans_standard (.inl rfl) t (by decide) Infrared.nec rfl
  rw [C88_nec t 48000 3 (by decide) (by decide) Infrared.nec (.inl rfl) Mono.u32 (.inl rfl) _ htbl (by decide +kernel) id
    1000000000 (by decide) phase t0 4000 (pause_of_get (by decide) (by decide +kernel)) brokenNec (by
      intro i hi
      obtain ⟨s, hs, rfl⟩ := List.mem_map.mp hi
      refine ⟨slowPeriods_near _ ?_, by dsimp only; omega, by dsimp only; decide⟩
      have : ∀ s ∈ [NecSent.frame 0xE718FF00#32 13, .rep, .frame 0xE916FF00#32 33, .frame 0 0],
          ∀ l ∈ s.periods (9000 + 4500) (9000 + 2250), 500 ≤ l := by decide +kernel
      exact this s hs)]
  decide +kernel

/-- SBP frames broken off in the address, at the divider and in the command, then a complete one. -/
def brokenSbp : List (((BitVec 16 × BitVec 20 × Nat) × List (Nat × Nat)) × (Nat × Nat)) :=
  [(0x1234#16, 0xABCDE#20, 10), (0x1234#16, 0xABCDE#20, 17), (0x1234#16, 0xABCDE#20, 30),
    (0x1234#16, 0xABCDE#20, 38)].map fun s =>
    ((s, slowPeriods ((sbpPeriods s.1 s.2.1).take s.2.2)), (560000, 40000000))

example (t : Target) (phase t0 : Nat) :
    (results (sbpDecoder t Mono.u32 (sbpTable 1000000)) id
        ((true, 100000) :: clocked 1000000000 1000000 phase t0 (series (fun i => i.2) brokenSbp))).map said =
      some [.error .address, .error .data, .error .data, .ok (some (SbpCommand.unpack 0x1234 0xABCDE))] := by
  have htbl : sbpSpans t Mono.u32 1000000 = some (sbpTable 1000000) := sbpSpans_eq (.inl rfl) t (by decide)
  rw [C88_sbp t 1000000 3 (by decide) (by decide) Mono.u32 (.inl rfl) _ htbl (by decide +kernel) id
    1000000000 (by decide) phase t0 100000 (pause_of_get (by decide) (by decide +kernel)) brokenSbp (by
      intro i hi
      obtain ⟨s, hs, rfl⟩ := List.mem_map.mp hi
      refine ⟨slowPeriods_near _ ?_, by dsimp only; omega, by dsimp only; decide⟩
      have : ∀ s ∈ [(0x1234#16, 0xABCDE#20, 10), (0x1234#16, 0xABCDE#20, 17), (0x1234#16, 0xABCDE#20, 30),
          (0x1234#16, 0xABCDE#20, 38)], ∀ l ∈ (sbpPeriods s.1 s.2.1).take s.2.2, 500 ≤ l := by decide +kernel
      exact this s hs)]
  decide +kernel

/-- A Denon frame broken off after 20 bits, then two complete ones. -/
def brokenDenon : List (((BitVec 48 × Nat) × List (Nat × Nat)) × (Nat × Nat)) :=
  [(0x0000000FF0FF#48, 21), (0x2A4C028D6F00#48, 49), (0x2A4C028D6F00#48, 49)].map fun s =>
    ((s, slowPeriods ((denonPeriods s.1).take s.2)), (560000, 40000000))

/-- Nothing is said of the first frame, but its bits spoil the command of the second. -/
example (t : Target) (phase t0 : Nat) :
    (results (denonDecoder t Mono.u32 (denonTable 1000000)) id
        ((true, 100000) :: clocked 1000000000 1000000 phase t0 (series (fun i => i.2) brokenDenon))).map said =
      some [.ok (some ⟨0x2A4C028FFFFF⟩), .ok (some ⟨0x2A4C028D6F00⟩)] := by
  have htbl : denonSpans t Mono.u32 1000000 = some (denonTable 1000000) := denonSpans_eq (.inl rfl) t (by decide)
  rw [C88_denon t 1000000 3 (by decide) (by decide) Mono.u32 (.inl rfl) _ htbl (by decide +kernel) id
    1000000000 (by decide) phase t0 100000 (pause_of_get (by decide) (by decide +kernel)) brokenDenon (by
      intro i hi
      obtain ⟨s, hs, rfl⟩ := List.mem_map.mp hi
      refine ⟨slowPeriods_near _ ?_, by dsimp only; omega, by dsimp only; decide⟩
      have : ∀ s ∈ [(0x0000000FF0FF#48, 21), (0x2A4C028D6F00#48, 49), (0x2A4C028D6F00#48, 49)],
          ∀ l ∈ (denonPeriods s.1).take s.2, 500 ≤ l := by decide +kernel
      exact this s hs)]
  decide +kernel

end Infrared
