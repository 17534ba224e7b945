import Verif.Spec.Cross
import Verif.Lemmas.Windows
import Verif.Props.Nec
import Verif.Props.Sbp
import Verif.Props.Denon

/-!
# Protocols do not trigger each other's receivers (C50)
-/

namespace Infrared

open Spec

variable {C K : Type}

/-- Bounds in microseconds for a period within an interval. -/
structure Within (f d lo hi : Nat) : Prop where
  lo : lo * f ≤ 1000000 * (d + 1)
  hi : 1000000 * d ≤ hi * f

theorem within_of {f d : Nat} (l tol lo hi : Nat) (hl : l ≤ 13500) (ht : tol ≤ 100)
    (h1 : (spanOf l tol f).low ≤ d) (h2 : d ≤ (spanOf l tol f).high)
    (h3 : 1000000 * lo ≤ 9968 * (l * (100 - tol))) (h4 : l * (100 + tol) ≤ 100 * hi) :
    Within f d lo hi := by
  have a := span_lo hl ht h1
  have b := span_hi h2
  constructor
  · have : 1000000 * lo * f ≤ 9968 * (l * (100 - tol)) * f := Nat.mul_le_mul_right _ h3
    have e : 9968 * (l * (100 - tol)) * f = 9968 * (l * (100 - tol) * f) := by rw [Nat.mul_assoc]
    have e2 : 1000000 * lo * f = 1000000 * (lo * f) := by rw [Nat.mul_assoc]
    omega
  · have : l * (100 + tol) * f ≤ 100 * hi * f := Nat.mul_le_mul_right _ h4
    have e : 100 * hi * f = 100 * (hi * f) := by rw [Nat.mul_assoc]
    omega

theorem Within.apart {f d a b c e : Nat} (hf : 20000 ≤ f) (h1 : Within f d a b) (h2 : Within f d c e)
    (h : b + 51 ≤ c) : False := by
  have x := h1.hi
  have y := h2.lo
  have z : (b + 51) * f ≤ c * f := Nat.mul_le_mul_right _ h
  rw [Nat.add_mul] at z
  omega

/-- The intervals in microseconds, rounded outwards and with the precision of the arithmetic. -/
def usRange : Timing → Nat → Nat × Nat
  | .nec, 0 => (12514, 14445)
  | .nec, 1 => (10428, 12038)
  | .nec, 2 => (837, 1400)
  | .nec, 3 => (1973, 2520)
  | .samsung, 0 => (8343, 9630)
  | .samsung, 1 => (6257, 7223)
  | .samsung, 2 => (837, 1400)
  | .samsung, 3 => (1973, 2520)
  | .sbp, 0 => (8522, 9450)
  | .sbp, 1 => (4734, 5250)
  | .sbp, 2 => (897, 1100)
  | .sbp, 3 => (1794, 2200)
  | .denon, 0 => (4585, 5400)
  | .denon, 1 => (753, 924)
  | .denon, 2 => (1507, 1848)
  | _, _ => (0, 0)

theorem inTol_within (a : Timing) {f i d : Nat} (hi : i < 4) (h : InTol (a.table f) i d) :
    Within f d (usRange a i).1 (usRange a i).2 := by
  obtain ⟨s, hs, h1, h2⟩ := h
  have : i = 0 ∨ i = 1 ∨ i = 2 ∨ i = 3 := by omega
  cases a <;> rcases this with rfl | rfl | rfl | rfl <;> cases hs
  case denon.inr.inr.inr =>
    simp only at h1 h2
    have : d = 0 := by omega
    subst this
    exact ⟨by simp [usRange], by simp [usRange]⟩
  all_goals exact within_of _ _ _ _ (by decide) (by decide) h1 h2 (by decide) (by decide)

/-- A period cannot be symbol `i` of one timing and symbol `j` of another one if their ranges are
apart. -/
theorem inTol_apart (a b : Timing) {f d i j : Nat} (hf : 20000 ≤ f) (hi : i < 4) (hj : j < 4)
    (h1 : InTol (a.table f) i d) (h2 : InTol (b.table f) j d)
    (h : (usRange a i).2 + 51 ≤ (usRange b j).1 ∨ (usRange b j).2 + 51 ≤ (usRange a i).1) : False := by
  have x := inTol_within a hi h1
  have y := inTol_within b hj h2
  rcases h with h | h
  · exact x.apart hf y h
  · exact y.apart hf x h

/-- Symbols of a frame. -/
theorem frame_symbols (a : Timing) {f : Nat} {ps : List (Nat × Nat)} (h : a.Frame f ps) :
    ∀ p ∈ ps, ∃ i, i < 4 ∧ InTol (a.table f) i (p.1 + p.2) ∧
      ((a = .nec ∨ a = .samsung) → i ≠ 1) ∧ (a = .denon → i ≠ 3) := by
  intro p hp
  obtain ⟨n, hn⟩ := List.mem_iff_getElem?.mp hp
  have nec : ∀ (tbl : PulseSpans) (w : BitVec 32), NecFrame tbl w ps →
      ∃ i, i < 4 ∧ InTol tbl i (p.1 + p.2) ∧ i ≠ 1 := by
    intro tbl w hfr
    rcases n with _ | n
    · exact ⟨0, by decide, hfr.sync p hn, by decide⟩
    · have := hfr.bits n p hn
      split at this
      · exact ⟨3, by decide, this, by decide⟩
      · exact ⟨2, by decide, this, by decide⟩
  have mt : ∀ (tbl : PulseSpans) (slots : List Nat), Matches tbl slots ps →
      ∃ i, i ∈ slots ∧ InTol tbl i (p.1 + p.2) := by
    intro tbl slots ⟨hl, hm⟩
    have hlt : n < slots.length := hl ▸ (List.getElem?_eq_some_iff.mp hn).1
    exact ⟨slots[n], List.getElem_mem hlt, hm n p _ hn (List.getElem?_eq_getElem hlt)⟩
  cases a with
  | nec =>
    obtain ⟨w, hfr⟩ := h
    obtain ⟨i, h1, h2, h3⟩ := nec _ w hfr
    exact ⟨i, h1, h2, fun _ => h3, nofun⟩
  | samsung =>
    obtain ⟨w, hfr⟩ := h
    obtain ⟨i, h1, h2, h3⟩ := nec _ w hfr
    exact ⟨i, h1, h2, fun _ => h3, nofun⟩
  | sbp =>
    obtain ⟨b, w, hfr⟩ := h
    obtain ⟨i, h1, h2⟩ := mt _ _ hfr
    refine ⟨i, ?_, h2, by simp, nofun⟩
    simp only [sbpSlots, List.mem_append, List.mem_map, List.mem_singleton] at h1
    rcases h1 with ((rfl | ⟨j, -, rfl⟩) | rfl) | ⟨j, -, rfl⟩
    · decide
    · split <;> decide
    · decide
    · split <;> decide
  | denon =>
    obtain ⟨w, hfr⟩ := h
    obtain ⟨i, h1, h2⟩ := mt _ _ hfr
    simp only [denonSlots, List.mem_append, List.mem_map, List.mem_singleton] at h1
    have : i < 3 := by
      rcases h1 with rfl | ⟨j, -, rfl⟩
      · decide
      · split <;> decide
    exact ⟨i, by omega, h2, by simp, fun _ => by omega⟩

/-! ### The periods on the wire -/

theorem periods_pulses (w : Nat) (l : List (Nat × Nat)) (hl : ∀ p ∈ l, p.1 + p.2 < 2 ^ w) :
    periodsFrom w 0 (pulses l) = l.map fun p => p.1 + p.2 := by
  induction l with
  | nil => rfl
  | cons p l ih =>
    simp only [pulses, periodsFrom, List.map_cons, ih fun q hq => hl q (by simp [hq]),
      Nat.mod_eq_of_lt (hl p (by simp))]

theorem traffic_periods {w g : Nat} {chunks : List (List (Nat × Nat) × (Nat × Nat))}
    (hg : g < 2 ^ w) (hl : ∀ c ∈ chunks, (∀ p ∈ c.1, p.1 + p.2 < 2 ^ w) ∧ c.2.1 + c.2.2 < 2 ^ w) :
    periods w (traffic g chunks) =
      g :: (chunks.flatMap fun c => c.1 ++ [c.2]).map fun p => p.1 + p.2 := by
  unfold periods traffic
  rw [periodsFrom, Nat.zero_add, Nat.mod_eq_of_lt hg, periods_pulses]
  intro p hp
  obtain ⟨c, hc, hp⟩ := List.mem_flatMap.mp hp
  obtain ⟨h1, h2⟩ := hl c hc
  rcases List.mem_append.mp hp with hp | hp
  · exact h1 p hp
  · rw [List.mem_singleton.mp hp]; exact h2

/-- The periods of a part of a history come first. -/
theorem periods_take (w : Nat) (evs : List Ev) (n : Nat) :
    ∃ post, periods w evs = periods w (evs.take n) ++ post := by
  have h := periodsFrom_append w 0 (evs.take n) (evs.drop n)
  rw [List.take_append_drop] at h
  exact ⟨_, h⟩

theorem pulses_alternating (g : Nat) (l : List (Nat × Nat)) : Alternating ((true, g) :: pulses l) := by
  induction l generalizing g with
  | nil => trivial
  | cons p l ih =>
    refine ⟨by simp, by simp, ih _⟩

/-- Every period is foreign to the receiver or a symbol of the transmitter. -/
theorem traffic_elems {a : Timing} {f : Nat} {tbl : PulseSpans} {w g : Nat}
    {chunks : List (List (Nat × Nat) × (Nat × Nat))} (h : Traffic a f tbl w chunks)
    (hg : ∀ i, i < 4 → ¬ InTol tbl i g) :
    ∀ x ∈ g :: (chunks.flatMap fun c => c.1 ++ [c.2]).map fun p => p.1 + p.2,
      (∀ i, i < 4 → ¬ InTol tbl i x) ∨
      ∃ i, i < 4 ∧ InTol (a.table f) i x ∧ ((a = .nec ∨ a = .samsung) → i ≠ 1) ∧
        (a = .denon → i ≠ 3) := by
  intro x hx
  rcases List.mem_cons.mp hx with rfl | hx
  · exact .inl hg
  · obtain ⟨p, hp, rfl⟩ := List.mem_map.mp hx
    obtain ⟨c, hc, hp⟩ := List.mem_flatMap.mp hp
    obtain ⟨h1, h2, h3⟩ := h c hc
    rcases List.mem_append.mp hp with hp | hp
    · exact .inr (frame_symbols a h1 p hp)
    · rw [List.mem_singleton.mp hp]
      exact .inl h3

theorem Spec.Timing.table_fits (a : Timing) {f width : Nat} (hf : f < 2 ^ 32) (hw : 32 ≤ width) :
    Fits (a.table f) width := by
  cases a with
  | nec => exact necTable_fits hf hw
  | samsung => exact samsungTable_fits hf hw
  | sbp => exact sbpTable_fits hf hw
  | denon => exact denonTable_fits hf hw

theorem traffic_lt {a : Timing} {f : Nat} (hf : f < 2 ^ 32) {tbl : PulseSpans} {w : Nat} (hw : 32 ≤ w)
    {chunks : List (List (Nat × Nat) × (Nat × Nat))} (h : Traffic a f tbl w chunks) :
    ∀ c ∈ chunks, (∀ p ∈ c.1, p.1 + p.2 < 2 ^ w) ∧ c.2.1 + c.2.2 < 2 ^ w := by
  intro c hc
  obtain ⟨h1, h2, -⟩ := h c hc
  refine ⟨fun p hp => ?_, h2⟩
  obtain ⟨i, -, hi, -⟩ := frame_symbols a h1 p hp
  exact inTol_lt (a.table_fits hf hw) hi

/-- The periods of any part of the traffic. -/
theorem traffic_part {a : Timing} {f : Nat} (hf : f < 2 ^ 32) {tbl : PulseSpans} {w g : Nat}
    (hw : 32 ≤ w) {chunks : List (List (Nat × Nat) × (Nat × Nat))} (h : Traffic a f tbl w chunks)
    (hg : g < 2 ^ w) (n : Nat) {l : List Nat} (hl : periods w ((traffic g chunks).take n) = l) :
    ∃ post, g :: (chunks.flatMap fun c => c.1 ++ [c.2]).map (fun p => p.1 + p.2) = l ++ post := by
  obtain ⟨post, hp⟩ := periods_take w (traffic g chunks) n
  rw [traffic_periods hg (traffic_lt hf hw h), hl] at hp
  exact ⟨post, hp⟩

/-! ### The exceptional pairs: SBP frames contain symbols of Samsung and of Denon -/

theorem sbpSlots_get (a : BitVec 16) (w : BitVec 20) (n s : Nat) (h : (sbpSlots a w)[n]? = some s) :
    (s = 0 → n = 0) ∧ (s = 1 → n = 17) ∧ n < 38 ∧ (n = 17 → s = 1) := by
  have hn : n < 38 := by
    have := (List.getElem?_eq_some_iff.mp h).1
    simpa [sbpSlots] using this
  have h2 : ∀ (b : Bool), (if b then (3 : Nat) else 2) ≠ 0 ∧ (if b then (3 : Nat) else 2) ≠ 1 := by
    decide
  unfold sbpSlots at h
  by_cases h0 : n = 0
  · subst h0
    simp at h
    omega
  by_cases h17 : n < 17
  · rw [List.getElem?_append_left (by simp; omega), List.getElem?_append_left (by simp; omega),
      List.getElem?_append_right (by simp; omega), List.getElem?_map] at h
    obtain ⟨j, -, rfl⟩ := Option.map_eq_some_iff.mp h
    have := h2 (a.getLsbD j)
    exact ⟨fun h => absurd h this.1, fun h => absurd h this.2, hn, by omega⟩
  by_cases h18 : n = 17
  · subst h18
    rw [List.getElem?_append_left (by simp), List.getElem?_append_right (by simp)] at h
    simp at h
    omega
  · rw [List.getElem?_append_right (by simp; omega), List.getElem?_map] at h
    obtain ⟨j, -, rfl⟩ := Option.map_eq_some_iff.mp h
    have := h2 (w.getLsbD j)
    exact ⟨fun h => absurd h this.1, fun h => absurd h this.2, hn, by omega⟩

/-- Position within SBP traffic: a period is a gap, or symbol `n` of a frame whose other symbols and
gap are at the corresponding places. -/
theorem sbp_traffic_pos {f : Nat} {tbl : PulseSpans} {w : Nat}
    {chunks : List (List (Nat × Nat) × (Nat × Nat))} (h : Traffic .sbp f tbl w chunks) (k x : Nat)
    (hx : ((chunks.flatMap fun c => c.1 ++ [c.2]).map fun p => p.1 + p.2)[k]? = some x) :
    (∀ i, i < 4 → ¬ InTol tbl i x) ∨
    ∃ n s, s < 4 ∧ InTol (sbpTable f) s x ∧ (s = 0 → n = 0) ∧ (s = 1 → n = 17) ∧ n < 38 ∧
      (n < 17 → ∃ y, ((chunks.flatMap fun c => c.1 ++ [c.2]).map fun p => p.1 + p.2)[k + (17 - n)]? =
        some y ∧ InTol (sbpTable f) 1 y) ∧
      ∃ y, ((chunks.flatMap fun c => c.1 ++ [c.2]).map fun p => p.1 + p.2)[k + (38 - n)]? =
        some y ∧ ∀ i, i < 4 → ¬ InTol tbl i y := by
  induction chunks generalizing k with
  | nil => simp at hx
  | cons c cs ih =>
    obtain ⟨⟨a, wd, hlen, hm⟩, h2, h3⟩ := h c (by simp)
    have hl : c.1.length = 38 := by rw [hlen]; simp [sbpSlots]
    simp only [List.flatMap_cons, List.map_append, List.map_cons, List.map_nil, List.append_assoc,
      List.cons_append, List.nil_append] at hx ⊢
    by_cases hk : k < 38
    · right
      rw [List.getElem?_append_left (by simpa [hl] using hk), List.getElem?_map] at hx
      obtain ⟨p, hp, rfl⟩ := Option.map_eq_some_iff.mp hx
      have hs : k < (sbpSlots a wd).length := by rw [← hlen, hl]; exact hk
      have hs' := List.getElem?_eq_getElem hs
      obtain ⟨e0, e1, e2, -⟩ := sbpSlots_get a wd k _ hs'
      have hI := hm k p _ hp hs'
      have hs4 : (sbpSlots a wd)[k] < 4 := by
        have hmem := List.getElem_mem hs
        generalize (sbpSlots a wd)[k] = s at hmem
        simp only [sbpSlots, List.mem_append, List.mem_map, List.mem_singleton] at hmem
        rcases hmem with ((rfl | ⟨j, -, rfl⟩) | rfl) | ⟨j, -, rfl⟩
        · decide
        · split <;> decide
        · decide
        · split <;> decide
      refine ⟨k, _, hs4, hI, e0, e1, hk, fun hk17 => ?_, ?_⟩
      · have h17 : (c.1)[17]? = some (c.1[17]'(by omega)) := List.getElem?_eq_getElem (by omega)
        have hs17 : 17 < (sbpSlots a wd).length := by rw [← hlen, hl]; decide
        have hsl := List.getElem?_eq_getElem hs17
        have hone := (sbpSlots_get a wd 17 _ hsl).2.2.2 rfl
        refine ⟨(c.1[17]'(by omega)).1 + (c.1[17]'(by omega)).2, ?_, ?_⟩
        · rw [show k + (17 - k) = 17 by omega,
            List.getElem?_append_left (by simp [hl]), List.getElem?_map, h17]
          rfl
        · have := hm 17 _ _ h17 hsl
          rwa [hone] at this
      · refine ⟨c.2.1 + c.2.2, ?_, h3⟩
        rw [show k + (38 - k) = 38 by omega, List.getElem?_append_right (by simp [hl])]
        simp [hl]
    · by_cases hk38 : k = 38
      · left
        subst hk38
        rw [List.getElem?_append_right (by simp [hl])] at hx
        simp only [List.length_map, hl, Nat.sub_self, List.getElem?_cons_zero, Option.some.injEq] at hx
        subst hx
        exact h3
      · obtain ⟨j, rfl⟩ : ∃ j, k = 39 + j := ⟨k - 39, by omega⟩
        have shift : ∀ j, ((c.1.map fun p => p.1 + p.2) ++ (c.2.1 + c.2.2) ::
            ((cs.flatMap fun c => c.1 ++ [c.2]).map fun p => p.1 + p.2))[39 + j]? =
            ((cs.flatMap fun c => c.1 ++ [c.2]).map fun p => p.1 + p.2)[j]? := by
          intro j
          rw [List.getElem?_append_right (by simp [hl]; omega)]
          simp only [List.length_map, hl]
          rw [show 39 + j - 38 = j + 1 by omega, List.getElem?_cons_succ]
        rw [shift] at hx
        rcases ih (fun c hc => h c (by simp [hc])) j hx with h | ⟨n, s, q1, q2, q3, q4, q5, q6, q7⟩
        · exact .inl h
        · refine .inr ⟨n, s, q1, q2, q3, q4, q5, fun h17 => ?_, ?_⟩
          · rw [Nat.add_assoc, shift]; exact q6 h17
          · rw [Nat.add_assoc, shift]; exact q7

/-- The range of symbol `j` of `b` is apart from every symbol of frames of `a`. -/
abbrev Apart (a b : Timing) (j : Nat) : Prop :=
  ∀ i, i < 4 → ((a = .nec ∨ a = .samsung) → i ≠ 1) → (a = .denon → i ≠ 3) →
    (usRange a i).2 + 51 ≤ (usRange b j).1 ∨ (usRange b j).2 + 51 ≤ (usRange a i).1

/-- Symbol `j` of the receiver does not occur in the traffic. -/
theorem absent {a b : Timing} {f w g : Nat} (hlo : 20000 ≤ f)
    {chunks : List (List (Nat × Nat) × (Nat × Nat))} (h : Traffic a f (b.table f) w chunks)
    (hg : ∀ i, i < 4 → ¬ InTol (b.table f) i g) {j : Nat} (hj : j < 4) (hap : Apart a b j) {x : Nat}
    (hx : x ∈ g :: (chunks.flatMap fun c => c.1 ++ [c.2]).map fun p => p.1 + p.2) :
    ¬ InTol (b.table f) j x := by
  intro hj'
  rcases traffic_elems h hg x hx with h | ⟨i, hi, h1, h2, h3⟩
  · exact h j hj hj'
  · exact inTol_apart a b hlo hi hj h1 hj' (hap i hi h2 h3)

/-- Same, for the periods a receiver has seen at some point. -/
theorem absent_part {a b : Timing} {f w g : Nat} (hlo : 20000 ≤ f) (hf : f < 2 ^ 32) (hw : 32 ≤ w)
    {chunks : List (List (Nat × Nat) × (Nat × Nat))} (h : Traffic a f (b.table f) w chunks)
    (hgw : g < 2 ^ w) (hg : ∀ i, i < 4 → ¬ InTol (b.table f) i g) {j : Nat} (hj : j < 4)
    (hap : Apart a b j) (n : Nat) {l : List Nat} (hl : periods w ((traffic g chunks).take n) = l)
    {x : Nat} (hx : x ∈ l) : ¬ InTol (b.table f) j x := by
  obtain ⟨post, hp⟩ := traffic_part hf hw h hgw n hl
  exact absent hlo h hg hj hap (hp ▸ List.mem_append_left post hx)

/-- After something that looks like a Samsung sync in SBP traffic, the 17th period is the divider. -/
theorem sbp_samsung {f w g : Nat} (hlo : 20000 ≤ f)
    {chunks : List (List (Nat × Nat) × (Nat × Nat))} (h : Traffic .sbp f (samsungTable f) w chunks)
    (hg : ∀ i, i < 4 → ¬ InTol (samsungTable f) i g) {k s : Nat}
    (hk : (g :: (chunks.flatMap fun c => c.1 ++ [c.2]).map fun p => p.1 + p.2)[k]? = some s)
    (hs : InTol (samsungTable f) 0 s) :
    ∃ y, (g :: (chunks.flatMap fun c => c.1 ++ [c.2]).map fun p => p.1 + p.2)[k + 17]? = some y ∧
      InTol (sbpTable f) 1 y := by
  rcases k with _ | k
  · simp only [List.getElem?_cons_zero, Option.some.injEq] at hk
    subst hk
    exact absurd hs (hg 0 (by decide))
  rw [List.getElem?_cons_succ] at hk
  rcases sbp_traffic_pos h k s hk with h' | ⟨n, i, hi, h1, h2, -, -, h3, -⟩
  · exact absurd hs (h' 0 (by decide))
  have hi0 : i = 0 := by
    by_cases hi0 : i = 0
    · exact hi0
    · exfalso
      have : i = 1 ∨ i = 2 ∨ i = 3 := by omega
      refine inTol_apart .sbp .samsung hlo hi (j := 0) (by decide) h1 hs ?_
      rcases this with rfl | rfl | rfl <;> decide
  obtain rfl := h2 hi0
  obtain ⟨y, hy, h4⟩ := h3 (by decide)
  refine ⟨y, ?_, h4⟩
  rw [show k + 1 + 17 = k + (17 - 0) + 1 by omega, List.getElem?_cons_succ]
  exact hy

/-- After something that looks like a Denon sync in SBP traffic, the 21st period is a gap. -/
theorem sbp_denon {f w g : Nat} (hlo : 20000 ≤ f)
    {chunks : List (List (Nat × Nat) × (Nat × Nat))} (h : Traffic .sbp f (denonTable f) w chunks)
    (hg : ∀ i, i < 4 → ¬ InTol (denonTable f) i g) {k s : Nat}
    (hk : (g :: (chunks.flatMap fun c => c.1 ++ [c.2]).map fun p => p.1 + p.2)[k]? = some s)
    (hs : InTol (denonTable f) 0 s) :
    ∃ y, (g :: (chunks.flatMap fun c => c.1 ++ [c.2]).map fun p => p.1 + p.2)[k + 21]? = some y ∧
      ∀ i, i < 4 → ¬ InTol (denonTable f) i y := by
  rcases k with _ | k
  · simp only [List.getElem?_cons_zero, Option.some.injEq] at hk
    subst hk
    exact absurd hs (hg 0 (by decide))
  rw [List.getElem?_cons_succ] at hk
  rcases sbp_traffic_pos h k s hk with h' | ⟨n, i, hi, h1, -, h2, -, -, h3⟩
  · exact absurd hs (h' 0 (by decide))
  have hi1 : i = 1 := by
    by_cases hi1 : i = 1
    · exact hi1
    · exfalso
      have : i = 0 ∨ i = 2 ∨ i = 3 := by omega
      refine inTol_apart .sbp .denon hlo hi (j := 0) (by decide) h1 hs ?_
      rcases this with rfl | rfl | rfl <;> decide
  obtain rfl := h2 hi1
  obtain ⟨y, hy, h4⟩ := h3
  refine ⟨y, ?_, h4⟩
  rw [show k + 1 + 21 = k + (38 - 17) + 1 by omega, List.getElem?_cons_succ]
  exact hy

/-! ### The property -/

theorem width_prim {m : Mono} (hm : m = Mono.u32 ∨ m = Mono.u64) : 32 ≤ m.width := by
  rcases hm with rfl | rfl <;> decide

/-- **C50**, receivers with standard NEC timing (any command type): Samsung, SBP and Denon frames
never produce a command. -/
theorem C50_nec_receiver (t : Target) (m : Mono) (hm : m = Mono.u32 ∨ m = Mono.u64)
    (f : Nat) (hlo : 20000 ≤ f) (hf : f < 2 ^ 32) (v : NecVariant C)
    (hv : v.pulseDistance = necStandardTiming) (tbl : PulseSpans)
    (htbl : necSpans t m v f = some tbl) (conv : C → K) (a : Timing) (ha : a ≠ .nec) (g : Nat)
    (hgw : g < 2 ^ m.width) (hg : ∀ i, i < 4 → ¬ InTol tbl i g)
    (chunks : List (List (Nat × Nat) × (Nat × Nat))) (h : Traffic a f tbl m.width chunks)
    (outs : List (Res K))
    (hres : results (necDecoder t m tbl v) conv (traffic g chunks) = some outs) :
    NoCommand outs := by
  rw [necSpans_standard hm t hf v hv, Option.some.injEq] at htbl
  subst htbl
  intro k hk
  obtain ⟨i, hi⟩ := List.mem_iff_getElem?.mp hk
  have ab : ∀ j, j = 0 ∨ j = 1 → Apart a .nec j := by
    intro j hj
    cases a with
    | nec => exact absurd rfl ha
    | samsung => rcases hj with rfl | rfl <;> decide
    | sbp => rcases hj with rfl | rfl <;> decide
    | denon => rcases hj with rfl | rfl <;> decide
  obtain ⟨-, w, c, -, ⟨⟨pre, s, bits, hp, -, hs, -⟩, -⟩ | ⟨⟨pre, p, hp, hs⟩, -⟩⟩ :=
    C18_nec_sound t m (Mono.prim_lawful hm) (necTable f) v conv _ outs hres i k hi
  · exact absent_part (b := .nec) hlo hf (width_prim hm) h hgw hg (by decide) (ab 0 (.inl rfl)) _ hp
      (by simp) hs
  · exact absent_part (b := .nec) hlo hf (width_prim hm) h hgw hg (by decide) (ab 1 (.inr rfl)) _ hp
      (by simp) hs

/-- **C50**, receivers with Samsung timing. -/
theorem C50_samsung_receiver (t : Target) (m : Mono) (hm : m = Mono.u32 ∨ m = Mono.u64)
    (f : Nat) (hlo : 20000 ≤ f) (hf : f < 2 ^ 32) (v : NecVariant C)
    (hv : v.pulseDistance = necSamsungTiming) (tbl : PulseSpans)
    (htbl : necSpans t m v f = some tbl) (conv : C → K) (a : Timing) (ha : a ≠ .samsung) (g : Nat)
    (hgw : g < 2 ^ m.width) (hg : ∀ i, i < 4 → ¬ InTol tbl i g)
    (chunks : List (List (Nat × Nat) × (Nat × Nat))) (h : Traffic a f tbl m.width chunks)
    (outs : List (Res K))
    (hres : results (necDecoder t m tbl v) conv (traffic g chunks) = some outs) :
    NoCommand outs := by
  rw [necSpans_samsung hm t hf v hv, Option.some.injEq] at htbl
  subst htbl
  intro k hk
  obtain ⟨i, hi⟩ := List.mem_iff_getElem?.mp hk
  have ab : ∀ j, (j = 0 ∧ a ≠ .sbp) ∨ j = 1 → Apart a .samsung j := by
    intro j hj
    cases a with
    | samsung => exact absurd rfl ha
    | nec => rcases hj with ⟨rfl, -⟩ | rfl <;> decide
    | sbp =>
      rcases hj with ⟨-, h⟩ | rfl
      · exact absurd rfl h
      · decide
    | denon => rcases hj with ⟨rfl, -⟩ | rfl <;> decide
  obtain ⟨-, w, c, -, ⟨⟨pre, s, bits, hp, hlen, hs, hb⟩, -⟩ | ⟨⟨pre, p, hp, hs⟩, -⟩⟩ :=
    C18_nec_sound t m (Mono.prim_lawful hm) (samsungTable f) v conv _ outs hres i k hi
  · by_cases hsb : a = .sbp
    · subst hsb
      obtain ⟨post, hP⟩ := traffic_part hf (width_prim hm) h hgw _ hp
      have hk0 : (pre ++ s :: bits ++ post)[pre.length]? = some s := by simp
      rw [← hP] at hk0
      obtain ⟨y, hy, hd⟩ := sbp_samsung hlo h hg hk0 hs
      rw [hP, List.getElem?_append_left (by simp [hlen]), List.getElem?_append_right (by omega),
        show pre.length + 17 - pre.length = 16 + 1 by omega, List.getElem?_cons_succ] at hy
      have hb := hb 16 y hy
      split at hb
      · exact inTol_apart .sbp .samsung (i := 1) (j := 3) hlo (by decide) (by decide) hd hb (by decide)
      · exact inTol_apart .sbp .samsung (i := 1) (j := 2) hlo (by decide) (by decide) hd hb (by decide)
    · exact absent_part (b := .samsung) hlo hf (width_prim hm) h hgw hg (by decide)
        (ab 0 (.inl ⟨rfl, hsb⟩)) _ hp (by simp) hs
  · exact absent_part (b := .samsung) hlo hf (width_prim hm) h hgw hg (by decide) (ab 1 (.inr rfl)) _ hp
      (by simp) hs

/-- **C50**, SBP receivers. -/
theorem C50_sbp_receiver (t : Target) (m : Mono) (hm : m = Mono.u32 ∨ m = Mono.u64)
    (f : Nat) (hlo : 20000 ≤ f) (hf : f < 2 ^ 32) (tbl : PulseSpans)
    (htbl : sbpSpans t m f = some tbl) (conv : SbpCommand → K) (a : Timing) (ha : a ≠ .sbp) (g : Nat)
    (hgw : g < 2 ^ m.width) (hg : ∀ i, i < 4 → ¬ InTol tbl i g)
    (chunks : List (List (Nat × Nat) × (Nat × Nat))) (h : Traffic a f tbl m.width chunks)
    (outs : List (Res K))
    (hres : results (sbpDecoder t m tbl) conv (traffic g chunks) = some outs) :
    NoCommand outs := by
  rw [sbpSpans_eq hm t hf, Option.some.injEq] at htbl
  subst htbl
  intro k hk
  obtain ⟨i, hi⟩ := List.mem_iff_getElem?.mp hk
  obtain ⟨ad, w, -, pre, ps, hp, hlen, hb⟩ := C22_sbp_sound t m (Mono.prim_lawful hm) (sbpTable f) conv _
    (pulses_alternating g _) outs hres i k hi
  have at' : ∀ (n s : Nat), (sbpSlots ad w)[n]? = some s → ∃ p ∈ ps, InTol (sbpTable f) s p := by
    intro n s hs
    have hn : n < ps.length := hlen ▸ (List.getElem?_eq_some_iff.mp hs).1
    exact ⟨ps[n], List.getElem_mem hn, hb n _ s (List.getElem?_eq_getElem hn) hs⟩
  have go : ∀ (j n : Nat), j < 4 → Apart a .sbp j → (sbpSlots ad w)[n]? = some j → False := by
    intro j n hj hap hs
    obtain ⟨p, hmem, hI⟩ := at' n j hs
    exact absent_part (b := .sbp) hlo hf (width_prim hm) h hgw hg hj hap _ hp
      (List.mem_append_right pre hmem) hI
  have s0 : (sbpSlots ad w)[0]? = some 0 := by simp [sbpSlots]
  have s1 : (sbpSlots ad w)[17]? = some 1 := by simp [sbpSlots, List.getElem?_append]
  cases a with
  | sbp => exact ha rfl
  | nec => exact go 0 0 (by decide) (by decide) s0
  | samsung => exact go 1 17 (by decide) (by decide) s1
  | denon => exact go 0 0 (by decide) (by decide) s0

/-- **C50**, Denon receivers. -/
theorem C50_denon_receiver (t : Target) (m : Mono) (hm : m = Mono.u32 ∨ m = Mono.u64)
    (f : Nat) (hlo : 20000 ≤ f) (hf : f < 2 ^ 32) (tbl : PulseSpans)
    (htbl : denonSpans t m f = some tbl) (a : Timing) (ha : a ≠ .denon) (g : Nat)
    (hgw : g < 2 ^ m.width) (hg : ∀ i, i < 4 → ¬ InTol tbl i g)
    (chunks : List (List (Nat × Nat) × (Nat × Nat))) (h : Traffic a f tbl m.width chunks)
    (outs : List (Res DenonCommand))
    (hres : results (denonDecoder t m tbl) id (traffic g chunks) = some outs) :
    NoCommand outs := by
  rw [denonSpans_eq hm t hf, Option.some.injEq] at htbl
  subst htbl
  intro k hk
  obtain ⟨i, hi⟩ := List.mem_iff_getElem?.mp hk
  obtain ⟨w, ⟨pre, ps, hp, hlen, hb⟩, -⟩ := C51_denon_sound t m (Mono.prim_lawful hm) (denonTable f) _
    outs hres i k hi
  have hl : ps.length = 49 := by rw [hlen]; simp [denonSlots]
  have h0 := List.getElem?_eq_getElem (show 0 < ps.length by omega)
  have hs := hb 0 _ 0 h0 (by simp [denonSlots])
  have go : Apart a .denon 0 → False := fun hap =>
    absent_part (b := .denon) hlo hf (width_prim hm) h hgw hg (by decide) hap _ hp
      (List.mem_append_right pre (List.getElem_mem (show 0 < ps.length by omega))) hs
  cases a with
  | denon => exact ha rfl
  | nec => exact go (by decide)
  | samsung => exact go (by decide)
  | sbp =>
    obtain ⟨post, hP⟩ := traffic_part hf (width_prim hm) h hgw _ hp
    have hk0 : (pre ++ ps ++ post)[pre.length]? = some ps[0] := by
      rw [List.append_assoc, List.getElem?_append_right (by omega),
        List.getElem?_append_left (by omega), Nat.sub_self, h0]
    rw [← hP] at hk0
    obtain ⟨y, hy, hd⟩ := sbp_denon hlo h hg hk0 hs
    rw [hP, List.append_assoc, List.getElem?_append_right (by omega),
      List.getElem?_append_left (by omega), show pre.length + 21 - pre.length = 21 by omega] at hy
    have hsl : (denonSlots w)[21]? = some (if w.getLsbD 20 then 2 else 1) := by
      simp [denonSlots]
    have hb := hb 21 y _ hy hsl
    exact hd _ (by split <;> decide) hb

/-- A 40 ms gap means nothing to any of the four timings at 1 MHz. -/
theorem foreign_gap (b : Timing) : ∀ i, i < 4 → ¬ InTol (b.table 1000000) i 40560 := by
  rintro i hi ⟨s, hs, h1, h2⟩
  have : i = 0 ∨ i = 1 ∨ i = 2 ∨ i = 3 := by omega
  cases b <;> rcases this with rfl | rfl | rfl | rfl <;> cases hs <;> revert h1 h2 <;> decide

/-- Non-vacuity: SBP frames (whose sync looks like Samsung's) before a Samsung receiver, two NEC
frames before an SBP receiver, SBP frames (whose divider looks like a Denon sync) before a Denon
receiver; the runs do not panic. -/
example : Traffic .sbp 1000000 (samsungTable 1000000) 32
      [(nominalSbp 0x2010 0x807F0, (560, 40000)), (nominalSbp 0x2010 0x807F0, (560, 40000))] ∧
    Traffic .nec 1000000 (sbpTable 1000000) 32
      [(nominalNec 0xF708FB04#32, (560, 40000)), (nominalNec 0x00FF00FF#32, (560, 40000))] ∧
    Traffic .sbp 1000000 (denonTable 1000000) 32 [(nominalSbp 0x2010 0x807F0, (560, 40000))] ∧
    Traffic .sbp 1000000 (necTable 1000000) 32 [(nominalSbp 0x2010 0x807F0, (560, 40000))] ∧
    InTol (samsungTable 1000000) 0 9000 ∧ InTol (denonTable 1000000) 0 5000 := by
  have sbp : Timing.sbp.Frame 1000000 (nominalSbp 0x2010 0x807F0) := ⟨_, _, nominalSbp_frame _ _⟩
  have nec : ∀ w, Timing.nec.Frame 1000000 (nominalNec w) := fun w => ⟨w, nominalNec_frame w⟩
  refine ⟨?_, ?_, ?_, ?_, ⟨_, rfl, by decide, by decide⟩, ⟨_, rfl, by decide, by decide⟩⟩ <;>
    intro c hc <;> simp only [List.mem_cons, List.not_mem_nil, or_false] at hc
  · rcases hc with rfl | rfl <;> exact ⟨sbp, by decide, foreign_gap .samsung⟩
  · rcases hc with rfl | rfl <;> exact ⟨nec _, by decide, foreign_gap .sbp⟩
  · subst hc; exact ⟨sbp, by decide, foreign_gap .denon⟩
  · subst hc; exact ⟨sbp, by decide, foreign_gap .nec⟩

example : (results (necDecoder ⟨true, 32⟩ Mono.u32 (samsungTable 1000000) samsungNec) id
      (traffic 40560 [(nominalSbp 0x2010 0x807F0, (560, 40000))])).isSome = true := by
  decide +kernel

end Infrared
