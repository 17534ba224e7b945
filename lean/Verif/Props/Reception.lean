import Verif.Props.Fugit
import Verif.Props.Sampling

/-!
# Real series of transmissions, received with a plain clock or by polling (C65)
-/

namespace Infrared

open Spec

variable {C K : Type}

/-! ## Measuring with a `u32` or `u64` clock -/

theorem prim_measures {t : Target} {m : Mono} (hm : m = Mono.u32 ∨ m = Mono.u64) {f : Nat} (hf : f < 2 ^ 32)
    {tbl : PulseSpans} {u phase j : Nat} (hu : 0 < u) (k : Kind) (htbl : k.build t m f = some tbl)
    {s l tol : Nat} (hs : k.symbols[s]? = some (l, tol))
    (c1 : (100 - tol) * l * f + 100000000 ≤ (100 - j) * l * f)
    (c2 : 10000 * ((100 + j) * l * f) + 1000000000000 + 10000000000 * (100 + tol) ≤
      9968 * ((100 + tol) * l * f)) :
    Measures tbl u f phase j s l := by
  intro t' x hn
  obtain ⟨a, b⟩ := near_accept hu (f := f) (phase := phase) (t := t') (tol := tol) hn rfl c1 c2
  exact C52_accepts k t m hm f hf tbl htbl s l tol hs _ a b

/-- A period of 16 ms or more is longer than every symbol. -/
theorem prim_pause {t : Target} {m : Mono} (hm : m = Mono.u32 ∨ m = Mono.u64) {f : Nat} (hf : f < 2 ^ 32)
    (hlo : 20000 ≤ f) {tbl : PulseSpans} {u phase : Nat} (hu : 0 < u) (k : Kind)
    (htbl : k.build t m f = some tbl) (syms : List Nat) (hsy : ∀ i ∈ syms, i < k.symbols.length)
    (p : Nat × Nat) (hp : 16000 * u ≤ 1000000 * (p.1 + p.2))
    (h1 : (p.1 + p.2) * f + u < 2 ^ m.width * u) (t' : Nat) :
    Pause tbl m.width syms (reading u f phase (t' + p.1) - reading u f phase t',
      reading u f phase (t' + p.1 + p.2) - reading u f phase (t' + p.1)) := by
  obtain ⟨hb1, hb2⟩ := reading_bounds hu f phase t' (p.1 + p.2)
  have m1 := reading_mono u f phase t' p.1
  have m2 := reading_mono u f phase (t' + p.1) p.2
  rw [← Nat.add_assoc] at hb1 hb2
  have he : reading u f phase (t' + p.1) - reading u f phase t' +
      (reading u f phase (t' + p.1 + p.2) - reading u f phase (t' + p.1)) =
      reading u f phase (t' + p.1 + p.2) - reading u f phase t' := by omega
  refine ⟨?_, fun i hi hin => ?_⟩
  · dsimp only
    rw [he]
    refine Nat.lt_of_mul_lt_mul_left (a := u) ?_
    rw [Nat.mul_comm u (2 ^ _)]
    omega
  dsimp only at hin
  rw [he] at hin
  have hlt := hsy i hi
  obtain ⟨⟨l, tol⟩, hs⟩ : ∃ s, k.symbols[i]? = some s := ⟨_, List.getElem?_eq_getElem hlt⟩
  have hr := ((C52_rejects k t m hm f hf tbl htbl i _ hin).1 l tol hs).1
  generalize reading u f phase (t' + p.1 + p.2) - reading u f phase t' = d at hr hb1 hb2
  have g1 : 16000 * f ≤ 1000000 * d + 1000000 := by
    refine Nat.le_of_mul_le_mul_left (c := u) ?_ hu
    have := Nat.mul_le_mul_right f hp
    rw [Nat.mul_assoc, Nat.mul_assoc 1000000] at this
    rw [Nat.mul_left_comm u 16000, Nat.mul_add, Nat.mul_left_comm u 1000000, Nat.mul_comm u 1000000]
    omega
  have hsmall : (100 + tol) * l ≤ 107 * 13500 := by
    have : ∀ k : Kind, ∀ s ∈ k.symbols, (100 + s.2) * s.1 ≤ 107 * 13500 := by
      intro k; cases k <;> decide
    exact this k (l, tol) (List.mem_of_getElem? hs)
  have h5 := Nat.mul_le_mul_right f hsmall
  omega

/-! ## Event-driven receivers -/

/-- The lengths of the symbols of a NEC-family protocol, in microseconds. -/
def necLengths (v : NecVariant C) : List Nat :=
  [v.pulseDistance.headerHigh + v.pulseDistance.headerLow, v.pulseDistance.headerHigh + v.pulseDistance.repeatLow,
    560 + 560, 560 + 1690]

/-- The readings for a series of frames and repeat codes are themselves such a series, of the same words. -/
theorem nec_measured (t : Target) (m : Mono) (hm : m = Mono.u32 ∨ m = Mono.u64) (f : Nat) (hlo : 20000 ≤ f)
    (hf : f < 2 ^ 32) (v : NecVariant C) (hv : v.Shipped) (tbl : PulseSpans) (htbl : necSpans t m v f = some tbl)
    (u : Nat) (hu : 0 < u) (phase t0 j : Nat)
    (hclk : ∀ s l, (necLengths v)[s]? = some l → Measures tbl u f phase j s l)
    (items : List (NecItem × (Nat × Nat)))
    (hok : ∀ i ∈ items, i.1.Near u j (v.pulseDistance.headerHigh + v.pulseDistance.headerLow)
      (v.pulseDistance.headerHigh + v.pulseDistance.repeatLow) ∧
      16000 * u ≤ 1000000 * (i.2.1 + i.2.2) ∧ (i.2.1 + i.2.2) * f + u < 2 ^ m.width * u) :
    ∃ items' : List (NecItem × (Nat × Nat)),
      clocked u f phase t0 (series NecItem.wire items) = series NecItem.wire items' ∧
      (∀ i ∈ items', i.1.Ok tbl ∧ Pause tbl m.width [0, 1] i.2) ∧
      ∀ last, necHeard v.unpack last (items'.map Prod.fst) = necHeard v.unpack last (items.map Prod.fst) := by
  obtain ⟨ts, hl, hser⟩ := clocked_series u f phase NecItem.wire NecItem.withPulses withPulses_wire
    items t0
  refine ⟨_, hser, ?_, fun last => ?_⟩
  · intro i hi
    obtain ⟨⟨⟨a, p⟩, b⟩, hq, rfl⟩ := List.mem_map.mp hi
    have hmem := (List.of_mem_zip hq).1
    obtain ⟨hnear, hp, hp'⟩ := hok _ hmem
    obtain ⟨k, hk, he⟩ := nec_kind v hv
    rw [he] at htbl
    refine ⟨?_, prim_pause hm hf hlo hu k htbl [0, 1] (by rcases hk with ⟨rfl, -⟩ | ⟨rfl, -⟩ <;> decide)
      p hp hp' _⟩
    dsimp only at hnear ⊢
    cases a with
    | frame wd ps =>
      refine necFrame_of_matches ?_
      refine matches_of_measures
        (us := necPeriods (v.pulseDistance.headerHigh + v.pulseDistance.headerLow) wd)
        (by simp [necPeriods, necSlots]) ?_ hnear _
      exact append_ok (l1 := [_]) (s1 := [0]) rfl (single_ok (hclk 0 _ rfl))
        (bits_ok 32 _ _ _ _ _ (hclk 3 _ rfl) (hclk 2 _ rfl))
    | rep q =>
      obtain ⟨q', t', hq', hsum⟩ := clockedPulses_get u f phase b.1 [q] 0 _ rfl
      simp only [List.getElem?_cons_zero, Option.some.injEq] at hq'
      subst hq'
      show InTol _ 1 _
      rw [hsum]
      exact hclk 1 _ rfl _ _ hnear
  · rw [List.map_map]
    exact necHeard_withPulses v.unpack items _ ts hl last

theorem nec_events_of (t : Target) (m : Mono) (hm : m = Mono.u32 ∨ m = Mono.u64) (f : Nat) (hlo : 20000 ≤ f)
    (hf : f < 2 ^ 32) (v : NecVariant C) (hv : v.Shipped) (tbl : PulseSpans) (htbl : necSpans t m v f = some tbl)
    (conv : C → K) (u : Nat) (hu : 0 < u) (phase t0 g j : Nat) (hg : Pause tbl m.width [0, 1] (0, g))
    (hclk : ∀ s l, (necLengths v)[s]? = some l → Measures tbl u f phase j s l)
    (items : List (NecItem × (Nat × Nat)))
    (hok : ∀ i ∈ items, i.1.Near u j (v.pulseDistance.headerHigh + v.pulseDistance.headerLow)
      (v.pulseDistance.headerHigh + v.pulseDistance.repeatLow) ∧
      16000 * u ≤ 1000000 * (i.2.1 + i.2.2) ∧ (i.2.1 + i.2.2) * f + u < 2 ^ m.width * u) :
    (results (necDecoder t m tbl v) conv
        ((true, g) :: clocked u f phase t0 (series NecItem.wire items))).map said =
      some (oks ((necHeard v.unpack 0 (items.map Prod.fst)).map conv)) := by
  obtain ⟨items', h1, h2, h3⟩ := nec_measured t m hm f hlo hf v hv tbl htbl u hu phase t0 j hclk items hok
  rw [h1, ← h3]
  exact C56_nec_series t m hm f hlo hf v hv tbl htbl conv g hg items' h2

/-- A clock of 20 kHz or more measures the periods of the NEC family within 5 % as what they are. -/
theorem nec_clk {t : Target} {m : Mono} (hm : m = Mono.u32 ∨ m = Mono.u64) {f : Nat} (hlo : 20000 ≤ f)
    (hf : f < 2 ^ 32) {v : NecVariant C} (hv : v.Shipped) {tbl : PulseSpans} (htbl : necSpans t m v f = some tbl)
    {u : Nat} (hu : 0 < u) (phase : Nat) :
    ∀ s l, (necLengths v)[s]? = some l → Measures tbl u f phase 5 s l := by
  obtain ⟨k, hk, he⟩ := nec_kind v hv
  rw [he] at htbl
  intro s l hs
  rcases hk with ⟨rfl, hv'⟩ | ⟨rfl, hv'⟩ <;> rw [necLengths, hv'] at hs <;> rcases s with _ | _ | _ | _ | s <;> cases hs
  · exact prim_measures hm hf hu .nec htbl (s := 0) (l := 13500) (tol := 7) rfl (by omega) (by omega)
  · exact prim_measures hm hf hu .nec htbl (s := 1) (l := 11250) (tol := 7) rfl (by omega) (by omega)
  · exact prim_measures hm hf hu .nec htbl (s := 2) (tol := 25) rfl (by omega) (by omega)
  · exact prim_measures hm hf hu .nec htbl (s := 3) (tol := 12) rfl (by omega) (by omega)
  · exact prim_measures hm hf hu .samsung htbl (s := 0) (l := 9000) (tol := 7) rfl (by omega) (by omega)
  · exact prim_measures hm hf hu .samsung htbl (s := 1) (l := 6750) (tol := 7) rfl (by omega) (by omega)
  · exact prim_measures hm hf hu .samsung htbl (s := 2) (tol := 25) rfl (by omega) (by omega)
  · exact prim_measures hm hf hu .samsung htbl (s := 3) (tol := 12) rfl (by omega) (by omega)

/-- **C65**, NEC family: a receiver with a clock of 20 kHz or more, given the measured distances of the edges
(`event_edge`), returns exactly the commands sent in any sequence of frames and repeat codes whose periods are within
5 % of the documented lengths, with pauses of at least 16 ms that fit the clock, whatever the phase of the clock. -/
theorem C65_nec_events (t : Target) (m : Mono) (hm : m = Mono.u32 ∨ m = Mono.u64) (f : Nat) (hlo : 20000 ≤ f)
    (hf : f < 2 ^ 32) (v : NecVariant C) (hv : v.Shipped) (tbl : PulseSpans) (htbl : necSpans t m v f = some tbl)
    (conv : C → K) (u : Nat) (hu : 0 < u) (phase t0 g : Nat) (hg : Pause tbl m.width [0, 1] (0, g))
    (items : List (NecItem × (Nat × Nat)))
    (hok : ∀ i ∈ items, i.1.Near u 5 (v.pulseDistance.headerHigh + v.pulseDistance.headerLow)
      (v.pulseDistance.headerHigh + v.pulseDistance.repeatLow) ∧
      16000 * u ≤ 1000000 * (i.2.1 + i.2.2) ∧ (i.2.1 + i.2.2) * f + u < 2 ^ m.width * u) :
    (results (necDecoder t m tbl v) conv
        ((true, g) :: clocked u f phase t0 (series NecItem.wire items))).map said =
      some (oks ((necHeard v.unpack 0 (items.map Prod.fst)).map conv)) := by
  exact nec_events_of t m hm f hlo hf v hv tbl htbl conv u hu phase t0 g 5 hg
    (nec_clk hm hlo hf hv htbl hu phase) items hok

/-- The readings for a series of SBP transmissions are themselves such a series, of the same words. -/
theorem sbp_measured (t : Target) (m : Mono) (hm : m = Mono.u32 ∨ m = Mono.u64) (f : Nat) (hlo : 20000 ≤ f)
    (hf : f < 2 ^ 32) (tbl : PulseSpans) (htbl : sbpSpans t m f = some tbl)
    (u : Nat) (hu : 0 < u) (phase t0 j : Nat)
    (hclk : ∀ s l, [4500 + 4500, 500 + 4500, 500 + 500, 500 + 1500][s]? = some l → Measures tbl u f phase j s l)
    (items : List ((BitVec 16 × BitVec 20 × List (Nat × Nat)) × (Nat × Nat)))
    (hok : ∀ i ∈ items, NearPeriods u j (sbpPeriods i.1.1 i.1.2.1) i.1.2.2 ∧
      16000 * u ≤ 1000000 * (i.2.1 + i.2.2) ∧ (i.2.1 + i.2.2) * f + u < 2 ^ m.width * u) :
    ∃ items' : List ((BitVec 16 × BitVec 20 × List (Nat × Nat)) × (Nat × Nat)),
      clocked u f phase t0 (series (fun i => i.2.2) items) = series (fun i => i.2.2) items' ∧
      (∀ i ∈ items', Matches tbl (sbpSlots i.1.1 i.1.2.1) i.1.2.2 ∧ Pause tbl m.width [0] i.2) ∧
      ∀ {A : Type} (g : BitVec 16 → BitVec 20 → A),
        (items'.map fun i => g i.1.1 i.1.2.1) = items.map fun i => g i.1.1 i.1.2.1 := by
  obtain ⟨ts, hl, hser⟩ := clocked_series u f phase
    (fun i : BitVec 16 × BitVec 20 × List (Nat × Nat) => i.2.2) (fun i ps => (i.1, i.2.1, ps))
    (fun _ _ _ => rfl) items t0
  refine ⟨_, hser, ?_, fun g => ?_⟩
  · intro i hi
    obtain ⟨⟨⟨a, p⟩, b⟩, hq, rfl⟩ := List.mem_map.mp hi
    have hmem := (List.of_mem_zip hq).1
    obtain ⟨hnear, hp, hp'⟩ := hok _ hmem
    have htbl' : Kind.build .sbp t m f = some tbl := htbl
    refine ⟨?_, prim_pause hm hf (by omega) hu .sbp htbl' [0] (by decide) p hp hp' _⟩
    refine matches_of_measures (us := sbpPeriods a.1 a.2.1) (by simp [sbpPeriods, sbpSlots]) ?_ hnear _
    unfold sbpPeriods sbpSlots
    exact append_ok (by simp) (append_ok (by simp) (append_ok (by simp)
      (single_ok (hclk 0 _ rfl)) (bits_ok 16 _ _ _ _ _ (hclk 3 _ rfl) (hclk 2 _ rfl)))
      (single_ok (hclk 1 _ rfl))) (bits_ok 20 _ _ _ _ _ (hclk 3 _ rfl) (hclk 2 _ rfl))
  · rw [List.map_map]
    exact zip_map_fst (fun i : (BitVec 16 × BitVec 20 × List (Nat × Nat)) × (Nat × Nat) => g i.1.1 i.1.2.1) items ts hl

theorem sbp_events_of (t : Target) (m : Mono) (hm : m = Mono.u32 ∨ m = Mono.u64) (f : Nat) (hlo : 20000 ≤ f)
    (hf : f < 2 ^ 32) (tbl : PulseSpans) (htbl : sbpSpans t m f = some tbl) (conv : SbpCommand → K)
    (u : Nat) (hu : 0 < u) (phase t0 g j : Nat) (hg : Pause tbl m.width [0] (0, g))
    (hclk : ∀ s l, [4500 + 4500, 500 + 4500, 500 + 500, 500 + 1500][s]? = some l → Measures tbl u f phase j s l)
    (items : List ((BitVec 16 × BitVec 20 × List (Nat × Nat)) × (Nat × Nat)))
    (hok : ∀ i ∈ items, NearPeriods u j (sbpPeriods i.1.1 i.1.2.1) i.1.2.2 ∧
      16000 * u ≤ 1000000 * (i.2.1 + i.2.2) ∧ (i.2.1 + i.2.2) * f + u < 2 ^ m.width * u) :
    (results (sbpDecoder t m tbl) conv
        ((true, g) :: clocked u f phase t0 (series (fun i => i.2.2) items))).map said =
      some (oks (items.map fun i => conv (SbpCommand.unpack i.1.1 (i.1.2.1.setWidth 32)))) := by
  obtain ⟨items', h1, h2, h3⟩ := sbp_measured t m hm f hlo hf tbl htbl u hu phase t0 j hclk items hok
  rw [h1, ← h3 fun a c => conv (SbpCommand.unpack a (c.setWidth 32))]
  exact C56_sbp_series t m hm f (by omega) hf tbl htbl conv g hg items' h2

/-- A clock of 40 kHz or more measures the periods of SBP within 3 % as what they are. -/
theorem sbp_clk {t : Target} {m : Mono} (hm : m = Mono.u32 ∨ m = Mono.u64) {f : Nat} (hlo : 40000 ≤ f)
    (hf : f < 2 ^ 32) {tbl : PulseSpans} (htbl : sbpSpans t m f = some tbl) {u : Nat} (hu : 0 < u) (phase : Nat) :
    ∀ s l, [4500 + 4500, 500 + 4500, 500 + 500, 500 + 1500][s]? = some l → Measures tbl u f phase 3 s l := by
  have htbl' : Kind.build .sbp t m f = some tbl := htbl
  intro s l hs
  rcases s with _ | _ | _ | _ | s <;> cases hs
  · exact prim_measures hm hf hu .sbp htbl' (tol := 5) rfl (by omega) (by omega)
  · exact prim_measures hm hf hu .sbp htbl' (s := 1) (tol := 5) rfl (by omega) (by omega)
  · exact prim_measures hm hf hu .sbp htbl' (s := 2) (tol := 10) rfl (by omega) (by omega)
  · exact prim_measures hm hf hu .sbp htbl' (s := 3) (tol := 10) rfl (by omega) (by omega)

/-- **C65**, SBP: periods within 3 %, clock of 40 kHz or more. -/
theorem C65_sbp_events (t : Target) (m : Mono) (hm : m = Mono.u32 ∨ m = Mono.u64) (f : Nat) (hlo : 40000 ≤ f)
    (hf : f < 2 ^ 32) (tbl : PulseSpans) (htbl : sbpSpans t m f = some tbl) (conv : SbpCommand → K)
    (u : Nat) (hu : 0 < u) (phase t0 g : Nat) (hg : Pause tbl m.width [0] (0, g))
    (items : List ((BitVec 16 × BitVec 20 × List (Nat × Nat)) × (Nat × Nat)))
    (hok : ∀ i ∈ items, NearPeriods u 3 (sbpPeriods i.1.1 i.1.2.1) i.1.2.2 ∧
      16000 * u ≤ 1000000 * (i.2.1 + i.2.2) ∧ (i.2.1 + i.2.2) * f + u < 2 ^ m.width * u) :
    (results (sbpDecoder t m tbl) conv
        ((true, g) :: clocked u f phase t0 (series (fun i => i.2.2) items))).map said =
      some (oks (items.map fun i => conv (SbpCommand.unpack i.1.1 (i.1.2.1.setWidth 32)))) := by
  exact sbp_events_of t m hm f (by omega) hf tbl htbl conv u hu phase t0 g 3 hg (sbp_clk hm hlo hf htbl hu phase) items hok

/-- The readings for a series of Denon transmissions are themselves such a series, of the same words. -/
theorem denon_measured (t : Target) (m : Mono) (hm : m = Mono.u32 ∨ m = Mono.u64) (f : Nat) (hlo : 20000 ≤ f)
    (hf : f < 2 ^ 32) (tbl : PulseSpans) (htbl : denonSpans t m f = some tbl)
    (u : Nat) (hu : 0 < u) (phase t0 j : Nat)
    (hclk : ∀ s l, [3400 + 1600, 480 + 360, 480 + 1200][s]? = some l → Measures tbl u f phase j s l)
    (items : List ((BitVec 48 × List (Nat × Nat)) × (Nat × Nat)))
    (hok : ∀ i ∈ items, NearPeriods u j (denonPeriods i.1.1) i.1.2 ∧
      16000 * u ≤ 1000000 * (i.2.1 + i.2.2) ∧ (i.2.1 + i.2.2) * f + u < 2 ^ m.width * u) :
    ∃ items' : List ((BitVec 48 × List (Nat × Nat)) × (Nat × Nat)),
      clocked u f phase t0 (series (fun i => i.2) items) = series (fun i => i.2) items' ∧
      (∀ i ∈ items', Matches tbl (denonSlots i.1.1) i.1.2 ∧ Pause tbl m.width [0] i.2) ∧
      ∀ {A : Type} (g : BitVec 48 → A), (items'.map fun i => g i.1.1) = items.map fun i => g i.1.1 := by
  obtain ⟨ts, hl, hser⟩ := clocked_series u f phase
    (fun i : BitVec 48 × List (Nat × Nat) => i.2) (fun i ps => (i.1, ps))
    (fun _ _ _ => rfl) items t0
  refine ⟨_, hser, ?_, fun g => ?_⟩
  · intro i hi
    obtain ⟨⟨⟨a, p⟩, b⟩, hq, rfl⟩ := List.mem_map.mp hi
    have hmem := (List.of_mem_zip hq).1
    obtain ⟨hnear, hp, hp'⟩ := hok _ hmem
    have htbl' : Kind.build .denon t m f = some tbl := htbl
    refine ⟨?_, prim_pause hm hf (by omega) hu .denon htbl' [0] (by decide) p hp hp' _⟩
    refine matches_of_measures (us := denonPeriods a.1) (by simp [denonPeriods, denonSlots]) ?_ hnear _
    unfold denonPeriods denonSlots
    exact append_ok (by simp) (single_ok (hclk 0 _ rfl)) (bits_ok 48 _ _ _ _ _ (hclk 2 _ rfl) (hclk 1 _ rfl))
  · rw [List.map_map]
    exact zip_map_fst (fun i : (BitVec 48 × List (Nat × Nat)) × (Nat × Nat) => g i.1.1) items ts hl

theorem denon_events_of (t : Target) (m : Mono) (hm : m = Mono.u32 ∨ m = Mono.u64) (f : Nat) (hlo : 20000 ≤ f)
    (hf : f < 2 ^ 32) (tbl : PulseSpans) (htbl : denonSpans t m f = some tbl) (conv : DenonCommand → K)
    (u : Nat) (hu : 0 < u) (phase t0 g j : Nat) (hg : Pause tbl m.width [0] (0, g))
    (hclk : ∀ s l, [3400 + 1600, 480 + 360, 480 + 1200][s]? = some l → Measures tbl u f phase j s l)
    (items : List ((BitVec 48 × List (Nat × Nat)) × (Nat × Nat)))
    (hok : ∀ i ∈ items, NearPeriods u j (denonPeriods i.1.1) i.1.2 ∧
      16000 * u ≤ 1000000 * (i.2.1 + i.2.2) ∧ (i.2.1 + i.2.2) * f + u < 2 ^ m.width * u) :
    (results (denonDecoder t m tbl) conv
        ((true, g) :: clocked u f phase t0 (series (fun i => i.2) items))).map said =
      some (oks (items.map fun i => conv { bits := (i.1.1.setWidth 47).setWidth 64 })) := by
  obtain ⟨items', h1, h2, h3⟩ := denon_measured t m hm f hlo hf tbl htbl u hu phase t0 j hclk items hok
  rw [h1, ← h3 fun w => conv { bits := (w.setWidth 47).setWidth 64 }]
  exact C56_denon_series t m hm f (by omega) hf tbl htbl conv g hg items' h2

/-- A clock of 40 kHz or more measures the periods of Denon within 3 % as what they are. -/
theorem denon_clk {t : Target} {m : Mono} (hm : m = Mono.u32 ∨ m = Mono.u64) {f : Nat} (hlo : 40000 ≤ f)
    (hf : f < 2 ^ 32) {tbl : PulseSpans} (htbl : denonSpans t m f = some tbl) {u : Nat} (hu : 0 < u) (phase : Nat) :
    ∀ s l, [3400 + 1600, 480 + 360, 480 + 1200][s]? = some l → Measures tbl u f phase 3 s l := by
  have htbl' : Kind.build .denon t m f = some tbl := htbl
  intro s l hs
  rcases s with _ | _ | _ | s <;> cases hs
  · exact prim_measures hm hf hu .denon htbl' (tol := 8) rfl (by omega) (by omega)
  · exact prim_measures hm hf hu .denon htbl' (s := 1) (tol := 10) rfl (by omega) (by omega)
  · exact prim_measures hm hf hu .denon htbl' (s := 2) (tol := 10) rfl (by omega) (by omega)

/-- **C65**, Denon (first 47 bits): periods within 3 %, clock of 40 kHz or more. -/
theorem C65_denon_events (t : Target) (m : Mono) (hm : m = Mono.u32 ∨ m = Mono.u64) (f : Nat) (hlo : 40000 ≤ f)
    (hf : f < 2 ^ 32) (tbl : PulseSpans) (htbl : denonSpans t m f = some tbl) (conv : DenonCommand → K)
    (u : Nat) (hu : 0 < u) (phase t0 g : Nat) (hg : Pause tbl m.width [0] (0, g))
    (items : List ((BitVec 48 × List (Nat × Nat)) × (Nat × Nat)))
    (hok : ∀ i ∈ items, NearPeriods u 3 (denonPeriods i.1.1) i.1.2 ∧
      16000 * u ≤ 1000000 * (i.2.1 + i.2.2) ∧ (i.2.1 + i.2.2) * f + u < 2 ^ m.width * u) :
    (results (denonDecoder t m tbl) conv
        ((true, g) :: clocked u f phase t0 (series (fun i => i.2) items))).map said =
      some (oks (items.map fun i => conv { bits := (i.1.1.setWidth 47).setWidth 64 })) := by
  exact denon_events_of t m hm f (by omega) hf tbl htbl conv u hu phase t0 g 3 hg (denon_clk hm hlo hf htbl hu phase)
    items hok

/-- A clock that measures one and two half-bits, within `j` percent, as what they are. -/
def Rc5Clock (tbl : PulseSpans) (u f phase j : Nat) : Prop :=
  ∀ t n x, n = 1 ∨ n = 2 → Near u j (889 * n) x → Within tbl (reading u f phase (t + x) - reading u f phase t) n

theorem rc5_events_of (t : Target) (hus : 16 ≤ t.usizeBits) (m : Mono) (hm : m = Mono.u32 ∨ m = Mono.u64) (f : Nat)
    (hlo : 20000 ≤ f) (hf : f < 2 ^ 32) (tbl : PulseSpans) (htbl : rc5Spans t m f = some tbl)
    (conv : Rc5Command → K) (u : Nat) (phase j : Nat) (hclk : Rc5Clock tbl u f phase j)
    (items : List (BitVec 14 × List (Bool × Nat) × Option Nat))
    (hok : ∀ i ∈ items, i.1.getLsbD 13 = true ∧
      ManchesterFrame (fun x n => Near u j (889 * n) x) (rc5Edges i.1) i.2.1)
    (b : Bool) (pause : Nat) (es : List (Bool × Nat))
    (hes : (items.flatMap fun i => withTail i.2.1 i.2.2) = (b, pause) :: es) (t0 g : Nat) :
    (results (rc5Decoder t tbl) conv ((b, g) :: clocked u f phase (t0 + pause) es)).map said =
      some (oks (items.map fun i => conv (Rc5Command.unpack (i.1.setWidth 16)))) := by
  obtain ⟨items', h1, h2, h3⟩ := tails_measured u f phase (fun x n => Near u j (889 * n) x) (Within tbl)
    rc5Edges (fun x => x.getLsbD 13 = true) (by
      intro x t' es hx hfr
      rw [rc5Edges_eq x hx] at hfr ⊢
      refine frame_clocked ?_ t' es hfr
      intro t'' ns e he hn
      exact hclk t'' _ _ (rc5_edges_len x 13 true e he) hn)
    items hok b pause es hes g t0
  rw [h3, C56_rc5_series t hus m hm f (by omega) hf tbl htbl conv items' h2]
  have h4 := congrArg (List.map fun x : BitVec 14 => conv (Rc5Command.unpack (x.setWidth 16))) h1
  rw [List.map_map, List.map_map] at h4
  exact congrArg (fun l => some (oks l)) h4

/-- **C65**, RC5: edges within 5 %, clock of 40 kHz or more; the pause before the first transmission is arbitrary. -/
theorem C65_rc5_events (t : Target) (hus : 16 ≤ t.usizeBits) (m : Mono) (hm : m = Mono.u32 ∨ m = Mono.u64) (f : Nat)
    (hlo : 40000 ≤ f) (hf : f < 2 ^ 32) (tbl : PulseSpans) (htbl : rc5Spans t m f = some tbl)
    (conv : Rc5Command → K) (u : Nat) (hu : 0 < u) (phase : Nat)
    (items : List (BitVec 14 × List (Bool × Nat) × Option Nat))
    (hok : ∀ i ∈ items, i.1.getLsbD 13 = true ∧
      ManchesterFrame (fun x n => Near u 5 (889 * n) x) (rc5Edges i.1) i.2.1)
    (b : Bool) (pause : Nat) (es : List (Bool × Nat))
    (hes : (items.flatMap fun i => withTail i.2.1 i.2.2) = (b, pause) :: es) (t0 g : Nat) :
    (results (rc5Decoder t tbl) conv ((b, g) :: clocked u f phase (t0 + pause) es)).map said =
      some (oks (items.map fun i => conv (Rc5Command.unpack (i.1.setWidth 16)))) := by
  exact rc5_events_of t hus m hm f (by omega) hf tbl htbl conv u phase 5
    (fun t' _ _ h12 hn => rc5_near_within hu hm hlo hf htbl phase t' h12 hn) items hok b pause es hes t0 g

/-- A clock that measures one, two, three and six units, within `j` percent, as what they are. -/
def Rc6Clock (tbl : PulseSpans) (u f phase j : Nat) : Prop :=
  ∀ t n x, n = 1 ∨ n = 2 ∨ n = 3 ∨ n = 6 → Near u j (444 * n) x →
    WithinRc6 tbl (reading u f phase (t + x) - reading u f phase t) n

theorem rc6Clock_of {t : Target} {m : Mono} (hm : m = Mono.u32 ∨ m = Mono.u64) {f : Nat} (hlo : 80000 ≤ f)
    (hf : f < 2 ^ 32) {tbl : PulseSpans} (htbl : rc6Spans t m f = some tbl) {u : Nat} (hu : 0 < u) (phase : Nat) :
    Rc6Clock tbl u f phase 5 := fun t' _ _ h12 hn => rc6_near_within hu hm hlo hf htbl phase t' h12 hn

theorem rc6_events_of (t : Target) (hus : 16 ≤ t.usizeBits) (m : Mono) (hm : m = Mono.u32 ∨ m = Mono.u64) (f : Nat)
    (hlo : 20000 ≤ f) (hf : f < 2 ^ 32) (tbl : PulseSpans) (htbl : rc6Spans t m f = some tbl)
    (conv : Rc6Command → K) (u : Nat) (phase j : Nat) (hclock : Rc6Clock tbl u f phase j)
    (items : List (Rc6Command × List (Bool × Nat) × Option Nat))
    (hok : ∀ i ∈ items, ManchesterFrame (fun x n => Near u j (444 * n) x)
      (rc6Edges (i.1.addr ++ i.1.cmd) i.1.toggle) i.2.1)
    (b : Bool) (pause : Nat) (es : List (Bool × Nat))
    (hes : (items.flatMap fun i => withTail i.2.1 i.2.2) = (b, pause) :: es) (t0 g : Nat) :
    (results (rc6Decoder t tbl) conv ((b, g) :: clocked u f phase (t0 + pause) es)).map said =
      some (oks (items.map fun i => conv i.1)) := by
  obtain ⟨items', h1, h2, h3⟩ := tails_measured u f phase (fun x n => Near u j (444 * n) x) (WithinRc6 tbl)
    (fun c : Rc6Command => rc6Edges (c.addr ++ c.cmd) c.toggle) (fun _ => True) (by
      intro c t' es _ hfr
      rw [rc6Edges, rc6Edges_eq 0 (.inl rfl)] at hfr ⊢
      refine frame_clocked ?_ t' es hfr
      intro t'' ns e he hn
      exact hclock t'' _ _ (rc6_edges_len (c.addr ++ c.cmd) c.toggle e he) hn)
    items (fun i hi => ⟨trivial, hok i hi⟩) b pause es hes g t0
  rw [h3, C56_rc6_series t hus m hm f hlo hf tbl htbl conv items' fun i hi => (h2 i hi).2]
  have h4 := congrArg (List.map conv) h1
  rw [List.map_map, List.map_map] at h4
  exact congrArg (fun l => some (oks l)) h4

/-- **C65**, RC6 (mode 0): edges within 5 %, clock of 80 kHz or more. -/
theorem C65_rc6_events (t : Target) (hus : 16 ≤ t.usizeBits) (m : Mono) (hm : m = Mono.u32 ∨ m = Mono.u64) (f : Nat)
    (hlo : 80000 ≤ f) (hf : f < 2 ^ 32) (tbl : PulseSpans) (htbl : rc6Spans t m f = some tbl)
    (conv : Rc6Command → K) (u : Nat) (hu : 0 < u) (phase : Nat)
    (items : List (Rc6Command × List (Bool × Nat) × Option Nat))
    (hok : ∀ i ∈ items, ManchesterFrame (fun x n => Near u 5 (444 * n) x)
      (rc6Edges (i.1.addr ++ i.1.cmd) i.1.toggle) i.2.1)
    (b : Bool) (pause : Nat) (es : List (Bool × Nat))
    (hes : (items.flatMap fun i => withTail i.2.1 i.2.2) = (b, pause) :: es) (t0 g : Nat) :
    (results (rc6Decoder t tbl) conv ((b, g) :: clocked u f phase (t0 + pause) es)).map said =
      some (oks (items.map fun i => conv i.1)) := by
  exact rc6_events_of t hus m hm f (by omega) hf tbl htbl conv u phase 5 (rc6Clock_of hm hlo hf htbl hu phase) items hok b
    pause es hes t0 g

/-! ## Polled receivers -/

theorem changes_series {A : Type} (wire : A → List (Nat × Nat)) (items : List (A × (Nat × Nat))) (pause : Nat) :
    Changes false ((true, pause) :: series wire items) := ⟨rfl, changes_pulses _⟩

/-- **C65**, NEC family, polled: a receiver polled 20 000 times per second or more looks at a line that carries any
sequence of frames and repeat codes whose periods are within 5 % of the documented lengths, every level lasting at
least one polling period, with pauses of at least 16 ms; it returns exactly the commands sent, however long it is
polled afterwards. -/
theorem C65_nec_polled (t : Target) (f : Nat) (hlo : 20000 ≤ f)
    (hf : f < 2 ^ 32) (v : NecVariant C) (hv : v.Shipped) (tbl : PulseSpans)
    (htbl : necSpans t Mono.u32 v f = some tbl) (conv : C → K) (u : Nat) (hu : 0 < u) (phase pause : Nat)
    (hg : Pause tbl 32 [0, 1] (0, reading u f phase pause + 1)) (items : List (NecItem × (Nat × Nat)))
    (hok : ∀ i ∈ items, i.1.Near u 5 (v.pulseDistance.headerHigh + v.pulseDistance.headerLow)
      (v.pulseDistance.headerHigh + v.pulseDistance.repeatLow) ∧
      16000 * u ≤ 1000000 * (i.2.1 + i.2.2) ∧ (i.2.1 + i.2.2) * f + u < 2 ^ 32 * u)
    (hmin : ∀ e ∈ series NecItem.wire items, u ≤ e.2 * f)
    (hmax : ∀ e ∈ series NecItem.wire items, e.2 * f / u + 1 < 2 ^ 32)
    (n : Nat) (hn : reading u f phase (duration ((true, pause) :: series NecItem.wire items)) < n) :
    (pollRun (necDecoder t Mono.u32 tbl v) conv
        (polled u f phase ((true, pause) :: series NecItem.wire items) n)).map said =
      some (oks ((necHeard v.unpack 0 (items.map Prod.fst)).map conv)) := by
  have hg1 := hg.1
  dsimp only at hg1
  rw [C54_polled_line_long _ conv u hu f phase true pause _ (changes_series ..) hmin n hn (by omega) hmax]
  exact C65_nec_events t Mono.u32 (.inl rfl) f hlo hf v hv tbl htbl conv u hu phase pause _ hg items hok

/-- **C65**, SBP, polled. -/
theorem C65_sbp_polled (t : Target) (f : Nat) (hlo : 40000 ≤ f) (hf : f < 2 ^ 32) (tbl : PulseSpans)
    (htbl : sbpSpans t Mono.u32 f = some tbl) (conv : SbpCommand → K) (u : Nat) (hu : 0 < u) (phase pause : Nat)
    (hg : Pause tbl 32 [0] (0, reading u f phase pause + 1))
    (items : List ((BitVec 16 × BitVec 20 × List (Nat × Nat)) × (Nat × Nat)))
    (hok : ∀ i ∈ items, NearPeriods u 3 (sbpPeriods i.1.1 i.1.2.1) i.1.2.2 ∧
      16000 * u ≤ 1000000 * (i.2.1 + i.2.2) ∧ (i.2.1 + i.2.2) * f + u < 2 ^ 32 * u)
    (hmin : ∀ e ∈ series (fun i : BitVec 16 × BitVec 20 × List (Nat × Nat) => i.2.2) items, u ≤ e.2 * f)
    (hmax : ∀ e ∈ series (fun i : BitVec 16 × BitVec 20 × List (Nat × Nat) => i.2.2) items,
      e.2 * f / u + 1 < 2 ^ 32)
    (n : Nat) (hn : reading u f phase (duration ((true, pause) :: series (fun i => i.2.2) items)) < n) :
    (pollRun (sbpDecoder t Mono.u32 tbl) conv
        (polled u f phase ((true, pause) :: series (fun i => i.2.2) items) n)).map said =
      some (oks (items.map fun i => conv (SbpCommand.unpack i.1.1 (i.1.2.1.setWidth 32)))) := by
  have hg1 := hg.1
  dsimp only at hg1
  rw [C54_polled_line_long _ conv u hu f phase true pause _ (changes_series ..) hmin n hn (by omega) hmax]
  exact C65_sbp_events t Mono.u32 (.inl rfl) f hlo hf tbl htbl conv u hu phase pause _ hg items hok

/-- **C65**, Denon (first 47 bits), polled. -/
theorem C65_denon_polled (t : Target) (f : Nat) (hlo : 40000 ≤ f) (hf : f < 2 ^ 32) (tbl : PulseSpans)
    (htbl : denonSpans t Mono.u32 f = some tbl) (conv : DenonCommand → K) (u : Nat) (hu : 0 < u)
    (phase pause : Nat) (hg : Pause tbl 32 [0] (0, reading u f phase pause + 1))
    (items : List ((BitVec 48 × List (Nat × Nat)) × (Nat × Nat)))
    (hok : ∀ i ∈ items, NearPeriods u 3 (denonPeriods i.1.1) i.1.2 ∧
      16000 * u ≤ 1000000 * (i.2.1 + i.2.2) ∧ (i.2.1 + i.2.2) * f + u < 2 ^ 32 * u)
    (hmin : ∀ e ∈ series (fun i : BitVec 48 × List (Nat × Nat) => i.2) items, u ≤ e.2 * f)
    (hmax : ∀ e ∈ series (fun i : BitVec 48 × List (Nat × Nat) => i.2) items, e.2 * f / u + 1 < 2 ^ 32)
    (n : Nat) (hn : reading u f phase (duration ((true, pause) :: series (fun i => i.2) items)) < n) :
    (pollRun (denonDecoder t Mono.u32 tbl) conv
        (polled u f phase ((true, pause) :: series (fun i => i.2) items) n)).map said =
      some (oks (items.map fun i => conv { bits := (i.1.1.setWidth 47).setWidth 64 })) := by
  have hg1 := hg.1
  dsimp only at hg1
  rw [C54_polled_line_long _ conv u hu f phase true pause _ (changes_series ..) hmin n hn (by omega) hmax]
  exact C65_denon_events t Mono.u32 (.inl rfl) f hlo hf tbl htbl conv u hu phase pause _ hg items hok

theorem rc5_polled_of (t : Target) (hus : 16 ≤ t.usizeBits) (f : Nat) (hlo : 20000 ≤ f) (hf : f < 2 ^ 32)
    (tbl : PulseSpans) (htbl : rc5Spans t Mono.u32 f = some tbl) (conv : Rc5Command → K) (u : Nat) (hu : 0 < u)
    (phase j : Nat) (hclk : Rc5Clock tbl u f phase j) (items : List (BitVec 14 × List (Bool × Nat) × Option Nat))
    (hok : ∀ i ∈ items, i.1.getLsbD 13 = true ∧
      ManchesterFrame (fun x n => Near u j (889 * n) x) (rc5Edges i.1) i.2.1)
    (hch : Changes false (items.flatMap fun i => withTail i.2.1 i.2.2))
    (hmin : ∀ e ∈ (items.flatMap fun i => withTail i.2.1 i.2.2).tail, u ≤ e.2 * f)
    (hmax : ∀ e ∈ items.flatMap fun i => withTail i.2.1 i.2.2, (e.2 * f + phase) / u + 1 < 2 ^ 32)
    (n : Nat) (hn : reading u f phase (duration (items.flatMap fun i => withTail i.2.1 i.2.2)) < n) :
    (pollRun (rc5Decoder t tbl) conv
        (polled u f phase (items.flatMap fun i => withTail i.2.1 i.2.2) n)).map said =
      some (oks (items.map fun i => conv (Rc5Command.unpack (i.1.setWidth 16)))) := by
  rcases hfl : items.flatMap (fun i => withTail i.2.1 i.2.2) with _ | ⟨⟨b, pause⟩, es⟩
  · cases items with
    | nil =>
      rw [hfl, show polled u f phase [] n = List.replicate n false from ?_, C54_silent_line, Option.map_some]
      · rw [said, List.filter_eq_nil_iff.mpr (by intro x hx; rw [List.eq_of_mem_replicate hx]; simp)]
        rfl
      · rw [polled, List.eq_replicate_iff]
        exact ⟨by simp, by intro b hb; obtain ⟨i, -, rfl⟩ := List.mem_map.mp hb; rfl⟩
    | cons a as =>
      obtain ⟨x1, es, hes⟩ := frame_nonempty (hok a (by simp)).2
      rw [List.flatMap_cons, hes] at hfl
      cases h : a.2.2 <;> simp [h, withTail] at hfl
  · rw [hfl] at hch hmin hmax hn
    rw [hfl, C54_polled_line_long _ conv u hu f phase b pause es hch hmin n hn
      (hmax (b, pause) (List.mem_cons_self ..)) fun e he => ?_]
    · have := rc5_events_of t hus Mono.u32 (.inl rfl) f hlo hf tbl htbl conv u phase j hclk items hok b pause es hfl 0
        (reading u f phase pause + 1)
      rwa [Nat.zero_add] at this
    · have := hmax e (List.mem_cons_of_mem _ he)
      have h2 : e.2 * f / u ≤ (e.2 * f + phase) / u := Nat.div_le_div_right (by omega)
      omega

/-- **C65**, RC5, polled: the levels of the line alternate. -/
theorem C65_rc5_polled (t : Target) (hus : 16 ≤ t.usizeBits) (f : Nat) (hlo : 40000 ≤ f) (hf : f < 2 ^ 32)
    (tbl : PulseSpans) (htbl : rc5Spans t Mono.u32 f = some tbl) (conv : Rc5Command → K) (u : Nat) (hu : 0 < u)
    (phase : Nat) (items : List (BitVec 14 × List (Bool × Nat) × Option Nat))
    (hok : ∀ i ∈ items, i.1.getLsbD 13 = true ∧
      ManchesterFrame (fun x n => Near u 5 (889 * n) x) (rc5Edges i.1) i.2.1)
    (hch : Changes false (items.flatMap fun i => withTail i.2.1 i.2.2))
    (hmin : ∀ e ∈ (items.flatMap fun i => withTail i.2.1 i.2.2).tail, u ≤ e.2 * f)
    (hmax : ∀ e ∈ items.flatMap fun i => withTail i.2.1 i.2.2, (e.2 * f + phase) / u + 1 < 2 ^ 32)
    (n : Nat) (hn : reading u f phase (duration (items.flatMap fun i => withTail i.2.1 i.2.2)) < n) :
    (pollRun (rc5Decoder t tbl) conv
        (polled u f phase (items.flatMap fun i => withTail i.2.1 i.2.2) n)).map said =
      some (oks (items.map fun i => conv (Rc5Command.unpack (i.1.setWidth 16)))) := by
  exact rc5_polled_of t hus f (by omega) hf tbl htbl conv u hu phase 5
    (fun t' _ _ h12 hn => rc5_near_within hu (.inl rfl) hlo hf htbl phase t' h12 hn) items hok hch hmin hmax n hn

theorem rc6_polled_of (t : Target) (hus : 16 ≤ t.usizeBits) (f : Nat) (hlo : 20000 ≤ f) (hf : f < 2 ^ 32)
    (tbl : PulseSpans) (htbl : rc6Spans t Mono.u32 f = some tbl) (conv : Rc6Command → K) (u : Nat) (hu : 0 < u)
    (phase j : Nat) (hclock : Rc6Clock tbl u f phase j) (items : List (Rc6Command × List (Bool × Nat) × Option Nat))
    (hok : ∀ i ∈ items, ManchesterFrame (fun x n => Near u j (444 * n) x)
      (rc6Edges (i.1.addr ++ i.1.cmd) i.1.toggle) i.2.1)
    (hch : Changes false (items.flatMap fun i => withTail i.2.1 i.2.2))
    (hmin : ∀ e ∈ (items.flatMap fun i => withTail i.2.1 i.2.2).tail, u ≤ e.2 * f)
    (hmax : ∀ e ∈ items.flatMap fun i => withTail i.2.1 i.2.2, (e.2 * f + phase) / u + 1 < 2 ^ 32)
    (n : Nat) (hn : reading u f phase (duration (items.flatMap fun i => withTail i.2.1 i.2.2)) < n) :
    (pollRun (rc6Decoder t tbl) conv
        (polled u f phase (items.flatMap fun i => withTail i.2.1 i.2.2) n)).map said =
      some (oks (items.map fun i => conv i.1)) := by
  rcases hfl : items.flatMap (fun i => withTail i.2.1 i.2.2) with _ | ⟨⟨b, pause⟩, es⟩
  · cases items with
    | nil =>
      rw [hfl, show polled u f phase [] n = List.replicate n false from ?_, C54_silent_line, Option.map_some]
      · rw [said, List.filter_eq_nil_iff.mpr (by intro x hx; rw [List.eq_of_mem_replicate hx]; simp)]
        rfl
      · rw [polled, List.eq_replicate_iff]
        exact ⟨by simp, by intro b hb; obtain ⟨i, -, rfl⟩ := List.mem_map.mp hb; rfl⟩
    | cons a as =>
      obtain ⟨x1, es, hes⟩ := frame_nonempty (hok a (by simp))
      rw [List.flatMap_cons, hes] at hfl
      cases h : a.2.2 <;> simp [h, withTail] at hfl
  · rw [hfl] at hch hmin hmax hn
    rw [hfl, C54_polled_line_long _ conv u hu f phase b pause es hch hmin n hn
      (hmax (b, pause) (List.mem_cons_self ..)) fun e he => ?_]
    · have := rc6_events_of t hus Mono.u32 (.inl rfl) f hlo hf tbl htbl conv u phase j hclock items hok b pause es hfl 0
        (reading u f phase pause + 1)
      rwa [Nat.zero_add] at this
    · have := hmax e (List.mem_cons_of_mem _ he)
      have h2 : e.2 * f / u ≤ (e.2 * f + phase) / u := Nat.div_le_div_right (by omega)
      omega

/-- **C65**, RC6 (mode 0), polled. -/
theorem C65_rc6_polled (t : Target) (hus : 16 ≤ t.usizeBits) (f : Nat) (hlo : 80000 ≤ f) (hf : f < 2 ^ 32)
    (tbl : PulseSpans) (htbl : rc6Spans t Mono.u32 f = some tbl) (conv : Rc6Command → K) (u : Nat) (hu : 0 < u)
    (phase : Nat) (items : List (Rc6Command × List (Bool × Nat) × Option Nat))
    (hok : ∀ i ∈ items, ManchesterFrame (fun x n => Near u 5 (444 * n) x)
      (rc6Edges (i.1.addr ++ i.1.cmd) i.1.toggle) i.2.1)
    (hch : Changes false (items.flatMap fun i => withTail i.2.1 i.2.2))
    (hmin : ∀ e ∈ (items.flatMap fun i => withTail i.2.1 i.2.2).tail, u ≤ e.2 * f)
    (hmax : ∀ e ∈ items.flatMap fun i => withTail i.2.1 i.2.2, (e.2 * f + phase) / u + 1 < 2 ^ 32)
    (n : Nat) (hn : reading u f phase (duration (items.flatMap fun i => withTail i.2.1 i.2.2)) < n) :
    (pollRun (rc6Decoder t tbl) conv
        (polled u f phase (items.flatMap fun i => withTail i.2.1 i.2.2) n)).map said =
      some (oks (items.map fun i => conv i.1)) := by
  exact rc6_polled_of t hus f (by omega) hf tbl htbl conv u hu phase 5 (rc6Clock_of (.inl rfl) hlo hf htbl hu phase) items
    hok hch hmin hmax n hn

/-! ## Non-vacuity -/

/-- Two NEC words 4 % slow and a repeat code, on a line polled 48 000 times per second. -/
example (t : Target) (phase : Nat) (hp : phase < 1000000000) :
    (pollRun (necDecoder t Mono.u32 (necTable 48000) Infrared.nec) id
      (polled 1000000000 48000 phase ((true, 1000000) :: series NecItem.wire (slowNec 0xE31CFF00 0x00FF00FF))
        600000)).map said =
      some (oks [{ addr := 0x00, cmd := 0x1C, rep := false }, { addr := 0x00, cmd := 0x1C, rep := true },
        { addr := 0xFF, cmd := 0xFF, rep := false }]) := by
  have hr : reading 1000000000 48000 phase 1000000 = 48 := by unfold reading; omega
  refine C65_nec_polled t 48000 (by decide) (by decide) Infrared.nec (.inl rfl) _
    (necSpans_standard (.inl rfl) t (by decide) _ rfl) id 1000000000 (by decide) phase 1000000 ?_ _ ?_
    (by decide +kernel) (by decide +kernel) 600000 ?_
  · rw [hr]
    refine ⟨by decide, ?_⟩
    intro j hj
    simp only [List.mem_cons, List.not_mem_nil, or_false] at hj
    rcases hj with rfl | rfl <;> rintro ⟨s, hs, ha, hb⟩ <;> cases hs
    · exact absurd ha (by decide +kernel)
    · exact absurd ha (by decide +kernel)
  · intro i hi
    simp only [slowNec, List.mem_cons, List.not_mem_nil, or_false] at hi
    rcases hi with rfl | rfl | rfl
    · exact ⟨nearPeriods_zip (by decide +kernel), by decide, by decide⟩
    · exact ⟨⟨by decide, by decide⟩, by decide, by decide⟩
    · exact ⟨nearPeriods_zip (by decide +kernel), by decide, by decide⟩
  · have hd : duration ((true, 1000000) :: series NecItem.wire (slowNec 0xE31CFF00 0x00FF00FF)) ≤ 11000000000 := by
      decide +kernel
    unfold reading
    omega

instance decideChanges : ∀ (b : Bool) (es : List (Bool × Nat)), Decidable (Changes b es)
  | _, [] => isTrue trivial
  | b, (c, _) :: es => @instDecidableAnd (c = !b) (Changes c es) _ (decideChanges c es)

/-- An RC5 transmission, 4 % slow, twice, on a line polled 40 000 times per second. -/
def slowRc5 (w : BitVec 14) : List (Bool × Nat) :=
  (rc5Edges w).map fun e => (e.1, 1040 * (889 * e.2))

example (t : Target) (hus : 16 ≤ t.usizeBits) (phase : Nat) (hp : phase < 1000000000) :
    (pollRun (rc5Decoder t (rc5Table 40000)) id
      (polled 1000000000 40000 phase
        ([(0x3175#14, slowRc5 0x3175#14, some 889000), (0x3175#14, slowRc5 0x3175#14, some 889000)].flatMap
          fun i => withTail i.2.1 i.2.2) 20000)).map said =
      some (oks [⟨5, 53, 3, false⟩, ⟨5, 53, 3, false⟩]) := by
  refine C65_rc5_polled t hus 40000 (by decide) (by decide) _ (rc5Spans_eq (.inl rfl) t (by decide)) id
    1000000000 (by decide) phase _ ?_ (by decide +kernel) (by decide +kernel) ?_ _ ?_
  · intro i hi
    have : i = (0x3175#14, slowRc5 0x3175#14, some 889000) := by simpa using hi
    subst this
    refine ⟨by decide, ?_⟩
    dsimp only
    rw [slowRc5, rc5Edges_eq _ (by decide)]
    exact ⟨_, _, _, _, rfl, rfl, timed_scaled 1040 5 889 (fun n => by unfold Near; omega) _⟩
  · intro e he
    have h : ∀ e ∈ [(0x3175#14, slowRc5 0x3175#14, some 889000),
        (0x3175#14, slowRc5 0x3175#14, some 889000)].flatMap fun i => withTail i.2.1 i.2.2,
        e.2 ≤ 2000000 := by decide +kernel
    have := h e he
    omega
  · have hd : duration ([(0x3175#14, slowRc5 0x3175#14, some 889000),
        (0x3175#14, slowRc5 0x3175#14, some 889000)].flatMap fun i => withTail i.2.1 i.2.2) ≤ 60000000 := by
      decide +kernel
    unfold reading
    omega

end Infrared
