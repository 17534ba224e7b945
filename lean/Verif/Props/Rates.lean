import Verif.Props.Reception

/-!
# How exact a transmitter must be for a given clock (C78)
-/

namespace Infrared

open Spec

variable {C K : Type}

/-- The shortest and the longest reading of a clock of `f` Hz for a duration within `j` percent of `l` µs. -/
def Spec.shortest (f j l : Nat) : Nat := (100 - j) * l * f / 100000000

@[inherit_doc Spec.shortest]
def Spec.longest (f j l : Nat) : Nat := ((100 + j) * l * f + 99999999) / 100000000

/-- The interval for symbol `s` contains all those readings. -/
def Spec.covers (tbl : PulseSpans) (f j s l : Nat) : Bool :=
  match tbl.spans[s]? with
  | none => false
  | some w => decide (w.low ≤ shortest f j l) && decide (longest f j l ≤ w.high)

theorem covers_iff {tbl : PulseSpans} {f j s l : Nat} : covers tbl f j s l = true ↔
    ∃ w, tbl.spans[s]? = some w ∧ w.low ≤ shortest f j l ∧ longest f j l ≤ w.high := by
  unfold covers
  cases tbl.spans[s]? <;> simp

theorem reading_between {u : Nat} (hu : 0 < u) (f phase j l t x : Nat) (hn : Near u j l x) :
    shortest f j l ≤ reading u f phase (t + x) - reading u f phase t ∧
      reading u f phase (t + x) - reading u f phase t ≤ longest f j l := by
  obtain ⟨h1, h2⟩ := hn
  unfold reading shortest longest
  rw [Nat.add_mul]
  have a := Nat.div_add_mod (t * f + phase) u
  have b := Nat.div_add_mod (t * f + x * f + phase) u
  have a' := Nat.mod_lt (t * f + phase) hu
  have b' := Nat.mod_lt (t * f + x * f + phase) hu
  have c : (t * f + phase) / u ≤ (t * f + x * f + phase) / u := Nat.div_le_div_right (by omega)
  obtain ⟨d, hd⟩ := Nat.exists_eq_add_of_le c
  rw [hd] at b ⊢
  rw [Nat.mul_add] at b
  rw [Nat.add_sub_cancel_left]
  have e1 : u * d < x * f + u := by omega
  have e2 : x * f < u * d + u := by omega
  have g1 : (100 - j) * l * f * u ≤ 100000000 * (x * f) := by
    have := Nat.mul_le_mul_right f h1
    rw [Nat.mul_assoc 100000000] at this
    rwa [Nat.mul_right_comm]
  have g2 : 100000000 * (x * f) ≤ (100 + j) * l * f * u := by
    have := Nat.mul_le_mul_right f h2
    rw [Nat.mul_assoc 100000000] at this
    rwa [Nat.mul_right_comm] at this
  constructor
  · refine Nat.le_of_lt_succ ((Nat.div_lt_iff_lt_mul (by decide)).mpr ?_)
    show _ < (d + 1) * 100000000
    refine Nat.lt_of_mul_lt_mul_right (a := u) ?_
    have : (d + 1) * 100000000 * u = 100000000 * (u * d + u) := by
      rw [Nat.mul_comm (d + 1), Nat.mul_assoc, Nat.add_mul, Nat.one_mul, Nat.mul_comm d u]
    omega
  · refine (Nat.le_div_iff_mul_le (by decide)).mpr ?_
    have h3 : d * 100000000 * u < (100 + j) * l * f * u + 100000000 * u := by
      have : d * 100000000 * u = 100000000 * (u * d) := by
        rw [Nat.mul_comm d, Nat.mul_assoc, Nat.mul_comm d u]
      omega
    rw [← Nat.add_mul] at h3
    have := Nat.lt_of_mul_lt_mul_right h3
    omega

/-- **C78**, one symbol: a receiver whose clock runs at `f` Hz takes every duration within `j` percent of `l` µs for
symbol `s`, whatever the phase of the clock, exactly if the interval of the symbol contains the shortest and the
longest reading. -/
theorem C78_symbol_iff (tbl : PulseSpans) (f j s l : Nat) :
    (∀ u phase, 0 < u → ∀ t x, Near u j l x → InTol tbl s (reading u f phase (t + x) - reading u f phase t)) ↔
      covers tbl f j s l = true := by
  rw [covers_iff]
  constructor
  · intro h
    obtain ⟨w, hw, h1, -⟩ := h 100000000 0 (by decide) 0 ((100 - j) * l) (by
      refine ⟨by rw [Nat.mul_comm], ?_⟩
      rw [Nat.mul_comm]
      exact Nat.mul_le_mul_right _ (Nat.mul_le_mul_right _ (by omega)))
    obtain ⟨w', hw', -, h2⟩ := h 100000000 99999999 (by decide) 0 ((100 + j) * l) (by
      refine ⟨?_, by rw [Nat.mul_comm]⟩
      rw [Nat.mul_comm 100000000]
      exact Nat.mul_le_mul_right _ (Nat.mul_le_mul_right _ (by omega)))
    rw [hw] at hw'
    cases hw'
    refine ⟨w, hw, ?_, ?_⟩
    · simpa [reading, shortest] using h1
    · simpa [reading, longest] using h2
  · rintro ⟨w, hw, h1, h2⟩ u phase hu t x hn
    obtain ⟨h3, h4⟩ := reading_between hu f phase j l t x hn
    exact ⟨w, hw, by omega, by omega⟩

theorem measures_of_covers {tbl : PulseSpans} {u f phase j s l : Nat} (hu : 0 < u) (h : covers tbl f j s l = true) :
    Measures tbl u f phase j s l := (C78_symbol_iff tbl f j s l).mpr h u phase hu

/-! ## Whole transmissions -/

/-- The lengths of the symbols in µs, in the order of the receivers' tables. -/
def Spec.sbpLengths : List Nat := [4500 + 4500, 500 + 4500, 500 + 500, 500 + 1500]

@[inherit_doc Spec.sbpLengths]
def Spec.denonLengths : List Nat := [3400 + 1600, 480 + 360, 480 + 1200]

@[inherit_doc Spec.sbpLengths]
def Spec.rc5Lengths : List Nat := [889, 1778]

/-- All symbols are covered. -/
def Spec.coversAll (tbl : PulseSpans) (f j : Nat) (ls : List Nat) : Bool :=
  ls.zipIdx.all fun p => covers tbl f j p.2 p.1

theorem coversAll_get {tbl : PulseSpans} {f j : Nat} {ls : List Nat} (h : coversAll tbl f j ls = true) {s l : Nat}
    (hs : ls[s]? = some l) : covers tbl f j s l = true := by
  rw [coversAll, List.all_eq_true] at h
  refine h (l, s) (List.mem_zipIdx_iff_getElem?.mpr ?_)
  exact hs

/-- Who hears the worse transmitter hears the better. -/
theorem covers_mono {tbl : PulseSpans} {f j j' s l : Nat} (hj : j ≤ j') (h : covers tbl f j' s l = true) :
    covers tbl f j s l = true := by
  obtain ⟨w, hw, h1, h2⟩ := covers_iff.mp h
  refine covers_iff.mpr ⟨w, hw, Nat.le_trans h1 ?_, Nat.le_trans ?_ h2⟩
  · exact Nat.div_le_div_right (Nat.mul_le_mul_right _ (Nat.mul_le_mul_right _ (by omega)))
  · refine Nat.div_le_div_right (Nat.add_le_add_right ?_ _)
    exact Nat.mul_le_mul_right _ (Nat.mul_le_mul_right _ (by omega))

theorem coversAll_iff {tbl : PulseSpans} {f j : Nat} {ls : List Nat} (n : Nat)
    (h1 : coversAll tbl f n ls = true) (h2 : coversAll tbl f (n + 1) ls = false) :
    coversAll tbl f j ls = true ↔ j ≤ n := by
  have mono : ∀ {j j'}, j ≤ j' → coversAll tbl f j' ls = true → coversAll tbl f j ls = true := by
    intro j j' hj h
    rw [coversAll, List.all_eq_true] at h ⊢
    exact fun p hp => covers_mono hj (h p hp)
  constructor
  · intro h
    refine Nat.le_of_not_lt fun hn => ?_
    rw [mono hn h] at h2
    cases h2
  · exact fun h => mono h h1

/-- RC6: one, two, three and six units are covered, and six are too long to be taken for five. -/
def Spec.coversRc6 (tbl : PulseSpans) (f j : Nat) : Bool :=
  covers tbl f j 0 444 && covers tbl f j 1 888 && covers tbl f j 2 1332 && covers tbl f j 5 2664 &&
    match tbl.spans[4]? with
    | none => true
    | some w => decide (w.high < shortest f j 2664)

theorem rc6Clock_of_covers {tbl : PulseSpans} {u f phase j : Nat} (hu : 0 < u) (h : coversRc6 tbl f j = true) :
    Rc6Clock tbl u f phase j := by
  simp only [coversRc6, Bool.and_eq_true] at h
  obtain ⟨⟨⟨⟨h1, h2⟩, h3⟩, h6⟩, h5⟩ := h
  intro t n x hn hx
  rcases hn with rfl | rfl | rfl | rfl
  · exact ⟨measures_of_covers hu h1 t x hx, by simp⟩
  · exact ⟨measures_of_covers hu h2 t x hx, by simp⟩
  · exact ⟨measures_of_covers hu h3 t x hx, by simp⟩
  · refine ⟨measures_of_covers hu h6 t x hx, fun _ h => ?_⟩
    obtain ⟨w, hw, -, h8⟩ := h
    rw [hw] at h5
    have := (reading_between hu f phase j 2664 t x hx).1
    have := of_decide_eq_true h5
    omega

theorem rc5Clock_of_covers {tbl : PulseSpans} {u f phase j : Nat} (hu : 0 < u)
    (h : coversAll tbl f j rc5Lengths = true) : Rc5Clock tbl u f phase j := by
  intro t n x hn hx
  rcases hn with rfl | rfl
  · exact measures_of_covers hu (coversAll_get h rfl) t x hx
  · exact measures_of_covers hu (coversAll_get h (s := 1) rfl) t x hx

/-- **C78**, NEC family: if the table covers the symbols at `j` percent, any series of transmissions within `j` percent
is heard, event-driven and polled. -/
theorem C78_nec (t : Target) (f j : Nat) (hlo : 20000 ≤ f) (hf : f < 2 ^ 32) (v : NecVariant C)
    (hv : v.Shipped) (m : Mono) (hm : m = Mono.u32 ∨ m = Mono.u64) (tbl : PulseSpans)
    (htbl : necSpans t m v f = some tbl) (hc : coversAll tbl f j (necLengths v) = true) (conv : C → K) (u : Nat)
    (hu : 0 < u) (phase t0 g : Nat) (hg : Pause tbl m.width [0, 1] (0, g)) (items : List (NecItem × (Nat × Nat)))
    (hok : ∀ i ∈ items, i.1.Near u j (v.pulseDistance.headerHigh + v.pulseDistance.headerLow)
      (v.pulseDistance.headerHigh + v.pulseDistance.repeatLow) ∧
      16000 * u ≤ 1000000 * (i.2.1 + i.2.2) ∧ (i.2.1 + i.2.2) * f + u < 2 ^ m.width * u) :
    (results (necDecoder t m tbl v) conv ((true, g) :: clocked u f phase t0 (series NecItem.wire items))).map said =
      some (oks ((necHeard v.unpack 0 (items.map Prod.fst)).map conv)) :=
  nec_events_of t m hm f hlo hf v hv tbl htbl conv u hu phase t0 g j hg
    (fun _ _ hs => measures_of_covers hu (coversAll_get hc hs)) items hok

/-- **C78**, SBP. -/
theorem C78_sbp (t : Target) (f j : Nat) (hlo : 20000 ≤ f) (hf : f < 2 ^ 32) (m : Mono)
    (hm : m = Mono.u32 ∨ m = Mono.u64) (tbl : PulseSpans)
    (htbl : sbpSpans t m f = some tbl) (hc : coversAll tbl f j sbpLengths = true) (conv : SbpCommand → K)
    (u : Nat) (hu : 0 < u) (phase t0 g : Nat) (hg : Pause tbl m.width [0] (0, g))
    (items : List ((BitVec 16 × BitVec 20 × List (Nat × Nat)) × (Nat × Nat)))
    (hok : ∀ i ∈ items, NearPeriods u j (sbpPeriods i.1.1 i.1.2.1) i.1.2.2 ∧
      16000 * u ≤ 1000000 * (i.2.1 + i.2.2) ∧ (i.2.1 + i.2.2) * f + u < 2 ^ m.width * u) :
    (results (sbpDecoder t m tbl) conv
        ((true, g) :: clocked u f phase t0 (series (fun i => i.2.2) items))).map said =
      some (oks (items.map fun i => conv (SbpCommand.unpack i.1.1 (i.1.2.1.setWidth 32)))) :=
  sbp_events_of t m hm f hlo hf tbl htbl conv u hu phase t0 g j hg
    (fun _ _ hs => measures_of_covers hu (coversAll_get hc hs)) items hok

/-- **C78**, Denon (first 47 bits). -/
theorem C78_denon (t : Target) (f j : Nat) (hlo : 20000 ≤ f) (hf : f < 2 ^ 32) (m : Mono)
    (hm : m = Mono.u32 ∨ m = Mono.u64) (tbl : PulseSpans)
    (htbl : denonSpans t m f = some tbl) (hc : coversAll tbl f j denonLengths = true) (conv : DenonCommand → K)
    (u : Nat) (hu : 0 < u) (phase t0 g : Nat) (hg : Pause tbl m.width [0] (0, g))
    (items : List ((BitVec 48 × List (Nat × Nat)) × (Nat × Nat)))
    (hok : ∀ i ∈ items, NearPeriods u j (denonPeriods i.1.1) i.1.2 ∧
      16000 * u ≤ 1000000 * (i.2.1 + i.2.2) ∧ (i.2.1 + i.2.2) * f + u < 2 ^ m.width * u) :
    (results (denonDecoder t m tbl) conv
        ((true, g) :: clocked u f phase t0 (series (fun i => i.2) items))).map said =
      some (oks (items.map fun i => conv { bits := (i.1.1.setWidth 47).setWidth 64 })) :=
  denon_events_of t m hm f hlo hf tbl htbl conv u hu phase t0 g j hg
    (fun _ _ hs => measures_of_covers hu (coversAll_get hc hs)) items hok

/-- **C78**, RC5. -/
theorem C78_rc5 (t : Target) (hus : 16 ≤ t.usizeBits) (f j : Nat) (hlo : 20000 ≤ f) (hf : f < 2 ^ 32) (m : Mono)
    (hm : m = Mono.u32 ∨ m = Mono.u64) (tbl : PulseSpans) (htbl : rc5Spans t m f = some tbl)
    (hc : coversAll tbl f j rc5Lengths = true) (conv : Rc5Command → K) (u : Nat) (hu : 0 < u) (phase : Nat)
    (items : List (BitVec 14 × List (Bool × Nat) × Option Nat))
    (hok : ∀ i ∈ items, i.1.getLsbD 13 = true ∧
      ManchesterFrame (fun x n => Near u j (889 * n) x) (rc5Edges i.1) i.2.1)
    (b : Bool) (pause : Nat) (es : List (Bool × Nat))
    (hes : (items.flatMap fun i => withTail i.2.1 i.2.2) = (b, pause) :: es) (t0 g : Nat) :
    (results (rc5Decoder t tbl) conv ((b, g) :: clocked u f phase (t0 + pause) es)).map said =
      some (oks (items.map fun i => conv (Rc5Command.unpack (i.1.setWidth 16)))) :=
  rc5_events_of t hus m hm f hlo hf tbl htbl conv u phase j (rc5Clock_of_covers hu hc) items hok b pause es hes t0 g

/-- **C78**, RC6 (mode 0). -/
theorem C78_rc6 (t : Target) (hus : 16 ≤ t.usizeBits) (f j : Nat) (hlo : 20000 ≤ f) (hf : f < 2 ^ 32) (m : Mono)
    (hm : m = Mono.u32 ∨ m = Mono.u64) (tbl : PulseSpans) (htbl : rc6Spans t m f = some tbl)
    (hc : coversRc6 tbl f j = true) (conv : Rc6Command → K) (u : Nat) (hu : 0 < u) (phase : Nat)
    (items : List (Rc6Command × List (Bool × Nat) × Option Nat))
    (hok : ∀ i ∈ items, ManchesterFrame (fun x n => Near u j (444 * n) x)
      (rc6Edges (i.1.addr ++ i.1.cmd) i.1.toggle) i.2.1)
    (b : Bool) (pause : Nat) (es : List (Bool × Nat))
    (hes : (items.flatMap fun i => withTail i.2.1 i.2.2) = (b, pause) :: es) (t0 g : Nat) :
    (results (rc6Decoder t tbl) conv ((b, g) :: clocked u f phase (t0 + pause) es)).map said =
      some (oks (items.map fun i => conv i.1)) :=
  rc6_events_of t hus m hm f hlo hf tbl htbl conv u phase j (rc6Clock_of_covers hu hc) items hok b pause es hes t0 g

/-! ## Polled receivers -/

/-- **C78**, NEC family, polled. -/
theorem C78_nec_polled (t : Target) (f j : Nat) (hlo : 20000 ≤ f)
    (hf : f < 2 ^ 32) (v : NecVariant C) (hv : v.Shipped) (tbl : PulseSpans)
    (htbl : necSpans t Mono.u32 v f = some tbl) (hc : coversAll tbl f j (necLengths v) = true)
    (conv : C → K) (u : Nat) (hu : 0 < u) (phase pause : Nat)
    (hg : Pause tbl 32 [0, 1] (0, reading u f phase pause + 1)) (items : List (NecItem × (Nat × Nat)))
    (hok : ∀ i ∈ items, i.1.Near u j (v.pulseDistance.headerHigh + v.pulseDistance.headerLow)
      (v.pulseDistance.headerHigh + v.pulseDistance.repeatLow) ∧
      16000 * u ≤ 1000000 * (i.2.1 + i.2.2) ∧ (i.2.1 + i.2.2) * f + u < 2 ^ 32 * u)
    (hmin : ∀ e ∈ series NecItem.wire items, u ≤ e.2 * f)
    (hmax : ∀ e ∈ series NecItem.wire items, e.2 * f / u + 1 < 2 ^ 32)
    (n : Nat) (hn : reading u f phase (duration ((true, pause) :: series NecItem.wire items)) < n) :
    (pollRun (necDecoder t Mono.u32 tbl v) conv
        (polled u f phase ((true, pause) :: series NecItem.wire items) n)).map said =
      some (oks ((necHeard v.unpack 0 (items.map Prod.fst)).map conv)) := by
  have hg1 := hg.1
  dsimp only at hg1
  rw [C54_polled_line_long _ conv u hu f phase true pause _ (changes_series ..) hmin n hn (by omega) hmax]
  exact C78_nec t f j hlo hf v hv Mono.u32 (.inl rfl) tbl htbl hc conv u hu phase pause _ hg items hok

/-- **C78**, SBP, polled. -/
theorem C78_sbp_polled (t : Target) (f j : Nat) (hlo : 20000 ≤ f) (hf : f < 2 ^ 32) (tbl : PulseSpans)
    (htbl : sbpSpans t Mono.u32 f = some tbl) (hc : coversAll tbl f j sbpLengths = true)
    (conv : SbpCommand → K) (u : Nat) (hu : 0 < u) (phase pause : Nat)
    (hg : Pause tbl 32 [0] (0, reading u f phase pause + 1))
    (items : List ((BitVec 16 × BitVec 20 × List (Nat × Nat)) × (Nat × Nat)))
    (hok : ∀ i ∈ items, NearPeriods u j (sbpPeriods i.1.1 i.1.2.1) i.1.2.2 ∧
      16000 * u ≤ 1000000 * (i.2.1 + i.2.2) ∧ (i.2.1 + i.2.2) * f + u < 2 ^ 32 * u)
    (hmin : ∀ e ∈ series (fun i : BitVec 16 × BitVec 20 × List (Nat × Nat) => i.2.2) items, u ≤ e.2 * f)
    (hmax : ∀ e ∈ series (fun i : BitVec 16 × BitVec 20 × List (Nat × Nat) => i.2.2) items,
      e.2 * f / u + 1 < 2 ^ 32)
    (n : Nat) (hn : reading u f phase (duration ((true, pause) :: series (fun i => i.2.2) items)) < n) :
    (pollRun (sbpDecoder t Mono.u32 tbl) conv
        (polled u f phase ((true, pause) :: series (fun i => i.2.2) items) n)).map said =
      some (oks (items.map fun i => conv (SbpCommand.unpack i.1.1 (i.1.2.1.setWidth 32)))) := by
  have hg1 := hg.1
  dsimp only at hg1
  rw [C54_polled_line_long _ conv u hu f phase true pause _ (changes_series ..) hmin n hn (by omega) hmax]
  exact C78_sbp t f j hlo hf Mono.u32 (.inl rfl) tbl htbl hc conv u hu phase pause _ hg items hok

/-- **C78**, Denon (first 47 bits), polled. -/
theorem C78_denon_polled (t : Target) (f j : Nat) (hlo : 20000 ≤ f) (hf : f < 2 ^ 32) (tbl : PulseSpans)
    (htbl : denonSpans t Mono.u32 f = some tbl) (hc : coversAll tbl f j denonLengths = true)
    (conv : DenonCommand → K) (u : Nat) (hu : 0 < u)
    (phase pause : Nat) (hg : Pause tbl 32 [0] (0, reading u f phase pause + 1))
    (items : List ((BitVec 48 × List (Nat × Nat)) × (Nat × Nat)))
    (hok : ∀ i ∈ items, NearPeriods u j (denonPeriods i.1.1) i.1.2 ∧
      16000 * u ≤ 1000000 * (i.2.1 + i.2.2) ∧ (i.2.1 + i.2.2) * f + u < 2 ^ 32 * u)
    (hmin : ∀ e ∈ series (fun i : BitVec 48 × List (Nat × Nat) => i.2) items, u ≤ e.2 * f)
    (hmax : ∀ e ∈ series (fun i : BitVec 48 × List (Nat × Nat) => i.2) items, e.2 * f / u + 1 < 2 ^ 32)
    (n : Nat) (hn : reading u f phase (duration ((true, pause) :: series (fun i => i.2) items)) < n) :
    (pollRun (denonDecoder t Mono.u32 tbl) conv
        (polled u f phase ((true, pause) :: series (fun i => i.2) items) n)).map said =
      some (oks (items.map fun i => conv { bits := (i.1.1.setWidth 47).setWidth 64 })) := by
  have hg1 := hg.1
  dsimp only at hg1
  rw [C54_polled_line_long _ conv u hu f phase true pause _ (changes_series ..) hmin n hn (by omega) hmax]
  exact C78_denon t f j hlo hf Mono.u32 (.inl rfl) tbl htbl hc conv u hu phase pause _ hg items hok

/-- **C78**, RC5, polled. -/
theorem C78_rc5_polled (t : Target) (hus : 16 ≤ t.usizeBits) (f j : Nat) (hlo : 20000 ≤ f) (hf : f < 2 ^ 32)
    (tbl : PulseSpans) (htbl : rc5Spans t Mono.u32 f = some tbl) (hc : coversAll tbl f j rc5Lengths = true)
    (conv : Rc5Command → K) (u : Nat) (hu : 0 < u)
    (phase : Nat) (items : List (BitVec 14 × List (Bool × Nat) × Option Nat))
    (hok : ∀ i ∈ items, i.1.getLsbD 13 = true ∧
      ManchesterFrame (fun x n => Near u j (889 * n) x) (rc5Edges i.1) i.2.1)
    (hch : Changes false (items.flatMap fun i => withTail i.2.1 i.2.2))
    (hmin : ∀ e ∈ (items.flatMap fun i => withTail i.2.1 i.2.2).tail, u ≤ e.2 * f)
    (hmax : ∀ e ∈ items.flatMap fun i => withTail i.2.1 i.2.2, (e.2 * f + phase) / u + 1 < 2 ^ 32)
    (n : Nat) (hn : reading u f phase (duration (items.flatMap fun i => withTail i.2.1 i.2.2)) < n) :
    (pollRun (rc5Decoder t tbl) conv
        (polled u f phase (items.flatMap fun i => withTail i.2.1 i.2.2) n)).map said =
      some (oks (items.map fun i => conv (Rc5Command.unpack (i.1.setWidth 16)))) :=
  rc5_polled_of t hus f hlo hf tbl htbl conv u hu phase j (rc5Clock_of_covers hu hc) items hok hch hmin hmax n hn

/-- **C78**, RC6 (mode 0), polled. -/
theorem C78_rc6_polled (t : Target) (hus : 16 ≤ t.usizeBits) (f j : Nat) (hlo : 20000 ≤ f) (hf : f < 2 ^ 32)
    (tbl : PulseSpans) (htbl : rc6Spans t Mono.u32 f = some tbl) (hc : coversRc6 tbl f j = true)
    (conv : Rc6Command → K) (u : Nat) (hu : 0 < u)
    (phase : Nat) (items : List (Rc6Command × List (Bool × Nat) × Option Nat))
    (hok : ∀ i ∈ items, ManchesterFrame (fun x n => Near u j (444 * n) x)
      (rc6Edges (i.1.addr ++ i.1.cmd) i.1.toggle) i.2.1)
    (hch : Changes false (items.flatMap fun i => withTail i.2.1 i.2.2))
    (hmin : ∀ e ∈ (items.flatMap fun i => withTail i.2.1 i.2.2).tail, u ≤ e.2 * f)
    (hmax : ∀ e ∈ items.flatMap fun i => withTail i.2.1 i.2.2, (e.2 * f + phase) / u + 1 < 2 ^ 32)
    (n : Nat) (hn : reading u f phase (duration (items.flatMap fun i => withTail i.2.1 i.2.2)) < n) :
    (pollRun (rc6Decoder t tbl) conv
        (polled u f phase (items.flatMap fun i => withTail i.2.1 i.2.2) n)).map said =
      some (oks (items.map fun i => conv i.1)) :=
  rc6_polled_of t hus f hlo hf tbl htbl conv u hu phase j (rc6Clock_of_covers hu hc) items hok hch hmin hmax n hn

end Infrared
