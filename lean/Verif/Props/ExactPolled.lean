/-
C81 for polled receivers: the condition of C78 on the table is necessary for them as well.  What a polled receiver is
given differs from what an event-driven one measures only in the first interval (Props/Sampling), so the transmissions
that Props/Exact and Props/ExactBi use against a table are put after a quiet time, with the phase of the polls that
gives the reading that misses.
-/
import Verif.Props.ExactBi
import Verif.Props.Sampling

namespace Infrared

open Spec

variable {C K : Type}

/-! ## Where the transmission starts -/

theorem reading_mod (u f phase x : Nat) (hu : 0 < u) :
    reading u f phase x = phase / u + reading u f (phase % u) x := by
  unfold reading
  have := Nat.div_add_mod phase u
  rw [show x * f + phase = x * f + phase % u + u * (phase / u) by omega, Nat.add_mul_div_left _ _ hu, Nat.add_comm]

/-- Clocks that differ by a constant measure the same. -/
theorem clocked_congr {u f p p' t t' a b : Nat} (h : ∀ x, a + reading u f p (t + x) = b + reading u f p' (t' + x))
    (es : List (Bool × Nat)) : clocked u f p t es = clocked u f p' t' es := by
  induction es generalizing t t' with
  | nil => rfl
  | cons e es ih =>
    rw [clocked, clocked, ih (t := t + e.2) (t' := t' + e.2) fun x => by
      rw [Nat.add_assoc, Nat.add_assoc t']; exact h (e.2 + x)]
    have h0 := h 0
    have h1 := h e.2
    rw [Nat.add_zero, Nat.add_zero] at h0
    congr 2
    omega

/-- What a transmission at time 0 gives at one phase, it gives after 40 ms at another. -/
theorem later (f phase : Nat) : ∃ phase₂ < tens, ∀ es, clocked tens f phase₂ rest es = clocked tens f phase 0 es := by
  refine ⟨(phase + rest * f * (tens - 1)) % tens, Nat.mod_lt _ (by decide), fun es => ?_⟩
  refine clocked_congr (a := (phase + rest * f * (tens - 1)) / tens) (b := rest * f) (fun x => ?_) es
  rw [← reading_mod _ _ _ _ (by decide), reading_shift (by decide), Nat.zero_add]

/-- 40 ms without an edge are a pause for a polled receiver. -/
theorem polled_rest {t : Target} {f : Nat} (hlo : 20000 ≤ f) (hf : f < 2 ^ 32) (k : Kind) {tbl : PulseSpans}
    (htbl : k.build t Mono.u32 f = some tbl) {phase : Nat} (hp : phase < tens) (syms : List Nat)
    (hsy : ∀ i ∈ syms, i < k.symbols.length) : Pause tbl 32 syms (0, reading tens f phase rest + 1) := by
  have h1 : f ≤ 25 * reading tens f phase rest + 25 := by unfold reading rest tens; omega
  have h2 : reading tens f phase rest ≤ f / 25 + 1 := by unfold reading rest tens at *; omega
  refine ⟨by dsimp only; omega, fun i hi hin => ?_⟩
  dsimp only at hin
  rw [Nat.zero_add] at hin
  obtain ⟨⟨l, tol⟩, hs⟩ : ∃ s, k.symbols[i]? = some s := ⟨_, List.getElem?_eq_getElem (hsy i hi)⟩
  have hr := ((C52_rejects k t Mono.u32 (.inl rfl) f hf tbl htbl i _ hin).1 l tol hs).1
  have hsmall : (100 + tol) * l ≤ 107 * 13500 := by
    have : ∀ k : Kind, ∀ s ∈ k.symbols, (100 + s.2) * s.1 ≤ 107 * 13500 := by
      intro k; cases k <;> decide
    exact this k (l, tol) (List.mem_of_getElem? hs)
  have h5 := Nat.mul_le_mul_right f hsmall
  omega

/-- The levels of these pulses last a polling period, and not too long for a poll counter. -/
theorem pulses_polled {f : Nat} (hlo : 20000 ≤ f) (hf : f < 2 ^ 32) {xs : List Nat}
    (h : ∀ x ∈ xs, x ≤ 50000000 ∧ 40000 ≤ x) :
    ∀ e ∈ pulses (xs.map halves), tens ≤ e.2 * f ∧ e.2 * f / tens + 1 < 2 ^ 32 := by
  induction xs with
  | nil => simp [pulses]
  | cons x xs ih =>
    intro e he
    rw [List.map_cons, show halves x = (x / 2, x - x / 2) from rfl, pulses] at he
    rw [List.mem_cons, List.mem_cons, ← or_assoc] at he
    rcases he with he | he
    · obtain ⟨h1, h2⟩ := h x (List.mem_cons_self ..)
      have hb : 20000 ≤ e.2 ∧ e.2 ≤ 50000000 := by
        rcases he with rfl | rfl <;> (dsimp only; omega)
      have ha := Nat.mul_le_mul hb.1 hlo
      have hc := Nat.mul_le_mul hb.2 (Nat.le_refl f)
      unfold tens
      omega
    · exact ih (fun x hx => h x (List.mem_cons_of_mem _ hx)) e he

/-- From a polled receiver to the results for the readings of the clock. -/
theorem polled_results {D : Decoder C} {f phase₂ phase : Nat} {es : List (Bool × Nat)} (hch : Changes true es)
    (hb : ∀ e ∈ es, tens ≤ e.2 * f ∧ e.2 * f / tens + 1 < 2 ^ 32)
    (hg : reading tens f phase₂ rest + 1 < 2 ^ 32) (hes : clocked tens f phase₂ rest es = clocked tens f phase 0 es)
    {r : List (Res C)}
    (h : ∀ n, reading tens f phase₂ (duration ((true, rest) :: es)) < n →
      (pollRun D (fun c => c) (polled tens f phase₂ ((true, rest) :: es) n)).map said = some r) :
    (results D (fun c => c) ((true, reading tens f phase₂ rest + 1) :: clocked tens f phase 0 es)).map said = some r := by
  have := h _ (Nat.lt_succ_self _)
  rw [C54_polled_line_long D _ tens (by decide) f phase₂ true rest es ⟨rfl, hch⟩ (fun e he => (hb e he).1) _
    (Nat.lt_succ_self _) hg (fun e he => (hb e he).2), hes] at this
  exact this

/-! ## NEC family -/

/-- The polled receiver hears every series of frames and repeat codes within `j` percent. -/
def Spec.NecHearsPolled (t : Target) (tbl : PulseSpans) (v : NecVariant C) (f j : Nat) : Prop :=
  ∀ (u phase pause : Nat) (items : List (NecItem × (Nat × Nat))) (n : Nat), 0 < u →
    Pause tbl 32 [0, 1] (0, reading u f phase pause + 1) →
    (∀ i ∈ items, i.1.Near u j (v.pulseDistance.headerHigh + v.pulseDistance.headerLow)
      (v.pulseDistance.headerHigh + v.pulseDistance.repeatLow) ∧
      16000 * u ≤ 1000000 * (i.2.1 + i.2.2) ∧ (i.2.1 + i.2.2) * f + u < 2 ^ 32 * u) →
    (∀ e ∈ series NecItem.wire items, u ≤ e.2 * f) → (∀ e ∈ series NecItem.wire items, e.2 * f / u + 1 < 2 ^ 32) →
    reading u f phase (duration ((true, pause) :: series NecItem.wire items)) < n →
    (pollRun (necDecoder t Mono.u32 tbl v) (fun c => c)
        (polled u f phase ((true, pause) :: series NecItem.wire items) n)).map said =
      some (oks (necHeard v.unpack 0 (items.map Prod.fst)))

theorem necItem_near_mono {u j j' a b : Nat} (hj : j ≤ j') (i : NecItem) (h : i.Near u j a b) : i.Near u j' a b := by
  cases i with
  | frame w ps => exact nearPeriods_mono hj h
  | rep p => exact near_mono hj h

theorem nec_polled_parse {t : Target} {f : Nat} (hlo : 20000 ≤ f) (hf : f < 2 ^ 32) {v : NecVariant C} (hv : v.Shipped)
    {tbl : PulseSpans} (htbl : necSpans t Mono.u32 v f = some tbl) {j : Nat} (hj : j ≤ 50)
    (hear : NecHearsPolled t tbl v f j) : NecParses tbl v f j := by
  intro phase w xs rs hx hr hle hge
  obtain ⟨phase₂, hp, hes⟩ := later f phase
  obtain ⟨k, hk, he⟩ := nec_kind v hv
  rw [he] at htbl
  have hg := polled_rest hlo hf k htbl hp [0, 1] (by rcases hk with ⟨rfl, -⟩ | ⟨rfl, -⟩ <;> decide)
  refine nec_heard_parse (m := Mono.u32) (t := t) (.inl rfl) hf hg phase w xs rs (fun items hok hs => ?_) hx hr hle
  have hb : ∀ e ∈ series NecItem.wire items, tens ≤ e.2 * f ∧ e.2 * f / tens + 1 < 2 ^ 32 := by
    rw [hs]
    refine pulses_polled hlo hf fun x hx => ?_
    simp only [List.mem_append, List.mem_flatMap, List.mem_cons, List.not_mem_nil, or_false] at hx
    have key : x ∈ xs ++ rs ∨ x = rest := by
      rcases hx with (hx | rfl) | ⟨r, hr, rfl | rfl⟩
      · exact .inl (by simp [hx])
      · exact .inr rfl
      · exact .inl (by simp [hr])
      · exact .inr rfl
    rcases key with h | rfl
    · have h1 := hle x h
      have h2 := hge x h
      omega
    · decide
  refine polled_results (by rw [hs]; exact changes_pulses _) hb (by simpa using hg.1) (hes _) fun n hn => ?_
  exact hear tens phase₂ rest items n (by decide) hg hok (fun e he => (hb e he).1) (fun e he => (hb e he).2) hn

/-- **C81**, NEC family, polled: the receiver hears every series of transmissions within `j` percent (levels lasting at
least a polling period) exactly if the table covers the symbols at `j` percent. -/
theorem C81_nec_polled (t : Target) (f : Nat) (hlo : 20000 ≤ f) (hf : f < 2 ^ 32) (v : NecVariant C) (hv : v.Shipped)
    (c c' : C) (ht : Telling v c c') (tbl : PulseSpans) (htbl : necSpans t Mono.u32 v f = some tbl) (j : Nat) :
    NecHearsPolled t tbl v f j ↔ coversAll tbl f j (necLengths v) = true := by
  constructor
  · intro hear
    by_cases hj : j ≤ 50
    · exact nec_hears_covers (.inl rfl) hlo hf hv htbl ht (by omega) (nec_polled_parse hlo hf hv htbl hj hear)
    · have h := nec_hears_covers (.inl rfl) hlo hf hv htbl ht (by decide)
        (nec_polled_parse hlo hf hv htbl (Nat.le_refl 50) fun u phase pause items n hu hg hok =>
          hear u phase pause items n hu hg fun i hi => ⟨necItem_near_mono (by omega) i.1 (hok i hi).1, (hok i hi).2⟩)
      have h2 := coversAll_get h (s := 2) rfl
      obtain ⟨k, hk, he⟩ := nec_kind v hv
      rw [he] at htbl
      rw [not_covers_more (k := k) (.inl rfl) hlo hf htbl (s := 2) (tol := 25)
        (by rcases hk with ⟨rfl, -⟩ | ⟨rfl, -⟩ <;> rfl) (by decide) (by decide)] at h2
      cases h2
  · intro hc u phase pause items n hu hg hok hmin hmax hn
    have := C78_nec_polled t f j hlo hf v hv tbl htbl hc (fun c => c) u hu phase pause hg items hok hmin hmax n hn
    rwa [List.map_id'] at this

/-! ## SBP -/

/-- The polled receiver hears every series of frames within `j` percent. -/
def Spec.SbpHearsPolled (t : Target) (tbl : PulseSpans) (f j : Nat) : Prop :=
  ∀ (u phase pause : Nat) (items : List ((BitVec 16 × BitVec 20 × List (Nat × Nat)) × (Nat × Nat))) (n : Nat), 0 < u →
    Pause tbl 32 [0] (0, reading u f phase pause + 1) →
    (∀ i ∈ items, NearPeriods u j (sbpPeriods i.1.1 i.1.2.1) i.1.2.2 ∧
      16000 * u ≤ 1000000 * (i.2.1 + i.2.2) ∧ (i.2.1 + i.2.2) * f + u < 2 ^ 32 * u) →
    (∀ e ∈ series (fun i : BitVec 16 × BitVec 20 × List (Nat × Nat) => i.2.2) items, u ≤ e.2 * f) →
    (∀ e ∈ series (fun i : BitVec 16 × BitVec 20 × List (Nat × Nat) => i.2.2) items, e.2 * f / u + 1 < 2 ^ 32) →
    reading u f phase (duration ((true, pause) :: series (fun i => i.2.2) items)) < n →
    (pollRun (sbpDecoder t Mono.u32 tbl) (fun c => c)
        (polled u f phase ((true, pause) :: series (fun i => i.2.2) items) n)).map said =
      some (oks (items.map fun i => SbpCommand.unpack i.1.1 (i.1.2.1.setWidth 32)))

theorem sbp_polled_parse {t : Target} {f : Nat} (hlo : 20000 ≤ f) (hf : f < 2 ^ 32)
    {tbl : PulseSpans} (htbl : sbpSpans t Mono.u32 f = some tbl) {j : Nat} (hj : j ≤ 50)
    (hear : SbpHearsPolled t tbl f j) : SbpParses tbl f j := by
  intro phase a w xs hx hle
  obtain ⟨phase₂, hp, hes⟩ := later f phase
  have hg := polled_rest hlo hf .sbp htbl hp [0] (by decide)
  refine sbp_heard_parse (m := Mono.u32) (t := t) (.inl rfl) hf (show _ < 2 ^ 32 by simpa using hg.1)
    (fun h => hg.2 0 (by simp) (by simpa using get_inTol h)) phase a w xs (fun x hx => (hle x hx).1) ?_
  have hb : ∀ e ∈ pulses ((xs ++ [rest]).map halves), tens ≤ e.2 * f ∧ e.2 * f / tens + 1 < 2 ^ 32 := by
    refine pulses_polled hlo hf fun x hx => ?_
    rw [List.mem_append, List.mem_singleton] at hx
    rcases hx with h | rfl
    · have := hle x h
      omega
    · decide
  refine polled_results (changes_pulses _) hb (by simpa using hg.1) (hes _) fun n hn => ?_
  have := hear tens phase₂ rest [((a, w, xs.map halves), halves rest)] n (by decide) hg (by
    intro i hi
    rw [List.mem_singleton] at hi
    subst hi
    exact ⟨hx, rest_ok hf (Nat.le_refl 32)⟩)
  rw [sbp_one] at this
  exact this (fun e he => (hb e he).1) (fun e he => (hb e he).2) hn

/-- **C81**, SBP, polled. -/
theorem C81_sbp_polled (t : Target) (f : Nat) (hlo : 20000 ≤ f) (hf : f < 2 ^ 32) (tbl : PulseSpans)
    (htbl : sbpSpans t Mono.u32 f = some tbl) (j : Nat) :
    SbpHearsPolled t tbl f j ↔ coversAll tbl f j sbpLengths = true := by
  constructor
  · intro hear
    by_cases hj : j ≤ 50
    · exact sbp_hears_covers (.inl rfl) hlo hf htbl (by omega) (sbp_polled_parse hlo hf htbl hj hear)
    · have h := sbp_hears_covers (.inl rfl) hlo hf htbl (by decide)
        (sbp_polled_parse hlo hf htbl (Nat.le_refl 50) fun u phase pause items n hu hg hok =>
          hear u phase pause items n hu hg fun i hi => ⟨nearPeriods_mono (by omega) (hok i hi).1, (hok i hi).2⟩)
      have h2 := coversAll_get h (s := 2) rfl
      rw [not_covers_more (k := .sbp) (.inl rfl) hlo hf htbl (s := 2) (tol := 10) rfl (by decide) (by decide)] at h2
      cases h2
  · intro hc u phase pause items n hu hg hok hmin hmax hn
    exact C78_sbp_polled t f j hlo hf tbl htbl hc (fun c => c) u hu phase pause hg items hok hmin hmax n hn

/-! ## Denon -/

/-- The polled receiver hears every series of frames within `j` percent. -/
def Spec.DenonHearsPolled (t : Target) (tbl : PulseSpans) (f j : Nat) : Prop :=
  ∀ (u phase pause : Nat) (items : List ((BitVec 48 × List (Nat × Nat)) × (Nat × Nat))) (n : Nat), 0 < u →
    Pause tbl 32 [0] (0, reading u f phase pause + 1) →
    (∀ i ∈ items, NearPeriods u j (denonPeriods i.1.1) i.1.2 ∧
      16000 * u ≤ 1000000 * (i.2.1 + i.2.2) ∧ (i.2.1 + i.2.2) * f + u < 2 ^ 32 * u) →
    (∀ e ∈ series (fun i : BitVec 48 × List (Nat × Nat) => i.2) items, u ≤ e.2 * f) →
    (∀ e ∈ series (fun i : BitVec 48 × List (Nat × Nat) => i.2) items, e.2 * f / u + 1 < 2 ^ 32) →
    reading u f phase (duration ((true, pause) :: series (fun i => i.2) items)) < n →
    (pollRun (denonDecoder t Mono.u32 tbl) (fun c => c)
        (polled u f phase ((true, pause) :: series (fun i => i.2) items) n)).map said =
      some (oks (items.map fun i => { bits := (i.1.1.setWidth 47).setWidth 64 }))

theorem denon_polled_parse {t : Target} {f : Nat} (hlo : 20000 ≤ f) (hf : f < 2 ^ 32)
    {tbl : PulseSpans} (htbl : denonSpans t Mono.u32 f = some tbl) {j : Nat} (hj : j ≤ 50)
    (hear : DenonHearsPolled t tbl f j) : DenonParses tbl f j := by
  intro phase w xs hx hle
  obtain ⟨phase₂, hp, hes⟩ := later f phase
  have hg := polled_rest hlo hf .denon htbl hp [0] (by decide)
  refine denon_heard_parse (m := Mono.u32) (t := t) (.inl rfl) hf (show _ < 2 ^ 32 by simpa using hg.1)
    (fun h => hg.2 0 (by simp) (by simpa using get_inTol h)) phase w xs (fun x hx => (hle x hx).1) ?_
  have hb : ∀ e ∈ pulses ((xs ++ [rest]).map halves), tens ≤ e.2 * f ∧ e.2 * f / tens + 1 < 2 ^ 32 := by
    refine pulses_polled hlo hf fun x hx => ?_
    rw [List.mem_append, List.mem_singleton] at hx
    rcases hx with h | rfl
    · have := hle x h
      omega
    · decide
  refine polled_results (changes_pulses _) hb (by simpa using hg.1) (hes _) fun n hn => ?_
  have := hear tens phase₂ rest [((w, xs.map halves), halves rest)] n (by decide) hg (by
    intro i hi
    rw [List.mem_singleton] at hi
    subst hi
    exact ⟨hx, rest_ok hf (Nat.le_refl 32)⟩)
  rw [denon_one] at this
  exact this (fun e he => (hb e he).1) (fun e he => (hb e he).2) hn

/-- **C81**, Denon, polled. -/
theorem C81_denon_polled (t : Target) (f : Nat) (hlo : 20000 ≤ f) (hf : f < 2 ^ 32) (tbl : PulseSpans)
    (htbl : denonSpans t Mono.u32 f = some tbl) (j : Nat) :
    DenonHearsPolled t tbl f j ↔ coversAll tbl f j denonLengths = true := by
  constructor
  · intro hear
    by_cases hj : j ≤ 50
    · exact denon_hears_covers (.inl rfl) hlo hf htbl (by omega) (denon_polled_parse hlo hf htbl hj hear)
    · have h := denon_hears_covers (.inl rfl) hlo hf htbl (by decide)
        (denon_polled_parse hlo hf htbl (Nat.le_refl 50) fun u phase pause items n hu hg hok =>
          hear u phase pause items n hu hg fun i hi => ⟨nearPeriods_mono (by omega) (hok i hi).1, (hok i hi).2⟩)
      have h2 := coversAll_get h (s := 2) rfl
      rw [not_covers_more (k := .denon) (.inl rfl) hlo hf htbl (s := 2) (tol := 10) rfl (by decide) (by decide)] at h2
      cases h2
  · intro hc u phase pause items n hu hg hok hmin hmax hn
    exact C78_denon_polled t f j hlo hf tbl htbl hc (fun c => c) u hu phase pause hg items hok hmin hmax n hn

/-! ## RC5 and RC6 -/

/-- Intervals within 13 percent of half-bits last a polling period, and not too long for a poll counter. -/
theorem timed_polled {f j : Nat} (hlo : 20000 ≤ f) (hf : f < 2 ^ 32) (hj : j ≤ 13) {h : Nat} (hh : 444 ≤ h ∧ h ≤ 889)
    {ys ns : List (Bool × Nat)} (hT : Timed (fun x n => Near tens j (h * n) x) ys ns)
    (hn : ∀ e ∈ ns, 1 ≤ e.2 ∧ e.2 ≤ 6) :
    ∀ e ∈ ys, (tens ≤ e.2 * f ∧ e.2 * f / tens + 1 < 2 ^ 32) ∧ e.2 ≤ 2000000 := by
  induction ys generalizing ns with
  | nil => simp
  | cons y ys ih =>
    obtain _ | ⟨n, ns⟩ := ns
    · exact hT.elim
    obtain ⟨-, ⟨h1, h2⟩, hT⟩ := hT
    intro e he
    rcases List.mem_cons.mp he with rfl | he
    · obtain ⟨n1, n2⟩ := hn _ (List.mem_cons_self ..)
      have a1 := Nat.mul_le_mul hh.1 n1
      have a2 := Nat.mul_le_mul hh.2 n2
      have b1 := Nat.mul_le_mul (show 87 ≤ 100 - j by omega) a1
      have b2 := Nat.mul_le_mul (show 100 + j ≤ 113 by omega) a2
      have hb : 20000 ≤ e.2 ∧ e.2 ≤ 2000000 := by
        unfold tens at h1 h2
        omega
      have ha := Nat.mul_le_mul hb.1 hlo
      have hc := Nat.mul_le_mul hb.2 (Nat.le_refl f)
      unfold tens
      omega
    · exact ih hT (fun e he => hn e (List.mem_cons_of_mem _ he)) e he

theorem timed_changes {fits : Nat → Nat → Prop} {ys ns : List (Bool × Nat)} (hT : Timed fits ys ns) {b : Bool}
    (h : Changes b ns) : Changes b ys := by
  induction ys generalizing ns b with
  | nil => trivial
  | cons y ys ih =>
    obtain _ | ⟨n, ns⟩ := ns
    · exact hT.elim
    obtain ⟨h1, -, hT⟩ := hT
    obtain ⟨h2, h⟩ := h
    refine ⟨h1.trans h2, ?_⟩
    rw [h1]
    exact ih hT h

theorem timed_mono {u j j' h : Nat} (hj : j ≤ j') {ys ns : List (Bool × Nat)}
    (hT : Timed (fun x n => Near u j (h * n) x) ys ns) : Timed (fun x n => Near u j' (h * n) x) ys ns := by
  induction ys generalizing ns with
  | nil => cases ns <;> exact hT
  | cons y ys ih =>
    obtain _ | ⟨n, ns⟩ := ns
    · exact hT
    exact ⟨hT.1, near_mono hj hT.2.1, ih hT.2.2⟩

theorem manchester_mono {u j j' h : Nat} (hj : j ≤ j') {es ys : List (Bool × Nat)}
    (hM : ManchesterFrame (fun x n => Near u j (h * n) x) es ys) :
    ManchesterFrame (fun x n => Near u j' (h * n) x) es ys := by
  obtain ⟨p, n, ys', es', h1, h2, hT⟩ := hM
  exact ⟨p, n, ys', es', h1, h2, timed_mono hj hT⟩

theorem rest_first {f phase₂ : Nat} (hf : f < 2 ^ 32) (hp : phase₂ < tens) : (rest * f + phase₂) / tens + 1 < 2 ^ 32 := by
  unfold rest
  unfold tens at *
  omega

theorem rest_max {f phase₂ : Nat} (hp : phase₂ < tens) {ys : List (Bool × Nat)}
    (hb : ∀ e ∈ ys, e.2 ≤ 2000000) (hf : f < 2 ^ 32) :
    ∀ e ∈ (true, rest) :: ys, (e.2 * f + phase₂) / tens + 1 < 2 ^ 32 := by
  intro e he
  rcases List.mem_cons.mp he with rfl | he
  · exact rest_first hf hp
  · have h := Nat.mul_le_mul (hb e he) (Nat.le_refl f)
    unfold tens at *
    omega

/-- The polled receiver hears every series of frames within `j` percent. -/
def Spec.Rc5HearsPolled (t : Target) (tbl : PulseSpans) (f j : Nat) : Prop :=
  ∀ (u phase : Nat) (items : List (BitVec 14 × List (Bool × Nat) × Option Nat)) (n : Nat), 0 < u →
    (∀ i ∈ items, i.1.getLsbD 13 = true ∧ ManchesterFrame (fun x n => Near u j (889 * n) x) (rc5Edges i.1) i.2.1) →
    Changes false (items.flatMap fun i => withTail i.2.1 i.2.2) →
    (∀ e ∈ (items.flatMap fun i => withTail i.2.1 i.2.2).tail, u ≤ e.2 * f) →
    (∀ e ∈ items.flatMap fun i => withTail i.2.1 i.2.2, (e.2 * f + phase) / u + 1 < 2 ^ 32) →
    reading u f phase (duration (items.flatMap fun i => withTail i.2.1 i.2.2)) < n →
    (pollRun (rc5Decoder t tbl) (fun c => c)
        (polled u f phase (items.flatMap fun i => withTail i.2.1 i.2.2) n)).map said =
      some (oks (items.map fun i => Rc5Command.unpack (i.1.setWidth 16)))

/-- The polled receiver hears every series of frames within `j` percent. -/
def Spec.Rc6HearsPolled (t : Target) (tbl : PulseSpans) (f j : Nat) : Prop :=
  ∀ (u phase : Nat) (items : List (Rc6Command × List (Bool × Nat) × Option Nat)) (n : Nat), 0 < u →
    (∀ i ∈ items, ManchesterFrame (fun x n => Near u j (444 * n) x)
      (rc6Edges (i.1.addr ++ i.1.cmd) i.1.toggle) i.2.1) →
    Changes false (items.flatMap fun i => withTail i.2.1 i.2.2) →
    (∀ e ∈ (items.flatMap fun i => withTail i.2.1 i.2.2).tail, u ≤ e.2 * f) →
    (∀ e ∈ items.flatMap fun i => withTail i.2.1 i.2.2, (e.2 * f + phase) / u + 1 < 2 ^ 32) →
    reading u f phase (duration (items.flatMap fun i => withTail i.2.1 i.2.2)) < n →
    (pollRun (rc6Decoder t tbl) (fun c => c)
        (polled u f phase (items.flatMap fun i => withTail i.2.1 i.2.2) n)).map said =
      some (oks (items.map fun i => i.1))

theorem rc5_polled_parse {t : Target} (hus : 16 ≤ t.usizeBits) {f : Nat} (hlo : 20000 ≤ f) (hf : f < 2 ^ 32)
    {tbl : PulseSpans} (htbl : rc5Spans t Mono.u32 f = some tbl) {j : Nat} (hj : j ≤ 13)
    (hear : Rc5HearsPolled t tbl f j) : Rc5Parses tbl f j := by
  intro phase ys hT
  obtain ⟨phase₂, hp, hes⟩ := later f phase
  have hb := timed_polled hlo hf hj (by decide) hT (by decide)
  have hch : Changes true ys := timed_changes hT (by simp [Changes, w5Edges])
  have hres := polled_results (D := rc5Decoder t tbl) hch (fun e he => (hb e he).1) (rest_first hf hp) (hes ys) fun n hn => by
    have := hear tens phase₂ [(w5, (true, rest) :: ys, none)] n (by decide) (by
      intro i hi
      rw [List.mem_singleton] at hi
      subst hi
      exact ⟨show w5.getLsbD 13 = true by decide, rest, 1, ys, w5Edges, rfl, w5_edges, hT⟩)
    rw [List.flatMap_cons, List.flatMap_nil, List.append_nil] at this
    exact this ⟨rfl, hch⟩ (fun e he => (hb e he).1.1) (rest_max hp (fun e he => (hb e he).2) hf) hn
  obtain ⟨outs, ho, hsaid⟩ := Option.map_eq_some_iff.mp hres
  rw [C67_rc5 t hus tbl (rc5_length (.inl rfl) hf htbl) _ _ outs ho, res_map_id, List.map_id] at hsaid
  refine ⟨reading tens f phase₂ rest + 1, fun h0 => ?_⟩
  rw [h0] at hsaid
  cases hsaid

/-- **C81**, RC5, polled. -/
theorem C81_rc5_polled (t : Target) (hus : 16 ≤ t.usizeBits) (f : Nat) (hlo : 20000 ≤ f) (hf : f < 2 ^ 32)
    (tbl : PulseSpans) (htbl : rc5Spans t Mono.u32 f = some tbl) (j : Nat) :
    Rc5HearsPolled t tbl f j ↔ coversAll tbl f j rc5Lengths = true := by
  constructor
  · intro hear
    by_cases hj : j ≤ 13
    · exact rc5_hears_covers (.inl rfl) hlo hf htbl hj (rc5_polled_parse hus hlo hf htbl hj hear)
    · have h := rc5_hears_covers (.inl rfl) hlo hf htbl (Nat.le_refl 13)
        (rc5_polled_parse hus hlo hf htbl (Nat.le_refl 13) fun u phase items n hu hok =>
          hear u phase items n hu fun i hi => ⟨(hok i hi).1, manchester_mono (by omega) (hok i hi).2⟩)
      have h0 := coversAll_get h (s := 0) rfl
      rw [not_covers_more (k := .rc5) (.inl rfl) hlo hf htbl (s := 0) rfl (by decide) (by decide)] at h0
      cases h0
  · intro hc u phase items n hu hok hch hmin hmax hn
    exact C78_rc5_polled t hus f j hlo hf tbl htbl hc (fun c => c) u hu phase items hok hch hmin hmax n hn

theorem rc6_polled_parse {t : Target} (hus : 16 ≤ t.usizeBits) {f : Nat} (hlo : 20000 ≤ f) (hf : f < 2 ^ 32)
    {tbl : PulseSpans} (htbl : rc6Spans t Mono.u32 f = some tbl) {j : Nat} (hj : j ≤ 13)
    (hear : Rc6HearsPolled t tbl f j) : Rc6Parses tbl f j := by
  intro phase ys hT
  obtain ⟨phase₂, hp, hes⟩ := later f phase
  have hb := timed_polled hlo hf hj (by decide) hT (by decide)
  have hch : Changes true ys := timed_changes hT (by simp [Changes, w6Edges, w6Head, w6Data])
  have hres := polled_results (D := rc6Decoder t tbl) hch (fun e he => (hb e he).1) (rest_first hf hp) (hes ys) fun n hn => by
    have := hear tens phase₂ [(w6, (true, rest) :: ys, none)] n (by decide) (by
      intro i hi
      rw [List.mem_singleton] at hi
      subst hi
      exact ⟨rest, 0, ys, w6Edges, rfl, w6_edges, hT⟩)
    rw [List.flatMap_cons, List.flatMap_nil, List.append_nil] at this
    exact this ⟨rfl, hch⟩ (fun e he => (hb e he).1.1) (rest_max hp (fun e he => (hb e he).2) hf) hn
  obtain ⟨outs, ho, hsaid⟩ := Option.map_eq_some_iff.mp hres
  rw [C67_rc6 t hus tbl (rc6_length (.inl rfl) hf htbl) _ _ outs ho, res_map_id, List.map_id] at hsaid
  refine ⟨reading tens f phase₂ rest + 1, fun h0 => ?_⟩
  rw [h0] at hsaid
  cases hsaid

/-- **C81**, RC6, polled. -/
theorem C81_rc6_polled (t : Target) (hus : 16 ≤ t.usizeBits) (f : Nat) (hlo : 20000 ≤ f) (hf : f < 2 ^ 32)
    (tbl : PulseSpans) (htbl : rc6Spans t Mono.u32 f = some tbl) (j : Nat) :
    Rc6HearsPolled t tbl f j ↔ coversRc6 tbl f j = true := by
  constructor
  · intro hear
    by_cases hj : j ≤ 13
    · exact rc6_hears_covers (.inl rfl) hlo hf htbl hj (rc6_polled_parse hus hlo hf htbl hj hear)
    · have h := rc6_hears_covers (.inl rfl) hlo hf htbl (Nat.le_refl 13)
        (rc6_polled_parse hus hlo hf htbl (Nat.le_refl 13) fun u phase items n hu hok =>
          hear u phase items n hu fun i hi => manchester_mono (by omega) (hok i hi))
      simp only [coversRc6, Bool.and_eq_true] at h
      have h0 := h.1.1.1.1
      rw [not_covers_more (k := .rc6) (.inl rfl) hlo hf htbl (s := 0) rfl (by decide) (by decide)] at h0
      cases h0
  · intro hc u phase items n hu hok hch hmin hmax hn
    exact C78_rc6_polled t hus f j hlo hf tbl htbl hc (fun c => c) u hu phase items hok hch hmin hmax n hn

/-! ## Limits -/

/-- **C81**, the limits in percent of polled receivers at 20 kHz, 40 kHz and 1 MHz: the receivers hear all transmissions within so many
percent and no more (RC6 hears none at 20 kHz). -/
theorem C81_limits_polled (t : Target) (hus : 16 ≤ t.usizeBits) (j : Nat) :
    (∀ tbl, necSpans t Mono.u32 Infrared.nec 20000 = some tbl → (NecHearsPolled t tbl Infrared.nec 20000 j ↔ j ≤ 6)) ∧
    (∀ tbl, necSpans t Mono.u32 Infrared.nec 40000 = some tbl → (NecHearsPolled t tbl Infrared.nec 40000 j ↔ j ≤ 6)) ∧
    (∀ tbl, necSpans t Mono.u32 Infrared.nec 1000000 = some tbl → (NecHearsPolled t tbl Infrared.nec 1000000 j ↔ j ≤ 6)) ∧
    (∀ tbl, sbpSpans t Mono.u32 20000 = some tbl → (SbpHearsPolled t tbl 20000 j ↔ j ≤ 5)) ∧
    (∀ tbl, sbpSpans t Mono.u32 40000 = some tbl → (SbpHearsPolled t tbl 40000 j ↔ j ≤ 5)) ∧
    (∀ tbl, sbpSpans t Mono.u32 1000000 = some tbl → (SbpHearsPolled t tbl 1000000 j ↔ j ≤ 5)) ∧
    (∀ tbl, denonSpans t Mono.u32 20000 = some tbl → (DenonHearsPolled t tbl 20000 j ↔ j ≤ 1)) ∧
    (∀ tbl, denonSpans t Mono.u32 40000 = some tbl → (DenonHearsPolled t tbl 40000 j ↔ j ≤ 7)) ∧
    (∀ tbl, denonSpans t Mono.u32 1000000 = some tbl → (DenonHearsPolled t tbl 1000000 j ↔ j ≤ 8)) ∧
    (∀ tbl, rc5Spans t Mono.u32 20000 = some tbl → (Rc5HearsPolled t tbl 20000 j ↔ j ≤ 6)) ∧
    (∀ tbl, rc5Spans t Mono.u32 40000 = some tbl → (Rc5HearsPolled t tbl 40000 j ↔ j ≤ 9)) ∧
    (∀ tbl, rc5Spans t Mono.u32 1000000 = some tbl → (Rc5HearsPolled t tbl 1000000 j ↔ j ≤ 9)) ∧
    (∀ tbl, rc6Spans t Mono.u32 20000 = some tbl → ¬ Rc6HearsPolled t tbl 20000 j) ∧
    (∀ tbl, rc6Spans t Mono.u32 40000 = some tbl → (Rc6HearsPolled t tbl 40000 j ↔ j ≤ 6)) ∧
    (∀ tbl, rc6Spans t Mono.u32 1000000 = some tbl → (Rc6HearsPolled t tbl 1000000 j ↔ j ≤ 6)) := by
  have n : ∀ {P : Prop} (f : Nat), 20000 ≤ f → f < 2 ^ 32 → (coversAll (necTable f) f j (necLengths Infrared.nec) = true ↔ P) →
      ∀ tbl, necSpans t Mono.u32 Infrared.nec f = some tbl → (NecHearsPolled t tbl Infrared.nec f j ↔ P) := by
    intro P f h1 h2 h tbl htbl
    cases (necSpans_standard (.inl rfl) t h2 Infrared.nec rfl).symm.trans htbl
    exact (C81_nec_polled t f h1 h2 Infrared.nec (.inl rfl) _ _ C81_nec_telling.1 _ htbl j).trans h
  have s : ∀ {P : Prop} (f : Nat), 20000 ≤ f → f < 2 ^ 32 → (coversAll (sbpTable f) f j sbpLengths = true ↔ P) →
      ∀ tbl, sbpSpans t Mono.u32 f = some tbl → (SbpHearsPolled t tbl f j ↔ P) := by
    intro P f h1 h2 h tbl htbl
    cases (sbpSpans_eq (.inl rfl) t h2).symm.trans htbl
    exact (C81_sbp_polled t f h1 h2 _ htbl j).trans h
  have d : ∀ {P : Prop} (f : Nat), 20000 ≤ f → f < 2 ^ 32 → (coversAll (denonTable f) f j denonLengths = true ↔ P) →
      ∀ tbl, denonSpans t Mono.u32 f = some tbl → (DenonHearsPolled t tbl f j ↔ P) := by
    intro P f h1 h2 h tbl htbl
    cases (denonSpans_eq (.inl rfl) t h2).symm.trans htbl
    exact (C81_denon_polled t f h1 h2 _ htbl j).trans h
  have r : ∀ {P : Prop} (f : Nat), 20000 ≤ f → f < 2 ^ 32 → (coversAll (rc5Table f) f j rc5Lengths = true ↔ P) →
      ∀ tbl, rc5Spans t Mono.u32 f = some tbl → (Rc5HearsPolled t tbl f j ↔ P) := by
    intro P f h1 h2 h tbl htbl
    cases (rc5Spans_eq (.inl rfl) t h2).symm.trans htbl
    exact (C81_rc5_polled t hus f h1 h2 _ htbl j).trans h
  have q : ∀ {P : Prop} (f : Nat), 20000 ≤ f → f < 2 ^ 32 → (coversRc6 (rc6Table f) f j = true ↔ P) →
      ∀ tbl, rc6Spans t Mono.u32 f = some tbl → (Rc6HearsPolled t tbl f j ↔ P) := by
    intro P f h1 h2 h tbl htbl
    cases (rc6Spans_eq (.inl rfl) t h2).symm.trans htbl
    exact (C81_rc6_polled t hus f h1 h2 _ htbl j).trans h
  refine ⟨n _ (by decide) (by decide) (coversAll_iff 6 (by decide +kernel) (by decide +kernel)),
    n _ (by decide) (by decide) (coversAll_iff 6 (by decide +kernel) (by decide +kernel)),
    n _ (by decide) (by decide) (coversAll_iff 6 (by decide +kernel) (by decide +kernel)),
    s _ (by decide) (by decide) (coversAll_iff 5 (by decide +kernel) (by decide +kernel)),
    s _ (by decide) (by decide) (coversAll_iff 5 (by decide +kernel) (by decide +kernel)),
    s _ (by decide) (by decide) (coversAll_iff 5 (by decide +kernel) (by decide +kernel)),
    d _ (by decide) (by decide) (coversAll_iff 1 (by decide +kernel) (by decide +kernel)),
    d _ (by decide) (by decide) (coversAll_iff 7 (by decide +kernel) (by decide +kernel)),
    d _ (by decide) (by decide) (coversAll_iff 8 (by decide +kernel) (by decide +kernel)),
    r _ (by decide) (by decide) (coversAll_iff 6 (by decide +kernel) (by decide +kernel)),
    r _ (by decide) (by decide) (coversAll_iff 9 (by decide +kernel) (by decide +kernel)),
    r _ (by decide) (by decide) (coversAll_iff 9 (by decide +kernel) (by decide +kernel)),
    ?_,
    q _ (by decide) (by decide) (coversRc6_iff 6 (by decide +kernel) (by decide +kernel) j),
    q _ (by decide) (by decide) (coversRc6_iff 6 (by decide +kernel) (by decide +kernel) j)⟩
  intro tbl htbl h
  have := (q 20000 (by decide) (by decide) Iff.rfl tbl htbl).mp h
  rw [(C79_tolerances (C := NecCommand)).2.2.2.2 j] at this
  cases this

/-- The six percent at 40 kHz of NEC are met: the table exists, and the receiver hears within 6 percent but not within
7. -/
example (t : Target) : ∃ tbl, necSpans t .u32 Infrared.nec 40000 = some tbl ∧
    NecHears t .u32 tbl Infrared.nec 40000 6 ∧ ¬ NecHears t .u32 tbl Infrared.nec 40000 7 := by
  have htbl := necSpans_standard (m := .u32) (.inl rfl) t (f := 40000) (by decide) Infrared.nec rfl
  refine ⟨_, htbl, ?_⟩
  have h := fun j => C81_nec t .u32 (.inl rfl) 40000 (by decide) (by decide) Infrared.nec (.inl rfl) _ _
    C81_nec_telling.1 _ htbl j
  exact ⟨(h 6).mpr (by decide +kernel), fun h7 => absurd ((h 7).mp h7) (by decide +kernel)⟩

end Infrared
