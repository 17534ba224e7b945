import Verif.Lemmas.Time

/-!
# C11–C16: tick scaling, tolerance tables, pulse classification
-/

namespace Infrared

/-! ## C11 -/

/-- Nominal period (µs) and tolerance (%) of each symbol, as documented for the protocols. -/
def Spec.necSymbols : List (Nat × Nat) :=
  [(9000 + 4500, 7), (9000 + 2250, 7), (560 + 560, 25), (560 + 1690, 12)]
def Spec.samsungSymbols : List (Nat × Nat) :=
  [(4500 + 4500, 7), (4500 + 2250, 7), (560 + 560, 25), (560 + 1690, 12)]
def Spec.rc5Symbols : List (Nat × Nat) := [(889, 12), (2 * 889, 10)]
def Spec.rc6Symbols : List (Nat × Nat) :=
  [(444, 12), (2 * 444, 12), (3 * 444, 12), (4 * 444, 12), (5 * 444, 12), (6 * 444, 12)]
def Spec.sbpSymbols : List (Nat × Nat) :=
  [(4500 + 4500, 5), (4500 + 500, 5), (500 + 500, 10), (500 + 1500, 10)]
def Spec.denonSymbols : List (Nat × Nat) :=
  [(3400 + 1600, 8), (480 + 360, 10), (480 + 1200, 10)]

/-- `ps` is the table for the given symbols: symbol `i` has the interval
`[n - n*tol/100, n + n*tol/100]` around its tick count `n`, and the other slots only
contain the duration 0. -/
def Spec.TableFor (symbols : List (Nat × Nat)) (f : Nat) (ps : PulseSpans) : Prop :=
  ps.spans.length = 8 ∧
  ∀ (i : Nat) (s : Span), ps.spans[i]? = some s →
    match symbols[i]? with
    | some (l, tol) => ∃ n, scaleWithSamplerate l f = some n ∧
        s.low = n - n * tol / 100 ∧ s.high = n + n * tol / 100
    | none => s.low = 0 ∧ s.high = 0

theorem tableFor_zip (symbols : List (Nat × Nat)) (f : Nat) (hf : f < 2 ^ 32) (n : Nat)
    (hn : symbols.length + n = 8) (h : ∀ pt ∈ symbols, pt.1 ≤ 13500) :
    Spec.TableFor symbols f
      { spans := symbols.map (fun pt => spanOf pt.1 pt.2 f) ++ List.replicate n ⟨0, 0⟩ } := by
  refine ⟨by simpa using hn, ?_⟩
  intro i s hs
  dsimp only at hs
  rcases Nat.lt_or_ge i symbols.length with hi | hi
  · rw [List.getElem?_append_left (by simpa using hi)] at hs
    simp only [List.getElem?_map, List.getElem?_eq_getElem hi, Option.map_some,
      Option.some.injEq] at hs
    rw [List.getElem?_eq_getElem hi]
    have := h _ (List.getElem_mem hi)
    subst hs
    exact ⟨_, scale_eq_some (Nat.le_trans this (by decide)) hf, rfl, rfl⟩
  · rw [List.getElem?_append_right (by simpa using hi)] at hs
    rw [List.getElem?_eq_none hi]
    have := List.mem_of_getElem? hs
    simp only [List.mem_replicate] at this
    simp [this.2]

/-- **C11**: building the table of any shipped protocol succeeds at every frequency, with
either primitive clock, and gives the same documented table in both build profiles. -/
theorem C11_build_total (f : Nat) (hf : f < 2 ^ 32) :
    (∀ t m, (m = Mono.u32 ∨ m = Mono.u64) →
      (∃ ps, necSpans t m nec f = some ps ∧ Spec.TableFor Spec.necSymbols f ps) ∧
      (∃ ps, necSpans t m nec16 f = some ps ∧ Spec.TableFor Spec.necSymbols f ps) ∧
      (∃ ps, necSpans t m appleNec f = some ps ∧ Spec.TableFor Spec.necSymbols f ps) ∧
      (∃ ps, necSpans t m necDebug f = some ps ∧ Spec.TableFor Spec.necSymbols f ps) ∧
      (∃ ps, necSpans t m samsungNec f = some ps ∧ Spec.TableFor Spec.samsungSymbols f ps) ∧
      (∃ ps, rc5Spans t m f = some ps ∧ Spec.TableFor Spec.rc5Symbols f ps) ∧
      (∃ ps, rc6Spans t m f = some ps ∧ Spec.TableFor Spec.rc6Symbols f ps) ∧
      (∃ ps, sbpSpans t m f = some ps ∧ Spec.TableFor Spec.sbpSymbols f ps) ∧
      (∃ ps, denonSpans t m f = some ps ∧ Spec.TableFor Spec.denonSymbols f ps)) := by
  intro t m hm
  have hnec := tableFor_zip Spec.necSymbols f hf 4 rfl (by decide)
  exact ⟨⟨_, necSpans_standard hm t hf _ rfl, hnec⟩,
    ⟨_, necSpans_standard hm t hf _ rfl, hnec⟩,
    ⟨_, necSpans_standard hm t hf _ rfl, hnec⟩,
    ⟨_, necSpans_standard hm t hf _ rfl, hnec⟩,
    ⟨_, necSpans_samsung hm t hf _ rfl, tableFor_zip Spec.samsungSymbols f hf 4 rfl (by decide)⟩,
    ⟨_, rc5Spans_eq hm t hf, tableFor_zip Spec.rc5Symbols f hf 6 rfl (by decide)⟩,
    ⟨_, rc6Spans_eq hm t hf, tableFor_zip Spec.rc6Symbols f hf 2 rfl (by decide)⟩,
    ⟨_, sbpSpans_eq hm t hf, tableFor_zip Spec.sbpSymbols f hf 4 rfl (by decide)⟩,
    ⟨_, denonSpans_eq hm t hf, tableFor_zip Spec.denonSymbols f hf 5 rfl (by decide)⟩⟩

/-- The table does not depend on the build profile, the word size or the primitive clock. -/
theorem C11_build_profile_independent (f : Nat) (hf : f < 2 ^ 32) (t t' : Target) (m m' : Mono)
    (hm : m = Mono.u32 ∨ m = Mono.u64) (hm' : m' = Mono.u32 ∨ m' = Mono.u64) :
    necSpans t m nec f = necSpans t' m' nec f ∧
    necSpans t m nec16 f = necSpans t' m' nec16 f ∧
    necSpans t m appleNec f = necSpans t' m' appleNec f ∧
    necSpans t m necDebug f = necSpans t' m' necDebug f ∧
    necSpans t m samsungNec f = necSpans t' m' samsungNec f ∧
    rc5Spans t m f = rc5Spans t' m' f ∧ rc6Spans t m f = rc6Spans t' m' f ∧
    sbpSpans t m f = sbpSpans t' m' f ∧ denonSpans t m f = denonSpans t' m' f := by
  refine ⟨?_, ?_, ?_, ?_, ?_, ?_, ?_, ?_, ?_⟩
  · rw [necSpans_standard hm t hf _ rfl, necSpans_standard hm' t' hf _ rfl]
  · rw [necSpans_standard hm t hf _ rfl, necSpans_standard hm' t' hf _ rfl]
  · rw [necSpans_standard hm t hf _ rfl, necSpans_standard hm' t' hf _ rfl]
  · rw [necSpans_standard hm t hf _ rfl, necSpans_standard hm' t' hf _ rfl]
  · rw [necSpans_samsung hm t hf _ rfl, necSpans_samsung hm' t' hf _ rfl]
  · rw [rc5Spans_eq hm t hf, rc5Spans_eq hm' t' hf]
  · rw [rc6Spans_eq hm t hf, rc6Spans_eq hm' t' hf]
  · rw [sbpSpans_eq hm t hf, sbpSpans_eq hm' t' hf]
  · rw [denonSpans_eq hm t hf, denonSpans_eq hm' t' hf]

-- 40 kHz: the sync interval is 540 ± 37 ticks.
example : ∃ ps, necSpans ⟨true, 32⟩ .u32 nec 40000 = some ps ∧
    ps.spans[0]? = some ⟨503, 577⟩ := by
  refine ⟨_, necSpans_standard (.inl rfl) _ (by decide) _ rfl, ?_⟩
  decide

/-! ## C12 -/

/-- **C12**: the scaled tick count is at most the exact `l * f / 10^6`, and
`count + 1 ≥ 0.9968 * l * f / 10^6`. -/
theorem C12_scale_accuracy (l f : Nat) (hl : l ≤ 13500) (hf : f < 2 ^ 32) :
    ∃ n, scaleWithSamplerate l f = some n ∧ 1000000 * n ≤ l * f ∧
      9968 * (l * f) ≤ 10000 * 1000000 * (n + 1) := by
  refine ⟨_, scale_eq_some (by omega) hf, scaleVal_le l f, ?_⟩
  exact scaleVal_ge f hl

/-- Below 2^32 / l Hz the tick count is the exact quotient, rounded down. -/
theorem C12_scale_exact (l f : Nat) (h : l * f < 2 ^ 32) :
    scaleWithSamplerate l f = some (l * f / 1000000) := by
  rw [scale_eq, if_pos, scaleVal, if_pos h]
  have := Nat.mul_le_mul_left l (show f / 1000 / 1000 ≤ f by omega)
  omega

example : scaleWithSamplerate 13500 4000000000 = some (13500 * 4000) := by
  rw [scale_eq]; decide
example : scaleWithSamplerate 889 40000 = some 35 := by rw [scale_eq]; decide

/-! ## C13 -/

/-- **C13**: the loop (a total function) panics exactly when `l * (f / 10^6)` does not fit. -/
theorem C13_scale_panics_iff (l f : Nat) :
    scaleWithSamplerate l f = none ↔ 2 ^ 32 ≤ l * (f / 1000000) := by
  rw [scale_eq, Nat.div_div_eq_div_mul, show 1000 * 1000 = 1000000 from rfl]
  split <;> simp <;> omega

/-- Pulse lengths up to one second never panic. -/
theorem C13_scale_no_panic (l f : Nat) (hl : l ≤ 1000000) (hf : f < 2 ^ 32) :
    (scaleWithSamplerate l f).isSome := by
  rw [scale_eq_some hl hf]; rfl

example : scaleWithSamplerate 1100000 4000000000 = none := by
  rw [C13_scale_panics_iff]; decide

/-! ## C14 -/

/-- Classification agrees with membership for the first `n` slots. -/
def Spec.Unambiguous (ps : PulseSpans) (n : Nat) : Prop :=
  ∀ i < n, ∀ d, ps.get d = some i ↔ ∃ s, ps.spans[i]? = some s ∧ s.low ≤ d ∧ d ≤ s.high

/-- If the intervals of a table are pairwise disjoint below slot `n`, classification agrees
with membership there. -/
theorem unambiguous_of_disjoint (ps : PulseSpans) (n : Nat)
    (h : ∀ i j a b, i < j → j < n → ps.spans[i]? = some a → ps.spans[j]? = some b →
      a.high < b.low ∨ b.high < a.low) : Spec.Unambiguous ps n := by
  intro i hi d
  rw [get_eq_iff]
  constructor
  · exact fun hh => hh.1
  · rintro ⟨s, hs, h1, h2⟩
    refine ⟨⟨s, hs, h1, h2⟩, ?_⟩
    intro j hj s' hs' hcon
    have := h j i _ _ hj hi hs' hs
    omega

section
variable (f : Nat) (hf : 20000 ≤ f)
include hf

/-- **C14**, standard NEC timing. -/
theorem nec_unambiguous : Spec.Unambiguous (necTable f) 4 := by
  apply unambiguous_of_disjoint
  have h0 := scaleVal_le 13500 f
  have h0' := scaleVal_ge f (l := 13500) (by decide)
  have h1 := scaleVal_le 11250 f
  have h1' := scaleVal_ge f (l := 11250) (by decide)
  have h2 := scaleVal_le 1120 f
  have h2' := scaleVal_ge f (l := 1120) (by decide)
  have h3 := scaleVal_le 2250 f
  have h3' := scaleVal_ge f (l := 2250) (by decide)
  intro i j a b hij hj ha hb
  have : (i = 0 ∨ i = 1 ∨ i = 2) ∧ (j = 1 ∨ j = 2 ∨ j = 3) := by omega
  rcases this with ⟨rfl | rfl | rfl, rfl | rfl | rfl⟩ <;>
    simp [necTable] at ha hb hij <;> subst ha <;> subst hb <;> simp only [spanOf] <;> omega

theorem samsung_unambiguous : Spec.Unambiguous (samsungTable f) 4 := by
  apply unambiguous_of_disjoint
  have h0 := scaleVal_le 9000 f
  have h0' := scaleVal_ge f (l := 9000) (by decide)
  have h1 := scaleVal_le 6750 f
  have h1' := scaleVal_ge f (l := 6750) (by decide)
  have h2 := scaleVal_le 1120 f
  have h2' := scaleVal_ge f (l := 1120) (by decide)
  have h3 := scaleVal_le 2250 f
  have h3' := scaleVal_ge f (l := 2250) (by decide)
  intro i j a b hij hj ha hb
  have : (i = 0 ∨ i = 1 ∨ i = 2) ∧ (j = 1 ∨ j = 2 ∨ j = 3) := by omega
  rcases this with ⟨rfl | rfl | rfl, rfl | rfl | rfl⟩ <;>
    simp [samsungTable] at ha hb hij <;> subst ha <;> subst hb <;> simp only [spanOf] <;> omega

theorem rc5_unambiguous : Spec.Unambiguous (rc5Table f) 2 := by
  apply unambiguous_of_disjoint
  have h0 := scaleVal_le 889 f
  have h0' := scaleVal_ge f (l := 889) (by decide)
  have h1 := scaleVal_le 1778 f
  have h1' := scaleVal_ge f (l := 1778) (by decide)
  intro i j a b hij hj ha hb
  obtain ⟨rfl, rfl⟩ : i = 0 ∧ j = 1 := by omega
  simp [rc5Table] at ha hb
  subst ha; subst hb; simp only [spanOf]; omega

theorem sbp_unambiguous : Spec.Unambiguous (sbpTable f) 4 := by
  apply unambiguous_of_disjoint
  have h0 := scaleVal_le 9000 f
  have h0' := scaleVal_ge f (l := 9000) (by decide)
  have h1 := scaleVal_le 5000 f
  have h1' := scaleVal_ge f (l := 5000) (by decide)
  have h2 := scaleVal_le 1000 f
  have h2' := scaleVal_ge f (l := 1000) (by decide)
  have h3 := scaleVal_le 2000 f
  have h3' := scaleVal_ge f (l := 2000) (by decide)
  intro i j a b hij hj ha hb
  have : (i = 0 ∨ i = 1 ∨ i = 2) ∧ (j = 1 ∨ j = 2 ∨ j = 3) := by omega
  rcases this with ⟨rfl | rfl | rfl, rfl | rfl | rfl⟩ <;>
    simp [sbpTable] at ha hb hij <;> subst ha <;> subst hb <;> simp only [spanOf] <;> omega

theorem denon_unambiguous : Spec.Unambiguous (denonTable f) 3 := by
  apply unambiguous_of_disjoint
  have h0 := scaleVal_le 5000 f
  have h0' := scaleVal_ge f (l := 5000) (by decide)
  have h1 := scaleVal_le 840 f
  have h1' := scaleVal_ge f (l := 840) (by decide)
  have h2 := scaleVal_le 1680 f
  have h2' := scaleVal_ge f (l := 1680) (by decide)
  intro i j a b hij hj ha hb
  have : (i = 0 ∨ i = 1) ∧ (j = 1 ∨ j = 2) := by omega
  rcases this with ⟨rfl | rfl, rfl | rfl⟩ <;>
    simp [denonTable] at ha hb hij <;> subst ha <;> subst hb <;> simp only [spanOf] <;> omega

/-- RC6: one to four units are unambiguous. -/
theorem rc6_unambiguous : Spec.Unambiguous (rc6Table f) 4 := by
  apply unambiguous_of_disjoint
  have h0 := scaleVal_le 444 f
  have h0' := scaleVal_ge f (l := 444) (by decide)
  have h1 := scaleVal_le 888 f
  have h1' := scaleVal_ge f (l := 888) (by decide)
  have h2 := scaleVal_le 1332 f
  have h2' := scaleVal_ge f (l := 1332) (by decide)
  have h3 := scaleVal_le 1776 f
  have h3' := scaleVal_ge f (l := 1776) (by decide)
  intro i j a b hij hj ha hb
  have : (i = 0 ∨ i = 1 ∨ i = 2) ∧ (j = 1 ∨ j = 2 ∨ j = 3) := by omega
  rcases this with ⟨rfl | rfl | rfl, rfl | rfl | rfl⟩ <;>
    simp [rc6Table] at ha hb hij <;> subst ha <;> subst hb <;> simp only [spanOf] <;> omega

end

/-- **C14**: at every frequency of at least 20 kHz, a duration is classified as a symbol of
NEC (all variants with standard timing), Samsung, RC5, SBP or Denon iff it lies in the
interval of that symbol. -/
theorem C14_classification_unambiguous (f : Nat) (hlo : 20000 ≤ f) (hf : f < 2 ^ 32) (t : Target)
    (m : Mono) (hm : m = Mono.u32 ∨ m = Mono.u64) :
    (∀ ps, necSpans t m nec f = some ps → Spec.Unambiguous ps 4) ∧
    (∀ ps, necSpans t m nec16 f = some ps → Spec.Unambiguous ps 4) ∧
    (∀ ps, necSpans t m appleNec f = some ps → Spec.Unambiguous ps 4) ∧
    (∀ ps, necSpans t m necDebug f = some ps → Spec.Unambiguous ps 4) ∧
    (∀ ps, necSpans t m samsungNec f = some ps → Spec.Unambiguous ps 4) ∧
    (∀ ps, rc5Spans t m f = some ps → Spec.Unambiguous ps 2) ∧
    (∀ ps, sbpSpans t m f = some ps → Spec.Unambiguous ps 4) ∧
    (∀ ps, denonSpans t m f = some ps → Spec.Unambiguous ps 3) := by
  rw [necSpans_standard hm t hf nec rfl, necSpans_standard hm t hf nec16 rfl,
    necSpans_standard hm t hf appleNec rfl, necSpans_standard hm t hf necDebug rfl,
    necSpans_samsung hm t hf _ rfl, rc5Spans_eq hm t hf, sbpSpans_eq hm t hf,
    denonSpans_eq hm t hf]
  simp only [Option.some.injEq, forall_eq']
  exact ⟨nec_unambiguous f hlo, nec_unambiguous f hlo, nec_unambiguous f hlo,
    nec_unambiguous f hlo, samsung_unambiguous f hlo, rc5_unambiguous f hlo,
    sbp_unambiguous f hlo, denon_unambiguous f hlo⟩

-- At 40 kHz the NEC table is unambiguous; 90 ticks (2250 µs) is a one and nothing else.
example : Spec.Unambiguous (necTable 40000) 4 ∧ (necTable 40000).get 90 = some 3 :=
  ⟨nec_unambiguous _ (by decide), by decide⟩

/-! ## C15 -/

/-- **C15** (partial): durations within 12 % of one to four RC6 units are classified as such.
For five and six units this holds for the part of the interval not claimed by the next
smaller symbol.  Missing: the overlap, see `C15_rc6_overlap`. -/
theorem C15_rc6_classification_partial (f : Nat) (hlo : 20000 ≤ f) (hf : f < 2 ^ 32) (t : Target)
    (m : Mono) (hm : m = Mono.u32 ∨ m = Mono.u64) (ps : PulseSpans)
    (hps : rc6Spans t m f = some ps) :
    Spec.Unambiguous ps 4 ∧
    (∀ d, ps.get d = some 4 ↔ ∃ s s4, ps.spans[4]? = some s ∧ ps.spans[3]? = some s4 ∧
      s4.high < d ∧ s.low ≤ d ∧ d ≤ s.high) ∧
    (∀ d, ps.get d = some 5 ↔ ∃ s s5, ps.spans[5]? = some s ∧ ps.spans[4]? = some s5 ∧
      s5.high < d ∧ s.low ≤ d ∧ d ≤ s.high) := by
  rw [rc6Spans_eq hm t hf, Option.some.injEq] at hps
  subst hps
  refine ⟨rc6_unambiguous f hlo, ?_, ?_⟩
  all_goals
    have h0 := scaleVal_le 444 f
    have h0' := scaleVal_ge f (l := 444) (by decide)
    have h1 := scaleVal_le 888 f
    have h1' := scaleVal_ge f (l := 888) (by decide)
    have h2 := scaleVal_le 1332 f
    have h2' := scaleVal_ge f (l := 1332) (by decide)
    have h3 := scaleVal_le 1776 f
    have h3' := scaleVal_ge f (l := 1776) (by decide)
    have h4 := scaleVal_le 2220 f
    have h4' := scaleVal_ge f (l := 2220) (by decide)
    have h5 := scaleVal_le 2664 f
    have h5' := scaleVal_ge f (l := 2664) (by decide)
    intro d
    rw [get_eq_iff]
    constructor
    · rintro ⟨⟨s, hs, hc1, hc2⟩, hlt⟩
      have ha := hlt 3 (by omega) _ rfl
      try have hb := hlt 4 (by omega) _ rfl
      refine ⟨_, _, rfl, rfl, ?_⟩
      simp only [rc6Table, List.getElem?_cons_succ, List.getElem?_cons_zero,
        Option.some.injEq] at hs
      subst hs
      simp only [spanOf] at hc1 hc2 ha ⊢
      try simp only [spanOf] at hb
      omega
    · rintro ⟨s, s4, hs, hs4, hd1, hd2, hd3⟩
      refine ⟨⟨s, hs, hd2, hd3⟩, ?_⟩
      simp only [rc6Table, List.getElem?_cons_succ, List.getElem?_cons_zero,
        Option.some.injEq] at hs hs4
      subst hs; subst hs4
      simp only [spanOf] at hd1 hd2 hd3
      intro j hj s hs
      have : j = 0 ∨ j = 1 ∨ j = 2 ∨ j = 3 ∨ j = 4 := by omega
      rcases this with rfl | rfl | rfl | rfl | rfl <;>
        simp only [rc6Table, List.getElem?_cons_succ, List.getElem?_cons_zero,
          Option.some.injEq] at hs <;> subst hs <;> simp only [spanOf] <;> omega

/-- Exact multiples of the unit, up to −10 %/+12 % (five units) and −6 %/+12 % (six units)
are still classified correctly: with `u` the exact unit in ticks × 10^6. -/
theorem C15_rc6_nominal_partial (f : Nat) (hlo : 100000 ≤ f) (hf : f < 2 ^ 32) (t : Target)
    (m : Mono) (hm : m = Mono.u32 ∨ m = Mono.u64) (ps : PulseSpans)
    (hps : rc6Spans t m f = some ps) (k d : Nat) (hk1 : 1 ≤ k) (hk6 : k ≤ 6)
    (hlow : 95 * (k * 444 * f) ≤ 100 * 1000000 * d)
    (hhigh : 100 * 1000000 * d ≤ 108 * (k * 444 * f)) : ps.get d = some (k - 1) := by
  obtain ⟨hu, h5, h6⟩ := C15_rc6_classification_partial f (by omega) hf t m hm ps hps
  rw [rc6Spans_eq hm t hf, Option.some.injEq] at hps
  subst hps
  have g0 := scaleVal_le 444 f
  have g0' := scaleVal_ge f (l := 444) (by decide)
  have g1 := scaleVal_le 888 f
  have g1' := scaleVal_ge f (l := 888) (by decide)
  have g2 := scaleVal_le 1332 f
  have g2' := scaleVal_ge f (l := 1332) (by decide)
  have g3 := scaleVal_le 1776 f
  have g3' := scaleVal_ge f (l := 1776) (by decide)
  have g4 := scaleVal_le 2220 f
  have g4' := scaleVal_ge f (l := 2220) (by decide)
  have g5 := scaleVal_le 2664 f
  have g5' := scaleVal_ge f (l := 2664) (by decide)
  have : k = 1 ∨ k = 2 ∨ k = 3 ∨ k = 4 ∨ k = 5 ∨ k = 6 := by omega
  rcases this with rfl | rfl | rfl | rfl | rfl | rfl
  · rw [hu _ (by omega)]; refine ⟨_, rfl, ?_⟩; simp only [spanOf]; omega
  · rw [hu _ (by omega)]; refine ⟨_, rfl, ?_⟩; simp only [spanOf]; omega
  · rw [hu _ (by omega)]; refine ⟨_, rfl, ?_⟩; simp only [spanOf]; omega
  · rw [hu _ (by omega)]; refine ⟨_, rfl, ?_⟩; simp only [spanOf]; omega
  · rw [h5]; refine ⟨_, _, rfl, rfl, ?_⟩; simp only [spanOf]; omega
  · rw [h6]; refine ⟨_, _, rfl, rfl, ?_⟩; simp only [spanOf]; omega

/-- **C15** is false as stated: 1960 µs is within 12 % of five units (2220 µs) but a 1 MHz
receiver classifies it as four units; 2450 µs is within 12 % of six units but is
classified as five. -/
theorem C15_rc6_overlap :
    ∃ ps, rc6Spans ⟨true, 32⟩ Mono.u32 1000000 = some ps ∧
      (∃ s, ps.spans[4]? = some s ∧ s.low ≤ 1960 ∧ 1960 ≤ s.high ∧ ps.get 1960 = some 3) ∧
      (∃ s, ps.spans[5]? = some s ∧ s.low ≤ 2450 ∧ 2450 ≤ s.high ∧ ps.get 2450 = some 4) := by
  refine ⟨_, rc6Spans_eq (.inl rfl) _ (by decide), ⟨_, rfl, ?_⟩, ⟨_, rfl, ?_⟩⟩ <;> decide

example : (rc6Table 1000000).get 2220 = some 4 ∧ (rc6Table 1000000).get 2664 = some 5 := by
  decide

/-! ## C16 -/

/-- **C16**, first half: on any table of non-empty intervals `check_overlaps` is true iff some
duration lies in two different intervals. -/
theorem C16_check_overlaps_iff (ps : PulseSpans) (h : ∀ s ∈ ps.spans, s.low ≤ s.high) :
    ps.checkOverlaps = true ↔
      ∃ (d i j : Nat) (a b : Span), i ≠ j ∧ ps.spans[i]? = some a ∧ ps.spans[j]? = some b ∧
        (a.low ≤ d ∧ d ≤ a.high) ∧ (b.low ≤ d ∧ d ≤ b.high) := by
  unfold PulseSpans.checkOverlaps
  simp only [List.any_eq_true, List.mem_range, Bool.and_eq_true, bne_iff_ne]
  constructor
  · rintro ⟨i, hi, j, hj, hij, hov⟩
    rw [List.getElem?_eq_getElem hi, List.getElem?_eq_getElem hj] at hov
    simp only [Span.overlaps, Span.contains, Bool.or_eq_true, Bool.and_eq_true,
      decide_eq_true_eq] at hov
    have hb := h _ (List.getElem_mem hj)
    rcases hov with hov | hov
    · exact ⟨(ps.spans[j]'hj).low, i, j, _, _, hij, List.getElem?_eq_getElem hi,
        List.getElem?_eq_getElem hj, hov, Nat.le_refl _, hb⟩
    · exact ⟨(ps.spans[j]'hj).high, i, j, _, _, hij, List.getElem?_eq_getElem hi,
        List.getElem?_eq_getElem hj, hov, hb, Nat.le_refl _⟩
  · rintro ⟨d, i, j, a, b, hij, ha, hb, ⟨h1, h2⟩, ⟨h3, h4⟩⟩
    obtain ⟨hi, -⟩ := List.getElem?_eq_some_iff.mp ha
    obtain ⟨hj, -⟩ := List.getElem?_eq_some_iff.mp hb
    by_cases hle : a.low ≤ b.low
    · refine ⟨i, hi, j, hj, hij, ?_⟩
      rw [ha, hb]
      simp only [Span.overlaps, Span.contains, Bool.or_eq_true, Bool.and_eq_true,
        decide_eq_true_eq]
      omega
    · refine ⟨j, hj, i, hi, hij.symm, ?_⟩
      rw [ha, hb]
      simp only [Span.overlaps, Span.contains, Bool.or_eq_true, Bool.and_eq_true,
        decide_eq_true_eq]
      omega

example : PulseSpans.checkOverlaps ⟨[⟨1, 5⟩, ⟨5, 9⟩]⟩ = true ∧
    PulseSpans.checkOverlaps ⟨[⟨1, 5⟩, ⟨6, 9⟩]⟩ = false := by decide

theorem checkOverlaps_of_slots (ps : PulseSpans) (h6 : ps.spans[6]? = some ⟨0, 0⟩)
    (h7 : ps.spans[7]? = some ⟨0, 0⟩) : ps.checkOverlaps = true := by
  unfold PulseSpans.checkOverlaps
  simp only [List.any_eq_true, List.mem_range, Bool.and_eq_true, bne_iff_ne]
  obtain ⟨h6', -⟩ := List.getElem?_eq_some_iff.mp h6
  obtain ⟨h7', -⟩ := List.getElem?_eq_some_iff.mp h7
  exact ⟨6, h6', 7, h7', by decide, by rw [h6, h7]; rfl⟩

/-- **C16**, second half is false: for every shipped protocol and every frequency
`check_overlaps` reports an overlap. -/
theorem C16_check_overlaps_useless (f : Nat) (hf : f < 2 ^ 32) (t : Target) (m : Mono)
    (hm : m = Mono.u32 ∨ m = Mono.u64) :
    (∀ ps, necSpans t m nec f = some ps → ps.checkOverlaps = true) ∧
    (∀ ps, necSpans t m samsungNec f = some ps → ps.checkOverlaps = true) ∧
    (∀ ps, rc5Spans t m f = some ps → ps.checkOverlaps = true) ∧
    (∀ ps, rc6Spans t m f = some ps → ps.checkOverlaps = true) ∧
    (∀ ps, sbpSpans t m f = some ps → ps.checkOverlaps = true) ∧
    (∀ ps, denonSpans t m f = some ps → ps.checkOverlaps = true) := by
  rw [necSpans_standard hm t hf nec rfl, necSpans_samsung hm t hf _ rfl, rc5Spans_eq hm t hf,
    rc6Spans_eq hm t hf, sbpSpans_eq hm t hf, denonSpans_eq hm t hf]
  simp only [Option.some.injEq, forall_eq']
  refine ⟨?_, ?_, ?_, ?_, ?_, ?_⟩ <;> exact checkOverlaps_of_slots _ rfl rfl

end Infrared
