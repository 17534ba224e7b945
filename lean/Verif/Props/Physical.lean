import Verif.Spec.Physical
import Verif.Lemmas.Windows
import Verif.Props.Nec
import Verif.Props.Sbp
import Verif.Props.Denon
import Verif.Props.Rc5
import Verif.Props.Rc6

/-!
# Windows in microseconds (C52) and real-time robustness (C53)
-/

namespace Infrared

open Spec

variable {C K : Type}

/-! ## C52: the windows are the documented ones -/

/-- The table a receiver of that kind is built with. -/
def Spec.Kind.build (k : Kind) (t : Target) (m : Mono) (f : Nat) : Option PulseSpans :=
  match k with
  | .nec => necSpans t m Infrared.nec f
  | .samsung => necSpans t m samsungNec f
  | .rc5 => rc5Spans t m f
  | .rc6 => rc6Spans t m f
  | .sbp => sbpSpans t m f
  | .denon => denonSpans t m f

/-- The other NEC-family receivers are built with the same table as the standard one. -/
theorem C52_nec_variants (t : Target) (m : Mono) (f : Nat) :
    necSpans t m nec16 f = Kind.build .nec t m f ∧ necSpans t m appleNec f = Kind.build .nec t m f ∧
      necSpans t m necDebug f = Kind.build .nec t m f := ⟨rfl, rfl, rfl⟩

/-- The tables of `Lemmas/Tables.lean`. -/
def tableOf (f : Nat) : Kind → PulseSpans
  | .nec => necTable f
  | .samsung => samsungTable f
  | .rc5 => rc5Table f
  | .rc6 => rc6Table f
  | .sbp => sbpTable f
  | .denon => denonTable f

theorem build_get {m : Mono} (hm : m = Mono.u32 ∨ m = Mono.u64) (t : Target) {f : Nat}
    (hf : f < 2 ^ 32) (k : Kind) {tbl : PulseSpans} (htbl : k.build t m f = some tbl) (i : Nat) :
    (∀ l tol, k.symbols[i]? = some (l, tol) →
      tbl.spans[i]? = some (spanOf l tol f) ∧ l ≤ 13500 ∧ tol ≤ 100) ∧
    (k.symbols[i]? = none → ∀ s, tbl.spans[i]? = some s → s = ⟨0, 0⟩) := by
  have e : tbl = tableOf f k := by
    apply Option.some.inj
    rw [← htbl]
    cases k with
    | nec => exact necSpans_standard hm t hf _ rfl
    | samsung => exact necSpans_samsung hm t hf _ rfl
    | rc5 => exact rc5Spans_eq hm t hf
    | rc6 => exact rc6Spans_eq hm t hf
    | sbp => exact sbpSpans_eq hm t hf
    | denon => exact denonSpans_eq hm t hf
  subst e
  have hi : i = 0 ∨ i = 1 ∨ i = 2 ∨ i = 3 ∨ i = 4 ∨ i = 5 ∨ i = 6 ∨ i = 7 ∨ 8 ≤ i := by omega
  cases k <;> rcases hi with rfl | rfl | rfl | rfl | rfl | rfl | rfl | rfl | hi <;>
    constructor
  all_goals first
    | (intro l tol hs; cases hs <;> exact ⟨rfl, by decide, by decide⟩)
    | (intro hs; cases hs; done)
    | (intro _ s hs; cases hs <;> rfl)
    | (intro _ s hs
       rw [List.getElem?_eq_none (Nat.le_trans (Nat.le_refl 8) hi)] at hs
       cases hs)
    | (intro l tol hs
       rw [List.getElem?_eq_none (Nat.le_trans (by decide : _ ≤ 8) hi)] at hs
       cases hs)

/-- **C52**, acceptance: a duration between `(100 - tol) %` of the nominal length and
`99.68 * (100 + tol) %` of it minus `(100 + tol) %` of a tick is accepted as that symbol. -/
theorem C52_accepts (k : Kind) (t : Target) (m : Mono) (hm : m = Mono.u32 ∨ m = Mono.u64)
    (f : Nat) (hf : f < 2 ^ 32) (tbl : PulseSpans) (htbl : k.build t m f = some tbl)
    (i l tol : Nat) (hs : k.symbols[i]? = some (l, tol)) (d : Nat)
    (h1 : (100 - tol) * l * f ≤ 100000000 * d)
    (h2 : 1000000000000 * d + 10000000000 * (100 + tol) ≤ 9968 * ((100 + tol) * l * f)) :
    InTol tbl i d := by
  obtain ⟨hsp, hl, ht⟩ := (build_get hm t hf k htbl i).1 l tol hs
  exact ⟨_, hsp, span_mem hl ht h1 h2⟩

/-- **C52**, rejection: a duration longer than `(100 + tol) %` of the nominal length, or shorter than
`99.68 * (100 - tol) %` of it minus a tick, is not accepted as that symbol; nothing but a zero
duration is accepted by the unused slots of the table. -/
theorem C52_rejects (k : Kind) (t : Target) (m : Mono) (hm : m = Mono.u32 ∨ m = Mono.u64)
    (f : Nat) (hf : f < 2 ^ 32) (tbl : PulseSpans) (htbl : k.build t m f = some tbl)
    (i d : Nat) (h : InTol tbl i d) :
    (∀ l tol, k.symbols[i]? = some (l, tol) → 100000000 * d ≤ (100 + tol) * l * f ∧
      9968 * ((100 - tol) * l * f) ≤ 10000000000 * (100 * d + (100 - tol))) ∧
    (k.symbols[i]? = none → d = 0) := by
  obtain ⟨s, hs, h1, h2⟩ := h
  refine ⟨fun l tol hsym => ?_, fun hsym => ?_⟩
  · obtain ⟨hsp, hl, ht⟩ := (build_get hm t hf k htbl i).1 l tol hsym
    rw [hsp, Option.some.injEq] at hs
    subst hs
    have a := span_hi h2
    have b := span_lo hl ht h1
    rw [Nat.mul_comm l] at a b
    exact ⟨a, b⟩
  · obtain rfl := (build_get hm t hf k htbl i).2 hsym s hs
    simp only at h1 h2
    omega

/-- Non-vacuity: at 1 MHz NEC zero bits from 840 to 1394 µs are accepted for sure, and nothing
above 1400 µs. -/
example (t : Target) : InTol (necTable 1000000) 2 840 ∧ InTol (necTable 1000000) 2 1394 ∧
    ¬ InTol (necTable 1000000) 2 1401 := by
  have hb : Kind.build .nec t Mono.u32 1000000 = some (necTable 1000000) :=
    necSpans_standard (f := 1000000) (.inl rfl) t (by decide) Infrared.nec rfl
  refine ⟨C52_accepts .nec t _ (.inl rfl) _ (by decide) _ hb 2 1120 25 rfl _ (by decide) (by decide),
    C52_accepts .nec t _ (.inl rfl) _ (by decide) _ hb 2 1120 25 rfl _ (by decide) (by decide),
    fun h => ?_⟩
  have := ((C52_rejects .nec t _ (.inl rfl) _ (by decide) _ hb 2 _ h).1 1120 25 rfl).1
  omega

/-! ## C53: real time -/

theorem reading_bounds {u : Nat} (hu : 0 < u) (f phase t x : Nat) :
    u * (reading u f phase (t + x) - reading u f phase t) ≤ x * f + u ∧
    x * f ≤ u * (reading u f phase (t + x) - reading u f phase t) + u := by
  unfold reading
  rw [Nat.add_mul]
  have a := Nat.div_add_mod (t * f + phase) u
  have b := Nat.div_add_mod (t * f + x * f + phase) u
  have a' := Nat.mod_lt (t * f + phase) hu
  have b' := Nat.mod_lt (t * f + x * f + phase) hu
  have c : (t * f + phase) / u ≤ (t * f + x * f + phase) / u := Nat.div_le_div_right (by omega)
  rw [Nat.mul_sub]
  have c' := Nat.mul_le_mul_left u c
  omega

theorem reading_mono (u f phase t x : Nat) : reading u f phase t ≤ reading u f phase (t + x) := by
  unfold reading
  rw [Nat.add_mul]
  exact Nat.div_le_div_right (by omega)

/-- A physical duration near a symbol is measured inside the symbol's window, provided the clock is
fast enough. -/
theorem between_accept {u f phase t x d lo hi l tol : Nat} (hu : 0 < u)
    (hn : lo * l * u ≤ 100000000 * x ∧ 100000000 * x ≤ hi * l * u)
    (hd : d = reading u f phase (t + x) - reading u f phase t)
    (c1 : (100 - tol) * l * f + 100000000 ≤ lo * l * f)
    (c2 : 10000 * (hi * l * f) + 1000000000000 + 10000000000 * (100 + tol) ≤
      9968 * ((100 + tol) * l * f)) :
    (100 - tol) * l * f ≤ 100000000 * d ∧
    1000000000000 * d + 10000000000 * (100 + tol) ≤ 9968 * ((100 + tol) * l * f) := by
  obtain ⟨b1, b2⟩ := reading_bounds hu f phase t x
  rw [← hd] at b1 b2
  obtain ⟨n1, n2⟩ := hn
  have m1 : lo * l * u * f ≤ 100000000 * x * f := Nat.mul_le_mul_right _ n1
  have m2 : 100000000 * x * f ≤ hi * l * u * f := Nat.mul_le_mul_right _ n2
  have e1 : lo * l * u * f = u * (lo * l * f) := by
    rw [Nat.mul_comm _ u, Nat.mul_assoc u]
  have e2 : hi * l * u * f = u * (hi * l * f) := by
    rw [Nat.mul_comm _ u, Nat.mul_assoc u]
  have e3 : 100000000 * x * f = 100000000 * (x * f) := Nat.mul_assoc _ _ _
  have g1 : lo * l * f ≤ 100000000 * d + 100000000 := by
    refine Nat.le_of_mul_le_mul_left (c := u) ?_ hu
    rw [Nat.mul_add, Nat.mul_left_comm u 100000000, Nat.mul_comm u 100000000]
    omega
  have g2 : 100000000 * d ≤ hi * l * f + 100000000 := by
    refine Nat.le_of_mul_le_mul_left (c := u) ?_ hu
    rw [Nat.mul_add, Nat.mul_left_comm u 100000000, Nat.mul_comm u 100000000]
    omega
  omega

theorem near_accept {u f phase t x d j l tol : Nat} (hu : 0 < u) (hn : Near u j l x)
    (hd : d = reading u f phase (t + x) - reading u f phase t)
    (c1 : (100 - tol) * l * f + 100000000 ≤ (100 - j) * l * f)
    (c2 : 10000 * ((100 + j) * l * f) + 1000000000000 + 10000000000 * (100 + tol) ≤
      9968 * ((100 + tol) * l * f)) :
    (100 - tol) * l * f ≤ 100000000 * d ∧
    1000000000000 * d + 10000000000 * (100 + tol) ≤ 9968 * ((100 + tol) * l * f) :=
  between_accept hu hn hd c1 c2

/-- The pulses measured for physical pulses. -/
def clockedPulses (u f phase : Nat) : Nat → List (Nat × Nat) → List (Nat × Nat)
  | _, [] => []
  | t, (h, l) :: ps =>
    (reading u f phase (t + h) - reading u f phase t,
      reading u f phase (t + h + l) - reading u f phase (t + h)) ::
      clockedPulses u f phase (t + h + l) ps

theorem clocked_pulses (u f phase t : Nat) (ps : List (Nat × Nat)) :
    clocked u f phase t (pulses ps) = pulses (clockedPulses u f phase t ps) := by
  induction ps generalizing t with
  | nil => rfl
  | cons p ps ih => simp only [pulses, clocked, clockedPulses, ih]

theorem clockedPulses_length (u f phase t : Nat) (ps : List (Nat × Nat)) :
    (clockedPulses u f phase t ps).length = ps.length := by
  induction ps generalizing t with
  | nil => rfl
  | cons p ps ih => simp [clockedPulses, ih]

theorem clockedPulses_get (u f phase t : Nat) (ps : List (Nat × Nat)) (i : Nat) (q : Nat × Nat)
    (h : (clockedPulses u f phase t ps)[i]? = some q) :
    ∃ p t', ps[i]? = some p ∧
      q.1 + q.2 = reading u f phase (t' + (p.1 + p.2)) - reading u f phase t' := by
  induction ps generalizing t i with
  | nil => simp [clockedPulses] at h
  | cons p ps ih =>
    rcases i with _ | i
    · simp only [clockedPulses, List.getElem?_cons_zero, Option.some.injEq] at h
      subst h
      refine ⟨p, t, rfl, ?_⟩
      have a := reading_mono u f phase t p.1
      have b := reading_mono u f phase (t + p.1) p.2
      rw [← Nat.add_assoc]
      simp only
      omega
    · simp only [clockedPulses, List.getElem?_cons_succ] at h
      exact ih _ _ h

/-- Physical periods near their nominal lengths are measured inside the windows of the slots. -/
theorem matches_of_near {u : Nat} (hu : 0 < u) {k : Kind} {t : Target} {m : Mono} (hm : m = Mono.u32 ∨ m = Mono.u64)
    {f : Nat} (hf : f < 2 ^ 32) {tbl : PulseSpans} (htbl : k.build t m f = some tbl) {j : Nat}
    {us slots : List Nat} (hlen : us.length = slots.length)
    (hok : ∀ (i l s : Nat), us[i]? = some l → slots[i]? = some s → ∃ tol, k.symbols[s]? = some (l, tol) ∧
      (100 - tol) * l * f + 100000000 ≤ (100 - j) * l * f ∧
      10000 * ((100 + j) * l * f) + 1000000000000 + 10000000000 * (100 + tol) ≤
        9968 * ((100 + tol) * l * f))
    {ps : List (Nat × Nat)} (h : NearPeriods u j us ps) (phase t0 : Nat) :
    Matches tbl slots (clockedPulses u f phase t0 ps) := by
  refine ⟨by rw [clockedPulses_length, h.1, hlen], fun i q s hq hs => ?_⟩
  obtain ⟨p, t', hp, hsum⟩ := clockedPulses_get u f phase t0 ps i q hq
  have hi : i < us.length := hlen ▸ (List.getElem?_eq_some_iff.mp hs).1
  have hl := List.getElem?_eq_getElem hi
  obtain ⟨tol, h1, h2, h3⟩ := hok i _ s hl hs
  obtain ⟨a, b⟩ := near_accept hu (h.2 i p _ hp hl) hsum h2 h3
  exact C52_accepts k t m hm f hf tbl htbl s _ tol h1 _ a b

/-- The same with limits for each symbol. -/
theorem matches_of_between {u : Nat} (hu : 0 < u) {k : Kind} {t : Target} {m : Mono} (hm : m = Mono.u32 ∨ m = Mono.u64)
    {f : Nat} (hf : f < 2 ^ 32) {tbl : PulseSpans} (htbl : k.build t m f = some tbl) {lim : Nat → Nat × Nat}
    {us slots : List Nat} (hlen : us.length = slots.length)
    (hok : ∀ (i l s : Nat), us[i]? = some l → slots[i]? = some s → ∃ tol, k.symbols[s]? = some (l, tol) ∧
      (100 - tol) * l * f + 100000000 ≤ (lim l).1 * l * f ∧
      10000 * ((lim l).2 * l * f) + 1000000000000 + 10000000000 * (100 + tol) ≤
        9968 * ((100 + tol) * l * f))
    {ps : List (Nat × Nat)} (h : PeriodsBetween u lim us ps) (phase t0 : Nat) :
    Matches tbl slots (clockedPulses u f phase t0 ps) := by
  refine ⟨by rw [clockedPulses_length, h.1, hlen], fun i q s hq hs => ?_⟩
  obtain ⟨p, t', hp, hsum⟩ := clockedPulses_get u f phase t0 ps i q hq
  have hi : i < us.length := hlen ▸ (List.getElem?_eq_some_iff.mp hs).1
  have hl := List.getElem?_eq_getElem hi
  obtain ⟨tol, h1, h2, h3⟩ := hok i _ s hl hs
  obtain ⟨a, b⟩ := between_accept hu (h.2 i p _ hp hl) hsum h2 h3
  exact C52_accepts k t m hm f hf tbl htbl s _ tol h1 _ a b

/-- NEC slots as a list. -/
def necSlots (w : BitVec 32) : List Nat :=
  0 :: (List.range 32).map fun i => if w.getLsbD i then 3 else 2

theorem necFrame_of_matches {tbl : PulseSpans} {w : BitVec 32} {ps : List (Nat × Nat)}
    (h : Matches tbl (necSlots w) ps) : NecFrame tbl w ps := by
  refine ⟨by rw [h.1]; simp [necSlots], fun p hp => h.2 0 p 0 hp rfl, fun i p hp => ?_⟩
  have hi : i < 32 := by
    have := (List.getElem?_eq_some_iff.mp hp).1
    rw [h.1] at this
    simp [necSlots] at this
    omega
  exact h.2 (i + 1) p _ hp (by simp [necSlots, List.getElem?_range hi])

/-- Relating the nominal lengths of bits to their slots. -/
theorem bits_ok {P : Nat → Nat → Prop} (n : Nat) (b : Nat → Bool) (l1 l0 s1 s0 : Nat) (h1 : P l1 s1)
    (h0 : P l0 s0) (i l s : Nat) (hl : ((List.range n).map fun i => if b i then l1 else l0)[i]? = some l)
    (hs : ((List.range n).map fun i => if b i then s1 else s0)[i]? = some s) : P l s := by
  rw [List.getElem?_map] at hl hs
  rcases hr : (List.range n)[i]? with _ | x
  · simp [hr] at hl
  · rw [hr] at hl hs
    simp only [Option.map_some, Option.some.injEq] at hl hs
    cases hb : b x <;> simp only [hb] at hl hs <;> subst hl <;> subst hs
    · exact h0
    · exact h1

theorem append_ok {P : Nat → Nat → Prop} {l1 l2 s1 s2 : List Nat} (hlen : l1.length = s1.length)
    (h1 : ∀ (i l s : Nat), l1[i]? = some l → s1[i]? = some s → P l s)
    (h2 : ∀ (i l s : Nat), l2[i]? = some l → s2[i]? = some s → P l s) (i l s : Nat)
    (hl : (l1 ++ l2)[i]? = some l) (hs : (s1 ++ s2)[i]? = some s) : P l s := by
  by_cases hi : i < l1.length
  · rw [List.getElem?_append_left hi] at hl
    rw [List.getElem?_append_left (by omega)] at hs
    exact h1 i l s hl hs
  · rw [List.getElem?_append_right (by omega)] at hl hs
    rw [hlen] at hl
    exact h2 _ l s hl hs

theorem single_ok {P : Nat → Nat → Prop} {a b : Nat} (h : P a b) (i l s : Nat)
    (hl : [a][i]? = some l) (hs : [b][i]? = some s) : P l s := by
  rcases i with _ | i
  · simp only [List.getElem?_cons_zero, Option.some.injEq] at hl hs
    subst hl; subst hs; exact h
  · simp at hl

/-- **C53**, NEC family with standard timing: every transmission whose periods (mark plus space, in
real time) are within 5 % of the documented lengths is decoded by an idle receiver, for every clock
of at least 20 kHz and every phase of the transmission relative to the clock. -/
theorem C53_nec_real_time (u : Nat) (hu : 0 < u) (t : Target) (m : Mono) (hm : m = Mono.u32 ∨ m = Mono.u64)
    (f : Nat) (hlo : 20000 ≤ f) (hf : f < 2 ^ 32) (v : NecVariant C) (hv : v.pulseDistance = necStandardTiming)
    (tbl : PulseSpans) (htbl : necSpans t m v f = some tbl) (conv : C → K)
    (r : Receiver (necDecoder t m tbl v)) (hidle : NecDecoder.state r.decoder = .init)
    (w : BitVec 32) (ps : List (Nat × Nat)) (h : NearPeriods u 5 (necPeriods (9000 + 4500) w) ps)
    (phase t0 : Nat) :
    ∃ r', r.run _ conv (clocked u f phase t0 (pulses ps)) = some (r', List.replicate 65 (.ok none) ++
        [.ok ((v.unpack w false).map conv)]) ∧
      NecDecoder.state r'.decoder = .init := by
  have hb : Kind.build .nec t m f = some tbl := by
    rw [← htbl, necSpans_standard hm t hf v hv]
    exact necSpans_standard hm t hf _ rfl
  rw [clocked_pulses]
  refine C17_nec_frame_decoded t m hm f hlo hf v (.inl hv) tbl htbl conv r hidle w _
    (necFrame_of_matches (matches_of_near hu hm hf hb (by simp [necPeriods, necSlots]) ?_ h phase t0))
  refine append_ok (l1 := [9000 + 4500]) (s1 := [0]) rfl (single_ok ⟨7, rfl, ?_, ?_⟩) (bits_ok 32 _ _ _ _ _
    ⟨12, rfl, ?_, ?_⟩ ⟨25, rfl, ?_, ?_⟩) <;> omega

/-- **C53**, Samsung. -/
theorem C53_samsung_real_time (u : Nat) (hu : 0 < u) (t : Target) (m : Mono) (hm : m = Mono.u32 ∨ m = Mono.u64)
    (f : Nat) (hlo : 20000 ≤ f) (hf : f < 2 ^ 32)
    (tbl : PulseSpans) (htbl : necSpans t m samsungNec f = some tbl) (conv : SamsungNecCommand → K)
    (r : Receiver (necDecoder t m tbl samsungNec)) (hidle : NecDecoder.state r.decoder = .init)
    (w : BitVec 32) (ps : List (Nat × Nat)) (h : NearPeriods u 5 (necPeriods (4500 + 4500) w) ps)
    (phase t0 : Nat) :
    ∃ r', r.run _ conv (clocked u f phase t0 (pulses ps)) = some (r', List.replicate 65 (.ok none) ++
        [.ok ((samsungNec.unpack w false).map conv)]) ∧
      NecDecoder.state r'.decoder = .init := by
  rw [clocked_pulses]
  refine C17_nec_frame_decoded t m hm f hlo hf _ (.inr rfl) tbl htbl conv r hidle w _
    (necFrame_of_matches (matches_of_near (k := .samsung) hu hm hf htbl (by simp [necPeriods, necSlots]) ?_ h phase t0))
  refine append_ok (l1 := [4500 + 4500]) (s1 := [0]) rfl (single_ok ⟨7, rfl, ?_, ?_⟩) (bits_ok 32 _ _ _ _ _
    ⟨12, rfl, ?_, ?_⟩ ⟨25, rfl, ?_, ?_⟩) <;> omega

/-- Periods within the limits make a frame as measured by any clock of 20 kHz or more. -/
theorem necFrame_of_between {u : Nat} (hu : 0 < u) {t : Target} {m : Mono} (hm : m = Mono.u32 ∨ m = Mono.u64)
    {f : Nat} (hlo : 20000 ≤ f) (hf : f < 2 ^ 32) {v : NecVariant C} (hv : v.Shipped) {tbl : PulseSpans}
    (htbl : necSpans t m v f = some tbl) {w : BitVec 32} {ps : List (Nat × Nat)}
    (h : PeriodsBetween u necLimits (necPeriods (v.pulseDistance.headerHigh + v.pulseDistance.headerLow) w) ps)
    (phase t0 : Nat) : NecFrame tbl w (clockedPulses u f phase t0 ps) := by
  rcases hv with hv | hv
  · have hb : Kind.build .nec t m f = some tbl := by
      rw [← htbl, necSpans_standard hm t hf v hv]
      exact necSpans_standard hm t hf _ rfl
    rw [hv] at h
    refine necFrame_of_matches (matches_of_between hu hm hf hb
      (us := necPeriods (9000 + 4500) w) (by simp [necPeriods, necSlots]) ?_ h phase t0)
    refine append_ok (l1 := [9000 + 4500]) (s1 := [0]) rfl (single_ok ⟨7, rfl, ?_, ?_⟩)
      (bits_ok 32 _ _ _ _ _ ⟨12, rfl, ?_, ?_⟩ ⟨25, rfl, ?_, ?_⟩) <;> simp only [necLimits] <;>
      norm_num <;> omega
  · have hb : Kind.build .samsung t m f = some tbl := by
      rw [← htbl, necSpans_samsung hm t hf v hv]
      exact necSpans_samsung hm t hf _ rfl
    rw [hv] at h
    refine necFrame_of_matches (matches_of_between hu hm hf hb
      (us := necPeriods (4500 + 4500) w) (by simp [necPeriods, necSlots]) ?_ h phase t0)
    refine append_ok (l1 := [4500 + 4500]) (s1 := [0]) rfl (single_ok ⟨7, rfl, ?_, ?_⟩)
      (bits_ok 32 _ _ _ _ _ ⟨12, rfl, ?_, ?_⟩ ⟨25, rfl, ?_, ?_⟩) <;> simp only [necLimits] <;>
      norm_num <;> omega

/-- **C53**, NEC family, in terms of what each symbol may deviate: an idle receiver of 20 kHz or more
decodes every transmission with a sync period of 94 to 105 %, zeros of 80 to 114 % and ones of 91 to
106 % of the documented length. -/
theorem C53_nec_limits (u : Nat) (hu : 0 < u) (t : Target) (m : Mono) (hm : m = Mono.u32 ∨ m = Mono.u64)
    (f : Nat) (hlo : 20000 ≤ f) (hf : f < 2 ^ 32) (v : NecVariant C) (hv : v.Shipped)
    (tbl : PulseSpans) (htbl : necSpans t m v f = some tbl) (conv : C → K)
    (r : Receiver (necDecoder t m tbl v)) (hidle : NecDecoder.state r.decoder = .init)
    (w : BitVec 32) (ps : List (Nat × Nat))
    (h : PeriodsBetween u necLimits (necPeriods (v.pulseDistance.headerHigh + v.pulseDistance.headerLow) w) ps)
    (phase t0 : Nat) :
    ∃ r', r.run _ conv (clocked u f phase t0 (pulses ps)) = some (r', List.replicate 65 (.ok none) ++
        [.ok ((v.unpack w false).map conv)]) ∧
      NecDecoder.state r'.decoder = .init := by
  rw [clocked_pulses]
  exact C17_nec_frame_decoded t m hm f hlo hf v hv tbl htbl conv r hidle w _
    (necFrame_of_between hu hm hlo hf hv htbl h phase t0)

/-- **C53**, SBP: periods within 3 %, clock of at least 40 kHz. -/
theorem C53_sbp_real_time (u : Nat) (hu : 0 < u) (t : Target) (m : Mono) (hm : m = Mono.u32 ∨ m = Mono.u64)
    (f : Nat) (hlo : 40000 ≤ f) (hf : f < 2 ^ 32) (tbl : PulseSpans)
    (htbl : sbpSpans t m f = some tbl) (conv : SbpCommand → K) (before : List Ev)
    (o : List (Res K)) (r : Receiver (sbpDecoder t m tbl))
    (hreach : (Receiver.new (sbpDecoder t m tbl)).run _ conv before = some (r, o))
    (hidle : SbpDecoder.state r.decoder = .init)
    (a : BitVec 16) (w : BitVec 20) (ps : List (Nat × Nat)) (h : NearPeriods u 3 (sbpPeriods a w) ps)
    (phase t0 : Nat) :
    ∃ r', r.run _ conv (clocked u f phase t0 (pulses ps)) = some (r', List.replicate 75 (.ok none) ++
        [.ok (some (conv (SbpCommand.unpack a (w.setWidth 32))))]) ∧
      SbpDecoder.state r'.decoder = .init := by
  rw [clocked_pulses]
  refine C22_sbp_frame_decoded t m hm f (by omega) hf tbl htbl conv before o r hreach hidle a w _
    (matches_of_near (k := .sbp) hu hm hf htbl (by simp [sbpPeriods, sbpSlots]) ?_ h phase t0)
  unfold sbpPeriods sbpSlots
  refine append_ok (by simp) (append_ok (by simp) (append_ok (by simp) (single_ok ⟨5, rfl, ?_, ?_⟩)
    (bits_ok 16 _ _ _ _ _ ⟨10, rfl, ?_, ?_⟩ ⟨10, rfl, ?_, ?_⟩)) (single_ok ⟨5, rfl, ?_, ?_⟩))
    (bits_ok 20 _ _ _ _ _ ⟨10, rfl, ?_, ?_⟩ ⟨10, rfl, ?_, ?_⟩) <;> omega

/-- **C53**, Denon: periods within 3 %, clock of at least 40 kHz, for a receiver that is new or has
just returned a command (see C23 for why); bit 47 of the word is lost (C23). -/
theorem C53_denon_real_time (u : Nat) (hu : 0 < u) (t : Target) (m : Mono) (hm : m = Mono.u32 ∨ m = Mono.u64)
    (f : Nat) (hlo : 40000 ≤ f) (hf : f < 2 ^ 32) (tbl : PulseSpans)
    (htbl : denonSpans t m f = some tbl) (conv : DenonCommand → K) (before : List Ev)
    (o : List (Res K)) (r : Receiver (denonDecoder t m tbl))
    (hreach : (Receiver.new (denonDecoder t m tbl)).run _ conv before = some (r, o))
    (hclean : before = [] ∨ ∃ k, o.getLast? = some (.ok (some k)))
    (w : BitVec 48) (ps : List (Nat × Nat)) (h : NearPeriods u 3 (denonPeriods w) ps)
    (phase t0 : Nat) :
    ∃ r', r.run _ conv (clocked u f phase t0 (pulses ps)) = some (r', List.replicate 97 (.ok none) ++
        [.ok (some (conv { bits := (w.setWidth 47).setWidth 64 }))]) ∧
      DenonDecoder.state r'.decoder = .idle := by
  rw [clocked_pulses]
  refine C23_denon_frame_partial t m hm f (by omega) hf tbl htbl conv before [] o [] r r hreach hclean
    rfl (by simp [periods, periodsFrom]) w _
    (matches_of_near (k := .denon) hu hm hf htbl (by simp [denonPeriods, denonSlots]) ?_ h phase t0)
  unfold denonPeriods denonSlots
  refine append_ok (by simp) (single_ok ⟨8, rfl, ?_, ?_⟩)
    (bits_ok 48 _ _ _ _ _ ⟨10, rfl, ?_, ?_⟩ ⟨10, rfl, ?_, ?_⟩) <;> omega

/-- Edges on time in real time are on time for the clock. -/
theorem clocked_timed {u f phase : Nat} {R R' : Nat → Nat → Prop} {ws : List (Bool × Nat)}
    (hi : ∀ t ns w, w ∈ ws → R ns w.2 → R' (reading u f phase (t + ns) - reading u f phase t) w.2)
    {es : List (Bool × Nat)} (t0 : Nat) (h : Timed R es ws) : Timed R' (clocked u f phase t0 es) ws := by
  induction es generalizing ws t0 with
  | nil => cases ws with
    | nil => trivial
    | cons w ws => exact h.elim
  | cons e es ih => cases ws with
    | nil => exact h.elim
    | cons w ws =>
      exact ⟨h.1, hi _ _ w (by simp) h.2.1, ih (fun t ns w hw => hi t ns w (by simp [hw])) _ h.2.2⟩

theorem clocked_length (u f phase t : Nat) (es : List (Bool × Nat)) :
    (clocked u f phase t es).length = es.length := by
  induction es generalizing t with
  | nil => rfl
  | cons e es ih => simp [clocked, ih]

/-- Near one or two half-bits is measured as that. -/
theorem rc5_near_within {u : Nat} (hu : 0 < u) {t : Target} {m : Mono} (hm : m = Mono.u32 ∨ m = Mono.u64)
    {f : Nat} (hlo : 40000 ≤ f) (hf : f < 2 ^ 32) {tbl : PulseSpans} (htbl : rc5Spans t m f = some tbl)
    (phase t' : Nat) {n ns : Nat} (h12 : n = 1 ∨ n = 2) (hn : Near u 5 (889 * n) ns) :
    Within tbl (reading u f phase (t' + ns) - reading u f phase t') n := by
  rcases h12 with h1 | h1 <;> rw [h1] at hn ⊢
  · obtain ⟨a, b⟩ := near_accept hu (f := f) (phase := phase) (t := t') (tol := 12) hn rfl (by omega) (by omega)
    exact C52_accepts .rc5 t m hm f hf tbl htbl 0 _ 12 rfl _ a b
  · obtain ⟨a, b⟩ := near_accept hu (f := f) (phase := phase) (t := t') (tol := 10) hn rfl (by omega) (by omega)
    exact C52_accepts .rc5 t m hm f hf tbl htbl 1 _ 10 rfl _ a b

/-- Near one, two, three or six units is measured as that. -/
theorem rc6_near_within {u : Nat} (hu : 0 < u) {t : Target} {m : Mono} (hm : m = Mono.u32 ∨ m = Mono.u64)
    {f : Nat} (hlo : 80000 ≤ f) (hf : f < 2 ^ 32) {tbl : PulseSpans} (htbl : rc6Spans t m f = some tbl)
    (phase t' : Nat) {n ns : Nat} (h12 : n = 1 ∨ n = 2 ∨ n = 3 ∨ n = 6) (hn : Near u 5 (444 * n) ns) :
    WithinRc6 tbl (reading u f phase (t' + ns) - reading u f phase t') n := by
  have key : ∀ i l, 444 ≤ l → (Kind.symbols .rc6)[i]? = some (l, 12) →
      Near u 5 l ns → InTol tbl i (reading u f phase (t' + ns) - reading u f phase t') := by
    intro i l hl hs hn'
    have hlf : 444 * 80000 ≤ l * f := Nat.mul_le_mul hl hlo
    obtain ⟨a, b⟩ := near_accept hu (f := f) (phase := phase) (t := t') (tol := 12) hn' rfl
      (by simp only [Nat.mul_assoc]; omega) (by simp only [Nat.mul_assoc]; omega)
    exact C52_accepts .rc6 t m hm f hf tbl htbl i l 12 hs _ a b
  rcases h12 with h1 | h1 | h1 | h1 <;> rw [h1] at hn ⊢
  · exact ⟨key 0 _ (by decide) rfl hn, by simp⟩
  · exact ⟨key 1 _ (by decide) rfl hn, by simp⟩
  · exact ⟨key 2 _ (by decide) rfl hn, by simp⟩
  · refine ⟨key 5 _ (by decide) rfl hn, fun _ h5 => ?_⟩
    have hr := ((C52_rejects .rc6 t m hm f hf tbl htbl 4 _ h5).1 _ _ rfl).1
    have hb := (reading_bounds hu f phase t' ns).2
    have hm' := Nat.mul_le_mul_right f hn.1
    rw [Nat.mul_comm _ u, Nat.mul_assoc u, Nat.mul_assoc 100000000] at hm'
    have : (100 - 5) * (444 * 6) * f ≤
        100000000 * (reading u f phase (t' + ns) - reading u f phase t') + 100000000 := by
      refine Nat.le_of_mul_le_mul_left (c := u) ?_ hu
      rw [Nat.mul_add, Nat.mul_left_comm u 100000000, Nat.mul_comm u 100000000]
      omega
    omega

/-- **C53**, RC5: every edge within 5 % of its distance from the previous one, clock of at least
40 kHz. -/
theorem C53_rc5_real_time (u : Nat) (hu : 0 < u) (t : Target) (hus : 16 ≤ t.usizeBits) (m : Mono)
    (hm : m = Mono.u32 ∨ m = Mono.u64) (f : Nat) (hlo : 40000 ≤ f) (hf : f < 2 ^ 32)
    (tbl : PulseSpans) (htbl : rc5Spans t m f = some tbl) (conv : Rc5Command → K)
    (before : List Ev) (o : List (Res K)) (r : Receiver (rc5Decoder t tbl))
    (hreach : (Receiver.new (rc5Decoder t tbl)).run _ conv before = some (r, o))
    (hidle : Rc5Decoder.state r.decoder = .idle) (w : BitVec 14) (hw : w.getLsbD 13 = true)
    (es : List (Bool × Nat))
    (hsafe : t.overflowChecks = false ∨ 8 * (before.length + es.length) < 2 ^ t.usizeBits)
    (h : ManchesterFrame (fun ns n => Near u 5 (889 * n) ns) (rc5Edges w) es) (phase t0 : Nat) :
    ∃ r', r.run _ conv (clocked u f phase t0 es) = some (r', List.replicate (es.length - 1) (.ok none) ++
        [.ok (some (conv (Rc5Command.unpack (w.setWidth 16))))]) ∧
      Rc5Decoder.state r'.decoder = .idle := by
  rw [← clocked_length u f phase t0 es] at hsafe ⊢
  refine C24_rc5_frame_decoded t hus m hm f (by omega) hf tbl htbl conv before o r hreach hidle w hw _
    hsafe ?_
  obtain ⟨pause, n, es', edges', rfl, he, ht⟩ := h
  refine ⟨_, n, _, edges', rfl, he, clocked_timed ?_ _ ht⟩
  intro t' ns e hmem hn
  rw [rc5Edges_eq w hw] at he
  simp only [List.cons.injEq, Prod.mk.injEq, true_and] at he
  obtain ⟨-, rfl⟩ := he
  exact rc5_near_within hu hm hlo hf htbl phase t' (rc5_edges_len w 13 true e hmem) hn

/-- **C53**, RC6 mode 0: every edge within 5 % of its distance from the previous one, clock of at
least 80 kHz. -/
theorem C53_rc6_real_time (u : Nat) (hu : 0 < u) (t : Target) (hus : 16 ≤ t.usizeBits) (m : Mono)
    (hm : m = Mono.u32 ∨ m = Mono.u64) (f : Nat) (hlo : 80000 ≤ f) (hf : f < 2 ^ 32)
    (tbl : PulseSpans) (htbl : rc6Spans t m f = some tbl) (conv : Rc6Command → K)
    (before : List Ev) (o : List (Res K)) (r : Receiver (rc6Decoder t tbl))
    (hreach : (Receiver.new (rc6Decoder t tbl)).run _ conv before = some (r, o))
    (hidle : Rc6Decoder.state r.decoder = .idle) (addr cmd : BitVec 8) (toggle : Bool)
    (es : List (Bool × Nat))
    (hsafe : t.overflowChecks = false ∨ 8 * (before.length + es.length) < 2 ^ t.usizeBits)
    (h : ManchesterFrame (fun ns n => Near u 5 (444 * n) ns) (rc6Edges (addr ++ cmd) toggle) es)
    (phase t0 : Nat) :
    ∃ r', r.run _ conv (clocked u f phase t0 es) = some (r', List.replicate (es.length - 1) (.ok none) ++
        [.ok (some (conv { addr, cmd, toggle }))]) ∧
      Rc6Decoder.state r'.decoder = .idle := by
  rw [← clocked_length u f phase t0 es] at hsafe ⊢
  refine C26_rc6_frame_decoded t hus m hm f (by omega) hf tbl htbl conv before o r hreach hidle addr
    cmd toggle _ hsafe ?_
  obtain ⟨pause, n, es', edges', rfl, he, ht⟩ := h
  refine ⟨_, n, _, edges', rfl, he, clocked_timed ?_ _ ht⟩
  intro t' ns e hmem hn
  rw [rc6Edges, rc6Edges_eq 0 (.inl rfl)] at he
  simp only [List.cons.injEq, Prod.mk.injEq, true_and] at he
  obtain ⟨-, rfl⟩ := he
  exact rc6_near_within hu hm hlo hf htbl phase t' (rc6_edges_len (addr ++ cmd) toggle e hmem) hn

/-! ### Non-vacuity of C53: a jittered NEC transmission seen by a 38 kHz clock, and nominal ones -/

instance (u j us ns : Nat) : Decidable (Near u j us ns) := inferInstanceAs (Decidable (_ ∧ _))

theorem nearPeriods_zip {u j : Nat} {us : List Nat} {ps : List (Nat × Nat)}
    (h : ps.length = us.length ∧ ∀ x ∈ ps.zip us, Near u j x.2 (x.1.1 + x.1.2)) :
    NearPeriods u j us ps := by
  refine ⟨h.1, fun i p l hp hl => h.2 (p, l) ?_⟩
  exact List.mem_of_getElem? (i := i) (List.getElem?_zip_eq_some.mpr ⟨hp, hl⟩)

/-- Pulses in ns with the given periods in µs: a mark of 500 µs, and a period `k / 1000` of the
nominal one. -/
def jittered (k : Nat) (us : List Nat) : List (Nat × Nat) := us.map fun l => (500000, k * l - 500000)

/-- NEC address 0, command 1, every period 4 % too long, at 38 kHz, whatever the phase. -/
example (t : Target) (phase t0 : Nat) : ∃ r', (Receiver.new (necDecoder t Mono.u32 (necTable 38000) Infrared.nec)).run _ id
      (clocked 1000000000 38000 phase t0 (pulses (jittered 1040 (necPeriods 13500 0xfe01ff00#32)))) =
    some (r', List.replicate 65 (.ok none) ++ [.ok (some ⟨0, 1, false⟩)]) := by
  obtain ⟨r', h, -⟩ := C53_nec_real_time 1000000000 (by decide) t Mono.u32 (.inl rfl) 38000 (by decide) (by decide) Infrared.nec rfl
    _ (necSpans_standard (.inl rfl) t (by decide) _ rfl) id (Receiver.new _) rfl 0xfe01ff00#32
    (jittered 1040 (necPeriods 13500 0xfe01ff00#32)) (nearPeriods_zip (by decide +kernel)) phase t0
  exact ⟨r', h⟩

example (w : BitVec 32) (hw : w = 0x12345678#32) :
    NearPeriods 1000000000 5 (necPeriods 9000 w) (jittered 960 (necPeriods 9000 w)) := by
  subst hw; exact nearPeriods_zip (by decide +kernel)

example : NearPeriods 1000000000 3 (sbpPeriods 0x1234#16 0x54321#20) (jittered 975 (sbpPeriods 0x1234#16 0x54321#20)) :=
  nearPeriods_zip (by decide +kernel)

example : NearPeriods 1000000000 3 (denonPeriods 0x123456789abc#48) (jittered 1025 (denonPeriods 0x123456789abc#48)) :=
  nearPeriods_zip (by decide +kernel)

theorem timed_scaled (c j u : Nat) (h : ∀ n, Near 1000000000 j (u * n) (c * (u * n))) (es : List (Bool × Nat)) :
    Timed (fun ns n => Near 1000000000 j (u * n) ns) (es.map fun e => (e.1, c * (u * e.2))) es := by
  induction es with
  | nil => trivial
  | cons e es ih => exact ⟨rfl, h _, ih⟩

/-- RC5 and RC6 transmissions 4 % too slow. -/
example (w : BitVec 14) (hw : w.getLsbD 13 = true) : ∃ es,
    ManchesterFrame (fun ns n => Near 1000000000 5 (889 * n) ns) (rc5Edges w) es := by
  rw [rc5Edges_eq w hw]
  refine ⟨(true, 0) :: _, 0, _, _, _, rfl, rfl, timed_scaled 1040 5 889 ?_ _⟩
  intro n
  unfold Near
  omega

example (w : BitVec 16) (tg : Bool) : ∃ es,
    ManchesterFrame (fun ns n => Near 1000000000 5 (444 * n) ns) (rc6Edges w tg) es := by
  rw [rc6Edges, rc6Edges_eq 0 (.inl rfl)]
  refine ⟨(true, 0) :: _, 0, _, _, _, rfl, rfl, timed_scaled 1040 5 444 ?_ _⟩
  intro n
  unfold Near
  omega

end Infrared
