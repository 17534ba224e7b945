import Verif.Lemmas.Fugit

/-!
# Receivers with a fugit clock (C63, C64)
-/

namespace Infrared

open Spec

variable {C K : Type} {hz w : Nat} {micros : Nat → Option Nat} {since : Nat → Nat → Option Nat}

/-! ## C63: the tables -/

/-- **C63**: with a fugit clock of any frequency, building a receiver of any shipped protocol does not panic, and
neither the frequency argument, which such a clock ignores, nor the build profile changes the windows: they are the
documented tolerances around the documented lengths, up to the rounding of one tick; unused slots accept nothing but
zero. -/
theorem C63_build (hc : FugitClock hz w micros since) (hw : 32 ≤ w) (hz' : hz < 2 ^ 32)
    (t t' : Target) (f f' : Nat) (k : Kind) :
    ∃ tbl, k.build t (Mono.fugit w micros since) f = some tbl ∧
      k.build t' (Mono.fugit w micros since) f' = some tbl ∧
      (∀ i l tol, k.symbols[i]? = some (l, tol) → ∀ d,
        ((100 - tol) * (l * hz + 1000000) ≤ 100000000 * d →
          100000000 * d + (100 + tol) * 1000000 ≤ (100 + tol) * (l * hz) → InTol tbl i d) ∧
        (InTol tbl i d → 100000000 * d ≤ (100 + tol) * (l * hz + 1000000) ∧
          (100 - tol) * (l * hz) ≤ 100000000 * d + (100 - tol) * 1000000)) ∧
      ∀ i d, k.symbols[i]? = none → InTol tbl i d → d = 0 := by
  refine ⟨_, fugit_build hc hw hz' t f k, fugit_build hc hw hz' t' f' k, ?_, ?_⟩
  · intro i l tol hs d
    obtain ⟨hl, ht⟩ := symbols_small k hs
    have hr := (ticks_spec hc hl).2
    refine ⟨fun h1 h2 => ⟨_, fugit_get k hs, spanN_mem hr h1 h2⟩, ?_⟩
    rintro ⟨s, h1, h2⟩
    rw [fugit_get k hs, Option.some.injEq] at h1
    subst h1
    exact spanN_bounds (by omega) hr h2
  · rintro i d hs ⟨s, h1, h2, h3⟩
    rw [fugit_get_none k hs h1] at h2 h3
    simp only at h2 h3
    omega

/-- **C63**: at 20 kHz or more (RC6: 40 kHz) a duration is taken for a symbol iff it lies in its window; RC6 symbols
beyond four units as in C15. -/
theorem C63_unambiguous (hc : FugitClock hz w micros since) (hw : 32 ≤ w) (hz' : hz < 2 ^ 32)
    (hlo : 20000 ≤ hz) (t : Target) (f : Nat) (k : Kind) (h6 : k = .rc6 → 40000 ≤ hz)
    (tbl : PulseSpans) (htbl : k.build t (Mono.fugit w micros since) f = some tbl) :
    ∀ i, i < k.symbols.length → (k = .rc6 → i < 4) → ∀ d, tbl.get d = some i ↔ InTol tbl i d := by
  rw [fugit_build hc hw hz' t f k, Option.some.injEq] at htbl
  subst htbl
  intro i hi h4 d
  refine fugit_unambiguous hc k hlo h6 i ?_ d
  cases k <;> simp [Kind.symbols, Kind.distinct] at hi h4 ⊢ <;> omega

/-- The NEC-family receivers have the tables of the two timings. -/
theorem nec_kind (v : NecVariant C) (hv : v.Shipped) :
    ∃ k : Kind, (k = .nec ∧ v.pulseDistance = necStandardTiming ∨
      k = .samsung ∧ v.pulseDistance = necSamsungTiming) ∧
      ∀ t m f, necSpans t m v f = k.build t m f := by
  rcases hv with hv | hv
  · exact ⟨.nec, .inl ⟨rfl, hv⟩, fun t m f => by simp only [Kind.build, necSpans, hv]; rfl⟩
  · exact ⟨.samsung, .inr ⟨rfl, hv⟩, fun t m f => by simp only [Kind.build, necSpans, hv]; rfl⟩

theorem fugit_nec_good (hc : FugitClock hz w micros since) (hw : 32 ≤ w) (hz' : hz < 2 ^ 32)
    (hlo : 20000 ≤ hz) (t : Target) (f : Nat) (v : NecVariant C) (hv : v.Shipped) (tbl : PulseSpans)
    (htbl : necSpans t (Mono.fugit w micros since) v f = some tbl) :
    Unambiguous tbl 4 ∧ Fits tbl w := by
  obtain ⟨k, hk, he⟩ := nec_kind v hv
  rw [he, fugit_build hc hw hz' t f k, Option.some.injEq] at htbl
  subst htbl
  have hu := fugit_unambiguous hc k hlo (by rcases hk with ⟨rfl, -⟩ | ⟨rfl, -⟩ <;> simp)
  refine ⟨?_, fugit_fits hc hw hz' k⟩
  rcases hk with ⟨rfl, -⟩ | ⟨rfl, -⟩ <;> exact hu

/-- **C63**, NEC family: as C56, with a fugit clock. -/
theorem C63_nec_series (hc : FugitClock hz w micros since) (hw : 32 ≤ w) (hz' : hz < 2 ^ 32)
    (hlo : 20000 ≤ hz) (t : Target) (f : Nat) (v : NecVariant C) (hv : v.Shipped) (tbl : PulseSpans)
    (htbl : necSpans t (Mono.fugit w micros since) v f = some tbl) (conv : C → K)
    (g : Nat) (hg : Pause tbl w [0, 1] (0, g)) (items : List (NecItem × (Nat × Nat)))
    (hok : ∀ i ∈ items, i.1.Ok tbl ∧ Pause tbl w [0, 1] i.2) :
    (results (necDecoder t (Mono.fugit w micros since) tbl v) conv
        ((true, g) :: series NecItem.wire items)).map said =
      some (oks ((necHeard v.unpack 0 (items.map Prod.fst)).map conv)) := by
  obtain ⟨hu, hfit⟩ := fugit_nec_good hc hw hz' hlo t f v hv tbl htbl
  exact nec_series_results t _ (Mono.fugit_lawful w micros since) tbl hu hfit v conv g hg items hok

/-- **C63**, SBP. -/
theorem C63_sbp_series (hc : FugitClock hz w micros since) (hw : 32 ≤ w) (hz' : hz < 2 ^ 32)
    (hlo : 20000 ≤ hz) (t : Target) (f : Nat) (tbl : PulseSpans)
    (htbl : sbpSpans t (Mono.fugit w micros since) f = some tbl) (conv : SbpCommand → K)
    (g : Nat) (hg : Pause tbl w [0] (0, g))
    (items : List ((BitVec 16 × BitVec 20 × List (Nat × Nat)) × (Nat × Nat)))
    (hok : ∀ i ∈ items, Matches tbl (sbpSlots i.1.1 i.1.2.1) i.1.2.2 ∧ Pause tbl w [0] i.2) :
    (results (sbpDecoder t (Mono.fugit w micros since) tbl) conv
        ((true, g) :: series (fun i => i.2.2) items)).map said =
      some (oks (items.map fun i => conv (SbpCommand.unpack i.1.1 (i.1.2.1.setWidth 32)))) := by
  have h := fugit_build hc hw hz' t f .sbp
  rw [Kind.build, htbl, Option.some.injEq] at h
  subst h
  exact sbp_series t _ (Mono.fugit_lawful w micros since) _
    (fugit_unambiguous hc .sbp hlo (by simp)) (fugit_fits hc hw hz' .sbp) conv g hg items hok

/-- **C63**, Denon (47 of the 48 bits, C23). -/
theorem C63_denon_series (hc : FugitClock hz w micros since) (hw : 32 ≤ w) (hz' : hz < 2 ^ 32)
    (hlo : 20000 ≤ hz) (t : Target) (f : Nat) (tbl : PulseSpans)
    (htbl : denonSpans t (Mono.fugit w micros since) f = some tbl) (conv : DenonCommand → K)
    (g : Nat) (hg : Pause tbl w [0] (0, g))
    (items : List ((BitVec 48 × List (Nat × Nat)) × (Nat × Nat)))
    (hok : ∀ i ∈ items, Matches tbl (denonSlots i.1.1) i.1.2 ∧ Pause tbl w [0] i.2) :
    (results (denonDecoder t (Mono.fugit w micros since) tbl) conv
        ((true, g) :: series (fun i => i.2) items)).map said =
      some (oks (items.map fun i => conv { bits := (i.1.1.setWidth 47).setWidth 64 })) := by
  have h := fugit_build hc hw hz' t f .denon
  rw [Kind.build, htbl, Option.some.injEq] at h
  subst h
  exact denon_series t _ (Mono.fugit_lawful w micros since) _
    (fugit_unambiguous hc .denon hlo (by simp)) (fugit_fits hc hw hz' .denon) conv g hg items hok

/-- **C63**, RC5. -/
theorem C63_rc5_series (hc : FugitClock hz w micros since) (hw : 32 ≤ w) (hz' : hz < 2 ^ 32)
    (hlo : 20000 ≤ hz) (t : Target) (hus : 16 ≤ t.usizeBits) (f : Nat) (tbl : PulseSpans)
    (htbl : rc5Spans t (Mono.fugit w micros since) f = some tbl) (conv : Rc5Command → K)
    (items : List (BitVec 14 × List Ev × Option Nat))
    (hok : ∀ i ∈ items, i.1.getLsbD 13 = true ∧
      ManchesterFrame (Within tbl) (rc5Edges i.1) i.2.1) :
    (results (rc5Decoder t tbl) conv (items.flatMap fun i => withTail i.2.1 i.2.2)).map said =
      some (oks (items.map fun i => conv (Rc5Command.unpack (i.1.setWidth 16)))) := by
  have h := fugit_build hc hw hz' t f .rc5
  rw [Kind.build, htbl, Option.some.injEq] at h
  subst h
  exact rc5_series t hus _ (Nat.le_of_eq (fugit_spans_length _))
    (fugit_unambiguous hc .rc5 hlo (by simp)) conv items hok

/-- **C63**, RC6 (at 40 kHz or more). -/
theorem C63_rc6_series (hc : FugitClock hz w micros since) (hw : 32 ≤ w) (hz' : hz < 2 ^ 32)
    (hlo : 40000 ≤ hz) (t : Target) (hus : 16 ≤ t.usizeBits) (f : Nat) (tbl : PulseSpans)
    (htbl : rc6Spans t (Mono.fugit w micros since) f = some tbl) (conv : Rc6Command → K)
    (items : List (Rc6Command × List Ev × Option Nat))
    (hok : ∀ i ∈ items, ManchesterFrame (WithinRc6 tbl)
      (rc6Edges (i.1.addr ++ i.1.cmd) i.1.toggle) i.2.1) :
    (results (rc6Decoder t tbl) conv (items.flatMap fun i => withTail i.2.1 i.2.2)).map said =
      some (oks (items.map fun i => conv i.1)) := by
  have h := fugit_build hc hw hz' t f .rc6
  rw [Kind.build, htbl, Option.some.injEq] at h
  subst h
  exact rc6_series t hus _ (Nat.le_of_eq (fugit_spans_length _))
    (fugit_unambiguous hc .rc6 (by omega) fun _ => hlo) (fugit_six hc hlo) conv items hok

/-- **C63**: unlike the primitive clocks, a fugit clock panics when mark plus space exceed its range,
whatever the build profile; NEC-family receivers add them. -/
theorem C63_long_pause_panics (t : Target) (v : NecVariant C) (tbl : PulseSpans) (conv : C → K)
    (a b : Nat) (h : 2 ^ w ≤ a + b) :
    results (necDecoder t (Mono.fugit w micros since) tbl v) conv [(false, a), (true, b)] = none := by
  have hn : ¬ a + b < 2 ^ w := by omega
  rw [results_snd]
  have h1 : runStep (necFn t (Mono.fugit w micros since) tbl v)
      ({ state := .init, bitbuf := 0, dtSave := 0 } : NecDecoder) [(false, a), (true, b)] = none := by
    simp only [runStep, nec_falling t (Mono.fugit w micros since) tbl v
      ({ state := .init, bitbuf := 0, dtSave := 0 } : NecDecoder) (.inl rfl)]
    have : necFn t (Mono.fugit w micros since) tbl v
        ({ state := .init, bitbuf := 0, dtSave := a } : NecDecoder) (true, b) = none := by
      simp [necFn, Decoder.eventTotal, necDecoder, NecDecoder.event, Mono.fugit, Nat.add_comm b a, hn]
    rw [this]
  exact congrArg (fun x => (x.map Prod.snd).map (List.map (Res.map conv))) h1

/-! ## C64: wrap-around -/

theorem wrap_spec (hw : 1 ≤ w) (hc : FugitClock hz w micros since) (D : Decoder C) (conv : C → K)
    (evs : List Ev) (hsmall : ∀ e ∈ evs, e.2 < 2 ^ (w - 1)) (r : Receiver D) (now : Nat)
    (hr : r.prevInstant = now % 2 ^ w) :
    (runStep (fun r (c : Bool × Nat) =>
        Receiver.eventInstant (Mono.fugit w micros since) D conv r c.2 c.1) r
        (timestamps w now evs)).map Prod.snd =
      ((runStep D.step r.decoder evs).map Prod.snd).map (List.map (Res.map conv)) := by
  induction evs generalizing r now with
  | nil => rfl
  | cons e es ih =>
    obtain ⟨edge, dt⟩ := e
    have hdt : ((Mono.fugit w micros since).checkedSub ((now + dt) % 2 ^ w) r.prevInstant).getD 0 =
        dt := by
      have := hc.ahead (now % 2 ^ w) dt (Nat.mod_lt _ (Nat.two_pow_pos w)) (hsmall (edge, dt) (by simp))
      rw [Nat.mod_add_mod] at this
      rw [hr]
      show (since _ _).getD 0 = dt
      rw [this]; rfl
    have hstep : Receiver.eventInstant (Mono.fugit w micros since) D conv r ((now + dt) % 2 ^ w) edge =
        (D.step r.decoder (edge, dt)).map fun q =>
          ({ prevInstant := (now + dt) % 2 ^ w, decoder := q.1 }, Res.map conv q.2) := by
      simp only [Receiver.eventInstant, hdt, Receiver.eventEdge_eq, Decoder.step]
    simp only [timestamps, runStep, hstep]
    rcases D.step r.decoder (edge, dt) with _ | ⟨d, x⟩
    · rfl
    simp only [Option.map_some]
    have := ih (fun e he => hsmall e (by simp [he]))
      { prevInstant := (now + dt) % 2 ^ w, decoder := d } (now + dt) rfl
    dsimp only at this
    rcases h4 : runStep (fun r (c : Bool × Nat) =>
        Receiver.eventInstant (Mono.fugit w micros since) D conv r c.2 c.1)
      { prevInstant := (now + dt) % 2 ^ w, decoder := d } (timestamps w (now + dt) es) with _ | q
    · rw [h4] at this
      rcases h5 : runStep D.step d es with _ | q'
      · rfl
      · rw [h5] at this; simp at this
    · rw [h4] at this
      rcases h5 : runStep D.step d es with _ | q'
      · rw [h5] at this; simp at this
      · rw [h5] at this
        simp only [Option.map_some, Option.some.injEq] at this
        simp [this]

/-- **C64**: timestamps from a fugit clock that wraps around, any number of times and anywhere in the history, give
exactly what `event` gives for the true durations, as long as no two edges are half the range of the counter apart;
only the time before the first edge is unknown (contrast `C35_wraparound_loses_frame`). -/
theorem C64_instants (hw : 1 ≤ w) (hc : FugitClock hz w micros since) (D : Decoder C) (conv : C → K)
    (now : Nat) (edge : Bool) (gap : Nat) (evs : List Ev) (hsmall : ∀ e ∈ evs, e.2 < 2 ^ (w - 1)) :
    instantRun (Mono.fugit w micros since) D conv (timestamps w now ((edge, gap) :: evs)) =
      results D conv ((edge, firstGap w ((now + gap) % 2 ^ w)) :: evs) := by
  have hp := Nat.two_pow_pos w
  have hlt := Nat.mod_lt (now + gap) hp
  have hpred : 2 ^ (w - 1) < 2 ^ w := Nat.pow_lt_pow_right (by decide) (by omega)
  have hdt : ((Mono.fugit w micros since).checkedSub ((now + gap) % 2 ^ w) 0).getD 0 =
      firstGap w ((now + gap) % 2 ^ w) := by
    show (since _ _).getD 0 = _
    unfold firstGap
    split
    · rename_i h
      have := hc.ahead 0 _ hp h
      rw [Nat.zero_add, Nat.mod_mod] at this
      rw [this]; rfl
    · rename_i h
      have := hc.behind 0 _ hp (by omega) hlt
      rw [Nat.zero_add, Nat.mod_mod] at this
      rw [this]; rfl
  have hstep : Receiver.eventInstant (Mono.fugit w micros since) D conv (Receiver.new D)
      ((now + gap) % 2 ^ w) edge =
      (D.step D.init (edge, firstGap w ((now + gap) % 2 ^ w))).map fun q =>
        ({ prevInstant := (now + gap) % 2 ^ w, decoder := q.1 }, Res.map conv q.2) := by
    have hdt' := hdt
    change ((Mono.fugit w micros since).checkedSub _ (Receiver.new D).prevInstant).getD 0 = _ at hdt'
    simp only [Receiver.eventInstant, hdt', Receiver.eventEdge_eq, Decoder.step]
    rfl
  rw [results_snd]
  unfold instantRun
  simp only [timestamps, runStep, hstep]
  rcases D.step D.init (edge, firstGap w ((now + gap) % 2 ^ w)) with _ | ⟨d, x⟩
  · rfl
  simp only [Option.map_some]
  have := wrap_spec hw hc D conv evs hsmall
    { prevInstant := (now + gap) % 2 ^ w, decoder := d } (now + gap) rfl
  dsimp only at this
  rcases h4 : runStep (fun r (c : Bool × Nat) =>
      Receiver.eventInstant (Mono.fugit w micros since) D conv r c.2 c.1)
    { prevInstant := (now + gap) % 2 ^ w, decoder := d } (timestamps w (now + gap) evs) with _ | q
  · rw [h4] at this
    rcases h5 : runStep D.step d evs with _ | q'
    · rfl
    · rw [h5] at this; simp at this
  · rw [h4] at this
    rcases h5 : runStep D.step d evs with _ | q'
    · rw [h5] at this; simp at this
    · rw [h5] at this
      simp only [Option.map_some, Option.some.injEq] at this
      simp [this]

/-! ## C64: in real time -/

theorem stamps_eq (u f phase w t : Nat) (es : List (Bool × Nat)) :
    stamps u f phase w t es = timestamps w (reading u f phase t) (clocked u f phase t es) := by
  induction es generalizing t with
  | nil => rfl
  | cons e es ih =>
    obtain ⟨edge, x⟩ := e
    have h := reading_mono u f phase t x
    have e : reading u f phase t + (reading u f phase (t + x) - reading u f phase t) =
        reading u f phase (t + x) := by omega
    simp only [stamps, clocked, timestamps, ih, e]

/-- The readings at two edges less than half the range apart. -/
theorem reading_small {u f phase w t x : Nat} (hu : 0 < u) (h : x * f + u < 2 ^ (w - 1) * u) :
    reading u f phase (t + x) - reading u f phase t < 2 ^ (w - 1) := by
  have h1 := (reading_bounds hu f phase t x).1
  rw [Nat.mul_comm _ u] at h
  exact Nat.lt_of_mul_lt_mul_left (a := u) (by omega)

theorem clocked_small {u f phase w : Nat} (hu : 0 < u) (es : List (Bool × Nat)) (t : Nat)
    (h : ∀ e ∈ es, e.2 * f + u < 2 ^ (w - 1) * u) :
    ∀ e ∈ clocked u f phase t es, e.2 < 2 ^ (w - 1) := by
  induction es generalizing t with
  | nil => simp [clocked]
  | cons e es ih =>
    obtain ⟨edge, x⟩ := e
    intro q hq
    simp only [clocked, List.mem_cons] at hq
    rcases hq with rfl | hq
    · exact reading_small hu (h (edge, x) (by simp))
    · exact ih _ (fun e he => h e (by simp [he])) q hq

theorem clocked_append_at (u f phase : Nat) (a b : List (Bool × Nat)) (t : Nat) :
    ∃ t', clocked u f phase t (a ++ b) = clocked u f phase t a ++ clocked u f phase t' b := by
  induction a generalizing t with
  | nil => exact ⟨t, rfl⟩
  | cons e es ih =>
    obtain ⟨edge, x⟩ := e
    obtain ⟨t', h⟩ := ih (t + x)
    exact ⟨t', by simp only [List.cons_append, clocked, h]⟩

theorem clocked_flatMap {A : Type} (u f phase : Nat) (wire : A → List (Bool × Nat)) (items : List A)
    (t : Nat) : ∃ ts : List Nat, ts.length = items.length ∧
      clocked u f phase t (items.flatMap wire) =
        (items.zip ts).flatMap fun p => clocked u f phase p.2 (wire p.1) := by
  induction items generalizing t with
  | nil => exact ⟨[], rfl, rfl⟩
  | cons a as ih =>
    obtain ⟨t', h⟩ := clocked_append_at u f phase (wire a) (as.flatMap wire) t
    obtain ⟨ts, hl, hts⟩ := ih t'
    refine ⟨t :: ts, by simp [hl], ?_⟩
    rw [List.flatMap_cons, h, hts]
    rfl

theorem zip_map_fst {A B R : Type} (g : A → R) (items : List A) (ts : List B)
    (h : ts.length = items.length) : (items.zip ts).map (fun p => g p.1) = items.map g := by
  induction items generalizing ts with
  | nil => rfl
  | cons a as ih =>
    cases ts with
    | nil => simp at h
    | cons b bs => simp only [List.zip_cons_cons, List.map_cons, ih bs (by simpa using h)]

/-- Physical durations within `j` percent of `l` µs are measured as symbol `s`. -/
def Measures (tbl : PulseSpans) (u f phase j s l : Nat) : Prop :=
  ∀ t x, Near u j l x → InTol tbl s (reading u f phase (t + x) - reading u f phase t)

theorem matches_of_measures {tbl : PulseSpans} {u f phase j : Nat} {us slots : List Nat}
    (hlen : us.length = slots.length)
    (hok : ∀ (i l s : Nat), us[i]? = some l → slots[i]? = some s → Measures tbl u f phase j s l)
    {ps : List (Nat × Nat)} (h : NearPeriods u j us ps) (t0 : Nat) :
    Matches tbl slots (clockedPulses u f phase t0 ps) := by
  refine ⟨by rw [clockedPulses_length, h.1, hlen], fun i q s hq hs => ?_⟩
  obtain ⟨p, t', hp, hsum⟩ := clockedPulses_get u f phase t0 ps i q hq
  have hi : i < us.length := hlen ▸ (List.getElem?_eq_some_iff.mp hs).1
  have hl := List.getElem?_eq_getElem hi
  rw [hsum]
  exact hok i _ s hl hs _ _ (h.2 i p _ hp hl)

theorem fugit_measures (hc : FugitClock hz w micros since) {u phase j : Nat} (hu : 0 < u) (k : Kind)
    {s l tol : Nat} (hs : k.symbols[s]? = some (l, tol))
    (c1 : (100 - tol) * (l * hz + 1000000) + 100000000 ≤ (100 - j) * (l * hz))
    (c2 : (100 + j) * (l * hz) + 100000000 + (100 + tol) * 1000000 ≤ (100 + tol) * (l * hz)) :
    Measures (fugitTable micros k) u hz phase j s l := by
  intro t x hn
  obtain ⟨hl, ht⟩ := symbols_small k hs
  obtain ⟨b1, b2⟩ := reading_bounds hu hz phase t x
  obtain ⟨n1, n2⟩ := hn
  have m1 : (100 - j) * l * u * hz ≤ 100000000 * x * hz := Nat.mul_le_mul_right _ n1
  have m2 : 100000000 * x * hz ≤ (100 + j) * l * u * hz := Nat.mul_le_mul_right _ n2
  have e1 : (100 - j) * l * u * hz = u * ((100 - j) * (l * hz)) := by
    rw [Nat.mul_comm _ u, Nat.mul_assoc u, Nat.mul_assoc (100 - j)]
  have e2 : (100 + j) * l * u * hz = u * ((100 + j) * (l * hz)) := by
    rw [Nat.mul_comm _ u, Nat.mul_assoc u, Nat.mul_assoc (100 + j)]
  have e3 : 100000000 * x * hz = 100000000 * (x * hz) := Nat.mul_assoc _ _ _
  refine ⟨_, fugit_get k hs, ?_⟩
  generalize reading u hz phase (t + x) - reading u hz phase t = d at b1 b2 ⊢
  have g1 : (100 - j) * (l * hz) ≤ 100000000 * d + 100000000 := by
    refine Nat.le_of_mul_le_mul_left (c := u) ?_ hu
    rw [Nat.mul_add, Nat.mul_left_comm u 100000000, Nat.mul_comm u 100000000]
    omega
  have g2 : 100000000 * d ≤ (100 + j) * (l * hz) + 100000000 := by
    refine Nat.le_of_mul_le_mul_left (c := u) ?_ hu
    rw [Nat.mul_add, Nat.mul_left_comm u 100000000, Nat.mul_comm u 100000000]
    omega
  exact spanN_mem (ticks_spec hc hl).2 (Nat.le_of_add_le_add_right (Nat.le_trans c1 g1))
    (Nat.le_trans (Nat.add_le_add_right g2 _) c2)

/-- A period of 16 ms or more is longer than every symbol. -/
theorem fugit_pause (hc : FugitClock hz w micros since) {u phase : Nat} (hu : 0 < u)
    (hw : 1 ≤ w) (hlo : 20000 ≤ hz) (k : Kind) (syms : List Nat) (hsy : ∀ i ∈ syms, i < k.symbols.length)
    (p : Nat × Nat) (hp : 16000 * u ≤ 1000000 * (p.1 + p.2))
    (h1 : p.1 * hz + u < 2 ^ (w - 1) * u) (h2 : p.2 * hz + u < 2 ^ (w - 1) * u) (t : Nat) :
    Pause (fugitTable micros k) w syms (reading u hz phase (t + p.1) - reading u hz phase t,
      reading u hz phase (t + p.1 + p.2) - reading u hz phase (t + p.1)) := by
  have a1 := reading_small (phase := phase) (t := t) hu h1
  have a2 := reading_small (phase := phase) (t := t + p.1) hu h2
  have hpow : 2 ^ w = 2 * 2 ^ (w - 1) := by
    rw [← Nat.pow_succ']
    congr 1
    omega
  refine ⟨by simp only; omega, fun i hi hin => ?_⟩
  have hlt := hsy i hi
  obtain ⟨⟨l, tol⟩, hs⟩ : ∃ s, k.symbols[i]? = some s := ⟨_, List.getElem?_eq_getElem hlt⟩
  obtain ⟨s, hs', hb⟩ := hin
  rw [fugit_get k hs, Option.some.injEq] at hs'
  subst hs'
  obtain ⟨hl, ht⟩ := symbols_small k hs
  have hb1 := (spanN_bounds (by omega) (ticks_spec hc hl).2 hb).1
  simp only at hb1
  have hb2 := (reading_bounds hu hz phase t (p.1 + p.2)).2
  have m1 := reading_mono u hz phase t p.1
  have m2 := reading_mono u hz phase (t + p.1) p.2
  rw [← Nat.add_assoc] at hb2
  have he : reading u hz phase (t + p.1) - reading u hz phase t +
      (reading u hz phase (t + p.1 + p.2) - reading u hz phase (t + p.1)) =
      reading u hz phase (t + p.1 + p.2) - reading u hz phase t := by omega
  rw [he] at hb1
  generalize reading u hz phase (t + p.1 + p.2) - reading u hz phase t = d at hb1 hb2
  have g1 : 16000 * hz ≤ 1000000 * d + 1000000 := by
    refine Nat.le_of_mul_le_mul_left (c := u) ?_ hu
    have := Nat.mul_le_mul_right hz hp
    rw [Nat.mul_assoc, Nat.mul_assoc 1000000] at this
    rw [Nat.mul_left_comm u 16000, Nat.mul_add, Nat.mul_left_comm u 1000000, Nat.mul_comm u 1000000]
    omega
  have hsmall : (100 + tol) * l ≤ 107 * 13500 := by
    have : ∀ k : Kind, ∀ s ∈ k.symbols, (100 + s.2) * s.1 ≤ 107 * 13500 := by
      intro k; cases k <;> decide
    exact this k (l, tol) (List.mem_of_getElem? hs)
  have h5 := Nat.mul_le_mul_right hz hsmall
  have h6 : (100 + tol) * 1000000 ≤ 125 * 1000000 := Nat.mul_le_mul_right _ (by omega)
  rw [Nat.mul_add, ← Nat.mul_assoc] at hb1
  omega

theorem clocked_item (u f phase : Nat) (ps : List (Nat × Nat)) (p : Nat × Nat) (t : Nat) :
    ∃ t', clocked u f phase t (pulses ps ++ pulses [p]) =
      pulses (clockedPulses u f phase t ps) ++ pulses
        [(reading u f phase (t' + p.1) - reading u f phase t',
          reading u f phase (t' + p.1 + p.2) - reading u f phase (t' + p.1))] := by
  obtain ⟨t', h⟩ := clocked_append_at u f phase (pulses ps) (pulses [p]) t
  exact ⟨t', by rw [h, clocked_pulses, clocked_pulses]; rfl⟩

/-- The measured version of a series: same items, measured pulses, measured pauses. -/
theorem clocked_series {A : Type} (u f phase : Nat) (wire : A → List (Nat × Nat))
    (upd : A → List (Nat × Nat) → A)
    (hupd : ∀ a ps, ps.length = (wire a).length → wire (upd a ps) = ps)
    (items : List (A × (Nat × Nat))) (t : Nat) :
    ∃ ts : List (Nat × Nat), ts.length = items.length ∧
      clocked u f phase t (series wire items) =
        series wire ((items.zip ts).map fun q =>
          (upd q.1.1 (clockedPulses u f phase q.2.1 (wire q.1.1)),
            (reading u f phase (q.2.2 + q.1.2.1) - reading u f phase q.2.2,
              reading u f phase (q.2.2 + q.1.2.1 + q.1.2.2) - reading u f phase (q.2.2 + q.1.2.1)))) := by
  rw [series_eq]
  obtain ⟨ts, hl, h⟩ := clocked_flatMap u f phase (fun i : A × (Nat × Nat) => pulses (wire i.1) ++ pulses [i.2])
    items t
  have hall : ∀ (its : List (A × (Nat × Nat))) (ts : List Nat), ts.length = its.length →
      ∃ ts' : List (Nat × Nat), ts'.length = its.length ∧
      ((its.zip ts).flatMap fun p => clocked u f phase p.2 (pulses (wire p.1.1) ++ pulses [p.1.2])) =
        series wire ((its.zip ts').map fun q =>
          (upd q.1.1 (clockedPulses u f phase q.2.1 (wire q.1.1)),
            (reading u f phase (q.2.2 + q.1.2.1) - reading u f phase q.2.2,
              reading u f phase (q.2.2 + q.1.2.1 + q.1.2.2) - reading u f phase (q.2.2 + q.1.2.1)))) := by
    intro its
    induction its with
    | nil => intro ts _; exact ⟨[], rfl, rfl⟩
    | cons a as ih =>
      intro ts hts
      cases ts with
      | nil => simp at hts
      | cons b bs =>
        obtain ⟨ts', hl', h'⟩ := ih bs (by simpa using hts)
        obtain ⟨t', ht'⟩ := clocked_item u f phase (wire a.1) a.2 b
        refine ⟨(b, t') :: ts', by simp [hl'], ?_⟩
        rw [List.zip_cons_cons, List.flatMap_cons, h', series_eq, series_eq, List.zip_cons_cons,
          List.map_cons, List.flatMap_cons]
        dsimp only
        rw [ht', hupd _ _ (clockedPulses_length _ _ _ _ _)]
  obtain ⟨ts', h1, h2⟩ := hall items ts hl
  exact ⟨ts', h1, h.trans h2⟩

/-- The items with other pulses. -/
def Spec.NecItem.withPulses : NecItem → List (Nat × Nat) → NecItem
  | .frame w _, ps => .frame w ps
  | .rep _, [p] => .rep p
  | .rep q, _ => .rep q

theorem withPulses_wire (a : NecItem) (ps : List (Nat × Nat)) (h : ps.length = a.wire.length) :
    (a.withPulses ps).wire = ps := by
  cases a with
  | frame w _ => rfl
  | rep q =>
    match ps, h with
    | [p], _ => rfl

theorem necHeard_withPulses (unpack : BitVec 32 → Bool → Option C) (items : List (NecItem × (Nat × Nat)))
    (g : (NecItem × (Nat × Nat)) × (Nat × Nat) → List (Nat × Nat)) (ts : List (Nat × Nat))
    (h : ts.length = items.length) (last : BitVec 32) :
    necHeard unpack last ((items.zip ts).map fun q => q.1.1.withPulses (g q)) =
      necHeard unpack last (items.map Prod.fst) := by
  induction items generalizing ts last with
  | nil => rfl
  | cons a as ih =>
    cases ts with
    | nil => simp at h
    | cons b bs =>
      have ih' := ih bs (by simpa using h)
      obtain ⟨i, p⟩ := a
      rw [List.zip_cons_cons, List.map_cons, List.map_cons]
      cases i with
      | frame w ps => exact congrArg ((unpack w false).toList ++ ·) (ih' w)
      | rep q =>
        obtain ⟨q', hq'⟩ : ∃ q', (NecItem.rep q).withPulses (g ((NecItem.rep q, p), b)) = .rep q' := by
          rcases g ((NecItem.rep q, p), b) with _ | ⟨x, _ | ⟨y, ys⟩⟩ <;> exact ⟨_, rfl⟩
        rw [hq']
        exact congrArg ((unpack last true).toList ++ ·) (ih' last)

theorem mem_series {A : Type} (wire : A → List (Nat × Nat)) (items : List (A × (Nat × Nat)))
    (i : A × (Nat × Nat)) (hi : i ∈ items) :
    (false, i.2.1) ∈ series wire items ∧ (true, i.2.2) ∈ series wire items := by
  rw [series_eq]
  constructor
  · exact List.mem_flatMap.mpr ⟨i, hi, List.mem_append_right _ (by simp [pulses])⟩
  · exact List.mem_flatMap.mpr ⟨i, hi, List.mem_append_right _ (by simp [pulses])⟩

theorem stamps_run (hw : 1 ≤ w) (hc : FugitClock hz w micros since) (D : Decoder C) (conv : C → K)
    {u : Nat} (hu : 0 < u) (phase t0 x0 : Nat) (edge : Bool) (es : List (Bool × Nat))
    (hgap : ∀ e ∈ es, e.2 * hz + u < 2 ^ (w - 1) * u) :
    instantRun (Mono.fugit w micros since) D conv (stamps u hz phase w t0 ((edge, x0) :: es)) =
      results D conv ((edge, firstGap w (reading u hz phase (t0 + x0) % 2 ^ w)) ::
        clocked u hz phase (t0 + x0) es) := by
  rw [stamps_eq]
  simp only [clocked]
  rw [C64_instants hw hc D conv _ _ _ _ (clocked_small hu es _ hgap)]
  have h := reading_mono u hz phase t0 x0
  rw [show reading u hz phase t0 + (reading u hz phase (t0 + x0) - reading u hz phase t0) =
    reading u hz phase (t0 + x0) by omega]

/-- **C64**, NEC family in real time: a receiver with a wrapping fugit clock of 20 kHz or more (`with_fugit`,
`with_fugit64`), given the counter at every edge (`event_instant`), returns exactly the commands sent in any
sequence of frames and repeat codes whose periods are within 5 % of the documented lengths, with pauses of at least
16 ms and less than half the range of the counter, wherever the counter wraps around.  (The counter at the very first
edge must not look like a sync pulse.) -/
theorem C64_nec_real_time (hc : FugitClock hz w micros since) (hw : 32 ≤ w) (hz' : hz < 2 ^ 32)
    (hlo : 20000 ≤ hz) (t : Target) (f : Nat) (v : NecVariant C) (hv : v.Shipped) (tbl : PulseSpans)
    (htbl : necSpans t (Mono.fugit w micros since) v f = some tbl) (conv : C → K)
    (u : Nat) (hu : 0 < u) (phase t0 x0 : Nat)
    (hg : Pause tbl w [0, 1] (0, firstGap w (reading u hz phase (t0 + x0) % 2 ^ w)))
    (items : List (NecItem × (Nat × Nat)))
    (hok : ∀ i ∈ items, i.1.Near u 5 (v.pulseDistance.headerHigh + v.pulseDistance.headerLow)
      (v.pulseDistance.headerHigh + v.pulseDistance.repeatLow) ∧
      16000 * u ≤ 1000000 * (i.2.1 + i.2.2))
    (hgap : ∀ e ∈ series NecItem.wire items, e.2 * hz + u < 2 ^ (w - 1) * u) :
    (instantRun (Mono.fugit w micros since) (necDecoder t (Mono.fugit w micros since) tbl v) conv
        (stamps u hz phase w t0 ((true, x0) :: series NecItem.wire items))).map said =
      some (oks ((necHeard v.unpack 0 (items.map Prod.fst)).map conv)) := by
  rw [stamps_run (by omega) hc _ conv hu phase t0 x0 true _ hgap]
  obtain ⟨ts, hl, hser⟩ := clocked_series u hz phase NecItem.wire NecItem.withPulses withPulses_wire
    items (t0 + x0)
  rw [hser]
  refine (C63_nec_series hc hw hz' hlo t f v hv tbl htbl conv _ hg _ ?_).trans ?_
  · intro i hi
    obtain ⟨⟨⟨a, p⟩, b⟩, hq, rfl⟩ := List.mem_map.mp hi
    have hmem := (List.of_mem_zip hq).1
    obtain ⟨hnear, hp⟩ := hok _ hmem
    obtain ⟨hm1, hm2⟩ := mem_series NecItem.wire items _ hmem
    obtain ⟨k, hk, he⟩ := nec_kind v hv
    rw [he, fugit_build hc hw hz' t f k, Option.some.injEq] at htbl
    subst htbl
    refine ⟨?_, fugit_pause hc hu (by omega) hlo k [0, 1] (by rcases hk with ⟨rfl, -⟩ | ⟨rfl, -⟩ <;> decide)
      p hp (hgap _ hm1) (hgap _ hm2) _⟩
    dsimp only at hnear ⊢
    cases a with
    | frame wd ps =>
      refine necFrame_of_matches ?_
      rcases hk with ⟨rfl, hv'⟩ | ⟨rfl, hv'⟩ <;> rw [hv'] at hnear
      · refine matches_of_measures (us := necPeriods (9000 + 4500) wd) (by simp [necPeriods, necSlots])
          ?_ hnear _
        refine append_ok (l1 := [9000 + 4500]) (s1 := [0]) rfl
          (single_ok (fugit_measures hc hu .nec (tol := 7) rfl ?_ ?_))
          (bits_ok 32 _ _ _ _ _ (fugit_measures hc hu .nec (tol := 12) rfl ?_ ?_)
            (fugit_measures hc hu .nec (tol := 25) rfl ?_ ?_)) <;> omega
      · refine matches_of_measures (us := necPeriods (4500 + 4500) wd) (by simp [necPeriods, necSlots])
          ?_ hnear _
        refine append_ok (l1 := [4500 + 4500]) (s1 := [0]) rfl
          (single_ok (fugit_measures hc hu .samsung (tol := 7) rfl ?_ ?_))
          (bits_ok 32 _ _ _ _ _ (fugit_measures hc hu .samsung (tol := 12) rfl ?_ ?_)
            (fugit_measures hc hu .samsung (tol := 25) rfl ?_ ?_)) <;> omega
    | rep q =>
      obtain ⟨q', t', hq', hsum⟩ := clockedPulses_get u hz phase b.1 [q] 0 _ rfl
      simp only [List.getElem?_cons_zero, Option.some.injEq] at hq'
      subst hq'
      show InTol _ 1 _
      rw [hsum]
      rcases hk with ⟨rfl, hv'⟩ | ⟨rfl, hv'⟩ <;> rw [hv'] at hnear
      · exact fugit_measures hc hu .nec (s := 1) (l := 11250) (tol := 7) (j := 5) rfl (by omega) (by omega) _ _ hnear
      · exact fugit_measures hc hu .samsung (s := 1) (l := 6750) (tol := 7) (j := 5) rfl (by omega) (by omega) _ _ hnear
  · rw [List.map_map]
    exact congrArg (fun l => some (oks (List.map conv l)))
      (necHeard_withPulses v.unpack items _ ts hl 0)

/-- **C64**, SBP in real time: periods within 3 %, clock of 40 kHz or more. -/
theorem C64_sbp_real_time (hc : FugitClock hz w micros since) (hw : 32 ≤ w) (hz' : hz < 2 ^ 32)
    (hlo : 40000 ≤ hz) (t : Target) (f : Nat) (tbl : PulseSpans)
    (htbl : sbpSpans t (Mono.fugit w micros since) f = some tbl) (conv : SbpCommand → K)
    (u : Nat) (hu : 0 < u) (phase t0 x0 : Nat)
    (hg : Pause tbl w [0] (0, firstGap w (reading u hz phase (t0 + x0) % 2 ^ w)))
    (items : List ((BitVec 16 × BitVec 20 × List (Nat × Nat)) × (Nat × Nat)))
    (hok : ∀ i ∈ items, NearPeriods u 3 (sbpPeriods i.1.1 i.1.2.1) i.1.2.2 ∧
      16000 * u ≤ 1000000 * (i.2.1 + i.2.2))
    (hgap : ∀ e ∈ series (fun i : BitVec 16 × BitVec 20 × List (Nat × Nat) => i.2.2) items,
      e.2 * hz + u < 2 ^ (w - 1) * u) :
    (instantRun (Mono.fugit w micros since) (sbpDecoder t (Mono.fugit w micros since) tbl) conv
        (stamps u hz phase w t0 ((true, x0) :: series (fun i => i.2.2) items))).map said =
      some (oks (items.map fun i => conv (SbpCommand.unpack i.1.1 (i.1.2.1.setWidth 32)))) := by
  rw [stamps_run (by omega) hc _ conv hu phase t0 x0 true _ hgap]
  obtain ⟨ts, hl, hser⟩ := clocked_series u hz phase
    (fun i : BitVec 16 × BitVec 20 × List (Nat × Nat) => i.2.2) (fun i ps => (i.1, i.2.1, ps))
    (fun _ _ _ => rfl) items (t0 + x0)
  rw [hser]
  refine (C63_sbp_series hc hw hz' (by omega) t f tbl htbl conv _ hg _ ?_).trans ?_
  · intro i hi
    obtain ⟨⟨⟨a, p⟩, b⟩, hq, rfl⟩ := List.mem_map.mp hi
    have hmem := (List.of_mem_zip hq).1
    obtain ⟨hnear, hp⟩ := hok _ hmem
    obtain ⟨hm1, hm2⟩ := mem_series _ items _ hmem
    have h := fugit_build hc hw hz' t f .sbp
    rw [Kind.build, htbl, Option.some.injEq] at h
    subst h
    refine ⟨?_, fugit_pause hc hu (by omega) (by omega) .sbp [0] (by decide)
      p hp (hgap _ hm1) (hgap _ hm2) _⟩
    refine matches_of_measures (us := sbpPeriods a.1 a.2.1) (by simp [sbpPeriods, sbpSlots]) ?_ hnear _
    unfold sbpPeriods sbpSlots
    refine append_ok (by simp) (append_ok (by simp) (append_ok (by simp)
      (single_ok (fugit_measures hc hu .sbp (tol := 5) rfl ?_ ?_))
      (bits_ok 16 _ _ _ _ _ (fugit_measures hc hu .sbp (tol := 10) rfl ?_ ?_)
        (fugit_measures hc hu .sbp (tol := 10) rfl ?_ ?_)))
      (single_ok (fugit_measures hc hu .sbp (tol := 5) rfl ?_ ?_)))
      (bits_ok 20 _ _ _ _ _ (fugit_measures hc hu .sbp (tol := 10) rfl ?_ ?_)
        (fugit_measures hc hu .sbp (tol := 10) rfl ?_ ?_)) <;> omega
  · rw [List.map_map]
    exact congrArg (fun l => some (oks l)) (zip_map_fst
      (fun i : (BitVec 16 × BitVec 20 × List (Nat × Nat)) × (Nat × Nat) =>
        conv (SbpCommand.unpack i.1.1 (i.1.2.1.setWidth 32))) items ts hl)

/-- **C64**, Denon in real time: periods within 3 %, clock of 40 kHz or more. -/
theorem C64_denon_real_time (hc : FugitClock hz w micros since) (hw : 32 ≤ w) (hz' : hz < 2 ^ 32)
    (hlo : 40000 ≤ hz) (t : Target) (f : Nat) (tbl : PulseSpans)
    (htbl : denonSpans t (Mono.fugit w micros since) f = some tbl) (conv : DenonCommand → K)
    (u : Nat) (hu : 0 < u) (phase t0 x0 : Nat)
    (hg : Pause tbl w [0] (0, firstGap w (reading u hz phase (t0 + x0) % 2 ^ w)))
    (items : List ((BitVec 48 × List (Nat × Nat)) × (Nat × Nat)))
    (hok : ∀ i ∈ items, NearPeriods u 3 (denonPeriods i.1.1) i.1.2 ∧
      16000 * u ≤ 1000000 * (i.2.1 + i.2.2))
    (hgap : ∀ e ∈ series (fun i : BitVec 48 × List (Nat × Nat) => i.2) items,
      e.2 * hz + u < 2 ^ (w - 1) * u) :
    (instantRun (Mono.fugit w micros since) (denonDecoder t (Mono.fugit w micros since) tbl) conv
        (stamps u hz phase w t0 ((true, x0) :: series (fun i => i.2) items))).map said =
      some (oks (items.map fun i => conv { bits := (i.1.1.setWidth 47).setWidth 64 })) := by
  rw [stamps_run (by omega) hc _ conv hu phase t0 x0 true _ hgap]
  obtain ⟨ts, hl, hser⟩ := clocked_series u hz phase
    (fun i : BitVec 48 × List (Nat × Nat) => i.2) (fun i ps => (i.1, ps))
    (fun _ _ _ => rfl) items (t0 + x0)
  rw [hser]
  refine (C63_denon_series hc hw hz' (by omega) t f tbl htbl conv _ hg _ ?_).trans ?_
  · intro i hi
    obtain ⟨⟨⟨a, p⟩, b⟩, hq, rfl⟩ := List.mem_map.mp hi
    have hmem := (List.of_mem_zip hq).1
    obtain ⟨hnear, hp⟩ := hok _ hmem
    obtain ⟨hm1, hm2⟩ := mem_series _ items _ hmem
    have h := fugit_build hc hw hz' t f .denon
    rw [Kind.build, htbl, Option.some.injEq] at h
    subst h
    refine ⟨?_, fugit_pause hc hu (by omega) (by omega) .denon [0] (by decide)
      p hp (hgap _ hm1) (hgap _ hm2) _⟩
    refine matches_of_measures (us := denonPeriods a.1) (by simp [denonPeriods, denonSlots]) ?_ hnear _
    unfold denonPeriods denonSlots
    refine append_ok (by simp) (single_ok (fugit_measures hc hu .denon (tol := 8) rfl ?_ ?_))
      (bits_ok 48 _ _ _ _ _ (fugit_measures hc hu .denon (tol := 10) rfl ?_ ?_)
        (fugit_measures hc hu .denon (tol := 10) rfl ?_ ?_)) <;> omega
  · rw [List.map_map]
    exact congrArg (fun l => some (oks l)) (zip_map_fst
      (fun i : (BitVec 48 × List (Nat × Nat)) × (Nat × Nat) =>
        conv { bits := (i.1.1.setWidth 47).setWidth 64 }) items ts hl)

theorem clocked_withTail (u f phase : Nat) (es : List (Bool × Nat)) (tail : Option Nat) (t : Nat) :
    ∃ tail', clocked u f phase t (withTail es tail) = withTail (clocked u f phase t es) tail' := by
  cases tail with
  | none => exact ⟨none, rfl⟩
  | some x =>
    obtain ⟨t', h⟩ := clocked_append_at u f phase es [(false, x)] t
    exact ⟨some (reading u f phase (t' + x) - reading u f phase t'), h⟩

/-- The measured version of a series of Manchester transmissions. -/
theorem clocked_tails {A : Type} (u f phase : Nat) (items : List (A × List (Bool × Nat) × Option Nat)) (t : Nat) :
    ∃ ts : List (Nat × Option Nat), ts.length = items.length ∧
      clocked u f phase t (items.flatMap fun i => withTail i.2.1 i.2.2) =
        ((items.zip ts).map fun q => (q.1.1, clocked u f phase q.2.1 q.1.2.1, q.2.2)).flatMap
          fun i => withTail i.2.1 i.2.2 := by
  induction items generalizing t with
  | nil => exact ⟨[], rfl, rfl⟩
  | cons a as ih =>
    obtain ⟨t', h⟩ := clocked_append_at u f phase (withTail a.2.1 a.2.2)
      (as.flatMap fun i => withTail i.2.1 i.2.2) t
    obtain ⟨tail', h'⟩ := clocked_withTail u f phase a.2.1 a.2.2 t
    obtain ⟨ts, hl, hts⟩ := ih t'
    refine ⟨(t, tail') :: ts, by simp [hl], ?_⟩
    rw [List.flatMap_cons, h, hts, h']
    rfl

/-- Changing the pause before a transmission changes nothing. -/
theorem frame_pause {fits : Nat → Nat → Prop} {edges : List (Bool × Nat)} {e : Bool × Nat} {es : List Ev}
    (h : ManchesterFrame fits edges (e :: es)) (x : Nat) : ManchesterFrame fits edges ((e.1, x) :: es) := by
  obtain ⟨pause, n, evs', edges', he, he', ht⟩ := h
  simp only [List.cons.injEq] at he
  obtain ⟨rfl, rfl⟩ := he
  exact ⟨x, n, es, edges', rfl, he', ht⟩

theorem frame_nonempty {fits : Nat → Nat → Prop} {edges : List (Bool × Nat)} {es : List Ev}
    (h : ManchesterFrame fits edges es) : ∃ pause es', es = (true, pause) :: es' := by
  obtain ⟨pause, n, evs', edges', he, -⟩ := h
  exact ⟨pause, evs', he⟩

/-- The measured version of a series of Manchester transmissions, with any pause before the first one. -/
theorem tails_measured {A : Type} (u f phase : Nat) (fits fits' : Nat → Nat → Prop)
    (edges : A → List (Bool × Nat)) (P : A → Prop)
    (hfits : ∀ a t es, P a → ManchesterFrame fits (edges a) es →
      ManchesterFrame fits' (edges a) (clocked u f phase t es))
    (items : List (A × List (Bool × Nat) × Option Nat))
    (hok : ∀ i ∈ items, P i.1 ∧ ManchesterFrame fits (edges i.1) i.2.1) (b0 : Bool) (x0 : Nat)
    (fl : List (Bool × Nat)) (hfl : (items.flatMap fun i => withTail i.2.1 i.2.2) = (b0, x0) :: fl)
    (g t0 : Nat) :
    ∃ items' : List (A × List Ev × Option Nat), items'.map Prod.fst = items.map Prod.fst ∧
      (∀ i ∈ items', P i.1 ∧ ManchesterFrame fits' (edges i.1) i.2.1) ∧
      (b0, g) :: clocked u f phase (t0 + x0) fl = items'.flatMap fun i => withTail i.2.1 i.2.2 := by
  cases items with
  | nil => cases hfl
  | cons a as =>
    obtain ⟨ts, hl, hts⟩ := clocked_tails u f phase (a :: as) t0
    cases ts with
    | nil => simp at hl
    | cons b bs =>
      have hall : ∀ i ∈ ((a :: as).zip (b :: bs)).map fun q : (A × List (Bool × Nat) × Option Nat) × (Nat × Option Nat) =>
          (q.1.1, clocked u f phase q.2.1 q.1.2.1, q.2.2), P i.1 ∧ ManchesterFrame fits' (edges i.1) i.2.1 := by
        intro i hi
        obtain ⟨⟨x, y⟩, hq, rfl⟩ := List.mem_map.mp hi
        obtain ⟨hp, hf⟩ := hok x (List.of_mem_zip hq).1
        exact ⟨hp, hfits _ _ _ hp hf⟩
      have hfst := zip_map_fst (fun i : A × List (Bool × Nat) × Option Nat => i.1) (a :: as) (b :: bs) hl
      rw [List.zip_cons_cons, List.map_cons] at hts hall hfst
      obtain ⟨x1, es, hes⟩ := frame_nonempty (hok a (by simp)).2
      have hcons : ∀ (e : Ev) (l : List Ev) (tl : Option Nat), withTail (e :: l) tl = e :: withTail l tl := by
        intro e l tl; cases tl <;> rfl
      obtain ⟨rfl, rfl⟩ : true = b0 ∧ x1 = x0 := by
        rw [List.flatMap_cons, hes, hcons, List.cons_append, List.cons.injEq, Prod.mk.injEq] at hfl
        exact hfl.1
      rw [hfl] at hts
      rw [hes] at hall hts
      simp only [clocked] at hall hts
      refine ⟨(a.1, (true, g) :: clocked u f phase (b.1 + x1) es, b.2) ::
        (as.zip bs).map fun q => (q.1.1, clocked u f phase q.2.1 q.1.2.1, q.2.2), ?_, ?_, ?_⟩
      · rw [← hfst]
        simp only [List.map_cons, List.map_map]
        rfl
      · intro i hi
        rcases List.mem_cons.mp hi with rfl | hi
        · exact ⟨(hall _ (List.mem_cons_self ..)).1, frame_pause (hall _ (List.mem_cons_self ..)).2 _⟩
        · exact hall i (List.mem_cons_of_mem _ hi)
      · rw [List.flatMap_cons] at hts ⊢
        rw [hcons, List.cons_append] at hts ⊢
        rw [(List.cons.inj hts).2]

/-- A series of Manchester transmissions seen through a wrapping counter: the same transmissions with measured
distances, except for the pause before the first. -/
theorem stamps_tails {A : Type} (hw : 1 ≤ w) (hc : FugitClock hz w micros since) (D : Decoder C) (conv : C → K)
    {u : Nat} (hu : 0 < u) (phase t0 : Nat) (fits fits' : Nat → Nat → Prop)
    (edges : A → List (Bool × Nat)) (P : A → Prop)
    (hfits : ∀ a t es, P a → ManchesterFrame fits (edges a) es →
      ManchesterFrame fits' (edges a) (clocked u hz phase t es))
    (items : List (A × List (Bool × Nat) × Option Nat))
    (hok : ∀ i ∈ items, P i.1 ∧ ManchesterFrame fits (edges i.1) i.2.1)
    (hgap : ∀ e ∈ (items.flatMap fun i => withTail i.2.1 i.2.2).tail, e.2 * hz + u < 2 ^ (w - 1) * u) :
    ∃ items' : List (A × List Ev × Option Nat), items'.map Prod.fst = items.map Prod.fst ∧
      (∀ i ∈ items', P i.1 ∧ ManchesterFrame fits' (edges i.1) i.2.1) ∧
      instantRun (Mono.fugit w micros since) D conv
        (stamps u hz phase w t0 (items.flatMap fun i => withTail i.2.1 i.2.2)) =
      results D conv (items'.flatMap fun i => withTail i.2.1 i.2.2) := by
  rcases hfl : items.flatMap (fun i => withTail i.2.1 i.2.2) with _ | ⟨⟨b0, x0⟩, fl⟩
  · cases items with
    | nil => exact ⟨[], rfl, by simp, rfl⟩
    | cons a as =>
      obtain ⟨x1, es, hes⟩ := frame_nonempty (hok a (by simp)).2
      rw [List.flatMap_cons, hes] at hfl
      cases h : a.2.2 <;> simp [h, withTail] at hfl
  · rw [hfl, List.tail_cons] at hgap
    rw [hfl, stamps_run hw hc D conv hu phase t0 x0 b0 fl hgap]
    obtain ⟨items', h1, h2, h3⟩ := tails_measured u hz phase fits fits' edges P hfits items hok b0 x0 fl hfl
      (firstGap w (reading u hz phase (t0 + x0) % 2 ^ w)) t0
    exact ⟨items', h1, h2, by rw [h3]⟩

theorem frame_clocked {u f phase : Nat} {R R' : Nat → Nat → Prop} {e0 : Bool × Nat} {edges : List (Bool × Nat)}
    (hi : ∀ t ns, ∀ e ∈ edges, R ns e.2 → R' (reading u f phase (t + ns) - reading u f phase t) e.2)
    (t : Nat) (es : List (Bool × Nat)) (h : ManchesterFrame R (e0 :: edges) es) :
    ManchesterFrame R' (e0 :: edges) (clocked u f phase t es) := by
  obtain ⟨pause, n, es', edges', rfl, he, ht⟩ := h
  simp only [List.cons.injEq] at he
  obtain ⟨rfl, rfl⟩ := he
  exact ⟨_, n, _, edges, rfl, rfl, clocked_timed (fun t ns w hw => hi t ns w hw) _ ht⟩

/-- **C64**, RC5 in real time: edges within 5 %, clock of 40 kHz or more. -/
theorem C64_rc5_real_time (hc : FugitClock hz w micros since) (hw : 32 ≤ w) (hz' : hz < 2 ^ 32)
    (hlo : 40000 ≤ hz) (t : Target) (hus : 16 ≤ t.usizeBits) (f : Nat) (tbl : PulseSpans)
    (htbl : rc5Spans t (Mono.fugit w micros since) f = some tbl) (conv : Rc5Command → K)
    (u : Nat) (hu : 0 < u) (phase t0 : Nat) (items : List (BitVec 14 × List (Bool × Nat) × Option Nat))
    (hok : ∀ i ∈ items, i.1.getLsbD 13 = true ∧
      ManchesterFrame (fun x n => Near u 5 (889 * n) x) (rc5Edges i.1) i.2.1)
    (hgap : ∀ e ∈ (items.flatMap fun i => withTail i.2.1 i.2.2).tail, e.2 * hz + u < 2 ^ (w - 1) * u) :
    (instantRun (Mono.fugit w micros since) (rc5Decoder t tbl) conv
        (stamps u hz phase w t0 (items.flatMap fun i => withTail i.2.1 i.2.2))).map said =
      some (oks (items.map fun i => conv (Rc5Command.unpack (i.1.setWidth 16)))) := by
  have h := fugit_build hc hw hz' t f .rc5
  rw [Kind.build, htbl, Option.some.injEq] at h
  obtain ⟨items', h1, h2, h3⟩ := stamps_tails (by omega) hc
    (rc5Decoder t tbl) conv hu phase t0 (fun x n => Near u 5 (889 * n) x) (Within tbl)
    rc5Edges (fun x => x.getLsbD 13 = true) (by
      intro x t' es hx hfr
      rw [rc5Edges_eq x hx] at hfr ⊢
      refine frame_clocked ?_ t' es hfr
      intro t'' ns e he hn
      rw [h]
      rcases rc5_edges_len x 13 true e he with h1 | h1 <;> rw [h1] at hn ⊢
      · exact fugit_measures hc hu .rc5 (tol := 12) (s := 0) rfl (by omega) (by omega) _ _ hn
      · exact fugit_measures hc hu .rc5 (tol := 10) (s := 1) rfl (by omega) (by omega) _ _ hn)
    items hok hgap
  rw [h3, C63_rc5_series hc hw hz' (by omega) t hus f tbl htbl conv items' h2]
  have h4 := congrArg (List.map fun x : BitVec 14 => conv (Rc5Command.unpack (x.setWidth 16))) h1
  rw [List.map_map, List.map_map] at h4
  exact congrArg (fun l => some (oks l)) h4

/-- **C64**, RC6 (mode 0) in real time: edges within 5 %, clock of 80 kHz or more. -/
theorem C64_rc6_real_time (hc : FugitClock hz w micros since) (hw : 32 ≤ w) (hz' : hz < 2 ^ 32)
    (hlo : 80000 ≤ hz) (t : Target) (hus : 16 ≤ t.usizeBits) (f : Nat) (tbl : PulseSpans)
    (htbl : rc6Spans t (Mono.fugit w micros since) f = some tbl) (conv : Rc6Command → K)
    (u : Nat) (hu : 0 < u) (phase t0 : Nat) (items : List (Rc6Command × List (Bool × Nat) × Option Nat))
    (hok : ∀ i ∈ items, ManchesterFrame (fun x n => Near u 5 (444 * n) x)
      (rc6Edges (i.1.addr ++ i.1.cmd) i.1.toggle) i.2.1)
    (hgap : ∀ e ∈ (items.flatMap fun i => withTail i.2.1 i.2.2).tail, e.2 * hz + u < 2 ^ (w - 1) * u) :
    (instantRun (Mono.fugit w micros since) (rc6Decoder t tbl) conv
        (stamps u hz phase w t0 (items.flatMap fun i => withTail i.2.1 i.2.2))).map said =
      some (oks (items.map fun i => conv i.1)) := by
  have h := fugit_build hc hw hz' t f .rc6
  rw [Kind.build, htbl, Option.some.injEq] at h
  obtain ⟨items', h1, h2, h3⟩ := stamps_tails (by omega) hc
    (rc6Decoder t tbl) conv hu phase t0 (fun x n => Near u 5 (444 * n) x) (WithinRc6 tbl)
    (fun c : Rc6Command => rc6Edges (c.addr ++ c.cmd) c.toggle) (fun _ => True) (by
      intro c t' es _ hfr
      rw [rc6Edges, rc6Edges_eq 0 (.inl rfl)] at hfr ⊢
      refine frame_clocked ?_ t' es hfr
      intro t'' ns e he hn
      have key : ∀ i l, 444 ≤ l → (Kind.symbols .rc6)[i]? = some (l, 12) →
          Near u 5 l ns → InTol tbl i (reading u hz phase (t'' + ns) - reading u hz phase t'') := by
        intro i l hl hs hn'
        have hlf : 444 * 80000 ≤ l * hz := Nat.mul_le_mul hl hlo
        rw [h]
        exact fugit_measures hc hu .rc6 (tol := 12) hs (by omega) (by omega) _ _ hn'
      rcases rc6_edges_len (c.addr ++ c.cmd) c.toggle e he with h1 | h1 | h1 | h1 <;> rw [h1] at hn ⊢
      · exact ⟨key 0 _ (by decide) rfl hn, by simp⟩
      · exact ⟨key 1 _ (by decide) rfl hn, by simp⟩
      · exact ⟨key 2 _ (by decide) rfl hn, by simp⟩
      · refine ⟨key 5 _ (by decide) rfl hn, fun _ h5 => ?_⟩
        rw [h] at h5
        obtain ⟨s, hs, hb⟩ := h5
        rw [fugit_get .rc6 (i := 4) (l := 5 * 444) (tol := 12) rfl, Option.some.injEq] at hs
        subst hs
        have hr := (spanN_bounds (by omega) (ticks_spec hc (by decide)).2 hb).1
        have hb' := (reading_bounds hu hz phase t'' ns).2
        have hm' := Nat.mul_le_mul_right hz hn.1
        rw [Nat.mul_comm _ u, Nat.mul_assoc u, Nat.mul_assoc 100000000] at hm'
        have : (100 - 5) * (444 * 6) * hz ≤
            100000000 * (reading u hz phase (t'' + ns) - reading u hz phase t'') + 100000000 := by
          refine Nat.le_of_mul_le_mul_left (c := u) ?_ hu
          rw [Nat.mul_add, Nat.mul_left_comm u 100000000, Nat.mul_comm u 100000000]
          omega
        omega)
    items (fun i hi => ⟨trivial, hok i hi⟩) hgap
  rw [h3, C63_rc6_series hc hw hz' (by omega) t hus f tbl htbl conv items' fun i hi => (h2 i hi).2]
  have h4 := congrArg (List.map conv) h1
  rw [List.map_map, List.map_map] at h4
  exact congrArg (fun l => some (oks l)) h4

/-! ## Non-vacuity -/

/-- Ticks rounded down and instants compared modulo wrap-around are such a clock, at every frequency and width. -/
theorem wrapping_fugit (hz w : Nat) (hw : 1 ≤ w) :
    FugitClock hz w (fun p => some (p * hz / 1000000))
      (fun a b => if (a + 2 ^ w - b) % 2 ^ w < 2 ^ (w - 1) then some ((a + 2 ^ w - b) % 2 ^ w) else none) := by
  have h2 : 2 ^ w = 2 * 2 ^ (w - 1) := by
    rw [← Nat.pow_succ']; congr 1; omega
  have key : ∀ a d, a < 2 ^ w → d < 2 ^ w → ((a + d) % 2 ^ w + 2 ^ w - a) % 2 ^ w = d := by
    intro a d ha hd
    by_cases h : a + d < 2 ^ w
    · rw [Nat.mod_eq_of_lt h, show a + d + 2 ^ w - a = d + 2 ^ w by omega, Nat.add_mod_right, Nat.mod_eq_of_lt hd]
    · have h' : (a + d) % 2 ^ w = a + d - 2 ^ w := by
        rw [Nat.mod_eq_sub_mod (by omega), Nat.mod_eq_of_lt (by omega)]
      rw [h', show a + d - 2 ^ w + 2 ^ w - a = d by omega, Nat.mod_eq_of_lt hd]
  refine ⟨fun p _ => ⟨_, rfl, ?_⟩, ?_, ?_⟩
  · unfold Rounded
    generalize p * hz = x
    omega
  · intro a d ha hd
    have hd' : d < 2 ^ w := by omega
    simp only [key a d ha hd', hd, if_true]
  · intro a d ha h1 hd
    simp only [key a d ha hd]
    rw [if_neg (by omega)]

/-- NEC words 4 % slow with a repeat code in between, in nanoseconds. -/
def slowNec (w1 w2 : BitVec 32) : List (NecItem × (Nat × Nat)) :=
  [(.frame w1 (jittered 1040 (necPeriods 13500 w1)), (582400, 40000000)),
   (.rep (9360000, 2340000), (582400, 98000000)),
   (.frame w2 (jittered 1040 (necPeriods 13500 w2)), (582400, 10000000000))]

/-- They are heard by a 32 bit, 48 kHz clock that wraps around during the first of them. -/
example (t : Target) : ∃ tbl, necSpans t (Mono.fugit 32 (fun p => some (p * 48000 / 1000000))
      (fun a b => if (a + 2 ^ 32 - b) % 2 ^ 32 < 2 ^ 31 then some ((a + 2 ^ 32 - b) % 2 ^ 32) else none))
      Infrared.nec 0 = some tbl ∧
    (instantRun (Mono.fugit 32 (fun p => some (p * 48000 / 1000000))
        (fun a b => if (a + 2 ^ 32 - b) % 2 ^ 32 < 2 ^ 31 then some ((a + 2 ^ 32 - b) % 2 ^ 32) else none))
      (necDecoder t (Mono.fugit 32 (fun p => some (p * 48000 / 1000000))
        (fun a b => if (a + 2 ^ 32 - b) % 2 ^ 32 < 2 ^ 31 then some ((a + 2 ^ 32 - b) % 2 ^ 32) else none))
        tbl Infrared.nec) id
      (stamps 1000000000 48000 ((2 ^ 32 - 1000) * 1000000000) 32 0
        ((true, 5000) :: series NecItem.wire (slowNec 0xE31CFF00 0x00FF00FF)))).map said =
      some (oks [{ addr := 0x00, cmd := 0x1C, rep := false }, { addr := 0x00, cmd := 0x1C, rep := true },
        { addr := 0xFF, cmd := 0xFF, rep := false }]) := by
  have hc := wrapping_fugit 48000 32 (by decide)
  have hb := fugit_build hc (by decide) (by decide) t 0 .nec
  have htbl : necSpans t _ Infrared.nec 0 = some _ := hb
  refine ⟨_, htbl, ?_⟩
  refine C64_nec_real_time hc (by decide) (by decide) (by decide) t 0 Infrared.nec (.inl rfl) _ htbl id
    1000000000 (by decide) _ 0 5000 ?_ _ ?_ (by decide +kernel)
  · refine ⟨by decide +kernel, ?_⟩
    intro j hj
    simp only [List.mem_cons, List.not_mem_nil, or_false] at hj
    rcases hj with rfl | rfl <;> rintro ⟨s, hs, ha, hb⟩ <;> cases hs
    · exact absurd ha (by decide +kernel)
    · exact absurd ha (by decide +kernel)
  · intro i hi
    simp only [slowNec, List.mem_cons, List.not_mem_nil, or_false] at hi
    rcases hi with rfl | rfl | rfl
    · exact ⟨nearPeriods_zip (by decide +kernel), by decide⟩
    · exact ⟨⟨by decide, by decide⟩, by decide⟩
    · exact ⟨nearPeriods_zip (by decide +kernel), by decide⟩

/-- The stamps wrap around within the first transmission. -/
example : ∃ a b, ((stamps 1000000000 48000 ((2 ^ 32 - 1000) * 1000000000) 32 0
    ((true, 5000) :: series NecItem.wire (slowNec 0xE31CFF00 0x00FF00FF))).map Prod.snd)[1]? = some a ∧
    ((stamps 1000000000 48000 ((2 ^ 32 - 1000) * 1000000000) 32 0
    ((true, 5000) :: series NecItem.wire (slowNec 0xE31CFF00 0x00FF00FF))).map Prod.snd)[60]? = some b ∧ b < a :=
  ⟨_, _, rfl, rfl, by decide +kernel⟩

/-- The hypotheses of the other statements hold for transmissions that are 2.5 % or 4 % off. -/
example : ∀ i ∈ [((0x1234#16, 0x54321#20, jittered 975 (sbpPeriods 0x1234#16 0x54321#20)), (500000, 40000000))],
    NearPeriods 1000000000 3 (sbpPeriods i.1.1 i.1.2.1) i.1.2.2 ∧
      16000 * 1000000000 ≤ 1000000 * (i.2.1 + i.2.2) := by
  intro i hi
  simp only [List.mem_singleton] at hi
  subst hi
  exact ⟨nearPeriods_zip (by decide +kernel), by decide⟩

example : ∀ i ∈ [((0x123456789abc#48, jittered 1025 (denonPeriods 0x123456789abc#48)), (400000, 70000000))],
    NearPeriods 1000000000 3 (denonPeriods i.1.1) i.1.2 ∧
      16000 * 1000000000 ≤ 1000000 * (i.2.1 + i.2.2) := by
  intro i hi
  simp only [List.mem_singleton] at hi
  subst hi
  exact ⟨nearPeriods_zip (by decide +kernel), by decide⟩

example (w : BitVec 14) (hw : w.getLsbD 13 = true) (c : Rc6Command) :
    (∃ es, ∀ i ∈ [(w, es, some 889000)], i.1.getLsbD 13 = true ∧
      ManchesterFrame (fun x n => Near 1000000000 5 (889 * n) x) (rc5Edges i.1) i.2.1) ∧
    ∃ es, ∀ i ∈ [(c, es, (none : Option Nat))],
      ManchesterFrame (fun x n => Near 1000000000 5 (444 * n) x) (rc6Edges (i.1.addr ++ i.1.cmd) i.1.toggle) i.2.1 := by
  constructor
  · obtain ⟨es, he⟩ : ∃ es, ManchesterFrame (fun x n => Near 1000000000 5 (889 * n) x) (rc5Edges w) es := by
      rw [rc5Edges_eq w hw]
      exact ⟨(true, 0) :: _, 0, _, _, _, rfl, rfl, timed_scaled 1040 5 889 (fun n => by unfold Near; omega) _⟩
    refine ⟨es, fun i hi => ?_⟩
    rw [List.mem_singleton] at hi
    subst hi
    exact ⟨hw, he⟩
  · obtain ⟨es, he⟩ : ∃ es, ManchesterFrame (fun x n => Near 1000000000 5 (444 * n) x)
        (rc6Edges (c.addr ++ c.cmd) c.toggle) es := by
      rw [rc6Edges, rc6Edges_eq 0 (.inl rfl)]
      exact ⟨(true, 0) :: _, 0, _, _, _, rfl, rfl, timed_scaled 1040 5 444 (fun n => by unfold Near; omega) _⟩
    refine ⟨es, fun i hi => ?_⟩
    rw [List.mem_singleton] at hi
    subst hi
    exact he

end Infrared
