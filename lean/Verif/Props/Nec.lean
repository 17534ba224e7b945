import Verif.Spec.Frames
import Verif.Lemmas.Nec
import Verif.Lemmas.Tables
import Verif.Props.Timing
import Verif.Props.Words

/-!
# C17–C21: the NEC-family receivers
-/

namespace Infrared

variable {C K : Type}

/-! ## C17 -/

/-- A frame by the classification of its pulses. -/
structure NecGets (tbl : PulseSpans) (w : BitVec 32) (ps : List (Nat × Nat)) : Prop where
  len : ps.length = 33
  sync : ∀ p, ps[0]? = some p → tbl.get (p.1 + p.2) = some 0
  bits : ∀ i p, ps[i + 1]? = some p → tbl.get (p.1 + p.2) = some (if w.getLsbD i then 3 else 2)

theorem nec_frame_get (t : Target) (m : Mono) (hm : m.Lawful) (tbl : PulseSpans)
    (hfit : Fits tbl m.width) (v : NecVariant C) (d : NecDecoder)
    (hidle : d.state = .init) (w : BitVec 32) (ps : List (Nat × Nat))
    (hfr : NecGets tbl w ps) :
    runStep (necFn t m tbl v) d (Spec.pulses ps) =
      some ({ state := .init, bitbuf := w, dtSave := 0 },
        List.replicate 65 (.ok none) ++ [.ok (v.unpack w false)]) := by
  obtain ⟨hlen, hsync, hbits⟩ := hfr
  rcases ps with _ | ⟨⟨h, l⟩, ps⟩
  · simp at hlen
  have hs := hsync _ rfl
  have hp := nec_pulse t m tbl v hm d (.inl hidle) h l (inTol_lt hfit (get_inTol hs))
  rw [nec_classify_sync hs, hidle] at hp
  simp only [necStep] at hp
  have hb := nec_bits t m tbl v hm w 0 ps { state := .receiving 0, bitbuf := 0, dtSave := 0 }
    (by simp at hlen; omega) (by decide) rfl (by simp)
    (by
      intro i p hpi
      have := hbits i p (by simpa using hpi)
      refine ⟨inTol_lt hfit (get_inTol this), ?_⟩
      rw [Nat.zero_add]
      cases hw : w.getLsbD i
      · rw [hw] at this
        exact nec_classify_zero this
      · rw [hw] at this
        exact nec_classify_one this)
  have hpl : ps.length = 32 := by simpa using hlen
  have := run_append_some hp hb
  rw [hpl] at this
  exact this

/-- Decoder level version of C17. -/
theorem nec_frame (t : Target) (m : Mono) (hm : m.Lawful) (tbl : PulseSpans)
    (hu : Spec.Unambiguous tbl 4) (hfit : Fits tbl m.width) (v : NecVariant C) (d : NecDecoder)
    (hidle : d.state = .init) (w : BitVec 32) (ps : List (Nat × Nat))
    (hfr : Spec.NecFrame tbl w ps) :
    runStep (necFn t m tbl v) d (Spec.pulses ps) =
      some ({ state := .init, bitbuf := w, dtSave := 0 },
        List.replicate 65 (.ok none) ++ [.ok (v.unpack w false)]) := by
  refine nec_frame_get t m hm tbl hfit v d hidle w ps
    ⟨hfr.len, fun p hp => inTol_get hu (by decide) (hfr.sync p hp), fun i p hp => ?_⟩
  have := hfr.bits i p hp
  cases hw : w.getLsbD i <;> rw [hw] at this
  · exact inTol_get hu (by decide) this
  · exact inTol_get hu (by decide) this

theorem necTable_fits {f : Nat} (hf : f < 2 ^ 32) {w : Nat} (hw : 32 ≤ w) : Fits (necTable f) w := by
  have h2 : 2 ^ 32 ≤ 2 ^ w := Nat.pow_le_pow_right (by decide) hw
  intro s hs
  refine Nat.lt_of_lt_of_le ?_ h2
  simp only [necTable, List.mem_cons, List.not_mem_nil, or_false] at hs
  rcases hs with rfl | rfl | rfl | rfl | rfl | rfl | rfl | rfl <;>
    first
    | exact spanOf_high_lt _ _ _ (by decide) (by decide) hf
    | decide

theorem samsungTable_fits {f : Nat} (hf : f < 2 ^ 32) {w : Nat} (hw : 32 ≤ w) :
    Fits (samsungTable f) w := by
  have h2 : 2 ^ 32 ≤ 2 ^ w := Nat.pow_le_pow_right (by decide) hw
  intro s hs
  refine Nat.lt_of_lt_of_le ?_ h2
  simp only [samsungTable, List.mem_cons, List.not_mem_nil, or_false] at hs
  rcases hs with rfl | rfl | rfl | rfl | rfl | rfl | rfl | rfl <;>
    first
    | exact spanOf_high_lt _ _ _ (by decide) (by decide) hf
    | decide

/-- The variant uses one of the two timings of the crate. -/
def NecVariant.Shipped (v : NecVariant C) : Prop :=
  v.pulseDistance = necStandardTiming ∨ v.pulseDistance = necSamsungTiming

theorem necSpans_good {m : Mono} (hm : m.IsPrim) (t : Target) {f : Nat} (hlo : 20000 ≤ f)
    (hf : f < 2 ^ 32) (v : NecVariant C) (hv : v.Shipped) {tbl : PulseSpans}
    (h : necSpans t m v f = some tbl) : Spec.Unambiguous tbl 4 ∧ Fits tbl m.width := by
  rcases hv with hv | hv
  · rw [necSpans_standard hm t hf v hv, Option.some.injEq] at h
    subst h
    exact ⟨nec_unambiguous f hlo, necTable_fits hf hm.width⟩
  · rw [necSpans_samsung hm t hf v hv, Option.some.injEq] at h
    subst h
    exact ⟨samsung_unambiguous f hlo, samsungTable_fits hf hm.width⟩

/-- **C17**: an idle NEC-family receiver (any variant, any `u32`/`u64` clock, any frequency of
at least 20 kHz, whatever it received before) decodes every in-tolerance frame: nothing for the
first 65 edges, `unpack(word, false)` on the last one, and it is idle again. -/
theorem C17_nec_frame_decoded (t : Target) (m : Mono) (hm : m = Mono.u32 ∨ m = Mono.u64)
    (f : Nat) (hlo : 20000 ≤ f) (hf : f < 2 ^ 32) (v : NecVariant C) (hv : v.Shipped)
    (tbl : PulseSpans) (htbl : necSpans t m v f = some tbl) (conv : C → K)
    (r : Receiver (necDecoder t m tbl v)) (hidle : NecDecoder.state r.decoder = .init)
    (w : BitVec 32) (ps : List (Nat × Nat)) (hfr : Spec.NecFrame tbl w ps) :
    ∃ r', r.run _ conv (Spec.pulses ps) = some (r', List.replicate 65 (.ok none) ++
        [.ok ((v.unpack w false).map conv)]) ∧
      NecDecoder.state r'.decoder = .init := by
  obtain ⟨hu, hfit⟩ := necSpans_good hm t hlo hf v hv htbl
  have h := nec_frame t m (Mono.prim_lawful hm) tbl hu hfit v r.decoder hidle w ps hfr
  refine ⟨{ r with decoder := ({ state := .init, bitbuf := w, dtSave := 0 } : NecDecoder) },
    (Receiver.run_of (D := necDecoder t m tbl v) conv h).trans ?_, rfl⟩
  simp [Res.map]

/-- **C17** for any clock with exact non-overflowing addition (e.g. fugit) and any
unambiguous table. -/
theorem C17_nec_frame_decoded_any_clock (t : Target) (m : Mono) (hm : m.Lawful)
    (tbl : PulseSpans) (hu : Spec.Unambiguous tbl 4) (hfit : ∀ s ∈ tbl.spans, s.high < 2 ^ m.width)
    (v : NecVariant C) (conv : C → K)
    (r : Receiver (necDecoder t m tbl v)) (hidle : NecDecoder.state r.decoder = .init)
    (w : BitVec 32) (ps : List (Nat × Nat)) (hfr : Spec.NecFrame tbl w ps) :
    ∃ r', r.run _ conv (Spec.pulses ps) = some (r', List.replicate 65 (.ok none) ++
        [.ok ((v.unpack w false).map conv)]) ∧
      NecDecoder.state r'.decoder = .init := by
  have h := nec_frame t m hm tbl hu hfit v r.decoder hidle w ps hfr
  refine ⟨{ r with decoder := ({ state := .init, bitbuf := w, dtSave := 0 } : NecDecoder) },
    (Receiver.run_of (D := necDecoder t m tbl v) conv h).trans ?_, rfl⟩
  simp [Res.map]

theorem nec_gap_idle (t : Target) (m : Mono) (hm : m.Lawful) (tbl : PulseSpans) (v : NecVariant C)
    (d : NecDecoder) (hidle : d.state = .init) (g : Nat)
    (hg : d.dtSave + g < 2 ^ m.width) (h0 : ¬ Spec.InTol tbl 0 (d.dtSave + g))
    (h1 : ¬ Spec.InTol tbl 1 (d.dtSave + g)) :
    necFn t m tbl v d (true, g) =
      some ({ state := .init, bitbuf := d.bitbuf, dtSave := 0 }, .ok none) := by
  have hc := nec_classify_iff tbl (d.dtSave + g)
  rw [nec_rising t m tbl v d (.inl hidle) g (d.dtSave + g)
    (by rw [hm.exact t g d.dtSave (by omega), Nat.add_comm]), hidle]
  have hs : NecPulse.classify tbl (d.dtSave + g) ≠ .sync := fun h => h0 (get_inTol (hc.1.mp h))
  have hr : NecPulse.classify tbl (d.dtSave + g) ≠ .rep := fun h => h1 (get_inTol (hc.2.1.mp h))
  revert hs hr
  cases NecPulse.classify tbl (d.dtSave + g) <;> simp [necStep]

/-- **C17** from power-up: first edge after a gap `g` that is neither a sync nor a repeat
period, then the frame. -/
theorem C17_nec_fresh_receiver (t : Target) (m : Mono) (hm : m = Mono.u32 ∨ m = Mono.u64)
    (f : Nat) (hlo : 20000 ≤ f) (hf : f < 2 ^ 32) (v : NecVariant C) (hv : v.Shipped)
    (tbl : PulseSpans) (htbl : necSpans t m v f = some tbl) (conv : C → K)
    (w : BitVec 32) (ps : List (Nat × Nat)) (hfr : Spec.NecFrame tbl w ps)
    (g : Nat) (hg : g < 2 ^ m.width) (h0 : ¬ Spec.InTol tbl 0 g) (h1 : ¬ Spec.InTol tbl 1 g) :
    results (necDecoder t m tbl v) conv ((true, g) :: Spec.pulses ps) =
      some (List.replicate 66 (.ok none) ++ [.ok ((v.unpack w false).map conv)]) := by
  obtain ⟨hu, hfit⟩ := necSpans_good hm t hlo hf v hv htbl
  have hgap := nec_gap_idle t m (Mono.prim_lawful hm) tbl v
    ({ state := .init, bitbuf := 0, dtSave := 0 } : NecDecoder) rfl g (by simpa using hg)
    (by simpa using h0) (by simpa using h1)
  have h := nec_frame t m (Mono.prim_lawful hm) tbl hu hfit v
    ({ state := .init, bitbuf := 0, dtSave := 0 } : NecDecoder) rfl w ps hfr
  have hg' : runStep (necFn t m tbl v) ({ state := .init, bitbuf := 0, dtSave := 0 } : NecDecoder)
      [(true, g)] = some ({ state := .init, bitbuf := 0, dtSave := 0 }, [.ok none]) := by
    rw [run_singleton, hgap]; rfl
  refine (results_of (D := necDecoder t m tbl v) conv (run_append_some hg' h)).trans ?_
  simp [Res.map, List.replicate_succ]

/-! Non-vacuity: the nominal frames are frames at 1 MHz. -/

theorem nominalNec_frame (w : BitVec 32) :
    Spec.NecFrame (necTable 1000000) w (Spec.nominalNec w) := by
  refine ⟨by simp [Spec.nominalNec], ?_, ?_⟩
  · intro p hp
    simp [Spec.nominalNec] at hp
    subst hp
    exact ⟨_, rfl, by decide⟩
  · intro i p hp
    simp only [Spec.nominalNec, List.getElem?_cons_succ, List.getElem?_map] at hp
    rcases hi : (List.range 32)[i]? with _ | j
    · simp [hi] at hp
    · have hj : j = i := by
        obtain ⟨hl, he⟩ := List.getElem?_eq_some_iff.mp hi
        simpa using he.symm
      subst hj
      rw [hi] at hp
      simp only [Option.map_some, Option.some.injEq] at hp
      subst hp
      cases w.getLsbD j
      · exact ⟨_, rfl, by decide⟩
      · exact ⟨_, rfl, by decide⟩

theorem nominalSamsung_frame (w : BitVec 32) :
    Spec.NecFrame (samsungTable 1000000) w (Spec.nominalSamsung w) := by
  refine ⟨by simp [Spec.nominalSamsung], ?_, ?_⟩
  · intro p hp
    simp [Spec.nominalSamsung] at hp
    subst hp
    exact ⟨_, rfl, by decide⟩
  · intro i p hp
    simp only [Spec.nominalSamsung, List.getElem?_cons_succ, List.getElem?_map] at hp
    rcases hi : (List.range 32)[i]? with _ | j
    · simp [hi] at hp
    · have hj : j = i := by
        obtain ⟨hl, he⟩ := List.getElem?_eq_some_iff.mp hi
        simpa using he.symm
      subst hj
      rw [hi] at hp
      simp only [Option.map_some, Option.some.injEq] at hp
      subst hp
      cases w.getLsbD j
      · exact ⟨_, rfl, by decide⟩
      · exact ⟨_, rfl, by decide⟩

-- A jittered frame of the word 0x00000001 (first bit period 2080 µs instead of 2250).
example : Spec.NecFrame (necTable 1000000) 1#32
    ((9100, 4300) :: (600, 1480) :: List.replicate 31 (500, 650)) := by
  refine ⟨by simp, ?_, ?_⟩
  · intro p hp
    simp at hp; subst hp
    exact ⟨_, rfl, by decide⟩
  · intro i p hp
    rcases i with _ | i
    · simp at hp; subst hp
      exact ⟨_, rfl, by decide⟩
    · simp only [List.getElem?_cons_succ] at hp
      have := List.mem_of_getElem? hp
      simp only [List.mem_replicate] at this
      obtain ⟨-, rfl⟩ := this
      have : (1#32).getLsbD (i + 1) = false := by simp [BitVec.getLsbD_one]
      rw [this]
      exact ⟨_, rfl, by decide⟩

/-! ## C18 -/

/-- Invariant: the mark in progress is the saved duration, and inside a frame the data buffer
spells the bits received since the sync. -/
def NecInv (width : Nat) (tbl : PulseSpans) (h : List Ev) (d : NecDecoder) : Prop :=
  d.dtSave = savedAfter 0 h ∧
  (d.state = .init ∨ ∃ n, n < 32 ∧ d.state = .receiving n ∧
    ∃ pre s bits, Spec.periods width h = pre ++ s :: bits ∧ bits.length = n ∧
      Spec.InTol tbl 0 s ∧ (∀ i, n ≤ i → d.bitbuf.getLsbD i = false) ∧
      ∀ i p, bits[i]? = some p → Spec.InTol tbl (if d.bitbuf.getLsbD i then 3 else 2) p)

theorem NecInv.ready {width : Nat} {tbl : PulseSpans} {h : List Ev} {d : NecDecoder}
    (hi : NecInv width tbl h d) : d.Ready := by
  rcases hi.2 with h | ⟨n, hn, hs, -⟩
  · exact .inl h
  · exact .inr ⟨n, hn, hs⟩

/-- One step: the invariant is kept, and a command is only returned for a complete frame or a
repeat code. -/
theorem nec_inv_step (t : Target) (m : Mono) (hm : m.Lawful) (tbl : PulseSpans)
    (v : NecVariant C) (h : List Ev) (d : NecDecoder) (e : Ev) (d' : NecDecoder) (r : Res C)
    (hi : NecInv m.width tbl h d) (he : necFn t m tbl v d e = some (d', r)) :
    NecInv m.width tbl (h ++ [e]) d' ∧
    ∀ c, r = .ok (some c) → e.1 = true ∧
      ((Spec.EndsWithNecFrame m.width tbl d'.bitbuf (h ++ [e]) ∧ v.unpack d'.bitbuf false = some c) ∨
       (Spec.EndsWithNecRepeat m.width tbl (h ++ [e]) ∧ d'.bitbuf = d.bitbuf ∧ d.state = .init ∧
         v.unpack d.bitbuf true = some c)) := by
  rcases nec_event_cases t m tbl v hi.ready he with ⟨hf, rfl, rfl⟩ | ⟨hr, total, ha, hst⟩
  · obtain ⟨_ | _, dt⟩ := e
    · refine ⟨⟨by simp [savedAfter_append, savedAfter], ?_⟩, by simp⟩
      rcases hi.2 with h1 | ⟨n, hn, hs, pre, s, bits, hp, hrest⟩
      · exact .inl h1
      · refine .inr ⟨n, hn, hs, pre, s, bits, ?_, hrest⟩
        rw [← hp]
        simp [Spec.periods, periodsFrom_append, Spec.periodsFrom]
    · simp at hf
  · obtain ⟨e1, dt⟩ := e
    dsimp only at hr ha
    subst hr
    have htot : total = (savedAfter 0 h + dt) % 2 ^ m.width := by
      rw [hm.wraps _ _ _ _ ha, hi.1, Nat.add_comm]
    have hper : Spec.periods m.width (h ++ [(true, dt)]) = Spec.periods m.width h ++ [total] := by
      simp [Spec.periods, periodsFrom_append, Spec.periodsFrom, htot]
    have hsv : savedAfter 0 (h ++ [(true, dt)]) = 0 := by simp [savedAfter_append, savedAfter]
    have hcl := nec_classify_iff tbl total
    obtain ⟨c1, c2, c3, c4⟩ := hcl
    rcases hi.2 with h1 | ⟨n, hn, hs, pre, s, bits, hp, hblen, hsy, hz, hb⟩
    · -- waiting
      rw [h1] at hst
      cases hcls : NecPulse.classify tbl total <;> rw [hcls] at hst <;>
        simp only [necStep, Prod.mk.injEq] at hst <;> obtain ⟨rfl, rfl⟩ := hst
      · -- sync
        refine ⟨⟨by simp [hsv], .inr ⟨0, by decide, rfl, Spec.periods m.width h, total, [], ?_, rfl, ?_,
          by simp, by simp⟩⟩, by simp⟩
        · rw [hper]
        · exact get_inTol (c1.mp hcls)
      · -- repeat
        refine ⟨⟨by simp [hsv], .inl rfl⟩, ?_⟩
        intro c hc
        refine ⟨rfl, .inr ⟨⟨_, total, hper, get_inTol (c2.mp hcls)⟩, rfl, h1, ?_⟩⟩
        simpa using hc
      all_goals exact ⟨⟨by simp [hsv], .inl rfl⟩, by simp⟩
    · -- inside a frame
      rw [hs] at hst
      have hper' : Spec.periods m.width (h ++ [(true, dt)]) = pre ++ s :: (bits ++ [total]) := by
        rw [hper, hp]; simp
      have hz' : d.bitbuf.getLsbD n = false := hz n (Nat.le_refl _)
      have hbits0 : NecPulse.classify tbl total = .zero → ∀ i p, (bits ++ [total])[i]? = some p →
          Spec.InTol tbl (if d.bitbuf.getLsbD i then 3 else 2) p := by
        intro hcls i p hip
        by_cases hin : i < n
        · rw [List.getElem?_append_left (by omega)] at hip
          exact hb i p hip
        · rw [List.getElem?_append_right (by omega)] at hip
          have : i - bits.length = 0 := by
            rcases hh : i - bits.length with _ | k
            · rfl
            · rw [hh] at hip; simp at hip
          rw [this] at hip
          simp at hip
          subst hip
          rw [hz i (by omega)]
          exact get_inTol (c3.mp hcls)
      have hbits1 : NecPulse.classify tbl total = .one → ∀ i p, (bits ++ [total])[i]? = some p →
          Spec.InTol tbl (if (d.bitbuf ||| (1 : BitVec 32) <<< n).getLsbD i then 3 else 2) p := by
        intro hcls i p hip
        rw [getLsbD_or_shl _ _ _ _ hn]
        by_cases hin : i < n
        · rw [List.getElem?_append_left (by omega)] at hip
          have := hb i p hip
          simpa [show i ≠ n by omega] using this
        · rw [List.getElem?_append_right (by omega)] at hip
          have : i - bits.length = 0 := by
            rcases hh : i - bits.length with _ | k
            · rfl
            · rw [hh] at hip; simp at hip
          rw [this] at hip
          simp at hip
          subst hip
          have : i = n := by omega
          subst this
          simp only [decide_true, Bool.or_true, if_true]
          exact get_inTol (c4.mp hcls)
      cases hcls : NecPulse.classify tbl total <;> rw [hcls] at hst <;>
        simp only [necStep, Prod.mk.injEq] at hst
      · obtain ⟨rfl, rfl⟩ := hst
        exact ⟨⟨by simp [hsv], .inl rfl⟩, by simp⟩
      · obtain ⟨rfl, rfl⟩ := hst
        exact ⟨⟨by simp [hsv], .inl rfl⟩, by simp⟩
      · -- zero
        by_cases h31 : n = 31
        · rw [if_pos h31] at hst
          simp only [Prod.mk.injEq] at hst
          obtain ⟨rfl, rfl⟩ := hst
          refine ⟨⟨by simp [hsv], .inl rfl⟩, ?_⟩
          intro c hc
          refine ⟨rfl, .inl ⟨⟨pre, s, bits ++ [total], hper', by simp [hblen, h31], hsy,
            hbits0 hcls⟩, ?_⟩⟩
          simpa using hc
        · rw [if_neg h31] at hst
          simp only [Prod.mk.injEq] at hst
          obtain ⟨rfl, rfl⟩ := hst
          refine ⟨⟨by simp [hsv], .inr ⟨n + 1, by omega, rfl, pre, s, bits ++ [total], hper',
            by simp [hblen], hsy, ?_, hbits0 hcls⟩⟩, by simp⟩
          intro i hi'
          exact hz i (by omega)
      · -- one
        by_cases h31 : n = 31
        · rw [if_pos h31] at hst
          simp only [Prod.mk.injEq] at hst
          obtain ⟨rfl, rfl⟩ := hst
          refine ⟨⟨by simp [hsv], .inl rfl⟩, ?_⟩
          intro c hc
          refine ⟨rfl, .inl ⟨⟨pre, s, bits ++ [total], hper', by simp [hblen, h31], hsy, ?_⟩, ?_⟩⟩
          · subst h31
            exact hbits1 hcls
          · simpa using hc
        · rw [if_neg h31] at hst
          simp only [Prod.mk.injEq] at hst
          obtain ⟨rfl, rfl⟩ := hst
          refine ⟨⟨by simp [hsv], .inr ⟨n + 1, by omega, rfl, pre, s, bits ++ [total], hper',
            by simp [hblen], hsy, ?_, hbits1 hcls⟩⟩, by simp⟩
          intro i hi'
          dsimp only
          rw [getLsbD_or_shl _ _ _ _ hn, hz i (by omega)]
          simp; omega
      · obtain ⟨rfl, rfl⟩ := hst
        exact ⟨⟨by simp [hsv], .inl rfl⟩, by simp⟩

theorem nec_inv_run (t : Target) (m : Mono) (hm : m.Lawful) (tbl : PulseSpans)
    (v : NecVariant C) {evs : List Ev} {d : NecDecoder} {o : List (Res C)}
    (h : runStep (necFn t m tbl v) { state := .init, bitbuf := 0, dtSave := 0 } evs = some (d, o)) :
    NecInv m.width tbl evs d := by
  have := run_inv (f := necFn t m tbl v) (NecInv m.width tbl)
    (fun h s e s' r hi he => (nec_inv_step t m hm tbl v h s e s' r hi he).1)
    (h0 := []) ⟨rfl, .inl rfl⟩ h
  simpa using this

/-- A result of a converted run comes from a result of the decoder run. -/
theorem map_res_some {conv : C → K} {o : List (Res C)} {i : Nat} {k : K}
    (h : (o.map (Res.map conv))[i]? = some (.ok (some k))) :
    ∃ c, o[i]? = some (.ok (some c)) ∧ k = conv c := by
  rw [List.getElem?_map] at h
  rcases ho : o[i]? with _ | r
  · simp [ho] at h
  · rw [ho] at h
    simp only [Option.map_some, Option.some.injEq] at h
    rcases r with e | (_ | c)
    · simp [Res.map] at h
    · simp [Res.map] at h
    · simp only [Res.map, Option.map_some, Except.ok.injEq, Option.some.injEq] at h
      exact ⟨c, rfl, h.symm⟩

/-- **C18**: whenever a NEC-family receiver (any variant, table, clock, profile) returns a
command as the result of event `i`, that event is a rising edge and the events up to it end
with a complete frame spelling the word of the command, or with a repeat code. -/
theorem C18_nec_sound (t : Target) (m : Mono) (hm : m.Lawful) (tbl : PulseSpans)
    (v : NecVariant C) (conv : C → K) (evs : List Ev) (outs : List (Res K))
    (h : results (necDecoder t m tbl v) conv evs = some outs) (i : Nat) (k : K)
    (hk : outs[i]? = some (.ok (some k))) :
    (∃ dt, evs[i]? = some (true, dt)) ∧
    ∃ w c, k = conv c ∧
      ((Spec.EndsWithNecFrame m.width tbl w (evs.take (i + 1)) ∧ v.unpack w false = some c) ∨
       (Spec.EndsWithNecRepeat m.width tbl (evs.take (i + 1)) ∧ v.unpack w true = some c)) := by
  obtain ⟨d, o, hr, rfl⟩ := nec_results_inv t m tbl v h
  obtain ⟨c, hc, rfl⟩ := map_res_some hk
  obtain ⟨e, s1, o1, s1', he, hrun, hstep, htake, -⟩ := run_get hr hc
  have hinv := nec_inv_run t m hm tbl v hrun
  obtain ⟨-, hpost⟩ := nec_inv_step t m hm tbl v _ _ _ _ _ hinv hstep
  obtain ⟨h1, h2⟩ := hpost c rfl
  obtain ⟨e1, dt⟩ := e
  dsimp only at h1
  subst h1
  refine ⟨⟨dt, he⟩, ?_⟩
  rw [htake]
  rcases h2 with ⟨a, b⟩ | ⟨a, -, -, b⟩
  · exact ⟨_, c, rfl, .inl ⟨a, b⟩⟩
  · exact ⟨_, c, rfl, .inr ⟨a, b⟩⟩

-- The hypotheses of C18 are met by a real reception: word 0x00FF00FF sent to a fresh receiver.
example : results (necDecoder ⟨true, 32⟩ .u32 (necTable 1000000) nec) id
      ((true, 0) :: Spec.pulses (Spec.nominalNec 0x00FF00FF#32)) =
    some (List.replicate 66 (.ok none) ++ [.ok (some ⟨0xFF#8, 0xFF#8, false⟩)]) :=
  C17_nec_fresh_receiver ⟨true, 32⟩ .u32 (.inl rfl) 1000000 (by decide) (by decide) nec (.inl rfl)
    _ (necSpans_standard (.inl rfl) _ (by decide) _ rfl) id _ _ (nominalNec_frame _) 0 (by decide)
    (by rintro ⟨s, hs, h1, h2⟩; simp [necTable] at hs; subst hs; revert h1; decide)
    (by rintro ⟨s, hs, h1, h2⟩; simp [necTable] at hs; subst hs; revert h1; decide)

/-! ## C19 -/

/-- State after a non-repeat command: waiting, with the word of the command in the buffer. -/
theorem nec_after_command (t : Target) (m : Mono) (tbl : PulseSpans) (v : NecVariant C)
    {d d' : NecDecoder} (hd : d.Ready) {e : Ev} {c : C}
    (h : necFn t m tbl v d e = some (d', .ok (some c))) :
    d'.state = .init ∧ ∃ r, v.unpack d'.bitbuf r = some c := by
  rcases nec_event_cases t m tbl v hd h with ⟨-, -, hr⟩ | ⟨-, total, -, hst⟩
  · simp at hr
  · rcases hd with h1 | ⟨n, hn, h1⟩ <;> rw [h1] at hst <;> revert hst <;>
      cases NecPulse.classify tbl total <;> simp only [necStep] <;> (try split) <;>
      simp only [Prod.mk.injEq] <;> rintro ⟨rfl, hr⟩ <;> simp at hr
    all_goals exact ⟨rfl, _, hr.symm⟩

/-- While only repeats are returned and no error occurs, the buffer keeps the word whenever
the decoder is waiting. -/
theorem nec_keeps_word (t : Target) (m : Mono) (tbl : PulseSpans) (v : NecVariant C)
    (isRep : C → Bool) (hrep : ∀ w r, ∃ c, v.unpack w r = some c ∧ isRep c = r)
    (w : BitVec 32) {d d' : NecDecoder} (hd : d.Ready) (hw : d.state = .init → d.bitbuf = w)
    {e : Ev} {r : Res C} (h : necFn t m tbl v d e = some (d', r))
    (hr : r = .ok none ∨ ∃ c, r = .ok (some c) ∧ isRep c = true) :
    d'.Ready ∧ (d'.state = .init → d'.bitbuf = w) := by
  refine ⟨nec_ready_step t m tbl v hd h, ?_⟩
  rcases nec_event_cases t m tbl v hd h with ⟨-, rfl, -⟩ | ⟨-, total, -, hst⟩
  · exact hw
  · rcases hd with h1 | ⟨n, hn, h1⟩
    · rw [h1] at hst
      revert hst
      cases NecPulse.classify tbl total <;> simp only [necStep, Prod.mk.injEq] <;>
        rintro ⟨rfl, -⟩ <;> simp [hw h1]
    · rw [h1] at hst
      have hno : ∀ b, r = .ok (v.unpack b false) → False := by
        intro b hb
        obtain ⟨c, hc, hcr⟩ := hrep b false
        rw [hb, hc] at hr
        rcases hr with hr | ⟨c', hr, hr'⟩
        · simp at hr
        · simp at hr; subst hr; simp [hcr] at hr'
      have hne : r = .error .data → False := by
        rintro rfl
        rcases hr with hr | ⟨c', hr, -⟩ <;> simp at hr
      revert hst
      cases NecPulse.classify tbl total <;> simp only [necStep] <;> (try split) <;>
        simp only [Prod.mk.injEq] <;> rintro ⟨rfl, hr'⟩ <;>
        first
        | exact (hne hr').elim
        | exact (hno _ hr').elim
        | simp

/-- **C19** (partial): suppose a fresh command `c` was returned (not a repeat), after it no
decoding error occurred and only repeats were returned.  Then a further repeat command is `c`
again with the repeat flag set; and if the next edge completes a repeat period, the receiver
returns exactly that, or a decoding error (when it is in the middle of a frame).
Missing: after an error, or with no earlier command, see the refutations below. -/
theorem C19_nec_repeat_generic_partial (t : Target) (m : Mono) (hm : m.Lawful) (tbl : PulseSpans)
    (v : NecVariant C) (isRep : C → Bool)
    (hrep : ∀ w r, ∃ c, v.unpack w r = some c ∧ isRep c = r)
    (evs1 evs2 : List Ev) (e1 e2 : Ev) (o1 o2 : List (Res C)) (c : C) (r : Res C)
    (hl1 : o1.length = evs1.length)
    (h : results (necDecoder t m tbl v) id (evs1 ++ [e1] ++ evs2 ++ [e2]) =
      some (o1 ++ [.ok (some c)] ++ o2 ++ [r]))
    (hfresh : isRep c = false)
    (hquiet : ∀ x ∈ o2, x = .ok none ∨ ∃ c', x = .ok (some c') ∧ isRep c' = true) :
    ∃ w c', v.unpack w false = some c ∧ v.unpack w true = some c' ∧
      (∀ c'', r = .ok (some c'') → isRep c'' = true → c'' = c') ∧
      (Spec.EndsWithNecRepeat m.width tbl (evs1 ++ [e1] ++ evs2 ++ [e2]) → e2.1 = true →
        (∀ d, Spec.InTol tbl 1 d → tbl.get d = some 1) →
        r = .ok (some c') ∨ r = .error .data) := by
  obtain ⟨s, o, hrun, ho⟩ := nec_results_inv t m tbl v h
  have hid : o = o1 ++ [.ok (some c)] ++ o2 ++ [r] := by
    have hmap : ∀ x : Res C, Res.map id x = x := by
      rintro (_ | _ | _) <;> simp [Res.map]
    rw [ho]
    conv => lhs; rw [← List.map_id o]
    exact List.map_congr_left fun x _ => (hmap x).symm
  subst hid
  obtain ⟨s3, o3, r3, h3, hstep2, heq⟩ := run_snoc_inv hrun
  obtain ⟨rfl, hr3⟩ := List.append_inj' heq rfl
  simp only [List.cons.injEq, and_true] at hr3
  subst hr3
  obtain ⟨s2, o12, o22, h12, h22, heq⟩ := run_append_inv h3
  have hlen := run_length h12
  obtain ⟨rfl, rfl⟩ : o1 ++ [.ok (some c)] = o12 ∧ o2 = o22 :=
    List.append_inj heq (by simp [hlen, hl1])
  obtain ⟨s1, o11, r1, h11, hstep1, heq⟩ := run_snoc_inv h12
  obtain ⟨rfl, hr1⟩ := List.append_inj' heq rfl
  simp only [List.cons.injEq, and_true] at hr1
  subst hr1
  have hready1 : NecDecoder.Ready s1 := nec_run_ready t m tbl v (.inl rfl) h11
  obtain ⟨hinit, rr, hrr⟩ := nec_after_command t m tbl v hready1 hstep1
  have hready2 : NecDecoder.Ready s2 := .inl hinit
  have hrr' : rr = false := by
    obtain ⟨c0, hc0, hc0'⟩ := hrep (NecDecoder.bitbuf s2) rr
    rw [hrr] at hc0
    simp only [Option.some.injEq] at hc0
    rw [← hc0, hfresh] at hc0'
    exact hc0'.symm
  subst hrr'
  have key : ∀ (l : List Ev) (oo : List (Res C)) (d d' : NecDecoder), d.Ready →
      (d.state = .init → d.bitbuf = NecDecoder.bitbuf s2) →
      runStep (necFn t m tbl v) d l = some (d', oo) →
      (∀ x ∈ oo, x = .ok none ∨ ∃ c', x = .ok (some c') ∧ isRep c' = true) →
      d'.Ready ∧ (d'.state = .init → d'.bitbuf = NecDecoder.bitbuf s2) := by
    intro l
    induction l with
    | nil =>
      intro oo d d' hd hw hr' _
      simp [runStep] at hr'
      rw [← hr'.1]
      exact ⟨hd, hw⟩
    | cons e es ih =>
      intro oo d d' hd hw hr' hq
      obtain ⟨sa, ra, oa, ha1, ha2, rfl⟩ := run_cons_inv hr'
      obtain ⟨hd1, hw1⟩ := nec_keeps_word t m tbl v isRep hrep _ hd hw ha1 (hq ra (by simp))
      exact ih oa sa d' hd1 hw1 ha2 fun x hx => hq x (by simp [hx])
  obtain ⟨hready3, hword⟩ := key evs2 o2 s2 s3 hready2 (fun _ => rfl) h22 hquiet
  obtain ⟨c', hc', hc'r⟩ := hrep (NecDecoder.bitbuf s2) true
  have hfr : isRep c' = true := hc'r
  refine ⟨NecDecoder.bitbuf s2, c', hrr, hc', ?_, ?_⟩
  · intro c'' hc'' hrep''
    subst hc''
    rcases nec_event_cases t m tbl v hready3 hstep2 with ⟨-, -, hr⟩ | ⟨-, total, -, hst⟩
    · simp at hr
    · have hno : ∀ b, (Except.ok (some c'') : Res C) = .ok (v.unpack b false) → False := by
        intro b hb
        obtain ⟨c0, hc0, hcr⟩ := hrep b false
        rw [hc0] at hb
        simp at hb; subst hb; simp [hcr] at hrep''
      rcases hready3 with h1 | ⟨n, hn, h1⟩ <;> rw [h1] at hst <;> revert hst <;>
        cases NecPulse.classify tbl total <;> simp only [necStep] <;> (try split) <;>
        simp only [Prod.mk.injEq] <;> rintro ⟨-, hr⟩ <;>
        first
        | exact (hno _ hr).elim
        | simp at hr
      rw [hword h1, hc'] at hr
      simpa using hr
  · intro hends hrise hget
    obtain ⟨b2, dt⟩ := e2
    dsimp only at hrise
    subst hrise
    have hinv := nec_inv_run t m hm tbl v h3
    rcases nec_event_cases t m tbl v hready3 hstep2 with ⟨hf, -, -⟩ | ⟨-, total, ha, hst⟩
    · simp at hf
    · obtain ⟨pre, p, hp, hin⟩ := hends
      have htot : total = p := by
        have h4 : Spec.periods m.width (evs1 ++ [e1] ++ evs2 ++ [(true, dt)]) =
            Spec.periods m.width (evs1 ++ [e1] ++ evs2) ++
              [(savedAfter 0 (evs1 ++ [e1] ++ evs2) + dt) % 2 ^ m.width] := by
          rw [Spec.periods, periodsFrom_append]; rfl
        rw [h4] at hp
        obtain ⟨-, h5⟩ := List.append_inj' hp rfl
        simp only [List.cons.injEq, and_true] at h5
        rw [← h5, hm.wraps _ _ _ _ ha, hinv.1, Nat.add_comm]
      subst htot
      rw [nec_classify_rep (hget _ hin)] at hst
      rcases hready3 with h1 | ⟨n, hn, h1⟩ <;> rw [h1] at hst <;>
        simp only [necStep, Prod.mk.injEq] at hst
      · rw [hword h1, hc'] at hst
        exact .inl hst.2
      · exact .inr hst.2

/-- **C19** (partial) for the three variants that report a repeat flag and accept every word. -/
theorem C19_nec_repeat_partial (t : Target) (m : Mono) (hm : m.Lawful) (tbl : PulseSpans)
    (evs1 evs2 : List Ev) (e1 e2 : Ev) (o1 o2 : List (Res NecCommand)) (c c' : NecCommand)
    (hl1 : o1.length = evs1.length)
    (h : results (necDecoder t m tbl nec) id (evs1 ++ [e1] ++ evs2 ++ [e2]) =
      some (o1 ++ [.ok (some c)] ++ o2 ++ [.ok (some c')]))
    (hfresh : c.rep = false) (hrep : c'.rep = true)
    (hquiet : ∀ x ∈ o2, x = .ok none ∨ ∃ c'', x = .ok (some c'') ∧ c''.rep = true) :
    c' = { c with rep := true } := by
  obtain ⟨w, c2, h1, h2, h3, -⟩ := C19_nec_repeat_generic_partial t m hm tbl nec NecCommand.rep
    (fun w r => ⟨_, rfl, rfl⟩) evs1 evs2 e1 e2 o1 o2 c _ hl1 h hfresh hquiet
  rw [h3 c' rfl hrep]
  simp only [nec, NecCommand.unpack, Option.some.injEq] at h1 h2
  rw [← h1, ← h2]

theorem C19_samsung_repeat_partial (t : Target) (m : Mono) (hm : m.Lawful) (tbl : PulseSpans)
    (evs1 evs2 : List Ev) (e1 e2 : Ev) (o1 o2 : List (Res SamsungNecCommand))
    (c c' : SamsungNecCommand)
    (hl1 : o1.length = evs1.length)
    (h : results (necDecoder t m tbl samsungNec) id (evs1 ++ [e1] ++ evs2 ++ [e2]) =
      some (o1 ++ [.ok (some c)] ++ o2 ++ [.ok (some c')]))
    (hfresh : c.rep = false) (hrep : c'.rep = true)
    (hquiet : ∀ x ∈ o2, x = .ok none ∨ ∃ c'', x = .ok (some c'') ∧ c''.rep = true) :
    c' = { c with rep := true } := by
  obtain ⟨w, c2, h1, h2, h3, -⟩ := C19_nec_repeat_generic_partial t m hm tbl samsungNec
    SamsungNecCommand.rep
    (fun w r => ⟨_, rfl, rfl⟩) evs1 evs2 e1 e2 o1 o2 c _ hl1 h hfresh hquiet
  rw [h3 c' rfl hrep]
  simp only [samsungNec, SamsungNecCommand.unpack, Option.some.injEq] at h1 h2
  rw [← h1, ← h2]

theorem C19_nec16_repeat_partial (t : Target) (m : Mono) (hm : m.Lawful) (tbl : PulseSpans)
    (evs1 evs2 : List Ev) (e1 e2 : Ev) (o1 o2 : List (Res Nec16Command))
    (c c' : Nec16Command)
    (hl1 : o1.length = evs1.length)
    (h : results (necDecoder t m tbl nec16) id (evs1 ++ [e1] ++ evs2 ++ [e2]) =
      some (o1 ++ [.ok (some c)] ++ o2 ++ [.ok (some c')]))
    (hfresh : c.rep = false) (hrep : c'.rep = true)
    (hquiet : ∀ x ∈ o2, x = .ok none ∨ ∃ c'', x = .ok (some c'') ∧ c''.rep = true) :
    c' = { c with rep := true } := by
  obtain ⟨w, c2, h1, h2, h3, -⟩ := C19_nec_repeat_generic_partial t m hm tbl nec16
    Nec16Command.rep
    (fun w r => ⟨_, rfl, rfl⟩) evs1 evs2 e1 e2 o1 o2 c _ hl1 h hfresh hquiet
  rw [h3 c' rfl hrep]
  simp only [nec16, Nec16Command.unpack, Option.some.injEq] at h1 h2
  rw [← h1, ← h2]

-- A command followed by two repeat codes: the hypotheses hold with `evs2` containing a repeat.
example : results (necDecoder ⟨true, 32⟩ .u32 (necTable 1000000) nec) id
      ((true, 0) :: Spec.pulses (Spec.nominalNec 0xF708FB04#32 ++
        [(560, 40000), (9000, 2250), (560, 96000), (9000, 2250)])) =
    some (List.replicate 66 (.ok none) ++ [.ok (some ⟨4#8, 8#8, false⟩)] ++
      [.ok none, .ok none, .ok none, .ok (some ⟨4#8, 8#8, true⟩), .ok none, .ok none, .ok none] ++
      [.ok (some ⟨4#8, 8#8, true⟩)]) := by
  rfl

/-- Pulses at 1 MHz: a command, a few bits of a frame that breaks off, a repeat code. -/
def abortedThenRepeat : List Ev :=
  (true, 0) :: Spec.pulses (Spec.nominalNec 0x00FF00FF#32 ++
    [(560, 40000), (9000, 4500), (560, 560), (560, 1690), (560, 40000), (9000, 2250)])

/-- **C19** is false after an aborted frame: the command 0xFF/0xFF was received last, but the
repeat code is reported as address 2, command 0, the two bits of the aborted frame. -/
theorem C19_repeat_after_abort :
    results (necDecoder ⟨true, 32⟩ .u32 (necTable 1000000) nec) id abortedThenRepeat =
      some (List.replicate 66 (.ok none) ++ [.ok (some ⟨0xFF#8, 0xFF#8, false⟩)] ++
        List.replicate 9 (.ok none) ++ [.error .data, .ok none, .ok (some ⟨2#8, 0#8, true⟩)]) := by
  rfl

/-- **C19** is false before any command: a repeat code received by a new receiver is reported
as the command 0/0. -/
theorem C19_repeat_before_command :
    results (necDecoder ⟨true, 32⟩ .u32 (necTable 1000000) nec) id
        ((true, 0) :: Spec.pulses [(9000, 2250)]) =
      some [.ok none, .ok none, .ok (some ⟨0#8, 0#8, true⟩)] := by
  rfl

/-! ## C20 -/

/-- A frame leaves every NEC decoder idle, whatever state it was in. -/
theorem nec_frame_any (t : Target) (m : Mono) (hm : m.Lawful) (tbl : PulseSpans)
    (hu : Spec.Unambiguous tbl 4) (hfit : Fits tbl m.width) (v : NecVariant C) (d : NecDecoder)
    (hd : d.Ready) (w : BitVec 32) (ps : List (Nat × Nat)) (hfr : Spec.NecFrame tbl w ps) :
    ∃ d' o, runStep (necFn t m tbl v) d (Spec.pulses ps) = some (d', o) ∧ d'.state = .init ∧
      o.length = 66 := by
  have hplen : ∀ ps : List (Nat × Nat), (Spec.pulses ps).length = 2 * ps.length := by
    intro ps
    induction ps with
    | nil => rfl
    | cons p ps ih => simp only [Spec.pulses, List.length_cons, ih]; omega
  suffices h : ∃ d' o, runStep (necFn t m tbl v) d (Spec.pulses ps) = some (d', o) ∧
      d'.state = .init by
    obtain ⟨d', o, h1, h2⟩ := h
    exact ⟨d', o, h1, h2, by rw [run_length h1, hplen, hfr.len]⟩
  rcases hd with h1 | ⟨n, hn, h1⟩
  · exact ⟨_, _, nec_frame t m hm tbl hu hfit v d h1 w ps hfr, rfl⟩
  · obtain ⟨hlen, hsync, hbits⟩ := hfr
    rcases ps with _ | ⟨⟨h, l⟩, ps⟩
    · simp at hlen
    have hs := hsync _ rfl
    have hp := nec_pulse t m tbl v hm d (.inr ⟨n, hn, h1⟩) h l (inTol_lt hfit hs)
    rw [nec_classify_sync (inTol_get hu (by decide) hs), h1] at hp
    simp only [necStep] at hp
    have key : ∀ (l : List (Nat × Nat)) (d : NecDecoder), d.state = .init →
        (∀ p ∈ l, Spec.InTol tbl 2 (p.1 + p.2) ∨ Spec.InTol tbl 3 (p.1 + p.2)) →
        ∃ d' o, runStep (necFn t m tbl v) d (Spec.pulses l) = some (d', o) ∧ d'.state = .init := by
      intro l
      induction l with
      | nil => intro d hd _; exact ⟨d, [], rfl, hd⟩
      | cons p l ih =>
        intro d hd hall
        obtain ⟨h, l'⟩ := p
        have hin := hall (h, l') (by simp)
        have hlt : h + l' < 2 ^ m.width := by
          rcases hin with hin | hin <;> exact inTol_lt hfit hin
        have hp := nec_pulse t m tbl v hm d (.inl hd) h l' hlt
        have hcl : NecPulse.classify tbl (h + l') = .zero ∨ NecPulse.classify tbl (h + l') = .one := by
          rcases hin with hin | hin
          · exact .inl (nec_classify_zero (inTol_get hu (by decide) hin))
          · exact .inr (nec_classify_one (inTol_get hu (by decide) hin))
        have hst : (necStep v d.state d.bitbuf (NecPulse.classify tbl (h + l'))).1.state = .init := by
          rw [hd]
          rcases hcl with hcl | hcl <;> rw [hcl] <;> rfl
        obtain ⟨d', o, h2, h3⟩ := ih _ hst fun p hp => hall p (by simp [hp])
        exact ⟨d', _, run_append_some hp h2, h3⟩
    obtain ⟨d', o, h2, h3⟩ := key ps { state := .init, bitbuf := d.bitbuf, dtSave := 0 } rfl (by
      intro p hp'
      obtain ⟨i, hi⟩ := List.getElem?_of_mem hp'
      have := hbits i p (by simpa using hi)
      cases hw : w.getLsbD i <;> rw [hw] at this
      · exact .inl this
      · exact .inr this)
    exact ⟨d', _, run_append_some hp h2, h3⟩

/-- **C20**: after any history that did not panic, a frame, a gap that is neither a sync nor a
repeat period, and then a frame of word `w`: the last frame is decoded.  The first frame may
carry any word (e.g. the same) and any jitter. -/
theorem C20_nec_resync (t : Target) (m : Mono) (hm : m = Mono.u32 ∨ m = Mono.u64)
    (f : Nat) (hlo : 20000 ≤ f) (hf : f < 2 ^ 32) (v : NecVariant C) (hv : v.Shipped)
    (tbl : PulseSpans) (htbl : necSpans t m v f = some tbl) (conv : C → K)
    (evs : List Ev) (outs : List (Res K)) (hist : results (necDecoder t m tbl v) conv evs = some outs)
    (w0 w : BitVec 32) (ps0 ps : List (Nat × Nat)) (hfr0 : Spec.NecFrame tbl w0 ps0)
    (hfr : Spec.NecFrame tbl w ps) (mark gap : Nat) (hgap : mark + gap < 2 ^ m.width)
    (hg0 : ¬ Spec.InTol tbl 0 (mark + gap)) (hg1 : ¬ Spec.InTol tbl 1 (mark + gap)) :
    ∃ lost, lost.length = 66 ∧
    results (necDecoder t m tbl v) conv
        (evs ++ (Spec.pulses ps0 ++ Spec.pulses [(mark, gap)] ++ Spec.pulses ps)) =
      some (outs ++ (lost ++ List.replicate 67 (.ok none) ++
        [.ok ((v.unpack w false).map conv)])) := by
  obtain ⟨hu, hfit⟩ := necSpans_good hm t hlo hf v hv htbl
  have hlaw := Mono.prim_lawful hm
  obtain ⟨d, o, hrun, rfl⟩ := nec_results_inv t m tbl v hist
  have hready : d.Ready := nec_run_ready t m tbl v (.inl rfl) hrun
  obtain ⟨d1, o1, h1, hst1, hl1⟩ := nec_frame_any t m hlaw tbl hu hfit v d hready w0 ps0 hfr0
  have hfall := nec_falling t m tbl v d1 (.inl hst1) mark
  have hrise := nec_gap_idle t m hlaw tbl v { d1 with dtSave := mark } hst1 gap hgap hg0 hg1
  have h2 : runStep (necFn t m tbl v) d1 (Spec.pulses [(mark, gap)]) =
      some ({ state := .init, bitbuf := d1.bitbuf, dtSave := 0 }, [.ok none, .ok none]) := by
    simp only [Spec.pulses, runStep, hfall, hrise]
  have h3 := nec_frame t m hlaw tbl hu hfit v
    { state := .init, bitbuf := d1.bitbuf, dtSave := 0 } rfl w ps hfr
  have hall := run_append_some hrun (run_append_some (run_append_some h1 h2) h3)
  refine ⟨o1.map (Res.map conv), by simpa using hl1, ?_⟩
  refine (results_of (D := necDecoder t m tbl v) conv hall).trans ?_
  simp [Res.map, List.replicate_succ]

-- Receiver stuck in the middle of a frame (sync + 1 bit seen), then two copies of the frame.
example : (results (necDecoder ⟨true, 32⟩ .u32 (necTable 1000000) nec) id
      ((true, 0) :: Spec.pulses ([(9000, 4500), (560, 560)] ++ Spec.nominalNec 0xF708FB04#32 ++
        [(560, 40000)] ++ Spec.nominalNec 0xF708FB04#32))).map (fun o =>
          (o[6]?, o[70]?, o.getLast?)) =
    some (some (.error .data), some (.ok none), some (.ok (some ⟨4#8, 8#8, false⟩))) := by
  rfl

/-! ## C21 -/

/-- **C21** is false for NEC: a receiver returns a command for *every* word, in particular for
all those `validate` rejects.  The word can be any of the 2^32. -/
theorem C21_nec_returns_invalid_words (w : BitVec 32) :
    ∃ evs, results (necDecoder ⟨true, 32⟩ .u32 (necTable 1000000) nec) id evs =
        some (List.replicate 66 (.ok none) ++ [.ok (NecCommand.unpack w false)]) ∧
      Spec.EndsWithNecFrame 32 (necTable 1000000) w evs ∧ (NecCommand.unpack w false).isSome := by
  have h := C17_nec_fresh_receiver ⟨true, 32⟩ .u32 (.inl rfl) 1000000 (by decide) (by decide) nec
    (.inl rfl) _ (necSpans_standard (.inl rfl) _ (by decide) _ rfl) id w _ (nominalNec_frame w) 0
    (by decide)
    (by rintro ⟨s, hs, h1, h2⟩; simp [necTable] at hs; subst hs; revert h1; decide)
    (by rintro ⟨s, hs, h1, h2⟩; simp [necTable] at hs; subst hs; revert h1; decide)
  refine ⟨_, by simpa [nec] using h, ?_, rfl⟩
  obtain ⟨hlen, hsync, hbits⟩ := nominalNec_frame w
  have hper : ∀ l : List (Nat × Nat), (∀ p ∈ l, p.1 + p.2 < 2 ^ 32) →
      Spec.periodsFrom 32 0 (Spec.pulses l) = l.map fun p => p.1 + p.2 := by
    intro l hl
    induction l with
    | nil => rfl
    | cons p l ih =>
      obtain ⟨a, b⟩ := p
      have := hl (a, b) (by simp)
      simp only [Spec.pulses, Spec.periodsFrom, List.map_cons]
      rw [Nat.mod_eq_of_lt this, ih fun p hp => hl p (by simp [hp])]
  have hlt : ∀ p ∈ Spec.nominalNec w, p.1 + p.2 < 2 ^ 32 := by
    intro p hp
    simp only [Spec.nominalNec, List.mem_cons, List.mem_map] at hp
    rcases hp with rfl | ⟨i, -, rfl⟩
    · decide
    · dsimp only; split <;> decide
  refine ⟨[0], 13500, (Spec.nominalNec w).tail.map fun p => p.1 + p.2, ?_, ?_, ?_, ?_⟩
  · have := hper _ hlt
    simp only [Spec.periods, Spec.periodsFrom]
    rw [this]
    rfl
  · simp [Spec.nominalNec]
  · exact hsync (9000, 4500) rfl
  · intro i p hp
    rw [List.getElem?_map] at hp
    rcases hq : (Spec.nominalNec w).tail[i]? with _ | q
    · simp [hq] at hp
    · rw [hq] at hp
      simp only [Option.map_some, Option.some.injEq] at hp
      subst hp
      exact hbits i q (by simpa [Spec.nominalNec] using hq)

/-- Such words exist: 0 is sent, decoded and reported although its check bytes are wrong. -/
theorem C21_nec_validate_not_called :
    NecCommand.validate 0#32 = false ∧
    ∃ evs, Spec.EndsWithNecFrame 32 (necTable 1000000) 0#32 evs ∧
      results (necDecoder ⟨true, 32⟩ .u32 (necTable 1000000) nec) id evs =
        some (List.replicate 66 (.ok none) ++ [.ok (some ⟨0#8, 0#8, false⟩)]) := by
  obtain ⟨evs, h1, h2, -⟩ := C21_nec_returns_invalid_words 0#32
  exact ⟨by decide, evs, h2, h1⟩

/-- Same for Samsung. -/
theorem C21_samsung_validate_not_called :
    SamsungNecCommand.validate 0#32 = false ∧
    results (necDecoder ⟨true, 32⟩ .u32 (samsungTable 1000000) samsungNec) id
        ((true, 0) :: Spec.pulses (Spec.nominalSamsung 0#32)) =
      some (List.replicate 66 (.ok none) ++ [.ok (some ⟨0#8, 0#8, false⟩)]) := by
  refine ⟨by decide, ?_⟩
  rfl

/-- **C21** (partial): it does hold for the Apple variant, whose `unpack` validates: every
returned command comes from a word with the Apple vendor id and odd parity.  Missing: NEC,
Samsung and Nec16, where the claim is false. -/
theorem C21_apple_partial (t : Target) (m : Mono) (hm : m.Lawful) (tbl : PulseSpans)
    (conv : AppleNecCommand → K) (evs : List Ev) (outs : List (Res K))
    (h : results (necDecoder t m tbl appleNec) conv evs = some outs) (i : Nat) (k : K)
    (hk : outs[i]? = some (.ok (some k))) :
    ∃ w c, k = conv c ∧ Spec.HasAppleVendor w ∧ Spec.parity w 32 = true ∧
      Spec.AppleFields w c.commandPage c.command c.deviceId ∧
      ((Spec.EndsWithNecFrame m.width tbl w (evs.take (i + 1)) ∧ c.rep = false) ∨
       (Spec.EndsWithNecRepeat m.width tbl (evs.take (i + 1)) ∧ c.rep = true)) := by
  obtain ⟨-, w, c, hc, h1⟩ := C18_nec_sound t m hm tbl appleNec conv evs outs h i k hk
  rcases h1 with ⟨h1, h2⟩ | ⟨h1, h2⟩
  · obtain ⟨ha, hb⟩ := C04_apple_unpack w false
    obtain ⟨hf, hr⟩ := hb c h2
    have h2' : AppleNecCommand.unpack w false = some c := h2
    obtain ⟨hv, hp⟩ := ha.mp (by rw [h2']; rfl)
    exact ⟨w, c, hc, hv, hp, hf, .inl ⟨h1, hr⟩⟩
  · obtain ⟨ha, hb⟩ := C04_apple_unpack w true
    obtain ⟨hf, hr⟩ := hb c h2
    have h2' : AppleNecCommand.unpack w true = some c := h2
    obtain ⟨hv, hp⟩ := ha.mp (by rw [h2']; rfl)
    exact ⟨w, c, hc, hv, hp, hf, .inr ⟨h1, hr⟩⟩

-- An Apple frame (menu key) is returned, the same frame with wrong parity is not.
example : (results (necDecoder ⟨true, 32⟩ .u32 (necTable 1000000) appleNec) id
      ((true, 0) :: Spec.pulses (Spec.nominalNec 0x9B0687EE#32))).map (·[66]?) =
    some (some (.ok (AppleNecCommand.unpack 0x9B0687EE#32 false))) := by
  rfl

end Infrared
