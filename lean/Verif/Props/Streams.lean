import Verif.Spec.Streams
import Verif.Props.Robust
import Verif.Props.Nec
import Verif.Props.Sbp
import Verif.Props.Denon

/-!
# Any number of transmissions (C56)
-/

namespace Infrared

open Spec

variable {C K : Type}

theorem said_append (a b : List (Res K)) : said (a ++ b) = said a ++ said b :=
  List.filter_append _ _

theorem said_nones (k : Nat) : said (List.replicate k (.ok none) : List (Res K)) = [] :=
  List.filter_eq_nil_iff.mpr (by intro x hx; rw [List.eq_of_mem_replicate hx]; simp)

theorem said_map (conv : C → K) (o : List (Res C)) :
    said (o.map (Res.map conv)) = (said o).map (Res.map conv) := by
  induction o with
  | nil => rfl
  | cons x xs ih =>
    unfold said at ih ⊢
    rw [List.map_cons, List.filter_cons, List.filter_cons, ih]
    rcases x with _ | _ | _ <;> simp [Res.map]

theorem said_ok (x : Option C) : said [(.ok x : Res C)] = oks x.toList := by
  cases x <;> rfl

theorem oks_append (a b : List K) : oks (a ++ b) = oks a ++ oks b := List.map_append

theorem oks_map (conv : C → K) (l : List C) : (oks l).map (Res.map conv) = oks (l.map conv) := by
  simp [oks, Res.map]

/-- Chunks that each lead from a resting state to a resting state. -/
theorem chunks_run {S I A : Type} (f : S → I → Option (S × Res C)) (P : S → Prop)
    (wire : A → List I) (say : A → List C) (items : List A)
    (h : ∀ a ∈ items, ∀ s, P s → ∃ s' o, runStep f s (wire a) = some (s', o) ∧ P s' ∧
      said o = oks (say a)) (s : S) (hs : P s) :
    ∃ s' o, runStep f s (items.flatMap wire) = some (s', o) ∧ P s' ∧
      said o = oks (items.flatMap say) := by
  induction items generalizing s with
  | nil => exact ⟨s, [], rfl, hs, rfl⟩
  | cons a as ih =>
    obtain ⟨s1, o1, h1, hp1, hs1⟩ := h a (by simp) s hs
    obtain ⟨s2, o2, h2, hp2, hs2⟩ := ih (fun b hb => h b (by simp [hb])) s1 hp1
    refine ⟨s2, o1 ++ o2, ?_, hp2, ?_⟩
    · rw [List.flatMap_cons]; exact run_append_some h1 h2
    · rw [said_append, hs1, hs2, List.flatMap_cons, oks_append]

theorem series_eq {A : Type} (wire : A → List (Nat × Nat)) (items : List (A × (Nat × Nat))) :
    series wire items = items.flatMap fun i => pulses (wire i.1) ++ pulses [i.2] := by
  unfold series
  induction items with
  | nil => rfl
  | cons a as ih => simp only [List.flatMap_cons, pulses_append, ih]

theorem flatMap_one {A B : Type} (g : A → B) (l : List A) : (l.flatMap fun a => [g a]) = l.map g := by
  induction l with
  | nil => rfl
  | cons a as ih => simp [List.flatMap_cons, ih]

/-- From a run of the decoder to what the receiver says. -/
theorem said_results {D : Decoder C} (conv : C → K) {evs : List Ev} {s' : D.St}
    {o : List (Res C)} (h : runStep D.step D.init evs = some (s', o)) {l : List C}
    (hl : said o = oks l) : (results D conv evs).map said = some (oks (l.map conv)) := by
  rw [results_of conv h, Option.map_some, said_map, hl, oks_map]

/-! ## NEC -/

/-- A pause behind an item. -/
theorem nec_pause (t : Target) (m : Mono) (hm : m.Lawful) (tbl : PulseSpans) (v : NecVariant C)
    (d : NecDecoder) (hd : d.state = .init) (p : Nat × Nat) (hp : Pause tbl m.width [0, 1] p) :
    runStep (necFn t m tbl v) d (pulses [p]) =
      some ({ state := .init, bitbuf := d.bitbuf, dtSave := 0 }, [.ok none, .ok none]) := by
  obtain ⟨h, l⟩ := p
  obtain ⟨hlt, hno⟩ := hp
  have h1 := nec_gap_idle t m hm tbl v { d with dtSave := h } hd l hlt (hno 0 (by simp))
    (hno 1 (by simp))
  simp only [pulses, runStep, nec_falling t m tbl v d (.inl hd), h1]

theorem nec_series (t : Target) (m : Mono) (hm : m.Lawful) (tbl : PulseSpans)
    (hu : Unambiguous tbl 4) (hfit : Fits tbl m.width) (v : NecVariant C)
    (items : List (NecItem × (Nat × Nat)))
    (hok : ∀ i ∈ items, i.1.Ok tbl ∧ Pause tbl m.width [0, 1] i.2) (d : NecDecoder)
    (hd : d.state = .init) :
    ∃ d' o, runStep (necFn t m tbl v) d (series NecItem.wire items) = some (d', o) ∧
      d'.state = .init ∧ said o = oks (necHeard v.unpack d.bitbuf (items.map Prod.fst)) := by
  rw [series_eq]
  induction items generalizing d with
  | nil => exact ⟨d, [], rfl, hd, rfl⟩
  | cons a as ih =>
    obtain ⟨i, p⟩ := a
    obtain ⟨hi, hp⟩ := hok (i, p) (by simp)
    have hrest := ih (fun b hb => hok b (by simp [hb]))
    cases i with
    | frame w ps =>
      have h1 := nec_frame t m hm tbl hu hfit v d hd w ps hi
      have h2 := nec_pause t m hm tbl v { state := .init, bitbuf := w, dtSave := 0 } rfl p hp
      obtain ⟨d', o, h3, h4, h5⟩ := hrest { state := .init, bitbuf := w, dtSave := 0 } rfl
      refine ⟨d', _, (congrArg (runStep (necFn t m tbl v) d) List.flatMap_cons).trans
        (run_append_some (run_append_some h1 h2) h3), h4, ?_⟩
      · rw [said_append, h5, said_append, said_append, said_nones, said_ok]
        simp only [List.map_cons, necHeard, oks_append, List.nil_append]
        congr 1
        exact List.append_nil _
    | rep q =>
      obtain ⟨a, b⟩ := q
      have hi' : InTol tbl 1 (a + b) := hi
      have h1 := nec_pulse t m tbl v hm d (.inl hd) a b (inTol_lt hfit hi')
      rw [nec_classify_rep (inTol_get hu (by decide) hi'), hd] at h1
      have h2 := nec_pause t m hm tbl v { state := .init, bitbuf := d.bitbuf, dtSave := 0 } rfl p hp
      obtain ⟨d', o, h3, h4, h5⟩ := hrest { state := .init, bitbuf := d.bitbuf, dtSave := 0 } rfl
      refine ⟨d', _, (congrArg (runStep (necFn t m tbl v) d) List.flatMap_cons).trans
        (run_append_some (run_append_some h1 h2) h3), h4, ?_⟩
      · rw [said_append, h5, said_append]
        simp only [List.map_cons, necHeard, oks_append, necStep]
        congr 1
        rw [show ([.ok none, .ok (v.unpack d.bitbuf true)] : List (Res C)) =
          [.ok none] ++ [.ok (v.unpack d.bitbuf true)] from rfl, said_append, said_ok (v.unpack _ _)]
        exact List.append_nil _

/-- A series of NEC transmissions to a new receiver, for any clock and table without ambiguities. -/
theorem nec_series_results (t : Target) (m : Mono) (hl : m.Lawful) (tbl : PulseSpans)
    (hu : Unambiguous tbl 4) (hfit : Fits tbl m.width) (v : NecVariant C) (conv : C → K)
    (g : Nat) (hg : Pause tbl m.width [0, 1] (0, g)) (items : List (NecItem × (Nat × Nat)))
    (hok : ∀ i ∈ items, i.1.Ok tbl ∧ Pause tbl m.width [0, 1] i.2) :
    (results (necDecoder t m tbl v) conv ((true, g) :: series NecItem.wire items)).map said =
      some (oks ((necHeard v.unpack 0 (items.map Prod.fst)).map conv)) := by
  have hgap := nec_gap_idle t m hl tbl v
    ({ state := .init, bitbuf := 0, dtSave := 0 } : NecDecoder) rfl g hg.1
    (hg.2 0 (by simp)) (hg.2 1 (by simp))
  have hg' : runStep (necFn t m tbl v) ({ state := .init, bitbuf := 0, dtSave := 0 } : NecDecoder)
      [(true, g)] = some ({ state := .init, bitbuf := 0, dtSave := 0 }, [.ok none]) := by
    rw [run_singleton, hgap]; rfl
  obtain ⟨d', o, h1, -, h2⟩ := nec_series t m hl tbl hu hfit v items hok
    ({ state := .init, bitbuf := 0, dtSave := 0 } : NecDecoder) rfl
  exact said_results (D := necDecoder t m tbl v) conv (run_append_some hg' h1)
    (by rw [said_append, h2]; rfl)

/-- **C56** for the NEC family: a receiver of 20 kHz or more that listens to any number of frames
and repeat codes, each followed by a stop mark and a pause, returns exactly the commands sent, in
order, each once, and nothing else; a repeat code yields the word before it once more. -/
theorem C56_nec_series (t : Target) (m : Mono) (hm : m = Mono.u32 ∨ m = Mono.u64)
    (f : Nat) (hlo : 20000 ≤ f) (hf : f < 2 ^ 32) (v : NecVariant C) (hv : v.Shipped)
    (tbl : PulseSpans) (htbl : necSpans t m v f = some tbl) (conv : C → K)
    (g : Nat) (hg : Pause tbl m.width [0, 1] (0, g)) (items : List (NecItem × (Nat × Nat)))
    (hok : ∀ i ∈ items, i.1.Ok tbl ∧ Pause tbl m.width [0, 1] i.2) :
    (results (necDecoder t m tbl v) conv ((true, g) :: series NecItem.wire items)).map said =
      some (oks ((necHeard v.unpack 0 (items.map Prod.fst)).map conv)) := by
  obtain ⟨hu, hfit⟩ := necSpans_good hm t hlo hf v hv htbl
  exact nec_series_results t m (Mono.prim_lawful hm) tbl hu hfit v conv g hg items hok

/-! ## SBP -/

theorem sbp_pause (t : Target) (m : Mono) (hm : m.Lawful) (tbl : PulseSpans) (d : SbpDecoder)
    (hd : d.state = .init ∧ d.address = 0 ∧ d.command = 0) (p : Nat × Nat)
    (hp : Pause tbl m.width [0] p) :
    ∃ d', runStep (sbpFn t m tbl) d (pulses [p]) = some (d', [.ok none, .ok none]) ∧
      d'.state = .init ∧ d'.address = 0 ∧ d'.command = 0 := by
  obtain ⟨h, l⟩ := p
  obtain ⟨hlt, hno⟩ := hp
  have h1 := sbp_pulse t m tbl hm d (.inl hd) h l hlt
  have hs : SbpPulse.classify tbl (h + l) ≠ .sync := fun hc =>
    hno 0 (by simp) (get_inTol ((sbp_classify_iff tbl _).1.mp hc))
  obtain ⟨st, a, c, sv⟩ := d
  obtain ⟨rfl, rfl, rfl⟩ := hd
  refine ⟨{ state := .init, address := 0, command := 0, sinceRising := h }, h1.trans ?_, rfl, rfl, rfl⟩
  revert hs
  cases SbpPulse.classify tbl (h + l) <;> simp [sbpStep]

/-- A series of SBP transmissions, for any clock and table without ambiguities. -/
theorem sbp_series (t : Target) (m : Mono) (hl : m.Lawful) (tbl : PulseSpans)
    (hu : Unambiguous tbl 4) (hfit : Fits tbl m.width) (conv : SbpCommand → K) (g : Nat)
    (hg : Pause tbl m.width [0] (0, g))
    (items : List ((BitVec 16 × BitVec 20 × List (Nat × Nat)) × (Nat × Nat)))
    (hok : ∀ i ∈ items, Matches tbl (sbpSlots i.1.1 i.1.2.1) i.1.2.2 ∧
      Pause tbl m.width [0] i.2) :
    (results (sbpDecoder t m tbl) conv ((true, g) :: series (fun i => i.2.2) items)).map said =
      some (oks (items.map fun i => conv (SbpCommand.unpack i.1.1 (i.1.2.1.setWidth 32)))) := by
  obtain ⟨d0, hp0, hi0⟩ := sbp_pause t m hl tbl sbpInit ⟨rfl, rfl, rfl⟩ (0, g) hg
  have hg' : ∃ d1, runStep (sbpFn t m tbl) sbpInit [(true, g)] = some (d1, [.ok none]) ∧
      d1.state = .init ∧ d1.address = 0 ∧ d1.command = 0 := by
    have hf0 : sbpFn t m tbl sbpInit (false, 0) = some (sbpInit, .ok none) :=
      sbp_falling t m tbl sbpInit sbpInit_ready 0
    obtain ⟨s1, r1, o1, q1, q2, q3⟩ := run_cons_inv hp0
    rw [hf0, Option.some.injEq, Prod.mk.injEq] at q1
    obtain ⟨rfl, rfl⟩ := q1
    simp only [List.cons.injEq, true_and] at q3
    exact ⟨d0, by rw [q3]; exact q2, hi0⟩
  obtain ⟨d1, hd1, hi1⟩ := hg'
  obtain ⟨d', o, h1, -, h2⟩ := chunks_run (sbpFn t m tbl)
    (fun d => d.state = .init ∧ d.address = 0 ∧ d.command = 0)
    (fun i => pulses i.1.2.2 ++ pulses [i.2])
    (fun i => [SbpCommand.unpack i.1.1 (i.1.2.1.setWidth 32)]) items (by
      intro a ha s hs
      obtain ⟨hfr, hp⟩ := hok a ha
      have h1 := sbp_frame t m tbl hl hu hfit s hs a.1.1 a.1.2.1 a.1.2.2 hfr
      obtain ⟨d', h2, h3⟩ := sbp_pause t m hl tbl sbpInit ⟨rfl, rfl, rfl⟩ a.2 hp
      refine ⟨d', _, run_append_some h1 h2, h3, ?_⟩
      rw [said_append, said_append, said_nones]; rfl) d1 hi1
  rw [series_eq]
  refine (said_results (D := sbpDecoder t m tbl) conv (run_append_some hd1 h1)
    (by rw [said_append, h2]; rfl)).trans ?_
  rw [flatMap_one, List.map_map]
  rfl

/-- **C56** for SBP. -/
theorem C56_sbp_series (t : Target) (m : Mono) (hm : m = Mono.u32 ∨ m = Mono.u64)
    (f : Nat) (hlo : 20000 ≤ f) (hf : f < 2 ^ 32) (tbl : PulseSpans)
    (htbl : sbpSpans t m f = some tbl) (conv : SbpCommand → K) (g : Nat)
    (hg : Pause tbl m.width [0] (0, g))
    (items : List ((BitVec 16 × BitVec 20 × List (Nat × Nat)) × (Nat × Nat)))
    (hok : ∀ i ∈ items, Matches tbl (sbpSlots i.1.1 i.1.2.1) i.1.2.2 ∧
      Pause tbl m.width [0] i.2) :
    (results (sbpDecoder t m tbl) conv ((true, g) :: series (fun i => i.2.2) items)).map said =
      some (oks (items.map fun i => conv (SbpCommand.unpack i.1.1 (i.1.2.1.setWidth 32)))) := by
  rw [sbpSpans_eq hm t hf, Option.some.injEq] at htbl
  subst htbl
  exact sbp_series t m (Mono.prim_lawful hm) _ (sbp_unambiguous f hlo)
    (sbpTable_fits hf (Mono.IsPrim.width hm)) conv g hg items hok

/-! ## Denon -/

theorem denon_pause (t : Target) (m : Mono) (hm : m.Lawful) (tbl : PulseSpans) (d : DenonDecoder)
    (hd : d.state = .idle ∧ d.buf = 0) (p : Nat × Nat) (hp : Pause tbl m.width [0] p) :
    ∃ d', runStep (denonFn t m tbl) d (pulses [p]) = some (d', [.ok none, .ok none]) ∧
      d'.state = .idle ∧ d'.buf = 0 := by
  obtain ⟨h, l⟩ := p
  obtain ⟨hlt, hno⟩ := hp
  have h1 := denon_pulse t m tbl hm d (.inl hd.1) h l hlt
  have hs : DenonPulse.classify tbl (h + l) ≠ .sync := fun hc =>
    hno 0 (by simp) (get_inTol ((denon_classify_iff tbl _).1.mp hc))
  obtain ⟨st, b, sv⟩ := d
  obtain ⟨rfl, rfl⟩ := hd
  refine ⟨{ state := .idle, buf := 0, dtSave := 0 }, h1.trans ?_, rfl, rfl⟩
  revert hs
  cases DenonPulse.classify tbl (h + l) <;> simp [denonStep]

/-- A series of Denon transmissions, for any clock and table without ambiguities. -/
theorem denon_series (t : Target) (m : Mono) (hl : m.Lawful) (tbl : PulseSpans)
    (hu : Unambiguous tbl 3) (hfit : Fits tbl m.width) (conv : DenonCommand → K) (g : Nat)
    (hg : Pause tbl m.width [0] (0, g))
    (items : List ((BitVec 48 × List (Nat × Nat)) × (Nat × Nat)))
    (hok : ∀ i ∈ items, Matches tbl (denonSlots i.1.1) i.1.2 ∧ Pause tbl m.width [0] i.2) :
    (results (denonDecoder t m tbl) conv ((true, g) :: series (fun i => i.2) items)).map said =
      some (oks (items.map fun i => conv { bits := (i.1.1.setWidth 47).setWidth 64 })) := by
  obtain ⟨d0, hp0, hi0⟩ := denon_pause t m hl tbl denonInit ⟨rfl, rfl⟩ (0, g) hg
  have hg' : ∃ d1, runStep (denonFn t m tbl) denonInit [(true, g)] =
      some (d1, [.ok none]) ∧ d1.state = .idle ∧ d1.buf = 0 := by
    have hf0 : denonFn t m tbl denonInit (false, 0) = some (denonInit, .ok none) :=
      denon_falling t m tbl denonInit denonInit_ready 0
    obtain ⟨s1, r1, o1, q1, q2, q3⟩ := run_cons_inv hp0
    rw [hf0, Option.some.injEq, Prod.mk.injEq] at q1
    obtain ⟨rfl, rfl⟩ := q1
    simp only [List.cons.injEq, true_and] at q3
    exact ⟨d0, by rw [q3]; exact q2, hi0⟩
  obtain ⟨d1, hd1, hi1⟩ := hg'
  obtain ⟨d', o, h1, -, h2⟩ := chunks_run (denonFn t m tbl)
    (fun d => d.state = .idle ∧ d.buf = 0)
    (fun i => pulses i.1.2 ++ pulses [i.2])
    (fun i => [{ bits := low47 i.1.1 }]) items (by
      intro a ha s hs
      obtain ⟨hfr, hp⟩ := hok a ha
      have h1 := denon_frame t m tbl hl hu hfit s hs.1 a.1.1 a.1.2 hfr
      obtain ⟨d', h2, h3⟩ := denon_pause t m hl tbl denonInit ⟨rfl, rfl⟩ a.2 hp
      refine ⟨d', _, run_append_some h1 h2, h3, ?_⟩
      rw [said_append, said_append, said_nones, hs.2,
        show (0 : BitVec 64) ||| low47 a.1.1 = low47 a.1.1 from BitVec.zero_or]; rfl) d1 hi1
  rw [series_eq]
  refine (said_results (D := denonDecoder t m tbl) conv (run_append_some hd1 h1)
    (by rw [said_append, h2]; rfl)).trans ?_
  rw [flatMap_one, List.map_map]
  rfl

/-- **C56** for Denon: the first 47 bits of every word (the 48th is lost, C23). -/
theorem C56_denon_series (t : Target) (m : Mono) (hm : m = Mono.u32 ∨ m = Mono.u64)
    (f : Nat) (hlo : 20000 ≤ f) (hf : f < 2 ^ 32) (tbl : PulseSpans)
    (htbl : denonSpans t m f = some tbl) (conv : DenonCommand → K) (g : Nat)
    (hg : Pause tbl m.width [0] (0, g))
    (items : List ((BitVec 48 × List (Nat × Nat)) × (Nat × Nat)))
    (hok : ∀ i ∈ items, Matches tbl (denonSlots i.1.1) i.1.2 ∧ Pause tbl m.width [0] i.2) :
    (results (denonDecoder t m tbl) conv ((true, g) :: series (fun i => i.2) items)).map said =
      some (oks (items.map fun i => conv { bits := (i.1.1.setWidth 47).setWidth 64 })) := by
  rw [denonSpans_eq hm t hf, Option.some.injEq] at htbl
  subst htbl
  exact denon_series t m (Mono.prim_lawful hm) _ (denon_unambiguous f hlo)
    (denonTable_fits hf (Mono.IsPrim.width hm)) conv g hg items hok

/-! ## RC5 and RC6 -/

/-- A run that ends with a command or an error leaves a decoder that was just reset. -/
theorem run_last_reset {D : Decoder C} {s s' : D.St} {evs : List Ev} {o : List (Res C)} {x : Res C}
    (h : runStep D.step s evs = some (s', o ++ [x])) (hx : x ≠ .ok none) : ∃ s0, s' = D.reset s0 := by
  rcases List.eq_nil_or_concat evs with rfl | ⟨b, e, rfl⟩
  · simp [runStep] at h
  · rw [List.concat_eq_append] at h
    obtain ⟨s1, o1, y, -, h2, h3⟩ := run_snoc_inv h
    obtain ⟨-, rfl⟩ : o = o1 ∧ x = y := by simpa using h3
    exact eventTotal_reset h2 hx

theorem edgesFrom_length (prev : Bool) (n : Nat) (ls : List Bool) :
    (edgesFrom prev n ls).length ≤ ls.length := by
  induction ls generalizing prev n with
  | nil => simp [edgesFrom]
  | cons l ls ih =>
    rw [edgesFrom]
    split
    · exact Nat.le_succ_of_le (ih _ _)
    · simp only [List.length_cons]; exact Nat.succ_le_succ (ih _ _)

theorem frame_length {fits : Nat → Nat → Prop} {edges : List (Bool × Nat)} {evs : List Ev}
    (h : ManchesterFrame fits edges evs) : evs.length = edges.length := by
  obtain ⟨pause, n, evs', edges', rfl, rfl, ht⟩ := h
  simp [Timed.length ht]

/-- RC5 between transmissions: idle, with a small half-bit clock (which matters only where
overflow is checked). -/
def Rest5 (t : Target) (d : Rc5Decoder) : Prop :=
  (∃ odd, Sim5 d ⟨none, 0, odd⟩) ∧ (d.clock ≤ 8 ∨ t.overflowChecks = false)

theorem rc5_tail (t : Target) (hus : 16 ≤ t.usizeBits) (tbl : PulseSpans)
    (hlen : tbl.spans.length ≤ 8) (x : Nat) :
    ∃ d', runStep (rc5Fn t tbl) rc5Init [(false, x)] = some (d', [.ok none]) ∧ Rest5 t d' := by
  have hp : 2 ^ 16 ≤ 2 ^ t.usizeBits := Nat.pow_le_pow_right (by decide) hus
  obtain ⟨d', h1, h2, h3⟩ := rc5_run_ex t tbl hus hlen sim5_init [(false, x)]
    (.inr (by simp only [rc5Init, List.length_singleton]; omega))
  have hout : (runTotal Abs5.step Abs5.init ([(false, x)].map (measure tbl))).2 = [.ok none] ∧
      ∃ odd, (runTotal Abs5.step Abs5.init ([(false, x)].map (measure tbl))).1 = ⟨none, 0, odd⟩ := by
    simp only [List.map_cons, List.map_nil, runTotal, measure, Abs5.step]
    rcases tbl.half x with _ | n
    · exact ⟨rfl, _, rfl⟩
    · exact ⟨rfl, _, rfl⟩
  obtain ⟨ho, odd, hs⟩ := hout
  rw [ho] at h1
  rw [hs] at h2
  exact ⟨d', h1, ⟨odd, h2⟩, by simpa [rc5Init] using h3⟩

theorem rc5_rest_frame (t : Target) (hus : 16 ≤ t.usizeBits) (tbl : PulseSpans)
    (hlen : tbl.spans.length ≤ 8) (d : Rc5Decoder) (hd : Rest5 t d) (w : BitVec 14)
    (hw : w.getLsbD 13 = true) (evs : List Ev)
    (h : ManchesterFrame (HalfBits tbl) (rc5Edges w) evs) (tail : Option Nat) :
    ∃ d' o, runStep (rc5Fn t tbl) d (withTail evs tail) = some (d', o) ∧ Rest5 t d' ∧
      said o = oks [Rc5Command.unpack (w.setWidth 16)] := by
  have hp : 2 ^ 16 ≤ 2 ^ t.usizeBits := Nat.pow_le_pow_right (by decide) hus
  obtain ⟨⟨odd, hsim⟩, hclk⟩ := hd
  have hl : evs.length ≤ 28 := by
    rw [frame_length h]
    refine Nat.le_trans (edgesFrom_length _ _ _) ?_
    simp [rc5Levels]
    decide
  obtain ⟨d1, h1, -, -⟩ := rc5_run_ex t tbl hus hlen hsim evs (by
    rcases hclk with hc | hc
    · exact .inr (by omega)
    · exact .inl hc)
  rw [rc5_abs_frame tbl w hw odd evs h] at h1
  obtain ⟨s0, hs0⟩ := run_last_reset (D := rc5Decoder t tbl) h1 (by simp)
  have hd1 : d1 = rc5Init := hs0
  subst hd1
  cases tail with
  | none =>
    refine ⟨rc5Init, _, h1, ⟨⟨false, sim5_init⟩, .inl (by simp [rc5Init])⟩, ?_⟩
    rw [said_append, said_nones]; rfl
  | some x =>
    obtain ⟨d2, h2, h3⟩ := rc5_tail t hus tbl hlen x
    refine ⟨d2, _, run_append_some h1 h2, h3, ?_⟩
    rw [said_append, said_append, said_nones]; rfl

theorem rc5_halfBits_of {tbl : PulseSpans} (hu : Unambiguous tbl 2) {w : BitVec 14}
    (hw : w.getLsbD 13 = true) {evs : List Ev}
    (h : ManchesterFrame (Within tbl) (rc5Edges w) evs) :
    ManchesterFrame (HalfBits tbl) (rc5Edges w) evs := by
  obtain ⟨pause, n, evs', edges', rfl, he, ht⟩ := h
  refine ⟨pause, n, evs', edges', rfl, he, Timed.imp ht ?_⟩
  intro d e hmem hin
  rw [rc5Edges_eq w hw] at he
  simp only [List.cons.injEq, Prod.mk.injEq, true_and] at he
  obtain ⟨-, rfl⟩ := he
  rw [halfBits_iff, PulseSpans.half]
  rcases rc5_edges_len w 13 true e hmem with h1 | h1 <;> rw [h1] at hin ⊢
  · rw [inTol_get hu (by decide) hin]; rfl
  · rw [inTol_get hu (by decide) hin]; rfl

theorem rc5_halfBits {f : Nat} (hlo : 20000 ≤ f) {w : BitVec 14} (hw : w.getLsbD 13 = true)
    {evs : List Ev} (h : ManchesterFrame (Within (rc5Table f)) (rc5Edges w) evs) :
    ManchesterFrame (HalfBits (rc5Table f)) (rc5Edges w) evs :=
  rc5_halfBits_of (rc5_unambiguous f hlo) hw h

/-- A series of RC5 transmissions, for any table without ambiguities. -/
theorem rc5_series (t : Target) (hus : 16 ≤ t.usizeBits) (tbl : PulseSpans)
    (hlen : tbl.spans.length ≤ 8) (hu : Unambiguous tbl 2) (conv : Rc5Command → K)
    (items : List (BitVec 14 × List Ev × Option Nat))
    (hok : ∀ i ∈ items, i.1.getLsbD 13 = true ∧
      ManchesterFrame (Within tbl) (rc5Edges i.1) i.2.1) :
    (results (rc5Decoder t tbl) conv (items.flatMap fun i => withTail i.2.1 i.2.2)).map said =
      some (oks (items.map fun i => conv (Rc5Command.unpack (i.1.setWidth 16)))) := by
  obtain ⟨d', o, h1, -, h2⟩ := chunks_run (rc5Fn t tbl) (Rest5 t)
    (fun i => withTail i.2.1 i.2.2) (fun i => [Rc5Command.unpack (i.1.setWidth 16)]) items (by
      intro a ha d hd
      obtain ⟨hw, hfr⟩ := hok a ha
      exact rc5_rest_frame t hus _ hlen d hd a.1 hw a.2.1 (rc5_halfBits_of hu hw hfr) a.2.2)
    rc5Init ⟨⟨false, sim5_init⟩, .inl (by simp [rc5Init])⟩
  refine (said_results (D := rc5Decoder t tbl) conv h1 h2).trans ?_
  rw [flatMap_one, List.map_map]
  rfl

/-- **C56** for RC5: any number of transmissions, with pauses of any length; a receiver whose clock
counts half-bits never gets near overflow. -/
theorem C56_rc5_series (t : Target) (hus : 16 ≤ t.usizeBits) (m : Mono)
    (hm : m = Mono.u32 ∨ m = Mono.u64) (f : Nat) (hlo : 20000 ≤ f) (hf : f < 2 ^ 32)
    (tbl : PulseSpans) (htbl : rc5Spans t m f = some tbl) (conv : Rc5Command → K)
    (items : List (BitVec 14 × List Ev × Option Nat))
    (hok : ∀ i ∈ items, i.1.getLsbD 13 = true ∧
      ManchesterFrame (Within tbl) (rc5Edges i.1) i.2.1) :
    (results (rc5Decoder t tbl) conv (items.flatMap fun i => withTail i.2.1 i.2.2)).map said =
      some (oks (items.map fun i => conv (Rc5Command.unpack (i.1.setWidth 16)))) := by
  rw [rc5Spans_eq hm t hf, Option.some.injEq] at htbl
  subst htbl
  exact rc5_series t hus _ (by simp [rc5Table]) (rc5_unambiguous f hlo) conv items hok

/-- RC6 between transmissions. -/
def Rest6 (t : Target) (d : Rc6Decoder) : Prop :=
  (∃ tg odd, Sim6 d ⟨.idle, 0, tg, odd⟩) ∧ (d.clock ≤ 8 ∨ t.overflowChecks = false)

theorem rc6_tail (t : Target) (hus : 16 ≤ t.usizeBits) (tbl : PulseSpans)
    (hlen : tbl.spans.length ≤ 8) (d : Rc6Decoder) (hc : d.clock = 0) (tg odd : Bool)
    (hd : Sim6 d ⟨.idle, 0, tg, odd⟩) (x : Nat) :
    ∃ d', runStep (rc6Fn t tbl) d [(false, x)] = some (d', [.ok none]) ∧ Rest6 t d' := by
  have hp : 2 ^ 16 ≤ 2 ^ t.usizeBits := Nat.pow_le_pow_right (by decide) hus
  obtain ⟨d', h1, h2, h3⟩ := rc6_run_ex t tbl hus hlen hd [(false, x)]
    (.inr (by simp only [hc, List.length_singleton]; omega))
  have hout : (runTotal Abs6.step ⟨.idle, 0, tg, odd⟩ ([(false, x)].map (measure tbl))).2 = [.ok none] ∧
      ∃ tg' odd', (runTotal Abs6.step ⟨.idle, 0, tg, odd⟩ ([(false, x)].map (measure tbl))).1 =
        ⟨.idle, 0, tg', odd'⟩ := by
    simp only [List.map_cons, List.map_nil, runTotal, measure, Abs6.step]
    rcases tbl.half x with _ | n
    · exact ⟨rfl, _, _, rfl⟩
    · exact ⟨rfl, _, _, rfl⟩
  obtain ⟨ho, tg', odd', hs⟩ := hout
  rw [ho] at h1
  rw [hs] at h2
  exact ⟨d', h1, ⟨tg', odd', h2⟩, by simpa [hc] using h3⟩

theorem rc6_rest_frame (t : Target) (hus : 16 ≤ t.usizeBits) (tbl : PulseSpans)
    (hlen : tbl.spans.length ≤ 8) (d : Rc6Decoder) (hd : Rest6 t d) (mode : BitVec 3)
    (hm : EvenMode mode) (w : BitVec 16) (toggle : Bool) (evs : List Ev)
    (h : ManchesterFrame (HalfBits tbl) (rc6EdgesMode mode w toggle) evs) (tail : Option Nat) :
    ∃ d' o, runStep (rc6Fn t tbl) d (withTail evs tail) = some (d', o) ∧ Rest6 t d' ∧
      said o = oks [Rc6Command.fromBits w toggle] := by
  have hp : 2 ^ 16 ≤ 2 ^ t.usizeBits := Nat.pow_le_pow_right (by decide) hus
  obtain ⟨⟨tg, odd, hsim⟩, hclk⟩ := hd
  have hl : evs.length ≤ 52 := by
    rw [frame_length h]
    refine Nat.le_trans (edgesFrom_length _ _ _) ?_
    simp [rc6LevelsMode]
    decide
  obtain ⟨d1, h1, hs1, -⟩ := rc6_run_ex t tbl hus hlen hsim evs (by
    rcases hclk with hc | hc
    · exact .inr (by omega)
    · exact .inl hc)
  rw [rc6_abs_frame tbl mode hm w toggle tg odd evs h] at h1 hs1
  obtain ⟨s0, hs0⟩ := run_last_reset (D := rc6Decoder t tbl) h1 (by simp)
  have hc1 : d1.clock = 0 := congrArg Rc6Decoder.clock (show d1 = Rc6Decoder.reset s0 from hs0)
  cases tail with
  | none =>
    refine ⟨d1, _, h1, ⟨⟨toggle, false, hs1⟩, .inl (by omega)⟩, ?_⟩
    rw [said_append, said_nones]; rfl
  | some x =>
    obtain ⟨d2, h2, h3⟩ := rc6_tail t hus tbl hlen d1 hc1 toggle false hs1 x
    refine ⟨d2, _, run_append_some h1 h2, h3, ?_⟩
    rw [said_append, said_append, said_nones]; rfl

theorem rc6_halfBits_of {tbl : PulseSpans} (hu : Unambiguous tbl 4)
    (h6 : ∀ d, InTol tbl 5 d → ¬ InTol tbl 4 d → tbl.get d = some 5) {w : BitVec 16} {toggle : Bool}
    {evs : List Ev} (h : ManchesterFrame (WithinRc6 tbl) (rc6Edges w toggle) evs) :
    ManchesterFrame (HalfBits tbl) (rc6EdgesMode 0 w toggle) evs := by
  obtain ⟨pause, n, evs', edges', rfl, he, ht⟩ := h
  refine ⟨pause, n, evs', edges', rfl, he, Timed.imp ht ?_⟩
  rintro d e hmem ⟨hin, h5⟩
  rw [rc6Edges, rc6Edges_eq 0 (.inl rfl)] at he
  simp only [List.cons.injEq, Prod.mk.injEq, true_and] at he
  obtain ⟨-, rfl⟩ := he
  rw [halfBits_iff, PulseSpans.half]
  rcases rc6_edges_len w toggle e hmem with h1 | h1 | h1 | h1 <;> rw [h1] at hin h5 ⊢
  · rw [inTol_get hu (by decide) hin]; rfl
  · rw [inTol_get hu (by decide) hin]; rfl
  · rw [inTol_get hu (by decide) hin]; rfl
  · rw [h6 d hin (h5 rfl)]; rfl

theorem rc6_six {m : Mono} (hm : m = Mono.u32 ∨ m = Mono.u64) (t : Target) {f : Nat}
    (hlo : 20000 ≤ f) (hf : f < 2 ^ 32) (d : Nat) (hin : InTol (rc6Table f) 5 d)
    (h5 : ¬ InTol (rc6Table f) 4 d) : (rc6Table f).get d = some 5 := by
  obtain ⟨-, -, h6⟩ := C15_rc6_classification_partial f hlo hf t m hm (rc6Table f)
    (rc6Spans_eq hm t hf)
  obtain ⟨s, hs, hs1, hs2⟩ := hin
  obtain ⟨s5, hs5⟩ : ∃ s5, (rc6Table f).spans[4]? = some s5 := ⟨_, rfl⟩
  refine (h6 d).mpr ⟨s, s5, hs, hs5, ?_, hs1, hs2⟩
  refine Nat.lt_of_not_le fun hle => h5 ⟨s5, hs5, ?_, hle⟩
  refine Nat.le_trans ?_ hs1
  cases hs; cases hs5
  have g4 := scaleVal_le 2220 f
  have g5' := scaleVal_ge f (l := 2664) (by decide)
  simp only [spanOf]
  omega

theorem rc6_halfBits {m : Mono} (hm : m = Mono.u32 ∨ m = Mono.u64) {t : Target} {f : Nat}
    (hlo : 20000 ≤ f) (hf : f < 2 ^ 32) {w : BitVec 16} {toggle : Bool}
    {evs : List Ev} (h : ManchesterFrame (WithinRc6 (rc6Table f)) (rc6Edges w toggle) evs) :
    ManchesterFrame (HalfBits (rc6Table f)) (rc6EdgesMode 0 w toggle) evs :=
  rc6_halfBits_of (rc6_unambiguous f hlo) (rc6_six hm t hlo hf) h

/-- A series of RC6 transmissions, for any table in which one to four units are unambiguous. -/
theorem rc6_series (t : Target) (hus : 16 ≤ t.usizeBits) (tbl : PulseSpans)
    (hlen : tbl.spans.length ≤ 8) (hu : Unambiguous tbl 4)
    (h6 : ∀ d, InTol tbl 5 d → ¬ InTol tbl 4 d → tbl.get d = some 5) (conv : Rc6Command → K)
    (items : List (Rc6Command × List Ev × Option Nat))
    (hok : ∀ i ∈ items, ManchesterFrame (WithinRc6 tbl)
      (rc6Edges (i.1.addr ++ i.1.cmd) i.1.toggle) i.2.1) :
    (results (rc6Decoder t tbl) conv (items.flatMap fun i => withTail i.2.1 i.2.2)).map said =
      some (oks (items.map fun i => conv i.1)) := by
  obtain ⟨d', o, h1, -, h2⟩ := chunks_run (rc6Fn t tbl) (Rest6 t)
    (fun i => withTail i.2.1 i.2.2) (fun i => [i.1]) items (by
      intro a ha d hd
      have h := rc6_rest_frame t hus _ hlen d hd 0 (.inl rfl) (a.1.addr ++ a.1.cmd)
        a.1.toggle a.2.1 (rc6_halfBits_of hu h6 (hok a ha)) a.2.2
      rwa [rc6_fromBits] at h) rc6Init ⟨⟨false, false, sim6_init⟩, .inl (by simp [rc6Init])⟩
  refine (said_results (D := rc6Decoder t tbl) conv h1 h2).trans ?_
  rw [flatMap_one, List.map_map]
  rfl

/-- **C56** for RC6 (mode 0; the leader must not be mistakable for five units, C26). -/
theorem C56_rc6_series (t : Target) (hus : 16 ≤ t.usizeBits) (m : Mono)
    (hm : m = Mono.u32 ∨ m = Mono.u64) (f : Nat) (hlo : 20000 ≤ f) (hf : f < 2 ^ 32)
    (tbl : PulseSpans) (htbl : rc6Spans t m f = some tbl) (conv : Rc6Command → K)
    (items : List (Rc6Command × List Ev × Option Nat))
    (hok : ∀ i ∈ items, ManchesterFrame (WithinRc6 tbl)
      (rc6Edges (i.1.addr ++ i.1.cmd) i.1.toggle) i.2.1) :
    (results (rc6Decoder t tbl) conv (items.flatMap fun i => withTail i.2.1 i.2.2)).map said =
      some (oks (items.map fun i => conv i.1)) := by
  rw [rc6Spans_eq hm t hf, Option.some.injEq] at htbl
  subst htbl
  exact rc6_series t hus _ (by simp [rc6Table]) (rc6_unambiguous f hlo) (rc6_six hm t hlo hf)
    conv items hok

/-! Non-vacuity: two words, a repeat code and a third word, at 1 MHz. -/

def threeWords (w1 w2 w3 : BitVec 32) : List (NecItem × (Nat × Nat)) :=
  [(.frame w1 (nominalNec w1), (560, 40000)), (.frame w2 (nominalNec w2), (560, 40000)),
   (.rep (9000, 2250), (560, 96000)), (.frame w3 (nominalNec w3), (560, 100000))]

theorem threeWords_ok (w1 w2 w3 : BitVec 32) : ∀ i ∈ threeWords w1 w2 w3,
    i.1.Ok (necTable 1000000) ∧ Pause (necTable 1000000) 32 [0, 1] i.2 := by
  intro i hi
  have hrep : InTol (necTable 1000000) 1 11250 := ⟨_, rfl, by decide, by decide⟩
  have hp : ∀ n, 20000 ≤ n → n < 2 ^ 32 - 560 → Pause (necTable 1000000) 32 [0, 1] (560, n) := by
    intro n h1 h2
    refine ⟨by simp only; omega, ?_⟩
    intro j hj
    simp only [List.mem_cons, List.not_mem_nil, or_false] at hj
    rcases hj with rfl | rfl <;> rintro ⟨s, hs, ha, hb⟩ <;> cases hs
    · have : (spanOf 13500 7 1000000).high ≤ 20000 := by decide
      simp only at hb
      omega
    · have : (spanOf 11250 7 1000000).high ≤ 20000 := by decide
      simp only at hb
      omega
  simp only [threeWords, List.mem_cons, List.not_mem_nil, or_false] at hi
  rcases hi with rfl | rfl | rfl | rfl
  · exact ⟨nominalNec_frame w1, hp _ (by decide) (by decide)⟩
  · exact ⟨nominalNec_frame w2, hp _ (by decide) (by decide)⟩
  · exact ⟨hrep, hp _ (by decide) (by decide)⟩
  · exact ⟨nominalNec_frame w3, hp _ (by decide) (by decide)⟩

example : necHeard Infrared.nec.unpack 0 ((threeWords 0xE31CFF00 0xB54A857A 0x00FF00FF).map Prod.fst) =
    [{ addr := 0x00, cmd := 0x1C, rep := false }, { addr := 0x7A, cmd := 0x4A, rep := false },
     { addr := 0x7A, cmd := 0x4A, rep := true }, { addr := 0xFF, cmd := 0xFF, rep := false }] := by
  decide

/-- The hypotheses of the other series theorems hold for nominal frames at 1 MHz. -/
example (l : List (BitVec 16 × BitVec 20)) : ∀ i ∈ l.map fun x => ((x.1, x.2, nominalSbp x.1 x.2), (500, 30000)),
    Matches (sbpTable 1000000) (sbpSlots i.1.1 i.1.2.1) i.1.2.2 ∧
      Pause (sbpTable 1000000) 32 [0] i.2 := by
  intro i hi
  obtain ⟨x, -, rfl⟩ := List.mem_map.mp hi
  refine ⟨nominalSbp_frame _ _, by dsimp only; decide, ?_⟩
  intro j hj
  simp only [List.mem_singleton] at hj
  subst hj
  rintro ⟨s, hs, -, hb⟩
  cases hs
  revert hb
  dsimp only
  decide

example (l : List (BitVec 48)) : ∀ i ∈ l.map fun x => ((x, nominalDenon x), (400, 70000)),
    Matches (denonTable 1000000) (denonSlots i.1.1) i.1.2 ∧
      Pause (denonTable 1000000) 32 [0] i.2 := by
  intro i hi
  obtain ⟨x, -, rfl⟩ := List.mem_map.mp hi
  refine ⟨nominalDenon_frame _, by dsimp only; decide, ?_⟩
  intro j hj
  simp only [List.mem_singleton] at hj
  subst hj
  rintro ⟨s, hs, -, hb⟩
  cases hs
  revert hb
  dsimp only
  decide

example (l : List (BitVec 13)) : ∀ i ∈ l.map fun x =>
      ((1#1 ++ x : BitVec 14), nominalRc5 (1#1 ++ x), (none : Option Nat)),
    i.1.getLsbD 13 = true ∧ ManchesterFrame (Within (rc5Table 1000000)) (rc5Edges i.1) i.2.1 := by
  intro i hi
  obtain ⟨x, -, rfl⟩ := List.mem_map.mp hi
  have hx : (1#1 ++ x : BitVec 14).getLsbD 13 = true := by
    rw [BitVec.getLsbD_append]; rfl
  exact ⟨hx, nominalRc5_frame _ hx⟩

example (l : List Rc6Command) : ∀ i ∈ l.map fun c =>
      (c, nominalRc6 0 (c.addr ++ c.cmd) c.toggle, (some 444 : Option Nat)),
    ManchesterFrame (WithinRc6 (rc6Table 1000000)) (rc6Edges (i.1.addr ++ i.1.cmd) i.1.toggle) i.2.1 := by
  intro i hi
  obtain ⟨x, -, rfl⟩ := List.mem_map.mp hi
  exact nominalRc6_frame _ _

end Infrared
