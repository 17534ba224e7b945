import Verif.Spec.SessionTime
import Verif.Props.Latency
import Verif.Props.RelayLive
import Verif.Props.Busy

/-!
# C105: when the commands of a session are reported
-/

namespace Infrared
open Spec

variable {A C C' K K' : Type}

theorem timedSaid_nothing (t : Nat) (es : List (Bool × Nat)) (o : List (Res K)) (h : said o = []) :
    timedSaid t es o = [] := by
  unfold timedSaid
  rw [List.filter_eq_nil_iff]
  intro x hx
  have h1 := List.filter_eq_nil_iff.mp h x.2 (List.of_mem_zip hx).2
  rcases x with ⟨_, _ | _ | _⟩ <;> simp_all [audible]

theorem lasting_span (ps : List (Nat × Nat)) : lasting ps = span ps := rfl

theorem flat_sum (ps : List (Nat × Nat)) : (flat ps).sum = span ps := by
  induction ps with
  | nil => rfl
  | cons p ps ih =>
    simp only [flat, span, List.flatMap_cons, List.map_cons, List.sum_cons, List.sum_append, List.sum_nil] at ih ⊢
    omega

/-- The frame of a word as a sender transmits it. -/
theorem necPairs_sum (hm hs mk z o : Nat) (w : BitVec 32) : span (necPairs hm hs mk z o w) = (necWave hm hs mk z o w).sum := by
  rw [necPairs_flat, List.sum_cons, flat_sum, Nat.zero_add]

theorem body_timed (t : Target) {fs f : Nat} (hfs : 21000 ≤ fs ∨ (20000 ≤ fs ∧ fs % 1000 = 0))
    (hle : fs ≤ f) (hf : f < 2 ^ 32) {v : NecVariant C} (hv : v.Shipped) {data : NecData}
    (hdata : necData v.pulseDistance fs = some data) {tbl : PulseSpans}
    (htbl : necSpans t Mono.u32 v f = some tbl) (k phase : Nat) (w : C → BitVec 32)
    (hear : C → C) (ws : List (C × Nat))
    (hws : ∀ x ∈ ws, v.unpack (w x.1) false = some (hear x.1) ∧
      22 * fs ≤ 1000 * ((necChunk data k (w x.1) x.2).2 + 1) ∧
      ((necChunk data k (w x.1) x.2).2 + 1) * f / fs + 1 < 2 ^ 32 ∧
      span (necChunk data k (w x.1) x.2).1 + (necChunk data k (w x.1) x.2).2 + 1 = x.2)
    (t0 : Nat) (d : NecDecoder) (hd : d.state = .init) :
    ∃ d' o, runStep (necFn t Mono.u32 tbl v) d
        (pulses (clockedPulses fs f phase t0 (body (ws.map fun x => necChunk data k (w x.1) x.2)))) =
          some (d', o) ∧ d'.state = .init ∧
      ∀ t', timedSaid t' (pulses (body (ws.map fun x => necChunk data k (w x.1) x.2))) o =
        (completes (fun c => (necWave data.headerHigh data.headerLow data.dataHigh data.dataZeroLow data.dataOneLow
          (w c)).sum) t' ws).map fun x => (x.1, .ok (some (hear x.2))) := by
  have hm : Mono.u32 = Mono.u32 ∨ Mono.u32 = Mono.u64 := .inl rfl
  obtain ⟨hu, hfit⟩ := necSpans_good hm t (by omega) hf v hv htbl
  have htwo : 2 * f / fs + 1 < 2 ^ 32 := by
    have : 2 * f / fs ≤ 2 * f / 20000 := Nat.div_le_div_left (by omega) (by decide)
    omega
  induction ws generalizing t0 d with
  | nil => exact ⟨d, [], rfl, hd, fun _ => rfl⟩
  | cons x ws ih =>
    obtain ⟨hx, hlong, hfits, hspan⟩ := hws x (by simp)
    have hfr : NecFrame tbl (w x.1) (clockedPulses fs f phase t0 (necPairs data.headerHigh data.headerLow
        data.dataHigh data.dataZeroLow data.dataOneLow (w x.1))) :=
      necFrame_of_between (by omega) (.inl rfl) (by omega) hf hv htbl (necPairs_limits hfs hv hdata (w x.1))
        phase t0
    have h1 := nec_frame t Mono.u32 (Mono.prim_lawful hm) tbl hu hfit v d hd (w x.1) _ hfr
    rw [hx] at h1
    have hps : (necPairs data.headerHigh data.headerLow data.dataHigh data.dataZeroLow data.dataOneLow (w x.1)).length
        = 33 := by simp [necPairs]
    have hone : ∀ t', timedSaid t' (pulses (necPairs data.headerHigh data.headerLow data.dataHigh data.dataZeroLow
        data.dataOneLow (w x.1))) (List.replicate 65 (.ok none) ++ [.ok (some (hear x.1))]) =
        [(t' + (necWave data.headerHigh data.headerLow data.dataHigh data.dataZeroLow data.dataOneLow (w x.1)).sum,
          .ok (some (hear x.1)))] := by
      intro t'
      rw [timedSaid_last _ _ 65 (by rw [pulses_length, hps]), duration_pulses, lasting_span, necPairs_sum]
      rfl
    have hol : (List.replicate 65 (.ok none) ++ [.ok (some (hear x.1))] : List (Res C)).length =
        (pulses (necPairs data.headerHigh data.headerLow data.dataHigh data.dataZeroLow data.dataOneLow
          (w x.1))).length := by
      rw [pulses_length, hps]; simp
    cases ws with
    | nil =>
      simp only [List.map_cons, List.map_nil, body]
      obtain ⟨d', o, h2, h3, h4⟩ := nec_pauses t Mono.u32 (Mono.prim_lawful hm) tbl v
        (clockedPulses fs f phase (t0 + span (necPairs data.headerHigh data.headerLow
          data.dataHigh data.dataZeroLow data.dataOneLow (w x.1))) (List.replicate (k / 2) (1, 1))) (by
          intro q hq
          obtain ⟨p, hp, t', hq⟩ := clockedPulses_mem hq
          rw [List.eq_of_mem_replicate hp] at hq
          exact nec_not_sync (by omega) hle hf hv htbl hq (.inl rfl) htwo)
        { state := .init, bitbuf := (w x.1), dtSave := 0 } rfl
      refine ⟨d', _, (congrArg (runStep (necFn t Mono.u32 tbl v) d) ?_).trans
        (run_append_some h1 h2), h3, fun t' => ?_⟩
      · rw [necChunk, clockedPulses_append, pulses_append]
      · rw [necChunk, pulses_append, timedSaid_append _ _ _ _ _ hol, hone, timedSaid_nothing _ _ _ h4, List.append_nil]
        rfl
    | cons y ws =>
      simp only [List.map_cons, body] at ih ⊢
      obtain ⟨d1, o1, h2, h3, h4⟩ := nec_pauses t Mono.u32 (Mono.prim_lawful hm) tbl v
        (clockedPulses fs f phase (t0 + span (necPairs data.headerHigh data.headerLow
          data.dataHigh data.dataZeroLow data.dataOneLow (w x.1))) (List.replicate (k / 2) (1, 1) ++
            [(1, (necChunk data k (w x.1) x.2).2)])) (by
          intro q hq
          obtain ⟨p, hp, t', hq⟩ := clockedPulses_mem hq
          rcases List.mem_append.mp hp with hp | hp
          · rw [List.eq_of_mem_replicate hp] at hq
            exact nec_not_sync (by omega) hle hf hv htbl hq (.inl rfl) htwo
          · rw [List.mem_singleton.mp hp] at hq
            refine nec_not_sync (by omega) hle hf hv htbl hq (.inr ?_) ?_
            · simp only; omega
            · rw [Nat.add_comm (1, _).1]; exact hfits)
        { state := .init, bitbuf := (w x.1), dtSave := 0 } rfl
      obtain ⟨d', o, h5, h6, h7⟩ := ih (fun z hz => hws z (by simp [hz]))
        (t0 + span (necPairs data.headerHigh data.headerLow
          data.dataHigh data.dataZeroLow data.dataOneLow (w x.1)) + span (List.replicate (k / 2) (1, 1) ++
            [(1, (necChunk data k (w x.1) x.2).2)])) d1 h3
      refine ⟨d', _, (congrArg (runStep (necFn t Mono.u32 tbl v) d) ?_).trans
        (run_append_some (run_append_some h1 h2) h5), h6, fun t' => ?_⟩
      · rw [show (necChunk data k (w x.1) x.2).1 = necPairs data.headerHigh data.headerLow
          data.dataHigh data.dataZeroLow data.dataOneLow (w x.1) ++ List.replicate (k / 2) (1, 1) from rfl,
          List.append_assoc, ← List.singleton_append, ← List.append_assoc (List.replicate _ _),
          clockedPulses_append, clockedPulses_append, pulses_append, pulses_append, List.append_assoc]
      · have hl2 := runStep_length' h2
        rw [pulses_length, clockedPulses_length] at hl2
        rw [show (necChunk data k (w x.1) x.2).1 = necPairs data.headerHigh data.headerLow
          data.dataHigh data.dataZeroLow data.dataOneLow (w x.1) ++ List.replicate (k / 2) (1, 1) from rfl,
          List.append_assoc, ← List.singleton_append, ← List.append_assoc (List.replicate _ _),
          pulses_append, pulses_append, List.append_assoc, timedSaid_append _ _ _ _ _ hol, hone,
          timedSaid_append _ _ _ _ _ (by rw [pulses_length]; exact hl2), timedSaid_nothing _ _ _ h4, List.nil_append, h7,
          duration_pulses, duration_pulses, lasting_span, lasting_span]
        have hs : span (necPairs data.headerHigh data.headerLow
          data.dataHigh data.dataZeroLow data.dataOneLow (w x.1)) + span (List.replicate (k / 2) (1, 1) ++
            [(1, (necChunk data k (w x.1) x.2).2)]) = x.2 := by
          have : span [(1, (necChunk data k (w x.1) x.2).2)] = 1 + (necChunk data k (w x.1) x.2).2 := by simp [span]
          rw [show (necChunk data k (w x.1) x.2).1 = necPairs data.headerHigh data.headerLow
            data.dataHigh data.dataZeroLow data.dataOneLow (w x.1) ++ List.replicate (k / 2) (1, 1) from rfl,
            span_append] at hspan
          rw [span_append, this]
          omega
        rw [Nat.add_assoc, hs]
        rfl

theorem frame_ticks (hm hs mk z o : Nat) (w : BitVec 32) :
    (necWave hm hs mk z o w).sum = frameTicks hm hs mk z o (ones w) := by
  have : (necWave hm hs mk z o w).sum = (necWave hm hs mk z o w).tail.sum := by
    simp [necWave]
  rw [this, necWave_sum, frameTicks]

/-- C105: a sender of the NEC family is given commands as in C57.  The receiver reports each of them at the first poll
after its last bit is over: at the time it was loaded and the length of its frame, which depends only on the number of
one bits.  It says nothing at any other poll. -/
theorem C105_nec_session (t : Target) (fs : Nat)
    (hfs : 21000 ≤ fs ∨ (20000 ≤ fs ∧ fs % 1000 = 0)) (f : Nat) (hle : fs ≤ f) (hf : f < 2 ^ 32)
    (v : NecVariant C) (hv : v.Shipped) (data : NecData) (hdata : necData v.pulseDistance fs = some data)
    (tbl : PulseSpans) (htbl : necSpans t Mono.u32 v f = some tbl) (conv : C → K)
    (cmds : List (C × Nat)) (hear : C → C)
    (hcmds : ∀ x ∈ cmds, ∃ w, v.pack x.1 = some w ∧ v.unpack w false = some (hear x.1))
    (s : Sender) (hidle : s.buffer.status = .idle) (k : Nat) (hlen : s.buffer.ptb.buf.length = 67 + k)
    (hz : s.buffer.ptb.buf.drop 67 = List.replicate k 0)
    (hticks : ∀ x ∈ cmds, 108 * fs + 1000 * k ≤ 1000 * x.2 ∧ x.2 * f / fs + 1 < 2 ^ 32) :
    ∃ s' levels, s.calls (session (necEncode v data) cmds) = some (s', levels) ∧
      s'.buffer.status = .idle ∧ ∀ pause phase n, phase < fs →
      Pause tbl 32 [0, 1] (0, reading fs f phase pause + 1) →
      reading fs f phase (pause + sessionTicks cmds) < n →
      ∃ outs, pollRun (necDecoder t Mono.u32 tbl v) conv (overhear fs f phase pause levels n) = some outs ∧
        numberedSaid 1 outs = (completes (fun c => frameTicks data.headerHigh data.headerLow data.dataHigh
          data.dataZeroLow data.dataOneLow (ones ((v.pack c).getD 0))) pause cmds).map fun x =>
            (reading fs f phase x.1 + 1, .ok (some (conv (hear x.2)))) := by
  have h14 : 14000 ≤ fs := by omega
  let w : C → BitVec 32 := fun c => (v.pack c).getD 0
  have hw : ∀ x ∈ cmds, v.pack x.1 = some (w x.1) ∧ v.unpack (w x.1) false = some (hear x.1) := by
    intro x hx
    obtain ⟨y, h1, h2⟩ := hcmds x hx
    have : w x.1 = y := by simp only [w, h1, Option.getD_some]
    rw [this]
    exact ⟨h1, h2⟩
  obtain ⟨s', hcalls, hid⟩ := session_calls hv h14 hdata w cmds (fun x hx => (hw x hx).1)
    (fun x hx => (hticks x hx).1) s hidle hlen hz
  refine ⟨s', _, hcalls, hid, fun pause phase n hphase hpause hn => ?_⟩
  have hchunk : ∀ x ∈ cmds, span (necChunk data k (w x.1) x.2).1 + (necChunk data k (w x.1) x.2).2 + 1 = x.2 ∧
      22 * fs ≤ 1000 * ((necChunk data k (w x.1) x.2).2 + 1) := by
    intro x hx
    have h1 := (hticks x hx).1
    have h2 := necPairs_span h14 hdata hv (w x.1)
    simp only [necChunk, span_append, span_ones]
    omega
  rw [overhear]
  by_cases hne : cmds = []
  · subst hne
    have : looked fs f phase (List.replicate pause false ++ List.flatMap chunkLevels
        (List.map (fun x => necChunk data k (w x.1) x.2) ([] : List (C × Nat)))) n =
        List.replicate n false := by
      simp [looked, List.getD_eq_getElem?_getD, List.getElem?_replicate, List.eq_replicate_iff]
      intros
      split <;> rfl
    rw [this, C54_silent_line]
    refine ⟨_, rfl, ?_⟩
    have := numberedSaid_silent (K := K) 1 n []
    rw [List.append_nil] at this
    rw [this]
    rfl
  generalize hcs : (cmds.map fun x => necChunk data k (w x.1) x.2) = cs at *
  have hmem : ∀ c ∈ cs, ∃ x ∈ cmds, c = necChunk data k (w x.1) x.2 := by
    intro c hc
    rw [← hcs] at hc
    obtain ⟨x, hx, rfl⟩ := List.mem_map.mp hc
    exact ⟨x, hx, rfl⟩
  have hpos : ∀ c ∈ cs, 1 ≤ c.2 ∧ ∀ p ∈ c.1, 0 < p.1 ∧ 0 < p.2 := by
    intro c hc
    obtain ⟨x, hx, rfl⟩ := hmem c hc
    refine ⟨by have := (hchunk x hx).2; omega, fun p hp => ?_⟩
    rcases List.mem_append.mp hp with hp | hp
    · have := necPairs_pos h14 hdata hv (w x.1) p hp
      exact ⟨this.1.1, this.2.1⟩
    · rw [List.eq_of_mem_replicate hp]; decide
  have hedges : edgesFrom false 0 (List.replicate pause false ++ cs.flatMap chunkLevels) =
      (true, pause) :: (pulses (body cs) ++ [(false, 1)]) := by
    rw [edgesFrom_replicate, Nat.zero_add, edges_chunks cs hpos (by rw [← hcs]; simpa using hne)]
    rfl
  have hsum : (cs.flatMap chunkLevels).length = sessionTicks cmds := by
    rw [← hcs]
    clear hcs hmem hpos hedges hcalls hne hn hpause hcmds hw
    induction cmds with
    | nil => rfl
    | cons x xs ih =>
      have := (hchunk x (by simp)).1
      have hlev : (chunkLevels (necChunk data k (w x.1) x.2)).length = x.2 := by
        rw [chunkLevels, List.length_append, List.length_replicate, transmission_span]
        · omega
        · intro p hp
          rcases List.mem_append.mp hp with hp | hp
          · have := necPairs_pos h14 hdata hv (w x.1) p hp
            exact ⟨this.1.1, this.2.1⟩
          · rw [List.eq_of_mem_replicate hp]; decide
      have := ih (fun y hy => hticks y (by simp [hy])) (fun y hy => hchunk y (by simp [hy]))
      simp only [List.map_cons, List.flatMap_cons, List.length_append, hlev, this, sessionTicks,
        List.sum_cons]
  have hbound : ∀ e ∈ pulses (body cs) ++ [(false, 1)], 1 ≤ e.2 ∧ e.2 * f / fs + 1 < 2 ^ 32 := by
    have key : ∀ y : Nat, ∀ x ∈ cmds, y ≤ x.2 → y * f / fs + 1 < 2 ^ 32 := by
      intro y x hx hy
      have h1 := (hticks x hx).2
      have h2 : y * f / fs ≤ x.2 * f / fs := Nat.div_le_div_right (Nat.mul_le_mul_right _ hy)
      omega
    intro e he
    rcases List.mem_append.mp he with he | he
    · obtain ⟨p, hp, h⟩ := mem_pulses he
      obtain ⟨c, hc, hpc⟩ := mem_body hp
      have hc' := hpos c hc
      obtain ⟨x, hx, rfl⟩ := hmem c hc
      have hx' := (hchunk x hx).1
      rcases hpc with hpc | rfl
      · have h1 := hc'.2 p hpc
        have h2 := le_span hpc
        rcases h with h | h
        · rw [h]; exact ⟨h1.1, key _ x hx (by omega)⟩
        · rw [h]; exact ⟨h1.2, key _ x hx (by omega)⟩
      · rcases h with h | h
        · rw [h]; exact ⟨Nat.le_refl 1, key _ x hx (by simp only; omega)⟩
        · rw [h]; exact ⟨hc'.1, key _ x hx (by simp only; omega)⟩
    · rw [List.mem_singleton.mp he]
      obtain ⟨x, hx⟩ := List.exists_mem_of_ne_nil _ hne
      have := (hchunk x hx).1
      exact ⟨Nat.le_refl 1, key _ x hx (by simp only; omega)⟩
  have hdur : duration ((true, pause) :: (pulses (body cs) ++ [(false, 1)])) ≤
      pause + sessionTicks cmds := by
    have := edges_duration (List.replicate pause false ++ cs.flatMap chunkLevels) false 0
    rw [hedges, List.length_append, hsum, List.length_replicate] at this
    omega
  have hlast := last_chunks cs (fun c hc => (hpos c hc).1) (List.replicate pause false)
    (by cases pause <;> simp [List.replicate_succ'])
  rw [looked_polled (by omega) hphase _ hlast, hedges]
  have hgap := nec_gap_idle t Mono.u32 (Mono.prim_lawful (.inl rfl)) tbl v
    ({ state := .init, bitbuf := 0, dtSave := 0 } : NecDecoder) rfl (reading fs f phase pause + 1)
    hpause.1 (hpause.2 0 (by simp)) (hpause.2 1 (by simp))
  have hg' : runStep (necFn t Mono.u32 tbl v) ({ state := .init, bitbuf := 0, dtSave := 0 } : NecDecoder)
      [(true, reading fs f phase pause + 1)] =
      some ({ state := .init, bitbuf := 0, dtSave := 0 }, [.ok none]) := by
    rw [run_singleton, hgap]; rfl
  obtain ⟨d', o, h1, h2, h3⟩ := body_timed t hfs hle hf hv hdata htbl k phase w hear cmds (by
    intro x hx
    refine ⟨(hw x hx).2, (hchunk x hx).2, ?_, (hchunk x hx).1⟩
    have h1 := (hticks x hx).2
    have h2 := (hchunk x hx).1
    have h3 : ((necChunk data k (w x.1) x.2).2 + 1) * f / fs ≤ x.2 * f / fs :=
      Nat.div_le_div_right (Nat.mul_le_mul_right _ (by omega))
    omega) pause ({ state := .init, bitbuf := 0, dtSave := 0 } : NecDecoder) rfl
  rw [hcs] at h1
  have hlast : ∀ y, runStep (necFn t Mono.u32 tbl v) d' [(false, y)] =
      some ({ d' with dtSave := y }, [.ok none]) := by
    intro y
    rw [run_singleton, nec_falling _ _ _ _ _ (.inl h2)]; rfl
  have hlen' := runStep_length' h1
  rw [pulses_length, clockedPulses_length] at hlen'
  obtain ⟨o', h4, h5⟩ := timed_results (D := necDecoder t Mono.u32 tbl v) conv hg'
    (run_append_some h1 (hlast ((clocked fs f phase (pause + duration (pulses (body cs))) [(false, 1)]).head!.2))) pause
    (pulses (body cs) ++ [(false, 1)])
  have hg1 : ∀ e ∈ pulses (body cs) ++ [(false, 1)], fs ≤ e.2 * f := by
    intro e he
    calc fs ≤ 1 * f := by omega
      _ ≤ e.2 * f := Nat.mul_le_mul_right _ (hbound e he).1
  have hg2 : reading fs f phase (duration ((true, pause) :: (pulses (body cs) ++ [(false, 1)]))) < n :=
    Nat.lt_of_le_of_lt (reading_le _ _ _ hdur) hn
  have hg3 : reading fs f phase pause + 1 < 2 ^ 32 := by
    have := hpause.1
    simp only [Nat.zero_add] at this
    exact this
  obtain ⟨outs, h6, h7⟩ := C83_placement (necDecoder t Mono.u32 tbl v) conv fs (by omega) f phase true pause
    (pulses (body cs) ++ [(false, 1)]) (hedges ▸ edgesFrom_changes _ false 0) hg1 n hg2 hg3
    (fun e he => (hbound e he).2) o' (by rw [clocked_append, clocked_pulses]; exact h4)
  refine ⟨outs, h6, ?_⟩
  have h8 := timedSaid_silent (K := C) (pause + duration (pulses (body cs))) [(false, 1)] 1
  rw [h7, h5, timedSaid_append _ _ _ _ _ (by rw [pulses_length]; exact hlen'),
    show ([.ok none] : List (Res C)) = List.replicate 1 (.ok none) from rfl, h8, List.append_nil, ← hcs, h3,
    List.map_map, List.map_map]
  simp only [frame_ticks, w]
  rfl

/-! ## The distances between the reports -/

theorem quiet_first (outs : List (Res K)) : ∀ (k : Nat) (l : List (Nat × K)),
    numberedSaid k outs = l.map (fun x => (x.1, .ok (some x.2))) →
    k + quietPolls outs = (l.head?.map Prod.fst).getD (k + outs.length) := by
  induction outs with
  | nil =>
    intro k l h
    cases l with
    | nil => rfl
    | cons x l => cases h
  | cons r outs ih =>
    intro k l h
    rw [numberedSaid_cons] at h
    rcases r with e | _ | c
    · cases l with
      | nil => cases h
      | cons x l => simp [audible] at h
    · have := ih (k + 1) l (by simpa [audible] using h)
      rw [quietPolls, List.length_cons]
      · rw [show k + (outs.length + 1) = k + 1 + outs.length by omega, ← this]; omega
      · intro c hc; cases hc
    · cases l with
      | nil => cases h
      | cons x l =>
        simp only [audible, if_true, List.singleton_append, List.map_cons, List.cons.injEq, Prod.mk.injEq] at h
        simp [quietPolls, h.1.1]

/-- The polls between two reports, from the numbers of the polls that report. -/
theorem spaced_distances (outs : List (Res K)) : ∀ (k : Nat) (l : List (Nat × K)),
    numberedSaid k outs = l.map (fun x => (x.1, .ok (some x.2))) →
    spaced outs = distances (k + outs.length) l := by
  induction outs with
  | nil =>
    intro k l h
    cases l with
    | nil => rfl
    | cons x l => cases h
  | cons r outs ih =>
    intro k l h
    have h0 := h
    rw [numberedSaid_cons] at h
    have e : k + (outs.length + 1) = k + 1 + outs.length := by omega
    rcases r with e' | _ | c
    · cases l with
      | nil => cases h
      | cons x l => simp [audible] at h
    · have := ih (k + 1) l (by simpa [audible] using h)
      rw [List.length_cons, e, ← this]
      rfl
    · cases l with
      | nil => cases h
      | cons x l =>
        obtain ⟨p, c'⟩ := x
        simp only [audible, if_true, List.singleton_append, List.map_cons, List.cons.injEq, Prod.mk.injEq,
          Except.ok.injEq, Option.some.injEq] at h
        obtain ⟨⟨rfl, rfl⟩, h⟩ := h
        have h1 := ih _ l h
        have h2 := quiet_first outs _ l h
        rw [spaced, List.length_cons, e, h1]
        cases l with
        | nil =>
          simp only [List.head?_nil, Option.map_none, Option.getD_none] at h2
          rw [distances, distances]
          congr 2
          omega
        | cons y l =>
          obtain ⟨q, c''⟩ := y
          simp only [List.head?_cons, Option.map_some, Option.getD_some] at h2
          rw [distances]
          congr 2
          omega

/-- Frames of equal length: as far apart as the commands. -/
theorem distances_bounds (fs f phase L last : Nat) (g : A → K) (P : Nat → Prop) (cmds : List (A × Nat))
    (hP : ∀ x ∈ cmds, ∀ time, P (reading fs f phase (time + x.2) - reading fs f phase time))
    (t : Nat) (hl : ∀ x ∈ cmds.getLast?, ∀ time, time + x.2 = t + L + sessionTicks cmds →
      P (last - (reading fs f phase time + 1))) :
    ∀ y ∈ distances last ((completes (fun _ => L) t cmds).map fun x => (reading fs f phase x.1 + 1, g x.2)), P y.2 := by
  induction cmds generalizing t with
  | nil => intro y hy; cases hy
  | cons a cmds ih =>
    obtain ⟨a, n⟩ := a
    cases cmds with
    | nil =>
      intro y hy
      rw [List.mem_singleton.mp hy]
      exact hl (a, n) rfl (t + L) (by simp [sessionTicks])
    | cons b cmds =>
      obtain ⟨b, m⟩ := b
      intro y hy
      rcases List.mem_cons.mp hy with rfl | hy
      · have := hP (a, n) (by simp) (t + L)
        simp only at this ⊢
        rw [show t + n + L = t + L + n by omega]
        rw [Nat.add_sub_add_right]
        exact this
      · refine ih (fun x hx => hP x (by simp [hx])) (t + n) ?_ y hy
        intro x hx time ht
        refine hl x (by simpa using hx) time ?_
        simp only [sessionTicks, List.map_cons, List.sum_cons] at ht ⊢
        omega

theorem reading_apart {u : Nat} (hu : 0 < u) (f phase t x : Nat) :
    reading u f phase (t + x) - reading u f phase t = x * f / u ∨
      reading u f phase (t + x) - reading u f phase t = x * f / u + 1 := by
  unfold reading
  rw [Nat.add_mul, show t * f + x * f + phase = t * f + phase + x * f by omega]
  generalize t * f + phase = a
  generalize x * f = b
  have h1 : a / u + b / u ≤ (a + b) / u := Nat.div_add_div_le_add_div ..
  have h2 : (a + b) / u < a / u + b / u + 2 := by
    rw [Nat.div_lt_iff_lt_mul hu]
    have h3 := Nat.div_add_mod a u
    have h4 := Nat.div_add_mod b u
    have h5 := Nat.mod_lt a hu
    have h6 := Nat.mod_lt b hu
    rw [Nat.mul_comm, Nat.mul_add, Nat.mul_add]
    omega
  generalize (a + b) / u = p at *
  generalize a / u = q at *
  generalize b / u = r at *
  omega

/-- The same, for each command but the last. -/
theorem distances_each (fs f phase L last : Nat) (hfs : 0 < fs) (g : A → K) (cmds : List (A × Nat)) (t : Nat) :
    ∀ (i : Nat) (x : A × Nat) (y : K × Nat), cmds.dropLast[i]? = some x →
      (distances last ((completes (fun _ => L) t cmds).map fun x => (reading fs f phase x.1 + 1, g x.2)))[i]? = some y →
      y.1 = g x.1 ∧ (y.2 = x.2 * f / fs ∨ y.2 = x.2 * f / fs + 1) := by
  induction cmds generalizing t with
  | nil => intro i x y h; cases h
  | cons a cmds ih =>
    obtain ⟨a, n⟩ := a
    cases cmds with
    | nil => intro i x y h; cases h
    | cons b cmds =>
      obtain ⟨b, m⟩ := b
      intro i x y hx hy
      cases i with
      | zero =>
        cases hx
        cases hy
        refine ⟨rfl, ?_⟩
        have h2 : reading fs f phase (t + n + L) + 1 - (reading fs f phase (t + L) + 1) =
            reading fs f phase (t + L + n) - reading fs f phase (t + L) := by
          rw [show t + n + L = t + L + n by omega]; omega
        show reading fs f phase (t + n + L) + 1 - (reading fs f phase (t + L) + 1) = n * f / fs ∨ _ = n * f / fs + 1
        rw [h2]
        exact reading_apart hfs f phase (t + L) n
      | succ i => exact ih (t + n) i x y hx hy

theorem completes_const (L : A → Nat) (l : Nat) (t : Nat) (cmds : List (A × Nat)) (h : ∀ x ∈ cmds, L x.1 = l) :
    completes L t cmds = completes (fun _ => l) t cmds := by
  induction cmds generalizing t with
  | nil => rfl
  | cons x cmds ih =>
    obtain ⟨a, n⟩ := x
    rw [completes, completes, ih _ fun y hy => h y (by simp [hy]), h (a, n) (by simp)]

theorem standard_ticks {fs : Nat} {data : NecData} (h : necData Infrared.nec.pulseDistance fs = some data) :
    TicksOfAll 66 67420 fs (frameTicks data.headerHigh data.headerLow data.dataHigh data.dataZeroLow data.dataOneLow 16) := by
  have h1 := necWave_ticks (.inl rfl) h (NecCommand.pack ⟨0, 0, false⟩)
  rw [necWave_sum, (C100_ones ⟨0, 0, false⟩ ⟨0, 0, false⟩ ⟨0, 0, false⟩).1] at h1
  exact h1

/-- C105 for standard NEC, from a new sender: every frame takes the same number `len` of ticks, those of 67.42 ms with 66
durations rounded down, and each command is reported at the first poll after the time it was loaded and `len`.  The polls
from one report to the next are those of the ticks between the two loads, or one more. -/
theorem C105_standard (t : Target) (fs : Nat)
    (hfs : 21000 ≤ fs ∨ (20000 ≤ fs ∧ fs % 1000 = 0)) (hhi : fs ≤ 477218999) (f : Nat) (hle : fs ≤ f)
    (hf : f < 2 ^ 32) (tbl : PulseSpans) (htbl : necSpans t Mono.u32 Infrared.nec f = some tbl)
    (conv : NecCommand → K) (cmds : List (NecCommand × Nat)) (S : Nat) (hS : 67 ≤ S) (pin : Bool)
    (hticks : ∀ x ∈ cmds, 108 * fs + 1000 * (S - 67) ≤ 1000 * x.2 ∧ x.2 * f / fs + 1 < 2 ^ 32) :
    ∃ data s' levels len, necData Infrared.nec.pulseDistance fs = some data ∧ TicksOfAll 66 67420 fs len ∧
      (Sender.new S pin).calls (session (necEncode Infrared.nec data) cmds) = some (s', levels) ∧
      ∀ pause phase n, phase < fs → 16000 * fs ≤ 1000000 * pause → reading fs f phase pause + 1 < 2 ^ 32 →
      reading fs f phase (pause + sessionTicks cmds) < n →
      ∃ outs, pollRun (necDecoder t Mono.u32 tbl Infrared.nec) conv (overhear fs f phase pause levels n) = some outs ∧
        numberedSaid 1 outs = ((completes (fun _ => len) pause cmds).map fun x =>
          (reading fs f phase x.1 + 1, .ok (some (conv { x.2 with rep := false })))) ∧
        ∀ (i : Nat) (x : NecCommand × Nat) (y : K × Nat), cmds.dropLast[i]? = some x → (spaced outs)[i]? = some y →
          y.1 = conv { x.1 with rep := false } ∧ (y.2 = x.2 * f / fs ∨ y.2 = x.2 * f / fs + 1) := by
  obtain ⟨data, hdata⟩ := Option.isSome_iff_exists.mp ((C38_nec_compiles fs (by omega)).1.mpr hhi)
  obtain ⟨s', levels, h1, -, h2⟩ := C105_nec_session t fs hfs f hle hf Infrared.nec (.inl rfl) data hdata tbl
    htbl conv cmds (fun c => { c with rep := false }) (fun x _ => ⟨x.1.pack, rfl, (C01_nec_roundtrip { x.1 with rep := false }).2⟩)
    (Sender.new S pin) rfl (S - 67) (show (List.replicate S 0).length = _ by rw [List.length_replicate]; omega)
    (List.drop_replicate ..) hticks
  refine ⟨data, s', levels, _, hdata, standard_ticks hdata, h1, fun pause phase n hph hpa hb hn => ?_⟩
  obtain ⟨outs, h3, h4⟩ := h2 pause phase n hph (pause_long (.inl rfl) (by omega) (by omega) hf htbl hpa hb) hn
  rw [completes_const _ (frameTicks data.headerHigh data.headerLow data.dataHigh data.dataZeroLow data.dataOneLow 16)
    _ _ fun (x : NecCommand × Nat) _ => congrArg (frameTicks _ _ _ _ _) (C100_ones x.1 ⟨0, 0, false⟩ ⟨0, 0, false⟩).1] at h4
  refine ⟨outs, h3, h4, fun i x y hx hy => ?_⟩
  rw [spaced_distances outs 1 ((completes (fun _ => frameTicks data.headerHigh data.headerLow data.dataHigh
    data.dataZeroLow data.dataOneLow 16) pause cmds).map fun x =>
      (reading fs f phase x.1 + 1, conv { x.2 with rep := false })) (by rw [h4, List.map_map]; rfl)] at hy
  exact distances_each fs f phase _ _ (by omega) (fun c : NecCommand => conv { c with rep := false }) cmds pause i x y hx hy

/-- C105 (passing on): a standard NEC remote that sends a command every 109 ms is slow enough for a program that passes
on what it hears (C104), with spare slots in the buffers 1 tick more per slot, if the program runs for 68 ms after the
last of the commands has had its time.  The receiver reports the commands of the remote, each converted, in order, once
each, and nothing else. -/
theorem C105_relay (t : Target) (fs₀ : Nat) (hfs₀ : 21000 ≤ fs₀ ∨ (20000 ≤ fs₀ ∧ fs₀ % 1000 = 0))
    (hhi : fs₀ ≤ 477218999)
    (f₁ : Nat) (hle₁ : fs₀ ≤ f₁) (hf₁ : 21000 ≤ f₁ ∨ (20000 ≤ f₁ ∧ f₁ % 1000 = 0)) (f₂ : Nat) (hle₂ : f₁ ≤ f₂)
    (hf₂ : f₂ < 2 ^ 32) (tbl₀ : PulseSpans) (htbl₀ : necSpans t Mono.u32 Infrared.nec f₁ = some tbl₀)
    (v : NecVariant C) (hv : v.Shipped) (data : NecData) (hdata : necData v.pulseDistance f₁ = some data)
    (tbl : PulseSpans) (htbl : necSpans t Mono.u32 v f₂ = some tbl)
    (convert : NecCommand → C) (conv : C → K) (cmds : List (NecCommand × Nat)) (hear : C → C)
    (hcmds : ∀ x ∈ cmds, ∃ w, v.pack (convert { x.1 with rep := false }) = some w ∧
      v.unpack w false = some (hear (convert { x.1 with rep := false })))
    (S₀ : Nat) (hS₀ : 67 ≤ S₀) (pin₀ : Bool)
    (s : Sender) (hs : Silent s) (k : Nat) (hlen : s.buffer.ptb.buf.length = 67 + k)
    (hz : s.buffer.ptb.buf.drop 67 = List.replicate k 0)
    (hticks : ∀ x ∈ cmds, 109 * fs₀ + 1000 * (S₀ - 67 + k) ≤ 1000 * x.2 ∧ x.2 * f₁ / fs₀ + 1 < 2 ^ 32) :
    ∃ data₀ s₀' levels₀, necData Infrared.nec.pulseDistance fs₀ = some data₀ ∧
      (Sender.new S₀ pin₀).calls (session (necEncode Infrared.nec data₀) cmds) = some (s₀', levels₀) ∧
      ∀ pause₀ phase₀ n₀ more, phase₀ < fs₀ → 16000 * fs₀ ≤ 1000000 * pause₀ → reading fs₀ f₁ phase₀ pause₀ + 1 < 2 ^ 32 →
      68 * fs₀ ≤ 1000 * more →
      reading fs₀ f₁ phase₀ (pause₀ + sessionTicks cmds + more) < n₀ → n₀ * f₂ / f₁ + 1 < 2 ^ 32 →
      ∃ levels, relayRun (necDecoder t Mono.u32 tbl₀ Infrared.nec) convert (necEncode v data) s
          (overhear fs₀ f₁ phase₀ pause₀ levels₀ n₀) = some levels ∧
        ∀ pause phase n, phase < f₁ → 16000 * f₁ ≤ 1000000 * pause → reading f₁ f₂ phase (pause + n₀) + 1 < 2 ^ 32 →
        reading f₁ f₂ phase (pause + n₀) < n →
        (pollRun (necDecoder t Mono.u32 tbl v) conv (overhear f₁ f₂ phase pause levels n)).map said =
          some (oks (cmds.map fun x => conv (hear (convert { x.1 with rep := false })))) := by
  obtain ⟨data₀, s₀', levels₀, len, h1, hlenT, h2, h3⟩ := C105_standard t fs₀ hfs₀ hhi f₁ hle₁ (by omega) tbl₀ htbl₀
    convert cmds S₀ hS₀ pin₀ (fun x hx => by have := hticks x hx; omega)
  refine ⟨data₀, s₀', levels₀, h1, h2, fun pause₀ phase₀ n₀ more hph hpa hb hm hn hbn => ?_⟩
  refine live_nec (necDecoder t Mono.u32 tbl₀ Infrared.nec) convert fs₀ f₁ phase₀ pause₀ n₀ k f₂ levels₀ cmds
    (fun c => convert { c with rep := false }) t hf₁ hle₂ hf₂ ?_ v hv data hdata tbl htbl conv s hs hlen hz hear hcmds
  have hlm : len ≤ more := by have := hlenT.1; omega
  obtain ⟨outs, h4, h5, -⟩ := h3 pause₀ phase₀ n₀ hph hpa hb
    (Nat.lt_of_le_of_lt (reading_le _ _ _ (Nat.le_add_right _ _)) hn)
  have hol : outs.length = n₀ := by rw [polled_length _ _ _ _ h4]; simp [overhear, looked]
  have h6 := spaced_distances outs 1 ((completes (fun _ => len) pause₀ cmds).map fun x =>
    (reading fs₀ f₁ phase₀ x.1 + 1, convert { x.2 with rep := false })) (by rw [h5, List.map_map]; rfl)
  refine ⟨outs, h4, hol, ?_, fun x hx => ⟨?_, ?_⟩⟩
  · have h7 : ∀ (last time : Nat) (cs : List (NecCommand × Nat)), (distances last
        ((completes (fun _ => len) time cs).map fun x => (reading fs₀ f₁ phase₀ x.1 + 1, convert { x.2 with rep := false }))).map
          Prod.fst = cs.map fun x => convert { x.1 with rep := false } := by
      intro last time cs
      induction cs generalizing time with
      | nil => rfl
      | cons a cs ih =>
        cases cs with
        | nil => rfl
        | cons b cs => exact congrArg (_ :: ·) (ih (time + a.2))
    rw [h6, h7]
  · rw [h6] at hx
    refine distances_bounds fs₀ f₁ phase₀ len (1 + outs.length) (fun c : NecCommand => convert { c with rep := false })
      (fun d => 108 * f₁ + 1000 * k ≤ 1000 * d) cmds ?_ pause₀ ?_ x hx
    · intro y hy time
      have h7 := gap_ticks (q := 108) (d := 0) (k := k) (by omega) hle₁ (Nat.zero_le y.2)
        (by have := (hticks y hy).1; omega) phase₀ time
      simp only [Nat.add_zero] at h7
      omega
    · intro y hy time ht
      have h7 := gap_ticks (q := 108) (d := 0) (k := k) (by omega) hle₁ (Nat.zero_le y.2)
        (by have := (hticks y (List.mem_of_mem_getLast? hy)).1; omega) phase₀ time
      have h8 := reading_le fs₀ f₁ phase₀ (by omega : time + y.2 ≤ pause₀ + sessionTicks cmds + more)
      simp only [Nat.add_zero] at h7
      omega
  · have h7 : x.2 ≤ n₀ := hol ▸ spaced_le outs x hx
    have h8 : x.2 * f₂ / f₁ ≤ n₀ * f₂ / f₁ := Nat.div_le_div_right (Nat.mul_le_mul_right _ h7)
    omega

/-! ## Non-vacuity -/

/-- C105 applies: a sender at 20 kHz is given two commands 115 ms apart; the receiver, polled at 20 kHz, reports them at
polls 1727 and 4027. -/
example (t : Target) (a b : NecCommand) :
    ∃ data s' levels outs, necData Infrared.nec.pulseDistance 20000 = some data ∧
      (Sender.new 128 false).calls (session (necEncode Infrared.nec data) [(a, 2300), (b, 2500)]) = some (s', levels) ∧
      pollRun (necDecoder t Mono.u32 (necTable 20000) Infrared.nec) id (overhear 20000 20000 0 400 levels 6000) =
        some outs ∧
      numberedSaid 1 outs = [(1727, .ok (some { a with rep := false })), (4027, .ok (some { b with rep := false }))] := by
  have hdata : necData Infrared.nec.pulseDistance 20000 = some ⟨180, 90, 45, 11, 11, 33⟩ := by decide +kernel
  obtain ⟨s', levels, h1, -, h2⟩ := C105_nec_session t 20000 (.inr (by decide)) 20000 (by decide) (by decide)
    Infrared.nec (.inl rfl) _ hdata (necTable 20000) (necSpans_standard (.inl rfl) t (by omega) _ rfl) id [(a, 2300), (b, 2500)]
    (fun c => { c with rep := false }) (fun x _ => ⟨x.1.pack, rfl, (C01_nec_roundtrip { x.1 with rep := false }).2⟩)
    (Sender.new 128 false) rfl 61 rfl rfl (by simp)
  obtain ⟨outs, h3, h4⟩ := h2 400 0 6000 (by decide)
    (pause_long (.inl rfl) (by decide) (by decide) (by decide)
      (necSpans_standard (.inl rfl) t (by omega) Infrared.nec rfl) (by decide) (by decide))
    (by simp [sessionTicks, reading])
  refine ⟨_, s', levels, outs, hdata, h1, h3, ?_⟩
  rw [h4]
  have ha : ones ((Infrared.nec.pack a).getD 0) = 16 := (C100_ones a ⟨0, 0, false⟩ ⟨0, 0, false⟩).1
  have hb : ones ((Infrared.nec.pack b).getD 0) = 16 := (C100_ones b ⟨0, 0, false⟩ ⟨0, 0, false⟩).1
  simp only [completes, ha, hb]
  simp [frameTicks, reading]

/-- The relay applies: a command every 115.1 ms, from and through senders with 128 slots. -/
example (t : Target) (cmds : List NecCommand) (hlen : cmds.length ≤ 100000) :
    ∃ data s₀ levels₀ levels, necData Infrared.nec.pulseDistance 20000 = some data ∧
      (Sender.new 128 false).calls (session (necEncode Infrared.nec data) (cmds.map fun c => (c, 2302))) =
        some (s₀, levels₀) ∧
      relayRun (necDecoder t Mono.u32 (necTable 20000) Infrared.nec) (fun c => { c with addr := ~~~c.addr })
        (necEncode Infrared.nec data) (Nat.repeat Sender.tick 130 (Sender.new 128 false))
        (overhear 20000 20000 0 400 levels₀ (1761 + 2302 * cmds.length)) = some levels ∧
      (pollRun (necDecoder t Mono.u32 (necTable 40000) Infrared.nec) id
          (overhear 20000 40000 0 400 levels (4323 + 4604 * cmds.length))).map said =
        some (oks (cmds.map fun c => { c with addr := ~~~c.addr, rep := false })) := by
  obtain ⟨data, hdata⟩ := Option.isSome_iff_exists.mp ((C38_nec_compiles 20000 (by omega)).1.mpr (by decide))
  have hpack : ∀ c : NecCommand, ∃ w, Infrared.nec.pack c = some w ∧
      Infrared.nec.unpack w false = some { c with rep := false } := fun c => ⟨_, rfl, (C01_nec_roundtrip { c with rep := false }).2⟩
  obtain ⟨data₀, s₀, levels₀, h0, h1, h2⟩ := C105_relay t 20000 (.inr (by decide)) (by decide) 20000 (by decide)
    (.inr (by decide)) 40000
    (by decide) (by decide) (necTable 20000) (necSpans_standard (.inl rfl) t (by omega) _ rfl)
    Infrared.nec (.inl rfl) data hdata (necTable 40000)
    (necSpans_standard (.inl rfl) t (by omega) _ rfl) (fun c => { c with addr := ~~~c.addr }) id (cmds.map fun c => (c, 2302))
    (fun c => { c with rep := false }) (fun x _ => hpack _) 128 (by decide) false
    (Nat.repeat Sender.tick 130 (Sender.new 128 false)) silent_example.1 61
    (by rw [silent_example.2, List.length_replicate]) (by rw [silent_example.2, List.drop_replicate])
    (by
      intro x hx
      obtain ⟨c, -, rfl⟩ := List.mem_map.mp hx
      dsimp only
      decide)
  cases h0.symm.trans hdata
  have hst := sessionTicks_const cmds 2302
  obtain ⟨levels, h3, h4⟩ := h2 400 0 (1761 + 2302 * cmds.length) 1360 (by decide) (by decide) (by decide) (by decide)
    (by rw [hst]; simp only [reading]; omega) (by omega)
  refine ⟨data, s₀, levels₀, levels, hdata, h1, h3, ?_⟩
  rw [h4 400 0 (4323 + 4604 * cmds.length) (by decide) (by decide) (by simp only [reading]; omega)
    (by simp only [reading]; omega), List.map_map]
  rfl

end Infrared
