import Verif.Lemmas.Robust
import Verif.Lemmas.Frames
import Verif.Props.Rc5
import Verif.Props.Rc6

/-!
# C28–C32: errors, gaps, panics, word size, readiness
-/

namespace Infrared

open Spec

variable {C K : Type}

/-! ## C28 -/

theorem map_mem {conv : C → K} {o : List (Res C)} {P : Res C → Prop} {Q : Res K → Prop}
    (h : ∀ x ∈ o, P x) (hPQ : ∀ x, P x → Q (Res.map conv x)) :
    ∀ y ∈ o.map (Res.map conv), Q y := by
  intro y hy
  obtain ⟨x, hx, rfl⟩ := List.mem_map.mp hy
  exact hPQ x (h x hx)

/-- **C28**: an RC5 receiver never reports an error. -/
theorem C28_rc5_no_error (t : Target) (hus : 16 ≤ t.usizeBits) (tbl : PulseSpans)
    (hlen : tbl.spans.length ≤ 8) (conv : Rc5Command → K) (evs : List Ev) (outs : List (Res K))
    (h : results (rc5Decoder t tbl) conv evs = some outs) : ∀ x ∈ outs, ∃ c, x = .ok c := by
  obtain ⟨s, o, hrun, rfl⟩ := rc5_results_inv t tbl h
  have key : ∀ x ∈ o, ∃ c, x = .ok c := by
    intro x hx
    obtain ⟨i, hi⟩ := List.mem_iff_getElem?.mp hx
    obtain ⟨e, s1, o1, s1', -, h1, h2, -, -, -⟩ := run_get hrun hi
    obtain ⟨hs, -⟩ := rc5_run_sim t tbl hus hlen sim5_init h1
    obtain ⟨-, hr⟩ := rc5_sim t tbl hus hlen hs h2
    obtain ⟨-, h4, -⟩ := inv5_step tbl (inv5_run tbl (evs.take i)) e
    rcases x with err | c
    · exact absurd hr.symm (h4 err)
    · exact ⟨c, rfl⟩
  exact map_mem key fun x ⟨c, hc⟩ => ⟨c.map conv, by rw [hc]; rfl⟩

/-- **C28**: an RC6 receiver never reports an error. -/
theorem C28_rc6_no_error (t : Target) (hus : 16 ≤ t.usizeBits) (tbl : PulseSpans)
    (hlen : tbl.spans.length ≤ 8) (conv : Rc6Command → K) (evs : List Ev) (outs : List (Res K))
    (h : results (rc6Decoder t tbl) conv evs = some outs) : ∀ x ∈ outs, ∃ c, x = .ok c := by
  obtain ⟨s, o, hrun, rfl⟩ := rc6_results_inv t tbl h
  have key : ∀ x ∈ o, ∃ c, x = .ok c := by
    intro x hx
    obtain ⟨i, hi⟩ := List.mem_iff_getElem?.mp hx
    obtain ⟨e, s1, o1, s1', -, h1, h2, -, -, -⟩ := run_get hrun hi
    obtain ⟨hs, -⟩ := rc6_run_sim t tbl hus hlen sim6_init h1
    obtain ⟨-, hr⟩ := rc6_sim t tbl hus hlen hs h2
    obtain ⟨-, h4, -⟩ := inv6_step tbl (inv6_run tbl (evs.take i)) e
    rcases x with err | c
    · exact absurd hr.symm (h4 err)
    · exact ⟨c, rfl⟩
  exact map_mem key fun x ⟨c, hc⟩ => ⟨c.map conv, by rw [hc]; rfl⟩

/-- **C28**: a Denon receiver never reports an error, with any clock. -/
theorem C28_denon_no_error (t : Target) (m : Mono) (tbl : PulseSpans) (conv : DenonCommand → K)
    (evs : List Ev) (outs : List (Res K))
    (h : results (denonDecoder t m tbl) conv evs = some outs) : ∀ x ∈ outs, ∃ c, x = .ok c := by
  obtain ⟨s, o, hrun, rfl⟩ := denon_results_inv t m tbl h
  have key := run_outputs (f := denonFn t m tbl) DenonDecoder.Ready (fun x => ∃ c, x = .ok c) (by
    intro s e s' r hs he
    refine ⟨denon_ready_step t m tbl hs he, ?_⟩
    rcases denon_event_cases t m tbl hs he with ⟨-, -, rfl⟩ | ⟨-, total, -, he⟩
    · exact ⟨none, rfl⟩
    · have he2 : r = (denonStep s.state s.buf (DenonPulse.classify tbl total)).2 := by rw [← he]
      rw [he2]
      rcases hs with h | ⟨n, -, h⟩ <;> rw [h] <;> cases DenonPulse.classify tbl total <;>
        simp only [denonStep] <;> (try split) <;> exact ⟨_, rfl⟩) denonInit_ready hrun
  exact map_mem key fun x ⟨c, hc⟩ => ⟨c.map conv, by rw [hc]; rfl⟩

/-- **C28**: the only error a NEC-type receiver reports is `Data`. -/
theorem C28_nec_errors (t : Target) (m : Mono) (tbl : PulseSpans) (v : NecVariant C)
    (conv : C → K) (evs : List Ev) (outs : List (Res K))
    (h : results (necDecoder t m tbl v) conv evs = some outs) :
    ∀ x ∈ outs, ∀ err, x = .error err → err = .data := by
  obtain ⟨s, o, hrun, rfl⟩ := nec_results_inv t m tbl v h
  have key := run_outputs (f := necFn t m tbl v) NecDecoder.Ready
    (fun x => ∀ err, x = .error err → err = .data) (by
    intro s e s' r hs he
    refine ⟨nec_ready_step t m tbl v hs he, ?_⟩
    rcases nec_event_cases t m tbl v hs he with ⟨-, -, rfl⟩ | ⟨-, total, -, he⟩
    · intro err h; cases h
    · have he2 : r = (necStep v s.state s.bitbuf (NecPulse.classify tbl total)).2 := by rw [← he]
      rw [he2]
      rcases hs with h | ⟨n, -, h⟩ <;> rw [h] <;> cases NecPulse.classify tbl total <;>
        simp only [necStep] <;> (try split) <;> intro err h <;> cases h <;> rfl) (.inl rfl) hrun
  refine map_mem key ?_
  rintro (x | x) hx err herr
  · simp only [Res.map, Except.error.injEq] at herr
    exact hx err (by rw [herr])
  · simp [Res.map] at herr

/-- **C28**: the only errors an SBP receiver reports are `Address` and `Data`. -/
theorem C28_sbp_errors (t : Target) (m : Mono) (tbl : PulseSpans) (conv : SbpCommand → K)
    (evs : List Ev) (outs : List (Res K))
    (h : results (sbpDecoder t m tbl) conv evs = some outs) :
    ∀ x ∈ outs, ∀ err, x = .error err → err = .address ∨ err = .data := by
  obtain ⟨s, o, hrun, rfl⟩ := sbp_results_inv t m tbl h
  have key := run_outputs (f := sbpFn t m tbl) SbpDecoder.Ready
    (fun x => ∀ err, x = .error err → err = .address ∨ err = .data) (by
    intro s e s' r hs he
    refine ⟨sbp_ready_step t m tbl hs he, ?_⟩
    rcases sbp_event_cases t m tbl hs he with ⟨-, -, rfl⟩ | ⟨-, total, -, he⟩
    · intro err h; cases h
    · have he2 : r = (sbpStep s (SbpPulse.classify tbl total)).2 := by rw [← he]
      rw [he2]
      obtain ⟨st, a, c, sv⟩ := s
      rcases hs with ⟨h, -⟩ | ⟨n, -, h, -⟩ | ⟨h, -⟩ | ⟨n, -, h, -⟩ <;> dsimp only at h <;> subst h <;>
        cases SbpPulse.classify tbl total <;>
        simp only [sbpStep] <;> (try split) <;> intro err h <;> cases h <;> simp) sbpInit_ready hrun
  refine map_mem key ?_
  rintro (x | x) hx err herr
  · simp only [Res.map, Except.error.injEq] at herr
    exact hx err (by rw [herr])
  · simp [Res.map] at herr

/-- Both SBP errors, and the NEC error, do occur. -/
example : results (sbpDecoder ⟨true, 32⟩ Mono.u32 (sbpTable 1000000)) id
    [(false, 4500), (true, 4500), (false, 1), (true, 1)] =
    some [.ok none, .ok none, .ok none, .error .address] := rfl

example : results (necDecoder ⟨true, 32⟩ Mono.u32 (necTable 1000000) Infrared.nec) id
    [(false, 9000), (true, 4500), (false, 1), (true, 1)] =
    some [.ok none, .ok none, .ok none, .error .data] := rfl

/-- Malformed RC5 input: a start edge and a gap instead of the second bit. -/
example : results (rc5Decoder ⟨true, 32⟩ (rc5Table 1000000)) id [(true, 0), (false, 3000)] =
    some [.ok none, .ok none] := rfl

/-! ## C29 -/

/-- Core of C29: unmeasurable events put an RC5 decoder into the same state as a fresh one. -/
theorem rc5_gap (t : Target) (tbl : PulseSpans) (d : Rc5Decoder) (e : Ev) (hg : tbl.get e.2 = none) :
    rc5Fn t tbl d e = rc5Fn t tbl rc5Init e := by
  simp only [rc5Fn, Decoder.eventTotal, rc5Decoder, Rc5Decoder.event, hg, Rc5Decoder.tick,
    Rc5Decoder.reset, rc5Init]

/-- **C29** (RC5): if a duration matches no interval, then from that event on any RC5 receiver,
whatever it received before, returns exactly what a new receiver returns for the same events
(including panics). -/
theorem C29_rc5_gap_forgets (t : Target) (tbl : PulseSpans) (conv : Rc5Command → K)
    (r : Receiver (rc5Decoder t tbl)) (e : Ev) (hg : Gap tbl e.2) (after : List Ev) :
    (r.run _ conv (e :: after)).map Prod.snd = results (rc5Decoder t tbl) conv (e :: after) := by
  rw [Receiver.run_snd, results_snd]
  congr 2
  have := rc5_gap t tbl r.decoder e ((gap_iff _ _).mp hg)
  change runStep (rc5Fn t tbl) r.decoder (e :: after) = runStep (rc5Fn t tbl) rc5Init (e :: after)
  simp only [runStep, this]

/-- The same RC6 decoder up to a toggle bit that will be overwritten before it is used. -/
def Rc6Rel (d d' : Rc6Decoder) : Prop :=
  d.state = d'.state ∧ d.data = d'.data ∧ d.headerdata = d'.headerdata ∧ d.clock = d'.clock ∧
  (d.toggle = d'.toggle ∨ d.state = .idle ∨ d.state = .leading ∨ d.state = .leadingPaus ∨
    (∃ n, d.state = .headerData n) ∨ d.state = .trailing)

theorem rc6_rel_tick (t : Target) {d d' : Rc6Decoder} (h : Rc6Rel d d') (ticks : Option Nat) :
    (d.tick t ticks = none ∧ d'.tick t ticks = none) ∨
      ∃ a b, d.tick t ticks = some a ∧ d'.tick t ticks = some b ∧ Rc6Rel a b := by
  obtain ⟨st, da, hd, tg, c⟩ := d
  obtain ⟨st', da', hd', tg', c'⟩ := d'
  obtain ⟨h1, h2, h3, h4, h5⟩ := h
  dsimp only at h1 h2 h3 h4 h5
  subst h1; subst h2; subst h3; subst h4
  cases ticks with
  | none => exact .inr ⟨_, _, rfl, rfl, rfl, rfl, rfl, rfl, .inr (.inl rfl)⟩
  | some n =>
    simp only [Rc6Decoder.tick, Option.bind_eq_bind]
    rcases uadd t t.usizeBits c n with _ | c'
    · exact .inl ⟨rfl, rfl⟩
    · exact .inr ⟨_, _, rfl, rfl, rfl, rfl, rfl, rfl, h5⟩

theorem rc6_rel_transition (t : Target) {d d' : Rc6Decoder} (h : Rc6Rel d d') (rising : Bool)
    (ticks : Option Nat) :
    (d.transition t rising ticks = none ∧ d'.transition t rising ticks = none) ∨
      ∃ a b, d.transition t rising ticks = some a ∧ d'.transition t rising ticks = some b ∧
        Rc6Rel a b := by
  obtain ⟨st, da, hd, tg, c⟩ := d
  obtain ⟨st', da', hd', tg', c'⟩ := d'
  obtain ⟨h1, h2, h3, h4, h5⟩ := h
  dsimp only at h1 h2 h3 h4 h5
  subst h1; subst h2; subst h3; subst h4
  cases st with
  | idle =>
    simp only [Rc6Decoder.transition]
    split <;> exact .inr ⟨_, _, rfl, rfl, rfl, rfl, rfl, rfl, by simp⟩
  | leading =>
    simp only [Rc6Decoder.transition]
    split <;> exact .inr ⟨_, _, rfl, rfl, rfl, rfl, rfl, rfl, by simp⟩
  | leadingPaus =>
    simp only [Rc6Decoder.transition]
    split <;> exact .inr ⟨_, _, rfl, rfl, rfl, rfl, rfl, rfl, by simp⟩
  | headerData n =>
    simp only [Rc6Decoder.transition]
    cases ticks with
    | none => exact .inr ⟨_, _, rfl, rfl, rfl, rfl, rfl, rfl, by simp⟩
    | some k =>
      dsimp only
      split
      · simp only [Option.bind_eq_bind]
        rcases shl1 t 16 n with _ | one
        · exact .inl ⟨rfl, rfl⟩
        · simp only [Option.bind_some]
          split <;> exact .inr ⟨_, _, rfl, rfl, rfl, rfl, rfl, rfl, by simp⟩
      · exact .inr ⟨_, _, rfl, rfl, rfl, rfl, rfl, rfl, by simp⟩
  | trailing =>
    simp only [Rc6Decoder.transition]
    split
    · exact .inr ⟨_, _, rfl, rfl, rfl, rfl, rfl, rfl, by simp⟩
    split
    · exact .inr ⟨_, _, rfl, rfl, rfl, rfl, rfl, rfl, by simp⟩
    split <;> exact .inr ⟨_, _, rfl, rfl, rfl, rfl, rfl, rfl, by simp⟩
  | data n =>
    have h6 : tg = tg' := by simpa using h5
    subst h6
    rcases Rc6Decoder.transition t ⟨.data n, da, hd, tg, c⟩ rising ticks with _ | a
    · exact .inl ⟨rfl, rfl⟩
    · exact .inr ⟨_, _, rfl, rfl, rfl, rfl, rfl, rfl, .inl rfl⟩
  | done =>
    have h6 : tg = tg' := by simpa using h5
    subst h6
    exact .inr ⟨_, _, rfl, rfl, rfl, rfl, rfl, rfl, .inl rfl⟩
  | rc6Err e =>
    have h6 : tg = tg' := by simpa using h5
    subst h6
    exact .inr ⟨_, _, rfl, rfl, rfl, rfl, rfl, rfl, .inl rfl⟩

/-- The last step of `event_total` on an RC6 state. -/
def rc6Out (d : Rc6Decoder) : Option (Rc6Decoder × Res Rc6Command) :=
  match d.state.toState with
  | .idle => some (d, .ok none)
  | .receiving => some (d, .ok none)
  | .done => some (d.reset, .ok (some (Rc6Command.fromBits d.data d.toggle)))
  | .error err => some (d.reset, .error err)

/-- The RC6 tick count of a duration. -/
def rc6Ticks (t : Target) (tbl : PulseSpans) (dt : Nat) : Option (Option Nat) :=
  match tbl.get dt with
  | some v => (uadd t t.usizeBits v 1).map some
  | none => some none

theorem rc6Fn_eq (t : Target) (tbl : PulseSpans) (d : Rc6Decoder) (e : Ev) :
    rc6Fn t tbl d e = (rc6Ticks t tbl e.2).bind fun ticks => (d.tick t ticks).bind fun d =>
      (d.transition t e.1 ticks).bind rc6Out := by
  unfold rc6Ticks
  simp only [rc6Fn, Decoder.eventTotal, rc6Decoder, Rc6Decoder.event, Option.bind_eq_bind]
  rcases tbl.get e.2 with _ | v
  · simp only [Option.bind_some]
    rcases d.tick t none with _ | d1
    · rfl
    simp only [Option.bind_some]
    rcases d1.transition t e.1 none with _ | d2 <;> rfl
  · dsimp only
    rcases uadd t t.usizeBits v 1 with _ | w
    · rfl
    simp only [Option.bind_some, Option.map_some]
    rcases d.tick t (some w) with _ | d1
    · rfl
    simp only [Option.bind_some]
    rcases d1.transition t e.1 (some w) with _ | d2 <;> rfl

theorem rc6_rel_step (t : Target) (tbl : PulseSpans) (d d' : Rc6Decoder) (e : Ev)
    (h : Rc6Rel d d') : StepRel Rc6Rel (rc6Fn t tbl d e) (rc6Fn t tbl d' e) := by
  rw [rc6Fn_eq, rc6Fn_eq]
  rcases rc6Ticks t tbl e.2 with _ | ticks
  · exact .inl ⟨rfl, rfl⟩
  simp only [Option.bind_some]
  rcases rc6_rel_tick t h ticks with ⟨h1, h2⟩ | ⟨a, b, h1, h2, hab⟩
  · rw [h1, h2]; exact .inl ⟨rfl, rfl⟩
  rw [h1, h2]
  simp only [Option.bind_some]
  rcases rc6_rel_transition t hab e.1 ticks with ⟨h3, h4⟩ | ⟨x, y, h3, h4, hxy⟩
  · rw [h3, h4]; exact .inl ⟨rfl, rfl⟩
  rw [h3, h4]
  simp only [Option.bind_some]
  have hxy' := hxy
  obtain ⟨g1, g2, g3, g4, g5⟩ := hxy
  unfold rc6Out
  rw [← g1]
  cases hst : x.state with
  | done =>
    have h6 : x.toggle = y.toggle := by simpa [hst] using g5
    simp only [Rc6State.toState, g2, h6]
    exact .inr ⟨_, _, _, rfl, rfl, rfl, rfl, rfl, rfl, .inr (.inl rfl)⟩
  | rc6Err er =>
    simp only [Rc6State.toState]
    exact .inr ⟨_, _, _, rfl, rfl, rfl, rfl, rfl, rfl, .inr (.inl rfl)⟩
  | _ => exact .inr ⟨_, _, _, rfl, rfl, hxy'⟩

theorem rc6_rel_run (t : Target) (tbl : PulseSpans) {d d' : Rc6Decoder} (h : Rc6Rel d d')
    (evs : List Ev) : (runStep (rc6Fn t tbl) d evs).map Prod.snd =
      (runStep (rc6Fn t tbl) d' evs).map Prod.snd :=
  (run_rel Rc6Rel (fun s s' e hr => rc6_rel_step t tbl s s' e hr) h evs).snd

/-- **C29** (RC6): the same for RC6. -/
theorem C29_rc6_gap_forgets (t : Target) (tbl : PulseSpans) (conv : Rc6Command → K)
    (r : Receiver (rc6Decoder t tbl)) (e : Ev) (hg : Gap tbl e.2) (after : List Ev) :
    (r.run _ conv (e :: after)).map Prod.snd = results (rc6Decoder t tbl) conv (e :: after) := by
  rw [Receiver.run_snd, results_snd]
  congr 1
  change (runStep (rc6Fn t tbl) r.decoder (e :: after)).map Prod.snd =
    (runStep (rc6Fn t tbl) rc6Init (e :: after)).map Prod.snd
  have hget := (gap_iff _ _).mp hg
  have h1 : ∀ d : Rc6Decoder, runStep (rc6Fn t tbl) d (e :: after) =
      runStep (rc6Fn t tbl) d.reset (e :: after) := by
    intro d
    have : rc6Fn t tbl d e = rc6Fn t tbl d.reset e := by
      rw [rc6Fn_eq, rc6Fn_eq]
      simp only [rc6Ticks, hget, Option.bind_some, Rc6Decoder.tick, Rc6Decoder.reset]
    simp only [runStep, this]
  rw [h1 r.decoder]
  exact rc6_rel_run t tbl (d := Rc6Decoder.reset r.decoder) (d' := rc6Init)
    ⟨rfl, rfl, rfl, rfl, .inr (.inl rfl)⟩ _

/-- Non-vacuity: 3 ms is a gap, and a receiver interrupted in mid-frame is affected by a gap. -/
example : Gap (rc5Table 1000000) 3000 ∧ Gap (rc6Table 1000000) 3500 := by
  constructor <;> rw [gap_iff] <;> decide

/-! ## C30 -/

/-- **C30**, pulse-distance receivers: a NEC-type receiver panics exactly when overflow checks are
on and the sum of a mark and the following space does not fit the duration type. -/
theorem C30_nec_panics_iff (t : Target) (m : Mono) (hm : m = Mono.u32 ∨ m = Mono.u64)
    (tbl : PulseSpans) (v : NecVariant C) (conv : C → K) (evs : List Ev) :
    results (necDecoder t m tbl v) conv evs = none ↔
      t.overflowChecks = true ∧ ∃ p ∈ sums evs, 2 ^ m.width ≤ p := by
  have key := sum_panics (f := necFn t m tbl v) NecDecoder.dtSave NecDecoder.Ready (m.Bad t)
    (fun s dt hs => ⟨_, _, nec_falling t m tbl v s hs dt, hs, rfl⟩)
    (fun s dt hs hb => by
      rcases ha : m.add t dt s.dtSave with _ | total
      · rw [prim_add_none hm, Nat.add_comm] at ha; exact absurd ha hb
      · have h1 := nec_rising t m tbl v s hs dt total ha
        refine ⟨_, _, h1, nec_ready_step t m tbl v hs h1, ?_⟩
        rcases hs with h | ⟨n, -, h⟩ <;> rw [h] <;> cases NecPulse.classify tbl total <;>
          (try simp only [necStep]) <;> (try split) <;> rfl)
    (fun s dt hs hb => by
      rw [Nat.add_comm, ← prim_add_none hm] at hb
      simp [necFn, Decoder.eventTotal, necDecoder, NecDecoder.event, hb])
    (s := { state := .init, bitbuf := 0, dtSave := 0 }) (.inl rfl) evs
  rw [results_snd, Option.map_eq_none_iff, Option.map_eq_none_iff]
  refine Iff.trans key ?_
  constructor
  · rintro ⟨p, hp, h1, h2⟩; exact ⟨h1, p, hp, h2⟩
  · rintro ⟨h1, p, hp, h2⟩; exact ⟨p, hp, h1, h2⟩

/-- **C30** for Denon. -/
theorem C30_denon_panics_iff (t : Target) (m : Mono) (hm : m = Mono.u32 ∨ m = Mono.u64)
    (tbl : PulseSpans) (conv : DenonCommand → K) (evs : List Ev) :
    results (denonDecoder t m tbl) conv evs = none ↔
      t.overflowChecks = true ∧ ∃ p ∈ sums evs, 2 ^ m.width ≤ p := by
  have key := sum_panics (f := denonFn t m tbl) DenonDecoder.dtSave DenonDecoder.Ready (m.Bad t)
    (fun s dt hs => ⟨_, _, denon_falling t m tbl s hs dt, hs, rfl⟩)
    (fun s dt hs hb => by
      rcases ha : m.add t s.dtSave dt with _ | total
      · rw [prim_add_none hm] at ha; exact absurd ha hb
      · have h1 := denon_rising t m tbl s hs dt total ha
        refine ⟨_, _, h1, denon_ready_step t m tbl hs h1, ?_⟩
        rcases hs with h | ⟨n, -, h⟩ <;> rw [h] <;> cases DenonPulse.classify tbl total <;>
          simp only [denonStep] <;> (try split) <;> rfl)
    (fun s dt hs hb => by
      rw [← prim_add_none hm] at hb
      simp [denonFn, Decoder.eventTotal, denonDecoder, DenonDecoder.event, hb])
    (s := denonInit) denonInit_ready evs
  rw [results_snd, Option.map_eq_none_iff, Option.map_eq_none_iff]
  refine Iff.trans key ?_
  constructor
  · rintro ⟨p, hp, h1, h2⟩; exact ⟨h1, p, hp, h2⟩
  · rintro ⟨h1, p, hp, h2⟩; exact ⟨p, hp, h1, h2⟩

/-- **C30** for SBP, on alternating edges (between two rising edges without a falling one the
decoder adds a stale mark, see C22). -/
theorem C30_sbp_panics_iff (t : Target) (m : Mono) (hm : m = Mono.u32 ∨ m = Mono.u64)
    (tbl : PulseSpans) (conv : SbpCommand → K) (evs : List Ev) (halt : Alternating evs) :
    results (sbpDecoder t m tbl) conv evs = none ↔
      t.overflowChecks = true ∧ ∃ p ∈ sums evs, 2 ^ m.width ≤ p := by
  have key : ∀ (evs : List Ev) (s : SbpDecoder) (sv : Nat), Alternating evs → s.Ready →
      (∀ e, evs.head? = some e → e.1 = true → s.sinceRising = sv) →
      (runStep (sbpFn t m tbl) s evs = none ↔ ∃ p ∈ sumsFrom sv evs, m.Bad t p) := by
    intro evs
    induction evs with
    | nil => intro s sv _ _ _; simp [runStep, sumsFrom]
    | cons e es ih =>
      intro s sv ha hs hh
      have ha' : Alternating es := by
        cases es with
        | nil => trivial
        | cons => exact ha.2
      obtain ⟨_ | _, dt⟩ := e
      · have := ih { s with sinceRising := dt } dt ha' hs (fun _ _ _ => rfl)
        simp only [sumsFrom, ← this, runStep, sbp_falling t m tbl s hs]
        rcases runStep (sbpFn t m tbl) { s with sinceRising := dt } es with _ | ⟨s2, o⟩ <;> simp
      · have hsv := hh (true, dt) rfl rfl
        rcases hadd : m.add t s.sinceRising dt with _ | total
        · have hb := (prim_add_none hm t _ _).mp hadd
          rw [hsv] at hb
          have : sbpFn t m tbl s (true, dt) = none := by
            simp [sbpFn, Decoder.eventTotal, sbpDecoder, SbpDecoder.event, hadd]
          simp only [runStep, this, true_iff]
          exact ⟨_, by simp [sumsFrom], hb⟩
        · have hb : ¬ m.Bad t (sv + dt) := by
            rw [← hsv, ← prim_add_none hm, hadd]; simp
          have h1 := sbp_rising t m tbl s hs dt total hadd
          have := ih (sbpStep s (SbpPulse.classify tbl total)).1 0 ha'
            (sbpStep_ready s hs _) (by
              intro e he hr
              cases es with
              | nil => cases he
              | cons b es =>
                simp only [List.head?_cons, Option.some.injEq] at he
                subst he
                exact absurd hr.symm ha.1)
          simp only [sumsFrom, List.mem_cons, exists_eq_or_imp, hb, false_or, ← this, runStep, h1]
          rcases runStep (sbpFn t m tbl) _ es with _ | ⟨s2, o⟩ <;> simp
  rw [results_snd, Option.map_eq_none_iff, Option.map_eq_none_iff]
  refine Iff.trans (key evs sbpInit 0 halt sbpInit_ready fun _ _ _ => rfl) ?_
  constructor
  · rintro ⟨p, hp, h1, h2⟩; exact ⟨h1, p, hp, h2⟩
  · rintro ⟨h1, p, hp, h2⟩; exact ⟨p, hp, h1, h2⟩

/-- In release builds an SBP receiver does not panic on any history. -/
theorem C30_sbp_release (t : Target) (ht : t.overflowChecks = false) (m : Mono)
    (hm : m = Mono.u32 ∨ m = Mono.u64) (tbl : PulseSpans) (conv : SbpCommand → K) (evs : List Ev) :
    results (sbpDecoder t m tbl) conv evs ≠ none := by
  rw [results_snd, Ne, Option.map_eq_none_iff, Option.map_eq_none_iff]
  intro h
  have h' : runStep (sbpFn t m tbl) sbpInit evs = none := h
  obtain ⟨i, e, s1, o1, -, h1, h2⟩ := run_none_iff.mp h'
  have hs := sbp_run_ready t m tbl sbpInit_ready h1
  obtain ⟨_ | _, dt⟩ := e
  · rw [sbp_falling t m tbl s1 hs] at h2; cases h2
  · rcases ha : m.add t s1.sinceRising dt with _ | total
    · have := (prim_add_none hm t _ _).mp ha
      simp [Mono.Bad, ht] at this
    · rw [sbp_rising t m tbl s1 hs dt total ha] at h2; cases h2

/-- **C30** for RC5: no panic in release builds, and with overflow checks none within the first
`2^usizeBits / 8` events. -/
theorem C30_rc5_no_panic (t : Target) (hus : 16 ≤ t.usizeBits) (tbl : PulseSpans)
    (hlen : tbl.spans.length ≤ 8) (conv : Rc5Command → K) (evs : List Ev)
    (h : t.overflowChecks = false ∨ 8 * evs.length < 2 ^ t.usizeBits) :
    results (rc5Decoder t tbl) conv evs ≠ none := by
  obtain ⟨d', h1, -⟩ := rc5_run_ex t tbl hus hlen sim5_init evs (by
    rcases h with h | h
    · exact .inl h
    · exact .inr (by simp only [rc5Init]; omega))
  rw [results_of (D := rc5Decoder t tbl) conv h1]
  simp

/-- **C30** for RC6. -/
theorem C30_rc6_no_panic (t : Target) (hus : 16 ≤ t.usizeBits) (tbl : PulseSpans)
    (hlen : tbl.spans.length ≤ 8) (conv : Rc6Command → K) (evs : List Ev)
    (h : t.overflowChecks = false ∨ 8 * evs.length < 2 ^ t.usizeBits) :
    results (rc6Decoder t tbl) conv evs ≠ none := by
  obtain ⟨d', h1, -⟩ := rc6_run_ex t tbl hus hlen sim6_init evs (by
    rcases h with h | h
    · exact .inl h
    · exact .inr (by simp only [rc6Init]; omega))
  rw [results_of (D := rc6Decoder t tbl) conv h1]
  simp

/-- The condition is needed: with overflow checks, `2^usizeBits` falling edges one half-bit apart
(noise while the receiver is idle) make an RC5 receiver panic. -/
theorem C30_rc5_clock_overflow (w : Nat) (hw : 16 ≤ w) (conv : Rc5Command → K) :
    results (rc5Decoder ⟨true, w⟩ (rc5Table 1000000)) conv (List.replicate (2 ^ w) (false, 889)) =
      none := by
  have hpow : 2 ^ 16 ≤ 2 ^ w := Nat.pow_le_pow_right (by decide) hw
  have hget : (rc5Table 1000000).get 889 = some 0 := by decide
  have hinc : uadd ⟨true, w⟩ w 0 1 = some 1 := uadd_exact _ _ _ _ (by omega)
  have hstep : ∀ c, rc5Fn ⟨true, w⟩ (rc5Table 1000000) ⟨.idle, 0, c⟩ (false, 889) =
      if c + 1 < 2 ^ w then some (⟨.idle, 0, c + 1⟩, .ok none) else none := by
    intro c
    have hadd : uadd ⟨true, w⟩ w c 1 = if c + 1 < 2 ^ w then some (c + 1) else none := by
      simp [uadd]
    by_cases h : c + 1 < 2 ^ w
    · rw [if_pos h] at hadd ⊢
      simp only [rc5Fn, Decoder.eventTotal, rc5Decoder, Rc5Decoder.event, hget, Rc5Decoder.tick,
        hinc, hadd, Option.bind_eq_bind, Option.bind_some, Option.map_some]
      rfl
    · rw [if_neg h] at hadd ⊢
      simp only [rc5Fn, Decoder.eventTotal, rc5Decoder, Rc5Decoder.event, hget, Rc5Decoder.tick,
        hinc, hadd, Option.bind_eq_bind, Option.bind_some, Option.map_some, Option.bind_none]
  have key : ∀ k c, 2 ^ w ≤ c + k → c < 2 ^ w →
      runStep (rc5Fn ⟨true, w⟩ (rc5Table 1000000)) ⟨.idle, 0, c⟩ (List.replicate k (false, 889)) =
        none := by
    intro k
    induction k with
    | zero => intro c h1 h2; omega
    | succ k ih =>
      intro c h1 h2
      rw [List.replicate_succ]
      simp only [runStep, hstep]
      by_cases h : c + 1 < 2 ^ w
      · rw [if_pos h]; simp only [ih (c + 1) (by omega) h]
      · simp [h]
  rw [results_snd, Option.map_eq_none_iff, Option.map_eq_none_iff]
  exact key (2 ^ w) 0 (by omega) (by omega)

/-- The same for RC6. -/
theorem C30_rc6_clock_overflow (w : Nat) (hw : 16 ≤ w) (conv : Rc6Command → K) :
    results (rc6Decoder ⟨true, w⟩ (rc6Table 1000000)) conv (List.replicate (2 ^ w) (false, 444)) =
      none := by
  have hpow : 2 ^ 16 ≤ 2 ^ w := Nat.pow_le_pow_right (by decide) hw
  have hget : (rc6Table 1000000).get 444 = some 0 := by decide
  have hinc : uadd ⟨true, w⟩ w 0 1 = some 1 := uadd_exact _ _ _ _ (by omega)
  have hstep : ∀ c, rc6Fn ⟨true, w⟩ (rc6Table 1000000) ⟨.idle, 0, 0, false, c⟩ (false, 444) =
      if c + 1 < 2 ^ w then some (⟨.idle, 0, 0, false, c + 1⟩, .ok none) else none := by
    intro c
    have hadd : uadd ⟨true, w⟩ w c 1 = if c + 1 < 2 ^ w then some (c + 1) else none := by
      simp [uadd]
    by_cases h : c + 1 < 2 ^ w
    · rw [if_pos h] at hadd ⊢
      simp only [rc6Fn, Decoder.eventTotal, rc6Decoder, Rc6Decoder.event, hget, Rc6Decoder.tick,
        hinc, hadd, Option.bind_eq_bind, Option.bind_some, Option.map_some]
      rfl
    · rw [if_neg h] at hadd ⊢
      simp only [rc6Fn, Decoder.eventTotal, rc6Decoder, Rc6Decoder.event, hget, Rc6Decoder.tick,
        hinc, hadd, Option.bind_eq_bind, Option.bind_some, Option.map_some, Option.bind_none]
  have key : ∀ k c, 2 ^ w ≤ c + k → c < 2 ^ w →
      runStep (rc6Fn ⟨true, w⟩ (rc6Table 1000000)) ⟨.idle, 0, 0, false, c⟩
        (List.replicate k (false, 444)) = none := by
    intro k
    induction k with
    | zero => intro c h1 h2; omega
    | succ k ih =>
      intro c h1 h2
      rw [List.replicate_succ]
      simp only [runStep, hstep]
      by_cases h : c + 1 < 2 ^ w
      · rw [if_pos h]; simp only [ih (c + 1) (by omega) h]
      · simp [h]
  rw [results_snd, Option.map_eq_none_iff, Option.map_eq_none_iff]
  exact key (2 ^ w) 0 (by omega) (by omega)

/-- Non-vacuity of the panic conditions: a 32-bit sum that overflows, and one that does not. -/
example : (∃ p ∈ sums [(false, 4294967295), (true, 1)], 2 ^ Mono.u32.width ≤ p) ∧
    ¬ (∃ p ∈ sums [(false, 4294967294), (true, 1)], 2 ^ Mono.u32.width ≤ p) := by
  constructor <;> simp [sums, sumsFrom, Mono.u32]

/-! ## C31 -/

/-- **C31** (RC5): in release builds the results do not depend on the width of `usize`. -/
theorem C31_rc5_word_size (t t' : Target) (ht : t.overflowChecks = false)
    (ht' : t'.overflowChecks = false) (hus : 16 ≤ t.usizeBits) (hus' : 16 ≤ t'.usizeBits)
    (tbl : PulseSpans) (hlen : tbl.spans.length ≤ 8) (conv : Rc5Command → K) (evs : List Ev) :
    results (rc5Decoder t tbl) conv evs = results (rc5Decoder t' tbl) conv evs := by
  obtain ⟨d, h1, -⟩ := rc5_run_ex t tbl hus hlen sim5_init evs (.inl ht)
  obtain ⟨d', h2, -⟩ := rc5_run_ex t' tbl hus' hlen sim5_init evs (.inl ht')
  rw [results_of (D := rc5Decoder t tbl) conv h1, results_of (D := rc5Decoder t' tbl) conv h2]

/-- **C31** (RC6). -/
theorem C31_rc6_word_size (t t' : Target) (ht : t.overflowChecks = false)
    (ht' : t'.overflowChecks = false) (hus : 16 ≤ t.usizeBits) (hus' : 16 ≤ t'.usizeBits)
    (tbl : PulseSpans) (hlen : tbl.spans.length ≤ 8) (conv : Rc6Command → K) (evs : List Ev) :
    results (rc6Decoder t tbl) conv evs = results (rc6Decoder t' tbl) conv evs := by
  obtain ⟨d, h1, -⟩ := rc6_run_ex t tbl hus hlen sim6_init evs (.inl ht)
  obtain ⟨d', h2, -⟩ := rc6_run_ex t' tbl hus' hlen sim6_init evs (.inl ht')
  rw [results_of (D := rc6Decoder t tbl) conv h1, results_of (D := rc6Decoder t' tbl) conv h2]

/-- And a release build returns what a checked build returns whenever the latter does not panic. -/
theorem C31_rc5_profile (t t' : Target) (ht' : t'.overflowChecks = false) (hus : 16 ≤ t.usizeBits)
    (hus' : 16 ≤ t'.usizeBits) (tbl : PulseSpans) (hlen : tbl.spans.length ≤ 8)
    (conv : Rc5Command → K) (evs : List Ev) (outs : List (Res K))
    (h : results (rc5Decoder t tbl) conv evs = some outs) :
    results (rc5Decoder t' tbl) conv evs = some outs := by
  obtain ⟨s, o, hrun, rfl⟩ := rc5_results_inv t tbl h
  obtain ⟨-, rfl⟩ := rc5_run_sim t tbl hus hlen sim5_init hrun
  obtain ⟨d', h2, -⟩ := rc5_run_ex t' tbl hus' hlen sim5_init evs (.inl ht')
  rw [results_of (D := rc5Decoder t' tbl) conv h2]

/-- The same for RC6. -/
theorem C31_rc6_profile (t t' : Target) (ht' : t'.overflowChecks = false) (hus : 16 ≤ t.usizeBits)
    (hus' : 16 ≤ t'.usizeBits) (tbl : PulseSpans) (hlen : tbl.spans.length ≤ 8)
    (conv : Rc6Command → K) (evs : List Ev) (outs : List (Res K))
    (h : results (rc6Decoder t tbl) conv evs = some outs) :
    results (rc6Decoder t' tbl) conv evs = some outs := by
  obtain ⟨s, o, hrun, rfl⟩ := rc6_results_inv t tbl h
  obtain ⟨-, rfl⟩ := rc6_run_sim t tbl hus hlen sim6_init hrun
  obtain ⟨d', h2, -⟩ := rc6_run_ex t' tbl hus' hlen sim6_init evs (.inl ht')
  rw [results_of (D := rc6Decoder t' tbl) conv h2]

/-- Non-vacuity: two release targets of different word size, and a history with a command. -/
example : results (rc5Decoder ⟨false, 16⟩ (rc5Table 1000000)) id (nominalRc5 0b11110001101100#14) =
    results (rc5Decoder ⟨false, 64⟩ (rc5Table 1000000)) id (nominalRc5 0b11110001101100#14) :=
  C31_rc5_word_size _ _ rfl rfl (by decide) (by decide) _ (by decide) _ _

/-! ## C32 -/

/-- The receiver behaves like a new one from here on. -/
def Spec.LikeNew (D : Decoder C) (conv : C → K) (r : Receiver D) : Prop :=
  ∀ after, (r.run D conv after).map Prod.snd = results D conv after

theorem eventTotal_reset {D : Decoder C} {s s' : D.St} {edge : Bool} {dt : Nat} {r : Res C}
    (h : D.eventTotal s edge dt = some (s', r)) (hr : r ≠ .ok none) : ∃ x, s' = D.reset x := by
  unfold Decoder.eventTotal at h
  rcases he : D.event s edge dt with _ | ⟨x, _ | _ | _ | err⟩ <;> rw [he] at h <;> simp at h
  · exact absurd h.2.symm hr
  · exact absurd h.2.symm hr
  · exact ⟨x, h.1.symm⟩
  · exact ⟨x, h.1.symm⟩

/-- After a command or an error the decoder has been reset. -/
theorem last_reset {D : Decoder C} {conv : C → K} {r0 r : Receiver D} {before : List Ev}
    {o : List (Res K)} {x : Res K} (h : r0.run D conv before = some (r, o))
    (hx : o.getLast? = some x) (hne : x ≠ .ok none) : ∃ s, r.decoder = D.reset s := by
  obtain ⟨o', hrun, rfl, -⟩ := Receiver.run_inv h
  have hl := run_length hrun
  rcases List.eq_nil_or_concat before with rfl | ⟨b, e, rfl⟩
  · have : o' = [] := List.eq_nil_of_length_eq_zero (by simpa using hl)
    subst this
    simp at hx
  · rw [List.concat_eq_append] at hrun
    obtain ⟨s1, o1, y, -, h2, rfl⟩ := run_snoc_inv hrun
    simp only [List.map_append, List.map_cons, List.map_nil, List.getLast?_concat,
      Option.some.injEq] at hx
    refine eventTotal_reset h2 ?_
    rintro rfl
    exact hne (by rw [← hx]; rfl)

theorem likeNew_of_reset (D : Decoder C) (hreset : ∀ s, D.reset s = D.init) (conv : C → K)
    {r0 r : Receiver D} {before : List Ev} {o : List (Res K)} {x : Res K}
    (h : r0.run D conv before = some (r, o)) (hx : o.getLast? = some x) (hne : x ≠ .ok none) :
    LikeNew D conv r := by
  obtain ⟨s, hs⟩ := last_reset h hx hne
  intro after
  rw [Receiver.run_snd, results_snd, hs, hreset]

/-- **C32** (RC5): after an event returned a command (or an error), whatever happened before, the
receiver returns for every continuation what a new receiver returns. -/
theorem C32_rc5_ready (t : Target) (tbl : PulseSpans) (conv : Rc5Command → K)
    (r0 r : Receiver (rc5Decoder t tbl)) (before : List Ev) (o : List (Res K)) (x : Res K)
    (h : r0.run _ conv before = some (r, o)) (hx : o.getLast? = some x) (hne : x ≠ .ok none) :
    LikeNew (rc5Decoder t tbl) conv r :=
  likeNew_of_reset _ (fun _ => rfl) conv h hx hne

/-- **C32** (SBP). -/
theorem C32_sbp_ready (t : Target) (m : Mono) (tbl : PulseSpans) (conv : SbpCommand → K)
    (r0 r : Receiver (sbpDecoder t m tbl)) (before : List Ev) (o : List (Res K)) (x : Res K)
    (h : r0.run _ conv before = some (r, o)) (hx : o.getLast? = some x) (hne : x ≠ .ok none) :
    LikeNew (sbpDecoder t m tbl) conv r :=
  likeNew_of_reset _ (fun _ => rfl) conv h hx hne

/-- **C32** (Denon). -/
theorem C32_denon_ready (t : Target) (m : Mono) (tbl : PulseSpans) (conv : DenonCommand → K)
    (r0 r : Receiver (denonDecoder t m tbl)) (before : List Ev) (o : List (Res K)) (x : Res K)
    (h : r0.run _ conv before = some (r, o)) (hx : o.getLast? = some x) (hne : x ≠ .ok none) :
    LikeNew (denonDecoder t m tbl) conv r :=
  likeNew_of_reset _ (fun _ => rfl) conv h hx hne

/-- **C32** (RC6): although the toggle bit of the last command is kept. -/
theorem C32_rc6_ready (t : Target) (tbl : PulseSpans) (conv : Rc6Command → K)
    (r0 r : Receiver (rc6Decoder t tbl)) (before : List Ev) (o : List (Res K)) (x : Res K)
    (h : r0.run _ conv before = some (r, o)) (hx : o.getLast? = some x) (hne : x ≠ .ok none) :
    LikeNew (rc6Decoder t tbl) conv r := by
  obtain ⟨s, hs⟩ := last_reset h hx hne
  intro after
  rw [Receiver.run_snd, results_snd, hs]
  congr 1
  exact rc6_rel_run t tbl (d := Rc6Decoder.reset s) (d' := rc6Init)
    ⟨rfl, rfl, rfl, rfl, .inr (.inl rfl)⟩ after

/-- Event `i` of the history completes a repeat pulse. -/
def Spec.RepeatAt (width : Nat) (tbl : PulseSpans) (h : List Ev) (i : Nat) : Prop :=
  ∃ dt p, h[i]? = some (true, dt) ∧ (periods width (h.take (i + 1))).getLast? = some p ∧ InTol tbl 1 p

theorem nec_rel_run (t : Target) (m : Mono) (hm : m.Lawful) (tbl : PulseSpans) (v : NecVariant C)
    (evs h0 : List Ev) (d d' : NecDecoder) (hd : d.Ready) (hst : d.state = d'.state)
    (hsv : d.dtSave = d'.dtSave) (hbuf : d.state = .init ∨ d.bitbuf = d'.bitbuf)
    (h0sv : d.dtSave = savedAfter 0 h0) :
    (runStep (necFn t m tbl v) d evs = none ∧ runStep (necFn t m tbl v) d' evs = none) ∨
    ∃ s s' o o', runStep (necFn t m tbl v) d evs = some (s, o) ∧
      runStep (necFn t m tbl v) d' evs = some (s', o') ∧ ∀ i, o[i]? = o'[i]? ∨
        RepeatAt m.width tbl (h0 ++ evs) (h0.length + i) := by
  induction evs generalizing h0 d d' with
  | nil => exact .inr ⟨d, d', [], [], rfl, rfl, fun i => .inl rfl⟩
  | cons e es ih =>
    have hd' : d'.Ready := by
      rcases hd with h | ⟨n, hn, h⟩
      · exact .inl (by rw [← hst]; exact h)
      · exact .inr ⟨n, hn, by rw [← hst]; exact h⟩
    -- one step, then the induction hypothesis
    have key : ∀ a b r r', necFn t m tbl v d e = some (a, r) → necFn t m tbl v d' e = some (b, r') →
        a.state = b.state → a.dtSave = b.dtSave → (a.state = .init ∨ a.bitbuf = b.bitbuf) →
        a.dtSave = savedAfter 0 (h0 ++ [e]) →
        (r = r' ∨ RepeatAt m.width tbl (h0 ++ e :: es) h0.length) →
        (runStep (necFn t m tbl v) d (e :: es) = none ∧ runStep (necFn t m tbl v) d' (e :: es) = none) ∨
        ∃ s s' o o', runStep (necFn t m tbl v) d (e :: es) = some (s, o) ∧
          runStep (necFn t m tbl v) d' (e :: es) = some (s', o') ∧ ∀ i, o[i]? = o'[i]? ∨
            RepeatAt m.width tbl (h0 ++ e :: es) (h0.length + i) := by
      intro a b r r' h1 h2 g1 g2 g3 g4 g5
      rcases ih (h0 ++ [e]) a b (nec_ready_step t m tbl v hd h1) g1 g2 g3 g4 with
        ⟨h3, h4⟩ | ⟨s, s', o, o', h3, h4, h5⟩
      · exact .inl ⟨by simp [runStep, h1, h3], by simp [runStep, h2, h4]⟩
      · refine .inr ⟨s, s', r :: o, r' :: o', by simp [runStep, h1, h3], by simp [runStep, h2, h4], ?_⟩
        intro i
        cases i with
        | zero =>
          rcases g5 with rfl | g5
          · exact .inl rfl
          · exact .inr g5
        | succ i =>
          rcases h5 i with h5 | h5
          · exact .inl (by simpa using h5)
          · right
            have e1 : h0 ++ [e] ++ es = h0 ++ e :: es := by simp
            have e2 : (h0 ++ [e]).length + i = h0.length + (i + 1) := by simp; omega
            rw [e1, e2] at h5
            exact h5
    obtain ⟨_ | _, dt⟩ := e
    · exact key _ _ _ _ (nec_falling t m tbl v d hd dt) (nec_falling t m tbl v d' hd' dt) hst rfl hbuf
        (by rw [savedAfter_append]; rfl) (.inl rfl)
    · rcases ha : m.add t dt d.dtSave with _ | total
      · have ha' : m.add t dt d'.dtSave = none := by rw [← hsv]; exact ha
        refine .inl ⟨?_, ?_⟩
        · simp [runStep, necFn, Decoder.eventTotal, necDecoder, NecDecoder.event, ha]
        · simp [runStep, necFn, Decoder.eventTotal, necDecoder, NecDecoder.event, ha']
      · have ha' : m.add t dt d'.dtSave = some total := by rw [← hsv]; exact ha
        have hp : total = (savedAfter 0 h0 + dt) % 2 ^ m.width := by
          rw [hm.wraps t _ _ _ ha, h0sv, Nat.add_comm]
        have h1 := nec_rising t m tbl v d hd dt total ha
        have h2 := nec_rising t m tbl v d' hd' dt total ha'
        have hrep : NecPulse.classify tbl total = .rep →
            RepeatAt m.width tbl (h0 ++ (true, dt) :: es) h0.length := by
          intro hc
          refine ⟨dt, total, by simp, ?_, ((get_eq_iff' tbl 1 total).mp
            ((nec_classify_iff tbl total).2.1.mp hc)).1⟩
          have : (h0 ++ (true, dt) :: es).take (h0.length + 1) = h0 ++ [(true, dt)] := by
            rw [List.take_append, List.take_of_length_le (by omega)]; simp
          rw [this, periods, periodsFrom_append, hp]
          simp [periodsFrom]
        rw [← hst] at h2
        have hsv0 : savedAfter 0 (h0 ++ [(true, dt)]) = 0 := by rw [savedAfter_append]; rfl
        obtain ⟨st, b, sv⟩ := d
        obtain ⟨st', b', sv'⟩ := d'
        dsimp only at hst hsv hbuf h0sv h1 h2 hd
        subst hst; subst hsv
        refine key _ _ _ _ h1 h2 ?_ ?_ ?_ ?_ ?_
        all_goals clear key ih h1 h2
        all_goals
          rcases hd with rfl | ⟨n, hn, rfl⟩
          · cases hc : NecPulse.classify tbl total <;> simp [necStep, hsv0] <;>
              (try exact .inr (hrep hc))
          · have hb : b = b' := by simpa using hbuf
            subst hb
            cases hc : NecPulse.classify tbl total <;> simp [necStep, hsv0] <;>
              (try split) <;> simp

/-- **C32** (NEC type): after a command or an error the receiver returns, for every continuation,
what a new receiver returns, except possibly at events completing a repeat pulse (which report the
remembered word). -/
theorem C32_nec_ready (t : Target) (m : Mono) (hm : m.Lawful) (tbl : PulseSpans) (v : NecVariant C)
    (conv : C → K) (r0 r : Receiver (necDecoder t m tbl v)) (before : List Ev) (o : List (Res K))
    (x : Res K) (h : r0.run _ conv before = some (r, o)) (hx : o.getLast? = some x)
    (hne : x ≠ .ok none) (after : List Ev) :
    ((r.run _ conv after).map Prod.snd = none ∧
      results (necDecoder t m tbl v) conv after = none) ∨
    ∃ outs outs', (r.run _ conv after).map Prod.snd = some outs ∧
      results (necDecoder t m tbl v) conv after = some outs' ∧
      ∀ i, outs[i]? = outs'[i]? ∨ RepeatAt m.width tbl after i := by
  obtain ⟨s, hs⟩ := last_reset h hx hne
  rw [Receiver.run_snd, results_snd, hs]
  have key := nec_rel_run t m hm tbl v after [] (NecDecoder.reset s)
    { state := .init, bitbuf := 0, dtSave := 0 } (.inl rfl) rfl rfl (.inl rfl) rfl
  rcases key with ⟨h1, h2⟩ | ⟨s1, s2, o1, o2, h1, h2, h3⟩
  · left
    rw [Option.map_eq_none_iff, Option.map_eq_none_iff, Option.map_eq_none_iff,
      Option.map_eq_none_iff]
    exact ⟨h1, h2⟩
  · right
    refine ⟨o1.map (Res.map conv), o2.map (Res.map conv), ?_, ?_, ?_⟩
    · exact congrArg (fun z => (z.map Prod.snd).map (List.map (Res.map conv))) h1
    · exact congrArg (fun z => (z.map Prod.snd).map (List.map (Res.map conv))) h2
    · intro i
      rcases h3 i with h3 | h3
      · left; rw [List.getElem?_map, List.getElem?_map, h3]
      · right; simpa using h3

/-- Non-vacuity: a history whose last event returned an error, and one whose last event returned
a command. -/
example : ∃ r, (Receiver.new (necDecoder ⟨true, 32⟩ Mono.u32 (necTable 1000000) Infrared.nec)).run _ id
    [(false, 9000), (true, 4500), (false, 1), (true, 1)] =
    some (r, [.ok none, .ok none, .ok none, .error .data]) := ⟨_, rfl⟩

end Infrared
