import Verif.Spec.Frames
import Verif.Lemmas.Bits

/-!
# SBP decoder lemmas
-/

namespace Infrared

/-- The decoder of an SBP receiver between calls. -/
def SbpDecoder.Ready (d : SbpDecoder) : Prop :=
  (d.state = .init ∧ d.address = 0 ∧ d.command = 0) ∨
  (∃ n, n < 16 ∧ d.state = .address n ∧ (∀ i, n ≤ i → d.address.getLsbD i = false) ∧ d.command = 0) ∨
  (d.state = .divider ∧ d.command = 0) ∨
  (∃ n, n < 20 ∧ d.state = .command n ∧ ∀ i, n ≤ i → d.command.getLsbD i = false)

section
variable (t : Target) (m : Mono) (spans : PulseSpans)

/-- `event_total` of the SBP decoder as a step function. -/
def sbpFn (d : SbpDecoder) (e : Ev) : Option (SbpDecoder × Res SbpCommand) :=
  (sbpDecoder t m spans).eventTotal d e.1 e.2

theorem sbp_falling (d : SbpDecoder) (hd : d.Ready) (dt : Nat) :
    sbpFn t m spans d (false, dt) = some ({ d with sinceRising := dt }, .ok none) := by
  unfold sbpFn Decoder.eventTotal
  rcases hd with ⟨h, -⟩ | ⟨n, -, h, -⟩ | ⟨h, -⟩ | ⟨n, -, h, -⟩ <;>
    simp [sbpDecoder, SbpDecoder.event, h, SbpState.toState]

/-- Initial state. -/
def sbpInit : SbpDecoder := { state := .init, address := 0, command := 0, sinceRising := 0 }

/-- Effect of a classified period. -/
def sbpStep (d : SbpDecoder) (pw : SbpPulse) : SbpDecoder × Res SbpCommand :=
  match d.state, pw with
  | .init, .sync => ({ d with state := .address 0 }, .ok none)
  | .address n, .one =>
    if n = 15 then ({ d with address := d.address ||| (1 : BitVec 16) <<< 15, state := .divider }, .ok none)
    else ({ d with address := d.address ||| (1 : BitVec 16) <<< n, state := .address (n + 1) }, .ok none)
  | .address n, .zero =>
    if n = 15 then ({ d with state := .divider }, .ok none)
    else ({ d with state := .address (n + 1) }, .ok none)
  | .address _, _ => (sbpInit, .error .address)
  | .divider, .paus => ({ d with state := .command 0 }, .ok none)
  | .divider, _ => (sbpInit, .error .data)
  | .command n, .one =>
    if n = 19 then
      (sbpInit, .ok (some (SbpCommand.unpack d.address (d.command ||| (1 : BitVec 32) <<< 19))))
    else ({ d with command := d.command ||| (1 : BitVec 32) <<< n, state := .command (n + 1) }, .ok none)
  | .command n, .zero =>
    if n = 19 then (sbpInit, .ok (some (SbpCommand.unpack d.address d.command)))
    else ({ d with state := .command (n + 1) }, .ok none)
  | .command _, _ => (sbpInit, .error .data)
  | _, _ => (d, .ok none)

theorem sbp_rising (d : SbpDecoder) (hd : d.Ready) (dt total : Nat)
    (ha : m.add t d.sinceRising dt = some total) :
    sbpFn t m spans d (true, dt) = some (sbpStep d (SbpPulse.classify spans total)) := by
  obtain ⟨state, a, c, sv⟩ := d
  unfold sbpFn Decoder.eventTotal
  simp only [sbpDecoder, SbpDecoder.event, ha, if_true, Option.bind_eq_bind, Option.bind_some]
  generalize SbpPulse.classify spans total = pw
  rcases hd with ⟨h, -⟩ | ⟨n, hn, h, -⟩ | ⟨h, -⟩ | ⟨n, hn, h, -⟩ <;> dsimp only at h <;> subst h
  · cases pw <;> simp [SbpDecoder.transition, sbpStep, SbpState.toState, SbpDecoder.reset]
  · by_cases hn15 : n = 15
    · subst hn15
      cases pw <;> simp [SbpDecoder.transition, sbpStep, SbpState.toState, SbpDecoder.reset,
        shl1, sbpInit]
    · cases pw <;> simp [SbpDecoder.transition, sbpStep, SbpState.toState, SbpDecoder.reset,
        hn15, shl1_lt t hn, sbpInit]
  · cases pw <;> simp [SbpDecoder.transition, sbpStep, SbpState.toState, SbpDecoder.reset, sbpInit]
  · by_cases hn19 : n = 19
    · subst hn19
      cases pw <;> simp [SbpDecoder.transition, sbpStep, SbpState.toState, SbpDecoder.reset,
        shl1, sbpInit]
    · cases pw <;> simp [SbpDecoder.transition, sbpStep, SbpState.toState, SbpDecoder.reset,
        hn19, shl1_lt t (show n < 32 by omega), sbpInit]

theorem sbpInit_ready : sbpInit.Ready := .inl ⟨rfl, rfl, rfl⟩

theorem sbpStep_ready (d : SbpDecoder) (hd : d.Ready) (pw : SbpPulse) : (sbpStep d pw).1.Ready := by
  obtain ⟨state, a, c, sv⟩ := d
  rcases hd with ⟨h, ha, hc⟩ | ⟨n, hn, h, hz, hc⟩ | ⟨h, hc⟩ | ⟨n, hn, h, hz⟩ <;> dsimp only at h <;> subst h
  · cases pw
    · exact .inr (.inl ⟨0, by decide, rfl, by
        dsimp only at ha; subst ha; simp [sbpStep], hc⟩)
    all_goals exact .inl ⟨rfl, ha, hc⟩
  · cases pw
    case zero =>
      simp only [sbpStep]
      split
      · exact .inr (.inr (.inl ⟨rfl, hc⟩))
      · exact .inr (.inl ⟨n + 1, by omega, rfl, fun i hi => hz i (by omega), hc⟩)
    case one =>
      simp only [sbpStep]
      split
      · exact .inr (.inr (.inl ⟨rfl, hc⟩))
      · refine .inr (.inl ⟨n + 1, by omega, rfl, fun i hi => ?_, hc⟩)
        dsimp only
        rw [getLsbD_or_shl _ _ _ _ hn]
        have hz' : a.getLsbD i = false := hz i (by omega)
        simp [hz']; omega
    all_goals exact sbpInit_ready
  · cases pw
    case paus =>
      refine .inr (.inr (.inr ⟨0, by decide, rfl, ?_⟩))
      dsimp only at hc
      subst hc
      simp [sbpStep]
    all_goals exact sbpInit_ready
  · cases pw
    case zero =>
      simp only [sbpStep]
      split
      · exact sbpInit_ready
      · exact .inr (.inr (.inr ⟨n + 1, by omega, rfl, fun i hi => hz i (by omega)⟩))
    case one =>
      simp only [sbpStep]
      split
      · exact sbpInit_ready
      · refine .inr (.inr (.inr ⟨n + 1, by omega, rfl, fun i hi => ?_⟩))
        dsimp only
        rw [getLsbD_or_shl _ _ _ _ (by omega)]
        have hz' : c.getLsbD i = false := hz i (by omega)
        simp [hz']; omega
    all_goals exact sbpInit_ready

theorem sbp_event_cases {d d' : SbpDecoder} {e : Ev} {r : Res SbpCommand} (hd : d.Ready)
    (h : sbpFn t m spans d e = some (d', r)) :
    (e.1 = false ∧ d' = { d with sinceRising := e.2 } ∧ r = .ok none) ∨
    (e.1 = true ∧ ∃ total, m.add t d.sinceRising e.2 = some total ∧
      (d', r) = sbpStep d (SbpPulse.classify spans total)) := by
  obtain ⟨_ | _, dt⟩ := e
  · rw [sbp_falling t m spans d hd] at h
    simp only [Option.some.injEq, Prod.mk.injEq] at h
    exact .inl ⟨rfl, h.1.symm, h.2.symm⟩
  · refine .inr ⟨rfl, ?_⟩
    rcases ha : m.add t d.sinceRising dt with _ | total
    · exfalso
      simp [sbpFn, Decoder.eventTotal, sbpDecoder, SbpDecoder.event, ha] at h
    · have h' := sbp_rising t m spans d hd dt total ha
      rw [h'] at h
      exact ⟨total, rfl, by simpa using h.symm⟩

theorem sbp_ready_step {d d' : SbpDecoder} {e : Ev} {r : Res SbpCommand} (hd : d.Ready)
    (h : sbpFn t m spans d e = some (d', r)) : d'.Ready := by
  rcases sbp_event_cases t m spans hd h with ⟨-, rfl, -⟩ | ⟨-, total, -, h⟩
  · exact hd
  · have := sbpStep_ready d hd (SbpPulse.classify spans total)
    rw [← h] at this
    exact this

theorem sbp_run_ready {d d' : SbpDecoder} {evs : List Ev} {o : List (Res SbpCommand)} (hd : d.Ready)
    (h : runStep (sbpFn t m spans) d evs = some (d', o)) : d'.Ready :=
  run_inv (fun _ s => SbpDecoder.Ready s)
    (fun _ _ _ _ _ hs he => sbp_ready_step t m spans hs he) (h0 := []) hd h

theorem sbp_results_inv {K : Type} {conv : SbpCommand → K} {evs : List Ev} {outs : List (Res K)}
    (h : results (sbpDecoder t m spans) conv evs = some outs) :
    ∃ (s : SbpDecoder) (o : List (Res SbpCommand)),
      runStep (sbpFn t m spans) sbpInit evs = some (s, o) ∧
      outs = o.map (Res.map conv) := results_inv h

theorem sbp_pulse (hm : m.Lawful) (d : SbpDecoder) (hd : d.Ready) (h l : Nat)
    (hsum : h + l < 2 ^ m.width) :
    runStep (sbpFn t m spans) d [(false, h), (true, l)] =
      some ((sbpStep { d with sinceRising := h } (SbpPulse.classify spans (h + l))).1,
        [.ok none, (sbpStep { d with sinceRising := h } (SbpPulse.classify spans (h + l))).2]) := by
  have hd' : SbpDecoder.Ready { d with sinceRising := h } := hd
  have ha : m.add t h l = some (h + l) := hm.exact t h l hsum
  simp only [runStep, sbp_falling t m spans d hd, sbp_rising t m spans _ hd' l (h + l) ha]

theorem sbp_classify_iff (d : Nat) :
    (SbpPulse.classify spans d = .sync ↔ spans.get d = some 0) ∧
    (SbpPulse.classify spans d = .paus ↔ spans.get d = some 1) ∧
    (SbpPulse.classify spans d = .zero ↔ spans.get d = some 2) ∧
    (SbpPulse.classify spans d = .one ↔ spans.get d = some 3) := by
  unfold SbpPulse.classify
  rcases spans.get d with _ | (_ | _ | _ | _ | n) <;> simp [SbpPulse.ofIdx]

end

end Infrared
