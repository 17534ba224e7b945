import Verif.Spec.Frames
import Verif.Lemmas.Bits

/-!
# Denon decoder lemmas
-/

namespace Infrared

/-- The decoder of a Denon receiver between calls. -/
def DenonDecoder.Ready (d : DenonDecoder) : Prop :=
  d.state = .idle ∨ ∃ n, n < 48 ∧ d.state = .data n

section
variable (t : Target) (m : Mono) (spans : PulseSpans)

/-- `event_total` of the Denon decoder as a step function. -/
def denonFn (d : DenonDecoder) (e : Ev) : Option (DenonDecoder × Res DenonCommand) :=
  (denonDecoder t m spans).eventTotal d e.1 e.2

theorem denon_falling (d : DenonDecoder) (hd : d.Ready) (dt : Nat) :
    denonFn t m spans d (false, dt) = some ({ d with dtSave := dt }, .ok none) := by
  unfold denonFn Decoder.eventTotal
  rcases hd with h | ⟨n, -, h⟩ <;>
    simp [denonDecoder, DenonDecoder.event, h, DenonState.toState]

/-- Initial state. -/
def denonInit : DenonDecoder := { state := .idle, buf := 0, dtSave := 0 }

/-- Effect of a classified period. -/
def denonStep (state : DenonState) (b : BitVec 64) (pw : DenonPulse) :
    DenonDecoder × Res DenonCommand :=
  match state, pw with
  | .idle, .sync => ({ state := .data 0, buf := b, dtSave := 0 }, .ok none)
  | .data n, .zero =>
    if n = 47 then (denonInit, .ok (some { bits := b }))
    else ({ state := .data (n + 1), buf := b, dtSave := 0 }, .ok none)
  | .data n, .one =>
    if n = 47 then (denonInit, .ok (some { bits := b }))
    else ({ state := .data (n + 1), buf := b ||| (1 : BitVec 64) <<< n, dtSave := 0 }, .ok none)
  | .data _, _ => ({ state := .idle, buf := b, dtSave := 0 }, .ok none)
  | s, _ => ({ state := s, buf := b, dtSave := 0 }, .ok none)

theorem denon_rising (d : DenonDecoder) (hd : d.Ready) (dt total : Nat)
    (ha : m.add t d.dtSave dt = some total) :
    denonFn t m spans d (true, dt) =
      some (denonStep d.state d.buf (DenonPulse.classify spans total)) := by
  obtain ⟨state, b, sv⟩ := d
  unfold denonFn Decoder.eventTotal
  simp only [denonDecoder, DenonDecoder.event, ha, if_true, Option.bind_eq_bind, Option.bind_some]
  generalize DenonPulse.classify spans total = pw
  rcases hd with h | ⟨n, hn, h⟩ <;> dsimp only at h <;> subst h
  · cases pw <;> simp [DenonDecoder.transition, denonStep, DenonState.toState]
  · by_cases hn47 : n = 47
    · subst hn47
      cases pw <;> simp [DenonDecoder.transition, denonStep, DenonState.toState, DenonDecoder.reset,
        DenonDecoder.command, denonInit]
    · cases pw <;> simp [DenonDecoder.transition, denonStep, DenonState.toState, hn47,
        shl1_lt t (show n < 64 by omega)]

theorem denonInit_ready : denonInit.Ready := .inl rfl

theorem denonStep_ready (state : DenonState) (b : BitVec 64) (pw : DenonPulse)
    (h : state = .idle ∨ ∃ n, n < 48 ∧ state = .data n) : (denonStep state b pw).1.Ready := by
  rcases h with rfl | ⟨n, hn, rfl⟩
  · cases pw <;> simp [denonStep, DenonDecoder.Ready]
  · cases pw <;> simp only [denonStep] <;> (try split) <;>
      first
      | exact denonInit_ready
      | exact .inl rfl
      | exact .inr ⟨n + 1, by omega, rfl⟩

theorem denon_event_cases {d d' : DenonDecoder} {e : Ev} {r : Res DenonCommand} (hd : d.Ready)
    (h : denonFn t m spans d e = some (d', r)) :
    (e.1 = false ∧ d' = { d with dtSave := e.2 } ∧ r = .ok none) ∨
    (e.1 = true ∧ ∃ total, m.add t d.dtSave e.2 = some total ∧
      (d', r) = denonStep d.state d.buf (DenonPulse.classify spans total)) := by
  obtain ⟨_ | _, dt⟩ := e
  · rw [denon_falling t m spans d hd] at h
    simp only [Option.some.injEq, Prod.mk.injEq] at h
    exact .inl ⟨rfl, h.1.symm, h.2.symm⟩
  · refine .inr ⟨rfl, ?_⟩
    rcases ha : m.add t d.dtSave dt with _ | total
    · exfalso
      simp [denonFn, Decoder.eventTotal, denonDecoder, DenonDecoder.event, ha] at h
    · have h' := denon_rising t m spans d hd dt total ha
      rw [h'] at h
      exact ⟨total, rfl, by simpa using h.symm⟩

theorem denon_ready_step {d d' : DenonDecoder} {e : Ev} {r : Res DenonCommand} (hd : d.Ready)
    (h : denonFn t m spans d e = some (d', r)) : d'.Ready := by
  rcases denon_event_cases t m spans hd h with ⟨-, rfl, -⟩ | ⟨-, total, -, h⟩
  · exact hd
  · have := denonStep_ready d.state d.buf (DenonPulse.classify spans total) hd
    rw [← h] at this
    exact this

theorem denon_run_ready {d d' : DenonDecoder} {evs : List Ev} {o : List (Res DenonCommand)}
    (hd : d.Ready) (h : runStep (denonFn t m spans) d evs = some (d', o)) : d'.Ready :=
  run_inv (fun _ s => DenonDecoder.Ready s)
    (fun _ _ _ _ _ hs he => denon_ready_step t m spans hs he) (h0 := []) hd h

theorem denon_results_inv {K : Type} {conv : DenonCommand → K} {evs : List Ev}
    {outs : List (Res K)} (h : results (denonDecoder t m spans) conv evs = some outs) :
    ∃ (s : DenonDecoder) (o : List (Res DenonCommand)),
      runStep (denonFn t m spans) denonInit evs = some (s, o) ∧
      outs = o.map (Res.map conv) := results_inv h

theorem denon_pulse (hm : m.Lawful) (d : DenonDecoder) (hd : d.Ready) (h l : Nat)
    (hsum : h + l < 2 ^ m.width) :
    runStep (denonFn t m spans) d [(false, h), (true, l)] =
      some ((denonStep d.state d.buf (DenonPulse.classify spans (h + l))).1,
        [.ok none, (denonStep d.state d.buf (DenonPulse.classify spans (h + l))).2]) := by
  have hd' : DenonDecoder.Ready { d with dtSave := h } := hd
  have ha : m.add t h l = some (h + l) := hm.exact t h l hsum
  simp only [runStep, denon_falling t m spans d hd, denon_rising t m spans _ hd' l (h + l) ha]

theorem denon_classify_iff (d : Nat) :
    (DenonPulse.classify spans d = .sync ↔ spans.get d = some 0) ∧
    (DenonPulse.classify spans d = .zero ↔ spans.get d = some 1) ∧
    (DenonPulse.classify spans d = .one ↔ spans.get d = some 2) := by
  unfold DenonPulse.classify
  rcases spans.get d with _ | (_ | _ | _ | n) <;> simp [DenonPulse.ofIdx]

end

end Infrared
