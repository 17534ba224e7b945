import Verif.Lemmas.Run

/-!
# NEC decoder lemmas
-/

namespace Infrared

variable {C : Type}

/-- The decoder of a NEC receiver between calls: waiting, or inside a frame. -/
def NecDecoder.Ready (d : NecDecoder) : Prop :=
  d.state = .init ∨ ∃ n, n < 32 ∧ d.state = .receiving n

section
variable (t : Target) (m : Mono) (spans : PulseSpans) (v : NecVariant C)

/-- `event_total` of the NEC decoder as a step function. -/
def necFn (d : NecDecoder) (e : Ev) : Option (NecDecoder × Res C) :=
  (necDecoder t m spans v).eventTotal d e.1 e.2

theorem necFn_eq : (necDecoder t m spans v).step = necFn t m spans v := rfl

theorem nec_falling (d : NecDecoder) (hd : d.Ready) (dt : Nat) :
    necFn t m spans v d (false, dt) = some ({ d with dtSave := dt }, .ok none) := by
  unfold necFn Decoder.eventTotal
  rcases hd with h | ⟨n, -, h⟩ <;>
    simp [necDecoder, NecDecoder.event, h, NecState.toState]

/-- Effect of a classified period on a decoder between calls. -/
def necStep (v : NecVariant C) (state : NecState) (b : BitVec 32) (pw : NecPulse) :
    NecDecoder × Res C :=
  match state, pw with
  | .init, .sync => ({ state := .receiving 0, bitbuf := 0, dtSave := 0 }, .ok none)
  | .init, .rep => ({ state := .init, bitbuf := b, dtSave := 0 }, .ok (v.unpack b true))
  | .receiving n, .one =>
    if n = 31 then
      ({ state := .init, bitbuf := b ||| (1 : BitVec 32) <<< 31, dtSave := 0 },
        .ok (v.unpack (b ||| (1 : BitVec 32) <<< 31) false))
    else
      ({ state := .receiving (n + 1), bitbuf := b ||| (1 : BitVec 32) <<< n, dtSave := 0 }, .ok none)
  | .receiving n, .zero =>
    if n = 31 then ({ state := .init, bitbuf := b, dtSave := 0 }, .ok (v.unpack b false))
    else ({ state := .receiving (n + 1), bitbuf := b, dtSave := 0 }, .ok none)
  | .receiving _, _ => ({ state := .init, bitbuf := b, dtSave := 0 }, .error .data)
  | s, _ => ({ state := s, bitbuf := b, dtSave := 0 }, .ok none)

theorem nec_rising (d : NecDecoder) (hd : d.Ready) (dt total : Nat)
    (ha : m.add t dt d.dtSave = some total) :
    necFn t m spans v d (true, dt) =
      some (necStep v d.state d.bitbuf (NecPulse.classify spans total)) := by
  obtain ⟨state, b, sv⟩ := d
  unfold necFn Decoder.eventTotal
  simp only [necDecoder, NecDecoder.event, ha, if_true, Option.bind_eq_bind, Option.bind_some]
  generalize NecPulse.classify spans total = pw
  rcases hd with h | ⟨n, hn, h⟩ <;> dsimp only at h <;> subst h
  · cases pw <;> simp [NecDecoder.transition, necStep, NecState.toState, NecDecoder.reset,
      NecDecoder.command]
  · by_cases hn31 : n = 31
    · subst hn31
      cases pw <;> simp [NecDecoder.transition, necStep, NecState.toState, NecDecoder.reset,
        NecDecoder.command, shl1]
    · cases pw <;> simp [NecDecoder.transition, necStep, NecState.toState, NecDecoder.reset,
        hn31, shl1_lt t hn]

theorem necStep_ready (state : NecState) (b : BitVec 32) (pw : NecPulse)
    (h : state = .init ∨ ∃ n, n < 32 ∧ state = .receiving n) : (necStep v state b pw).1.Ready := by
  rcases h with rfl | ⟨n, hn, rfl⟩
  · cases pw <;> simp [necStep, NecDecoder.Ready]
  · cases pw <;> simp only [necStep, NecDecoder.Ready] <;> (try split) <;> simp <;> omega

theorem nec_event_cases {d d' : NecDecoder} {e : Ev} {r : Res C} (hd : d.Ready)
    (h : necFn t m spans v d e = some (d', r)) :
    (e.1 = false ∧ d' = { d with dtSave := e.2 } ∧ r = .ok none) ∨
    (e.1 = true ∧ ∃ total, m.add t e.2 d.dtSave = some total ∧
      (d', r) = necStep v d.state d.bitbuf (NecPulse.classify spans total)) := by
  obtain ⟨_ | _, dt⟩ := e
  · rw [nec_falling t m spans v d hd] at h
    simp only [Option.some.injEq, Prod.mk.injEq] at h
    exact .inl ⟨rfl, h.1.symm, h.2.symm⟩
  · refine .inr ⟨rfl, ?_⟩
    rcases ha : m.add t dt d.dtSave with _ | total
    · exfalso
      simp [necFn, Decoder.eventTotal, necDecoder, NecDecoder.event, ha] at h
    · have h' := nec_rising t m spans v d hd dt total ha
      rw [h'] at h
      exact ⟨total, rfl, by simpa using h.symm⟩

theorem nec_ready_step {d d' : NecDecoder} {e : Ev} {r : Res C} (hd : d.Ready)
    (h : necFn t m spans v d e = some (d', r)) : d'.Ready := by
  rcases nec_event_cases t m spans v hd h with ⟨-, rfl, -⟩ | ⟨-, total, -, h⟩
  · exact hd
  · have := necStep_ready v d.state d.bitbuf (NecPulse.classify spans total) hd
    rw [← h] at this
    exact this

theorem nec_run_ready {d d' : NecDecoder} {evs : List Ev} {o : List (Res C)} (hd : d.Ready)
    (h : runStep (necFn t m spans v) d evs = some (d', o)) : d'.Ready :=
  run_inv (fun _ s => NecDecoder.Ready s)
    (fun _ _ _ _ _ hs he => nec_ready_step t m spans v hs he) (h0 := []) hd h

theorem nec_init_ready : NecDecoder.Ready (necDecoder t m spans v).init := .inl rfl

theorem nec_results_inv {K : Type} {conv : C → K} {evs : List Ev} {outs : List (Res K)}
    (h : results (necDecoder t m spans v) conv evs = some outs) :
    ∃ (s : NecDecoder) (o : List (Res C)),
      runStep (necFn t m spans v) { state := .init, bitbuf := 0, dtSave := 0 } evs = some (s, o) ∧
      outs = o.map (Res.map conv) := results_inv h

/-! ### Pulse trains -/

theorem nec_pulse (hm : m.Lawful) (d : NecDecoder) (hd : d.Ready) (h l : Nat)
    (hsum : h + l < 2 ^ m.width) :
    runStep (necFn t m spans v) d [(false, h), (true, l)] =
      some ((necStep v d.state d.bitbuf (NecPulse.classify spans (h + l))).1,
        [.ok none, (necStep v d.state d.bitbuf (NecPulse.classify spans (h + l))).2]) := by
  have hd' : NecDecoder.Ready { d with dtSave := h } := hd
  have ha : m.add t l h = some (h + l) := by rw [hm.exact t l h (by omega), Nat.add_comm]
  simp only [runStep, nec_falling t m spans v d hd, nec_rising t m spans v _ hd' l (h + l) ha]

/-- Bits `n..31` of a word as a list of booleans. -/
theorem nec_bits (hm : m.Lawful) (w : BitVec 32) (n : Nat) (ps : List (Nat × Nat)) (d : NecDecoder)
    (hlen : n + ps.length = 32) (hn : n < 32) (hst : d.state = .receiving n)
    (hbuf : ∀ i, d.bitbuf.getLsbD i = (decide (i < n) && w.getLsbD i))
    (hps : ∀ i p, ps[i]? = some p → p.1 + p.2 < 2 ^ m.width ∧
      NecPulse.classify spans (p.1 + p.2) = if w.getLsbD (n + i) then .one else .zero) :
    runStep (necFn t m spans v) d (Spec.pulses ps) =
      some ({ state := .init, bitbuf := w, dtSave := 0 },
        List.replicate (2 * ps.length - 1) (.ok none) ++ [.ok (v.unpack w false)]) := by
  induction ps generalizing n d with
  | nil => simp at hlen; omega
  | cons p ps ih =>
    obtain ⟨hsum, hcl⟩ := hps 0 p rfl
    obtain ⟨h, l⟩ := p
    have hd : d.Ready := .inr ⟨n, hn, hst⟩
    have hp := nec_pulse t m spans v hm d hd h l hsum
    rw [hst] at hp
    simp only [Nat.add_zero] at hcl
    rw [hcl] at hp
    have heq : Spec.pulses ((h, l) :: ps) = [(false, h), (true, l)] ++ Spec.pulses ps := rfl
    rw [heq]
    by_cases h31 : n = 31
    · have : ps = [] := by
        apply List.eq_nil_of_length_eq_zero
        simp at hlen; omega
      subst this
      subst h31
      have hw : (if w.getLsbD 31 then d.bitbuf ||| (1 : BitVec 32) <<< 31 else d.bitbuf) = w := by
        apply BitVec.eq_of_getLsbD_eq
        intro i hi
        split
        · rename_i hb
          rw [getLsbD_or_shl _ _ _ _ (by omega), hbuf]
          by_cases hi31 : i = 31
          · subst hi31; simp at hb ⊢; exact hb
          · have : i < 31 := by omega
            simp [this, hi31]
        · rename_i hb
          rw [hbuf]
          by_cases hi31 : i = 31
          · subst hi31; simp at hb ⊢; exact hb
          · have : i < 31 := by omega
            simp [this]
      have : (necStep v (.receiving 31) d.bitbuf
            (if w.getLsbD 31 = true then NecPulse.one else NecPulse.zero)) =
          ({ state := .init, bitbuf := w, dtSave := 0 }, .ok (v.unpack w false)) := by
        cases hb : w.getLsbD 31
        · rw [hb] at hw
          have hw' : d.bitbuf = w := hw
          rw [hw']; rfl
        · rw [hb] at hw
          have hw' : d.bitbuf ||| (1 : BitVec 32) <<< 31 = w := hw
          simp only [if_true, necStep, hw']
      rw [this] at hp
      simpa [Spec.pulses] using hp
    · have hstep : (necStep v (.receiving n) d.bitbuf
            (if w.getLsbD n = true then NecPulse.one else NecPulse.zero)) =
          ({ state := .receiving (n + 1),
             bitbuf := if w.getLsbD n then d.bitbuf ||| (1 : BitVec 32) <<< n else d.bitbuf,
             dtSave := 0 }, .ok none) := by
        by_cases hb : w.getLsbD n = true
        · simp [hb, necStep, h31]
        · simp [hb, necStep, h31]
      rw [hstep] at hp
      have hrest := ih (n + 1)
        ({ state := .receiving (n + 1),
           bitbuf := if w.getLsbD n then d.bitbuf ||| (1 : BitVec 32) <<< n else d.bitbuf,
           dtSave := 0 } : NecDecoder)
        (by simp at hlen; omega) (by omega) rfl
        (by
          intro i
          dsimp only
          by_cases hb : w.getLsbD n = true
          · simp only [hb, if_true]
            rw [getLsbD_or_shl _ _ _ _ hn, hbuf]
            by_cases hin : i = n
            · subst hin; simp [hb]
            · have : (i < n + 1) ↔ (i < n) := by omega
              simp [hin, this]
          · simp only [hb]
            rw [show (if false = true then d.bitbuf ||| (1 : BitVec 32) <<< n else d.bitbuf) = d.bitbuf
              from rfl, hbuf]
            by_cases hin : i = n
            · subst hin; simp at hb; simp [hb]
            · have : (i < n + 1) ↔ (i < n) := by omega
              simp [this])
        (by
          intro i p hp'
          have := hps (i + 1) p (by simpa using hp')
          rw [show n + 1 + i = n + (i + 1) by omega]
          exact this)
      rw [run_append_some hp hrest]
      have hne : ps.length ≠ 0 := by simp at hlen; omega
      have e1 : 2 * (((h, l) :: ps).length) - 1 = (2 * ps.length - 1) + 1 + 1 := by
        simp; omega
      rw [e1, List.replicate_succ, List.replicate_succ]
      simp

end

/-! ### Classification -/

theorem nec_classify_sync {spans : PulseSpans} {d : Nat} (h : spans.get d = some 0) :
    NecPulse.classify spans d = .sync := by simp [NecPulse.classify, h, NecPulse.ofIdx]

theorem nec_classify_rep {spans : PulseSpans} {d : Nat} (h : spans.get d = some 1) :
    NecPulse.classify spans d = .rep := by simp [NecPulse.classify, h, NecPulse.ofIdx]

theorem nec_classify_zero {spans : PulseSpans} {d : Nat} (h : spans.get d = some 2) :
    NecPulse.classify spans d = .zero := by simp [NecPulse.classify, h, NecPulse.ofIdx]

theorem nec_classify_one {spans : PulseSpans} {d : Nat} (h : spans.get d = some 3) :
    NecPulse.classify spans d = .one := by simp [NecPulse.classify, h, NecPulse.ofIdx]

theorem nec_classify_iff (spans : PulseSpans) (d : Nat) :
    (NecPulse.classify spans d = .sync ↔ spans.get d = some 0) ∧
    (NecPulse.classify spans d = .rep ↔ spans.get d = some 1) ∧
    (NecPulse.classify spans d = .zero ↔ spans.get d = some 2) ∧
    (NecPulse.classify spans d = .one ↔ spans.get d = some 3) := by
  unfold NecPulse.classify
  rcases spans.get d with _ | (_ | _ | _ | _ | n) <;> simp [NecPulse.ofIdx]

end Infrared
