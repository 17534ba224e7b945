import Verif.Lemmas.Manchester

/-!
# RC5 decoder lemmas

The decoder is simulated by an abstract machine that keeps only the parity of the clock.
-/

namespace Infrared

/-- Abstract RC5 decoder: bits still expected (`none`: idle), bits so far, clock parity. -/
structure Abs5 where
  st : Option Nat
  buf : BitVec 16
  odd : Bool
deriving DecidableEq

/-- Idle. -/
def Abs5.init : Abs5 := { st := none, buf := 0, odd := false }

/-- One edge while idle. -/
def Abs5.idleStep (a : Abs5) (rising : Bool) : Abs5 :=
  if rising then { st := some 12, buf := a.buf ||| (1 : BitVec 16) <<< 13, odd := false } else a

/-- One edge of measured length. -/
def Abs5.step (a : Abs5) (e : Bool × Option Nat) : Abs5 × Res Rc5Command :=
  match e.2 with
  | none => (Abs5.init.idleStep e.1, .ok none)
  | some n =>
    let odd := xor a.odd (n % 2 == 1)
    match a.st with
    | none => (({ a with odd := odd } : Abs5).idleStep e.1, .ok none)
    | some bit =>
      if odd then ({ a with odd := odd }, .ok none)
      else
        let buf := if e.1 then a.buf ||| (1 : BitVec 16) <<< bit else a.buf
        if bit = 0 then (Abs5.init, .ok (some (Rc5Command.unpack buf)))
        else ({ st := some (bit - 1), buf := buf, odd := odd }, .ok none)

/-- The decoder is in the abstract state. -/
structure Sim5 (d : Rc5Decoder) (a : Abs5) : Prop where
  st : (d.state = .idle ∧ a.st = none ∧ d.bitbuf = 0) ∨
    ∃ n, n ≤ 12 ∧ d.state = .data n ∧ a.st = some n
  buf : d.bitbuf = a.buf
  odd : a.odd = (d.clock % 2 == 1)

/-- Initial state. -/
def rc5Init : Rc5Decoder := { state := .idle, bitbuf := 0, clock := 0 }

theorem sim5_init : Sim5 rc5Init Abs5.init := ⟨.inl ⟨rfl, rfl, rfl⟩, rfl, rfl⟩

section
variable (t : Target) (tbl : PulseSpans)

/-- `event_total` of the RC5 decoder as a step function. -/
def rc5Fn (d : Rc5Decoder) (e : Ev) : Option (Rc5Decoder × Res Rc5Command) :=
  (rc5Decoder t tbl).eventTotal d e.1 e.2

/-- Parity after a wrapping addition. -/
theorem parity_add {w a b c : Nat} (hw : 1 ≤ w) (h : c = (a + b) % 2 ^ w) :
    (c % 2 == 1) = xor (a % 2 == 1) (b % 2 == 1) := by
  have h2 : 2 ∣ 2 ^ w := by
    obtain ⟨k, rfl⟩ : ∃ k, w = k + 1 := ⟨w - 1, by omega⟩
    exact ⟨2 ^ k, by rw [Nat.pow_succ, Nat.mul_comm]⟩
  have : c % 2 = (a + b) % 2 := by rw [h, Nat.mod_mod_of_dvd _ h2]
  rw [this]
  rcases Nat.mod_two_eq_zero_or_one a with ha | ha <;>
    rcases Nat.mod_two_eq_zero_or_one b with hb | hb <;> simp [Nat.add_mod, ha, hb]

/-- The new clock, if the addition does not panic. -/
def rc5Clock (d : Rc5Decoder) (dt : Nat) : Option Nat :=
  match tbl.get dt with
  | some v => (uadd t t.usizeBits v 1).bind fun inc => uadd t t.usizeBits d.clock inc
  | none => some 0

theorem rc5_step_ex (hw : 16 ≤ t.usizeBits) (hlen : tbl.spans.length ≤ 8) {d : Rc5Decoder}
    {a : Abs5} (hs : Sim5 d a) (e : Ev) {clock : Nat} (hc : rc5Clock t tbl d e.2 = some clock) :
    ∃ d' r, rc5Fn t tbl d e = some (d', r) ∧ Sim5 d' (a.step (measure tbl e)).1 ∧
      r = (a.step (measure tbl e)).2 ∧ d'.clock ≤ clock := by
  obtain ⟨rising, dt⟩ := e
  obtain ⟨st, b, c⟩ := d
  obtain ⟨ast, ab, ao⟩ := a
  obtain ⟨hst, hbuf, hodd⟩ := hs
  dsimp only at hst hbuf hodd hc
  subst hbuf
  have hpow : 2 ^ 16 ≤ 2 ^ t.usizeBits := Nat.pow_le_pow_right (by decide) hw
  unfold rc5Fn Decoder.eventTotal
  simp only [rc5Decoder, Rc5Decoder.event, Option.bind_eq_bind, measure, PulseSpans.half]
  unfold rc5Clock at hc
  rcases hg : tbl.get dt with _ | v
  · rw [hg] at hc
    simp only [Option.some.injEq] at hc
    subst hc
    cases rising
    · refine ⟨rc5Init, .ok none, ?_, sim5_init, rfl, Nat.le_refl _⟩
      simp [Rc5Decoder.tick, Rc5Decoder.reset, Rc5Decoder.transition, Rc5State.toState, rc5Init]
    · refine ⟨⟨.data 12, 0 ||| (1 : BitVec 16) <<< 13, 0⟩, .ok none, ?_, ?_, rfl, Nat.le_refl _⟩
      · simp [Rc5Decoder.tick, Rc5Decoder.reset, Rc5Decoder.transition, Rc5State.toState, shl1]
      · exact ⟨.inr ⟨12, by decide, rfl, rfl⟩, rfl, rfl⟩
  · have hv : v + 1 ≤ 8 := (half_lt hlen (by simp [PulseSpans.half, hg] : tbl.half dt = some (v + 1))).2
    have hinc : uadd t t.usizeBits v 1 = some (v + 1) := uadd_exact _ _ _ _ (by omega)
    rw [hg] at hc
    simp only [hinc, Option.bind_some] at hc
    have hpar := parity_add (w := t.usizeBits) (by omega) (uadd_mod hc)
    simp only [Rc5Decoder.tick, hinc, hc, Option.bind_eq_bind, Option.bind_some, Option.map_some,
      Abs5.step]
    rw [hodd, ← hpar]
    rcases hst with ⟨h1, h2, h3⟩ | ⟨n, hn, h1, h2⟩
    · subst h1; subst h2; subst h3
      cases rising
      · refine ⟨⟨.idle, 0, clock⟩, .ok none, ?_, ⟨.inl ⟨rfl, rfl, rfl⟩, rfl, rfl⟩, rfl, Nat.le_refl _⟩
        simp [Rc5Decoder.transition, Rc5State.toState]
      · refine ⟨⟨.data 12, 0 ||| (1 : BitVec 16) <<< 13, 0⟩, .ok none, ?_, ?_, rfl, Nat.zero_le _⟩
        · simp [Rc5Decoder.transition, Rc5State.toState, shl1]
        · exact ⟨.inr ⟨12, by decide, rfl, rfl⟩, rfl, rfl⟩
    · subst h1; subst h2
      rcases Nat.mod_two_eq_zero_or_one clock with hcl | hcl
      · simp only [hcl]
        by_cases hn0 : n = 0
        · subst hn0
          cases rising
          · exact ⟨rc5Init, .ok (some (Rc5Command.unpack b)),
              by simp [Rc5Decoder.transition, Rc5State.toState, hcl, Rc5Decoder.reset, rc5Init],
              sim5_init, by simp, Nat.zero_le _⟩
          · exact ⟨rc5Init, .ok (some (Rc5Command.unpack (b ||| 1#16))),
              by simp [Rc5Decoder.transition, Rc5State.toState, hcl, Rc5Decoder.reset, rc5Init],
              sim5_init, by simp, Nat.zero_le _⟩
        · cases rising
          · refine ⟨⟨.data (n - 1), b, clock⟩, .ok none,
              by simp [Rc5Decoder.transition, Rc5State.toState, hcl, hn0], ?_, by simp [hn0],
              Nat.le_refl _⟩
            simp only [Nat.zero_ne_one, beq_iff_eq, if_false, hn0, Bool.false_eq_true]
            exact ⟨.inr ⟨n - 1, by omega, rfl, rfl⟩, rfl, by simp [hcl]⟩
          · refine ⟨⟨.data (n - 1), b ||| (1 : BitVec 16) <<< n, clock⟩, .ok none,
              by simp [Rc5Decoder.transition, Rc5State.toState, hcl, hn0,
                shl1_lt t (show n < 16 by omega)], ?_, by simp [hn0], Nat.le_refl _⟩
            simp only [Nat.zero_ne_one, beq_iff_eq, if_false, hn0, if_true]
            exact ⟨.inr ⟨n - 1, by omega, rfl, rfl⟩, rfl, by simp [hcl]⟩
      · refine ⟨⟨.data n, b, clock⟩, .ok none,
          by simp [Rc5Decoder.transition, Rc5State.toState, hcl], ?_, by simp [hcl], Nat.le_refl _⟩
        simp only [hcl, beq_self_eq_true, if_true]
        exact ⟨.inr ⟨n, hn, rfl, rfl⟩, rfl, by simp [hcl]⟩

theorem rc5_step_some {d d' : Rc5Decoder} {e : Ev} {r : Res Rc5Command}
    (h : rc5Fn t tbl d e = some (d', r)) : ∃ clock, rc5Clock t tbl d e.2 = some clock := by
  unfold rc5Fn Decoder.eventTotal at h
  simp only [rc5Decoder, Rc5Decoder.event, Option.bind_eq_bind] at h
  unfold rc5Clock
  rcases hg : tbl.get e.2 with _ | v
  · exact ⟨0, rfl⟩
  · rw [hg] at h
    simp only [Rc5Decoder.tick, Option.bind_eq_bind] at h
    rcases h1 : uadd t t.usizeBits v 1 with _ | inc
    · simp [h1] at h
    · rcases h2 : uadd t t.usizeBits d.clock inc with _ | c
      · simp [h1, h2] at h
      · exact ⟨c, by simp [h1, h2]⟩

theorem rc5_sim (hw : 16 ≤ t.usizeBits) (hlen : tbl.spans.length ≤ 8) {d d' : Rc5Decoder}
    {a : Abs5} (hs : Sim5 d a) {e : Ev} {r : Res Rc5Command} (h : rc5Fn t tbl d e = some (d', r)) :
    Sim5 d' (a.step (measure tbl e)).1 ∧ r = (a.step (measure tbl e)).2 := by
  obtain ⟨clock, hc⟩ := rc5_step_some t tbl h
  obtain ⟨d2, r2, h2, h3, h4, -⟩ := rc5_step_ex t tbl hw hlen hs e hc
  rw [h, Option.some.injEq, Prod.mk.injEq] at h2
  obtain ⟨rfl, rfl⟩ := h2
  exact ⟨h3, h4⟩

theorem rc5_run_sim (hw : 16 ≤ t.usizeBits) (hlen : tbl.spans.length ≤ 8) {d d' : Rc5Decoder}
    {a : Abs5} (hs : Sim5 d a) {evs : List Ev} {o : List (Res Rc5Command)}
    (h : runStep (rc5Fn t tbl) d evs = some (d', o)) :
    Sim5 d' (runTotal Abs5.step a (evs.map (measure tbl))).1 ∧
      o = (runTotal Abs5.step a (evs.map (measure tbl))).2 := by
  induction evs generalizing d a o with
  | nil => simp [runStep] at h; obtain ⟨rfl, rfl⟩ := h; exact ⟨hs, rfl⟩
  | cons e es ih =>
    obtain ⟨d1, r, o', h1, h2, rfl⟩ := run_cons_inv h
    obtain ⟨h3, rfl⟩ := rc5_sim t tbl hw hlen hs h1
    obtain ⟨h4, rfl⟩ := ih h3 h2
    exact ⟨h4, rfl⟩

/-- No panic: in release builds, or while the clock is far from overflowing. -/
theorem rc5_run_ex (hw : 16 ≤ t.usizeBits) (hlen : tbl.spans.length ≤ 8) {d : Rc5Decoder}
    {a : Abs5} (hs : Sim5 d a) (evs : List Ev)
    (hsafe : t.overflowChecks = false ∨ d.clock + 8 * evs.length < 2 ^ t.usizeBits) :
    ∃ d', runStep (rc5Fn t tbl) d evs =
        some (d', (runTotal Abs5.step a (evs.map (measure tbl))).2) ∧
      Sim5 d' (runTotal Abs5.step a (evs.map (measure tbl))).1 ∧
      (d'.clock ≤ d.clock + 8 * evs.length ∨ t.overflowChecks = false) := by
  have hpow : 2 ^ 16 ≤ 2 ^ t.usizeBits := Nat.pow_le_pow_right (by decide) hw
  induction evs generalizing d a with
  | nil => exact ⟨d, rfl, hs, .inl (Nat.le_refl _)⟩
  | cons e es ih =>
    have hclk : ∃ clock, rc5Clock t tbl d e.2 = some clock ∧
        (clock ≤ d.clock + 8 ∨ t.overflowChecks = false) := by
      unfold rc5Clock
      rcases hg : tbl.get e.2 with _ | v
      · exact ⟨0, rfl, .inl (Nat.zero_le _)⟩
      · have hv : v + 1 ≤ 8 :=
          (half_lt hlen (by simp [PulseSpans.half, hg] : tbl.half e.2 = some (v + 1))).2
        have hinc : uadd t t.usizeBits v 1 = some (v + 1) := uadd_exact _ _ _ _ (by omega)
        simp only [hinc, Option.bind_some]
        rcases hsafe with hr | hlt
        · exact ⟨_, uadd_release hr _ _ _, .inr hr⟩
        · refine ⟨d.clock + (v + 1), uadd_exact _ _ _ _ ?_, .inl (by omega)⟩
          simp only [List.length_cons] at hlt
          omega
    obtain ⟨clock, hc, hcl⟩ := hclk
    obtain ⟨d1, r, h1, h2, h3, h4⟩ := rc5_step_ex t tbl hw hlen hs e hc
    obtain ⟨d2, h5, h6, h7⟩ := ih h2 (by
      simp only [List.length_cons] at hsafe
      rcases hcl with hcl | hcl
      · rcases hsafe with hsafe | hsafe
        · exact .inl hsafe
        · exact .inr (by omega)
      · exact .inl hcl)
    refine ⟨d2, ?_, h6, ?_⟩
    · simp only [runStep, h1, h5, h3, List.map_cons, runTotal]
    · simp only [List.length_cons]
      rcases hcl with hcl | hcl
      · rcases h7 with h7 | h7
        · exact .inl (by omega)
        · exact .inr h7
      · exact .inr hcl

theorem rc5_results_inv {K : Type} {conv : Rc5Command → K} {evs : List Ev} {outs : List (Res K)}
    (h : results (rc5Decoder t tbl) conv evs = some outs) :
    ∃ (s : Rc5Decoder) (o : List (Res Rc5Command)),
      runStep (rc5Fn t tbl) rc5Init evs = some (s, o) ∧
      outs = o.map (Res.map conv) := results_inv h

end

end Infrared
