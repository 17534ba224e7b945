import Verif.Lemmas.Rc5

/-!
# RC6 decoder lemmas

The decoder is simulated by an abstract machine that keeps only the parity of the clock and
no header bits.
-/

namespace Infrared

/-- Where the abstract RC6 decoder is in the frame. -/
inductive Rc6At
  | idle | leading | pause | header (n : Nat) | trailing | data (n : Nat)
deriving DecidableEq

/-- Abstract RC6 decoder. -/
structure Abs6 where
  st : Rc6At
  data : BitVec 16
  toggle : Bool
  odd : Bool
deriving DecidableEq

/-- Idle, with a left-over toggle bit. -/
def Abs6.start (toggle : Bool) : Abs6 := { st := .idle, data := 0, toggle := toggle, odd := false }

/-- One edge while idle. -/
def Abs6.idleStep (a : Abs6) (rising : Bool) : Abs6 :=
  if rising then { a with st := .leading, odd := false } else { a with st := .idle }

/-- One edge of measured length. -/
def Abs6.step (a : Abs6) (e : Bool × Option Nat) : Abs6 × Res Rc6Command :=
  match e.2 with
  | none => ((Abs6.start a.toggle).idleStep e.1, .ok none)
  | some n =>
    let odd := xor a.odd (n % 2 == 1)
    match a.st with
    | .idle => (({ a with odd := odd } : Abs6).idleStep e.1, .ok none)
    | .leading =>
      ({ a with odd := odd, st := if e.1 = false ∧ n = 6 then .pause else .idle }, .ok none)
    | .pause =>
      ({ a with odd := odd, st := if e.1 = true ∧ n = 2 then .header 3 else .idle }, .ok none)
    | .header k =>
      if odd then
        ({ a with odd := odd, st := if k = 0 then .trailing else .header (k - 1) }, .ok none)
      else ({ a with odd := odd }, .ok none)
    | .trailing =>
      if e.1 = false ∧ n = 3 then ({ a with odd := odd, toggle := true, st := .data 15 }, .ok none)
      else if e.1 = true ∧ n = 2 then
        ({ a with odd := odd, toggle := false, st := .data 15 }, .ok none)
      else ({ a with odd := odd, st := if e.1 = false ∧ n = 1 then .trailing else .idle }, .ok none)
    | .data k =>
      if odd then
        let data := if e.1 then a.data else a.data ||| (1 : BitVec 16) <<< k
        if k = 0 then (Abs6.start a.toggle, .ok (some (Rc6Command.fromBits data a.toggle)))
        else ({ a with odd := odd, data := data, st := .data (k - 1) }, .ok none)
      else ({ a with odd := odd }, .ok none)

/-- The concrete state corresponds to the abstract one. -/
def Rc6At.Rel (s : Rc6State) : Rc6At → Prop
  | .idle => s = .idle
  | .leading => s = .leading
  | .pause => s = .leadingPaus
  | .header n => n ≤ 3 ∧ s = .headerData n
  | .trailing => s = .trailing
  | .data n => n ≤ 15 ∧ s = .data n

/-- The decoder is in the abstract state. -/
structure Sim6 (d : Rc6Decoder) (a : Abs6) : Prop where
  st : Rc6At.Rel d.state a.st
  data : d.data = a.data
  zero : (∀ n, a.st ≠ .data n) → a.data = 0
  toggle : d.toggle = a.toggle
  odd : a.odd = (d.clock % 2 == 1)

/-- Initial state. -/
def rc6Init : Rc6Decoder := { state := .idle, data := 0, headerdata := 0, toggle := false, clock := 0 }

theorem sim6_init : Sim6 rc6Init (Abs6.start false) := ⟨rfl, rfl, fun _ => rfl, rfl, rfl⟩

section
variable (t : Target) (tbl : PulseSpans)

/-- `event_total` of the RC6 decoder as a step function. -/
def rc6Fn (d : Rc6Decoder) (e : Ev) : Option (Rc6Decoder × Res Rc6Command) :=
  (rc6Decoder t tbl).eventTotal d e.1 e.2

/-- The new clock, if the addition does not panic. -/
def rc6Clock (d : Rc6Decoder) (dt : Nat) : Option Nat :=
  match tbl.get dt with
  | some v => (uadd t t.usizeBits v 1).bind fun inc => uadd t t.usizeBits d.clock inc
  | none => some 0

theorem rc6_step_ex (hw : 16 ≤ t.usizeBits) (hlen : tbl.spans.length ≤ 8) {d : Rc6Decoder}
    {a : Abs6} (hs : Sim6 d a) (e : Ev) {clock : Nat} (hc : rc6Clock t tbl d e.2 = some clock) :
    ∃ d' r, rc6Fn t tbl d e = some (d', r) ∧ Sim6 d' (a.step (measure tbl e)).1 ∧
      r = (a.step (measure tbl e)).2 ∧ d'.clock ≤ clock := by
  obtain ⟨rising, dt⟩ := e
  obtain ⟨st, b, hd, tg, c⟩ := d
  obtain ⟨ast, ab, atg, ao⟩ := a
  obtain ⟨hst, hdata, hzero, htog, hodd⟩ := hs
  dsimp only at hst hdata hzero htog hodd hc
  subst hdata
  subst htog
  have hpow : 2 ^ 16 ≤ 2 ^ t.usizeBits := Nat.pow_le_pow_right (by decide) hw
  unfold rc6Fn Decoder.eventTotal
  simp only [rc6Decoder, Rc6Decoder.event, Option.bind_eq_bind, measure, PulseSpans.half]
  unfold rc6Clock at hc
  rcases hg : tbl.get dt with _ | v
  · rw [hg] at hc
    simp only [Option.some.injEq] at hc
    subst hc
    cases rising
    · refine ⟨⟨.idle, 0, 0, tg, 0⟩, .ok none, ?_, ⟨rfl, rfl, fun _ => rfl, rfl, rfl⟩, rfl, Nat.le_refl _⟩
      simp [Rc6Decoder.tick, Rc6Decoder.reset, Rc6Decoder.transition, Rc6State.toState]
    · refine ⟨⟨.leading, 0, 0, tg, 0⟩, .ok none, ?_, ⟨rfl, rfl, fun _ => rfl, rfl, rfl⟩, rfl, Nat.le_refl _⟩
      simp [Rc6Decoder.tick, Rc6Decoder.reset, Rc6Decoder.transition, Rc6State.toState]
  · have hv : v + 1 ≤ 8 := (half_lt hlen (by simp [PulseSpans.half, hg] : tbl.half dt = some (v + 1))).2
    have hinc : uadd t t.usizeBits v 1 = some (v + 1) := uadd_exact _ _ _ _ (by omega)
    rw [hg] at hc
    simp only [hinc, Option.bind_some] at hc
    have hpar := parity_add (w := t.usizeBits) (by omega) (uadd_mod hc)
    simp only [Rc6Decoder.tick, hinc, hc, Option.bind_eq_bind, Option.bind_some, Option.map_some,
      Abs6.step]
    rw [hodd, ← hpar]
    clear hg hc hpar hodd ao hinc
    generalize v + 1 = n
    cases ast with
    | idle =>
      cases hst
      have hz := hzero (by simp)
      cases rising
      · exact ⟨⟨.idle, b, hd, tg, clock⟩, .ok none,
          by simp [Rc6Decoder.transition, Rc6State.toState], ⟨rfl, rfl, fun _ => hz, rfl, rfl⟩, rfl,
          Nat.le_refl _⟩
      · exact ⟨⟨.leading, b, hd, tg, 0⟩, .ok none,
          by simp [Rc6Decoder.transition, Rc6State.toState], ⟨rfl, rfl, fun _ => hz, rfl, rfl⟩, rfl,
          Nat.zero_le _⟩
    | leading =>
      cases hst
      have hz := hzero (by simp)
      by_cases h : rising = false ∧ n = 6
      · rw [if_pos h]
        obtain ⟨rfl, rfl⟩ := h
        exact ⟨⟨.leadingPaus, b, hd, tg, clock⟩, .ok none,
          by simp [Rc6Decoder.transition, Rc6State.toState], ⟨rfl, rfl, fun _ => hz, rfl, rfl⟩, rfl,
          Nat.le_refl _⟩
      · rw [if_neg h]
        refine ⟨⟨.idle, b, hd, tg, clock⟩, .ok none, ?_, ⟨rfl, rfl, fun _ => hz, rfl, rfl⟩, rfl,
          Nat.le_refl _⟩
        simp only [Rc6Decoder.transition, Option.some.injEq, if_neg h, Option.bind_some,
          Rc6State.toState]
    | pause =>
      cases hst
      have hz := hzero (by simp)
      by_cases h : rising = true ∧ n = 2
      · rw [if_pos h]
        obtain ⟨rfl, rfl⟩ := h
        exact ⟨⟨.headerData 3, b, hd, tg, clock⟩, .ok none,
          by simp [Rc6Decoder.transition, Rc6State.toState],
          ⟨⟨by decide, rfl⟩, rfl, fun _ => hz, rfl, rfl⟩, rfl, Nat.le_refl _⟩
      · rw [if_neg h]
        refine ⟨⟨.idle, b, hd, tg, clock⟩, .ok none, ?_, ⟨rfl, rfl, fun _ => hz, rfl, rfl⟩, rfl,
          Nat.le_refl _⟩
        simp only [Rc6Decoder.transition, Option.some.injEq, if_neg h, Option.bind_some,
          Rc6State.toState]
    | header k =>
      dsimp only
      obtain ⟨hk, hst⟩ := hst
      cases hst
      have hz := hzero (by simp)
      rcases Nat.mod_two_eq_zero_or_one clock with hcl | hcl
      · refine ⟨⟨.headerData k, b, hd, tg, clock⟩, .ok none,
          by simp [Rc6Decoder.transition, Rc6State.toState, hcl], ?_, by simp [hcl], Nat.le_refl _⟩
        rw [if_neg (by simp [hcl])]
        exact ⟨⟨hk, rfl⟩, rfl, fun _ => hz, rfl, rfl⟩
      · rw [if_pos (by simp [hcl])]
        by_cases hk0 : k = 0
        · rw [if_pos hk0]
          subst hk0
          exact ⟨⟨.trailing, b, hd ||| (if rising then 0#16 else 1#16 <<< 0), tg, clock⟩, .ok none,
            by simp [Rc6Decoder.transition, Rc6State.toState, hcl, shl1_lt t (show 0 < 16 by decide)],
            ⟨rfl, rfl, fun _ => hz, rfl, rfl⟩, rfl, Nat.le_refl _⟩
        · rw [if_neg hk0]
          exact ⟨⟨.headerData (k - 1), b, hd ||| (if rising then 0#16 else 1#16 <<< k), tg, clock⟩,
            .ok none,
            by simp [Rc6Decoder.transition, Rc6State.toState, hcl, hk0,
              shl1_lt t (show k < 16 by omega)],
            ⟨⟨by omega, rfl⟩, rfl, fun _ => hz, rfl, rfl⟩, rfl, Nat.le_refl _⟩
    | trailing =>
      dsimp only
      cases hst
      have hz := hzero (by simp)
      by_cases h3 : rising = false ∧ n = 3
      · rw [if_pos h3]
        obtain ⟨rfl, rfl⟩ := h3
        exact ⟨⟨.data 15, b, hd, true, clock⟩, .ok none,
          by simp [Rc6Decoder.transition, Rc6State.toState],
          ⟨⟨by decide, rfl⟩, rfl, fun h => absurd rfl (h 15), rfl, rfl⟩, rfl, Nat.le_refl _⟩
      rw [if_neg h3]
      by_cases h2 : rising = true ∧ n = 2
      · rw [if_pos h2]
        obtain ⟨rfl, rfl⟩ := h2
        exact ⟨⟨.data 15, b, hd, false, clock⟩, .ok none,
          by simp [Rc6Decoder.transition, Rc6State.toState],
          ⟨⟨by decide, rfl⟩, rfl, fun h => absurd rfl (h 15), rfl, rfl⟩, rfl, Nat.le_refl _⟩
      rw [if_neg h2]
      by_cases h1 : rising = false ∧ n = 1
      · rw [if_pos h1]
        obtain ⟨rfl, rfl⟩ := h1
        exact ⟨⟨.trailing, b, hd, tg, clock⟩, .ok none,
          by simp [Rc6Decoder.transition, Rc6State.toState],
          ⟨rfl, rfl, fun _ => hz, rfl, rfl⟩, rfl, Nat.le_refl _⟩
      · rw [if_neg h1]
        refine ⟨⟨.idle, b, hd, tg, clock⟩, .ok none, ?_, ⟨rfl, rfl, fun _ => hz, rfl, rfl⟩, rfl,
          Nat.le_refl _⟩
        simp only [Rc6Decoder.transition, Option.some.injEq, if_neg h1, if_neg h2, if_neg h3,
          Option.bind_some, Rc6State.toState]
    | data k =>
      dsimp only
      obtain ⟨hk, hst⟩ := hst
      cases hst
      rcases Nat.mod_two_eq_zero_or_one clock with hcl | hcl
      · refine ⟨⟨.data k, b, hd, tg, clock⟩, .ok none,
          by simp [Rc6Decoder.transition, Rc6State.toState, hcl], ?_, by simp [hcl], Nat.le_refl _⟩
        rw [if_neg (by simp [hcl])]
        exact ⟨⟨hk, rfl⟩, rfl, fun h => absurd rfl (h k), rfl, rfl⟩
      · rw [if_pos (by simp [hcl])]
        by_cases hk0 : k = 0
        · subst hk0
          cases rising
          · exact ⟨⟨.idle, 0, 0, tg, 0⟩, .ok (some (Rc6Command.fromBits (b ||| 1#16) tg)),
              by simp [Rc6Decoder.transition, Rc6State.toState, hcl, Rc6Decoder.reset],
              ⟨rfl, rfl, fun _ => rfl, rfl, rfl⟩, by simp, Nat.zero_le _⟩
          · exact ⟨⟨.idle, 0, 0, tg, 0⟩, .ok (some (Rc6Command.fromBits b tg)),
              by simp [Rc6Decoder.transition, Rc6State.toState, hcl, Rc6Decoder.reset],
              ⟨rfl, rfl, fun _ => rfl, rfl, rfl⟩, by simp, Nat.zero_le _⟩
        · simp only [if_neg hk0]
          cases rising
          · exact ⟨⟨.data (k - 1), b ||| (1 : BitVec 16) <<< k, hd, tg, clock⟩, .ok none,
              by simp [Rc6Decoder.transition, Rc6State.toState, hcl, hk0,
                shl1_lt t (show k < 16 by omega)],
              ⟨⟨by omega, rfl⟩, rfl, fun h => absurd rfl (h _), rfl, rfl⟩, rfl, Nat.le_refl _⟩
          · exact ⟨⟨.data (k - 1), b, hd, tg, clock⟩, .ok none,
              by simp [Rc6Decoder.transition, Rc6State.toState, hcl, hk0],
              ⟨⟨by omega, rfl⟩, rfl, fun h => absurd rfl (h _), rfl, rfl⟩, rfl, Nat.le_refl _⟩

theorem rc6_step_some {d d' : Rc6Decoder} {e : Ev} {r : Res Rc6Command}
    (h : rc6Fn t tbl d e = some (d', r)) : ∃ clock, rc6Clock t tbl d e.2 = some clock := by
  unfold rc6Fn Decoder.eventTotal at h
  simp only [rc6Decoder, Rc6Decoder.event, Option.bind_eq_bind] at h
  unfold rc6Clock
  rcases hg : tbl.get e.2 with _ | v
  · exact ⟨0, rfl⟩
  · rw [hg] at h
    simp only [Rc6Decoder.tick, Option.bind_eq_bind] at h
    rcases h1 : uadd t t.usizeBits v 1 with _ | inc
    · simp [h1] at h
    · rcases h2 : uadd t t.usizeBits d.clock inc with _ | c
      · simp [h1, h2] at h
      · exact ⟨c, by simp [h1, h2]⟩

theorem rc6_sim (hw : 16 ≤ t.usizeBits) (hlen : tbl.spans.length ≤ 8) {d d' : Rc6Decoder}
    {a : Abs6} (hs : Sim6 d a) {e : Ev} {r : Res Rc6Command} (h : rc6Fn t tbl d e = some (d', r)) :
    Sim6 d' (a.step (measure tbl e)).1 ∧ r = (a.step (measure tbl e)).2 := by
  obtain ⟨clock, hc⟩ := rc6_step_some t tbl h
  obtain ⟨d2, r2, h2, h3, h4, -⟩ := rc6_step_ex t tbl hw hlen hs e hc
  rw [h, Option.some.injEq, Prod.mk.injEq] at h2
  obtain ⟨rfl, rfl⟩ := h2
  exact ⟨h3, h4⟩

theorem rc6_run_sim (hw : 16 ≤ t.usizeBits) (hlen : tbl.spans.length ≤ 8) {d d' : Rc6Decoder}
    {a : Abs6} (hs : Sim6 d a) {evs : List Ev} {o : List (Res Rc6Command)}
    (h : runStep (rc6Fn t tbl) d evs = some (d', o)) :
    Sim6 d' (runTotal Abs6.step a (evs.map (measure tbl))).1 ∧
      o = (runTotal Abs6.step a (evs.map (measure tbl))).2 := by
  induction evs generalizing d a o with
  | nil => simp [runStep] at h; obtain ⟨rfl, rfl⟩ := h; exact ⟨hs, rfl⟩
  | cons e es ih =>
    obtain ⟨d1, r, o', h1, h2, rfl⟩ := run_cons_inv h
    obtain ⟨h3, rfl⟩ := rc6_sim t tbl hw hlen hs h1
    obtain ⟨h4, rfl⟩ := ih h3 h2
    exact ⟨h4, rfl⟩

/-- No panic: in release builds, or while the clock is far from overflowing. -/
theorem rc6_run_ex (hw : 16 ≤ t.usizeBits) (hlen : tbl.spans.length ≤ 8) {d : Rc6Decoder}
    {a : Abs6} (hs : Sim6 d a) (evs : List Ev)
    (hsafe : t.overflowChecks = false ∨ d.clock + 8 * evs.length < 2 ^ t.usizeBits) :
    ∃ d', runStep (rc6Fn t tbl) d evs =
        some (d', (runTotal Abs6.step a (evs.map (measure tbl))).2) ∧
      Sim6 d' (runTotal Abs6.step a (evs.map (measure tbl))).1 ∧
      (d'.clock ≤ d.clock + 8 * evs.length ∨ t.overflowChecks = false) := by
  have hpow : 2 ^ 16 ≤ 2 ^ t.usizeBits := Nat.pow_le_pow_right (by decide) hw
  induction evs generalizing d a with
  | nil => exact ⟨d, rfl, hs, .inl (Nat.le_refl _)⟩
  | cons e es ih =>
    have hclk : ∃ clock, rc6Clock t tbl d e.2 = some clock ∧
        (clock ≤ d.clock + 8 ∨ t.overflowChecks = false) := by
      unfold rc6Clock
      rcases hg : tbl.get e.2 with _ | v
      · exact ⟨0, rfl, .inl (Nat.zero_le _)⟩
      · have hv : v + 1 ≤ 8 :=
          (half_lt hlen (by simp [PulseSpans.half, hg] : tbl.half e.2 = some (v + 1))).2
        have hinc : uadd t t.usizeBits v 1 = some (v + 1) := uadd_exact _ _ _ _ (by omega)
        simp only [hinc, Option.bind_some]
        rcases hsafe with hr | hlt
        · exact ⟨_, uadd_release hr _ _ _, .inr hr⟩
        · refine ⟨d.clock + (v + 1), uadd_exact _ _ _ _ ?_, .inl (by omega)⟩
          simp only [List.length_cons] at hlt
          omega
    obtain ⟨clock, hc, hcl⟩ := hclk
    obtain ⟨d1, r, h1, h2, h3, h4⟩ := rc6_step_ex t tbl hw hlen hs e hc
    obtain ⟨d2, h5, h6, h7⟩ := ih h2 (by
      simp only [List.length_cons] at hsafe
      rcases hcl with hcl | hcl
      · rcases hsafe with hsafe | hsafe
        · exact .inl hsafe
        · exact .inr (by omega)
      · exact .inl hcl)
    refine ⟨d2, ?_, h6, ?_⟩
    · simp only [runStep, h1, h5, h3, List.map_cons, runTotal]
    · simp only [List.length_cons]
      rcases hcl with hcl | hcl
      · rcases h7 with h7 | h7
        · exact .inl (by omega)
        · exact .inr h7
      · exact .inr hcl

theorem rc6_results_inv {K : Type} {conv : Rc6Command → K} {evs : List Ev} {outs : List (Res K)}
    (h : results (rc6Decoder t tbl) conv evs = some outs) :
    ∃ (s : Rc6Decoder) (o : List (Res Rc6Command)),
      runStep (rc6Fn t tbl) rc6Init evs = some (s, o) ∧
      outs = o.map (Res.map conv) := results_inv h

end

end Infrared
