import Verif.Lemmas.Air

/-!
# Pulse-distance listeners and the transmissions of all protocols
-/

namespace Infrared

open Spec

variable {C K : Type}

/-! ### Results of a transmission -/

/-- No result is a command. -/
def NoCmd (o : List (Res C)) : Prop := ∀ r ∈ o, ∀ c, r ≠ .ok (some c)

theorem NoCmd.append {a b : List (Res C)} (ha : NoCmd a) (hb : NoCmd b) : NoCmd (a ++ b) := by
  intro r hr
  rcases List.mem_append.mp hr with hr | hr
  · exact ha r hr
  · exact hb r hr

theorem NoCmd.cons {r : Res C} {o : List (Res C)} (hr : ∀ c, r ≠ .ok (some c)) (ho : NoCmd o) :
    NoCmd (r :: o) := by
  intro x hx
  rcases List.mem_cons.mp hx with rfl | hx
  · exact hr
  · exact ho x hx

theorem NoCmd.nil : NoCmd ([] : List (Res C)) := nofun

theorem NoCmd.quiet {o : List (Res C)} (ho : NoCmd o) : NoCmd (.ok none :: o) := ho.cons (by simp)

theorem NoCmd.nones (n : Nat) : NoCmd (List.replicate n (.ok none : Res C)) := by
  intro r hr c
  rw [List.eq_of_mem_replicate hr]
  simp

/-- All entries are empty, except perhaps the one at position `p`. -/
def At {A : Type} (p : Nat) (h : Option A) (l : List (Option A)) : Prop :=
  ∀ i x, l[i]? = some x → x = if i = p then h else none

theorem NoCmd.slot {o : List (Res C)} (ho : NoCmd o) {A : Type} (into : C → A) :
    ∀ x ∈ o.map (slotOf into), x = none := by
  intro x hx
  obtain ⟨r, hr, rfl⟩ := List.mem_map.mp hx
  have := ho r hr
  rcases r with _ | _ | c
  · rfl
  · rfl
  · exact absurd rfl (this c)

theorem NoCmd.at {o : List (Res C)} (ho : NoCmd o) {A : Type} (into : C → A) (p : Nat) :
    At p none (o.map (slotOf into)) := by
  intro i x hx
  rw [ho.slot into x (List.mem_of_getElem? hx)]
  simp

theorem at_of {o1 o2 : List (Res C)} {r : Res C} {A : Type} (into : C → A) (p : Nat) {h : Option A}
    (h1 : NoCmd o1) (h2 : NoCmd o2) (hl : o1.length = p) (hr : slotOf into r = h) :
    At p h ((o1 ++ r :: o2).map (slotOf into)) := by
  intro i x hx
  rw [List.map_append, List.map_cons] at hx
  by_cases hi : i < p
  · rw [List.getElem?_append_left (by simpa [hl] using hi)] at hx
    rw [h1.slot into x (List.mem_of_getElem? hx), if_neg (by omega)]
  · rw [List.getElem?_append_right (by simp [hl]; omega)] at hx
    simp only [List.length_map, hl] at hx
    by_cases hip : i = p
    · subst hip
      simp only [Nat.sub_self, List.getElem?_cons_zero, Option.some.injEq] at hx
      rw [if_pos rfl, ← hx, hr]
    · obtain ⟨k, hk⟩ : ∃ k, i - p = k + 1 := ⟨i - p - 1, by omega⟩
      rw [hk, List.getElem?_cons_succ] at hx
      rw [h2.slot into x (List.mem_of_getElem? hx), if_neg hip]

/-- One event before a run. -/
theorem run_cons_some {S I R : Type} {f : S → I → Option (S × R)} {s s1 s2 : S} {e : I} {es : List I}
    {r : R} {o : List R} (h1 : f s e = some (s1, r)) (h2 : runStep f s1 es = some (s2, o)) :
    runStep f s (e :: es) = some (s2, r :: o) := by
  simp only [runStep, h1, h2]

theorem run_snoc_some {S I R : Type} {f : S → I → Option (S × R)} {s s1 s2 : S} {e : I} {es : List I}
    {r : R} {o : List R} (h1 : runStep f s es = some (s1, o)) (h2 : f s1 e = some (s2, r)) :
    runStep f s (es ++ [e]) = some (s2, o ++ [r]) :=
  run_append_some h1 (by rw [run_singleton, h2]; rfl)

theorem sum_lt {w a b : Nat} (hw : 32 ≤ w) (ha : a < 2 ^ 31) (hb : b < 2 ^ 31) : a + b < 2 ^ w := by
  have : 2 ^ 32 ≤ 2 ^ w := Nat.pow_le_pow_right (by decide) hw
  omega

/-- Position of the last edge of the frame proper within its events. -/
def Spec.Msg.place : Msg → Nat
  | .nec _ => 66
  | .necRepeat => 2
  | .samsung _ => 66
  | .sbp _ _ => 76
  | .denon _ => 98
  | .rc5 w => (rc5Edges w).length - 1
  | .rc6 a c tg => (rc6Edges (a ++ c) tg).length - 1

/-! ### NEC timing -/

section
variable (t : Target) (m : Mono) (hm : m.Lawful) (hw : 32 ≤ m.width) (tbl : PulseSpans) (v : NecVariant C)
include hm hw

/-- A NEC receiver that hears neither a sync nor a repeat code stays where it is. -/
theorem nec_deaf (evs : List Ev) (d : NecDecoder) (hd : d.state = .init) (hsv : d.dtSave < 2 ^ 31)
    (hlt : ∀ e ∈ evs, e.2 < 2 ^ 31)
    (hno : ∀ x ∈ periodsFrom m.width d.dtSave evs, ¬ InTol tbl 0 x ∧ ¬ InTol tbl 1 x) :
    ∃ d' o, runStep (necFn t m tbl v) d evs = some (d', o) ∧ d'.state = .init ∧
      d'.bitbuf = d.bitbuf ∧ d'.dtSave < 2 ^ 31 ∧ NoCmd o := by
  induction evs generalizing d with
  | nil => exact ⟨d, [], rfl, hd, rfl, hsv, NoCmd.nil⟩
  | cons e es ih =>
    obtain ⟨b, x⟩ := e
    have hx : x < 2 ^ 31 := hlt (b, x) (by simp)
    have hes := fun e he => hlt e (List.mem_cons_of_mem _ he)
    cases b
    · obtain ⟨d', o, h1, h2, h3, h4, h5⟩ := ih { d with dtSave := x } hd hx hes hno
      exact ⟨d', _, run_cons_some (nec_falling t m tbl v d (.inl hd) x) h1, h2, h3, h4, h5.quiet⟩
    · have hs := sum_lt hw hsv hx
      have hn := hno ((d.dtSave + x) % 2 ^ m.width) (by simp [periodsFrom])
      rw [Nat.mod_eq_of_lt hs] at hn
      have h0 := nec_gap_idle t m hm tbl v d hd x hs hn.1 hn.2
      obtain ⟨d', o, h1, h2, h3, h4, h5⟩ := ih { state := .init, bitbuf := d.bitbuf, dtSave := 0 } rfl
        (by simp) hes (fun y hy => hno y (by simp [periodsFrom]; exact .inr hy))
      exact ⟨d', _, run_cons_some h0 h1, h2, h3, h4, h5.quiet⟩

/-- A foreign burst. -/
theorem nec_deaf_burst {f : Nat} {rs : List (Nat × Nat)} {pause : Nat} {rest : List Ev}
    (hb : Burst f m.width rs pause rest)
    (hlong : ∀ x, 15000 * f ≤ 1000000 * x → ¬ InTol tbl 0 x ∧ ¬ InTol tbl 1 x)
    (hno : ∀ x, Among f x rs → ¬ InTol tbl 0 x ∧ ¬ InTol tbl 1 x) (d : NecDecoder)
    (hd : d.state = .init) (hsv : d.dtSave < 2 ^ 31) :
    ∃ d' o, runStep (necFn t m tbl v) d ((true, pause) :: rest) = some (d', o) ∧ d'.state = .init ∧
      d'.bitbuf = d.bitbuf ∧ d'.dtSave < 2 ^ 31 ∧ NoCmd o := by
  refine nec_deaf t m hm hw tbl v _ d hd hsv ?_ ?_
  · intro e he
    rcases List.mem_cons.mp he with rfl | he
    · exact hb.short
    · exact hb.lt e he
  · intro x hx
    simp only [periodsFrom, List.mem_cons] at hx
    rcases hx with rfl | hx
    · rw [Nat.mod_eq_of_lt (sum_lt hw hsv hb.short)]
      exact hlong _ (by have := hb.silence; omega)
    · exact hno x (hb.periods x hx)

/-- Silence ends every frame in progress. -/
theorem nec_silence {f : Nat} {rs : List (Nat × Nat)} {pause : Nat} {rest : List Ev}
    (hb : Burst f m.width rs pause rest)
    (hlong : ∀ x, 15000 * f ≤ 1000000 * x → ∀ i < 4, ¬ InTol tbl i x) (d : NecDecoder)
    (hd : d.Ready) (hsv : d.dtSave < 2 ^ 31) :
    ∃ r, necFn t m tbl v d (true, pause) = some ({ state := .init, bitbuf := d.bitbuf, dtSave := 0 }, r) ∧
      ∀ c, r ≠ .ok (some c) := by
  have hs := sum_lt hw hsv hb.short
  have hn := hlong (d.dtSave + pause) (by have := hb.silence; omega)
  have hc := nec_classify_iff tbl (d.dtSave + pause)
  rw [nec_rising t m tbl v d hd pause (d.dtSave + pause)
    (by rw [hm.exact t pause d.dtSave (by omega), Nat.add_comm])]
  have h0 : NecPulse.classify tbl (d.dtSave + pause) ≠ .sync := fun h =>
    hn 0 (by decide) (get_inTol (hc.1.mp h))
  have h1 : NecPulse.classify tbl (d.dtSave + pause) ≠ .rep := fun h =>
    hn 1 (by decide) (get_inTol (hc.2.1.mp h))
  have h2 : NecPulse.classify tbl (d.dtSave + pause) ≠ .zero := fun h =>
    hn 2 (by decide) (get_inTol (hc.2.2.1.mp h))
  have h3 : NecPulse.classify tbl (d.dtSave + pause) ≠ .one := fun h =>
    hn 3 (by decide) (get_inTol (hc.2.2.2.mp h))
  generalize NecPulse.classify tbl (d.dtSave + pause) = pw at h0 h1 h2 h3
  obtain ⟨st, b, sv⟩ := d
  rcases hd with hd | ⟨n, hn, hd⟩ <;> dsimp only at hd <;> subst hd <;> cases pw <;>
    simp [necStep] at h0 h1 h2 h3 ⊢

/-- A complete frame with its stop mark. -/
theorem nec_own {f : Nat} {rs : List (Nat × Nat)} {pause : Nat} {ps : List (Nat × Nat)} {stop : Nat}
    (hb : Burst f m.width rs pause (pulses ps ++ [(false, stop)])) (hu : Unambiguous tbl 4)
    (hfit : Fits tbl m.width)
    (hlong : ∀ x, 15000 * f ≤ 1000000 * x → ∀ i < 4, ¬ InTol tbl i x) (d : NecDecoder)
    (hd : d.Ready) (hsv : d.dtSave < 2 ^ 31) (w : BitVec 32) (hfr : NecFrame tbl w ps) :
    ∃ d' o1, runStep (necFn t m tbl v) d ((true, pause) :: (pulses ps ++ [(false, stop)])) =
        some (d', o1 ++ [.ok (v.unpack w false), .ok none]) ∧ d'.state = .init ∧
      d'.bitbuf = w ∧ d'.dtSave < 2 ^ 31 ∧ NoCmd o1 ∧ o1.length = 66 := by
  obtain ⟨r, h1, h2⟩ := nec_silence t m hm hw tbl v hb hlong d hd hsv
  have h3 := nec_frame t m hm tbl hu hfit v { state := .init, bitbuf := d.bitbuf, dtSave := 0 } rfl w ps hfr
  have h4 := run_snoc_some h3 (nec_falling t m tbl v { state := .init, bitbuf := w, dtSave := 0 } (.inl rfl) stop)
  refine ⟨{ state := .init, bitbuf := w, dtSave := stop }, r :: List.replicate 65 (.ok none),
    (run_cons_some h1 h4).trans ?_, rfl, rfl,
    hb.lt (false, stop) (by simp), (NoCmd.nones 65).cons h2, by simp⟩
  simp

/-- A repeat code with its stop mark. -/
theorem nec_own_repeat {f : Nat} {rs : List (Nat × Nat)} {pause : Nat} {p : Nat × Nat} {stop : Nat}
    (hb : Burst f m.width rs pause (pulses [p] ++ [(false, stop)])) (hu : Unambiguous tbl 4)
    (hfit : Fits tbl m.width)
    (hlong : ∀ x, 15000 * f ≤ 1000000 * x → ∀ i < 4, ¬ InTol tbl i x) (d : NecDecoder)
    (hd : d.Ready) (hsv : d.dtSave < 2 ^ 31) (hp : InTol tbl 1 (p.1 + p.2)) :
    ∃ d' o1, runStep (necFn t m tbl v) d ((true, pause) :: (pulses [p] ++ [(false, stop)])) =
        some (d', o1 ++ [.ok (v.unpack d.bitbuf true), .ok none]) ∧ d'.state = .init ∧
      d'.bitbuf = d.bitbuf ∧ d'.dtSave < 2 ^ 31 ∧ NoCmd o1 ∧ o1.length = 2 := by
  obtain ⟨r, h1, h2⟩ := nec_silence t m hm hw tbl v hb hlong d hd hsv
  have h3 := nec_pulse t m tbl v hm { state := .init, bitbuf := d.bitbuf, dtSave := 0 } (.inl rfl) p.1 p.2
    (inTol_lt hfit hp)
  rw [nec_classify_rep (inTol_get hu (by decide) hp)] at h3
  have h4 := run_snoc_some h3
    (nec_falling t m tbl v { state := .init, bitbuf := d.bitbuf, dtSave := 0 } (.inl rfl) stop)
  exact ⟨{ state := .init, bitbuf := d.bitbuf, dtSave := stop }, [r, .ok none], (run_cons_some h1 h4).trans rfl, rfl, rfl,
    hb.lt (false, stop) (by simp), (NoCmd.nil.quiet).cons h2, rfl⟩

omit hw in
/-- Fewer than 32 bits make no command. -/
theorem nec_few (ps : List (Nat × Nat)) (k : Nat) (d : NecDecoder)
    (hd : d.state = .init ∨ ∃ n, n < k ∧ d.state = .receiving n) (hk : k + ps.length ≤ 31)
    (hlt : ∀ p ∈ ps, p.1 + p.2 < 2 ^ m.width ∧ ¬ InTol tbl 1 (p.1 + p.2)) :
    ∃ d' o, runStep (necFn t m tbl v) d (pulses ps) = some (d', o) ∧ d'.Ready ∧ NoCmd o := by
  induction ps generalizing k d with
  | nil =>
    refine ⟨d, [], rfl, ?_, NoCmd.nil⟩
    rcases hd with hd | ⟨n, hn, hd⟩
    · exact .inl hd
    · exact .inr ⟨n, by omega, hd⟩
  | cons p ps ih =>
    simp only [List.length_cons] at hk
    obtain ⟨hs, hn1⟩ := hlt p (by simp)
    have hr : d.Ready := by
      rcases hd with hd | ⟨n, hn, hd⟩
      · exact .inl hd
      · exact .inr ⟨n, by omega, hd⟩
    have h1 := nec_pulse t m tbl v hm d hr p.1 p.2 hs
    have hrep : NecPulse.classify tbl (p.1 + p.2) ≠ .rep := fun h =>
      hn1 (get_inTol ((nec_classify_iff tbl _).2.1.mp h))
    generalize NecPulse.classify tbl (p.1 + p.2) = pw at h1 hrep
    have key : ((necStep v d.state d.bitbuf pw).1.state = .init ∨
        ∃ n, n < k + 1 ∧ (necStep v d.state d.bitbuf pw).1.state = .receiving n) ∧
        ∀ c, (necStep v d.state d.bitbuf pw).2 ≠ .ok (some c) := by
      rcases hd with hd | ⟨n, hn, hd⟩ <;> rw [hd] <;> cases pw
      all_goals first | exact absurd rfl hrep | skip
      case inr.zero => simp [necStep, show n ≠ 31 by omega, hn]
      case inr.one => simp [necStep, show n ≠ 31 by omega, hn]
      all_goals simp [necStep]
    obtain ⟨d', o, h2, h3, h4⟩ := ih (k + 1) _ key.1 (by omega) (fun q hq => hlt q (by simp [hq]))
    exact ⟨d', _, run_append_some h1 h2, h3, ((NoCmd.nil.cons key.2).quiet).append h4⟩

omit hw in
/-- A pulse that is no symbol. -/
theorem nec_alien (p : Nat × Nat) (d : NecDecoder) (hd : d.Ready) (hs : p.1 + p.2 < 2 ^ m.width)
    (hn : ∀ i < 4, ¬ InTol tbl i (p.1 + p.2)) :
    ∃ d' o, runStep (necFn t m tbl v) d (pulses [p]) = some (d', o) ∧ d'.state = .init ∧
      d'.dtSave = 0 ∧ NoCmd o := by
  have h := nec_pulse t m tbl v hm d hd p.1 p.2 hs
  have hc := nec_classify_iff tbl (p.1 + p.2)
  have h0 : NecPulse.classify tbl (p.1 + p.2) ≠ .sync := fun h =>
    hn 0 (by decide) (get_inTol (hc.1.mp h))
  have h1 : NecPulse.classify tbl (p.1 + p.2) ≠ .rep := fun h =>
    hn 1 (by decide) (get_inTol (hc.2.1.mp h))
  have h2 : NecPulse.classify tbl (p.1 + p.2) ≠ .zero := fun h =>
    hn 2 (by decide) (get_inTol (hc.2.2.1.mp h))
  have h3 : NecPulse.classify tbl (p.1 + p.2) ≠ .one := fun h =>
    hn 3 (by decide) (get_inTol (hc.2.2.2.mp h))
  refine ⟨_, _, h, ?_⟩
  generalize NecPulse.classify tbl (p.1 + p.2) = pw at h0 h1 h2 h3
  obtain ⟨st, b, sv⟩ := d
  rcases hd with hd | ⟨n, hn, hd⟩ <;> dsimp only at hd <;> subst hd <;> cases pw
  all_goals first | contradiction | simp [necStep, NoCmd]

end

/-! ### SBP -/

/-- Not in the command part of a frame. -/
def SbpDecoder.Early (d : SbpDecoder) : Prop := d.Ready ∧ ∀ n, d.state ≠ .command n

theorem sbpStep_early (d : SbpDecoder) (hd : d.Early) (pw : SbpPulse) (hpw : pw ≠ .paus) :
    (sbpStep d pw).1.Early ∧ (∀ c, (sbpStep d pw).2 ≠ .ok (some c)) := by
  refine ⟨⟨sbpStep_ready d hd.1 pw, ?_⟩, ?_⟩
  · obtain ⟨st, a, c, sv⟩ := d
    have h2 := hd.2
    dsimp only at h2
    intro n
    cases st <;> cases pw
    all_goals first
      | contradiction
      | exact absurd rfl (h2 _)
      | simp [sbpStep, sbpInit]
    all_goals split <;> simp
  · obtain ⟨st, a, c, sv⟩ := d
    have h2 := hd.2
    dsimp only at h2
    intro n
    cases st <;> cases pw
    all_goals first
      | contradiction
      | exact absurd rfl (h2 _)
      | simp [sbpStep, sbpInit]
    all_goals split <;> simp

theorem sbpStep_saved (d : SbpDecoder) (pw : SbpPulse) (h : d.sinceRising < 2 ^ 31) :
    (sbpStep d pw).1.sinceRising < 2 ^ 31 := by
  obtain ⟨st, a, c, sv⟩ := d
  dsimp only at h
  cases st <;> cases pw <;> simp only [sbpStep, sbpInit]
  all_goals first
    | exact h
    | decide
    | (split <;> first | exact h | exact Nat.two_pow_pos 31)

theorem sbpStep_idle (d : SbpDecoder) (hd : d.state = .init) (pw : SbpPulse) (hpw : pw ≠ .sync) :
    sbpStep d pw = (d, .ok none) := by
  obtain ⟨st, a, c, sv⟩ := d
  dsimp only at hd
  subst hd
  cases pw <;> first | contradiction | rfl

section
variable (t : Target) (m : Mono) (hm : m.Lawful) (hw : 32 ≤ m.width) (tbl : PulseSpans)
include hm hw

/-- A property of the decoder that every possible period and every falling edge keeps, without a
command. -/
theorem sbp_keep (P : SbpDecoder → Prop) (hP : ∀ d, P d → d.Ready)
    (hfall : ∀ d x, P d → x < 2 ^ 31 → P { d with sinceRising := x }) (good : Nat → Prop)
    (hrise : ∀ d x, P d → good x → P (sbpStep d (SbpPulse.classify tbl x)).1 ∧
      ∀ c, (sbpStep d (SbpPulse.classify tbl x)).2 ≠ .ok (some c))
    (evs : List Ev) (b : Bool) (sv : Nat) (d : SbpDecoder) (hd : P d)
    (hsv : b = false → d.sinceRising = sv ∧ sv < 2 ^ 31)
    (hpair : Paired b evs) (hlt : ∀ e ∈ evs, e.2 < 2 ^ 31)
    (hgood : ∀ x ∈ periodsFrom m.width sv evs, good x) :
    ∃ d' o, runStep (sbpFn t m tbl) d evs = some (d', o) ∧ P d' ∧ NoCmd o := by
  induction evs generalizing b sv d with
  | nil => exact ⟨d, [], rfl, hd, NoCmd.nil⟩
  | cons e es ih =>
    obtain ⟨r, x⟩ := e
    have hx : x < 2 ^ 31 := hlt (r, x) (by simp)
    have hes := fun e he => hlt e (List.mem_cons_of_mem _ he)
    cases r
    · obtain ⟨d', o, h1, h2, h3⟩ := ih false x { d with sinceRising := x } (hfall d x hd hx)
        (fun _ => ⟨rfl, hx⟩) hpair hes hgood
      exact ⟨d', _, run_cons_some (sbp_falling t m tbl d (hP d hd) x) h1, h2, h3.quiet⟩
    · obtain ⟨rfl, hpair⟩ := hpair
      obtain ⟨h1, h2⟩ := hsv rfl
      have hs := sum_lt hw h2 hx
      have hg := hgood ((sv + x) % 2 ^ m.width) (by simp [periodsFrom])
      rw [Nat.mod_eq_of_lt hs] at hg
      have h0 := sbp_rising t m tbl d (hP d hd) x (sv + x) (by rw [h1]; exact hm.exact t sv x hs)
      obtain ⟨h3, h4⟩ := hrise d (sv + x) hd hg
      obtain ⟨d', o, h5, h6, h7⟩ := ih true 0 _ h3 (by simp) hpair hes
        (fun y hy => hgood y (by simp [periodsFrom]; exact .inr hy))
      exact ⟨d', _, run_cons_some h0 h5, h6, h7.cons h4⟩

/-- Silence ends every frame in progress. -/
theorem sbp_silence {f : Nat} {rs : List (Nat × Nat)} {pause : Nat} {rest : List Ev}
    (hb : Burst f m.width rs pause rest)
    (hlong : ∀ x, 15000 * f ≤ 1000000 * x → ∀ i < 4, ¬ InTol tbl i x) (d : SbpDecoder)
    (hd : d.Ready) (hsv : d.sinceRising < 2 ^ 31) :
    ∃ d' r, sbpFn t m tbl d (true, pause) = some (d', r) ∧
      (d'.state = .init ∧ d'.address = 0 ∧ d'.command = 0) ∧ d'.sinceRising < 2 ^ 31 ∧
      ∀ c, r ≠ .ok (some c) := by
  have hs := sum_lt hw hsv hb.short
  have hn := hlong (d.sinceRising + pause) (by have := hb.silence; omega)
  have hc := sbp_classify_iff tbl (d.sinceRising + pause)
  rw [sbp_rising t m tbl d hd pause (d.sinceRising + pause) (hm.exact t _ _ hs)]
  have h0 : SbpPulse.classify tbl (d.sinceRising + pause) ≠ .sync := fun h =>
    hn 0 (by decide) (get_inTol (hc.1.mp h))
  have h1 : SbpPulse.classify tbl (d.sinceRising + pause) ≠ .paus := fun h =>
    hn 1 (by decide) (get_inTol (hc.2.1.mp h))
  have h2 : SbpPulse.classify tbl (d.sinceRising + pause) ≠ .zero := fun h =>
    hn 2 (by decide) (get_inTol (hc.2.2.1.mp h))
  have h3 : SbpPulse.classify tbl (d.sinceRising + pause) ≠ .one := fun h =>
    hn 3 (by decide) (get_inTol (hc.2.2.2.mp h))
  generalize SbpPulse.classify tbl (d.sinceRising + pause) = pw at h0 h1 h2 h3
  have hpw : pw = .notAPulseWidth := by cases pw <;> first | contradiction | rfl
  subst hpw
  obtain ⟨st, a, c, sv⟩ := d
  rcases hd with ⟨hd, ha, hc⟩ | ⟨n, hn, hd, -⟩ | ⟨hd, -⟩ | ⟨n, hn, hd, -⟩ <;> dsimp only at hd <;> subst hd
  · exact ⟨_, _, rfl, ⟨rfl, ha, hc⟩, hsv, by simp⟩
  all_goals exact ⟨sbpInit, .error _, rfl, ⟨rfl, rfl, rfl⟩, Nat.two_pow_pos 31, by simp⟩

/-- A foreign burst without divider. -/
theorem sbp_deaf_paus {f : Nat} {rs : List (Nat × Nat)} {pause : Nat} {rest : List Ev}
    (hb : Burst f m.width rs pause rest)
    (hlong : ∀ x, 15000 * f ≤ 1000000 * x → ∀ i < 4, ¬ InTol tbl i x)
    (hno : ∀ x, Among f x rs → ¬ InTol tbl 1 x) (d : SbpDecoder)
    (hd : d.Ready) (hsv : d.sinceRising < 2 ^ 31) :
    ∃ d' o, runStep (sbpFn t m tbl) d ((true, pause) :: rest) = some (d', o) ∧
      (d'.Ready ∧ d'.sinceRising < 2 ^ 31) ∧ NoCmd o := by
  obtain ⟨d1, r, h1, h2, h3, h4⟩ := sbp_silence t m hm hw tbl hb hlong d hd hsv
  obtain ⟨d', o, h5, h6, h7⟩ := sbp_keep t m hm hw tbl (fun d => d.Early ∧ d.sinceRising < 2 ^ 31)
    (fun d hd => hd.1.1) (fun d x hd hx => ⟨hd.1, hx⟩) (fun x => ¬ InTol tbl 1 x)
    (fun d x hd hx => by
      have := sbpStep_early d hd.1 (SbpPulse.classify tbl x) fun h =>
        hx (get_inTol ((sbp_classify_iff tbl x).2.1.mp h))
      exact ⟨⟨this.1, sbpStep_saved d _ hd.2⟩, this.2⟩)
    rest true 0 d1 ⟨⟨.inl h2, by rw [h2.1]; simp⟩, h3⟩ (by simp) hb.paired hb.lt
    (fun x hx => hno x (hb.periods x hx))
  exact ⟨d', _, run_cons_some h1 h5, ⟨h6.1.1, h6.2⟩, h7.cons h4⟩

/-- A foreign burst without sync. -/
theorem sbp_deaf_sync {f : Nat} {rs : List (Nat × Nat)} {pause : Nat} {rest : List Ev}
    (hb : Burst f m.width rs pause rest)
    (hlong : ∀ x, 15000 * f ≤ 1000000 * x → ∀ i < 4, ¬ InTol tbl i x)
    (hno : ∀ x, Among f x rs → ¬ InTol tbl 0 x) (d : SbpDecoder)
    (hd : d.Ready) (hsv : d.sinceRising < 2 ^ 31) :
    ∃ d' o, runStep (sbpFn t m tbl) d ((true, pause) :: rest) = some (d', o) ∧
      (d'.Ready ∧ d'.sinceRising < 2 ^ 31) ∧ NoCmd o := by
  obtain ⟨d1, r, h1, h2, h3, h4⟩ := sbp_silence t m hm hw tbl hb hlong d hd hsv
  obtain ⟨d', o, h5, h6, h7⟩ := sbp_keep t m hm hw tbl
    (fun d => (d.state = .init ∧ d.address = 0 ∧ d.command = 0) ∧ d.sinceRising < 2 ^ 31)
    (fun d hd => .inl hd.1) (fun d x hd hx => ⟨hd.1, hx⟩) (fun x => ¬ InTol tbl 0 x)
    (fun d x hd hx => by
      rw [sbpStep_idle d hd.1.1 (SbpPulse.classify tbl x) fun h =>
        hx (get_inTol ((sbp_classify_iff tbl x).1.mp h))]
      exact ⟨hd, by simp⟩)
    rest true 0 d1 ⟨h2, h3⟩ (by simp) hb.paired hb.lt
    (fun x hx => hno x (hb.periods x hx))
  exact ⟨d', _, run_cons_some h1 h5, ⟨.inl h6.1, h6.2⟩, h7.cons h4⟩

/-- A complete frame with its stop mark. -/
theorem sbp_own {f : Nat} {rs : List (Nat × Nat)} {pause : Nat} {ps : List (Nat × Nat)} {stop : Nat}
    (hb : Burst f m.width rs pause (pulses ps ++ [(false, stop)])) (hu : Unambiguous tbl 4)
    (hfit : Fits tbl m.width)
    (hlong : ∀ x, 15000 * f ≤ 1000000 * x → ∀ i < 4, ¬ InTol tbl i x) (d : SbpDecoder)
    (hd : d.Ready) (hsv : d.sinceRising < 2 ^ 31) (a : BitVec 16) (w : BitVec 20)
    (hfr : Matches tbl (sbpSlots a w) ps) :
    ∃ d' o1, runStep (sbpFn t m tbl) d ((true, pause) :: (pulses ps ++ [(false, stop)])) =
        some (d', o1 ++ [.ok (some (SbpCommand.unpack a (w.setWidth 32))), .ok none]) ∧
      (d'.Ready ∧ d'.sinceRising < 2 ^ 31) ∧ NoCmd o1 ∧ o1.length = 76 := by
  obtain ⟨d1, r, h1, h2, -, h4⟩ := sbp_silence t m hm hw tbl hb hlong d hd hsv
  have h3 := sbp_frame t m tbl hm hu hfit d1 h2 a w ps hfr
  have h5 := run_snoc_some h3 (sbp_falling t m tbl sbpInit sbpInit_ready stop)
  refine ⟨{ sbpInit with sinceRising := stop }, r :: List.replicate 75 (.ok none),
    (run_cons_some h1 h5).trans ?_, ⟨sbpInit_ready, hb.lt (false, stop) (by simp)⟩,
    (NoCmd.nones 75).cons h4, by simp⟩
  simp

end

/-! ### Denon -/

section
variable (t : Target) (m : Mono) (hm : m.Lawful) (hw : 32 ≤ m.width) (tbl : PulseSpans)
include hm hw

omit hw in
theorem denon_idle_rise (d : DenonDecoder) (hd : d.state = .idle) (x : Nat)
    (hs : d.dtSave + x < 2 ^ m.width) (hno : ¬ InTol tbl 0 (d.dtSave + x)) :
    denonFn t m tbl d (true, x) = some ({ state := .idle, buf := d.buf, dtSave := 0 }, .ok none) := by
  rw [denon_rising t m tbl d (.inl hd) x _ (hm.exact t _ _ hs), hd]
  have h0 : DenonPulse.classify tbl (d.dtSave + x) ≠ .sync := fun h =>
    hno (get_inTol ((denon_classify_iff tbl _).1.mp h))
  generalize DenonPulse.classify tbl (d.dtSave + x) = pw at h0
  cases pw <;> first | contradiction | rfl

/-- A Denon receiver that hears no sync stays where it is. -/
theorem denon_deaf (evs : List Ev) (d : DenonDecoder) (hd : d.state = .idle) (hsv : d.dtSave < 2 ^ 31)
    (hlt : ∀ e ∈ evs, e.2 < 2 ^ 31)
    (hno : ∀ x ∈ periodsFrom m.width d.dtSave evs, ¬ InTol tbl 0 x) :
    ∃ d' o, runStep (denonFn t m tbl) d evs = some (d', o) ∧ d'.state = .idle ∧
      d'.buf = d.buf ∧ d'.dtSave < 2 ^ 31 ∧ NoCmd o := by
  induction evs generalizing d with
  | nil => exact ⟨d, [], rfl, hd, rfl, hsv, NoCmd.nil⟩
  | cons e es ih =>
    obtain ⟨b, x⟩ := e
    have hx : x < 2 ^ 31 := hlt (b, x) (by simp)
    have hes := fun e he => hlt e (List.mem_cons_of_mem _ he)
    cases b
    · obtain ⟨d', o, h1, h2, h3, h4, h5⟩ := ih { d with dtSave := x } hd hx hes hno
      exact ⟨d', _, run_cons_some (denon_falling t m tbl d (.inl hd) x) h1, h2, h3, h4, h5.quiet⟩
    · have hs := sum_lt hw hsv hx
      have hn := hno ((d.dtSave + x) % 2 ^ m.width) (by simp [periodsFrom])
      rw [Nat.mod_eq_of_lt hs] at hn
      have h0 := denon_idle_rise t m hm tbl d hd x hs hn
      obtain ⟨d', o, h1, h2, h3, h4, h5⟩ := ih { state := .idle, buf := d.buf, dtSave := 0 } rfl
        (by simp) hes (fun y hy => hno y (by simp [periodsFrom]; exact .inr hy))
      exact ⟨d', _, run_cons_some h0 h1, h2, h3, h4, h5.quiet⟩

/-- A foreign burst. -/
theorem denon_deaf_burst {f : Nat} {rs : List (Nat × Nat)} {pause : Nat} {rest : List Ev}
    (hb : Burst f m.width rs pause rest)
    (hlong : ∀ x, 15000 * f ≤ 1000000 * x → ¬ InTol tbl 0 x)
    (hno : ∀ x, Among f x rs → ¬ InTol tbl 0 x) (d : DenonDecoder)
    (hd : d.state = .idle) (hsv : d.dtSave < 2 ^ 31) :
    ∃ d' o, runStep (denonFn t m tbl) d ((true, pause) :: rest) = some (d', o) ∧ d'.state = .idle ∧
      d'.buf = d.buf ∧ d'.dtSave < 2 ^ 31 ∧ NoCmd o := by
  refine denon_deaf t m hm hw tbl _ d hd hsv ?_ ?_
  · intro e he
    rcases List.mem_cons.mp he with rfl | he
    · exact hb.short
    · exact hb.lt e he
  · intro x hx
    simp only [periodsFrom, List.mem_cons] at hx
    rcases hx with rfl | hx
    · rw [Nat.mod_eq_of_lt (sum_lt hw hsv hb.short)]
      exact hlong _ (by have := hb.silence; omega)
    · exact hno x (hb.periods x hx)

/-- A complete frame with its stop mark. -/
theorem denon_own {f : Nat} {rs : List (Nat × Nat)} {pause : Nat} {ps : List (Nat × Nat)} {stop : Nat}
    (hb : Burst f m.width rs pause (pulses ps ++ [(false, stop)])) (hu : Unambiguous tbl 3)
    (hfit : Fits tbl m.width) (hlong : ∀ x, 15000 * f ≤ 1000000 * x → ¬ InTol tbl 0 x)
    (d : DenonDecoder) (hd : d.state = .idle) (hbuf : d.buf = 0) (hsv : d.dtSave < 2 ^ 31)
    (w : BitVec 48) (hfr : Matches tbl (denonSlots w) ps) :
    ∃ d' o1, runStep (denonFn t m tbl) d ((true, pause) :: (pulses ps ++ [(false, stop)])) =
        some (d', o1 ++ [.ok (some { bits := low47 w }), .ok none]) ∧
      d'.state = .idle ∧ d'.buf = 0 ∧ d'.dtSave < 2 ^ 31 ∧ NoCmd o1 ∧ o1.length = 98 := by
  have h1 := denon_idle_rise t m hm tbl d hd pause (sum_lt hw hsv hb.short)
    (hlong _ (by have := hb.silence; omega))
  rw [hbuf] at h1
  have h3 := denon_frame t m tbl hm hu hfit { state := .idle, buf := 0, dtSave := 0 } rfl w ps hfr
  have h5 := run_snoc_some h3 (denon_falling t m tbl denonInit denonInit_ready stop)
  refine ⟨{ denonInit with dtSave := stop }, .ok none :: List.replicate 97 (.ok none),
    (run_cons_some h1 h5).trans ?_, rfl, rfl, hb.lt (false, stop) (by simp),
    (NoCmd.nones 97).quiet, by simp⟩
  simp

end

end Infrared
