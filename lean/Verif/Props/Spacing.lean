import Verif.Spec.Spacing
import Verif.Props.Latency
import Verif.Props.DriftBad

/-!
# Results are never closer together than this (C92)
-/

namespace Infrared

open Spec

variable {C K : Type}

/-! ## The argument, for any decoder -/

/-- An edge to level `b` after level `l`; the decoder is told the duration `d`, while it really took `x` ticks. -/
abbrev EdgeRule := (l b : Bool) → (d x : Nat) → Prop

/-- `Inv s e l`: the decoder can be in state `s` when the last result was `e` ticks ago and the line is at level `l`. -/
structure Paced (D : Decoder C) (f : Nat) (need : Res C → Nat) (P : EdgeRule) (Inv : D.St → Nat → Bool → Prop) : Prop where
  init : ∀ l, Inv D.init 0 l
  step : ∀ s e l b d x s' r, Inv s e l → P l b d x → D.step s (b, d) = some (s', r) →
    if audible r then need r * f ≤ 1000000 * (e + x) ∧ Inv s' 0 b else Inv s' (e + x) b

/-- Every edge of a history satisfies the rule. -/
def ObeysRule (P : EdgeRule) : Bool → List Ev → Prop
  | _, [] => True
  | l, (b, d) :: es => P l b d d ∧ ObeysRule P b es

theorem audible_map (conv : C → K) (r : Res C) : audible (Res.map conv r) = audible r := by
  rcases r with e | _ | c <;> rfl

theorem paced_events {D : Decoder C} {f : Nat} {need : Res C → Nat} {P : EdgeRule} {Inv : D.St → Nat → Bool → Prop}
    (h : Paced D f need P Inv) (evs : List Ev) : ∀ (s : D.St) (e t : Nat) (l : Bool) (s' : D.St) (o : List (Res C)),
      Inv s e l → ObeysRule P l evs → runStep D.step s evs = some (s', o) → SpacedBy f need t (timedSaid (t + e) evs o) := by
  induction evs with
  | nil =>
    intro s e t l s' o _ _ hr
    simp only [runStep, Option.some.injEq, Prod.mk.injEq] at hr
    rw [← hr.2]
    exact trivial
  | cons ev evs ih =>
    intro s e t l s' o hinv hfol hr
    obtain ⟨b, d⟩ := ev
    simp only [runStep] at hr
    rcases hs : D.step s (b, d) with _ | ⟨s1, r⟩
    · rw [hs] at hr; cases hr
    rw [hs] at hr
    dsimp only at hr
    rcases hs2 : runStep D.step s1 evs with _ | ⟨s2, o2⟩
    · rw [hs2] at hr; cases hr
    rw [hs2] at hr
    simp only [Option.some.injEq, Prod.mk.injEq] at hr
    obtain ⟨-, rfl⟩ := hr
    have hst := h.step s e l b d d s1 r hinv hfol.1 hs
    rw [timedSaid, edgeTimes, List.zip_cons_cons, List.filter_cons]
    dsimp only
    rw [show (((edgeTimes (t + e + d) evs).zip o2).filter fun x => audible x.2) = timedSaid (t + e + d) evs o2 from rfl]
    by_cases ha : audible r = true
    · rw [if_pos ha] at hst ⊢
      refine ⟨by rw [show t + e + d - t = e + d by omega]; exact hst.1, by omega, ?_⟩
      exact ih s1 0 (t + e + d) b s2 o2 hst.2 hfol.2 hs2
    · rw [if_neg ha] at hst ⊢
      rw [Nat.add_assoc]
      exact ih s1 (e + d) t b s2 o2 hst hfol.2 hs2

theorem spaced_map (conv : C → K) (f : Nat) (need : Res K → Nat) (t : Nat) (xs : List (Nat × Res C)) :
    SpacedBy f need t (xs.map fun x => (x.1, Res.map conv x.2)) ↔ SpacedBy f (fun r => need (Res.map conv r)) t xs := by
  induction xs generalizing t with
  | nil => exact Iff.rfl
  | cons x xs ih => simp only [List.map_cons, SpacedBy, ih]

/-- Event-driven receivers. -/
theorem paced_results {D : Decoder C} {f : Nat} {conv : C → K} {need : Res K → Nat} {P : EdgeRule}
    {Inv : D.St → Nat → Bool → Prop} (h : Paced D f (fun r => need (Res.map conv r)) P Inv) {l : Bool} {evs : List Ev}
    (hfol : ObeysRule P l evs) {outs : List (Res K)} (hr : results D conv evs = some outs) (t : Nat) :
    SpacedBy f need t (timedSaid t evs outs) := by
  obtain ⟨s, o, hrun, rfl⟩ := results_inv hr
  rw [timedSaid_map, spaced_map]
  exact paced_events h evs D.init 0 t l s o (h.init l) hfol hrun

/-- The durations a polled receiver measures: never 0 unless the clock went round. -/
def polledRule : EdgeRule := fun l b d x => b ≠ l ∧ d ≤ x ∧ (d = 0 → 2 ^ 32 ≤ x)

theorem paced_polls {D : Decoder C} {f : Nat} {conv : C → K} {need : Res K → Nat} {P : EdgeRule}
    {Inv : D.St → Nat → Bool → Prop} (h : Paced D f (fun r => need (Res.map conv r)) P Inv)
    (hP : ∀ l b d x, polledRule l b d x → P l b d x) (samples : List Bool) :
    ∀ (p p' : PeriodicPoll D) (k kl t : Nat) (o : List (Res K)), p.clock = k % 2 ^ 32 → p.lastEdge = kl % 2 ^ 32 →
      t ≤ kl → kl ≤ k → Inv p.decoder (kl - t) p.edge →
      runStep (fun p s => PeriodicPoll.pollBase D conv p s) p samples = some (p', o) →
      SpacedBy f need t (numberedSaid (k + 1) o) := by
  induction samples with
  | nil =>
    intro p p' k kl t o _ _ _ _ _ hr
    simp only [runStep, Option.some.injEq, Prod.mk.injEq] at hr
    rw [← hr.2]
    exact trivial
  | cons b samples ih =>
    intro p p' k kl t o hck hle htk hkk hinv hr
    simp only [runStep] at hr
    rcases hs : PeriodicPoll.pollBase D conv p b with _ | ⟨p1, r⟩
    · rw [hs] at hr; cases hr
    rw [hs] at hr
    dsimp only at hr
    rcases hs2 : runStep (fun p s => PeriodicPoll.pollBase D conv p s) p1 samples with _ | ⟨p2, o2⟩
    · rw [hs2] at hr; cases hr
    rw [hs2] at hr
    simp only [Option.some.injEq, Prod.mk.injEq] at hr
    obtain ⟨-, rfl⟩ := hr
    have hc1 : wrappingAdd 32 p.clock 1 = (k + 1) % 2 ^ 32 := by
      rw [hck, wrappingAdd]; omega
    have hnum : numberedSaid (k + 1) (r :: o2) =
        if audible r then (k + 1, r) :: numberedSaid (k + 1 + 1) o2 else numberedSaid (k + 1 + 1) o2 := by
      rw [numberedSaid, List.length_cons, List.range'_succ, List.zip_cons_cons, List.filter_cons]
      rfl
    rw [hnum]
    rw [PeriodicPoll.pollBase, hc1] at hs
    by_cases hb : b = p.edge
    · rw [if_pos hb, Option.some.injEq, Prod.mk.injEq] at hs
      obtain ⟨rfl, rfl⟩ := hs
      exact ih ⟨(k + 1) % 2 ^ 32, p.edge, p.lastEdge, p.decoder⟩ p2 (k + 1) kl t o2 rfl hle htk (by omega) hinv hs2
    · rw [if_neg hb] at hs
      have hds : wrappingSub 32 ((k + 1) % 2 ^ 32) p.lastEdge = (k + 1 - kl) % 2 ^ 32 := by
        rw [hle, wrappingSub]; omega
      rw [hds] at hs
      dsimp only at hs
      rcases he : D.eventTotal p.decoder b ((k + 1 - kl) % 2 ^ 32) with _ | ⟨d1, r1⟩
      · rw [he] at hs; cases hs
      rw [he] at hs
      simp only [Option.bind_eq_bind, Option.bind_some, Option.some.injEq, Prod.mk.injEq] at hs
      obtain ⟨rfl, rfl⟩ := hs
      have hst := h.step p.decoder (kl - t) p.edge b ((k + 1 - kl) % 2 ^ 32) (k + 1 - kl) d1 r1 hinv
        (hP _ _ _ _ ⟨hb, Nat.mod_le _ _, by omega⟩) he
      rw [audible_map]
      by_cases ha : audible r1 = true
      · rw [if_pos ha] at hst ⊢
        refine ⟨by rw [show k + 1 - t = kl - t + (k + 1 - kl) by omega]; exact hst.1, by omega, ?_⟩
        exact ih ⟨(k + 1) % 2 ^ 32, b, (k + 1) % 2 ^ 32, d1⟩ p2 (k + 1) (k + 1) (k + 1) o2 rfl rfl (Nat.le_refl _) (Nat.le_refl _) (by
          rw [Nat.sub_self]; exact hst.2) hs2
      · rw [if_neg ha] at hst ⊢
        exact ih ⟨(k + 1) % 2 ^ 32, b, (k + 1) % 2 ^ 32, d1⟩ p2 (k + 1) (k + 1) t o2 rfl rfl (by omega) (Nat.le_refl _) (by
          rw [show k + 1 - t = kl - t + (k + 1 - kl) by omega]; exact hst) hs2

/-- Polled receivers. -/
theorem paced_pollRun {D : Decoder C} {f : Nat} {conv : C → K} {need : Res K → Nat} {P : EdgeRule}
    {Inv : D.St → Nat → Bool → Prop} (h : Paced D f (fun r => need (Res.map conv r)) P Inv)
    (hP : ∀ l b d x, polledRule l b d x → P l b d x) {samples : List Bool} {outs : List (Res K)}
    (hr : pollRun D conv samples = some outs) : SpacedBy f need 0 (numberedSaid 1 outs) := by
  unfold pollRun at hr
  obtain ⟨⟨p', o⟩, ho, rfl⟩ := Option.map_eq_some_iff.mp hr
  exact paced_polls h hP samples (PeriodicPoll.new D) p' 0 0 0 o rfl rfl (Nat.le_refl _) (Nat.le_refl _) (h.init _) ho

/-! ## NEC family -/

/-- A duration that is taken for a symbol takes at least so long. -/
theorem get_low {k : Kind} {t : Target} {m : Mono} (hm : m = Mono.u32 ∨ m = Mono.u64) {f : Nat} (hf : f < 2 ^ 32)
    {tbl : PulseSpans} (htbl : k.build t m f = some tbl) {i d : Nat} (l tol : Nat) (hs : k.symbols[i]? = some (l, tol))
    (h : tbl.get d = some i) : 9968 * ((100 - tol) * l * f) ≤ 10000000000 * (100 * d + (100 - tol)) :=
  ((C52_rejects k t m hm f hf tbl htbl i d (get_inTol h)).1 l tol hs).2

/-- What `event_total` does after `event`. -/
theorem step_cases {D : Decoder C} {s s' : D.St} {b : Bool} {d : Nat} {r : Res C} (h : D.step s (b, d) = some (s', r)) :
    ∃ s1 st, D.event s b d = some (s1, st) ∧
      ((st = .idle ∨ st = .receiving) ∧ s' = s1 ∧ r = .ok none ∨
        st = .done ∧ s' = D.reset s1 ∧ r = .ok (D.command s1) ∨
        ∃ err, st = .error err ∧ s' = D.reset s1 ∧ r = .error err) := by
  change D.eventTotal s b d = some (s', r) at h
  unfold Decoder.eventTotal at h
  rcases he : D.event s b d with _ | ⟨s1, st⟩
  · rw [he] at h; cases h
  · rw [he] at h
    refine ⟨s1, st, rfl, ?_⟩
    cases st <;> simp only [Option.bind_eq_bind, Option.bind_some, Option.some.injEq, Prod.mk.injEq] at h <;>
      obtain ⟨rfl, rfl⟩ := h
    · exact .inl ⟨.inl rfl, rfl, rfl⟩
    · exact .inl ⟨.inr rfl, rfl, rfl⟩
    · exact .inr (.inl ⟨rfl, rfl, rfl⟩)
    · exact .inr (.inr ⟨_, rfl, rfl, rfl⟩)

theorem Paced.of_event {D : Decoder C} {f : Nat} {need : Res C → Nat} {P : EdgeRule} {Inv : D.St → Nat → Bool → Prop}
    (hinit : ∀ l, Inv D.init 0 l) (hreset : ∀ s e l, Inv (D.reset s) e l)
    (hev : ∀ s e l b d x s1 st, Inv s e l → P l b d x → D.event s b d = some (s1, st) →
      match st with
      | .idle => Inv s1 (e + x) b
      | .receiving => Inv s1 (e + x) b
      | .done => ∀ c, D.command s1 = some c → need (.ok (some c)) * f ≤ 1000000 * (e + x)
      | .error err => need (.error err) * f ≤ 1000000 * (e + x)) : Paced D f need P Inv := by
  refine ⟨hinit, fun s e l b d x s' r hinv hP hstep => ?_⟩
  obtain ⟨s1, st, h1, hcase⟩ := step_cases hstep
  have h2 := hev s e l b d x s1 st hinv hP h1
  rcases hcase with ⟨rfl | rfl, rfl, rfl⟩ | ⟨rfl, rfl, rfl⟩ | ⟨err, rfl, rfl, rfl⟩
  · exact h2
  · exact h2
  · rcases hc : D.command s1 with _ | c
    · exact hreset ..
    · exact ⟨h2 c hc, hreset ..⟩
  · exact ⟨h2, hreset ..⟩

theorem mono_add_le {m : Mono} (hm : m = Mono.u32 ∨ m = Mono.u64) {t : Target} {a b c : Nat} (h : m.add t a b = some c) :
    c ≤ a + b := by
  rcases hm with rfl | rfl
  all_goals
    change uadd t _ a b = some c at h
    unfold uadd at h
    split at h
    · cases h; exact Nat.le_refl _
    · split at h
      · cases h
      · cases h; exact Nat.mod_le _ _

/-- NEC: what has been received since the last result took at least as long as its symbols, and so did the mark in
progress. -/
def NecPaced (f sync : Nat) (d : NecDecoder) (e : Nat) : Prop :=
  match d.state with
  | .init => d.dtSave ≤ e
  | .receiving b => b ≤ 31 ∧ (sync + 799 * b) * f + 1000000 * d.dtSave ≤ 1000000 * e
  | _ => False

/-- The lengths in microseconds below which nothing is taken for a header, a repeat code or a data bit. -/
structure NecLow (tbl : PulseSpans) (f sync rep : Nat) : Prop where
  sync : ∀ d, tbl.get d = some 0 → sync * f ≤ 1000000 * d
  rep : ∀ d, tbl.get d = some 1 → rep * f ≤ 1000000 * d
  zero : ∀ d, tbl.get d = some 2 → 799 * f ≤ 1000000 * d
  one : ∀ d, tbl.get d = some 3 → 799 * f ≤ 1000000 * d

theorem classify_nec {tbl : PulseSpans} {d : Nat} {p : NecPulse} (h : NecPulse.classify tbl d = p) :
    (p = .sync → tbl.get d = some 0) ∧ (p = .rep → tbl.get d = some 1) ∧ (p = .zero → tbl.get d = some 2) ∧
      (p = .one → tbl.get d = some 3) := by
  subst h
  unfold NecPulse.classify
  rcases tbl.get d with _ | i
  · simp
  · rcases i with _ | _ | _ | _ | i <;> simp [NecPulse.ofIdx]

theorem nec_paced {t : Target} {m : Mono} (hm : m = Mono.u32 ∨ m = Mono.u64) {tbl : PulseSpans} {f sync rep : Nat}
    (v : NecVariant C) (hl : NecLow tbl f sync rep) {any fresh : Nat} (h1 : any ≤ sync) (h2 : any ≤ rep)
    (h3 : fresh ≤ sync + 799 * 32) {need : Res C → Nat} (herr : ∀ e, need (.error e) ≤ any)
    (hrep : ∀ w c, v.unpack w true = some c → need (.ok (some c)) ≤ any)
    (hnew : ∀ w c, v.unpack w false = some c → need (.ok (some c)) ≤ fresh) :
    Paced (necDecoder t m tbl v) f need (fun _ _ d x => d ≤ x) (fun d e _ => NecPaced f sync d e) := by
  refine Paced.of_event (fun _ => Nat.le_refl _) (fun _ e _ => Nat.zero_le e) ?_
  intro s e l b d x s1 st hinv hdx hev
  change NecDecoder.event t m tbl s b d = some (s1, st) at hev
  obtain ⟨state, bits, save⟩ := s
  unfold NecDecoder.event at hev
  cases b with
  | false =>
    simp only [Bool.false_eq_true, if_false] at hev
    cases hev
    cases state <;> simp only [NecPaced, NecState.toState] at hinv ⊢
    · omega
    · exact ⟨hinv.1, by omega⟩
  | true =>
    simp only [if_true, Option.bind_eq_bind] at hev
    rcases hadd : m.add t d save with _ | total
    · rw [hadd] at hev; cases hev
    have htot := mono_add_le hm hadd
    rw [hadd, Option.bind_some] at hev
    obtain ⟨c0, c1, c2, c3⟩ := classify_nec (rfl : NecPulse.classify tbl total = _)
    rcases htr : NecDecoder.transition t state bits (NecPulse.classify tbl total) with _ | ⟨state', bits'⟩
    · rw [htr] at hev; cases hev
    rw [htr, Option.bind_some] at hev
    cases hev
    cases state with
    | init =>
      simp only [NecPaced] at hinv
      generalize NecPulse.classify tbl total = pw at *
      cases pw <;> simp only [NecDecoder.transition] at htr <;> cases htr <;> simp only [NecState.toState]
      · have := hl.sync total (c0 rfl)
        simp only [NecPaced, Nat.mul_zero, Nat.add_zero]
        omega
      · intro c hc
        have h := hl.rep total (c1 rfl)
        have h' := Nat.mul_le_mul_right f (Nat.le_trans (hrep _ c hc) h2)
        omega
      · exact Nat.zero_le _
      · exact Nat.zero_le _
      · exact Nat.zero_le _
    | receiving bit =>
      obtain ⟨hb, hinv⟩ := hinv
      dsimp only at hinv
      have hbit : NecPulse.classify tbl total = .zero ∨ NecPulse.classify tbl total = .one → 799 * f ≤ 1000000 * total := by
        rintro (h | h)
        · exact hl.zero total (c2 h)
        · exact hl.one total (c3 h)
      have hmore : 799 * f ≤ 1000000 * total → (sync + 799 * (bit + 1)) * f ≤ 1000000 * (e + x) := by
        intro h
        rw [show (sync + 799 * (bit + 1)) * f = (sync + 799 * bit) * f + 799 * f by
          rw [← Nat.add_mul, Nat.add_assoc sync, ← Nat.mul_succ]]
        omega
      have hlast : bit = 31 → 799 * f ≤ 1000000 * total → ∀ n, n ≤ fresh → n * f ≤ 1000000 * (e + x) := by
        rintro rfl h n hn
        exact Nat.le_trans (Nat.mul_le_mul_right f (by omega)) (hmore h)
      have hany : ∀ n, n ≤ any → n * f ≤ 1000000 * (e + x) := by
        intro n hn
        have := Nat.mul_le_mul_right f (show n ≤ sync + 799 * bit by omega)
        omega
      rcases hpw : NecPulse.classify tbl total with _ | _ | _ | _ | _ <;> rw [hpw] at htr <;>
        simp only [NecDecoder.transition] at htr
      · cases htr; exact hany _ (herr _)
      · cases htr; exact hany _ (herr _)
      · split at htr
        · rename_i hb31
          cases htr
          exact fun c hc => hlast hb31 (hbit (.inl hpw)) _ (hnew _ c hc)
        · cases htr
          exact ⟨by omega, by simpa using hmore (hbit (.inl hpw))⟩
      · split at htr
        · rename_i hb31
          rcases hsh : shl1 t 32 31 with _ | y <;> rw [hsh] at htr <;> cases htr
          exact fun c hc => hlast hb31 (hbit (.inr hpw)) _ (hnew _ c hc)
        · rcases hsh : shl1 t 32 bit with _ | y <;> rw [hsh] at htr <;> cases htr
          exact ⟨by omega, by simpa using hmore (hbit (.inr hpw))⟩
      · cases htr; exact hany _ (herr _)
    | done => exact hinv.elim
    | repeatDone => exact hinv.elim
    | err e => exact hinv.elim

/-! ## SBP -/

/-- SBP: the same. -/
def SbpPaced (f : Nat) (d : SbpDecoder) (e : Nat) (l : Bool) : Prop :=
  let mark := if l then 0 else 1000000 * d.sinceRising
  match d.state with
  | .init => mark ≤ 1000000 * e
  | .address b => b ≤ 15 ∧ (8474 + 852 * b) * f + mark ≤ 1000000 * e
  | .divider => (8474 + 852 * 16) * f + mark ≤ 1000000 * e
  | .command b => b ≤ 19 ∧ (8474 + 852 * 16 + 4687 + 852 * b) * f + mark ≤ 1000000 * e
  | _ => False

/-- The lengths in microseconds below which nothing is taken for a symbol of SBP. -/
structure SbpLow (tbl : PulseSpans) (f : Nat) : Prop where
  sync : ∀ d, tbl.get d = some 0 → 8474 * f ≤ 1000000 * d
  pause : ∀ d, tbl.get d = some 1 → 4687 * f ≤ 1000000 * d
  zero : ∀ d, tbl.get d = some 2 → 852 * f ≤ 1000000 * d
  one : ∀ d, tbl.get d = some 3 → 852 * f ≤ 1000000 * d

theorem classify_sbp {tbl : PulseSpans} {d : Nat} {p : SbpPulse} (h : SbpPulse.classify tbl d = p) :
    (p = .sync → tbl.get d = some 0) ∧ (p = .paus → tbl.get d = some 1) ∧ (p = .zero → tbl.get d = some 2) ∧
      (p = .one → tbl.get d = some 3) := by
  subst h
  unfold SbpPulse.classify
  rcases tbl.get d with _ | i
  · simp
  · rcases i with _ | _ | _ | _ | i <;> simp [SbpPulse.ofIdx]

theorem sbp_paced {t : Target} {m : Mono} (hm : m = Mono.u32 ∨ m = Mono.u64) {tbl : PulseSpans} {f : Nat}
    (hl : SbpLow tbl f) {need : Res SbpCommand → Nat} (herr : ∀ e, need (.error e) ≤ 8000)
    (hnew : ∀ c, need (.ok (some c)) ≤ 43000) :
    Paced (sbpDecoder t m tbl) f need (fun l b d x => b ≠ l ∧ d ≤ x) (fun d e l => SbpPaced f d e l) := by
  refine Paced.of_event (fun l => by cases l <;> exact Nat.le_refl _) (fun _ e l => by cases l <;> exact Nat.zero_le _) ?_
  rintro s e l b d x s1 st hinv ⟨hbl, hdx⟩ hev
  change SbpDecoder.event t m tbl s b d = some (s1, st) at hev
  obtain ⟨state, addr, cmd, save⟩ := s
  unfold SbpDecoder.event at hev
  cases b with
  | false =>
    obtain rfl : l = true := by simpa using hbl
    simp only [Bool.false_eq_true, if_false] at hev
    cases hev
    cases state <;> simp only [SbpPaced, SbpState.toState, if_true, Bool.false_eq_true, if_false] at hinv ⊢
    · omega
    · exact ⟨hinv.1, by omega⟩
    · omega
    · exact ⟨hinv.1, by omega⟩
  | true =>
    obtain rfl : l = false := by simpa using hbl
    simp only [if_true, Option.bind_eq_bind] at hev
    rcases hadd : m.add t save d with _ | total
    · rw [hadd] at hev; cases hev
    have htot := mono_add_le hm hadd
    rw [hadd, Option.bind_some] at hev
    obtain ⟨c0, c1, c2, c3⟩ := classify_sbp (rfl : SbpPulse.classify tbl total = _)
    rcases htr : SbpDecoder.transition t ⟨state, addr, cmd, save⟩ (SbpPulse.classify tbl total) with _ | s'
    · rw [htr] at hev; cases hev
    rw [htr, Option.bind_some] at hev
    cases hev
    have hbit : SbpPulse.classify tbl total = .zero ∨ SbpPulse.classify tbl total = .one → 852 * f ≤ 1000000 * total := by
      rintro (h | h)
      · exact hl.zero total (c2 h)
      · exact hl.one total (c3 h)
    cases state with
    | init =>
      simp only [SbpPaced, Bool.false_eq_true, if_false] at hinv
      generalize SbpPulse.classify tbl total = pw at *
      cases pw <;> simp only [SbpDecoder.transition] at htr <;> cases htr <;>
        simp only [SbpState.toState, SbpPaced, if_true, Nat.zero_le, true_and, Nat.mul_zero, Nat.add_zero]
      have := hl.sync total (c0 rfl)
      omega
    | address bit =>
      simp only [SbpPaced, Bool.false_eq_true, if_false] at hinv
      obtain ⟨hb, hinv⟩ := hinv
      have hmore : 852 * f ≤ 1000000 * total → (8474 + 852 * (bit + 1)) * f ≤ 1000000 * (e + x) := by
        intro h
        rw [show (8474 + 852 * (bit + 1)) * f = (8474 + 852 * bit) * f + 852 * f by
          rw [← Nat.add_mul, Nat.add_assoc 8474, ← Nat.mul_succ]]
        omega
      have hany : ∀ n, n ≤ 8000 → n * f ≤ 1000000 * (e + x) := by
        intro n hn
        have := Nat.mul_le_mul_right f (show n ≤ 8474 + 852 * bit by omega)
        omega
      rcases hpw : SbpPulse.classify tbl total with _ | _ | _ | _ | _ <;> rw [hpw] at htr <;>
        simp only [SbpDecoder.transition] at htr
      · cases htr; exact hany _ (herr _)
      · cases htr; exact hany _ (herr _)
      · have := hmore (hbit (.inl hpw))
        split at htr
        · rename_i h15
          subst h15
          cases htr
          simpa [SbpState.toState, SbpPaced] using this
        · cases htr
          simp only [SbpState.toState, SbpPaced, if_true]
          exact ⟨by omega, by simpa using this⟩
      · have := hmore (hbit (.inr hpw))
        split at htr
        · rename_i h15
          subst h15
          rcases hsh : shl1 t 16 15 with _ | y <;> rw [hsh] at htr <;> cases htr
          simpa [SbpState.toState, SbpPaced] using this
        · rcases hsh : shl1 t 16 bit with _ | y <;> rw [hsh] at htr <;> cases htr
          simp only [SbpState.toState, SbpPaced, if_true]
          exact ⟨by omega, by simpa using this⟩
      · cases htr; exact hany _ (herr _)
    | divider =>
      simp only [SbpPaced, Bool.false_eq_true, if_false] at hinv
      have hany : ∀ n, n ≤ 8000 → n * f ≤ 1000000 * (e + x) := by
        intro n hn
        have := Nat.mul_le_mul_right f (show n ≤ 8474 + 852 * 16 by omega)
        omega
      rcases hpw : SbpPulse.classify tbl total with _ | _ | _ | _ | _ <;> rw [hpw] at htr <;>
        simp only [SbpDecoder.transition] at htr <;> cases htr
      · exact hany _ (herr _)
      · have := hl.pause total (c1 hpw)
        simp only [SbpState.toState, SbpPaced, if_true]
        omega
      · exact hany _ (herr _)
      · exact hany _ (herr _)
      · exact hany _ (herr _)
    | command bit =>
      simp only [SbpPaced, Bool.false_eq_true, if_false] at hinv
      obtain ⟨hb, hinv⟩ := hinv
      have hmore : 852 * f ≤ 1000000 * total →
          (8474 + 852 * 16 + 4687 + 852 * (bit + 1)) * f ≤ 1000000 * (e + x) := by
        intro h
        rw [show (8474 + 852 * 16 + 4687 + 852 * (bit + 1)) * f = (8474 + 852 * 16 + 4687 + 852 * bit) * f + 852 * f by
          rw [← Nat.add_mul, Nat.add_assoc (8474 + 852 * 16 + 4687), ← Nat.mul_succ]]
        omega
      have hany : ∀ n, n ≤ 8000 → n * f ≤ 1000000 * (e + x) := by
        intro n hn
        have := Nat.mul_le_mul_right f (show n ≤ 8474 + 852 * 16 + 4687 + 852 * bit by omega)
        omega
      have hlast : bit = 19 → 852 * f ≤ 1000000 * total → ∀ n, n ≤ 43000 → n * f ≤ 1000000 * (e + x) := by
        rintro rfl h n hn
        exact Nat.le_trans (Nat.mul_le_mul_right f (by omega)) (hmore h)
      rcases hpw : SbpPulse.classify tbl total with _ | _ | _ | _ | _ <;> rw [hpw] at htr <;>
        simp only [SbpDecoder.transition] at htr
      · cases htr; exact hany _ (herr _)
      · cases htr; exact hany _ (herr _)
      · split at htr
        · rename_i h19
          cases htr
          exact fun c _ => hlast h19 (hbit (.inl hpw)) _ (hnew c)
        · cases htr
          simp only [SbpState.toState, SbpPaced, if_true]
          exact ⟨by omega, by simpa using hmore (hbit (.inl hpw))⟩
      · split at htr
        · rename_i h19
          rcases hsh : shl1 t 32 19 with _ | y <;> rw [hsh] at htr <;> cases htr
          exact fun c _ => hlast h19 (hbit (.inr hpw)) _ (hnew c)
        · rcases hsh : shl1 t 32 bit with _ | y <;> rw [hsh] at htr <;> cases htr
          simp only [SbpState.toState, SbpPaced, if_true]
          exact ⟨by omega, by simpa using hmore (hbit (.inr hpw))⟩
      · cases htr; exact hany _ (herr _)
    | done => exact hinv.elim
    | err e => exact hinv.elim

/-! ## Denon -/

/-- Denon: the same. -/
def DenonPaced (f : Nat) (d : DenonDecoder) (e : Nat) : Prop :=
  match d.state with
  | .idle => d.dtSave ≤ e
  | .data b => b ≤ 47 ∧ (4539 + 708 * b) * f + 1000000 * d.dtSave ≤ 1000000 * e
  | .done => False

/-- The lengths in microseconds below which nothing is taken for a symbol of Denon. -/
structure DenonLow (tbl : PulseSpans) (f : Nat) : Prop where
  sync : ∀ d, tbl.get d = some 0 → 4539 * f ≤ 1000000 * d
  zero : ∀ d, tbl.get d = some 1 → 708 * f ≤ 1000000 * d
  one : ∀ d, tbl.get d = some 2 → 708 * f ≤ 1000000 * d

theorem classify_denon {tbl : PulseSpans} {d : Nat} {p : DenonPulse} (h : DenonPulse.classify tbl d = p) :
    (p = .sync → tbl.get d = some 0) ∧ (p = .zero → tbl.get d = some 1) ∧ (p = .one → tbl.get d = some 2) := by
  subst h
  unfold DenonPulse.classify
  rcases tbl.get d with _ | i
  · simp
  · rcases i with _ | _ | _ | i <;> simp [DenonPulse.ofIdx]

theorem denon_paced {t : Target} {m : Mono} (hm : m = Mono.u32 ∨ m = Mono.u64) {tbl : PulseSpans} {f : Nat}
    (hl : DenonLow tbl f) {need : Res DenonCommand → Nat} (hneed : ∀ r, need r ≤ 38000) :
    Paced (denonDecoder t m tbl) f need (fun _ _ d x => d ≤ x) (fun d e _ => DenonPaced f d e) := by
  refine Paced.of_event (fun _ => Nat.le_refl _) (fun _ e _ => Nat.zero_le e) ?_
  intro s e l b d x s1 st hinv hdx hev
  change DenonDecoder.event t m tbl s b d = some (s1, st) at hev
  obtain ⟨state, bits, save⟩ := s
  unfold DenonDecoder.event at hev
  cases b with
  | false =>
    simp only [Bool.false_eq_true, if_false] at hev
    cases hev
    cases state <;> simp only [DenonPaced, DenonState.toState] at hinv ⊢
    · omega
    · exact ⟨hinv.1, by omega⟩
  | true =>
    simp only [if_true, Option.bind_eq_bind] at hev
    rcases hadd : m.add t save d with _ | total
    · rw [hadd] at hev; cases hev
    have htot := mono_add_le hm hadd
    rw [hadd, Option.bind_some] at hev
    obtain ⟨c0, c1, c2⟩ := classify_denon (rfl : DenonPulse.classify tbl total = _)
    rcases htr : DenonDecoder.transition t state bits (DenonPulse.classify tbl total) with _ | ⟨state', bits'⟩
    · rw [htr] at hev; cases hev
    rw [htr, Option.bind_some] at hev
    cases hev
    cases state with
    | idle =>
      simp only [DenonPaced] at hinv
      generalize DenonPulse.classify tbl total = pw at *
      cases pw <;> simp only [DenonDecoder.transition] at htr <;> cases htr <;>
        simp only [DenonState.toState, DenonPaced, Nat.zero_le, true_and, Nat.mul_zero, Nat.add_zero]
      have := hl.sync total (c0 rfl)
      omega
    | data bit =>
      simp only [DenonPaced] at hinv
      obtain ⟨hb, hinv⟩ := hinv
      have hbit : DenonPulse.classify tbl total = .zero ∨ DenonPulse.classify tbl total = .one →
          708 * f ≤ 1000000 * total := by
        rintro (h | h)
        · exact hl.zero total (c1 h)
        · exact hl.one total (c2 h)
      have hmore : 708 * f ≤ 1000000 * total → (4539 + 708 * (bit + 1)) * f ≤ 1000000 * (e + x) := by
        intro h
        rw [show (4539 + 708 * (bit + 1)) * f = (4539 + 708 * bit) * f + 708 * f by
          rw [← Nat.add_mul, Nat.add_assoc 4539, ← Nat.mul_succ]]
        omega
      have hlast : bit = 47 → 708 * f ≤ 1000000 * total → ∀ r, need r * f ≤ 1000000 * (e + x) := by
        rintro rfl h r
        exact Nat.le_trans (Nat.mul_le_mul_right f (Nat.le_trans (hneed r) (by decide))) (hmore h)
      rcases hpw : DenonPulse.classify tbl total with _ | _ | _ | _ <;> rw [hpw] at htr <;>
        simp only [DenonDecoder.transition] at htr
      · cases htr; exact Nat.zero_le _
      · split at htr
        · rename_i h47
          cases htr
          exact fun c _ => hlast h47 (hbit (.inl hpw)) _
        · cases htr
          exact ⟨by omega, by simpa using hmore (hbit (.inl hpw))⟩
      · split at htr
        · rename_i h47
          cases htr
          exact fun c _ => hlast h47 (hbit (.inr hpw)) _
        · rcases hsh : shl1 t 64 bit with _ | y <;> rw [hsh] at htr <;> cases htr
          exact ⟨by omega, by simpa using hmore (hbit (.inr hpw))⟩
      · cases htr; exact Nat.zero_le _
    | done => exact hinv.elim

end Infrared
