import Verif.Spec.Missed
import Verif.Props.Late

/-!
# Polls whose pin reads fail (C86)
-/

namespace Infrared

open Spec

variable {C K E : Type}

/-! ## Counting -/

theorem good_add (fails : Nat → Option E) (k m : Nat) :
    goodPolls fails (k + m) + ((List.range' (k + 1) m).countP fun i => (fails i).isSome) = goodPolls fails k + m := by
  induction m with
  | zero => simp
  | succ m ih =>
    have h1 : goodPolls fails (k + (m + 1)) =
        goodPolls fails (k + m) + if (fails (k + m + 1)).isNone then 1 else 0 := by
      unfold goodPolls
      rw [← Nat.add_assoc, List.range_succ, List.countP_append, List.countP_singleton]
    have h2 : ((List.range' (k + 1) (m + 1)).countP fun i => (fails i).isSome) =
        ((List.range' (k + 1) m).countP fun i => (fails i).isSome) + if (fails (k + m + 1)).isSome then 1 else 0 := by
      rw [List.range'_concat, List.countP_append, List.countP_singleton]
      simp only [Nat.one_mul, Nat.add_right_comm]
    rw [h1, h2]
    cases fails (k + m + 1) <;> simp <;> omega

theorem good_succ (fails : Nat → Option E) (n : Nat) :
    goodPolls fails (n + 1) = goodPolls fails n + if (fails (n + 1)).isNone then 1 else 0 := by
  unfold goodPolls
  rw [List.range_succ, List.countP_append, List.countP_singleton]

theorem good_mono (fails : Nat → Option E) {a b : Nat} (h : a ≤ b) : goodPolls fails a ≤ goodPolls fails b := by
  obtain ⟨m, rfl⟩ := Nat.le.dest h
  unfold goodPolls
  rw [List.range_add, List.countP_append]
  omega

theorem good_le (fails : Nat → Option E) (k m : Nat) : goodPolls fails (k + m) ≤ goodPolls fails k + m := by
  have := good_add fails k m
  omega

/-- At most `e` polls of a window of at most `w` are missing. -/
theorem good_window {fails : Nat → Option E} {w e : Nat} (h : FewFail fails w e) (k m : Nat) (hm : m ≤ w) :
    goodPolls fails k + m ≤ goodPolls fails (k + m) + e := by
  have h1 := good_add fails k m
  have h2 := h k
  obtain ⟨d, rfl⟩ := Nat.le.dest hm
  rw [← List.range'_append_1, List.countP_append] at h2
  omega

theorem follows_good {u f phase w e : Nat} (hu : 0 < u) {fails : Nat → Option E} (h : FewFail fails w e)
    (hw : 17000 * f ≤ 1000000 * w) :
    Follows u f (e + 1) fun t => goodPolls fails (reading u f phase t) := by
  intro t x
  obtain ⟨m, hm⟩ : ∃ m, reading u f phase (t + x) = reading u f phase t + m :=
    ⟨_, (Nat.add_sub_cancel' (reading_mono u f phase t x)).symm⟩
  obtain ⟨b1, b2⟩ := reading_bounds hu f phase t x
  dsimp only
  rw [hm] at b1 b2 ⊢
  rw [Nat.add_sub_cancel_left] at b1 b2
  have g1 := good_le fails (reading u f phase t) m
  have g2 := good_mono fails (Nat.le_add_right (reading u f phase t) m)
  refine ⟨g2, ?_, ?_⟩
  · have := Nat.mul_le_mul_left u (show goodPolls fails (reading u f phase t + m) - goodPolls fails (reading u f phase t)
      ≤ m by omega)
    rw [Nat.add_mul, Nat.one_mul]
    omega
  · rcases Nat.le_or_ge m w with hmw | hmw
    · left
      have g3 := good_window h (reading u f phase t) m hmw
      have := Nat.mul_le_mul_left u (show m ≤ goodPolls fails (reading u f phase t + m) -
        goodPolls fails (reading u f phase t) + e by omega)
      rw [Nat.mul_add, Nat.mul_comm u e] at this
      rw [Nat.add_mul, Nat.one_mul]
      omega
    · right
      have g3 := good_window h (reading u f phase t) w (Nat.le_refl _)
      have g4 := good_mono fails (Nat.add_le_add_left hmw (reading u f phase t))
      omega

/-! ## The line seen by the successful polls -/

theorem good_seen {u f phase : Nat} (hu : 0 < u) {fails : Nat → Option E} {n : Nat} (hn : fails (n + 1) = none) (t : Nat) :
    t * f + phase < (n + 1) * u ↔ goodPolls fails (reading u f phase t) < goodPolls fails n + 1 := by
  rw [reading_lt hu]
  have h1 := good_succ fails n
  rw [hn] at h1
  simp only [Option.isNone_none, if_true] at h1
  constructor
  · intro h
    have := good_mono fails (Nat.le_of_lt_succ h)
    omega
  · intro h
    rcases Nat.lt_or_ge (reading u f phase t) (n + 1) with h2 | h2
    · exact h2
    · have := good_mono fails h2
      omega

theorem good_level {u f phase : Nat} (hu : 0 < u) {fails : Nat → Option E} {n : Nat} (hn : fails (n + 1) = none)
    (es : List (Bool × Nat)) (level : Bool) (t : Nat) :
    levelAt u f phase level t es (n + 1) =
      levelAt 1 1 0 level (goodPolls fails (reading u f phase t))
        (clockedBy (fun t => goodPolls fails (reading u f phase t)) t es) (goodPolls fails n + 1) := by
  induction es generalizing level t with
  | nil => rfl
  | cons a es ih =>
    obtain ⟨b, x⟩ := a
    have m := good_mono fails (reading_mono u f phase t x)
    have e : goodPolls fails (reading u f phase t) + (goodPolls fails (reading u f phase (t + x)) -
        goodPolls fails (reading u f phase t)) = goodPolls fails (reading u f phase (t + x)) := by omega
    simp only [levelAt, clockedBy, e, ih, Nat.mul_one, Nat.add_zero, good_seen hu hn]

theorem readable_append (a b : List (Except E Bool)) :
    readableSamples (a ++ b) = readableSamples a ++ readableSamples b := by
  induction a with
  | nil => rfl
  | cons x a ih => cases x <;> simp [readableSamples, ih]

theorem failing_readable {u f phase : Nat} (hu : 0 < u) (fails : Nat → Option E) (b : Bool) (pause : Nat)
    (es : List (Bool × Nat)) (n : Nat) :
    readableSamples (failing u f phase fails ((b, pause) :: es) n) =
      polled 1 1 0 ((b, goodPolls fails (reading u f phase pause)) ::
        clockedBy (fun t => goodPolls fails (reading u f phase t)) pause es) (goodPolls fails n) := by
  induction n with
  | zero => rfl
  | succ n ih =>
    unfold failing at ih ⊢
    rw [List.range_succ, List.map_append, readable_append, ih, good_succ]
    rcases hn : fails (n + 1) with _ | e
    · simp only [List.map_cons, List.map_nil, hn, readableSamples, Option.isNone_none, if_true, polled]
      rw [List.range_succ, List.map_append]
      simp only [List.map_cons, List.map_nil, levelAt, Nat.zero_add, Nat.mul_one, Nat.add_zero, good_seen hu hn,
        good_level hu hn es]
    · simp [hn, readableSamples]

theorem failing_silent (u f phase : Nat) (fails : Nat → Option E) (n : Nat) :
    readableSamples (failing u f phase fails [] n) = List.replicate (goodPolls fails n) false := by
  induction n with
  | zero => rfl
  | succ n ih =>
    unfold failing at ih ⊢
    rw [List.range_succ, List.map_append, readable_append, ih, good_succ]
    rcases hn : fails (n + 1) with _ | e
    · simp only [List.map_cons, List.map_nil, hn, readableSamples, Option.isNone_none, if_true, levelAt]
      rw [List.replicate_succ']
    · simp [hn, readableSamples]

/-- What the successful polls make a receiver say. -/
theorem good_line (D : Decoder C) (conv : C → K) (u : Nat) (hu : 0 < u) (f phase : Nat) (fails : Nat → Option E)
    (w e : Nat) (hfew : FewFail fails w e) (hew : e + 1 ≤ w) (b : Bool) (pause : Nat) (es : List (Bool × Nat))
    (hch : Changes false ((b, pause) :: es)) (hgap : ∀ a ∈ es, (e + 1) * u ≤ a.2 * f) (n : Nat)
    (hn : reading u f phase (duration ((b, pause) :: es)) + e < n)
    (hfirst : reading u f phase pause + 1 < 2 ^ 32) (hlong : ∀ a ∈ es, a.2 * f + 2 * u < 2 ^ 32 * u) :
    (pollRun D conv (readableSamples (failing u f phase fails ((b, pause) :: es) n))).map said =
      (results D conv ((b, goodPolls fails (reading u f phase pause) + 1) ::
        clockedBy (fun t => goodPolls fails (reading u f phase t)) pause es)).map said := by
  have hmono : ∀ t x, goodPolls fails (reading u f phase t) ≤ goodPolls fails (reading u f phase (t + x)) :=
    fun t x => good_mono fails (reading_mono u f phase t x)
  have hmem : ∀ a ∈ clockedBy (fun t => goodPolls fails (reading u f phase t)) pause es,
      1 ≤ a.2 ∧ a.2 + 1 < 2 ^ 32 := by
    intro a ha
    obtain ⟨t', x, ⟨b', hb⟩, hx⟩ := mem_by ha
    have h1 := hgap _ hb
    have h2 := hlong _ hb
    dsimp only at h1 h2
    obtain ⟨m, hm⟩ : ∃ m, reading u f phase (t' + x) = reading u f phase t' + m :=
      ⟨_, (Nat.add_sub_cancel' (reading_mono u f phase t' x)).symm⟩
    have h3 : e + 1 ≤ m := by
      have : reading u f phase t' + (e + 1) ≤ reading u f phase (t' + x) := by
        unfold reading
        rw [Nat.add_mul, ← Nat.add_mul_div_right _ _ hu]
        exact Nat.div_le_div_right (by omega)
      omega
    have b1 := (reading_bounds hu f phase t' x).1
    rw [hm] at hx b1
    rw [Nat.add_sub_cancel_left] at b1
    have g1 := good_window hfew (reading u f phase t') (e + 1) hew
    have g2 := good_mono fails (Nat.add_le_add_left h3 (reading u f phase t'))
    have g3 := good_le fails (reading u f phase t') m
    have h4 : m + 1 < 2 ^ 32 := by
      refine Nat.lt_of_mul_lt_mul_left (a := u) ?_
      rw [Nat.mul_add, Nat.mul_comm u (2 ^ 32)]
      omega
    omega
  rw [failing_readable hu, C54_polled_line_long D conv 1 (by decide) 1 0 b _ _ ⟨hch.1, changes_by _ _ _ _ hch.2⟩
    (fun e he => by have := (hmem e he).1; omega) _ ?_ ?_
    (fun e he => by have := (hmem e he).2; omega), reading_one, clocked_one]
  · have h1 := duration_by (fun t => goodPolls fails (reading u f phase t)) hmono pause es
    have h2 : reading u f phase (pause + duration es) + e < n := by
      simpa [duration] using hn
    have g1 := good_window hfew (reading u f phase (pause + duration es)) (e + 1) hew
    have g2 := good_mono fails (show reading u f phase (pause + duration es) + (e + 1) ≤ n by omega)
    rw [reading_one]
    simp only [duration, List.map_cons, List.sum_cons] at *
    omega
  · rw [reading_one]
    have g1 := good_le fails 0 (reading u f phase pause)
    have g0 : goodPolls fails 0 = 0 := rfl
    rw [Nat.zero_add] at g1
    omega

/-! ## Results of a receiver with a pin -/

theorem pin_said (cs : List (Except E Bool)) (outs : List (Res K)) (h : outs.length = (readableSamples cs).length) :
    pinSaid (pinResults cs outs) = (said outs).map PinRes.ofRes ∧
      pinErrors (pinResults cs outs) = cs.filterMap fun c => match c with | .error e => some e | .ok _ => none := by
  induction cs generalizing outs with
  | nil =>
    simp only [readableSamples, List.length_nil, List.length_eq_zero_iff] at h
    subst h
    exact ⟨rfl, rfl⟩
  | cons c cs ih =>
    cases c with
    | error e =>
      obtain ⟨h1, h2⟩ := ih outs h
      simp only [pinResults, pinSaid, pinErrors, h1, h2, List.filterMap_cons]
      exact ⟨trivial, trivial⟩
    | ok b =>
      cases outs with
      | nil => simp [readableSamples] at h
      | cons o outs =>
        obtain ⟨h1, h2⟩ := ih outs (by simpa [readableSamples] using h)
        rcases o with (_ | _ | _ | _) | (_ | c) <;>
          simp only [pinResults, pinSaid, pinErrors, h1, h2, List.filterMap_cons, said] <;> exact ⟨rfl, trivial⟩

theorem failing_errors (u f phase : Nat) (fails : Nat → Option E) (es : List (Bool × Nat)) (n : Nat) :
    ((failing u f phase fails es n).filterMap fun c => match c with | .error e => some e | .ok _ => none) =
      (List.range n).filterMap fun i => fails (i + 1) := by
  unfold failing
  rw [List.filterMap_map]
  congr 1
  funext i
  simp only [Function.comp]
  cases fails (i + 1) <;> rfl

theorem pollRun_length {D : Decoder C} {conv : C → K} {samples : List Bool} {outs : List (Res K)}
    (h : pollRun D conv samples = some outs) : outs.length = samples.length := by
  unfold pollRun at h
  rcases hr : runStep (fun p s => PeriodicPoll.pollBase D conv p s) (PeriodicPoll.new D) samples with _ | ⟨s, o⟩
  · rw [hr] at h; cases h
  · rw [hr] at h
    simp only [Option.map_some, Option.some.injEq] at h
    rw [← h, runStep_length' hr]

/-- What a receiver says on a pin whose reads may fail. -/
theorem pin_line (D : Decoder C) (conv : C → K) (u f phase : Nat) (fails : Nat → Option E) (es : List (Bool × Nat))
    (n : Nat) (cmds : List K)
    (h : (pollRun D conv (readableSamples (failing u f phase fails es n))).map said = some (oks cmds)) :
    (pollPinRun D conv (failing u f phase fails es n)).map (fun outs => (pinSaid outs, pinErrors outs)) =
      some (cmds.map fun k => .ok (some k), (List.range n).filterMap fun i => fails (i + 1)) := by
  rw [C37_pin_poll]
  rcases hp : pollRun D conv (readableSamples (failing u f phase fails es n)) with _ | outs
  · rw [hp] at h; cases h
  · rw [hp] at h
    simp only [Option.map_some, Option.some.injEq] at h
    obtain ⟨h1, h2⟩ := pin_said (failing u f phase fails es n) outs (pollRun_length hp)
    simp only [Option.map_some, Option.some.injEq, h1, h2, h, failing_errors, oks, List.map_map]
    rfl

/-- **C86**, NEC family: a receiver with a pin, polled `f` times per second, of any 17 ms at most `e` polls fail; it returns
exactly the commands sent, and the errors of the pin where they happened. -/
theorem C86_nec (t : Target) (f e : Nat) (hlo : 10000 * (e + 2) ≤ f) (hf : f < 2 ^ 32) (v : NecVariant C) (hv : v.Shipped) (tbl : PulseSpans)
    (htbl : necSpans t Mono.u32 v f = some tbl) (conv : C → K) (u : Nat) (hu : 0 < u) (phase : Nat)
    (fails : Nat → Option E) (w : Nat) (hfew : FewFail fails w e) (hw : 17000 * f ≤ 1000000 * w) (pause : Nat)
    (hg : Pause tbl 32 [0, 1] (0, goodPolls fails (reading u f phase pause) + 1))
    (hp : reading u f phase pause + 1 < 2 ^ 32) (items : List (NecItem × (Nat × Nat)))
    (hok : ∀ i ∈ items, i.1.Near u 5 (v.pulseDistance.headerHigh + v.pulseDistance.headerLow)
      (v.pulseDistance.headerHigh + v.pulseDistance.repeatLow) ∧
      16000 * u ≤ 1000000 * (i.2.1 + i.2.2) ∧ (i.2.1 + i.2.2) * f + (e + 1) * u < 2 ^ 32 * u)
    (hmin : ∀ a ∈ series NecItem.wire items, (e + 1) * u ≤ a.2 * f)
    (hmax : ∀ a ∈ series NecItem.wire items, a.2 * f + 2 * u < 2 ^ 32 * u)
    (n : Nat) (hn : reading u f phase (duration ((true, pause) :: series NecItem.wire items)) + e < n) :
    (pollPinRun (necDecoder t Mono.u32 tbl v) conv
        (failing u f phase fails ((true, pause) :: series NecItem.wire items) n)).map
        (fun outs => (pinSaid outs, pinErrors outs)) =
      some (((necHeard v.unpack 0 (items.map Prod.fst)).map conv).map fun k => .ok (some k), (List.range n).filterMap fun i => fails (i + 1)) := by
  refine pin_line _ conv u f phase fails _ n _ ?_
  rw [good_line _ conv u hu f phase fails w e hfew (by omega) true pause _ (changes_series ..) hmin n hn hp hmax]
  exact nec_by t Mono.u32 (.inl rfl) f (e + 1) (by omega) (by omega) hf v hv tbl htbl conv u hu _
    (follows_good hu hfew hw) pause _ hg items hok

/-- **C86**, SBP. -/
theorem C86_sbp (t : Target) (f e : Nat) (hlo : 20000 * (e + 2) ≤ f) (hf : f < 2 ^ 32) (tbl : PulseSpans)
    (htbl : sbpSpans t Mono.u32 f = some tbl) (conv : SbpCommand → K) (u : Nat) (hu : 0 < u) (phase : Nat)
    (fails : Nat → Option E) (w : Nat) (hfew : FewFail fails w e) (hw : 17000 * f ≤ 1000000 * w) (pause : Nat)
    (hg : Pause tbl 32 [0] (0, goodPolls fails (reading u f phase pause) + 1))
    (hp : reading u f phase pause + 1 < 2 ^ 32) (items : List ((BitVec 16 × BitVec 20 × List (Nat × Nat)) × (Nat × Nat)))
    (hok : ∀ i ∈ items, NearPeriods u 3 (sbpPeriods i.1.1 i.1.2.1) i.1.2.2 ∧
      16000 * u ≤ 1000000 * (i.2.1 + i.2.2) ∧ (i.2.1 + i.2.2) * f + (e + 1) * u < 2 ^ 32 * u)
    (hmin : ∀ a ∈ series (fun i : BitVec 16 × BitVec 20 × List (Nat × Nat) => i.2.2) items, (e + 1) * u ≤ a.2 * f)
    (hmax : ∀ a ∈ series (fun i : BitVec 16 × BitVec 20 × List (Nat × Nat) => i.2.2) items, a.2 * f + 2 * u < 2 ^ 32 * u)
    (n : Nat) (hn : reading u f phase (duration ((true, pause) :: series (fun i : BitVec 16 × BitVec 20 × List (Nat × Nat) => i.2.2) items)) + e < n) :
    (pollPinRun (sbpDecoder t Mono.u32 tbl) conv
        (failing u f phase fails ((true, pause) :: series (fun i : BitVec 16 × BitVec 20 × List (Nat × Nat) => i.2.2) items) n)).map
        (fun outs => (pinSaid outs, pinErrors outs)) =
      some ((items.map fun i => conv (SbpCommand.unpack i.1.1 (i.1.2.1.setWidth 32))).map fun k => .ok (some k), (List.range n).filterMap fun i => fails (i + 1)) := by
  refine pin_line _ conv u f phase fails _ n _ ?_
  rw [good_line _ conv u hu f phase fails w e hfew (by omega) true pause _ (changes_series ..) hmin n hn hp hmax]
  exact sbp_by t Mono.u32 (.inl rfl) f (e + 1) (by omega) (by omega) hf tbl htbl conv u hu _
    (follows_good hu hfew hw) pause _ hg items hok

/-- **C86**, Denon (first 47 bits). -/
theorem C86_denon (t : Target) (f e : Nat) (hlo : 20000 * (e + 2) ≤ f) (hf : f < 2 ^ 32) (tbl : PulseSpans)
    (htbl : denonSpans t Mono.u32 f = some tbl) (conv : DenonCommand → K) (u : Nat) (hu : 0 < u) (phase : Nat)
    (fails : Nat → Option E) (w : Nat) (hfew : FewFail fails w e) (hw : 17000 * f ≤ 1000000 * w) (pause : Nat)
    (hg : Pause tbl 32 [0] (0, goodPolls fails (reading u f phase pause) + 1))
    (hp : reading u f phase pause + 1 < 2 ^ 32) (items : List ((BitVec 48 × List (Nat × Nat)) × (Nat × Nat)))
    (hok : ∀ i ∈ items, NearPeriods u 3 (denonPeriods i.1.1) i.1.2 ∧
      16000 * u ≤ 1000000 * (i.2.1 + i.2.2) ∧ (i.2.1 + i.2.2) * f + (e + 1) * u < 2 ^ 32 * u)
    (hmin : ∀ a ∈ series (fun i : BitVec 48 × List (Nat × Nat) => i.2) items, (e + 1) * u ≤ a.2 * f)
    (hmax : ∀ a ∈ series (fun i : BitVec 48 × List (Nat × Nat) => i.2) items, a.2 * f + 2 * u < 2 ^ 32 * u)
    (n : Nat) (hn : reading u f phase (duration ((true, pause) :: series (fun i : BitVec 48 × List (Nat × Nat) => i.2) items)) + e < n) :
    (pollPinRun (denonDecoder t Mono.u32 tbl) conv
        (failing u f phase fails ((true, pause) :: series (fun i : BitVec 48 × List (Nat × Nat) => i.2) items) n)).map
        (fun outs => (pinSaid outs, pinErrors outs)) =
      some ((items.map fun i => conv { bits := (i.1.1.setWidth 47).setWidth 64 }).map fun k => .ok (some k), (List.range n).filterMap fun i => fails (i + 1)) := by
  refine pin_line _ conv u f phase fails _ n _ ?_
  rw [good_line _ conv u hu f phase fails w e hfew (by omega) true pause _ (changes_series ..) hmin n hn hp hmax]
  exact denon_by t Mono.u32 (.inl rfl) f (e + 1) (by omega) (by omega) hf tbl htbl conv u hu _
    (follows_good hu hfew hw) pause _ hg items hok

/-- **C86**, RC5. -/
theorem C86_rc5 (t : Target) (hus : 16 ≤ t.usizeBits) (f e : Nat) (hlo : 20000 * (e + 2) ≤ f) (hf : f < 2 ^ 32)
    (tbl : PulseSpans) (htbl : rc5Spans t Mono.u32 f = some tbl) (conv : Rc5Command → K) (u : Nat) (hu : 0 < u) (phase : Nat)
    (fails : Nat → Option E) (w : Nat) (hfew : FewFail fails w e) (hw : 17000 * f ≤ 1000000 * w)
    (items : List (BitVec 14 × List (Bool × Nat) × Option Nat))
    (hok : ∀ i ∈ items, i.1.getLsbD 13 = true ∧
      ManchesterFrame (fun x n => Near u 5 (889 * n) x) (rc5Edges i.1) i.2.1)
    (hch : Changes false (items.flatMap fun i => withTail i.2.1 i.2.2))
    (hmin : ∀ a ∈ (items.flatMap fun i => withTail i.2.1 i.2.2).tail, (e + 1) * u ≤ a.2 * f)
    (hmax : ∀ a ∈ items.flatMap fun i => withTail i.2.1 i.2.2, (a.2 * f + phase) + 2 * u < 2 ^ 32 * u)
    (n : Nat) (hn : reading u f phase (duration (items.flatMap fun i => withTail i.2.1 i.2.2)) + e < n) :
    (pollPinRun (rc5Decoder t tbl) conv
        (failing u f phase fails (items.flatMap fun i => withTail i.2.1 i.2.2) n)).map
        (fun outs => (pinSaid outs, pinErrors outs)) =
      some ((items.map fun i => conv (Rc5Command.unpack (i.1.setWidth 16))).map fun k => .ok (some k), (List.range n).filterMap fun i => fails (i + 1)) := by
  refine pin_line _ conv u f phase fails _ n _ ?_
  rcases hfl : items.flatMap (fun i => withTail i.2.1 i.2.2) with _ | ⟨⟨b, pause⟩, es⟩
  · cases items with
    | nil =>
      rw [hfl, failing_silent, C54_silent_line, Option.map_some, said,
        List.filter_eq_nil_iff.mpr (by intro x hx; rw [List.eq_of_mem_replicate hx]; simp)]
      rfl
    | cons a as =>
      obtain ⟨x1, es, hes⟩ := frame_nonempty (hok a (by simp)).2
      rw [List.flatMap_cons, hes] at hfl
      cases h : a.2.2 <;> simp [h, withTail] at hfl
  · rw [hfl] at hch hmin hmax hn
    rw [hfl, good_line _ conv u hu f phase fails w e hfew (by omega) b pause es hch hmin n hn ?_ fun a ha => ?_]
    · have := rc5_by t hus Mono.u32 (.inl rfl) f (e + 1) (by omega) (by omega) hf tbl htbl conv u hu _
        (follows_good (phase := phase) hu hfew hw) items hok b pause es hfl 0
        (goodPolls fails (reading u f phase pause) + 1)
      rwa [Nat.zero_add] at this
    · have := hmax (b, pause) (List.mem_cons_self ..)
      unfold reading
      rw [← Nat.add_div_right _ hu, Nat.div_lt_iff_lt_mul hu]
      dsimp only at this
      omega
    · have := hmax a (List.mem_cons_of_mem _ ha)
      omega

/-- **C86**, RC6 (mode 0). -/
theorem C86_rc6 (t : Target) (hus : 16 ≤ t.usizeBits) (f e : Nat) (hlo : 40000 * (e + 2) ≤ f) (hf : f < 2 ^ 32)
    (tbl : PulseSpans) (htbl : rc6Spans t Mono.u32 f = some tbl) (conv : Rc6Command → K) (u : Nat) (hu : 0 < u) (phase : Nat)
    (fails : Nat → Option E) (w : Nat) (hfew : FewFail fails w e) (hw : 17000 * f ≤ 1000000 * w)
    (items : List (Rc6Command × List (Bool × Nat) × Option Nat))
    (hok : ∀ i ∈ items, ManchesterFrame (fun x n => Near u 5 (444 * n) x)
      (rc6Edges (i.1.addr ++ i.1.cmd) i.1.toggle) i.2.1)
    (hch : Changes false (items.flatMap fun i => withTail i.2.1 i.2.2))
    (hmin : ∀ a ∈ (items.flatMap fun i => withTail i.2.1 i.2.2).tail, (e + 1) * u ≤ a.2 * f)
    (hmax : ∀ a ∈ items.flatMap fun i => withTail i.2.1 i.2.2, (a.2 * f + phase) + 2 * u < 2 ^ 32 * u)
    (n : Nat) (hn : reading u f phase (duration (items.flatMap fun i => withTail i.2.1 i.2.2)) + e < n) :
    (pollPinRun (rc6Decoder t tbl) conv
        (failing u f phase fails (items.flatMap fun i => withTail i.2.1 i.2.2) n)).map
        (fun outs => (pinSaid outs, pinErrors outs)) =
      some ((items.map fun i => conv i.1).map fun k => .ok (some k), (List.range n).filterMap fun i => fails (i + 1)) := by
  refine pin_line _ conv u f phase fails _ n _ ?_
  rcases hfl : items.flatMap (fun i => withTail i.2.1 i.2.2) with _ | ⟨⟨b, pause⟩, es⟩
  · cases items with
    | nil =>
      rw [hfl, failing_silent, C54_silent_line, Option.map_some, said,
        List.filter_eq_nil_iff.mpr (by intro x hx; rw [List.eq_of_mem_replicate hx]; simp)]
      rfl
    | cons a as =>
      obtain ⟨x1, es, hes⟩ := frame_nonempty (hok a (by simp))
      rw [List.flatMap_cons, hes] at hfl
      cases h : a.2.2 <;> simp [h, withTail] at hfl
  · rw [hfl] at hch hmin hmax hn
    rw [hfl, good_line _ conv u hu f phase fails w e hfew (by omega) b pause es hch hmin n hn ?_ fun a ha => ?_]
    · have := rc6_by t hus Mono.u32 (.inl rfl) f (e + 1) (by omega) (by omega) hf tbl htbl conv u hu _
        (follows_good (phase := phase) hu hfew hw) items hok b pause es hfl 0
        (goodPolls fails (reading u f phase pause) + 1)
      rwa [Nat.zero_add] at this
    · have := hmax (b, pause) (List.mem_cons_self ..)
      unfold reading
      rw [← Nat.add_div_right _ hu, Nat.div_lt_iff_lt_mul hu]
      dsimp only at this
      omega
    · have := hmax a (List.mem_cons_of_mem _ ha)
      omega

/-! ## Non-vacuity -/

/-- Every thousandth poll fails. -/
theorem few_thousandth {w e : Nat} (h : w ≤ 1000 * e) :
    FewFail (fun k => if k % 1000 = 0 then some k else none) w e := by
  intro k
  have key : ∀ m, ((List.range' (k + 1) m).countP fun i => (if i % 1000 = 0 then some i else none).isSome) =
      (k + m) / 1000 - k / 1000 := by
    intro m
    induction m with
    | zero => simp
    | succ m ih =>
      rw [List.range'_concat, List.countP_append, ih, List.countP_singleton]
      simp only [Nat.one_mul]
      by_cases h : (k + 1 + m) % 1000 = 0
      · simp only [h, if_true, Option.isSome_some]
        omega
      · simp only [h, if_false, Option.isSome_none]
        simp only [Bool.false_eq_true, if_false]
        omega
  rw [key w]
  omega

/-- Two NEC words 4 % slow and a repeat code, polled 50 000 times per second; every thousandth poll fails. -/
example (t : Target) (phase : Nat) (hp : phase < 1000000000) :
    (pollPinRun (necDecoder t Mono.u32 (necTable 50000) Infrared.nec) id
      (failing 1000000000 50000 phase (fun k => if k % 1000 = 0 then some k else none)
        ((true, 1000000) :: series NecItem.wire (slowNec 0xE31CFF00 0x00FF00FF)) 600000)).map
        (fun outs => (pinSaid outs, pinErrors outs)) =
      some ([.ok (some { addr := 0x00, cmd := 0x1C, rep := false }), .ok (some { addr := 0x00, cmd := 0x1C, rep := true }),
        .ok (some { addr := 0xFF, cmd := 0xFF, rep := false })],
        (List.range 600000).filterMap fun i => if (i + 1) % 1000 = 0 then some (i + 1) else none) := by
  have hr : reading 1000000000 50000 phase 1000000 = 50 := by unfold reading; omega
  refine C86_nec t 50000 1 (by decide) (by decide) Infrared.nec (.inl rfl) _
    (necSpans_standard (.inl rfl) t (by decide) _ rfl) id 1000000000 (by decide) phase _ 850 (few_thousandth (by decide)) (by decide)
    1000000 ?_ ?_ _ ?_ (by decide +kernel) (by decide +kernel) 600000 ?_
  · rw [hr]
    refine ⟨by decide +kernel, ?_⟩
    intro j hj
    simp only [List.mem_cons, List.not_mem_nil, or_false] at hj
    rcases hj with rfl | rfl <;> rintro ⟨s, hs, ha, hb⟩ <;> cases hs
    · exact absurd ha (by decide +kernel)
    · exact absurd ha (by decide +kernel)
  · rw [hr]
    decide
  · intro i hi
    simp only [slowNec, List.mem_cons, List.not_mem_nil, or_false] at hi
    rcases hi with rfl | rfl | rfl
    · exact ⟨nearPeriods_zip (by decide +kernel), by decide, by decide⟩
    · exact ⟨⟨by decide, by decide⟩, by decide, by decide⟩
    · exact ⟨nearPeriods_zip (by decide +kernel), by decide, by decide⟩
  · have hd' : duration ((true, 1000000) :: series NecItem.wire (slowNec 0xE31CFF00 0x00FF00FF)) ≤ 11000000000 := by
      decide +kernel
    unfold reading
    omega

/-- An RC5 transmission 4 % slow, polled 80 000 times per second; every thousandth poll fails. -/
example (t : Target) (hus : 16 ≤ t.usizeBits) (phase : Nat) (hp : phase < 1000000000) :
    (pollPinRun (rc5Decoder t (rc5Table 80000)) id
      (failing 1000000000 80000 phase (fun k => if k % 1000 = 0 then some k else none)
        ([(0x3175#14, slowRc5 0x3175#14, some 889000)].flatMap fun i => withTail i.2.1 i.2.2) 5500)).map
        (fun outs => (pinSaid outs, pinErrors outs)) =
      some ([.ok (some ⟨5, 53, 3, false⟩)], [1000, 2000, 3000, 4000, 5000]) := by
  have h := C86_rc5 t hus 80000 2 (by decide) (by decide) _ (rc5Spans_eq (.inl rfl) t (by decide)) id
    1000000000 (by decide) phase _ 1360 (few_thousandth (by decide)) (by decide)
    [(0x3175#14, slowRc5 0x3175#14, some 889000)] ?_ (by decide +kernel) (by decide +kernel) ?_ 5500 ?_
  · rw [h]
    have : ((List.range 5500).filterMap fun i => if (i + 1) % 1000 = 0 then some (i + 1) else none) =
        [1000, 2000, 3000, 4000, 5000] := by decide +kernel
    rw [this]
    rfl
  · intro i hi
    have : i = (0x3175#14, slowRc5 0x3175#14, some 889000) := by simpa using hi
    subst this
    refine ⟨by decide, ?_⟩
    dsimp only
    rw [slowRc5, rc5Edges_eq _ (by decide)]
    exact ⟨_, _, _, _, rfl, rfl, timed_scaled 1040 5 889 (fun n => by unfold Near; omega) _⟩
  · intro e he
    have h : ∀ e ∈ [(0x3175#14, slowRc5 0x3175#14, some 889000)].flatMap fun i => withTail i.2.1 i.2.2,
        e.2 ≤ 2000000 := by decide +kernel
    have := h e he
    omega
  · have hd : duration ([(0x3175#14, slowRc5 0x3175#14, some 889000)].flatMap fun i => withTail i.2.1 i.2.2) ≤
        60000000 := by
      decide +kernel
    unfold reading
    omega

end Infrared
