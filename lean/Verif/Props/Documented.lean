import Verif.Props.Rates
import Verif.Props.Buffers
import Verif.Lemmas.Air
import Verif.Lemmas.Listeners

/-!
# Receivers at the polling rate that the documentation recommends (C79)

`src/receiver.rs` 49 and 73: "a frequency of something like 20 kHz", `const FREQ: u32 = 20_000`; 105:
`BufferInputReceiver<Rc6>::with_frequenzy(20_000)`.
-/

namespace Infrared

open Spec

variable {C K : Type}

/-! ## RC6 -/

/-- Waiting for a leader. -/
def Abs6.Unled (a : Abs6) : Prop := a.st = .idle ∨ a.st = .leading

theorem unled_none (a : Abs6) (r : Bool) : Abs6.Unled (a.step (r, none)).1 ∧ (a.step (r, none)).2 = .ok none := by
  cases r
  · exact ⟨.inl rfl, rfl⟩
  · exact ⟨.inr rfl, rfl⟩

theorem unled_step {a : Abs6} (ha : a.Unled) {e : Bool × Option Nat} (he : e.1 = true ∨ e.2 ≠ some 6) :
    Abs6.Unled (a.step e).1 ∧ (a.step e).2 = .ok none := by
  obtain ⟨r, _ | n⟩ := e
  · exact unled_none a r
  · obtain ⟨st, data, tg, odd⟩ := a
    rcases ha with ha | ha <;> simp only at ha <;> subst ha
    · cases r
      · exact ⟨.inl rfl, rfl⟩
      · exact ⟨.inr rfl, rfl⟩
    · refine ⟨.inl ?_, rfl⟩
      simp only [Abs6.step]
      rw [if_neg]
      rintro ⟨hr, hn⟩
      rcases he with he | he
      · simp [hr] at he
      · simp [hn] at he

theorem unled_run {a : Abs6} (ha : a.Unled) (es : List (Bool × Option Nat)) (hes : ∀ e ∈ es, e.2 ≠ some 6) :
    (runTotal Abs6.step a es).1.Unled ∧ (runTotal Abs6.step a es).2 = List.replicate es.length (.ok none) := by
  induction es generalizing a with
  | nil => exact ⟨ha, rfl⟩
  | cons e es ih =>
    obtain ⟨h1, h2⟩ := unled_step ha (.inr (hes e (by simp)))
    obtain ⟨h3, h4⟩ := ih h1 fun x hx => hes x (by simp [hx])
    refine ⟨h3, ?_⟩
    rw [runTotal, List.length_cons, List.replicate_succ]
    exact congrArg₂ _ h2 h4

/-- In the header, with at least `k` bits to come. -/
def Abs6.Heading (k : Nat) (a : Abs6) : Prop :=
  a.Unled ∨ a.st = .pause ∨ ∃ n, k ≤ n ∧ a.st = .header n

theorem heading_step {k : Nat} (hk : k < 3) {a : Abs6} (ha : a.Heading (k + 1)) (e : Bool × Option Nat) :
    Abs6.Heading k (a.step e).1 ∧ (a.step e).2 = .ok none := by
  obtain ⟨r, _ | n⟩ := e
  · exact ⟨.inl (unled_none a r).1, (unled_none a r).2⟩
  · obtain ⟨st, data, tg, odd⟩ := a
    rcases ha with (ha | ha) | ha | ⟨i, hi, ha⟩ <;> simp only at ha <;> subst ha
    · cases r
      · exact ⟨.inl (.inl rfl), rfl⟩
      · exact ⟨.inl (.inr rfl), rfl⟩
    · refine ⟨?_, rfl⟩
      simp only [Abs6.step]
      split
      · exact .inr (.inl rfl)
      · exact .inl (.inl rfl)
    · refine ⟨?_, rfl⟩
      simp only [Abs6.step]
      split
      · exact .inr (.inr ⟨3, by omega, rfl⟩)
      · exact .inl (.inl rfl)
    · simp only [Abs6.step]
      split
      · rw [if_neg (by omega)]
        exact ⟨.inr (.inr ⟨i - 1, by omega, rfl⟩), rfl⟩
      · exact ⟨.inr (.inr ⟨i, by omega, rfl⟩), rfl⟩

/-- Before the leader. -/
theorem leader_step {a : Abs6} (ha : a.Unled) (m : Option Nat) :
    ((a.step (false, m)).1.Unled ∨ (a.step (false, m)).1.st = .pause) ∧ (a.step (false, m)).2 = .ok none := by
  rcases m with _ | n
  · exact ⟨.inl (unled_none a false).1, rfl⟩
  · obtain ⟨st, data, tg, odd⟩ := a
    rcases ha with ha | ha <;> simp only at ha <;> subst ha
    · exact ⟨.inl (.inl rfl), rfl⟩
    · refine ⟨?_, rfl⟩
      simp only [Abs6.step]
      split
      · exact .inr rfl
      · exact .inl (.inl rfl)

theorem gap_step {a : Abs6} (ha : a.Unled ∨ a.st = .pause) (m : Option Nat) :
    (a.step (true, m)).1.Heading 3 ∧ (a.step (true, m)).2 = .ok none := by
  rcases ha with ha | ha
  · obtain ⟨h1, h2⟩ := unled_step ha (e := (true, m)) (.inl rfl)
    exact ⟨.inl h1, h2⟩
  · rcases m with _ | n
    · exact ⟨.inl (unled_none a true).1, rfl⟩
    · obtain ⟨st, data, tg, odd⟩ := a
      simp only at ha
      subst ha
      refine ⟨?_, rfl⟩
      simp only [Abs6.step]
      split
      · exact .inr (.inr ⟨3, by omega, rfl⟩)
      · exact .inl (.inl rfl)

/-- The first five or six edges of a transmission, however they are measured. -/
theorem head_quiet {a : Abs6} (ha : a.Unled) (m0 m1 m2 m3 m4 m5 : Option Nat) :
    (runTotal Abs6.step a [(true, m0), (false, m1), (true, m2), (false, m3), (true, m4)]).2 =
      List.replicate 5 (.ok none) ∧
    (runTotal Abs6.step a [(true, m0), (false, m1), (true, m2), (false, m3), (true, m4), (false, m5)]).2 =
      List.replicate 6 (.ok none) := by
  obtain ⟨h0, q0⟩ := unled_step ha (e := (true, m0)) (.inl rfl)
  obtain ⟨h1, q1⟩ := leader_step h0 m1
  obtain ⟨h2, q2⟩ := gap_step h1 m2
  obtain ⟨h3, q3⟩ := heading_step (by decide) h2 (false, m3)
  obtain ⟨h4, q4⟩ := heading_step (by decide) h3 (true, m4)
  obtain ⟨-, q5⟩ := heading_step (by decide) h4 (false, m5)
  constructor <;> simp only [runTotal, q0, q1, q2, q3, q4, q5] <;> rfl

/-- A part that says nothing, an edge at a time that is no multiple of the unit, and then no leader. -/
theorem broken_off (t : Target) (hus : 16 ≤ t.usizeBits) (tbl : PulseSpans) (hlen : tbl.spans.length ≤ 8)
    {d : Rc6Decoder} {a : Abs6} (hs : Sim6 d a) (hclk : d.clock ≤ 1000 ∨ t.overflowChecks = false)
    (pre : List Ev) (x : Ev) (post : List Ev) (hpre : pre.length ≤ 10) (hpost : post.length ≤ 100)
    (hq : (runTotal Abs6.step a (pre.map (measure tbl))).2 = List.replicate pre.length (.ok none))
    (hx : tbl.half x.2 = none) (hno : ∀ e ∈ post, tbl.half e.2 ≠ some 6) :
    ∃ d' a', runStep (rc6Fn t tbl) d (pre ++ x :: post) =
        some (d', List.replicate (pre ++ x :: post).length (.ok none)) ∧
      Sim6 d' a' ∧ a'.Unled ∧ (d'.clock ≤ 1000 ∨ t.overflowChecks = false) := by
  have hpow : 2 ^ 16 ≤ 2 ^ t.usizeBits := Nat.pow_le_pow_right (by decide) hus
  obtain ⟨d1, r1, s1, -⟩ := rc6_run_ex t tbl hus hlen hs pre (by
    rcases hclk with h | h
    · exact .inr (by omega)
    · exact .inl h)
  rw [hq] at r1
  have hg : tbl.get x.2 = none := by
    unfold PulseSpans.half at hx
    rcases h : tbl.get x.2 with _ | v
    · rfl
    · rw [h] at hx; cases hx
  obtain ⟨d2, r, r2, s2, q2, c2⟩ := rc6_step_ex t tbl hus hlen s1 x (clock := 0) (by rw [rc6Clock, hg])
  obtain ⟨d3, r3, s3, c3⟩ := rc6_run_ex t tbl hus hlen s2 post (.inr (by omega))
  rw [show measure tbl x = (x.1, none) by rw [measure, hx]] at *
  obtain ⟨u2, n2⟩ := unled_none (runTotal Abs6.step a (pre.map (measure tbl))).1 x.1
  obtain ⟨u3, n3⟩ := unled_run u2 (post.map (measure tbl)) (by
    intro e he
    obtain ⟨q, hq, rfl⟩ := List.mem_map.mp he
    exact hno q hq)
  rw [n3, List.length_map] at r3
  rw [n2] at q2
  subst q2
  refine ⟨d3, _, ?_, s3, u3, ?_⟩
  · rw [run_append_some r1 (run_cons_some r2 r3)]
    simp only [List.length_append, List.length_cons, List.replicate_append_replicate, ← List.replicate_succ]
  · rcases c3 with c | c
    · exact .inl (by omega)
    · exact .inr c

/-- At 20 kHz two units in a row are not both measured as one unit. -/
theorem twenty_half {d : Nat} (h1 : 9 ≤ d) (h2 : d ≤ 10) : (rc6Table 20000).half d = none := by
  obtain rfl | rfl : d = 9 ∨ d = 10 := by omega
  · decide
  · decide

theorem twenty_short {d : Nat} (h : d ≤ 28) : (rc6Table 20000).half d ≠ some 6 := by
  have : ∀ d : Fin 29, (rc6Table 20000).half d.1 ≠ some 6 := by decide
  exact this ⟨d, by omega⟩

theorem near_reading {u : Nat} (hu : 0 < u) (phase t n x : Nat) (hn : n ≤ 3) (h : Near u 4 (444 * n) x) :
    reading u 20000 phase (t + x) - reading u 20000 phase t ≤ 28 ∧
      (n = 1 → reading u 20000 phase (t + x) - reading u 20000 phase t ≤ 10) := by
  have h1 := (reading_between hu 20000 phase 4 (444 * n) t x h).2
  constructor
  · refine Nat.le_trans h1 ?_
    have : n = 0 ∨ n = 1 ∨ n = 2 ∨ n = 3 := by omega
    rcases this with rfl | rfl | rfl | rfl <;> decide
  · rintro rfl
    exact Nat.le_trans h1 (by decide)

theorem clocked_short {u : Nat} (hu : 0 < u) (phase : Nat) (es : List (Bool × Nat)) (ws : List (Bool × Nat))
    (hws : ∀ w ∈ ws, w.2 ≤ 3) (t : Nat) (h : Timed (fun x n => Near u 4 (444 * n) x) es ws) :
    ∀ e ∈ clocked u 20000 phase t es, (rc6Table 20000).half e.2 ≠ some 6 := by
  induction es generalizing t ws with
  | nil => simp [clocked]
  | cons e es ih =>
    obtain ⟨b, x⟩ := e
    rcases ws with _ | ⟨w, ws⟩
    · cases h
    · obtain ⟨-, h2, h3⟩ := h
      intro q hq
      rw [clocked, List.mem_cons] at hq
      rcases hq with rfl | hq
      · exact twenty_short (near_reading hu phase t w.2 x (hws w (by simp)) h2).1
      · exact ih ws (fun w hw => hws w (by simp [hw])) (t + x) h3 q hq

/-- The edges of a transmission behind the first six. -/
def rc6Behind (w : BitVec 16) (toggle : Bool) : List (Bool × Nat) :=
  (rc6Head 0 toggle).drop 6 ++ edgesFrom (!toggle) 2 (rc6Tail w 16)

theorem rc6_split (w : BitVec 16) (toggle : Bool) : rc6Edges w toggle = (true, 0) :: (false, 6) :: (true, 2) ::
    (false, 1) :: (true, 2) :: (false, 1) :: (true, 1) :: rc6Behind w toggle := by
  rw [rc6Edges, rc6Edges_eq 0 (.inl rfl)]
  cases toggle <;> rfl

theorem rc6Behind_len (w : BitVec 16) (toggle : Bool) : ∀ e ∈ rc6Behind w toggle, e.2 ≤ 3 := by
  intro e he
  rcases List.mem_append.mp he with he | he
  · have : ∀ e ∈ (rc6Head 0 toggle).drop 6, e.2 ≤ 3 := by cases toggle <;> decide
    exact this e he
  · rcases rc6_tail_len w 16 (!toggle) 2 (.inr rfl) e he with h | h | h <;> omega

/-- One transmission. -/
theorem rc6_twenty_frame (t : Target) (hus : 16 ≤ t.usizeBits) {u : Nat} (hu : 0 < u) (phase : Nat) (w : BitVec 16)
    (toggle : Bool) (evs : List Ev) (tail : Option Nat) (p : Nat) (es : List Ev)
    (hfr : ManchesterFrame (fun x n => Near u 4 (444 * n) x) (rc6Edges w toggle) evs)
    (htail : ∀ x, tail = some x → Near u 4 444 x) (hes : withTail evs tail = (true, p) :: es) (g t0 : Nat)
    {d : Rc6Decoder} {a : Abs6} (hs : Sim6 d a) (ha : a.Unled) (hclk : d.clock ≤ 1000 ∨ t.overflowChecks = false) :
    ∃ d' a', runStep (rc6Fn t (rc6Table 20000)) d ((true, g) :: clocked u 20000 phase t0 es) =
        some (d', List.replicate (es.length + 1) (.ok none)) ∧
      Sim6 d' a' ∧ a'.Unled ∧ (d'.clock ≤ 1000 ∨ t.overflowChecks = false) := by
  obtain ⟨p', n, evs', edges', rfl, he, ht⟩ := hfr
  have hl := rc6Edges_length w toggle
  rw [rc6_split] at he hl
  simp only [List.cons.injEq] at he
  obtain ⟨-, rfl⟩ := he
  rcases evs' with _ | ⟨⟨b1, x1⟩, evs'⟩
  · cases ht
  obtain ⟨rfl, -, ht⟩ := ht
  rcases evs' with _ | ⟨⟨b2, x2⟩, evs'⟩
  · cases ht
  obtain ⟨rfl, -, ht⟩ := ht
  rcases evs' with _ | ⟨⟨b3, x3⟩, evs'⟩
  · cases ht
  obtain ⟨rfl, -, ht⟩ := ht
  rcases evs' with _ | ⟨⟨b4, x4⟩, evs'⟩
  · cases ht
  obtain ⟨rfl, -, ht⟩ := ht
  rcases evs' with _ | ⟨⟨b5, x5⟩, evs'⟩
  · cases ht
  obtain ⟨rfl, n5, ht⟩ := ht
  rcases evs' with _ | ⟨⟨b6, x6⟩, evs'⟩
  · cases ht
  obtain ⟨rfl, n6, ht⟩ := ht
  dsimp only at n5 n6
  have hlen := Timed.length ht
  simp only [List.length_cons] at hl
  -- the rest with the tail
  obtain ⟨rest, hrest, hrl, hno⟩ : ∃ rest, es = (false, x1) :: (true, x2) :: (false, x3) :: (true, x4) :: (false, x5) ::
      (true, x6) :: rest ∧ rest.length ≤ 60 ∧
      ∀ t', ∀ e ∈ clocked u 20000 phase t' rest, (rc6Table 20000).half e.2 ≠ some 6 := by
    rcases tail with _ | x
    · simp only [withTail, List.cons.injEq] at hes
      exact ⟨evs', hes.2.symm, by omega, fun t' => clocked_short hu phase _ _ (rc6Behind_len w toggle) t' ht⟩
    · simp only [withTail, List.cons_append, List.cons.injEq] at hes
      refine ⟨evs' ++ [(false, x)], hes.2.symm, by simp; omega, fun t' => ?_⟩
      obtain ⟨t'', h⟩ := clocked_append_at u 20000 phase evs' [(false, x)] t'
      rw [h]
      intro e he
      rcases List.mem_append.mp he with he | he
      · exact clocked_short hu phase _ _ (rc6Behind_len w toggle) t' ht e he
      · simp only [clocked, List.mem_singleton] at he
        subst he
        exact twenty_short (near_reading hu phase t'' 1 x (by decide) (htail x rfl)).1
  subst hrest
  simp only [clocked]
  generalize hT : t0 + x1 + x2 + x3 + x4 = T
  have r5 := (near_reading hu phase T 1 x5 (by decide) n5).2 rfl
  have r6 := (near_reading hu phase (T + x5) 1 x6 (by decide) n6).2 rfl
  have r56 := (reading_between hu 20000 phase 4 888 T (x5 + x6) (by
    unfold Near at n5 n6 ⊢; omega)).1
  rw [show shortest 20000 4 888 = 17 by decide, ← Nat.add_assoc] at r56
  have hmono : reading u 20000 phase T ≤ reading u 20000 phase (T + x5) :=
    Nat.div_le_div_right (by rw [Nat.add_mul]; omega)
  have hnext := hno (T + x5 + x6)
  have hcl := clocked_length u 20000 phase (T + x5 + x6) rest
  generalize clocked u 20000 phase (T + x5 + x6) rest = post at *
  generalize reading u 20000 phase (T + x5 + x6) = R2 at *
  generalize reading u 20000 phase (T + x5) = R1 at *
  generalize reading u 20000 phase T = R0 at *
  rcases Nat.lt_or_ge (R1 - R0) 9 with h | h
  · obtain ⟨d', a', h1, h2⟩ := broken_off t hus (rc6Table 20000) (by simp [rc6Table]) hs hclk
      [(true, g), (false, _), (true, _), (false, _), (true, _), (false, R1 - R0)] (true, R2 - R1) post (by simp)
      (by omega) (head_quiet ha ..).2 (twenty_half (by omega) r6) hnext
    refine ⟨d', a', ?_, h2⟩
    simp only [List.length_append, List.length_cons, List.length_nil] at h1 ⊢
    rw [← hcl, show post.length + 1 + 1 + 1 + 1 + 1 + 1 + 1 = 0 + 1 + 1 + 1 + 1 + 1 + 1 + (post.length + 1) by omega]
    exact h1
  · obtain ⟨d', a', h1, h2⟩ := broken_off t hus (rc6Table 20000) (by simp [rc6Table]) hs hclk
      [(true, g), (false, _), (true, _), (false, _), (true, _)] (false, R1 - R0) ((true, R2 - R1) :: post) (by simp)
      (by simp; omega) (head_quiet ha _ _ _ _ _ none).1 (twenty_half h r5) (by
        intro e he
        rcases List.mem_cons.mp he with rfl | he
        · exact twenty_short (by dsimp only; omega)
        · exact hnext e he)
    refine ⟨d', a', ?_, h2⟩
    simp only [List.length_append, List.length_cons, List.length_nil] at h1 ⊢
    rw [← hcl, show post.length + 1 + 1 + 1 + 1 + 1 + 1 + 1 = 0 + 1 + 1 + 1 + 1 + 1 + (post.length + 1 + 1) by omega]
    exact h1

theorem withTail_frame {R : Nat → Nat → Prop} {edges : List (Bool × Nat)} {evs : List Ev}
    (h : ManchesterFrame R edges evs) (tail : Option Nat) : ∃ p es, withTail evs tail = (true, p) :: es := by
  obtain ⟨p, _, evs', _, rfl, -, -⟩ := h
  cases tail
  · exact ⟨p, evs', rfl⟩
  · exact ⟨p, _, rfl⟩

/-- A series of transmissions. -/
theorem rc6_twenty_series (t : Target) (hus : 16 ≤ t.usizeBits) {u : Nat} (hu : 0 < u) (phase : Nat)
    (items : List (Rc6Command × List (Bool × Nat) × Option Nat))
    (hok : ∀ i ∈ items, ManchesterFrame (fun x n => Near u 4 (444 * n) x)
      (rc6Edges (i.1.addr ++ i.1.cmd) i.1.toggle) i.2.1 ∧ ∀ x, i.2.2 = some x → Near u 4 444 x) (t0 : Nat)
    {d : Rc6Decoder} {a : Abs6} (hs : Sim6 d a) (ha : a.Unled) (hclk : d.clock ≤ 1000 ∨ t.overflowChecks = false) :
    ∃ d' n, runStep (rc6Fn t (rc6Table 20000)) d
        (clocked u 20000 phase t0 (items.flatMap fun i => withTail i.2.1 i.2.2)) =
      some (d', List.replicate n (.ok none)) := by
  induction items generalizing t0 d a with
  | nil => exact ⟨d, 0, rfl⟩
  | cons i items ih =>
    obtain ⟨hfr, htail⟩ := hok i (by simp)
    obtain ⟨p, es, hes⟩ := withTail_frame hfr i.2.2
    obtain ⟨d1, a1, r1, s1, u1, c1⟩ := rc6_twenty_frame t hus hu phase _ _ _ _ p es hfr htail hes
      (reading u 20000 phase (t0 + p) - reading u 20000 phase t0) (t0 + p) hs ha hclk
    rw [List.flatMap_cons, hes, List.cons_append, clocked]
    obtain ⟨t', h⟩ := clocked_append_at u 20000 phase es (items.flatMap fun i => withTail i.2.1 i.2.2) (t0 + p)
    rw [h]
    obtain ⟨d2, n, r2⟩ := ih (fun i hi => hok i (by simp [hi])) t' s1 u1 c1
    refine ⟨d2, es.length + 1 + n, ?_⟩
    rw [← List.cons_append, run_append_some r1 r2, List.replicate_append_replicate]

/-- **C79**, RC6: a receiver whose clock runs at 20 kHz hears nothing.  Whatever RC6 (mode 0) transmissions within 4 %
of the documented times arrive, after whatever pauses and however the clock falls on them, it never says a word. -/
theorem C79_rc6_deaf (t : Target) (hus : 16 ≤ t.usizeBits) (m : Mono) (hm : m = Mono.u32 ∨ m = Mono.u64)
    (tbl : PulseSpans) (htbl : rc6Spans t m 20000 = some tbl) (conv : Rc6Command → K) (u : Nat) (hu : 0 < u)
    (phase : Nat) (items : List (Rc6Command × List (Bool × Nat) × Option Nat))
    (hok : ∀ i ∈ items, ManchesterFrame (fun x n => Near u 4 (444 * n) x)
      (rc6Edges (i.1.addr ++ i.1.cmd) i.1.toggle) i.2.1 ∧ ∀ x, i.2.2 = some x → Near u 4 444 x)
    (b : Bool) (pause : Nat) (es : List (Bool × Nat))
    (hes : (items.flatMap fun i => withTail i.2.1 i.2.2) = (b, pause) :: es) (t0 g : Nat) :
    (results (rc6Decoder t tbl) conv ((b, g) :: clocked u 20000 phase (t0 + pause) es)).map said = some [] := by
  rw [rc6Spans_eq hm t (by decide), Option.some.injEq] at htbl
  subst htbl
  rcases items with _ | ⟨i, items⟩
  · cases hes
  obtain ⟨hfr, htail⟩ := hok i (by simp)
  obtain ⟨p, es1, hes1⟩ := withTail_frame hfr i.2.2
  rw [List.flatMap_cons, hes1, List.cons_append, List.cons.injEq, Prod.mk.injEq] at hes
  obtain ⟨⟨rfl, rfl⟩, rfl⟩ := hes
  obtain ⟨d1, a1, r1, s1, u1, c1⟩ := rc6_twenty_frame t hus hu phase _ _ _ _ p es1 hfr htail hes1 g (t0 + p) sim6_init
    (.inl rfl) (.inl (by decide))
  obtain ⟨t', h⟩ := clocked_append_at u 20000 phase es1 (items.flatMap fun i => withTail i.2.1 i.2.2) (t0 + p)
  obtain ⟨d2, n, r2⟩ := rc6_twenty_series t hus hu phase items (fun i hi => hok i (by simp [hi])) t' s1 u1 c1
  rw [h, ← List.cons_append, results_of (D := rc6Decoder t (rc6Table 20000)) conv (run_append_some r1 r2),
    Option.map_some, said, List.filter_eq_nil_iff.mpr]
  intro x hx
  obtain ⟨y, hy, rfl⟩ := List.mem_map.mp hx
  rw [List.replicate_append_replicate] at hy
  rw [List.eq_of_mem_replicate hy]
  simp [Res.map]

/-- **C79**, RC6, polled: the receiver of the documentation, polled 20 000 times per second. -/
theorem C79_rc6_deaf_polled (t : Target) (hus : 16 ≤ t.usizeBits) (tbl : PulseSpans)
    (htbl : rc6Spans t Mono.u32 20000 = some tbl) (conv : Rc6Command → K) (u : Nat) (hu : 0 < u) (phase : Nat)
    (items : List (Rc6Command × List (Bool × Nat) × Option Nat)) (hne : items ≠ [])
    (hok : ∀ i ∈ items, ManchesterFrame (fun x n => Near u 4 (444 * n) x)
      (rc6Edges (i.1.addr ++ i.1.cmd) i.1.toggle) i.2.1 ∧ ∀ x, i.2.2 = some x → Near u 4 444 x)
    (hch : Changes false (items.flatMap fun i => withTail i.2.1 i.2.2))
    (hmin : ∀ e ∈ (items.flatMap fun i => withTail i.2.1 i.2.2).tail, u ≤ e.2 * 20000)
    (hmax : ∀ e ∈ items.flatMap fun i => withTail i.2.1 i.2.2, (e.2 * 20000 + phase) / u + 1 < 2 ^ 32)
    (n : Nat) (hn : reading u 20000 phase (duration (items.flatMap fun i => withTail i.2.1 i.2.2)) < n) :
    (pollRun (rc6Decoder t tbl) conv
        (polled u 20000 phase (items.flatMap fun i => withTail i.2.1 i.2.2) n)).map said = some [] := by
  rcases hfl : items.flatMap (fun i => withTail i.2.1 i.2.2) with _ | ⟨⟨b, pause⟩, es⟩
  · rcases items with _ | ⟨i, items⟩
    · exact absurd rfl hne
    · obtain ⟨p, es1, hes1⟩ := withTail_frame (hok i (by simp)).1 i.2.2
      rw [List.flatMap_cons, hes1] at hfl
      cases hfl
  · rw [hfl] at hch hmin hmax hn
    rw [hfl, C54_polled_line_long _ conv u hu 20000 phase b pause es hch hmin n hn
      (hmax (b, pause) (List.mem_cons_self ..)) fun e he => ?_]
    · have := C79_rc6_deaf t hus Mono.u32 (.inl rfl) tbl htbl conv u hu phase items hok b pause es hfl 0
        (reading u 20000 phase pause + 1)
      rwa [Nat.zero_add] at this
    · have := hmax e (List.mem_cons_of_mem _ he)
      have h2 : e.2 * 20000 / u ≤ (e.2 * 20000 + phase) / u := Nat.div_le_div_right (by omega)
      exact Nat.lt_of_le_of_lt (Nat.succ_le_succ h2) this

/-- **C79**, RC6, recordings: a `BufferInputReceiver<Rc6>::with_frequenzy(20_000)`, as in the documentation, collects
nothing from a recording made with a clock of 20 kHz. -/
theorem C79_rc6_deaf_buffer (t : Target) (hus : 16 ≤ t.usizeBits) (conv : Rc6Command → K) (u : Nat) (hu : 0 < u)
    (phase : Nat) (items : List (Rc6Command × List (Bool × Nat) × Option Nat))
    (hok : ∀ i ∈ items, ManchesterFrame (fun x n => Near u 4 (444 * n) x)
      (rc6Edges (i.1.addr ++ i.1.cmd) i.1.toggle) i.2.1 ∧ ∀ x, i.2.2 = some x → Near u 4 444 x)
    (b : Bool) (pause : Nat) (es : List (Bool × Nat))
    (hes : (items.flatMap fun i => withTail i.2.1 i.2.2) = (b, pause) :: es) (t0 g : Nat) (buf : List Nat)
    (hbuf : alternating true buf = (b, g) :: clocked u 20000 phase (t0 + pause) es) :
    (BufferInputReceiver.withFrequency 20000).collect (rc6Build t Mono.u32) conv buf = some [] := by
  have htbl := rc6Spans_eq (.inl rfl) t (show 20000 < 2 ^ 32 by decide) (m := Mono.u32)
  have h := C79_rc6_deaf t hus Mono.u32 (.inl rfl) _ htbl conv u hu phase items hok b pause es hes t0 g
  rw [← hbuf] at h
  simpa only [BufferInputReceiver.collect, BufferInputReceiver.withFrequency, rc6Build, htbl,
    Option.map_some, Option.bind_some] using collect_of (rc6_commits t (rc6Table 20000)) conv buf [] h

/-! ## The other protocols -/

/-- The tables at 20 kHz and what they cover: a percent more would be too much. -/
theorem C79_tolerances :
    (∀ v : NecVariant C, v.Shipped → ∀ (t : Target) (m : Mono), m = Mono.u32 ∨ m = Mono.u64 → ∀ tbl,
      necSpans t m v 20000 = some tbl → ∀ j, coversAll tbl 20000 j (necLengths v) = true ↔ j ≤ 6) ∧
    (∀ j, coversAll (sbpTable 20000) 20000 j sbpLengths = true ↔ j ≤ 5) ∧
    (∀ j, coversAll (denonTable 20000) 20000 j denonLengths = true ↔ j ≤ 1) ∧
    (∀ j, coversAll (rc5Table 20000) 20000 j rc5Lengths = true ↔ j ≤ 6) ∧
    ∀ j, coversRc6 (rc6Table 20000) 20000 j = false := by
  refine ⟨?_, ?_, ?_, ?_, ?_⟩
  · intro v hv t m hm tbl htbl j
    rcases hv with hv | hv
    · rw [necSpans_standard hm t (by decide) v hv, Option.some.injEq] at htbl
      subst htbl
      rw [necLengths, hv]
      exact coversAll_iff 6 (by decide) (by decide)
    · rw [necSpans_samsung hm t (by decide) v hv, Option.some.injEq] at htbl
      subst htbl
      rw [necLengths, hv]
      exact coversAll_iff 6 (by decide) (by decide)
  · exact fun j => coversAll_iff 5 (by decide) (by decide)
  · exact fun j => coversAll_iff 1 (by decide) (by decide)
  · exact fun j => coversAll_iff 6 (by decide) (by decide)
  · intro j
    rw [← Bool.not_eq_true]
    intro h
    simp only [coversRc6, Bool.and_eq_true] at h
    have := covers_mono (Nat.zero_le j) h.1.1.1.1
    rw [show covers (rc6Table 20000) 20000 0 0 444 = false by decide] at this
    cases this

/-- **C79**, NEC family: periods within 6 % are heard by the receiver of the documentation, polled 20 000 times per
second. -/
theorem C79_nec_partial (t : Target) (v : NecVariant C) (hv : v.Shipped) (tbl : PulseSpans)
    (htbl : necSpans t Mono.u32 v 20000 = some tbl) (conv : C → K) (u : Nat) (hu : 0 < u) (phase pause : Nat)
    (hg : Pause tbl 32 [0, 1] (0, reading u 20000 phase pause + 1)) (items : List (NecItem × (Nat × Nat)))
    (hok : ∀ i ∈ items, i.1.Near u 6 (v.pulseDistance.headerHigh + v.pulseDistance.headerLow)
      (v.pulseDistance.headerHigh + v.pulseDistance.repeatLow) ∧
      16000 * u ≤ 1000000 * (i.2.1 + i.2.2) ∧ (i.2.1 + i.2.2) * 20000 + u < 2 ^ 32 * u)
    (hmin : ∀ e ∈ series NecItem.wire items, u ≤ e.2 * 20000)
    (hmax : ∀ e ∈ series NecItem.wire items, e.2 * 20000 / u + 1 < 2 ^ 32)
    (n : Nat) (hn : reading u 20000 phase (duration ((true, pause) :: series NecItem.wire items)) < n) :
    (pollRun (necDecoder t Mono.u32 tbl v) conv
        (polled u 20000 phase ((true, pause) :: series NecItem.wire items) n)).map said =
      some (oks ((necHeard v.unpack 0 (items.map Prod.fst)).map conv)) :=
  C78_nec_polled t 20000 6 (by decide) (by decide) v hv tbl htbl
    ((C79_tolerances.1 v hv t _ (.inl rfl) tbl htbl 6).mpr (by decide)) conv u hu phase pause hg items hok hmin hmax n hn

/-- **C79**, SBP: periods within 5 % are heard by the receiver of the documentation, polled 20 000 times per
second. -/
theorem C79_sbp_partial (t : Target) (tbl : PulseSpans)
    (htbl : sbpSpans t Mono.u32 20000 = some tbl) (conv : SbpCommand → K) (u : Nat) (hu : 0 < u) (phase pause : Nat)
    (hg : Pause tbl 32 [0] (0, reading u 20000 phase pause + 1))
    (items : List ((BitVec 16 × BitVec 20 × List (Nat × Nat)) × (Nat × Nat)))
    (hok : ∀ i ∈ items, NearPeriods u 5 (sbpPeriods i.1.1 i.1.2.1) i.1.2.2 ∧
      16000 * u ≤ 1000000 * (i.2.1 + i.2.2) ∧ (i.2.1 + i.2.2) * 20000 + u < 2 ^ 32 * u)
    (hmin : ∀ e ∈ series (fun i : BitVec 16 × BitVec 20 × List (Nat × Nat) => i.2.2) items, u ≤ e.2 * 20000)
    (hmax : ∀ e ∈ series (fun i : BitVec 16 × BitVec 20 × List (Nat × Nat) => i.2.2) items,
      e.2 * 20000 / u + 1 < 2 ^ 32)
    (n : Nat) (hn : reading u 20000 phase (duration ((true, pause) :: series (fun i => i.2.2) items)) < n) :
    (pollRun (sbpDecoder t Mono.u32 tbl) conv
        (polled u 20000 phase ((true, pause) :: series (fun i => i.2.2) items) n)).map said =
      some (oks (items.map fun i => conv (SbpCommand.unpack i.1.1 (i.1.2.1.setWidth 32)))) := by
  have hc : coversAll tbl 20000 5 sbpLengths = true := by
    rw [sbpSpans_eq (.inl rfl) t (by decide), Option.some.injEq] at htbl
    subst htbl
    decide
  exact C78_sbp_polled t 20000 5 (by decide) (by decide) tbl htbl hc conv u hu phase pause hg items hok hmin hmax n hn

/-- **C79**, Denon (first 47 bits): periods within 1 % are heard by the receiver of the documentation, polled 20 000 times per
second. -/
theorem C79_denon_partial (t : Target) (tbl : PulseSpans)
    (htbl : denonSpans t Mono.u32 20000 = some tbl) (conv : DenonCommand → K) (u : Nat) (hu : 0 < u)
    (phase pause : Nat) (hg : Pause tbl 32 [0] (0, reading u 20000 phase pause + 1))
    (items : List ((BitVec 48 × List (Nat × Nat)) × (Nat × Nat)))
    (hok : ∀ i ∈ items, NearPeriods u 1 (denonPeriods i.1.1) i.1.2 ∧
      16000 * u ≤ 1000000 * (i.2.1 + i.2.2) ∧ (i.2.1 + i.2.2) * 20000 + u < 2 ^ 32 * u)
    (hmin : ∀ e ∈ series (fun i : BitVec 48 × List (Nat × Nat) => i.2) items, u ≤ e.2 * 20000)
    (hmax : ∀ e ∈ series (fun i : BitVec 48 × List (Nat × Nat) => i.2) items, e.2 * 20000 / u + 1 < 2 ^ 32)
    (n : Nat) (hn : reading u 20000 phase (duration ((true, pause) :: series (fun i => i.2) items)) < n) :
    (pollRun (denonDecoder t Mono.u32 tbl) conv
        (polled u 20000 phase ((true, pause) :: series (fun i => i.2) items) n)).map said =
      some (oks (items.map fun i => conv { bits := (i.1.1.setWidth 47).setWidth 64 })) := by
  have hc : coversAll tbl 20000 1 denonLengths = true := by
    rw [denonSpans_eq (.inl rfl) t (by decide), Option.some.injEq] at htbl
    subst htbl
    decide
  exact C78_denon_polled t 20000 1 (by decide) (by decide) tbl htbl hc conv u hu phase pause hg items hok hmin hmax n hn

/-- **C79**, RC5: edges within 6 % are heard by the receiver of the documentation, polled 20 000 times per
second. -/
theorem C79_rc5_partial (t : Target) (hus : 16 ≤ t.usizeBits)
    (tbl : PulseSpans) (htbl : rc5Spans t Mono.u32 20000 = some tbl) (conv : Rc5Command → K) (u : Nat) (hu : 0 < u)
    (phase : Nat) (items : List (BitVec 14 × List (Bool × Nat) × Option Nat))
    (hok : ∀ i ∈ items, i.1.getLsbD 13 = true ∧
      ManchesterFrame (fun x n => Near u 6 (889 * n) x) (rc5Edges i.1) i.2.1)
    (hch : Changes false (items.flatMap fun i => withTail i.2.1 i.2.2))
    (hmin : ∀ e ∈ (items.flatMap fun i => withTail i.2.1 i.2.2).tail, u ≤ e.2 * 20000)
    (hmax : ∀ e ∈ items.flatMap fun i => withTail i.2.1 i.2.2, (e.2 * 20000 + phase) / u + 1 < 2 ^ 32)
    (n : Nat) (hn : reading u 20000 phase (duration (items.flatMap fun i => withTail i.2.1 i.2.2)) < n) :
    (pollRun (rc5Decoder t tbl) conv
        (polled u 20000 phase (items.flatMap fun i => withTail i.2.1 i.2.2) n)).map said =
      some (oks (items.map fun i => conv (Rc5Command.unpack (i.1.setWidth 16)))) := by
  have hc : coversAll tbl 20000 6 rc5Lengths = true := by
    rw [rc5Spans_eq (.inl rfl) t (by decide), Option.some.injEq] at htbl
    subst htbl
    decide
  exact C78_rc5_polled t hus 20000 6 (by decide) (by decide) tbl htbl hc conv u hu phase items hok hch hmin hmax n hn

/-! ## Non-vacuity -/

/-- Two NEC words 4 % slow and a repeat code, polled 20 000 times per second. -/
example (t : Target) (phase : Nat) (hp : phase < 1000000000) :
    (pollRun (necDecoder t Mono.u32 (necTable 20000) Infrared.nec) id
      (polled 1000000000 20000 phase ((true, 1000000) :: series NecItem.wire (slowNec 0xE31CFF00 0x00FF00FF))
        300000)).map said =
      some (oks [{ addr := 0x00, cmd := 0x1C, rep := false }, { addr := 0x00, cmd := 0x1C, rep := true },
        { addr := 0xFF, cmd := 0xFF, rep := false }]) := by
  have hr : reading 1000000000 20000 phase 1000000 = 20 := by unfold reading; omega
  refine C79_nec_partial t Infrared.nec (.inl rfl) _ (necSpans_standard (.inl rfl) t (by decide) _ rfl) id 1000000000
    (by decide) phase 1000000 ?_ _ ?_ (by decide +kernel) (by decide +kernel) 300000 ?_
  · rw [hr]
    refine ⟨by decide, ?_⟩
    intro j hj
    simp only [List.mem_cons, List.not_mem_nil, or_false] at hj
    rcases hj with rfl | rfl <;> rintro ⟨s, hs, ha, hb⟩ <;> cases hs
    · exact absurd ha (by decide +kernel)
    · exact absurd ha (by decide +kernel)
  · intro i hi
    simp only [slowNec, List.mem_cons, List.not_mem_nil, or_false] at hi
    rcases hi with rfl | rfl | rfl
    · exact ⟨nearPeriods_zip (by decide +kernel), by decide, by decide⟩
    · exact ⟨⟨by decide, by decide⟩, by decide, by decide⟩
    · exact ⟨nearPeriods_zip (by decide +kernel), by decide, by decide⟩
  · have hd : duration ((true, 1000000) :: series NecItem.wire (slowNec 0xE31CFF00 0x00FF00FF)) ≤ 11000000000 := by
      decide +kernel
    unfold reading
    omega

/-- An exact RC6 transmitter, in nanoseconds. -/
def nominalRc6 (cmd : Rc6Command) : List (Bool × Nat) :=
  (rc6Edges (cmd.addr ++ cmd.cmd) cmd.toggle).map fun e => (e.1, 1000 * (444 * e.2))

/-- One command twice, 90 ms apart. -/
def twiceRc6 : List (Rc6Command × List (Bool × Nat) × Option Nat) :=
  [(⟨70, 2, true⟩, (true, 5000000) :: (nominalRc6 ⟨70, 2, true⟩).tail, some 444000),
    (⟨70, 2, true⟩, (true, 90000000) :: (nominalRc6 ⟨70, 2, true⟩).tail, some 444000)]

/-- An exact RC6 transmission, twice, polled 20 000 times per second: nothing. -/
example (t : Target) (hus : 16 ≤ t.usizeBits) (phase : Nat) (hp : phase < 1000000000) :
    (pollRun (rc6Decoder t (rc6Table 20000)) id
      (polled 1000000000 20000 phase (twiceRc6.flatMap fun i => withTail i.2.1 i.2.2) 10000)).map said = some [] := by
  refine C79_rc6_deaf_polled t hus _ (rc6Spans_eq (.inl rfl) t (by decide)) id 1000000000 (by decide) phase twiceRc6
    (by simp [twiceRc6]) ?_ (by decide +kernel) (by decide +kernel) ?_ _ ?_
  · intro i hi
    have hfr : ∀ p, ManchesterFrame (fun x n => Near 1000000000 4 (444 * n) x)
        (rc6Edges ((70#8 : BitVec 8) ++ (2#8 : BitVec 8)) true) ((true, p) :: (nominalRc6 ⟨70, 2, true⟩).tail) := by
      intro p
      refine ⟨p, 0, _, _, rfl, rc6_split _ _, ?_⟩
      rw [nominalRc6]
      dsimp only
      rw [rc6_split]
      exact timed_scaled 1000 4 444 (fun n => by unfold Near; omega) _
    simp only [twiceRc6, List.mem_cons, List.not_mem_nil, or_false] at hi
    rcases hi with rfl | rfl
    · exact ⟨hfr _, by intro x hx; cases hx; constructor <;> decide⟩
    · exact ⟨hfr _, by intro x hx; cases hx; constructor <;> decide⟩
  · intro e he
    have h : ∀ e ∈ twiceRc6.flatMap fun i => withTail i.2.1 i.2.2, e.2 ≤ 90000000 := by decide +kernel
    have := h e he
    omega
  · have hd : duration (twiceRc6.flatMap fun i => withTail i.2.1 i.2.2) ≤ 200000000 := by decide +kernel
    unfold reading
    omega

/-- At 40 kHz the same receiver hears transmitters within 5 %. -/
example : coversRc6 (rc6Table 40000) 40000 5 = true := by decide

end Infrared
