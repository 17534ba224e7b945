import Verif.Lemmas.Rc6
import Verif.Lemmas.Tables
import Verif.Props.Timing

/-!
# C26, C27: the RC6 receiver
-/

namespace Infrared

open Spec

variable {K : Type}

/-- Levels of the last `n` data bits. -/
def rc6Tail (w : BitVec 16) : Nat → List Bool
  | 0 => []
  | n + 1 => w.getLsbD n :: (!w.getLsbD n) :: rc6Tail w n

/-- Edges up to the toggle bit, after the first one. -/
def rc6Head (mode : BitVec 3) (toggle : Bool) : List (Bool × Nat) :=
  (edgesFrom false 0 (List.replicate 6 true ++ List.replicate 2 false ++ [true, false] ++
    ((List.range 3).flatMap fun i => [mode.getLsbD (2 - i), !mode.getLsbD (2 - i)]) ++
    [toggle, toggle, !toggle, !toggle])).tail

/-- The last mode bit is zero. -/
def Spec.EvenMode (mode : BitVec 3) : Prop := mode = 0 ∨ mode = 2 ∨ mode = 4 ∨ mode = 6

theorem rc6Edges_eq (mode : BitVec 3) (hm : EvenMode mode) (w : BitVec 16) (toggle : Bool) :
    rc6EdgesMode mode w toggle =
      (true, 0) :: (rc6Head mode toggle ++ edgesFrom (!toggle) 2 (rc6Tail w 16)) := by
  rcases hm with rfl | rfl | rfl | rfl <;> cases toggle <;> rfl

theorem edgesFrom_bit2 (prev b : Bool) (c : Nat) (ls : List Bool) :
    edgesFrom prev c (b :: (!b) :: ls) =
      if b = prev then (!b, c + 1) :: edgesFrom (!b) 1 ls
      else (b, c) :: (!b, 1) :: edgesFrom (!b) 1 ls := by
  cases b <;> cases prev <;> simp [edgesFrom]

theorem rc6_tail_len (w : BitVec 16) (n : Nat) (prev : Bool) (c : Nat) (hc : c = 1 ∨ c = 2) :
    ∀ e ∈ edgesFrom prev c (rc6Tail w n), e.2 = 1 ∨ e.2 = 2 ∨ e.2 = 3 := by
  induction n generalizing prev c with
  | zero => simp [rc6Tail, edgesFrom]
  | succ n ih =>
    rw [rc6Tail, edgesFrom_bit2]
    have := ih (!w.getLsbD n) 1 (.inl rfl)
    split
    · intro e he
      simp only [List.mem_cons] at he
      rcases he with rfl | he
      · simp; omega
      · exact this e he
    · intro e he
      simp only [List.mem_cons] at he
      rcases he with rfl | rfl | he
      · simp; omega
      · exact .inl rfl
      · exact this e he

theorem rc6_edges_len (w : BitVec 16) (toggle : Bool) :
    ∀ e ∈ rc6Head 0 toggle ++ edgesFrom (!toggle) 2 (rc6Tail w 16),
      e.2 = 1 ∨ e.2 = 2 ∨ e.2 = 3 ∨ e.2 = 6 := by
  intro e he
  rcases List.mem_append.mp he with he | he
  · have : ∀ e ∈ rc6Head 0 toggle, e.2 = 1 ∨ e.2 = 2 ∨ e.2 = 3 ∨ e.2 = 6 := by
      cases toggle <;> decide
    exact this e he
  · rcases rc6_tail_len w 16 (!toggle) 2 (.inr rfl) e he with h | h | h <;> simp [h]

theorem rc6_tail_pos (w : BitVec 16) (n : Nat) (prev : Bool) (c : Nat) :
    ∃ L, (edgesFrom prev c (rc6Tail w (n + 1))).length = L + 1 := by
  rw [rc6Tail, edgesFrom_bit2]
  split
  · exact ⟨_, rfl⟩
  · exact ⟨_, rfl⟩

/-- The last `n + 1` data bits, from the abstract decoder's point of view. -/
theorem rc6_abs_bits (w : BitVec 16) (tg : Bool) (n : Nat) (hn : n ≤ 15) (prev : Bool) (c : Nat)
    (o : Bool) (hco : c = 1 ∧ o = true ∨ c = 2 ∧ o = false) (buf W : BitVec 16)
    (hW : ∀ i, W.getLsbD i = (buf.getLsbD i || (decide (i ≤ n) && w.getLsbD i))) :
    runTotal Abs6.step ⟨.data n, buf, tg, o⟩
      ((edgesFrom prev c (rc6Tail w (n + 1))).map fun e => (e.1, some e.2)) =
    (Abs6.start tg, List.replicate ((edgesFrom prev c (rc6Tail w (n + 1))).length - 1) (.ok none) ++
      [.ok (some (Rc6Command.fromBits W tg))]) := by
  induction n generalizing prev buf c o with
  | zero =>
    have hfin : ∀ b : Bool, b = w.getLsbD 0 →
        (if b then buf ||| (1 : BitVec 16) <<< 0 else buf) = W := by
      rintro b rfl
      apply BitVec.eq_of_getLsbD_eq
      intro i hi
      rw [hW]
      cases hb : w.getLsbD 0
      · by_cases h0 : i = 0
        · subst h0; rw [hb]; simp
        · simp [h0]
      · rw [if_pos rfl, getLsbD_or_shl _ _ _ _ (by decide)]
        by_cases h0 : i = 0
        · subst h0; simp [hb]
        · simp [h0]
    have h1 := hfin _ rfl
    rw [rc6Tail, edgesFrom_bit2]
    generalize w.getLsbD 0 = b at h1
    subst h1
    rcases hco with ⟨rfl, rfl⟩ | ⟨rfl, rfl⟩ <;> cases b <;> cases prev <;> rfl
  | succ n ih =>
    rw [rc6Tail, edgesFrom_bit2]
    have ih' := fun (b : Bool) (hb : b = w.getLsbD (n + 1)) => ih (by omega) (!b) 1 true
      (.inl ⟨rfl, rfl⟩)
      (if b then buf ||| (1 : BitVec 16) <<< (n + 1) else buf) (by
        intro i
        rw [hW]
        subst hb
        cases hb : w.getLsbD (n + 1)
        · by_cases h0 : i = n + 1
          · subst h0; simp [hb]
          · have : (i ≤ n + 1) ↔ (i ≤ n) := by omega
            simp [this]
        · rw [if_pos rfl, getLsbD_or_shl _ _ _ _ (by omega)]
          by_cases h0 : i = n + 1
          · subst h0; simp [hb]
          · have : (i ≤ n + 1) ↔ (i ≤ n) := by omega
            simp [this, h0])
    generalize w.getLsbD (n + 1) = b at ih' ⊢
    have ih'' := ih' b rfl
    obtain ⟨L, hL⟩ := rc6_tail_pos w n (!b) 1
    rw [hL, Nat.add_sub_cancel] at ih''
    have s2 : ∀ m, xor o (m % 2 == 1) = true →
        Abs6.step ⟨.data (n + 1), buf, tg, o⟩ (!b, some m) =
        (⟨.data n, if b then buf ||| (1 : BitVec 16) <<< (n + 1) else buf, tg, true⟩, .ok none) := by
      intro m hm
      simp only [Abs6.step, hm, if_true, Nat.add_sub_cancel]
      cases b <;> rfl
    by_cases hbp : b = prev
    · subst hbp
      rw [if_pos rfl]
      simp only [List.map_cons, runTotal, List.length_cons, hL]
      rw [s2 (c + 1) (by rcases hco with ⟨rfl, rfl⟩ | ⟨rfl, rfl⟩ <;> rfl), ih'']
      rfl
    · rw [if_neg hbp]
      simp only [List.map_cons, runTotal, List.length_cons, hL]
      have s1 : Abs6.step ⟨.data (n + 1), buf, tg, o⟩ (b, some c) =
          (⟨.data (n + 1), buf, tg, false⟩, .ok none) := by
        rcases hco with ⟨rfl, rfl⟩ | ⟨rfl, rfl⟩ <;> rfl
      have s3 : Abs6.step ⟨.data (n + 1), buf, tg, false⟩ (!b, some 1) =
          (⟨.data n, if b then buf ||| (1 : BitVec 16) <<< (n + 1) else buf, tg, true⟩,
            .ok none) := by
        cases b <;> rfl
      rw [s1, s3, ih'']
      rfl

/-- The whole frame, from an idle abstract decoder. -/
theorem rc6_abs_frame (tbl : PulseSpans) (mode : BitVec 3) (hm : EvenMode mode) (w : BitVec 16)
    (toggle tg odd : Bool) (evs : List Ev)
    (h : ManchesterFrame (HalfBits tbl) (rc6EdgesMode mode w toggle) evs) :
    runTotal Abs6.step ⟨.idle, 0, tg, odd⟩ (evs.map (measure tbl)) =
      (Abs6.start toggle, List.replicate (evs.length - 1) (.ok none) ++
        [.ok (some (Rc6Command.fromBits w toggle))]) := by
  obtain ⟨pause, n, evs', edges', rfl, he, ht⟩ := h
  rw [rc6Edges_eq mode hm] at he
  simp only [List.cons.injEq, Prod.mk.injEq, true_and] at he
  obtain ⟨-, rfl⟩ := he
  have hl := Timed.length ht
  rw [timed_iff] at ht
  have hstart : Abs6.step ⟨.idle, 0, tg, odd⟩ (measure tbl (true, pause)) =
      (⟨.leading, 0, tg, false⟩, .ok none) := by
    unfold Abs6.step measure
    rcases tbl.half pause with _ | k
    · rfl
    · simp [Abs6.idleStep]
  have hhead : runTotal Abs6.step ⟨.leading, 0, tg, false⟩
      ((rc6Head mode toggle).map fun e => (e.1, some e.2)) =
      (⟨.data 15, 0, toggle, false⟩, List.replicate (rc6Head mode toggle).length (.ok none)) := by
    rcases hm with rfl | rfl | rfl | rfl <;> cases toggle <;> rfl
  have hb := rc6_abs_bits w toggle 15 (by decide) (!toggle) 2 false (.inr ⟨rfl, rfl⟩) 0 w (by
    intro i
    by_cases h1 : i ≤ 15
    · simp [h1]
    · simp [h1, BitVec.getLsbD_of_ge _ _ (show 16 ≤ i by omega)])
  obtain ⟨L, hL⟩ := rc6_tail_pos w 15 (!toggle) 2
  rw [hL] at hb
  simp only [List.map_cons, runTotal, hstart, ht, List.length_cons, Nat.add_sub_cancel,
    List.map_append, runTotal_append, hhead]
  rw [show rc6Tail w 16 = rc6Tail w (15 + 1) from rfl, hb, hl]
  simp only [List.length_append, hL, Nat.add_sub_cancel, Prod.mk.injEq, true_and]
  rw [← Nat.add_assoc, List.replicate_succ, ← List.append_assoc, List.replicate_append_replicate,
    List.cons_append]

/-- Core of **C26**, for any table and any even mode. -/
theorem rc6_frame (t : Target) (hus : 16 ≤ t.usizeBits) (tbl : PulseSpans)
    (hlen : tbl.spans.length ≤ 8) (conv : Rc6Command → K) (before : List Ev) (o : List (Res K))
    (r : Receiver (rc6Decoder t tbl))
    (hreach : (Receiver.new (rc6Decoder t tbl)).run _ conv before = some (r, o))
    (hidle : Rc6Decoder.state r.decoder = .idle) (mode : BitVec 3) (hm : EvenMode mode)
    (w : BitVec 16) (toggle : Bool) (evs : List Ev)
    (hsafe : t.overflowChecks = false ∨ 8 * (before.length + evs.length) < 2 ^ t.usizeBits)
    (h : ManchesterFrame (HalfBits tbl) (rc6EdgesMode mode w toggle) evs) :
    ∃ r', r.run _ conv evs = some (r', List.replicate (evs.length - 1) (.ok none) ++
        [.ok (some (conv (Rc6Command.fromBits w toggle)))]) ∧
      Rc6Decoder.state r'.decoder = .idle := by
  obtain ⟨o', hrun, -⟩ := Receiver.run_inv (D := rc6Decoder t tbl) hreach
  have hrun' : runStep (rc6Fn t tbl) rc6Init before = some (r.decoder, o') := hrun
  obtain ⟨hsim, -⟩ := rc6_run_sim t tbl hus hlen sim6_init hrun'
  have hclk : t.overflowChecks = false ∨
      Rc6Decoder.clock r.decoder + 8 * evs.length < 2 ^ t.usizeBits := by
    rcases hsafe with hs | hs
    · exact .inl hs
    · obtain ⟨d', h1, -, h2⟩ := rc6_run_ex t tbl hus hlen sim6_init before
        (.inr (by simp only [rc6Init]; omega))
      have h3 : d' = r.decoder := congrArg Prod.fst (Option.some.inj (h1.symm.trans hrun'))
      subst h3
      rcases h2 with h2 | h2
      · simp only [rc6Init] at h2; exact .inr (by omega)
      · exact .inl h2
  generalize (runTotal Abs6.step (Abs6.start false) (before.map (measure tbl))).1 = p at hsim
  obtain ⟨ast, ab, atg, ao⟩ := p
  have ha : ast = .idle ∧ ab = 0 := by
    have h1 := hsim.st
    have h2 := hsim.zero
    rw [hidle] at h1
    cases ast with
    | idle => exact ⟨rfl, h2 (by simp)⟩
    | header k => exact absurd h1.2 (by simp)
    | data k => exact absurd h1.2 (by simp)
    | leading => cases h1
    | pause => cases h1
    | trailing => cases h1
  obtain ⟨rfl, rfl⟩ := ha
  obtain ⟨d', h1, h2, -⟩ := rc6_run_ex t tbl hus hlen hsim evs hclk
  rw [rc6_abs_frame tbl mode hm w toggle atg ao evs h] at h1 h2
  refine ⟨{ r with decoder := d' }, (Receiver.run_of (D := rc6Decoder t tbl) conv h1).trans ?_, h2.st⟩
  simp [Res.map]

/-- A duration within tolerance of `n` RC6 units and, for the leader, not also within tolerance
of five. -/
def Spec.WithinRc6 (tbl : PulseSpans) (d n : Nat) : Prop :=
  Within tbl d n ∧ (n = 6 → ¬ Within tbl d 5)

theorem rc6_fromBits (addr cmd : BitVec 8) (toggle : Bool) :
    Rc6Command.fromBits (addr ++ cmd) toggle = { addr, cmd, toggle } := by
  unfold Rc6Command.fromBits
  simp only [Rc6Command.mk.injEq, and_true]
  constructor
  · apply BitVec.eq_of_getLsbD_eq
    intro i hi
    rw [BitVec.getLsbD_setWidth, BitVec.getLsbD_ushiftRight, BitVec.getLsbD_append]
    simp [hi]
  · apply BitVec.eq_of_getLsbD_eq
    intro i hi
    rw [BitVec.getLsbD_setWidth, BitVec.getLsbD_and, BitVec.getLsbD_append]
    have : (0xFF#16).getLsbD i = true := by
      have : ∀ i < 8, (0xFF#16).getLsbD i = true := by decide
      exact this i hi
    simp [hi, this]

theorem rc6_fromBits_append (c : Rc6Command) :
    Rc6Command.fromBits (c.addr ++ c.cmd) c.toggle = c := rc6_fromBits _ _ _

/-- **C26**: whatever an RC6 receiver of at least 20 kHz received before, if it is idle it decodes
every mode 0 transmission whose durations are within tolerance (the leader not being short enough
to be taken for five units): nothing until the last edge, then exactly the command.  With overflow
checks the half-bit clock must not have overflowed (C30). -/
theorem C26_rc6_frame_decoded (t : Target) (hus : 16 ≤ t.usizeBits) (m : Mono)
    (hm : m = Mono.u32 ∨ m = Mono.u64) (f : Nat) (hlo : 20000 ≤ f) (hf : f < 2 ^ 32)
    (tbl : PulseSpans) (htbl : rc6Spans t m f = some tbl) (conv : Rc6Command → K)
    (before : List Ev) (o : List (Res K)) (r : Receiver (rc6Decoder t tbl))
    (hreach : (Receiver.new (rc6Decoder t tbl)).run _ conv before = some (r, o))
    (hidle : Rc6Decoder.state r.decoder = .idle) (addr cmd : BitVec 8) (toggle : Bool)
    (evs : List Ev)
    (hsafe : t.overflowChecks = false ∨ 8 * (before.length + evs.length) < 2 ^ t.usizeBits)
    (h : ManchesterFrame (WithinRc6 tbl) (rc6Edges (addr ++ cmd) toggle) evs) :
    ∃ r', r.run _ conv evs = some (r', List.replicate (evs.length - 1) (.ok none) ++
        [.ok (some (conv { addr, cmd, toggle }))]) ∧
      Rc6Decoder.state r'.decoder = .idle := by
  have hcmd := rc6_fromBits addr cmd toggle
  rw [← hcmd]
  obtain ⟨hu, -, h6⟩ := C15_rc6_classification_partial f hlo hf t m hm tbl htbl
  have hlen : tbl.spans.length ≤ 8 := by
    rw [rc6Spans_eq hm t hf, Option.some.injEq] at htbl
    subst htbl; simp [rc6Table]
  refine rc6_frame t hus _ hlen conv before o r hreach hidle 0 (.inl rfl) _ toggle evs hsafe ?_
  obtain ⟨pause, n, evs', edges', rfl, he, ht⟩ := h
  refine ⟨pause, n, evs', edges', rfl, he, Timed.imp ht ?_⟩
  rintro d e hmem ⟨hin, h5⟩
  rw [rc6Edges, rc6Edges_eq 0 (.inl rfl)] at he
  simp only [List.cons.injEq, Prod.mk.injEq, true_and] at he
  obtain ⟨-, rfl⟩ := he
  rw [halfBits_iff, PulseSpans.half]
  rcases rc6_edges_len (addr ++ cmd) toggle e hmem with h1 | h1 | h1 | h1 <;> rw [h1] at hin h5 ⊢
  · rw [inTol_get hu (by decide) hin]; rfl
  · rw [inTol_get hu (by decide) hin]; rfl
  · rw [inTol_get hu (by decide) hin]; rfl
  · have h5' := h5 rfl
    rw [rc6Spans_eq hm t hf, Option.some.injEq] at htbl
    subst htbl
    obtain ⟨s, hs, hs1, hs2⟩ := hin
    obtain ⟨s5, hs5⟩ : ∃ s5, (rc6Table f).spans[4]? = some s5 := ⟨_, rfl⟩
    rw [(h6 d).mpr ⟨s, s5, hs, hs5, ?_, hs1, hs2⟩]
    · rfl
    · refine Nat.lt_of_not_le fun hle => h5' ⟨s5, hs5, ?_, hle⟩
      refine Nat.le_trans ?_ hs1
      cases hs; cases hs5
      have g4 := scaleVal_le 2220 f
      have g5' := scaleVal_ge f (l := 2664) (by decide)
      simp only [spanOf]
      omega

/-- The nominal transmission in µs, after a pause of 100 ms. -/
def Spec.nominalRc6 (mode : BitVec 3) (w : BitVec 16) (toggle : Bool) : List Ev :=
  match rc6EdgesMode mode w toggle with
  | [] => []
  | e :: es => (e.1, 100000) :: es.map fun x => (x.1, 444 * x.2)

theorem nominalRc6_frame (w : BitVec 16) (toggle : Bool) :
    ManchesterFrame (WithinRc6 (rc6Table 1000000)) (rc6Edges w toggle) (nominalRc6 0 w toggle) := by
  unfold nominalRc6 rc6Edges
  rw [rc6Edges_eq 0 (.inl rfl)]
  refine ⟨100000, 0, _, _, rfl, rfl, ?_⟩
  have hl := rc6_edges_len w toggle
  generalize rc6Head 0 toggle ++ edgesFrom (!toggle) 2 (rc6Tail w 16) = es at hl
  induction es with
  | nil => trivial
  | cons e es ih =>
    refine ⟨rfl, ?_, ih fun x hx => hl x (by simp [hx])⟩
    rcases hl e (by simp) with h | h | h | h <;> dsimp only <;> rw [h]
    · exact ⟨⟨_, rfl, by decide⟩, by simp⟩
    · exact ⟨⟨_, rfl, by decide⟩, by simp⟩
    · exact ⟨⟨_, rfl, by decide⟩, by simp⟩
    · refine ⟨⟨_, rfl, by decide⟩, fun _ => ?_⟩
      rintro ⟨s, hs, h1⟩
      cases hs
      revert h1
      decide

/-- Non-vacuity: address 70, command 2, toggle set, at 1 MHz on a 16-bit target. -/
example (b : Bool) : ∃ r', (Receiver.new (rc6Decoder ⟨b, 16⟩ (rc6Table 1000000))).run _ id
      (nominalRc6 0 (70#8 ++ 2#8) true) =
    some (r', List.replicate ((nominalRc6 0 (70#8 ++ 2#8) true).length - 1) (.ok none) ++
      [.ok (some { addr := 70, cmd := 2, toggle := true })]) ∧
    Rc6Decoder.state r'.decoder = .idle :=
  C26_rc6_frame_decoded ⟨b, 16⟩ (Nat.le_refl 16) Mono.u32 (.inl rfl) 1000000 (by decide) (by decide)
    _ (rc6Spans_eq (.inl rfl) _ (by decide)) id [] [] _ rfl rfl 70 2 true _
    (.inr (show 8 * (0 + (nominalRc6 0 (70#8 ++ 2#8) true).length) < 2 ^ 16 by decide))
    (nominalRc6_frame _ _)

/-- Why the leader is restricted in C26: at 1 MHz a leader of 2450 µs is within 12 % of six units,
but a frame with such a leader is dropped. -/
theorem C26_rc6_short_leader_dropped :
    ∃ evs : List Ev, ManchesterFrame (Within (rc6Table 1000000)) (rc6Edges 0x4602 true) evs ∧
      ∃ outs, results (rc6Decoder ⟨true, 32⟩ (rc6Table 1000000)) id evs = some outs ∧
        ∀ x ∈ outs, x = .ok none := by
  refine ⟨(nominalRc6 0 0x4602 true).set 1 (false, 2450), ?_, ?_⟩
  · refine ⟨100000, 0, _, _, rfl, rfl, ?_⟩
    repeat' first | exact True.intro | refine ⟨rfl, ⟨_, rfl, by decide⟩, ?_⟩
  · refine ⟨List.replicate (nominalRc6 0 0x4602 true).length (.ok none), rfl, ?_⟩
    intro x hx
    exact (List.mem_replicate.mp hx).2

/-! ## C27 -/

/-- The history ends with an RC6 transmission: rising edge; leader of six and pause of two units;
edges of the header of which four fall on odd half-bit positions; possibly falling edges of one
unit; the toggle edge; and data edges of which 16 fall on odd half-bit positions, `bits` saying
which of those are falling. -/
def Spec.EndsWithRc6 (tbl : PulseSpans) (bits : List Bool) (toggle : Bool) (h : List Ev) : Prop :=
  ∃ pre pause body hdr k data, h = pre ++ (true, pause) :: body ∧
    Timed (HalfBits tbl) body ((false, 6) :: (true, 2) :: (hdr ++ List.replicate k (false, 1) ++
      (if toggle then (false, 3) else (true, 2)) :: data)) ∧
    (sampled 1 8 hdr).length = 4 ∧ total hdr % 2 = 1 ∧
    sampled 1 (8 + total (hdr ++ List.replicate k (false, 1) ++
      [if toggle then (false, 3) else (true, 2)])) data = bits.map (!·) ∧
    bits.length = 16 ∧ data ≠ []

/-- What the abstract state says about the history. -/
def Inv6 (tbl : PulseSpans) (h : List Ev) (a : Abs6) : Prop :=
  ((∀ n, a.st ≠ .data n) → a.data = 0) ∧
  match a.st with
  | .idle => True
  | .leading => a.odd = false ∧ ∃ pre pause, h = pre ++ [(true, pause)]
  | .pause => a.odd = false ∧ ∃ pre pause body, h = pre ++ (true, pause) :: body ∧
      Timed (HalfBits tbl) body [(false, 6)]
  | .header n => n ≤ 3 ∧ ∃ pre pause body hdr, h = pre ++ (true, pause) :: body ∧
      Timed (HalfBits tbl) body ((false, 6) :: (true, 2) :: hdr) ∧
      (sampled 1 8 hdr).length = 3 - n ∧ a.odd = ((8 + total hdr) % 2 == 1)
  | .trailing => ∃ pre pause body hdr k, h = pre ++ (true, pause) :: body ∧
      Timed (HalfBits tbl) body ((false, 6) :: (true, 2) :: (hdr ++ List.replicate k (false, 1))) ∧
      (sampled 1 8 hdr).length = 4 ∧ total hdr % 2 = 1 ∧
      a.odd = ((8 + total (hdr ++ List.replicate k (false, 1))) % 2 == 1)
  | .data n => n ≤ 15 ∧ ∃ pre pause body hdr k data, h = pre ++ (true, pause) :: body ∧
      Timed (HalfBits tbl) body ((false, 6) :: (true, 2) :: (hdr ++ List.replicate k (false, 1) ++
        (if a.toggle then (false, 3) else (true, 2)) :: data)) ∧
      (sampled 1 8 hdr).length = 4 ∧ total hdr % 2 = 1 ∧
      a.odd = ((8 + total (hdr ++ List.replicate k (false, 1) ++
        [if a.toggle then (false, 3) else (true, 2)] ++ data)) % 2 == 1) ∧
      (sampled 1 (8 + total (hdr ++ List.replicate k (false, 1) ++
        [if a.toggle then (false, 3) else (true, 2)])) data).length = 15 - n ∧
      ∀ i, a.data.getLsbD i = (decide (i ≤ 15) &&
        !(sampled 1 (8 + total (hdr ++ List.replicate k (false, 1) ++
          [if a.toggle then (false, 3) else (true, 2)])) data).getD (15 - i) true)

/-- Parity after one more edge. -/
theorem parity_step {o : Bool} {p n : Nat} (ho : o = (p % 2 == 1)) :
    xor o (n % 2 == 1) = ((p + n) % 2 == 1) := by
  rw [ho]
  rcases Nat.mod_two_eq_zero_or_one p with ha | ha <;>
    rcases Nat.mod_two_eq_zero_or_one n with hb | hb <;> simp [Nat.add_mod, ha, hb]

theorem total_single (b : Bool) (n : Nat) : total [(b, n)] = n := by simp [total]

theorem inv6_step (tbl : PulseSpans) {h : List Ev} {a : Abs6} (hi : Inv6 tbl h a) (e : Ev) :
    Inv6 tbl (h ++ [e]) (a.step (measure tbl e)).1 ∧
    (∀ x, (a.step (measure tbl e)).2 ≠ .error x) ∧
    ∀ c, (a.step (measure tbl e)).2 = .ok (some c) → ∃ bits toggle,
      c = Rc6Command.fromBits ((BitVec.ofBoolListBE bits).setWidth 16) toggle ∧
      EndsWithRc6 tbl bits toggle (h ++ [e]) := by
  obtain ⟨rising, dt⟩ := e
  obtain ⟨ast, ab, atg, ao⟩ := a
  rcases hh : tbl.half dt with _ | n
  · simp only [measure, hh, Abs6.step]
    cases rising
    · exact ⟨⟨fun _ => rfl, trivial⟩, by simp, by simp⟩
    · exact ⟨⟨fun _ => rfl, rfl, h, dt, rfl⟩, by simp, by simp⟩
  obtain ⟨hz, hi⟩ := hi
  simp only [measure, hh, Abs6.step]
  cases ast with
  | idle =>
    have hz' := hz (by simp)
    cases rising
    · exact ⟨⟨fun _ => hz', trivial⟩, by simp, by simp⟩
    · exact ⟨⟨fun _ => hz', rfl, h, dt, rfl⟩, by simp, by simp⟩
  | leading =>
    have hz' := hz (by simp)
    obtain ⟨ho, pre, pause, rfl⟩ := hi
    dsimp only at ho hz' ⊢
    subst ho
    by_cases hc : rising = false ∧ n = 6
    · obtain ⟨rfl, rfl⟩ := hc
      refine ⟨⟨fun _ => hz', rfl, pre, pause, [(false, dt)], by simp, ?_⟩, by simp, by simp⟩
      exact timed_snoc (e := (false, dt)) (evs := []) (ws := []) trivial hh
    · rw [if_neg hc]
      exact ⟨⟨fun _ => hz', trivial⟩, by simp, by simp⟩
  | pause =>
    have hz' := hz (by simp)
    obtain ⟨ho, pre, pause, body, rfl, ht⟩ := hi
    dsimp only at ho hz' ⊢
    subst ho
    by_cases hc : rising = true ∧ n = 2
    · obtain ⟨rfl, rfl⟩ := hc
      refine ⟨⟨fun _ => hz', by decide, pre, pause, body ++ [(true, dt)], [], by simp, ?_, rfl, rfl⟩,
        by simp, by simp⟩
      exact timed_snoc (e := (true, dt)) ht hh
    · rw [if_neg hc]
      exact ⟨⟨fun _ => hz', trivial⟩, by simp, by simp⟩
  | header k =>
    have hz' := hz (by simp)
    obtain ⟨hk, pre, pause, body, hdr, rfl, ht, hl, ho⟩ := hi
    dsimp only at ho hz' ⊢
    have ht' := timed_snoc (e := (rising, dt)) ht hh
    have heq : (pre ++ (true, pause) :: body) ++ [(rising, dt)] =
        pre ++ (true, pause) :: (body ++ [(rising, dt)]) := by simp
    have hsamp : sampled 1 8 (hdr ++ [(rising, n)]) =
        sampled 1 8 hdr ++ if (8 + total hdr + n) % 2 = 1 then [rising] else [] := by
      rw [sampled_append]; simp only [sampled]
    have htot : 8 + total (hdr ++ [(rising, n)]) = 8 + total hdr + n := by
      rw [total_append, total_single]; omega
    rw [parity_step ho]
    by_cases hp : (8 + total hdr + n) % 2 = 1
    · rw [if_pos hp] at hsamp
      have hp1 : ((8 + total hdr + n) % 2 == 1) = true := by rw [hp]; rfl
      simp only [hp1, if_true]
      by_cases hk0 : k = 0
      · subst hk0
        refine ⟨⟨fun _ => hz', pre, pause, body ++ [(rising, dt)], hdr ++ [(rising, n)], 0, heq, ?_,
          by rw [hsamp]; simp [hl], by omega, ?_⟩, by simp, by simp⟩
        · simpa using ht'
        · simp only [List.replicate_zero, List.append_nil, htot, hp1]
      · rw [if_neg hk0]
        refine ⟨⟨fun _ => hz', by omega, pre, pause, body ++ [(rising, dt)], hdr ++ [(rising, n)],
          heq, ht', ?_, by rw [htot, hp1]⟩, by simp, by simp⟩
        rw [hsamp]; simp [hl]; omega
    · rw [if_neg hp, List.append_nil] at hsamp
      have hp1 : ((8 + total hdr + n) % 2 == 1) = false := by simp [hp]
      simp only [hp1, Bool.false_eq_true, if_false]
      exact ⟨⟨fun _ => hz', hk, pre, pause, body ++ [(rising, dt)], hdr ++ [(rising, n)], heq, ht',
        by rw [hsamp]; exact hl, by rw [htot, hp1]⟩, by simp, by simp⟩
  | trailing =>
    have hz' := hz (by simp)
    obtain ⟨pre, pause, body, hdr, k, rfl, ht, hl, hod, ho⟩ := hi
    dsimp only at ho hz' ⊢
    have ht' := timed_snoc (e := (rising, dt)) ht hh
    have heq : (pre ++ (true, pause) :: body) ++ [(rising, dt)] =
        pre ++ (true, pause) :: (body ++ [(rising, dt)]) := by simp
    have hpar := parity_step (n := n) ho
    have htot : 8 + total (hdr ++ List.replicate k (false, 1) ++ [(rising, n)]) =
        8 + total (hdr ++ List.replicate k (false, 1)) + n := by
      rw [total_append _ [(rising, n)], total_single]; omega
    have hgoal : ∀ tg : Bool, (rising, n) = (if tg then (false, 3) else (true, 2)) →
        Inv6 tbl (pre ++ (true, pause) :: body ++ [(rising, dt)])
          ⟨.data 15, ab, tg, xor ao (n % 2 == 1)⟩ := by
      intro tg htg
      refine ⟨fun hne => absurd rfl (hne 15), by decide, pre, pause, body ++ [(rising, dt)], hdr, k,
        [], heq, ?_, hl, hod, ?_, rfl, ?_⟩
      · dsimp only
        rw [← htg]
        simpa using ht'
      · dsimp only
        rw [← htg, List.append_nil, htot, hpar]
      · intro i
        dsimp only
        rw [hz']
        simp [sampled]
    by_cases h3 : rising = false ∧ n = 3
    · rw [if_pos h3]
      refine ⟨hgoal true ?_, by simp, by simp⟩
      rw [h3.1, h3.2]; rfl
    rw [if_neg h3]
    by_cases h2 : rising = true ∧ n = 2
    · rw [if_pos h2]
      refine ⟨hgoal false ?_, by simp, by simp⟩
      rw [h2.1, h2.2]; rfl
    rw [if_neg h2]
    by_cases h1 : rising = false ∧ n = 1
    · rw [if_pos h1]
      obtain ⟨rfl, rfl⟩ := h1
      refine ⟨⟨fun _ => hz', pre, pause, body ++ [(false, dt)], hdr, k + 1, heq, ?_, hl, hod, ?_⟩,
        by simp, by simp⟩
      · rw [List.replicate_succ', ← List.append_assoc]
        exact ht'
      · rw [List.replicate_succ', ← List.append_assoc, htot]
        exact hpar
    · rw [if_neg h1]
      exact ⟨⟨fun _ => hz', trivial⟩, by simp, by simp⟩
  | data m =>
    obtain ⟨hm, pre, pause, body, hdr, k, data, rfl, ht, hl, hod, ho, hsl, hb⟩ := hi
    dsimp only at ho ht hsl hb ⊢
    have ht' := timed_snoc (e := (rising, dt)) ht hh
    have heq : (pre ++ (true, pause) :: body) ++ [(rising, dt)] =
        pre ++ (true, pause) :: (body ++ [(rising, dt)]) := by simp
    rw [total_append _ data, ← Nat.add_assoc] at ho
    generalize hpos : 8 + total (hdr ++ List.replicate k (false, 1) ++
        [if atg then (false, 3) else (true, 2)]) = pos at ho hsl hb
    have hsamp : sampled 1 pos (data ++ [(rising, n)]) =
        sampled 1 pos data ++ if (pos + total data + n) % 2 = 1 then [rising] else [] := by
      rw [sampled_append]; simp only [sampled]
    have htot : 8 + total (hdr ++ List.replicate k (false, 1) ++
        [if atg then (false, 3) else (true, 2)] ++ (data ++ [(rising, n)])) =
        pos + total data + n := by
      rw [total_append _ (data ++ _), total_append data, total_single]; omega
    have ht2 : Timed (HalfBits tbl) (body ++ [(rising, dt)]) ((false, 6) :: (true, 2) ::
        (hdr ++ List.replicate k (false, 1) ++
          (if atg then (false, 3) else (true, 2)) :: (data ++ [(rising, n)]))) := by
      simpa using ht'
    rw [parity_step ho]
    by_cases hp : (pos + total data + n) % 2 = 1
    · rw [if_pos hp] at hsamp
      have hp1 : ((pos + total data + n) % 2 == 1) = true := by rw [hp]; rfl
      simp only [hp1, if_true]
      have hlen' : (sampled 1 pos (data ++ [(rising, n)])).length = 15 - m + 1 := by
        rw [hsamp]; simp [hsl]
      have hbuf : ∀ i, (if rising then ab else ab ||| (1 : BitVec 16) <<< m).getLsbD i =
          (decide (i ≤ 15) && !(sampled 1 pos (data ++ [(rising, n)])).getD (15 - i) true) := by
        intro i
        have hgd : i ≤ 15 → (sampled 1 pos (data ++ [(rising, n)])).getD (15 - i) true =
            if i = m then rising else (sampled 1 pos data).getD (15 - i) true := by
          intro hi15
          rw [hsamp]
          simp only [List.getD_eq_getElem?_getD]
          by_cases hik : i = m
          · subst hik
            rw [if_pos rfl, List.getElem?_append_right (by omega), hsl]
            simp
          · rw [if_neg hik]
            by_cases hlt : 15 - i < 15 - m
            · rw [List.getElem?_append_left (by omega)]
            · rw [List.getElem?_eq_none (by simp [hsl]; omega),
                List.getElem?_eq_none (by rw [hsl]; omega)]
        cases rising
        · rw [if_neg (by simp), getLsbD_or_shl _ _ _ _ (by omega), hb]
          by_cases hi15 : i ≤ 15
          · rw [hgd hi15]
            by_cases hik : i = m
            · simp [hik, hm]
            · simp [hik]
          · have : i ≠ m := by omega
            simp [hi15, this]
        · rw [if_pos rfl, hb]
          by_cases hi15 : i ≤ 15
          · rw [hgd hi15]
            by_cases hik : i = m
            · subst hik
              rw [if_pos rfl, List.getD_eq_getElem?_getD,
                List.getElem?_eq_none (by rw [hsl]; exact Nat.le_refl _)]
              simp
            · rw [if_neg hik]
          · simp [hi15]
      by_cases hm0 : m = 0
      · subst hm0
        simp only [if_true]
        refine ⟨⟨fun _ => rfl, trivial⟩, by simp, ?_⟩
        intro c hc
        simp only [Except.ok.injEq, Option.some.injEq] at hc
        subst hc
        refine ⟨(sampled 1 pos (data ++ [(rising, n)])).map (!·), atg, ?_, pre, pause,
          body ++ [(rising, dt)], hdr, k, data ++ [(rising, n)], heq, ht2, hl, hod, ?_,
          by rw [List.length_map]; exact hlen', by simp⟩
        · congr 1
          apply BitVec.eq_of_getLsbD_eq
          intro i hi
          rw [hbuf, BitVec.getLsbD_setWidth, BitVec.getLsbD_ofBoolListBE]
          simp only [List.length_map, hlen']
          have h15 : i ≤ 15 := by omega
          have e1 : 15 - 0 + 1 - 1 - i = 15 - i := by omega
          rw [e1]
          have : 15 - i < (sampled 1 pos (data ++ [(rising, n)])).length := by omega
          simp only [h15, hi, decide_true, Bool.true_and, List.getD_eq_getElem?_getD,
            List.getElem?_map, List.getElem?_eq_getElem this, Option.map_some, Option.getD_some]
        · rw [hpos, List.map_map]
          simp [Function.comp_def]
      · simp only [if_neg hm0]
        refine ⟨⟨fun hne => absurd rfl (hne _), by omega, pre, pause, body ++ [(rising, dt)], hdr, k,
          data ++ [(rising, n)], heq, ht2, hl, hod, ?_, ?_, ?_⟩, by simp, by simp⟩
        · dsimp only; rw [htot, hp1]
        · dsimp only; rw [hpos, hlen']; omega
        · dsimp only; rw [hpos]; exact hbuf
    · rw [if_neg hp, List.append_nil] at hsamp
      have hp1 : ((pos + total data + n) % 2 == 1) = false := by simp [hp]
      simp only [hp1, Bool.false_eq_true, if_false]
      refine ⟨⟨fun hne => absurd rfl (hne _), hm, pre, pause, body ++ [(rising, dt)], hdr, k,
        data ++ [(rising, n)], heq, ht2, hl, hod, ?_, ?_, ?_⟩, by simp, by simp⟩
      · dsimp only; rw [htot, hp1]
      · dsimp only; rw [hpos, hsamp, hsl]
      · dsimp only; rw [hpos, hsamp]; exact hb

theorem inv6_run (tbl : PulseSpans) (evs : List Ev) :
    Inv6 tbl evs (runTotal Abs6.step (Abs6.start false) (evs.map (measure tbl))).1 := by
  have key : ∀ (l h : List Ev) (a : Abs6), Inv6 tbl h a →
      Inv6 tbl (h ++ l) (runTotal Abs6.step a (l.map (measure tbl))).1 := by
    intro l
    induction l with
    | nil => intro h a hi; simpa [runTotal] using hi
    | cons e es ih =>
      intro h a hi
      have := ih (h ++ [e]) _ (inv6_step tbl hi e).1
      simpa [runTotal] using this
  simpa using key evs [] (Abs6.start false) ⟨fun _ => rfl, trivial⟩

/-- **C27**: if an RC6 receiver returns a command, the history up to that edge ends with leader,
pause, four header bits, toggle bit and 16 data bits, and the command consists of those data bits
and that toggle bit. -/
theorem C27_rc6_sound (t : Target) (hus : 16 ≤ t.usizeBits) (tbl : PulseSpans)
    (hlen : tbl.spans.length ≤ 8) (conv : Rc6Command → K) (evs : List Ev) (outs : List (Res K))
    (h : results (rc6Decoder t tbl) conv evs = some outs) (i : Nat) (k : K)
    (hk : outs[i]? = some (.ok (some k))) :
    ∃ bits toggle,
      k = conv (Rc6Command.fromBits ((BitVec.ofBoolListBE bits).setWidth 16) toggle) ∧
      EndsWithRc6 tbl bits toggle (evs.take (i + 1)) := by
  obtain ⟨s, o, hrun, rfl⟩ := rc6_results_inv t tbl h
  rw [List.getElem?_map] at hk
  rcases ho : o[i]? with _ | x
  · simp [ho] at hk
  rw [ho] at hk
  simp only [Option.map_some, Option.some.injEq] at hk
  rcases x with _ | _ | c
  · simp [Res.map] at hk
  · simp [Res.map] at hk
  obtain ⟨e, s1, o1, s1', -, h1, h2, h3, -, -⟩ := run_get hrun ho
  obtain ⟨hs, -⟩ := rc6_run_sim t tbl hus hlen sim6_init h1
  obtain ⟨-, hr⟩ := rc6_sim t tbl hus hlen hs h2
  obtain ⟨-, -, h4⟩ := inv6_step tbl (inv6_run tbl (evs.take i)) e
  obtain ⟨bits, toggle, hc, h5⟩ := h4 c hr.symm
  rw [h3]
  refine ⟨bits, toggle, ?_, h5⟩
  rw [← hc]
  simpa [Res.map] using hk.symm

/-- The stronger claim that only mode 0 frames are accepted is false: frames of mode 2, 4 and 6
are decoded exactly as the mode 0 frame with the same address, command and toggle bit. -/
theorem C27_rc6_mode_ignored (t : Target) (hus : 16 ≤ t.usizeBits) (tbl : PulseSpans)
    (hlen : tbl.spans.length ≤ 8) (mode : BitVec 3) (hm : EvenMode mode) (w : BitVec 16)
    (toggle : Bool) (evs : List Ev)
    (hsafe : t.overflowChecks = false ∨ 8 * evs.length < 2 ^ t.usizeBits)
    (h : ManchesterFrame (HalfBits tbl) (rc6EdgesMode mode w toggle) evs) :
    results (rc6Decoder t tbl) id evs = some (List.replicate (evs.length - 1) (.ok none) ++
      [.ok (some (Rc6Command.fromBits w toggle))]) := by
  obtain ⟨d', h1, -, -⟩ := rc6_run_ex t tbl hus hlen sim6_init evs (by
    rcases hsafe with hs | hs
    · exact .inl hs
    · exact .inr (by simp only [rc6Init]; omega))
  rw [show Abs6.start false = ⟨.idle, 0, false, false⟩ from rfl,
    rc6_abs_frame tbl mode hm w toggle false false evs h] at h1
  refine (results_of (D := rc6Decoder t tbl) id h1).trans ?_
  simp [Res.map]

/-- Non-vacuity of C27 and of the previous theorem: a mode 6 frame preceded by noise. -/
example : (results (rc6Decoder ⟨true, 32⟩ (rc6Table 1000000)) id
    ((true, 5) :: (false, 444) :: nominalRc6 6 0x4602 true)).bind (fun o => o.getLast?) =
    some (.ok (some { addr := 0x46, cmd := 2, toggle := true })) := rfl

end Infrared
