import Verif.Lemmas.Rc5
import Verif.Lemmas.Tables

/-!
# C24, C25: the RC5 receiver
-/

namespace Infrared

open Spec

variable {K : Type}

/-- Levels of the last `n` bits. -/
def rc5Tail (w : BitVec 14) : Nat → List Bool
  | 0 => []
  | n + 1 => (!w.getLsbD n) :: w.getLsbD n :: rc5Tail w n

theorem rc5Levels_eq (w : BitVec 14) : rc5Levels w = rc5Tail w 14 := rfl

theorem rc5Edges_eq (w : BitVec 14) (hw : w.getLsbD 13 = true) :
    rc5Edges w = (true, 1) :: edgesFrom true 1 (rc5Tail w 13) := by
  unfold rc5Edges
  rw [rc5Levels_eq, show rc5Tail w 14 = (!w.getLsbD 13) :: w.getLsbD 13 :: rc5Tail w 13 from rfl, hw]
  simp [edgesFrom]

theorem rc5_edges_len (w : BitVec 14) (n : Nat) (prev : Bool) :
    ∀ e ∈ edgesFrom prev 1 (rc5Tail w n), e.2 = 1 ∨ e.2 = 2 := by
  induction n generalizing prev with
  | zero => simp [rc5Tail, edgesFrom]
  | succ n ih =>
    rw [rc5Tail, edgesFrom_bit]
    split
    · intro e he
      simp only [List.mem_cons] at he
      rcases he with rfl | rfl | he
      · exact .inl rfl
      · exact .inl rfl
      · exact ih _ e he
    · intro e he
      simp only [List.mem_cons] at he
      rcases he with rfl | he
      · exact .inr rfl
      · exact ih _ e he

/-- The last `n + 1` bits, from the abstract decoder's point of view. -/
theorem rc5_abs_bits (w : BitVec 14) (n : Nat) (hn : n ≤ 12) (prev : Bool) (buf W : BitVec 16)
    (hW : ∀ i, W.getLsbD i = (buf.getLsbD i || (decide (i ≤ n) && w.getLsbD i))) :
    runTotal Abs5.step ⟨some n, buf, false⟩
      ((edgesFrom prev 1 (rc5Tail w (n + 1))).map fun e => (e.1, some e.2)) =
    (Abs5.init, List.replicate ((edgesFrom prev 1 (rc5Tail w (n + 1))).length - 1) (.ok none) ++
      [.ok (some (Rc5Command.unpack W))]) := by
  induction n generalizing prev buf with
  | zero =>
    have hfin : ∀ b : Bool, b = w.getLsbD 0 →
        (if b then buf ||| (1 : BitVec 16) <<< 0 else buf) = W := by
      rintro b rfl
      apply BitVec.eq_of_getLsbD_eq
      intro i hi
      rw [hW]
      cases hb : w.getLsbD 0
      · by_cases h0 : i = 0
        · subst h0; rw [hb]; simp
        · simp [h0]
      · rw [if_pos rfl, getLsbD_or_shl _ _ _ _ (by decide)]
        by_cases h0 : i = 0
        · subst h0; simp [hb]
        · simp [h0]
    have h1 := hfin _ rfl
    rw [rc5Tail, edgesFrom_bit]
    generalize w.getLsbD 0 = b at h1
    subst h1
    cases b <;> cases prev <;> rfl
  | succ n ih =>
    rw [rc5Tail, edgesFrom_bit]
    have ih' := fun (b : Bool) (hb : b = w.getLsbD (n + 1)) => ih (by omega) b
      (if b then buf ||| (1 : BitVec 16) <<< (n + 1) else buf) (by
        intro i
        rw [hW]
        subst hb
        cases hb : w.getLsbD (n + 1)
        · by_cases h0 : i = n + 1
          · subst h0; simp [hb]
          · have : (i ≤ n + 1) ↔ (i ≤ n) := by omega
            simp [this]
        · rw [if_pos rfl, getLsbD_or_shl _ _ _ _ (by omega)]
          by_cases h0 : i = n + 1
          · subst h0; simp [hb]
          · have : (i ≤ n + 1) ↔ (i ≤ n) := by omega
            simp [this, h0])
    have hpos : ∀ p, 0 < (edgesFrom p 1 (rc5Tail w (n + 1))).length := by
      intro p
      rw [rc5Tail, edgesFrom_bit]
      split <;> simp
    generalize w.getLsbD (n + 1) = b at ih' ⊢
    have ih'' := ih' b rfl
    have hpos' := hpos b
    obtain ⟨L, hL⟩ : ∃ L, (edgesFrom b 1 (rc5Tail w (n + 1))).length = L + 1 :=
      ⟨_, (Nat.succ_pred_eq_of_pos hpos').symm⟩
    rw [hL, Nat.add_sub_cancel] at ih''
    by_cases hbp : b = prev
    · subst hbp
      rw [if_pos rfl]
      simp only [List.map_cons, runTotal, List.length_cons, hL]
      have s1 : Abs5.step ⟨some (n + 1), buf, false⟩ (!b, some 1) =
          (⟨some (n + 1), buf, true⟩, .ok none) := by cases b <;> rfl
      have s2 : Abs5.step ⟨some (n + 1), buf, true⟩ (b, some 1) =
          (⟨some n, if b then buf ||| (1 : BitVec 16) <<< (n + 1) else buf, false⟩, .ok none) := by
        cases b <;> rfl
      rw [s1, s2, ih'']
      rfl
    · rw [if_neg hbp]
      simp only [List.map_cons, runTotal, List.length_cons, hL]
      have s2 : Abs5.step ⟨some (n + 1), buf, false⟩ (b, some 2) =
          (⟨some n, if b then buf ||| (1 : BitVec 16) <<< (n + 1) else buf, false⟩, .ok none) := by
        cases b <;> rfl
      rw [s2, ih'']
      rfl

/-- The whole frame, from an idle abstract decoder. -/
theorem rc5_abs_frame (tbl : PulseSpans) (w : BitVec 14) (hw : w.getLsbD 13 = true) (odd : Bool)
    (evs : List Ev) (h : ManchesterFrame (HalfBits tbl) (rc5Edges w) evs) :
    runTotal Abs5.step ⟨none, 0, odd⟩ (evs.map (measure tbl)) =
      (Abs5.init, List.replicate (evs.length - 1) (.ok none) ++
        [.ok (some (Rc5Command.unpack (w.setWidth 16)))]) := by
  obtain ⟨pause, n, evs', edges', rfl, he, ht⟩ := h
  rw [rc5Edges_eq w hw] at he
  simp only [List.cons.injEq, Prod.mk.injEq, true_and] at he
  obtain ⟨-, rfl⟩ := he
  have hl := Timed.length ht
  rw [timed_iff] at ht
  have hstart : Abs5.step ⟨none, 0, odd⟩ (measure tbl (true, pause)) =
      (⟨some 12, (1 : BitVec 16) <<< 13, false⟩, .ok none) := by
    unfold Abs5.step measure
    rcases tbl.half pause with _ | k
    · rfl
    · simp [Abs5.idleStep]
  have hW : ∀ i, (w.setWidth 16).getLsbD i = (((1 : BitVec 16) <<< 13).getLsbD i ||
      (decide (i ≤ 12) && w.getLsbD i)) := by
    intro i
    rw [BitVec.getLsbD_setWidth, getLsbD_one_shl _ _ _ (by decide)]
    by_cases h1 : i ≤ 12
    · have : i ≠ 13 := by omega
      have : i < 16 := by omega
      simp [*]
    · by_cases h2 : i = 13
      · subst h2; simp [hw]
      · have : w.getLsbD i = false := BitVec.getLsbD_of_ge _ _ (by omega)
        simp [*]
  have hb := rc5_abs_bits w 12 (by decide) true ((1 : BitVec 16) <<< 13) (w.setWidth 16) hW
  simp only [List.map_cons, runTotal, hstart, ht, List.length_cons, Nat.add_sub_cancel]
  rw [hb, hl]
  have hpos : 0 < (edgesFrom true 1 (rc5Tail w (12 + 1))).length := by
    rw [rc5Tail, edgesFrom_bit]; split <;> simp
  obtain ⟨L, hL⟩ : ∃ L, (edgesFrom true 1 (rc5Tail w (12 + 1))).length = L + 1 :=
    ⟨_, (Nat.succ_pred_eq_of_pos hpos).symm⟩
  rw [show (13 : Nat) = 12 + 1 from rfl, hL]
  rfl

/-- Core of **C24**, for any table. -/
theorem rc5_frame (t : Target) (hus : 16 ≤ t.usizeBits) (tbl : PulseSpans)
    (hlen : tbl.spans.length ≤ 8) (conv : Rc5Command → K) (before : List Ev) (o : List (Res K))
    (r : Receiver (rc5Decoder t tbl))
    (hreach : (Receiver.new (rc5Decoder t tbl)).run _ conv before = some (r, o))
    (hidle : Rc5Decoder.state r.decoder = .idle) (w : BitVec 14) (hw : w.getLsbD 13 = true)
    (evs : List Ev)
    (hsafe : t.overflowChecks = false ∨ 8 * (before.length + evs.length) < 2 ^ t.usizeBits)
    (h : ManchesterFrame (HalfBits tbl) (rc5Edges w) evs) :
    ∃ r', r.run _ conv evs = some (r', List.replicate (evs.length - 1) (.ok none) ++
        [.ok (some (conv (Rc5Command.unpack (w.setWidth 16))))]) ∧
      Rc5Decoder.state r'.decoder = .idle := by
  obtain ⟨o', hrun, -⟩ := Receiver.run_inv (D := rc5Decoder t tbl) hreach
  have hrun' : runStep (rc5Fn t tbl) rc5Init before = some (r.decoder, o') := hrun
  obtain ⟨hsim, -⟩ := rc5_run_sim t tbl hus hlen sim5_init hrun'
  have hclk : t.overflowChecks = false ∨
      Rc5Decoder.clock r.decoder + 8 * evs.length < 2 ^ t.usizeBits := by
    rcases hsafe with hs | hs
    · exact .inl hs
    · obtain ⟨d', h1, -, h2⟩ := rc5_run_ex t tbl hus hlen sim5_init before
        (.inr (by simp only [rc5Init]; omega))
      have h3 : d' = r.decoder := congrArg Prod.fst (Option.some.inj (h1.symm.trans hrun'))
      subst h3
      rcases h2 with h2 | h2
      · simp only [rc5Init] at h2; exact .inr (by omega)
      · exact .inl h2
  generalize (runTotal Abs5.step Abs5.init (before.map (measure tbl))).1 = p at hsim
  obtain ⟨ast, ab, ao⟩ := p
  have ha : ast = none ∧ ab = 0 := by
    rcases hsim.st with ⟨-, h2, h3⟩ | ⟨n, -, h1, -⟩
    · exact ⟨h2, by rw [← h3]; exact hsim.buf.symm⟩
    · rw [hidle] at h1; cases h1
  obtain ⟨rfl, rfl⟩ := ha
  obtain ⟨d', h1, h2, -⟩ := rc5_run_ex t tbl hus hlen hsim evs hclk
  rw [rc5_abs_frame tbl w hw ao evs h] at h1 h2
  refine ⟨{ r with decoder := d' }, (Receiver.run_of (D := rc5Decoder t tbl) conv h1).trans ?_, ?_⟩
  · simp [Res.map]
  · rcases h2.st with ⟨h, -⟩ | ⟨n, -, -, h⟩
    · exact h
    · cases h

/-- **C24**: whatever an RC5 receiver of at least 20 kHz received before, if it is idle it decodes
every transmission of a 14-bit word with leading `1` whose durations are within tolerance: nothing
until the last edge, then exactly `unpack(word)`, and it is idle again.  With overflow checks the
half-bit clock must not have overflowed (C30). -/
theorem C24_rc5_frame_decoded (t : Target) (hus : 16 ≤ t.usizeBits) (m : Mono)
    (hm : m = Mono.u32 ∨ m = Mono.u64) (f : Nat) (hlo : 20000 ≤ f) (hf : f < 2 ^ 32)
    (tbl : PulseSpans) (htbl : rc5Spans t m f = some tbl) (conv : Rc5Command → K)
    (before : List Ev) (o : List (Res K)) (r : Receiver (rc5Decoder t tbl))
    (hreach : (Receiver.new (rc5Decoder t tbl)).run _ conv before = some (r, o))
    (hidle : Rc5Decoder.state r.decoder = .idle) (w : BitVec 14) (hw : w.getLsbD 13 = true)
    (evs : List Ev)
    (hsafe : t.overflowChecks = false ∨ 8 * (before.length + evs.length) < 2 ^ t.usizeBits)
    (h : ManchesterFrame (Within tbl) (rc5Edges w) evs) :
    ∃ r', r.run _ conv evs = some (r', List.replicate (evs.length - 1) (.ok none) ++
        [.ok (some (conv (Rc5Command.unpack (w.setWidth 16))))]) ∧
      Rc5Decoder.state r'.decoder = .idle := by
  rw [rc5Spans_eq hm t hf, Option.some.injEq] at htbl
  subst htbl
  refine rc5_frame t hus _ (by simp [rc5Table]) conv before o r hreach hidle w hw evs hsafe ?_
  obtain ⟨pause, n, evs', edges', rfl, he, ht⟩ := h
  refine ⟨pause, n, evs', edges', rfl, he, Timed.imp ht ?_⟩
  intro d e hmem hin
  rw [rc5Edges_eq w hw] at he
  simp only [List.cons.injEq, Prod.mk.injEq, true_and] at he
  obtain ⟨-, rfl⟩ := he
  have hu := rc5_unambiguous f hlo
  rw [halfBits_iff, PulseSpans.half]
  rcases rc5_edges_len w 13 true e hmem with h1 | h1 <;> rw [h1] at hin ⊢
  · rw [inTol_get hu (by decide) hin]; rfl
  · rw [inTol_get hu (by decide) hin]; rfl

/-- The nominal transmission in µs, after a pause of 100 ms. -/
def Spec.nominalRc5 (w : BitVec 14) : List Ev :=
  match rc5Edges w with
  | [] => []
  | e :: es => (e.1, 100000) :: es.map fun x => (x.1, 889 * x.2)

theorem nominalRc5_frame (w : BitVec 14) (hw : w.getLsbD 13 = true) :
    ManchesterFrame (Within (rc5Table 1000000)) (rc5Edges w) (nominalRc5 w) := by
  unfold nominalRc5
  rw [rc5Edges_eq w hw]
  refine ⟨100000, 1, _, _, rfl, rfl, ?_⟩
  have hl := rc5_edges_len w 13 true
  generalize edgesFrom true 1 (rc5Tail w 13) = es at hl
  induction es with
  | nil => trivial
  | cons e es ih =>
    refine ⟨rfl, ?_, ih fun x hx => hl x (by simp [hx])⟩
    rcases hl e (by simp) with h | h <;> dsimp only <;> rw [h]
    · exact ⟨_, rfl, by decide⟩
    · exact ⟨_, rfl, by decide⟩

/-- Non-vacuity: address 17, command 44, toggle set, at 1 MHz on a 16-bit target. -/
example (b : Bool) : ∃ r', (Receiver.new (rc5Decoder ⟨b, 16⟩ (rc5Table 1000000))).run _ id
      (nominalRc5 0b11110001101100#14) =
    some (r', List.replicate ((nominalRc5 0b11110001101100#14).length - 1) (.ok none) ++
      [.ok (some { addr := 17, cmd := 44, start := 3, toggle := true })]) ∧
    Rc5Decoder.state r'.decoder = .idle :=
  C24_rc5_frame_decoded ⟨b, 16⟩ (Nat.le_refl 16) Mono.u32 (.inl rfl) 1000000 (by decide) (by decide) _
    (rc5Spans_eq (.inl rfl) _ (by decide)) id [] [] _ rfl rfl 0b11110001101100#14 (by decide) _
    (.inr (show 8 * (0 + (nominalRc5 0b11110001101100#14).length) < 2 ^ 16 by decide)) (nominalRc5_frame _ (by decide))

/-! ## C25 -/

/-- The history ends with an RC5 transmission whose 13 bits after the start bit are `bits`:
a rising start edge, then edges whose distances all match a symbol; the edges on whole bit
periods have the directions `bits`. -/
def Spec.EndsWithRc5 (tbl : PulseSpans) (bits : List Bool) (h : List Ev) : Prop :=
  ∃ pre pause seg edges, h = pre ++ (true, pause) :: seg ∧ Timed (HalfBits tbl) seg edges ∧
    sampled 0 0 edges = bits ∧ bits.length = 13 ∧ seg ≠ [] ∧ total edges % 2 = 0

/-- What the abstract state says about the history. -/
def Inv5 (tbl : PulseSpans) (h : List Ev) (a : Abs5) : Prop :=
  (a.st = none ∧ a.buf = 0) ∨
  ∃ n, n ≤ 12 ∧ a.st = some n ∧ ∃ pre pause seg edges,
    h = pre ++ (true, pause) :: seg ∧ Timed (HalfBits tbl) seg edges ∧
    (sampled 0 0 edges).length = 12 - n ∧ a.odd = (total edges % 2 == 1) ∧
    ∀ i, a.buf.getLsbD i = (decide (i = 13) ||
      (decide (i ≤ 12) && (sampled 0 0 edges).getD (12 - i) false))

theorem inv5_start (tbl : PulseSpans) (h : List Ev) (pause : Nat) :
    Inv5 tbl (h ++ [(true, pause)]) ⟨some 12, 0 ||| (1 : BitVec 16) <<< 13, false⟩ := by
  refine .inr ⟨12, by decide, rfl, h, pause, [], [], rfl, trivial, rfl, rfl, ?_⟩
  intro i
  rw [getLsbD_or_shl _ _ _ _ (by decide)]
  simp [sampled]

theorem inv5_step (tbl : PulseSpans) {h : List Ev} {a : Abs5} (hi : Inv5 tbl h a) (e : Ev) :
    Inv5 tbl (h ++ [e]) (a.step (measure tbl e)).1 ∧
    (∀ x, (a.step (measure tbl e)).2 ≠ .error x) ∧
    ∀ c, (a.step (measure tbl e)).2 = .ok (some c) → ∃ bits,
      c = Rc5Command.unpack ((BitVec.ofBoolListBE (true :: bits)).setWidth 16) ∧
      EndsWithRc5 tbl bits (h ++ [e]) := by
  obtain ⟨rising, dt⟩ := e
  obtain ⟨ast, ab, ao⟩ := a
  rcases hh : tbl.half dt with _ | n
  · simp only [measure, hh, Abs5.step]
    cases rising
    · exact ⟨.inl ⟨rfl, rfl⟩, by simp, by simp⟩
    · exact ⟨inv5_start tbl h dt, by simp, by simp⟩
  · simp only [measure, hh, Abs5.step]
    rcases hi with ⟨h1, h2⟩ | ⟨k, hk, h1, pre, pause, seg, edges, rfl, ht, hl, ho, hb⟩
    · dsimp only at h1 h2
      subst h1; subst h2
      cases rising
      · exact ⟨.inl ⟨rfl, rfl⟩, by simp, by simp⟩
      · exact ⟨inv5_start tbl h dt, by simp, by simp⟩
    · dsimp only at h1 ho hb
      subst h1
      have ht' := timed_snoc (e := (rising, dt)) ht hh
      have htot : total (edges ++ [(rising, n)]) = total edges + n := by
        rw [total_append]; simp [total]
      have hsamp : sampled 0 0 (edges ++ [(rising, n)]) =
          sampled 0 0 edges ++ if (total edges + n) % 2 = 0 then [rising] else [] := by
        rw [sampled_append]
        simp only [sampled, Nat.zero_add]
      have hpar : xor ao (n % 2 == 1) = ((total edges + n) % 2 == 1) := by
        rw [ho]
        rcases Nat.mod_two_eq_zero_or_one (total edges) with ha | ha <;>
          rcases Nat.mod_two_eq_zero_or_one n with hb | hb <;> simp [Nat.add_mod, ha, hb]
      rw [hpar]
      have heq : (pre ++ (true, pause) :: seg) ++ [(rising, dt)] =
          pre ++ (true, pause) :: (seg ++ [(rising, dt)]) := by simp
      rcases Nat.mod_two_eq_zero_or_one (total edges + n) with hp | hp
      · have hp1 : ((total edges + n) % 2 == 1) = false := by rw [hp]; rfl
        simp only [hp1, Bool.false_eq_true, if_false]
        rw [if_pos hp] at hsamp
        have hlen' : (sampled 0 0 (edges ++ [(rising, n)])).length = 12 - k + 1 := by
          rw [hsamp]; simp [hl]
        have hbuf : ∀ i, (if rising then ab ||| (1 : BitVec 16) <<< k else ab).getLsbD i =
            (decide (i = 13) || (decide (i ≤ 12) &&
              (sampled 0 0 (edges ++ [(rising, n)])).getD (12 - i) false)) := by
          intro i
          have hgd : i ≤ 12 → (sampled 0 0 (edges ++ [(rising, n)])).getD (12 - i) false =
              if i = k then rising else (sampled 0 0 edges).getD (12 - i) false := by
            intro hi12
            rw [hsamp]
            simp only [List.getD_eq_getElem?_getD]
            by_cases hik : i = k
            · subst hik
              rw [if_pos rfl, List.getElem?_append_right (by omega), hl]
              simp
            · rw [if_neg hik]
              by_cases hlt : 12 - i < 12 - k
              · rw [List.getElem?_append_left (by omega)]
              · rw [List.getElem?_eq_none (by simp [hl]; omega),
                  List.getElem?_eq_none (by rw [hl]; omega)]
          cases rising
          · rw [if_neg (by simp), hb]
            by_cases hi12 : i ≤ 12
            · rw [hgd hi12]
              by_cases hik : i = k
              · subst hik
                rw [if_pos rfl, List.getD_eq_getElem?_getD,
                  List.getElem?_eq_none (by rw [hl]; exact Nat.le_refl _)]
                simp
              · rw [if_neg hik]
            · simp [hi12]
          · rw [if_pos rfl, getLsbD_or_shl _ _ _ _ (by omega), hb]
            by_cases hi12 : i ≤ 12
            · rw [hgd hi12]
              by_cases hik : i = k
              · simp [hik, hk]
              · simp [hik]
            · have : i ≠ k := by omega
              simp [hi12, this]
        by_cases hk0 : k = 0
        · subst hk0
          simp only [if_true]
          refine ⟨.inl ⟨rfl, rfl⟩, by simp, ?_⟩
          intro c hc
          simp only [Except.ok.injEq, Option.some.injEq] at hc
          subst hc
          refine ⟨sampled 0 0 (edges ++ [(rising, n)]), ?_, pre, pause, seg ++ [(rising, dt)],
            edges ++ [(rising, n)], heq, ht', rfl, hlen', by simp, by rw [htot]; exact hp⟩
          congr 1
          apply BitVec.eq_of_getLsbD_eq
          intro i hi
          rw [hbuf, BitVec.getLsbD_setWidth, BitVec.getLsbD_ofBoolListBE]
          simp only [List.length_cons, hlen']
          by_cases h13 : i = 13
          · subst h13; simp
          · by_cases h12 : i ≤ 12
            · have e1 : 12 - 0 + 1 + 1 - 1 - i = (12 - i) + 1 := by omega
              rw [e1, List.getD_cons_succ]
              have h14 : i < 14 := by omega
              simp [h13, h12, hi, h14]
            · have : ¬ i < 14 := by omega
              simp [h13, h12, this]
        · rw [if_neg hk0]
          refine ⟨.inr ⟨k - 1, by omega, rfl, pre, pause, seg ++ [(rising, dt)],
            edges ++ [(rising, n)], heq, ht', by rw [hlen']; omega, by rw [htot, hp1], hbuf⟩,
            by simp, by simp⟩
      · have hp1 : ((total edges + n) % 2 == 1) = true := by rw [hp]; rfl
        simp only [hp1, if_true]
        rw [if_neg (by omega), List.append_nil] at hsamp
        refine ⟨.inr ⟨k, hk, rfl, pre, pause, seg ++ [(rising, dt)], edges ++ [(rising, n)], heq,
          ht', by rw [hsamp]; exact hl, by rw [htot, hp1], by rw [hsamp]; exact hb⟩, by simp, by simp⟩

theorem inv5_run (tbl : PulseSpans) (evs : List Ev) :
    Inv5 tbl evs (runTotal Abs5.step Abs5.init (evs.map (measure tbl))).1 := by
  have key : ∀ (l h : List Ev) (a : Abs5), Inv5 tbl h a →
      Inv5 tbl (h ++ l) (runTotal Abs5.step a (l.map (measure tbl))).1 := by
    intro l
    induction l with
    | nil => intro h a hi; simpa [runTotal] using hi
    | cons e es ih =>
      intro h a hi
      have := ih (h ++ [e]) _ (inv5_step tbl hi e).1
      simpa [runTotal] using this
  simpa using key evs [] Abs5.init (.inl ⟨rfl, rfl⟩)

/-- **C25**: if an RC5 receiver returns a command, the history up to that edge ends with a start
edge followed only by measurable distances, exactly 13 of whose edges fall on whole bit periods
(the last one being the current edge), and the command is `unpack` of the 14-bit word `1` followed
by the directions of those edges. -/
theorem C25_rc5_sound (t : Target) (hus : 16 ≤ t.usizeBits) (tbl : PulseSpans)
    (hlen : tbl.spans.length ≤ 8) (conv : Rc5Command → K) (evs : List Ev) (outs : List (Res K))
    (h : results (rc5Decoder t tbl) conv evs = some outs) (i : Nat) (k : K)
    (hk : outs[i]? = some (.ok (some k))) :
    ∃ bits, k = conv (Rc5Command.unpack ((BitVec.ofBoolListBE (true :: bits)).setWidth 16)) ∧
      EndsWithRc5 tbl bits (evs.take (i + 1)) := by
  obtain ⟨s, o, hrun, rfl⟩ := rc5_results_inv t tbl h
  rw [List.getElem?_map] at hk
  rcases ho : o[i]? with _ | x
  · simp [ho] at hk
  rw [ho] at hk
  simp only [Option.map_some, Option.some.injEq] at hk
  rcases x with _ | _ | c
  · simp [Res.map] at hk
  · simp [Res.map] at hk
  obtain ⟨e, s1, o1, s1', -, h1, h2, h3, -, -⟩ := run_get hrun ho
  obtain ⟨hs, -⟩ := rc5_run_sim t tbl hus hlen sim5_init h1
  obtain ⟨-, hr⟩ := rc5_sim t tbl hus hlen hs h2
  obtain ⟨-, -, h4⟩ := inv5_step tbl (inv5_run tbl (evs.take i)) e
  obtain ⟨bits, hc, h5⟩ := h4 c hr.symm
  rw [h3]
  refine ⟨bits, ?_, h5⟩
  rw [← hc]
  simpa [Res.map] using hk.symm

/-- Non-vacuity: a history on which the receiver returns a command. -/
example : (results (rc5Decoder ⟨true, 32⟩ (rc5Table 1000000)) id
    ((true, 5) :: (false, 889) :: nominalRc5 0b11110001101100#14)).bind (fun o => o.getLast?) =
    some (.ok (some { addr := 17, cmd := 44, start := 3, toggle := true })) := rfl

end Infrared
