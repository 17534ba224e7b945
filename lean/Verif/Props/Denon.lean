import Verif.Lemmas.Denon
import Verif.Lemmas.Tables

/-!
# C23, C51: the Denon receiver
-/

namespace Infrared

variable {K : Type}

theorem denonSlots_eq (w : BitVec 48) :
    Spec.denonSlots w = [0] ++ bitSlots 1 2 w.getLsbD 48 := rfl

/-- The first 47 bits of the word. -/
def Spec.low47 (w : BitVec 48) : BitVec 64 := (w.setWidth 47).setWidth 64

section
variable (t : Target) (m : Mono) (tbl : PulseSpans)

/-- The frame, from the decoder's point of view. -/
theorem denon_frame (hm : m.Lawful) (hu : Spec.Unambiguous tbl 3) (hfit : Fits tbl m.width)
    (d : DenonDecoder) (hidle : d.state = .idle) (w : BitVec 48) (ps : List (Nat × Nat))
    (hfr : Spec.Matches tbl (Spec.denonSlots w) ps) :
    runStep (denonFn t m tbl) d (Spec.pulses ps) =
      some (denonInit, List.replicate 97 (.ok none) ++
        [.ok (some { bits := d.buf ||| Spec.low47 w })]) := by
  rw [denonSlots_eq, bitSlots_succ 1 2 w.getLsbD 47, ← List.append_assoc] at hfr
  obtain ⟨q, pl, rfl, hfr, mt3⟩ := Matches.append_inv hfr
  obtain ⟨p0, pc, rfl, mt1, mt2⟩ := Matches.append_inv hfr
  obtain ⟨p0, rfl, h0⟩ := Matches.singleton_inv mt1
  obtain ⟨pl, rfl, hl⟩ := Matches.singleton_inv mt3
  obtain ⟨hlenc, hc⟩ := Matches.bits_inv mt2
  have r0 := denon_pulse t m tbl hm d (.inl hidle) p0.1 p0.2 (inTol_lt hfit h0)
  rw [(denon_classify_iff tbl _).1.mpr (inTol_get hu (by decide) h0), hidle] at r0
  simp only [denonStep] at r0
  have hbit : ∀ (b : Bool) (p : Nat × Nat), Spec.InTol tbl (if b then 2 else 1) (p.1 + p.2) →
      p.1 + p.2 < 2 ^ m.width ∧
        DenonPulse.classify tbl (p.1 + p.2) = if b then .one else .zero := by
    intro b p hp
    refine ⟨inTol_lt hfit hp, ?_⟩
    cases b
    · exact (denon_classify_iff tbl _).2.1.mpr (inTol_get hu (by decide) hp)
    · exact (denon_classify_iff tbl _).2.2.mpr (inTol_get hu (by decide) hp)
  obtain ⟨s1, b1, r1, hs1, hb1⟩ := bits_gen (denonFn t m tbl) (.ok none)
    (fun n b s => s.state = .data n ∧ s.buf = b) 47 (by decide : 47 ≤ 64)
    (fun b p => Spec.InTol tbl (if b then 2 else 1) (p.1 + p.2))
    (by
      intro n b β p s hn hs hgood
      obtain ⟨hst, hb⟩ := hs
      obtain ⟨hlt, hcl⟩ := hbit β p hgood
      have hp := denon_pulse t m tbl hm s (.inr ⟨n, by omega, hst⟩) p.1 p.2 hlt
      rw [hcl, hst] at hp
      subst hb
      have h47 : ¬ n = 47 := by omega
      refine ⟨(denonStep (.data n) s.buf (if β then .one else .zero)).1, ?_, ?_⟩
      · rw [hp]
        cases β <;> simp [denonStep, h47]
      · cases β <;> simp [denonStep, h47])
    pc 0 (w.setWidth 64) d.buf ⟨.data 0, d.buf, 0⟩ (by omega) (fun i p hp => by
      have := hc i p hp
      obtain ⟨hi, -⟩ := List.getElem?_eq_some_iff.mp hp
      have hi' : i < 64 := by omega
      rw [Nat.zero_add, BitVec.getLsbD_setWidth]
      simpa [hi'] using this)
    ⟨rfl, rfl⟩
  obtain ⟨hst1, hbf1⟩ := hs1
  rw [hlenc] at hst1 hb1 r1
  simp only [Nat.zero_add] at hst1
  have hbuf : b1 = d.buf ||| Spec.low47 w := by
    apply BitVec.eq_of_getLsbD_eq
    intro i hi
    rw [hb1, BitVec.getLsbD_or, Spec.low47, BitVec.getLsbD_setWidth, BitVec.getLsbD_setWidth,
      BitVec.getLsbD_setWidth]
    simp [hi]
  obtain ⟨hltl, hcll⟩ := hbit _ pl hl
  have r2 := denon_pulse t m tbl hm s1 (.inr ⟨47, by decide, hst1⟩) pl.1 pl.2 hltl
  rw [hcll, hst1, hbf1, hbuf] at r2
  have r2' : runStep (denonFn t m tbl) s1 [(false, pl.1), (true, pl.2)] =
      some (denonInit, [.ok none, .ok (some { bits := d.buf ||| Spec.low47 w })]) := by
    rw [r2]
    cases w.getLsbD 47 <;> simp [denonStep]
  have r3 := run_append_some (run_append_some r0 r1) r2'
  simp only [pulses_append]
  exact r3.trans rfl

end

theorem denonTable_fits {f : Nat} (hf : f < 2 ^ 32) {w : Nat} (hw : 32 ≤ w) :
    Fits (denonTable f) w := by
  have h2 : 2 ^ 32 ≤ 2 ^ w := Nat.pow_le_pow_right (by decide) hw
  intro s hs
  refine Nat.lt_of_lt_of_le ?_ h2
  simp only [denonTable, List.mem_cons, List.not_mem_nil, or_false] at hs
  rcases hs with rfl | rfl | rfl | rfl | rfl | rfl | rfl | rfl <;>
    first
    | exact spanOf_high_lt _ _ _ (by decide) (by decide) hf
    | decide

section
variable (t : Target) (m : Mono) (tbl : PulseSpans)

/-- Periods that are not a sync leave an idle decoder idle, with the same buffer. -/
theorem denon_noise (hm : m.Lawful) (b : BitVec 64) {d d' : DenonDecoder} {evs : List Ev}
    {o : List (Res DenonCommand)} (hidle : d.state = .idle) (hb : d.buf = b)
    (hsync : ∀ p ∈ Spec.periodsFrom m.width d.dtSave evs, ¬ Spec.InTol tbl 0 p)
    (h : runStep (denonFn t m tbl) d evs = some (d', o)) : d'.state = .idle ∧ d'.buf = b := by
  induction evs generalizing d o with
  | nil => simp [runStep] at h; rw [← h.1]; exact ⟨hidle, hb⟩
  | cons e es ih =>
    obtain ⟨d1, r, o', h1, h2, -⟩ := run_cons_inv h
    rcases denon_event_cases t m tbl (.inl hidle) h1 with ⟨he, rfl, -⟩ | ⟨he, total, ha, hst⟩
    · obtain ⟨e1, e2⟩ := e
      dsimp only at he
      subst he
      exact ih (d := { d with dtSave := e2 }) hidle hb hsync h2
    · obtain ⟨e1, e2⟩ := e
      dsimp only at he
      subst he
      have htot := hm.wraps _ _ _ _ ha
      simp only [Spec.periodsFrom, List.mem_cons, forall_eq_or_imp] at hsync
      have hne : DenonPulse.classify tbl total ≠ .sync := by
        intro hc
        apply hsync.1
        rw [← htot]
        exact get_inTol ((denon_classify_iff tbl total).1.mp hc)
      have hd1 : d1 = { state := .idle, buf := b, dtSave := 0 } := by
        rw [hidle, hb] at hst
        revert hst hne
        cases DenonPulse.classify tbl total <;> simp [denonStep] <;> intro h _ <;> exact h
      subst hd1
      exact ih rfl rfl hsync.2 h2

/-- After a command the decoder is as new. -/
theorem denon_after_command {d d' : DenonDecoder} (hd : d.Ready) {e : Ev} {c : DenonCommand}
    (h : denonFn t m tbl d e = some (d', .ok (some c))) : d' = denonInit := by
  rcases denon_event_cases t m tbl hd h with ⟨-, -, hr⟩ | ⟨-, total, -, hst⟩
  · simp at hr
  · rcases hd with h1 | ⟨n, hn, h1⟩ <;> rw [h1] at hst <;> revert hst <;>
      cases DenonPulse.classify tbl total <;> simp only [denonStep] <;> (try split) <;>
      simp only [Prod.mk.injEq] <;> rintro ⟨rfl, hr⟩ <;> first | rfl | simp at hr

end

/-- **C23** (partial): a Denon receiver that was just created or just returned a command
(history `before`), followed by noise without anything like a sync pulse, decodes an in-tolerance
frame to the first 47 bits of the word.
Missing: the 48th bit (`C23_denon_last_bit_lost`) and histories with an aborted frame
(`C23_denon_stale_bits`). -/
theorem C23_denon_frame_partial (t : Target) (m : Mono) (hm : m = Mono.u32 ∨ m = Mono.u64)
    (f : Nat) (hlo : 20000 ≤ f) (hf : f < 2 ^ 32) (tbl : PulseSpans)
    (htbl : denonSpans t m f = some tbl) (conv : DenonCommand → K) (before noise : List Ev)
    (o o2 : List (Res K)) (r r2 : Receiver (denonDecoder t m tbl))
    (hreach : (Receiver.new (denonDecoder t m tbl)).run _ conv before = some (r, o))
    (hclean : before = [] ∨ ∃ k, o.getLast? = some (.ok (some k)))
    (hnoise : r.run _ conv noise = some (r2, o2))
    (hsync : ∀ p ∈ Spec.periods m.width noise, ¬ Spec.InTol tbl 0 p)
    (w : BitVec 48) (ps : List (Nat × Nat)) (hfr : Spec.Matches tbl (Spec.denonSlots w) ps) :
    ∃ r', r2.run _ conv (Spec.pulses ps) = some (r', List.replicate 97 (.ok none) ++
        [.ok (some (conv { bits := (w.setWidth 47).setWidth 64 }))]) ∧
      DenonDecoder.state r'.decoder = .idle := by
  rw [denonSpans_eq hm t hf, Option.some.injEq] at htbl
  subst htbl
  obtain ⟨o', hrun, ho, -⟩ := Receiver.run_inv (D := denonDecoder t m (denonTable f)) hreach
  have h0 : r.decoder = denonInit := by
    rcases hclean with rfl | ⟨k, hk⟩
    · simp [runStep] at hrun; exact hrun.1.symm
    · subst ho
      rcases List.eq_nil_or_concat before with rfl | ⟨b', e, rfl⟩
      · have := run_length hrun
        have : o' = [] := List.length_eq_zero_iff.mp this
        subst this; simp at hk
      · rw [List.concat_eq_append] at hrun
        obtain ⟨s1, o1, res, h1, h2, rfl⟩ := run_snoc_inv hrun
        simp only [List.map_append, List.map_cons, List.map_nil, List.getLast?_concat,
          Option.some.injEq] at hk
        have h1' : runStep (denonFn t m (denonTable f)) denonInit b' = some (s1, o1) := h1
        have hres : ∃ c, res = .ok (some c) := by
          rcases res with _ | _ | c <;> simp [Res.map] at hk
          exact ⟨c, rfl⟩
        obtain ⟨c, rfl⟩ := hres
        exact denon_after_command t m _ (denon_run_ready t m _ denonInit_ready h1') h2
  obtain ⟨o'', hrun2, -, -⟩ := Receiver.run_inv (D := denonDecoder t m (denonTable f)) hnoise
  have hrun2' : runStep (denonFn t m (denonTable f)) denonInit noise = some (r2.decoder, o'') := by
    rw [← h0]; exact hrun2
  obtain ⟨hi, hb⟩ := denon_noise t m (denonTable f) (Mono.prim_lawful hm) 0
    (d := denonInit) rfl rfl hsync hrun2'
  have h := denon_frame t m (denonTable f) (Mono.prim_lawful hm) (denon_unambiguous f hlo)
    (denonTable_fits hf (Mono.IsPrim.width hm)) r2.decoder hi w ps hfr
  rw [hb] at h
  refine ⟨{ r2 with decoder := denonInit },
    (Receiver.run_of (D := denonDecoder t m (denonTable f)) conv h).trans ?_, rfl⟩
  simp [Res.map, Spec.low47]

/-- The nominal Denon frame in µs. -/
def Spec.nominalDenon (w : BitVec 48) : List (Nat × Nat) :=
  [(3400, 1600)] ++ (List.range 48).map fun i => (420, if w.getLsbD i then 1260 else 420)

theorem nominalDenon_frame (w : BitVec 48) :
    Spec.Matches (denonTable 1000000) (Spec.denonSlots w) (Spec.nominalDenon w) := by
  rw [denonSlots_eq]
  refine Matches.append (Matches.singleton ?_) (Matches.bits ?_)
  · exact ⟨_, rfl, by decide⟩
  · intro i _
    cases w.getLsbD i
    · exact ⟨_, rfl, by decide⟩
    · exact ⟨_, rfl, by decide⟩

/-- Non-vacuity: a nominal frame with all bits set after a long gap, at 1 MHz. -/
example (t : Target) : ∃ r r',
    (Receiver.new (denonDecoder t Mono.u32 (denonTable 1000000))).run _ id [(true, 100000)] =
      some (r, [.ok none]) ∧
    r.run _ id (Spec.pulses (Spec.nominalDenon 0xFFFFFFFFFFFF)) =
    some (r', List.replicate 97 (.ok none) ++ [.ok (some { bits := 0x7FFFFFFFFFFF })]) := by
  have h0 : (Receiver.new (denonDecoder t Mono.u32 (denonTable 1000000))).run _ id
      [(true, 100000)] = some (Receiver.new _, [.ok none]) := by
    have h1 : runStep (denonFn t Mono.u32 (denonTable 1000000)) denonInit [(true, 100000)] =
      some (denonInit, [.ok none]) := rfl
    exact Receiver.run_of (D := denonDecoder t Mono.u32 (denonTable 1000000))
      (r := Receiver.new _) id h1
  obtain ⟨r', h, -⟩ := C23_denon_frame_partial t Mono.u32 (.inl rfl) 1000000 (by decide) (by decide) _
    (denonSpans_eq (.inl rfl) t (by decide)) id [] [(true, 100000)] [] _ _ _ rfl (.inl rfl) h0
    (by
      intro p hp
      simp [Spec.periods, Spec.periodsFrom] at hp
      subst hp
      rintro ⟨s, hs, h1, h2⟩
      simp [denonTable] at hs
      subst hs
      revert h2; decide) 0xFFFFFFFFFFFF _ (nominalDenon_frame _)
  exact ⟨_, r', h0, h⟩

/-- Refutation of the claim of **C23** on the last bit: two words that differ only in their last
bit are both transmitted correctly and decoded to the same command, for every word. -/
theorem C23_denon_last_bit_lost (t : Target) (w : BitVec 48) :
    ∃ ps1 ps2 c, Spec.Matches (denonTable 1000000) (Spec.denonSlots w) ps1 ∧
      Spec.Matches (denonTable 1000000) (Spec.denonSlots (w ^^^ 0x800000000000#48)) ps2 ∧
      (results (denonDecoder t Mono.u32 (denonTable 1000000)) id (Spec.pulses ps1)) =
        some (List.replicate 97 (.ok none) ++ [.ok (some c)]) ∧
      (results (denonDecoder t Mono.u32 (denonTable 1000000)) id (Spec.pulses ps2)) =
        some (List.replicate 97 (.ok none) ++ [.ok (some c)]) := by
  refine ⟨_, _, { bits := Spec.low47 w }, nominalDenon_frame w, nominalDenon_frame _, ?_, ?_⟩
  · have h := denon_frame t Mono.u32 (denonTable 1000000) Mono.u32_lawful
      (denon_unambiguous _ (by decide)) (denonTable_fits (by decide) (by decide)) denonInit rfl w _
      (nominalDenon_frame w)
    refine (results_of (D := denonDecoder t Mono.u32 (denonTable 1000000)) id h).trans ?_
    simp [Res.map, denonInit]
  · have h := denon_frame t Mono.u32 (denonTable 1000000) Mono.u32_lawful
      (denon_unambiguous _ (by decide)) (denonTable_fits (by decide) (by decide)) denonInit rfl _ _
      (nominalDenon_frame (w ^^^ 0x800000000000#48))
    refine (results_of (D := denonDecoder t Mono.u32 (denonTable 1000000)) id h).trans ?_
    have : Spec.low47 (w ^^^ 0x800000000000#48) = Spec.low47 w := by
      unfold Spec.low47
      congr 1
      rw [BitVec.setWidth_xor]
      simp
    simp [Res.map, denonInit, this]

/-- Refutation of **C23**'s independence of the history: bits of an aborted frame are OR-ed into
the next command.  A sync and one `1` bit, then a gap, then a frame of the all-zero word. -/
theorem C23_denon_stale_bits (t : Target) (w : BitVec 48) :
    ∃ gap, results (denonDecoder t Mono.u32 (denonTable 1000000)) id
      (Spec.pulses [(3400, 1600), (420, 1260), (420, gap)] ++ Spec.pulses (Spec.nominalDenon w)) =
        some (List.replicate 103 (.ok none) ++
          [.ok (some { bits := 1#64 ||| (w.setWidth 47).setWidth 64 })]) := by
  refine ⟨100000, ?_⟩
  have h1 : runStep (denonFn t Mono.u32 (denonTable 1000000)) denonInit
      (Spec.pulses [(3400, 1600), (420, 1260), (420, 100000)]) =
      some ({ state := .idle, buf := 1, dtSave := 0 }, List.replicate 6 (.ok none)) := rfl
  have h2 := denon_frame t Mono.u32 (denonTable 1000000) Mono.u32_lawful
    (denon_unambiguous _ (by decide)) (denonTable_fits (by decide) (by decide))
    { state := .idle, buf := 1, dtSave := 0 } rfl w _ (nominalDenon_frame w)
  refine (results_of (D := denonDecoder t Mono.u32 (denonTable 1000000)) id
    (run_append_some h1 h2)).trans ?_
  simp only [Spec.low47, List.map_append, List.map_replicate, List.map_cons, List.map_nil]
  rfl

/-! ## C51: soundness -/

/-- What the decoder state says about the history. -/
structure DenonInv (width : Nat) (tbl : PulseSpans) (h : List Ev) (d : DenonDecoder) : Prop where
  ready : d.Ready
  saved : d.dtSave = savedAfter 0 h
  high : ∀ i, 47 ≤ i → d.buf.getLsbD i = false
  data : ∀ n, d.state = .data n → ∃ w : BitVec 48,
    EndsP tbl (Spec.periods width h) ([0] ++ bitSlots 1 2 w.getLsbD n) ∧
    ∀ i, i < n → i < 47 → w.getLsbD i = true → d.buf.getLsbD i = true

theorem bitSlots_set {W n : Nat} (lo hi : Nat) (b : BitVec W) (hn : n < W) (v : Bool) :
    ∃ b' : BitVec W, bitSlots lo hi b'.getLsbD (n + 1) =
      bitSlots lo hi b.getLsbD n ++ [if v then hi else lo] ∧ b'.getLsbD n = v ∧
      ∀ i, i ≠ n → b'.getLsbD i = b.getLsbD i := by
  refine ⟨(b &&& ~~~ ((1 : BitVec W) <<< n)) ||| (if v then (1 : BitVec W) <<< n else 0), ?_⟩
  have key : ∀ i, i < W → ((b &&& ~~~ ((1 : BitVec W) <<< n)) |||
      (if v then (1 : BitVec W) <<< n else 0)).getLsbD i =
      if i = n then v else b.getLsbD i := by
    intro i hi
    rw [BitVec.getLsbD_or, BitVec.getLsbD_and, BitVec.getLsbD_not, getLsbD_one_shl _ _ _ hn]
    cases v
    · by_cases h : i = n
      · simp [h]
      · simp [h, hi]
    · simp only [if_true]
      rw [getLsbD_one_shl _ _ _ hn]
      by_cases h : i = n <;> simp [h, hi]
  refine ⟨?_, ?_, ?_⟩
  · rw [bitSlots_succ]
    congr 1
    · apply bitSlots_congr
      intro i hi'
      rw [key i (by omega), if_neg (by omega)]
    · rw [key n hn, if_pos rfl]
  · rw [key n hn, if_pos rfl]
  · intro i hi
    by_cases hW : i < W
    · rw [key i hW, if_neg hi]
    · rw [BitVec.getLsbD_of_ge _ _ (by omega), BitVec.getLsbD_of_ge _ _ (by omega)]

section
variable (t : Target) (m : Mono) (tbl : PulseSpans)

theorem denon_step_inv {P : List Nat} {st : DenonState} {b : BitVec 64}
    (hd : st = .idle ∨ ∃ n, n < 48 ∧ st = .data n)
    (hhigh : ∀ i, 47 ≤ i → b.getLsbD i = false)
    (hdata : ∀ n, st = .data n → ∃ w : BitVec 48,
      EndsP tbl P ([0] ++ bitSlots 1 2 w.getLsbD n) ∧
      ∀ i, i < n → i < 47 → w.getLsbD i = true → b.getLsbD i = true) (total : Nat) :
    let q := denonStep st b (DenonPulse.classify tbl total)
    q.1.dtSave = 0 ∧
    (∀ i, 47 ≤ i → q.1.buf.getLsbD i = false) ∧
    (∀ n, q.1.state = .data n → ∃ w : BitVec 48,
      EndsP tbl (P ++ [total]) ([0] ++ bitSlots 1 2 w.getLsbD n) ∧
      ∀ i, i < n → i < 47 → w.getLsbD i = true → q.1.buf.getLsbD i = true) ∧
    (∀ e, q.2 ≠ .error e) ∧
    (∀ c, q.2 = .ok (some c) → ∃ w : BitVec 48,
      EndsP tbl (P ++ [total]) (Spec.denonSlots w) ∧
      (∀ i, i < 47 → w.getLsbD i = true → c.bits.getLsbD i = true) ∧
      ∀ i, 47 ≤ i → c.bits.getLsbD i = false) := by
  obtain ⟨c0, c1, c2⟩ := denon_classify_iff tbl total
  have g0 := fun h => get_inTol (c0.mp h)
  have g1 := fun h => get_inTol (c1.mp h)
  have g2 := fun h => get_inTol (c2.mp h)
  generalize DenonPulse.classify tbl total = pw at g0 g1 g2
  clear c0 c1 c2
  rcases hd with h | ⟨n, hn, h⟩ <;> subst h
  · cases pw
    · dsimp only [denonStep]
      refine ⟨rfl, hhigh, ?_, by simp, by simp⟩
      intro n hn
      simp only [DenonState.data.injEq] at hn
      subst hn
      exact ⟨0, (EndsP.nil tbl P).snoc (g0 rfl), by simp⟩
    all_goals
      dsimp only [denonStep]
      exact ⟨rfl, hhigh, by simp, by simp, by simp⟩
  · obtain ⟨w, hP, hw⟩ := hdata n rfl
    have hbit : ∀ v : Bool, Spec.InTol tbl (if v then 2 else 1) total → ∃ w' : BitVec 48,
        EndsP tbl (P ++ [total]) ([0] ++ bitSlots 1 2 w'.getLsbD (n + 1)) ∧
        w'.getLsbD n = v ∧ ∀ i, i < n → i < 47 → w'.getLsbD i = true → b.getLsbD i = true := by
      intro v hv
      obtain ⟨w', h1, h2, h3⟩ := bitSlots_set 1 2 w hn v
      refine ⟨w', ?_, h2, fun i hi hi' hwi => hw i hi hi' ?_⟩
      · rw [h1, ← List.append_assoc]
        exact hP.snoc hv
      · rw [← h3 i (by omega)]; exact hwi
    cases pw
    case zero =>
      obtain ⟨w', h1, h2, h3⟩ := hbit false (g1 rfl)
      dsimp only [denonStep]
      split
      · rename_i h47
        subst h47
        refine ⟨rfl, by simp [denonInit], by simp [denonInit], by simp, ?_⟩
        intro c hc
        simp only [Except.ok.injEq, Option.some.injEq] at hc
        subst hc
        exact ⟨w', h1, fun i hi hwi => h3 i hi hi hwi, hhigh⟩
      · refine ⟨rfl, hhigh, ?_, by simp, by simp⟩
        intro k hk
        simp only [DenonState.data.injEq] at hk
        subst hk
        refine ⟨w', h1, fun i hi hi' hwi => ?_⟩
        by_cases hin : i = n
        · subst hin; rw [h2] at hwi; cases hwi
        · exact h3 i (by omega) hi' hwi
    case one =>
      obtain ⟨w', h1, h2, h3⟩ := hbit true (g2 rfl)
      dsimp only [denonStep]
      split
      · rename_i h47
        subst h47
        refine ⟨rfl, by simp [denonInit], by simp [denonInit], by simp, ?_⟩
        intro c hc
        simp only [Except.ok.injEq, Option.some.injEq] at hc
        subst hc
        exact ⟨w', h1, fun i hi hwi => h3 i hi hi hwi, hhigh⟩
      · rename_i h47
        refine ⟨rfl, ?_, ?_, by simp, by simp⟩
        · intro i hi
          have hin : i ≠ n := by omega
          dsimp only
          rw [getLsbD_or_shl _ _ _ _ (by omega), hhigh i hi]
          simp [hin]
        · intro k hk
          simp only [DenonState.data.injEq] at hk
          subst hk
          refine ⟨w', h1, fun i hi hi' hwi => ?_⟩
          dsimp only
          rw [getLsbD_or_shl _ _ _ _ (by omega)]
          by_cases hin : i = n
          · simp [hin]
          · rw [h3 i (by omega) hi' hwi]; rfl
    all_goals
      dsimp only [denonStep]
      exact ⟨rfl, hhigh, by simp, by simp, by simp⟩

theorem denon_inv_step (hm : m.Lawful) {h : List Ev} {e : Ev} {d d' : DenonDecoder}
    {r : Res DenonCommand} (hi : DenonInv m.width tbl h d)
    (hs : denonFn t m tbl d e = some (d', r)) :
    DenonInv m.width tbl (h ++ [e]) d' ∧ (∀ x, r ≠ .error x) ∧
    ∀ c, r = .ok (some c) → ∃ w : BitVec 48,
      Spec.EndsWith m.width tbl (Spec.denonSlots w) (h ++ [e]) ∧
      (∀ i, i < 47 → w.getLsbD i = true → c.bits.getLsbD i = true) ∧
      ∀ i, 47 ≤ i → c.bits.getLsbD i = false := by
  have hready := denon_ready_step t m tbl hi.ready hs
  rcases denon_event_cases t m tbl hi.ready hs with ⟨he, rfl, rfl⟩ | ⟨he, total, ha, hst⟩
  · obtain ⟨b, dt⟩ := e
    dsimp only at he
    subst he
    refine ⟨⟨hready, ?_, hi.high, ?_⟩, by simp, by simp⟩
    · rw [savedAfter_append]; rfl
    · have : Spec.periods m.width (h ++ [(false, dt)]) = Spec.periods m.width h := by
        rw [Spec.periods, periodsFrom_append]; simp [Spec.periodsFrom, Spec.periods]
      rw [this]; exact hi.data
  · obtain ⟨b, dt⟩ := e
    dsimp only at he
    subst he
    have htot : total = (savedAfter 0 h + dt) % 2 ^ m.width := by
      rw [← hi.saved]; exact hm.wraps _ _ _ _ ha
    have hP : Spec.periods m.width (h ++ [(true, dt)]) = Spec.periods m.width h ++ [total] := by
      rw [Spec.periods, periodsFrom_append, htot]; rfl
    have hE := denon_step_inv tbl hi.ready hi.high hi.data total
    rw [← hst] at hE
    obtain ⟨h0, h1, h2, h3, h4⟩ := hE
    refine ⟨⟨hready, ?_, h1, ?_⟩, h3, ?_⟩
    · rw [savedAfter_append]; exact h0
    · rw [hP]; exact h2
    · intro c hc
      obtain ⟨w, h5, h6⟩ := h4 c hc
      refine ⟨w, ?_, h6⟩
      unfold Spec.EndsWith
      rw [hP]
      exact h5

theorem denon_inv_run (hm : m.Lawful) {evs : List Ev} {s : DenonDecoder}
    {o : List (Res DenonCommand)} (h : runStep (denonFn t m tbl) denonInit evs = some (s, o)) :
    DenonInv m.width tbl evs s := by
  have := run_inv (f := denonFn t m tbl) (fun h s => DenonInv m.width tbl h s)
    (fun h s e s' r hi hs => (denon_inv_step t m tbl hm hi hs).1)
    (h0 := []) (s0 := denonInit) ⟨denonInit_ready, rfl, by simp [denonInit], by simp [denonInit]⟩ h
  simpa using this

end

/-- **C51**: if a Denon receiver returns a command, the history up to that edge ends with a Denon
frame; every bit set among the first 47 of the frame is set in the command, and the command has no
bit from 47 up. (The converse inclusion fails: `C23_denon_stale_bits`.) -/
theorem C51_denon_sound (t : Target) (m : Mono) (hm : m.Lawful) (tbl : PulseSpans)
    (evs : List Ev) (outs : List (Res DenonCommand))
    (h : results (denonDecoder t m tbl) id evs = some outs) (i : Nat) (c : DenonCommand)
    (hk : outs[i]? = some (.ok (some c))) :
    ∃ w : BitVec 48, Spec.EndsWith m.width tbl (Spec.denonSlots w) (evs.take (i + 1)) ∧
      (∀ j, j < 47 → w.getLsbD j = true → c.bits.getLsbD j = true) ∧
      ∀ j, 47 ≤ j → c.bits.getLsbD j = false := by
  obtain ⟨s, o, hrun, rfl⟩ := denon_results_inv t m tbl h
  rw [List.getElem?_map] at hk
  rcases ho : o[i]? with _ | x
  · simp [ho] at hk
  rw [ho] at hk
  simp only [Option.map_some, Option.some.injEq] at hk
  rcases x with _ | _ | c'
  · simp [Res.map] at hk
  · simp [Res.map] at hk
  obtain ⟨e, s1, o1, s1', -, h1, h2, h3, -, -⟩ := run_get hrun ho
  obtain ⟨-, -, h4⟩ := denon_inv_step t m tbl hm (denon_inv_run t m tbl hm h1) h2
  have hcc : c' = c := by simpa [Res.map] using hk
  subst hcc
  rw [h3]
  exact h4 c' rfl

/-- Non-vacuity: a frame after an aborted one does return a command. -/
example : (results (denonDecoder { usizeBits := 32, overflowChecks := true } Mono.u32
    (denonTable 1000000)) id (Spec.pulses [(3400, 1600), (420, 1260), (420, 100000)] ++
      Spec.pulses (Spec.nominalDenon 2))).bind (fun o => o[103]?) =
    some (.ok (some { bits := 3 })) := rfl

end Infrared
