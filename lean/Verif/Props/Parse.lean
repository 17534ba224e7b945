import Verif.Spec.Parse
import Verif.Props.Streams
import Verif.Lemmas.Rc6

/-!
# Complete descriptions of the pulse-distance receivers (C67)

What a receiver says about a history is what the parsers of `Spec.Parse` read off it, for every history.
-/

namespace Infrared

open Spec

variable {C K : Type}

theorem leadingBits_length_le (z o k : Nat) (ss : List (Option Nat)) :
    (leadingBits z o k ss).length ≤ k ∧ (leadingBits z o k ss).length ≤ ss.length := by
  induction ss generalizing k with
  | nil => cases k <;> simp [leadingBits]
  | cons s ss ih =>
    cases k with
    | zero => simp [leadingBits]
    | succ k =>
      have := ih k
      unfold leadingBits
      split
      · simp only [List.length_cons]; omega
      · split
        · simp only [List.length_cons]; omega
        · simp

theorem wordOf_cons_shift {n : Nat} (b : BitVec n) (x : Bool) (bs : List Bool) (i : Nat) :
    b ||| wordOf n (x :: bs) <<< i =
      (if x then b ||| (1 : BitVec n) <<< i else b) ||| wordOf n bs <<< (i + 1) := by
  rw [wordOf, BitVec.shiftLeft_or_distrib, ← BitVec.shiftLeft_add, Nat.add_comm 1 i, ← BitVec.or_assoc]
  cases x
  · simp
  · rfl

theorem said_cons (r : Res C) (rs : List (Res C)) : said (r :: rs) = said [r] ++ said rs :=
  said_append [r] rs

/-! ## NEC family -/

/-- The decoder on a list of symbols. -/
def necSyms (v : NecVariant C) : NecState → BitVec 32 → List NecPulse → List (Res C)
  | _, _, [] => []
  | st, b, p :: ps =>
    said [(necStep v st b p).2] ++ necSyms v (necStep v st b p).1.state (necStep v st b p).1.bitbuf ps

theorem necStep_dtSave (v : NecVariant C) (st : NecState) (b : BitVec 32) (p : NecPulse) :
    (necStep v st b p).1.dtSave = 0 := by
  unfold necStep
  repeat' split
  all_goals rfl

theorem nec_said_syms (t : Target) (m : Mono) (hm : m.Lawful) (tbl : PulseSpans) (v : NecVariant C)
    (evs : List Ev) (d d' : NecDecoder) (hd : d.Ready) (o : List (Res C))
    (h : runStep (necFn t m tbl v) d evs = some (d', o)) :
    said o = necSyms v d.state d.bitbuf
      ((periodsFrom m.width d.dtSave evs).map (NecPulse.classify tbl)) := by
  induction evs generalizing d o with
  | nil => simp only [runStep, Option.some.injEq, Prod.mk.injEq] at h; rw [← h.2]; rfl
  | cons e es ih =>
    obtain ⟨s1, r, o', h1, h2, rfl⟩ := run_cons_inv h
    have hr := nec_ready_step t m tbl v hd h1
    rw [said_cons, ih s1 hr o' h2]
    rcases nec_event_cases t m tbl v hd h1 with ⟨he, rfl, rfl⟩ | ⟨he, total, ha, hs⟩
    · obtain ⟨e1, dt⟩ := e
      dsimp only at he; subst he
      rfl
    · obtain ⟨e1, dt⟩ := e
      dsimp only at he; subst he
      have ht := hm.wraps t dt d.dtSave total ha
      have hdt : s1.dtSave = 0 := by
        rw [show s1 = (necStep v d.state d.bitbuf (NecPulse.classify tbl total)).1 from congrArg Prod.fst hs]
        exact necStep_dtSave v _ _ _
      simp only [periodsFrom, List.map_cons, necSyms]
      rw [Nat.add_comm d.dtSave dt, ← ht, ← hs, hdt]

/-- The symbol of a slot. -/
def necPulseOf : Option Nat → NecPulse
  | some i => NecPulse.ofIdx i
  | none => .invalid

theorem nec_classify_get (tbl : PulseSpans) : NecPulse.classify tbl = necPulseOf ∘ tbl.get := by
  funext d
  unfold NecPulse.classify necPulseOf Function.comp
  rcases tbl.get d with _ | i <;> rfl

theorem necPulseOf_other {s : Option Nat} (h2 : s ≠ some 2) (h3 : s ≠ some 3) :
    necPulseOf s ≠ .zero ∧ necPulseOf s ≠ .one := by
  rcases s with _ | _ | _ | _ | _ | n <;> simp_all [necPulseOf, NecPulse.ofIdx]

theorem necPulseOf_init {s : Option Nat} (h2 : s ≠ some 0) (h3 : s ≠ some 1) :
    necPulseOf s ≠ .sync ∧ necPulseOf s ≠ .rep := by
  rcases s with _ | _ | _ | _ | _ | n <;> simp_all [necPulseOf, NecPulse.ofIdx]

theorem necSyms_bits (v : NecVariant C) (ss : List (Option Nat)) (n : Nat) (hn : n < 32) (b : BitVec 32) :
    necSyms v (.receiving n) b (ss.map necPulseOf) =
      let bits := leadingBits 2 3 (32 - n) ss
      let w := b ||| wordOf 32 bits <<< n
      if bits.length = 32 - n then
        said [.ok (v.unpack w false)] ++ necSyms v .init w ((ss.drop (32 - n)).map necPulseOf)
      else if ss.length ≤ bits.length then []
      else .error .data :: necSyms v .init w ((ss.drop (bits.length + 1)).map necPulseOf) := by
  induction ss generalizing n b with
  | nil =>
    have : leadingBits 2 3 (32 - n) [] = [] := by
      obtain ⟨k, hk⟩ : ∃ k, 32 - n = k + 1 := ⟨31 - n, by omega⟩
      rw [hk]; rfl
    simp only [this, List.length_nil, List.map_nil, necSyms]
    rw [if_neg (by omega), if_pos (by omega)]
  | cons s ss ih =>
    obtain ⟨k, hk⟩ : ∃ k, 32 - n = k + 1 := ⟨31 - n, by omega⟩
    have hk' : 32 - (n + 1) = k := by omega
    have hbit : ∀ x : Bool, necPulseOf s = (if x then .one else .zero) →
        leadingBits 2 3 (k + 1) (s :: ss) = x :: leadingBits 2 3 k ss → necSyms v (.receiving n) b ((s :: ss).map necPulseOf) =
      let bits := leadingBits 2 3 (k + 1) (s :: ss)
      let w := b ||| wordOf 32 bits <<< n
      if bits.length = k + 1 then
        said [.ok (v.unpack w false)] ++ necSyms v .init w (((s :: ss).drop (k + 1)).map necPulseOf)
      else if (s :: ss).length ≤ bits.length then []
      else .error .data :: necSyms v .init w (((s :: ss).drop (bits.length + 1)).map necPulseOf) := by
      intro x hp hl
      rw [hl, List.map_cons, necSyms, hp]
      dsimp only
      rw [wordOf_cons_shift]
      by_cases h31 : n = 31
      · obtain rfl : k = 0 := by omega
        subst h31
        cases x <;> simp [necStep, leadingBits, wordOf]
      · have hstep : necStep v (.receiving n) b (if x then .one else .zero) =
            ({ state := .receiving (n + 1), bitbuf := if x then b ||| (1 : BitVec 32) <<< n else b, dtSave := 0 },
              .ok none) := by
          cases x <;> simp [necStep, h31]
        rw [hstep, show said [(Except.ok none : Res C)] = [] from rfl, List.nil_append]
        dsimp only
        rw [ih (n + 1) (by omega), hk']
        simp only [List.length_cons, Nat.add_right_cancel_iff, List.drop_succ_cons, Nat.add_le_add_iff_right]
    rw [hk]
    by_cases h3 : s = some 3
    · exact hbit true (by rw [h3]; rfl) (by rw [leadingBits, if_pos h3])
    · by_cases h2 : s = some 2
      · exact hbit false (by rw [h2]; rfl) (by rw [leadingBits, if_neg h3, if_pos h2])
      · have hl : leadingBits 2 3 (k + 1) (s :: ss) = [] := by rw [leadingBits, if_neg h3, if_neg h2]
        obtain ⟨n2, n3⟩ := necPulseOf_other h2 h3
        have hstep : necStep v (.receiving n) b (necPulseOf s) =
            ({ state := .init, bitbuf := b, dtSave := 0 }, .error .data) := by
          generalize necPulseOf s = p at n2 n3
          cases p <;> simp_all [necStep]
        rw [hl, List.map_cons, necSyms, hstep]
        simp [wordOf, said]

theorem necSyms_init (v : NecVariant C) (n : Nat) (ss : List (Option Nat)) (hn : ss.length ≤ n) (b : BitVec 32) :
    necSyms v .init b (ss.map necPulseOf) = necParse v.unpack b ss := by
  induction n generalizing ss b with
  | zero =>
    obtain rfl := List.eq_nil_of_length_eq_zero (Nat.le_zero.mp hn)
    rw [necParse]; rfl
  | succ n ih =>
    rcases ss with _ | ⟨s, ss⟩
    · rw [necParse]; rfl
    · simp only [List.length_cons] at hn
      rw [necParse, List.map_cons, necSyms]
      by_cases h0 : s = some 0
      · rw [if_pos h0, h0]
        change said [.ok none] ++ necSyms v (.receiving 0) 0 (ss.map necPulseOf) = _
        rw [necSyms_bits v ss 0 (by omega) 0]
        have hz : (0 : BitVec 32) ||| wordOf 32 (leadingBits 2 3 32 ss) <<< 0 = wordOf 32 (leadingBits 2 3 32 ss) := by
          simp
        simp only [Nat.sub_zero, hz]
        rw [ih (ss.drop 32) (by rw [List.length_drop]; omega),
          ih (ss.drop _) (by rw [List.length_drop]; omega)]
        rfl
      · rw [if_neg h0]
        by_cases h1 : s = some 1
        · rw [if_pos h1, h1, ← ih ss (by omega)]
          rfl
        · rw [if_neg h1, ← ih ss (by omega)]
          obtain ⟨n0, n1⟩ := necPulseOf_init h0 h1
          have hstep : necStep v .init b (necPulseOf s) = ({ state := .init, bitbuf := b, dtSave := 0 }, .ok none) := by
            generalize necPulseOf s = p at n0 n1
            cases p <;> simp_all [necStep]
          rw [hstep]
          rfl

/-- **C67**, NEC family: what a receiver says about any history is what the parser reads off its symbols. -/
theorem C67_nec (t : Target) (m : Mono) (hm : m.Lawful) (tbl : PulseSpans) (v : NecVariant C) (conv : C → K)
    (evs : List Ev) (outs : List (Res K)) (h : results (necDecoder t m tbl v) conv evs = some outs) :
    said outs = (necParse v.unpack 0 (symbols m.width tbl evs)).map (Res.map conv) := by
  obtain ⟨d, o, hr, rfl⟩ := nec_results_inv t m tbl v h
  rw [said_map, nec_said_syms t m hm tbl v evs _ d (.inl rfl) o hr, nec_classify_get, ← List.map_map]
  exact congrArg _ (necSyms_init v _ _ (Nat.le_refl _) 0)

/-! ## Denon -/

/-- The decoder on a list of symbols. -/
def denonSyms : DenonState → BitVec 64 → List DenonPulse → List (Res DenonCommand)
  | _, _, [] => []
  | st, b, p :: ps =>
    said [(denonStep st b p).2] ++ denonSyms (denonStep st b p).1.state (denonStep st b p).1.buf ps

theorem denonStep_dtSave (st : DenonState) (b : BitVec 64) (p : DenonPulse) :
    (denonStep st b p).1.dtSave = 0 := by
  unfold denonStep
  repeat' split
  all_goals rfl

theorem denon_said_syms (t : Target) (m : Mono) (hm : m.Lawful) (tbl : PulseSpans)
    (evs : List Ev) (d d' : DenonDecoder) (hd : d.Ready) (o : List (Res DenonCommand))
    (h : runStep (denonFn t m tbl) d evs = some (d', o)) :
    said o = denonSyms d.state d.buf
      ((periodsFrom m.width d.dtSave evs).map (DenonPulse.classify tbl)) := by
  induction evs generalizing d o with
  | nil => simp only [runStep, Option.some.injEq, Prod.mk.injEq] at h; rw [← h.2]; rfl
  | cons e es ih =>
    obtain ⟨s1, r, o', h1, h2, rfl⟩ := run_cons_inv h
    have hr := denon_ready_step t m tbl hd h1
    rw [said_cons, ih s1 hr o' h2]
    rcases denon_event_cases t m tbl hd h1 with ⟨he, rfl, rfl⟩ | ⟨he, total, ha, hs⟩
    · obtain ⟨e1, dt⟩ := e
      dsimp only at he; subst he
      rfl
    · obtain ⟨e1, dt⟩ := e
      dsimp only at he; subst he
      have ht := hm.wraps t d.dtSave dt total ha
      have hdt : s1.dtSave = 0 := by
        rw [show s1 = (denonStep d.state d.buf (DenonPulse.classify tbl total)).1 from congrArg Prod.fst hs]
        exact denonStep_dtSave _ _ _
      simp only [periodsFrom, List.map_cons, denonSyms]
      rw [← ht, ← hs, hdt]

/-- The symbol of a slot. -/
def denonPulseOf : Option Nat → DenonPulse
  | some i => DenonPulse.ofIdx i
  | none => .fail

theorem denon_classify_get (tbl : PulseSpans) : DenonPulse.classify tbl = denonPulseOf ∘ tbl.get := by
  funext d
  unfold DenonPulse.classify denonPulseOf Function.comp
  rcases tbl.get d with _ | i <;> rfl

theorem denonPulseOf_other {s : Option Nat} (h2 : s ≠ some 1) (h3 : s ≠ some 2) :
    denonPulseOf s ≠ .zero ∧ denonPulseOf s ≠ .one := by
  rcases s with _ | _ | _ | _ | n <;> simp_all [denonPulseOf, DenonPulse.ofIdx]

theorem denonPulseOf_init {s : Option Nat} (h2 : s ≠ some 0) : denonPulseOf s ≠ .sync := by
  rcases s with _ | _ | _ | _ | n <;> simp_all [denonPulseOf, DenonPulse.ofIdx]

theorem denonSyms_bits (ss : List (Option Nat)) (n : Nat) (hn : n < 48) (b : BitVec 64) :
    denonSyms (.data n) b (ss.map denonPulseOf) =
      let bits := leadingBits 1 2 (48 - n) ss
      if bits.length = 48 - n then
        .ok (some { bits := b ||| wordOf 64 (bits.take (47 - n)) <<< n }) ::
          denonSyms .idle 0 ((ss.drop (48 - n)).map denonPulseOf)
      else denonSyms .idle (b ||| wordOf 64 bits <<< n) ((ss.drop (bits.length + 1)).map denonPulseOf) := by
  induction ss generalizing n b with
  | nil =>
    have : leadingBits 1 2 (48 - n) [] = [] := by
      obtain ⟨k, hk⟩ : ∃ k, 48 - n = k + 1 := ⟨47 - n, by omega⟩
      rw [hk]; rfl
    simp only [this, List.length_nil]
    rw [if_neg (by omega)]
    rfl
  | cons s ss ih =>
    obtain ⟨k, hk⟩ : ∃ k, 48 - n = k + 1 := ⟨47 - n, by omega⟩
    have hk' : 48 - (n + 1) = k := by omega
    have hk47 : 47 - n = k := by omega
    have hbit : ∀ x : Bool, denonPulseOf s = (if x then .one else .zero) →
        leadingBits 1 2 (k + 1) (s :: ss) = x :: leadingBits 1 2 k ss →
        denonSyms (.data n) b ((s :: ss).map denonPulseOf) =
      let bits := leadingBits 1 2 (k + 1) (s :: ss)
      if bits.length = k + 1 then
        .ok (some { bits := b ||| wordOf 64 (bits.take k) <<< n }) ::
          denonSyms .idle 0 (((s :: ss).drop (k + 1)).map denonPulseOf)
      else denonSyms .idle (b ||| wordOf 64 bits <<< n) (((s :: ss).drop (bits.length + 1)).map denonPulseOf) := by
      intro x hp hl
      rw [hl, List.map_cons, denonSyms, hp]
      dsimp only
      by_cases h47 : n = 47
      · obtain rfl : k = 0 := by omega
        subst h47
        cases x <;> simp [denonStep, leadingBits, wordOf, denonInit, said]
      · have hstep : denonStep (.data n) b (if x then .one else .zero) =
            ({ state := .data (n + 1), buf := if x then b ||| (1 : BitVec 64) <<< n else b, dtSave := 0 },
              .ok none) := by
          cases x <;> simp [denonStep, h47]
        obtain ⟨j, rfl⟩ : ∃ j, k = j + 1 := ⟨k - 1, by omega⟩
        have hj : 47 - (n + 1) = j := by omega
        rw [hstep, show said [(Except.ok none : Res DenonCommand)] = [] from rfl, List.nil_append]
        dsimp only
        rw [ih (n + 1) (by omega), hk', hj]
        simp only [List.length_cons, Nat.add_right_cancel_iff, List.drop_succ_cons, List.take_succ_cons,
          wordOf_cons_shift]
    rw [hk, hk47]
    by_cases h3 : s = some 2
    · exact hbit true (by rw [h3]; rfl) (by rw [leadingBits, if_pos h3])
    · by_cases h2 : s = some 1
      · exact hbit false (by rw [h2]; rfl) (by rw [leadingBits, if_neg h3, if_pos h2])
      · have hl : leadingBits 1 2 (k + 1) (s :: ss) = [] := by rw [leadingBits, if_neg h3, if_neg h2]
        obtain ⟨n2, n3⟩ := denonPulseOf_other h2 h3
        have hstep : denonStep (.data n) b (denonPulseOf s) =
            ({ state := .idle, buf := b, dtSave := 0 }, .ok none) := by
          generalize denonPulseOf s = p at n2 n3
          cases p <;> simp_all [denonStep]
        rw [hl, List.map_cons, denonSyms, hstep]
        simp [wordOf, said]

theorem denonSyms_idle (n : Nat) (ss : List (Option Nat)) (hn : ss.length ≤ n) (b : BitVec 64) :
    denonSyms .idle b (ss.map denonPulseOf) = denonParse b ss := by
  induction n generalizing ss b with
  | zero =>
    obtain rfl := List.eq_nil_of_length_eq_zero (Nat.le_zero.mp hn)
    rw [denonParse]; rfl
  | succ n ih =>
    rcases ss with _ | ⟨s, ss⟩
    · rw [denonParse]; rfl
    · simp only [List.length_cons] at hn
      rw [denonParse, List.map_cons, denonSyms]
      by_cases h0 : s = some 0
      · rw [if_pos h0, h0]
        change said [.ok none] ++ denonSyms (.data 0) b (ss.map denonPulseOf) = _
        rw [denonSyms_bits ss 0 (by omega) b]
        simp only [Nat.sub_zero, BitVec.shiftLeft_zero]
        rw [ih (ss.drop 48) (by rw [List.length_drop]; omega),
          ih (ss.drop _) (by rw [List.length_drop]; omega)]
        rfl
      · rw [if_neg h0, ← ih ss (by omega)]
        have n0 := denonPulseOf_init h0
        have hstep : denonStep .idle b (denonPulseOf s) = ({ state := .idle, buf := b, dtSave := 0 }, .ok none) := by
          generalize denonPulseOf s = p at n0
          cases p <;> simp_all [denonStep]
        rw [hstep]
        rfl

/-- **C67**, Denon. -/
theorem C67_denon (t : Target) (m : Mono) (hm : m.Lawful) (tbl : PulseSpans) (conv : DenonCommand → K)
    (evs : List Ev) (outs : List (Res K)) (h : results (denonDecoder t m tbl) conv evs = some outs) :
    said outs = (denonParse 0 (symbols m.width tbl evs)).map (Res.map conv) := by
  obtain ⟨d, o, hr, rfl⟩ := denon_results_inv t m tbl h
  rw [said_map, denon_said_syms t m hm tbl evs _ d denonInit_ready o hr, denon_classify_get, ← List.map_map]
  exact congrArg _ (denonSyms_idle _ _ (Nat.le_refl _) 0)

/-! ## SBP -/

/-- The decoder on a list of symbols. -/
def sbpSyms : SbpDecoder → List SbpPulse → List (Res SbpCommand)
  | _, [] => []
  | d, p :: ps => said [(sbpStep d p).2] ++ sbpSyms (sbpStep d p).1 ps

/-- The time since the last rising edge does not matter for the step. -/
theorem sbpStep_since (d : SbpDecoder) (x : Nat) (p : SbpPulse) :
    (sbpStep { d with sinceRising := x } p).2 = (sbpStep d p).2 ∧
    ∃ y, (sbpStep { d with sinceRising := x } p).1 = { (sbpStep d p).1 with sinceRising := y } := by
  obtain ⟨st, a, c, s⟩ := d
  cases st <;> cases p <;> unfold sbpStep <;> dsimp only <;> (try split) <;>
    exact ⟨rfl, _, rfl⟩

theorem sbpSyms_since (d : SbpDecoder) (x : Nat) (ps : List SbpPulse) :
    sbpSyms { d with sinceRising := x } ps = sbpSyms d ps := by
  induction ps generalizing d x with
  | nil => rfl
  | cons p ps ih =>
    obtain ⟨h1, y, h2⟩ := sbpStep_since d x p
    rw [sbpSyms, sbpSyms, h1, h2, ih]

theorem sbp_said_syms (t : Target) (m : Mono) (hm : m.Lawful) (tbl : PulseSpans)
    (evs : List Ev) (d d' : SbpDecoder) (hd : d.Ready) (o : List (Res SbpCommand))
    (sv : Nat) (halt : Alternating evs) (hfirst : ∀ e es, evs = e :: es → e.1 = true → d.sinceRising = sv)
    (h : runStep (sbpFn t m tbl) d evs = some (d', o)) :
    said o = sbpSyms d ((periodsFrom m.width sv evs).map (SbpPulse.classify tbl)) := by
  induction evs generalizing d o sv with
  | nil => simp only [runStep, Option.some.injEq, Prod.mk.injEq] at h; rw [← h.2]; rfl
  | cons e es ih =>
    obtain ⟨s1, r, o', h1, h2, rfl⟩ := run_cons_inv h
    have hr := sbp_ready_step t m tbl hd h1
    have halt' : Alternating es := by
      cases es with
      | nil => trivial
      | cons _ _ => exact halt.2
    rcases sbp_event_cases t m tbl hd h1 with ⟨he, rfl, rfl⟩ | ⟨he, total, ha, hs⟩
    · obtain ⟨e1, dt⟩ := e
      dsimp only at he; subst he
      rw [said_cons, ih _ hr o' dt halt' (fun _ _ _ _ => rfl) h2, sbpSyms_since]
      rfl
    · obtain ⟨e1, dt⟩ := e
      dsimp only at he; subst he
      rw [said_cons, ih _ hr o' 0 halt' (by
        rintro e es rfl h'
        exact absurd h'.symm halt.1) h2]
      have ht := hm.wraps t d.sinceRising dt total ha
      rw [hfirst _ _ rfl rfl] at ht
      simp only [periodsFrom, List.map_cons, sbpSyms]
      rw [← ht, ← hs]

/-- The symbol of a slot. -/
def sbpPulseOf : Option Nat → SbpPulse
  | some i => SbpPulse.ofIdx i
  | none => .notAPulseWidth

theorem sbp_classify_get (tbl : PulseSpans) : SbpPulse.classify tbl = sbpPulseOf ∘ tbl.get := by
  funext d
  unfold SbpPulse.classify sbpPulseOf Function.comp
  rcases tbl.get d with _ | i <;> rfl

theorem sbpPulseOf_other {s : Option Nat} (h2 : s ≠ some 2) (h3 : s ≠ some 3) :
    sbpPulseOf s ≠ .zero ∧ sbpPulseOf s ≠ .one := by
  rcases s with _ | _ | _ | _ | _ | n <;> simp_all [sbpPulseOf, SbpPulse.ofIdx]

theorem sbpPulseOf_sync {s : Option Nat} (h2 : s ≠ some 0) : sbpPulseOf s ≠ .sync := by
  rcases s with _ | _ | _ | _ | _ | n <;> simp_all [sbpPulseOf, SbpPulse.ofIdx]

theorem sbpPulseOf_paus {s : Option Nat} (h2 : s ≠ some 1) : sbpPulseOf s ≠ .paus := by
  rcases s with _ | _ | _ | _ | _ | n <;> simp_all [sbpPulseOf, SbpPulse.ofIdx]

theorem sbpSyms_command (ss : List (Option Nat)) (n : Nat) (hn : n < 20) (a : BitVec 16) (c : BitVec 32) (x : Nat) :
    sbpSyms ⟨.command n, a, c, x⟩ (ss.map sbpPulseOf) =
      let bits := leadingBits 2 3 (20 - n) ss
      if bits.length = 20 - n then
        .ok (some (SbpCommand.unpack a (c ||| wordOf 32 bits <<< n))) ::
          sbpSyms sbpInit ((ss.drop (20 - n)).map sbpPulseOf)
      else if ss.length ≤ bits.length then []
      else .error .data :: sbpSyms sbpInit ((ss.drop (bits.length + 1)).map sbpPulseOf) := by
  induction ss generalizing n c with
  | nil =>
    have : leadingBits 2 3 (20 - n) [] = [] := by
      obtain ⟨k, hk⟩ : ∃ k, 20 - n = k + 1 := ⟨19 - n, by omega⟩
      rw [hk]; rfl
    simp only [this, List.length_nil]
    rw [if_neg (by omega)]
    rfl
  | cons s ss ih =>
    obtain ⟨k, hk⟩ : ∃ k, 20 - n = k + 1 := ⟨19 - n, by omega⟩
    have hk' : 20 - (n + 1) = k := by omega
    have hbit : ∀ y : Bool, sbpPulseOf s = (if y then .one else .zero) →
        leadingBits 2 3 (k + 1) (s :: ss) = y :: leadingBits 2 3 k ss →
        sbpSyms ⟨.command n, a, c, x⟩ ((s :: ss).map sbpPulseOf) =
      let bits := leadingBits 2 3 (k + 1) (s :: ss)
      if bits.length = k + 1 then
        .ok (some (SbpCommand.unpack a (c ||| wordOf 32 bits <<< n))) ::
          sbpSyms sbpInit (((s :: ss).drop (k + 1)).map sbpPulseOf)
      else if (s :: ss).length ≤ bits.length then []
      else .error .data :: sbpSyms sbpInit (((s :: ss).drop (bits.length + 1)).map sbpPulseOf) := by
      intro y hp hl
      rw [hl, List.map_cons, sbpSyms, hp]
      dsimp only
      by_cases h19 : n = 19
      · obtain rfl : k = 0 := by omega
        subst h19
        cases y <;> simp [sbpStep, leadingBits, wordOf, said]
      · have hstep : sbpStep ⟨.command n, a, c, x⟩ (if y then .one else .zero) =
            (⟨.command (n + 1), a, if y then c ||| (1 : BitVec 32) <<< n else c, x⟩, .ok none) := by
          cases y <;> simp [sbpStep, h19]
        rw [hstep, show said [(Except.ok none : Res SbpCommand)] = [] from rfl, List.nil_append]
        dsimp only
        rw [ih (n + 1) (by omega), hk']
        simp only [List.length_cons, Nat.add_right_cancel_iff, List.drop_succ_cons, wordOf_cons_shift,
          Nat.add_le_add_iff_right]
    rw [hk]
    by_cases h3 : s = some 3
    · exact hbit true (by rw [h3]; rfl) (by rw [leadingBits, if_pos h3])
    · by_cases h2 : s = some 2
      · exact hbit false (by rw [h2]; rfl) (by rw [leadingBits, if_neg h3, if_pos h2])
      · have hl : leadingBits 2 3 (k + 1) (s :: ss) = [] := by rw [leadingBits, if_neg h3, if_neg h2]
        obtain ⟨n2, n3⟩ := sbpPulseOf_other h2 h3
        have hstep : sbpStep ⟨.command n, a, c, x⟩ (sbpPulseOf s) = (sbpInit, .error .data) := by
          generalize sbpPulseOf s = p at n2 n3
          cases p <;> simp_all [sbpStep]
        rw [hl, List.map_cons, sbpSyms, hstep]
        simp [said]

theorem sbpSyms_address (ss : List (Option Nat)) (n : Nat) (hn : n < 16) (a : BitVec 16) (c : BitVec 32) (x : Nat) :
    sbpSyms ⟨.address n, a, c, x⟩ (ss.map sbpPulseOf) =
      let bits := leadingBits 2 3 (16 - n) ss
      if bits.length < 16 - n then
        if ss.length ≤ bits.length then []
        else .error .address :: sbpSyms sbpInit ((ss.drop (bits.length + 1)).map sbpPulseOf)
      else sbpSyms ⟨.divider, a ||| wordOf 16 bits <<< n, c, x⟩ ((ss.drop (16 - n)).map sbpPulseOf) := by
  induction ss generalizing n a with
  | nil =>
    have : leadingBits 2 3 (16 - n) [] = [] := by
      obtain ⟨k, hk⟩ : ∃ k, 16 - n = k + 1 := ⟨15 - n, by omega⟩
      rw [hk]; rfl
    simp only [this, List.length_nil]
    rw [if_pos (by omega)]
    rfl
  | cons s ss ih =>
    obtain ⟨k, hk⟩ : ∃ k, 16 - n = k + 1 := ⟨15 - n, by omega⟩
    have hk' : 16 - (n + 1) = k := by omega
    have hbit : ∀ y : Bool, sbpPulseOf s = (if y then .one else .zero) →
        leadingBits 2 3 (k + 1) (s :: ss) = y :: leadingBits 2 3 k ss →
        sbpSyms ⟨.address n, a, c, x⟩ ((s :: ss).map sbpPulseOf) =
      let bits := leadingBits 2 3 (k + 1) (s :: ss)
      if bits.length < k + 1 then
        if (s :: ss).length ≤ bits.length then []
        else .error .address :: sbpSyms sbpInit (((s :: ss).drop (bits.length + 1)).map sbpPulseOf)
      else sbpSyms ⟨.divider, a ||| wordOf 16 bits <<< n, c, x⟩ (((s :: ss).drop (k + 1)).map sbpPulseOf) := by
      intro y hp hl
      rw [hl, List.map_cons, sbpSyms, hp]
      dsimp only
      by_cases h15 : n = 15
      · obtain rfl : k = 0 := by omega
        subst h15
        cases y <;> simp [sbpStep, leadingBits, wordOf, said]
      · have hstep : sbpStep ⟨.address n, a, c, x⟩ (if y then .one else .zero) =
            (⟨.address (n + 1), if y then a ||| (1 : BitVec 16) <<< n else a, c, x⟩, .ok none) := by
          cases y <;> simp [sbpStep, h15]
        rw [hstep, show said [(Except.ok none : Res SbpCommand)] = [] from rfl, List.nil_append]
        dsimp only
        rw [ih (n + 1) (by omega), hk']
        simp only [List.length_cons, List.drop_succ_cons, wordOf_cons_shift,
          Nat.add_le_add_iff_right, Nat.add_lt_add_iff_right]
    rw [hk]
    by_cases h3 : s = some 3
    · exact hbit true (by rw [h3]; rfl) (by rw [leadingBits, if_pos h3])
    · by_cases h2 : s = some 2
      · exact hbit false (by rw [h2]; rfl) (by rw [leadingBits, if_neg h3, if_pos h2])
      · have hl : leadingBits 2 3 (k + 1) (s :: ss) = [] := by rw [leadingBits, if_neg h3, if_neg h2]
        obtain ⟨n2, n3⟩ := sbpPulseOf_other h2 h3
        have hstep : sbpStep ⟨.address n, a, c, x⟩ (sbpPulseOf s) = (sbpInit, .error .address) := by
          generalize sbpPulseOf s = p at n2 n3
          cases p <;> simp_all [sbpStep]
        rw [hl, List.map_cons, sbpSyms, hstep]
        simp [said]

theorem sbpSyms_init (n : Nat) (ss : List (Option Nat)) (hn : ss.length ≤ n) :
    sbpSyms sbpInit (ss.map sbpPulseOf) = sbpParse ss := by
  have h16z : ∀ w : BitVec 16, (0 : BitVec 16) ||| w = w := fun w => BitVec.zero_or
  have h32z : ∀ w : BitVec 32, (0 : BitVec 32) ||| w = w := fun w => BitVec.zero_or
  induction n generalizing ss with
  | zero =>
    obtain rfl := List.eq_nil_of_length_eq_zero (Nat.le_zero.mp hn)
    rw [sbpParse]; rfl
  | succ n ih =>
    rcases ss with _ | ⟨s, ss⟩
    · rw [sbpParse]; rfl
    · simp only [List.length_cons] at hn
      rw [sbpParse, List.map_cons, sbpSyms]
      by_cases h0 : s = some 0
      · rw [if_pos h0, h0]
        change said [.ok none] ++ sbpSyms ⟨.address 0, 0, 0, 0⟩ (ss.map sbpPulseOf) = _
        rw [sbpSyms_address ss 0 (by omega) 0 0 0]
        simp only [Nat.sub_zero, BitVec.shiftLeft_zero, h16z]
        rw [show said [(Except.ok none : Res SbpCommand)] = [] from rfl, List.nil_append]
        have hle := leadingBits_length_le 2 3 16 ss
        generalize ha : leadingBits 2 3 16 ss = a at hle
        by_cases h16 : a.length < 16
        · rw [if_pos h16, if_pos h16, ih (ss.drop _) (by rw [List.length_drop]; omega)]
        · rw [if_neg h16, if_neg h16]
          by_cases hl : ss.length ≤ 16
          · rw [if_pos hl, List.drop_eq_nil_of_le hl]
            rfl
          · rw [if_neg hl, List.drop_eq_getElem_cons (show 16 < ss.length by omega), List.map_cons, sbpSyms]
            by_cases h1 : ss[16]'(by omega) = some 1
            · rw [if_pos (by rw [List.getElem?_eq_getElem (by omega), h1]), h1]
              change said [.ok none] ++ sbpSyms ⟨.command 0, wordOf 16 a, 0, 0⟩ ((ss.drop 17).map sbpPulseOf) = _
              rw [sbpSyms_command _ 0 (by omega)]
              simp only [Nat.sub_zero, BitVec.shiftLeft_zero, h32z, List.length_drop, List.drop_drop]
              rw [ih (ss.drop _) (by rw [List.length_drop]; omega),
                ih (ss.drop _) (by rw [List.length_drop]; omega)]
              have hc : ∀ y, (ss.length - 17 ≤ y) ↔ (ss.length ≤ 17 + y) := by intro y; omega
              simp only [hc]
              rfl
            · rw [if_neg (by rw [List.getElem?_eq_getElem (by omega)]; simpa using h1)]
              have np := sbpPulseOf_paus h1
              have hstep : sbpStep ⟨.divider, wordOf 16 a, 0, 0⟩ (sbpPulseOf (ss[16]'(by omega))) =
                  (sbpInit, .error .data) := by
                generalize sbpPulseOf (ss[16]'(by omega)) = p at np
                cases p <;> simp_all [sbpStep]
              rw [hstep, ih (ss.drop 17) (by rw [List.length_drop]; omega)]
              rfl
      · rw [if_neg h0, ← ih ss (by omega)]
        have n0 := sbpPulseOf_sync h0
        have hstep : sbpStep sbpInit (sbpPulseOf s) = (sbpInit, .ok none) := by
          generalize sbpPulseOf s = p at n0
          cases p <;> simp_all [sbpStep, sbpInit]
        rw [hstep]
        rfl

/-- **C67**, SBP, for histories with alternating edges. -/
theorem C67_sbp (t : Target) (m : Mono) (hm : m.Lawful) (tbl : PulseSpans) (conv : SbpCommand → K)
    (evs : List Ev) (halt : Alternating evs) (outs : List (Res K))
    (h : results (sbpDecoder t m tbl) conv evs = some outs) :
    said outs = (sbpParse (symbols m.width tbl evs)).map (Res.map conv) := by
  obtain ⟨d, o, hr, rfl⟩ := sbp_results_inv t m tbl h
  rw [said_map, sbp_said_syms t m hm tbl evs _ d sbpInit_ready o 0 halt (fun _ _ _ _ => rfl) hr,
    sbp_classify_get, ← List.map_map]
  exact congrArg _ (sbpSyms_init _ _ (Nat.le_refl _))

/-! ## RC5 -/

theorem wordOf_snoc {n : Nat} (bs : List Bool) (x : Bool) :
    wordOf n (bs ++ [x]) = wordOf n bs ||| (if x then (1 : BitVec n) <<< bs.length else 0) := by
  induction bs with
  | nil => cases x <;> simp [wordOf]
  | cons b bs ih =>
    rw [List.cons_append, wordOf, wordOf, ih, BitVec.shiftLeft_or_distrib, ← BitVec.or_assoc, List.length_cons]
    cases x
    · simp
    · simp only [if_true]
      rw [← BitVec.shiftLeft_add]

/-- The abstract decoder in the middle of a frame. -/
theorem rc5_said_bits (es : List HalfEdge) (n : Nat) (b : BitVec 16) (pos : Nat) :
    said (runTotal Abs5.step ⟨some n, b, pos % 2 == 1⟩ es).2 =
      let r := midEdges 0 pos (n + 1) es
      if r.1.length = n + 1 then
        .ok (some (Rc5Command.unpack (b ||| wordOf 16 r.1.reverse))) :: said (runTotal Abs5.step Abs5.init r.2.2).2
      else said (runTotal Abs5.step Abs5.init r.2.2).2 := by
  induction es generalizing n b pos with
  | nil => simp [midEdges, runTotal, said]
  | cons e es ih =>
    obtain ⟨l, _ | k⟩ := e
    · simp [midEdges, runTotal, Abs5.step]
    · have hodd : (xor (pos % 2 == 1) (k % 2 == 1)) = ((pos + k) % 2 == 1) := by
        rcases Nat.mod_two_eq_zero_or_one pos with ha | ha <;>
          rcases Nat.mod_two_eq_zero_or_one k with hb | hb <;> simp [Nat.add_mod, ha, hb]
      rw [runTotal, midEdges]
      by_cases hp : (pos + k) % 2 = 0
      · rw [if_pos hp]
        by_cases h0 : n = 0
        · subst h0
          have hstep : Abs5.step ⟨some 0, b, pos % 2 == 1⟩ (l, some k) =
              (Abs5.init, .ok (some (Rc5Command.unpack (if l then b ||| (1 : BitVec 16) <<< 0 else b)))) := by
            simp [Abs5.step, hodd, hp]
          rw [hstep, said_cons]
          simp only [midEdges]
          cases l <;> simp [said, wordOf]
        · have hstep : Abs5.step ⟨some n, b, pos % 2 == 1⟩ (l, some k) =
              (⟨some (n - 1), if l then b ||| (1 : BitVec 16) <<< n else b, (pos + k) % 2 == 1⟩, .ok none) := by
            simp [Abs5.step, hodd, hp, h0]
          obtain ⟨j, rfl⟩ : ∃ j, n = j + 1 := ⟨n - 1, by omega⟩
          rw [hstep, said_cons, show said [(Except.ok none : Res Rc5Command)] = [] from rfl, List.nil_append]
          dsimp only
          rw [Nat.add_sub_cancel, ih]
          dsimp only
          generalize midEdges 0 (pos + k) (j + 1) es = r
          simp only [List.length_cons, Nat.add_right_cancel_iff]
          split
          · rename_i hl
            rw [List.reverse_cons, wordOf_snoc, List.length_reverse, hl, BitVec.or_comm (wordOf 16 _),
              ← BitVec.or_assoc]
            cases l <;> simp
          · rfl
      · rw [if_neg hp, ← ih]
        have h1 : (pos + k) % 2 = 1 := by omega
        have hstep : Abs5.step ⟨some n, b, pos % 2 == 1⟩ (l, some k) =
            (⟨some n, b, (pos + k) % 2 == 1⟩, .ok none) := by
          simp [Abs5.step, hodd, h1]
        rw [hstep]
        rfl

theorem rc5_said_idle (n : Nat) (es : List HalfEdge) (hn : es.length ≤ n) (o : Bool) :
    said (runTotal Abs5.step ⟨none, 0, o⟩ es).2 = rc5Parse es := by
  induction n generalizing es o with
  | zero =>
    obtain rfl := List.eq_nil_of_length_eq_zero (Nat.le_zero.mp hn)
    rw [rc5Parse]; rfl
  | succ n ih =>
    rcases es with _ | ⟨⟨_ | _, k⟩, es⟩
    · rw [rc5Parse]; rfl
    · rw [rc5Parse, runTotal]
      simp only [List.length_cons] at hn
      have hstep : ∃ o', Abs5.step ⟨none, 0, o⟩ (false, k) = (⟨none, 0, o'⟩, .ok none) := by
        cases k <;> exact ⟨_, rfl⟩
      obtain ⟨o', ho⟩ := hstep
      rw [ho, ← ih es (by omega) o']
      rfl
    · rw [rc5Parse, runTotal]
      simp only [List.length_cons] at hn
      have hstep : Abs5.step ⟨none, 0, o⟩ (true, k) = (⟨some 12, (1 : BitVec 16) <<< 13, 0 % 2 == 1⟩, .ok none) := by
        cases k <;> simp [Abs5.step, Abs5.idleStep, Abs5.init]
      rw [hstep, said_cons, show said [(Except.ok none : Res Rc5Command)] = [] from rfl, List.nil_append]
      rw [rc5_said_bits]
      have hlen := midEdges_length 0 0 13 es
      dsimp only
      rw [show Abs5.init = ⟨none, 0, false⟩ from rfl]
      rw [ih _ (Nat.le_trans hlen (by omega)) false]
      split
      · rename_i hl
        rw [List.reverse_cons, wordOf_snoc, List.length_reverse, hl, BitVec.or_comm (wordOf 16 _)]
        rfl
      · rfl

/-- **C67**, RC5. -/
theorem C67_rc5 (t : Target) (hw : 16 ≤ t.usizeBits) (tbl : PulseSpans) (hlen : tbl.spans.length ≤ 8)
    (conv : Rc5Command → K) (evs : List Ev) (outs : List (Res K))
    (h : results (rc5Decoder t tbl) conv evs = some outs) :
    said outs = (rc5Parse (halfEdges tbl evs)).map (Res.map conv) := by
  obtain ⟨d, o, hr, rfl⟩ := rc5_results_inv t tbl h
  rw [said_map, (rc5_run_sim t tbl hw hlen sim5_init hr).2]
  exact congrArg _ (rc5_said_idle _ _ (Nat.le_refl _) false)

/-! ## RC6 -/

/-- The abstract decoder in the data bits. -/
theorem rc6_said_bits (es : List HalfEdge) (n : Nat) (b : BitVec 16) (tg : Bool) (pos : Nat) :
    said (runTotal Abs6.step ⟨.data n, b, tg, pos % 2 == 1⟩ es).2 =
      let r := midEdges 1 pos (n + 1) es
      if r.1.length = n + 1 then
        .ok (some (Rc6Command.fromBits (b ||| wordOf 16 (r.1.map not).reverse) tg)) ::
          said (runTotal Abs6.step (Abs6.start tg) r.2.2).2
      else said (runTotal Abs6.step (Abs6.start tg) r.2.2).2 := by
  induction es generalizing n b pos with
  | nil => simp [midEdges, runTotal, said]
  | cons e es ih =>
    obtain ⟨l, _ | k⟩ := e
    · simp [midEdges, runTotal, Abs6.step, Abs6.start]
    · have hodd : (xor (pos % 2 == 1) (k % 2 == 1)) = ((pos + k) % 2 == 1) := by
        rcases Nat.mod_two_eq_zero_or_one pos with ha | ha <;>
          rcases Nat.mod_two_eq_zero_or_one k with hb | hb <;> simp [Nat.add_mod, ha, hb]
      rw [runTotal, midEdges]
      by_cases hp : (pos + k) % 2 = 1
      · rw [if_pos hp]
        by_cases h0 : n = 0
        · subst h0
          have hstep : Abs6.step ⟨.data 0, b, tg, pos % 2 == 1⟩ (l, some k) =
              (Abs6.start tg, .ok (some (Rc6Command.fromBits (if l then b else b ||| (1 : BitVec 16) <<< 0) tg))) := by
            simp [Abs6.step, hodd, hp]
          rw [hstep, said_cons]
          simp only [midEdges]
          cases l <;> simp [said, wordOf]
        · have hstep : Abs6.step ⟨.data n, b, tg, pos % 2 == 1⟩ (l, some k) =
              (⟨.data (n - 1), if l then b else b ||| (1 : BitVec 16) <<< n, tg, (pos + k) % 2 == 1⟩, .ok none) := by
            simp [Abs6.step, hodd, hp, h0]
          obtain ⟨j, rfl⟩ : ∃ j, n = j + 1 := ⟨n - 1, by omega⟩
          rw [hstep, said_cons, show said [(Except.ok none : Res Rc6Command)] = [] from rfl, List.nil_append]
          dsimp only
          rw [Nat.add_sub_cancel, ih]
          dsimp only
          generalize midEdges 1 (pos + k) (j + 1) es = r
          simp only [List.length_cons, Nat.add_right_cancel_iff]
          split
          · rename_i hl
            rw [List.map_cons, List.reverse_cons, wordOf_snoc, List.length_reverse, List.length_map, hl,
              BitVec.or_comm (wordOf 16 _), ← BitVec.or_assoc]
            cases l <;> simp
          · rfl
      · rw [if_neg hp, ← ih]
        have h1 : (pos + k) % 2 = 0 := by omega
        have hstep : Abs6.step ⟨.data n, b, tg, pos % 2 == 1⟩ (l, some k) =
            (⟨.data n, b, tg, (pos + k) % 2 == 1⟩, .ok none) := by
          simp [Abs6.step, hodd, h1]
        rw [hstep]
        rfl

/-- In the header bits. -/
theorem rc6_said_header (es : List HalfEdge) (n : Nat) (tg : Bool) (pos : Nat) :
    said (runTotal Abs6.step ⟨.header n, 0, tg, pos % 2 == 1⟩ es).2 =
      let r := midEdges 1 pos (n + 1) es
      if r.1.length = n + 1 then said (runTotal Abs6.step ⟨.trailing, 0, tg, r.2.1 % 2 == 1⟩ r.2.2).2
      else said (runTotal Abs6.step (Abs6.start tg) r.2.2).2 := by
  induction es generalizing n pos with
  | nil => simp [midEdges, runTotal, said]
  | cons e es ih =>
    obtain ⟨l, _ | k⟩ := e
    · simp [midEdges, runTotal, Abs6.step, Abs6.start]
    · have hodd : (xor (pos % 2 == 1) (k % 2 == 1)) = ((pos + k) % 2 == 1) := by
        rcases Nat.mod_two_eq_zero_or_one pos with ha | ha <;>
          rcases Nat.mod_two_eq_zero_or_one k with hb | hb <;> simp [Nat.add_mod, ha, hb]
      rw [runTotal, midEdges]
      by_cases hp : (pos + k) % 2 = 1
      · rw [if_pos hp]
        by_cases h0 : n = 0
        · subst h0
          have hstep : Abs6.step ⟨.header 0, 0, tg, pos % 2 == 1⟩ (l, some k) =
              (⟨.trailing, 0, tg, (pos + k) % 2 == 1⟩, .ok none) := by
            simp [Abs6.step, hodd, hp]
          rw [hstep, said_cons]
          simp [midEdges, said]
        · have hstep : Abs6.step ⟨.header n, 0, tg, pos % 2 == 1⟩ (l, some k) =
              (⟨.header (n - 1), 0, tg, (pos + k) % 2 == 1⟩, .ok none) := by
            simp [Abs6.step, hodd, hp, h0]
          obtain ⟨j, rfl⟩ : ∃ j, n = j + 1 := ⟨n - 1, by omega⟩
          rw [hstep, said_cons, show said [(Except.ok none : Res Rc6Command)] = [] from rfl, List.nil_append]
          dsimp only
          rw [Nat.add_sub_cancel, ih]
          simp only [List.length_cons, Nat.add_right_cancel_iff]
      · rw [if_neg hp, ← ih]
        have h1 : (pos + k) % 2 = 0 := by omega
        have hstep : Abs6.step ⟨.header n, 0, tg, pos % 2 == 1⟩ (l, some k) =
            (⟨.header n, 0, tg, (pos + k) % 2 == 1⟩, .ok none) := by
          simp [Abs6.step, hodd, h1]
        rw [hstep]
        rfl

/-- Idle: the parity and the old toggle bit do not matter. -/
def Rc6Idle (n : Nat) : Prop := ∀ es : List HalfEdge, es.length ≤ n → ∀ tg o,
  said (runTotal Abs6.step ⟨.idle, 0, tg, o⟩ es).2 = rc6Parse es

/-- In the toggle bit. -/
theorem rc6_said_trailing (n : Nat) (hi : Rc6Idle n) (es : List HalfEdge) (hn : es.length ≤ n) (tg : Bool)
    (pos : Nat) :
    said (runTotal Abs6.step ⟨.trailing, 0, tg, pos % 2 == 1⟩ es).2 =
      match toggleEdges pos es with
      | (some (toggle, pos), es) =>
        said (runTotal Abs6.step ⟨.data 15, 0, toggle, pos % 2 == 1⟩ es).2
      | (none, es) => rc6Parse es := by
  induction es generalizing pos with
  | nil => simp [toggleEdges, missed, runTotal, said, rc6Parse]
  | cons e es ih =>
    simp only [List.length_cons] at hn
    have hodd : ∀ k, (xor (pos % 2 == 1) (k % 2 == 1)) = ((pos + k) % 2 == 1) := by
      intro k
      rcases Nat.mod_two_eq_zero_or_one pos with ha | ha <;>
        rcases Nat.mod_two_eq_zero_or_one k with hb | hb <;> simp [Nat.add_mod, ha, hb]
    obtain ⟨l, _ | k⟩ := e
    · have h1 := hi ((l, none) :: es) (by simpa using hn) tg (pos % 2 == 1)
      cases l <;> simp only [toggleEdges, missed] <;> rw [← h1] <;> rfl
    · cases l
      · simp only [toggleEdges]
        rw [runTotal, said_cons]
        by_cases h1 : k = 1
        · subst h1
          rw [if_pos rfl, ← ih (by omega), ← hodd]
          simp [Abs6.step, said]
        · rw [if_neg h1]
          by_cases h3 : k = 3
          · subst h3
            rw [if_pos rfl]
            dsimp only
            rw [← hodd]
            simp [Abs6.step, said]
          · rw [if_neg h3]
            dsimp only
            rw [← hi es (by omega) tg ((pos + k) % 2 == 1)]
            simp [Abs6.step, hodd, said, h1, h3]
      · simp only [toggleEdges]
        rw [runTotal, said_cons]
        by_cases h2 : k = 2
        · subst h2
          rw [if_pos rfl]
          simp [Abs6.step, hodd, said]
        · rw [if_neg h2]
          dsimp only
          rw [← hi es (by omega) tg ((pos + k) % 2 == 1)]
          simp [Abs6.step, hodd, said, h2]

theorem rc6_said_frame (n : Nat) (hi : Rc6Idle n) (es : List HalfEdge) (hn : es.length ≤ n) (tg : Bool) :
    said (runTotal Abs6.step ⟨.leading, 0, tg, false⟩ es).2 =
      match (rc6Frame es).1 with
      | some c => .ok (some c) :: rc6Parse (rc6Frame es).2
      | none => rc6Parse (rc6Frame es).2 := by
  have hmiss : ∀ (st : Rc6At) (o : Bool) (es : List HalfEdge), es.length ≤ n →
      (∀ l k es', es = (l, some k) :: es' →
        Abs6.step ⟨st, 0, tg, o⟩ (l, some k) = (⟨.idle, 0, tg, xor o (k % 2 == 1)⟩, .ok none)) →
      said (runTotal Abs6.step ⟨st, 0, tg, o⟩ es).2 = rc6Parse (missed es) := by
    intro st o es hn hst
    rcases es with _ | ⟨⟨l, _ | k⟩, es⟩
    · rw [missed, rc6Parse]; rfl
    · rw [missed, ← hi _ hn tg o]; rfl
    · simp only [List.length_cons] at hn
      rw [missed, ← hi es (by omega) tg (xor o (k % 2 == 1)), runTotal, hst l k es rfl]
      rfl
  generalize hf : rc6Frame es = r
  unfold rc6Frame at hf
  split at hf <;> subst hf
  · rename_i es
    simp only [List.length_cons] at hn
    change said (runTotal Abs6.step ⟨.header 3, 0, tg, 8 % 2 == 1⟩ es).2 = _
    rw [rc6_said_header]
    have hl := midEdges_length 1 8 4 es
    dsimp only
    generalize hm : midEdges 1 8 (3 + 1) es = h
    rw [show midEdges 1 8 4 es = h from hm] at hl
    by_cases h4 : h.1.length = 4
    · simp only [if_pos h4]
      rw [rc6_said_trailing n hi _ (by omega)]
      have ht := toggleEdges_length h.2.1 h.2.2
      generalize toggleEdges h.2.1 h.2.2 = q at ht ⊢
      obtain ⟨_ | ⟨tg', pos⟩, es'⟩ := q
      · rfl
      · dsimp only at ht ⊢
        rw [rc6_said_bits]
        have hl2 := midEdges_length 1 pos 16 es'
        dsimp only
        generalize hm2 : midEdges 1 pos (15 + 1) es' = d
        rw [show midEdges 1 pos 16 es' = d from hm2] at hl2
        have hr := hi d.2.2 (by omega) tg' false
        rw [show Abs6.start tg' = ⟨.idle, 0, tg', false⟩ from rfl, hr]
        by_cases h16 : d.1.length = 16
        · simp [h16]
        · simp [h16]
    · simp only [if_neg h4]
      rw [show Abs6.start tg = ⟨.idle, 0, tg, false⟩ from rfl, hi h.2.2 (by omega)]
  · rename_i es hne
    simp only [List.length_cons] at hn
    change said (runTotal Abs6.step ⟨.pause, 0, tg, false⟩ es).2 = rc6Parse (missed es)
    refine hmiss .pause false es (by omega) ?_
    rintro l k es' rfl
    have : ¬(l = true ∧ k = 2) := by
      rintro ⟨rfl, rfl⟩
      exact hne es' rfl
    simp [Abs6.step, this]
  · rename_i hne1 hne2
    refine hmiss .leading false es hn ?_
    rintro l k es' rfl
    have : ¬(l = false ∧ k = 6) := by
      rintro ⟨rfl, rfl⟩
      exact hne2 es' rfl
    simp [Abs6.step, this]

theorem rc6_said_idle (n : Nat) : Rc6Idle n := by
  induction n with
  | zero =>
    intro es hn tg o
    obtain rfl := List.eq_nil_of_length_eq_zero (Nat.le_zero.mp hn)
    rw [rc6Parse]; rfl
  | succ n ih =>
    intro es hn tg o
    rcases es with _ | ⟨⟨_ | _, k⟩, es⟩
    · rw [rc6Parse]; rfl
    · rw [rc6Parse, runTotal]
      simp only [List.length_cons] at hn
      have hstep : ∃ o', Abs6.step ⟨.idle, 0, tg, o⟩ (false, k) = (⟨.idle, 0, tg, o'⟩, .ok none) := by
        cases k <;> exact ⟨_, rfl⟩
      obtain ⟨o', ho⟩ := hstep
      rw [ho, ← ih es (by omega) tg o']
      rfl
    · rw [rc6Parse, runTotal]
      simp only [List.length_cons] at hn
      have hstep : Abs6.step ⟨.idle, 0, tg, o⟩ (true, k) = (⟨.leading, 0, tg, false⟩, .ok none) := by
        cases k <;> rfl
      rw [hstep, said_cons, show said [(Except.ok none : Res Rc6Command)] = [] from rfl, List.nil_append]
      exact rc6_said_frame n ih es (by omega) tg

/-- **C67**, RC6. -/
theorem C67_rc6 (t : Target) (hw : 16 ≤ t.usizeBits) (tbl : PulseSpans) (hlen : tbl.spans.length ≤ 8)
    (conv : Rc6Command → K) (evs : List Ev) (outs : List (Res K))
    (h : results (rc6Decoder t tbl) conv evs = some outs) :
    said outs = (rc6Parse (halfEdges tbl evs)).map (Res.map conv) := by
  obtain ⟨d, o, hr, rfl⟩ := rc6_results_inv t tbl h
  rw [said_map, (rc6_run_sim t tbl hw hlen sim6_init hr).2]
  exact congrArg _ (rc6_said_idle _ _ (Nat.le_refl _) false false)

/-! ## Examples -/

/-- A NEC frame that breaks off after three ones, and then a repeat code: the listener hears an error and then a
repetition of the word `7`. -/
example : necParse (fun w r => some (w, r)) 0
    [none, some 0, some 3, some 3, some 3, none, some 1] =
    [.error .data, .ok (some (7#32, true))] := by
  simp [necParse, leadingBits, wordOf, said]

/-- The history behind it, and what the receiver of `Nec<NecRawCommand>` answers. -/
example : (results (necDecoder ⟨true, 32⟩ Mono.u32 (necTable 1000000) necDebug) id
    [(false, 9000), (true, 4500), (false, 560), (true, 1690), (false, 560), (true, 1690), (false, 560), (true, 1690),
     (false, 560), (true, 5000), (false, 9000), (true, 2250)]).map said =
    some [.error .data, .ok (some { bits := 7 })] := by decide +kernel

/-- An RC5 frame of 14 half-bit long edges is not complete; the start edge of the next one ends it. -/
example : rc5Parse [(true, none), (false, some 1), (true, some 1), (true, none)] = [] := by
  simp [rc5Parse, midEdges]

example : (results (rc5Decoder ⟨true, 32⟩ (rc5Table 1000000)) id
    ([(true, 0), (false, 889), (true, 889), (true, 5000)] ++ (nominalRc5 0b11110001101100#14).drop 1)).map said =
    some [.ok (some ⟨17, 44, 3, true⟩)] := by decide +kernel

/-- RC6: an edge that cannot be measured ends a frame in its leader and begins the next one. -/
example : rc6Frame [(false, some 6), (true, none), (false, some 6)] = (none, [(true, none), (false, some 6)]) := rfl

end Infrared
