import Verif.Props.Spacing

/-!
# Results are never closer together than this (C92): RC5 and RC6, and the theorems
-/

namespace Infrared

open Spec

variable {C K : Type}

theorem uadd_parity {t : Target} {w a b c : Nat} (hw : 1 ≤ w) (h : uadd t w a b = some c) : c % 2 = (a + b) % 2 := by
  unfold uadd at h
  split at h
  · cases h; rfl
  · split at h
    · cases h
    · cases h
      exact Nat.mod_mod_of_dvd _ (Dvd.dvd.trans (by decide : 2 ∣ 2 ^ 1) (Nat.pow_dvd_pow 2 hw))

/-- The durations of Manchester code: never 0 unless a clock went round. -/
def edgeRule : EdgeRule := fun _ _ d x => d ≤ x ∧ (d = 0 → 2 ^ 32 ≤ x)

/-- An edge that is taken for `i + 1` half-bits comes at least so long after the one before it. -/
def HalfLow (tbl : PulseSpans) (f us : Nat) : Prop :=
  ∀ d x i, d ≤ x → (d = 0 → 2 ^ 32 ≤ x) → tbl.get d = some i → us * (i + 1) * f ≤ 1000000 * x

/-! ## RC5 -/

/-- RC5: the half-bits since the first edge took their time, and the bits received so far are among them. -/
def Rc5Paced (f : Nat) (d : Rc5Decoder) (e : Nat) : Prop :=
  match d.state with
  | .idle => True
  | .data n => n ≤ 12 ∧ ∃ c, 735 * c * f ≤ 1000000 * e ∧ 24 ≤ c + 2 * n ∧ c % 2 = d.clock % 2
  | _ => False

theorem rc5_paced {t : Target} (hus : 16 ≤ t.usizeBits) {tbl : PulseSpans} {f : Nat} (hl : HalfLow tbl f 735)
    {need : Res Rc5Command → Nat} (hneed : ∀ r, need r ≤ 19000) :
    Paced (rc5Decoder t tbl) f need edgeRule (fun d e _ => Rc5Paced f d e) := by
  refine Paced.of_event (fun _ => trivial) (fun _ e _ => trivial) ?_
  rintro s e l b d x s1 st hinv ⟨hdx, hz⟩ hev
  change Rc5Decoder.event t tbl s b d = some (s1, st) at hev
  obtain ⟨state, bits, clock⟩ := s
  unfold Rc5Decoder.event at hev
  rcases hg : tbl.get d with _ | i
  · rw [hg] at hev
    simp only [Rc5Decoder.tick, Rc5Decoder.reset, Option.bind_eq_bind, Option.bind_some, Rc5Decoder.transition] at hev
    cases b with
    | false => cases hev; exact trivial
    | true =>
      simp only [if_true] at hev
      rcases hsh : shl1 t 16 13 with _ | y <;> rw [hsh] at hev <;> cases hev
      exact ⟨by decide, 0, by simp, by decide, rfl⟩
  · have hx := hl d x i hdx hz hg
    rw [hg] at hev
    simp only [Rc5Decoder.tick, Option.bind_eq_bind] at hev
    rcases ha : uadd t t.usizeBits i 1 with _ | inc
    · rw [ha] at hev; cases hev
    rw [ha, Option.bind_some] at hev
    rcases hb : uadd t t.usizeBits clock inc with _ | clock'
    · rw [hb] at hev; cases hev
    rw [hb, Option.bind_some] at hev
    have hp1 := uadd_parity (by omega) ha
    have hp2 := uadd_parity (by omega) hb
    cases state with
    | idle =>
      simp only [Rc5Decoder.transition, Option.bind_some] at hev
      cases b with
      | false => cases hev; exact trivial
      | true =>
        simp only [if_true] at hev
        rcases hsh : shl1 t 16 13 with _ | y <;> rw [hsh] at hev <;> cases hev
        exact ⟨by decide, 0, by simp, by decide, rfl⟩
    | data n =>
      obtain ⟨hn, c, hc1, hc2, hc3⟩ := hinv
      dsimp only at hc3
      have hadv : 735 * (c + (i + 1)) * f ≤ 1000000 * (e + x) := by
        rw [Nat.mul_add, Nat.add_mul]; omega
      have hpar : (c + (i + 1)) % 2 = clock' % 2 := by omega
      simp only [Option.bind_some, Rc5Decoder.transition] at hev
      by_cases hodd : clock' % 2 = 0
      · rw [if_pos hodd] at hev
        by_cases h0 : n = 0
        · rw [if_pos h0] at hev
          have hfin : ∀ r, need r * f ≤ 1000000 * (e + x) := by
            intro r
            refine Nat.le_trans (Nat.mul_le_mul_right f (Nat.le_trans (hneed r) ?_)) hadv
            have : 26 ≤ c + (i + 1) := by omega
            omega
          cases b <;> simp only [if_true, Bool.false_eq_true, if_false] at hev <;> cases hev <;> exact fun c _ => hfin _
        · rw [if_neg h0] at hev
          have hgo : Rc5Paced f ⟨.data (n - 1), bits, clock'⟩ (e + x) :=
            ⟨by omega, c + (i + 1), hadv, by omega, hpar⟩
          cases b with
          | false =>
            simp only [Bool.false_eq_true, if_false] at hev
            cases hev
            exact hgo
          | true =>
            simp only [if_true] at hev
            rcases hsh : shl1 t 16 n with _ | y <;> rw [hsh] at hev <;> cases hev
            exact hgo
      · rw [if_neg hodd] at hev
        cases hev
        exact ⟨hn, c + (i + 1), hadv, by omega, hpar⟩
    | done => exact hinv.elim
    | err e => exact hinv.elim

/-! ## RC6 -/

/-- RC6: the same. -/
def Rc6Paced (f : Nat) (d : Rc6Decoder) (e : Nat) : Prop :=
  match d.state with
  | .idle => True
  | .done => False
  | .rc6Err _ => False
  | st => ∃ c, 345 * c * f ≤ 1000000 * e ∧ c % 2 = d.clock % 2 ∧
    match st with
    | .leadingPaus => 6 ≤ c
    | .headerData n => n ≤ 3 ∧ 13 ≤ c + 2 * n
    | .trailing => 15 ≤ c
    | .data n => n ≤ 15 ∧ 47 ≤ c + 2 * n
    | _ => True

theorem rc6_paced {t : Target} (hus : 16 ≤ t.usizeBits) {tbl : PulseSpans} {f : Nat} (hl : HalfLow tbl f 345)
    (hlen : tbl.spans.length ≤ 8) {need : Res Rc6Command → Nat} (hneed : ∀ r, need r ≤ 16000) :
    Paced (rc6Decoder t tbl) f need edgeRule (fun d e _ => Rc6Paced f d e) := by
  refine Paced.of_event (fun _ => trivial) (fun _ e _ => trivial) ?_
  rintro s e l b d x s1 st hinv ⟨hdx, hz⟩ hev
  change Rc6Decoder.event t tbl s b d = some (s1, st) at hev
  obtain ⟨state, data, hdr, tog, clock⟩ := s
  unfold Rc6Decoder.event at hev
  rcases hg : tbl.get d with _ | i
  · rw [hg] at hev
    simp only [Rc6Decoder.tick, Rc6Decoder.reset, Option.bind_eq_bind, Option.bind_some, Rc6Decoder.transition] at hev
    cases b with
    | false => cases hev; exact trivial
    | true => cases hev; exact ⟨0, by simp, rfl, trivial⟩
  · have hx := hl d x i hdx hz hg
    have hi : i < 8 := by
      obtain ⟨w, hw, -⟩ := get_inTol hg
      have := (List.getElem?_eq_some_iff.mp hw).1
      omega
    have hpow : 2 ^ 16 ≤ 2 ^ t.usizeBits := Nat.pow_le_pow_right (by decide) hus
    have ha : uadd t t.usizeBits i 1 = some (i + 1) := by
      unfold uadd
      rw [if_pos (by omega)]
    rw [hg] at hev
    simp only [ha, Option.map_some, Rc6Decoder.tick, Option.bind_eq_bind, Option.bind_some] at hev
    rcases hb : uadd t t.usizeBits clock (i + 1) with _ | clock'
    · rw [hb] at hev; cases hev
    simp only [hb, Option.bind_some] at hev
    have hp2 := uadd_parity (by omega) hb
    have adv : ∀ c, 345 * c * f ≤ 1000000 * e → 345 * (c + (i + 1)) * f ≤ 1000000 * (e + x) := by
      intro c hc
      rw [Nat.mul_add, Nat.add_mul]; omega
    have par : ∀ c, c % 2 = clock % 2 → (c + (i + 1)) % 2 = clock' % 2 := fun c hc => by omega
    rcases htr : Rc6Decoder.transition t ⟨state, data, hdr, tog, clock'⟩ b (some (i + 1)) with _ | s'
    · rw [htr] at hev; cases hev
    rw [htr, Option.bind_some] at hev
    cases hev
    cases state with
    | idle =>
      simp only [Rc6Decoder.transition] at htr
      cases b with
      | false => cases htr; exact trivial
      | true => cases htr; exact ⟨0, by simp, rfl, trivial⟩
    | leading =>
      obtain ⟨c, hc1, hc2, -⟩ := hinv
      simp only [Rc6Decoder.transition] at htr
      split at htr
      · rename_i h
        have h6 : i + 1 = 6 := Option.some.inj h.2
        cases htr
        exact ⟨c + (i + 1), adv c hc1, par c hc2, by dsimp only; omega⟩
      · cases htr; exact trivial
    | leadingPaus =>
      obtain ⟨c, hc1, hc2, hc3⟩ := hinv
      dsimp only at hc3
      simp only [Rc6Decoder.transition] at htr
      split at htr
      · rename_i h
        have h2 : i + 1 = 2 := Option.some.inj h.2
        cases htr
        exact ⟨c + (i + 1), adv c hc1, par c hc2, by dsimp only; omega⟩
      · cases htr; exact trivial
    | headerData n =>
      obtain ⟨c, hc1, hc2, hn, hc3⟩ := hinv
      have hp := par c hc2
      simp only [Rc6Decoder.transition] at htr
      split at htr
      · rename_i hodd
        rcases hsh : shl1 t 16 n with _ | y
        · rw [hsh] at htr; cases htr
        rw [hsh] at htr
        simp only [Option.bind_eq_bind, Option.bind_some] at htr
        split at htr
        · cases htr
          exact ⟨c + (i + 1), adv c hc1, hp, by dsimp only; omega⟩
        · cases htr
          exact ⟨c + (i + 1), adv c hc1, hp, by dsimp only; omega⟩
      · cases htr
        exact ⟨c + (i + 1), adv c hc1, hp, hn, by omega⟩
    | trailing =>
      obtain ⟨c, hc1, hc2, hc3⟩ := hinv
      dsimp only at hc3
      simp only [Rc6Decoder.transition] at htr
      split at htr
      · rename_i h
        have h3 : i + 1 = 3 := Option.some.inj h.2
        cases htr
        exact ⟨c + (i + 1), adv c hc1, par c hc2, by dsimp only; omega⟩
      · split at htr
        · rename_i h
          have h2 : i + 1 = 2 := Option.some.inj h.2
          cases htr
          exact ⟨c + (i + 1), adv c hc1, par c hc2, by dsimp only; omega⟩
        · split at htr
          · cases htr
            exact ⟨c + (i + 1), adv c hc1, par c hc2, by dsimp only; omega⟩
          · cases htr; exact trivial
    | data n =>
      obtain ⟨c, hc1, hc2, hn, hc3⟩ := hinv
      have hp := par c hc2
      simp only [Rc6Decoder.transition] at htr
      split at htr
      · rename_i hodd
        split at htr
        · have hfin : ∀ r, need r * f ≤ 1000000 * (e + x) := by
            intro r
            refine Nat.le_trans (Nat.mul_le_mul_right f (Nat.le_trans (hneed r) ?_)) (adv c hc1)
            have : 49 ≤ c + (i + 1) := by omega
            omega
          split at htr <;> cases htr <;> exact fun c _ => hfin _
        · have hgo : n - 1 ≤ 15 ∧ 47 ≤ c + (i + 1) + 2 * (n - 1) := by omega
          split at htr
          · cases htr
            exact ⟨c + (i + 1), adv c hc1, hp, hgo⟩
          · rcases hsh : shl1 t 16 n with _ | y <;> rw [hsh] at htr <;> cases htr
            exact ⟨c + (i + 1), adv c hc1, hp, hgo⟩
      · cases htr
        exact ⟨c + (i + 1), adv c hc1, hp, hn, by omega⟩
    | done => exact hinv.elim
    | rc6Err e => exact hinv.elim

/-! ## The tables -/

theorem nec_low {t : Target} {m : Mono} (hm : m = Mono.u32 ∨ m = Mono.u64) {f : Nat} (hlo : 20000 ≤ f) (hf : f < 2 ^ 32)
    {tbl : PulseSpans} (htbl : Kind.nec.build t m f = some tbl) : NecLow tbl f 12468 10382 := by
  refine ⟨fun d h => ?_, fun d h => ?_, fun d h => ?_, fun d h => ?_⟩
  · have := get_low hm hf htbl 13500 7 rfl h; omega
  · have := get_low hm hf htbl 11250 7 rfl h; omega
  · have := get_low hm hf htbl 1120 25 rfl h; omega
  · have := get_low hm hf htbl 2250 12 rfl h; omega

theorem samsung_low {t : Target} {m : Mono} (hm : m = Mono.u32 ∨ m = Mono.u64) {f : Nat} (hlo : 20000 ≤ f) (hf : f < 2 ^ 32)
    {tbl : PulseSpans} (htbl : Kind.samsung.build t m f = some tbl) : NecLow tbl f 8296 6210 := by
  refine ⟨fun d h => ?_, fun d h => ?_, fun d h => ?_, fun d h => ?_⟩
  · have := get_low hm hf htbl 9000 7 rfl h; omega
  · have := get_low hm hf htbl 6750 7 rfl h; omega
  · have := get_low hm hf htbl 1120 25 rfl h; omega
  · have := get_low hm hf htbl 2250 12 rfl h; omega

theorem sbp_low {t : Target} {m : Mono} (hm : m = Mono.u32 ∨ m = Mono.u64) {f : Nat} (hlo : 20000 ≤ f) (hf : f < 2 ^ 32)
    {tbl : PulseSpans} (htbl : sbpSpans t m f = some tbl) : SbpLow tbl f := by
  refine ⟨fun d h => ?_, fun d h => ?_, fun d h => ?_, fun d h => ?_⟩
  · have := get_low (k := .sbp) hm hf htbl 9000 5 rfl h; omega
  · have := get_low (k := .sbp) hm hf htbl 5000 5 rfl h; omega
  · have := get_low (k := .sbp) hm hf htbl 1000 10 rfl h; omega
  · have := get_low (k := .sbp) hm hf htbl 2000 10 rfl h; omega

theorem denon_low {t : Target} {m : Mono} (hm : m = Mono.u32 ∨ m = Mono.u64) {f : Nat} (hlo : 20000 ≤ f) (hf : f < 2 ^ 32)
    {tbl : PulseSpans} (htbl : denonSpans t m f = some tbl) : DenonLow tbl f := by
  refine ⟨fun d h => ?_, fun d h => ?_, fun d h => ?_⟩
  · have := get_low (k := .denon) hm hf htbl 5000 8 rfl h; omega
  · have := get_low (k := .denon) hm hf htbl 840 10 rfl h; omega
  · have := get_low (k := .denon) hm hf htbl 1680 10 rfl h; omega

theorem half_zero {k : Kind} {t : Target} {m : Mono} (hm : m = Mono.u32 ∨ m = Mono.u64) {f : Nat} (hf : f < 2 ^ 32)
    {tbl : PulseSpans} (htbl : k.build t m f = some tbl) (hlen : tbl.spans.length ≤ 8) {us d x i : Nat} (hus : us ≤ 1000)
    (hz : d = 0 → 2 ^ 32 ≤ x) (h : tbl.get d = some i) (hk : k.symbols[i]? = none) : us * (i + 1) * f ≤ 1000000 * x := by
  have hd := (C52_rejects k t m hm f hf tbl htbl i d (get_inTol h)).2 hk
  have hi : i < 8 := by
    obtain ⟨w, hw, -⟩ := get_inTol h
    have := (List.getElem?_eq_some_iff.mp hw).1
    omega
  have := hz hd
  have h1 : us * (i + 1) * f ≤ 8000 * f :=
    Nat.mul_le_mul_right f (Nat.le_trans (Nat.mul_le_mul hus (show i + 1 ≤ 8 by omega)) (by decide))
  omega

theorem rc5_low {t : Target} {m : Mono} (hm : m = Mono.u32 ∨ m = Mono.u64) {f : Nat} (hlo : 20000 ≤ f) (hf : f < 2 ^ 32)
    {tbl : PulseSpans} (htbl : rc5Spans t m f = some tbl) : HalfLow tbl f 735 := by
  intro d x i hdx hz h
  rcases i with _ | _ | i
  · have := get_low (k := .rc5) hm hf htbl 889 12 rfl h; omega
  · have := get_low (k := .rc5) hm hf htbl 1778 10 rfl h; omega
  · refine half_zero (k := .rc5) hm hf htbl ?_ (by decide) hz h (by simp [Kind.symbols])
    rw [rc5Spans_eq hm t hf, Option.some.injEq] at htbl
    subst htbl
    simp [rc5Table]

theorem rc6_low {t : Target} {m : Mono} (hm : m = Mono.u32 ∨ m = Mono.u64) {f : Nat} (hlo : 20000 ≤ f) (hf : f < 2 ^ 32)
    {tbl : PulseSpans} (htbl : rc6Spans t m f = some tbl) : HalfLow tbl f 345 := by
  intro d x i hdx hz h
  rcases i with _ | _ | _ | _ | _ | _ | i
  · have := get_low (k := .rc6) hm hf htbl 444 12 rfl h; omega
  · have := get_low (k := .rc6) hm hf htbl 888 12 rfl h; omega
  · have := get_low (k := .rc6) hm hf htbl 1332 12 rfl h; omega
  · have := get_low (k := .rc6) hm hf htbl 1776 12 rfl h; omega
  · have := get_low (k := .rc6) hm hf htbl 2220 12 rfl h; omega
  · have := get_low (k := .rc6) hm hf htbl 2664 12 rfl h; omega
  · refine half_zero (k := .rc6) hm hf htbl ?_ (by decide) hz h (by simp [Kind.symbols])
    rw [rc6Spans_eq hm t hf, Option.some.injEq] at htbl
    subst htbl
    simp [rc6Table]

end Infrared
