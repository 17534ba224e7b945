import Verif.Spec.Wrap
import Verif.Props.Broken
import Verif.Props.DriftBad
import Verif.Props.HurtBi
import Verif.Props.Drivers
import Verif.Props.Exact
import Verif.Props.Inverted

/-!
# C98: a counter that wraps around costs at most one transmission
-/

namespace Infrared

open Spec

variable {C K S : Type}

/-! ## Which intervals are lost -/

theorem laps_mono (u f phase w t x : Nat) : laps u f phase w t ≤ laps u f phase w (t + x) :=
  Nat.div_le_div_right (reading_mono u f phase t x)

/-- What the receiver takes the interval for. -/
def gauged (u f phase w t x : Nat) : Nat :=
  if laps u f phase w t = laps u f phase w (t + x) then reading u f phase (t + x) - reading u f phase t else 0

theorem mod_elapsed {a b n : Nat} (hab : a ≤ b) (h : b - a < n) :
    (if a % n ≤ b % n then b % n - a % n else 0) = if a / n = b / n then b - a else 0 := by
  have ha := Nat.div_add_mod a n
  have hb := Nat.div_add_mod b n
  have hq : a / n ≤ b / n := Nat.div_le_div_right hab
  by_cases he : a / n = b / n
  · rw [if_pos he]
    rw [he] at ha
    rw [if_pos (by omega)]
    omega
  · rw [if_neg he]
    have h1 : n * (a / n + 1) ≤ n * (b / n) := Nat.mul_le_mul_left n (by omega)
    rw [Nat.mul_add, Nat.mul_one] at h1
    rw [if_neg (by omega)]

theorem laps_step {u f phase w t x : Nat} (h : reading u f phase (t + x) - reading u f phase t < 2 ^ w) :
    laps u f phase w (t + x) ≤ laps u f phase w t + 1 := by
  have hm := reading_mono u f phase t x
  unfold laps
  generalize reading u f phase (t + x) = b at *
  generalize reading u f phase t = a at *
  have hb : b ≤ a + 2 ^ w := by omega
  refine Nat.le_trans (Nat.div_le_div_right hb) ?_
  rw [Nat.add_div_right _ (Nat.two_pow_pos w)]

/-- What the receiver takes the periods for. -/
def gaugedPulses (u f phase w : Nat) : Nat → List (Nat × Nat) → List (Nat × Nat)
  | _, [] => []
  | t, (h, l) :: ps =>
    (gauged u f phase w t h, gauged u f phase w (t + h) l) :: gaugedPulses u f phase w (t + h + l) ps

theorem elapsed_stamps (u f phase w : Nat) (ps : List (Nat × Nat)) (t : Nat)
    (h : ∀ p ∈ ps, ∀ t x, (x = p.1 ∨ x = p.2) → reading u f phase (t + x) - reading u f phase t < 2 ^ w) :
    elapsed (reading u f phase t % 2 ^ w) (stamps u f phase w t (pulses ps)) = pulses (gaugedPulses u f phase w t ps) := by
  induction ps generalizing t with
  | nil => rfl
  | cons p ps ih =>
    obtain ⟨a, b⟩ := p
    simp only [pulses, stamps, elapsed, gaugedPulses]
    rw [ih _ (fun p hp => h p (by simp [hp])),
      mod_elapsed (reading_mono u f phase t a) (h (a, b) (by simp) t a (.inl rfl)),
      mod_elapsed (reading_mono u f phase (t + a) b) (h (a, b) (by simp) (t + a) b (.inr rfl))]
    rfl

theorem gaugedPulses_append (u f phase w : Nat) (a b : List (Nat × Nat)) (t : Nat) :
    gaugedPulses u f phase w t (a ++ b) =
      gaugedPulses u f phase w t a ++ gaugedPulses u f phase w (t + span a) b := by
  induction a generalizing t with
  | nil => rfl
  | cons p a ih =>
    obtain ⟨h, l⟩ := p
    simp only [List.cons_append, gaugedPulses, ih, span, List.map_cons, List.sum_cons, Nat.add_assoc]

theorem gauged_le (u f phase w t x : Nat) :
    gauged u f phase w t x ≤ reading u f phase (t + x) - reading u f phase t := by
  unfold gauged
  split
  · exact Nat.le_refl _
  · exact Nat.zero_le _

theorem span_two_cons (p : Nat × Nat) (ps : List (Nat × Nat)) : span (p :: ps) = p.1 + p.2 + span ps := by
  simp [span]

/-- Without a wrap-around everything is measured. -/
theorem gauged_same {u f phase w : Nat} (ps : List (Nat × Nat)) (t : Nat)
    (h : laps u f phase w t = laps u f phase w (t + span ps)) :
    gaugedPulses u f phase w t ps = clockedPulses u f phase t ps ∧ wrapAt u f phase w t ps = none := by
  induction ps generalizing t with
  | nil => exact ⟨rfl, rfl⟩
  | cons p ps ih =>
    obtain ⟨a, b⟩ := p
    rw [span_two_cons, ← Nat.add_assoc, ← Nat.add_assoc] at h
    have h1 := laps_mono u f phase w t a
    have h2 := laps_mono u f phase w (t + a) b
    have h3 := laps_mono u f phase w (t + a + b) (span ps)
    dsimp only at h
    obtain ⟨i1, i2⟩ := ih (t + a + b) (by omega)
    rw [gaugedPulses, clockedPulses, wrapAt, i1, i2]
    dsimp only
    rw [if_pos (by omega), gauged, gauged, if_pos (by omega), if_pos (by omega)]
    exact ⟨rfl, rfl⟩

/-- Of a period in which the counter wraps around either the mark or the space is measured. -/
theorem gauged_pair {u f phase w t a b : Nat}
    (h : reading u f phase (t + a + b) - reading u f phase t < 2 ^ w) :
    (laps u f phase w t = laps u f phase w (t + a + b) ∧ gauged u f phase w t a + gauged u f phase w (t + a) b =
      reading u f phase (t + (a + b)) - reading u f phase t) ∨
    ∃ t' x, (x = a ∨ x = b) ∧ gauged u f phase w t a + gauged u f phase w (t + a) b =
      reading u f phase (t' + x) - reading u f phase t' := by
  have h1 := laps_mono u f phase w t a
  have h2 := laps_mono u f phase w (t + a) b
  have h3 : laps u f phase w (t + (a + b)) ≤ laps u f phase w t + 1 := laps_step (by rwa [← Nat.add_assoc])
  have r1 := reading_mono u f phase t a
  have r2 := reading_mono u f phase (t + a) b
  rw [← Nat.add_assoc] at h3
  unfold gauged
  by_cases e1 : laps u f phase w t = laps u f phase w (t + a)
  · by_cases e2 : laps u f phase w (t + a) = laps u f phase w (t + a + b)
    · left
      rw [if_pos e1, if_pos e2, ← Nat.add_assoc]
      exact ⟨e1.trans e2, by omega⟩
    · right
      rw [if_pos e1, if_neg e2]
      exact ⟨t, a, .inl rfl, rfl⟩
  · right
    rw [if_neg e1, if_pos (by omega)]
    exact ⟨t + a, b, .inr rfl, by omega⟩

/-- With a wrap-around one interval is lost, in the period `wrapAt` names. -/
theorem gauged_wrapped {u f phase w : Nat} (ps : List (Nat × Nat)) (t : Nat)
    (hsm : reading u f phase (t + span ps) - reading u f phase t < 2 ^ w)
    (h : laps u f phase w t ≠ laps u f phase w (t + span ps)) :
    ∃ k p t' x, ps[k]? = some p ∧ wrapAt u f phase w t ps = some k ∧ (x = p.1 ∨ x = p.2) ∧
      (gaugedPulses u f phase w t ps).map (fun p => p.1 + p.2) =
        ((clockedPulses u f phase t ps).map fun p => p.1 + p.2).take k ++
          (reading u f phase (t' + x) - reading u f phase t') ::
          ((clockedPulses u f phase t ps).map fun p => p.1 + p.2).drop (k + 1) := by
  induction ps generalizing t with
  | nil => exact absurd rfl h
  | cons p ps ih =>
    obtain ⟨a, b⟩ := p
    have hl := laps_step hsm
    rw [span_two_cons, ← Nat.add_assoc, ← Nat.add_assoc] at h hsm hl
    dsimp only at h hsm hl
    have h1 := laps_mono u f phase w t a
    have h2 := laps_mono u f phase w (t + a) b
    have h3 := laps_mono u f phase w (t + a + b) (span ps)
    have r1 := reading_mono u f phase t a
    have r2 := reading_mono u f phase (t + a) b
    have r3 := reading_mono u f phase (t + a + b) (span ps)
    rw [gaugedPulses, clockedPulses, wrapAt]
    dsimp only
    by_cases he : laps u f phase w t = laps u f phase w (t + a + b)
    · obtain ⟨k, p, t', x, i1, i2, i3, i4⟩ := ih (t + a + b) (by omega) (by omega)
      refine ⟨k + 1, p, t', x, i1, by rw [if_pos he, i2]; rfl, i3, ?_⟩
      rw [gauged, gauged, if_pos (by omega), if_pos (by omega), List.map_cons, List.map_cons, i4]
      rfl
    · rcases gauged_pair (u := u) (f := f) (phase := phase) (w := w) (t := t) (a := a) (b := b) (by omega) with
        h' | ⟨t', x, hx, hs⟩
      · exact absurd h'.1 he
      · obtain ⟨i1, -⟩ := gauged_same (u := u) (f := f) (phase := phase) (w := w) ps (t + a + b) (by omega)
        refine ⟨0, (a, b), t', x, rfl, by rw [if_neg he], hx, ?_⟩
        rw [List.map_cons, List.map_cons, i1, hs]
        rfl

/-! ## Series -/

/-- What the receiver of a series depends on: the symbols of the transmissions if the counter does not wrap around, what a
mark or a space alone is measured as, and that the pauses are none of the symbols. -/
structure Gauges (tbl : PulseSpans) (w n u f phase : Nat) (slots : S → List Nat) (Odd : S → Nat → Option Nat → Prop)
    (i : (S × List (Nat × Nat)) × (Nat × Nat)) : Prop where
  whole : ∀ t, Matches tbl (slots i.1.1) (clockedPulses u f phase t i.1.2)
  part : ∀ (k : Nat) (p : Nat × Nat), i.1.2[k]? = some p → ∀ t x, (x = p.1 ∨ x = p.2) →
    Odd i.1.1 k (tbl.get (reading u f phase (t + x) - reading u f phase t))
  pause : ∀ t x, (x = i.2.1 ∨ x = i.2.2 ∨ x = i.2.1 + i.2.2) → ∀ y, y < n →
    tbl.get (reading u f phase (t + x) - reading u f phase t) ≠ some y
  short : ∀ t, reading u f phase (t + (span i.1.2 + i.2.1 + i.2.2)) - reading u f phase t < 2 ^ w

theorem gauges_parse {St R : Type} {tbl : PulseSpans} {w n u f phase : Nat} {slots : S → List Nat}
    {Odd : S → Nat → Option Nat → Prop} {cut : S → Nat → S} (hun : Unambiguous tbl n) (hs : ∀ s, ∀ x ∈ slots s, x < n)
    (P : St → List (Option Nat) → List R) (step : St → S → List R × St) (hnil : ∀ st, P st [] = [])
    (hP : ∀ st s d ss, (∀ x, x < n → d ≠ some x) →
      P st ((slots s).map some ++ d :: ss) = (step st s).1 ++ P (step st s).2 ss)
    (hC : ∀ st s k d e ss, k < (slots s).length → Odd s k d → (∀ x, x < n → e ≠ some x) →
      P st (((slots s).take k).map some ++ d :: (((slots s).drop (k + 1)).map some ++ e :: ss)) =
        (step st (cut s k)).1 ++ P (step st (cut s k)).2 ss)
    (items : List ((S × List (Nat × Nat)) × (Nat × Nat)))
    (h : ∀ i ∈ items, Gauges tbl w n u f phase slots Odd i) (t : Nat) (st : St) :
    P st ((gaugedPulses u f phase w t (allPulses items)).map fun p => tbl.get (p.1 + p.2)) =
      told step st (leftOf cut u f phase w t items) := by
  induction items generalizing t st with
  | nil => exact hnil st
  | cons i items ih =>
    obtain ⟨⟨s, ps⟩, a, b⟩ := i
    obtain ⟨h1, h2, h3, h4⟩ := h ((s, ps), (a, b)) (by simp)
    dsimp only at h1 h2 h3 h4
    have h4' := h4 t
    rw [← Nat.add_assoc, ← Nat.add_assoc] at h4'
    have r1 := reading_mono u f phase t (span ps)
    have r2 := reading_mono u f phase (t + span ps) (a + b)
    rw [← Nat.add_assoc] at r2
    have hpause : ∀ y, y < n →
        tbl.get (gauged u f phase w (t + span ps) a + gauged u f phase w (t + span ps + a) b) ≠ some y := by
      rcases gauged_pair (u := u) (f := f) (phase := phase) (w := w) (t := t + span ps) (a := a) (b := b)
        (by omega) with ⟨-, hx⟩ | ⟨t', x, hx, he⟩
      · rw [hx]; exact h3 _ _ (.inr (.inr rfl))
      · rw [he]; exact h3 _ _ (by rcases hx with rfl | rfl <;> simp)
    have hsym := matches_symbols hun (hs _) (h1 t)
    have htime : t + span (ps ++ [(a, b)]) = t + (ps.map fun p => p.1 + p.2).sum + a + b := by
      rw [span_append, span_two_cons]; simp [span]; omega
    rw [allPulses, List.flatMap_cons, gaugedPulses_append, gaugedPulses_append, List.map_append, List.map_append, htime,
      leftOf, told]
    dsimp only
    rw [← ih (fun i hi => h i (by simp [hi])), List.append_assoc]
    simp only [gaugedPulses, List.map_cons, List.map_nil, List.cons_append, List.nil_append]
    by_cases hw : laps u f phase w t = laps u f phase w (t + span ps)
    · obtain ⟨e1, e2⟩ := gauged_same ps t hw
      rw [e1, e2, hsym]
      dsimp only
      exact hP _ _ _ _ hpause
    · obtain ⟨k, p, t', x, e1, e2, e3, e4⟩ := gauged_wrapped ps t (by omega) hw
      have hlen : ps.length = (slots s).length := by rw [← (h1 t).1, clockedPulses_length]
      have hk : k < (slots s).length := by
        rw [← hlen]; exact (List.getElem?_eq_some_iff.mp e1).1
      have e5 : (gaugedPulses u f phase w t ps).map (fun p => tbl.get (p.1 + p.2)) =
          ((slots s).take k).map some ++ tbl.get (reading u f phase (t' + x) - reading u f phase t') ::
            ((slots s).drop (k + 1)).map some := by
        have e6 : (gaugedPulses u f phase w t ps).map (fun p => tbl.get (p.1 + p.2)) =
            ((gaugedPulses u f phase w t ps).map fun p => p.1 + p.2).map tbl.get := by
          rw [List.map_map]; rfl
        have e7 : ((clockedPulses u f phase t ps).map fun p => p.1 + p.2).map tbl.get = (slots s).map some := by
          rw [← hsym, List.map_map]; rfl
        rw [e6, e4, List.map_append, List.map_cons, List.map_take, List.map_drop, e7, List.map_take, List.map_drop]
      rw [e5, e2, List.append_assoc, List.cons_append]
      dsimp only
      exact hC _ _ _ _ _ _ hk (h2 k p e1 t' x e3) hpause

theorem gauges_small {tbl : PulseSpans} {w n u f phase : Nat} {slots : S → List Nat} {Odd : S → Nat → Option Nat → Prop}
    {items : List ((S × List (Nat × Nat)) × (Nat × Nat))} (h : ∀ i ∈ items, Gauges tbl w n u f phase slots Odd i) :
    ∀ p ∈ allPulses items, ∀ t, reading u f phase (t + (p.1 + p.2)) - reading u f phase t < 2 ^ w := by
  intro p hp t
  obtain ⟨i, hi, hp⟩ := List.mem_flatMap.mp hp
  have h4 := (h i hi).short t
  have key : p.1 + p.2 ≤ span i.1.2 + i.2.1 + i.2.2 := by
    rcases List.mem_append.mp hp with hp | hp
    · have : p.1 + p.2 ≤ span i.1.2 := le_span hp
      omega
    · rw [List.mem_singleton] at hp
      subst hp
      omega
  obtain ⟨z, hz⟩ := Nat.exists_eq_add_of_le key
  have := reading_mono u f phase (t + (p.1 + p.2)) z
  rw [hz, ← Nat.add_assoc] at h4
  omega

theorem gaugedPulses_small {u f phase w : Nat} (ps : List (Nat × Nat)) (t : Nat)
    (h : ∀ p ∈ ps, ∀ t, reading u f phase (t + (p.1 + p.2)) - reading u f phase t < 2 ^ w) :
    ∀ q ∈ gaugedPulses u f phase w t ps, q.1 + q.2 < 2 ^ w := by
  induction ps generalizing t with
  | nil => simp [gaugedPulses]
  | cons p ps ih =>
    obtain ⟨a, b⟩ := p
    intro q hq
    simp only [gaugedPulses, List.mem_cons] at hq
    rcases hq with rfl | hq
    · have := h (a, b) (by simp) t
      have r1 := reading_mono u f phase t a
      have r2 := reading_mono u f phase (t + a) b
      have g1 := gauged_le u f phase w t a
      have g2 := gauged_le u f phase w (t + a) b
      rw [← Nat.add_assoc] at this
      dsimp only at this ⊢
      omega
    · exact ih _ (fun p hp => h p (by simp [hp])) q hq

/-- The receiver's intervals. -/
theorem instant_gauged {m : Mono} (hm : m = Mono.u32 ∨ m = Mono.u64) (D : Decoder C) (conv : C → K) {u f phase : Nat}
    (t0 x0 : Nat) (ps : List (Nat × Nat))
    (h : ∀ p ∈ ps, ∀ t, reading u f phase (t + (p.1 + p.2)) - reading u f phase t < 2 ^ m.width) :
    instantRun m D conv (stamps u f phase m.width t0 ((true, x0) :: pulses ps)) =
      results D conv ((true, reading u f phase (t0 + x0) % 2 ^ m.width) ::
        pulses (gaugedPulses u f phase m.width (t0 + x0) ps)) := by
  rw [C35_instant_equiv m hm, stamps, elapsed, if_pos (Nat.zero_le _), Nat.sub_zero, elapsed_stamps]
  intro p hp t x hx
  have := h p hp t
  obtain ⟨z, hz⟩ : ∃ z, p.1 + p.2 = x + z := by
    rcases hx with rfl | rfl
    · exact ⟨p.2, rfl⟩
    · exact ⟨p.1, Nat.add_comm _ _⟩
  have r := reading_mono u f phase (t + x) z
  rw [hz, ← Nat.add_assoc] at this
  omega

/-! ## Marks and spaces alone -/

/-- `us` microseconds, give or take `j` percent, are not a symbol of `l` µs and `tol` percent. -/
def Clear (j us : Nat) (s : Nat × Nat) : Prop :=
  (100 + s.2) * s.1 + 5000 < (100 - j) * us ∨
    10000 * ((100 + j) * us + 5000 + 50 * (100 - s.2)) < 9968 * ((100 - s.2) * s.1)

instance (j us : Nat) (s : Nat × Nat) : Decidable (Clear j us s) := by unfold Clear; infer_instance

theorem clear_rejects {k : Kind} {t : Target} {m : Mono} (hm : m = Mono.u32 ∨ m = Mono.u64) {f : Nat} (hlo : 20000 ≤ f)
    (hf : f < 2 ^ 32) {tbl : PulseSpans} (htbl : k.build t m f = some tbl) {i : Nat} {s : Nat × Nat}
    (hs : k.symbols[i]? = some s) {u j us x : Nat} (hu : 0 < u) (hc : Clear j us s) (hx : Near u j us x) (phase t' : Nat) :
    tbl.get (reading u f phase (t' + x) - reading u f phase t') ≠ some i := by
  obtain ⟨l, tol⟩ := s
  refine kind_rejects hm hf htbl hs ?_
  obtain ⟨hb1, hb2⟩ := reading_bounds hu f phase t' x
  generalize reading u f phase (t' + x) - reading u f phase t' = d at *
  obtain ⟨hx1, hx2⟩ := hx
  have lo : (100 - j) * us * f ≤ 100000000 * d + 100000000 := by
    refine Nat.le_of_mul_le_mul_left (c := u) ?_ hu
    have e1 := Nat.mul_le_mul_right f hx1
    have e2 : (100 - j) * us * u * f = u * ((100 - j) * us * f) := by ac_rfl
    have e3 : 100000000 * x * f = 100000000 * (x * f) := Nat.mul_assoc ..
    have e4 : u * (100000000 * d) = 100000000 * (u * d) := by ac_rfl
    rw [Nat.mul_add]
    omega
  have hi : 100000000 * d ≤ (100 + j) * us * f + 100000000 := by
    refine Nat.le_of_mul_le_mul_left (c := u) ?_ hu
    have e1 := Nat.mul_le_mul_right f hx2
    have e2 : (100 + j) * us * u * f = u * ((100 + j) * us * f) := by ac_rfl
    have e3 : 100000000 * x * f = 100000000 * (x * f) := Nat.mul_assoc ..
    have e4 : u * (100000000 * d) = 100000000 * (u * d) := by ac_rfl
    rw [Nat.mul_add]
    omega
  rcases hc with hc | hc
  · left
    dsimp only at hc
    have h1 := (Nat.mul_lt_mul_right (show 0 < f by omega)).mpr hc
    rw [Nat.add_mul] at h1
    omega
  · right
    dsimp only at hc
    have h1 := (Nat.mul_lt_mul_right (show 0 < f by omega)).mpr hc
    have h2 : 9968 * ((100 - tol) * l) * f = 9968 * ((100 - tol) * l * f) := Nat.mul_assoc ..
    have h3 : 10000 * ((100 + j) * us + 5000 + 50 * (100 - tol)) * f =
        10000 * ((100 + j) * us * f) + 50000000 * f + 500000 * ((100 - tol) * f) := by
      rw [Nat.mul_assoc, Nat.add_mul, Nat.add_mul, Nat.mul_assoc 50 (100 - tol) f]; omega
    have h4 : (100 - tol) * 20000 ≤ (100 - tol) * f := Nat.mul_le_mul_left _ hlo
    rw [h2, h3] at h1
    omega

theorem rest_rejects {k : Kind} {t : Target} {m : Mono} (hm : m = Mono.u32 ∨ m = Mono.u64) {f : Nat} (hlo : 20000 ≤ f)
    (hf : f < 2 ^ 32) {tbl : PulseSpans} (htbl : k.build t m f = some tbl) {i : Nat} {s : Nat × Nat}
    (hs : k.symbols[i]? = some s) {u x : Nat} (hu : 0 < u) (hc : (100 + s.2) * s.1 ≤ 1500000)
    (hx : 16000 * u ≤ 1000000 * x) (phase t' : Nat) :
    tbl.get (reading u f phase (t' + x) - reading u f phase t') ≠ some i := by
  obtain ⟨l, tol⟩ := s
  refine kind_rejects hm hf htbl hs (.inl ?_)
  obtain ⟨-, hb2⟩ := reading_bounds hu f phase t' x
  generalize reading u f phase (t' + x) - reading u f phase t' = d at *
  have lo : 16000 * f ≤ 1000000 * d + 1000000 := by
    refine Nat.le_of_mul_le_mul_left (c := u) ?_ hu
    have e1 := Nat.mul_le_mul_right f hx
    have e2 : 16000 * u * f = u * (16000 * f) := by ac_rfl
    have e3 : 1000000 * x * f = 1000000 * (x * f) := Nat.mul_assoc ..
    have e4 : u * (1000000 * d) = 1000000 * (u * d) := by ac_rfl
    rw [Nat.mul_add]
    omega
  have := Nat.mul_le_mul_right f hc
  dsimp only at this
  omega

theorem clear_all {k : Kind} {t : Target} {m : Mono} (hm : m = Mono.u32 ∨ m = Mono.u64) {f : Nat} (hlo : 20000 ≤ f)
    (hf : f < 2 ^ 32) {tbl : PulseSpans} (htbl : k.build t m f = some tbl) {u j us x : Nat} (hu : 0 < u)
    (hc : ∀ s ∈ k.symbols, Clear j us s) (hx : Near u j us x) (phase t' : Nat) :
    ∀ y, y < k.symbols.length → tbl.get (reading u f phase (t' + x) - reading u f phase t') ≠ some y := by
  intro y hy
  have hs := List.getElem?_eq_getElem hy
  exact clear_rejects hm hlo hf htbl hs hu (hc _ (List.mem_of_getElem? hs)) hx phase t'

theorem rest_all {k : Kind} {t : Target} {m : Mono} (hm : m = Mono.u32 ∨ m = Mono.u64) {f : Nat} (hlo : 20000 ≤ f)
    (hf : f < 2 ^ 32) {tbl : PulseSpans} (htbl : k.build t m f = some tbl) {u x : Nat} (hu : 0 < u)
    (hc : ∀ s ∈ k.symbols, (100 + s.2) * s.1 ≤ 1500000) (hx : 16000 * u ≤ 1000000 * x) (phase t' : Nat) :
    ∀ y, y < k.symbols.length → tbl.get (reading u f phase (t' + x) - reading u f phase t') ≠ some y := by
  intro y hy
  have hs := List.getElem?_eq_getElem hy
  exact rest_rejects hm hlo hf htbl hs hu (hc _ (List.mem_of_getElem? hs)) hx phase t'

theorem near_periods {u j : Nat} {nominal ps : List (Nat × Nat)} (h : NearPulses u j nominal ps) :
    NearPeriods u j (nominal.map fun p => p.1 + p.2) ps := by
  refine ⟨by rw [h.1, List.length_map], fun i p l hp hl => ?_⟩
  rw [List.getElem?_map, Option.map_eq_some_iff] at hl
  obtain ⟨q, hq, rfl⟩ := hl
  obtain ⟨h1, h2⟩ := h.2 i p q hp hq
  exact near_add h1 h2

/-- One transmission. -/
theorem gauges_of {t : Target} {m : Mono} (hm : m = Mono.u32 ∨ m = Mono.u64) {f : Nat} (hlo : 20000 ≤ f)
    (hf : f < 2 ^ 32) {tbl : PulseSpans} (k : Kind) (htbl : k.build t m f = some tbl) {u phase j jm mark : Nat} (hu : 0 < u) (hj : j ≤ jm)
    {slots : S → List Nat} {Odd : S → Nat → Option Nat → Prop} {s : S} {ps nominal : List (Nat × Nat)} {p : Nat × Nat}
    (hlen : nominal.length = (slots s).length)
    (hmeas : ∀ (i l x : Nat), (nominal.map fun p => p.1 + p.2)[i]? = some l → (slots s)[i]? = some x →
      Measures tbl u f phase j x l)
    (hodd : ∀ (i : Nat) (q : Nat × Nat), nominal[i]? = some q → ∀ t x us, (us = q.1 ∨ us = q.2) → Near u jm us x →
      Odd s i (tbl.get (reading u f phase (t + x) - reading u f phase t)))
    (hmark : ∀ s ∈ k.symbols, Clear jm mark s) (hrest : ∀ s ∈ k.symbols, (100 + s.2) * s.1 ≤ 1500000)
    (hn : NearPulses u j nominal ps) (hp : StopAndRest u f j m.width mark ps p) :
    Gauges tbl m.width k.symbols.length u f phase slots Odd ((s, ps), p) := by
  obtain ⟨p1, p2, p3⟩ := hp
  refine ⟨fun t' => matches_of_measures (by rw [List.length_map, hlen]) hmeas (near_periods hn) t', ?_, ?_, ?_⟩
  · intro i q hq t' x hx
    have hi : i < nominal.length := by
      rw [← hn.1]; exact (List.getElem?_eq_some_iff.mp hq).1
    have hq' := List.getElem?_eq_getElem hi
    obtain ⟨n1, n2⟩ := hn.2 i q _ hq hq'
    rcases hx with rfl | rfl
    · exact hodd i _ hq' t' _ _ (.inl rfl) (near_mono hj n1)
    · exact hodd i _ hq' t' _ _ (.inr rfl) (near_mono hj n2)
  · intro t' x hx
    rcases hx with rfl | rfl | rfl
    · exact clear_all hm hlo hf htbl hu hmark (near_mono hj p1) phase t'
    · exact rest_all hm hlo hf htbl hu hrest p2 phase t'
    · exact rest_all hm hlo hf htbl hu hrest (by dsimp only; omega) phase t'
  · intro t'
    have h1 := (reading_bounds hu f phase t' (span ps + p.1 + p.2)).1
    refine Nat.lt_of_mul_lt_mul_left (a := u) ?_
    rw [Nat.mul_comm u (2 ^ _)]
    exact Nat.lt_of_le_of_lt h1 p3

/-! ## NEC family -/

/-- What may be measured of a period in which the counter wraps around. -/
def necOdd : NecSent → Nat → Option Nat → Prop
  | .frame _ _, _, d => ∀ x, x < 4 → d ≠ some x
  | .rep, _, d => d ≠ some 0 ∧ d ≠ some 1

theorem necParse_skips (unpack : BitVec 32 → Bool → Option C) (last : BitVec 32) (l : List Nat)
    (hl : ∀ x ∈ l, x ≠ 0 ∧ x ≠ 1) (ss : List (Option Nat)) :
    necParse unpack last (l.map some ++ ss) = necParse unpack last ss := by
  induction l with
  | nil => rfl
  | cons x l ih =>
    obtain ⟨h0, h1⟩ := hl x (by simp)
    rw [List.map_cons, List.cons_append, necParse_skip _ _ _ _ (by simpa using h0) (by simpa using h1),
      ih fun y hy => hl y (by simp [hy])]

theorem nec_cut_step (unpack : BitVec 32 → Bool → Option C) (last : BitVec 32) (s : NecSent) (k : Nat) (d e : Option Nat)
    (ss : List (Option Nat)) (hk : k < s.slots.length) (hd : necOdd s k d) (he : ∀ x, x < 4 → e ≠ some x) :
    necParse unpack last ((s.slots.take k).map some ++ d :: ((s.slots.drop (k + 1)).map some ++ e :: ss)) =
      (necAnswer unpack last (necCut s k)).1 ++ necParse unpack (necAnswer unpack last (necCut s k)).2 ss := by
  have he' : ∀ last, necParse unpack last (e :: ss) = necParse unpack last ss := fun last =>
    necParse_skip _ _ _ _ (he 0 (by decide)) (he 1 (by decide))
  cases s with
  | rep =>
    have : k = 0 := by simpa [NecSent.slots] using hk
    subst this
    simp only [NecSent.slots, List.take_zero, List.map_nil, List.nil_append, List.drop_succ_cons, List.drop_zero]
    rw [necParse_skip _ _ _ _ hd.1 hd.2, he']
    simp [necCut, necAnswer]
  | frame w n =>
    have hn : k < n := by
      rw [NecSent.slots, List.length_take] at hk; omega
    have e1 : (NecSent.slots (.frame w n)).take k = NecSent.slots (.frame w k) := by
      rw [NecSent.slots, NecSent.slots, List.take_take, Nat.min_eq_left (by omega)]
    rw [e1, nec_step unpack last (.frame w k) d _ hd, necParse_skips, he']
    · rfl
    · intro x hx
      rw [NecSent.slots, List.drop_take] at hx
      have hx := List.mem_of_mem_take hx
      rw [necSlots, List.drop_succ_cons] at hx
      obtain ⟨i, -, rfl⟩ := List.mem_map.mp (List.mem_of_mem_drop hx)
      split <;> simp

theorem necNominal_sum (high low : Nat) (w : BitVec 32) :
    (necNominal high low w).map (fun p => p.1 + p.2) = necPeriods (high + low) w := by
  rw [necNominal, necPeriods, List.map_cons, List.map_map]
  congr 1
  refine List.map_congr_left fun i _ => ?_
  simp only [Function.comp]
  split <;> rfl

/-- **C98**, NEC family: a receiver that is given a counter of 32 or 64 bits at every edge (`event_instant`) answers a
series of frames (complete, or broken off) and repeat codes as `necAnswer` says, wherever the counter wraps around: of a
frame only the periods before the wrap-around count, a repeat code during which the counter wraps around is not answered,
and a wrap-around in a pause has no effect.  (The counter at the very first edge must not look like a sync pulse.) -/
theorem C98_nec (t : Target) (f j : Nat) (hlo : 20000 ≤ f) (hf : f < 2 ^ 32) (v : NecVariant C)
    (hv : v.Shipped) (m : Mono) (hm : m = Mono.u32 ∨ m = Mono.u64) (tbl : PulseSpans)
    (htbl : necSpans t m v f = some tbl) (hj : j ≤ 7) (hc : coversAll tbl f j (necLengths v) = true) (conv : C → K)
    (u : Nat) (hu : 0 < u) (phase t0 x0 : Nat)
    (hg : Pause tbl m.width [0, 1] (0, reading u f phase (t0 + x0) % 2 ^ m.width))
    (items : List ((NecSent × List (Nat × Nat)) × (Nat × Nat)))
    (hok : ∀ i ∈ items,
      NearPulses u j (i.1.1.nominal v.pulseDistance.headerHigh v.pulseDistance.headerLow v.pulseDistance.repeatLow)
        i.1.2 ∧ StopAndRest u f j m.width 560 i.1.2 i.2) :
    (instantRun m (necDecoder t m tbl v) conv
        (stamps u f phase m.width t0 ((true, x0) :: series (fun i => i.2) items))).map said =
      some ((told (necAnswer v.unpack) 0 (leftOf necCut u f phase m.width (t0 + x0) items)).map (Res.map conv)) := by
  obtain ⟨hun, -⟩ := necSpans_good hm t hlo hf v hv htbl
  obtain ⟨k, hk, he⟩ := nec_kind v hv
  have hb := htbl
  rw [he] at hb
  have hk4 : k.symbols.length = 4 := by rcases hk with ⟨rfl, -⟩ | ⟨rfl, -⟩ <;> rfl
  have hbit : ∀ us, us = 560 ∨ us = 1690 → ∀ s ∈ k.symbols, Clear 7 us s := by
    rintro us (rfl | rfl) <;> rcases hk with ⟨rfl, -⟩ | ⟨rfl, -⟩ <;> decide
  have hhead : ∀ us, us = v.pulseDistance.headerHigh ∨ us = v.pulseDistance.headerLow →
      ∀ s ∈ k.symbols, Clear 7 us s := by
    rcases hk with ⟨rfl, hv'⟩ | ⟨rfl, hv'⟩ <;> rw [hv'] <;> rintro us (rfl | rfl) <;> decide
  have hrep : ∀ us, us = v.pulseDistance.headerHigh ∨ us = v.pulseDistance.repeatLow →
      ∀ s ∈ k.symbols.take 2, Clear 7 us s := by
    rcases hk with ⟨rfl, hv'⟩ | ⟨rfl, hv'⟩ <;> rw [hv'] <;> rintro us (rfl | rfl) <;> decide
  have hG : ∀ i ∈ items, Gauges tbl m.width 4 u f phase NecSent.slots necOdd i := by
    rintro ⟨⟨s, ps⟩, p⟩ hi
    obtain ⟨h1, h2⟩ := hok _ hi
    dsimp only at h1 h2
    have hsum : (s.nominal v.pulseDistance.headerHigh v.pulseDistance.headerLow v.pulseDistance.repeatLow).map
        (fun p => p.1 + p.2) = s.periods (v.pulseDistance.headerHigh + v.pulseDistance.headerLow)
          (v.pulseDistance.headerHigh + v.pulseDistance.repeatLow) := by
      cases s with
      | rep => rfl
      | frame w n => rw [NecSent.nominal, NecSent.periods, List.map_take, necNominal_sum]
    rw [← hk4]
    refine gauges_of hm hlo hf k hb hu hj (mark := 560) ?_ ?_ ?_ (hbit 560 (.inl rfl)) ?_ h1 h2
    · rw [← List.length_map (f := fun p : Nat × Nat => p.1 + p.2), hsum]
      cases s <;> simp [NecSent.periods, NecSent.slots, necPeriods, necSlots]
    · rw [hsum]
      exact nec_lengths_ok (fun _ _ hs => measures_of_covers hu (coversAll_get hc hs)) s
    · intro i q hq t' x us hus hx
      cases s with
      | rep =>
        have : i = 0 := by
          have := (List.getElem?_eq_some_iff.mp hq).1
          simpa [NecSent.nominal] using this
        subst this
        simp only [NecSent.nominal, List.getElem?_cons_zero, Option.some.injEq] at hq
        subst hq
        have key : ∀ y, y < 2 → tbl.get (reading u f phase (t' + x) - reading u f phase t') ≠ some y := by
          intro y hy
          have hs : k.symbols[y]? = some (k.symbols[y]'(by omega)) := List.getElem?_eq_getElem _
          refine clear_rejects hm hlo hf hb hs hu (hrep us hus _ (List.mem_of_getElem? (i := y) ?_)) hx phase t'
          rw [List.getElem?_take, if_pos hy, hs]
        exact ⟨key 0 (by decide), key 1 (by decide)⟩
      | frame w n =>
        have hcl : ∀ s ∈ k.symbols, Clear 7 us s := by
          rw [NecSent.nominal] at hq
          have hmem := List.mem_of_mem_take (List.mem_of_getElem? hq)
          rw [necNominal, List.mem_cons, List.mem_map] at hmem
          rcases hmem with rfl | ⟨b, -, rfl⟩
          · exact hhead us hus
          · refine hbit us ?_
            dsimp only at hus
            split at hus <;> omega
        have := clear_all hm hlo hf hb hu hcl hx phase t'
        rwa [hk4] at this
    · rcases hk with ⟨rfl, -⟩ | ⟨rfl, -⟩ <;> decide
  have hsm := gauges_small hG
  have hlt := gaugedPulses_small (allPulses items) (t0 + x0) hsm
  have hgw : reading u f phase (t0 + x0) % 2 ^ m.width < 2 ^ m.width := Nat.mod_lt _ (Nat.two_pow_pos _)
  rw [series, instant_gauged hm _ conv t0 x0 _ hsm]
  rcases hr : results (necDecoder t m tbl v) conv ((true, reading u f phase (t0 + x0) % 2 ^ m.width) ::
      pulses (gaugedPulses u f phase m.width (t0 + x0) (allPulses items))) with _ | outs
  · exact absurd ((C30_nec_panics_iff t m hm tbl v conv _).mp hr).2 (pulses_small hgw hlt)
  · rw [Option.map_some, C67_nec t m (Mono.prim_lawful hm) tbl v conv _ outs hr, pulses_symbols tbl hgw hlt, necParse_skip,
      gauges_parse hun NecSent.slots_lt _ _ (fun _ => by rw [necParse]) (nec_step v.unpack) (nec_cut_step v.unpack) items hG]
    · exact fun h => hg.2 0 (by simp) (by simpa using get_inTol h)
    · exact fun h => hg.2 1 (by simp) (by simpa using get_inTol h)

/-! ## SBP -/

theorem sbpParse_skips (l : List Nat) (hl : ∀ x ∈ l, x ≠ 0) (ss : List (Option Nat)) :
    sbpParse (l.map some ++ ss) = sbpParse ss := by
  induction l with
  | nil => rfl
  | cons x l ih =>
    rw [List.map_cons, List.cons_append, sbpParse_skip _ _ (by simpa using hl x (by simp)),
      ih fun y hy => hl y (by simp [hy])]

theorem sbp_cut_step (s : BitVec 16 × BitVec 20 × Nat) (k : Nat) (d e : Option Nat) (ss : List (Option Nat))
    (hk : k < (sbpSent s).length) (hd : ∀ x, x < 4 → d ≠ some x) (he : ∀ x, x < 4 → e ≠ some x) :
    sbpParse (((sbpSent s).take k).map some ++ d :: (((sbpSent s).drop (k + 1)).map some ++ e :: ss)) =
      (sbpAnswer () (sbpCut s k)).1 ++ sbpParse ss := by
  obtain ⟨a, w, n⟩ := s
  have hn : k < n := by
    rw [sbpSent, List.length_take] at hk
    dsimp only at hk; omega
  have e1 : (sbpSent (a, w, n)).take k = sbpSent (a, w, k) := by
    rw [sbpSent, sbpSent, List.take_take, Nat.min_eq_left (by dsimp only; omega)]
  rw [e1, sbp_step (a, w, k) d _ hd, sbpParse_skips, sbpParse_skip _ _ (he 0 (by decide))]
  · rfl
  · intro x hx
    rw [sbpSent, List.drop_take] at hx
    have hx := List.mem_of_mem_take hx
    rw [sbpSlots, List.append_assoc, List.append_assoc, List.singleton_append, List.drop_succ_cons] at hx
    have hx := List.mem_of_mem_drop hx
    simp only [List.mem_append, List.mem_singleton, List.mem_map] at hx
    rcases hx with ⟨i, -, rfl⟩ | rfl | ⟨i, -, rfl⟩
    · split <;> simp
    · simp
    · split <;> simp

theorem sbpNominal_sum (a : BitVec 16) (w : BitVec 20) :
    (sbpNominal a w).map (fun p => p.1 + p.2) = sbpPeriods a w := by
  have key : ∀ b : Bool, 500 + (if b = true then 1500 else 500) = if b = true then 500 + 1500 else 500 + 500 := by decide
  rw [sbpNominal, sbpPeriods]
  simp only [List.map_append, List.map_map, List.map_cons, List.map_nil, Function.comp_def, key]

/-- **C98**, SBP: of a frame only the periods before the wrap-around count. -/
theorem C98_sbp (t : Target) (f j : Nat) (hlo : 20000 ≤ f) (hf : f < 2 ^ 32) (m : Mono)
    (hm : m = Mono.u32 ∨ m = Mono.u64) (tbl : PulseSpans) (htbl : sbpSpans t m f = some tbl) (hj : j ≤ 3)
    (hc : coversAll tbl f j sbpLengths = true) (conv : SbpCommand → K) (u : Nat) (hu : 0 < u) (phase t0 x0 : Nat)
    (hg : Pause tbl m.width [0] (0, reading u f phase (t0 + x0) % 2 ^ m.width))
    (items : List (((BitVec 16 × BitVec 20 × Nat) × List (Nat × Nat)) × (Nat × Nat)))
    (hok : ∀ i ∈ items, NearPulses u j ((sbpNominal i.1.1.1 i.1.1.2.1).take i.1.1.2.2) i.1.2 ∧
      StopAndRest u f j m.width 500 i.1.2 i.2) :
    (instantRun m (sbpDecoder t m tbl) conv
        (stamps u f phase m.width t0 ((true, x0) :: series (fun i => i.2) items))).map said =
      some ((told sbpAnswer () (leftOf sbpCut u f phase m.width (t0 + x0) items)).map (Res.map conv)) := by
  have hun : Unambiguous tbl 4 := (C14_classification_unambiguous f hlo hf t m hm).2.2.2.2.2.2.1 tbl htbl
  have hcl : ∀ s l, sbpLengths[s]? = some l → Measures tbl u f phase j s l :=
    fun _ _ hs => measures_of_covers hu (coversAll_get hc hs)
  have hG : ∀ i ∈ items, Gauges tbl m.width Kind.sbp.symbols.length u f phase sbpSent
      (fun _ _ d => ∀ x, x < 4 → d ≠ some x) i := by
    rintro ⟨⟨⟨a, w, n⟩, ps⟩, p⟩ hi
    obtain ⟨h1, h2⟩ := hok _ hi
    refine gauges_of hm hlo hf .sbp htbl hu hj (mark := 500) ?_ ?_ ?_ (by decide) (by decide) h1 h2
    · simp [sbpSent, sbpNominal, sbpSlots]
    · rw [List.map_take, sbpNominal_sum]
      refine take_ok n ?_
      unfold sbpPeriods sbpSlots
      exact append_ok (by simp) (append_ok (by simp) (append_ok (by simp)
        (single_ok (hcl 0 _ rfl)) (bits_ok 16 _ _ _ _ _ (hcl 3 _ rfl) (hcl 2 _ rfl)))
        (single_ok (hcl 1 _ rfl))) (bits_ok 20 _ _ _ _ _ (hcl 3 _ rfl) (hcl 2 _ rfl))
    · intro i q hq t' x us hus hx
      have hus' : us = 500 ∨ us = 1500 ∨ us = 4500 := by
        have hmem := List.mem_of_mem_take (List.mem_of_getElem? hq)
        simp only [sbpNominal, List.mem_append, List.mem_singleton, List.mem_map] at hmem
        rcases hmem with ((rfl | ⟨b, -, rfl⟩) | rfl) | ⟨b, -, rfl⟩
        · dsimp only at hus; omega
        · dsimp only at hus
          split at hus <;> omega
        · dsimp only at hus; omega
        · dsimp only at hus
          split at hus <;> omega
      refine clear_all hm hlo hf (k := .sbp) htbl hu ?_ hx phase t'
      rcases hus' with rfl | rfl | rfl <;> decide
  have hsm := gauges_small hG
  have hlt := gaugedPulses_small (allPulses items) (t0 + x0) hsm
  have hgw : reading u f phase (t0 + x0) % 2 ^ m.width < 2 ^ m.width := Nat.mod_lt _ (Nat.two_pow_pos _)
  have halt := pulses_alternating (reading u f phase (t0 + x0) % 2 ^ m.width)
    (gaugedPulses u f phase m.width (t0 + x0) (allPulses items))
  rw [series, instant_gauged hm _ conv t0 x0 _ hsm]
  rcases hr : results (sbpDecoder t m tbl) conv ((true, reading u f phase (t0 + x0) % 2 ^ m.width) ::
      pulses (gaugedPulses u f phase m.width (t0 + x0) (allPulses items))) with _ | outs
  · exact absurd ((C30_sbp_panics_iff t m hm tbl conv _ halt).mp hr).2 (pulses_small hgw hlt)
  · rw [Option.map_some, C67_sbp t m (Mono.prim_lawful hm) tbl conv _ halt outs hr, pulses_symbols tbl hgw hlt,
      sbpParse_skip, gauges_parse hun sbpSent_lt (fun _ => sbpParse) _ (fun _ => by rw [sbpParse]) (fun _ => sbp_step)
        (fun _ => sbp_cut_step) items hG _ ()]
    exact fun h => hg.2 0 (by simp) (by simpa using get_inTol h)

/-! ## Denon -/

theorem denonParse_skips (stale : BitVec 64) (l : List Nat) (hl : ∀ x ∈ l, x ≠ 0) (ss : List (Option Nat)) :
    denonParse stale (l.map some ++ ss) = denonParse stale ss := by
  induction l with
  | nil => rfl
  | cons x l ih =>
    rw [List.map_cons, List.cons_append, denonParse_skip _ _ _ (by simpa using hl x (by simp)),
      ih fun y hy => hl y (by simp [hy])]

/-- What may be measured of a period in which the counter wraps around. -/
def denonOdd (_ : BitVec 48 × Nat) (k : Nat) (d : Option Nat) : Prop :=
  d ≠ some 0 ∧ (0 < k → ∀ x, x < 3 → d ≠ some x)

theorem denon_cut_step (stale : BitVec 64) (s : BitVec 48 × Nat) (k : Nat) (d e : Option Nat) (ss : List (Option Nat))
    (hk : k < (denonSent s).length) (hd : denonOdd s k d) (he : ∀ x, x < 3 → e ≠ some x) :
    denonParse stale (((denonSent s).take k).map some ++ d :: (((denonSent s).drop (k + 1)).map some ++ e :: ss)) =
      (denonAnswer stale (denonCut s k)).1 ++ denonParse (denonAnswer stale (denonCut s k)).2 ss := by
  obtain ⟨w, n⟩ := s
  have hn : k < n := by
    rw [denonSent, List.length_take] at hk
    dsimp only at hk; omega
  have e1 : (denonSent (w, n)).take k = denonSent (w, k) := by
    rw [denonSent, denonSent, List.take_take, Nat.min_eq_left (by dsimp only; omega)]
  have e2 : ∀ x ∈ (denonSent (w, n)).drop (k + 1), x ≠ 0 := by
    intro x hx
    rw [denonSent, List.drop_take] at hx
    have hx := List.mem_of_mem_take hx
    rw [denonSlots, List.singleton_append, List.drop_succ_cons] at hx
    obtain ⟨i, -, rfl⟩ := List.mem_map.mp (List.mem_of_mem_drop hx)
    split <;> simp
  rw [e1]
  rcases k with _ | k
  · rw [show (denonSent (w, 0)).map some = [] from rfl, List.nil_append, denonParse_skip _ _ _ hd.1, denonParse_skips _ _ e2,
      denonParse_skip _ _ _ (he 0 (by decide))]
    rfl
  · rw [denon_step stale (w, k + 1) d _ (hd.2 (by omega)), denonParse_skips _ _ e2, denonParse_skip _ _ _ (he 0 (by decide))]
    rfl

theorem denonNominal_sum (w : BitVec 48) : (denonNominal w).map (fun p => p.1 + p.2) = denonPeriods w := by
  have key : ∀ b : Bool, 480 + (if b = true then 1200 else 360) = if b = true then 480 + 1200 else 480 + 360 := by decide
  rw [denonNominal, denonPeriods]
  simp only [List.map_map, List.map_cons, Function.comp_def, key]
  rfl

/-- **C98**, Denon: of a frame only the periods before the wrap-around count (their bits are mixed into the next
command). -/
theorem C98_denon (t : Target) (f j : Nat) (hlo : 20000 ≤ f) (hf : f < 2 ^ 32) (m : Mono)
    (hm : m = Mono.u32 ∨ m = Mono.u64) (tbl : PulseSpans) (htbl : denonSpans t m f = some tbl) (hj : j ≤ 8)
    (hc : coversAll tbl f j denonLengths = true) (conv : DenonCommand → K) (u : Nat) (hu : 0 < u) (phase t0 x0 : Nat)
    (hg : Pause tbl m.width [0] (0, reading u f phase (t0 + x0) % 2 ^ m.width))
    (items : List (((BitVec 48 × Nat) × List (Nat × Nat)) × (Nat × Nat)))
    (hok : ∀ i ∈ items, NearPulses u j ((denonNominal i.1.1.1).take i.1.1.2) i.1.2 ∧
      StopAndRest u f j m.width 480 i.1.2 i.2) :
    (instantRun m (denonDecoder t m tbl) conv
        (stamps u f phase m.width t0 ((true, x0) :: series (fun i => i.2) items))).map said =
      some ((told denonAnswer 0 (leftOf denonCut u f phase m.width (t0 + x0) items)).map (Res.map conv)) := by
  have hun : Unambiguous tbl 3 := (C14_classification_unambiguous f hlo hf t m hm).2.2.2.2.2.2.2 tbl htbl
  have hcl : ∀ s l, denonLengths[s]? = some l → Measures tbl u f phase j s l :=
    fun _ _ hs => measures_of_covers hu (coversAll_get hc hs)
  have hG : ∀ i ∈ items, Gauges tbl m.width Kind.denon.symbols.length u f phase denonSent denonOdd i := by
    rintro ⟨⟨⟨w, n⟩, ps⟩, p⟩ hi
    obtain ⟨h1, h2⟩ := hok _ hi
    refine gauges_of hm hlo hf .denon htbl hu hj (mark := 480) ?_ ?_ ?_ (by decide) (by decide) h1 h2
    · simp [denonSent, denonNominal, denonSlots]
    · rw [List.map_take, denonNominal_sum]
      refine take_ok n ?_
      unfold denonPeriods denonSlots
      exact append_ok (by simp) (single_ok (hcl 0 _ rfl)) (bits_ok 48 _ _ _ _ _ (hcl 2 _ rfl) (hcl 1 _ rfl))
    · intro i q hq t' x us hus hx
      rw [List.getElem?_take] at hq
      split at hq
      · rw [denonNominal] at hq
        rcases i with _ | i
        · simp only [List.getElem?_cons_zero, Option.some.injEq] at hq
          subst hq
          refine ⟨clear_rejects hm hlo hf (k := .denon) htbl (s := (3400 + 1600, 8)) rfl hu ?_ hx phase t', fun h => absurd h (by omega)⟩
          rcases hus with rfl | rfl <;> decide
        · rw [List.getElem?_cons_succ] at hq
          obtain ⟨b, -, rfl⟩ := List.mem_map.mp (List.mem_of_getElem? hq)
          have hus' : us = 480 ∨ us = 1200 ∨ us = 360 := by
            dsimp only at hus
            split at hus <;> omega
          have key : ∀ y, y < 3 → tbl.get (reading u f phase (t' + x) - reading u f phase t') ≠ some y := by
            refine clear_all hm hlo hf (k := .denon) htbl hu ?_ hx phase t'
            rcases hus' with rfl | rfl | rfl <;> decide
          exact ⟨key 0 (by decide), fun _ => key⟩
      · cases hq
  have hsm := gauges_small hG
  have hlt := gaugedPulses_small (allPulses items) (t0 + x0) hsm
  have hgw : reading u f phase (t0 + x0) % 2 ^ m.width < 2 ^ m.width := Nat.mod_lt _ (Nat.two_pow_pos _)
  rw [series, instant_gauged hm _ conv t0 x0 _ hsm]
  rcases hr : results (denonDecoder t m tbl) conv ((true, reading u f phase (t0 + x0) % 2 ^ m.width) ::
      pulses (gaugedPulses u f phase m.width (t0 + x0) (allPulses items))) with _ | outs
  · exact absurd ((C30_denon_panics_iff t m hm tbl conv _).mp hr).2 (pulses_small hgw hlt)
  · rw [Option.map_some, C67_denon t m (Mono.prim_lawful hm) tbl conv _ outs hr, pulses_symbols tbl hgw hlt,
      denonParse_skip, gauges_parse hun denonSent_lt denonParse _ (fun _ => by rw [denonParse]) denon_step denon_cut_step
        items hG]
    exact fun h => hg.2 0 (by simp) (by simpa using get_inTol h)

/-! ## At most one per lap -/

theorem leftOf_same {cut : S → Nat → S} {u f phase w : Nat} (items : List ((S × List (Nat × Nat)) × (Nat × Nat))) (t : Nat)
    (h : laps u f phase w t = laps u f phase w (t + ((allPulses items).map fun p => p.1 + p.2).sum)) :
    leftOf cut u f phase w t items = items.map fun i => i.1.1 := by
  induction items generalizing t with
  | nil => rfl
  | cons i items ih =>
    obtain ⟨⟨s, ps⟩, a, b⟩ := i
    have e : ((allPulses (((s, ps), (a, b)) :: items)).map fun p => p.1 + p.2).sum =
        span ps + (a + b + ((allPulses items).map fun p => p.1 + p.2).sum) := by
      simp [allPulses, span]
    rw [e, ← Nat.add_assoc, ← Nat.add_assoc, ← Nat.add_assoc] at h
    have h1 := laps_mono u f phase w t (span ps)
    have h2 := laps_mono u f phase w (t + span ps) (a + b)
    have h3 := laps_mono u f phase w (t + span ps + a + b) ((allPulses items).map fun p => p.1 + p.2).sum
    rw [← Nat.add_assoc] at h2
    rw [leftOf, (gauged_same (u := u) (f := f) (phase := phase) (w := w) ps t (by omega)).2]
    dsimp only
    rw [show t + (ps.map fun p => p.1 + p.2).sum + a + b = t + span ps + a + b from rfl, ih _ (by omega)]
    rfl

theorem wrapAt_lt {u f phase w : Nat} {ps : List (Nat × Nat)} {t k : Nat} (h : wrapAt u f phase w t ps = some k) :
    k < ps.length := by
  induction ps generalizing t k with
  | nil => cases h
  | cons p ps ih =>
    rw [wrapAt] at h
    split at h
    · obtain ⟨k', hk', rfl⟩ := Option.map_eq_some_iff.mp h
      have := ih hk'
      simp only [List.length_cons]; omega
    · simp only [Option.some.injEq] at h
      subst h
      simp

/-- **C98**: if the counter wraps around at most once in the course of a series, at most one transmission is affected. -/
theorem C98_one_lap (cut : S → Nat → S) (u f phase w : Nat) (items : List ((S × List (Nat × Nat)) × (Nat × Nat))) (t : Nat)
    (h : laps u f phase w (t + ((items.flatMap fun i => i.1.2 ++ [i.2]).map fun p => p.1 + p.2).sum) ≤
      laps u f phase w t + 1) :
    leftOf cut u f phase w t items = (items.map fun i => i.1.1) ∨
      ∃ before i after k, items = before ++ i :: after ∧ k < i.1.2.length ∧
        leftOf cut u f phase w t items =
          (before.map fun i => i.1.1) ++ cut i.1.1 k :: (after.map fun i => i.1.1) := by
  induction items generalizing t with
  | nil => exact .inl rfl
  | cons i items ih =>
    obtain ⟨⟨s, ps⟩, a, b⟩ := i
    have e : (((((s, ps), (a, b)) :: items).flatMap fun i => i.1.2 ++ [i.2]).map fun p => p.1 + p.2).sum =
        span ps + (a + b + ((allPulses items).map fun p => p.1 + p.2).sum) := by
      simp [allPulses, span]
    rw [e, ← Nat.add_assoc, ← Nat.add_assoc, ← Nat.add_assoc] at h
    have h1 := laps_mono u f phase w t (span ps)
    have h2 := laps_mono u f phase w (t + span ps) (a + b)
    have h3 := laps_mono u f phase w (t + span ps + a + b) ((allPulses items).map fun p => p.1 + p.2).sum
    rw [← Nat.add_assoc] at h2
    rw [leftOf]
    dsimp only
    rw [show t + (ps.map fun p => p.1 + p.2).sum + a + b = t + span ps + a + b from rfl]
    by_cases hw : laps u f phase w t = laps u f phase w (t + span ps)
    · rw [(gauged_same ps t hw).2]
      rcases ih (t + span ps + a + b) (by unfold allPulses at h; omega) with h' | ⟨bf, i, af, k, e1, e2, e3⟩
      · exact .inl (by rw [h']; rfl)
      · exact .inr ⟨((s, ps), (a, b)) :: bf, i, af, k, by rw [e1]; rfl, e2, by rw [e3]; rfl⟩
    · rw [leftOf_same items _ (by omega)]
      rcases hk : wrapAt u f phase w t ps with _ | k
      · exact .inl rfl
      · exact .inr ⟨[], ((s, ps), (a, b)), items, k, rfl, wrapAt_lt hk, rfl⟩

/-! ## Non-vacuity -/

/-- A key held: a frame, a repeat code, and another frame, in nanoseconds. -/
def wrappedNec : List ((NecSent × List (Nat × Nat)) × (Nat × Nat)) :=
  [NecSent.frame 0xE718FF00#32 33, .rep, .frame 0xE916FF00#32 33].map fun s =>
    ((s, exactPulses (s.nominal 9000 4500 2250)), (560000, 40000000))

theorem wrappedNec_ok : ∀ i ∈ wrappedNec, NearPulses 1000000000 5 (i.1.1.nominal 9000 4500 2250) i.1.2 ∧
    StopAndRest 1000000000 1000000 5 32 560 i.1.2 i.2 := by
  intro i hi
  obtain ⟨s, hs, rfl⟩ := List.mem_map.mp hi
  refine ⟨exactPulses_near _ _, ?_⟩
  clear hi
  revert s
  unfold StopAndRest Near
  decide +kernel

/-- The counter of 1 MHz and 32 bits wraps around 30 ms after the beginning of the first frame: an error, and the repeat
code repeats what was received of the frame; then all is well. -/
example (t : Target) :
    (instantRun Mono.u32 (necDecoder t Mono.u32 (necTable 1000000) Infrared.nec) id
        (stamps 1000000000 1000000 0 Mono.u32.width 0 ((true, (2 ^ 32 - 30000) * 1000) :: series (fun i => i.2) wrappedNec))).map said =
      some [.error .data, .ok (some ⟨0, 0, true⟩), .ok (some ⟨0, 0x16, false⟩)] := by
  have htbl : necSpans t Mono.u32 Infrared.nec 1000000 = some (necTable 1000000) :=
    necSpans_standard (.inl rfl) t (by decide) Infrared.nec rfl
  rw [C98_nec t 1000000 5 (by decide) (by decide) Infrared.nec (.inl rfl) Mono.u32 (.inl rfl) _ htbl (by decide)
    (by decide +kernel) id 1000000000 (by decide) 0 0 _ (pause_of_get (by decide) (by decide +kernel)) wrappedNec
    wrappedNec_ok]
  decide +kernel

/-- It wraps around in the pause after the first frame: nothing is lost. -/
example (t : Target) :
    (instantRun Mono.u32 (necDecoder t Mono.u32 (necTable 1000000) Infrared.nec) id
        (stamps 1000000000 1000000 0 Mono.u32.width 0 ((true, (2 ^ 32 - 90000) * 1000) :: series (fun i => i.2) wrappedNec))).map said =
      some [.ok (some ⟨0, 0x18, false⟩), .ok (some ⟨0, 0x18, true⟩), .ok (some ⟨0, 0x16, false⟩)] := by
  have htbl : necSpans t Mono.u32 Infrared.nec 1000000 = some (necTable 1000000) :=
    necSpans_standard (.inl rfl) t (by decide) Infrared.nec rfl
  rw [C98_nec t 1000000 5 (by decide) (by decide) Infrared.nec (.inl rfl) Mono.u32 (.inl rfl) _ htbl (by decide)
    (by decide +kernel) id 1000000000 (by decide) 0 0 _ (pause_of_get (by decide) (by decide +kernel)) wrappedNec
    wrappedNec_ok]
  decide +kernel

/-- Two SBP frames. -/
def wrappedSbp : List (((BitVec 16 × BitVec 20 × Nat) × List (Nat × Nat)) × (Nat × Nat)) :=
  [(0x1234#16, 0xABCDE#20, 38), (0x1234#16, 0xABCDE#20, 38)].map fun s =>
    ((s, exactPulses ((sbpNominal s.1 s.2.1).take s.2.2)), (500000, 40000000))

/-- The counter wraps around in the address of the first. -/
example (t : Target) :
    (instantRun Mono.u32 (sbpDecoder t Mono.u32 (sbpTable 1000000)) id
        (stamps 1000000000 1000000 0 Mono.u32.width 0 ((true, (2 ^ 32 - 20000) * 1000) :: series (fun i => i.2) wrappedSbp))).map said =
      some [.error .address, .ok (some (SbpCommand.unpack 0x1234 0xABCDE))] := by
  have htbl : sbpSpans t Mono.u32 1000000 = some (sbpTable 1000000) := sbpSpans_eq (.inl rfl) t (by decide)
  rw [C98_sbp t 1000000 3 (by decide) (by decide) Mono.u32 (.inl rfl) _ htbl (by decide) (by decide +kernel) id
    1000000000 (by decide) 0 0 _ (pause_of_get (by decide) (by decide +kernel)) wrappedSbp (by
      intro i hi
      obtain ⟨s, hs, rfl⟩ := List.mem_map.mp hi
      refine ⟨exactPulses_near _ _, ?_⟩
      clear hi
      revert s
      unfold StopAndRest Near
      decide +kernel)]
  decide +kernel

/-- Three Denon frames. -/
def wrappedDenon : List (((BitVec 48 × Nat) × List (Nat × Nat)) × (Nat × Nat)) :=
  [(0x0000000FF0FF#48, 49), (0x2A4C028D6F00#48, 49), (0x2A4C028D6F00#48, 49)].map fun s =>
    ((s, exactPulses ((denonNominal s.1).take s.2)), (480000, 40000000))

/-- The counter wraps around in the first frame: nothing is said of it, but its bits spoil the command of the second. -/
example (t : Target) :
    (instantRun Mono.u32 (denonDecoder t Mono.u32 (denonTable 1000000)) id
        (stamps 1000000000 1000000 0 Mono.u32.width 0 ((true, (2 ^ 32 - 20000) * 1000) :: series (fun i => i.2) wrappedDenon))).map said =
      some [.ok (some ⟨0x2A4C028D6FFF⟩), .ok (some ⟨0x2A4C028D6F00⟩)] := by
  have htbl : denonSpans t Mono.u32 1000000 = some (denonTable 1000000) := denonSpans_eq (.inl rfl) t (by decide)
  rw [C98_denon t 1000000 3 (by decide) (by decide) Mono.u32 (.inl rfl) _ htbl (by decide) (by decide +kernel) id
    1000000000 (by decide) 0 0 _ (pause_of_get (by decide) (by decide +kernel)) wrappedDenon (by
      intro i hi
      obtain ⟨s, hs, rfl⟩ := List.mem_map.mp hi
      refine ⟨exactPulses_near _ _, ?_⟩
      clear hi
      revert s
      unfold StopAndRest Near
      decide +kernel)]
  decide +kernel

end Infrared
