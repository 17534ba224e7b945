import Verif.Spec.Fugit
import Verif.Props.Physical
import Verif.Props.Streams
import Verif.Props.Drivers

/-!
# Tables of receivers with a fugit clock, and real-time series in general
-/

namespace Infrared

open Spec

variable {C K : Type}

/-- The interval around `n` ticks. -/
def spanN (n tol : Nat) : Span := { low := n - n * tol / 100, high := n + n * tol / 100 }

section
variable {hz w : Nat} {micros : Nat → Option Nat} {since : Nat → Nat → Option Nat}

theorem rounded_lt {p n : Nat} (hp : p ≤ 13500) (hz' : hz < 2 ^ 32) (h : Rounded hz p n) :
    n < 57986816 := by
  have : p * hz ≤ 13500 * (2 ^ 32 - 1) := Nat.mul_le_mul hp (by omega)
  have := h.1
  omega

theorem createSpan_fugit (t : Target) (hw : 32 ≤ w) (hz' : hz < 2 ^ 32) (f : Nat) {p n tol : Nat}
    (hp : p ≤ 13500) (ht : tol ≤ 25) (hn : micros p = some n) (hr : Rounded hz p n) :
    (Mono.fugit w micros since).createSpan t f p tol = some (spanN n tol) := by
  have hlt := rounded_lt hp hz' hr
  have hm : n * tol ≤ n * 25 := Nat.mul_le_mul_left _ ht
  have hw' : 2 ^ 32 ≤ 2 ^ w := Nat.pow_le_pow_right (by decide) hw
  simp only [Mono.fugit, hn, umul, spanN, Option.bind_eq_bind, Option.bind_some]
  rw [if_pos (show n * tol < 2 ^ w by omega)]
  simp only [Option.bind_some]
  rw [if_pos ⟨by omega, by omega⟩]

/-- Tick counts. -/
def ticks (micros : Nat → Option Nat) (p : Nat) : Nat := (micros p).getD 0

theorem ticks_spec (hc : FugitClock hz w micros since) {p : Nat} (hp : p ≤ 13500) :
    micros p = some (ticks micros p) ∧ Rounded hz p (ticks micros p) := by
  obtain ⟨n, h1, h2⟩ := hc.rounds p hp
  have : ticks micros p = n := by simp [ticks, h1]
  rw [this]
  exact ⟨h1, h2⟩

/-- The table of a receiver with that clock. -/
def fugitTable (micros : Nat → Option Nat) (k : Kind) : PulseSpans :=
  { spans := k.symbols.map (fun s => spanN (ticks micros s.1) s.2) ++
      List.replicate (8 - k.symbols.length) ⟨0, 0⟩ }

theorem spans_new_fugit (hc : FugitClock hz w micros since) (hw : 32 ≤ w) (hz' : hz < 2 ^ 32)
    (t : Target) (f : Nat) (pulse tol : List Nat)
    (h : ∀ pt ∈ List.zip pulse tol, pt.1 ≤ 13500 ∧ pt.2 ≤ 25) :
    PulseSpans.new t (Mono.fugit w micros since) f pulse tol =
      some { spans := (List.zip pulse tol).map fun pt => spanN (ticks micros pt.1) pt.2 } := by
  unfold PulseSpans.new
  rw [mapM_eq_some_map _ (fun pt => spanN (ticks micros pt.1) pt.2)]
  · rfl
  · intro pt hpt
    obtain ⟨h1, h2⟩ := ticks_spec hc (h pt hpt).1
    exact createSpan_fugit t hw hz' f (h pt hpt).1 (h pt hpt).2 h1 h2

theorem fugit_zero (hc : FugitClock hz w micros since) (tol : Nat) :
    spanN (ticks micros 0) tol = ⟨0, 0⟩ := by
  have h := (ticks_spec hc (p := 0) (by decide)).2.1
  have : ticks micros 0 = 0 := by omega
  simp [this, spanN]

theorem fugit_build (hc : FugitClock hz w micros since) (hw : 32 ≤ w) (hz' : hz < 2 ^ 32)
    (t : Target) (f : Nat) (k : Kind) :
    k.build t (Mono.fugit w micros since) f = some (fugitTable micros k) := by
  have hz0 := fun tol => fugit_zero hc tol
  cases k <;> simp only [Kind.build, necSpans, rc5Spans, rc6Spans, sbpSpans, denonSpans] <;>
    rw [spans_new_fugit hc hw hz'] <;> first
    | decide
    | (refine congrArg some ?_
       simp [fugitTable, Kind.symbols, necPulselens, necTol, Infrared.nec, samsungNec,
        necStandardTiming, necSamsungTiming, rc5Pulse, rc5Tol, rc6Pulse, rc6Tol, sbpPulse, sbpTol,
        denonPulse, denonTol, hz0])

theorem fugit_spans_length (k : Kind) : (fugitTable micros k).spans.length = 8 := by
  cases k <;> rfl

theorem fugit_get (k : Kind) {i l tol : Nat} (hs : k.symbols[i]? = some (l, tol)) :
    (fugitTable micros k).spans[i]? = some (spanN (ticks micros l) tol) := by
  have hi := (List.getElem?_eq_some_iff.mp hs).1
  simp only [fugitTable]
  rw [List.getElem?_append_left (by simpa using hi), List.getElem?_map, hs]
  rfl

theorem fugit_get_none (k : Kind) {i : Nat} (hs : k.symbols[i]? = none) {s : Span}
    (h : (fugitTable micros k).spans[i]? = some s) : s = ⟨0, 0⟩ := by
  have hi := List.getElem?_eq_none_iff.mp hs
  simp only [fugitTable] at h
  rw [List.getElem?_append_right (by simpa using hi)] at h
  have := List.mem_of_getElem? h
  exact (List.mem_replicate.mp this).2

theorem symbols_small (k : Kind) {i l tol : Nat} (hs : k.symbols[i]? = some (l, tol)) :
    l ≤ 13500 ∧ tol ≤ 25 := by
  have : ∀ k : Kind, ∀ s ∈ k.symbols, s.1 ≤ 13500 ∧ s.2 ≤ 25 := by
    intro k; cases k <;> decide
  exact this k (l, tol) (List.mem_of_getElem? hs)

theorem spanN_mem {l tol d n : Nat} (hr : Rounded hz l n)
    (h1 : (100 - tol) * (l * hz + 1000000) ≤ 100000000 * d)
    (h2 : 100000000 * d + (100 + tol) * 1000000 ≤ (100 + tol) * (l * hz)) :
    (spanN n tol).low ≤ d ∧ d ≤ (spanN n tol).high := by
  obtain ⟨r1, r2⟩ := hr
  simp only [spanN]
  constructor
  · have c := Nat.mul_le_mul_left (100 - tol) (Nat.le_of_lt r1)
    have e : (100 - tol) * (1000000 * n) = 1000000 * (n * (100 - tol)) := by
      rw [Nat.mul_comm (100 - tol), Nat.mul_assoc]
    have g : n * (100 - tol) ≤ 100 * d := by omega
    rw [Nat.mul_sub] at g
    omega
  · have c := Nat.mul_le_mul_left (100 + tol) (Nat.le_of_lt r2)
    rw [Nat.mul_add] at c
    have e : (100 + tol) * (1000000 * n) = 1000000 * (n * (100 + tol)) := by
      rw [Nat.mul_comm (100 + tol), Nat.mul_assoc]
    have g : 100 * d ≤ n * (100 + tol) := by omega
    rw [Nat.mul_add] at g
    omega

theorem spanN_bounds {l tol d n : Nat} (ht : tol ≤ 100) (hr : Rounded hz l n)
    (h : (spanN n tol).low ≤ d ∧ d ≤ (spanN n tol).high) :
    100000000 * d ≤ (100 + tol) * (l * hz + 1000000) ∧
      (100 - tol) * (l * hz) ≤ 100000000 * d + (100 - tol) * 1000000 := by
  obtain ⟨r1, r2⟩ := hr
  obtain ⟨h1, h2⟩ := h
  simp only [spanN] at h1 h2
  constructor
  · have c := Nat.mul_le_mul_left (100 + tol) (Nat.le_of_lt r1)
    have e : (100 + tol) * (1000000 * n) = 1000000 * (n * (100 + tol)) := by
      rw [Nat.mul_comm (100 + tol), Nat.mul_assoc]
    have g : 100 * d ≤ n * (100 + tol) := by
      rw [Nat.mul_add]; omega
    omega
  · have c := Nat.mul_le_mul_left (100 - tol) (Nat.le_of_lt r2)
    rw [Nat.mul_add] at c
    have e : (100 - tol) * (1000000 * n) = 1000000 * (n * (100 - tol)) := by
      rw [Nat.mul_comm (100 - tol), Nat.mul_assoc]
    have g : n * (100 - tol) ≤ 100 * d := by
      rw [Nat.mul_sub]; omega
    omega

theorem fugit_fits (hc : FugitClock hz w micros since) (hw : 32 ≤ w) (hz' : hz < 2 ^ 32) (k : Kind) :
    Fits (fugitTable micros k) w := by
  intro s hs
  have hw' : 2 ^ 32 ≤ 2 ^ w := Nat.pow_le_pow_right (by decide) hw
  obtain ⟨i, hi⟩ := List.getElem?_of_mem hs
  rcases hsym : k.symbols[i]? with _ | ⟨l, tol⟩
  · rw [fugit_get_none k hsym hi]
    exact Nat.two_pow_pos w
  · rw [fugit_get k hsym, Option.some.injEq] at hi
    subst hi
    obtain ⟨hl, ht⟩ := symbols_small k hsym
    have := rounded_lt hl hz' (ticks_spec hc hl).2
    have hm : ticks micros l * tol ≤ ticks micros l * 25 := Nat.mul_le_mul_left _ ht
    simp only [spanN]
    omega

/-- Number of symbols a receiver must not confuse. -/
def Spec.Kind.distinct : Kind → Nat
  | .nec => 4 | .samsung => 4 | .sbp => 4 | .denon => 3 | .rc5 => 2 | .rc6 => 4

theorem fugit_unambiguous (hc : FugitClock hz w micros since) (k : Kind) (hlo : 20000 ≤ hz)
    (h6 : k = .rc6 → 40000 ≤ hz) : Unambiguous (fugitTable micros k) k.distinct := by
  have R := fun (p : Nat) (hp : p ≤ 13500) => (ticks_spec hc hp).2
  apply unambiguous_of_disjoint
  intro i j a b hij hj ha hb
  cases k with
  | nec =>
    simp only [Kind.distinct] at hj
    have r0 := R 13500 (by decide)
    have r1 := R 11250 (by decide)
    have r2 := R 1120 (by decide)
    have r3 := R 2250 (by decide)
    unfold Rounded at r0 r1 r2 r3
    have : (i = 0 ∨ i = 1 ∨ i = 2) ∧ (j = 1 ∨ j = 2 ∨ j = 3) := by omega
    rcases this with ⟨rfl | rfl | rfl, rfl | rfl | rfl⟩ <;>
      simp [fugitTable, Kind.symbols] at ha hb hij <;> subst ha <;> subst hb <;>
      simp only [spanN] <;> omega
  | samsung =>
    simp only [Kind.distinct] at hj
    have r0 := R 9000 (by decide)
    have r1 := R 6750 (by decide)
    have r2 := R 1120 (by decide)
    have r3 := R 2250 (by decide)
    unfold Rounded at r0 r1 r2 r3
    have : (i = 0 ∨ i = 1 ∨ i = 2) ∧ (j = 1 ∨ j = 2 ∨ j = 3) := by omega
    rcases this with ⟨rfl | rfl | rfl, rfl | rfl | rfl⟩ <;>
      simp [fugitTable, Kind.symbols] at ha hb hij <;> subst ha <;> subst hb <;>
      simp only [spanN] <;> omega
  | sbp =>
    simp only [Kind.distinct] at hj
    have r0 := R 9000 (by decide)
    have r1 := R 5000 (by decide)
    have r2 := R 1000 (by decide)
    have r3 := R 2000 (by decide)
    unfold Rounded at r0 r1 r2 r3
    have : (i = 0 ∨ i = 1 ∨ i = 2) ∧ (j = 1 ∨ j = 2 ∨ j = 3) := by omega
    rcases this with ⟨rfl | rfl | rfl, rfl | rfl | rfl⟩ <;>
      simp [fugitTable, Kind.symbols] at ha hb hij <;> subst ha <;> subst hb <;>
      simp only [spanN] <;> omega
  | denon =>
    simp only [Kind.distinct] at hj
    have r0 := R 5000 (by decide)
    have r1 := R 840 (by decide)
    have r2 := R 1680 (by decide)
    unfold Rounded at r0 r1 r2
    have : (i = 0 ∨ i = 1) ∧ (j = 1 ∨ j = 2) := by omega
    rcases this with ⟨rfl | rfl, rfl | rfl⟩ <;>
      simp [fugitTable, Kind.symbols] at ha hb hij <;> subst ha <;> subst hb <;>
      simp only [spanN] <;> omega
  | rc5 =>
    simp only [Kind.distinct] at hj
    have r0 := R 889 (by decide)
    have r1 := R 1778 (by decide)
    unfold Rounded at r0 r1
    obtain ⟨rfl, rfl⟩ : i = 0 ∧ j = 1 := by omega
    simp [fugitTable, Kind.symbols] at ha hb
    subst ha; subst hb; simp only [spanN]; omega
  | rc6 =>
    simp only [Kind.distinct] at hj
    have hlo6 := h6 rfl
    have r0 := R 444 (by decide)
    have r1 := R 888 (by decide)
    have r2 := R 1332 (by decide)
    have r3 := R 1776 (by decide)
    unfold Rounded at r0 r1 r2 r3
    have : (i = 0 ∨ i = 1 ∨ i = 2) ∧ (j = 1 ∨ j = 2 ∨ j = 3) := by omega
    rcases this with ⟨rfl | rfl | rfl, rfl | rfl | rfl⟩ <;>
      simp [fugitTable, Kind.symbols] at ha hb hij <;> subst ha <;> subst hb <;>
      simp only [spanN] <;> omega

theorem fugit_six (hc : FugitClock hz w micros since) (hlo : 40000 ≤ hz) (d : Nat)
    (hin : InTol (fugitTable micros .rc6) 5 d) (h5 : ¬ InTol (fugitTable micros .rc6) 4 d) :
    (fugitTable micros .rc6).get d = some 5 := by
  obtain ⟨s, hs, hs1, hs2⟩ := hin
  rw [get_eq_iff]
  refine ⟨⟨s, hs, hs1, hs2⟩, fun j hj s' hs' hcon => ?_⟩
  have R := fun (p : Nat) (hp : p ≤ 13500) => (ticks_spec hc hp).2
  have r0 := R 444 (by decide)
  have r1 := R 888 (by decide)
  have r2 := R 1332 (by decide)
  have r3 := R 1776 (by decide)
  have r5 := R 2664 (by decide)
  unfold Rounded at r0 r1 r2 r3 r5
  have : j = 0 ∨ j = 1 ∨ j = 2 ∨ j = 3 ∨ j = 4 := by omega
  simp [fugitTable, Kind.symbols] at hs
  rcases this with rfl | rfl | rfl | rfl | rfl
  · simp [fugitTable, Kind.symbols] at hs'
    subst hs; subst hs'; simp only [spanN] at hs1 hcon; omega
  · simp [fugitTable, Kind.symbols] at hs'
    subst hs; subst hs'; simp only [spanN] at hs1 hcon; omega
  · simp [fugitTable, Kind.symbols] at hs'
    subst hs; subst hs'; simp only [spanN] at hs1 hcon; omega
  · simp [fugitTable, Kind.symbols] at hs'
    subst hs; subst hs'; simp only [spanN] at hs1 hcon; omega
  · exact h5 ⟨s', hs', hcon⟩

end

end Infrared
