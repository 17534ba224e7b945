import Verif.Model.Cmd

/-!
# Closed forms for tick scaling and the tolerance tables
-/

namespace Infrared

/-- Tick count for a pulse of `l` µs (the three ways out of the scaling loop). -/
def scaleVal (l f : Nat) : Nat :=
  if l * f < 2 ^ 32 then l * f / 1000000
  else if l * (f / 1000) < 2 ^ 32 then l * (f / 1000) / 1000
  else l * (f / 1000 / 1000)

theorem scaleLoop_div_zero (l f : Nat) : scaleLoop l f 0 = none := by
  induction f using Nat.strongRecOn with
  | _ f ih =>
    rw [scaleLoop]
    split
    · rfl
    · rename_i h
      have hf : f ≠ 0 := by intro h0; subst h0; simp at h
      exact ih (f / 1000) (by omega)

theorem scale_eq (l f : Nat) :
    scaleWithSamplerate l f =
      if l * (f / 1000 / 1000) < 2 ^ 32 then some (scaleVal l f) else none := by
  unfold scaleWithSamplerate scaleVal
  have m1 : l * (f / 1000) ≤ l * f := Nat.mul_le_mul_left _ (Nat.div_le_self _ _)
  have m2 : l * (f / 1000 / 1000) ≤ l * (f / 1000) :=
    Nat.mul_le_mul_left _ (Nat.div_le_self _ _)
  rw [scaleLoop]
  by_cases h1 : l * f < 2 ^ 32
  · simp [h1, show l * (f / 1000 / 1000) < 2 ^ 32 by omega]
  · rw [if_neg h1, if_neg h1, scaleLoop]
    by_cases h2 : l * (f / 1000) < 2 ^ 32
    · simp [h2, show l * (f / 1000 / 1000) < 2 ^ 32 by omega]
    · rw [if_neg h2, if_neg h2, scaleLoop]
      by_cases h3 : l * (f / 1000 / 1000) < 2 ^ 32
      · simp [h3]
      · simp [h3, scaleLoop_div_zero]

theorem scale_eq_some {l f : Nat} (hl : l ≤ 1000000) (hf : f < 2 ^ 32) :
    scaleWithSamplerate l f = some (scaleVal l f) := by
  rw [scale_eq, if_pos]
  have : f / 1000 / 1000 ≤ 4294 := by omega
  calc l * (f / 1000 / 1000) ≤ 1000000 * 4294 := Nat.mul_le_mul hl this
    _ < 2 ^ 32 := by omega

/-- Never above the exact value. -/
theorem scaleVal_le (l f : Nat) : 1000000 * scaleVal l f ≤ l * f := by
  unfold scaleVal
  split
  · omega
  split
  · have h := Nat.mul_le_mul_left l (Nat.mul_div_le f 1000)
    rw [← Nat.mul_assoc, Nat.mul_comm l 1000, Nat.mul_assoc] at h
    omega
  · have h := Nat.mul_le_mul_left l (Nat.mul_div_le f 1000000)
    rw [← Nat.mul_assoc, Nat.mul_comm l 1000000, Nat.mul_assoc] at h
    rw [Nat.div_div_eq_div_mul]
    omega

/-- At most 0.32 % and one tick below it. -/
theorem scaleVal_ge {l : Nat} (f : Nat) (hl : l ≤ 13500) :
    9968 * (l * f) ≤ 10000000000 * (scaleVal l f + 1) := by
  unfold scaleVal
  split
  · omega
  rename_i h1
  split
  · have hf : 318000 ≤ f := by
      apply Nat.le_of_not_lt; intro hlt
      exact h1 (Nat.lt_of_le_of_lt (Nat.mul_le_mul hl (Nat.le_of_lt hlt)) (by omega))
    have h : 9968 * f ≤ 10000000 * (f / 1000) := by omega
    have h' := Nat.mul_le_mul_left l h
    rw [Nat.mul_left_comm, Nat.mul_left_comm l 10000000] at h'
    omega
  · rename_i h2
    have hf : 318000 ≤ f / 1000 := by
      apply Nat.le_of_not_lt; intro hlt
      exact h2 (Nat.lt_of_le_of_lt (Nat.mul_le_mul hl (Nat.le_of_lt hlt)) (by omega))
    have h : 9968 * f ≤ 10000000000 * (f / 1000 / 1000) := by omega
    have h' := Nat.mul_le_mul_left l h
    rw [Nat.mul_left_comm, Nat.mul_left_comm l 10000000000] at h'
    omega

theorem scaleVal_lt {l f : Nat} (hl : l ≤ 13500) (hf : f < 2 ^ 32) : scaleVal l f < 57986816 := by
  have h := scaleVal_le l f
  have : l * f ≤ 13500 * (2 ^ 32 - 1) := Nat.mul_le_mul hl (by omega)
  omega

/-- The tolerance interval of a pulse of `l` µs with `tol` percent. -/
def spanOf (l tol f : Nat) : Span :=
  { low := scaleVal l f - scaleVal l f * tol / 100, high := scaleVal l f + scaleVal l f * tol / 100 }

theorem scaled_eq (t : Target) {l tol f : Nat} (hl : l ≤ 13500) (ht : tol ≤ 25) (hf : f < 2 ^ 32) :
    Span.scaled t l f tol = some (spanOf l tol f) := by
  have hs := scaleVal_lt hl hf
  have hm : scaleVal l f * tol ≤ scaleVal l f * 25 := Nat.mul_le_mul_left _ ht
  simp only [Span.scaled, scale_eq_some (show l ≤ 1000000 by omega) hf, Span.newU32, umul, usub,
    uadd, spanOf, Option.bind_eq_bind, Option.bind_some]
  rw [if_pos (show scaleVal l f * tol < 2 ^ 32 by omega)]
  simp only [Option.bind_some]
  rw [if_pos (show scaleVal l f * tol / 100 ≤ scaleVal l f by omega)]
  simp only [Option.bind_some]
  rw [if_pos (show scaleVal l f + scaleVal l f * tol / 100 < 2 ^ 32 by omega)]
  simp only [Option.bind_some]

/-- The primitive clocks. -/
def Mono.IsPrim (m : Mono) : Prop := m = Mono.u32 ∨ m = Mono.u64

theorem createSpan_prim {m : Mono} (hm : m.IsPrim) (t : Target) {l tol f : Nat} (hl : l ≤ 13500)
    (ht : tol ≤ 25) (hf : f < 2 ^ 32) : m.createSpan t f l tol = some (spanOf l tol f) := by
  rcases hm with rfl | rfl <;> exact scaled_eq t hl ht hf

theorem mapM_eq_some_map {α β : Type} (g : α → Option β) (h : α → β) (l : List α)
    (H : ∀ a ∈ l, g a = some (h a)) : l.mapM g = some (l.map h) := by
  induction l with
  | nil => rfl
  | cons a l ih =>
    rw [List.mapM_cons, H a (by simp), ih fun b hb => H b (by simp [hb])]
    rfl

/-- Closed form of `PulseSpans::new` for pulses up to 13.5 ms and tolerances up to 25 %. -/
theorem spans_new_eq {m : Mono} (hm : m.IsPrim) (t : Target) {f : Nat} (hf : f < 2 ^ 32)
    (pulse tol : List Nat) (h : ∀ pt ∈ List.zip pulse tol, pt.1 ≤ 13500 ∧ pt.2 ≤ 25) :
    PulseSpans.new t m f pulse tol =
      some { spans := (List.zip pulse tol).map fun pt => spanOf pt.1 pt.2 f } := by
  unfold PulseSpans.new
  rw [mapM_eq_some_map _ (fun pt => spanOf pt.1 pt.2 f)]
  · rfl
  · intro pt hpt
    exact createSpan_prim hm t (h pt hpt).1 (h pt hpt).2 hf

theorem scaleVal_zero (f : Nat) : scaleVal 0 f = 0 := by simp [scaleVal]

theorem spanOf_zero (tol f : Nat) : spanOf 0 tol f = { low := 0, high := 0 } := by
  simp [spanOf, scaleVal_zero]

theorem Span.contains_iff (s : Span) (d : Nat) : s.contains d = true ↔ s.low ≤ d ∧ d ≤ s.high := by
  simp [Span.contains]

theorem get_eq_iff (ps : PulseSpans) (i d : Nat) :
    ps.get d = some i ↔ (∃ s, ps.spans[i]? = some s ∧ s.low ≤ d ∧ d ≤ s.high) ∧
      ∀ j < i, ∀ s, ps.spans[j]? = some s → ¬ (s.low ≤ d ∧ d ≤ s.high) := by
  unfold PulseSpans.get
  rw [List.findIdx?_eq_some_iff_getElem]
  constructor
  · rintro ⟨hlen, hc, hlt⟩
    refine ⟨⟨_, List.getElem?_eq_getElem hlen, (Span.contains_iff _ _).mp hc⟩, ?_⟩
    intro j hj s hs hcon
    obtain ⟨hj', rfl⟩ := List.getElem?_eq_some_iff.mp hs
    exact hlt j hj ((Span.contains_iff _ _).mpr hcon)
  · rintro ⟨⟨s, hs, hc⟩, hlt⟩
    obtain ⟨hlen, rfl⟩ := List.getElem?_eq_some_iff.mp hs
    refine ⟨hlen, (Span.contains_iff _ _).mpr hc, ?_⟩
    intro j hj hcon
    exact hlt j hj _ (List.getElem?_eq_getElem (by omega)) ((Span.contains_iff _ _).mp hcon)

/-! ### The shipped tables -/

/-- Table of the standard NEC timing. -/
def necTable (f : Nat) : PulseSpans :=
  { spans := [spanOf 13500 7 f, spanOf 11250 7 f, spanOf 1120 25 f, spanOf 2250 12 f,
      ⟨0, 0⟩, ⟨0, 0⟩, ⟨0, 0⟩, ⟨0, 0⟩] }

/-- Table of the Samsung timing. -/
def samsungTable (f : Nat) : PulseSpans :=
  { spans := [spanOf 9000 7 f, spanOf 6750 7 f, spanOf 1120 25 f, spanOf 2250 12 f,
      ⟨0, 0⟩, ⟨0, 0⟩, ⟨0, 0⟩, ⟨0, 0⟩] }

/-- RC5 table. -/
def rc5Table (f : Nat) : PulseSpans :=
  { spans := [spanOf 889 12 f, spanOf 1778 10 f,
      ⟨0, 0⟩, ⟨0, 0⟩, ⟨0, 0⟩, ⟨0, 0⟩, ⟨0, 0⟩, ⟨0, 0⟩] }

/-- RC6 table. -/
def rc6Table (f : Nat) : PulseSpans :=
  { spans := [spanOf 444 12 f, spanOf 888 12 f, spanOf 1332 12 f, spanOf 1776 12 f,
      spanOf 2220 12 f, spanOf 2664 12 f, ⟨0, 0⟩, ⟨0, 0⟩] }

/-- SBP table. -/
def sbpTable (f : Nat) : PulseSpans :=
  { spans := [spanOf 9000 5 f, spanOf 5000 5 f, spanOf 1000 10 f, spanOf 2000 10 f,
      ⟨0, 0⟩, ⟨0, 0⟩, ⟨0, 0⟩, ⟨0, 0⟩] }

/-- Denon table. -/
def denonTable (f : Nat) : PulseSpans :=
  { spans := [spanOf 5000 8 f, spanOf 840 10 f, spanOf 1680 10 f,
      ⟨0, 0⟩, ⟨0, 0⟩, ⟨0, 0⟩, ⟨0, 0⟩, ⟨0, 0⟩] }

section
variable {m : Mono} (hm : m.IsPrim) (t : Target) {f : Nat} (hf : f < 2 ^ 32)
include hm hf

theorem necSpans_standard {C : Type} (v : NecVariant C)
    (hv : v.pulseDistance = necStandardTiming) : necSpans t m v f = some (necTable f) := by
  unfold necSpans
  rw [hv, spans_new_eq hm t hf]
  · simp [necPulselens, necTol, necStandardTiming, necTable, spanOf_zero]
  · decide

theorem necSpans_samsung {C : Type} (v : NecVariant C)
    (hv : v.pulseDistance = necSamsungTiming) : necSpans t m v f = some (samsungTable f) := by
  unfold necSpans
  rw [hv, spans_new_eq hm t hf]
  · simp [necPulselens, necTol, necSamsungTiming, samsungTable, spanOf_zero]
  · decide

theorem rc5Spans_eq : rc5Spans t m f = some (rc5Table f) := by
  unfold rc5Spans
  rw [spans_new_eq hm t hf]
  · simp [rc5Pulse, rc5Tol, rc5Table, spanOf_zero]
  · decide

theorem rc6Spans_eq : rc6Spans t m f = some (rc6Table f) := by
  unfold rc6Spans
  rw [spans_new_eq hm t hf]
  · simp [rc6Pulse, rc6Tol, rc6Table, spanOf_zero]
  · decide

theorem sbpSpans_eq : sbpSpans t m f = some (sbpTable f) := by
  unfold sbpSpans
  rw [spans_new_eq hm t hf]
  · simp [sbpPulse, sbpTol, sbpTable, spanOf_zero]
  · decide

theorem denonSpans_eq : denonSpans t m f = some (denonTable f) := by
  unfold denonSpans
  rw [spans_new_eq hm t hf]
  · simp [denonPulse, denonTol, denonTable, spanOf_zero]
  · decide

end

end Infrared
