import Verif.Lemmas.Encoders
import Mathlib.Tactic.IntervalCases

/-!
# The encoders' durations in the receivers' tables
-/

namespace Infrared

open Spec

theorem scaleVal_small {l f : Nat} (hl : l ≤ 13500) (hf : f < 300000) :
    scaleVal l f = l * f / 1000000 := by
  unfold scaleVal
  rw [if_pos]
  have : l * f ≤ 13500 * 300000 := Nat.mul_le_mul hl (by omega)
  omega

/-- Below 60 kHz by cases on the whole kHz, above by the bounds on `scaleVal`. -/
theorem khz_cases {f k0 : Nat} (hlo : 1000 * k0 ≤ f) {P : Nat → Nat → Prop}
    (h1 : ∀ k r, k0 ≤ k → k < 60 → r < 1000 → f = 1000 * k + r → P k (1000 * k + r))
    (h2 : 60000 ≤ f → P (f / 1000) f) : P (f / 1000) f := by
  by_cases hs : f < 60000
  · have := h1 (f / 1000) (f % 1000) (by omega) (by omega) (by omega) (by omega)
    rwa [show 1000 * (f / 1000) + f % 1000 = f by omega] at this
  · exact h2 (by omega)

theorem nec_sync_in (f : Nat) (hlo : 13000 ≤ f) :
    (spanOf 13500 7 f).low ≤ f / 1000 * 9000 / 1000 + f / 1000 * 4500 / 1000 ∧
    f / 1000 * 9000 / 1000 + f / 1000 * 4500 / 1000 ≤ (spanOf 13500 7 f).high := by
  refine khz_cases (k0 := 13) hlo (P := fun k f => (spanOf 13500 7 f).low ≤ k * 9000 / 1000 + k * 4500 / 1000 ∧
    k * 9000 / 1000 + k * 4500 / 1000 ≤ (spanOf 13500 7 f).high) ?_ ?_
  · intro k r h1 h2 h3 hf
    simp only [spanOf]
    rw [scaleVal_small (by decide) (by omega)]
    clear hf hlo
    interval_cases k <;> omega
  · intro hf
    have h0 := scaleVal_le 13500 f
    have h0' := scaleVal_ge f (l := 13500) (by decide)
    simp only [spanOf]
    omega

theorem samsung_sync_in (f : Nat) (hlo : 14000 ≤ f) :
    (spanOf 9000 7 f).low ≤ f / 1000 * 4500 / 1000 + f / 1000 * 4500 / 1000 ∧
    f / 1000 * 4500 / 1000 + f / 1000 * 4500 / 1000 ≤ (spanOf 9000 7 f).high := by
  refine khz_cases (k0 := 14) hlo (P := fun k f => (spanOf 9000 7 f).low ≤ k * 4500 / 1000 + k * 4500 / 1000 ∧
    k * 4500 / 1000 + k * 4500 / 1000 ≤ (spanOf 9000 7 f).high) ?_ ?_
  · intro k r h1 h2 h3 hf
    simp only [spanOf]
    rw [scaleVal_small (by decide) (by omega)]
    clear hf hlo
    interval_cases k <;> omega
  · intro hf
    have h0 := scaleVal_le 9000 f
    have h0' := scaleVal_ge f (l := 9000) (by decide)
    simp only [spanOf]
    omega

theorem nec_zero_in (f : Nat) (hlo : 13000 ≤ f) :
    (spanOf 1120 25 f).low ≤ f / 1000 * 560 / 1000 + f / 1000 * 560 / 1000 ∧
    f / 1000 * 560 / 1000 + f / 1000 * 560 / 1000 ≤ (spanOf 1120 25 f).high := by
  refine khz_cases (k0 := 13) hlo (P := fun k f => (spanOf 1120 25 f).low ≤ k * 560 / 1000 + k * 560 / 1000 ∧
    k * 560 / 1000 + k * 560 / 1000 ≤ (spanOf 1120 25 f).high) ?_ ?_
  · intro k r h1 h2 h3 hf
    simp only [spanOf]
    rw [scaleVal_small (by decide) (by omega)]
    clear hf hlo
    interval_cases k <;> omega
  · intro hf
    have h0 := scaleVal_le 1120 f
    have h0' := scaleVal_ge f (l := 1120) (by decide)
    simp only [spanOf]
    omega

theorem nec_one_in (f : Nat) (hlo : 13000 ≤ f) :
    (spanOf 2250 12 f).low ≤ f / 1000 * 560 / 1000 + f / 1000 * 1690 / 1000 ∧
    f / 1000 * 560 / 1000 + f / 1000 * 1690 / 1000 ≤ (spanOf 2250 12 f).high ∧
    (spanOf 1120 25 f).high < f / 1000 * 560 / 1000 + f / 1000 * 1690 / 1000 := by
  refine khz_cases (k0 := 13) hlo (P := fun k f => (spanOf 2250 12 f).low ≤ k * 560 / 1000 + k * 1690 / 1000 ∧
    k * 560 / 1000 + k * 1690 / 1000 ≤ (spanOf 2250 12 f).high ∧
    (spanOf 1120 25 f).high < k * 560 / 1000 + k * 1690 / 1000) ?_ ?_
  · intro k r h1 h2 h3 hf
    simp only [spanOf]
    rw [scaleVal_small (by decide) (by omega), scaleVal_small (by decide) (by omega)]
    clear hf hlo
    interval_cases k <;> omega
  · intro hf
    have h0 := scaleVal_le 2250 f
    have h0' := scaleVal_ge f (l := 2250) (by decide)
    have h1 := scaleVal_le 1120 f
    simp only [spanOf]
    omega

theorem nec_gets (f : Nat) (hlo : 13000 ≤ f) :
    (necTable f).get (f / 1000 * 9000 / 1000 + f / 1000 * 4500 / 1000) = some 0 ∧
    (necTable f).get (f / 1000 * 560 / 1000 + f / 1000 * 560 / 1000) = some 2 ∧
    (necTable f).get (f / 1000 * 560 / 1000 + f / 1000 * 1690 / 1000) = some 3 := by
  have a0 := nec_sync_in f hlo
  have a2 := nec_zero_in f hlo
  have a3 := nec_one_in f hlo
  have h0' := scaleVal_ge f (l := 13500) (by decide)
  have h1' := scaleVal_ge f (l := 11250) (by decide)
  refine ⟨?_, ?_, ?_⟩
  · rw [get_eq_iff]
    exact ⟨⟨_, rfl, a0⟩, by omega⟩
  · rw [get_eq_iff]
    refine ⟨⟨_, rfl, a2⟩, ?_⟩
    intro j hj s hs
    obtain rfl | rfl : j = 0 ∨ j = 1 := by omega
    all_goals
      cases hs
      simp only [spanOf]
      omega
  · rw [get_eq_iff]
    refine ⟨⟨_, rfl, a3.1, a3.2.1⟩, ?_⟩
    intro j hj s hs
    obtain rfl | rfl | rfl : j = 0 ∨ j = 1 ∨ j = 2 := by omega
    · cases hs
      simp only [spanOf]
      omega
    · cases hs
      simp only [spanOf]
      omega
    · cases hs
      omega

theorem samsung_gets (f : Nat) (hlo : 14000 ≤ f) :
    (samsungTable f).get (f / 1000 * 4500 / 1000 + f / 1000 * 4500 / 1000) = some 0 ∧
    (samsungTable f).get (f / 1000 * 560 / 1000 + f / 1000 * 560 / 1000) = some 2 ∧
    (samsungTable f).get (f / 1000 * 560 / 1000 + f / 1000 * 1690 / 1000) = some 3 := by
  have a0 := samsung_sync_in f hlo
  have a2 := nec_zero_in f (by omega)
  have a3 := nec_one_in f (by omega)
  have h0' := scaleVal_ge f (l := 9000) (by decide)
  have h1' := scaleVal_ge f (l := 6750) (by decide)
  refine ⟨?_, ?_, ?_⟩
  · rw [get_eq_iff]
    exact ⟨⟨_, rfl, a0⟩, by omega⟩
  · rw [get_eq_iff]
    refine ⟨⟨_, rfl, a2⟩, ?_⟩
    intro j hj s hs
    obtain rfl | rfl : j = 0 ∨ j = 1 := by omega
    all_goals
      cases hs
      simp only [spanOf]
      omega
  · rw [get_eq_iff]
    refine ⟨⟨_, rfl, a3.1, a3.2.1⟩, ?_⟩
    intro j hj s hs
    obtain rfl | rfl | rfl : j = 0 ∨ j = 1 ∨ j = 2 := by omega
    · cases hs
      simp only [spanOf]
      omega
    · cases hs
      simp only [spanOf]
      omega
    · cases hs
      omega

theorem rc5_one_in (f : Nat) (hlo : 13000 ≤ f) :
    (spanOf 889 12 f).low ≤ 889 * (f / 1000) / 1000 ∧
    889 * (f / 1000) / 1000 ≤ (spanOf 889 12 f).high := by
  refine khz_cases (k0 := 13) hlo (P := fun k f => (spanOf 889 12 f).low ≤ 889 * k / 1000 ∧
    889 * k / 1000 ≤ (spanOf 889 12 f).high) ?_ ?_
  · intro k r h1 h2 h3 hf
    simp only [spanOf]
    rw [scaleVal_small (by decide) (by omega)]
    clear hf hlo
    interval_cases k <;> omega
  · intro hf
    have h0 := scaleVal_le 889 f
    have h0' := scaleVal_ge f (l := 889) (by decide)
    simp only [spanOf]
    omega

theorem rc5_two_in (f : Nat) (hlo : 13000 ≤ f) :
    (spanOf 1778 10 f).low ≤ 2 * (889 * (f / 1000) / 1000) ∧
    2 * (889 * (f / 1000) / 1000) ≤ (spanOf 1778 10 f).high ∧
    (spanOf 889 12 f).high < 2 * (889 * (f / 1000) / 1000) := by
  refine khz_cases (k0 := 13) hlo (P := fun k f => (spanOf 1778 10 f).low ≤ 2 * (889 * k / 1000) ∧
    2 * (889 * k / 1000) ≤ (spanOf 1778 10 f).high ∧
    (spanOf 889 12 f).high < 2 * (889 * k / 1000)) ?_ ?_
  · intro k r h1 h2 h3 hf
    simp only [spanOf]
    rw [scaleVal_small (by decide) (by omega), scaleVal_small (by decide) (by omega)]
    clear hf hlo
    interval_cases k <;> omega
  · intro hf
    have h0 := scaleVal_le 1778 f
    have h0' := scaleVal_ge f (l := 1778) (by decide)
    have h1 := scaleVal_le 889 f
    simp only [spanOf]
    omega

theorem rc5_gets (f : Nat) (hlo : 13000 ≤ f) :
    (rc5Table f).get (889 * (f / 1000) / 1000) = some 0 ∧
    (rc5Table f).get (2 * (889 * (f / 1000) / 1000)) = some 1 := by
  have a0 := rc5_one_in f hlo
  have a1 := rc5_two_in f hlo
  constructor
  · rw [get_eq_iff]
    exact ⟨⟨_, rfl, a0⟩, by omega⟩
  · rw [get_eq_iff]
    refine ⟨⟨_, rfl, a1.1, a1.2.1⟩, ?_⟩
    intro j hj s hs
    obtain rfl : j = 0 := by omega
    cases hs
    omega

/-- The RC6 durations are all in tolerance; the unit is `len` ticks. -/
theorem rc6_in (f : Nat) (hlo : 27028 ≤ f) :
    ((spanOf 444 12 f).low ≤ 444 * f / 1000000 ∧ 444 * f / 1000000 ≤ (spanOf 444 12 f).high) ∧
    ((spanOf 888 12 f).low ≤ 2 * (444 * f / 1000000) ∧
      2 * (444 * f / 1000000) ≤ (spanOf 888 12 f).high) ∧
    ((spanOf 1332 12 f).low ≤ 3 * (444 * f / 1000000) ∧
      3 * (444 * f / 1000000) ≤ (spanOf 1332 12 f).high) ∧
    ((spanOf 2664 12 f).low ≤ 6 * (444 * f / 1000000) ∧
      6 * (444 * f / 1000000) ≤ (spanOf 2664 12 f).high) := by
  have h1 := scaleVal_le 444 f
  have h2 := scaleVal_le 888 f
  have h3 := scaleVal_le 1332 f
  have h6 := scaleVal_le 2664 f
  have g1 := scaleVal_ge f (l := 444) (by decide)
  have g2 := scaleVal_ge f (l := 888) (by decide)
  have g3 := scaleVal_ge f (l := 1332) (by decide)
  have g6 := scaleVal_ge f (l := 2664) (by decide)
  simp only [spanOf]
  by_cases hs : f < 60000
  · have e1 := scaleVal_small (l := 444) (f := f) (by decide) (by omega)
    have e2 := scaleVal_small (l := 888) (f := f) (by decide) (by omega)
    have e3 := scaleVal_small (l := 1332) (f := f) (by decide) (by omega)
    have e6 := scaleVal_small (l := 2664) (f := f) (by decide) (by omega)
    rw [e1, e2, e3, e6]
    clear h1 h2 h3 h6 g1 g2 g3 g6 e1 e2 e3 e6
    obtain ⟨L, hL⟩ : ∃ L, L = 444 * f / 1000000 := ⟨_, rfl⟩
    rw [← hL]
    have : 12 ≤ L := by omega
    have : L < 27 := by omega
    interval_cases L <;> omega
  · refine ⟨?_, ?_, ?_, ?_⟩ <;> omega

/-- The RC6 durations are above the intervals of the shorter ones. -/
theorem rc6_above (f : Nat) (hlo : 27028 ≤ f) :
    (spanOf 444 12 f).high < 2 * (444 * f / 1000000) ∧
    (spanOf 888 12 f).high < 3 * (444 * f / 1000000) ∧
    (spanOf 1332 12 f).high < 6 * (444 * f / 1000000) ∧
    (spanOf 1776 12 f).high < 6 * (444 * f / 1000000) ∧
    (spanOf 2220 12 f).high < 6 * (444 * f / 1000000) := by
  have h1 := scaleVal_le 444 f
  have h2 := scaleVal_le 888 f
  have h3 := scaleVal_le 1332 f
  have h4 := scaleVal_le 1776 f
  have h5 := scaleVal_le 2220 f
  simp only [spanOf]
  refine ⟨?_, ?_, ?_, ?_, ?_⟩
  · omega
  · omega
  · omega
  · omega
  · by_cases hs : f < 60000
    · have e5 := scaleVal_small (l := 2220) (f := f) (by decide) (by omega)
      rw [e5]
      clear h1 h2 h3 h4 h5 e5
      obtain ⟨L, hL⟩ : ∃ L, L = 444 * f / 1000000 := ⟨_, rfl⟩
      rw [← hL]
      have : 12 ≤ L := by omega
      have : L < 27 := by omega
      interval_cases L <;> omega
    · omega

theorem rc6_gets (f : Nat) (hlo : 27028 ≤ f) :
    (rc6Table f).get (444 * f / 1000000) = some 0 ∧
    (rc6Table f).get (2 * (444 * f / 1000000)) = some 1 ∧
    (rc6Table f).get (3 * (444 * f / 1000000)) = some 2 ∧
    (rc6Table f).get (6 * (444 * f / 1000000)) = some 5 := by
  obtain ⟨a1, a2, a3, a6⟩ := rc6_in f hlo
  obtain ⟨b1, b2, b3, b4, b5⟩ := rc6_above f hlo
  have hL : 12 ≤ 444 * f / 1000000 := by omega
  generalize 444 * f / 1000000 = L at *
  simp only [get_eq_iff]
  refine ⟨⟨⟨_, rfl, a1⟩, by omega⟩, ⟨⟨_, rfl, a2⟩, ?_⟩, ⟨⟨_, rfl, a3⟩, ?_⟩, ⟨⟨_, rfl, a6⟩, ?_⟩⟩
  · intro j hj s hs
    obtain rfl : j = 0 := by omega
    cases hs
    omega
  · intro j hj s hs
    obtain rfl | rfl : j = 0 ∨ j = 1 := by omega
    all_goals
      cases hs
      omega
  · intro j hj s hs
    obtain rfl | rfl | rfl | rfl | rfl : j = 0 ∨ j = 1 ∨ j = 2 ∨ j = 3 ∨ j = 4 := by omega
    all_goals
      cases hs
      omega

end Infrared
