import Verif.Lemmas.Time

/-!
# Bounds on the tolerance windows
-/

namespace Infrared

theorem span_hi {l tol f d : Nat} (h : d ≤ (spanOf l tol f).high) :
    100000000 * d ≤ l * (100 + tol) * f := by
  have h0 := scaleVal_le l f
  simp only [spanOf] at h
  have h1 : 100 * d ≤ scaleVal l f * (100 + tol) := by
    rw [Nat.mul_add]; omega
  have h2 : 1000000 * scaleVal l f * (100 + tol) ≤ l * f * (100 + tol) := Nat.mul_le_mul_right _ h0
  calc 100000000 * d = 1000000 * (100 * d) := by omega
    _ ≤ 1000000 * (scaleVal l f * (100 + tol)) := Nat.mul_le_mul_left _ h1
    _ = 1000000 * scaleVal l f * (100 + tol) := by rw [Nat.mul_assoc]
    _ ≤ l * f * (100 + tol) := h2
    _ = l * (100 + tol) * f := by rw [Nat.mul_assoc, Nat.mul_comm f, Nat.mul_assoc]

theorem span_lo {l tol f d : Nat} (hl : l ≤ 13500) (ht : tol ≤ 100) (h : (spanOf l tol f).low ≤ d) :
    9968 * (l * (100 - tol) * f) ≤ 10000000000 * (100 * d + (100 - tol)) := by
  have h0 := scaleVal_ge f hl
  simp only [spanOf] at h
  have h1 : scaleVal l f * (100 - tol) ≤ 100 * d := by
    rw [Nat.mul_sub]; omega
  have h2 : 9968 * (l * f) * (100 - tol) ≤ 10000000000 * (scaleVal l f + 1) * (100 - tol) :=
    Nat.mul_le_mul_right _ h0
  calc 9968 * (l * (100 - tol) * f) = 9968 * (l * f) * (100 - tol) := by
        rw [Nat.mul_assoc 9968, Nat.mul_assoc l, Nat.mul_comm (100 - tol), ← Nat.mul_assoc l]
    _ ≤ 10000000000 * (scaleVal l f + 1) * (100 - tol) := h2
    _ = 10000000000 * (scaleVal l f * (100 - tol) + (100 - tol)) := by
        rw [Nat.mul_assoc, Nat.add_mul, Nat.one_mul]
    _ ≤ _ := Nat.mul_le_mul_left _ (by omega)

/-- A sufficient condition for lying in a window. -/
theorem span_mem {l tol f d : Nat} (hl : l ≤ 13500) (ht : tol ≤ 100)
    (h1 : (100 - tol) * l * f ≤ 100000000 * d)
    (h2 : 1000000000000 * d + 10000000000 * (100 + tol) ≤ 9968 * ((100 + tol) * l * f)) :
    (spanOf l tol f).low ≤ d ∧ d ≤ (spanOf l tol f).high := by
  have a := scaleVal_le l f
  have b := scaleVal_ge f hl
  simp only [spanOf]
  constructor
  · have c : (100 - tol) * (1000000 * scaleVal l f) ≤ (100 - tol) * (l * f) := Nat.mul_le_mul_left _ a
    have e : (100 - tol) * (1000000 * scaleVal l f) = 1000000 * (scaleVal l f * (100 - tol)) := by
      rw [Nat.mul_comm (100 - tol), Nat.mul_assoc]
    have g : scaleVal l f * (100 - tol) ≤ 100 * d := by
      rw [Nat.mul_assoc] at h1
      omega
    rw [Nat.mul_sub] at g
    omega
  · have c : (100 + tol) * (9968 * (l * f)) ≤ (100 + tol) * (10000000000 * (scaleVal l f + 1)) :=
      Nat.mul_le_mul_left _ b
    have e1 : (100 + tol) * (9968 * (l * f)) = 9968 * ((100 + tol) * l * f) := by
      rw [Nat.mul_left_comm, Nat.mul_assoc]
    have e2 : (100 + tol) * (10000000000 * (scaleVal l f + 1)) =
        10000000000 * (scaleVal l f * (100 + tol)) + 10000000000 * (100 + tol) := by
      rw [Nat.mul_left_comm, Nat.mul_comm (100 + tol), Nat.add_mul, Nat.one_mul, Nat.mul_add]
    have g : 100 * d ≤ scaleVal l f * (100 + tol) := by omega
    rw [Nat.mul_add] at g
    omega

end Infrared
