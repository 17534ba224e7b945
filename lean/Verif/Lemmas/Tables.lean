import Verif.Props.Timing
import Verif.Lemmas.Frames

/-!
# Lemmas about interval tables
-/

namespace Infrared

theorem inTol_get {tbl : PulseSpans} {n i d : Nat} (hu : Spec.Unambiguous tbl n) (hi : i < n)
    (h : Spec.InTol tbl i d) : tbl.get d = some i := (hu i hi d).mpr h

theorem get_inTol {tbl : PulseSpans} {i d : Nat} (h : tbl.get d = some i) : Spec.InTol tbl i d :=
  ((get_eq_iff tbl i d).mp h).1

/-- All intervals of the table end below `2 ^ width`. -/
def Fits (tbl : PulseSpans) (width : Nat) : Prop := ∀ s ∈ tbl.spans, s.high < 2 ^ width

theorem inTol_lt {tbl : PulseSpans} {width i d : Nat} (hf : Fits tbl width)
    (h : Spec.InTol tbl i d) : d < 2 ^ width := by
  obtain ⟨s, hs, -, hd⟩ := h
  have := hf s (List.mem_of_getElem? hs)
  omega

theorem spanOf_high_lt (l tol f : Nat) (hl : l ≤ 13500) (ht : tol ≤ 25) (hf : f < 2 ^ 32) :
    (spanOf l tol f).high < 2 ^ 32 := by
  have h := scaleVal_lt hl hf
  have : scaleVal l f * tol ≤ scaleVal l f * 25 := Nat.mul_le_mul_left _ ht
  simp only [spanOf]; omega

theorem Mono.IsPrim.width {m : Mono} (h : m.IsPrim) : 32 ≤ m.width := by
  rcases h with rfl | rfl <;> decide

theorem inTol_unique {tbl : PulseSpans} {n i j d : Nat} (hu : Spec.Unambiguous tbl n)
    (hi : i < n) (hj : j < n) (h1 : Spec.InTol tbl i d) (h2 : Spec.InTol tbl j d) : i = j := by
  have a := inTol_get hu hi h1
  have b := inTol_get hu hj h2
  rw [a] at b
  simpa using b

end Infrared
