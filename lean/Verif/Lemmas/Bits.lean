import Verif.Lemmas.Run

/-!
# Receiving a sequence of bit pulses
-/

namespace Infrared

variable {S R : Type}

/-- If one pulse carrying bit `β` takes a state with `n` bits received to one with `n + 1`, then a
list of pulses takes `k` bits to `k + length`. -/
theorem bits_gen {W : Nat} (f : S → Ev → Option (S × R)) (none : R)
    (St : Nat → BitVec W → S → Prop) (N : Nat) (hN : N ≤ W) (good : Bool → Nat × Nat → Prop)
    (hstep : ∀ n b β p s, n < N → St n b s → good β p →
      ∃ s', runStep f s [(false, p.1), (true, p.2)] = some (s', [none, none]) ∧
        St (n + 1) (if β then b ||| (1 : BitVec W) <<< n else b) s') :
    ∀ (ps : List (Nat × Nat)) (k : Nat) (w b : BitVec W) (s : S), k + ps.length ≤ N →
      (∀ i p, ps[i]? = some p → good (w.getLsbD (k + i)) p) → St k b s →
      ∃ s' b', runStep f s (Spec.pulses ps) = some (s', List.replicate (2 * ps.length) none) ∧
        St (k + ps.length) b' s' ∧
        ∀ i, b'.getLsbD i = (b.getLsbD i || (decide (k ≤ i ∧ i < k + ps.length) && w.getLsbD i)) := by
  intro ps
  induction ps with
  | nil =>
    intro k w b s _ _ hs
    refine ⟨s, b, rfl, hs, ?_⟩
    intro i
    have : ¬ (k ≤ i ∧ i < k + ([] : List (Nat × Nat)).length) := by simp
    rw [decide_eq_false this]
    simp
  | cons p ps ih =>
    intro k w b s hlen hgood hs
    have hk : k < N := by simp at hlen; omega
    obtain ⟨s1, h1, hs1⟩ := hstep k b (w.getLsbD k) p s hk hs (hgood 0 p rfl)
    obtain ⟨s2, b2, h2, hs2, hb2⟩ := ih (k + 1) w _ s1 (by simp at hlen; omega)
      (fun i q hq => by
        have := hgood (i + 1) q (by simpa using hq)
        rwa [show k + 1 + i = k + (i + 1) by omega]) hs1
    refine ⟨s2, b2, ?_, ?_, ?_⟩
    · have heq : Spec.pulses (p :: ps) = [(false, p.1), (true, p.2)] ++ Spec.pulses ps := rfl
      rw [heq, run_append_some h1 h2]
      have : 2 * (p :: ps).length = 2 * ps.length + 1 + 1 := by simp; omega
      rw [this, List.replicate_succ, List.replicate_succ]
      rfl
    · have : k + (p :: ps).length = k + 1 + ps.length := by simp; omega
      rw [this]; exact hs2
    · intro i
      rw [hb2]
      by_cases hik : i = k
      · subst hik
        have h3 : ¬ (i + 1 ≤ i ∧ i < i + 1 + ps.length) := by omega
        have h4 : i ≤ i ∧ i < i + (p :: ps).length := by simp
        rw [decide_eq_false h3, decide_eq_true h4]
        cases hw : w.getLsbD i
        · simp
        · simp only [if_true]
          rw [getLsbD_or_shl _ _ _ _ (by omega)]
          simp
      · have h3 : (k + 1 ≤ i ∧ i < k + 1 + ps.length) ↔ (k ≤ i ∧ i < k + (p :: ps).length) := by
          simp; omega
        have h5 : decide (k + 1 ≤ i ∧ i < k + 1 + ps.length) =
            decide (k ≤ i ∧ i < k + (p :: ps).length) := decide_eq_decide.mpr h3
        rw [h5]
        cases hw : w.getLsbD k
        · simp
        · simp only [if_true]
          rw [getLsbD_or_shl _ _ _ _ (by omega)]
          simp [hik]

theorem pulses_append (a b : List (Nat × Nat)) :
    Spec.pulses (a ++ b) = Spec.pulses a ++ Spec.pulses b := by
  induction a with
  | nil => rfl
  | cons p a ih => obtain ⟨h, l⟩ := p; simp [Spec.pulses, ih]

theorem pulses_length (ps : List (Nat × Nat)) : (Spec.pulses ps).length = 2 * ps.length := by
  induction ps with
  | nil => rfl
  | cons p ps ih => simp only [Spec.pulses, List.length_cons, ih]; omega

end Infrared
