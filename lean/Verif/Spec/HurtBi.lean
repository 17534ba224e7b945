import Verif.Spec.Noisy

/-!
# Spikes and missing marks in transmissions of the Manchester codes
-/

namespace Infrared.Spec

/-- A complete transmission of half-bits of `unit` microseconds, each within `j` percent, and perhaps the end of its last
mark (there is one if the line is high at the end). -/
def Complete (u j unit : Nat) (edges evs : List (Bool × Nat)) (tail : Option Nat) : Prop :=
  ManchesterFrame (fun x n => Near u j (unit * n) x) edges evs ∧ ∀ x, tail = some x → Near u j (unit * 1) x ∧
    edges.getLast?.map Prod.fst = some true

/-- A spike between edge `k` and the one before it (the pause, if `k = 0`): it lasts `us` microseconds or less.  The spike,
what is before it and what is after it take at least one tick of the clock each. -/
def Spiked (u f us : Nat) (whole : List (Bool × Nat)) (k : Nat) (evs : List (Bool × Nat)) : Prop :=
  ∃ b x y z, whole[k]? = some (b, x + y + z) ∧ evs = whole.take k ++ (b, x) :: (!b, y) :: (b, z) :: whole.drop (k + 1) ∧
    u ≤ x * f ∧ u ≤ y * f ∧ u ≤ z * f ∧ 1000000 * y ≤ us * u

/-- The mark that begins with edge `k` is missing: neither its beginning nor its end is seen. -/
def MarkMissing (whole : List (Bool × Nat)) (k : Nat) (evs : List (Bool × Nat)) : Prop :=
  ∃ x y z, whole[k]? = some (true, x) ∧ whole[k + 1]? = some (false, y) ∧ whole[k + 2]? = some (true, z) ∧
    evs = whole.take k ++ (true, x + y + z) :: whole.drop (k + 3)

/-- The pause before the first edge is of 16 ms or more. -/
def After16 (u : Nat) (evs : List (Bool × Nat)) : Prop := ∀ e, evs.head? = some e → 16000 * u ≤ 1000000 * e.2

/-- An RC5 transmission with a spike before edge `k`, or without the mark that begins with edge `k`, or anything else. -/
inductive Rc5Hurt where
  | other (s : Rc5Noisy)
  | spiked (w : BitVec 14) (k : Nat)
  | missing (w : BitVec 14) (k : Nat)

/-- How it looks on the line. -/
def Rc5Hurt.Wire (u j f : Nat) (evs : List (Bool × Nat)) (tail : Option Nat) : Rc5Hurt → Prop
  | .other s => s.Wire u j f evs tail
  | .spiked w k => w.getLsbD 13 = true ∧ After16 u evs ∧
      ∃ whole, Complete u j 889 (rc5Edges w) whole tail ∧ Spiked u f 600 whole k evs
  | .missing w k => w.getLsbD 13 = true ∧ After16 u evs ∧
      ∃ whole, Complete u j 889 (rc5Edges w) whole tail ∧ MarkMissing whole k evs

/-- What the receiver says: the command that was sent, or nothing.  A transmission with a spike is heard if the spike is
before it; it can be heard if the spike is in the first or in the last interval. -/
inductive rc5HurtAnswer : Unit → Rc5Hurt → List (Res Rc5Command) → Unit → Prop
  | other (s : Rc5Noisy) (r : List (Res Rc5Command)) (h : rc5NoisyAnswer () s r ()) : rc5HurtAnswer () (.other s) r ()
  | heard (w : BitVec 14) (k : Nat) (h : k = 0 ∨ k = 1 ∨ k + 1 = (rc5Edges w).length) :
      rc5HurtAnswer () (.spiked w k) (oks [Rc5Command.unpack (w.setWidth 16)]) ()
  | lost (w : BitVec 14) (k : Nat) (h : k ≠ 0) : rc5HurtAnswer () (.spiked w k) [] ()
  | missing (w : BitVec 14) (k : Nat) : rc5HurtAnswer () (.missing w k) [] ()

/-- An RC6 transmission (mode 0) with a spike before edge `k`, or without the mark that begins with edge `k`, or anything
else. -/
inductive Rc6Hurt where
  | other (s : Rc6Noisy)
  | spiked (c : Rc6Command) (k : Nat)
  | missing (c : Rc6Command) (k : Nat)

@[inherit_doc Rc5Hurt.Wire]
def Rc6Hurt.Wire (u j f : Nat) (evs : List (Bool × Nat)) (tail : Option Nat) : Rc6Hurt → Prop
  | .other s => s.Wire u j f evs tail
  | .spiked c k => After16 u evs ∧
      ∃ whole, Complete u j 444 (rc6Edges (c.addr ++ c.cmd) c.toggle) whole tail ∧ Spiked u f 250 whole k evs
  | .missing c k => After16 u evs ∧
      ∃ whole, Complete u j 444 (rc6Edges (c.addr ++ c.cmd) c.toggle) whole tail ∧ MarkMissing whole k evs

@[inherit_doc rc5HurtAnswer]
inductive rc6HurtAnswer : Unit → Rc6Hurt → List (Res Rc6Command) → Unit → Prop
  | other (s : Rc6Noisy) (r : List (Res Rc6Command)) (h : rc6NoisyAnswer () s r ()) : rc6HurtAnswer () (.other s) r ()
  | heard (c : Rc6Command) (k : Nat) (h : k = 0 ∨ k = 1 ∨ k + 1 = (rc6Edges (c.addr ++ c.cmd) c.toggle).length) :
      rc6HurtAnswer () (.spiked c k) (oks [c]) ()
  | lost (c : Rc6Command) (k : Nat) (h : k ≠ 0) : rc6HurtAnswer () (.spiked c k) [] ()
  | missing (c : Rc6Command) (k : Nat) : rc6HurtAnswer () (.missing c k) [] ()

end Infrared.Spec
