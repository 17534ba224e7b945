import Verif.Spec.Words

/-!
# Bit errors

An error is the set of the bits that are received the other way round; it is given as a word `e` with these bits
set, so `w ^^^ e` is received if `w` is sent.
-/

namespace Infrared.Spec

/-- In the two bytes from bit `lo` on the error hits a bit of the first byte exactly if it hits the bit of the
second byte that belongs to it. -/
def HitsPairs {n : Nat} (e : BitVec n) (lo : Nat) : Prop :=
  ∀ i < 8, e.getLsbD (lo + i) = e.getLsbD (lo + 8 + i)

/-- All wrong bits are among `len` consecutive ones. -/
def Burst {n : Nat} (e : BitVec n) (len : Nat) : Prop :=
  ∃ k, ∀ i, e.getLsbD i = true → k ≤ i ∧ i < k + len

/-- The error hits an odd number of bits. -/
def OddErrors (e : BitVec 32) : Prop :=
  ((List.range 32).filter fun i => e.getLsbD i).length % 2 = 1

/-- The eight bits of the error from bit `lo` on. -/
def byte (e : BitVec 32) (lo : Nat) : BitVec 8 := (e >>> lo).setWidth 8

end Infrared.Spec
