import Verif.Spec.Spike

/-!
# Transmissions with a missing mark

If a mark does not arrive (or the gap before it is too short to be noticed), two periods become one.
-/

namespace Infrared.Spec

variable {C : Type}

/-- The periods `k` and `k + 1` become the period `p`; nothing else changes. -/
def Joined (whole : List (Nat × Nat)) (k : Nat) (p : Nat × Nat) (ps : List (Nat × Nat)) : Prop :=
  (∃ x y, whole[k]? = some x ∧ whole[k + 1]? = some y ∧ p.1 + p.2 = x.1 + x.2 + (y.1 + y.2)) ∧
    ps = whole.take k ++ p :: whole.drop (k + 2)

/-- The word that is read if the bits `k` and `k + 1`, both zeros, are taken for a one: the bits after them move down by
one place. -/
def fuse {n : Nat} (k : Nat) (w : BitVec n) : BitVec n :=
  firstBits k w ||| (1#n <<< k ||| (w >>> (k + 2)) <<< (k + 1))

/-- A transmission of the NEC family: undisturbed or with a spike, or a complete frame with a missing mark between the
periods `k` and `k + 1` (0 is the header). -/
inductive NecHurt where
  | other (s : NecSpiked)
  | missing (w : BitVec 32) (k : Nat)

@[inherit_doc NecSpiked.Wire]
def NecHurt.Wire (u j sync again : Nat) (ps : List (Nat × Nat)) : NecHurt → Prop
  | .other s => s.Wire u j sync again ps
  | .missing w k => k < 32 ∧ ∃ whole p, NearPeriods u j (necPeriods sync w) whole ∧ Joined whole k p ps

/-- What the receiver says: there is no command of a frame with a missing mark.  It is answered with one error, or, if the
header cannot be recognised any more, not at all.  The error leaves behind what a repeat code after it stands for. -/
inductive necHurtAnswer (unpack : BitVec 32 → Bool → Option C) (last : BitVec 32) :
    NecHurt → List (Res C) → BitVec 32 → Prop
  | other (s : NecSpiked) (r : List (Res C)) (last' : BitVec 32) (h : necSpikedAnswer unpack last s r last') :
      necHurtAnswer unpack last (.other s) r last'
  | unheard (w : BitVec 32) : necHurtAnswer unpack last (.missing w 0) [] last
  | header (w : BitVec 32) : necHurtAnswer unpack last (.missing w 0) [.error .data] (w >>> 1)
  | bit (w : BitVec 32) (k : Nat) : necHurtAnswer unpack last (.missing w (k + 1)) [.error .data] (firstBits k w)
  | fused (w : BitVec 32) (k : Nat) (h0 : w.getLsbD k = false) (h1 : w.getLsbD (k + 1) = false) :
      necHurtAnswer unpack last (.missing w (k + 1)) [.error .data] (fuse k w)

/-- A transmission of SBP: undisturbed or with a spike, or with a missing mark between the periods `k` and `k + 1` (0 is the
header, 17 the divider). -/
inductive SbpHurt where
  | other (s : SbpSpiked)
  | missing (a : BitVec 16) (w : BitVec 20) (k : Nat)

@[inherit_doc NecSpiked.Wire]
def SbpHurt.Wire (u j : Nat) (ps : List (Nat × Nat)) : SbpHurt → Prop
  | .other s => s.Wire u j ps
  | .missing a w k => k < 37 ∧ ∃ whole p, NearPeriods u j (sbpPeriods a w) whole ∧ Joined whole k p ps

/-- What the receiver says: one error, whose kind says where the mark was missing, or nothing if the header cannot be
recognised. -/
inductive sbpHurtAnswer : Unit → SbpHurt → List (Res SbpCommand) → Unit → Prop
  | other (s : SbpSpiked) (r : List (Res SbpCommand)) (h : sbpSpikedAnswer () s r ()) : sbpHurtAnswer () (.other s) r ()
  | unheard (a : BitVec 16) (w : BitVec 20) : sbpHurtAnswer () (.missing a w 0) [] ()
  | address (a : BitVec 16) (w : BitVec 20) (k : Nat) (hk : k ≤ 16) : sbpHurtAnswer () (.missing a w k) [.error .address] ()
  | data (a : BitVec 16) (w : BitVec 20) (k : Nat) (hk : 17 ≤ k) : sbpHurtAnswer () (.missing a w k) [.error .data] ()

/-- A transmission of Denon: undisturbed or with a spike, or with a missing mark between the periods `k` and `k + 1` (0 is
the header). -/
inductive DenonHurt where
  | other (s : DenonSpiked)
  | missing (w : BitVec 48) (k : Nat)

@[inherit_doc NecSpiked.Wire]
def DenonHurt.Wire (u j : Nat) (ps : List (Nat × Nat)) : DenonHurt → Prop
  | .other s => s.Wire u j ps
  | .missing w k => k < 48 ∧ ∃ whole p, NearPeriods u j (denonPeriods w) whole ∧ Joined whole k p ps

/-- What the receiver says: nothing; what it has read of the frame is mixed into the next command. -/
inductive denonHurtAnswer : BitVec 64 → DenonHurt → List (Res DenonCommand) → BitVec 64 → Prop
  | other (stale : BitVec 64) (s : DenonSpiked) (r : List (Res DenonCommand)) (stale' : BitVec 64)
      (h : denonSpikedAnswer stale s r stale') : denonHurtAnswer stale (.other s) r stale'
  | unheard (stale : BitVec 64) (w : BitVec 48) : denonHurtAnswer stale (.missing w 0) [] stale
  | header (stale : BitVec 64) (w : BitVec 48) : denonHurtAnswer stale (.missing w 0) [] (stale ||| (w >>> 1).setWidth 64)
  | bit (stale : BitVec 64) (w : BitVec 48) (k : Nat) :
      denonHurtAnswer stale (.missing w (k + 1)) [] (stale ||| (firstBits k w).setWidth 64)
  | fused (stale : BitVec 64) (w : BitVec 48) (k : Nat) (h0 : w.getLsbD k = false) (h1 : w.getLsbD (k + 1) = false) :
      denonHurtAnswer stale (.missing w (k + 1)) [] (stale ||| (fuse k w).setWidth 64)

/-- The word of a transmission. -/
def NecHurt.word : NecHurt → Option (BitVec 32)
  | .other s => s.word
  | .missing w _ => some w

end Infrared.Spec
