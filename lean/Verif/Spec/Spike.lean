import Verif.Spec.Broken

/-!
# Transmissions disturbed by a spike

A short extra mark in a space, or a short gap in a mark, makes two periods of one: the receiver counts from one beginning
of a mark to the next.
-/

namespace Infrared.Spec

variable {C : Type}

/-- The answers to a series of transmissions, if the answer to one, and what is kept for the next, is not determined by
what was sent alone. -/
inductive Tells {St S R : Type} (step : St → S → List R → St → Prop) : St → List S → List R → Prop
  | nil (st : St) : Tells step st [] []
  | cons {st st' : St} {s : S} {ss : List S} {r rs : List R} (h : step st s r st') (ht : Tells step st' ss rs) :
      Tells step st (s :: ss) (r ++ rs)

/-- Period `k` is divided into the periods `p` and `q`; nothing else changes. -/
def Divided (whole : List (Nat × Nat)) (k : Nat) (p q : Nat × Nat) (ps : List (Nat × Nat)) : Prop :=
  (∃ x, whole[k]? = some x ∧ p.1 + p.2 + (q.1 + q.2) = x.1 + x.2) ∧ ps = whole.take k ++ p :: q :: whole.drop (k + 1)

/-- Where a period is divided: so that one of the parts is short, so that both are as long as a zero, or anywhere. -/
inductive Where
  | side | middle | anywhere
deriving DecidableEq

/-- What that means for the parts: shorter than `us` microseconds, or both within `j` percent of `nought`. -/
def Where.Parts (u j us nought : Nat) (p q : Nat × Nat) : Where → Prop
  | .side => 1000000 * (p.1 + p.2) ≤ us * u ∨ 1000000 * (q.1 + q.2) ≤ us * u
  | .middle => Near u j nought (p.1 + p.2) ∧ Near u j nought (q.1 + q.2)
  | .anywhere => True

/-- The word that is read if bit `k` is taken for two zeros: the bits after it move up by one place and the last is
lost. -/
def slip {n : Nat} (k : Nat) (w : BitVec n) : BitVec n := firstBits k w ||| (w >>> (k + 1)) <<< (k + 2)

/-- A transmission of the NEC family: undisturbed (complete or not), or a complete frame with a spike in bit `k`. -/
inductive NecSpiked where
  | clean (s : NecSent)
  | spiked (w : BitVec 32) (k : Nat) (place : Where)

/-- How it looks on the line, all periods within `j` percent before the spike. -/
def NecSpiked.Wire (u j sync again : Nat) (ps : List (Nat × Nat)) : NecSpiked → Prop
  | .clean sent => NearPeriods u j (sent.periods sync again) ps
  | .spiked w k place => k < 32 ∧ ∃ whole p q, NearPeriods u j (necPeriods sync w) whole ∧ Divided whole (k + 1) p q ps ∧
      place.Parts u j 700 1120 p q

/-- What the receiver says: an undisturbed transmission is answered as ever.  A spike is answered with one error (a
repeat code then stands for the bits before it), except that a one can be taken for two zeros: then a wrong command is
reported.  In the last bit of a frame, what comes before the spike can also be taken for the whole bit. -/
inductive necSpikedAnswer (unpack : BitVec 32 → Bool → Option C) (last : BitVec 32) :
    NecSpiked → List (Res C) → BitVec 32 → Prop
  | clean (s : NecSent) : necSpikedAnswer unpack last (.clean s) (necAnswer unpack last s).1 (necAnswer unpack last s).2
  | lost (w : BitVec 32) (k n : Nat) (place : Where) (h : place ≠ .middle) (hn : n = k ∨ n = k + 1) :
      necSpikedAnswer unpack last (.spiked w k place) [.error .data] (firstBits n w)
  | slipped (w : BitVec 32) (k : Nat) (place : Where) (h : place ≠ .side) (hw : w.getLsbD k = true) :
      necSpikedAnswer unpack last (.spiked w k place) (oks (unpack (slip k w) false).toList) (slip k w)
  | final (w w' : BitVec 32) (place : Where) (h : place ≠ .middle) (hw : w' = w ∨ w' = slip 31 w) :
      necSpikedAnswer unpack last (.spiked w 31 place) (oks (unpack w' false).toList) w'

/-- A transmission of SBP: undisturbed (the first `k` periods), or complete with a spike in bit `k` of the address or of
the data. -/
inductive SbpSpiked where
  | clean (a : BitVec 16) (w : BitVec 20) (k : Nat)
  | address (a : BitVec 16) (w : BitVec 20) (k : Nat)
  | data (a : BitVec 16) (w : BitVec 20) (k : Nat) (place : Where)

@[inherit_doc NecSpiked.Wire]
def SbpSpiked.Wire (u j : Nat) (ps : List (Nat × Nat)) : SbpSpiked → Prop
  | .clean a w k => NearPeriods u j ((sbpPeriods a w).take k) ps
  | .address a w k => k < 16 ∧ ∃ whole p q, NearPeriods u j (sbpPeriods a w) whole ∧ Divided whole (1 + k) p q ps
  | .data a w k place => k < 20 ∧ ∃ whole p q, NearPeriods u j (sbpPeriods a w) whole ∧ Divided whole (18 + k) p q ps ∧
      place.Parts u j 800 1000 p q

/-- What the receiver says: a spike in the address is always answered with one error; in the data it can be as in the NEC
family. -/
inductive sbpSpikedAnswer : Unit → SbpSpiked → List (Res SbpCommand) → Unit → Prop
  | clean (a : BitVec 16) (w : BitVec 20) (k : Nat) : sbpSpikedAnswer () (.clean a w k) (sbpAnswer () (a, w, k)).1 ()
  | address (a : BitVec 16) (w : BitVec 20) (k : Nat) (e : DecodingError) (he : e = .address ∨ e = .data) :
      sbpSpikedAnswer () (.address a w k) [.error e] ()
  | lost (a : BitVec 16) (w : BitVec 20) (k : Nat) (place : Where) (h : place ≠ .middle) :
      sbpSpikedAnswer () (.data a w k place) [.error .data] ()
  | slipped (a : BitVec 16) (w : BitVec 20) (k : Nat) (place : Where) (h : place ≠ .side) (hw : w.getLsbD k = true) :
      sbpSpikedAnswer () (.data a w k place) (oks [SbpCommand.unpack a ((slip k w).setWidth 32)]) ()
  | final (a : BitVec 16) (w w' : BitVec 20) (place : Where) (h : place ≠ .middle) (hw : w' = w ∨ w' = slip 19 w) :
      sbpSpikedAnswer () (.data a w 19 place) (oks [SbpCommand.unpack a (w'.setWidth 32)]) ()

/-- A transmission of Denon: undisturbed (the first `k` periods), or complete with a spike in bit `k`. -/
inductive DenonSpiked where
  | clean (w : BitVec 48) (k : Nat)
  | spiked (w : BitVec 48) (k : Nat) (place : Where)

@[inherit_doc NecSpiked.Wire]
def DenonSpiked.Wire (u j : Nat) (ps : List (Nat × Nat)) : DenonSpiked → Prop
  | .clean w k => NearPeriods u j ((denonPeriods w).take k) ps
  | .spiked w k place => k < 48 ∧ ∃ whole p q, NearPeriods u j (denonPeriods w) whole ∧ Divided whole (1 + k) p q ps ∧
      place.Parts u j 650 840 p q

/-- What the receiver says: nothing about a spike, but the bits before it are mixed into the next command, except that a
one can be taken for two zeros.  The last bit does not count, whatever part of it is read. -/
inductive denonSpikedAnswer : BitVec 64 → DenonSpiked → List (Res DenonCommand) → BitVec 64 → Prop
  | clean (stale : BitVec 64) (w : BitVec 48) (k : Nat) :
      denonSpikedAnswer stale (.clean w k) (denonAnswer stale (w, k)).1 (denonAnswer stale (w, k)).2
  | lost (stale : BitVec 64) (w : BitVec 48) (k n : Nat) (place : Where) (h : place ≠ .middle) (hn : n = k ∨ n = k + 1) :
      denonSpikedAnswer stale (.spiked w k place) [] (stale ||| (firstBits n w).setWidth 64)
  | slipped (stale : BitVec 64) (w : BitVec 48) (k : Nat) (place : Where) (h : place ≠ .side) (hw : w.getLsbD k = true) :
      denonSpikedAnswer stale (.spiked w k place) (oks [{ bits := stale ||| ((slip k w).setWidth 47).setWidth 64 }]) 0
  | final (stale : BitVec 64) (w : BitVec 48) (place : Where) :
      denonSpikedAnswer stale (.spiked w 47 place) (oks [{ bits := stale ||| (w.setWidth 47).setWidth 64 }]) 0

/-- The word of a transmission. -/
def NecSpiked.word : NecSpiked → Option (BitVec 32)
  | .clean (.frame w _) => some w
  | .clean .rep => none
  | .spiked w _ _ => some w

/-- A frame without a spike, or with one that cannot be missed: so near the beginning or the end of a bit that one of the
parts is too short for a bit, or in a zero; and not in the last bit. -/
def NecSpiked.Detectable : NecSpiked → Prop
  | .clean (.frame ..) => True
  | .clean .rep => False
  | .spiked w k place => k < 31 ∧ (place = .side ∨ w.getLsbD k = false)

@[inherit_doc NecSpiked.Detectable]
def SbpSpiked.Detectable : SbpSpiked → Prop
  | .clean .. => True
  | .address .. => True
  | .data _ w k place => k < 19 ∧ (place = .side ∨ w.getLsbD k = false)

end Infrared.Spec
