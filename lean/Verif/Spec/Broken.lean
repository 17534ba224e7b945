import Verif.Spec.Streams
import Verif.Spec.Physical
import Verif.Spec.Manchester

/-!
# Transmissions that break off

A transmission may stop at any point: the sender loses its target, or its battery.  Of a pulse-distance frame `k`
periods are sent (all of them if `k` is large), then a mark and a pause follow.  The functions below say what the
receiver answers to each transmission, and what it keeps of it.
-/

namespace Infrared.Spec

variable {C : Type}

/-- The answers to a series of transmissions; `step` gives the answer to one, and what is kept for the next. -/
def told {St S R : Type} (step : St → S → List R × St) : St → List S → List R
  | _, [] => []
  | st, s :: ss => (step st s).1 ++ told step (step st s).2 ss

/-- The first `n` bits of a word (least significant first). -/
def firstBits {m : Nat} (n : Nat) (w : BitVec m) : BitVec m := (w.setWidth n).setWidth m

/-- A transmission of the NEC family: the first `k` periods of a frame, of which there are 33, or a repeat code. -/
inductive NecSent where
  | frame (w : BitVec 32) (k : Nat)
  | rep

/-- Its periods in µs. -/
def NecSent.periods (sync rep : Nat) : NecSent → List Nat
  | .frame w k => (necPeriods sync w).take k
  | .rep => [rep]

/-- NEC family: a complete frame is reported, a repeat code repeats the last word.  A frame that breaks off is answered
with one error; the bits received so far are what a repeat code after it refers to. -/
def necAnswer (unpack : BitVec 32 → Bool → Option C) (last : BitVec 32) : NecSent → List (Res C) × BitVec 32
  | .frame w k =>
    if k = 0 then ([], last)
    else if k ≤ 32 then ([.error .data], firstBits (k - 1) w)
    else (oks (unpack w false).toList, w)
  | .rep => (oks (unpack last true).toList, last)

/-- SBP (38 periods): a frame that breaks off is answered with one error. -/
def sbpAnswer (_ : Unit) (s : BitVec 16 × BitVec 20 × Nat) : List (Res SbpCommand) × Unit :=
  if s.2.2 = 0 then ([], ())
  else if s.2.2 ≤ 16 then ([.error .address], ())
  else if s.2.2 ≤ 37 then ([.error .data], ())
  else (oks [SbpCommand.unpack s.1 (s.2.1.setWidth 32)], ())

/-- Denon (49 periods): a frame that breaks off is not answered; its bits are mixed into the next command. -/
def denonAnswer (stale : BitVec 64) (s : BitVec 48 × Nat) : List (Res DenonCommand) × BitVec 64 :=
  if s.2 = 0 then ([], stale)
  else if s.2 ≤ 48 then ([], stale ||| (firstBits (s.2 - 1) s.1).setWidth 64)
  else (oks [{ bits := stale ||| (s.1.setWidth 47).setWidth 64 }], 0)

/-- A Manchester transmission with the given edges, of which `k` are sent, after a pause of 16 ms or more (a unit of
the edges is `unit` µs).  If it breaks off within a mark (before its last edge), the mark ends at `tail`: one clock tick
or more after its beginning, and no later than it would have. -/
def SentFor (u j f unit : Nat) (edges : List (Bool × Nat)) (k : Nat) (evs : List (Bool × Nat)) (tail : Option Nat) :
    Prop :=
  ManchesterFrame (fun x n => Near u j (unit * n) x) (edges.take k) evs ∧
  (∀ e, evs.head? = some e → 16000 * u ≤ 1000000 * e.2) ∧
  (k < edges.length → ∀ x, tail = some x → k + 1 < edges.length ∧ u ≤ x * f ∧
    ∃ n, edges[k]? = some (false, n) ∧ 100000000 * x ≤ (100 + j) * (unit * n) * u)

/-- All edges of the RC5 frame of `x.1` were sent. -/
def rc5Whole (x : BitVec 14 × Nat) : Bool := decide ((rc5Edges x.1).length ≤ x.2)

/-- All edges of the RC6 frame of `x.1` were sent. -/
def rc6Whole (x : Rc6Command × Nat) : Bool := decide ((rc6Edges (x.1.addr ++ x.1.cmd) x.1.toggle).length ≤ x.2)

end Infrared.Spec
