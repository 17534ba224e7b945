import Verif.Spec.Streams

/-!
# Keys that are pressed and held

What the user does with a remote control (press a key, hold it for some time, press the next one), what a remote
control sends then, and what a program at the other end should learn.
-/

namespace Infrared.Spec

variable {Key : Type}

/-- What a program should learn about a series of presses, each a key and the number of further transmissions for
which it is held: the key, marked as new, and then as often as it was sent again, marked as a repetition. -/
def noted (presses : List (Key × Nat)) : List (Key × Bool) :=
  presses.flatMap fun p => (p.1, false) :: List.replicate p.2 (p.1, true)

/-- A NEC remote control sends a press as one frame, and one repeat code for every further transmission. -/
structure NecPress (Key : Type) where
  key : Key
  /-- The word of the key and the pulses which carry it. -/
  word : BitVec 32
  frame : List (Nat × Nat)
  pause : Nat × Nat
  /-- Repeat codes, each followed by a pause. -/
  reps : List ((Nat × Nat) × (Nat × Nat))

/-- What is on the line for a press. -/
def NecPress.items (p : NecPress Key) : List (NecItem × (Nat × Nat)) :=
  (.frame p.word p.frame, p.pause) :: p.reps.map fun r => (.rep r.1, r.2)

/-- RC5 and RC6 remote controls send the whole command again as long as the key is held.  The toggle bit tells two
presses from one that is held: it is inverted for every new press. -/
def toggled : (toggle : Bool) → List (Key × Nat) → List (Key × Bool)
  | _, [] => []
  | b, p :: ps => List.replicate (p.2 + 1) (p.1, b) ++ toggled (!b) ps

/-- How these protocols are meant to be read: a command is a repetition if the toggle bit is that of the command
before. -/
def readToggles : (last : Option Bool) → List (Key × Bool) → List (Key × Bool)
  | _, [] => []
  | last, (k, b) :: rest => (k, last == some b) :: readToggles (some b) rest

/-- SBP remote controls send the whole command again as long as the key is held, and nothing that tells this from a
new press. -/
def sentAgain (presses : List (Key × Nat)) : List Key :=
  presses.flatMap fun p => List.replicate (p.2 + 1) p.1

/-- The RC5 word of a key (the second start bit, the address and the command) with its toggle bit. -/
def rc5Sends (k : Bool × Nat × Nat) (toggle : Bool) : BitVec 14 :=
  1#1 ++ BitVec.ofBool k.1 ++ BitVec.ofBool toggle ++ BitVec.ofNat 5 k.2.1 ++ BitVec.ofNat 6 k.2.2

end Infrared.Spec
