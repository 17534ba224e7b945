import Verif.Spec.Session
import Verif.Spec.Drivers

/-!
# A program that passes on what it hears

One timer interrupt polls a receiver and ticks a sender; a command that the receiver reports is loaded into the sender.
The program is not part of the repository: it combines `PeriodicPoll::poll` (`receiver/ppoll.rs`), `Sender::load` and
`Sender::tick` (`sender/hal.rs`), the way the two examples for polling and for sending use them.
-/

namespace Infrared.Spec

variable {C K : Type}

/-- One interrupt: poll, load what is reported, tick.  The result is the state of the output pin. -/
def relayTick (D : Decoder C) (conv : C → K) (enc : K → Encode) (st : PeriodicPoll D × Sender) (sample : Bool) :
    Option ((PeriodicPoll D × Sender) × Bool) :=
  match PeriodicPoll.pollBase D conv st.1 sample with
  | none => none
  | some (p, .ok (some c)) => (st.2.load (enc c)).map fun s => ((p, s.tick), s.tick.pinEnabled)
  | some (p, _) => some ((p, st.2.tick), st.2.tick.pinEnabled)

/-- The output of the program, from a new receiver and the given sender. -/
def relayRun (D : Decoder C) (conv : C → K) (enc : K → Encode) (s : Sender) (samples : List Bool) : Option (List Bool) :=
  (runStep (relayTick D conv enc) (PeriodicPoll.new D, s) samples).map Prod.snd

/-- Number of polls before the first command is reported. -/
def quietPolls : List (Res K) → Nat
  | [] => 0
  | .ok (some _) :: _ => 0
  | _ :: l => quietPolls l + 1

/-- The commands reported, each with the number of polls until the next one or the end. -/
def spaced : List (Res K) → List (K × Nat)
  | [] => []
  | .ok (some c) :: l => (c, quietPolls l + 1) :: spaced l
  | _ :: l => spaced l

/-- A sender that has played all of its buffer. -/
def Silent (s : Sender) : Prop := s.buffer.status = .idle ∧ s.buffer.ptb.buf.length ≤ s.buffer.pos

end Infrared.Spec
