import Verif.Model.Sender
import Verif.Spec.Waveforms

/-!
# What a sender is supposed to transmit
-/

namespace Infrared

/-- State of the PWM pin after each of `n` calls of `tick`. -/
def Sender.pins (s : Sender) : Nat → List Bool
  | 0 => []
  | n + 1 => s.tick.pinEnabled :: s.tick.pins n

/-- `n` calls of `tick`. -/
def Sender.ticks (s : Sender) : Nat → Sender
  | 0 => s
  | n + 1 => s.tick.ticks n

/-- A caller's action on a sender. -/
inductive SenderCall
  | tick
  | load (enc : Encode)

/-- Perform the calls; `none` if one of them panics.  The list holds the state of the pin after
each `tick`. -/
def Sender.calls (s : Sender) : List SenderCall → Option (Sender × List Bool)
  | [] => some (s, [])
  | .tick :: cs => (s.tick.calls cs).map fun p => (p.1, s.tick.pinEnabled :: p.2)
  | .load enc :: cs => (s.load enc).bind fun s' => s'.calls cs

namespace Spec

/-- Alternating levels, starting with `level`, each held for the given number of ticks (at least
one); the level after the last duration is held for one tick. -/
def heldLevels : (level : Bool) → List Nat → List Bool
  | level, [] => [level]
  | level, d :: ds => List.replicate (max d 1) level ++ heldLevels (!level) ds

/-- The transmission of a list of durations: off for the first one, then on, off, … -/
def transmission : List Nat → List Bool
  | [] => []
  | d :: ds => List.replicate d false ++ heldLevels true ds

end Spec

end Infrared
