import Verif.Spec.Sending
import Verif.Spec.Streams

/-!
# A session: many commands from one sender
-/

namespace Infrared.Spec

/-- What the caller does: load each command and tick the given number of times before the next
one. -/
def session {A : Type} (enc : A → Encode) (cmds : List (A × Nat)) : List SenderCall :=
  cmds.flatMap fun x => .load (enc x.1) :: List.replicate x.2 .tick

/-- Ticks of a session. -/
def sessionTicks {A : Type} (cmds : List (A × Nat)) : Nat := (cmds.map Prod.snd).sum

/-- Polled samples a receiver running at `f` Hz collects while a sender, silent at first, then works
through the calls at `fs` Hz. -/
def overhear (fs f phase pause : Nat) (levels : List Bool) (n : Nat) : List Bool :=
  looked fs f phase (List.replicate pause false ++ levels) n

end Infrared.Spec
