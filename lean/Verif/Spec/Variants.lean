import Verif.Model.Nec
import Verif.Model.Receiver

/-!
# One line, several variants of the NEC protocol
-/

namespace Infrared.Spec

/-- The answer a variant gives where a word was received (`true`: the repeat code) and where none was. -/
def readAs {C K : Type} (unpack : BitVec 32 → Bool → Option C) (conv : C → K) :
    Res (BitVec 32 × Bool) → Res K
  | .ok (some (w, rep)) => .ok ((unpack w rep).map conv)
  | .ok none => .ok none
  | .error e => .error e

/-- A command with a 16 bit address, of which only the low byte was looked at. -/
def lowAddress (c : Nec16Command) : NecCommand := { addr := c.addr.setWidth 8, cmd := c.cmd, rep := c.rep }

/-- The command a receiver for 16 bit addresses makes of a command with an 8 bit address: its address is that address
below its complement. -/
def wideAddress (c : NecCommand) : Nec16Command where
  addr := ((~~~ c.addr).setWidth 16 <<< 8) ||| c.addr.setWidth 16
  cmd := c.cmd
  rep := c.rep

end Infrared.Spec
