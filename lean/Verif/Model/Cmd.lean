import Verif.Model.Nec
import Verif.Model.Rc5
import Verif.Model.Rc6
import Verif.Model.Sbp
import Verif.Model.Denon

/-!
# Commands and protocol ids

Models `/repo/src/cmd.rs`, `/repo/src/protocol.rs` and the `Command` / `AddressCommand`
impls of the protocols.  `u32`/`u64` values are `Nat`.
-/

namespace Infrared

/-- `ProtocolId`, `protocol.rs:42-61`. -/
inductive ProtocolId
  | nec | nec16 | necSamsung | necApple | rc5 | rc6 | sbp | denon | unknown
deriving Repr, DecidableEq

/-- The `#[repr(u8)]` discriminants (`id as u8`), `protocol.rs:44-60`. -/
def ProtocolId.toByte : ProtocolId → BitVec 8
  | .nec => 1
  | .nec16 => 2
  | .necSamsung => 3
  | .necApple => 4
  | .rc5 => 5
  | .rc6 => 6
  | .sbp => 7
  | .denon => 8
  | .unknown => 255

/-- `impl From<u8> for ProtocolId`, `protocol.rs:63-77`. -/
def ProtocolId.ofByte (u : BitVec 8) : ProtocolId :=
  if u = 1 then .nec
  else if u = 2 then .nec16
  else if u = 3 then .necSamsung
  else if u = 4 then .necApple
  else if u = 5 then .rc5
  else if u = 6 then .rc6
  else if u = 7 then .sbp
  else if u = 8 then .denon
  else .unknown

/-- `trait Command` and `trait AddressCommand`, `cmd.rs:4-21`. -/
structure AddressCommand (C : Type) where
  id : ProtocolId
  raw : C → Nat
  address : C → Nat
  command : C → Nat
  create : (addr cmd : Nat) → Option C
  isRepeat : C → Bool

/-- `x as u8` for a `u32` value. -/
def asU8 (x : Nat) : BitVec 8 := BitVec.ofNat 8 x

/-- `x.try_into().ok()` from `u32` to `u8`. -/
def tryU8 (x : Nat) : Option (BitVec 8) := if x < 256 then some (BitVec.ofNat 8 x) else none

/-- `x.try_into().ok()` from `u32` to `u16`. -/
def tryU16 (x : Nat) : Option (BitVec 16) :=
  if x < 65536 then some (BitVec.ofNat 16 x) else none

/-- `nec/standard.rs:38-62`; `raw` is the default of `cmd.rs:12-14`. -/
def necAC : AddressCommand NecCommand where
  id := .nec
  raw _ := 0
  address c := c.addr.toNat
  command c := c.cmd.toNat
  create addr cmd := some { addr := asU8 addr, cmd := asU8 cmd, rep := false }
  isRepeat c := c.rep

/-- `nec/samsung.rs:37-61`. -/
def samsungAC : AddressCommand SamsungNecCommand where
  id := .necSamsung
  raw _ := 0
  address c := c.addr.toNat
  command c := c.cmd.toNat
  create addr cmd := some { addr := asU8 addr, cmd := asU8 cmd, rep := false }
  isRepeat c := c.rep

/-- `nec/apple.rs:59-79`; `(command_page << 7) | command` is computed in `u8`. -/
def appleAC : AddressCommand AppleNecCommand where
  id := .necApple
  raw _ := 0
  address _ := 0
  command c := ((c.commandPage <<< 7) ||| c.command).toNat
  create _ _ := none
  isRepeat c := c.rep

/-- `rc5/mod.rs:74-97`. -/
def rc5AC : AddressCommand Rc5Command where
  id := .rc5
  raw _ := 0
  address c := c.addr.toNat
  command c := c.cmd.toNat
  create addr cmd := do
    let addr ← tryU8 addr
    let cmd ← tryU8 cmd
    some (Rc5Command.new addr cmd false)
  isRepeat c := c.toggle

/-- `rc6/cmd.rs:32-52`. -/
def rc6AC : AddressCommand Rc6Command where
  id := .rc6
  raw _ := 0
  address c := c.addr.toNat
  command c := c.cmd.toNat
  create addr cmd := do
    let addr ← tryU8 addr
    let cmd ← tryU8 cmd
    some (Rc6Command.new addr cmd)
  isRepeat c := c.toggle

/-- `sbp/mod.rs:90-114`. -/
def sbpAC : AddressCommand SbpCommand where
  id := .sbp
  raw _ := 0
  address c := c.address.toNat
  command c := c.command.toNat
  create address command := do
    let address ← tryU16 address
    let command ← tryU8 command
    some { address, command, valid := true }
  isRepeat _ := false

/-- `AnyCommand`, `cmd.rs:25-31`. -/
structure AnyCommand where
  protocol : ProtocolId
  raw : Nat
  address : Nat
  command : Nat
  rep : Bool
deriving Repr, DecidableEq

/-- `impl<Cmd: AddressCommand> From<Cmd> for AnyCommand`, `cmd.rs:33-43`. -/
def AnyCommand.from {C : Type} (ac : AddressCommand C) (cmd : C) : AnyCommand where
  protocol := ac.id
  raw := ac.raw cmd
  address := ac.address cmd
  command := ac.command cmd
  rep := ac.isRepeat cmd

/-- `impl From<DenonCommand> for AnyCommand`, `denon/mod.rs:65-75`. -/
def AnyCommand.fromDenon (cmd : DenonCommand) : AnyCommand where
  protocol := .denon
  raw := cmd.bits.toNat
  address := 0
  command := 0
  rep := false

end Infrared
