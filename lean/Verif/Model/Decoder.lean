import Verif.Model.Time

/-!
# The decoder interface

Models `/repo/src/receiver/decoder.rs` and `/repo/src/receiver/error.rs`.
-/

namespace Infrared

/-- `DecodingError`, `receiver/error.rs:4-13`. -/
inductive DecodingError
  | address | data | validation | remoteControlError
deriving Repr, DecidableEq

/-- `Error<PinErr>`, `receiver/error.rs:17-23`. -/
inductive Error (PinErr : Type)
  | address | data | validation | remoteControlError
  | hal (e : PinErr)
deriving Repr, DecidableEq

/-- `impl From<DecodingError> for Error<PinErr>`, `receiver/error.rs:25-34`. -/
def Error.ofDecoding {PinErr : Type} : DecodingError → Error PinErr
  | .address => .address
  | .data => .data
  | .validation => .validation
  | .remoteControlError => .remoteControlError

/-- `State`, `receiver/decoder.rs:67-76`. -/
inductive State
  | idle | receiving | done | error (e : DecodingError)
deriving Repr, DecidableEq

/-- `trait ProtocolDecoder`, `receiver/decoder.rs:23-41`, together with the initial state
made by `DecoderBuilder::build` (lines 14-20).  `event s edge dt = none` is a panic.
`spans()` is omitted: it only exposes the (immutable) table. -/
structure Decoder (Cmd : Type) where
  St : Type
  init : St
  event : St → (edge : Bool) → (dt : Nat) → Option (St × State)
  command : St → Option Cmd
  reset : St → St

/-- The result type `Result<Option<Cmd>, DecodingError>`. -/
abbrev Res (Cmd : Type) := Except DecodingError (Option Cmd)

/-- `ProtocolDecoder::event_total`, `receiver/decoder.rs:44-61`. -/
def Decoder.eventTotal {Cmd : Type} (D : Decoder Cmd) (s : D.St) (edge : Bool) (dt : Nat) :
    Option (D.St × Res Cmd) := do
  let (s', st) ← D.event s edge dt
  match st with
  | .idle => some (s', .ok none)
  | .receiving => some (s', .ok none)
  | .done => some (D.reset s', .ok (D.command s'))
  | .error err => some (D.reset s', .error err)

end Infrared
