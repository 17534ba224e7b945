import Verif.Model.Remote
import Verif.Model.Builder

/-!
# What remotes and builders are supposed to do
-/

namespace Infrared.Spec

/-- `r` behaves like the table `(code, action)` for device address `addr`: codes and actions
correspond one to one, `decode` reads it one way, `encode` the other way. -/
structure IsRemote {C : Type} (r : RemoteControlModel C) (addr : Nat) (table : List (Nat × Action)) :
    Prop where
  /-- one action per code and one code per action -/
  inverse : ∀ p ∈ table, ∀ q ∈ table, (p.1 = q.1 ↔ p.2 = q.2)
  decode_iff : ∀ c a, r.decode c = some a ↔ r.ac.address c = addr ∧ (r.ac.command c, a) ∈ table
  encode_iff : ∀ a, (∃ c, r.encode a = some c) ↔ ∃ code, (code, a) ∈ table
  encode_decode : ∀ a c, r.encode a = some c → r.decode c = some a
  decode_encode : ∀ c a, r.decode c = some a → ∃ c', r.encode a = some c' ∧
    r.ac.address c' = r.ac.address c ∧ r.ac.command c' = r.ac.command c
  /-- a freshly encoded command is not marked as a repetition -/
  encode_repeat : ∀ a c, r.encode a = some c → r.ac.isRepeat c = false

/-- The last value given by the calls that `f` selects, or `d`. -/
def lastOr {α β : Type} (f : α → Option β) (d : β) (calls : List α) : β :=
  (calls.reverse.findSome? f).getD d

/-- The frequency a call sets. -/
def freqOf {Pin : Type} : BuilderCall Pin → Option Nat
  | .frequency hz => some hz
  | _ => none

/-- The pin a call sets. -/
def pinOf {Pin : Type} : BuilderCall Pin → Option Pin
  | .pin p => some p
  | _ => none

/-- The protocol a call selects. -/
def protoOf {Pin : Type} : BuilderCall Pin → Option Proto
  | .protocol p => some p
  | _ => none

/-- The clock a call selects. -/
def clockOf {Pin : Type} : BuilderCall Pin → Option Nat
  | .monotonic m => some m
  | _ => none

/-- The output type a call selects: both choosing a protocol and choosing a remote do. -/
def outOf {Pin : Type} : BuilderCall Pin → Option OutTy
  | .protocol p => some (.cmdOf p)
  | .remotecontrol r => some (.button r)
  | _ => none

end Infrared.Spec
