import Verif.Model.Arith

/-!
# Sender

Models `/repo/src/sender/{buffer,senders,hal}.rs`.  An encoder applied to a command is a
function `List Nat → Option (List Nat × Nat)` (slice to new contents and length).
-/

namespace Infrared

/-- `ProtocolEncoder::encode` with the command fixed, `sender/mod.rs:15-20`. -/
abbrev Encode := List Nat → Option (List Nat × Nat)

/-- `PulsedataBuffer<S>`, `sender/buffer.rs:3-6` (`S` is the length of `buf`). -/
structure PulsedataBuffer where
  buf : List Nat
  offset : Nat
deriving Repr, DecidableEq

/-- `PulsedataBuffer::new`, `sender/buffer.rs:9-14`. -/
def PulsedataBuffer.new (S : Nat) : PulsedataBuffer := { buf := List.replicate S 0, offset := 0 }

/-- `PulsedataBuffer::reset`, `sender/buffer.rs:16-18`. -/
def PulsedataBuffer.reset (p : PulsedataBuffer) : PulsedataBuffer := { p with offset := 0 }

/-- `PulsedataBuffer::load`, `sender/buffer.rs:20-23`; slicing `[offset..]` panics if
`offset > S`. -/
def PulsedataBuffer.load (p : PulsedataBuffer) (enc : Encode) : Option PulsedataBuffer :=
  if p.offset ≤ p.buf.length then do
    let (b, len) ← enc (p.buf.drop p.offset)
    some { buf := p.buf.take p.offset ++ b, offset := p.offset + len }
  else none

/-- `PulsedataBuffer::get`, `sender/buffer.rs:25-27`: the whole array, not only the loaded
part. -/
def PulsedataBuffer.get (p : PulsedataBuffer) (index : Nat) : Option Nat := p.buf[index]?

/-- `PulsedataBuffer::buffer` and iteration over `&PulsedataBuffer`,
`sender/buffer.rs:29-31,34-63`; slicing `[..offset]` panics if `offset > S`. -/
def PulsedataBuffer.buffer (p : PulsedataBuffer) : Option (List Nat) :=
  if p.offset ≤ p.buf.length then some (p.buf.take p.offset) else none

/-- `Status`, `sender/senders.rs:63-71`. -/
inductive Status
  | idle | transmit (on : Bool) | error
deriving Repr, DecidableEq

/-- `PulsedataSender`, `sender/senders.rs:3-8`. -/
structure PulsedataSender where
  ptb : PulsedataBuffer
  pos : Nat
  status : Status
  tsLastedge : Nat
deriving Repr, DecidableEq

/-- `PulsedataSender::new`, `sender/senders.rs:12-20`. -/
def PulsedataSender.new (S : Nat) : PulsedataSender :=
  { ptb := PulsedataBuffer.new S, pos := 0, status := .idle, tsLastedge := 0 }

/-- `PulsedataSender::reset`, `sender/senders.rs:22-27`. -/
def PulsedataSender.reset (s : PulsedataSender) : PulsedataSender :=
  { pos := 0, tsLastedge := 0, status := .idle, ptb := s.ptb.reset }

/-- `PulsedataSender::load_command`, `sender/senders.rs:30-33`. -/
def PulsedataSender.loadCommand (s : PulsedataSender) (enc : Encode) : Option PulsedataSender := do
  let s := s.reset
  let ptb ← s.ptb.load enc
  some { s with ptb }

/-- `PulsedataSender::tick`, `sender/senders.rs:35-53`. -/
def PulsedataSender.tick (s : PulsedataSender) (ts : Nat) : PulsedataSender × Status :=
  match s.ptb.get s.pos with
  | some dist =>
    let deltaTs := wrappingSub 32 ts s.tsLastedge
    if deltaTs ≥ dist then
      let newstate := match s.status with
        | .idle => Status.transmit true
        | .transmit false => Status.transmit true
        | _ => Status.transmit false
      ({ s with status := newstate, pos := s.pos + 1, tsLastedge := ts }, newstate)
    else (s, s.status)
  | none => ({ s with status := .idle }, .idle)

/-- `Sender`, `sender/hal.rs:6-10`; the PWM pin is represented by whether it is enabled. -/
structure Sender where
  pinEnabled : Bool
  counter : Nat
  buffer : PulsedataSender
deriving Repr, DecidableEq

/-- `Sender::new`, `sender/hal.rs:16-22`; the pin's initial state is the caller's. -/
def Sender.new (S : Nat) (pinEnabled : Bool) : Sender :=
  { pinEnabled, counter := 0, buffer := PulsedataSender.new S }

/-- `Sender::load`, `sender/hal.rs:24-32`. -/
def Sender.load (s : Sender) (enc : Encode) : Option Sender :=
  if s.buffer.status = .idle then do
    let buffer ← s.buffer.loadCommand enc
    some { s with buffer, counter := 0 }
  else some s

/-- `Sender::tick`, `sender/hal.rs:39-49`. -/
def Sender.tick (s : Sender) : Sender :=
  let r := s.buffer.tick s.counter
  { buffer := r.1
    counter := wrappingAdd 32 s.counter 1
    pinEnabled := match r.2 with
      | .transmit true => true
      | .transmit false => false
      | .idle => false
      | .error => false }

end Infrared
