import Verif.Model.Cmd

/-!
# Receiver builder

Models `/repo/src/receiver/builder.rs`.  The protocol, clock and command type parameters are
erased at run time; the model records which ones the chain of calls selects.
-/

namespace Infrared

/-- The shipped protocols a builder can select (`receiver/builder.rs:69-107`); `other n` is a
protocol selected with the generic `protocol::<P>()` (lines 59-67). -/
inductive Proto
  | none | nec | nec16 | necSamsung | necApple | rc5 | rc6 | sbp | denon | other (n : Nat)
deriving Repr, DecidableEq

/-- Output type of the receiver: the protocol's own command type or `Button<Remote>`. -/
inductive OutTy
  | unit | cmdOf (p : Proto) | button (remote : Nat)
deriving Repr, DecidableEq

/-- `Builder<Proto, Pin, Mono, Cmd>`, `receiver/builder.rs:24-30`. -/
structure Builder (Pin : Type) where
  proto : Proto
  pin : Pin
  freq : Nat
  cmd : OutTy
  monotonic : Nat
deriving Repr

/-- `impl Default for Builder`, `receiver/builder.rs:32-42`; `noPin` stands for `NoPin`,
clock type 0 for `u32`. -/
def Builder.default {Pin : Type} (noPin : Pin) : Builder Pin where
  proto := .none
  pin := noPin
  freq := 1000000
  cmd := .unit
  monotonic := 0

/-- One builder call. -/
inductive BuilderCall (Pin : Type)
  | monotonic (m : Nat)
  | protocol (p : Proto)
  | remotecontrol (r : Nat)
  | pin (p : Pin)
  | frequency (hz : Nat)

/-- The methods, `receiver/builder.rs:48-139`. -/
def Builder.call {Pin : Type} (b : Builder Pin) : BuilderCall Pin → Builder Pin
  | .monotonic m => { proto := b.proto, pin := b.pin, freq := b.freq, cmd := b.cmd, monotonic := m }
  | .protocol p =>
    { proto := p, pin := b.pin, freq := b.freq, cmd := .cmdOf p, monotonic := b.monotonic }
  | .remotecontrol r =>
    { proto := b.proto, pin := b.pin, freq := b.freq, cmd := .button r, monotonic := b.monotonic }
  | .pin p => { proto := b.proto, pin := p, freq := b.freq, cmd := b.cmd, monotonic := b.monotonic }
  | .frequency hz => { b with freq := hz }

/-- What `build` passes to `Receiver::with_input(self.freq, self.pin)`,
`receiver/builder.rs:142-148`, together with the type-level selections. -/
structure BuildResult (Pin : Type) where
  proto : Proto
  freq : Nat
  input : Pin
  cmd : OutTy
  monotonic : Nat
deriving Repr

/-- `Builder::build`, `receiver/builder.rs:142-148`. -/
def Builder.build {Pin : Type} (b : Builder Pin) : BuildResult Pin where
  proto := b.proto
  freq := b.freq
  input := b.pin
  cmd := b.cmd
  monotonic := b.monotonic

/-- `Builder::build_polled`, `receiver/builder.rs:150-156`: always the `u32` clock. -/
def Builder.buildPolled {Pin : Type} (b : Builder Pin) : BuildResult Pin where
  proto := b.proto
  freq := b.freq
  input := b.pin
  cmd := b.cmd
  monotonic := 0

end Infrared
