import Verif.Model.Nec
import Verif.Model.Rc5
import Verif.Model.Rc6
import Verif.Model.Sbp
import Verif.Model.Denon
import Verif.Model.Receiver
import Verif.Model.Sender

/-!
# Recorded and prepared pulse buffers

Models `/repo/src/receiver/bufferinput.rs`, the `build` functions behind it, the iterator of
`/repo/src/sender/buffer.rs`, and `MultiReceiver::event_iter` of `/repo/src/receiver/multi.rs`.
-/

namespace Infrared

variable {C K : Type}

/-- `DecoderBuilder::build(freq)`, `receiver/decoder.rs:14-20`. -/
abbrev Build (C : Type) := (freq : Nat) → Option (Decoder C)

/-- `protocol/nec/decoder.rs:32-40`. -/
def necBuild (t : Target) (m : Mono) (v : NecVariant C) : Build C := fun freq =>
  (necSpans t m v freq).map fun spans => necDecoder t m spans v

/-- `protocol/rc5/decoder.rs:16-23`. -/
def rc5Build (t : Target) (m : Mono) : Build Rc5Command := fun freq =>
  (rc5Spans t m freq).map fun spans => rc5Decoder t spans

/-- `protocol/rc6/decoder.rs:25-34`. -/
def rc6Build (t : Target) (m : Mono) : Build Rc6Command := fun freq =>
  (rc6Spans t m freq).map fun spans => rc6Decoder t spans

/-- `protocol/sbp/mod.rs:46-54`. -/
def sbpBuild (t : Target) (m : Mono) : Build SbpCommand := fun freq =>
  (sbpSpans t m freq).map fun spans => sbpDecoder t m spans

/-- `protocol/denon/mod.rs:42-49`. -/
def denonBuild (t : Target) (m : Mono) : Build DenonCommand := fun freq =>
  (denonSpans t m freq).map fun spans => denonDecoder t m spans

/-- `BufferInputReceiver`, `receiver/bufferinput.rs:9-18`: its other fields are type parameters. -/
structure BufferInputReceiver where
  resolution : Nat
deriving Repr, DecidableEq

/-- `BufferInputReceiver::new` and `default`, `receiver/bufferinput.rs:20-29,37-44`. -/
def BufferInputReceiver.new : BufferInputReceiver := { resolution := 1000000 }

/-- `BufferInputReceiver::with_frequenzy`, `receiver/bufferinput.rs:46-53`. -/
def BufferInputReceiver.withFrequency (resolution : Nat) : BufferInputReceiver := { resolution }

/-- `self.iter(buf).collect()`, `receiver/bufferinput.rs:55-60` and `receiver/iter.rs:26-33`. -/
def BufferInputReceiver.collect (r : BufferInputReceiver) (build : Build C) (conv : C → K)
    (buf : List Nat) : Option (List K) :=
  (build r.resolution).bind fun D => bufferCollect D conv buf

/-- `self.iter_with(resolution, buf).collect()`, `receiver/bufferinput.rs:62-73`: protocol, clock and
resolution are those of the call. -/
def BufferInputReceiver.collectWith (_r : BufferInputReceiver) (resolution : Nat) (build : Build C)
    (conv : C → K) (buf : List Nat) : Option (List K) :=
  (build resolution).bind fun D => bufferCollect D conv buf

/-- `PulseIterator`, `sender/buffer.rs:46-49`. -/
structure PulseIterator where
  pulses : List Nat
  pos : Nat
deriving Repr, DecidableEq

/-- `IntoIterator for &PulsedataBuffer`, `sender/buffer.rs:34-44`; slicing `[0..offset]` panics if
`offset > S`. -/
def PulsedataBuffer.intoIter (p : PulsedataBuffer) : Option PulseIterator :=
  if p.offset ≤ p.buf.length then some { pulses := p.buf.take p.offset, pos := 0 } else none

/-- `PulseIterator::next`, `sender/buffer.rs:51-63`; indexing panics out of bounds. -/
def PulseIterator.next (it : PulseIterator) : Option (PulseIterator × Option Nat) :=
  if it.pos = it.pulses.length then some (it, none)
  else
    match it.pulses[it.pos]? with
    | none => none
    | some r => some ({ it with pos := it.pos + 1 }, some r)

/-- `PulsedataSender::buffer`, `sender/senders.rs:55-57`. -/
def PulsedataSender.contents (s : PulsedataSender) : Option (List Nat) := s.ptb.buffer

/-- `MultiReceiver::event_iter`, `receiver/multi.rs:55-61`. -/
def multiEventIterPin {PinErr : Type} (ss : List Slot) (pin : Except PinErr Bool) (dt : Nat) :
    Option (List Slot × Except PinErr (List AnyCommand)) :=
  match multiEventPin ss pin dt with
  | none => none
  | some (ss', .error e) => some (ss', .error e)
  | some (ss', .ok arr) => some (ss', .ok (arr.filterMap id))

end Infrared
