import Verif.Model.Decoder
import Verif.Model.Cmd

/-!
# Receivers

Models `/repo/src/receiver.rs`, `/repo/src/receiver/{ppoll,iter,bufferinput,multi}.rs`.
All are generic in the decoder, as in the code; `conv : C → K` is the `Into::into` from the
protocol's command type to the receiver's output type.
-/

namespace Infrared

variable {C K : Type}

/-- `cmd.map(Into::into)` inside a result. -/
def Res.map (conv : C → K) : Res C → Res K
  | .ok c => .ok (c.map conv)
  | .error e => .error e

/-! ### `Receiver` -/

/-- `Receiver`, `receiver.rs:138-151`, without the pin. -/
structure Receiver (D : Decoder C) where
  decoder : D.St
  prevInstant : Nat

/-- `Receiver::new` / `with_input`, `receiver.rs:159-168,177-186` (the decoder, including its
tolerance table, is the one `Proto::build(freq)` made).  `with_pin`, `with_fugit` and
`with_fugit64` (`receiver.rs:220-222,233-235,246-248`) are `with_input`. -/
def Receiver.new (D : Decoder C) : Receiver D := { decoder := D.init, prevInstant := 0 }

/-- `Receiver::event_edge`, `receiver.rs:188-208`. -/
def Receiver.eventEdge (D : Decoder C) (conv : C → K) (r : Receiver D) (dt : Nat) (edge : Bool) :
    Option (Receiver D × Res K) := do
  let (d, state) ← D.event r.decoder edge dt
  match state with
  | .done => some ({ r with decoder := D.reset d }, .ok ((D.command d).map conv))
  | .error err => some ({ r with decoder := D.reset d }, .error err)
  | .idle => some ({ r with decoder := d }, .ok none)
  | .receiving => some ({ r with decoder := d }, .ok none)

/-- `Receiver::<NoPin>::event`, `receiver.rs:257-259`. -/
def Receiver.event (D : Decoder C) (conv : C → K) (r : Receiver D) (dt : Nat) (edge : Bool) :
    Option (Receiver D × Res K) :=
  r.eventEdge D conv dt edge

/-- `Receiver::<NoPin>::event_instant`, `receiver.rs:261-270`. -/
def Receiver.eventInstant (m : Mono) (D : Decoder C) (conv : C → K) (r : Receiver D) (t : Nat)
    (edge : Bool) : Option (Receiver D × Res K) :=
  let dt := (m.checkedSub t r.prevInstant).getD 0
  { r with prevInstant := t }.eventEdge D conv dt edge

/-- `Result<Option<Cmd>, Error<Pin::Error>>`. -/
abbrev PinRes (PinErr K : Type) := Except (Error PinErr) (Option K)

/-- The `?` conversion `DecodingError → Error<PinErr>` on a result, `receiver.rs:283,292`. -/
def PinRes.ofRes {PinErr : Type} : Res K → PinRes PinErr K
  | .ok c => .ok c
  | .error e => .error (Error.ofDecoding e)

/-- `Receiver::<Pin>::event`, `receiver.rs:281-284`; `pin` is the result of
`self.pin.is_low()`. -/
def Receiver.eventPin {PinErr : Type} (D : Decoder C) (conv : C → K) (r : Receiver D)
    (pin : Except PinErr Bool) (dt : Nat) : Option (Receiver D × PinRes PinErr K) :=
  match pin with
  | .error e => some (r, .error (.hal e))
  | .ok edge => do
    let (r', res) ← r.eventEdge D conv dt edge
    some (r', PinRes.ofRes res)

/-- `Receiver::<Pin>::event_instant`, `receiver.rs:286-293`. -/
def Receiver.eventInstantPin {PinErr : Type} (m : Mono) (D : Decoder C) (conv : C → K)
    (r : Receiver D) (pin : Except PinErr Bool) (t : Nat) :
    Option (Receiver D × PinRes PinErr K) :=
  match pin with
  | .error e => some (r, .error (.hal e))
  | .ok edge => do
    let dt := (m.checkedSub t r.prevInstant).getD 0
    let (r', res) ← { r with prevInstant := t }.eventEdge D conv dt edge
    some (r', PinRes.ofRes res)

/-! ### `PeriodicPoll` -/

/-- `PeriodicPoll`, `receiver/ppoll.rs:12-29`, without the pin. -/
structure PeriodicPoll (D : Decoder C) where
  clock : Nat
  edge : Bool
  lastEdge : Nat
  decoder : D.St

/-- `PeriodicPoll::with_input`, `receiver/ppoll.rs:36-45`; `new` and `with_pin`
(`receiver/ppoll.rs:69-71,85-87`) are `with_input`. -/
def PeriodicPoll.new (D : Decoder C) : PeriodicPoll D :=
  { decoder := D.init, clock := 0, edge := false, lastEdge := 0 }

/-- `PeriodicPoll::poll_base` (= `PeriodicPoll::<NoPin>::poll`),
`receiver/ppoll.rs:47-61,73-75`. -/
def PeriodicPoll.pollBase (D : Decoder C) (conv : C → K) (p : PeriodicPoll D) (edge : Bool) :
    Option (PeriodicPoll D × Res K) :=
  let clock := wrappingAdd 32 p.clock 1
  if edge = p.edge then some ({ p with clock }, .ok none)
  else do
    let ds := wrappingSub 32 clock p.lastEdge
    let (d, res) ← D.eventTotal p.decoder edge ds
    some ({ clock, edge, lastEdge := clock, decoder := d }, Res.map conv res)

/-- `PeriodicPoll::<Pin>::poll`, `receiver/ppoll.rs:89-93`. -/
def PeriodicPoll.pollPin {PinErr : Type} (D : Decoder C) (conv : C → K) (p : PeriodicPoll D)
    (pin : Except PinErr Bool) : Option (PeriodicPoll D × PinRes PinErr K) :=
  match pin with
  | .error e => some (p, .error (.hal e))
  | .ok edge => do
    let (p', res) ← p.pollBase D conv edge
    some (p', PinRes.ofRes res)

/-! ### `BufferInputReceiver` / `BufferIterator` -/

/-- `BufferIterator`, `receiver/iter.rs:8-18`. -/
structure BufferIterator (D : Decoder C) where
  pos : Nat
  buf : List Nat
  decoder : D.St

/-- `BufferIterator::new` (`receiver/iter.rs:26-33`), which is what
`BufferInputReceiver::iter` and `iter_with` return (`receiver/bufferinput.rs:55-73`). -/
def BufferIterator.new (D : Decoder C) (buf : List Nat) : BufferIterator D :=
  { pos := 0, buf, decoder := D.init }

/-- `BufferIterator::next`, `receiver/iter.rs:44-71`.  `self.pos == self.buf.len()` is
written `¬ pos < len`; the index is in bounds on the other branch. -/
def BufferIterator.next (D : Decoder C) (conv : C → K) (it : BufferIterator D) :
    Option (BufferIterator D × Option K) :=
  if h : it.pos < it.buf.length then
    let posEdge : Bool := it.pos % 2 = 0
    let dt := it.buf[it.pos]
    match D.event it.decoder posEdge dt with
    | none => none
    | some (d, state) =>
      match state with
      | .idle =>
        BufferIterator.next D conv { pos := it.pos + 1, buf := it.buf, decoder := d }
      | .receiving =>
        BufferIterator.next D conv { pos := it.pos + 1, buf := it.buf, decoder := d }
      | .done =>
        some ({ pos := it.pos + 1, buf := it.buf, decoder := D.reset d }, (D.command d).map conv)
      | .error _ =>
        some ({ pos := it.pos + 1, buf := it.buf, decoder := D.reset d }, none)
  else some (it, none)
termination_by it.buf.length - it.pos

/-- `collect()` / a `for` loop: call `next` until it returns `None` (Rust's `Iterator`
contract).  `fuel` bounds the number of items; `buf.length` is enough because every item
consumes at least one entry (proved in `Lemmas.Iter`). -/
def BufferIterator.collectFuel (D : Decoder C) (conv : C → K) :
    Nat → BufferIterator D → Option (List K)
  | 0, _ => some []
  | fuel + 1, it =>
    match it.next D conv with
    | none => none
    | some (_, none) => some []
    | some (it', some k) => (BufferIterator.collectFuel D conv fuel it').map (k :: ·)

/-- `BufferInputReceiver::iter(buf).collect()`. -/
def bufferCollect (D : Decoder C) (conv : C → K) (buf : List Nat) : Option (List K) :=
  BufferIterator.collectFuel D conv (buf.length + 1) (BufferIterator.new D buf)

/-! ### `MultiReceiver` -/

/-- One component `Receiver<P, NoPin, Mono>` of a `MultiReceiver` with
`P::Cmd: Into<AnyCommand>`, `receiver/multi.rs:153-172` (and the same for 3..6). -/
structure Component where
  C : Type
  D : Decoder C
  into : C → AnyCommand

/-- The state of a component. -/
structure Slot where
  comp : Component
  recv : Receiver comp.D

/-- `ReceiverWrapper::make`, `receiver/multi.rs:162-164,189-191,…`. -/
def multiMake (cs : List Component) : List Slot :=
  cs.map fun c => { comp := c, recv := Receiver.new c.D }

/-- `rs.i.event(dt, edge).unwrap_or_default().map(Into::into)`, `receiver/multi.rs:168`. -/
def Slot.event (s : Slot) (dt : Nat) (edge : Bool) : Option (Slot × Option AnyCommand) :=
  match s.recv.event s.comp.D id dt edge with
  | none => none
  | some (r, .ok c) => some ({ comp := s.comp, recv := r }, c.map s.comp.into)
  | some (r, .error _) => some ({ comp := s.comp, recv := r }, none)

/-- `ReceiverWrapper::event` = `MultiReceiver::event_generic`, `receiver/multi.rs:30-32,166-171`
etc.: the components in order.  The code has the cases N = 2..6; the model any N. -/
def multiEvent (ss : List Slot) (dt : Nat) (edge : Bool) :
    Option (List (Slot × Option AnyCommand)) :=
  ss.mapM fun s => s.event dt edge

/-- `MultiReceiver::event_generic_iter`, `receiver/multi.rs:34-41`: `arr.into_iter().flatten()`. -/
def multiEventIter (ss : List Slot) (dt : Nat) (edge : Bool) :
    Option (List Slot × List AnyCommand) := do
  let rs ← multiEvent ss dt edge
  some (rs.map Prod.fst, rs.filterMap Prod.snd)

/-- `MultiReceiver::event`, `receiver/multi.rs:50-53`. -/
def multiEventPin {PinErr : Type} (ss : List Slot) (pin : Except PinErr Bool) (dt : Nat) :
    Option (List Slot × Except PinErr (List (Option AnyCommand))) :=
  match pin with
  | .error e => some (ss, .error e)
  | .ok edge => do
    let rs ← multiEvent ss dt edge
    some (rs.map Prod.fst, .ok (rs.map Prod.snd))

end Infrared
