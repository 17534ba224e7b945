import Verif.Spec.Streams
import Verif.Spec.Words
import Verif.Spec.Drivers
import Verif.Props.Rc6

/-!
# A room full of remote controls

Remote controls of different makes send one message after the other, and one `MultiReceiver` with
any selection of protocols listens.  What is on the air is described by messages and tolerance
windows; what is supposed to be heard is written out bit by bit.
-/

namespace Infrared

namespace Spec

/-- What a remote control can send. -/
inductive Msg
  | nec (w : BitVec 32)
  | necRepeat
  | samsung (w : BitVec 32)
  | sbp (a : BitVec 16) (c : BitVec 20)
  | denon (w : BitVec 48)
  | rc5 (w : BitVec 14)
  | rc6 (addr cmd : BitVec 8) (toggle : Bool)

/-- Up to 0.7 ms or from 3.1 ms: the marks of pulse-distance transmissions. -/
def PlainMark (f d : Nat) : Prop := 1000000 * d ≤ 700 * f ∨ 3100 * f ≤ 1000000 * d

/-- A pulse-distance transmission: a rising edge, pulses, and the end of the stop mark. -/
def PulseBurst (f : Nat) (frame : List (Nat × Nat) → Prop) (evs : List Ev) : Prop :=
  ∃ pause ps stop, evs = (true, pause) :: (pulses ps ++ [(false, stop)]) ∧ frame ps ∧
    (∀ p ∈ ps, PlainMark f p.1) ∧ PlainMark f stop

/-- A Manchester transmission and, where the line ends high, the edge that ends it. -/
def ManchesterBurst (fits : Nat → Nat → Prop) (edges : List (Bool × Nat)) (evs : List Ev) : Prop :=
  ∃ body tail, evs = withTail body tail ∧ ManchesterFrame fits edges body

/-- The events carry the message: within the tolerances of a receiver of `f` Hz. -/
def Carries (f : Nat) : Msg → List Ev → Prop
  | .nec w, evs => PulseBurst f (NecFrame (necTable f) w) evs
  | .necRepeat, evs => PulseBurst f (fun ps => ∃ p, ps = [p] ∧ InTol (necTable f) 1 (p.1 + p.2)) evs
  | .samsung w, evs => PulseBurst f (NecFrame (samsungTable f) w) evs
  | .sbp a c, evs => PulseBurst f (Matches (sbpTable f) (sbpSlots a c)) evs
  | .denon w, evs => PulseBurst f (Matches (denonTable f) (denonSlots w)) evs
  | .rc5 w, evs => w.getLsbD 13 = true ∧ ManchesterBurst (Within (rc5Table f)) (rc5Edges w) evs
  | .rc6 addr cmd toggle, evs =>
    ManchesterBurst (WithinRc6 (rc6Table f)) (rc6Edges (addr ++ cmd) toggle) evs

/-- At least 15 ms of silence before the first edge, and every duration between one tick and half the
range of a 32 bit clock. -/
def Spaced (f : Nat) (evs : List Ev) : Prop :=
  (∃ pause rest, evs = (true, pause) :: rest ∧ 15000 * f ≤ 1000000 * pause) ∧
    ∀ e ∈ evs, 0 < e.2 ∧ e.2 < 2 ^ 31

/-- The protocols whose commands convert to `AnyCommand`. -/
inductive Listener
  | nec | apple | samsung | sbp | denon | rc5 | rc6
deriving DecidableEq

instance (w : BitVec 32) : Decidable (HasAppleVendor w) :=
  inferInstanceAs (Decidable (∀ i < 11, w.getLsbD (5 + i) = (0x43F#11).getLsbD i))

/-- Address and command bytes of a NEC word. -/
def asNec (id : ProtocolId) (w : BitVec 32) (rep : Bool) : AnyCommand :=
  { protocol := id, raw := 0, address := (w.extractLsb' 0 8).toNat,
    command := (w.extractLsb' 16 8).toNat, rep }

/-- An Apple word: command bits 17..23, and the lowest page bit above them. -/
def asApple (w : BitVec 32) (rep : Bool) : Option AnyCommand :=
  if HasAppleVendor w ∧ parity w 32 = true then
    some { protocol := .necApple, raw := 0, address := 0,
           command := (w.extractLsb' 17 7).toNat + 128 * (w.getLsbD 0).toNat, rep }
  else none

/-- What a listener of the given kind is to make of a message; `last` is the word of the NEC frame
before it. -/
def hears (last : BitVec 32) : Listener → Msg → Option AnyCommand
  | .nec, .nec w => some (asNec .nec w false)
  | .nec, .necRepeat => some (asNec .nec last true)
  | .apple, .nec w => asApple w false
  | .apple, .necRepeat => asApple last true
  | .samsung, .samsung w => some (asNec .necSamsung w false)
  | .sbp, .sbp a c =>
    some { protocol := .sbp, raw := 0, address := a.toNat, command := (c.extractLsb' 4 8).toNat,
           rep := false }
  | .denon, .denon w =>
    some { protocol := .denon, raw := w.toNat % 2 ^ 47, address := 0, command := 0, rep := false }
  | .rc5, .rc5 w =>
    some { protocol := .rc5, raw := 0, address := (w.extractLsb' 6 5).toNat,
           command := (w.extractLsb' 0 6).toNat, rep := w.getLsbD 11 }
  | .rc6, .rc6 addr cmd toggle =>
    some { protocol := .rc6, raw := 0, address := addr.toNat, command := cmd.toNat, rep := toggle }
  | _, _ => none

/-- The word of the most recent NEC frame. -/
def Msg.last (last : BitVec 32) : Msg → BitVec 32
  | .nec w => w
  | _ => last

/-- What the listeners, in their order, are to hear of the messages. -/
def heard (ks : List Listener) : (last : BitVec 32) → List Msg → List AnyCommand
  | _, [] => []
  | last, msg :: msgs => ks.filterMap (hears last · msg) ++ heard ks (msg.last last) msgs

/-- A Denon listener keeps bits it picks up from an SBP transmission (see `C60_refuted_denon`). -/
def Compatible (ks : List Listener) (msgs : List Msg) : Prop :=
  Listener.denon ∈ ks → ∀ a c, Msg.sbp a c ∉ msgs

end Spec

open Spec

/-- The component `Receiver<P, NoPin, Mono>` for a protocol and resolution `f`,
`ReceiverWrapper::make`, `receiver/multi.rs:162-164`. -/
def Listener.component (t : Target) (m : Mono) (f : Nat) : Listener → Option Component
  | .nec => (necSpans t m Infrared.nec f).map fun s =>
    ⟨NecCommand, necDecoder t m s Infrared.nec, AnyCommand.from necAC⟩
  | .apple => (necSpans t m appleNec f).map fun s =>
    ⟨AppleNecCommand, necDecoder t m s appleNec, AnyCommand.from appleAC⟩
  | .samsung => (necSpans t m samsungNec f).map fun s =>
    ⟨SamsungNecCommand, necDecoder t m s samsungNec, AnyCommand.from samsungAC⟩
  | .sbp => (sbpSpans t m f).map fun s => ⟨SbpCommand, sbpDecoder t m s, AnyCommand.from sbpAC⟩
  | .denon => (denonSpans t m f).map fun s =>
    ⟨DenonCommand, denonDecoder t m s, AnyCommand.fromDenon⟩
  | .rc5 => (rc5Spans t m f).map fun s => ⟨Rc5Command, rc5Decoder t s, AnyCommand.from rc5AC⟩
  | .rc6 => (rc6Spans t m f).map fun s => ⟨Rc6Command, rc6Decoder t s, AnyCommand.from rc6AC⟩

/-- `MultiReceiver::new(res, input)`, `receiver/multi.rs:23-28`. -/
def multiNew (t : Target) (m : Mono) (f : Nat) (ks : List Listener) : Option (List Slot) :=
  (ks.mapM (Listener.component t m f)).map multiMake

/-- `event_generic_iter` for every event of a history; all commands in the order they come out. -/
def multiIterRun : List Slot → List Ev → Option (List AnyCommand)
  | _, [] => some []
  | ss, e :: es =>
    match multiEventIter ss e.2 e.1 with
    | none => none
    | some (ss', cmds) => (multiIterRun ss' es).map (cmds ++ ·)

end Infrared
