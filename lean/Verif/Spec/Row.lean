import Verif.Spec.Chain

/-!
# Programs in a row that pass on what they hear, from one protocol to another
-/

namespace Infrared.Spec

/-- The protocols that the programs hear and send: standard NEC, RC5 and RC6. -/
inductive Tongue
  | nec | rc5 | rc6

/-- Commands. -/
def Tongue.Cmd : Tongue → Type
  | .nec => NecCommand
  | .rc5 => Rc5Command
  | .rc6 => Rc6Command

/-- The commands that fit into a frame: all but some RC5 commands, whose fields are bytes. -/
def Tongue.Fits : (p : Tongue) → p.Cmd → Prop
  | .nec, _ => True
  | .rc5, c => Rc5Command.addr c < 32 ∧ Rc5Command.cmd c < 64 ∧ Rc5Command.start c < 4
  | .rc6, _ => True

/-- What is heard of a command that is sent: a NEC frame is not a repeat code, and the first start bit of RC5 is one. -/
def Tongue.heard : (p : Tongue) → p.Cmd → p.Cmd
  | .nec, c => ({ (c : NecCommand) with rep := false } : NecCommand)
  | .rc5, c => ({ (c : Rc5Command) with start := Rc5Command.start c ||| 2 } : Rc5Command)
  | .rc6, c => c

/-- The slots that a command needs in the buffer of the sender. -/
def Tongue.slots : Tongue → Nat
  | .nec => 67
  | .rc5 => 27
  | .rc6 => 44

/-- The encoder for a sender with `rate` ticks per second; `none` if it does not compile. -/
def Tongue.encoder (t : Target) (rate : Nat) : (p : Tongue) → Option (p.Cmd → Encode)
  | .nec => (necData Infrared.nec.pulseDistance rate).map fun data => necEncode Infrared.nec data
  | .rc5 => (rc5CalcFreq rate).map fun l => rc5Encode t l
  | .rc6 => (rc6Data rate).map fun l => rc6Encode l

/-- The decoder of a receiver with `rate` polls per second; `none` if making it panics. -/
def Tongue.decoder (t : Target) (rate : Nat) : (p : Tongue) → Option (Decoder p.Cmd)
  | .nec => (necSpans t Mono.u32 Infrared.nec rate).map fun tbl => necDecoder t Mono.u32 tbl Infrared.nec
  | .rc5 => (rc5Spans t Mono.u32 rate).map fun tbl => rc5Decoder t tbl
  | .rc6 => (rc6Spans t Mono.u32 rate).map fun tbl => rc6Decoder t tbl

/-- A program that hears `p` and sends `q`, and how it listens to the line before it, as `Hop`. -/
structure Bridge (p q : Tongue) where
  rate : Nat
  convert : p.Cmd → q.Cmd
  sender : Sender
  pause : Nat
  phase : Nat
  polls : Nat

/-- Programs in a row; each hears what the one before sends. -/
inductive Row : Tongue → Tongue → Type
  | done {p : Tongue} : Row p p
  | next {p q r : Tongue} : Bridge p q → Row q r → Row p r

/-- Number of programs. -/
def Row.count {p q : Tongue} : Row p q → Nat
  | .done => 0
  | .next _ r => r.count + 1

/-- The output of the last program; the first one listens to `levels`, a line with `fs` levels per second. -/
def Row.run (t : Target) {p q : Tongue} : Row p q → (fs : Nat) → (levels : List Bool) → Option (List Bool)
  | .done, _, levels => some levels
  | .next (p := p) (q := m) b r, fs, levels =>
    match Tongue.decoder t b.rate p, Tongue.encoder t b.rate m with
    | some D, some enc =>
      (relayRun D b.convert enc b.sender (overhear fs b.rate b.phase b.pause levels b.polls)).bind (r.run t b.rate)
    | _, _ => none

/-- What the programs make of one command that is heard by the first of them. -/
def Row.convert {p q : Tongue} : Row p q → p.Cmd → q.Cmd
  | .done, c => c
  | .next (q := m) b r, c => r.convert (m.heard (b.convert c))

/-- The rate of the last program, or of the line. -/
def Row.rate {p q : Tongue} : Row p q → Nat → Nat
  | .done, fs => fs
  | .next b r, _ => r.rate b.rate

/-- The number of polls of the last program, or the length of the line. -/
def Row.polls {p q : Tongue} : Row p q → Nat → Nat
  | .done, n => n
  | .next b r, _ => r.polls b.polls

/-- A sender that has played its buffer, which is empty and has at most `K` slots more than the protocol needs. -/
def Unused (p : Tongue) (K : Nat) (s : Sender) : Prop :=
  Silent s ∧ ∃ k ≤ K, s.buffer.ptb.buf = List.replicate (p.slots + k) 0

/-- Each program is at least as fast as the one before, listens to it, has an unused sender, and makes commands that fit. -/
def Row.Ready (K : Nat) {p q : Tongue} : Row p q → (fs n : Nat) → Prop
  | .done, _, _ => True
  | .next (p := p) (q := m) b r, fs, n => b.rate ≤ 9673349 ∧ Listens fs n b.rate b.pause b.phase b.polls ∧
    Unused m K b.sender ∧ (∀ c, p.Fits c → m.Fits (b.convert c)) ∧ r.Ready K b.rate b.polls

end Infrared.Spec
