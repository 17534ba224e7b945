import Verif.Model.Decoder

/-!
# Samsung Blu-ray player protocol

Models `/repo/src/protocol/sbp/mod.rs`.
-/

namespace Infrared

/-- `SbpCommand`, `sbp/mod.rs:68-72`. -/
structure SbpCommand where
  address : BitVec 16
  command : BitVec 8
  valid : Bool
deriving Repr, DecidableEq

/-- `SbpCommand::unpack`, `sbp/mod.rs:75-87`. -/
def SbpCommand.unpack (address : BitVec 16) (command : BitVec 32) : SbpCommand :=
  let command := command >>> 4
  let valid := ((command ^^^ (command >>> 8)) &&& 0xFF#32) == 0xFF#32
  { address, command := command.setWidth 8, valid }

/-- `PULSE`, `sbp/mod.rs:31-40`. -/
def sbpPulse : List Nat := [4500 + 4500, 500 + 4500, 500 + 500, 500 + 1500, 0, 0, 0, 0]

/-- `TOL`, `sbp/mod.rs:41`. -/
def sbpTol : List Nat := [5, 5, 10, 10, 0, 0, 0, 0]

/-- `SbpPulse`, `sbp/mod.rs:228-234`. -/
inductive SbpPulse
  | sync | paus | zero | one | notAPulseWidth
deriving Repr, DecidableEq

/-- `impl From<usize> for SbpPulse`, `sbp/mod.rs:236-246`. -/
def SbpPulse.ofIdx : Nat → SbpPulse
  | 0 => .sync
  | 1 => .paus
  | 2 => .zero
  | 3 => .one
  | _ => .notAPulseWidth

/-- `self.spans.get::<SbpPulse>(dt).unwrap_or(NotAPulseWidth)`, `sbp/mod.rs:142`. -/
def SbpPulse.classify (spans : PulseSpans) (total : Nat) : SbpPulse :=
  match spans.get total with
  | some i => SbpPulse.ofIdx i
  | none => .notAPulseWidth

/-- `SbpState`, `sbp/mod.rs:119-132`. -/
inductive SbpState
  | init | address (bit : Nat) | divider | command (bit : Nat) | done | err (e : DecodingError)
deriving Repr, DecidableEq

/-- `impl From<SbpState> for State`, `sbp/mod.rs:188-198`. -/
def SbpState.toState : SbpState → State
  | .init => .idle
  | .done => .done
  | .err e => .error e
  | .address _ => .receiving
  | .divider => .receiving
  | .command _ => .receiving

/-- `SbpDecoder`, `sbp/mod.rs:58-64`. -/
structure SbpDecoder where
  state : SbpState
  address : BitVec 16
  command : BitVec 32
  sinceRising : Nat
deriving Repr, DecidableEq

/-- The `match (self.state, pulsewidth)`, `sbp/mod.rs:144-165`; the literal arms
`Address(15)` and `Command(19)` are written as tests. -/
def SbpDecoder.transition (t : Target) (d : SbpDecoder) (pw : SbpPulse) : Option SbpDecoder :=
  match d.state, pw with
  | .init, .sync => some { d with state := .address 0 }
  | .init, _ => some { d with state := .init }
  | .address bit, .one =>
    if bit = 15 then do
      let b ← shl1 t 16 15
      some { d with address := d.address ||| b, state := .divider }
    else do
      let b ← shl1 t 16 bit
      some { d with address := d.address ||| b, state := .address (bit + 1) }
  | .address bit, .zero =>
    if bit = 15 then some { d with state := .divider }
    else some { d with state := .address (bit + 1) }
  | .address _, _ => some { d with state := .err .address }
  | .divider, .paus => some { d with state := .command 0 }
  | .divider, _ => some { d with state := .err .data }
  | .command bit, .one =>
    if bit = 19 then do
      let b ← shl1 t 32 19
      some { d with command := d.command ||| b, state := .done }
    else do
      let b ← shl1 t 32 bit
      some { d with command := d.command ||| b, state := .command (bit + 1) }
  | .command bit, .zero =>
    if bit = 19 then some { d with state := .done }
    else some { d with state := .command (bit + 1) }
  | .command _, _ => some { d with state := .err .data }
  | .done, _ => some { d with state := .done }
  | .err e, _ => some { d with state := .err e }

/-- `SbpDecoder::event`, `sbp/mod.rs:136-171`.  `since_rising` is *not* cleared by a rising
edge. -/
def SbpDecoder.event (t : Target) (m : Mono) (spans : PulseSpans) (d : SbpDecoder)
    (rising : Bool) (dt : Nat) : Option (SbpDecoder × State) :=
  if rising then do
    let total ← m.add t d.sinceRising dt
    let d ← d.transition t (SbpPulse.classify spans total)
    some (d, d.state.toState)
  else
    some ({ d with sinceRising := dt }, d.state.toState)

/-- `SbpDecoder::reset`, `sbp/mod.rs:176-181`. -/
def SbpDecoder.reset (_d : SbpDecoder) : SbpDecoder :=
  { state := .init, address := 0, command := 0, sinceRising := 0 }

/-- `impl ProtocolDecoder<Sbp, Mono> for SbpDecoder` with the initial state of `build`,
`sbp/mod.rs:46-54,134-186`; `command` is lines 172-174. -/
def sbpDecoder (t : Target) (m : Mono) (spans : PulseSpans) : Decoder SbpCommand where
  St := SbpDecoder
  init := { state := .init, address := 0, command := 0, sinceRising := 0 }
  event := SbpDecoder.event t m spans
  command d := some (SbpCommand.unpack d.address d.command)
  reset := SbpDecoder.reset

/-- The tolerance table made by `build(freq)`, `sbp/mod.rs:52`. -/
def sbpSpans (t : Target) (m : Mono) (freq : Nat) : Option PulseSpans :=
  PulseSpans.new t m freq sbpPulse sbpTol

end Infrared
