import Verif.Model.Decoder

/-!
# Philips RC5

Models `/repo/src/protocol/rc5/{mod,decoder,encoder}.rs`.
-/

namespace Infrared

/-- `Rc5Command`, `rc5/mod.rs:35-40`. -/
structure Rc5Command where
  addr : BitVec 8
  cmd : BitVec 8
  start : BitVec 8
  toggle : Bool
deriving Repr, DecidableEq

/-- `Rc5Command::new`, `rc5/mod.rs:43-50`. -/
def Rc5Command.new (addr cmd : BitVec 8) (toggle : Bool) : Rc5Command :=
  { addr, cmd, start := 0b11#8, toggle }

/-- `Rc5Command::unpack`, `rc5/mod.rs:52-64` with the masks of lines 17-24. -/
def Rc5Command.unpack (bits : BitVec 16) : Rc5Command :=
  let addr := ((bits &&& 0b0000011111000000#16) >>> 6).setWidth 8
  let cmd := (bits &&& 0b0000000000111111#16).setWidth 8
  let start := ((bits &&& 0b0011000000000000#16) >>> 12).setWidth 8
  let toggle := (bits &&& 0b0000100000000000#16) != 0#16
  { addr, cmd, start, toggle }

/-- `Rc5Command::pack`, `rc5/mod.rs:66-71`. -/
def Rc5Command.pack (c : Rc5Command) : BitVec 16 :=
  (c.addr.setWidth 16 <<< 6)
    ||| c.cmd.setWidth 16
    ||| ((if c.toggle then 1#16 else 0#16) <<< 11)
    ||| (c.start.setWidth 16 <<< 12)

/-! ### Decoder -/

/-- `PULSE`, `rc5/decoder.rs:9-10`. -/
def rc5Pulse : List Nat := [889, 2 * 889, 0, 0, 0, 0, 0, 0]

/-- `TOL`, `rc5/decoder.rs:11`. -/
def rc5Tol : List Nat := [12, 10, 0, 0, 0, 0, 0, 0]

/-- `Rc5State`, `rc5/decoder.rs:94-100`. -/
inductive Rc5State
  | idle | data (bit : Nat) | done | err (e : DecodingError)
deriving Repr, DecidableEq

/-- `impl From<Rc5State> for State`, `rc5/decoder.rs:102-111`. -/
def Rc5State.toState : Rc5State → State
  | .idle => .idle
  | .data _ => .receiving
  | .done => .done
  | .err e => .error e

/-- `Rc5Decoder`, `rc5/decoder.rs:85-90`. -/
structure Rc5Decoder where
  state : Rc5State
  bitbuf : BitVec 16
  clock : Nat
deriving Repr, DecidableEq

/-- `Rc5Decoder::reset`, `rc5/decoder.rs:74-78`. -/
def Rc5Decoder.reset (_d : Rc5Decoder) : Rc5Decoder :=
  { state := .idle, bitbuf := 0, clock := 0 }

/-- The clock update, `rc5/decoder.rs:33-37`: `self.clock += ticks + 1` or `self.reset()`. -/
def Rc5Decoder.tick (t : Target) (d : Rc5Decoder) (clockTicks : Option Nat) :
    Option Rc5Decoder :=
  match clockTicks with
  | some ticks => do
    let inc ← uadd t t.usizeBits ticks 1
    let clock ← uadd t t.usizeBits d.clock inc
    some { d with clock }
  | none => some d.reset

/-- The `match (self.state, rising, clock_ticks)`, `rc5/decoder.rs:39-65`.  Note that the
state matched on is the one *after* a possible `reset` (line 36).  `is_odd` is the code's
name for "clock is even" (line 39).  The arms are grouped by state:
lines 42-47 / 49-62 / 63 / 64; `Data(0)` arms are written as a test `bit = 0`. -/
def Rc5Decoder.transition (t : Target) (d : Rc5Decoder) (rising : Bool)
    (clockTicks : Option Nat) : Option Rc5Decoder :=
  let isOdd := d.clock % 2 = 0
  match d.state with
  | .idle =>
    if rising then do
      let b ← shl1 t 16 13
      some { state := .data 12, bitbuf := d.bitbuf ||| b, clock := 0 }
    else some { d with state := .idle }
  | .data bit =>
    match clockTicks with
    | some _ =>
      if isOdd then
        if bit = 0 then
          if rising then some { d with state := .done, bitbuf := d.bitbuf ||| 1#16 }
          else some { d with state := .done }
        else
          if rising then do
            let b ← shl1 t 16 bit
            some { d with state := .data (bit - 1), bitbuf := d.bitbuf ||| b }
          else some { d with state := .data (bit - 1) }
      else some { d with state := .data bit }
    | none => some { d with state := .err .data }
  | .done => some { d with state := .done }
  | .err e => some { d with state := .err e }

/-- `Rc5Decoder::event`, `rc5/decoder.rs:27-68`. -/
def Rc5Decoder.event (t : Target) (spans : PulseSpans) (d : Rc5Decoder) (rising : Bool)
    (dt : Nat) : Option (Rc5Decoder × State) := do
  let clockTicks := spans.get dt
  let d ← d.tick t clockTicks
  let d ← d.transition t rising clockTicks
  some (d, d.state.toState)

/-- `impl ProtocolDecoder<Rc5, Mono> for Rc5Decoder` with the initial state of `build`,
`rc5/decoder.rs:16-23,26-83`; `command` is lines 70-72. -/
def rc5Decoder (t : Target) (spans : PulseSpans) : Decoder Rc5Command where
  St := Rc5Decoder
  init := { state := .idle, bitbuf := 0, clock := 0 }
  event := Rc5Decoder.event t spans
  command d := some (Rc5Command.unpack d.bitbuf)
  reset := Rc5Decoder.reset

/-- The tolerance table made by `build(freq)`, `rc5/decoder.rs:21`. -/
def rc5Spans (t : Target) (m : Mono) (freq : Nat) : Option PulseSpans :=
  PulseSpans.new t m freq rc5Pulse rc5Tol

/-! ### Encoder -/

/-- `calc_freq`, `rc5/encoder.rs:4-13`, at compile time; `none` is an overflow, which no
`u32` frequency causes (C38_rc5). -/
def rc5CalcFreq (f : Nat) : Option Nat :=
  let f' := if f > 1000 then f / 1000 else f
  let div := if f > 1000 then 1000000 / 1000 else 1000000
  if 889 * f' < 2 ^ 32 then some (889 * f' / div) else none

/-- Loop state of `Rc5::encode`: slice contents, `index`, `prev`. -/
structure Rc5Enc where
  buf : List Nat
  index : Nat
  prev : Bool

/-- One iteration, `rc5/encoder.rs:31-42`. -/
def rc5EncodeBit (t : Target) (rc5len : Nat) (bits : BitVec 16) (s : Rc5Enc) (b : Nat) :
    Option Rc5Enc := do
  let cur := bits &&& ((1 : BitVec 16) <<< (12 - b)) != 0#16
  if s.prev = cur then
    let buf ← store s.buf s.index rc5len
    let buf ← store buf (s.index + 1) rc5len
    some { buf, index := s.index + 2, prev := cur }
  else
    let two ← umul t 32 rc5len 2
    let buf ← store s.buf s.index two
    some { buf, index := s.index + 1, prev := cur }

/-- `Rc5::encode`, `rc5/encoder.rs:19-46`; `rc5len` is `DATA[0]`. -/
def rc5Encode (t : Target) (rc5len : Nat) (cmd : Rc5Command) (buf : List Nat) :
    Option (List Nat × Nat) := do
  let bits := cmd.pack
  let buf ← store buf 0 0
  let s ← (List.range 13).foldlM (rc5EncodeBit t rc5len bits) { buf, index := 1, prev := true }
  some (s.buf, s.index)

end Infrared
