import Verif.Model.Decoder

/-!
# Philips RC6

Models `/repo/src/protocol/rc6/{cmd,decoder,encoder}.rs`.
-/

namespace Infrared

/-- `Rc6Command`, `rc6/cmd.rs:10-14`. -/
structure Rc6Command where
  addr : BitVec 8
  cmd : BitVec 8
  toggle : Bool
deriving Repr, DecidableEq

/-- `Rc6Command::new`, `rc6/cmd.rs:17-23`. -/
def Rc6Command.new (addr cmd : BitVec 8) : Rc6Command := { addr, cmd, toggle := false }

/-- `Rc6Command::from_bits`, `rc6/cmd.rs:25-29`. -/
def Rc6Command.fromBits (bits : BitVec 16) (toggle : Bool) : Rc6Command :=
  let addr := (bits >>> 8).setWidth 8
  let cmd := (bits &&& 0xFF#16).setWidth 8
  { addr, cmd, toggle }

/-! ### Decoder -/

/-- `PULSE`, `rc6/decoder.rs:9-19`. -/
def rc6Pulse : List Nat :=
  [444, 444 * 2, 444 * 3, 444 * 4, 444 * 5, 444 * 6, 0, 0]

/-- `TOL`, `rc6/decoder.rs:20`. -/
def rc6Tol : List Nat := [12, 12, 12, 12, 12, 12, 12, 12]

/-- `Rc6State`, `rc6/decoder.rs:122-131`. -/
inductive Rc6State
  | idle | leading | leadingPaus | headerData (n : Nat) | trailing | data (n : Nat) | done
  | rc6Err (e : DecodingError)
deriving Repr, DecidableEq

/-- `impl From<Rc6State> for State`, `rc6/decoder.rs:133-142`. -/
def Rc6State.toState : Rc6State → State
  | .idle => .idle
  | .done => .done
  | .rc6Err e => .error e
  | .leading => .receiving
  | .leadingPaus => .receiving
  | .headerData _ => .receiving
  | .trailing => .receiving
  | .data _ => .receiving

/-- `Rc6Decoder`, `rc6/decoder.rs:111-118`. -/
structure Rc6Decoder where
  state : Rc6State
  data : BitVec 16
  headerdata : BitVec 16
  toggle : Bool
  clock : Nat
deriving Repr, DecidableEq

/-- `Rc6Decoder::reset`, `rc6/decoder.rs:99-104` (`toggle` is kept). -/
def Rc6Decoder.reset (d : Rc6Decoder) : Rc6Decoder :=
  { d with state := .idle, data := 0, headerdata := 0, clock := 0 }

/-- The clock update, `rc6/decoder.rs:46-50`; `ticks` already includes the `+ 1` of
line 43. -/
def Rc6Decoder.tick (t : Target) (d : Rc6Decoder) (ticks : Option Nat) : Option Rc6Decoder :=
  match ticks with
  | some n => do
    let clock ← uadd t t.usizeBits d.clock n
    some { d with clock }
  | none => some d.reset

/-- The `match (self.state, rising, ticks)`, `rc6/decoder.rs:52-89`, on the state after a
possible `reset`.  Arms are grouped by state, in order; literal patterns are tests. -/
def Rc6Decoder.transition (t : Target) (d : Rc6Decoder) (rising : Bool) (ticks : Option Nat) :
    Option Rc6Decoder :=
  let odd := d.clock % 2 = 1
  match d.state with
  | .idle =>                                             -- lines 55-56
    if rising then some { d with clock := 0, state := .leading }
    else some { d with state := .idle }
  | .leading =>                                          -- lines 57-58
    if rising = false ∧ ticks = some 6 then some { d with state := .leadingPaus }
    else some { d with state := .idle }
  | .leadingPaus =>                                      -- lines 59-60
    if rising = true ∧ ticks = some 2 then some { d with state := .headerData 3 }
    else some { d with state := .idle }
  | .headerData n =>                                     -- lines 62-72
    match ticks with
    | some _ =>
      if odd then do
        let one ← shl1 t 16 n
        let headerdata := d.headerdata ||| (if rising then 0#16 else one)
        if n = 0 then some { d with headerdata, state := .trailing }
        else some { d with headerdata, state := .headerData (n - 1) }
      else some { d with state := .headerData n }
    | none => some { d with state := .idle }
  | .trailing =>                                         -- lines 74-77
    if rising = false ∧ ticks = some 3 then some { d with toggle := true, state := .data 15 }
    else if rising = true ∧ ticks = some 2 then some { d with toggle := false, state := .data 15 }
    else if rising = false ∧ ticks = some 1 then some { d with state := .trailing }
    else some { d with state := .idle }
  | .data n =>                                           -- lines 79-85
    match ticks with
    | some _ =>
      if odd then
        if n = 0 then
          if rising then some { d with state := .done }
          else some { d with data := d.data ||| 1#16, state := .done }
        else
          if rising then some { d with state := .data (n - 1) }
          else do
            let b ← shl1 t 16 n
            some { d with data := d.data ||| b, state := .data (n - 1) }
      else some { d with state := .data n }
    | none => some { d with state := .rc6Err .data }
  | .done => some { d with state := .done }              -- line 87
  | .rc6Err e => some { d with state := .rc6Err e }      -- line 88

/-- `Rc6Decoder::event`, `rc6/decoder.rs:39-93`. -/
def Rc6Decoder.event (t : Target) (spans : PulseSpans) (d : Rc6Decoder) (rising : Bool)
    (dt : Nat) : Option (Rc6Decoder × State) := do
  let ticks ← match spans.get dt with
    | some v => (uadd t t.usizeBits v 1).map some
    | none => some none
  let d ← d.tick t ticks
  let d ← d.transition t rising ticks
  some (d, d.state.toState)

/-- `impl ProtocolDecoder<Rc6, Mono> for Rc6Decoder` with the initial state of `build`,
`rc6/decoder.rs:25-34,37-109`; `command` is lines 95-97. -/
def rc6Decoder (t : Target) (spans : PulseSpans) : Decoder Rc6Command where
  St := Rc6Decoder
  init := { state := .idle, data := 0, headerdata := 0, toggle := false, clock := 0 }
  event := Rc6Decoder.event t spans
  command d := some (Rc6Command.fromBits d.data d.toggle)
  reset := Rc6Decoder.reset

/-- The tolerance table made by `build(freq)`, `rc6/decoder.rs:32`. -/
def rc6Spans (t : Target) (m : Mono) (freq : Nat) : Option PulseSpans :=
  PulseSpans.new t m freq rc6Pulse rc6Tol

/-! ### Encoder -/

/-- `DATA[0]`, `rc6/encoder.rs:5`: `(444 * F) / 1_000_000` at compile time
(`none`: does not compile; constant expressions are always checked for overflow). -/
def rc6Data (F : Nat) : Option Nat :=
  if 444 * F < 2 ^ 32 then some (444 * F / 1000000) else none

/-- `Level`, `rc6/encoder.rs:49-53`. -/
inductive Level
  | high (n : Nat) | low (n : Nat)
deriving Repr, DecidableEq

/-- `leader`, `rc6/encoder.rs:56-84`.  (The `u32` products cannot overflow: `rc6Data` is
at most 4294.) -/
def rc6Leader (toggle : Bool) (rc6len : Nat) : List Level :=
  [ .high (6 * rc6len), .low (2 * rc6len),
    .high rc6len, .low rc6len,
    .low rc6len, .high rc6len, .low rc6len, .high rc6len, .low rc6len, .high rc6len,
    if toggle then .high (2 * rc6len) else .low (2 * rc6len),
    if toggle then .low (2 * rc6len) else .high (2 * rc6len) ]

/-- `payload`, `rc6/encoder.rs:86-108`: the loop over `b = 0..16` fills the array front to
back, two levels per bit, so it is written as a `flatMap`. -/
def rc6Payload (bits : BitVec 16) (rc6len : Nat) : List Level :=
  (List.range 16).flatMap fun b =>
    if bits &&& ((1 : BitVec 16) <<< (15 - b)) != 0#16 then [.high rc6len, .low rc6len]
    else [.low rc6len, .high rc6len]

/-- Loop state of `Rc6::encode`: slice contents, `index`, `prevlev`. -/
structure Rc6Enc where
  buf : List Nat
  index : Nat
  prevlev : Level

/-- One iteration, `rc6/encoder.rs:24-43`.  (Level sums stay far below `2^32`.) -/
def rc6EncodeLevel (s : Rc6Enc) (level : Level) : Option Rc6Enc :=
  match s.prevlev, level with
  | .low lt, .low nlt => some { s with prevlev := .low (lt + nlt) }
  | .low lt, .high ht => do
    let buf ← store s.buf s.index lt
    some { buf, index := s.index + 1, prevlev := .high ht }
  | .high ht, .low lt => do
    let buf ← store s.buf s.index ht
    some { buf, index := s.index + 1, prevlev := .low lt }
  | .high ht, .high nht => some { s with prevlev := .high (ht + nht) }

/-- `Rc6::encode`, `rc6/encoder.rs:7-46`; `rc6len` is `DATA[0]`. -/
def rc6Encode (rc6len : Nat) (cmd : Rc6Command) (b : List Nat) : Option (List Nat × Nat) := do
  let header := rc6Leader cmd.toggle rc6len
  let bits := (cmd.addr.setWidth 16 <<< 8) ||| cmd.cmd.setWidth 16
  let payload := rc6Payload bits rc6len
  let all := header ++ payload ++ [.low (6 * rc6len)]
  let s ← all.foldlM rc6EncodeLevel { buf := b, index := 0, prevlev := .low 0 }
  some (s.buf, s.index)

end Infrared
