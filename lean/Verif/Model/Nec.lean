import Verif.Model.Decoder

/-!
# NEC family

Models `/repo/src/protocol/nec/{mod,standard,samsung,nec16,apple,raw,decoder,encoder}.rs`.
-/

namespace Infrared

/-- `NecPulseLen`, `nec/mod.rs:80-93`. -/
structure NecPulseLen where
  headerHigh : Nat
  headerLow : Nat
  repeatLow : Nat
  dataHigh : Nat
  dataZeroLow : Nat
  dataOneLow : Nat
deriving Repr, DecidableEq

/-- `NEC_STANDARD_TIMING`, `nec/mod.rs:60-67`. -/
def necStandardTiming : NecPulseLen where
  headerHigh := 9000
  headerLow := 4500
  repeatLow := 2250
  dataHigh := 560
  dataZeroLow := 560
  dataOneLow := 1690

/-- `NEC_SAMSUNG_TIMING`, `nec/mod.rs:69-76`. -/
def necSamsungTiming : NecPulseLen where
  headerHigh := 4500
  headerLow := 4500
  repeatLow := 2250
  dataZeroLow := 560
  dataHigh := 560
  dataOneLow := 1690

/-- `trait NecCommandVariant`, `nec/mod.rs:47-58`.  `pack = none` is a panic. -/
structure NecVariant (C : Type) where
  pulseDistance : NecPulseLen
  validate : BitVec 32 → Bool
  unpack : BitVec 32 → Bool → Option C
  pack : C → Option (BitVec 32)

/-! ### Standard -/

/-- `NecCommand`, `nec/standard.rs:11-15`. -/
structure NecCommand where
  addr : BitVec 8
  cmd : BitVec 8
  rep : Bool
deriving Repr, DecidableEq

/-- `NecCommand::validate`, `nec/standard.rs:20-22`. -/
def NecCommand.validate (bits : BitVec 32) : Bool :=
  ((bits >>> 24) ^^^ (bits >>> 16)) &&& 0xFF#32 == 0xFF#32 &&
    ((bits >>> 8) ^^^ bits) &&& 0xFF#32 == 0xFF#32

/-- `NecCommand::unpack`, `nec/standard.rs:24-29`. -/
def NecCommand.unpack (bits : BitVec 32) (rep : Bool) : Option NecCommand :=
  let addr := (bits &&& 0xFF#32).setWidth 8
  let cmd := ((bits >>> 16) &&& 0xFF#32).setWidth 8
  some { addr, cmd, rep }

/-- `NecCommand::pack`, `nec/standard.rs:31-35`. -/
def NecCommand.pack (c : NecCommand) : BitVec 32 :=
  let addr := c.addr.setWidth 32 ||| (((~~~ c.addr).setWidth 32 &&& 0xFF#32) <<< 8)
  let cmd := (c.cmd.setWidth 32 <<< 16) ||| ((~~~ c.cmd).setWidth 32 <<< 24)
  addr ||| cmd

/-- `impl NecCommandVariant for NecCommand`, `nec/standard.rs:17-36`. -/
def nec : NecVariant NecCommand where
  pulseDistance := necStandardTiming
  validate := NecCommand.validate
  unpack := NecCommand.unpack
  pack c := some c.pack

/-! ### Samsung -/

/-- `SamsungNecCommand`, `nec/samsung.rs:11-15`. -/
structure SamsungNecCommand where
  addr : BitVec 8
  cmd : BitVec 8
  rep : Bool
deriving Repr, DecidableEq

/-- `SamsungNecCommand::validate`, `nec/samsung.rs:20-22`. -/
def SamsungNecCommand.validate (bits : BitVec 32) : Bool :=
  ((bits >>> 24) ^^^ (bits >>> 16)) &&& 0xFF#32 == 0xFF#32 &&
    ((bits >>> 8) ^^^ bits) &&& 0xFF#32 == 0x00#32

/-- `SamsungNecCommand::unpack`, `nec/samsung.rs:24-28`. -/
def SamsungNecCommand.unpack (bits : BitVec 32) (rep : Bool) : Option SamsungNecCommand :=
  let addr := (bits &&& 0xFF#32).setWidth 8
  let cmd := ((bits >>> 16) &&& 0xFF#32).setWidth 8
  some { addr, cmd, rep }

/-- `SamsungNecCommand::pack`, `nec/samsung.rs:30-34`. -/
def SamsungNecCommand.pack (c : SamsungNecCommand) : BitVec 32 :=
  let addr := c.addr.setWidth 32 ||| (c.addr.setWidth 32 <<< 8)
  let cmd := (c.cmd.setWidth 32 <<< 16) ||| ((~~~ c.cmd).setWidth 32 <<< 24)
  addr ||| cmd

/-- `impl NecCommandVariant for SamsungNecCommand`, `nec/samsung.rs:17-35`. -/
def samsungNec : NecVariant SamsungNecCommand where
  pulseDistance := necSamsungTiming
  validate := SamsungNecCommand.validate
  unpack := SamsungNecCommand.unpack
  pack c := some c.pack

/-! ### 16 bit addresses -/

/-- `Nec16Command`, `nec/nec16.rs:8-12`. -/
structure Nec16Command where
  addr : BitVec 16
  cmd : BitVec 8
  rep : Bool
deriving Repr, DecidableEq

/-- `Nec16Command::validate`, `nec/nec16.rs:17-19`. -/
def Nec16Command.validate (bits : BitVec 32) : Bool :=
  ((bits >>> 24) ^^^ (bits >>> 16)) &&& 0xFF#32 == 0xFF#32

/-- `Nec16Command::unpack`, `nec/nec16.rs:21-26`. -/
def Nec16Command.unpack (bits : BitVec 32) (rep : Bool) : Option Nec16Command :=
  let addr := (bits &&& 0xFFFF#32).setWidth 16
  let cmd := ((bits >>> 16) &&& 0xFF#32).setWidth 8
  some { addr, cmd, rep }

/-- `Nec16Command::pack`, `nec/nec16.rs:28-32`. -/
def Nec16Command.pack (c : Nec16Command) : BitVec 32 :=
  let addr := c.addr.setWidth 32
  let cmd := (c.cmd.setWidth 32 <<< 16) ||| ((~~~ c.cmd).setWidth 32 <<< 24)
  addr ||| cmd

/-- `impl NecCommandVariant for Nec16Command`, `nec/nec16.rs:14-33`. -/
def nec16 : NecVariant Nec16Command where
  pulseDistance := necStandardTiming
  validate := Nec16Command.validate
  unpack := Nec16Command.unpack
  pack c := some c.pack

/-! ### Apple -/

/-- `AppleNecCommand`, `nec/apple.rs:11-16`. -/
structure AppleNecCommand where
  commandPage : BitVec 8
  command : BitVec 8
  deviceId : BitVec 8
  rep : Bool
deriving Repr, DecidableEq

/-- `u32::count_ones`: number of set bits. -/
def countOnes (bits : BitVec 32) : Nat :=
  ((List.range 32).filter fun i => bits.getLsbD i).length

/-- `AppleNecCommand::validate`, `nec/apple.rs:21-28`.  (`count_ones() & 1 == 1` is
written `% 2 = 1`.) -/
def AppleNecCommand.validate (bits : BitVec 32) : Bool :=
  let vendor := ((bits >>> 5) &&& 0x7FF#32).setWidth 16
  vendor == 0x43f#16 && countOnes bits % 2 == 1

/-- `AppleNecCommand::unpack`, `nec/apple.rs:30-52`. -/
def AppleNecCommand.unpack (bits : BitVec 32) (rep : Bool) : Option AppleNecCommand :=
  if ! AppleNecCommand.validate bits then none
  else
    let commandPage := (bits &&& 0x1F#32).setWidth 8
    let command := ((bits >>> 17) &&& 0x7F#32).setWidth 8
    let deviceId := ((bits >>> 24) &&& 0xFF#32).setWidth 8
    some { commandPage, command, deviceId, rep }

/-- `impl NecCommandVariant for AppleNecCommand`, `nec/apple.rs:18-57`.  `pack` is
`unimplemented!()` (lines 54-56). -/
def appleNec : NecVariant AppleNecCommand where
  pulseDistance := necStandardTiming
  validate := AppleNecCommand.validate
  unpack := AppleNecCommand.unpack
  pack _ := none

/-! ### Raw -/

/-- `NecDebugCmd`, `nec/raw.rs:8-10`. -/
structure NecDebugCmd where
  bits : BitVec 32
deriving Repr, DecidableEq

/-- `impl NecCommandVariant for NecDebugCmd`, `nec/raw.rs:12-26`. -/
def necDebug : NecVariant NecDebugCmd where
  pulseDistance := necStandardTiming
  validate _ := true
  unpack bits _ := some { bits }
  pack c := some c.bits

/-! ### Decoder -/

/-- `pulselens::<Cmd>()`, `nec/decoder.rs:14-25`. -/
def necPulselens (p : NecPulseLen) : List Nat :=
  [p.headerHigh + p.headerLow, p.headerHigh + p.repeatLow, p.dataHigh + p.dataZeroLow,
    p.dataHigh + p.dataOneLow, 0, 0, 0, 0]

/-- `TOL`, `nec/decoder.rs:27`. -/
def necTol : List Nat := [7, 7, 25, 12, 0, 0, 0, 0]

/-- `PulseWidth`, `nec/decoder.rs:156-162`. -/
inductive NecPulse
  | sync | rep | zero | one | invalid
deriving Repr, DecidableEq

/-- `impl From<usize> for PulseWidth`, `nec/decoder.rs:164-174`. -/
def NecPulse.ofIdx : Nat → NecPulse
  | 0 => .sync
  | 1 => .rep
  | 2 => .zero
  | 3 => .one
  | _ => .invalid

/-- `self.pulsespans.get(total).unwrap_or(PulseWidth::Invalid)`, `nec/decoder.rs:99-100`. -/
def NecPulse.classify (spans : PulseSpans) (total : Nat) : NecPulse :=
  match spans.get total with
  | some i => NecPulse.ofIdx i
  | none => .invalid

/-- `NecState`, `nec/decoder.rs:59-70`. -/
inductive NecState
  | init | receiving (bit : Nat) | done | repeatDone | err (e : DecodingError)
deriving Repr, DecidableEq

/-- `impl From<NecState> for State`, `nec/decoder.rs:72-82`. -/
def NecState.toState : NecState → State
  | .init => .idle
  | .done => .done
  | .repeatDone => .done
  | .err e => .error e
  | .receiving _ => .receiving

/-- `NecDecoder`, `nec/decoder.rs:43-54`. -/
structure NecDecoder where
  state : NecState
  bitbuf : BitVec 32
  dtSave : Nat
deriving Repr, DecidableEq

/-- The `match (self.state, pulsewidth)`, `nec/decoder.rs:102-116`: new state and data
buffer.  The literal arms `Receiving(31)` are written as a test `bit = 31`. -/
def NecDecoder.transition (t : Target) (state : NecState) (bitbuf : BitVec 32) (pw : NecPulse) :
    Option (NecState × BitVec 32) :=
  match state, pw with
  | .init, .sync => some (.receiving 0, 0)
  | .init, .rep => some (.repeatDone, bitbuf)
  | .init, _ => some (.init, bitbuf)
  | .receiving bit, .one =>
    if bit = 31 then do
      let b ← shl1 t 32 31
      some (.done, bitbuf ||| b)
    else do
      let b ← shl1 t 32 bit
      some (.receiving (bit + 1), bitbuf ||| b)
  | .receiving bit, .zero =>
    if bit = 31 then some (.done, bitbuf)
    else some (.receiving (bit + 1), bitbuf)
  | .receiving _, _ => some (.err .data, bitbuf)
  | .done, _ => some (.done, bitbuf)
  | .repeatDone, _ => some (.repeatDone, bitbuf)
  | .err e, _ => some (.err e, bitbuf)

/-- `NecDecoder::event`, `nec/decoder.rs:90-134`. -/
def NecDecoder.event (t : Target) (m : Mono) (spans : PulseSpans) (d : NecDecoder)
    (rising : Bool) (dur : Nat) : Option (NecDecoder × State) :=
  if rising then do
    let total ← m.add t dur d.dtSave
    let pulsewidth := NecPulse.classify spans total
    let (state, bitbuf) ← NecDecoder.transition t d.state d.bitbuf pulsewidth
    some ({ state, bitbuf, dtSave := 0 }, state.toState)
  else
    some ({ d with dtSave := dur }, d.state.toState)

/-- `NecDecoder::command`, `nec/decoder.rs:136-142`. -/
def NecDecoder.command {C : Type} (v : NecVariant C) (d : NecDecoder) : Option C :=
  match d.state with
  | .done => v.unpack d.bitbuf false
  | .repeatDone => v.unpack d.bitbuf true
  | _ => none

/-- `NecDecoder::reset`, `nec/decoder.rs:144-147` (the data buffer is kept). -/
def NecDecoder.reset (d : NecDecoder) : NecDecoder := { d with state := .init, dtSave := 0 }

/-- `impl ProtocolDecoder<Nec<Cmd>, Mono> for NecDecoder` with the initial state of `build`,
`nec/decoder.rs:32-40,84-152`. -/
def necDecoder {C : Type} (t : Target) (m : Mono) (spans : PulseSpans) (v : NecVariant C) :
    Decoder C where
  St := NecDecoder
  init := { state := .init, bitbuf := 0, dtSave := 0 }
  event := NecDecoder.event t m spans
  command := NecDecoder.command v
  reset := NecDecoder.reset

/-- The tolerance table made by `build(freq)`, `nec/decoder.rs:38`. -/
def necSpans {C : Type} (t : Target) (m : Mono) (v : NecVariant C) (freq : Nat) :
    Option PulseSpans :=
  PulseSpans.new t m freq (necPulselens v.pulseDistance) necTol

/-! ### Encoder -/

/-- `calc_ticks`, `nec/encoder.rs:6-16`, evaluated at compile time; `none` is an overflow.  With overflow
checks the program then does not compile; without them the body of a `const fn` wraps also at compile time:
`calcTicksUnchecked`. -/
def calcTicks (l f : Nat) : Option Nat :=
  let f' := if f > 1000 then f / 1000 else f
  let div := if f > 1000 then 1000000 / 1000 else 1000000
  if f' * l < 2 ^ 32 then some (f' * l / div) else none

/-- `calc_ticks`, `nec/encoder.rs:6-16`, compiled without overflow checks. -/
def calcTicksUnchecked (l f : Nat) : Nat :=
  let f' := if f > 1000 then f / 1000 else f
  let div := if f > 1000 then 1000000 / 1000 else 1000000
  f' * l % 2 ^ 32 / div

/-- `DATA`, `nec/encoder.rs:22-30`. -/
structure NecData where
  headerHigh : Nat
  headerLow : Nat
  repeatLow : Nat
  dataHigh : Nat
  dataZeroLow : Nat
  dataOneLow : Nat
deriving Repr, DecidableEq

/-- `DATA` for frequency `F`, `nec/encoder.rs:22-30`; `none`: the program does not compile with overflow checks
(without: `necDataUnchecked`). -/
def necData (p : NecPulseLen) (F : Nat) : Option NecData := do
  let headerHigh ← calcTicks p.headerHigh F
  let headerLow ← calcTicks p.headerLow F
  let repeatLow ← calcTicks p.repeatLow F
  let dataHigh ← calcTicks p.dataHigh F
  let dataZeroLow ← calcTicks p.dataZeroLow F
  let dataOneLow ← calcTicks p.dataOneLow F
  some { headerHigh, headerLow, repeatLow, dataHigh, dataZeroLow, dataOneLow }

/-- `DATA` for frequency `F`, `nec/encoder.rs:22-30`, compiled without overflow checks. -/
def necDataUnchecked (p : NecPulseLen) (F : Nat) : NecData where
  headerHigh := calcTicksUnchecked p.headerHigh F
  headerLow := calcTicksUnchecked p.headerLow F
  repeatLow := calcTicksUnchecked p.repeatLow F
  dataHigh := calcTicksUnchecked p.dataHigh F
  dataZeroLow := calcTicksUnchecked p.dataZeroLow F
  dataOneLow := calcTicksUnchecked p.dataOneLow F

/-- One iteration of the loop body, `nec/encoder.rs:42-49`. -/
def necEncodeBit (data : NecData) (bits : BitVec 32) (acc : List Nat × Nat) (i : Nat) :
    Option (List Nat × Nat) := do
  let (b, bi) := acc
  let one := (bits >>> i) &&& 1#32 != 0#32
  let b ← store b bi data.dataHigh
  let b ← store b (bi + 1) (if one then data.dataOneLow else data.dataZeroLow)
  some (b, bi + 2)

/-- `Nec::encode`, `nec/encoder.rs:32-53`: `b` is the slice, the result its new contents and
the returned length. -/
def necEncode {C : Type} (v : NecVariant C) (data : NecData) (cmd : C) (b : List Nat) :
    Option (List Nat × Nat) := do
  let b ← store b 0 0
  let b ← store b 1 data.headerHigh
  let b ← store b 2 data.headerLow
  let bits ← v.pack cmd
  (List.range 32).foldlM (necEncodeBit data bits) (b, 3)

end Infrared
