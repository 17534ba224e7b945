import Verif.Model.Receiver
import Verif.Model.Remote
import Verif.Model.Sender

/-!
# The example programs

Models the parts of `/repo/examples` that are neither set-up of the hardware nor text output: interrupt
handlers, tasks and loops.  One function per handler; the scheduling (which handler runs when, with which pin level
and which reading of the clock) is an argument of the theorems.
-/

namespace Infrared

/-! ### `bluepill/src/bin/sender.rs` -/

/-- `TRANSMITTER` (`sender.rs:23-24`) and the handler's `COUNTER` (`sender.rs:78`). -/
structure SenderApp where
  counter : Nat
  transmitter : Sender

/-- `sender.rs:57-64,78`: the pin is disabled, then handed to `Sender::<_, 20_000, 128>::new`. -/
def SenderApp.init : SenderApp := { counter := 0, transmitter := Sender.new 128 false }

/-- The handler `TIM2`, `sender.rs:76-97`; `TIMER_FREQ` is 20 000 (`sender.rs:19`), which is also the `FREQ` of
the sender and hence of `Rc5EncoderData`.  `none` is a panic of `unwrap` or of the encoder. -/
def SenderApp.tim2 (t : Target) (a : SenderApp) : Option SenderApp := do
  let counter := wrappingAdd 32 a.counter 1
  let transmitter := a.transmitter.tick
  if counter = 20000 * 2 then
    let cmd ← cdPlayer.encode .next
    let rc5len ← rc5CalcFreq 20000
    let transmitter ← transmitter.load (rc5Encode t rc5len cmd)
    some { counter := 0, transmitter }
  else some { counter, transmitter }

/-! ### `arduino_uno/src/bin/polled.rs` -/

/-- `RECEIVER` and `CMD`, `polled.rs:41,43`. -/
structure PolledApp {C : Type} (D : Decoder C) where
  recv : PeriodicPoll D
  cell : Option C

/-- `polled.rs:43,65-70`. -/
def PolledApp.init {C : Type} (D : Decoder C) : PolledApp D :=
  { recv := PeriodicPoll.new D, cell := none }

/-- The handler `TIMER0_COMPA`, `polled.rs:103-116`; reading the pin cannot fail on this board. -/
def PolledApp.timer0Compa {C : Type} (D : Decoder C) (a : PolledApp D) (low : Bool) :
    Option (PolledApp D) :=
  match a.recv.pollPin (PinErr := Empty) D id (.ok low) with
  | none => none
  | some (recv, .ok (some cmd)) => some { recv, cell := some cmd }
  | some (recv, _) => some { a with recv }

/-- One round of the loop in `main`, `polled.rs:77-90`: `take` the cell; the command printed, if any. -/
def PolledApp.mainRound {C : Type} {D : Decoder C} (a : PolledApp D) : PolledApp D × Option C :=
  ({ a with cell := none }, a.cell)

/-! ### `arduino_uno/src/bin/external-interrupt.rs` -/

/-- The statics, `external-interrupt.rs:41-46`. -/
structure ExternalApp {C : Type} (D : Decoder C) where
  clock : Nat
  recv : Receiver D
  led : Bool
  errorLed : Bool
  cell : Option C

/-- `external-interrupt.rs:41-46,61-77,138-142`. -/
def ExternalApp.init {C : Type} (D : Decoder C) : ExternalApp D :=
  { clock := 0, recv := Receiver.new D, led := false, errorLed := false, cell := none }

/-- The handler `PCINT2`, `external-interrupt.rs:100-123`; `Receiver<Nec, IrPin>` has a `u32` clock. -/
def ExternalApp.pcint2 {C : Type} (D : Decoder C) (a : ExternalApp D) (low : Bool) :
    Option (ExternalApp D) :=
  match a.recv.eventInstantPin (PinErr := Empty) Mono.u32 D id (.ok low) a.clock with
  | none => none
  | some (recv, .ok (some cmd)) =>
    some { a with recv, cell := some cmd, errorLed := false, led := !a.led }
  | some (recv, .ok none) => some { a with recv, led := !a.led }
  | some (recv, .error _) => some { a with recv, errorLed := true, led := !a.led }

/-- The handler `TIMER0_COMPA` = `Clock::tick`, `external-interrupt.rs:124-127,158-165`. -/
def ExternalApp.timer0Compa {C : Type} {D : Decoder C} (a : ExternalApp D) : ExternalApp D :=
  { a with clock := wrappingAdd 32 a.clock 1 }

/-- One round of the loop in `main`, `external-interrupt.rs:84-96`. -/
def ExternalApp.mainRound {C : Type} {D : Decoder C} (a : ExternalApp D) :
    ExternalApp D × Option C :=
  ({ a with cell := none }, a.cell)

/-! ### `bluepill/src/bin/receiver-event-driven.rs` -/

/-- `RECEIVER` and the handler's `LAST`, `receiver-event-driven.rs:28,79`. -/
structure EventApp {C : Type} (D : Decoder C) where
  recv : Receiver D
  last : Option Nat

/-- `receiver-event-driven.rs:58,79`. -/
def EventApp.init {C : Type} (D : Decoder C) : EventApp D := { recv := Receiver.new D, last := none }

/-- The handler `EXTI9_5`, `receiver-event-driven.rs:77-94`, with the commands it logs.  `now` is what `mono.now()`
reads; `Instant::elapsed` (stm32f1xx-hal, not in the repository) reads the 32-bit cycle counter again, `later`, and
subtracts with wrap-around. -/
def EventApp.exti9_5 {C : Type} (D : Decoder C) (a : EventApp D) (low : Bool) (now later : Nat) :
    Option (EventApp D × Option C) :=
  match a.last.map fun i => wrappingSub 32 later i with
  | some dt =>
    match a.recv.eventPin (PinErr := Empty) D id (.ok low) dt with
    | none => none
    | some (recv, .ok (some cmd)) => some ({ recv, last := some now }, some cmd)
    | some (recv, _) => some ({ recv, last := some now }, none)
  | none => some ({ a with last := some now }, none)

/-! ### `bluepill/src/bin/multireceiver.rs` -/

/-- `RECEIVER` and the handler's `LAST`, `multireceiver.rs:19,70`. -/
structure MultiApp where
  recv : List Slot
  last : Option Nat

/-- `multireceiver.rs:48,70`; the components are those of the `MultiReceiver` type. -/
def MultiApp.init (cs : List Component) : MultiApp := { recv := multiMake cs, last := none }

/-- The handler `EXTI9_5`, `multireceiver.rs:68-88`, with the commands it logs
(`MultiReceiver::event_iter`, `receiver/multi.rs:55-61`). -/
def MultiApp.exti9_5 (a : MultiApp) (low : Bool) (now later : Nat) :
    Option (MultiApp × List AnyCommand) :=
  match a.last.map fun i => wrappingSub 32 later i with
  | some dt =>
    match multiEventPin (PinErr := Empty) a.recv (.ok low) dt with
    | none => none
    | some (recv, .ok arr) => some ({ recv, last := some now }, arr.filterMap id)
    | some (recv, .error _) => some ({ recv, last := some now }, [])
  | none => some ({ a with last := some now }, [])

/-! ### `bluepill/src/bin/mouse.rs` -/

/-- `MouseReport` (usbd-hid); `x` and `y` are `i8`.  `wheel` and `pan` are always 0, `mouse.rs:203-209`. -/
structure MouseReport where
  buttons : BitVec 8
  x : BitVec 8
  y : BitVec 8
  wheel : BitVec 8
  pan : BitVec 8
deriving Repr, DecidableEq

/-- `button_to_mousereport`, `mouse.rs:180-210`; `steps` is an `i8`, and the shift is at most 6. -/
def buttonToMousereport (action : Action) (repeats : Nat) : MouseReport :=
  let steps : BitVec 8 := if repeats ≤ 6 then 1#8 <<< repeats else 64
  let r : MouseReport := { buttons := 0, x := 0, y := 0, wheel := 0, pan := 0 }
  match action with
  | .playPause => { r with buttons := if repeats = 0 then 1 else 0 }
  | .up => { r with y := -steps }
  | .down => { r with y := steps }
  | .right => { r with x := steps }
  | .left => { r with x := -steps }
  | _ => r

/-- `process_ir_cmd`, `mouse.rs:132-149`: the new value of `repeated` and the report passed to `keydown`, which sends
it unchanged (`mouse.rs:159-164,167-178`).  `*repeats += 1` is `u32`. -/
def processIrCmd (t : Target) (repeated : Nat) (button : Button AppleNecCommand) :
    Option (Nat × Option MouseReport) := do
  let repeats := if button.isRepeat apple2009 then repeated else 0
  let repeats ← uadd t 32 repeats 1
  some (repeats, button.action.map fun action => buttonToMousereport action repeats)

/-! ### `bluepill/src/bin/mediakeyboard.rs` -/

/-- The `MediaKey`s (usbd-hid) the program uses, `mediakeyboard.rs:185-195`. -/
inductive MediaKey
  | zero | playPause | volumeIncrement | volumeDecrement | nextTrack | prevTrack | stop
deriving Repr, DecidableEq

/-- `action_to_mediakey`, `mediakeyboard.rs:185-195`. -/
def actionToMediakey : Action → MediaKey
  | .playPause => .playPause
  | .up => .volumeIncrement
  | .down => .volumeDecrement
  | .right => .nextTrack
  | .left => .prevTrack
  | .stop => .stop
  | _ => .zero

/-- The handler `ir_rx`, `mediakeyboard.rs:129-144`: the new receiver and the key passed to `keydown`.  The clock is
a `fugit` instant. -/
def mediaIrRx (m : Mono) (D : Decoder AppleNecCommand) (r : Receiver D) (low : Bool) (now : Nat) :
    Option (Receiver D × Option MediaKey) :=
  match r.eventInstantPin (PinErr := Empty) m D (Button.from apple2009) (.ok low) now with
  | none => none
  | some (r', .ok (some button)) => some (r', button.action.map actionToMediakey)
  | some (r', _) => some (r', none)

/-- `ir_rx` of the mouse, `mouse.rs:119-130`, followed by `process_ir_cmd` for the button it spawns (the software
task has run before the next edge: a frame takes tens of milliseconds). -/
def mouseIrRx (t : Target) (m : Mono) (D : Decoder AppleNecCommand) (s : Receiver D × Nat) (low : Bool)
    (now : Nat) : Option ((Receiver D × Nat) × Option MouseReport) :=
  match s.1.eventInstantPin (PinErr := Empty) m D (Button.from apple2009) (.ok low) now with
  | none => none
  | some (r', .ok (some button)) => (processIrCmd t s.2 button).map fun p => ((r', p.1), p.2)
  | some (r', _) => some ((r', s.2), none)

/-! ### `vcd-parser/src/main.rs` -/

/-- `vcd::TimescaleUnit`, as far as `main.rs:74-78` tells them apart. -/
inductive TimescaleUnit
  | ms | us | other
deriving Repr, DecidableEq

/-- The sample rate of a capture, `main.rs:74-78`; `none` is the panic (unsupported unit or division by 0). -/
def vcdSamplerate (n : Nat) (unit : TimescaleUnit) : Option Nat :=
  match unit with
  | .ms => if n = 0 then none else some (1000 / n)
  | .us => if n = 0 then none else some (1000000 / n)
  | .other => none

/-- `vcd::Command`, as far as `main.rs:30-48` tells them apart; a value change carries the code of the wire and
whether the new value is `V1`. -/
inductive VcdCommand
  | changeScalar (code : Nat) (one : Bool)
  | timestamp (ts : Nat)
  | other
deriving Repr, DecidableEq

/-- The loop of `main`, `main.rs:26-48`: `clock` and the receiver are the loop's variables; for each command the
line printed, if any (a command or an error). -/
def vcdLoop {C : Type} (D : Decoder C) (irdata : Nat) :
    (clock : Nat) → Receiver D → List VcdCommand → Option (List (Res C))
  | _, _, [] => some []
  | clock, r, .changeScalar i one :: vcs =>
    if i = irdata then
      match r.eventInstant Mono.u64 D id clock one with
      | none => none
      | some (r', .ok none) => vcdLoop D irdata clock r' vcs
      | some (r', res) => (vcdLoop D irdata clock r' vcs).map (res :: ·)
    else vcdLoop D irdata clock r vcs
  | _, r, .timestamp ts :: vcs => vcdLoop D irdata ts r vcs
  | clock, r, .other :: vcs => vcdLoop D irdata clock r vcs

/-! ### `bluepill/src/bin/tutorial1b.rs` -/

/-- `BUTTONS` of `Rc6Tv`, `tutorial1b.rs:38-53`. -/
def rc6TvButtons : List (Nat × Action) :=
  [ (1, .one), (2, .two), (3, .three), (4, .four), (5, .five), (6, .six), (7, .seven), (8, .eight),
    (9, .nine), (12, .power), (76, .volumeUp), (77, .volumeDown), (60, .teletext) ]

/-- `Rc6Tv`, `tutorial1b.rs:29-54`. -/
def rc6Tv : RemoteControlModel Rc6Command where
  protocol := .rc6
  address := 0
  ac := rc6AC
  buttons := rc6TvButtons
  decode := defaultDecode rc6AC 0 rc6TvButtons

/-- What the handler logs, `tutorial1b.rs:102-106`. -/
inductive TutorialLine
  | teletext
  | powerOnOff
  | cmd (button : Button Rc6Command)

/-- The lines logged by the handler `TIM2`, `tutorial1b.rs:97-112`, for a sequence of samples of the pin (reading the
pin cannot fail); errors are dropped. -/
def tutorialRun (D : Decoder Rc6Command) : PeriodicPoll D → List Bool → Option (List TutorialLine)
  | _, [] => some []
  | p, low :: samples =>
    match p.pollPin (PinErr := Empty) D (Button.from rc6Tv) (.ok low) with
    | none => none
    | some (p', res) =>
      let lines := match res with
        | .ok (some b) =>
          match b.action with
          | some .teletext => [.teletext]
          | some .power => [.powerOnOff]
          | _ => [.cmd b]
        | _ => []
      (tutorialRun D p' samples).map (lines ++ ·)

/-! ### `bluepill/src/bin/receiver-polled.rs` -/

/-- What the handler logs, `receiver-polled.rs:83-94`. -/
inductive PolledLine
  | play
  | power
  | pressed (button : Action)
  | err (e : Error Empty)
deriving DecidableEq

/-- The `match` of the handler, `receiver-polled.rs:83-94`. -/
def polledLines : PinRes Empty (Button AppleNecCommand) → List PolledLine
  | .ok (some cmd) =>
    match cmd.action with
    | some .playPause => [.play]
    | some .power => [.power]
    | some button => [.pressed button]
    | none => []
  | .ok none => []
  | .error err => [.err err]

/-- The lines logged by the handler `TIM2`, `receiver-polled.rs:77-95`, for a sequence of samples of the pin (reading
the pin cannot fail). -/
def receiverPolledRun (D : Decoder AppleNecCommand) : PeriodicPoll D → List Bool → Option (List PolledLine)
  | _, [] => some []
  | p, low :: samples =>
    match p.pollPin (PinErr := Empty) D (Button.from apple2009) (.ok low) with
    | none => none
    | some (p', res) => (receiverPolledRun D p' samples).map (polledLines res ++ ·)

/-! ### `bluepill/src/bin/tutorial1a.rs` -/

/-- What the handler logs, `tutorial1a.rs:71-75`. -/
inductive Tutorial1aLine
  | cmd (addr cmd : BitVec 8)
  | err (e : Error Empty)
deriving DecidableEq

/-- The `match` of the handler, `tutorial1a.rs:71-75`. -/
def tutorial1aLines : PinRes Empty Rc6Command → List Tutorial1aLine
  | .ok (some cmd) => [.cmd cmd.addr cmd.cmd]
  | .ok none => []
  | .error err => [.err err]

/-- The lines logged by the handler `TIM2`, `tutorial1a.rs:67-75`, for a sequence of samples of the pin (reading the
pin cannot fail). -/
def tutorial1aRun (D : Decoder Rc6Command) : PeriodicPoll D → List Bool → Option (List Tutorial1aLine)
  | _, [] => some []
  | p, low :: samples =>
    match p.pollPin (PinErr := Empty) D id (.ok low) with
    | none => none
    | some (p', res) => (tutorial1aRun D p' samples).map (tutorial1aLines res ++ ·)

/-! ### `rp-pico/src/bin/receiver-event-driven-rtic.rs` -/

/-- The commands logged by the task `do_ir`, `receiver-event-driven-rtic.rs:84-92`, for a sequence of edges with the
reading of the monotonic clock (a `fugit` instant of 64 bits); errors are dropped. -/
def rticRun (m : Mono) (D : Decoder AppleNecCommand) : Receiver D → List (Bool × Nat) → Option (List AppleNecCommand)
  | _, [] => some []
  | r, (low, now) :: calls =>
    match r.eventInstantPin (PinErr := Empty) m D id (.ok low) now with
    | none => none
    | some (r', res) =>
      let lines := match res with
        | .ok (some cmd) => [cmd]
        | _ => []
      (rticRun m D r' calls).map (lines ++ ·)

end Infrared
