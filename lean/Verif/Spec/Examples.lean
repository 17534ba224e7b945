import Verif.Model.Examples
import Verif.Spec.Drivers
import Verif.Spec.Sending

/-!
# What the example programs are supposed to do

Schedules of the handlers, and the vocabulary for what the programs show.
-/

namespace Infrared

/-- `n` timer interrupts of the sender program; the list holds the state of the pin after each. -/
def SenderApp.run (t : Target) : Nat → SenderApp → Option (SenderApp × List Bool)
  | 0, a => some (a, [])
  | n + 1, a =>
    match a.tim2 t with
    | none => none
    | some a' =>
      match SenderApp.run t n a' with
      | none => none
      | some (a'', pins) => some (a'', a'.transmitter.pinEnabled :: pins)

namespace Spec

/-- Two seconds at 20 kHz: the transmission of `durations`, then silence. -/
def twoSeconds (durations : List Nat) : List Bool :=
  (transmission durations ++ List.replicate 40000 false).take 40000

/-- The buffer of 128 entries after loading "next" of the CD player: address 20 and command 32 in RC5, half bits of
17 ticks; the rest is zero. -/
def nextOnCd : List Nat := rc5Wave 17 0b11010100100000#14 ++ List.replicate 108 0

/-- The output of the sender program: two seconds that begin with the empty buffer, then "next" every two seconds. -/
def senderOutput (n : Nat) : List Bool :=
  (twoSeconds (List.replicate 128 0) ++ (List.replicate n (twoSeconds nextOnCd)).flatten).take n

end Spec

/-! ### Mailboxes: `polled.rs` and `external-interrupt.rs` -/

/-- What happens to `polled.rs`: a timer interrupt that finds the pin low or not, or a round of the main loop. -/
inductive PolledAct
  | timer (low : Bool)
  | main

/-- What happens to `external-interrupt.rs`: a change of the pin, a tick of the clock, or a round of the main loop. -/
inductive ExternalAct
  | change (low : Bool)
  | tick
  | main

/-- The program under a schedule, with the commands it prints. -/
def PolledApp.run {C : Type} (D : Decoder C) : PolledApp D → List PolledAct → Option (PolledApp D × List C)
  | a, [] => some (a, [])
  | a, .timer low :: acts => (a.timer0Compa D low).bind fun a' => PolledApp.run D a' acts
  | a, .main :: acts =>
    (PolledApp.run D a.mainRound.1 acts).map fun p => (p.1, a.mainRound.2.toList ++ p.2)

/-- The program under a schedule, with the commands it prints. -/
def ExternalApp.run {C : Type} (D : Decoder C) : ExternalApp D → List ExternalAct → Option (ExternalApp D × List C)
  | a, [] => some (a, [])
  | a, .change low :: acts => (a.pcint2 D low).bind fun a' => ExternalApp.run D a' acts
  | a, .tick :: acts => ExternalApp.run D a.timer0Compa acts
  | a, .main :: acts =>
    (ExternalApp.run D a.mainRound.1 acts).map fun p => (p.1, a.mainRound.2.toList ++ p.2)

namespace Spec

/-- The samples of a schedule. -/
def samplesOf : List PolledAct → List Bool
  | [] => []
  | .timer low :: acts => low :: samplesOf acts
  | .main :: acts => samplesOf acts

/-- The edges of a schedule, each with the reading of a 32-bit clock that `n` ticks were counted on before. -/
def stampsOf : (n : Nat) → List ExternalAct → List (Bool × Nat)
  | _, [] => []
  | n, .change low :: acts => (low, n % 2 ^ 32) :: stampsOf n acts
  | n, .tick :: acts => stampsOf (n + 1) acts
  | n, .main :: acts => stampsOf n acts

/-- The receiver's results, grouped by the rounds of the main loop: for each round the results since the round before
(`current` so far).  `rounds` tells for each act whether it is a round of the main loop (`none`), a call of the
receiver (`some true`) or something else (`some false`). -/
def grouped {R : Type} : (current : List R) → List (Option Bool) → List R → List (List R)
  | _, [], _ => []
  | current, none :: acts, outs => current :: grouped [] acts outs
  | current, some false :: acts, outs => grouped current acts outs
  | current, some true :: acts, o :: outs => grouped (current ++ [o]) acts outs
  | _, some true :: _, [] => []

def PolledAct.kind : PolledAct → Option Bool
  | .timer _ => some true
  | .main => none

def ExternalAct.kind : ExternalAct → Option Bool
  | .change _ => some true
  | .tick => some false
  | .main => none

/-- What a mailbox with one place delivers: from each group the last command. -/
def latest {C : Type} (groups : List (List (Res C))) : List C :=
  groups.filterMap fun g => (commands g).getLast?

end Spec

/-! ### Handlers that measure the time since the last edge -/

/-- `receiver-event-driven.rs`: edges with the two readings of the clock; the commands it logs. -/
def EventApp.run {C : Type} (D : Decoder C) : EventApp D → List (Bool × Nat × Nat) → Option (EventApp D × List C)
  | a, [] => some (a, [])
  | a, (low, now, later) :: calls =>
    match a.exti9_5 D low now later with
    | none => none
    | some (a', logged) => (EventApp.run D a' calls).map fun p => (p.1, logged.toList ++ p.2)

/-- `multireceiver.rs`: for each edge the commands it logs. -/
def MultiApp.run : MultiApp → List (Bool × Nat × Nat) → Option (MultiApp × List (List AnyCommand))
  | a, [] => some (a, [])
  | a, (low, now, later) :: calls =>
    match a.exti9_5 low now later with
    | none => none
    | some (a', logged) => (MultiApp.run a' calls).map fun p => (p.1, logged :: p.2)

namespace Spec

/-- The distances the handlers compute: from the first reading for the edge before to the second reading for this
one. -/
def gaps : (last : Nat) → List (Bool × Nat × Nat) → List Ev
  | _, [] => []
  | last, (low, now, later) :: calls => (low, (2 ^ 32 + later - last) % 2 ^ 32) :: gaps now calls

end Spec

/-! ### USB devices -/

/-- `mouse.rs`: edges with the reading of the clock; the reports it sends. -/
def mouseRun (t : Target) (m : Mono) (D : Decoder AppleNecCommand) :
    Receiver D × Nat → List (Bool × Nat) → Option (List MouseReport)
  | _, [] => some []
  | s, (low, now) :: calls =>
    match mouseIrRx t m D s low now with
    | none => none
    | some (s', sent) => (mouseRun t m D s' calls).map fun l => sent.toList ++ l

/-- `mediakeyboard.rs`: edges with the reading of the clock; the keys it sends. -/
def mediaRun (m : Mono) (D : Decoder AppleNecCommand) : Receiver D → List (Bool × Nat) → Option (List MediaKey)
  | _, [] => some []
  | r, (low, now) :: calls =>
    match mediaIrRx m D r low now with
    | none => none
    | some (r', sent) => (mediaRun m D r' calls).map fun l => sent.toList ++ l

/-- The reports for a sequence of buttons. -/
def mouseReports (t : Target) : (repeated : Nat) → List (Button AppleNecCommand) → Option (List MouseReport)
  | _, [] => some []
  | n, b :: bs =>
    match processIrCmd t n b with
    | none => none
    | some (n', sent) => (mouseReports t n' bs).map fun l => sent.toList ++ l

namespace Spec

/-- What a report says: movement right and down, in steps, and whether a button is pressed. -/
def MouseReport.says (r : MouseReport) (right down : Int) (pressed : Bool) : Prop :=
  r.x.toInt = right ∧ r.y.toInt = down ∧ (r.buttons ≠ 0 ↔ pressed) ∧ r.wheel = 0 ∧ r.pan = 0

/-- The direction an action stands for, as (right, down). -/
def direction : Action → Option (Int × Int)
  | .up => some (0, -1)
  | .down => some (0, 1)
  | .left => some (-1, 0)
  | .right => some (1, 0)
  | _ => none

/-- The key a button of the Apple remote stands for on the media keyboard. -/
def appleKeys : List ((Nat × Nat) × MediaKey) :=
  [ ((14, 1), .zero), ((14, 2), .playPause), ((14, 3), .nextTrack), ((14, 4), .prevTrack), ((14, 5), .volumeIncrement),
    ((14, 6), .volumeDecrement), ((14, 46), .zero), ((14, 47), .zero), ((0, 3), .zero), ((0, 7), .zero) ]

/-! ### `vcd-parser` -/

/-- The changes of one wire with the time of each: the last time stamp before it (`now` at first). -/
def wireChanges (code : Nat) : (now : Nat) → List VcdCommand → List (Bool × Nat)
  | _, [] => []
  | now, .changeScalar i one :: vcs =>
    if i = code then (one, now) :: wireChanges code now vcs else wireChanges code now vcs
  | _, .timestamp ts :: vcs => wireChanges code ts vcs
  | now, .other :: vcs => wireChanges code now vcs

/-! ### `tutorial1b.rs` -/

/-- The buttons listed in `tutorial1b.rs`. -/
def rc6TvTable : List (Nat × Action) :=
  [ (12, .power), (60, .teletext), (76, .volumeUp), (77, .volumeDown), (1, .one), (2, .two), (3, .three), (4, .four),
    (5, .five), (6, .six), (7, .seven), (8, .eight), (9, .nine) ]

/-! ### Programs that log -/

/-- The buttons of the Apple remote of 2009, by page and code. -/
def appleActions : List ((Nat × Nat) × Action) :=
  [ ((14, 1), .menu), ((14, 2), .playPause), ((14, 3), .right), ((14, 4), .left), ((14, 5), .up), ((14, 6), .down),
    ((14, 46), .enter), ((14, 47), .playPause2), ((0, 3), .batteryLow), ((0, 7), .batteryLow) ]

/-- The line `receiver-polled.rs` is meant to log for a command of the Apple remote: nothing for a button it does not
know. -/
def polledLine (c : AppleNecCommand) : Option PolledLine :=
  match (appleActions.find? fun e => e.1 = (c.commandPage.toNat, c.command.toNat)).map Prod.snd with
  | none => none
  | some a => if a = .playPause then some .play else some (.pressed a)

/-- A decoding error as a pin receiver reports it. -/
def pinError : DecodingError → Error Empty
  | .address => .address
  | .data => .data
  | .validation => .validation
  | .remoteControlError => .remoteControlError

end Spec

end Infrared
