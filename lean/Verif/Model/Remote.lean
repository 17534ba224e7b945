import Verif.Model.Cmd

/-!
# Remote controls

Models `/repo/src/remotecontrol/`.  (`MODEL` and `DEVTYPE` descriptions are left out.)
-/

namespace Infrared

/-- `Action`, `remotecontrol/mod.rs:70-139`. -/
inductive Action
  | power | source | one | two | three | four | five | six | seven | eight | nine | zero
  | teletext | channelPrev | volumeUp | volumeDown | volumeMute | channelList | channelListNext
  | channelListPrev | tools | info | return_ | exit | enter | up | down | left | right | red
  | green | yellow | blue | emanual | pictureSize | subtitle | stop | rewind | play | paus
  | playPause | playPause2 | forward | mode | shuffle | uSd | plus | minus | next | prev | eq_
  | mute | random | repeat | time | setup | menu | pitchReset | pitchPlus | pitchMinus | prog
  | batteryLow
deriving Repr, DecidableEq

/-- `Action::to_str`, `remotecontrol/mod.rs:142-207`. -/
def Action.toStr : Action → String
  | .power => "power"
  | .source => "source"
  | .one => "one"
  | .two => "two"
  | .three => "three"
  | .four => "four"
  | .five => "five"
  | .six => "six"
  | .seven => "seven"
  | .eight => "eight"
  | .nine => "nine"
  | .zero => "zero"
  | .teletext => "teletext"
  | .channelPrev => "channel_prev"
  | .volumeUp => "volume_up"
  | .volumeDown => "volume_down"
  | .volumeMute => "volume_mute"
  | .channelList => "channellist"
  | .channelListNext => "channellist_next"
  | .channelListPrev => "channellist_prev"
  | .tools => "tools"
  | .info => "info"
  | .return_ => "return"
  | .exit => "exit"
  | .enter => "enter"
  | .up => "up"
  | .down => "down"
  | .left => "left"
  | .right => "right"
  | .red => "red"
  | .green => "green"
  | .yellow => "yellow"
  | .blue => "blue"
  | .emanual => "e_manual"
  | .pictureSize => "picture_size"
  | .subtitle => "subtitle"
  | .stop => "stop"
  | .rewind => "rewind"
  | .play => "play"
  | .paus => "pause"
  | .playPause => "play_pause"
  | .playPause2 => "play_pause2"
  | .forward => "forward"
  | .mode => "mode"
  | .shuffle => "shuffle"
  | .uSd => "u_sd"
  | .plus => "plus"
  | .minus => "minus"
  | .next => "next"
  | .prev => "prev"
  | .eq_ => "equalizer"
  | .mute => "mute"
  | .random => "random"
  | .repeat => "repeat"
  | .time => "time"
  | .setup => "setup"
  | .menu => "menu"
  | .pitchReset => "pitch_reset"
  | .pitchPlus => "pitch_plus"
  | .pitchMinus => "pitch_minus"
  | .prog => "program"
  | .batteryLow => "battery_low"

/-- `trait RemoteControlModel`, `remotecontrol/mod.rs:19-52`: the constants, the command type's
`AddressCommand` impl, and `decode` (which Apple2009 overrides). -/
structure RemoteControlModel (C : Type) where
  protocol : ProtocolId
  address : Nat
  ac : AddressCommand C
  buttons : List (Nat × Action)
  decode : C → Option Action

/-- The default `decode`, `remotecontrol/mod.rs:34-43`. -/
def defaultDecode {C : Type} (ac : AddressCommand C) (address : Nat)
    (buttons : List (Nat × Action)) (cmd : C) : Option Action :=
  if address ≠ ac.address cmd then none
  else (buttons.find? fun e => e.1 == ac.command cmd).map Prod.snd

/-- `encode`, `remotecontrol/mod.rs:46-51`. -/
def RemoteControlModel.encode {C : Type} (r : RemoteControlModel C) (button : Action) : Option C :=
  (r.buttons.find? fun e => e.2 == button).bind fun e => r.ac.create r.address e.1

/-- `Button`, `remotecontrol/mapper.rs:8-15`; its fields are read by `action` and `command`,
`remotecontrol/mapper.rs:22-28`. -/
structure Button (C : Type) where
  cmd : C
  action : Option Action

/-- `impl From<Cmd> for Button<Rc, Cmd>`, `remotecontrol/mapper.rs:39-46`. -/
def Button.from {C : Type} (r : RemoteControlModel C) (cmd : C) : Button C where
  cmd := cmd
  action := r.decode cmd

/-- `Button::is_repeat`, `remotecontrol/mapper.rs:30-32`. -/
def Button.isRepeat {C : Type} (r : RemoteControlModel C) (b : Button C) : Bool :=
  r.ac.isRepeat b.cmd

/-- `BUTTONS`, `remotecontrol/nec/samsungtv.rs:19-61`. -/
def samsungTvButtons : List (Nat × Action) :=
  [
    (2, .power), (1, .source), (4, .one), (5, .two), (6, .three), (8, .four), (9, .five),
    (10, .six), (12, .seven), (13, .eight), (14, .nine), (17, .zero), (44, .teletext),
    (19, .channelPrev), (7, .volumeUp), (11, .volumeDown), (15, .volumeMute),
    (107, .channelList), (18, .channelListNext), (16, .channelListPrev), (75, .tools),
    (31, .info), (88, .return_), (45, .exit), (104, .enter), (96, .up), (97, .down),
    (101, .left), (98, .right), (108, .red), (20, .green), (21, .yellow), (22, .blue),
    (63, .emanual), (62, .pictureSize), (37, .subtitle), (70, .stop), (69, .rewind),
    (71, .play), (74, .paus), (72, .forward)
  ]

/-- `SamsungTv`, `remotecontrol/nec/samsungtv.rs:12-62`. -/
def samsungTv : RemoteControlModel SamsungNecCommand where
  protocol := .necSamsung
  address := 7
  ac := samsungAC
  buttons := samsungTvButtons
  decode := defaultDecode samsungAC 7 samsungTvButtons

/-- `BUTTONS`, `remotecontrol/nec/specialformp3.rs:21-43`. -/
def specialForMp3Buttons : List (Nat × Action) :=
  [
    (69, .power), (70, .mode), (71, .mute), (68, .playPause), (64, .prev), (67, .next),
    (7, .eq_), (21, .minus), (9, .plus), (22, .zero), (25, .shuffle), (13, .uSd), (12, .one),
    (24, .two), (94, .three), (8, .four), (28, .five), (90, .six), (66, .seven), (82, .eight),
    (74, .nine)
  ]

/-- `SpecialForMp3`, `remotecontrol/nec/specialformp3.rs:13-44`. -/
def specialForMp3 : RemoteControlModel NecCommand where
  protocol := .nec
  address := 0
  ac := necAC
  buttons := specialForMp3Buttons
  decode := defaultDecode necAC 0 specialForMp3Buttons

/-- `BUTTONS`, `remotecontrol/rc5/cdplayer.rs:19-48`. -/
def cdPlayerButtons : List (Nat × Action) :=
  [
    (1, .one), (2, .two), (3, .three), (4, .four), (5, .five), (6, .six), (7, .seven),
    (8, .eight), (9, .nine), (11, .time), (12, .power), (16, .up), (17, .down), (18, .setup),
    (21, .left), (22, .right), (23, .enter), (28, .random), (29, .repeat), (32, .next),
    (33, .prev), (37, .pitchReset), (38, .pitchPlus), (39, .pitchMinus), (41, .prog),
    (48, .paus), (53, .play), (54, .stop)
  ]

/-- `CdPlayer`, `remotecontrol/rc5/cdplayer.rs:13-49`. -/
def cdPlayer : RemoteControlModel Rc5Command where
  protocol := .rc5
  address := 20
  ac := rc5AC
  buttons := cdPlayerButtons
  decode := defaultDecode rc5AC 20 cdPlayerButtons

/-- `BUTTONS`, `remotecontrol/sbp/blurayplayer.rs:18-28`. -/
def samsungBluRayPlayerButtons : List (Nat × Action) :=
  [
    (2, .one), (3, .two), (4, .three), (5, .four), (6, .five), (7, .six), (8, .seven),
    (9, .eight), (10, .nine)
  ]

/-- `SamsungBluRayPlayer`, `remotecontrol/sbp/blurayplayer.rs:12-29`. -/
def samsungBluRayPlayer : RemoteControlModel SbpCommand where
  protocol := .sbp
  address := 32
  ac := sbpAC
  buttons := samsungBluRayPlayerButtons
  decode := defaultDecode sbpAC 32 samsungBluRayPlayerButtons

/-- `BUTTONS`, `remotecontrol/nec/apple2009.rs:15-26`: (page, cmd) to action. -/
def apple2009Table : List ((BitVec 8 × BitVec 8) × Action) :=
  [ ((0x0E#8, 0x01#8), .menu), ((0x0E#8, 0x02#8), .playPause), ((0x0E#8, 0x03#8), .right),
    ((0x0E#8, 0x04#8), .left), ((0x0E#8, 0x05#8), .up), ((0x0E#8, 0x06#8), .down),
    ((0x0E#8, 0x2E#8), .enter), ((0x0E#8, 0x2F#8), .playPause2), ((0x00#8, 0x03#8), .batteryLow),
    ((0x00#8, 0x07#8), .batteryLow) ]

/-- `Apple2009`, `remotecontrol/nec/apple2009.rs:28-41`: own `decode`, and the trait's default
empty `BUTTONS` (so `encode` uses the empty table). -/
def apple2009 : RemoteControlModel AppleNecCommand where
  protocol := .necApple
  address := 0
  ac := appleAC
  buttons := []
  decode cmd :=
    (apple2009Table.find? fun e => e.1 == (cmd.commandPage, cmd.command)).map Prod.snd

end Infrared
