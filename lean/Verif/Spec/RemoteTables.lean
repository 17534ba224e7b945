import Verif.Model.Remote

/-!
# Button tables

Written by `tools/remotes.py` from `/repo/src/remotecontrol`, sorted by code; not used by the model.
-/

namespace Infrared.Spec

/-- Address 7, `nec/samsungtv.rs`. -/
def samsungTvAddress : Nat := 7

/-- 41 buttons, `nec/samsungtv.rs`. -/
def samsungTvTable : List (Nat × Action) :=
  [
    (1, .source), (2, .power), (4, .one), (5, .two), (6, .three), (7, .volumeUp), (8, .four),
    (9, .five), (10, .six), (11, .volumeDown), (12, .seven), (13, .eight), (14, .nine),
    (15, .volumeMute), (16, .channelListPrev), (17, .zero), (18, .channelListNext),
    (19, .channelPrev), (20, .green), (21, .yellow), (22, .blue), (31, .info), (37, .subtitle),
    (44, .teletext), (45, .exit), (62, .pictureSize), (63, .emanual), (69, .rewind), (70, .stop),
    (71, .play), (72, .forward), (74, .paus), (75, .tools), (88, .return_), (96, .up), (97, .down),
    (98, .right), (101, .left), (104, .enter), (107, .channelList), (108, .red)
  ]

/-- Address 0, `nec/specialformp3.rs`. -/
def specialForMp3Address : Nat := 0

/-- 21 buttons, `nec/specialformp3.rs`. -/
def specialForMp3Table : List (Nat × Action) :=
  [
    (7, .eq_), (8, .four), (9, .plus), (12, .one), (13, .uSd), (21, .minus), (22, .zero),
    (24, .two), (25, .shuffle), (28, .five), (64, .prev), (66, .seven), (67, .next),
    (68, .playPause), (69, .power), (70, .mode), (71, .mute), (74, .nine), (82, .eight), (90, .six),
    (94, .three)
  ]

/-- Address 20, `rc5/cdplayer.rs`. -/
def cdPlayerAddress : Nat := 20

/-- 28 buttons, `rc5/cdplayer.rs`. -/
def cdPlayerTable : List (Nat × Action) :=
  [
    (1, .one), (2, .two), (3, .three), (4, .four), (5, .five), (6, .six), (7, .seven), (8, .eight),
    (9, .nine), (11, .time), (12, .power), (16, .up), (17, .down), (18, .setup), (21, .left),
    (22, .right), (23, .enter), (28, .random), (29, .repeat), (32, .next), (33, .prev),
    (37, .pitchReset), (38, .pitchPlus), (39, .pitchMinus), (41, .prog), (48, .paus), (53, .play),
    (54, .stop)
  ]

/-- Address 32, `sbp/blurayplayer.rs`. -/
def samsungBluRayAddress : Nat := 32

/-- 9 buttons, `sbp/blurayplayer.rs`. -/
def samsungBluRayTable : List (Nat × Action) :=
  [
    (2, .one), (3, .two), (4, .three), (5, .four), (6, .five), (7, .six), (8, .seven), (9, .eight),
    (10, .nine)
  ]

/-- `Action::to_str`, `mod.rs`. -/
def actionNames : List (Action × String) :=
  [
    (.power, "power"), (.source, "source"), (.one, "one"), (.two, "two"), (.three, "three"),
    (.four, "four"), (.five, "five"), (.six, "six"), (.seven, "seven"), (.eight, "eight"),
    (.nine, "nine"), (.zero, "zero"), (.teletext, "teletext"), (.channelPrev, "channel_prev"),
    (.volumeUp, "volume_up"), (.volumeDown, "volume_down"), (.volumeMute, "volume_mute"),
    (.channelList, "channellist"), (.channelListNext, "channellist_next"),
    (.channelListPrev, "channellist_prev"), (.tools, "tools"), (.info, "info"),
    (.return_, "return"), (.exit, "exit"), (.enter, "enter"), (.up, "up"), (.down, "down"),
    (.left, "left"), (.right, "right"), (.red, "red"), (.green, "green"), (.yellow, "yellow"),
    (.blue, "blue"), (.emanual, "e_manual"), (.pictureSize, "picture_size"),
    (.subtitle, "subtitle"), (.stop, "stop"), (.rewind, "rewind"), (.play, "play"),
    (.paus, "pause"), (.playPause, "play_pause"), (.playPause2, "play_pause2"),
    (.forward, "forward"), (.mode, "mode"), (.shuffle, "shuffle"), (.uSd, "u_sd"), (.plus, "plus"),
    (.minus, "minus"), (.next, "next"), (.prev, "prev"), (.eq_, "equalizer"), (.mute, "mute"),
    (.random, "random"), (.repeat, "repeat"), (.time, "time"), (.setup, "setup"), (.menu, "menu"),
    (.pitchReset, "pitch_reset"), (.pitchPlus, "pitch_plus"), (.pitchMinus, "pitch_minus"),
    (.prog, "program"), (.batteryLow, "battery_low")
  ]

end Infrared.Spec
