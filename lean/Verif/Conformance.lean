import Verif.Props.Buffers
import Verif.Props.Fugit
import Verif.Props.Usb
import Verif.Props.Sampling
import Verif.Model.Examples
import Verif.Model.Remote

/-!
# The crate's own tests, run on the model

Each test of `/repo/src/protocol/*/test{,s}.rs`, `/repo/src/protocol/utils.rs` and `/repo/tests` with the
inputs and the expectations written there, and the recording that comes with an example.  They are evidence that the model is the code, not proofs of properties.
The tests that loop over commands or frequencies (`all_commands` of RC5 and RC6, `timer_resolution`,
`all_nec_commands`, `clock_frequencies`, `state_debug`) are special cases of theorems: C39, C40, C41, C75.
-/

namespace Infrared.Conformance

open Spec

/-- The target the tests run on. -/
def host : Target := ⟨true, 64⟩

/-! ## `protocol/utils.rs:15-27` -/

example : scaleWithSamplerate 560 20000 = some 11 := by rw [scaleWithSamplerate, scaleLoop]; decide
example : scaleWithSamplerate 560 100000 = some 56 := by rw [scaleWithSamplerate, scaleLoop]; decide
example : scaleWithSamplerate 560 1000000 = some 560 := by rw [scaleWithSamplerate, scaleLoop]; decide

/-! ## `protocol/nec/tests.rs` -/

/-- `tests.rs:17-27`. -/
def standardNec : List Nat :=
  [0, 363, 177, 24, 21, 24, 21, 24, 21, 24, 21, 24, 21, 24, 20, 24, 21, 24, 21, 24, 66, 24, 66, 24, 65, 25, 65, 24,
   66, 24, 66, 24, 65, 25, 65, 24, 21, 24, 21, 24, 66, 24, 65, 24, 21, 24, 21, 24, 21, 24, 21, 24, 65, 25, 65, 24,
   21, 24, 21, 24, 66, 24, 65, 25, 65, 24, 66, 24, 0, 363, 177, 24, 21, 24, 21, 24, 21, 24, 21, 24, 21, 24, 20, 24,
   21, 24, 21, 24, 66, 24, 66, 24, 65, 25, 65, 24, 66, 24, 66, 24, 65, 25, 65, 24, 21, 24, 21, 24, 66, 24, 65, 24,
   21, 24, 21, 24, 21, 24, 21, 24, 65, 25, 65, 24, 21, 24, 21, 24, 66, 24, 65, 25, 65, 24, 66, 24]

/-- `standard_nec`, `tests.rs:12-38`. -/
example : (BufferInputReceiver.withFrequency 40000).collect (necBuild host Mono.u32 Infrared.nec) id standardNec =
    some (List.replicate 2 { addr := 0, cmd := 12, rep := false }) := by
  have h : necSpans host Mono.u32 Infrared.nec 40000 = some (necTable 40000) := by decide +kernel
  simp only [BufferInputReceiver.collect, BufferInputReceiver.withFrequency, necBuild, h, Option.map_some,
    Option.bind_some]
  exact collect_of (nec_commits _ _ _ _ nec_total) id _ _ (by decide +kernel)

/-- `cmd_standard`, `tests.rs:40-58`. -/
example :
    let cmd : NecCommand := { addr := 7, cmd := 44, rep := false }
    let bits := cmd.pack
    NecCommand.validate bits = true ∧ bits = 0xD32CF807 ∧
      (bits >>> 24) &&& 0xFF = ~~~(bits >>> 16) &&& 0xFF ∧ (bits >>> 8) &&& 0xFF = ~~~bits &&& 0xFF ∧
      NecCommand.unpack bits false = some cmd := by decide

/-- `cmd_samsumg`, `tests.rs:60-77`. -/
example :
    let cmd : SamsungNecCommand := { addr := 7, cmd := 44, rep := false }
    let bits := cmd.pack
    bits = 0xD32C0707 ∧ (bits >>> 24) &&& 0xFF = ~~~(bits >>> 16) &&& 0xFF ∧
      (bits >>> 8) &&& 0xFF = bits &&& 0xFF ∧ SamsungNecCommand.unpack bits false = some cmd := by decide

/-- `cmd_nec16`, `tests.rs:79-95`. -/
example :
    let cmd : Nec16Command := { addr := 28114, cmd := 220, rep := false }
    let bits := cmd.pack
    Nec16Command.validate bits = true ∧ bits = 0x23DC6DD2 ∧
      (bits >>> 24) &&& 0xFF = ~~~(bits >>> 16) &&& 0xFF ∧ Nec16Command.unpack bits false = some cmd := by decide

/-- `cmd_apple2009`, `tests.rs:147-169`. -/
example : ∀ x ∈ ([(0x9B0987EE, 0x04), (0x9B0A87EE, 0x05), (0x9B0687EE, 0x03), (0x9B0C87EE, 0x06), (0x9B5C87EE, 0x2e),
      (0x9B0587EE, 0x02), (0x9B0387EE, 0x01), (0x9B5F87EE, 0x2F), (0x9B0587EE, 0x02)] : List (BitVec 32 × BitVec 8)),
    AppleNecCommand.validate x.1 = true ∧
      (AppleNecCommand.unpack x.1 false).map (fun c => (c.commandPage, c.command)) = some (0xE, x.2) := by
  decide +kernel

/-- `tests.rs:173-189` and `205-221`. -/
def repeats : List Nat :=
  [0, 9130, 4532, 571, 562, 571, 562, 571, 562, 570, 563, 572, 562, 571, 562, 570, 562, 571, 562, 571, 1699, 570,
   1697, 571, 1697, 571, 1698, 572, 1697, 570, 1699, 570, 1698, 571, 1698, 571, 562, 571, 563, 569, 564, 571, 1697,
   571, 1698, 571, 562, 572, 562, 571, 562, 571, 1697, 571, 1697, 571, 1698, 570, 563, 571, 562, 569, 1698, 571,
   1698, 570, 1699, 571, 40648, 9124, 2260, 571, 97387, 9123, 2259, 571, 97385, 9125, 2260, 571, 97398, 9126, 2260,
   571, 97380, 9120, 2258, 571, 97373, 9124, 2259, 572, 97409, 9124, 2258, 571, 97387]

/-- `repeat`, `tests.rs:171-201`. -/
example : (BufferInputReceiver.withFrequency 1000000).collect (necBuild host Mono.u32 Infrared.nec) NecCommand.rep
    repeats = some [false, true, true, true, true, true, true, true] := by
  have h : necSpans host Mono.u32 Infrared.nec 1000000 = some (necTable 1000000) := by decide +kernel
  simp only [BufferInputReceiver.collect, BufferInputReceiver.withFrequency, necBuild, h, Option.map_some,
    Option.bind_some]
  exact collect_of (nec_commits _ _ _ _ nec_total) _ _ _ (by decide +kernel)

/-- `fugit`, `tests.rs:203-247`.  A microsecond of a 1 MHz clock is one tick. -/
example : (((necBuild host (Mono.fugit 32 some fun _ _ => none) Infrared.nec 1000000).bind fun D =>
      results D NecCommand.rep (alternating true repeats)).map commands) =
    some [false, true, true, true, true, true, true, true] := by decide +kernel

/-! ## `protocol/rc5/tests.rs` -/

/-- `rc5_command`, `tests.rs:8-12`. -/
example : Rc5Command.unpack (Rc5Command.new 20 15 false).pack = Rc5Command.new 20 15 false := by decide

/-- `tests.rs:16-19`. -/
def rc5Dists : List Nat :=
  [0, 37, 34, 72, 72, 73, 70, 72, 36, 37, 34, 36, 36, 36, 71, 73, 35, 37, 70, 37, 0, 37, 34, 72, 72, 73, 70, 72,
   36, 37, 34, 36, 36, 36, 71, 73, 35, 37, 70, 37]

theorem rc5_40k : rc5Build host Mono.u32 40000 = some (rc5Decoder host (rc5Table 40000)) := by
  rw [rc5Build, show rc5Spans host Mono.u32 40000 = some (rc5Table 40000) by decide +kernel]; rfl

/-- `test_bufrecv`, `tests.rs:14-30`. -/
example : (BufferInputReceiver.withFrequency 40000).collect (rc5Build host Mono.u32) (fun c => (c.addr, c.cmd))
    rc5Dists = some (List.replicate 2 (20, 9)) := by
  simp only [BufferInputReceiver.collect, BufferInputReceiver.withFrequency, rc5_40k, Option.bind_some]
  exact collect_of (rc5_commits _ _) _ _ _ (by decide +kernel)

/-- `tests.rs:39-45`. -/
def rc5Mixed : List Nat :=
  [57910, 36, 36, 36, 35, 37, 35, 72, 71, 72, 36, 36, 36, 36, 35, 36, 36, 36, 35, 36, 36, 36, 71, 36, 26605, 36,
   36, 71, 72, 72, 71, 72, 36, 36, 35, 36, 36, 36, 35, 37, 35, 36, 36, 36, 71, 36, 10254, 37, 35, 37, 34, 37, 35,
   37, 35, 73, 34, 38, 70, 37, 141, 38, 34, 37, 35, 37, 34, 38, 34, 37, 70, 73, 35, 37, 35, 37, 34, 38, 34, 37, 34,
   38, 50973, 38, 34, 73, 70, 73, 70, 74, 34, 37, 35, 37, 34, 38, 34, 37, 35, 37, 34, 38, 70, 37]

/-- `command_mixed`, `tests.rs:32-64`. -/
example : (BufferInputReceiver.withFrequency 40000).collect (rc5Build host Mono.u32) (fun c => (c.addr, c.cmd))
    rc5Mixed = some (List.replicate 3 (20, 1)) := by
  simp only [BufferInputReceiver.collect, BufferInputReceiver.withFrequency, rc5_40k, Option.bind_some]
  exact collect_of (rc5_commits _ _) _ _ _ (by decide +kernel)

/-- The second half of `command_mixed`, with the CD player's buttons. -/
example : (BufferInputReceiver.withFrequency 40000).collect (rc5Build host Mono.u32)
    (fun c => (Button.from cdPlayer c).action) rc5Mixed = some (List.replicate 3 (some .one)) := by
  simp only [BufferInputReceiver.collect, BufferInputReceiver.withFrequency, rc5_40k, Option.bind_some]
  exact collect_of (rc5_commits _ _) _ _ _ (by decide +kernel)

/-! ## `protocol/rc6/tests.rs` -/

/-- `tests.rs:50-53`. -/
def rc6Dists : List Nat :=
  [0, 106, 35, 17, 35, 17, 17, 17, 17, 17, 35, 35, 17, 35, 35, 17, 17, 17, 17, 35, 17, 17, 35, 17, 17, 17, 17, 17,
   17, 17, 17, 17, 17, 17, 17, 35, 35, 35]

theorem rc6_40k : rc6Build host Mono.u32 40000 = some (rc6Decoder host (rc6Table 40000)) := by
  rw [rc6Build, show rc6Spans host Mono.u32 40000 = some (rc6Table 40000) by decide +kernel]; rfl

/-- `decode_buffer`, `tests.rs:45-69`. -/
example : (BufferInputReceiver.withFrequency 40000).collect (rc6Build host Mono.u32) (fun c => (c.addr, c.cmd))
    rc6Dists = some [(70, 2)] := by
  simp only [BufferInputReceiver.collect, BufferInputReceiver.withFrequency, rc6_40k, Option.bind_some]
  exact collect_of (rc6_commits _ _) _ _ _ (by decide +kernel)

/-! ## `protocol/denon/test.rs` -/

/-- `test.rs:7-19`: three frames, the second damaged. -/
def denonDists : List Nat :=
  [0, 136, 65, 18, 16, 18, 15, 19, 49, 18, 15, 19, 48, 19, 15, 19, 48, 19, 15, 18, 15, 19, 48, 19, 15, 19, 14, 19,
   49, 18, 49, 18, 15, 19, 15, 19, 14, 19, 15, 19, 15, 18, 15, 19, 15, 19, 14, 19, 48, 19, 15, 19, 49, 18, 16, 17,
   16, 18, 16, 18, 16, 17, 16, 18, 16, 18, 15, 18, 49, 18, 16, 17, 17, 17, 16, 18, 16, 17, 16, 18, 16, 18, 15, 18,
   16, 17, 17, 17, 16, 18, 16, 18, 15, 18, 16, 18, 49, 18, 16, 18, 2939, 138, 65, 17, 16, 18, 16, 18, 49, 18, 16,
   17, 50, 18, 15, 18, 50, 17, 16, 18, 16, 17, 50, 17, 16, 18, 16, 17, 18, 49, 18, 16, 16, 17, 18, 16, 18, 16, 17,
   16, 19, 15, 18, 15, 18, 16, 17, 50, 19, 15, 19, 48, 17, 16, 19, 15, 18, 15, 19, 15, 18, 16, 18, 15, 19, 15, 19,
   48, 19, 14, 19, 15, 19, 15, 19, 14, 19, 15, 19, 14, 19, 15, 19, 14, 19, 15, 19, 15, 18, 15, 19, 15, 19, 14, 20,
   47, 19, 15, 19, 2940, 136, 65, 19, 15, 18, 15, 19, 49, 18, 15, 19, 48, 19, 15, 19, 48, 19, 15, 18, 15, 19, 48,
   19, 15, 18, 15, 19, 49, 18, 49, 18, 15, 19, 15, 19, 14, 19, 15, 19, 15, 18, 15, 19, 15, 19, 14, 19, 48, 19, 15,
   19, 48, 19, 15, 18, 17, 16, 19, 15, 19, 15, 18, 15, 19, 49, 19, 15, 18, 16, 17, 16, 18, 16, 18, 15, 18, 16, 19,
   14, 18, 16, 18, 16, 17, 16, 18, 16, 18, 15, 18, 16, 18, 49, 18, 16, 18]

/-- `denon`, `test.rs:3-30`. -/
example : ((BufferInputReceiver.withFrequency 40000).collect (denonBuild host Mono.u32) id denonDists).map
    List.length = some 2 := by
  have h : denonSpans host Mono.u32 40000 = some (denonTable 40000) := by decide +kernel
  have h2 : ∃ outs, results (denonDecoder host Mono.u32 (denonTable 40000)) id (alternating true denonDists) =
      some outs ∧ (commands outs).length = 2 := by
    rcases hr : results (denonDecoder host Mono.u32 (denonTable 40000)) id (alternating true denonDists) with _ | outs
    · exact absurd hr (by decide +kernel)
    · refine ⟨outs, rfl, ?_⟩
      have : (results (denonDecoder host Mono.u32 (denonTable 40000)) id (alternating true denonDists)).map
        (fun o => (commands o).length) = some 2 := by decide +kernel
      rw [hr] at this
      exact Option.some.inj this
  obtain ⟨outs, h3, h4⟩ := h2
  simp only [BufferInputReceiver.collect, BufferInputReceiver.withFrequency, denonBuild, h, Option.map_some,
    Option.bind_some, C33_buffer_denon _ _ _ id _ _ h3, h4]

/-! ## `tests/polled.rs` -/

/-- `polled.rs:11-15`. -/
def polledData : List Nat :=
  [57910, 36, 36, 36, 35, 37, 35, 72, 71, 72, 36, 36, 36, 36, 35, 36, 36, 36, 35, 36, 36, 36, 71, 36, 26605, 36,
   36, 71, 72, 72, 71, 72, 36, 36, 35, 36, 36, 36, 35, 37, 35, 36, 36, 36, 71, 36]

/-- The samples the nested loops of the test pass to `poll`, `polled.rs:23-30`. -/
def polledSamples : (pinstate : Bool) → List Nat → List Bool
  | _, [] => []
  | p, n :: ns => List.replicate n p ++ polledSamples (!p) ns

/-- The edges among these samples. -/
def runEdges : (level : Bool) → (n : Nat) → List Nat → List Ev
  | _, _, [] => []
  | level, n, d :: ds => (!level, n + 1) :: runEdges (!level) (d - 1) ds

theorem runEdges_eq (ds : List Nat) (level : Bool) (n : Nat) (hn : n + 1 < 2 ^ 32)
    (hd : ∀ d ∈ ds, 0 < d ∧ d < 2 ^ 32) :
    (sampledEdges level n (polledSamples (!level) ds)).filterMap id = runEdges level n ds := by
  induction ds generalizing level n with
  | nil => rfl
  | cons d ds ih =>
    obtain ⟨h0, h1⟩ := hd d (by simp)
    obtain ⟨k, rfl⟩ : ∃ k, d = k + 1 := ⟨d - 1, by omega⟩
    rw [polledSamples, List.replicate_succ, List.cons_append, sampledEdges, if_neg (by cases level <;> decide),
      Nat.mod_eq_of_lt hn, sampledEdges_same, List.filterMap_cons, id_eq, List.filterMap_append,
      show List.filterMap id (List.replicate k (none : Option Ev)) = [] by
        rw [List.filterMap_eq_nil_iff]; intro x hx; exact List.eq_of_mem_replicate hx,
      List.nil_append, ih _ _ (by omega) fun x hx => hd x (by simp [hx])]
    simp [runEdges]

/-- `polled_rc5`, `polled.rs:1-40`: `res` is the last command. -/
example : ((rc5Build host Mono.u32 40000).bind fun D => pollRun D id (polledSamples false polledData)).map
      (fun outs => (commands outs).getLast?) =
    some (some { addr := 20, cmd := 1, start := 3, toggle := false }) := by
  have hev : (sampledEdges false 0 (polledSamples false polledData)).filterMap id =
      runEdges false 57910 polledData.tail := by
    have : polledSamples false polledData = List.replicate 57910 false ++ polledSamples true polledData.tail := rfl
    rw [this, sampledEdges_same, List.filterMap_append,
      show List.filterMap id (List.replicate 57910 (none : Option Ev)) = [] by
        rw [List.filterMap_eq_nil_iff]; intro x hx; exact List.eq_of_mem_replicate hx,
      List.nil_append]
    exact runEdges_eq polledData.tail false _ (by decide) (by decide)
  rw [rc5_40k, Option.bind_some]
  have h := poll_said (rc5Decoder host (rc5Table 40000)) id (polledSamples false polledData)
  rw [hev] at h
  have hres : (results (rc5Decoder host (rc5Table 40000)) id (runEdges false 57910 polledData.tail)).map said =
      some (oks [{ addr := 20, cmd := 1, start := 3, toggle := true },
        { addr := 20, cmd := 1, start := 3, toggle := false }]) := by decide +kernel
  rw [hres] at h
  have h2 := commands_of_said h
  rw [show (fun outs : List (Res Rc5Command) => (commands outs).getLast?) = List.getLast? ∘ commands from rfl,
    ← Option.map_map, h2]
  rfl

/-! ## `examples/vcd-parser/samsung-tv.vcd`

A recording of a remote control, at 40 kHz (`$timescale 25 us`).  The repository does not say what is on it; the
program as modelled prints ten commands of the Samsung TV remote, the keys 1 to 6, and no error. -/

/-- The time stamps of the file; the wire `!` (code 33) is low at first and changes at each of them. -/
def captureStamps : List Nat :=
  [0, 181, 361, 384, 450, 473, 540, 563, 630, 653, 675, 698, 719, 743, 764, 787, 809, 832, 854, 877, 944, 967,
   1034, 1057, 1123, 1146, 1168, 1191, 1213, 1236, 1258, 1281, 1303, 1326, 1348, 1371, 1392, 1416, 1437, 1460,
   1527, 1550, 1572, 1595, 1617, 1640, 1662, 1685, 1706, 1729, 1751, 1774, 1841, 1864, 1931, 1954, 1976, 1998,
   2065, 2088, 2155, 2178, 2245, 2268, 2335, 2357, 2424, 2447, 4447, 4629, 4808, 4832, 4897, 4922, 4987, 5011,
   5077, 5101, 5122, 5146, 5167, 5191, 5212, 5236, 5256, 5281, 5301, 5326, 5391, 5415, 5481, 5505, 5570, 5595,
   5615, 5640, 5660, 5685, 5705, 5729, 5750, 5774, 5795, 5819, 5885, 5909, 5929, 5955, 6019, 6043, 6064, 6088,
   6109, 6133, 6154, 6178, 6199, 6223, 6244, 6268, 6288, 6313, 6378, 6402, 6423, 6447, 6513, 6537, 6602, 6627,
   6692, 6716, 6782, 6806, 6872, 6896, 8896, 9079, 9258, 9282, 9347, 9372, 9437, 9461, 9527, 9551, 9572, 9596,
   9617, 9641, 9661, 9686, 9706, 9731, 9751, 9775, 9841, 9865, 9931, 9955, 10020, 10045, 10065, 10090, 10110,
   10134, 10155, 10179, 10200, 10224, 10245, 10269, 10290, 10314, 10379, 10404, 10469, 10494, 10514, 10538, 10559,
   10583, 10604, 10628, 10649, 10673, 10694, 10718, 10783, 10807, 10828, 10852, 10873, 10897, 10963, 10987, 11052,
   11077, 11142, 11166, 11232, 11256, 11322, 11346, 13346, 13528, 13707, 13731, 13796, 13821, 13886, 13910, 13976,
   14000, 14021, 14045, 14066, 14090, 14111, 14135, 14155, 14180, 14200, 14225, 14290, 14314, 14380, 14404, 14470,
   14494, 14514, 14539, 14559, 14583, 14604, 14628, 14649, 14673, 14694, 14718, 14739, 14763, 14829, 14853, 14918,
   14942, 14963, 14987, 15008, 15032, 15053, 15077, 15098, 15122, 15143, 15167, 15232, 15256, 15277, 15301, 15322,
   15346, 15412, 15436, 15502, 15526, 15591, 15615, 15681, 15705, 15771, 15795, 17795, 17976, 18156, 18179, 18246,
   18269, 18336, 18359, 18425, 18448, 18470, 18493, 18515, 18538, 18560, 18583, 18605, 18628, 18650, 18673, 18740,
   18763, 18829, 18852, 18919, 18942, 18964, 18987, 19009, 19032, 19054, 19077, 19099, 19122, 19143, 19166, 19188,
   19211, 19233, 19256, 19278, 19301, 19368, 19391, 19413, 19436, 19458, 19481, 19502, 19525, 19547, 19570, 19637,
   19660, 19727, 19750, 19817, 19840, 19861, 19884, 19951, 19974, 20041, 20064, 20131, 20154, 20220, 20243, 22243,
   22425, 22604, 22627, 22694, 22717, 22784, 22807, 22874, 22897, 22918, 22941, 22963, 22986, 23008, 23031, 23053,
   23076, 23098, 23121, 23188, 23211, 23277, 23300, 23367, 23390, 23412, 23435, 23457, 23480, 23502, 23525, 23547,
   23570, 23591, 23615, 23636, 23659, 23681, 23704, 23726, 23749, 23816, 23839, 23861, 23884, 23906, 23929, 23950,
   23974, 23995, 24018, 24085, 24108, 24175, 24198, 24265, 24288, 24309, 24333, 24399, 24422, 24489, 24512, 24579,
   24602, 24668, 24692, 26692, 26873, 27053, 27076, 27143, 27166, 27233, 27256, 27322, 27345, 27367, 27390, 27412,
   27435, 27457, 27480, 27502, 27525, 27547, 27570, 27636, 27659, 27726, 27749, 27816, 27839, 27861, 27884, 27906,
   27929, 27951, 27974, 27995, 28018, 28040, 28063, 28130, 28153, 28175, 28198, 28220, 28243, 28310, 28333, 28354,
   28378, 28399, 28422, 28444, 28467, 28489, 28512, 28534, 28557, 28624, 28647, 28713, 28737, 28758, 28781, 28848,
   28871, 28938, 28961, 29028, 29051, 29117, 29140, 31140, 31322, 31501, 31524, 31591, 31614, 31681, 31704, 31771,
   31794, 31815, 31839, 31860, 31883, 31905, 31928, 31950, 31973, 31995, 32018, 32085, 32108, 32174, 32198, 32264,
   32287, 32309, 32332, 32354, 32377, 32399, 32422, 32444, 32467, 32488, 32512, 32578, 32601, 32623, 32646, 32668,
   32691, 32758, 32781, 32803, 32826, 32847, 32871, 32892, 32915, 32937, 32960, 32982, 33005, 33072, 33095, 33162,
   33185, 33206, 33230, 33296, 33319, 33386, 33409, 33476, 33499, 33565, 33589, 35589, 35770, 35950, 35973, 36040,
   36063, 36130, 36153, 36219, 36242, 36264, 36287, 36309, 36332, 36354, 36377, 36399, 36422, 36444, 36467, 36533,
   36556, 36623, 36646, 36713, 36736, 36758, 36781, 36803, 36825, 36848, 36870, 36892, 36915, 36937, 36960, 36982,
   37005, 37072, 37095, 37117, 37140, 37206, 37229, 37251, 37274, 37296, 37319, 37341, 37364, 37386, 37409, 37476,
   37499, 37521, 37543, 37610, 37633, 37655, 37678, 37745, 37768, 37835, 37858, 37924, 37947, 38014, 38037, 40037,
   40219, 40398, 40421, 40488, 40511, 40578, 40601, 40668, 40691, 40712, 40735, 40757, 40780, 40802, 40825, 40847,
   40870, 40892, 40915, 40982, 41005, 41071, 41094, 41161, 41184, 41206, 41229, 41251, 41274, 41296, 41319, 41341,
   41364, 41386, 41408, 41430, 41453, 41520, 41543, 41565, 41588, 41655, 41678, 41700, 41723, 41745, 41767, 41789,
   41812, 41834, 41857, 41924, 41947, 41969, 41992, 42059, 42082, 42104, 42126, 42193, 42216, 42283, 42306, 42373,
   42396, 42463, 42485]

/-- The records of the file after `$dumpvars`. -/
def captureRecords : (level : Bool) → List Nat → List VcdCommand
  | _, [] => []
  | l, ts :: tss => .timestamp ts :: .changeScalar 33 l :: captureRecords (!l) tss

example : vcdSamplerate 25 .us = some 40000 := rfl

example : ((necSpans host Mono.u64 samsungNec 40000).bind fun tbl =>
      vcdLoop (necDecoder host Mono.u64 tbl samsungNec) 33 0 (Receiver.new _)
        (.changeScalar 33 false :: captureRecords true captureStamps)).map
      (List.map (Res.map fun c => (Button.from samsungTv c).action)) =
    some (([.one, .two, .three, .three, .four, .four, .five, .five, .six, .six] : List Action).map
      fun a => .ok (some (some a))) := by decide +kernel

end Infrared.Conformance
