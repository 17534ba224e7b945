import Verif.Props.Kept
import Verif.Props.Row

/-!
# C112: keys that bounce, through any number of programs
-/

namespace Infrared
open Spec

theorem Spec.Press.Within.mono {A : Type} {p : Press A} {n m : Nat} (h : p.Within n) (hm : n ≤ m) : p.Within m :=
  ⟨h.1, fun i hi => Nat.le_trans (h.2 i hi) hm⟩

/-- Further commands within 22 ms do not change what a new sender of one of the three protocols does. -/
theorem C112_same (t : Target) (fs : Nat) (hfs : 80000 ≤ fs) (hhi : fs ≤ 9673349) (p : Tongue)
    (enc : p.Cmd → Encode) (henc : Tongue.encoder t fs p = some enc) (ps : List (Press p.Cmd)) (S : Nat) (hS : p.slots ≤ S)
    (pin : Bool) (hmore : ∀ q ∈ ps, q.Within (22 * fs / 1000))
    (hticks : ∀ q ∈ ps, 115 * fs + 1000 * (S - p.slots) ≤ 1000 * q.ticks) :
    (Sender.new S pin).calls (session enc (ps.flatMap Press.loads)) =
      (Sender.new S pin).calls (session enc (ps.map fun q => (q.cmd, q.ticks))) := by
  have hzero : ∀ d ∈ (Sender.new S pin).buffer.ptb.buf, d = 0 := fun d hd =>
    List.eq_of_mem_replicate (show d ∈ List.replicate S 0 from hd)
  have hlen : (Sender.new S pin).buffer.ptb.buf.length = p.slots + (S - p.slots) := by
    show (List.replicate S 0).length = _
    rw [List.length_replicate]; omega
  have hz : (Sender.new S pin).buffer.ptb.buf.drop p.slots = List.replicate (S - p.slots) 0 := List.drop_replicate ..
  cases p with
  | nec =>
    obtain ⟨data, hdata, rfl⟩ := Option.map_eq_some_iff.mp henc
    refine nec_presses_same fs (by omega) Infrared.nec (.inl rfl) data hdata ps (fun _ _ _ _ => rfl) _ rfl _ hlen hz
      (fun d hd => by rw [hzero d hd]; decide) (fun q hq => (hmore q hq).mono ?_) (fun q hq => Nat.le_trans
        (show 108 * fs + 1000 * (S - 67) ≤ 115 * fs + 1000 * (S - 67) by omega) (hticks q hq))
    have h := (standard_ticks hdata).2
    rw [show ones ((Infrared.nec.pack q.cmd).getD 0) = 16 from (C100_ones q.cmd ⟨0, 0, false⟩ ⟨0, 0, false⟩).1]
    omega
  | rc5 =>
    obtain ⟨l, hl, rfl⟩ := Option.map_eq_some_iff.mp henc
    have e := (rc5CalcFreq_eq (by omega) hl).2 (by omega)
    refine rc5_presses_same t fs (by omega) (by omega) l hl ps _ rfl _ hlen hz
      (fun d hd => by rw [hzero d hd]; omega) (fun q hq => (hmore q hq).mono ?_) (fun q hq => Nat.le_trans
        (show 114 * fs + 1000 * (S - 27) ≤ 115 * fs + 1000 * (S - 27) by omega) (hticks q hq))
    omega
  | rc6 =>
    obtain ⟨l, hl, rfl⟩ := Option.map_eq_some_iff.mp henc
    have e : rc6Data fs = some (444 * fs / 1000000) := if_pos (by omega)
    rw [hl, Option.some.injEq] at e
    refine rc6_presses_same fs (by omega) l hl ps _ rfl _ hlen hz
      (fun d hd => by rw [hzero d (List.mem_of_mem_drop hd)]; omega) (fun d hd => by rw [hzero d hd]; decide)
      (fun q hq => (hmore q hq).mono ?_) (fun q hq => Nat.le_trans
        (show 106 * fs + 1000 * (S - 44) ≤ 115 * fs + 1000 * (S - 44) by omega) (hticks q hq))
    omega

/-- **C112**: as C109, but the remote has keys that bounce: for each press its sender is given a command and then, after the
first tick and within 22 ms, any number of others, whatever they are.  If the presses are `115 + N` ms apart, and one tick
more for each of the `K` spare slots, any receiver that listens to the last of the `N` programs reports exactly the first
command of each press, converted by all of the programs, in order, once each, and nothing else. -/
theorem C112_row (t : Target) (hus : 16 ≤ t.usizeBits) (fs : Nat) (hfs : 80000 ≤ fs) (hhi : fs ≤ 9673349) {p z : Tongue}
    (ps : List (Press p.Cmd)) (hfit : ∀ q ∈ ps, p.Fits q.cmd) (S K : Nat) (hS : p.slots ≤ S) (hK : S ≤ p.slots + K)
    (pin : Bool) (row : Row p z) (hrow : row.Ready K fs (sessionTicks (ps.flatMap Press.loads)))
    (hmore : ∀ q ∈ ps, q.Within (22 * fs / 1000))
    (hticks : ∀ q ∈ ps, (115 + row.count) * fs + 1000 * K ≤ 1000 * q.ticks ∧ q.ticks + 1 < 2 ^ 32) :
    ∃ enc s' levels levels', Tongue.encoder t fs p = some enc ∧
      (Sender.new S pin).calls (session enc (ps.flatMap Press.loads)) = some (s', levels) ∧
      row.run t fs levels = some levels' ∧
      ∀ (T : Type) (conv : z.Cmd → T) (f : Nat) (D : Decoder z.Cmd) (pause phase polls : Nat), f < 2 ^ 32 →
      Tongue.decoder t f z = some D →
      Listens (row.rate fs) (row.polls (sessionTicks (ps.flatMap Press.loads))) f pause phase polls →
      (pollRun D conv (overhear (row.rate fs) f phase pause levels' polls)).map said =
        some (oks (ps.map fun q => conv (row.convert (p.heard q.cmd)))) := by
  rw [presses_ticks] at hrow ⊢
  obtain ⟨enc, s', levels, levels', h1, h2, h3, h4⟩ := C109_row t hus fs hfs hhi (ps.map fun q => (q.cmd, q.ticks))
    (fun x hx => by obtain ⟨q, hq, rfl⟩ := List.mem_map.mp hx; exact hfit q hq) S K hS hK pin row hrow
    (fun x hx => by obtain ⟨q, hq, rfl⟩ := List.mem_map.mp hx; exact hticks q hq)
  refine ⟨enc, s', levels, levels', h1, ?_, h3, fun T conv f D pause phase polls hf hD hl => ?_⟩
  · rw [C112_same t fs hfs hhi p enc h1 ps S hS pin hmore fun q hq => ?_, h2]
    have h5 := (hticks q hq).1
    rw [Nat.add_mul] at h5
    omega
  · rw [h4 T conv f D pause phase polls hf hD hl, List.map_map]
    rfl

/-! ### The hypotheses can be met -/

/-- C112 applies: a NEC remote, one key press every 120 ms, with two further commands 1.25 and 13.75 ms after the first, the
programs of C109, and a receiver of RC6, all at 80 kHz; the
senders have 128 slots. -/
example (t : Target) (hus : 16 ≤ t.usizeBits) (cmds : List NecCommand) (other : NecCommand) (hlen : cmds.length ≤ 100000) :
    ∃ enc s' levels levels', Tongue.encoder t 80000 .nec = some enc ∧
      (Sender.new 128 false).calls (session enc (cmds.flatMap fun c => [(c, 100), (other, 1000), (c, 8500)])) = some (s', levels) ∧
      (Row.next (exampleBridge₁ cmds.length) (.next (exampleBridge₂ cmds.length) .done)).run t 80000 levels = some levels' ∧
      (pollRun (rc6Decoder t (rc6Table 80000)) id
          (overhear 80000 80000 0 1280 levels' (20163 + 9600 * cmds.length))).map said =
        some (oks (cmds.map fun c => ⟨~~~(c.addr &&& 31), c.cmd &&& 63, false⟩)) := by
  have hp : (cmds.map fun c => (⟨c, 100, [(other, 1000), (c, 8500)]⟩ : Press NecCommand)).flatMap Press.loads =
      cmds.flatMap fun c => [(c, 100), (other, 1000), (c, 8500)] := List.flatMap_map ..
  have hst : sessionTicks (cmds.flatMap fun c => [(c, 100), (other, 1000), (c, 8500)]) = 9600 * cmds.length := by
    clear hp hlen
    induction cmds with
    | nil => rfl
    | cons c cmds ih =>
      simp only [sessionTicks, List.flatMap_cons, List.map_append, List.sum_append, List.length_cons] at ih ⊢
      rw [ih]
      simp only [List.map_cons, List.map_nil, List.sum_cons, List.sum_nil]
      omega
  have hl : ∀ n m, n + 6720 < m → m + 1 < 2 ^ 32 → Listens 80000 n 80000 1280 0 m := fun n m h1 h2 =>
    ⟨by decide, by decide, by decide, ⟨5440, by decide, by simp only [reading]; omega⟩, h2⟩
  have hand : ∀ a : BitVec 8, (a &&& 31) < 32 ∧ (a &&& 63) < 64 := by
    intro a
    constructor
    · have := @Nat.and_le_right a.toNat 31
      rw [BitVec.lt_def, BitVec.toNat_and]
      exact Nat.lt_succ_of_le this
    · have := @Nat.and_le_right a.toNat 63
      rw [BitVec.lt_def, BitVec.toNat_and]
      exact Nat.lt_succ_of_le this
  have hu₁ : Unused .rc5 101 (exampleBridge₁ cmds.length).sender := by
    rw [exampleBridge₁]
    exact ⟨silent_example.1, 101, Nat.le_refl _, by rw [silent_example.2]; rfl⟩
  have hu₂ : Unused .rc6 101 (exampleBridge₂ cmds.length).sender := by
    rw [exampleBridge₂]
    exact ⟨silent_example.1, 84, by decide, by rw [silent_example.2]; rfl⟩
  have hready : (Row.next (exampleBridge₁ cmds.length) (.next (exampleBridge₂ cmds.length) .done)).Ready 101 80000
      (sessionTicks ((cmds.map fun c => (⟨c, 100, [(other, 1000), (c, 8500)]⟩ : Press NecCommand)).flatMap Press.loads)) := by
    rw [hp]
    refine ⟨show 80000 ≤ 9673349 by decide, hl _ _ (by rw [hst]; show _ < 6721 + 9600 * cmds.length; omega)
      (show 6721 + 9600 * cmds.length + 1 < 2 ^ 32 by omega), hu₁,
      fun c _ => ⟨(hand _).1, (hand _).2, show (3 : BitVec 8) < 4 by decide⟩, show 80000 ≤ 9673349 by decide,
      hl _ _ (show 6721 + 9600 * cmds.length + 6720 < 13442 + 9600 * cmds.length by omega)
      (show 13442 + 9600 * cmds.length + 1 < 2 ^ 32 by omega), hu₂,
      fun _ _ => trivial, trivial⟩
  obtain ⟨enc, s', levels, levels', h1, h2, h3, h4⟩ := C112_row t hus 80000 (by decide) (by decide) (p := .nec) (z := .rc6)
    (cmds.map fun c => ⟨c, 100, [(other, 1000), (c, 8500)]⟩) (fun _ _ => trivial) 128 101 (by decide) (by decide) false _ hready
    (by
      intro x hx
      obtain ⟨c, -, rfl⟩ := List.mem_map.mp hx
      exact within_two _ _ _ _ _ _ _ (by decide) (by decide))
    (by
      intro x hx
      obtain ⟨c, -, rfl⟩ := List.mem_map.mp hx
      have ht : (Press.mk c 100 [(other, 1000), (c, 8500)] : Press NecCommand).ticks = 9600 := by
        simp [Press.ticks, sessionTicks]
      exact ⟨Nat.le_trans (show (115 + 2) * 80000 + 1000 * 101 ≤ 1000 * 9600 by decide)
        (Nat.le_of_eq (congrArg (1000 * ·) ht.symm)), Nat.lt_of_le_of_lt (Nat.le_of_eq (congrArg (· + 1) ht)) (by decide)⟩)
  replace h2 := (congrArg (fun l => (Sender.new 128 false).calls (session (A := NecCommand) enc l)) hp).symm.trans h2
  refine ⟨enc, s', levels, levels', h1, h2, h3, ?_⟩
  have h5 := h4 Rc6Command id 80000 (rc6Decoder t (rc6Table 80000)) 1280 0 (20163 + 9600 * cmds.length) (by decide)
    (by rw [Tongue.decoder, rc6Spans_eq (.inl rfl) t (by decide)]; rfl)
    (hl _ _ (show 13442 + 9600 * cmds.length + 6720 < 20163 + 9600 * cmds.length by omega) (by omega))
  refine h5.trans (congrArg (fun l => some (oks l)) ?_)
  exact List.map_map (f := fun c : NecCommand => (⟨c, 100, [(other, 1000), (c, 8500)]⟩ : Press NecCommand))
    (g := fun x : Press NecCommand => (⟨~~~(x.cmd.addr &&& 31), x.cmd.cmd &&& 63, false⟩ : Rc6Command)) (l := cmds)

end Infrared
