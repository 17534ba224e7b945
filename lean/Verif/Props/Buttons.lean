import Verif.Props.ManchesterSession
import Verif.Props.Remotes

/-!
# From buttons to actions (C59)

A program that turns actions into commands with `RemoteControlModel::encode` and sends them, and a program that
receives with `PeriodicPoll` and the matching remote (`Cmd = Button<Remote>`) agree on the actions.
-/

namespace Infrared

open Spec

/-- `cmds` are the commands `RemoteControlModel::encode` gives for the actions, with the same distances. -/
def Spec.EncodedAs {C : Type} (r : RemoteControlModel C) (acts : List (Action × Nat)) (cmds : List (C × Nat)) :
    Prop :=
  cmds.map Prod.snd = acts.map Prod.snd ∧ cmds.map (fun x => some x.1) = acts.map fun a => r.encode a.1

variable {C : Type}

theorem encodedAs_exists {r : RemoteControlModel C} {acts : List (Action × Nat)}
    (h : ∀ a ∈ acts, ∃ c, r.encode a.1 = some c) : ∃ cmds, EncodedAs r acts cmds := by
  induction acts with
  | nil => exact ⟨[], rfl, rfl⟩
  | cons a as ih =>
    obtain ⟨c, hc⟩ := h a (by simp)
    obtain ⟨cs, h1, h2⟩ := ih fun x hx => h x (List.mem_cons_of_mem _ hx)
    exact ⟨(c, a.2) :: cs, by simp [h1], by simp [h2, hc]⟩

theorem encodedAs_mem {r : RemoteControlModel C} {acts : List (Action × Nat)} {cmds : List (C × Nat)}
    (h : EncodedAs r acts cmds) : ∀ x ∈ cmds, ∃ a ∈ acts, r.encode a.1 = some x.1 ∧ a.2 = x.2 := by
  induction acts generalizing cmds with
  | nil =>
    rcases cmds with _ | ⟨c, cs⟩
    · intro x hx; cases hx
    · cases h.1
  | cons a as ih =>
    rcases cmds with _ | ⟨c, cs⟩
    · cases h.1
    · obtain ⟨h1, h2⟩ := h
      simp only [List.map_cons, List.cons.injEq] at h1 h2
      intro x hx
      rcases List.mem_cons.mp hx with rfl | hx
      · exact ⟨a, by simp, h2.1.symm, h1.1.symm⟩
      · obtain ⟨y, hy, h3⟩ := ih ⟨h1.2, h2.2⟩ x hx
        exact ⟨y, List.mem_cons_of_mem _ hy, h3⟩

/-- The buttons a receiver with the right remote reports for these commands. -/
theorem encodedAs_buttons {r : RemoteControlModel C} {addr : Nat} {table : List (Nat × Action)}
    (hr : IsRemote r addr table) {acts : List (Action × Nat)} {cmds : List (C × Nat)}
    (h : EncodedAs r acts cmds) :
    (cmds.map fun x => (Button.from r x.1).action) = (acts.map fun a => some a.1) ∧
    ∀ b ∈ cmds.map (fun x => Button.from r x.1), b.isRepeat r = false := by
  constructor
  · induction acts generalizing cmds with
    | nil =>
      rcases cmds with _ | ⟨c, cs⟩
      · rfl
      · cases h.1
    | cons a as ih =>
      rcases cmds with _ | ⟨c, cs⟩
      · cases h.1
      · obtain ⟨h1, h2⟩ := h
        simp only [List.map_cons, List.cons.injEq] at h1 h2
        rw [List.map_cons, List.map_cons, ih ⟨h1.2, h2.2⟩]
        exact congrArg (· :: _) (hr.encode_decode _ _ h2.1.symm)
  · intro b hb
    obtain ⟨x, hx, rfl⟩ := List.mem_map.mp hb
    obtain ⟨a, -, h1, -⟩ := encodedAs_mem h x hx
    exact hr.encode_repeat _ _ h1

/-- **C59** for the Samsung TV remote: whatever sequence of its actions is sent, the receiver reports exactly
these actions, in order, each once and none as a repetition. -/
theorem C59_samsung_tv (t : Target) (fs : Nat)
    (hfs : 21000 ≤ fs ∨ (20000 ≤ fs ∧ fs % 1000 = 0)) (hhi : fs ≤ 954437999) (f : Nat) (hle : fs ≤ f)
    (hf : f < 2 ^ 32) (tbl : PulseSpans) (htbl : necSpans t Mono.u32 samsungNec f = some tbl)
    (acts : List (Action × Nat)) (hacts : ∀ a ∈ acts, ∃ code, (code, a.1) ∈ samsungTvTable)
    (S : Nat) (hS : 67 ≤ S) (pin : Bool)
    (hticks : ∀ x ∈ acts, 108 * fs + 1000 * (S - 67) ≤ 1000 * x.2 ∧ x.2 * f / fs + 1 < 2 ^ 32) :
    ∃ cmds data s' levels, EncodedAs samsungTv acts cmds ∧
      necData samsungNec.pulseDistance fs = some data ∧
      (Sender.new S pin).calls (session (necEncode samsungNec data) cmds) = some (s', levels) ∧
      ∀ pause phase n, phase < fs → Pause tbl 32 [0, 1] (0, reading fs f phase pause + 1) →
      reading fs f phase (pause + sessionTicks cmds) < n →
      ∃ bs : List (Button SamsungNecCommand),
        (pollRun (necDecoder t Mono.u32 tbl samsungNec) (Button.from samsungTv)
          (overhear fs f phase pause levels n)).map said = some (oks bs) ∧
        (bs.map fun b => b.action) = (acts.map fun a => some a.1) ∧ ∀ b ∈ bs, b.isRepeat samsungTv = false := by
  obtain ⟨cmds, hc⟩ := encodedAs_exists (r := samsungTv) (acts := acts) fun a ha =>
    (C46_samsung_tv.encode_iff a.1).mpr (hacts a ha)
  obtain ⟨data, s', levels, h1, h2, h3⟩ := C57_samsung_session t fs hfs hhi f hle hf tbl htbl
    (Button.from samsungTv) cmds S hS pin (by
      intro x hx
      obtain ⟨a, ha, -, e⟩ := encodedAs_mem hc x hx
      rw [← e]
      exact hticks a ha)
  refine ⟨cmds, data, s', levels, hc, h1, h2, fun pause phase n hp hpause hn => ?_⟩
  obtain ⟨h4, h5⟩ := encodedAs_buttons C46_samsung_tv hc
  refine ⟨cmds.map fun x => Button.from samsungTv x.1, ?_, by rw [List.map_map]; exact h4, h5⟩
  rw [h3 pause phase n hp hpause hn]
  refine congrArg (fun l => some (oks l)) (List.map_congr_left fun x hx => ?_)
  obtain ⟨a, -, h6, -⟩ := encodedAs_mem hc x hx
  have h7 : x.1.rep = false := C46_samsung_tv.encode_repeat _ _ h6
  rw [← h7]

/-- **C59** for the "special for MP3" remote. -/
theorem C59_special_for_mp3 (t : Target) (fs : Nat)
    (hfs : 21000 ≤ fs ∨ (20000 ≤ fs ∧ fs % 1000 = 0)) (hhi : fs ≤ 477218999) (f : Nat) (hle : fs ≤ f)
    (hf : f < 2 ^ 32) (tbl : PulseSpans) (htbl : necSpans t Mono.u32 Infrared.nec f = some tbl)
    (acts : List (Action × Nat)) (hacts : ∀ a ∈ acts, ∃ code, (code, a.1) ∈ specialForMp3Table)
    (S : Nat) (hS : 67 ≤ S) (pin : Bool)
    (hticks : ∀ x ∈ acts, 108 * fs + 1000 * (S - 67) ≤ 1000 * x.2 ∧ x.2 * f / fs + 1 < 2 ^ 32) :
    ∃ cmds data s' levels, EncodedAs specialForMp3 acts cmds ∧
      necData Infrared.nec.pulseDistance fs = some data ∧
      (Sender.new S pin).calls (session (necEncode Infrared.nec data) cmds) = some (s', levels) ∧
      ∀ pause phase n, phase < fs → Pause tbl 32 [0, 1] (0, reading fs f phase pause + 1) →
      reading fs f phase (pause + sessionTicks cmds) < n →
      ∃ bs : List (Button NecCommand),
        (pollRun (necDecoder t Mono.u32 tbl Infrared.nec) (Button.from specialForMp3)
          (overhear fs f phase pause levels n)).map said = some (oks bs) ∧
        (bs.map fun b => b.action) = (acts.map fun a => some a.1) ∧
        ∀ b ∈ bs, b.isRepeat specialForMp3 = false := by
  obtain ⟨cmds, hc⟩ := encodedAs_exists (r := specialForMp3) (acts := acts) fun a ha =>
    (C46_special_for_mp3.encode_iff a.1).mpr (hacts a ha)
  obtain ⟨data, s', levels, h1, h2, h3⟩ := C57_standard_session t fs hfs hhi f hle hf tbl htbl
    (Button.from specialForMp3) cmds S hS pin (by
      intro x hx
      obtain ⟨a, ha, -, e⟩ := encodedAs_mem hc x hx
      rw [← e]
      exact hticks a ha)
  refine ⟨cmds, data, s', levels, hc, h1, h2, fun pause phase n hp hpause hn => ?_⟩
  obtain ⟨h4, h5⟩ := encodedAs_buttons C46_special_for_mp3 hc
  refine ⟨cmds.map fun x => Button.from specialForMp3 x.1, ?_, by rw [List.map_map]; exact h4, h5⟩
  rw [h3 pause phase n hp hpause hn]
  refine congrArg (fun l => some (oks l)) (List.map_congr_left fun x hx => ?_)
  obtain ⟨a, -, h6, -⟩ := encodedAs_mem hc x hx
  have h7 : x.1.rep = false := C46_special_for_mp3.encode_repeat _ _ h6
  rw [← h7]

theorem cdPlayer_valid {a : Action} {c : Rc5Command} (h : cdPlayer.encode a = some c) :
    c.addr.toNat < 32 ∧ c.cmd.toNat < 64 ∧ c.start = 3#8 := by
  obtain ⟨h1, h2⟩ := (C46_cd_player.decode_iff c a).mp (C46_cd_player.encode_decode a c h)
  have h3 : ∀ p ∈ cdPlayerTable, p.1 < 64 := by decide +kernel
  have h4 := h3 _ h2
  refine ⟨by change c.addr.toNat = 20 at h1; omega, h4, ?_⟩
  obtain ⟨p, -, h5⟩ := Option.bind_eq_some_iff.mp (show (_ : Option _).bind _ = some c from h)
  change (tryU8 _ >>= fun x => tryU8 _ >>= fun y => some (Rc5Command.new x y false)) = some c at h5
  obtain ⟨x, -, h6⟩ := Option.bind_eq_some_iff.mp h5
  obtain ⟨y, -, h7⟩ := Option.bind_eq_some_iff.mp h6
  cases h7
  rfl

/-- **C59** for the CD player remote (RC5). -/
theorem C59_cd_player (t : Target) (hus : 16 ≤ t.usizeBits) (fs : Nat)
    (hfs : 42000 ≤ fs ∨ (20000 ≤ fs ∧ fs % 1000 = 0)) (f : Nat) (hlo : 40000 ≤ f) (hle : fs ≤ f)
    (hf : f < 2 ^ 32) (tbl : PulseSpans) (htbl : rc5Spans t Mono.u32 f = some tbl)
    (acts : List (Action × Nat)) (hacts : ∀ a ∈ acts, ∃ code, (code, a.1) ∈ cdPlayerTable)
    (S : Nat) (hS : 27 ≤ S) (pin : Bool)
    (hticks : ∀ x ∈ acts, 114 * fs + 1000 * (S - 27) ≤ 1000 * x.2 ∧ x.2 * f / fs + 1 < 2 ^ 32) :
    ∃ cmds l s' levels, EncodedAs cdPlayer acts cmds ∧ rc5CalcFreq fs = some l ∧
      (Sender.new S pin).calls (session (rc5Encode t l) cmds) = some (s', levels) ∧
      ∀ pause phase n, phase < fs → reading fs f phase pause + 1 < 2 ^ 32 →
      reading fs f phase (pause + sessionTicks cmds) < n →
      ∃ bs : List (Button Rc5Command),
        (pollRun (rc5Decoder t tbl) (Button.from cdPlayer)
          (overhear fs f phase pause levels n)).map said = some (oks bs) ∧
        (bs.map fun b => b.action) = (acts.map fun a => some a.1) ∧
        ∀ b ∈ bs, b.isRepeat cdPlayer = false := by
  obtain ⟨cmds, hc⟩ := encodedAs_exists (r := cdPlayer) (acts := acts) fun a ha =>
    (C46_cd_player.encode_iff a.1).mpr (hacts a ha)
  have hv : ∀ x ∈ cmds, x.1.addr.toNat < 32 ∧ x.1.cmd.toNat < 64 ∧ x.1.start = 3#8 := by
    intro x hx
    obtain ⟨a, -, h, -⟩ := encodedAs_mem hc x hx
    exact cdPlayer_valid h
  obtain ⟨l, s', levels, h1, h2, h3⟩ := C58_rc5_new t hus fs hfs f hlo hle hf tbl htbl
    (Button.from cdPlayer) cmds (by
      intro x hx
      obtain ⟨v1, v2, v3⟩ := hv x hx
      exact ⟨v1, v2, by rw [v3]; decide⟩) S hS pin (by
      intro x hx
      obtain ⟨a, ha, -, e⟩ := encodedAs_mem hc x hx
      rw [← e]
      exact hticks a ha)
  refine ⟨cmds, l, s', levels, hc, h1, h2, fun pause phase n hp hpause hn => ?_⟩
  obtain ⟨h4, h5⟩ := encodedAs_buttons C46_cd_player hc
  refine ⟨cmds.map fun x => Button.from cdPlayer x.1, ?_, by rw [List.map_map]; exact h4, h5⟩
  rw [h3 pause phase n hp hpause hn]
  refine congrArg (fun l => some (oks l)) (List.map_congr_left fun x hx => ?_)
  have h6 : x.1.start ||| 2 = x.1.start := by rw [(hv x hx).2.2]; decide
  rw [h6]

/-! ## Non-vacuity -/

/-- Power, then volume up twice, sent at 38 kHz with 150 ms between the keys and heard at 40 kHz. -/
example (t : Target) : ∃ cmds data s' levels,
    EncodedAs samsungTv [(.power, 5700), (.volumeUp, 5700), (.volumeUp, 5700)] cmds ∧
    necData samsungNec.pulseDistance 38000 = some data ∧
    (Sender.new 128 true).calls (session (necEncode samsungNec data) cmds) = some (s', levels) ∧
    ∃ bs : List (Button SamsungNecCommand),
      (pollRun (necDecoder t Mono.u32 (samsungTable 40000) samsungNec)
        (Button.from samsungTv) (overhear 38000 40000 5 20000 levels 40000)).map said = some (oks bs) ∧
      (bs.map fun b => b.action) = [some .power, some .volumeUp, some .volumeUp] ∧
      ∀ b ∈ bs, b.isRepeat samsungTv = false := by
  obtain ⟨cmds, data, s', levels, h1, h2, h3, h4⟩ := C59_samsung_tv t 38000 (.inl (by decide)) (by decide)
    40000 (by decide) (by decide) _ (necSpans_samsung (.inl rfl) t (by decide) _ rfl)
    [(.power, 5700), (.volumeUp, 5700), (.volumeUp, 5700)] (by
      intro a ha
      simp only [List.mem_cons, List.not_mem_nil, or_false, or_self] at ha
      rcases ha with rfl | rfl
      · exact ⟨2, by decide +kernel⟩
      · exact ⟨7, by decide +kernel⟩) 128 (by decide) true (by decide)
  refine ⟨cmds, data, s', levels, h1, h2, h3, h4 20000 5 40000 (by decide) ?_ ?_⟩
  · refine ⟨by decide, ?_⟩
    intro i hi
    simp only [List.mem_cons, List.not_mem_nil, or_false] at hi
    rintro ⟨s, hs, h1, h2⟩
    revert h2
    rcases hi with rfl | rfl <;> (cases hs; decide +kernel)
  · have : sessionTicks cmds = 17100 := by
      unfold sessionTicks
      rw [h1.1]
      decide
    rw [this]
    decide

end Infrared
