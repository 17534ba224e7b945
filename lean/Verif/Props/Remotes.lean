import Verif.Spec.Remotes
import Verif.Spec.RemoteTables

/-!
# Remote controls and the receiver builder (C46 to C49)
-/

namespace Infrared

open Spec

variable {C : Type}

/-! ## C46, C47: remotes -/

theorem find_fst {t : List (Nat × Action)}
    (hnd : ∀ p ∈ t, ∀ q ∈ t, (p.1 = q.1 ↔ p.2 = q.2)) (k : Nat) (a : Action) :
    (t.find? fun e => e.1 == k).map Prod.snd = some a ↔ (k, a) ∈ t := by
  constructor
  · intro h
    obtain ⟨e, he, rfl⟩ := Option.map_eq_some_iff.mp h
    have h1 := List.find?_some he
    have h2 := List.mem_of_find?_eq_some he
    have : e.1 = k := by simpa using h1
    subst this
    exact h2
  · intro h
    obtain ⟨e, he⟩ : ∃ e, t.find? (fun e => e.1 == k) = some e := by
      rw [← Option.isSome_iff_exists, List.find?_isSome]
      exact ⟨_, h, by simp⟩
    have h1 : e.1 = k := by simpa using List.find?_some he
    have h2 := List.mem_of_find?_eq_some he
    rw [he, Option.map_some, ((hnd _ h2 _ h).mp h1)]

theorem find_snd {t : List (Nat × Action)}
    (hnd : ∀ p ∈ t, ∀ q ∈ t, (p.1 = q.1 ↔ p.2 = q.2)) (k : Nat) (a : Action) :
    (t.find? fun e => e.2 == a) = some (k, a) ↔ (k, a) ∈ t := by
  constructor
  · exact fun h => List.mem_of_find?_eq_some h
  · intro h
    obtain ⟨e, he⟩ : ∃ e, t.find? (fun e => e.2 == a) = some e := by
      rw [← Option.isSome_iff_exists, List.find?_isSome]
      exact ⟨_, h, by simp⟩
    have h1 : e.2 = a := by simpa using List.find?_some he
    have h2 := List.mem_of_find?_eq_some he
    have h3 := (hnd _ h2 _ h).mpr h1
    rw [he]
    exact congrArg some (Prod.ext h3 h1)

/-- A remote with the default `decode`, a one-to-one table, and a command type that can hold all
codes. -/
theorem isRemote_of (r : RemoteControlModel C) (addr : Nat) (table : List (Nat × Action))
    (haddr : r.address = addr) (hbut : r.buttons = table)
    (hdec : r.decode = defaultDecode r.ac addr table)
    (hnd : ∀ p ∈ table, ∀ q ∈ table, (p.1 = q.1 ↔ p.2 = q.2))
    (hcr : ∀ p ∈ table, ∃ c, r.ac.create addr p.1 = some c ∧ r.ac.address c = addr ∧
      r.ac.command c = p.1 ∧ r.ac.isRepeat c = false) : IsRemote r addr table := by
  have hdi : ∀ c a, r.decode c = some a ↔ r.ac.address c = addr ∧ (r.ac.command c, a) ∈ table := by
    intro c a
    rw [hdec]
    unfold defaultDecode
    by_cases h : addr = r.ac.address c
    · rw [if_neg (by simpa using h), find_fst hnd]
      exact ⟨fun h' => ⟨h.symm, h'⟩, And.right⟩
    · rw [if_pos h]
      exact ⟨fun h' => by simp at h', fun h' => absurd h'.1.symm h⟩
  have hen : ∀ a k, (k, a) ∈ table → ∃ c, r.encode a = some c ∧ r.ac.create addr k = some c ∧
      r.ac.address c = addr ∧ r.ac.command c = k ∧ r.ac.isRepeat c = false := by
    intro a k hk
    obtain ⟨c, h1, h2, h3, h4⟩ := hcr _ hk
    refine ⟨c, ?_, h1, h2, h3, h4⟩
    unfold RemoteControlModel.encode
    rw [hbut, haddr, (find_snd hnd k a).mpr hk]
    exact h1
  have hen' : ∀ a c, r.encode a = some c → ∃ k, (k, a) ∈ table := by
    intro a c h
    unfold RemoteControlModel.encode at h
    obtain ⟨e, he, -⟩ := Option.bind_eq_some_iff.mp h
    have h1 : e.2 = a := by simpa using List.find?_some he
    refine ⟨e.1, ?_⟩
    rw [← h1, ← hbut]
    exact List.mem_of_find?_eq_some he
  refine ⟨hnd, hdi, ?_, ?_, ?_, ?_⟩
  · intro a
    exact ⟨fun ⟨c, h⟩ => hen' a c h, fun ⟨k, h⟩ => (hen a k h).imp fun c h => h.1⟩
  · intro a c h
    obtain ⟨k, hk⟩ := hen' a c h
    obtain ⟨c', h1, -, h2, h3, -⟩ := hen a k hk
    obtain rfl : c' = c := by rw [h1] at h; exact Option.some.inj h
    rw [hdi, h3]
    exact ⟨h2, hk⟩
  · intro c a h
    obtain ⟨h1, h2⟩ := (hdi c a).mp h
    obtain ⟨c', h3, -, h4, h5, -⟩ := hen a _ h2
    exact ⟨c', h3, by rw [h4, h1], h5⟩
  · intro a c h
    obtain ⟨k, hk⟩ := hen' a c h
    obtain ⟨c', h1, -, -, -, h2⟩ := hen a k hk
    obtain rfl : c' = c := by rw [h1] at h; exact Option.some.inj h
    exact h2

theorem IsRemote.congr {r : RemoteControlModel C} {addr : Nat} {table table' : List (Nat × Action)}
    (h : IsRemote r addr table) (h1 : ∀ p ∈ table, p ∈ table') (h2 : ∀ p ∈ table', p ∈ table) :
    IsRemote r addr table' where
  inverse p hp q hq := h.inverse p (h2 p hp) q (h2 q hq)
  decode_iff c a := (h.decode_iff c a).trans (and_congr_right fun _ => ⟨h1 _, h2 _⟩)
  encode_iff a := (h.encode_iff a).trans ⟨fun ⟨k, hk⟩ => ⟨k, h1 _ hk⟩, fun ⟨k, hk⟩ => ⟨k, h2 _ hk⟩⟩
  encode_decode := h.encode_decode
  decode_encode := h.decode_encode
  encode_repeat := h.encode_repeat

/-- **C46** for the Samsung TV remote: the table of its buttons at address 7. -/
theorem C46_samsung_tv : IsRemote samsungTv samsungTvAddress samsungTvTable := by
  refine IsRemote.congr (table := samsungTvButtons) ?_ (by decide +kernel) (by decide +kernel)
  refine isRemote_of _ _ _ rfl rfl rfl (by decide +kernel) ?_
  intro p hp
  refine ⟨_, rfl, rfl, ?_, rfl⟩
  revert p
  decide +kernel

/-- **C46** for the "special for MP3" remote: address 0. -/
theorem C46_special_for_mp3 : IsRemote specialForMp3 specialForMp3Address specialForMp3Table := by
  refine IsRemote.congr (table := specialForMp3Buttons) ?_ (by decide +kernel) (by decide +kernel)
  refine isRemote_of _ _ _ rfl rfl rfl (by decide +kernel) ?_
  intro p hp
  refine ⟨_, rfl, rfl, ?_, rfl⟩
  revert p
  decide +kernel

/-- **C46** for the CD player remote: address 20. -/
theorem C46_cd_player : IsRemote cdPlayer cdPlayerAddress cdPlayerTable := by
  refine IsRemote.congr (table := cdPlayerButtons) ?_ (by decide +kernel) (by decide +kernel)
  refine isRemote_of _ _ _ rfl rfl rfl (by decide +kernel) ?_
  intro p hp
  have : p.1 < 256 := by
    revert p
    decide +kernel
  refine ⟨Rc5Command.new 20 (BitVec.ofNat 8 p.1) false, ?_, rfl, ?_, rfl⟩
  · simp [cdPlayer, rc5AC, tryU8, this, cdPlayerAddress]
  · simp [cdPlayer, rc5AC, Rc5Command.new]; omega

/-- **C46** for the Blu-ray player remote: address 32. -/
theorem C46_blu_ray : IsRemote samsungBluRayPlayer samsungBluRayAddress samsungBluRayTable := by
  refine IsRemote.congr (table := samsungBluRayPlayerButtons) ?_ (by decide +kernel) (by decide +kernel)
  refine isRemote_of _ _ _ rfl rfl rfl (by decide +kernel) ?_
  intro p hp
  have : p.1 < 256 := by
    revert p
    decide +kernel
  refine ⟨⟨32, BitVec.ofNat 8 p.1, true⟩, ?_, rfl, ?_, rfl⟩
  · simp [samsungBluRayPlayer, sbpAC, tryU8, tryU16, this, samsungBluRayAddress]
  · simp [samsungBluRayPlayer, sbpAC]; omega

/-- The buttons of the 2009 Apple remote: page 14 for the keys, page 0 for the battery. -/
def Spec.AppleButton (page code : Nat) (a : Action) : Prop :=
  (page = 14 ∧ code = 1 ∧ a = .menu) ∨ (page = 14 ∧ code = 2 ∧ a = .playPause) ∨
  (page = 14 ∧ code = 3 ∧ a = .right) ∨ (page = 14 ∧ code = 4 ∧ a = .left) ∨
  (page = 14 ∧ code = 5 ∧ a = .up) ∨ (page = 14 ∧ code = 6 ∧ a = .down) ∨
  (page = 14 ∧ code = 46 ∧ a = .enter) ∨ (page = 14 ∧ code = 47 ∧ a = .playPause2) ∨
  (page = 0 ∧ code = 3 ∧ a = .batteryLow) ∨ (page = 0 ∧ code = 7 ∧ a = .batteryLow)

/-- **C46** for the Apple remote: `decode` knows exactly the ten buttons, for any device id, and
`encode` never succeeds. -/
theorem C46_apple (c : AppleNecCommand) (a : Action) :
    (apple2009.decode c = some a ↔ AppleButton c.commandPage.toNat c.command.toNat a) ∧
    apple2009.encode a = none := by
  refine ⟨?_, rfl⟩
  have key : ∀ p q : BitVec 8,
      (apple2009Table.find? fun e => e.1 == (p, q)).map Prod.snd = some a ↔
        AppleButton p.toNat q.toNat a := by
    intro p q
    have hmem : ((p, q), a) ∈ apple2009Table ↔ AppleButton p.toNat q.toNat a := by
      simp [apple2009Table, Spec.AppleButton, ← BitVec.toNat_inj, and_assoc]
    rw [← hmem]
    constructor
    · intro h
      obtain ⟨e, he, rfl⟩ := Option.map_eq_some_iff.mp h
      have h1 : e.1 = (p, q) := by simpa using List.find?_some he
      rw [← h1]
      exact List.mem_of_find?_eq_some he
    · intro h
      have hnd : ∀ x ∈ apple2009Table, ∀ y ∈ apple2009Table, x.1 = y.1 → x.2 = y.2 := by
        decide +kernel
      obtain ⟨e, he⟩ : ∃ e, apple2009Table.find? (fun e => e.1 == (p, q)) = some e := by
        rw [← Option.isSome_iff_exists, List.find?_isSome]
        exact ⟨_, h, by simp⟩
      have h1 : e.1 = (p, q) := by simpa using List.find?_some he
      rw [he, Option.map_some, hnd _ (List.mem_of_find?_eq_some he) _ h h1]
  exact key c.commandPage c.command

/-- Non-vacuity: both directions on a concrete button each. -/
example : samsungTv.encode .volumeUp = some ⟨7, 7, false⟩ ∧
    samsungTv.decode ⟨7, 7, true⟩ = some .volumeUp ∧ samsungTv.encode .batteryLow = none ∧
    cdPlayer.decode (Rc5Command.new 20 53 true) = some .play ∧
    apple2009.decode ⟨14, 4, 0x9B, false⟩ = some .left := by decide +kernel

/-- **C47**: a remote with an address check never reacts to another address. -/
theorem C47_foreign_address :
    (∀ c, samsungTv.ac.address c ≠ 7 → (Button.from samsungTv c).action = none) ∧
    (∀ c, specialForMp3.ac.address c ≠ 0 → (Button.from specialForMp3 c).action = none) ∧
    (∀ c, cdPlayer.ac.address c ≠ 20 → (Button.from cdPlayer c).action = none) ∧
    (∀ c, samsungBluRayPlayer.ac.address c ≠ 32 →
      (Button.from samsungBluRayPlayer c).action = none) := by
  have key : ∀ {C : Type} (r : RemoteControlModel C) (addr : Nat) (t : List (Nat × Action)),
      IsRemote r addr t → ∀ c, r.ac.address c ≠ addr → r.decode c = none := by
    intro C r addr t h c hc
    rcases hd : r.decode c with _ | a
    · rfl
    · exact absurd ((h.decode_iff c a).mp hd).1 hc
  exact ⟨key _ _ _ C46_samsung_tv, key _ _ _ C46_special_for_mp3, key _ _ _ C46_cd_player,
    key _ _ _ C46_blu_ray⟩

/-- **C47**: a button exposes the unchanged command and its repeat flag. -/
theorem C47_button_transparent (r : RemoteControlModel C) (c : C) :
    (Button.from r c).cmd = c ∧ (Button.from r c).isRepeat r = r.ac.isRepeat c ∧
    (Button.from r c).action = r.decode c := ⟨rfl, rfl, rfl⟩

example : (Button.from samsungTv ⟨7, 2, true⟩).action = some .power ∧
    (Button.from samsungTv ⟨8, 2, true⟩).action = none ∧
    (Button.from samsungTv ⟨7, 2, true⟩).isRepeat samsungTv = true := by decide +kernel

/-! ## C48: action names -/

/-- All actions. -/
def allActions : List Action :=
  [.power, .source, .one, .two, .three, .four, .five, .six, .seven, .eight, .nine, .zero,
   .teletext, .channelPrev, .volumeUp, .volumeDown, .volumeMute, .channelList, .channelListNext,
   .channelListPrev, .tools, .info, .return_, .exit, .enter, .up, .down, .left, .right, .red,
   .green, .yellow, .blue, .emanual, .pictureSize, .subtitle, .stop, .rewind, .play, .paus,
   .playPause, .playPause2, .forward, .mode, .shuffle, .uSd, .plus, .minus, .next, .prev, .eq_,
   .mute, .random, .repeat, .time, .setup, .menu, .pitchReset, .pitchPlus, .pitchMinus, .prog,
   .batteryLow]

theorem mem_allActions (a : Action) : a ∈ allActions := by cases a <;> decide +kernel

/-- **C48**: different actions have different names. -/
theorem C48_names_injective (a b : Action) (h : a.toStr = b.toStr) : a = b := by
  have key : ∀ x ∈ allActions, ∀ y ∈ allActions, x.toStr = y.toStr → x = y := by decide +kernel
  exact key a (mem_allActions a) b (mem_allActions b) h

/-- **C48**: the names are the listed ones. -/
theorem C48_names (a : Action) (n : String) : a.toStr = n ↔ (a, n) ∈ actionNames := by
  have h1 : ∀ x ∈ allActions, (x, x.toStr) ∈ actionNames := by decide +kernel
  have h2 : ∀ p ∈ actionNames, p.1.toStr = p.2 := by decide +kernel
  exact ⟨fun h => h ▸ h1 a (mem_allActions a), fun h => h2 _ h⟩

example : Action.toStr .eq_ = "equalizer" ∧ Action.toStr .paus = "pause" := ⟨rfl, rfl⟩

/-! ## C49: builder -/

variable {Pin : Type}

theorem lastOr_snoc {α β : Type} (f : α → Option β) (d : β) (cs : List α) (c : α) :
    lastOr f d (cs ++ [c]) = (f c).getD (lastOr f d cs) := by
  unfold lastOr
  rw [List.reverse_append, List.reverse_singleton, List.singleton_append, List.findSome?_cons]
  cases f c <;> rfl

/-- **C49**: whatever calls are made, in whatever order and however often: frequency, pin, clock and
protocol are each those of the last call that sets them, or the defaults (1 MHz, no pin, `u32`, no
protocol); no other call disturbs them. -/
theorem C49_builder (noPin : Pin) (calls : List (BuilderCall Pin)) :
    let b := (calls.foldl Builder.call (Builder.default noPin)).build
    b.freq = lastOr freqOf 1000000 calls ∧ b.input = lastOr pinOf noPin calls ∧
    b.monotonic = lastOr clockOf 0 calls ∧ b.proto = lastOr protoOf .none calls ∧
    b.cmd = lastOr outOf .unit calls := by
  suffices h : ∀ rs : List (BuilderCall Pin),
      let b := (rs.reverse.foldl Builder.call (Builder.default noPin))
      b.freq = lastOr freqOf 1000000 rs.reverse ∧ b.pin = lastOr pinOf noPin rs.reverse ∧
      b.monotonic = lastOr clockOf 0 rs.reverse ∧ b.proto = lastOr protoOf .none rs.reverse ∧
      b.cmd = lastOr outOf .unit rs.reverse by
    have := h calls.reverse
    rw [List.reverse_reverse] at this
    exact this
  intro rs
  induction rs with
  | nil => exact ⟨rfl, rfl, rfl, rfl, rfl⟩
  | cons c rs ih =>
    obtain ⟨h1, h2, h3, h4, h5⟩ := ih
    simp only [List.reverse_cons, List.foldl_append, List.foldl_cons, List.foldl_nil, lastOr_snoc,
      ← h1, ← h2, ← h3, ← h4, ← h5]
    cases c <;> exact ⟨rfl, rfl, rfl, rfl, rfl⟩

/-- **C49**: `build_polled` uses the same frequency, pin, protocol and output type, and always the
`u32` clock. -/
theorem C49_build_polled (b : Builder Pin) :
    b.buildPolled.freq = b.build.freq ∧ b.buildPolled.input = b.build.input ∧
    b.buildPolled.proto = b.build.proto ∧ b.buildPolled.cmd = b.build.cmd ∧
    b.buildPolled.monotonic = 0 := ⟨rfl, rfl, rfl, rfl, rfl⟩

/-- **C49**: two neighbouring calls that set different things can be swapped.  (Protocol and remote
both set the output type: of these the later one wins.) -/
theorem C49_calls_commute (b : Builder Pin) (c d : BuilderCall Pin)
    (hf : freqOf c = none ∨ freqOf d = none) (hp : pinOf c = none ∨ pinOf d = none)
    (hm : clockOf c = none ∨ clockOf d = none) (ho : outOf c = none ∨ outOf d = none) :
    (b.call c).call d = (b.call d).call c := by
  cases c <;> cases d <;>
    first
      | rfl
      | (simp [freqOf, pinOf, clockOf, outOf] at hf hp hm ho)

example : (([.frequency 40000, .protocol .nec, .pin 5, .frequency 38000, .remotecontrol 1] :
    List (BuilderCall Nat)).foldl Builder.call (Builder.default 0)).build =
    { proto := .nec, freq := 38000, input := 5, cmd := .button 1, monotonic := 0 } := rfl

end Infrared
