import Verif.Lemmas.ManchesterListeners

/-!
# A room full of remote controls (C60)
-/

namespace Infrared

open Spec

variable {C : Type}

/-! ### One listener -/

/-- The decoder of a listener, between transmissions in a state described by `Ok`, hears of a
transmission what it should. -/
structure Attends (f : Nat) (k : Listener) (D : Decoder C) (into : C → AnyCommand)
    (Ok : BitVec 32 → D.St → Prop) : Prop where
  init : Ok 0 D.init
  step : ∀ last s msg evs, Carries f msg evs → Spaced f evs →
    (k = .denon → ∀ a c, msg ≠ .sbp a c) → Ok last s →
    ∃ s' o, runStep D.step s evs = some (s', o) ∧ Ok (msg.last last) s' ∧
      At msg.place (hears last k msg) (o.map (slotOf into))

/-- Splitting off the last result. -/
theorem at_two {o1 : List (Res C)} {r : Res C} (into : C → AnyCommand) (p : Nat) {h : Option AnyCommand}
    (h1 : NoCmd o1) (hl : o1.length = p) (hr : slotOf into r = h) :
    At p h ((o1 ++ [r, .ok none]).map (slotOf into)) :=
  at_of into p h1 NoCmd.nil.quiet hl hr

theorem nec_fields (w : BitVec 32) :
    (w &&& 0xFF#32).setWidth 8 = w.extractLsb' 0 8 ∧
      ((w >>> 16) &&& 0xFF#32).setWidth 8 = w.extractLsb' 16 8 := by
  constructor <;> apply BitVec.eq_of_getLsbD_eq <;> intro i hi <;> interval_cases i <;> simp

theorem nec_slot (w : BitVec 32) (rep : Bool) :
    slotOf (AnyCommand.from necAC) (.ok (Infrared.nec.unpack w rep)) = some (asNec .nec w rep) := by
  obtain ⟨h1, h2⟩ := nec_fields w
  simp only [slotOf, Infrared.nec, NecCommand.unpack, Option.map_some, AnyCommand.from, necAC, asNec, h1, h2]

theorem samsung_slot (w : BitVec 32) (rep : Bool) :
    slotOf (AnyCommand.from samsungAC) (.ok (samsungNec.unpack w rep)) =
      some (asNec .necSamsung w rep) := by
  obtain ⟨h1, h2⟩ := nec_fields w
  simp only [slotOf, samsungNec, SamsungNecCommand.unpack, Option.map_some, AnyCommand.from, samsungAC,
    asNec, h1, h2]

theorem apple_command (w : BitVec 32) :
    ((((w &&& 0x1F#32).setWidth 8) <<< 7) ||| (((w >>> 17) &&& 0x7F#32).setWidth 8) : BitVec 8).toNat =
      (w.extractLsb' 17 7).toNat + 128 * (w.getLsbD 0).toNat := by
  have h : ((((w &&& 0x1F#32).setWidth 8) <<< 7) ||| (((w >>> 17) &&& 0x7F#32).setWidth 8) : BitVec 8) =
      (BitVec.ofBool (w.getLsbD 0) ++ w.extractLsb' 17 7 : BitVec (1 + 7)) := by
    apply BitVec.eq_of_getLsbD_eq
    intro i hi
    rw [BitVec.getLsbD_append]
    interval_cases i <;> simp
  rw [h, BitVec.toNat_append]
  have hlt := (w.extractLsb' 17 7).isLt
  rw [← Nat.shiftLeft_add_eq_or_of_lt hlt, Nat.shiftLeft_eq]
  cases w.getLsbD 0 <;> simp <;> omega

theorem apple_slot (w : BitVec 32) (rep : Bool) :
    slotOf (AnyCommand.from appleAC) (.ok (appleNec.unpack w rep)) = asApple w rep := by
  simp only [slotOf, appleNec, AppleNecCommand.unpack, asApple]
  by_cases h : AppleNecCommand.validate w = true
  · rw [if_pos ((C04_apple_validate_iff w).mp h)]
    simp only [h, Bool.not_true, Bool.false_eq_true, if_false, Option.map_some, AnyCommand.from, appleAC,
      apple_command]
  · rw [if_neg fun h' => h ((C04_apple_validate_iff w).mpr h')]
    simp [h]

theorem sbp_slot (a : BitVec 16) (c : BitVec 20) :
    slotOf (AnyCommand.from sbpAC) (.ok (some (SbpCommand.unpack a (c.setWidth 32)))) =
      some { protocol := .sbp, raw := 0, address := a.toNat, command := (c.extractLsb' 4 8).toNat,
             rep := false } := by
  obtain ⟨h1, h2, -⟩ := C07_sbp_unpack a (c.setWidth 32)
  have h : (SbpCommand.unpack a (c.setWidth 32)).command = c.extractLsb' 4 8 := by
    apply BitVec.eq_of_getLsbD_eq
    intro i hi
    rw [h2 i hi, BitVec.getLsbD_setWidth, BitVec.getLsbD_extractLsb']
    simp [hi]
    omega
  simp only [slotOf, Option.map_some, AnyCommand.from, sbpAC, h1, h]

theorem denon_slot (w : BitVec 48) :
    slotOf AnyCommand.fromDenon (.ok (some { bits := low47 w })) =
      some { protocol := .denon, raw := w.toNat % 2 ^ 47, address := 0, command := 0, rep := false } := by
  simp only [slotOf, Option.map_some, AnyCommand.fromDenon, low47, BitVec.toNat_setWidth]
  rw [Nat.mod_eq_of_lt (b := 2 ^ 64)]
  exact Nat.lt_of_lt_of_le (Nat.mod_lt _ (by decide)) (by decide)

theorem rc5_slot (w : BitVec 14) :
    slotOf (AnyCommand.from rc5AC) (.ok (some (Rc5Command.unpack (w.setWidth 16)))) =
      some { protocol := .rc5, raw := 0, address := (w.extractLsb' 6 5).toNat,
             command := (w.extractLsb' 0 6).toNat, rep := w.getLsbD 11 } := by
  obtain ⟨h1, h2, -, h4⟩ := C06_rc5_unpack_fields (w.setWidth 16)
  have ha : (Rc5Command.unpack (w.setWidth 16)).addr = (w.extractLsb' 6 5).setWidth 8 := by
    apply BitVec.eq_of_getLsbD_eq
    intro i hi
    rw [h2 i hi, BitVec.getLsbD_setWidth, BitVec.getLsbD_setWidth, BitVec.getLsbD_extractLsb']
    by_cases h5 : i < 5
    · simp [hi, h5]; omega
    · simp [h5]
  have hc : (Rc5Command.unpack (w.setWidth 16)).cmd = (w.extractLsb' 0 6).setWidth 8 := by
    apply BitVec.eq_of_getLsbD_eq
    intro i hi
    rw [h1 i hi, BitVec.getLsbD_setWidth, BitVec.getLsbD_setWidth, BitVec.getLsbD_extractLsb']
    by_cases h5 : i < 6
    · simp [hi, h5]; omega
    · simp [h5]
  have hr : (w.setWidth 16).getLsbD 11 = w.getLsbD 11 := by
    rw [BitVec.getLsbD_setWidth]; simp
  have hla : (w.extractLsb' 6 5).toNat % 2 ^ 8 = (w.extractLsb' 6 5).toNat :=
    Nat.mod_eq_of_lt (Nat.lt_of_lt_of_le (w.extractLsb' 6 5).isLt (by decide))
  have hlc : (w.extractLsb' 0 6).toNat % 2 ^ 8 = (w.extractLsb' 0 6).toNat :=
    Nat.mod_eq_of_lt (Nat.lt_of_lt_of_le (w.extractLsb' 0 6).isLt (by decide))
  simp only [slotOf, Option.map_some, AnyCommand.from, rc5AC, ha, hc, h4, hr, BitVec.toNat_setWidth, hla, hlc]

theorem rc6_slot (addr cmd : BitVec 8) (toggle : Bool) :
    slotOf (AnyCommand.from rc6AC) (.ok (some (Rc6Command.fromBits (addr ++ cmd) toggle))) =
      some { protocol := .rc6, raw := 0, address := addr.toNat, command := cmd.toNat, rep := toggle } := by
  rw [rc6_fromBits]
  rfl

theorem Mono.prim_width {m : Mono} (hm : m = Mono.u32 ∨ m = Mono.u64) : 32 ≤ m.width := by
  rcases hm with rfl | rfl <;> decide

/-- Ranges of a message that are apart from a window. -/
local macro "ranges" : tactic => `(tactic| (simp only [Msg.ranges]; decide))

section
variable (t : Target) (hus : 16 ≤ t.usizeBits) (m : Mono) (hm : m = Mono.u32 ∨ m = Mono.u64)
  {f : Nat} (hlo : 20000 ≤ f) (hf : f < 2 ^ 32)
include hm hlo hf

/-- NEC timing with any interpretation of the words. -/
theorem necTiming_attends (k : Listener) (v : NecVariant C) (into : C → AnyCommand)
    (hown : ∀ last w, hears last k (.nec w) = slotOf into (.ok (v.unpack w false)))
    (hrep : ∀ last, hears last k .necRepeat = slotOf into (.ok (v.unpack last true)))
    (hoth : ∀ last msg, (∀ w, msg ≠ .nec w) → msg ≠ .necRepeat → hears last k msg = none) :
    Attends f k (necDecoder t m (necTable f) v) into
      fun last (d : NecDecoder) => d.state = .init ∧ d.bitbuf = last ∧ d.dtSave < 2 ^ 31 := by
  have hl := Mono.prim_lawful hm
  have hw := Mono.prim_width hm
  have hlong : ∀ x, 15000 * f ≤ 1000000 * x → ∀ i < 4, ¬ InTol (necTable f) i x :=
    fun x hx i hi => long_not_inTol hlo hx .nec i hi
  refine ⟨⟨rfl, rfl, show 0 < 2 ^ 31 by decide⟩, ?_⟩
  rintro last (d : NecDecoder) msg evs hc hs - ⟨hd, hbuf, hsv⟩
  have foreign : (∀ w, msg ≠ .nec w) → msg ≠ .necRepeat →
      (∀ x, Among f x msg.ranges → ¬ InTol (necTable f) 0 x ∧ ¬ InTol (necTable f) 1 x) →
      msg.last last = last →
      ∃ (s' : NecDecoder) (o : List (Res C)), runStep (necFn t m (necTable f) v) d evs = some (s', o) ∧
        (s'.state = .init ∧ s'.bitbuf = msg.last last ∧ s'.dtSave < 2 ^ 31) ∧
        At msg.place (hears last k msg) (o.map (slotOf into)) := by
    intro h1 h2 h3 h4
    obtain ⟨pause, rest, rfl, hb⟩ := carries_burst hw hc hs
    obtain ⟨d', o, g1, g2, g3, g4, g5⟩ := nec_deaf_burst t m hl hw (necTable f) v hb
      (fun x hx => ⟨hlong x hx 0 (by decide), hlong x hx 1 (by decide)⟩) h3 d hd hsv
    exact ⟨d', o, g1, ⟨g2, by rw [g3, h4, hbuf], g4⟩, by rw [hoth last msg h1 h2]; exact g5.at into _⟩
  cases msg with
  | nec w =>
    obtain ⟨pause, ps, stop, rfl, hfr, -, -, hb⟩ := pulse_burst hw hc hs fun ps => nec_frame_among
    obtain ⟨d', o1, g1, g2, g3, g4, g5, g6⟩ := nec_own t m hl hw (necTable f) v hb (nec_unambiguous f hlo)
      (necTable_fits hf hw) hlong d (.inl hd) hsv w hfr
    exact ⟨d', _, g1, ⟨g2, g3, g4⟩, at_two into 66 g5 g6 (hown last w).symm⟩
  | necRepeat =>
    obtain ⟨pause, ps, stop, rfl, ⟨p, rfl, hp⟩, -, -, hb⟩ := pulse_burst hw hc hs fun ps => repeat_among
    obtain ⟨d', o1, g1, g2, g3, g4, g5, g6⟩ := nec_own_repeat t m hl hw (necTable f) v hb
      (nec_unambiguous f hlo) (necTable_fits hf hw) hlong d (.inl hd) hsv hp
    refine ⟨d', _, g1, ⟨g2, g3.trans hbuf, g4⟩, at_two into 2 g5 g6 ?_⟩
    rw [hrep, hbuf]
  | samsung w =>
    exact foreign (by simp) (by simp) (fun x hx => ⟨hx.not_inTol hlo .nec 0 (by decide) (by ranges),
      hx.not_inTol hlo .nec 1 (by decide) (by ranges)⟩) rfl
  | sbp a c =>
    exact foreign (by simp) (by simp) (fun x hx => ⟨hx.not_inTol hlo .nec 0 (by decide) (by ranges),
      hx.not_inTol hlo .nec 1 (by decide) (by ranges)⟩) rfl
  | denon w =>
    exact foreign (by simp) (by simp) (fun x hx => ⟨hx.not_inTol hlo .nec 0 (by decide) (by ranges),
      hx.not_inTol hlo .nec 1 (by decide) (by ranges)⟩) rfl
  | rc5 w =>
    exact foreign (by simp) (by simp) (fun x hx => ⟨hx.not_inTol hlo .nec 0 (by decide) (by ranges),
      hx.not_inTol hlo .nec 1 (by decide) (by ranges)⟩) rfl
  | rc6 a c tg =>
    exact foreign (by simp) (by simp) (fun x hx => ⟨hx.not_inTol hlo .nec 0 (by decide) (by ranges),
      hx.not_inTol hlo .nec 1 (by decide) (by ranges)⟩) rfl

/-- To a Samsung receiver an SBP transmission begins like a frame, and stops being one at the
divider. -/
theorem samsung_sbp (v : NecVariant C) {rs : List (Nat × Nat)} {pause : Nat}
    {ps : List (Nat × Nat)} {stop : Nat}
    (hb : Burst f m.width rs pause (pulses ps ++ [(false, stop)])) {a : BitVec 16} {c : BitVec 20}
    (hfr : Matches (sbpTable f) (sbpSlots a c) ps) (d : NecDecoder) (hd : d.Ready)
    (hsv : d.dtSave < 2 ^ 31) :
    ∃ d' o, runStep (necFn t m (samsungTable f) v) d ((true, pause) :: (pulses ps ++ [(false, stop)])) =
      some (d', o) ∧ (d'.Ready ∧ d'.dtSave < 2 ^ 31) ∧ NoCmd o := by
  have hl := Mono.prim_lawful hm
  have hw := Mono.prim_width hm
  have hlong : ∀ x, 15000 * f ≤ 1000000 * x → ∀ i < 4, ¬ InTol (samsungTable f) i x :=
    fun x hx i hi => long_not_inTol hlo hx .samsung i hi
  obtain ⟨hlen, hm'⟩ := hfr
  have hlen : ps.length = 38 := by rw [hlen]; simp [sbpSlots]
  have hall := (sbp_frame_among (f := f) ⟨by rw [hlen]; simp [sbpSlots], hm'⟩).2
  have mem : ∀ ps : List (Nat × Nat), ∀ p ∈ ps, (false, p.1) ∈ pulses ps ∧ (true, p.2) ∈ pulses ps := by
    intro ps
    induction ps with
    | nil => simp
    | cons q qs ih =>
      intro p hp
      rcases List.mem_cons.mp hp with rfl | hp
      · simp [pulses]
      · have := ih p hp
        simp [pulses, this]
  have hsum : ∀ p ∈ ps, p.1 + p.2 < 2 ^ m.width := by
    intro p hp
    have hmem := mem ps p hp
    exact sum_lt hw (hb.lt (false, p.1) (by simp [hmem.1])) (hb.lt (true, p.2) (by simp [hmem.2]))
  have hslot : ∀ (n : Nat) (p : Nat × Nat), ps[n]? = some p → ∃ s, (sbpSlots a c)[n]? = some s ∧
      InTol (sbpTable f) s (p.1 + p.2) := by
    intro n p hp
    have hn : n < (sbpSlots a c).length := by
      have := (List.getElem?_eq_some_iff.mp hp).1
      rw [hlen] at this
      simpa [sbpSlots] using this
    exact ⟨_, List.getElem?_eq_getElem hn, hm' n p _ hp (List.getElem?_eq_getElem hn)⟩
  have hsplit : ps = ps.take 17 ++ ([ps[17]'(by omega)] ++ ps.drop 18) := by
    rw [List.singleton_append, ← List.drop_eq_getElem_cons, List.take_append_drop]
  have hq : ps[17]? = some (ps[17]'(by omega)) := List.getElem?_eq_getElem (by omega)
  generalize ps[17]'(by omega) = q at hsplit hq
  obtain ⟨r, h1, h2⟩ := nec_silence t m hl hw (samsungTable f) v hb hlong d hd hsv
  obtain ⟨d2, o2, h3, h4, h5⟩ := nec_few t m hl (samsungTable f) v (ps.take 17) 0
    { state := .init, bitbuf := d.bitbuf, dtSave := 0 } (.inl rfl) (by simp [hlen]) (by
      intro p hp
      have hp := List.mem_of_mem_take hp
      exact ⟨hsum p hp, (hall p hp).not_inTol hlo .samsung 1 (by decide) (by ranges)⟩)
  obtain ⟨s, hs1, hs2⟩ := hslot 17 q hq
  obtain rfl := (sbpSlots_get a c 17 s hs1).2.2.2 rfl
  have hqa : Among f (q.1 + q.2) [usRange .sbp 1] := ⟨_, List.mem_singleton.mpr rfl, inTol_within .sbp (i := 1) (by decide) hs2⟩
  obtain ⟨d3, o3, h6, h7, h8, h9⟩ := nec_alien t m hl (samsungTable f) v q d2 h4
    (hsum q (List.mem_of_getElem? hq)) (by
      intro i hi
      have : i = 0 ∨ i = 1 ∨ i = 2 ∨ i = 3 := by omega
      rcases this with rfl | rfl | rfl | rfl
      · exact hqa.not_inTol hlo .samsung 0 (by decide) (by decide)
      · exact hqa.not_inTol hlo .samsung 1 (by decide) (by decide)
      · exact hqa.not_inTol hlo .samsung 2 (by decide) (by decide)
      · exact hqa.not_inTol hlo .samsung 3 (by decide) (by decide))
  have hmd : ∀ p ∈ ps.drop 18, p ∈ ps := fun p hp => List.mem_of_mem_drop hp
  obtain ⟨d4, o4, h10, h11, -, h12, h13⟩ := nec_deaf t m hl hw (samsungTable f) v
    (pulses (ps.drop 18) ++ [(false, stop)]) d3 h7 (by rw [h8]; decide) (by
      intro e he
      refine hb.lt e ?_
      rw [hsplit, pulses_append, pulses_append]
      rcases List.mem_append.mp he with he | he
      · simp [he]
      · simp only [List.mem_singleton] at he
        simp [he]) (by
      intro x hx
      rw [h8, periodsFrom_tail, periods_pulses _ _ fun p hp => hsum p (hmd p hp)] at hx
      obtain ⟨p, hp, rfl⟩ := List.mem_map.mp hx
      refine ⟨?_, (hall p (hmd p hp)).not_inTol hlo .samsung 1 (by decide) (by ranges)⟩
      obtain ⟨n, hn⟩ := List.mem_iff_getElem?.mp hp
      rw [List.getElem?_drop] at hn
      obtain ⟨s, hs1, hs2⟩ := hslot _ p hn
      have hg := sbpSlots_get a c _ s hs1
      have hs0 : s ≠ 0 := fun h => by have := hg.1 h; omega
      have hs4 : s < 4 := by
        obtain ⟨i, hi4, -, -⟩ := frame_symbols .sbp (f := f) ⟨a, c, by rw [hlen]; simp [sbpSlots], hm'⟩ p
          (hmd p hp)
        have : ∀ s ∈ sbpSlots a c, s < 4 := by
          intro s hs
          simp only [sbpSlots, List.mem_append, List.mem_singleton, List.mem_map] at hs
          rcases hs with ((rfl | ⟨j, -, rfl⟩) | rfl) | ⟨j, -, rfl⟩
          · decide
          · split <;> decide
          · decide
          · split <;> decide
        exact this s (List.mem_of_getElem? hs1)
      have ha : Among f (p.1 + p.2) [(4734, 5250), (897, 1100), (1794, 2200)] := by
        refine ⟨_, ?_, inTol_within .sbp hs4 hs2⟩
        have : s = 1 ∨ s = 2 ∨ s = 3 := by omega
        rcases this with rfl | rfl | rfl <;> simp [usRange]
      exact ha.not_inTol hlo .samsung 0 (by decide) (by decide))
  refine ⟨d4, r :: (o2 ++ (o3 ++ o4)), run_cons_some h1 ((congrArg (runStep _ _) ?_).trans
    (run_append_some h3 (run_append_some h6 h10))), ⟨.inl h11, h12⟩, (h5.append (h9.append h13)).cons h2⟩
  conv_lhs => rw [hsplit, pulses_append, pulses_append]
  simp only [List.append_assoc]

theorem samsung_attends :
    Attends f .samsung (necDecoder t m (samsungTable f) samsungNec) (AnyCommand.from samsungAC)
      fun _ (d : NecDecoder) => d.Ready ∧ d.dtSave < 2 ^ 31 := by
  have hl := Mono.prim_lawful hm
  have hw := Mono.prim_width hm
  have hlong : ∀ x, 15000 * f ≤ 1000000 * x → ∀ i < 4, ¬ InTol (samsungTable f) i x :=
    fun x hx i hi => long_not_inTol hlo hx .samsung i hi
  refine ⟨⟨.inl rfl, show 0 < 2 ^ 31 by decide⟩, ?_⟩
  rintro last (d : NecDecoder) msg evs hc hs - ⟨hd, hsv⟩
  have foreign : (∀ x, Among f x msg.ranges → ¬ InTol (samsungTable f) 0 x ∧ ¬ InTol (samsungTable f) 1 x) →
      hears last .samsung msg = none →
      ∃ (s' : NecDecoder) (o : List (Res SamsungNecCommand)),
        runStep (necFn t m (samsungTable f) samsungNec) d evs = some (s', o) ∧
        (s'.Ready ∧ s'.dtSave < 2 ^ 31) ∧
        At msg.place (hears last .samsung msg) (o.map (slotOf (AnyCommand.from samsungAC))) := by
    intro h3 h4
    obtain ⟨pause, rest, rfl, hb⟩ := carries_burst hw hc hs
    obtain ⟨r, h1, h2⟩ := nec_silence t m hl hw (samsungTable f) samsungNec hb hlong d hd hsv
    obtain ⟨d', o, g1, g2, -, g4, g5⟩ := nec_deaf t m hl hw (samsungTable f) samsungNec rest
      { state := .init, bitbuf := d.bitbuf, dtSave := 0 } rfl (Nat.two_pow_pos 31) hb.lt
      (fun x hx => h3 x (hb.periods x hx))
    exact ⟨d', _, run_cons_some h1 g1, ⟨.inl g2, g4⟩, by rw [h4]; exact (g5.cons h2).at _ _⟩
  cases msg with
  | nec w =>
    exact foreign (fun x hx => ⟨hx.not_inTol hlo .samsung 0 (by decide) (by ranges),
      hx.not_inTol hlo .samsung 1 (by decide) (by ranges)⟩) rfl
  | necRepeat =>
    exact foreign (fun x hx => ⟨hx.not_inTol hlo .samsung 0 (by decide) (by ranges),
      hx.not_inTol hlo .samsung 1 (by decide) (by ranges)⟩) rfl
  | samsung w =>
    obtain ⟨pause, ps, stop, rfl, hfr, -, -, hb⟩ := pulse_burst hw hc hs fun ps => samsung_frame_among
    obtain ⟨d', o1, g1, g2, g3, g4, g5, g6⟩ := nec_own t m hl hw (samsungTable f) samsungNec hb
      (samsung_unambiguous f hlo) (samsungTable_fits hf hw) hlong d hd hsv w hfr
    exact ⟨d', _, g1, ⟨.inl g2, g4⟩, at_two _ 66 g5 g6 (samsung_slot w false)⟩
  | sbp a c =>
    obtain ⟨pause, ps, stop, rfl, hfr, -, -, hb⟩ := pulse_burst hw hc hs fun ps => sbp_frame_among
    obtain ⟨d', o, g1, g2, g3⟩ := samsung_sbp t m hm hlo hf samsungNec hb hfr d hd hsv
    exact ⟨d', o, g1, g2, g3.at _ _⟩
  | denon w =>
    exact foreign (fun x hx => ⟨hx.not_inTol hlo .samsung 0 (by decide) (by ranges),
      hx.not_inTol hlo .samsung 1 (by decide) (by ranges)⟩) rfl
  | rc5 w =>
    exact foreign (fun x hx => ⟨hx.not_inTol hlo .samsung 0 (by decide) (by ranges),
      hx.not_inTol hlo .samsung 1 (by decide) (by ranges)⟩) rfl
  | rc6 a c tg =>
    exact foreign (fun x hx => ⟨hx.not_inTol hlo .samsung 0 (by decide) (by ranges),
      hx.not_inTol hlo .samsung 1 (by decide) (by ranges)⟩) rfl

theorem sbp_attends :
    Attends f .sbp (sbpDecoder t m (sbpTable f)) (AnyCommand.from sbpAC)
      fun _ (d : SbpDecoder) => d.Ready ∧ d.sinceRising < 2 ^ 31 := by
  have hl := Mono.prim_lawful hm
  have hw := Mono.prim_width hm
  have hlong : ∀ x, 15000 * f ≤ 1000000 * x → ∀ i < 4, ¬ InTol (sbpTable f) i x :=
    fun x hx i hi => long_not_inTol hlo hx .sbp i hi
  refine ⟨⟨sbpInit_ready, show 0 < 2 ^ 31 by decide⟩, ?_⟩
  rintro last (d : SbpDecoder) msg evs hc hs - ⟨hd, hsv⟩
  have foreign : (∀ x, Among f x msg.ranges → ¬ InTol (sbpTable f) 1 x) → hears last .sbp msg = none →
      ∃ (s' : SbpDecoder) (o : List (Res SbpCommand)),
        runStep (sbpFn t m (sbpTable f)) d evs = some (s', o) ∧ (s'.Ready ∧ s'.sinceRising < 2 ^ 31) ∧
        At msg.place (hears last .sbp msg) (o.map (slotOf (AnyCommand.from sbpAC))) := by
    intro h3 h4
    obtain ⟨pause, rest, rfl, hb⟩ := carries_burst hw hc hs
    obtain ⟨d', o, g1, g2, g3⟩ := sbp_deaf_paus t m hl hw (sbpTable f) hb hlong h3 d hd hsv
    exact ⟨d', o, g1, g2, by rw [h4]; exact g3.at _ _⟩
  cases msg with
  | nec w => exact foreign (fun x hx => hx.not_inTol hlo .sbp 1 (by decide) (by ranges)) rfl
  | necRepeat => exact foreign (fun x hx => hx.not_inTol hlo .sbp 1 (by decide) (by ranges)) rfl
  | samsung w => exact foreign (fun x hx => hx.not_inTol hlo .sbp 1 (by decide) (by ranges)) rfl
  | sbp a c =>
    obtain ⟨pause, ps, stop, rfl, hfr, -, -, hb⟩ := pulse_burst hw hc hs fun ps => sbp_frame_among
    obtain ⟨d', o1, g1, g2, g5, g6⟩ := sbp_own t m hl hw (sbpTable f) hb (sbp_unambiguous f hlo)
      (sbpTable_fits hf hw) hlong d hd hsv a c hfr
    exact ⟨d', _, g1, g2, at_two _ 76 g5 g6 (sbp_slot a c)⟩
  | denon w =>
    obtain ⟨pause, rest, rfl, hb⟩ := carries_burst hw hc hs
    obtain ⟨d', o, g1, g2, g3⟩ := sbp_deaf_sync t m hl hw (sbpTable f) hb hlong
      (fun x hx => hx.not_inTol hlo .sbp 0 (by decide) (by ranges)) d hd hsv
    exact ⟨d', o, g1, g2, g3.at _ _⟩
  | rc5 w => exact foreign (fun x hx => hx.not_inTol hlo .sbp 1 (by decide) (by ranges)) rfl
  | rc6 a c tg => exact foreign (fun x hx => hx.not_inTol hlo .sbp 1 (by decide) (by ranges)) rfl

theorem denon_attends :
    Attends f .denon (denonDecoder t m (denonTable f)) AnyCommand.fromDenon
      fun _ (d : DenonDecoder) => d.state = .idle ∧ d.buf = 0 ∧ d.dtSave < 2 ^ 31 := by
  have hl := Mono.prim_lawful hm
  have hw := Mono.prim_width hm
  have hlong : ∀ x, 15000 * f ≤ 1000000 * x → ¬ InTol (denonTable f) 0 x :=
    fun x hx => long_not_inTol hlo hx .denon 0 (by decide)
  refine ⟨⟨rfl, rfl, show 0 < 2 ^ 31 by decide⟩, ?_⟩
  rintro last (d : DenonDecoder) msg evs hc hs hk ⟨hd, hbuf, hsv⟩
  have foreign : (∀ x, Among f x msg.ranges → ¬ InTol (denonTable f) 0 x) → hears last .denon msg = none →
      ∃ (s' : DenonDecoder) (o : List (Res DenonCommand)),
        runStep (denonFn t m (denonTable f)) d evs = some (s', o) ∧
        (s'.state = .idle ∧ s'.buf = 0 ∧ s'.dtSave < 2 ^ 31) ∧
        At msg.place (hears last .denon msg) (o.map (slotOf AnyCommand.fromDenon)) := by
    intro h3 h4
    obtain ⟨pause, rest, rfl, hb⟩ := carries_burst hw hc hs
    obtain ⟨d', o, g1, g2, g3, g4, g5⟩ := denon_deaf_burst t m hl hw (denonTable f) hb hlong h3 d hd hsv
    exact ⟨d', o, g1, ⟨g2, g3.trans hbuf, g4⟩, by rw [h4]; exact g5.at _ _⟩
  cases msg with
  | nec w => exact foreign (fun x hx => hx.not_inTol hlo .denon 0 (by decide) (by ranges)) rfl
  | necRepeat => exact foreign (fun x hx => hx.not_inTol hlo .denon 0 (by decide) (by ranges)) rfl
  | samsung w => exact foreign (fun x hx => hx.not_inTol hlo .denon 0 (by decide) (by ranges)) rfl
  | sbp a c => exact absurd rfl (hk rfl a c)
  | denon w =>
    obtain ⟨pause, ps, stop, rfl, hfr, -, -, hb⟩ := pulse_burst hw hc hs fun ps => denon_frame_among
    obtain ⟨d', o1, g1, g2, g3, g4, g5, g6⟩ := denon_own t m hl hw (denonTable f) hb
      (denon_unambiguous f hlo) (denonTable_fits hf hw) hlong d hd hbuf hsv w hfr
    exact ⟨d', _, g1, ⟨g2, g3, g4⟩, at_two _ 98 g5 g6 (denon_slot w)⟩
  | rc5 w => exact foreign (fun x hx => hx.not_inTol hlo .denon 0 (by decide) (by ranges)) rfl
  | rc6 a c tg => exact foreign (fun x hx => hx.not_inTol hlo .denon 0 (by decide) (by ranges)) rfl

include hus

theorem rc5_attends :
    Attends f .rc5 (rc5Decoder t (rc5Table f)) (AnyCommand.from rc5AC)
      fun _ (d : Rc5Decoder) => ∃ a, Sim5 d a := by
  have hw := Mono.prim_width hm
  refine ⟨⟨_, sim5_init⟩, ?_⟩
  rintro last (d : Rc5Decoder) msg evs hc hs - hd
  have foreign : ∀ {frame : List (Nat × Nat) → Prop} {rs}, PulseBurst f frame evs →
      (∀ ps, frame ps → ps.length ≤ 49 ∧ ∀ p ∈ ps, Among f (p.1 + p.2) rs) →
      hears last .rc5 msg = none →
      ∃ (s' : Rc5Decoder) (o : List (Res Rc5Command)),
        runStep (rc5Fn t (rc5Table f)) d evs = some (s', o) ∧ (∃ a, Sim5 s' a) ∧
        At msg.place (hears last .rc5 msg) (o.map (slotOf (AnyCommand.from rc5AC))) := by
    intro frame rs h1 h2 h4
    obtain ⟨pause, ps, stop, rfl, -, hps, hst, hb⟩ := pulse_burst hw h1 hs h2
    obtain ⟨d', o, g1, g2, g3⟩ := rc5_deaf_pulses t hus hlo hb hps hst hd
    exact ⟨d', o, g1, g2, by rw [h4]; exact g3.at _ _⟩
  cases msg with
  | nec w => exact foreign hc (fun ps => nec_frame_among) rfl
  | necRepeat => exact foreign hc (fun ps => repeat_among) rfl
  | samsung w => exact foreign hc (fun ps => samsung_frame_among) rfl
  | sbp a c => exact foreign hc (fun ps => sbp_frame_among) rfl
  | denon w => exact foreign hc (fun ps => denon_frame_among) rfl
  | rc5 v =>
    obtain ⟨hv, hc⟩ := hc
    obtain ⟨p, n, b, e, tl, rfl, he, ht, hb⟩ := manchester_burst (w := m.width) hc hs
      (paired_edges _ _ _) (Nat.le_trans (rc5Edges_length v) (by decide))
      fun _ _ _ _ ht hp => rc5_burst_edges _ _ ht hp
    obtain ⟨d', o1, o2, g1, g2, g3, g4, g5⟩ := rc5_own t hus hlo hv hb he ht hd
    exact ⟨d', _, g1, g2, at_of _ _ g3 g4 g5 (rc5_slot v)⟩
  | rc6 a c tg =>
    obtain ⟨p, n, b, e, tl, rfl, he, ht, hb⟩ := manchester_burst (w := m.width) hc hs
      (paired_edges _ _ _) (Nat.le_trans (rc6Edges_length _ tg) (by decide))
      fun _ _ _ he ht _ => rc6_burst_edges _ _ _ he ht
    obtain ⟨d', o, g1, g2, g3⟩ := rc5_deaf_rc6 t hus hlo hb he ht hd
    exact ⟨d', o, g1, g2, g3.at _ _⟩

theorem rc6_attends :
    Attends f .rc6 (rc6Decoder t (rc6Table f)) (AnyCommand.from rc6AC)
      fun _ (d : Rc6Decoder) => ∃ a, Sim6 d a := by
  have hw := Mono.prim_width hm
  refine ⟨⟨_, sim6_init⟩, ?_⟩
  rintro last (d : Rc6Decoder) msg evs hc hs - hd
  have foreign : ∀ {frame : List (Nat × Nat) → Prop} {rs}, PulseBurst f frame evs →
      (∀ ps, frame ps → ps.length ≤ 49 ∧ ∀ p ∈ ps, Among f (p.1 + p.2) rs) →
      hears last .rc6 msg = none →
      ∃ (s' : Rc6Decoder) (o : List (Res Rc6Command)),
        runStep (rc6Fn t (rc6Table f)) d evs = some (s', o) ∧ (∃ a, Sim6 s' a) ∧
        At msg.place (hears last .rc6 msg) (o.map (slotOf (AnyCommand.from rc6AC))) := by
    intro frame rs h1 h2 h4
    obtain ⟨pause, ps, stop, rfl, -, hps, hst, hb⟩ := pulse_burst hw h1 hs h2
    obtain ⟨d', o, g1, g2, g3⟩ := rc6_deaf t hus hlo (body := pulses ps) (tail := some stop) hb (by
      intro e he hf
      have : ∀ ps : List (Nat × Nat), ∀ e ∈ pulses ps, e.1 = false → ∃ p ∈ ps, p.1 = e.2 := by
        intro ps
        induction ps with
        | nil => simp [pulses]
        | cons q qs ih =>
          intro e he hf
          simp only [pulses, List.mem_cons] at he
          rcases he with rfl | rfl | he
          · exact ⟨q, by simp, rfl⟩
          · cases hf
          · obtain ⟨p, hp, hpe⟩ := ih e he hf
            exact ⟨p, by simp [hp], hpe⟩
      obtain ⟨p, hp, hpe⟩ := this ps e he hf
      rw [← hpe]
      exact rc6_half_plain hlo (hps p hp)) hd
    exact ⟨d', o, g1, g2, by rw [h4]; exact g3.at _ _⟩
  cases msg with
  | nec w => exact foreign hc (fun ps => nec_frame_among) rfl
  | necRepeat => exact foreign hc (fun ps => repeat_among) rfl
  | samsung w => exact foreign hc (fun ps => samsung_frame_among) rfl
  | sbp a c => exact foreign hc (fun ps => sbp_frame_among) rfl
  | denon w => exact foreign hc (fun ps => denon_frame_among) rfl
  | rc5 v =>
    obtain ⟨hv, hc⟩ := hc
    obtain ⟨p, n, b, e, tl, rfl, he, ht, hb⟩ := manchester_burst (w := m.width) hc hs
      (paired_edges _ _ _) (Nat.le_trans (rc5Edges_length v) (by decide))
      fun _ _ _ _ ht hp => rc5_burst_edges _ _ ht hp
    obtain ⟨d', o, g1, g2, g3⟩ := rc6_deaf t hus hlo hb (by
      intro x hx _
      obtain ⟨k, -, hin⟩ := timed_mem ht x hx
      have hpos : 0 < x.2 := hb.pos x (by cases tl <;> simp [withTail, hx])
      refine rc6_half_ne hlo (.inl ?_)
      rcases rc5_window hin hpos with ⟨-, h⟩ | ⟨-, h⟩ <;> have := h.hi <;> omega) hd
    exact ⟨d', o, g1, g2, g3.at _ _⟩
  | rc6 a c tg =>
    obtain ⟨p, n, b, e, tl, rfl, he, ht, hb⟩ := manchester_burst (w := m.width) hc hs
      (paired_edges _ _ _) (Nat.le_trans (rc6Edges_length _ tg) (by decide))
      fun _ _ _ he ht _ => rc6_burst_edges _ _ _ he ht
    obtain ⟨d', o1, o2, g1, g2, g3, g4, g5⟩ := rc6_own t hus hlo hm hf hb he ht hd
    exact ⟨d', _, g1, g2, at_of _ _ g3 g4 g5 (rc6_slot a c tg)⟩

end

/-! ### All messages -/

/-- What one listener says to each event. -/
def column (k : Listener) : (last : BitVec 32) → List (Msg × List Ev) → List (Option AnyCommand)
  | _, [] => []
  | last, x :: xs =>
    (List.range x.2.length).map (fun i => if i = x.1.place then hears last k x.1 else none) ++
      column k (x.1.last last) xs

theorem at_eq {A : Type} {p : Nat} {h : Option A} {l : List (Option A)} (hl : At p h l) :
    l = (List.range l.length).map fun i => if i = p then h else none := by
  refine List.ext_getElem? fun i => ?_
  rcases hi : l[i]? with _ | x
  · rw [List.getElem?_eq_none_iff] at hi
    symm
    rw [List.getElem?_eq_none_iff]
    simpa using hi
  · have hlt := (List.getElem?_eq_some_iff.mp hi).1
    rw [List.getElem?_map, List.getElem?_range hlt, hl i x hi]
    rfl

theorem attends_run {f : Nat} {k : Listener} {D : Decoder C} {into : C → AnyCommand}
    {Ok : BitVec 32 → D.St → Prop} (hA : Attends f k D into Ok) (msgs : List (Msg × List Ev))
    (last : BitVec 32) (s : D.St) (hok : ∀ x ∈ msgs, Carries f x.1 x.2 ∧ Spaced f x.2)
    (hk : k = .denon → ∀ a c, Msg.sbp a c ∉ msgs.map Prod.fst) (hs : Ok last s) :
    ∃ s' o, runStep D.step s (msgs.flatMap Prod.snd) = some (s', o) ∧
      o.map (slotOf into) = column k last msgs := by
  induction msgs generalizing last s with
  | nil => exact ⟨s, [], rfl, rfl⟩
  | cons x xs ih =>
    obtain ⟨msg, evs⟩ := x
    obtain ⟨hc, hsp⟩ := hok (msg, evs) (by simp)
    obtain ⟨s1, o1, h1, h2, h3⟩ := hA.step last s msg evs hc hsp
      (fun h a c he => hk h a c (by simp [he])) hs
    obtain ⟨s2, o2, h4, h5⟩ := ih (msg.last last) s1 (fun x hx => hok x (by simp [hx]))
      (fun h a c he => hk h a c (by
        rw [List.map_cons]
        exact List.mem_cons_of_mem _ he)) h2
    refine ⟨s2, o1 ++ o2, run_append_some h1 h4, ?_⟩
    rw [List.map_append, h5, at_eq h3]
    simp only [List.length_map, run_length h1, column]

/-! ### All listeners -/

/-- The component of a listener, with the tolerance table written out. -/
def Spec.Listener.comp (t : Target) (m : Mono) (f : Nat) : Listener → Component
  | .nec => ⟨NecCommand, necDecoder t m (necTable f) Infrared.nec, AnyCommand.from necAC⟩
  | .apple => ⟨AppleNecCommand, necDecoder t m (necTable f) appleNec, AnyCommand.from appleAC⟩
  | .samsung => ⟨SamsungNecCommand, necDecoder t m (samsungTable f) samsungNec, AnyCommand.from samsungAC⟩
  | .sbp => ⟨SbpCommand, sbpDecoder t m (sbpTable f), AnyCommand.from sbpAC⟩
  | .denon => ⟨DenonCommand, denonDecoder t m (denonTable f), AnyCommand.fromDenon⟩
  | .rc5 => ⟨Rc5Command, rc5Decoder t (rc5Table f), AnyCommand.from rc5AC⟩
  | .rc6 => ⟨Rc6Command, rc6Decoder t (rc6Table f), AnyCommand.from rc6AC⟩

theorem component_eq (t : Target) {m : Mono} (hm : m = Mono.u32 ∨ m = Mono.u64) {f : Nat}
    (hf : f < 2 ^ 32) (k : Listener) : Listener.component t m f k = some (k.comp t m f) := by
  cases k <;> simp only [Infrared.Listener.component, Spec.Listener.comp]
  · rw [necSpans_standard hm t hf _ rfl]; rfl
  · rw [necSpans_standard hm t hf _ rfl]; rfl
  · rw [necSpans_samsung hm t hf _ rfl]; rfl
  · rw [sbpSpans_eq hm t hf]; rfl
  · rw [denonSpans_eq hm t hf]; rfl
  · rw [rc5Spans_eq hm t hf]; rfl
  · rw [rc6Spans_eq hm t hf]; rfl

theorem listener_run (t : Target) (hus : 16 ≤ t.usizeBits) {m : Mono}
    (hm : m = Mono.u32 ∨ m = Mono.u64) {f : Nat} (hlo : 20000 ≤ f) (hf : f < 2 ^ 32) (k : Listener)
    (msgs : List (Msg × List Ev)) (hok : ∀ x ∈ msgs, Carries f x.1 x.2 ∧ Spaced f x.2)
    (hk : k = .denon → ∀ a c, Msg.sbp a c ∉ msgs.map Prod.fst) :
    ∃ o, results (k.comp t m f).D id (msgs.flatMap Prod.snd) = some o ∧
      o.map (slotOf (k.comp t m f).into) = column k 0 msgs := by
  have key : ∃ Ok, Attends f k (k.comp t m f).D (k.comp t m f).into Ok := by
    cases k
    · exact ⟨_, necTiming_attends t m hm hlo hf .nec Infrared.nec _ (fun _ w => (nec_slot w false).symm)
        (fun last => (nec_slot last true).symm) (by intro last msg h1 h2; cases msg <;> simp_all [hears])⟩
    · exact ⟨_, necTiming_attends t m hm hlo hf .apple appleNec _ (fun _ w => (apple_slot w false).symm)
        (fun last => (apple_slot last true).symm) (by intro last msg h1 h2; cases msg <;> simp_all [hears])⟩
    · exact ⟨_, samsung_attends t m hm hlo hf⟩
    · exact ⟨_, sbp_attends t m hm hlo hf⟩
    · exact ⟨_, denon_attends t m hm hlo hf⟩
    · exact ⟨_, rc5_attends t hus m hm hlo hf⟩
    · exact ⟨_, rc6_attends t hus m hm hlo hf⟩
  obtain ⟨Ok, hA⟩ := key
  obtain ⟨s', o, h1, h2⟩ := attends_run hA msgs 0 _ hok hk hA.init
  exact ⟨o, by rw [results_id, h1]; rfl, h2⟩

/-! ### All together -/

/-- What all listeners say to each event. -/
def grid (ks : List Listener) : (last : BitVec 32) → List (Msg × List Ev) →
    List (List (Option AnyCommand))
  | _, [] => []
  | last, x :: xs =>
    (List.range x.2.length).map (fun i => ks.map fun k =>
      if i = x.1.place then hears last k x.1 else none) ++ grid ks (x.1.last last) xs

theorem grid_column (ks : List Listener) (j : Nat) (k : Listener) (hj : ks[j]? = some k)
    (last : BitVec 32) (msgs : List (Msg × List Ev)) :
    (grid ks last msgs).map (fun row => row[j]?) = (column k last msgs).map some := by
  induction msgs generalizing last with
  | nil => rfl
  | cons x xs ih => simp [grid, column, ih, hj]

theorem grid_length (ks : List Listener) (last : BitVec 32) (msgs : List (Msg × List Ev)) :
    (grid ks last msgs).length = (msgs.flatMap Prod.snd).length ∧
      ∀ row ∈ grid ks last msgs, row.length = ks.length := by
  induction msgs generalizing last with
  | nil => simp [grid]
  | cons x xs ih =>
    obtain ⟨h1, h2⟩ := ih (x.1.last last)
    refine ⟨by simp [grid, h1], ?_⟩
    intro row hrow
    rcases List.mem_append.mp hrow with h | h
    · obtain ⟨i, -, rfl⟩ := List.mem_map.mp h
      simp
    · exact h2 row h

theorem matrix_eq {A : Type} {n : Nat} {a b : List (List A)} (hl : a.length = b.length)
    (ha : ∀ row ∈ a, row.length = n) (hb : ∀ row ∈ b, row.length = n)
    (h : ∀ j < n, a.map (fun row => row[j]?) = b.map fun row => row[j]?) : a = b := by
  refine List.ext_getElem hl fun i h1 h2 => List.ext_getElem? fun j => ?_
  by_cases hj : j < n
  · have := congrArg (fun l => l[i]?) (h j hj)
    simpa [h1, h2] using this
  · rw [List.getElem?_eq_none, List.getElem?_eq_none]
    · rw [hb _ (List.getElem_mem h2)]; omega
    · rw [ha _ (List.getElem_mem h1)]; omega

/-- The place of the command is within the transmission. -/
theorem carries_length {f : Nat} {msg : Msg} {evs : List Ev} (h : Carries f msg evs) :
    msg.place < evs.length := by
  have pulse : ∀ {frame : List (Nat × Nat) → Prop} {n : Nat}, PulseBurst f frame evs →
      (∀ ps, frame ps → ps.length = n) → evs.length = 2 * n + 2 := by
    rintro frame n ⟨pause, ps, stop, rfl, h1, -, -⟩ h2
    simp only [List.length_cons, List.length_append, pulses_length, h2 ps h1, List.length_nil]
  have manchester : ∀ {fits : Nat → Nat → Prop} {edges : List (Bool × Nat)},
      ManchesterBurst fits edges evs → edges.length - 1 < evs.length := by
    rintro fits edges ⟨body, tail, rfl, pause, n, evs', edges', rfl, rfl, ht⟩
    have := Timed.length ht
    cases tail <;> simp [withTail] <;> omega
  cases msg with
  | nec w => have := pulse (n := 33) h fun ps hp => hp.1
             simp only [Msg.place]; omega
  | necRepeat => have := pulse (n := 1) h fun ps hp => by obtain ⟨p, rfl, -⟩ := hp; rfl
                 simp only [Msg.place]; omega
  | samsung w => have := pulse (n := 33) h fun ps hp => hp.1
                 simp only [Msg.place]; omega
  | sbp a c => have := pulse (n := 38) h fun ps hp => by rw [hp.1]; simp [sbpSlots]
               simp only [Msg.place]; omega
  | denon w => have := pulse (n := 49) h fun ps hp => by rw [hp.1]; simp [denonSlots]
               simp only [Msg.place]; omega
  | rc5 w => exact manchester h.2
  | rc6 a c tg => exact manchester h

theorem range_flat {A : Type} (l : List A) (p : Nat) : ∀ n, p < n →
    (List.range n).flatMap (fun i => if i = p then l else []) = l := by
  intro n
  induction n with
  | zero => intro h; omega
  | succ n ih =>
    intro h
    rw [List.range_succ, List.flatMap_append]
    by_cases hp : p < n
    · rw [ih hp]
      have : n ≠ p := by omega
      simp [this]
    · have hn : p = n := by omega
      subst hn
      have : (List.range p).flatMap (fun i => if i = p then l else []) = [] := by
        rw [List.flatMap_eq_nil_iff]
        intro i hi
        rw [List.mem_range] at hi
        rw [if_neg (by omega)]
      simp [this]

theorem grid_heard (f : Nat) (ks : List Listener) (last : BitVec 32) (msgs : List (Msg × List Ev))
    (hok : ∀ x ∈ msgs, Carries f x.1 x.2) :
    (grid ks last msgs).flatMap (List.filterMap id) = heard ks last (msgs.map Prod.fst) := by
  induction msgs generalizing last with
  | nil => rfl
  | cons x xs ih =>
    rw [grid, List.flatMap_append, ih _ fun y hy => hok y (by simp [hy]), List.map_cons, heard]
    congr 1
    rw [List.flatMap_map]
    refine Eq.trans (congrArg (List.flatMap · _) (funext fun i => ?_))
      (range_flat _ x.1.place _ (carries_length (hok x (by simp))))
    rw [List.filterMap_map]
    by_cases hi : i = x.1.place
    · simp [hi, Function.comp_def]
    · simp [hi, Function.comp_def]

theorem multiIterRun_eq (ss : List Slot) (evs : List Ev) :
    multiIterRun ss evs = (multiRun ss evs).map fun p => p.2.flatMap (List.filterMap id) := by
  induction evs generalizing ss with
  | nil => rfl
  | cons e es ih =>
    simp only [multiIterRun, multiRun, multiEventIter]
    rcases multiEvent ss e.2 e.1 with _ | rs
    · rfl
    · simp only [Option.bind_eq_bind, Option.bind_some, ih]
      rcases multiRun (rs.map Prod.fst) es with _ | ⟨ss', outs⟩
      · rfl
      · simp [List.filterMap_map, Function.comp_def]

/-- **C60**: remote controls send one message after the other, with pauses of at least 15 ms.  A
`MultiReceiver` for any selection of protocols then reports, message by message, what the listeners
for that kind of message are to hear, in the order of the selection, and nothing else.  (A Denon
listener must not be around SBP transmissions, see `C60_refuted_denon`.) -/
theorem C60_room (t : Target) (hus : 16 ≤ t.usizeBits) (m : Mono) (hm : m = Mono.u32 ∨ m = Mono.u64)
    (f : Nat) (hlo : 20000 ≤ f) (hf : f < 2 ^ 32) (ks : List Listener) (msgs : List (Msg × List Ev))
    (hok : ∀ x ∈ msgs, Carries f x.1 x.2 ∧ Spaced f x.2) (hc : Compatible ks (msgs.map Prod.fst)) :
    (multiNew t m f ks).bind (multiIterRun · (msgs.flatMap Prod.snd)) =
      some (heard ks 0 (msgs.map Prod.fst)) := by
  have hnew : multiNew t m f ks = some (multiMake (ks.map (Listener.comp t m f))) := by
    have : ks.mapM (Infrared.Listener.component t m f) = some (ks.map (Listener.comp t m f)) := by
      clear hc
      induction ks with
      | nil => rfl
      | cons k ks ih => rw [mapM_some_cons, component_eq t hm hf k, ih]; rfl
    rw [multiNew, this]
    rfl
  have hone : ∀ k ∈ ks, ∃ o, results (k.comp t m f).D id (msgs.flatMap Prod.snd) = some o ∧
      o.map (slotOf (k.comp t m f).into) = column k 0 msgs := fun k hk =>
    listener_run t hus hm hlo hf k msgs hok fun h => hc (h ▸ hk)
  rw [hnew, Option.bind_some, multiIterRun_eq]
  rcases hr : multiRun (multiMake (ks.map (Listener.comp t m f))) (msgs.flatMap Prod.snd) with
    _ | ⟨ss', outs⟩
  · obtain ⟨c, hcm, hn⟩ := (C36_multi_panics_iff _ _).mp hr
    obtain ⟨k, hk, rfl⟩ := List.mem_map.mp hcm
    obtain ⟨o, ho, -⟩ := hone k hk
    rw [ho] at hn
    cases hn
  · obtain ⟨hlen, hrow⟩ := C36_multi_width _ _ _ _ hr
    obtain ⟨glen, grow⟩ := grid_length ks 0 msgs
    have houts : outs = grid ks 0 msgs := by
      refine matrix_eq (hlen.trans glen.symm) (n := ks.length) (by simpa using hrow) grow ?_
      intro j hj
      have hk : ks[j]? = some ks[j] := List.getElem?_eq_getElem hj
      obtain ⟨o, ho, hcol⟩ := hone ks[j] (List.getElem_mem hj)
      obtain ⟨ro, hro, hro2⟩ := C36_multi_independent _ _ _ _ hr j ((ks[j]).comp t m f)
        (by rw [List.getElem?_map, hk]; rfl)
      rw [ho] at hro
      obtain rfl := Option.some.inj hro
      rw [hro2, grid_column ks j _ hk, ← hcol, List.map_map]
      rfl
    rw [Option.map_some, houts, grid_heard f ks 0 msgs fun x hx => (hok x hx).1]

/-- Nominal transmissions in µs, for a receiver of 1 MHz. -/
def Spec.onAir : Msg → List Ev
  | .nec w => (true, 40000) :: (pulses (nominalNec w) ++ [(false, 560)])
  | .necRepeat => (true, 40000) :: (pulses [(9000, 2250)] ++ [(false, 560)])
  | .samsung w => (true, 40000) :: (pulses (nominalSamsung w) ++ [(false, 560)])
  | .sbp a c => (true, 40000) :: (pulses (nominalSbp a c) ++ [(false, 500)])
  | .denon w => (true, 40000) :: (pulses (nominalDenon w) ++ [(false, 420)])
  | .rc5 w => nominalRc5 w
  | .rc6 a c tg => nominalRc6 0 (a ++ c) tg

/-- Non-vacuity: every nominal transmission is one, for a receiver of 1 MHz. -/
theorem onAir_carries (msg : Msg) (h : ∀ w, msg = .rc5 w → w.getLsbD 13 = true) :
    Carries 1000000 msg (onAir msg) ∧ Spaced 1000000 (onAir msg) := by
  have bits : ∀ (g : Nat → Bool) (a b c n : Nat), a ≤ 700 → 0 < a → 0 < b → b < 2 ^ 31 → 0 < c → c < 2 ^ 31 →
      ∀ p ∈ (List.range n).map (fun i => (a, if g i then b else c)),
        PlainMark 1000000 p.1 ∧ (0 < p.1 ∧ p.1 < 2 ^ 31) ∧ (0 < p.2 ∧ p.2 < 2 ^ 31) := by
    intro g a b c n h1 h2 h3 h4 h5 h6 p hp
    obtain ⟨i, -, rfl⟩ := List.mem_map.mp hp
    dsimp only
    refine ⟨.inl (by omega), by omega, ?_⟩
    split <;> omega
  have all : ∀ (ps : List (Nat × Nat)) (stop : Nat), 0 < stop → stop ≤ 700 →
      (∀ p ∈ ps, PlainMark 1000000 p.1 ∧ (0 < p.1 ∧ p.1 < 2 ^ 31) ∧ (0 < p.2 ∧ p.2 < 2 ^ 31)) →
      Spaced 1000000 ((true, 40000) :: (pulses ps ++ [(false, stop)])) := by
    intro ps stop h1 h2 h3
    refine ⟨⟨40000, _, rfl, by decide⟩, ?_⟩
    have key : ∀ ps : List (Nat × Nat),
        (∀ p ∈ ps, PlainMark 1000000 p.1 ∧ (0 < p.1 ∧ p.1 < 2 ^ 31) ∧ (0 < p.2 ∧ p.2 < 2 ^ 31)) →
        ∀ e ∈ pulses ps, 0 < e.2 ∧ e.2 < 2 ^ 31 := by
      intro ps
      induction ps with
      | nil => intro _ e he; simp [pulses] at he
      | cons q qs ih =>
        intro h e he
        simp only [pulses, List.mem_cons] at he
        rcases he with rfl | rfl | he
        · exact (h q (by simp)).2.1
        · exact (h q (by simp)).2.2
        · exact ih (fun p hp => h p (by simp [hp])) e he
    intro e he
    simp only [List.mem_cons, List.mem_append, List.not_mem_nil, or_false] at he
    rcases he with rfl | he | rfl
    · decide
    · exact key ps h3 e he
    · dsimp only; omega
  have pulse : ∀ (frame : List (Nat × Nat) → Prop) (ps : List (Nat × Nat)) (stop : Nat), frame ps →
      0 < stop → stop ≤ 700 →
      (∀ p ∈ ps, PlainMark 1000000 p.1 ∧ (0 < p.1 ∧ p.1 < 2 ^ 31) ∧ (0 < p.2 ∧ p.2 < 2 ^ 31)) →
      PulseBurst 1000000 frame ((true, 40000) :: (pulses ps ++ [(false, stop)])) ∧
        Spaced 1000000 ((true, 40000) :: (pulses ps ++ [(false, stop)])) := fun frame ps stop h1 h2 h3 h4 =>
    ⟨⟨_, ps, stop, rfl, h1, fun p hp => (h4 p hp).1, .inl (by omega)⟩, all ps stop h2 h3 h4⟩
  have one : ∀ a b : Nat, 3100 ≤ a → a < 2 ^ 31 → 0 < b → b < 2 ^ 31 → ∀ p ∈ [(a, b)],
      PlainMark 1000000 p.1 ∧ (0 < p.1 ∧ p.1 < 2 ^ 31) ∧ (0 < p.2 ∧ p.2 < 2 ^ 31) := by
    intro a b h1 h2 h3 h4 p hp
    simp only [List.mem_singleton] at hp
    subst hp
    exact ⟨.inr (by dsimp only; omega), by dsimp only; omega, by dsimp only; omega⟩
  have manchester : ∀ (edges : List (Bool × Nat)) (k : Nat), 0 < k → k < 1000 →
      (∀ e ∈ edges, 0 < e.2 ∧ e.2 < 10) →
      Spaced 1000000 ((true, 100000) :: edges.map fun x => (x.1, k * x.2)) := by
    intro edges k h1 h2 h3
    refine ⟨⟨100000, _, rfl, by decide⟩, ?_⟩
    intro e he
    rcases List.mem_cons.mp he with rfl | he
    · decide
    · obtain ⟨x, hx, rfl⟩ := List.mem_map.mp he
      obtain ⟨h4, h5⟩ := h3 x hx
      dsimp only
      refine ⟨Nat.mul_pos h1 h4, ?_⟩
      have : k * x.2 ≤ 1000 * 10 := Nat.mul_le_mul (by omega) (by omega)
      omega
  cases msg with
  | nec w =>
    refine pulse _ _ _ (nominalNec_frame w) (by decide) (by decide) ?_
    intro p hp
    rcases List.mem_cons.mp hp with rfl | hp
    · exact one 9000 4500 (by decide) (by decide) (by decide) (by decide) _ (by simp)
    · exact bits _ _ _ _ _ (by decide) (by decide) (by decide) (by decide) (by decide) (by decide) p hp
  | necRepeat =>
    exact pulse _ _ _ ⟨_, rfl, ⟨_, rfl, by decide⟩⟩ (by decide) (by decide)
      (one 9000 2250 (by decide) (by decide) (by decide) (by decide))
  | samsung w =>
    refine pulse _ _ _ (nominalSamsung_frame w) (by decide) (by decide) ?_
    intro p hp
    rcases List.mem_cons.mp hp with rfl | hp
    · exact one 4500 4500 (by decide) (by decide) (by decide) (by decide) _ (by simp)
    · exact bits _ _ _ _ _ (by decide) (by decide) (by decide) (by decide) (by decide) (by decide) p hp
  | sbp a c =>
    refine pulse _ _ _ (nominalSbp_frame a c) (by decide) (by decide) ?_
    intro p hp
    simp only [nominalSbp, List.mem_append] at hp
    rcases hp with ((hp | hp) | hp) | hp
    · exact one 4500 4500 (by decide) (by decide) (by decide) (by decide) p hp
    · exact bits _ _ _ _ _ (by decide) (by decide) (by decide) (by decide) (by decide) (by decide) p hp
    · simp only [List.mem_singleton] at hp
      subst hp
      exact ⟨.inl (by decide), by decide, by decide⟩
    · exact bits _ _ _ _ _ (by decide) (by decide) (by decide) (by decide) (by decide) (by decide) p hp
  | denon w =>
    refine pulse _ _ _ (nominalDenon_frame w) (by decide) (by decide) ?_
    intro p hp
    rcases List.mem_append.mp hp with hp | hp
    · exact one 3400 1600 (by decide) (by decide) (by decide) (by decide) p hp
    · exact bits _ _ _ _ _ (by decide) (by decide) (by decide) (by decide) (by decide) (by decide) p hp
  | rc5 w =>
    have hw := h w rfl
    refine ⟨⟨hw, _, none, rfl, nominalRc5_frame w hw⟩, ?_⟩
    simp only [onAir, nominalRc5, rc5Edges_eq w hw]
    refine manchester _ _ (by decide) (by decide) fun e he => ?_
    rcases rc5_edges_len w 13 true e he with h | h <;> omega
  | rc6 a c tg =>
    refine ⟨⟨_, none, rfl, nominalRc6_frame _ tg⟩, ?_⟩
    simp only [onAir, nominalRc6, rc6Edges_eq 0 (.inl rfl)]
    refine manchester _ _ (by decide) (by decide) fun e he => ?_
    rcases rc6_edges_len (a ++ c) tg e he with h | h | h | h <;> omega

/-- Non-vacuity: seven messages, six listeners, 1 MHz. -/
def Spec.evening : List Msg :=
  [.nec 0xF708FB04, .necRepeat, .rc5 0b11110001101100, .samsung 0xF50AF807, .sbp 0x2010 0x807F0,
   .rc6 70 2 true, .denon 0x123456789ABC]

example (t : Target) (hus : 16 ≤ t.usizeBits) :
    (multiNew t Mono.u64 1000000 [.rc6, .nec, .samsung, .apple, .rc5, .sbp]).bind
        (multiIterRun · (evening.flatMap onAir)) =
      some [{ protocol := .nec, raw := 0, address := 4, command := 8, rep := false },
        { protocol := .nec, raw := 0, address := 4, command := 8, rep := true },
        { protocol := .rc5, raw := 0, address := 17, command := 44, rep := true },
        { protocol := .necSamsung, raw := 0, address := 7, command := 10, rep := false },
        { protocol := .sbp, raw := 0, address := 0x2010, command := 0x7F, rep := false },
        { protocol := .rc6, raw := 0, address := 70, command := 2, rep := true }] := by
  have h := C60_room t hus Mono.u64 (.inr rfl) 1000000 (by decide) (by decide)
    [.rc6, .nec, .samsung, .apple, .rc5, .sbp] (evening.map fun x => (x, onAir x)) (by
      intro x hx
      obtain ⟨msg, hmsg, rfl⟩ := List.mem_map.mp hx
      refine onAir_carries msg ?_
      rintro w rfl
      simp only [evening, List.mem_cons, List.not_mem_nil, or_false, reduceCtorEq, false_or, Msg.rc5.injEq]
        at hmsg
      subst hmsg
      decide) (by intro h; simp at h)
  rw [List.flatMap_map] at h
  refine h.trans (congrArg some ?_)
  decide +kernel

/-- An SBP frame with short command bits (410 µs and 1320 µs gaps; 500 µs and 1500 µs are nominal). -/
def Spec.hastySbp (a : BitVec 16) (w : BitVec 20) : List (Nat × Nat) :=
  [(4500, 4500)] ++ (List.range 16).map (fun i => (500, if a.getLsbD i then 1500 else 500)) ++
    [(500, 4500)] ++ (List.range 20).map (fun i => (500, if w.getLsbD i then 1320 else 410))

theorem hastySbp_frame (a : BitVec 16) (w : BitVec 20) :
    Matches (sbpTable 1000000) (sbpSlots a w) (hastySbp a w) := by
  rw [sbpSlots_eq]
  refine Matches.append (Matches.append (Matches.append (Matches.singleton ?_) (Matches.bits ?_))
    (Matches.singleton ?_)) (Matches.bits ?_)
  · exact ⟨_, rfl, by decide⟩
  · intro i _
    cases a.getLsbD i
    · exact ⟨_, rfl, by decide⟩
    · exact ⟨_, rfl, by decide⟩
  · exact ⟨_, rfl, by decide⟩
  · intro i _
    cases w.getLsbD i
    · exact ⟨_, rfl, by decide⟩
    · exact ⟨_, rfl, by decide⟩

/-- **C60**: the restriction for Denon listeners is needed.  The divider of an SBP frame is a Denon
sync, and the bits after it are kept and spoil the next Denon frame. -/
theorem C60_refuted_denon :
    ∃ msgs : List (Msg × List Ev), (∀ x ∈ msgs, Carries 1000000 x.1 x.2 ∧ Spaced 1000000 x.2) ∧
      (multiNew ⟨true, 32⟩ Mono.u32 1000000 [.denon]).bind (multiIterRun · (msgs.flatMap Prod.snd)) =
        some [{ protocol := .denon, raw := 0x123456789FFC, address := 0, command := 0, rep := false }] ∧
      heard [.denon] 0 (msgs.map Prod.fst) =
        [{ protocol := .denon, raw := 0x123456789ABC, address := 0, command := 0, rep := false }] := by
  refine ⟨[(.sbp 0x2010 0x807F0, (true, 40000) :: (pulses (hastySbp 0x2010 0x807F0) ++ [(false, 500)])),
    (.denon 0x123456789ABC, onAir (.denon 0x123456789ABC))], ?_, ?_, ?_⟩
  · intro x hx
    simp only [List.mem_cons, List.not_mem_nil, or_false] at hx
    rcases hx with rfl | rfl
    · refine ⟨⟨40000, _, 500, rfl, hastySbp_frame _ _, ?_, .inl (by decide)⟩,
        ⟨40000, _, rfl, by decide⟩, by decide +kernel⟩
      unfold PlainMark
      decide +kernel
    · exact onAir_carries _ (by simp)
  · decide +kernel
  · decide +kernel

end Infrared
