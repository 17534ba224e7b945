import Verif.Props.Mailbox
import Verif.Props.Room
import Verif.Props.Reception
import Verif.Props.Usb
import Verif.Spec.Held

/-!
# What `is_repeat` says about a key that is held (C84)
-/

namespace Infrared

open Spec

variable {C K Key : Type}

/-! ## Toggle bits -/

theorem toggled_map (g : Key → K) (ps : List (Key × Nat)) (b : Bool) :
    (toggled b ps).map (fun x => (g x.1, x.2)) = toggled b (ps.map fun p => (g p.1, p.2)) := by
  induction ps generalizing b with
  | nil => rfl
  | cons p ps ih => simp [toggled, ih]

theorem readToggles_replicate (k : Key) (b : Bool) (n : Nat) (rest : List (Key × Bool)) :
    readToggles (some b) (List.replicate n (k, b) ++ rest) =
      List.replicate n (k, true) ++ readToggles (some b) rest := by
  induction n with
  | zero => rfl
  | succ n ih => simp [List.replicate_succ, readToggles, ih]

theorem readToggles_toggled (ps : List (Key × Nat)) (b : Bool) (last : Option Bool) (h : last ≠ some b) :
    readToggles last (toggled b ps) = noted ps := by
  induction ps generalizing b last with
  | nil => rfl
  | cons p ps ih =>
    rw [toggled, List.replicate_succ, List.cons_append, readToggles, readToggles_replicate, ih (!b) (some b) (by simp)]
    simp [noted, h]

theorem toggled_eq_noted_iff (ps : List (Key × Nat)) (b : Bool) :
    toggled b ps = noted ps ↔ ps = [] ∨ b = false ∧ ∃ k, ps = [(k, 0)] := by
  cases ps with
  | nil => simp [toggled, noted]
  | cons p ps =>
    obtain ⟨k, n⟩ := p
    cases n with
    | zero =>
      cases ps with
      | nil => simp [toggled, noted]
      | cons q ps =>
        obtain ⟨k', n'⟩ := q
        cases b <;> simp [toggled, noted, List.replicate_succ]
    | succ n => cases b <;> simp [toggled, noted, List.replicate_succ]

theorem sentAgain_eq_noted_iff (ps : List (Key × Nat)) :
    (sentAgain ps).map (fun k => (k, false)) = noted ps ↔ ∀ p ∈ ps, p.2 = 0 := by
  induction ps with
  | nil => simp [sentAgain, noted]
  | cons p ps ih =>
    obtain ⟨k, n⟩ := p
    cases n with
    | zero =>
      have : (sentAgain ((k, 0) :: ps)).map (fun k => (k, false)) = noted ((k, 0) :: ps) ↔
          (sentAgain ps).map (fun k => (k, false)) = noted ps := by
        simp [sentAgain, noted]
      rw [this, ih]
      simp
    | succ n => simp [sentAgain, noted, List.replicate_succ]

/-! ## NEC -/

theorem necHeard_append_reps (unpack : BitVec 32 → Bool → Option C) (w : BitVec 32)
    (reps : List ((Nat × Nat) × (Nat × Nat))) (rest : List NecItem) :
    necHeard unpack w ((reps.map fun r => NecItem.rep r.1) ++ rest) =
      (List.replicate reps.length (unpack w true).toList).flatten ++ necHeard unpack w rest := by
  induction reps with
  | nil => rfl
  | cons r reps ih => simp [necHeard, ih, List.replicate_succ]

theorem heard_presses (unpack : BitVec 32 → Bool → Option C) (conv : C → Key × Bool) (presses : List (NecPress Key))
    (h : ∀ p ∈ presses, ∀ r, (unpack p.word r).map conv = some (p.key, r)) (last : BitVec 32) :
    (necHeard unpack last ((presses.flatMap NecPress.items).map Prod.fst)).map conv =
      noted (presses.map fun p => (p.key, p.reps.length)) := by
  induction presses generalizing last with
  | nil => rfl
  | cons p ps ih =>
    have h0 := h p (by simp) false
    have h1 := h p (by simp) true
    obtain ⟨c0, e0, k0⟩ := Option.map_eq_some_iff.mp h0
    obtain ⟨c1, e1, k1⟩ := Option.map_eq_some_iff.mp h1
    have e : ((p :: ps).flatMap NecPress.items).map Prod.fst =
        NecItem.frame p.word p.frame :: ((p.reps.map fun r => NecItem.rep r.1) ++
          (ps.flatMap NecPress.items).map Prod.fst) := by
      simp [NecPress.items]
    rw [e, necHeard, necHeard_append_reps, e0, e1, List.map_append, List.map_append,
      ih (fun q hq => h q (by simp [hq]))]
    simp [noted, k0, k1]

/-- The key and the repeat flag of a command. -/
def keyed (ac : AddressCommand C) (c : C) : (Nat × Nat) × Bool := ((ac.address c, ac.command c), ac.isRepeat c)

theorem nec_keyed (w : BitVec 32) (a c : BitVec 8) (h : IsNecWord w a c) (r : Bool) :
    (Infrared.nec.unpack w r).map (keyed necAC) = some ((a.toNat, c.toNat), r) := by
  have ha : (w &&& 0xFF#32).setWidth 8 = a := by
    apply BitVec.eq_of_getLsbD_eq
    intro i hi
    have := (h i hi).1
    interval_cases i <;> simp_all
  have hc : ((w >>> 16) &&& 0xFF#32).setWidth 8 = c := by
    apply BitVec.eq_of_getLsbD_eq
    intro i hi
    have := (h i hi).2.2.1
    interval_cases i <;> simp_all
  simp only [Infrared.nec, NecCommand.unpack, Option.map_some, keyed, necAC, ha, hc]

theorem samsung_keyed (w : BitVec 32) (a c : BitVec 8) (h : IsSamsungWord w a c) (r : Bool) :
    (samsungNec.unpack w r).map (keyed samsungAC) = some ((a.toNat, c.toNat), r) := by
  have ha : (w &&& 0xFF#32).setWidth 8 = a := by
    apply BitVec.eq_of_getLsbD_eq
    intro i hi
    have := (h i hi).1
    interval_cases i <;> simp_all
  have hc : ((w >>> 16) &&& 0xFF#32).setWidth 8 = c := by
    apply BitVec.eq_of_getLsbD_eq
    intro i hi
    have := (h i hi).2.2.1
    interval_cases i <;> simp_all
  simp only [samsungNec, SamsungNecCommand.unpack, Option.map_some, keyed, samsungAC, ha, hc]

/-- Page, command and device of an Apple command, and its repeat flag. -/
def appleKeyed (c : AppleNecCommand) : (BitVec 8 × BitVec 8 × BitVec 8) × Bool :=
  ((c.commandPage, c.command, c.deviceId), appleAC.isRepeat c)

theorem apple_keyed (w : BitVec 32) (page cmd dev : BitVec 8) (hv : HasAppleVendor w) (hp : parity w 32 = true)
    (h : AppleFields w page cmd dev) (r : Bool) :
    (appleNec.unpack w r).map appleKeyed = some ((page, cmd, dev), r) := by
  obtain ⟨h1, h2⟩ := C04_apple_unpack w r
  obtain ⟨c, hc⟩ := Option.isSome_iff_exists.mp (h1.mpr ⟨hv, hp⟩)
  obtain ⟨⟨f1, f2, f3⟩, f4⟩ := h2 c hc
  obtain ⟨g1, g2, g3⟩ := h
  have e1 : c.commandPage = page := BitVec.eq_of_getLsbD_eq fun i hi => by rw [f1 i hi, g1 i hi]
  have e2 : c.command = cmd := BitVec.eq_of_getLsbD_eq fun i hi => by rw [f2 i hi, g2 i hi]
  have e3 : c.deviceId = dev := BitVec.eq_of_getLsbD_eq fun i hi => by rw [f3 i hi, g3 i hi]
  change (AppleNecCommand.unpack w r).map appleKeyed = _
  rw [hc, Option.map_some, appleKeyed, e1, e2, e3]
  simp only [appleAC, f4]

/-- A key of a standard NEC remote control: its word is the documented one. -/
def NecKey (p : NecPress (Nat × Nat)) : Prop := ∃ a c, IsNecWord p.word a c ∧ p.key = (a.toNat, c.toNat)

/-- A key of a Samsung remote control. -/
def SamsungKey (p : NecPress (Nat × Nat)) : Prop := ∃ a c, IsSamsungWord p.word a c ∧ p.key = (a.toNat, c.toNat)

/-- A key of an Apple remote control: page, command and device. -/
def AppleKey (p : NecPress (BitVec 8 × BitVec 8 × BitVec 8)) : Prop :=
  HasAppleVendor p.word ∧ parity p.word 32 = true ∧ AppleFields p.word p.key.1 p.key.2.1 p.key.2.2

/-- The presses are on the line as documented, with periods within 5 %, and pauses of 16 ms or more between the
transmissions. -/
def PressesOk (v : NecVariant C) (u f width : Nat) (presses : List (NecPress Key)) : Prop :=
  ∀ i ∈ presses.flatMap NecPress.items, i.1.Near u 5 (v.pulseDistance.headerHigh + v.pulseDistance.headerLow)
    (v.pulseDistance.headerHigh + v.pulseDistance.repeatLow) ∧
    16000 * u ≤ 1000000 * (i.2.1 + i.2.2) ∧ (i.2.1 + i.2.2) * f + u < 2 ^ width * u

theorem held_events (t : Target) (m : Mono) (hm : m = Mono.u32 ∨ m = Mono.u64) (f : Nat) (hlo : 20000 ≤ f)
    (hf : f < 2 ^ 32) (v : NecVariant C) (hv : v.Shipped) (tbl : PulseSpans) (htbl : necSpans t m v f = some tbl)
    (conv : C → Key × Bool) (u : Nat) (hu : 0 < u) (phase t0 g : Nat) (hg : Pause tbl m.width [0, 1] (0, g))
    (presses : List (NecPress Key)) (hkey : ∀ p ∈ presses, ∀ r, (v.unpack p.word r).map conv = some (p.key, r))
    (hok : PressesOk v u f m.width presses) :
    (results (necDecoder t m tbl v) conv
        ((true, g) :: clocked u f phase t0 (series NecItem.wire (presses.flatMap NecPress.items)))).map said =
      some (oks (noted (presses.map fun p => (p.key, p.reps.length)))) := by
  rw [C65_nec_events t m hm f hlo hf v hv tbl htbl conv u hu phase t0 g hg _ hok, heard_presses v.unpack conv presses hkey]

/-- **C84**, NEC: an event-driven receiver in front of a remote control whose keys are pressed and held for any time
reports the first transmission of each press with `is_repeat` false and every further one with the same address and
command and `is_repeat` true. -/
theorem C84_nec_events (t : Target) (m : Mono) (hm : m = Mono.u32 ∨ m = Mono.u64) (f : Nat) (hlo : 20000 ≤ f)
    (hf : f < 2 ^ 32) (tbl : PulseSpans) (htbl : necSpans t m Infrared.nec f = some tbl)
    (u : Nat) (hu : 0 < u) (phase t0 g : Nat) (hg : Pause tbl m.width [0, 1] (0, g))
    (presses : List (NecPress (Nat × Nat))) (hkey : ∀ p ∈ presses, NecKey p)
    (hok : PressesOk Infrared.nec u f m.width presses) :
    (results (necDecoder t m tbl Infrared.nec) (keyed necAC)
        ((true, g) :: clocked u f phase t0 (series NecItem.wire (presses.flatMap NecPress.items)))).map said =
      some (oks (noted (presses.map fun p => (p.key, p.reps.length)))) := by
  refine held_events t m hm f hlo hf _ (.inl rfl) tbl htbl _ u hu phase t0 g hg presses ?_ hok
  intro p hp r
  obtain ⟨a, c, h1, h2⟩ := hkey p hp
  rw [nec_keyed _ a c h1 r, h2]

/-- **C84**, Samsung. -/
theorem C84_samsung_events (t : Target) (m : Mono) (hm : m = Mono.u32 ∨ m = Mono.u64) (f : Nat) (hlo : 20000 ≤ f)
    (hf : f < 2 ^ 32) (tbl : PulseSpans) (htbl : necSpans t m samsungNec f = some tbl)
    (u : Nat) (hu : 0 < u) (phase t0 g : Nat) (hg : Pause tbl m.width [0, 1] (0, g))
    (presses : List (NecPress (Nat × Nat))) (hkey : ∀ p ∈ presses, SamsungKey p)
    (hok : PressesOk samsungNec u f m.width presses) :
    (results (necDecoder t m tbl samsungNec) (keyed samsungAC)
        ((true, g) :: clocked u f phase t0 (series NecItem.wire (presses.flatMap NecPress.items)))).map said =
      some (oks (noted (presses.map fun p => (p.key, p.reps.length)))) := by
  refine held_events t m hm f hlo hf _ (.inr rfl) tbl htbl _ u hu phase t0 g hg presses ?_ hok
  intro p hp r
  obtain ⟨a, c, h1, h2⟩ := hkey p hp
  rw [samsung_keyed _ a c h1 r, h2]

/-- **C84**, Apple. -/
theorem C84_apple_events (t : Target) (m : Mono) (hm : m = Mono.u32 ∨ m = Mono.u64) (f : Nat) (hlo : 20000 ≤ f)
    (hf : f < 2 ^ 32) (tbl : PulseSpans) (htbl : necSpans t m appleNec f = some tbl)
    (u : Nat) (hu : 0 < u) (phase t0 g : Nat) (hg : Pause tbl m.width [0, 1] (0, g))
    (presses : List (NecPress (BitVec 8 × BitVec 8 × BitVec 8))) (hkey : ∀ p ∈ presses, AppleKey p)
    (hok : PressesOk appleNec u f m.width presses) :
    (results (necDecoder t m tbl appleNec) appleKeyed
        ((true, g) :: clocked u f phase t0 (series NecItem.wire (presses.flatMap NecPress.items)))).map said =
      some (oks (noted (presses.map fun p => (p.key, p.reps.length)))) := by
  refine held_events t m hm f hlo hf _ (.inl rfl) tbl htbl _ u hu phase t0 g hg presses ?_ hok
  intro p hp r
  obtain ⟨h1, h2, h3⟩ := hkey p hp
  rw [apple_keyed _ _ _ _ h1 h2 h3 r]

theorem held_polled (t : Target) (f : Nat) (hlo : 20000 ≤ f)
    (hf : f < 2 ^ 32) (v : NecVariant C) (hv : v.Shipped) (tbl : PulseSpans)
    (htbl : necSpans t Mono.u32 v f = some tbl) (conv : C → Key × Bool) (u : Nat) (hu : 0 < u) (phase pause : Nat)
    (hg : Pause tbl 32 [0, 1] (0, reading u f phase pause + 1))
    (presses : List (NecPress Key)) (hkey : ∀ p ∈ presses, ∀ r, (v.unpack p.word r).map conv = some (p.key, r))
    (hok : PressesOk v u f 32 presses)
    (hmin : ∀ e ∈ series NecItem.wire (presses.flatMap NecPress.items), u ≤ e.2 * f)
    (hmax : ∀ e ∈ series NecItem.wire (presses.flatMap NecPress.items), e.2 * f / u + 1 < 2 ^ 32)
    (n : Nat)
    (hn : reading u f phase (duration ((true, pause) :: series NecItem.wire (presses.flatMap NecPress.items))) < n) :
    (pollRun (necDecoder t Mono.u32 tbl v) conv
        (polled u f phase ((true, pause) :: series NecItem.wire (presses.flatMap NecPress.items)) n)).map said =
      some (oks (noted (presses.map fun p => (p.key, p.reps.length)))) := by
  rw [C65_nec_polled t f hlo hf v hv tbl htbl conv u hu phase pause hg _ hok hmin hmax n hn,
    heard_presses v.unpack conv presses hkey]

/-- **C84**, NEC, polled. -/
theorem C84_nec_polled (t : Target) (f : Nat) (hlo : 20000 ≤ f)
    (hf : f < 2 ^ 32) (tbl : PulseSpans)
    (htbl : necSpans t Mono.u32 Infrared.nec f = some tbl) (u : Nat) (hu : 0 < u) (phase pause : Nat)
    (hg : Pause tbl 32 [0, 1] (0, reading u f phase pause + 1))
    (presses : List (NecPress (Nat × Nat))) (hkey : ∀ p ∈ presses, NecKey p) (hok : PressesOk Infrared.nec u f 32 presses)
    (hmin : ∀ e ∈ series NecItem.wire (presses.flatMap NecPress.items), u ≤ e.2 * f)
    (hmax : ∀ e ∈ series NecItem.wire (presses.flatMap NecPress.items), e.2 * f / u + 1 < 2 ^ 32)
    (n : Nat)
    (hn : reading u f phase (duration ((true, pause) :: series NecItem.wire (presses.flatMap NecPress.items))) < n) :
    (pollRun (necDecoder t Mono.u32 tbl Infrared.nec) (keyed necAC)
        (polled u f phase ((true, pause) :: series NecItem.wire (presses.flatMap NecPress.items)) n)).map said =
      some (oks (noted (presses.map fun p => (p.key, p.reps.length)))) := by
  refine held_polled t f hlo hf _ (.inl rfl) tbl htbl _ u hu phase pause hg presses ?_ hok hmin hmax n hn
  intro p hp r
  obtain ⟨a, c, h1, h2⟩ := hkey p hp
  rw [nec_keyed _ a c h1 r, h2]

/-- **C84**, Samsung, polled. -/
theorem C84_samsung_polled (t : Target) (f : Nat) (hlo : 20000 ≤ f)
    (hf : f < 2 ^ 32) (tbl : PulseSpans)
    (htbl : necSpans t Mono.u32 samsungNec f = some tbl) (u : Nat) (hu : 0 < u) (phase pause : Nat)
    (hg : Pause tbl 32 [0, 1] (0, reading u f phase pause + 1))
    (presses : List (NecPress (Nat × Nat))) (hkey : ∀ p ∈ presses, SamsungKey p) (hok : PressesOk samsungNec u f 32 presses)
    (hmin : ∀ e ∈ series NecItem.wire (presses.flatMap NecPress.items), u ≤ e.2 * f)
    (hmax : ∀ e ∈ series NecItem.wire (presses.flatMap NecPress.items), e.2 * f / u + 1 < 2 ^ 32)
    (n : Nat)
    (hn : reading u f phase (duration ((true, pause) :: series NecItem.wire (presses.flatMap NecPress.items))) < n) :
    (pollRun (necDecoder t Mono.u32 tbl samsungNec) (keyed samsungAC)
        (polled u f phase ((true, pause) :: series NecItem.wire (presses.flatMap NecPress.items)) n)).map said =
      some (oks (noted (presses.map fun p => (p.key, p.reps.length)))) := by
  refine held_polled t f hlo hf _ (.inr rfl) tbl htbl _ u hu phase pause hg presses ?_ hok hmin hmax n hn
  intro p hp r
  obtain ⟨a, c, h1, h2⟩ := hkey p hp
  rw [samsung_keyed _ a c h1 r, h2]

/-- **C84**, Apple, polled. -/
theorem C84_apple_polled (t : Target) (f : Nat) (hlo : 20000 ≤ f)
    (hf : f < 2 ^ 32) (tbl : PulseSpans)
    (htbl : necSpans t Mono.u32 appleNec f = some tbl) (u : Nat) (hu : 0 < u) (phase pause : Nat)
    (hg : Pause tbl 32 [0, 1] (0, reading u f phase pause + 1))
    (presses : List (NecPress (BitVec 8 × BitVec 8 × BitVec 8))) (hkey : ∀ p ∈ presses, AppleKey p) (hok : PressesOk appleNec u f 32 presses)
    (hmin : ∀ e ∈ series NecItem.wire (presses.flatMap NecPress.items), u ≤ e.2 * f)
    (hmax : ∀ e ∈ series NecItem.wire (presses.flatMap NecPress.items), e.2 * f / u + 1 < 2 ^ 32)
    (n : Nat)
    (hn : reading u f phase (duration ((true, pause) :: series NecItem.wire (presses.flatMap NecPress.items))) < n) :
    (pollRun (necDecoder t Mono.u32 tbl appleNec) appleKeyed
        (polled u f phase ((true, pause) :: series NecItem.wire (presses.flatMap NecPress.items)) n)).map said =
      some (oks (noted (presses.map fun p => (p.key, p.reps.length)))) := by
  refine held_polled t f hlo hf _ (.inl rfl) tbl htbl _ u hu phase pause hg presses ?_ hok hmin hmax n hn
  intro p hp r
  obtain ⟨h1, h2, h3⟩ := hkey p hp
  rw [apple_keyed _ _ _ _ h1 h2 h3 r]

/-! ## RC5 and RC6 -/

/-- What a program learns from an RC5 command: second start bit, address and command, and `is_repeat`. -/
def rc5Keyed (c : Rc5Command) : (Bool × Nat × Nat) × Bool :=
  ((c.start.getLsbD 0, rc5AC.address c, rc5AC.command c), rc5AC.isRepeat c)

theorem rc5Sends_bit (k : Bool × Nat × Nat) (b : Bool) (i : Nat) : (rc5Sends k b).getLsbD i =
    if i < 6 then (BitVec.ofNat 6 k.2.2).getLsbD i
    else if i - 6 < 5 then (BitVec.ofNat 5 k.2.1).getLsbD (i - 6)
    else if i - 6 - 5 < 1 then (BitVec.ofBool b).getLsbD (i - 6 - 5)
    else if i - 6 - 5 - 1 < 1 then (BitVec.ofBool k.1).getLsbD (i - 6 - 5 - 1)
    else (1#1).getLsbD (i - 6 - 5 - 1 - 1) := by
  unfold rc5Sends
  change @BitVec.getLsbD (1 + 1 + 1 + 5 + 6) _ i = _
  rw [BitVec.getLsbD_append, BitVec.getLsbD_append, BitVec.getLsbD_append, BitVec.getLsbD_append]

theorem rc5_keyed (k : Bool × Nat × Nat) (b : Bool) (ha : k.2.1 < 32) (hc : k.2.2 < 64) :
    rc5Keyed (Rc5Command.unpack ((rc5Sends k b).setWidth 16)) = (k, b) := by
  obtain ⟨s, a, c⟩ := k
  obtain ⟨u1, u2, u3, u4⟩ := C06_rc5_unpack_fields ((rc5Sends (s, a, c) b).setWidth 16)
  dsimp only at ha hc
  have ha8 : a < 256 := by omega
  have hc8 : c < 256 := by omega
  have e1 : (Rc5Command.unpack ((rc5Sends (s, a, c) b).setWidth 16)).addr = BitVec.ofNat 8 a := by
    apply BitVec.eq_of_getLsbD_eq
    intro i hi
    rw [u2 i hi]
    have : 5 ≤ i → a.testBit i = false := fun h =>
      Nat.testBit_lt_two_pow (Nat.lt_of_lt_of_le ha (Nat.pow_le_pow_right (n := 2) (i := 5) (by omega) h))
    by_cases h5 : i < 5
    · rw [BitVec.getLsbD_setWidth, rc5Sends_bit]
      interval_cases i <;> simp [BitVec.getElem_eq_testBit_toNat, Nat.mod_eq_of_lt ha, Nat.mod_eq_of_lt ha8]
    · simp [h5, this (by omega), BitVec.getLsbD_ofNat]
  have e2 : (Rc5Command.unpack ((rc5Sends (s, a, c) b).setWidth 16)).cmd = BitVec.ofNat 8 c := by
    apply BitVec.eq_of_getLsbD_eq
    intro i hi
    rw [u1 i hi]
    have : 6 ≤ i → c.testBit i = false := fun h =>
      Nat.testBit_lt_two_pow (Nat.lt_of_lt_of_le hc (Nat.pow_le_pow_right (n := 2) (i := 6) (by omega) h))
    by_cases h5 : i < 6
    · rw [BitVec.getLsbD_setWidth, rc5Sends_bit]
      interval_cases i <;> simp [BitVec.getElem_eq_testBit_toNat, Nat.mod_eq_of_lt hc, Nat.mod_eq_of_lt hc8]
    · simp [h5, this (by omega), BitVec.getLsbD_ofNat]
  have e3 : (Rc5Command.unpack ((rc5Sends (s, a, c) b).setWidth 16)).start.getLsbD 0 = s := by
    rw [u3 0 (by omega)]
    rw [BitVec.getLsbD_setWidth, rc5Sends_bit]
    simp
  have e4 : (Rc5Command.unpack ((rc5Sends (s, a, c) b).setWidth 16)).toggle = b := by
    rw [u4]
    rw [BitVec.getLsbD_setWidth, rc5Sends_bit]
    simp
  simp only [rc5Keyed, rc5AC, e1, e2, e3, e4, BitVec.toNat_ofNat]
  rw [Nat.mod_eq_of_lt (by omega), Nat.mod_eq_of_lt (by omega)]

theorem mem_toggled {x : Key × Bool} (ps : List (Key × Nat)) (b : Bool) (h : x ∈ toggled b ps) :
    ∃ p ∈ ps, p.1 = x.1 := by
  induction ps generalizing b with
  | nil => simp [toggled] at h
  | cons p ps ih =>
    rw [toggled, List.mem_append] at h
    rcases h with h | h
    · exact ⟨p, by simp, by rw [(List.mem_replicate.mp h).2]⟩
    · obtain ⟨q, hq, e⟩ := ih _ h
      exact ⟨q, by simp [hq], e⟩

/-- What has to be shown of a receiver of toggle bits: `is_repeat` is the toggle bit, so it tells whether the key was
held only if there was at most one press, of one transmission, with the toggle bit clear; but comparing the flags of
successive commands gives what the user did. -/
def TogglesHeard (outs : List (Res (Key × Bool))) (b : Bool) (presses : List (Key × Nat)) : Prop :=
  said outs = oks (toggled b presses) ∧
  (commands outs = noted presses ↔ presses = [] ∨ b = false ∧ ∃ k, presses = [(k, 0)]) ∧
  readToggles none (commands outs) = noted presses

theorem togglesHeard_of {R : Option (List (Res (Key × Bool)))} {b : Bool} {presses : List (Key × Nat)}
    (h : R.map said = some (oks (toggled b presses))) : ∃ outs, R = some outs ∧ TogglesHeard outs b presses := by
  obtain ⟨outs, h1, h2⟩ := Option.map_eq_some_iff.mp h
  have hc : commands outs = toggled b presses := by rw [commands_said', h2, commands_oks']
  refine ⟨outs, h1, h2, ?_, ?_⟩
  · rw [hc]
    exact toggled_eq_noted_iff presses b
  · rw [hc]
    exact readToggles_toggled presses b none (by simp)

/-- Keys and toggle bits of a series of transmissions as a series of words. -/
theorem rc5_presses_heard (presses : List ((Bool × Nat × Nat) × Nat)) (hk : ∀ p ∈ presses, p.1.2.1 < 32 ∧ p.1.2.2 < 64)
    (b : Bool) (items : List (((Bool × Nat × Nat) × Bool) × List (Bool × Nat) × Option Nat))
    (hi : items.map Prod.fst = toggled b presses) :
    ((items.map fun i => (rc5Sends i.1.1 i.1.2, i.2)).map
      fun i => rc5Keyed (Rc5Command.unpack (i.1.setWidth 16))) = toggled b presses := by
  rw [List.map_map, ← hi]
  apply List.map_congr_left
  intro i him
  obtain ⟨p, hp, e⟩ := mem_toggled presses b (hi ▸ List.mem_map_of_mem (f := Prod.fst) him)
  obtain ⟨h1, h2⟩ := hk p hp
  rw [e] at h1 h2
  exact rc5_keyed i.1.1 i.1.2 h1 h2

theorem rc5Sends_start (k : Bool × Nat × Nat) (b : Bool) : (rc5Sends k b).getLsbD 13 = true := by
  rw [rc5Sends_bit]
  simp

/-- **C84**, RC5: a receiver in front of a remote control that inverts its toggle bit with every press.  (That
`is_repeat` tells whether the key is held is false; see `TogglesHeard`.) -/
theorem C84_rc5_events_partial (t : Target) (hus : 16 ≤ t.usizeBits) (m : Mono) (hm : m = Mono.u32 ∨ m = Mono.u64)
    (f : Nat) (hlo : 40000 ≤ f) (hf : f < 2 ^ 32) (tbl : PulseSpans) (htbl : rc5Spans t m f = some tbl)
    (u : Nat) (hu : 0 < u) (phase : Nat)
    (presses : List ((Bool × Nat × Nat) × Nat)) (hk : ∀ p ∈ presses, p.1.2.1 < 32 ∧ p.1.2.2 < 64) (toggle : Bool)
    (items : List (((Bool × Nat × Nat) × Bool) × List (Bool × Nat) × Option Nat))
    (hi : items.map Prod.fst = toggled toggle presses)
    (hok : ∀ i ∈ items, ManchesterFrame (fun x n => Near u 5 (889 * n) x) (rc5Edges (rc5Sends i.1.1 i.1.2)) i.2.1)
    (b : Bool) (pause : Nat) (es : List (Bool × Nat))
    (hes : (items.flatMap fun i => withTail i.2.1 i.2.2) = (b, pause) :: es) (t0 g : Nat) :
    ∃ outs, results (rc5Decoder t tbl) rc5Keyed ((b, g) :: clocked u f phase (t0 + pause) es) = some outs ∧
      TogglesHeard outs toggle presses := by
  apply togglesHeard_of
  rw [← rc5_presses_heard presses hk toggle items hi]
  refine C65_rc5_events t hus m hm f hlo hf tbl htbl rc5Keyed u hu phase _ ?_ b pause es ?_ t0 g
  · intro i him
    obtain ⟨j, hj, rfl⟩ := List.mem_map.mp him
    exact ⟨rc5Sends_start _ _, hok j hj⟩
  · rw [← hes, List.flatMap_map]

/-- **C84**, RC5, polled. -/
theorem C84_rc5_polled_partial (t : Target) (hus : 16 ≤ t.usizeBits) (f : Nat) (hlo : 40000 ≤ f) (hf : f < 2 ^ 32)
    (tbl : PulseSpans) (htbl : rc5Spans t Mono.u32 f = some tbl) (u : Nat) (hu : 0 < u) (phase : Nat)
    (presses : List ((Bool × Nat × Nat) × Nat)) (hk : ∀ p ∈ presses, p.1.2.1 < 32 ∧ p.1.2.2 < 64) (toggle : Bool)
    (items : List (((Bool × Nat × Nat) × Bool) × List (Bool × Nat) × Option Nat))
    (hi : items.map Prod.fst = toggled toggle presses)
    (hok : ∀ i ∈ items, ManchesterFrame (fun x n => Near u 5 (889 * n) x) (rc5Edges (rc5Sends i.1.1 i.1.2)) i.2.1)
    (hch : Changes false (items.flatMap fun i => withTail i.2.1 i.2.2))
    (hmin : ∀ e ∈ (items.flatMap fun i => withTail i.2.1 i.2.2).tail, u ≤ e.2 * f)
    (hmax : ∀ e ∈ items.flatMap fun i => withTail i.2.1 i.2.2, (e.2 * f + phase) / u + 1 < 2 ^ 32)
    (n : Nat) (hn : reading u f phase (duration (items.flatMap fun i => withTail i.2.1 i.2.2)) < n) :
    ∃ outs, pollRun (rc5Decoder t tbl) rc5Keyed
        (polled u f phase (items.flatMap fun i => withTail i.2.1 i.2.2) n) = some outs ∧
      TogglesHeard outs toggle presses := by
  apply togglesHeard_of
  have hfl : (items.flatMap fun i => withTail i.2.1 i.2.2) =
      (items.map fun i => (rc5Sends i.1.1 i.1.2, i.2)).flatMap fun i => withTail i.2.1 i.2.2 := by
    rw [List.flatMap_map]
  rw [hfl] at hch hmin hmax hn ⊢
  rw [← rc5_presses_heard presses hk toggle items hi]
  refine C65_rc5_polled t hus f hlo hf tbl htbl rc5Keyed u hu phase _ ?_ hch hmin hmax n hn
  intro i him
  obtain ⟨j, hj, rfl⟩ := List.mem_map.mp him
  exact ⟨rc5Sends_start _ _, hok j hj⟩

theorem rc6_keyed (k : Nat × Nat) (b : Bool) (ha : k.1 < 256) (hc : k.2 < 256) :
    keyed rc6AC ⟨BitVec.ofNat 8 k.1, BitVec.ofNat 8 k.2, b⟩ = (k, b) := by
  obtain ⟨a, c⟩ := k
  dsimp only at ha hc
  simp only [keyed, rc6AC, BitVec.toNat_ofNat]
  rw [Nat.mod_eq_of_lt (by omega), Nat.mod_eq_of_lt (by omega)]

/-- The command of an RC6 key. -/
def rc6Sends (x : (Nat × Nat) × Bool) : Rc6Command := ⟨BitVec.ofNat 8 x.1.1, BitVec.ofNat 8 x.1.2, x.2⟩

theorem rc6_presses_heard (presses : List ((Nat × Nat) × Nat)) (hk : ∀ p ∈ presses, p.1.1 < 256 ∧ p.1.2 < 256)
    (b : Bool) (items : List (((Nat × Nat) × Bool) × List (Bool × Nat) × Option Nat))
    (hi : items.map Prod.fst = toggled b presses) :
    ((items.map fun i => (rc6Sends i.1, i.2)).map fun i => keyed rc6AC i.1) = toggled b presses := by
  rw [List.map_map, ← hi]
  apply List.map_congr_left
  intro i him
  obtain ⟨p, hp, e⟩ := mem_toggled presses b (hi ▸ List.mem_map_of_mem (f := Prod.fst) him)
  obtain ⟨h1, h2⟩ := hk p hp
  rw [e] at h1 h2
  exact rc6_keyed i.1.1 i.1.2 h1 h2

/-- **C84**, RC6. -/
theorem C84_rc6_events_partial (t : Target) (hus : 16 ≤ t.usizeBits) (m : Mono) (hm : m = Mono.u32 ∨ m = Mono.u64)
    (f : Nat) (hlo : 80000 ≤ f) (hf : f < 2 ^ 32) (tbl : PulseSpans) (htbl : rc6Spans t m f = some tbl)
    (u : Nat) (hu : 0 < u) (phase : Nat)
    (presses : List ((Nat × Nat) × Nat)) (hk : ∀ p ∈ presses, p.1.1 < 256 ∧ p.1.2 < 256) (toggle : Bool)
    (items : List (((Nat × Nat) × Bool) × List (Bool × Nat) × Option Nat))
    (hi : items.map Prod.fst = toggled toggle presses)
    (hok : ∀ i ∈ items, ManchesterFrame (fun x n => Near u 5 (444 * n) x)
      (rc6Edges (BitVec.ofNat 8 i.1.1.1 ++ BitVec.ofNat 8 i.1.1.2) i.1.2) i.2.1)
    (b : Bool) (pause : Nat) (es : List (Bool × Nat))
    (hes : (items.flatMap fun i => withTail i.2.1 i.2.2) = (b, pause) :: es) (t0 g : Nat) :
    ∃ outs, results (rc6Decoder t tbl) (keyed rc6AC) ((b, g) :: clocked u f phase (t0 + pause) es) = some outs ∧
      TogglesHeard outs toggle presses := by
  apply togglesHeard_of
  rw [← rc6_presses_heard presses hk toggle items hi]
  refine C65_rc6_events t hus m hm f hlo hf tbl htbl (keyed rc6AC) u hu phase _ ?_ b pause es ?_ t0 g
  · intro i him
    obtain ⟨j, hj, rfl⟩ := List.mem_map.mp him
    exact hok j hj
  · rw [← hes, List.flatMap_map]

/-- **C84**, RC6, polled. -/
theorem C84_rc6_polled_partial (t : Target) (hus : 16 ≤ t.usizeBits) (f : Nat) (hlo : 80000 ≤ f) (hf : f < 2 ^ 32)
    (tbl : PulseSpans) (htbl : rc6Spans t Mono.u32 f = some tbl) (u : Nat) (hu : 0 < u) (phase : Nat)
    (presses : List ((Nat × Nat) × Nat)) (hk : ∀ p ∈ presses, p.1.1 < 256 ∧ p.1.2 < 256) (toggle : Bool)
    (items : List (((Nat × Nat) × Bool) × List (Bool × Nat) × Option Nat))
    (hi : items.map Prod.fst = toggled toggle presses)
    (hok : ∀ i ∈ items, ManchesterFrame (fun x n => Near u 5 (444 * n) x)
      (rc6Edges (BitVec.ofNat 8 i.1.1.1 ++ BitVec.ofNat 8 i.1.1.2) i.1.2) i.2.1)
    (hch : Changes false (items.flatMap fun i => withTail i.2.1 i.2.2))
    (hmin : ∀ e ∈ (items.flatMap fun i => withTail i.2.1 i.2.2).tail, u ≤ e.2 * f)
    (hmax : ∀ e ∈ items.flatMap fun i => withTail i.2.1 i.2.2, (e.2 * f + phase) / u + 1 < 2 ^ 32)
    (n : Nat) (hn : reading u f phase (duration (items.flatMap fun i => withTail i.2.1 i.2.2)) < n) :
    ∃ outs, pollRun (rc6Decoder t tbl) (keyed rc6AC)
        (polled u f phase (items.flatMap fun i => withTail i.2.1 i.2.2) n) = some outs ∧
      TogglesHeard outs toggle presses := by
  apply togglesHeard_of
  have hfl : (items.flatMap fun i => withTail i.2.1 i.2.2) =
      (items.map fun i => (rc6Sends i.1, i.2)).flatMap fun i => withTail i.2.1 i.2.2 := by
    rw [List.flatMap_map]
  rw [hfl] at hch hmin hmax hn ⊢
  rw [← rc6_presses_heard presses hk toggle items hi]
  refine C65_rc6_polled t hus f hlo hf tbl htbl (keyed rc6AC) u hu phase _ ?_ hch hmin hmax n hn
  intro i him
  obtain ⟨j, hj, rfl⟩ := List.mem_map.mp him
  exact hok j hj

/-! ## SBP -/

theorem sbp_keys {presses : List ((Nat × Nat) × Nat)}
    {items : List ((BitVec 16 × BitVec 20 × List (Nat × Nat)) × (Nat × Nat))}
    (hi : (items.map fun i => (i.1.1.toNat, (i.1.2.1.extractLsb' 4 8).toNat)) = sentAgain presses) :
    (items.map fun i => keyed sbpAC (SbpCommand.unpack i.1.1 (i.1.2.1.setWidth 32))) =
      (sentAgain presses).map fun k => (k, false) := by
  rw [← hi, List.map_map]
  apply List.map_congr_left
  intro i _
  have hs := sbp_slot i.1.1 i.1.2.1
  simp only [slotOf, Option.map_some, AnyCommand.from, Option.some.injEq, AnyCommand.mk.injEq] at hs
  simp only [keyed, hs.2.2.1, hs.2.2.2.1, hs.2.2.2.2, Function.comp_apply]

/-- **C84**, SBP: `is_repeat` is never true; it says what it should exactly when no key is held.  (`i.1.1` is the key,
`i.1.2.1` the 20 bits after the address, of which bits 4 to 11 are the command.) -/
theorem C84_sbp_events_partial (t : Target) (m : Mono) (hm : m = Mono.u32 ∨ m = Mono.u64) (f : Nat) (hlo : 40000 ≤ f)
    (hf : f < 2 ^ 32) (tbl : PulseSpans) (htbl : sbpSpans t m f = some tbl)
    (u : Nat) (hu : 0 < u) (phase t0 g : Nat) (hg : Pause tbl m.width [0] (0, g))
    (presses : List ((Nat × Nat) × Nat))
    (items : List ((BitVec 16 × BitVec 20 × List (Nat × Nat)) × (Nat × Nat)))
    (hi : (items.map fun i => (i.1.1.toNat, (i.1.2.1.extractLsb' 4 8).toNat)) = sentAgain presses)
    (hok : ∀ i ∈ items, NearPeriods u 3 (sbpPeriods i.1.1 i.1.2.1) i.1.2.2 ∧
      16000 * u ≤ 1000000 * (i.2.1 + i.2.2) ∧ (i.2.1 + i.2.2) * f + u < 2 ^ m.width * u) :
    ∃ outs, results (sbpDecoder t m tbl) (keyed sbpAC)
        ((true, g) :: clocked u f phase t0 (series (fun i => i.2.2) items)) = some outs ∧
      said outs = oks ((sentAgain presses).map fun k => (k, false)) ∧
      (commands outs = noted presses ↔ ∀ p ∈ presses, p.2 = 0) := by
  have h := C65_sbp_events t m hm f hlo hf tbl htbl (keyed sbpAC) u hu phase t0 g hg items hok
  rw [sbp_keys hi] at h
  obtain ⟨outs, h1, h2⟩ := Option.map_eq_some_iff.mp h
  refine ⟨outs, h1, h2, ?_⟩
  rw [commands_said', h2, commands_oks']
  exact sentAgain_eq_noted_iff presses

/-- **C84**, SBP, polled. -/
theorem C84_sbp_polled_partial (t : Target) (f : Nat) (hlo : 40000 ≤ f) (hf : f < 2 ^ 32) (tbl : PulseSpans)
    (htbl : sbpSpans t Mono.u32 f = some tbl) (u : Nat) (hu : 0 < u) (phase pause : Nat)
    (hg : Pause tbl 32 [0] (0, reading u f phase pause + 1)) (presses : List ((Nat × Nat) × Nat))
    (items : List ((BitVec 16 × BitVec 20 × List (Nat × Nat)) × (Nat × Nat)))
    (hi : (items.map fun i => (i.1.1.toNat, (i.1.2.1.extractLsb' 4 8).toNat)) = sentAgain presses)
    (hok : ∀ i ∈ items, NearPeriods u 3 (sbpPeriods i.1.1 i.1.2.1) i.1.2.2 ∧
      16000 * u ≤ 1000000 * (i.2.1 + i.2.2) ∧ (i.2.1 + i.2.2) * f + u < 2 ^ 32 * u)
    (hmin : ∀ e ∈ series (fun i : BitVec 16 × BitVec 20 × List (Nat × Nat) => i.2.2) items, u ≤ e.2 * f)
    (hmax : ∀ e ∈ series (fun i : BitVec 16 × BitVec 20 × List (Nat × Nat) => i.2.2) items,
      e.2 * f / u + 1 < 2 ^ 32)
    (n : Nat) (hn : reading u f phase (duration ((true, pause) :: series (fun i => i.2.2) items)) < n) :
    ∃ outs, pollRun (sbpDecoder t Mono.u32 tbl) (keyed sbpAC)
        (polled u f phase ((true, pause) :: series (fun i => i.2.2) items) n) = some outs ∧
      said outs = oks ((sentAgain presses).map fun k => (k, false)) ∧
      (commands outs = noted presses ↔ ∀ p ∈ presses, p.2 = 0) := by
  have h := C65_sbp_polled t f hlo hf tbl htbl (keyed sbpAC) u hu phase pause hg items hok hmin hmax n hn
  rw [sbp_keys hi] at h
  obtain ⟨outs, h1, h2⟩ := Option.map_eq_some_iff.mp h
  refine ⟨outs, h1, h2, ?_⟩
  rw [commands_said', h2, commands_oks']
  exact sentAgain_eq_noted_iff presses

/-! ## Non-vacuity -/

/-- Key 0x1C of device 0 pressed and held for one repeat code, then key 0xFF of device 0xFF, all 4 % slow. -/
def slowPresses : List (NecPress (Nat × Nat)) :=
  [⟨(0, 0x1C), 0xE31CFF00, jittered 1040 (necPeriods 13500 0xE31CFF00), (582400, 40000000),
     [((9360000, 2340000), (582400, 98000000))]⟩,
   ⟨(0xFF, 0xFF), 0x00FF00FF, jittered 1040 (necPeriods 13500 0x00FF00FF), (582400, 10000000000), []⟩]

theorem slowPresses_items : slowPresses.flatMap NecPress.items = slowNec 0xE31CFF00 0x00FF00FF := rfl

example (t : Target) (phase : Nat) (hp : phase < 1000000000) :
    (pollRun (necDecoder t Mono.u32 (necTable 48000) Infrared.nec) (keyed necAC)
      (polled 1000000000 48000 phase
        ((true, 1000000) :: series NecItem.wire (slowPresses.flatMap NecPress.items)) 600000)).map said =
      some (oks [((0, 0x1C), false), ((0, 0x1C), true), ((0xFF, 0xFF), false)]) := by
  have hr : reading 1000000000 48000 phase 1000000 = 48 := by unfold reading; omega
  refine C84_nec_polled t 48000 (by decide) (by decide) _
    (necSpans_standard (.inl rfl) t (by decide) _ rfl) 1000000000 (by decide) phase 1000000 ?_ slowPresses ?_ ?_
    (by decide +kernel) (by decide +kernel) 600000 ?_
  · rw [hr]
    refine ⟨by decide, ?_⟩
    intro j hj
    simp only [List.mem_cons, List.not_mem_nil, or_false] at hj
    rcases hj with rfl | rfl <;> rintro ⟨s, hs, ha, hb⟩ <;> cases hs
    · exact absurd ha (by decide +kernel)
    · exact absurd ha (by decide +kernel)
  · intro p hp
    simp only [slowPresses, List.mem_cons, List.not_mem_nil, or_false] at hp
    rcases hp with rfl | rfl
    · exact ⟨0, 0x1C, by unfold IsNecWord; decide, rfl⟩
    · exact ⟨0xFF, 0xFF, by unfold IsNecWord; decide, rfl⟩
  · intro i hi
    rw [slowPresses_items] at hi
    simp only [slowNec, List.mem_cons, List.not_mem_nil, or_false] at hi
    rcases hi with rfl | rfl | rfl
    · exact ⟨nearPeriods_zip (by decide +kernel), by decide, by decide⟩
    · exact ⟨⟨by decide, by decide⟩, by decide, by decide⟩
    · exact ⟨nearPeriods_zip (by decide +kernel), by decide, by decide⟩
  · rw [slowPresses_items]
    have hd : duration ((true, 1000000) :: series NecItem.wire (slowNec 0xE31CFF00 0x00FF00FF)) ≤ 11000000000 := by
      decide +kernel
    unfold reading
    omega

/-- Two presses of the same key of a CD player, the first one held for a second transmission: the flags say "new, new,
repeated", and their changes that there were two presses. -/
example : toggled false [((true, 20, 53), 1), ((true, 20, 53), 0)] =
      [((true, 20, 53), false), ((true, 20, 53), false), ((true, 20, 53), true)] ∧
    noted [((true, 20, 53), 1), ((true, 20, 53), 0)] =
      [((true, 20, 53), false), ((true, 20, 53), true), ((true, 20, 53), false)] := ⟨rfl, rfl⟩

/-- One such press, with the toggle bit set, on a line polled 40 000 times per second: the only transmission is
reported as a repetition. -/
theorem C84_refuted (t : Target) (hus : 16 ≤ t.usizeBits) (phase : Nat) (hp : phase < 1000000000) :
    ∃ outs, pollRun (rc5Decoder t (rc5Table 40000)) rc5Keyed
        (polled 1000000000 40000 phase (withTail (slowRc5 (rc5Sends (true, 20, 53) true)) (some 889000)) 20000) =
          some outs ∧
      said outs = oks [((true, 20, 53), true)] ∧ commands outs ≠ noted [((true, 20, 53), 0)] := by
  obtain ⟨outs, h1, h2, h3, -⟩ := C84_rc5_polled_partial t hus 40000 (by decide) (by decide) _
    (rc5Spans_eq (.inl rfl) t (by decide)) 1000000000 (by decide) phase [((true, 20, 53), 0)] (by simp) true
    [(((true, 20, 53), true), slowRc5 (rc5Sends (true, 20, 53) true), some 889000)] rfl
    (by
      intro i hi
      have : i = (((true, 20, 53), true), slowRc5 (rc5Sends (true, 20, 53) true), some 889000) := by simpa using hi
      subst this
      dsimp only
      rw [slowRc5, rc5Edges_eq _ (by decide)]
      exact ⟨_, _, _, _, rfl, rfl, timed_scaled 1040 5 889 (fun n => by unfold Near; omega) _⟩)
    (by decide +kernel) (by decide +kernel)
    (by
      intro e he
      have h : ∀ e ∈ [(((true, 20, 53), true), slowRc5 (rc5Sends (true, 20, 53) true), some 889000)].flatMap
          fun i => withTail i.2.1 i.2.2, e.2 ≤ 2000000 := by decide +kernel
      have := h e he
      omega)
    20000
    (by
      have hd : duration ([(((true, 20, 53), true), slowRc5 (rc5Sends (true, 20, 53) true), some 889000)].flatMap
          fun i => withTail i.2.1 i.2.2) ≤ 60000000 := by decide +kernel
      unfold reading
      omega)
  refine ⟨outs, ?_, h2, ?_⟩
  · rw [← h1]
    simp
  · intro h
    have := h3.mp h
    simp at this

end Infrared
