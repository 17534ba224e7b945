import Verif.Props.Nec
import Verif.Props.Sbp
import Verif.Props.Words
import Verif.Spec.BitErrors

/-!
# C97: wrong bits

Which wrong bits the check bits of a word reveal, and what the receivers make of them.
-/

namespace Infrared
open Spec

variable {K : Type}

/-! ### What `validate` notices -/

theorem xor_flip {a b x y : Bool} (h : a = !b) : (xor a x = !(xor b y)) ↔ y = x := by
  subst h; cases b <;> cases x <;> cases y <;> decide

theorem xor_same {a b x y : Bool} (h : a = b) : (xor a x = xor b y) ↔ y = x := by
  subst h; cases a <;> cases x <;> cases y <;> decide

/-- **C97**, standard NEC: of a valid word with wrong bits `validate` says that it is valid exactly if every wrong
bit is wrong together with the check bit that belongs to it (or the bit that belongs to this check bit). -/
theorem C97_nec_validate (w e : BitVec 32) (hw : NecCommand.validate w = true) :
    NecCommand.validate (w ^^^ e) = true ↔ HitsPairs e 0 ∧ HitsPairs e 16 := by
  rw [nec_validate_iff] at hw ⊢
  simp only [BitVec.getLsbD_xor]
  constructor
  · intro h
    refine ⟨fun i hi => ?_, fun i hi => ?_⟩
    · have := (xor_flip (hw i hi).2).1 (h i hi).2
      simpa [Nat.zero_add] using this
    · exact (xor_flip (hw i hi).1).1 (h i hi).1
  · rintro ⟨h0, h16⟩ i hi
    refine ⟨(xor_flip (hw i hi).1).2 (h16 i hi), (xor_flip (hw i hi).2).2 ?_⟩
    simpa [Nat.zero_add] using h0 i hi

/-- **C97**, Samsung. -/
theorem C97_samsung_validate (w e : BitVec 32) (hw : SamsungNecCommand.validate w = true) :
    SamsungNecCommand.validate (w ^^^ e) = true ↔ HitsPairs e 0 ∧ HitsPairs e 16 := by
  rw [samsung_validate_iff] at hw ⊢
  simp only [BitVec.getLsbD_xor]
  constructor
  · intro h
    refine ⟨fun i hi => ?_, fun i hi => ?_⟩
    · have := (xor_same (hw i hi).2).1 (h i hi).2
      simpa [Nat.zero_add] using this
    · exact (xor_flip (hw i hi).1).1 (h i hi).1
  · rintro ⟨h0, h16⟩ i hi
    refine ⟨(xor_flip (hw i hi).1).2 (h16 i hi), (xor_same (hw i hi).2).2 ?_⟩
    simpa [Nat.zero_add] using h0 i hi

/-- **C97**, NEC with 16 bit addresses: wrong bits in the address are never noticed. -/
theorem C97_nec16_validate (w e : BitVec 32) (hw : Nec16Command.validate w = true) :
    Nec16Command.validate (w ^^^ e) = true ↔ HitsPairs e 16 := by
  rw [nec16_validate_iff] at hw ⊢
  simp only [BitVec.getLsbD_xor]
  exact ⟨fun h i hi => (xor_flip (hw i hi)).1 (h i hi), fun h i hi => (xor_flip (hw i hi)).2 (h i hi)⟩

theorem parity_xor (w e : BitVec 32) (n : Nat) :
    parity (w ^^^ e) n = xor (parity w n) (parity e n) := by
  induction n with
  | zero => rfl
  | succ n ih =>
    rw [parity, parity, parity, ih, BitVec.getLsbD_xor]
    cases w.getLsbD n <;> cases e.getLsbD n <;> cases parity w n <;> cases parity e n <;> rfl

theorem oddErrors_iff (e : BitVec 32) : OddErrors e ↔ parity e 32 = true := by
  rw [parity_eq, decide_eq_true_eq]; rfl

/-- **C97**, Apple: of a valid word with wrong bits `validate` says that it is valid exactly if the vendor bits are
right and an even number of bits is wrong. -/
theorem C97_apple_validate (w e : BitVec 32) (hw : AppleNecCommand.validate w = true) :
    AppleNecCommand.validate (w ^^^ e) = true ↔ (∀ i < 11, e.getLsbD (5 + i) = false) ∧ ¬ OddErrors e := by
  rw [C04_apple_validate_iff] at hw ⊢
  obtain ⟨hv, hp⟩ := hw
  rw [parity_xor, hp, oddErrors_iff]
  refine and_congr ⟨fun h i hi => ?_, fun h i hi => ?_⟩ ?_
  · have := h i hi
    rw [BitVec.getLsbD_xor, hv i hi] at this
    revert this
    cases (0x43F#11).getLsbD i <;> cases e.getLsbD (5 + i) <;> simp
  · rw [BitVec.getLsbD_xor, hv i hi, h i hi]; simp
  · cases parity e 32 <;> simp

/-- **C97**, SBP: the flag `valid` of a valid command with wrong bits. -/
theorem C97_sbp_valid (a : BitVec 16) (w : BitVec 32) (ea : BitVec 16) (e : BitVec 32)
    (hw : (SbpCommand.unpack a w).valid = true) :
    (SbpCommand.unpack (a ^^^ ea) (w ^^^ e)).valid = true ↔ HitsPairs e 4 := by
  rw [(C07_sbp_unpack _ _).2.2] at hw ⊢
  simp only [BitVec.getLsbD_xor]
  exact ⟨fun h i hi => (xor_flip (hw i hi)).1 (h i hi), fun h i hi => (xor_flip (hw i hi)).2 (h i hi)⟩

/-! ### One wrong bit, an odd number, a burst -/

theorem parity_split (e : BitVec 32) (m n : Nat) :
    parity e (m + n) = xor (parity e m) (parity (e >>> m) n) := by
  induction n with
  | zero => simp [parity]
  | succ n ih =>
    rw [← Nat.add_assoc, parity, parity, ih, BitVec.getLsbD_ushiftRight]
    cases e.getLsbD (m + n) <;> cases parity e m <;> cases parity (e >>> m) n <;> rfl

theorem paired_even (e : BitVec 32) (h : HitsPairs e 0) : parity e 16 = false := by
  rw [show 16 = 8 + 8 by rfl, parity_split, parity_congr (e >>> 8) e 8, Bool.xor_self]
  intro i hi
  rw [BitVec.getLsbD_ushiftRight]
  have := h i hi
  rw [Nat.zero_add, Nat.zero_add] at this
  exact this.symm

theorem word_pairs (e : BitVec 32) (h0 : HitsPairs e 0) (h16 : HitsPairs e 16) : ¬ OddErrors e := by
  rw [oddErrors_iff, show 32 = 16 + 16 by rfl, parity_split, paired_even e h0, paired_even]
  · decide
  · intro i hi
    rw [BitVec.getLsbD_ushiftRight, BitVec.getLsbD_ushiftRight, Nat.zero_add, Nat.zero_add, ← Nat.add_assoc]
    exact h16 i hi

/-- The pairs of bits that an error has to hit together are eight bits apart, so a burst of eight bits does not hit
both of a pair. -/
theorem burst_pairs (e : BitVec 32) (hb : Burst e 8) (h0 : HitsPairs e 0) (h16 : HitsPairs e 16) : e = 0 := by
  obtain ⟨k, hk⟩ := hb
  apply BitVec.eq_of_getLsbD_eq
  intro i hi
  show e.getLsbD i = (0#32).getLsbD i
  rw [BitVec.getLsbD_zero]
  by_contra hne
  have hi1 : e.getLsbD i = true := by simpa using hne
  have hik := hk i hi1
  have other : ∀ j, e.getLsbD j = true → j < i + 8 ∧ i < j + 8 := by
    intro j hj
    have := hk j hj
    omega
  by_cases c1 : i < 8
  · have h := h0 i c1
    rw [Nat.zero_add] at h
    have := other (0 + 8 + i) (by rw [← h, hi1])
    omega
  by_cases c2 : i < 16
  · have h := h0 (i - 8) (by omega)
    rw [show 0 + 8 + (i - 8) = i by omega, hi1] at h
    have := other _ h
    omega
  by_cases c3 : i < 24
  · have h := h16 (i - 16) (by omega)
    rw [show 16 + (i - 16) = i by omega, hi1] at h
    have := other _ h.symm
    omega
  · have h := h16 (i - 24) (by omega)
    rw [show 16 + 8 + (i - 24) = i by omega, hi1] at h
    have := other _ h
    omega

/-- **C97**: an odd number of wrong bits is always noticed, by standard NEC, Samsung and Apple. -/
theorem C97_odd_noticed (w e : BitVec 32) (he : OddErrors e) :
    (NecCommand.validate w = true → NecCommand.validate (w ^^^ e) = false) ∧
    (SamsungNecCommand.validate w = true → SamsungNecCommand.validate (w ^^^ e) = false) ∧
    (AppleNecCommand.validate w = true → AppleNecCommand.validate (w ^^^ e) = false ∧
      ∀ rep, AppleNecCommand.unpack (w ^^^ e) rep = none) := by
  refine ⟨fun hw => ?_, fun hw => ?_, fun hw => ?_⟩
  · rw [Bool.eq_false_iff, Ne, C97_nec_validate w e hw]
    exact fun h => word_pairs e h.1 h.2 he
  · rw [Bool.eq_false_iff, Ne, C97_samsung_validate w e hw]
    exact fun h => word_pairs e h.1 h.2 he
  · have : AppleNecCommand.validate (w ^^^ e) = false := by
      rw [Bool.eq_false_iff, Ne, C97_apple_validate w e hw]
      exact fun h => h.2 he
    refine ⟨this, fun rep => ?_⟩
    simp [AppleNecCommand.unpack, this]

/-- **C97**: wrong bits within eight consecutive ones are always noticed by standard NEC and Samsung. -/
theorem C97_burst_noticed (w e : BitVec 32) (hb : Burst e 8) (he : e ≠ 0) :
    (NecCommand.validate w = true → NecCommand.validate (w ^^^ e) = false) ∧
    (SamsungNecCommand.validate w = true → SamsungNecCommand.validate (w ^^^ e) = false) := by
  refine ⟨fun hw => ?_, fun hw => ?_⟩
  · rw [Bool.eq_false_iff, Ne, C97_nec_validate w e hw]
    exact fun h => he (burst_pairs e hb h.1 h.2)
  · rw [Bool.eq_false_iff, Ne, C97_samsung_validate w e hw]
    exact fun h => he (burst_pairs e hb h.1 h.2)

/-- Nine bits are too many: bit 0 and its check bit. -/
theorem C97_burst_of_nine : Burst (0x101 : BitVec 32) 9 ∧
    NecCommand.validate (NecCommand.pack ⟨7, 44, false⟩) = true ∧
    NecCommand.validate (NecCommand.pack ⟨7, 44, false⟩ ^^^ 0x101) = true ∧
    SamsungNecCommand.validate (SamsungNecCommand.pack ⟨7, 44, false⟩ ^^^ 0x101) = true := by
  refine ⟨⟨0, fun i hi => ⟨Nat.zero_le _, ?_⟩⟩, by decide, by decide, by decide⟩
  by_contra h
  have : ∀ j < 32, ¬ j < 0 + 9 → (0x101 : BitVec 32).getLsbD j = false := by decide
  by_cases hl : i < 32
  · rw [this i hl h] at hi; cases hi
  · rw [BitVec.getLsbD_of_ge _ _ (by omega)] at hi; cases hi

/-! ### What the receivers report -/

/-- **C97**, standard NEC: the command of a word with wrong bits differs from the command sent exactly in the bits
of address and command that are wrong; wrong check bits do not change it. -/
theorem C97_nec_unpack (c : NecCommand) (e : BitVec 32) :
    NecCommand.unpack (c.pack ^^^ e) c.rep =
      some { addr := c.addr ^^^ byte e 0, cmd := c.cmd ^^^ byte e 16, rep := c.rep } := by
  obtain ⟨addr, cmd, rep⟩ := c
  simp only [NecCommand.unpack, Option.some.injEq, NecCommand.mk.injEq, and_true]
  constructor <;> apply BitVec.eq_of_getLsbD_eq <;> intro i hi <;> interval_cases i <;>
    simp [NecCommand.pack, byte]

theorem C97_samsung_unpack (c : SamsungNecCommand) (e : BitVec 32) :
    SamsungNecCommand.unpack (c.pack ^^^ e) c.rep =
      some { addr := c.addr ^^^ byte e 0, cmd := c.cmd ^^^ byte e 16, rep := c.rep } := by
  obtain ⟨addr, cmd, rep⟩ := c
  simp only [SamsungNecCommand.unpack, Option.some.injEq, SamsungNecCommand.mk.injEq, and_true]
  constructor <;> apply BitVec.eq_of_getLsbD_eq <;> intro i hi <;> interval_cases i <;>
    simp [SamsungNecCommand.pack, byte]

theorem C97_nec16_unpack (c : Nec16Command) (e : BitVec 32) :
    Nec16Command.unpack (c.pack ^^^ e) c.rep =
      some { addr := c.addr ^^^ e.setWidth 16, cmd := c.cmd ^^^ byte e 16, rep := c.rep } := by
  obtain ⟨addr, cmd, rep⟩ := c
  simp only [Nec16Command.unpack, Option.some.injEq, Nec16Command.mk.injEq, and_true]
  constructor <;> apply BitVec.eq_of_getLsbD_eq <;> intro i hi <;> interval_cases i <;>
    simp [Nec16Command.pack, byte]

/-- **C97**, standard NEC receivers: the word of a command that arrives with wrong bits is reported (once), with
exactly the wrong bits of address and command wrong. -/
theorem C97_nec_receiver (t : Target) (m : Mono) (hm : m = Mono.u32 ∨ m = Mono.u64)
    (f : Nat) (hlo : 20000 ≤ f) (hf : f < 2 ^ 32)
    (tbl : PulseSpans) (htbl : necSpans t m nec f = some tbl) (conv : NecCommand → K)
    (r : Receiver (necDecoder t m tbl nec)) (hidle : NecDecoder.state r.decoder = .init)
    (c : NecCommand) (hc : c.rep = false) (e : BitVec 32)
    (ps : List (Nat × Nat)) (hfr : NecFrame tbl (c.pack ^^^ e) ps) :
    ∃ r', r.run _ conv (pulses ps) = some (r', List.replicate 65 (.ok none) ++
        [.ok (some (conv { addr := c.addr ^^^ byte e 0, cmd := c.cmd ^^^ byte e 16, rep := false }))]) ∧
      NecDecoder.state r'.decoder = .init := by
  have h := C17_nec_frame_decoded t m hm f hlo hf nec (.inl rfl) tbl htbl conv r hidle _ ps hfr
  have hu := C97_nec_unpack c e
  rw [hc] at hu
  rwa [show nec.unpack (c.pack ^^^ e) false = _ from hu] at h

/-- **C97**, Samsung receivers. -/
theorem C97_samsung_receiver (t : Target) (m : Mono) (hm : m = Mono.u32 ∨ m = Mono.u64)
    (f : Nat) (hlo : 20000 ≤ f) (hf : f < 2 ^ 32)
    (tbl : PulseSpans) (htbl : necSpans t m samsungNec f = some tbl) (conv : SamsungNecCommand → K)
    (r : Receiver (necDecoder t m tbl samsungNec)) (hidle : NecDecoder.state r.decoder = .init)
    (c : SamsungNecCommand) (hc : c.rep = false) (e : BitVec 32)
    (ps : List (Nat × Nat)) (hfr : NecFrame tbl (c.pack ^^^ e) ps) :
    ∃ r', r.run _ conv (pulses ps) = some (r', List.replicate 65 (.ok none) ++
        [.ok (some (conv { addr := c.addr ^^^ byte e 0, cmd := c.cmd ^^^ byte e 16, rep := false }))]) ∧
      NecDecoder.state r'.decoder = .init := by
  have h := C17_nec_frame_decoded t m hm f hlo hf samsungNec (.inr rfl) tbl htbl conv r hidle _ ps hfr
  have hu := C97_samsung_unpack c e
  rw [hc] at hu
  rwa [show samsungNec.unpack (c.pack ^^^ e) false = _ from hu] at h

/-- **C97**, NEC receivers with 16 bit addresses. -/
theorem C97_nec16_receiver (t : Target) (m : Mono) (hm : m = Mono.u32 ∨ m = Mono.u64)
    (f : Nat) (hlo : 20000 ≤ f) (hf : f < 2 ^ 32)
    (tbl : PulseSpans) (htbl : necSpans t m nec16 f = some tbl) (conv : Nec16Command → K)
    (r : Receiver (necDecoder t m tbl nec16)) (hidle : NecDecoder.state r.decoder = .init)
    (c : Nec16Command) (hc : c.rep = false) (e : BitVec 32)
    (ps : List (Nat × Nat)) (hfr : NecFrame tbl (c.pack ^^^ e) ps) :
    ∃ r', r.run _ conv (pulses ps) = some (r', List.replicate 65 (.ok none) ++
        [.ok (some (conv { addr := c.addr ^^^ e.setWidth 16, cmd := c.cmd ^^^ byte e 16, rep := false }))]) ∧
      NecDecoder.state r'.decoder = .init := by
  have h := C17_nec_frame_decoded t m hm f hlo hf nec16 (.inl rfl) tbl htbl conv r hidle _ ps hfr
  have hu := C97_nec16_unpack c e
  rw [hc] at hu
  rwa [show nec16.unpack (c.pack ^^^ e) false = _ from hu] at h

/-- **C97**, Apple receivers: nothing is reported if an odd number of bits or a bit of the vendor id is wrong. -/
theorem C97_apple_receiver (t : Target) (m : Mono) (hm : m = Mono.u32 ∨ m = Mono.u64)
    (f : Nat) (hlo : 20000 ≤ f) (hf : f < 2 ^ 32)
    (tbl : PulseSpans) (htbl : necSpans t m appleNec f = some tbl) (conv : AppleNecCommand → K)
    (r : Receiver (necDecoder t m tbl appleNec)) (hidle : NecDecoder.state r.decoder = .init)
    (w : BitVec 32) (hw : HasAppleVendor w ∧ parity w 32 = true)
    (e : BitVec 32) (he : OddErrors e ∨ ∃ i < 11, e.getLsbD (5 + i) = true)
    (ps : List (Nat × Nat)) (hfr : NecFrame tbl (w ^^^ e) ps) :
    ∃ r', r.run _ conv (pulses ps) = some (r', List.replicate 66 (.ok none)) ∧
      NecDecoder.state r'.decoder = .init := by
  have h := C17_nec_frame_decoded t m hm f hlo hf appleNec (.inl rfl) tbl htbl conv r hidle _ ps hfr
  have hv : AppleNecCommand.validate (w ^^^ e) = false := by
    rw [Bool.eq_false_iff, Ne, C97_apple_validate w e ((C04_apple_validate_iff w).2 hw)]
    rintro ⟨h1, h2⟩
    rcases he with he | ⟨i, hi, he⟩
    · exact h2 he
    · rw [h1 i hi] at he; cases he
  have hu : appleNec.unpack (w ^^^ e) false = none := by
    show AppleNecCommand.unpack (w ^^^ e) false = none
    simp [AppleNecCommand.unpack, hv]
  rw [hu] at h
  exact h

/-- **C97**, checked reception: a receiver of raw words gives the program all bits, so the program can ask
`validate`; then a word of a standard NEC command with an odd number of wrong bits or all wrong bits within eight consecutive ones is always recognised as wrong, and one without wrong bits gives the command. -/
theorem C97_raw_checked (t : Target) (m : Mono) (hm : m = Mono.u32 ∨ m = Mono.u64)
    (f : Nat) (hlo : 20000 ≤ f) (hf : f < 2 ^ 32)
    (tbl : PulseSpans) (htbl : necSpans t m necDebug f = some tbl)
    (r : Receiver (necDecoder t m tbl necDebug)) (hidle : NecDecoder.state r.decoder = .init)
    (c : NecCommand) (e : BitVec 32)
    (ps : List (Nat × Nat)) (hfr : NecFrame tbl (c.pack ^^^ e) ps) :
    ∃ r' d, r.run _ id (pulses ps) = some (r', List.replicate 65 (.ok none) ++ [.ok (some d)]) ∧
      NecDecoder.state r'.decoder = .init ∧
      (OddErrors e ∨ Burst e 8 ∧ e ≠ 0 → NecCommand.validate d.bits = false) ∧
      (e = 0 → NecCommand.validate d.bits = true ∧ NecCommand.unpack d.bits c.rep = some c) := by
  obtain ⟨r', h1, h2⟩ :=
    C17_nec_frame_decoded t m hm f hlo hf necDebug (.inl rfl) tbl htbl id r hidle _ ps hfr
  have hc := C01_nec_roundtrip c
  refine ⟨r', ⟨c.pack ^^^ e⟩, h1, h2, ?_, ?_⟩
  · rintro (he | ⟨hb, he⟩)
    · exact (C97_odd_noticed c.pack e he).1 hc.1
    · exact (C97_burst_noticed c.pack e hb he).1 hc.1
  · rintro rfl
    have : c.pack ^^^ (0 : BitVec 32) = c.pack := BitVec.xor_zero
    rw [this]
    exact hc

/-- **C97**, SBP receivers: a valid command that arrives with wrong bits is reported with exactly the wrong bits of
address and command wrong, and with `valid` exactly if each wrong bit is wrong together with its check bit. -/
theorem C97_sbp_receiver (t : Target) (m : Mono) (hm : m = Mono.u32 ∨ m = Mono.u64)
    (f : Nat) (hlo : 20000 ≤ f) (hf : f < 2 ^ 32) (tbl : PulseSpans)
    (htbl : sbpSpans t m f = some tbl) (before : List Ev)
    (o : List (Res SbpCommand)) (r : Receiver (sbpDecoder t m tbl))
    (hreach : (Receiver.new (sbpDecoder t m tbl)).run _ id before = some (r, o))
    (hidle : SbpDecoder.state r.decoder = .init)
    (a ea : BitVec 16) (w e : BitVec 20) (hw : (SbpCommand.unpack a (w.setWidth 32)).valid = true)
    (ps : List (Nat × Nat)) (hfr : Matches tbl (sbpSlots (a ^^^ ea) (w ^^^ e)) ps) :
    ∃ r' c, r.run _ id (pulses ps) = some (r', List.replicate 75 (.ok none) ++ [.ok (some c)]) ∧
      SbpDecoder.state r'.decoder = .init ∧
      c.address = a ^^^ ea ∧
      (∀ i < 8, c.command.getLsbD i =
        xor ((SbpCommand.unpack a (w.setWidth 32)).command.getLsbD i) (e.getLsbD (4 + i))) ∧
      (c.valid = true ↔ HitsPairs e 4) := by
  obtain ⟨r', h1, h2⟩ := C22_sbp_frame_decoded t m hm f hlo hf tbl htbl id before o r hreach hidle
    (a ^^^ ea) (w ^^^ e) ps hfr
  have hx : (w ^^^ e).setWidth 32 = w.setWidth 32 ^^^ e.setWidth 32 := by
    apply BitVec.eq_of_getLsbD_eq
    intro i hi
    simp only [BitVec.getLsbD_xor, BitVec.getLsbD_setWidth]
    cases decide (i < 32) <;> simp
  rw [hx] at h1
  have g1 := C07_sbp_unpack a (w.setWidth 32)
  have g2 := C07_sbp_unpack (a ^^^ ea) (w.setWidth 32 ^^^ e.setWidth 32)
  refine ⟨r', _, h1, h2, g2.1, fun i hi => ?_, ?_⟩
  · rw [id, g2.2.1 i hi, g1.2.1 i hi, BitVec.getLsbD_xor]
    simp only [BitVec.getLsbD_setWidth, show 4 + i < 32 by omega, decide_true, Bool.true_and]
  · rw [id, C97_sbp_valid a _ ea _ hw]
    refine forall_congr' fun i => forall_congr' fun hi => ?_
    simp only [BitVec.getLsbD_setWidth, show 4 + i < 32 by omega, show 4 + 8 + i < 32 by omega, decide_true,
      Bool.true_and]

/-- One wrong bit: address bit 3 of command 44 to device 7.  The receiver reports a command to device 15; `validate`
would have noticed. -/
example : NecFrame (necTable 1000000) (NecCommand.pack ⟨7, 44, false⟩ ^^^ 8) (nominalNec (NecCommand.pack ⟨7, 44, false⟩ ^^^ 8)) ∧
    OddErrors 8 ∧
    NecCommand.unpack (NecCommand.pack ⟨7, 44, false⟩ ^^^ 8) false = some ⟨15, 44, false⟩ ∧
    NecCommand.validate (NecCommand.pack ⟨7, 44, false⟩ ^^^ 8) = false :=
  ⟨nominalNec_frame _, by unfold OddErrors; decide, by decide, by decide⟩

/-- An Apple word with one wrong bit, and with a wrong bit of the vendor id and another one. -/
example : HasAppleVendor 0x9B0987EE ∧ parity 0x9B0987EE 32 = true ∧
    (OddErrors 0x20000 ∨ ∃ i < 11, (0x20000 : BitVec 32).getLsbD (5 + i) = true) ∧
    (OddErrors 0x20020 ∨ ∃ i < 11, (0x20020 : BitVec 32).getLsbD (5 + i) = true) ∧
    NecFrame (necTable 1000000) (0x9B0987EE ^^^ 0x20000) (nominalNec (0x9B0987EE ^^^ 0x20000)) := by
  refine ⟨?_, by decide, .inl ?_, .inr ⟨0, by decide, by decide⟩, nominalNec_frame _⟩
  · unfold HasAppleVendor; decide
  · unfold OddErrors; decide

/-- A valid SBP command with a wrong bit is marked as not valid; with a wrong pair it is not. -/
example : (SbpCommand.unpack 32 0xFD02F#32).valid = true ∧
    ¬ HitsPairs (0x10 : BitVec 20) 4 ∧ HitsPairs (0x1010 : BitVec 20) 4 ∧
    SbpCommand.unpack 32 (0xFD02F#32 ^^^ 0x1010#32) = { address := 32, command := 3, valid := true } := by
  refine ⟨by decide, ?_, ?_, by decide⟩ <;> unfold HitsPairs <;> decide

end Infrared
