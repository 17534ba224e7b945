import Verif.Model.Cmd
import Verif.Spec.Words
import Mathlib.Tactic.IntervalCases

/-!
# C01–C10: command words, command values, protocol ids
-/

namespace Infrared
open Spec

/-! ### Helper lemmas -/

theorem and_ff_iff (x : BitVec 32) :
    (x &&& 0xFF#32 = 0xFF#32) ↔ ∀ i < 8, x.getLsbD i = true := by
  constructor
  · intro h i hi
    have := congrArg (fun y => BitVec.getLsbD y i) h
    interval_cases i <;> simpa using this
  · intro h
    apply BitVec.eq_of_getLsbD_eq
    intro i hi
    by_cases h8 : i < 8
    · have := h i h8
      interval_cases i <;> simp_all
    · interval_cases i <;> simp_all

theorem and_00_iff (x : BitVec 32) :
    (x &&& 0xFF#32 = 0x00#32) ↔ ∀ i < 8, x.getLsbD i = false := by
  constructor
  · intro h i hi
    have := congrArg (fun y => BitVec.getLsbD y i) h
    interval_cases i <;> simpa using this
  · intro h
    apply BitVec.eq_of_getLsbD_eq
    intro i hi
    by_cases h8 : i < 8
    · have := h i h8
      interval_cases i <;> simp_all
    · interval_cases i <;> simp_all

theorem nec_validate_iff (w : BitVec 32) :
    NecCommand.validate w = true ↔
      ∀ i < 8, w.getLsbD (24 + i) = !w.getLsbD (16 + i) ∧ w.getLsbD (8 + i) = !w.getLsbD i := by
  simp only [NecCommand.validate, Bool.and_eq_true, beq_iff_eq, and_ff_iff]
  simp only [BitVec.getLsbD_xor, BitVec.getLsbD_ushiftRight]
  constructor
  · rintro ⟨h1, h2⟩ i hi
    have a := h1 i hi; have b := h2 i hi
    revert a b
    cases w.getLsbD (24 + i) <;> cases w.getLsbD (16 + i) <;> cases w.getLsbD (8 + i) <;>
      cases w.getLsbD i <;> simp
  · intro h
    constructor <;> intro i hi <;> have a := h i hi <;> revert a <;>
    cases w.getLsbD (24 + i) <;> cases w.getLsbD (16 + i) <;> cases w.getLsbD (8 + i) <;>
      cases w.getLsbD i <;> simp

theorem samsung_validate_iff (w : BitVec 32) :
    SamsungNecCommand.validate w = true ↔
      ∀ i < 8, w.getLsbD (24 + i) = !w.getLsbD (16 + i) ∧ w.getLsbD (8 + i) = w.getLsbD i := by
  simp only [SamsungNecCommand.validate, Bool.and_eq_true, beq_iff_eq, and_ff_iff, and_00_iff]
  simp only [BitVec.getLsbD_xor, BitVec.getLsbD_ushiftRight]
  constructor
  · rintro ⟨h1, h2⟩ i hi
    have a := h1 i hi; have b := h2 i hi
    revert a b
    cases w.getLsbD (24 + i) <;> cases w.getLsbD (16 + i) <;> cases w.getLsbD (8 + i) <;>
      cases w.getLsbD i <;> simp
  · intro h
    constructor <;> intro i hi <;> have a := h i hi <;> revert a <;>
    cases w.getLsbD (24 + i) <;> cases w.getLsbD (16 + i) <;> cases w.getLsbD (8 + i) <;>
      cases w.getLsbD i <;> simp

theorem nec16_validate_iff (w : BitVec 32) :
    Nec16Command.validate w = true ↔
      ∀ i < 8, w.getLsbD (24 + i) = !w.getLsbD (16 + i) := by
  simp only [Nec16Command.validate, beq_iff_eq, and_ff_iff]
  simp only [BitVec.getLsbD_xor, BitVec.getLsbD_ushiftRight]
  constructor
  · intro h1 i hi
    have a := h1 i hi
    revert a
    cases w.getLsbD (24 + i) <;> cases w.getLsbD (16 + i) <;> simp
  · intro h i hi
    have a := h i hi
    revert a
    cases w.getLsbD (24 + i) <;> cases w.getLsbD (16 + i) <;> simp

/-- A word is determined by its four bytes' bits. -/
theorem word_ext {w v : BitVec 32}
    (h : ∀ i < 8, w.getLsbD i = v.getLsbD i ∧ w.getLsbD (8 + i) = v.getLsbD (8 + i) ∧
      w.getLsbD (16 + i) = v.getLsbD (16 + i) ∧ w.getLsbD (24 + i) = v.getLsbD (24 + i)) :
    w = v := by
  apply BitVec.eq_of_getLsbD_eq
  intro i hi
  have h8 := h (i % 8) (by omega)
  have : i = i % 8 ∨ i = 8 + i % 8 ∨ i = 16 + i % 8 ∨ i = 24 + i % 8 := by omega
  rcases this with e | e | e | e <;> rw [e] <;> simp [h8]

/-! ### C01 -/

/-- C01 (layout): `pack` produces the standard NEC layout. -/
theorem C01_nec_pack_layout (c : NecCommand) : IsNecWord c.pack c.addr c.cmd := by
  intro i hi
  interval_cases i <;> simp [NecCommand.pack]

/-- C01: a packed command is valid and unpacks to itself, for both repeat flags. -/
theorem C01_nec_roundtrip (c : NecCommand) :
    NecCommand.validate c.pack = true ∧ NecCommand.unpack c.pack c.rep = some c := by
  have hl := C01_nec_pack_layout c
  constructor
  · rw [nec_validate_iff]
    intro i hi
    obtain ⟨a, b, d, e⟩ := hl i hi
    rw [a, b, d, e]
    exact ⟨rfl, rfl⟩
  · obtain ⟨addr, cmd, rep⟩ := c
    simp only [NecCommand.unpack, Option.some.injEq, NecCommand.mk.injEq, and_true]
    constructor <;> apply BitVec.eq_of_getLsbD_eq <;> intro i hi <;>
      interval_cases i <;> simp [NecCommand.pack]

/-- C01 (converse): a word is accepted by `validate` iff it has the NEC layout for some address
and command, and then `unpack` returns them and packing gives the word back. -/
theorem C01_nec_validate_iff (w : BitVec 32) (r : Bool) :
    (NecCommand.validate w = true ↔ ∃ a c, IsNecWord w a c) ∧
    (NecCommand.validate w = true → ∃ cmd : NecCommand,
      NecCommand.unpack w r = some cmd ∧ cmd.rep = r ∧ cmd.pack = w) := by
  have key : NecCommand.validate w = true → ∃ cmd : NecCommand,
      NecCommand.unpack w r = some cmd ∧ cmd.rep = r ∧ cmd.pack = w := by
    intro h
    rw [nec_validate_iff] at h
    refine ⟨_, rfl, rfl, ?_⟩
    apply word_ext
    intro i hi
    have hi' := h i hi
    interval_cases i <;> simp at hi' <;> simp [NecCommand.pack, hi']
  refine ⟨⟨fun h => ?_, ?_⟩, key⟩
  · obtain ⟨cmd, -, -, hp⟩ := key h
    exact ⟨cmd.addr, cmd.cmd, hp ▸ C01_nec_pack_layout cmd⟩
  · rintro ⟨a, c, h⟩
    rw [nec_validate_iff]
    intro i hi
    obtain ⟨h1, h2, h3, h4⟩ := h i hi
    rw [h1, h2, h3, h4]
    exact ⟨rfl, rfl⟩

-- the word of the repo's own test, and a word that is not accepted
example : (NecCommand.mk 7 44 false).pack = 0xD32CF807#32 := by decide
example : NecCommand.validate 0xD32CF807#32 = true ∧ NecCommand.validate 0xD32C0707#32 = false := by
  decide

/-! ### C02 -/

/-- C02 (layout): `pack` produces the Samsung layout. -/
theorem C02_samsung_pack_layout (c : SamsungNecCommand) : IsSamsungWord c.pack c.addr c.cmd := by
  intro i hi
  interval_cases i <;> simp [SamsungNecCommand.pack]

/-- C02: a packed command is valid and unpacks to itself. -/
theorem C02_samsung_roundtrip (c : SamsungNecCommand) :
    SamsungNecCommand.validate c.pack = true ∧ SamsungNecCommand.unpack c.pack c.rep = some c := by
  have hl := C02_samsung_pack_layout c
  constructor
  · rw [samsung_validate_iff]
    intro i hi
    obtain ⟨a, b, d, e⟩ := hl i hi
    rw [a, b, d, e]
    exact ⟨rfl, rfl⟩
  · obtain ⟨addr, cmd, rep⟩ := c
    simp only [SamsungNecCommand.unpack, Option.some.injEq, SamsungNecCommand.mk.injEq, and_true]
    constructor <;> apply BitVec.eq_of_getLsbD_eq <;> intro i hi <;>
      interval_cases i <;> simp [SamsungNecCommand.pack]

/-- C02 (converse). -/
theorem C02_samsung_validate_iff (w : BitVec 32) (r : Bool) :
    (SamsungNecCommand.validate w = true ↔ ∃ a c, IsSamsungWord w a c) ∧
    (SamsungNecCommand.validate w = true → ∃ cmd : SamsungNecCommand,
      SamsungNecCommand.unpack w r = some cmd ∧ cmd.rep = r ∧ cmd.pack = w) := by
  have key : SamsungNecCommand.validate w = true → ∃ cmd : SamsungNecCommand,
      SamsungNecCommand.unpack w r = some cmd ∧ cmd.rep = r ∧ cmd.pack = w := by
    intro h
    rw [samsung_validate_iff] at h
    refine ⟨_, rfl, rfl, ?_⟩
    apply word_ext
    intro i hi
    have hi' := h i hi
    interval_cases i <;> simp at hi' <;> simp [SamsungNecCommand.pack, hi']
  refine ⟨⟨fun h => ?_, ?_⟩, key⟩
  · obtain ⟨cmd, -, -, hp⟩ := key h
    exact ⟨cmd.addr, cmd.cmd, hp ▸ C02_samsung_pack_layout cmd⟩
  · rintro ⟨a, c, h⟩
    rw [samsung_validate_iff]
    intro i hi
    obtain ⟨h1, h2, h3, h4⟩ := h i hi
    rw [h1, h2, h3, h4]
    exact ⟨rfl, rfl⟩

example : (SamsungNecCommand.mk 7 44 false).pack = 0xD32C0707#32 := by decide
example : SamsungNecCommand.validate 0xD32C0707#32 = true := by decide

/-! ### C03 -/

/-- C03 (layout): `Nec16Command::pack`. -/
theorem C03_nec16_pack_layout (c : Nec16Command) : IsNec16Word c.pack c.addr c.cmd := by
  constructor <;> intro i hi <;> interval_cases i <;> simp [Nec16Command.pack]

/-- C03: Nec16 round trip. -/
theorem C03_nec16_roundtrip (c : Nec16Command) :
    Nec16Command.validate c.pack = true ∧ Nec16Command.unpack c.pack c.rep = some c := by
  have hl := C03_nec16_pack_layout c
  constructor
  · rw [nec16_validate_iff]
    intro i hi
    obtain ⟨d, e⟩ := hl.2 i hi
    rw [d, e]
  · obtain ⟨addr, cmd, rep⟩ := c
    simp only [Nec16Command.unpack, Option.some.injEq, Nec16Command.mk.injEq, and_true]
    constructor <;> apply BitVec.eq_of_getLsbD_eq <;> intro i hi <;>
      interval_cases i <;> simp [Nec16Command.pack]

/-- C03 (converse): accepted Nec16 words are exactly the packed ones. -/
theorem C03_nec16_validate_iff (w : BitVec 32) (r : Bool) :
    (Nec16Command.validate w = true ↔ ∃ a c, IsNec16Word w a c) ∧
    (Nec16Command.validate w = true → ∃ cmd : Nec16Command,
      Nec16Command.unpack w r = some cmd ∧ cmd.rep = r ∧ cmd.pack = w) := by
  have key : Nec16Command.validate w = true → ∃ cmd : Nec16Command,
      Nec16Command.unpack w r = some cmd ∧ cmd.rep = r ∧ cmd.pack = w := by
    intro h
    rw [nec16_validate_iff] at h
    refine ⟨_, rfl, rfl, ?_⟩
    apply word_ext
    intro i hi
    have hi' := h i hi
    interval_cases i <;> simp at hi' <;> simp [Nec16Command.pack, hi']
  refine ⟨⟨fun h => ?_, ?_⟩, key⟩
  · obtain ⟨cmd, -, -, hp⟩ := key h
    exact ⟨cmd.addr, cmd.cmd, hp ▸ C03_nec16_pack_layout cmd⟩
  · rintro ⟨a, c, h⟩
    rw [nec16_validate_iff]
    intro i hi
    obtain ⟨h3, h4⟩ := h.2 i hi
    rw [h3, h4]

/-- C03 (raw): the debug variant is the identity on all words. -/
theorem C03_raw_roundtrip (c : NecDebugCmd) (w : BitVec 32) (r : Bool) :
    (∃ v, necDebug.pack c = some v ∧ v = c.bits ∧ necDebug.unpack v r = some c) ∧
    necDebug.validate w = true ∧ ∃ d, necDebug.unpack w r = some d ∧ necDebug.pack d = some w :=
  ⟨⟨c.bits, rfl, rfl, rfl⟩, rfl, ⟨w⟩, rfl, rfl⟩

example : (Nec16Command.mk 28114 220 false).pack = 0x23DC6DD2#32 := by decide

/-! ### C04 -/

theorem filter_range_succ_length (w : BitVec 32) (n : Nat) :
    ((List.range (n + 1)).filter fun i => w.getLsbD i).length =
      ((List.range n).filter fun i => w.getLsbD i).length + (w.getLsbD n).toNat := by
  rw [List.range_succ, List.filter_append, List.length_append]
  cases h : w.getLsbD n <;> simp [h]

theorem parity_eq (w : BitVec 32) (n : Nat) :
    parity w n = decide (((List.range n).filter fun i => w.getLsbD i).length % 2 = 1) := by
  induction n with
  | zero => simp [parity]
  | succ n ih =>
    rw [filter_range_succ_length, parity, ih]
    cases h : w.getLsbD n
    · simp
    · rcases Nat.mod_two_eq_zero_or_one
        ((List.range n).filter fun i => w.getLsbD i).length with h | h <;>
        simp [h, Nat.add_mod]

theorem apple_vendor_iff (w : BitVec 32) :
    ((w >>> 5) &&& 0x7FF#32).setWidth 16 = 0x43f#16 ↔ HasAppleVendor w := by
  constructor
  · intro h i hi
    have := congrArg (fun y => BitVec.getLsbD y i) h
    interval_cases i <;> simpa using this
  · intro h
    apply BitVec.eq_of_getLsbD_eq
    intro i hi
    by_cases h8 : i < 11
    · have := h i h8
      interval_cases i <;> simp_all
    · interval_cases i <;> simp_all

/-- C04 (acceptance): `validate` holds iff vendor and odd parity are right. -/
theorem C04_apple_validate_iff (w : BitVec 32) :
    AppleNecCommand.validate w = true ↔ HasAppleVendor w ∧ parity w 32 = true := by
  rw [parity_eq]
  rw [← apple_vendor_iff]
  simp [AppleNecCommand.validate, countOnes]

theorem apple_fields (w : BitVec 32) :
    AppleFields w ((w &&& 0x1F#32).setWidth 8) (((w >>> 17) &&& 0x7F#32).setWidth 8)
      (((w >>> 24) &&& 0xFF#32).setWidth 8) := by
  refine ⟨?_, ?_, ?_⟩ <;> intro i hi <;> interval_cases i <;> simp

/-- C04: `unpack` accepts exactly those words and returns the documented fields. -/
theorem C04_apple_unpack (w : BitVec 32) (r : Bool) :
    ((AppleNecCommand.unpack w r).isSome = true ↔ HasAppleVendor w ∧ parity w 32 = true) ∧
    ∀ c, AppleNecCommand.unpack w r = some c →
      AppleFields w c.commandPage c.command c.deviceId ∧ c.rep = r := by
  rw [← C04_apple_validate_iff]
  unfold AppleNecCommand.unpack
  by_cases h : AppleNecCommand.validate w = true
  · simp only [h, Bool.not_true, Bool.false_eq_true, ↓reduceIte, Option.isSome_some, true_and,
      Option.some.injEq, forall_eq']
    exact ⟨apple_fields w, trivial⟩
  · simp [h]

theorem parity_congr (w v : BitVec 32) (n : Nat) (h : ∀ i < n, w.getLsbD i = v.getLsbD i) :
    parity w n = parity v n := by
  induction n with
  | zero => rfl
  | succ n ih => rw [parity, parity, h n (by omega), ih fun i hi => h i (by omega)]

/-- C04 (injectivity): an accepted word is determined by page, command and device. -/
theorem C04_apple_injective (w v : BitVec 32) (r : Bool) (c : AppleNecCommand)
    (hw : AppleNecCommand.unpack w r = some c) (hv : AppleNecCommand.unpack v r = some c) :
    w = v := by
  obtain ⟨hws, hwf⟩ := C04_apple_unpack w r
  obtain ⟨hvs, hvf⟩ := C04_apple_unpack v r
  obtain ⟨⟨w1, w2, w3⟩, -⟩ := hwf c hw
  obtain ⟨⟨v1, v2, v3⟩, -⟩ := hvf c hv
  obtain ⟨wv, wp⟩ := hws.1 (by rw [hw]; rfl)
  obtain ⟨vv, vp⟩ := hvs.1 (by rw [hv]; rfl)
  have hne : ∀ i < 32, i ≠ 16 → w.getLsbD i = v.getLsbD i := by
    intro i hi h16
    by_cases a : i < 5
    · have := w1 i (by omega); have := v1 i (by omega); simp_all
    by_cases b : i < 16
    · have h1 := wv (i - 5) (by omega); have h2 := vv (i - 5) (by omega)
      rw [show 5 + (i - 5) = i by omega] at h1 h2; rw [h1, h2]
    by_cases d : i < 24
    · have h1 := w2 (i - 17) (by omega); have h2 := v2 (i - 17) (by omega)
      rw [show 17 + (i - 17) = i by omega] at h1 h2
      have : i - 17 < 7 := by omega
      simp_all
    · have h1 := w3 (i - 24) (by omega); have h2 := v3 (i - 24) (by omega)
      rw [show 24 + (i - 24) = i by omega] at h1 h2; rw [← h1, ← h2]
  have h16 : w.getLsbD 16 = v.getLsbD 16 := by
    by_contra hc
    have hx : w.getLsbD 16 = !v.getLsbD 16 := by
      revert hc; cases w.getLsbD 16 <;> cases v.getLsbD 16 <;> simp
    have : ∀ n, 17 + n ≤ 32 → parity w (17 + n) = !parity v (17 + n) := by
      intro n
      induction n with
      | zero =>
        intro _
        have := parity_congr w v 16 fun i hi => hne i (by omega) (by omega)
        show xor (w.getLsbD 16) (parity w 16) = !xor (v.getLsbD 16) (parity v 16)
        rw [this, hx]
        simp
      | succ n ih =>
        intro hn
        rw [show 17 + (n + 1) = (17 + n) + 1 by omega, parity, parity, ih (by omega),
          hne (17 + n) (by omega) (by omega)]
        simp
    have h32 := this 15 (by omega)
    rw [show 17 + 15 = 32 by rfl, wp, vp] at h32
    simp at h32
  apply BitVec.eq_of_getLsbD_eq
  intro i hi
  by_cases e : i = 16
  · subst e; exact h16
  · exact hne i hi e

/-- C04: encoding an Apple command always panics, whatever the frequency and slice. -/
theorem C04_apple_encode_panics (data : NecData) (c : AppleNecCommand) (b : List Nat) :
    necEncode appleNec data c b = none := by
  simp only [necEncode, appleNec, Option.bind_eq_bind]
  cases store b 0 0 with
  | none => rfl
  | some b1 =>
    rw [Option.bind_some]
    cases store b1 1 data.headerHigh with
    | none => rfl
    | some b2 =>
      rw [Option.bind_some]
      cases store b2 2 data.headerLow <;> rfl

-- accepted words exist (from the repo's tests), with page 0x0E, command 4, device 0x9B
example : AppleNecCommand.unpack 0x9B0987EE#32 false =
    some { commandPage := 0x0E, command := 4, deviceId := 0x9B, rep := false } := by decide +kernel

/-! ### C05 -/

/-- C05: no word is valid for both the standard and the Samsung variant, and both kinds are
valid Nec16 words. -/
theorem C05_disjoint_and_sub (w : BitVec 32) :
    ¬ (NecCommand.validate w = true ∧ SamsungNecCommand.validate w = true) ∧
    (NecCommand.validate w = true → Nec16Command.validate w = true) ∧
    (SamsungNecCommand.validate w = true → Nec16Command.validate w = true) := by
  rw [nec_validate_iff, samsung_validate_iff, nec16_validate_iff]
  refine ⟨?_, fun h i hi => (h i hi).1, fun h i hi => (h i hi).1⟩
  rintro ⟨h1, h2⟩
  have a := (h1 0 (by omega)).2
  have b := (h2 0 (by omega)).2
  rw [a] at b
  revert b
  cases w.getLsbD 0 <;> simp

-- Nec16 really accepts more than the union of the two
example : Nec16Command.validate 0x23DC6DD2#32 = true ∧ NecCommand.validate 0x23DC6DD2#32 = false ∧
    SamsungNecCommand.validate 0x23DC6DD2#32 = false := by decide

/-! ### C06 -/

theorem toNat_lt_iff_bits (x : BitVec 8) (k : Nat) :
    x.toNat < 2 ^ k ↔ ∀ i ≥ k, x.getLsbD i = false := by
  constructor
  · intro h i hi
    exact Nat.testBit_lt_two_pow (Nat.lt_of_lt_of_le h (Nat.pow_le_pow_right (by omega) hi))
  · intro h
    exact Nat.lt_pow_two_of_testBit _ h

/-- C06 (layout): on the field ranges `pack` produces the RC5 layout. -/
theorem C06_rc5_pack_layout (c : Rc5Command) (ha : c.addr.toNat < 32) (hc : c.cmd.toNat < 64)
    (hs : c.start.toNat < 4) : IsRc5Word c.pack c.addr c.cmd c.start c.toggle := by
  have ha' := (toNat_lt_iff_bits c.addr 5).1 ha
  have hc' := (toNat_lt_iff_bits c.cmd 6).1 hc
  have hs' := (toNat_lt_iff_bits c.start 2).1 hs
  have a5 := ha' 5 (by omega)
  have a6 := ha' 6 (by omega)
  have a7 := ha' 7 (by omega)
  have c6 := hc' 6 (by omega)
  have c7 := hc' 7 (by omega)
  have s2 := hs' 2 (by omega)
  have s3 := hs' 3 (by omega)
  simp at a5 a6 a7 c6 c7 s2 s3
  refine ⟨?_, ?_, ?_, ?_, ?_, ?_⟩
  · intro i hi; interval_cases i <;> simp [Rc5Command.pack]
  · intro i hi; interval_cases i <;> cases h : c.toggle <;> simp [h, Rc5Command.pack, c6, c7]
  · cases h : c.toggle <;> simp [Rc5Command.pack, a5, h]
  · intro i hi; interval_cases i <;> cases h : c.toggle <;> simp [h, Rc5Command.pack, a6, a7]
  · cases h : c.toggle <;> simp [h, Rc5Command.pack, s2]
  · cases h : c.toggle <;> simp [h, Rc5Command.pack, s3]

/-- C06 (unpack): `unpack` reads exactly the fields of the layout. -/
theorem C06_rc5_unpack_fields (w : BitVec 16) :
    (∀ i < 8, (Rc5Command.unpack w).cmd.getLsbD i = (decide (i < 6) && w.getLsbD i)) ∧
    (∀ i < 8, (Rc5Command.unpack w).addr.getLsbD i = (decide (i < 5) && w.getLsbD (6 + i))) ∧
    (∀ i < 8, (Rc5Command.unpack w).start.getLsbD i = (decide (i < 2) && w.getLsbD (12 + i))) ∧
    (Rc5Command.unpack w).toggle = w.getLsbD 11 := by
  refine ⟨?_, ?_, ?_, ?_⟩
  · intro i hi; interval_cases i <;> simp [Rc5Command.unpack]
  · intro i hi; interval_cases i <;> simp [Rc5Command.unpack]
  · intro i hi; interval_cases i <;> simp [Rc5Command.unpack]
  · simp only [Rc5Command.unpack]
    cases h : w.getLsbD 11
    · have : w &&& 0b0000100000000000#16 = 0#16 := by
        apply BitVec.eq_of_getLsbD_eq
        intro i hi
        simp at h
        interval_cases i <;> simp [h]
      rw [this]; decide
    · have : w &&& 0b0000100000000000#16 ≠ 0#16 := by
        intro hc
        have := congrArg (fun y => BitVec.getLsbD y 11) hc
        simp at this h
        simp [h] at this
      simp [this]

theorem rc5_unpack_lt (w : BitVec 16) :
    (Rc5Command.unpack w).addr.toNat < 32 ∧ (Rc5Command.unpack w).cmd.toNat < 64 ∧
      (Rc5Command.unpack w).start.toNat < 4 := by
  obtain ⟨h1, h2, h3, -⟩ := C06_rc5_unpack_fields w
  refine ⟨(toNat_lt_iff_bits _ 5).2 ?_, (toNat_lt_iff_bits _ 6).2 ?_,
    (toNat_lt_iff_bits _ 2).2 ?_⟩
  all_goals
    intro i hi
    by_cases h8 : i < 8
    · simp only [h1 i h8, h2 i h8, h3 i h8, Bool.and_eq_false_imp, decide_eq_true_eq]; omega
    · exact BitVec.getLsbD_of_ge _ _ (by omega)

/-- C06: `unpack (pack c) = c` exactly for in-range fields. -/
theorem C06_rc5_roundtrip_iff (c : Rc5Command) :
    Rc5Command.unpack c.pack = c ↔ c.addr.toNat < 32 ∧ c.cmd.toNat < 64 ∧ c.start.toNat < 4 := by
  constructor
  · intro h
    have := rc5_unpack_lt c.pack
    rwa [h] at this
  · rintro ⟨ha, hc, hs⟩
    obtain ⟨l1, l2, l3, l4, -, -⟩ := C06_rc5_pack_layout c ha hc hs
    obtain ⟨u1, u2, u3, u4⟩ := C06_rc5_unpack_fields c.pack
    have ha' := (toNat_lt_iff_bits c.addr 5).1 ha
    have hc' := (toNat_lt_iff_bits c.cmd 6).1 hc
    have hs' := (toNat_lt_iff_bits c.start 2).1 hs
    have e1 : (Rc5Command.unpack c.pack).addr = c.addr := by
      apply BitVec.eq_of_getLsbD_eq
      intro i hi
      rw [u2 i hi]
      by_cases h : i < 5
      · simp [h, l2 i h]
      · simp [h, ha' i (by omega)]
    have e2 : (Rc5Command.unpack c.pack).cmd = c.cmd := by
      apply BitVec.eq_of_getLsbD_eq
      intro i hi
      rw [u1 i hi]
      by_cases h : i < 6
      · simp [h, l1 i h]
      · simp [h, hc' i (by omega)]
    have e3 : (Rc5Command.unpack c.pack).start = c.start := by
      apply BitVec.eq_of_getLsbD_eq
      intro i hi
      rw [u3 i hi]
      by_cases h : i < 2
      · simp [h, l4 i h]
      · simp [h, hs' i (by omega)]
    have e4 : (Rc5Command.unpack c.pack).toggle = c.toggle := by rw [u4, l3]
    obtain ⟨addr, cmd, start, toggle⟩ := c
    simp only at e1 e2 e3 e4
    calc Rc5Command.unpack _ = ⟨(Rc5Command.unpack _).addr, (Rc5Command.unpack _).cmd,
          (Rc5Command.unpack _).start, (Rc5Command.unpack _).toggle⟩ := rfl
      _ = _ := by rw [e1, e2, e3, e4]

/-- C06 (converse): every 14-bit word survives unpack-then-pack. -/
theorem C06_rc5_pack_unpack (w : BitVec 16) (hw : w.toNat < 2 ^ 14) :
    (Rc5Command.unpack w).pack = w := by
  have h14 : ∀ i ≥ 14, w.getLsbD i = false := fun i hi =>
    Nat.testBit_lt_two_pow (Nat.lt_of_lt_of_le hw (Nat.pow_le_pow_right (by omega) hi))
  obtain ⟨u1, u2, u3, u4⟩ := C06_rc5_unpack_fields w
  obtain ⟨ra, rc, rs⟩ := rc5_unpack_lt w
  obtain ⟨l1, l2, l3, l4, l5, l6⟩ := C06_rc5_pack_layout _ ra rc rs
  apply BitVec.eq_of_getLsbD_eq
  intro i hi
  by_cases a : i < 6
  · rw [l1 i a, u1 i (by omega)]; simp [a]
  by_cases b : i < 11
  · have h1 := l2 (i - 6) (by omega); have h2 := u2 (i - 6) (by omega)
    rw [show 6 + (i - 6) = i by omega] at h1 h2
    have : i - 6 < 5 := by omega
    rw [h1, h2]; simp [this]
  by_cases d : i = 11
  · subst d; rw [l3, u4]
  by_cases e : i < 14
  · have h1 := l4 (i - 12) (by omega); have h2 := u3 (i - 12) (by omega)
    rw [show 12 + (i - 12) = i by omega] at h1 h2
    have : i - 12 < 2 := by omega
    rw [h1, h2]; simp [this]
  · rw [h14 i (by omega)]
    have : i = 14 ∨ i = 15 := by omega
    rcases this with rfl | rfl
    · exact l5
    · exact l6

example : (Rc5Command.new 20 9 false).pack = 0x3509#16 := by decide
-- out of range: `create` accepts address 32, but its packed word is that of another command
example : Rc5Command.unpack (Rc5Command.new 32 0 false).pack = Rc5Command.new 0 0 true := by decide

/-! ### C07 -/

/-- C07: `SbpCommand::unpack`: command is bits 4..11, `valid` iff bits 12..19 are its complement,
the address is passed through. -/
theorem C07_sbp_unpack (a : BitVec 16) (w : BitVec 32) :
    (SbpCommand.unpack a w).address = a ∧
    (∀ i < 8, (SbpCommand.unpack a w).command.getLsbD i = w.getLsbD (4 + i)) ∧
    ((SbpCommand.unpack a w).valid = true ↔ ∀ i < 8, w.getLsbD (12 + i) = !w.getLsbD (4 + i)) := by
  refine ⟨rfl, ?_, ?_⟩
  · intro i hi; interval_cases i <;> simp [SbpCommand.unpack]
  · simp only [SbpCommand.unpack, beq_iff_eq, and_ff_iff, BitVec.getLsbD_xor,
      BitVec.getLsbD_ushiftRight]
    constructor <;> intro h i hi <;> have a := h i hi <;> revert a <;>
      rw [show 4 + (8 + i) = 12 + i by omega] <;>
      cases w.getLsbD (12 + i) <;> cases w.getLsbD (4 + i) <;> simp

/-- C07: words that differ only in the four low (and the top twelve) bits unpack alike. -/
theorem C07_sbp_ignores_unknown_bits (a : BitVec 16) (w v : BitVec 32)
    (h : ∀ i, 4 ≤ i → i < 20 → w.getLsbD i = v.getLsbD i) :
    SbpCommand.unpack a w = SbpCommand.unpack a v := by
  obtain ⟨w1, w2, w3⟩ := C07_sbp_unpack a w
  obtain ⟨v1, v2, v3⟩ := C07_sbp_unpack a v
  have e2 : (SbpCommand.unpack a w).command = (SbpCommand.unpack a v).command := by
    apply BitVec.eq_of_getLsbD_eq
    intro i hi
    rw [w2 i hi, v2 i hi, h _ (by omega) (by omega)]
  have e3 : (SbpCommand.unpack a w).valid = (SbpCommand.unpack a v).valid := by
    rw [Bool.eq_iff_iff, w3, v3]
    constructor <;> intro g i hi
    · rw [← h _ (by omega) (by omega), ← h _ (by omega) (by omega)]; exact g i hi
    · rw [h _ (by omega) (by omega), h _ (by omega) (by omega)]; exact g i hi
  calc SbpCommand.unpack a w = ⟨(SbpCommand.unpack a w).address, (SbpCommand.unpack a w).command,
        (SbpCommand.unpack a w).valid⟩ := rfl
    _ = _ := by rw [w1, e2, e3]; rfl

example : SbpCommand.unpack 32 0xFD02F#32 = { address := 32, command := 2, valid := true } := by
  decide
example : (SbpCommand.unpack 32 0xFC02F#32).valid = false := by decide

/-! ### C08 -/

theorem asU8_toNat (x : Nat) : (asU8 x).toNat = x % 256 := by simp [asU8]

/-- C08 (NEC, Samsung): `create` always succeeds and truncates modulo 256. -/
theorem C08_nec_samsung_create (a c : Nat) :
    (∃ x, necAC.create a c = some x ∧ necAC.address x = a % 256 ∧ necAC.command x = c % 256 ∧
      necAC.isRepeat x = false) ∧
    (∃ x, samsungAC.create a c = some x ∧ samsungAC.address x = a % 256 ∧
      samsungAC.command x = c % 256 ∧ samsungAC.isRepeat x = false) :=
  ⟨⟨_, rfl, asU8_toNat a, asU8_toNat c, rfl⟩, ⟨_, rfl, asU8_toNat a, asU8_toNat c, rfl⟩⟩

/-- C08 (RC5): `create` succeeds exactly if both fit a byte, and then they are read back. -/
theorem C08_rc5_create (a c : Nat) :
    ((rc5AC.create a c).isSome = true ↔ a < 256 ∧ c < 256) ∧
    ∀ x, rc5AC.create a c = some x →
      rc5AC.address x = a ∧ rc5AC.command x = c ∧ rc5AC.isRepeat x = false := by
  simp only [rc5AC, tryU8]
  by_cases ha : a < 256 <;> by_cases hc : c < 256 <;> simp [ha, hc]
  simp [Rc5Command.new]; omega

/-- C08 (RC6). -/
theorem C08_rc6_create (a c : Nat) :
    ((rc6AC.create a c).isSome = true ↔ a < 256 ∧ c < 256) ∧
    ∀ x, rc6AC.create a c = some x →
      rc6AC.address x = a ∧ rc6AC.command x = c ∧ rc6AC.isRepeat x = false := by
  simp only [rc6AC, tryU8]
  by_cases ha : a < 256 <;> by_cases hc : c < 256 <;> simp [ha, hc]
  simp [Rc6Command.new]; omega

/-- C08 (SBP). -/
theorem C08_sbp_create (a c : Nat) :
    ((sbpAC.create a c).isSome = true ↔ a < 65536 ∧ c < 256) ∧
    ∀ x, sbpAC.create a c = some x →
      sbpAC.address x = a ∧ sbpAC.command x = c ∧ sbpAC.isRepeat x = false ∧ x.valid = true := by
  simp only [sbpAC, tryU8, tryU16]
  by_cases ha : a < 65536 <;> by_cases hc : c < 256 <;> simp [ha, hc]

/-- C08 (Apple): `create` never succeeds. -/
theorem C08_apple_create (a c : Nat) : appleAC.create a c = none := rfl

example : rc5AC.create 20 9 = some (Rc5Command.new 20 9 false) := by decide
example : rc5AC.create 300 9 = none := by decide
example : sbpAC.create 300 9 = some { address := 300, command := 9, valid := true } := by decide

/-! ### C09 -/

/-- C09: byte round trip, injectivity and the `Unknown` catch-all. -/
theorem C09_protocol_id (id id' : ProtocolId) (u : BitVec 8) :
    ProtocolId.ofByte id.toByte = id ∧
    (id.toByte = id'.toByte → id = id') ∧
    (ProtocolId.ofByte u = .unknown ↔ u.toNat = 0 ∨ 8 < u.toNat) ∧
    (1 ≤ u.toNat → u.toNat ≤ 8 → (ProtocolId.ofByte u).toByte = u) := by
  have hrt : ∀ id : ProtocolId, ProtocolId.ofByte id.toByte = id := by
    intro id; cases id <;> decide
  refine ⟨hrt id, fun h => by rw [← hrt id, h, hrt id'], ?_, ?_⟩
  · have : ∀ k : Fin 256, (ProtocolId.ofByte (BitVec.ofFin k) = .unknown ↔ k.val = 0 ∨ 8 < k.val) := by
      decide +kernel
    exact this u.toFin
  · have : ∀ k : Fin 256, 1 ≤ k.val → k.val ≤ 8 →
        (ProtocolId.ofByte (BitVec.ofFin k)).toByte = BitVec.ofFin k := by
      decide +kernel
    exact this u.toFin

example : ProtocolId.ofByte 6 = .rc6 ∧ ProtocolId.ofByte 9 = .unknown := by decide

/-! ### C10 -/

/-- C10: the conversion keeps id, address, command and repeat of any `AddressCommand`, and
Denon words go into `raw`. -/
theorem C10_any_fields {C : Type} (ac : AddressCommand C) (c : C) (d : DenonCommand) :
    (AnyCommand.from ac c).protocol = ac.id ∧ (AnyCommand.from ac c).address = ac.address c ∧
    (AnyCommand.from ac c).command = ac.command c ∧ (AnyCommand.from ac c).rep = ac.isRepeat c ∧
    (AnyCommand.fromDenon d).protocol = .denon ∧ (AnyCommand.fromDenon d).raw = d.bits.toNat ∧
    (AnyCommand.fromDenon d).rep = false :=
  ⟨rfl, rfl, rfl, rfl, rfl, rfl, rfl⟩

/-- C10 (NEC, Samsung, RC6): different commands convert to different `AnyCommand`s. -/
theorem C10_any_injective_nec_samsung_rc6 :
    (∀ c d : NecCommand, AnyCommand.from necAC c = AnyCommand.from necAC d → c = d) ∧
    (∀ c d : SamsungNecCommand, AnyCommand.from samsungAC c = AnyCommand.from samsungAC d → c = d) ∧
    (∀ c d : Rc6Command, AnyCommand.from rc6AC c = AnyCommand.from rc6AC d → c = d) ∧
    (∀ c d : DenonCommand, AnyCommand.fromDenon c = AnyCommand.fromDenon d → c = d) := by
  refine ⟨?_, ?_, ?_, ?_⟩
  · rintro ⟨a, c, r⟩ ⟨a', c', r'⟩ h
    simpa [AnyCommand.from, necAC, BitVec.toNat_inj] using h
  · rintro ⟨a, c, r⟩ ⟨a', c', r'⟩ h
    simpa [AnyCommand.from, samsungAC, BitVec.toNat_inj] using h
  · rintro ⟨a, c, r⟩ ⟨a', c', r'⟩ h
    simpa [AnyCommand.from, rc6AC, BitVec.toNat_inj] using h
  · rintro ⟨b⟩ ⟨b'⟩ h
    simpa [AnyCommand.fromDenon, BitVec.toNat_inj] using h

/-- C10 (RC5, SBP): address, command (and toggle) are determined by the `AnyCommand`; the RC5
start bits and the SBP `valid` flag are not part of it. -/
theorem C10_any_injective_rc5_sbp :
    (∀ c d : Rc5Command, AnyCommand.from rc5AC c = AnyCommand.from rc5AC d →
      c.addr = d.addr ∧ c.cmd = d.cmd ∧ c.toggle = d.toggle) ∧
    (∀ c d : SbpCommand, AnyCommand.from sbpAC c = AnyCommand.from sbpAC d →
      c.address = d.address ∧ c.command = d.command) := by
  constructor
  · rintro ⟨a, c, s, r⟩ ⟨a', c', s', r'⟩ h
    simpa [AnyCommand.from, rc5AC, BitVec.toNat_inj] using h
  · rintro ⟨a, c, r⟩ ⟨a', c', r'⟩ h
    simpa [AnyCommand.from, sbpAC, BitVec.toNat_inj] using h

/-- C10 (Apple, refutation): two words accepted by the decoder with different command pages
convert to the same `AnyCommand`. -/
theorem C10_apple_not_injective :
    ∃ w v : BitVec 32, ∃ c d : AppleNecCommand,
      AppleNecCommand.unpack w false = some c ∧ AppleNecCommand.unpack v false = some d ∧
      c.commandPage ≠ d.commandPage ∧ AnyCommand.from appleAC c = AnyCommand.from appleAC d := by
  refine ⟨0x9B0687EE#32, 0x9B0787E0#32, ⟨0x0E, 3, 0x9B, false⟩, ⟨0, 3, 0x9B, false⟩, ?_, ?_, ?_, ?_⟩
  all_goals decide +kernel

end Infrared
