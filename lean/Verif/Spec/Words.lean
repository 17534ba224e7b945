/-!
# Bit layouts of the command words, written independently of `pack`/`unpack`

Bit `i` of a word is `w.getLsbD i`; bit 0 is sent first.
-/

namespace Infrared.Spec

/-- Standard NEC: address, inverted address, command, inverted command, one byte each. -/
def IsNecWord (w : BitVec 32) (addr cmd : BitVec 8) : Prop :=
  ∀ i < 8, w.getLsbD i = addr.getLsbD i ∧ w.getLsbD (8 + i) = !addr.getLsbD i ∧
    w.getLsbD (16 + i) = cmd.getLsbD i ∧ w.getLsbD (24 + i) = !cmd.getLsbD i

/-- Samsung: address twice, command, inverted command. -/
def IsSamsungWord (w : BitVec 32) (addr cmd : BitVec 8) : Prop :=
  ∀ i < 8, w.getLsbD i = addr.getLsbD i ∧ w.getLsbD (8 + i) = addr.getLsbD i ∧
    w.getLsbD (16 + i) = cmd.getLsbD i ∧ w.getLsbD (24 + i) = !cmd.getLsbD i

/-- NEC with 16 bit address: two address bytes, command, inverted command. -/
def IsNec16Word (w : BitVec 32) (addr : BitVec 16) (cmd : BitVec 8) : Prop :=
  (∀ i < 16, w.getLsbD i = addr.getLsbD i) ∧
    ∀ i < 8, w.getLsbD (16 + i) = cmd.getLsbD i ∧ w.getLsbD (24 + i) = !cmd.getLsbD i

/-- Apple: bits 5..15 spell the vendor id 0x43F. -/
def HasAppleVendor (w : BitVec 32) : Prop :=
  ∀ i < 11, w.getLsbD (5 + i) = (0x43F#11).getLsbD i

/-- Parity of the set bits among the lowest `n`, computed bit by bit. -/
def parity (w : BitVec 32) : Nat → Bool
  | 0 => false
  | n + 1 => xor (w.getLsbD n) (parity w n)

/-- Apple: page in bits 0..4, command in bits 17..23, device in bits 24..31. -/
def AppleFields (w : BitVec 32) (page cmd dev : BitVec 8) : Prop :=
  (∀ i < 8, page.getLsbD i = (decide (i < 5) && w.getLsbD i)) ∧
  (∀ i < 8, cmd.getLsbD i = (decide (i < 7) && w.getLsbD (17 + i))) ∧
  (∀ i < 8, dev.getLsbD i = w.getLsbD (24 + i))

/-- RC5: command in bits 0..5, address in bits 6..10, toggle bit 11, start bits 12..13. -/
def IsRc5Word (w : BitVec 16) (addr cmd start : BitVec 8) (toggle : Bool) : Prop :=
  (∀ i < 6, w.getLsbD i = cmd.getLsbD i) ∧ (∀ i < 5, w.getLsbD (6 + i) = addr.getLsbD i) ∧
  w.getLsbD 11 = toggle ∧ (∀ i < 2, w.getLsbD (12 + i) = start.getLsbD i) ∧
  w.getLsbD 14 = false ∧ w.getLsbD 15 = false

end Infrared.Spec
