import Verif.Props.Words

/-!
# What the generic command keeps of an Apple command (C10)

`C10_apple_not_injective` (Props/Words.lean) exhibits two Apple commands with the same
`AnyCommand`.  This file says exactly which Apple commands collide.
-/

namespace Infrared

/-- Shifting the page into the top bit: the byte determines the low bit of the page and the seven
bits of the command, and nothing else. -/
theorem apple_byte (p q c d : BitVec 8) (hc : c.getLsbD 7 = false) (hd : d.getLsbD 7 = false) :
    (p <<< 7 ||| c = q <<< 7 ||| d) ↔ (p.getLsbD 0 = q.getLsbD 0 ∧ c = d) := by
  constructor
  · intro h
    have hb : ∀ i, i < 8 → (p <<< 7 ||| c).getLsbD i = (q <<< 7 ||| d).getLsbD i := fun i _ => by rw [h]
    refine ⟨?_, ?_⟩
    · have := hb 7 (by decide)
      simp only [BitVec.getLsbD_or, hc, hd, Bool.or_false, BitVec.getLsbD_shiftLeft] at this
      simpa using this
    · apply BitVec.eq_of_getLsbD_eq
      intro i hi
      by_cases h7 : i = 7
      · rw [h7, hc, hd]
      · have hlt : i < 7 := by omega
        have := hb i hi
        simpa [hlt, hi] using this
  · rintro ⟨h, rfl⟩
    apply BitVec.eq_of_getLsbD_eq
    intro i hi
    by_cases h7 : i < 7
    · simp [h7, hi]
    · have : i = 7 := by omega
      subst this
      simp only [BitVec.getLsbD_or, BitVec.getLsbD_shiftLeft, Nat.sub_self, h]

/-- C10 (Apple, exact): what an `AnyCommand` keeps of a decoded Apple command is the seven-bit
command, the low bit of the command page and the repeat flag: two decoded commands convert to the
same `AnyCommand` iff these agree.  The device id and the rest of the page are lost. -/
theorem C10_apple_iff (w v : BitVec 32) (r s : Bool) (c d : AppleNecCommand)
    (hc : AppleNecCommand.unpack w r = some c) (hd : AppleNecCommand.unpack v s = some d) :
    AnyCommand.from appleAC c = AnyCommand.from appleAC d ↔
      c.command = d.command ∧ c.commandPage.getLsbD 0 = d.commandPage.getLsbD 0 ∧ c.rep = d.rep := by
  have top : ∀ (w : BitVec 32) (r : Bool) (c : AppleNecCommand), AppleNecCommand.unpack w r = some c →
      c.command.getLsbD 7 = false := by
    intro w r c h
    unfold AppleNecCommand.unpack at h
    split at h
    · exact absurd h (by simp)
    · simp only [Option.some.injEq] at h
      rw [← h]
      simp
  have := apple_byte c.commandPage d.commandPage c.command d.command (top w r c hc) (top v s d hd)
  simp only [AnyCommand.from, appleAC, AnyCommand.mk.injEq, true_and, BitVec.toNat_inj, this]
  constructor
  · rintro ⟨⟨h1, h2⟩, h3⟩; exact ⟨h2, h1, h3⟩
  · rintro ⟨h2, h1, h3⟩; exact ⟨⟨h1, h2⟩, h3⟩

/-- Two decoded commands that differ in the device id only (and so the pairing of the remote) are
the same `AnyCommand`; two that differ in the command are not. -/
example :
    ∃ c d e : AppleNecCommand,
      AppleNecCommand.unpack 0x9B0687EE#32 false = some c ∧
      AppleNecCommand.unpack 0xD90687EE#32 false = some d ∧
      AppleNecCommand.unpack 0x9B0587EE#32 false = some e ∧
      c.deviceId ≠ d.deviceId ∧ AnyCommand.from appleAC c = AnyCommand.from appleAC d ∧
      AnyCommand.from appleAC c ≠ AnyCommand.from appleAC e := by
  refine ⟨⟨0x0E, 3, 0x9B, false⟩, ⟨0x0E, 3, 0xD9, false⟩, ⟨0x0E, 2, 0x9B, false⟩, ?_, ?_, ?_, ?_, ?_, ?_⟩
  all_goals decide +kernel

/-- What any command converts to: its protocol, and the numbers of its own fields. -/
inductive ConvertsTo : AnyCommand → ProtocolId → Nat → Nat → Bool → Prop where
  | nec (c : NecCommand) : ConvertsTo (.from necAC c) .nec c.addr.toNat c.cmd.toNat c.rep
  | samsung (c : SamsungNecCommand) : ConvertsTo (.from samsungAC c) .necSamsung c.addr.toNat c.cmd.toNat c.rep
  | rc5 (c : Rc5Command) : ConvertsTo (.from rc5AC c) .rc5 c.addr.toNat c.cmd.toNat c.toggle
  | rc6 (c : Rc6Command) : ConvertsTo (.from rc6AC c) .rc6 c.addr.toNat c.cmd.toNat c.toggle
  | sbp (c : SbpCommand) : ConvertsTo (.from sbpAC c) .sbp c.address.toNat c.command.toNat false
  | apple (c : AppleNecCommand) :
    ConvertsTo (.from appleAC c) .necApple 0 ((c.commandPage.toNat * 128 % 256) ||| c.command.toNat) c.rep
  | denon (c : DenonCommand) : ConvertsTo (.fromDenon c) .denon 0 0 false

/-- **C10**: an `AnyCommand` names the protocol its command came from and holds the numbers of that command's fields, so
commands of two protocols never convert to the same one. -/
theorem C10_any_tells_protocols (a : AnyCommand) (p : ProtocolId) (addr cmd : Nat) (rep : Bool)
    (h : ConvertsTo a p addr cmd rep) :
    (a.protocol = p ∧ a.address = addr ∧ a.command = cmd ∧ a.rep = rep) ∧
    ∀ (b : AnyCommand) (q : ProtocolId) (addr' cmd' : Nat) (rep' : Bool),
      ConvertsTo b q addr' cmd' rep' → p ≠ q → a ≠ b := by
  have key : ∀ (a : AnyCommand) (p : ProtocolId) (addr cmd : Nat) (rep : Bool), ConvertsTo a p addr cmd rep →
      a.protocol = p ∧ a.address = addr ∧ a.command = cmd ∧ a.rep = rep := by
    intro a p addr cmd rep h
    cases h <;> refine ⟨rfl, rfl, ?_, rfl⟩ <;> try rfl
    rename_i c
    show ((c.commandPage <<< 7) ||| c.command).toNat = _
    rw [BitVec.toNat_or, BitVec.toNat_shiftLeft, Nat.shiftLeft_eq]
  refine ⟨key _ _ _ _ _ h, fun b q addr' cmd' rep' hb hne hab => hne ?_⟩
  rw [← (key _ _ _ _ _ h).1, ← (key _ _ _ _ _ hb).1, hab]

example : ConvertsTo (.from rc5AC ⟨20, 9, 2, true⟩) .rc5 20 9 true := .rc5 _

end Infrared
