import Verif.Props.Buffers

/-!
# Commands made with `AddressCommand::create` (C62)
-/

namespace Infrared

open Spec

section
variable (t : Target) (m : Mono) (hm : m = Mono.u32 ∨ m = Mono.u64) (S : Nat)
  (before : List PulseCall) (hk : ∀ enc, .load enc ∈ before → KeepsLength enc) (s : PulsedataSender)
  (hs : (PulsedataSender.new S).calls before = some s) (ts : List Nat)
include hm hk hs

/-- What happens to a NEC command made with `create(a, c)`: it is received with both values modulo
256. -/
theorem C62_nec_truncates (f : Nat) (hlo : 14000 ≤ f) (hhi : f ≤ 477218999) (hS : 67 ≤ S) (a c : Nat) :
    ∃ x data buf, necAC.create a c = some x ∧ necData nec.pulseDistance f = some data ∧
      Prepares s (necEncode nec data x) ts buf ∧
      (BufferInputReceiver.withFrequency f).collect (necBuild t m nec) (AnyCommand.from necAC) buf =
        some [{ protocol := .nec, raw := 0, address := a % 256, command := c % 256, rep := false }] := by
  obtain ⟨data, buf, h1, h2, h3⟩ := C61_transfer_nec t m hm S before hk s hs ts f hlo hhi hS
    (AnyCommand.from necAC) { addr := asU8 a, cmd := asU8 c, rep := false }
  refine ⟨_, data, buf, rfl, h1, h2, h3.trans ?_⟩
  simp only [AnyCommand.from, necAC, asU8_toNat]

/-- What happens to a Samsung command made with `create(a, c)`. -/
theorem C62_samsung_truncates (f : Nat) (hlo : 14000 ≤ f) (hhi : f ≤ 954437999) (hS : 67 ≤ S)
    (a c : Nat) :
    ∃ x data buf, samsungAC.create a c = some x ∧ necData samsungNec.pulseDistance f = some data ∧
      Prepares s (necEncode samsungNec data x) ts buf ∧
      (BufferInputReceiver.withFrequency f).collect (necBuild t m samsungNec) (AnyCommand.from samsungAC)
          buf =
        some [{ protocol := .necSamsung, raw := 0, address := a % 256, command := c % 256, rep := false }] := by
  obtain ⟨data, buf, h1, h2, h3⟩ := C61_transfer_samsung t m hm S before hk s hs ts f hlo hhi hS
    (AnyCommand.from samsungAC) { addr := asU8 a, cmd := asU8 c, rep := false }
  refine ⟨_, data, buf, rfl, h1, h2, h3.trans ?_⟩
  simp only [AnyCommand.from, samsungAC, asU8_toNat]

/-- **C62** for NEC and Samsung: intact if both values are bytes.  Missing from the full claim: larger
values, for which `create` should fail but does not (`C62_refuted`). -/
theorem C62_nec_samsung_arrive_partial (f : Nat) (hlo : 14000 ≤ f) (hhi : f ≤ 477218999) (hS : 67 ≤ S)
    (a c : Nat) (ha : a < 256) (hc : c < 256) :
    (∃ x data buf, necAC.create a c = some x ∧ necData nec.pulseDistance f = some data ∧
      Prepares s (necEncode nec data x) ts buf ∧
      (BufferInputReceiver.withFrequency f).collect (necBuild t m nec) (AnyCommand.from necAC) buf =
        some [{ protocol := .nec, raw := 0, address := a, command := c, rep := false }]) ∧
    (∃ x data buf, samsungAC.create a c = some x ∧ necData samsungNec.pulseDistance f = some data ∧
      Prepares s (necEncode samsungNec data x) ts buf ∧
      (BufferInputReceiver.withFrequency f).collect (necBuild t m samsungNec) (AnyCommand.from samsungAC)
          buf =
        some [{ protocol := .necSamsung, raw := 0, address := a, command := c, rep := false }]) := by
  have h1 := C62_nec_truncates t m hm S before hk s hs ts f hlo hhi hS a c
  have h2 := C62_samsung_truncates t m hm S before hk s hs ts f hlo (by omega) hS a c
  rw [Nat.mod_eq_of_lt ha, Nat.mod_eq_of_lt hc] at h1 h2
  exact ⟨h1, h2⟩

/-- **C62** for RC6: every created command arrives intact. -/
theorem C62_rc6_arrives (hus : 16 ≤ t.usizeBits) (f : Nat) (hlo : 27028 ≤ f) (hhi : f ≤ 9673349)
    (hS : 44 ≤ S) (a c : Nat) (x : Rc6Command) (hx : rc6AC.create a c = some x) :
    ∃ len buf, rc6Data f = some len ∧ Prepares s (rc6Encode len x) ts buf ∧
      (BufferInputReceiver.withFrequency f).collect (rc6Build t m) (AnyCommand.from rc6AC) buf =
        some [{ protocol := .rc6, raw := 0, address := a, command := c, rep := false }] := by
  obtain ⟨len, buf, h1, h2, h3⟩ := C61_transfer_rc6 t m hm S before hk s hs ts hus f hlo hhi hS
    (AnyCommand.from rc6AC) x
  obtain ⟨e1, e2, e3⟩ := (C08_rc6_create a c).2 x hx
  refine ⟨len, buf, h1, h2, h3.trans ?_⟩
  simp only [AnyCommand.from, e1, e2, e3]
  rfl

end

/-- The fields of the command that is received when an RC5 command with any bytes is sent. -/
theorem rc5_received_any (a c : BitVec 8) :
    Rc5Command.unpack ((rc5Word (Rc5Command.new a c false).pack).setWidth 16) =
      { addr := (a &&& 0x1F#8) ||| (c >>> 6), cmd := c &&& 0x3F#8, start := 3,
        toggle := a.getLsbD 5 } := by
  have hb : ∀ i, i < 14 → ((rc5Word (Rc5Command.new a c false).pack).setWidth 16).getLsbD i =
      ((decide (6 ≤ i) && a.getLsbD (i - 6)) || c.getLsbD i || decide (12 ≤ i)) := by
    intro i hi
    rw [BitVec.getLsbD_setWidth, rc5Word_bits _ _ hi]
    have h3 : ∀ i (h : i < 16), i < 12 → (12288#16)[i] = false := by decide
    by_cases h : 12 ≤ i
    · obtain rfl | rfl : i = 12 ∨ i = 13 := by omega
      · simp [Rc5Command.pack, Rc5Command.new]
      · simp
    · have h6 : ¬ i = 13 := by omega
      have h16 : i < 16 := by omega
      have h12 := h3 i h16 (by omega)
      simp [Rc5Command.pack, Rc5Command.new, h, h6, h16]
      by_cases h7 : i < 6
      · simp [h7, Nat.not_le.mpr h7, h12]
      · simp [h7, Nat.not_lt.mp h7, h12]
  obtain ⟨u1, u2, u3, u4⟩ := C06_rc5_unpack_fields
    ((rc5Word (Rc5Command.new a c false).pack).setWidth 16)
  have mask : ∀ (k : BitVec 8) (n : Nat), (∀ i < 8, k.getLsbD i = decide (i < n)) → ∀ (x : BitVec 8) i,
      i < 8 → (x &&& k).getLsbD i = (decide (i < n) && x.getLsbD i) := by
    intro k n hk x i hi
    rw [BitVec.getLsbD_and, hk i hi, Bool.and_comm]
  have e1 : (Rc5Command.unpack ((rc5Word (Rc5Command.new a c false).pack).setWidth 16)).addr =
      (a &&& 0x1F#8) ||| (c >>> 6) := by
    apply BitVec.eq_of_getLsbD_eq
    intro i hi
    rw [u2 i hi, BitVec.getLsbD_or, mask _ 5 (by decide) _ _ hi, BitVec.getLsbD_ushiftRight]
    by_cases h : i < 5
    · rw [hb _ (by omega)]
      have e : 6 + i - 6 = i := by omega
      simp [h, e]
      omega
    · rw [BitVec.getLsbD_of_ge c _ (by omega)]
      simp [h]
  have e2 : (Rc5Command.unpack ((rc5Word (Rc5Command.new a c false).pack).setWidth 16)).cmd =
      c &&& 0x3F#8 := by
    apply BitVec.eq_of_getLsbD_eq
    intro i hi
    rw [u1 i hi, mask _ 6 (by decide) _ _ hi]
    by_cases h : i < 6
    · rw [hb _ (by omega)]
      simp [h, show ¬ 6 ≤ i by omega, show ¬ 12 ≤ i by omega]
    · simp [h]
  have e3 : (Rc5Command.unpack ((rc5Word (Rc5Command.new a c false).pack).setWidth 16)).start = 3 := by
    apply BitVec.eq_of_getLsbD_eq
    intro i hi
    rw [u3 i hi]
    by_cases h : i < 2
    · rw [hb _ (by omega)]
      obtain rfl | rfl : i = 0 ∨ i = 1 := by omega
      · simp
      · simp
    · have : ∀ i < 8, ¬ i < 2 → (3#8).getLsbD i = false := by decide
      simp [h]
      exact this i hi h
  have e4 : (Rc5Command.unpack ((rc5Word (Rc5Command.new a c false).pack).setWidth 16)).toggle =
      a.getLsbD 5 := by
    rw [u4, hb _ (by decide), BitVec.getLsbD_of_ge c _ (by decide)]
    simp
  calc Rc5Command.unpack _ = ⟨(Rc5Command.unpack _).addr, (Rc5Command.unpack _).cmd,
          (Rc5Command.unpack _).start, (Rc5Command.unpack _).toggle⟩ := rfl
      _ = _ := by rw [e1, e2, e3, e4]

section
variable (t : Target) (m : Mono) (hm : m = Mono.u32 ∨ m = Mono.u64) (S : Nat)
  (before : List PulseCall) (hk : ∀ enc, .load enc ∈ before → KeepsLength enc) (s : PulsedataSender)
  (hs : (PulsedataSender.new S).calls before = some s) (ts : List Nat)
include hm hk hs

/-- What happens to an RC5 command made with `create(a, c)`: the two upper bits of the command are
mixed into the address, and bit 5 of the address becomes the toggle bit. -/
theorem C62_rc5_mixes (hus : 16 ≤ t.usizeBits) (f : Nat) (hlo : 13000 ≤ f) (hf : f < 2 ^ 32)
    (hS : 27 ≤ S) (a c : Nat) (x : Rc5Command) (hx : rc5AC.create a c = some x) :
    ∃ len buf, rc5CalcFreq f = some len ∧ Prepares s (rc5Encode t len x) ts buf ∧
      (BufferInputReceiver.withFrequency f).collect (rc5Build t m) (AnyCommand.from rc5AC) buf =
        some [{ protocol := .rc5, raw := 0, address := a % 32 ||| c / 64, command := c % 64,
                rep := a.testBit 5 }] := by
  obtain ⟨ha, hc⟩ := (C08_rc5_create a c).1.mp (by rw [hx]; rfl)
  obtain rfl : Rc5Command.new (BitVec.ofNat 8 a) (BitVec.ofNat 8 c) false = x := by
    simp only [rc5AC, tryU8, if_pos ha, if_pos hc, Option.bind_eq_bind, Option.bind_some,
      Option.some.injEq] at hx
    exact hx
  generalize hx' : Rc5Command.new (BitVec.ofNat 8 a) (BitVec.ofNat 8 c) false = x at hx
  obtain ⟨len, hlen, -, henc⟩ := C38_rc5_encode t f hf
  obtain ⟨hw, h14, h27⟩ := henc x
  have e := (rc5CalcFreq_eq hf hlen).2 (by omega)
  obtain ⟨r', hr, -⟩ := rc5_wave_received t hus f hlo (AnyCommand.from rc5AC) x 0
  rw [← e] at hr
  have h13 : (rc5Word x.pack).getLsbD 13 = true := by
    rw [rc5Word_bits _ _ (by decide)]; simp
  have hres : results (rc5Decoder t (rc5Table f)) (AnyCommand.from rc5AC)
      (alternating true (rc5Wave len (rc5Word x.pack))) = some (List.replicate
        ((rc5Wave len (rc5Word x.pack)).length - 1) (.ok none) ++
          [.ok (some (AnyCommand.from rc5AC (Rc5Command.unpack ((rc5Word x.pack).setWidth 16))))]) := by
    unfold results
    rw [rc5Wave_cons _ _ h13] at hr ⊢
    simp only [alternating]
    simp only [List.tail_cons] at hr
    exact congrArg (Option.map Prod.snd) hr
  refine ⟨len, _, hlen, prepares_of hk hs hw (by omega) ts, ?_⟩
  simp only [BufferInputReceiver.collect, BufferInputReceiver.withFrequency, rc5Build, rc5Spans_eq hm t hf,
    Option.map_some, Option.bind_some]
  rw [C33_buffer_rc5 t hus _ (by simp [rc5Table]) _ _ _ hres, ← hx', rc5_received_any]
  have hA : (BitVec.ofNat 8 a).toNat = a := by rw [BitVec.toNat_ofNat]; exact Nat.mod_eq_of_lt ha
  have hC : (BitVec.ofNat 8 c).toNat = c := by rw [BitVec.toNat_ofNat]; exact Nat.mod_eq_of_lt hc
  generalize BitVec.ofNat 8 a = A at hA
  generalize BitVec.ofNat 8 c = B at hC
  subst hA hC
  have ea : (A &&& 0x1F#8 ||| B >>> 6).toNat = A.toNat % 32 ||| B.toNat / 64 := by
    rw [BitVec.toNat_or, BitVec.toNat_and, BitVec.toNat_ushiftRight, Nat.shiftRight_eq_div_pow]
    exact congrArg (· ||| B.toNat / 64) (Nat.and_two_pow_sub_one_eq_mod A.toNat 5)
  have ec : (B &&& 0x3F#8).toNat = B.toNat % 64 := by
    rw [BitVec.toNat_and]
    exact Nat.and_two_pow_sub_one_eq_mod B.toNat 6
  simp only [AnyCommand.from, rc5AC, ea, ec, commands]
  rw [List.filterMap_append, List.filterMap_replicate_of_none rfl, List.nil_append]
  rfl

/-- **C62** for RC5: a created command arrives intact exactly if its address is below 32 and its command
below 64.  Missing from the full claim: larger values, which `create` should refuse but does not
(`C62_refuted`). -/
theorem C62_rc5_arrives_partial (hus : 16 ≤ t.usizeBits) (f : Nat) (hlo : 13000 ≤ f) (hf : f < 2 ^ 32)
    (hS : 27 ≤ S) (a c : Nat) (x : Rc5Command) (hx : rc5AC.create a c = some x) :
    ∃ len buf got, rc5CalcFreq f = some len ∧ Prepares s (rc5Encode t len x) ts buf ∧
      (BufferInputReceiver.withFrequency f).collect (rc5Build t m) (AnyCommand.from rc5AC) buf =
        some [got] ∧
      (got = { protocol := .rc5, raw := 0, address := a, command := c, rep := false } ↔
        a < 32 ∧ c < 64) := by
  obtain ⟨len, buf, h1, h2, h3⟩ := C62_rc5_mixes t m hm S before hk s hs ts hus f hlo hf hS a c x hx
  refine ⟨len, buf, _, h1, h2, h3, ?_⟩
  constructor
  · intro h
    simp only [AnyCommand.mk.injEq, true_and] at h
    obtain ⟨e1, e2, -⟩ := h
    have hc : c < 64 := by omega
    rw [Nat.div_eq_of_lt hc, Nat.or_zero] at e1
    exact ⟨by omega, hc⟩
  · rintro ⟨ha, hc⟩
    rw [Nat.div_eq_of_lt hc, Nat.mod_eq_of_lt hc, Nat.mod_eq_of_lt ha, Nat.or_zero,
      Nat.testBit_lt_two_pow ha]

end

/-- **C62** is false in general: `create` accepts address 256 for NEC and Samsung, which then send
address 0; and it accepts command 64 and address 32 for RC5, which arrive as address 1 and as a held
key. -/
theorem C62_refuted (t : Target) (hus : 16 ≤ t.usizeBits) :
    (∃ x data buf, necAC.create 256 9 = some x ∧ necData nec.pulseDistance 38000 = some data ∧
      Prepares (PulsedataSender.new 96) (necEncode nec data x) [] buf ∧
      (BufferInputReceiver.withFrequency 38000).collect (necBuild t Mono.u32 nec) (AnyCommand.from necAC)
          buf = some [{ protocol := .nec, raw := 0, address := 0, command := 9, rep := false }]) ∧
    (∃ x len buf, rc5AC.create 0 64 = some x ∧ rc5CalcFreq 38000 = some len ∧
      Prepares (PulsedataSender.new 96) (rc5Encode t len x) [] buf ∧
      (BufferInputReceiver.withFrequency 38000).collect (rc5Build t Mono.u32) (AnyCommand.from rc5AC)
          buf = some [{ protocol := .rc5, raw := 0, address := 1, command := 0, rep := false }]) ∧
    (∃ x len buf, rc5AC.create 32 5 = some x ∧ rc5CalcFreq 38000 = some len ∧
      Prepares (PulsedataSender.new 96) (rc5Encode t len x) [] buf ∧
      (BufferInputReceiver.withFrequency 38000).collect (rc5Build t Mono.u32) (AnyCommand.from rc5AC)
          buf = some [{ protocol := .rc5, raw := 0, address := 0, command := 5, rep := true }]) := by
  refine ⟨C62_nec_truncates t Mono.u32 (.inl rfl) 96 [] (fun _ h => by simp at h) _ rfl [] 38000 (by decide)
    (by decide) (by decide) 256 9, ?_, ?_⟩
  · obtain ⟨len, buf, h1, h2, h3⟩ := C62_rc5_mixes t Mono.u32 (.inl rfl) 96 []
      (fun _ h => by simp at h) _ rfl [] hus 38000 (by decide) (by decide) (by decide) 0 64 _ rfl
    exact ⟨_, len, buf, rfl, h1, h2, h3⟩
  · obtain ⟨len, buf, h1, h2, h3⟩ := C62_rc5_mixes t Mono.u32 (.inl rfl) 96 []
      (fun _ h => by simp at h) _ rfl [] hus 38000 (by decide) (by decide) (by decide) 32 5 _ rfl
    exact ⟨_, len, buf, rfl, h1, h2, h3⟩

/-- Non-vacuity: RC6 address 70, command 2, at 1 MHz from a new sender. -/
example (t : Target) (hus : 16 ≤ t.usizeBits) : ∃ len buf, rc6Data 1000000 = some len ∧
    Prepares (PulsedataSender.new 96) (rc6Encode len (Rc6Command.new 70 2)) [0, 5] buf ∧
    (BufferInputReceiver.withFrequency 1000000).collect (rc6Build t Mono.u32) (AnyCommand.from rc6AC) buf =
      some [{ protocol := .rc6, raw := 0, address := 70, command := 2, rep := false }] :=
  C62_rc6_arrives t Mono.u32 (.inl rfl) 96 [] (fun _ h => by simp at h) _ rfl [0, 5] hus 1000000 (by decide)
    (by decide) (by decide) 70 2 _ rfl

end Infrared
