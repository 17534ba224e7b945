import Verif.Props.Buffers

/-!
# Reading the whole array of a sender's buffer (C75)

The crate's tests `all_commands` reset a buffer, load a command and read the whole array, of which the end still holds
what was loaded before.
-/

namespace Infrared

open Spec

variable {C K : Type}

/-- The first report about a buffer depends only on the entries up to it. -/
theorem next_prefix (D : Decoder C) (hD : D.Commits) (conv : C → K) (pre rest : List Nat) (k : Nat) (r : Res C)
    (hr : r ≠ .ok none) (o : List (Res C)) (s' : D.St) (pos : Nat) (d : D.St)
    (h : runStep D.step d (alternating (decide (pos % 2 = 0)) (pre.drop pos)) =
      some (s', List.replicate k (.ok none) ++ r :: o)) :
    ∃ it, BufferIterator.next D conv { pos, buf := pre ++ rest, decoder := d } = some (it, reportOf conv r) := by
  induction k generalizing pos d with
  | zero =>
    have hlt : pos < pre.length := by
      rcases Nat.lt_or_ge pos pre.length with hlt | hge
      · exact hlt
      · rw [List.drop_eq_nil_of_le hge] at h
        simp [alternating, runStep] at h
    rw [alternating_drop _ _ _ hlt rfl] at h
    obtain ⟨s1, r1, o1, h1, h2, h3⟩ := run_cons_inv h
    simp only [List.replicate_zero, List.nil_append, List.cons.injEq] at h3
    obtain ⟨rfl, rfl⟩ := h3
    simp only [Decoder.step] at h1
    rw [next_step D hD conv _ (by simp only [List.length_append]; omega)]
    simp only [List.getElem_append_left hlt, h1]
    rcases r with e | _ | c
    · exact ⟨_, rfl⟩
    · exact absurd rfl hr
    · exact ⟨_, rfl⟩
  | succ k ih =>
    have hlt : pos < pre.length := by
      rcases Nat.lt_or_ge pos pre.length with hlt | hge
      · exact hlt
      · rw [List.drop_eq_nil_of_le hge] at h
        simp [alternating, runStep] at h
    rw [alternating_drop _ _ _ hlt rfl] at h
    obtain ⟨s1, r1, o1, h1, h2, h3⟩ := run_cons_inv h
    simp only [List.replicate_succ, List.cons_append, List.cons.injEq] at h3
    obtain ⟨rfl, rfl⟩ := h3
    simp only [Decoder.step] at h1
    rw [next_step D hD conv _ (by simp only [List.length_append]; omega)]
    simp only [List.getElem_append_left hlt, h1]
    exact ih _ _ h2

/-- Reset, load, and read the whole array. -/
theorem first_read {enc : Encode} {wave : List Nat} (hw : Writes enc wave) (p : PulsedataBuffer)
    (hS : wave.length ≤ p.buf.length) (D : Decoder C) (hD : D.Commits) (conv : C → K) (k j : Nat) (c : K)
    (h : results D conv (alternating true wave) =
      some (List.replicate k (.ok none) ++ [.ok (some c)] ++ List.replicate j (.ok none))) :
    ∃ p' it, p.reset.load enc = some p' ∧ p'.buf.length = p.buf.length ∧
      (BufferIterator.new D p'.buf).next D conv = some (it, some c) := by
  have he := hw p.buf
  rw [if_pos hS] at he
  refine ⟨{ buf := wave ++ p.buf.drop wave.length, offset := wave.length }, ?_⟩
  have hl : p.reset.load enc = some { buf := wave ++ p.buf.drop wave.length, offset := wave.length } := by
    simp [PulsedataBuffer.load, PulsedataBuffer.reset, he]
  rw [results_snd] at h
  rcases hr : runStep D.step D.init (alternating true wave) with _ | ⟨s, o⟩
  · rw [hr] at h; cases h
  · rw [hr, Option.map_some, Option.map_some, Option.some.injEq, List.append_assoc] at h
    obtain ⟨a, b, rfl, ha, hb⟩ := List.map_eq_append_iff.mp h
    obtain ⟨x, b', rfl, hx, -⟩ := List.map_eq_cons_iff.mp (show b.map _ = _ :: _ from hb)
    have ha' : a = List.replicate k (.ok none) := by
      rw [List.eq_replicate_iff] at ha ⊢
      refine ⟨by simpa using ha.1, fun y hy => ?_⟩
      have := ha.2 _ (List.mem_map_of_mem hy)
      rcases y with e | _ | c
      · cases this
      · rfl
      · cases this
    subst ha'
    have hxn : x ≠ .ok none := by rintro rfl; cases hx
    obtain ⟨it, hit⟩ := next_prefix D hD conv wave (p.buf.drop wave.length) k x hxn b' s 0 D.init
      (by simpa using hr)
    refine ⟨it, hl, by simp only [List.length_append, List.length_drop]; omega, ?_⟩
    rw [BufferIterator.new, hit]
    rcases x with e | _ | y
    · cases hx
    · cases hx
    · simp only [Res.map, Option.map_some] at hx
      simp only [reportOf, Option.map_some]
      congr 2
      simpa using hx

/-- **C75** for RC5: at every frequency from 13 kHz, whatever the buffer (of at least 27 entries) held before and
however much of it was in use: after `reset` and `load`, the first command read from the whole array is the one
loaded. -/
theorem C75_rc5 (t : Target) (hus : 16 ≤ t.usizeBits) (m : Mono) (hm : m = Mono.u32 ∨ m = Mono.u64) (f : Nat)
    (hlo : 13000 ≤ f) (hf : f < 2 ^ 32) (tbl : PulseSpans) (htbl : rc5Spans t m f = some tbl) (conv : Rc5Command → K)
    (cmd : Rc5Command) (ha : cmd.addr.toNat < 32) (hc : cmd.cmd.toNat < 64) (hst : cmd.start = 2 ∨ cmd.start = 3)
    (p : PulsedataBuffer) (hS : 27 ≤ p.buf.length) :
    ∃ len p' it, rc5CalcFreq f = some len ∧ p.reset.load (rc5Encode t len cmd) = some p' ∧
      (BufferIterator.new (rc5Decoder t tbl) p'.buf).next _ conv = some (it, some (conv cmd)) := by
  obtain ⟨len, buf, n, hd, he, -, hres, -⟩ := C40_rc5_roundtrip_exact t hus m hm f hlo hf _ htbl conv cmd
    ha hc hst (List.replicate 27 0) (by simp)
  obtain ⟨len', hlen, -, henc⟩ := C38_rc5_encode t f hf
  rw [hd, Option.some.injEq] at hlen
  subst hlen
  obtain ⟨hw, -, h27⟩ := henc cmd
  rw [taken hw he] at hres
  obtain ⟨p', it, h1, -, h2⟩ := first_read hw p (by omega) _ (rc5_commits t tbl) conv (n - 1) 0 (conv cmd)
    (by rw [List.replicate_zero, List.append_nil]; exact hres)
  exact ⟨len, p', it, hd, h1, h2⟩

/-- **C75** for RC6, from 27 028 Hz to the compile-time limit, 44 entries. -/
theorem C75_rc6 (t : Target) (hus : 16 ≤ t.usizeBits) (m : Mono) (hm : m = Mono.u32 ∨ m = Mono.u64) (f : Nat)
    (hlo : 27028 ≤ f) (hhi : f ≤ 9673349) (tbl : PulseSpans) (htbl : rc6Spans t m f = some tbl)
    (conv : Rc6Command → K) (cmd : Rc6Command) (p : PulsedataBuffer) (hS : 44 ≤ p.buf.length) :
    ∃ len p' it, rc6Data f = some len ∧ p.reset.load (rc6Encode len cmd) = some p' ∧
      (BufferIterator.new (rc6Decoder t tbl) p'.buf).next _ conv = some (it, some (conv cmd)) := by
  obtain ⟨len, buf, n, k, j, hd, he, -, hres, -, -⟩ := C41_rc6_roundtrip_partial t hus m hm f hlo hhi _
    htbl conv cmd (List.replicate 44 0) (by simp)
  obtain ⟨-, hw, h44⟩ := C38_rc6_encode f len hd cmd
  rw [taken hw he] at hres
  obtain ⟨p', it, h1, -, h2⟩ := first_read hw p (by omega) _ (rc6_commits t tbl) conv k j (conv cmd) hres
  exact ⟨len, p', it, hd, h1, h2⟩

/-- **C75** for the NEC family: what is read is the loaded word, unpacked as a command that is not a repeat.
`C01`, `C02` and `C03` say that this is the command itself. -/
theorem C75_nec (t : Target) (m : Mono) (hm : m = Mono.u32 ∨ m = Mono.u64) (f : Nat) (hlo : 14000 ≤ f)
    (hf : f < 2 ^ 32) (v : NecVariant C) (hv : v.Shipped) (hvt : v.Total) (data : NecData)
    (hdata : necData v.pulseDistance f = some data) (tbl : PulseSpans) (htbl : necSpans t m v f = some tbl)
    (conv : C → K) (cmd : C) (w : BitVec 32) (hw : v.pack cmd = some w) (cmd' : C)
    (hcmd' : v.unpack w false = some cmd') (p : PulsedataBuffer) (hS : 67 ≤ p.buf.length) :
    ∃ p' it, p.reset.load (necEncode v data cmd) = some p' ∧
      (BufferIterator.new (necDecoder t m tbl v) p'.buf).next _ conv = some (it, some (conv cmd')) := by
  obtain ⟨hwr, h67⟩ := C38_nec_encode v data cmd w hw
  have he := hwr (List.replicate 67 0)
  rw [if_pos (by rw [List.length_replicate]; omega)] at he
  have hres := C39_nec_roundtrip_generic t m hm f hlo hf v hv data hdata tbl htbl conv cmd w hw _ _ _ he
  rw [List.take_left, hcmd'] at hres
  obtain ⟨p', it, h1, -, h2⟩ := first_read hwr p (by omega) _ (nec_commits t m tbl v hvt) conv 66 0 (conv cmd')
    (by rw [List.replicate_zero, List.append_nil]; exact hres)
  exact ⟨p', it, h1, h2⟩

/-- Non-vacuity: a buffer that still holds an RC6 command is used for an RC5 command; the array then contains the new
waveform (25 entries) and the end of the old one. -/
example : ∃ p : PulsedataBuffer, (PulsedataBuffer.new 96).load (rc6Encode 17 ⟨70, 2, true⟩) = some p ∧
    (∃ p', p.reset.load (rc5Encode ⟨true, 32⟩ 35 (Rc5Command.new 20 9 false)) = some p' ∧
      p'.buf[30]? = p.buf[30]? ∧ p.buf[30]? ≠ some 0) ∧
    ∃ len p' it, rc5CalcFreq 40000 = some len ∧
      p.reset.load (rc5Encode ⟨true, 32⟩ len (Rc5Command.new 20 9 false)) = some p' ∧
      (BufferIterator.new (rc5Decoder ⟨true, 32⟩ (rc5Table 40000)) p'.buf).next _ id =
        some (it, some (Rc5Command.new 20 9 false)) :=
  ⟨_, rfl, ⟨_, rfl, by decide +kernel, by decide +kernel⟩,
    C75_rc5 ⟨true, 32⟩ (by decide) Mono.u32 (.inl rfl) 40000 (by decide) (by decide) _
      (rc5Spans_eq (.inl rfl) _ (by decide)) id _ (by decide) (by decide) (by decide) _ (by decide +kernel)⟩

end Infrared
