import Verif.Lemmas.RoundTrip
import Verif.Props.Drivers

/-!
# C38–C41: encoders, and decoding what they produce
-/

namespace Infrared

open Spec

variable {C K : Type}

/-! ## C38: the waveforms -/

theorem necWave_length (hm hs mk z o : Nat) (w : BitVec 32) : (necWave hm hs mk z o w).length = 67 := by
  simp only [necWave, List.length_append, List.length_flatMap, List.length_cons, List.length_nil]
  rfl

/-- **C38** for the NEC family: for every command that can be packed, exactly the documented
waveform of its word is written, always 67 entries. -/
theorem C38_nec_encode (v : NecVariant C) (data : NecData) (cmd : C) (w : BitVec 32)
    (hw : v.pack cmd = some w) :
    Writes (necEncode v data cmd) (necWave data.headerHigh data.headerLow data.dataHigh
      data.dataZeroLow data.dataOneLow w) ∧
    (necWave data.headerHigh data.headerLow data.dataHigh data.dataZeroLow data.dataOneLow
      w).length = 67 :=
  ⟨necEncode_writes v data cmd w hw, necWave_length ..⟩

theorem calcTicks_eq {l f t : Nat} (hf : 1000 < f) (h : calcTicks l f = some t) :
    t = f / 1000 * l / 1000 ∧ f / 1000 * l < 2 ^ 32 := by
  unfold calcTicks at h
  simp only [show f > 1000 from hf, if_true, Nat.reduceDiv] at h
  split at h
  · rename_i hlt
    exact ⟨(Option.some.inj h).symm, hlt⟩
  · cases h

theorem calcTicks_ticks {l f t : Nat} (h : calcTicks l f = some t) : TicksOf l f t := by
  unfold TicksOf
  by_cases hf : 1000 < f
  · obtain ⟨h', -⟩ := calcTicks_eq hf h
    have e1 : f = 1000 * (f / 1000) + f % 1000 := (Nat.div_add_mod f 1000).symm
    have e2 : f % 1000 < 1000 := Nat.mod_lt _ (by decide)
    clear h hf
    generalize f / 1000 = k at *
    generalize f % 1000 = r at *
    subst e1
    have e3 : l * (1000 * k + r) = 1000 * (k * l) + l * r := by
      rw [Nat.mul_add, Nat.mul_left_comm, Nat.mul_comm l k]
    have e4 : l * r ≤ l * 999 := Nat.mul_le_mul_left _ (by omega)
    rw [e3]
    generalize k * l = x at *
    subst h'
    omega
  · unfold calcTicks at h
    simp only [show ¬ f > 1000 from hf, if_false] at h
    rw [Nat.mul_comm l f]
    split at h
    · have h' := (Option.some.inj h).symm
      generalize f * l = x at *
      subst h'
      omega
    · cases h

/-- **C38**: every duration of the NEC encoders is the documented number of microseconds in ticks,
rounded down (the frequency itself being rounded down to whole kHz first). -/
theorem C38_nec_ticks (p : NecPulseLen) (f : Nat) (data : NecData) (h : necData p f = some data) :
    TicksOf p.headerHigh f data.headerHigh ∧ TicksOf p.headerLow f data.headerLow ∧
    TicksOf p.repeatLow f data.repeatLow ∧ TicksOf p.dataHigh f data.dataHigh ∧
    TicksOf p.dataZeroLow f data.dataZeroLow ∧ TicksOf p.dataOneLow f data.dataOneLow := by
  unfold necData at h
  simp only [Option.bind_eq_bind, Option.bind_eq_some_iff, Option.some.injEq] at h
  obtain ⟨a, ha, b, hb, c, hc, d, hd, e, he, g, hg, rfl⟩ := h
  exact ⟨calcTicks_ticks ha, calcTicks_ticks hb, calcTicks_ticks hc, calcTicks_ticks hd,
    calcTicks_ticks he, calcTicks_ticks hg⟩

theorem calcTicks_some {l f : Nat} (hf : 1000 < f) :
    (calcTicks l f).isSome = true ↔ f / 1000 * l < 2 ^ 32 := by
  unfold calcTicks
  simp only [show f > 1000 from hf, if_true]
  split <;> simp_all

/-- **C38**: the encoders of the standard timing exist (compile) exactly up to 477.218999 MHz, those
of the Samsung timing up to 954.437999 MHz. -/
theorem C38_nec_compiles (f : Nat) (hf : 1000 < f) :
    ((necData necStandardTiming f).isSome = true ↔ f ≤ 477218999) ∧
    ((necData necSamsungTiming f).isSome = true ↔ f ≤ 954437999) := by
  have key : ∀ p : NecPulseLen, (necData p f).isSome = true ↔
      f / 1000 * p.headerHigh < 2 ^ 32 ∧ f / 1000 * p.headerLow < 2 ^ 32 ∧
      f / 1000 * p.repeatLow < 2 ^ 32 ∧ f / 1000 * p.dataHigh < 2 ^ 32 ∧
      f / 1000 * p.dataZeroLow < 2 ^ 32 ∧ f / 1000 * p.dataOneLow < 2 ^ 32 := by
    intro p
    simp only [← calcTicks_some hf]
    unfold necData
    rcases calcTicks p.headerHigh f <;> rcases calcTicks p.headerLow f <;>
      rcases calcTicks p.repeatLow f <;> rcases calcTicks p.dataHigh f <;>
      rcases calcTicks p.dataZeroLow f <;> rcases calcTicks p.dataOneLow f <;> simp
  rw [key, key]
  simp only [necStandardTiming, necSamsungTiming]
  omega

theorem calcTicksUnchecked_eq {l f t : Nat} (h : calcTicks l f = some t) : calcTicksUnchecked l f = t := by
  unfold calcTicks at h
  unfold calcTicksUnchecked
  generalize (if f > 1000 then f / 1000 else f) = k at h ⊢
  by_cases hlt : k * l < 2 ^ 32
  · simp only [hlt, if_true] at h
    show k * l % 2 ^ 32 / _ = t
    rw [Nat.mod_eq_of_lt hlt]
    exact Option.some.inj h
  · simp only [hlt, if_false] at h
    cases h

theorem mod_wrap {x : Nat} (h : 2 ^ 32 ≤ x) : x % 2 ^ 32 + 2 ^ 32 ≤ x := by
  have h1 := Nat.div_add_mod x (2 ^ 32)
  have h2 : 1 ≤ x / 2 ^ 32 := (Nat.one_le_div_iff (by decide)).mpr h
  have h3 : 2 ^ 32 * 1 ≤ 2 ^ 32 * (x / 2 ^ 32) := Nat.mul_le_mul_left _ h2
  omega

/-- **C38**: without overflow checks the encoders compile at all frequencies.  Where they compile with overflow
checks too, they are the same encoders; above those limits the length of the header is wrong at every frequency. -/
theorem C38_nec_unchecked (p : NecPulseLen) (hp : p = necStandardTiming ∨ p = necSamsungTiming) (f : Nat)
    (hf : f < 2 ^ 32) :
    (∀ data, necData p f = some data → necDataUnchecked p f = data) ∧
    (1000 < f → necData p f = none → ¬ TicksOf p.headerHigh f (necDataUnchecked p f).headerHigh) := by
  constructor
  · intro data h
    unfold necData at h
    simp only [Option.bind_eq_bind, Option.bind_eq_some_iff, Option.some.injEq] at h
    obtain ⟨a, ha, b, hb, c, hc, d, hd, e, he, g, hg, rfl⟩ := h
    simp only [necDataUnchecked, calcTicksUnchecked_eq ha, calcTicksUnchecked_eq hb, calcTicksUnchecked_eq hc,
      calcTicksUnchecked_eq hd, calcTicksUnchecked_eq he, calcTicksUnchecked_eq hg]
  · intro h1 hn ht
    have hs := C38_nec_compiles f h1
    unfold TicksOf necDataUnchecked calcTicksUnchecked at ht
    simp only [show f > 1000 from h1, if_true] at ht
    rcases hp with rfl | rfl
    · rw [hn] at hs
      have hgt : ¬ f ≤ 477218999 := fun h => by cases hs.1.mpr h
      simp only [necStandardTiming] at ht
      have hw := mod_wrap (x := f / 1000 * 9000) (by omega)
      generalize f / 1000 * 9000 % 2 ^ 32 = y at ht hw
      omega
    · rw [hn] at hs
      have hgt : ¬ f ≤ 954437999 := fun h => by cases hs.2.mpr h
      simp only [necSamsungTiming] at ht
      have hw := mod_wrap (x := f / 1000 * 4500) (by omega)
      generalize f / 1000 * 4500 % 2 ^ 32 = y at ht hw
      omega

/-- At 480 MHz the header mark, 4 320 000 ticks, is 25 032 ticks without overflow checks. -/
example : necData necStandardTiming 480000000 = none ∧
    (necDataUnchecked necStandardTiming 480000000).headerHigh = 25032 := by decide

/-- The word of a command with the first start bit set: what RC5 encoders send. -/
def Spec.rc5Word (bits : BitVec 16) : BitVec 14 := bits.setWidth 14 ||| 0x2000#14

theorem rc5Word_bits (bits : BitVec 16) (i : Nat) (hi : i < 14) :
    (rc5Word bits).getLsbD i = (decide (i = 13) || bits.getLsbD i) := by
  unfold rc5Word
  rw [BitVec.getLsbD_or, BitVec.getLsbD_setWidth]
  have : ∀ i < 14, (0x2000#14).getLsbD i = decide (i = 13) := by decide
  rw [this i hi, Bool.or_comm]
  simp [hi]

theorem rc5_edges_count (w : BitVec 14) (n : Nat) (prev : Bool) :
    n ≤ (edgesFrom prev 1 (rc5Tail w n)).length ∧ (edgesFrom prev 1 (rc5Tail w n)).length ≤ 2 * n := by
  induction n generalizing prev with
  | zero => simp [rc5Tail, edgesFrom]
  | succ n ih =>
    rw [rc5Tail, edgesFrom_bit]
    have := ih (w.getLsbD n)
    split
    · simp only [List.length_cons]; omega
    · simp only [List.length_cons]; omega

/-- The tick length of a half-bit in RC5 encoders is at most 3 818 225. -/
theorem rc5CalcFreq_eq {f len : Nat} (hf : f < 2 ^ 32) (h : rc5CalcFreq f = some len) :
    len * 2 < 2 ^ 32 ∧ (1000 < f → len = 889 * (f / 1000) / 1000) := by
  have h' : calcTicks 889 f = some len := by
    rw [← h]
    unfold rc5CalcFreq calcTicks
    simp only [Nat.mul_comm]
  constructor
  · have := (calcTicks_ticks h').1
    omega
  · intro h1
    rw [(calcTicks_eq h1 h').1, Nat.mul_comm]

/-- **C38** for RC5: for every command and every frequency, exactly the documented waveform of its
word (first start bit set) is written, 14 to 27 entries.  All `u32` frequencies compile. -/
theorem C38_rc5_encode (t : Target) (f : Nat) (hf : f < 2 ^ 32) :
    ∃ len, rc5CalcFreq f = some len ∧ TicksOf 889 f len ∧ ∀ cmd : Rc5Command,
      Writes (rc5Encode t len cmd) (rc5Wave len (rc5Word cmd.pack)) ∧
      14 ≤ (rc5Wave len (rc5Word cmd.pack)).length ∧
      (rc5Wave len (rc5Word cmd.pack)).length ≤ 27 := by
  obtain ⟨len, hlen⟩ : ∃ len, rc5CalcFreq f = some len := by
    unfold rc5CalcFreq
    simp only
    refine ⟨_, if_pos ?_⟩
    split <;> omega
  have ht : TicksOf 889 f len := by
    apply calcTicks_ticks
    rw [← hlen]
    unfold rc5CalcFreq calcTicks
    simp only [Nat.mul_comm]
  refine ⟨len, hlen, ht, fun cmd => ?_⟩
  have h13 : (rc5Word cmd.pack).getLsbD 13 = true := by
    rw [rc5Word_bits _ _ (by decide)]; simp
  refine ⟨rc5Encode_writes t len (rc5CalcFreq_eq hf hlen).1 cmd _ (fun i hi => ?_) h13, ?_⟩
  · rw [rc5Word_bits _ _ (by omega)]
    have : ¬ i = 13 := by omega
    simp [this]
  · unfold rc5Wave
    rw [rc5Edges_eq _ h13]
    have := rc5_edges_count (rc5Word cmd.pack) 13 true
    simp only [manchesterWave, List.length_cons, List.length_map]
    omega

theorem rc6_edges_count (w : BitVec 16) (n : Nat) (prev : Bool) (c k : Nat) :
    (edgesFrom prev c (rc6Tail w n ++ List.replicate k false)).length ≤ 2 * n + 1 := by
  induction n generalizing prev c with
  | zero =>
    rw [rc6Tail, List.nil_append]
    rcases prev with _ | _
    · have := edgesFrom_replicate false c k []
      rw [List.append_nil] at this
      rw [this]; simp [edgesFrom]
    · rcases k with _ | k
      · simp [edgesFrom]
      · rw [List.replicate_succ, edgesFrom, if_neg (by simp)]
        have := edgesFrom_replicate false 1 k []
        rw [List.append_nil] at this
        rw [this]; simp [edgesFrom]
  | succ n ih =>
    rw [rc6Tail, List.cons_append, List.cons_append, edgesFrom_bit2]
    have := ih (!w.getLsbD n) 1
    split <;> simp only [List.length_cons] <;> omega

theorem rc6Levels_edges (w : BitVec 16) (toggle : Bool) (tail : List Bool) :
    edgesFrom false 0 (rc6LevelsMode 0 w toggle ++ tail) =
      (true, 0) :: (rc6Head 0 toggle ++ edgesFrom (!toggle) 2 (rc6Tail w 16 ++ tail)) := by
  cases toggle <;> rfl

/-- **C38** for RC6: for every command, exactly the documented waveform is written, at most 44
entries. -/
theorem C38_rc6_encode (f len : Nat) (hlen : rc6Data f = some len) (cmd : Rc6Command) :
    TicksOf 444 f len ∧
    Writes (rc6Encode len cmd) (rc6Wave len (cmd.addr ++ cmd.cmd) cmd.toggle) ∧
    (rc6Wave len (cmd.addr ++ cmd.cmd) cmd.toggle).length ≤ 44 := by
  refine ⟨?_, rc6Encode_writes len cmd, ?_⟩
  · unfold rc6Data at hlen
    split at hlen
    · have := Option.some.inj hlen
      unfold TicksOf
      omega
    · cases hlen
  · unfold rc6Wave
    rw [rc6Levels_edges]
    have := rc6_edges_count (cmd.addr ++ cmd.cmd) 16 (!cmd.toggle) 2 6
    have hh : (rc6Head 0 cmd.toggle).length ≤ 10 := by cases cmd.toggle <;> decide
    simp only [manchesterWave, List.length_cons, List.length_map, List.length_append]
    omega

/-- **C38**: RC6 encoders exist (compile) exactly up to 9.673349 MHz. -/
theorem C38_rc6_compiles (f : Nat) : (rc6Data f).isSome = true ↔ f ≤ 9673349 := by
  unfold rc6Data
  split
  · simp; omega
  · simp; omega

/-- Examples: an RC5 waveform, an RC6 waveform, and a slice that is one entry too short. -/
example : (rc5Encode ⟨true, 32⟩ 889 (Rc5Command.new 20 9 false) (List.replicate 30 7)).map
    (fun p => (p.1.take p.2, p.1.drop p.2)) =
    some ([0, 889, 889, 1778, 1778, 1778, 1778, 1778, 889, 889, 889, 889, 889, 889, 1778, 1778, 889,
      889, 1778], List.replicate 11 7) := by decide +kernel

example : (rc6Encode 1 ⟨0, 0, false⟩ (List.replicate 44 7)).map Prod.snd = some 44 ∧
    rc6Encode 1 ⟨0, 0, false⟩ (List.replicate 43 7) = none := by decide +kernel

/-! ## C39: NEC family round trip -/

theorem alternating_append (b : Bool) (xs ys : List Nat) :
    alternating b (xs ++ ys) = alternating b xs ++ alternating (xor b (xs.length % 2 == 1)) ys := by
  induction xs generalizing b with
  | nil => simp [alternating]
  | cons x xs ih =>
    simp only [List.cons_append, alternating, ih, List.length_cons]
    congr 3
    rcases Nat.mod_two_eq_zero_or_one xs.length with h | h
    · rw [h, show (xs.length + 1) % 2 = 1 by omega]; cases b <;> rfl
    · rw [h, show (xs.length + 1) % 2 = 0 by omega]; cases b <;> rfl

theorem alternating_pairs (ps : List (Nat × Nat)) :
    alternating false (ps.flatMap fun p => [p.1, p.2]) = pulses ps := by
  induction ps with
  | nil => rfl
  | cons p ps ih =>
    simp only [List.flatMap_cons, List.cons_append, List.nil_append, alternating, pulses, ← ih]
    rfl

theorem alternating_length (b : Bool) (xs : List Nat) : (alternating b xs).length = xs.length := by
  induction xs generalizing b with
  | nil => rfl
  | cons x xs ih => simp [alternating, ih]

/-- The (mark, space) pairs of the NEC waveform. -/
def necPairs (hm hs mk z o : Nat) (w : BitVec 32) : List (Nat × Nat) :=
  (hm, hs) :: (List.range 32).map fun i => (mk, if w.getLsbD i then o else z)

theorem necWave_pulses (hm hs mk z o : Nat) (w : BitVec 32) :
    alternating false (necWave hm hs mk z o w).tail = pulses (necPairs hm hs mk z o w) := by
  rw [← alternating_pairs]
  congr 1

theorem necPairs_gets {tbl : PulseSpans} {hm hs mk z o : Nat} (w : BitVec 32)
    (h0 : tbl.get (hm + hs) = some 0) (h2 : tbl.get (mk + z) = some 2)
    (h3 : tbl.get (mk + o) = some 3) : NecGets tbl w (necPairs hm hs mk z o w) := by
  refine ⟨by simp [necPairs], ?_, ?_⟩
  · intro p hp
    simp only [necPairs, List.getElem?_cons_zero, Option.some.injEq] at hp
    subst hp
    exact h0
  · intro i p hp
    simp only [necPairs, List.getElem?_cons_succ, List.getElem?_map] at hp
    rcases hi : (List.range 32)[i]? with _ | j
    · simp [hi] at hp
    · have hj : j = i := by
        obtain ⟨hl, he⟩ := List.getElem?_eq_some_iff.mp hi
        simpa using he.symm
      subst hj
      simp only [hi, Option.map_some, Option.some.injEq] at hp
      subst hp
      cases w.getLsbD j
      · exact h2
      · exact h3

theorem necData_inv {p : NecPulseLen} {f : Nat} {data : NecData} (hf : 1000 < f)
    (h : necData p f = some data) :
    data.headerHigh = f / 1000 * p.headerHigh / 1000 ∧
    data.headerLow = f / 1000 * p.headerLow / 1000 ∧
    data.dataHigh = f / 1000 * p.dataHigh / 1000 ∧
    data.dataZeroLow = f / 1000 * p.dataZeroLow / 1000 ∧
    data.dataOneLow = f / 1000 * p.dataOneLow / 1000 := by
  unfold necData at h
  simp only [Option.bind_eq_bind, Option.bind_eq_some_iff, Option.some.injEq] at h
  obtain ⟨a, ha, b, hb, c, hc, d, hd, e, he, g, hg, rfl⟩ := h
  exact ⟨(calcTicks_eq hf ha).1, (calcTicks_eq hf hb).1, (calcTicks_eq hf hd).1,
    (calcTicks_eq hf he).1, (calcTicks_eq hf hg).1⟩

/-- What the encoder of a shipped variant produces is a frame for the receiver of the same
frequency; durations of at most one tick are neither headers nor repeats there. -/
theorem nec_wave_gets {m : Mono} (hm : m.IsPrim) (t : Target) {f : Nat} (hlo : 14000 ≤ f)
    (hf : f < 2 ^ 32) (v : NecVariant C) (hv : v.Shipped) {data : NecData}
    (hdata : necData v.pulseDistance f = some data) {tbl : PulseSpans}
    (htbl : necSpans t m v f = some tbl) (w : BitVec 32) :
    NecGets tbl w (necPairs data.headerHigh data.headerLow data.dataHigh data.dataZeroLow
      data.dataOneLow w) ∧ Fits tbl m.width ∧
    ∀ g, g ≤ 1 → ¬ Spec.InTol tbl 0 g ∧ ¬ Spec.InTol tbl 1 g := by
  obtain ⟨e1, e2, e3, e4, e5⟩ := necData_inv (by omega) hdata
  rcases hv with hv | hv <;> rw [hv] at e1 e2 e3 e4 e5
  · rw [necSpans_standard hm t hf v hv, Option.some.injEq] at htbl
    subst htbl
    obtain ⟨g0, g2, g3⟩ := nec_gets f (by omega)
    refine ⟨necPairs_gets w ?_ ?_ ?_, necTable_fits hf hm.width, ?_⟩
    · rw [e1, e2]; exact g0
    · rw [e3, e4]; exact g2
    · rw [e3, e5]; exact g3
    · intro g hg
      have h0' := scaleVal_ge f (l := 13500) (by decide)
      have h1' := scaleVal_ge f (l := 11250) (by decide)
      constructor
      · rintro ⟨s, hs, h1, -⟩
        cases hs
        simp only [spanOf] at h1
        omega
      · rintro ⟨s, hs, h1, -⟩
        cases hs
        simp only [spanOf] at h1
        omega
  · rw [necSpans_samsung hm t hf v hv, Option.some.injEq] at htbl
    subst htbl
    obtain ⟨g0, g2, g3⟩ := samsung_gets f (by omega)
    refine ⟨necPairs_gets w ?_ ?_ ?_, samsungTable_fits hf hm.width, ?_⟩
    · rw [e1, e2]; exact g0
    · rw [e3, e4]; exact g2
    · rw [e3, e5]; exact g3
    · intro g hg
      have h0' := scaleVal_ge f (l := 9000) (by decide)
      have h1' := scaleVal_ge f (l := 6750) (by decide)
      constructor
      · rintro ⟨s, hs, h1, -⟩
        cases hs
        simp only [spanOf] at h1
        omega
      · rintro ⟨s, hs, h1, -⟩
        cases hs
        simp only [spanOf] at h1
        omega

/-- The waveform with first duration `g` at most 1, received by a new receiver. -/
theorem nec_wave_received {m : Mono} (hm : m.IsPrim) (t : Target) {f : Nat} (hlo : 14000 ≤ f)
    (hf : f < 2 ^ 32) (v : NecVariant C) (hv : v.Shipped) {data : NecData}
    (hdata : necData v.pulseDistance f = some data) {tbl : PulseSpans}
    (htbl : necSpans t m v f = some tbl) (w : BitVec 32) (g : Nat) (hg : g ≤ 1) :
    runStep (necFn t m tbl v) { state := .init, bitbuf := 0, dtSave := 0 }
      ((true, g) :: alternating false (necWave data.headerHigh data.headerLow data.dataHigh
        data.dataZeroLow data.dataOneLow w).tail) =
      some ({ state := .init, bitbuf := w, dtSave := 0 },
        List.replicate 66 (.ok none) ++ [.ok (v.unpack w false)]) := by
  obtain ⟨hgets, hfit, hsm⟩ := nec_wave_gets hm t hlo hf v hv hdata htbl w
  obtain ⟨h0, h1⟩ := hsm g hg
  have hw : 2 ^ 1 ≤ 2 ^ m.width := Nat.pow_le_pow_right (by decide) (by have := hm.width; omega)
  have hgap := nec_gap_idle t m (Mono.prim_lawful hm) tbl v
    ({ state := .init, bitbuf := 0, dtSave := 0 } : NecDecoder) rfl g (by simp; omega)
    (by simpa using h0) (by simpa using h1)
  have h := nec_frame_get t m (Mono.prim_lawful hm) tbl hfit v
    ({ state := .init, bitbuf := 0, dtSave := 0 } : NecDecoder) rfl w _ hgets
  rw [necWave_pulses]
  simp only [runStep, hgap, h]
  rfl

/-- **C39**, generic form: what any shipped NEC variant encodes at `f` of at least 14 kHz (up to
the limit of compilation) is decoded by a new receiver of that frequency: nothing until the last
edge, then `unpack(pack(cmd), false)`. -/
theorem C39_nec_roundtrip_generic (t : Target) (m : Mono) (hm : m = Mono.u32 ∨ m = Mono.u64)
    (f : Nat) (hlo : 14000 ≤ f) (hf : f < 2 ^ 32) (v : NecVariant C) (hv : v.Shipped)
    (data : NecData) (hdata : necData v.pulseDistance f = some data)
    (tbl : PulseSpans) (htbl : necSpans t m v f = some tbl) (conv : C → K)
    (cmd : C) (w : BitVec 32) (hw : v.pack cmd = some w) (slice buf : List Nat) (n : Nat)
    (henc : necEncode v data cmd slice = some (buf, n)) :
    results (necDecoder t m tbl v) conv (alternating true (buf.take n)) =
      some (List.replicate 66 (.ok none) ++ [.ok ((v.unpack w false).map conv)]) := by
  rw [(C38_nec_encode v data cmd w hw).1 slice] at henc
  split at henc
  · simp only [Option.some.injEq, Prod.mk.injEq] at henc
    obtain ⟨rfl, rfl⟩ := henc
    rw [List.take_left]
    have h := nec_wave_received hm t hlo hf v hv hdata htbl w 0 (by decide)
    refine (results_of (D := necDecoder t m tbl v) conv h).trans ?_
    simp [Res.map]
  · cases henc

/-- From the generic form to the observable one, for variants that unpack every word. -/
theorem nec_roundtrip_of (t : Target) (m : Mono) (hm : m = Mono.u32 ∨ m = Mono.u64)
    (f : Nat) (hlo : 14000 ≤ f) (hf : f < 2 ^ 32) (v : NecVariant C) (hv : v.Shipped)
    (hv' : v.Total) (data : NecData) (hdata : necData v.pulseDistance f = some data)
    (tbl : PulseSpans) (htbl : necSpans t m v f = some tbl) (conv : C → K)
    (cmd : C) (w : BitVec 32) (hw : v.pack cmd = some w) (cmd' : C)
    (hun : v.unpack w false = some cmd') (slice : List Nat) (hs : 67 ≤ slice.length) :
    ∃ buf, necEncode v data cmd slice = some (buf, 67) ∧
      results (necDecoder t m tbl v) conv (alternating true (buf.take 67)) =
        some (List.replicate 66 (.ok none) ++ [.ok (some (conv cmd'))]) ∧
      bufferCollect (necDecoder t m tbl v) conv (buf.take 67) = some [conv cmd'] := by
  obtain ⟨h1, h2⟩ := C38_nec_encode v data cmd w hw
  have h3 := h1 slice
  rw [h2, if_pos hs] at h3
  have h4 := C39_nec_roundtrip_generic t m hm f hlo hf v hv data hdata tbl htbl conv cmd w hw
    slice _ _ h3
  rw [hun] at h4
  refine ⟨_, h3, h4, ?_⟩
  rw [C33_buffer_collect_partial _ (nec_commits _ _ _ _ hv') conv _ _ h4]
  rfl

/-- **C39** for standard NEC: decoding the encoded waveform returns the command, not marked as a
repeat; also through a `BufferIterator`. -/
theorem C39_nec_roundtrip (t : Target) (m : Mono) (hm : m = Mono.u32 ∨ m = Mono.u64)
    (f : Nat) (hlo : 14000 ≤ f) (hhi : f ≤ 477218999)
    (tbl : PulseSpans) (htbl : necSpans t m nec f = some tbl) (conv : NecCommand → K)
    (cmd : NecCommand) (slice : List Nat) (hs : 67 ≤ slice.length) :
    ∃ data buf, necData nec.pulseDistance f = some data ∧
      necEncode nec data cmd slice = some (buf, 67) ∧
      results (necDecoder t m tbl nec) conv (alternating true (buf.take 67)) =
        some (List.replicate 66 (.ok none) ++ [.ok (some (conv { cmd with rep := false }))]) ∧
      bufferCollect (necDecoder t m tbl nec) conv (buf.take 67) =
        some [conv { cmd with rep := false }] := by
  obtain ⟨data, hdata⟩ := Option.isSome_iff_exists.mp ((C38_nec_compiles f (by omega)).1.mpr hhi)
  obtain ⟨buf, h⟩ := nec_roundtrip_of t m hm f hlo (by omega) nec (.inl rfl) nec_total data hdata tbl
    htbl conv cmd cmd.pack rfl _ (C01_nec_roundtrip { cmd with rep := false }).2 slice hs
  exact ⟨data, buf, hdata, h⟩

/-- **C39** for Samsung. -/
theorem C39_samsung_roundtrip (t : Target) (m : Mono) (hm : m = Mono.u32 ∨ m = Mono.u64)
    (f : Nat) (hlo : 14000 ≤ f) (hhi : f ≤ 954437999)
    (tbl : PulseSpans) (htbl : necSpans t m samsungNec f = some tbl) (conv : SamsungNecCommand → K)
    (cmd : SamsungNecCommand) (slice : List Nat) (hs : 67 ≤ slice.length) :
    ∃ data buf, necData samsungNec.pulseDistance f = some data ∧
      necEncode samsungNec data cmd slice = some (buf, 67) ∧
      results (necDecoder t m tbl samsungNec) conv (alternating true (buf.take 67)) =
        some (List.replicate 66 (.ok none) ++ [.ok (some (conv { cmd with rep := false }))]) ∧
      bufferCollect (necDecoder t m tbl samsungNec) conv (buf.take 67) =
        some [conv { cmd with rep := false }] := by
  obtain ⟨data, hdata⟩ := Option.isSome_iff_exists.mp ((C38_nec_compiles f (by omega)).2.mpr hhi)
  obtain ⟨buf, h⟩ := nec_roundtrip_of t m hm f hlo (by omega) samsungNec (.inr rfl)
    (fun _ _ => ⟨_, rfl⟩) data hdata tbl
    htbl conv cmd cmd.pack rfl _ (C02_samsung_roundtrip { cmd with rep := false }).2 slice hs
  exact ⟨data, buf, hdata, h⟩

/-- **C39** for 16-bit addresses. -/
theorem C39_nec16_roundtrip (t : Target) (m : Mono) (hm : m = Mono.u32 ∨ m = Mono.u64)
    (f : Nat) (hlo : 14000 ≤ f) (hhi : f ≤ 477218999)
    (tbl : PulseSpans) (htbl : necSpans t m nec16 f = some tbl) (conv : Nec16Command → K)
    (cmd : Nec16Command) (slice : List Nat) (hs : 67 ≤ slice.length) :
    ∃ data buf, necData nec16.pulseDistance f = some data ∧
      necEncode nec16 data cmd slice = some (buf, 67) ∧
      results (necDecoder t m tbl nec16) conv (alternating true (buf.take 67)) =
        some (List.replicate 66 (.ok none) ++ [.ok (some (conv { cmd with rep := false }))]) ∧
      bufferCollect (necDecoder t m tbl nec16) conv (buf.take 67) =
        some [conv { cmd with rep := false }] := by
  obtain ⟨data, hdata⟩ := Option.isSome_iff_exists.mp ((C38_nec_compiles f (by omega)).1.mpr hhi)
  obtain ⟨buf, h⟩ := nec_roundtrip_of t m hm f hlo (by omega) nec16 (.inl rfl)
    (fun _ _ => ⟨_, rfl⟩) data hdata tbl
    htbl conv cmd cmd.pack rfl _ (C03_nec16_roundtrip { cmd with rep := false }).2 slice hs
  exact ⟨data, buf, hdata, h⟩

/-- **C39** for raw words. -/
theorem C39_raw_roundtrip (t : Target) (m : Mono) (hm : m = Mono.u32 ∨ m = Mono.u64)
    (f : Nat) (hlo : 14000 ≤ f) (hhi : f ≤ 477218999)
    (tbl : PulseSpans) (htbl : necSpans t m necDebug f = some tbl) (conv : NecDebugCmd → K)
    (cmd : NecDebugCmd) (slice : List Nat) (hs : 67 ≤ slice.length) :
    ∃ data buf, necData necDebug.pulseDistance f = some data ∧
      necEncode necDebug data cmd slice = some (buf, 67) ∧
      results (necDecoder t m tbl necDebug) conv (alternating true (buf.take 67)) =
        some (List.replicate 66 (.ok none) ++ [.ok (some (conv cmd))]) ∧
      bufferCollect (necDecoder t m tbl necDebug) conv (buf.take 67) = some [conv cmd] := by
  obtain ⟨data, hdata⟩ := Option.isSome_iff_exists.mp ((C38_nec_compiles f (by omega)).1.mpr hhi)
  obtain ⟨buf, h⟩ := nec_roundtrip_of t m hm f hlo (by omega) necDebug (.inl rfl)
    (fun _ _ => ⟨_, rfl⟩) data hdata tbl htbl conv cmd cmd.bits rfl cmd rfl slice hs
  exact ⟨data, buf, hdata, h⟩

/-- Non-vacuity: at 38 kHz a receiver's table exists and a slice of 67 zeros is long enough. -/
example : ∃ data buf, necData nec.pulseDistance 38000 = some data ∧
    necEncode nec data ⟨4, 8, true⟩ (List.replicate 67 0) = some (buf, 67) ∧
    bufferCollect (necDecoder ⟨true, 32⟩ Mono.u32 (necTable 38000) nec) id (buf.take 67) =
      some [⟨4, 8, false⟩] := by
  obtain ⟨data, buf, h1, h2, -, h3⟩ := C39_nec_roundtrip ⟨true, 32⟩ Mono.u32 (.inl rfl) 38000
    (by decide) (by decide) _ (necSpans_standard (.inl rfl) _ (by decide) nec rfl) id ⟨4, 8, true⟩
    (List.replicate 67 0) (by simp)
  exact ⟨data, buf, h1, h2, h3⟩

/-- Below 14 kHz the round trip fails: at 13 kHz the Samsung header is encoded one tick too short. -/
theorem C39_samsung_fails_at_13khz : ∃ data, necData samsungNec.pulseDistance 13999 = some data ∧
    (necEncode samsungNec data ⟨1, 2, false⟩ (List.replicate 67 0)).bind (fun p =>
      (results (necDecoder ⟨true, 32⟩ Mono.u32 (samsungTable 13999) samsungNec) id
        (alternating true (p.1.take p.2))).map commands) = some [] :=
  ⟨_, rfl, rfl⟩

/-! ## C40: RC5 round trip -/

theorem timed_wave {fits : Nat → Nat → Prop} (len : Nat) (es : List (Bool × Nat)) (b : Bool)
    (halt : alternating b (es.map Prod.snd) = es.map fun e => (e.1, e.2))
    (hfits : ∀ e ∈ es, fits (e.2 * len) e.2) :
    Timed fits (alternating b (es.map fun e => e.2 * len)) es := by
  induction es generalizing b with
  | nil => trivial
  | cons e es ih =>
    simp only [List.map_cons, alternating, List.cons.injEq, Prod.mk.injEq] at halt
    refine ⟨halt.1.1, hfits e (by simp), ih _ halt.2 fun x hx => hfits x (by simp [hx])⟩

/-- The directions of level changes alternate. -/
theorem edgesFrom_alternating (prev : Bool) (n : Nat) (ls : List Bool) :
    alternating (!prev) ((edgesFrom prev n ls).map Prod.snd) =
      (edgesFrom prev n ls).map fun e => (e.1, e.2) := by
  induction ls generalizing prev n with
  | nil => rfl
  | cons l ls ih =>
    rw [edgesFrom]
    split
    · exact ih _ _
    · rename_i h
      have : l = !prev := by cases l <;> cases prev <;> simp_all
      subst this
      simp only [List.map_cons, alternating, ih]

theorem rc5_wave_frame (f : Nat) (hlo : 13000 ≤ f) (w : BitVec 14) (hw : w.getLsbD 13 = true)
    (g : Nat) :
    ManchesterFrame (HalfBits (rc5Table f)) (rc5Edges w)
      ((true, g) :: alternating false (rc5Wave (889 * (f / 1000) / 1000) w).tail) := by
  unfold rc5Wave
  rw [rc5Edges_eq w hw]
  refine ⟨g, 1, _, _, rfl, rfl, ?_⟩
  refine timed_wave _ _ _ (edgesFrom_alternating true _ _) ?_
  intro e he
  obtain ⟨g1, g2⟩ := rc5_gets f hlo
  rw [halfBits_iff, PulseSpans.half]
  rcases rc5_edges_len w 13 true e he with h | h <;> rw [h]
  · rw [Nat.one_mul, g1]; rfl
  · rw [g2]; rfl

theorem rc5Wave_cons (len : Nat) (w : BitVec 14) (hw : w.getLsbD 13 = true) :
    rc5Wave len w = 0 :: (rc5Wave len w).tail := by
  unfold rc5Wave
  rw [rc5Edges_eq w hw]
  rfl

/-- The waveform with any first duration, received by a new receiver. -/
theorem rc5_wave_received (t : Target) (hus : 16 ≤ t.usizeBits) (f : Nat) (hlo : 13000 ≤ f)
    (conv : Rc5Command → K) (cmd : Rc5Command) (g : Nat) :
    ∃ r', (Receiver.new (rc5Decoder t (rc5Table f))).run _ conv
      ((true, g) :: alternating false (rc5Wave (889 * (f / 1000) / 1000) (rc5Word cmd.pack)).tail) =
      some (r', List.replicate ((rc5Wave (889 * (f / 1000) / 1000) (rc5Word cmd.pack)).length - 1)
          (.ok none) ++
        [.ok (some (conv (Rc5Command.unpack ((rc5Word cmd.pack).setWidth 16))))]) ∧
      Rc5Decoder.state r'.decoder = .idle := by
  have h13 : (rc5Word cmd.pack).getLsbD 13 = true := by
    rw [rc5Word_bits _ _ (by decide)]; simp
  have hl : ((true, g) :: alternating false (rc5Wave (889 * (f / 1000) / 1000)
      (rc5Word cmd.pack)).tail).length = (rc5Wave (889 * (f / 1000) / 1000) (rc5Word cmd.pack)).length := by
    rw [rc5Wave_cons _ _ h13]
    simp [alternating_length]
  have hlen : (rc5Wave (889 * (f / 1000) / 1000) (rc5Word cmd.pack)).length ≤ 27 := by
    unfold rc5Wave
    rw [rc5Edges_eq _ h13]
    have := rc5_edges_count (rc5Word cmd.pack) 13 true
    simp only [manchesterWave, List.length_cons, List.length_map]
    omega
  have hp : 2 ^ 16 ≤ 2 ^ t.usizeBits := Nat.pow_le_pow_right (by decide) hus
  have h := rc5_frame t hus (rc5Table f) (by simp [rc5Table]) conv [] [] (Receiver.new _) rfl rfl
    (rc5Word cmd.pack) h13 _ (.inr (by
      rw [hl]; simp only [List.length_nil]; omega)) (rc5_wave_frame f hlo _ h13 g)
  rw [hl] at h
  exact h

/-- The command that is received when `c` is sent: its first start bit is always sent as 1. -/
theorem rc5_received_cmd (c : Rc5Command) (ha : c.addr.toNat < 32) (hc : c.cmd.toNat < 64)
    (hs : c.start.toNat < 4) :
    Rc5Command.unpack ((rc5Word c.pack).setWidth 16) = { c with start := c.start ||| 2 } := by
  have hs' : (c.start ||| 2).toNat < 4 := by
    have : ∀ s : BitVec 8, s.toNat < 4 → (s ||| 2).toNat < 4 := by decide
    exact this _ hs
  have hpk : (rc5Word c.pack).setWidth 16 = ({ c with start := c.start ||| 2 } : Rc5Command).pack := by
    obtain ⟨l1, l2, l3, l4, l5, l6⟩ := C06_rc5_pack_layout c ha hc hs
    obtain ⟨k1, k2, k3, k4, k5, k6⟩ := C06_rc5_pack_layout { c with start := c.start ||| 2 } ha hc hs'
    apply BitVec.eq_of_getLsbD_eq
    intro i hi
    rw [BitVec.getLsbD_setWidth]
    simp only [hi, decide_true, Bool.true_and]
    by_cases h6 : i < 6
    · rw [rc5Word_bits _ _ (by omega), l1 i h6, k1 i h6]
      simp; omega
    by_cases h11 : i < 11
    · have e : 6 + (i - 6) = i := by omega
      have l2' := l2 (i - 6) (by omega)
      have k2' := k2 (i - 6) (by omega)
      rw [e] at l2' k2'
      rw [rc5Word_bits _ _ (by omega), l2', k2']
      simp; omega
    obtain rfl | rfl | rfl | rfl | rfl : i = 11 ∨ i = 12 ∨ i = 13 ∨ i = 14 ∨ i = 15 := by omega
    · rw [rc5Word_bits _ _ (by omega), l3, k3]
      simp
    · have := k4 0 (by decide)
      rw [rc5Word_bits _ _ (by omega), l4 0 (by decide), k4 0 (by decide)]
      simp
    · rw [rc5Word_bits _ _ (by omega), k4 1 (by decide)]
      simp
    · rw [k5, BitVec.getLsbD_of_ge _ _ (by decide)]
    · rw [k6, BitVec.getLsbD_of_ge _ _ (by decide)]
  rw [hpk]
  exact (C06_rc5_roundtrip_iff _).mpr ⟨ha, hc, hs'⟩

/-- **C40**: for every `u32` frequency of at least 13 kHz and every command with fields in range, the
encoder produces a waveform (of at most 27 entries) which a new receiver of that frequency decodes to
the same command, its first start bit set; for start bits 2 and 3 to exactly that command.  Also
through a `BufferIterator`. -/
theorem C40_rc5_roundtrip (t : Target) (hus : 16 ≤ t.usizeBits) (m : Mono)
    (hm : m = Mono.u32 ∨ m = Mono.u64) (f : Nat) (hlo : 13000 ≤ f) (hf : f < 2 ^ 32)
    (tbl : PulseSpans) (htbl : rc5Spans t m f = some tbl) (conv : Rc5Command → K)
    (cmd : Rc5Command) (ha : cmd.addr.toNat < 32) (hc : cmd.cmd.toNat < 64)
    (hs : cmd.start.toNat < 4) (slice : List Nat) (hsl : 27 ≤ slice.length) :
    ∃ len buf n, rc5CalcFreq f = some len ∧ rc5Encode t len cmd slice = some (buf, n) ∧ n ≤ 27 ∧
      results (rc5Decoder t tbl) conv (alternating true (buf.take n)) =
        some (List.replicate (n - 1) (.ok none) ++
          [.ok (some (conv { cmd with start := cmd.start ||| 2 }))]) ∧
      bufferCollect (rc5Decoder t tbl) conv (buf.take n) =
        some [conv { cmd with start := cmd.start ||| 2 }] := by
  rw [rc5Spans_eq hm t hf, Option.some.injEq] at htbl
  subst htbl
  obtain ⟨len, hlen, -, henc⟩ := C38_rc5_encode t f hf
  obtain ⟨hw, h14, h27⟩ := henc cmd
  have h1 := hw slice
  rw [if_pos (by omega)] at h1
  have e := (rc5CalcFreq_eq hf hlen).2 (by omega)
  obtain ⟨r', hr, -⟩ := rc5_wave_received t hus f hlo conv cmd 0
  rw [← e, rc5_received_cmd cmd ha hc hs] at hr
  have h13 : (rc5Word cmd.pack).getLsbD 13 = true := by
    rw [rc5Word_bits _ _ (by decide)]; simp
  have hres : results (rc5Decoder t (rc5Table f)) conv
      (alternating true (rc5Wave len (rc5Word cmd.pack))) = some (List.replicate
        ((rc5Wave len (rc5Word cmd.pack)).length - 1) (.ok none) ++
          [.ok (some (conv { cmd with start := cmd.start ||| 2 }))]) := by
    unfold results
    rw [rc5Wave_cons _ _ h13] at hr ⊢
    simp only [alternating]
    simp only [List.tail_cons] at hr
    exact congrArg (Option.map Prod.snd) hr
  refine ⟨len, _, _, hlen, h1, h27, ?_, ?_⟩
  · rw [List.take_left]; exact hres
  · rw [List.take_left, C33_buffer_rc5 t hus _ (by simp [rc5Table]) conv _ _ hres]
    simp [commands]

theorem rc5_start_fixed (c : Rc5Command) (hs : c.start = 2 ∨ c.start = 3) :
    ({ c with start := c.start ||| 2 } : Rc5Command) = c := by
  have h : c.start ||| 2 = c.start := by rcases hs with hs | hs <;> rw [hs] <;> decide
  rw [h]

/-- **C40** for start bits 2 and 3 (the crate's own commands have 3): exact round trip. -/
theorem C40_rc5_roundtrip_exact (t : Target) (hus : 16 ≤ t.usizeBits) (m : Mono)
    (hm : m = Mono.u32 ∨ m = Mono.u64) (f : Nat) (hlo : 13000 ≤ f) (hf : f < 2 ^ 32)
    (tbl : PulseSpans) (htbl : rc5Spans t m f = some tbl) (conv : Rc5Command → K)
    (cmd : Rc5Command) (ha : cmd.addr.toNat < 32) (hc : cmd.cmd.toNat < 64)
    (hs : cmd.start = 2 ∨ cmd.start = 3) (slice : List Nat) (hsl : 27 ≤ slice.length) :
    ∃ len buf n, rc5CalcFreq f = some len ∧ rc5Encode t len cmd slice = some (buf, n) ∧ n ≤ 27 ∧
      results (rc5Decoder t tbl) conv (alternating true (buf.take n)) =
        some (List.replicate (n - 1) (.ok none) ++ [.ok (some (conv cmd))]) ∧
      bufferCollect (rc5Decoder t tbl) conv (buf.take n) = some [conv cmd] := by
  have h4 : cmd.start.toNat < 4 := by rcases hs with hs | hs <;> rw [hs] <;> decide
  have h := C40_rc5_roundtrip t hus m hm f hlo hf tbl htbl conv cmd ha hc h4 slice hsl
  rwa [rc5_start_fixed cmd hs] at h

/-- Non-vacuity: address 20, command 9, at 40 kHz. -/
example : ∃ len buf n, rc5CalcFreq 40000 = some len ∧
    rc5Encode ⟨true, 32⟩ len (Rc5Command.new 20 9 false) (List.replicate 27 0) = some (buf, n) ∧
    bufferCollect (rc5Decoder ⟨true, 32⟩ (rc5Table 40000)) id (buf.take n) =
      some [Rc5Command.new 20 9 false] := by
  obtain ⟨len, buf, n, h1, h2, -, -, h3⟩ := C40_rc5_roundtrip ⟨true, 32⟩ (by decide) Mono.u32 (.inl rfl)
    40000 (by decide) (by decide) _ (rc5Spans_eq (.inl rfl) _ (by decide)) id (Rc5Command.new 20 9 false)
    (by decide) (by decide) (by decide) (List.replicate 27 0) (by simp)
  exact ⟨len, buf, n, h1, h2, h3⟩

/-! ## C41: RC6 round trip -/

/-- Silence after a waveform adds at most one edge: the end of a final mark. -/
theorem edgesFrom_silence (p : Bool) (n : Nat) (ls : List Bool) (k : Nat) :
    edgesFrom p n (ls ++ List.replicate k false) = edgesFrom p n ls ∨
    ∃ c, edgesFrom p n (ls ++ List.replicate k false) = edgesFrom p n ls ++ [(false, c)] := by
  induction ls generalizing p n with
  | nil =>
    rw [List.nil_append]
    rcases k with _ | k
    · exact .inl rfl
    · have h := fun n => edgesFrom_replicate false n k []
      simp only [List.append_nil, edgesFrom] at h
      simp only [List.replicate_succ, edgesFrom]
      cases p
      · rw [if_pos rfl, h]; exact .inl rfl
      · rw [if_neg (by simp), h]; exact .inr ⟨n, rfl⟩
  | cons l ls ih =>
    rw [List.cons_append, edgesFrom, edgesFrom]
    split
    · exact ih _ _
    · rcases ih l 1 with h | ⟨c, h⟩
      · exact .inl (by rw [h])
      · exact .inr ⟨c, by rw [h]; rfl⟩

theorem rc6_results_abs (t : Target) (hus : 16 ≤ t.usizeBits) (tbl : PulseSpans)
    (hlen : tbl.spans.length ≤ 8) (conv : Rc6Command → K) (evs : List Ev)
    (hsafe : t.overflowChecks = false ∨ 8 * evs.length < 2 ^ t.usizeBits) :
    results (rc6Decoder t tbl) conv evs =
      some ((runTotal Abs6.step (Abs6.start false) (evs.map (measure tbl))).2.map (Res.map conv)) := by
  obtain ⟨d', h, -, -⟩ := rc6_run_ex t tbl hus hlen sim6_init evs (by
    rcases hsafe with h | h
    · exact .inl h
    · exact .inr (by simp only [rc6Init]; omega))
  exact results_of (D := rc6Decoder t tbl) conv h

theorem rc6_wave_frame_of (fits : Nat → Nat → Prop) (len : Nat)
    (hfits : fits (1 * len) 1 ∧ fits (2 * len) 2 ∧ fits (3 * len) 3 ∧ fits (6 * len) 6)
    (w : BitVec 16) (toggle : Bool) (g : Nat) :
    ∃ evs extra, (true, g) :: alternating false (rc6Wave len w toggle).tail = evs ++ extra ∧
      ManchesterFrame fits (rc6EdgesMode 0 w toggle) evs ∧
      (extra = [] ∨ ∃ d, extra = [(false, d)]) := by
  have hdef : edgesFrom false 0 (rc6LevelsMode 0 w toggle) = rc6EdgesMode 0 w toggle := rfl
  have hframe : ∀ n, ManchesterFrame fits (rc6EdgesMode 0 w toggle)
      ((true, n) :: alternating false ((rc6EdgesMode 0 w toggle).tail.map
        fun e => e.2 * len)) := by
    intro n
    have halt := edgesFrom_alternating false 0 (rc6LevelsMode 0 w toggle)
    rw [hdef, rc6Edges_eq 0 (.inl rfl)] at halt
    rw [rc6Edges_eq 0 (.inl rfl)]
    simp only [List.map_cons, alternating, List.cons.injEq, Bool.not_false, Bool.not_true] at halt
    refine ⟨n, 0, _, _, rfl, rfl, ?_⟩
    refine timed_wave _ _ _ halt.2 ?_
    intro e he
    obtain ⟨g1, g2, g3, g6⟩ := hfits
    rcases rc6_edges_len w toggle e he with h | h | h | h <;> rw [h]
    · exact g1
    · exact g2
    · exact g3
    · exact g6
  have hcons : rc6EdgesMode 0 w toggle = (true, 0) :: (rc6EdgesMode 0 w toggle).tail := by
    rw [rc6Edges_eq 0 (.inl rfl)]; rfl
  have hE : ∀ L, edgesFrom false 0 (rc6LevelsMode 0 w toggle ++ List.replicate 6 false) = L →
      (rc6Wave len w toggle).tail =
        L.tail.map (fun e => e.2 * len) := by
    rintro L rfl
    unfold rc6Wave
    rw [rc6Levels_edges]
    rfl
  rcases edgesFrom_silence false 0 (rc6LevelsMode 0 w toggle) 6 with h | ⟨c, h⟩
  · have h' := hE _ h
    refine ⟨_, [], ?_, hframe g, .inl rfl⟩
    rw [h', List.append_nil, hdef]
  · have h' := hE _ h
    rw [hdef, hcons] at h'
    simp only [List.cons_append, List.tail_cons, List.map_append, List.map_cons, List.map_nil] at h'
    refine ⟨_, [(xor false (((rc6EdgesMode 0 w toggle).tail.map
        fun e => e.2 * len).length % 2 == 1), c * len)], ?_,
      hframe g, .inr ⟨c * len, ?_⟩⟩
    · rw [h', alternating_append]
      rfl
    · -- the direction of the extra edge
      have halt := edgesFrom_alternating false 0 (rc6LevelsMode 0 w toggle ++ List.replicate 6 false)
      rw [h, hdef, hcons] at halt
      simp only [List.cons_append, List.map_cons, List.map_append, alternating, Bool.not_false,
        Bool.not_true, List.map_nil, List.cons.injEq, true_and] at halt
      rw [alternating_append] at halt
      have := (List.append_inj halt (by simp [alternating_length])).2
      simp only [alternating, List.cons.injEq, Prod.mk.injEq, and_true, List.length_map] at this
      simp only [List.length_map]
      rw [this]

theorem rc6_wave_frame (f : Nat) (hlo : 27028 ≤ f) (w : BitVec 16) (toggle : Bool) (g : Nat) :
    ∃ evs extra, (true, g) :: alternating false (rc6Wave (444 * f / 1000000) w toggle).tail =
        evs ++ extra ∧
      ManchesterFrame (HalfBits (rc6Table f)) (rc6EdgesMode 0 w toggle) evs ∧
      (extra = [] ∨ ∃ d, extra = [(false, d)]) := by
  refine rc6_wave_frame_of _ _ ?_ w toggle g
  obtain ⟨g1, g2, g3, g6⟩ := rc6_gets f hlo
  simp only [halfBits_iff, PulseSpans.half]
  refine ⟨?_, ?_, ?_, ?_⟩
  · rw [Nat.one_mul, g1]; rfl
  · rw [g2]; rfl
  · rw [g3]; rfl
  · rw [g6]; rfl

/-- The waveform with any first duration, received by a new receiver. -/
theorem rc6_wave_received (t : Target) (hus : 16 ≤ t.usizeBits) (f : Nat) (hlo : 27028 ≤ f)
    (conv : Rc6Command → K) (cmd : Rc6Command) (g : Nat) :
    ∃ k j, results (rc6Decoder t (rc6Table f)) conv
      ((true, g) :: alternating false (rc6Wave (444 * f / 1000000) (cmd.addr ++ cmd.cmd)
        cmd.toggle).tail) =
      some (List.replicate k (.ok none) ++ [.ok (some (conv cmd))] ++ List.replicate j (.ok none)) ∧
      j ≤ 1 := by
  have hl : (rc6Wave (444 * f / 1000000) (cmd.addr ++ cmd.cmd) cmd.toggle).length ≤ 44 := by
    unfold rc6Wave
    rw [rc6Levels_edges]
    have := rc6_edges_count (cmd.addr ++ cmd.cmd) 16 (!cmd.toggle) 2 6
    have hh : (rc6Head 0 cmd.toggle).length ≤ 10 := by cases cmd.toggle <;> decide
    simp only [manchesterWave, List.length_cons, List.length_map, List.length_append]
    omega
  have hp : 2 ^ 16 ≤ 2 ^ t.usizeBits := Nat.pow_le_pow_right (by decide) hus
  rw [rc6_results_abs t hus _ (by simp [rc6Table]) conv _ (.inr (by
    simp only [List.length_cons, alternating_length, List.length_tail]; omega))]
  obtain ⟨evs, extra, he, hfr, hex⟩ := rc6_wave_frame f hlo (cmd.addr ++ cmd.cmd) cmd.toggle g
  rw [he, List.map_append, runTotal_append]
  have hframe := rc6_abs_frame (rc6Table f) 0 (.inl rfl) _ cmd.toggle false false evs hfr
  rw [show Abs6.start false = ⟨.idle, 0, false, false⟩ from rfl, hframe, rc6_fromBits_append]
  rcases hex with rfl | ⟨d, rfl⟩
  · exact ⟨evs.length - 1, 0, by simp [runTotal, Res.map], by decide⟩
  · refine ⟨evs.length - 1, 1, ?_, by decide⟩
    have : (Abs6.step (Abs6.start cmd.toggle) (measure (rc6Table f) (false, d))).2 = .ok none := by
      unfold Abs6.step measure
      rcases (rc6Table f).half d with _ | k <;> rfl
    simp [runTotal, Res.map, this]

theorem rc6Wave_cons (len : Nat) (w : BitVec 16) (toggle : Bool) :
    rc6Wave len w toggle = 0 :: (rc6Wave len w toggle).tail := by
  unfold rc6Wave
  rw [rc6Levels_edges]
  rfl

/-- **C41**, from 27 028 Hz: for every frequency up to the limit of compilation and every command,
the encoder produces a waveform (of at most 44 entries) which a new receiver of that frequency decodes
to exactly that command, reporting nothing else; also through a `BufferIterator`.  Missing from the
full claim: lower frequencies, where it is false (`C41_rc6_fails_at_20khz`). -/
theorem C41_rc6_roundtrip_partial (t : Target) (hus : 16 ≤ t.usizeBits) (m : Mono)
    (hm : m = Mono.u32 ∨ m = Mono.u64) (f : Nat) (hlo : 27028 ≤ f) (hhi : f ≤ 9673349)
    (tbl : PulseSpans) (htbl : rc6Spans t m f = some tbl) (conv : Rc6Command → K)
    (cmd : Rc6Command) (slice : List Nat) (hsl : 44 ≤ slice.length) :
    ∃ len buf n k j, rc6Data f = some len ∧ rc6Encode len cmd slice = some (buf, n) ∧ n ≤ 44 ∧
      results (rc6Decoder t tbl) conv (alternating true (buf.take n)) =
        some (List.replicate k (.ok none) ++ [.ok (some (conv cmd))] ++
          List.replicate j (.ok none)) ∧ j ≤ 1 ∧
      bufferCollect (rc6Decoder t tbl) conv (buf.take n) = some [conv cmd] := by
  rw [rc6Spans_eq hm t (by omega), Option.some.injEq] at htbl
  subst htbl
  have hdata : rc6Data f = some (444 * f / 1000000) := if_pos (by omega)
  obtain ⟨-, hw, h44⟩ := C38_rc6_encode f _ hdata cmd
  have h1 := hw slice
  rw [if_pos (by omega)] at h1
  obtain ⟨k, j, hres, hj⟩ := rc6_wave_received t hus f hlo conv cmd 0
  have hcons := rc6Wave_cons (444 * f / 1000000) (cmd.addr ++ cmd.cmd) cmd.toggle
  have hres' : results (rc6Decoder t (rc6Table f)) conv
      (alternating true (rc6Wave (444 * f / 1000000) (cmd.addr ++ cmd.cmd) cmd.toggle)) =
      some (List.replicate k (.ok none) ++ [.ok (some (conv cmd))] ++
        List.replicate j (.ok none)) := by
    rw [hcons]
    exact hres
  refine ⟨_, _, _, k, j, hdata, h1, h44, ?_, hj, ?_⟩
  · rw [List.take_left]; exact hres'
  · rw [List.take_left, C33_buffer_rc6 t hus _ (by simp [rc6Table]) conv _ _ hres']
    simp [commands]

/-- Non-vacuity: 40 kHz, address 70, command 2. -/
example : ∃ len buf n, rc6Data 40000 = some len ∧
    rc6Encode len ⟨70, 2, true⟩ (List.replicate 44 0) = some (buf, n) ∧
    bufferCollect (rc6Decoder ⟨true, 32⟩ (rc6Table 40000)) id (buf.take n) = some [⟨70, 2, true⟩] := by
  obtain ⟨len, buf, n, k, j, h1, h2, -, -, -, h3⟩ := C41_rc6_roundtrip_partial ⟨true, 32⟩ (by decide)
    Mono.u32 (.inl rfl) 40000 (by decide) (by decide) _ (rc6Spans_eq (.inl rfl) _ (by decide)) id
    ⟨70, 2, true⟩ (List.replicate 44 0) (by simp)
  exact ⟨len, buf, n, h1, h2, h3⟩

/-- Without a pulse of six units nothing is ever received. -/
theorem rc6_no_leader (tbl : PulseSpans) (evs : List Ev) (hno : ∀ e ∈ evs, tbl.half e.2 ≠ some 6)
    (a : Abs6) (ha : a.st = .idle ∨ a.st = .leading) :
    ∀ x ∈ (runTotal Abs6.step a (evs.map (measure tbl))).2, x = .ok none := by
  induction evs generalizing a with
  | nil => simp [runTotal]
  | cons e es ih =>
    have hstep : (Abs6.step a (measure tbl e)).2 = .ok none ∧
        ((Abs6.step a (measure tbl e)).1.st = .idle ∨
          (Abs6.step a (measure tbl e)).1.st = .leading) := by
      have h6 := hno e (by simp)
      obtain ⟨edge, d⟩ := e
      simp only at h6
      unfold Abs6.step measure
      rcases hh : tbl.half d with _ | n
      · cases edge <;> simp [Abs6.idleStep, Abs6.start]
      · rw [hh] at h6
        have hn : n ≠ 6 := fun h => h6 (by rw [h])
        rcases ha with ha | ha
        · cases edge <;> simp [ha, Abs6.idleStep]
        · simp [ha, hn]
    intro x hx
    simp only [List.map_cons, runTotal, List.mem_cons] at hx
    rcases hx with rfl | hx
    · exact hstep.1
    · exact ih (fun e he => hno e (by simp [he])) _ hstep.2 x hx

theorem alternating_mem {b : Bool} {xs : List Nat} {e : Ev} (h : e ∈ alternating b xs) : e.2 ∈ xs := by
  induction xs generalizing b with
  | nil => cases h
  | cons x xs ih =>
    simp only [alternating, List.mem_cons] at h
    rcases h with rfl | h
    · simp
    · exact List.mem_cons_of_mem _ (ih h)

theorem rc6_tail_units (w : BitVec 16) (n : Nat) (prev : Bool) (c k : Nat) (hc : c ≤ 2) :
    ∀ e ∈ edgesFrom prev c (rc6Tail w n ++ List.replicate k false), e.2 ≤ 3 := by
  induction n generalizing prev c with
  | zero =>
    intro e he
    rcases edgesFrom_silence prev c (rc6Tail w 0) k with h | ⟨c', h⟩
    · rw [h] at he; simp [rc6Tail, edgesFrom] at he
    · rw [rc6Tail] at h he
      rcases k with _ | k
      · simp [edgesFrom] at he
      · have hr := edgesFrom_replicate false 1 k []
        simp only [List.append_nil, edgesFrom] at hr
        cases prev
        · have hr' := edgesFrom_replicate false c (k + 1) []
          simp only [List.append_nil, edgesFrom] at hr'
          rw [List.nil_append, hr'] at he
          cases he
        · rw [List.nil_append, List.replicate_succ, edgesFrom, if_neg (by simp), hr] at he
          simp only [List.mem_cons, List.not_mem_nil, or_false] at he
          subst he
          simp only
          omega
  | succ n ih =>
    rw [rc6Tail, List.cons_append, List.cons_append, edgesFrom_bit2]
    have := ih (!w.getLsbD n) 1 (by decide)
    split
    · intro e he
      rcases List.mem_cons.mp he with rfl | he
      · simp only; omega
      · exact this e he
    · intro e he
      rcases List.mem_cons.mp he with rfl | he
      · simp only; omega
      · rcases List.mem_cons.mp he with rfl | he
        · simp
        · exact this e he

/-- Every duration of the waveform is a multiple of the unit, at most six units. -/
theorem rc6_wave_units (len : Nat) (w : BitVec 16) (toggle : Bool) (d : Nat)
    (hd : d ∈ rc6Wave len w toggle) : ∃ u, d = u * len ∧ u ≤ 6 := by
  unfold rc6Wave at hd
  rw [rc6Levels_edges] at hd
  simp only [manchesterWave, List.mem_cons, List.mem_map, List.mem_append] at hd
  rcases hd with rfl | ⟨e, he | he, rfl⟩
  · exact ⟨0, by simp, by decide⟩
  · have : ∀ e ∈ rc6Head 0 toggle, e.2 ≤ 6 := by cases toggle <;> decide
    exact ⟨e.2, rfl, this e he⟩
  · have := rc6_tail_units w 16 (!toggle) 2 6 (by decide) e he
    exact ⟨e.2, rfl, by omega⟩

/-- **C41** is false at 20 kHz, the polling rate the documentation suggests: no command at all
survives the round trip (the leader, encoded with 48 ticks, is taken for five units). -/
theorem C41_rc6_fails_at_20khz (t : Target) (hus : 16 ≤ t.usizeBits) (conv : Rc6Command → K)
    (cmd : Rc6Command) (slice : List Nat) (hsl : 44 ≤ slice.length) :
    ∃ len buf n outs, rc6Data 20000 = some len ∧ rc6Encode len cmd slice = some (buf, n) ∧
      results (rc6Decoder t (rc6Table 20000)) conv (alternating true (buf.take n)) = some outs ∧
      ∀ x ∈ outs, x = .ok none := by
  obtain ⟨-, hw, h44⟩ := C38_rc6_encode 20000 8 rfl cmd
  have h1 := hw slice
  rw [if_pos (by omega)] at h1
  refine ⟨8, _, _, _, rfl, h1, rc6_results_abs t hus _ (by simp [rc6Table]) conv _ (.inr ?_), ?_⟩
  · have hp : 2 ^ 16 ≤ 2 ^ t.usizeBits := Nat.pow_le_pow_right (by decide) hus
    rw [List.take_left, alternating_length]
    omega
  · rw [List.take_left]
    have hno : ∀ e ∈ alternating true (rc6Wave 8 (cmd.addr ++ cmd.cmd) cmd.toggle),
        (rc6Table 20000).half e.2 ≠ some 6 := by
      intro e he
      obtain ⟨u, hu, h6⟩ := rc6_wave_units 8 _ _ _ (alternating_mem he)
      rw [hu]
      have : ∀ u ≤ 6, (rc6Table 20000).half (u * 8) ≠ some 6 := by decide
      exact this u h6
    intro x hx
    obtain ⟨y, hy, rfl⟩ := List.mem_map.mp hx
    rw [rc6_no_leader _ _ hno _ (.inl rfl) y hy]
    rfl

/-- The bound of `C41_rc6_roundtrip_partial` is sharp: one hertz below, the leader is misread. -/
theorem C41_rc6_fails_at_27027hz : ∃ len, rc6Data 27027 = some len ∧
    (rc6Encode len ⟨70, 2, true⟩ (List.replicate 44 0)).bind (fun p =>
      (results (rc6Decoder ⟨true, 32⟩ (rc6Table 27027)) id
        (alternating true (p.1.take p.2))).map commands) = some [] :=
  ⟨_, rfl, rfl⟩

end Infrared
