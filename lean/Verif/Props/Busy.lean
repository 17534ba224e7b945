import Verif.Props.ManchesterSession
import Verif.Spec.Busy

/-!
# C100: how long a sender is busy with a command, and how its transmissions end
-/

namespace Infrared

open Spec

variable {C : Type}

theorem held_split (l : Bool) (ds es : List Nat) (hds : ∀ d ∈ ds, 0 < d) :
    ∃ fr : List Bool, fr.length = ds.sum ∧
      (ds ≠ [] → fr.getLast? = some (!(xor l (ds.length % 2 == 1)))) ∧
      heldLevels l (ds ++ es) = fr ++ heldLevels (xor l (ds.length % 2 == 1)) es := by
  induction ds generalizing l with
  | nil => exact ⟨[], rfl, fun h => absurd rfl h, by simp⟩
  | cons d ds ih =>
    obtain ⟨fr, h1, h2, h3⟩ := ih (!l) fun x hx => hds x (by simp [hx])
    have hd := hds d (by simp)
    have hx : xor l ((d :: ds).length % 2 == 1) = xor (!l) (ds.length % 2 == 1) := by
      rw [List.length_cons]
      rcases Nat.mod_two_eq_zero_or_one ds.length with h | h
      · rw [h, show (ds.length + 1) % 2 = 1 by omega]; cases l <;> rfl
      · rw [h, show (ds.length + 1) % 2 = 0 by omega]; cases l <;> rfl
    refine ⟨List.replicate d l ++ fr, by simp [h1], fun _ => ?_, ?_⟩
    · rw [hx]
      rcases ds with _ | ⟨e, ds⟩
      · have : fr = [] := List.length_eq_zero_iff.mp h1
        subst this
        obtain ⟨n, rfl⟩ : ∃ n, d = n + 1 := ⟨d - 1, by omega⟩
        rw [List.append_nil, List.replicate_succ', List.getLast?_append]
        simp
      · rw [List.getLast?_append, h2 (by simp)]
        rfl
    · rw [hx, List.cons_append, heldLevels, h3, Nat.max_eq_left hd, List.append_assoc]

/-- C100, what being busy means: from the first to the `n`-th tick after a load every other load, of whatever encoder, leaves
the sender as it is; before and afterwards the encoder writes into the buffer. -/
theorem C100_ignored (s : Sender) (n : Nat) (h : BusyFor s n) (k : Nat) (enc : Encode) :
    (0 < k → k ≤ n → (s.ticks k).load enc = some (s.ticks k)) ∧
    (k = 0 ∨ n < k → ∀ buf len, enc (s.ticks k).buffer.ptb.buf = some (buf, len) →
      ∃ s', (s.ticks k).load enc = some s' ∧ s'.buffer.ptb.buf = buf) := by
  refine ⟨fun h1 h2 => if_neg (by rw [h k]; omega), fun h1 buf len henc => ?_⟩
  rw [Sender.load, if_pos ((h k).mpr h1)]
  simp only [PulsedataSender.loadCommand, PulsedataSender.reset, PulsedataBuffer.reset, PulsedataBuffer.load, List.drop_zero,
    Nat.zero_le, if_true, henc, List.take_zero, List.nil_append, Option.bind_eq_bind, Option.bind_some]
  exact ⟨_, rfl, rfl⟩

/-- **C100**, for every encoder that starts with 0: the sender is busy for the durations of the waveform and of
whatever the rest of the buffer holds (at least a tick each) and one tick more, and the output changes for the last time
of the waveform when its durations are over. -/
theorem C100_busy (s : Sender) (hidle : s.buffer.status = .idle) (enc : Encode) (ds : List Nat)
    (henc : Writes enc (0 :: ds)) (hne : ds ≠ []) (hpos : ∀ d ∈ ds, 0 < d ∧ d < 2 ^ 32)
    (hlen : ds.length < s.buffer.ptb.buf.length)
    (hold : ∀ d ∈ s.buffer.ptb.buf.drop (ds.length + 1), d < 2 ^ 32) :
    ∃ s', s.load enc = some s' ∧
      BusyFor s' (ds.sum + ((s.buffer.ptb.buf.drop (ds.length + 1)).map fun d => max d 1).sum + 1) ∧
      TrailsOff s' ds.sum (xor true (ds.length % 2 == 1)) (s.buffer.ptb.buf.drop (ds.length + 1)) := by
  have h := henc s.buffer.ptb.buf
  rw [if_pos (by rw [List.length_cons]; omega)] at h
  have hb : ∀ d ∈ (0 :: ds) ++ s.buffer.ptb.buf.drop (0 :: ds).length, d < 2 ^ 32 := by
    intro d hd
    rcases List.mem_append.mp hd with hd | hd
    · rcases List.mem_cons.mp hd with rfl | hd
      · decide
      · exact (hpos d hd).2
    · exact hold d hd
  obtain ⟨s', h1, h2⟩ := C44_idle_iff s hidle enc _ _ h hb
  obtain ⟨s'', h1', h3⟩ := C42_run_length s hidle enc _ _ h hb
  rw [h1, Option.some.injEq] at h1'
  subst h1'
  rw [List.length_cons] at h2 h3
  obtain ⟨fr, f1, f2, f3⟩ := held_split true ds (s.buffer.ptb.buf.drop (ds.length + 1)) fun d hd => (hpos d hd).1
  have ht : transmission (0 :: ds ++ s.buffer.ptb.buf.drop (ds.length + 1)) =
      fr ++ heldLevels (xor true (ds.length % 2 == 1)) (s.buffer.ptb.buf.drop (ds.length + 1)) := by
    rw [List.cons_append, transmission, List.replicate_zero, List.nil_append, f3]
  rw [ht] at h2 h3
  have hsum : 0 < ds.sum := by
    obtain ⟨d, ds', rfl⟩ := List.exists_cons_of_ne_nil hne
    have := (hpos d (by simp)).1
    rw [List.sum_cons]; omega
  refine ⟨s', h1, fun k => ?_, hsum, fun m hm => ?_⟩
  · rw [h2, List.cons_append, List.headD_cons, List.length_append, f1, held_length]
    have : atLeastOne (s.buffer.ptb.buf.drop (ds.length + 1)) =
      (s.buffer.ptb.buf.drop (ds.length + 1)).map fun d => max d 1 := rfl
    rw [this]
    omega
  · rw [h3, List.append_assoc]
    constructor
    · rw [List.getElem?_take, if_pos (by omega), List.getElem?_append_left (by omega), ← f1, ← List.getLast?_eq_getElem?,
        f2 hne]
    · rw [List.drop_take, ← f1, List.drop_left]

/-- **C100**: what empty slots make of the end: one tick each, alternating. -/
theorem C100_spare (level : Bool) (k : Nat) :
    heldLevels level (List.replicate k 0) = (List.range (k + 1)).map fun i => xor level (i % 2 == 1) := by
  induction k generalizing level with
  | zero => cases level <;> rfl
  | succ k ih =>
    rw [List.replicate_succ, heldLevels, ih, List.range_succ_eq_map (n := k + 1), List.map_cons, List.map_map]
    refine List.cons_eq_cons.mpr ⟨by cases level <;> rfl, List.map_congr_left fun i _ => ?_⟩
    simp only [Function.comp, Nat.succ_eq_add_one]
    rcases Nat.mod_two_eq_zero_or_one i with h | h
    · rw [h, show (i + 1) % 2 = 1 by omega]; cases level <;> rfl
    · rw [h, show (i + 1) % 2 = 0 by omega]; cases level <;> rfl

/-! ## NEC family -/

theorem necWave_sum (hm hs mk z o : Nat) (w : BitVec 32) :
    (necWave hm hs mk z o w).tail.sum = hm + hs + ones w * (mk + o) + (32 - ones w) * (mk + z) := by
  have key : ∀ n, ((List.range n).flatMap fun i => [mk, if w.getLsbD i then o else z]).sum =
      ((List.range n).filter fun i => w.getLsbD i).length * (mk + o) +
        (n - ((List.range n).filter fun i => w.getLsbD i).length) * (mk + z) := by
    intro n
    induction n with
    | zero => simp
    | succ n ih =>
      have hle : ((List.range n).filter fun i => w.getLsbD i).length ≤ n := by
        have := List.length_filter_le (fun i => w.getLsbD i) (List.range n)
        rwa [List.length_range] at this
      rw [List.range_succ, List.flatMap_append, List.sum_append, ih, List.filter_append, List.length_append]
      generalize ((List.range n).filter fun i => w.getLsbD i).length = c at *
      cases hb : w.getLsbD n
      · simp only [List.flatMap_cons, List.flatMap_nil, hb, List.filter_cons, List.filter_nil, Bool.false_eq_true,
          if_false, List.length_nil, Nat.add_zero]
        rw [show n + 1 - c = (n - c) + 1 by omega, Nat.add_mul (n - c)]
        simp
        omega
      · simp only [List.flatMap_cons, List.flatMap_nil, hb, List.filter_cons, List.filter_nil, if_true, List.length_cons,
          List.length_nil, Nat.zero_add]
        rw [show n + 1 - (c + 1) = n - c by omega, Nat.add_mul c]
        simp
        omega
  have := key 32
  simp only [necWave, List.cons_append, List.nil_append, List.tail_cons, List.sum_cons]
  rw [this]
  unfold ones
  omega

theorem ones_le (w : BitVec 32) : ones w ≤ 32 := by
  have := List.length_filter_le (fun i => w.getLsbD i) (List.range 32)
  rwa [List.length_range] at this

theorem one_ticks {k A f u : Nat} (h1 : 1000000 * A ≤ u * f) (h2 : u * f ≤ 1000000 * A + (2000000 + u * 1000)) :
    1000000 * (k * A) ≤ u * (k * f) ∧ u * (k * f) ≤ 1000000 * (k * A) + k * (2000000 + u * 1000) := by
  have a := Nat.mul_le_mul_left k h1
  have b := Nat.mul_le_mul_left k h2
  rw [Nat.mul_add, Nat.mul_left_comm k u, Nat.mul_left_comm k 1000000] at b
  rw [Nat.mul_left_comm k u, Nat.mul_left_comm k 1000000] at a
  exact ⟨a, b⟩

theorem necWave_ticks {p : NecPulseLen} (hp : p = necStandardTiming ∨ p = necSamsungTiming) {f : Nat} {data : NecData}
    (h : necData p f = some data) (w : BitVec 32) :
    TicksOfAll 66 (necMicros p.headerHigh p.headerLow (ones w)) f
      (necWave data.headerHigh data.headerLow data.dataHigh data.dataZeroLow data.dataOneLow w).tail.sum := by
  obtain ⟨⟨a1, a2⟩, ⟨b1, b2⟩, -, ⟨d1, d2⟩, ⟨e1, e2⟩, ⟨g1, g2⟩⟩ := C38_nec_ticks p f data h
  have hlow : p.dataHigh = 560 ∧ p.dataZeroLow = 560 ∧ p.dataOneLow = 1690 := by
    rcases hp with rfl | rfl <;> exact ⟨rfl, rfl, rfl⟩
  rw [hlow.1] at d1 d2
  rw [hlow.2.1] at e1 e2
  rw [hlow.2.2] at g1 g2
  rw [necWave_sum]
  have hk := ones_le w
  generalize ones w = k at *
  obtain ⟨j, hj⟩ : ∃ j, j = 32 - k := ⟨_, rfl⟩
  obtain ⟨A, hA⟩ : ∃ A, A = data.dataHigh + data.dataOneLow := ⟨_, rfl⟩
  obtain ⟨B, hB⟩ : ∃ B, B = data.dataHigh + data.dataZeroLow := ⟨_, rfl⟩
  have one := one_ticks (k := k) (A := A) (f := f) (u := 2250) (by omega) (by omega)
  have zero := one_ticks (k := j) (A := B) (f := f) (u := 1120) (by omega) (by omega)
  unfold TicksOfAll necMicros
  rw [← hj, ← hA, ← hB]
  have hsplit : ∀ h, (h + k * (560 + 1690) + j * (560 + 560)) * f = h * f + 2250 * (k * f) + 1120 * (j * f) := by
    intro h
    rw [Nat.add_mul, Nat.add_mul, Nat.mul_right_comm, Nat.mul_right_comm j, Nat.mul_comm (k * f), Nat.mul_comm (j * f)]
  rw [hsplit]
  generalize k * A = x1 at *
  generalize j * B = x2 at *
  generalize k * f = x3 at *
  generalize j * f = x4 at *
  rw [Nat.add_mul p.headerHigh]
  generalize p.headerHigh * f = x5 at *
  generalize p.headerLow * f = x6 at *
  generalize p.headerHigh = y1 at *
  generalize p.headerLow = y2 at *
  generalize data.headerHigh = z1 at *
  generalize data.headerLow = z2 at *
  clear hsplit hp h hlow
  omega

/-- **C100** for the NEC family: sent by an idle sender whose `k` spare slots are empty, the time from the first tick to
the beginning of the stop mark is that of the word's ones and zeros; then comes one tick for the stop mark and one for
each spare slot. -/
theorem C100_nec (v : NecVariant C) (hv : v.Shipped) (f : Nat) (hlo : 20000 ≤ f) (data : NecData)
    (hdata : necData v.pulseDistance f = some data) (cmd : C) (w : BitVec 32) (hw : v.pack cmd = some w) (s : Sender)
    (hidle : s.buffer.status = .idle) (k : Nat) (hlen : s.buffer.ptb.buf.length = 67 + k)
    (hz : s.buffer.ptb.buf.drop 67 = List.replicate k 0) :
    ∃ s' t, s.load (necEncode v data cmd) = some s' ∧
      TicksOfAll 66 (necMicros v.pulseDistance.headerHigh v.pulseDistance.headerLow (ones w)) f t ∧
      BusyFor s' (t + k + 1) ∧ TrailsOff s' t true (List.replicate k 0) := by
  obtain ⟨h1, h2⟩ := C38_nec_encode v data cmd w hw
  obtain ⟨p1, p2, p3, p4, p5⟩ := necData_pos (by omega) hdata hv
  have hds := necWave_pos _ _ _ _ _ w p1 p2 p3 p4 p5
  have ht := necWave_ticks hv hdata w
  have hc : necWave data.headerHigh data.headerLow data.dataHigh data.dataZeroLow data.dataOneLow w =
    0 :: (necWave data.headerHigh data.headerLow data.dataHigh data.dataZeroLow data.dataOneLow w).tail := rfl
  have hl : (necWave data.headerHigh data.headerLow data.dataHigh data.dataZeroLow data.dataOneLow w).tail.length = 66 := by
    rw [List.length_tail, h2]
  rw [hc] at h1
  generalize (necWave data.headerHigh data.headerLow data.dataHigh data.dataZeroLow data.dataOneLow w).tail = ds at *
  have hd : s.buffer.ptb.buf.drop (ds.length + 1) = List.replicate k 0 := by rw [hl]; exact hz
  obtain ⟨s', e1, e2, e3⟩ := C100_busy s hidle _ ds h1 (by intro h; rw [h] at hl; simp at hl) hds (by omega) (by
    rw [hd]; intro d hd; rw [(List.mem_replicate.mp hd).2]; decide)
  rw [hd] at e2 e3
  rw [hl] at e3
  refine ⟨s', ds.sum, e1, ht, ?_, e3⟩
  simpa [Nat.add_comm, Nat.add_left_comm] using e2

/-- **C100**: so the stop mark of every NEC transmission is one tick long, at all frequencies from 20 kHz not the 560 us
of the protocol. -/
theorem C100_nec_stop_mark (v : NecVariant C) (hv : v.Shipped) (f : Nat) (hlo : 20000 ≤ f) (data : NecData)
    (hdata : necData v.pulseDistance f = some data) (cmd : C) (w : BitVec 32) (hw : v.pack cmd = some w) (s : Sender)
    (hidle : s.buffer.status = .idle) (k : Nat) (hlen : s.buffer.ptb.buf.length = 67 + k)
    (hz : s.buffer.ptb.buf.drop 67 = List.replicate k 0) :
    (∃ s' t, s.load (necEncode v data cmd) = some s' ∧
      TicksOfAll 66 (necMicros v.pulseDistance.headerHigh v.pulseDistance.headerLow (ones w)) f t ∧
      0 < t ∧ ∀ m, t + 2 ≤ m → (s'.pins m)[t - 1]? = some false ∧ (s'.pins m)[t]? = some true ∧
        (s'.pins m)[t + 1]? = some false) ∧ ¬ TicksOf 560 f 1 := by
  constructor
  · obtain ⟨s', t, h1, h2, -, h3, h4⟩ := C100_nec v hv f hlo data hdata cmd w hw s hidle k hlen hz
    refine ⟨s', t, h1, h2, h3, fun m hm => ?_⟩
    obtain ⟨h5, h6⟩ := h4 m (by omega)
    refine ⟨h5, ?_⟩
    have at_ : ∀ i, (s'.pins m)[t + i]? = ((heldLevels true (List.replicate k 0) ++ List.replicate m false).take (m - t))[i]? := by
      intro i
      rw [← h6, List.getElem?_drop]
    obtain ⟨n, rfl⟩ : ∃ n, m = n + 2 := ⟨m - 2, by omega⟩
    refine ⟨(at_ 0).trans ?_, (at_ 1).trans ?_⟩
    · rw [List.getElem?_take, if_pos (by omega), heldLevels_cons]
      rfl
    · rw [List.getElem?_take, if_pos (by omega)]
      rcases k with _ | k
      · rfl
      · rw [List.replicate_succ, heldLevels, heldLevels_cons]
        rfl
  · unfold TicksOf
    omega

/-! ### Ones of the words -/

theorem count_add (p : Nat → Bool) (a b : Nat) :
    ((List.range (a + b)).filter p).length =
      ((List.range a).filter p).length + ((List.range b).filter fun i => p (a + i)).length := by
  rw [List.range_add, List.filter_append, List.length_append, List.filter_map, List.length_map]
  rfl

theorem count_not (p : Nat → Bool) (n : Nat) :
    ((List.range n).filter p).length + ((List.range n).filter fun i => !p i).length = n := by
  induction n with
  | zero => rfl
  | succ n ih =>
    rw [List.range_succ, List.filter_append, List.filter_append, List.length_append, List.length_append]
    cases h : p n <;> simp [h] <;> omega

theorem count_congr {p q : Nat → Bool} {n : Nat} (h : ∀ i < n, p i = q i) :
    ((List.range n).filter p).length = ((List.range n).filter q).length := by
  rw [List.filter_congr fun i hi => h i (List.mem_range.mp hi)]

theorem ones_bytes (w : BitVec 32) :
    ones w = ((List.range 8).filter fun i => w.getLsbD i).length +
      ((List.range 8).filter fun i => w.getLsbD (8 + i)).length +
      ((List.range 8).filter fun i => w.getLsbD (16 + i)).length +
      ((List.range 8).filter fun i => w.getLsbD (24 + i)).length := by
  have h1 := count_add (fun i => w.getLsbD i) 24 8
  have h2 := count_add (fun i => w.getLsbD i) 16 8
  have h3 := count_add (fun i => w.getLsbD i) 8 8
  unfold ones
  simp only [Nat.reduceAdd] at h1 h2 h3
  omega

/-- **C100**: half of the bits of a standard NEC word are ones (so all commands take the same time); of a Samsung word
8 and twice the ones of the address; of a Nec16 word 8 and the ones of the address. -/
theorem C100_ones (a : NecCommand) (b : SamsungNecCommand) (c : Nec16Command) :
    ones a.pack = 16 ∧ ones b.pack = 8 + 2 * ones b.addr ∧ ones c.pack = 8 + ones c.addr := by
  refine ⟨?_, ?_, ?_⟩
  · have h := C01_nec_pack_layout a
    rw [ones_bytes, count_congr (q := fun i => a.addr.getLsbD i) fun i hi => (h i hi).1,
      count_congr fun i hi => (h i hi).2.1, count_congr (q := fun i => a.cmd.getLsbD i) fun i hi => (h i hi).2.2.1,
      count_congr fun i hi => (h i hi).2.2.2]
    have h1 := count_not (fun i => a.addr.getLsbD i) 8
    have h2 := count_not (fun i => a.cmd.getLsbD i) 8
    omega
  · have h := C02_samsung_pack_layout b
    rw [ones_bytes, count_congr (q := fun i => b.addr.getLsbD i) fun i hi => (h i hi).1,
      count_congr (q := fun i => b.addr.getLsbD i) fun i hi => (h i hi).2.1,
      count_congr (q := fun i => b.cmd.getLsbD i) fun i hi => (h i hi).2.2.1, count_congr fun i hi => (h i hi).2.2.2]
    have h2 := count_not (fun i => b.cmd.getLsbD i) 8
    unfold ones
    omega
  · have h := C03_nec16_pack_layout c
    rw [ones_bytes, count_congr (q := fun i => c.addr.getLsbD i) fun i hi => h.1 i (by omega),
      count_congr fun i hi => h.1 (8 + i) (by omega),
      count_congr (q := fun i => c.cmd.getLsbD i) fun i hi => (h.2 i hi).1, count_congr fun i hi => (h.2 i hi).2]
    have h2 := count_not (fun i => c.cmd.getLsbD i) 8
    have h3 := count_add (fun i => c.addr.getLsbD i) 8 8
    simp only [Nat.reduceAdd] at h3
    unfold ones
    omega

/-- **C100**: microseconds up to the stop mark: standard NEC always 67 420, Samsung 53 880 to 71 960, Nec16 58 380 to
76 460, any word 49 340 to 85 500 (standard) or 44 840 to 81 000 (Samsung timing). -/
theorem C100_nec_micros (a : NecCommand) (b : SamsungNecCommand) (c : Nec16Command) (w : BitVec 32) :
    necMicros 9000 4500 (ones a.pack) = 67420 ∧
    (53880 ≤ necMicros 4500 4500 (ones b.pack) ∧ necMicros 4500 4500 (ones b.pack) ≤ 71960) ∧
    (58380 ≤ necMicros 9000 4500 (ones c.pack) ∧ necMicros 9000 4500 (ones c.pack) ≤ 76460) ∧
    (49340 ≤ necMicros 9000 4500 (ones w) ∧ necMicros 9000 4500 (ones w) ≤ 85500) ∧
    44840 ≤ necMicros 4500 4500 (ones w) ∧ necMicros 4500 4500 (ones w) ≤ 81000 := by
  obtain ⟨h1, h2, h3⟩ := C100_ones a b c
  have h4 := ones_le w
  have h5 : ones b.addr ≤ 8 := by
    have := List.length_filter_le (fun i => b.addr.getLsbD i) (List.range 8)
    rwa [List.length_range] at this
  have h6 : ones c.addr ≤ 16 := by
    have := List.length_filter_le (fun i => c.addr.getLsbD i) (List.range 16)
    rwa [List.length_range] at this
  unfold necMicros
  rw [h1, h2, h3]
  omega

/-! ## RC5 and RC6 -/

theorem xor_succ (b : Bool) (n : Nat) : xor (!b) ((n + 1) % 2 == 1) = xor b (n % 2 == 1) := by
  rcases Nat.mod_two_eq_zero_or_one n with h | h
  · rw [h, show (n + 1) % 2 = 1 by omega]; cases b <;> rfl
  · rw [h, show (n + 1) % 2 = 0 by omega]; cases b <;> rfl

theorem rc5_tail_sum (w : BitVec 14) (len : Nat) (n : Nat) (prev : Bool) :
    ((edgesFrom prev 1 (rc5Tail w n)).map fun e => e.2 * len).sum = 2 * n * len ∧
      xor prev ((edgesFrom prev 1 (rc5Tail w n)).length % 2 == 1) = if n = 0 then prev else w.getLsbD 0 := by
  induction n generalizing prev with
  | zero => simp [rc5Tail, edgesFrom]
  | succ n ih =>
    rw [rc5Tail, edgesFrom_bit]
    obtain ⟨h1, h2⟩ := ih (w.getLsbD n)
    have hn : (if n = 0 then w.getLsbD n else w.getLsbD 0) = w.getLsbD 0 := by
      split
      · rename_i h; rw [h]
      · rfl
    rw [hn] at h2
    rw [if_neg (Nat.succ_ne_zero n), ← h2]
    have e1 : 2 * (n + 1) * len = 2 * n * len + 2 * len := by rw [Nat.mul_add, Nat.add_mul]
    rw [e1, ← h1]
    clear ih h1 h2 hn e1
    generalize edgesFrom (w.getLsbD n) 1 (rc5Tail w n) = l
    generalize w.getLsbD n = b
    split
    · rename_i h
      subst h
      refine ⟨?_, ?_⟩
      · simp only [List.map_cons, List.sum_cons]; omega
      · rw [List.length_cons, List.length_cons, show (l.length + 1 + 1) % 2 = l.length % 2 by omega]
    · rename_i h
      refine ⟨?_, ?_⟩
      · simp only [List.map_cons, List.sum_cons]; omega
      · have hp : prev = !b := by cases b <;> cases prev <;> simp_all
        rw [hp, List.length_cons]
        exact xor_succ b l.length

/-- **C100** for RC5: every command takes 26 half-bits from the first edge to the last one, the middle of the last bit.
If that bit is a one the output stays on for as long as the next slot of the buffer says, or one tick. -/
theorem C100_rc5 (t : Target) (f : Nat) (hlo : 20000 ≤ f) (hf : f < 2 ^ 32) (cmd : Rc5Command) (s : Sender)
    (hidle : s.buffer.status = .idle) (hlen : 27 ≤ s.buffer.ptb.buf.length) (hold : ∀ d ∈ s.buffer.ptb.buf, d < 2 ^ 32) :
    ∃ len n s', rc5CalcFreq f = some len ∧ TicksOf 889 f len ∧ 14 ≤ n ∧ n ≤ 27 ∧ s.load (rc5Encode t len cmd) = some s' ∧
      BusyFor s' (26 * len + ((s.buffer.ptb.buf.drop n).map fun d => max d 1).sum + 1) ∧
      TrailsOff s' (26 * len) (cmd.cmd.getLsbD 0) (s.buffer.ptb.buf.drop n) := by
  obtain ⟨len, hl, ht, henc⟩ := C38_rc5_encode t f hf
  obtain ⟨hw, h14, h27⟩ := henc cmd
  have e := (rc5CalcFreq_eq hf hl).2 (by omega)
  have hl2 := (rc5CalcFreq_eq hf hl).1
  have hl0 : 0 < len := by rw [e]; omega
  have h13 : (rc5Word cmd.pack).getLsbD 13 = true := by
    rw [rc5Word_bits _ _ (by decide)]; simp
  have hb : (rc5Word cmd.pack).getLsbD 0 = cmd.cmd.getLsbD 0 := by
    rw [rc5Word_bits _ _ (by decide)]
    simp [Rc5Command.pack]
  have htail := rc5_wave_tail hl0 h13
  have hsum : (rc5Wave len (rc5Word cmd.pack)).tail.sum = 26 * len ∧
      xor true ((rc5Wave len (rc5Word cmd.pack)).tail.length % 2 == 1) = cmd.cmd.getLsbD 0 := by
    unfold rc5Wave
    rw [rc5Edges_eq _ h13]
    simp only [manchesterWave, List.tail_cons, List.length_map]
    have := rc5_tail_sum (rc5Word cmd.pack) len 13 true
    rw [hb] at this
    exact this
  rw [rc5Wave_cons _ _ h13] at hw h14 h27
  generalize (rc5Wave len (rc5Word cmd.pack)).tail = ds at *
  simp only [List.length_cons] at h14 h27
  obtain ⟨s', e1, e2, e3⟩ := C100_busy s hidle _ ds hw (by intro h; rw [h] at h14; simp at h14)
    (fun d hd => by have := htail d hd; omega) (by omega) (fun d hd => hold d (List.mem_of_mem_drop hd))
  rw [hsum.1] at e2 e3
  rw [hsum.2] at e3
  exact ⟨len, ds.length + 1, s', hl, ht, h14, h27, e1, e2, e3⟩

theorem rc6_tail_sum (w : BitVec 16) (len : Nat) (n : Nat) (prev : Bool) (c : Nat) :
    ((edgesFrom prev c (rc6Tail w n ++ List.replicate 6 false)).map fun e => e.2 * len).sum =
        (if n = 0 then (if prev then c else 0) else c + 2 * n - 1 + (if w.getLsbD 0 then 0 else 1)) * len ∧
      xor prev ((edgesFrom prev c (rc6Tail w n ++ List.replicate 6 false)).length % 2 == 1) = false := by
  induction n generalizing prev c with
  | zero => cases prev <;> simp [rc6Tail, edgesFrom, List.replicate]
  | succ n ih =>
    rw [rc6Tail, List.cons_append, List.cons_append, edgesFrom_bit2]
    obtain ⟨h1, h2⟩ := ih (!w.getLsbD n) 1
    rw [if_neg (Nat.succ_ne_zero n)]
    have hn : (if n = 0 then (if (!w.getLsbD n) = true then 1 else 0) else 1 + 2 * n - 1 + (if w.getLsbD 0 then 0 else 1)) =
        2 * n + if w.getLsbD 0 then 0 else 1 := by
      rcases n with _ | n
      · cases w.getLsbD 0 <;> rfl
      · rw [if_neg (Nat.succ_ne_zero n)]; omega
    rw [hn] at h1
    clear ih hn
    generalize (if w.getLsbD 0 then 0 else 1) = z at *
    have e1 : (c + 2 * (n + 1) - 1 + z) * len = c * len + len + (2 * n + z) * len := by
      rw [show c + 2 * (n + 1) - 1 + z = c + 1 + (2 * n + z) by omega, Nat.add_mul, Nat.add_mul c, Nat.one_mul]
    rw [e1, ← h1]
    clear h1 e1
    generalize edgesFrom (!w.getLsbD n) 1 (rc6Tail w n ++ List.replicate 6 false) = l at *
    generalize w.getLsbD n = b at *
    split
    · rename_i h
      subst h
      refine ⟨?_, ?_⟩
      · simp only [List.map_cons, List.sum_cons, Nat.add_mul]; omega
      · rw [List.length_cons, ← h2]
        have := xor_succ (!b) l.length
        rwa [Bool.not_not] at this
    · rename_i h
      have hp : prev = !b := by cases b <;> cases prev <;> simp_all
      refine ⟨?_, ?_⟩
      · simp only [List.map_cons, List.sum_cons]; omega
      · rw [hp, List.length_cons, List.length_cons, show (l.length + 1 + 1) % 2 = l.length % 2 by omega, h2]

theorem sum_scaled (l : List (Bool × Nat)) (len : Nat) : (l.map fun e => e.2 * len).sum = (l.map Prod.snd).sum * len := by
  induction l with
  | nil => simp
  | cons e l ih => simp only [List.map_cons, List.sum_cons, ih, Nat.add_mul]

/-- The waveform of an RC6 command takes 51 half-bits if the command is odd, else 52, and ends with the output off. -/
theorem rc6_wave_sum (len : Nat) (cmd : Rc6Command) :
    (rc6Wave len (cmd.addr ++ cmd.cmd) cmd.toggle).tail.sum =
        (if cmd.cmd.getLsbD 0 then 51 else 52) * len ∧
      xor true ((rc6Wave len (cmd.addr ++ cmd.cmd) cmd.toggle).tail.length % 2 == 1) = false := by
  have hb : (cmd.addr ++ cmd.cmd).getLsbD 0 = cmd.cmd.getLsbD 0 := by
    rw [BitVec.getLsbD_append]; rfl
  unfold rc6Wave
  rw [rc6Levels_edges]
  obtain ⟨h1, h2⟩ := rc6_tail_sum (cmd.addr ++ cmd.cmd) len 16 (!cmd.toggle) 2
  rw [if_neg (by decide), hb] at h1
  have hh : ((rc6Head 0 cmd.toggle).map fun e => e.2 * len).sum = 18 * len ∧
      ((rc6Head 0 cmd.toggle).length % 2 == 1) = cmd.toggle := by
    rw [sum_scaled]
    cases cmd.toggle
    · exact ⟨congrArg (· * len) (by decide : ((rc6Head 0 false).map Prod.snd).sum = 18), by decide⟩
    · exact ⟨congrArg (· * len) (by decide : ((rc6Head 0 true).map Prod.snd).sum = 18), by decide⟩
  simp only [manchesterWave, List.tail_cons, List.map_append, List.sum_append, List.length_append, List.length_map]
  rw [hh.1, h1]
  refine ⟨?_, ?_⟩
  · cases cmd.cmd.getLsbD 0 <;> simp <;> omega
  · generalize (edgesFrom (!cmd.toggle) 2 (rc6Tail (cmd.addr ++ cmd.cmd) 16 ++ List.replicate 6 false)).length = x at *
    generalize (rc6Head 0 cmd.toggle).length = y at *
    have hh2 := hh.2
    rcases Nat.mod_two_eq_zero_or_one x with hx | hx <;> rcases Nat.mod_two_eq_zero_or_one y with hy | hy <;>
      rw [hx] at h2 <;> rw [hy] at hh2 <;> rw [← hh2] at h2 <;> rw [Nat.add_mod, hx, hy] <;> first | rfl | cases h2

/-- **C100** for RC6: a command takes 51 half-bits from the first edge to the last one if its last bit is a one, else 52;
the last edge switches the output off, so that the last mark has its full length. -/
theorem C100_rc6 (f : Nat) (hlo : 27028 ≤ f) (hhi : f ≤ 9673349) (cmd : Rc6Command) (s : Sender)
    (hidle : s.buffer.status = .idle) (hlen : 44 ≤ s.buffer.ptb.buf.length) (hold : ∀ d ∈ s.buffer.ptb.buf, d < 2 ^ 32) :
    ∃ len n s', rc6Data f = some len ∧ TicksOf 444 f len ∧ n ≤ 44 ∧ s.load (rc6Encode len cmd) = some s' ∧
      BusyFor s' ((if cmd.cmd.getLsbD 0 then 51 else 52) * len + ((s.buffer.ptb.buf.drop n).map fun d => max d 1).sum + 1) ∧
      TrailsOff s' ((if cmd.cmd.getLsbD 0 then 51 else 52) * len) false (s.buffer.ptb.buf.drop n) := by
  have hdata : rc6Data f = some (444 * f / 1000000) := if_pos (by omega)
  obtain ⟨ht, hw, h44⟩ := C38_rc6_encode f _ hdata cmd
  have hpos := rc6_wave_pos f (by omega) hhi cmd
  have hsum := rc6_wave_sum (444 * f / 1000000) cmd
  rw [rc6Wave_cons] at hw h44
  generalize (rc6Wave (444 * f / 1000000) (cmd.addr ++ cmd.cmd) cmd.toggle).tail = ds at *
  simp only [List.length_cons] at h44
  have hne : ds ≠ [] := by
    rintro rfl
    simp only [List.length_nil] at hsum
    cases hsum.2
  obtain ⟨s', e1, e2, e3⟩ := C100_busy s hidle _ ds hw hne hpos (by omega) (fun d hd => hold d (List.mem_of_mem_drop hd))
  rw [hsum.1] at e2 e3
  rw [hsum.2] at e3
  exact ⟨_, ds.length + 1, s', hdata, ht, h44, e1, e2, e3⟩

/-- Non-vacuity: a NEC command at 20 kHz, buffer of 67. -/
example : ∃ data s' t, necData necStandardTiming 20000 = some data ∧
    (Sender.new 67 false).load (necEncode nec data ⟨4, 8, false⟩) = some s' ∧
    TicksOfAll 66 67420 20000 t ∧ BusyFor s' (t + 0 + 1) ∧ TrailsOff s' t true [] := by
  obtain ⟨data, hdata⟩ := Option.isSome_iff_exists.mp ((C38_nec_compiles 20000 (by decide)).1.mpr (by decide))
  obtain ⟨s', t, h1, h2, h3, h4⟩ := C100_nec nec (.inl rfl) 20000 (by decide) data hdata ⟨4, 8, false⟩ _ rfl
    (Sender.new 67 false) rfl 0 rfl rfl
  exact ⟨data, s', t, hdata, h1, h2, h3, h4⟩

/-- With marks of 2 ticks: the stop mark after 216 ticks is one tick long. -/
example : ∃ s', (Sender.new 67 false).load (necEncode nec ⟨16, 8, 4, 2, 2, 6⟩ ⟨4, 8, false⟩) = some s' ∧
    (s'.pins 220).drop 215 = [false, true, false, false, false] := by
  refine ⟨_, rfl, ?_⟩
  decide +kernel

/-- An RC5 command with half-bits of 10 ticks whose last bit is a one, in a buffer without spare slots: the last mark is
one tick long; an RC6 command in a buffer with one spare slot. -/
example : ∃ s', (Sender.new 19 false).load (rc5Encode ⟨true, 32⟩ 10 (Rc5Command.new 20 9 false)) = some s' ∧
    (s'.pins 264).drop 258 = [false, false, true, false, false, false] ∧ (s'.ticks 261).buffer.status ≠ .idle ∧
    (s'.ticks 262).buffer.status = .idle := by
  refine ⟨_, rfl, ?_⟩
  decide +kernel

example : ∃ s', (Sender.new 45 false).load (rc6Encode 10 ⟨0, 0, false⟩) = some s' ∧
    (s'.pins 525).drop 508 = [false, false] ++ List.replicate 10 true ++ [false, true, false, false, false] := by
  refine ⟨_, rfl, ?_⟩
  decide +kernel

end Infrared
