import Verif.Props.Rates
import Verif.Props.Broken
import Verif.Spec.Drift

/-!
# Clocks that are not what the receiver was told (C89)

A clock of `r` Hz sees a line as a clock of `f` Hz sees the same line with all distances multiplied by `r / f`.
-/

namespace Infrared

open Spec

variable {C K : Type}

/-! ## The line as the receiver believes it to be -/

def scaled (r : Nat) (es : List (Bool × Nat)) : List (Bool × Nat) := es.map fun e => (e.1, e.2 * r)

def scaledPulses (r : Nat) (ps : List (Nat × Nat)) : List (Nat × Nat) := ps.map fun p => (p.1 * r, p.2 * r)

theorem reading_scaled {f : Nat} (hf : 0 < f) (u r phase t : Nat) :
    reading u r phase t = reading (u * f) f (phase * f) (t * r) := by
  unfold reading
  rw [← Nat.add_mul, Nat.mul_div_mul_right _ _ hf]

theorem clocked_scaled {f : Nat} (hf : 0 < f) (u r phase t : Nat) (es : List (Bool × Nat)) :
    clocked u r phase t es = clocked (u * f) f (phase * f) (t * r) (scaled r es) := by
  induction es generalizing t with
  | nil => rfl
  | cons e es ih =>
    obtain ⟨b, x⟩ := e
    simp only [scaled, List.map_cons, clocked]
    rw [← Nat.add_mul, ← reading_scaled hf, ← reading_scaled hf, ih]
    rfl

theorem levelAt_scaled {f : Nat} (hf : 0 < f) (u r phase : Nat) (l : Bool) (t : Nat) (es : List (Bool × Nat)) (k : Nat) :
    levelAt u r phase l t es k = levelAt (u * f) f (phase * f) l (t * r) (scaled r es) k := by
  induction es generalizing t l with
  | nil => rfl
  | cons e es ih =>
    obtain ⟨b, x⟩ := e
    simp only [scaled, List.map_cons, levelAt]
    rw [← Nat.add_mul, ← Nat.add_mul, ← Nat.mul_assoc]
    have : (t + x) * r + phase < k * u ↔ ((t + x) * r + phase) * f < k * u * f :=
      ⟨fun h => Nat.mul_lt_mul_of_pos_right h hf, fun h => Nat.lt_of_mul_lt_mul_right h⟩
    by_cases hc : (t + x) * r + phase < k * u
    · rw [if_pos hc, if_pos (this.mp hc), ih]; rfl
    · rw [if_neg hc, if_neg fun h => hc (this.mpr h)]

theorem polled_scaled {f : Nat} (hf : 0 < f) (u r phase : Nat) (es : List (Bool × Nat)) (n : Nat) :
    polled u r phase es n = polled (u * f) f (phase * f) (scaled r es) n := by
  unfold polled
  refine List.map_congr_left fun i _ => ?_
  rw [levelAt_scaled hf, Nat.zero_mul]

theorem pulses_scaled (r : Nat) (ps : List (Nat × Nat)) : scaled r (pulses ps) = pulses (scaledPulses r ps) := by
  induction ps with
  | nil => rfl
  | cons p ps ih =>
    simp only [pulses, scaled, scaledPulses, List.map_cons] at *
    rw [ih]

theorem series_scaled {A B : Type} (r : Nat) (wire : A → List (Nat × Nat)) (wire' : B → List (Nat × Nat)) (g : A → B)
    (hg : ∀ a, wire' (g a) = scaledPulses r (wire a)) (items : List (A × (Nat × Nat))) :
    scaled r (series wire items) = series wire' (items.map fun i => (g i.1, (i.2.1 * r, i.2.2 * r))) := by
  unfold series
  rw [pulses_scaled]
  congr 1
  induction items with
  | nil => rfl
  | cons i items ih =>
    rw [List.flatMap_cons, List.map_cons, List.flatMap_cons, ← ih]
    simp [scaledPulses, hg]

theorem duration_scaled (r : Nat) (es : List (Bool × Nat)) : duration (scaled r es) = duration es * r := by
  induction es with
  | nil => simp [duration, scaled]
  | cons e es ih =>
    simp only [duration, scaled, List.map_cons, List.sum_cons, Nat.add_mul] at *
    rw [ih]

theorem near_scaled {u f r d e j l x : Nat} (hc : ClockWithin d f r) (ht : Together d e j) (h : Near u e l x) :
    Near (u * f) j l (x * r) := by
  obtain ⟨c1, c2⟩ := hc
  obtain ⟨t1, t2⟩ := ht
  obtain ⟨h1, h2⟩ := h
  have m1 := Nat.mul_le_mul h1 c1
  have m2 := Nat.mul_le_mul h2 c2
  have n1 := Nat.mul_le_mul_right (l * u * f) t1
  have n2 := Nat.mul_le_mul_right (l * u * f) t2
  have a1 : (100 - e) * l * u * ((100 - d) * f) = (100 - d) * (100 - e) * (l * u * f) := by ac_rfl
  have a2 : (100 + e) * l * u * ((100 + d) * f) = (100 + d) * (100 + e) * (l * u * f) := by ac_rfl
  have a3 : 100000000 * x * (100 * r) = 100 * (100000000 * (x * r)) := by
    rw [Nat.mul_comm 100 r, ← Nat.mul_assoc, Nat.mul_assoc 100000000, Nat.mul_comm _ 100]
  have a4 : 100 * (100 - j) * (l * u * f) = 100 * ((100 - j) * l * (u * f)) := by
    simp only [Nat.mul_assoc]
  have a5 : 100 * (100 + j) * (l * u * f) = 100 * ((100 + j) * l * (u * f)) := by
    simp only [Nat.mul_assoc]
  rw [a1, a3] at m1
  rw [a2, a3] at m2
  rw [a4] at n1
  rw [a5] at n2
  exact ⟨by omega, by omega⟩

theorem nearPeriods_scaled {u f r d e j : Nat} (hc : ClockWithin d f r) (ht : Together d e j) {us : List Nat}
    {ps : List (Nat × Nat)} (h : NearPeriods u e us ps) : NearPeriods (u * f) j us (scaledPulses r ps) := by
  obtain ⟨h1, h2⟩ := h
  refine ⟨by rw [scaledPulses, List.length_map, h1], fun i p l hp hl => ?_⟩
  rw [scaledPulses, List.getElem?_map, Option.map_eq_some_iff] at hp
  obtain ⟨q, hq, rfl⟩ := hp
  dsimp only
  rw [← Nat.add_mul]
  exact near_scaled hc ht (h2 i q l hq hl)

theorem pause_scaled {u f r d a b w : Nat} (hf : 0 < f) (hd : d ≤ 20) (hc : ClockWithin d f r)
    (h : 20000 * u ≤ 1000000 * (a + b) ∧ (a + b) * r + u < 2 ^ w * u) :
    16000 * (u * f) ≤ 1000000 * (a * r + b * r) ∧ (a * r + b * r) * f + u * f < 2 ^ w * (u * f) := by
  obtain ⟨h1, h2⟩ := h
  rw [← Nat.add_mul]
  constructor
  · have h3 : 80 * f ≤ 100 * r := Nat.le_trans (Nat.mul_le_mul_right f (by omega)) hc.1
    have m := Nat.mul_le_mul h1 h3
    have a1 : 20000 * u * (80 * f) = 1600000 * (u * f) := by
      rw [Nat.mul_mul_mul_comm]
    have a2 : 1000000 * (a + b) * (100 * r) = 100000000 * ((a + b) * r) := by
      rw [Nat.mul_mul_mul_comm]
    omega
  · have := Nat.mul_lt_mul_of_pos_right h2 hf
    rwa [Nat.add_mul, Nat.mul_assoc (2 ^ w)] at this

def Spec.NecItem.scaled (r : Nat) : NecItem → NecItem
  | .frame w ps => .frame w (scaledPulses r ps)
  | .rep p => .rep (p.1 * r, p.2 * r)

theorem necItem_scaled_wire (r : Nat) (i : NecItem) : (i.scaled r).wire = scaledPulses r i.wire := by
  cases i <;> rfl

theorem necHeard_scaled (unpack : BitVec 32 → Bool → Option C) (r : Nat) (last : BitVec 32) (is : List NecItem) :
    necHeard unpack last (is.map (NecItem.scaled r)) = necHeard unpack last is := by
  induction is generalizing last with
  | nil => rfl
  | cons i is ih => cases i <;> simp only [List.map_cons, NecItem.scaled, necHeard, ih]

theorem necItem_near_scaled {u f r d e j sync rep : Nat} (hc : ClockWithin d f r) (ht : Together d e j) {i : NecItem}
    (h : i.Near u e sync rep) : (i.scaled r).Near (u * f) j sync rep := by
  cases i with
  | frame w ps => exact nearPeriods_scaled hc ht h
  | rep p =>
    show Near _ _ _ (p.1 * r + p.2 * r)
    rw [← Nat.add_mul]
    exact near_scaled hc ht h

/-! ## Pulse-distance protocols -/

/-- **C89**, NEC family: a receiver built for `f` Hz whose clock is `d` percent off hears every transmission within `e`
percent if the table covers both errors together. -/
theorem C89_nec (t : Target) (f j : Nat) (hlo : 20000 ≤ f) (hf : f < 2 ^ 32) (v : NecVariant C)
    (hv : v.Shipped) (m : Mono) (hm : m = Mono.u32 ∨ m = Mono.u64) (tbl : PulseSpans)
    (htbl : necSpans t m v f = some tbl) (hc : coversAll tbl f j (necLengths v) = true) (conv : C → K)
    (r d e : Nat) (hd : d ≤ 20) (hr : ClockWithin d f r) (hj : Together d e j) (u : Nat)
    (hu : 0 < u) (phase t0 g : Nat) (hg : Pause tbl m.width [0, 1] (0, g)) (items : List (NecItem × (Nat × Nat)))
    (hok : ∀ i ∈ items, i.1.Near u e (v.pulseDistance.headerHigh + v.pulseDistance.headerLow)
      (v.pulseDistance.headerHigh + v.pulseDistance.repeatLow) ∧
      20000 * u ≤ 1000000 * (i.2.1 + i.2.2) ∧ (i.2.1 + i.2.2) * r + u < 2 ^ m.width * u) :
    (results (necDecoder t m tbl v) conv ((true, g) :: clocked u r phase t0 (series NecItem.wire items))).map said =
      some (oks ((necHeard v.unpack 0 (items.map Prod.fst)).map conv)) := by
  have hf0 : 0 < f := by omega
  rw [clocked_scaled hf0, series_scaled r NecItem.wire NecItem.wire (NecItem.scaled r) (necItem_scaled_wire r),
    C78_nec t f j hlo hf v hv m hm tbl htbl hc conv (u * f) (Nat.mul_pos hu hf0) _ _ g hg]
  · have : (items.map fun i => (NecItem.scaled r i.1, (i.2.1 * r, i.2.2 * r))).map Prod.fst =
        (items.map Prod.fst).map (NecItem.scaled r) := by
      rw [List.map_map, List.map_map]; rfl
    rw [this, necHeard_scaled]
  · intro i hi
    obtain ⟨i', hi', rfl⟩ := List.mem_map.mp hi
    exact ⟨necItem_near_scaled hr hj (hok i' hi').1, pause_scaled hf0 hd hr (hok i' hi').2⟩

/-- **C89**, SBP. -/
theorem C89_sbp (t : Target) (f j : Nat) (hlo : 20000 ≤ f) (hf : f < 2 ^ 32) (m : Mono)
    (hm : m = Mono.u32 ∨ m = Mono.u64) (tbl : PulseSpans)
    (htbl : sbpSpans t m f = some tbl) (hc : coversAll tbl f j sbpLengths = true) (conv : SbpCommand → K)
    (r d e : Nat) (hd : d ≤ 20) (hr : ClockWithin d f r) (hj : Together d e j)
    (u : Nat) (hu : 0 < u) (phase t0 g : Nat) (hg : Pause tbl m.width [0] (0, g))
    (items : List ((BitVec 16 × BitVec 20 × List (Nat × Nat)) × (Nat × Nat)))
    (hok : ∀ i ∈ items, NearPeriods u e (sbpPeriods i.1.1 i.1.2.1) i.1.2.2 ∧
      20000 * u ≤ 1000000 * (i.2.1 + i.2.2) ∧ (i.2.1 + i.2.2) * r + u < 2 ^ m.width * u) :
    (results (sbpDecoder t m tbl) conv
        ((true, g) :: clocked u r phase t0 (series (fun i => i.2.2) items))).map said =
      some (oks (items.map fun i => conv (SbpCommand.unpack i.1.1 (i.1.2.1.setWidth 32)))) := by
  have hf0 : 0 < f := by omega
  rw [clocked_scaled hf0, series_scaled r (fun i : BitVec 16 × BitVec 20 × List (Nat × Nat) => i.2.2)
      (fun i : BitVec 16 × BitVec 20 × List (Nat × Nat) => i.2.2)
      (fun i => (i.1, i.2.1, scaledPulses r i.2.2)) (fun _ => rfl),
    C78_sbp t f j hlo hf m hm tbl htbl hc conv (u * f) (Nat.mul_pos hu hf0) _ _ g hg]
  · rw [List.map_map]; rfl
  · intro i hi
    obtain ⟨i', hi', rfl⟩ := List.mem_map.mp hi
    exact ⟨nearPeriods_scaled hr hj (hok i' hi').1, pause_scaled hf0 hd hr (hok i' hi').2⟩

/-- **C89**, Denon (first 47 bits). -/
theorem C89_denon (t : Target) (f j : Nat) (hlo : 20000 ≤ f) (hf : f < 2 ^ 32) (m : Mono)
    (hm : m = Mono.u32 ∨ m = Mono.u64) (tbl : PulseSpans)
    (htbl : denonSpans t m f = some tbl) (hc : coversAll tbl f j denonLengths = true) (conv : DenonCommand → K)
    (r d e : Nat) (hd : d ≤ 20) (hr : ClockWithin d f r) (hj : Together d e j)
    (u : Nat) (hu : 0 < u) (phase t0 g : Nat) (hg : Pause tbl m.width [0] (0, g))
    (items : List ((BitVec 48 × List (Nat × Nat)) × (Nat × Nat)))
    (hok : ∀ i ∈ items, NearPeriods u e (denonPeriods i.1.1) i.1.2 ∧
      20000 * u ≤ 1000000 * (i.2.1 + i.2.2) ∧ (i.2.1 + i.2.2) * r + u < 2 ^ m.width * u) :
    (results (denonDecoder t m tbl) conv
        ((true, g) :: clocked u r phase t0 (series (fun i => i.2) items))).map said =
      some (oks (items.map fun i => conv { bits := (i.1.1.setWidth 47).setWidth 64 })) := by
  have hf0 : 0 < f := by omega
  rw [clocked_scaled hf0, series_scaled r (fun i : BitVec 48 × List (Nat × Nat) => i.2) (fun i : BitVec 48 × List (Nat × Nat) => i.2)
      (fun i => (i.1, scaledPulses r i.2)) (fun _ => rfl),
    C78_denon t f j hlo hf m hm tbl htbl hc conv (u * f) (Nat.mul_pos hu hf0) _ _ g hg]
  · rw [List.map_map]; rfl
  · intro i hi
    obtain ⟨i', hi', rfl⟩ := List.mem_map.mp hi
    exact ⟨nearPeriods_scaled hr hj (hok i' hi').1, pause_scaled hf0 hd hr (hok i' hi').2⟩

/-! ## RC5 and RC6 -/

theorem withTail_scaled (r : Nat) (evs : List (Bool × Nat)) (tail : Option Nat) :
    scaled r (withTail evs tail) = withTail (scaled r evs) (tail.map (· * r)) := by
  cases tail <;> simp [withTail, scaled]

theorem tails_scaled {A : Type} (r : Nat) (items : List (A × List (Bool × Nat) × Option Nat)) :
    scaled r (items.flatMap fun i => withTail i.2.1 i.2.2) =
      (items.map fun i => (i.1, scaled r i.2.1, i.2.2.map (· * r))).flatMap fun i => withTail i.2.1 i.2.2 := by
  induction items with
  | nil => rfl
  | cons i items ih =>
    rw [List.flatMap_cons, List.map_cons, List.flatMap_cons, ← ih, ← withTail_scaled]
    simp [scaled]

theorem manchester_scaled {u f r d e j unit : Nat} (hc : ClockWithin d f r) (ht : Together d e j)
    {edges evs : List (Bool × Nat)} (h : ManchesterFrame (fun x n => Near u e (unit * n) x) edges evs) :
    ManchesterFrame (fun x n => Near (u * f) j (unit * n) x) edges (scaled r evs) := by
  obtain ⟨p, n, evs', edges', rfl, he, h⟩ := h
  refine ⟨p * r, n, scaled r evs', edges', rfl, he, ?_⟩
  clear he
  induction evs' generalizing edges' with
  | nil => cases edges' with
    | nil => trivial
    | cons _ _ => exact h.elim
  | cons x evs' ih => cases edges' with
    | nil => exact h.elim
    | cons y edges' => exact ⟨h.1, near_scaled hc ht h.2.1, ih _ h.2.2⟩

/-- **C89**, RC5. -/
theorem C89_rc5 (t : Target) (hus : 16 ≤ t.usizeBits) (f j : Nat) (hlo : 20000 ≤ f) (hf : f < 2 ^ 32) (m : Mono)
    (hm : m = Mono.u32 ∨ m = Mono.u64) (tbl : PulseSpans) (htbl : rc5Spans t m f = some tbl)
    (hc : coversAll tbl f j rc5Lengths = true) (conv : Rc5Command → K)
    (r d e : Nat) (hr : ClockWithin d f r) (hj : Together d e j) (u : Nat) (hu : 0 < u) (phase : Nat)
    (items : List (BitVec 14 × List (Bool × Nat) × Option Nat))
    (hok : ∀ i ∈ items, i.1.getLsbD 13 = true ∧
      ManchesterFrame (fun x n => Near u e (889 * n) x) (rc5Edges i.1) i.2.1)
    (b : Bool) (pause : Nat) (es : List (Bool × Nat))
    (hes : (items.flatMap fun i => withTail i.2.1 i.2.2) = (b, pause) :: es) (t0 g : Nat) :
    (results (rc5Decoder t tbl) conv ((b, g) :: clocked u r phase (t0 + pause) es)).map said =
      some (oks (items.map fun i => conv (Rc5Command.unpack (i.1.setWidth 16)))) := by
  have hf0 : 0 < f := by omega
  have hes' := tails_scaled r items
  rw [hes] at hes'
  rw [clocked_scaled hf0, Nat.add_mul, C78_rc5 t hus f j hlo hf m hm tbl htbl hc conv (u * f) (Nat.mul_pos hu hf0)
    (phase * f) (items.map fun i => (i.1, scaled r i.2.1, i.2.2.map (· * r))) ?_ b (pause * r) (scaled r es) hes'.symm]
  · rw [List.map_map]; rfl
  · intro i hi
    obtain ⟨i', hi', rfl⟩ := List.mem_map.mp hi
    exact ⟨(hok i' hi').1, manchester_scaled hr hj (hok i' hi').2⟩

/-- **C89**, RC6 (mode 0). -/
theorem C89_rc6 (t : Target) (hus : 16 ≤ t.usizeBits) (f j : Nat) (hlo : 20000 ≤ f) (hf : f < 2 ^ 32) (m : Mono)
    (hm : m = Mono.u32 ∨ m = Mono.u64) (tbl : PulseSpans) (htbl : rc6Spans t m f = some tbl)
    (hc : coversRc6 tbl f j = true) (conv : Rc6Command → K)
    (r d e : Nat) (hr : ClockWithin d f r) (hj : Together d e j) (u : Nat) (hu : 0 < u) (phase : Nat)
    (items : List (Rc6Command × List (Bool × Nat) × Option Nat))
    (hok : ∀ i ∈ items, ManchesterFrame (fun x n => Near u e (444 * n) x)
      (rc6Edges (i.1.addr ++ i.1.cmd) i.1.toggle) i.2.1)
    (b : Bool) (pause : Nat) (es : List (Bool × Nat))
    (hes : (items.flatMap fun i => withTail i.2.1 i.2.2) = (b, pause) :: es) (t0 g : Nat) :
    (results (rc6Decoder t tbl) conv ((b, g) :: clocked u r phase (t0 + pause) es)).map said =
      some (oks (items.map fun i => conv i.1)) := by
  have hf0 : 0 < f := by omega
  have hes' := tails_scaled r items
  rw [hes] at hes'
  rw [clocked_scaled hf0, Nat.add_mul, C78_rc6 t hus f j hlo hf m hm tbl htbl hc conv (u * f) (Nat.mul_pos hu hf0)
    (phase * f) (items.map fun i => (i.1, scaled r i.2.1, i.2.2.map (· * r))) ?_ b (pause * r) (scaled r es) hes'.symm]
  · rw [List.map_map]; rfl
  · intro i hi
    obtain ⟨i', hi', rfl⟩ := List.mem_map.mp hi
    exact manchester_scaled hr hj (hok i' hi')

/-! ## Polled receivers -/

theorem le_scaled {u f r : Nat} {es : List (Bool × Nat)} (h : ∀ e ∈ es, u ≤ e.2 * r) :
    ∀ e ∈ scaled r es, u * f ≤ e.2 * f := by
  intro e he
  obtain ⟨x, hx, rfl⟩ := List.mem_map.mp he
  exact Nat.mul_le_mul_right f (h x hx)

theorem div_scaled {u f r phase w : Nat} (hf : 0 < f) {es : List (Bool × Nat)}
    (h : ∀ e ∈ es, (e.2 * r + phase) / u + 1 < w) :
    ∀ e ∈ scaled r es, (e.2 * f + phase * f) / (u * f) + 1 < w := by
  intro e he
  obtain ⟨x, hx, rfl⟩ := List.mem_map.mp he
  dsimp only
  rw [← Nat.add_mul, Nat.mul_div_mul_right _ _ hf]
  exact h x hx

theorem scaled_tail (r : Nat) (es : List (Bool × Nat)) : (scaled r es).tail = scaled r es.tail := by
  cases es <;> rfl

theorem changes_scaled (r : Nat) (l : Bool) (es : List (Bool × Nat)) (h : Changes l es) : Changes l (scaled r es) := by
  induction es generalizing l with
  | nil => trivial
  | cons e es ih => exact ⟨h.1, ih _ h.2⟩

/-- **C89**, NEC family, polled. -/
theorem C89_nec_polled (t : Target) (f j : Nat) (hlo : 20000 ≤ f)
    (hf : f < 2 ^ 32) (v : NecVariant C) (hv : v.Shipped) (tbl : PulseSpans)
    (htbl : necSpans t Mono.u32 v f = some tbl) (hc : coversAll tbl f j (necLengths v) = true)
    (conv : C → K) (r d e : Nat) (hd : d ≤ 20) (hr : ClockWithin d f r) (hj : Together d e j)
    (u : Nat) (hu : 0 < u) (phase pause : Nat)
    (hg : Pause tbl 32 [0, 1] (0, reading u r phase pause + 1)) (items : List (NecItem × (Nat × Nat)))
    (hok : ∀ i ∈ items, i.1.Near u e (v.pulseDistance.headerHigh + v.pulseDistance.headerLow)
      (v.pulseDistance.headerHigh + v.pulseDistance.repeatLow) ∧
      20000 * u ≤ 1000000 * (i.2.1 + i.2.2) ∧ (i.2.1 + i.2.2) * r + u < 2 ^ 32 * u)
    (hmin : ∀ e ∈ series NecItem.wire items, u ≤ e.2 * r)
    (hmax : ∀ e ∈ series NecItem.wire items, e.2 * r / u + 1 < 2 ^ 32)
    (n : Nat) (hn : reading u r phase (duration ((true, pause) :: series NecItem.wire items)) < n) :
    (pollRun (necDecoder t Mono.u32 tbl v) conv
        (polled u r phase ((true, pause) :: series NecItem.wire items) n)).map said =
      some (oks ((necHeard v.unpack 0 (items.map Prod.fst)).map conv)) := by
  have hg1 := hg.1
  dsimp only at hg1
  rw [C54_polled_line_long _ conv u hu r phase true pause _ (changes_series ..) hmin n hn (by omega) hmax]
  exact C89_nec t f j hlo hf v hv Mono.u32 (.inl rfl) tbl htbl hc conv r d e hd hr hj u hu phase pause _ hg items hok

/-- **C89**, SBP, polled. -/
theorem C89_sbp_polled (t : Target) (f j : Nat) (hlo : 20000 ≤ f) (hf : f < 2 ^ 32) (tbl : PulseSpans)
    (htbl : sbpSpans t Mono.u32 f = some tbl) (hc : coversAll tbl f j sbpLengths = true)
    (conv : SbpCommand → K) (r d e : Nat) (hd : d ≤ 20) (hr : ClockWithin d f r) (hj : Together d e j)
    (u : Nat) (hu : 0 < u) (phase pause : Nat)
    (hg : Pause tbl 32 [0] (0, reading u r phase pause + 1))
    (items : List ((BitVec 16 × BitVec 20 × List (Nat × Nat)) × (Nat × Nat)))
    (hok : ∀ i ∈ items, NearPeriods u e (sbpPeriods i.1.1 i.1.2.1) i.1.2.2 ∧
      20000 * u ≤ 1000000 * (i.2.1 + i.2.2) ∧ (i.2.1 + i.2.2) * r + u < 2 ^ 32 * u)
    (hmin : ∀ e ∈ series (fun i : BitVec 16 × BitVec 20 × List (Nat × Nat) => i.2.2) items, u ≤ e.2 * r)
    (hmax : ∀ e ∈ series (fun i : BitVec 16 × BitVec 20 × List (Nat × Nat) => i.2.2) items,
      e.2 * r / u + 1 < 2 ^ 32)
    (n : Nat) (hn : reading u r phase (duration ((true, pause) :: series (fun i => i.2.2) items)) < n) :
    (pollRun (sbpDecoder t Mono.u32 tbl) conv
        (polled u r phase ((true, pause) :: series (fun i => i.2.2) items) n)).map said =
      some (oks (items.map fun i => conv (SbpCommand.unpack i.1.1 (i.1.2.1.setWidth 32)))) := by
  have hg1 := hg.1
  dsimp only at hg1
  rw [C54_polled_line_long _ conv u hu r phase true pause _ (changes_series ..) hmin n hn (by omega) hmax]
  exact C89_sbp t f j hlo hf Mono.u32 (.inl rfl) tbl htbl hc conv r d e hd hr hj u hu phase pause _ hg items hok

/-- **C89**, Denon (first 47 bits), polled. -/
theorem C89_denon_polled (t : Target) (f j : Nat) (hlo : 20000 ≤ f) (hf : f < 2 ^ 32) (tbl : PulseSpans)
    (htbl : denonSpans t Mono.u32 f = some tbl) (hc : coversAll tbl f j denonLengths = true)
    (conv : DenonCommand → K) (r d e : Nat) (hd : d ≤ 20) (hr : ClockWithin d f r) (hj : Together d e j)
    (u : Nat) (hu : 0 < u)
    (phase pause : Nat) (hg : Pause tbl 32 [0] (0, reading u r phase pause + 1))
    (items : List ((BitVec 48 × List (Nat × Nat)) × (Nat × Nat)))
    (hok : ∀ i ∈ items, NearPeriods u e (denonPeriods i.1.1) i.1.2 ∧
      20000 * u ≤ 1000000 * (i.2.1 + i.2.2) ∧ (i.2.1 + i.2.2) * r + u < 2 ^ 32 * u)
    (hmin : ∀ e ∈ series (fun i : BitVec 48 × List (Nat × Nat) => i.2) items, u ≤ e.2 * r)
    (hmax : ∀ e ∈ series (fun i : BitVec 48 × List (Nat × Nat) => i.2) items, e.2 * r / u + 1 < 2 ^ 32)
    (n : Nat) (hn : reading u r phase (duration ((true, pause) :: series (fun i => i.2) items)) < n) :
    (pollRun (denonDecoder t Mono.u32 tbl) conv
        (polled u r phase ((true, pause) :: series (fun i => i.2) items) n)).map said =
      some (oks (items.map fun i => conv { bits := (i.1.1.setWidth 47).setWidth 64 })) := by
  have hg1 := hg.1
  dsimp only at hg1
  rw [C54_polled_line_long _ conv u hu r phase true pause _ (changes_series ..) hmin n hn (by omega) hmax]
  exact C89_denon t f j hlo hf Mono.u32 (.inl rfl) tbl htbl hc conv r d e hd hr hj u hu phase pause _ hg items hok

/-- **C89**, RC5, polled. -/
theorem C89_rc5_polled (t : Target) (hus : 16 ≤ t.usizeBits) (f j : Nat) (hlo : 20000 ≤ f) (hf : f < 2 ^ 32)
    (tbl : PulseSpans) (htbl : rc5Spans t Mono.u32 f = some tbl) (hc : coversAll tbl f j rc5Lengths = true)
    (conv : Rc5Command → K) (r d e : Nat) (hr : ClockWithin d f r) (hj : Together d e j) (u : Nat) (hu : 0 < u)
    (phase : Nat) (items : List (BitVec 14 × List (Bool × Nat) × Option Nat))
    (hok : ∀ i ∈ items, i.1.getLsbD 13 = true ∧
      ManchesterFrame (fun x n => Near u e (889 * n) x) (rc5Edges i.1) i.2.1)
    (hch : Changes false (items.flatMap fun i => withTail i.2.1 i.2.2))
    (hmin : ∀ e ∈ (items.flatMap fun i => withTail i.2.1 i.2.2).tail, u ≤ e.2 * r)
    (hmax : ∀ e ∈ items.flatMap fun i => withTail i.2.1 i.2.2, (e.2 * r + phase) / u + 1 < 2 ^ 32)
    (n : Nat) (hn : reading u r phase (duration (items.flatMap fun i => withTail i.2.1 i.2.2)) < n) :
    (pollRun (rc5Decoder t tbl) conv
        (polled u r phase (items.flatMap fun i => withTail i.2.1 i.2.2) n)).map said =
      some (oks (items.map fun i => conv (Rc5Command.unpack (i.1.setWidth 16)))) := by
  have hf0 : 0 < f := by omega
  have hes := tails_scaled r items
  rw [polled_scaled hf0, hes, C78_rc5_polled t hus f j hlo hf tbl htbl hc conv (u * f) (Nat.mul_pos hu hf0) _ _ ?_
    (hes ▸ changes_scaled r _ _ hch) ?_ (hes ▸ div_scaled hf0 hmax) n ?_]
  · rw [List.map_map]; rfl
  · intro i hi
    obtain ⟨i', hi', rfl⟩ := List.mem_map.mp hi
    exact ⟨(hok i' hi').1, manchester_scaled hr hj (hok i' hi').2⟩
  · rw [← hes, scaled_tail]
    exact le_scaled hmin
  · rw [← hes, duration_scaled, ← reading_scaled hf0]
    exact hn

/-- **C89**, RC6 (mode 0), polled. -/
theorem C89_rc6_polled (t : Target) (hus : 16 ≤ t.usizeBits) (f j : Nat) (hlo : 20000 ≤ f) (hf : f < 2 ^ 32)
    (tbl : PulseSpans) (htbl : rc6Spans t Mono.u32 f = some tbl) (hc : coversRc6 tbl f j = true)
    (conv : Rc6Command → K) (r d e : Nat) (hr : ClockWithin d f r) (hj : Together d e j) (u : Nat) (hu : 0 < u)
    (phase : Nat) (items : List (Rc6Command × List (Bool × Nat) × Option Nat))
    (hok : ∀ i ∈ items, ManchesterFrame (fun x n => Near u e (444 * n) x)
      (rc6Edges (i.1.addr ++ i.1.cmd) i.1.toggle) i.2.1)
    (hch : Changes false (items.flatMap fun i => withTail i.2.1 i.2.2))
    (hmin : ∀ e ∈ (items.flatMap fun i => withTail i.2.1 i.2.2).tail, u ≤ e.2 * r)
    (hmax : ∀ e ∈ items.flatMap fun i => withTail i.2.1 i.2.2, (e.2 * r + phase) / u + 1 < 2 ^ 32)
    (n : Nat) (hn : reading u r phase (duration (items.flatMap fun i => withTail i.2.1 i.2.2)) < n) :
    (pollRun (rc6Decoder t tbl) conv
        (polled u r phase (items.flatMap fun i => withTail i.2.1 i.2.2) n)).map said =
      some (oks (items.map fun i => conv i.1)) := by
  have hf0 : 0 < f := by omega
  have hes := tails_scaled r items
  rw [polled_scaled hf0, hes, C78_rc6_polled t hus f j hlo hf tbl htbl hc conv (u * f) (Nat.mul_pos hu hf0) _ _ ?_
    (hes ▸ changes_scaled r _ _ hch) ?_ (hes ▸ div_scaled hf0 hmax) n ?_]
  · rw [List.map_map]; rfl
  · intro i hi
    obtain ⟨i', hi', rfl⟩ := List.mem_map.mp hi
    exact manchester_scaled hr hj (hok i' hi')
  · rw [← hes, scaled_tail]
    exact le_scaled hmin
  · rw [← hes, duration_scaled, ← reading_scaled hf0]
    exact hn
