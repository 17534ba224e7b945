import Verif.Props.Sampling
import Verif.Props.Sender

/-!
# Sender and receiver with different clocks (C55)
-/

namespace Infrared

open Spec

variable {C K : Type}

/-! ## The pin as a line -/

/-- Level seen by poll `k`, by recursion over the levels. -/
def seen (fs f phase : Nat) : (level : Bool) → (pos : Nat) → List Bool → (k : Nat) → Bool
  | level, _, [], _ => level
  | level, pos, l :: ls, k => if pos * f + phase < k * fs then seen fs f phase l (pos + 1) ls k else level

theorem seen_early {fs f phase : Nat} {level : Bool} {pos k : Nat} (ls : List Bool)
    (h : ¬ pos * f + phase < k * fs) : seen fs f phase level pos ls k = level := by
  cases ls with
  | nil => rfl
  | cons l ls => rw [seen, if_neg h]

theorem levelAt_seen (fs f phase : Nat) (ls : List Bool) :
    ∀ (level : Bool) (t n k : Nat),
      levelAt fs f phase level t (edgesFrom level n ls) k = seen fs f phase level (t + n) ls k := by
  induction ls with
  | nil => intro level t n k; rfl
  | cons l ls ih =>
    intro level t n k
    rw [edgesFrom, seen]
    by_cases hl : l = level
    · subst hl
      rw [if_pos rfl, ih, ← Nat.add_assoc]
      by_cases h : (t + n) * f + phase < k * fs
      · rw [if_pos h]
      · rw [if_neg h]
        refine seen_early _ (fun h' => h ?_)
        rw [Nat.add_mul] at h'
        omega
    · rw [if_neg hl, levelAt]
      by_cases h : (t + n) * f + phase < k * fs
      · rw [if_pos h, if_pos h, ih]
      · rw [if_neg h, if_neg h]

theorem seen_get {fs f phase : Nat} (hf : 0 < f) (ls : List Bool) :
    ∀ (level : Bool) (pos k : Nat), phase < k * fs →
      seen fs f phase level pos ls k =
        if pos ≤ (k * fs - phase - 1) / f then
          ls.getD ((k * fs - phase - 1) / f - pos) (ls.getLastD level)
        else level := by
  induction ls with
  | nil => intro level pos k _; simp [seen]
  | cons l ls ih =>
    intro level pos k hk
    have hiff : pos * f + phase < k * fs ↔ pos ≤ (k * fs - phase - 1) / f := by
      rw [Nat.le_div_iff_mul_le hf]; omega
    rw [seen]
    by_cases h : pos ≤ (k * fs - phase - 1) / f
    · rw [if_pos (hiff.mpr h), if_pos h, ih l (pos + 1) k hk]
      by_cases h2 : pos + 1 ≤ (k * fs - phase - 1) / f
      · rw [if_pos h2, show (k * fs - phase - 1) / f - pos = (k * fs - phase - 1) / f - (pos + 1) + 1 by omega,
          List.getD_cons_succ]
        cases ls with
        | nil => simp
        | cons a as => rfl
      · rw [if_neg h2, show (k * fs - phase - 1) / f - pos = 0 by omega]
        simp
    · rw [if_neg (fun h' => h (hiff.mp h')), if_neg h]

/-- The pin, looked at, is a line with the edges of the levels. -/
theorem looked_polled {fs f phase : Nat} (hf : 0 < f) (hphase : phase < fs)
    (levels : List Bool) (hlast : levels.getLastD false = false) (n : Nat) :
    looked fs f phase levels n = polled fs f phase (edgesFrom false 0 levels) n := by
  unfold looked polled
  refine List.map_congr_left fun i _ => ?_
  rw [levelAt_seen, seen_get hf _ _ _ _ (by
    have : 1 * fs ≤ (i + 1) * fs := Nat.mul_le_mul_right _ (by omega)
    omega)]
  simp only [Nat.add_zero, Nat.zero_le, if_true, Nat.sub_zero, hlast]

theorem edgesFrom_changes (ls : List Bool) (prev : Bool) (n : Nat) :
    Changes prev (edgesFrom prev n ls) := by
  induction ls generalizing prev n with
  | nil => trivial
  | cons l ls ih =>
    rw [edgesFrom]
    by_cases h : l = prev
    · rw [if_pos h]; exact ih _ _
    · rw [if_neg h]
      exact ⟨by cases l <;> cases prev <;> simp_all, ih _ _⟩

/-- **C55**, any decoder: the pin of a device working at `fs` Hz, polled `f` times per second (each
level is kept for at least one polling period), makes a receiver say exactly what an event receiver
with a clock of `f` Hz says for the edges of the pin, however long this goes on. -/
theorem C55_two_clocks_long (D : Decoder C) (conv : C → K) (fs : Nat) (hfs : 0 < fs) (f : Nat)
    (hf : 0 < f) (phase : Nat) (hphase : phase < fs) (levels : List Bool)
    (hlast : levels.getLastD false = false) (b : Bool) (pause : Nat) (es : List (Bool × Nat))
    (hedges : edgesFrom false 0 levels = (b, pause) :: es) (hgap : ∀ e ∈ es, fs ≤ e.2 * f)
    (n : Nat) (hn : reading fs f phase (duration ((b, pause) :: es)) < n)
    (hfirst : reading fs f phase pause + 1 < 2 ^ 32) (hlong : ∀ e ∈ es, e.2 * f / fs + 1 < 2 ^ 32) :
    (pollRun D conv (looked fs f phase levels n)).map said =
      (results D conv ((b, reading fs f phase pause + 1) :: clocked fs f phase pause es)).map said := by
  rw [looked_polled hf hphase levels hlast, hedges]
  exact C54_polled_line_long D conv fs hfs f phase b pause es (hedges ▸ edgesFrom_changes levels false 0) hgap
    n hn hfirst hlong

/-- **C55**, any decoder, for fewer than 2^32 polls. -/
theorem C55_two_clocks (D : Decoder C) (conv : C → K) (fs : Nat) (hfs : 0 < fs) (f : Nat)
    (hf : 0 < f) (phase : Nat) (hphase : phase < fs) (levels : List Bool)
    (hlast : levels.getLastD false = false) (b : Bool) (pause : Nat) (es : List (Bool × Nat))
    (hedges : edgesFrom false 0 levels = (b, pause) :: es) (hgap : ∀ e ∈ es, fs ≤ e.2 * f)
    (n : Nat) (hn : reading fs f phase (duration ((b, pause) :: es)) < n) (hmax : n < 2 ^ 32) :
    (pollRun D conv (looked fs f phase levels n)).map said =
      (results D conv ((b, reading fs f phase pause + 1) :: clocked fs f phase pause es)).map said := by
  rw [looked_polled hf hphase levels hlast, hedges]
  exact C54_polled_line D conv fs hfs f phase b pause es (hedges ▸ edgesFrom_changes levels false 0) hgap
    n hn hmax

/-! ## Edges of a transmission -/

theorem edgesFrom_held (ds : List Nat) (tail : List Bool) :
    ∀ (level : Bool) (k : Nat), (∀ d ∈ ds, 0 < d) →
      edgesFrom (!level) k (heldLevels level ds ++ tail) =
        (level, k) :: alternating (!level) ds ++
          edgesFrom (xor level (ds.length % 2 == 1)) 1 tail := by
  induction ds with
  | nil =>
    intro level k _
    cases level <;> simp [heldLevels, edgesFrom, alternating]
  | cons d ds ih =>
    intro level k hds
    have hd : 0 < d := hds d (by simp)
    obtain ⟨e, rfl⟩ : ∃ e, d = e + 1 := ⟨d - 1, by omega⟩
    rw [heldLevels, show max (e + 1) 1 = e + 1 by omega, List.replicate_succ]
    simp only [List.cons_append, List.append_assoc]
    rw [edgesFrom, if_neg (by cases level <;> simp), edgesFrom_replicate]
    have := ih (!level) (1 + e) (fun x hx => hds x (by simp [hx]))
    rw [Bool.not_not] at this
    rw [this]
    simp only [alternating, List.length_cons, List.cons_append, Nat.add_comm 1 e, Bool.not_not]
    congr 4
    rcases Nat.mod_two_eq_zero_or_one ds.length with h | h
    · rw [h, show (ds.length + 1) % 2 = 1 by omega]; cases level <;> rfl
    · rw [h, show (ds.length + 1) % 2 = 0 by omega]; cases level <;> rfl

/-- A pause, the transmission of pulses, silence: the edges of the pulses and, one tick later, that
of the final mark. -/
theorem edges_transmission (pause m : Nat) (ps : List (Nat × Nat)) (hps : ∀ p ∈ ps, 0 < p.1 ∧ 0 < p.2) :
    edgesFrom false 0 (List.replicate pause false ++
        (transmission (0 :: ps.flatMap fun p => [p.1, p.2]) ++ List.replicate (m + 1) false)) =
      (true, pause) :: pulses ps ++ [(false, 1)] := by
  rw [edgesFrom_replicate, transmission, List.replicate_zero, List.nil_append]
  have h := edgesFrom_held (ps.flatMap fun p => [p.1, p.2]) (List.replicate (m + 1) false) true
    (0 + pause) (by
      intro d hd
      obtain ⟨p, hp, hd⟩ := List.mem_flatMap.mp hd
      simp only [List.mem_cons, List.not_mem_nil, or_false] at hd
      rcases hd with rfl | rfl
      · exact (hps p hp).1
      · exact (hps p hp).2)
  rw [Bool.not_true] at h
  rw [h, alternating_pairs]
  have hlen : (ps.flatMap fun p => [p.1, p.2]).length % 2 = 0 := by
    clear h hps
    induction ps with
    | nil => rfl
    | cons p ps ih => simp only [List.flatMap_cons, List.length_append, List.length_cons, List.length_nil]; omega
  rw [hlen, Nat.zero_add]
  have hm : ∀ (m k : Nat), edgesFrom false k (List.replicate m false) = [] := by
    intro m k
    have := edgesFrom_replicate false k m []
    rw [List.append_nil] at this
    rw [this]; rfl
  rw [List.replicate_succ]
  simp [edgesFrom, hm]

theorem clocked_append (u f phase t : Nat) (a b : List (Bool × Nat)) :
    clocked u f phase t (a ++ b) = clocked u f phase t a ++ clocked u f phase (t + duration a) b := by
  induction a generalizing t with
  | nil => simp [clocked, duration]
  | cons e a ih =>
    simp only [List.cons_append, clocked, ih, duration, List.map_cons, List.sum_cons, Nat.add_assoc]

theorem edges_duration (ls : List Bool) (prev : Bool) (k : Nat) :
    duration (edgesFrom prev k ls) ≤ k + ls.length := by
  induction ls generalizing prev k with
  | nil => simp [edgesFrom, duration]
  | cons l ls ih =>
    rw [edgesFrom, List.length_cons]
    split
    · have := ih prev (k + 1); omega
    · have := ih l 1
      simp only [duration, List.map_cons, List.sum_cons] at this ⊢
      omega

/-! ## NEC -/

/-- A new receiver: pause, frame, and the end of the final mark. -/
theorem nec_frame_ended (t : Target) (f : Nat) (hlo : 20000 ≤ f) (hf : f < 2 ^ 32) (v : NecVariant C)
    (hv : v.Shipped) (tbl : PulseSpans) (htbl : necSpans t Mono.u32 v f = some tbl) (conv : C → K)
    (w : BitVec 32) (ps : List (Nat × Nat)) (hfr : NecFrame tbl w ps) (g d : Nat) (hg : g < 2 ^ 32)
    (h0 : ¬ InTol tbl 0 g) (h1 : ¬ InTol tbl 1 g) :
    results (necDecoder t Mono.u32 tbl v) conv ((true, g) :: pulses ps ++ [(false, d)]) =
      some (List.replicate 66 (.ok none) ++ [.ok ((v.unpack w false).map conv), .ok none]) := by
  have hm : Mono.u32 = Mono.u32 ∨ Mono.u32 = Mono.u64 := .inl rfl
  obtain ⟨hu, hfit⟩ := necSpans_good hm t hlo hf v hv htbl
  have hgap := nec_gap_idle t Mono.u32 (Mono.prim_lawful hm) tbl v
    ({ state := .init, bitbuf := 0, dtSave := 0 } : NecDecoder) rfl g
    (show 0 + g < 2 ^ 32 by omega) (by simpa using h0) (by simpa using h1)
  have h := nec_frame t Mono.u32 (Mono.prim_lawful hm) tbl hu hfit v
    ({ state := .init, bitbuf := 0, dtSave := 0 } : NecDecoder) rfl w ps hfr
  have hg' : runStep (necFn t Mono.u32 tbl v) ({ state := .init, bitbuf := 0, dtSave := 0 } : NecDecoder)
      [(true, g)] = some ({ state := .init, bitbuf := 0, dtSave := 0 }, [.ok none]) := by
    rw [run_singleton, hgap]; rfl
  have hd : runStep (necFn t Mono.u32 tbl v) ({ state := .init, bitbuf := w, dtSave := 0 } : NecDecoder)
      [(false, d)] = some ({ state := .init, bitbuf := w, dtSave := d }, [.ok none]) := by
    rw [run_singleton, nec_falling _ _ _ _ _ (.inl rfl)]; rfl
  refine (results_of (D := necDecoder t Mono.u32 tbl v) conv
    (run_append_some (run_append_some hg' h) hd)).trans ?_
  simp [Res.map, List.replicate_succ]

/-- The pulses a NEC encoder writes are within the limits of the documented periods. -/
theorem necPairs_limits {fs : Nat} (hfs : 21000 ≤ fs ∨ (20000 ≤ fs ∧ fs % 1000 = 0)) {p : NecPulseLen}
    (hp : p = necStandardTiming ∨ p = necSamsungTiming) {data : NecData}
    (hdata : necData p fs = some data) (w : BitVec 32) :
    PeriodsBetween fs necLimits (necPeriods (p.headerHigh + p.headerLow) w)
      (necPairs data.headerHigh data.headerLow data.dataHigh data.dataZeroLow data.dataOneLow w) := by
  unfold necData at hdata
  simp only [Option.bind_eq_bind, Option.bind_eq_some_iff, Option.some.injEq] at hdata
  obtain ⟨a, ha, b, hb, c, hc, d, hd, e, he, g, hg, rfl⟩ := hdata
  obtain ⟨ha, -⟩ := calcTicks_eq (by omega) ha
  obtain ⟨hb, -⟩ := calcTicks_eq (by omega) hb
  obtain ⟨hd, -⟩ := calcTicks_eq (by omega) hd
  obtain ⟨he, -⟩ := calcTicks_eq (by omega) he
  obtain ⟨hg, -⟩ := calcTicks_eq (by omega) hg
  have hd' : p.dataHigh = 560 ∧ p.dataZeroLow = 560 ∧ p.dataOneLow = 1690 := by
    rcases hp with rfl | rfl <;> exact ⟨rfl, rfl, rfl⟩
  obtain ⟨d1, d2, d3⟩ := hd'
  rw [d1] at hd
  rw [d2] at he
  rw [d3] at hg
  refine ⟨by simp [necPeriods, necPairs], ?_⟩
  intro i q l hq hl'
  rcases i with _ | i
  · simp only [necPeriods, necPairs, List.getElem?_cons_zero, Option.some.injEq] at hq hl'
    subst hq hl'
    rcases hp with rfl | rfl <;> simp only [necStandardTiming, necSamsungTiming, necLimits] at ha hb ⊢ <;>
      norm_num <;> omega
  · simp only [necPeriods, necPairs, List.getElem?_cons_succ, List.getElem?_map] at hq hl'
    rcases hr : (List.range 32)[i]? with _ | x
    · simp [hr] at hq
    · rw [hr] at hq hl'
      simp only [Option.map_some, Option.some.injEq] at hq hl'
      subst hq hl'
      cases w.getLsbD x
      · simp only [Bool.false_eq_true, if_false, necLimits]
        norm_num
        omega
      · simp only [if_true, necLimits]
        norm_num
        omega

/-- A transmission of at most `n` durations of at most `b` ticks takes at most `n * b + 1` ticks. -/
theorem transmission_le {ds : List Nat} {n b : Nat} (hlen : ds.length ≤ n)
    (hds : ∀ d ∈ ds, 0 < d ∧ d ≤ b) : (transmission (0 :: ds)).length ≤ n * b + 1 := by
  have key : ∀ (ds : List Nat) (level : Bool), (∀ d ∈ ds, 0 < d ∧ d ≤ b) →
      (heldLevels level ds).length ≤ ds.length * b + 1 := by
    intro ds
    induction ds with
    | nil => intro level _; simp [heldLevels]
    | cons d ds ih =>
      intro level h
      have h1 := h d (by simp)
      have := ih (!level) fun x hx => h x (by simp [hx])
      simp only [heldLevels, List.length_append, List.length_replicate, List.length_cons, Nat.add_mul]
      omega
  have := key ds true hds
  have := Nat.mul_le_mul_right b hlen
  rw [transmission, List.replicate_zero, List.nil_append]
  omega

/-- Durations of the NEC encoder are at most 9 ms. -/
theorem necWave_le {p : NecPulseLen} {fs : Nat} {data : NecData} (hfs : 14000 ≤ fs)
    (h : necData p fs = some data) (hv : p = necStandardTiming ∨ p = necSamsungTiming) (w : BitVec 32) :
    ∀ d ∈ (necWave data.headerHigh data.headerLow data.dataHigh data.dataZeroLow data.dataOneLow w).tail,
      0 < d ∧ d ≤ 9 * (fs / 1000) := by
  intro d hd
  obtain ⟨p1, p2, p3, p4, p5⟩ := necData_pos hfs h hv
  refine ⟨(necWave_pos _ _ _ _ _ w p1 p2 p3 p4 p5 d hd).1, ?_⟩
  unfold necData at h
  simp only [Option.bind_eq_bind, Option.bind_eq_some_iff, Option.some.injEq] at h
  obtain ⟨a, ha, b, hb, c, hc, x, hx, e, he, g, hg, rfl⟩ := h
  obtain ⟨ha, -⟩ := calcTicks_eq (by omega) ha
  obtain ⟨hb, -⟩ := calcTicks_eq (by omega) hb
  obtain ⟨hx, -⟩ := calcTicks_eq (by omega) hx
  obtain ⟨he, -⟩ := calcTicks_eq (by omega) he
  obtain ⟨hg, -⟩ := calcTicks_eq (by omega) hg
  simp only [necWave, List.cons_append, List.nil_append, List.tail_cons, List.mem_cons,
    List.mem_flatMap] at hd
  rcases hv with rfl | rfl <;> simp only [necStandardTiming, necSamsungTiming] at ha hb hx he hg <;>
    rcases hd with rfl | rfl | ⟨i, -, hd⟩ <;> try omega
  all_goals
    simp only [List.mem_cons, List.not_mem_nil, or_false] at hd
    rcases hd with rfl | rfl
    · omega
    · split <;> omega

/-- **C55** for the NEC family: an idle sender ticked at `fs` Hz (at least 21 kHz, or exactly 20) with a buffer of exactly 67 slots sends a command; a new receiver polled at `f` Hz,
not slower than the sender, says the command sent and nothing else: for every word, every pause
before the transmission, every phase between the two clocks, and any number of further polls. -/
theorem C55_nec_two_clocks (t : Target) (fs : Nat)
    (hfs : 21000 ≤ fs ∨ (20000 ≤ fs ∧ fs % 1000 = 0)) (f : Nat) (hle : fs ≤ f) (hf : f < 2 ^ 32)
    (v : NecVariant C) (hv : v.Shipped) (data : NecData) (hdata : necData v.pulseDistance fs = some data)
    (tbl : PulseSpans) (htbl : necSpans t Mono.u32 v f = some tbl) (conv : C → K) (cmd : C)
    (w : BitVec 32) (hw : v.pack cmd = some w) (c : C) (hc : v.unpack w false = some c)
    (s : Sender) (hidle : s.buffer.status = .idle) (hS : s.buffer.ptb.buf.length = 67) :
    ∃ s', s.load (necEncode v data cmd) = some s' ∧ ∀ ticks, fs ≤ ticks → ∀ pause phase n,
      phase < fs →
      ¬ InTol tbl 0 (reading fs f phase pause + 1) → ¬ InTol tbl 1 (reading fs f phase pause + 1) →
      reading fs f phase (pause + ticks) < n → n < 2 ^ 32 →
      (pollRun (necDecoder t Mono.u32 tbl v) conv
          (looked fs f phase (List.replicate pause false ++ s'.pins ticks) n)).map said =
        some [.ok (some (conv c))] := by
  obtain ⟨h1, h2⟩ := C38_nec_encode v data cmd w hw
  obtain ⟨p1, p2, p3, p4, p5⟩ := necData_pos (by omega) hdata hv
  have hds := necWave_pos _ _ _ _ _ w p1 p2 p3 p4 p5
  obtain ⟨s', hs, hpins⟩ := C43_exact_buffer_partial s hidle _ _ h1 (by rw [h2, hS]) (by
    intro d hd
    have : necWave data.headerHigh data.headerLow data.dataHigh data.dataZeroLow data.dataOneLow w =
      0 :: (necWave data.headerHigh data.headerLow data.dataHigh data.dataZeroLow data.dataOneLow w).tail := rfl
    rw [this] at hd
    rcases List.mem_cons.mp hd with rfl | hd
    · decide
    · exact (hds d hd).2)
  let ps := necPairs data.headerHigh data.headerLow data.dataHigh data.dataZeroLow data.dataOneLow w
  have hwave : necWave data.headerHigh data.headerLow data.dataHigh data.dataZeroLow data.dataOneLow w =
      0 :: ps.flatMap fun p => [p.1, p.2] := by
    simp [ps, necPairs, necWave, List.flatMap_map]
  have hpos : ∀ p ∈ ps, 0 < p.1 ∧ 0 < p.2 := by
    intro p hp
    rw [hwave, List.tail_cons] at hds
    exact ⟨(hds p.1 (List.mem_flatMap.mpr ⟨p, hp, by simp⟩)).1,
      (hds p.2 (List.mem_flatMap.mpr ⟨p, hp, by simp⟩)).1⟩
  have hnear : PeriodsBetween fs necLimits
      (necPeriods (v.pulseDistance.headerHigh + v.pulseDistance.headerLow) w) ps :=
    necPairs_limits hfs hv hdata w
  rw [hwave] at hpins
  have hsec : (transmission (0 :: ps.flatMap fun p => [p.1, p.2])).length < fs := by
    have := transmission_le (ds := ps.flatMap fun p => [p.1, p.2]) (n := 66) (by
      have := h2
      rw [hwave] at this
      simp only [List.length_cons] at this
      omega) (by
      have := necWave_le (by omega) hdata hv w
      rw [hwave] at this
      exact this)
    omega
  refine ⟨s', hs, ?_⟩
  intro ticks hticks pause phase n hphase h0 h1' hn hmax
  obtain ⟨m, hm⟩ : ∃ m, ticks = (transmission (0 :: ps.flatMap fun p => [p.1, p.2])).length + (m + 1) :=
    ⟨ticks - (transmission (0 :: ps.flatMap fun p => [p.1, p.2])).length - 1, by omega⟩
  have hline : s'.pins ticks =
      transmission (0 :: ps.flatMap fun p => [p.1, p.2]) ++ List.replicate (m + 1) false := by
    rw [hpins, List.take_append, List.take_of_length_le (by omega)]
    congr 1
    rw [List.take_replicate]
    congr 1
    omega
  have hedges := edges_transmission pause m ps hpos
  rw [← hline] at hedges
  have hdur := edges_duration (List.replicate pause false ++ s'.pins ticks) false 0
  rw [hedges] at hdur
  have hlen : (List.replicate pause false ++ s'.pins ticks).length = pause + ticks := by
    rw [hline, hm]; simp [Nat.add_assoc]
  rw [hlen] at hdur
  have hread : reading fs f phase (duration ((true, pause) :: (pulses ps ++ [(false, 1)]))) < n := by
    refine Nat.lt_of_le_of_lt ?_ hn
    have hd' : duration ((true, pause) :: (pulses ps ++ [(false, 1)])) ≤ pause + ticks := by
      simpa using hdur
    obtain ⟨x, hx⟩ := Nat.le.dest hd'
    rw [← hx]
    exact reading_mono _ _ _ _ _
  rw [C55_two_clocks _ conv fs (by omega) f (by omega) phase hphase _ ?_ true pause
    (pulses ps ++ [(false, 1)]) hedges ?_ n hread hmax]
  · have hg : reading fs f phase pause + 1 < 2 ^ 32 := by
      have : reading fs f phase pause ≤
          reading fs f phase (duration ((true, pause) :: (pulses ps ++ [(false, 1)]))) := by
        simp only [duration, List.map_cons, List.sum_cons]
        exact reading_mono _ _ _ _ _
      omega
    rw [clocked_append, clocked_pulses]
    have := nec_frame_ended t f (by omega) hf v hv tbl htbl conv w _
      (necFrame_of_between (by omega) (.inl rfl) (by omega) hf hv htbl hnear phase pause)
      (reading fs f phase pause + 1)
      (reading fs f phase (pause + duration (pulses ps) + 1) - reading fs f phase (pause + duration (pulses ps)))
      hg h0 h1'
    rw [show clocked fs f phase (pause + duration (pulses ps)) [(false, 1)] =
      [(false, reading fs f phase (pause + duration (pulses ps) + 1) -
        reading fs f phase (pause + duration (pulses ps)))] from rfl, ← List.cons_append, this, hc,
      Option.map_some, said, List.filter_append,
      List.filter_eq_nil_iff.mpr (by intro x hx; rw [List.eq_of_mem_replicate hx]; simp)]
    rfl
  · rw [hline, List.replicate_succ', ← List.append_assoc, ← List.append_assoc,
      List.getLastD_concat]
  · intro e he
    have h1e : 1 ≤ e.2 := by
      rcases List.mem_append.mp he with he | he
      · obtain ⟨p, hp, h | h⟩ := mem_pulses he
        · rw [h]; exact (hpos p hp).1
        · rw [h]; exact (hpos p hp).2
      · simp only [List.mem_singleton] at he
        rw [he]
    calc fs ≤ 1 * f := by omega
      _ ≤ e.2 * f := Nat.mul_le_mul_right _ h1e

/-! ## Any sender whose receiver is not slower, any buffer -/

theorem pins_take (s : Sender) (m n : Nat) (h : m ≤ n) : (s.pins n).take m = s.pins m := by
  induction m generalizing s n with
  | zero => rfl
  | succ m ih =>
    obtain ⟨n, rfl⟩ : ∃ k, n = k + 1 := ⟨n - 1, by omega⟩
    simp only [Sender.pins, List.take_succ_cons]
    rw [ih _ _ (by omega)]

theorem pins_length (s : Sender) (n : Nat) : (s.pins n).length = n := by
  induction n generalizing s with
  | zero => rfl
  | succ n ih => simp [Sender.pins, ih]

/-- Polls that come before the end of `levels`, whatever comes after. -/
theorem looked_prefix {fs f phase : Nat} (hf : 0 < f) (hphase : phase < fs) (levels more : List Bool)
    (n : Nat) (hn : n * fs ≤ levels.length * f + phase) :
    looked fs f phase (levels ++ more) n = polled fs f phase (edgesFrom false 0 levels) n := by
  unfold looked polled
  refine List.map_congr_left fun i hi => ?_
  rw [List.mem_range] at hi
  have h1 : 1 * fs ≤ (i + 1) * fs := Nat.mul_le_mul_right _ (by omega)
  have h2 : (i + 1) * fs ≤ n * fs := Nat.mul_le_mul_right _ (by omega)
  have hlt : ((i + 1) * fs - phase - 1) / f < levels.length := by
    rw [Nat.div_lt_iff_lt_mul hf]; omega
  rw [levelAt_seen, seen_get hf _ _ _ _ (by omega)]
  simp only [Nat.add_zero, Nat.zero_le, if_true, Nat.sub_zero]
  rw [List.getD_eq_getElem?_getD, List.getElem?_append_left hlt, List.getElem?_eq_getElem hlt,
    List.getD_eq_getElem?_getD, List.getElem?_eq_getElem hlt]
  rfl

/-- **C55**, any encoder and decoder, any idle sender with room for the waveform: a receiver polled
not slower than the sender is ticked says, from the moment of the last edge of the waveform on and as
long as the sender has not gone beyond it, exactly what an event receiver says for the waveform. -/
theorem C55_sender (D : Decoder C) (conv : C → K) (fs : Nat) (hfs : 0 < fs) (f : Nat) (hle : fs ≤ f)
    (s : Sender) (hidle : s.buffer.status = .idle) (enc : Encode) (ds : List Nat)
    (henc : Writes enc (0 :: ds)) (hlen : (0 :: ds).length ≤ s.buffer.ptb.buf.length)
    (hds : ∀ d ∈ ds, 0 < d ∧ d < 2 ^ 32) (hold : ∀ d ∈ s.buffer.ptb.buf, d < 2 ^ 32) :
    ∃ s', s.load enc = some s' ∧ ∀ ticks, (transmission (0 :: ds)).length ≤ ticks →
      ∀ pause phase, phase < fs →
      reading fs f phase (pause + (transmission (0 :: ds)).length) + 1 < 2 ^ 32 →
      ∃ n, (pollRun D conv (looked fs f phase (List.replicate pause false ++ s'.pins ticks) n)).map said =
        (results D conv ((true, reading fs f phase pause + 1) ::
          clocked fs f phase pause (alternating false ds))).map said := by
  obtain ⟨s', h1, h2, -⟩ := C43_command_first_partial s hidle enc _ henc (by simp) hlen
    (by
      intro d hd
      rcases List.mem_cons.mp hd with rfl | hd
      · decide
      · exact (hds d hd).2) hold
  refine ⟨s', h1, ?_⟩
  intro ticks hticks pause phase hphase hmax
  have hpins : s'.pins ticks = transmission (0 :: ds) ++
      (s'.pins ticks).drop (transmission (0 :: ds)).length := by
    have := List.take_append_drop (transmission (0 :: ds)).length (s'.pins ticks)
    rw [pins_take _ _ _ hticks, h2] at this
    exact this.symm
  have hedges : edgesFrom false 0 (List.replicate pause false ++ transmission (0 :: ds)) =
      (true, pause) :: alternating false ds := by
    have h := edgesFrom_held ds [] true (0 + pause) (fun d hd => (hds d hd).1)
    simp only [List.append_nil, Bool.not_true, edgesFrom, Nat.zero_add] at h
    rw [edgesFrom_replicate, transmission, List.replicate_zero, List.nil_append, Nat.zero_add, h]
  have hdur : duration ((true, pause) :: alternating false ds) + 1 =
      pause + (transmission (0 :: ds)).length := by
    have hh : ∀ (ds : List Nat) (level b : Bool), (∀ d ∈ ds, 0 < d ∧ d < 2 ^ 32) →
        duration (alternating b ds) + 1 = (heldLevels level ds).length := by
      intro ds
      induction ds with
      | nil => intro level b _; rfl
      | cons d ds ih =>
        intro level b h
        have := ih (!level) (!b) (fun x hx => h x (by simp [hx]))
        have hd := (h d (by simp)).1
        simp only [duration, alternating, List.map_cons, List.sum_cons, heldLevels, List.length_append,
          List.length_replicate] at this ⊢
        omega
    have := hh ds true false hds
    simp only [duration, List.map_cons, List.sum_cons, transmission, List.replicate_zero,
      List.nil_append] at this ⊢
    omega
  refine ⟨reading fs f phase (duration ((true, pause) :: alternating false ds)) + 1, ?_⟩
  have hbound : (reading fs f phase (duration ((true, pause) :: alternating false ds)) + 1) * fs ≤
      (List.replicate pause false ++ transmission (0 :: ds)).length * f + phase := by
    have hl : (List.replicate pause false ++ transmission (0 :: ds)).length =
        duration ((true, pause) :: alternating false ds) + 1 := by
      rw [hdur]; simp
    rw [hl, Nat.add_mul, Nat.add_mul]
    unfold reading
    have := Nat.div_mul_le_self (duration ((true, pause) :: alternating false ds) * f + phase) fs
    omega
  rw [hpins, ← List.append_assoc, looked_prefix (by omega) hphase _ _ _ hbound, hedges]
  refine C54_polled_line D conv fs hfs f phase true pause (alternating false ds) ?_ ?_ _ (by omega) ?_
  · rw [← hedges]; exact edgesFrom_changes _ _ _
  · intro e he
    have : ∀ (ds : List Nat) (b : Bool), (∀ d ∈ ds, 0 < d ∧ d < 2 ^ 32) →
        ∀ e ∈ alternating b ds, 1 ≤ e.2 := by
      intro ds
      induction ds with
      | nil => intro b _ e he; cases he
      | cons d ds ih =>
        intro b h e he
        rcases List.mem_cons.mp he with rfl | he
        · exact (h d (by simp)).1
        · exact ih _ (fun x hx => h x (by simp [hx])) e he
    have h1e := this ds false hds e he
    calc fs ≤ 1 * f := by omega
      _ ≤ e.2 * f := Nat.mul_le_mul_right _ h1e
  · have : reading fs f phase (duration ((true, pause) :: alternating false ds)) ≤
        reading fs f phase (pause + (transmission (0 :: ds)).length) := by
      rw [← hdur]; exact reading_mono _ _ _ _ _
    omega

theorem said_one (k : Nat) (x : K) (j : Nat) :
    said (List.replicate k (.ok none) ++ [.ok (some x)] ++ List.replicate j (.ok none)) =
      ([.ok (some x)] : List (Res K)) := by
  have h : ∀ k, said (List.replicate k (.ok none) : List (Res K)) = [] := by
    intro k
    exact List.filter_eq_nil_iff.mpr (by intro x hx; rw [List.eq_of_mem_replicate hx]; simp)
  unfold said at h ⊢
  rw [List.filter_append, List.filter_append, h, h]
  rfl

/-- **C55** for the NEC family, any buffer with room for the waveform. -/
theorem C55_nec_any_buffer (t : Target) (fs : Nat)
    (hfs : 21000 ≤ fs ∨ (20000 ≤ fs ∧ fs % 1000 = 0)) (f : Nat) (hle : fs ≤ f) (hf : f < 2 ^ 32)
    (v : NecVariant C) (hv : v.Shipped) (data : NecData) (hdata : necData v.pulseDistance fs = some data)
    (tbl : PulseSpans) (htbl : necSpans t Mono.u32 v f = some tbl) (conv : C → K) (cmd : C)
    (w : BitVec 32) (hw : v.pack cmd = some w) (c : C) (hc : v.unpack w false = some c)
    (s : Sender) (hidle : s.buffer.status = .idle) (hS : 67 ≤ s.buffer.ptb.buf.length)
    (hold : ∀ d ∈ s.buffer.ptb.buf, d < 2 ^ 32) :
    ∃ s', s.load (necEncode v data cmd) = some s' ∧ ∀ ticks, fs ≤ ticks → ∀ pause phase,
      phase < fs → reading fs f phase (pause + fs) + 1 < 2 ^ 32 →
      ¬ InTol tbl 0 (reading fs f phase pause + 1) → ¬ InTol tbl 1 (reading fs f phase pause + 1) →
      ∃ n, (pollRun (necDecoder t Mono.u32 tbl v) conv
          (looked fs f phase (List.replicate pause false ++ s'.pins ticks) n)).map said =
        some [.ok (some (conv c))] := by
  obtain ⟨h1, h2⟩ := C38_nec_encode v data cmd w hw
  obtain ⟨p1, p2, p3, p4, p5⟩ := necData_pos (by omega) hdata hv
  obtain ⟨s', hs, h⟩ := C55_sender (necDecoder t Mono.u32 tbl v) conv fs (by omega) f hle s hidle
    (necEncode v data cmd) _ h1 (by rw [← h2] at hS; exact hS)
    (necWave_pos _ _ _ _ _ w p1 p2 p3 p4 p5) hold
  have hsec : (transmission (0 :: (necWave data.headerHigh data.headerLow data.dataHigh data.dataZeroLow
      data.dataOneLow w).tail)).length ≤ fs := by
    have := transmission_le (n := 66) (by rw [List.length_tail, h2]) (necWave_le (by omega) hdata hv w)
    omega
  refine ⟨s', hs, fun ticks hticks pause phase hphase hmax h0 h1' => ?_⟩
  have hmono : ∀ a, a ≤ fs → reading fs f phase (pause + a) ≤ reading fs f phase (pause + fs) := by
    intro a ha
    have := reading_mono fs f phase (pause + a) (fs - a)
    rwa [Nat.add_assoc, Nat.add_sub_cancel' ha] at this
  obtain ⟨n, hn⟩ := h ticks (Nat.le_trans hsec hticks) pause phase hphase
    (Nat.lt_of_le_of_lt (Nat.add_le_add_right (hmono _ hsec) 1) hmax)
  refine ⟨n, hn.trans ?_⟩
  have hg : reading fs f phase pause + 1 < 2 ^ 32 := by
    have := reading_mono fs f phase pause fs
    omega
  have hfr := necFrame_of_between (by omega) (.inl rfl) (by omega) hf hv htbl (necPairs_limits hfs hv hdata w) phase pause
  change (results _ conv ((true, reading fs f phase pause + 1) :: clocked fs f phase pause
    (alternating false (necWave data.headerHigh data.headerLow data.dataHigh data.dataZeroLow
      data.dataOneLow w).tail))).map said = _
  rw [necWave_pulses, clocked_pulses, C17_nec_fresh_receiver t Mono.u32 (.inl rfl) f (by omega) hf v hv tbl htbl conv
    w _ hfr _ hg h0 h1', hc]
  have := said_one 66 (conv c) 0
  rw [List.replicate_zero, List.append_nil] at this
  rw [Option.map_some, Option.map_some, this]

/-! ## RC5 -/

theorem rc5_ticks_near {fs len : Nat} (hfs : 42000 ≤ fs ∨ (20000 ≤ fs ∧ fs % 1000 = 0))
    (hlen : len = 889 * (fs / 1000) / 1000) (n : Nat) : Near fs 5 (889 * n) (n * len) := by
  have e0 : ∀ a, a * (889 * n) * fs = n * (a * 889 * fs) := by
    intro a
    rw [← Nat.mul_assoc a 889 n, Nat.mul_comm _ n, Nat.mul_assoc]
  unfold Near
  rw [e0, e0, Nat.mul_left_comm 100000000 n len]
  have h : 42000 ≤ fs ∨ (23000 ≤ fs ∧ fs % 1000 = 0) ∨ fs = 20000 ∨ fs = 21000 ∨ fs = 22000 := by omega
  rcases h with h | h | rfl | rfl | rfl <;>
    exact ⟨Nat.mul_le_mul_left _ (by omega), Nat.mul_le_mul_left _ (by omega)⟩

/-- **C55** for RC5: sender at 42 kHz or more (or a whole number of kHz from 20), receiver at 40 kHz
or more and not slower than the sender. -/
theorem C55_rc5_two_clocks (t : Target) (hus : 16 ≤ t.usizeBits) (fs : Nat)
    (hfs : 42000 ≤ fs ∨ (20000 ≤ fs ∧ fs % 1000 = 0)) (f : Nat) (hlo : 40000 ≤ f) (hle : fs ≤ f)
    (hf : f < 2 ^ 32) (tbl : PulseSpans) (htbl : rc5Spans t Mono.u32 f = some tbl)
    (conv : Rc5Command → K) (cmd : Rc5Command) (ha : cmd.addr.toNat < 32) (hc : cmd.cmd.toNat < 64)
    (hs : cmd.start.toNat < 4) (s : Sender) (hidle : s.buffer.status = .idle)
    (hS : 27 ≤ s.buffer.ptb.buf.length) (hold : ∀ d ∈ s.buffer.ptb.buf, d < 2 ^ 32) :
    ∃ l s', rc5CalcFreq fs = some l ∧ s.load (rc5Encode t l cmd) = some s' ∧
      ∀ ticks, fs ≤ ticks → ∀ pause phase,
        phase < fs → reading fs f phase (pause + fs) + 1 < 2 ^ 32 →
        ∃ n, (pollRun (rc5Decoder t tbl) conv
            (looked fs f phase (List.replicate pause false ++ s'.pins ticks) n)).map said =
          some [.ok (some (conv { cmd with start := cmd.start ||| 2 }))] := by
  obtain ⟨l, hl, -, henc⟩ := C38_rc5_encode t fs (by omega)
  obtain ⟨hw, h14, h27⟩ := henc cmd
  have e := (rc5CalcFreq_eq (by omega) hl).2 (by omega)
  have hl2 := (rc5CalcFreq_eq (by omega) hl).1
  have h13 : (rc5Word cmd.pack).getLsbD 13 = true := by
    rw [rc5Word_bits _ _ (by decide)]; simp
  have hpos : ∀ d ∈ (rc5Wave l (rc5Word cmd.pack)).tail, 0 < d ∧ d < 2 ^ 32 := by
    intro d hd
    unfold rc5Wave at hd
    rw [rc5Edges_eq _ h13] at hd
    simp only [manchesterWave, List.tail_cons, List.mem_map] at hd
    obtain ⟨x, hx, rfl⟩ := hd
    have : 0 < l := by rw [e]; omega
    rcases rc5_edges_len _ 13 true x hx with h | h <;> rw [h] <;> omega
  have hle2 : ∀ d ∈ (rc5Wave l (rc5Word cmd.pack)).tail, d ≤ 2 * l := by
    intro d hd
    unfold rc5Wave at hd
    rw [rc5Edges_eq _ h13] at hd
    simp only [manchesterWave, List.tail_cons, List.mem_map] at hd
    obtain ⟨x, hx, rfl⟩ := hd
    rcases rc5_edges_len _ 13 true x hx with h | h <;> rw [h] <;> omega
  rw [rc5Wave_cons _ _ h13] at hw h27
  obtain ⟨s', hs', h⟩ := C55_sender (rc5Decoder t tbl) conv fs (by omega) f hle s hidle
    (rc5Encode t l cmd) _ hw (by omega) hpos hold
  have hsec : (transmission (0 :: (rc5Wave l (rc5Word cmd.pack)).tail)).length ≤ fs := by
    have := transmission_le (n := 26) (b := 2 * l) (by simp only [List.length_cons] at h27; omega)
      fun d hd => ⟨(hpos d hd).1, hle2 d hd⟩
    omega
  refine ⟨l, s', hl, hs', fun ticks hticks pause phase hphase hmax => ?_⟩
  have hmono : ∀ a, a ≤ fs → reading fs f phase (pause + a) ≤ reading fs f phase (pause + fs) := by
    intro a ha
    have := reading_mono fs f phase (pause + a) (fs - a)
    rwa [Nat.add_assoc, Nat.add_sub_cancel' ha] at this
  obtain ⟨n, hn⟩ := h ticks (Nat.le_trans hsec hticks) pause phase hphase
    (Nat.lt_of_le_of_lt (Nat.add_le_add_right (hmono _ hsec) 1) hmax)
  refine ⟨n, hn.trans ?_⟩
  have hfr : ManchesterFrame (Within tbl) (rc5Edges (rc5Word cmd.pack))
      ((true, reading fs f phase pause + 1) ::
        clocked fs f phase pause (alternating false (rc5Wave l (rc5Word cmd.pack)).tail)) := by
    unfold rc5Wave
    rw [rc5Edges_eq _ h13]
    refine ⟨_, 1, _, _, rfl, rfl, ?_⟩
    refine clocked_timed (R := fun x n => Near fs 5 (889 * n) x) ?_ pause
      (timed_wave _ _ _ (edgesFrom_alternating true _ _) fun x _ => rc5_ticks_near hfs e _)
    intro t' x w hmem hnear
    exact rc5_near_within (by omega) (.inl rfl) hlo hf htbl phase t' (rc5_edges_len _ 13 true w hmem) hnear
  have hp : 2 ^ 16 ≤ 2 ^ t.usizeBits := Nat.pow_le_pow_right (by decide) hus
  obtain ⟨r', hr, -⟩ := C24_rc5_frame_decoded t hus Mono.u32 (.inl rfl) f (by omega) hf tbl htbl conv [] []
    (Receiver.new _) rfl rfl _ h13 _ (.inr (by
      simp only [List.length_nil, List.length_cons, clocked_length, alternating_length] at h27 ⊢
      omega)) hfr
  rw [rc5_received_cmd cmd ha hc hs] at hr
  have hres := congrArg (Option.map Prod.snd) hr
  have := said_one ((clocked fs f phase pause (alternating false (rc5Wave l (rc5Word cmd.pack)).tail)).length)
    (conv { cmd with start := cmd.start ||| 2 }) 0
  rw [List.replicate_zero, List.append_nil] at this
  refine (congrArg (Option.map said) hres).trans ?_
  rw [Option.map_some, Option.map_some, Option.some.injEq]
  exact this

/-! ## RC6 -/

theorem rc6_ticks_near {fs len : Nat} (hfs : 46000 ≤ fs) (hlen : len = 444 * fs / 1000000) (n : Nat) :
    Near fs 5 (444 * n) (n * len) := by
  have e0 : ∀ a, a * (444 * n) * fs = n * (a * 444 * fs) := by
    intro a
    rw [← Nat.mul_assoc a 444 n, Nat.mul_comm _ n, Nat.mul_assoc]
  unfold Near
  rw [e0, e0, Nat.mul_left_comm 100000000 n len]
  exact ⟨Nat.mul_le_mul_left _ (by omega), Nat.mul_le_mul_left _ (by omega)⟩

/-- A falling edge does nothing to an idle RC6 receiver. -/
theorem rc6_idle_falling {t : Target} {tbl : PulseSpans} {d d' : Rc6Decoder} {x : Nat}
    {r : Res Rc6Command} (hd : d.state = .idle) (h : rc6Fn t tbl d (false, x) = some (d', r)) :
    r = .ok none := by
  obtain ⟨clock, hc⟩ := rc6_step_some t tbl h
  unfold rc6Fn Decoder.eventTotal at h
  unfold rc6Clock at hc
  obtain ⟨st, b, hdr, tg, c⟩ := d
  dsimp only at hd hc
  subst hd
  simp only [rc6Decoder, Rc6Decoder.event, Option.bind_eq_bind] at h
  rcases hg : tbl.get x with _ | v
  · rw [hg] at h
    simp [Rc6Decoder.tick, Rc6Decoder.reset, Rc6Decoder.transition, Rc6State.toState] at h
    exact h.2.symm
  · rw [hg] at h hc
    rcases hu : uadd t t.usizeBits v 1 with _ | inc
    · simp [hu] at hc
    · simp only [hu, Option.bind_some] at hc
      simp [hu, hc, Rc6Decoder.tick, Rc6Decoder.transition, Rc6State.toState] at h
      exact h.2.symm

/-- A falling edge behind a frame adds no command. -/
theorem rc6_extra {t : Target} {tbl : PulseSpans} (hus : 16 ≤ t.usizeBits)
    (hlen : tbl.spans.length ≤ 8) {evs : List Ev} (hl : evs.length ≤ 100) {d1 : Rc6Decoder}
    {o1 : List (Res Rc6Command)} (h1 : runStep (rc6Fn t tbl) rc6Init evs = some (d1, o1))
    (hidle : d1.state = .idle) (x : Nat) :
    ∃ d2, runStep (rc6Fn t tbl) d1 [(false, x)] = some (d2, [.ok none]) := by
  have hp : 2 ^ 16 ≤ 2 ^ t.usizeBits := Nat.pow_le_pow_right (by decide) hus
  obtain ⟨d', hd', -, -⟩ := rc6_run_ex t tbl hus hlen sim6_init (evs ++ [(false, x)]) (.inr (by
    simp only [List.length_cons, List.length_append, List.length_nil, rc6Init]
    omega))
  obtain ⟨s1, o2, o3, q1, q2, -⟩ := run_append_inv hd'
  rw [h1, Option.some.injEq, Prod.mk.injEq] at q1
  obtain ⟨rfl, -⟩ := q1
  obtain ⟨d3, r, o', q3, q4, rfl⟩ := run_cons_inv q2
  rw [rc6_idle_falling hidle q3] at q3
  exact ⟨d3, (run_singleton _ _).trans (by rw [q3]; rfl)⟩

/-- **C55** for RC6: sender at 46 kHz or more, receiver at 80 kHz or more and not slower. -/
theorem C55_rc6_two_clocks (t : Target) (hus : 16 ≤ t.usizeBits) (fs : Nat) (hfs : 46000 ≤ fs)
    (hhi : fs ≤ 9673349) (f : Nat) (hlo : 80000 ≤ f) (hle : fs ≤ f)
    (hf : f < 2 ^ 32) (tbl : PulseSpans) (htbl : rc6Spans t Mono.u32 f = some tbl)
    (conv : Rc6Command → K) (cmd : Rc6Command) (s : Sender) (hidle : s.buffer.status = .idle)
    (hS : 44 ≤ s.buffer.ptb.buf.length) (hold : ∀ d ∈ s.buffer.ptb.buf, d < 2 ^ 32) :
    ∃ l s', rc6Data fs = some l ∧ s.load (rc6Encode l cmd) = some s' ∧
      ∀ ticks, fs ≤ ticks → ∀ pause phase,
        phase < fs → reading fs f phase (pause + fs) + 1 < 2 ^ 32 →
        ∃ n, (pollRun (rc6Decoder t tbl) conv
            (looked fs f phase (List.replicate pause false ++ s'.pins ticks) n)).map said =
          some [.ok (some (conv cmd))] := by
  have hdata : rc6Data fs = some (444 * fs / 1000000) := if_pos (by omega)
  obtain ⟨-, hw, h44⟩ := C38_rc6_encode fs _ hdata cmd
  have hpos := rc6_wave_pos fs (by omega) hhi cmd
  rw [rc6Wave_cons] at hw h44
  obtain ⟨s', hs', h⟩ := C55_sender (rc6Decoder t tbl) conv fs (by omega) f hle s hidle
    (rc6Encode (444 * fs / 1000000) cmd) _ hw (by omega) hpos hold
  have hsec : (transmission (0 :: (rc6Wave (444 * fs / 1000000) (cmd.addr ++ cmd.cmd)
      cmd.toggle).tail)).length ≤ fs := by
    have := transmission_le (n := 43) (b := 6 * (444 * fs / 1000000))
      (by simp only [List.length_cons] at h44; omega) fun d hd => ⟨(hpos d hd).1, by
        obtain ⟨u, hu, hu6⟩ := rc6_wave_units _ _ _ d (List.mem_of_mem_tail hd)
        rw [hu]; exact Nat.mul_le_mul_right _ hu6⟩
    omega
  refine ⟨_, s', hdata, hs', fun ticks hticks pause phase hphase hmax => ?_⟩
  have hmono : ∀ a, a ≤ fs → reading fs f phase (pause + a) ≤ reading fs f phase (pause + fs) := by
    intro a ha
    have := reading_mono fs f phase (pause + a) (fs - a)
    rwa [Nat.add_assoc, Nat.add_sub_cancel' ha] at this
  obtain ⟨n, hn⟩ := h ticks (Nat.le_trans hsec hticks) pause phase hphase
    (Nat.lt_of_le_of_lt (Nat.add_le_add_right (hmono _ hsec) 1) hmax)
  refine ⟨n, hn.trans ?_⟩
  have hp : 2 ^ 16 ≤ 2 ^ t.usizeBits := Nat.pow_le_pow_right (by decide) hus
  have hlen : tbl.spans.length ≤ 8 := by
    rw [rc6Spans_eq (.inl rfl) t hf, Option.some.injEq] at htbl
    subst htbl
    simp [rc6Table]
  obtain ⟨evs, extra, he, ⟨p0, n0, evs', edges', rfl, hedges, ht⟩, hex⟩ := rc6_wave_frame_of (fun x n => Near fs 5 (444 * n) x)
    (444 * fs / 1000000) ⟨rc6_ticks_near hfs rfl 1, rc6_ticks_near hfs rfl 2, rc6_ticks_near hfs rfl 3,
      rc6_ticks_near hfs rfl 6⟩ (cmd.addr ++ cmd.cmd) cmd.toggle 0
  simp only [List.cons_append, List.cons.injEq, Prod.mk.injEq, true_and] at he
  obtain ⟨-, he⟩ := he
  have hl43 : (evs' ++ extra).length ≤ 43 := by
    rw [← he, alternating_length]
    simp only [List.length_cons] at h44
    omega
  rw [he, clocked_append, ← List.cons_append]
  have hfr : ManchesterFrame (WithinRc6 tbl) (rc6Edges (cmd.addr ++ cmd.cmd) cmd.toggle)
      ((true, reading fs f phase pause + 1) :: clocked fs f phase pause evs') := by
    refine ⟨_, n0, _, edges', rfl, hedges, clocked_timed ?_ pause ht⟩
    intro t' x w hmem hnear
    rw [rc6Edges_eq 0 (.inl rfl)] at hedges
    simp only [List.cons.injEq, Prod.mk.injEq, true_and] at hedges
    obtain ⟨-, rfl⟩ := hedges
    exact rc6_near_within (by omega) (.inl rfl) hlo hf htbl phase t' (rc6_edges_len _ _ w hmem) hnear
  obtain ⟨r', hr, hidle'⟩ := C26_rc6_frame_decoded t hus Mono.u32 (.inl rfl) f (by omega) hf tbl htbl conv [] []
    (Receiver.new _) rfl rfl cmd.addr cmd.cmd cmd.toggle _ (.inr (by
      simp only [List.length_nil, List.length_cons, clocked_length, List.length_append] at hl43 ⊢
      omega)) hfr
  obtain ⟨o1, ho1, hout, -⟩ := Receiver.run_inv (D := rc6Decoder t tbl) hr
  have hextra : ∃ d2 j, runStep (rc6Fn t tbl) r'.decoder
      (clocked fs f phase (pause + duration evs') extra) = some (d2, List.replicate j (.ok none)) := by
    rcases hex with rfl | ⟨x, rfl⟩
    · exact ⟨_, 0, rfl⟩
    · obtain ⟨d2, h2⟩ := rc6_extra hus hlen (by
        simp only [List.length_cons, clocked_length, List.length_append] at hl43 ⊢
        omega) ho1 hidle' (reading fs f phase (pause + duration evs' + x) -
          reading fs f phase (pause + duration evs'))
      exact ⟨d2, 1, h2⟩
  obtain ⟨d2, j, hd2⟩ := hextra
  refine (congrArg (Option.map said) (results_of (D := rc6Decoder t tbl) conv
    (run_append_some ho1 hd2))).trans ?_
  rw [List.map_append, ← hout, Option.map_some, Option.some.injEq, List.map_replicate]
  exact said_one _ _ j

/-! ## Non-vacuity -/

/-- A NEC command sent by a 38 kHz timer after 10 ticks of silence, polled at 40 kHz with any phase:
two seconds of ticks, three seconds of polls. -/
example (t : Target) (phase : Nat) (hphase : phase < 38000) :
    ∃ data s', necData Infrared.nec.pulseDistance 38000 = some data ∧
      (Sender.new 67 false).load (necEncode Infrared.nec data ⟨0, 1, false⟩) = some s' ∧
      (pollRun (necDecoder t Mono.u32 (necTable 40000) Infrared.nec) id
          (looked 38000 40000 phase (List.replicate 10 false ++ s'.pins 76000) 120000)).map said =
        some [.ok (some ⟨0, 1, false⟩)] := by
  have hd : (necData Infrared.nec.pulseDistance 38000).isSome := by decide +kernel
  obtain ⟨data, hdata⟩ := Option.isSome_iff_exists.mp hd
  obtain ⟨s', h1, h⟩ := C55_nec_two_clocks t 38000 (.inl (by decide)) 40000 (by decide) (by decide)
    Infrared.nec (.inl rfl) data hdata _ (necSpans_standard (.inl rfl) t (by decide) _ rfl) id ⟨0, 1, false⟩
    0xfe01ff00#32 rfl ⟨0, 1, false⟩ rfl (Sender.new 67 false) rfl rfl
  have hr : reading 38000 40000 phase 10 ≤ 12 := by unfold reading; omega
  refine ⟨data, s', hdata, h1, h 76000 (by decide) 10 phase 120000 hphase ?_ ?_
    (by unfold reading; omega) (by decide)⟩
  all_goals
    rintro ⟨s, hs, h1, h2⟩
    cases hs
    revert h1
    have : reading 38000 40000 phase 10 + 1 < 20 := by omega
    generalize reading 38000 40000 phase 10 + 1 = q at *
    revert q
    decide +kernel

/-- RC5 from a 50 kHz timer to a 100 kHz one, after 3 ticks of silence. -/
example (t : Target) (hus : 16 ≤ t.usizeBits) :
    ∃ l s' n, rc5CalcFreq 50000 = some l ∧
      (Sender.new 30 false).load (rc5Encode t l (Rc5Command.new 20 9 true)) = some s' ∧
      (pollRun (rc5Decoder t (rc5Table 100000)) id
        (looked 50000 100000 17 (List.replicate 3 false ++ s'.pins 50000) n)).map said =
        some [.ok (some (Rc5Command.new 20 9 true))] := by
  obtain ⟨l, s', h1, h2, h⟩ := C55_rc5_two_clocks t hus 50000 (.inl (by decide)) 100000 (by decide)
    (by decide) (by decide) _ (rc5Spans_eq (.inl rfl) t (by decide)) id (Rc5Command.new 20 9 true)
    (by decide) (by decide) (by decide) (Sender.new 30 false) rfl (by decide +kernel) (by decide +kernel)
  obtain ⟨n, hn⟩ := h 50000 (Nat.le_refl _) 3 17 (by decide) (by decide)
  exact ⟨l, s', n, h1, h2, hn⟩

/-- The same for RC6. -/
example (t : Target) (hus : 16 ≤ t.usizeBits) :
    ∃ l s' n, rc6Data 50000 = some l ∧
      (Sender.new 50 false).load (rc6Encode l ⟨5, 12, true⟩) = some s' ∧
      (pollRun (rc6Decoder t (rc6Table 100000)) id
        (looked 50000 100000 17 (List.replicate 3 false ++ s'.pins 50000) n)).map said =
        some [.ok (some ⟨5, 12, true⟩)] := by
  obtain ⟨l, s', h1, h2, h⟩ := C55_rc6_two_clocks t hus 50000 (by decide) (by decide) 100000
    (by decide) (by decide) (by decide) _ (rc6Spans_eq (.inl rfl) t (by decide)) id ⟨5, 12, true⟩
    (Sender.new 50 false) rfl (by decide +kernel) (by decide +kernel)
  obtain ⟨n, hn⟩ := h 50000 (Nat.le_refl _) 3 17 (by decide) (by decide)
  exact ⟨l, s', n, h1, h2, hn⟩

/-! ## Why the receiver must not be slower -/

/-- Send one RC5 command with timer frequency `fs`, poll at `f`. -/
def rc5Talk (fs f phase : Nat) (cmd : Rc5Command) : Option (List (Res Rc5Command)) :=
  (rc5CalcFreq fs).bind fun l =>
  ((Sender.new 27 false).load (rc5Encode ⟨true, 64⟩ l cmd)).bind fun s' =>
  (rc5Spans ⟨true, 64⟩ Mono.u32 f).bind fun tbl =>
  (pollRun (rc5Decoder ⟨true, 64⟩ tbl) id (looked fs f phase (s'.pins 300) 150)).map said

/-- The sender sets the pin for the last interval of a frame on the tick that also ends the frame, so
the last mark is on the line for one tick only.  A receiver polling at half the rate sees it or not
depending on the phase between the clocks: same command, same frequencies, received at one phase and
lost at the other. -/
theorem C55_refuted_slow_receiver :
    rc5Talk 10000 5000 5000 (Rc5Command.new 1 0 false) =
        some [.ok (some (Rc5Command.new 1 0 false))] ∧
      rc5Talk 10000 5000 0 (Rc5Command.new 1 0 false) = some [] := by
  constructor <;> decide +kernel

end Infrared
