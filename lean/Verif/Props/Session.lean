import Verif.Spec.Session
import Verif.Props.TwoClocks
import Verif.Props.Streams

/-!
# A session: many commands from one sender to one receiver (C57)
-/

namespace Infrared

open Spec

variable {C K : Type}

/-! ## Leftover slots -/

/-- Pulses as a list of durations. -/
def flat (ps : List (Nat × Nat)) : List Nat := ps.flatMap fun p => [p.1, p.2]

theorem flat_append (a b : List (Nat × Nat)) : flat (a ++ b) = flat a ++ flat b := by
  simp [flat]

theorem flat_length (ps : List (Nat × Nat)) : (flat ps).length = 2 * ps.length := by
  induction ps with
  | nil => rfl
  | cons p ps ih => simp only [flat, List.flatMap_cons, List.length_append, List.length_cons,
      List.length_nil] at ih ⊢; omega

theorem flat_ones (j : Nat) : flat (List.replicate j (1, 1)) = List.replicate (2 * j) 1 := by
  induction j with
  | zero => rfl
  | succ j ih =>
    rw [List.replicate_succ, flat, List.flatMap_cons, show 2 * (j + 1) = 2 * j + 1 + 1 by omega,
      List.replicate_succ, List.replicate_succ, ← ih]
    rfl

/-- An empty slot is held for a tick, like a slot of one tick. -/
theorem held_zeros (xs : List Nat) (k : Nat) (level : Bool) :
    heldLevels level (xs ++ List.replicate k 0) = heldLevels level (xs ++ List.replicate k 1) := by
  induction xs generalizing level with
  | nil =>
    induction k generalizing level with
    | zero => rfl
    | succ k ih =>
      simp only [List.nil_append, List.replicate_succ, heldLevels] at ih ⊢
      rw [ih]
      rfl
  | cons x xs ih => simp only [List.cons_append, heldLevels, ih]

/-- `k` empty slots behind the pulses: pulses of one tick on and one off, and for an odd `k` one more
tick off. -/
theorem transmission_zeros (ps : List (Nat × Nat)) (k : Nat) :
    transmission (0 :: (flat ps ++ List.replicate k 0)) =
      transmission (0 :: flat (ps ++ List.replicate (k / 2) (1, 1))) ++ List.replicate (k % 2) false := by
  simp only [transmission, List.replicate_zero, List.nil_append]
  rw [held_zeros]
  rcases Nat.mod_two_eq_zero_or_one k with h | h
  · rw [flat_append, flat_ones, h, show 2 * (k / 2) = k by omega]
    simp
  · rw [h, flat_append, flat_ones]
    have hk : List.replicate k 1 = List.replicate (2 * (k / 2)) 1 ++ [1] := by
      rw [← List.replicate_succ']; congr 1; omega
    rw [hk, ← List.append_assoc]
    obtain ⟨l, h1, h2⟩ := heldLevels_append true (flat ps ++ List.replicate (2 * (k / 2)) 1) [1]
    rw [h1]
    have : l = true := by
      rw [h2, List.length_append, List.length_replicate, flat_length,
        show (2 * ps.length + 2 * (k / 2)) % 2 = 0 by omega]
      rfl
    rw [this]
    rfl

/-- Total length of pulses. -/
def span (ps : List (Nat × Nat)) : Nat := (ps.map fun p => p.1 + p.2).sum

theorem span_append (a b : List (Nat × Nat)) : span (a ++ b) = span a + span b := by
  simp [span]

theorem span_ones (j : Nat) : span (List.replicate j (1, 1)) = 2 * j := by
  simp [span]; omega

theorem le_span {ps : List (Nat × Nat)} {p : Nat × Nat} (h : p ∈ ps) : p.1 + p.2 ≤ span ps := by
  induction ps with
  | nil => cases h
  | cons q ps ih =>
    simp only [span, List.map_cons, List.sum_cons] at ih ⊢
    rcases List.mem_cons.mp h with rfl | h
    · omega
    · have := ih h; omega

theorem transmission_span (ps : List (Nat × Nat)) (hps : ∀ p ∈ ps, 0 < p.1 ∧ 0 < p.2) :
    (transmission (0 :: flat ps)).length = span ps + 1 := by
  rw [transmission, List.replicate_zero, List.nil_append]
  induction ps with
  | nil => rfl
  | cons p ps ih =>
    have h1 := hps p (by simp)
    have := ih fun q hq => hps q (by simp [hq])
    simp only [flat, List.flatMap_cons, List.cons_append, List.nil_append, heldLevels,
      List.length_append, List.length_replicate, span, List.map_cons, List.sum_cons, Bool.not_true,
      Bool.not_false] at this ⊢
    omega

/-! ## Edges of a session -/

/-- The pin during one command: its pulses and at least one tick of silence. -/
def chunkLevels (c : List (Nat × Nat) × Nat) : List Bool :=
  transmission (0 :: flat c.1) ++ List.replicate c.2 false

/-- Pulses of a session: between two commands the final mark of one tick and the silence. -/
def body : List (List (Nat × Nat) × Nat) → List (Nat × Nat)
  | [] => []
  | [c] => c.1
  | c :: c' :: cs => c.1 ++ (1, c.2) :: body (c' :: cs)

theorem edges_chunks (cs : List (List (Nat × Nat) × Nat))
    (hcs : ∀ c ∈ cs, 1 ≤ c.2 ∧ ∀ p ∈ c.1, 0 < p.1 ∧ 0 < p.2) (hne : cs ≠ []) (n : Nat) :
    edgesFrom false n (cs.flatMap chunkLevels) = (true, n) :: pulses (body cs) ++ [(false, 1)] := by
  induction cs generalizing n with
  | nil => exact absurd rfl hne
  | cons c cs ih =>
    obtain ⟨h1, h2⟩ := hcs c (by simp)
    obtain ⟨ps, m⟩ := c
    obtain ⟨m, rfl⟩ : ∃ k, m = k + 1 := ⟨m - 1, by simp only at h1; omega⟩
    have h := edgesFrom_held (flat ps) (List.replicate (m + 1) false ++ cs.flatMap chunkLevels) true n (by
      intro d hd
      obtain ⟨p, hp, hd⟩ := List.mem_flatMap.mp hd
      simp only [List.mem_cons, List.not_mem_nil, or_false] at hd
      rcases hd with rfl | rfl
      · exact (h2 p hp).1
      · exact (h2 p hp).2)
    rw [List.flatMap_cons, chunkLevels, transmission, List.replicate_zero, List.nil_append,
      List.append_assoc]
    rw [Bool.not_true] at h
    rw [h, flat_length, show (2 * ps.length) % 2 = 0 by omega, List.replicate_succ, flat,
      alternating_pairs]
    have hstep : edgesFrom (xor true (0 == 1)) 1
        ((false :: List.replicate m false) ++ cs.flatMap chunkLevels) =
        (false, 1) :: edgesFrom false (1 + m) (cs.flatMap chunkLevels) := by
      rw [← edgesFrom_replicate]; rfl
    rw [hstep]
    cases cs with
    | nil => simp [edgesFrom, body]
    | cons c' cs =>
      rw [ih (fun x hx => hcs x (by simp [hx])) (by simp)]
      simp only [body, pulses_append, pulses, List.cons_append, List.append_assoc, Nat.add_comm 1 m]

theorem last_chunks (cs : List (List (Nat × Nat) × Nat)) (hcs : ∀ c ∈ cs, 1 ≤ c.2) (pre : List Bool)
    (hpre : pre.getLastD false = false) :
    (pre ++ cs.flatMap chunkLevels).getLastD false = false := by
  induction cs generalizing pre with
  | nil => rwa [List.flatMap_nil, List.append_nil]
  | cons c cs ih =>
    rw [List.flatMap_cons, ← List.append_assoc]
    refine ih (fun x hx => hcs x (by simp [hx])) _ ?_
    have := hcs c (by simp)
    obtain ⟨m, hm⟩ : ∃ m, c.2 = m + 1 := ⟨c.2 - 1, by omega⟩
    rw [chunkLevels, hm, List.replicate_succ', ← List.append_assoc, ← List.append_assoc,
      List.getLastD_concat]

theorem mem_body {cs : List (List (Nat × Nat) × Nat)} {p : Nat × Nat} (h : p ∈ body cs) :
    ∃ c ∈ cs, p ∈ c.1 ∨ p = (1, c.2) := by
  induction cs with
  | nil => cases h
  | cons c cs ih =>
    cases cs with
    | nil => exact ⟨c, by simp, .inl h⟩
    | cons c' cs =>
      rcases List.mem_append.mp h with h | h
      · exact ⟨c, by simp, .inl h⟩
      · rcases List.mem_cons.mp h with h | h
        · exact ⟨c, by simp, .inr h⟩
        · obtain ⟨x, hx, h⟩ := ih h
          exact ⟨x, by simp [hx], h⟩

theorem clockedPulses_append (u f phase : Nat) (a b : List (Nat × Nat)) (t : Nat) :
    clockedPulses u f phase t (a ++ b) =
      clockedPulses u f phase t a ++ clockedPulses u f phase (t + span a) b := by
  induction a generalizing t with
  | nil => rfl
  | cons p a ih =>
    obtain ⟨h, l⟩ := p
    simp only [List.cons_append, clockedPulses, ih, span, List.map_cons, List.sum_cons, Nat.add_assoc]

theorem clockedPulses_mem {u f phase t : Nat} {ps : List (Nat × Nat)} {q : Nat × Nat}
    (h : q ∈ clockedPulses u f phase t ps) :
    ∃ p ∈ ps, ∃ t', q.1 + q.2 = reading u f phase (t' + (p.1 + p.2)) - reading u f phase t' := by
  obtain ⟨i, hi⟩ := List.mem_iff_getElem?.mp h
  obtain ⟨p, t', hp, hq⟩ := clockedPulses_get u f phase t ps i q hi
  exact ⟨p, List.mem_of_getElem? hp, t', hq⟩

/-! ## What is not a NEC symbol -/

/-- Slots 0 and 1 of a NEC-family table are windows between 6750 and 13 500 µs. -/
theorem nec_sync_window {t : Target} {f : Nat} (hf : f < 2 ^ 32) {v : NecVariant C} (hv : v.Shipped)
    {tbl : PulseSpans} (htbl : necSpans t Mono.u32 v f = some tbl) {i d : Nat} (hi : i = 0 ∨ i = 1)
    (h : InTol tbl i d) :
    100000000 * d ≤ 107 * 13500 * f ∧ 9968 * (93 * 6750 * f) ≤ 10000000000 * (100 * d + 93) := by
  rcases hv with hv | hv
  · have hb : Kind.build .nec t Mono.u32 f = some tbl := by
      rw [← htbl, necSpans_standard (.inl rfl) t hf v hv]
      exact necSpans_standard (.inl rfl) t hf _ rfl
    have := (C52_rejects .nec t Mono.u32 (.inl rfl) f hf tbl hb i d h).1
    rcases hi with rfl | rfl
    · have := this (9000 + 4500) 7 rfl
      omega
    · have := this (9000 + 2250) 7 rfl
      omega
  · have hb : Kind.build .samsung t Mono.u32 f = some tbl := by
      rw [← htbl, necSpans_samsung (.inl rfl) t hf v hv]
      exact necSpans_samsung (.inl rfl) t hf _ rfl
    have := (C52_rejects .samsung t Mono.u32 (.inl rfl) f hf tbl hb i d h).1
    rcases hi with rfl | rfl
    · have := this (4500 + 4500) 7 rfl
      omega
    · have := this (4500 + 2250) 7 rfl
      omega

/-- Two ticks of the sender, or at least 22 ms of them, are no NEC sync and no repeat. -/
theorem nec_not_sync {t : Target} {fs f : Nat} (hfs : 20000 ≤ fs) (hle : fs ≤ f) (hf : f < 2 ^ 32)
    {v : NecVariant C} (hv : v.Shipped) {tbl : PulseSpans}
    (htbl : necSpans t Mono.u32 v f = some tbl) {phase t' : Nat} {q p : Nat × Nat}
    (hq : q.1 + q.2 = reading fs f phase (t' + (p.1 + p.2)) - reading fs f phase t')
    (hp : p.1 + p.2 = 2 ∨ 22 * fs ≤ 1000 * (p.1 + p.2)) (hlong : (p.1 + p.2) * f / fs + 1 < 2 ^ 32) :
    Pause tbl Mono.u32.width [0, 1] q := by
  have hb := reading_bounds (u := fs) (by omega) f phase t' (p.1 + p.2)
  have hd := reading_diff (u := fs) (by omega) f phase t' (p.1 + p.2)
  rw [← hq] at hb
  refine ⟨show q.1 + q.2 < 2 ^ 32 by omega, fun i hi hin => ?_⟩
  simp only [List.mem_cons, List.not_mem_nil, or_false] at hi
  obtain ⟨a, b⟩ := nec_sync_window hf hv htbl hi hin
  generalize q.1 + q.2 = d at *
  generalize p.1 + p.2 = x at *
  have a' := Nat.mul_le_mul_right fs a
  have b' := Nat.mul_le_mul_right fs b
  have e1 : 100000000 * d * fs = 100000000 * (fs * d) := by rw [Nat.mul_assoc, Nat.mul_comm d]
  have e2 : 107 * 13500 * f * fs = 1444500 * (f * fs) := by rw [Nat.mul_assoc]
  have e3 : 9968 * (93 * 6750 * f) * fs = 6257412000 * (f * fs) := by
    rw [show 9968 * (93 * 6750 * f) = 6257412000 * f by omega, Nat.mul_assoc]
  have e4 : 10000000000 * (100 * d + 93) * fs = 1000000000000 * (fs * d) + 930000000000 * fs := by
    rw [show 10000000000 * (100 * d + 93) = 1000000000000 * d + 930000000000 by omega, Nat.add_mul,
      Nat.mul_assoc, Nat.mul_comm d]
  rw [e1, e2] at a'
  rw [e3, e4] at b'
  have m1 : 20000 * f ≤ f * fs := by rw [Nat.mul_comm f]; exact Nat.mul_le_mul_right _ hfs
  rcases hp with rfl | hp
  · omega
  · have m2 : 22 * fs * f ≤ 1000 * x * f := Nat.mul_le_mul_right _ hp
    rw [Nat.mul_assoc, Nat.mul_comm fs, Nat.mul_assoc 1000] at m2
    omega

/-- Pauses are not heard. -/
theorem nec_pauses (t : Target) (m : Mono) (hm : m.Lawful) (tbl : PulseSpans) (v : NecVariant C)
    (ps : List (Nat × Nat)) (hps : ∀ p ∈ ps, Pause tbl m.width [0, 1] p) (d : NecDecoder)
    (hd : d.state = .init) :
    ∃ d' o, runStep (necFn t m tbl v) d (pulses ps) = some (d', o) ∧ d'.state = .init ∧ said o = [] := by
  induction ps generalizing d with
  | nil => exact ⟨d, [], rfl, hd, rfl⟩
  | cons p ps ih =>
    have h1 := nec_pause t m hm tbl v d hd p (hps p (by simp))
    obtain ⟨d', o, h2, h3, h4⟩ := ih (fun q hq => hps q (by simp [hq]))
      { state := .init, bitbuf := d.bitbuf, dtSave := 0 } rfl
    refine ⟨d', _, (congrArg (runStep (necFn t m tbl v) d) (pulses_append [p] ps)).trans
      (run_append_some h1 h2), h3, ?_⟩
    rw [said_append, h4]
    rfl

/-! ## Reception of a session -/

/-- The chunk for a word: its frame, `k` leftover slots, and silence. -/
def necChunk (data : NecData) (k : Nat) (w : BitVec 32) (ticks : Nat) : List (Nat × Nat) × Nat :=
  let ps := necPairs data.headerHigh data.headerLow data.dataHigh data.dataZeroLow data.dataOneLow w ++
    List.replicate (k / 2) (1, 1)
  (ps, ticks - (span ps + 1))

theorem nec_body (t : Target) {fs f : Nat} (hfs : 21000 ≤ fs ∨ (20000 ≤ fs ∧ fs % 1000 = 0))
    (hle : fs ≤ f) (hf : f < 2 ^ 32) {v : NecVariant C} (hv : v.Shipped) {data : NecData}
    (hdata : necData v.pulseDistance fs = some data) {tbl : PulseSpans}
    (htbl : necSpans t Mono.u32 v f = some tbl) (k phase : Nat) (w : C → BitVec 32)
    (hear : C → C) (ws : List (C × Nat))
    (hws : ∀ x ∈ ws, v.unpack (w x.1) false = some (hear x.1) ∧
      22 * fs ≤ 1000 * ((necChunk data k (w x.1) x.2).2 + 1) ∧
      ((necChunk data k (w x.1) x.2).2 + 1) * f / fs + 1 < 2 ^ 32)
    (t0 : Nat) (d : NecDecoder) (hd : d.state = .init) :
    ∃ d' o, runStep (necFn t Mono.u32 tbl v) d
        (pulses (clockedPulses fs f phase t0 (body (ws.map fun x => necChunk data k (w x.1) x.2)))) =
          some (d', o) ∧ d'.state = .init ∧ said o = oks (ws.map fun x => hear x.1) := by
  have hm : Mono.u32 = Mono.u32 ∨ Mono.u32 = Mono.u64 := .inl rfl
  obtain ⟨hu, hfit⟩ := necSpans_good hm t (by omega) hf v hv htbl
  have htwo : 2 * f / fs + 1 < 2 ^ 32 := by
    have : 2 * f / fs ≤ 2 * f / 20000 := Nat.div_le_div_left (by omega) (by decide)
    omega
  induction ws generalizing t0 d with
  | nil => exact ⟨d, [], rfl, hd, rfl⟩
  | cons x ws ih =>
    obtain ⟨hx, hlong, hfits⟩ := hws x (by simp)
    have hfr : NecFrame tbl (w x.1) (clockedPulses fs f phase t0 (necPairs data.headerHigh data.headerLow
        data.dataHigh data.dataZeroLow data.dataOneLow (w x.1))) :=
      necFrame_of_between (by omega) (.inl rfl) (by omega) hf hv htbl (necPairs_limits hfs hv hdata (w x.1))
        phase t0
    have h1 := nec_frame t Mono.u32 (Mono.prim_lawful hm) tbl hu hfit v d hd (w x.1) _ hfr
    have hsaid : said (List.replicate 65 (.ok none) ++ [.ok (v.unpack (w x.1) false)]) =
        oks [hear x.1] := by
      rw [said_append, said_nones, hx]; rfl
    cases ws with
    | nil =>
      simp only [List.map_cons, List.map_nil, body]
      obtain ⟨d', o, h2, h3, h4⟩ := nec_pauses t Mono.u32 (Mono.prim_lawful hm) tbl v
        (clockedPulses fs f phase (t0 + span (necPairs data.headerHigh data.headerLow
          data.dataHigh data.dataZeroLow data.dataOneLow (w x.1))) (List.replicate (k / 2) (1, 1))) (by
          intro q hq
          obtain ⟨p, hp, t', hq⟩ := clockedPulses_mem hq
          rw [List.eq_of_mem_replicate hp] at hq
          exact nec_not_sync (by omega) hle hf hv htbl hq (.inl rfl) htwo)
        { state := .init, bitbuf := (w x.1), dtSave := 0 } rfl
      refine ⟨d', _, (congrArg (runStep (necFn t Mono.u32 tbl v) d) ?_).trans
        (run_append_some h1 h2), h3, ?_⟩
      · rw [necChunk, clockedPulses_append, pulses_append]
      · rw [said_append, hsaid, h4, List.append_nil]
    | cons y ws =>
      simp only [List.map_cons, body] at ih ⊢
      obtain ⟨d1, o1, h2, h3, h4⟩ := nec_pauses t Mono.u32 (Mono.prim_lawful hm) tbl v
        (clockedPulses fs f phase (t0 + span (necPairs data.headerHigh data.headerLow
          data.dataHigh data.dataZeroLow data.dataOneLow (w x.1))) (List.replicate (k / 2) (1, 1) ++
            [(1, (necChunk data k (w x.1) x.2).2)])) (by
          intro q hq
          obtain ⟨p, hp, t', hq⟩ := clockedPulses_mem hq
          rcases List.mem_append.mp hp with hp | hp
          · rw [List.eq_of_mem_replicate hp] at hq
            exact nec_not_sync (by omega) hle hf hv htbl hq (.inl rfl) htwo
          · rw [List.mem_singleton.mp hp] at hq
            refine nec_not_sync (by omega) hle hf hv htbl hq (.inr ?_) ?_
            · simp only; omega
            · rw [Nat.add_comm (1, _).1]; exact hfits)
        { state := .init, bitbuf := (w x.1), dtSave := 0 } rfl
      obtain ⟨d', o, h5, h6, h7⟩ := ih (fun z hz => hws z (by simp [hz]))
        (t0 + span (necPairs data.headerHigh data.headerLow
          data.dataHigh data.dataZeroLow data.dataOneLow (w x.1)) + span (List.replicate (k / 2) (1, 1) ++
            [(1, (necChunk data k (w x.1) x.2).2)])) d1 h3
      refine ⟨d', _, (congrArg (runStep (necFn t Mono.u32 tbl v) d) ?_).trans
        (run_append_some (run_append_some h1 h2) h5), h6, ?_⟩
      · rw [show (necChunk data k (w x.1) x.2).1 = necPairs data.headerHigh data.headerLow
          data.dataHigh data.dataZeroLow data.dataOneLow (w x.1) ++ List.replicate (k / 2) (1, 1) from rfl,
          List.append_assoc, ← List.singleton_append, ← List.append_assoc (List.replicate _ _),
          clockedPulses_append, clockedPulses_append, pulses_append, pulses_append, List.append_assoc]
      · rw [said_append, said_append, hsaid, h4, h7, List.append_nil, ← oks_append]
        rfl

/-! ## The sender's side -/

theorem necPairs_flat (hm hs mk z o : Nat) (w : BitVec 32) :
    necWave hm hs mk z o w = 0 :: flat (necPairs hm hs mk z o w) := by
  simp [necPairs, necWave, flat, List.flatMap_map]

theorem necPairs_pos {p : NecPulseLen} {fs : Nat} {data : NecData} (hfs : 14000 ≤ fs)
    (h : necData p fs = some data) (hv : p = necStandardTiming ∨ p = necSamsungTiming) (w : BitVec 32) :
    ∀ q ∈ necPairs data.headerHigh data.headerLow data.dataHigh data.dataZeroLow data.dataOneLow w,
      (0 < q.1 ∧ q.1 < 2 ^ 32) ∧ (0 < q.2 ∧ q.2 < 2 ^ 32) := by
  obtain ⟨p1, p2, p3, p4, p5⟩ := necData_pos hfs h hv
  have hds := necWave_pos _ _ _ _ _ w p1 p2 p3 p4 p5
  rw [necPairs_flat, List.tail_cons] at hds
  intro q hq
  exact ⟨hds q.1 (List.mem_flatMap.mpr ⟨q, hq, by simp⟩), hds q.2 (List.mem_flatMap.mpr ⟨q, hq, by simp⟩)⟩

/-- A NEC frame takes at most 85.5 ms. -/
theorem necPairs_span {p : NecPulseLen} {fs : Nat} {data : NecData} (hfs : 14000 ≤ fs)
    (h : necData p fs = some data) (hv : p = necStandardTiming ∨ p = necSamsungTiming) (w : BitVec 32) :
    2000 * span (necPairs data.headerHigh data.headerLow data.dataHigh data.dataZeroLow data.dataOneLow w)
      ≤ 171 * fs := by
  unfold necData at h
  simp only [Option.bind_eq_bind, Option.bind_eq_some_iff, Option.some.injEq] at h
  obtain ⟨a, ha, b, hb, c, hc, d, hd, e, he, g, hg, rfl⟩ := h
  obtain ⟨ha, -⟩ := calcTicks_eq (by omega) ha
  obtain ⟨hb, -⟩ := calcTicks_eq (by omega) hb
  obtain ⟨hd, -⟩ := calcTicks_eq (by omega) hd
  obtain ⟨he, -⟩ := calcTicks_eq (by omega) he
  obtain ⟨hg, -⟩ := calcTicks_eq (by omega) hg
  have hd' : p.dataHigh = 560 ∧ p.dataZeroLow = 560 ∧ p.dataOneLow = 1690 := by
    rcases hv with rfl | rfl <;> exact ⟨rfl, rfl, rfl⟩
  obtain ⟨d1, d2, d3⟩ := hd'
  rw [d1] at hd
  rw [d2] at he
  rw [d3] at hg
  have hab : 2000 * (a + b) ≤ 27 * fs := by
    rcases hv with rfl | rfl <;> simp only [necStandardTiming, necSamsungTiming] at ha hb <;> omega
  have hbits : ∀ l : List Nat, 4000 * span (l.map fun i => (d, if w.getLsbD i then g else e)) ≤
      l.length * (9 * fs) := by
    intro l
    induction l with
    | nil => simp [span]
    | cons i l ih =>
      have : 4000 * (d + if w.getLsbD i then g else e) ≤ 9 * fs := by split <;> omega
      simp only [List.map_cons, span, List.sum_cons, List.length_cons, Nat.add_mul] at ih ⊢
      omega
  have h32 := hbits (List.range 32)
  rw [List.length_range] at h32
  have : span (necPairs a b d e g w) = (a + b) +
      span ((List.range 32).map fun i => (d, if w.getLsbD i then g else e)) := by
    simp [necPairs, span]
  show 2000 * span (necPairs a b d e g w) ≤ 171 * fs
  rw [this]
  omega

/-- One command: the sender transmits it and is idle again, with the same leftover slots. -/
theorem nec_one {v : NecVariant C} (hv : v.Shipped) {fs : Nat} (hfs : 14000 ≤ fs) {data : NecData}
    (hdata : necData v.pulseDistance fs = some data) {k : Nat} {cmd : C} {w : BitVec 32}
    (hw : v.pack cmd = some w) {n : Nat} (hn : 108 * fs + 1000 * k ≤ 1000 * n) {s : Sender}
    (hidle : s.buffer.status = .idle) (hlen : s.buffer.ptb.buf.length = 67 + k)
    (hz : s.buffer.ptb.buf.drop 67 = List.replicate k 0) :
    ∃ s1, s.load (necEncode v data cmd) = some s1 ∧ s1.pins n = chunkLevels (necChunk data k w n) ∧
      (s1.ticks n).buffer.status = .idle ∧ (s1.ticks n).buffer.ptb.buf.length = 67 + k ∧
      (s1.ticks n).buffer.ptb.buf.drop 67 = List.replicate k 0 := by
  obtain ⟨h1, h2⟩ := C38_nec_encode v data cmd w hw
  have hpos := necPairs_pos hfs hdata hv w
  have hspan := necPairs_span hfs hdata hv w
  have henc := h1 s.buffer.ptb.buf
  rw [if_pos (by omega), h2, hz] at henc
  rw [necPairs_flat] at henc h2
  generalize hps : necPairs data.headerHigh data.headerLow data.dataHigh data.dataZeroLow data.dataOneLow w
    = ps at *
  have hb : ∀ d ∈ 0 :: flat ps ++ List.replicate k 0, d < 2 ^ 32 := by
    intro d hd
    rcases List.mem_append.mp hd with hd | hd
    · rcases List.mem_cons.mp hd with rfl | hd
      · decide
      · obtain ⟨p, hp, hd⟩ := List.mem_flatMap.mp hd
        simp only [List.mem_cons, List.not_mem_nil, or_false] at hd
        rcases hd with rfl | rfl
        · exact (hpos p hp).1.2
        · exact (hpos p hp).2.2
    · rw [List.eq_of_mem_replicate hd]; decide
  obtain ⟨s1, l1, l2, -, l4, l5⟩ := load_idle hidle henc hb
  have hall : ∀ p ∈ ps ++ List.replicate (k / 2) (1, 1), 0 < p.1 ∧ 0 < p.2 := by
    intro p hp
    rcases List.mem_append.mp hp with hp | hp
    · exact ⟨(hpos p hp).1.1, (hpos p hp).2.1⟩
    · rw [List.eq_of_mem_replicate hp]; decide
  have htl := transmission_span _ hall
  have htr := transmission_zeros ps k
  have hsp := span_append ps (List.replicate (k / 2) (1, 1))
  rw [span_ones] at hsp
  have hlt : (transmission (0 :: (flat ps ++ List.replicate k 0))).length < n := by
    rw [htr, List.length_append, List.length_replicate, htl]
    omega
  refine ⟨s1, l1, ?_, ?_, ?_, ?_⟩
  · rw [pins_sending l5]
    change ((transmission (0 :: (flat ps ++ List.replicate k 0))) ++ _).take n = _
    rw [List.take_append, List.take_of_length_le (by omega), List.take_replicate, htr, chunkLevels,
      necChunk, hps, List.append_assoc, List.replicate_append_replicate]
    congr 2
    rw [List.length_append, htl, List.length_replicate] at *
    omega
  · rw [status_start l5 l4, Nat.sub_zero]
    exact .inr hlt
  · rw [ticks_buf, l2, List.length_append, h2, List.length_replicate]
  · rw [ticks_buf, l2, ← h2, List.drop_left]

theorem session_calls {v : NecVariant C} (hv : v.Shipped) {fs : Nat} (hfs : 14000 ≤ fs) {data : NecData}
    (hdata : necData v.pulseDistance fs = some data) {k : Nat} (w : C → BitVec 32)
    (cmds : List (C × Nat)) (hw : ∀ x ∈ cmds, v.pack x.1 = some (w x.1))
    (hn : ∀ x ∈ cmds, 108 * fs + 1000 * k ≤ 1000 * x.2) (s : Sender)
    (hidle : s.buffer.status = .idle) (hlen : s.buffer.ptb.buf.length = 67 + k)
    (hz : s.buffer.ptb.buf.drop 67 = List.replicate k 0) :
    ∃ s', s.calls (session (necEncode v data) cmds) =
        some (s', (cmds.map fun x => necChunk data k (w x.1) x.2).flatMap chunkLevels) ∧
      s'.buffer.status = .idle := by
  induction cmds generalizing s with
  | nil => exact ⟨s, rfl, hidle⟩
  | cons x xs ih =>
    obtain ⟨s1, h1, h2, h3, h4, h5⟩ := nec_one hv hfs hdata (hw x (by simp)) (hn x (by simp)) hidle hlen hz
    obtain ⟨s', h6, h7⟩ := ih (fun y hy => hw y (by simp [hy])) (fun y hy => hn y (by simp [hy]))
      (s1.ticks x.2) h3 h4 h5
    refine ⟨s', ?_, h7⟩
    rw [session, List.flatMap_cons, List.cons_append, Sender.calls, h1, Option.bind_some, calls_ticks, h2]
    rw [session] at h6
    rw [h6]
    rfl

/-! ## C57 -/

/-- **C57**: an idle sender of the NEC family, ticked at `fs` Hz (at least 21 kHz, or exactly 20), with
a buffer of at least 67 slots whose remaining slots are empty, as in a new sender, is given any number of commands, one
every 108 ms or more (plus one tick per remaining slot); a new receiver polled at `f` Hz, not slower
than the sender, says exactly these commands, in order, each once, and nothing else: for all
commands, all distances between them up to the range of the receiver's counter, every phase between the two
clocks, and any number of further polls. -/
theorem C57_nec_session (t : Target) (fs : Nat)
    (hfs : 21000 ≤ fs ∨ (20000 ≤ fs ∧ fs % 1000 = 0)) (f : Nat) (hle : fs ≤ f) (hf : f < 2 ^ 32)
    (v : NecVariant C) (hv : v.Shipped) (data : NecData) (hdata : necData v.pulseDistance fs = some data)
    (tbl : PulseSpans) (htbl : necSpans t Mono.u32 v f = some tbl) (conv : C → K)
    (cmds : List (C × Nat)) (hear : C → C)
    (hcmds : ∀ x ∈ cmds, ∃ w, v.pack x.1 = some w ∧ v.unpack w false = some (hear x.1))
    (s : Sender) (hidle : s.buffer.status = .idle) (k : Nat) (hlen : s.buffer.ptb.buf.length = 67 + k)
    (hz : s.buffer.ptb.buf.drop 67 = List.replicate k 0)
    (hticks : ∀ x ∈ cmds, 108 * fs + 1000 * k ≤ 1000 * x.2 ∧ x.2 * f / fs + 1 < 2 ^ 32) :
    ∃ s' levels, s.calls (session (necEncode v data) cmds) = some (s', levels) ∧
      s'.buffer.status = .idle ∧ ∀ pause phase n, phase < fs →
      Pause tbl 32 [0, 1] (0, reading fs f phase pause + 1) →
      reading fs f phase (pause + sessionTicks cmds) < n →
      (pollRun (necDecoder t Mono.u32 tbl v) conv (overhear fs f phase pause levels n)).map said =
        some (oks (cmds.map fun x => conv (hear x.1))) := by
  have h14 : 14000 ≤ fs := by omega
  let w : C → BitVec 32 := fun c => (v.pack c).getD 0
  have hw : ∀ x ∈ cmds, v.pack x.1 = some (w x.1) ∧ v.unpack (w x.1) false = some (hear x.1) := by
    intro x hx
    obtain ⟨y, h1, h2⟩ := hcmds x hx
    have : w x.1 = y := by simp only [w, h1, Option.getD_some]
    rw [this]
    exact ⟨h1, h2⟩
  obtain ⟨s', hcalls, hid⟩ := session_calls hv h14 hdata w cmds (fun x hx => (hw x hx).1)
    (fun x hx => (hticks x hx).1) s hidle hlen hz
  refine ⟨s', _, hcalls, hid, fun pause phase n hphase hpause hn => ?_⟩
  have hchunk : ∀ x ∈ cmds, span (necChunk data k (w x.1) x.2).1 + (necChunk data k (w x.1) x.2).2 + 1 = x.2 ∧
      22 * fs ≤ 1000 * ((necChunk data k (w x.1) x.2).2 + 1) := by
    intro x hx
    have h1 := (hticks x hx).1
    have h2 := necPairs_span h14 hdata hv (w x.1)
    simp only [necChunk, span_append, span_ones]
    omega
  rw [overhear]
  by_cases hne : cmds = []
  · subst hne
    have : looked fs f phase (List.replicate pause false ++ List.flatMap chunkLevels
        (List.map (fun x => necChunk data k (w x.1) x.2) ([] : List (C × Nat)))) n =
        List.replicate n false := by
      simp [looked, List.getD_eq_getElem?_getD, List.getElem?_replicate, List.eq_replicate_iff]
      intros
      split <;> rfl
    rw [this, C54_silent_line, Option.map_some, said_nones]
    rfl
  generalize hcs : (cmds.map fun x => necChunk data k (w x.1) x.2) = cs at *
  have hmem : ∀ c ∈ cs, ∃ x ∈ cmds, c = necChunk data k (w x.1) x.2 := by
    intro c hc
    rw [← hcs] at hc
    obtain ⟨x, hx, rfl⟩ := List.mem_map.mp hc
    exact ⟨x, hx, rfl⟩
  have hpos : ∀ c ∈ cs, 1 ≤ c.2 ∧ ∀ p ∈ c.1, 0 < p.1 ∧ 0 < p.2 := by
    intro c hc
    obtain ⟨x, hx, rfl⟩ := hmem c hc
    refine ⟨by have := (hchunk x hx).2; omega, fun p hp => ?_⟩
    rcases List.mem_append.mp hp with hp | hp
    · have := necPairs_pos h14 hdata hv (w x.1) p hp
      exact ⟨this.1.1, this.2.1⟩
    · rw [List.eq_of_mem_replicate hp]; decide
  have hedges : edgesFrom false 0 (List.replicate pause false ++ cs.flatMap chunkLevels) =
      (true, pause) :: (pulses (body cs) ++ [(false, 1)]) := by
    rw [edgesFrom_replicate, Nat.zero_add, edges_chunks cs hpos (by rw [← hcs]; simpa using hne)]
    rfl
  have hsum : (cs.flatMap chunkLevels).length = sessionTicks cmds := by
    rw [← hcs]
    clear hcs hmem hpos hedges hcalls hne hn hpause hcmds hw
    induction cmds with
    | nil => rfl
    | cons x xs ih =>
      have := (hchunk x (by simp)).1
      have hlev : (chunkLevels (necChunk data k (w x.1) x.2)).length = x.2 := by
        rw [chunkLevels, List.length_append, List.length_replicate, transmission_span]
        · omega
        · intro p hp
          rcases List.mem_append.mp hp with hp | hp
          · have := necPairs_pos h14 hdata hv (w x.1) p hp
            exact ⟨this.1.1, this.2.1⟩
          · rw [List.eq_of_mem_replicate hp]; decide
      have := ih (fun y hy => hticks y (by simp [hy])) (fun y hy => hchunk y (by simp [hy]))
      simp only [List.map_cons, List.flatMap_cons, List.length_append, hlev, this, sessionTicks,
        List.sum_cons]
  have hbound : ∀ e ∈ pulses (body cs) ++ [(false, 1)], 1 ≤ e.2 ∧ e.2 * f / fs + 1 < 2 ^ 32 := by
    have key : ∀ y : Nat, ∀ x ∈ cmds, y ≤ x.2 → y * f / fs + 1 < 2 ^ 32 := by
      intro y x hx hy
      have h1 := (hticks x hx).2
      have h2 : y * f / fs ≤ x.2 * f / fs := Nat.div_le_div_right (Nat.mul_le_mul_right _ hy)
      omega
    intro e he
    rcases List.mem_append.mp he with he | he
    · obtain ⟨p, hp, h⟩ := mem_pulses he
      obtain ⟨c, hc, hpc⟩ := mem_body hp
      have hc' := hpos c hc
      obtain ⟨x, hx, rfl⟩ := hmem c hc
      have hx' := (hchunk x hx).1
      rcases hpc with hpc | rfl
      · have h1 := hc'.2 p hpc
        have h2 := le_span hpc
        rcases h with h | h
        · rw [h]; exact ⟨h1.1, key _ x hx (by omega)⟩
        · rw [h]; exact ⟨h1.2, key _ x hx (by omega)⟩
      · rcases h with h | h
        · rw [h]; exact ⟨Nat.le_refl 1, key _ x hx (by simp only; omega)⟩
        · rw [h]; exact ⟨hc'.1, key _ x hx (by simp only; omega)⟩
    · rw [List.mem_singleton.mp he]
      obtain ⟨x, hx⟩ := List.exists_mem_of_ne_nil _ hne
      have := (hchunk x hx).1
      exact ⟨Nat.le_refl 1, key _ x hx (by simp only; omega)⟩
  have hdur : duration ((true, pause) :: (pulses (body cs) ++ [(false, 1)])) ≤
      pause + sessionTicks cmds := by
    have := edges_duration (List.replicate pause false ++ cs.flatMap chunkLevels) false 0
    rw [hedges, List.length_append, hsum, List.length_replicate] at this
    omega
  rw [C55_two_clocks_long _ conv fs (by omega) f (by omega) phase hphase _
    (last_chunks cs (fun c hc => (hpos c hc).1) _ (by cases pause <;> simp [List.replicate_succ'])) true pause
    (pulses (body cs) ++ [(false, 1)]) hedges ?_ n ?_ ?_ (fun e he => (hbound e he).2)]
  · rw [clocked_append, clocked_pulses, ← List.cons_append]
    have hgap := nec_gap_idle t Mono.u32 (Mono.prim_lawful (.inl rfl)) tbl v
      ({ state := .init, bitbuf := 0, dtSave := 0 } : NecDecoder) rfl (reading fs f phase pause + 1)
      hpause.1 (hpause.2 0 (by simp)) (hpause.2 1 (by simp))
    have hg' : runStep (necFn t Mono.u32 tbl v) ({ state := .init, bitbuf := 0, dtSave := 0 } : NecDecoder)
        [(true, reading fs f phase pause + 1)] =
        some ({ state := .init, bitbuf := 0, dtSave := 0 }, [.ok none]) := by
      rw [run_singleton, hgap]; rfl
    obtain ⟨d', o, h1, h2, h3⟩ := nec_body t hfs hle hf hv hdata htbl k phase w hear cmds (by
      intro x hx
      refine ⟨(hw x hx).2, (hchunk x hx).2, ?_⟩
      have h1 := (hticks x hx).2
      have h2 := (hchunk x hx).1
      have h3 : ((necChunk data k (w x.1) x.2).2 + 1) * f / fs ≤ x.2 * f / fs :=
        Nat.div_le_div_right (Nat.mul_le_mul_right _ (by omega))
      omega) pause ({ state := .init, bitbuf := 0, dtSave := 0 } : NecDecoder) rfl
    rw [hcs] at h1
    have hlast : ∀ y, runStep (necFn t Mono.u32 tbl v) d' [(false, y)] =
        some ({ d' with dtSave := y }, [.ok none]) := by
      intro y
      rw [run_singleton, nec_falling _ _ _ _ _ (.inl h2)]; rfl
    exact (said_results (D := necDecoder t Mono.u32 tbl v) conv
      (run_append_some (run_append_some hg' h1) (hlast _))
      (by rw [said_append, said_append, h3]; exact List.append_nil _)).trans (by rw [List.map_map]; rfl)
  · intro e he
    calc fs ≤ 1 * f := by omega
      _ ≤ e.2 * f := Nat.mul_le_mul_right _ (hbound e he).1
  · refine Nat.lt_of_le_of_lt ?_ hn
    obtain ⟨y, hy⟩ := Nat.le.dest hdur
    rw [← hy]
    exact reading_mono _ _ _ _ _
  · have := hpause.1
    simp only [Nat.zero_add] at this
    exact this

/-- **C57** for NEC, from a new sender: any list of commands. -/
theorem C57_standard_session (t : Target) (fs : Nat)
    (hfs : 21000 ≤ fs ∨ (20000 ≤ fs ∧ fs % 1000 = 0)) (hhi : fs ≤ 477218999) (f : Nat) (hle : fs ≤ f)
    (hf : f < 2 ^ 32) (tbl : PulseSpans) (htbl : necSpans t Mono.u32 Infrared.nec f = some tbl)
    (conv : NecCommand → K) (cmds : List (NecCommand × Nat)) (S : Nat) (hS : 67 ≤ S) (pin : Bool)
    (hticks : ∀ x ∈ cmds, 108 * fs + 1000 * (S - 67) ≤ 1000 * x.2 ∧ x.2 * f / fs + 1 < 2 ^ 32) :
    ∃ data s' levels, necData Infrared.nec.pulseDistance fs = some data ∧
      (Sender.new S pin).calls (session (necEncode Infrared.nec data) cmds) = some (s', levels) ∧
      ∀ pause phase n, phase < fs → Pause tbl 32 [0, 1] (0, reading fs f phase pause + 1) →
      reading fs f phase (pause + sessionTicks cmds) < n →
      (pollRun (necDecoder t Mono.u32 tbl Infrared.nec) conv (overhear fs f phase pause levels n)).map said =
        some (oks (cmds.map fun x => conv { x.1 with rep := false })) := by
  obtain ⟨data, hdata⟩ := Option.isSome_iff_exists.mp ((C38_nec_compiles fs (by omega)).1.mpr hhi)
  obtain ⟨s', levels, h1, -, h2⟩ := C57_nec_session t fs hfs f hle hf Infrared.nec (.inl rfl) data hdata tbl
    htbl conv cmds (fun c => { c with rep := false }) (fun x _ => ⟨x.1.pack, rfl, (C01_nec_roundtrip { x.1 with rep := false }).2⟩)
    (Sender.new S pin) rfl (S - 67) (show (List.replicate S 0).length = _ by rw [List.length_replicate]; omega)
    (List.drop_replicate ..) hticks
  exact ⟨data, s', levels, hdata, h1, h2⟩

/-- **C57** for Samsung, from a new sender: any list of commands. -/
theorem C57_samsung_session (t : Target) (fs : Nat)
    (hfs : 21000 ≤ fs ∨ (20000 ≤ fs ∧ fs % 1000 = 0)) (hhi : fs ≤ 954437999) (f : Nat) (hle : fs ≤ f)
    (hf : f < 2 ^ 32) (tbl : PulseSpans) (htbl : necSpans t Mono.u32 samsungNec f = some tbl)
    (conv : SamsungNecCommand → K) (cmds : List (SamsungNecCommand × Nat)) (S : Nat) (hS : 67 ≤ S) (pin : Bool)
    (hticks : ∀ x ∈ cmds, 108 * fs + 1000 * (S - 67) ≤ 1000 * x.2 ∧ x.2 * f / fs + 1 < 2 ^ 32) :
    ∃ data s' levels, necData samsungNec.pulseDistance fs = some data ∧
      (Sender.new S pin).calls (session (necEncode samsungNec data) cmds) = some (s', levels) ∧
      ∀ pause phase n, phase < fs → Pause tbl 32 [0, 1] (0, reading fs f phase pause + 1) →
      reading fs f phase (pause + sessionTicks cmds) < n →
      (pollRun (necDecoder t Mono.u32 tbl samsungNec) conv (overhear fs f phase pause levels n)).map said =
        some (oks (cmds.map fun x => conv { x.1 with rep := false })) := by
  obtain ⟨data, hdata⟩ := Option.isSome_iff_exists.mp ((C38_nec_compiles fs (by omega)).2.mpr hhi)
  obtain ⟨s', levels, h1, -, h2⟩ := C57_nec_session t fs hfs f hle hf samsungNec (.inr rfl) data hdata tbl
    htbl conv cmds (fun c => { c with rep := false }) (fun x _ => ⟨x.1.pack, rfl, (C02_samsung_roundtrip { x.1 with rep := false }).2⟩)
    (Sender.new S pin) rfl (S - 67) (show (List.replicate S 0).length = _ by rw [List.length_replicate]; omega)
    (List.drop_replicate ..) hticks
  exact ⟨data, s', levels, hdata, h1, h2⟩

/-- **C57** for 16-bit addresses, from a new sender: any list of commands. -/
theorem C57_nec16_session (t : Target) (fs : Nat)
    (hfs : 21000 ≤ fs ∨ (20000 ≤ fs ∧ fs % 1000 = 0)) (hhi : fs ≤ 477218999) (f : Nat) (hle : fs ≤ f)
    (hf : f < 2 ^ 32) (tbl : PulseSpans) (htbl : necSpans t Mono.u32 nec16 f = some tbl)
    (conv : Nec16Command → K) (cmds : List (Nec16Command × Nat)) (S : Nat) (hS : 67 ≤ S) (pin : Bool)
    (hticks : ∀ x ∈ cmds, 108 * fs + 1000 * (S - 67) ≤ 1000 * x.2 ∧ x.2 * f / fs + 1 < 2 ^ 32) :
    ∃ data s' levels, necData nec16.pulseDistance fs = some data ∧
      (Sender.new S pin).calls (session (necEncode nec16 data) cmds) = some (s', levels) ∧
      ∀ pause phase n, phase < fs → Pause tbl 32 [0, 1] (0, reading fs f phase pause + 1) →
      reading fs f phase (pause + sessionTicks cmds) < n →
      (pollRun (necDecoder t Mono.u32 tbl nec16) conv (overhear fs f phase pause levels n)).map said =
        some (oks (cmds.map fun x => conv { x.1 with rep := false })) := by
  obtain ⟨data, hdata⟩ := Option.isSome_iff_exists.mp ((C38_nec_compiles fs (by omega)).1.mpr hhi)
  obtain ⟨s', levels, h1, -, h2⟩ := C57_nec_session t fs hfs f hle hf nec16 (.inl rfl) data hdata tbl
    htbl conv cmds (fun c => { c with rep := false }) (fun x _ => ⟨x.1.pack, rfl, (C03_nec16_roundtrip { x.1 with rep := false }).2⟩)
    (Sender.new S pin) rfl (S - 67) (show (List.replicate S 0).length = _ by rw [List.length_replicate]; omega)
    (List.drop_replicate ..) hticks
  exact ⟨data, s', levels, hdata, h1, h2⟩

/-- **C57** for raw words, from a new sender: any list of commands. -/
theorem C57_raw_session (t : Target) (fs : Nat)
    (hfs : 21000 ≤ fs ∨ (20000 ≤ fs ∧ fs % 1000 = 0)) (hhi : fs ≤ 477218999) (f : Nat) (hle : fs ≤ f)
    (hf : f < 2 ^ 32) (tbl : PulseSpans) (htbl : necSpans t Mono.u32 necDebug f = some tbl)
    (conv : NecDebugCmd → K) (cmds : List (NecDebugCmd × Nat)) (S : Nat) (hS : 67 ≤ S) (pin : Bool)
    (hticks : ∀ x ∈ cmds, 108 * fs + 1000 * (S - 67) ≤ 1000 * x.2 ∧ x.2 * f / fs + 1 < 2 ^ 32) :
    ∃ data s' levels, necData necDebug.pulseDistance fs = some data ∧
      (Sender.new S pin).calls (session (necEncode necDebug data) cmds) = some (s', levels) ∧
      ∀ pause phase n, phase < fs → Pause tbl 32 [0, 1] (0, reading fs f phase pause + 1) →
      reading fs f phase (pause + sessionTicks cmds) < n →
      (pollRun (necDecoder t Mono.u32 tbl necDebug) conv (overhear fs f phase pause levels n)).map said =
        some (oks (cmds.map fun x => conv x.1)) := by
  obtain ⟨data, hdata⟩ := Option.isSome_iff_exists.mp ((C38_nec_compiles fs (by omega)).1.mpr hhi)
  obtain ⟨s', levels, h1, -, h2⟩ := C57_nec_session t fs hfs f hle hf necDebug (.inl rfl) data hdata tbl
    htbl conv cmds (fun c => c) (fun x _ => ⟨x.1.bits, rfl, rfl⟩)
    (Sender.new S pin) rfl (S - 67) (show (List.replicate S 0).length = _ by rw [List.length_replicate]; omega)
    (List.drop_replicate ..) hticks
  exact ⟨data, s', levels, hdata, h1, h2⟩

/-! ## Non-vacuity -/

/-- The shipped example's sender (`Sender<_, 20_000, 128>`), any list of commands, one every 200 ms, and
a receiver polled at 20 kHz or 40 kHz, listening for a tick before the first one. -/
example (t : Target) (cmds : List NecCommand) (f : Nat) (hf : f = 20000 ∨ f = 40000) :
    ∃ data s' levels, necData Infrared.nec.pulseDistance 20000 = some data ∧
      (Sender.new 128 false).calls (session (necEncode Infrared.nec data) (cmds.map fun c => (c, 4000))) =
        some (s', levels) ∧
      (pollRun (necDecoder t Mono.u32 (necTable f) Infrared.nec) id
          (overhear 20000 f 0 1 levels (3 + 8000 * cmds.length))).map said =
        some (oks (cmds.map fun c => { c with rep := false })) := by
  obtain ⟨data, s', levels, h1, h2, h3⟩ := C57_standard_session t 20000 (.inr (by decide)) (by decide) f
    (by omega) (by omega) _ (necSpans_standard (.inl rfl) t (by omega) _ rfl) id
    (cmds.map fun c => (c, 4000)) 128 (by decide) false (by
      intro x hx
      obtain ⟨c, -, rfl⟩ := List.mem_map.mp hx
      dsimp only
      rcases hf with rfl | rfl <;> decide)
  refine ⟨data, s', levels, h1, h2, ?_⟩
  have h := h3 1 0 (3 + 8000 * cmds.length) (by decide) ?_ ?_
  · rw [h, List.map_map]
    rfl
  · rcases hf with rfl | rfl
    all_goals
      refine ⟨by decide, ?_⟩
      intro i hi
      simp only [List.mem_cons, List.not_mem_nil, or_false] at hi
      rintro ⟨s, hs, h1, h2⟩
      revert h1
      rcases hi with rfl | rfl <;> (cases hs; decide +kernel)
  · have : sessionTicks (cmds.map fun c => (c, 4000)) = 4000 * cmds.length := by
      unfold sessionTicks
      rw [List.map_map]
      clear h1 h2 h3
      induction cmds with
      | nil => rfl
      | cons c cs ih =>
        simp only [List.map_cons, List.sum_cons, ih, List.length_cons, Function.comp_apply]
        omega
    rw [this]
    rcases hf with rfl | rfl <;> (unfold reading; omega)

end Infrared
