import Verif.Spec.Sampling
import Verif.Lemmas.Sending
import Verif.Props.Drivers
import Verif.Props.Physical

/-!
# Polling a real line (C54)
-/

namespace Infrared

open Spec

variable {C K : Type}

theorem reading_lt {u : Nat} (hu : 0 < u) (f phase x k : Nat) :
    x * f + phase < k * u ↔ reading u f phase x < k := by
  unfold reading
  rw [Nat.div_lt_iff_lt_mul hu]

theorem reading_succ {u f phase t x : Nat} (hu : 0 < u) (h : u ≤ x * f) :
    reading u f phase t + 1 ≤ reading u f phase (t + x) := by
  unfold reading
  rw [Nat.add_mul, ← Nat.add_div_right _ hu]
  exact Nat.div_le_div_right (by omega)

theorem reading_diff {u : Nat} (hu : 0 < u) (f phase t x : Nat) :
    reading u f phase (t + x) ≤ reading u f phase t + (x * f / u + 1) := by
  unfold reading
  rw [Nat.add_mul, Nat.add_right_comm]
  generalize t * f + phase = a
  generalize x * f = b
  have h1 := Nat.lt_mul_div_succ a hu
  have h2 := Nat.lt_mul_div_succ b hu
  have h3 : a + b < (a / u + (b / u + 1) + 1) * u := by
    rw [Nat.mul_comm]
    simp only [Nat.mul_add, Nat.mul_one] at *
    omega
  exact Nat.le_of_lt_succ ((Nat.div_lt_iff_lt_mul hu).mpr h3)

theorem levelAt_early {u f phase : Nat} (hu : 0 < u) {level : Bool} {t : Nat} {e : Bool × Nat}
    {es : List (Bool × Nat)} {k : Nat} (h : k ≤ reading u f phase (t + e.2)) :
    levelAt u f phase level t (e :: es) k = level := by
  obtain ⟨b, ns⟩ := e
  rw [levelAt, if_neg]
  rw [reading_lt hu]
  simp only at h
  omega

theorem levelAt_late {u f phase : Nat} (hu : 0 < u) {level : Bool} {t : Nat} {e : Bool × Nat}
    {es : List (Bool × Nat)} {k : Nat} (h : reading u f phase (t + e.2) < k) :
    levelAt u f phase level t (e :: es) k = levelAt u f phase e.1 (t + e.2) es k := by
  obtain ⟨b, ns⟩ := e
  rw [levelAt, if_pos]
  rwa [reading_lt hu]

/-- The polls from number `k + 1` on: if `c` polls (including number `k`) found the current level
since the previous edge, the sampler sees the edges with the clock's durations, the first one
longer by `c + (t - k)`. -/
theorem sampled_polls {u f phase : Nat} (hu : 0 < u) (es : List (Bool × Nat)) :
    ∀ (level : Bool) (t k n c : Nat), Changes level es →
      (∀ e ∈ es.tail, u ≤ e.2 * f) →
      (∀ e ∈ es.head?, k ≤ reading u f phase (t + e.2)) →
      reading u f phase (t + duration es) < k + n →
      (∀ e ∈ es.head?, c + (reading u f phase (t + e.2) + 1 - k) < 2 ^ 32) →
      (∀ e ∈ es.tail, e.2 * f / u + 1 < 2 ^ 32) →
      ∃ first, (sampledEdges level c
          ((List.range' (k + 1) n).map fun i => levelAt u f phase level t es i)).filterMap id = first ∧
        (es = [] → first = []) ∧
        ∀ b ns es', es = (b, ns) :: es' →
          first = (b, c + (reading u f phase (t + ns) + 1 - k)) :: clocked u f phase (t + ns) es' := by
  induction es with
  | nil =>
    intro level t k n c _ _ _ _ _ _
    refine ⟨_, rfl, fun _ => ?_, fun _ _ _ h => by cases h⟩
    have : ((List.range' (k + 1) n).map fun i => levelAt u f phase level t [] i) =
        List.replicate n level := by
      rw [List.eq_replicate_iff]
      refine ⟨by simp, fun x hx => ?_⟩
      obtain ⟨i, -, rfl⟩ := List.mem_map.mp hx
      rfl
    rw [this, ← List.append_nil (List.replicate n level), sampledEdges_same]
    simp [sampledEdges]
  | cons e es ih =>
    intro level t k n c hch hgap hk hn hc hlong
    obtain ⟨b, ns⟩ := e
    obtain ⟨rfl, hch⟩ := hch
    refine ⟨_, rfl, (fun h => by cases h), ?_⟩
    intro b' ns' es' he
    simp only [List.cons.injEq, Prod.mk.injEq] at he
    obtain ⟨⟨rfl, rfl⟩, rfl⟩ := he
    have hk' : k ≤ reading u f phase (t + ns) := hk (!level, ns) (by simp)
    have hmono : reading u f phase (t + ns) ≤ reading u f phase (t + duration ((!level, ns) :: es)) := by
      simp only [duration, List.map_cons, List.sum_cons]
      rw [← Nat.add_assoc]
      exact reading_mono _ _ _ _ _
    obtain ⟨q, hq⟩ : ∃ q, reading u f phase (t + ns) = k + q := ⟨_, (Nat.add_sub_cancel' hk').symm⟩
    obtain ⟨n', hn'⟩ : ∃ n', n = q + (1 + n') := ⟨n - q - 1, by omega⟩
    subst hn'
    have hsplit : ((List.range' (k + 1) (q + (1 + n'))).map
          fun i => levelAt u f phase level t ((!level, ns) :: es) i) =
        List.replicate q level ++ ((!level) ::
          (List.range' (k + q + 1 + 1) n').map fun i => levelAt u f phase (!level) (t + ns) es i) := by
      rw [← List.range'_append_1, List.map_append, ← List.range'_append_1, List.map_append]
      congr 1
      · rw [List.eq_replicate_iff]
        refine ⟨by simp, fun x hx => ?_⟩
        obtain ⟨i, hi, rfl⟩ := List.mem_map.mp hx
        rw [List.mem_range'_1] at hi
        exact levelAt_early hu (by simp only; omega)
      · simp only [List.range'_one, List.map_cons, List.map_nil, List.singleton_append, List.cons.injEq]
        have late : ∀ i, k + q < i → levelAt u f phase level t ((!level, ns) :: es) i =
            levelAt u f phase (!level) (t + ns) es i := fun i hi => levelAt_late hu (by simp only; omega)
        have hnext : ∀ e ∈ es.head?, k + q + 1 ≤ reading u f phase (t + ns + e.2) := by
          intro e he
          have h1 := hgap e (by
            cases es with
            | nil => simp at he
            | cons a as => simp only [List.head?_cons, Option.mem_def, Option.some.injEq] at he; subst he; simp)
          rw [← hq]
          exact reading_succ hu h1
        refine ⟨?_, ?_⟩
        · rw [late _ (by omega)]
          cases es with
          | nil => rfl
          | cons a as => exact levelAt_early hu (by have := hnext a (by simp); omega)
        · rw [show k + 1 + q + 1 = k + q + 1 + 1 by omega]
          refine List.map_congr_left fun i hi => late i ?_
          rw [List.mem_range'_1] at hi
          omega
    rw [hsplit, sampledEdges_same]
    have hne : ((!level) = level) = False := by cases level <;> simp
    rw [sampledEdges, if_neg (by rw [hne]; exact id)]
    simp only [List.filterMap_append, List.filterMap_cons, id]
    rw [List.filterMap_eq_nil_iff.mpr (by simp), List.nil_append]
    have hhead : ∀ e ∈ es.head?, k + q + 1 ≤ reading u f phase (t + ns + e.2) := by
      intro e he
      have h1 := hgap e (by
        cases es with
        | nil => simp at he
        | cons a as => simp only [List.head?_cons, Option.mem_def, Option.some.injEq] at he; subst he; simp)
      rw [← hq]
      exact reading_succ hu h1
    have hsum : t + duration ((!level, ns) :: es) = t + ns + duration es := by
      simp [duration, Nat.add_assoc]
    obtain ⟨first, hf1, hf2, hf3⟩ := ih (!level) (t + ns) (k + q + 1) n' 0 hch
      (fun e he => hgap e (by
        cases es with
        | nil => simp at he
        | cons a as => simp at he ⊢; exact .inr he))
      hhead (by rw [hsum] at hn; omega) (by
        intro e he
        have h1 := hlong e (by
          cases es with
          | nil => simp at he
          | cons a as => simp only [List.head?_cons, Option.mem_def, Option.some.injEq] at he; subst he; simp)
        have h2 := reading_diff hu f phase (t + ns) e.2
        rw [← hq]
        omega) (fun e he => hlong e (by
        cases es with
        | nil => simp at he
        | cons a as => simp at he ⊢; exact .inr he))
    have hc' : c + (reading u f phase (t + ns) + 1 - k) < 2 ^ 32 := hc (!level, ns) (by simp)
    rw [hf1, Nat.mod_eq_of_lt (by omega), hq]
    congr 1
    · rw [Prod.mk.injEq]; exact ⟨rfl, by omega⟩
    · cases es with
      | nil => exact hf2 rfl
      | cons a as =>
        obtain ⟨b2, ns2⟩ := a
        rw [hf3 _ _ _ rfl, clocked]
        have := hhead _ (by simp : (b2, ns2) ∈ ((b2, ns2) :: as).head?)
        simp only at this
        congr 2
        omega

theorem said_place (es : List (Option Ev)) (outs : List (Res K))
    (h : outs.length = (es.filterMap id).length) : said (placeResults es outs) = said outs := by
  induction es generalizing outs with
  | nil =>
    simp only [List.filterMap_nil, List.length_nil, List.length_eq_zero_iff] at h
    subst h; rfl
  | cons e es ih =>
    cases e with
    | none =>
      rw [placeResults]
      simp only [said, List.filter_cons]
      exact ih outs (by simpa using h)
    | some e =>
      cases outs with
      | nil => simp at h
      | cons o outs =>
        rw [placeResults]
        have := ih outs (by simpa using h)
        simp only [said, List.filter_cons] at this ⊢
        rw [this]

theorem runStep_length' {S I O : Type} {f : S → I → Option (S × O)} {s s' : S} {l : List I}
    {o : List O} (h : runStep f s l = some (s', o)) : o.length = l.length := by
  induction l generalizing s s' o with
  | nil => simp only [runStep, Option.some.injEq, Prod.mk.injEq] at h; simp [← h.2]
  | cons i l ih =>
    simp only [runStep] at h
    rcases hf : f s i with _ | ⟨s1, o1⟩
    · simp [hf] at h
    rcases hr : runStep f s1 l with _ | ⟨s2, o2⟩
    · simp [hf, hr] at h
    simp only [hf, hr, Option.some.injEq, Prod.mk.injEq] at h
    rw [← h.2]
    simp [ih hr]

theorem results_length {D : Decoder C} {conv : C → K} {evs : List Ev} {outs : List (Res K)}
    (h : results D conv evs = some outs) : outs.length = evs.length := by
  rw [results_snd] at h
  rcases hr : runStep D.step D.init evs with _ | ⟨s, o⟩
  · simp [hr] at h
  · simp only [hr, Option.map_some, Option.some.injEq] at h
    rw [← h, List.length_map, runStep_length' hr]

/-- A polled receiver says what an event receiver says about the edges among the samples. -/
theorem poll_said (D : Decoder C) (conv : C → K) (samples : List Bool) :
    (pollRun D conv samples).map said =
      (results D conv ((sampledEdges false 0 samples).filterMap id)).map said := by
  rw [C34_poll_equiv]
  rcases hr : results D conv ((sampledEdges false 0 samples).filterMap id) with _ | outs
  · rfl
  · simp only [Option.map_some, Option.some.injEq]
    exact said_place _ _ (results_length hr)

/-- **C54**: for every decoder, a receiver polled `f` times per second on a line whose edges are at
least one polling period apart says (results other than `Ok(None)`) exactly what an event receiver
says whose clock runs at `f` Hz, for every phase of the line relative to the polls; the pause before
the first edge counts one tick more.  There is no limit on the number of polls, only on the time
between two edges (2^32 ticks). -/
theorem C54_polled_line_long (D : Decoder C) (conv : C → K) (u : Nat) (hu : 0 < u) (f phase : Nat)
    (b : Bool) (pause : Nat) (es : List (Bool × Nat)) (hch : Changes false ((b, pause) :: es))
    (hgap : ∀ e ∈ es, u ≤ e.2 * f) (n : Nat)
    (hn : reading u f phase (duration ((b, pause) :: es)) < n)
    (hfirst : reading u f phase pause + 1 < 2 ^ 32) (hlong : ∀ e ∈ es, e.2 * f / u + 1 < 2 ^ 32) :
    (pollRun D conv (polled u f phase ((b, pause) :: es) n)).map said =
      (results D conv ((b, reading u f phase pause + 1) :: clocked u f phase pause es)).map said := by
  obtain ⟨first, h1, -, h3⟩ := sampled_polls hu (f := f) (phase := phase) ((b, pause) :: es) false 0 0 n 0
    hch hgap (by simp) (by simpa using hn) (by simpa using hfirst) hlong
  have hev : (sampledEdges false 0 (polled u f phase ((b, pause) :: es) n)).filterMap id =
      (b, reading u f phase pause + 1) :: clocked u f phase pause es := by
    have := h3 _ _ _ rfl
    rw [← h1] at this
    simp only [Nat.zero_add, Nat.sub_zero] at this
    rw [← this, polled, List.range'_eq_map_range, List.map_map]
    simp only [Function.comp_def, Nat.zero_add, Nat.add_comm]
  rw [poll_said, hev]

/-- **C54** for fewer than 2^32 polls. -/
theorem C54_polled_line (D : Decoder C) (conv : C → K) (u : Nat) (hu : 0 < u) (f phase : Nat)
    (b : Bool) (pause : Nat) (es : List (Bool × Nat)) (hch : Changes false ((b, pause) :: es))
    (hgap : ∀ e ∈ es, u ≤ e.2 * f) (n : Nat)
    (hn : reading u f phase (duration ((b, pause) :: es)) < n) (hmax : n < 2 ^ 32) :
    (pollRun D conv (polled u f phase ((b, pause) :: es) n)).map said =
      (results D conv ((b, reading u f phase pause + 1) :: clocked u f phase pause es)).map said := by
  refine C54_polled_line_long D conv u hu f phase b pause es hch hgap n hn ?_ ?_
  · have := reading_mono u f phase pause (duration es)
    simp only [duration, List.map_cons, List.sum_cons] at hn this
    omega
  · intro e he
    have h1 : e.2 ≤ duration es := by
      clear hn hgap hch
      induction es with
      | nil => simp at he
      | cons a as ih =>
        simp only [duration, List.map_cons, List.sum_cons] at ih ⊢
        rcases List.mem_cons.mp he with rfl | he
        · omega
        · have := ih he; omega
    have h2 : e.2 * f / u ≤ reading u f phase (duration ((b, pause) :: es)) := by
      unfold reading
      refine Nat.div_le_div_right ?_
      have : e.2 * f ≤ duration ((b, pause) :: es) * f := Nat.mul_le_mul_right _ (by
        simp only [duration, List.map_cons, List.sum_cons] at h1 ⊢
        omega)
      omega
    omega

theorem changes_pulses (ps : List (Nat × Nat)) : Changes true (pulses ps) := by
  induction ps with
  | nil => trivial
  | cons p ps ih => exact ⟨rfl, rfl, ih⟩

theorem mem_pulses {ps : List (Nat × Nat)} {e : Bool × Nat} (h : e ∈ pulses ps) :
    ∃ p ∈ ps, e.2 = p.1 ∨ e.2 = p.2 := by
  induction ps with
  | nil => cases h
  | cons p ps ih =>
    simp only [pulses, List.mem_cons] at h
    rcases h with rfl | rfl | h
    · exact ⟨p, by simp, .inl rfl⟩
    · exact ⟨p, by simp, .inr rfl⟩
    · obtain ⟨q, hq, h⟩ := ih h
      exact ⟨q, by simp [hq], h⟩

/-- **C54** and **C53** together, NEC family with standard timing: a transmission with periods within
5 % of the documented ones, on a line polled at least 20 000 times per second (and no mark or space
shorter than a polling period), makes a new polling receiver say the word sent and nothing else. -/
theorem C54_nec_polled (u : Nat) (hu : 0 < u) (t : Target) (f : Nat) (hlo : 20000 ≤ f) (hf : f < 2 ^ 32)
    (v : NecVariant C) (hv : v.pulseDistance = necStandardTiming) (tbl : PulseSpans)
    (htbl : necSpans t Mono.u32 v f = some tbl) (conv : C → K) (w : BitVec 32) (c : C)
    (hc : v.unpack w false = some c) (ps : List (Nat × Nat))
    (h : NearPeriods u 5 (necPeriods (9000 + 4500) w) ps)
    (hmin : ∀ p ∈ ps, u ≤ p.1 * f ∧ u ≤ p.2 * f) (phase pause n : Nat)
    (h0 : ¬ InTol tbl 0 (reading u f phase pause + 1)) (h1 : ¬ InTol tbl 1 (reading u f phase pause + 1))
    (hn : reading u f phase (duration ((true, pause) :: pulses ps)) < n) (hmax : n < 2 ^ 32) :
    (pollRun (necDecoder t Mono.u32 tbl v) conv (polled u f phase ((true, pause) :: pulses ps) n)).map said =
      some [.ok (some (conv c))] := by
  have hb : Kind.build .nec t Mono.u32 f = some tbl := by
    rw [← htbl, necSpans_standard (.inl rfl) t hf v hv]
    exact necSpans_standard (.inl rfl) t hf _ rfl
  have hfr : NecFrame tbl w (clockedPulses u f phase pause ps) := by
    refine necFrame_of_matches (matches_of_near hu (.inl rfl) hf hb (by simp [necPeriods, necSlots]) ?_ h
      phase pause)
    refine append_ok (l1 := [9000 + 4500]) (s1 := [0]) rfl (single_ok ⟨7, rfl, ?_, ?_⟩)
      (bits_ok 32 _ _ _ _ _ ⟨12, rfl, ?_, ?_⟩ ⟨25, rfl, ?_, ?_⟩) <;> omega
  have hle : reading u f phase pause ≤ reading u f phase (duration ((true, pause) :: pulses ps)) := by
    simp only [duration, List.map_cons, List.sum_cons]
    exact reading_mono _ _ _ _ _
  rw [C54_polled_line _ conv u hu f phase true pause (pulses ps) ⟨rfl, changes_pulses ps⟩ ?_ n hn hmax,
    clocked_pulses, C17_nec_fresh_receiver t Mono.u32 (.inl rfl) f hlo hf v (.inl hv) tbl htbl conv w _ hfr
      _ (show _ < 2 ^ 32 by omega) h0 h1, hc]
  · rw [Option.map_some, Option.some.injEq, said, List.filter_append,
      List.filter_eq_nil_iff.mpr (by intro x hx; rw [List.eq_of_mem_replicate hx]; simp)]
    rfl
  · intro e he
    obtain ⟨p, hp, h | h⟩ := mem_pulses he
    · rw [h]; exact (hmin p hp).1
    · rw [h]; exact (hmin p hp).2

/-- A line that never changes makes no polling receiver say anything. -/
theorem C54_silent_line (D : Decoder C) (conv : C → K) (n : Nat) :
    pollRun D conv (List.replicate n false) = some (List.replicate n (.ok none)) := by
  rw [C34_poll_equiv]
  have h := sampledEdges_same false 0 n []
  rw [List.append_nil] at h
  rw [h]
  simp only [sampledEdges, List.append_nil]
  rw [List.filterMap_eq_nil_iff.mpr (by simp)]
  have hr : results D conv [] = some [] := rfl
  rw [hr, Option.map_some, Option.some.injEq]
  induction n with
  | zero => rfl
  | succ n ih =>
    rw [List.replicate_succ, placeResults, ih (by
      have h := sampledEdges_same false 0 n []
      rwa [List.append_nil] at h)]
    rfl

/-- Non-vacuity: the jittered frame of C53 polled at 40 kHz, 200 000 times. -/
example (t : Target) (phase : Nat) (hphase : phase < 1000000000) :
    (pollRun (necDecoder t Mono.u32 (necTable 40000) Infrared.nec) id
      (polled 1000000000 40000 phase ((true, 0) :: pulses (jittered 1040 (necPeriods 13500 0xfe01ff00#32))) 200000)).map said =
    some [.ok (some ⟨0, 1, false⟩)] := by
  refine C54_nec_polled 1000000000 (by decide) t 40000 (by decide) (by decide) Infrared.nec rfl _
    (necSpans_standard (.inl rfl) t (by decide) _ rfl) id 0xfe01ff00#32 ⟨0, 1, false⟩ rfl
    (jittered 1040 (necPeriods 13500 0xfe01ff00#32)) (nearPeriods_zip (by decide +kernel))
    (by decide +kernel) phase 0 200000 ?_ ?_ ?_ (by decide)
  · rintro ⟨s, hs, h1, h2⟩
    cases hs
    revert h1
    have : reading 1000000000 40000 phase 0 = 0 := by unfold reading; omega
    rw [this]; decide
  · rintro ⟨s, hs, h1, h2⟩
    cases hs
    revert h1
    have : reading 1000000000 40000 phase 0 = 0 := by unfold reading; omega
    rw [this]; decide
  · have : duration ((true, 0) :: pulses (jittered 1040 (necPeriods 13500 0xfe01ff00#32))) ≤ 200000000 := by
      decide +kernel
    unfold reading
    rw [Nat.div_lt_iff_lt_mul (by decide)]
    have := Nat.mul_le_mul_right 40000 this
    omega

end Infrared
