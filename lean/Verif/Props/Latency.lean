import Verif.Spec.Latency
import Verif.Props.Reception
import Verif.Props.TwoClocks

/-!
# When a command is reported (C83)
-/

namespace Infrared

open Spec

variable {A C K : Type}

/-! ## Placing results -/

theorem edgeTimes_length (t : Nat) (es : List (Bool × Nat)) : (edgeTimes t es).length = es.length := by
  induction es generalizing t with
  | nil => rfl
  | cons e es ih => simp [edgeTimes, ih]

theorem edgeTimes_append (t : Nat) (a b : List (Bool × Nat)) :
    edgeTimes t (a ++ b) = edgeTimes t a ++ edgeTimes (t + duration a) b := by
  induction a generalizing t with
  | nil => simp [edgeTimes, duration]
  | cons e a ih =>
    simp only [List.cons_append, edgeTimes, ih, duration, List.map_cons, List.sum_cons, Nat.add_assoc]

theorem timedSaid_append (t : Nat) (a b : List (Bool × Nat)) (o p : List (Res K)) (h : o.length = a.length) :
    timedSaid t (a ++ b) (o ++ p) = timedSaid t a o ++ timedSaid (t + duration a) b p := by
  unfold timedSaid
  rw [edgeTimes_append, List.zip_append (by rw [edgeTimes_length, h]), List.filter_append]

theorem timedSaid_silent (t : Nat) (a : List (Bool × Nat)) (k : Nat) :
    timedSaid t a (List.replicate k (.ok none) : List (Res K)) = [] := by
  refine List.filter_eq_nil_iff.mpr ?_
  rintro ⟨i, r⟩ hx
  rw [List.eq_of_mem_replicate (List.of_mem_zip hx).2]
  simp [audible]

theorem timedSaid_last (t : Nat) (a : List (Bool × Nat)) (k : Nat) (h : a.length = k + 1) (x : Option K) :
    timedSaid t a (List.replicate k (.ok none) ++ [.ok x]) =
      x.toList.map fun c => (t + duration a, .ok (some c)) := by
  rcases List.eq_nil_or_concat a with rfl | ⟨b, e, rfl⟩
  · simp at h
  rw [List.concat_eq_append] at h ⊢
  rw [timedSaid_append t b [e] _ _ (by simp at h ⊢; exact h.symm), timedSaid_silent]
  obtain ⟨l, y⟩ := e
  have hd : duration (b ++ [(l, y)]) = duration b + y := by simp [duration]
  rw [hd]
  cases x <;> simp [timedSaid, edgeTimes, audible, Nat.add_assoc]

theorem timedSaid_map (conv : C → K) (t : Nat) (es : List (Bool × Nat)) (o : List (Res C)) :
    timedSaid t es (o.map (Res.map conv)) = (timedSaid t es o).map fun x => (x.1, Res.map conv x.2) := by
  unfold timedSaid
  generalize edgeTimes t es = l
  induction l generalizing o with
  | nil => rfl
  | cons a l ih =>
    cases o with
    | nil => rfl
    | cons r o =>
      simp only [List.map_cons, List.zip_cons_cons, List.filter_cons, ih]
      rcases r with _ | _ | _ <;> simp [audible, Res.map]

theorem numberedSaid_cons (k : Nat) (r : Res K) (o : List (Res K)) :
    numberedSaid k (r :: o) = (if audible r then [(k, r)] else []) ++ numberedSaid (k + 1) o := by
  unfold numberedSaid
  rw [List.length_cons, List.range'_succ, List.zip_cons_cons, List.filter_cons]
  dsimp only
  split <;> rfl

theorem numberedSaid_silent (k q : Nat) (o : List (Res K)) :
    numberedSaid k (List.replicate q (.ok none) ++ o) = numberedSaid (k + q) o := by
  induction q generalizing k with
  | zero => rfl
  | succ q ih =>
    rw [List.replicate_succ, List.cons_append, numberedSaid_cons, ih, show k + 1 + q = k + (q + 1) by omega]
    rfl

theorem placeResults_silent (q : Nat) (es : List (Option Ev)) (o : List (Res K)) :
    placeResults (List.replicate q none ++ es) o = List.replicate q (.ok none) ++ placeResults es o := by
  induction q with
  | zero => rfl
  | succ q ih => rw [List.replicate_succ, List.cons_append, placeResults, ih]; rfl

/-- The polls from number `k + 1` on, up to the one that sees the first edge. -/
theorem polls_split {u f phase : Nat} (hu : 0 < u) (level : Bool) (t k ns q n' : Nat) (es : List (Bool × Nat))
    (hgap : ∀ e ∈ es.head?, u ≤ e.2 * f) (hq : reading u f phase (t + ns) = k + q) :
    ((List.range' (k + 1) (q + (1 + n'))).map fun i => levelAt u f phase level t ((!level, ns) :: es) i) =
      List.replicate q level ++ ((!level) ::
        (List.range' (k + q + 1 + 1) n').map fun i => levelAt u f phase (!level) (t + ns) es i) := by
  rw [← List.range'_append_1, List.map_append, ← List.range'_append_1, List.map_append]
  congr 1
  · rw [List.eq_replicate_iff]
    refine ⟨by simp, fun x hx => ?_⟩
    obtain ⟨i, hi, rfl⟩ := List.mem_map.mp hx
    rw [List.mem_range'_1] at hi
    exact levelAt_early hu (by simp only; omega)
  · simp only [List.range'_one, List.map_cons, List.map_nil, List.singleton_append, List.cons.injEq]
    have late : ∀ i, k + q < i → levelAt u f phase level t ((!level, ns) :: es) i =
        levelAt u f phase (!level) (t + ns) es i := fun i hi => levelAt_late hu (by simp only; omega)
    refine ⟨?_, ?_⟩
    · rw [late _ (by omega)]
      cases es with
      | nil => rfl
      | cons a as =>
        have := reading_succ (phase := phase) (t := t + ns) hu (hgap a (by simp))
        exact levelAt_early hu (by omega)
    · rw [show k + 1 + q + 1 = k + q + 1 + 1 by omega]
      refine List.map_congr_left fun i hi => late i ?_
      rw [List.mem_range'_1] at hi
      omega

theorem placed_polls {u f phase : Nat} (hu : 0 < u) (es : List (Bool × Nat)) :
    ∀ (level : Bool) (t k n c : Nat) (o : List (Res K)), Changes level es →
      (∀ e ∈ es.tail, u ≤ e.2 * f) →
      (∀ e ∈ es.head?, k ≤ reading u f phase (t + e.2)) →
      reading u f phase (t + duration es) < k + n → o.length = es.length →
      numberedSaid (k + 1) (placeResults (sampledEdges level c
          ((List.range' (k + 1) n).map fun i => levelAt u f phase level t es i)) o) =
        (timedSaid t es o).map fun x => (reading u f phase x.1 + 1, x.2) := by
  induction es with
  | nil =>
    intro level t k n c o _ _ _ _ ho
    have ho' : o = [] := List.length_eq_zero_iff.mp ho
    subst ho'
    have : ((List.range' (k + 1) n).map fun i => levelAt u f phase level t [] i) =
        List.replicate n level := by
      rw [List.eq_replicate_iff]
      refine ⟨by simp, fun x hx => ?_⟩
      obtain ⟨i, -, rfl⟩ := List.mem_map.mp hx
      rfl
    rw [this, ← List.append_nil (List.replicate n level), sampledEdges_same, placeResults_silent,
      numberedSaid_silent]
    rfl
  | cons e es ih =>
    intro level t k n c o hch hgap hk hn ho
    obtain ⟨b, ns⟩ := e
    obtain ⟨rfl, hch⟩ := hch
    cases o with
    | nil => simp at ho
    | cons r o =>
      have hk' : k ≤ reading u f phase (t + ns) := hk (!level, ns) (by simp)
      have hsum : t + duration ((!level, ns) :: es) = t + ns + duration es := by
        simp [duration, Nat.add_assoc]
      have hmono := reading_mono u f phase (t + ns) (duration es)
      rw [hsum] at hn
      obtain ⟨q, hq⟩ : ∃ q, reading u f phase (t + ns) = k + q := ⟨_, (Nat.add_sub_cancel' hk').symm⟩
      obtain ⟨n', rfl⟩ : ∃ n', n = q + (1 + n') := ⟨n - q - 1, by omega⟩
      have hnext : ∀ e ∈ es.head?, u ≤ e.2 * f := by
        intro e he
        cases es with
        | nil => simp at he
        | cons a as => simp only [List.head?_cons, Option.mem_def, Option.some.injEq] at he; subst he; exact hgap _ (by simp)
      rw [polls_split hu level t k ns q n' es hnext hq, sampledEdges_same, placeResults_silent,
        numberedSaid_silent]
      have hne : ¬ (!level) = level := by cases level <;> simp
      rw [sampledEdges, if_neg hne, placeResults, numberedSaid_cons]
      have := ih (!level) (t + ns) (k + q + 1) n' 0 o hch
        (fun e he => hgap e (List.mem_of_mem_tail he))
        (fun e he => by rw [← hq]; exact reading_succ hu (hnext e he)) (by omega) (by simpa using ho)
      rw [show k + 1 + q + 1 = k + q + 1 + 1 by omega, this]
      unfold timedSaid
      rw [edgeTimes, List.zip_cons_cons, List.filter_cons]
      dsimp only
      split
      · rw [List.map_cons, hq]
        simp only [List.singleton_append, List.cons.injEq, Prod.mk.injEq, and_true]
        omega
      · rfl

/-- **C83**, for every decoder: a polled receiver on a line whose edges are at least one polling period apart says
everything at the first poll after the edge at which an event-driven receiver, with a clock that runs at the polling
rate, says it (the edge at time `x` comes before poll number `reading u f phase x + 1` and not before the one
before it). -/
theorem C83_placement (D : Decoder C) (conv : C → K) (u : Nat) (hu : 0 < u) (f phase : Nat)
    (b : Bool) (pause : Nat) (es : List (Bool × Nat)) (hch : Changes false ((b, pause) :: es))
    (hgap : ∀ e ∈ es, u ≤ e.2 * f) (n : Nat)
    (hn : reading u f phase (duration ((b, pause) :: es)) < n)
    (hfirst : reading u f phase pause + 1 < 2 ^ 32) (hlong : ∀ e ∈ es, e.2 * f / u + 1 < 2 ^ 32)
    (o : List (Res K))
    (ho : results D conv ((b, reading u f phase pause + 1) :: clocked u f phase pause es) = some o) :
    ∃ outs, pollRun D conv (polled u f phase ((b, pause) :: es) n) = some outs ∧
      numberedSaid 1 outs =
        (timedSaid 0 ((b, pause) :: es) o).map fun x => (reading u f phase x.1 + 1, x.2) := by
  obtain ⟨first, h1, -, h3⟩ := sampled_polls hu (f := f) (phase := phase) ((b, pause) :: es) false 0 0 n 0
    hch hgap (by simp) (by simpa using hn) (by simpa using hfirst) hlong
  have hpolls : polled u f phase ((b, pause) :: es) n =
      (List.range' (0 + 1) n).map fun i => levelAt u f phase false 0 ((b, pause) :: es) i := by
    rw [polled, List.range'_eq_map_range, List.map_map]
    simp only [Function.comp_def, Nat.zero_add, Nat.add_comm]
  have hev : (sampledEdges false 0 (polled u f phase ((b, pause) :: es) n)).filterMap id =
      (b, reading u f phase pause + 1) :: clocked u f phase pause es := by
    have := h3 _ _ _ rfl
    rw [← h1] at this
    simp only [Nat.zero_add, Nat.sub_zero] at this
    rw [← this, hpolls]
  refine ⟨_, by rw [C34_poll_equiv, hev, ho]; rfl, ?_⟩
  rw [hpolls]
  refine placed_polls hu ((b, pause) :: es) false 0 0 n 0 o hch hgap (by simp) (by simpa using hn) ?_
  have := results_length ho
  rw [this]
  simp only [List.length_cons, Nat.add_right_cancel_iff]
  clear this ho hev hpolls h3 h1 hn hch hgap hlong hfirst
  generalize pause = p
  induction es generalizing p with
  | nil => rfl
  | cons e es ih => simp [clocked, ih]

/-- **C83**, the delay: poll number `k` looks at the line at the time at which `time * f + phase = k * u`; the poll
named in the theorems below comes after the edge, and less than or exactly one polling period after it. -/
theorem C83_delay (u : Nat) (hu : 0 < u) (f phase x : Nat) :
    x * f + phase < (reading u f phase x + 1) * u ∧ (reading u f phase x + 1) * u ≤ x * f + phase + u := by
  unfold reading
  generalize x * f + phase = a
  have h1 := Nat.div_add_mod a u
  have h2 := Nat.mod_lt a hu
  rw [Nat.add_mul, Nat.one_mul, Nat.mul_comm (a / u) u]
  omega

example : reading 1000000000 40000 999999999 24963120 + 1 = 1000 := by decide

/-! ## Series of transmissions -/

/-- Chunks that each lead from a resting state to a resting state, and say one thing each. -/
theorem chunks_timed {S : Type} (step : S → Ev → Option (S × Res C)) (P : S → Prop) (wire : A → List Ev)
    (len gap : A → Nat) (say : A → C) (items : List (A × List Ev))
    (h : ∀ i ∈ items, ∀ s, P s → ∃ s' o, runStep step s i.2 = some (s', o) ∧ P s' ∧
      i.2.length = (wire i.1).length ∧ duration (wire i.1) = len i.1 + gap i.1 ∧
      ∀ t, timedSaid t (wire i.1) o = [(t + len i.1, .ok (some (say i.1)))]) (s : S) (hs : P s) :
    ∃ s' o, runStep step s (items.flatMap Prod.snd) = some (s', o) ∧ P s' ∧
      ∀ t, timedSaid t ((items.map Prod.fst).flatMap wire) o =
        (finishes len gap t (items.map Prod.fst)).map fun x => (x.1, .ok (some (say x.2))) := by
  induction items generalizing s with
  | nil => exact ⟨s, [], rfl, hs, fun t => rfl⟩
  | cons a as ih =>
    obtain ⟨s1, o1, h1, hp1, hl, hd, ht⟩ := h a (by simp) s hs
    obtain ⟨s2, o2, h2, hp2, ht2⟩ := ih (fun b hb => h b (by simp [hb])) s1 hp1
    refine ⟨s2, o1 ++ o2, ?_, hp2, fun t => ?_⟩
    · rw [List.flatMap_cons]; exact run_append_some h1 h2
    · rw [List.map_cons, List.flatMap_cons,
        timedSaid_append t _ _ _ _ (by rw [runStep_length' h1, hl]), ht, ht2, hd, finishes, List.map_cons,
        ← Nat.add_assoc]
      rfl

theorem clocked_chunks (u f phase : Nat) (wire : A → List (Bool × Nat)) (items : List A) (t : Nat) :
    ∃ items' : List (A × List Ev), items'.map Prod.fst = items ∧
      (∀ i ∈ items', i.1 ∈ items ∧ ∃ t', i.2 = clocked u f phase t' (wire i.1)) ∧
      clocked u f phase t (items.flatMap wire) = items'.flatMap Prod.snd := by
  induction items generalizing t with
  | nil => exact ⟨[], rfl, by simp, rfl⟩
  | cons a as ih =>
    obtain ⟨is, h1, h2, h3⟩ := ih (t + duration (wire a))
    refine ⟨(a, clocked u f phase t (wire a)) :: is, by simp [h1], ?_, ?_⟩
    · intro i hi
      rcases List.mem_cons.mp hi with rfl | hi
      · exact ⟨by simp, t, rfl⟩
      · exact ⟨by simp [(h2 i hi).1], (h2 i hi).2⟩
    · rw [List.flatMap_cons, clocked_append, h3, List.flatMap_cons]

theorem duration_pulses (ps : List (Nat × Nat)) : duration (pulses ps) = lasting ps := by
  induction ps with
  | nil => rfl
  | cons p ps ih =>
    obtain ⟨h, l⟩ := p
    simp only [duration, lasting] at ih ⊢
    simp only [pulses, List.map_cons, List.sum_cons, ih, Nat.add_assoc]

theorem duration_append (a b : List (Bool × Nat)) : duration (a ++ b) = duration a + duration b := by
  simp [duration]

/-- What a pulse-distance receiver says about one transmission and the pause behind it. -/
theorem pulses_said (t : Nat) (ps : List (Nat × Nat)) (p : Nat × Nat) (k : Nat) (h : 2 * ps.length = k + 1)
    (x : Option K) :
    timedSaid t (pulses ps ++ pulses [p]) (List.replicate k (.ok none) ++ [.ok x] ++ [.ok none, .ok none]) =
      x.toList.map fun c => (t + lasting ps, .ok (some c)) := by
  rw [timedSaid_append _ _ _ _ _ (by rw [pulses_length, h]; simp),
    timedSaid_last _ _ k (by rw [pulses_length, h]), duration_pulses]
  have := timedSaid_silent (K := K) (t + lasting ps) (pulses [p]) 2
  rw [show ([.ok none, .ok none] : List (Res K)) = List.replicate 2 (.ok none) from rfl, this, List.append_nil]

/-- From the decoder to the receiver, behind a first edge that says nothing. -/
theorem timed_results {D : Decoder C} (conv : C → K) {evs : List Ev} {d s' : D.St} {o : List (Res C)} {b : Bool}
    {g : Nat} (h0 : runStep D.step D.init [(b, g)] = some (d, [.ok none]))
    (h : runStep D.step d evs = some (s', o)) (t0 : Nat) (es : List (Bool × Nat)) :
    ∃ o', results D conv ((b, g) :: evs) = some o' ∧
      timedSaid 0 ((b, t0) :: es) o' = (timedSaid t0 es o).map fun x => (x.1, Res.map conv x.2) := by
  have h1 := run_append_some h0 h
  rw [List.singleton_append] at h1
  refine ⟨_, results_of conv h1, ?_⟩
  rw [timedSaid_map]
  have := timedSaid_append (K := C) 0 [(b, t0)] es [.ok none] o rfl
  rw [show ((b, t0) :: es) = [(b, t0)] ++ es from rfl, this]
  have h2 := timedSaid_silent (K := C) 0 [(b, t0)] 1
  rw [show ([.ok none] : List (Res C)) = List.replicate 1 (.ok none) from rfl, h2]
  simp [duration]

/-! ## SBP -/

theorem sbp_first (t : Target) (m : Mono) (hl : m.Lawful) (tbl : PulseSpans) (g : Nat)
    (hg : Pause tbl m.width [0] (0, g)) :
    ∃ d1, runStep (sbpFn t m tbl) sbpInit [(true, g)] = some (d1, [.ok none]) ∧
      d1.state = .init ∧ d1.address = 0 ∧ d1.command = 0 := by
  obtain ⟨d0, hp0, hi0⟩ := sbp_pause t m hl tbl sbpInit ⟨rfl, rfl, rfl⟩ (0, g) hg
  have hf0 : sbpFn t m tbl sbpInit (false, 0) = some (sbpInit, .ok none) :=
    sbp_falling t m tbl sbpInit sbpInit_ready 0
  obtain ⟨s1, r1, o1, q1, q2, q3⟩ := run_cons_inv hp0
  rw [hf0, Option.some.injEq, Prod.mk.injEq] at q1
  obtain ⟨rfl, rfl⟩ := q1
  simp only [List.cons.injEq, true_and] at q3
  exact ⟨d0, by rw [q3]; exact q2, hi0⟩

/-- **C83**, SBP: a receiver called at every edge reports every transmission at the edge that ends its last bit (the
start of the stop mark), and says nothing at any other edge. -/
theorem C83_sbp_events (t : Target) (m : Mono) (hm : m = Mono.u32 ∨ m = Mono.u64) (f : Nat) (hlo : 40000 ≤ f)
    (hf : f < 2 ^ 32) (tbl : PulseSpans) (htbl : sbpSpans t m f = some tbl) (conv : SbpCommand → K)
    (u : Nat) (hu : 0 < u) (phase t0 g : Nat) (hg : Pause tbl m.width [0] (0, g))
    (items : List ((BitVec 16 × BitVec 20 × List (Nat × Nat)) × (Nat × Nat)))
    (hok : ∀ i ∈ items, NearPeriods u 3 (sbpPeriods i.1.1 i.1.2.1) i.1.2.2 ∧
      16000 * u ≤ 1000000 * (i.2.1 + i.2.2) ∧ (i.2.1 + i.2.2) * f + u < 2 ^ m.width * u) :
    ∃ o, results (sbpDecoder t m tbl) conv
        ((true, g) :: clocked u f phase t0 (series (fun i => i.2.2) items)) = some o ∧
      timedSaid 0 ((true, t0) :: series (fun i => i.2.2) items) o =
        (finishes (fun i => lasting i.1.2.2) (fun i => i.2.1 + i.2.2) t0 items).map fun x =>
          (x.1, .ok (some (conv (SbpCommand.unpack x.2.1.1 (x.2.1.2.1.setWidth 32))))) := by
  have hl := Mono.prim_lawful hm
  have hclk := sbp_clk hm hlo hf htbl hu phase
  have htbl' : Kind.build .sbp t m f = some tbl := htbl
  have hua : Unambiguous tbl 4 ∧ Fits tbl m.width := by
    have h := htbl
    rw [sbpSpans_eq hm t hf, Option.some.injEq] at h
    subst h
    exact ⟨sbp_unambiguous f (by omega), sbpTable_fits hf (Mono.IsPrim.width hm)⟩
  obtain ⟨d1, hd1, hi1⟩ := sbp_first t m hl tbl g hg
  obtain ⟨items', e1, e2, e3⟩ := clocked_chunks u f phase
    (fun i : (BitVec 16 × BitVec 20 × List (Nat × Nat)) × (Nat × Nat) => pulses i.1.2.2 ++ pulses [i.2]) items t0
  obtain ⟨d', o, h1, -, h2⟩ := chunks_timed (sbpFn t m tbl)
    (fun d => d.state = .init ∧ d.address = 0 ∧ d.command = 0)
    (fun i : (BitVec 16 × BitVec 20 × List (Nat × Nat)) × (Nat × Nat) => pulses i.1.2.2 ++ pulses [i.2])
    (fun i => lasting i.1.2.2) (fun i => i.2.1 + i.2.2)
    (fun i => SbpCommand.unpack i.1.1 (i.1.2.1.setWidth 32)) items' (by
      rintro ⟨⟨a, p⟩, es⟩ ha s hs
      obtain ⟨hmem, t', he⟩ := e2 _ ha
      obtain ⟨hnear, hp, hp'⟩ := hok _ hmem
      dsimp only at he hnear hp hp' ⊢
      have hfr : Matches tbl (sbpSlots a.1 a.2.1) (clockedPulses u f phase t' a.2.2) := by
        refine matches_of_measures (us := sbpPeriods a.1 a.2.1) (by simp [sbpPeriods, sbpSlots]) ?_ hnear _
        unfold sbpPeriods sbpSlots
        exact append_ok (by simp) (append_ok (by simp) (append_ok (by simp)
          (single_ok (hclk 0 _ rfl)) (bits_ok 16 _ _ _ _ _ (hclk 3 _ rfl) (hclk 2 _ rfl)))
          (single_ok (hclk 1 _ rfl))) (bits_ok 20 _ _ _ _ _ (hclk 3 _ rfl) (hclk 2 _ rfl))
      have hpause := prim_pause (phase := phase) hm hf (by omega) hu .sbp htbl' [0] (by decide) p hp hp'
        (t' + duration (pulses a.2.2))
      have g1 := sbp_frame t m tbl hl hua.1 hua.2 s hs a.1 a.2.1 _ hfr
      obtain ⟨d', g2, g3⟩ := sbp_pause t m hl tbl sbpInit ⟨rfl, rfl, rfl⟩ _ hpause
      have hlen : a.2.2.length = 38 := by rw [hnear.1]; simp [sbpPeriods]
      have hrun := run_append_some g1 g2
      refine ⟨d', _, ?_, g3, by rw [he, clocked_length], ?_, fun t'' =>
        pulses_said t'' _ _ 75 (by rw [hlen]) (some (SbpCommand.unpack a.1 (a.2.1.setWidth 32)))⟩
      · rw [he, clocked_append, clocked_pulses, clocked_pulses]
        exact hrun
      · rw [duration_append, duration_pulses, duration_pulses]; simp [lasting]) d1 hi1
  rw [series_eq, e3]
  obtain ⟨o', r1, r2⟩ := timed_results (D := sbpDecoder t m tbl) conv hd1 h1 t0
    (items.flatMap fun i => pulses i.1.2.2 ++ pulses [i.2])
  refine ⟨o', r1, r2.trans ?_⟩
  have h2' := h2 t0
  rw [e1] at h2'
  rw [h2', List.map_map]
  rfl

/-! ## Denon -/

theorem denon_first (t : Target) (m : Mono) (hl : m.Lawful) (tbl : PulseSpans) (g : Nat)
    (hg : Pause tbl m.width [0] (0, g)) :
    ∃ d1, runStep (denonFn t m tbl) denonInit [(true, g)] = some (d1, [.ok none]) ∧
      d1.state = .idle ∧ d1.buf = 0 := by
  obtain ⟨d0, hp0, hi0⟩ := denon_pause t m hl tbl denonInit ⟨rfl, rfl⟩ (0, g) hg
  have hf0 : denonFn t m tbl denonInit (false, 0) = some (denonInit, .ok none) :=
    denon_falling t m tbl denonInit denonInit_ready 0
  obtain ⟨s1, r1, o1, q1, q2, q3⟩ := run_cons_inv hp0
  rw [hf0, Option.some.injEq, Prod.mk.injEq] at q1
  obtain ⟨rfl, rfl⟩ := q1
  simp only [List.cons.injEq, true_and] at q3
  exact ⟨d0, by rw [q3]; exact q2, hi0⟩

/-- **C83**, Denon (first 47 bits). -/
theorem C83_denon_events (t : Target) (m : Mono) (hm : m = Mono.u32 ∨ m = Mono.u64) (f : Nat) (hlo : 40000 ≤ f)
    (hf : f < 2 ^ 32) (tbl : PulseSpans) (htbl : denonSpans t m f = some tbl) (conv : DenonCommand → K)
    (u : Nat) (hu : 0 < u) (phase t0 g : Nat) (hg : Pause tbl m.width [0] (0, g))
    (items : List ((BitVec 48 × List (Nat × Nat)) × (Nat × Nat)))
    (hok : ∀ i ∈ items, NearPeriods u 3 (denonPeriods i.1.1) i.1.2 ∧
      16000 * u ≤ 1000000 * (i.2.1 + i.2.2) ∧ (i.2.1 + i.2.2) * f + u < 2 ^ m.width * u) :
    ∃ o, results (denonDecoder t m tbl) conv
        ((true, g) :: clocked u f phase t0 (series (fun i => i.2) items)) = some o ∧
      timedSaid 0 ((true, t0) :: series (fun i => i.2) items) o =
        (finishes (fun i => lasting i.1.2) (fun i => i.2.1 + i.2.2) t0 items).map fun x =>
          (x.1, .ok (some (conv { bits := (x.2.1.1.setWidth 47).setWidth 64 }))) := by
  have hl := Mono.prim_lawful hm
  have hclk := denon_clk hm hlo hf htbl hu phase
  have htbl' : Kind.build .denon t m f = some tbl := htbl
  have hua : Unambiguous tbl 3 ∧ Fits tbl m.width := by
    have h := htbl
    rw [denonSpans_eq hm t hf, Option.some.injEq] at h
    subst h
    exact ⟨denon_unambiguous f (by omega), denonTable_fits hf (Mono.IsPrim.width hm)⟩
  obtain ⟨d1, hd1, hi1⟩ := denon_first t m hl tbl g hg
  obtain ⟨items', e1, e2, e3⟩ := clocked_chunks u f phase
    (fun i : (BitVec 48 × List (Nat × Nat)) × (Nat × Nat) => pulses i.1.2 ++ pulses [i.2]) items t0
  obtain ⟨d', o, h1, -, h2⟩ := chunks_timed (denonFn t m tbl) (fun d => d.state = .idle ∧ d.buf = 0)
    (fun i : (BitVec 48 × List (Nat × Nat)) × (Nat × Nat) => pulses i.1.2 ++ pulses [i.2])
    (fun i => lasting i.1.2) (fun i => i.2.1 + i.2.2)
    (fun i => ({ bits := low47 i.1.1 } : DenonCommand)) items' (by
      rintro ⟨⟨a, p⟩, es⟩ ha s hs
      obtain ⟨hmem, t', he⟩ := e2 _ ha
      obtain ⟨hnear, hp, hp'⟩ := hok _ hmem
      dsimp only at he hnear hp hp' ⊢
      have hfr : Matches tbl (denonSlots a.1) (clockedPulses u f phase t' a.2) := by
        refine matches_of_measures (us := denonPeriods a.1) (by simp [denonPeriods, denonSlots]) ?_ hnear _
        unfold denonPeriods denonSlots
        exact append_ok (by simp) (single_ok (hclk 0 _ rfl)) (bits_ok 48 _ _ _ _ _ (hclk 2 _ rfl) (hclk 1 _ rfl))
      have hpause := prim_pause (phase := phase) hm hf (by omega) hu .denon htbl' [0] (by decide) p hp hp'
        (t' + duration (pulses a.2))
      have g1 := denon_frame t m tbl hl hua.1 hua.2 s hs.1 a.1 _ hfr
      rw [hs.2, show (0 : BitVec 64) ||| low47 a.1 = low47 a.1 from BitVec.zero_or] at g1
      obtain ⟨d', g2, g3⟩ := denon_pause t m hl tbl denonInit ⟨rfl, rfl⟩ _ hpause
      have hlen : a.2.length = 49 := by rw [hnear.1]; simp [denonPeriods]
      have hrun := run_append_some g1 g2
      refine ⟨d', _, ?_, g3, by rw [he, clocked_length], ?_, fun t'' =>
        pulses_said t'' _ _ 97 (by rw [hlen]) (some (⟨low47 a.1⟩ : DenonCommand))⟩
      · rw [he, clocked_append, clocked_pulses, clocked_pulses]
        exact hrun
      · rw [duration_append, duration_pulses, duration_pulses]; simp [lasting]) d1 hi1
  rw [series_eq, e3]
  obtain ⟨o', r1, r2⟩ := timed_results (D := denonDecoder t m tbl) conv hd1 h1 t0
    (items.flatMap fun i => pulses i.1.2 ++ pulses [i.2])
  refine ⟨o', r1, r2.trans ?_⟩
  have h2' := h2 t0
  rw [e1] at h2'
  rw [h2', List.map_map]
  rfl

/-! ## NEC -/

theorem nec_series_timed (t : Target) (m : Mono) (hm : m = Mono.u32 ∨ m = Mono.u64) (f : Nat) (hlo : 20000 ≤ f)
    (hf : f < 2 ^ 32) (v : NecVariant C) (hv : v.Shipped) (tbl : PulseSpans) (htbl : necSpans t m v f = some tbl)
    (u : Nat) (hu : 0 < u) (phase : Nat) (items : List (NecItem × (Nat × Nat)))
    (hok : ∀ i ∈ items, i.1.Near u 5 (v.pulseDistance.headerHigh + v.pulseDistance.headerLow)
      (v.pulseDistance.headerHigh + v.pulseDistance.repeatLow) ∧
      16000 * u ≤ 1000000 * (i.2.1 + i.2.2) ∧ (i.2.1 + i.2.2) * f + u < 2 ^ m.width * u) :
    ∀ (t0 : Nat) (d : NecDecoder), d.state = .init →
    ∃ d' o, runStep (necFn t m tbl v) d
        (clocked u f phase t0 (items.flatMap fun i => pulses i.1.wire ++ pulses [i.2])) = some (d', o) ∧
      ∀ t', timedSaid t' (items.flatMap fun i => pulses i.1.wire ++ pulses [i.2]) o =
        (necHeardAt v.unpack t' d.bitbuf items).map fun x => (x.1, .ok (some x.2)) := by
  have hl := Mono.prim_lawful hm
  have hclk := nec_clk hm hlo hf hv htbl hu phase
  obtain ⟨hua, hfit⟩ := necSpans_good hm t hlo hf v hv htbl
  obtain ⟨k, hk, he⟩ := nec_kind v hv
  rw [he] at htbl
  induction items with
  | nil => exact fun t0 d hd => ⟨d, [], rfl, fun _ => rfl⟩
  | cons a as ih =>
    intro t0 d hd
    obtain ⟨i, p⟩ := a
    obtain ⟨hi, hp, hp'⟩ := hok (i, p) (by simp)
    have hrest := ih (fun b hb => hok b (by simp [hb]))
    dsimp only at hi hp hp'
    have hpause := prim_pause (phase := phase) hm hf (by omega) hu k htbl [0, 1]
      (by rcases hk with ⟨rfl, -⟩ | ⟨rfl, -⟩ <;> decide) p hp hp' (t0 + duration (pulses i.wire))
    simp only [List.flatMap_cons]
    rw [clocked_append, clocked_append, clocked_pulses, clocked_pulses]
    cases i with
    | frame w ps =>
      have hfr : NecFrame tbl w (clockedPulses u f phase t0 ps) := by
        refine necFrame_of_matches (matches_of_measures
          (us := necPeriods (v.pulseDistance.headerHigh + v.pulseDistance.headerLow) w)
          (by simp [necPeriods, necSlots]) ?_ hi _)
        exact append_ok (l1 := [_]) (s1 := [0]) rfl (single_ok (hclk 0 _ rfl))
          (bits_ok 32 _ _ _ _ _ (hclk 3 _ rfl) (hclk 2 _ rfl))
      have h1 := nec_frame t m hl tbl hua hfit v d hd w _ hfr
      have h2 := nec_pause t m hl tbl v { state := .init, bitbuf := w, dtSave := 0 } rfl _ hpause
      obtain ⟨d', o, h3, h4⟩ := hrest (t0 + duration (pulses (NecItem.frame w ps).wire ++ pulses [p]))
        { state := .init, bitbuf := w, dtSave := 0 } rfl
      have h12 := run_append_some h1 h2
      refine ⟨d', _, run_append_some h12 h3, fun t' => ?_⟩
      have hlen : ps.length = 33 := by rw [hi.1]; simp [necPeriods]
      have hps := pulses_said t' ps p 65 (by rw [hlen]) (v.unpack w false)
      rw [timedSaid_append t' _ _ _ _ (by
        rw [runStep_length' h12, List.length_append, List.length_append, pulses_length, pulses_length, pulses_length,
          pulses_length, clockedPulses_length]; rfl), h4]
      simp only [necHeardAt, List.map_append]
      refine congr (congrArg _ ?_) ?_
      · refine hps.trans ?_
        simp only [List.map_map]
        rfl
      · rw [duration_append, duration_pulses, duration_pulses, Nat.add_assoc]
        simp [lasting, NecItem.wire]
    | rep q =>
      obtain ⟨q', t'', hq', hsum⟩ := clockedPulses_get u f phase t0 [q] 0 _ rfl
      simp only [List.getElem?_cons_zero, Option.some.injEq] at hq'
      subst hq'
      have hi' : InTol tbl 1 (reading u f phase (t0 + q.1) - reading u f phase t0 +
          (reading u f phase (t0 + q.1 + q.2) - reading u f phase (t0 + q.1))) := by
        rw [hsum]
        exact hclk 1 _ rfl _ _ hi
      have h1 := nec_pulse t m tbl v hl d (.inl hd) _ _ (inTol_lt hfit hi')
      rw [nec_classify_rep (inTol_get hua (by decide) hi'), hd] at h1
      have h2 := nec_pause t m hl tbl v { state := .init, bitbuf := d.bitbuf, dtSave := 0 } rfl _ hpause
      obtain ⟨d', o, h3, h4⟩ := hrest (t0 + duration (pulses (NecItem.rep q).wire ++ pulses [p]))
        { state := .init, bitbuf := d.bitbuf, dtSave := 0 } rfl
      have h12 := run_append_some h1 h2
      refine ⟨d', _, run_append_some h12 h3, fun t' => ?_⟩
      have hps := pulses_said t' [q] p 1 rfl (v.unpack d.bitbuf true)
      rw [timedSaid_append t' _ _ _ _ rfl, h4]
      simp only [necHeardAt, List.map_append]
      refine congr (congrArg _ ?_) ?_
      · refine hps.trans ?_
        simp only [List.map_map]
        rfl
      · rw [duration_append, duration_pulses, duration_pulses, Nat.add_assoc]
        simp [lasting, NecItem.wire]

/-- **C83**, NEC family: a receiver called at every edge reports every frame at the edge that ends its last bit and
every repeat code at the edge that ends its space (in both cases the start of the stop mark), and says nothing at any
other edge. -/
theorem C83_nec_events (t : Target) (m : Mono) (hm : m = Mono.u32 ∨ m = Mono.u64) (f : Nat) (hlo : 20000 ≤ f)
    (hf : f < 2 ^ 32) (v : NecVariant C) (hv : v.Shipped) (tbl : PulseSpans) (htbl : necSpans t m v f = some tbl)
    (conv : C → K) (u : Nat) (hu : 0 < u) (phase t0 g : Nat) (hg : Pause tbl m.width [0, 1] (0, g))
    (items : List (NecItem × (Nat × Nat)))
    (hok : ∀ i ∈ items, i.1.Near u 5 (v.pulseDistance.headerHigh + v.pulseDistance.headerLow)
      (v.pulseDistance.headerHigh + v.pulseDistance.repeatLow) ∧
      16000 * u ≤ 1000000 * (i.2.1 + i.2.2) ∧ (i.2.1 + i.2.2) * f + u < 2 ^ m.width * u) :
    ∃ o, results (necDecoder t m tbl v) conv
        ((true, g) :: clocked u f phase t0 (series NecItem.wire items)) = some o ∧
      timedSaid 0 ((true, t0) :: series NecItem.wire items) o =
        (necHeardAt v.unpack t0 0 items).map fun x => (x.1, .ok (some (conv x.2))) := by
  have hgap := nec_gap_idle t m (Mono.prim_lawful hm) tbl v
    ({ state := .init, bitbuf := 0, dtSave := 0 } : NecDecoder) rfl g hg.1
    (hg.2 0 (by simp)) (hg.2 1 (by simp))
  have hg' : runStep (necFn t m tbl v) ({ state := .init, bitbuf := 0, dtSave := 0 } : NecDecoder)
      [(true, g)] = some ({ state := .init, bitbuf := 0, dtSave := 0 }, [.ok none]) := by
    rw [run_singleton, hgap]; rfl
  obtain ⟨d', o, h1, h2⟩ := nec_series_timed t m hm f hlo hf v hv tbl htbl u hu phase items hok t0
    ({ state := .init, bitbuf := 0, dtSave := 0 } : NecDecoder) rfl
  rw [series_eq]
  obtain ⟨o', r1, r2⟩ := timed_results (D := necDecoder t m tbl v) conv hg' h1 t0
    (items.flatMap fun i => pulses i.1.wire ++ pulses [i.2])
  refine ⟨o', r1, r2.trans ?_⟩
  rw [h2 t0, List.map_map]
  rfl

/-! ## RC5 and RC6 -/

theorem withTail_cons (e : Ev) (l : List Ev) (tl : Option Nat) : withTail (e :: l) tl = e :: withTail l tl := by
  cases tl <;> rfl

theorem tail_duration (l : List Ev) (tl : Option Nat) : duration (withTail l tl) = duration l + tl.getD 0 := by
  cases tl with
  | none => rfl
  | some x => simp [withTail, duration]

/-- The measured version of one Manchester transmission, with any pause before it. -/
def RestMeasured (u f phase : Nat) (wire es : List (Bool × Nat)) : Prop :=
  ∃ b x rest t g, wire = (b, x) :: rest ∧ es = (b, g) :: clocked u f phase (t + x) rest

theorem clocked_chunks_first (u f phase : Nat) (wire : A → List (Bool × Nat)) (items : List A)
    (hne : ∀ i ∈ items, wire i ≠ []) (b : Bool) (x : Nat) (fl : List (Bool × Nat))
    (hfl : items.flatMap wire = (b, x) :: fl) (t0 g : Nat) :
    ∃ items' : List (A × List Ev), items'.map Prod.fst = items ∧
      (∀ i ∈ items', i.1 ∈ items ∧ RestMeasured u f phase (wire i.1) i.2) ∧
      (b, g) :: clocked u f phase (t0 + x) fl = items'.flatMap Prod.snd := by
  cases items with
  | nil => cases hfl
  | cons a as =>
    rcases hw : wire a with _ | ⟨⟨b', x'⟩, rest⟩
    · exact absurd hw (hne a (by simp))
    rw [List.flatMap_cons, hw, List.cons_append, List.cons.injEq, Prod.mk.injEq] at hfl
    obtain ⟨⟨rfl, rfl⟩, rfl⟩ := hfl
    obtain ⟨is, h1, h2, h3⟩ := clocked_chunks u f phase wire as (t0 + x' + duration rest)
    refine ⟨(a, (b', g) :: clocked u f phase (t0 + x') rest) :: is, by simp [h1], ?_, ?_⟩
    · intro i hi
      rcases List.mem_cons.mp hi with rfl | hi
      · exact ⟨by simp, b', x', rest, t0, g, hw, rfl⟩
      · obtain ⟨hm, t', he⟩ := h2 i hi
        refine ⟨by simp [hm], ?_⟩
        rcases hw' : wire i.1 with _ | ⟨⟨b'', x''⟩, rest'⟩
        · exact absurd hw' (hne i.1 (by simp [hm]))
        · exact ⟨b'', x'', rest', t', _, rfl, by rw [he, hw', clocked]⟩
    · rw [clocked_append, h3, List.flatMap_cons]
      rfl

theorem clocked_tail_kept (u f phase t : Nat) (es : List (Bool × Nat)) (tl : Option Nat) :
    ∃ tl' : Option Nat, tl'.isSome = tl.isSome ∧
      clocked u f phase t (withTail es tl) = withTail (clocked u f phase t es) tl' := by
  cases tl with
  | none => exact ⟨none, rfl, rfl⟩
  | some x =>
    refine ⟨some (reading u f phase (t + duration es + x) - reading u f phase (t + duration es)), rfl, ?_⟩
    rw [withTail, clocked_append, clocked, clocked, withTail]

/-- A measured transmission and its tail. -/
theorem restMeasured_frame {u f phase : Nat} {R R' : Nat → Nat → Prop} {edges : List (Bool × Nat)}
    (hfits : ∀ t es, ManchesterFrame R edges es → ManchesterFrame R' edges (clocked u f phase t es))
    {evs es : List (Bool × Nat)} {tl : Option Nat} (h : ManchesterFrame R edges evs)
    (hm : RestMeasured u f phase (withTail evs tl) es) :
    ∃ evs' tl', es = withTail evs' tl' ∧ tl'.isSome = tl.isSome ∧ ManchesterFrame R' edges evs' ∧
      evs'.length = evs.length := by
  obtain ⟨pause, rest, rfl⟩ := frame_nonempty h
  obtain ⟨b, x, rest', t, g, h1, rfl⟩ := hm
  rw [withTail_cons, List.cons.injEq, Prod.mk.injEq] at h1
  obtain ⟨⟨rfl, rfl⟩, rfl⟩ := h1
  obtain ⟨tl', h2, h3⟩ := clocked_tail_kept u f phase (t + pause) rest tl
  refine ⟨(true, g) :: clocked u f phase (t + pause) rest, tl', ?_, h2, ?_, ?_⟩
  · rw [withTail_cons, h3]
  · exact frame_pause (hfits t _ h) g
  · simp [clocked_length]

/-- What it says about the edge that returns the line to rest. -/
def tailOuts : Option Nat → List (Res K)
  | none => []
  | some _ => [.ok none]

/-- What a Manchester receiver says about one transmission and its tail. -/
theorem tail_said (t : Nat) (evs : List Ev) (tl tl' : Option Nat) (htl : tl'.isSome = tl.isSome) (h : evs ≠ []) (c : K) :
    timedSaid t (withTail evs tl) (List.replicate (evs.length - 1) (.ok none) ++ [.ok (some c)] ++
      tailOuts tl') = [(t + duration evs, .ok (some c))] := by
  have hpos : evs.length = evs.length - 1 + 1 := by
    have := List.length_pos_iff.mpr h
    omega
  have h1 := timedSaid_last t evs (evs.length - 1) hpos (some c)
  cases tl with
  | none =>
    cases tl' with
    | none => rw [tailOuts, List.append_nil]; exact h1
    | some y => simp at htl
  | some x =>
    cases tl' with
    | none => simp at htl
    | some y =>
      have h2 := timedSaid_silent (K := K) (t + duration evs) [(false, x)] 1
      show timedSaid t (evs ++ [(false, x)]) (List.replicate (evs.length - 1) (.ok none) ++ [.ok (some c)] ++
        List.replicate 1 (.ok none)) = _
      rw [timedSaid_append _ _ _ _ _ (by simp; omega), h1, h2]
      rfl

theorem rc5_rest_outs (t : Target) (hus : 16 ≤ t.usizeBits) (tbl : PulseSpans)
    (hlen : tbl.spans.length ≤ 8) (d : Rc5Decoder) (hd : Rest5 t d) (w : BitVec 14)
    (hw : w.getLsbD 13 = true) (evs : List Ev)
    (h : ManchesterFrame (HalfBits tbl) (rc5Edges w) evs) (tail : Option Nat) :
    ∃ d', runStep (rc5Fn t tbl) d (withTail evs tail) = some (d',
      List.replicate (evs.length - 1) (.ok none) ++ [.ok (some (Rc5Command.unpack (w.setWidth 16)))] ++
      tailOuts tail) ∧ Rest5 t d' := by
  have hp : 2 ^ 16 ≤ 2 ^ t.usizeBits := Nat.pow_le_pow_right (by decide) hus
  obtain ⟨⟨odd, hsim⟩, hclk⟩ := hd
  have hl : evs.length ≤ 28 := by
    rw [frame_length h]
    refine Nat.le_trans (edgesFrom_length _ _ _) ?_
    simp [rc5Levels]
    decide
  obtain ⟨d1, h1, -, -⟩ := rc5_run_ex t tbl hus hlen hsim evs (by
    rcases hclk with hc | hc
    · exact .inr (by omega)
    · exact .inl hc)
  rw [rc5_abs_frame tbl w hw odd evs h] at h1
  obtain ⟨s0, hs0⟩ := run_last_reset (D := rc5Decoder t tbl) h1 (by simp)
  have hd1 : d1 = rc5Init := hs0
  subst hd1
  cases tail with
  | none =>
    refine ⟨rc5Init, ?_, ⟨⟨false, sim5_init⟩, .inl (by simp [rc5Init])⟩⟩
    rw [tailOuts, List.append_nil]
    exact h1
  | some x =>
    obtain ⟨d2, h2, h3⟩ := rc5_tail t hus tbl hlen x
    exact ⟨d2, run_append_some h1 h2, h3⟩

theorem rc6_rest_outs (t : Target) (hus : 16 ≤ t.usizeBits) (tbl : PulseSpans)
    (hlen : tbl.spans.length ≤ 8) (d : Rc6Decoder) (hd : Rest6 t d) (mode : BitVec 3)
    (hm : EvenMode mode) (w : BitVec 16) (toggle : Bool) (evs : List Ev)
    (h : ManchesterFrame (HalfBits tbl) (rc6EdgesMode mode w toggle) evs) (tail : Option Nat) :
    ∃ d', runStep (rc6Fn t tbl) d (withTail evs tail) = some (d',
      List.replicate (evs.length - 1) (.ok none) ++ [.ok (some (Rc6Command.fromBits w toggle))] ++
      tailOuts tail) ∧ Rest6 t d' := by
  have hp : 2 ^ 16 ≤ 2 ^ t.usizeBits := Nat.pow_le_pow_right (by decide) hus
  obtain ⟨⟨tg, odd, hsim⟩, hclk⟩ := hd
  have hl : evs.length ≤ 52 := by
    rw [frame_length h]
    refine Nat.le_trans (edgesFrom_length _ _ _) ?_
    simp [rc6LevelsMode]
    decide
  obtain ⟨d1, h1, hs1, -⟩ := rc6_run_ex t tbl hus hlen hsim evs (by
    rcases hclk with hc | hc
    · exact .inr (by omega)
    · exact .inl hc)
  rw [rc6_abs_frame tbl mode hm w toggle tg odd evs h] at h1 hs1
  obtain ⟨s0, hs0⟩ := run_last_reset (D := rc6Decoder t tbl) h1 (by simp)
  have hc1 : d1.clock = 0 := congrArg Rc6Decoder.clock (show d1 = Rc6Decoder.reset s0 from hs0)
  cases tail with
  | none =>
    refine ⟨d1, ?_, ⟨⟨toggle, false, hs1⟩, .inl (by omega)⟩⟩
    rw [tailOuts, List.append_nil]
    exact h1
  | some x =>
    obtain ⟨d2, h2, h3⟩ := rc6_tail t hus tbl hlen d1 hc1 toggle false hs1 x
    exact ⟨d2, run_append_some h1 h2, h3⟩

/-- **C83**, RC5: a receiver called at every edge reports every transmission at its last edge, and says nothing at any
other edge, including the one that returns the line to rest. -/
theorem C83_rc5_events (t : Target) (hus : 16 ≤ t.usizeBits) (m : Mono) (hm : m = Mono.u32 ∨ m = Mono.u64) (f : Nat)
    (hlo : 40000 ≤ f) (hf : f < 2 ^ 32) (tbl : PulseSpans) (htbl : rc5Spans t m f = some tbl)
    (conv : Rc5Command → K) (u : Nat) (hu : 0 < u) (phase : Nat)
    (items : List (BitVec 14 × List (Bool × Nat) × Option Nat))
    (hok : ∀ i ∈ items, i.1.getLsbD 13 = true ∧
      ManchesterFrame (fun x n => Near u 5 (889 * n) x) (rc5Edges i.1) i.2.1)
    (b : Bool) (pause : Nat) (es : List (Bool × Nat))
    (hes : (items.flatMap fun i => withTail i.2.1 i.2.2) = (b, pause) :: es) (t0 g : Nat) :
    ∃ o, results (rc5Decoder t tbl) conv ((b, g) :: clocked u f phase (t0 + pause) es) = some o ∧
      timedSaid t0 ((b, pause) :: es) o =
        (finishes (fun i => duration i.2.1) (fun i => i.2.2.getD 0) t0 items).map fun x =>
          (x.1, .ok (some (conv (Rc5Command.unpack (x.2.1.setWidth 16))))) := by
  have hua : Unambiguous tbl 2 ∧ tbl.spans.length ≤ 8 := by
    have h := htbl
    rw [rc5Spans_eq hm t hf, Option.some.injEq] at h
    subst h
    exact ⟨rc5_unambiguous f (by omega), by simp [rc5Table]⟩
  obtain ⟨items', e1, e2, e3⟩ := clocked_chunks_first u f phase
    (fun i : BitVec 14 × List (Bool × Nat) × Option Nat => withTail i.2.1 i.2.2) items (by
      intro i hi
      obtain ⟨p, r, hr⟩ := frame_nonempty (hok i hi).2
      rw [hr, withTail_cons]
      simp) b pause es hes t0 g
  obtain ⟨d', o, h1, -, h2⟩ := chunks_timed (rc5Fn t tbl) (Rest5 t)
    (fun i : BitVec 14 × List (Bool × Nat) × Option Nat => withTail i.2.1 i.2.2)
    (fun i => duration i.2.1) (fun i => i.2.2.getD 0) (fun i => Rc5Command.unpack (i.1.setWidth 16)) items' (by
      rintro ⟨⟨w, evs, tl⟩, es'⟩ ha d hd
      obtain ⟨hmem, hmeas⟩ := e2 _ ha
      obtain ⟨hw, hfr⟩ := hok _ hmem
      dsimp only at hmeas hw hfr ⊢
      obtain ⟨evs', tl', rfl, htl, hfr', hlen⟩ := restMeasured_frame (R' := Within tbl) (by
        intro t' es hfr
        rw [rc5Edges_eq w hw] at hfr ⊢
        refine frame_clocked ?_ t' es hfr
        intro t'' ns e he hn
        exact rc5_near_within hu hm hlo hf htbl phase t'' (rc5_edges_len w 13 true e he) hn) hfr hmeas
      obtain ⟨d', g1, g2⟩ := rc5_rest_outs t hus tbl hua.2 d hd w hw evs' (rc5_halfBits_of hua.1 hw hfr') tl'
      rw [hlen] at g1
      refine ⟨d', _, g1, g2, ?_, tail_duration _ _, fun t'' =>
        tail_said t'' evs tl tl' htl (by obtain ⟨p, r, hr⟩ := frame_nonempty hfr; rw [hr]; simp) _⟩
      cases tl <;> cases tl' <;> simp [withTail, hlen] at htl ⊢) rc5Init
      ⟨⟨false, sim5_init⟩, .inl (by simp [rc5Init])⟩
  refine ⟨_, by rw [e3]; exact results_of (D := rc5Decoder t tbl) conv h1, ?_⟩
  have h2' := h2 t0
  rw [e1, hes] at h2'
  rw [timedSaid_map, h2', List.map_map]
  rfl

/-- **C83**, RC6 (mode 0). -/
theorem C83_rc6_events (t : Target) (hus : 16 ≤ t.usizeBits) (m : Mono) (hm : m = Mono.u32 ∨ m = Mono.u64) (f : Nat)
    (hlo : 80000 ≤ f) (hf : f < 2 ^ 32) (tbl : PulseSpans) (htbl : rc6Spans t m f = some tbl)
    (conv : Rc6Command → K) (u : Nat) (hu : 0 < u) (phase : Nat)
    (items : List (Rc6Command × List (Bool × Nat) × Option Nat))
    (hok : ∀ i ∈ items, ManchesterFrame (fun x n => Near u 5 (444 * n) x)
      (rc6Edges (i.1.addr ++ i.1.cmd) i.1.toggle) i.2.1)
    (b : Bool) (pause : Nat) (es : List (Bool × Nat))
    (hes : (items.flatMap fun i => withTail i.2.1 i.2.2) = (b, pause) :: es) (t0 g : Nat) :
    ∃ o, results (rc6Decoder t tbl) conv ((b, g) :: clocked u f phase (t0 + pause) es) = some o ∧
      timedSaid t0 ((b, pause) :: es) o =
        (finishes (fun i => duration i.2.1) (fun i => i.2.2.getD 0) t0 items).map fun x =>
          (x.1, .ok (some (conv x.2.1))) := by
  have hua : Unambiguous tbl 4 ∧ tbl.spans.length ≤ 8 ∧
      ∀ d, InTol tbl 5 d → ¬ InTol tbl 4 d → tbl.get d = some 5 := by
    have h := htbl
    rw [rc6Spans_eq hm t hf, Option.some.injEq] at h
    subst h
    exact ⟨rc6_unambiguous f (by omega), by simp [rc6Table], rc6_six hm t (by omega) hf⟩
  obtain ⟨items', e1, e2, e3⟩ := clocked_chunks_first u f phase
    (fun i : Rc6Command × List (Bool × Nat) × Option Nat => withTail i.2.1 i.2.2) items (by
      intro i hi
      obtain ⟨p, r, hr⟩ := frame_nonempty (hok i hi)
      rw [hr, withTail_cons]
      simp) b pause es hes t0 g
  obtain ⟨d', o, h1, -, h2⟩ := chunks_timed (rc6Fn t tbl) (Rest6 t)
    (fun i : Rc6Command × List (Bool × Nat) × Option Nat => withTail i.2.1 i.2.2)
    (fun i => duration i.2.1) (fun i => i.2.2.getD 0) (fun i => i.1) items' (by
      rintro ⟨⟨c, evs, tl⟩, es'⟩ ha d hd
      obtain ⟨hmem, hmeas⟩ := e2 _ ha
      have hfr := hok _ hmem
      dsimp only at hmeas hfr ⊢
      obtain ⟨evs', tl', rfl, htl, hfr', hlen⟩ := restMeasured_frame (R' := WithinRc6 tbl) (by
        intro t' es hfr
        rw [rc6Edges, rc6Edges_eq 0 (.inl rfl)] at hfr ⊢
        refine frame_clocked ?_ t' es hfr
        intro t'' ns e he hn
        exact rc6_near_within hu hm hlo hf htbl phase t'' (rc6_edges_len (c.addr ++ c.cmd) c.toggle e he) hn)
        hfr hmeas
      obtain ⟨d', g1, g2⟩ := rc6_rest_outs t hus tbl hua.2.1 d hd 0 (.inl rfl) (c.addr ++ c.cmd) c.toggle evs'
        (rc6_halfBits_of hua.1 hua.2.2 hfr') tl'
      rw [hlen, rc6_fromBits] at g1
      refine ⟨d', _, g1, g2, ?_, tail_duration _ _, fun t'' =>
        tail_said t'' evs tl tl' htl (by obtain ⟨p, r, hr⟩ := frame_nonempty hfr; rw [hr]; simp) _⟩
      cases tl <;> cases tl' <;> simp [withTail, hlen] at htl ⊢) rc6Init
      ⟨⟨false, false, sim6_init⟩, .inl (by simp [rc6Init])⟩
  refine ⟨_, by rw [e3]; exact results_of (D := rc6Decoder t tbl) conv h1, ?_⟩
  have h2' := h2 t0
  rw [e1, hes] at h2'
  rw [timedSaid_map, h2', List.map_map]
  rfl

/-! ## Polled receivers -/

/-- **C83**, NEC family, polled: everything is reported at the first poll after the frame or repeat code is finished. -/
theorem C83_nec_polled (t : Target) (f : Nat) (hlo : 20000 ≤ f)
    (hf : f < 2 ^ 32) (v : NecVariant C) (hv : v.Shipped) (tbl : PulseSpans)
    (htbl : necSpans t Mono.u32 v f = some tbl) (conv : C → K) (u : Nat) (hu : 0 < u) (phase pause : Nat)
    (hg : Pause tbl 32 [0, 1] (0, reading u f phase pause + 1)) (items : List (NecItem × (Nat × Nat)))
    (hok : ∀ i ∈ items, i.1.Near u 5 (v.pulseDistance.headerHigh + v.pulseDistance.headerLow)
      (v.pulseDistance.headerHigh + v.pulseDistance.repeatLow) ∧
      16000 * u ≤ 1000000 * (i.2.1 + i.2.2) ∧ (i.2.1 + i.2.2) * f + u < 2 ^ 32 * u)
    (hmin : ∀ e ∈ series NecItem.wire items, u ≤ e.2 * f)
    (hmax : ∀ e ∈ series NecItem.wire items, e.2 * f / u + 1 < 2 ^ 32)
    (n : Nat) (hn : reading u f phase (duration ((true, pause) :: series NecItem.wire items)) < n) :
    ∃ outs, pollRun (necDecoder t Mono.u32 tbl v) conv
        (polled u f phase ((true, pause) :: series NecItem.wire items) n) = some outs ∧
      numberedSaid 1 outs = (necHeardAt v.unpack pause 0 items).map fun x =>
        (reading u f phase x.1 + 1, .ok (some (conv x.2))) := by
  have hg1 := hg.1
  dsimp only at hg1
  obtain ⟨o, h1, h2⟩ := C83_nec_events t Mono.u32 (.inl rfl) f hlo hf v hv tbl htbl conv u hu phase pause _ hg items hok
  obtain ⟨outs, h3, h4⟩ := C83_placement _ conv u hu f phase true pause _ (changes_series ..) hmin n hn (by omega) hmax
    o h1
  exact ⟨outs, h3, by rw [h4, h2, List.map_map]; rfl⟩

/-- **C83**, SBP, polled. -/
theorem C83_sbp_polled (t : Target) (f : Nat) (hlo : 40000 ≤ f) (hf : f < 2 ^ 32) (tbl : PulseSpans)
    (htbl : sbpSpans t Mono.u32 f = some tbl) (conv : SbpCommand → K) (u : Nat) (hu : 0 < u) (phase pause : Nat)
    (hg : Pause tbl 32 [0] (0, reading u f phase pause + 1))
    (items : List ((BitVec 16 × BitVec 20 × List (Nat × Nat)) × (Nat × Nat)))
    (hok : ∀ i ∈ items, NearPeriods u 3 (sbpPeriods i.1.1 i.1.2.1) i.1.2.2 ∧
      16000 * u ≤ 1000000 * (i.2.1 + i.2.2) ∧ (i.2.1 + i.2.2) * f + u < 2 ^ 32 * u)
    (hmin : ∀ e ∈ series (fun i : BitVec 16 × BitVec 20 × List (Nat × Nat) => i.2.2) items, u ≤ e.2 * f)
    (hmax : ∀ e ∈ series (fun i : BitVec 16 × BitVec 20 × List (Nat × Nat) => i.2.2) items,
      e.2 * f / u + 1 < 2 ^ 32)
    (n : Nat) (hn : reading u f phase (duration ((true, pause) :: series (fun i => i.2.2) items)) < n) :
    ∃ outs, pollRun (sbpDecoder t Mono.u32 tbl) conv
        (polled u f phase ((true, pause) :: series (fun i => i.2.2) items) n) = some outs ∧
      numberedSaid 1 outs =
        (finishes (fun i => lasting i.1.2.2) (fun i => i.2.1 + i.2.2) pause items).map fun x =>
          (reading u f phase x.1 + 1,
            .ok (some (conv (SbpCommand.unpack x.2.1.1 (x.2.1.2.1.setWidth 32))))) := by
  have hg1 := hg.1
  dsimp only at hg1
  obtain ⟨o, h1, h2⟩ := C83_sbp_events t Mono.u32 (.inl rfl) f hlo hf tbl htbl conv u hu phase pause _ hg items hok
  obtain ⟨outs, h3, h4⟩ := C83_placement _ conv u hu f phase true pause _ (changes_series ..) hmin n hn (by omega) hmax
    o h1
  exact ⟨outs, h3, by rw [h4, h2, List.map_map]; rfl⟩

/-- **C83**, Denon (first 47 bits), polled. -/
theorem C83_denon_polled (t : Target) (f : Nat) (hlo : 40000 ≤ f) (hf : f < 2 ^ 32) (tbl : PulseSpans)
    (htbl : denonSpans t Mono.u32 f = some tbl) (conv : DenonCommand → K) (u : Nat) (hu : 0 < u)
    (phase pause : Nat) (hg : Pause tbl 32 [0] (0, reading u f phase pause + 1))
    (items : List ((BitVec 48 × List (Nat × Nat)) × (Nat × Nat)))
    (hok : ∀ i ∈ items, NearPeriods u 3 (denonPeriods i.1.1) i.1.2 ∧
      16000 * u ≤ 1000000 * (i.2.1 + i.2.2) ∧ (i.2.1 + i.2.2) * f + u < 2 ^ 32 * u)
    (hmin : ∀ e ∈ series (fun i : BitVec 48 × List (Nat × Nat) => i.2) items, u ≤ e.2 * f)
    (hmax : ∀ e ∈ series (fun i : BitVec 48 × List (Nat × Nat) => i.2) items, e.2 * f / u + 1 < 2 ^ 32)
    (n : Nat) (hn : reading u f phase (duration ((true, pause) :: series (fun i => i.2) items)) < n) :
    ∃ outs, pollRun (denonDecoder t Mono.u32 tbl) conv
        (polled u f phase ((true, pause) :: series (fun i => i.2) items) n) = some outs ∧
      numberedSaid 1 outs =
        (finishes (fun i => lasting i.1.2) (fun i => i.2.1 + i.2.2) pause items).map fun x =>
          (reading u f phase x.1 + 1, .ok (some (conv { bits := (x.2.1.1.setWidth 47).setWidth 64 }))) := by
  have hg1 := hg.1
  dsimp only at hg1
  obtain ⟨o, h1, h2⟩ := C83_denon_events t Mono.u32 (.inl rfl) f hlo hf tbl htbl conv u hu phase pause _ hg items hok
  obtain ⟨outs, h3, h4⟩ := C83_placement _ conv u hu f phase true pause _ (changes_series ..) hmin n hn (by omega) hmax
    o h1
  exact ⟨outs, h3, by rw [h4, h2, List.map_map]; rfl⟩

theorem polled_nothing (D : Decoder C) (conv : C → K) (u f phase n : Nat) :
    ∃ outs, pollRun D conv (polled u f phase [] n) = some outs ∧ numberedSaid 1 outs = [] := by
  refine ⟨List.replicate n (.ok none), ?_, ?_⟩
  · rw [show polled u f phase [] n = List.replicate n false from ?_, C54_silent_line]
    rw [polled, List.eq_replicate_iff]
    exact ⟨by simp, by intro b hb; obtain ⟨i, -, rfl⟩ := List.mem_map.mp hb; rfl⟩
  · have := numberedSaid_silent (K := K) 1 n []
    rw [List.append_nil] at this
    rw [this]
    rfl

/-- **C83**, RC5, polled: every transmission is reported at the first poll after its last edge. -/
theorem C83_rc5_polled (t : Target) (hus : 16 ≤ t.usizeBits) (f : Nat) (hlo : 40000 ≤ f) (hf : f < 2 ^ 32)
    (tbl : PulseSpans) (htbl : rc5Spans t Mono.u32 f = some tbl) (conv : Rc5Command → K) (u : Nat) (hu : 0 < u)
    (phase : Nat) (items : List (BitVec 14 × List (Bool × Nat) × Option Nat))
    (hok : ∀ i ∈ items, i.1.getLsbD 13 = true ∧
      ManchesterFrame (fun x n => Near u 5 (889 * n) x) (rc5Edges i.1) i.2.1)
    (hch : Changes false (items.flatMap fun i => withTail i.2.1 i.2.2))
    (hmin : ∀ e ∈ (items.flatMap fun i => withTail i.2.1 i.2.2).tail, u ≤ e.2 * f)
    (hmax : ∀ e ∈ items.flatMap fun i => withTail i.2.1 i.2.2, (e.2 * f + phase) / u + 1 < 2 ^ 32)
    (n : Nat) (hn : reading u f phase (duration (items.flatMap fun i => withTail i.2.1 i.2.2)) < n) :
    ∃ outs, pollRun (rc5Decoder t tbl) conv
        (polled u f phase (items.flatMap fun i => withTail i.2.1 i.2.2) n) = some outs ∧
      numberedSaid 1 outs =
        (finishes (fun i => duration i.2.1) (fun i => i.2.2.getD 0) 0 items).map fun x =>
          (reading u f phase x.1 + 1, .ok (some (conv (Rc5Command.unpack (x.2.1.setWidth 16))))) := by
  rcases hfl : items.flatMap (fun i => withTail i.2.1 i.2.2) with _ | ⟨⟨b, pause⟩, es⟩
  · cases items with
    | nil => exact polled_nothing _ conv u f phase n
    | cons a as =>
      obtain ⟨x1, es, hes⟩ := frame_nonempty (hok a (by simp)).2
      rw [List.flatMap_cons, hes] at hfl
      cases h : a.2.2 <;> simp [h, withTail] at hfl
  · rw [hfl] at hch hmin hmax hn
    obtain ⟨o, h1, h2⟩ := C83_rc5_events t hus Mono.u32 (.inl rfl) f hlo hf tbl htbl conv u hu phase items hok b pause es
      hfl 0 (reading u f phase pause + 1)
    rw [Nat.zero_add] at h1
    obtain ⟨outs, h3, h4⟩ := C83_placement _ conv u hu f phase b pause es hch hmin n hn
      (hmax (b, pause) (List.mem_cons_self ..)) (fun e he => by
        have := hmax e (List.mem_cons_of_mem _ he)
        have h2 : e.2 * f / u ≤ (e.2 * f + phase) / u := Nat.div_le_div_right (by omega)
        omega) o h1
    exact ⟨outs, by rw [hfl]; exact h3, by rw [h4, h2, List.map_map]; rfl⟩

/-- **C83**, RC6 (mode 0), polled. -/
theorem C83_rc6_polled (t : Target) (hus : 16 ≤ t.usizeBits) (f : Nat) (hlo : 80000 ≤ f) (hf : f < 2 ^ 32)
    (tbl : PulseSpans) (htbl : rc6Spans t Mono.u32 f = some tbl) (conv : Rc6Command → K) (u : Nat) (hu : 0 < u)
    (phase : Nat) (items : List (Rc6Command × List (Bool × Nat) × Option Nat))
    (hok : ∀ i ∈ items, ManchesterFrame (fun x n => Near u 5 (444 * n) x)
      (rc6Edges (i.1.addr ++ i.1.cmd) i.1.toggle) i.2.1)
    (hch : Changes false (items.flatMap fun i => withTail i.2.1 i.2.2))
    (hmin : ∀ e ∈ (items.flatMap fun i => withTail i.2.1 i.2.2).tail, u ≤ e.2 * f)
    (hmax : ∀ e ∈ items.flatMap fun i => withTail i.2.1 i.2.2, (e.2 * f + phase) / u + 1 < 2 ^ 32)
    (n : Nat) (hn : reading u f phase (duration (items.flatMap fun i => withTail i.2.1 i.2.2)) < n) :
    ∃ outs, pollRun (rc6Decoder t tbl) conv
        (polled u f phase (items.flatMap fun i => withTail i.2.1 i.2.2) n) = some outs ∧
      numberedSaid 1 outs =
        (finishes (fun i => duration i.2.1) (fun i => i.2.2.getD 0) 0 items).map fun x =>
          (reading u f phase x.1 + 1, .ok (some (conv x.2.1))) := by
  rcases hfl : items.flatMap (fun i => withTail i.2.1 i.2.2) with _ | ⟨⟨b, pause⟩, es⟩
  · cases items with
    | nil => exact polled_nothing _ conv u f phase n
    | cons a as =>
      obtain ⟨x1, es, hes⟩ := frame_nonempty (hok a (by simp))
      rw [List.flatMap_cons, hes] at hfl
      cases h : a.2.2 <;> simp [h, withTail] at hfl
  · rw [hfl] at hch hmin hmax hn
    obtain ⟨o, h1, h2⟩ := C83_rc6_events t hus Mono.u32 (.inl rfl) f hlo hf tbl htbl conv u hu phase items hok b pause es
      hfl 0 (reading u f phase pause + 1)
    rw [Nat.zero_add] at h1
    obtain ⟨outs, h3, h4⟩ := C83_placement _ conv u hu f phase b pause es hch hmin n hn
      (hmax (b, pause) (List.mem_cons_self ..)) (fun e he => by
        have := hmax e (List.mem_cons_of_mem _ he)
        have h2 : e.2 * f / u ≤ (e.2 * f + phase) / u := Nat.div_le_div_right (by omega)
        omega) o h1
    exact ⟨outs, by rw [hfl]; exact h3, by rw [h4, h2, List.map_map]; rfl⟩

/-! ## Non-vacuity -/

/-- Two NEC words 4 % slow and a repeat code, on a line polled 48 000 times per second: when they are heard. -/
example (t : Target) (phase : Nat) (hp : phase < 1000000000) :
    ∃ outs, pollRun (necDecoder t Mono.u32 (necTable 48000) Infrared.nec) id
        (polled 1000000000 48000 phase ((true, 1000000) :: series NecItem.wire (slowNec 0xE31CFF00 0x00FF00FF))
          600000) = some outs ∧
      numberedSaid 1 outs =
        (necHeardAt Infrared.nec.unpack 1000000 0 (slowNec 0xE31CFF00 0x00FF00FF)).map fun x =>
          (reading 1000000000 48000 phase x.1 + 1, .ok (some x.2)) := by
  have hr : reading 1000000000 48000 phase 1000000 = 48 := by unfold reading; omega
  refine C83_nec_polled t 48000 (by decide) (by decide) Infrared.nec (.inl rfl) _
    (necSpans_standard (.inl rfl) t (by decide) _ rfl) id 1000000000 (by decide) phase 1000000 ?_ _ ?_
    (by decide +kernel) (by decide +kernel) 600000 ?_
  · rw [hr]
    refine ⟨by decide, ?_⟩
    intro j hj
    simp only [List.mem_cons, List.not_mem_nil, or_false] at hj
    rcases hj with rfl | rfl <;> rintro ⟨s, hs, ha, hb⟩ <;> cases hs
    · exact absurd ha (by decide +kernel)
    · exact absurd ha (by decide +kernel)
  · intro i hi
    simp only [slowNec, List.mem_cons, List.not_mem_nil, or_false] at hi
    rcases hi with rfl | rfl | rfl
    · exact ⟨nearPeriods_zip (by decide +kernel), by decide, by decide⟩
    · exact ⟨⟨by decide, by decide⟩, by decide, by decide⟩
    · exact ⟨nearPeriods_zip (by decide +kernel), by decide, by decide⟩
  · have hd : duration ((true, 1000000) :: series NecItem.wire (slowNec 0xE31CFF00 0x00FF00FF)) ≤ 11000000000 := by
      decide +kernel
    unfold reading
    omega

/-- Those times: 71.1, 123.4 and 292.1 ms. -/
example : necHeardAt Infrared.nec.unpack 1000000 0 (slowNec 0xE31CFF00 0x00FF00FF) =
    [(71116800, { addr := 0x00, cmd := 0x1C, rep := false }), (123399200, { addr := 0x00, cmd := 0x1C, rep := true }),
      (292098400, { addr := 0xFF, cmd := 0xFF, rep := false })] := by decide +kernel

/-- Two RC5 transmissions 4 % slow, on a line polled 40 000 times per second, are heard at polls 999 and 2033 (or one
later, depending on the phase). -/
example (t : Target) (hus : 16 ≤ t.usizeBits) (phase : Nat) (hp : phase < 1000000000) :
    ∃ outs, pollRun (rc5Decoder t (rc5Table 40000)) id
      (polled 1000000000 40000 phase
        ([(0x3175#14, slowRc5 0x3175#14, some 889000), (0x3175#14, slowRc5 0x3175#14, some 889000)].flatMap
          fun i => withTail i.2.1 i.2.2) 20000) = some outs ∧
      numberedSaid 1 outs =
        [((24963120 * 40000 + phase) / 1000000000 + 1, .ok (some ⟨5, 53, 3, false⟩)),
          ((50815240 * 40000 + phase) / 1000000000 + 1, .ok (some ⟨5, 53, 3, false⟩))] := by
  refine C83_rc5_polled t hus 40000 (by decide) (by decide) _ (rc5Spans_eq (.inl rfl) t (by decide)) id
    1000000000 (by decide) phase _ ?_ (by decide +kernel) (by decide +kernel) ?_ _ ?_
  · intro i hi
    have : i = (0x3175#14, slowRc5 0x3175#14, some 889000) := by simpa using hi
    subst this
    refine ⟨by decide, ?_⟩
    dsimp only
    rw [slowRc5, rc5Edges_eq _ (by decide)]
    exact ⟨_, _, _, _, rfl, rfl, timed_scaled 1040 5 889 (fun n => by unfold Near; omega) _⟩
  · intro e he
    have h : ∀ e ∈ [(0x3175#14, slowRc5 0x3175#14, some 889000),
        (0x3175#14, slowRc5 0x3175#14, some 889000)].flatMap fun i => withTail i.2.1 i.2.2,
        e.2 ≤ 2000000 := by decide +kernel
    have := h e he
    omega
  · have hd : duration ([(0x3175#14, slowRc5 0x3175#14, some 889000),
        (0x3175#14, slowRc5 0x3175#14, some 889000)].flatMap fun i => withTail i.2.1 i.2.2) ≤ 60000000 := by
      decide +kernel
    unfold reading
    omega

end Infrared
