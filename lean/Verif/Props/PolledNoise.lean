import Verif.Props.Noise
import Verif.Props.Reception
import Verif.Props.AnyLine

/-!
# Polled receivers after arbitrary noise (C82)

`noise` is whatever the receiver found on the line before: glitches, halves of transmissions, other remote controls.
The line is quiet at its last sample; then it stays quiet for 16 ms or more and real transmissions follow.
-/

namespace Infrared

open Spec

variable {C K : Type}

/-! ## The edges among the samples -/

theorem sampledEdges_append (a b : List Bool) (level : Bool) (n : Nat) :
    ∃ c, sampledEdges level n (a ++ b) = sampledEdges level n a ++ sampledEdges (a.getLast?.getD level) c b ∧
      (((sampledEdges level n a).filterMap id).map Prod.snd).sum + c ≤ n + a.length := by
  induction a generalizing level n with
  | nil => exact ⟨n, rfl, by simp [sampledEdges]⟩
  | cons s ss ih =>
    rw [List.cons_append, sampledEdges, sampledEdges]
    by_cases h : s = level
    · obtain ⟨c, h1, h2⟩ := ih level (n + 1)
      refine ⟨c, ?_, ?_⟩
      · rw [if_pos h, if_pos h, h1, List.cons_append, List.getLast?_cons, h]
        cases ss.getLast? <;> rfl
      · rw [if_pos h]
        simp only [List.filterMap_cons, id_eq, List.length_cons]
        omega
    · obtain ⟨c, h1, h2⟩ := ih s 0
      refine ⟨c, ?_, ?_⟩
      · rw [if_neg h, if_neg h, h1, List.cons_append, List.getLast?_cons]
        cases ss.getLast? <;> rfl
      · rw [if_neg h]
        have h3 := Nat.mod_le (n + 1) (2 ^ 32)
        simp only [List.filterMap_cons, id_eq, List.map_cons, List.sum_cons, List.length_cons]
        omega

/-- The last edge, if there is one, goes to the level of the last sample. -/
theorem sampledEdges_last (a : List Bool) (level : Bool) (n : Nat) :
    ((sampledEdges level n a).filterMap id = [] ∧ a.getLast?.getD level = level) ∨
      ∃ evs h, (sampledEdges level n a).filterMap id = evs ++ [(a.getLast?.getD level, h)] := by
  induction a generalizing level n with
  | nil => exact .inl ⟨rfl, rfl⟩
  | cons s ss ih =>
    have hl : (s :: ss).getLast?.getD level = ss.getLast?.getD s := by
      rw [List.getLast?_cons]; rfl
    rw [hl, sampledEdges]
    by_cases h : s = level
    · subst h
      rw [if_pos rfl]
      exact ih s (n + 1)
    · rw [if_neg h, List.filterMap_cons]
      dsimp only [id_eq]
      rcases ih s 0 with ⟨h1, h2⟩ | ⟨evs, x, h1⟩
      · exact .inr ⟨[], _, by rw [h1, h2]; rfl⟩
      · exact .inr ⟨_ :: evs, x, by rw [h1]; rfl⟩

/-- The edges of a line on which noise is followed by a pause and further edges: the first of these comes after the
pause and whatever time had passed since the last edge of the noise. -/
theorem edges_noise {u : Nat} (hu : 0 < u) (f phase : Nat) (noise : List Bool) (hq : noise.getLast? ≠ some true)
    (pause : Nat) (es : List (Bool × Nat)) (hch : Changes true es) (hgap : ∀ e ∈ es, u ≤ e.2 * f) (n : Nat)
    (hn : reading u f phase (duration ((true, pause) :: es)) < n)
    (hfit : noise.length + (reading u f phase pause + 1) < 2 ^ 32) (hlong : ∀ e ∈ es, e.2 * f / u + 1 < 2 ^ 32) :
    ∃ c, edgesOf (noise ++ polled u f phase ((true, pause) :: es) n) =
        edgesOf noise ++ ((true, c + (reading u f phase pause + 1)) :: clocked u f phase pause es) ∧
      ((edgesOf noise).map Prod.snd).sum + c ≤ noise.length ∧
      (edgesOf noise = [] ∨ ∃ evs h, edgesOf noise = evs ++ [(false, h)]) := by
  have hlev : noise.getLast?.getD false = false := by
    rcases h : noise.getLast? with _ | _ | _
    · rfl
    · rfl
    · exact absurd h hq
  obtain ⟨c, h1, h2⟩ := sampledEdges_append noise (polled u f phase ((true, pause) :: es) n) false 0
  rw [Nat.zero_add] at h2
  rw [hlev] at h1
  refine ⟨c, ?_, h2, ?_⟩
  · obtain ⟨first, h3, -, h4⟩ := sampled_polls hu (f := f) (phase := phase) ((true, pause) :: es) false 0 0 n c
      ⟨rfl, hch⟩ hgap (by simp) (by simpa using hn) (by simp; omega) hlong
    have h5 := h4 _ _ _ rfl
    rw [← h3] at h5
    simp only [Nat.zero_add, Nat.sub_zero] at h5
    rw [edgesOf, h1, List.filterMap_append, edgesOf, ← h5, polled, List.range'_eq_map_range, List.map_map]
    simp only [Function.comp_def, Nat.add_comm]
  · rcases sampledEdges_last noise false 0 with ⟨h3, -⟩ | ⟨evs, x, h3⟩
    · exact .inl h3
    · rw [hlev] at h3
      exact .inr ⟨evs, x, h3⟩

/-! ## The pause -/

/-- 16 ms or more are longer than every symbol. -/
theorem long_not_symbol {t : Target} {m : Mono} (hm : m = Mono.u32 ∨ m = Mono.u64) {f : Nat} (hf : f < 2 ^ 32)
    (hlo : 20000 ≤ f) {tbl : PulseSpans} (k : Kind) (htbl : k.build t m f = some tbl) {d : Nat}
    (hd : 16000 * f ≤ 1000000 * d) : Gap tbl d := by
  intro i hin
  obtain ⟨h1, h2⟩ := C52_rejects k t m hm f hf tbl htbl i d hin
  rcases hs : k.symbols[i]? with _ | ⟨l, tol⟩
  · have := h2 hs
    omega
  · have hr := (h1 l tol hs).1
    have hsmall : (100 + tol) * l ≤ 107 * 13500 := by
      have : ∀ k : Kind, ∀ s ∈ k.symbols, (100 + s.2) * s.1 ≤ 107 * 13500 := by
        intro k; cases k <;> decide
      exact this k (l, tol) (List.mem_of_getElem? hs)
    have h5 := Nat.mul_le_mul_right f hsmall
    omega

theorem reading_pause {u : Nat} (hu : 0 < u) (f phase : Nat) {pause : Nat} (hp : 16000 * u ≤ 1000000 * pause) :
    16000 * f ≤ 1000000 * (reading u f phase pause + 1) := by
  have h1 : pause * f < u * (reading u f phase pause + 1) := by
    unfold reading
    have := Nat.lt_mul_div_succ (pause * f + phase) hu
    omega
  refine Nat.le_of_mul_le_mul_left (c := u) ?_ hu
  have h2 := Nat.mul_le_mul_right f hp
  rw [Nat.mul_assoc, Nat.mul_assoc 1000000] at h2
  rw [Nat.mul_left_comm u 16000, Nat.mul_left_comm u 1000000]
  omega

/-- If the last event of a history says nothing, the results are those without it. -/
theorem results_last {D : Decoder C} {conv : C → K} {evs : List Ev} {e : Ev} {o : List (Res K)}
    (h : results D conv (evs ++ [e]) = some o)
    (hn : ∀ d o1, runStep D.step D.init evs = some (d, o1) →
      ∃ d' more x, runStep D.step d (e :: more) = some (d', .ok none :: x)) :
    ∃ o', results D conv evs = some o' ∧ said o = said o' := by
  obtain ⟨s, o1, h1, rfl⟩ := results_inv h
  obtain ⟨s1, a, b, h2, h3, rfl⟩ := run_append_inv h1
  refine ⟨a.map (Res.map conv), results_of conv h2, ?_⟩
  obtain ⟨d', more, x, h4⟩ := hn _ _ h2
  have h5 : b = [.ok none] := by
    rw [runStep] at h3 h4
    rcases hs : D.step s1 e with _ | ⟨s2, r⟩
    · simp [hs] at h3
    · simp only [hs] at h3 h4
      rcases hr : runStep D.step s2 more with _ | ⟨s3, y⟩
      · simp [hr] at h4
      · simp only [runStep, hr, Option.some.injEq, Prod.mk.injEq, List.cons.injEq] at h3 h4
        rw [← h3.2, h4.2.1]
  rw [h5, List.map_append, said_append]
  exact List.append_nil _

/-! ## NEC family -/

/-- **C82**, NEC family. -/
theorem C82_nec (t : Target) (f : Nat) (hlo : 20000 ≤ f) (hf : f < 2 ^ 32) (v : NecVariant C) (hv : v.Shipped)
    (tbl : PulseSpans) (htbl : necSpans t Mono.u32 v f = some tbl) (conv : C → K) (u : Nat) (hu : 0 < u)
    (phase pause : Nat) (hpause : 16000 * u ≤ 1000000 * pause)
    (noise : List Bool) (hq : noise.getLast? ≠ some true)
    (hfit : noise.length + (reading u f phase pause + 1) < 2 ^ 32) (items : List (NecItem × (Nat × Nat)))
    (hok : ∀ i ∈ items, i.1.Near u 5 (v.pulseDistance.headerHigh + v.pulseDistance.headerLow)
      (v.pulseDistance.headerHigh + v.pulseDistance.repeatLow) ∧
      16000 * u ≤ 1000000 * (i.2.1 + i.2.2) ∧ (i.2.1 + i.2.2) * f + u < 2 ^ 32 * u)
    (hmin : ∀ e ∈ series NecItem.wire items, u ≤ e.2 * f)
    (hmax : ∀ e ∈ series NecItem.wire items, e.2 * f / u + 1 < 2 ^ 32)
    (n : Nat) (hn : reading u f phase (duration ((true, pause) :: series NecItem.wire items)) < n) :
    ∃ outs, pollRun (necDecoder t Mono.u32 tbl v) conv noise = some outs ∧
      ∃ (last : BitVec 32) (x : List (Res K)), (x = [] ∨ x = [.error .data]) ∧
        (pollRun (necDecoder t Mono.u32 tbl v) conv
          (noise ++ polled u f phase ((true, pause) :: series NecItem.wire items) n)).map said =
        some (said outs ++ (x ++ oks ((necHeard v.unpack last (items.map Prod.fst)).map conv))) := by
  obtain ⟨outs, hist⟩ := Option.ne_none_iff_exists'.mp
    ((C76_poll_no_panic (C := C) (K := K) t tbl noise (.inr (by omega))).1 v conv)
  refine ⟨outs, hist, ?_⟩
  obtain ⟨c, hed, hsum, hlast⟩ := edges_noise hu f phase noise hq pause (series NecItem.wire items)
    (changes_pulses _) hmin n hn hfit hmax
  have hp := reading_pause hu f phase hpause
  obtain ⟨k, hk, he⟩ := nec_kind v hv
  have htbl' := htbl
  rw [he] at htbl'
  have hgap : ∀ d, reading u f phase pause + 1 ≤ d → Gap tbl d := fun d hd =>
    long_not_symbol (.inl rfl) hf hlo k htbl' (by omega)
  have hsaid := poll_said (necDecoder t Mono.u32 tbl v) conv noise
  rw [hist, Option.map_some] at hsaid
  obtain ⟨o, ho, hso⟩ := Option.map_eq_some_iff.mp hsaid.symm
  change results _ conv (edgesOf noise) = some o at ho
  rw [poll_said, ← edgesOf, hed, ← hso]
  obtain ⟨items', h1, h2, h3⟩ := nec_measured t Mono.u32 (.inl rfl) f hlo hf v hv tbl htbl u hu phase pause 5
    (nec_clk (.inl rfl) hlo hf hv htbl hu phase) items hok
  rcases hlast with hnil | ⟨evs, h, hlast⟩
  · rw [hnil] at ho ⊢
    obtain rfl : [] = o := Option.some.inj ho
    refine ⟨0, [], .inl rfl, ?_⟩
    rw [h1, ← h3]
    exact C56_nec_series t Mono.u32 (.inl rfl) f hlo hf v hv tbl htbl conv _
      ⟨show 0 + _ < 2 ^ 32 by omega, fun i _ => hgap _ (by dsimp only; omega) i⟩ items' h2
  · rw [hlast] at ho hsum ⊢
    simp only [List.map_append, List.sum_append, List.map_cons, List.map_nil, List.sum_cons, List.sum_nil] at hsum
    have hpau : Pause tbl 32 [0, 1, 2, 3] (h, c + (reading u f phase pause + 1)) :=
      ⟨show h + _ < 2 ^ 32 by omega, fun i _ => hgap _ (by dsimp only; omega) i⟩
    obtain ⟨o', ho', hs'⟩ := results_last ho fun d o1 hr => by
      obtain ⟨d', x, -, hx, -⟩ := nec_any_pause t Mono.u32 Mono.u32_lawful tbl v d
        (nec_run_ready t Mono.u32 tbl v (.inl rfl) hr) _ hpau
      exact ⟨d', _, _, hx⟩
    obtain ⟨last, x, hx, hres⟩ := C66_nec t Mono.u32 (.inl rfl) f hlo hf v hv tbl htbl conv evs o' ho' _ hpau items' h2
    refine ⟨last, x, hx, ?_⟩
    rw [hs', ← h3, ← hres, h1, List.append_assoc]
    rfl

/-! ## SBP and Denon -/

/-- **C82**, SBP. -/
theorem C82_sbp (t : Target) (f : Nat) (hlo : 40000 ≤ f) (hf : f < 2 ^ 32)
    (tbl : PulseSpans) (htbl : sbpSpans t Mono.u32 f = some tbl) (conv : SbpCommand → K) (u : Nat) (hu : 0 < u)
    (phase pause : Nat) (hpause : 16000 * u ≤ 1000000 * pause)
    (noise : List Bool) (hq : noise.getLast? ≠ some true)
    (hfit : noise.length + (reading u f phase pause + 1) < 2 ^ 32)
    (items : List ((BitVec 16 × BitVec 20 × List (Nat × Nat)) × (Nat × Nat)))
    (hok : ∀ i ∈ items, NearPeriods u 3 (sbpPeriods i.1.1 i.1.2.1) i.1.2.2 ∧
      16000 * u ≤ 1000000 * (i.2.1 + i.2.2) ∧ (i.2.1 + i.2.2) * f + u < 2 ^ 32 * u)
    (hmin : ∀ e ∈ series (fun i : BitVec 16 × BitVec 20 × List (Nat × Nat) => i.2.2) items, u ≤ e.2 * f)
    (hmax : ∀ e ∈ series (fun i : BitVec 16 × BitVec 20 × List (Nat × Nat) => i.2.2) items,
      e.2 * f / u + 1 < 2 ^ 32)
    (n : Nat) (hn : reading u f phase (duration ((true, pause) :: series (fun i => i.2.2) items)) < n) :
    ∃ outs, pollRun (sbpDecoder t Mono.u32 tbl) conv noise = some outs ∧
      ∃ x : List (Res K), (x = [] ∨ ∃ e, x = [.error e]) ∧
        (pollRun (sbpDecoder t Mono.u32 tbl) conv
          (noise ++ polled u f phase ((true, pause) :: series (fun i => i.2.2) items) n)).map said =
        some (said outs ++ (x ++
          oks (items.map fun i => conv (SbpCommand.unpack i.1.1 (i.1.2.1.setWidth 32))))) := by
  obtain ⟨outs, hist⟩ := Option.ne_none_iff_exists'.mp
    ((C76_poll_no_panic (C := SbpCommand) (K := K) t tbl noise (.inr (by omega))).2.1 conv)
  refine ⟨outs, hist, ?_⟩
  obtain ⟨c, hed, hsum, hlast⟩ := edges_noise hu f phase noise hq pause
    (series (fun i : BitVec 16 × BitVec 20 × List (Nat × Nat) => i.2.2) items)
    (changes_pulses _) hmin n hn hfit hmax
  have hp := reading_pause hu f phase hpause
  have htbl' : Kind.build .sbp t Mono.u32 f = some tbl := htbl
  have hgap : ∀ d, reading u f phase pause + 1 ≤ d → Gap tbl d := fun d hd =>
    long_not_symbol (.inl rfl) hf (by omega) .sbp htbl' (by omega)
  have hsaid := poll_said (sbpDecoder t Mono.u32 tbl) conv noise
  rw [hist, Option.map_some] at hsaid
  obtain ⟨o, ho, hso⟩ := Option.map_eq_some_iff.mp hsaid.symm
  change results _ conv (edgesOf noise) = some o at ho
  rw [poll_said, ← edgesOf, hed, ← hso]
  obtain ⟨items', h1, h2, h3⟩ := sbp_measured t Mono.u32 (.inl rfl) f (by omega) hf tbl htbl u hu phase pause 3
    (sbp_clk (.inl rfl) hlo hf htbl hu phase) items hok
  rw [h1, ← h3 fun a c => conv (SbpCommand.unpack a (c.setWidth 32))]
  rcases hlast with hnil | ⟨evs, h, hlast⟩
  · rw [hnil] at ho ⊢
    obtain rfl : [] = o := Option.some.inj ho
    refine ⟨[], .inl rfl, ?_⟩
    exact C56_sbp_series t Mono.u32 (.inl rfl) f (by omega) hf tbl htbl conv _
      ⟨show 0 + _ < 2 ^ 32 by omega, fun i _ => hgap _ (by dsimp only; omega) i⟩ items' h2
  · rw [hlast] at ho hsum ⊢
    simp only [List.map_append, List.sum_append, List.map_cons, List.map_nil, List.sum_cons, List.sum_nil] at hsum
    have hpau : Pause tbl 32 [0, 1, 2, 3] (h, c + (reading u f phase pause + 1)) :=
      ⟨show h + _ < 2 ^ 32 by omega, fun i _ => hgap _ (by dsimp only; omega) i⟩
    obtain ⟨o', ho', hs'⟩ := results_last ho fun d o1 hr => by
      obtain ⟨d', x, -, hx, -⟩ := sbp_any_pause t Mono.u32 Mono.u32_lawful tbl d
        (sbp_run_ready t Mono.u32 tbl sbpInit_ready hr) _ hpau
      exact ⟨d', _, _, hx⟩
    obtain ⟨x, hx, hres⟩ := C66_sbp t Mono.u32 (.inl rfl) f (by omega) hf tbl htbl conv evs o' ho' _ hpau items' h2
    refine ⟨x, hx, ?_⟩
    rw [hs', ← hres, List.append_assoc]
    rfl

/-- **C82**, Denon: nothing is said about the pause; the first command may have additional bits set (C23). -/
theorem C82_denon (t : Target) (f : Nat) (hlo : 40000 ≤ f) (hf : f < 2 ^ 32)
    (tbl : PulseSpans) (htbl : denonSpans t Mono.u32 f = some tbl) (conv : DenonCommand → K) (u : Nat) (hu : 0 < u)
    (phase pause : Nat) (hpause : 16000 * u ≤ 1000000 * pause)
    (noise : List Bool) (hq : noise.getLast? ≠ some true)
    (hfit : noise.length + (reading u f phase pause + 1) < 2 ^ 32)
    (items : List ((BitVec 48 × List (Nat × Nat)) × (Nat × Nat)))
    (hok : ∀ i ∈ items, NearPeriods u 3 (denonPeriods i.1.1) i.1.2 ∧
      16000 * u ≤ 1000000 * (i.2.1 + i.2.2) ∧ (i.2.1 + i.2.2) * f + u < 2 ^ 32 * u)
    (hmin : ∀ e ∈ series (fun i : BitVec 48 × List (Nat × Nat) => i.2) items, u ≤ e.2 * f)
    (hmax : ∀ e ∈ series (fun i : BitVec 48 × List (Nat × Nat) => i.2) items, e.2 * f / u + 1 < 2 ^ 32)
    (n : Nat) (hn : reading u f phase (duration ((true, pause) :: series (fun i => i.2) items)) < n) :
    ∃ outs, pollRun (denonDecoder t Mono.u32 tbl) conv noise = some outs ∧
      ∃ stale : BitVec 64,
        (pollRun (denonDecoder t Mono.u32 tbl) conv
          (noise ++ polled u f phase ((true, pause) :: series (fun i => i.2) items) n)).map said =
        some (said outs ++ oks ((denonHeard stale (items.map fun i => i.1.1)).map conv)) := by
  obtain ⟨outs, hist⟩ := Option.ne_none_iff_exists'.mp
    ((C76_poll_no_panic (C := DenonCommand) (K := K) t tbl noise (.inr (by omega))).2.2 conv)
  refine ⟨outs, hist, ?_⟩
  obtain ⟨c, hed, hsum, hlast⟩ := edges_noise hu f phase noise hq pause
    (series (fun i : BitVec 48 × List (Nat × Nat) => i.2) items)
    (changes_pulses _) hmin n hn hfit hmax
  have hp := reading_pause hu f phase hpause
  have htbl' : Kind.build .denon t Mono.u32 f = some tbl := htbl
  have hgap : ∀ d, reading u f phase pause + 1 ≤ d → Gap tbl d := fun d hd =>
    long_not_symbol (.inl rfl) hf (by omega) .denon htbl' (by omega)
  have hsaid := poll_said (denonDecoder t Mono.u32 tbl) conv noise
  rw [hist, Option.map_some] at hsaid
  obtain ⟨o, ho, hso⟩ := Option.map_eq_some_iff.mp hsaid.symm
  change results _ conv (edgesOf noise) = some o at ho
  rw [poll_said, ← edgesOf, hed, ← hso]
  obtain ⟨items', h1, h2, h3⟩ := denon_measured t Mono.u32 (.inl rfl) f (by omega) hf tbl htbl u hu phase pause 3
    (denon_clk (.inl rfl) hlo hf htbl hu phase) items hok
  rw [h1, ← h3 fun w => w]
  rcases hlast with hnil | ⟨evs, h, hlast⟩
  · rw [hnil] at ho ⊢
    obtain rfl : [] = o := Option.some.inj ho
    refine ⟨0, ?_⟩
    refine (C56_denon_series t Mono.u32 (.inl rfl) f (by omega) hf tbl htbl conv _
      ⟨show 0 + _ < 2 ^ 32 by omega, fun i _ => hgap _ (by dsimp only; omega) i⟩ items' h2).trans ?_
    cases items' with
    | nil => rfl
    | cons a as =>
      rw [List.map_cons, List.map_cons, denonHeard, List.map_cons, show (0 : BitVec 64) = 0#64 from rfl, BitVec.zero_or, List.map_map, List.map_map]
      rfl
  · rw [hlast] at ho hsum ⊢
    simp only [List.map_append, List.sum_append, List.map_cons, List.map_nil, List.sum_cons, List.sum_nil] at hsum
    have hpau : Pause tbl 32 [0, 1, 2] (h, c + (reading u f phase pause + 1)) :=
      ⟨show h + _ < 2 ^ 32 by omega, fun i _ => hgap _ (by dsimp only; omega) i⟩
    obtain ⟨o', ho', hs'⟩ := results_last ho fun d o1 hr => by
      obtain ⟨d', hx, -⟩ := denon_any_pause t Mono.u32 Mono.u32_lawful tbl d
        (denon_run_ready t Mono.u32 tbl denonInit_ready hr) _ hpau
      exact ⟨d', _, _, hx⟩
    obtain ⟨stale, hres⟩ := C66_denon t Mono.u32 (.inl rfl) f (by omega) hf tbl htbl conv evs o' ho' _ hpau items' h2
    refine ⟨stale, ?_⟩
    rw [hs', ← hres, List.append_assoc]
    rfl

/-! ## RC5 and RC6 -/

/-- **C82**, RC5: the first start bit set, the pause before the first transmission at least 16 ms. -/
theorem C82_rc5 (t : Target) (hus : 16 ≤ t.usizeBits) (f : Nat) (hlo : 40000 ≤ f) (hf : f < 2 ^ 32)
    (tbl : PulseSpans) (htbl : rc5Spans t Mono.u32 f = some tbl) (conv : Rc5Command → K) (u : Nat) (hu : 0 < u)
    (phase : Nat) (items : List (BitVec 14 × List (Bool × Nat) × Option Nat))
    (hok : ∀ i ∈ items, i.1.getLsbD 13 = true ∧
      ManchesterFrame (fun x n => Near u 5 (889 * n) x) (rc5Edges i.1) i.2.1)
    (pause : Nat) (es : List (Bool × Nat))
    (hes : (items.flatMap fun i => withTail i.2.1 i.2.2) = (true, pause) :: es) (hch : Changes true es)
    (hpause : 16000 * u ≤ 1000000 * pause) (hmin : ∀ e ∈ es, u ≤ e.2 * f) (hmax : ∀ e ∈ es, e.2 * f / u + 1 < 2 ^ 32)
    (noise : List Bool) (hq : noise.getLast? ≠ some true)
    (hfit : noise.length + (reading u f phase pause + 1) < 2 ^ 32)
    (hpan : t.overflowChecks = false ∨ 8 * noise.length < 2 ^ t.usizeBits)
    (n : Nat) (hn : reading u f phase (duration ((true, pause) :: es)) < n) :
    ∃ outs, pollRun (rc5Decoder t tbl) conv noise = some outs ∧
      (pollRun (rc5Decoder t tbl) conv (noise ++ polled u f phase ((true, pause) :: es) n)).map said =
        some (said outs ++ oks (items.map fun i => conv (Rc5Command.unpack (i.1.setWidth 16)))) := by
  have htbl' : Kind.build .rc5 t Mono.u32 f = some tbl := htbl
  have hlen : tbl.spans.length ≤ 8 := by
    have h := htbl
    rw [rc5Spans_eq (.inl rfl) t hf, Option.some.injEq] at h
    subst h
    simp [rc5Table]
  obtain ⟨outs, hist⟩ := Option.ne_none_iff_exists'.mp
    ((C76_poll_no_panic_manchester (K := K) t hus tbl hlen noise hpan).1 conv)
  refine ⟨outs, hist, ?_⟩
  obtain ⟨c, hed, -, -⟩ := edges_noise hu f phase noise hq pause es hch hmin n hn hfit hmax
  have hp := reading_pause hu f phase hpause
  have hgap : Gap tbl (c + (reading u f phase pause + 1)) :=
    long_not_symbol (.inl rfl) hf (by omega) .rc5 htbl' (by omega)
  have hsaid := poll_said (rc5Decoder t tbl) conv noise
  rw [hist, Option.map_some] at hsaid
  obtain ⟨o, ho, hso⟩ := Option.map_eq_some_iff.mp hsaid.symm
  change results _ conv (edgesOf noise) = some o at ho
  rw [poll_said, ← edgesOf, hed, ← hso,
    results_append_gap _ conv ho _ (fun r => C29_rc5_gap_forgets t tbl conv r _ hgap _)]
  have := C65_rc5_events t hus Mono.u32 (.inl rfl) f hlo hf tbl htbl conv u hu phase items hok true pause es hes 0
    (c + (reading u f phase pause + 1))
  rw [Nat.zero_add] at this
  obtain ⟨o2, h1, h2⟩ := Option.map_eq_some_iff.mp this
  rw [h1, Option.map_some, Option.map_some, said_append, h2]

/-- **C82**, RC6 (mode 0). -/
theorem C82_rc6 (t : Target) (hus : 16 ≤ t.usizeBits) (f : Nat) (hlo : 80000 ≤ f) (hf : f < 2 ^ 32)
    (tbl : PulseSpans) (htbl : rc6Spans t Mono.u32 f = some tbl) (conv : Rc6Command → K) (u : Nat) (hu : 0 < u)
    (phase : Nat) (items : List (Rc6Command × List (Bool × Nat) × Option Nat))
    (hok : ∀ i ∈ items, ManchesterFrame (fun x n => Near u 5 (444 * n) x)
      (rc6Edges (i.1.addr ++ i.1.cmd) i.1.toggle) i.2.1)
    (pause : Nat) (es : List (Bool × Nat))
    (hes : (items.flatMap fun i => withTail i.2.1 i.2.2) = (true, pause) :: es) (hch : Changes true es)
    (hpause : 16000 * u ≤ 1000000 * pause) (hmin : ∀ e ∈ es, u ≤ e.2 * f) (hmax : ∀ e ∈ es, e.2 * f / u + 1 < 2 ^ 32)
    (noise : List Bool) (hq : noise.getLast? ≠ some true)
    (hfit : noise.length + (reading u f phase pause + 1) < 2 ^ 32)
    (hpan : t.overflowChecks = false ∨ 8 * noise.length < 2 ^ t.usizeBits)
    (n : Nat) (hn : reading u f phase (duration ((true, pause) :: es)) < n) :
    ∃ outs, pollRun (rc6Decoder t tbl) conv noise = some outs ∧
      (pollRun (rc6Decoder t tbl) conv (noise ++ polled u f phase ((true, pause) :: es) n)).map said =
        some (said outs ++ oks (items.map fun i => conv i.1)) := by
  have htbl' : Kind.build .rc6 t Mono.u32 f = some tbl := htbl
  have hlen : tbl.spans.length ≤ 8 := by
    have h := htbl
    rw [rc6Spans_eq (.inl rfl) t hf, Option.some.injEq] at h
    subst h
    simp [rc6Table]
  obtain ⟨outs, hist⟩ := Option.ne_none_iff_exists'.mp
    ((C76_poll_no_panic_manchester (K := K) t hus tbl hlen noise hpan).2 conv)
  refine ⟨outs, hist, ?_⟩
  obtain ⟨c, hed, -, -⟩ := edges_noise hu f phase noise hq pause es hch hmin n hn hfit hmax
  have hp := reading_pause hu f phase hpause
  have hgap : Gap tbl (c + (reading u f phase pause + 1)) :=
    long_not_symbol (.inl rfl) hf (by omega) .rc6 htbl' (by omega)
  have hsaid := poll_said (rc6Decoder t tbl) conv noise
  rw [hist, Option.map_some] at hsaid
  obtain ⟨o, ho, hso⟩ := Option.map_eq_some_iff.mp hsaid.symm
  change results _ conv (edgesOf noise) = some o at ho
  rw [poll_said, ← edgesOf, hed, ← hso,
    results_append_gap _ conv ho _ (fun r => C29_rc6_gap_forgets t tbl conv r _ hgap _)]
  have := C65_rc6_events t hus Mono.u32 (.inl rfl) f hlo hf tbl htbl conv u hu phase items hok true pause es hes 0
    (c + (reading u f phase pause + 1))
  rw [Nat.zero_add] at this
  obtain ⟨o2, h1, h2⟩ := Option.map_eq_some_iff.mp this
  rw [h1, Option.map_some, Option.map_some, said_append, h2]

/-! ## Non-vacuity -/

/-- Any noise of a million samples or fewer, 20 ms of quiet, then two NEC words 4 % slow with a repeat code, on a
line polled 48 000 times per second. -/
example (t : Target) (phase : Nat) (hp : phase < 1000000000) (noise : List Bool) (hq : noise.getLast? ≠ some true)
    (hlen : noise.length ≤ 1000000) :
    ∃ outs, pollRun (necDecoder t Mono.u32 (necTable 48000) Infrared.nec) id noise = some outs ∧
      ∃ x : List (Res NecCommand), (x = [] ∨ x = [.error .data]) ∧
      (pollRun (necDecoder t Mono.u32 (necTable 48000) Infrared.nec) id
        (noise ++ polled 1000000000 48000 phase
          ((true, 20000000) :: series NecItem.wire (slowNec 0xE31CFF00 0x00FF00FF)) 600000)).map said =
      some (said outs ++ (x ++ oks [{ addr := 0x00, cmd := 0x1C, rep := false },
        { addr := 0x00, cmd := 0x1C, rep := true }, { addr := 0xFF, cmd := 0xFF, rep := false }])) := by
  have hr : reading 1000000000 48000 phase 20000000 = 960 := by unfold reading; omega
  obtain ⟨outs, h1, last, x, h2, h3⟩ := C82_nec t 48000 (by decide) (by decide) Infrared.nec (.inl rfl) _
    (necSpans_standard (.inl rfl) t (by decide) _ rfl) id 1000000000 (by decide) phase 20000000 (by decide) noise hq
    (by rw [hr]; omega) (slowNec 0xE31CFF00 0x00FF00FF) (fun i hi => by
      simp only [slowNec, List.mem_cons, List.not_mem_nil, or_false] at hi
      rcases hi with rfl | rfl | rfl
      · exact ⟨nearPeriods_zip (by decide +kernel), by decide, by decide⟩
      · exact ⟨⟨by decide, by decide⟩, by decide, by decide⟩
      · exact ⟨nearPeriods_zip (by decide +kernel), by decide, by decide⟩)
    (by decide +kernel) (by decide +kernel) 600000 (by
      have hd : duration ((true, 20000000) :: series NecItem.wire (slowNec 0xE31CFF00 0x00FF00FF)) ≤ 11000000000 := by
        decide +kernel
      unfold reading
      omega)
  exact ⟨outs, h1, x, h2, h3⟩

/-- Noise that makes the receiver report an error, ending quiet. -/
example : (pollRun (necDecoder ⟨true, 32⟩ Mono.u32 (necTable 20000) Infrared.nec) id
      ([false] ++ List.replicate 180 true ++ List.replicate 90 false ++ List.replicate 30 true ++ [false, true,
        false])).map said =
    some [.error .data] := by
  decide +kernel

/-- One SBP transmission after any noise: the hypotheses about the transmission are met. -/
example (t : Target) (phase : Nat) (hp : phase < 1000000000) (noise : List Bool) (hq : noise.getLast? ≠ some true)
    (hlen : noise.length ≤ 1000000) :
    ∃ outs, pollRun (sbpDecoder t Mono.u32 (sbpTable 40000)) id noise = some outs ∧
      ∃ x : List (Res SbpCommand), (x = [] ∨ ∃ e, x = [.error e]) ∧
      (pollRun (sbpDecoder t Mono.u32 (sbpTable 40000)) id
        (noise ++ polled 1000000000 40000 phase ((true, 20000000) ::
          series (fun i : BitVec 16 × BitVec 20 × List (Nat × Nat) => i.2.2)
            [((0x1234#16, 0xABCDE#20, jittered 1030 (sbpPeriods 0x1234#16 0xABCDE#20)), (500000, 20000000))])
          10000)).map said =
      some (said outs ++ (x ++ oks [SbpCommand.unpack 0x1234#16 0xABCDE#32])) := by
  have hr : reading 1000000000 40000 phase 20000000 = 800 := by unfold reading; omega
  exact C82_sbp t 40000 (by decide) (by decide) _ (sbpSpans_eq (.inl rfl) t (by decide)) id 1000000000 (by decide)
    phase 20000000 (by decide) noise hq (by rw [hr]; omega)
    [((0x1234#16, 0xABCDE#20, jittered 1030 (sbpPeriods 0x1234#16 0xABCDE#20)), (500000, 20000000))] (fun i hi => by
      simp only [List.mem_cons, List.not_mem_nil, or_false] at hi
      subst hi
      exact ⟨nearPeriods_zip (by decide +kernel), by decide, by decide⟩)
    (by decide +kernel) (by decide +kernel) 10000 (by
      have hd : duration ((true, 20000000) :: series (fun i : BitVec 16 × BitVec 20 × List (Nat × Nat) => i.2.2)
          [((0x1234#16, 0xABCDE#20, jittered 1030 (sbpPeriods 0x1234#16 0xABCDE#20)), (500000, 20000000))]) ≤
          200000000 := by
        decide +kernel
      unfold reading
      omega)

/-- One Denon transmission after any noise. -/
example (t : Target) (phase : Nat) (hp : phase < 1000000000) (noise : List Bool) (hq : noise.getLast? ≠ some true)
    (hlen : noise.length ≤ 1000000) :
    ∃ outs, pollRun (denonDecoder t Mono.u32 (denonTable 40000)) id noise = some outs ∧
      ∃ stale : BitVec 64,
      (pollRun (denonDecoder t Mono.u32 (denonTable 40000)) id
        (noise ++ polled 1000000000 40000 phase ((true, 20000000) ::
          series (fun i : BitVec 48 × List (Nat × Nat) => i.2)
            [((0x123456789ABC#48, jittered 1030 (denonPeriods 0x123456789ABC#48)), (400000, 20000000))])
          10000)).map said =
      some (said outs ++ oks (denonHeard stale [0x123456789ABC#48])) := by
  have hr : reading 1000000000 40000 phase 20000000 = 800 := by unfold reading; omega
  obtain ⟨outs, h1, stale, h2⟩ := C82_denon t 40000 (by decide) (by decide) _ (denonSpans_eq (.inl rfl) t (by decide)) id
    1000000000 (by decide) phase 20000000 (by decide) noise hq (by rw [hr]; omega)
    [((0x123456789ABC#48, jittered 1030 (denonPeriods 0x123456789ABC#48)), (400000, 20000000))] (fun i hi => by
      simp only [List.mem_cons, List.not_mem_nil, or_false] at hi
      subst hi
      exact ⟨nearPeriods_zip (by decide +kernel), by decide, by decide⟩)
    (by decide +kernel) (by decide +kernel) 10000 (by
      have hd : duration ((true, 20000000) :: series (fun i : BitVec 48 × List (Nat × Nat) => i.2)
          [((0x123456789ABC#48, jittered 1030 (denonPeriods 0x123456789ABC#48)), (400000, 20000000))]) ≤
          200000000 := by
        decide +kernel
      unfold reading
      omega)
  refine ⟨outs, h1, stale, ?_⟩
  rw [h2, List.map_id]
  rfl

/-- The RC5 transmission of C65's example after any noise and 20 ms of quiet. -/
def lateRc5 (w : BitVec 14) : List (Bool × Nat) :=
  (true, 20000000) :: (slowRc5 w).tail

example (t : Target) (hus : 24 ≤ t.usizeBits) (phase : Nat) (hp : phase < 1000000000) (noise : List Bool)
    (hq : noise.getLast? ≠ some true) (hlen : noise.length ≤ 1000000) :
    ∃ outs, pollRun (rc5Decoder t (rc5Table 40000)) id noise = some outs ∧
      (pollRun (rc5Decoder t (rc5Table 40000)) id
        (noise ++ polled 1000000000 40000 phase (withTail (lateRc5 0x3175#14) (some 889000)) 20000)).map said =
      some (said outs ++ oks [⟨5, 53, 3, false⟩]) := by
  have hr : reading 1000000000 40000 phase 20000000 = 800 := by unfold reading; omega
  have h24 : 2 ^ 24 ≤ 2 ^ t.usizeBits := Nat.pow_le_pow_right (by decide) hus
  refine C82_rc5 t (by omega) 40000 (by decide) (by decide) _ (rc5Spans_eq (.inl rfl) t (by decide)) id
    1000000000 (by decide) phase [(0x3175#14, lateRc5 0x3175#14, some 889000)] ?_ 20000000
    (withTail (lateRc5 0x3175#14) (some 889000)).tail (by decide +kernel) (by decide +kernel) (by decide)
    (by decide +kernel) (by decide +kernel) noise hq (by rw [hr]; omega) (.inr (by omega)) 20000 ?_
  · intro i hi
    have : i = (0x3175#14, lateRc5 0x3175#14, some 889000) := by simpa using hi
    subst this
    refine ⟨by decide, ?_⟩
    dsimp only
    rw [lateRc5, slowRc5, rc5Edges_eq _ (by decide)]
    exact ⟨_, _, _, _, rfl, rfl, timed_scaled 1040 5 889 (fun n => by unfold Near; omega) _⟩
  · have hd : duration ((true, 20000000) :: (withTail (lateRc5 0x3175#14) (some 889000)).tail) ≤ 100000000 := by
      decide +kernel
    unfold reading
    omega

/-- An RC6 transmission after any noise and 20 ms of quiet. -/
def lateRc6 (c : Rc6Command) : List (Bool × Nat) :=
  (true, 20000000) :: ((rc6Edges (c.addr ++ c.cmd) c.toggle).map fun e => (e.1, 1040 * (444 * e.2))).tail

example (t : Target) (hus : 24 ≤ t.usizeBits) (phase : Nat) (hp : phase < 1000000000) (noise : List Bool)
    (hq : noise.getLast? ≠ some true) (hlen : noise.length ≤ 1000000) :
    ∃ outs, pollRun (rc6Decoder t (rc6Table 80000)) id noise = some outs ∧
      (pollRun (rc6Decoder t (rc6Table 80000)) id
        (noise ++ polled 1000000000 80000 phase (withTail (lateRc6 ⟨7, 76, false⟩) (some 444000)) 20000)).map said =
      some (said outs ++ oks [⟨7, 76, false⟩]) := by
  have hr : reading 1000000000 80000 phase 20000000 = 1600 := by unfold reading; omega
  have h24 : 2 ^ 24 ≤ 2 ^ t.usizeBits := Nat.pow_le_pow_right (by decide) hus
  refine C82_rc6 t (by omega) 80000 (by decide) (by decide) _ (rc6Spans_eq (.inl rfl) t (by decide)) id
    1000000000 (by decide) phase [(⟨7, 76, false⟩, lateRc6 ⟨7, 76, false⟩, some 444000)] ?_ 20000000
    (withTail (lateRc6 ⟨7, 76, false⟩) (some 444000)).tail (by decide +kernel) (by decide +kernel) (by decide)
    (by decide +kernel) (by decide +kernel) noise hq (by rw [hr]; omega) (.inr (by omega)) 20000 ?_
  · intro i hi
    have : i = (⟨7, 76, false⟩, lateRc6 ⟨7, 76, false⟩, some 444000) := by simpa using hi
    subst this
    dsimp only
    rw [lateRc6, rc6Edges, rc6Edges_eq 0 (.inl rfl)]
    exact ⟨_, _, _, _, rfl, rfl, timed_scaled 1040 5 444 (fun n => by unfold Near; omega) _⟩
  · have hd : duration ((true, 20000000) :: (withTail (lateRc6 ⟨7, 76, false⟩) (some 444000)).tail) ≤ 100000000 := by
      decide +kernel
    unfold reading
    omega

end Infrared
