import Verif.Props.Broken
import Verif.Spec.Swallow

/-!
# The sender heard through a module that swallows short pulses (C101)
-/

namespace Infrared

open Spec

variable {C K : Type}

/-! ## What comes through -/

theorem swallow_length (n run : Nat) (ls : List Bool) : (swallow n run ls).length = run + ls.length := by
  induction ls generalizing run with
  | nil => simp [swallow]
  | cons l ls ih => cases l <;> simp only [swallow, List.length_append, List.length_replicate, List.length_cons, ih] <;> omega

theorem swallow_mark (n run m : Nat) (ls : List Bool) :
    swallow n run (List.replicate m true ++ ls) = swallow n (run + m) ls := by
  induction m generalizing run with
  | zero => rfl
  | succ m ih => rw [List.replicate_succ, List.cons_append, swallow, ih, show run + 1 + m = run + (m + 1) by omega]

theorem swallow_space (n m : Nat) (ls : List Bool) :
    swallow n 0 (List.replicate m false ++ ls) = List.replicate m false ++ swallow n 0 ls := by
  induction m with
  | zero => rfl
  | succ m ih => rw [List.replicate_succ, List.cons_append, swallow, ih]; rfl

/-- The pin during pulses. -/
def pairLevels (ps : List (Nat × Nat)) : List Bool :=
  ps.flatMap fun p => List.replicate p.1 true ++ List.replicate p.2 false

theorem pairLevels_append (a b : List (Nat × Nat)) : pairLevels (a ++ b) = pairLevels a ++ pairLevels b := by
  simp [pairLevels]

theorem swallow_pair (n m s : Nat) (hs : 0 < s) (ls : List Bool) :
    swallow n 0 (List.replicate m true ++ List.replicate s false ++ ls) =
      List.replicate m (decide (n ≤ m)) ++ List.replicate s false ++ swallow n 0 ls := by
  obtain ⟨s, rfl⟩ : ∃ k, s = k + 1 := ⟨s - 1, by omega⟩
  rw [List.append_assoc, swallow_mark, Nat.zero_add, List.replicate_succ, List.cons_append, swallow, swallow_space]
  simp

theorem swallow_long (n : Nat) (ps : List (Nat × Nat)) (hps : ∀ p ∈ ps, n ≤ p.1 ∧ 0 < p.2) (ls : List Bool) :
    swallow n 0 (pairLevels ps ++ ls) = pairLevels ps ++ swallow n 0 ls := by
  induction ps with
  | nil => rfl
  | cons p ps ih =>
    have h := hps p (by simp)
    have h' := ih fun q hq => hps q (by simp [hq])
    rw [pairLevels] at h' ⊢
    rw [List.flatMap_cons, List.append_assoc, swallow_pair n _ _ h.2, decide_eq_true h.1, h']
    simp only [List.append_assoc]

theorem swallow_short (n : Nat) (ps : List (Nat × Nat)) (hps : ∀ p ∈ ps, p.1 < n ∧ 0 < p.2) (ls : List Bool) :
    swallow n 0 (pairLevels ps ++ ls) = List.replicate (span ps) false ++ swallow n 0 ls := by
  induction ps with
  | nil => rfl
  | cons p ps ih =>
    have h := hps p (by simp)
    rw [pairLevels, List.flatMap_cons, List.append_assoc, swallow_pair n _ _ h.2, decide_eq_false (by omega),
      List.replicate_append_replicate]
    refine (congrArg _ (ih fun q hq => hps q (by simp [hq]))).trans ?_
    rw [← List.append_assoc, List.replicate_append_replicate]
    rfl

/-- The pin during a command: its pulses, the last mark, and silence. -/
theorem chunk_pairs (ps : List (Nat × Nat)) (hps : ∀ p ∈ ps, 0 < p.1 ∧ 0 < p.2) (g : Nat) :
    chunkLevels (ps, g) = pairLevels (ps ++ [(1, g)]) := by
  rw [chunkLevels, transmission, List.replicate_zero, List.nil_append]
  induction ps with
  | nil => simp [flat, heldLevels, pairLevels]
  | cons p ps ih =>
    have h := hps p (by simp)
    have := ih fun q hq => hps q (by simp [hq])
    rw [List.cons_append, pairLevels, List.flatMap_cons]
    rw [pairLevels] at this
    rw [← this]
    simp only [flat, List.flatMap_cons, List.cons_append, List.nil_append, heldLevels, Nat.max_eq_left h.1,
      Nat.max_eq_left h.2, Bool.not_true, Bool.not_false, List.append_assoc]

/-- The edges of pulses that are followed by silence. -/
theorem pair_edges (A : List (Nat × Nat)) (hA : ∀ p ∈ A, 0 < p.1 ∧ 0 < p.2) (h l n : Nat) (hh : 0 < h) (hl : 0 < l) :
    edgesFrom false n (pairLevels (A ++ [(h, l)])) = (true, n) :: (pulses A ++ [(false, h)]) := by
  have key : ∀ (m s n : Nat) (ls : List Bool), 0 < m → 0 < s →
      edgesFrom false n (List.replicate m true ++ (List.replicate s false ++ ls)) =
        (true, n) :: (false, m) :: edgesFrom false s ls := by
    intro m s n ls hm hs
    obtain ⟨m, rfl⟩ : ∃ k, m = k + 1 := ⟨m - 1, by omega⟩
    obtain ⟨s, rfl⟩ : ∃ k, s = k + 1 := ⟨s - 1, by omega⟩
    rw [List.replicate_succ, List.cons_append, edgesFrom, if_neg (by simp), edgesFrom_replicate, List.replicate_succ,
      List.cons_append, edgesFrom, if_neg (by simp), edgesFrom_replicate, Nat.add_comm 1 m, Nat.add_comm 1 s]
  induction A generalizing n with
  | nil =>
    have := key h l n [] hh hl
    simpa [pairLevels, pulses, edgesFrom] using this
  | cons p A ih =>
    have hp := hA p (by simp)
    rw [List.cons_append, pairLevels, List.flatMap_cons, List.append_assoc, key _ _ _ _ hp.1 hp.2]
    have := ih (fun q hq => hA q (by simp [hq])) p.2
    rw [pairLevels] at this
    rw [this]
    rfl

/-! ## What the receiver makes of it -/

/-- Of an idle frame's 33 periods the last one is lost: the frame breaks off after 32. -/
theorem necFrame_take {tbl : PulseSpans} {w : BitVec 32} {ps : List (Nat × Nat)} (h : NecFrame tbl w ps) (k : Nat) :
    Matches tbl (NecSent.slots (.frame w k)) (ps.take k) := by
  refine ⟨by simp [NecSent.slots, necSlots, h.len], fun i p s hp hs => ?_⟩
  rw [NecSent.slots, List.getElem?_take] at hs
  rw [List.getElem?_take] at hp
  split at hs
  · rename_i hi
    rw [if_pos hi] at hp
    rcases i with _ | i
    · simp only [necSlots, List.getElem?_cons_zero, Option.some.injEq] at hs
      subst hs
      exact h.sync p hp
    · simp only [necSlots, List.getElem?_cons_succ, List.getElem?_map] at hs
      rcases hr : (List.range 32)[i]? with _ | x
      · simp [hr] at hs
      · rw [hr] at hs
        obtain ⟨hlt, hx⟩ := List.getElem?_eq_some_iff.mp hr
        rw [List.getElem_range] at hx
        simp only [Option.map_some, Option.some.injEq] at hs
        subst hs hx
        exact h.bits i p hp
  · cases hs

/-- A frame that is still going on is not answered. -/
theorem parse_unfinished (unpack : BitVec 32 → Bool → Option C) (last : BitVec 32) (bs : List Bool) (hb : bs.length < 32) :
    necParse unpack last (some 0 :: bs.map bitSym) = [] := by
  have hl := leadingBits_known 2 3 (by decide) bs [] (32 - bs.length)
  rw [List.append_nil, show bs.length + (32 - bs.length) = 32 by omega] at hl
  have hnil : leadingBits 2 3 (32 - bs.length) [] = [] := by cases 32 - bs.length <;> rfl
  rw [hnil, List.append_nil] at hl
  rw [necParse, if_pos rfl]
  dsimp only
  unfold bitSym
  rw [hl, if_neg (by omega), if_pos (by simp)]

/-- A series of transmissions, then one that is still going on after 32 of its 33 periods and ends in silence. -/
theorem nec_unfinished (t : Target) (m : Mono) (hm : m = Mono.u32 ∨ m = Mono.u64) {f : Nat} (hlo : 20000 ≤ f)
    (hf : f < 2 ^ 32) (v : NecVariant C) (hv : v.Shipped) {tbl : PulseSpans} (htbl : necSpans t m v f = some tbl)
    (conv : C → K) {u phase : Nat} (t0 g : Nat) (hg : Pause tbl m.width [0, 1] (0, g))
    (items : List ((NecSent × List (Nat × Nat)) × (Nat × Nat)))
    (hH : Heard tbl m.width 4 u f phase NecSent.slots items) (w : BitVec 32) (ps : List (Nat × Nat))
    (hps : ∀ t, Matches tbl (NecSent.slots (.frame w 32)) (clockedPulses u f phase t ps)) (y : Nat) :
    (results (necDecoder t m tbl v) conv
        ((true, g) :: (clocked u f phase t0 (pulses (allPulses items ++ ps)) ++ [(false, y)]))).map said =
      some ((told (necAnswer v.unpack) 0 (items.map fun i => i.1.1)).map (Res.map conv)) := by
  obtain ⟨hun, hfit⟩ := necSpans_good hm t hlo hf v hv htbl
  have hlt : ∀ q ∈ clockedPulses u f phase t0 (allPulses items ++ ps), q.1 + q.2 < 2 ^ m.width := by
    intro q hq
    rw [clockedPulses_append, List.mem_append] at hq
    rcases hq with hq | hq
    · exact heard_lt hH hfit t0 q hq
    · have h1 := hps (t0 + span (allPulses items))
      obtain ⟨k, hk⟩ := List.mem_iff_getElem?.mp hq
      have hl := (List.getElem?_eq_some_iff.mp hk).1
      rw [h1.1] at hl
      exact inTol_lt hfit (h1.2 k q _ hk (List.getElem?_eq_getElem hl))
  have hgw : g < 2 ^ m.width := by simpa using hg.1
  have hsum : ∀ (evs : List Ev) (s : Nat), sumsFrom s (evs ++ [(false, y)]) = sumsFrom s evs := by
    intro evs
    induction evs with
    | nil => intro s; rfl
    | cons e es ih => obtain ⟨_ | _, d⟩ := e <;> intro s <;> simp [sumsFrom, ih]
  have hper : ∀ evs : List Ev, symbols m.width tbl (evs ++ [(false, y)]) = symbols m.width tbl evs := by
    intro evs
    rw [symbols, symbols, periods, periods, periodsFrom_append]
    simp [periodsFrom]
  rw [clocked_pulses, ← List.cons_append]
  rcases hr : results (necDecoder t m tbl v) conv
      (((true, g) :: pulses (clockedPulses u f phase t0 (allPulses items ++ ps))) ++ [(false, y)]) with _ | outs
  · refine absurd ((C30_nec_panics_iff t m hm tbl v conv _).mp hr).2 ?_
    rw [sums, hsum]
    exact pulses_small hgw hlt
  · have htail : ((NecSent.slots (.frame w 32)).map some : List (Option Nat)) =
        some 0 :: (((List.range 32).map w.getLsbD).take 31).map bitSym := by
      rw [NecSent.slots, necSlots, List.take_succ_cons, List.map_cons, ← List.map_take, ← List.map_take, List.map_map,
        List.map_map]
      rfl
    have hp := heard_parse (n := 4) (tbl := tbl) hun NecSent.slots_lt
      (fun st l => necParse v.unpack st (l ++ (NecSent.slots (.frame w 32)).map some)) (necAnswer v.unpack)
      (fun st => by
        rw [List.nil_append, htail, parse_unfinished _ _ _ (by simp)])
      (fun st s d ss hd => by
        rw [List.append_assoc, List.cons_append]
        exact nec_step v.unpack st s d _ hd) items hH t0 0
    rw [Option.map_some, C67_nec t m (Mono.prim_lawful hm) tbl v conv _ outs hr, hper, pulses_symbols tbl hgw hlt,
      necParse_skip, clockedPulses_append, List.map_append, matches_symbols hun (NecSent.slots_lt _) (hps _)]
    · exact congrArg (fun x => some (List.map (Res.map conv) x)) hp
    · exact fun h => hg.2 0 (by simp) (by simpa using get_inTol h)
    · exact fun h => hg.2 1 (by simp) (by simpa using get_inTol h)

/-! ## The sender -/

/-- What is left of the last period of a command and everything after it. -/
def lostTail (data : NecData) (k : Nat) (w : BitVec 32) (n : Nat) : Nat × Nat :=
  (data.dataHigh, (if w.getLsbD 31 then data.dataOneLow else data.dataZeroLow) +
    (2 * (k / 2) + (1 + (necChunk data k w n).2)))

/-- The command as it comes through: the first 32 periods of its frame, and the rest. -/
def lostItem (data : NecData) (k : Nat) (w : BitVec 32) (n : Nat) : (NecSent × List (Nat × Nat)) × (Nat × Nat) :=
  ((.frame w 32, (necPairs data.headerHigh data.headerLow data.dataHigh data.dataZeroLow data.dataOneLow w).take 32),
    lostTail data k w n)

theorem necPairs_last (hm hs mk z o : Nat) (w : BitVec 32) :
    necPairs hm hs mk z o w = (necPairs hm hs mk z o w).take 32 ++ [(mk, if w.getLsbD 31 then o else z)] := by
  have : necPairs hm hs mk z o w = ((hm, hs) :: (List.range 31).map fun i => (mk, if w.getLsbD i then o else z)) ++
      [(mk, if w.getLsbD 31 then o else z)] := by
    rw [necPairs, List.range_succ, List.map_append]
    rfl
  rw [this, List.take_left' (by simp)]

theorem lost_pairs {r : Nat} (hr : 2 ≤ r) (ps : List (Nat × Nat)) (m s k g : Nat)
    (hlong : ∀ p ∈ ps ++ [(m, s)], r ≤ p.1 ∧ 0 < p.2) (hg : 0 < g) (ls : List Bool) :
    swallow r 0 (chunkLevels (ps ++ [(m, s)] ++ List.replicate (k / 2) (1, 1), g) ++ ls) =
      pairLevels (ps ++ [(m, s + (2 * (k / 2) + (1 + g)))]) ++ swallow r 0 ls := by
  have hshort : ∀ p ∈ List.replicate (k / 2) (1, 1) ++ [(1, g)], p.1 < r ∧ 0 < p.2 := by
    intro p hp
    rcases List.mem_append.mp hp with hp | hp
    · rw [List.eq_of_mem_replicate hp]; exact ⟨by simp only; omega, Nat.one_pos⟩
    · rw [List.mem_singleton.mp hp]; exact ⟨by simp only; omega, hg⟩
  rw [chunk_pairs _ (by
      intro p hp
      rcases List.mem_append.mp hp with hp | hp
      · have := hlong p hp; omega
      · rw [List.eq_of_mem_replicate hp]; decide), List.append_assoc, pairLevels_append, List.append_assoc,
    swallow_long r _ hlong, swallow_short r _ hshort, span_append, span_ones, pairLevels_append, pairLevels_append]
  simp only [List.append_assoc]
  congr 1
  simp [pairLevels, span, ← List.append_assoc, ← List.replicate_append_replicate]

theorem nec_marks {v : NecVariant C} (hv : v.Shipped) {fs : Nat} (hfs : 14000 ≤ fs) {data : NecData}
    (hdata : necData v.pulseDistance fs = some data) : data.dataHigh ≤ data.headerHigh := by
  have h := hdata
  unfold necData at h
  simp only [Option.bind_eq_bind, Option.bind_eq_some_iff, Option.some.injEq] at h
  obtain ⟨a, ha, b, hb, c, hc, d, hd, e, he, g, hg, rfl⟩ := h
  obtain ⟨ha, -⟩ := calcTicks_eq (by omega) ha
  obtain ⟨hd, -⟩ := calcTicks_eq (by omega) hd
  rcases hv with hv | hv <;> rw [hv] at ha hd <;> simp only [necStandardTiming, necSamsungTiming] at ha hd ⊢ <;> omega

theorem lost_chunk {v : NecVariant C} (hv : v.Shipped) {fs : Nat} (hfs : 14000 ≤ fs) {data : NecData}
    (hdata : necData v.pulseDistance fs = some data) {r : Nat} (hr : 2 ≤ r) (hd : r ≤ data.dataHigh) (k : Nat)
    (w : BitVec 32) (n : Nat) (hg : 0 < (necChunk data k w n).2) (ls : List Bool) :
    swallow r 0 (chunkLevels (necChunk data k w n) ++ ls) =
      pairLevels ((lostItem data k w n).1.2 ++ [(lostItem data k w n).2]) ++ swallow r 0 ls := by
  have hpos := necPairs_pos hfs hdata hv w
  have hhead := nec_marks hv hfs hdata
  have hlong : ∀ p ∈ necPairs data.headerHigh data.headerLow data.dataHigh data.dataZeroLow data.dataOneLow w,
      r ≤ p.1 ∧ 0 < p.2 := by
    intro p hp
    refine ⟨?_, (hpos p hp).2.1⟩
    rcases List.mem_cons.mp hp with rfl | hp
    · exact Nat.le_trans hd hhead
    · obtain ⟨i, -, rfl⟩ := List.mem_map.mp hp
      exact hd
  have hl := necPairs_last data.headerHigh data.headerLow data.dataHigh data.dataZeroLow data.dataOneLow w
  have hc : necChunk data k w n = (necPairs data.headerHigh data.headerLow data.dataHigh data.dataZeroLow data.dataOneLow w ++
      List.replicate (k / 2) (1, 1), (necChunk data k w n).2) := rfl
  rw [lostItem, lostTail]
  generalize (necChunk data k w n).2 = g at *
  rw [hc]
  clear hc
  dsimp only
  generalize necPairs data.headerHigh data.headerLow data.dataHigh data.dataZeroLow data.dataOneLow w = ps at *
  generalize hq : ps.take 32 = qs at *
  rw [hl] at hlong ⊢
  exact lost_pairs hr qs _ _ k g hlong hg ls

theorem lost_session {v : NecVariant C} (hv : v.Shipped) {fs : Nat} (hfs : 14000 ≤ fs) {data : NecData}
    (hdata : necData v.pulseDistance fs = some data) {r : Nat} (hr : 2 ≤ r) (hd : r ≤ data.dataHigh) (k : Nat)
    (ws : List (BitVec 32 × Nat)) (hg : ∀ x ∈ ws, 0 < (necChunk data k x.1 x.2).2) :
    swallow r 0 ((ws.map fun x => necChunk data k x.1 x.2).flatMap chunkLevels) =
      pairLevels (allPulses (ws.map fun x => lostItem data k x.1 x.2)) := by
  induction ws with
  | nil => rfl
  | cons x ws ih =>
    rw [List.map_cons, List.flatMap_cons, lost_chunk hv hfs hdata hr hd k x.1 x.2 (hg x (by simp)),
      ih fun y hy => hg y (by simp [hy]), ← pairLevels_append]
    rfl

theorem pairLevels_length (ps : List (Nat × Nat)) : (pairLevels ps).length = span ps := by
  induction ps with
  | nil => rfl
  | cons p ps ih =>
    simp only [pairLevels, span, List.flatMap_cons, List.length_append, List.length_replicate, List.map_cons,
      List.sum_cons] at ih ⊢
    omega

theorem lost_tail {v : NecVariant C} (hv : v.Shipped) {fs : Nat} (hfs : 14000 ≤ fs) {data : NecData}
    (hdata : necData v.pulseDistance fs = some data) (k : Nat) (x : BitVec 32 × Nat)
    (hx : 108 * fs + 1000 * k ≤ 1000 * x.2) :
    (0 < (lostItem data k x.1 x.2).2.1 ∧ 0 < (lostItem data k x.1 x.2).2.2) ∧
      span (lostItem data k x.1 x.2).1.2 + ((lostItem data k x.1 x.2).2.1 + (lostItem data k x.1 x.2).2.2) = x.2 ∧
      16000 * fs ≤ 1000000 * ((lostItem data k x.1 x.2).2.1 + (lostItem data k x.1 x.2).2.2) ∧
      0 < (necChunk data k x.1 x.2).2 := by
  have h2 := necPairs_span hfs hdata hv x.1
  have h0 := (necData_pos hfs hdata hv).2.2.1.1
  have hl := necPairs_last data.headerHigh data.headerLow data.dataHigh data.dataZeroLow data.dataOneLow x.1
  have hc : (necChunk data k x.1 x.2).2 = x.2 - (span (necPairs data.headerHigh data.headerLow data.dataHigh
      data.dataZeroLow data.dataOneLow x.1 ++ List.replicate (k / 2) (1, 1)) + 1) := rfl
  rw [span_append, span_ones] at hc
  rw [lostItem, lostTail]
  dsimp only
  generalize (necChunk data k x.1 x.2).2 = g at *
  generalize necPairs data.headerHigh data.headerLow data.dataHigh data.dataZeroLow data.dataOneLow x.1 = ps at *
  generalize ps.take 32 = qs at *
  generalize (if x.1.getLsbD 31 then data.dataOneLow else data.dataZeroLow) = sp at *
  have h3 : span ps = span qs + (data.dataHigh + sp) := by
    rw [hl, span_append]; rfl
  omega

theorem lost_within {v : NecVariant C} (hv : v.Shipped) {fs : Nat} (hfs : 14000 ≤ fs) {data : NecData}
    (hdata : necData v.pulseDistance fs = some data) (k : Nat) (x : BitVec 32 × Nat)
    (hx : 108 * fs + 1000 * k ≤ 1000 * x.2) :
    ∀ p ∈ (lostItem data k x.1 x.2).1.2 ++ [(lostItem data k x.1 x.2).2], 0 < p.1 ∧ 0 < p.2 ∧ p.1 + p.2 ≤ x.2 := by
  intro p hp
  obtain ⟨h1, h2, -⟩ := lost_tail hv hfs hdata k x hx
  rcases List.mem_append.mp hp with hp | hp
  · have h3 := le_span hp
    have h4 := necPairs_pos hfs hdata hv x.1 p (List.mem_of_mem_take hp)
    exact ⟨h4.1.1, h4.2.1, by omega⟩
  · rw [List.mem_singleton.mp hp]
    exact ⟨h1.1, h1.2, by omega⟩

theorem lost_length {v : NecVariant C} (hv : v.Shipped) {fs : Nat} (hfs : 14000 ≤ fs) {data : NecData}
    (hdata : necData v.pulseDistance fs = some data) (k : Nat) (ws : List (BitVec 32 × Nat))
    (hws : ∀ x ∈ ws, 108 * fs + 1000 * k ≤ 1000 * x.2) :
    (pairLevels (allPulses (ws.map fun x => lostItem data k x.1 x.2))).length = (ws.map Prod.snd).sum := by
  induction ws with
  | nil => rfl
  | cons x ws ih =>
    have h := ih fun y hy => hws y (by simp [hy])
    have hx := (lost_tail hv hfs hdata k x (hws x (by simp))).2.1
    rw [pairLevels_length] at h ⊢
    rw [allPulses] at h
    rw [List.map_cons, allPulses, List.flatMap_cons, span_append, h, List.map_cons, List.sum_cons, span_append]
    generalize lostItem data k x.1 x.2 = i at *
    simp only [span, List.map_cons, List.map_nil, List.sum_cons, List.sum_nil, Nat.add_zero] at hx ⊢
    omega

theorem lost_matches {t : Target} {fs : Nat} (hfs : 21000 ≤ fs ∨ (20000 ≤ fs ∧ fs % 1000 = 0)) {f : Nat} (hle : fs ≤ f)
    (hf : f < 2 ^ 32) {v : NecVariant C} (hv : v.Shipped) {data : NecData}
    (hdata : necData v.pulseDistance fs = some data) {tbl : PulseSpans} (htbl : necSpans t Mono.u32 v f = some tbl)
    (k : Nat) (x : BitVec 32) (n phase t0 : Nat) :
    Matches tbl (NecSent.slots (lostItem data k x n).1.1) (clockedPulses fs f phase t0 (lostItem data k x n).1.2) := by
  have h := necFrame_take (necFrame_of_between (by omega) (.inl rfl) (by omega) hf hv htbl
    (necPairs_limits hfs hv hdata x) phase t0) 32
  rw [necPairs_last, clockedPulses_append, List.take_left' (by
    rw [clockedPulses_length]; simp [necPairs])] at h
  exact h

theorem lost_told (unpack : BitVec 32 → Bool → Option C) (conv : C → K) (data : NecData) (k : Nat)
    (ws : List (BitVec 32 × Nat)) (last : BitVec 32) :
    (told (necAnswer unpack) last ((ws.map fun x => lostItem data k x.1 x.2).map fun i => i.1.1)).map (Res.map conv) =
      List.replicate ws.length (.error .data) := by
  induction ws generalizing last with
  | nil => rfl
  | cons x ws ih =>
    rw [List.length_cons, List.replicate_succ, ← ih (firstBits 31 x.1)]
    rfl

attribute [local irreducible] lostItem necChunk

/-- **C101**: the sender and the receiver of C57, with a module between them that swallows marks of fewer than `r` ticks
(two or more, and no more than the marks of the bits last).  However many commands are sent, none is ever reported: the
receiver answers each with an error once the next one begins, and does not answer the last one at all. -/
theorem C101_nec (t : Target) (fs : Nat)
    (hfs : 21000 ≤ fs ∨ (20000 ≤ fs ∧ fs % 1000 = 0)) (f : Nat) (hle : fs ≤ f) (hf : f < 2 ^ 32)
    (v : NecVariant C) (hv : v.Shipped) (data : NecData) (hdata : necData v.pulseDistance fs = some data)
    (r : Nat) (hr : 2 ≤ r) (hd : r ≤ data.dataHigh)
    (tbl : PulseSpans) (htbl : necSpans t Mono.u32 v f = some tbl) (conv : C → K)
    (cmds : List (C × Nat)) (hcmds : ∀ x ∈ cmds, ∃ w, v.pack x.1 = some w)
    (s : Sender) (hidle : s.buffer.status = .idle) (k : Nat) (hlen : s.buffer.ptb.buf.length = 67 + k)
    (hz : s.buffer.ptb.buf.drop 67 = List.replicate k 0)
    (hticks : ∀ x ∈ cmds, 108 * fs + 1000 * k ≤ 1000 * x.2 ∧ x.2 * f / fs + 1 < 2 ^ 32) :
    ∃ s' levels, s.calls (session (necEncode v data) cmds) = some (s', levels) ∧
      s'.buffer.status = .idle ∧ ∀ pause phase n, phase < fs →
      Pause tbl 32 [0, 1] (0, reading fs f phase pause + 1) →
      reading fs f phase (pause + sessionTicks cmds) < n →
      (pollRun (necDecoder t Mono.u32 tbl v) conv (overhear fs f phase pause (swallow r 0 levels) n)).map said =
        some (List.replicate (cmds.length - 1) (.error .data)) := by
  have h14 : 14000 ≤ fs := by omega
  let w : C → BitVec 32 := fun c => (v.pack c).getD 0
  have hw : ∀ x ∈ cmds, v.pack x.1 = some (w x.1) := by
    intro x hx
    obtain ⟨y, h1⟩ := hcmds x hx
    simp only [w, h1, Option.getD_some]
  obtain ⟨s', hcalls, hid⟩ := session_calls hv h14 hdata w cmds hw (fun x hx => (hticks x hx).1) s hidle hlen hz
  refine ⟨s', _, hcalls, hid, fun pause phase n hphase hpause hn => ?_⟩
  let ws : List (BitVec 32 × Nat) := cmds.map fun x => (w x.1, x.2)
  have hlen : ws.length = cmds.length := by simp [ws]
  have hws : ∀ x ∈ ws, 108 * fs + 1000 * k ≤ 1000 * x.2 ∧ x.2 * f / fs + 1 < 2 ^ 32 := by
    intro x hx
    obtain ⟨y, hy, rfl⟩ := List.mem_map.mp hx
    exact hticks y hy
  have hsum : sessionTicks cmds = (ws.map Prod.snd).sum := by
    simp [sessionTicks, ws, Function.comp_def]
  have hmap : (cmds.map fun x => necChunk data k (w x.1) x.2) = ws.map fun x => necChunk data k x.1 x.2 := by
    simp [ws]
  rw [hmap, ← hlen]
  rw [hsum] at hn
  clear_value ws
  clear hmap hlen hsum hcalls hw hcmds hticks
  have hpos := fun x => necPairs_pos h14 hdata hv (x : BitVec 32)
  have htail := fun x hx => lost_tail hv h14 hdata k x (hws x hx).1
  have hpos32 := fun x hx => lost_within hv h14 hdata k x (hws x hx).1
  have hlev := lost_session hv h14 hdata hr hd k ws (fun x hx => (htail x hx).2.2.2)
  have hlength := lost_length hv h14 hdata k ws (fun x hx => (hws x hx).1)
  rw [overhear, hlev]
  rcases List.eq_nil_or_concat ws with rfl | ⟨init, z, rfl⟩
  · have : looked fs f phase (List.replicate pause false ++
        pairLevels (allPulses (([] : List (BitVec 32 × Nat)).map fun x => lostItem data k x.1 x.2))) n =
        List.replicate n false := by
      simp [looked, pairLevels, List.getD_eq_getElem?_getD, List.getElem?_replicate, List.eq_replicate_iff]
      intros
      split <;> rfl
    rw [this, C54_silent_line, Option.map_some, said_nones]
    rfl
  rw [List.concat_eq_append] at *
  have hzm : z ∈ init ++ [z] := by simp
  have hA : allPulses ((init ++ [z]).map fun x => lostItem data k x.1 x.2) =
      (allPulses (init.map fun x => lostItem data k x.1 x.2) ++ (lostItem data k z.1 z.2).1.2) ++
        [(lostItem data k z.1 z.2).2] := by
    simp [allPulses]
  generalize hAA : allPulses (init.map fun x => lostItem data k x.1 x.2) ++ (lostItem data k z.1 z.2).1.2 = A at hA
  have hAmem : ∀ p ∈ A, 0 < p.1 ∧ 0 < p.2 ∧ ∃ x ∈ init ++ [z], p.1 + p.2 ≤ x.2 := by
    intro p hp
    rw [← hAA] at hp
    rcases List.mem_append.mp hp with hp | hp
    · obtain ⟨i, hi, hp⟩ := List.mem_flatMap.mp hp
      obtain ⟨x, hx, rfl⟩ := List.mem_map.mp hi
      have hx' : x ∈ init ++ [z] := List.mem_append_left _ hx
      have := hpos32 x hx' p hp
      exact ⟨this.1, this.2.1, x, hx', this.2.2⟩
    · have := hpos32 z hzm p (List.mem_append_left _ hp)
      exact ⟨this.1, this.2.1, z, hzm, this.2.2⟩
  have hedges : edgesFrom false 0 (List.replicate pause false ++
      pairLevels (allPulses ((init ++ [z]).map fun x => lostItem data k x.1 x.2))) =
      (true, pause) :: (pulses A ++ [(false, (lostItem data k z.1 z.2).2.1)]) := by
    rw [edgesFrom_replicate, Nat.zero_add, hA]
    exact pair_edges A (fun p hp => ⟨(hAmem p hp).1, (hAmem p hp).2.1⟩) _ _ _ (htail z hzm).1.1 (htail z hzm).1.2
  have hbound : ∀ e ∈ pulses A ++ [(false, (lostItem data k z.1 z.2).2.1)], 1 ≤ e.2 ∧ e.2 * f / fs + 1 < 2 ^ 32 := by
    have key : ∀ y : Nat, ∀ x ∈ init ++ [z], y ≤ x.2 → y * f / fs + 1 < 2 ^ 32 := by
      intro y x hx hy
      have h1 := (hws x hx).2
      have h2 : y * f / fs ≤ x.2 * f / fs := Nat.div_le_div_right (Nat.mul_le_mul_right _ hy)
      omega
    intro e he
    rcases List.mem_append.mp he with he | he
    · obtain ⟨p, hp, h⟩ := mem_pulses he
      obtain ⟨h1, h2, x, hx, h3⟩ := hAmem p hp
      rcases h with h | h
      · rw [h]; exact ⟨h1, key _ x hx (by omega)⟩
      · rw [h]; exact ⟨h2, key _ x hx (by omega)⟩
    · rw [List.mem_singleton.mp he]
      have := htail z hzm
      exact ⟨this.1.1, key _ z hzm (by simp only; omega)⟩
  rw [C55_two_clocks_long _ conv fs (by omega) f (by omega) phase hphase _ ?_ true pause _ hedges ?_ n ?_ ?_
    (fun e he => (hbound e he).2)]
  · rw [clocked_append, clocked, clocked, ← hAA]
    have hfr := fun (x : BitVec 32 × Nat) t0 => lost_matches hfs hle hf hv hdata htbl k x.1 x.2 phase t0
    obtain ⟨kd, hk, he⟩ := nec_kind v hv
    have hb := htbl
    rw [he] at hb
    have hH : Heard tbl Mono.u32.width 4 fs f phase NecSent.slots (init.map fun x => lostItem data k x.1 x.2) := by
      intro i hi t'
      obtain ⟨x, hx, rfl⟩ := List.mem_map.mp hi
      have hx' : x ∈ init ++ [z] := List.mem_append_left _ hx
      refine ⟨hfr x t', prim_pause (.inl rfl) hf (by omega) (by omega) kd hb _ ?_ _ (htail x hx').2.2.1 ?_ t'⟩
      · intro y hy
        have := List.mem_range.mp hy
        have h4 : kd.symbols.length = 4 := by rcases hk with ⟨rfl, -⟩ | ⟨rfl, -⟩ <;> rfl
        omega
      · have h1 := (hws x hx').2
        have h2 := (htail x hx').2.1
        have h3 : (lostItem data k x.1 x.2).2.1 + (lostItem data k x.1 x.2).2.2 ≤ x.2 := by omega
        have h4 := Nat.mul_le_mul_right f h3
        have h5 := Nat.div_add_mod (x.2 * f) fs
        have h6 := Nat.mod_lt (x.2 * f) (show 0 < fs by omega)
        have h7 : fs * (x.2 * f / fs + 2) ≤ fs * 2 ^ 32 := Nat.mul_le_mul_left _ (by omega)
        rw [Nat.mul_add] at h7
        show ((lostItem data k x.1 x.2).2.1 + (lostItem data k x.1 x.2).2.2) * f + fs < 2 ^ 32 * fs
        rw [Nat.mul_comm (2 ^ 32)]
        omega
    have hz32 : ∀ t0, Matches tbl (NecSent.slots (.frame z.1 32)) (clockedPulses fs f phase t0 (lostItem data k z.1 z.2).1.2) := by
      intro t0
      have h := hfr z t0
      unfold lostItem at h ⊢
      exact h
    rw [hAA]
    have hmain := nec_unfinished t Mono.u32 (.inl rfl) (by omega) hf v hv htbl conv (phase := phase) pause _ hpause _ hH
      z.1 _ hz32 (reading fs f phase (pause + duration (pulses A) + (lostItem data k z.1 z.2).2.1) -
        reading fs f phase (pause + duration (pulses A)))
    rw [hAA] at hmain
    refine hmain.trans ?_
    rw [List.length_append, List.length_singleton, Nat.add_sub_cancel, lost_told]
  · rw [hA, pairLevels_append]
    have := (htail z hzm).1.2
    obtain ⟨m, hm⟩ : ∃ m, (lostItem data k z.1 z.2).2.2 = m + 1 := ⟨(lostItem data k z.1 z.2).2.2 - 1, by omega⟩
    simp only [pairLevels, List.flatMap_cons, List.flatMap_nil, List.append_nil, hm, List.replicate_succ',
      ← List.append_assoc, List.getLastD_concat]
  · intro e he
    calc fs ≤ 1 * f := by omega
      _ ≤ e.2 * f := Nat.mul_le_mul_right _ (hbound e he).1
  · refine Nat.lt_of_le_of_lt ?_ hn
    have hdur := edges_duration (List.replicate pause false ++
      pairLevels (allPulses ((init ++ [z]).map fun x => lostItem data k x.1 x.2))) false 0
    rw [hedges, List.length_append, List.length_replicate, hlength, Nat.zero_add] at hdur
    obtain ⟨y, hy⟩ := Nat.le.dest hdur
    rw [← hy]
    exact reading_mono _ _ _ _ _
  · have := hpause.1
    simp only [Nat.zero_add] at this
    exact this

/-! ## Non-vacuity -/

/-- The shipped example's sender (`Sender<_, 20_000, 128>`), any list of commands, one every 200 ms, a module that swallows
marks of fewer than 6 ticks (300 µs) and a receiver polled at 20 kHz or 40 kHz. -/
example (t : Target) (cmds : List NecCommand) (f : Nat) (hf : f = 20000 ∨ f = 40000) :
    ∃ data s' levels, necData Infrared.nec.pulseDistance 20000 = some data ∧
      (Sender.new 128 false).calls (session (necEncode Infrared.nec data) (cmds.map fun c => (c, 4000))) =
        some (s', levels) ∧
      (pollRun (necDecoder t Mono.u32 (necTable f) Infrared.nec) id
          (overhear 20000 f 0 1 (swallow 6 0 levels) (3 + 8000 * cmds.length))).map said =
        some (List.replicate (cmds.length - 1) (.error .data)) := by
  obtain ⟨data, hdata, h11⟩ : ∃ data, necData Infrared.nec.pulseDistance 20000 = some data ∧ 6 ≤ data.dataHigh :=
    ⟨_, rfl, by decide +kernel⟩
  obtain ⟨s', levels, h2, -, h3⟩ := C101_nec t 20000 (.inr (by decide)) f
    (by omega) (by omega) Infrared.nec (.inl rfl) data hdata 6 (by decide) h11 _
    (necSpans_standard (.inl rfl) t (by omega) _ rfl) (id : NecCommand → NecCommand)
    (cmds.map fun c => (c, 4000)) (fun x _ => ⟨_, rfl⟩) (Sender.new 128 false) rfl 61 rfl rfl (by
      intro x hx
      obtain ⟨c, -, rfl⟩ := List.mem_map.mp hx
      dsimp only
      rcases hf with rfl | rfl <;> decide)
  refine ⟨data, s', levels, hdata, h2, ?_⟩
  have h := h3 1 0 (3 + 8000 * cmds.length) (by decide) ?_ ?_
  · rw [h, List.length_map]
  · rcases hf with rfl | rfl
    all_goals
      refine ⟨by decide, ?_⟩
      intro i hi
      simp only [List.mem_cons, List.not_mem_nil, or_false] at hi
      rintro ⟨s, hs, h1, h2⟩
      revert h1
      rcases hi with rfl | rfl <;> (cases hs; decide +kernel)
  · have : sessionTicks (cmds.map fun c => (c, 4000)) = 4000 * cmds.length := by
      unfold sessionTicks
      rw [List.map_map]
      clear h2 h3
      induction cmds with
      | nil => rfl
      | cons c cs ih =>
        simp only [List.map_cons, List.sum_cons, ih, List.length_cons, Function.comp_apply]
        omega
    rw [this]
    rcases hf with rfl | rfl <;> (unfold reading; omega)

end Infrared
