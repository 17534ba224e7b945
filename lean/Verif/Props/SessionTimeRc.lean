import Verif.Props.SessionTime
import Verif.Props.ManchesterSession
import Verif.Props.Busy

/-!
# C106: when the commands of a session are reported, RC5 and RC6
-/

namespace Infrared
open Spec

variable {A C C' K : Type}

theorem duration_alternating (b : Bool) (l : List Nat) : duration (alternating b l) = l.sum := by
  induction l generalizing b with
  | nil => rfl
  | cons d l ih =>
    have := ih (!b)
    simp only [duration, alternating, List.map_cons, List.sum_cons] at this ⊢
    omega

theorem timed_duration {l : Nat} {evs : List Ev} {ws : List (Bool × Nat)} (h : Timed (fun x n => x = n * l) evs ws) :
    duration evs = (ws.map Prod.snd).sum * l := by
  induction evs generalizing ws with
  | nil =>
    cases ws with
    | nil => simp [duration]
    | cons w ws => exact h.elim
  | cons e es ih =>
    cases ws with
    | nil => exact h.elim
    | cons w ws =>
      have := ih h.2.2
      simp only [duration, List.map_cons, List.sum_cons, Nat.add_mul] at this ⊢
      rw [this, h.2.1]

/-- From the middle of the trailer to the middle of the last bit. -/
theorem rc6_tail_units_sum (w : BitVec 16) (n : Nat) (prev : Bool) (c : Nat) :
    ((edgesFrom prev c (rc6Tail w n)).map Prod.snd).sum = if n = 0 then 0 else c + 2 * n - 1 := by
  induction n generalizing prev c with
  | zero => rfl
  | succ n ih =>
    rw [rc6Tail, edgesFrom_bit2, if_neg (Nat.succ_ne_zero n)]
    have h := ih (!w.getLsbD n) 1
    split <;> simp only [List.map_cons, List.sum_cons, h] <;> split <;> omega

theorem chunk_duration (c : List Nat × Nat) : duration (chunkTail c) + chunkGap c = c.1.sum + c.2 + 1 := by
  rw [chunkTail, chunkGap, duration_append, duration_alternating]
  split
  · simp only [duration, List.map_cons, List.map_nil, List.sum_cons, List.sum_nil]; omega
  · simp only [duration, List.map_nil, List.sum_nil]; omega

/-- Chunks that each lead from a ready state to a resting state and are heard the time `L` after their first edge. -/
theorem hear_timed {S : Type} (g : S → Ev → Option (S × Res C)) (Rest : S → Prop)
    (Ready : S → Nat → Prop) (fs f phase L : Nat) (hear : A → C) (items : List ((List Nat × Nat) × (A × Nat)))
    (hone : ∀ i ∈ items, ∀ d dt t, Ready d dt → ∃ d' o,
      runStep g d ((true, dt) :: clocked fs f phase t (chunkTail i.1)) = some (d', o) ∧ Rest d' ∧
        ∀ t' x, timedSaid t' ((true, x) :: chunkTail i.1) o = [(t' + x + L, .ok (some (hear i.2.1)))])
    (hgap : ∀ i ∈ items, ∀ d t, Rest d →
      Ready d (reading fs f phase (t + chunkGap i.1) - reading fs f phase t))
    (hdur : ∀ i ∈ items, duration (chunkTail i.1) + chunkGap i.1 = i.2.2)
    (c : List Nat × Nat) (k : A × Nat) (hc : (c, k) ∈ items) (rest : List ((List Nat × Nat) × (A × Nat)))
    (hrest : ∀ i ∈ rest, i ∈ items) (d : S) (dt t : Nat) (hd : Ready d dt) :
    ∃ d' o, runStep g d ((true, dt) :: clocked fs f phase t
        (chunkTail c ++ chunkEdges (chunkGap c) (rest.map Prod.fst))) = some (d', o) ∧ Rest d' ∧
      ∀ t' x, timedSaid t' ((true, x) :: (chunkTail c ++ chunkEdges (chunkGap c) (rest.map Prod.fst))) o =
        (completes (fun _ => L) (t' + x) (k :: rest.map Prod.snd)).map fun y => (y.1, .ok (some (hear y.2))) := by
  induction rest generalizing c k d dt t with
  | nil =>
    rw [List.map_nil, chunkEdges, List.append_nil]
    exact hone (c, k) hc d dt t hd
  | cons i rest ih =>
    obtain ⟨d1, o1, h1, h2, h3⟩ := hone (c, k) hc d dt t hd
    obtain ⟨d2, o2, h4, h5, h6⟩ := ih i.1 i.2 (hrest i (by simp)) (fun j hj => hrest j (by simp [hj])) d1 _
      (t + duration (chunkTail c) + chunkGap c) (hgap (c, k) hc d1 (t + duration (chunkTail c)) h2)
    refine ⟨d2, _, (congrArg (runStep g d) ?_).trans (run_append_some h1 h4), h5, fun t' x => ?_⟩
    · rw [List.map_cons, chunkEdges, clocked_append, List.cons_append, clocked]
    · have hl := runStep_length' h1
      rw [List.length_cons, clocked_length] at hl
      rw [List.map_cons, chunkEdges, ← List.cons_append, timedSaid_append _ _ _ _ _ hl, h3, h6]
      have e : duration ((true, x) :: chunkTail c) = x + duration (chunkTail c) := by simp [duration]
      have e2 := hdur (c, k) hc
      dsimp only at e2
      rw [e, show t' + (x + duration (chunkTail c)) + chunkGap c = t' + x + k.2 by omega]
      rfl

theorem overhear_timed (D : Decoder C) (conv : C → K) {fs f phase : Nat} (hfs : 0 < fs) (hle : fs ≤ f)
    (hphase : phase < fs) (c : List Nat × Nat) (cs : List (List Nat × Nat))
    (hcs : ∀ x ∈ c :: cs, 1 ≤ x.2 ∧ (∀ d ∈ x.1, 0 < d) ∧ (x.1.sum + x.2 + 1) * f / fs + 1 < 2 ^ 32)
    {pause n ticks : Nat}
    (hticks : ((c :: cs).flatMap heldChunk).length = ticks)
    (hpause : reading fs f phase pause + 1 < 2 ^ 32)
    (hn : reading fs f phase (pause + ticks) < n) (o : List (Res K))
    (ho : results D conv ((true, reading fs f phase pause + 1) :: clocked fs f phase pause
        (chunkTail c ++ chunkEdges (chunkGap c) cs)) = some o) :
    ∃ outs, pollRun D conv (overhear fs f phase pause ((c :: cs).flatMap heldChunk) n) = some outs ∧
      numberedSaid 1 outs = (timedSaid 0 ((true, pause) :: (chunkTail c ++ chunkEdges (chunkGap c) cs)) o).map fun x =>
        (reading fs f phase x.1 + 1, x.2) := by
  have hedges : edgesFrom false 0 (List.replicate pause false ++ (c :: cs).flatMap heldChunk) =
      (true, pause) :: (chunkTail c ++ chunkEdges (chunkGap c) cs) := by
    rw [edgesFrom_replicate, Nat.zero_add, edges_heldChunks _ fun x hx => ⟨(hcs x hx).1, (hcs x hx).2.1⟩]
    rfl
  have hbound : ∀ e ∈ chunkTail c ++ chunkEdges (chunkGap c) cs, 1 ≤ e.2 ∧ e.2 * f / fs + 1 < 2 ^ 32 := by
    have hx : ∀ x ∈ c :: cs, ∀ y, y ∈ x.1 ∨ y = 1 ∨ y = chunkGap x → 1 ≤ y ∧ y * f / fs + 1 < 2 ^ 32 := by
      intro x hx y hy
      obtain ⟨h1, h2, h3⟩ := hcs x hx
      suffices 1 ≤ y ∧ y ≤ x.1.sum + x.2 + 1 by
        have h2 : y * f / fs ≤ (x.1.sum + x.2 + 1) * f / fs :=
          Nat.div_le_div_right (Nat.mul_le_mul_right _ this.2)
        omega
      rcases hy with h | h | h
      · have := mem_le_sum h
        exact ⟨h2 y h, by omega⟩
      · omega
      · rw [h, chunkGap]
        split <;> omega
    intro e he
    rcases List.mem_append.mp he with he | he
    · exact hx c (by simp) _ (by rcases mem_chunkTail he with h | h; exacts [.inl h, .inr (.inl h)])
    · rcases mem_chunkEdges he with h | ⟨x, hx', h⟩
      · exact hx c (by simp) _ (.inr (.inr h))
      · exact hx x (by simp [hx']) _ h
  have hdur : duration ((true, pause) :: (chunkTail c ++ chunkEdges (chunkGap c) cs)) ≤ pause + ticks := by
    have := edges_duration (List.replicate pause false ++ (c :: cs).flatMap heldChunk) false 0
    rw [hedges, List.length_append, hticks, List.length_replicate] at this
    omega
  rw [overhear, looked_polled (by omega) hphase _
    (last_heldChunks _ (fun x hx => (hcs x hx).1) _ (by cases pause <;> simp [List.replicate_succ'])), hedges]
  refine C83_placement D conv fs hfs f phase true pause _ (hedges ▸ edgesFrom_changes _ false 0) ?_ n
    (Nat.lt_of_le_of_lt (reading_le _ _ _ hdur) hn) hpause (fun e he => (hbound e he).2) o ho
  intro e he
  calc fs ≤ 1 * f := by omega
    _ ≤ e.2 * f := Nat.mul_le_mul_right _ (hbound e he).1

theorem session_timed (D : Decoder C) (conv : C → K) (enc : A → Encode) (wave : A → List Nat)
    (hear : A → C) (Inv : List Nat → Prop) (Rest : D.St → Prop) (Ready : D.St → Nat → Prop)
    {fs f : Nat} (L : Nat) (hfs : 0 < fs) (hle : fs ≤ f) (cmds : List (A × Nat))
    (hw : ∀ x ∈ cmds, Writes (enc x.1) (wave x.1))
    (hinv : ∀ x ∈ cmds, ∀ b, Inv b → Inv (loaded (wave x.1) b) ∧ (wave x.1).length ≤ b.length ∧
      (∃ ds, loaded (wave x.1) b = 0 :: ds ∧ (∀ d ∈ ds, d < 2 ^ 32) ∧ (atLeastOne ds).sum + 1 < x.2))
    (hone : ∀ x ∈ cmds, ∀ b, Inv b → ∀ phase d dt t, Ready d dt → ∃ d' o,
      runStep D.step d ((true, dt) :: clocked fs f phase t
        (chunkTail (sentChunk (loaded (wave x.1) b) x.2))) = some (d', o) ∧ Rest d' ∧
        ∀ t' y, timedSaid t' ((true, y) :: chunkTail (sentChunk (loaded (wave x.1) b) x.2)) o =
          [(t' + y + L, .ok (some (hear x.1)))])
    (hgap : ∀ x ∈ cmds, ∀ b, Inv b → ∀ phase d t, Rest d → Ready d
      (reading fs f phase (t + chunkGap (sentChunk (loaded (wave x.1) b) x.2)) - reading fs f phase t))
    (hfirst : ∀ dt, Ready D.init dt) (s : Sender) (hidle : s.buffer.status = .idle)
    (hs : Inv s.buffer.ptb.buf) (hticks : ∀ x ∈ cmds, x.2 * f / fs + 1 < 2 ^ 32) :
    ∃ s' levels, s.calls (session enc cmds) = some (s', levels) ∧
      s'.buffer.status = .idle ∧ ∀ pause phase n, phase < fs →
      reading fs f phase pause + 1 < 2 ^ 32 →
      reading fs f phase (pause + sessionTicks cmds) < n →
      ∃ outs, pollRun D conv (overhear fs f phase pause levels n) = some outs ∧
        numberedSaid 1 outs = (completes (fun _ => L) pause cmds).map fun x =>
          (reading fs f phase x.1 + 1, .ok (some (conv (hear x.2)))) := by
  obtain ⟨s', hcalls, hid⟩ := session_sent enc wave Inv cmds hw hinv s hidle hs
  refine ⟨s', _, hcalls, hid, fun pause phase n hphase hpause hn => ?_⟩
  have hmem := sentChunks_mem (fun x hx b hb => (hinv x hx b hb).1) hs
  cases cmds with
  | nil =>
    rw [overhear]
    have : looked fs f phase (List.replicate pause false ++ List.flatMap heldChunk
        (sentChunks wave s.buffer.ptb.buf ([] : List (A × Nat)))) n = List.replicate n false := by
      simp [sentChunks, looked, List.getD_eq_getElem?_getD, List.getElem?_replicate, List.eq_replicate_iff]
      intros
      split <;> rfl
    rw [this, C54_silent_line]
    refine ⟨_, rfl, ?_⟩
    have := numberedSaid_silent (K := K) 1 n []
    rw [List.append_nil] at this
    rw [this]
    rfl
  | cons y ys =>
    obtain ⟨c, cs, hccs⟩ : ∃ c cs, sentChunks wave s.buffer.ptb.buf (y :: ys) = c :: cs := ⟨_, _, rfl⟩
    rw [hccs] at hmem ⊢
    have hlen : (c :: cs).length = (y :: ys).length := by rw [← hccs, sentChunks_length]
    have hall : ∀ x ∈ c :: cs, ∃ p ∈ (c :: cs).zip (y :: ys), p.1 = x := by
      intro x hx
      have : x ∈ ((c :: cs).zip (y :: ys)).map Prod.fst := by
        rwa [List.map_fst_zip (Nat.le_of_eq hlen)]
      obtain ⟨p, hp, h⟩ := List.mem_map.mp this
      exact ⟨p, hp, h⟩
    have hfacts : ∀ p ∈ (c :: cs).zip (y :: ys), 1 ≤ p.1.2 ∧ (∀ d ∈ p.1.1, 0 < d) ∧
        p.1.1.sum + p.1.2 + 1 = p.2.2 ∧ (heldChunk p.1).length = p.2.2 := by
      intro p hp
      obtain ⟨b, hb, hp2, hp1⟩ := hmem p hp
      obtain ⟨-, -, ds, i3, -, i5⟩ := hinv p.2 hp2 b hb
      have hc1 : p.1 = (atLeastOne ds, p.2.2 - ((atLeastOne ds).sum + 1)) := by
        rw [hp1, sentChunk, i3, List.tail_cons]
      rw [hc1]
      refine ⟨by dsimp only; omega, atLeastOne_pos, by dsimp only; omega, ?_⟩
      rw [heldChunk]
      dsimp only
      rw [held_atLeastOne, List.length_append, held_length, List.length_replicate]
      omega
    have hsum : ((c :: cs).flatMap heldChunk).length = sessionTicks (y :: ys) := by
      generalize c :: cs = l1 at hlen hfacts
      generalize y :: ys = l2 at hlen hfacts
      clear hccs hmem hall
      induction l1 generalizing l2 with
      | nil => cases l2 with
        | nil => rfl
        | cons x xs => cases hlen
      | cons a l1 ih => cases l2 with
        | nil => cases hlen
        | cons x xs =>
          have h1 := (hfacts (a, x) (by simp)).2.2.2
          have h2 := ih xs (by simpa using hlen) fun p hp => hfacts p (by simp [hp])
          rw [List.flatMap_cons, List.length_append, h1, h2]
          simp [sessionTicks]
    let items := (c :: cs).zip (y :: ys)
    have hitems : items = (c, y) :: cs.zip ys := rfl
    have hl' : cs.length = ys.length := by simpa using hlen
    obtain ⟨d', o, h1, -, h2⟩ := hear_timed D.step Rest Ready fs f phase L hear items (by
        intro p hp d dt t hd
        obtain ⟨b, hb, hp2, hp1⟩ := hmem p hp
        rw [hp1]
        exact hone p.2 hp2 b hb phase d dt t hd) (by
        intro p hp d t hd
        obtain ⟨b, hb, hp2, hp1⟩ := hmem p hp
        rw [hp1]
        exact hgap p.2 hp2 b hb phase d t hd) (by
        intro p hp
        rw [chunk_duration]
        exact (hfacts p hp).2.2.1) c y (by rw [hitems]; simp)
      (cs.zip ys) (by intro i hi; rw [hitems]; simp [hi]) D.init _ pause
      (hfirst (reading fs f phase pause + 1))
    have hf1 : (cs.zip ys).map Prod.fst = cs := List.map_fst_zip (Nat.le_of_eq hl')
    have hf2 : (cs.zip ys).map Prod.snd = ys := List.map_snd_zip (Nat.le_of_eq hl'.symm)
    rw [hf1] at h1
    rw [hf1, hf2] at h2
    obtain ⟨outs, h3, h4⟩ := overhear_timed D conv hfs hle hphase c cs (by
      intro x hx
      obtain ⟨p, hp, rfl⟩ := hall x hx
      obtain ⟨h1, h2, h3, -⟩ := hfacts p hp
      obtain ⟨-, -, hp2, -⟩ := hmem p hp
      refine ⟨h1, h2, ?_⟩
      rw [h3]
      exact hticks _ hp2) hsum hpause hn _ (results_of conv h1)
    refine ⟨outs, h3, ?_⟩
    rw [h4, timedSaid_map, h2, Nat.zero_add, List.map_map, List.map_map]
    rfl

/-- One report among three parts of a line. -/
theorem timedSaid_frame (t : Nat) (a b c : List (Bool × Nat)) (ha : a ≠ []) (k : C) (n m p : Nat) (hn : n = a.length)
    (hm : m = b.length) :
    timedSaid t (a ++ b ++ c) (List.replicate (n - 1) (.ok none) ++ [.ok (some k)] ++ List.replicate m (.ok none) ++
      List.replicate p (.ok none)) = [(t + duration a, .ok (some k))] := by
  have hl : 0 < a.length := List.length_pos_iff.mpr ha
  rw [timedSaid_append _ _ _ _ _ (by simp; omega), timedSaid_append _ _ _ _ _ (by simp; omega), timedSaid_silent,
    timedSaid_silent, timedSaid_last _ _ _ (by omega)]
  rfl

/-- `rc5_chunk`, with the results. -/
theorem rc5_chunk_at (t : Target) (hus : 16 ≤ t.usizeBits) (tbl : PulseSpans)
    (hlen : tbl.spans.length ≤ 8) (w : BitVec 14) (hw : w.getLsbD 13 = true) (evs e2 e3 : List Ev)
    (h : ManchesterFrame (HalfBits tbl) (rc5Edges w) evs) (h2 : e2.length < 14)
    (h3 : ∀ e ∈ e3, tbl.half e.2 = none) (d : Rc5Decoder) (hd : ∀ dt evs', evs = (true, dt) :: evs' →
      Ready5 t tbl d dt) :
    ∃ d' o, runStep (rc5Fn t tbl) d (evs ++ e2 ++ e3) = some (d', o) ∧ After5 t d' ∧
      o = List.replicate (evs.length - 1) (.ok none) ++ [.ok (some (Rc5Command.unpack (w.setWidth 16)))] ++
        List.replicate e2.length (.ok none) ++ List.replicate e3.length (.ok none) := by
  have hp : 2 ^ 16 ≤ 2 ^ t.usizeBits := Nat.pow_le_pow_right (by decide) hus
  have hl : evs.length ≤ 28 := by
    rw [frame_length h]
    refine Nat.le_trans (edgesFrom_length _ _ _) ?_
    simp [rc5Levels]
    decide
  have hcons : ∃ dt evs', evs = (true, dt) :: evs' := by
    obtain ⟨pause, n, evs', edges', rfl, -, -⟩ := h
    exact ⟨pause, evs', rfl⟩
  obtain ⟨dt, evs', hevs⟩ := hcons
  obtain ⟨⟨a, hsim, ha⟩, hclk⟩ := hd dt evs' hevs
  obtain ⟨d1, h1, -, -⟩ := rc5_run_ex t tbl hus hlen hsim evs (by
    rcases hclk with hc | hc
    · exact .inr (by omega)
    · exact .inl hc)
  have hab : ∃ odd, runTotal Abs5.step a (evs.map (measure tbl)) =
      runTotal Abs5.step ⟨none, 0, odd⟩ (evs.map (measure tbl)) := by
    rcases ha with hn | ⟨odd, rfl⟩
    · refine ⟨false, ?_⟩
      rw [hevs, List.map_cons, measure, hn]
      rfl
    · exact ⟨odd, rfl⟩
  obtain ⟨odd, hab⟩ := hab
  rw [hab, rc5_abs_frame tbl w hw odd evs h] at h1
  obtain ⟨s0, hs0⟩ := run_last_reset (D := rc5Decoder t tbl) h1 (by simp)
  have hd1 : d1 = rc5Init := hs0
  subst hd1
  obtain ⟨d2, h4, h5, h6⟩ := rc5_run_ex t tbl hus hlen sim5_init e2
    (.inr (by simp only [rc5Init]; omega))
  rw [rc5_too_few Abs5.init _ (by rw [List.length_map]; exact h2) (show 14 ≤ 14 by decide)] at h4
  obtain ⟨d3, a3, h7, h8, h9⟩ := rc5_nones t hus tbl hlen e3 h3 h5
  refine ⟨d3, _, run_append_some (run_append_some h1 h4) h7, ⟨⟨a3, h8⟩, ?_⟩, ?_⟩
  · rcases h6 with h6 | h6
    · refine .inl ?_
      simp only [rc5Init] at h6
      omega
    · exact .inr h6
  · rw [List.length_map]

/-- `rc6_chunk`, with the results. -/
theorem rc6_chunk_at (t : Target) (hus : 16 ≤ t.usizeBits) (tbl : PulseSpans)
    (hlen : tbl.spans.length ≤ 8) (w : BitVec 16) (toggle : Bool) (evs e2 e3 : List Ev)
    (h : ManchesterFrame (HalfBits tbl) (rc6EdgesMode 0 w toggle) evs) (h2 : e2.length ≤ 50)
    (h6 : ∀ e ∈ e2, tbl.half e.2 ≠ some 6)
    (h3 : ∀ e ∈ e3, tbl.half e.2 = none) (d : Rc6Decoder) (hd : ∀ dt evs', evs = (true, dt) :: evs' →
      Ready6 t tbl d dt) :
    ∃ d' o, runStep (rc6Fn t tbl) d (evs ++ e2 ++ e3) = some (d', o) ∧ After6 t d' ∧
      o = List.replicate (evs.length - 1) (.ok none) ++ [.ok (some (Rc6Command.fromBits w toggle))] ++
        List.replicate e2.length (.ok none) ++ List.replicate e3.length (.ok none) := by
  have hp : 2 ^ 16 ≤ 2 ^ t.usizeBits := Nat.pow_le_pow_right (by decide) hus
  have hl : evs.length ≤ 52 := by
    rw [frame_length h]
    refine Nat.le_trans (edgesFrom_length _ _ _) ?_
    simp [rc6LevelsMode]
    decide
  have hcons : ∃ dt evs', evs = (true, dt) :: evs' := by
    obtain ⟨pause, n, evs', edges', rfl, -, -⟩ := h
    exact ⟨pause, evs', rfl⟩
  obtain ⟨dt, evs', hevs⟩ := hcons
  obtain ⟨⟨a, hsim, ha⟩, hclk⟩ := hd dt evs' hevs
  obtain ⟨d1, h1, hs1, -⟩ := rc6_run_ex t tbl hus hlen hsim evs (by
    rcases hclk with hc | hc
    · exact .inr (by omega)
    · exact .inl hc)
  have hab : ∃ tg odd, runTotal Abs6.step a (evs.map (measure tbl)) =
      runTotal Abs6.step ⟨.idle, 0, tg, odd⟩ (evs.map (measure tbl)) := by
    rcases ha with hn | ⟨tg, odd, rfl⟩
    · refine ⟨a.toggle, false, ?_⟩
      rw [hevs, List.map_cons, measure, hn]
      rfl
    · exact ⟨tg, odd, rfl⟩
  obtain ⟨tg, odd, hab⟩ := hab
  rw [hab, rc6_abs_frame tbl 0 (.inl rfl) w toggle tg odd evs h] at h1 hs1
  obtain ⟨s0, hs0⟩ := run_last_reset (D := rc6Decoder t tbl) h1 (by simp)
  have hc1 : d1.clock = 0 := congrArg Rc6Decoder.clock (show d1 = Rc6Decoder.reset s0 from hs0)
  obtain ⟨d2, h4, h5, h7⟩ := rc6_run_ex t tbl hus hlen hs1 e2 (.inr (by omega))
  rw [rc6_leaderless _ (.inl rfl) _ (by
    intro e he
    obtain ⟨x, hx, rfl⟩ := List.mem_map.mp he
    exact h6 x hx)] at h4
  obtain ⟨d3, a3, h8, h9, h10⟩ := rc6_nones t hus tbl hlen e3 h3 h5
  refine ⟨d3, _, run_append_some (run_append_some h1 h4) h8, ⟨⟨a3, h9⟩, ?_⟩, ?_⟩
  · rcases h7 with h7 | h7
    · exact .inl (by omega)
    · exact .inr h7
  · rw [List.length_map]

/-- **C106** for RC5: an idle sender, as in C58, is given any number of commands, one every 114 ms or more.  The receiver
reports each command exactly once, at the poll that follows the middle of its last bit, 26 half-bits after the command
was given to the sender, and reports nothing at any other poll. -/
theorem C106_rc5_session (t : Target) (hus : 16 ≤ t.usizeBits) (fs : Nat)
    (hfs : 42000 ≤ fs ∨ (20000 ≤ fs ∧ fs % 1000 = 0)) (f : Nat) (hlo : 40000 ≤ f) (hle : fs ≤ f)
    (hf : f < 2 ^ 32) (tbl : PulseSpans) (htbl : rc5Spans t Mono.u32 f = some tbl)
    (conv : Rc5Command → K) (l : Nat) (hl : rc5CalcFreq fs = some l) (cmds : List (Rc5Command × Nat))
    (hcmds : ∀ x ∈ cmds, x.1.addr.toNat < 32 ∧ x.1.cmd.toNat < 64 ∧ x.1.start.toNat < 4)
    (s : Sender) (hidle : s.buffer.status = .idle) (k : Nat) (hlen : s.buffer.ptb.buf.length = 27 + k)
    (hz : s.buffer.ptb.buf.drop 27 = List.replicate k 0) (hold : ∀ d ∈ s.buffer.ptb.buf, d ≤ 2 * l)
    (hticks : ∀ x ∈ cmds, 114 * fs + 1000 * k ≤ 1000 * x.2 ∧ x.2 * f / fs + 1 < 2 ^ 32) :
    ∃ s' levels, s.calls (session (rc5Encode t l) cmds) = some (s', levels) ∧
      s'.buffer.status = .idle ∧ ∀ pause phase n, phase < fs →
      reading fs f phase pause + 1 < 2 ^ 32 →
      reading fs f phase (pause + sessionTicks cmds) < n →
      ∃ outs, pollRun (rc5Decoder t tbl) conv (overhear fs f phase pause levels n) = some outs ∧
        numberedSaid 1 outs = (completes (fun _ => 26 * l) pause cmds).map fun x =>
          (reading fs f phase x.1 + 1, .ok (some (conv { x.2 with start := x.2.start ||| 2 }))) := by
  obtain ⟨l', hl', -, henc⟩ := C38_rc5_encode t fs (by omega)
  rw [hl, Option.some.injEq] at hl'
  subst hl'
  have e := (rc5CalcFreq_eq (by omega) hl).2 (by omega)
  have hl2 := (rc5CalcFreq_eq (by omega) hl).1
  have hl0 : 0 < l := by rw [e]; omega
  have h13 : ∀ c : Rc5Command, (rc5Word c.pack).getLsbD 13 = true := by
    intro c
    rw [rc5Word_bits _ _ (by decide)]; simp
  have hlen8 : tbl.spans.length ≤ 8 := by
    rw [rc5Spans_eq (.inl rfl) t hf, Option.some.injEq] at htbl
    subst htbl
    simp [rc5Table]
  have htail := fun c : Rc5Command => rc5_wave_tail hl0 (h13 c)
  let wave : Rc5Command → List Nat := fun c => rc5Wave l (rc5Word c.pack)
  have hwl : ∀ c, 14 ≤ (wave c).length ∧ (wave c).length ≤ 27 := fun c => (henc c).2
  let Inv : List Nat → Prop := fun b => b.length = 27 + k ∧ b.drop 27 = List.replicate k 0 ∧
    ∀ d ∈ b, d ≤ 2 * l
  have hsum : ∀ c b, Inv b → (atLeastOne (loaded (wave c) b).tail).sum ≤ 26 * (2 * l) + k := by
    intro c b hb
    exact slots_sum (by omega) (by decide) (by have := hwl c; omega) (hwl c).2 hb.1 hb.2.1
      (fun d hd => (htail c d hd).2) hb.2.2
  refine session_timed (rc5Decoder t tbl) conv (rc5Encode t l) wave
    (fun c => { c with start := c.start ||| 2 }) Inv (After5 t) (Ready5 t tbl) (26 * l) (by omega) hle cmds
    (fun x _ => (henc x.1).1) ?_ ?_ ?_ ?_ s hidle ⟨hlen, hz, hold⟩ (fun x hx => (hticks x hx).2)
  · intro x hx b hb
    obtain ⟨h1, h2, h3, h4⟩ := loaded_slots (wave := wave x.1) (by have := hwl x.1; omega) (hwl x.1).2 hb.1 hb.2.1
    have hmem : ∀ d ∈ loaded (wave x.1) b, d ≤ 2 * l := by
      intro d hd
      rcases List.mem_append.mp hd with hd | hd
      · have hc : wave x.1 = 0 :: (wave x.1).tail := rc5Wave_cons _ _ (h13 x.1)
        rw [hc] at hd
        rcases List.mem_cons.mp hd with rfl | hd
        · omega
        · exact (htail x.1 d hd).2
      · exact hb.2.2 d (List.mem_of_mem_drop hd)
    refine ⟨⟨h3, h4, hmem⟩, by have := hwl x.1; have := hb.1; omega, (loaded (wave x.1) b).tail, ?_, ?_, ?_⟩
    · have hc : wave x.1 = 0 :: (wave x.1).tail := rc5Wave_cons _ _ (h13 x.1)
      unfold loaded
      rw [hc]
      rfl
    · intro d hd
      have := hmem d (List.mem_of_mem_tail hd)
      omega
    · have := hsum x.1 b hb
      have := (hticks x hx).1
      omega
  · intro x hx b hb phase d dt t' hd
    obtain ⟨h1, h2, -, -⟩ := loaded_slots (wave := wave x.1) (by have := hwl x.1; omega) (hwl x.1).2 hb.1 hb.2.1
    rw [sentChunk, h1, atLeastOne_append, atLeastOne_append, atLeastOne_zeros,
      atLeastOne_of_pos (ds := (wave x.1).tail) fun d hd => (htail x.1 d hd).1]
    obtain ⟨e2, e3, he, ⟨b2, he2⟩, he3⟩ := chunkTail_split (wave x.1).tail
      (atLeastOne ((b.take 27).drop (wave x.1).length)) k (x.2 - (((wave x.1).tail ++
        atLeastOne ((b.take 27).drop (wave x.1).length) ++ List.replicate k 1).sum + 1))
    rw [he, clocked_append, clocked_append, ← List.cons_append, ← List.cons_append]
    have hfr : ManchesterFrame (Within tbl) (rc5Edges (rc5Word x.1.pack))
        ((true, dt) :: clocked fs f phase t' (alternating false (wave x.1).tail)) := by
      show ManchesterFrame _ _ ((true, dt) :: clocked fs f phase t'
        (alternating false (rc5Wave l (rc5Word x.1.pack)).tail))
      unfold rc5Wave
      rw [rc5Edges_eq _ (h13 x.1)]
      refine ⟨_, 1, _, _, rfl, rfl, ?_⟩
      refine clocked_timed (R := fun x n => Near fs 5 (889 * n) x) ?_ t'
        (timed_wave _ _ _ (edgesFrom_alternating true _ _) fun x _ => rc5_ticks_near hfs e _)
      intro t2 x2 w hmem hnear
      exact rc5_near_within (by omega) (.inl rfl) hlo hf htbl phase t2 (rc5_edges_len _ 13 true w hmem) hnear
    have hfr' : ManchesterFrame (HalfBits tbl) (rc5Edges (rc5Word x.1.pack))
        ((true, dt) :: clocked fs f phase t' (alternating false (wave x.1).tail)) := by
      have htbl' := htbl
      rw [rc5Spans_eq (.inl rfl) t hf, Option.some.injEq] at htbl'
      subst htbl'
      exact rc5_halfBits (by omega) (h13 x.1) hfr
    obtain ⟨d', o, g1, g2, g3⟩ := rc5_chunk_at t hus tbl hlen8 _ (h13 x.1) _
      (clocked fs f phase (t' + duration (alternating false (wave x.1).tail)) e2)
      (clocked fs f phase (t' + duration (alternating false (wave x.1).tail ++ e2)) e3) hfr'
      (by
        rw [clocked_length, he2, alternating_length, atLeastOne, List.length_map]
        have := hwl x.1
        omega)
      (by
        intro q hq
        obtain ⟨e, he, t2, hq⟩ := clocked_mem hq
        rw [hq]
        exact rc5_unknown (by omega) hle hf htbl phase t2 (.inl (he3 e he))) d (by
        intro dt' evs' hh
        simp only [List.cons.injEq, Prod.mk.injEq, true_and] at hh
        rw [← hh.1]
        exact hd)
    obtain ⟨ha, hc, hst⟩ := hcmds x hx
    rw [rc5_received_cmd x.1 ha hc hst] at g3
    refine ⟨d', o, g1, g2, fun t2 y => ?_⟩
    rw [g3, ← List.cons_append, ← List.cons_append, clocked_length, clocked_length]
    rw [timedSaid_frame _ _ _ _ (by simp) _ _ _ _ (by rw [List.length_cons, List.length_cons, clocked_length]) rfl]
    have h5 := (rc5_tail_sum (rc5Word x.1.pack) l 13 true).1
    have h6 : (wave x.1).tail.sum = 26 * l := by
      show (rc5Wave l (rc5Word x.1.pack)).tail.sum = _
      unfold rc5Wave
      rw [rc5Edges_eq _ (h13 x.1)]
      exact h5
    have h7 : duration ((true, y) :: alternating false (wave x.1).tail) = y + 26 * l := by
      rw [← h6, ← duration_alternating false]
      simp [duration]
    rw [h7, Nat.add_assoc]
  · intro x hx b hb phase d t' hd
    obtain ⟨⟨a, hs⟩, hclk⟩ := hd
    refine ⟨⟨a, hs, .inl (rc5_unknown (by omega) hle hf htbl phase t' (.inr ?_))⟩, hclk⟩
    have h1 := hsum x.1 b hb
    have h2 := (hticks x hx).1
    rw [sentChunk, chunkGap]
    dsimp only
    split <;> omega
  · intro dt
    exact ⟨⟨Abs5.init, sim5_init, .inr ⟨false, rfl⟩⟩, .inl (show 0 ≤ 224 by decide)⟩

/-- **C106** for RC6: the same, one command every 106 ms or more, 51 units after it was given to the sender. -/
theorem C106_rc6_session (t : Target) (hus : 16 ≤ t.usizeBits) (fs : Nat) (hfs : 46000 ≤ fs)
    (f : Nat) (hlo : 80000 ≤ f) (hle : fs ≤ f)
    (hf : f < 2 ^ 32) (tbl : PulseSpans) (htbl : rc6Spans t Mono.u32 f = some tbl)
    (conv : Rc6Command → K) (l : Nat) (hl : rc6Data fs = some l) (cmds : List (Rc6Command × Nat))
    (s : Sender) (hidle : s.buffer.status = .idle) (k : Nat) (hlen : s.buffer.ptb.buf.length = 44 + k)
    (hz : s.buffer.ptb.buf.drop 44 = List.replicate k 0)
    (hold : ∀ d ∈ s.buffer.ptb.buf.drop 2, d ≤ 3 * l)
    (hticks : ∀ x ∈ cmds, 106 * fs + 1000 * k ≤ 1000 * x.2 ∧ x.2 * f / fs + 1 < 2 ^ 32) :
    ∃ s' levels, s.calls (session (rc6Encode l) cmds) = some (s', levels) ∧
      s'.buffer.status = .idle ∧ ∀ pause phase n, phase < fs →
      reading fs f phase pause + 1 < 2 ^ 32 →
      reading fs f phase (pause + sessionTicks cmds) < n →
      ∃ outs, pollRun (rc6Decoder t tbl) conv (overhear fs f phase pause levels n) = some outs ∧
        numberedSaid 1 outs = (completes (fun _ => 51 * l) pause cmds).map fun x =>
          (reading fs f phase x.1 + 1, .ok (some (conv x.2))) := by
  have hhi : 444 * fs < 2 ^ 32 := by
    unfold rc6Data at hl
    split at hl
    · assumption
    · cases hl
  obtain rfl : l = 444 * fs / 1000000 := by
    rw [rc6Data, if_pos hhi, Option.some.injEq] at hl
    exact hl.symm
  have henc := fun c : Rc6Command => C38_rc6_encode fs _ hl c
  generalize hL : 444 * fs / 1000000 = l at *
  have hl0 : 0 < l := by omega
  have hl1 : 1000000 * l ≤ 444 * fs := by omega
  have hlen8 : tbl.spans.length ≤ 8 := by
    rw [rc6Spans_eq (.inl rfl) t hf, Option.some.injEq] at htbl
    subst htbl
    simp [rc6Table]
  let wave : Rc6Command → List Nat := fun c => rc6Wave l (c.addr ++ c.cmd) c.toggle
  have hwave : ∀ c, ∃ rest, wave c = 0 :: 6 * l :: rest ∧ ∀ d ∈ rest, d ≤ 3 * l := by
    intro c
    obtain ⟨rest, h1, h2⟩ := rc6_wave_tail l (c.addr ++ c.cmd) c.toggle
    refine ⟨rest, ?_, h2⟩
    show rc6Wave l (c.addr ++ c.cmd) c.toggle = _
    rw [rc6Wave_cons, h1]
  have hwl : ∀ c, 2 ≤ (wave c).length ∧ (wave c).length ≤ 44 := by
    intro c
    obtain ⟨rest, h1, -⟩ := hwave c
    refine ⟨by rw [h1]; simp, (henc c).2.2⟩
  let Inv : List Nat → Prop := fun b => b.length = 44 + k ∧ b.drop 44 = List.replicate k 0 ∧
    ∀ d ∈ b.drop 2, d ≤ 3 * l
  have hload : ∀ c b, Inv b → ∃ rest, loaded (wave c) b = 0 :: 6 * l :: rest ∧ ∀ d ∈ rest, d ≤ 3 * l := by
    intro c b hb
    obtain ⟨rest, h1, h2⟩ := hwave c
    refine ⟨rest ++ b.drop (wave c).length, by unfold loaded; rw [h1]; rfl, ?_⟩
    intro d hd
    rcases List.mem_append.mp hd with hd | hd
    · exact h2 d hd
    · refine hb.2.2 d ?_
      have : (wave c).length = 2 + ((wave c).length - 2) := by have := (hwl c).1; omega
      rw [this, ← List.drop_drop] at hd
      exact List.mem_of_mem_drop hd
  have hstale : ∀ c b, Inv b → ∀ d ∈ atLeastOne ((b.take 44).drop (wave c).length), d ≤ 3 * l := by
    intro c b hb d hd
    obtain ⟨x, hx, rfl⟩ := List.mem_map.mp hd
    refine Nat.max_le.mpr ⟨hb.2.2 x ?_, by omega⟩
    have : (wave c).length = 2 + ((wave c).length - 2) := by have := (hwl c).1; omega
    rw [this, ← List.drop_drop] at hx
    have hx := List.mem_of_mem_drop hx
    rw [List.drop_take] at hx
    exact List.mem_of_mem_take hx
  have hpos : ∀ c, ∀ d ∈ (wave c).tail, 0 < d := by
    intro c
    have := rc6_wave_pos fs (by omega) (by omega) c
    rw [hL] at this
    exact fun d hd => (this d hd).1
  have hsum : ∀ c b, Inv b → (atLeastOne (loaded (wave c) b).tail).sum ≤ 132 * l + k := by
    intro c b hb
    obtain ⟨h1, h2, -, -⟩ := loaded_slots (wave := wave c) (by have := hwl c; omega) (hwl c).2 hb.1 hb.2.1
    rw [h1, atLeastOne_append, atLeastOne_append, atLeastOne_zeros, atLeastOne_of_pos (hpos c),
      List.sum_append]
    have h5 : (List.replicate k 1).sum = k := by simp
    obtain ⟨rest, h3, h4⟩ := hwave c
    have h6 := sum_leader (b := 3 * l) (x := 6 * l) (l := rest ++
      atLeastOne ((b.take 44).drop (wave c).length)) (by omega) (by
        intro d hd
        rcases List.mem_append.mp hd with hd | hd
        · exact h4 d hd
        · exact hstale c b hb d hd)
    have h7 : (6 * l :: (rest ++ atLeastOne ((b.take 44).drop (wave c).length))).length = 43 := by
      rw [h3] at h2 ⊢
      simp only [List.length_cons, List.length_append, atLeastOne, List.length_map] at h2 ⊢
      omega
    rw [h7] at h6
    rw [show (wave c).tail = 6 * l :: rest by rw [h3]; rfl, List.cons_append]
    omega
  refine session_timed (rc6Decoder t tbl) conv (rc6Encode l) wave
    (fun c => c) Inv (After6 t) (Ready6 t tbl) (51 * l) (by omega) hle cmds
    (fun x _ => (henc x.1).2.1) ?_ ?_ ?_ ?_ s hidle ⟨hlen, hz, hold⟩ (fun x hx => (hticks x hx).2)
  · intro x hx b hb
    obtain ⟨-, -, h3, h4⟩ := loaded_slots (wave := wave x.1) (by have := hwl x.1; omega) (hwl x.1).2 hb.1 hb.2.1
    obtain ⟨rest, h5, h6⟩ := hload x.1 b hb
    refine ⟨⟨h3, h4, by rw [h5]; exact h6⟩, by have := hwl x.1; have := hb.1; omega, 6 * l :: rest, h5, ?_, ?_⟩
    · intro d hd
      rcases List.mem_cons.mp hd with rfl | hd
      · omega
      · have := h6 d hd
        omega
    · have h7 := hsum x.1 b hb
      rw [h5, List.tail_cons] at h7
      have := (hticks x hx).1
      omega
  · intro x hx b hb phase d dt t' hd
    obtain ⟨h1, h2, -, -⟩ := loaded_slots (wave := wave x.1) (by have := hwl x.1; omega) (hwl x.1).2 hb.1 hb.2.1
    rw [sentChunk, h1, atLeastOne_append, atLeastOne_append, atLeastOne_zeros, atLeastOne_of_pos (hpos x.1)]
    obtain ⟨e2, e3, he, ⟨b2, he2⟩, he3⟩ := chunkTail_split (wave x.1).tail
      (atLeastOne ((b.take 44).drop (wave x.1).length)) k (x.2 - (((wave x.1).tail ++
        atLeastOne ((b.take 44).drop (wave x.1).length) ++ List.replicate k 1).sum + 1))
    obtain ⟨evs, extra, hev, ⟨p0, n0, evs', edges', rfl, hedges, ht'⟩, hex⟩ := rc6_wave_frame_of
      (fun x n => Near fs 5 (444 * n) x ∧ x = n * l) l ⟨⟨rc6_ticks_near hfs hL.symm 1, rfl⟩,
        ⟨rc6_ticks_near hfs hL.symm 2, rfl⟩, ⟨rc6_ticks_near hfs hL.symm 3, rfl⟩, ⟨rc6_ticks_near hfs hL.symm 6, rfl⟩⟩ (x.1.addr ++ x.1.cmd) x.1.toggle 0
    simp only [List.cons_append, List.cons.injEq, Prod.mk.injEq, true_and] at hev
    obtain ⟨-, hev⟩ := hev
    have ht := Timed.imp (R' := fun x n => Near fs 5 (444 * n) x) ht' fun _ _ _ h => h.1
    have hd51 : duration evs' = 51 * l := by
      rw [timed_duration (Timed.imp (R' := fun x n => x = n * l) ht' fun _ _ _ h => h.2)]
      have h3 := hedges
      rw [rc6Edges_eq 0 (.inl rfl)] at h3
      simp only [List.cons.injEq, Prod.mk.injEq, true_and] at h3
      rw [← h3.2, List.map_append, List.sum_append, rc6_tail_units_sum _ 16 _ 2]
      cases x.1.toggle
      · exact congrArg (· * l) (by decide)
      · exact congrArg (· * l) (by decide)
    have hl43 : (evs' ++ extra).length + 1 = (wave x.1).length := by
      have := hwl x.1
      rw [← hev, alternating_length, List.length_tail]
      show (wave x.1).length - 1 + 1 = _
      omega
    have hextra : ∀ e ∈ extra, e.2 ≤ 3 * l := by
      intro e he
      rcases hex with rfl | ⟨z, rfl⟩
      · cases he
      · obtain ⟨rest, h3, h4⟩ := rc6_wave_tail l (x.1.addr ++ x.1.cmd) x.1.toggle
        rw [h3] at hev
        cases evs' with
        | nil =>
          have h5 := Timed.length ht
          rw [rc6Edges_eq 0 (.inl rfl)] at hedges
          simp only [List.cons.injEq, Prod.mk.injEq, true_and] at hedges
          rw [← hedges.2] at h5
          cases htog : x.1.toggle <;> rw [htog] at h5 <;> simp [rc6Head, edgesFrom] at h5
        | cons q evs'' =>
          simp only [alternating, List.cons_append, List.cons.injEq] at hev
          refine h4 _ (alternating_mem (b := !false) ?_)
          rw [hev.2]
          simp [List.mem_singleton.mp he]
    rw [he, show alternating false (wave x.1).tail = evs' ++ extra from hev, List.append_assoc,
      List.append_assoc, ← List.append_assoc extra, clocked_append, clocked_append, ← List.cons_append,
      ← List.append_assoc]
    have hfr : ManchesterFrame (WithinRc6 tbl) (rc6Edges (x.1.addr ++ x.1.cmd) x.1.toggle)
        ((true, dt) :: clocked fs f phase t' evs') := by
      refine ⟨_, n0, _, edges', rfl, hedges, clocked_timed ?_ t' ht⟩
      intro t2 x2 w hmem hnear
      rw [rc6Edges_eq 0 (.inl rfl)] at hedges
      simp only [List.cons.injEq, Prod.mk.injEq, true_and] at hedges
      obtain ⟨-, rfl⟩ := hedges
      exact rc6_near_within (by omega) (.inl rfl) hlo hf htbl phase t2 (rc6_edges_len _ _ w hmem) hnear
    have hfr' : ManchesterFrame (HalfBits tbl) (rc6EdgesMode 0 (x.1.addr ++ x.1.cmd) x.1.toggle)
        ((true, dt) :: clocked fs f phase t' evs') := by
      have htbl' := htbl
      rw [rc6Spans_eq (.inl rfl) t hf, Option.some.injEq] at htbl'
      subst htbl'
      exact rc6_halfBits (.inl rfl) (t := t) (by omega) hf hfr
    obtain ⟨d', o, g1, g2, g3⟩ := rc6_chunk_at t hus tbl hlen8 _ _ _
      (clocked fs f phase (t' + duration evs') (extra ++ e2))
      (clocked fs f phase (t' + duration evs' + duration (extra ++ e2)) e3) hfr'
      (by
        rw [clocked_length, List.length_append, he2, alternating_length, atLeastOne, List.length_map]
        rw [List.length_append] at hl43
        omega)
      (by
        intro q hq
        obtain ⟨e, he, t2, hq⟩ := clocked_mem hq
        rw [hq]
        refine rc6_short hfs hle hf htbl phase t2 ?_
        rw [hL]
        rcases List.mem_append.mp he with he | he
        · exact hextra e he
        · rw [he2] at he
          exact hstale x.1 b hb _ (alternating_mem he))
      (by
        intro q hq
        obtain ⟨e, he, t2, hq⟩ := clocked_mem hq
        rw [hq]
        exact rc6_unknown hfs hle hf htbl phase t2 (.inl (he3 e he))) d (by
        intro dt' evs' hh
        simp only [List.cons.injEq, Prod.mk.injEq, true_and] at hh
        rw [← hh.1]
        exact hd)
    rw [rc6_fromBits] at g3
    refine ⟨d', o, g1, g2, fun t2 y => ?_⟩
    rw [g3, clocked_length, clocked_length, show (true, y) :: (evs' ++ (extra ++ e2 ++ e3)) =
      ((true, y) :: evs') ++ (extra ++ e2) ++ e3 by simp, timedSaid_frame _ _ _ _ (by simp) _ _ _ _
      (by rw [List.length_cons, List.length_cons, clocked_length]) rfl]
    have h7 : duration ((true, y) :: evs') = y + 51 * l := by
      rw [← hd51]
      simp [duration]
    rw [h7, Nat.add_assoc]
  · intro x hx b hb phase d t' hd
    obtain ⟨⟨a, hs⟩, hclk⟩ := hd
    refine ⟨⟨a, hs, .inl (rc6_unknown hfs hle hf htbl phase t' (.inr ?_))⟩, hclk⟩
    have h1 := hsum x.1 b hb
    have h2 := (hticks x hx).1
    rw [sentChunk, chunkGap]
    dsimp only
    split <;> omega
  · intro dt
    exact ⟨⟨Abs6.start false, sim6_init, .inr ⟨false, false, rfl⟩⟩, .inl (show 0 ≤ 400 by decide)⟩

/-! ## Passing on -/

/-- Commands reported a constant time after they were given to the sender are as far apart as they were given. -/
theorem reports_apart {D : Decoder C'} {convert : C' → C} {fs f phase pause n₀ k L q f₂ more : Nat} {levels : List Bool}
    {cmds : List (A × Nat)} {hear : A → C} (hfs : 2000 ≤ fs) (hle : fs ≤ f) {outs : List (Res C)}
    (hp : pollRun D convert (overhear fs f phase pause levels n₀) = some outs)
    (ho : numberedSaid 1 outs = (completes (fun _ => L) pause cmds).map fun x =>
      (reading fs f phase x.1 + 1, .ok (some (hear x.2))))
    (hticks : ∀ x ∈ cmds, (q + 1) * fs + 1000 * k ≤ 1000 * x.2) (hm : L ≤ more)
    (hn : reading fs f phase (pause + sessionTicks cmds + more) < n₀) (hb : n₀ * f₂ / f + 1 < 2 ^ 32) :
    outs.length = n₀ ∧ (spaced outs).map Prod.fst = cmds.map (fun x => hear x.1) ∧
      ∀ x ∈ spaced outs, q * f + 1000 * k ≤ 1000 * x.2 ∧ x.2 * f₂ / f + 1 < 2 ^ 32 := by
  have hol : outs.length = n₀ := by rw [polled_length _ _ _ _ hp]; simp [overhear, looked]
  have h6 := spaced_distances outs 1 ((completes (fun _ => L) pause cmds).map fun x =>
    (reading fs f phase x.1 + 1, hear x.2)) (by rw [ho, List.map_map]; rfl)
  refine ⟨hol, ?_, fun x hx => ⟨?_, ?_⟩⟩
  · have h7 : ∀ (last time : Nat) (cs : List (A × Nat)), (distances last
        ((completes (fun _ => L) time cs).map fun x => (reading fs f phase x.1 + 1, hear x.2))).map
          Prod.fst = cs.map fun x => hear x.1 := by
      intro last time cs
      induction cs generalizing time with
      | nil => rfl
      | cons a cs ih =>
        cases cs with
        | nil => rfl
        | cons b cs => exact congrArg (_ :: ·) (ih (time + a.2))
    rw [h6, h7]
  · rw [h6] at hx
    refine distances_bounds fs f phase L (1 + outs.length) hear
      (fun d => q * f + 1000 * k ≤ 1000 * d) cmds ?_ pause ?_ x hx
    · intro y hy time
      have h7 := gap_ticks (q := q) (d := 0) (k := k) hfs hle (Nat.zero_le y.2)
        (by have := hticks y hy; omega) phase time
      simp only [Nat.add_zero] at h7
      generalize q * f = z at *
      omega
    · intro y hy time ht
      have h7 := gap_ticks (q := q) (d := 0) (k := k) hfs hle (Nat.zero_le y.2)
        (by have := hticks y (List.mem_of_mem_getLast? hy); omega) phase time
      have h8 := reading_le fs f phase (by omega : time + y.2 ≤ pause + sessionTicks cmds + more)
      simp only [Nat.add_zero] at h7
      generalize q * f = z at *
      omega
  · have h7 : x.2 ≤ n₀ := hol ▸ spaced_le outs x hx
    have h8 : x.2 * f₂ / f ≤ n₀ * f₂ / f := Nat.div_le_div_right (Nat.mul_le_mul_right _ h7)
    omega

/-- C106 (passing on, RC5 to NEC): an RC5 remote that is slow enough to be heard (C58) is slow enough for a program that
hears it and sends NEC commands, with spare slots in the program's sender one tick more per slot. -/
theorem C106_rc5_to_nec (t : Target) (hus : 16 ≤ t.usizeBits) (fs₀ : Nat)
    (hfs₀ : 42000 ≤ fs₀ ∨ (20000 ≤ fs₀ ∧ fs₀ % 1000 = 0)) (f₁ : Nat) (hlo : 40000 ≤ f₁) (hle₁ : fs₀ ≤ f₁)
    (f₂ : Nat) (hle₂ : f₁ ≤ f₂) (hf₂ : f₂ < 2 ^ 32)
    (tbl₀ : PulseSpans) (htbl₀ : rc5Spans t Mono.u32 f₁ = some tbl₀) (l : Nat) (hl : rc5CalcFreq fs₀ = some l)
    (v : NecVariant C) (hv : v.Shipped) (data : NecData) (hdata : necData v.pulseDistance f₁ = some data)
    (tbl : PulseSpans) (htbl : necSpans t Mono.u32 v f₂ = some tbl)
    (convert : Rc5Command → C) (conv : C → K) (cmds : List (Rc5Command × Nat)) (hear : C → C)
    (hcmds₀ : ∀ x ∈ cmds, x.1.addr.toNat < 32 ∧ x.1.cmd.toNat < 64 ∧ x.1.start.toNat < 4)
    (hcmds : ∀ x ∈ cmds, ∃ w, v.pack (convert { x.1 with start := x.1.start ||| 2 }) = some w ∧
      v.unpack w false = some (hear (convert { x.1 with start := x.1.start ||| 2 })))
    (s₀ : Sender) (hidle₀ : s₀.buffer.status = .idle) (k₀ : Nat) (hlen₀ : s₀.buffer.ptb.buf.length = 27 + k₀)
    (hz₀ : s₀.buffer.ptb.buf.drop 27 = List.replicate k₀ 0) (hold : ∀ d ∈ s₀.buffer.ptb.buf, d ≤ 2 * l)
    (s : Sender) (hs : Silent s) (k : Nat) (hlen : s.buffer.ptb.buf.length = 67 + k)
    (hz : s.buffer.ptb.buf.drop 67 = List.replicate k 0)
    (hticks : ∀ x ∈ cmds, 114 * fs₀ + 1000 * (k₀ + k) ≤ 1000 * x.2 ∧ x.2 * f₁ / fs₀ + 1 < 2 ^ 32) :
    ∃ s₀' levels₀, s₀.calls (session (rc5Encode t l) cmds) = some (s₀', levels₀) ∧
      ∀ pause₀ phase₀ n₀ more, phase₀ < fs₀ → reading fs₀ f₁ phase₀ pause₀ + 1 < 2 ^ 32 → 24 * fs₀ ≤ 1000 * more →
      reading fs₀ f₁ phase₀ (pause₀ + sessionTicks cmds + more) < n₀ → n₀ * f₂ / f₁ + 1 < 2 ^ 32 →
      ∃ levels, relayRun (rc5Decoder t tbl₀) convert (necEncode v data) s
          (overhear fs₀ f₁ phase₀ pause₀ levels₀ n₀) = some levels ∧
        ∀ pause phase n, phase < f₁ → 16000 * f₁ ≤ 1000000 * pause → reading f₁ f₂ phase (pause + n₀) + 1 < 2 ^ 32 →
        reading f₁ f₂ phase (pause + n₀) < n →
        (pollRun (necDecoder t Mono.u32 tbl v) conv (overhear f₁ f₂ phase pause levels n)).map said =
          some (oks (cmds.map fun x => conv (hear (convert { x.1 with start := x.1.start ||| 2 })))) := by
  obtain ⟨s₀', levels₀, h1, -, h2⟩ := C106_rc5_session t hus fs₀ hfs₀ f₁ hlo hle₁ (by omega) tbl₀ htbl₀ convert l hl cmds
    hcmds₀ s₀ hidle₀ k₀ hlen₀ hz₀ hold (fun x hx => by have := hticks x hx; omega)
  refine ⟨s₀', levels₀, h1, fun pause₀ phase₀ n₀ more hph hpa hm hn hbn => ?_⟩
  obtain ⟨outs, h3, h4⟩ := h2 pause₀ phase₀ n₀ hph hpa
    (Nat.lt_of_le_of_lt (reading_le _ _ _ (Nat.le_add_right _ _)) hn)
  have e := (rc5CalcFreq_eq (by omega) hl).2 (by omega)
  obtain ⟨h5, h6, h7⟩ := reports_apart (q := 108) (k := k) (f₂ := f₂) (more := more)
    (hear := fun c : Rc5Command => convert { c with start := c.start ||| 2 }) (by omega) hle₁ h3 h4
    (fun x hx => by have := (hticks x hx).1; omega) (by rw [e]; omega) hn hbn
  exact live_nec (rc5Decoder t tbl₀) convert fs₀ f₁ phase₀ pause₀ n₀ k f₂ levels₀ cmds
    (fun c => convert { c with start := c.start ||| 2 }) t (by omega) hle₂ hf₂ ⟨outs, h3, h5, h6, h7⟩ v hv data hdata tbl htbl
    conv s hs hlen hz hear hcmds

/-- C106 (passing on, NEC to RC5): a standard NEC remote that sends a command every 115 ms is slow enough for a program
that hears it and sends RC5 commands. -/
theorem C106_nec_to_rc5 (t : Target) (hus : 16 ≤ t.usizeBits) (fs₀ : Nat)
    (hfs₀ : 21000 ≤ fs₀ ∨ (20000 ≤ fs₀ ∧ fs₀ % 1000 = 0)) (hhi : fs₀ ≤ 477218999)
    (f₁ : Nat) (hle₁ : fs₀ ≤ f₁) (hf₁ : 42000 ≤ f₁ ∨ (20000 ≤ f₁ ∧ f₁ % 1000 = 0)) (f₂ : Nat) (hlo : 40000 ≤ f₂)
    (hle₂ : f₁ ≤ f₂) (hf₂ : f₂ < 2 ^ 32) (tbl₀ : PulseSpans) (htbl₀ : necSpans t Mono.u32 Infrared.nec f₁ = some tbl₀)
    (tbl : PulseSpans) (htbl : rc5Spans t Mono.u32 f₂ = some tbl) (l : Nat) (hl : rc5CalcFreq f₁ = some l)
    (convert : NecCommand → Rc5Command) (conv : Rc5Command → K) (cmds : List (NecCommand × Nat))
    (hcmds : ∀ x ∈ cmds, (convert { x.1 with rep := false }).addr.toNat < 32 ∧
      (convert { x.1 with rep := false }).cmd.toNat < 64 ∧ (convert { x.1 with rep := false }).start.toNat < 4)
    (S₀ : Nat) (hS₀ : 67 ≤ S₀) (pin₀ : Bool)
    (s : Sender) (hs : Silent s) (k : Nat) (hlen : s.buffer.ptb.buf.length = 27 + k)
    (hz : s.buffer.ptb.buf.drop 27 = List.replicate k 0) (hold : ∀ d ∈ s.buffer.ptb.buf, d ≤ 2 * l)
    (hticks : ∀ x ∈ cmds, 115 * fs₀ + 1000 * (S₀ - 67 + k) ≤ 1000 * x.2 ∧ x.2 * f₁ / fs₀ + 1 < 2 ^ 32) :
    ∃ data₀ s₀' levels₀, necData Infrared.nec.pulseDistance fs₀ = some data₀ ∧
      (Sender.new S₀ pin₀).calls (session (necEncode Infrared.nec data₀) cmds) = some (s₀', levels₀) ∧
      ∀ pause₀ phase₀ n₀ more, phase₀ < fs₀ → 16000 * fs₀ ≤ 1000000 * pause₀ → reading fs₀ f₁ phase₀ pause₀ + 1 < 2 ^ 32 →
      68 * fs₀ ≤ 1000 * more →
      reading fs₀ f₁ phase₀ (pause₀ + sessionTicks cmds + more) < n₀ → n₀ * f₂ / f₁ + 1 < 2 ^ 32 →
      ∃ levels, relayRun (necDecoder t Mono.u32 tbl₀ Infrared.nec) convert (rc5Encode t l) s
          (overhear fs₀ f₁ phase₀ pause₀ levels₀ n₀) = some levels ∧
        ∀ pause phase n, phase < f₁ → reading f₁ f₂ phase (pause + n₀) + 1 < 2 ^ 32 →
        reading f₁ f₂ phase (pause + n₀) < n →
        (pollRun (rc5Decoder t tbl) conv (overhear f₁ f₂ phase pause levels n)).map said =
          some (oks (cmds.map fun x => conv { convert { x.1 with rep := false } with
            start := (convert { x.1 with rep := false }).start ||| 2 })) := by
  obtain ⟨data₀, s₀', levels₀, len, h1, hlenT, h2, h3⟩ := C105_standard t fs₀ hfs₀ hhi f₁ hle₁ (by omega) tbl₀ htbl₀
    convert cmds S₀ hS₀ pin₀ (fun x hx => by have := hticks x hx; omega)
  refine ⟨data₀, s₀', levels₀, h1, h2, fun pause₀ phase₀ n₀ more hph hpa hb hm hn hbn => ?_⟩
  obtain ⟨outs, h4, h5, -⟩ := h3 pause₀ phase₀ n₀ hph hpa hb
    (Nat.lt_of_le_of_lt (reading_le _ _ _ (Nat.le_add_right _ _)) hn)
  obtain ⟨h6, h7, h8⟩ := reports_apart (q := 114) (k := k) (f₂ := f₂) (more := more)
    (hear := fun c : NecCommand => convert { c with rep := false }) (by omega) hle₁ h4 h5
    (fun x hx => by have := (hticks x hx).1; omega) (by have := hlenT.1; omega) hn hbn
  have hlenₙ : (overhear fs₀ f₁ phase₀ pause₀ levels₀ n₀).length = n₀ := by simp [overhear, looked]
  obtain ⟨levels, h9, h10⟩ := C104_rc5 (necDecoder t Mono.u32 tbl₀ Infrared.nec) convert t hus f₁ hf₁ f₂ hlo hle₂ hf₂ tbl
    htbl conv l hl s hs k hlen hz hold (overhear fs₀ f₁ phase₀ pause₀ levels₀ n₀) outs h4
    (by
      intro x hxm
      have : x.1 ∈ (spaced outs).map Prod.fst := List.mem_map_of_mem hxm
      rw [h7] at this
      obtain ⟨y, hy, he⟩ := List.mem_map.mp this
      rw [← he]
      exact hcmds y hy) h8
  refine ⟨levels, h9, fun pause phase n hph hb hn => ?_⟩
  have hq := quietPolls_le outs
  have hr := reading_le f₁ f₂ phase (by omega : pause + quietPolls outs ≤ pause + n₀)
  rw [h10 pause phase n hph (by omega) (by rw [hlenₙ]; exact hn),
    map_fst (fun c : Rc5Command => conv { c with start := c.start ||| 2 }), h7, List.map_map]
  rfl

/-- C106 (passing on, RC6 to RC6): an RC6 remote that sends a command every 107 ms is slow enough for a program that hears
it and sends RC6 commands. -/
theorem C106_rc6_relay (t : Target) (hus : 16 ≤ t.usizeBits) (fs₀ : Nat) (hfs₀ : 46000 ≤ fs₀)
    (f₁ : Nat) (hlo₁ : 80000 ≤ f₁) (hle₁ : fs₀ ≤ f₁) (f₂ : Nat) (hle₂ : f₁ ≤ f₂) (hf₂ : f₂ < 2 ^ 32)
    (tbl₀ : PulseSpans) (htbl₀ : rc6Spans t Mono.u32 f₁ = some tbl₀) (l₀ : Nat) (hl₀ : rc6Data fs₀ = some l₀)
    (tbl : PulseSpans) (htbl : rc6Spans t Mono.u32 f₂ = some tbl) (l : Nat) (hl : rc6Data f₁ = some l)
    (convert : Rc6Command → Rc6Command) (conv : Rc6Command → K) (cmds : List (Rc6Command × Nat))
    (s₀ : Sender) (hidle₀ : s₀.buffer.status = .idle) (k₀ : Nat) (hlen₀ : s₀.buffer.ptb.buf.length = 44 + k₀)
    (hz₀ : s₀.buffer.ptb.buf.drop 44 = List.replicate k₀ 0) (hold₀ : ∀ d ∈ s₀.buffer.ptb.buf.drop 2, d ≤ 3 * l₀)
    (s : Sender) (hs : Silent s) (k : Nat) (hlen : s.buffer.ptb.buf.length = 44 + k)
    (hz : s.buffer.ptb.buf.drop 44 = List.replicate k 0) (hold : ∀ d ∈ s.buffer.ptb.buf.drop 2, d ≤ 3 * l)
    (hticks : ∀ x ∈ cmds, 107 * fs₀ + 1000 * (k₀ + k) ≤ 1000 * x.2 ∧ x.2 * f₁ / fs₀ + 1 < 2 ^ 32) :
    ∃ s₀' levels₀, s₀.calls (session (rc6Encode l₀) cmds) = some (s₀', levels₀) ∧
      ∀ pause₀ phase₀ n₀ more, phase₀ < fs₀ → reading fs₀ f₁ phase₀ pause₀ + 1 < 2 ^ 32 → 23 * fs₀ ≤ 1000 * more →
      reading fs₀ f₁ phase₀ (pause₀ + sessionTicks cmds + more) < n₀ → n₀ * f₂ / f₁ + 1 < 2 ^ 32 →
      ∃ levels, relayRun (rc6Decoder t tbl₀) convert (rc6Encode l) s
          (overhear fs₀ f₁ phase₀ pause₀ levels₀ n₀) = some levels ∧
        ∀ pause phase n, phase < f₁ → reading f₁ f₂ phase (pause + n₀) + 1 < 2 ^ 32 →
        reading f₁ f₂ phase (pause + n₀) < n →
        (pollRun (rc6Decoder t tbl) conv (overhear f₁ f₂ phase pause levels n)).map said =
          some (oks (cmds.map fun x => conv (convert x.1))) := by
  obtain ⟨s₀', levels₀, h1, -, h2⟩ := C106_rc6_session t hus fs₀ hfs₀ f₁ hlo₁ hle₁ (by omega) tbl₀ htbl₀ convert l₀ hl₀ cmds
    s₀ hidle₀ k₀ hlen₀ hz₀ hold₀ (fun x hx => by have := hticks x hx; omega)
  refine ⟨s₀', levels₀, h1, fun pause₀ phase₀ n₀ more hph hpa hm hn hbn => ?_⟩
  obtain ⟨outs, h3, h4⟩ := h2 pause₀ phase₀ n₀ hph hpa
    (Nat.lt_of_le_of_lt (reading_le _ _ _ (Nat.le_add_right _ _)) hn)
  have e : 1000000 * l₀ ≤ 444 * fs₀ := by
    unfold rc6Data at hl₀
    split at hl₀
    · cases hl₀; omega
    · cases hl₀
  obtain ⟨h5, h6, h7⟩ := reports_apart (q := 106) (k := k) (f₂ := f₂) (more := more)
    (hear := convert) (by omega) hle₁ h3 h4
    (fun x hx => by have := (hticks x hx).1; omega) (by omega) hn hbn
  have hlenₙ : (overhear fs₀ f₁ phase₀ pause₀ levels₀ n₀).length = n₀ := by simp [overhear, looked]
  obtain ⟨levels, h8, h9⟩ := C104_rc6 (rc6Decoder t tbl₀) convert t hus f₁ (by omega) f₂ (by omega) hle₂ hf₂ tbl htbl conv
    l hl s hs k hlen hz hold (overhear fs₀ f₁ phase₀ pause₀ levels₀ n₀) outs h3 h7
  refine ⟨levels, h8, fun pause phase n hph hb hn => ?_⟩
  have hq := quietPolls_le outs
  have hr := reading_le f₁ f₂ phase (by omega : pause + quietPolls outs ≤ pause + n₀)
  rw [h9 pause phase n hph (by omega) (by rw [hlenₙ]; exact hn), map_fst conv, h6, List.map_map]
  rfl

/-! ## Non-vacuity -/

/-- C106 applies: an RC5 sender at 40 kHz is given two commands 125 ms apart; the receiver reports them at polls 912
and 5912. -/
example (t : Target) (hus : 16 ≤ t.usizeBits) :
    ∃ s' levels outs, (Sender.new 128 false).calls
        (session (rc5Encode t 35) [(⟨5, 9, 3, false⟩, 5000), (⟨20, 61, 2, true⟩, 5000)]) = some (s', levels) ∧
      pollRun (rc5Decoder t (rc5Table 40000)) id (overhear 40000 40000 0 1 levels 11000) = some outs ∧
      numberedSaid 1 outs = [(912, .ok (some ⟨5, 9, 3, false⟩)), (5912, .ok (some ⟨20, 61, 2, true⟩))] := by
  obtain ⟨s', levels, h1, -, h2⟩ := C106_rc5_session t hus 40000 (.inr (by decide)) 40000 (by decide) (by decide) (by decide)
    (rc5Table 40000) (rc5Spans_eq (.inl rfl) t (by decide)) id 35 (by decide)
    [(⟨5, 9, 3, false⟩, 5000), (⟨20, 61, 2, true⟩, 5000)] (by simp) (Sender.new 128 false) rfl 101 rfl rfl
    (by
      intro d hd
      have := (List.mem_replicate.mp (show d ∈ List.replicate 128 0 from hd)).2
      omega) (by simp)
  obtain ⟨outs, h3, h4⟩ := h2 1 0 11000 (by decide) (by decide) (by simp [sessionTicks, reading])
  exact ⟨s', levels, outs, h1, h3, h4⟩

/-- The same for RC6, at 80 kHz. -/
example (t : Target) (hus : 16 ≤ t.usizeBits) (a b : Rc6Command) :
    ∃ s' levels outs, (Sender.new 128 false).calls (session (rc6Encode 35) [(a, 9000), (b, 9000)]) = some (s', levels) ∧
      pollRun (rc6Decoder t (rc6Table 80000)) id (overhear 80000 80000 0 1 levels 19000) = some outs ∧
      numberedSaid 1 outs = [(1787, .ok (some a)), (10787, .ok (some b))] := by
  obtain ⟨s', levels, h1, -, h2⟩ := C106_rc6_session t hus 80000 (by decide) 80000 (by decide) (by decide) (by decide)
    (rc6Table 80000) (rc6Spans_eq (.inl rfl) t (by decide)) id 35 (by decide)
    [(a, 9000), (b, 9000)] (Sender.new 128 false) rfl 84 rfl rfl
    (by
      intro d hd
      have := (List.mem_replicate.mp (show d ∈ List.replicate 128 0 from List.mem_of_mem_drop hd)).2
      omega) (by simp)
  obtain ⟨outs, h3, h4⟩ := h2 1 0 19000 (by decide) (by decide) (by simp [sessionTicks, reading])
  refine ⟨s', levels, outs, h1, h3, ?_⟩
  rw [h4]
  simp [completes, reading]

/-- An RC5 remote, one command every 119 ms, through a program that sends NEC, all at 40 kHz. -/
example (t : Target) (hus : 16 ≤ t.usizeBits) (cmds : List Rc5Command) (hlen : cmds.length ≤ 100000)
    (hc : ∀ c ∈ cmds, c.addr.toNat < 32 ∧ c.cmd.toNat < 64 ∧ c.start.toNat < 4) :
    ∃ data s₀ levels₀ levels, necData Infrared.nec.pulseDistance 40000 = some data ∧
      (Sender.new 128 false).calls (session (rc5Encode t 35) (cmds.map fun c => (c, 4760))) = some (s₀, levels₀) ∧
      relayRun (rc5Decoder t (rc5Table 40000)) (fun c => (⟨c.addr, c.cmd, false⟩ : NecCommand))
        (necEncode Infrared.nec data) (Nat.repeat Sender.tick 130 (Sender.new 128 false))
        (overhear 40000 40000 0 1 levels₀ (962 + 4760 * cmds.length)) = some levels ∧
      (pollRun (necDecoder t Mono.u32 (necTable 40000) Infrared.nec) id
          (overhear 40000 40000 0 800 levels (1763 + 4760 * cmds.length))).map said =
        some (oks (cmds.map fun c => ⟨c.addr, c.cmd, false⟩)) := by
  obtain ⟨data, hdata⟩ := Option.isSome_iff_exists.mp ((C38_nec_compiles 40000 (by omega)).1.mpr (by decide))
  have hpack : ∀ c : NecCommand, ∃ w, Infrared.nec.pack c = some w ∧
      Infrared.nec.unpack w false = some { c with rep := false } := fun c => ⟨_, rfl, (C01_nec_roundtrip { c with rep := false }).2⟩
  obtain ⟨s₀, levels₀, h1, h2⟩ := C106_rc5_to_nec t hus 40000 (.inr (by decide)) 40000 (by decide) (by decide) 40000
    (by decide) (by decide) (rc5Table 40000) (rc5Spans_eq (.inl rfl) t (by decide)) 35 (by decide)
    Infrared.nec (.inl rfl) data hdata (necTable 40000)
    (necSpans_standard (.inl rfl) t (by omega) _ rfl) (fun c => (⟨c.addr, c.cmd, false⟩ : NecCommand)) id
    (cmds.map fun c => (c, 4760)) (fun c => { c with rep := false })
    (by
      intro x hx
      obtain ⟨c, h, rfl⟩ := List.mem_map.mp hx
      exact hc c h) (fun x _ => hpack _) (Sender.new 128 false) rfl 101 rfl rfl
    (by
      intro d hd
      have := (List.mem_replicate.mp (show d ∈ List.replicate 128 0 from hd)).2
      omega)
    (Nat.repeat Sender.tick 130 (Sender.new 128 false)) silent_example.1 61
    (by rw [silent_example.2, List.length_replicate]) (by rw [silent_example.2, List.drop_replicate]) (by
      intro x hx
      obtain ⟨c, -, rfl⟩ := List.mem_map.mp hx
      dsimp only
      decide)
  have hst := sessionTicks_const cmds 4760
  obtain ⟨levels, h3, h4⟩ := h2 1 0 (962 + 4760 * cmds.length) 960 (by decide) (by decide) (by decide)
    (by rw [hst]; simp only [reading]; omega) (by omega)
  refine ⟨data, s₀, levels₀, levels, hdata, h1, h3, ?_⟩
  rw [h4 800 0 _ (by decide) (by decide) (by simp only [reading]; omega) (by simp only [reading]; omega), List.map_map]
  rfl

/-- A NEC remote, one command every 120 ms, through a program that sends RC5, all at 40 kHz. -/
example (t : Target) (hus : 16 ≤ t.usizeBits) (cmds : List NecCommand) (hlen : cmds.length ≤ 100000) :
    ∃ data s₀ levels₀ levels, necData Infrared.nec.pulseDistance 40000 = some data ∧
      (Sender.new 128 false).calls (session (necEncode Infrared.nec data) (cmds.map fun c => (c, 4800))) =
        some (s₀, levels₀) ∧
      relayRun (necDecoder t Mono.u32 (necTable 40000) Infrared.nec)
        (fun c => (⟨c.addr &&& 31, c.cmd &&& 63, 3, false⟩ : Rc5Command))
        (rc5Encode t 35) (Nat.repeat Sender.tick 130 (Sender.new 128 false))
        (overhear 40000 40000 0 800 levels₀ (3521 + 4800 * cmds.length)) = some levels ∧
      (pollRun (rc5Decoder t (rc5Table 40000)) id
          (overhear 40000 40000 0 1 levels (3523 + 4800 * cmds.length))).map said =
        some (oks (cmds.map fun c => ⟨c.addr &&& 31, c.cmd &&& 63, 3, false⟩)) := by
  obtain ⟨data, s₀, levels₀, hdata, h1, h2⟩ := C106_nec_to_rc5 t hus 40000 (.inr (by decide)) (by decide) 40000 (by decide)
    (.inr (by decide)) 40000 (by decide) (by decide) (by decide) (necTable 40000)
    (necSpans_standard (.inl rfl) t (by omega) _ rfl) (rc5Table 40000) (rc5Spans_eq (.inl rfl) t (by decide)) 35 (by decide)
    (fun c => (⟨c.addr &&& 31, c.cmd &&& 63, 3, false⟩ : Rc5Command)) id (cmds.map fun c => (c, 4800))
    (by
      intro x hx
      refine ⟨?_, ?_, show (3 : Nat) < 4 by decide⟩
      · have := @Nat.and_le_right x.1.addr.toNat 31
        simp only [BitVec.toNat_and]
        exact Nat.lt_succ_of_le this
      · have := @Nat.and_le_right x.1.cmd.toNat 63
        simp only [BitVec.toNat_and]
        exact Nat.lt_succ_of_le this) 128 (by decide) false
    (Nat.repeat Sender.tick 130 (Sender.new 128 false)) silent_example.1 101
    (by rw [silent_example.2, List.length_replicate]) (by rw [silent_example.2, List.drop_replicate])
    (by
      intro d hd
      rw [silent_example.2] at hd
      have := (List.mem_replicate.mp hd).2
      omega) (by
      intro x hx
      obtain ⟨c, -, rfl⟩ := List.mem_map.mp hx
      dsimp only
      decide)
  have hst := sessionTicks_const cmds 4800
  obtain ⟨levels, h3, h4⟩ := h2 800 0 (3521 + 4800 * cmds.length) 2720 (by decide) (by decide) (by decide) (by decide)
    (by rw [hst]; simp only [reading]; omega) (by omega)
  refine ⟨data, s₀, levels₀, levels, hdata, h1, h3, ?_⟩
  rw [h4 1 0 _ (by decide) (by simp only [reading]; omega) (by simp only [reading]; omega), List.map_map]
  have e : (3 : BitVec 8) ||| 2 = 3 := by decide
  simp only [Function.comp_def, id, e]

/-- An RC6 remote, one command every 110 ms, through a program that sends RC6 with the address complemented, all at
80 kHz. -/
example (t : Target) (hus : 16 ≤ t.usizeBits) (cmds : List Rc6Command) (hlen : cmds.length ≤ 100000) :
    ∃ s₀ levels₀ levels,
      (Sender.new 128 false).calls (session (rc6Encode 35) (cmds.map fun c => (c, 8800))) = some (s₀, levels₀) ∧
      relayRun (rc6Decoder t (rc6Table 80000)) (fun c => { c with addr := ~~~c.addr })
        (rc6Encode 35) (Nat.repeat Sender.tick 130 (Sender.new 128 false))
        (overhear 80000 80000 0 1 levels₀ (1842 + 8800 * cmds.length)) = some levels ∧
      (pollRun (rc6Decoder t (rc6Table 80000)) id
          (overhear 80000 80000 0 1 levels (1844 + 8800 * cmds.length))).map said =
        some (oks (cmds.map fun c => { c with addr := ~~~c.addr })) := by
  obtain ⟨s₀, levels₀, h1, h2⟩ := C106_rc6_relay t hus 80000 (by decide) 80000 (by decide) (by decide)
    80000 (by decide) (by decide) (rc6Table 80000) (rc6Spans_eq (.inl rfl) t (by decide)) 35 (by decide)
    (rc6Table 80000) (rc6Spans_eq (.inl rfl) t (by decide)) 35 (by decide) (fun c => { c with addr := ~~~c.addr }) id
    (cmds.map fun c => (c, 8800)) (Sender.new 128 false) rfl 84 rfl rfl
    (by
      intro d hd
      have := (List.mem_replicate.mp (show d ∈ List.replicate 128 0 from List.mem_of_mem_drop hd)).2
      omega)
    (Nat.repeat Sender.tick 130 (Sender.new 128 false)) silent_example.1 84
    (by rw [silent_example.2, List.length_replicate]) (by rw [silent_example.2, List.drop_replicate])
    (by
      intro d hd
      rw [silent_example.2] at hd
      have := (List.mem_replicate.mp (List.mem_of_mem_drop hd)).2
      omega) (by
      intro x hx
      obtain ⟨c, -, rfl⟩ := List.mem_map.mp hx
      dsimp only
      decide)
  have hst := sessionTicks_const cmds 8800
  obtain ⟨levels, h3, h4⟩ := h2 1 0 (1842 + 8800 * cmds.length) 1840 (by decide) (by decide) (by decide)
    (by rw [hst]; simp only [reading]; omega) (by omega)
  refine ⟨s₀, levels₀, levels, h1, h3, ?_⟩
  rw [h4 1 0 _ (by decide) (by simp only [reading]; omega) (by simp only [reading]; omega), List.map_map]
  rfl

end Infrared
