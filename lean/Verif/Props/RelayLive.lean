import Verif.Props.Relay
import Verif.Props.PolledNoise
import Verif.Props.Fugit

/-!
# C104: the sessions that a relay passes on
-/

namespace Infrared
open Spec

variable {C C' K K' : Type}

/-! ### Positions of reports -/

/-- The commands among results. -/
def reported (outs : List (Res K)) : List K := outs.filterMap fun
  | .ok (some c) => some c
  | _ => none

theorem reported_append (a b : List (Res K)) : reported (a ++ b) = reported a ++ reported b :=
  List.filterMap_append ..

theorem reported_said (outs : List (Res K)) : reported (said outs) = reported outs := by
  induction outs with
  | nil => rfl
  | cons r l ih =>
    rcases r with e | c
    · exact ih
    · rcases c with _ | c
      · exact ih
      · exact congrArg (c :: ·) ih

theorem reported_oks (cs : List K) : reported (oks cs) = cs := by
  induction cs with
  | nil => rfl
  | cons c cs ih => exact congrArg (c :: ·) ih

theorem spaced_reported (outs : List (Res K)) : (spaced outs).map Prod.fst = reported outs := by
  induction outs with
  | nil => rfl
  | cons r l ih =>
    rcases r with e | c
    · exact ih
    · rcases c with _ | c
      · exact ih
      · exact congrArg (c :: ·) ih

theorem mem_spaced (outs : List (Res K)) (x : K × Nat) (hx : x ∈ spaced outs) :
    ∃ u w, outs = u ++ .ok (some x.1) :: w ∧ x.2 = quietPolls w + 1 := by
  induction outs with
  | nil => cases hx
  | cons r l ih =>
    have later : x ∈ spaced l → ∃ u w, r :: l = u ++ .ok (some x.1) :: w ∧ x.2 = quietPolls w + 1 := by
      intro h
      obtain ⟨u, w, h1, h2⟩ := ih h
      exact ⟨r :: u, w, by rw [h1]; rfl, h2⟩
    rcases r with e | c
    · exact later hx
    · rcases c with _ | c
      · exact later hx
      · rcases List.mem_cons.mp hx with rfl | h
        · exact ⟨[], l, rfl, rfl⟩
        · exact later h

theorem quiet_split (w : List (Res K)) : (reported w = [] ∧ quietPolls w = w.length) ∨
    ∃ q c w', w = q ++ .ok (some c) :: w' ∧ reported q = [] ∧ quietPolls w = q.length := by
  induction w with
  | nil => exact .inl ⟨rfl, rfl⟩
  | cons r l ih =>
    have later : (∀ m : List (Res K), reported (r :: m) = reported m) →
        quietPolls (r :: l) = quietPolls l + 1 → (reported (r :: l) = [] ∧ quietPolls (r :: l) = (r :: l).length) ∨
        ∃ q c w', r :: l = q ++ .ok (some c) :: w' ∧ reported q = [] ∧ quietPolls (r :: l) = q.length := by
      intro h1 h2
      rcases ih with ⟨h3, h4⟩ | ⟨q, c, w', h3, h4, h5⟩
      · exact .inl ⟨by rw [h1, h3], by rw [h2, h4]; rfl⟩
      · exact .inr ⟨r :: q, c, w', by rw [h3]; rfl, by rw [h1, h4], by rw [h2, h5]; rfl⟩
    rcases r with e | c
    · exact later (fun _ => rfl) rfl
    · rcases c with _ | c
      · exact later (fun _ => rfl) rfl
      · exact .inr ⟨[], c, l, rfl, rfl, rfl⟩

theorem reported_take_le (outs : List (Res K)) (a : Nat) (u w : List (Res K)) (h : outs = u ++ w) (ha : a ≤ u.length) :
    (reported (outs.take a)).length ≤ (reported u).length := by
  rw [h, List.take_append_of_le_length ha]
  conv_rhs => rw [← List.take_append_drop a u, reported_append, List.length_append]
  omega

theorem reported_take_ge (outs : List (Res K)) (a : Nat) (u w : List (Res K)) (h : outs = u ++ w) (ha : u.length ≤ a) :
    (reported u).length ≤ (reported (outs.take a)).length := by
  rw [h, List.take_append, List.take_of_length_le ha, reported_append, List.length_append]
  omega

/-- If the report of number `j` comes not before `a j` and before `b j`, the reports are as far apart as these. -/
theorem spaced_gaps (outs : List (Res K)) (a b : Nat → Nat) (G : Nat)
    (ha : ∀ j < (reported outs).length, (reported (outs.take (a (j + 1)))).length ≤ j + 1)
    (hb : ∀ j < (reported outs).length, j + 1 ≤ (reported (outs.take (b j))).length)
    (hG : ∀ j < (reported outs).length, b j + G ≤ a (j + 1) + 1)
    (hend : a (reported outs).length ≤ outs.length) (x : K × Nat) (hx : x ∈ spaced outs) : G ≤ x.2 := by
  obtain ⟨u, w, h1, h2⟩ := mem_spaced outs x hx
  have hone : ∀ m : List (Res K), reported (.ok (some x.1) :: m) = x.1 :: reported m := fun _ => rfl
  have hlen : (reported outs).length = (reported u).length + ((reported w).length + 1) := by
    rw [h1, reported_append, hone, List.length_append, List.length_cons]
  have hj : (reported u).length < (reported outs).length := by omega
  have hp : u.length < b (reported u).length := by
    by_contra hc
    have := reported_take_le outs (b (reported u).length) u _ h1 (by omega)
    have := hb _ hj
    omega
  have hg := hG _ hj
  rcases quiet_split w with ⟨h3, h4⟩ | ⟨q, c, w', h3, h4, h5⟩
  · rw [h3, List.length_nil] at hlen
    rw [hlen] at hend
    have hl : outs.length = u.length + (w.length + 1) := by rw [h1, List.length_append, List.length_cons]
    simp only [Nat.zero_add] at hend
    omega
  · have h6 : outs = (u ++ .ok (some x.1) :: (q ++ [.ok (some c)])) ++ w' := by
      rw [h1, h3]; simp
    have hc : (reported (u ++ .ok (some x.1) :: (q ++ [.ok (some c)]))).length = (reported u).length + 2 := by
      rw [reported_append, hone, reported_append, h4, List.length_append]
      rfl
    have hl : (u ++ (Except.ok (some x.1) : Res K) :: (q ++ [.ok (some c)])).length = u.length + (q.length + 2) := by
      simp
    have hle : a ((reported u).length + 1) < u.length + (q.length + 2) := by
      by_contra hcon
      have h7 := reported_take_ge outs (a ((reported u).length + 1)) _ _ h6 (by rw [hl]; omega)
      have h8 := ha _ hj
      omega
    omega

theorem spaced_le (outs : List (Res K)) (x : K × Nat) (hx : x ∈ spaced outs) : x.2 ≤ outs.length := by
  obtain ⟨u, w, h1, h2⟩ := mem_spaced outs x hx
  rw [h1, List.length_append, List.length_cons]
  rcases quiet_split w with ⟨-, h4⟩ | ⟨q, c, w', h3, -, h5⟩
  · omega
  · have : w.length = q.length + (w'.length + 1) := by rw [h3, List.length_append, List.length_cons]
    omega

theorem pollRun_take (D : Decoder C) (conv : C → K) (samples : List Bool) (outs : List (Res K)) (a : Nat)
    (h : pollRun D conv samples = some outs) : pollRun D conv (samples.take a) = some (outs.take a) := by
  have hl := polled_length D conv samples outs h
  unfold pollRun at h ⊢
  rcases h1 : runStep (fun p s => PeriodicPoll.pollBase D conv p s) (PeriodicPoll.new D) samples with _ | ⟨s, o⟩
  · rw [h1] at h; cases h
  · rw [h1] at h
    cases h
    rw [← List.take_append_drop a samples] at h1
    obtain ⟨s1, o1, o2, h2, h3, h4⟩ := run_append_inv h1
    rw [h2]
    have h5 := polled_length D conv (samples.take a) o1 (by unfold pollRun; rw [h2]; rfl)
    show some o1 = some (o.take a)
    rw [h4]
    congr 1
    rw [List.length_take] at h5
    by_cases hc : a ≤ samples.length
    · rw [List.take_append_of_le_length (by omega), List.take_of_length_le (by omega)]
    · have h6 : o.length = o1.length + o2.length := by rw [h4, List.length_append]
      have h7 : o2 = [] := List.eq_nil_of_length_eq_zero (by simp only at hl; omega)
      rw [h7, List.append_nil, List.take_of_length_le (by omega)]

/-! ### The line up to a moment -/

theorem looked_same {fs f phase : Nat} (hf : 0 < f) (l1 l2 : List Bool) (m n : Nat) (hphase : phase < fs)
    (hn : n * fs ≤ m * f + phase) (h : ∀ i < m, l1.getD i false = l2.getD i false) :
    looked fs f phase l1 n = looked fs f phase l2 n := by
  unfold looked
  refine List.map_congr_left fun i hi => h _ ?_
  rw [List.mem_range] at hi
  have h1 : 1 * fs ≤ (i + 1) * fs := Nat.mul_le_mul_right _ (by omega)
  have h2 : (i + 1) * fs ≤ n * fs := Nat.mul_le_mul_right _ (by omega)
  rw [Nat.div_lt_iff_lt_mul hf]
  omega

theorem looked_take (fs f phase : Nat) (levels : List Bool) (a n : Nat) (h : a ≤ n) :
    (looked fs f phase levels n).take a = looked fs f phase levels a := by
  unfold looked
  rw [← List.map_take, List.take_range, Nat.min_eq_left h]

theorem sender_calls_append (a b : List SenderCall) : ∀ s : Sender, s.calls (a ++ b) =
    (s.calls a).bind fun x => (x.1.calls b).map fun y => (y.1, x.2 ++ y.2) := by
  induction a with
  | nil => intro s; simp [Sender.calls]
  | cons c cs ih =>
    intro s
    cases c with
    | load enc =>
      rw [List.cons_append, Sender.calls, Sender.calls]
      rcases s.load enc with _ | s1
      · rfl
      · exact ih s1
    | tick =>
      rw [List.cons_append, Sender.calls, Sender.calls, ih]
      rcases s.tick.calls cs with _ | x
      · rfl
      · simp only [Option.map_some, Option.bind_some, Option.map_map]
        rfl

theorem session_levels {A : Type} (enc : A → Encode) (cmds : List (A × Nat)) : ∀ (s s' : Sender) (levels : List Bool),
    s.calls (session enc cmds) = some (s', levels) → levels.length = sessionTicks cmds := by
  induction cmds with
  | nil => intro s s' levels h; cases h; rfl
  | cons x cs ih =>
    intro s s' levels h
    unfold session at h ih
    rw [List.flatMap_cons, List.cons_append, Sender.calls] at h
    rcases hl : s.load (enc x.1) with _ | s1 <;> rw [hl] at h
    · cases h
    · rw [Option.bind_some, calls_ticks] at h
      rcases hc : (s1.ticks x.2).calls (cs.flatMap fun x => .load (enc x.1) :: List.replicate x.2 .tick) with _ | y <;>
        rw [hc] at h
      · cases h
      · cases h
        rw [List.length_append, pins_length, ih _ _ _ hc]
        simp [sessionTicks]

/-- Idle only after the whole buffer has been played. -/
def Played (s : Sender) : Prop := s.buffer.status = .idle → s.buffer.ptb.buf.length ≤ s.buffer.pos

theorem played_tick (s : Sender) (h : Played s) : Played s.tick := by
  unfold Played Sender.tick PulsedataSender.tick at *
  rcases hg : s.buffer.ptb.get s.buffer.pos with _ | dist
  · intro _
    exact List.getElem?_eq_none_iff.mp hg
  · dsimp only
    split
    · intro hc
      exfalso
      revert hc
      rcases s.buffer.status with _ | b | _
      · simp
      · cases b <;> simp
      · simp
    · intro hc
      exact h hc

theorem played_first (s s1 : Sender) (enc : Encode) (w : List Nat) (hw : Writes enc (0 :: w))
    (h : s.load enc = some s1) : Played s1.tick := by
  unfold Sender.load at h
  split at h
  · obtain ⟨b, hb, h2⟩ := Option.bind_eq_some_iff.mp h
    cases h2
    unfold PulsedataSender.loadCommand at hb
    obtain ⟨ptb, hp, h3⟩ := Option.bind_eq_some_iff.mp hb
    cases h3
    have h0 : ptb.get 0 = some 0 := by
      unfold PulsedataBuffer.load at hp
      split at hp
      · obtain ⟨y, hy, h4⟩ := Option.bind_eq_some_iff.mp hp
        cases h4
        rw [hw] at hy
        split at hy
        · cases hy
          rfl
        · cases hy
      · cases hp
    unfold Played Sender.tick PulsedataSender.tick
    simp only [PulsedataSender.reset, h0]
    simp
  · cases h
    rename_i hne
    exact played_tick _ fun hc => absurd hc hne

theorem played_ticks (n : Nat) : ∀ s : Sender, Played s → Played (s.ticks n) := by
  induction n with
  | zero => intro s h; exact h
  | succ n ih => intro s h; exact ih _ (played_tick s h)

theorem played_session {A : Type} (enc : A → Encode) (cmds : List (A × Nat))
    (hw : ∀ x ∈ cmds, ∃ w, Writes (enc x.1) (0 :: w)) (ht : ∀ x ∈ cmds, 1 ≤ x.2) :
    ∀ (s s' : Sender) (levels : List Bool), (Played s ∨ cmds ≠ []) →
    s.calls (session enc cmds) = some (s', levels) → Played s' := by
  induction cmds with
  | nil =>
    intro s s' levels hs h
    cases h
    rcases hs with hs | hs
    · exact hs
    · exact absurd rfl hs
  | cons x cs ih =>
    intro s s' levels _ h
    unfold session at h ih
    rw [List.flatMap_cons, List.cons_append, Sender.calls] at h
    rcases hl : s.load (enc x.1) with _ | s1 <;> rw [hl] at h
    · cases h
    · rw [Option.bind_some, calls_ticks] at h
      rcases hc : (s1.ticks x.2).calls (cs.flatMap fun x => .load (enc x.1) :: List.replicate x.2 .tick) with _ | y <;>
        rw [hc] at h
      · cases h
      · cases h
        obtain ⟨w, hw1⟩ := hw x List.mem_cons_self
        have h1 := ht x List.mem_cons_self
        obtain ⟨k, hk⟩ : ∃ k, x.2 = k + 1 := ⟨x.2 - 1, by omega⟩
        have hp : Played (s1.ticks x.2) := by
          rw [hk]
          exact played_ticks k _ (played_first s s1 _ w hw1 hl)
        exact ih (fun y hy => hw y (List.mem_cons_of_mem _ hy)) (fun y hy => ht y (List.mem_cons_of_mem _ hy))
          _ _ _ (.inl hp) hc

theorem session_cut {A : Type} (enc : A → Encode) (cmds : List (A × Nat)) (j : Nat) (hj : j < cmds.length) (d : Nat)
    (hd : d ≤ cmds[j].2) :
    session enc cmds = session enc (cmds.take j ++ [(cmds[j].1, d)]) ++
      (List.replicate (cmds[j].2 - d) .tick ++ session enc (cmds.drop (j + 1))) := by
  conv_lhs => rw [← List.take_append_drop j cmds, List.drop_eq_getElem_cons hj]
  unfold session
  rw [List.flatMap_append, List.flatMap_append, List.flatMap_cons, List.flatMap_cons, List.flatMap_nil, List.append_nil,
    List.append_assoc, List.cons_append, List.cons_append, ← List.append_assoc (List.replicate d _),
    List.replicate_append_replicate, Nat.add_sub_cancel' hd]

theorem session_append {A : Type} (enc : A → Encode) (a b : List (A × Nat)) :
    session enc (a ++ b) = session enc a ++ session enc b := List.flatMap_append ..

theorem sessionTicks_append {A : Type} (a b : List (A × Nat)) :
    sessionTicks (a ++ b) = sessionTicks a + sessionTicks b := by
  simp [sessionTicks]

theorem reading_le (u f phase : Nat) {a b : Nat} (h : a ≤ b) : reading u f phase a ≤ reading u f phase b := by
  obtain ⟨c, rfl⟩ := Nat.exists_eq_add_of_le h
  exact reading_mono ..

theorem reading_mul (u f phase a : Nat) : reading u f phase a * u ≤ a * f + phase := Nat.div_mul_le_self ..

/-- The reports of a session come as far apart as the commands, less the time `d` within which a command is reported. -/
theorem report_gaps {A : Type} (D : Decoder C) (conv : C → K) (enc : A → Encode) (hear : A → K) (fs f : Nat)
    (hle : fs ≤ f) (s : Sender) (cmds : List (A × Nat)) (d : Nat)
    (hw : ∀ x ∈ cmds, ∃ w, Writes (enc x.1) (0 :: w)) (hd : 1 ≤ d) (hx : ∀ x ∈ cmds, d < x.2)
    (pause phase : Nat) (hphase : phase < fs)
    (hsess : ∀ cmds' : List (A × Nat), (∀ x ∈ cmds', ∃ y ∈ cmds, x.1 = y.1 ∧ d ≤ x.2 ∧ x.2 ≤ y.2) →
      ∃ s' levels, s.calls (session enc cmds') = some (s', levels) ∧ s'.buffer.status = .idle ∧
        ∀ n, reading fs f phase (pause + sessionTicks cmds') < n →
        (pollRun D conv (overhear fs f phase pause levels n)).map said = some (oks (cmds'.map fun x => hear x.1)))
    (s' : Sender) (levels : List Bool) (hl : s.calls (session enc cmds) = some (s', levels)) (n : Nat)
    (hn : reading fs f phase (pause + sessionTicks cmds) < n) (outs : List (Res K))
    (hp : pollRun D conv (overhear fs f phase pause levels n) = some outs) (G : Nat)
    (hG : ∀ time, ∀ x ∈ cmds, reading fs f phase (time + d) + G ≤ reading fs f phase (time + x.2)) :
    ∀ x ∈ spaced outs, G ≤ x.2 := by
  have hf : 0 < f := by omega
  have count : ∀ cmds' : List (A × Nat), ∀ levels' n' outs',
      (∀ n, reading fs f phase (pause + sessionTicks cmds') < n →
        (pollRun D conv (overhear fs f phase pause levels' n)).map said = some (oks (cmds'.map fun x => hear x.1))) →
      reading fs f phase (pause + sessionTicks cmds') < n' →
      pollRun D conv (overhear fs f phase pause levels' n') = some outs' → (reported outs').length = cmds'.length := by
    intro cmds' levels' n' outs' h1 h2 h3
    have h4 := h1 n' h2
    rw [h3, Option.map_some, Option.some.injEq] at h4
    rw [← reported_said, h4, reported_oks, List.length_map]
  have hwhole : (reported outs).length = cmds.length := by
    obtain ⟨s1, l1, h1, -, h3⟩ := hsess cmds fun x hxm => ⟨x, hxm, rfl, Nat.le_of_lt (hx x hxm), Nat.le_refl _⟩
    rw [hl] at h1
    cases h1
    exact count cmds levels n outs h3 hn hp
  have htake : ∀ j, sessionTicks (cmds.take j) ≤ sessionTicks cmds := by
    intro j
    conv_rhs => rw [← List.take_append_drop j cmds, sessionTicks_append]
    omega
  have hstep : ∀ j, ∀ hj : j < cmds.length, sessionTicks (cmds.take (j + 1)) = sessionTicks (cmds.take j) + cmds[j].2 := by
    intro j hj
    rw [List.take_succ_eq_append_getElem hj, sessionTicks_append]
    simp [sessionTicks]
  have hlen := polled_length D conv _ outs hp
  have hlen' : (overhear fs f phase pause levels n).length = n := by simp [overhear, looked]
  refine fun x hxm => spaced_gaps outs (fun j => reading fs f phase (pause + sessionTicks (cmds.take j)))
    (fun j => reading fs f phase (pause + sessionTicks (cmds.take j) + d) + 1) G ?_ ?_ ?_ ?_ x hxm
  · intro j hj
    rw [hwhole] at hj
    generalize hj1 : j + 1 = j1
    obtain ⟨s1, l1, h1, -, h3⟩ := hsess (cmds.take j1) fun x hxm =>
      ⟨x, List.mem_of_mem_take hxm, rfl, Nat.le_of_lt (hx x (List.mem_of_mem_take hxm)), Nat.le_refl _⟩
    have hcut : ∃ l2, levels = l1 ++ l2 := by
      have h4 := hl
      rw [← List.take_append_drop j1 cmds, session_append, sender_calls_append, h1, Option.bind_some] at h4
      rcases h5 : s1.calls (session enc (cmds.drop j1)) with _ | y <;> rw [h5] at h4
      · cases h4
      · cases h4
        exact ⟨_, rfl⟩
    obtain ⟨l2, rfl⟩ := hcut
    have hl1 := session_levels enc _ _ _ _ h1
    generalize ha : reading fs f phase (pause + sessionTicks (cmds.take j1)) = a at *
    have hle' : a ≤ n := by
      have := reading_le fs f phase
        (Nat.add_le_add_left (htake j1) pause)
      omega
    rcases hr : pollRun D conv (overhear fs f phase pause l1 (a + 1)) with _ | o
    · have := h3 (a + 1) (by omega)
      rw [hr] at this
      cases this
    · have hc := count (cmds.take j1) l1 (a + 1) o (by rw [ha]; exact h3) (by omega) hr
      have e1 := pollRun_take D conv _ _ a hr
      have e2 := pollRun_take D conv _ _ a hp
      unfold overhear at e1 e2
      rw [looked_take _ _ _ _ _ _ (by omega)] at e1 e2
      have hsame := looked_same (fs := fs) (phase := phase) hf (List.replicate pause false ++ (l1 ++ l2)) (List.replicate pause false ++ l1)
        (pause + sessionTicks (cmds.take j1)) a hphase (by rw [← ha]; exact reading_mul ..) (by
          intro i hi
          rw [← List.append_assoc, List.getD_eq_getElem?_getD, List.getD_eq_getElem?_getD,
            List.getElem?_append_left (by rw [List.length_append, List.length_replicate, hl1]; exact hi)])
      rw [hsame, e1, Option.some.injEq] at e2
      rw [← e2]
      have h6 := reported_take_le o a o [] (by simp) (by
        have := polled_length D conv _ o hr
        simp [overhear, looked] at this
        omega)
      rw [hc, List.length_take] at h6
      omega
  · intro j hj
    rw [hwhole] at hj
    have hxj := hx cmds[j] (List.getElem_mem hj)
    obtain ⟨s1, l1, h1, hid, h3⟩ := hsess (cmds.take j ++ [(cmds[j].1, d)]) (by
      intro x hxm
      rcases List.mem_append.mp hxm with h | h
      · exact ⟨x, List.mem_of_mem_take h, rfl, Nat.le_of_lt (hx x (List.mem_of_mem_take h)), Nat.le_refl _⟩
      · rw [List.mem_singleton] at h
        subst h
        exact ⟨cmds[j], List.getElem_mem hj, rfl, Nat.le_refl _, by dsimp only; omega⟩)
    have hplayed : Played s1 := played_session enc _ (by
      intro x hxm
      rcases List.mem_append.mp hxm with h | h
      · exact hw x (List.mem_of_mem_take h)
      · rw [List.mem_singleton] at h
        subst h
        exact hw cmds[j] (List.getElem_mem hj)) (by
      intro x hxm
      rcases List.mem_append.mp hxm with h | h
      · have := hx x (List.mem_of_mem_take h); omega
      · rw [List.mem_singleton] at h
        subst h
        exact hd) s s1 l1 (.inr (by simp)) h1
    have hcut : ∃ l2, levels = l1 ++ (List.replicate (cmds[j].2 - d) false ++ l2) := by
      have h4 := hl
      rw [session_cut enc cmds j hj d (by omega), sender_calls_append, h1, Option.bind_some] at h4
      obtain ⟨s2, -, h5⟩ := silent_calls (cmds[j].2 - d) (session enc (cmds.drop (j + 1))) s1 ⟨hid, hplayed hid⟩
      rw [h5] at h4
      rcases h6 : s2.calls (session enc (cmds.drop (j + 1))) with _ | y <;> rw [h6] at h4
      · cases h4
      · cases h4
        exact ⟨_, rfl⟩
    obtain ⟨l2, rfl⟩ := hcut
    have hl1 := session_levels enc _ _ _ _ h1
    have ht : sessionTicks (cmds.take j ++ [(cmds[j].1, d)]) = sessionTicks (cmds.take j) + d := by
      rw [sessionTicks_append]; simp [sessionTicks]
    rw [ht] at hl1 h3
    generalize hb : reading fs f phase (pause + sessionTicks (cmds.take j) + d) = b at *
    rw [← Nat.add_assoc, hb] at h3
    have hle' : b + 1 ≤ n := by
      have h7 : pause + sessionTicks (cmds.take j) + d ≤ pause + sessionTicks cmds := by
        have := htake (j + 1)
        rw [hstep j hj] at this
        omega
      have := reading_le fs f phase h7
      omega
    rcases hr : pollRun D conv (overhear fs f phase pause l1 (b + 1)) with _ | o
    · have := h3 (b + 1) (by omega)
      rw [hr] at this
      cases this
    · have hc := count (cmds.take j ++ [(cmds[j].1, d)]) l1 (b + 1) o (by rw [ht, ← Nat.add_assoc, hb]; exact h3)
        (by rw [ht, ← Nat.add_assoc, hb]; omega) hr
      have e2 := pollRun_take D conv _ _ (b + 1) hp
      unfold overhear at e2 hr
      rw [looked_take _ _ _ _ _ _ hle'] at e2
      have hm : (b + 1) * fs ≤ (pause + (sessionTicks (cmds.take j) + d) + 1) * f + phase := by
        have := reading_mul fs f phase (pause + sessionTicks (cmds.take j) + d)
        rw [hb] at this
        rw [Nat.add_one_mul, Nat.add_one_mul, ← Nat.add_assoc]
        omega
      have hsame := looked_same (fs := fs) (phase := phase) hf
        (List.replicate pause false ++ (l1 ++ (List.replicate (cmds[j].2 - d) false ++ l2)))
        (List.replicate pause false ++ l1) (pause + (sessionTicks (cmds.take j) + d) + 1) (b + 1) hphase hm (by
          intro i hi
          have hpl : (List.replicate pause false ++ l1).length = pause + (sessionTicks (cmds.take j) + d) := by
            rw [List.length_append, List.length_replicate, hl1]
          rw [← List.append_assoc, List.getD_eq_getElem?_getD, List.getD_eq_getElem?_getD]
          by_cases hi' : i < pause + (sessionTicks (cmds.take j) + d)
          · rw [List.getElem?_append_left (by rw [hpl]; exact hi')]
          · rw [List.getElem?_append_right (by omega), List.getElem?_append_left (by rw [List.length_replicate]; omega),
              List.getElem?_replicate, if_pos (by omega), List.getElem?_eq_none (by omega)]
            rfl)
      rw [hsame, hr, Option.some.injEq] at e2
      rw [← e2, hc, List.length_append, List.length_take]
      simp
      omega
  · intro j hj
    rw [hwhole] at hj
    have h1 := hG (pause + sessionTicks (cmds.take j)) cmds[j] (List.getElem_mem hj)
    rw [hstep j hj, ← Nat.add_assoc]
    omega
  · rw [hwhole, List.take_length, hlen, hlen']
    omega

theorem gap_ticks {q fs f k d x : Nat} (hfs : 2000 ≤ fs) (hle : fs ≤ f) (hd : d ≤ x)
    (hx : (q + 1) * fs + 1000 * k ≤ 1000 * (x - d)) (phase time : Nat) :
    reading fs f phase (time + d) + (q * f + 1000 * k + 999) / 1000 ≤ reading fs f phase (time + x) := by
  have h1 := (reading_bounds (by omega : 0 < fs) f phase (time + d) (x - d)).2
  have h2 := reading_mono fs f phase (time + d) (x - d)
  have h3 : time + d + (x - d) = time + x := by omega
  rw [h3] at h1 h2
  generalize reading fs f phase (time + x) = r at *
  generalize reading fs f phase (time + d) = p at *
  suffices h : q * f + 1000 * k + 999 ≤ 1000 * (r - p) by omega
  refine Nat.le_of_mul_le_mul_left (c := fs) ?_ (by omega)
  have h4 := Nat.mul_le_mul_right f hx
  have h5 := Nat.mul_le_mul_left k hle
  have h6 := Nat.mul_le_mul_left fs (by omega : 2000 ≤ f)
  have e1 : ((q + 1) * fs + 1000 * k) * f = q * (fs * f) + fs * f + 1000 * (k * f) := by
    rw [Nat.add_mul, Nat.mul_assoc, Nat.mul_assoc, Nat.add_one_mul]
  have e2 : 1000 * (x - d) * f = 1000 * ((x - d) * f) := Nat.mul_assoc ..
  have e3 : fs * (q * f + 1000 * k + 999) = q * (fs * f) + 1000 * (k * fs) + 999 * fs := by
    rw [Nat.mul_add, Nat.mul_add, Nat.mul_left_comm, Nat.mul_left_comm fs 1000, Nat.mul_comm fs k, Nat.mul_comm fs 999]
  have e4 : fs * (1000 * (r - p)) = 1000 * (fs * (r - p)) := Nat.mul_left_comm ..
  rw [e1, e2] at h4
  rw [e3, e4]
  omega

theorem pause_long {t : Target} {v : NecVariant C} (hv : v.Shipped) {fs f : Nat} (hfs : 0 < fs) (hlo : 20000 ≤ f)
    (hf : f < 2 ^ 32) {tbl : PulseSpans} (htbl : necSpans t Mono.u32 v f = some tbl) {pause phase : Nat}
    (hp : 16000 * fs ≤ 1000000 * pause) (hb : reading fs f phase pause + 1 < 2 ^ 32) :
    Pause tbl 32 [0, 1] (0, reading fs f phase pause + 1) := by
  obtain ⟨kd, -, hk⟩ := nec_kind v hv
  have hg := long_not_symbol (.inl rfl) hf hlo kd (by rw [← hk]; exact htbl) (reading_pause hfs f phase hp)
  exact ⟨by simpa using hb, fun i _ hin => hg i (by simpa using hin)⟩

theorem quietPolls_le (outs : List (Res K)) : quietPolls outs ≤ outs.length := by
  rw [← spaced_total outs]
  omega

/-- What the receiver of such a program reports, and how far apart. -/
theorem live_reports {A : Type} (D : Decoder C') (convert : C' → C) (enc₀ : A → Encode) (hear₀ : A → C) (fs₀ f₁ : Nat)
    (hfs₀ : 20000 ≤ fs₀) (hle₁ : fs₀ ≤ f₁) (s₀ : Sender) (cmds : List (A × Nat)) (d q k : Nat)
    (hw : ∀ x ∈ cmds, ∃ w, Writes (enc₀ x.1) (0 :: w)) (hd : 1 ≤ d)
    (hx : ∀ x ∈ cmds, 1000 * d + ((q + 1) * fs₀ + 1000 * k) ≤ 1000 * x.2)
    (pause₀ phase₀ : Nat) (hphase₀ : phase₀ < fs₀)
    (hsess : ∀ cmds' : List (A × Nat), (∀ x ∈ cmds', ∃ y ∈ cmds, x.1 = y.1 ∧ d ≤ x.2 ∧ x.2 ≤ y.2) →
      ∃ s' levels, s₀.calls (session enc₀ cmds') = some (s', levels) ∧ s'.buffer.status = .idle ∧
        ∀ n, reading fs₀ f₁ phase₀ (pause₀ + sessionTicks cmds') < n →
        (pollRun D convert (overhear fs₀ f₁ phase₀ pause₀ levels n)).map said =
          some (oks (cmds'.map fun x => hear₀ x.1)))
    (s₀' : Sender) (levels₀ : List Bool) (hl : s₀.calls (session enc₀ cmds) = some (s₀', levels₀)) (n₀ : Nat)
    (hn₀ : reading fs₀ f₁ phase₀ (pause₀ + sessionTicks cmds) < n₀) (f₂ : Nat) (hbound : n₀ * f₂ / f₁ + 1 < 2 ^ 32) :
    ∃ outs, pollRun D convert (overhear fs₀ f₁ phase₀ pause₀ levels₀ n₀) = some outs ∧ outs.length = n₀ ∧
      (spaced outs).map Prod.fst = cmds.map (fun x => hear₀ x.1) ∧
      ∀ x ∈ spaced outs, q * f₁ + 1000 * k ≤ 1000 * x.2 ∧ x.2 * f₂ / f₁ + 1 < 2 ^ 32 := by
  have hpos : ∀ x ∈ cmds, d < x.2 := by
    intro x hxm
    have := hx x hxm
    have h1 : 1 * fs₀ ≤ (q + 1) * fs₀ := Nat.mul_le_mul_right _ (by omega)
    omega
  obtain ⟨s1, l1, h1, -, h3⟩ := hsess cmds fun x hxm => ⟨x, hxm, rfl, Nat.le_of_lt (hpos x hxm), Nat.le_refl _⟩
  rw [hl] at h1
  cases h1
  have hsaid := h3 n₀ hn₀
  rcases hp : pollRun D convert (overhear fs₀ f₁ phase₀ pause₀ levels₀ n₀) with _ | outs <;> rw [hp] at hsaid
  · cases hsaid
  rw [Option.map_some, Option.some.injEq] at hsaid
  have hrep : (spaced outs).map Prod.fst = cmds.map fun x => hear₀ x.1 := by
    rw [spaced_reported, ← reported_said, hsaid, reported_oks]
  have hlen₀ : (overhear fs₀ f₁ phase₀ pause₀ levels₀ n₀).length = n₀ := by simp [overhear, looked]
  have hol := polled_length D convert _ outs hp
  have hgap := report_gaps D convert enc₀ hear₀ fs₀ f₁ hle₁ s₀ cmds d hw hd hpos
    pause₀ phase₀ hphase₀ hsess s₀' levels₀ hl n₀ hn₀ outs hp
    ((q * f₁ + 1000 * k + 999) / 1000)
    (fun time x hxm => gap_ticks (by omega) hle₁ (Nat.le_of_lt (hpos x hxm)) (by have := hx x hxm; omega) phase₀ time)
  refine ⟨outs, rfl, by omega, hrep, fun x hxm => ?_⟩
  have h6 := hgap x hxm
  have h7 := spaced_le outs x hxm
  have h8 : x.2 * f₂ / f₁ ≤ n₀ * f₂ / f₁ := Nat.div_le_div_right (Nat.mul_le_mul_right _ (by omega))
  omega

theorem map_fst {A : Type} (g : A → K) (l : List (A × Nat)) : l.map (fun x => g x.1) = (l.map Prod.fst).map g := by
  rw [List.map_map]; rfl

/-- What a program that passes commands on as NEC makes of a session it hears. -/
theorem live_nec {A : Type} (D : Decoder C') (convert : C' → C) (fs₀ f₁ phase₀ pause₀ n₀ k f₂ : Nat)
    (levels₀ : List Bool) (cmds : List (A × Nat)) (hear₀ : A → C) (t : Target)
    (hf₁ : 21000 ≤ f₁ ∨ (20000 ≤ f₁ ∧ f₁ % 1000 = 0)) (hle₂ : f₁ ≤ f₂) (hf₂ : f₂ < 2 ^ 32)
    (hin : ∃ outs, pollRun D convert (overhear fs₀ f₁ phase₀ pause₀ levels₀ n₀) = some outs ∧ outs.length = n₀ ∧
      (spaced outs).map Prod.fst = cmds.map (fun x => hear₀ x.1) ∧
      ∀ x ∈ spaced outs, 108 * f₁ + 1000 * k ≤ 1000 * x.2 ∧ x.2 * f₂ / f₁ + 1 < 2 ^ 32)
    (v : NecVariant C) (hv : v.Shipped) (data : NecData) (hdata : necData v.pulseDistance f₁ = some data)
    (tbl : PulseSpans) (htbl : necSpans t Mono.u32 v f₂ = some tbl) (conv : C → K)
    (s : Sender) (hs : Silent s) (hlen : s.buffer.ptb.buf.length = 67 + k)
    (hz : s.buffer.ptb.buf.drop 67 = List.replicate k 0) (hear : C → C)
    (hcmds : ∀ x ∈ cmds, ∃ w, v.pack (hear₀ x.1) = some w ∧ v.unpack w false = some (hear (hear₀ x.1))) :
    ∃ levels, relayRun D convert (necEncode v data) s (overhear fs₀ f₁ phase₀ pause₀ levels₀ n₀) = some levels ∧
      ∀ pause phase n, phase < f₁ → 16000 * f₁ ≤ 1000000 * pause → reading f₁ f₂ phase (pause + n₀) + 1 < 2 ^ 32 →
      reading f₁ f₂ phase (pause + n₀) < n →
      (pollRun (necDecoder t Mono.u32 tbl v) conv (overhear f₁ f₂ phase pause levels n)).map said =
        some (oks (cmds.map fun x => conv (hear (hear₀ x.1)))) := by
  obtain ⟨outs, hp, hol, hrep, hgap⟩ := hin
  have hlen₀ : (overhear fs₀ f₁ phase₀ pause₀ levels₀ n₀).length = n₀ := by simp [overhear, looked]
  obtain ⟨levels, h4, h5⟩ := C104_nec D convert t f₁ hf₁ f₂ hle₂ hf₂ v hv data hdata tbl htbl conv s hs k hlen hz
    (overhear fs₀ f₁ phase₀ pause₀ levels₀ n₀) outs hp hear
    (by
      intro x hxm
      have : x.1 ∈ (spaced outs).map Prod.fst := List.mem_map_of_mem hxm
      rw [hrep] at this
      obtain ⟨y, hy, he⟩ := List.mem_map.mp this
      rw [← he]
      exact hcmds y hy) hgap
  refine ⟨levels, h4, fun pause phase n hph hpa hb hn => ?_⟩
  have hq := quietPolls_le outs
  have hr := reading_le f₁ f₂ phase (by omega : pause + quietPolls outs ≤ pause + n₀)
  rw [h5 pause phase n hph (pause_long hv (by omega) (by omega) hf₂ htbl (by omega) (by omega)) (by rw [hlen₀]; exact hn),
    map_fst (fun c => conv (hear c)), hrep, List.map_map]
  rfl

/-- C104 (NEC to NEC): a remote that sends a command at most every 218 ms (with spare slots in its buffer or in that of
the program, 1 tick more per slot), a program that passes what it hears on, as it is or converted, in any NEC variant,
and a receiver of it: the receiver reports the commands of the remote, each converted, in order, once each, and nothing
else. -/
theorem C104_nec_live (t : Target) (fs₀ : Nat) (hfs₀ : 21000 ≤ fs₀ ∨ (20000 ≤ fs₀ ∧ fs₀ % 1000 = 0))
    (f₁ : Nat) (hle₁ : fs₀ ≤ f₁) (hf₁ : 21000 ≤ f₁ ∨ (20000 ≤ f₁ ∧ f₁ % 1000 = 0)) (f₂ : Nat) (hle₂ : f₁ ≤ f₂)
    (hf₂ : f₂ < 2 ^ 32)
    (v₀ : NecVariant C') (hv₀ : v₀.Shipped) (data₀ : NecData) (hdata₀ : necData v₀.pulseDistance fs₀ = some data₀)
    (tbl₀ : PulseSpans) (htbl₀ : necSpans t Mono.u32 v₀ f₁ = some tbl₀)
    (v : NecVariant C) (hv : v.Shipped) (data : NecData) (hdata : necData v.pulseDistance f₁ = some data)
    (tbl : PulseSpans) (htbl : necSpans t Mono.u32 v f₂ = some tbl)
    (convert : C' → C) (conv : C → K) (cmds : List (C' × Nat)) (hear₀ : C' → C') (hear : C → C)
    (hcmds₀ : ∀ x ∈ cmds, ∃ w, v₀.pack x.1 = some w ∧ v₀.unpack w false = some (hear₀ x.1))
    (hcmds : ∀ x ∈ cmds, ∃ w, v.pack (convert (hear₀ x.1)) = some w ∧
      v.unpack w false = some (hear (convert (hear₀ x.1))))
    (s₀ : Sender) (hidle₀ : s₀.buffer.status = .idle) (k₀ : Nat) (hlen₀ : s₀.buffer.ptb.buf.length = 67 + k₀)
    (hz₀ : s₀.buffer.ptb.buf.drop 67 = List.replicate k₀ 0)
    (s : Sender) (hs : Silent s) (k : Nat) (hlen : s.buffer.ptb.buf.length = 67 + k)
    (hz : s.buffer.ptb.buf.drop 67 = List.replicate k 0)
    (hticks : ∀ x ∈ cmds, 218 * fs₀ + 1000 * (k₀ + k) ≤ 1000 * x.2 ∧ x.2 * f₁ / fs₀ + 1 < 2 ^ 32) :
    ∃ s₀' levels₀, s₀.calls (session (necEncode v₀ data₀) cmds) = some (s₀', levels₀) ∧
      ∀ pause₀ phase₀ n₀, phase₀ < fs₀ → 16000 * fs₀ ≤ 1000000 * pause₀ → reading fs₀ f₁ phase₀ pause₀ + 1 < 2 ^ 32 →
      reading fs₀ f₁ phase₀ (pause₀ + sessionTicks cmds) < n₀ → n₀ * f₂ / f₁ + 1 < 2 ^ 32 →
      ∃ levels, relayRun (necDecoder t Mono.u32 tbl₀ v₀) convert (necEncode v data) s
          (overhear fs₀ f₁ phase₀ pause₀ levels₀ n₀) = some levels ∧
        ∀ pause phase n, phase < f₁ → 16000 * f₁ ≤ 1000000 * pause → reading f₁ f₂ phase (pause + n₀) + 1 < 2 ^ 32 →
        reading f₁ f₂ phase (pause + n₀) < n →
        (pollRun (necDecoder t Mono.u32 tbl v) conv (overhear f₁ f₂ phase pause levels n)).map said =
          some (oks (cmds.map fun x => conv (hear (convert (hear₀ x.1))))) := by
  have hbase : ∀ cmds' : List (C' × Nat), (∀ x ∈ cmds', ∃ y ∈ cmds, x.1 = y.1 ∧
      (108 * fs₀ + 1000 * k₀ + 999) / 1000 ≤ x.2 ∧ x.2 ≤ y.2) → _ := fun cmds' h =>
    C57_nec_session t fs₀ hfs₀ f₁ hle₁ (by omega) v₀ hv₀ data₀ hdata₀ tbl₀ htbl₀ convert cmds' hear₀
      (by
        intro x hxm
        obtain ⟨y, hy, he, -⟩ := h x hxm
        rw [he]
        exact hcmds₀ y hy) s₀ hidle₀ k₀ hlen₀ hz₀
      (by
        intro x hxm
        obtain ⟨y, hy, -, h1, h2⟩ := h x hxm
        have h3 := (hticks y hy).2
        have h4 : x.2 * f₁ / fs₀ ≤ y.2 * f₁ / fs₀ := Nat.div_le_div_right (Nat.mul_le_mul_right _ h2)
        omega)
  obtain ⟨s₀', levels₀, h1, -, -⟩ := hbase cmds fun x hxm =>
    ⟨x, hxm, rfl, by have := (hticks x hxm).1; omega, Nat.le_refl _⟩
  refine ⟨s₀', levels₀, h1, fun pause₀ phase₀ n₀ hph hpa hb hn hbn => ?_⟩
  refine live_nec (necDecoder t Mono.u32 tbl₀ v₀) convert fs₀ f₁ phase₀ pause₀ n₀ k f₂ levels₀ cmds
    (fun c => convert (hear₀ c)) t hf₁ hle₂ hf₂ (live_reports (necDecoder t Mono.u32 tbl₀ v₀)
    convert (necEncode v₀ data₀) (fun c => convert (hear₀ c)) fs₀ f₁
    (by omega) hle₁ s₀ cmds ((108 * fs₀ + 1000 * k₀ + 999) / 1000) 108 k ?_ (by omega) ?_ pause₀ phase₀ hph ?_ s₀' levels₀
    h1 n₀ hn f₂ hbn) v hv data hdata tbl htbl conv s hs hlen hz hear hcmds
  · intro x hxm
    obtain ⟨w, hw, -⟩ := hcmds₀ x hxm
    exact ⟨_, necEncode_writes v₀ data₀ x.1 w hw⟩
  · intro x hxm
    have := (hticks x hxm).1
    omega
  · intro cmds' h
    obtain ⟨s', levels, h2, h3, h4⟩ := hbase cmds' h
    exact ⟨s', levels, h2, h3, fun n h5 => h4 pause₀ phase₀ n hph
      (pause_long hv₀ (by omega) (by omega) (by omega) htbl₀ hpa hb) h5⟩

/-- C104 (RC5 to NEC): a program that listens to an RC5 remote and translates into any NEC variant. -/
theorem C104_rc5_to_nec_live (t : Target) (hus : 16 ≤ t.usizeBits) (fs₀ : Nat)
    (hfs₀ : 42000 ≤ fs₀ ∨ (20000 ≤ fs₀ ∧ fs₀ % 1000 = 0)) (f₁ : Nat) (hlo : 40000 ≤ f₁) (hle₁ : fs₀ ≤ f₁)
    (f₂ : Nat) (hle₂ : f₁ ≤ f₂) (hf₂ : f₂ < 2 ^ 32)
    (tbl₀ : PulseSpans) (htbl₀ : rc5Spans t Mono.u32 f₁ = some tbl₀) (l : Nat) (hl : rc5CalcFreq fs₀ = some l)
    (v : NecVariant C) (hv : v.Shipped) (data : NecData) (hdata : necData v.pulseDistance f₁ = some data)
    (tbl : PulseSpans) (htbl : necSpans t Mono.u32 v f₂ = some tbl)
    (convert : Rc5Command → C) (conv : C → K) (cmds : List (Rc5Command × Nat)) (hear : C → C)
    (hcmds₀ : ∀ x ∈ cmds, x.1.addr.toNat < 32 ∧ x.1.cmd.toNat < 64 ∧ x.1.start.toNat < 4)
    (hcmds : ∀ x ∈ cmds, ∃ w, v.pack (convert { x.1 with start := x.1.start ||| 2 }) = some w ∧
      v.unpack w false = some (hear (convert { x.1 with start := x.1.start ||| 2 })))
    (s₀ : Sender) (hidle₀ : s₀.buffer.status = .idle) (k₀ : Nat) (hlen₀ : s₀.buffer.ptb.buf.length = 27 + k₀)
    (hz₀ : s₀.buffer.ptb.buf.drop 27 = List.replicate k₀ 0) (hold : ∀ d ∈ s₀.buffer.ptb.buf, d ≤ 2 * l)
    (s : Sender) (hs : Silent s) (k : Nat) (hlen : s.buffer.ptb.buf.length = 67 + k)
    (hz : s.buffer.ptb.buf.drop 67 = List.replicate k 0)
    (hticks : ∀ x ∈ cmds, 224 * fs₀ + 1000 * (k₀ + k) ≤ 1000 * x.2 ∧ x.2 * f₁ / fs₀ + 1 < 2 ^ 32) :
    ∃ s₀' levels₀, s₀.calls (session (rc5Encode t l) cmds) = some (s₀', levels₀) ∧
      ∀ pause₀ phase₀ n₀, phase₀ < fs₀ → reading fs₀ f₁ phase₀ pause₀ + 1 < 2 ^ 32 →
      reading fs₀ f₁ phase₀ (pause₀ + sessionTicks cmds) < n₀ → n₀ * f₂ / f₁ + 1 < 2 ^ 32 →
      ∃ levels, relayRun (rc5Decoder t tbl₀) convert (necEncode v data) s
          (overhear fs₀ f₁ phase₀ pause₀ levels₀ n₀) = some levels ∧
        ∀ pause phase n, phase < f₁ → 16000 * f₁ ≤ 1000000 * pause → reading f₁ f₂ phase (pause + n₀) + 1 < 2 ^ 32 →
        reading f₁ f₂ phase (pause + n₀) < n →
        (pollRun (necDecoder t Mono.u32 tbl v) conv (overhear f₁ f₂ phase pause levels n)).map said =
          some (oks (cmds.map fun x => conv (hear (convert { x.1 with start := x.1.start ||| 2 })))) := by
  have hbase : ∀ cmds' : List (Rc5Command × Nat), (∀ x ∈ cmds', ∃ y ∈ cmds, x.1 = y.1 ∧
      (114 * fs₀ + 1000 * k₀ + 999) / 1000 ≤ x.2 ∧ x.2 ≤ y.2) → _ := fun cmds' h =>
    C58_rc5_session t hus fs₀ hfs₀ f₁ hlo hle₁ (by omega) tbl₀ htbl₀ convert l hl cmds'
      (by
        intro x hxm
        obtain ⟨y, hy, he, -⟩ := h x hxm
        rw [he]
        exact hcmds₀ y hy) s₀ hidle₀ k₀ hlen₀ hz₀ hold
      (by
        intro x hxm
        obtain ⟨y, hy, -, h1, h2⟩ := h x hxm
        have h3 := (hticks y hy).2
        have h4 : x.2 * f₁ / fs₀ ≤ y.2 * f₁ / fs₀ := Nat.div_le_div_right (Nat.mul_le_mul_right _ h2)
        omega)
  obtain ⟨s₀', levels₀, h1, -, -⟩ := hbase cmds fun x hxm =>
    ⟨x, hxm, rfl, by have := (hticks x hxm).1; omega, Nat.le_refl _⟩
  refine ⟨s₀', levels₀, h1, fun pause₀ phase₀ n₀ hph hb hn hbn => ?_⟩
  refine live_nec (rc5Decoder t tbl₀) convert fs₀ f₁ phase₀ pause₀ n₀ k f₂ levels₀ cmds
    (fun c => convert { c with start := c.start ||| 2 }) t (by omega) hle₂ hf₂ (live_reports (rc5Decoder t tbl₀)
    convert (rc5Encode t l) (fun c => convert { c with start := c.start ||| 2 }) fs₀ f₁
    (by omega) hle₁ s₀ cmds ((114 * fs₀ + 1000 * k₀ + 999) / 1000) 108 k ?_ (by omega) ?_ pause₀ phase₀ hph ?_ s₀' levels₀
    h1 n₀ hn f₂ hbn) v hv data hdata tbl htbl conv s hs hlen hz hear hcmds
  · intro x hxm
    obtain ⟨l', hl', -, henc⟩ := C38_rc5_encode t fs₀ (by omega)
    rw [hl, Option.some.injEq] at hl'
    subst hl'
    have hc := rc5Wave_cons l (rc5Word x.1.pack) (by simp [rc5Word])
    exact ⟨_, by rw [← hc]; exact (henc x.1).1⟩
  · intro x hxm
    have := (hticks x hxm).1
    omega
  · intro cmds' h
    obtain ⟨s', levels, h2, h3, h4⟩ := hbase cmds' h
    exact ⟨s', levels, h2, h3, fun n h5 => h4 pause₀ phase₀ n hph hb h5⟩

/-- C104 (NEC to RC5): a program that listens to a NEC remote and translates into RC5. -/
theorem C104_nec_to_rc5_live (t : Target) (hus : 16 ≤ t.usizeBits) (fs₀ : Nat)
    (hfs₀ : 21000 ≤ fs₀ ∨ (20000 ≤ fs₀ ∧ fs₀ % 1000 = 0))
    (f₁ : Nat) (hle₁ : fs₀ ≤ f₁) (hf₁ : 42000 ≤ f₁ ∨ (20000 ≤ f₁ ∧ f₁ % 1000 = 0)) (f₂ : Nat) (hlo : 40000 ≤ f₂)
    (hle₂ : f₁ ≤ f₂) (hf₂ : f₂ < 2 ^ 32)
    (v₀ : NecVariant C') (hv₀ : v₀.Shipped) (data₀ : NecData) (hdata₀ : necData v₀.pulseDistance fs₀ = some data₀)
    (tbl₀ : PulseSpans) (htbl₀ : necSpans t Mono.u32 v₀ f₁ = some tbl₀)
    (l : Nat) (hl : rc5CalcFreq f₁ = some l) (tbl : PulseSpans) (htbl : rc5Spans t Mono.u32 f₂ = some tbl)
    (convert : C' → Rc5Command) (conv : Rc5Command → K) (cmds : List (C' × Nat)) (hear₀ : C' → C')
    (hcmds₀ : ∀ x ∈ cmds, ∃ w, v₀.pack x.1 = some w ∧ v₀.unpack w false = some (hear₀ x.1))
    (hcmds : ∀ x ∈ cmds, (convert (hear₀ x.1)).addr.toNat < 32 ∧ (convert (hear₀ x.1)).cmd.toNat < 64 ∧
      (convert (hear₀ x.1)).start.toNat < 4)
    (s₀ : Sender) (hidle₀ : s₀.buffer.status = .idle) (k₀ : Nat) (hlen₀ : s₀.buffer.ptb.buf.length = 67 + k₀)
    (hz₀ : s₀.buffer.ptb.buf.drop 67 = List.replicate k₀ 0)
    (s : Sender) (hs : Silent s) (k : Nat) (hlen : s.buffer.ptb.buf.length = 27 + k)
    (hz : s.buffer.ptb.buf.drop 27 = List.replicate k 0) (hold : ∀ d ∈ s.buffer.ptb.buf, d ≤ 2 * l)
    (hticks : ∀ x ∈ cmds, 224 * fs₀ + 1000 * (k₀ + k) ≤ 1000 * x.2 ∧ x.2 * f₁ / fs₀ + 1 < 2 ^ 32) :
    ∃ s₀' levels₀, s₀.calls (session (necEncode v₀ data₀) cmds) = some (s₀', levels₀) ∧
      ∀ pause₀ phase₀ n₀, phase₀ < fs₀ → 16000 * fs₀ ≤ 1000000 * pause₀ → reading fs₀ f₁ phase₀ pause₀ + 1 < 2 ^ 32 →
      reading fs₀ f₁ phase₀ (pause₀ + sessionTicks cmds) < n₀ → n₀ * f₂ / f₁ + 1 < 2 ^ 32 →
      ∃ levels, relayRun (necDecoder t Mono.u32 tbl₀ v₀) convert (rc5Encode t l) s
          (overhear fs₀ f₁ phase₀ pause₀ levels₀ n₀) = some levels ∧
        ∀ pause phase n, phase < f₁ → reading f₁ f₂ phase (pause + n₀) + 1 < 2 ^ 32 →
        reading f₁ f₂ phase (pause + n₀) < n →
        (pollRun (rc5Decoder t tbl) conv (overhear f₁ f₂ phase pause levels n)).map said =
          some (oks (cmds.map fun x =>
            conv { convert (hear₀ x.1) with start := (convert (hear₀ x.1)).start ||| 2 })) := by
  have hbase : ∀ cmds' : List (C' × Nat), (∀ x ∈ cmds', ∃ y ∈ cmds, x.1 = y.1 ∧
      (108 * fs₀ + 1000 * k₀ + 999) / 1000 ≤ x.2 ∧ x.2 ≤ y.2) → _ := fun cmds' h =>
    C57_nec_session t fs₀ hfs₀ f₁ hle₁ (by omega) v₀ hv₀ data₀ hdata₀ tbl₀ htbl₀ convert cmds' hear₀
      (by
        intro x hxm
        obtain ⟨y, hy, he, -⟩ := h x hxm
        rw [he]
        exact hcmds₀ y hy) s₀ hidle₀ k₀ hlen₀ hz₀
      (by
        intro x hxm
        obtain ⟨y, hy, -, h1, h2⟩ := h x hxm
        have h3 := (hticks y hy).2
        have h4 : x.2 * f₁ / fs₀ ≤ y.2 * f₁ / fs₀ := Nat.div_le_div_right (Nat.mul_le_mul_right _ h2)
        omega)
  obtain ⟨s₀', levels₀, h1, -, -⟩ := hbase cmds fun x hxm =>
    ⟨x, hxm, rfl, by have := (hticks x hxm).1; omega, Nat.le_refl _⟩
  refine ⟨s₀', levels₀, h1, fun pause₀ phase₀ n₀ hph hpa hb hn hbn => ?_⟩
  obtain ⟨outs, hp, hol, hrep, hgap⟩ := live_reports (necDecoder t Mono.u32 tbl₀ v₀) convert (necEncode v₀ data₀)
    (fun c => convert (hear₀ c)) fs₀ f₁
    (by omega) hle₁ s₀ cmds ((108 * fs₀ + 1000 * k₀ + 999) / 1000) 114 k (by
      intro x hxm
      obtain ⟨w, hw, -⟩ := hcmds₀ x hxm
      exact ⟨_, necEncode_writes v₀ data₀ x.1 w hw⟩) (by omega) (by
      intro x hxm
      have := (hticks x hxm).1
      omega) pause₀ phase₀ hph (by
      intro cmds' h
      obtain ⟨s', levels, h2, h3, h4⟩ := hbase cmds' h
      exact ⟨s', levels, h2, h3, fun n h5 => h4 pause₀ phase₀ n hph
        (pause_long hv₀ (by omega) (by omega) (by omega) htbl₀ hpa hb) h5⟩) s₀' levels₀ h1 n₀ hn f₂ hbn
  have hlenₙ : (overhear fs₀ f₁ phase₀ pause₀ levels₀ n₀).length = n₀ := by simp [overhear, looked]
  obtain ⟨levels, h4, h5⟩ := C104_rc5 (necDecoder t Mono.u32 tbl₀ v₀) convert t hus f₁ hf₁ f₂ hlo hle₂ hf₂ tbl htbl conv
    l hl s hs k hlen hz hold (overhear fs₀ f₁ phase₀ pause₀ levels₀ n₀) outs hp
    (by
      intro x hxm
      have : x.1 ∈ (spaced outs).map Prod.fst := List.mem_map_of_mem hxm
      rw [hrep] at this
      obtain ⟨y, hy, he⟩ := List.mem_map.mp this
      rw [← he]
      exact hcmds y hy) hgap
  refine ⟨levels, h4, fun pause phase n hph hb hn => ?_⟩
  have hq := quietPolls_le outs
  have hr := reading_le f₁ f₂ phase (by omega : pause + quietPolls outs ≤ pause + n₀)
  rw [h5 pause phase n hph (by omega) (by rw [hlenₙ]; exact hn),
    map_fst (fun c : Rc5Command => conv { c with start := c.start ||| 2 }), hrep, List.map_map]
  rfl

/-- C104 (RC6 to RC6): a program that passes on what it hears from an RC6 remote. -/
theorem C104_rc6_live (t : Target) (hus : 16 ≤ t.usizeBits) (fs₀ : Nat) (hfs₀ : 46000 ≤ fs₀)
    (f₁ : Nat) (hlo₁ : 80000 ≤ f₁) (hle₁ : fs₀ ≤ f₁) (f₂ : Nat) (hle₂ : f₁ ≤ f₂) (hf₂ : f₂ < 2 ^ 32)
    (tbl₀ : PulseSpans) (htbl₀ : rc6Spans t Mono.u32 f₁ = some tbl₀) (l₀ : Nat) (hl₀ : rc6Data fs₀ = some l₀)
    (tbl : PulseSpans) (htbl : rc6Spans t Mono.u32 f₂ = some tbl) (l : Nat) (hl : rc6Data f₁ = some l)
    (convert : Rc6Command → Rc6Command) (conv : Rc6Command → K) (cmds : List (Rc6Command × Nat))
    (s₀ : Sender) (hidle₀ : s₀.buffer.status = .idle) (k₀ : Nat) (hlen₀ : s₀.buffer.ptb.buf.length = 44 + k₀)
    (hz₀ : s₀.buffer.ptb.buf.drop 44 = List.replicate k₀ 0) (hold₀ : ∀ d ∈ s₀.buffer.ptb.buf.drop 2, d ≤ 3 * l₀)
    (s : Sender) (hs : Silent s) (k : Nat) (hlen : s.buffer.ptb.buf.length = 44 + k)
    (hz : s.buffer.ptb.buf.drop 44 = List.replicate k 0) (hold : ∀ d ∈ s.buffer.ptb.buf.drop 2, d ≤ 3 * l)
    (hticks : ∀ x ∈ cmds, 214 * fs₀ + 1000 * (k₀ + k) ≤ 1000 * x.2 ∧ x.2 * f₁ / fs₀ + 1 < 2 ^ 32) :
    ∃ s₀' levels₀, s₀.calls (session (rc6Encode l₀) cmds) = some (s₀', levels₀) ∧
      ∀ pause₀ phase₀ n₀, phase₀ < fs₀ → reading fs₀ f₁ phase₀ pause₀ + 1 < 2 ^ 32 →
      reading fs₀ f₁ phase₀ (pause₀ + sessionTicks cmds) < n₀ → n₀ * f₂ / f₁ + 1 < 2 ^ 32 →
      ∃ levels, relayRun (rc6Decoder t tbl₀) convert (rc6Encode l) s
          (overhear fs₀ f₁ phase₀ pause₀ levels₀ n₀) = some levels ∧
        ∀ pause phase n, phase < f₁ → reading f₁ f₂ phase (pause + n₀) + 1 < 2 ^ 32 →
        reading f₁ f₂ phase (pause + n₀) < n →
        (pollRun (rc6Decoder t tbl) conv (overhear f₁ f₂ phase pause levels n)).map said =
          some (oks (cmds.map fun x => conv (convert x.1))) := by
  have hbase : ∀ cmds' : List (Rc6Command × Nat), (∀ x ∈ cmds', ∃ y ∈ cmds, x.1 = y.1 ∧
      (106 * fs₀ + 1000 * k₀ + 999) / 1000 ≤ x.2 ∧ x.2 ≤ y.2) → _ := fun cmds' h =>
    C58_rc6_session t hus fs₀ hfs₀ f₁ hlo₁ hle₁ (by omega) tbl₀ htbl₀ convert l₀ hl₀ cmds' s₀ hidle₀ k₀ hlen₀ hz₀ hold₀
      (by
        intro x hxm
        obtain ⟨y, hy, -, h1, h2⟩ := h x hxm
        have h3 := (hticks y hy).2
        have h4 : x.2 * f₁ / fs₀ ≤ y.2 * f₁ / fs₀ := Nat.div_le_div_right (Nat.mul_le_mul_right _ h2)
        omega)
  obtain ⟨s₀', levels₀, h1, -, -⟩ := hbase cmds fun x hxm =>
    ⟨x, hxm, rfl, by have := (hticks x hxm).1; omega, Nat.le_refl _⟩
  refine ⟨s₀', levels₀, h1, fun pause₀ phase₀ n₀ hph hb hn hbn => ?_⟩
  obtain ⟨outs, hp, hol, hrep, hgap⟩ := live_reports (rc6Decoder t tbl₀) convert (rc6Encode l₀) convert fs₀ f₁
    (by omega) hle₁ s₀ cmds ((106 * fs₀ + 1000 * k₀ + 999) / 1000) 106 k (by
      intro x hxm
      exact ⟨_, by rw [← rc6Wave_cons]; exact (C38_rc6_encode fs₀ l₀ hl₀ x.1).2.1⟩) (by omega) (by
      intro x hxm
      have := (hticks x hxm).1
      omega) pause₀ phase₀ hph (by
      intro cmds' h
      obtain ⟨s', levels, h2, h3, h4⟩ := hbase cmds' h
      exact ⟨s', levels, h2, h3, fun n h5 => h4 pause₀ phase₀ n hph hb h5⟩) s₀' levels₀ h1 n₀ hn f₂ hbn
  have hlenₙ : (overhear fs₀ f₁ phase₀ pause₀ levels₀ n₀).length = n₀ := by simp [overhear, looked]
  obtain ⟨levels, h4, h5⟩ := C104_rc6 (rc6Decoder t tbl₀) convert t hus f₁ (by omega) f₂ (by omega) hle₂ hf₂ tbl htbl conv
    l hl s hs k hlen hz hold (overhear fs₀ f₁ phase₀ pause₀ levels₀ n₀) outs hp hgap
  refine ⟨levels, h4, fun pause phase n hph hb hn => ?_⟩
  have hq := quietPolls_le outs
  have hr := reading_le f₁ f₂ phase (by omega : pause + quietPolls outs ≤ pause + n₀)
  rw [h5 pause phase n hph (by omega) (by rw [hlenₙ]; exact hn), map_fst conv, hrep, List.map_map]
  rfl

theorem sessionTicks_const {A : Type} (cmds : List A) (n : Nat) :
    sessionTicks (cmds.map fun c => (c, n)) = n * cmds.length := by
  induction cmds with
  | nil => rfl
  | cons c cs ih =>
    unfold sessionTicks at ih ⊢
    rw [List.map_cons, List.map_cons, List.sum_cons, ih, List.length_cons, Nat.mul_add, Nat.mul_one, Nat.add_comm]

theorem silent_example : Silent (Nat.repeat Sender.tick 130 (Sender.new 128 false)) ∧
    (Nat.repeat Sender.tick 130 (Sender.new 128 false)).buffer.ptb.buf = List.replicate 128 0 := by
  unfold Silent
  decide +kernel

/-- Non-vacuity: the shipped example's remote (`Sender<_, 20_000, 128>`), any commands, one every 250 ms, a program at
20 kHz that passes them on with the address complemented, from a sender of the same size that has been ticked 130
times, and a receiver polled at 40 kHz. -/
example (t : Target) (cmds : List NecCommand) (hlen : cmds.length ≤ 100000) :
    ∃ data s₀ levels₀ levels, necData Infrared.nec.pulseDistance 20000 = some data ∧
      (Sender.new 128 false).calls (session (necEncode Infrared.nec data) (cmds.map fun c => (c, 5000))) =
        some (s₀, levels₀) ∧
      relayRun (necDecoder t Mono.u32 (necTable 20000) Infrared.nec) (fun c => { c with addr := ~~~c.addr })
        (necEncode Infrared.nec data) (Nat.repeat Sender.tick 130 (Sender.new 128 false))
        (overhear 20000 20000 0 400 levels₀ (401 + 5000 * cmds.length)) = some levels ∧
      (pollRun (necDecoder t Mono.u32 (necTable 40000) Infrared.nec) id
          (overhear 20000 40000 0 400 levels (1603 + 10000 * cmds.length))).map said =
        some (oks (cmds.map fun c => { c with addr := ~~~c.addr, rep := false })) := by
  obtain ⟨data, hdata⟩ := Option.isSome_iff_exists.mp ((C38_nec_compiles 20000 (by omega)).1.mpr (by decide))
  have hpack : ∀ c : NecCommand, ∃ w, Infrared.nec.pack c = some w ∧
      Infrared.nec.unpack w false = some { c with rep := false } := fun c => ⟨_, rfl, (C01_nec_roundtrip { c with rep := false }).2⟩
  obtain ⟨s₀, levels₀, h1, h2⟩ := C104_nec_live t 20000 (.inr (by decide)) 20000 (by decide) (.inr (by decide)) 40000
    (by decide) (by decide) Infrared.nec (.inl rfl) data hdata (necTable 20000)
    (necSpans_standard (.inl rfl) t (by omega) _ rfl) Infrared.nec (.inl rfl) data hdata (necTable 40000)
    (necSpans_standard (.inl rfl) t (by omega) _ rfl) (fun c => { c with addr := ~~~c.addr }) id
    (cmds.map fun c => (c, 5000)) (fun c => { c with rep := false }) (fun c => { c with rep := false })
    (fun x _ => hpack x.1) (fun x _ => hpack _) (Sender.new 128 false) rfl 61
    (show (List.replicate 128 0).length = _ by rw [List.length_replicate])
    (show (List.replicate 128 0).drop 67 = _ by rw [List.drop_replicate])
    (Nat.repeat Sender.tick 130 (Sender.new 128 false)) silent_example.1 61
    (by rw [silent_example.2, List.length_replicate]) (by rw [silent_example.2, List.drop_replicate]) (by
      intro x hx
      obtain ⟨c, -, rfl⟩ := List.mem_map.mp hx
      dsimp only
      decide)
  obtain ⟨levels, h3, h4⟩ := h2 400 0 (401 + 5000 * cmds.length) (by decide) (by decide) (by decide)
    (by rw [sessionTicks_const]; unfold reading; omega) (by omega)
  refine ⟨data, s₀, levels₀, levels, hdata, h1, h3, ?_⟩
  rw [h4 400 0 _ (by decide) (by decide) (by unfold reading; omega) (by unfold reading; omega), List.map_map]
  rfl

/-- Non-vacuity: an RC5 remote, the program translates into NEC, all at 40 kHz. -/
example (t : Target) (hus : 16 ≤ t.usizeBits) (cmds : List Rc5Command) (hlen : cmds.length ≤ 100000)
    (hc : ∀ c ∈ cmds, c.addr.toNat < 32 ∧ c.cmd.toNat < 64 ∧ c.start.toNat < 4) :
    ∃ data l s₀ levels₀ levels, necData Infrared.nec.pulseDistance 40000 = some data ∧ rc5CalcFreq 40000 = some l ∧
      (Sender.new 128 false).calls (session (rc5Encode t l) (cmds.map fun c => (c, 10000))) = some (s₀, levels₀) ∧
      relayRun (rc5Decoder t (rc5Table 40000)) (fun c => (⟨c.addr, c.cmd, false⟩ : NecCommand))
        (necEncode Infrared.nec data) (Nat.repeat Sender.tick 130 (Sender.new 128 false))
        (overhear 40000 40000 0 1 levels₀ (2 + 10000 * cmds.length)) = some levels ∧
      (pollRun (necDecoder t Mono.u32 (necTable 40000) Infrared.nec) id
          (overhear 40000 40000 0 800 levels (803 + 10000 * cmds.length))).map said =
        some (oks (cmds.map fun c => ⟨c.addr, c.cmd, false⟩)) := by
  obtain ⟨data, hdata⟩ := Option.isSome_iff_exists.mp ((C38_nec_compiles 40000 (by omega)).1.mpr (by decide))
  obtain ⟨l, hl, -⟩ := C38_rc5_encode t 40000 (by decide)
  have hpack : ∀ c : NecCommand, ∃ w, Infrared.nec.pack c = some w ∧
      Infrared.nec.unpack w false = some { c with rep := false } := fun c => ⟨_, rfl, (C01_nec_roundtrip { c with rep := false }).2⟩
  obtain ⟨s₀, levels₀, h1, h2⟩ := C104_rc5_to_nec_live t hus 40000 (.inr (by decide)) 40000 (by decide) (by decide) 40000
    (by decide) (by decide) (rc5Table 40000) (rc5Spans_eq (.inl rfl) t (by decide)) l hl
    Infrared.nec (.inl rfl) data hdata (necTable 40000)
    (necSpans_standard (.inl rfl) t (by omega) _ rfl) (fun c => (⟨c.addr, c.cmd, false⟩ : NecCommand)) id
    (cmds.map fun c => (c, 10000)) (fun c => { c with rep := false })
    (by
      intro x hx
      obtain ⟨c, h, rfl⟩ := List.mem_map.mp hx
      exact hc c h) (fun x _ => hpack _) (Sender.new 128 false) rfl 101
    (show (List.replicate 128 0).length = _ by rw [List.length_replicate])
    (show (List.replicate 128 0).drop 27 = _ by rw [List.drop_replicate])
    (by
      intro d hd
      have := (List.mem_replicate.mp (show d ∈ List.replicate 128 0 from hd)).2
      omega)
    (Nat.repeat Sender.tick 130 (Sender.new 128 false)) silent_example.1 61
    (by rw [silent_example.2, List.length_replicate]) (by rw [silent_example.2, List.drop_replicate]) (by
      intro x hx
      obtain ⟨c, -, rfl⟩ := List.mem_map.mp hx
      dsimp only
      decide)
  obtain ⟨levels, h3, h4⟩ := h2 1 0 (2 + 10000 * cmds.length) (by decide) (by decide)
    (by rw [sessionTicks_const]; unfold reading; omega) (by omega)
  refine ⟨data, l, s₀, levels₀, levels, hdata, hl, h1, h3, ?_⟩
  rw [h4 800 0 _ (by decide) (by decide) (by unfold reading; omega) (by unfold reading; omega), List.map_map]
  rfl

/-- Non-vacuity: a NEC remote, the program sends the low bits of its commands as RC5, all at 40 kHz. -/
example (t : Target) (hus : 16 ≤ t.usizeBits) (cmds : List NecCommand) (hlen : cmds.length ≤ 100000) :
    ∃ data l s₀ levels₀ levels, necData Infrared.nec.pulseDistance 40000 = some data ∧ rc5CalcFreq 40000 = some l ∧
      (Sender.new 128 false).calls (session (necEncode Infrared.nec data) (cmds.map fun c => (c, 10000))) =
        some (s₀, levels₀) ∧
      relayRun (necDecoder t Mono.u32 (necTable 40000) Infrared.nec)
        (fun c => (⟨c.addr &&& 31, c.cmd &&& 63, 3, false⟩ : Rc5Command))
        (rc5Encode t l) (Nat.repeat Sender.tick 130 (Sender.new 128 false))
        (overhear 40000 40000 0 800 levels₀ (801 + 10000 * cmds.length)) = some levels ∧
      (pollRun (rc5Decoder t (rc5Table 40000)) id
          (overhear 40000 40000 0 1 levels (803 + 10000 * cmds.length))).map said =
        some (oks (cmds.map fun c => ⟨c.addr &&& 31, c.cmd &&& 63, 3, false⟩)) := by
  obtain ⟨data, hdata⟩ := Option.isSome_iff_exists.mp ((C38_nec_compiles 40000 (by omega)).1.mpr (by decide))
  obtain ⟨l, hl, -⟩ := C38_rc5_encode t 40000 (by decide)
  have hpack : ∀ c : NecCommand, ∃ w, Infrared.nec.pack c = some w ∧
      Infrared.nec.unpack w false = some { c with rep := false } :=
    fun c => ⟨_, rfl, (C01_nec_roundtrip { c with rep := false }).2⟩
  obtain ⟨s₀, levels₀, h1, h2⟩ := C104_nec_to_rc5_live t hus 40000 (.inr (by decide)) 40000 (by decide)
    (.inr (by decide)) 40000 (by decide) (by decide) (by decide) Infrared.nec (.inl rfl) data hdata (necTable 40000)
    (necSpans_standard (.inl rfl) t (by omega) _ rfl) l hl (rc5Table 40000) (rc5Spans_eq (.inl rfl) t (by decide))
    (fun c => (⟨c.addr &&& 31, c.cmd &&& 63, 3, false⟩ : Rc5Command)) id
    (cmds.map fun c => (c, 10000)) (fun c => { c with rep := false }) (fun x _ => hpack x.1)
    (fun x _ => ⟨show (x.1.addr &&& 31).toNat < 32 by rw [BitVec.toNat_and]; exact Nat.lt_of_le_of_lt Nat.and_le_right (by decide),
      show (x.1.cmd &&& 63).toNat < 64 by rw [BitVec.toNat_and]; exact Nat.lt_of_le_of_lt Nat.and_le_right (by decide),
      show (3 : BitVec 8).toNat < 4 by decide⟩) (Sender.new 128 false) rfl 61
    (show (List.replicate 128 0).length = _ by rw [List.length_replicate])
    (show (List.replicate 128 0).drop 67 = _ by rw [List.drop_replicate])
    (Nat.repeat Sender.tick 130 (Sender.new 128 false)) silent_example.1 101
    (by rw [silent_example.2, List.length_replicate]) (by rw [silent_example.2, List.drop_replicate])
    (by
      intro d hd
      rw [silent_example.2] at hd
      have := (List.mem_replicate.mp hd).2
      omega) (by
      intro x hx
      obtain ⟨c, -, rfl⟩ := List.mem_map.mp hx
      dsimp only
      decide)
  obtain ⟨levels, h3, h4⟩ := h2 800 0 (801 + 10000 * cmds.length) (by decide) (by decide) (by decide)
    (by rw [sessionTicks_const]; unfold reading; omega) (by omega)
  refine ⟨data, l, s₀, levels₀, levels, hdata, hl, h1, h3, ?_⟩
  rw [h4 1 0 _ (by decide) (by unfold reading; omega) (by unfold reading; omega), List.map_map]
  have e : (3 : BitVec 8) ||| 2 = 3 := by decide
  simp only [Function.comp_def, id, e]

/-- Non-vacuity: an RC6 remote at 50 kHz, a program at 80 kHz and a receiver at 100 kHz. -/
example (t : Target) (hus : 16 ≤ t.usizeBits) (cmds : List Rc6Command) (hlen : cmds.length ≤ 10000) :
    ∃ l₀ l s₀ levels₀ levels, rc6Data 50000 = some l₀ ∧ rc6Data 80000 = some l ∧
      (Sender.new 128 false).calls (session (rc6Encode l₀) (cmds.map fun c => (c, 12500))) = some (s₀, levels₀) ∧
      relayRun (rc6Decoder t (rc6Table 80000)) id
        (rc6Encode l) (Nat.repeat Sender.tick 130 (Sender.new 128 false))
        (overhear 50000 80000 0 1 levels₀ (3 + 20000 * cmds.length)) = some levels ∧
      (pollRun (rc6Decoder t (rc6Table 100000)) id
          (overhear 80000 100000 0 1 levels (6 + 25000 * cmds.length))).map said = some (oks cmds) := by
  obtain ⟨l₀, hl₀⟩ : ∃ l, rc6Data 50000 = some l := Option.isSome_iff_exists.mp (by decide +kernel)
  obtain ⟨l, hl⟩ : ∃ l, rc6Data 80000 = some l := Option.isSome_iff_exists.mp (by decide +kernel)
  obtain ⟨s₀, levels₀, h1, h2⟩ := C104_rc6_live t hus 50000 (by decide) 80000 (by decide) (by decide) 100000
    (by decide) (by decide) (rc6Table 80000) (rc6Spans_eq (.inl rfl) t (by decide)) l₀ hl₀
    (rc6Table 100000) (rc6Spans_eq (.inl rfl) t (by decide)) l hl id id
    (cmds.map fun c => (c, 12500)) (Sender.new 128 false) rfl 84
    (show (List.replicate 128 0).length = _ by rw [List.length_replicate])
    (show (List.replicate 128 0).drop 44 = _ by rw [List.drop_replicate])
    (by
      intro d hd
      have := (List.mem_replicate.mp (List.mem_of_mem_drop (show d ∈ (List.replicate 128 0).drop 2 from hd))).2
      omega)
    (Nat.repeat Sender.tick 130 (Sender.new 128 false)) silent_example.1 84
    (by rw [silent_example.2, List.length_replicate]) (by rw [silent_example.2, List.drop_replicate])
    (by
      intro d hd
      rw [silent_example.2] at hd
      have := (List.mem_replicate.mp (List.mem_of_mem_drop hd)).2
      omega) (by
      intro x hx
      obtain ⟨c, -, rfl⟩ := List.mem_map.mp hx
      dsimp only
      decide)
  obtain ⟨levels, h3, h4⟩ := h2 1 0 (3 + 20000 * cmds.length) (by decide) (by decide)
    (by rw [sessionTicks_const]; unfold reading; omega) (by omega)
  refine ⟨l₀, l, s₀, levels₀, levels, hl₀, hl, h1, h3, ?_⟩
  rw [h4 1 0 _ (by decide) (by unfold reading; omega) (by unfold reading; omega), List.map_map]
  congr 2
  exact List.map_id cmds

end Infrared
