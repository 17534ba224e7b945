import Verif.Props.Session

/-!
# A session of a Manchester-coded sender (C58)

RC5 and RC6 transmissions have different lengths, so that a sender replays what an earlier, longer
command left in its buffer (`C43_refuted_stale`).  The receivers still hear each command once and
nothing else.
-/

namespace Infrared

open Spec

variable {A C K : Type}

/-! ## The line -/

/-- The pin during one command: alternating levels beginning with a mark, one tick of the next
level, and silence. -/
def heldChunk (c : List Nat × Nat) : List Bool := heldLevels true c.1 ++ List.replicate c.2 false

/-- The edges of a chunk after the first one. -/
def chunkTail (c : List Nat × Nat) : List (Bool × Nat) :=
  alternating false c.1 ++ if c.1.length % 2 = 0 then [(false, 1)] else []

/-- The silence between a chunk and the next one. -/
def chunkGap (c : List Nat × Nat) : Nat := if c.1.length % 2 = 0 then c.2 else 1 + c.2

/-- The edges of a session. -/
def chunkEdges : Nat → List (List Nat × Nat) → List (Bool × Nat)
  | _, [] => []
  | n, c :: cs => (true, n) :: (chunkTail c ++ chunkEdges (chunkGap c) cs)

theorem edges_heldChunks (cs : List (List Nat × Nat))
    (hcs : ∀ c ∈ cs, 1 ≤ c.2 ∧ ∀ d ∈ c.1, 0 < d) (n : Nat) :
    edgesFrom false n (cs.flatMap heldChunk) = chunkEdges n cs := by
  induction cs generalizing n with
  | nil => rfl
  | cons c cs ih =>
    obtain ⟨h1, h2⟩ := hcs c (by simp)
    obtain ⟨ds, m⟩ := c
    have ih' := ih fun x hx => hcs x (by simp [hx])
    have h := edgesFrom_held ds (List.replicate m false ++ cs.flatMap heldChunk) true n h2
    rw [Bool.not_true] at h
    rw [List.flatMap_cons, heldChunk, List.append_assoc, h, chunkEdges, chunkTail, chunkGap]
    dsimp only
    rcases Nat.mod_two_eq_zero_or_one ds.length with hl | hl
    · obtain ⟨m, rfl⟩ : ∃ k, m = k + 1 := ⟨m - 1, by dsimp only at h1; omega⟩
      have hstep : edgesFrom true 1 (List.replicate (m + 1) false ++ cs.flatMap heldChunk) =
          (false, 1) :: edgesFrom false (1 + m) (cs.flatMap heldChunk) := by
        rw [← edgesFrom_replicate]; rfl
      rw [hl, if_pos rfl, if_pos rfl]
      show _ :: (_ ++ edgesFrom true 1 _) = _
      rw [hstep, ih', Nat.add_comm 1 m, List.append_assoc]
      rfl
    · rw [hl, if_neg (by decide), if_neg (by decide)]
      show _ :: (_ ++ edgesFrom false 1 _) = _
      rw [edgesFrom_replicate, ih', List.append_nil]

theorem last_heldChunks (cs : List (List Nat × Nat)) (hcs : ∀ c ∈ cs, 1 ≤ c.2) (pre : List Bool)
    (hpre : pre.getLastD false = false) :
    (pre ++ cs.flatMap heldChunk).getLastD false = false := by
  induction cs generalizing pre with
  | nil => rwa [List.flatMap_nil, List.append_nil]
  | cons c cs ih =>
    rw [List.flatMap_cons, ← List.append_assoc]
    refine ih (fun x hx => hcs x (by simp [hx])) _ ?_
    have := hcs c (by simp)
    obtain ⟨m, hm⟩ : ∃ m, c.2 = m + 1 := ⟨c.2 - 1, by omega⟩
    rw [heldChunk, hm, List.replicate_succ', ← List.append_assoc, ← List.append_assoc,
      List.getLastD_concat]

/-- Every duration of at least a tick. -/
def atLeastOne (ds : List Nat) : List Nat := ds.map fun d => max d 1

theorem held_atLeastOne (level : Bool) (ds : List Nat) :
    heldLevels level (atLeastOne ds) = heldLevels level ds := by
  induction ds generalizing level with
  | nil => rfl
  | cons d ds ih =>
    simp only [atLeastOne, List.map_cons, heldLevels] at ih ⊢
    rw [ih, Nat.max_eq_left (Nat.le_max_right d 1)]

theorem held_length (level : Bool) (ds : List Nat) :
    (heldLevels level ds).length = (atLeastOne ds).sum + 1 := by
  induction ds generalizing level with
  | nil => rfl
  | cons d ds ih =>
    simp only [heldLevels, List.length_append, List.length_replicate, ih, atLeastOne, List.map_cons,
      List.sum_cons, Nat.add_assoc]

theorem atLeastOne_pos {ds : List Nat} : ∀ d ∈ atLeastOne ds, 0 < d := by
  intro d hd
  obtain ⟨x, -, rfl⟩ := List.mem_map.mp hd
  exact Nat.lt_of_lt_of_le Nat.zero_lt_one (Nat.le_max_right _ _)

theorem atLeastOne_of_pos {ds : List Nat} (h : ∀ d ∈ ds, 0 < d) : atLeastOne ds = ds := by
  refine (List.map_congr_left fun d hd => ?_).trans (List.map_id ds)
  exact Nat.max_eq_left (h d hd)

theorem atLeastOne_append (a b : List Nat) : atLeastOne (a ++ b) = atLeastOne a ++ atLeastOne b :=
  List.map_append

theorem atLeastOne_zeros (k : Nat) : atLeastOne (List.replicate k 0) = List.replicate k 1 := by
  simp [atLeastOne]

theorem sum_le_length {b : Nat} {l : List Nat} (h : ∀ d ∈ l, d ≤ b) : l.sum ≤ l.length * b := by
  induction l with
  | nil => simp
  | cons d l ih =>
    have h1 := h d (by simp)
    have h2 := ih fun x hx => h x (by simp [hx])
    simp only [List.sum_cons, List.length_cons, Nat.add_mul]
    omega

theorem mem_le_sum {l : List Nat} {d : Nat} (h : d ∈ l) : d ≤ l.sum := by
  induction l with
  | nil => cases h
  | cons x l ih =>
    rw [List.sum_cons]
    rcases List.mem_cons.mp h with rfl | h
    · omega
    · have := ih h; omega

/-! ## The sender's side -/

/-- The buffer after loading. -/
def loaded (wave buf : List Nat) : List Nat := wave ++ buf.drop wave.length

/-- The chunk for a buffer that is sent during `n` ticks. -/
def sentChunk (buf : List Nat) (n : Nat) : List Nat × Nat :=
  (atLeastOne buf.tail, n - ((atLeastOne buf.tail).sum + 1))

/-- The chunks of a session that finds the given buffer. -/
def sentChunks (wave : A → List Nat) : List Nat → List (A × Nat) → List (List Nat × Nat)
  | _, [] => []
  | b, x :: xs => sentChunk (loaded (wave x.1) b) x.2 :: sentChunks wave (loaded (wave x.1) b) xs

theorem sent_one {enc : Encode} {wave : List Nat} (hw : Writes enc wave) {s : Sender}
    (hidle : s.buffer.status = .idle) (hS : wave.length ≤ s.buffer.ptb.buf.length)
    {ds : List Nat} (hds : loaded wave s.buffer.ptb.buf = 0 :: ds) (hb : ∀ d ∈ ds, d < 2 ^ 32)
    {n : Nat} (hn : (atLeastOne ds).sum + 1 < n) :
    ∃ s1, s.load enc = some s1 ∧ s1.pins n = heldChunk (sentChunk (loaded wave s.buffer.ptb.buf) n) ∧
      (s1.ticks n).buffer.status = .idle ∧
      (s1.ticks n).buffer.ptb.buf = loaded wave s.buffer.ptb.buf := by
  have henc := hw s.buffer.ptb.buf
  rw [if_pos hS, show wave ++ s.buffer.ptb.buf.drop wave.length = _ from hds] at henc
  obtain ⟨s1, l1, l2, -, l4, l5⟩ := load_idle hidle henc (by
    intro d hd
    rcases List.mem_cons.mp hd with rfl | hd
    · decide
    · exact hb d hd)
  have hlen : (transmission (0 :: ds)).length = (atLeastOne ds).sum + 1 := by
    rw [transmission, List.replicate_zero, List.nil_append, held_length]
  refine ⟨s1, l1, ?_, ?_, ?_⟩
  · rw [pins_sending l5]
    change ((transmission (0 :: ds)) ++ _).take n = _
    rw [List.take_append, List.take_of_length_le (by omega), List.take_replicate, hds, sentChunk,
      List.tail_cons, heldChunk, hlen]
    dsimp only
    rw [held_atLeastOne, transmission, List.replicate_zero, List.nil_append, Nat.min_eq_left (by omega)]
  · rw [status_start l5 l4, Nat.sub_zero]
    have hlt : (transmission (0 :: ds)).length < n := by omega
    exact .inr hlt
  · rw [ticks_buf, l2, hds]

/-- `Inv` is an invariant of the buffer under which every command can be sent in time. -/
theorem session_sent (enc : A → Encode) (wave : A → List Nat) (Inv : List Nat → Prop)
    (cmds : List (A × Nat)) (hw : ∀ x ∈ cmds, Writes (enc x.1) (wave x.1))
    (hinv : ∀ x ∈ cmds, ∀ b, Inv b → Inv (loaded (wave x.1) b) ∧ (wave x.1).length ≤ b.length ∧
      (∃ ds, loaded (wave x.1) b = 0 :: ds ∧ (∀ d ∈ ds, d < 2 ^ 32) ∧ (atLeastOne ds).sum + 1 < x.2))
    (s : Sender) (hidle : s.buffer.status = .idle) (hs : Inv s.buffer.ptb.buf) :
    ∃ s', s.calls (session enc cmds) =
        some (s', (sentChunks wave s.buffer.ptb.buf cmds).flatMap heldChunk) ∧
      s'.buffer.status = .idle := by
  induction cmds generalizing s with
  | nil => exact ⟨s, rfl, hidle⟩
  | cons x xs ih =>
    obtain ⟨i1, i2, ds, i3, i4, i5⟩ := hinv x (by simp) _ hs
    obtain ⟨s1, h1, h2, h3, h4⟩ := sent_one (hw x (by simp)) hidle i2 i3 i4 i5
    obtain ⟨s', h6, h7⟩ := ih (fun y hy => hw y (by simp [hy])) (fun y hy => hinv y (by simp [hy]))
      (s1.ticks x.2) h3 (by rw [h4]; exact i1)
    refine ⟨s', ?_, h7⟩
    rw [session, List.flatMap_cons, List.cons_append, Sender.calls, h1, Option.bind_some, calls_ticks, h2]
    rw [session] at h6
    rw [h6, h4, sentChunks, List.flatMap_cons]
    rfl

/-- Every chunk of a session, with its command. -/
theorem sentChunks_mem {wave : A → List Nat} {Inv : List Nat → Prop} {cmds : List (A × Nat)}
    (hinv : ∀ x ∈ cmds, ∀ b, Inv b → Inv (loaded (wave x.1) b)) {b : List Nat} (hb : Inv b) :
    ∀ p ∈ (sentChunks wave b cmds).zip cmds, ∃ b', Inv b' ∧ p.2 ∈ cmds ∧
      p.1 = sentChunk (loaded (wave p.2.1) b') p.2.2 := by
  induction cmds generalizing b with
  | nil => simp [sentChunks]
  | cons x xs ih =>
    intro p hp
    rw [sentChunks, List.zip_cons_cons, List.mem_cons] at hp
    rcases hp with rfl | hp
    · exact ⟨b, hb, by simp, rfl⟩
    · obtain ⟨b', h1, h2, h3⟩ := ih (fun y hy => hinv y (by simp [hy])) (hinv x (by simp) b hb) p hp
      exact ⟨b', h1, by simp [h2], h3⟩

theorem sentChunks_length (wave : A → List Nat) (b : List Nat) (cmds : List (A × Nat)) :
    (sentChunks wave b cmds).length = cmds.length := by
  induction cmds generalizing b with
  | nil => rfl
  | cons x xs ih => simp [sentChunks, ih]

/-! ## The receiver's side -/

/-- Chunks that each lead from a ready state to a resting state. -/
theorem hear_chunks {S : Type} (g : S → Ev → Option (S × Res C)) (Rest : S → Prop)
    (Ready : S → Nat → Prop) (fs f phase : Nat) (items : List ((List Nat × Nat) × C))
    (hone : ∀ i ∈ items, ∀ d dt t, Ready d dt → ∃ d' o,
      runStep g d ((true, dt) :: clocked fs f phase t (chunkTail i.1)) = some (d', o) ∧ Rest d' ∧
        said o = oks [i.2])
    (hgap : ∀ i ∈ items, ∀ d t, Rest d →
      Ready d (reading fs f phase (t + chunkGap i.1) - reading fs f phase t))
    (c : List Nat × Nat) (k : C) (hc : (c, k) ∈ items) (rest : List ((List Nat × Nat) × C))
    (hrest : ∀ i ∈ rest, i ∈ items) (d : S) (dt t : Nat) (hd : Ready d dt) :
    ∃ d' o, runStep g d ((true, dt) :: clocked fs f phase t
        (chunkTail c ++ chunkEdges (chunkGap c) (rest.map Prod.fst))) = some (d', o) ∧ Rest d' ∧
      said o = oks (k :: rest.map Prod.snd) := by
  induction rest generalizing c k d dt t with
  | nil =>
    rw [List.map_nil, chunkEdges, List.append_nil]
    exact hone (c, k) hc d dt t hd
  | cons i rest ih =>
    obtain ⟨d1, o1, h1, h2, h3⟩ := hone (c, k) hc d dt t hd
    obtain ⟨d2, o2, h4, h5, h6⟩ := ih i.1 i.2 (hrest i (by simp)) (fun j hj => hrest j (by simp [hj])) d1 _
      (t + duration (chunkTail c) + chunkGap c) (hgap (c, k) hc d1 (t + duration (chunkTail c)) h2)
    refine ⟨d2, _, (congrArg (runStep g d) ?_).trans (run_append_some h1 h4), h5, ?_⟩
    · rw [List.map_cons, chunkEdges, clocked_append, List.cons_append, clocked]
    · rw [said_append, h3, h6, ← oks_append]
      rfl

/-- The edges of a chunk. -/
theorem mem_chunkTail {c : List Nat × Nat} {e : Bool × Nat} (h : e ∈ chunkTail c) :
    e.2 ∈ c.1 ∨ e.2 = 1 := by
  rcases List.mem_append.mp h with h | h
  · exact .inl (alternating_mem h)
  · split at h
    · rw [List.mem_singleton.mp h]; exact .inr rfl
    · cases h

theorem mem_chunkEdges {cs : List (List Nat × Nat)} {n : Nat} {e : Bool × Nat}
    (h : e ∈ chunkEdges n cs) : e.2 = n ∨ ∃ c ∈ cs, e.2 ∈ c.1 ∨ e.2 = 1 ∨ e.2 = chunkGap c := by
  induction cs generalizing n with
  | nil => cases h
  | cons c cs ih =>
    rw [chunkEdges] at h
    rcases List.mem_cons.mp h with rfl | h
    · exact .inl rfl
    rcases List.mem_append.mp h with h | h
    · rcases mem_chunkTail h with h | h
      · exact .inr ⟨c, by simp, .inl h⟩
      · exact .inr ⟨c, by simp, .inr (.inl h)⟩
    · rcases ih h with h | ⟨x, hx, h⟩
      · exact .inr ⟨c, by simp, .inr (.inr h)⟩
      · exact .inr ⟨x, by simp [hx], h⟩

/-- What a polled receiver hears of a session. -/
theorem overhear_chunks (D : Decoder C) (conv : C → K) {fs f phase : Nat} (hfs : 0 < fs) (hle : fs ≤ f)
    (hphase : phase < fs) (c : List Nat × Nat) (cs : List (List Nat × Nat))
    (hcs : ∀ x ∈ c :: cs, 1 ≤ x.2 ∧ (∀ d ∈ x.1, 0 < d) ∧ (x.1.sum + x.2 + 1) * f / fs + 1 < 2 ^ 32)
    {pause n ticks : Nat}
    (hticks : ((c :: cs).flatMap heldChunk).length = ticks)
    (hpause : reading fs f phase pause + 1 < 2 ^ 32)
    (hn : reading fs f phase (pause + ticks) < n) :
    (pollRun D conv (overhear fs f phase pause ((c :: cs).flatMap heldChunk) n)).map said =
      (results D conv ((true, reading fs f phase pause + 1) :: clocked fs f phase pause
        (chunkTail c ++ chunkEdges (chunkGap c) cs))).map said := by
  have hedges : edgesFrom false 0 (List.replicate pause false ++ (c :: cs).flatMap heldChunk) =
      (true, pause) :: (chunkTail c ++ chunkEdges (chunkGap c) cs) := by
    rw [edgesFrom_replicate, Nat.zero_add, edges_heldChunks _ fun x hx => ⟨(hcs x hx).1, (hcs x hx).2.1⟩]
    rfl
  have hbound : ∀ e ∈ chunkTail c ++ chunkEdges (chunkGap c) cs, 1 ≤ e.2 ∧ e.2 * f / fs + 1 < 2 ^ 32 := by
    have hx : ∀ x ∈ c :: cs, ∀ y, y ∈ x.1 ∨ y = 1 ∨ y = chunkGap x → 1 ≤ y ∧ y * f / fs + 1 < 2 ^ 32 := by
      intro x hx y hy
      obtain ⟨h1, h2, h3⟩ := hcs x hx
      suffices 1 ≤ y ∧ y ≤ x.1.sum + x.2 + 1 by
        have h2 : y * f / fs ≤ (x.1.sum + x.2 + 1) * f / fs :=
          Nat.div_le_div_right (Nat.mul_le_mul_right _ this.2)
        omega
      rcases hy with h | h | h
      · have := mem_le_sum h
        exact ⟨h2 y h, by omega⟩
      · omega
      · rw [h, chunkGap]
        split <;> omega
    intro e he
    rcases List.mem_append.mp he with he | he
    · exact hx c (by simp) _ (by rcases mem_chunkTail he with h | h; exacts [.inl h, .inr (.inl h)])
    · rcases mem_chunkEdges he with h | ⟨x, hx', h⟩
      · exact hx c (by simp) _ (.inr (.inr h))
      · exact hx x (by simp [hx']) _ h
  have hdur : duration ((true, pause) :: (chunkTail c ++ chunkEdges (chunkGap c) cs)) ≤ pause + ticks := by
    have := edges_duration (List.replicate pause false ++ (c :: cs).flatMap heldChunk) false 0
    rw [hedges, List.length_append, hticks, List.length_replicate] at this
    omega
  rw [overhear]
  refine C55_two_clocks_long D conv fs hfs f (by omega) phase hphase _
    (last_heldChunks _ (fun x hx => (hcs x hx).1) _ (by cases pause <;> simp [List.replicate_succ']))
    true pause _ hedges ?_ n ?_ hpause (fun e he => (hbound e he).2)
  · intro e he
    calc fs ≤ 1 * f := by omega
      _ ≤ e.2 * f := Nat.mul_le_mul_right _ (hbound e he).1
  · refine Nat.lt_of_le_of_lt ?_ hn
    obtain ⟨y, hy⟩ := Nat.le.dest hdur
    rw [← hy]
    exact reading_mono _ _ _ _ _

/-- A session from ingredients: an invariant of the sender's buffer, and a receiver that gets through
each command from any state it may be in. -/
theorem session_heard (D : Decoder C) (conv : C → K) (enc : A → Encode) (wave : A → List Nat)
    (hear : A → C) (Inv : List Nat → Prop) (Rest : D.St → Prop) (Ready : D.St → Nat → Prop)
    {fs f : Nat} (hfs : 0 < fs) (hle : fs ≤ f) (cmds : List (A × Nat))
    (hw : ∀ x ∈ cmds, Writes (enc x.1) (wave x.1))
    (hinv : ∀ x ∈ cmds, ∀ b, Inv b → Inv (loaded (wave x.1) b) ∧ (wave x.1).length ≤ b.length ∧
      (∃ ds, loaded (wave x.1) b = 0 :: ds ∧ (∀ d ∈ ds, d < 2 ^ 32) ∧ (atLeastOne ds).sum + 1 < x.2))
    (hone : ∀ x ∈ cmds, ∀ b, Inv b → ∀ phase d dt t, Ready d dt → ∃ d' o,
      runStep D.step d ((true, dt) :: clocked fs f phase t
        (chunkTail (sentChunk (loaded (wave x.1) b) x.2))) = some (d', o) ∧ Rest d' ∧
        said o = oks [hear x.1])
    (hgap : ∀ x ∈ cmds, ∀ b, Inv b → ∀ phase d t, Rest d → Ready d
      (reading fs f phase (t + chunkGap (sentChunk (loaded (wave x.1) b) x.2)) - reading fs f phase t))
    (hfirst : ∀ dt, Ready D.init dt) (s : Sender) (hidle : s.buffer.status = .idle)
    (hs : Inv s.buffer.ptb.buf) (hticks : ∀ x ∈ cmds, x.2 * f / fs + 1 < 2 ^ 32) :
    ∃ s' levels, s.calls (session enc cmds) = some (s', levels) ∧
      s'.buffer.status = .idle ∧ ∀ pause phase n, phase < fs →
      reading fs f phase pause + 1 < 2 ^ 32 →
      reading fs f phase (pause + sessionTicks cmds) < n →
      (pollRun D conv (overhear fs f phase pause levels n)).map said =
        some (oks (cmds.map fun x => conv (hear x.1))) := by
  obtain ⟨s', hcalls, hid⟩ := session_sent enc wave Inv cmds hw hinv s hidle hs
  refine ⟨s', _, hcalls, hid, fun pause phase n hphase hpause hn => ?_⟩
  have hmem := sentChunks_mem (fun x hx b hb => (hinv x hx b hb).1) hs
  cases cmds with
  | nil =>
    rw [overhear]
    have : looked fs f phase (List.replicate pause false ++ List.flatMap heldChunk
        (sentChunks wave s.buffer.ptb.buf ([] : List (A × Nat)))) n = List.replicate n false := by
      simp [sentChunks, looked, List.getD_eq_getElem?_getD, List.getElem?_replicate, List.eq_replicate_iff]
      intros
      split <;> rfl
    rw [this, C54_silent_line, Option.map_some, said_nones]
    rfl
  | cons y ys =>
    obtain ⟨c, cs, hccs⟩ : ∃ c cs, sentChunks wave s.buffer.ptb.buf (y :: ys) = c :: cs := ⟨_, _, rfl⟩
    rw [hccs] at hmem ⊢
    have hlen : (c :: cs).length = (y :: ys).length := by rw [← hccs, sentChunks_length]
    have hall : ∀ x ∈ c :: cs, ∃ p ∈ (c :: cs).zip (y :: ys), p.1 = x := by
      intro x hx
      have : x ∈ ((c :: cs).zip (y :: ys)).map Prod.fst := by
        rwa [List.map_fst_zip (Nat.le_of_eq hlen)]
      obtain ⟨p, hp, h⟩ := List.mem_map.mp this
      exact ⟨p, hp, h⟩
    have hfacts : ∀ p ∈ (c :: cs).zip (y :: ys), 1 ≤ p.1.2 ∧ (∀ d ∈ p.1.1, 0 < d) ∧
        p.1.1.sum + p.1.2 + 1 = p.2.2 ∧ (heldChunk p.1).length = p.2.2 := by
      intro p hp
      obtain ⟨b, hb, hp2, hp1⟩ := hmem p hp
      obtain ⟨-, -, ds, i3, -, i5⟩ := hinv p.2 hp2 b hb
      have hc1 : p.1 = (atLeastOne ds, p.2.2 - ((atLeastOne ds).sum + 1)) := by
        rw [hp1, sentChunk, i3, List.tail_cons]
      rw [hc1]
      refine ⟨by dsimp only; omega, atLeastOne_pos, by dsimp only; omega, ?_⟩
      rw [heldChunk]
      dsimp only
      rw [held_atLeastOne, List.length_append, held_length, List.length_replicate]
      omega
    have hsum : ((c :: cs).flatMap heldChunk).length = sessionTicks (y :: ys) := by
      generalize c :: cs = l1 at hlen hfacts
      generalize y :: ys = l2 at hlen hfacts
      clear hccs hmem hall
      induction l1 generalizing l2 with
      | nil => cases l2 with
        | nil => rfl
        | cons x xs => cases hlen
      | cons a l1 ih => cases l2 with
        | nil => cases hlen
        | cons x xs =>
          have h1 := (hfacts (a, x) (by simp)).2.2.2
          have h2 := ih xs (by simpa using hlen) fun p hp => hfacts p (by simp [hp])
          rw [List.flatMap_cons, List.length_append, h1, h2]
          simp [sessionTicks]
    rw [overhear_chunks D conv hfs hle hphase c cs (by
      intro x hx
      obtain ⟨p, hp, rfl⟩ := hall x hx
      obtain ⟨h1, h2, h3, -⟩ := hfacts p hp
      obtain ⟨-, -, hp2, -⟩ := hmem p hp
      refine ⟨h1, h2, ?_⟩
      rw [h3]
      exact hticks _ hp2) hsum hpause hn]
    let items := ((c :: cs).zip (y :: ys)).map fun p => (p.1, hear p.2.1)
    have hitems : items = (c, hear y.1) :: (cs.zip ys).map fun p => (p.1, hear p.2.1) := rfl
    have hl' : cs.length = ys.length := by simpa using hlen
    obtain ⟨d', o, h1, -, h2⟩ := hear_chunks D.step Rest Ready fs f phase items (by
        intro i hi d dt t hd
        obtain ⟨p, hp, rfl⟩ := List.mem_map.mp hi
        obtain ⟨b, hb, hp2, hp1⟩ := hmem p hp
        dsimp only
        rw [hp1]
        exact hone p.2 hp2 b hb phase d dt t hd) (by
        intro i hi d t hd
        obtain ⟨p, hp, rfl⟩ := List.mem_map.mp hi
        obtain ⟨b, hb, hp2, hp1⟩ := hmem p hp
        dsimp only
        rw [hp1]
        exact hgap p.2 hp2 b hb phase d t hd) c (hear y.1) (by rw [hitems]; simp)
      ((cs.zip ys).map fun p => (p.1, hear p.2.1)) (by intro i hi; rw [hitems]; simp [hi]) D.init _ pause
      (hfirst (reading fs f phase pause + 1))
    have hf1 : ((cs.zip ys).map fun p => (p.1, hear p.2.1)).map Prod.fst = cs := by
      rw [List.map_map]
      exact List.map_fst_zip (Nat.le_of_eq hl')
    have hf2 : ((cs.zip ys).map fun p => (p.1, hear p.2.1)).map Prod.snd = ys.map fun x => hear x.1 := by
      rw [List.map_map, ← List.map_snd_zip (Nat.le_of_eq hl'.symm) (l₁ := cs), List.map_map]
      rw [List.map_snd_zip (Nat.le_of_eq hl'.symm)]
      rfl
    rw [hf1] at h1
    rw [hf2] at h2
    refine (said_results conv h1 h2).trans ?_
    rw [List.map_cons, List.map_cons, List.map_map]
    rfl

/-! ## Slots -/

/-- What is sent: the command, what is left of earlier ones, and the slots never used. -/
theorem loaded_slots {M k : Nat} {wave b : List Nat} (h0 : 0 < wave.length) (hL : wave.length ≤ M)
    (hlen : b.length = M + k) (hz : b.drop M = List.replicate k 0) :
    (loaded wave b).tail = wave.tail ++ (b.take M).drop wave.length ++ List.replicate k 0 ∧
    ((b.take M).drop wave.length).length + wave.length = M ∧
    (loaded wave b).length = M + k ∧ (loaded wave b).drop M = List.replicate k 0 := by
  have hsplit : b.drop wave.length = (b.take M).drop wave.length ++ List.replicate k 0 := by
    rw [← hz]
    conv_lhs => rw [← List.take_append_drop M b]
    rw [List.drop_append, List.length_take, Nat.min_eq_left (by omega),
      Nat.sub_eq_zero_of_le hL, List.drop_zero]
  refine ⟨?_, ?_, ?_, ?_⟩
  · cases wave with
    | nil => simp at h0
    | cons x wave =>
      rw [loaded, hsplit, List.cons_append, List.tail_cons, List.tail_cons, List.append_assoc]
  · rw [List.length_drop, List.length_take]; omega
  · rw [loaded, List.length_append, List.length_drop]; omega
  · rw [loaded, List.drop_append, List.drop_of_length_le hL, List.nil_append, List.drop_drop,
      show wave.length + (M - wave.length) = M by omega, hz]

/-- The edges of a chunk in three parts: those of the command, those of leftovers, and those of slots
never used. -/
theorem chunkTail_split (a g : List Nat) (k n : Nat) :
    ∃ e2 e3, chunkTail (a ++ g ++ List.replicate k 1, n) = alternating false a ++ e2 ++ e3 ∧
      (∃ b, e2 = alternating b g) ∧ ∀ e ∈ e3, e.2 = 1 := by
  rw [chunkTail, alternating_append, alternating_append]
  refine ⟨_, _, by simp only [List.append_assoc]; rfl, ⟨_, rfl⟩, ?_⟩
  intro e he
  rcases List.mem_append.mp he with he | he
  · exact List.eq_of_mem_replicate (alternating_mem he)
  · split at he
    · rw [List.mem_singleton.mp he]
    · cases he

theorem clocked_mem {u f phase t : Nat} {es : List (Bool × Nat)} {q : Ev}
    (h : q ∈ clocked u f phase t es) :
    ∃ e ∈ es, ∃ t', q.2 = reading u f phase (t' + e.2) - reading u f phase t' := by
  induction es generalizing t with
  | nil => cases h
  | cons e es ih =>
    obtain ⟨b, x⟩ := e
    rw [clocked] at h
    rcases List.mem_cons.mp h with rfl | h
    · exact ⟨(b, x), by simp, t, rfl⟩
    · obtain ⟨e, he, h⟩ := ih h
      exact ⟨e, by simp [he], h⟩

/-! ## RC5 -/

/-- Edges still needed to complete a command. -/
def Abs5.need (a : Abs5) : Nat :=
  match a.st with
  | none => 14
  | some b => b + 1

/-- Too few edges do not make a command. -/
theorem rc5_too_few (a : Abs5) (es : List (Bool × Option Nat)) (h : es.length < a.need)
    (ha : a.need ≤ 14) :
    (runTotal Abs5.step a es).2 = List.replicate es.length (.ok none) := by
  induction es generalizing a with
  | nil => rfl
  | cons e es ih =>
    obtain ⟨r, m⟩ := e
    obtain ⟨st, buf, odd⟩ := a
    simp only [List.length_cons] at h
    have key : ∀ a', Abs5.step ⟨st, buf, odd⟩ (r, m) = (a', .ok none) → es.length < a'.need → a'.need ≤ 14 →
        (runTotal Abs5.step ⟨st, buf, odd⟩ ((r, m) :: es)).2 = List.replicate (es.length + 1) (.ok none) := by
      intro a' h3 h1 h2
      rw [runTotal, h3, List.replicate_succ]
      dsimp only
      rw [ih a' h1 h2]
    cases m with
    | none =>
      have : es.length < 13 := by
        unfold Abs5.need at h ha
        cases st <;> simp only at h ha <;> omega
      cases r
      · exact key _ rfl (show es.length < 14 by omega) (show 14 ≤ 14 by decide)
      · exact key _ rfl (show es.length < 13 by omega) (show 13 ≤ 14 by decide)
    | some n =>
      cases st with
      | none =>
        have h' : es.length + 1 < 14 := h
        cases r
        · exact key _ rfl (show es.length < 14 by omega) (show 14 ≤ 14 by decide)
        · exact key _ rfl (show es.length < 13 by omega) (show 13 ≤ 14 by decide)
      | some b =>
        have h' : es.length + 1 < b + 1 := h
        have ha' : b + 1 ≤ 14 := ha
        cases hodd : xor odd (n % 2 == 1)
        · refine key ⟨some (b - 1), if r then buf ||| (1 : BitVec 16) <<< b else buf, false⟩ ?_
            (show es.length < b - 1 + 1 by omega) (show b - 1 + 1 ≤ 14 by omega)
          simp only [Abs5.step, hodd]
          rw [if_neg (by decide), if_neg (by omega)]
        · refine key ⟨some b, buf, true⟩ ?_ (show es.length < b + 1 by omega) ha'
          simp only [Abs5.step, hodd, if_true]

/-- Intervals that are no multiple of a half-bit are not heard, and set the clock to zero. -/
theorem rc5_nones (t : Target) (hus : 16 ≤ t.usizeBits) (tbl : PulseSpans)
    (hlen : tbl.spans.length ≤ 8) (evs : List Ev) (hev : ∀ e ∈ evs, tbl.half e.2 = none)
    {d : Rc5Decoder} {a : Abs5} (hs : Sim5 d a) :
    ∃ d' a', runStep (rc5Fn t tbl) d evs = some (d', List.replicate evs.length (.ok none)) ∧ Sim5 d' a' ∧
      d'.clock ≤ d.clock := by
  induction evs generalizing d a with
  | nil => exact ⟨d, a, rfl, hs, Nat.le_refl _⟩
  | cons e es ih =>
    have he := hev e (by simp)
    have hg : tbl.get e.2 = none := by
      unfold PulseSpans.half at he
      rcases h : tbl.get e.2 with _ | v
      · rfl
      · rw [h] at he; cases he
    obtain ⟨d1, r, h1, h2, h3, h4⟩ := rc5_step_ex t tbl hus hlen hs e (clock := 0) (by rw [rc5Clock, hg])
    obtain ⟨d2, a2, h5, h6, h7⟩ := ih (fun x hx => hev x (by simp [hx])) h2
    refine ⟨d2, a2, ?_, h6, by omega⟩
    have : (a.step (measure tbl e)).2 = .ok none := by rw [measure, he]; rfl
    simp only [runStep, h1, h5, h3, this, List.length_cons, List.replicate_succ]

/-- RC5 after a command: anywhere, but with a small clock. -/
def After5 (t : Target) (d : Rc5Decoder) : Prop :=
  (∃ a, Sim5 d a) ∧ (d.clock ≤ 224 ∨ t.overflowChecks = false)

/-- RC5 before a command: idle, or the first edge comes after something that is no multiple of a
half-bit. -/
def Ready5 (t : Target) (tbl : PulseSpans) (d : Rc5Decoder) (dt : Nat) : Prop :=
  (∃ a, Sim5 d a ∧ (tbl.half dt = none ∨ ∃ odd, a = ⟨none, 0, odd⟩)) ∧
    (d.clock ≤ 224 ∨ t.overflowChecks = false)

/-- A frame, fewer than 14 further edges, and then only unknown intervals. -/
theorem rc5_chunk (t : Target) (hus : 16 ≤ t.usizeBits) (tbl : PulseSpans)
    (hlen : tbl.spans.length ≤ 8) (w : BitVec 14) (hw : w.getLsbD 13 = true) (evs e2 e3 : List Ev)
    (h : ManchesterFrame (HalfBits tbl) (rc5Edges w) evs) (h2 : e2.length < 14)
    (h3 : ∀ e ∈ e3, tbl.half e.2 = none) (d : Rc5Decoder) (hd : ∀ dt evs', evs = (true, dt) :: evs' →
      Ready5 t tbl d dt) :
    ∃ d' o, runStep (rc5Fn t tbl) d (evs ++ e2 ++ e3) = some (d', o) ∧ After5 t d' ∧
      said o = oks [Rc5Command.unpack (w.setWidth 16)] := by
  have hp : 2 ^ 16 ≤ 2 ^ t.usizeBits := Nat.pow_le_pow_right (by decide) hus
  have hl : evs.length ≤ 28 := by
    rw [frame_length h]
    refine Nat.le_trans (edgesFrom_length _ _ _) ?_
    simp [rc5Levels]
    decide
  have hcons : ∃ dt evs', evs = (true, dt) :: evs' := by
    obtain ⟨pause, n, evs', edges', rfl, -, -⟩ := h
    exact ⟨pause, evs', rfl⟩
  obtain ⟨dt, evs', hevs⟩ := hcons
  obtain ⟨⟨a, hsim, ha⟩, hclk⟩ := hd dt evs' hevs
  obtain ⟨d1, h1, -, -⟩ := rc5_run_ex t tbl hus hlen hsim evs (by
    rcases hclk with hc | hc
    · exact .inr (by omega)
    · exact .inl hc)
  have hab : ∃ odd, runTotal Abs5.step a (evs.map (measure tbl)) =
      runTotal Abs5.step ⟨none, 0, odd⟩ (evs.map (measure tbl)) := by
    rcases ha with hn | ⟨odd, rfl⟩
    · refine ⟨false, ?_⟩
      rw [hevs, List.map_cons, measure, hn]
      rfl
    · exact ⟨odd, rfl⟩
  obtain ⟨odd, hab⟩ := hab
  rw [hab, rc5_abs_frame tbl w hw odd evs h] at h1
  obtain ⟨s0, hs0⟩ := run_last_reset (D := rc5Decoder t tbl) h1 (by simp)
  have hd1 : d1 = rc5Init := hs0
  subst hd1
  obtain ⟨d2, h4, h5, h6⟩ := rc5_run_ex t tbl hus hlen sim5_init e2
    (.inr (by simp only [rc5Init]; omega))
  rw [rc5_too_few Abs5.init _ (by rw [List.length_map]; exact h2) (show 14 ≤ 14 by decide)] at h4
  obtain ⟨d3, a3, h7, h8, h9⟩ := rc5_nones t hus tbl hlen e3 h3 h5
  refine ⟨d3, _, run_append_some (run_append_some h1 h4) h7, ⟨⟨a3, h8⟩, ?_⟩, ?_⟩
  · rcases h6 with h6 | h6
    · refine .inl ?_
      simp only [rc5Init] at h6
      omega
    · exact .inr h6
  · rw [said_append, said_append, said_append, said_nones, said_nones, said_nones]
    rfl

/-- One tick of the sender, or at least 2.2 ms, is no multiple of a half-bit. -/
theorem rc5_unknown {t : Target} {fs f : Nat} (hfs : 20000 ≤ fs) (hle : fs ≤ f) (hf : f < 2 ^ 32)
    {tbl : PulseSpans} (htbl : rc5Spans t Mono.u32 f = some tbl) (phase t' : Nat) {x : Nat}
    (hx : x = 1 ∨ 22 * fs ≤ 10000 * x) :
    tbl.half (reading fs f phase (t' + x) - reading fs f phase t') = none := by
  rcases hh : tbl.half (reading fs f phase (t' + x) - reading fs f phase t') with _ | n
  · rfl
  exfalso
  obtain ⟨i, -, hin, -⟩ := (halfBits_iff _ _ _).mpr hh
  have hb := reading_bounds (u := fs) (by omega) f phase t' x
  have hr := C52_rejects .rc5 t Mono.u32 (.inl rfl) f hf tbl htbl i _ hin
  have hpos : 0 < reading fs f phase (t' + x) - reading fs f phase t' := by
    have : fs ≤ x * f := by
      calc fs ≤ 1 * f := by omega
        _ ≤ x * f := Nat.mul_le_mul_right _ (by omega)
    have := reading_succ (phase := phase) (t := t') (show 0 < fs by omega) this
    omega
  generalize reading fs f phase (t' + x) - reading fs f phase t' = d at *
  have m1 : 20000 * f ≤ f * fs := by rw [Nat.mul_comm f]; exact Nat.mul_le_mul_right _ hfs
  have hi : i = 0 ∨ i = 1 := by
    rcases i with _ | _ | i
    · exact .inl rfl
    · exact .inr rfl
    · have := hr.2 rfl
      omega
  have hw : 100000000 * d ≤ 195580 * f ∧ 9968 * (88 * 889 * f) ≤ 10000000000 * (100 * d + 90) := by
    rcases hi with rfl | rfl
    · have := hr.1 889 12 rfl
      omega
    · have := hr.1 (2 * 889) 10 rfl
      omega
  have a' := Nat.mul_le_mul_right fs hw.1
  have b' := Nat.mul_le_mul_right fs hw.2
  have e1 : 100000000 * d * fs = 100000000 * (fs * d) := by rw [Nat.mul_assoc, Nat.mul_comm d]
  have e2 : 195580 * f * fs = 195580 * (f * fs) := by rw [Nat.mul_assoc]
  have e3 : 9968 * (88 * 889 * f) * fs = 779816576 * (f * fs) := by
    rw [show 9968 * (88 * 889 * f) = 779816576 * f by omega, Nat.mul_assoc]
  have e4 : 10000000000 * (100 * d + 90) * fs = 1000000000000 * (fs * d) + 900000000000 * fs := by
    rw [show 10000000000 * (100 * d + 90) = 1000000000000 * d + 900000000000 by omega, Nat.add_mul,
      Nat.mul_assoc, Nat.mul_comm d]
  rw [e1, e2] at a'
  rw [e3, e4] at b'
  rcases hx with rfl | hx
  · omega
  · have m2 : 22 * fs * f ≤ 10000 * x * f := Nat.mul_le_mul_right _ hx
    rw [Nat.mul_assoc, Nat.mul_comm fs, Nat.mul_assoc 10000] at m2
    omega

/-- The RC5 waveform: 13 to 26 durations of one or two half-bits. -/
theorem rc5_wave_tail {l : Nat} (hl : 0 < l) {w : BitVec 14} (h13 : w.getLsbD 13 = true) :
    ∀ d ∈ (rc5Wave l w).tail, 0 < d ∧ d ≤ 2 * l := by
  intro d hd
  unfold rc5Wave at hd
  rw [rc5Edges_eq _ h13] at hd
  simp only [manchesterWave, List.tail_cons, List.mem_map] at hd
  obtain ⟨x, hx, rfl⟩ := hd
  rcases rc5_edges_len _ 13 true x hx with h | h <;> rw [h] <;> omega

/-- What is in a chunk, in total. -/
theorem slots_sum {M k b : Nat} {wave buf : List Nat} (hb : 0 < b) (hM : 0 < M) (h0 : 0 < wave.length)
    (hL : wave.length ≤ M) (hlen : buf.length = M + k) (hz : buf.drop M = List.replicate k 0)
    (hw : ∀ d ∈ wave.tail, d ≤ b) (ho : ∀ d ∈ buf, d ≤ b) :
    (atLeastOne (loaded wave buf).tail).sum ≤ (M - 1) * b + k := by
  obtain ⟨h1, h2, -, -⟩ := loaded_slots h0 hL hlen hz
  rw [h1, atLeastOne_append, atLeastOne_zeros, List.sum_append]
  have hle : ∀ d ∈ atLeastOne (wave.tail ++ (buf.take M).drop wave.length), d ≤ b := by
    intro d hd
    obtain ⟨x, hx, rfl⟩ := List.mem_map.mp hd
    refine Nat.max_le.mpr ⟨?_, hb⟩
    rcases List.mem_append.mp hx with hx | hx
    · exact hw x hx
    · exact ho x (List.mem_of_mem_take (List.mem_of_mem_drop hx))
  have h3 := sum_le_length hle
  have h4 : (atLeastOne (wave.tail ++ (buf.take M).drop wave.length)).length = M - 1 := by
    rw [atLeastOne, List.length_map, List.length_append, List.length_tail]
    omega
  rw [h4] at h3
  have h5 : (List.replicate k 1).sum = k := by simp
  omega

/-- **C58** for RC5: an idle sender ticked at `fs` Hz (42 kHz or more, or a whole number of kHz from 20)
with a buffer of `27 + k` slots, `l` ticks per half-bit, whose slots hold at most two half-bits each and
are empty from number 27 on (as in a new sender, and as any earlier RC5 commands leave them), is given
any number of commands, one every 114 ms or more (plus one tick per slot above 27); a new receiver polled at
`f` Hz, 40 kHz or more and not slower than the sender, says exactly these commands, in order, each
once, and nothing else, although the sender replays parts of earlier commands: for all commands, all
distances up to the range of the receiver's counter, every phase between the clocks, any pause before, and any
number of further polls. -/
theorem C58_rc5_session (t : Target) (hus : 16 ≤ t.usizeBits) (fs : Nat)
    (hfs : 42000 ≤ fs ∨ (20000 ≤ fs ∧ fs % 1000 = 0)) (f : Nat) (hlo : 40000 ≤ f) (hle : fs ≤ f)
    (hf : f < 2 ^ 32) (tbl : PulseSpans) (htbl : rc5Spans t Mono.u32 f = some tbl)
    (conv : Rc5Command → K) (l : Nat) (hl : rc5CalcFreq fs = some l) (cmds : List (Rc5Command × Nat))
    (hcmds : ∀ x ∈ cmds, x.1.addr.toNat < 32 ∧ x.1.cmd.toNat < 64 ∧ x.1.start.toNat < 4)
    (s : Sender) (hidle : s.buffer.status = .idle) (k : Nat) (hlen : s.buffer.ptb.buf.length = 27 + k)
    (hz : s.buffer.ptb.buf.drop 27 = List.replicate k 0) (hold : ∀ d ∈ s.buffer.ptb.buf, d ≤ 2 * l)
    (hticks : ∀ x ∈ cmds, 114 * fs + 1000 * k ≤ 1000 * x.2 ∧ x.2 * f / fs + 1 < 2 ^ 32) :
    ∃ s' levels, s.calls (session (rc5Encode t l) cmds) = some (s', levels) ∧
      s'.buffer.status = .idle ∧ ∀ pause phase n, phase < fs →
      reading fs f phase pause + 1 < 2 ^ 32 →
      reading fs f phase (pause + sessionTicks cmds) < n →
      (pollRun (rc5Decoder t tbl) conv (overhear fs f phase pause levels n)).map said =
        some (oks (cmds.map fun x => conv { x.1 with start := x.1.start ||| 2 })) := by
  obtain ⟨l', hl', -, henc⟩ := C38_rc5_encode t fs (by omega)
  rw [hl, Option.some.injEq] at hl'
  subst hl'
  have e := (rc5CalcFreq_eq (by omega) hl).2 (by omega)
  have hl2 := (rc5CalcFreq_eq (by omega) hl).1
  have hl0 : 0 < l := by rw [e]; omega
  have h13 : ∀ c : Rc5Command, (rc5Word c.pack).getLsbD 13 = true := by
    intro c
    rw [rc5Word_bits _ _ (by decide)]; simp
  have hlen8 : tbl.spans.length ≤ 8 := by
    rw [rc5Spans_eq (.inl rfl) t hf, Option.some.injEq] at htbl
    subst htbl
    simp [rc5Table]
  have htail := fun c : Rc5Command => rc5_wave_tail hl0 (h13 c)
  let wave : Rc5Command → List Nat := fun c => rc5Wave l (rc5Word c.pack)
  have hwl : ∀ c, 14 ≤ (wave c).length ∧ (wave c).length ≤ 27 := fun c => (henc c).2
  let Inv : List Nat → Prop := fun b => b.length = 27 + k ∧ b.drop 27 = List.replicate k 0 ∧
    ∀ d ∈ b, d ≤ 2 * l
  have hsum : ∀ c b, Inv b → (atLeastOne (loaded (wave c) b).tail).sum ≤ 26 * (2 * l) + k := by
    intro c b hb
    exact slots_sum (by omega) (by decide) (by have := hwl c; omega) (hwl c).2 hb.1 hb.2.1
      (fun d hd => (htail c d hd).2) hb.2.2
  refine session_heard (rc5Decoder t tbl) conv (rc5Encode t l) wave
    (fun c => { c with start := c.start ||| 2 }) Inv (After5 t) (Ready5 t tbl) (by omega) hle cmds
    (fun x _ => (henc x.1).1) ?_ ?_ ?_ ?_ s hidle ⟨hlen, hz, hold⟩ (fun x hx => (hticks x hx).2)
  · intro x hx b hb
    obtain ⟨h1, h2, h3, h4⟩ := loaded_slots (wave := wave x.1) (by have := hwl x.1; omega) (hwl x.1).2 hb.1 hb.2.1
    have hmem : ∀ d ∈ loaded (wave x.1) b, d ≤ 2 * l := by
      intro d hd
      rcases List.mem_append.mp hd with hd | hd
      · have hc : wave x.1 = 0 :: (wave x.1).tail := rc5Wave_cons _ _ (h13 x.1)
        rw [hc] at hd
        rcases List.mem_cons.mp hd with rfl | hd
        · omega
        · exact (htail x.1 d hd).2
      · exact hb.2.2 d (List.mem_of_mem_drop hd)
    refine ⟨⟨h3, h4, hmem⟩, by have := hwl x.1; have := hb.1; omega, (loaded (wave x.1) b).tail, ?_, ?_, ?_⟩
    · have hc : wave x.1 = 0 :: (wave x.1).tail := rc5Wave_cons _ _ (h13 x.1)
      unfold loaded
      rw [hc]
      rfl
    · intro d hd
      have := hmem d (List.mem_of_mem_tail hd)
      omega
    · have := hsum x.1 b hb
      have := (hticks x hx).1
      omega
  · intro x hx b hb phase d dt t' hd
    obtain ⟨h1, h2, -, -⟩ := loaded_slots (wave := wave x.1) (by have := hwl x.1; omega) (hwl x.1).2 hb.1 hb.2.1
    rw [sentChunk, h1, atLeastOne_append, atLeastOne_append, atLeastOne_zeros,
      atLeastOne_of_pos (ds := (wave x.1).tail) fun d hd => (htail x.1 d hd).1]
    obtain ⟨e2, e3, he, ⟨b2, he2⟩, he3⟩ := chunkTail_split (wave x.1).tail
      (atLeastOne ((b.take 27).drop (wave x.1).length)) k (x.2 - (((wave x.1).tail ++
        atLeastOne ((b.take 27).drop (wave x.1).length) ++ List.replicate k 1).sum + 1))
    rw [he, clocked_append, clocked_append, ← List.cons_append, ← List.cons_append]
    have hfr : ManchesterFrame (Within tbl) (rc5Edges (rc5Word x.1.pack))
        ((true, dt) :: clocked fs f phase t' (alternating false (wave x.1).tail)) := by
      show ManchesterFrame _ _ ((true, dt) :: clocked fs f phase t'
        (alternating false (rc5Wave l (rc5Word x.1.pack)).tail))
      unfold rc5Wave
      rw [rc5Edges_eq _ (h13 x.1)]
      refine ⟨_, 1, _, _, rfl, rfl, ?_⟩
      refine clocked_timed (R := fun x n => Near fs 5 (889 * n) x) ?_ t'
        (timed_wave _ _ _ (edgesFrom_alternating true _ _) fun x _ => rc5_ticks_near hfs e _)
      intro t2 x2 w hmem hnear
      exact rc5_near_within (by omega) (.inl rfl) hlo hf htbl phase t2 (rc5_edges_len _ 13 true w hmem) hnear
    have hfr' : ManchesterFrame (HalfBits tbl) (rc5Edges (rc5Word x.1.pack))
        ((true, dt) :: clocked fs f phase t' (alternating false (wave x.1).tail)) := by
      have htbl' := htbl
      rw [rc5Spans_eq (.inl rfl) t hf, Option.some.injEq] at htbl'
      subst htbl'
      exact rc5_halfBits (by omega) (h13 x.1) hfr
    obtain ⟨d', o, g1, g2, g3⟩ := rc5_chunk t hus tbl hlen8 _ (h13 x.1) _
      (clocked fs f phase (t' + duration (alternating false (wave x.1).tail)) e2)
      (clocked fs f phase (t' + duration (alternating false (wave x.1).tail ++ e2)) e3) hfr'
      (by
        rw [clocked_length, he2, alternating_length, atLeastOne, List.length_map]
        have := hwl x.1
        omega)
      (by
        intro q hq
        obtain ⟨e, he, t2, hq⟩ := clocked_mem hq
        rw [hq]
        exact rc5_unknown (by omega) hle hf htbl phase t2 (.inl (he3 e he))) d (by
        intro dt' evs' hh
        simp only [List.cons.injEq, Prod.mk.injEq, true_and] at hh
        rw [← hh.1]
        exact hd)
    obtain ⟨ha, hc, hst⟩ := hcmds x hx
    rw [rc5_received_cmd x.1 ha hc hst] at g3
    exact ⟨d', o, g1, g2, g3⟩
  · intro x hx b hb phase d t' hd
    obtain ⟨⟨a, hs⟩, hclk⟩ := hd
    refine ⟨⟨a, hs, .inl (rc5_unknown (by omega) hle hf htbl phase t' (.inr ?_))⟩, hclk⟩
    have h1 := hsum x.1 b hb
    have h2 := (hticks x hx).1
    rw [sentChunk, chunkGap]
    dsimp only
    split <;> omega
  · intro dt
    exact ⟨⟨Abs5.init, sim5_init, .inr ⟨false, rfl⟩⟩, .inl (show 0 ≤ 224 by decide)⟩

/-! ## RC6 -/

/-- Without a leader nothing is heard. -/
theorem rc6_leaderless (a : Abs6) (ha : a.st = .idle ∨ a.st = .leading) (es : List (Bool × Option Nat))
    (hes : ∀ e ∈ es, e.2 ≠ some 6) :
    (runTotal Abs6.step a es).2 = List.replicate es.length (.ok none) := by
  induction es generalizing a with
  | nil => rfl
  | cons e es ih =>
    obtain ⟨r, m⟩ := e
    have hm : m ≠ some 6 := hes (r, m) (by simp)
    have key : ∃ a', Abs6.step a (r, m) = (a', .ok none) ∧ (a'.st = .idle ∨ a'.st = .leading) := by
      obtain ⟨st, data, tg, odd⟩ := a
      cases m with
      | none =>
        cases r
        · exact ⟨_, rfl, .inl rfl⟩
        · exact ⟨_, rfl, .inr rfl⟩
      | some n =>
        rcases ha with ha | ha
        · simp only at ha
          subst ha
          cases r
          · exact ⟨_, rfl, .inl rfl⟩
          · exact ⟨_, rfl, .inr rfl⟩
        · simp only at ha
          subst ha
          refine ⟨_, rfl, .inl ?_⟩
          dsimp only
          rw [if_neg]
          rintro ⟨-, rfl⟩
          exact hm rfl
    obtain ⟨a', h1, h2⟩ := key
    rw [runTotal, h1, List.length_cons, List.replicate_succ]
    dsimp only
    rw [ih a' h2 fun x hx => hes x (by simp [hx])]

/-- Intervals that are no multiple of the unit are not heard, and set the clock to zero. -/
theorem rc6_nones (t : Target) (hus : 16 ≤ t.usizeBits) (tbl : PulseSpans)
    (hlen : tbl.spans.length ≤ 8) (evs : List Ev) (hev : ∀ e ∈ evs, tbl.half e.2 = none)
    {d : Rc6Decoder} {a : Abs6} (hs : Sim6 d a) :
    ∃ d' a', runStep (rc6Fn t tbl) d evs = some (d', List.replicate evs.length (.ok none)) ∧ Sim6 d' a' ∧
      d'.clock ≤ d.clock := by
  induction evs generalizing d a with
  | nil => exact ⟨d, a, rfl, hs, Nat.le_refl _⟩
  | cons e es ih =>
    have he := hev e (by simp)
    have hg : tbl.get e.2 = none := by
      unfold PulseSpans.half at he
      rcases h : tbl.get e.2 with _ | v
      · rfl
      · rw [h] at he; cases he
    obtain ⟨d1, r, h1, h2, h3, h4⟩ := rc6_step_ex t tbl hus hlen hs e (clock := 0) (by rw [rc6Clock, hg])
    obtain ⟨d2, a2, h5, h6, h7⟩ := ih (fun x hx => hev x (by simp [hx])) h2
    refine ⟨d2, a2, ?_, h6, by omega⟩
    have : (a.step (measure tbl e)).2 = .ok none := by rw [measure, he]; rfl
    simp only [runStep, h1, h5, h3, this, List.length_cons, List.replicate_succ]

/-- RC6 after a command: anywhere, but with a small clock. -/
def After6 (t : Target) (d : Rc6Decoder) : Prop :=
  (∃ a, Sim6 d a) ∧ (d.clock ≤ 400 ∨ t.overflowChecks = false)

/-- RC6 before a command: idle, or the first edge comes after something that is no multiple of the
unit. -/
def Ready6 (t : Target) (tbl : PulseSpans) (d : Rc6Decoder) (dt : Nat) : Prop :=
  (∃ a, Sim6 d a ∧ (tbl.half dt = none ∨ ∃ tg odd, a = ⟨.idle, 0, tg, odd⟩)) ∧
    (d.clock ≤ 400 ∨ t.overflowChecks = false)

/-- A frame, at most 50 further edges none of which ends a leader, and then only unknown intervals. -/
theorem rc6_chunk (t : Target) (hus : 16 ≤ t.usizeBits) (tbl : PulseSpans)
    (hlen : tbl.spans.length ≤ 8) (w : BitVec 16) (toggle : Bool) (evs e2 e3 : List Ev)
    (h : ManchesterFrame (HalfBits tbl) (rc6EdgesMode 0 w toggle) evs) (h2 : e2.length ≤ 50)
    (h6 : ∀ e ∈ e2, tbl.half e.2 ≠ some 6)
    (h3 : ∀ e ∈ e3, tbl.half e.2 = none) (d : Rc6Decoder) (hd : ∀ dt evs', evs = (true, dt) :: evs' →
      Ready6 t tbl d dt) :
    ∃ d' o, runStep (rc6Fn t tbl) d (evs ++ e2 ++ e3) = some (d', o) ∧ After6 t d' ∧
      said o = oks [Rc6Command.fromBits w toggle] := by
  have hp : 2 ^ 16 ≤ 2 ^ t.usizeBits := Nat.pow_le_pow_right (by decide) hus
  have hl : evs.length ≤ 52 := by
    rw [frame_length h]
    refine Nat.le_trans (edgesFrom_length _ _ _) ?_
    simp [rc6LevelsMode]
    decide
  have hcons : ∃ dt evs', evs = (true, dt) :: evs' := by
    obtain ⟨pause, n, evs', edges', rfl, -, -⟩ := h
    exact ⟨pause, evs', rfl⟩
  obtain ⟨dt, evs', hevs⟩ := hcons
  obtain ⟨⟨a, hsim, ha⟩, hclk⟩ := hd dt evs' hevs
  obtain ⟨d1, h1, hs1, -⟩ := rc6_run_ex t tbl hus hlen hsim evs (by
    rcases hclk with hc | hc
    · exact .inr (by omega)
    · exact .inl hc)
  have hab : ∃ tg odd, runTotal Abs6.step a (evs.map (measure tbl)) =
      runTotal Abs6.step ⟨.idle, 0, tg, odd⟩ (evs.map (measure tbl)) := by
    rcases ha with hn | ⟨tg, odd, rfl⟩
    · refine ⟨a.toggle, false, ?_⟩
      rw [hevs, List.map_cons, measure, hn]
      rfl
    · exact ⟨tg, odd, rfl⟩
  obtain ⟨tg, odd, hab⟩ := hab
  rw [hab, rc6_abs_frame tbl 0 (.inl rfl) w toggle tg odd evs h] at h1 hs1
  obtain ⟨s0, hs0⟩ := run_last_reset (D := rc6Decoder t tbl) h1 (by simp)
  have hc1 : d1.clock = 0 := congrArg Rc6Decoder.clock (show d1 = Rc6Decoder.reset s0 from hs0)
  obtain ⟨d2, h4, h5, h7⟩ := rc6_run_ex t tbl hus hlen hs1 e2 (.inr (by omega))
  rw [rc6_leaderless _ (.inl rfl) _ (by
    intro e he
    obtain ⟨x, hx, rfl⟩ := List.mem_map.mp he
    exact h6 x hx)] at h4
  obtain ⟨d3, a3, h8, h9, h10⟩ := rc6_nones t hus tbl hlen e3 h3 h5
  refine ⟨d3, _, run_append_some (run_append_some h1 h4) h8, ⟨⟨a3, h9⟩, ?_⟩, ?_⟩
  · rcases h7 with h7 | h7
    · exact .inl (by omega)
    · exact .inr h7
  · rw [said_append, said_append, said_append, said_nones, said_nones, said_nones]
    rfl

/-- One tick of the sender, or at least 3.2 ms, is no multiple of the unit. -/
theorem rc6_unknown {t : Target} {fs f : Nat} (hfs : 46000 ≤ fs) (hle : fs ≤ f) (hf : f < 2 ^ 32)
    {tbl : PulseSpans} (htbl : rc6Spans t Mono.u32 f = some tbl) (phase t' : Nat) {x : Nat}
    (hx : x = 1 ∨ 32 * fs ≤ 10000 * x) :
    tbl.half (reading fs f phase (t' + x) - reading fs f phase t') = none := by
  rcases hh : tbl.half (reading fs f phase (t' + x) - reading fs f phase t') with _ | n
  · rfl
  exfalso
  obtain ⟨i, -, hin, -⟩ := (halfBits_iff _ _ _).mpr hh
  have hb := reading_bounds (u := fs) (by omega) f phase t' x
  have hr := C52_rejects .rc6 t Mono.u32 (.inl rfl) f hf tbl htbl i _ hin
  have hpos : 0 < reading fs f phase (t' + x) - reading fs f phase t' := by
    have : fs ≤ x * f := by
      calc fs ≤ 1 * f := by omega
        _ ≤ x * f := Nat.mul_le_mul_right _ (by omega)
    have := reading_succ (phase := phase) (t := t') (show 0 < fs by omega) this
    omega
  generalize reading fs f phase (t' + x) - reading fs f phase t' = d at *
  have m1 : 46000 * f ≤ f * fs := by rw [Nat.mul_comm f]; exact Nat.mul_le_mul_right _ hfs
  have hw : 100000000 * d ≤ 298368 * f ∧ 9968 * (88 * 444 * f) ≤ 10000000000 * (100 * d + 88) := by
    rcases i with _ | _ | _ | _ | _ | _ | i
    · have := hr.1 444 12 rfl; omega
    · have := hr.1 (2 * 444) 12 rfl; omega
    · have := hr.1 (3 * 444) 12 rfl; omega
    · have := hr.1 (4 * 444) 12 rfl; omega
    · have := hr.1 (5 * 444) 12 rfl; omega
    · have := hr.1 (6 * 444) 12 rfl; omega
    · have := hr.2 rfl
      omega
  have a' := Nat.mul_le_mul_right fs hw.1
  have b' := Nat.mul_le_mul_right fs hw.2
  have e1 : 100000000 * d * fs = 100000000 * (fs * d) := by rw [Nat.mul_assoc, Nat.mul_comm d]
  have e2 : 298368 * f * fs = 298368 * (f * fs) := by rw [Nat.mul_assoc]
  have e3 : 9968 * (88 * 444 * f) * fs = 389469696 * (f * fs) := by
    rw [show 9968 * (88 * 444 * f) = 389469696 * f by omega, Nat.mul_assoc]
  have e4 : 10000000000 * (100 * d + 88) * fs = 1000000000000 * (fs * d) + 880000000000 * fs := by
    rw [show 10000000000 * (100 * d + 88) = 1000000000000 * d + 880000000000 by omega, Nat.add_mul,
      Nat.mul_assoc, Nat.mul_comm d]
  rw [e1, e2] at a'
  rw [e3, e4] at b'
  rcases hx with rfl | hx
  · omega
  · have m2 : 32 * fs * f ≤ 10000 * x * f := Nat.mul_le_mul_right _ hx
    rw [Nat.mul_assoc, Nat.mul_comm fs, Nat.mul_assoc 10000] at m2
    omega

/-- Up to three units are no leader. -/
theorem rc6_short {t : Target} {fs f : Nat} (hfs : 46000 ≤ fs) (hle : fs ≤ f) (hf : f < 2 ^ 32)
    {tbl : PulseSpans} (htbl : rc6Spans t Mono.u32 f = some tbl) (phase t' : Nat) {x : Nat}
    (hx : x ≤ 3 * (444 * fs / 1000000)) :
    tbl.half (reading fs f phase (t' + x) - reading fs f phase t') ≠ some 6 := by
  intro hh
  obtain ⟨i, hi, hin, -⟩ := (halfBits_iff _ _ _).mpr hh
  obtain rfl : i = 5 := by omega
  have hb := reading_bounds (u := fs) (by omega) f phase t' x
  have hr := (C52_rejects .rc6 t Mono.u32 (.inl rfl) f hf tbl htbl 5 _ hin).1 (6 * 444) 12 rfl
  generalize reading fs f phase (t' + x) - reading fs f phase t' = d at *
  have b' := Nat.mul_le_mul_right fs hr.2
  have e3 : 9968 * ((100 - 12) * (6 * 444) * f) * fs = 2336818176 * (f * fs) := by
    rw [show 9968 * ((100 - 12) * (6 * 444) * f) = 2336818176 * f by omega, Nat.mul_assoc]
  have e4 : 10000000000 * (100 * d + (100 - 12)) * fs = 1000000000000 * (fs * d) + 880000000000 * fs := by
    rw [show 10000000000 * (100 * d + (100 - 12)) = 1000000000000 * d + 880000000000 by omega, Nat.add_mul,
      Nat.mul_assoc, Nat.mul_comm d]
  rw [e3, e4] at b'
  have m2 : 1000000 * x * f ≤ 1332 * fs * f := Nat.mul_le_mul_right _ (by omega)
  rw [Nat.mul_assoc, Nat.mul_assoc 1332, Nat.mul_comm fs] at m2
  have m1 : 46000 * fs ≤ f * fs := Nat.mul_le_mul_right _ (by omega)
  omega

/-- The RC6 waveform: a leader of six units, then at most three units each. -/
theorem rc6_wave_tail (l : Nat) (w : BitVec 16) (toggle : Bool) :
    ∃ rest, (rc6Wave l w toggle).tail = 6 * l :: rest ∧ ∀ d ∈ rest, d ≤ 3 * l := by
  unfold rc6Wave
  rw [rc6Levels_edges]
  obtain ⟨hd, hh, hle⟩ : ∃ hd, rc6Head 0 toggle = (false, 6) :: hd ∧ ∀ e ∈ hd, e.2 ≤ 3 := by
    cases toggle
    · exact ⟨_, rfl, by decide⟩
    · exact ⟨_, rfl, by decide⟩
  rw [hh]
  simp only [manchesterWave, List.cons_append, List.map_cons, List.tail_cons]
  refine ⟨_, rfl, ?_⟩
  intro d hd'
  obtain ⟨e, he, rfl⟩ := List.mem_map.mp hd'
  refine Nat.mul_le_mul_right _ ?_
  rcases List.mem_append.mp he with he | he
  · exact hle e he
  · exact rc6_tail_units w 16 (!toggle) 2 6 (by decide) e he

theorem sum_leader {b : Nat} {x : Nat} {l : List Nat} (hx : x ≤ 2 * b) (h : ∀ d ∈ l, d ≤ b) :
    (x :: l).sum ≤ ((x :: l).length + 1) * b := by
  have := sum_le_length h
  simp only [List.sum_cons, List.length_cons, Nat.add_mul] at this ⊢
  omega

/-- **C58** for RC6: an idle sender ticked at `fs` Hz (46 kHz or more) with a buffer of `44 + k` slots, `l`
ticks per unit, whose slots hold at most three units each (the first two: any leader) and
are empty from number 44 on (as in a new sender, and as any earlier RC6 commands leave them), is given
any number of commands, one every 106 ms or more (plus one tick per slot above 44); a new receiver polled at
`f` Hz, 80 kHz or more and not slower than the sender, says exactly these commands, in order, each
once, and nothing else, although the sender replays parts of earlier commands. -/
theorem C58_rc6_session (t : Target) (hus : 16 ≤ t.usizeBits) (fs : Nat) (hfs : 46000 ≤ fs)
    (f : Nat) (hlo : 80000 ≤ f) (hle : fs ≤ f)
    (hf : f < 2 ^ 32) (tbl : PulseSpans) (htbl : rc6Spans t Mono.u32 f = some tbl)
    (conv : Rc6Command → K) (l : Nat) (hl : rc6Data fs = some l) (cmds : List (Rc6Command × Nat))
    (s : Sender) (hidle : s.buffer.status = .idle) (k : Nat) (hlen : s.buffer.ptb.buf.length = 44 + k)
    (hz : s.buffer.ptb.buf.drop 44 = List.replicate k 0)
    (hold : ∀ d ∈ s.buffer.ptb.buf.drop 2, d ≤ 3 * l)
    (hticks : ∀ x ∈ cmds, 106 * fs + 1000 * k ≤ 1000 * x.2 ∧ x.2 * f / fs + 1 < 2 ^ 32) :
    ∃ s' levels, s.calls (session (rc6Encode l) cmds) = some (s', levels) ∧
      s'.buffer.status = .idle ∧ ∀ pause phase n, phase < fs →
      reading fs f phase pause + 1 < 2 ^ 32 →
      reading fs f phase (pause + sessionTicks cmds) < n →
      (pollRun (rc6Decoder t tbl) conv (overhear fs f phase pause levels n)).map said =
        some (oks (cmds.map fun x => conv x.1)) := by
  have hhi : 444 * fs < 2 ^ 32 := by
    unfold rc6Data at hl
    split at hl
    · assumption
    · cases hl
  obtain rfl : l = 444 * fs / 1000000 := by
    rw [rc6Data, if_pos hhi, Option.some.injEq] at hl
    exact hl.symm
  have henc := fun c : Rc6Command => C38_rc6_encode fs _ hl c
  generalize hL : 444 * fs / 1000000 = l at *
  have hl0 : 0 < l := by omega
  have hl1 : 1000000 * l ≤ 444 * fs := by omega
  have hlen8 : tbl.spans.length ≤ 8 := by
    rw [rc6Spans_eq (.inl rfl) t hf, Option.some.injEq] at htbl
    subst htbl
    simp [rc6Table]
  let wave : Rc6Command → List Nat := fun c => rc6Wave l (c.addr ++ c.cmd) c.toggle
  have hwave : ∀ c, ∃ rest, wave c = 0 :: 6 * l :: rest ∧ ∀ d ∈ rest, d ≤ 3 * l := by
    intro c
    obtain ⟨rest, h1, h2⟩ := rc6_wave_tail l (c.addr ++ c.cmd) c.toggle
    refine ⟨rest, ?_, h2⟩
    show rc6Wave l (c.addr ++ c.cmd) c.toggle = _
    rw [rc6Wave_cons, h1]
  have hwl : ∀ c, 2 ≤ (wave c).length ∧ (wave c).length ≤ 44 := by
    intro c
    obtain ⟨rest, h1, -⟩ := hwave c
    refine ⟨by rw [h1]; simp, (henc c).2.2⟩
  let Inv : List Nat → Prop := fun b => b.length = 44 + k ∧ b.drop 44 = List.replicate k 0 ∧
    ∀ d ∈ b.drop 2, d ≤ 3 * l
  have hload : ∀ c b, Inv b → ∃ rest, loaded (wave c) b = 0 :: 6 * l :: rest ∧ ∀ d ∈ rest, d ≤ 3 * l := by
    intro c b hb
    obtain ⟨rest, h1, h2⟩ := hwave c
    refine ⟨rest ++ b.drop (wave c).length, by unfold loaded; rw [h1]; rfl, ?_⟩
    intro d hd
    rcases List.mem_append.mp hd with hd | hd
    · exact h2 d hd
    · refine hb.2.2 d ?_
      have : (wave c).length = 2 + ((wave c).length - 2) := by have := (hwl c).1; omega
      rw [this, ← List.drop_drop] at hd
      exact List.mem_of_mem_drop hd
  have hstale : ∀ c b, Inv b → ∀ d ∈ atLeastOne ((b.take 44).drop (wave c).length), d ≤ 3 * l := by
    intro c b hb d hd
    obtain ⟨x, hx, rfl⟩ := List.mem_map.mp hd
    refine Nat.max_le.mpr ⟨hb.2.2 x ?_, by omega⟩
    have : (wave c).length = 2 + ((wave c).length - 2) := by have := (hwl c).1; omega
    rw [this, ← List.drop_drop] at hx
    have hx := List.mem_of_mem_drop hx
    rw [List.drop_take] at hx
    exact List.mem_of_mem_take hx
  have hpos : ∀ c, ∀ d ∈ (wave c).tail, 0 < d := by
    intro c
    have := rc6_wave_pos fs (by omega) (by omega) c
    rw [hL] at this
    exact fun d hd => (this d hd).1
  have hsum : ∀ c b, Inv b → (atLeastOne (loaded (wave c) b).tail).sum ≤ 132 * l + k := by
    intro c b hb
    obtain ⟨h1, h2, -, -⟩ := loaded_slots (wave := wave c) (by have := hwl c; omega) (hwl c).2 hb.1 hb.2.1
    rw [h1, atLeastOne_append, atLeastOne_append, atLeastOne_zeros, atLeastOne_of_pos (hpos c),
      List.sum_append]
    have h5 : (List.replicate k 1).sum = k := by simp
    obtain ⟨rest, h3, h4⟩ := hwave c
    have h6 := sum_leader (b := 3 * l) (x := 6 * l) (l := rest ++
      atLeastOne ((b.take 44).drop (wave c).length)) (by omega) (by
        intro d hd
        rcases List.mem_append.mp hd with hd | hd
        · exact h4 d hd
        · exact hstale c b hb d hd)
    have h7 : (6 * l :: (rest ++ atLeastOne ((b.take 44).drop (wave c).length))).length = 43 := by
      rw [h3] at h2 ⊢
      simp only [List.length_cons, List.length_append, atLeastOne, List.length_map] at h2 ⊢
      omega
    rw [h7] at h6
    rw [show (wave c).tail = 6 * l :: rest by rw [h3]; rfl, List.cons_append]
    omega
  refine session_heard (rc6Decoder t tbl) conv (rc6Encode l) wave
    (fun c => c) Inv (After6 t) (Ready6 t tbl) (by omega) hle cmds
    (fun x _ => (henc x.1).2.1) ?_ ?_ ?_ ?_ s hidle ⟨hlen, hz, hold⟩ (fun x hx => (hticks x hx).2)
  · intro x hx b hb
    obtain ⟨-, -, h3, h4⟩ := loaded_slots (wave := wave x.1) (by have := hwl x.1; omega) (hwl x.1).2 hb.1 hb.2.1
    obtain ⟨rest, h5, h6⟩ := hload x.1 b hb
    refine ⟨⟨h3, h4, by rw [h5]; exact h6⟩, by have := hwl x.1; have := hb.1; omega, 6 * l :: rest, h5, ?_, ?_⟩
    · intro d hd
      rcases List.mem_cons.mp hd with rfl | hd
      · omega
      · have := h6 d hd
        omega
    · have h7 := hsum x.1 b hb
      rw [h5, List.tail_cons] at h7
      have := (hticks x hx).1
      omega
  · intro x hx b hb phase d dt t' hd
    obtain ⟨h1, h2, -, -⟩ := loaded_slots (wave := wave x.1) (by have := hwl x.1; omega) (hwl x.1).2 hb.1 hb.2.1
    rw [sentChunk, h1, atLeastOne_append, atLeastOne_append, atLeastOne_zeros, atLeastOne_of_pos (hpos x.1)]
    obtain ⟨e2, e3, he, ⟨b2, he2⟩, he3⟩ := chunkTail_split (wave x.1).tail
      (atLeastOne ((b.take 44).drop (wave x.1).length)) k (x.2 - (((wave x.1).tail ++
        atLeastOne ((b.take 44).drop (wave x.1).length) ++ List.replicate k 1).sum + 1))
    obtain ⟨evs, extra, hev, ⟨p0, n0, evs', edges', rfl, hedges, ht⟩, hex⟩ := rc6_wave_frame_of
      (fun x n => Near fs 5 (444 * n) x) l ⟨rc6_ticks_near hfs hL.symm 1, rc6_ticks_near hfs hL.symm 2,
        rc6_ticks_near hfs hL.symm 3, rc6_ticks_near hfs hL.symm 6⟩ (x.1.addr ++ x.1.cmd) x.1.toggle 0
    simp only [List.cons_append, List.cons.injEq, Prod.mk.injEq, true_and] at hev
    obtain ⟨-, hev⟩ := hev
    have hl43 : (evs' ++ extra).length + 1 = (wave x.1).length := by
      have := hwl x.1
      rw [← hev, alternating_length, List.length_tail]
      show (wave x.1).length - 1 + 1 = _
      omega
    have hextra : ∀ e ∈ extra, e.2 ≤ 3 * l := by
      intro e he
      rcases hex with rfl | ⟨z, rfl⟩
      · cases he
      · obtain ⟨rest, h3, h4⟩ := rc6_wave_tail l (x.1.addr ++ x.1.cmd) x.1.toggle
        rw [h3] at hev
        cases evs' with
        | nil =>
          have h5 := Timed.length ht
          rw [rc6Edges_eq 0 (.inl rfl)] at hedges
          simp only [List.cons.injEq, Prod.mk.injEq, true_and] at hedges
          rw [← hedges.2] at h5
          cases htog : x.1.toggle <;> rw [htog] at h5 <;> simp [rc6Head, edgesFrom] at h5
        | cons q evs'' =>
          simp only [alternating, List.cons_append, List.cons.injEq] at hev
          refine h4 _ (alternating_mem (b := !false) ?_)
          rw [hev.2]
          simp [List.mem_singleton.mp he]
    rw [he, show alternating false (wave x.1).tail = evs' ++ extra from hev, List.append_assoc,
      List.append_assoc, ← List.append_assoc extra, clocked_append, clocked_append, ← List.cons_append,
      ← List.append_assoc]
    have hfr : ManchesterFrame (WithinRc6 tbl) (rc6Edges (x.1.addr ++ x.1.cmd) x.1.toggle)
        ((true, dt) :: clocked fs f phase t' evs') := by
      refine ⟨_, n0, _, edges', rfl, hedges, clocked_timed ?_ t' ht⟩
      intro t2 x2 w hmem hnear
      rw [rc6Edges_eq 0 (.inl rfl)] at hedges
      simp only [List.cons.injEq, Prod.mk.injEq, true_and] at hedges
      obtain ⟨-, rfl⟩ := hedges
      exact rc6_near_within (by omega) (.inl rfl) hlo hf htbl phase t2 (rc6_edges_len _ _ w hmem) hnear
    have hfr' : ManchesterFrame (HalfBits tbl) (rc6EdgesMode 0 (x.1.addr ++ x.1.cmd) x.1.toggle)
        ((true, dt) :: clocked fs f phase t' evs') := by
      have htbl' := htbl
      rw [rc6Spans_eq (.inl rfl) t hf, Option.some.injEq] at htbl'
      subst htbl'
      exact rc6_halfBits (.inl rfl) (t := t) (by omega) hf hfr
    obtain ⟨d', o, g1, g2, g3⟩ := rc6_chunk t hus tbl hlen8 _ _ _
      (clocked fs f phase (t' + duration evs') (extra ++ e2))
      (clocked fs f phase (t' + duration evs' + duration (extra ++ e2)) e3) hfr'
      (by
        rw [clocked_length, List.length_append, he2, alternating_length, atLeastOne, List.length_map]
        rw [List.length_append] at hl43
        omega)
      (by
        intro q hq
        obtain ⟨e, he, t2, hq⟩ := clocked_mem hq
        rw [hq]
        refine rc6_short hfs hle hf htbl phase t2 ?_
        rw [hL]
        rcases List.mem_append.mp he with he | he
        · exact hextra e he
        · rw [he2] at he
          exact hstale x.1 b hb _ (alternating_mem he))
      (by
        intro q hq
        obtain ⟨e, he, t2, hq⟩ := clocked_mem hq
        rw [hq]
        exact rc6_unknown hfs hle hf htbl phase t2 (.inl (he3 e he))) d (by
        intro dt' evs' hh
        simp only [List.cons.injEq, Prod.mk.injEq, true_and] at hh
        rw [← hh.1]
        exact hd)
    rw [rc6_fromBits] at g3
    exact ⟨d', o, g1, g2, g3⟩
  · intro x hx b hb phase d t' hd
    obtain ⟨⟨a, hs⟩, hclk⟩ := hd
    refine ⟨⟨a, hs, .inl (rc6_unknown hfs hle hf htbl phase t' (.inr ?_))⟩, hclk⟩
    have h1 := hsum x.1 b hb
    have h2 := (hticks x hx).1
    rw [sentChunk, chunkGap]
    dsimp only
    split <;> omega
  · intro dt
    exact ⟨⟨Abs6.start false, sim6_init, .inr ⟨false, false, rfl⟩⟩, .inl (show 0 ≤ 400 by decide)⟩

/-! ## New senders -/

/-- **C58** for RC5, from a new sender of any size. -/
theorem C58_rc5_new (t : Target) (hus : 16 ≤ t.usizeBits) (fs : Nat)
    (hfs : 42000 ≤ fs ∨ (20000 ≤ fs ∧ fs % 1000 = 0)) (f : Nat) (hlo : 40000 ≤ f) (hle : fs ≤ f)
    (hf : f < 2 ^ 32) (tbl : PulseSpans) (htbl : rc5Spans t Mono.u32 f = some tbl)
    (conv : Rc5Command → K) (cmds : List (Rc5Command × Nat))
    (hcmds : ∀ x ∈ cmds, x.1.addr.toNat < 32 ∧ x.1.cmd.toNat < 64 ∧ x.1.start.toNat < 4)
    (S : Nat) (hS : 27 ≤ S) (pin : Bool)
    (hticks : ∀ x ∈ cmds, 114 * fs + 1000 * (S - 27) ≤ 1000 * x.2 ∧ x.2 * f / fs + 1 < 2 ^ 32) :
    ∃ l s' levels, rc5CalcFreq fs = some l ∧
      (Sender.new S pin).calls (session (rc5Encode t l) cmds) = some (s', levels) ∧
      ∀ pause phase n, phase < fs → reading fs f phase pause + 1 < 2 ^ 32 →
      reading fs f phase (pause + sessionTicks cmds) < n →
      (pollRun (rc5Decoder t tbl) conv (overhear fs f phase pause levels n)).map said =
        some (oks (cmds.map fun x => conv { x.1 with start := x.1.start ||| 2 })) := by
  obtain ⟨l, hl, -, -⟩ := C38_rc5_encode t fs (by omega)
  obtain ⟨s', levels, h1, -, h2⟩ := C58_rc5_session t hus fs hfs f hlo hle hf tbl htbl conv l hl cmds hcmds
    (Sender.new S pin) rfl (S - 27) (show (List.replicate S 0).length = _ by rw [List.length_replicate]; omega)
    (List.drop_replicate ..) (by
      intro d hd
      rw [List.eq_of_mem_replicate (show d ∈ List.replicate S 0 from hd)]
      exact Nat.zero_le _) hticks
  exact ⟨l, s', levels, hl, h1, h2⟩

/-- **C58** for RC6, from a new sender of any size. -/
theorem C58_rc6_new (t : Target) (hus : 16 ≤ t.usizeBits) (fs : Nat) (hfs : 46000 ≤ fs)
    (hhi : fs ≤ 9673349) (f : Nat) (hlo : 80000 ≤ f) (hle : fs ≤ f)
    (hf : f < 2 ^ 32) (tbl : PulseSpans) (htbl : rc6Spans t Mono.u32 f = some tbl)
    (conv : Rc6Command → K) (cmds : List (Rc6Command × Nat)) (S : Nat) (hS : 44 ≤ S) (pin : Bool)
    (hticks : ∀ x ∈ cmds, 106 * fs + 1000 * (S - 44) ≤ 1000 * x.2 ∧ x.2 * f / fs + 1 < 2 ^ 32) :
    ∃ l s' levels, rc6Data fs = some l ∧
      (Sender.new S pin).calls (session (rc6Encode l) cmds) = some (s', levels) ∧
      ∀ pause phase n, phase < fs → reading fs f phase pause + 1 < 2 ^ 32 →
      reading fs f phase (pause + sessionTicks cmds) < n →
      (pollRun (rc6Decoder t tbl) conv (overhear fs f phase pause levels n)).map said =
        some (oks (cmds.map fun x => conv x.1)) := by
  have hl : rc6Data fs = some (444 * fs / 1000000) := if_pos (by omega)
  obtain ⟨s', levels, h1, -, h2⟩ := C58_rc6_session t hus fs hfs f hlo hle hf tbl htbl conv _ hl cmds
    (Sender.new S pin) rfl (S - 44) (show (List.replicate S 0).length = _ by rw [List.length_replicate]; omega)
    (List.drop_replicate ..) (by
      intro d hd
      rw [List.eq_of_mem_replicate (show d ∈ List.replicate S 0 from List.mem_of_mem_drop hd)]
      exact Nat.zero_le _) hticks
  exact ⟨_, s', levels, hl, h1, h2⟩

/-! ## Non-vacuity -/

/-- A new sender with 128 slots at 40 kHz, any list of valid RC5 commands, one every 200 ms, and a receiver
polled at 40 kHz or 80 kHz. -/
example (t : Target) (hus : 16 ≤ t.usizeBits) (cmds : List Rc5Command)
    (hcmds : ∀ c ∈ cmds, c.addr.toNat < 32 ∧ c.cmd.toNat < 64 ∧ c.start.toNat < 4) (f : Nat)
    (hf : f = 40000 ∨ f = 80000) :
    ∃ l s' levels, rc5CalcFreq 40000 = some l ∧
      (Sender.new 128 false).calls (session (rc5Encode t l) (cmds.map fun c => (c, 8000))) =
        some (s', levels) ∧
      (pollRun (rc5Decoder t (rc5Table f)) id
          (overhear 40000 f 0 1 levels (3 + 16000 * cmds.length))).map said =
        some (oks (cmds.map fun c => { c with start := c.start ||| 2 })) := by
  obtain ⟨l, s', levels, h1, h2, h3⟩ := C58_rc5_new t hus 40000 (.inr (by decide)) f (by omega) (by omega)
    (by omega) _ (rc5Spans_eq (.inl rfl) t (by omega)) id (cmds.map fun c => (c, 8000)) (by
      intro x hx
      obtain ⟨c, hc, rfl⟩ := List.mem_map.mp hx
      exact hcmds c hc) 128 (by decide) false (by
      intro x hx
      obtain ⟨c, -, rfl⟩ := List.mem_map.mp hx
      dsimp only
      rcases hf with rfl | rfl <;> decide)
  refine ⟨l, s', levels, h1, h2, ?_⟩
  have h := h3 1 0 (3 + 16000 * cmds.length) (by decide) (by unfold reading; omega) ?_
  · rw [h, List.map_map]
    rfl
  · have : sessionTicks (cmds.map fun c => (c, 8000)) = 8000 * cmds.length := by
      unfold sessionTicks
      rw [List.map_map]
      clear h1 h2 h3 hcmds
      induction cmds with
      | nil => rfl
      | cons c cs ih =>
        simp only [List.map_cons, List.sum_cons, ih, List.length_cons, Function.comp_apply]
        omega
    rw [this]
    rcases hf with rfl | rfl <;> (unfold reading; omega)

/-- A long command followed by a short one: the buffer then holds the second command followed by pulses the
first one left behind, so the second transmission is not that of the second command alone. The theorems
above cover this case. -/
example : (do
    let l ← rc5CalcFreq 40000
    let long := rc5Encode ⟨true, 32⟩ l ⟨31, 63, 3, true⟩
    let short := rc5Encode ⟨true, 32⟩ l ⟨10, 42, 2, false⟩
    let b1 ← (PulsedataBuffer.new 30).load long
    let b2 ← b1.reset.load short
    let alone ← (PulsedataBuffer.new 30).load short
    some (b2.buf == alone.buf)) = some false := by decide +kernel

/-- RC6: two commands from a new sender with 64 slots at 46 kHz to a receiver polled at 92 kHz. -/
example (t : Target) (hus : 16 ≤ t.usizeBits) (c c' : Rc6Command) :
    ∃ l s' levels, rc6Data 46000 = some l ∧
      (Sender.new 64 false).calls (session (rc6Encode l) [(c, 5000), (c', 5000)]) = some (s', levels) ∧
      (pollRun (rc6Decoder t (rc6Table 92000)) id (overhear 46000 92000 7 100 levels 20300)).map said =
        some (oks [c, c']) := by
  obtain ⟨l, s', levels, h1, h2, h3⟩ := C58_rc6_new t hus 46000 (by decide) (by decide) 92000 (by decide)
    (by decide) (by decide) _ (rc6Spans_eq (.inl rfl) t (by decide)) id [(c, 5000), (c', 5000)] 64
    (by decide) false (by
      intro x hx
      simp only [List.mem_cons, List.not_mem_nil, or_false] at hx
      rcases hx with rfl | rfl <;> (dsimp only; decide))
  exact ⟨l, s', levels, h1, h2, h3 100 7 20300 (by decide) (by decide) (by
    show reading 46000 92000 7 (100 + (5000 + (5000 + 0))) < 20300
    decide)⟩

end Infrared
