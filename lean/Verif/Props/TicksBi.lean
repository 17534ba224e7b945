import Verif.Props.Ticks
import Verif.Props.ManchesterSession

/-!
# Sessions of RC5 and RC6 senders whose ticks are late (C87)

As `Props/ManchesterSession` (C58), on any clock that follows the ticks of the sender.
-/

namespace Infrared

open Spec

variable {A C K : Type}

theorem clockedBy_append (r : Nat → Nat) (t : Nat) (a b : List (Bool × Nat)) :
    clockedBy r t (a ++ b) = clockedBy r t a ++ clockedBy r (t + duration a) b := by
  induction a generalizing t with
  | nil => rfl
  | cons e a ih =>
    obtain ⟨x, y⟩ := e
    simp only [List.cons_append, clockedBy, ih, duration, List.map_cons, List.sum_cons, Nat.add_assoc]

theorem clockedBy_length (r : Nat → Nat) (t : Nat) (es : List (Bool × Nat)) :
    (clockedBy r t es).length = es.length := by
  induction es generalizing t with
  | nil => rfl
  | cons e es ih => simp [clockedBy, ih]

theorem hear_chunks_by {S : Type} (g : S → Ev → Option (S × Res C)) (Rest : S → Prop)
    (Ready : S → Nat → Prop) (r : Nat → Nat) (items : List ((List Nat × Nat) × C))
    (hone : ∀ i ∈ items, ∀ d dt t, Ready d dt → ∃ d' o,
      runStep g d ((true, dt) :: clockedBy r t (chunkTail i.1)) = some (d', o) ∧ Rest d' ∧
        said o = oks [i.2])
    (hgap : ∀ i ∈ items, ∀ d t, Rest d →
      Ready d (r (t + chunkGap i.1) - r t))
    (c : List Nat × Nat) (k : C) (hc : (c, k) ∈ items) (rest : List ((List Nat × Nat) × C))
    (hrest : ∀ i ∈ rest, i ∈ items) (d : S) (dt t : Nat) (hd : Ready d dt) :
    ∃ d' o, runStep g d ((true, dt) :: clockedBy r t
        (chunkTail c ++ chunkEdges (chunkGap c) (rest.map Prod.fst))) = some (d', o) ∧ Rest d' ∧
      said o = oks (k :: rest.map Prod.snd) := by
  induction rest generalizing c k d dt t with
  | nil =>
    rw [List.map_nil, chunkEdges, List.append_nil]
    exact hone (c, k) hc d dt t hd
  | cons i rest ih =>
    obtain ⟨d1, o1, h1, h2, h3⟩ := hone (c, k) hc d dt t hd
    obtain ⟨d2, o2, h4, h5, h6⟩ := ih i.1 i.2 (hrest i (by simp)) (fun j hj => hrest j (by simp [hj])) d1 _
      (t + duration (chunkTail c) + chunkGap c) (hgap (c, k) hc d1 (t + duration (chunkTail c)) h2)
    refine ⟨d2, _, (congrArg (runStep g d) ?_).trans (run_append_some h1 h4), h5, ?_⟩
    · rw [List.map_cons, chunkEdges, clockedBy_append, List.cons_append, clockedBy]
    · rw [said_append, h3, h6, ← oks_append]
      rfl

/-- A session with these levels is heard as `out` on every clock that follows the ticks of the sender and tells any two
ticks apart. -/
def HeardBy (D : Decoder C) (conv : C → K) (fs f c : Nat) (cmds : List (A × Nat)) (levels : List Bool) (out : List K) : Prop :=
  ∀ pause, (edgesFrom false 0 (List.replicate pause false ++ levels) = [] ∧ out = []) ∨
    ∃ es, edgesFrom false 0 (List.replicate pause false ++ levels) = (true, pause) :: es ∧
      (∀ e ∈ es, 1 ≤ e.2 ∧ ∃ x ∈ cmds, e.2 ≤ x.2) ∧
      duration ((true, pause) :: es) ≤ pause + sessionTicks cmds ∧
      ∀ r, Follows fs f c r → (∀ k, r k < r (k + 1)) → ∀ g,
        (results D conv ((true, g) :: clockedBy r pause es)).map said = some (oks out)

theorem session_heard_by (D : Decoder C) (conv : C → K) (enc : A → Encode) (wave : A → List Nat)
    (hear : A → C) (Inv : List Nat → Prop) (Rest : D.St → Prop) (Ready : D.St → Nat → Prop)
    {fs f c : Nat} (cmds : List (A × Nat))
    (hw : ∀ x ∈ cmds, Writes (enc x.1) (wave x.1))
    (hinv : ∀ x ∈ cmds, ∀ b, Inv b → Inv (loaded (wave x.1) b) ∧ (wave x.1).length ≤ b.length ∧
      (∃ ds, loaded (wave x.1) b = 0 :: ds ∧ (∀ d ∈ ds, d < 2 ^ 32) ∧ (atLeastOne ds).sum + 1 < x.2))
    (hone : ∀ r, Follows fs f c r → (∀ k, r k < r (k + 1)) → ∀ x ∈ cmds, ∀ b, Inv b → ∀ d dt t, Ready d dt → ∃ d' o,
      runStep D.step d ((true, dt) :: clockedBy r t
        (chunkTail (sentChunk (loaded (wave x.1) b) x.2))) = some (d', o) ∧ Rest d' ∧
        said o = oks [hear x.1])
    (hgap : ∀ r, Follows fs f c r → (∀ k, r k < r (k + 1)) → ∀ x ∈ cmds, ∀ b, Inv b → ∀ d t, Rest d → Ready d
      (r (t + chunkGap (sentChunk (loaded (wave x.1) b) x.2)) - r t))
    (hfirst : ∀ dt, Ready D.init dt) (s : Sender) (hidle : s.buffer.status = .idle)
    (hs : Inv s.buffer.ptb.buf) :
    ∃ s' levels, s.calls (session enc cmds) = some (s', levels) ∧
      s'.buffer.status = .idle ∧ HeardBy D conv fs f c cmds levels (cmds.map fun x => conv (hear x.1)) := by
  obtain ⟨s', hcalls, hid⟩ := session_sent enc wave Inv cmds hw hinv s hidle hs
  refine ⟨s', _, hcalls, hid, fun pause => ?_⟩
  have hmem := sentChunks_mem (fun x hx b hb => (hinv x hx b hb).1) hs
  cases cmds with
  | nil => exact .inl ⟨no_edges pause, rfl⟩
  | cons y ys =>
    right
    obtain ⟨c, cs, hccs⟩ : ∃ c cs, sentChunks wave s.buffer.ptb.buf (y :: ys) = c :: cs := ⟨_, _, rfl⟩
    rw [hccs] at hmem ⊢
    have hlen : (c :: cs).length = (y :: ys).length := by rw [← hccs, sentChunks_length]
    have hall : ∀ x ∈ c :: cs, ∃ p ∈ (c :: cs).zip (y :: ys), p.1 = x := by
      intro x hx
      have : x ∈ ((c :: cs).zip (y :: ys)).map Prod.fst := by
        rwa [List.map_fst_zip (Nat.le_of_eq hlen)]
      obtain ⟨p, hp, h⟩ := List.mem_map.mp this
      exact ⟨p, hp, h⟩
    have hfacts : ∀ p ∈ (c :: cs).zip (y :: ys), 1 ≤ p.1.2 ∧ (∀ d ∈ p.1.1, 0 < d) ∧
        p.1.1.sum + p.1.2 + 1 = p.2.2 ∧ (heldChunk p.1).length = p.2.2 := by
      intro p hp
      obtain ⟨b, hb, hp2, hp1⟩ := hmem p hp
      obtain ⟨-, -, ds, i3, -, i5⟩ := hinv p.2 hp2 b hb
      have hc1 : p.1 = (atLeastOne ds, p.2.2 - ((atLeastOne ds).sum + 1)) := by
        rw [hp1, sentChunk, i3, List.tail_cons]
      rw [hc1]
      refine ⟨by dsimp only; omega, atLeastOne_pos, by dsimp only; omega, ?_⟩
      rw [heldChunk]
      dsimp only
      rw [held_atLeastOne, List.length_append, held_length, List.length_replicate]
      omega
    have hsum : ((c :: cs).flatMap heldChunk).length = sessionTicks (y :: ys) := by
      generalize c :: cs = l1 at hlen hfacts
      generalize y :: ys = l2 at hlen hfacts
      clear hccs hmem hall
      induction l1 generalizing l2 with
      | nil => cases l2 with
        | nil => rfl
        | cons x xs => cases hlen
      | cons a l1 ih => cases l2 with
        | nil => cases hlen
        | cons x xs =>
          have h1 := (hfacts (a, x) (by simp)).2.2.2
          have h2 := ih xs (by simpa using hlen) fun p hp => hfacts p (by simp [hp])
          rw [List.flatMap_cons, List.length_append, h1, h2]
          simp [sessionTicks]
    have hedges : edgesFrom false 0 (List.replicate pause false ++ (c :: cs).flatMap heldChunk) =
        (true, pause) :: (chunkTail c ++ chunkEdges (chunkGap c) cs) := by
      rw [edgesFrom_replicate, Nat.zero_add, edges_heldChunks _ fun x hx => by
        obtain ⟨p, hp, rfl⟩ := hall x hx
        exact ⟨(hfacts p hp).1, (hfacts p hp).2.1⟩]
      rfl
    refine ⟨_, hedges, ?_, ?_, ?_⟩
    · have hx : ∀ x ∈ c :: cs, ∀ z, z ∈ x.1 ∨ z = 1 ∨ z = chunkGap x → 1 ≤ z ∧ ∃ w ∈ y :: ys, z ≤ w.2 := by
        intro x hx z hz
        obtain ⟨p, hp, rfl⟩ := hall x hx
        obtain ⟨h1, h2, h3, -⟩ := hfacts p hp
        obtain ⟨-, -, hp2, -⟩ := hmem p hp
        suffices 1 ≤ z ∧ z ≤ p.2.2 from ⟨this.1, p.2, hp2, this.2⟩
        rcases hz with h | h | h
        · have := mem_le_sum h
          exact ⟨h2 z h, by omega⟩
        · omega
        · rw [h, chunkGap]
          split <;> omega
      intro e he
      rcases List.mem_append.mp he with he | he
      · exact hx c (by simp) _ (by rcases mem_chunkTail he with h | h; exacts [.inl h, .inr (.inl h)])
      · rcases mem_chunkEdges he with h | ⟨x, hx', h⟩
        · exact hx c (by simp) _ (.inr (.inr h))
        · exact hx x (by simp [hx']) _ h
    · have := edges_duration (List.replicate pause false ++ (c :: cs).flatMap heldChunk) false 0
      rw [hedges, List.length_append, hsum, List.length_replicate] at this
      omega
    intro r hr hstrict g
    let items := ((c :: cs).zip (y :: ys)).map fun p => (p.1, hear p.2.1)
    have hitems : items = (c, hear y.1) :: (cs.zip ys).map fun p => (p.1, hear p.2.1) := rfl
    have hl' : cs.length = ys.length := by simpa using hlen
    obtain ⟨d', o, h1, -, h2⟩ := hear_chunks_by D.step Rest Ready r items (by
        intro i hi d dt t hd
        obtain ⟨p, hp, rfl⟩ := List.mem_map.mp hi
        obtain ⟨b, hb, hp2, hp1⟩ := hmem p hp
        dsimp only
        rw [hp1]
        exact hone r hr hstrict p.2 hp2 b hb d dt t hd) (by
        intro i hi d t hd
        obtain ⟨p, hp, rfl⟩ := List.mem_map.mp hi
        obtain ⟨b, hb, hp2, hp1⟩ := hmem p hp
        dsimp only
        rw [hp1]
        exact hgap r hr hstrict p.2 hp2 b hb d t hd) c (hear y.1) (by rw [hitems]; simp)
      ((cs.zip ys).map fun p => (p.1, hear p.2.1)) (by intro i hi; rw [hitems]; simp [hi]) D.init g pause
      (hfirst g)
    have hf1 : ((cs.zip ys).map fun p => (p.1, hear p.2.1)).map Prod.fst = cs := by
      rw [List.map_map]
      exact List.map_fst_zip (Nat.le_of_eq hl')
    have hf2 : ((cs.zip ys).map fun p => (p.1, hear p.2.1)).map Prod.snd = ys.map fun x => hear x.1 := by
      rw [List.map_map, ← List.map_snd_zip (Nat.le_of_eq hl'.symm) (l₁ := cs), List.map_map]
      rw [List.map_snd_zip (Nat.le_of_eq hl'.symm)]
      rfl
    rw [hf1] at h1
    rw [hf2] at h2
    refine (said_results conv h1 h2).trans ?_
    rw [List.map_cons, List.map_cons, List.map_map]
    rfl

theorem gap_pos {r : Nat → Nat} (hstrict : ∀ k, r k < r (k + 1)) (hm : ∀ t x, r t ≤ r (t + x)) (t : Nat) {x : Nat}
    (hx : 1 ≤ x) : 0 < r (t + x) - r t := by
  obtain ⟨y, rfl⟩ : ∃ y, x = 1 + y := ⟨x - 1, by omega⟩
  have h1 := hstrict t
  have h2 := hm (t + 1) y
  rw [← Nat.add_assoc]
  omega

/-! ## Late edges and uneven polls -/

theorem reading_strict {u : Nat} (hu : 0 < u) {f phase t t' : Nat} (h : t * f + u ≤ t' * f) :
    reading u f phase t + 1 ≤ reading u f phase t' := by
  unfold reading
  rw [← Nat.add_div_right _ hu]
  exact Nat.div_le_div_right (by omega)

theorem late_of_heard {D : Decoder C} {conv : C → K} {fs f c : Nat} {cmds : List (A × Nat)} {levels : List Bool}
    {out : List K} (h : HeardBy D conv fs f (c + 1) cmds levels out) {u : Nat} (hu : 0 < u) {phase L L' : Nat}
    {tick late : Nat → Nat} (pause : Nat) (htick : Ticking u fs L tick) (hlate : ∀ t, late t ≤ L')
    (horder : ∀ t x, late t ≤ x + late (t + x)) (hL : (L + L') * f ≤ c * u)
    (hspace : ∀ k, (tick k + late (tick k)) * f + u ≤ (tick (k + 1) + late (tick (k + 1))) * f) :
    (results D conv (handled u f phase late 0 (ticked tick (List.replicate pause false ++ levels)))).map said =
      some (oks out) := by
  rcases h pause with ⟨h1, rfl⟩ | ⟨es, h1, -, -, h2⟩
  · rw [ticked, h1]
    rfl
  rw [ticked, h1]
  dsimp only
  rw [handled, clockedBy, Nat.zero_add, Nat.zero_add, clockedBy_clockedBy _ _ (tick_mono htick)]
  exact h2 _ (follows_ticks (r := reading u f phase) (L := L + L') hu (follows_reading hu f phase)
    (ticking_late htick hlate horder) (by rw [Nat.add_mul c]; omega))
    (fun k => reading_strict hu (hspace k)) _

theorem uneven_of_heard {D : Decoder C} {conv : C → K} {fs f c : Nat} {cmds : List (A × Nat)}
    {levels : List Bool} {out : List K} (h : HeardBy D conv fs f (c + 2) cmds levels out)
    (hticks : ∀ x ∈ cmds, x.2 * f + (c + 3) * fs < 2 ^ 32 * fs) {u : Nat} (hu : 0 < u) {phase L : Nat}
    {tick delay : Nat → Nat} (pause n : Nat) (htick : Ticking u fs L tick) (hd : ∀ k, delay k < u)
    (hL : L * f ≤ c * u) (hspace : ∀ k, tick k * f + 2 * u ≤ tick (k + 1) * f)
    (hpause : pollsBefore u f phase delay (tick pause) + 1 < 2 ^ 32)
    (hn : reading u f phase (tick (pause + sessionTicks cmds)) < n) :
    (pollRun D conv (unevenly u f phase delay (ticked tick (List.replicate pause false ++ levels)) n)).map said =
      some (oks out) := by
  rcases h pause with ⟨h1, rfl⟩ | ⟨es, hes, hbound, hdur, h2⟩
  · rw [ticked, h1]
    show (pollRun _ conv (unevenly u f phase delay [] n)).map said = _
    rw [unevenly_silent, C54_silent_line, Option.map_some, said_nones]
    rfl
  have hch : Changes false ((true, pause) :: es) := hes ▸ edgesFrom_changes _ false 0
  have hmono := tick_mono htick
  rw [ticked, hes]
  dsimp only
  rw [uneven_line _ conv u hu f phase delay hd true (tick pause) (clockedBy tick pause es)
    ⟨hch.1, changes_by tick true pause es hch.2⟩ ?_ n ?_ hpause ?_, clockedBy_clockedBy _ _ hmono]
  · refine h2 _ (follows_ticks (r := pollsBefore u f phase delay) hu (follows_uneven hu) htick
      (by rw [Nat.add_mul c]; omega)) (fun k => ?_) _
    have h3 := pollsBefore_le (u := u) (f := f) (phase := phase) (delay := delay) (tick k)
    have h4 : reading u f phase (tick k) + 2 ≤ reading u f phase (tick (k + 1)) := by
      unfold reading
      have h5 : (tick k * f + phase) / u + 2 = (tick k * f + phase + u + u) / u := by
        rw [Nat.add_div_right _ hu, Nat.add_div_right _ hu]
      rw [h5]
      exact Nat.div_le_div_right (by have := hspace k; omega)
    have h6 : reading u f phase (tick (k + 1)) ≤ pollsBefore u f phase delay (tick (k + 1)) + 1 := by
      unfold pollsBefore
      split <;> omega
    omega
  · intro e he
    obtain ⟨t', x, ⟨b', hb⟩, hx⟩ := mem_by he
    have h1 := (hbound _ hb).1
    dsimp only at h1
    obtain ⟨y, rfl⟩ : ∃ y, x = 1 + y := ⟨x - 1, by omega⟩
    have h2 := hspace t'
    have h3 := Nat.mul_le_mul_right f (hmono (t' + 1) y)
    rw [hx, Nat.sub_mul, ← Nat.add_assoc]
    omega
  · have h1 := duration_by tick hmono pause es
    have h2 : duration ((true, tick pause) :: clockedBy tick pause es) = tick (pause + duration es) := by
      rw [← h1]; simp [duration]
    rw [h2]
    have h3 : pause + duration es ≤ pause + sessionTicks cmds := by
      have : duration ((true, pause) :: es) = pause + duration es := by simp [duration]
      omega
    refine Nat.lt_of_le_of_lt ?_ hn
    obtain ⟨y, hy⟩ := Nat.le.dest h3
    rw [← hy]
    obtain ⟨z, hz⟩ := Nat.le.dest (hmono (pause + duration es) y)
    rw [← hz]
    exact reading_mono _ _ _ _ _
  · intro e he
    obtain ⟨t', x, ⟨b', hb⟩, hx⟩ := mem_by he
    obtain ⟨z, hz, hle⟩ := (hbound _ hb).2
    dsimp only at hle
    have h1 := hticks z hz
    have h2 := Nat.mul_le_mul_right f hle
    rw [hx]
    obtain ⟨T, hT⟩ := Nat.le.dest (hmono t' x)
    obtain ⟨a1, -, -⟩ := htick t'
    obtain ⟨-, b1, -⟩ := htick (t' + x)
    rw [← hT, Nat.add_mul, Nat.add_mul] at b1
    rw [← hT, Nat.add_sub_cancel_left]
    have t1 : T * fs ≤ x * u + L * fs := by omega
    have t2 := Nat.mul_le_mul_right f t1
    have t3 := Nat.mul_le_mul_right fs hL
    have t4 := (Nat.mul_lt_mul_left hu).mpr (Nat.lt_of_le_of_lt (Nat.add_le_add_right h2 _) h1)
    refine Nat.lt_of_mul_lt_mul_right (a := fs) ?_
    rw [Nat.add_mul] at t2 ⊢
    rw [Nat.mul_add, Nat.add_mul, Nat.mul_add] at t4
    have e1 : T * fs * f = T * f * fs := Nat.mul_right_comm ..
    have e2 : L * fs * f = L * f * fs := Nat.mul_right_comm ..
    have e3 : x * u * f = u * (x * f) := by rw [Nat.mul_right_comm, Nat.mul_comm]
    have e4 : c * u * fs = u * (c * fs) := by rw [Nat.mul_right_comm, Nat.mul_comm]
    have e5 : 3 * u * fs = u * (3 * fs) := by rw [Nat.mul_right_comm, Nat.mul_comm]
    have e6 : 2 ^ 32 * u * fs = u * (2 ^ 32 * fs) := by rw [Nat.mul_right_comm, Nat.mul_comm]
    omega

theorem rc5_unknown_by {t : Target} {fs f c : Nat} (hfs : 20000 ≤ fs) (hlo : 20000 * (c + 1) ≤ f) (hf : f < 2 ^ 32)
    {tbl : PulseSpans} (htbl : rc5Spans t Mono.u32 f = some tbl) {r : Nat → Nat} (hr : Follows fs f c r)
    (hstrict : ∀ k, r k < r (k + 1)) (t' : Nat) {x : Nat} (hx : x = 1 ∨ 22 * fs ≤ 10000 * x) :
    tbl.half (r (t' + x) - r t') = none := by
  rcases hh : tbl.half (r (t' + x) - r t') with _ | n
  · rfl
  exfalso
  obtain ⟨i, -, hin, -⟩ := (halfBits_iff _ _ _).mpr hh
  obtain ⟨-, hb1, hb2⟩ := hr t' x
  have hj := C52_rejects .rc5 t Mono.u32 (.inl rfl) f hf tbl htbl i _ hin
  have hpos := gap_pos hstrict (fun t x => (hr t x).1) t' (x := x) (by omega)
  generalize r (t' + x) - r t' = d at *
  have m1 : 20000 * f ≤ f * fs := by rw [Nat.mul_comm f]; exact Nat.mul_le_mul_right _ hfs
  have m3 := Nat.mul_le_mul_right fs hlo
  rw [Nat.mul_assoc, Nat.add_mul, Nat.one_mul] at m3
  have hi : i = 0 ∨ i = 1 := by
    rcases i with _ | _ | i
    · exact .inl rfl
    · exact .inr rfl
    · have := hj.2 rfl
      omega
  have hw : 100000000 * d ≤ 195580 * f ∧ 9968 * (88 * 889 * f) ≤ 10000000000 * (100 * d + 90) := by
    rcases hi with rfl | rfl
    · have := hj.1 889 12 rfl
      omega
    · have := hj.1 (2 * 889) 10 rfl
      omega
  have a' := Nat.mul_le_mul_right fs hw.1
  have b' := Nat.mul_le_mul_right fs hw.2
  have e1 : 100000000 * d * fs = 100000000 * (fs * d) := by rw [Nat.mul_assoc, Nat.mul_comm d]
  have e2 : 195580 * f * fs = 195580 * (f * fs) := by rw [Nat.mul_assoc]
  have e3 : 9968 * (88 * 889 * f) * fs = 779816576 * (f * fs) := by
    rw [show 9968 * (88 * 889 * f) = 779816576 * f by omega, Nat.mul_assoc]
  have e4 : 10000000000 * (100 * d + 90) * fs = 1000000000000 * (fs * d) + 900000000000 * fs := by
    rw [show 10000000000 * (100 * d + 90) = 1000000000000 * d + 900000000000 by omega, Nat.add_mul,
      Nat.mul_assoc, Nat.mul_comm d]
  rw [e1, e2] at a'
  rw [e3, e4] at b'
  rcases hx with rfl | hx
  · omega
  · have m2 : 22 * fs * f ≤ 10000 * x * f := Nat.mul_le_mul_right _ hx
    rw [Nat.mul_assoc, Nat.mul_comm fs, Nat.mul_assoc 10000] at m2
    omega

theorem rc6_unknown_by {t : Target} {fs f c : Nat} (hfs : 46000 ≤ fs) (hlo : 40000 * (c + 1) ≤ f) (hf : f < 2 ^ 32)
    {tbl : PulseSpans} (htbl : rc6Spans t Mono.u32 f = some tbl) {r : Nat → Nat} (hr : Follows fs f c r)
    (hstrict : ∀ k, r k < r (k + 1)) (t' : Nat) {x : Nat} (hx : x = 1 ∨ 32 * fs ≤ 10000 * x) :
    tbl.half (r (t' + x) - r t') = none := by
  rcases hh : tbl.half (r (t' + x) - r t') with _ | n
  · rfl
  exfalso
  obtain ⟨i, -, hin, -⟩ := (halfBits_iff _ _ _).mpr hh
  obtain ⟨-, hb1, hb2⟩ := hr t' x
  have hj := C52_rejects .rc6 t Mono.u32 (.inl rfl) f hf tbl htbl i _ hin
  have hpos := gap_pos hstrict (fun t x => (hr t x).1) t' (x := x) (by omega)
  generalize r (t' + x) - r t' = d at *
  have m1 : 46000 * f ≤ f * fs := by rw [Nat.mul_comm f]; exact Nat.mul_le_mul_right _ hfs
  have m3 := Nat.mul_le_mul_right fs hlo
  rw [Nat.mul_assoc, Nat.add_mul, Nat.one_mul] at m3
  have hw : 100000000 * d ≤ 298368 * f ∧ 9968 * (88 * 444 * f) ≤ 10000000000 * (100 * d + 88) := by
    rcases i with _ | _ | _ | _ | _ | _ | i
    · have := hj.1 444 12 rfl; omega
    · have := hj.1 (2 * 444) 12 rfl; omega
    · have := hj.1 (3 * 444) 12 rfl; omega
    · have := hj.1 (4 * 444) 12 rfl; omega
    · have := hj.1 (5 * 444) 12 rfl; omega
    · have := hj.1 (6 * 444) 12 rfl; omega
    · have := hj.2 rfl
      omega
  have a' := Nat.mul_le_mul_right fs hw.1
  have b' := Nat.mul_le_mul_right fs hw.2
  have e1 : 100000000 * d * fs = 100000000 * (fs * d) := by rw [Nat.mul_assoc, Nat.mul_comm d]
  have e2 : 298368 * f * fs = 298368 * (f * fs) := by rw [Nat.mul_assoc]
  have e3 : 9968 * (88 * 444 * f) * fs = 389469696 * (f * fs) := by
    rw [show 9968 * (88 * 444 * f) = 389469696 * f by omega, Nat.mul_assoc]
  have e4 : 10000000000 * (100 * d + 88) * fs = 1000000000000 * (fs * d) + 880000000000 * fs := by
    rw [show 10000000000 * (100 * d + 88) = 1000000000000 * d + 880000000000 by omega, Nat.add_mul,
      Nat.mul_assoc, Nat.mul_comm d]
  rw [e1, e2] at a'
  rw [e3, e4] at b'
  rcases hx with rfl | hx
  · omega
  · have m2 : 32 * fs * f ≤ 10000 * x * f := Nat.mul_le_mul_right _ hx
    rw [Nat.mul_assoc, Nat.mul_comm fs, Nat.mul_assoc 10000] at m2
    omega

theorem rc6_short_by {t : Target} {fs f c : Nat} (hfs : 46000 ≤ fs) (hlo : 40000 * (c + 1) ≤ f) (hf : f < 2 ^ 32)
    {tbl : PulseSpans} (htbl : rc6Spans t Mono.u32 f = some tbl) {r : Nat → Nat} (hr : Follows fs f c r) (t' : Nat)
    {x : Nat} (hx : x ≤ 3 * (444 * fs / 1000000)) :
    tbl.half (r (t' + x) - r t') ≠ some 6 := by
  intro hh
  obtain ⟨i, hi, hin, -⟩ := (halfBits_iff _ _ _).mpr hh
  obtain rfl : i = 5 := by omega
  obtain ⟨-, hb, -⟩ := hr t' x
  have hj := (C52_rejects .rc6 t Mono.u32 (.inl rfl) f hf tbl htbl 5 _ hin).1 (6 * 444) 12 rfl
  generalize r (t' + x) - r t' = d at *
  have b' := Nat.mul_le_mul_right fs hj.2
  have e3 : 9968 * ((100 - 12) * (6 * 444) * f) * fs = 2336818176 * (f * fs) := by
    rw [show 9968 * ((100 - 12) * (6 * 444) * f) = 2336818176 * f by omega, Nat.mul_assoc]
  have e4 : 10000000000 * (100 * d + (100 - 12)) * fs = 1000000000000 * (fs * d) + 880000000000 * fs := by
    rw [show 10000000000 * (100 * d + (100 - 12)) = 1000000000000 * d + 880000000000 by omega, Nat.add_mul,
      Nat.mul_assoc, Nat.mul_comm d]
  rw [e3, e4] at b'
  have m2 : 1000000 * x * f ≤ 1332 * fs * f := Nat.mul_le_mul_right _ (by omega)
  rw [Nat.mul_assoc, Nat.mul_assoc 1332, Nat.mul_comm fs] at m2
  have m3 := Nat.mul_le_mul_right fs hlo
  rw [Nat.mul_assoc, Nat.add_mul, Nat.one_mul] at m3
  omega

theorem rc5_session_by (t : Target) (hus : 16 ≤ t.usizeBits) (fs : Nat)
    (hfs : 42000 ≤ fs ∨ (20000 ≤ fs ∧ fs % 1000 = 0)) (hs32 : fs < 2 ^ 32) (f cc : Nat) (hcc : 1 ≤ cc) (hlo : 20000 * (cc + 1) ≤ f)
    (hf : f < 2 ^ 32) (tbl : PulseSpans) (htbl : rc5Spans t Mono.u32 f = some tbl)
    (conv : Rc5Command → K) (l : Nat) (hl : rc5CalcFreq fs = some l) (cmds : List (Rc5Command × Nat))
    (hcmds : ∀ x ∈ cmds, x.1.addr.toNat < 32 ∧ x.1.cmd.toNat < 64 ∧ x.1.start.toNat < 4)
    (s : Sender) (hidle : s.buffer.status = .idle) (k : Nat) (hlen : s.buffer.ptb.buf.length = 27 + k)
    (hz : s.buffer.ptb.buf.drop 27 = List.replicate k 0) (hold : ∀ d ∈ s.buffer.ptb.buf, d ≤ 2 * l)
    (hticks : ∀ x ∈ cmds, 114 * fs + 1000 * k ≤ 1000 * x.2) :
    ∃ s' levels, s.calls (session (rc5Encode t l) cmds) = some (s', levels) ∧ s'.buffer.status = .idle ∧
      HeardBy (rc5Decoder t tbl) conv fs f cc cmds levels
        (cmds.map fun x => conv { x.1 with start := x.1.start ||| 2 }) := by

  obtain ⟨l', hl', -, henc⟩ := C38_rc5_encode t fs (by omega)
  rw [hl, Option.some.injEq] at hl'
  subst hl'
  have e := (rc5CalcFreq_eq (by omega) hl).2 (by omega)
  have hl2 := (rc5CalcFreq_eq (by omega) hl).1
  have hl0 : 0 < l := by rw [e]; omega
  have h13 : ∀ c : Rc5Command, (rc5Word c.pack).getLsbD 13 = true := by
    intro c
    rw [rc5Word_bits _ _ (by decide)]; simp
  have hlen8 : tbl.spans.length ≤ 8 := by
    rw [rc5Spans_eq (.inl rfl) t hf, Option.some.injEq] at htbl
    subst htbl
    simp [rc5Table]
  have htail := fun c : Rc5Command => rc5_wave_tail hl0 (h13 c)
  let wave : Rc5Command → List Nat := fun c => rc5Wave l (rc5Word c.pack)
  have hwl : ∀ c, 14 ≤ (wave c).length ∧ (wave c).length ≤ 27 := fun c => (henc c).2
  let Inv : List Nat → Prop := fun b => b.length = 27 + k ∧ b.drop 27 = List.replicate k 0 ∧
    ∀ d ∈ b, d ≤ 2 * l
  have hsum : ∀ c b, Inv b → (atLeastOne (loaded (wave c) b).tail).sum ≤ 26 * (2 * l) + k := by
    intro c b hb
    exact slots_sum (by omega) (by decide) (by have := hwl c; omega) (hwl c).2 hb.1 hb.2.1
      (fun d hd => (htail c d hd).2) hb.2.2
  refine session_heard_by (rc5Decoder t tbl) conv (rc5Encode t l) wave
    (fun c => { c with start := c.start ||| 2 }) Inv (After5 t) (Ready5 t tbl) cmds
    (fun x _ => (henc x.1).1) ?_ ?_ ?_ ?_ s hidle ⟨hlen, hz, hold⟩
  · intro x hx b hb
    obtain ⟨h1, h2, h3, h4⟩ := loaded_slots (wave := wave x.1) (by have := hwl x.1; omega) (hwl x.1).2 hb.1 hb.2.1
    have hmem : ∀ d ∈ loaded (wave x.1) b, d ≤ 2 * l := by
      intro d hd
      rcases List.mem_append.mp hd with hd | hd
      · have hc : wave x.1 = 0 :: (wave x.1).tail := rc5Wave_cons _ _ (h13 x.1)
        rw [hc] at hd
        rcases List.mem_cons.mp hd with rfl | hd
        · omega
        · exact (htail x.1 d hd).2
      · exact hb.2.2 d (List.mem_of_mem_drop hd)
    refine ⟨⟨h3, h4, hmem⟩, by have := hwl x.1; have := hb.1; omega, (loaded (wave x.1) b).tail, ?_, ?_, ?_⟩
    · have hc : wave x.1 = 0 :: (wave x.1).tail := rc5Wave_cons _ _ (h13 x.1)
      unfold loaded
      rw [hc]
      rfl
    · intro d hd
      have := hmem d (List.mem_of_mem_tail hd)
      omega
    · have := hsum x.1 b hb
      have := hticks x hx
      omega
  · intro r hr hstrict x hx b hb d dt t' hd
    obtain ⟨h1, h2, -, -⟩ := loaded_slots (wave := wave x.1) (by have := hwl x.1; omega) (hwl x.1).2 hb.1 hb.2.1
    rw [sentChunk, h1, atLeastOne_append, atLeastOne_append, atLeastOne_zeros,
      atLeastOne_of_pos (ds := (wave x.1).tail) fun d hd => (htail x.1 d hd).1]
    obtain ⟨e2, e3, he, ⟨b2, he2⟩, he3⟩ := chunkTail_split (wave x.1).tail
      (atLeastOne ((b.take 27).drop (wave x.1).length)) k (x.2 - (((wave x.1).tail ++
        atLeastOne ((b.take 27).drop (wave x.1).length) ++ List.replicate k 1).sum + 1))
    rw [he, clockedBy_append, clockedBy_append, ← List.cons_append, ← List.cons_append]
    have hfr : ManchesterFrame (Within tbl) (rc5Edges (rc5Word x.1.pack))
        ((true, dt) :: clockedBy r t' (alternating false (wave x.1).tail)) := by
      show ManchesterFrame _ _ ((true, dt) :: clockedBy r t'
        (alternating false (rc5Wave l (rc5Word x.1.pack)).tail))
      unfold rc5Wave
      rw [rc5Edges_eq _ (h13 x.1)]
      refine ⟨_, 1, _, _, rfl, rfl, ?_⟩
      refine clockedBy_timed r (R := fun x n => Near fs 5 (889 * n) x) ?_ t'
        (timed_wave _ _ _ (edgesFrom_alternating true _ _) fun x _ => rc5_ticks_near hfs e _)
      intro t2 x2 w hmem hnear
      have htbl' : Kind.build .rc5 t Mono.u32 f = some tbl := htbl
      rcases rc5_edges_len _ 13 true w hmem with h1 | h1 <;> rw [h1] at hnear ⊢
      · exact measures_by (.inl rfl) hf (by decide) (by omega) hr .rc5 htbl' (s := 0) (tol := 12) rfl (by omega) (by omega)
          _ _ hnear
      · exact measures_by (.inl rfl) hf (by decide) (by omega) hr .rc5 htbl' (s := 1) (tol := 10) rfl (by omega) (by omega)
          _ _ hnear
    have hfr' : ManchesterFrame (HalfBits tbl) (rc5Edges (rc5Word x.1.pack))
        ((true, dt) :: clockedBy r t' (alternating false (wave x.1).tail)) := by
      have htbl' := htbl
      rw [rc5Spans_eq (.inl rfl) t hf, Option.some.injEq] at htbl'
      subst htbl'
      exact rc5_halfBits (by omega) (h13 x.1) hfr
    obtain ⟨d', o, g1, g2, g3⟩ := rc5_chunk t hus tbl hlen8 _ (h13 x.1) _
      (clockedBy r (t' + duration (alternating false (wave x.1).tail)) e2)
      (clockedBy r (t' + duration (alternating false (wave x.1).tail ++ e2)) e3) hfr'
      (by
        rw [clockedBy_length, he2, alternating_length, atLeastOne, List.length_map]
        have := hwl x.1
        omega)
      (by
        intro q hq
        obtain ⟨t2, x2, ⟨b3, he⟩, hq⟩ := mem_by hq
        rw [hq]
        exact rc5_unknown_by (by omega) hlo hf htbl hr hstrict t2 (.inl (he3 _ he))) d (by
        intro dt' evs' hh
        simp only [List.cons.injEq, Prod.mk.injEq, true_and] at hh
        rw [← hh.1]
        exact hd)
    obtain ⟨ha, hc, hst⟩ := hcmds x hx
    rw [rc5_received_cmd x.1 ha hc hst] at g3
    exact ⟨d', o, g1, g2, g3⟩
  · intro r hr hstrict x hx b hb d t' hd
    obtain ⟨⟨a, hs⟩, hclk⟩ := hd
    refine ⟨⟨a, hs, .inl (rc5_unknown_by (by omega) hlo hf htbl hr hstrict t' (.inr ?_))⟩, hclk⟩
    have h1 := hsum x.1 b hb
    have h2 := hticks x hx
    rw [sentChunk, chunkGap]
    dsimp only
    split <;> omega
  · intro dt
    exact ⟨⟨Abs5.init, sim5_init, .inr ⟨false, rfl⟩⟩, .inl (show 0 ≤ 224 by decide)⟩

theorem rc6_session_by (t : Target) (hus : 16 ≤ t.usizeBits) (fs : Nat) (hfs : 46000 ≤ fs)
    (f cc : Nat) (hcc : 1 ≤ cc) (hlo : 40000 * (cc + 1) ≤ f)
    (hf : f < 2 ^ 32) (tbl : PulseSpans) (htbl : rc6Spans t Mono.u32 f = some tbl)
    (conv : Rc6Command → K) (l : Nat) (hl : rc6Data fs = some l) (cmds : List (Rc6Command × Nat))
    (s : Sender) (hidle : s.buffer.status = .idle) (k : Nat) (hlen : s.buffer.ptb.buf.length = 44 + k)
    (hz : s.buffer.ptb.buf.drop 44 = List.replicate k 0)
    (hold : ∀ d ∈ s.buffer.ptb.buf.drop 2, d ≤ 3 * l)
    (hticks : ∀ x ∈ cmds, 106 * fs + 1000 * k ≤ 1000 * x.2) :
    ∃ s' levels, s.calls (session (rc6Encode l) cmds) = some (s', levels) ∧ s'.buffer.status = .idle ∧
      HeardBy (rc6Decoder t tbl) conv fs f cc cmds levels (cmds.map fun x => conv x.1) := by

  have hhi : 444 * fs < 2 ^ 32 := by
    unfold rc6Data at hl
    split at hl
    · assumption
    · cases hl
  obtain rfl : l = 444 * fs / 1000000 := by
    rw [rc6Data, if_pos hhi, Option.some.injEq] at hl
    exact hl.symm
  have henc := fun c : Rc6Command => C38_rc6_encode fs _ hl c
  generalize hL : 444 * fs / 1000000 = l at *
  have hl0 : 0 < l := by omega
  have hl1 : 1000000 * l ≤ 444 * fs := by omega
  have hlen8 : tbl.spans.length ≤ 8 := by
    rw [rc6Spans_eq (.inl rfl) t hf, Option.some.injEq] at htbl
    subst htbl
    simp [rc6Table]
  let wave : Rc6Command → List Nat := fun c => rc6Wave l (c.addr ++ c.cmd) c.toggle
  have hwave : ∀ c, ∃ rest, wave c = 0 :: 6 * l :: rest ∧ ∀ d ∈ rest, d ≤ 3 * l := by
    intro c
    obtain ⟨rest, h1, h2⟩ := rc6_wave_tail l (c.addr ++ c.cmd) c.toggle
    refine ⟨rest, ?_, h2⟩
    show rc6Wave l (c.addr ++ c.cmd) c.toggle = _
    rw [rc6Wave_cons, h1]
  have hwl : ∀ c, 2 ≤ (wave c).length ∧ (wave c).length ≤ 44 := by
    intro c
    obtain ⟨rest, h1, -⟩ := hwave c
    refine ⟨by rw [h1]; simp, (henc c).2.2⟩
  let Inv : List Nat → Prop := fun b => b.length = 44 + k ∧ b.drop 44 = List.replicate k 0 ∧
    ∀ d ∈ b.drop 2, d ≤ 3 * l
  have hload : ∀ c b, Inv b → ∃ rest, loaded (wave c) b = 0 :: 6 * l :: rest ∧ ∀ d ∈ rest, d ≤ 3 * l := by
    intro c b hb
    obtain ⟨rest, h1, h2⟩ := hwave c
    refine ⟨rest ++ b.drop (wave c).length, by unfold loaded; rw [h1]; rfl, ?_⟩
    intro d hd
    rcases List.mem_append.mp hd with hd | hd
    · exact h2 d hd
    · refine hb.2.2 d ?_
      have : (wave c).length = 2 + ((wave c).length - 2) := by have := (hwl c).1; omega
      rw [this, ← List.drop_drop] at hd
      exact List.mem_of_mem_drop hd
  have hstale : ∀ c b, Inv b → ∀ d ∈ atLeastOne ((b.take 44).drop (wave c).length), d ≤ 3 * l := by
    intro c b hb d hd
    obtain ⟨x, hx, rfl⟩ := List.mem_map.mp hd
    refine Nat.max_le.mpr ⟨hb.2.2 x ?_, by omega⟩
    have : (wave c).length = 2 + ((wave c).length - 2) := by have := (hwl c).1; omega
    rw [this, ← List.drop_drop] at hx
    have hx := List.mem_of_mem_drop hx
    rw [List.drop_take] at hx
    exact List.mem_of_mem_take hx
  have hpos : ∀ c, ∀ d ∈ (wave c).tail, 0 < d := by
    intro c
    have := rc6_wave_pos fs (by omega) (by omega) c
    rw [hL] at this
    exact fun d hd => (this d hd).1
  have hsum : ∀ c b, Inv b → (atLeastOne (loaded (wave c) b).tail).sum ≤ 132 * l + k := by
    intro c b hb
    obtain ⟨h1, h2, -, -⟩ := loaded_slots (wave := wave c) (by have := hwl c; omega) (hwl c).2 hb.1 hb.2.1
    rw [h1, atLeastOne_append, atLeastOne_append, atLeastOne_zeros, atLeastOne_of_pos (hpos c),
      List.sum_append]
    have h5 : (List.replicate k 1).sum = k := by simp
    obtain ⟨rest, h3, h4⟩ := hwave c
    have h6 := sum_leader (b := 3 * l) (x := 6 * l) (l := rest ++
      atLeastOne ((b.take 44).drop (wave c).length)) (by omega) (by
        intro d hd
        rcases List.mem_append.mp hd with hd | hd
        · exact h4 d hd
        · exact hstale c b hb d hd)
    have h7 : (6 * l :: (rest ++ atLeastOne ((b.take 44).drop (wave c).length))).length = 43 := by
      rw [h3] at h2 ⊢
      simp only [List.length_cons, List.length_append, atLeastOne, List.length_map] at h2 ⊢
      omega
    rw [h7] at h6
    rw [show (wave c).tail = 6 * l :: rest by rw [h3]; rfl, List.cons_append]
    omega
  refine session_heard_by (rc6Decoder t tbl) conv (rc6Encode l) wave
    (fun c => c) Inv (After6 t) (Ready6 t tbl) cmds
    (fun x _ => (henc x.1).2.1) ?_ ?_ ?_ ?_ s hidle ⟨hlen, hz, hold⟩
  · intro x hx b hb
    obtain ⟨-, -, h3, h4⟩ := loaded_slots (wave := wave x.1) (by have := hwl x.1; omega) (hwl x.1).2 hb.1 hb.2.1
    obtain ⟨rest, h5, h6⟩ := hload x.1 b hb
    refine ⟨⟨h3, h4, by rw [h5]; exact h6⟩, by have := hwl x.1; have := hb.1; omega, 6 * l :: rest, h5, ?_, ?_⟩
    · intro d hd
      rcases List.mem_cons.mp hd with rfl | hd
      · omega
      · have := h6 d hd
        omega
    · have h7 := hsum x.1 b hb
      rw [h5, List.tail_cons] at h7
      have := hticks x hx
      omega
  · intro r hr hstrict x hx b hb d dt t' hd
    obtain ⟨h1, h2, -, -⟩ := loaded_slots (wave := wave x.1) (by have := hwl x.1; omega) (hwl x.1).2 hb.1 hb.2.1
    rw [sentChunk, h1, atLeastOne_append, atLeastOne_append, atLeastOne_zeros, atLeastOne_of_pos (hpos x.1)]
    obtain ⟨e2, e3, he, ⟨b2, he2⟩, he3⟩ := chunkTail_split (wave x.1).tail
      (atLeastOne ((b.take 44).drop (wave x.1).length)) k (x.2 - (((wave x.1).tail ++
        atLeastOne ((b.take 44).drop (wave x.1).length) ++ List.replicate k 1).sum + 1))
    obtain ⟨evs, extra, hev, ⟨p0, n0, evs', edges', rfl, hedges, ht⟩, hex⟩ := rc6_wave_frame_of
      (fun x n => Near fs 5 (444 * n) x) l ⟨rc6_ticks_near hfs hL.symm 1, rc6_ticks_near hfs hL.symm 2,
        rc6_ticks_near hfs hL.symm 3, rc6_ticks_near hfs hL.symm 6⟩ (x.1.addr ++ x.1.cmd) x.1.toggle 0
    simp only [List.cons_append, List.cons.injEq, Prod.mk.injEq, true_and] at hev
    obtain ⟨-, hev⟩ := hev
    have hl43 : (evs' ++ extra).length + 1 = (wave x.1).length := by
      have := hwl x.1
      rw [← hev, alternating_length, List.length_tail]
      show (wave x.1).length - 1 + 1 = _
      omega
    have hextra : ∀ e ∈ extra, e.2 ≤ 3 * l := by
      intro e he
      rcases hex with rfl | ⟨z, rfl⟩
      · cases he
      · obtain ⟨rest, h3, h4⟩ := rc6_wave_tail l (x.1.addr ++ x.1.cmd) x.1.toggle
        rw [h3] at hev
        cases evs' with
        | nil =>
          have h5 := Timed.length ht
          rw [rc6Edges_eq 0 (.inl rfl)] at hedges
          simp only [List.cons.injEq, Prod.mk.injEq, true_and] at hedges
          rw [← hedges.2] at h5
          cases htog : x.1.toggle <;> rw [htog] at h5 <;> simp [rc6Head, edgesFrom] at h5
        | cons q evs'' =>
          simp only [alternating, List.cons_append, List.cons.injEq] at hev
          refine h4 _ (alternating_mem (b := !false) ?_)
          rw [hev.2]
          simp [List.mem_singleton.mp he]
    rw [he, show alternating false (wave x.1).tail = evs' ++ extra from hev, List.append_assoc,
      List.append_assoc, ← List.append_assoc extra, clockedBy_append, clockedBy_append, ← List.cons_append,
      ← List.append_assoc]
    have hfr : ManchesterFrame (WithinRc6 tbl) (rc6Edges (x.1.addr ++ x.1.cmd) x.1.toggle)
        ((true, dt) :: clockedBy r t' evs') := by
      refine ⟨_, n0, _, edges', rfl, hedges, clockedBy_timed r ?_ t' ht⟩
      intro t2 x2 w hmem hnear
      rw [rc6Edges_eq 0 (.inl rfl)] at hedges
      simp only [List.cons.injEq, Prod.mk.injEq, true_and] at hedges
      obtain ⟨-, rfl⟩ := hedges
      have htbl' : Kind.build .rc6 t Mono.u32 f = some tbl := htbl
      have key : ∀ i l, 444 ≤ l → (Kind.symbols .rc6)[i]? = some (l, 12) → MeasuresBy tbl r fs 5 i l := by
        intro i l hl hs
        have hlf : 444 * (40000 * (cc + 1)) ≤ l * f := Nat.mul_le_mul hl hlo
        refine measures_by (.inl rfl) hf (by decide) (by omega) hr .rc6 htbl' (tol := 12) hs ?_ ?_
        · rw [Nat.mul_assoc, Nat.mul_assoc]
          omega
        · rw [Nat.mul_assoc (100 + 5), Nat.mul_assoc (100 + 12)]
          exact rc6_slack hlf
      rcases rc6_edges_len _ _ w hmem with h1 | h1 | h1 | h1 <;> rw [h1] at hnear ⊢
      · exact ⟨key 0 _ (by decide) rfl _ _ hnear, by simp⟩
      · exact ⟨key 1 _ (by decide) rfl _ _ hnear, by simp⟩
      · exact ⟨key 2 _ (by decide) rfl _ _ hnear, by simp⟩
      · refine ⟨key 5 _ (by decide) rfl _ _ hnear, fun _ h5 => ?_⟩
        have hrj := ((C52_rejects .rc6 t Mono.u32 (.inl rfl) f hf tbl htbl 4 _ h5).1 _ _ rfl).1
        have hb := (follows_bounds (by omega) hr (t := t2) (by decide) hnear rfl).1
        omega
    have hfr' : ManchesterFrame (HalfBits tbl) (rc6EdgesMode 0 (x.1.addr ++ x.1.cmd) x.1.toggle)
        ((true, dt) :: clockedBy r t' evs') := by
      have htbl' := htbl
      rw [rc6Spans_eq (.inl rfl) t hf, Option.some.injEq] at htbl'
      subst htbl'
      exact rc6_halfBits (.inl rfl) (t := t) (by omega) hf hfr
    obtain ⟨d', o, g1, g2, g3⟩ := rc6_chunk t hus tbl hlen8 _ _ _
      (clockedBy r (t' + duration evs') (extra ++ e2))
      (clockedBy r (t' + duration evs' + duration (extra ++ e2)) e3) hfr'
      (by
        rw [clockedBy_length, List.length_append, he2, alternating_length, atLeastOne, List.length_map]
        rw [List.length_append] at hl43
        omega)
      (by
        intro q hq
        obtain ⟨t2, x2, ⟨b3, he⟩, hq⟩ := mem_by hq
        rw [hq]
        refine rc6_short_by hfs hlo hf htbl hr t2 ?_
        rw [hL]
        rcases List.mem_append.mp he with he | he
        · exact hextra _ he
        · rw [he2] at he
          exact hstale x.1 b hb _ (alternating_mem he))
      (by
        intro q hq
        obtain ⟨t2, x2, ⟨b3, he⟩, hq⟩ := mem_by hq
        rw [hq]
        exact rc6_unknown_by hfs hlo hf htbl hr hstrict t2 (.inl (he3 _ he))) d (by
        intro dt' evs' hh
        simp only [List.cons.injEq, Prod.mk.injEq, true_and] at hh
        rw [← hh.1]
        exact hd)
    rw [rc6_fromBits] at g3
    exact ⟨d', o, g1, g2, g3⟩
  · intro r hr hstrict x hx b hb d t' hd
    obtain ⟨⟨a, hs⟩, hclk⟩ := hd
    refine ⟨⟨a, hs, .inl (rc6_unknown_by hfs hlo hf htbl hr hstrict t' (.inr ?_))⟩, hclk⟩
    have h1 := hsum x.1 b hb
    have h2 := hticks x hx
    rw [sentChunk, chunkGap]
    dsimp only
    split <;> omega
  · intro dt
    exact ⟨⟨Abs6.start false, sim6_init, .inr ⟨false, false, rfl⟩⟩, .inl (show 0 ≤ 400 by decide)⟩

/-! ## C87 -/

/-- **C87**, RC5, event-driven: a sender whose ticks come up to `L` late and a receiver that handles edges up to `L'`
late, together at most `c` ticks of its clock, which moves on between any two ticks of the sender. -/
theorem C87_rc5_late (t : Target) (hus : 16 ≤ t.usizeBits) (m : Mono) (hm : m = Mono.u32 ∨ m = Mono.u64) (fs : Nat)
    (hfs : 42000 ≤ fs ∨ (20000 ≤ fs ∧ fs % 1000 = 0)) (hs32 : fs < 2 ^ 32) (f c : Nat) (hlo : 20000 * (c + 2) ≤ f)
    (hf : f < 2 ^ 32) (tbl : PulseSpans) (htbl : rc5Spans t m f = some tbl)
    (conv : Rc5Command → K) (l : Nat) (hl : rc5CalcFreq fs = some l) (cmds : List (Rc5Command × Nat))
    (hcmds : ∀ x ∈ cmds, x.1.addr.toNat < 32 ∧ x.1.cmd.toNat < 64 ∧ x.1.start.toNat < 4)
    (s : Sender) (hidle : s.buffer.status = .idle) (k : Nat) (hlen : s.buffer.ptb.buf.length = 27 + k)
    (hz : s.buffer.ptb.buf.drop 27 = List.replicate k 0) (hold : ∀ d ∈ s.buffer.ptb.buf, d ≤ 2 * l)
    (hticks : ∀ x ∈ cmds, 114 * fs + 1000 * k ≤ 1000 * x.2) :
    ∃ s' levels, s.calls (session (rc5Encode t l) cmds) = some (s', levels) ∧
      s'.buffer.status = .idle ∧ ∀ (u : Nat) (_ : 0 < u) (phase L L' : Nat) (tick late : Nat → Nat) (pause : Nat),
      Ticking u fs L tick → (∀ t, late t ≤ L') → (∀ t x, late t ≤ x + late (t + x)) → (L + L') * f ≤ c * u →
      (∀ k, (tick k + late (tick k)) * f + u ≤ (tick (k + 1) + late (tick (k + 1))) * f) →
      (results (rc5Decoder t tbl) conv
          (handled u f phase late 0 (ticked tick (List.replicate pause false ++ levels)))).map said =
        some (oks (cmds.map fun x => conv { x.1 with start := x.1.start ||| 2 })) := by
  rw [rc5Spans_eq hm t hf, ← rc5Spans_eq (.inl rfl) t hf] at htbl
  obtain ⟨s', levels, h1, h2, h3⟩ := rc5_session_by t hus fs hfs hs32 f (c + 1) (by omega) hlo hf tbl htbl conv l hl cmds
    hcmds s hidle k hlen hz hold hticks
  exact ⟨s', levels, h1, h2, fun u hu phase L L' tick late pause => late_of_heard h3 hu pause⟩

/-- **C87**, RC5, polled: a sender whose ticks come up to `L` late, at most `c` polls, and a receiver that is polled at
any moment of each polling period; two ticks of the sender are at least two polling periods apart. -/
theorem C87_rc5_uneven (t : Target) (hus : 16 ≤ t.usizeBits) (fs : Nat)
    (hfs : 42000 ≤ fs ∨ (20000 ≤ fs ∧ fs % 1000 = 0)) (hs32 : fs < 2 ^ 32) (f c : Nat) (hlo : 20000 * (c + 3) ≤ f)
    (hf : f < 2 ^ 32) (tbl : PulseSpans) (htbl : rc5Spans t Mono.u32 f = some tbl)
    (conv : Rc5Command → K) (l : Nat) (hl : rc5CalcFreq fs = some l) (cmds : List (Rc5Command × Nat))
    (hcmds : ∀ x ∈ cmds, x.1.addr.toNat < 32 ∧ x.1.cmd.toNat < 64 ∧ x.1.start.toNat < 4)
    (s : Sender) (hidle : s.buffer.status = .idle) (k : Nat) (hlen : s.buffer.ptb.buf.length = 27 + k)
    (hz : s.buffer.ptb.buf.drop 27 = List.replicate k 0) (hold : ∀ d ∈ s.buffer.ptb.buf, d ≤ 2 * l)
    (hticks : ∀ x ∈ cmds, 114 * fs + 1000 * k ≤ 1000 * x.2 ∧ x.2 * f + (c + 3) * fs < 2 ^ 32 * fs) :
    ∃ s' levels, s.calls (session (rc5Encode t l) cmds) = some (s', levels) ∧
      s'.buffer.status = .idle ∧ ∀ (u : Nat) (_ : 0 < u) (phase L : Nat) (tick delay : Nat → Nat) (pause n : Nat),
      Ticking u fs L tick → (∀ k, delay k < u) → L * f ≤ c * u → (∀ k, tick k * f + 2 * u ≤ tick (k + 1) * f) →
      pollsBefore u f phase delay (tick pause) + 1 < 2 ^ 32 →
      reading u f phase (tick (pause + sessionTicks cmds)) < n →
      (pollRun (rc5Decoder t tbl) conv
          (unevenly u f phase delay (ticked tick (List.replicate pause false ++ levels)) n)).map said =
        some (oks (cmds.map fun x => conv { x.1 with start := x.1.start ||| 2 })) := by
  obtain ⟨s', levels, h1, h2, h3⟩ := rc5_session_by t hus fs hfs hs32 f (c + 2) (by omega) hlo hf tbl htbl conv l hl cmds
    hcmds s hidle k hlen hz hold fun x hx => (hticks x hx).1
  exact ⟨s', levels, h1, h2, fun u hu phase L tick delay pause n =>
    uneven_of_heard h3 (fun x hx => (hticks x hx).2) hu pause n⟩

/-- **C87**, RC6, event-driven. -/
theorem C87_rc6_late (t : Target) (hus : 16 ≤ t.usizeBits) (m : Mono) (hm : m = Mono.u32 ∨ m = Mono.u64) (fs : Nat) (hfs : 46000 ≤ fs) (f c : Nat)
    (hlo : 40000 * (c + 2) ≤ f) (hf : f < 2 ^ 32) (tbl : PulseSpans) (htbl : rc6Spans t m f = some tbl)
    (conv : Rc6Command → K) (l : Nat) (hl : rc6Data fs = some l) (cmds : List (Rc6Command × Nat))
    (s : Sender) (hidle : s.buffer.status = .idle) (k : Nat) (hlen : s.buffer.ptb.buf.length = 44 + k)
    (hz : s.buffer.ptb.buf.drop 44 = List.replicate k 0) (hold : ∀ d ∈ s.buffer.ptb.buf.drop 2, d ≤ 3 * l)
    (hticks : ∀ x ∈ cmds, 106 * fs + 1000 * k ≤ 1000 * x.2) :
    ∃ s' levels, s.calls (session (rc6Encode l) cmds) = some (s', levels) ∧
      s'.buffer.status = .idle ∧ ∀ (u : Nat) (_ : 0 < u) (phase L L' : Nat) (tick late : Nat → Nat) (pause : Nat),
      Ticking u fs L tick → (∀ t, late t ≤ L') → (∀ t x, late t ≤ x + late (t + x)) → (L + L') * f ≤ c * u →
      (∀ k, (tick k + late (tick k)) * f + u ≤ (tick (k + 1) + late (tick (k + 1))) * f) →
      (results (rc6Decoder t tbl) conv
          (handled u f phase late 0 (ticked tick (List.replicate pause false ++ levels)))).map said =
        some (oks (cmds.map fun x => conv x.1)) := by
  rw [rc6Spans_eq hm t hf, ← rc6Spans_eq (.inl rfl) t hf] at htbl
  obtain ⟨s', levels, h1, h2, h3⟩ := rc6_session_by t hus fs hfs f (c + 1) (by omega) hlo hf tbl htbl conv l hl cmds
    s hidle k hlen hz hold hticks
  exact ⟨s', levels, h1, h2, fun u hu phase L L' tick late pause => late_of_heard h3 hu pause⟩

/-- **C87**, RC6, polled. -/
theorem C87_rc6_uneven (t : Target) (hus : 16 ≤ t.usizeBits) (fs : Nat) (hfs : 46000 ≤ fs) (f c : Nat)
    (hlo : 40000 * (c + 3) ≤ f) (hf : f < 2 ^ 32) (tbl : PulseSpans) (htbl : rc6Spans t Mono.u32 f = some tbl)
    (conv : Rc6Command → K) (l : Nat) (hl : rc6Data fs = some l) (cmds : List (Rc6Command × Nat))
    (s : Sender) (hidle : s.buffer.status = .idle) (k : Nat) (hlen : s.buffer.ptb.buf.length = 44 + k)
    (hz : s.buffer.ptb.buf.drop 44 = List.replicate k 0) (hold : ∀ d ∈ s.buffer.ptb.buf.drop 2, d ≤ 3 * l)
    (hticks : ∀ x ∈ cmds, 106 * fs + 1000 * k ≤ 1000 * x.2 ∧ x.2 * f + (c + 3) * fs < 2 ^ 32 * fs) :
    ∃ s' levels, s.calls (session (rc6Encode l) cmds) = some (s', levels) ∧
      s'.buffer.status = .idle ∧ ∀ (u : Nat) (_ : 0 < u) (phase L : Nat) (tick delay : Nat → Nat) (pause n : Nat),
      Ticking u fs L tick → (∀ k, delay k < u) → L * f ≤ c * u → (∀ k, tick k * f + 2 * u ≤ tick (k + 1) * f) →
      pollsBefore u f phase delay (tick pause) + 1 < 2 ^ 32 →
      reading u f phase (tick (pause + sessionTicks cmds)) < n →
      (pollRun (rc6Decoder t tbl) conv
          (unevenly u f phase delay (ticked tick (List.replicate pause false ++ levels)) n)).map said =
        some (oks (cmds.map fun x => conv x.1)) := by
  obtain ⟨s', levels, h1, h2, h3⟩ := rc6_session_by t hus fs hfs f (c + 2) (by omega) hlo hf tbl htbl conv l hl cmds
    s hidle k hlen hz hold fun x hx => (hticks x hx).1
  exact ⟨s', levels, h1, h2, fun u hu phase L tick delay pause n =>
    uneven_of_heard h3 (fun x hx => (hticks x hx).2) hu pause n⟩

/-! ## Non-vacuity -/

/-- Any list of valid RC5 commands from a new sender with 128 slots at 40 kHz, one every 200 ms, its ticks up to 8 µs late
by different times, edges handled up to 6 µs late by different times, received with a clock of 1 MHz. -/
example (t : Target) (hus : 16 ≤ t.usizeBits) (cmds : List Rc5Command)
    (hcmds : ∀ c ∈ cmds, c.addr.toNat < 32 ∧ c.cmd.toNat < 64 ∧ c.start.toNat < 4) (tick late : Nat → Nat)
    (htick : Ticking 1000000 40000 8 tick) (hlate : ∀ t, late t ≤ 6) (horder : ∀ t x, late t ≤ x + late (t + x))
    (phase pause : Nat) :
    ∃ l s' levels, rc5CalcFreq 40000 = some l ∧
      (Sender.new 128 false).calls (session (rc5Encode t l) (cmds.map fun c => (c, 8000))) = some (s', levels) ∧
      (results (rc5Decoder t (rc5Table 1000000)) id
          (handled 1000000 1000000 phase late 0 (ticked tick (List.replicate pause false ++ levels)))).map said =
        some (oks (cmds.map fun c => { c with start := c.start ||| 2 })) := by
  obtain ⟨l, hl, -, -⟩ := C38_rc5_encode t 40000 (by decide)
  obtain ⟨s', levels, h1, -, h2⟩ := C87_rc5_late t hus Mono.u32 (.inl rfl) 40000 (.inr (by decide)) (by decide) 1000000 14 (by decide)
    (by decide) _ (rc5Spans_eq (.inl rfl) t (by decide)) id l hl (cmds.map fun c => (c, 8000)) (by
      intro x hx
      obtain ⟨c, hc, rfl⟩ := List.mem_map.mp hx
      exact hcmds c hc) (Sender.new 128 false) rfl 101 rfl (List.drop_replicate ..) (by
      intro d hd
      rw [List.eq_of_mem_replicate (show d ∈ List.replicate 128 0 from hd)]
      exact Nat.zero_le _) (by
      intro x hx
      obtain ⟨c, -, rfl⟩ := List.mem_map.mp hx
      show 114 * 40000 + 1000 * 101 ≤ 1000 * 8000
      decide)
  refine ⟨l, s', levels, hl, h1, ?_⟩
  rw [h2 1000000 (by decide) phase 8 6 tick late pause htick hlate horder (by decide) (by
    intro k
    obtain ⟨-, h3, -⟩ := htick k
    obtain ⟨h4, -, -⟩ := htick (k + 1)
    have h5 := hlate (tick k)
    have h6 : tick k + late (tick k) + 1 ≤ tick (k + 1) + late (tick (k + 1)) := by omega
    have := Nat.mul_le_mul_right 1000000 h6
    rwa [Nat.add_mul, Nat.one_mul] at this), List.map_map]
  rfl

/-- Two RC6 commands from a new sender with 64 slots at 46 kHz, ticks up to 10 µs late (here every tick that is a multiple
of 5), to a receiver that is polled a million times per second, at any moment of each period. -/
example (t : Target) (hus : 16 ≤ t.usizeBits) (c c' : Rc6Command) (delay : Nat → Nat) (hd : ∀ k, delay k < 46000000) :
    ∃ l s' levels, rc6Data 46000 = some l ∧
      (Sender.new 64 false).calls (session (rc6Encode l) [(c, 5000), (c', 5000)]) = some (s', levels) ∧
      (pollRun (rc6Decoder t (rc6Table 1000000)) id (unevenly 46000000 1000000 7 delay
          (ticked (fun k => 1000 * k + if k % 5 = 0 then 460 else 0) (List.replicate 100 false ++ levels)) 219600)).map said =
        some (oks [c, c']) := by
  obtain ⟨s', levels, h1, -, h2⟩ := C87_rc6_uneven t hus 46000 (by decide) 1000000 10 (by decide) (by decide) _
    (rc6Spans_eq (.inl rfl) t (by decide)) id _ rfl [(c, 5000), (c', 5000)] (Sender.new 64 false) rfl 20 rfl
    (List.drop_replicate ..) (by
      intro d hd
      rw [List.eq_of_mem_replicate (show d ∈ List.replicate 64 0 from List.mem_of_mem_drop hd)]
      exact Nat.zero_le _) (by
      intro x hx
      simp only [List.mem_cons, List.not_mem_nil, or_false] at hx
      rcases hx with rfl | rfl <;>
        (show 106 * 46000 + 1000 * 20 ≤ 1000 * 5000 ∧ 5000 * 1000000 + (10 + 3) * 46000 < 2 ^ 32 * 46000; decide))
  refine ⟨_, s', levels, rfl, h1, ?_⟩
  refine h2 46000000 (by decide) 7 460 (fun k => 1000 * k + if k % 5 = 0 then 460 else 0) delay 100 219600 ?_ hd
    (by decide) ?_ ?_ ?_
  · intro k
    dsimp only
    refine ⟨?_, ?_, ?_⟩ <;> split <;> (try split) <;> omega
  · intro k
    split <;> split <;> omega
  · refine Nat.lt_of_le_of_lt (Nat.add_le_add_right (pollsBefore_le _) 1) (by decide)
  · rw [show sessionTicks [(c, 5000), (c', 5000)] = 10000 from rfl]
    decide

end Infrared
