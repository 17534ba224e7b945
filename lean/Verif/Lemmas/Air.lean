import Verif.Spec.Room
import Verif.Props.Cross
import Verif.Props.ManchesterSession

/-!
# What receivers make of the transmissions of other protocols
-/

namespace Infrared

open Spec

variable {C K : Type}

/-! ### Windows in microseconds -/

theorem rc5_window {f i d : Nat} (h : InTol (rc5Table f) i d) (hd : 0 < d) :
    (i = 0 ∧ Infrared.Within f d 779 996) ∨ (i = 1 ∧ Infrared.Within f d 1595 1956) := by
  obtain ⟨s, hs, h1, h2⟩ := h
  rcases i with _ | _ | _ | _ | _ | _ | _ | _ | i <;> cases hs
  · exact .inl ⟨rfl, within_of _ _ _ _ (by decide) (by decide) h1 h2 (by decide) (by decide)⟩
  · exact .inr ⟨rfl, within_of _ _ _ _ (by decide) (by decide) h1 h2 (by decide) (by decide)⟩
  all_goals simp only at h2; omega

/-- The windows of RC6 in microseconds. -/
def rc6Range : Nat → Nat × Nat
  | 0 => (389, 498)
  | 1 => (778, 995)
  | 2 => (1168, 1492)
  | 3 => (1557, 1990)
  | 4 => (1947, 2487)
  | 5 => (2336, 2984)
  | _ => (0, 0)

theorem rc6_window {f i d : Nat} (h : InTol (rc6Table f) i d) :
    Infrared.Within f d (rc6Range i).1 (rc6Range i).2 := by
  obtain ⟨s, hs, h1, h2⟩ := h
  rcases i with _ | _ | _ | _ | _ | _ | _ | _ | i <;> cases hs
  case zero => exact within_of _ _ _ _ (by decide) (by decide) h1 h2 (by decide) (by decide)
  case succ.zero => exact within_of _ _ _ _ (by decide) (by decide) h1 h2 (by decide) (by decide)
  case succ.succ.zero => exact within_of _ _ _ _ (by decide) (by decide) h1 h2 (by decide) (by decide)
  case succ.succ.succ.zero => exact within_of _ _ _ _ (by decide) (by decide) h1 h2 (by decide) (by decide)
  case succ.succ.succ.succ.zero =>
    exact within_of _ _ _ _ (by decide) (by decide) h1 h2 (by decide) (by decide)
  case succ.succ.succ.succ.succ.zero =>
    exact within_of _ _ _ _ (by decide) (by decide) h1 h2 (by decide) (by decide)
  all_goals
    simp only at h2
    exact ⟨by simp [rc6Range], by simp [rc6Range]; omega⟩

/-- In one of the given ranges. -/
def Among (f x : Nat) (rs : List (Nat × Nat)) : Prop := ∃ r ∈ rs, Infrared.Within f x r.1 r.2

/-- The periods of a message in microseconds. -/
def Spec.Msg.ranges : Msg → List (Nat × Nat)
  | .nec _ => [(12514, 14445), (837, 1400), (1973, 2520)]
  | .necRepeat => [(10428, 12038)]
  | .samsung _ => [(8343, 9630), (837, 1400), (1973, 2520)]
  | .sbp _ _ => [(8522, 9450), (4734, 5250), (897, 1100), (1794, 2200)]
  | .denon _ => [(4585, 5400), (753, 924), (1507, 1848)]
  | .rc5 _ => [(0, 4476)]
  | .rc6 _ _ _ => [(0, 4476)]

theorem Among.not_inTol {f x : Nat} {rs : List (Nat × Nat)} (hf : 20000 ≤ f) (h : Among f x rs)
    (a : Timing) (i : Nat) (hi : i < 4)
    (hd : ∀ r ∈ rs, r.2 + 51 ≤ (usRange a i).1 ∨ (usRange a i).2 + 51 ≤ r.1) :
    ¬ InTol (a.table f) i x := by
  intro hin
  obtain ⟨r, hr, hw⟩ := h
  have y := inTol_within a hi hin
  rcases hd r hr with h | h
  · exact hw.apart hf y h
  · exact y.apart hf hw h

/-- Silence is no symbol. -/
theorem long_not_inTol {f x : Nat} (hf : 20000 ≤ f) (h : 15000 * f ≤ 1000000 * x) (a : Timing) (i : Nat)
    (hi : i < 4) : ¬ InTol (a.table f) i x := by
  intro hin
  have y := (inTol_within a hi hin).hi
  have : (usRange a i).2 ≤ 14445 := by
    have : i = 0 ∨ i = 1 ∨ i = 2 ∨ i = 3 := by omega
    cases a <;> rcases this with rfl | rfl | rfl | rfl <;> decide
  have : (usRange a i).2 * f ≤ 14445 * f := Nat.mul_le_mul_right _ this
  omega

/-! ### The periods of a transmission -/

theorem timed_mem {fits : Nat → Nat → Prop} {evs : List Ev} {edges : List (Bool × Nat)}
    (h : Timed fits evs edges) : ∀ e ∈ evs, ∃ n, (e.1, n) ∈ edges ∧ fits e.2 n := by
  induction evs generalizing edges with
  | nil => simp
  | cons e es ih =>
    cases edges with
    | nil => exact h.elim
    | cons w ws =>
      obtain ⟨h1, h2, h3⟩ := h
      intro x hx
      rcases List.mem_cons.mp hx with rfl | hx
      · exact ⟨w.2, by simp [h1], h2⟩
      · obtain ⟨n, hn, hx⟩ := ih h3 x hx
        exact ⟨n, by simp [hn], hx⟩

theorem periodsFrom_le (w b s : Nat) {f : Nat} (evs : List Ev) (hev : ∀ e ∈ evs, 1000000 * e.2 ≤ b * f)
    (hs : s + b ≤ 4476) (hb : b + b ≤ 4476) (sv : Nat) (hsv : 1000000 * sv ≤ s * f) :
    ∀ x ∈ periodsFrom w sv evs, Among f x [(0, 4476)] := by
  induction evs generalizing sv s with
  | nil => simp [periodsFrom]
  | cons e es ih =>
    obtain ⟨r, d⟩ := e
    have hd : 1000000 * d ≤ b * f := hev (r, d) (by simp)
    have hes := fun x hx => hev x (List.mem_cons_of_mem _ hx)
    intro x hx
    cases r
    · exact ih b hes hb d hd x hx
    · simp only [periodsFrom, List.mem_cons] at hx
      rcases hx with rfl | hx
      · refine ⟨(0, 4476), by simp, ⟨by simp, ?_⟩⟩
        have h1 := Nat.mod_le (sv + d) (2 ^ w)
        have h2 : (s + b) * f ≤ 4476 * f := Nat.mul_le_mul_right _ hs
        rw [Nat.add_mul] at h2
        dsimp only
        omega
      · exact ih 0 hes (by omega) 0 (by simp) x hx

theorem periodsFrom_tail (w sv x : Nat) (evs : List Ev) :
    periodsFrom w sv (evs ++ [(false, x)]) = periodsFrom w sv evs := by
  rw [periodsFrom_append]
  simp [periodsFrom]

theorem rc6_edges_split (w : BitVec 16) (toggle : Bool) :
    ∃ n rest, rc6Edges w toggle = (true, n) :: (false, 6) :: rest ∧
      ∀ e ∈ rest, e.2 = 1 ∨ e.2 = 2 ∨ e.2 = 3 := by
  rw [rc6Edges, rc6Edges_eq 0 (.inl rfl)]
  obtain ⟨hd, hh, hle⟩ : ∃ hd, rc6Head 0 toggle = (false, 6) :: hd ∧
      ∀ e ∈ hd, e.2 = 1 ∨ e.2 = 2 ∨ e.2 = 3 := by
    cases toggle
    · exact ⟨_, rfl, by decide⟩
    · exact ⟨_, rfl, by decide⟩
  rw [hh]
  refine ⟨0, _, rfl, ?_⟩
  intro e he
  rcases List.mem_append.mp he with he | he
  · exact hle e he
  · exact rc6_tail_len w 16 (!toggle) 2 (.inr rfl) e he

/-- No two rising edges in a row; `high`: the edge before is a rising one. -/
def Paired : (high : Bool) → List (Bool × Nat) → Prop
  | _, [] => True
  | _, (false, _) :: es => Paired false es
  | high, (true, _) :: es => high = false ∧ Paired true es

theorem paired_pulses (b : Bool) (ps : List (Nat × Nat)) (x : Nat) :
    Paired b (pulses ps ++ [(false, x)]) := by
  induction ps generalizing b with
  | nil => trivial
  | cons p ps ih => exact ⟨rfl, ih true⟩

theorem paired_edges (prev : Bool) (n : Nat) (ls : List Bool) : Paired prev (edgesFrom prev n ls) := by
  induction ls generalizing prev n with
  | nil => trivial
  | cons l ls ih =>
    rw [edgesFrom]
    split
    · exact ih _ _
    · rename_i h
      cases l
      · exact ih _ _
      · exact ⟨by simpa using h, ih _ _⟩

theorem paired_timed {fits : Nat → Nat → Prop} {evs : List Ev} {edges : List (Bool × Nat)} {b : Bool}
    (h : Timed fits evs edges) (hp : Paired b edges) : Paired b evs := by
  induction evs generalizing edges b with
  | nil => trivial
  | cons e es ih =>
    cases edges with
    | nil => exact h.elim
    | cons w ws =>
      obtain ⟨h1, h2, h3⟩ := h
      obtain ⟨_ | _, d⟩ := e <;> obtain ⟨_ | _, k⟩ := w
      · exact ih h3 hp
      · cases h1
      · cases h1
      · exact ⟨hp.1, ih h3 hp.2⟩

theorem paired_tail {b : Bool} {evs : List Ev} (h : Paired b evs) (x : Nat) :
    Paired b (evs ++ [(false, x)]) := by
  induction evs generalizing b with
  | nil => trivial
  | cons e es ih =>
    obtain ⟨_ | _, d⟩ := e
    · exact ih h
    · exact ⟨h.1, ih h.2⟩

/-- What is known about the edges of any transmission. -/
structure Burst (f w : Nat) (rs : List (Nat × Nat)) (pause : Nat) (rest : List Ev) : Prop where
  silence : 15000 * f ≤ 1000000 * pause
  short : pause < 2 ^ 31
  pos : ∀ e ∈ rest, 0 < e.2
  lt : ∀ e ∈ rest, e.2 < 2 ^ 31
  periods : ∀ x ∈ periodsFrom w 0 rest, Among f x rs
  paired : Paired true rest
  len : rest.length ≤ 100

theorem pulse_burst {f w : Nat} (hw : 32 ≤ w) {frame : List (Nat × Nat) → Prop} {evs : List Ev}
    (h : PulseBurst f frame evs) (hs : Spaced f evs) {rs : List (Nat × Nat)}
    (hfr : ∀ ps, frame ps → ps.length ≤ 49 ∧ ∀ p ∈ ps, Among f (p.1 + p.2) rs) :
    ∃ pause ps stop, evs = (true, pause) :: (pulses ps ++ [(false, stop)]) ∧ frame ps ∧
      (∀ p ∈ ps, PlainMark f p.1) ∧ PlainMark f stop ∧
      Burst f w rs pause (pulses ps ++ [(false, stop)]) := by
  obtain ⟨pause, ps, stop, rfl, h1, h2, h3⟩ := h
  obtain ⟨⟨p', r', he, hp⟩, hd⟩ := hs
  simp only [List.cons.injEq, Prod.mk.injEq, true_and] at he
  obtain ⟨rfl, rfl⟩ := he
  obtain ⟨hl, hr⟩ := hfr ps h1
  have hpw : 2 ^ 32 ≤ 2 ^ w := Nat.pow_le_pow_right (by decide) hw
  have mem : ∀ ps : List (Nat × Nat), ∀ p ∈ ps, (false, p.1) ∈ pulses ps ∧ (true, p.2) ∈ pulses ps := by
    intro ps
    induction ps with
    | nil => simp
    | cons q qs ih =>
      intro p hp
      rcases List.mem_cons.mp hp with rfl | hp
      · simp [pulses]
      · have := ih p hp
        simp [pulses, this]
  refine ⟨pause, ps, stop, rfl, h1, h2, h3, hp, (hd (true, pause) (by simp)).2,
    fun e he => (hd e (by simp [he])).1, fun e he => (hd e (by simp [he])).2, ?_, ?_, ?_⟩
  · rw [periodsFrom_tail, periods_pulses]
    · intro x hx
      obtain ⟨p, hp, rfl⟩ := List.mem_map.mp hx
      exact hr p hp
    · intro p hp
      have m := mem ps p hp
      have a := (hd (false, p.1) (by simp [m.1])).2
      have b := (hd (true, p.2) (by simp [m.2])).2
      dsimp only at a b
      omega
  · exact paired_pulses _ _ _
  · simp only [List.length_append, pulses_length, List.length_singleton]
    omega

theorem manchester_burst {f w : Nat} {fits : Nat → Nat → Prop} {edges : List (Bool × Nat)}
    {evs : List Ev} (h : ManchesterBurst fits edges evs) (hs : Spaced f evs) (hpair : Paired false edges)
    (hlen : edges.length ≤ 60)
    (hper : ∀ evs' edges' n, edges = (true, n) :: edges' → Timed fits evs' edges' →
      (∀ e ∈ evs', 0 < e.2) → ∀ x ∈ periodsFrom w 0 evs', Among f x [(0, 4476)]) :
    ∃ pause n body edges' tail, evs = (true, pause) :: withTail body tail ∧ edges = (true, n) :: edges' ∧
      Timed fits body edges' ∧ Burst f w [(0, 4476)] pause (withTail body tail) := by
  obtain ⟨body, tail, rfl, pause, n, evs', edges', rfl, rfl, ht⟩ := h
  have he : withTail ((true, pause) :: evs') tail = (true, pause) :: withTail evs' tail := by
    cases tail <;> rfl
  rw [he] at hs ⊢
  obtain ⟨⟨p', r', he, hp⟩, hd⟩ := hs
  simp only [List.cons.injEq, Prod.mk.injEq, true_and] at he
  obtain ⟨rfl, rfl⟩ := he
  refine ⟨pause, n, evs', edges', tail, rfl, rfl, ht, hp, (hd (true, pause) (by simp)).2,
    fun e he => (hd e (by simp [he])).1, fun e he => (hd e (by simp [he])).2, ?_, ?_, ?_⟩
  · have : periodsFrom w 0 (withTail evs' tail) = periodsFrom w 0 evs' := by
      cases tail with
      | none => rfl
      | some x => exact periodsFrom_tail w 0 x evs'
    rw [this]
    refine hper evs' edges' n rfl ht fun e hx => (hd e (.tail _ ?_)).1
    cases tail with
    | none => exact hx
    | some x => exact List.mem_append_left _ hx
  · have := paired_timed ht hpair.2
    cases tail with
    | none => exact this
    | some x => exact paired_tail this x
  · have := Timed.length ht
    simp only [List.length_cons] at hlen
    cases tail <;> simp [withTail] <;> omega

theorem rc5_burst_edges {f w : Nat} (evs' : List Ev) (edges' : List (Bool × Nat))
    (ht : Timed (Spec.Within (rc5Table f)) evs' edges') (hpos : ∀ e ∈ evs', 0 < e.2) :
    ∀ x ∈ periodsFrom w 0 evs', Among f x [(0, 4476)] := by
  refine periodsFrom_le w 1956 0 evs' ?_ (by decide) (by decide) 0 (by simp)
  intro e hmem
  obtain ⟨k, -, hin⟩ := timed_mem ht e hmem
  rcases rc5_window hin (hpos e hmem) with ⟨-, h⟩ | ⟨-, h⟩ <;> have := h.hi <;> omega

theorem rc6_burst_edges {f w : Nat} {v : BitVec 16} {toggle : Bool} (evs' : List Ev)
    (edges' : List (Bool × Nat)) (n : Nat) (he : rc6Edges v toggle = (true, n) :: edges')
    (ht : Timed (WithinRc6 (rc6Table f)) evs' edges') :
    ∀ x ∈ periodsFrom w 0 evs', Among f x [(0, 4476)] := by
  obtain ⟨k, rest, h1, h2⟩ := rc6_edges_split v toggle
  rw [h1] at he
  simp only [List.cons.injEq, Prod.mk.injEq, true_and] at he
  obtain ⟨-, rfl⟩ := he
  rcases evs' with _ | ⟨⟨r, d⟩, es⟩
  · simp [periodsFrom]
  obtain ⟨h3, ⟨h4, -⟩, h5⟩ := ht
  dsimp only at h3 h4
  subst h3
  have hd := (rc6_window h4).hi
  simp only [rc6Range] at hd
  refine periodsFrom_le w 1492 2984 es ?_ (by decide) (by decide) d hd
  intro e hmem
  obtain ⟨k, hk, hin, -⟩ := timed_mem h5 e hmem
  have := (rc6_window hin).hi
  rcases h2 _ hk with hk | hk | hk <;> dsimp only at hk <;> subst hk <;> simp only [rc6Range] at this <;>
    omega

theorem rc5Edges_length (v : BitVec 14) : (rc5Edges v).length ≤ 28 := by
  refine Nat.le_trans (edgesFrom_length _ _ _) ?_
  simp [rc5Levels]
  decide

theorem rc6Edges_length (v : BitVec 16) (toggle : Bool) : (rc6Edges v toggle).length ≤ 52 := by
  refine Nat.le_trans (edgesFrom_length _ _ _) ?_
  simp [rc6LevelsMode]
  decide

theorem nec_frame_among {f : Nat} {w : BitVec 32} {ps : List (Nat × Nat)}
    (h : NecFrame (necTable f) w ps) : ps.length ≤ 49 ∧ ∀ p ∈ ps, Among f (p.1 + p.2) (Msg.nec w).ranges := by
  refine ⟨by rw [h.len]; decide, fun p hp => ?_⟩
  obtain ⟨i, h1, h2, h3, -⟩ := frame_symbols .nec (f := f) ⟨w, h⟩ p hp
  have hne := h3 (.inl rfl)
  refine ⟨_, ?_, inTol_within .nec h1 h2⟩
  have : i = 0 ∨ i = 2 ∨ i = 3 := by omega
  rcases this with rfl | rfl | rfl <;> simp [Msg.ranges, usRange]

theorem samsung_frame_among {f : Nat} {w : BitVec 32} {ps : List (Nat × Nat)}
    (h : NecFrame (samsungTable f) w ps) :
    ps.length ≤ 49 ∧ ∀ p ∈ ps, Among f (p.1 + p.2) (Msg.samsung w).ranges := by
  refine ⟨by rw [h.len]; decide, fun p hp => ?_⟩
  obtain ⟨i, h1, h2, h3, -⟩ := frame_symbols .samsung (f := f) ⟨w, h⟩ p hp
  have hne := h3 (.inr rfl)
  refine ⟨_, ?_, inTol_within .samsung h1 h2⟩
  have : i = 0 ∨ i = 2 ∨ i = 3 := by omega
  rcases this with rfl | rfl | rfl <;> simp [Msg.ranges, usRange]

theorem sbp_frame_among {f : Nat} {a : BitVec 16} {c : BitVec 20} {ps : List (Nat × Nat)}
    (h : Matches (sbpTable f) (sbpSlots a c) ps) :
    ps.length ≤ 49 ∧ ∀ p ∈ ps, Among f (p.1 + p.2) (Msg.sbp a c).ranges := by
  refine ⟨by rw [h.1]; simp [sbpSlots], fun p hp => ?_⟩
  obtain ⟨i, h1, h2, -⟩ := frame_symbols .sbp (f := f) ⟨a, c, h⟩ p hp
  refine ⟨_, ?_, inTol_within .sbp h1 h2⟩
  have : i = 0 ∨ i = 1 ∨ i = 2 ∨ i = 3 := by omega
  rcases this with rfl | rfl | rfl | rfl <;> simp [Msg.ranges, usRange]

theorem denon_frame_among {f : Nat} {w : BitVec 48} {ps : List (Nat × Nat)}
    (h : Matches (denonTable f) (denonSlots w) ps) :
    ps.length ≤ 49 ∧ ∀ p ∈ ps, Among f (p.1 + p.2) (Msg.denon w).ranges := by
  refine ⟨by rw [h.1]; simp [denonSlots], fun p hp => ?_⟩
  obtain ⟨i, h1, h2, -, h4⟩ := frame_symbols .denon (f := f) ⟨w, h⟩ p hp
  have h4 := h4 rfl
  refine ⟨_, ?_, inTol_within .denon h1 h2⟩
  have : i = 0 ∨ i = 1 ∨ i = 2 := by omega
  rcases this with rfl | rfl | rfl <;> simp [Msg.ranges, usRange]

theorem repeat_among {f : Nat} {ps : List (Nat × Nat)}
    (h : ∃ p, ps = [p] ∧ InTol (necTable f) 1 (p.1 + p.2)) :
    ps.length ≤ 49 ∧ ∀ p ∈ ps, Among f (p.1 + p.2) Msg.necRepeat.ranges := by
  obtain ⟨p, rfl, h⟩ := h
  refine ⟨by simp, fun q hq => ?_⟩
  obtain rfl := List.mem_singleton.mp hq
  exact ⟨_, by simp [Msg.ranges, usRange], inTol_within .nec (i := 1) (by decide) h⟩

/-- Every transmission is a burst with the periods of its message. -/
theorem carries_burst {f w : Nat} (hw : 32 ≤ w) {msg : Msg} {evs : List Ev} (h : Carries f msg evs)
    (hs : Spaced f evs) : ∃ pause rest, evs = (true, pause) :: rest ∧ Burst f w msg.ranges pause rest := by
  cases msg with
  | nec v =>
    obtain ⟨p, ps, s, h1, -, -, -, h2⟩ := pulse_burst hw h hs fun ps => nec_frame_among
    exact ⟨p, _, h1, h2⟩
  | necRepeat =>
    obtain ⟨p, ps, s, h1, -, -, -, h2⟩ := pulse_burst hw h hs fun ps => repeat_among
    exact ⟨p, _, h1, h2⟩
  | samsung v =>
    obtain ⟨p, ps, s, h1, -, -, -, h2⟩ := pulse_burst hw h hs fun ps => samsung_frame_among
    exact ⟨p, _, h1, h2⟩
  | sbp a c =>
    obtain ⟨p, ps, s, h1, -, -, -, h2⟩ := pulse_burst hw h hs fun ps => sbp_frame_among
    exact ⟨p, _, h1, h2⟩
  | denon v =>
    obtain ⟨p, ps, s, h1, -, -, -, h2⟩ := pulse_burst hw h hs fun ps => denon_frame_among
    exact ⟨p, _, h1, h2⟩
  | rc5 v =>
    obtain ⟨-, h⟩ := h
    obtain ⟨p, n, b, e, t, h1, -, -, h2⟩ := manchester_burst (w := w) h hs
      (paired_edges _ _ _) (Nat.le_trans (rc5Edges_length v) (by decide)) fun _ _ _ _ ht hp => rc5_burst_edges _ _ ht hp
    exact ⟨p, _, h1, h2⟩
  | rc6 a c tg =>
    obtain ⟨p, n, b, e, t, h1, -, -, h2⟩ := manchester_burst (w := w) h hs
      (paired_edges _ _ _) (Nat.le_trans (rc6Edges_length _ tg) (by decide)) fun _ _ _ he ht _ => rc6_burst_edges _ _ _ he ht
    exact ⟨p, _, h1, h2⟩

end Infrared
