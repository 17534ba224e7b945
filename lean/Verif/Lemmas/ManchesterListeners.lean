import Verif.Lemmas.Listeners

/-!
# Manchester listeners and the transmissions of all protocols
-/

namespace Infrared

open Spec

/-! ### Lengths that are no multiple of the unit -/

theorem half_none {tbl : PulseSpans} {x : Nat} (h : ∀ i, ¬ InTol tbl i x) : tbl.half x = none := by
  rcases hh : tbl.half x with _ | n
  · rfl
  · obtain ⟨i, -, hin, -⟩ := (halfBits_iff _ _ _).mpr hh
    exact absurd hin (h i)

theorem rc5_half_silence {f x : Nat} (hf : 20000 ≤ f) (h : 15000 * f ≤ 1000000 * x) :
    (rc5Table f).half x = none := by
  refine half_none fun i hi => ?_
  rcases rc5_window hi (by omega) with ⟨-, h⟩ | ⟨-, h⟩ <;> have := h.hi <;> omega

theorem rc5_half_plain {f x : Nat} (hf : 20000 ≤ f) (hx : 0 < x) (h : PlainMark f x) :
    (rc5Table f).half x = none := by
  refine half_none fun i hi => ?_
  rcases h with h | h <;> rcases rc5_window hi hx with ⟨-, h⟩ | ⟨-, h⟩ <;> have := h.hi <;>
    have := h.lo <;> omega

theorem rc6_half_silence {f x : Nat} (hf : 20000 ≤ f) (h : 15000 * f ≤ 1000000 * x) :
    (rc6Table f).half x = none := by
  refine half_none fun i hi => ?_
  have := (rc6_window hi).hi
  have h2 : (rc6Range i).2 ≤ 2984 := by
    rcases i with _ | _ | _ | _ | _ | _ | i <;> simp [rc6Range]
  have := Nat.mul_le_mul_right f h2
  omega

theorem rc6_half_ne {f x : Nat} (hf : 20000 ≤ f)
    (h : 1000000 * x ≤ 1956 * f ∨ 3100 * f ≤ 1000000 * x) : (rc6Table f).half x ≠ some 6 := by
  intro hh
  obtain ⟨i, h6, hin, -⟩ := (halfBits_iff _ _ _).mpr hh
  obtain rfl : i = 5 := by omega
  have h1 := (rc6_window hin).hi
  have h2 := (rc6_window hin).lo
  simp only [rc6Range] at h1 h2
  omega

theorem rc6_half_plain {f x : Nat} (hf : 20000 ≤ f) (h : PlainMark f x) :
    (rc6Table f).half x ≠ some 6 :=
  rc6_half_ne hf (by rcases h with h | h <;> omega)

/-! ### RC5 -/

theorem rc5_listen (t : Target) (hus : 16 ≤ t.usizeBits) (tbl : PulseSpans) (hlen : tbl.spans.length ≤ 8)
    {pause : Nat} (hp : tbl.half pause = none) (rest : List Ev) (hrest : rest.length ≤ 100)
    {d : Rc5Decoder} {a : Abs5} (hs : Sim5 d a) :
    ∃ d', runStep (rc5Fn t tbl) d ((true, pause) :: rest) =
        some (d', (runTotal Abs5.step ⟨none, 0, false⟩ (((true, pause) :: rest).map (measure tbl))).2) ∧
      ∃ a', Sim5 d' a' := by
  have hpw : 2 ^ 16 ≤ 2 ^ t.usizeBits := Nat.pow_le_pow_right (by decide) hus
  have hg : tbl.get pause = none := by
    unfold PulseSpans.half at hp
    rcases h : tbl.get pause with _ | v
    · rfl
    · rw [h] at hp; cases hp
  obtain ⟨d1, r, h1, h2, h3, h4⟩ := rc5_step_ex t tbl hus hlen hs (true, pause) (clock := 0)
    (by rw [rc5Clock, hg])
  obtain ⟨d2, h5, h6, -⟩ := rc5_run_ex t tbl hus hlen h2 rest (.inr (by omega))
  refine ⟨d2, (run_cons_some h1 h5).trans ?_, _, h6⟩
  rw [h3, List.map_cons, measure, hp]
  rfl

/-- Every falling edge comes after something that is no multiple of a half-bit. -/
theorem rc5_pulses_deaf (tbl : PulseSpans) (ps : List (Nat × Nat)) (stop : Nat)
    (hps : ∀ p ∈ ps, tbl.half p.1 = none) (hst : tbl.half stop = none) (a : Abs5) :
    NoCmd (runTotal Abs5.step a ((pulses ps ++ [(false, stop)]).map (measure tbl))).2 := by
  induction ps generalizing a with
  | nil =>
    have : (pulses ([] : List (Nat × Nat)) ++ [(false, stop)]).map (measure tbl) = [(false, none)] := by
      simp [pulses, measure, hst]
    rw [this]
    exact NoCmd.nil.quiet
  | cons p ps ih =>
    have h1 := hps p (by simp)
    have : (pulses (p :: ps) ++ [(false, stop)]).map (measure tbl) =
        (false, none) :: (true, tbl.half p.2) ::
          (pulses ps ++ [(false, stop)]).map (measure tbl) := by
      simp [pulses, measure, h1]
    rw [this]
    have ih := ih fun q hq => hps q (by simp [hq])
    rcases tbl.half p.2 with _ | n
    · exact NoCmd.quiet (NoCmd.quiet (ih _))
    · exact NoCmd.quiet (NoCmd.quiet (ih _))

/-- Half-bits the decoder still waits for. -/
def Abs5.left (a : Abs5) : Nat :=
  match a.st with
  | none => 26
  | some b => 2 * b + if a.odd then 1 else 2

/-- Half-bits of the edges in total. -/
def weight : List (Bool × Option Nat) → Nat
  | [] => 0
  | e :: es => e.2.getD 0 + weight es

/-- With too few half-bits nothing is heard. -/
theorem rc5_budget (es : List (Bool × Option Nat)) (hpos : ∀ e ∈ es, e.2 ≠ some 0) (a : Abs5)
    (ha : a.left ≤ 26) (h : weight es < a.left) : NoCmd (runTotal Abs5.step a es).2 := by
  induction es generalizing a with
  | nil => exact NoCmd.nil
  | cons e es ih =>
    obtain ⟨r, n⟩ := e
    have ih := ih fun x hx => hpos x (by simp [hx])
    have key : ∃ a', Abs5.step a (r, n) = (a', .ok none) ∧ a'.left ≤ 26 ∧ weight es < a'.left := by
      cases n with
      | none =>
        have hw : weight es < 26 := by simp [weight] at h; omega
        cases r
        · exact ⟨_, rfl, Nat.le_refl 26, hw⟩
        · exact ⟨_, rfl, Nat.le_refl 26, hw⟩
      | some n =>
        have hn : n ≠ 0 := fun h0 => hpos (r, some n) (by simp) (by rw [h0])
        simp only [weight, Option.getD_some] at h
        obtain ⟨st, buf, odd⟩ := a
        cases st with
        | none =>
          simp only [Abs5.left] at h
          cases r
          · exact ⟨_, rfl, Nat.le_refl 26, show weight es < 26 by omega⟩
          · exact ⟨_, rfl, Nat.le_refl 26, show weight es < 26 by omega⟩
        | some b =>
          simp only [Abs5.left] at h ha
          rcases Nat.mod_two_eq_zero_or_one n with hp | hp <;> cases odd
          all_goals simp only [Bool.false_eq_true, if_false, if_true] at h ha
          · have hb : b ≠ 0 := by omega
            refine ⟨_, by simp only [Abs5.step, hp, Bool.bne_false, Bool.false_bne]; rw [if_neg (by simp), if_neg hb], ?_⟩
            simp only [Abs5.left, Bool.false_eq_true, if_false]
            simp
            omega
          · refine ⟨_, by simp only [Abs5.step, hp]; rw [if_pos (by simp)], ?_⟩
            simp [Abs5.left]
            omega
          · refine ⟨_, by simp only [Abs5.step, hp]; rw [if_pos (by simp)], ?_⟩
            simp [Abs5.left]
            omega
          · have hb : b ≠ 0 := by omega
            refine ⟨_, by simp only [Abs5.step, hp]; rw [if_neg (by simp), if_neg hb], ?_⟩
            simp [Abs5.left]
            omega
    obtain ⟨a', h1, h2, h3⟩ := key
    rw [runTotal, h1]
    exact (ih a' h2 h3).quiet

/-- Edges two units long. -/
def twos (es : List (Bool × Nat)) : Nat := es.countP (·.2 == 2)

theorem rc6_tail_twos (w : BitVec 16) (n : Nat) (prev : Bool) (c : Nat) :
    twos (edgesFrom prev c (rc6Tail w n)) ≤ n := by
  induction n generalizing prev c with
  | zero => simp [rc6Tail, edgesFrom, twos]
  | succ n ih =>
    rw [rc6Tail, edgesFrom_bit2]
    have := ih (!w.getLsbD n) 1
    unfold twos at this ⊢
    split
    · rw [List.countP_cons]
      split <;> omega
    · rw [List.countP_cons, List.countP_cons]
      simp only [beq_iff_eq, show (1 : Nat) ≠ 2 by decide, if_false]
      split <;> omega

theorem rc6_twos (w : BitVec 16) (toggle : Bool) : twos (rc6Edges w toggle) ≤ 23 := by
  rw [rc6Edges, rc6Edges_eq 0 (.inl rfl)]
  have h1 := rc6_tail_twos w 16 (!toggle) 2
  have h2 : twos (rc6Head 0 toggle) ≤ 7 := by cases toggle <;> decide
  unfold twos at *
  rw [List.countP_cons, List.countP_append]
  simp only [beq_iff_eq, show (0 : Nat) ≠ 2 by decide, if_false]
  omega

/-- To an RC5 receiver only the edges two units long are multiples of its half-bit. -/
theorem rc6_in_rc5 {f : Nat} (hf : 20000 ≤ f) {d n : Nat} (hd : 0 < d)
    (hn : n = 1 ∨ n = 2 ∨ n = 3 ∨ n = 6)
    (h : InTol (rc6Table f) (n - 1) d) :
    (rc5Table f).half d = none ∨ n = 2 ∧ (rc5Table f).half d = some 1 := by
  rcases hh : (rc5Table f).half d with _ | k
  · exact .inl rfl
  · obtain ⟨i, hk, hin, -⟩ := (halfBits_iff _ _ _).mpr hh
    have h1 := (rc6_window h).hi
    have h2 := (rc6_window h).lo
    rcases hn with rfl | rfl | rfl | rfl <;> simp only [rc6Range] at h1 h2 <;>
      rcases rc5_window hin hd with ⟨rfl, h5⟩ | ⟨rfl, h5⟩ <;> have := h5.lo <;> have := h5.hi
    all_goals first | omega | exact .inr ⟨rfl, by rw [hk]⟩

theorem rc6_weight {f : Nat} (hf : 20000 ≤ f) {evs : List Ev} {edges : List (Bool × Nat)}
    (ht : Timed (WithinRc6 (rc6Table f)) evs edges) (hpos : ∀ e ∈ evs, 0 < e.2)
    (hn : ∀ e ∈ edges, e.2 = 1 ∨ e.2 = 2 ∨ e.2 = 3 ∨ e.2 = 6) :
    weight (evs.map (measure (rc5Table f))) ≤ twos edges := by
  induction evs generalizing edges with
  | nil => simp [weight]
  | cons e es ih =>
    cases edges with
    | nil => exact ht.elim
    | cons w ws =>
      obtain ⟨-, ⟨h2, -⟩, h3⟩ := ht
      have ih := ih h3 (fun x hx => hpos x (by simp [hx])) (fun x hx => hn x (by simp [hx]))
      unfold twos at ih ⊢
      rw [List.map_cons, weight, List.countP_cons, measure]
      rcases rc6_in_rc5 hf (hpos e (by simp)) (hn w (by simp)) h2 with h | ⟨h, h'⟩
      · rw [h]
        simp only [Option.getD_none]
        omega
      · rw [h', h]
        simp only [Option.getD_some, beq_self_eq_true, if_true]
        omega

theorem weight_append (a b : List (Bool × Option Nat)) : weight (a ++ b) = weight a + weight b := by
  induction a with
  | nil => simp [weight]
  | cons e es ih => simp [weight, ih, Nat.add_assoc]

theorem half_pos (tbl : PulseSpans) (evs : List Ev) : ∀ e ∈ evs.map (measure tbl), e.2 ≠ some 0 := by
  intro e he
  obtain ⟨x, -, rfl⟩ := List.mem_map.mp he
  simp [measure, PulseSpans.half]

theorem rc5_half_le {f x : Nat} (hx : 0 < x) : ((rc5Table f).half x).getD 0 ≤ 2 := by
  rcases hh : (rc5Table f).half x with _ | k
  · simp
  · obtain ⟨i, hk, hin, -⟩ := (halfBits_iff _ _ _).mpr hh
    rcases rc5_window hin hx with ⟨rfl, -⟩ | ⟨rfl, -⟩ <;> simp [hk]

section
variable (t : Target) (hus : 16 ≤ t.usizeBits) {f : Nat} (hf : 20000 ≤ f)
include hus hf

/-- A pulse-distance transmission. -/
theorem rc5_deaf_pulses {w : Nat} {rs : List (Nat × Nat)} {pause : Nat} {ps : List (Nat × Nat)}
    {stop : Nat} (hb : Burst f w rs pause (pulses ps ++ [(false, stop)]))
    (hps : ∀ p ∈ ps, PlainMark f p.1) (hst : PlainMark f stop) {d : Rc5Decoder} (hd : ∃ a, Sim5 d a) :
    ∃ d' o, runStep (rc5Fn t (rc5Table f)) d ((true, pause) :: (pulses ps ++ [(false, stop)])) =
      some (d', o) ∧ (∃ a, Sim5 d' a) ∧ NoCmd o := by
  obtain ⟨a, hs⟩ := hd
  have hp := rc5_half_silence hf hb.silence
  obtain ⟨d', h1, h2⟩ := rc5_listen t hus (rc5Table f) (by simp [rc5Table]) hp _ hb.len hs
  refine ⟨d', _, h1, h2, ?_⟩
  have mem : ∀ p ∈ ps, (false, p.1) ∈ pulses ps := by
    clear hb hps h1
    induction ps with
    | nil => simp
    | cons q qs ih =>
      intro p hp
      rcases List.mem_cons.mp hp with rfl | hp
      · simp [pulses]
      · simp [pulses, ih p hp]
  rw [List.map_cons, measure, hp]
  refine NoCmd.quiet (rc5_pulses_deaf _ _ _ ?_ ?_ _)
  · intro p hp
    exact rc5_half_plain hf (hb.pos (false, p.1) (by simp [mem p hp])) (hps p hp)
  · exact rc5_half_plain hf (hb.pos (false, stop) (by simp)) hst

/-- An RC6 transmission. -/
theorem rc5_deaf_rc6 {w : Nat} {rs : List (Nat × Nat)} {pause : Nat} {body : List Ev} {tail : Option Nat}
    {v : BitVec 16} {toggle : Bool} {n : Nat} {edges' : List (Bool × Nat)}
    (hb : Burst f w rs pause (withTail body tail)) (he : rc6Edges v toggle = (true, n) :: edges')
    (ht : Timed (WithinRc6 (rc6Table f)) body edges') {d : Rc5Decoder} (hd : ∃ a, Sim5 d a) :
    ∃ d' o, runStep (rc5Fn t (rc5Table f)) d ((true, pause) :: withTail body tail) = some (d', o) ∧
      (∃ a, Sim5 d' a) ∧ NoCmd o := by
  obtain ⟨a, hs⟩ := hd
  have hp := rc5_half_silence hf hb.silence
  obtain ⟨d', h1, h2⟩ := rc5_listen t hus (rc5Table f) (by simp [rc5Table]) hp _ hb.len hs
  refine ⟨d', _, h1, h2, ?_⟩
  rw [List.map_cons, measure, hp]
  have htw := rc6_twos v toggle
  have hlens : ∀ e ∈ edges', e.2 = 1 ∨ e.2 = 2 ∨ e.2 = 3 ∨ e.2 = 6 := by
    obtain ⟨k, rest, g1, g2⟩ := rc6_edges_split v toggle
    rw [he] at g1
    simp only [List.cons.injEq, Prod.mk.injEq, true_and] at g1
    intro e hmem
    rw [g1.2] at hmem
    rcases List.mem_cons.mp hmem with rfl | hmem
    · simp
    · rcases g2 e hmem with h | h | h <;> simp [h]
  rw [he] at htw
  have hle : twos edges' ≤ 23 := by
    refine Nat.le_trans ?_ htw
    unfold twos
    rw [List.countP_cons]
    exact Nat.le_add_right _ _
  have hwt : weight ((withTail body tail).map (measure (rc5Table f))) ≤ 25 := by
    cases tail with
    | none =>
      have := rc6_weight hf ht (fun e he => hb.pos e he) hlens
      simp only [withTail]
      omega
    | some x =>
      have := rc6_weight hf ht (fun e he => hb.pos e (by simp [withTail, he])) hlens
      simp only [withTail, List.map_append, weight_append, List.map_cons, List.map_nil, weight, measure]
      have := rc5_half_le (f := f) (hb.pos (false, x) (by simp [withTail]))
      dsimp only at this
      omega
  refine NoCmd.quiet (rc5_budget _ (half_pos _ _) _ (Nat.le_refl 26) ?_)
  exact Nat.lt_of_le_of_lt hwt (show 25 < 26 by decide)

/-- Its own transmission. -/
theorem rc5_own {w : Nat} {rs : List (Nat × Nat)} {pause : Nat} {body : List Ev} {tail : Option Nat}
    {v : BitVec 14} (hv : v.getLsbD 13 = true) {n : Nat} {edges' : List (Bool × Nat)}
    (hb : Burst f w rs pause (withTail body tail)) (he : rc5Edges v = (true, n) :: edges')
    (ht : Timed (Spec.Within (rc5Table f)) body edges') {d : Rc5Decoder} (hd : ∃ a, Sim5 d a) :
    ∃ d' o1 o2, runStep (rc5Fn t (rc5Table f)) d ((true, pause) :: withTail body tail) =
        some (d', o1 ++ .ok (some (Rc5Command.unpack (v.setWidth 16))) :: o2) ∧
      (∃ a, Sim5 d' a) ∧ NoCmd o1 ∧ NoCmd o2 ∧ o1.length = (rc5Edges v).length - 1 := by
  obtain ⟨a, hs⟩ := hd
  have hp := rc5_half_silence hf hb.silence
  obtain ⟨d', h1, h2⟩ := rc5_listen t hus (rc5Table f) (by simp [rc5Table]) hp _ hb.len hs
  have hfr : ManchesterFrame (Spec.Within (rc5Table f)) (rc5Edges v) ((true, pause) :: body) :=
    ⟨pause, n, body, edges', rfl, he, ht⟩
  have hab := rc5_abs_frame (rc5Table f) v hv false _ (rc5_halfBits hf hv hfr)
  have hl := frame_length hfr
  cases tail with
  | none =>
    refine ⟨d', _, [], h1.trans ?_, h2, NoCmd.nones (((true, pause) :: body).length - 1), NoCmd.nil, ?_⟩
    · rw [withTail, hab]
    · rw [List.length_replicate, hl]
  | some x =>
    refine ⟨d', _, [.ok none], h1.trans ?_, h2, NoCmd.nones (((true, pause) :: body).length - 1), NoCmd.nil.quiet, ?_⟩
    · rw [withTail, ← List.cons_append, List.map_append, runTotal_append, hab]
      dsimp only
      rw [List.append_assoc]
      simp only [List.map_cons, List.map_nil, runTotal, measure, Abs5.step]
      rcases (rc5Table f).half x with _ | k <;> rfl
    · rw [List.length_replicate, hl]

end

/-! ### RC6 -/

theorem rc6_listen (t : Target) (hus : 16 ≤ t.usizeBits) (tbl : PulseSpans) (hlen : tbl.spans.length ≤ 8)
    {pause : Nat} (hp : tbl.half pause = none) (rest : List Ev) (hrest : rest.length ≤ 100)
    {d : Rc6Decoder} {a : Abs6} (hs : Sim6 d a) :
    ∃ d', runStep (rc6Fn t tbl) d ((true, pause) :: rest) =
        some (d', (runTotal Abs6.step ⟨.idle, 0, a.toggle, false⟩
          (((true, pause) :: rest).map (measure tbl))).2) ∧
      ∃ a', Sim6 d' a' := by
  have hpw : 2 ^ 16 ≤ 2 ^ t.usizeBits := Nat.pow_le_pow_right (by decide) hus
  have hg : tbl.get pause = none := by
    unfold PulseSpans.half at hp
    rcases h : tbl.get pause with _ | v
    · rfl
    · rw [h] at hp; cases hp
  obtain ⟨d1, r, h1, h2, h3, h4⟩ := rc6_step_ex t tbl hus hlen hs (true, pause) (clock := 0)
    (by rw [rc6Clock, hg])
  obtain ⟨d2, h5, h6, -⟩ := rc6_run_ex t tbl hus hlen h2 rest (.inr (by omega))
  refine ⟨d2, (run_cons_some h1 h5).trans ?_, _, h6⟩
  rw [h3, List.map_cons, measure, hp]
  rfl

/-- Without a mark of a leader's length nothing is heard. -/
theorem rc6_unled (a : Abs6) (ha : a.st = .idle ∨ a.st = .leading) (es : List (Bool × Option Nat))
    (hes : ∀ e ∈ es, e.1 = false → e.2 ≠ some 6) (last : Option (Option Nat)) :
    NoCmd (runTotal Abs6.step a (es ++ (last.toList.map fun x => (false, x)))).2 := by
  induction es generalizing a with
  | nil =>
    rcases last with _ | x
    · exact NoCmd.nil
    · obtain ⟨st, data, tg, odd⟩ := a
      rcases x with _ | n
      · exact NoCmd.nil.quiet
      · rcases ha with ha | ha <;> simp only at ha <;> subst ha <;> exact NoCmd.nil.quiet
  | cons e es ih =>
    obtain ⟨r, m⟩ := e
    have hm := hes (r, m) (by simp)
    have key : ∃ a', Abs6.step a (r, m) = (a', .ok none) ∧ (a'.st = .idle ∨ a'.st = .leading) := by
      obtain ⟨st, data, tg, odd⟩ := a
      cases m with
      | none =>
        cases r
        · exact ⟨_, rfl, .inl rfl⟩
        · exact ⟨_, rfl, .inr rfl⟩
      | some n =>
        rcases ha with ha | ha
        · simp only at ha
          subst ha
          cases r
          · exact ⟨_, rfl, .inl rfl⟩
          · exact ⟨_, rfl, .inr rfl⟩
        · simp only at ha
          subst ha
          refine ⟨_, rfl, .inl ?_⟩
          dsimp only
          rw [if_neg]
          rintro ⟨hr, rfl⟩
          exact hm hr rfl
    obtain ⟨a', h1, h2⟩ := key
    rw [List.cons_append, runTotal, h1]
    exact (ih a' h2 fun x hx => hes x (by simp [hx])).quiet

section
variable (t : Target) (hus : 16 ≤ t.usizeBits) {f : Nat} (hf : 20000 ≤ f)
include hus hf

/-- A transmission without leader. -/
theorem rc6_deaf {w : Nat} {rs : List (Nat × Nat)} {pause : Nat} {body : List Ev} {tail : Option Nat}
    (hb : Burst f w rs pause (withTail body tail))
    (hno : ∀ e ∈ body, e.1 = false → (rc6Table f).half e.2 ≠ some 6)
    {d : Rc6Decoder} (hd : ∃ a, Sim6 d a) :
    ∃ d' o, runStep (rc6Fn t (rc6Table f)) d ((true, pause) :: withTail body tail) = some (d', o) ∧
      (∃ a, Sim6 d' a) ∧ NoCmd o := by
  obtain ⟨a, hs⟩ := hd
  have hp := rc6_half_silence hf hb.silence
  obtain ⟨d', h1, h2⟩ := rc6_listen t hus (rc6Table f) (by simp [rc6Table]) hp _ hb.len hs
  refine ⟨d', _, h1, h2, ?_⟩
  have heq : (withTail body tail).map (measure (rc6Table f)) = body.map (measure (rc6Table f)) ++
      ((tail.map (rc6Table f).half).toList.map fun x => (false, x)) := by
    cases tail with
    | none => simp [withTail]
    | some x => simp [withTail, measure]
  rw [List.map_cons, measure, hp, heq]
  refine NoCmd.quiet (rc6_unled _ (.inr rfl) _ ?_ _)
  intro e he h
  obtain ⟨x, hx, rfl⟩ := List.mem_map.mp he
  exact hno x hx h

/-- Its own transmission. -/
theorem rc6_own {m : Mono} (hm : m = Mono.u32 ∨ m = Mono.u64) (hf2 : f < 2 ^ 32)
    {w : Nat} {rs : List (Nat × Nat)} {pause : Nat} {body : List Ev} {tail : Option Nat}
    {v : BitVec 16} {toggle : Bool} {n : Nat} {edges' : List (Bool × Nat)}
    (hb : Burst f w rs pause (withTail body tail)) (he : rc6Edges v toggle = (true, n) :: edges')
    (ht : Timed (WithinRc6 (rc6Table f)) body edges') {d : Rc6Decoder} (hd : ∃ a, Sim6 d a) :
    ∃ d' o1 o2, runStep (rc6Fn t (rc6Table f)) d ((true, pause) :: withTail body tail) =
        some (d', o1 ++ .ok (some (Rc6Command.fromBits v toggle)) :: o2) ∧
      (∃ a, Sim6 d' a) ∧ NoCmd o1 ∧ NoCmd o2 ∧ o1.length = (rc6Edges v toggle).length - 1 := by
  obtain ⟨a, hs⟩ := hd
  have hp := rc6_half_silence hf hb.silence
  obtain ⟨d', h1, h2⟩ := rc6_listen t hus (rc6Table f) (by simp [rc6Table]) hp _ hb.len hs
  have hfr : ManchesterFrame (WithinRc6 (rc6Table f)) (rc6Edges v toggle) ((true, pause) :: body) :=
    ⟨pause, n, body, edges', rfl, he, ht⟩
  have hab := rc6_abs_frame (rc6Table f) 0 (.inl rfl) v toggle a.toggle false _
    (rc6_halfBits (t := t) hm hf hf2 hfr)
  have hl := frame_length hfr
  cases tail with
  | none =>
    refine ⟨d', _, [], h1.trans ?_, h2, NoCmd.nones (((true, pause) :: body).length - 1), NoCmd.nil, ?_⟩
    · rw [withTail, hab]
    · rw [List.length_replicate, hl]
  | some x =>
    refine ⟨d', _, [.ok none], h1.trans ?_, h2, NoCmd.nones (((true, pause) :: body).length - 1), NoCmd.nil.quiet, ?_⟩
    · rw [withTail, ← List.cons_append, List.map_append, runTotal_append, hab]
      dsimp only
      rw [List.append_assoc]
      simp only [List.map_cons, List.map_nil, runTotal, measure, Abs6.step]
      rcases (rc6Table f).half x with _ | k <;> rfl
    · rw [List.length_replicate, hl]

end

end Infrared
