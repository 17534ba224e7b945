import Verif.Props.Swallow
import Verif.Props.BrokenBi
import Verif.Props.Busy

/-!
# The RC5 sender heard through a module that swallows short pulses (C101)
-/

namespace Infrared

open Spec

variable {K : Type}

theorem swallow_pending (r run : Nat) (ds : List Nat) (tl : List Bool) :
    swallow r run (heldLevels false ds ++ tl) =
      List.replicate run (decide (r ≤ run)) ++ swallow r 0 (heldLevels false ds ++ tl) := by
  have : ∃ rest, heldLevels false ds ++ tl = false :: rest := by
    cases ds with
    | nil => exact ⟨tl, rfl⟩
    | cons d ds =>
      obtain ⟨m, hm⟩ : ∃ m, max d 1 = m + 1 := ⟨max d 1 - 1, by omega⟩
      rw [heldLevels, hm, List.replicate_succ]
      exact ⟨_, rfl⟩
  obtain ⟨rest, h⟩ := this
  rw [h, swallow, swallow]
  rfl

/-- Empty slots do not come through. -/
theorem swallow_zeros {r : Nat} (hr : 2 ≤ r) (k q : Nat) (hq : 0 < q) (b : Bool) :
    swallow r 0 (heldLevels b (List.replicate k 0) ++ List.replicate q false) = List.replicate (k + 1 + q) false := by
  induction k generalizing b with
  | zero =>
    cases b with
    | false =>
      have := swallow_space r (1 + q) []
      rw [List.append_nil] at this
      rw [Nat.zero_add]
      refine Eq.trans ?_ (this.trans (by simp [swallow]))
      rw [← List.replicate_append_replicate]
      rfl
    | true =>
      have := swallow_pair r 1 q hq []
      rw [List.append_nil, decide_eq_false (by omega), List.replicate_append_replicate] at this
      rw [Nat.zero_add]
      refine Eq.trans ?_ (this.trans (by simp [swallow]))
      rfl
  | succ k ih =>
    rw [List.replicate_succ, heldLevels, List.append_assoc]
    cases b with
    | false =>
      rw [swallow_space, Bool.not_false, ih true, List.replicate_append_replicate]
      congr 1; omega
    | true =>
      rw [swallow_mark, Bool.not_true, swallow_pending, ih false, decide_eq_false (by omega),
        List.replicate_append_replicate]
      congr 1; omega

/-- A waveform whose pulses are long enough, followed by empty slots and silence: if the waveform ends with a rising
edge this edge is lost, otherwise all edges come through. -/
theorem swallow_wave {r : Nat} (hr : 2 ≤ r) (k q : Nat) (hq : 0 < q) : ∀ (xs : List Nat), (∀ x ∈ xs, r ≤ x) → xs ≠ [] →
    ∃ A h y, 0 < h ∧ 0 < y ∧ (∀ p ∈ A, 0 < p.1 ∧ 0 < p.2) ∧
      swallow r 0 (heldLevels true (xs ++ List.replicate k 0) ++ List.replicate q false) = pairLevels (A ++ [(h, y)]) ∧
      pulses A ++ [(false, h)] = alternating false (if xs.length % 2 = 0 then xs.dropLast else xs)
  | [], _, hne => absurd rfl hne
  | [x], hx, _ => by
    have h := hx x (by simp)
    refine ⟨[], x, k + 1 + q, by omega, by omega, by simp, ?_, rfl⟩
    rw [List.singleton_append, heldLevels, List.append_assoc, swallow_mark, Bool.not_true, swallow_pending,
      swallow_zeros hr k q hq, Nat.zero_add, Nat.max_eq_left (by omega), decide_eq_true h]
    simp [pairLevels]
  | [x, y], hx, _ => by
    have h1 := hx x (by simp)
    have h2 := hx y (by simp)
    refine ⟨[], x, y + (k + 1 + q), by omega, by omega, by simp, ?_, by simp [pulses, alternating]⟩
    have := swallow_pair r x y (by omega) (heldLevels true (List.replicate k 0) ++ List.replicate q false)
    rw [decide_eq_true h1, swallow_zeros hr k q hq] at this
    simp only [List.cons_append, List.nil_append, heldLevels, Nat.max_eq_left (show 1 ≤ x by omega),
      Nat.max_eq_left (show 1 ≤ y by omega), Bool.not_true, Bool.not_false, pairLevels, List.flatMap_cons,
      List.flatMap_nil, List.append_nil, ← List.replicate_append_replicate, List.append_assoc] at this ⊢
    exact this
  | x :: y :: z :: xs, hx, _ => by
    have h1 := hx x (by simp)
    have h2 := hx y (by simp)
    obtain ⟨A, h, y', e1, e2, e3, e4, e5⟩ := swallow_wave hr k q hq (z :: xs) (fun w hw => hx w (by simp [hw])) (by simp)
    refine ⟨(x, y) :: A, h, y', e1, e2, ?_, ?_, ?_⟩
    · intro p hp
      rcases List.mem_cons.mp hp with rfl | hp
      · exact ⟨by simp only; omega, by simp only; omega⟩
      · exact e3 p hp
    · have := swallow_pair r x y (by omega) (heldLevels true (z :: xs ++ List.replicate k 0) ++ List.replicate q false)
      rw [decide_eq_true h1, e4] at this
      rw [List.cons_append (a := (x, y)), pairLevels, List.flatMap_cons]
      rw [pairLevels] at this
      rw [← this, List.cons_append, List.cons_append, heldLevels, heldLevels, Nat.max_eq_left (by omega),
        Nat.max_eq_left (by omega), Bool.not_true, Bool.not_false]
      simp only [List.append_assoc]
    · rw [pulses, List.cons_append, List.cons_append, e5]
      by_cases hp : (z :: xs).length % 2 = 0
      · rw [if_pos hp, if_pos (by simp only [List.length_cons] at hp ⊢; omega)]
        rfl
      · rw [if_neg hp, if_neg (by simp only [List.length_cons] at hp ⊢; omega)]
        rfl

theorem timed_take_both {fits : Nat → Nat → Prop} (k : Nat) (evs : List Ev) (es : List (Bool × Nat)) (h : Timed fits evs es) :
    Timed fits (evs.take k) (es.take k) := by
  induction k generalizing evs es with
  | zero => simp [Timed]
  | succ k ih =>
    cases evs <;> cases es <;> simp_all [Timed]

theorem alternating_take (b : Bool) (k : Nat) (xs : List Nat) : alternating b (xs.take k) = (alternating b xs).take k := by
  induction xs generalizing b k with
  | nil => simp [alternating]
  | cons x xs ih =>
    cases k with
    | zero => rfl
    | succ k => simp [alternating, ih]

theorem held_zeros_length (k : Nat) (xs : List Nat) (b : Bool) (h : ∀ x ∈ xs, 0 < x) :
    (heldLevels b (xs ++ List.replicate k 0)).length = xs.sum + k + 1 := by
  induction xs generalizing b with
  | nil =>
    have : ∀ (k : Nat) (b : Bool), (heldLevels b (List.replicate k 0)).length = k + 1 := by
      intro k
      induction k with
      | zero => intro b; rfl
      | succ k ih => intro b; simp [List.replicate_succ, heldLevels, ih, Nat.add_comm]
    simpa using this k b
  | cons x xs ih =>
    have := ih (!b) fun y hy => h y (by simp [hy])
    have hx := h x (by simp)
    simp only [List.cons_append, heldLevels, List.length_append, List.length_replicate, this, List.sum_cons,
      Nat.max_eq_left hx]
    omega

/-- **C101** for RC5: a new sender, its first command, and a module that swallows marks of fewer than `r` ticks (two or
more, and no more than a half-bit).  Even commands are reported; odd ones, which end with a mark, are not. -/
theorem C101_rc5 (t : Target) (hus : 16 ≤ t.usizeBits) (fs : Nat)
    (hfs : 42000 ≤ fs ∨ (20000 ≤ fs ∧ fs % 1000 = 0)) (f : Nat) (hle : fs ≤ f) (hf : f < 2 ^ 32) (tbl : PulseSpans)
    (htbl : rc5Spans t Mono.u32 f = some tbl) (hc : coversAll tbl f 5 rc5Lengths = true) (conv : Rc5Command → K)
    (cmd : Rc5Command) (haddr : cmd.addr.toNat < 32) (hcmd : cmd.cmd.toNat < 64) (hstart : cmd.start.toNat < 4)
    (size : Nat) (hsize : 27 ≤ size) (en : Bool) :
    ∃ l s', rc5CalcFreq fs = some l ∧ (Sender.new size en).load (rc5Encode t l cmd) = some s' ∧
      ∀ r, 2 ≤ r → r ≤ l → ∀ ticks, 26 * l + size < ticks → ∀ pause phase n, phase < fs →
        16000 * fs ≤ 1000000 * pause → reading fs f phase (pause + ticks) + 1 < 2 ^ 32 →
        reading fs f phase (pause + ticks) < n →
        (pollRun (rc5Decoder t tbl) conv (overhear fs f phase pause (swallow r 0 (s'.pins ticks)) n)).map said =
          some (if cmd.cmd.getLsbD 0 then [] else oks [conv { cmd with start := cmd.start ||| 2 }]) := by
  obtain ⟨l, hl, -, henc⟩ := C38_rc5_encode t fs (by omega)
  obtain ⟨hw, h14, h27⟩ := henc cmd
  have e := (rc5CalcFreq_eq (by omega) hl).2 (by omega)
  have hl2 := (rc5CalcFreq_eq (by omega) hl).1
  have hl0 : 0 < l := by rw [e]; omega
  have h13 : (rc5Word cmd.pack).getLsbD 13 = true := by
    rw [rc5Word_bits _ _ (by decide)]; simp
  have hb0 : (rc5Word cmd.pack).getLsbD 0 = cmd.cmd.getLsbD 0 := by
    rw [rc5Word_bits _ _ (by decide)]
    simp [Rc5Command.pack]
  let es := edgesFrom true 1 (rc5Tail (rc5Word cmd.pack) 13)
  have hes : rc5Edges (rc5Word cmd.pack) = (true, 1) :: es := rc5Edges_eq _ h13
  have hes12 : ∀ x ∈ es, x.2 = 1 ∨ x.2 = 2 := rc5_edges_len _ 13 true
  obtain ⟨hsum, hpar⟩ := rc5_tail_sum (rc5Word cmd.pack) l 13 true
  rw [if_neg (by decide), hb0] at hpar
  have halt : alternating false (es.map Prod.snd) = es.map fun e => (e.1, e.2) := edgesFrom_alternating true 1 _
  have hwave : rc5Wave l (rc5Word cmd.pack) = 0 :: es.map fun e => e.2 * l := by
    rw [rc5Wave, hes, manchesterWave]
  change ((es.map fun e => e.2 * l)).sum = _ at hsum
  change xor true (es.length % 2 == 1) = _ at hpar
  clear_value es
  rw [hwave] at hw h14 h27
  rw [List.length_cons, List.length_map] at h14 h27
  have hgrow : ∀ x ∈ es.map (fun e => e.2 * l), l ≤ x ∧ x ≤ 2 * l := by
    intro x hx
    obtain ⟨y, hy, rfl⟩ := List.mem_map.mp hx
    rcases hes12 y hy with h | h <;> rw [h] <;> omega
  have hbuf : (Sender.new size en).buffer.ptb.buf = List.replicate size 0 := rfl
  have hload := hw (Sender.new size en).buffer.ptb.buf
  rw [hbuf, List.length_cons, List.length_map, List.length_replicate, if_pos (by omega), List.drop_replicate] at hload
  obtain ⟨s', l1, -, -, -, l5⟩ := load_idle (s := Sender.new size en) (enc := rc5Encode t l cmd) rfl (by rw [hbuf]; exact hload) (by
    intro d hd
    rcases List.mem_append.mp hd with hd | hd
    · rcases List.mem_cons.mp hd with rfl | hd
      · decide
      · have := hgrow d hd; omega
    · rw [List.eq_of_mem_replicate hd]; decide)
  refine ⟨l, s', hl, l1, fun r hr hrl ticks hticks pause phase n hphase hpause hmax hn => ?_⟩
  generalize hk : size - (es.length + 1) = k at *
  have hlen' := held_zeros_length k (es.map fun e => e.2 * l) true (fun x hx => by have := hgrow x hx; omega)
  rw [hsum] at hlen'
  have hpins : s'.pins ticks = heldLevels true ((es.map fun e => e.2 * l) ++ List.replicate k 0) ++
      List.replicate (ticks - (2 * 13 * l + k + 1)) false := by
    rw [pins_sending l5]
    change ((heldLevels true ((es.map fun e => e.2 * l) ++ List.replicate k 0)) ++ _).take ticks = _
    rw [List.take_append, List.take_of_length_le (by omega), List.take_replicate, hlen']
    congr 2
    omega
  obtain ⟨A, h, y, a1, a2, a3, a4, a5⟩ := swallow_wave hr k (ticks - (2 * 13 * l + k + 1)) (by omega)
    (es.map fun e => e.2 * l) (fun x hx => Nat.le_trans hrl (hgrow x hx).1) (by
      intro h0
      have := congrArg List.length h0
      simp at this
      rw [this] at h14
      simp at h14)
  have hlev := swallow_length r 0 (s'.pins ticks)
  rw [hpins, a4] at *
  have hle' : (pairLevels (A ++ [(h, y)])).length = ticks := by
    rw [hlev, List.length_append, hlen', List.length_replicate]
    omega
  have hedges : edgesFrom false 0 (List.replicate pause false ++ pairLevels (A ++ [(h, y)])) =
      (true, pause) :: alternating false ((es.map fun e => e.2 * l).take (if cmd.cmd.getLsbD 0 then es.length - 1 else es.length)) := by
    rw [edgesFrom_replicate, Nat.zero_add, pair_edges A a3 h y pause a1 a2, a5, List.length_map]
    congr 2
    cases hb : cmd.cmd.getLsbD 0 <;> rw [hb] at hpar
    · have : es.length % 2 = 1 := by simpa using hpar
      rw [if_neg (by omega), if_neg (by simp), List.take_of_length_le (by simp)]
    · have : es.length % 2 = 0 := by
        have : ¬ es.length % 2 = 1 := by simpa using hpar
        omega
      rw [if_pos this, if_pos rfl, List.dropLast_eq_take, List.length_map]
  generalize hm : (if cmd.cmd.getLsbD 0 then es.length - 1 else es.length) = m at *
  have hdur := edges_duration (List.replicate pause false ++ pairLevels (A ++ [(h, y)])) false 0
  rw [List.length_append, hle', List.length_replicate, Nat.zero_add] at hdur
  have hitem : ([((rc5Word cmd.pack, m + 1), (true, pause) :: alternating false ((es.map fun e => e.2 * l).take m),
      (none : Option Nat))] : List ((BitVec 14 × Nat) × List (Bool × Nat) × Option Nat)).flatMap
        (fun i => withTail i.2.1 i.2.2) = edgesFrom false 0 (List.replicate pause false ++ pairLevels (A ++ [(h, y)])) := by
    rw [hedges]; simp [withTail]
  have hmem : ∀ x ∈ alternating false ((es.map fun e => e.2 * l).take m), l ≤ x.2 ∧ x.2 ≤ 2 * l := by
    intro x hx
    exact hgrow _ (List.mem_of_mem_take (alternating_mem hx))
  have hmono : ∀ a, a ≤ ticks → reading fs f phase (pause + a) ≤ reading fs f phase (pause + ticks) := by
    intro a ha
    have := reading_mono fs f phase (pause + a) (ticks - a)
    rwa [Nat.add_assoc, Nat.add_sub_cancel' ha] at this
  rw [overhear, looked_polled (by omega) hphase _ ?_, ← hitem]
  · rw [C88_rc5_polled t hus f 5 (by omega) hf tbl htbl hc conv fs (by omega) phase _ ?_ ?_ ?_ ?_ n ?_]
    · cases hb : cmd.cmd.getLsbD 0 with
      | false =>
        rw [hb] at hm
        have : rc5Whole (rc5Word cmd.pack, m + 1) = true := by
          rw [rc5Whole, hes, decide_eq_true_eq, List.length_cons, ← hm]
          exact Nat.le_refl _
        rw [List.filter_cons_of_pos (by exact this), List.filter_nil]
        simp only [List.map_cons, List.map_nil, rc5_received_cmd cmd haddr hcmd hstart]
        rfl
      | true =>
        rw [hb, if_pos rfl] at hm
        have : ¬ rc5Whole (rc5Word cmd.pack, m + 1) = true := by
          rw [rc5Whole, hes, decide_eq_true_eq, List.length_cons, ← hm]
          simp only; omega
        rw [List.filter_cons_of_neg (by exact this), List.filter_nil]
        rfl
    · intro i hi
      rw [List.mem_singleton] at hi
      subst hi
      refine ⟨h13, ?_, ?_, ?_⟩
      · rw [hes, List.take_succ_cons]
        refine ⟨pause, 1, _, _, rfl, rfl, ?_⟩
        rw [alternating_take]
        exact timed_take_both m _ _ (timed_wave l es false halt fun x _ => rc5_ticks_near hfs e _)
      · intro e he
        simp only [List.head?_cons, Option.some.injEq] at he
        rw [← he]; exact hpause
      · intro _ x hx
        cases hx
    · rw [hitem]
      exact edgesFrom_changes _ _ _
    · intro x hx
      rw [hitem, hedges, List.tail_cons] at hx
      have := (hmem x hx).1
      calc fs ≤ 1 * f := by omega
        _ ≤ x.2 * f := Nat.mul_le_mul_right _ (by omega)
    · intro x hx
      rw [hitem, hedges] at hx
      have key : ∀ a, a ≤ pause + ticks → (a * f + phase) / fs + 1 < 2 ^ 32 := by
        intro a ha
        have : (a * f + phase) / fs ≤ reading fs f phase (pause + ticks) :=
          Nat.div_le_div_right (Nat.add_le_add_right (Nat.mul_le_mul_right _ ha) _)
        omega
      rcases List.mem_cons.mp hx with rfl | hx
      · exact key _ (by simp only; omega)
      · exact key _ (by have := (hmem x hx).2; omega)
    · refine Nat.lt_of_le_of_lt ?_ hn
      rw [hitem]
      obtain ⟨z, hz⟩ := Nat.le.dest hdur
      rw [← hz]
      exact reading_mono _ _ _ _ _
  · obtain ⟨m', hm'⟩ : ∃ m, y = m + 1 := ⟨y - 1, by omega⟩
    rw [pairLevels_append]
    simp only [pairLevels, List.flatMap_cons, List.flatMap_nil, List.append_nil, hm', List.replicate_succ',
      ← List.append_assoc, List.getLastD_concat]

/-- **C101** for RC6: a new sender, its first command, and a module that swallows marks of fewer than `r` ticks (two or
more, and no more than a half-bit).  All commands are reported: no transmission ends with a one-tick mark. -/
theorem C101_rc6 (t : Target) (hus : 16 ≤ t.usizeBits) (fs : Nat) (hfs : 46000 ≤ fs) (hhi : fs ≤ 9673349)
    (f : Nat) (hle : fs ≤ f) (hf : f < 2 ^ 32) (tbl : PulseSpans)
    (htbl : rc6Spans t Mono.u32 f = some tbl) (hc : coversRc6 tbl f 5 = true) (conv : Rc6Command → K)
    (cmd : Rc6Command) (size : Nat) (hsize : 44 ≤ size) (en : Bool) :
    ∃ l s', rc6Data fs = some l ∧ (Sender.new size en).load (rc6Encode l cmd) = some s' ∧
      ∀ r, 2 ≤ r → r ≤ l → ∀ ticks, 52 * l + size < ticks → ∀ pause phase n, phase < fs →
        16000 * fs ≤ 1000000 * pause → reading fs f phase (pause + ticks) + 1 < 2 ^ 32 →
        reading fs f phase (pause + ticks) < n →
        (pollRun (rc6Decoder t tbl) conv (overhear fs f phase pause (swallow r 0 (s'.pins ticks)) n)).map said =
          some (oks [conv cmd]) := by
  have hdata : rc6Data fs = some (444 * fs / 1000000) := if_pos (by omega)
  obtain ⟨-, hw, h44⟩ := C38_rc6_encode fs _ hdata cmd
  have hpos := rc6_wave_pos fs (by omega) hhi cmd
  have hsum := rc6_wave_sum (444 * fs / 1000000) cmd
  have hunits := rc6_wave_units (444 * fs / 1000000) (cmd.addr ++ cmd.cmd) cmd.toggle
  have hframe := rc6_wave_frame_of (fun x n => Near fs 5 (444 * n) x) (444 * fs / 1000000)
    ⟨rc6_ticks_near hfs rfl _, rc6_ticks_near hfs rfl _, rc6_ticks_near hfs rfl _, rc6_ticks_near hfs rfl _⟩
    (cmd.addr ++ cmd.cmd) cmd.toggle
  have hgrow : ∀ x ∈ (rc6Wave (444 * fs / 1000000) (cmd.addr ++ cmd.cmd) cmd.toggle).tail, 444 * fs / 1000000 ≤ x := by
    intro x hx
    obtain ⟨u, hu, -⟩ := hunits x (List.mem_of_mem_tail hx)
    have := (hpos x hx).1
    rw [hu] at this ⊢
    cases u with
    | zero => simp at this
    | succ u => exact Nat.le_mul_of_pos_left _ (Nat.succ_pos u)
  rw [rc6Wave_cons] at hw h44
  generalize hl : 444 * fs / 1000000 = l at *
  have hl0 : 2 ≤ l := by omega
  generalize (rc6Wave l (cmd.addr ++ cmd.cmd) cmd.toggle).tail = ds at *
  obtain ⟨hs1, hs2⟩ := hsum
  have hodd : ds.length % 2 = 1 := by simpa using hs2
  have hs3 : ds.sum ≤ 52 * l := by
    rw [hs1]
    exact Nat.mul_le_mul_right _ (by cases cmd.cmd.getLsbD 0 <;> decide)
  clear hs1 hs2
  rw [List.length_cons] at h44
  have hbuf : (Sender.new size en).buffer.ptb.buf = List.replicate size 0 := rfl
  have hload := hw (Sender.new size en).buffer.ptb.buf
  rw [hbuf, List.length_cons, List.length_replicate, if_pos (by omega), List.drop_replicate] at hload
  obtain ⟨s', l1, -, -, -, l5⟩ := load_idle (s := Sender.new size en) (enc := rc6Encode l cmd) rfl (by rw [hbuf]; exact hload) (by
    intro d hd
    rcases List.mem_append.mp hd with hd | hd
    · rcases List.mem_cons.mp hd with rfl | hd
      · decide
      · exact (hpos d hd).2
    · rw [List.eq_of_mem_replicate hd]; decide)
  refine ⟨l, s', hdata, l1, fun r hr hrl ticks hticks pause phase n hphase hpause hmax hn => ?_⟩
  generalize hk : size - (ds.length + 1) = k at *
  have hlen' := held_zeros_length k ds true (fun x hx => (hpos x hx).1)
  have hpins : s'.pins ticks = heldLevels true (ds ++ List.replicate k 0) ++
      List.replicate (ticks - (ds.sum + k + 1)) false := by
    rw [pins_sending l5]
    change ((heldLevels true (ds ++ List.replicate k 0)) ++ _).take ticks = _
    rw [List.take_append, List.take_of_length_le (by omega), List.take_replicate, hlen']
    congr 2
    omega
  obtain ⟨A, h, y, a1, a2, a3, a4, a5⟩ := swallow_wave hr k (ticks - (ds.sum + k + 1)) (by omega)
    ds (fun x hx => Nat.le_trans hrl (hgrow x hx)) (by rintro rfl; cases hodd)
  have hlev := swallow_length r 0 (s'.pins ticks)
  rw [hpins, a4] at *
  have hle' : (pairLevels (A ++ [(h, y)])).length = ticks := by
    rw [hlev, List.length_append, hlen', List.length_replicate]
    omega
  have hedges : edgesFrom false 0 (List.replicate pause false ++ pairLevels (A ++ [(h, y)])) =
      (true, pause) :: alternating false ds := by
    rw [edgesFrom_replicate, Nat.zero_add, pair_edges A a3 h y pause a1 a2, a5, if_neg (by omega)]
  have hdur := edges_duration (List.replicate pause false ++ pairLevels (A ++ [(h, y)])) false 0
  rw [List.length_append, hle', List.length_replicate, Nat.zero_add] at hdur
  obtain ⟨evs, extra, f1, f2, f3⟩ := hframe pause
  obtain ⟨tail, htail⟩ : ∃ tail, evs ++ extra = withTail evs tail := by
    rcases f3 with rfl | ⟨d, rfl⟩
    · exact ⟨none, by simp [withTail]⟩
    · exact ⟨some d, by simp [withTail]⟩
  have hhead : evs.head? = some (true, pause) := by
    cases evs with
    | nil =>
      obtain ⟨_, _, _, _, h0, _⟩ := f2
      cases h0
    | cons e evs =>
      rw [List.cons_append] at f1
      rw [List.head?_cons, (List.cons.inj f1).1]
  have hitem : ([((cmd, (rc6Edges (cmd.addr ++ cmd.cmd) cmd.toggle).length), evs, tail)] :
      List ((Rc6Command × Nat) × List (Bool × Nat) × Option Nat)).flatMap
        (fun i => withTail i.2.1 i.2.2) = edgesFrom false 0 (List.replicate pause false ++ pairLevels (A ++ [(h, y)])) := by
    rw [hedges, f1, htail]; simp
  rw [overhear, looked_polled (by omega) hphase _ ?_, ← hitem]
  · rw [C88_rc6_polled t hus f 5 (by omega) hf tbl htbl hc conv fs (by omega) phase _ ?_ ?_ ?_ ?_ n ?_]
    · have : rc6Whole (cmd, (rc6Edges (cmd.addr ++ cmd.cmd) cmd.toggle).length) = true := by
        rw [rc6Whole, decide_eq_true_eq]
      rw [List.filter_cons_of_pos (by exact this), List.filter_nil]
      rfl
    · intro i hi
      rw [List.mem_singleton] at hi
      subst hi
      refine ⟨?_, ?_, fun h => absurd h (Nat.lt_irrefl _)⟩
      · rw [List.take_length]
        exact f2
      · intro e he
        rw [hhead] at he
        cases he
        exact hpause
    · rw [hitem]
      exact edgesFrom_changes _ _ _
    · intro x hx
      rw [hitem, hedges, List.tail_cons] at hx
      have := hgrow _ (alternating_mem hx)
      calc fs ≤ 1 * f := by omega
        _ ≤ x.2 * f := Nat.mul_le_mul_right _ (by omega)
    · intro x hx
      rw [hitem, hedges] at hx
      have key : ∀ a, a ≤ pause + ticks → (a * f + phase) / fs + 1 < 2 ^ 32 := by
        intro a ha
        have : (a * f + phase) / fs ≤ reading fs f phase (pause + ticks) :=
          Nat.div_le_div_right (Nat.add_le_add_right (Nat.mul_le_mul_right _ ha) _)
        omega
      rcases List.mem_cons.mp hx with rfl | hx
      · exact key _ (by simp only; omega)
      · refine key _ ?_
        have := mem_le_sum (alternating_mem hx)
        omega
    · refine Nat.lt_of_le_of_lt ?_ hn
      rw [hitem]
      obtain ⟨z, hz⟩ := Nat.le.dest hdur
      rw [← hz]
      exact reading_mono _ _ _ _ _
  · obtain ⟨m', hm'⟩ : ∃ m, y = m + 1 := ⟨y - 1, by omega⟩
    rw [pairLevels_append]
    simp only [pairLevels, List.flatMap_cons, List.flatMap_nil, List.append_nil, hm', List.replicate_succ',
      ← List.append_assoc, List.getLastD_concat]

/-! ## Non-vacuity -/

/-- RC5 at 20 kHz, a module that swallows marks of fewer than 17 ticks: command 2 is reported, command 3 is not. -/
example (t : Target) (hus : 16 ≤ t.usizeBits) :
    ∃ l s2 s3, rc5CalcFreq 20000 = some l ∧
      (Sender.new 128 false).load (rc5Encode t l ⟨5, 2, 3, false⟩) = some s2 ∧
      (Sender.new 128 false).load (rc5Encode t l ⟨5, 3, 3, false⟩) = some s3 ∧
      (pollRun (rc5Decoder t (rc5Table 20000)) id (overhear 20000 20000 0 400 (swallow l 0 (s2.pins 2000)) 2401)).map said =
        some (oks [⟨5, 2, 3, false⟩]) ∧
      (pollRun (rc5Decoder t (rc5Table 20000)) id (overhear 20000 20000 0 400 (swallow l 0 (s3.pins 2000)) 2401)).map said =
        some [] := by
  have hl : rc5CalcFreq 20000 = some 17 := by decide +kernel
  obtain ⟨l, s2, h1, h2, h3⟩ := C101_rc5 t hus 20000 (.inr (by decide)) 20000 (by decide) (by decide) (rc5Table 20000)
    (rc5Spans_eq (.inl rfl) t (by decide)) (by decide +kernel) id ⟨5, 2, 3, false⟩ (by decide) (by decide) (by decide)
    128 (by decide) false
  obtain ⟨l', s3, g1, g2, g3⟩ := C101_rc5 t hus 20000 (.inr (by decide)) 20000 (by decide) (by decide) (rc5Table 20000)
    (rc5Spans_eq (.inl rfl) t (by decide)) (by decide +kernel) id ⟨5, 3, 3, false⟩ (by decide) (by decide) (by decide)
    128 (by decide) false
  rw [hl] at h1 g1
  cases h1
  cases g1
  exact ⟨17, s2, s3, hl, h2, g2,
    h3 17 (by decide) (by decide) 2000 (by decide) 400 0 2401 (by decide) (by decide) (by decide) (by decide),
    g3 17 (by decide) (by decide) 2000 (by decide) 400 0 2401 (by decide) (by decide) (by decide) (by decide)⟩

/-- RC6 at 80 kHz, a module that swallows marks of fewer than 35 ticks: any command is reported. -/
example (t : Target) (hus : 16 ≤ t.usizeBits) (cmd : Rc6Command) :
    ∃ s', (Sender.new 128 false).load (rc6Encode 35 cmd) = some s' ∧
      (pollRun (rc6Decoder t (rc6Table 80000)) id (overhear 80000 80000 0 1600 (swallow 35 0 (s'.pins 4000)) 5601)).map said =
        some (oks [cmd]) := by
  have hl : rc6Data 80000 = some 35 := by decide +kernel
  obtain ⟨l, s', h1, h2, h3⟩ := C101_rc6 t hus 80000 (by decide) (by decide) 80000 (by decide) (by decide) (rc6Table 80000)
    (rc6Spans_eq (.inl rfl) t (by decide)) (by decide +kernel) id cmd 128 (by decide) false
  rw [hl] at h1
  cases h1
  exact ⟨s', h2, h3 35 (by decide) (by decide) 4000 (by decide) 1600 0 5601 (by decide) (by decide) (by decide) (by decide)⟩

end Infrared
