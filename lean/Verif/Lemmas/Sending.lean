import Verif.Spec.Sending
import Verif.Spec.Drivers

/-!
# Lemmas about the sender
-/

namespace Infrared

open Spec

/-- The sender shows level `level` since `e` ticks and still has the durations `ds`. -/
structure Sending (s : Sender) (level : Bool) (e : Nat) (ds : List Nat) : Prop where
  rest : s.buffer.ptb.buf.drop s.buffer.pos = ds
  status : s.buffer.status = .transmit level ∨ (level = false ∧ s.buffer.status = .idle)
  since : (2 ^ 32 + s.counter - s.buffer.tsLastedge) % 2 ^ 32 = e
  cnt : s.counter < 2 ^ 32
  ts : s.buffer.tsLastedge < 2 ^ 32
  small : ∀ d ∈ ds, d < 2 ^ 32
  le : ∀ d ds', ds = d :: ds' → e ≤ max d 1

theorem drop_get {l : List Nat} {i d : Nat} {ds : List Nat} (h : l.drop i = d :: ds) :
    l[i]? = some d ∧ l.drop (i + 1) = ds := by
  constructor
  · have := List.getElem?_drop (xs := l) (i := i) (j := 0)
    rw [h] at this
    simpa using this.symm
  · rw [← List.drop_drop, h]; rfl

theorem tick_wait {s : Sender} {level : Bool} {e d : Nat} {ds : List Nat}
    (h : Sending s level e (d :: ds)) (hlt : e < d) :
    Sending s.tick level (e + 1) (d :: ds) ∧ s.tick.pinEnabled = level ∧
      s.tick.buffer.status = s.buffer.status := by
  obtain ⟨hr, hst, hs, hc, ht, hsm, hle⟩ := h
  obtain ⟨hg, -⟩ := drop_get hr
  have hd := hsm d (by simp)
  have htick : s.buffer.tick s.counter = (s.buffer, s.buffer.status) := by
    unfold PulsedataSender.tick PulsedataBuffer.get wrappingSub
    rw [hg, hs]
    simp only [if_neg (show ¬ e ≥ d by omega)]
  have hS : s.tick = { s with
      counter := wrappingAdd 32 s.counter 1, pinEnabled := level } := by
    unfold Sender.tick
    rw [htick]
    rcases hst with h | ⟨rfl, h⟩ <;> rw [h]
    · cases level <;> rfl
  rw [hS]
  refine ⟨⟨hr, hst, ?_, ?_, ht, hsm, ?_⟩, rfl, rfl⟩
  · simp only [wrappingAdd]
    omega
  · simp only [wrappingAdd]
    omega
  · intro d' ds' heq
    cases heq
    omega

theorem tick_toggle {s : Sender} {level : Bool} {e d : Nat} {ds : List Nat}
    (h : Sending s level e (d :: ds)) (hge : d ≤ e) :
    Sending s.tick (!level) 1 ds ∧ s.tick.pinEnabled = !level ∧
      s.tick.buffer.status = .transmit (!level) := by
  obtain ⟨hr, hst, hs, hc, ht, hsm, hle⟩ := h
  obtain ⟨hg, hd⟩ := drop_get hr
  have htick : s.buffer.tick s.counter = ({ s.buffer with
      status := .transmit (!level), pos := s.buffer.pos + 1, tsLastedge := s.counter },
      .transmit (!level)) := by
    unfold PulsedataSender.tick PulsedataBuffer.get wrappingSub
    rw [hg, hs]
    simp only [if_pos (show e ≥ d by omega)]
    rcases hst with h | ⟨rfl, h⟩ <;> rw [h]
    · cases level <;> rfl
    · rfl
  have hS : s.tick = { s with
      buffer := { s.buffer with
        status := .transmit (!level), pos := s.buffer.pos + 1, tsLastedge := s.counter }
      counter := wrappingAdd 32 s.counter 1, pinEnabled := !level } := by
    unfold Sender.tick
    rw [htick]
    cases level <;> rfl
  rw [hS]
  refine ⟨⟨hd, .inl rfl, ?_, ?_, hc, fun x hx => hsm x (by simp [hx]), ?_⟩, rfl, rfl⟩
  · simp only [wrappingAdd]
    omega
  · simp only [wrappingAdd]
    omega
  · intro d' ds' _
    omega

/-- Nothing left: off for good. -/
theorem tick_end {s : Sender} (h : s.buffer.ptb.buf.drop s.buffer.pos = []) :
    s.tick.buffer.ptb.buf.drop s.tick.buffer.pos = [] ∧ s.tick.pinEnabled = false ∧
      s.tick.buffer.status = .idle := by
  have hg : s.buffer.ptb.buf[s.buffer.pos]? = none := by
    rw [List.drop_eq_nil_iff] at h
    exact List.getElem?_eq_none h
  have htick : s.buffer.tick s.counter = ({ s.buffer with status := .idle }, .idle) := by
    unfold PulsedataSender.tick PulsedataBuffer.get
    rw [hg]
  unfold Sender.tick
  rw [htick]
  exact ⟨h, rfl, rfl⟩

theorem pins_end {s : Sender} (h : s.buffer.ptb.buf.drop s.buffer.pos = []) (n : Nat) :
    s.pins n = List.replicate n false ∧
    (0 < n → (s.ticks n).buffer.status = .idle) := by
  induction n generalizing s with
  | zero => exact ⟨rfl, by simp⟩
  | succ n ih =>
    obtain ⟨h1, h2, h3⟩ := tick_end h
    obtain ⟨i1, i2⟩ := ih h1
    refine ⟨by rw [Sender.pins, h2, i1, List.replicate_succ], fun _ => ?_⟩
    rw [Sender.ticks]
    rcases n with _ | n
    · exact h3
    · exact i2 (by omega)

/-- What is still to come, given how long the present level has lasted. -/
def remaining (level : Bool) (e : Nat) : List Nat → List Bool
  | [] => []
  | d :: ds => List.replicate (d - e) level ++ heldLevels (!level) ds

theorem heldLevels_cons (level : Bool) (ds : List Nat) :
    heldLevels level ds = level :: remaining level 1 ds := by
  cases ds with
  | nil => rfl
  | cons d ds =>
    rw [heldLevels, remaining]
    rcases d with _ | d
    · rfl
    · rw [show max (d + 1) 1 = d + 1 by omega, List.replicate_succ]
      rfl

theorem take_pad (l : List Bool) (n : Nat) :
    (l ++ List.replicate (n + 1) false).take n = (l ++ List.replicate n false).take n := by
  rw [List.replicate_succ', ← List.append_assoc,
    List.take_append_of_le_length (by simp only [List.length_append, List.length_replicate]; omega)]

/-- Main lemma: the pin states and, after `n` ticks, whether the sender is idle. -/
theorem pins_sending {s : Sender} {level : Bool} {e : Nat} {ds : List Nat}
    (h : Sending s level e ds) (n : Nat) :
    s.pins n = (remaining level e ds ++ List.replicate n false).take n := by
  induction n generalizing s level e ds with
  | zero => rfl
  | succ n ih =>
    cases ds with
    | nil =>
      rw [(pins_end h.rest (n + 1)).1]
      simp [remaining]
    | cons d ds =>
      rw [Sender.pins, remaining]
      by_cases hlt : e < d
      · obtain ⟨h1, h2, -⟩ := tick_wait h hlt
        rw [h2, ih h1, show d - e = (d - (e + 1)) + 1 by omega, List.replicate_succ]
        simp only [remaining, List.cons_append, List.take_succ_cons]
        congr 1
        exact (take_pad _ n).symm
      · obtain ⟨h1, h2, -⟩ := tick_toggle h (by omega)
        rw [h2, ih h1, show d - e = 0 by omega, List.replicate_zero, List.nil_append, heldLevels_cons]
        simp only [List.cons_append, List.take_succ_cons]
        congr 1
        exact (take_pad _ n).symm

/-- During a transmission: idle again exactly after what remains. -/
theorem status_transmit {s : Sender} {level : Bool} {e : Nat} {ds : List Nat}
    (h : Sending s level e ds) (hst : s.buffer.status = .transmit level) (n : Nat) :
    (s.ticks n).buffer.status = .idle ↔ (remaining level e ds).length < n := by
  induction n generalizing s level e ds with
  | zero => simp [Sender.ticks, hst]
  | succ n ih =>
    cases ds with
    | nil =>
      have := (pins_end h.rest (n + 1)).2 (by omega)
      simp [this, remaining]
    | cons d ds =>
      rw [Sender.ticks]
      by_cases hlt : e < d
      · obtain ⟨h1, -, h3⟩ := tick_wait h hlt
        rw [ih h1 (h3.trans hst)]
        simp only [remaining, List.length_append, List.length_replicate]
        omega
      · obtain ⟨h1, -, h3⟩ := tick_toggle h (by omega)
        rw [ih h1 h3, remaining, heldLevels_cons]
        simp only [List.length_append, List.length_replicate, List.length_cons]
        omega

/-- Before the first edge the sender is idle, too. -/
theorem status_start {s : Sender} {e : Nat} {ds : List Nat}
    (h : Sending s false e ds) (hst : s.buffer.status = .idle) (n : Nat) :
    (s.ticks n).buffer.status = .idle ↔
      n ≤ ds.headD 0 - e ∨ (remaining false e ds).length < n := by
  induction n generalizing s e with
  | zero => simp [Sender.ticks, hst]
  | succ n ih =>
    cases ds with
    | nil =>
      have := (pins_end h.rest (n + 1)).2 (by omega)
      simp [this, remaining]
    | cons d ds =>
      rw [Sender.ticks]
      by_cases hlt : e < d
      · obtain ⟨h1, -, h3⟩ := tick_wait h hlt
        rw [ih h1 (h3.trans hst)]
        simp only [remaining, List.length_append, List.length_replicate, List.headD_cons]
        omega
      · obtain ⟨h1, -, h3⟩ := tick_toggle h (by omega)
        rw [status_transmit h1 h3, remaining, heldLevels_cons]
        simp only [List.length_append, List.length_replicate, List.length_cons, List.headD_cons,
          Bool.not_false]
        omega

/-- A successful load of an idle sender. -/
theorem load_idle {s : Sender} (hidle : s.buffer.status = .idle) {enc : Encode} {b : List Nat}
    {n : Nat} (henc : enc s.buffer.ptb.buf = some (b, n)) (hb : ∀ d ∈ b, d < 2 ^ 32) :
    ∃ s', s.load enc = some s' ∧ s'.buffer.ptb.buf = b ∧ s'.pinEnabled = s.pinEnabled ∧
      s'.buffer.status = .idle ∧ Sending s' false 0 b := by
  refine ⟨{ s with
      buffer := { pos := 0, tsLastedge := 0, status := .idle, ptb := { buf := b, offset := 0 + n } }
      counter := 0 }, ?_, rfl, rfl, rfl, ⟨rfl, .inr ⟨rfl, rfl⟩, ?_,
    show 0 < 2 ^ 32 by decide, show 0 < 2 ^ 32 by decide, hb, ?_⟩⟩
  · unfold Sender.load PulsedataSender.loadCommand PulsedataBuffer.load PulsedataSender.reset
      PulsedataBuffer.reset
    simp [hidle, henc]
  · exact (show (2 ^ 32 + 0 - 0) % 2 ^ 32 = 0 by decide)
  · intro d ds _
    omega

theorem load_panic {s : Sender} (hidle : s.buffer.status = .idle) {enc : Encode}
    (henc : enc s.buffer.ptb.buf = none) : s.load enc = none := by
  unfold Sender.load PulsedataSender.loadCommand PulsedataBuffer.load PulsedataSender.reset
    PulsedataBuffer.reset
  simp [hidle, henc]

theorem new_sending (S : Nat) (pin : Bool) :
    Sending (Sender.new S pin) false 0 (List.replicate S 0) :=
  ⟨rfl, .inr ⟨rfl, rfl⟩, show (2 ^ 32 + 0 - 0) % 2 ^ 32 = 0 by decide, show 0 < 2 ^ 32 by decide,
    show 0 < 2 ^ 32 by decide,
    fun d hd => by rw [List.eq_of_mem_replicate hd]; decide, fun _ _ _ => by omega⟩

theorem tick_buf (s : Sender) : s.tick.buffer.ptb = s.buffer.ptb := by
  unfold Sender.tick PulsedataSender.tick
  dsimp only
  split
  · split <;> rfl
  · rfl

theorem ticks_buf (s : Sender) (n : Nat) : (s.ticks n).buffer.ptb = s.buffer.ptb := by
  induction n generalizing s with
  | zero => rfl
  | succ n ih => rw [Sender.ticks, ih, tick_buf]

/-- A run of ticks as calls. -/
theorem calls_ticks (s : Sender) (n : Nat) (cs : List SenderCall) :
    s.calls (List.replicate n .tick ++ cs) =
      ((s.ticks n).calls cs).map fun p => (p.1, s.pins n ++ p.2) := by
  induction n generalizing s with
  | zero => simp [Sender.pins, Sender.ticks]
  | succ n ih =>
    rw [List.replicate_succ, List.cons_append, Sender.calls, ih, Sender.pins, Sender.ticks]
    rcases (s.tick.ticks n).calls cs with _ | p <;> simp

theorem heldLevels_append (level : Bool) (xs ys : List Nat) :
    ∃ l, heldLevels level (xs ++ ys) =
      heldLevels level xs ++ (heldLevels l ys).tail ∧
      l = xor level (xs.length % 2 == 1) := by
  induction xs generalizing level with
  | nil => exact ⟨level, by rw [List.nil_append, heldLevels, heldLevels_cons]; rfl, by simp⟩
  | cons x xs ih =>
    obtain ⟨l, h1, h2⟩ := ih (!level)
    refine ⟨l, ?_, ?_⟩
    · rw [List.cons_append, heldLevels, h1, heldLevels, List.append_assoc]
    · rw [h2, List.length_cons]
      rcases Nat.mod_two_eq_zero_or_one xs.length with h | h
      · rw [h, show (xs.length + 1) % 2 = 1 by omega]; cases level <;> rfl
      · rw [h, show (xs.length + 1) % 2 = 0 by omega]; cases level <;> rfl

/-! ### Sampling a transmission -/

theorem sampledEdges_same (l : Bool) (n k : Nat) (ss : List Bool) :
    sampledEdges l n (List.replicate k l ++ ss) =
      List.replicate k none ++ sampledEdges l (n + k) ss := by
  induction k generalizing n with
  | zero => rfl
  | succ k ih =>
    rw [List.replicate_succ, List.cons_append, sampledEdges, if_pos rfl, ih, List.replicate_succ,
      List.cons_append, show n + 1 + k = n + (k + 1) by omega]

/-- Sampled once per tick, a transmission shows exactly its durations. -/
theorem sampled_held (l : Bool) (n : Nat) (hn : n + 1 < 2 ^ 32) (ds : List Nat)
    (hds : ∀ d ∈ ds, 0 < d ∧ d < 2 ^ 32) :
    (sampledEdges (!l) n (heldLevels l ds)).filterMap id = alternating l ((n + 1) :: ds) := by
  induction ds generalizing l n with
  | nil =>
    rw [heldLevels, sampledEdges, if_neg (by cases l <;> decide), Nat.mod_eq_of_lt hn]
    rfl
  | cons d ds ih =>
    obtain ⟨h0, h1⟩ := hds d (by simp)
    rw [heldLevels_cons, sampledEdges, if_neg (by cases l <;> decide), Nat.mod_eq_of_lt hn, remaining,
      sampledEdges_same]
    have := ih (!l) (0 + (d - 1)) (by omega) fun x hx => hds x (by simp [hx])
    rw [Bool.not_not] at this
    simp only [List.filterMap_cons, id_eq, List.filterMap_append, alternating]
    rw [this]
    have hnone : ∀ k, (List.replicate k (none : Option Ev)).filterMap id = [] := by
      intro k
      induction k with
      | zero => rfl
      | succ k ih => rw [List.replicate_succ, List.filterMap_cons]; exact ih
    rw [hnone, List.nil_append, alternating, Bool.not_not, show 0 + (d - 1) + 1 = d by omega]

theorem placeResults_nones {K : Type} (es : List (Option Ev)) (j : Nat)
    (h : (es.filterMap id).length = j) :
    placeResults es (List.replicate j (.ok none : Res K)) = List.replicate es.length (.ok none) := by
  induction es generalizing j with
  | nil => rfl
  | cons e es ih =>
    rcases e with _ | e
    · rw [placeResults, ih j (by simpa using h)]
      rfl
    · simp only [List.filterMap_cons, id_eq, List.length_cons] at h
      subst h
      rw [List.replicate_succ, placeResults, ih _ rfl]
      rfl

/-- Results with a single report keep it as the single report. -/
theorem placeResults_one {K : Type} (es : List (Option Ev)) (k j : Nat) (x : Res K)
    (h : (es.filterMap id).length = k + 1 + j) :
    ∃ a b, placeResults es (List.replicate k (.ok none) ++ [x] ++ List.replicate j (.ok none)) =
      List.replicate a (.ok none) ++ [x] ++ List.replicate b (.ok none) ∧
      a + 1 + b = es.length := by
  induction es generalizing k with
  | nil => simp at h; omega
  | cons e es ih =>
    rcases e with _ | e
    · obtain ⟨a, b, h1, h2⟩ := ih k (by simpa using h)
      refine ⟨a + 1, b, ?_, by simp; omega⟩
      rw [placeResults.eq_def]
      simp only [h1, List.replicate_succ, List.cons_append]
    · simp only [List.filterMap_cons, id_eq, List.length_cons] at h
      rcases k with _ | k
      · refine ⟨0, es.length, ?_, by simp; omega⟩
        simp only [List.replicate_zero, List.nil_append, List.cons_append]
        rw [placeResults, placeResults_nones es j (by omega)]
      · obtain ⟨a, b, h1, h2⟩ := ih k (by omega)
        refine ⟨a + 1, b, ?_, by simp; omega⟩
        rw [List.replicate_succ, List.cons_append, List.cons_append, placeResults, h1]
        rfl

end Infrared
