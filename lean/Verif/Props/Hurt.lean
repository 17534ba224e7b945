import Verif.Props.HurtRc6
import Verif.Props.NoisyAll

/-!
# Spikes and missing marks in RC5 and RC6 transmissions: polled receivers, commands, limits (C96)
-/

namespace Infrared

open Spec

variable {K : Type}

/-! ## Polled receivers -/

theorem hurt_nonempty {evs : List (Bool × Nat)} (h : evs ≠ []) (tail : Option Nat) : withTail evs tail ≠ [] := by
  cases tail <;> simp [withTail, h]

theorem rc5Hurt_nonempty {u j f : Nat} {s : Rc5Hurt} {evs : List (Bool × Nat)} {tail : Option Nat}
    (h : s.Wire u j f evs tail) : withTail evs tail ≠ [] := by
  cases s with
  | other s => exact wire5_nonempty h
  | spiked w k =>
    obtain ⟨-, -, whole, -, b, x, y, z, -, rfl, -⟩ := h
    exact hurt_nonempty (by simp) tail
  | missing w k =>
    obtain ⟨-, -, whole, -, x, y, z, -, -, -, rfl⟩ := h
    exact hurt_nonempty (by simp) tail

theorem rc6Hurt_nonempty {u j f : Nat} {s : Rc6Hurt} {evs : List (Bool × Nat)} {tail : Option Nat}
    (h : s.Wire u j f evs tail) : withTail evs tail ≠ [] := by
  cases s with
  | other s => exact wire6_nonempty h
  | spiked w k =>
    obtain ⟨-, whole, -, b, x, y, z, -, rfl, -⟩ := h
    exact hurt_nonempty (by simp) tail
  | missing w k =>
    obtain ⟨-, whole, -, x, y, z, -, -, -, rfl⟩ := h
    exact hurt_nonempty (by simp) tail

/-- **C96**, RC5, polled. -/
theorem C96_rc5_polled (t : Target) (hus : 16 ≤ t.usizeBits) (f j : Nat) (hlo : 20000 ≤ f) (hf : f < 2 ^ 32)
    (tbl : PulseSpans) (htbl : rc5Spans t Mono.u32 f = some tbl) (hc : coversAll tbl f j rc5Lengths = true)
    (conv : Rc5Command → K) (u : Nat) (hu : 0 < u) (phase : Nat)
    (items : List (Rc5Hurt × List (Bool × Nat) × Option Nat))
    (hok : ∀ i ∈ items, i.1.Wire u j f i.2.1 i.2.2 ∧ ∀ n, i.1 = .other (.noise n) → NoPanic t n)
    (hch : Changes false (items.flatMap fun i => withTail i.2.1 i.2.2))
    (hmin : ∀ e ∈ (items.flatMap fun i => withTail i.2.1 i.2.2).tail, u ≤ e.2 * f)
    (hmax : ∀ e ∈ items.flatMap fun i => withTail i.2.1 i.2.2, (e.2 * f + phase) / u + 1 < 2 ^ 32)
    (n : Nat) (hn : reading u f phase (duration (items.flatMap fun i => withTail i.2.1 i.2.2)) < n) :
    ∃ rs, (pollRun (rc5Decoder t tbl) conv
        (polled u f phase (items.flatMap fun i => withTail i.2.1 i.2.2) n)).map said = some (rs.map (Res.map conv)) ∧
      Tells rc5HurtAnswer () (items.map fun i => i.1) rs := by
  rcases hl : (items.flatMap fun i => withTail i.2.1 i.2.2) with _ | ⟨⟨b, pause⟩, es⟩
  · cases items with
    | nil => exact ⟨[], polled_pieces (line := []) hu (fun _ => rfl) (fun _ _ _ h => by cases h) trivial (by simp) (by simp) n
        (by rw [← hl]; exact hn), .nil ()⟩
    | cons i items =>
      rw [List.flatMap_cons, List.append_eq_nil_iff] at hl
      exact absurd hl.1 (rc5Hurt_nonempty (hok i (by simp)).1)
  · obtain ⟨rs, h1, h2⟩ := C96_rc5 t hus f j hlo hf Mono.u32 (.inl rfl) tbl htbl hc conv u hu phase items hok b pause es hl 0
      (reading u f phase pause + 1)
    refine ⟨rs, ?_, h2⟩
    rw [hl] at hch hmin hmax hn
    rw [hl, C54_polled_line_long _ conv u hu f phase b pause es hch hmin n hn (hmax (b, pause) (List.mem_cons_self ..))
      fun e he => ?_]
    · rwa [Nat.zero_add] at h1
    · have := hmax e (List.mem_cons_of_mem _ he)
      have h2 : e.2 * f / u ≤ (e.2 * f + phase) / u := Nat.div_le_div_right (by omega)
      omega

/-- **C96**, RC6 (mode 0), polled. -/
theorem C96_rc6_polled (t : Target) (hus : 16 ≤ t.usizeBits) (f j : Nat) (hlo : 20000 ≤ f) (hf : f < 2 ^ 32)
    (tbl : PulseSpans) (htbl : rc6Spans t Mono.u32 f = some tbl) (hc : coversRc6 tbl f j = true)
    (conv : Rc6Command → K) (u : Nat) (hu : 0 < u) (phase : Nat)
    (items : List (Rc6Hurt × List (Bool × Nat) × Option Nat))
    (hok : ∀ i ∈ items, i.1.Wire u j f i.2.1 i.2.2 ∧ ∀ n, i.1 = .other (.noise n) → NoPanic t n)
    (hch : Changes false (items.flatMap fun i => withTail i.2.1 i.2.2))
    (hmin : ∀ e ∈ (items.flatMap fun i => withTail i.2.1 i.2.2).tail, u ≤ e.2 * f)
    (hmax : ∀ e ∈ items.flatMap fun i => withTail i.2.1 i.2.2, (e.2 * f + phase) / u + 1 < 2 ^ 32)
    (n : Nat) (hn : reading u f phase (duration (items.flatMap fun i => withTail i.2.1 i.2.2)) < n) :
    ∃ rs, (pollRun (rc6Decoder t tbl) conv
        (polled u f phase (items.flatMap fun i => withTail i.2.1 i.2.2) n)).map said = some (rs.map (Res.map conv)) ∧
      Tells rc6HurtAnswer () (items.map fun i => i.1) rs := by
  rcases hl : (items.flatMap fun i => withTail i.2.1 i.2.2) with _ | ⟨⟨b, pause⟩, es⟩
  · cases items with
    | nil => exact ⟨[], polled_pieces (line := []) hu (fun _ => rfl) (fun _ _ _ h => by cases h) trivial (by simp) (by simp) n
        (by rw [← hl]; exact hn), .nil ()⟩
    | cons i items =>
      rw [List.flatMap_cons, List.append_eq_nil_iff] at hl
      exact absurd hl.1 (rc6Hurt_nonempty (hok i (by simp)).1)
  · obtain ⟨rs, h1, h2⟩ := C96_rc6 t hus f j hlo hf Mono.u32 (.inl rfl) tbl htbl hc conv u hu phase items hok b pause es hl 0
      (reading u f phase pause + 1)
    refine ⟨rs, ?_, h2⟩
    rw [hl] at hch hmin hmax hn
    rw [hl, C54_polled_line_long _ conv u hu f phase b pause es hch hmin n hn (hmax (b, pause) (List.mem_cons_self ..))
      fun e he => ?_]
    · rwa [Nat.zero_add] at h1
    · have := hmax e (List.mem_cons_of_mem _ he)
      have h2 : e.2 * f / u ≤ (e.2 * f + phase) / u := Nat.div_le_div_right (by omega)
      omega

/-! ## No wrong command -/

/-- The command of a transmission, disturbed or not. -/
def Spec.Rc5Hurt.sent : Rc5Hurt → List Rc5Command
  | .other (.sent w _) => [Rc5Command.unpack (w.setWidth 16)]
  | .other (.noise _) => []
  | .spiked w _ => [Rc5Command.unpack (w.setWidth 16)]
  | .missing w _ => [Rc5Command.unpack (w.setWidth 16)]

/-- The command of a transmission that is complete and has no spike after its first edge. -/
def Spec.Rc5Hurt.clear : Rc5Hurt → List Rc5Command
  | .other (.sent w k) => if (rc5Edges w).length ≤ k then [Rc5Command.unpack (w.setWidth 16)] else []
  | .other (.noise _) => []
  | .spiked w k => if k = 0 then [Rc5Command.unpack (w.setWidth 16)] else []
  | .missing _ _ => []

/-- **C96**, RC5: no wrong command, none twice and none out of order; no command of a transmission that is not disturbed is
lost. -/
theorem C96_rc5_commands (l : List Rc5Hurt) (hn : ∀ n, .other (.noise n) ∈ l → n < 14) (rs : List (Res Rc5Command))
    (h : Tells rc5HurtAnswer () l rs) :
    ∃ cs, rs = oks cs ∧ (l.flatMap Rc5Hurt.clear).Sublist cs ∧ cs.Sublist (l.flatMap Rc5Hurt.sent) := by
  generalize () = st at h
  induction h with
  | nil => exact ⟨[], rfl, .slnil, .slnil⟩
  | @cons st st' s ss r rs h _ ih =>
    obtain ⟨cs, rfl, h1, h2⟩ := ih fun n hs => hn n (by simp [hs])
    have key : ∃ c, r = oks c ∧ s.clear.Sublist c ∧ c.Sublist s.sent := by
      cases h with
      | other s r h =>
        cases h with
        | whole w k h => exact ⟨_, rfl, by rw [Rc5Hurt.clear, if_pos h]; exact .refl _, .refl _⟩
        | part w k h => exact ⟨[], rfl, by rw [Rc5Hurt.clear, if_neg (by omega)]; exact .slnil, List.nil_sublist _⟩
        | noise n cs h =>
          have := hn n (by simp)
          have : cs = [] := List.length_eq_zero_iff.mp (by omega)
          subst this
          exact ⟨[], rfl, .slnil, .slnil⟩
      | heard w k h =>
        refine ⟨_, rfl, ?_, .refl _⟩
        rw [Rc5Hurt.clear]
        split
        · exact .refl _
        · exact List.nil_sublist _
      | lost w k h => exact ⟨[], rfl, by rw [Rc5Hurt.clear, if_neg h]; exact .slnil, List.nil_sublist _⟩
      | missing w k => exact ⟨[], rfl, .slnil, List.nil_sublist _⟩
    obtain ⟨c, rfl, h3, h4⟩ := key
    exact ⟨c ++ cs, by simp [oks], by rw [List.flatMap_cons]; exact h3.append h1, by
      rw [List.flatMap_cons]; exact h4.append h2⟩

/-- The command of a transmission, disturbed or not. -/
def Spec.Rc6Hurt.sent : Rc6Hurt → List Rc6Command
  | .other (.sent c _) => [c]
  | .other (.noise _) => []
  | .spiked c _ => [c]
  | .missing c _ => [c]

/-- The command of a transmission that is complete and has no spike after its first edge. -/
def Spec.Rc6Hurt.clear : Rc6Hurt → List Rc6Command
  | .other (.sent c k) => if (rc6Edges (c.addr ++ c.cmd) c.toggle).length ≤ k then [c] else []
  | .other (.noise _) => []
  | .spiked c k => if k = 0 then [c] else []
  | .missing _ _ => []

/-- **C96**, RC6: no wrong command, none twice and none out of order; no command of a transmission that is not disturbed is
lost. -/
theorem C96_rc6_commands (l : List Rc6Hurt) (hn : ∀ n, .other (.noise n) ∈ l → n < 24) (rs : List (Res Rc6Command))
    (h : Tells rc6HurtAnswer () l rs) :
    ∃ cs, rs = oks cs ∧ (l.flatMap Rc6Hurt.clear).Sublist cs ∧ cs.Sublist (l.flatMap Rc6Hurt.sent) := by
  generalize () = st at h
  induction h with
  | nil => exact ⟨[], rfl, .slnil, .slnil⟩
  | @cons st st' s ss r rs h _ ih =>
    obtain ⟨cs, rfl, h1, h2⟩ := ih fun n hs => hn n (by simp [hs])
    have key : ∃ c, r = oks c ∧ s.clear.Sublist c ∧ c.Sublist s.sent := by
      cases h with
      | other s r h =>
        cases h with
        | whole c k h => exact ⟨_, rfl, by rw [Rc6Hurt.clear, if_pos h]; exact .refl _, .refl _⟩
        | part c k h => exact ⟨[], rfl, by rw [Rc6Hurt.clear, if_neg (by omega)]; exact .slnil, List.nil_sublist _⟩
        | noise n cs h =>
          have := hn n (by simp)
          have : cs = [] := List.length_eq_zero_iff.mp (by omega)
          subst this
          exact ⟨[], rfl, .slnil, .slnil⟩
      | heard c k h =>
        refine ⟨_, rfl, ?_, .refl _⟩
        rw [Rc6Hurt.clear]
        split
        · exact .refl _
        · exact List.nil_sublist _
      | lost c k h => exact ⟨[], rfl, by rw [Rc6Hurt.clear, if_neg h]; exact .slnil, List.nil_sublist _⟩
      | missing c k => exact ⟨[], rfl, .slnil, List.nil_sublist _⟩
    obtain ⟨c, rfl, h3, h4⟩ := key
    exact ⟨c ++ cs, by simp [oks], by rw [List.flatMap_cons]; exact h3.append h1, by
      rw [List.flatMap_cons]; exact h4.append h2⟩

/-! ## A spike that is too short -/

/-- The edges in nanoseconds. -/
def nano (unit : Nat) (es : List (Bool × Nat)) : List (Bool × Nat) := es.map fun e => (e.1, 1000 * (unit * e.2))

theorem nano_timed (j unit : Nat) (es : List (Bool × Nat)) :
    Timed (fun x n => Near 1000000000 j (unit * n) x) (nano unit es) es := by
  induction es with
  | nil => trivial
  | cons e es ih =>
    refine ⟨rfl, ?_, ih⟩
    dsimp only
    generalize unit * e.2 = l
    have h1 : (100 - j) * l * 1000000000 ≤ 100 * l * 1000000000 := Nat.mul_le_mul_right _ (Nat.mul_le_mul_right _ (by omega))
    have h2 : 100 * l * 1000000000 ≤ (100 + j) * l * 1000000000 := Nat.mul_le_mul_right _ (Nat.mul_le_mul_right _ (by omega))
    have h3 : 100 * l * 1000000000 = 100000000 * (1000 * l) := by omega
    exact ⟨Nat.le_trans h1 (Nat.le_of_eq h3), Nat.le_trans (Nat.le_of_eq h3.symm) h2⟩

/-- A transmission in nanoseconds, after a pause of 20 ms. -/
def after20 (unit : Nat) (edges : List (Bool × Nat)) : List (Bool × Nat) := (true, 20000000) :: nano unit edges.tail

theorem after20_complete (j unit n : Nat) (edges r : List (Bool × Nat)) (h : edges = (true, n) :: r) :
    Complete 1000000000 j unit edges (after20 unit edges) none := by
  subst h
  exact ⟨⟨20000000, n, _, _, rfl, rfl, nano_timed ..⟩, fun x hx => by cases hx⟩

/-- The interval before edge `k` with a spike, `x` nanoseconds after its beginning and of `y` nanoseconds. -/
def withSpike (whole : List (Bool × Nat)) (k x y : Nat) : List (Bool × Nat) :=
  match whole[k]? with
  | some (b, d) => whole.take k ++ (b, x) :: (!b, y) :: (b, d - x - y) :: whole.drop (k + 1)
  | none => whole

/-- The limits of `Spiked` matter: the first edge of an RC5 transmission (address 5, command 10) bounces; 10 microseconds
after it the line is low for 10 microseconds.  A clock of 40 kHz does not see the time between these edges, and the receiver
takes each of the two intervals for three half-bits: the first bit counts twice, and a wrong command is heard. -/
theorem C96_short_spike_wrong :
    Complete 1000000000 0 889 (rc5Edges 0x314A) (after20 889 (rc5Edges 0x314A)) none ∧
    (∃ b x y z, (after20 889 (rc5Edges 0x314A))[1]? = some (b, x + y + z) ∧
      withSpike (after20 889 (rc5Edges 0x314A)) 1 10000 10000 =
        (after20 889 (rc5Edges 0x314A)).take 1 ++ (b, x) :: (!b, y) :: (b, z) :: (after20 889 (rc5Edges 0x314A)).drop 2 ∧
      1000000 * y ≤ 600 * 1000000000 ∧ y * 40000 < 1000000000) ∧
    After16 1000000000 (withSpike (after20 889 (rc5Edges 0x314A)) 1 10000 10000) ∧
    (results (rc5Decoder ⟨true, 32⟩ (rc5Table 40000)) id
      ((true, 1000) :: clocked 1000000000 40000 0 (0 + 20000000)
        (withSpike (after20 889 (rc5Edges 0x314A)) 1 10000 10000).tail)).map said =
          some (oks [Rc5Command.unpack 0x38A5]) ∧ Rc5Command.unpack 0x38A5 ≠ Rc5Command.unpack 0x314A :=
  ⟨after20_complete _ _ _ _ _ (rc5Edges_eq 0x314A (by decide)),
    ⟨false, 10000, 10000, 869000, by decide +kernel, by decide +kernel, by decide, by decide⟩,
    fun e he => by cases he; decide, by decide +kernel, by decide +kernel⟩

/-! ## Non-vacuity -/

theorem after20_spiked {f us : Nat} {whole : List (Bool × Nat)} {k x y z : Nat} {b : Bool} (hk : whole[k]? = some (b, x + y + z))
    (hx : 1000000000 ≤ x * f) (hy : 1000000000 ≤ y * f) (hz : 1000000000 ≤ z * f) (hu : 1000000 * y ≤ us * 1000000000) :
    Spiked 1000000000 f us whole k (withSpike whole k x y) := by
  refine ⟨b, x, y, z, hk, ?_, hx, hy, hz, hu⟩
  rw [withSpike, hk]
  dsimp only
  rw [show x + y + z - x - y = z by omega]

/-- Without the mark that begins with edge `k`. -/
def withoutMark (whole : List (Bool × Nat)) (k : Nat) : List (Bool × Nat) :=
  whole.take k ++ (true, ((whole.drop k).take 3).map Prod.snd |>.sum) :: whole.drop (k + 3)

/-- RC5: a transmission without one of its marks, one with a spike in it and one that is not disturbed.  At least the last
is heard. -/
example (t : Target) (hus : 16 ≤ t.usizeBits) (phase g : Nat) :
    ∃ cs, (results (rc5Decoder t (rc5Table 40000)) id ((true, g) :: clocked 1000000000 40000 phase (0 + 20000000)
        (((withoutMark (after20 889 (rc5Edges 0x314A)) 4) ++ withSpike (after20 889 (rc5Edges 0x314A)) 9 300000 200000 ++
          after20 889 (rc5Edges 0x314A)).tail))).map said = some ((oks cs).map (Res.map id)) ∧
      [Rc5Command.unpack 0x314A].Sublist cs ∧ cs.Sublist [Rc5Command.unpack 0x314A, Rc5Command.unpack 0x314A, Rc5Command.unpack 0x314A] := by
  have hcomp : Complete 1000000000 5 889 (rc5Edges 0x314A) (after20 889 (rc5Edges 0x314A)) none :=
    after20_complete _ _ _ _ _ (rc5Edges_eq 0x314A (by decide))
  obtain ⟨rs, h1, h2⟩ := C96_rc5 t hus 40000 5 (by decide) (by decide) Mono.u32 (.inl rfl) (rc5Table 40000)
    (rc5Spans_eq (.inl rfl) t (by decide)) (by decide +kernel) id 1000000000 (by decide) phase
    [(.missing 0x314A 4, withoutMark (after20 889 (rc5Edges 0x314A)) 4, none),
      (.spiked 0x314A 9, withSpike (after20 889 (rc5Edges 0x314A)) 9 300000 200000, none),
      (.other (.sent 0x314A 60), after20 889 (rc5Edges 0x314A), none)] (by
      intro i hi
      simp only [List.mem_cons, List.not_mem_nil, or_false] at hi
      rcases hi with rfl | rfl | rfl
      · exact ⟨⟨by decide, fun e he => by cases he; decide, _, hcomp, _, _, _, rfl, rfl, rfl, rfl⟩, fun n h => by cases h⟩
      · exact ⟨⟨by decide, fun e he => by cases he; decide, _, hcomp,
          after20_spiked (b := false) (z := 1278000) (by decide +kernel) (by decide) (by decide) (by decide) (by decide)⟩,
          fun n h => by cases h⟩
      · refine ⟨⟨by decide, ?_, fun e he => by cases he; decide, fun h => absurd h (by decide +kernel)⟩, fun n h => by cases h⟩
        exact hcomp.1)
    true 20000000 _ (by simp only [List.flatMap_cons, List.flatMap_nil, withTail, List.append_nil]; rfl) 0 g
  obtain ⟨cs, rfl, h3, h4⟩ := C96_rc5_commands _ (fun n h => by simp at h) rs h2
  refine ⟨cs, h1, ?_, ?_⟩
  · exact h3
  · exact h4

/-- RC6: a transmission without one of its marks, one with a spike in it and one that is not disturbed.  At least the last
is heard. -/
example (t : Target) (hus : 16 ≤ t.usizeBits) (phase g : Nat) :
    ∃ cs, (results (rc6Decoder t (rc6Table 80000)) id ((true, g) :: clocked 1000000000 80000 phase (0 + 20000000)
        (((withoutMark (after20 444 (rc6Edges 0x045D true)) 10) ++ withSpike (after20 444 (rc6Edges 0x045D true)) 5 100000 150000 ++
          after20 444 (rc6Edges 0x045D true)).tail))).map said = some ((oks cs).map (Res.map id)) ∧
      [⟨0x04, 0x5D, true⟩].Sublist cs ∧ cs.Sublist [⟨0x04, 0x5D, true⟩, ⟨0x04, 0x5D, true⟩, ⟨0x04, 0x5D, true⟩] := by
  have hcomp : Complete 1000000000 5 444 (rc6Edges 0x045D true) (after20 444 (rc6Edges 0x045D true)) none :=
    after20_complete _ _ _ _ _ (rc6Edges_eq 0 (.inl rfl) 0x045D true)
  obtain ⟨rs, h1, h2⟩ := C96_rc6 t hus 80000 5 (by decide) (by decide) Mono.u32 (.inl rfl) (rc6Table 80000)
    (rc6Spans_eq (.inl rfl) t (by decide)) (by decide +kernel) id 1000000000 (by decide) phase
    [(.missing ⟨0x04, 0x5D, true⟩ 10, withoutMark (after20 444 (rc6Edges 0x045D true)) 10, none),
      (.spiked ⟨0x04, 0x5D, true⟩ 5, withSpike (after20 444 (rc6Edges 0x045D true)) 5 100000 150000, none),
      (.other (.sent ⟨0x04, 0x5D, true⟩ 60), after20 444 (rc6Edges 0x045D true), none)] (by
      intro i hi
      simp only [List.mem_cons, List.not_mem_nil, or_false] at hi
      rcases hi with rfl | rfl | rfl
      · exact ⟨⟨fun e he => by cases he; decide, _, hcomp, _, _, _, rfl, rfl, rfl, rfl⟩, fun n h => by cases h⟩
      · exact ⟨⟨fun e he => by cases he; decide, _, hcomp,
          after20_spiked (b := false) (z := 194000) (by decide +kernel) (by decide) (by decide) (by decide) (by decide)⟩,
          fun n h => by cases h⟩
      · refine ⟨⟨?_, fun e he => by cases he; decide, fun h => absurd h (by decide +kernel)⟩, fun n h => by cases h⟩
        exact hcomp.1)
    true 20000000 _ (by simp only [List.flatMap_cons, List.flatMap_nil, withTail, List.append_nil]; rfl) 0 g
  obtain ⟨cs, rfl, h3, h4⟩ := C96_rc6_commands _ (fun n h => by simp at h) rs h2
  refine ⟨cs, h1, ?_, ?_⟩
  · exact h3
  · exact h4

end Infrared
