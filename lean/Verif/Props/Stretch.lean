import Verif.Props.AnyLine
import Verif.Props.Rates
import Verif.Props.ExactBi
import Verif.Spec.Stretch

/-!
# Receiver modules that change the length of marks (C102)
-/

namespace Infrared

open Spec

variable {C K : Type}

/-! ## NEC family, SBP, Denon: only the rising edges count -/

/-- Differences of successive numbers, as `w`-bit numbers. -/
def gapsFrom (w : Nat) : (last : Nat) → List Nat → List Nat
  | _, [] => []
  | last, r :: rs => (r - last) % 2 ^ w :: gapsFrom w r rs

theorem periods_samples (samples : List Bool) (level : Bool) (n saved last i : Nat) (hi : last < i)
    (h1 : level = true → n + last + 1 = i) (h2 : level = false → (saved + n) % 2 ^ 32 = (i - 1 - last) % 2 ^ 32) :
    periodsFrom 32 saved ((sampledEdges level n samples).filterMap id) = gapsFrom 32 last (rises i level samples) := by
  induction samples generalizing level n saved last i with
  | nil => rfl
  | cons s ss ih =>
    cases level with
    | true =>
      cases s with
      | true =>
        exact ih true (n + 1) saved last (i + 1) (by omega) (fun _ => by have := h1 rfl; omega) (by simp)
      | false =>
        have := h1 rfl
        have e1 : sampledEdges true n (false :: ss) = some (false, (n + 1) % 2 ^ 32) :: sampledEdges false 0 ss := rfl
        rw [e1, List.filterMap_cons_some (by rfl), periodsFrom]
        exact ih false 0 _ last (i + 1) (by omega) (by simp) (fun _ => by omega)
    | false =>
      have := h2 rfl
      cases s with
      | false =>
        exact ih false (n + 1) saved last (i + 1) (by omega) (by simp) (fun _ => by omega)
      | true =>
        have e1 : sampledEdges false n (true :: ss) = some (true, (n + 1) % 2 ^ 32) :: sampledEdges true 0 ss := rfl
        have e2 : rises i false (true :: ss) = i :: rises (i + 1) true ss := rfl
        rw [e1, List.filterMap_cons_some (by rfl), periodsFrom, e2, gapsFrom,
          ih true 0 0 i (i + 1) (by omega) (fun _ => by omega) (by simp)]
        congr 1
        omega

/-- The periods a polled receiver measures are the distances of the rising edges. -/
theorem periods_rises (samples : List Bool) :
    periods 32 (edgesOf samples) = gapsFrom 32 0 (rises 1 false samples) :=
  periods_samples samples false 0 0 0 1 (by omega) (by simp) (fun _ => rfl)

theorem periods_calls (w : Nat) (calls : List (Bool × Nat)) (level : Bool) (saved last prev : Nat) (hl : last ≤ prev)
    (h1 : level = true → prev = last) (h2 : level = false → saved + last = prev) (hc : Changes level calls)
    (ho : Ordered prev calls) :
    periodsFrom w saved (elapsed prev calls) = gapsFrom w last (riseTimes calls) := by
  induction calls generalizing level saved last prev with
  | nil => rfl
  | cons c cs ih =>
    obtain ⟨b, t⟩ := c
    obtain ⟨hb, hc⟩ := hc
    obtain ⟨hp, ho⟩ := ho
    rw [elapsed, if_pos hp]
    cases level with
    | true =>
      have := h1 rfl
      subst hb
      exact ih false _ last t (by omega) (by simp) (fun _ => by omega) hc ho
    | false =>
      have := h2 rfl
      subst hb
      have e2 : riseTimes ((true, t) :: cs) = t :: riseTimes cs := rfl
      rw [Bool.not_false, periodsFrom, e2, gapsFrom]
      congr 1
      · congr 1; omega
      · exact ih true _ t t (Nat.le_refl _) (fun _ => rfl) (by simp) hc ho

/-- The periods a receiver with time stamps measures are the distances of the rising edges. -/
theorem periods_riseTimes (w : Nat) (calls : List (Bool × Nat)) (hc : Changes false calls) (ho : Ordered 0 calls) :
    periods w (elapsed 0 calls) = gapsFrom w 0 (riseTimes calls) :=
  periods_calls w calls false 0 0 0 (Nat.le_refl _) (by simp) (fun _ => rfl) hc ho

theorem changes_alternate (calls : List (Bool × Nat)) (b : Bool) (h : Changes b calls) : Alternating calls := by
  induction calls generalizing b with
  | nil => trivial
  | cons c cs ih =>
    obtain ⟨hb, hc⟩ := h
    have := ih _ hc
    cases cs with
    | nil => trivial
    | cons d ds =>
      refine ⟨?_, this⟩
      rw [hc.1]
      cases c.1 <;> decide

/-- **C102** for polled receivers of pulse-distance protocols: of two lines that rise at the same samples they say the
same, wherever the falling edges are. -/
theorem C102_falls_polled (t : Target) (tbl : PulseSpans) (samples samples' : List Bool)
    (h : rises 1 false samples = rises 1 false samples') :
    (∀ (v : NecVariant C) (conv : C → K) outs outs', pollRun (necDecoder t Mono.u32 tbl v) conv samples = some outs →
      pollRun (necDecoder t Mono.u32 tbl v) conv samples' = some outs' → said outs = said outs') ∧
    (∀ (conv : SbpCommand → K) outs outs', pollRun (sbpDecoder t Mono.u32 tbl) conv samples = some outs →
      pollRun (sbpDecoder t Mono.u32 tbl) conv samples' = some outs' → said outs = said outs') ∧
    ∀ (conv : DenonCommand → K) outs outs', pollRun (denonDecoder t Mono.u32 tbl) conv samples = some outs →
      pollRun (denonDecoder t Mono.u32 tbl) conv samples' = some outs' → said outs = said outs' := by
  have hs : symbols 32 tbl (edgesOf samples) = symbols 32 tbl (edgesOf samples') := by
    rw [symbols, symbols, periods_rises, periods_rises, h]
  refine ⟨fun v conv outs outs' h1 h2 => ?_, fun conv outs outs' h1 h2 => ?_, fun conv outs outs' h1 h2 => ?_⟩
  · rw [(C76_nec t tbl v conv).1 _ _ h1, (C76_nec t tbl v conv).1 _ _ h2, hs]
  · rw [(C76_sbp t tbl conv).1 _ _ h1, (C76_sbp t tbl conv).1 _ _ h2, hs]
  · rw [(C76_denon t tbl conv).1 _ _ h1, (C76_denon t tbl conv).1 _ _ h2, hs]

theorem said_same {a b : Option (List (Res K))} (ha : a ≠ none) (hb : b ≠ none)
    (h : ∀ x y, a = some x → b = some y → said x = said y) : a.map said = b.map said := by
  cases a with
  | none => exact absurd rfl ha
  | some x =>
    cases b with
    | none => exact absurd rfl hb
    | some y => rw [Option.map_some, Option.map_some, h x y rfl rfl]

/-- **C102** the same for release builds or less than 2^32 polls, when the receivers do not panic. -/
theorem C102_falls_polled_runs (t : Target) (tbl : PulseSpans) (samples samples' : List Bool)
    (h : rises 1 false samples = rises 1 false samples')
    (hrun : t.overflowChecks = false ∨ samples.length < 2 ^ 32 ∧ samples'.length < 2 ^ 32) :
    (∀ (v : NecVariant C) (conv : C → K), (pollRun (necDecoder t Mono.u32 tbl v) conv samples).map said =
      (pollRun (necDecoder t Mono.u32 tbl v) conv samples').map said) ∧
    (∀ conv : SbpCommand → K, (pollRun (sbpDecoder t Mono.u32 tbl) conv samples).map said =
      (pollRun (sbpDecoder t Mono.u32 tbl) conv samples').map said) ∧
    ∀ conv : DenonCommand → K, (pollRun (denonDecoder t Mono.u32 tbl) conv samples).map said =
      (pollRun (denonDecoder t Mono.u32 tbl) conv samples').map said := by
  obtain ⟨a1, a2, a3⟩ := C76_poll_no_panic (C := C) (K := K) t tbl samples (hrun.imp_right And.left)
  obtain ⟨b1, b2, b3⟩ := C76_poll_no_panic (C := C) (K := K) t tbl samples' (hrun.imp_right And.right)
  obtain ⟨c1, c2, c3⟩ := C102_falls_polled (C := C) (K := K) t tbl samples samples' h
  exact ⟨fun v conv => said_same (a1 v conv) (b1 v conv) (c1 v conv), fun conv => said_same (a2 conv) (b2 conv) (c2 conv),
    fun conv => said_same (a3 conv) (b3 conv) (c3 conv)⟩

/-- **C102** for receivers with time stamps: of two series of alternating edges whose rising edges have the same time
stamps they say the same. -/
theorem C102_falls_instants (t : Target) (m : Mono) (hm : m = Mono.u32 ∨ m = Mono.u64) (tbl : PulseSpans)
    (calls calls' : List (Bool × Nat)) (hc : Changes false calls) (hc' : Changes false calls') (ho : Ordered 0 calls)
    (ho' : Ordered 0 calls') (h : riseTimes calls = riseTimes calls') :
    (∀ (v : NecVariant C) (conv : C → K) outs outs', instantRun m (necDecoder t m tbl v) conv calls = some outs →
      instantRun m (necDecoder t m tbl v) conv calls' = some outs' → said outs = said outs') ∧
    (∀ (conv : SbpCommand → K) outs outs', instantRun m (sbpDecoder t m tbl) conv calls = some outs →
      instantRun m (sbpDecoder t m tbl) conv calls' = some outs' → said outs = said outs') ∧
    ∀ (conv : DenonCommand → K) outs outs', instantRun m (denonDecoder t m tbl) conv calls = some outs →
      instantRun m (denonDecoder t m tbl) conv calls' = some outs' → said outs = said outs' := by
  have hs : symbols m.width tbl (elapsed 0 calls) = symbols m.width tbl (elapsed 0 calls') := by
    rw [symbols, symbols, periods_riseTimes _ _ hc ho, periods_riseTimes _ _ hc' ho', h]
  refine ⟨fun v conv outs outs' h1 h2 => ?_, fun conv outs outs' h1 h2 => ?_, fun conv outs outs' h1 h2 => ?_⟩
  · rw [(C76_nec t tbl v conv).2 m hm _ _ h1, (C76_nec t tbl v conv).2 m hm _ _ h2, hs]
  · rw [(C76_sbp t tbl conv).2 m hm _ _ (changes_alternate _ _ hc) h1,
      (C76_sbp t tbl conv).2 m hm _ _ (changes_alternate _ _ hc') h2, hs]
  · rw [(C76_denon t tbl conv).2 m hm _ _ h1, (C76_denon t tbl conv).2 m hm _ _ h2, hs]

/-! ## RC5 and RC6: a limit in percent of a half-bit -/

/-- `g` moves edges such that no interval changes by more than `e`. -/
def Moves (e : Nat) (g : Bool × Nat → Bool × Nat) : Prop := ∀ x, (g x).1 = x.1 ∧ x.2 ≤ (g x).2 + e ∧ (g x).2 ≤ x.2 + e

theorem stretch_moves (e : Nat) : Moves e fun x => (x.1, if x.1 then x.2 - e else x.2 + e) := by
  rintro ⟨b, x⟩
  cases b <;> simp <;> omega

theorem shorten_moves (e : Nat) : Moves e fun x => (x.1, if x.1 then x.2 + e else x.2 - e) := by
  rintro ⟨b, x⟩
  cases b <;> simp <;> omega

theorem near_moved {u j k h e : Nat} (he : 100000000 * e ≤ k * h * u) {n x y : Nat} (hn : 1 ≤ n)
    (hx : Near u j (h * n) x) (h1 : x ≤ y + e) (h2 : y ≤ x + e) : Near u (j + k) (h * n) y := by
  obtain ⟨a, b⟩ := hx
  have e1 : k * h * u ≤ k * (h * n) * u :=
    Nat.mul_le_mul_right _ (Nat.mul_le_mul_left _ (Nat.le_mul_of_pos_right _ hn))
  generalize h * n = us at *
  constructor
  · by_cases hjk : j + k ≤ 100
    · have : (100 - j) * us * u = (100 - (j + k)) * us * u + k * us * u := by
        rw [← Nat.add_mul, ← Nat.add_mul]; congr 2; omega
      generalize (100 - (j + k)) * us * u = A at *
      generalize (100 - j) * us * u = B at *
      generalize k * us * u = D at *
      omega
    · rw [Nat.sub_eq_zero_of_le (by omega), Nat.zero_mul, Nat.zero_mul]
      exact Nat.zero_le _
  · have : (100 + (j + k)) * us * u = (100 + j) * us * u + k * us * u := by
      rw [← Nat.add_mul, ← Nat.add_mul]; congr 2; omega
    rw [this]
    omega

theorem frame_moved {u j k h e : Nat} (he : 100000000 * e ≤ k * h * u) {g : Bool × Nat → Bool × Nat} (hg : Moves e g)
    {edges evs : List (Bool × Nat)} (hpos : ∀ x ∈ edges.tail, 1 ≤ x.2)
    (hf : ManchesterFrame (fun x n => Near u j (h * n) x) edges evs) :
    ManchesterFrame (fun x n => Near u (j + k) (h * n) x) edges (evs.map g) := by
  obtain ⟨p, n, evs', edges', rfl, rfl, hT⟩ := hf
  refine ⟨(g (true, p)).2, n, evs'.map g, edges', ?_, rfl, ?_⟩
  · rw [List.map_cons]
    congr 1
    exact Prod.ext (hg (true, p)).1 rfl
  · rw [List.tail_cons] at hpos
    clear n p
    induction evs' generalizing edges' with
    | nil => exact (by cases edges' <;> exact hT)
    | cons y ys ih =>
      cases edges' with
      | nil => exact hT
      | cons w ws =>
        obtain ⟨h1, h2, h3⟩ := hT
        obtain ⟨g1, g2, g3⟩ := hg y
        exact ⟨g1.trans h1, near_moved he (hpos w (by simp)) h2 g2 g3, ih ws h3 fun x hx => hpos x (by simp [hx])⟩

theorem changes_moved {e : Nat} {g : Bool × Nat → Bool × Nat} (hg : Moves e g) (line : List (Bool × Nat)) (b : Bool)
    (h : Changes b line) : Changes b (line.map g) := by
  induction line generalizing b with
  | nil => trivial
  | cons x xs ih =>
    obtain ⟨h1, h2⟩ := h
    have := (hg x).1
    rw [List.map_cons]
    obtain ⟨c, d⟩ := x
    rw [show g (c, d) = (c, (g (c, d)).2) from Prod.ext this rfl]
    exact ⟨h1, ih _ h2⟩

/-- Moving the edges of a line is moving those of the transmissions on it. -/
theorem series_moved {A : Type} {e : Nat} {g : Bool × Nat → Bool × Nat} (hg : Moves e g)
    (items : List (A × List (Bool × Nat) × Option Nat)) :
    (items.flatMap fun i => withTail i.2.1 i.2.2).map g =
      (items.map fun i => (i.1, i.2.1.map g, i.2.2.map fun x => (g (false, x)).2)).flatMap fun i => withTail i.2.1 i.2.2 := by
  rw [List.map_flatMap, List.flatMap_map]
  congr 1
  funext i
  obtain ⟨a, evs, tail⟩ := i
  cases tail with
  | none => rfl
  | some x =>
    simp only [withTail, Option.map_some, List.map_append, List.map_cons, List.map_nil]
    congr 2
    exact Prod.ext (hg (false, x)).1 rfl

theorem rc5_edges_pos (w : BitVec 14) (h : w.getLsbD 13 = true) : ∀ x ∈ (rc5Edges w).tail, 1 ≤ x.2 := by
  rw [rc5Edges_eq w h, List.tail_cons]
  intro x hx
  rcases rc5_edges_len w 13 true x hx with h | h <;> omega

theorem rc6_edges_pos (w : BitVec 16) (toggle : Bool) : ∀ x ∈ (rc6Edges w toggle).tail, 1 ≤ x.2 := by
  rw [rc6Edges, rc6Edges_eq 0 (.inl rfl), List.tail_cons]
  intro x hx
  rcases rc6_edges_len w toggle x hx with h | h | h | h <;> omega

theorem rc5_moved (t : Target) (hus : 16 ≤ t.usizeBits) (f j k : Nat) (hlo : 20000 ≤ f) (hf : f < 2 ^ 32)
    (tbl : PulseSpans) (htbl : rc5Spans t Mono.u32 f = some tbl) (hc : coversAll tbl f (j + k) rc5Lengths = true)
    (conv : Rc5Command → K) (u : Nat) (hu : 0 < u) (phase : Nat)
    (items : List (BitVec 14 × List (Bool × Nat) × Option Nat))
    (hok : ∀ i ∈ items, i.1.getLsbD 13 = true ∧
      ManchesterFrame (fun x n => Near u j (889 * n) x) (rc5Edges i.1) i.2.1)
    (line : List (Bool × Nat)) (hline : line = items.flatMap fun i => withTail i.2.1 i.2.2)
    (hch : Changes false line) (e : Nat) (he : 100000000 * e ≤ k * 889 * u) (g : Bool × Nat → Bool × Nat) (hg : Moves e g)
    (hmin : ∀ x ∈ (line.map g).tail, u ≤ x.2 * f)
    (hmax : ∀ x ∈ line.map g, (x.2 * f + phase) / u + 1 < 2 ^ 32) (n : Nat)
    (hn : reading u f phase (duration (line.map g)) < n) :
    (pollRun (rc5Decoder t tbl) conv (polled u f phase (line.map g) n)).map said =
      some (oks (items.map fun i => conv (Rc5Command.unpack (i.1.setWidth 16)))) := by
  have hch' := changes_moved hg line false hch
  rw [hline, series_moved hg] at *
  rw [C78_rc5_polled t hus f (j + k) hlo hf tbl htbl hc conv u hu phase _ ?_ hch' hmin hmax n hn, List.map_map]
  · rfl
  · intro i hi
    obtain ⟨x, hx, rfl⟩ := List.mem_map.mp hi
    obtain ⟨h1, h2⟩ := hok x hx
    exact ⟨h1, frame_moved he hg (rc5_edges_pos _ h1) h2⟩

theorem rc6_moved (t : Target) (hus : 16 ≤ t.usizeBits) (f j k : Nat) (hlo : 20000 ≤ f) (hf : f < 2 ^ 32)
    (tbl : PulseSpans) (htbl : rc6Spans t Mono.u32 f = some tbl) (hc : coversRc6 tbl f (j + k) = true)
    (conv : Rc6Command → K) (u : Nat) (hu : 0 < u) (phase : Nat)
    (items : List (Rc6Command × List (Bool × Nat) × Option Nat))
    (hok : ∀ i ∈ items, ManchesterFrame (fun x n => Near u j (444 * n) x)
      (rc6Edges (i.1.addr ++ i.1.cmd) i.1.toggle) i.2.1)
    (line : List (Bool × Nat)) (hline : line = items.flatMap fun i => withTail i.2.1 i.2.2)
    (hch : Changes false line) (e : Nat) (he : 100000000 * e ≤ k * 444 * u) (g : Bool × Nat → Bool × Nat) (hg : Moves e g)
    (hmin : ∀ x ∈ (line.map g).tail, u ≤ x.2 * f)
    (hmax : ∀ x ∈ line.map g, (x.2 * f + phase) / u + 1 < 2 ^ 32) (n : Nat)
    (hn : reading u f phase (duration (line.map g)) < n) :
    (pollRun (rc6Decoder t tbl) conv (polled u f phase (line.map g) n)).map said =
      some (oks (items.map fun i => conv i.1)) := by
  have hch' := changes_moved hg line false hch
  rw [hline, series_moved hg] at *
  rw [C78_rc6_polled t hus f (j + k) hlo hf tbl htbl hc conv u hu phase _ ?_ hch' hmin hmax n hn, List.map_map]
  · rfl
  · intro i hi
    obtain ⟨x, hx, rfl⟩ := List.mem_map.mp hi
    exact frame_moved he hg (rc6_edges_pos _ _) (hok x hx)

/-- **C102** for RC5: a line with transmissions within `j` percent, behind a module that makes all marks longer or all
marks shorter by at most `k` percent of a half-bit, in front of a receiver whose windows cover `j + k` percent. -/
theorem C102_rc5 (t : Target) (hus : 16 ≤ t.usizeBits) (f j k : Nat) (hlo : 20000 ≤ f) (hf : f < 2 ^ 32)
    (tbl : PulseSpans) (htbl : rc5Spans t Mono.u32 f = some tbl) (hc : coversAll tbl f (j + k) rc5Lengths = true)
    (conv : Rc5Command → K) (u : Nat) (hu : 0 < u) (phase : Nat)
    (items : List (BitVec 14 × List (Bool × Nat) × Option Nat))
    (hok : ∀ i ∈ items, i.1.getLsbD 13 = true ∧
      ManchesterFrame (fun x n => Near u j (889 * n) x) (rc5Edges i.1) i.2.1)
    (line : List (Bool × Nat)) (hline : line = items.flatMap fun i => withTail i.2.1 i.2.2)
    (hch : Changes false line) (e : Nat) (he : 100000000 * e ≤ k * 889 * u)
    (line' : List (Bool × Nat)) (hline' : line' = stretch e line ∨ line' = shorten e line)
    (hmin : ∀ x ∈ line'.tail, u ≤ x.2 * f) (hmax : ∀ x ∈ line', (x.2 * f + phase) / u + 1 < 2 ^ 32) (n : Nat)
    (hn : reading u f phase (duration line') < n) :
    (pollRun (rc5Decoder t tbl) conv (polled u f phase line' n)).map said =
      some (oks (items.map fun i => conv (Rc5Command.unpack (i.1.setWidth 16)))) := by
  rcases hline' with rfl | rfl
  · exact rc5_moved t hus f j k hlo hf tbl htbl hc conv u hu phase items hok line hline hch e he _ (stretch_moves e) hmin hmax n hn
  · exact rc5_moved t hus f j k hlo hf tbl htbl hc conv u hu phase items hok line hline hch e he _ (shorten_moves e) hmin hmax n hn

/-- **C102** for RC6 (mode 0). -/
theorem C102_rc6 (t : Target) (hus : 16 ≤ t.usizeBits) (f j k : Nat) (hlo : 20000 ≤ f) (hf : f < 2 ^ 32)
    (tbl : PulseSpans) (htbl : rc6Spans t Mono.u32 f = some tbl) (hc : coversRc6 tbl f (j + k) = true)
    (conv : Rc6Command → K) (u : Nat) (hu : 0 < u) (phase : Nat)
    (items : List (Rc6Command × List (Bool × Nat) × Option Nat))
    (hok : ∀ i ∈ items, ManchesterFrame (fun x n => Near u j (444 * n) x)
      (rc6Edges (i.1.addr ++ i.1.cmd) i.1.toggle) i.2.1)
    (line : List (Bool × Nat)) (hline : line = items.flatMap fun i => withTail i.2.1 i.2.2)
    (hch : Changes false line) (e : Nat) (he : 100000000 * e ≤ k * 444 * u)
    (line' : List (Bool × Nat)) (hline' : line' = stretch e line ∨ line' = shorten e line)
    (hmin : ∀ x ∈ line'.tail, u ≤ x.2 * f) (hmax : ∀ x ∈ line', (x.2 * f + phase) / u + 1 < 2 ^ 32) (n : Nat)
    (hn : reading u f phase (duration line') < n) :
    (pollRun (rc6Decoder t tbl) conv (polled u f phase line' n)).map said =
      some (oks (items.map fun i => conv i.1)) := by
  rcases hline' with rfl | rfl
  · exact rc6_moved t hus f j k hlo hf tbl htbl hc conv u hu phase items hok line hline hch e he _ (stretch_moves e) hmin hmax n hn
  · exact rc6_moved t hus f j k hlo hf tbl htbl hc conv u hu phase items hok line hline hch e he _ (shorten_moves e) hmin hmax n hn

/-! ## How much is too much -/

/-- A transmission with exact half-bits of `h` microseconds after a pause of 100 ms. -/
def exactly (h : Nat) (edges : List (Bool × Nat)) : List (Bool × Nat) :=
  (true, 100000) :: edges.tail.map fun x => (x.1, h * x.2)

theorem exactly_frame (h : Nat) (edges : List (Bool × Nat)) (n : Nat) (hh : edges.head? = some (true, n)) :
    ManchesterFrame (fun x n => Near 1000000 0 (h * n) x) edges (exactly h edges) := by
  cases edges with
  | nil => cases hh
  | cons e es =>
    cases hh
    refine ⟨100000, n, _, es, rfl, rfl, ?_⟩
    rw [List.tail_cons]
    induction es with
    | nil => trivial
    | cons x xs ih =>
      refine ⟨rfl, ?_, ih⟩
      unfold Near
      simp only [Nat.sub_zero, Nat.add_zero]
      omega

theorem exactly_changes (h : Nat) (edges : List (Bool × Nat)) (hc : Changes false edges) : Changes false (exactly h edges) := by
  have key : ∀ (es : List (Bool × Nat)) (b : Bool), Changes b es → Changes b (es.map fun x => (x.1, h * x.2)) := by
    intro es
    induction es with
    | nil => intro b _; trivial
    | cons e es ih => intro b hb; exact ⟨hb.1, ih _ hb.2⟩
  cases edges with
  | nil => exact ⟨rfl, trivial⟩
  | cons e es =>
    refine ⟨rfl, key es _ ?_⟩
    have := hc.1
    have h2 := hc.2
    rwa [this] at h2

/-- **C102**: marks longer or shorter by 130 microseconds, less than a sixth of a half-bit of RC5 and less than a third
of one of RC6, are too much for a receiver with a clock of 1 MHz: these two commands are not reported. -/
theorem C102_too_much (t : Target) (hus : 16 ≤ t.usizeBits) (line5 line6 : List (Bool × Nat))
    (h5 : line5 = stretch 130 (exactly 889 (rc5Edges 0x3175)) ∨ line5 = shorten 130 (exactly 889 (rc5Edges 0x3175)))
    (h6 : line6 = stretch 130 (exactly 444 (rc6Edges 0x045D true)) ∨ line6 = shorten 130 (exactly 444 (rc6Edges 0x045D true))) :
    (∀ outs, results (rc5Decoder t (rc5Table 1000000)) id line5 = some outs → said outs = []) ∧
    ∀ outs, results (rc6Decoder t (rc6Table 1000000)) id line6 = some outs → said outs = [] := by
  constructor
  · intro outs h
    rw [C67_rc5 t hus _ (by decide) id _ outs h]
    rcases h5 with rfl | rfl <;> decide +kernel
  · intro outs h
    rw [C67_rc6 t hus _ (by decide) id _ outs h]
    rcases h6 with rfl | rfl <;> decide +kernel

/-! ## Non-vacuity -/

/-- Marks of one and of three polls, the line rises at the same polls. -/
example (t : Target) (tbl : PulseSpans) (v : NecVariant C) (conv : C → K) :
    (pollRun (necDecoder t Mono.u32 tbl v) conv [false, true, false, false, false, true, false, false, false, true]).map said =
    (pollRun (necDecoder t Mono.u32 tbl v) conv [false, true, true, true, false, true, true, true, false, true]).map said :=
  (C102_falls_polled_runs t tbl _ _ (by decide) (.inr ⟨by decide, by decide⟩)).1 v conv

/-- The same with time stamps. -/
example (t : Target) (v : NecVariant C) (conv : C → K) (outs outs' : List (Res K))
    (h : instantRun Mono.u64 (necDecoder t Mono.u64 (necTable 1000000) v) conv
      [(true, 100), (false, 9100), (true, 13600), (false, 14160)] = some outs)
    (h' : instantRun Mono.u64 (necDecoder t Mono.u64 (necTable 1000000) v) conv
      [(true, 100), (false, 9400), (true, 13600), (false, 14560)] = some outs') : said outs = said outs' :=
  (C102_falls_instants t Mono.u64 (.inr rfl) (necTable 1000000) [(true, 100), (false, 9100), (true, 13600), (false, 14160)]
    [(true, 100), (false, 9400), (true, 13600), (false, 14560)] ⟨rfl, rfl, rfl, rfl, trivial⟩ ⟨rfl, rfl, rfl, rfl, trivial⟩
    ⟨by decide, by decide, by decide, by decide, trivial⟩ ⟨by decide, by decide, by decide, by decide, trivial⟩ rfl).1
    v conv _ _ h h'

/-- An exact RC5 transmission, marks 40 microseconds longer, polled 40 000 times per second. -/
example (t : Target) (hus : 16 ≤ t.usizeBits) :
    (pollRun (rc5Decoder t (rc5Table 40000)) id
      (polled 1000000 40000 0 (stretch 40 (exactly 889 (rc5Edges 0x3175))) 6000)).map said =
      some (oks [Rc5Command.unpack 0x3175]) := by
  exact C102_rc5 t hus 40000 0 5 (by decide) (by decide) (rc5Table 40000) (rc5Spans_eq (.inl rfl) t (by decide))
    (by decide +kernel) id 1000000 (by decide) 0 [(0x3175, exactly 889 (rc5Edges 0x3175), none)]
    (by
      intro i hi
      rw [List.mem_singleton] at hi
      subst hi
      exact ⟨by decide, exactly_frame 889 (rc5Edges 0x3175) 1 (by decide)⟩)
    (exactly 889 (rc5Edges 0x3175)) (by simp [withTail]) (exactly_changes _ _ (edgesFrom_changes _ _ _)) 40 (by decide) _ (.inl rfl)
    (by decide +kernel) (by decide +kernel) 6000 (by decide +kernel)

end Infrared
