import Verif.Props.Drift

/-!
# Clocks that are too far off (C90)

What a receiver says whose clock is too fast or too slow for the tolerances of its protocol.
-/

namespace Infrared

open Spec

variable {C K : Type}

/-! ## Readings -/

theorem seems_ticks {u f r lo hi l x : Nat} (hu : 0 < u) (h : Seems u f r lo hi l x) (phase t : Nat) :
    lo * l * f ≤ 100000000 * (reading u r phase (t + x) - reading u r phase t + 1) ∧
      100000000 * (reading u r phase (t + x) - reading u r phase t) ≤ hi * l * f + 100000000 := by
  obtain ⟨h1, h2⟩ := h
  obtain ⟨b1, b2⟩ := reading_bounds hu r phase t x
  generalize reading u r phase (t + x) - reading u r phase t = d at *
  constructor
  · refine Nat.le_of_mul_le_mul_left (c := u) ?_ hu
    have e1 : u * (lo * l * f) = lo * l * (u * f) := by ac_rfl
    have e2 : u * (100000000 * (d + 1)) = 100000000 * (u * d) + 100000000 * u := by
      rw [Nat.mul_left_comm, Nat.mul_add, Nat.mul_one, Nat.mul_add]
    omega
  · refine Nat.le_of_mul_le_mul_left (c := u) ?_ hu
    have e1 : u * (hi * l * f + 100000000) = hi * l * (u * f) + 100000000 * u := by
      rw [Nat.mul_add, Nat.mul_comm u 100000000]
      congr 1
      ac_rfl
    have e2 : u * (100000000 * d) = 100000000 * (u * d) := by rw [Nat.mul_left_comm]
    omega

/-- Each period as it is measured. -/
theorem seemPeriods_ticks {u f r lo hi : Nat} (hu : 0 < u) {us : List Nat} {ps : List (Nat × Nat)}
    (h : SeemPeriods u f r lo hi us ps) (phase t : Nat) {q : Nat × Nat} (hq : q ∈ clockedPulses u r phase t ps) :
    ∃ l ∈ us, lo * l * f ≤ 100000000 * (q.1 + q.2 + 1) ∧ 100000000 * (q.1 + q.2) ≤ hi * l * f + 100000000 := by
  obtain ⟨i, hi⟩ := List.mem_iff_getElem?.mp hq
  obtain ⟨p, t', hp, hs⟩ := clockedPulses_get u r phase t ps i q hi
  have hlt := (List.getElem?_eq_some_iff.mp hp).1
  rw [h.1] at hlt
  have hl := List.getElem?_eq_getElem hlt
  rw [hs]
  exact ⟨_, List.mem_of_getElem? hl, seems_ticks hu (h.2 i p _ hp hl) phase t'⟩

theorem seems_head {u f r lo hi l : Nat} {us : List Nat} {ps : List (Nat × Nat)}
    (h : SeemPeriods u f r lo hi (l :: us) ps) :
    ∃ p ps', ps = p :: ps' ∧ Seems u f r lo hi l (p.1 + p.2) ∧ SeemPeriods u f r lo hi us ps' := by
  obtain ⟨h1, h2⟩ := h
  cases ps with
  | nil => simp at h1
  | cons p ps =>
    refine ⟨p, ps, rfl, h2 0 p l rfl rfl, by simpa using h1, fun i q l' hq hl' => ?_⟩
    exact h2 (i + 1) q l' (by simpa using hq) (by simpa using hl')

/-- A pause of 20 ms, measured with a clock of at least `k` percent of the rate. -/
theorem pause_ticks {u f r a b w : Nat} (hu : 0 < u) {k : Nat} (hr : k * f ≤ 100 * r)
    (h : 20000 * u ≤ 1000000 * (a + b) ∧ (a + b) * r + u < 2 ^ w * u) (phase t : Nat) :
    reading u r phase (t + (a + b)) - reading u r phase t < 2 ^ w ∧
      20000 * k * f ≤ 100000000 * (reading u r phase (t + (a + b)) - reading u r phase t + 1) := by
  obtain ⟨b1, b2⟩ := reading_bounds hu r phase t (a + b)
  generalize reading u r phase (t + (a + b)) - reading u r phase t = d at *
  obtain ⟨h1, h2⟩ := h
  constructor
  · refine Nat.lt_of_mul_lt_mul_left (a := u) ?_
    rw [Nat.mul_comm u (2 ^ _)]
    omega
  · refine Nat.le_of_mul_le_mul_left (c := u) ?_ hu
    have m := Nat.mul_le_mul h1 hr
    have e1 : 20000 * u * (k * f) = u * (20000 * k * f) := by ac_rfl
    have e2 : 1000000 * (a + b) * (100 * r) = 100000000 * ((a + b) * r) := by rw [Nat.mul_mul_mul_comm]
    have e3 : u * (100000000 * (d + 1)) = 100000000 * (u * d) + 100000000 * u := by
      rw [Nat.mul_left_comm, Nat.mul_add, Nat.mul_one, Nat.mul_add]
    omega

/-- The symbols of a series, read at `t`. -/
def readSymbols (tbl : PulseSpans) (u r phase t : Nat) (ps : List (Nat × Nat)) : List (Option Nat) :=
  (clockedPulses u r phase t ps).map fun p => tbl.get (p.1 + p.2)

theorem readSymbols_append (tbl : PulseSpans) (u r phase t : Nat) (a b : List (Nat × Nat)) :
    readSymbols tbl u r phase t (a ++ b) =
      readSymbols tbl u r phase t a ++ readSymbols tbl u r phase (t + span a) b := by
  rw [readSymbols, clockedPulses_append, List.map_append]
  rfl

theorem readSymbols_one (tbl : PulseSpans) (u r phase t : Nat) (p : Nat × Nat) :
    readSymbols tbl u r phase t [p] = [tbl.get (reading u r phase (t + (p.1 + p.2)) - reading u r phase t)] := by
  obtain ⟨a, b⟩ := p
  have m1 := reading_mono u r phase t a
  have m2 := reading_mono u r phase (t + a) b
  simp only [readSymbols, clockedPulses, List.map_cons, List.map_nil]
  rw [← Nat.add_assoc]
  congr 2
  omega

theorem readSymbols_cons (tbl : PulseSpans) (u r phase t : Nat) (p : Nat × Nat) (ps : List (Nat × Nat)) :
    readSymbols tbl u r phase t (p :: ps) =
      tbl.get (reading u r phase (t + (p.1 + p.2)) - reading u r phase t) ::
        readSymbols tbl u r phase (t + (p.1 + p.2)) ps := by
  rw [← List.singleton_append, readSymbols_append, readSymbols_one]
  simp [span]

theorem necParse_mute (unpack : BitVec 32 → Bool → Option C) (last : BitVec 32) (a ss : List (Option Nat))
    (h : ∀ s ∈ a, s ≠ some 0 ∧ s ≠ some 1) : necParse unpack last (a ++ ss) = necParse unpack last ss := by
  induction a with
  | nil => rfl
  | cons s a ih =>
    obtain ⟨h0, h1⟩ := h s (by simp)
    rw [List.cons_append, necParse_skip unpack last s _ h0 h1, ih fun s' hs => h s' (by simp [hs])]

/-! ## NEC family -/

theorem necPeriods_mem {sync l : Nat} {w : BitVec 32} (h : l ∈ necPeriods sync w) : l = sync ∨ l = 2250 ∨ l = 1120 := by
  rw [necPeriods, List.mem_cons, List.mem_map] at h
  rcases h with rfl | ⟨i, -, rfl⟩
  · exact .inl rfl
  · split
    · exact .inr (.inl rfl)
    · exact .inr (.inr rfl)

/-- The pulses of a series. -/
abbrev necPulses (items : List (NecItem × (Nat × Nat))) : List (Nat × Nat) := items.flatMap fun i => i.1.wire ++ [i.2]

/-- Every period is short enough for the clock. -/
theorem seems_small {u f r lo hi sync rep w k : Nat} (hu : 0 < u) (hf : f < 2 ^ 32) (hw : 32 ≤ w) (hhi : hi ≤ 200)
    (hs : sync ≤ 13500) (hp : rep ≤ 13500) (hr : k * f ≤ 100 * r) {items : List (NecItem × (Nat × Nat))}
    (hok : ∀ i ∈ items, i.1.Seems u f r lo hi sync rep ∧
      20000 * u ≤ 1000000 * (i.2.1 + i.2.2) ∧ (i.2.1 + i.2.2) * r + u < 2 ^ w * u) (phase t : Nat) :
    ∀ q ∈ clockedPulses u r phase t (necPulses items), q.1 + q.2 < 2 ^ w := by
  have h32 : 2 ^ 32 ≤ 2 ^ w := Nat.pow_le_pow_right (by decide) hw
  have key : ∀ l d : Nat, l ≤ 13500 → 100000000 * d ≤ hi * l * f + 100000000 → d < 2 ^ w := by
    intro l d hl hd
    have : hi * l * f ≤ 200 * 13500 * f := Nat.mul_le_mul_right _ (Nat.mul_le_mul hhi hl)
    omega
  induction items generalizing t with
  | nil => simp [clockedPulses]
  | cons i items ih =>
    obtain ⟨h1, h2⟩ := hok i (by simp)
    intro q hq
    rw [necPulses, List.flatMap_cons, clockedPulses_append, clockedPulses_append, List.mem_append, List.mem_append] at hq
    rcases hq with (hq | hq) | hq
    · cases hi' : i.1 with
      | frame w' ps =>
        rw [hi'] at h1 hq
        obtain ⟨l, hl, -, hd⟩ := seemPeriods_ticks hu h1 phase t hq
        refine key l _ ?_ hd
        rcases necPeriods_mem hl with rfl | rfl | rfl <;> omega
      | rep p =>
        rw [hi'] at h1 hq
        obtain ⟨p', hp', t', ht'⟩ := clockedPulses_mem hq
        rw [NecItem.wire, List.mem_singleton] at hp'
        subst hp'
        rw [ht']
        exact key rep _ hp (seems_ticks hu h1 phase t').2
    · obtain ⟨p', hp', t', ht'⟩ := clockedPulses_mem hq
      rw [List.mem_singleton] at hp'
      subst hp'
      rw [ht']
      exact (pause_ticks hu hr h2 phase t').1
    · exact ih (fun i hi => hok i (by simp [hi])) _ q hq

/-- What a receiver with such a clock says, from the symbols. -/
theorem nec_said_symbols {t : Target} {m : Mono} (hm : m = Mono.u32 ∨ m = Mono.u64) {tbl : PulseSpans}
    {v : NecVariant C} (conv : C → K) {u r phase t0 g : Nat} (hg : Pause tbl m.width [0, 1] (0, g))
    (items : List (NecItem × (Nat × Nat)))
    (hlt : ∀ q ∈ clockedPulses u r phase t0 (necPulses items), q.1 + q.2 < 2 ^ m.width) :
    (results (necDecoder t m tbl v) conv ((true, g) :: clocked u r phase t0 (series NecItem.wire items))).map said =
      some ((necParse v.unpack 0 (readSymbols tbl u r phase t0 (necPulses items))).map (Res.map conv)) := by
  have hgw : g < 2 ^ m.width := by simpa using hg.1
  rw [series, clocked_pulses]
  rcases hr : results (necDecoder t m tbl v) conv
      ((true, g) :: pulses (clockedPulses u r phase t0 (necPulses items))) with _ | outs
  · exact absurd ((C30_nec_panics_iff t m hm tbl v conv _).mp hr).2 (pulses_small hgw hlt)
  · rw [Option.map_some, C67_nec t m (Mono.prim_lawful hm) tbl v conv _ outs hr, pulses_symbols tbl hgw hlt, necParse_skip]
    · rfl
    · exact fun h => hg.2 0 (by simp) (by simpa using get_inTol h)
    · exact fun h => hg.2 1 (by simp) (by simpa using get_inTol h)

theorem necParse_rep (unpack : BitVec 32 → Bool → Option C) (last : BitVec 32) (ss : List (Option Nat)) :
    necParse unpack last (some 1 :: ss) = said [.ok (unpack last true)] ++ necParse unpack last ss := by
  rw [necParse, if_neg (by decide), if_pos rfl]

/-- Slow clocks: the sync of a frame is taken for a repeat code, nothing else is noticed. -/
theorem slow_parse {tbl : PulseSpans} {u f r lo hi sync rep w k phase : Nat} (unpack : BitVec 32 → Bool → Option C)
    (hu : 0 < u) (hr : k * f ≤ 100 * r)
    (hsync : ∀ d, lo * sync * f ≤ 100000000 * (d + 1) → 100000000 * d ≤ hi * sync * f + 100000000 → tbl.get d = some 1)
    (hmute : ∀ l d, l = 2250 ∨ l = 1120 ∨ l = rep → 100000000 * d ≤ hi * l * f + 100000000 →
      tbl.get d ≠ some 0 ∧ tbl.get d ≠ some 1)
    (hpause : ∀ d, 20000 * k * f ≤ 100000000 * (d + 1) → tbl.get d ≠ some 0 ∧ tbl.get d ≠ some 1)
    {items : List (NecItem × (Nat × Nat))}
    (hok : ∀ i ∈ items, i.1.Seems u f r lo hi sync rep ∧
      20000 * u ≤ 1000000 * (i.2.1 + i.2.2) ∧ (i.2.1 + i.2.2) * r + u < 2 ^ w * u) (t : Nat) :
    necParse unpack 0 (readSymbols tbl u r phase t (necPulses items)) = oks (necMistaken unpack (items.map Prod.fst)) := by
  induction items generalizing t with
  | nil => rw [necPulses, List.flatMap_nil, readSymbols, clockedPulses, List.map_nil, necParse]; rfl
  | cons i items ih =>
    obtain ⟨h1, h2⟩ := hok i (by simp)
    obtain ⟨it, p⟩ := i
    have ih' := ih fun i hi => hok i (by simp [hi])
    rw [necPulses, List.flatMap_cons, List.append_assoc, readSymbols_append, List.singleton_append, readSymbols_cons]
    have hp := fun t' => hpause _ (pause_ticks hu hr h2 phase t').2
    dsimp only at hp h1 ⊢
    cases it with
    | rep q =>
      rw [NecItem.wire, readSymbols_one, List.singleton_append]
      have hq := hmute rep _ (.inr (.inr rfl)) (seems_ticks hu h1 phase t).2
      rw [necParse_skip _ _ _ _ hq.1 hq.2, necParse_skip _ _ _ _ (hp _).1 (hp _).2]
      exact ih' _
    | frame x ps =>
      obtain ⟨q, qs, rfl, hq, hqs⟩ := seems_head h1
      obtain ⟨b1, b2⟩ := seems_ticks hu hq phase t
      rw [NecItem.wire, readSymbols_cons, List.cons_append, hsync _ b1 b2, necParse_rep, necParse_mute,
        necParse_skip _ _ _ _ (hp _).1 (hp _).2, ih']
      · simp only [necMistaken, List.map_cons, List.filterMap_cons]
        cases unpack 0 true <;> rfl
      · intro s hs
        obtain ⟨q', hq', rfl⟩ := List.mem_map.mp hs
        obtain ⟨l, hl, -, hd⟩ := seemPeriods_ticks hu hqs phase _ hq'
        refine hmute l _ ?_ hd
        obtain ⟨i, -, rfl⟩ := List.mem_map.mp hl
        split
        · exact .inl rfl
        · exact .inr (.inl rfl)

theorem kind_rejects {k : Kind} {t : Target} {m : Mono} (hm : m = Mono.u32 ∨ m = Mono.u64) {f : Nat} (hf : f < 2 ^ 32)
    {tbl : PulseSpans} (htbl : k.build t m f = some tbl) {i l tol d : Nat} (hs : k.symbols[i]? = some (l, tol))
    (h : (100 + tol) * l * f < 100000000 * d ∨
      10000000000 * (100 * d + (100 - tol)) < 9968 * ((100 - tol) * l * f)) : tbl.get d ≠ some i := by
  intro he
  have := (C52_rejects k t m hm f hf tbl htbl i d (get_inTol he)).1 l tol hs
  omega

/-- **C90**, slow clocks, NEC timing: if everything seems to take between 78 and 88 percent of its time, a receiver takes
every frame for a repeat of a word of zeros, and misses the repeat codes. -/
theorem C90_nec_slow (t : Target) (f : Nat) (hlo : 20000 ≤ f) (hf : f < 2 ^ 32) (v : NecVariant C)
    (hv : v.pulseDistance = necStandardTiming) (m : Mono) (hm : m = Mono.u32 ∨ m = Mono.u64) (tbl : PulseSpans)
    (htbl : necSpans t m v f = some tbl) (conv : C → K) (r : Nat) (hr : 78 * f ≤ 100 * r) (u : Nat)
    (hu : 0 < u) (phase t0 g : Nat) (hg : Pause tbl m.width [0, 1] (0, g)) (items : List (NecItem × (Nat × Nat)))
    (hok : ∀ i ∈ items, i.1.Seems u f r 78 88 13500 11250 ∧
      20000 * u ≤ 1000000 * (i.2.1 + i.2.2) ∧ (i.2.1 + i.2.2) * r + u < 2 ^ m.width * u) :
    (results (necDecoder t m tbl v) conv ((true, g) :: clocked u r phase t0 (series NecItem.wire items))).map said =
      some (oks ((necMistaken v.unpack (items.map Prod.fst)).map conv)) := by
  obtain ⟨hun, -⟩ := necSpans_good hm t hlo hf v (.inl hv) htbl
  have hb : Kind.nec.build t m f = some tbl := by
    rw [← htbl]; simp only [Kind.build, necSpans, hv]; rfl
  have hw : 32 ≤ m.width := by rcases hm with rfl | rfl <;> decide
  rw [nec_said_symbols hm conv hg items (seems_small hu hf hw (by decide) (by decide) (by decide) hr hok phase t0),
    slow_parse v.unpack hu hr ?_ ?_ ?_ hok]
  · simp [oks, Res.map]
  · intro d h1 h2
    exact inTol_get hun (by decide) (C52_accepts .nec t m hm f hf tbl hb 1 11250 7 rfl d (by omega) (by omega))
  · intro l d hl h
    refine ⟨kind_rejects hm hf hb (i := 0) (l := 13500) (tol := 7) rfl (.inr ?_),
      kind_rejects hm hf hb (i := 1) (l := 11250) (tol := 7) rfl (.inr ?_)⟩ <;>
    rcases hl with rfl | rfl | rfl <;> omega
  · intro d h
    exact ⟨kind_rejects hm hf hb (i := 0) (l := 13500) (tol := 7) rfl (.inl (by omega)),
      kind_rejects hm hf hb (i := 1) (l := 11250) (tol := 7) rfl (.inl (by omega))⟩

/-- **C90**, slow clocks, Samsung timing: the same between 71 and 78 percent. -/
theorem C90_samsung_slow (t : Target) (f : Nat) (hlo : 20000 ≤ f) (hf : f < 2 ^ 32) (v : NecVariant C)
    (hv : v.pulseDistance = necSamsungTiming) (m : Mono) (hm : m = Mono.u32 ∨ m = Mono.u64) (tbl : PulseSpans)
    (htbl : necSpans t m v f = some tbl) (conv : C → K) (r : Nat) (hr : 71 * f ≤ 100 * r) (u : Nat)
    (hu : 0 < u) (phase t0 g : Nat) (hg : Pause tbl m.width [0, 1] (0, g)) (items : List (NecItem × (Nat × Nat)))
    (hok : ∀ i ∈ items, i.1.Seems u f r 71 78 9000 6750 ∧
      20000 * u ≤ 1000000 * (i.2.1 + i.2.2) ∧ (i.2.1 + i.2.2) * r + u < 2 ^ m.width * u) :
    (results (necDecoder t m tbl v) conv ((true, g) :: clocked u r phase t0 (series NecItem.wire items))).map said =
      some (oks ((necMistaken v.unpack (items.map Prod.fst)).map conv)) := by
  obtain ⟨hun, -⟩ := necSpans_good hm t hlo hf v (.inr hv) htbl
  have hb : Kind.samsung.build t m f = some tbl := by
    rw [← htbl]; simp only [Kind.build, necSpans, hv]; rfl
  have hw : 32 ≤ m.width := by rcases hm with rfl | rfl <;> decide
  rw [nec_said_symbols hm conv hg items (seems_small hu hf hw (by decide) (by decide) (by decide) hr hok phase t0),
    slow_parse v.unpack hu hr ?_ ?_ ?_ hok]
  · simp [oks, Res.map]
  · intro d h1 h2
    exact inTol_get hun (by decide) (C52_accepts .samsung t m hm f hf tbl hb 1 6750 7 rfl d (by omega) (by omega))
  · intro l d hl h
    refine ⟨kind_rejects hm hf hb (i := 0) (l := 9000) (tol := 7) rfl (.inr ?_),
      kind_rejects hm hf hb (i := 1) (l := 6750) (tol := 7) rfl (.inr ?_)⟩ <;>
    rcases hl with rfl | rfl | rfl <;> omega
  · intro d h
    exact ⟨kind_rejects hm hf hb (i := 0) (l := 9000) (tol := 7) rfl (.inl (by omega)),
      kind_rejects hm hf hb (i := 1) (l := 6750) (tol := 7) rfl (.inl (by omega))⟩

theorem commands_said (outs : List (Res K)) : commands (said outs) = commands outs := by
  unfold commands said
  rw [List.filterMap_filter]
  congr 1
  funext o
  cases o with
  | ok c => cases c <;> rfl
  | error e => rfl

/-- Fast clocks: no frame is noticed; a repeat code may be taken for a sync, but no bit follows it. -/
theorem fast_parse {tbl : PulseSpans} {u f r lo hi sync rep w k phase : Nat} (unpack : BitVec 32 → Bool → Option C)
    (hu : 0 < u) (hr : k * f ≤ 100 * r)
    (hmute : ∀ l d, l = sync ∨ l = 2250 ∨ l = 1120 → lo * l * f ≤ 100000000 * (d + 1) →
      100000000 * d ≤ hi * l * f + 100000000 → tbl.get d ≠ some 0 ∧ tbl.get d ≠ some 1)
    (hrep : ∀ d, lo * rep * f ≤ 100000000 * (d + 1) → tbl.get d ≠ some 1)
    (hpause : ∀ d, 20000 * k * f ≤ 100000000 * (d + 1) → ∀ x, x < 4 → tbl.get d ≠ some x)
    {items : List (NecItem × (Nat × Nat))}
    (hok : ∀ i ∈ items, i.1.Seems u f r lo hi sync rep ∧
      20000 * u ≤ 1000000 * (i.2.1 + i.2.2) ∧ (i.2.1 + i.2.2) * r + u < 2 ^ w * u) (t : Nat) (last : BitVec 32) :
    commands (necParse unpack last (readSymbols tbl u r phase t (necPulses items))) = [] := by
  induction items generalizing t last with
  | nil => rw [necPulses, List.flatMap_nil, readSymbols, clockedPulses, List.map_nil, necParse]; rfl
  | cons i items ih =>
    obtain ⟨h1, h2⟩ := hok i (by simp)
    obtain ⟨it, p⟩ := i
    have ih' := ih fun i hi => hok i (by simp [hi])
    rw [necPulses, List.flatMap_cons, List.append_assoc, readSymbols_append, List.singleton_append, readSymbols_cons]
    have hp := fun t' => hpause _ (pause_ticks hu hr h2 phase t').2
    dsimp only at hp h1 ⊢
    cases it with
    | rep q =>
      rw [NecItem.wire, readSymbols_one, List.singleton_append]
      have hq := hrep _ (seems_ticks hu h1 phase t).1
      generalize tbl.get (reading u r phase (t + (q.1 + q.2)) - reading u r phase t) = s at hq
      by_cases h0 : s = some 0
      · subst h0
        have := parse_broken unpack last [] (by decide) _ (hp (t + span [q]) 2 (by decide)) (hp _ 3 (by decide))
          (readSymbols tbl u r phase (t + span [q] + (p.1 + p.2)) (necPulses items))
        rw [List.map_nil, List.nil_append] at this
        rw [this]
        exact ih' _ _
      · rw [necParse_skip _ _ _ _ h0 hq, necParse_skip _ _ _ _ (hp _ 0 (by decide)) (hp _ 1 (by decide))]
        exact ih' _ _
    | frame x ps =>
      rw [NecItem.wire, necParse_mute, necParse_skip _ _ _ _ (hp _ 0 (by decide)) (hp _ 1 (by decide))]
      · exact ih' _ _
      · intro s hs
        obtain ⟨q', hq', rfl⟩ := List.mem_map.mp hs
        obtain ⟨l, hl, hd, hd'⟩ := seemPeriods_ticks hu h1 phase _ hq'
        exact hmute l _ (necPeriods_mem hl) hd hd'

/-- **C90**, fast clocks, NEC family: if everything seems to take between 109 and 200 percent of its time, no command is
ever reported. -/
theorem C90_nec_fast (t : Target) (f : Nat) (hlo : 20000 ≤ f) (hf : f < 2 ^ 32) (v : NecVariant C)
    (hv : v.Shipped) (m : Mono) (hm : m = Mono.u32 ∨ m = Mono.u64) (tbl : PulseSpans)
    (htbl : necSpans t m v f = some tbl) (conv : C → K) (r : Nat) (hr : f ≤ r) (u : Nat)
    (hu : 0 < u) (phase t0 g : Nat) (hg : Pause tbl m.width [0, 1] (0, g)) (items : List (NecItem × (Nat × Nat)))
    (hok : ∀ i ∈ items, i.1.Seems u f r 109 200 (v.pulseDistance.headerHigh + v.pulseDistance.headerLow)
      (v.pulseDistance.headerHigh + v.pulseDistance.repeatLow) ∧
      20000 * u ≤ 1000000 * (i.2.1 + i.2.2) ∧ (i.2.1 + i.2.2) * r + u < 2 ^ m.width * u) :
    (results (necDecoder t m tbl v) conv
      ((true, g) :: clocked u r phase t0 (series NecItem.wire items))).map commands = some [] := by
  have hw : 32 ≤ m.width := by rcases hm with rfl | rfl <;> decide
  have hr' : 100 * f ≤ 100 * r := by omega
  suffices h : commands (necParse v.unpack 0 (readSymbols tbl u r phase t0 (necPulses items))) = [] by
    have := congrArg (Option.map commands) (nec_said_symbols (t := t) (v := v) hm conv hg items
      (seems_small hu hf hw (by decide) (by rcases hv with hv | hv <;> rw [hv] <;> decide)
        (by rcases hv with hv | hv <;> rw [hv] <;> decide) hr' hok phase t0))
    rw [Option.map_map, Option.map_some] at this
    have hcs : (commands ∘ said : List (Res K) → List K) = commands := funext commands_said
    rw [hcs] at this
    rw [this]
    have hc : ∀ l : List (Res C), commands (l.map (Res.map conv)) = (commands l).map conv := by
      intro l
      induction l with
      | nil => rfl
      | cons a l ih =>
        unfold commands at ih ⊢
        rcases a with e | (_ | c) <;> simp [Res.map, ih]
    rw [hc, h]
    rfl
  obtain ⟨k, hk, he⟩ := nec_kind v hv
  rw [he] at htbl
  rcases hk with ⟨rfl, hv⟩ | ⟨rfl, hv⟩
  · rw [hv] at hok
    refine fast_parse v.unpack hu hr' ?_ ?_ ?_ hok t0 0
    · intro l d hl h1 h2
      rcases hl with rfl | rfl | rfl
      · exact ⟨kind_rejects hm hf htbl (i := 0) (l := 13500) (tol := 7) rfl (.inl (by simp [necStandardTiming] at h1; omega)),
          kind_rejects hm hf htbl (i := 1) (l := 11250) (tol := 7) rfl (.inl (by simp [necStandardTiming] at h1; omega))⟩
      all_goals
        exact ⟨kind_rejects hm hf htbl (i := 0) (l := 13500) (tol := 7) rfl (.inr (by omega)),
          kind_rejects hm hf htbl (i := 1) (l := 11250) (tol := 7) rfl (.inr (by omega))⟩
    · intro d h1
      exact kind_rejects hm hf htbl (i := 1) (l := 11250) (tol := 7) rfl (.inl (by simp [necStandardTiming] at h1; omega))
    · intro d h x hx
      match x with
      | 0 => exact kind_rejects hm hf htbl (i := 0) (l := 13500) (tol := 7) rfl (.inl (by omega))
      | 1 => exact kind_rejects hm hf htbl (i := 1) (l := 11250) (tol := 7) rfl (.inl (by omega))
      | 2 => exact kind_rejects hm hf htbl (i := 2) (l := 1120) (tol := 25) rfl (.inl (by omega))
      | 3 => exact kind_rejects hm hf htbl (i := 3) (l := 2250) (tol := 12) rfl (.inl (by omega))
  · rw [hv] at hok
    refine fast_parse v.unpack hu hr' ?_ ?_ ?_ hok t0 0
    · intro l d hl h1 h2
      rcases hl with rfl | rfl | rfl
      · exact ⟨kind_rejects hm hf htbl (i := 0) (l := 9000) (tol := 7) rfl (.inl (by simp [necSamsungTiming] at h1; omega)),
          kind_rejects hm hf htbl (i := 1) (l := 6750) (tol := 7) rfl (.inl (by simp [necSamsungTiming] at h1; omega))⟩
      all_goals
        exact ⟨kind_rejects hm hf htbl (i := 0) (l := 9000) (tol := 7) rfl (.inr (by omega)),
          kind_rejects hm hf htbl (i := 1) (l := 6750) (tol := 7) rfl (.inr (by omega))⟩
    · intro d h1
      exact kind_rejects hm hf htbl (i := 1) (l := 6750) (tol := 7) rfl (.inl (by simp [necSamsungTiming] at h1; omega))
    · intro d h x hx
      match x with
      | 0 => exact kind_rejects hm hf htbl (i := 0) (l := 9000) (tol := 7) rfl (.inl (by omega))
      | 1 => exact kind_rejects hm hf htbl (i := 1) (l := 6750) (tol := 7) rfl (.inl (by omega))
      | 2 => exact kind_rejects hm hf htbl (i := 2) (l := 1120) (tol := 25) rfl (.inl (by omega))
      | 3 => exact kind_rejects hm hf htbl (i := 3) (l := 2250) (tol := 12) rfl (.inl (by omega))

/-! ## SBP and Denon -/

theorem deaf_pulses {A : Type} {tbl : PulseSpans} {u f r lo hi w k : Nat} (hu : 0 < u) (hr : k * f ≤ 100 * r)
    (wire : A → List (Nat × Nat)) (us : A → List Nat)
    (hper : ∀ a, ∀ l ∈ us a, ∀ d, lo * l * f ≤ 100000000 * (d + 1) → 100000000 * d ≤ hi * l * f + 100000000 →
      d < 2 ^ w ∧ tbl.get d ≠ some 0)
    (hpause : ∀ d, 20000 * k * f ≤ 100000000 * (d + 1) → tbl.get d ≠ some 0) {items : List (A × (Nat × Nat))}
    (hok : ∀ i ∈ items, SeemPeriods u f r lo hi (us i.1) (wire i.1) ∧
      20000 * u ≤ 1000000 * (i.2.1 + i.2.2) ∧ (i.2.1 + i.2.2) * r + u < 2 ^ w * u) (phase t : Nat) :
    ∀ q ∈ clockedPulses u r phase t (items.flatMap fun i => wire i.1 ++ [i.2]),
      q.1 + q.2 < 2 ^ w ∧ tbl.get (q.1 + q.2) ≠ some 0 := by
  induction items generalizing t with
  | nil => simp [clockedPulses]
  | cons i items ih =>
    obtain ⟨h1, h2⟩ := hok i (by simp)
    intro q hq
    rw [List.flatMap_cons, clockedPulses_append, clockedPulses_append, List.mem_append, List.mem_append] at hq
    rcases hq with (hq | hq) | hq
    · obtain ⟨l, hl, ha, hb⟩ := seemPeriods_ticks hu h1 phase t hq
      exact hper _ l hl _ ha hb
    · obtain ⟨p', hp', t', ht'⟩ := clockedPulses_mem hq
      rw [List.mem_singleton] at hp'
      subst hp'
      rw [ht']
      obtain ⟨ha, hb⟩ := pause_ticks hu hr h2 phase t'
      exact ⟨ha, hpause _ hb⟩
    · exact ih (fun i hi => hok i (by simp [hi])) _ q hq

theorem sbpParse_quiet (ss : List (Option Nat)) (h : ∀ s ∈ ss, s ≠ some 0) : sbpParse ss = [] := by
  induction ss with
  | nil => rw [sbpParse]
  | cons s ss ih => rw [sbpParse_skip s ss (h s (by simp))]; exact ih fun s' hs => h s' (by simp [hs])

theorem denonParse_quiet (stale : BitVec 64) (ss : List (Option Nat)) (h : ∀ s ∈ ss, s ≠ some 0) :
    denonParse stale ss = [] := by
  induction ss with
  | nil => rw [denonParse]
  | cons s ss ih => rw [denonParse_skip stale s ss (h s (by simp))]; exact ih fun s' hs => h s' (by simp [hs])

theorem sbpPeriods_mem {l : Nat} {a : BitVec 16} {w : BitVec 20} (h : l ∈ sbpPeriods a w) :
    l = 9000 ∨ l = 5000 ∨ l = 2000 ∨ l = 1000 := by
  simp only [sbpPeriods, List.mem_append, List.mem_singleton, List.mem_map] at h
  rcases h with ((rfl | ⟨i, -, rfl⟩) | rfl) | ⟨i, -, rfl⟩
  · exact .inl rfl
  · split <;> simp
  · simp
  · split <;> simp

theorem denonPeriods_mem {l : Nat} {w : BitVec 48} (h : l ∈ denonPeriods w) : l = 5000 ∨ l = 1680 ∨ l = 840 := by
  simp only [denonPeriods, List.mem_append, List.mem_singleton, List.mem_map] at h
  rcases h with rfl | ⟨i, -, rfl⟩
  · exact .inl rfl
  · split <;> simp

/-- **C90**, SBP: if everything seems to take less than 93 or more than 107 percent of its time (within limits), a
receiver says nothing at all. -/
theorem C90_sbp_deaf (t : Target) (f : Nat) (hlo : 20000 ≤ f) (hf : f < 2 ^ 32) (m : Mono)
    (hm : m = Mono.u32 ∨ m = Mono.u64) (tbl : PulseSpans) (htbl : sbpSpans t m f = some tbl) (conv : SbpCommand → K)
    (r lo hi : Nat) (hlh : lo = 50 ∧ hi = 93 ∨ lo = 107 ∧ hi = 160) (hr : lo * f ≤ 100 * r) (u : Nat) (hu : 0 < u)
    (phase t0 g : Nat) (hg : Pause tbl m.width [0] (0, g))
    (items : List ((BitVec 16 × BitVec 20 × List (Nat × Nat)) × (Nat × Nat)))
    (hok : ∀ i ∈ items, SeemPeriods u f r lo hi (sbpPeriods i.1.1 i.1.2.1) i.1.2.2 ∧
      20000 * u ≤ 1000000 * (i.2.1 + i.2.2) ∧ (i.2.1 + i.2.2) * r + u < 2 ^ m.width * u) :
    (results (sbpDecoder t m tbl) conv
        ((true, g) :: clocked u r phase t0 (series (fun i => i.2.2) items))).map said = some [] := by
  have hb : Kind.sbp.build t m f = some tbl := htbl
  have h32 : 2 ^ 32 ≤ 2 ^ m.width := Nat.pow_le_pow_right (by decide) (by rcases hm with rfl | rfl <;> decide)
  have hq := deaf_pulses (tbl := tbl) (w := m.width) hu hr (fun i : BitVec 16 × BitVec 20 × List (Nat × Nat) => i.2.2)
    (fun i => sbpPeriods i.1 i.2.1)
    (by
      intro a l hl d h1 h2
      have hl := sbpPeriods_mem hl
      refine ⟨?_, kind_rejects hm hf hb (i := 0) (l := 9000) (tol := 5) rfl ?_⟩
      · rcases hlh with ⟨rfl, rfl⟩ | ⟨rfl, rfl⟩ <;> rcases hl with rfl | rfl | rfl | rfl <;> omega
      · rcases hlh with ⟨rfl, rfl⟩ | ⟨rfl, rfl⟩ <;> rcases hl with rfl | rfl | rfl | rfl <;> omega)
    (by
      intro d h
      refine kind_rejects hm hf hb (i := 0) (l := 9000) (tol := 5) rfl (.inl ?_)
      rcases hlh with ⟨rfl, rfl⟩ | ⟨rfl, rfl⟩ <;> omega) hok phase t0
  have hgw : g < 2 ^ m.width := by simpa using hg.1
  have hlt := fun q h => (hq q h).1
  rw [series, clocked_pulses]
  have halt := pulses_alternating g (clockedPulses u r phase t0 (items.flatMap fun i => i.1.2.2 ++ [i.2]))
  rcases hr : results (sbpDecoder t m tbl) conv
      ((true, g) :: pulses (clockedPulses u r phase t0 (items.flatMap fun i => i.1.2.2 ++ [i.2]))) with _ | outs
  · exact absurd ((C30_sbp_panics_iff t m hm tbl conv _ halt).mp hr).2 (pulses_small hgw hlt)
  · refine (congrArg (Option.map said) hr).trans ?_
    rw [Option.map_some, C67_sbp t m (Mono.prim_lawful hm) tbl conv _ halt outs hr, pulses_symbols tbl hgw hlt,
      sbpParse_skip, sbpParse_quiet]
    · rfl
    · intro s hs
      obtain ⟨q, hq', rfl⟩ := List.mem_map.mp hs
      exact (hq q hq').2
    · exact fun h => hg.2 0 (by simp) (by simpa using get_inTol h)

/-- **C90**, Denon: the same below 89 and above 110 percent. -/
theorem C90_denon_deaf (t : Target) (f : Nat) (hlo : 20000 ≤ f) (hf : f < 2 ^ 32) (m : Mono)
    (hm : m = Mono.u32 ∨ m = Mono.u64) (tbl : PulseSpans) (htbl : denonSpans t m f = some tbl) (conv : DenonCommand → K)
    (r lo hi : Nat) (hlh : lo = 50 ∧ hi = 89 ∨ lo = 110 ∧ hi = 200) (hr : lo * f ≤ 100 * r) (u : Nat) (hu : 0 < u)
    (phase t0 g : Nat) (hg : Pause tbl m.width [0] (0, g))
    (items : List ((BitVec 48 × List (Nat × Nat)) × (Nat × Nat)))
    (hok : ∀ i ∈ items, SeemPeriods u f r lo hi (denonPeriods i.1.1) i.1.2 ∧
      20000 * u ≤ 1000000 * (i.2.1 + i.2.2) ∧ (i.2.1 + i.2.2) * r + u < 2 ^ m.width * u) :
    (results (denonDecoder t m tbl) conv
        ((true, g) :: clocked u r phase t0 (series (fun i => i.2) items))).map said = some [] := by
  have hb : Kind.denon.build t m f = some tbl := htbl
  have h32 : 2 ^ 32 ≤ 2 ^ m.width := Nat.pow_le_pow_right (by decide) (by rcases hm with rfl | rfl <;> decide)
  have hq := deaf_pulses (tbl := tbl) (w := m.width) hu hr (fun i : BitVec 48 × List (Nat × Nat) => i.2)
    (fun i => denonPeriods i.1)
    (by
      intro a l hl d h1 h2
      have hl := denonPeriods_mem hl
      refine ⟨?_, kind_rejects hm hf hb (i := 0) (l := 5000) (tol := 8) rfl ?_⟩
      · rcases hlh with ⟨rfl, rfl⟩ | ⟨rfl, rfl⟩ <;> rcases hl with rfl | rfl | rfl <;> omega
      · rcases hlh with ⟨rfl, rfl⟩ | ⟨rfl, rfl⟩ <;> rcases hl with rfl | rfl | rfl <;> omega)
    (by
      intro d h
      refine kind_rejects hm hf hb (i := 0) (l := 5000) (tol := 8) rfl (.inl ?_)
      rcases hlh with ⟨rfl, rfl⟩ | ⟨rfl, rfl⟩ <;> omega) hok phase t0
  have hgw : g < 2 ^ m.width := by simpa using hg.1
  have hlt := fun q h => (hq q h).1
  rw [series, clocked_pulses]
  rcases hr : results (denonDecoder t m tbl) conv
      ((true, g) :: pulses (clockedPulses u r phase t0 (items.flatMap fun i => i.1.2 ++ [i.2]))) with _ | outs
  · exact absurd ((C30_denon_panics_iff t m hm tbl conv _).mp hr).2 (pulses_small hgw hlt)
  · refine (congrArg (Option.map said) hr).trans ?_
    rw [Option.map_some, C67_denon t m (Mono.prim_lawful hm) tbl conv _ outs hr, pulses_symbols tbl hgw hlt,
      denonParse_skip, denonParse_quiet]
    · rfl
    · intro s hs
      obtain ⟨q, hq', rfl⟩ := List.mem_map.mp hs
      exact (hq q hq').2
    · exact fun h => hg.2 0 (by simp) (by simpa using get_inTol h)

/-! ## Polled receivers -/

/-- **C90**, slow clocks, NEC timing, polled. -/
theorem C90_nec_slow_polled (t : Target) (f : Nat) (hlo : 20000 ≤ f) (hf : f < 2 ^ 32) (v : NecVariant C)
    (hv : v.pulseDistance = necStandardTiming) (tbl : PulseSpans)
    (htbl : necSpans t Mono.u32 v f = some tbl) (conv : C → K) (r : Nat) (hr : 78 * f ≤ 100 * r) (u : Nat)
    (hu : 0 < u) (phase pause : Nat) (hg : Pause tbl 32 [0, 1] (0, reading u r phase pause + 1))
    (items : List (NecItem × (Nat × Nat)))
    (hok : ∀ i ∈ items, i.1.Seems u f r 78 88 13500 11250 ∧
      20000 * u ≤ 1000000 * (i.2.1 + i.2.2) ∧ (i.2.1 + i.2.2) * r + u < 2 ^ 32 * u)
    (hmin : ∀ e ∈ series NecItem.wire items, u ≤ e.2 * r)
    (hmax : ∀ e ∈ series NecItem.wire items, e.2 * r / u + 1 < 2 ^ 32)
    (n : Nat) (hn : reading u r phase (duration ((true, pause) :: series NecItem.wire items)) < n) :
    (pollRun (necDecoder t Mono.u32 tbl v) conv
        (polled u r phase ((true, pause) :: series NecItem.wire items) n)).map said =
      some (oks ((necMistaken v.unpack (items.map Prod.fst)).map conv)) := by
  have hg1 := hg.1
  dsimp only at hg1
  rw [C54_polled_line_long _ conv u hu r phase true pause _ (changes_series ..) hmin n hn (by omega) hmax]
  exact C90_nec_slow t f hlo hf v hv Mono.u32 (.inl rfl) tbl htbl conv r hr u hu phase pause _ hg items hok

/-- **C90**, slow clocks, Samsung timing, polled. -/
theorem C90_samsung_slow_polled (t : Target) (f : Nat) (hlo : 20000 ≤ f) (hf : f < 2 ^ 32) (v : NecVariant C)
    (hv : v.pulseDistance = necSamsungTiming) (tbl : PulseSpans)
    (htbl : necSpans t Mono.u32 v f = some tbl) (conv : C → K) (r : Nat) (hr : 71 * f ≤ 100 * r) (u : Nat)
    (hu : 0 < u) (phase pause : Nat) (hg : Pause tbl 32 [0, 1] (0, reading u r phase pause + 1))
    (items : List (NecItem × (Nat × Nat)))
    (hok : ∀ i ∈ items, i.1.Seems u f r 71 78 9000 6750 ∧
      20000 * u ≤ 1000000 * (i.2.1 + i.2.2) ∧ (i.2.1 + i.2.2) * r + u < 2 ^ 32 * u)
    (hmin : ∀ e ∈ series NecItem.wire items, u ≤ e.2 * r)
    (hmax : ∀ e ∈ series NecItem.wire items, e.2 * r / u + 1 < 2 ^ 32)
    (n : Nat) (hn : reading u r phase (duration ((true, pause) :: series NecItem.wire items)) < n) :
    (pollRun (necDecoder t Mono.u32 tbl v) conv
        (polled u r phase ((true, pause) :: series NecItem.wire items) n)).map said =
      some (oks ((necMistaken v.unpack (items.map Prod.fst)).map conv)) := by
  have hg1 := hg.1
  dsimp only at hg1
  rw [C54_polled_line_long _ conv u hu r phase true pause _ (changes_series ..) hmin n hn (by omega) hmax]
  exact C90_samsung_slow t f hlo hf v hv Mono.u32 (.inl rfl) tbl htbl conv r hr u hu phase pause _ hg items hok

/-- **C90**, fast clocks, NEC family, polled. -/
theorem C90_nec_fast_polled (t : Target) (f : Nat) (hlo : 20000 ≤ f) (hf : f < 2 ^ 32) (v : NecVariant C)
    (hv : v.Shipped) (tbl : PulseSpans)
    (htbl : necSpans t Mono.u32 v f = some tbl) (conv : C → K) (r : Nat) (hr : f ≤ r) (u : Nat)
    (hu : 0 < u) (phase pause : Nat) (hg : Pause tbl 32 [0, 1] (0, reading u r phase pause + 1))
    (items : List (NecItem × (Nat × Nat)))
    (hok : ∀ i ∈ items, i.1.Seems u f r 109 200 (v.pulseDistance.headerHigh + v.pulseDistance.headerLow)
      (v.pulseDistance.headerHigh + v.pulseDistance.repeatLow) ∧
      20000 * u ≤ 1000000 * (i.2.1 + i.2.2) ∧ (i.2.1 + i.2.2) * r + u < 2 ^ 32 * u)
    (hmin : ∀ e ∈ series NecItem.wire items, u ≤ e.2 * r)
    (hmax : ∀ e ∈ series NecItem.wire items, e.2 * r / u + 1 < 2 ^ 32)
    (n : Nat) (hn : reading u r phase (duration ((true, pause) :: series NecItem.wire items)) < n) :
    (pollRun (necDecoder t Mono.u32 tbl v) conv
        (polled u r phase ((true, pause) :: series NecItem.wire items) n)).map commands = some [] := by
  have hg1 := hg.1
  dsimp only at hg1
  have hcs : (commands ∘ said : List (Res K) → List K) = commands := funext commands_said
  rw [← hcs, ← Option.map_map,
    C54_polled_line_long _ conv u hu r phase true pause _ (changes_series ..) hmin n hn (by omega) hmax,
    Option.map_map, hcs]
  exact C90_nec_fast t f hlo hf v hv Mono.u32 (.inl rfl) tbl htbl conv r hr u hu phase pause _ hg items hok

/-- **C90**, SBP, polled. -/
theorem C90_sbp_deaf_polled (t : Target) (f : Nat) (hlo : 20000 ≤ f) (hf : f < 2 ^ 32) (tbl : PulseSpans)
    (htbl : sbpSpans t Mono.u32 f = some tbl) (conv : SbpCommand → K)
    (r lo hi : Nat) (hlh : lo = 50 ∧ hi = 93 ∨ lo = 107 ∧ hi = 160) (hr : lo * f ≤ 100 * r) (u : Nat) (hu : 0 < u)
    (phase pause : Nat) (hg : Pause tbl 32 [0] (0, reading u r phase pause + 1))
    (items : List ((BitVec 16 × BitVec 20 × List (Nat × Nat)) × (Nat × Nat)))
    (hok : ∀ i ∈ items, SeemPeriods u f r lo hi (sbpPeriods i.1.1 i.1.2.1) i.1.2.2 ∧
      20000 * u ≤ 1000000 * (i.2.1 + i.2.2) ∧ (i.2.1 + i.2.2) * r + u < 2 ^ 32 * u)
    (hmin : ∀ e ∈ series (fun i : BitVec 16 × BitVec 20 × List (Nat × Nat) => i.2.2) items, u ≤ e.2 * r)
    (hmax : ∀ e ∈ series (fun i : BitVec 16 × BitVec 20 × List (Nat × Nat) => i.2.2) items,
      e.2 * r / u + 1 < 2 ^ 32)
    (n : Nat) (hn : reading u r phase (duration ((true, pause) :: series (fun i => i.2.2) items)) < n) :
    (pollRun (sbpDecoder t Mono.u32 tbl) conv
        (polled u r phase ((true, pause) :: series (fun i => i.2.2) items) n)).map said = some [] := by
  have hg1 := hg.1
  dsimp only at hg1
  rw [C54_polled_line_long _ conv u hu r phase true pause _ (changes_series ..) hmin n hn (by omega) hmax]
  exact C90_sbp_deaf t f hlo hf Mono.u32 (.inl rfl) tbl htbl conv r lo hi hlh hr u hu phase pause _ hg items hok

/-- **C90**, Denon, polled. -/
theorem C90_denon_deaf_polled (t : Target) (f : Nat) (hlo : 20000 ≤ f) (hf : f < 2 ^ 32) (tbl : PulseSpans)
    (htbl : denonSpans t Mono.u32 f = some tbl) (conv : DenonCommand → K)
    (r lo hi : Nat) (hlh : lo = 50 ∧ hi = 89 ∨ lo = 110 ∧ hi = 200) (hr : lo * f ≤ 100 * r) (u : Nat) (hu : 0 < u)
    (phase pause : Nat) (hg : Pause tbl 32 [0] (0, reading u r phase pause + 1))
    (items : List ((BitVec 48 × List (Nat × Nat)) × (Nat × Nat)))
    (hok : ∀ i ∈ items, SeemPeriods u f r lo hi (denonPeriods i.1.1) i.1.2 ∧
      20000 * u ≤ 1000000 * (i.2.1 + i.2.2) ∧ (i.2.1 + i.2.2) * r + u < 2 ^ 32 * u)
    (hmin : ∀ e ∈ series (fun i : BitVec 48 × List (Nat × Nat) => i.2) items, u ≤ e.2 * r)
    (hmax : ∀ e ∈ series (fun i : BitVec 48 × List (Nat × Nat) => i.2) items, e.2 * r / u + 1 < 2 ^ 32)
    (n : Nat) (hn : reading u r phase (duration ((true, pause) :: series (fun i => i.2) items)) < n) :
    (pollRun (denonDecoder t Mono.u32 tbl) conv
        (polled u r phase ((true, pause) :: series (fun i => i.2) items) n)).map said = some [] := by
  have hg1 := hg.1
  dsimp only at hg1
  rw [C54_polled_line_long _ conv u hu r phase true pause _ (changes_series ..) hmin n hn (by omega) hmax]
  exact C90_denon_deaf t f hlo hf Mono.u32 (.inl rfl) tbl htbl conv r lo hi hlh hr u hu phase pause _ hg items hok

/-! ## Non-vacuity -/

/-- Periods of exactly the given lengths in µs (times in ns), each with a mark of 500 µs. -/
def exactPeriods (ls : List Nat) : List (Nat × Nat) := ls.map fun l => (500000, 1000 * l - 500000)

theorem exactPeriods_near (ls : List Nat) (h : ∀ l ∈ ls, 500 ≤ l) : NearPeriods 1000000000 0 ls (exactPeriods ls) := by
  refine ⟨by simp [exactPeriods], fun i p l hp hl => ?_⟩
  rw [exactPeriods, List.getElem?_map, hl, Option.map_some, Option.some.injEq] at hp
  subst hp
  have := h l (List.mem_of_getElem? hl)
  unfold Near
  dsimp only
  omega

theorem exactPeriods_seem {f r lo hi : Nat} (h1 : lo * f ≤ 100 * r) (h2 : 100 * r ≤ hi * f) (ls : List Nat)
    (h : ∀ l ∈ ls, 500 ≤ l) : SeemPeriods 1000000000 f r lo hi ls (exactPeriods ls) := by
  refine ⟨by simp [exactPeriods], fun i p l hp hl => ?_⟩
  rw [exactPeriods, List.getElem?_map, hl, Option.map_some, Option.some.injEq] at hp
  subst hp
  have := h l (List.mem_of_getElem? hl)
  have e : (500000 + (1000 * l - 500000)) = 1000 * l := by omega
  unfold Spec.Seems
  dsimp only
  rw [e]
  have m1 := Nat.mul_le_mul_left (1000000000 * l) h1
  have m2 := Nat.mul_le_mul_left (1000000000 * l) h2
  have e1 : 1000000000 * l * (lo * f) = lo * l * (1000000000 * f) := by ac_rfl
  have e2 : 1000000000 * l * (hi * f) = hi * l * (1000000000 * f) := by ac_rfl
  have e3 : 1000000000 * l * (100 * r) = 100000000 * (1000 * l * r) := by
    rw [Nat.mul_mul_mul_comm, Nat.mul_assoc 1000, ← Nat.mul_assoc 100000000]
  omega

/-- A frame, a repeat code and another frame, exactly timed. -/
def exactNec : List (NecItem × (Nat × Nat)) :=
  [(.frame 0xE718FF00#32 (exactPeriods (necPeriods 13500 0xE718FF00#32)), (560000, 40000000)),
    (.rep (9000000, 2250000), (560000, 90000000)),
    (.frame 0xE916FF00#32 (exactPeriods (necPeriods 13500 0xE916FF00#32)), (560000, 40000000))]

/-- A receiver built for 40 kHz but clocked with 34 kHz hears two repetitions of key 0 instead. -/
example (t : Target) (phase t0 : Nat) :
    (results (necDecoder t Mono.u32 (necTable 40000) Infrared.nec) id
        ((true, 4000) :: clocked 1000000000 34000 phase t0 (series NecItem.wire exactNec))).map said =
      some [.ok (some ⟨0, 0, true⟩), .ok (some ⟨0, 0, true⟩)] := by
  have htbl : necSpans t Mono.u32 Infrared.nec 40000 = some (necTable 40000) :=
    necSpans_standard (.inl rfl) t (by decide) Infrared.nec rfl
  rw [C90_nec_slow t 40000 (by decide) (by decide) Infrared.nec rfl Mono.u32 (.inl rfl) _ htbl id 34000 (by decide)
    1000000000 (by decide) phase t0 4000 (pause_of_get (by decide) (by decide +kernel)) exactNec (by
      intro i hi
      simp only [exactNec, List.mem_cons, List.not_mem_nil, or_false] at hi
      rcases hi with rfl | rfl | rfl
      · exact ⟨exactPeriods_seem (by decide) (by decide) _ (by decide +kernel), by decide, by decide⟩
      · exact ⟨⟨by decide, by decide⟩, by decide, by decide⟩
      · exact ⟨exactPeriods_seem (by decide) (by decide) _ (by decide +kernel), by decide, by decide⟩)]
  decide +kernel

/-- Clocked with 45 kHz it hears nothing. -/
example (t : Target) (phase t0 : Nat) :
    (results (necDecoder t Mono.u32 (necTable 40000) Infrared.nec) id
        ((true, 4000) :: clocked 1000000000 45000 phase t0 (series NecItem.wire exactNec))).map commands = some [] := by
  have htbl : necSpans t Mono.u32 Infrared.nec 40000 = some (necTable 40000) :=
    necSpans_standard (.inl rfl) t (by decide) Infrared.nec rfl
  refine C90_nec_fast t 40000 (by decide) (by decide) Infrared.nec (.inl rfl) Mono.u32 (.inl rfl) _ htbl id 45000
    (by decide) 1000000000 (by decide) phase t0 4000 (pause_of_get (by decide) (by decide +kernel)) exactNec ?_
  intro i hi
  simp only [exactNec, List.mem_cons, List.not_mem_nil, or_false] at hi
  rcases hi with rfl | rfl | rfl
  · exact ⟨exactPeriods_seem (by decide) (by decide) _ (by decide +kernel), by decide, by decide⟩
  · exact ⟨⟨by decide, by decide⟩, by decide, by decide⟩
  · exact ⟨exactPeriods_seem (by decide) (by decide) _ (by decide +kernel), by decide, by decide⟩

/-- Clocked with 41 kHz it hears all three (C89, a clock within 3 percent and an exact transmitter). -/
example (t : Target) (phase t0 : Nat) :
    (results (necDecoder t Mono.u32 (necTable 40000) Infrared.nec) id
        ((true, 4000) :: clocked 1000000000 41000 phase t0 (series NecItem.wire exactNec))).map said =
      some [.ok (some ⟨0, 0x18, false⟩), .ok (some ⟨0, 0x18, true⟩), .ok (some ⟨0, 0x16, false⟩)] := by
  have htbl : necSpans t Mono.u32 Infrared.nec 40000 = some (necTable 40000) :=
    necSpans_standard (.inl rfl) t (by decide) Infrared.nec rfl
  rw [C89_nec t 40000 6 (by decide) (by decide) Infrared.nec (.inl rfl) Mono.u32 (.inl rfl) _ htbl (by decide +kernel) id
    41000 3 0 (by decide) ⟨by decide, by decide⟩ ⟨by decide, by decide⟩
    1000000000 (by decide) phase t0 4000 (pause_of_get (by decide) (by decide +kernel)) exactNec (by
      intro i hi
      simp only [exactNec, List.mem_cons, List.not_mem_nil, or_false] at hi
      rcases hi with rfl | rfl | rfl
      · exact ⟨exactPeriods_near _ (by decide +kernel), by decide, by decide⟩
      · exact ⟨⟨by decide, by decide⟩, by decide, by decide⟩
      · exact ⟨exactPeriods_near _ (by decide +kernel), by decide, by decide⟩)]
  decide +kernel

/-- An SBP frame, exactly timed, and a receiver for 1 MHz clocked with 900 kHz. -/
example (t : Target) (phase t0 : Nat) :
    (results (sbpDecoder t Mono.u32 (sbpTable 1000000)) id
        ((true, 100000) :: clocked 1000000000 900000 phase t0
          (series (fun i : BitVec 16 × BitVec 20 × List (Nat × Nat) => i.2.2)
            [((0x1234#16, 0xABCDE#20, exactPeriods (sbpPeriods 0x1234#16 0xABCDE#20)), (560000, 40000000))]))).map said =
      some [] := by
  have htbl : sbpSpans t Mono.u32 1000000 = some (sbpTable 1000000) := sbpSpans_eq (.inl rfl) t (by decide)
  refine C90_sbp_deaf t 1000000 (by decide) (by decide) Mono.u32 (.inl rfl) _ htbl id 900000 50 93 (.inl ⟨rfl, rfl⟩)
    (by decide) 1000000000 (by decide) phase t0 100000 (pause_of_get (by decide) (by decide +kernel)) _ ?_
  intro i hi
  rw [List.mem_singleton] at hi
  subst hi
  exact ⟨exactPeriods_seem (by decide) (by decide) _ (by decide +kernel), by decide, by decide⟩

/-- A Denon frame, exactly timed, and a receiver for 1 MHz clocked with 1.15 MHz. -/
example (t : Target) (phase t0 : Nat) :
    (results (denonDecoder t Mono.u32 (denonTable 1000000)) id
        ((true, 100000) :: clocked 1000000000 1150000 phase t0
          (series (fun i : BitVec 48 × List (Nat × Nat) => i.2)
            [((0x2A4C028D6F00#48, exactPeriods (denonPeriods 0x2A4C028D6F00#48)), (560000, 40000000))]))).map said =
      some [] := by
  have htbl : denonSpans t Mono.u32 1000000 = some (denonTable 1000000) := denonSpans_eq (.inl rfl) t (by decide)
  refine C90_denon_deaf t 1000000 (by decide) (by decide) Mono.u32 (.inl rfl) _ htbl id 1150000 110 200 (.inr ⟨rfl, rfl⟩)
    (by decide) 1000000000 (by decide) phase t0 100000 (pause_of_get (by decide) (by decide +kernel)) _ ?_
  intro i hi
  rw [List.mem_singleton] at hi
  subst hi
  exact ⟨exactPeriods_seem (by decide) (by decide) _ (by decide +kernel), by decide, by decide⟩

end Infrared
