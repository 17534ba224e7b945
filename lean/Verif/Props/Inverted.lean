import Verif.Props.DriftBi
import Verif.Spec.Inverted

/-!
# Lines of the wrong polarity (C91)
-/

namespace Infrared

open Spec

variable {C K : Type}

/-! ## Sums in real time and as measured -/

theorem sums_clocked {u f phase : Nat} (es : List (Bool × Nat)) (s t : Nat) :
    ∀ d ∈ sumsFrom (reading u f phase (t + s) - reading u f phase t) (clocked u f phase (t + s) es),
      ∃ x ∈ sumsFrom s es, ∃ t', d = reading u f phase (t' + x) - reading u f phase t' := by
  induction es generalizing s t with
  | nil => simp [clocked, sumsFrom]
  | cons e es ih =>
    obtain ⟨_ | _, x⟩ := e
    · rw [clocked, sumsFrom, sumsFrom]
      exact ih x (t + s)
    · rw [clocked, sumsFrom, sumsFrom]
      intro d hd
      rw [List.mem_cons] at hd
      rcases hd with rfl | hd
      · refine ⟨s + x, List.mem_cons_self .., t, ?_⟩
        have h1 := reading_mono u f phase t s
        have h2 := reading_mono u f phase (t + s) x
        rw [← Nat.add_assoc]
        omega
      · have := ih 0 (t + s + x) d (by simpa using hd)
        obtain ⟨y, hy, t', h⟩ := this
        exact ⟨y, List.mem_cons_of_mem _ hy, t', h⟩

theorem periods_sums (w : Nat) (evs : List Ev) (s : Nat) (h : ∀ d ∈ sumsFrom s evs, d < 2 ^ w) :
    periodsFrom w s evs = sumsFrom s evs := by
  induction evs generalizing s with
  | nil => rfl
  | cons e evs ih =>
    obtain ⟨_ | _, x⟩ := e
    · rw [periodsFrom, sumsFrom]
      rw [sumsFrom] at h
      exact ih _ h
    · rw [periodsFrom, sumsFrom]
      rw [sumsFrom] at h
      rw [Nat.mod_eq_of_lt (h _ (List.mem_cons_self ..)), ih _ fun d hd => h d (List.mem_cons_of_mem _ hd)]

/-! ## Receivers that never measure a sync pulse say nothing -/

theorem nec_quiet (t : Target) {m : Mono} (hm : m = Mono.u32 ∨ m = Mono.u64) (tbl : PulseSpans) (v : NecVariant C)
    (conv : C → K) (evs : List Ev)
    (h : ∀ d ∈ sums evs, d < 2 ^ m.width ∧ tbl.get d ≠ some 0 ∧ tbl.get d ≠ some 1) :
    (results (necDecoder t m tbl v) conv evs).map said = some [] := by
  rcases hr : results (necDecoder t m tbl v) conv evs with _ | outs
  · obtain ⟨-, p, hp, hp'⟩ := (C30_nec_panics_iff t m hm tbl v conv _).mp hr
    have := (h p hp).1
    omega
  · rw [Option.map_some, C67_nec t m (Mono.prim_lawful hm) tbl v conv _ outs hr, symbols, periods,
      periods_sums _ _ _ fun d hd => (h d hd).1, necParse_quiet]
    · rfl
    · intro s hs
      obtain ⟨d, hd, rfl⟩ := List.mem_map.mp hs
      exact (h d hd).2

theorem sbp_quiet (t : Target) {m : Mono} (hm : m = Mono.u32 ∨ m = Mono.u64) (tbl : PulseSpans)
    (conv : SbpCommand → K) (evs : List Ev) (halt : Alternating evs)
    (h : ∀ d ∈ sums evs, d < 2 ^ m.width ∧ tbl.get d ≠ some 0) :
    (results (sbpDecoder t m tbl) conv evs).map said = some [] := by
  rcases hr : results (sbpDecoder t m tbl) conv evs with _ | outs
  · obtain ⟨-, p, hp, hp'⟩ := (C30_sbp_panics_iff t m hm tbl conv _ halt).mp hr
    have := (h p hp).1
    omega
  · rw [Option.map_some, C67_sbp t m (Mono.prim_lawful hm) tbl conv _ halt outs hr, symbols, periods,
      periods_sums _ _ _ fun d hd => (h d hd).1, sbpParse_quiet]
    · rfl
    · intro s hs
      obtain ⟨d, hd, rfl⟩ := List.mem_map.mp hs
      exact (h d hd).2

theorem denon_quiet (t : Target) {m : Mono} (hm : m = Mono.u32 ∨ m = Mono.u64) (tbl : PulseSpans)
    (conv : DenonCommand → K) (evs : List Ev)
    (h : ∀ d ∈ sums evs, d < 2 ^ m.width ∧ tbl.get d ≠ some 0) :
    (results (denonDecoder t m tbl) conv evs).map said = some [] := by
  rcases hr : results (denonDecoder t m tbl) conv evs with _ | outs
  · obtain ⟨-, p, hp, hp'⟩ := (C30_denon_panics_iff t m hm tbl conv _).mp hr
    have := (h p hp).1
    omega
  · rw [Option.map_some, C67_denon t m (Mono.prim_lawful hm) tbl conv _ outs hr, symbols, periods,
      periods_sums _ _ _ fun d hd => (h d hd).1, denonParse_quiet]
    · rfl
    · intro s hs
      obtain ⟨d, hd, rfl⟩ := List.mem_map.mp hs
      exact (h d hd).2

/-! ## The sums of an inverted line -/

/-- A transmission: first mark at most `H`, the others at most `M`, spaces at most `S`. -/
def Brief (H M S : Nat) : List (Nat × Nat) → Prop
  | [] => False
  | (h, l) :: ps => h ≤ H ∧ l ≤ S ∧ ∀ q ∈ ps, q.1 ≤ M ∧ q.2 ≤ S

theorem sums_step (s h l : Nat) (ps : List (Nat × Nat)) :
    sumsFrom s (inverted (pulses ((h, l) :: ps))) = (s + h) :: sumsFrom l (inverted (pulses ps)) := rfl

theorem sums_brief {M S : Nat} (ps rest : List (Nat × Nat)) (hps : ∀ q ∈ ps, q.1 ≤ M ∧ q.2 ≤ S) (stop pause : Nat)
    (hstop : stop ≤ M) (l : Nat) (hl : l ≤ S) :
    ∀ x ∈ sumsFrom l (inverted (pulses (ps ++ (stop, pause) :: rest))),
      x ≤ S + M ∨ x ∈ sumsFrom pause (inverted (pulses rest)) := by
  induction ps generalizing l with
  | nil =>
    rw [List.nil_append, sums_step]
    intro x hx
    rw [List.mem_cons] at hx
    rcases hx with rfl | hx
    · left; omega
    · exact .inr hx
  | cons q ps ih =>
    obtain ⟨h, l'⟩ := q
    obtain ⟨h1, h2⟩ := hps (h, l') (by simp)
    rw [List.cons_append, sums_step]
    intro x hx
    rw [List.mem_cons] at hx
    rcases hx with rfl | hx
    · left; dsimp only at h1; omega
    · exact ih (fun q hq => hps q (by simp [hq])) l' h2 x hx

theorem sums_series {A : Type} {H M S : Nat} (P : Nat → Prop) (wire : A → List (Nat × Nat))
    (items : List (A × (Nat × Nat))) (hok : ∀ i ∈ items, Brief H M S (wire i.1) ∧ i.2.1 ≤ M ∧ P i.2.2) (p : Nat) (hp : P p) :
    ∀ x ∈ sums (inverted ((true, p) :: series wire items)), x ≤ S + M ∨ ∃ q h, x = q + h ∧ P q ∧ h ≤ H := by
  have key : ∀ (items : List (A × (Nat × Nat))), (∀ i ∈ items, Brief H M S (wire i.1) ∧ i.2.1 ≤ M ∧ P i.2.2) →
      ∀ p, P p → ∀ x ∈ sumsFrom p (inverted (pulses (items.flatMap fun i => wire i.1 ++ [i.2]))),
        x ≤ S + M ∨ ∃ q h, x = q + h ∧ P q ∧ h ≤ H := by
    intro items
    induction items with
    | nil => intro _ p _ x hx; simp [pulses, inverted, sumsFrom] at hx
    | cons i items ih =>
      intro hok p hp x hx
      obtain ⟨h1, h2, h3⟩ := hok i (by simp)
      rw [List.flatMap_cons] at hx
      rcases hw : wire i.1 with _ | ⟨⟨h, l⟩, ps⟩
      · rw [hw] at h1; exact h1.elim
      · rw [hw] at h1 hx
        obtain ⟨a, b, c⟩ := h1
        rw [List.cons_append, List.cons_append, sums_step, List.mem_cons, List.append_assoc, List.singleton_append] at hx
        rcases hx with rfl | hx
        · exact .inr ⟨p, h, rfl, hp, a⟩
        · rcases sums_brief ps _ c i.2.1 i.2.2 h2 l b x hx with h | h
          · exact .inl h
          · exact ih (fun i hi => hok i (by simp [hi])) _ h3 x h
  exact key items hok p hp

/-- What is measured of such a line: short times, or times of 20 ms and more. -/
theorem measured_series {A : Type} {u f j H M S w : Nat} (hu : 0 < u) (hf : f < 2 ^ 32) (hw : 32 ≤ w)
    (hH : (100 + j) * H ≤ 10000000) (hS : (100 + j) * (S + M) ≤ 10000000)
    (wire : A → List (Nat × Nat)) (items : List (A × (Nat × Nat)))
    (hok : ∀ i ∈ items, Brief ((100 + j) * H * u / 100000000) ((100 + j) * M * u / 100000000)
      ((100 + j) * S * u / 100000000) (wire i.1) ∧ StopAndPause u f j M i.2) (p : Nat)
    (hp : 20000 * u ≤ 1000000 * p ∧ p * f < 2 ^ 31 * u) (phase t0 : Nat) :
    ∀ d ∈ sums (clocked u f phase t0 (inverted ((true, p) :: series wire items))),
      d < 2 ^ w ∧ (100000000 * d ≤ (100 + j) * (S + M) * f + 100000000 ∨ 20000 * f ≤ 1000000 * (d + 1)) := by
  intro d hd
  have h0 := sums_clocked (u := u) (f := f) (phase := phase) (inverted ((true, p) :: series wire items)) 0 t0 d (by
    simpa [sums] using hd)
  obtain ⟨x, hx, t', rfl⟩ := h0
  have hpow : 2 ^ 32 ≤ 2 ^ w := Nat.pow_le_pow_right (by decide) hw
  obtain ⟨b1, b2⟩ := reading_bounds hu f phase t' x
  rcases sums_series (fun q => 20000 * u ≤ 1000000 * q ∧ q * f < 2 ^ 31 * u) wire items (fun i hi => by
    obtain ⟨h1, ⟨-, h2⟩, h3⟩ := hok i hi
    exact ⟨h1, (Nat.le_div_iff_mul_le (by decide)).mpr (by omega), h3⟩) p hp x hx with h | ⟨q, h, rfl, ⟨q1, q2⟩, hh⟩
  · have hx' : 100000000 * x ≤ (100 + j) * (S + M) * u := by
      have e1 := Nat.div_mul_le_self ((100 + j) * M * u) 100000000
      have e2 := Nat.div_mul_le_self ((100 + j) * S * u) 100000000
      have e3 : (100 + j) * (S + M) * u = (100 + j) * S * u + (100 + j) * M * u := by rw [Nat.mul_add, Nat.add_mul]
      omega
    generalize reading u f phase (t' + x) - reading u f phase t' = d at *
    have key : 100000000 * d ≤ (100 + j) * (S + M) * f + 100000000 := by
      refine Nat.le_of_mul_le_mul_left (c := u) ?_ hu
      have e1 := Nat.mul_le_mul_right f hx'
      have e2 : (100 + j) * (S + M) * u * f = u * ((100 + j) * (S + M) * f) := by ac_rfl
      have e3 : 100000000 * x * f = 100000000 * (x * f) := Nat.mul_assoc ..
      have e4 : u * (100000000 * d) = 100000000 * (u * d) := by ac_rfl
      rw [Nat.mul_add]
      omega
    refine ⟨?_, .inl key⟩
    have := Nat.mul_le_mul_right f hS
    omega
  · generalize reading u f phase (t' + (q + h)) - reading u f phase t' = d at *
    have hh' : 100000000 * (h * f) ≤ 10000000 * (f * u) := by
      have e1 : 100000000 * h ≤ (100 + j) * H * u := by
        have := Nat.div_mul_le_self ((100 + j) * H * u) 100000000
        omega
      have e2 := Nat.mul_le_mul_right u hH
      have e3 := Nat.mul_le_mul_right f (Nat.le_trans e1 e2)
      have e4 : 100000000 * h * f = 100000000 * (h * f) := Nat.mul_assoc ..
      have e5 : 10000000 * u * f = 10000000 * (f * u) := by ac_rfl
      omega
    have hfu : f * u ≤ (2 ^ 32 - 1) * u := Nat.mul_le_mul_right u (by omega)
    constructor
    · refine Nat.lt_of_lt_of_le ?_ hpow
      refine Nat.lt_of_mul_lt_mul_left (a := u) ?_
      rw [Nat.add_mul] at b1
      have : u * 2 ^ 32 = 2 ^ 32 * u := Nat.mul_comm ..
      omega
    · right
      refine Nat.le_of_mul_le_mul_left (c := u) ?_ hu
      have e1 := Nat.mul_le_mul_right f q1
      have e2 : 20000 * u * f = u * (20000 * f) := by ac_rfl
      have e3 : 1000000 * q * f = 1000000 * (q * f) := Nat.mul_assoc ..
      have e4 : u * (1000000 * (d + 1)) = 1000000 * (u * d) + 1000000 * u := by
        rw [Nat.mul_add, Nat.mul_one]; rw [Nat.mul_add]; have : u * (1000000 * d) = 1000000 * (u * d) := by ac_rfl
        omega
      rw [Nat.add_mul] at b2
      omega

theorem near_le {u j us x : Nat} (h : Near u j us x) : x ≤ (100 + j) * us * u / 100000000 :=
  (Nat.le_div_iff_mul_le (by decide)).mpr (by have := h.2; omega)

theorem brief_of_near {u j H L M S : Nat} {nominal ps : List (Nat × Nat)} (h : NearPulses u j ((H, L) :: nominal) ps)
    (hL : L ≤ S) (hn : ∀ q ∈ nominal, q.1 ≤ M ∧ q.2 ≤ S) :
    Brief ((100 + j) * H * u / 100000000) ((100 + j) * M * u / 100000000) ((100 + j) * S * u / 100000000) ps := by
  obtain ⟨hl, h⟩ := h
  have mono : ∀ {a b : Nat}, a ≤ b → (100 + j) * a * u / 100000000 ≤ (100 + j) * b * u / 100000000 := fun hab =>
    Nat.div_le_div_right (Nat.mul_le_mul_right _ (Nat.mul_le_mul_left _ hab))
  cases ps with
  | nil => cases hl
  | cons p ps =>
    obtain ⟨a, b⟩ := p
    obtain ⟨h1, h2⟩ := h 0 _ _ rfl rfl
    refine ⟨near_le h1, Nat.le_trans (near_le h2) (mono hL), fun q hq => ?_⟩
    obtain ⟨i, hi⟩ := List.mem_iff_getElem?.mp hq
    have hil : i < nominal.length := by
      have := (List.getElem?_eq_some_iff.mp hi).1
      simp only [List.length_cons] at hl
      omega
    obtain ⟨n1, n2⟩ := hn _ (List.getElem_mem hil)
    obtain ⟨h3, h4⟩ := h (i + 1) q nominal[i] (by simpa using hi) (by simp)
    exact ⟨Nat.le_trans (near_le h3) (mono n1), Nat.le_trans (near_le h4) (mono n2)⟩

theorem necItem_brief {u j high low rep : Nat} {i : NecItem} (h : i.NearPulses u j high low rep) (hlow : low ≤ 4500)
    (hrep : rep ≤ 4500) : Brief ((100 + j) * high * u / 100000000) ((100 + j) * 560 * u / 100000000)
      ((100 + j) * 4500 * u / 100000000) i.wire := by
  cases i with
  | frame w ps =>
    refine brief_of_near h hlow fun q hq => ?_
    obtain ⟨i, -, rfl⟩ := List.mem_map.mp hq
    refine ⟨Nat.le_refl _, ?_⟩
    dsimp only
    split <;> decide
  | rep p => exact brief_of_near h hrep (by simp)

/-! ## The theorems -/

theorem changes_inverted (es : List (Bool × Nat)) (l : Bool) (h : Changes l es) : Changes (!l) (inverted es) := by
  induction es generalizing l with
  | nil => trivial
  | cons e es ih => exact ⟨by rw [h.1], ih e.1 h.2⟩

theorem sums_first (g : Nat) (evs : List Ev) : sums ((true, g) :: evs) = g :: sums evs := by
  rw [sums, sumsFrom, Nat.zero_add, sums]

theorem nec_slots_reject {t : Target} {m : Mono} (hm : m = Mono.u32 ∨ m = Mono.u64) {f : Nat} (hlo : 20000 ≤ f)
    (hf : f < 2 ^ 32) {v : NecVariant C} (hv : v.Shipped) {tbl : PulseSpans} (htbl : necSpans t m v f = some tbl) {d : Nat}
    (h : 100000000 * d ≤ 120 * 5060 * f + 100000000 ∨ 20000 * f ≤ 1000000 * (d + 1)) :
    tbl.get d ≠ some 0 ∧ tbl.get d ≠ some 1 := by
  rcases hv with hv | hv
  · have hb : Kind.nec.build t m f = some tbl := by rw [← htbl]; simp only [Kind.build, necSpans, hv]; rfl
    exact ⟨kind_rejects hm hf hb (i := 0) (l := 13500) (tol := 7) rfl (by omega),
      kind_rejects hm hf hb (i := 1) (l := 11250) (tol := 7) rfl (by omega)⟩
  · have hb : Kind.samsung.build t m f = some tbl := by rw [← htbl]; simp only [Kind.build, necSpans, hv]; rfl
    exact ⟨kind_rejects hm hf hb (i := 0) (l := 9000) (tol := 7) rfl (by omega),
      kind_rejects hm hf hb (i := 1) (l := 6750) (tol := 7) rfl (by omega)⟩

theorem nec_inverted_sums {t : Target} {m : Mono} (hm : m = Mono.u32 ∨ m = Mono.u64) {f : Nat} (hlo : 20000 ≤ f)
    (hf : f < 2 ^ 32) {v : NecVariant C} (hv : v.Shipped) {tbl : PulseSpans} (htbl : necSpans t m v f = some tbl)
    {u : Nat} (hu : 0 < u) {j : Nat} (hj : j ≤ 20) (phase t0 pause : Nat)
    (hp : 20000 * u ≤ 1000000 * pause ∧ pause * f < 2 ^ 31 * u) (items : List (NecItem × (Nat × Nat)))
    (hok : ∀ i ∈ items, i.1.NearPulses u j v.pulseDistance.headerHigh v.pulseDistance.headerLow v.pulseDistance.repeatLow ∧
      StopAndPause u f j 560 i.2) :
    ∀ d ∈ sums (clocked u f phase t0 (inverted ((true, pause) :: series NecItem.wire items))),
      d < 2 ^ m.width ∧ tbl.get d ≠ some 0 ∧ tbl.get d ≠ some 1 := by
  have hw : 32 ≤ m.width := by rcases hm with rfl | rfl <;> decide
  have hs : v.pulseDistance.headerHigh ≤ 9000 ∧ v.pulseDistance.headerLow ≤ 4500 ∧ v.pulseDistance.repeatLow ≤ 4500 := by
    rcases hv with hv | hv <;> rw [hv] <;> decide
  obtain ⟨s1, s2, s3⟩ := hs
  intro d hd
  have hj' : (100 + j) * 5060 ≤ 120 * 5060 := Nat.mul_le_mul_right _ (by omega)
  obtain ⟨h1, h2⟩ := measured_series (H := v.pulseDistance.headerHigh) (M := 560) (S := 4500) hu hf hw
    (Nat.le_trans (Nat.mul_le_mul (show 100 + j ≤ 120 by omega) s1) (by decide)) (by omega) NecItem.wire items
    (fun i hi => ⟨necItem_brief (hok i hi).1 s2 s3, (hok i hi).2⟩) pause hp phase t0 d hd
  exact ⟨h1, nec_slots_reject hm hlo hf hv htbl
    (h2.imp_left fun h => Nat.le_trans h (Nat.add_le_add_right (Nat.mul_le_mul_right f hj') _))⟩

/-- A polled receiver starts with a low level: it takes the idle line for a first edge. -/
theorem polled_inverted (D : Decoder C) (conv : C → K) {u f phase : Nat} (hu : 0 < u) (hph : phase < u)
    {line : List (Bool × Nat)} (hch : Changes false line) (hmin : ∀ e ∈ line, u ≤ e.2 * f)
    (hmax : ∀ e ∈ line, e.2 * f / u + 1 < 2 ^ 32) (n : Nat) (hn : reading u f phase (duration line) < n) :
    (pollRun D conv (polled u f phase ((true, 0) :: inverted line) n)).map said =
      (results D conv ((true, 1) :: clocked u f phase 0 (inverted line))).map said := by
  have hr : reading u f phase 0 = 0 := by
    unfold reading
    rw [Nat.zero_mul, Nat.zero_add, Nat.div_eq_of_lt hph]
  have hd : duration ((true, 0) :: inverted line) = duration line := by
    simp [duration, inverted, Function.comp_def]
  rw [C54_polled_line_long D conv u hu f phase true 0 (inverted line) ⟨rfl, changes_inverted line false hch⟩ ?_ n (by
    rw [hd]; exact hn) (by rw [hr]; decide) ?_, hr]
  · intro e he
    obtain ⟨e', he', rfl⟩ := List.mem_map.mp he
    exact hmin e' he'
  · intro e he
    obtain ⟨e', he', rfl⟩ := List.mem_map.mp he
    exact hmax e' he'

/-- **C91**, NEC family, events: a receiver on a line of the wrong polarity says nothing. -/
theorem C91_nec (t : Target) (f : Nat) (hlo : 20000 ≤ f) (hf : f < 2 ^ 32) (v : NecVariant C) (hv : v.Shipped) (m : Mono)
    (hm : m = Mono.u32 ∨ m = Mono.u64) (tbl : PulseSpans) (htbl : necSpans t m v f = some tbl) (conv : C → K)
    (u : Nat) (hu : 0 < u) (j : Nat) (hj : j ≤ 20) (phase t0 pause : Nat)
    (hp : 20000 * u ≤ 1000000 * pause ∧ pause * f < 2 ^ 31 * u) (items : List (NecItem × (Nat × Nat)))
    (hok : ∀ i ∈ items, i.1.NearPulses u j v.pulseDistance.headerHigh v.pulseDistance.headerLow v.pulseDistance.repeatLow ∧
      StopAndPause u f j 560 i.2) :
    (results (necDecoder t m tbl v) conv
        (clocked u f phase t0 (inverted ((true, pause) :: series NecItem.wire items)))).map said = some [] :=
  nec_quiet t hm tbl v conv _ (nec_inverted_sums hm hlo hf hv htbl hu hj phase t0 pause hp items hok)

/-- **C91**, NEC family, polled. -/
theorem C91_nec_polled (t : Target) (f : Nat) (hlo : 20000 ≤ f) (hf : f < 2 ^ 32) (v : NecVariant C) (hv : v.Shipped)
    (tbl : PulseSpans) (htbl : necSpans t Mono.u32 v f = some tbl) (conv : C → K)
    (u : Nat) (hu : 0 < u) (j : Nat) (hj : j ≤ 20) (phase : Nat) (hph : phase < u) (pause : Nat)
    (hp : 20000 * u ≤ 1000000 * pause ∧ pause * f < 2 ^ 31 * u) (items : List (NecItem × (Nat × Nat)))
    (hok : ∀ i ∈ items, i.1.NearPulses u j v.pulseDistance.headerHigh v.pulseDistance.headerLow v.pulseDistance.repeatLow ∧
      StopAndPause u f j 560 i.2)
    (hmin : ∀ e ∈ (true, pause) :: series NecItem.wire items, u ≤ e.2 * f)
    (hmax : ∀ e ∈ (true, pause) :: series NecItem.wire items, e.2 * f / u + 1 < 2 ^ 32)
    (n : Nat) (hn : reading u f phase (duration ((true, pause) :: series NecItem.wire items)) < n) :
    (pollRun (necDecoder t Mono.u32 tbl v) conv
        (polled u f phase ((true, 0) :: inverted ((true, pause) :: series NecItem.wire items)) n)).map said = some [] := by
  rw [polled_inverted _ conv hu hph (changes_series ..) hmin hmax n hn]
  refine nec_quiet t (.inl rfl) tbl v conv _ fun d hd => ?_
  rw [sums_first, List.mem_cons] at hd
  rcases hd with rfl | hd
  · exact ⟨by decide, nec_slots_reject (.inl rfl) hlo hf hv htbl (.inl (by omega))⟩
  · exact nec_inverted_sums (.inl rfl) hlo hf hv htbl hu hj phase 0 pause hp items hok d hd

/-! ## SBP -/

theorem sbp_slot_reject {t : Target} {m : Mono} (hm : m = Mono.u32 ∨ m = Mono.u64) {f : Nat} (hlo : 20000 ≤ f)
    (hf : f < 2 ^ 32) {tbl : PulseSpans} (htbl : sbpSpans t m f = some tbl) {d : Nat}
    (h : 100000000 * d ≤ 120 * 5000 * f + 100000000 ∨ 20000 * f ≤ 1000000 * (d + 1)) : tbl.get d ≠ some 0 := by
  have hb : Kind.sbp.build t m f = some tbl := htbl
  exact kind_rejects hm hf hb (i := 0) (l := 9000) (tol := 5) rfl (by omega)

theorem sbp_brief {u j : Nat} {a : BitVec 16} {w : BitVec 20} {ps : List (Nat × Nat)}
    (h : NearPulses u j (sbpNominal a w) ps) : Brief ((100 + j) * 4500 * u / 100000000) ((100 + j) * 500 * u / 100000000)
      ((100 + j) * 4500 * u / 100000000) ps := by
  rw [sbpNominal, List.append_assoc, List.append_assoc, List.singleton_append] at h
  refine brief_of_near h (Nat.le_refl _) fun q hq => ?_
  simp only [List.mem_append, List.mem_singleton, List.mem_map] at hq
  rcases hq with ⟨i, -, rfl⟩ | rfl | ⟨i, -, rfl⟩
  · exact ⟨Nat.le_refl _, by dsimp only; split <;> decide⟩
  · exact ⟨Nat.le_refl _, Nat.le_refl _⟩
  · exact ⟨Nat.le_refl _, by dsimp only; split <;> decide⟩

theorem sbp_inverted_sums {t : Target} {m : Mono} (hm : m = Mono.u32 ∨ m = Mono.u64) {f : Nat} (hlo : 20000 ≤ f)
    (hf : f < 2 ^ 32) {tbl : PulseSpans} (htbl : sbpSpans t m f = some tbl)
    {u : Nat} (hu : 0 < u) {j : Nat} (hj : j ≤ 20) (phase t0 pause : Nat)
    (hp : 20000 * u ≤ 1000000 * pause ∧ pause * f < 2 ^ 31 * u)
    (items : List ((BitVec 16 × BitVec 20 × List (Nat × Nat)) × (Nat × Nat)))
    (hok : ∀ i ∈ items, NearPulses u j (sbpNominal i.1.1 i.1.2.1) i.1.2.2 ∧ StopAndPause u f j 500 i.2) :
    ∀ d ∈ sums (clocked u f phase t0 (inverted ((true, pause) :: series (fun i => i.2.2) items))),
      d < 2 ^ m.width ∧ tbl.get d ≠ some 0 := by
  have hw : 32 ≤ m.width := by rcases hm with rfl | rfl <;> decide
  intro d hd
  have hj' : (100 + j) * 5000 ≤ 120 * 5000 := Nat.mul_le_mul_right _ (by omega)
  obtain ⟨h1, h2⟩ := measured_series (H := 4500) (M := 500) (S := 4500) hu hf hw
    (Nat.le_trans (Nat.mul_le_mul_right _ (show 100 + j ≤ 120 by omega)) (by decide)) (Nat.le_trans hj' (by decide))
    (fun i : BitVec 16 × BitVec 20 × List (Nat × Nat) => i.2.2) items
    (fun i hi => ⟨sbp_brief (hok i hi).1, (hok i hi).2⟩) pause hp phase t0 d hd
  exact ⟨h1, sbp_slot_reject hm hlo hf htbl
    (h2.imp_left fun h => Nat.le_trans h (Nat.add_le_add_right (Nat.mul_le_mul_right f hj') _))⟩

theorem changes_clocked (u f phase : Nat) (es : List (Bool × Nat)) (l : Bool) (t : Nat) (h : Changes l es) :
    Changes l (clocked u f phase t es) := by
  induction es generalizing l t with
  | nil => trivial
  | cons e es ih => exact ⟨h.1, ih e.1 _ h.2⟩

theorem alternating_of_changes (es : List Ev) (l : Bool) (h : Changes l es) : Alternating es := by
  induction es generalizing l with
  | nil => trivial
  | cons e es ih =>
    cases es with
    | nil => trivial
    | cons e' es => exact ⟨by rw [h.2.1]; simp, ih _ h.2⟩

/-- **C91**, SBP, events. -/
theorem C91_sbp (t : Target) (f : Nat) (hlo : 20000 ≤ f) (hf : f < 2 ^ 32) (m : Mono)
    (hm : m = Mono.u32 ∨ m = Mono.u64) (tbl : PulseSpans) (htbl : sbpSpans t m f = some tbl) (conv : SbpCommand → K)
    (u : Nat) (hu : 0 < u) (j : Nat) (hj : j ≤ 20) (phase t0 pause : Nat)
    (hp : 20000 * u ≤ 1000000 * pause ∧ pause * f < 2 ^ 31 * u)
    (items : List ((BitVec 16 × BitVec 20 × List (Nat × Nat)) × (Nat × Nat)))
    (hok : ∀ i ∈ items, NearPulses u j (sbpNominal i.1.1 i.1.2.1) i.1.2.2 ∧ StopAndPause u f j 500 i.2) :
    (results (sbpDecoder t m tbl) conv
        (clocked u f phase t0 (inverted ((true, pause) :: series (fun i => i.2.2) items)))).map said = some [] :=
  sbp_quiet t hm tbl conv _
    (alternating_of_changes _ _ (changes_clocked _ _ _ _ _ _ (changes_inverted _ false (changes_series ..))))
    (sbp_inverted_sums hm hlo hf htbl hu hj phase t0 pause hp items hok)

/-- **C91**, SBP, polled. -/
theorem C91_sbp_polled (t : Target) (f : Nat) (hlo : 20000 ≤ f) (hf : f < 2 ^ 32) (tbl : PulseSpans)
    (htbl : sbpSpans t Mono.u32 f = some tbl) (conv : SbpCommand → K)
    (u : Nat) (hu : 0 < u) (j : Nat) (hj : j ≤ 20) (phase : Nat) (hph : phase < u) (pause : Nat)
    (hp : 20000 * u ≤ 1000000 * pause ∧ pause * f < 2 ^ 31 * u)
    (items : List ((BitVec 16 × BitVec 20 × List (Nat × Nat)) × (Nat × Nat)))
    (hok : ∀ i ∈ items, NearPulses u j (sbpNominal i.1.1 i.1.2.1) i.1.2.2 ∧ StopAndPause u f j 500 i.2)
    (hmin : ∀ e ∈ (true, pause) :: series (fun i => i.2.2) items, u ≤ e.2 * f)
    (hmax : ∀ e ∈ (true, pause) :: series (fun i => i.2.2) items, e.2 * f / u + 1 < 2 ^ 32)
    (n : Nat) (hn : reading u f phase (duration ((true, pause) :: series (fun i => i.2.2) items)) < n) :
    (pollRun (sbpDecoder t Mono.u32 tbl) conv
        (polled u f phase ((true, 0) :: inverted ((true, pause) :: series (fun i => i.2.2) items)) n)).map said =
      some [] := by
  rw [polled_inverted _ conv hu hph (changes_series ..) hmin hmax n hn]
  have hch : Changes false ((true, 1) :: clocked u f phase 0 (inverted ((true, pause) :: series (fun i => i.2.2) items))) :=
    ⟨rfl, changes_clocked _ _ _ _ _ _ (changes_inverted _ false (changes_series ..))⟩
  refine sbp_quiet t (.inl rfl) tbl conv _ (alternating_of_changes _ _ hch) fun d hd => ?_
  rw [sums_first, List.mem_cons] at hd
  rcases hd with rfl | hd
  · exact ⟨by decide, sbp_slot_reject (.inl rfl) hlo hf htbl (.inl (by omega))⟩
  · exact sbp_inverted_sums (.inl rfl) hlo hf htbl hu hj phase 0 pause hp items hok d hd

/-! ## Denon -/

theorem denon_slot_reject {t : Target} {m : Mono} (hm : m = Mono.u32 ∨ m = Mono.u64) {f : Nat} (hlo : 20000 ≤ f)
    (hf : f < 2 ^ 32) {tbl : PulseSpans} (htbl : denonSpans t m f = some tbl) {d : Nat}
    (h : 100000000 * d ≤ 120 * 2080 * f + 100000000 ∨ 20000 * f ≤ 1000000 * (d + 1)) : tbl.get d ≠ some 0 := by
  have hb : Kind.denon.build t m f = some tbl := htbl
  exact kind_rejects hm hf hb (i := 0) (l := 5000) (tol := 8) rfl (by omega)

theorem denon_brief {u j : Nat} {w : BitVec 48} {ps : List (Nat × Nat)} (h : NearPulses u j (denonNominal w) ps) :
    Brief ((100 + j) * 3400 * u / 100000000) ((100 + j) * 480 * u / 100000000) ((100 + j) * 1600 * u / 100000000) ps := by
  refine brief_of_near h (Nat.le_refl _) fun q hq => ?_
  obtain ⟨i, -, rfl⟩ := List.mem_map.mp hq
  exact ⟨Nat.le_refl _, by dsimp only; split <;> decide⟩

theorem denon_inverted_sums {t : Target} {m : Mono} (hm : m = Mono.u32 ∨ m = Mono.u64) {f : Nat} (hlo : 20000 ≤ f)
    (hf : f < 2 ^ 32) {tbl : PulseSpans} (htbl : denonSpans t m f = some tbl)
    {u : Nat} (hu : 0 < u) {j : Nat} (hj : j ≤ 20) (phase t0 pause : Nat)
    (hp : 20000 * u ≤ 1000000 * pause ∧ pause * f < 2 ^ 31 * u)
    (items : List ((BitVec 48 × List (Nat × Nat)) × (Nat × Nat)))
    (hok : ∀ i ∈ items, NearPulses u j (denonNominal i.1.1) i.1.2 ∧ StopAndPause u f j 480 i.2) :
    ∀ d ∈ sums (clocked u f phase t0 (inverted ((true, pause) :: series (fun i => i.2) items))),
      d < 2 ^ m.width ∧ tbl.get d ≠ some 0 := by
  have hw : 32 ≤ m.width := by rcases hm with rfl | rfl <;> decide
  intro d hd
  have hj' : (100 + j) * 2080 ≤ 120 * 2080 := Nat.mul_le_mul_right _ (by omega)
  obtain ⟨h1, h2⟩ := measured_series (H := 3400) (M := 480) (S := 1600) hu hf hw
    (Nat.le_trans (Nat.mul_le_mul_right _ (show 100 + j ≤ 120 by omega)) (by decide)) (Nat.le_trans hj' (by decide))
    (fun i : BitVec 48 × List (Nat × Nat) => i.2) items
    (fun i hi => ⟨denon_brief (hok i hi).1, (hok i hi).2⟩) pause hp phase t0 d hd
  exact ⟨h1, denon_slot_reject hm hlo hf htbl
    (h2.imp_left fun h => Nat.le_trans h (Nat.add_le_add_right (Nat.mul_le_mul_right f hj') _))⟩

/-- **C91**, Denon, events. -/
theorem C91_denon (t : Target) (f : Nat) (hlo : 20000 ≤ f) (hf : f < 2 ^ 32) (m : Mono)
    (hm : m = Mono.u32 ∨ m = Mono.u64) (tbl : PulseSpans) (htbl : denonSpans t m f = some tbl) (conv : DenonCommand → K)
    (u : Nat) (hu : 0 < u) (j : Nat) (hj : j ≤ 20) (phase t0 pause : Nat)
    (hp : 20000 * u ≤ 1000000 * pause ∧ pause * f < 2 ^ 31 * u)
    (items : List ((BitVec 48 × List (Nat × Nat)) × (Nat × Nat)))
    (hok : ∀ i ∈ items, NearPulses u j (denonNominal i.1.1) i.1.2 ∧ StopAndPause u f j 480 i.2) :
    (results (denonDecoder t m tbl) conv
        (clocked u f phase t0 (inverted ((true, pause) :: series (fun i => i.2) items)))).map said = some [] :=
  denon_quiet t hm tbl conv _ (denon_inverted_sums hm hlo hf htbl hu hj phase t0 pause hp items hok)

/-- **C91**, Denon, polled. -/
theorem C91_denon_polled (t : Target) (f : Nat) (hlo : 20000 ≤ f) (hf : f < 2 ^ 32) (tbl : PulseSpans)
    (htbl : denonSpans t Mono.u32 f = some tbl) (conv : DenonCommand → K)
    (u : Nat) (hu : 0 < u) (j : Nat) (hj : j ≤ 20) (phase : Nat) (hph : phase < u) (pause : Nat)
    (hp : 20000 * u ≤ 1000000 * pause ∧ pause * f < 2 ^ 31 * u)
    (items : List ((BitVec 48 × List (Nat × Nat)) × (Nat × Nat)))
    (hok : ∀ i ∈ items, NearPulses u j (denonNominal i.1.1) i.1.2 ∧ StopAndPause u f j 480 i.2)
    (hmin : ∀ e ∈ (true, pause) :: series (fun i => i.2) items, u ≤ e.2 * f)
    (hmax : ∀ e ∈ (true, pause) :: series (fun i => i.2) items, e.2 * f / u + 1 < 2 ^ 32)
    (n : Nat) (hn : reading u f phase (duration ((true, pause) :: series (fun i => i.2) items)) < n) :
    (pollRun (denonDecoder t Mono.u32 tbl) conv
        (polled u f phase ((true, 0) :: inverted ((true, pause) :: series (fun i => i.2) items)) n)).map said =
      some [] := by
  rw [polled_inverted _ conv hu hph (changes_series ..) hmin hmax n hn]
  refine denon_quiet t (.inl rfl) tbl conv _ fun d hd => ?_
  rw [sums_first, List.mem_cons] at hd
  rcases hd with rfl | hd
  · exact ⟨by decide, denon_slot_reject (.inl rfl) hlo hf htbl (.inl (by omega))⟩
  · exact denon_inverted_sums (.inl rfl) hlo hf htbl hu hj phase 0 pause hp items hok d hd

/-! ## Non-vacuity -/

/-- Pulses with exactly the nominal times, in nanoseconds. -/
def exactPulses (nominal : List (Nat × Nat)) : List (Nat × Nat) := nominal.map fun p => (1000 * p.1, 1000 * p.2)

theorem exactPulses_near (j : Nat) (nominal : List (Nat × Nat)) :
    NearPulses 1000000000 j nominal (exactPulses nominal) := by
  refine ⟨by simp [exactPulses], fun i p q hp hq => ?_⟩
  rw [exactPulses, List.getElem?_map, hq, Option.map_some, Option.some.injEq] at hp
  subst hp
  have key : ∀ a, Near 1000000000 j a (1000 * a) := by
    intro a
    have h1 : (100 - j) * a ≤ 100 * a := Nat.mul_le_mul_right _ (by omega)
    have h2 : 100 * a ≤ (100 + j) * a := Nat.mul_le_mul_right _ (by omega)
    unfold Near
    omega
  exact ⟨key _, key _⟩

/-- A key pressed long enough for one repeat code, in nanoseconds. -/
def pressedNec : List (NecItem × (Nat × Nat)) :=
  [(.frame 0xE718FF00 (exactPulses (necNominal 9000 4500 0xE718FF00)), (560000, 40000000)),
    (.rep (9000000, 2250000), (560000, 96000000))]

/-- A polled NEC receiver on the wrong polarity: nothing. -/
example (t : Target) (phase : Nat) (hp : phase < 1000000000) :
    (pollRun (necDecoder t Mono.u32 (necTable 40000) Infrared.nec) id
      (polled 1000000000 40000 phase ((true, 0) :: inverted ((true, 30000000) :: series NecItem.wire pressedNec))
        20000)).map said = some [] := by
  refine C91_nec_polled t 40000 (by decide) (by decide) Infrared.nec (.inl rfl) _
    (necSpans_standard (.inl rfl) t (by decide) _ rfl) id 1000000000 (by decide) 5 (by decide) phase hp 30000000
    ⟨by decide, by decide⟩ pressedNec ?_ (by decide +kernel) (by decide +kernel) _ ?_
  · intro i hi
    simp only [pressedNec, List.mem_cons, List.not_mem_nil, or_false] at hi
    rcases hi with rfl | rfl
    · exact ⟨exactPulses_near _ _, ⟨by decide, by decide⟩, by decide, by decide⟩
    · exact ⟨exactPulses_near 5 [(9000, 2250)], ⟨by decide, by decide⟩, by decide, by decide⟩
  · have hd : duration ((true, 30000000) :: series NecItem.wire pressedNec) ≤ 400000000 := by decide +kernel
    unfold reading
    omega

/-- The same line the right way round: the key and its repetition. -/
example (t : Target) (phase t0 : Nat) :
    (results (necDecoder t Mono.u32 (necTable 40000) Infrared.nec) id
        ((true, 4000) :: clocked 1000000000 40000 phase t0 (series NecItem.wire pressedNec))).map said =
      some [.ok (some ⟨0, 0x18, false⟩), .ok (some ⟨0, 0x18, true⟩)] := by
  have htbl : necSpans t Mono.u32 Infrared.nec 40000 = some (necTable 40000) :=
    necSpans_standard (.inl rfl) t (by decide) Infrared.nec rfl
  rw [C78_nec t 40000 5 (by decide) (by decide) Infrared.nec (.inl rfl) Mono.u32 (.inl rfl) _ htbl (by decide +kernel) id
    1000000000 (by decide) phase t0 4000 (pause_of_get (by decide) (by decide +kernel)) pressedNec (by
      intro i hi
      simp only [pressedNec, List.mem_cons, List.not_mem_nil, or_false] at hi
      rcases hi with rfl | rfl
      · exact ⟨nearPeriods_zip (by decide +kernel), by decide, by decide⟩
      · exact ⟨⟨by decide, by decide⟩, by decide, by decide⟩)]
  decide +kernel

/-- SBP and Denon, events. -/
example (t : Target) (phase t0 : Nat) :
    (results (sbpDecoder t Mono.u32 (sbpTable 40000)) id
        (clocked 1000000000 40000 phase t0 (inverted ((true, 30000000) ::
          series (fun i : BitVec 16 × BitVec 20 × List (Nat × Nat) => i.2.2)
            [((0x1234#16, 0xABCDE#20, exactPulses (sbpNominal 0x1234#16 0xABCDE#20)), (500000, 40000000))])))).map said =
      some [] := by
  refine C91_sbp t 40000 (by decide) (by decide) Mono.u32 (.inl rfl) _ (sbpSpans_eq (.inl rfl) t (by decide)) id
    1000000000 (by decide) 5 (by decide) phase t0 30000000 ⟨by decide, by decide⟩ _ ?_
  intro i hi
  rw [List.mem_singleton] at hi
  subst hi
  exact ⟨exactPulses_near _ _, ⟨by decide, by decide⟩, by decide, by decide⟩

example (t : Target) (phase t0 : Nat) :
    (results (denonDecoder t Mono.u32 (denonTable 40000)) id
        (clocked 1000000000 40000 phase t0 (inverted ((true, 30000000) ::
          series (fun i : BitVec 48 × List (Nat × Nat) => i.2)
            [((0x2A4C028D6F00#48, exactPulses (denonNominal 0x2A4C028D6F00#48)), (480000, 40000000))])))).map said =
      some [] := by
  refine C91_denon t 40000 (by decide) (by decide) Mono.u32 (.inl rfl) _ (denonSpans_eq (.inl rfl) t (by decide)) id
    1000000000 (by decide) 5 (by decide) phase t0 30000000 ⟨by decide, by decide⟩ _ ?_
  intro i hi
  rw [List.mem_singleton] at hi
  subst hi
  exact ⟨exactPulses_near _ _, ⟨by decide, by decide⟩, by decide, by decide⟩

end Infrared
