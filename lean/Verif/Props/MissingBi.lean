import Verif.Props.Missing

/-!
# Transmissions with a missing mark: polled receivers, and what one can rely on (C94)
-/

namespace Infrared

open Spec

variable {C K : Type}

/-! ## Polled receivers -/

/-- **C94**, NEC family, polled. -/
theorem C94_nec_polled (t : Target) (f j : Nat) (hlo : 20000 ≤ f) (hf : f < 2 ^ 32) (v : NecVariant C) (hv : v.Shipped)
    (tbl : PulseSpans) (htbl : necSpans t Mono.u32 v f = some tbl) (hc : coversAll tbl f j (necLengths v) = true)
    (conv : C → K) (u : Nat) (hu : 0 < u) (phase pause : Nat)
    (hg : Pause tbl 32 [0, 1] (0, reading u f phase pause + 1))
    (items : List ((NecHurt × List (Nat × Nat)) × (Nat × Nat)))
    (hok : ∀ i ∈ items,
      i.1.1.Wire u j (v.pulseDistance.headerHigh + v.pulseDistance.headerLow)
        (v.pulseDistance.headerHigh + v.pulseDistance.repeatLow) i.1.2 ∧
      16000 * u ≤ 1000000 * (i.2.1 + i.2.2) ∧ (i.2.1 + i.2.2) * f + u < 2 ^ 32 * u)
    (hmin : ∀ e ∈ series (fun i => i.2) items, u ≤ e.2 * f)
    (hmax : ∀ e ∈ series (fun i => i.2) items, e.2 * f / u + 1 < 2 ^ 32)
    (n : Nat) (hn : reading u f phase (duration ((true, pause) :: series (fun i => i.2) items)) < n) :
    ∃ rs, (pollRun (necDecoder t Mono.u32 tbl v) conv
        (polled u f phase ((true, pause) :: series (fun i => i.2) items) n)).map said = some (rs.map (Res.map conv)) ∧
      Tells (necHurtAnswer v.unpack) 0 (items.map fun i => i.1.1) rs := by
  have hg1 := hg.1
  dsimp only at hg1
  rw [C54_polled_line_long _ conv u hu f phase true pause _ (changes_series ..) hmin n hn (by omega) hmax]
  exact C94_nec t f j hlo hf v hv Mono.u32 (.inl rfl) tbl htbl hc conv u hu phase pause _ hg items hok

/-- **C94**, SBP, polled. -/
theorem C94_sbp_polled (t : Target) (f j : Nat) (hlo : 20000 ≤ f) (hf : f < 2 ^ 32) (tbl : PulseSpans)
    (htbl : sbpSpans t Mono.u32 f = some tbl) (hc : coversAll tbl f j sbpLengths = true)
    (conv : SbpCommand → K) (u : Nat) (hu : 0 < u) (phase pause : Nat)
    (hg : Pause tbl 32 [0] (0, reading u f phase pause + 1))
    (items : List ((SbpHurt × List (Nat × Nat)) × (Nat × Nat)))
    (hok : ∀ i ∈ items, i.1.1.Wire u j i.1.2 ∧
      16000 * u ≤ 1000000 * (i.2.1 + i.2.2) ∧ (i.2.1 + i.2.2) * f + u < 2 ^ 32 * u)
    (hmin : ∀ e ∈ series (fun i => i.2) items, u ≤ e.2 * f)
    (hmax : ∀ e ∈ series (fun i => i.2) items, e.2 * f / u + 1 < 2 ^ 32)
    (n : Nat) (hn : reading u f phase (duration ((true, pause) :: series (fun i => i.2) items)) < n) :
    ∃ rs, (pollRun (sbpDecoder t Mono.u32 tbl) conv
        (polled u f phase ((true, pause) :: series (fun i => i.2) items) n)).map said = some (rs.map (Res.map conv)) ∧
      Tells sbpHurtAnswer () (items.map fun i => i.1.1) rs := by
  have hg1 := hg.1
  dsimp only at hg1
  rw [C54_polled_line_long _ conv u hu f phase true pause _ (changes_series ..) hmin n hn (by omega) hmax]
  exact C94_sbp t f j hlo hf Mono.u32 (.inl rfl) tbl htbl hc conv u hu phase pause _ hg items hok

/-- **C94**, Denon, polled. -/
theorem C94_denon_polled (t : Target) (f j : Nat) (hlo : 20000 ≤ f) (hf : f < 2 ^ 32) (tbl : PulseSpans)
    (htbl : denonSpans t Mono.u32 f = some tbl) (hc : coversAll tbl f j denonLengths = true)
    (conv : DenonCommand → K) (u : Nat) (hu : 0 < u) (phase pause : Nat)
    (hg : Pause tbl 32 [0] (0, reading u f phase pause + 1))
    (items : List ((DenonHurt × List (Nat × Nat)) × (Nat × Nat)))
    (hok : ∀ i ∈ items, i.1.1.Wire u j i.1.2 ∧
      16000 * u ≤ 1000000 * (i.2.1 + i.2.2) ∧ (i.2.1 + i.2.2) * f + u < 2 ^ 32 * u)
    (hmin : ∀ e ∈ series (fun i => i.2) items, u ≤ e.2 * f)
    (hmax : ∀ e ∈ series (fun i => i.2) items, e.2 * f / u + 1 < 2 ^ 32)
    (n : Nat) (hn : reading u f phase (duration ((true, pause) :: series (fun i => i.2) items)) < n) :
    ∃ rs, (pollRun (denonDecoder t Mono.u32 tbl) conv
        (polled u f phase ((true, pause) :: series (fun i => i.2) items) n)).map said = some (rs.map (Res.map conv)) ∧
      Tells denonHurtAnswer 0 (items.map fun i => i.1.1) rs := by
  have hg1 := hg.1
  dsimp only at hg1
  rw [C54_polled_line_long _ conv u hu f phase true pause _ (changes_series ..) hmin n hn (by omega) hmax]
  exact C94_denon t f j hlo hf Mono.u32 (.inl rfl) tbl htbl hc conv u hu phase pause _ hg items hok

/-! ## No command -/

/-- **C94**, NEC family: the commands are those of the undisturbed complete frames. -/
theorem C94_nec_detected (unpack : BitVec 32 → Bool → Option C) (last : BitVec 32) (l : List NecHurt)
    (hl : ∀ s, .other s ∈ l → s.Detectable) (rs : List (Res C)) (h : Tells (necHurtAnswer unpack) last l rs) :
    commands rs = l.flatMap fun
      | .other (.clean (.frame w k)) => if 33 ≤ k then (unpack w false).toList else []
      | _ => [] := by
  induction h with
  | nil => rfl
  | @cons st st' s ss r rs h _ ih =>
    rw [List.flatMap_cons, commands_append, ih fun x hx => hl x (by simp [hx])]
    congr 1
    cases h with
    | other s r last' h =>
      have hs := hl s (by simp)
      have h1 : r = [s].flatMap fun
          | .clean s => (necAnswer unpack 0 s).1
          | .spiked .. => [.error .data] := by
        refine C93_nec_detected unpack st [s] (fun x hx => ?_) r ?_
        · rw [List.mem_singleton] at hx
          rwa [hx]
        · have := Tells.cons h (Tells.nil (step := necSpikedAnswer unpack) st')
          rwa [List.append_nil] at this
      rw [h1, List.flatMap_cons, List.flatMap_nil, List.append_nil]
      cases s with
      | clean s =>
        cases s with
        | frame w k =>
          have := C88_nec_complete_only unpack 0 [(w, k)]
          rw [List.map_cons, List.map_nil, told, told, List.append_nil] at this
          dsimp only
          rw [this]
          by_cases hk : 33 ≤ k <;> simp [hk]
        | rep => exact hs.elim
      | spiked => rfl
    | unheard => rfl
    | header => rfl
    | bit => rfl
    | fused => rfl

/-- **C94**, SBP: the commands are those of the undisturbed complete frames. -/
theorem C94_sbp_detected (l : List SbpHurt) (hl : ∀ s, .other s ∈ l → s.Detectable) (rs : List (Res SbpCommand))
    (h : Tells sbpHurtAnswer () l rs) :
    commands rs = l.flatMap fun
      | .other (.clean a w k) => if 38 ≤ k then [SbpCommand.unpack a (w.setWidth 32)] else []
      | _ => [] := by
  generalize () = st at h
  induction h with
  | nil => rfl
  | @cons st st' s ss r rs h _ ih =>
    rw [List.flatMap_cons, commands_append, ih fun x hx => hl x (by simp [hx])]
    congr 1
    cases h with
    | other s r h =>
      rw [C93_sbp_detected [s] (fun x hx => by
        rw [List.mem_singleton] at hx
        rw [hx]
        exact hl s (by simp)) r (by
          have := Tells.cons h (Tells.nil (step := sbpSpikedAnswer) ())
          rwa [List.append_nil] at this), List.flatMap_cons, List.flatMap_nil, List.append_nil]
      cases s <;> rfl
    | unheard => rfl
    | address => rfl
    | data => rfl

/-- **C94**, Denon: frames with a missing mark are not answered. -/
theorem C94_denon_missing (stale : BitVec 64) (w : BitVec 48) (k : Nat) (r : List (Res DenonCommand)) (stale' : BitVec 64)
    (h : denonHurtAnswer stale (.missing w k) r stale') : r = [] := by
  cases h <;> rfl

/-! ## Checking the words -/

/-- Two zeros taken for a one never leave a valid word. -/
theorem C94_fuse_invalid (w : BitVec 32) (hw : NecCommand.validate w = true) (k : Nat) (hk : k + 1 < 32)
    (h0 : w.getLsbD k = false) (h1 : w.getLsbD (k + 1) = false) : NecCommand.validate (fuse k w) = false := by
  rw [Bool.eq_false_iff]
  intro hv
  rw [nec_validate_iff] at hw hv
  have H : ∀ c, c = 0 ∨ c = 16 → ∀ i, i < 8 → w.getLsbD (c + 8 + i) = !w.getLsbD (c + i) := by
    rintro c (rfl | rfl) i hi
    · simpa using (hw i hi).2
    · exact (hw i hi).1
  have V : ∀ c, c = 0 ∨ c = 16 → ∀ i, i < 8 → (fuse k w).getLsbD (c + 8 + i) = !(fuse k w).getLsbD (c + i) := by
    rintro c (rfl | rfl) i hi
    · simpa using (hv i hi).2
    · exact (hv i hi).1
  obtain ⟨c, r, hc, hr, rfl⟩ : ∃ c r, (c = 0 ∨ c = 16) ∧ r < 16 ∧ k = c + r :=
    ⟨16 * (k / 16), k % 16, by omega, by omega, by omega⟩
  by_cases h8 : 8 ≤ r
  · obtain ⟨i, rfl⟩ : ∃ i, r = 8 + i := ⟨r - 8, by omega⟩
    have a := H c hc i (by omega)
    have b := V c hc i (by omega)
    rw [fuse_getLsbD _ _ _ (by omega), fuse_getLsbD _ _ _ (by omega), if_neg (by omega), if_pos (by omega),
      if_pos (by omega)] at b
    rw [← Nat.add_assoc] at h0
    rw [h0, ← b] at a
    cases a
  · by_cases h7 : r < 7
    · have a := H c hc (r + 1) (by omega)
      have b := V c hc r (by omega)
      rw [fuse_getLsbD _ _ _ (by omega), fuse_getLsbD _ _ _ (by omega), if_neg (by omega), if_neg (by omega),
        if_neg (by omega), if_pos rfl, show c + 8 + r + 1 = c + 8 + (r + 1) by omega, a,
        show c + (r + 1) = c + r + 1 by omega, h1] at b
      cases b
    · obtain rfl : r = 7 := by omega
      have low : ∀ i, i < 7 → (fuse (c + 7) w).getLsbD (c + i) = w.getLsbD (c + i) := fun i hi => by
        rw [fuse_getLsbD _ _ _ (by omega), if_pos (by omega)]
      have high : ∀ i, i < 7 → (fuse (c + 7) w).getLsbD (c + 8 + i) = w.getLsbD (c + 8 + (i + 1)) := fun i hi => by
        rw [fuse_getLsbD _ _ _ (by omega), if_neg (by omega), if_neg (by omega)]
        rfl
      -- all bits of the byte are as the first, which is a one; but the last is a zero
      have all : ∀ i, i < 8 → w.getLsbD (c + i) = true := by
        intro i
        induction i with
        | zero =>
          intro _
          have a := H c hc 0 (by omega)
          rw [show c + 8 + 0 = c + 7 + 1 by omega, h1] at a
          simpa using a.symm
        | succ i ih =>
          intro hi
          have b := V c hc i (by omega)
          rw [high i (by omega), low i (by omega), H c hc (i + 1) hi, ih (by omega)] at b
          simpa using b
      rw [all 7 (by omega)] at h0
      cases h0

/-- **C94**: the same as `C93_validated` with missing marks, as long as the header is not concerned. -/
theorem C94_validated (l : List NecHurt) (hl : ∀ s ∈ l, ∀ w ∈ s.word, NecCommand.validate w = true)
    (hk : ∀ w k place, .other (.spiked w k place) ∈ l → k < 32) (hm : ∀ w k, .missing w k ∈ l → 0 < k ∧ k < 32)
    (rs : List (Res NecDebugCmd)) (h : Tells (necHurtAnswer necDebug.unpack) 0 l rs) :
    ∀ c ∈ commands rs, NecCommand.validate c.bits = true → ∃ s ∈ l, s.word = some c.bits := by
  have key : ∀ (st : BitVec 32) (l' : List NecHurt) (rs : List (Res NecDebugCmd)),
      Tells (necHurtAnswer necDebug.unpack) st l' rs → (∀ s ∈ l', s ∈ l) →
      (NecCommand.validate st = true → ∃ s ∈ l, s.word = some st) →
      ∀ c ∈ commands rs, NecCommand.validate c.bits = true → ∃ s ∈ l, s.word = some c.bits := by
    intro st l' rs h
    induction h with
    | nil => intro _ _ c hc; simp [commands] at hc
    | @cons st st' s ss r rs h _ ih =>
      intro hsub hst
      have hs := hsub s (by simp)
      have hsw := hl s hs
      suffices hboth : (NecCommand.validate st' = true → ∃ s ∈ l, s.word = some st') ∧
          ∀ c ∈ commands r, NecCommand.validate c.bits = true → ∃ s ∈ l, s.word = some c.bits by
        intro c hc
        rw [commands_append, List.mem_append] at hc
        rcases hc with hc | hc
        · exact hboth.2 c hc
        · exact ih (fun x hx => hsub x (by simp [hx])) hboth.1 c hc
      have bare : ∀ c ∈ commands ([.error .data] : List (Res NecDebugCmd)), NecCommand.validate c.bits = true →
          ∃ s ∈ l, s.word = some c.bits := fun c hc => by simp [commands] at hc
      cases h with
      | other s r last' h =>
        exact validated_step (Q := fun w => ∃ s ∈ l, s.word = some w) h (fun w hw => ⟨hsw w hw, _, hs, hw⟩)
          (fun w k place he => hk w k place (he ▸ hs)) hst
      | unheard => exact absurd (hm _ _ hs).1 (by decide)
      | header => exact absurd (hm _ _ hs).1 (by decide)
      | bit w k =>
        refine ⟨fun hv => ⟨_, hs, ?_⟩, bare⟩
        rw [firstBits_valid w (hsw w rfl) _ hv]; rfl
      | fused w k h0 h1 =>
        refine ⟨fun hv => ?_, bare⟩
        rw [C94_fuse_invalid w (hsw w rfl) k (hm _ _ hs).2 h0 h1] at hv
        cases hv
  exact key 0 l rs h (fun _ h => h) (fun hv => absurd hv (by decide))

/-! ## Non-vacuity -/

/-- The periods of a frame, those of number `k` and `k + 1` joined. -/
def joinPeriods (ps : List (Nat × Nat)) (k : Nat) (p : Nat × Nat) : List (Nat × Nat) := ps.take k ++ p :: ps.drop (k + 2)

/-- Frames of the same key: without the mark between two zeros (bits 0 and 1, periods 1 and 2), without the mark after
the header, and undisturbed. -/
def missingNec : List ((NecHurt × List (Nat × Nat)) × (Nat × Nat)) :=
  [((.missing 0xE718FF00#32 1, joinPeriods (slowPeriods (necPeriods 13500 0xE718FF00#32)) 1 (500000, 1784800)),
      (560000, 40000000)),
    ((.missing 0xE718FF00#32 0, joinPeriods (slowPeriods (necPeriods 13500 0xE718FF00#32)) 0 (500000, 14412400)),
      (560000, 40000000)),
    ((.other (.clean (.frame 0xE718FF00#32 33)), slowPeriods ((necPeriods 13500 0xE718FF00#32).take 33)), (560000, 40000000))]

theorem missingNec_ok : ∀ i ∈ missingNec, i.1.1.Wire 1000000000 3 (9000 + 4500) (9000 + 2250) i.1.2 ∧
    16000 * 1000000000 ≤ 1000000 * (i.2.1 + i.2.2) ∧ (i.2.1 + i.2.2) * 48000 + 1000000000 < 2 ^ 32 * 1000000000 := by
  have hnear : NearPeriods 1000000000 3 (necPeriods 13500 0xE718FF00#32) (slowPeriods (necPeriods 13500 0xE718FF00#32)) :=
    slowPeriods_near _ (by decide +kernel)
  intro i hi
  simp only [missingNec, List.mem_cons, List.not_mem_nil, or_false] at hi
  rcases hi with rfl | rfl | rfl
  · exact ⟨⟨by decide, _, _, hnear, ⟨(500000, 642400), (500000, 642400), by decide +kernel, by decide +kernel, by decide⟩, rfl⟩,
      by decide, by decide⟩
  · exact ⟨⟨by decide, _, _, hnear, ⟨(500000, 13270000), (500000, 642400), by decide +kernel, by decide +kernel, by decide⟩,
      rfl⟩, by decide, by decide⟩
  · exact ⟨slowPeriods_near _ (by decide +kernel), by decide, by decide⟩

/-- At 48 kHz: the only command is that of the undisturbed frame. -/
example (t : Target) (phase t0 : Nat) :
    ((results (necDecoder t Mono.u32 (necTable 48000) Infrared.nec) id
        ((true, 4000) :: clocked 1000000000 48000 phase t0 (series (fun i => i.2) missingNec))).map said).map commands =
      some [⟨0x00, 0x18, false⟩] := by
  have htbl : necSpans t Mono.u32 Infrared.nec 48000 = some (necTable 48000) :=
    necSpans_standard (.inl rfl) t (by decide) Infrared.nec rfl
  obtain ⟨rs, h1, h2⟩ := C94_nec t 48000 3 (by decide) (by decide) Infrared.nec (.inl rfl) Mono.u32 (.inl rfl) _ htbl
    (by decide +kernel) id 1000000000 (by decide) phase t0 4000 (pause_of_get (by decide) (by decide +kernel)) missingNec
    missingNec_ok
  have h3 := C94_nec_detected Infrared.nec.unpack 0 _ (fun s hs => by
    simp only [missingNec, List.map_cons, List.map_nil, List.mem_cons, List.not_mem_nil, or_false, reduceCtorEq, false_or,
      NecHurt.other.injEq] at hs
    subst hs
    exact trivial) rs h2
  have hid : ∀ rs : List (Res NecCommand), rs.map (Res.map id) = rs := fun rs => by
    rw [show (Res.map id : Res NecCommand → _) = id from funext fun r => by
      rcases r with _ | _ | _ <;> rfl, List.map_id]
  rw [h1, Option.map_some, hid, h3]
  decide +kernel

/-- SBP: without the mark between the divider and the first bit, then undisturbed. -/
def missingSbp : List ((SbpHurt × List (Nat × Nat)) × (Nat × Nat)) :=
  [((.missing 0x1234#16 0xABCDE#20 17, joinPeriods (slowPeriods (sbpPeriods 0x1234#16 0xABCDE#20)) 17 (500000, 5620000)),
      (560000, 40000000)),
    ((.other (.clean 0x1234#16 0xABCDE#20 38), slowPeriods ((sbpPeriods 0x1234#16 0xABCDE#20).take 38)), (560000, 40000000))]

example (t : Target) (phase t0 : Nat) :
    (results (sbpDecoder t Mono.u32 (sbpTable 1000000)) id
        ((true, 100000) :: clocked 1000000000 1000000 phase t0 (series (fun i => i.2) missingSbp))).map said =
      some [.error .data, .ok (some (SbpCommand.unpack 0x1234 0xABCDE))] := by
  have htbl : sbpSpans t Mono.u32 1000000 = some (sbpTable 1000000) := sbpSpans_eq (.inl rfl) t (by decide)
  have hnear : NearPeriods 1000000000 3 (sbpPeriods 0x1234#16 0xABCDE#20) (slowPeriods (sbpPeriods 0x1234#16 0xABCDE#20)) :=
    slowPeriods_near _ (by decide +kernel)
  obtain ⟨rs, h1, h2⟩ := C94_sbp t 1000000 3 (by decide) (by decide) Mono.u32 (.inl rfl) _ htbl (by decide +kernel) id
    1000000000 (by decide) phase t0 100000 (pause_of_get (by decide) (by decide +kernel)) missingSbp (by
      intro i hi
      simp only [missingSbp, List.mem_cons, List.not_mem_nil, or_false] at hi
      rcases hi with rfl | rfl
      · exact ⟨⟨by decide, _, _, hnear, ⟨(500000, 4600000), (500000, 520000), by decide +kernel, by decide +kernel, by decide⟩,
          rfl⟩, by decide, by decide⟩
      · exact ⟨slowPeriods_near _ (by decide +kernel), by decide, by decide⟩)
  rw [h1]
  cases h2 with
  | cons a h2 =>
    cases h2 with
    | cons b h2 =>
      cases h2
      cases a with
      | address _ _ _ h => exact absurd h (by decide)
      | data =>
        cases b with
        | other _ _ h =>
          cases h
          decide +kernel

/-- Denon: without the mark between the first two bits, both zeros, then undisturbed. -/
def missingDenon : List ((DenonHurt × List (Nat × Nat)) × (Nat × Nat)) :=
  [((.missing 0x2A4C028D6F00#48 1, joinPeriods (slowPeriods (denonPeriods 0x2A4C028D6F00#48)) 1 (500000, 1213600)),
      (560000, 40000000)),
    ((.other (.clean 0x2A4C028D6F00#48 49), slowPeriods ((denonPeriods 0x2A4C028D6F00#48).take 49)), (560000, 40000000))]

/-- There is one command; whether it is right is not sure. -/
example (t : Target) (phase t0 : Nat) :
    ∃ stale, (results (denonDecoder t Mono.u32 (denonTable 1000000)) id
        ((true, 100000) :: clocked 1000000000 1000000 phase t0 (series (fun i => i.2) missingDenon))).map said =
      some [.ok (some ⟨stale ||| 0x2A4C028D6F00#64⟩)] := by
  have htbl : denonSpans t Mono.u32 1000000 = some (denonTable 1000000) := denonSpans_eq (.inl rfl) t (by decide)
  have hnear : NearPeriods 1000000000 3 (denonPeriods 0x2A4C028D6F00#48) (slowPeriods (denonPeriods 0x2A4C028D6F00#48)) :=
    slowPeriods_near _ (by decide +kernel)
  obtain ⟨rs, h1, h2⟩ := C94_denon t 1000000 3 (by decide) (by decide) Mono.u32 (.inl rfl) _ htbl (by decide +kernel) id
    1000000000 (by decide) phase t0 100000 (pause_of_get (by decide) (by decide +kernel)) missingDenon (by
      intro i hi
      simp only [missingDenon, List.mem_cons, List.not_mem_nil, or_false] at hi
      rcases hi with rfl | rfl
      · exact ⟨⟨by decide, _, _, hnear, ⟨(500000, 356800), (500000, 356800), by decide +kernel, by decide +kernel, by decide⟩,
          rfl⟩, by decide, by decide⟩
      · exact ⟨slowPeriods_near _ (by decide +kernel), by decide, by decide⟩)
  rw [h1]
  cases h2 with
  | @cons _ st _ _ _ _ a h2 =>
    obtain rfl := C94_denon_missing _ _ _ _ _ a
    cases h2 with
    | cons b h2 =>
      cases h2
      cases b with
      | other _ _ _ h =>
        cases h
        exact ⟨st, rfl⟩

end Infrared
