import Verif.Props.Spike

/-!
# Transmissions disturbed by a spike: polled receivers, and what one can rely on (C93)
-/

namespace Infrared

open Spec

variable {C K : Type}

/-! ## Polled receivers -/

/-- **C93**, NEC family, polled. -/
theorem C93_nec_polled (t : Target) (f j : Nat) (hlo : 20000 ≤ f) (hf : f < 2 ^ 32) (v : NecVariant C) (hv : v.Shipped)
    (tbl : PulseSpans) (htbl : necSpans t Mono.u32 v f = some tbl) (hc : coversAll tbl f j (necLengths v) = true)
    (conv : C → K) (u : Nat) (hu : 0 < u) (phase pause : Nat)
    (hg : Pause tbl 32 [0, 1] (0, reading u f phase pause + 1))
    (items : List ((NecSpiked × List (Nat × Nat)) × (Nat × Nat)))
    (hok : ∀ i ∈ items,
      i.1.1.Wire u j (v.pulseDistance.headerHigh + v.pulseDistance.headerLow)
        (v.pulseDistance.headerHigh + v.pulseDistance.repeatLow) i.1.2 ∧
      16000 * u ≤ 1000000 * (i.2.1 + i.2.2) ∧ (i.2.1 + i.2.2) * f + u < 2 ^ 32 * u)
    (hmin : ∀ e ∈ series (fun i => i.2) items, u ≤ e.2 * f)
    (hmax : ∀ e ∈ series (fun i => i.2) items, e.2 * f / u + 1 < 2 ^ 32)
    (n : Nat) (hn : reading u f phase (duration ((true, pause) :: series (fun i => i.2) items)) < n) :
    ∃ rs, (pollRun (necDecoder t Mono.u32 tbl v) conv
        (polled u f phase ((true, pause) :: series (fun i => i.2) items) n)).map said = some (rs.map (Res.map conv)) ∧
      Tells (necSpikedAnswer v.unpack) 0 (items.map fun i => i.1.1) rs := by
  have hg1 := hg.1
  dsimp only at hg1
  rw [C54_polled_line_long _ conv u hu f phase true pause _ (changes_series ..) hmin n hn (by omega) hmax]
  exact C93_nec t f j hlo hf v hv Mono.u32 (.inl rfl) tbl htbl hc conv u hu phase pause _ hg items hok

/-- **C93**, SBP, polled. -/
theorem C93_sbp_polled (t : Target) (f j : Nat) (hlo : 20000 ≤ f) (hf : f < 2 ^ 32) (tbl : PulseSpans)
    (htbl : sbpSpans t Mono.u32 f = some tbl) (hc : coversAll tbl f j sbpLengths = true)
    (conv : SbpCommand → K) (u : Nat) (hu : 0 < u) (phase pause : Nat)
    (hg : Pause tbl 32 [0] (0, reading u f phase pause + 1))
    (items : List ((SbpSpiked × List (Nat × Nat)) × (Nat × Nat)))
    (hok : ∀ i ∈ items, i.1.1.Wire u j i.1.2 ∧
      16000 * u ≤ 1000000 * (i.2.1 + i.2.2) ∧ (i.2.1 + i.2.2) * f + u < 2 ^ 32 * u)
    (hmin : ∀ e ∈ series (fun i => i.2) items, u ≤ e.2 * f)
    (hmax : ∀ e ∈ series (fun i => i.2) items, e.2 * f / u + 1 < 2 ^ 32)
    (n : Nat) (hn : reading u f phase (duration ((true, pause) :: series (fun i => i.2) items)) < n) :
    ∃ rs, (pollRun (sbpDecoder t Mono.u32 tbl) conv
        (polled u f phase ((true, pause) :: series (fun i => i.2) items) n)).map said = some (rs.map (Res.map conv)) ∧
      Tells sbpSpikedAnswer () (items.map fun i => i.1.1) rs := by
  have hg1 := hg.1
  dsimp only at hg1
  rw [C54_polled_line_long _ conv u hu f phase true pause _ (changes_series ..) hmin n hn (by omega) hmax]
  exact C93_sbp t f j hlo hf Mono.u32 (.inl rfl) tbl htbl hc conv u hu phase pause _ hg items hok

/-- **C93**, Denon, polled. -/
theorem C93_denon_polled (t : Target) (f j : Nat) (hlo : 20000 ≤ f) (hf : f < 2 ^ 32) (tbl : PulseSpans)
    (htbl : denonSpans t Mono.u32 f = some tbl) (hc : coversAll tbl f j denonLengths = true)
    (conv : DenonCommand → K) (u : Nat) (hu : 0 < u) (phase pause : Nat)
    (hg : Pause tbl 32 [0] (0, reading u f phase pause + 1))
    (items : List ((DenonSpiked × List (Nat × Nat)) × (Nat × Nat)))
    (hok : ∀ i ∈ items, i.1.1.Wire u j i.1.2 ∧
      16000 * u ≤ 1000000 * (i.2.1 + i.2.2) ∧ (i.2.1 + i.2.2) * f + u < 2 ^ 32 * u)
    (hmin : ∀ e ∈ series (fun i => i.2) items, u ≤ e.2 * f)
    (hmax : ∀ e ∈ series (fun i => i.2) items, e.2 * f / u + 1 < 2 ^ 32)
    (n : Nat) (hn : reading u f phase (duration ((true, pause) :: series (fun i => i.2) items)) < n) :
    ∃ rs, (pollRun (denonDecoder t Mono.u32 tbl) conv
        (polled u f phase ((true, pause) :: series (fun i => i.2) items) n)).map said = some (rs.map (Res.map conv)) ∧
      Tells denonSpikedAnswer 0 (items.map fun i => i.1.1) rs := by
  have hg1 := hg.1
  dsimp only at hg1
  rw [C54_polled_line_long _ conv u hu f phase true pause _ (changes_series ..) hmin n hn (by omega) hmax]
  exact C93_denon t f j hlo hf Mono.u32 (.inl rfl) tbl htbl hc conv u hu phase pause _ hg items hok

/-! ## Spikes that cannot be missed -/

/-- **C93**, NEC family: spikes that cannot be missed are answered with one error each; everything else is as ever. -/
theorem C93_nec_detected (unpack : BitVec 32 → Bool → Option C) (last : BitVec 32) (l : List NecSpiked)
    (hl : ∀ s ∈ l, s.Detectable) (rs : List (Res C)) (h : Tells (necSpikedAnswer unpack) last l rs) :
    rs = l.flatMap fun
      | .clean s => (necAnswer unpack 0 s).1
      | .spiked .. => [.error .data] := by
  induction h with
  | nil => rfl
  | @cons st st' s ss r rs h _ ih =>
    have hs := hl s (by simp)
    rw [List.flatMap_cons, ih fun x hx => hl x (by simp [hx])]
    congr 1
    cases h with
    | clean s =>
      cases s with
      | frame w k =>
        dsimp only
        unfold necAnswer
        dsimp only
        split
        · rfl
        · split <;> rfl
      | rep => exact hs.elim
    | lost => rfl
    | slipped w k place h hw =>
      rcases hs.2 with h' | h'
      · exact absurd h' h
      · rw [hw] at h'; cases h'
    | final w w' place => exact absurd hs.1 (by decide)

/-- **C93**, SBP: the commands are those of the undisturbed complete frames. -/
theorem C93_sbp_detected (l : List SbpSpiked) (hl : ∀ s ∈ l, s.Detectable) (rs : List (Res SbpCommand))
    (h : Tells sbpSpikedAnswer () l rs) :
    commands rs = l.flatMap fun
      | .clean a w k => if 38 ≤ k then [SbpCommand.unpack a (w.setWidth 32)] else []
      | _ => [] := by
  generalize () = st at h
  induction h with
  | nil => rfl
  | @cons st st' s ss r rs h _ ih =>
    have hs := hl s (by simp)
    rw [List.flatMap_cons, commands_append, ih fun x hx => hl x (by simp [hx])]
    congr 1
    cases h with
    | clean a w k =>
      have := C88_sbp_complete_only [(a, w, k)]
      rw [told, told, List.append_nil] at this
      rw [this]
      by_cases hk : 38 ≤ k <;> simp [hk]
    | address => rfl
    | lost => rfl
    | slipped a w k place h hw =>
      rcases hs.2 with h' | h'
      · exact absurd h' h
      · rw [hw] at h'; cases h'
    | final a w w' place => exact absurd hs.1 (by decide)

/-! ## Checking the words -/

theorem slip_getLsbD {n : Nat} (w : BitVec n) (k i : Nat) (hi : i < n) : (slip k w).getLsbD i =
    if i < k then w.getLsbD i else if i < k + 2 then false else w.getLsbD (i - 1) := by
  rw [slip, BitVec.getLsbD_or, firstBits, BitVec.getLsbD_setWidth, BitVec.getLsbD_setWidth, BitVec.getLsbD_shiftLeft,
    BitVec.getLsbD_ushiftRight]
  by_cases h1 : i < k
  · simp [h1, hi, show i < k + 2 by omega]
  · by_cases h2 : i < k + 2
    · simp [h1, h2]
    · simp [h1, h2, hi, show k + 1 + (i - (k + 2)) = i - 1 by omega]

/-- A one taken for two zeros never leaves a valid word. -/
theorem C93_slip_invalid (w : BitVec 32) (hw : NecCommand.validate w = true) (k : Nat) (hk : k < 32)
    (h1 : w.getLsbD k = true) : NecCommand.validate (slip k w) = false := by
  rw [Bool.eq_false_iff]
  intro hv
  rw [nec_validate_iff] at hw hv
  have H : ∀ c, c = 0 ∨ c = 16 → ∀ i, i < 8 → w.getLsbD (c + 8 + i) = !w.getLsbD (c + i) := by
    rintro c (rfl | rfl) i hi
    · simpa using (hw i hi).2
    · exact (hw i hi).1
  have V : ∀ c, c = 0 ∨ c = 16 → ∀ i, i < 8 → (slip k w).getLsbD (c + 8 + i) = !(slip k w).getLsbD (c + i) := by
    rintro c (rfl | rfl) i hi
    · simpa using (hv i hi).2
    · exact (hv i hi).1
  obtain ⟨c, r, hc, hr, rfl⟩ : ∃ c r, (c = 0 ∨ c = 16) ∧ r < 16 ∧ k = c + r :=
    ⟨16 * (k / 16), k % 16, by omega, by omega, by omega⟩
  by_cases h8 : 8 ≤ r
  · obtain ⟨i, rfl⟩ : ∃ i, r = 8 + i := ⟨r - 8, by omega⟩
    have a := H c hc i (by omega)
    have b := V c hc i (by omega)
    rw [slip_getLsbD _ _ _ (by omega), slip_getLsbD _ _ _ (by omega), if_neg (by omega), if_pos (by omega),
      if_pos (by omega)] at b
    rw [← Nat.add_assoc] at h1
    rw [h1] at a
    rw [← b] at a
    cases a
  · by_cases h7 : r < 7
    · have a := H c hc r (by omega)
      have b := V c hc (r + 1) (by omega)
      rw [slip_getLsbD _ _ _ (by omega), slip_getLsbD _ _ _ (by omega), if_neg (by omega), if_neg (by omega),
        if_neg (by omega), if_pos (by omega), show c + 8 + (r + 1) - 1 = c + 8 + r by omega, a, h1] at b
      cases b
    · obtain rfl : r = 7 := by omega
      have low : ∀ i, i < 7 → (slip (c + 7) w).getLsbD (c + i) = w.getLsbD (c + i) := fun i hi => by
        rw [slip_getLsbD _ _ _ (by omega), if_pos (by omega)]
      have high : ∀ i, i < 7 → (slip (c + 7) w).getLsbD (c + 8 + (i + 1)) = w.getLsbD (c + 8 + i) := fun i hi => by
        rw [slip_getLsbD _ _ _ (by omega), if_neg (by omega), if_neg (by omega)]
        rfl
      have z7 : (slip (c + 7) w).getLsbD (c + 7) = false := by
        rw [slip_getLsbD _ _ _ (by omega), if_neg (by omega), if_pos (by omega)]
      have z8 : (slip (c + 7) w).getLsbD (c + 8 + 0) = false := by
        rw [slip_getLsbD _ _ _ (by omega), if_neg (by omega), if_pos (by omega)]
      -- the first bit is a one, and so are the following
      have first : ∀ i, i < 7 → w.getLsbD (c + i) = true := by
        intro i
        induction i with
        | zero =>
          intro _
          have b := V c hc 0 (by omega)
          rw [z8, low 0 (by omega)] at b
          simpa using b.symm
        | succ i ih =>
          intro hi
          have b := V c hc (i + 1) (by omega)
          rw [high i (by omega), low (i + 1) hi, H c hc i (by omega), ih (by omega)] at b
          simpa using b.symm
      have b := V c hc 7 (by omega)
      rw [high 6 (by omega), z7, H c hc 6 (by omega), first 6 (by omega)] at b
      cases b

/-- What is received of a valid word before it breaks off is not valid, unless it is the whole word. -/
theorem firstBits_valid (w : BitVec 32) (hw : NecCommand.validate w = true) (n : Nat)
    (hv : NecCommand.validate (firstBits n w) = true) : firstBits n w = w := by
  rw [nec_validate_iff] at hw hv
  have hb : ∀ i, i < 32 → (firstBits n w).getLsbD i = (decide (i < n) && w.getLsbD i) := fun i hi => by
    rw [firstBits, BitVec.getLsbD_setWidth, BitVec.getLsbD_setWidth]
    simp [hi]
  refine BitVec.eq_of_getLsbD_eq fun i hi => ?_
  by_cases h : i < n
  · rw [hb i hi]; simp [h]
  · by_cases h24 : 24 ≤ n
    · obtain ⟨j, rfl⟩ : ∃ j, i = 24 + j := ⟨i - 24, by omega⟩
      rw [(hv j (by omega)).1, (hw j (by omega)).1, hb (16 + j) (by omega)]
      simp [show 16 + j < n by omega]
    · have := (hv 7 (by decide)).1
      rw [hb _ (by decide), hb _ (by decide)] at this
      simp [show ¬ 31 < n by omega, show ¬ 23 < n by omega] at this

theorem validated_step {Q : BitVec 32 → Prop} {last last' : BitVec 32} {s : NecSpiked} {r : List (Res NecDebugCmd)}
    (h : necSpikedAnswer necDebug.unpack last s r last') (hw : ∀ w ∈ s.word, NecCommand.validate w = true ∧ Q w)
    (hk : ∀ w k place, s = .spiked w k place → k < 32) (hlast : NecCommand.validate last = true → Q last) :
    (NecCommand.validate last' = true → Q last') ∧
      ∀ c ∈ commands r, NecCommand.validate c.bits = true → Q c.bits := by
  have one : ∀ w', (NecCommand.validate w' = true → Q w') → ∀ b,
      ∀ c ∈ commands (oks (necDebug.unpack w' b).toList), NecCommand.validate c.bits = true → Q c.bits :=
    fun w' hw' b c hc => by
      rw [commands_oks] at hc
      simp only [necDebug, Option.toList_some, List.mem_singleton] at hc
      subst hc
      exact hw'
  have bare : ∀ c ∈ commands ([.error .data] : List (Res NecDebugCmd)), NecCommand.validate c.bits = true →
      Q c.bits := fun c hc => by simp [commands] at hc
  cases h with
  | clean s =>
    cases s with
    | frame w k =>
      obtain ⟨hv, hq⟩ := hw w rfl
      unfold necAnswer
      dsimp only
      split
      · exact ⟨hlast, fun c hc => by simp [commands] at hc⟩
      · split
        · refine ⟨fun hf => ?_, bare⟩
          rwa [firstBits_valid w hv _ hf]
        · exact ⟨fun _ => hq, one _ (fun _ => hq) false⟩
    | rep => exact ⟨hlast, one _ hlast true⟩
  | lost w k n place =>
    obtain ⟨hv, hq⟩ := hw w rfl
    refine ⟨fun hf => ?_, bare⟩
    rwa [firstBits_valid w hv _ hf]
  | slipped w k place h hb =>
    have := C93_slip_invalid w (hw w rfl).1 k (hk _ _ _ rfl) hb
    have hx : NecCommand.validate (slip k w) = true → Q (slip k w) := fun hf => by
      rw [this] at hf
      cases hf
    exact ⟨hx, one _ hx false⟩
  | final w _ place h hw' =>
    obtain ⟨hv, hq⟩ := hw w rfl
    suffices hx : NecCommand.validate last' = true → Q last' from ⟨hx, one _ hx false⟩
    rcases hw' with rfl | rfl
    · exact fun _ => hq
    · intro hf
      rcases hb : w.getLsbD 31 with _ | _
      · have : slip 31 w = w := BitVec.eq_of_getLsbD_eq fun i hi => by
          rw [slip_getLsbD _ _ _ hi]
          by_cases h31 : i < 31
          · rw [if_pos h31]
          · obtain rfl : i = 31 := by omega
            rw [hb]; rfl
        rwa [this]
      · rw [C93_slip_invalid w hv 31 (by decide) hb] at hf
        cases hf

/-- **C93**: one who receives the raw words of standard NEC frames and has them checked with `NecCommand::validate` never
takes a word for sent that was not: not after a spike, not of a frame that broke off, and not by a repeat code. -/
theorem C93_validated (l : List NecSpiked) (hl : ∀ s ∈ l, ∀ w ∈ s.word, NecCommand.validate w = true)
    (hk : ∀ w k place, .spiked w k place ∈ l → k < 32)
    (rs : List (Res NecDebugCmd)) (h : Tells (necSpikedAnswer necDebug.unpack) 0 l rs) :
    ∀ c ∈ commands rs, NecCommand.validate c.bits = true → ∃ s ∈ l, s.word = some c.bits := by
  have key : ∀ (st : BitVec 32) (l' : List NecSpiked) (rs : List (Res NecDebugCmd)),
      Tells (necSpikedAnswer necDebug.unpack) st l' rs → (∀ s ∈ l', s ∈ l) →
      (NecCommand.validate st = true → ∃ s ∈ l, s.word = some st) →
      ∀ c ∈ commands rs, NecCommand.validate c.bits = true → ∃ s ∈ l, s.word = some c.bits := by
    intro st l' rs h
    induction h with
    | nil => intro _ _ c hc; simp [commands] at hc
    | @cons st st' s ss r rs h _ ih =>
      intro hsub hst
      have hs := hsub s (by simp)
      obtain ⟨g1, g2⟩ := validated_step (Q := fun w => ∃ s ∈ l, s.word = some w) h (fun w hw => ⟨hl s hs w hw, s, hs, hw⟩)
        (fun w k place he => hk w k place (he ▸ hs)) hst
      intro c hc
      rw [commands_append, List.mem_append] at hc
      rcases hc with hc | hc
      · exact g2 c hc
      · exact ih (fun x hx => hsub x (by simp [hx])) g1 c hc
  exact key 0 l rs h (fun _ h => h) (fun hv => absurd hv (by decide))

/-! ## A wrong command -/

/-- **C93**, NEC family: what one spike in the middle of a one does: another command, and no error. -/
theorem C93_nec_slipped (unpack : BitVec 32 → Bool → Option C) (last w : BitVec 32) (k : Nat) (rs : List (Res C))
    (h : Tells (necSpikedAnswer unpack) last [.spiked w k .middle] rs) : rs = oks (unpack (slip k w) false).toList := by
  cases h with
  | cons h ht =>
    cases ht
    rw [List.append_nil]
    cases h with
    | lost _ _ _ _ h => exact absurd rfl h
    | slipped => rfl
    | final _ _ _ h => exact absurd rfl h

/-! ## Non-vacuity -/

/-- The periods of a frame in nanoseconds, that of number `k` divided after `at` nanoseconds. -/
def dividePeriods (ps : List (Nat × Nat)) (k : Nat) (p q : Nat × Nat) : List (Nat × Nat) :=
  ps.take k ++ p :: q :: ps.drop (k + 1)

/-- Frames of the same key: with a spike in the middle of a one (bit 19), with a spike at the end of a one (bit 20), and
undisturbed. -/
def spikedNec : List ((NecSpiked × List (Nat × Nat)) × (Nat × Nat)) :=
  [((.spiked 0xE718FF00#32 19 .middle,
      dividePeriods (slowPeriods (necPeriods 13500 0xE718FF00#32)) 20 (500000, 647500) (100000, 1047500)), (560000, 40000000)),
    ((.spiked 0xE718FF00#32 20 .side,
      dividePeriods (slowPeriods (necPeriods 13500 0xE718FF00#32)) 21 (500000, 1600000) (100000, 95000)), (560000, 40000000)),
    ((.clean (.frame 0xE718FF00#32 33), slowPeriods ((necPeriods 13500 0xE718FF00#32).take 33)), (560000, 40000000))]

theorem spikedNec_ok : ∀ i ∈ spikedNec, i.1.1.Wire 1000000000 3 (9000 + 4500) (9000 + 2250) i.1.2 ∧
    16000 * 1000000000 ≤ 1000000 * (i.2.1 + i.2.2) ∧ (i.2.1 + i.2.2) * 48000 + 1000000000 < 2 ^ 32 * 1000000000 := by
  have hnear : NearPeriods 1000000000 3 (necPeriods 13500 0xE718FF00#32) (slowPeriods (necPeriods 13500 0xE718FF00#32)) :=
    slowPeriods_near _ (by decide +kernel)
  intro i hi
  simp only [spikedNec, List.mem_cons, List.not_mem_nil, or_false] at hi
  rcases hi with rfl | rfl | rfl
  · exact ⟨⟨by decide, _, _, _, hnear, ⟨⟨(500000, 1795000), by decide +kernel, by decide⟩, rfl⟩,
      ⟨by unfold Near; decide, by unfold Near; decide⟩⟩, by decide, by decide⟩
  · exact ⟨⟨by decide, _, _, _, hnear, ⟨⟨(500000, 1795000), by decide +kernel, by decide⟩, rfl⟩, .inr (by decide)⟩,
      by decide, by decide⟩
  · exact ⟨slowPeriods_near _ (by decide +kernel), by decide, by decide⟩

/-- At 48 kHz: key 0x18 is reported as key 0x20 without any error, then comes an error, then the right key. -/
example (t : Target) (phase t0 : Nat) :
    (results (necDecoder t Mono.u32 (necTable 48000) Infrared.nec) id
        ((true, 4000) :: clocked 1000000000 48000 phase t0 (series (fun i => i.2) spikedNec))).map said =
      some [.ok (some ⟨0x00, 0x20, false⟩), .error .data, .ok (some ⟨0x00, 0x18, false⟩)] := by
  have htbl : necSpans t Mono.u32 Infrared.nec 48000 = some (necTable 48000) :=
    necSpans_standard (.inl rfl) t (by decide) Infrared.nec rfl
  obtain ⟨rs, h1, h2⟩ := C93_nec t 48000 3 (by decide) (by decide) Infrared.nec (.inl rfl) Mono.u32 (.inl rfl) _ htbl
    (by decide +kernel) id 1000000000 (by decide) phase t0 4000 (pause_of_get (by decide) (by decide +kernel)) spikedNec
    spikedNec_ok
  rw [h1]
  have hrs : rs = oks (Infrared.nec.unpack (slip 19 0xE718FF00#32) false).toList ++ ([.error .data] ++
      ((necAnswer Infrared.nec.unpack 0 (.frame 0xE718FF00#32 33)).1 ++ [])) := by
    cases h2 with
    | cons a h2 =>
      cases h2 with
      | cons b h2 =>
        cases h2 with
        | cons c h2 =>
          cases h2
          congr 1
          · cases a with
            | lost _ _ _ _ h => exact absurd rfl h
            | slipped => rfl
          · congr 1
            · cases b with
              | lost => rfl
              | slipped _ _ _ h => exact absurd rfl h
            · congr 1
              cases c
              rfl
  subst hrs
  decide +kernel

/-- The words of the example are valid; what is made of the first is not. -/
example : (∀ s ∈ spikedNec.map (fun i => i.1.1), ∀ w ∈ s.word, NecCommand.validate w = true) ∧
    NecCommand.validate (slip 19 0xE718FF00#32) = false := by
  refine ⟨fun s hs => ?_, by decide⟩
  simp only [spikedNec, List.map_cons, List.map_nil, List.mem_cons, List.not_mem_nil, or_false] at hs
  rcases hs with rfl | rfl | rfl <;> (intro w hw; cases hw; decide)

/-- The lengths for a polled receiver at 48 kHz. -/
example : (∀ e ∈ series (fun i => i.2) spikedNec, 1000000000 ≤ e.2 * 48000) ∧
    ∀ e ∈ series (fun i => i.2) spikedNec, e.2 * 48000 / 1000000000 + 1 < 2 ^ 32 := by decide +kernel

/-- SBP: a spike in a zero of the address, one at the beginning of a one of the data, and an undisturbed frame. -/
def spikedSbp : List ((SbpSpiked × List (Nat × Nat)) × (Nat × Nat)) :=
  [((.address 0x1234#16 0xABCDE#20 3,
      dividePeriods (slowPeriods (sbpPeriods 0x1234#16 0xABCDE#20)) 4 (300000, 200000) (100000, 420000)), (560000, 40000000)),
    ((.data 0x1234#16 0xABCDE#20 1 .side,
      dividePeriods (slowPeriods (sbpPeriods 0x1234#16 0xABCDE#20)) 19 (200000, 100000) (200000, 1540000)), (560000, 40000000)),
    ((.clean 0x1234#16 0xABCDE#20 38, slowPeriods ((sbpPeriods 0x1234#16 0xABCDE#20).take 38)), (560000, 40000000))]

theorem spikedSbp_ok : ∀ i ∈ spikedSbp, i.1.1.Wire 1000000000 3 i.1.2 ∧
    16000 * 1000000000 ≤ 1000000 * (i.2.1 + i.2.2) ∧ (i.2.1 + i.2.2) * 1000000 + 1000000000 < 2 ^ 32 * 1000000000 := by
  have hnear : NearPeriods 1000000000 3 (sbpPeriods 0x1234#16 0xABCDE#20) (slowPeriods (sbpPeriods 0x1234#16 0xABCDE#20)) :=
    slowPeriods_near _ (by decide +kernel)
  intro i hi
  simp only [spikedSbp, List.mem_cons, List.not_mem_nil, or_false] at hi
  rcases hi with rfl | rfl | rfl
  · exact ⟨⟨by decide, _, _, _, hnear, ⟨⟨(500000, 520000), by decide +kernel, by decide⟩, rfl⟩⟩, by decide, by decide⟩
  · exact ⟨⟨by decide, _, _, _, hnear, ⟨⟨(500000, 1540000), by decide +kernel, by decide⟩, rfl⟩, .inl (by decide)⟩,
      by decide, by decide⟩
  · exact ⟨slowPeriods_near _ (by decide +kernel), by decide, by decide⟩

/-- One command is reported, that of the undisturbed frame. -/
example (t : Target) (phase t0 : Nat) :
    ((results (sbpDecoder t Mono.u32 (sbpTable 1000000)) id
        ((true, 100000) :: clocked 1000000000 1000000 phase t0 (series (fun i => i.2) spikedSbp))).map said).map commands =
      some [SbpCommand.unpack 0x1234 0xABCDE] := by
  have htbl : sbpSpans t Mono.u32 1000000 = some (sbpTable 1000000) := sbpSpans_eq (.inl rfl) t (by decide)
  obtain ⟨rs, h1, h2⟩ := C93_sbp t 1000000 3 (by decide) (by decide) Mono.u32 (.inl rfl) _ htbl (by decide +kernel) id
    1000000000 (by decide) phase t0 100000 (pause_of_get (by decide) (by decide +kernel)) spikedSbp spikedSbp_ok
  have h3 := C93_sbp_detected _ (fun s hs => by
    simp only [spikedSbp, List.map_cons, List.map_nil, List.mem_cons, List.not_mem_nil, or_false] at hs
    rcases hs with rfl | rfl | rfl
    · exact trivial
    · exact ⟨by decide, .inl rfl⟩
    · exact trivial) rs h2
  have hid : ∀ rs : List (Res SbpCommand), rs.map (Res.map id) = rs := fun rs => by
    rw [show (Res.map id : Res SbpCommand → _) = id from funext fun r => by
      rcases r with _ | _ | _ <;> rfl, List.map_id]
  rw [h1, Option.map_some, hid, h3]
  decide +kernel

/-- Denon: a spike in the middle of a one, and an undisturbed frame. -/
def spikedDenon : List ((DenonSpiked × List (Nat × Nat)) × (Nat × Nat)) :=
  [((.spiked 0x2A4C028D6F00#48 9 .middle,
      dividePeriods (slowPeriods (denonPeriods 0x2A4C028D6F00#48)) 10 (500000, 356800) (100000, 756800)), (560000, 40000000)),
    ((.clean 0x2A4C028D6F00#48 49, slowPeriods ((denonPeriods 0x2A4C028D6F00#48).take 49)), (560000, 40000000))]

theorem spikedDenon_ok : ∀ i ∈ spikedDenon, i.1.1.Wire 1000000000 3 i.1.2 ∧
    16000 * 1000000000 ≤ 1000000 * (i.2.1 + i.2.2) ∧ (i.2.1 + i.2.2) * 1000000 + 1000000000 < 2 ^ 32 * 1000000000 := by
  have hnear : NearPeriods 1000000000 3 (denonPeriods 0x2A4C028D6F00#48) (slowPeriods (denonPeriods 0x2A4C028D6F00#48)) :=
    slowPeriods_near _ (by decide +kernel)
  intro i hi
  simp only [spikedDenon, List.mem_cons, List.not_mem_nil, or_false] at hi
  rcases hi with rfl | rfl
  · exact ⟨⟨by decide, _, _, _, hnear, ⟨⟨(500000, 1213600), by decide +kernel, by decide⟩, rfl⟩,
      ⟨by unfold Near; decide, by unfold Near; decide⟩⟩, by decide, by decide⟩
  · exact ⟨slowPeriods_near _ (by decide +kernel), by decide, by decide⟩

/-- The first command is wrong: the bits above the ninth have moved up. -/
example (t : Target) (phase t0 : Nat) :
    (results (denonDecoder t Mono.u32 (denonTable 1000000)) id
        ((true, 100000) :: clocked 1000000000 1000000 phase t0 (series (fun i => i.2) spikedDenon))).map said =
      some [.ok (some ⟨0x5498051AD900#64⟩), .ok (some ⟨0x2A4C028D6F00#64⟩)] := by
  have htbl : denonSpans t Mono.u32 1000000 = some (denonTable 1000000) := denonSpans_eq (.inl rfl) t (by decide)
  obtain ⟨rs, h1, h2⟩ := C93_denon t 1000000 3 (by decide) (by decide) Mono.u32 (.inl rfl) _ htbl (by decide +kernel) id
    1000000000 (by decide) phase t0 100000 (pause_of_get (by decide) (by decide +kernel)) spikedDenon spikedDenon_ok
  rw [h1]
  cases h2 with
  | cons a h2 =>
    cases h2 with
    | cons b h2 =>
      cases h2
      cases a with
      | lost _ _ _ _ h => exact absurd rfl h
      | slipped =>
        cases b
        decide +kernel

end Infrared
