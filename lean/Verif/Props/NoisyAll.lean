import Verif.Props.NoisyBi

/-!
# Noise between transmissions: what one can rely on (C95)
-/

namespace Infrared

open Spec

variable {C K : Type}

theorem tells_split {St S R : Type} {step : St → S → List R → St → Prop} (a b : List S) :
    ∀ {st : St} {rs : List R}, Tells step st (a ++ b) rs → ∃ ra rb st', rs = ra ++ rb ∧ Tells step st a ra ∧
      Tells step st' b rb := by
  induction a with
  | nil => intro st rs h; exact ⟨[], rs, st, rfl, .nil st, h⟩
  | cons s a ih =>
    intro st rs h
    cases h with
    | cons h1 h2 =>
      obtain ⟨ra, rb, st', rfl, h3, h4⟩ := ih h2
      exact ⟨_, rb, st', (List.append_assoc ..).symm, .cons h1 h3, h4⟩

/-- **C95**, NEC family: a complete undisturbed frame is reported, whatever is before and after it, and a repeat code
right after it repeats it. -/
theorem C95_nec_heard (unpack : BitVec 32 → Bool → Option C) (a b : List NecNoisy) (w : BitVec 32) (last : BitVec 32)
    (rs : List (Res C))
    (h : Tells (necNoisyAnswer unpack) last (a ++ .sent (.other (.clean (.frame w 33))) :: b) rs) :
    ∃ ra rb, rs = ra ++ (oks (unpack w false).toList ++ rb) ∧ Tells (necNoisyAnswer unpack) last a ra ∧
      Tells (necNoisyAnswer unpack) w b rb := by
  obtain ⟨ra, rb, st', rfl, h1, h2⟩ := tells_split _ _ h
  refine ⟨ra, ?_⟩
  cases h2 with
  | cons h3 h4 =>
    cases h3 with
    | sent s r last' h5 =>
      cases h5 with
      | other s r last' h6 =>
        cases h6 with
        | clean s => exact ⟨_, rfl, h1, h4⟩

theorem nec_made_short {unpack : BitVec 32 → Bool → Option C} {last last' : BitVec 32} {n : Nat} {r : List (Res C)}
    (h : NecMade unpack last n r last') (hn : n < 33) : ∀ c ∈ commands r, ∃ w, unpack w true = some c := by
  induction h with
  | nothing => intro c hc; simp [commands] at hc
  | ended => intro c hc; simp [commands] at hc
  | again last last' n r _ ih =>
    intro c hc
    rw [commands_append, commands_oks, List.mem_append, Option.mem_toList] at hc
    rcases hc with hc | hc
    · exact ⟨last, hc⟩
    · exact ih (by omega) c hc
  | wrong last w last' n r _ ih =>
    intro c hc
    exact ih (by omega) c (by simpa [commands] using hc)
  | command => omega

/-- **C95**, NEC family: noise of fewer than 33 periods never makes a command, only repetitions.  So if the other
transmissions are undisturbed or detectably disturbed, the commands that are not repetitions are exactly those of the
undisturbed complete frames. -/
theorem C95_nec_fresh (unpack : BitVec 32 → Bool → Option C) (isRep : C → Bool)
    (hrep : ∀ w b c, unpack w b = some c → isRep c = b) (last : BitVec 32) (l : List NecNoisy)
    (hn : ∀ n, .noise n ∈ l → n < 33) (hl : ∀ s, .sent (.other s) ∈ l → s = .clean .rep ∨ s.Detectable)
    (rs : List (Res C)) (h : Tells (necNoisyAnswer unpack) last l rs) :
    (commands rs).filter (fun c => !isRep c) = l.flatMap fun
      | .sent (.other (.clean (.frame w k))) => if 33 ≤ k then (unpack w false).toList else []
      | _ => [] := by
  have hfresh : ∀ w : BitVec 32, (unpack w false).toList.filter (fun c => !isRep c) = (unpack w false).toList := by
    intro w
    rw [List.filter_eq_self]
    intro c hc
    rw [hrep w false c (Option.mem_toList.mp hc)]
    rfl
  induction h with
  | nil => rfl
  | @cons st st' s ss r rs h _ ih =>
    rw [List.flatMap_cons, commands_append, List.filter_append,
      ih (fun n hs => hn n (by simp [hs])) fun x hx => hl x (by simp [hx])]
    congr 1
    cases h with
    | sent s r last' h =>
      by_cases hr : s = .other (.clean .rep)
      · subst hr
        cases h with
        | other _ _ _ h =>
          cases h with
          | clean =>
            change List.filter _ (commands (oks (unpack st true).toList)) = []
            rw [commands_oks, List.filter_eq_nil_iff]
            intro c hc
            rw [hrep st true c (Option.mem_toList.mp hc)]
            simp
      · have := C94_nec_detected unpack st [s] (fun x hx => by
          rw [List.mem_singleton] at hx
          subst hx
          exact (hl x (by simp)).resolve_left fun h => hr (by rw [h])) r (by
            have := Tells.cons h (Tells.nil (step := necHurtAnswer unpack) st')
            rwa [List.append_nil] at this)
        rw [this, List.flatMap_cons, List.flatMap_nil, List.append_nil]
        rcases s with (⟨_ | _⟩ | _) | _
        · dsimp only
          split
          · exact hfresh _
          · rfl
        · rfl
        · rfl
        · rfl
    | noise n r last' h =>
      rw [List.filter_eq_nil_iff]
      intro c hc
      obtain ⟨w, hw⟩ := nec_made_short h (hn n (by simp)) c hc
      rw [hrep w true c hw]
      simp

theorem sbp_made_short {n : Nat} {r : List (Res SbpCommand)} (h : SbpMade n r) (hn : n < 38) : commands r = [] := by
  induction h with
  | nothing => rfl
  | endedAddress => rfl
  | endedData => rfl
  | address n r _ ih => exact ih (by omega)
  | data n r _ ih => exact ih (by omega)
  | command => omega

/-- **C95**, SBP: noise of fewer than 38 periods never makes a command. -/
theorem C95_sbp_commands (l : List SbpNoisy) (hn : ∀ n, .noise n ∈ l → n < 38)
    (hl : ∀ s, .sent (.other s) ∈ l → s.Detectable) (rs : List (Res SbpCommand)) (h : Tells sbpNoisyAnswer () l rs) :
    commands rs = l.flatMap fun
      | .sent (.other (.clean a w k)) => if 38 ≤ k then [SbpCommand.unpack a (w.setWidth 32)] else []
      | _ => [] := by
  generalize () = st at h
  induction h with
  | nil => rfl
  | @cons st st' s ss r rs h _ ih =>
    rw [List.flatMap_cons, commands_append, ih (fun n hs => hn n (by simp [hs])) fun x hx => hl x (by simp [hx])]
    congr 1
    cases h with
    | sent s r h =>
      rw [C94_sbp_detected [s] (fun x hx => by
        rw [List.mem_singleton] at hx
        subst hx
        exact hl x (by simp)) r (by
          have := Tells.cons h (Tells.nil (step := sbpHurtAnswer) ())
          rwa [List.append_nil] at this), List.flatMap_cons, List.flatMap_nil, List.append_nil]
      rcases s with (_ | _ | _) | _ <;> rfl
    | noise n r h => exact sbp_made_short h (hn n (by simp))

theorem denon_made_short {stale stale' : BitVec 64} {n : Nat} {r : List (Res DenonCommand)}
    (h : DenonMade stale n r stale') (hn : n < 49) : r = [] := by
  induction h with
  | nothing => rfl
  | lost _ _ _ n r _ ih => exact ih (by omega)
  | command => omega

theorem forall2_append {A B : Type} {R : A → B → Prop} {a a' : List A} {b b' : List B} (h : List.Forall₂ R a b)
    (h' : List.Forall₂ R a' b') : List.Forall₂ R (a ++ a') (b ++ b') := by
  induction h with
  | nil => exact h'
  | cons h _ ih => exact .cons h ih

/-- **C95**, Denon: if no noise is of 49 or more periods and nothing has a spike, there is one command for each complete
frame, in order; it has all bits of the frame, and perhaps others. -/
theorem C95_denon_commands (stale : BitVec 64) (l : List DenonNoisy) (hn : ∀ n, .noise n ∈ l → n < 49)
    (hl : ∀ w k place, .sent (.other (.spiked w k place)) ∉ l) (rs : List (Res DenonCommand))
    (h : Tells denonNoisyAnswer stale l rs) :
    List.Forall₂ (fun (w : BitVec 48) c => ∃ x, c = .ok (some { bits := x ||| (w.setWidth 47).setWidth 64 }))
      (l.flatMap fun
        | .sent (.other (.clean w k)) => if 49 ≤ k then [w] else []
        | _ => []) rs := by
  induction h with
  | nil => exact .nil
  | @cons st st' s ss r rs h _ ih =>
    rw [List.flatMap_cons]
    refine forall2_append ?_ (ih (fun n hs => hn n (by simp [hs])) fun w k place hx => hl w k place (by simp [hx]))
    cases h with
    | sent s r stale' h =>
      cases h with
      | other s _ _ h =>
        cases h with
        | clean w k =>
          dsimp only
          unfold denonAnswer
          dsimp only
          by_cases h0 : k = 0
          · rw [if_pos h0, if_neg (by omega)]
            exact .nil
          · rw [if_neg h0]
            by_cases h48 : k ≤ 48
            · rw [if_pos h48, if_neg (by omega)]
              exact .nil
            · rw [if_neg h48, if_pos (by omega)]
              exact .cons ⟨st, rfl⟩ .nil
        | _ => exact absurd (List.mem_cons_self ..) (hl _ _ _)
      | _ => exact .nil
    | noise n r stale' h =>
      rw [denon_made_short h (hn n (by simp))]
      exact .nil

/-- **C95**, RC5: noise of fewer than 14 edges never makes a command. -/
theorem C95_rc5_commands (l : List Rc5Noisy) (hn : ∀ n, .noise n ∈ l → n < 14) (rs : List (Res Rc5Command))
    (h : Tells rc5NoisyAnswer () l rs) :
    rs = l.flatMap fun
      | .sent w k => if (rc5Edges w).length ≤ k then oks [Rc5Command.unpack (w.setWidth 16)] else []
      | .noise _ => [] := by
  generalize () = st at h
  induction h with
  | nil => rfl
  | @cons st st' s ss r rs h _ ih =>
    rw [List.flatMap_cons, ← ih fun n hs => hn n (by simp [hs])]
    congr 1
    cases h with
    | whole w k h => exact (if_pos h).symm
    | part w k h => exact (if_neg (by omega)).symm
    | noise n cs h =>
      have := hn n (by simp)
      have : cs = [] := List.length_eq_zero_iff.mp (by omega)
      subst this
      rfl

/-- **C95**, RC6: noise of fewer than 24 edges never makes a command. -/
theorem C95_rc6_commands (l : List Rc6Noisy) (hn : ∀ n, .noise n ∈ l → n < 24) (rs : List (Res Rc6Command))
    (h : Tells rc6NoisyAnswer () l rs) :
    rs = l.flatMap fun
      | .sent c k => if (rc6Edges (c.addr ++ c.cmd) c.toggle).length ≤ k then oks [c] else []
      | .noise _ => [] := by
  generalize () = st at h
  induction h with
  | nil => rfl
  | @cons st st' s ss r rs h _ ih =>
    rw [List.flatMap_cons, ← ih fun n hs => hn n (by simp [hs])]
    congr 1
    cases h with
    | whole c k h => exact (if_pos h).symm
    | part c k h => exact (if_neg (by omega)).symm
    | noise n cs h =>
      have := hn n (by simp)
      have : cs = [] := List.length_eq_zero_iff.mp (by omega)
      subst this
      rfl

/-! ## Non-vacuity -/

/-- A frame of a key, any noise of fewer than 33 periods, none of them longer than 1 s, and the frame again. -/
def noisyNec (ps : List (Nat × Nat)) : List ((NecNoisy × List (Nat × Nat)) × (Nat × Nat)) :=
  [((.sent (.other (.clean (.frame 0xE718FF00#32 33))), slowPeriods ((necPeriods 13500 0xE718FF00#32).take 33)),
      (560000, 40000000)),
    ((.noise ps.length, ps), (560000, 40000000)),
    ((.sent (.other (.clean (.frame 0xE718FF00#32 33))), slowPeriods ((necPeriods 13500 0xE718FF00#32).take 33)),
      (560000, 40000000))]

theorem countable_second {f : Nat} (hf : f ≤ 1000000) {ps : List (Nat × Nat)}
    (h : ∀ p ∈ ps, p.1 + p.2 ≤ 1000000000) : Countable 1000000000 f 32 ps := by
  intro p hp
  have := Nat.mul_le_mul (h p hp) hf
  omega

/-- At 48 kHz: two commands that are no repetitions. -/
example (t : Target) (phase t0 : Nat) (ps : List (Nat × Nat)) (hl : ps.length < 33)
    (hps : ∀ p ∈ ps, p.1 + p.2 ≤ 1000000000) :
    ∃ rs, (results (necDecoder t Mono.u32 (necTable 48000) Infrared.nec) id
        ((true, 4000) :: clocked 1000000000 48000 phase t0 (series (fun i => i.2) (noisyNec ps)))).map said =
          some (rs.map (Res.map id)) ∧
      (commands rs).filter (fun c => !c.rep) = [⟨0x00, 0x18, false⟩, ⟨0x00, 0x18, false⟩] := by
  have htbl : necSpans t Mono.u32 Infrared.nec 48000 = some (necTable 48000) :=
    necSpans_standard (.inl rfl) t (by decide) Infrared.nec rfl
  obtain ⟨rs, h1, h2⟩ := C95_nec t 48000 3 (by decide) (by decide) Infrared.nec (.inl rfl) Mono.u32 (.inl rfl) _ htbl
    (by decide +kernel) id 1000000000 (by decide) phase t0 4000 (pause_of_get (by decide) (by decide +kernel)) (noisyNec ps)
    (by
      intro i hi
      simp only [noisyNec, List.mem_cons, List.not_mem_nil, or_false] at hi
      rcases hi with rfl | rfl | rfl
      · exact ⟨slowPeriods_near _ (by decide +kernel), by decide, by decide⟩
      · exact ⟨⟨rfl, countable_second (by decide) hps⟩, (by decide : 16000 * 1000000000 ≤ 1000000 * (560000 + 40000000)),
          (by decide : (560000 + 40000000) * 48000 + 1000000000 < 2 ^ 32 * 1000000000)⟩
      · exact ⟨slowPeriods_near _ (by decide +kernel), by decide, by decide⟩)
  refine ⟨rs, h1, ?_⟩
  rw [C95_nec_fresh Infrared.nec.unpack NecCommand.rep (fun w b c h => by cases h; rfl) 0 _ (fun n h => by
    simp only [noisyNec, List.map_cons, List.map_nil, List.mem_cons, List.not_mem_nil, or_false, reduceCtorEq, false_or,
      NecNoisy.noise.injEq] at h
    omega) (fun s h => by
    simp only [noisyNec, List.map_cons, List.map_nil, List.mem_cons, List.not_mem_nil, or_false, reduceCtorEq, false_or,
      NecNoisy.sent.injEq, NecHurt.other.injEq, or_self] at h
    subst h
    exact .inr trivial) rs h2]
  simp only [noisyNec, List.map_cons, List.map_nil, List.flatMap_cons, List.flatMap_nil]
  decide +kernel

/-- The same for SBP. -/
example (t : Target) (phase t0 : Nat) (ps : List (Nat × Nat)) (hl : ps.length < 38)
    (hps : ∀ p ∈ ps, p.1 + p.2 ≤ 1000000000) :
    ∃ rs, (results (sbpDecoder t Mono.u32 (sbpTable 1000000)) id
        ((true, 100000) :: clocked 1000000000 1000000 phase t0 (series (fun i => i.2)
          [((SbpNoisy.noise ps.length, ps), (560000, 40000000)),
            ((.sent (.other (.clean 0x1234#16 0xABCDE#20 38)), slowPeriods ((sbpPeriods 0x1234#16 0xABCDE#20).take 38)),
              (560000, 40000000))]))).map said = some (rs.map (Res.map id)) ∧
      commands rs = [SbpCommand.unpack 0x1234 0xABCDE] := by
  have htbl : sbpSpans t Mono.u32 1000000 = some (sbpTable 1000000) := sbpSpans_eq (.inl rfl) t (by decide)
  obtain ⟨rs, h1, h2⟩ := C95_sbp t 1000000 3 (by decide) (by decide) Mono.u32 (.inl rfl) _ htbl (by decide +kernel) id
    1000000000 (by decide) phase t0 100000 (pause_of_get (by decide) (by decide +kernel))
    [((SbpNoisy.noise ps.length, ps), (560000, 40000000)),
      ((.sent (.other (.clean 0x1234#16 0xABCDE#20 38)), slowPeriods ((sbpPeriods 0x1234#16 0xABCDE#20).take 38)),
        (560000, 40000000))] (by
      intro i hi
      simp only [List.mem_cons, List.not_mem_nil, or_false] at hi
      rcases hi with rfl | rfl
      · exact ⟨⟨rfl, countable_second (by decide) hps⟩, (by decide : 16000 * 1000000000 ≤ 1000000 * (560000 + 40000000)),
          (by decide : (560000 + 40000000) * 1000000 + 1000000000 < 2 ^ 32 * 1000000000)⟩
      · exact ⟨slowPeriods_near _ (by decide +kernel), by decide, by decide⟩)
  refine ⟨rs, h1, ?_⟩
  rw [C95_sbp_commands _ (fun n h => by
    simp only [List.map_cons, List.map_nil, List.mem_cons, List.not_mem_nil, or_false, reduceCtorEq,
      SbpNoisy.noise.injEq] at h
    omega) (fun s h => by
    simp only [List.map_cons, List.map_nil, List.mem_cons, List.not_mem_nil, or_false, reduceCtorEq, false_or,
      SbpNoisy.sent.injEq, SbpHurt.other.injEq] at h
    subst h
    exact trivial) rs h2]
  simp only [List.map_cons, List.map_nil, List.flatMap_cons, List.flatMap_nil]
  decide +kernel

/-- Denon: one command, which has all bits of the frame. -/
example (t : Target) (phase t0 : Nat) (ps : List (Nat × Nat)) (hl : ps.length < 49)
    (hps : ∀ p ∈ ps, p.1 + p.2 ≤ 1000000000) :
    ∃ stale, (results (denonDecoder t Mono.u32 (denonTable 1000000)) id
        ((true, 100000) :: clocked 1000000000 1000000 phase t0 (series (fun i => i.2)
          [((DenonNoisy.noise ps.length, ps), (560000, 40000000)),
            ((.sent (.other (.clean 0x2A4C028D6F00#48 49)), slowPeriods ((denonPeriods 0x2A4C028D6F00#48).take 49)),
              (560000, 40000000))]))).map said = some [.ok (some ⟨stale ||| 0x2A4C028D6F00#64⟩)] := by
  have htbl : denonSpans t Mono.u32 1000000 = some (denonTable 1000000) := denonSpans_eq (.inl rfl) t (by decide)
  obtain ⟨rs, h1, h2⟩ := C95_denon t 1000000 3 (by decide) (by decide) Mono.u32 (.inl rfl) _ htbl (by decide +kernel) id
    1000000000 (by decide) phase t0 100000 (pause_of_get (by decide) (by decide +kernel))
    [((DenonNoisy.noise ps.length, ps), (560000, 40000000)),
      ((.sent (.other (.clean 0x2A4C028D6F00#48 49)), slowPeriods ((denonPeriods 0x2A4C028D6F00#48).take 49)),
        (560000, 40000000))] (by
      intro i hi
      simp only [List.mem_cons, List.not_mem_nil, or_false] at hi
      rcases hi with rfl | rfl
      · exact ⟨⟨rfl, countable_second (by decide) hps⟩, (by decide : 16000 * 1000000000 ≤ 1000000 * (560000 + 40000000)),
          (by decide : (560000 + 40000000) * 1000000 + 1000000000 < 2 ^ 32 * 1000000000)⟩
      · exact ⟨slowPeriods_near _ (by decide +kernel), by decide, by decide⟩)
  have h3 := C95_denon_commands 0 _ (fun n h => by
    simp only [List.map_cons, List.map_nil, List.mem_cons, List.not_mem_nil, or_false, reduceCtorEq,
      DenonNoisy.noise.injEq] at h
    omega) (fun w k place h => by
    simp only [List.map_cons, List.map_nil, List.mem_cons, List.not_mem_nil, or_false, reduceCtorEq,
      DenonNoisy.sent.injEq, DenonHurt.other.injEq] at h) rs h2
  cases h3 with
  | cons h3 h4 =>
    cases h4
    obtain ⟨x, rfl⟩ := h3
    exact ⟨x, h1⟩

/-- RC5: any noise of fewer than 14 edges, then a transmission. -/
example (t : Target) (hus : 16 ≤ t.usizeBits) (phase g : Nat) (e : Bool × Nat) (es : List (Bool × Nat))
    (he : 16000000 ≤ e.2) (hl : es.length < 13) :
    (results (rc5Decoder t (rc5Table 40000)) id ((e.1, g) :: clocked 1000000000 40000 phase (0 + e.2)
        (es ++ sentPart 889 (rc5Edges 0x314A) 40))).map said = some (oks [Rc5Command.unpack 0x314A]) := by
  obtain ⟨rs, h1, h2⟩ := C95_rc5 t hus 40000 5 (by decide) (by decide) Mono.u32 (.inl rfl) (rc5Table 40000)
    (rc5Spans_eq (.inl rfl) t (by decide)) (by decide +kernel) id 1000000000 (by decide) phase
    [(.noise (e :: es).length, e :: es, none), (.sent 0x314A 40, sentPart 889 (rc5Edges 0x314A) 40, none)] (by
      have hp : (2 : Nat) ^ 16 ≤ 2 ^ t.usizeBits := Nat.pow_le_pow_right (by decide) hus
      intro i hi
      simp only [List.mem_cons, List.not_mem_nil, or_false] at hi
      rcases hi with rfl | rfl
      · refine ⟨⟨rfl, rfl, e, es, rfl, by omega⟩, fun n h => .inr ?_⟩
        simp only [Rc5Noisy.noise.injEq, List.length_cons] at h
        omega
      · exact ⟨⟨by decide, sentPart_sent (by decide) fun h => absurd h (by decide)⟩, fun n h => by cases h⟩)
    e.1 e.2 (es ++ sentPart 889 (rc5Edges 0x314A) 40) (by simp [withTail]) 0 g
  have h3 := C95_rc5_commands _ (fun n h => by
    simp only [List.map_cons, List.map_nil, List.mem_cons, List.not_mem_nil, or_false, reduceCtorEq,
      Rc5Noisy.noise.injEq, List.length_cons] at h
    omega) rs h2
  rw [h1, h3]
  simp only [List.map_cons, List.map_nil, List.flatMap_cons, List.flatMap_nil]
  decide +kernel

/-- The same for RC6. -/
example (t : Target) (hus : 16 ≤ t.usizeBits) (phase g : Nat) (e : Bool × Nat) (es : List (Bool × Nat))
    (he : 16000000 ≤ e.2) (hl : es.length < 23) :
    (results (rc6Decoder t (rc6Table 80000)) id ((e.1, g) :: clocked 1000000000 80000 phase (0 + e.2)
        (es ++ sentPart 444 (rc6Edges 0x045D true) 60))).map said = some (oks [⟨0x04, 0x5D, true⟩]) := by
  obtain ⟨rs, h1, h2⟩ := C95_rc6 t hus 80000 5 (by decide) (by decide) Mono.u32 (.inl rfl) (rc6Table 80000)
    (rc6Spans_eq (.inl rfl) t (by decide)) (by decide +kernel) id 1000000000 (by decide) phase
    [(.noise (e :: es).length, e :: es, none), (.sent ⟨0x04, 0x5D, true⟩ 60, sentPart 444 (rc6Edges 0x045D true) 60, none)] (by
      have hp : (2 : Nat) ^ 16 ≤ 2 ^ t.usizeBits := Nat.pow_le_pow_right (by decide) hus
      intro i hi
      simp only [List.mem_cons, List.not_mem_nil, or_false] at hi
      rcases hi with rfl | rfl
      · refine ⟨⟨rfl, rfl, e, es, rfl, by omega⟩, fun n h => .inr ?_⟩
        simp only [Rc6Noisy.noise.injEq, List.length_cons] at h
        omega
      · exact ⟨sentPart_sent (by decide) fun h => absurd h (by decide), fun n h => by cases h⟩)
    e.1 e.2 (es ++ sentPart 444 (rc6Edges 0x045D true) 60) (by simp [withTail]) 0 g
  have h3 := C95_rc6_commands _ (fun n h => by
    simp only [List.map_cons, List.map_nil, List.mem_cons, List.not_mem_nil, or_false, reduceCtorEq,
      Rc6Noisy.noise.injEq, List.length_cons] at h
    omega) rs h2
  rw [h1, h3]
  simp only [List.map_cons, List.map_nil, List.flatMap_cons, List.flatMap_nil]
  decide +kernel

end Infrared
