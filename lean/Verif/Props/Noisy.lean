import Verif.Spec.Noisy
import Verif.Props.MissingBi

/-!
# Noise between transmissions (C95)
-/

namespace Infrared

open Spec

variable {C K : Type}

/-! ## A pause in the symbols -/

theorem leadingBits_le (z o k : Nat) (ss : List (Option Nat)) : (leadingBits z o k ss).length ≤ ss.length := by
  induction ss generalizing k with
  | nil => cases k <;> simp [leadingBits]
  | cons s ss ih =>
    cases k with
    | zero => simp [leadingBits]
    | succ k =>
      rw [leadingBits]
      have := ih k
      split
      · simpa using this
      · split
        · simpa using this
        · simp

theorem leadingBits_most (z o k : Nat) (ss : List (Option Nat)) : (leadingBits z o k ss).length ≤ k := by
  induction ss generalizing k with
  | nil => cases k <;> simp [leadingBits]
  | cons s ss ih =>
    cases k with
    | zero => simp [leadingBits]
    | succ k =>
      rw [leadingBits]
      have := ih k
      split
      · simpa using this
      · split
        · simpa using this
        · simp

/-- Bits end at a pause. -/
theorem leadingBits_pause (z o k : Nat) (a ss : List (Option Nat)) (d : Option Nat) (hz : d ≠ some z) (ho : d ≠ some o) :
    leadingBits z o k (a ++ d :: ss) = leadingBits z o k a := by
  induction a generalizing k with
  | nil => cases k <;> simp [leadingBits, hz, ho]
  | cons s a ih =>
    cases k with
    | zero => simp [leadingBits]
    | succ k => simp only [List.cons_append, leadingBits, ih]

theorem drop_pause {α : Type} (a ss : List α) (d : α) (k : Nat) (hk : k ≤ a.length) :
    (a ++ d :: ss).drop k = a.drop k ++ d :: ss := by
  rw [List.drop_append_of_le_length hk]

theorem drop_over {α : Type} (a ss : List α) (d : α) (k : Nat) (hk : k = a.length) :
    (a ++ d :: ss).drop (k + 1) = ss := by
  subst hk
  rw [List.drop_append, List.drop_of_length_le (by omega)]
  simp

theorem Spec.NecMade.mono {unpack : BitVec 32 → Bool → Option C} {last last' : BitVec 32} {n m : Nat} {r : List (Res C)}
    (h : NecMade unpack last n r last') (hm : n ≤ m) : NecMade unpack last m r last' := by
  induction h generalizing m with
  | nothing last => exact .nothing last m
  | ended last last' n =>
    obtain ⟨k, rfl⟩ : ∃ k, m = k + 1 := ⟨m - 1, by omega⟩
    exact .ended last last' k
  | again last last' n r _ ih =>
    obtain ⟨k, rfl⟩ : ∃ k, m = k + 1 := ⟨m - 1, by omega⟩
    exact .again last last' k r (ih (by omega))
  | wrong last w last' n r _ ih =>
    obtain ⟨k, rfl⟩ : ∃ k, m = k + 2 := ⟨m - 2, by omega⟩
    exact .wrong last w last' k r (ih (by omega))
  | command last w last' n r _ ih =>
    obtain ⟨k, rfl⟩ : ∃ k, m = k + 33 := ⟨m - 33, by omega⟩
    exact .command last w last' k r (ih (by omega))

theorem said_toList (c : Option C) : said [.ok c] = oks c.toList := by
  cases c <;> rfl

/-- Whatever was before it, after a pause the receiver of the NEC family begins anew. -/
theorem nec_noise_parse (unpack : BitVec 32 → Bool → Option C) (d : Option Nat) (hd : ∀ x, x < 4 → d ≠ some x) (n : Nat) :
    ∀ (a : List (Option Nat)) (last : BitVec 32), a.length ≤ n → ∃ r last', NecMade unpack last a.length r last' ∧
      ∀ ss, necParse unpack last (a ++ d :: ss) = r ++ necParse unpack last' ss := by
  have h0 := hd 0 (by decide)
  have h1 := hd 1 (by decide)
  induction n with
  | zero =>
    intro a last ha
    have : a = [] := List.length_eq_zero_iff.mp (by omega)
    subst this
    exact ⟨[], last, .nothing _ _, fun ss => by rw [List.nil_append, necParse_skip _ _ _ _ h0 h1]; rfl⟩
  | succ n ih =>
    intro a last ha
    rcases a with _ | ⟨s, a⟩
    · exact ⟨[], last, .nothing _ _, fun ss => by rw [List.nil_append, necParse_skip _ _ _ _ h0 h1]; rfl⟩
    rw [List.length_cons] at ha
    by_cases hs : s = some 0
    · subst hs
      have hb := fun ss => leadingBits_pause 2 3 32 a ss d (hd 2 (by decide)) (hd 3 (by decide))
      have hle := leadingBits_le 2 3 32 a
      by_cases h32 : (leadingBits 2 3 32 a).length = 32
      · obtain ⟨r, last', hr, h⟩ := ih (a.drop 32) (wordOf 32 (leadingBits 2 3 32 a)) (by simp; omega)
        refine ⟨_, last', (NecMade.command last _ last' _ r hr).mono (by simp; omega), fun ss => ?_⟩
        rw [List.cons_append, necParse, if_pos rfl]
        simp only [hb]
        rw [if_pos h32, drop_pause _ _ _ _ (by omega), h, said_toList, List.append_assoc]
      · by_cases hlt : (leadingBits 2 3 32 a).length < a.length
        · obtain ⟨r, last', hr, h⟩ := ih (a.drop ((leadingBits 2 3 32 a).length + 1)) (wordOf 32 (leadingBits 2 3 32 a))
            (by simp; omega)
          refine ⟨_, last', (NecMade.wrong last _ last' _ r hr).mono (by simp; omega), fun ss => ?_⟩
          rw [List.cons_append, necParse, if_pos rfl]
          simp only [hb]
          rw [if_neg h32, if_neg (by simp; omega), drop_pause _ _ _ _ (by omega), h, List.cons_append]
        · refine ⟨[.error .data], wordOf 32 (leadingBits 2 3 32 a), .ended last _ _, fun ss => ?_⟩
          rw [List.cons_append, necParse, if_pos rfl]
          simp only [hb]
          rw [if_neg h32, if_neg (by simp; omega), drop_over _ _ _ _ (by omega)]
          rfl
    · by_cases hs1 : s = some 1
      · subst hs1
        obtain ⟨r, last', hr, h⟩ := ih a last (by omega)
        exact ⟨_, last', .again last last' _ r hr, fun ss => by
          rw [List.cons_append, necParse_rep, h, said_toList, List.append_assoc]⟩
      · obtain ⟨r, last', hr, h⟩ := ih a last (by omega)
        exact ⟨r, last', hr.mono (by simp), fun ss => by
          rw [List.cons_append, necParse_skip _ _ _ _ hs hs1, h]⟩

theorem Spec.SbpMade.mono {n m : Nat} {r : List (Res SbpCommand)} (h : SbpMade n r) (hm : n ≤ m) : SbpMade m r := by
  induction h generalizing m with
  | nothing => exact .nothing m
  | endedAddress n =>
    obtain ⟨k, rfl⟩ : ∃ k, m = k + 1 := ⟨m - 1, by omega⟩
    exact .endedAddress k
  | endedData n =>
    obtain ⟨k, rfl⟩ : ∃ k, m = k + 17 := ⟨m - 17, by omega⟩
    exact .endedData k
  | address n r _ ih =>
    obtain ⟨k, rfl⟩ : ∃ k, m = k + 2 := ⟨m - 2, by omega⟩
    exact .address k r (ih (by omega))
  | data n r _ ih =>
    obtain ⟨k, rfl⟩ : ∃ k, m = k + 18 := ⟨m - 18, by omega⟩
    exact .data k r (ih (by omega))
  | command a w n r _ ih =>
    obtain ⟨k, rfl⟩ : ∃ k, m = k + 38 := ⟨m - 38, by omega⟩
    exact .command a w k r (ih (by omega))

/-- Whatever was before it, after a pause the receiver of SBP begins anew. -/
theorem sbp_noise_parse (d : Option Nat) (hd : ∀ x, x < 4 → d ≠ some x) (n : Nat) :
    ∀ a : List (Option Nat), a.length ≤ n → ∃ r, SbpMade a.length r ∧ ∀ ss, sbpParse (a ++ d :: ss) = r ++ sbpParse ss := by
  have h0 := hd 0 (by decide)
  induction n with
  | zero =>
    intro a ha
    have : a = [] := List.length_eq_zero_iff.mp (by omega)
    subst this
    exact ⟨[], .nothing _, fun ss => by rw [List.nil_append, sbpParse_skip _ _ h0]; rfl⟩
  | succ n ih =>
    intro a ha
    rcases a with _ | ⟨s, a⟩
    · exact ⟨[], .nothing _, fun ss => by rw [List.nil_append, sbpParse_skip _ _ h0]; rfl⟩
    rw [List.length_cons] at ha
    by_cases hs : s = some 0
    · subst hs
      have hb := fun ss => leadingBits_pause 2 3 16 a ss d (hd 2 (by decide)) (hd 3 (by decide))
      have hle := leadingBits_le 2 3 16 a
      have hmost := leadingBits_most 2 3 16 a
      by_cases h16 : (leadingBits 2 3 16 a).length < 16
      · by_cases hlt : (leadingBits 2 3 16 a).length < a.length
        · obtain ⟨r, hr, h⟩ := ih (a.drop ((leadingBits 2 3 16 a).length + 1)) (by simp; omega)
          refine ⟨_, (SbpMade.address _ r hr).mono (by simp; omega), fun ss => ?_⟩
          rw [List.cons_append, sbpParse, if_pos rfl]
          simp only [hb]
          rw [if_pos h16, if_neg (by simp; omega), drop_pause _ _ _ _ (by omega), h, List.cons_append]
        · refine ⟨[.error .address], .endedAddress _, fun ss => ?_⟩
          rw [List.cons_append, sbpParse, if_pos rfl]
          simp only [hb]
          rw [if_pos h16, if_neg (by simp; omega), drop_over _ _ _ _ (by omega)]
          rfl
      · by_cases hl : a.length = 16
        · refine ⟨[.error .data], (SbpMade.endedData 0).mono (by simp; omega), fun ss => ?_⟩
          rw [List.cons_append, sbpParse, if_pos rfl]
          simp only [hb]
          rw [if_neg h16, if_neg (by simp; omega), if_neg (by
            rw [List.getElem?_append_right (by omega), hl]
            simpa using hd 1 (by decide)), drop_over _ _ _ 16 (by omega)]
          rfl
        · have hget : ∀ ss, (a ++ d :: ss)[16]? = a[16]? := fun ss => List.getElem?_append_left (by omega)
          by_cases hdiv : a[16]? = some (some 1)
          · have hb2 := fun ss => leadingBits_pause 2 3 20 (a.drop 17) ss d (hd 2 (by decide)) (hd 3 (by decide))
            have hle2 := leadingBits_le 2 3 20 (a.drop 17)
            rw [List.length_drop] at hle2
            by_cases h20 : (leadingBits 2 3 20 (a.drop 17)).length = 20
            · obtain ⟨r, hr, h⟩ := ih (a.drop 37) (by simp; omega)
              refine ⟨_, (SbpMade.command (wordOf 16 (leadingBits 2 3 16 a)) (wordOf 32 (leadingBits 2 3 20 (a.drop 17)))
                _ r hr).mono (by simp; omega), fun ss => ?_⟩
              rw [List.cons_append, sbpParse, if_pos rfl]
              simp only [hb, hget]
              rw [if_neg h16, if_neg (by simp; omega), if_pos hdiv, drop_pause _ _ _ _ (by omega : 17 ≤ a.length), hb2,
                if_pos h20, drop_pause _ _ _ _ (by omega), h, List.cons_append]
            · by_cases hlt : 17 + (leadingBits 2 3 20 (a.drop 17)).length < a.length
              · obtain ⟨r, hr, h⟩ := ih (a.drop (17 + (leadingBits 2 3 20 (a.drop 17)).length + 1)) (by simp; omega)
                refine ⟨_, (SbpMade.data _ r hr).mono (by simp; omega), fun ss => ?_⟩
                rw [List.cons_append, sbpParse, if_pos rfl]
                simp only [hb, hget]
                rw [if_neg h16, if_neg (by simp; omega), if_pos hdiv, drop_pause _ _ _ _ (by omega : 17 ≤ a.length), hb2,
                  if_neg h20, if_neg (by simp; omega), drop_pause _ _ _ _ (by omega), h, List.cons_append]
              · refine ⟨[.error .data], (SbpMade.endedData 0).mono (by simp; omega), fun ss => ?_⟩
                rw [List.cons_append, sbpParse, if_pos rfl]
                simp only [hb, hget]
                rw [if_neg h16, if_neg (by simp; omega), if_pos hdiv, drop_pause _ _ _ _ (by omega : 17 ≤ a.length), hb2,
                  if_neg h20, if_neg (by simp; omega), drop_over _ _ _ _ (by omega)]
                rfl
          · obtain ⟨r, hr, h⟩ := ih (a.drop 17) (by simp; omega)
            refine ⟨_, (SbpMade.data _ r hr).mono (by simp; omega), fun ss => ?_⟩
            rw [List.cons_append, sbpParse, if_pos rfl]
            simp only [hb, hget]
            rw [if_neg h16, if_neg (by simp; omega), if_neg hdiv, drop_pause _ _ _ _ (by omega), h, List.cons_append]
    · obtain ⟨r, hr, h⟩ := ih a (by omega)
      exact ⟨r, hr.mono (by simp), fun ss => by rw [List.cons_append, sbpParse_skip _ _ hs, h]⟩

theorem Spec.DenonMade.mono {stale stale' : BitVec 64} {n m : Nat} {r : List (Res DenonCommand)}
    (h : DenonMade stale n r stale') (hm : n ≤ m) : DenonMade stale m r stale' := by
  induction h generalizing m with
  | nothing stale => exact .nothing stale m
  | lost stale w stale' n r _ ih =>
    obtain ⟨k, rfl⟩ : ∃ k, m = k + 1 := ⟨m - 1, by omega⟩
    exact .lost stale w stale' k r (ih (by omega))
  | command stale w stale' n r _ ih =>
    obtain ⟨k, rfl⟩ : ∃ k, m = k + 49 := ⟨m - 49, by omega⟩
    exact .command stale w stale' k r (ih (by omega))

/-- Whatever was before it, after a pause the receiver of Denon waits for a frame. -/
theorem denon_noise_parse (d : Option Nat) (hd : ∀ x, x < 3 → d ≠ some x) (n : Nat) :
    ∀ (a : List (Option Nat)) (stale : BitVec 64), a.length ≤ n → ∃ r stale', DenonMade stale a.length r stale' ∧
      ∀ ss, denonParse stale (a ++ d :: ss) = r ++ denonParse stale' ss := by
  have h0 := hd 0 (by decide)
  induction n with
  | zero =>
    intro a stale ha
    have : a = [] := List.length_eq_zero_iff.mp (by omega)
    subst this
    exact ⟨[], stale, .nothing _ _, fun ss => by rw [List.nil_append, denonParse_skip _ _ _ h0]; rfl⟩
  | succ n ih =>
    intro a stale ha
    rcases a with _ | ⟨s, a⟩
    · exact ⟨[], stale, .nothing _ _, fun ss => by rw [List.nil_append, denonParse_skip _ _ _ h0]; rfl⟩
    rw [List.length_cons] at ha
    by_cases hs : s = some 0
    · subst hs
      have hb := fun ss => leadingBits_pause 1 2 48 a ss d (hd 1 (by decide)) (hd 2 (by decide))
      have hle := leadingBits_le 1 2 48 a
      by_cases h48 : (leadingBits 1 2 48 a).length = 48
      · obtain ⟨r, stale', hr, h⟩ := ih (a.drop 48) 0 (by simp; omega)
        refine ⟨_, stale', (DenonMade.command stale (wordOf 64 ((leadingBits 1 2 48 a).take 47)) stale' _ r hr).mono
          (by simp; omega), fun ss => ?_⟩
        rw [List.cons_append, denonParse, if_pos rfl]
        simp only [hb]
        rw [if_pos h48, drop_pause _ _ _ _ (by omega), h, List.cons_append]
      · by_cases hlt : (leadingBits 1 2 48 a).length < a.length
        · obtain ⟨r, stale', hr, h⟩ := ih (a.drop ((leadingBits 1 2 48 a).length + 1))
            (stale ||| wordOf 64 (leadingBits 1 2 48 a)) (by simp; omega)
          refine ⟨_, stale', (DenonMade.lost stale _ stale' _ r hr).mono (by simp), fun ss => ?_⟩
          rw [List.cons_append, denonParse, if_pos rfl]
          simp only [hb]
          rw [if_neg h48, drop_pause _ _ _ _ (by omega), h]
        · refine ⟨[], stale ||| wordOf 64 (leadingBits 1 2 48 a), .lost stale _ _ _ _ (.nothing _ _), fun ss => ?_⟩
          rw [List.cons_append, denonParse, if_pos rfl]
          simp only [hb]
          rw [if_neg h48, drop_over _ _ _ _ (by omega)]
          rfl
    · obtain ⟨r, stale', hr, h⟩ := ih a stale (by omega)
      exact ⟨r, stale', hr.mono (by simp), fun ss => by rw [List.cons_append, denonParse_skip _ _ _ hs, h]⟩

/-! ## The line -/

/-- What is measured of noise and the pause after it. -/
theorem noise_symbols {t : Target} {m : Mono} (hm : m = Mono.u32 ∨ m = Mono.u64) {f : Nat} (hf : f < 2 ^ 32)
    (hlo : 20000 ≤ f) {tbl : PulseSpans} {u phase : Nat} (hu : 0 < u) (k : Kind) (htbl : k.build t m f = some tbl) (n : Nat)
    (hn : n ≤ k.symbols.length) {ps : List (Nat × Nat)} (hps : Countable u f m.width ps) {pz : Nat × Nat}
    (h2 : 16000 * u ≤ 1000000 * (pz.1 + pz.2)) (h3 : (pz.1 + pz.2) * f + u < 2 ^ m.width * u) (t1 : Nat) :
    (∀ q ∈ clockedPulses u f phase t1 (ps ++ [pz]), q.1 + q.2 < 2 ^ m.width) ∧
      ∃ (a : List (Option Nat)) (d : Option Nat), a.length = ps.length ∧ (∀ x, x < n → d ≠ some x) ∧
        (clockedPulses u f phase t1 (ps ++ [pz])).map (fun p => tbl.get (p.1 + p.2)) = a ++ [d] := by
  have hpz := prim_pause hm hf hlo hu k htbl (phase := phase) (List.range n)
    (fun x hx => by have := List.mem_range.mp hx; omega) pz h2 h3 (t1 + span ps)
  refine ⟨fun q hq => ?_, (clockedPulses u f phase t1 ps).map (fun p => tbl.get (p.1 + p.2)), _,
    by rw [List.length_map, clockedPulses_length], fun x hx h => hpz.2 x (List.mem_range.mpr hx) (get_inTol h), ?_⟩
  · obtain ⟨p, hp, t', he⟩ := clockedPulses_mem hq
    have hp' : (p.1 + p.2) * f + u < 2 ^ m.width * u := by
      rw [List.mem_append, List.mem_singleton] at hp
      rcases hp with hp | rfl
      · exact hps p hp
      · exact h3
    have hb := (reading_bounds hu f phase t' (p.1 + p.2)).1
    rw [← he] at hb
    refine Nat.lt_of_mul_lt_mul_left (a := u) ?_
    rw [Nat.mul_comm u (2 ^ m.width)]
    omega
  · rw [clockedPulses_append, List.map_append]
    rfl

theorem nec_noisy_one (t : Target) (f j : Nat) (hlo : 20000 ≤ f) (hf : f < 2 ^ 32) (v : NecVariant C)
    (hv : v.Shipped) (m : Mono) (hm : m = Mono.u32 ∨ m = Mono.u64) (tbl : PulseSpans)
    (htbl : necSpans t m v f = some tbl) (hc : coversAll tbl f j (necLengths v) = true) (u : Nat)
    (hu : 0 < u) (phase : Nat) (s : NecNoisy) (ps : List (Nat × Nat)) (pz : Nat × Nat)
    (h1 : s.Wire u f m.width j (v.pulseDistance.headerHigh + v.pulseDistance.headerLow)
      (v.pulseDistance.headerHigh + v.pulseDistance.repeatLow) ps)
    (h2 : 16000 * u ≤ 1000000 * (pz.1 + pz.2)) (h3 : (pz.1 + pz.2) * f + u < 2 ^ m.width * u) (t1 : Nat) :
    (∀ q ∈ clockedPulses u f phase t1 (ps ++ [pz]), q.1 + q.2 < 2 ^ m.width) ∧
      ∀ st : BitVec 32, ∃ r st', necNoisyAnswer v.unpack st s r st' ∧ ∀ ss,
        necParse v.unpack st ((clockedPulses u f phase t1 (ps ++ [pz])).map (fun p => tbl.get (p.1 + p.2)) ++ ss) =
          r ++ necParse v.unpack st' ss := by
  cases s with
  | sent s =>
    obtain ⟨g1, g2⟩ := nec_hurt_one t f j hlo hf v hv m hm tbl htbl hc u hu phase s ps pz h1 h2 h3 t1
    refine ⟨g1, fun st => ?_⟩
    obtain ⟨r, st', hr, h⟩ := g2 st
    exact ⟨r, st', .sent s r st' hr, h⟩
  | noise n =>
    obtain ⟨kd, hkd, he⟩ := nec_kind v hv
    have hb := htbl
    rw [he] at hb
    obtain ⟨g1, a, d, ha, hd, g2⟩ := noise_symbols (phase := phase) hm hf hlo hu kd hb 4
      (by rcases hkd with ⟨rfl, -⟩ | ⟨rfl, -⟩ <;> decide) h1.2 h2 h3 t1
    refine ⟨g1, fun st => ?_⟩
    obtain ⟨r, st', hr, h⟩ := nec_noise_parse v.unpack d hd _ a st (Nat.le_refl _)
    rw [ha, h1.1] at hr
    refine ⟨r, st', .noise n r st' hr, fun ss => ?_⟩
    rw [g2, List.append_assoc]
    exact h ss

/-- **C95**, NEC family: transmissions (undisturbed, broken off, with a spike or a missing mark) and pieces of noise in any
order, each followed by a pause of 16 ms or more: every transmission is answered as without the noise, and of noise no more
is made than `NecMade` says. -/
theorem C95_nec (t : Target) (f j : Nat) (hlo : 20000 ≤ f) (hf : f < 2 ^ 32) (v : NecVariant C)
    (hv : v.Shipped) (m : Mono) (hm : m = Mono.u32 ∨ m = Mono.u64) (tbl : PulseSpans)
    (htbl : necSpans t m v f = some tbl) (hc : coversAll tbl f j (necLengths v) = true) (conv : C → K) (u : Nat)
    (hu : 0 < u) (phase t0 g : Nat) (hg : Pause tbl m.width [0, 1] (0, g))
    (items : List ((NecNoisy × List (Nat × Nat)) × (Nat × Nat)))
    (hok : ∀ i ∈ items,
      i.1.1.Wire u f m.width j (v.pulseDistance.headerHigh + v.pulseDistance.headerLow)
        (v.pulseDistance.headerHigh + v.pulseDistance.repeatLow) i.1.2 ∧
      16000 * u ≤ 1000000 * (i.2.1 + i.2.2) ∧ (i.2.1 + i.2.2) * f + u < 2 ^ m.width * u) :
    ∃ rs, (results (necDecoder t m tbl v) conv
        ((true, g) :: clocked u f phase t0 (series (fun i => i.2) items))).map said = some (rs.map (Res.map conv)) ∧
      Tells (necNoisyAnswer v.unpack) 0 (items.map fun i => i.1.1) rs :=
  nec_tells t f v m hm tbl conv u phase t0 g hg _ items fun i hi =>
    nec_noisy_one t f j hlo hf v hv m hm tbl htbl hc u hu phase i.1.1 i.1.2 i.2 (hok i hi).1 (hok i hi).2.1 (hok i hi).2.2

theorem sbp_noisy_one (t : Target) (f j : Nat) (hlo : 20000 ≤ f) (hf : f < 2 ^ 32) (m : Mono)
    (hm : m = Mono.u32 ∨ m = Mono.u64) (tbl : PulseSpans) (htbl : sbpSpans t m f = some tbl)
    (hc : coversAll tbl f j sbpLengths = true) (u : Nat) (hu : 0 < u) (phase : Nat)
    (s : SbpNoisy) (ps : List (Nat × Nat)) (pz : Nat × Nat) (h1 : s.Wire u f m.width j ps)
    (h2 : 16000 * u ≤ 1000000 * (pz.1 + pz.2)) (h3 : (pz.1 + pz.2) * f + u < 2 ^ m.width * u) (t1 : Nat) :
    (∀ q ∈ clockedPulses u f phase t1 (ps ++ [pz]), q.1 + q.2 < 2 ^ m.width) ∧
      ∀ st : Unit, ∃ r st', sbpNoisyAnswer st s r st' ∧ ∀ ss,
        sbpParse ((clockedPulses u f phase t1 (ps ++ [pz])).map (fun p => tbl.get (p.1 + p.2)) ++ ss) =
          r ++ sbpParse ss := by
  cases s with
  | sent s =>
    obtain ⟨g1, g2⟩ := sbp_hurt_one t f j hlo hf m hm tbl htbl hc u hu phase s ps pz h1 h2 h3 t1
    refine ⟨g1, fun st => ?_⟩
    obtain ⟨r, st', hr, h⟩ := g2 st
    exact ⟨r, (), .sent s r hr, h⟩
  | noise n =>
    obtain ⟨g1, a, d, ha, hd, g2⟩ := noise_symbols (phase := phase) hm hf hlo hu .sbp htbl 4 (by decide) h1.2 h2 h3 t1
    refine ⟨g1, fun st => ?_⟩
    obtain ⟨r, hr, h⟩ := sbp_noise_parse d hd _ a (Nat.le_refl _)
    rw [ha, h1.1] at hr
    refine ⟨r, (), .noise n r hr, fun ss => ?_⟩
    rw [g2, List.append_assoc]
    exact h ss

/-- **C95**, SBP. -/
theorem C95_sbp (t : Target) (f j : Nat) (hlo : 20000 ≤ f) (hf : f < 2 ^ 32) (m : Mono)
    (hm : m = Mono.u32 ∨ m = Mono.u64) (tbl : PulseSpans) (htbl : sbpSpans t m f = some tbl)
    (hc : coversAll tbl f j sbpLengths = true) (conv : SbpCommand → K) (u : Nat) (hu : 0 < u) (phase t0 g : Nat)
    (hg : Pause tbl m.width [0] (0, g)) (items : List ((SbpNoisy × List (Nat × Nat)) × (Nat × Nat)))
    (hok : ∀ i ∈ items, i.1.1.Wire u f m.width j i.1.2 ∧
      16000 * u ≤ 1000000 * (i.2.1 + i.2.2) ∧ (i.2.1 + i.2.2) * f + u < 2 ^ m.width * u) :
    ∃ rs, (results (sbpDecoder t m tbl) conv
        ((true, g) :: clocked u f phase t0 (series (fun i => i.2) items))).map said = some (rs.map (Res.map conv)) ∧
      Tells sbpNoisyAnswer () (items.map fun i => i.1.1) rs :=
  sbp_tells t f m hm tbl conv u phase t0 g hg _ items fun i hi =>
    sbp_noisy_one t f j hlo hf m hm tbl htbl hc u hu phase i.1.1 i.1.2 i.2 (hok i hi).1 (hok i hi).2.1 (hok i hi).2.2

theorem denon_noisy_one (t : Target) (f j : Nat) (hlo : 20000 ≤ f) (hf : f < 2 ^ 32) (m : Mono)
    (hm : m = Mono.u32 ∨ m = Mono.u64) (tbl : PulseSpans) (htbl : denonSpans t m f = some tbl)
    (hc : coversAll tbl f j denonLengths = true) (u : Nat) (hu : 0 < u) (phase : Nat)
    (s : DenonNoisy) (ps : List (Nat × Nat)) (pz : Nat × Nat) (h1 : s.Wire u f m.width j ps)
    (h2 : 16000 * u ≤ 1000000 * (pz.1 + pz.2)) (h3 : (pz.1 + pz.2) * f + u < 2 ^ m.width * u) (t1 : Nat) :
    (∀ q ∈ clockedPulses u f phase t1 (ps ++ [pz]), q.1 + q.2 < 2 ^ m.width) ∧
      ∀ st : BitVec 64, ∃ r st', denonNoisyAnswer st s r st' ∧ ∀ ss,
        denonParse st ((clockedPulses u f phase t1 (ps ++ [pz])).map (fun p => tbl.get (p.1 + p.2)) ++ ss) =
          r ++ denonParse st' ss := by
  cases s with
  | sent s =>
    obtain ⟨g1, g2⟩ := denon_hurt_one t f j hlo hf m hm tbl htbl hc u hu phase s ps pz h1 h2 h3 t1
    refine ⟨g1, fun st => ?_⟩
    obtain ⟨r, st', hr, h⟩ := g2 st
    exact ⟨r, st', .sent st s r st' hr, h⟩
  | noise n =>
    obtain ⟨g1, a, d, ha, hd, g2⟩ := noise_symbols (phase := phase) hm hf hlo hu .denon htbl 3 (by decide) h1.2 h2 h3 t1
    refine ⟨g1, fun st => ?_⟩
    obtain ⟨r, st', hr, h⟩ := denon_noise_parse d hd _ a st (Nat.le_refl _)
    rw [ha, h1.1] at hr
    refine ⟨r, st', .noise st n r st' hr, fun ss => ?_⟩
    rw [g2, List.append_assoc]
    exact h ss

/-- **C95**, Denon. -/
theorem C95_denon (t : Target) (f j : Nat) (hlo : 20000 ≤ f) (hf : f < 2 ^ 32) (m : Mono)
    (hm : m = Mono.u32 ∨ m = Mono.u64) (tbl : PulseSpans) (htbl : denonSpans t m f = some tbl)
    (hc : coversAll tbl f j denonLengths = true) (conv : DenonCommand → K) (u : Nat) (hu : 0 < u) (phase t0 g : Nat)
    (hg : Pause tbl m.width [0] (0, g)) (items : List ((DenonNoisy × List (Nat × Nat)) × (Nat × Nat)))
    (hok : ∀ i ∈ items, i.1.1.Wire u f m.width j i.1.2 ∧
      16000 * u ≤ 1000000 * (i.2.1 + i.2.2) ∧ (i.2.1 + i.2.2) * f + u < 2 ^ m.width * u) :
    ∃ rs, (results (denonDecoder t m tbl) conv
        ((true, g) :: clocked u f phase t0 (series (fun i => i.2) items))).map said = some (rs.map (Res.map conv)) ∧
      Tells denonNoisyAnswer 0 (items.map fun i => i.1.1) rs :=
  denon_tells t f m hm tbl conv u phase t0 g hg _ items fun i hi =>
    denon_noisy_one t f j hlo hf m hm tbl htbl hc u hu phase i.1.1 i.1.2 i.2 (hok i hi).1 (hok i hi).2.1 (hok i hi).2.2

end Infrared
