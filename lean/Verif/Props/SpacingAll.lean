import Verif.Props.SpacingBi
import Verif.Props.Mailbox

/-!
# Results are never closer together than this (C92): the theorems

Whatever happens on the line, be it noise, several remotes at once or a fault, a receiver does not report more than so
many results per second.
-/

namespace Infrared

open Spec

variable {C K : Type}

/-! ## The rules the histories satisfy -/

theorem follows_any {P : EdgeRule} (hP : ∀ l b d, P l b d d) (evs : List Ev) : ∀ l, ObeysRule P l evs := by
  induction evs with
  | nil => exact fun _ => trivial
  | cons e evs ih => exact fun l => ⟨hP _ _ _, ih _⟩

theorem follows_changes (evs : List Ev) : ∀ l, Changes l evs → ObeysRule (fun l b d x => b ≠ l ∧ d ≤ x) l evs := by
  induction evs with
  | nil => exact fun _ _ => trivial
  | cons e evs ih =>
    obtain ⟨b, d⟩ := e
    intro l h
    refine ⟨⟨?_, Nat.le_refl _⟩, ih b h.2⟩
    rw [h.1]; cases l <;> decide

theorem follows_pos (evs : List Ev) (h : ∀ e ∈ evs, 1 ≤ e.2) : ∀ l, ObeysRule edgeRule l evs := by
  induction evs with
  | nil => exact fun _ => trivial
  | cons e evs ih =>
    refine fun l => ⟨⟨Nat.le_refl _, fun h0 => ?_⟩, ih (fun e he => h e (List.mem_cons_of_mem _ he)) _⟩
    have := h e (by simp)
    omega

/-! ## NEC -/

theorem nec_need {v : NecVariant C} {conv : C → K} {fresh : K → Bool} {yes no : Nat} (hle : no ≤ yes)
    (hfresh : ∀ w c, v.unpack w true = some c → fresh (conv c) = false) :
    (∀ e, forThose (isCommandWith fresh) yes no (Res.map conv (.error e)) ≤ no) ∧
      (∀ w c, v.unpack w true = some c → forThose (isCommandWith fresh) yes no (Res.map conv (.ok (some c))) ≤ no) ∧
      (∀ w c, v.unpack w false = some c → forThose (isCommandWith fresh) yes no (Res.map conv (.ok (some c))) ≤ yes) := by
  refine ⟨fun e => Nat.le_refl _, fun w c h => ?_, fun w c _ => ?_⟩
  · have := hfresh w c h
    simp [forThose, isCommandWith, Res.map, this]
  · simp only [forThose]
    split <;> omega

theorem nec_standard_paced {t : Target} {f : Nat} (hlo : 20000 ≤ f) (hf : f < 2 ^ 32) {v : NecVariant C}
    (hv : v.pulseDistance = necStandardTiming) {m : Mono} (hm : m = Mono.u32 ∨ m = Mono.u64) {tbl : PulseSpans}
    (htbl : necSpans t m v f = some tbl) (conv : C → K) {fresh : K → Bool}
    (hfresh : ∀ w c, v.unpack w true = some c → fresh (conv c) = false) :
    Paced (necDecoder t m tbl v) f (fun r => forThose (isCommandWith fresh) 38000 10000 (Res.map conv r))
      (fun _ _ d x => d ≤ x) (fun d e _ => NecPaced f 12468 d e) := by
  have hb : Kind.nec.build t m f = some tbl := by
    rw [← htbl]; simp only [Kind.build, necSpans, hv]; rfl
  obtain ⟨h1, h2, h3⟩ := nec_need (v := v) (yes := 38000) (no := 10000) (by decide) hfresh
  exact nec_paced hm v (nec_low hm hlo hf hb) (any := 10000) (fresh := 38000) (by decide) (by decide) (by decide) h1 h2 h3

theorem nec_samsung_paced {t : Target} {f : Nat} (hlo : 20000 ≤ f) (hf : f < 2 ^ 32) {v : NecVariant C}
    (hv : v.pulseDistance = necSamsungTiming) {m : Mono} (hm : m = Mono.u32 ∨ m = Mono.u64) {tbl : PulseSpans}
    (htbl : necSpans t m v f = some tbl) (conv : C → K) {fresh : K → Bool}
    (hfresh : ∀ w c, v.unpack w true = some c → fresh (conv c) = false) :
    Paced (necDecoder t m tbl v) f (fun r => forThose (isCommandWith fresh) 33000 6000 (Res.map conv r))
      (fun _ _ d x => d ≤ x) (fun d e _ => NecPaced f 8296 d e) := by
  have hb : Kind.samsung.build t m f = some tbl := by
    rw [← htbl]; simp only [Kind.build, necSpans, hv]; rfl
  obtain ⟨h1, h2, h3⟩ := nec_need (v := v) (yes := 33000) (no := 6000) (by decide) hfresh
  exact nec_paced hm v (samsung_low hm hlo hf hb) (any := 6000) (fresh := 33000) (by decide) (by decide) (by decide) h1 h2 h3

/-- **C92**, NEC, NEC16, Apple and raw NEC, event-driven: whatever the history, two results are at least 10 ms apart, and
a command that is not a repeat comes at least 38 ms after the result before it. -/
theorem C92_nec (t : Target) (f : Nat) (hlo : 20000 ≤ f) (hf : f < 2 ^ 32) (v : NecVariant C)
    (hv : v.pulseDistance = necStandardTiming) (m : Mono) (hm : m = Mono.u32 ∨ m = Mono.u64) (tbl : PulseSpans)
    (htbl : necSpans t m v f = some tbl) (conv : C → K) (fresh : K → Bool)
    (hfresh : ∀ w c, v.unpack w true = some c → fresh (conv c) = false) (evs : List Ev) (outs : List (Res K))
    (hr : results (necDecoder t m tbl v) conv evs = some outs) (t0 : Nat) :
    SpacedBy f (forThose (isCommandWith fresh) 38000 10000) t0 (timedSaid t0 evs outs) :=
  paced_results (nec_standard_paced hlo hf hv hm htbl conv hfresh) (l := false)
    (follows_any (fun _ _ _ => Nat.le_refl _) evs false) hr t0

/-- **C92**, the same for polled receivers; the time is the number of polls. -/
theorem C92_nec_polled (t : Target) (f : Nat) (hlo : 20000 ≤ f) (hf : f < 2 ^ 32) (v : NecVariant C)
    (hv : v.pulseDistance = necStandardTiming) (tbl : PulseSpans) (htbl : necSpans t Mono.u32 v f = some tbl)
    (conv : C → K) (fresh : K → Bool) (hfresh : ∀ w c, v.unpack w true = some c → fresh (conv c) = false)
    (samples : List Bool) (outs : List (Res K)) (hr : pollRun (necDecoder t Mono.u32 tbl v) conv samples = some outs) :
    SpacedBy f (forThose (isCommandWith fresh) 38000 10000) 0 (numberedSaid 1 outs) :=
  paced_pollRun (nec_standard_paced hlo hf hv (.inl rfl) htbl conv hfresh) (fun _ _ _ _ h => h.2.1) hr

/-- **C92**, Samsung, event-driven: 6 ms, and 33 ms for commands that are not repeats. -/
theorem C92_samsung (t : Target) (f : Nat) (hlo : 20000 ≤ f) (hf : f < 2 ^ 32) (v : NecVariant C)
    (hv : v.pulseDistance = necSamsungTiming) (m : Mono) (hm : m = Mono.u32 ∨ m = Mono.u64) (tbl : PulseSpans)
    (htbl : necSpans t m v f = some tbl) (conv : C → K) (fresh : K → Bool)
    (hfresh : ∀ w c, v.unpack w true = some c → fresh (conv c) = false) (evs : List Ev) (outs : List (Res K))
    (hr : results (necDecoder t m tbl v) conv evs = some outs) (t0 : Nat) :
    SpacedBy f (forThose (isCommandWith fresh) 33000 6000) t0 (timedSaid t0 evs outs) :=
  paced_results (nec_samsung_paced hlo hf hv hm htbl conv hfresh) (l := false)
    (follows_any (fun _ _ _ => Nat.le_refl _) evs false) hr t0

/-- **C92**, Samsung, polled. -/
theorem C92_samsung_polled (t : Target) (f : Nat) (hlo : 20000 ≤ f) (hf : f < 2 ^ 32) (v : NecVariant C)
    (hv : v.pulseDistance = necSamsungTiming) (tbl : PulseSpans) (htbl : necSpans t Mono.u32 v f = some tbl)
    (conv : C → K) (fresh : K → Bool) (hfresh : ∀ w c, v.unpack w true = some c → fresh (conv c) = false)
    (samples : List Bool) (outs : List (Res K)) (hr : pollRun (necDecoder t Mono.u32 tbl v) conv samples = some outs) :
    SpacedBy f (forThose (isCommandWith fresh) 33000 6000) 0 (numberedSaid 1 outs) :=
  paced_pollRun (nec_samsung_paced hlo hf hv (.inl rfl) htbl conv hfresh) (fun _ _ _ _ h => h.2.1) hr

/-! ## The others -/

/-- **C92**, SBP, event-driven, if the edges alternate: 8 ms, and 43 ms for commands. -/
theorem C92_sbp (t : Target) (f : Nat) (hlo : 20000 ≤ f) (hf : f < 2 ^ 32) (m : Mono)
    (hm : m = Mono.u32 ∨ m = Mono.u64) (tbl : PulseSpans) (htbl : sbpSpans t m f = some tbl) (conv : SbpCommand → K)
    (l : Bool) (evs : List Ev) (hch : Changes l evs) (outs : List (Res K))
    (hr : results (sbpDecoder t m tbl) conv evs = some outs) (t0 : Nat) :
    SpacedBy f (forThose isCommand 43000 8000) t0 (timedSaid t0 evs outs) :=
  paced_results (sbp_paced hm (sbp_low hm hlo hf htbl) (fun _ => Nat.le_refl _) (fun _ => Nat.le_refl _))
    (follows_changes evs l hch) hr t0

/-- **C92**, SBP, polled. -/
theorem C92_sbp_polled (t : Target) (f : Nat) (hlo : 20000 ≤ f) (hf : f < 2 ^ 32) (tbl : PulseSpans)
    (htbl : sbpSpans t Mono.u32 f = some tbl) (conv : SbpCommand → K) (samples : List Bool) (outs : List (Res K))
    (hr : pollRun (sbpDecoder t Mono.u32 tbl) conv samples = some outs) :
    SpacedBy f (forThose isCommand 43000 8000) 0 (numberedSaid 1 outs) :=
  paced_pollRun (sbp_paced (.inl rfl) (sbp_low (.inl rfl) hlo hf htbl) (fun _ => Nat.le_refl _) (fun _ => Nat.le_refl _))
    (fun _ _ _ _ h => ⟨h.1, h.2.1⟩) hr

/-- **C92**, Denon, event-driven: 38 ms. -/
theorem C92_denon (t : Target) (f : Nat) (hlo : 20000 ≤ f) (hf : f < 2 ^ 32) (m : Mono)
    (hm : m = Mono.u32 ∨ m = Mono.u64) (tbl : PulseSpans) (htbl : denonSpans t m f = some tbl) (conv : DenonCommand → K)
    (evs : List Ev) (outs : List (Res K)) (hr : results (denonDecoder t m tbl) conv evs = some outs) (t0 : Nat) :
    SpacedBy f (always 38000) t0 (timedSaid t0 evs outs) :=
  paced_results (denon_paced hm (denon_low hm hlo hf htbl) (fun _ => Nat.le_refl _)) (l := false)
    (follows_any (fun _ _ _ => Nat.le_refl _) evs false) hr t0

/-- **C92**, Denon, polled. -/
theorem C92_denon_polled (t : Target) (f : Nat) (hlo : 20000 ≤ f) (hf : f < 2 ^ 32) (tbl : PulseSpans)
    (htbl : denonSpans t Mono.u32 f = some tbl) (conv : DenonCommand → K) (samples : List Bool) (outs : List (Res K))
    (hr : pollRun (denonDecoder t Mono.u32 tbl) conv samples = some outs) :
    SpacedBy f (always 38000) 0 (numberedSaid 1 outs) :=
  paced_pollRun (denon_paced (.inl rfl) (denon_low (.inl rfl) hlo hf htbl) (fun _ => Nat.le_refl _))
    (fun _ _ _ _ h => h.2.1) hr

/-- **C92**, RC5, event-driven, if no two edges come at the same tick: 19 ms. -/
theorem C92_rc5 (t : Target) (hus : 16 ≤ t.usizeBits) (f : Nat) (hlo : 20000 ≤ f) (hf : f < 2 ^ 32) (m : Mono)
    (hm : m = Mono.u32 ∨ m = Mono.u64) (tbl : PulseSpans) (htbl : rc5Spans t m f = some tbl) (conv : Rc5Command → K)
    (evs : List Ev) (hpos : ∀ e ∈ evs, 1 ≤ e.2) (outs : List (Res K))
    (hr : results (rc5Decoder t tbl) conv evs = some outs) (t0 : Nat) :
    SpacedBy f (always 19000) t0 (timedSaid t0 evs outs) :=
  paced_results (rc5_paced hus (rc5_low hm hlo hf htbl) (fun _ => Nat.le_refl _)) (follows_pos evs hpos false) hr t0

/-- **C92**, RC5, polled. -/
theorem C92_rc5_polled (t : Target) (hus : 16 ≤ t.usizeBits) (f : Nat) (hlo : 20000 ≤ f) (hf : f < 2 ^ 32)
    (tbl : PulseSpans) (htbl : rc5Spans t Mono.u32 f = some tbl) (conv : Rc5Command → K) (samples : List Bool)
    (outs : List (Res K)) (hr : pollRun (rc5Decoder t tbl) conv samples = some outs) :
    SpacedBy f (always 19000) 0 (numberedSaid 1 outs) :=
  paced_pollRun (rc5_paced hus (rc5_low (.inl rfl) hlo hf htbl) (fun _ => Nat.le_refl _)) (fun _ _ _ _ h => h.2) hr

theorem rc6_few {t : Target} {m : Mono} (hm : m = Mono.u32 ∨ m = Mono.u64) {f : Nat} (hf : f < 2 ^ 32)
    {tbl : PulseSpans} (htbl : rc6Spans t m f = some tbl) : tbl.spans.length ≤ 8 := by
  rw [rc6Spans_eq hm t hf, Option.some.injEq] at htbl
  subst htbl
  simp [rc6Table]

/-- **C92**, RC6, event-driven, if no two edges come at the same tick: 16 ms. -/
theorem C92_rc6 (t : Target) (hus : 16 ≤ t.usizeBits) (f : Nat) (hlo : 20000 ≤ f) (hf : f < 2 ^ 32) (m : Mono)
    (hm : m = Mono.u32 ∨ m = Mono.u64) (tbl : PulseSpans) (htbl : rc6Spans t m f = some tbl) (conv : Rc6Command → K)
    (evs : List Ev) (hpos : ∀ e ∈ evs, 1 ≤ e.2) (outs : List (Res K))
    (hr : results (rc6Decoder t tbl) conv evs = some outs) (t0 : Nat) :
    SpacedBy f (always 16000) t0 (timedSaid t0 evs outs) :=
  paced_results (rc6_paced hus (rc6_low hm hlo hf htbl) (rc6_few hm hf htbl) (fun _ => Nat.le_refl _))
    (follows_pos evs hpos false) hr t0

/-- **C92**, RC6, polled. -/
theorem C92_rc6_polled (t : Target) (hus : 16 ≤ t.usizeBits) (f : Nat) (hlo : 20000 ≤ f) (hf : f < 2 ^ 32)
    (tbl : PulseSpans) (htbl : rc6Spans t Mono.u32 f = some tbl) (conv : Rc6Command → K) (samples : List Bool)
    (outs : List (Res K)) (hr : pollRun (rc6Decoder t tbl) conv samples = some outs) :
    SpacedBy f (always 16000) 0 (numberedSaid 1 outs) :=
  paced_pollRun (rc6_paced hus (rc6_low (.inl rfl) hlo hf htbl) (rc6_few (.inl rfl) hf htbl) (fun _ => Nat.le_refl _))
    (fun _ _ _ _ h => h.2) hr

/-! ## How many results there can be -/

theorem said_cons_audible (r : Res K) (o : List (Res K)) :
    said (r :: o) = if audible r then r :: said o else said o := by
  rcases r with e | _ | c <;> rfl

/-- **C92**: if results are at least `us` apart, then `n` polls give no more results than fit into their time. -/
theorem C92_rate {f us : Nat} {need : Res K → Nat} (hus : ∀ r, us ≤ need r) (outs : List (Res K))
    (h : SpacedBy f need 0 (numberedSaid 1 outs)) : (said outs).length * (us * f) ≤ 1000000 * outs.length := by
  rcases Nat.eq_zero_or_pos outs.length with h0 | h0
  · rw [List.length_eq_zero_iff.mp h0]; simp [said]
  · suffices hs : ∀ (outs : List (Res K)) k t, t < k → SpacedBy f need t (numberedSaid k outs) →
        (said outs).length * (us * f) + 1000000 * t ≤ 1000000 * (k + outs.length - 1) by
      have := hs outs 1 0 (by omega) h
      omega
    intro outs
    induction outs with
    | nil => intro k t h _; simp [said]; omega
    | cons r o ih =>
      intro k t htk h
      rw [numberedSaid_cons] at h
      rw [said_cons_audible, List.length_cons]
      by_cases ha : audible r = true
      · rw [if_pos ha] at h ⊢
        have h1 := ih (k + 1) k (by omega) h.2.2
        have h2 : us * f ≤ need r * f := Nat.mul_le_mul_right f (hus r)
        have h3 := h.1
        rw [List.length_cons, Nat.add_mul, Nat.one_mul]
        omega
      · rw [if_neg ha] at h ⊢
        have := ih (k + 1) t (by omega) h
        omega

/-! ## A main loop that looks in often enough loses nothing -/

theorem spaced_quiet {f us : Nat} {need : Res K → Nat} (hus : ∀ r, us ≤ need r) (g b : List (Res K)) :
    ∀ k t, t < k → SpacedBy f need t (numberedSaid k (g ++ b)) → 1000000 * (k + g.length - 1 - t) < us * f →
      commands g = [] := by
  induction g with
  | nil => intro _ _ _ _ _; rfl
  | cons r g ih =>
    intro k t htk h hlt
    rw [List.cons_append, numberedSaid_cons] at h
    rw [List.length_cons] at hlt
    by_cases ha : audible r = true
    · rw [if_pos ha] at h
      have h2 : us * f ≤ need r * f := Nat.mul_le_mul_right f (hus r)
      have h3 := h.1
      omega
    · rw [if_neg ha] at h
      have := ih (k + 1) t (by omega) h (by omega)
      rcases r with e | _ | c
      · exact absurd rfl ha
      · exact this
      · exact absurd rfl ha

theorem spaced_one {f us n : Nat} {need : Res K → Nat} (hus : ∀ r, us ≤ need r) (hn : 1000000 * (n - 1) < us * f)
    (g b : List (Res K)) : ∀ k t, t < k → SpacedBy f need t (numberedSaid k (g ++ b)) → g.length ≤ n →
      (commands g).length ≤ 1 := by
  induction g with
  | nil => intro _ _ _ _ _; exact Nat.zero_le _
  | cons r g ih =>
    intro k t htk h hlen
    rw [List.cons_append, numberedSaid_cons] at h
    rw [List.length_cons] at hlen
    by_cases ha : audible r = true
    · rw [if_pos ha] at h
      have := spaced_quiet hus g b (k + 1) k (by omega) h.2.2 (by omega)
      rcases r with e | _ | c
      · change (commands g).length ≤ 1
        rw [this]; exact Nat.zero_le _
      · exact absurd ha (by simp [audible])
      · change (commands g).length + 1 ≤ 1
        rw [this]; exact Nat.le_refl _
    · rw [if_neg ha] at h
      have := ih (k + 1) t (by omega) h (by omega)
      rcases r with e | _ | c
      · exact absurd rfl ha
      · exact this
      · exact absurd rfl ha

theorem spaced_drop {f : Nat} {need : Res K → Nat} (a b : List (Res K)) :
    ∀ k t, t < k → SpacedBy f need t (numberedSaid k (a ++ b)) →
      ∃ t', t' < k + a.length ∧ SpacedBy f need t' (numberedSaid (k + a.length) b) := by
  induction a with
  | nil => intro k t h hs; exact ⟨t, h, hs⟩
  | cons r a ih =>
    intro k t htk h
    rw [List.cons_append, numberedSaid_cons] at h
    rw [List.length_cons, Nat.add_comm a.length 1, ← Nat.add_assoc]
    by_cases ha : audible r = true
    · rw [if_pos ha] at h
      exact ih (k + 1) k (by omega) h.2.2
    · rw [if_neg ha] at h
      exact ih (k + 1) t (by omega) h

theorem turns_groups {R : Type} {n : Nat} (acts : List PolledAct) : ∀ (cur outs : List R),
    TurnsEvery n cur.length acts → cur.length ≤ n → outs.length = (samplesOf acts).length →
      (grouped cur (acts.map PolledAct.kind) outs).flatten = cur ++ outs ∧
        ∀ g ∈ grouped cur (acts.map PolledAct.kind) outs, g.length ≤ n := by
  induction acts with
  | nil =>
    intro cur outs ht _ hl
    rw [List.length_eq_zero_iff.mp ht, List.length_eq_zero_iff.mp hl]
    exact ⟨rfl, fun g hg => by cases hg⟩
  | cons a acts ih =>
    intro cur outs ht hc hl
    cases a with
    | timer low =>
      cases outs with
      | nil => cases hl
      | cons o os =>
        rw [List.map_cons, PolledAct.kind, grouped]
        have := ih (cur ++ [o]) os (by rw [List.length_append]; exact ht.2) (by rw [List.length_append]; exact ht.1)
          (by simpa [samplesOf] using hl)
        rwa [List.append_assoc] at this
    | main =>
      rw [List.map_cons, PolledAct.kind, grouped]
      obtain ⟨h1, h2⟩ := ih [] outs ht (Nat.zero_le _) hl
      refine ⟨by rw [List.flatten_cons, h1]; rfl, fun g hg => ?_⟩
      rcases List.mem_cons.mp hg with rfl | hg
      · exact hc
      · exact h2 g hg

/-- **C92**, `polled.rs` with any receiver whose results are `us` apart: if the main loop gets a turn at least as often,
then the program prints every command that the receiver reports, whatever happens on the line. -/
theorem C92_mailbox (D : Decoder C) {f us n : Nat} {need : Res C → Nat} (hus : ∀ r, us ≤ need r)
    (hn : 1000000 * (n - 1) < us * f) (acts : List PolledAct) (hturn : TurnsEvery n 0 acts) (outs : List (Res C))
    (hr : pollRun D id (samplesOf acts) = some outs) (h : SpacedBy f need 0 (numberedSaid 1 outs)) :
    (PolledApp.run D (PolledApp.init D) acts).map Prod.snd = some (commands outs) := by
  have hlen : outs.length = (samplesOf acts).length := by
    unfold pollRun at hr
    obtain ⟨p, hp, rfl⟩ := Option.map_eq_some_iff.mp hr
    exact runStep_length' hp
  obtain ⟨h1, h2⟩ := turns_groups acts [] outs hturn (Nat.zero_le _) hlen
  rw [C69_polled, hr, Option.map_some, C69_nothing_lost]
  · intro g hg
    obtain ⟨a, b, hab⟩ := List.append_of_mem hg
    have h3 : outs = a.flatten ++ (g ++ b.flatten) := by
      rw [← List.flatten_cons, ← List.flatten_append, ← hab, h1]; rfl
    rw [h3] at h
    obtain ⟨t', ht, hs⟩ := spaced_drop a.flatten (g ++ b.flatten) 1 0 (by decide) h
    exact spaced_one hus hn g b.flatten _ t' ht hs (h2 g hg)
  · rw [h1]; rfl

/-- **C92**, `polled.rs` as it is, NEC sampled 20000 times a second: a main loop that gets a turn every 200 interrupts, so
every 10 ms, loses no command. -/
theorem C92_polled_nec (t : Target) (tbl : PulseSpans) (htbl : necSpans t Mono.u32 Infrared.nec 20000 = some tbl)
    (acts : List PolledAct) (hturn : TurnsEvery 200 0 acts) (outs : List (Res NecCommand))
    (hr : pollRun (necDecoder t Mono.u32 tbl Infrared.nec) id (samplesOf acts) = some outs) :
    (PolledApp.run (necDecoder t Mono.u32 tbl Infrared.nec) (PolledApp.init _) acts).map Prod.snd =
      some (commands outs) := by
  refine C92_mailbox _ (f := 20000) (us := 10000) (need := forThose (isCommandWith fun _ => false) 38000 10000) ?_
    (by decide) acts hturn outs hr
    (C92_nec_polled t 20000 (by decide) (by decide) Infrared.nec rfl tbl htbl id _ (fun _ _ _ => rfl) _ outs hr)
  intro r
  unfold forThose
  split <;> decide

/-! ## Non-vacuity -/

/-- A valid frame followed by two repeat codes at 20 kHz: the repeats are at least 10 ms, the command at least 38 ms from
what comes before. -/
def spacedEvs : List Ev :=
  (true, 20) :: pulses ([(180, 90), (11, 11), (11, 11), (11, 34), (11, 11), (11, 11), (11, 11), (11, 11),
      (11, 11), (11, 34), (11, 34), (11, 11), (11, 34), (11, 34), (11, 34), (11, 34), (11, 34), (11, 11), (11, 11),
      (11, 11), (11, 34), (11, 11), (11, 11), (11, 11), (11, 11), (11, 34), (11, 34), (11, 34), (11, 11), (11, 34),
      (11, 34), (11, 34), (11, 34)] ++ [(180, 45), (180, 45)])

example : (results (necDecoder ⟨true, 32⟩ Mono.u32 (necTable 20000) Infrared.nec) id spacedEvs).map
    (timedSaid 0 spacedEvs) = some [(1362, .ok (some { addr := 4, cmd := 8, rep := false })),
      (1587, .ok (some { addr := 4, cmd := 8, rep := true })), (1812, .ok (some { addr := 4, cmd := 8, rep := true }))] := by
  decide +kernel

/-- The 10 ms are nearly exhausted: repeats in a row are 11.25 ms apart, and with the tolerance 10.5 ms. -/
example : SpacedBy 20000 (forThose (isCommandWith fun c : NecCommand => !c.rep) 38000 10000) 0
    [(1362, .ok (some { addr := 4, cmd := 8, rep := false })), (1587, .ok (some { addr := 4, cmd := 8, rep := true })),
      (1812, .ok (some { addr := 4, cmd := 8, rep := true }))] := by
  simp [SpacedBy, forThose, isCommandWith]

example (w : BitVec 32) (c : NecCommand) (h : Infrared.nec.unpack w true = some c) :
    (fun c : NecCommand => !c.rep) c = false := by
  change some _ = some c at h
  cases h
  rfl

/-- A main loop that gets a turn after every second interrupt. -/
example : TurnsEvery 200 0 [.timer false, .timer true, .main, .timer true, .timer false, .main] := by
  simp [TurnsEvery]

/-- RC5 needs the hypothesis: edges at the same tick count as three half-bits each, and 20 such pairs make a command in no
time. -/
theorem C92_rc5_no_time_false : ∃ (evs : List Ev) (outs : List (Res Rc5Command)),
    results (rc5Decoder ⟨true, 32⟩ (rc5Table 20000)) id evs = some outs ∧ (∀ e ∈ evs, e.2 = 0) ∧
      timedSaid 0 evs outs = [(0, .ok (some { addr := 0x1F, cmd := 0x3F, start := 3, toggle := true }))] ∧
      ¬ SpacedBy 20000 (always 19000) 0 (timedSaid 0 evs outs) := by
  let evs : List Ev := (List.replicate 20 [(true, 0), (false, 0)]).flatten
  obtain ⟨outs, h1, h2⟩ := Option.map_eq_some_iff.mp (show
    (results (rc5Decoder ⟨true, 32⟩ (rc5Table 20000)) id evs).map (timedSaid 0 evs) =
      some [(0, .ok (some { addr := 0x1F, cmd := 0x3F, start := 3, toggle := true }))] by decide +kernel)
  refine ⟨evs, outs, h1, by decide, h2, ?_⟩
  rw [h2]
  simp [SpacedBy, always]

/-- SBP needs alternating edges: with edges missing, the same mark is counted for every bit, and a command is reported
14 ms after the beginning. -/
theorem C92_sbp_missing_edges_false : ∃ (evs : List Ev) (outs : List (Res SbpCommand)),
    results (sbpDecoder ⟨true, 32⟩ Mono.u32 (sbpTable 20000)) id evs = some outs ∧
      timedSaid 0 evs outs = [(280, .ok (some { address := 0, command := 0, valid := false }))] ∧
      ¬ SpacedBy 20000 (forThose isCommand 43000 8000) 0 (timedSaid 0 evs outs) := by
  let evs : List Ev :=
    (false, 100) :: (true, 80) :: (false, 20) :: List.replicate 16 (true, 0) ++ (true, 80) :: List.replicate 20 (true, 0)
  obtain ⟨outs, h1, h2⟩ := Option.map_eq_some_iff.mp (show
    (results (sbpDecoder ⟨true, 32⟩ Mono.u32 (sbpTable 20000)) id evs).map (timedSaid 0 evs) =
      some [(280, .ok (some { address := 0, command := 0, valid := false }))] by decide +kernel)
  refine ⟨evs, outs, h1, h2, ?_⟩
  rw [h2]
  simp [SpacedBy, forThose, isCommand]

end Infrared
