import Verif.Props.SessionTimeRc

/-!
# C108: passing on from one protocol to another, the remaining pairs
-/

namespace Infrared
open Spec

variable {C K : Type}

/-- What a program that passes commands on as RC5 makes of a session it hears. -/
theorem live_rc5 {A : Type} (D : Decoder C) (convert : C → Rc5Command) (fs₀ f₁ phase₀ pause₀ n₀ k f₂ : Nat)
    (levels₀ : List Bool) (cmds : List (A × Nat)) (hear₀ : A → Rc5Command) (t : Target) (hus : 16 ≤ t.usizeBits)
    (hf₁ : 42000 ≤ f₁ ∨ (20000 ≤ f₁ ∧ f₁ % 1000 = 0)) (hlo : 40000 ≤ f₂) (hle₂ : f₁ ≤ f₂) (hf₂ : f₂ < 2 ^ 32)
    (hin : ∃ outs, pollRun D convert (overhear fs₀ f₁ phase₀ pause₀ levels₀ n₀) = some outs ∧ outs.length = n₀ ∧
      (spaced outs).map Prod.fst = cmds.map (fun x => hear₀ x.1) ∧
      ∀ x ∈ spaced outs, 114 * f₁ + 1000 * k ≤ 1000 * x.2 ∧ x.2 * f₂ / f₁ + 1 < 2 ^ 32)
    (tbl : PulseSpans) (htbl : rc5Spans t Mono.u32 f₂ = some tbl) (l : Nat) (hl : rc5CalcFreq f₁ = some l)
    (conv : Rc5Command → K) (s : Sender) (hs : Silent s) (hlen : s.buffer.ptb.buf.length = 27 + k)
    (hz : s.buffer.ptb.buf.drop 27 = List.replicate k 0) (hold : ∀ d ∈ s.buffer.ptb.buf, d ≤ 2 * l)
    (hcmds : ∀ x ∈ cmds, (hear₀ x.1).addr.toNat < 32 ∧ (hear₀ x.1).cmd.toNat < 64 ∧ (hear₀ x.1).start.toNat < 4) :
    ∃ levels, relayRun D convert (rc5Encode t l) s (overhear fs₀ f₁ phase₀ pause₀ levels₀ n₀) = some levels ∧
      ∀ pause phase n, phase < f₁ → reading f₁ f₂ phase (pause + n₀) + 1 < 2 ^ 32 →
      reading f₁ f₂ phase (pause + n₀) < n →
      (pollRun (rc5Decoder t tbl) conv (overhear f₁ f₂ phase pause levels n)).map said =
        some (oks (cmds.map fun x => conv { hear₀ x.1 with start := (hear₀ x.1).start ||| 2 })) := by
  obtain ⟨outs, hp, hol, hrep, hgap⟩ := hin
  have hlen₀ : (overhear fs₀ f₁ phase₀ pause₀ levels₀ n₀).length = n₀ := by simp [overhear, looked]
  obtain ⟨levels, h4, h5⟩ := C104_rc5 D convert t hus f₁ hf₁ f₂ hlo hle₂ hf₂ tbl htbl conv l hl s hs k hlen hz hold
    (overhear fs₀ f₁ phase₀ pause₀ levels₀ n₀) outs hp
    (by
      intro x hxm
      have : x.1 ∈ (spaced outs).map Prod.fst := List.mem_map_of_mem hxm
      rw [hrep] at this
      obtain ⟨y, hy, he⟩ := List.mem_map.mp this
      rw [← he]
      exact hcmds y hy) hgap
  refine ⟨levels, h4, fun pause phase n hph hb hn => ?_⟩
  have hq := quietPolls_le outs
  have hr := reading_le f₁ f₂ phase (by omega : pause + quietPolls outs ≤ pause + n₀)
  rw [h5 pause phase n hph (by omega) (by rw [hlen₀]; exact hn),
    map_fst (fun c : Rc5Command => conv { c with start := c.start ||| 2 }), hrep, List.map_map]
  rfl

/-- What a program that passes commands on as RC6 makes of a session it hears. -/
theorem live_rc6 {A : Type} (D : Decoder C) (convert : C → Rc6Command) (fs₀ f₁ phase₀ pause₀ n₀ k f₂ : Nat)
    (levels₀ : List Bool) (cmds : List (A × Nat)) (hear₀ : A → Rc6Command) (t : Target) (hus : 16 ≤ t.usizeBits)
    (hf₁ : 46000 ≤ f₁) (hlo : 80000 ≤ f₂) (hle₂ : f₁ ≤ f₂) (hf₂ : f₂ < 2 ^ 32)
    (hin : ∃ outs, pollRun D convert (overhear fs₀ f₁ phase₀ pause₀ levels₀ n₀) = some outs ∧ outs.length = n₀ ∧
      (spaced outs).map Prod.fst = cmds.map (fun x => hear₀ x.1) ∧
      ∀ x ∈ spaced outs, 106 * f₁ + 1000 * k ≤ 1000 * x.2 ∧ x.2 * f₂ / f₁ + 1 < 2 ^ 32)
    (tbl : PulseSpans) (htbl : rc6Spans t Mono.u32 f₂ = some tbl) (l : Nat) (hl : rc6Data f₁ = some l)
    (conv : Rc6Command → K) (s : Sender) (hs : Silent s) (hlen : s.buffer.ptb.buf.length = 44 + k)
    (hz : s.buffer.ptb.buf.drop 44 = List.replicate k 0) (hold : ∀ d ∈ s.buffer.ptb.buf.drop 2, d ≤ 3 * l) :
    ∃ levels, relayRun D convert (rc6Encode l) s (overhear fs₀ f₁ phase₀ pause₀ levels₀ n₀) = some levels ∧
      ∀ pause phase n, phase < f₁ → reading f₁ f₂ phase (pause + n₀) + 1 < 2 ^ 32 →
      reading f₁ f₂ phase (pause + n₀) < n →
      (pollRun (rc6Decoder t tbl) conv (overhear f₁ f₂ phase pause levels n)).map said =
        some (oks (cmds.map fun x => conv (hear₀ x.1))) := by
  obtain ⟨outs, hp, hol, hrep, hgap⟩ := hin
  have hlen₀ : (overhear fs₀ f₁ phase₀ pause₀ levels₀ n₀).length = n₀ := by simp [overhear, looked]
  obtain ⟨levels, h4, h5⟩ := C104_rc6 D convert t hus f₁ hf₁ f₂ hlo hle₂ hf₂ tbl htbl conv l hl s hs k hlen hz hold
    (overhear fs₀ f₁ phase₀ pause₀ levels₀ n₀) outs hp hgap
  refine ⟨levels, h4, fun pause phase n hph hb hn => ?_⟩
  have hq := quietPolls_le outs
  have hr := reading_le f₁ f₂ phase (by omega : pause + quietPolls outs ≤ pause + n₀)
  rw [h5 pause phase n hph (by omega) (by rw [hlen₀]; exact hn), map_fst conv, hrep, List.map_map]
  rfl

/-- An RC5 session is reported as far apart as it was given. -/
theorem rc5_apart (t : Target) (hus : 16 ≤ t.usizeBits) (fs : Nat)
    (hfs : 42000 ≤ fs ∨ (20000 ≤ fs ∧ fs % 1000 = 0)) (f : Nat) (hlo : 40000 ≤ f) (hle : fs ≤ f) (hf : f < 2 ^ 32)
    (tbl : PulseSpans) (htbl : rc5Spans t Mono.u32 f = some tbl) (l : Nat) (hl : rc5CalcFreq fs = some l)
    (convert : Rc5Command → C) (cmds : List (Rc5Command × Nat))
    (hcmds : ∀ x ∈ cmds, x.1.addr.toNat < 32 ∧ x.1.cmd.toNat < 64 ∧ x.1.start.toNat < 4)
    (s : Sender) (hidle : s.buffer.status = .idle) (k : Nat) (hlen : s.buffer.ptb.buf.length = 27 + k)
    (hz : s.buffer.ptb.buf.drop 27 = List.replicate k 0) (hold : ∀ d ∈ s.buffer.ptb.buf, d ≤ 2 * l) (q k' : Nat)
    (hticks : ∀ x ∈ cmds, 114 * fs + 1000 * k ≤ 1000 * x.2 ∧ (q + 1) * fs + 1000 * k' ≤ 1000 * x.2 ∧
      x.2 * f / fs + 1 < 2 ^ 32) :
    ∃ s' levels, s.calls (session (rc5Encode t l) cmds) = some (s', levels) ∧
      ∀ pause phase n more f₂, phase < fs → reading fs f phase pause + 1 < 2 ^ 32 → 24 * fs ≤ 1000 * more →
      reading fs f phase (pause + sessionTicks cmds + more) < n → n * f₂ / f + 1 < 2 ^ 32 →
      ∃ outs, pollRun (rc5Decoder t tbl) convert (overhear fs f phase pause levels n) = some outs ∧ outs.length = n ∧
        (spaced outs).map Prod.fst = cmds.map (fun x => convert { x.1 with start := x.1.start ||| 2 }) ∧
        ∀ x ∈ spaced outs, q * f + 1000 * k' ≤ 1000 * x.2 ∧ x.2 * f₂ / f + 1 < 2 ^ 32 := by
  obtain ⟨s', levels, h1, -, h2⟩ := C106_rc5_session t hus fs hfs f hlo hle hf tbl htbl convert l hl cmds
    hcmds s hidle k hlen hz hold (fun x hx => ⟨(hticks x hx).1, (hticks x hx).2.2⟩)
  refine ⟨s', levels, h1, fun pause phase n more f₂ hph hpa hm hn hbn => ?_⟩
  obtain ⟨outs, h3, h4⟩ := h2 pause phase n hph hpa
    (Nat.lt_of_le_of_lt (reading_le _ _ _ (Nat.le_add_right _ _)) hn)
  have e := (rc5CalcFreq_eq (by omega) hl).2 (by omega)
  exact ⟨outs, h3, reports_apart (q := q) (k := k') (f₂ := f₂) (more := more)
    (hear := fun c : Rc5Command => convert { c with start := c.start ||| 2 }) (by omega) hle h3 h4
    (fun x hx => (hticks x hx).2.1) (by rw [e]; omega) hn hbn⟩

/-- An RC6 session is reported as far apart as it was given. -/
theorem rc6_apart (t : Target) (hus : 16 ≤ t.usizeBits) (fs : Nat) (hfs : 46000 ≤ fs)
    (f : Nat) (hlo : 80000 ≤ f) (hle : fs ≤ f) (hf : f < 2 ^ 32)
    (tbl : PulseSpans) (htbl : rc6Spans t Mono.u32 f = some tbl) (l : Nat) (hl : rc6Data fs = some l)
    (convert : Rc6Command → C) (cmds : List (Rc6Command × Nat))
    (s : Sender) (hidle : s.buffer.status = .idle) (k : Nat) (hlen : s.buffer.ptb.buf.length = 44 + k)
    (hz : s.buffer.ptb.buf.drop 44 = List.replicate k 0) (hold : ∀ d ∈ s.buffer.ptb.buf.drop 2, d ≤ 3 * l) (q k' : Nat)
    (hticks : ∀ x ∈ cmds, 106 * fs + 1000 * k ≤ 1000 * x.2 ∧ (q + 1) * fs + 1000 * k' ≤ 1000 * x.2 ∧
      x.2 * f / fs + 1 < 2 ^ 32) :
    ∃ s' levels, s.calls (session (rc6Encode l) cmds) = some (s', levels) ∧
      ∀ pause phase n more f₂, phase < fs → reading fs f phase pause + 1 < 2 ^ 32 → 23 * fs ≤ 1000 * more →
      reading fs f phase (pause + sessionTicks cmds + more) < n → n * f₂ / f + 1 < 2 ^ 32 →
      ∃ outs, pollRun (rc6Decoder t tbl) convert (overhear fs f phase pause levels n) = some outs ∧ outs.length = n ∧
        (spaced outs).map Prod.fst = cmds.map (fun x => convert x.1) ∧
        ∀ x ∈ spaced outs, q * f + 1000 * k' ≤ 1000 * x.2 ∧ x.2 * f₂ / f + 1 < 2 ^ 32 := by
  obtain ⟨s', levels, h1, -, h2⟩ := C106_rc6_session t hus fs hfs f hlo hle hf tbl htbl convert l hl cmds
    s hidle k hlen hz hold (fun x hx => ⟨(hticks x hx).1, (hticks x hx).2.2⟩)
  refine ⟨s', levels, h1, fun pause phase n more f₂ hph hpa hm hn hbn => ?_⟩
  obtain ⟨outs, h3, h4⟩ := h2 pause phase n hph hpa
    (Nat.lt_of_le_of_lt (reading_le _ _ _ (Nat.le_add_right _ _)) hn)
  have e : 1000000 * l ≤ 444 * fs := by
    unfold rc6Data at hl
    split at hl
    · cases hl; omega
    · cases hl
  exact ⟨outs, h3, reports_apart (q := q) (k := k') (f₂ := f₂) (more := more) (hear := convert) (by omega) hle h3 h4
    (fun x hx => (hticks x hx).2.1) (by omega) hn hbn⟩

/-- **C108** (RC5 to RC5): a program hears an RC5 remote and sends RC5 commands; the remote is given a command every
115 ms. -/
theorem C108_rc5_relay (t : Target) (hus : 16 ≤ t.usizeBits) (fs₀ : Nat)
    (hfs₀ : 42000 ≤ fs₀ ∨ (20000 ≤ fs₀ ∧ fs₀ % 1000 = 0)) (f₁ : Nat) (hlo : 40000 ≤ f₁)
    (hf₁ : 42000 ≤ f₁ ∨ f₁ % 1000 = 0) (hle₁ : fs₀ ≤ f₁) (f₂ : Nat) (hle₂ : f₁ ≤ f₂) (hf₂ : f₂ < 2 ^ 32)
    (tbl₀ : PulseSpans) (htbl₀ : rc5Spans t Mono.u32 f₁ = some tbl₀) (l₀ : Nat) (hl₀ : rc5CalcFreq fs₀ = some l₀)
    (tbl : PulseSpans) (htbl : rc5Spans t Mono.u32 f₂ = some tbl) (l : Nat) (hl : rc5CalcFreq f₁ = some l)
    (convert : Rc5Command → Rc5Command) (conv : Rc5Command → K) (cmds : List (Rc5Command × Nat))
    (hcmds₀ : ∀ x ∈ cmds, x.1.addr.toNat < 32 ∧ x.1.cmd.toNat < 64 ∧ x.1.start.toNat < 4)
    (hcmds : ∀ c : Rc5Command, c.addr.toNat < 32 → c.cmd.toNat < 64 → c.start.toNat < 4 →
      (convert c).addr.toNat < 32 ∧ (convert c).cmd.toNat < 64 ∧ (convert c).start.toNat < 4)
    (s₀ : Sender) (hidle₀ : s₀.buffer.status = .idle) (k₀ : Nat) (hlen₀ : s₀.buffer.ptb.buf.length = 27 + k₀)
    (hz₀ : s₀.buffer.ptb.buf.drop 27 = List.replicate k₀ 0) (hold₀ : ∀ d ∈ s₀.buffer.ptb.buf, d ≤ 2 * l₀)
    (s : Sender) (hs : Silent s) (k : Nat) (hlen : s.buffer.ptb.buf.length = 27 + k)
    (hz : s.buffer.ptb.buf.drop 27 = List.replicate k 0) (hold : ∀ d ∈ s.buffer.ptb.buf, d ≤ 2 * l)
    (hticks : ∀ x ∈ cmds, 115 * fs₀ + 1000 * (k₀ + k) ≤ 1000 * x.2 ∧ x.2 * f₁ / fs₀ + 1 < 2 ^ 32) :
    ∃ s₀' levels₀, s₀.calls (session (rc5Encode t l₀) cmds) = some (s₀', levels₀) ∧
      ∀ pause₀ phase₀ n₀ more, phase₀ < fs₀ → reading fs₀ f₁ phase₀ pause₀ + 1 < 2 ^ 32 → 24 * fs₀ ≤ 1000 * more →
      reading fs₀ f₁ phase₀ (pause₀ + sessionTicks cmds + more) < n₀ → n₀ * f₂ / f₁ + 1 < 2 ^ 32 →
      ∃ levels, relayRun (rc5Decoder t tbl₀) convert (rc5Encode t l) s
          (overhear fs₀ f₁ phase₀ pause₀ levels₀ n₀) = some levels ∧
        ∀ pause phase n, phase < f₁ → reading f₁ f₂ phase (pause + n₀) + 1 < 2 ^ 32 →
        reading f₁ f₂ phase (pause + n₀) < n →
        (pollRun (rc5Decoder t tbl) conv (overhear f₁ f₂ phase pause levels n)).map said =
          some (oks (cmds.map fun x => conv { convert { x.1 with start := x.1.start ||| 2 } with
            start := (convert { x.1 with start := x.1.start ||| 2 }).start ||| 2 })) := by
  obtain ⟨s₀', levels₀, h1, h2⟩ := rc5_apart t hus fs₀ hfs₀ f₁ hlo hle₁ (by omega) tbl₀ htbl₀ l₀ hl₀ convert cmds hcmds₀
    s₀ hidle₀ k₀ hlen₀ hz₀ hold₀ 114 k (fun x hx => by have := hticks x hx; omega)
  refine ⟨s₀', levels₀, h1, fun pause₀ phase₀ n₀ more hph hpa hm hn hbn => ?_⟩
  exact live_rc5 (rc5Decoder t tbl₀) convert fs₀ f₁ phase₀ pause₀ n₀ k f₂ levels₀ cmds
    (fun c => convert { c with start := c.start ||| 2 }) t hus (by omega) (by omega) hle₂ hf₂
    (h2 pause₀ phase₀ n₀ more f₂ hph hpa hm hn hbn) tbl htbl l hl conv s hs hlen hz hold (fun x hx => by
      obtain ⟨g1, g2, g3⟩ := hcmds₀ x hx
      refine hcmds _ g1 g2 ?_
      show (x.1.start ||| 2).toNat < 4
      rw [BitVec.toNat_or]
      exact Nat.or_lt_two_pow (n := 2) g3 (by decide))

/-- C108 (RC5 to RC6): one command every 114 ms. -/
theorem C108_rc5_to_rc6 (t : Target) (hus : 16 ≤ t.usizeBits) (fs₀ : Nat)
    (hfs₀ : 42000 ≤ fs₀ ∨ (20000 ≤ fs₀ ∧ fs₀ % 1000 = 0)) (f₁ : Nat) (hf₁ : 46000 ≤ f₁) (hle₁ : fs₀ ≤ f₁)
    (f₂ : Nat) (hlo : 80000 ≤ f₂) (hle₂ : f₁ ≤ f₂) (hf₂ : f₂ < 2 ^ 32)
    (tbl₀ : PulseSpans) (htbl₀ : rc5Spans t Mono.u32 f₁ = some tbl₀) (l₀ : Nat) (hl₀ : rc5CalcFreq fs₀ = some l₀)
    (tbl : PulseSpans) (htbl : rc6Spans t Mono.u32 f₂ = some tbl) (l : Nat) (hl : rc6Data f₁ = some l)
    (convert : Rc5Command → Rc6Command) (conv : Rc6Command → K) (cmds : List (Rc5Command × Nat))
    (hcmds₀ : ∀ x ∈ cmds, x.1.addr.toNat < 32 ∧ x.1.cmd.toNat < 64 ∧ x.1.start.toNat < 4)
    (s₀ : Sender) (hidle₀ : s₀.buffer.status = .idle) (k₀ : Nat) (hlen₀ : s₀.buffer.ptb.buf.length = 27 + k₀)
    (hz₀ : s₀.buffer.ptb.buf.drop 27 = List.replicate k₀ 0) (hold₀ : ∀ d ∈ s₀.buffer.ptb.buf, d ≤ 2 * l₀)
    (s : Sender) (hs : Silent s) (k : Nat) (hlen : s.buffer.ptb.buf.length = 44 + k)
    (hz : s.buffer.ptb.buf.drop 44 = List.replicate k 0) (hold : ∀ d ∈ s.buffer.ptb.buf.drop 2, d ≤ 3 * l)
    (hticks : ∀ x ∈ cmds, 114 * fs₀ + 1000 * (k₀ + k) ≤ 1000 * x.2 ∧ x.2 * f₁ / fs₀ + 1 < 2 ^ 32) :
    ∃ s₀' levels₀, s₀.calls (session (rc5Encode t l₀) cmds) = some (s₀', levels₀) ∧
      ∀ pause₀ phase₀ n₀ more, phase₀ < fs₀ → reading fs₀ f₁ phase₀ pause₀ + 1 < 2 ^ 32 → 24 * fs₀ ≤ 1000 * more →
      reading fs₀ f₁ phase₀ (pause₀ + sessionTicks cmds + more) < n₀ → n₀ * f₂ / f₁ + 1 < 2 ^ 32 →
      ∃ levels, relayRun (rc5Decoder t tbl₀) convert (rc6Encode l) s
          (overhear fs₀ f₁ phase₀ pause₀ levels₀ n₀) = some levels ∧
        ∀ pause phase n, phase < f₁ → reading f₁ f₂ phase (pause + n₀) + 1 < 2 ^ 32 →
        reading f₁ f₂ phase (pause + n₀) < n →
        (pollRun (rc6Decoder t tbl) conv (overhear f₁ f₂ phase pause levels n)).map said =
          some (oks (cmds.map fun x => conv (convert { x.1 with start := x.1.start ||| 2 }))) := by
  obtain ⟨s₀', levels₀, h1, h2⟩ := rc5_apart t hus fs₀ hfs₀ f₁ (by omega) hle₁ (by omega) tbl₀ htbl₀ l₀ hl₀ convert cmds
    hcmds₀ s₀ hidle₀ k₀ hlen₀ hz₀ hold₀ 106 k (fun x hx => by have := hticks x hx; omega)
  exact ⟨s₀', levels₀, h1, fun pause₀ phase₀ n₀ more hph hpa hm hn hbn =>
    live_rc6 (rc5Decoder t tbl₀) convert fs₀ f₁ phase₀ pause₀ n₀ k f₂ levels₀ cmds
      (fun c => convert { c with start := c.start ||| 2 }) t hus hf₁ hlo hle₂ hf₂
      (h2 pause₀ phase₀ n₀ more f₂ hph hpa hm hn hbn) tbl htbl l hl conv s hs hlen hz hold⟩

/-- C108 (RC6 to RC5): one command every 115 ms. -/
theorem C108_rc6_to_rc5 (t : Target) (hus : 16 ≤ t.usizeBits) (fs₀ : Nat) (hfs₀ : 46000 ≤ fs₀)
    (f₁ : Nat) (hlo₁ : 80000 ≤ f₁) (hle₁ : fs₀ ≤ f₁) (f₂ : Nat) (hle₂ : f₁ ≤ f₂) (hf₂ : f₂ < 2 ^ 32)
    (tbl₀ : PulseSpans) (htbl₀ : rc6Spans t Mono.u32 f₁ = some tbl₀) (l₀ : Nat) (hl₀ : rc6Data fs₀ = some l₀)
    (tbl : PulseSpans) (htbl : rc5Spans t Mono.u32 f₂ = some tbl) (l : Nat) (hl : rc5CalcFreq f₁ = some l)
    (convert : Rc6Command → Rc5Command) (conv : Rc5Command → K) (cmds : List (Rc6Command × Nat))
    (hcmds : ∀ x ∈ cmds, (convert x.1).addr.toNat < 32 ∧ (convert x.1).cmd.toNat < 64 ∧ (convert x.1).start.toNat < 4)
    (s₀ : Sender) (hidle₀ : s₀.buffer.status = .idle) (k₀ : Nat) (hlen₀ : s₀.buffer.ptb.buf.length = 44 + k₀)
    (hz₀ : s₀.buffer.ptb.buf.drop 44 = List.replicate k₀ 0) (hold₀ : ∀ d ∈ s₀.buffer.ptb.buf.drop 2, d ≤ 3 * l₀)
    (s : Sender) (hs : Silent s) (k : Nat) (hlen : s.buffer.ptb.buf.length = 27 + k)
    (hz : s.buffer.ptb.buf.drop 27 = List.replicate k 0) (hold : ∀ d ∈ s.buffer.ptb.buf, d ≤ 2 * l)
    (hticks : ∀ x ∈ cmds, 115 * fs₀ + 1000 * (k₀ + k) ≤ 1000 * x.2 ∧ x.2 * f₁ / fs₀ + 1 < 2 ^ 32) :
    ∃ s₀' levels₀, s₀.calls (session (rc6Encode l₀) cmds) = some (s₀', levels₀) ∧
      ∀ pause₀ phase₀ n₀ more, phase₀ < fs₀ → reading fs₀ f₁ phase₀ pause₀ + 1 < 2 ^ 32 → 23 * fs₀ ≤ 1000 * more →
      reading fs₀ f₁ phase₀ (pause₀ + sessionTicks cmds + more) < n₀ → n₀ * f₂ / f₁ + 1 < 2 ^ 32 →
      ∃ levels, relayRun (rc6Decoder t tbl₀) convert (rc5Encode t l) s
          (overhear fs₀ f₁ phase₀ pause₀ levels₀ n₀) = some levels ∧
        ∀ pause phase n, phase < f₁ → reading f₁ f₂ phase (pause + n₀) + 1 < 2 ^ 32 →
        reading f₁ f₂ phase (pause + n₀) < n →
        (pollRun (rc5Decoder t tbl) conv (overhear f₁ f₂ phase pause levels n)).map said =
          some (oks (cmds.map fun x => conv { convert x.1 with start := (convert x.1).start ||| 2 })) := by
  obtain ⟨s₀', levels₀, h1, h2⟩ := rc6_apart t hus fs₀ hfs₀ f₁ hlo₁ hle₁ (by omega) tbl₀ htbl₀ l₀ hl₀ convert cmds
    s₀ hidle₀ k₀ hlen₀ hz₀ hold₀ 114 k (fun x hx => by have := hticks x hx; omega)
  exact ⟨s₀', levels₀, h1, fun pause₀ phase₀ n₀ more hph hpa hm hn hbn =>
    live_rc5 (rc6Decoder t tbl₀) convert fs₀ f₁ phase₀ pause₀ n₀ k f₂ levels₀ cmds convert t hus (by omega) (by omega)
      hle₂ hf₂ (h2 pause₀ phase₀ n₀ more f₂ hph hpa hm hn hbn) tbl htbl l hl conv s hs hlen hz hold hcmds⟩

/-- C108 (RC6 to NEC): one command every 109 ms. -/
theorem C108_rc6_to_nec (t : Target) (hus : 16 ≤ t.usizeBits) (fs₀ : Nat) (hfs₀ : 46000 ≤ fs₀)
    (f₁ : Nat) (hlo₁ : 80000 ≤ f₁) (hle₁ : fs₀ ≤ f₁) (f₂ : Nat) (hle₂ : f₁ ≤ f₂) (hf₂ : f₂ < 2 ^ 32)
    (tbl₀ : PulseSpans) (htbl₀ : rc6Spans t Mono.u32 f₁ = some tbl₀) (l₀ : Nat) (hl₀ : rc6Data fs₀ = some l₀)
    (v : NecVariant C) (hv : v.Shipped) (data : NecData) (hdata : necData v.pulseDistance f₁ = some data)
    (tbl : PulseSpans) (htbl : necSpans t Mono.u32 v f₂ = some tbl)
    (convert : Rc6Command → C) (conv : C → K) (cmds : List (Rc6Command × Nat)) (hear : C → C)
    (hcmds : ∀ x ∈ cmds, ∃ w, v.pack (convert x.1) = some w ∧ v.unpack w false = some (hear (convert x.1)))
    (s₀ : Sender) (hidle₀ : s₀.buffer.status = .idle) (k₀ : Nat) (hlen₀ : s₀.buffer.ptb.buf.length = 44 + k₀)
    (hz₀ : s₀.buffer.ptb.buf.drop 44 = List.replicate k₀ 0) (hold₀ : ∀ d ∈ s₀.buffer.ptb.buf.drop 2, d ≤ 3 * l₀)
    (s : Sender) (hs : Silent s) (k : Nat) (hlen : s.buffer.ptb.buf.length = 67 + k)
    (hz : s.buffer.ptb.buf.drop 67 = List.replicate k 0)
    (hticks : ∀ x ∈ cmds, 109 * fs₀ + 1000 * (k₀ + k) ≤ 1000 * x.2 ∧ x.2 * f₁ / fs₀ + 1 < 2 ^ 32) :
    ∃ s₀' levels₀, s₀.calls (session (rc6Encode l₀) cmds) = some (s₀', levels₀) ∧
      ∀ pause₀ phase₀ n₀ more, phase₀ < fs₀ → reading fs₀ f₁ phase₀ pause₀ + 1 < 2 ^ 32 → 23 * fs₀ ≤ 1000 * more →
      reading fs₀ f₁ phase₀ (pause₀ + sessionTicks cmds + more) < n₀ → n₀ * f₂ / f₁ + 1 < 2 ^ 32 →
      ∃ levels, relayRun (rc6Decoder t tbl₀) convert (necEncode v data) s
          (overhear fs₀ f₁ phase₀ pause₀ levels₀ n₀) = some levels ∧
        ∀ pause phase n, phase < f₁ → 16000 * f₁ ≤ 1000000 * pause → reading f₁ f₂ phase (pause + n₀) + 1 < 2 ^ 32 →
        reading f₁ f₂ phase (pause + n₀) < n →
        (pollRun (necDecoder t Mono.u32 tbl v) conv (overhear f₁ f₂ phase pause levels n)).map said =
          some (oks (cmds.map fun x => conv (hear (convert x.1)))) := by
  obtain ⟨s₀', levels₀, h1, h2⟩ := rc6_apart t hus fs₀ hfs₀ f₁ hlo₁ hle₁ (by omega) tbl₀ htbl₀ l₀ hl₀ convert cmds
    s₀ hidle₀ k₀ hlen₀ hz₀ hold₀ 108 k (fun x hx => by have := hticks x hx; omega)
  exact ⟨s₀', levels₀, h1, fun pause₀ phase₀ n₀ more hph hpa hm hn hbn =>
    live_nec (rc6Decoder t tbl₀) convert fs₀ f₁ phase₀ pause₀ n₀ k f₂ levels₀ cmds convert t (by omega)
      hle₂ hf₂ (h2 pause₀ phase₀ n₀ more f₂ hph hpa hm hn hbn) v hv data hdata tbl htbl conv s hs hlen hz hear hcmds⟩

/-- C108 (NEC to RC6): a standard NEC remote, one command every 108 ms. -/
theorem C108_nec_to_rc6 (t : Target) (hus : 16 ≤ t.usizeBits) (fs₀ : Nat)
    (hfs₀ : 21000 ≤ fs₀ ∨ (20000 ≤ fs₀ ∧ fs₀ % 1000 = 0)) (hhi : fs₀ ≤ 477218999)
    (f₁ : Nat) (hle₁ : fs₀ ≤ f₁) (hf₁ : 46000 ≤ f₁) (f₂ : Nat) (hlo : 80000 ≤ f₂)
    (hle₂ : f₁ ≤ f₂) (hf₂ : f₂ < 2 ^ 32) (tbl₀ : PulseSpans) (htbl₀ : necSpans t Mono.u32 Infrared.nec f₁ = some tbl₀)
    (tbl : PulseSpans) (htbl : rc6Spans t Mono.u32 f₂ = some tbl) (l : Nat) (hl : rc6Data f₁ = some l)
    (convert : NecCommand → Rc6Command) (conv : Rc6Command → K) (cmds : List (NecCommand × Nat))
    (S₀ : Nat) (hS₀ : 67 ≤ S₀) (pin₀ : Bool)
    (s : Sender) (hs : Silent s) (k : Nat) (hlen : s.buffer.ptb.buf.length = 44 + k)
    (hz : s.buffer.ptb.buf.drop 44 = List.replicate k 0) (hold : ∀ d ∈ s.buffer.ptb.buf.drop 2, d ≤ 3 * l)
    (hticks : ∀ x ∈ cmds, 108 * fs₀ + 1000 * (S₀ - 67 + k) ≤ 1000 * x.2 ∧ x.2 * f₁ / fs₀ + 1 < 2 ^ 32) :
    ∃ data₀ s₀' levels₀, necData Infrared.nec.pulseDistance fs₀ = some data₀ ∧
      (Sender.new S₀ pin₀).calls (session (necEncode Infrared.nec data₀) cmds) = some (s₀', levels₀) ∧
      ∀ pause₀ phase₀ n₀ more, phase₀ < fs₀ → 16000 * fs₀ ≤ 1000000 * pause₀ → reading fs₀ f₁ phase₀ pause₀ + 1 < 2 ^ 32 →
      68 * fs₀ ≤ 1000 * more →
      reading fs₀ f₁ phase₀ (pause₀ + sessionTicks cmds + more) < n₀ → n₀ * f₂ / f₁ + 1 < 2 ^ 32 →
      ∃ levels, relayRun (necDecoder t Mono.u32 tbl₀ Infrared.nec) convert (rc6Encode l) s
          (overhear fs₀ f₁ phase₀ pause₀ levels₀ n₀) = some levels ∧
        ∀ pause phase n, phase < f₁ → reading f₁ f₂ phase (pause + n₀) + 1 < 2 ^ 32 →
        reading f₁ f₂ phase (pause + n₀) < n →
        (pollRun (rc6Decoder t tbl) conv (overhear f₁ f₂ phase pause levels n)).map said =
          some (oks (cmds.map fun x => conv (convert { x.1 with rep := false }))) := by
  obtain ⟨data₀, s₀', levels₀, len, h1, hlenT, h2, h3⟩ := C105_standard t fs₀ hfs₀ hhi f₁ hle₁ (by omega) tbl₀ htbl₀
    convert cmds S₀ hS₀ pin₀ (fun x hx => by have := hticks x hx; omega)
  refine ⟨data₀, s₀', levels₀, h1, h2, fun pause₀ phase₀ n₀ more hph hpa hb hm hn hbn => ?_⟩
  obtain ⟨outs, h4, h5, -⟩ := h3 pause₀ phase₀ n₀ hph hpa hb
    (Nat.lt_of_le_of_lt (reading_le _ _ _ (Nat.le_add_right _ _)) hn)
  have h6 := reports_apart (q := 106) (k := k) (f₂ := f₂) (more := more)
    (hear := fun c : NecCommand => convert { c with rep := false }) (by omega) hle₁ h4 h5
    (fun x hx => by have := (hticks x hx).1; omega) (by have := hlenT.1; omega) hn hbn
  exact live_rc6 (necDecoder t Mono.u32 tbl₀ Infrared.nec) convert fs₀ f₁ phase₀ pause₀ n₀ k f₂ levels₀ cmds
    (fun c => convert { c with rep := false }) t hus hf₁ hlo hle₂ hf₂ ⟨outs, h4, h6⟩ tbl htbl l hl conv s hs hlen hz hold

/-! ## Non-vacuity -/

/-- The slots of a sender with 128 slots that has never sent anything hold no duration. -/
theorem slots_zero (n l : Nat) : (∀ d ∈ (Sender.new 128 false).buffer.ptb.buf.drop n, d ≤ l) ∧
    ∀ d ∈ (Nat.repeat Sender.tick 130 (Sender.new 128 false)).buffer.ptb.buf.drop n, d ≤ l := by
  constructor
  · intro d hd
    have := (List.mem_replicate.mp (show d ∈ List.replicate 128 0 from List.mem_of_mem_drop hd)).2
    omega
  · intro d hd
    rw [silent_example.2] at hd
    have := (List.mem_replicate.mp (List.mem_of_mem_drop hd)).2
    omega

/-- C108 applies: an RC5 remote, one command every 121 ms, through a program that complements the toggle bit, all at
40 kHz. -/
example (t : Target) (hus : 16 ≤ t.usizeBits) (cmds : List Rc5Command) (hlen : cmds.length ≤ 100000)
    (hc : ∀ c ∈ cmds, c.addr.toNat < 32 ∧ c.cmd.toNat < 64 ∧ c.start.toNat < 4) :
    ∃ s₀ levels₀ levels,
      (Sender.new 128 false).calls (session (rc5Encode t 35) (cmds.map fun c => (c, 4840))) = some (s₀, levels₀) ∧
      relayRun (rc5Decoder t (rc5Table 40000)) (fun c => { c with toggle := !c.toggle })
        (rc5Encode t 35) (Nat.repeat Sender.tick 130 (Sender.new 128 false))
        (overhear 40000 40000 0 1 levels₀ (962 + 4840 * cmds.length)) = some levels ∧
      (pollRun (rc5Decoder t (rc5Table 40000)) id
          (overhear 40000 40000 0 1 levels (964 + 4840 * cmds.length))).map said =
        some (oks (cmds.map fun c => { c with toggle := !c.toggle, start := c.start ||| 2 ||| 2 })) := by
  obtain ⟨s₀, levels₀, h1, h2⟩ := C108_rc5_relay t hus 40000 (.inr (by decide)) 40000 (by decide) (.inr (by decide))
    (by decide) 40000 (by decide) (by decide) (rc5Table 40000) (rc5Spans_eq (.inl rfl) t (by decide)) 35 (by decide)
    (rc5Table 40000) (rc5Spans_eq (.inl rfl) t (by decide)) 35 (by decide) (fun c => { c with toggle := !c.toggle }) id
    (cmds.map fun c => (c, 4840))
    (by
      intro x hx
      obtain ⟨c, h, rfl⟩ := List.mem_map.mp hx
      exact hc c h) (fun c g1 g2 g3 => ⟨g1, g2, g3⟩) (Sender.new 128 false) rfl 101 rfl rfl (slots_zero 0 _).1
    (Nat.repeat Sender.tick 130 (Sender.new 128 false)) silent_example.1 101
    (by rw [silent_example.2, List.length_replicate]) (by rw [silent_example.2, List.drop_replicate]) (slots_zero 0 _).2 (by
      intro x hx
      obtain ⟨c, -, rfl⟩ := List.mem_map.mp hx
      dsimp only
      decide)
  have hst := sessionTicks_const cmds 4840
  obtain ⟨levels, h3, h4⟩ := h2 1 0 (962 + 4840 * cmds.length) 960 (by decide) (by decide) (by decide)
    (by rw [hst]; simp only [reading]; omega) (by omega)
  refine ⟨s₀, levels₀, levels, h1, h3, ?_⟩
  rw [h4 1 0 _ (by decide) (by simp only [reading]; omega) (by simp only [reading]; omega), List.map_map]
  rfl

/-- RC5 to RC6, one command every 117.5 ms, all at 80 kHz. -/
example (t : Target) (hus : 16 ≤ t.usizeBits) (cmds : List Rc5Command) (hlen : cmds.length ≤ 100000)
    (hc : ∀ c ∈ cmds, c.addr.toNat < 32 ∧ c.cmd.toNat < 64 ∧ c.start.toNat < 4) :
    ∃ s₀ levels₀ levels,
      (Sender.new 128 false).calls (session (rc5Encode t 71) (cmds.map fun c => (c, 9400))) = some (s₀, levels₀) ∧
      relayRun (rc5Decoder t (rc5Table 80000)) (fun c => (⟨c.addr, c.cmd, c.toggle⟩ : Rc6Command))
        (rc6Encode 35) (Nat.repeat Sender.tick 130 (Sender.new 128 false))
        (overhear 80000 80000 0 1 levels₀ (1922 + 9400 * cmds.length)) = some levels ∧
      (pollRun (rc6Decoder t (rc6Table 80000)) id
          (overhear 80000 80000 0 1 levels (1924 + 9400 * cmds.length))).map said =
        some (oks (cmds.map fun c => ⟨c.addr, c.cmd, c.toggle⟩)) := by
  obtain ⟨s₀, levels₀, h1, h2⟩ := C108_rc5_to_rc6 t hus 80000 (.inl (by decide)) 80000 (by decide)
    (by decide) 80000 (by decide) (by decide) (by decide) (rc5Table 80000) (rc5Spans_eq (.inl rfl) t (by decide)) 71
    (by decide) (rc6Table 80000) (rc6Spans_eq (.inl rfl) t (by decide)) 35 (by decide)
    (fun c => (⟨c.addr, c.cmd, c.toggle⟩ : Rc6Command)) id (cmds.map fun c => (c, 9400))
    (by
      intro x hx
      obtain ⟨c, h, rfl⟩ := List.mem_map.mp hx
      exact hc c h) (Sender.new 128 false) rfl 101 rfl rfl (slots_zero 0 _).1
    (Nat.repeat Sender.tick 130 (Sender.new 128 false)) silent_example.1 84
    (by rw [silent_example.2, List.length_replicate]) (by rw [silent_example.2, List.drop_replicate]) (slots_zero 2 _).2 (by
      intro x hx
      obtain ⟨c, -, rfl⟩ := List.mem_map.mp hx
      dsimp only
      decide)
  have hst := sessionTicks_const cmds 9400
  obtain ⟨levels, h3, h4⟩ := h2 1 0 (1922 + 9400 * cmds.length) 1920 (by decide) (by decide) (by decide)
    (by rw [hst]; simp only [reading]; omega) (by omega)
  refine ⟨s₀, levels₀, levels, h1, h3, ?_⟩
  rw [h4 1 0 _ (by decide) (by simp only [reading]; omega) (by simp only [reading]; omega), List.map_map]
  rfl

/-- RC6 to RC5, one command every 117.5 ms, all at 80 kHz. -/
example (t : Target) (hus : 16 ≤ t.usizeBits) (cmds : List Rc6Command) (hlen : cmds.length ≤ 100000) :
    ∃ s₀ levels₀ levels,
      (Sender.new 128 false).calls (session (rc6Encode 35) (cmds.map fun c => (c, 9400))) = some (s₀, levels₀) ∧
      relayRun (rc6Decoder t (rc6Table 80000)) (fun c => (⟨c.addr &&& 31, c.cmd &&& 63, 3, c.toggle⟩ : Rc5Command))
        (rc5Encode t 71) (Nat.repeat Sender.tick 130 (Sender.new 128 false))
        (overhear 80000 80000 0 1 levels₀ (1842 + 9400 * cmds.length)) = some levels ∧
      (pollRun (rc5Decoder t (rc5Table 80000)) id
          (overhear 80000 80000 0 1 levels (1844 + 9400 * cmds.length))).map said =
        some (oks (cmds.map fun c => ⟨c.addr &&& 31, c.cmd &&& 63, 3, c.toggle⟩)) := by
  obtain ⟨s₀, levels₀, h1, h2⟩ := C108_rc6_to_rc5 t hus 80000 (by decide) 80000 (by decide)
    (by decide) 80000 (by decide) (by decide) (rc6Table 80000) (rc6Spans_eq (.inl rfl) t (by decide)) 35
    (by decide) (rc5Table 80000) (rc5Spans_eq (.inl rfl) t (by decide)) 71 (by decide)
    (fun c => (⟨c.addr &&& 31, c.cmd &&& 63, 3, c.toggle⟩ : Rc5Command)) id (cmds.map fun c => (c, 9400))
    (by
      intro x hx
      refine ⟨?_, ?_, show (3 : Nat) < 4 by decide⟩
      · have := @Nat.and_le_right x.1.addr.toNat 31
        simp only [BitVec.toNat_and]
        exact Nat.lt_succ_of_le this
      · have := @Nat.and_le_right x.1.cmd.toNat 63
        simp only [BitVec.toNat_and]
        exact Nat.lt_succ_of_le this) (Sender.new 128 false) rfl 84 rfl rfl (slots_zero 2 _).1
    (Nat.repeat Sender.tick 130 (Sender.new 128 false)) silent_example.1 101
    (by rw [silent_example.2, List.length_replicate]) (by rw [silent_example.2, List.drop_replicate]) (slots_zero 0 _).2 (by
      intro x hx
      obtain ⟨c, -, rfl⟩ := List.mem_map.mp hx
      dsimp only
      decide)
  have hst := sessionTicks_const cmds 9400
  obtain ⟨levels, h3, h4⟩ := h2 1 0 (1842 + 9400 * cmds.length) 1840 (by decide) (by decide) (by decide)
    (by rw [hst]; simp only [reading]; omega) (by omega)
  refine ⟨s₀, levels₀, levels, h1, h3, ?_⟩
  rw [h4 1 0 _ (by decide) (by simp only [reading]; omega) (by simp only [reading]; omega), List.map_map]
  have e : (3 : BitVec 8) ||| 2 = 3 := by decide
  simp only [Function.comp_def, id, e]

/-- RC6 to NEC, one command every 112.5 ms, all at 80 kHz. -/
example (t : Target) (hus : 16 ≤ t.usizeBits) (cmds : List Rc6Command) (hlen : cmds.length ≤ 100000) :
    ∃ data s₀ levels₀ levels, necData Infrared.nec.pulseDistance 80000 = some data ∧
      (Sender.new 128 false).calls (session (rc6Encode 35) (cmds.map fun c => (c, 9000))) = some (s₀, levels₀) ∧
      relayRun (rc6Decoder t (rc6Table 80000)) (fun c => (⟨c.addr, c.cmd, false⟩ : NecCommand))
        (necEncode Infrared.nec data) (Nat.repeat Sender.tick 130 (Sender.new 128 false))
        (overhear 80000 80000 0 1 levels₀ (1842 + 9000 * cmds.length)) = some levels ∧
      (pollRun (necDecoder t Mono.u32 (necTable 80000) Infrared.nec) id
          (overhear 80000 80000 0 1600 levels (3443 + 9000 * cmds.length))).map said =
        some (oks (cmds.map fun c => ⟨c.addr, c.cmd, false⟩)) := by
  obtain ⟨data, hdata⟩ := Option.isSome_iff_exists.mp ((C38_nec_compiles 80000 (by omega)).1.mpr (by decide))
  have hpack : ∀ c : NecCommand, ∃ w, Infrared.nec.pack c = some w ∧
      Infrared.nec.unpack w false = some { c with rep := false } := fun c => ⟨_, rfl, (C01_nec_roundtrip { c with rep := false }).2⟩
  obtain ⟨s₀, levels₀, h1, h2⟩ := C108_rc6_to_nec t hus 80000 (by decide) 80000 (by decide)
    (by decide) 80000 (by decide) (by decide) (rc6Table 80000) (rc6Spans_eq (.inl rfl) t (by decide)) 35
    (by decide) Infrared.nec (.inl rfl) data hdata (necTable 80000) (necSpans_standard (.inl rfl) t (by omega) _ rfl)
    (fun c => (⟨c.addr, c.cmd, false⟩ : NecCommand)) id (cmds.map fun c => (c, 9000)) (fun c => { c with rep := false })
    (fun x _ => hpack _) (Sender.new 128 false) rfl 84 rfl rfl (slots_zero 2 _).1
    (Nat.repeat Sender.tick 130 (Sender.new 128 false)) silent_example.1 61
    (by rw [silent_example.2, List.length_replicate]) (by rw [silent_example.2, List.drop_replicate]) (by
      intro x hx
      obtain ⟨c, -, rfl⟩ := List.mem_map.mp hx
      dsimp only
      decide)
  have hst := sessionTicks_const cmds 9000
  obtain ⟨levels, h3, h4⟩ := h2 1 0 (1842 + 9000 * cmds.length) 1840 (by decide) (by decide) (by decide)
    (by rw [hst]; simp only [reading]; omega) (by omega)
  refine ⟨data, s₀, levels₀, levels, hdata, h1, h3, ?_⟩
  rw [h4 1600 0 _ (by decide) (by decide) (by simp only [reading]; omega) (by simp only [reading]; omega), List.map_map]
  rfl

/-- NEC to RC6, one command every 112.5 ms, all at 80 kHz. -/
example (t : Target) (hus : 16 ≤ t.usizeBits) (cmds : List NecCommand) (hlen : cmds.length ≤ 100000) :
    ∃ data s₀ levels₀ levels, necData Infrared.nec.pulseDistance 80000 = some data ∧
      (Sender.new 128 false).calls (session (necEncode Infrared.nec data) (cmds.map fun c => (c, 9000))) =
        some (s₀, levels₀) ∧
      relayRun (necDecoder t Mono.u32 (necTable 80000) Infrared.nec) (fun c => (⟨c.addr, c.cmd, false⟩ : Rc6Command))
        (rc6Encode 35) (Nat.repeat Sender.tick 130 (Sender.new 128 false))
        (overhear 80000 80000 0 1600 levels₀ (7041 + 9000 * cmds.length)) = some levels ∧
      (pollRun (rc6Decoder t (rc6Table 80000)) id
          (overhear 80000 80000 0 1 levels (7043 + 9000 * cmds.length))).map said =
        some (oks (cmds.map fun c => ⟨c.addr, c.cmd, false⟩)) := by
  obtain ⟨data, s₀, levels₀, hdata, h1, h2⟩ := C108_nec_to_rc6 t hus 80000 (.inl (by decide)) (by decide) 80000 (by decide)
    (by decide) 80000 (by decide) (by decide) (by decide) (necTable 80000)
    (necSpans_standard (.inl rfl) t (by omega) _ rfl) (rc6Table 80000) (rc6Spans_eq (.inl rfl) t (by decide)) 35 (by decide)
    (fun c => (⟨c.addr, c.cmd, false⟩ : Rc6Command)) id (cmds.map fun c => (c, 9000)) 128 (by decide) false
    (Nat.repeat Sender.tick 130 (Sender.new 128 false)) silent_example.1 84
    (by rw [silent_example.2, List.length_replicate]) (by rw [silent_example.2, List.drop_replicate]) (slots_zero 2 _).2 (by
      intro x hx
      obtain ⟨c, -, rfl⟩ := List.mem_map.mp hx
      dsimp only
      decide)
  have hst := sessionTicks_const cmds 9000
  obtain ⟨levels, h3, h4⟩ := h2 1600 0 (7041 + 9000 * cmds.length) 5440 (by decide) (by decide) (by decide) (by decide)
    (by rw [hst]; simp only [reading]; omega) (by omega)
  refine ⟨data, s₀, levels₀, levels, hdata, h1, h3, ?_⟩
  rw [h4 1 0 _ (by decide) (by simp only [reading]; omega) (by simp only [reading]; omega), List.map_map]
  rfl

end Infrared
