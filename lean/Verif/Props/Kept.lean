import Verif.Spec.Kept
import Verif.Props.Taken
import Verif.Props.SessionTimeRc

/-!
# C111: which commands a sender of any protocol takes, at any distances
-/

namespace Infrared
open Spec

variable {A C C' K : Type}

theorem keptFrom_calls (enc : A → Encode) (wave : A → List Nat) (N : Nat) (l : List (A × Nat)) :
    ∀ (s s' : Sender) (buf : List Nat) (c : A) (d : Nat), s.load (enc c) = some s' → s'.buffer.ptb.buf = buf → N ≤ buf.length →
    (∀ x ∈ buf, x < 2 ^ 32) →
    (∀ n, (s'.ticks n).buffer.status = .idle ↔ ¬ Ignores buf n) →
    (∀ x ∈ l, Writes (enc x.1) (wave x.1) ∧ (wave x.1).length ≤ N ∧ ∀ d ∈ wave x.1, d < 2 ^ 32) →
    s.calls (session enc ((c, d) :: l)) = s.calls (session enc (keptFrom wave buf c d l)) := by
  induction l with
  | nil => intro s s' buf c d _ _ _ _ _ _; rfl
  | cons x l ih =>
    intro s s' buf c d h1 hb hN hlt hidle hl
    have hl' := fun y hy => hl y (List.mem_cons_of_mem _ hy)
    rw [keptFrom]
    split
    · rename_i hi
      have hn : ¬ (s'.ticks d).buffer.status = .idle := by rw [hidle d]; exact fun h => h hi
      rw [← ih s s' buf c (d + x.2) h1 hb hN hlt hidle hl', session_cons, session_cons, session_cons, calls_load h1, calls_load h1]
      dsimp only
      rw [calls_ticks, calls_load (show (s'.ticks d).load (enc x.1) = some (s'.ticks d) from if_neg hn),
        ← calls_ticks, ← List.append_assoc, List.replicate_append_replicate]
    · rename_i hi
      obtain ⟨w1, w2, w3⟩ := hl x (by simp)
      have hbuf : (s'.ticks d).buffer.ptb.buf = buf := by rw [ticks_buf, hb]
      have henc := w1 (s'.ticks d).buffer.ptb.buf
      rw [hbuf, if_pos (by omega)] at henc
      have hlt' : ∀ y ∈ overwrite (wave x.1) buf, y < 2 ^ 32 := by
        intro y hy
        rcases List.mem_append.mp hy with hy | hy
        · exact w3 y hy
        · exact hlt y (List.mem_of_mem_drop hy)
      rw [← hbuf] at henc
      obtain ⟨s2, e1, e2, -, e4, e5⟩ := load_idle ((hidle d).mpr hi) henc (by rw [hbuf]; exact hlt')
      rw [hbuf] at e2
      have hlen : N ≤ (overwrite (wave x.1) buf).length := by
        rw [overwrite, List.length_append, List.length_drop]; omega
      rw [hbuf] at e5
      rw [session_cons enc (c, d) (x :: l), session_cons enc (c, d) (keptFrom wave _ x.1 x.2 l), calls_load h1, calls_load h1]
      dsimp only
      rw [calls_ticks, calls_ticks, show x = (x.1, x.2) from rfl,
        ih (s'.ticks d) s2 (overwrite (wave x.1) buf) x.1 x.2 e1 e2 hlen hlt' (fun n => by
          rw [status_start e5 e4, Nat.sub_zero, Ignores]
          show _ ∨ (transmission (wave x.1 ++ buf.drop (wave x.1).length)).length < n ↔ _
          rw [← overwrite]
          unfold overwrite
          omega) hl']

/-- **C111**: an idle sender of any protocol is given any commands, at any distances, and its buffer may hold anything.  It
behaves as if it had been given only those that come before the first edge of the one before, or after the end of its
transmission. -/
theorem C111_any (enc : A → Encode) (wave : A → List Nat) (s : Sender) (hidle : s.buffer.status = .idle)
    (hold : ∀ d ∈ s.buffer.ptb.buf, d < 2 ^ 32) (cmds : List (A × Nat))
    (hcmds : ∀ x ∈ cmds, Writes (enc x.1) (wave x.1) ∧ (wave x.1).length ≤ s.buffer.ptb.buf.length ∧
      ∀ d ∈ wave x.1, d < 2 ^ 32) :
    s.calls (session enc cmds) = s.calls (session enc (kept wave s.buffer.ptb.buf cmds)) := by
  cases cmds with
  | nil => rfl
  | cons x l =>
    obtain ⟨w1, w2, w3⟩ := hcmds x (by simp)
    have henc := w1 s.buffer.ptb.buf
    rw [if_pos w2] at henc
    have hlt' : ∀ y ∈ overwrite (wave x.1) s.buffer.ptb.buf, y < 2 ^ 32 := by
      intro y hy
      rcases List.mem_append.mp hy with hy | hy
      · exact w3 y hy
      · exact hold y (List.mem_of_mem_drop hy)
    obtain ⟨s2, e1, e2, -, e4, e5⟩ := load_idle hidle henc hlt'
    rw [kept, show x = (x.1, x.2) from rfl]
    exact keptFrom_calls enc wave s.buffer.ptb.buf.length l s s2 _ x.1 x.2 e1 e2
      (by rw [overwrite, List.length_append, List.length_drop]; omega) hlt'
      (fun n => by
        rw [status_start e5 e4, Nat.sub_zero, Ignores]
        show _ ∨ (transmission (wave x.1 ++ s.buffer.ptb.buf.drop (wave x.1).length)).length < n ↔ _
        unfold overwrite
        dsimp only
        omega) (fun y hy => hcmds y (by simp [hy]))

theorem keptFrom_more (wave : A → List Nat) (buf : List Nat) (c : A) (more rest : List (A × Nat)) : ∀ d, buf.headD 0 < d →
    (∀ i < more.length, d + sessionTicks (more.take i) ≤ (transmission buf).length) →
    keptFrom wave buf c d (more ++ rest) = keptFrom wave buf c (d + sessionTicks more) rest := by
  induction more with
  | nil => intro d _ _; rfl
  | cons x l ih =>
    intro d hd h
    have h0 := h 0 (by simp)
    rw [List.take_zero] at h0
    have h1 : sessionTicks (x :: l) = x.2 + sessionTicks l := by simp [sessionTicks]
    rw [List.cons_append, keptFrom, if_pos ⟨hd, h0⟩, ih (d + x.2) (by omega) fun i hi => ?_, h1, Nat.add_assoc]
    have h2 := h (i + 1) (by simp only [List.length_cons]; omega)
    rw [List.take_succ_cons] at h2
    have h3 : sessionTicks (x :: l.take i) = x.2 + sessionTicks (l.take i) := by simp [sessionTicks]
    omega

theorem keptFrom_presses (wave : A → List Nat) (Inv : List Nat → Prop) (n : A → Nat) (ps : List (Press A))
    (hps : ∀ p ∈ ps, ∀ b, Inv b → Inv (overwrite (wave p.cmd) b) ∧ (overwrite (wave p.cmd) b).headD 0 = 0 ∧
      n p.cmd ≤ (transmission (overwrite (wave p.cmd) b)).length ∧ (transmission (overwrite (wave p.cmd) b)).length < p.ticks)
    (hw : ∀ p ∈ ps, p.Within (n p.cmd)) : ∀ (b : List Nat) (c : A) (d : Nat), Inv b → ¬ Ignores b d →
    keptFrom wave b c d (ps.flatMap Press.loads) = (c, d) :: ps.map fun p => (p.cmd, p.ticks) := by
  induction ps with
  | nil => intro b c d _ _; rfl
  | cons p ps ih =>
    intro b c d hb hd
    obtain ⟨h1, h2, h3, h4⟩ := hps p (by simp) b hb
    obtain ⟨w1, w2⟩ := hw p (by simp)
    rw [List.flatMap_cons, Press.loads, List.cons_append, keptFrom, if_neg hd]
    dsimp only
    rw [keptFrom_more _ _ _ _ _ _ (by omega) fun i hi => Nat.le_trans (w2 i hi) h3,
      ih (fun q hq => hps q (by simp [hq])) (fun q hq => hw q (by simp [hq])) _ _ _ h1 (fun h => by
        have := h.2
        rw [Press.ticks] at h4
        omega)]
    rfl

theorem kept_presses (wave : A → List Nat) (Inv : List Nat → Prop) (n : A → Nat) (ps : List (Press A))
    (hps : ∀ p ∈ ps, ∀ b, Inv b → Inv (overwrite (wave p.cmd) b) ∧ (overwrite (wave p.cmd) b).headD 0 = 0 ∧
      n p.cmd ≤ (transmission (overwrite (wave p.cmd) b)).length ∧ (transmission (overwrite (wave p.cmd) b)).length < p.ticks)
    (hw : ∀ p ∈ ps, p.Within (n p.cmd)) (b : List Nat) (hb : Inv b) :
    kept wave b (ps.flatMap Press.loads) = ps.map fun p => (p.cmd, p.ticks) := by
  cases ps with
  | nil => rfl
  | cons p ps =>
    obtain ⟨h1, h2, h3, h4⟩ := hps p (by simp) b hb
    obtain ⟨w1, w2⟩ := hw p (by simp)
    rw [List.flatMap_cons, Press.loads, List.cons_append, kept]
    dsimp only
    rw [keptFrom_more _ _ _ _ _ _ (by omega) fun i hi => Nat.le_trans (w2 i hi) h3,
      keptFrom_presses wave Inv n ps (fun q hq => hps q (by simp [hq])) (fun q hq => hw q (by simp [hq])) _ _ _ h1 (fun h => by
        have := h.2
        rw [Press.ticks] at h4
        omega)]
    rfl

theorem presses_ticks (ps : List (Press A)) :
    sessionTicks (ps.flatMap Press.loads) = sessionTicks (ps.map fun p => (p.cmd, p.ticks)) := by
  induction ps with
  | nil => rfl
  | cons p ps ih =>
    simp only [sessionTicks, List.flatMap_cons, List.map_append, List.sum_append, List.map_cons, List.sum_cons,
      Press.loads, Press.ticks] at ih ⊢
    rw [ih]

theorem transmission_zero (ds : List Nat) : (transmission (0 :: ds)).length = (atLeastOne ds).sum + 1 := by
  rw [transmission, List.replicate_zero, List.nil_append, held_length]

theorem sum_atLeastOne (ds : List Nat) : ds.sum ≤ (atLeastOne ds).sum := by
  induction ds with
  | nil => exact Nat.le_refl _
  | cons d ds ih =>
    simp only [atLeastOne, List.map_cons, List.sum_cons] at ih ⊢
    omega

theorem rc5_wave_sum (l : Nat) {w : BitVec 14} (h13 : w.getLsbD 13 = true) : (rc5Wave l w).tail.sum = 26 * l := by
  unfold rc5Wave
  rw [rc5Edges_eq _ h13]
  exact (rc5_tail_sum w l 13 true).1

/-- Further commands within the length of the frame do not change what a NEC sender does. -/
theorem nec_presses_same (fs : Nat) (hfs : 20000 ≤ fs)
    (v : NecVariant C) (hv : v.Shipped) (data : NecData) (hdata : necData v.pulseDistance fs = some data)
    (ps : List (Press C)) (hpack : ∀ p ∈ ps, ∀ x ∈ p.loads, (v.pack x.1).isSome = true)
    (s : Sender) (hidle : s.buffer.status = .idle) (k : Nat) (hlen : s.buffer.ptb.buf.length = 67 + k)
    (hz : s.buffer.ptb.buf.drop 67 = List.replicate k 0) (hu32 : ∀ d ∈ s.buffer.ptb.buf, d < 2 ^ 32)
    (hmore : ∀ p ∈ ps, p.Within (frameTicks data.headerHigh data.headerLow data.dataHigh data.dataZeroLow data.dataOneLow
      (ones ((v.pack p.cmd).getD 0))))
    (hticks : ∀ p ∈ ps, 108 * fs + 1000 * k ≤ 1000 * p.ticks) :
    s.calls (session (necEncode v data) (ps.flatMap Press.loads)) =
      s.calls (session (necEncode v data) (ps.map fun p => (p.cmd, p.ticks))) := by
  obtain ⟨p1, p2, p3, p4, p5⟩ := necData_pos (by omega) hdata hv
  let wave : C → List Nat := fun c => necWave data.headerHigh data.headerLow data.dataHigh data.dataZeroLow data.dataOneLow
    ((v.pack c).getD 0)
  have hcons : ∀ c, wave c = 0 :: (wave c).tail := fun c => rfl
  have hwpos : ∀ c, ∀ d ∈ (wave c).tail, 0 < d ∧ d < 2 ^ 32 := fun c => necWave_pos _ _ _ _ _ _ p1 p2 p3 p4 p5
  have hwsum : ∀ c, (wave c).tail.sum = frameTicks data.headerHigh data.headerLow data.dataHigh data.dataZeroLow
      data.dataOneLow (ones ((v.pack c).getD 0)) := fun c => necWave_sum ..
  have hwl : ∀ c, (v.pack c).isSome = true → Writes (necEncode v data c) (wave c) ∧ (wave c).length = 67 := by
    intro c hc
    obtain ⟨w, hw⟩ := Option.isSome_iff_exists.mp hc
    have := C38_nec_encode v data c w hw
    have hww : wave c = necWave data.headerHigh data.headerLow data.dataHigh data.dataZeroLow data.dataOneLow w := by
      show necWave _ _ _ _ _ ((v.pack c).getD 0) = _
      rw [hw]; rfl
    rw [hww]
    exact this
  let Inv : List Nat → Prop := fun b => b.length = 67 + k ∧ b.drop 67 = List.replicate k 0
  have hkept := kept_presses wave Inv (fun c => frameTicks data.headerHigh data.headerLow data.dataHigh data.dataZeroLow
      data.dataOneLow (ones ((v.pack c).getD 0))) ps (fun p hp b hb => by
    have hl67 := (hwl p.cmd (hpack p hp _ (List.mem_cons_self ..))).2
    have hb0 : overwrite (wave p.cmd) b = 0 :: ((wave p.cmd).tail ++ List.replicate k 0) := by
      rw [overwrite, hl67, hb.2]
      rfl
    have hsum : (transmission (overwrite (wave p.cmd) b)).length = (wave p.cmd).tail.sum + k + 1 := by
      rw [hb0, transmission_zero, atLeastOne_append, atLeastOne_zeros, atLeastOne_of_pos fun d hd => (hwpos _ d hd).1,
        List.sum_append]
      simp
    refine ⟨⟨?_, ?_⟩, by rw [hb0]; rfl, by rw [hsum, hwsum]; omega, ?_⟩
    · rw [overwrite, List.length_append, hl67, hb.2, List.length_replicate]
    · rw [overwrite, List.drop_left' hl67, hl67, hb.2]
    · have h1 := necPairs_span (by omega : 14000 ≤ fs) hdata hv ((v.pack p.cmd).getD 0)
      have h2 := hticks p hp
      have h3 : (wave p.cmd).tail.sum = span (necPairs data.headerHigh data.headerLow data.dataHigh data.dataZeroLow
          data.dataOneLow ((v.pack p.cmd).getD 0)) := by
        show (necWave _ _ _ _ _ _).tail.sum = _
        rw [necPairs_flat, List.tail_cons, flat_sum]
      omega) hmore s.buffer.ptb.buf ⟨hlen, hz⟩
  have hany := C111_any (necEncode v data) wave s hidle hu32 (ps.flatMap Press.loads) (fun x hx => by
    obtain ⟨p, hp, hx⟩ := List.mem_flatMap.mp hx
    obtain ⟨q1, q2⟩ := hwl x.1 (hpack p hp x hx)
    refine ⟨q1, by omega, fun d hd => ?_⟩
    rw [hcons] at hd
    rcases List.mem_cons.mp hd with rfl | hd
    · decide
    · exact (hwpos _ d hd).2)
  rw [hany, hkept]

/-- C111, NEC keys that bounce: for each key press an idle sender is given a command and then, after the first tick and
within the length of its frame (67 ms for standard NEC), any others.  If the presses are 108 ms or more apart, a receiver
reports exactly the first command of each. -/
theorem C111_nec_presses (t : Target) (fs : Nat)
    (hfs : 21000 ≤ fs ∨ (20000 ≤ fs ∧ fs % 1000 = 0)) (f : Nat) (hle : fs ≤ f) (hf : f < 2 ^ 32)
    (v : NecVariant C) (hv : v.Shipped) (data : NecData) (hdata : necData v.pulseDistance fs = some data)
    (tbl : PulseSpans) (htbl : necSpans t Mono.u32 v f = some tbl) (conv : C → K)
    (ps : List (Press C)) (hear : C → C)
    (hpack : ∀ p ∈ ps, ∀ x ∈ p.loads, (v.pack x.1).isSome = true)
    (hcmds : ∀ p ∈ ps, ∃ w, v.pack p.cmd = some w ∧ v.unpack w false = some (hear p.cmd))
    (s : Sender) (hidle : s.buffer.status = .idle) (k : Nat) (hlen : s.buffer.ptb.buf.length = 67 + k)
    (hz : s.buffer.ptb.buf.drop 67 = List.replicate k 0) (hu32 : ∀ d ∈ s.buffer.ptb.buf, d < 2 ^ 32)
    (hmore : ∀ p ∈ ps, p.Within (frameTicks data.headerHigh data.headerLow data.dataHigh data.dataZeroLow data.dataOneLow
      (ones ((v.pack p.cmd).getD 0))))
    (hticks : ∀ p ∈ ps, 108 * fs + 1000 * k ≤ 1000 * p.ticks ∧ p.ticks * f / fs + 1 < 2 ^ 32) :
    ∃ s' levels, s.calls (session (necEncode v data) (ps.flatMap Press.loads)) = some (s', levels) ∧
      s'.buffer.status = .idle ∧ ∀ pause phase n, phase < fs →
      Pause tbl 32 [0, 1] (0, reading fs f phase pause + 1) →
      reading fs f phase (pause + sessionTicks (ps.flatMap Press.loads)) < n →
      (pollRun (necDecoder t Mono.u32 tbl v) conv (overhear fs f phase pause levels n)).map said =
        some (oks (ps.map fun p => conv (hear p.cmd))) := by
  obtain ⟨s', levels, g1, g2, g3⟩ := C57_nec_session t fs hfs f hle hf v hv data hdata tbl htbl conv
    (ps.map fun p => (p.cmd, p.ticks)) hear
    (fun x hx => by obtain ⟨p, hp, rfl⟩ := List.mem_map.mp hx; exact hcmds p hp) s hidle k hlen hz
    (fun x hx => by obtain ⟨p, hp, rfl⟩ := List.mem_map.mp hx; exact hticks p hp)
  rw [nec_presses_same fs (by omega) v hv data hdata ps hpack s hidle k hlen hz hu32 hmore fun p hp => (hticks p hp).1, presses_ticks]
  refine ⟨s', levels, g1, g2, fun pause phase n hp hr hn => ?_⟩
  rw [g3 pause phase n hp hr hn, List.map_map]
  rfl

/-- Further commands within 26 half-bits do not change what an RC5 sender does. -/
theorem rc5_presses_same (t : Target) (fs : Nat) (hfs : 20000 ≤ fs) (hhi : fs < 2 ^ 32)
    (l : Nat) (hl : rc5CalcFreq fs = some l) (ps : List (Press Rc5Command))
    (s : Sender) (hidle : s.buffer.status = .idle) (k : Nat) (hlen : s.buffer.ptb.buf.length = 27 + k)
    (hz : s.buffer.ptb.buf.drop 27 = List.replicate k 0) (hold : ∀ d ∈ s.buffer.ptb.buf, d ≤ 2 * l)
    (hmore : ∀ p ∈ ps, p.Within (26 * l)) (hticks : ∀ p ∈ ps, 114 * fs + 1000 * k ≤ 1000 * p.ticks) :
    s.calls (session (rc5Encode t l) (ps.flatMap Press.loads)) =
      s.calls (session (rc5Encode t l) (ps.map fun p => (p.cmd, p.ticks))) := by
  obtain ⟨l', hl', -, henc⟩ := C38_rc5_encode t fs (by omega)
  rw [hl, Option.some.injEq] at hl'
  subst hl'
  have e := (rc5CalcFreq_eq (by omega) hl).2 (by omega)
  have hl2 := (rc5CalcFreq_eq (by omega) hl).1
  have hl0 : 0 < l := by rw [e]; omega
  have h13 : ∀ c : Rc5Command, (rc5Word c.pack).getLsbD 13 = true := by
    intro c
    rw [rc5Word_bits _ _ (by decide)]; simp
  have htail := fun c : Rc5Command => rc5_wave_tail hl0 (h13 c)
  let wave : Rc5Command → List Nat := fun c => rc5Wave l (rc5Word c.pack)
  have hcons : ∀ c, wave c = 0 :: (wave c).tail := fun c => rc5Wave_cons _ _ (h13 c)
  have hwl : ∀ c, 14 ≤ (wave c).length ∧ (wave c).length ≤ 27 := fun c => (henc c).2
  let Inv : List Nat → Prop := fun b => b.length = 27 + k ∧ b.drop 27 = List.replicate k 0 ∧
    ∀ d ∈ b, d ≤ 2 * l
  have hwave : ∀ c, ∀ d ∈ wave c, d ≤ 2 * l := by
    intro c d hd
    rw [hcons] at hd
    rcases List.mem_cons.mp hd with rfl | hd
    · omega
    · exact (htail c d hd).2
  have hkept := kept_presses wave Inv (fun _ => 26 * l) ps (fun p hp b hb => by
    obtain ⟨-, -, h3, h4⟩ := loaded_slots (wave := wave p.cmd) (by have := hwl p.cmd; omega) (hwl p.cmd).2 hb.1 hb.2.1
    have hb0 : overwrite (wave p.cmd) b = 0 :: ((wave p.cmd).tail ++ b.drop (wave p.cmd).length) := by
      rw [overwrite]
      conv_lhs => rw [hcons]
      rw [List.cons_append, ← hcons]
    have hsum : (atLeastOne (overwrite (wave p.cmd) b).tail).sum ≤ 26 * (2 * l) + k :=
      slots_sum (by omega) (by decide) (by have := hwl p.cmd; omega) (hwl p.cmd).2 hb.1 hb.2.1
        (fun d hd => (htail p.cmd d hd).2) hb.2.2
    refine ⟨⟨h3, h4, fun d hd => ?_⟩, by rw [hb0]; rfl, ?_, ?_⟩
    · rcases List.mem_append.mp hd with hd | hd
      · exact hwave _ d hd
      · exact hb.2.2 d (List.mem_of_mem_drop hd)
    · rw [hb0, transmission_zero]
      have h5 := sum_atLeastOne ((wave p.cmd).tail ++ b.drop (wave p.cmd).length)
      have h6 : ((wave p.cmd).tail).sum = 26 * l := rc5_wave_sum l (h13 p.cmd)
      rw [List.sum_append] at h5
      omega
    · rw [hb0] at hsum ⊢
      rw [transmission_zero]
      rw [List.tail_cons] at hsum
      have := hticks p hp
      omega) hmore s.buffer.ptb.buf ⟨hlen, hz, hold⟩
  have hany := C111_any (rc5Encode t l) wave s hidle (fun d hd => by have := hold d hd; omega) (ps.flatMap Press.loads)
    (fun x _ => ⟨(henc x.1).1, by have := hwl x.1; omega, fun d hd => by have := hwave _ d hd; omega⟩)
  rw [hany, hkept]

/-- C111, RC5 keys that bounce: for each key press an idle sender is given a command and then, after the first tick and
within 26 half-bits (23 ms), any others.  If the presses are 114 ms or more apart, a receiver reports exactly the first
command of each. -/
theorem C111_rc5_presses (t : Target) (hus : 16 ≤ t.usizeBits) (fs : Nat)
    (hfs : 42000 ≤ fs ∨ (20000 ≤ fs ∧ fs % 1000 = 0)) (f : Nat) (hlo : 40000 ≤ f) (hle : fs ≤ f)
    (hf : f < 2 ^ 32) (tbl : PulseSpans) (htbl : rc5Spans t Mono.u32 f = some tbl)
    (conv : Rc5Command → K) (l : Nat) (hl : rc5CalcFreq fs = some l) (ps : List (Press Rc5Command))
    (hcmds : ∀ p ∈ ps, p.cmd.addr.toNat < 32 ∧ p.cmd.cmd.toNat < 64 ∧ p.cmd.start.toNat < 4)
    (s : Sender) (hidle : s.buffer.status = .idle) (k : Nat) (hlen : s.buffer.ptb.buf.length = 27 + k)
    (hz : s.buffer.ptb.buf.drop 27 = List.replicate k 0) (hold : ∀ d ∈ s.buffer.ptb.buf, d ≤ 2 * l)
    (hmore : ∀ p ∈ ps, p.Within (26 * l))
    (hticks : ∀ p ∈ ps, 114 * fs + 1000 * k ≤ 1000 * p.ticks ∧ p.ticks * f / fs + 1 < 2 ^ 32) :
    ∃ s' levels, s.calls (session (rc5Encode t l) (ps.flatMap Press.loads)) = some (s', levels) ∧
      s'.buffer.status = .idle ∧ ∀ pause phase n, phase < fs →
      reading fs f phase pause + 1 < 2 ^ 32 →
      reading fs f phase (pause + sessionTicks (ps.flatMap Press.loads)) < n →
      (pollRun (rc5Decoder t tbl) conv (overhear fs f phase pause levels n)).map said =
        some (oks (ps.map fun p => conv { p.cmd with start := p.cmd.start ||| 2 })) := by
  rw [rc5_presses_same t fs (by omega) (by omega) l hl ps s hidle k hlen hz hold hmore fun p hp => (hticks p hp).1, presses_ticks]
  obtain ⟨s', levels, g1, g2, g3⟩ := C58_rc5_session t hus fs hfs f hlo hle hf tbl htbl conv l hl
    (ps.map fun p => (p.cmd, p.ticks))
    (fun x hx => by obtain ⟨p, hp, rfl⟩ := List.mem_map.mp hx; exact hcmds p hp) s hidle k hlen hz hold
    (fun x hx => by obtain ⟨p, hp, rfl⟩ := List.mem_map.mp hx; exact hticks p hp)
  refine ⟨s', levels, g1, g2, fun pause phase n hp hr hn => ?_⟩
  rw [g3 pause phase n hp hr hn, List.map_map]
  rfl

/-- Further commands within 51 units do not change what an RC6 sender does. -/
theorem rc6_presses_same (fs : Nat) (hfs : 46000 ≤ fs)
    (l : Nat) (hl : rc6Data fs = some l) (ps : List (Press Rc6Command))
    (s : Sender) (hidle : s.buffer.status = .idle) (k : Nat) (hlen : s.buffer.ptb.buf.length = 44 + k)
    (hz : s.buffer.ptb.buf.drop 44 = List.replicate k 0)
    (hold : ∀ d ∈ s.buffer.ptb.buf.drop 2, d ≤ 3 * l) (hu32 : ∀ d ∈ s.buffer.ptb.buf, d < 2 ^ 32)
    (hmore : ∀ p ∈ ps, p.Within (51 * l)) (hticks : ∀ p ∈ ps, 106 * fs + 1000 * k ≤ 1000 * p.ticks) :
    s.calls (session (rc6Encode l) (ps.flatMap Press.loads)) =
      s.calls (session (rc6Encode l) (ps.map fun p => (p.cmd, p.ticks))) := by
  have hhi : 444 * fs < 2 ^ 32 := by
    unfold rc6Data at hl
    split at hl
    · assumption
    · cases hl
  have hL : 444 * fs / 1000000 = l := by
    rw [rc6Data, if_pos hhi, Option.some.injEq] at hl
    exact hl
  have henc := fun c : Rc6Command => C38_rc6_encode fs _ hl c
  have hl0 : 0 < l := by omega
  have hl1 : 1000000 * l ≤ 444 * fs := by omega
  let wave : Rc6Command → List Nat := fun c => rc6Wave l (c.addr ++ c.cmd) c.toggle
  have hcons : ∀ c, wave c = 0 :: (wave c).tail := fun c => rc6Wave_cons _ _ _
  have hwave : ∀ c, ∃ rest, wave c = 0 :: 6 * l :: rest ∧ ∀ d ∈ rest, d ≤ 3 * l := by
    intro c
    obtain ⟨rest, h1, h2⟩ := rc6_wave_tail l (c.addr ++ c.cmd) c.toggle
    refine ⟨rest, ?_, h2⟩
    rw [hcons, show (wave c).tail = _ from h1]
  have hwl : ∀ c, 2 ≤ (wave c).length ∧ (wave c).length ≤ 44 := by
    intro c
    obtain ⟨rest, h1, -⟩ := hwave c
    exact ⟨by rw [h1]; simp, (henc c).2.2⟩
  let Inv : List Nat → Prop := fun b => b.length = 44 + k ∧ b.drop 44 = List.replicate k 0 ∧
    ∀ d ∈ b.drop 2, d ≤ 3 * l
  have hkept := kept_presses wave Inv (fun _ => 51 * l) ps (fun p hp b hb => by
    obtain ⟨-, -, h3, h4⟩ := loaded_slots (wave := wave p.cmd) (by have := hwl p.cmd; omega) (hwl p.cmd).2 hb.1 hb.2.1
    obtain ⟨rest, r1, r2⟩ := hwave p.cmd
    have hb0 : overwrite (wave p.cmd) b = 0 :: 6 * l :: (rest ++ b.drop (wave p.cmd).length) := by
      rw [overwrite]
      conv_lhs => rw [r1]
      rw [List.cons_append, List.cons_append, ← r1]
    have hmem : ∀ d ∈ rest ++ b.drop (wave p.cmd).length, d ≤ 3 * l := by
      intro d hd
      rcases List.mem_append.mp hd with hd | hd
      · exact r2 d hd
      · refine hb.2.2 d ?_
        have : (wave p.cmd).length = 2 + ((wave p.cmd).length - 2) := by have := (hwl p.cmd).1; omega
        rw [this, ← List.drop_drop] at hd
        exact List.mem_of_mem_drop hd
    refine ⟨⟨h3, h4, by rw [hb0]; exact hmem⟩, by rw [hb0]; rfl, ?_, ?_⟩
    · rw [hb0, transmission_zero]
      have h5 := sum_atLeastOne (6 * l :: (rest ++ b.drop (wave p.cmd).length))
      have h6 := (rc6_wave_sum l p.cmd).1
      rw [show (rc6Wave l (p.cmd.addr ++ p.cmd.cmd) p.cmd.toggle).tail = 6 * l :: rest from congrArg List.tail r1] at h6
      rw [List.sum_cons] at h6
      rw [List.sum_cons, List.sum_append] at h5
      have h7 : 51 * l ≤ (if p.cmd.cmd.getLsbD 0 then 51 else 52) * l := by split <;> omega
      omega
    · rw [hb0, transmission_zero]
      have hlo44 : b.drop (wave p.cmd).length = (b.take 44).drop (wave p.cmd).length ++ List.replicate k 0 := by
        rw [← hb.2.1, List.drop_take]
        have := (hwl p.cmd).2
        rw [show 44 = (wave p.cmd).length + (44 - (wave p.cmd).length) by omega, ← List.drop_drop]
        rw [show (wave p.cmd).length + (44 - (wave p.cmd).length) - (wave p.cmd).length = 44 - (wave p.cmd).length by omega]
        exact (List.take_append_drop _ _).symm
      have h6 := sum_leader (b := 3 * l) (x := 6 * l) (l := atLeastOne (rest ++ (b.take 44).drop (wave p.cmd).length))
        (by omega) (by
          intro d hd
          obtain ⟨x, hx, rfl⟩ := List.mem_map.mp hd
          refine Nat.max_le.mpr ⟨hmem x ?_, by omega⟩
          rw [hlo44, ← List.append_assoc]
          exact List.mem_append_left _ hx)
      have h7 : (6 * l :: atLeastOne (rest ++ (b.take 44).drop (wave p.cmd).length)).length = 43 := by
        have := hb.1
        have h2 := (hwl p.cmd).2
        rw [r1] at h2 ⊢
        simp only [atLeastOne, List.length_cons, List.length_append, List.length_map, List.length_drop, List.length_take] at h2 ⊢
        omega
      rw [h7, List.sum_cons] at h6
      have h8 : (atLeastOne (6 * l :: (rest ++ b.drop (wave p.cmd).length))).sum = 6 * l +
          (atLeastOne (rest ++ (b.take 44).drop (wave p.cmd).length)).sum + k := by
        rw [hlo44, ← List.append_assoc, ← List.cons_append, atLeastOne_append, atLeastOne_zeros, List.sum_append]
        have h9 : (List.replicate k 1).sum = k := by simp
        have h10 : ∀ m : List Nat, (atLeastOne (6 * l :: m)).sum = max (6 * l) 1 + (atLeastOne m).sum := fun m => List.sum_cons
        rw [h9, h10]
        omega
      have := hticks p hp
      omega) hmore s.buffer.ptb.buf ⟨hlen, hz, hold⟩
  have hany := C111_any (rc6Encode l) wave s hidle hu32 (ps.flatMap Press.loads)
    (fun x _ => ⟨(henc x.1).2.1, by have := hwl x.1; omega, fun d hd => by
      obtain ⟨rest, r1, r2⟩ := hwave x.1
      rw [r1] at hd
      rcases List.mem_cons.mp hd with rfl | hd
      · omega
      · rcases List.mem_cons.mp hd with rfl | hd
        · omega
        · have := r2 d hd; omega⟩)
  rw [hany, hkept]

/-- C111, RC6 keys that bounce: the same within 51 units (22 ms), with presses 106 ms or more apart. -/
theorem C111_rc6_presses (t : Target) (hus : 16 ≤ t.usizeBits) (fs : Nat) (hfs : 46000 ≤ fs)
    (f : Nat) (hlo : 80000 ≤ f) (hle : fs ≤ f)
    (hf : f < 2 ^ 32) (tbl : PulseSpans) (htbl : rc6Spans t Mono.u32 f = some tbl)
    (conv : Rc6Command → K) (l : Nat) (hl : rc6Data fs = some l) (ps : List (Press Rc6Command))
    (s : Sender) (hidle : s.buffer.status = .idle) (k : Nat) (hlen : s.buffer.ptb.buf.length = 44 + k)
    (hz : s.buffer.ptb.buf.drop 44 = List.replicate k 0)
    (hold : ∀ d ∈ s.buffer.ptb.buf.drop 2, d ≤ 3 * l) (hu32 : ∀ d ∈ s.buffer.ptb.buf, d < 2 ^ 32)
    (hmore : ∀ p ∈ ps, p.Within (51 * l))
    (hticks : ∀ p ∈ ps, 106 * fs + 1000 * k ≤ 1000 * p.ticks ∧ p.ticks * f / fs + 1 < 2 ^ 32) :
    ∃ s' levels, s.calls (session (rc6Encode l) (ps.flatMap Press.loads)) = some (s', levels) ∧
      s'.buffer.status = .idle ∧ ∀ pause phase n, phase < fs →
      reading fs f phase pause + 1 < 2 ^ 32 →
      reading fs f phase (pause + sessionTicks (ps.flatMap Press.loads)) < n →
      (pollRun (rc6Decoder t tbl) conv (overhear fs f phase pause levels n)).map said =
        some (oks (ps.map fun p => conv p.cmd)) := by
  obtain ⟨s', levels, g1, g2, g3⟩ := C58_rc6_session t hus fs hfs f hlo hle hf tbl htbl conv l hl
    (ps.map fun p => (p.cmd, p.ticks)) s hidle k hlen hz hold
    (fun x hx => by obtain ⟨p, hp, rfl⟩ := List.mem_map.mp hx; exact hticks p hp)
  rw [rc6_presses_same fs hfs l hl ps s hidle k hlen hz hold hu32 hmore fun p hp => (hticks p hp).1, presses_ticks]
  refine ⟨s', levels, g1, g2, fun pause phase n hp hr hn => ?_⟩
  rw [g3 pause phase n hp hr hn, List.map_map]
  rfl

/-! ### What is heard -/

theorem keptFrom_mem (wave : A → List Nat) (l : List (A × Nat)) : ∀ (b : List Nat) (c : A) (d : Nat),
    ∀ y ∈ keptFrom wave b c d l, y.1 = c ∨ ∃ x ∈ l, y.1 = x.1 := by
  induction l with
  | nil => intro b c d y hy; simp only [keptFrom, List.mem_singleton] at hy; exact .inl (by rw [hy])
  | cons x l ih =>
    intro b c d y hy
    have step : ∀ b' c' d', y ∈ keptFrom wave b' c' d' l → c' = c ∨ c' = x.1 → y.1 = c ∨ ∃ z ∈ x :: l, y.1 = z.1 := by
      intro b' c' d' h hc
      rcases ih b' c' d' y h with h | ⟨z, hz, h⟩
      · rcases hc with rfl | rfl
        · exact .inl h
        · exact .inr ⟨x, by simp, h⟩
      · exact .inr ⟨z, by simp [hz], h⟩
    rw [keptFrom] at hy
    split at hy
    · exact step _ _ _ hy (.inl rfl)
    · rcases List.mem_cons.mp hy with rfl | hy
      · exact .inl rfl
      · exact step _ _ _ hy (.inr rfl)

theorem kept_mem (wave : A → List Nat) (b : List Nat) (l : List (A × Nat)) : ∀ y ∈ kept wave b l, ∃ x ∈ l, y.1 = x.1 := by
  intro y hy
  cases l with
  | nil => cases hy
  | cons x l =>
    rcases keptFrom_mem wave l _ x.1 x.2 y hy with h | ⟨z, hz, h⟩
    · exact ⟨x, by simp, h⟩
    · exact ⟨z, by simp [hz], h⟩

theorem kept_ticks (wave : A → List Nat) (b : List Nat) (l : List (A × Nat)) : sessionTicks (kept wave b l) = sessionTicks l := by
  have h : ∀ (l : List (A × Nat)) (b : List Nat) (c : A) (d : Nat), sessionTicks (keptFrom wave b c d l) = d + sessionTicks l := by
    intro l
    induction l with
    | nil => intro b c d; simp [keptFrom, sessionTicks]
    | cons x l ih =>
      intro b c d
      rw [keptFrom]
      simp only [sessionTicks, List.map_cons, List.sum_cons] at ih ⊢
      split
      · rw [ih]; omega
      · rw [List.map_cons, List.sum_cons, ih]
  cases l with
  | nil => rfl
  | cons x l => rw [kept, h]; simp [sessionTicks]

/-- C111, what is heard of RC5 commands: if those that are taken are 114 ms or more apart, a receiver reports exactly these,
whatever else the sender was given in between. -/
theorem C111_rc5_heard (t : Target) (hus : 16 ≤ t.usizeBits) (fs : Nat)
    (hfs : 42000 ≤ fs ∨ (20000 ≤ fs ∧ fs % 1000 = 0)) (f : Nat) (hlo : 40000 ≤ f) (hle : fs ≤ f)
    (hf : f < 2 ^ 32) (tbl : PulseSpans) (htbl : rc5Spans t Mono.u32 f = some tbl)
    (conv : Rc5Command → K) (l : Nat) (hl : rc5CalcFreq fs = some l) (cmds : List (Rc5Command × Nat))
    (hcmds : ∀ x ∈ cmds, x.1.addr.toNat < 32 ∧ x.1.cmd.toNat < 64 ∧ x.1.start.toNat < 4)
    (s : Sender) (hidle : s.buffer.status = .idle) (k : Nat) (hlen : s.buffer.ptb.buf.length = 27 + k)
    (hz : s.buffer.ptb.buf.drop 27 = List.replicate k 0) (hold : ∀ d ∈ s.buffer.ptb.buf, d ≤ 2 * l)
    (took : List (Rc5Command × Nat)) (htook : kept (fun c => rc5Wave l (rc5Word c.pack)) s.buffer.ptb.buf cmds = took)
    (hticks : ∀ x ∈ took, 114 * fs + 1000 * k ≤ 1000 * x.2 ∧ x.2 * f / fs + 1 < 2 ^ 32) :
    ∃ s' levels, s.calls (session (rc5Encode t l) cmds) = some (s', levels) ∧
      s'.buffer.status = .idle ∧ ∀ pause phase n, phase < fs →
      reading fs f phase pause + 1 < 2 ^ 32 →
      reading fs f phase (pause + sessionTicks cmds) < n →
      (pollRun (rc5Decoder t tbl) conv (overhear fs f phase pause levels n)).map said =
        some (oks (took.map fun x => conv { x.1 with start := x.1.start ||| 2 })) := by
  subst htook
  obtain ⟨l', hl', -, henc⟩ := C38_rc5_encode t fs (by omega)
  rw [hl, Option.some.injEq] at hl'
  subst hl'
  have e := (rc5CalcFreq_eq (by omega) hl).2 (by omega)
  have hl2 := (rc5CalcFreq_eq (by omega) hl).1
  have hl0 : 0 < l := by rw [e]; omega
  rw [C111_any (rc5Encode t l) (fun c => rc5Wave l (rc5Word c.pack)) s hidle (fun d hd => by have := hold d hd; omega) cmds
    (fun x _ => ⟨(henc x.1).1, by have := (henc x.1).2; omega, fun d hd => by
      have h13 : (rc5Word x.1.pack).getLsbD 13 = true := by rw [rc5Word_bits _ _ (by decide)]; simp
      rw [rc5Wave_cons _ _ h13] at hd
      rcases List.mem_cons.mp hd with rfl | hd
      · decide
      · have := (rc5_wave_tail hl0 h13 d hd).2; omega⟩),
    ← kept_ticks (fun c : Rc5Command => rc5Wave l (rc5Word c.pack)) s.buffer.ptb.buf cmds]
  refine C58_rc5_session t hus fs hfs f hlo hle hf tbl htbl conv l hl _ (fun x hx => ?_) s hidle k hlen hz hold hticks
  obtain ⟨y, hy, e⟩ := kept_mem _ _ _ x hx
  rw [e]
  exact hcmds y hy

/-- C111, what is heard of RC6 commands: the same with 106 ms. -/
theorem C111_rc6_heard (t : Target) (hus : 16 ≤ t.usizeBits) (fs : Nat) (hfs : 46000 ≤ fs)
    (f : Nat) (hlo : 80000 ≤ f) (hle : fs ≤ f)
    (hf : f < 2 ^ 32) (tbl : PulseSpans) (htbl : rc6Spans t Mono.u32 f = some tbl)
    (conv : Rc6Command → K) (l : Nat) (hl : rc6Data fs = some l) (cmds : List (Rc6Command × Nat))
    (s : Sender) (hidle : s.buffer.status = .idle) (k : Nat) (hlen : s.buffer.ptb.buf.length = 44 + k)
    (hz : s.buffer.ptb.buf.drop 44 = List.replicate k 0)
    (hold : ∀ d ∈ s.buffer.ptb.buf.drop 2, d ≤ 3 * l) (hu32 : ∀ d ∈ s.buffer.ptb.buf, d < 2 ^ 32)
    (took : List (Rc6Command × Nat))
    (htook : kept (fun c => rc6Wave l (c.addr ++ c.cmd) c.toggle) s.buffer.ptb.buf cmds = took)
    (hticks : ∀ x ∈ took, 106 * fs + 1000 * k ≤ 1000 * x.2 ∧ x.2 * f / fs + 1 < 2 ^ 32) :
    ∃ s' levels, s.calls (session (rc6Encode l) cmds) = some (s', levels) ∧
      s'.buffer.status = .idle ∧ ∀ pause phase n, phase < fs →
      reading fs f phase pause + 1 < 2 ^ 32 →
      reading fs f phase (pause + sessionTicks cmds) < n →
      (pollRun (rc6Decoder t tbl) conv (overhear fs f phase pause levels n)).map said =
        some (oks (took.map fun x => conv x.1)) := by
  subst htook
  have hhi : 444 * fs < 2 ^ 32 := by
    unfold rc6Data at hl
    split at hl
    · assumption
    · cases hl
  have hL : 444 * fs / 1000000 = l := by
    rw [rc6Data, if_pos hhi, Option.some.injEq] at hl
    exact hl
  have henc := fun c : Rc6Command => C38_rc6_encode fs _ hl c
  rw [C111_any (rc6Encode l) (fun c => rc6Wave l (c.addr ++ c.cmd) c.toggle) s hidle hu32 cmds
    (fun x _ => ⟨(henc x.1).2.1, by have := (henc x.1).2.2; omega, fun d hd => by
      have hpos := rc6_wave_pos fs (by omega) (by omega) x.1
      rw [hL] at hpos
      rw [rc6Wave_cons] at hd
      rcases List.mem_cons.mp hd with rfl | hd
      · decide
      · exact (hpos d hd).2⟩),
    ← kept_ticks (fun c : Rc6Command => rc6Wave l (c.addr ++ c.cmd) c.toggle) s.buffer.ptb.buf cmds]
  exact C58_rc6_session t hus fs hfs f hlo hle hf tbl htbl conv l hl _ s hidle k hlen hz hold hticks

/-- C111, passing on (C104) as RC5: whatever a program hears and at whatever distances, a receiver of its output reports
exactly the commands that its sender takes, if these are 114 ms or more apart. -/
theorem C111_rc5_relay (D : Decoder C') (convert : C' → Rc5Command) (t : Target) (hus : 16 ≤ t.usizeBits) (fs : Nat)
    (hfs : 42000 ≤ fs ∨ (20000 ≤ fs ∧ fs % 1000 = 0)) (f : Nat) (hlo : 40000 ≤ f) (hle : fs ≤ f)
    (hf : f < 2 ^ 32) (tbl : PulseSpans) (htbl : rc5Spans t Mono.u32 f = some tbl)
    (conv : Rc5Command → K) (l : Nat) (hl : rc5CalcFreq fs = some l)
    (s : Sender) (hs : Silent s) (k : Nat) (hlen : s.buffer.ptb.buf.length = 27 + k)
    (hz : s.buffer.ptb.buf.drop 27 = List.replicate k 0) (hold : ∀ d ∈ s.buffer.ptb.buf, d ≤ 2 * l)
    (samples : List Bool) (outs : List (Res Rc5Command)) (hpoll : pollRun D convert samples = some outs)
    (hcmds : ∀ x ∈ spaced outs, x.1.addr.toNat < 32 ∧ x.1.cmd.toNat < 64 ∧ x.1.start.toNat < 4)
    (took : List (Rc5Command × Nat))
    (htook : kept (fun c => rc5Wave l (rc5Word c.pack)) s.buffer.ptb.buf (spaced outs) = took)
    (hticks : ∀ x ∈ took, 114 * fs + 1000 * k ≤ 1000 * x.2 ∧ x.2 * f / fs + 1 < 2 ^ 32) :
    ∃ levels, relayRun D convert (rc5Encode t l) s samples = some levels ∧
      ∀ pause phase n, phase < fs → reading fs f phase (pause + quietPolls outs) + 1 < 2 ^ 32 →
      reading fs f phase (pause + samples.length) < n →
      (pollRun (rc5Decoder t tbl) conv (overhear fs f phase pause levels n)).map said =
        some (oks (took.map fun x => conv { x.1 with start := x.1.start ||| 2 })) := by
  obtain ⟨s', levels, h1, -, h2⟩ := relay_session D convert (rc5Encode t l) s hs samples outs hpoll _
    fun s1 h1 => C111_rc5_heard t hus fs hfs f hlo hle hf tbl htbl conv l hl (spaced outs) hcmds s1
      (by rw [h1]; exact hs.1) k (by rw [h1]; exact hlen) (by rw [h1]; exact hz) (by rw [h1]; exact hold) took
      (by rw [h1]; exact htook) hticks
  refine ⟨_, h1, fun pause phase n hp hg hn => ?_⟩
  rw [overhear_silent]
  refine h2 (pause + quietPolls outs) phase n hp hg ?_
  rw [Nat.add_assoc, spaced_total, polled_length D convert samples outs hpoll]
  exact hn

/-- C111, passing on as RC6: the same with 106 ms. -/
theorem C111_rc6_relay (D : Decoder C') (convert : C' → Rc6Command) (t : Target) (hus : 16 ≤ t.usizeBits) (fs : Nat)
    (hfs : 46000 ≤ fs) (f : Nat) (hlo : 80000 ≤ f) (hle : fs ≤ f)
    (hf : f < 2 ^ 32) (tbl : PulseSpans) (htbl : rc6Spans t Mono.u32 f = some tbl)
    (conv : Rc6Command → K) (l : Nat) (hl : rc6Data fs = some l)
    (s : Sender) (hs : Silent s) (k : Nat) (hlen : s.buffer.ptb.buf.length = 44 + k)
    (hz : s.buffer.ptb.buf.drop 44 = List.replicate k 0)
    (hold : ∀ d ∈ s.buffer.ptb.buf.drop 2, d ≤ 3 * l) (hu32 : ∀ d ∈ s.buffer.ptb.buf, d < 2 ^ 32)
    (samples : List Bool) (outs : List (Res Rc6Command)) (hpoll : pollRun D convert samples = some outs)
    (took : List (Rc6Command × Nat))
    (htook : kept (fun c => rc6Wave l (c.addr ++ c.cmd) c.toggle) s.buffer.ptb.buf (spaced outs) = took)
    (hticks : ∀ x ∈ took, 106 * fs + 1000 * k ≤ 1000 * x.2 ∧ x.2 * f / fs + 1 < 2 ^ 32) :
    ∃ levels, relayRun D convert (rc6Encode l) s samples = some levels ∧
      ∀ pause phase n, phase < fs → reading fs f phase (pause + quietPolls outs) + 1 < 2 ^ 32 →
      reading fs f phase (pause + samples.length) < n →
      (pollRun (rc6Decoder t tbl) conv (overhear fs f phase pause levels n)).map said =
        some (oks (took.map fun x => conv x.1)) := by
  obtain ⟨s', levels, h1, -, h2⟩ := relay_session D convert (rc6Encode l) s hs samples outs hpoll _
    fun s1 h1 => C111_rc6_heard t hus fs hfs f hlo hle hf tbl htbl conv l hl (spaced outs) s1
      (by rw [h1]; exact hs.1) k (by rw [h1]; exact hlen) (by rw [h1]; exact hz) (by rw [h1]; exact hold)
      (by rw [h1]; exact hu32) took (by rw [h1]; exact htook) hticks
  refine ⟨_, h1, fun pause phase n hp hg hn => ?_⟩
  rw [overhear_silent]
  refine h2 (pause + quietPolls outs) phase n hp hg ?_
  rw [Nat.add_assoc, spaced_total, polled_length D convert samples outs hpoll]
  exact hn

/-! ### The hypotheses can be met -/

theorem within_two (c a b : A) (x y z n : Nat) (hx : 0 < x) (h : x + y ≤ n) : (Press.mk c x [(a, y), (b, z)]).Within n := by
  refine ⟨hx, fun i hi => ?_⟩
  rcases i with _ | _ | i
  · simp [sessionTicks]; omega
  · simpa [sessionTicks] using h
  · simp at hi; omega

/-- A command of four slots that takes 10 ticks with the end of its last mark; then one of two slots, which keeps the sender
busy for 12 because of the two slots that the first one left. -/
example : kept id [0, 0, 0, 0]
    [([0, 3, 2, 4], 2), ([0, 1], 8), ([0, 9], 1), ([0, 5], 12), ([0, 1], 1), ([0, 2], 20)] =
    [([0, 3, 2, 4], 11), ([0, 5], 13), ([0, 2], 20)] := by decide

/-- A command that begins with a pause of 5 ticks can be replaced until then, and its last slot is still sent. -/
example : kept id [0, 0, 0] [([5, 3, 9], 5), ([0, 1], 11), ([0, 2], 30)] = [([5, 3, 9], 5), ([0, 1], 41)] := by decide

/-- RC5 at 40 kHz in a buffer with one spare slot: of four commands the second comes after 20 ms and is lost; the third comes
24 ms after the first, when its frame is over and the one long slot that another program left behind it is being sent, and is
lost as well. -/
theorem kept_rc5_example : kept (fun c => rc5Wave 35 (rc5Word c.pack)) (List.replicate 26 0 ++ [70, 0])
    [((⟨5, 10, 3, false⟩ : Rc5Command), 800), (⟨6, 11, 3, false⟩, 170), (⟨6, 12, 3, false⟩, 4000), (⟨7, 13, 3, true⟩, 4700)] =
    [(⟨5, 10, 3, false⟩, 4970), (⟨7, 13, 3, true⟩, 4700)] := by decide +kernel

example (t : Target) (hus : 16 ≤ t.usizeBits) (s : Sender) (hidle : s.buffer.status = .idle)
    (hbuf : s.buffer.ptb.buf = List.replicate 26 0 ++ [70, 0]) :
    ∃ s' levels, rc5CalcFreq 40000 = some 35 ∧
      s.calls (session (rc5Encode t 35) [((⟨5, 10, 3, false⟩ : Rc5Command), 800), (⟨6, 11, 3, false⟩, 170),
        (⟨6, 12, 3, false⟩, 4000), (⟨7, 13, 3, true⟩, 4700)]) = some (s', levels) ∧
      (pollRun (rc5Decoder t (rc5Table 40000)) id (overhear 40000 40000 0 1 levels 10000)).map said =
        some (oks [⟨5, 10, 3, false⟩, ⟨7, 13, 3, true⟩]) := by
  have hl : rc5CalcFreq 40000 = some 35 := by decide +kernel
  obtain ⟨s', levels, h1, -, h2⟩ := C111_rc5_heard t hus 40000 (.inr (by decide)) 40000 (by decide) (by decide)
    (by decide) _ (rc5Spans_eq (.inl rfl) t (by omega)) id 35 hl
    [((⟨5, 10, 3, false⟩ : Rc5Command), 800), (⟨6, 11, 3, false⟩, 170), (⟨6, 12, 3, false⟩, 4000), (⟨7, 13, 3, true⟩, 4700)]
    (by decide) s hidle 1 (by simp [hbuf]) (by simp [hbuf]) (by rw [hbuf]; decide +kernel)
    [(⟨5, 10, 3, false⟩, 4970), (⟨7, 13, 3, true⟩, 4700)] (by rw [hbuf]; exact kept_rc5_example) (by decide +kernel)
  exact ⟨s', levels, hl, h1, h2 1 0 10000 (by decide) (by decide) (by decide)⟩

/-- A decoder that reports the same command at every rising edge. -/
def edgeDecoder : Decoder Rc5Command where
  St := Unit
  init := ()
  event := fun _ rising _ => some ((), if rising then .done else .idle)
  command := fun _ => some ⟨5, 10, 3, false⟩
  reset := fun _ => ()

def edgeSamples : List Bool :=
  List.replicate 10 false ++ List.replicate 100 true ++ List.replicate 200 false ++ List.replicate 2100 true

set_option maxRecDepth 100000 in
theorem edge_spaced : (pollRun edgeDecoder id edgeSamples).map spaced =
    some [(⟨5, 10, 3, false⟩, 300), (⟨5, 10, 3, false⟩, 2100)] := by
  decide +kernel

/-- A program at 20 kHz is given two commands within 15 ms and passes on the first. -/
example (t : Target) (hus : 16 ≤ t.usizeBits) :
    ∃ levels, relayRun edgeDecoder id (rc5Encode t 17) (Nat.repeat Sender.tick 130 (Sender.new 128 false)) edgeSamples =
        some levels ∧
      (pollRun (rc5Decoder t (rc5Table 40000)) id (overhear 20000 40000 0 1 levels 5000)).map said =
        some (oks [⟨5, 10, 3, false⟩]) := by
  have hl : rc5CalcFreq 20000 = some 17 := by decide +kernel
  obtain ⟨outs, h1, h2⟩ := Option.map_eq_some_iff.mp edge_spaced
  obtain ⟨levels, h3, h4⟩ := C111_rc5_relay edgeDecoder id t hus 20000 (.inr (by decide)) 40000 (by decide) (by decide)
    (by decide) _ (rc5Spans_eq (.inl rfl) t (by omega)) id 17 hl (Nat.repeat Sender.tick 130 (Sender.new 128 false))
    silent_example.1 101 (by rw [silent_example.2, List.length_replicate]) (by rw [silent_example.2, List.drop_replicate])
    (fun d hd => by
      rw [silent_example.2] at hd
      rw [List.eq_of_mem_replicate hd]
      decide) edgeSamples outs h1 (by rw [h2]; decide) [(⟨5, 10, 3, false⟩, 2400)]
    (by rw [h2, silent_example.2]; decide +kernel) (by decide +kernel)
  have h5 : quietPolls outs ≤ 2410 := by
    have := spaced_total outs
    rw [polled_length _ _ _ _ h1] at this
    have h6 : edgeSamples.length = 2410 := by simp only [edgeSamples, List.length_append, List.length_replicate]
    omega
  exact ⟨levels, h3, h4 1 0 5000 (by decide) (by unfold reading; omega) (by
    simp only [edgeSamples, List.length_append, List.length_replicate, reading]
    decide)⟩

/-- RC6 at 46 kHz: the second of three commands is lost. -/
example : kept (fun c => rc6Wave 20 (c.addr ++ c.cmd) c.toggle) (List.replicate 64 0)
    [((⟨5, 10, false⟩ : Rc6Command), 1000), (⟨6, 11, false⟩, 4000), (⟨7, 13, true⟩, 5000)] =
    [(⟨5, 10, false⟩, 5000), (⟨7, 13, true⟩, 5000)] := by decide +kernel

/-- NEC at 20 kHz, where a frame takes 1326 ticks: other commands after 1 and after 1326 ticks are lost. -/
example (t : Target) (a b c d : NecCommand) :
    ∃ data s' levels, necData Infrared.nec.pulseDistance 20000 = some data ∧
      (Sender.new 128 false).calls (session (necEncode Infrared.nec data) [(a, 1), (b, 1325), (c, 1000), (d, 2300)]) =
        some (s', levels) ∧
      (pollRun (necDecoder t Mono.u32 (necTable 20000) Infrared.nec) id (overhear 20000 20000 0 400 levels 6000)).map said =
        some (oks [{ a with rep := false }, { d with rep := false }]) := by
  have hdata : necData Infrared.nec.pulseDistance 20000 = some ⟨180, 90, 45, 11, 11, 33⟩ := by decide +kernel
  obtain ⟨s', levels, h1, -, h2⟩ := C111_nec_presses t 20000 (.inr (by decide)) 20000 (by decide) (by decide)
    Infrared.nec (.inl rfl) _ hdata (necTable 20000) (necSpans_standard (.inl rfl) t (by omega) _ rfl) id
    [⟨a, 1, [(b, 1325), (c, 1000)]⟩, ⟨d, 2300, []⟩]
    (fun c => { c with rep := false }) (fun _ _ _ _ => rfl)
    (fun x _ => ⟨x.cmd.pack, rfl, (C01_nec_roundtrip { x.cmd with rep := false }).2⟩)
    (Sender.new 128 false) rfl 61 rfl rfl (fun d hd => by
      rw [List.eq_of_mem_replicate (show d ∈ List.replicate 128 0 from hd)]; decide) (by
      intro p hp
      have h : ∀ c : NecCommand, ones ((Infrared.nec.pack c).getD 0) = 16 := fun c =>
        (C100_ones c ⟨0, 0, false⟩ ⟨0, 0, false⟩).1
      rw [h]
      simp only [List.mem_cons, List.not_mem_nil, or_false] at hp
      rcases hp with rfl | rfl
      · exact within_two _ _ _ _ _ _ _ (by decide) (by decide)
      · exact ⟨by show 0 < 2300; decide, fun i hi => absurd hi (Nat.not_lt_zero i)⟩) (by
      simp [Press.ticks, sessionTicks])
  exact ⟨_, s', levels, hdata, h1, h2 400 0 6000 (by decide)
    (pause_long (.inl rfl) (by decide) (by decide) (by decide)
      (necSpans_standard (.inl rfl) t (by omega) Infrared.nec rfl) (by decide) (by decide))
    (by simp [sessionTicks, reading, Press.loads])⟩

/-- RC5 at 40 kHz, where 26 half-bits are 910 ticks: any number of key presses, each of which gives three commands. -/
example (t : Target) (hus : 16 ≤ t.usizeBits) (cmds : List Rc5Command)
    (hcmds : ∀ c ∈ cmds, c.addr.toNat < 32 ∧ c.cmd.toNat < 64 ∧ c.start.toNat < 4) (bounce : Rc5Command) :
    ∃ s' levels, rc5CalcFreq 40000 = some 35 ∧
      (Sender.new 128 false).calls (session (rc5Encode t 35)
        (cmds.flatMap fun c => [(c, 200), (bounce, 700), (c, 7100)])) = some (s', levels) ∧
      (pollRun (rc5Decoder t (rc5Table 40000)) id
          (overhear 40000 40000 0 1 levels (3 + 8000 * cmds.length))).map said =
        some (oks (cmds.map fun c => { c with start := c.start ||| 2 })) := by
  have hl : rc5CalcFreq 40000 = some 35 := by decide +kernel
  obtain ⟨s', levels, h1, -, h2⟩ := C111_rc5_presses t hus 40000 (.inr (by decide)) 40000 (by decide) (by decide)
    (by decide) _ (rc5Spans_eq (.inl rfl) t (by omega)) id 35 hl
    (cmds.map fun c => ⟨c, 200, [(bounce, 700), (c, 7100)]⟩) (by
      intro p hp
      obtain ⟨c, hc, rfl⟩ := List.mem_map.mp hp
      exact hcmds c hc) (Sender.new 128 false) rfl 101 rfl rfl (fun d hd => by
      rw [List.eq_of_mem_replicate (show d ∈ List.replicate 128 0 from hd)]; decide) (by
      intro p hp
      obtain ⟨c, hc, rfl⟩ := List.mem_map.mp hp
      exact within_two _ _ _ _ _ _ _ (by decide) (by decide)) (by
      intro p hp
      obtain ⟨c, hc, rfl⟩ := List.mem_map.mp hp
      simp [Press.ticks, sessionTicks])
  have hp : (cmds.map fun c => (⟨c, 200, [(bounce, 700), (c, 7100)]⟩ : Press Rc5Command)).flatMap Press.loads =
      cmds.flatMap fun c => [(c, 200), (bounce, 700), (c, 7100)] := List.flatMap_map ..
  rw [hp] at h1 h2
  have hst : sessionTicks (cmds.flatMap fun c => [(c, 200), (bounce, 700), (c, 7100)]) = 8000 * cmds.length := by
    clear h1 h2 hp hcmds
    induction cmds with
    | nil => rfl
    | cons c cmds ih =>
      simp only [sessionTicks, List.flatMap_cons, List.map_append, List.sum_append, List.length_cons] at ih ⊢
      rw [ih]
      simp only [List.map_cons, List.map_nil, List.sum_cons, List.sum_nil]
      omega
  refine ⟨s', levels, hl, h1, ?_⟩
  rw [h2 1 0 (3 + 8000 * cmds.length) (by decide) (by decide) (by rw [hst]; unfold reading; omega), List.map_map]
  rfl

/-- RC6 at 46 kHz, where 51 units are 1020 ticks. -/
example (t : Target) (hus : 16 ≤ t.usizeBits) (a b c d : Rc6Command) :
    ∃ s' levels, rc6Data 46000 = some 20 ∧
      (Sender.new 64 false).calls (session (rc6Encode 20) [(a, 1), (b, 1019), (c, 4000), (d, 5000)]) = some (s', levels) ∧
      (pollRun (rc6Decoder t (rc6Table 92000)) id (overhear 46000 92000 7 100 levels 20300)).map said =
        some (oks [a, d]) := by
  have hl : rc6Data 46000 = some 20 := by decide +kernel
  have hz : ∀ d ∈ (Sender.new 64 false).buffer.ptb.buf, d = 0 := fun d hd =>
    List.eq_of_mem_replicate (show d ∈ List.replicate 64 0 from hd)
  obtain ⟨s', levels, h1, -, h2⟩ := C111_rc6_presses t hus 46000 (by decide) 92000 (by decide) (by decide)
    (by decide) _ (rc6Spans_eq (.inl rfl) t (by decide)) id 20 hl [⟨a, 1, [(b, 1019), (c, 4000)]⟩, ⟨d, 5000, []⟩]
    (Sender.new 64 false) rfl 20 rfl rfl (fun d hd => by rw [hz d (List.mem_of_mem_drop hd)]; decide)
    (fun d hd => by rw [hz d hd]; decide) (by
      intro p hp
      simp only [List.mem_cons, List.not_mem_nil, or_false] at hp
      rcases hp with rfl | rfl
      · exact within_two _ _ _ _ _ _ _ (by decide) (by decide)
      · exact ⟨by show 0 < 5000; decide, fun i hi => absurd hi (Nat.not_lt_zero i)⟩) (by
      simp [Press.ticks, sessionTicks])
  exact ⟨s', levels, hl, h1, h2 100 7 20300 (by decide) (by decide) (by
    simp [sessionTicks, reading, Press.loads])⟩

end Infrared
