import Verif.Props.Buttons
import Verif.Spec.Examples

/-!
# The sender program for the Blue Pill (C68)
-/

namespace Infrared

open Spec

theorem senderApp_quiet (t : Target) (n c : Nat) (s : Sender) (h : c + n < 40000) :
    SenderApp.run t n ⟨c, s⟩ = some (⟨c + n, s.ticks n⟩, s.pins n) := by
  induction n generalizing c s with
  | zero => rfl
  | succ n ih =>
    have h1 : wrappingAdd 32 c 1 = c + 1 := Nat.mod_eq_of_lt (by omega)
    have h2 : SenderApp.tim2 t ⟨c, s⟩ = some ⟨c + 1, s.tick⟩ := by
      unfold SenderApp.tim2
      simp only [h1]
      rw [if_neg (by omega)]
    rw [SenderApp.run, h2]
    dsimp only
    rw [ih (c + 1) s.tick (by omega)]
    dsimp only
    rw [show c + 1 + n = c + (n + 1) by omega]
    rfl

theorem senderApp_append (t : Target) (m n : Nat) (a a' : SenderApp) (l : List Bool)
    (h : SenderApp.run t m a = some (a', l)) :
    SenderApp.run t (m + n) a = (SenderApp.run t n a').map fun p => (p.1, l ++ p.2) := by
  induction m generalizing a a' l with
  | zero =>
    rw [SenderApp.run, Option.some.injEq, Prod.mk.injEq] at h
    obtain ⟨rfl, rfl⟩ := h
    rw [Nat.zero_add]
    rcases SenderApp.run t n a with _ | p <;> rfl
  | succ m ih =>
    rw [SenderApp.run] at h
    rw [show m + 1 + n = m + n + 1 by omega, SenderApp.run]
    rcases ha : a.tim2 t with _ | a1
    · rw [ha] at h; cases h
    rw [ha] at h
    dsimp only at h ⊢
    rcases hr : SenderApp.run t m a1 with _ | ⟨a2, l2⟩
    · rw [hr] at h; cases h
    rw [hr] at h
    dsimp only at h
    rw [Option.some.injEq, Prod.mk.injEq] at h
    obtain ⟨rfl, rfl⟩ := h
    rw [ih _ _ _ hr]
    rcases SenderApp.run t n a2 with _ | p <;> rfl

theorem ticks_succ' (s : Sender) (n : Nat) : s.ticks (n + 1) = (s.ticks n).tick := by
  induction n generalizing s with
  | zero => rfl
  | succ n ih => rw [Sender.ticks, ih]; rfl

theorem pins_succ' (s : Sender) (n : Nat) : s.pins (n + 1) = s.pins n ++ [(s.ticks (n + 1)).pinEnabled] := by
  induction n generalizing s with
  | zero => rfl
  | succ n ih => rw [Sender.pins, ih]; rfl

/-- Two seconds of the program. -/
theorem senderApp_period' (t : Target) (s s' : Sender) (k : Nat) (hk : k + 1 = 40000)
    (hl : (s.ticks (k + 1)).load (rc5Encode t 17 (Rc5Command.new 20 32 false)) = some s')
    (hp : s'.pinEnabled = (s.ticks (k + 1)).pinEnabled) :
    SenderApp.run t (k + 1) ⟨0, s⟩ = some (⟨0, s'⟩, s.pins (k + 1)) := by
  rw [senderApp_append t k 1 _ _ _ (senderApp_quiet t k 0 s (by omega))]
  have h2 : SenderApp.tim2 t ⟨0 + k, s.ticks k⟩ = some ⟨0, s'⟩ := by
    unfold SenderApp.tim2
    have h3 : wrappingAdd 32 (0 + k) 1 = 20000 * 2 := by unfold wrappingAdd; omega
    simp only [h3]
    rw [if_pos trivial, ← ticks_succ', show cdPlayer.encode .next = some (Rc5Command.new 20 32 false) from rfl,
      show rc5CalcFreq 20000 = some 17 by decide]
    simp only [Option.bind_eq_bind, Option.bind_some]
    rw [hl]
    rfl
  rw [SenderApp.run, h2]
  simp only [SenderApp.run, Option.map_some, hp]
  rw [pins_succ' s k]

theorem senderApp_period (t : Target) (s s' : Sender) (n : Nat) (hn : n = 40000)
    (hl : (s.ticks n).load (rc5Encode t 17 (Rc5Command.new 20 32 false)) = some s')
    (hp : s'.pinEnabled = (s.ticks n).pinEnabled) :
    SenderApp.run t n ⟨0, s⟩ = some (⟨0, s'⟩, s.pins n) := by
  obtain ⟨k, rfl⟩ : ∃ k, n = k + 1 := ⟨n - 1, by omega⟩
  exact senderApp_period' t s s' k hn hl hp

/-- The encoder's result for either content of the buffer. -/
theorem next_encoded (t : Target) (b : List Nat) (hb : b.length = 128) (hz : b.drop 20 = List.replicate 108 0) :
    rc5Encode t 17 (Rc5Command.new 20 32 false) b = some (nextOnCd, 20) := by
  obtain ⟨len, h1, -, h2⟩ := C38_rc5_encode t 20000 (by decide)
  rw [show rc5CalcFreq 20000 = some 17 by decide, Option.some.injEq] at h1
  subst h1
  have h3 := (h2 (Rc5Command.new 20 32 false)).1 b
  have h4 : rc5Wave 17 (rc5Word (Rc5Command.new 20 32 false).pack) = rc5Wave 17 0b11010100100000#14 := by
    decide +kernel
  have h5 : (rc5Wave 17 0b11010100100000#14).length = 20 := by decide +kernel
  rw [h3, h4, h5, if_pos (by omega), hz]
  rfl

theorem nextOnCd_bounds : (∀ d ∈ nextOnCd, d < 2 ^ 32) ∧ nextOnCd.length = 128 ∧
    nextOnCd.drop 20 = List.replicate 108 0 ∧ (transmission nextOnCd).length < 40000 ∧
    (transmission (List.replicate 128 0)).length < 40000 := by
  decide +kernel

/-- After the command is loaded. -/
structure JustLoaded (s : Sender) : Prop where
  idle : s.buffer.status = .idle
  buf : s.buffer.ptb.buf = nextOnCd
  sending : Sending s false 0 nextOnCd

theorem transmission_remaining (b : List Nat) : remaining false 0 b = transmission b := by cases b <;> rfl

theorem load_next (t : Target) (s : Sender) (hidle : s.buffer.status = .idle)
    (hb : s.buffer.ptb.buf.length = 128) (hz : s.buffer.ptb.buf.drop 20 = List.replicate 108 0) :
    ∃ s', s.load (rc5Encode t 17 (Rc5Command.new 20 32 false)) = some s' ∧ s'.pinEnabled = s.pinEnabled ∧
      JustLoaded s' := by
  obtain ⟨s', h1, h2, h3, h4, h5⟩ := load_idle hidle (next_encoded t _ hb hz) nextOnCd_bounds.1
  exact ⟨s', h1, h3, h4, h2, h5⟩

theorem justLoaded_period (t : Target) (s : Sender) (h : JustLoaded s) :
    ∃ s', SenderApp.run t 40000 ⟨0, s⟩ = some (⟨0, s'⟩, twoSeconds nextOnCd) ∧ JustLoaded s' ∧
      (s.ticks 40000).load (rc5Encode t 17 (Rc5Command.new 20 32 false)) = some s' := by
  obtain ⟨b1, b2, b3, b4, -⟩ := nextOnCd_bounds
  have hid : (s.ticks 40000).buffer.status = .idle := by
    rw [status_start h.sending h.idle, transmission_remaining]
    exact .inr b4
  obtain ⟨s', h1, h2, h3⟩ := load_next t (s.ticks 40000) hid (by rw [ticks_buf, h.buf]; exact b2)
    (by rw [ticks_buf, h.buf]; exact b3)
  refine ⟨s', ?_, h3, h1⟩
  rw [senderApp_period t s s' _ rfl h1 h2, pins_sending h.sending, transmission_remaining]
  rfl

theorem first_period (t : Target) :
    ∃ s', SenderApp.run t 40000 SenderApp.init = some (⟨0, s'⟩, twoSeconds (List.replicate 128 0)) ∧
      JustLoaded s' := by
  have hs := new_sending 128 false
  have hid : ((Sender.new 128 false).ticks 40000).buffer.status = .idle := by
    rw [status_start hs rfl, transmission_remaining]
    exact .inr nextOnCd_bounds.2.2.2.2
  obtain ⟨s', h1, h2, h3⟩ := load_next t ((Sender.new 128 false).ticks 40000) hid
    (by rw [ticks_buf]; rfl) (by rw [ticks_buf]; rfl)
  refine ⟨s', ?_, h3⟩
  rw [SenderApp.init, senderApp_period t _ s' _ rfl h1 h2, pins_sending hs, transmission_remaining]
  rfl

theorem twoSeconds_length (b : List Nat) : (twoSeconds b).length = 40000 := by
  unfold twoSeconds
  generalize 40000 = k
  rw [List.length_take, List.length_append, List.length_replicate]
  omega

theorem twoSeconds_take (b : List Nat) (n : Nat) (hn : n ≤ 40000) :
    (transmission b ++ List.replicate n false).take n = (twoSeconds b).take n := by
  unfold twoSeconds
  generalize 40000 = k at *
  rw [List.take_take, Nat.min_eq_left hn, List.take_append, List.take_append, List.take_replicate,
    List.take_replicate]
  congr 2
  omega

theorem justLoaded_run (t : Target) (n : Nat) (s : Sender) (h : JustLoaded s) (m : Nat) (hm : n ≤ 40000 * m) :
    (SenderApp.run t n ⟨0, s⟩).map Prod.snd =
      some ((List.replicate m (twoSeconds nextOnCd)).flatten.take n) := by
  induction m generalizing n s with
  | zero =>
    obtain rfl : n = 0 := by omega
    rfl
  | succ m ih =>
    rw [List.replicate_succ, List.flatten_cons]
    by_cases hn : n < 40000
    · rw [senderApp_quiet t n 0 s (by omega), List.take_append_of_le_length (by rw [twoSeconds_length]; omega),
        Option.map_some, pins_sending h.sending, transmission_remaining, twoSeconds_take _ _ (by omega)]
    · obtain ⟨s', h1, h2, -⟩ := justLoaded_period t s h
      obtain ⟨r, rfl⟩ : ∃ r, n = 40000 + r := ⟨n - 40000, by omega⟩
      have h3 := ih r s' h2 (by omega)
      rw [senderApp_append t 40000 r _ _ _ h1, List.take_append, twoSeconds_length,
        List.take_of_length_le (by rw [twoSeconds_length]; omega), Nat.add_sub_cancel_left]
      rcases hr : SenderApp.run t r ⟨0, s'⟩ with _ | p
      · rw [hr] at h3; cases h3
      · rw [hr, Option.map_some, Option.some.injEq] at h3
        rw [Option.map_some, Option.map_some, h3]

/-- **C68**: the program never panics, however long it runs, and its output is known for ever: after two seconds
"next" in RC5, and again every two seconds.  (The output also shows the defects of C43: a train of 64 pulses of one
tick before the first command, and another 54 after each command.) -/
theorem C68_output (t : Target) (n : Nat) :
    (SenderApp.run t n SenderApp.init).map Prod.snd = some (senderOutput n) := by
  obtain ⟨s', h1, h2⟩ := first_period t
  by_cases hn : n < 40000
  · rw [SenderApp.init, senderApp_quiet t n 0 _ (by omega), senderOutput,
      List.take_append_of_le_length (by rw [twoSeconds_length]; omega), Option.map_some,
      pins_sending (new_sending 128 false), transmission_remaining, twoSeconds_take _ _ (by omega)]
  · obtain ⟨r, rfl⟩ : ∃ r, n = 40000 + r := ⟨n - 40000, by omega⟩
    have h3 := justLoaded_run t r s' h2 (40000 + r) (by omega)
    rw [senderApp_append t 40000 r _ _ _ h1, senderOutput, List.take_append, twoSeconds_length,
      List.take_of_length_le (by rw [twoSeconds_length]; omega), Nat.add_sub_cancel_left]
    rcases hr : SenderApp.run t r ⟨0, s'⟩ with _ | p
    · rw [hr] at h3; cases h3
    · rw [hr, Option.map_some, Option.some.injEq] at h3
      rw [Option.map_some, Option.map_some, h3]

/-! ## What a receiver hears -/

/-- The command the program sends. -/
def Spec.nextCommand : Rc5Command := { addr := 20, cmd := 32, start := 3, toggle := false }

theorem session_output (t : Target) (k r : Nat) (hr : r ≤ 40000) (s : Sender) (hidle : s.buffer.status = .idle)
    (hb : s.buffer.ptb.buf.length = 128) (hz : s.buffer.ptb.buf.drop 20 = List.replicate 108 0) :
    (s.calls (session (rc5Encode t 17) (List.replicate k (nextCommand, 40000) ++ [(nextCommand, r)]))).map Prod.snd =
      some ((List.replicate k (twoSeconds nextOnCd)).flatten ++ (twoSeconds nextOnCd).take r) := by
  induction k generalizing s with
  | zero =>
    obtain ⟨s1, h1, -, h3⟩ := load_next t s hidle hb hz
    rw [session, List.replicate_zero, List.nil_append, List.flatMap_cons, List.cons_append, Sender.calls,
      show rc5Encode t 17 nextCommand = rc5Encode t 17 (Rc5Command.new 20 32 false) from rfl, h1, Option.bind_some,
      calls_ticks, List.flatMap_nil, Sender.calls, Option.map_some, Option.map_some, pins_sending h3.sending,
      transmission_remaining, twoSeconds_take _ _ hr, List.append_nil, List.replicate_zero, List.flatten_nil,
      List.nil_append]
  | succ k ih =>
    obtain ⟨s1, h1, -, h3⟩ := load_next t s hidle hb hz
    obtain ⟨b1, b2, b3, b4, -⟩ := nextOnCd_bounds
    have hid : (s1.ticks 40000).buffer.status = .idle := by
      rw [status_start h3.sending h3.idle, transmission_remaining]
      exact .inr b4
    have h4 := ih (s1.ticks 40000) hid (by rw [ticks_buf, h3.buf]; exact b2) (by rw [ticks_buf, h3.buf]; exact b3)
    rw [session] at h4
    rw [session, List.replicate_succ, List.cons_append, List.flatMap_cons, List.cons_append, Sender.calls,
      show rc5Encode t 17 nextCommand = rc5Encode t 17 (Rc5Command.new 20 32 false) from rfl, h1, Option.bind_some]
    have h5 : s1.pins 40000 = twoSeconds nextOnCd := by
      rw [pins_sending h3.sending, transmission_remaining]
      rfl
    dsimp only
    rw [calls_ticks, h5]
    rcases hr : (s1.ticks 40000).calls _ with _ | p
    · rw [hr] at h4; cases h4
    · rw [hr, Option.map_some, Option.some.injEq] at h4
      rw [Option.map_some, Option.map_some, h4, List.replicate_succ, List.flatten_cons, List.append_assoc]

theorem drop_silence (b : List Nat) (r : Nat) (hr : (transmission b).length ≤ r) (hr2 : r ≤ 40000) :
    (twoSeconds b).drop r = List.replicate (40000 - r) false := by
  unfold twoSeconds
  generalize 40000 = n at *
  rw [List.drop_take, List.drop_append, List.drop_of_length_le hr, List.nil_append, List.drop_replicate,
    List.take_replicate]
  congr 1
  omega

theorem looked_congr {fs f phase n T : Nat} {l l' : List Bool} (hle : fs ≤ f) (hfs : 0 < fs)
    (hn : n ≤ reading fs f phase T + 1) (h : ∀ j ≤ T, l.getD j false = l'.getD j false) :
    looked fs f phase l n = looked fs f phase l' n := by
  unfold looked
  refine List.map_congr_left fun i hi => h _ ?_
  have h1 : i < n := List.mem_range.mp hi
  have h2 : i ≤ (T * f + phase) / fs := by unfold reading at hn; omega
  have h3 : i * fs ≤ T * f + phase := (Nat.le_div_iff_mul_le hfs).mp h2
  refine Nat.lt_succ_iff.mp ((Nat.div_lt_iff_lt_mul (by omega)).mpr ?_)
  rw [Nat.succ_mul, Nat.succ_mul]
  omega

theorem senderOutput_split (k r start M : Nat) (hstart : 128 ≤ start) (hstart2 : start ≤ 40000) (hr : 2000 ≤ r)
    (hr2 : r < 40000) (hM : 40000 * (k + 1) + r < M) (j : Nat) (hj : j ≤ 40000 * (k + 1) + r - start) :
    ((senderOutput M).drop start).getD j false =
      (List.replicate (40000 - start) false ++ ((List.replicate k (twoSeconds nextOnCd)).flatten ++
        (twoSeconds nextOnCd).take r)).getD j false := by
  have e1 : (transmission (List.replicate 128 0)).length = 128 := by decide +kernel
  have e2 : (transmission nextOnCd).length ≤ 2000 := by decide +kernel
  have h1 : (twoSeconds nextOnCd).drop r = List.replicate (40000 - r) false :=
    drop_silence _ _ (by omega) (by omega)
  have h2 : (twoSeconds (List.replicate 128 0)).drop start = List.replicate (40000 - start) false :=
    drop_silence _ _ (by omega) hstart2
  have hP := twoSeconds_length nextOnCd
  have hQ := twoSeconds_length (List.replicate 128 0)
  obtain ⟨m, rfl⟩ : ∃ m, M = k + (m + 1) := ⟨M - k - 1, by omega⟩
  unfold senderOutput
  generalize twoSeconds nextOnCd = P at *
  generalize twoSeconds (List.replicate 128 0) = Q at *
  have hs : (List.replicate (k + (m + 1)) P).flatten =
      ((List.replicate k P).flatten ++ P.take r) ++ (false :: (List.replicate (40000 - r - 1) false ++
        (List.replicate m P).flatten)) := by
    rw [← List.replicate_append_replicate, List.flatten_append, List.replicate_succ, List.flatten_cons]
    have h3 : P = P.take r ++ (false :: List.replicate (40000 - r - 1) false) := by
      rw [← List.replicate_succ, show 40000 - r - 1 + 1 = 40000 - r by omega, ← h1, List.take_append_drop]
    have h4 : P ++ (List.replicate m P).flatten = P.take r ++ (false :: List.replicate (40000 - r - 1) false) ++
        (List.replicate m P).flatten := by rw [← h3]
    rw [h4]
    simp only [List.append_assoc, List.cons_append]
  rw [hs, List.getD_eq_getElem?_getD, List.getD_eq_getElem?_getD, List.getElem?_drop, List.getElem?_take,
    if_pos (by omega)]
  rw [← List.getElem?_drop, List.drop_append_of_le_length (by omega), h2]
  generalize hA : (List.replicate k P).flatten ++ P.take r = A
  have hlen : A.length = 40000 * k + r := by
    rw [← hA, List.length_append, List.length_flatten, List.map_replicate, List.sum_replicate_nat, List.length_take, hP,
      Nat.min_eq_left (by omega)]
    simp [Nat.mul_comm]
  rw [← List.append_assoc]
  by_cases hj2 : j < (List.replicate (40000 - start) false ++ A).length
  · rw [List.getElem?_append_left hj2]
  · rw [List.getElem?_append_right (by omega), List.getElem?_eq_none (l := _ ++ A) (by omega)]
    rw [List.length_append, List.length_replicate] at hj2 ⊢
    rw [show j - (40000 - start + A.length) = 0 by omega]
    rfl

/-- **C68**: an RC5 receiver for the CD player, polled at 40 kHz or faster and switched on at any moment of the first
two seconds after the initial pulses, reports every "next" exactly once and nothing else: at any time later than
0.12 s after command number `k + 1` (and before the next one), it has reported `k + 1` of them. -/
theorem C68_heard (t t' : Target) (hus : 16 ≤ t.usizeBits) (f : Nat) (hlo : 40000 ≤ f) (hf : f < 2 ^ 31)
    (tbl : PulseSpans) (htbl : rc5Spans t Mono.u32 f = some tbl) (k r start phase M : Nat)
    (hstart : 128 ≤ start) (hstart2 : start ≤ 40000) (hphase : phase < 20000) (hr : 2400 ≤ r) (hr2 : r < 40000)
    (hM : 40000 * (k + 1) + r < M) :
    ∃ pins, (SenderApp.run t' M SenderApp.init).map Prod.snd = some pins ∧
      (pollRun (rc5Decoder t tbl) (Button.from cdPlayer) (looked 20000 f phase (pins.drop start)
        (reading 20000 f phase (40000 * (k + 1) + r - start) + 1))).map said =
      some (oks (List.replicate (k + 1) { cmd := nextCommand, action := some .next })) := by
  refine ⟨_, C68_output t' M, ?_⟩
  rw [looked_congr (by omega) (by decide) (Nat.le_refl _)
    (senderOutput_split k r start M hstart hstart2 (by omega) hr2 hM)]
  obtain ⟨s, hid, hbuf⟩ : ∃ s : Sender, s.buffer.status = .idle ∧ s.buffer.ptb.buf = List.replicate 128 0 :=
    ⟨Sender.new 128 false, rfl, rfl⟩
  let cmds : List (Rc5Command × Nat) := List.replicate k (nextCommand, 40000) ++ [(nextCommand, r)]
  have hmem : ∀ x ∈ cmds, x.1 = nextCommand ∧ 2400 ≤ x.2 ∧ x.2 ≤ 40000 := by
    intro x hx
    rcases List.mem_append.mp hx with hx | hx
    · rw [List.eq_of_mem_replicate hx]
      exact ⟨rfl, by decide, by decide⟩
    · rw [List.mem_singleton.mp hx]
      exact ⟨rfl, hr, by omega⟩
  obtain ⟨s2, levels, g1, -, g2⟩ := C58_rc5_session t hus 20000 (.inr ⟨by decide, by decide⟩) f hlo (by omega)
    (by omega) tbl htbl (Button.from cdPlayer) 17 (by decide) cmds (by
      intro x hx
      rw [(hmem x hx).1]
      decide) s hid 101 (by rw [hbuf]; rfl) (by rw [hbuf]; rfl) (by
      rw [hbuf]
      intro d hd
      rw [List.eq_of_mem_replicate hd]
      decide) (by
      intro x hx
      obtain ⟨-, h5, h6⟩ := hmem x hx
      refine ⟨by omega, ?_⟩
      have : x.2 * f / 20000 ≤ 40000 * f / 20000 := Nat.div_le_div_right (Nat.mul_le_mul_right f h6)
      omega)
  have g3 := session_output t k r (by omega) s hid (by rw [hbuf]; rfl) (by rw [hbuf]; rfl)
  rw [g1, Option.map_some, Option.some.injEq] at g3
  have hticks : sessionTicks cmds = 40000 * k + r := by
    simp [cmds, sessionTicks, List.sum_replicate_nat, Nat.mul_comm]
  have hpause : (40000 - start) * f ≤ 39872 * f := Nat.mul_le_mul_right f (by omega)
  have g4 := g2 (40000 - start) phase (reading 20000 f phase (40000 * (k + 1) + r - start) + 1) hphase
    (by unfold reading; omega) (by
      rw [hticks, show 40000 - start + (40000 * k + r) = 40000 * (k + 1) + r - start by omega]
      omega)
  dsimp only at g3
  rw [overhear, g3] at g4
  rw [g4]
  congr 2
  rw [← List.map_congr_left (f := fun _ => ({ cmd := nextCommand, action := some .next } : Button Rc5Command))]
  · rw [List.map_const', List.length_append, List.length_replicate]
    rfl
  · intro x hx
    rw [(hmem x hx).1]
    rfl

/-- Non-vacuity: a receiver at 40 kHz, one second after switching on; five commands, ten seconds later. -/
example (t : Target) (hus : 16 ≤ t.usizeBits) : ∃ pins,
    (SenderApp.run t 250000 SenderApp.init).map Prod.snd = some pins ∧
    (pollRun (rc5Decoder t (rc5Table 40000)) (Button.from cdPlayer)
      (looked 20000 40000 7 (pins.drop 20000) (reading 20000 40000 7 (40000 * (4 + 1) + 20000 - 20000) + 1))).map said =
      some (oks (List.replicate 5 { cmd := nextCommand, action := some .next })) :=
  C68_heard t t hus 40000 (by decide) (by decide) _ (rc5Spans_eq (.inl rfl) t (by decide)) 4 20000 20000 7 250000
    (by decide) (by decide) (by decide) (by decide) (by decide) (by decide)

end Infrared
