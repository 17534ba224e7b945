import Verif.Props.Parse
import Verif.Props.Sampling
import Verif.Props.Robust
import Verif.Props.Drivers
import Verif.Props.Usb

/-!
# Polled and time-stamped receivers on an arbitrary line (C76)

No assumption is made about the line: any sequence of samples, any sequence of time stamps.
-/

namespace Infrared

open Spec

variable {C K : Type}

/-- The level changes among samples taken at a constant rate, each with the number of samples since the one before. -/
def Spec.edgesOf (samples : List Bool) : List Ev := (sampledEdges false 0 samples).filterMap id

theorem sampledEdges_alternate (samples : List Bool) (level : Bool) (n : Nat) :
    Alternating ((sampledEdges level n samples).filterMap id) ∧
      ∀ e, ((sampledEdges level n samples).filterMap id).head? = some e → e.1 = !level := by
  induction samples generalizing level n with
  | nil => exact ⟨trivial, by simp [sampledEdges]⟩
  | cons s ss ih =>
    rw [sampledEdges]
    split
    · exact ih level (n + 1)
    · rename_i hne
      have hs : s = !level := by cases s <;> cases level <;> simp_all
      obtain ⟨h1, h2⟩ := ih s 0
      rw [List.filterMap_cons]
      dsimp only [id_eq]
      refine ⟨?_, by simp [hs]⟩
      rcases hr : (sampledEdges s 0 ss).filterMap id with _ | ⟨e, es⟩
      · trivial
      · rw [hr] at h1 h2
        refine ⟨?_, h1⟩
        have := h2 e rfl
        dsimp only
        rw [this]
        cases s <;> decide

theorem poll_parse {D : Decoder C} {conv : C → K} {samples : List Bool} {outs : List (Res K)}
    (h : pollRun D conv samples = some outs) {p : List (Res K)}
    (hp : ∀ o, results D conv (edgesOf samples) = some o → said o = p) : said outs = p := by
  have h1 := poll_said D conv samples
  rw [h, Option.map_some] at h1
  obtain ⟨o, ho, h2⟩ := Option.map_eq_some_iff.mp h1.symm
  rw [← h2]
  exact hp o ho

theorem poll_none_iff (D : Decoder C) (conv : C → K) (samples : List Bool) :
    pollRun D conv samples = none ↔ results D conv (edgesOf samples) = none := by
  rw [C34_poll_equiv, Option.map_eq_none_iff, edgesOf]

/-! ## What they say -/

/-- **C76** for the NEC family: the reports of a polled receiver are those of the parser applied to the level changes
among the samples, those of a receiver with time stamps those of the parser applied to the differences. -/
theorem C76_nec (t : Target) (tbl : PulseSpans) (v : NecVariant C) (conv : C → K) :
    (∀ samples outs, pollRun (necDecoder t Mono.u32 tbl v) conv samples = some outs →
      said outs = (necParse v.unpack 0 (symbols 32 tbl (edgesOf samples))).map (Res.map conv)) ∧
    ∀ m, m = Mono.u32 ∨ m = Mono.u64 → ∀ calls outs, instantRun m (necDecoder t m tbl v) conv calls = some outs →
      said outs = (necParse v.unpack 0 (symbols m.width tbl (elapsed 0 calls))).map (Res.map conv) := by
  refine ⟨fun samples outs h => poll_parse h fun o ho => C67_nec t _ Mono.u32_lawful tbl v conv _ o ho,
    fun m hm calls outs h => ?_⟩
  rw [C35_instant_equiv m hm] at h
  exact C67_nec t m (Mono.prim_lawful hm) tbl v conv _ outs h

/-- **C76** for Denon. -/
theorem C76_denon (t : Target) (tbl : PulseSpans) (conv : DenonCommand → K) :
    (∀ samples outs, pollRun (denonDecoder t Mono.u32 tbl) conv samples = some outs →
      said outs = (denonParse 0 (symbols 32 tbl (edgesOf samples))).map (Res.map conv)) ∧
    ∀ m, m = Mono.u32 ∨ m = Mono.u64 → ∀ calls outs, instantRun m (denonDecoder t m tbl) conv calls = some outs →
      said outs = (denonParse 0 (symbols m.width tbl (elapsed 0 calls))).map (Res.map conv) := by
  refine ⟨fun samples outs h => poll_parse h fun o ho => C67_denon t _ Mono.u32_lawful tbl conv _ o ho,
    fun m hm calls outs h => ?_⟩
  rw [C35_instant_equiv m hm] at h
  exact C67_denon t m (Mono.prim_lawful hm) tbl conv _ outs h

theorem elapsed_alternate (calls : List (Bool × Nat)) (p : Nat) (h : Alternating calls) :
    Alternating (elapsed p calls) := by
  induction calls generalizing p with
  | nil => trivial
  | cons c cs ih =>
    obtain ⟨e, x⟩ := c
    cases cs with
    | nil => trivial
    | cons c' cs => exact ⟨h.1, ih _ h.2⟩

/-- **C76** for SBP; the edges handed to `event_instant` have to alternate. -/
theorem C76_sbp (t : Target) (tbl : PulseSpans) (conv : SbpCommand → K) :
    (∀ samples outs, pollRun (sbpDecoder t Mono.u32 tbl) conv samples = some outs →
      said outs = (sbpParse (symbols 32 tbl (edgesOf samples))).map (Res.map conv)) ∧
    ∀ m, m = Mono.u32 ∨ m = Mono.u64 → ∀ calls outs, Alternating calls →
      instantRun m (sbpDecoder t m tbl) conv calls = some outs →
      said outs = (sbpParse (symbols m.width tbl (elapsed 0 calls))).map (Res.map conv) := by
  refine ⟨fun samples outs h => poll_parse h fun o ho => C67_sbp t _ Mono.u32_lawful tbl conv _
    (sampledEdges_alternate samples false 0).1 o ho, fun m hm calls outs ha h => ?_⟩
  rw [C35_instant_equiv m hm] at h
  exact C67_sbp t m (Mono.prim_lawful hm) tbl conv _ (elapsed_alternate _ 0 ha) outs h

/-- **C76** for RC5. -/
theorem C76_rc5 (t : Target) (hus : 16 ≤ t.usizeBits) (tbl : PulseSpans) (hlen : tbl.spans.length ≤ 8)
    (conv : Rc5Command → K) :
    (∀ samples outs, pollRun (rc5Decoder t tbl) conv samples = some outs →
      said outs = (rc5Parse (halfEdges tbl (edgesOf samples))).map (Res.map conv)) ∧
    ∀ m, m = Mono.u32 ∨ m = Mono.u64 → ∀ calls outs, instantRun m (rc5Decoder t tbl) conv calls = some outs →
      said outs = (rc5Parse (halfEdges tbl (elapsed 0 calls))).map (Res.map conv) := by
  refine ⟨fun samples outs h => poll_parse h fun o ho => C67_rc5 t hus tbl hlen conv _ o ho,
    fun m hm calls outs h => ?_⟩
  rw [C35_instant_equiv m hm] at h
  exact C67_rc5 t hus tbl hlen conv _ outs h

/-- **C76** for RC6. -/
theorem C76_rc6 (t : Target) (hus : 16 ≤ t.usizeBits) (tbl : PulseSpans) (hlen : tbl.spans.length ≤ 8)
    (conv : Rc6Command → K) :
    (∀ samples outs, pollRun (rc6Decoder t tbl) conv samples = some outs →
      said outs = (rc6Parse (halfEdges tbl (edgesOf samples))).map (Res.map conv)) ∧
    ∀ m, m = Mono.u32 ∨ m = Mono.u64 → ∀ calls outs, instantRun m (rc6Decoder t tbl) conv calls = some outs →
      said outs = (rc6Parse (halfEdges tbl (elapsed 0 calls))).map (Res.map conv) := by
  refine ⟨fun samples outs h => poll_parse h fun o ho => C67_rc6 t hus tbl hlen conv _ o ho,
    fun m hm calls outs h => ?_⟩
  rw [C35_instant_equiv m hm] at h
  exact C67_rc6 t hus tbl hlen conv _ outs h

/-- **C76** for `MultiReceiver`: the commands in column `i` are those of the parser of receiver `i` (`hp` is C67 for
this receiver), its errors are dropped. -/
theorem C76_multi (cs : List Component) (evs : List Ev) (ss' : List Slot) (outs : List (List (Option AnyCommand)))
    (h : multiRun (multiMake cs) evs = some (ss', outs)) (i : Nat) (c : Component) (hc : cs[i]? = some c)
    (parsed : List (Res c.C)) (hp : ∀ o, results c.D id evs = some o → said o = parsed) :
    outs.filterMap (fun row => row[i]?.join) = (commands parsed).map c.into := by
  obtain ⟨ro, h1, h2⟩ := C36_multi_independent cs evs ss' outs h i c hc
  have h3 : outs.filterMap (fun row => row[i]?.join) = (outs.map fun row => row[i]?).filterMap Option.join := by
    rw [List.filterMap_map]; rfl
  rw [h3, h2, ← hp ro h1, ← commands_said', commands, List.filterMap_map, List.map_filterMap]
  congr 1
  funext r
  rcases r with e | _ | x <;> rfl

/-! ## When they panic -/

theorem sampledEdges_sum (samples : List Bool) (level : Bool) (n : Nat) :
    (((sampledEdges level n samples).filterMap id).map Prod.snd).sum ≤ n + samples.length := by
  induction samples generalizing level n with
  | nil => simp [sampledEdges]
  | cons s ss ih =>
    rw [sampledEdges]
    split
    · have := ih level (n + 1)
      simp only [List.filterMap_cons, id_eq, List.length_cons] at this ⊢
      omega
    · have := ih s 0
      have h2 := Nat.mod_le (n + 1) (2 ^ 32)
      simp only [List.filterMap_cons, id_eq, List.map_cons, List.sum_cons, List.length_cons] at this ⊢
      omega

theorem sampledEdges_count (samples : List Bool) (level : Bool) (n : Nat) :
    ((sampledEdges level n samples).filterMap id).length ≤ samples.length := by
  have h1 := List.length_filterMap_le id (sampledEdges level n samples)
  have h2 : ∀ (ss : List Bool) level n, (sampledEdges level n ss).length = ss.length := by
    intro ss
    induction ss with
    | nil => intro _ _; rfl
    | cons s ss ih =>
      intro level n
      rw [sampledEdges]
      split <;> simp [ih]
  rw [h2] at h1
  exact h1

theorem sumsFrom_le (evs : List Ev) (saved : Nat) : ∀ p ∈ sumsFrom saved evs, p ≤ saved + (evs.map Prod.snd).sum := by
  induction evs generalizing saved with
  | nil => simp [sumsFrom]
  | cons e es ih =>
    obtain ⟨_ | _, dt⟩ := e
    · intro p hp
      have := ih dt p hp
      simp only [List.map_cons, List.sum_cons]
      omega
    · intro p hp
      simp only [sumsFrom, List.mem_cons] at hp
      simp only [List.map_cons, List.sum_cons]
      rcases hp with rfl | hp
      · omega
      · have := ih 0 p hp
        omega

/-- **C76**: polled receivers of the pulse distance protocols panic exactly if the build checks overflows and some
period between two rising edges took 2^32 or more polls (each half of it counted in 32 bits). -/
theorem C76_poll_panics_iff (t : Target) (tbl : PulseSpans) (samples : List Bool) :
    (∀ (v : NecVariant C) (conv : C → K), pollRun (necDecoder t Mono.u32 tbl v) conv samples = none ↔
      t.overflowChecks = true ∧ ∃ p ∈ sums (edgesOf samples), 2 ^ 32 ≤ p) ∧
    (∀ conv : SbpCommand → K, pollRun (sbpDecoder t Mono.u32 tbl) conv samples = none ↔
      t.overflowChecks = true ∧ ∃ p ∈ sums (edgesOf samples), 2 ^ 32 ≤ p) ∧
    ∀ conv : DenonCommand → K, pollRun (denonDecoder t Mono.u32 tbl) conv samples = none ↔
      t.overflowChecks = true ∧ ∃ p ∈ sums (edgesOf samples), 2 ^ 32 ≤ p := by
  refine ⟨fun v conv => ?_, fun conv => ?_, fun conv => ?_⟩
  · rw [poll_none_iff]; exact C30_nec_panics_iff t _ (.inl rfl) tbl v conv _
  · rw [poll_none_iff]
    exact C30_sbp_panics_iff t _ (.inl rfl) tbl conv _ (sampledEdges_alternate samples false 0).1
  · rw [poll_none_iff]; exact C30_denon_panics_iff t _ (.inl rfl) tbl conv _

/-- **C76**: in particular they never panic in a release build, and in a debug build not within the first 2^32 polls:
at 40 kHz more than a day. -/
theorem C76_poll_no_panic (t : Target) (tbl : PulseSpans) (samples : List Bool)
    (h : t.overflowChecks = false ∨ samples.length < 2 ^ 32) :
    (∀ (v : NecVariant C) (conv : C → K), pollRun (necDecoder t Mono.u32 tbl v) conv samples ≠ none) ∧
    (∀ conv : SbpCommand → K, pollRun (sbpDecoder t Mono.u32 tbl) conv samples ≠ none) ∧
    ∀ conv : DenonCommand → K, pollRun (denonDecoder t Mono.u32 tbl) conv samples ≠ none := by
  have key : ¬ (t.overflowChecks = true ∧ ∃ p ∈ sums (edgesOf samples), 2 ^ 32 ≤ p) := by
    rintro ⟨h1, p, hp, hle⟩
    rcases h with h | h
    · rw [h] at h1; cases h1
    · have h2 := sumsFrom_le _ _ p hp
      have h3 := sampledEdges_sum samples false 0
      rw [edgesOf] at h2
      omega
  obtain ⟨h1, h2, h3⟩ := C76_poll_panics_iff (C := C) (K := K) t tbl samples
  exact ⟨fun v conv hn => key ((h1 v conv).mp hn), fun conv hn => key ((h2 conv).mp hn),
    fun conv hn => key ((h3 conv).mp hn)⟩

/-- **C76** for the Manchester codes: `8 * n < 2 ^ usize` is 2^29 polls with 32-bit words, 8191 with 16-bit words. -/
theorem C76_poll_no_panic_manchester (t : Target) (hus : 16 ≤ t.usizeBits) (tbl : PulseSpans)
    (hlen : tbl.spans.length ≤ 8) (samples : List Bool)
    (h : t.overflowChecks = false ∨ 8 * samples.length < 2 ^ t.usizeBits) :
    (∀ conv : Rc5Command → K, pollRun (rc5Decoder t tbl) conv samples ≠ none) ∧
    ∀ conv : Rc6Command → K, pollRun (rc6Decoder t tbl) conv samples ≠ none := by
  have h' : t.overflowChecks = false ∨ 8 * (edgesOf samples).length < 2 ^ t.usizeBits := by
    rcases h with h | h
    · exact .inl h
    · have := sampledEdges_count samples false 0
      rw [edgesOf]
      exact .inr (by omega)
  refine ⟨fun conv hn => ?_, fun conv hn => ?_⟩
  · rw [poll_none_iff] at hn
    exact C30_rc5_no_panic t hus tbl hlen conv _ h' hn
  · rw [poll_none_iff] at hn
    exact C30_rc6_no_panic t hus tbl hlen conv _ h' hn

/-- **C76**: the condition is needed, also for lines that alternate as real ones do: with overflow checks a square wave,
every edge one bit after the last except the second one (half a bit), makes an RC5 receiver panic.  With 16-bit words
(the Arduino of the examples) after 58 seconds. -/
theorem C76_rc5_square_wave (w : Nat) (hw : 16 ≤ w) (conv : Rc5Command → K) :
    results (rc5Decoder ⟨true, w⟩ (rc5Table 1000000)) conv
      (alternating true (5000 :: 889 :: List.replicate (2 ^ (w - 1)) 1778)) = none := by
  have hpow : 2 ^ 16 ≤ 2 ^ w := Nat.pow_le_pow_right (by decide) hw
  have hhalf : 2 ^ (w - 1) * 2 = 2 ^ w := by rw [← Nat.pow_succ]; congr 1; omega
  have hget : (rc5Table 1000000).get 1778 = some 1 := by decide
  have hinc : uadd ⟨true, w⟩ w 1 1 = some 2 := uadd_exact _ _ _ _ (by omega)
  have hstep : ∀ b c, c % 2 = 1 → rc5Fn ⟨true, w⟩ (rc5Table 1000000) ⟨.data 12, 8192, c⟩ (b, 1778) =
      if c + 2 < 2 ^ w then some (⟨.data 12, 8192, c + 2⟩, .ok none) else none := by
    intro b c hc
    have hadd : uadd ⟨true, w⟩ w c 2 = if c + 2 < 2 ^ w then some (c + 2) else none := by
      simp [uadd]
    by_cases h : c + 2 < 2 ^ w
    · rw [if_pos h] at hadd ⊢
      simp only [rc5Fn, Decoder.eventTotal, rc5Decoder, Rc5Decoder.event, hget, Rc5Decoder.tick,
        hinc, hadd, Option.bind_eq_bind, Option.bind_some, Rc5Decoder.transition]
      rw [if_neg (by omega)]
      rfl
    · rw [if_neg h] at hadd ⊢
      simp only [rc5Fn, Decoder.eventTotal, rc5Decoder, Rc5Decoder.event, hget, Rc5Decoder.tick,
        hinc, hadd, Option.bind_eq_bind, Option.bind_some, Option.bind_none]
  have key : ∀ k b c, c % 2 = 1 → 2 ^ w ≤ c + 2 * k → c < 2 ^ w →
      runStep (rc5Fn ⟨true, w⟩ (rc5Table 1000000)) ⟨.data 12, 8192, c⟩ (alternating b (List.replicate k 1778)) =
        none := by
    intro k
    induction k with
    | zero => intro b c _ h1 h2; omega
    | succ k ih =>
      intro b c hc h1 h2
      rw [List.replicate_succ, alternating]
      simp only [runStep, hstep b c hc]
      by_cases h : c + 2 < 2 ^ w
      · rw [if_pos h]; simp only [ih _ (c + 2) (by omega) (by omega) h]
      · simp [h]
  have h1 : rc5Fn ⟨true, w⟩ (rc5Table 1000000) ⟨.idle, 0, 0⟩ (true, 5000) = some (⟨.data 12, 8192, 0⟩, .ok none) := by
    rfl
  have h2 : rc5Fn ⟨true, w⟩ (rc5Table 1000000) ⟨.data 12, 8192, 0⟩ (false, 889) =
      some (⟨.data 12, 8192, 1⟩, .ok none) := by
    have hg : (rc5Table 1000000).get 889 = some 0 := by decide
    have e1 : uadd ⟨true, w⟩ w 0 1 = some 1 := uadd_exact _ _ _ _ (by omega)
    simp only [rc5Fn, Decoder.eventTotal, rc5Decoder, Rc5Decoder.event, hg, Rc5Decoder.tick, e1, Option.bind_eq_bind,
      Option.bind_some, Rc5Decoder.transition]
    rfl
  rw [results_snd, Option.map_eq_none_iff, Option.map_eq_none_iff]
  show runStep (rc5Fn ⟨true, w⟩ (rc5Table 1000000)) ⟨.idle, 0, 0⟩ _ = none
  simp only [alternating, runStep, h1, h2, Bool.not_true, Bool.not_false]
  rw [key (2 ^ (w - 1)) true 1 rfl (by omega) (by omega)]

/-! ## Examples -/

/-- Four samples of a pulse of two samples: its edges. -/
example : edgesOf [false, false, true, true, false] = [(true, 3), (false, 2)] := by decide

/-- A NEC frame of which three bits arrive before the signal is lost, sampled at 20 kHz, then a repeat code: the
polled receiver reports an error and a repetition of the word `7`. -/
example :
    (pollRun (necDecoder ⟨true, 32⟩ Mono.u32 (necTable 20000) necDebug) id
      (([100, 180, 90, 11, 34, 11, 34, 11, 34, 11, 100, 180, 45, 11].foldl (fun (acc : List Bool × Bool) n =>
        (acc.1 ++ List.replicate n acc.2, !acc.2)) ([], false)).1)).map said =
    some [.error .data, .ok (some { bits := 7 })] := by decide +kernel

/-- The premise of C76_multi: two receivers hear a frame begun and lost; neither panics, neither says anything. -/
example : (multiRun (multiMake [⟨_, necDecoder ⟨true, 32⟩ Mono.u32 (necTable 1000000) Infrared.nec, AnyCommand.from necAC⟩,
      ⟨_, rc5Decoder ⟨true, 32⟩ (rc5Table 1000000), AnyCommand.from rc5AC⟩])
      [(true, 0), (false, 9000), (true, 4500), (false, 560), (true, 9999)]).map Prod.snd =
    some (List.replicate 5 [none, none]) := by decide +kernel

end Infrared
