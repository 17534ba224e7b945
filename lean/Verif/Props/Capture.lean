import Verif.Props.Reception
import Verif.Spec.Examples

/-!
# The reader of logic analyser captures, `examples/vcd-parser` (C73)
-/

namespace Infrared

open Spec

variable {C : Type}

theorem vcdLoop_eq (D : Decoder C) (code : Nat) (vcs : List VcdCommand) (now : Nat) (r : Receiver D) :
    vcdLoop D code now r vcs =
      ((runStep (fun r (c : Bool × Nat) => Receiver.eventInstant Mono.u64 D id r c.2 c.1) r
        (wireChanges code now vcs)).map Prod.snd).map said := by
  induction vcs generalizing now r with
  | nil => rfl
  | cons vc vcs ih =>
    rcases vc with ⟨i, one⟩ | ts | _
    · by_cases hi : i = code
      · rw [vcdLoop, if_pos hi, wireChanges, if_pos hi, runStep]
        dsimp only
        rcases h : Receiver.eventInstant Mono.u64 D id r now one with _ | ⟨r', res⟩
        · rfl
        · dsimp only
          have key := ih now r'
          rcases h' : runStep (fun r (c : Bool × Nat) => Receiver.eventInstant Mono.u64 D id r c.2 c.1) r'
            (wireChanges code now vcs) with _ | ⟨r'', out⟩ <;> rw [h'] at key <;>
          rcases res with e | _ | c <;> dsimp only <;> rw [key] <;> rfl
      · rw [vcdLoop, if_neg hi, wireChanges, if_neg hi]
        exact ih now r
    · exact ih ts r
    · exact ih now r

/-- **C73**: for every capture, the lines printed are exactly the commands and errors, in order, that the receiver
returns for the changes of the selected wire, each at the time of the last time stamp before it; the other wires and
the other records of the file have no effect. -/
theorem C73_lines (D : Decoder C) (code : Nat) (vcs : List VcdCommand) :
    vcdLoop D code 0 (Receiver.new D) vcs =
      (results D id (elapsed 0 (wireChanges code 0 vcs))).map said := by
  rw [vcdLoop_eq, ← C35_instant_equiv Mono.u64 (.inr rfl)]
  rfl

/-- **C73**: only the selected wire matters: two captures in which it changes at the same times print the same. -/
theorem C73_other_wires (D : Decoder C) (code code' : Nat) (vcs vcs' : List VcdCommand)
    (h : wireChanges code 0 vcs = wireChanges code' 0 vcs') :
    vcdLoop D code 0 (Receiver.new D) vcs = vcdLoop D code' 0 (Receiver.new D) vcs' := by
  rw [C73_lines, C73_lines, h]

/-- **C73**: the program accepts a capture exactly if its time scale is a positive number of milliseconds or
microseconds, and then the rate is the number of whole time units per second (in the header's `u32`). -/
theorem C73_samplerate (n : Nat) (unit : TimescaleUnit) (f : Nat) :
    vcdSamplerate n unit = some f ↔
      n ≠ 0 ∧ ((unit = .ms ∧ f * n ≤ 1000 ∧ 1000 < (f + 1) * n) ∨
        (unit = .us ∧ f * n ≤ 1000000 ∧ 1000000 < (f + 1) * n)) := by
  have key : ∀ k, 0 < n → (k / n = f ↔ f * n ≤ k ∧ k < (f + 1) * n) := by
    intro k hn
    rw [Nat.div_eq_iff hn, Nat.add_mul, Nat.one_mul]
    omega
  rcases Nat.eq_zero_or_pos n with rfl | hn
  · cases unit <;> simp [vcdSamplerate]
  · have hn0 : n ≠ 0 := by omega
    cases unit <;> simp [vcdSamplerate, hn0, key _ hn]

namespace Spec

/-- What a logic analyser records of a line: each change with the value of a clock of `f` ticks per second
(`u` units of time per second, `phase` its fraction of a tick when `t` was 0). -/
def recorded (u f phase : Nat) : (t : Nat) → List (Bool × Nat) → List (Bool × Nat)
  | _, [] => []
  | t, (b, x) :: es => (b, reading u f phase (t + x)) :: recorded u f phase (t + x) es

end Spec

theorem elapsed_recorded (u f phase : Nat) (es : List (Bool × Nat)) (t : Nat) :
    elapsed (reading u f phase t) (recorded u f phase t es) = clocked u f phase t es := by
  induction es generalizing t with
  | nil => rfl
  | cons e es ih =>
    obtain ⟨b, x⟩ := e
    have : reading u f phase t ≤ reading u f phase (t + x) := by
      unfold reading
      exact Nat.div_le_div_right (Nat.add_le_add_right (Nat.mul_le_mul_right _ (Nat.le_add_right ..)) _)
    simp only [recorded, elapsed, clocked, if_pos this, ih]

/-- **C73**: a capture, in units of `n` microseconds with `n` at most 50, of a line on which a Samsung remote sends
any sequence of frames and repeat codes (periods within 5 % of the documented lengths, pauses of 16 ms or more) makes
the program print exactly the commands sent, one line each, and no errors. -/
theorem C73_samsung (t : Target) (n f : Nat) (hn : n ≤ 50) (hrate : vcdSamplerate n .us = some f)
    (tbl : PulseSpans) (htbl : necSpans t Mono.u64 samsungNec f = some tbl) (u : Nat) (hu : 0 < u) (phase pause : Nat)
    (hg : Pause tbl 64 [0, 1] (0, reading u f phase pause)) (items : List (NecItem × (Nat × Nat)))
    (hok : ∀ i ∈ items, i.1.Near u 5 9000 6750 ∧ 16000 * u ≤ 1000000 * (i.2.1 + i.2.2) ∧
      (i.2.1 + i.2.2) * f + u < 2 ^ 64 * u)
    (code : Nat) (vcs : List VcdCommand)
    (hcap : wireChanges code 0 vcs = recorded u f phase 0 ((true, pause) :: series NecItem.wire items)) :
    vcdLoop (necDecoder t Mono.u64 tbl samsungNec) code 0 (Receiver.new _) vcs =
      some (oks (necHeard samsungNec.unpack 0 (items.map Prod.fst))) := by
  have hf : 20000 ≤ f ∧ f < 2 ^ 32 := by
    unfold vcdSamplerate at hrate
    dsimp only at hrate
    split at hrate
    · cases hrate
    · cases hrate
      refine ⟨(Nat.le_div_iff_mul_le (by omega)).mpr (by omega), ?_⟩
      exact Nat.lt_of_le_of_lt (Nat.div_le_self ..) (by decide)
  rw [C73_lines, hcap, recorded, Nat.zero_add]
  simp only [elapsed, Nat.zero_le, if_true, Nat.sub_zero]
  rw [elapsed_recorded]
  have := C65_nec_events t Mono.u64 (.inr rfl) f hf.1 hf.2 samsungNec (.inr rfl) tbl htbl id u hu phase pause
    _ hg items hok
  rwa [List.map_id] at this

/-! ## Non-vacuity -/

/-- A capture of two wires: the infrared wire is number 0, a serial line number 1. -/
example : wireChanges 0 0 [.other, .changeScalar 0 false, .timestamp 10, .changeScalar 0 true, .changeScalar 1 true,
      .timestamp 13, .changeScalar 1 false, .timestamp 20, .changeScalar 0 false] =
    [(false, 0), (true, 10), (false, 20)] := by decide +kernel

example : vcdSamplerate 1 .us = some 1000000 ∧ vcdSamplerate 3 .us = some 333333 ∧ vcdSamplerate 0 .us = none ∧
    vcdSamplerate 1 .other = none := by decide

/-- The records of a capture whose wire 7 changes as listed, with another wire toggling in between. -/
def captureOf : List (Bool × Nat) → List VcdCommand
  | [] => [.other]
  | (b, now) :: cs =>
    .timestamp now :: .changeScalar 3 (!b) :: .changeScalar 7 b :: .timestamp (now + 1) :: .changeScalar 3 b ::
      captureOf cs

theorem wireChanges_captureOf (l : List (Bool × Nat)) (now : Nat) : wireChanges 7 now (captureOf l) = l := by
  induction l generalizing now with
  | nil => rfl
  | cons c cs ih => simp [captureOf, wireChanges, ih]

/-- The power button of a Samsung television and a repeat code, nominal lengths, in nanoseconds. -/
def samsungPower : List (NecItem × (Nat × Nat)) :=
  [ (.frame 0xFD020707#32 ((necPeriods 9000 0xFD020707#32).map fun p => (560000, 1000 * p - 560000)),
      (560000, 40000000)),
    (.rep (4500000, 2250000), (560000, 96000000)) ]

/-- Captured with a resolution of 20 µs. -/
example (t : Target) (phase : Nat) (hp : phase < 1000000000) :
    vcdLoop (necDecoder t Mono.u64 (samsungTable 50000) samsungNec) 7 0 (Receiver.new _)
      (captureOf (recorded 1000000000 50000 phase 0 ((true, 1000000) :: series NecItem.wire samsungPower))) =
      some (oks [{ addr := 7, cmd := 2, rep := false }, { addr := 7, cmd := 2, rep := true }]) := by
  have hr : reading 1000000000 50000 phase 1000000 = 50 := by unfold reading; omega
  refine C73_samsung t 20 50000 (by decide) rfl _ (necSpans_samsung (.inr rfl) t (by decide) _ rfl) 1000000000
    (by decide) phase 1000000 ?_ samsungPower ?_ 7 _ (wireChanges_captureOf ..)
  · rw [hr]
    refine ⟨by decide, ?_⟩
    intro j hj
    simp only [List.mem_cons, List.not_mem_nil, or_false] at hj
    rcases hj with rfl | rfl <;> rintro ⟨s, hs, ha, hb⟩ <;> cases hs
    · exact absurd ha (by decide +kernel)
    · exact absurd ha (by decide +kernel)
  · intro i hi
    simp only [samsungPower, List.mem_cons, List.not_mem_nil, or_false] at hi
    rcases hi with rfl | rfl
    · exact ⟨nearPeriods_zip (by decide +kernel), by decide, by decide⟩
    · exact ⟨⟨by decide, by decide⟩, by decide, by decide⟩

end Infrared
