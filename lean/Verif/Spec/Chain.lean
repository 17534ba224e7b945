import Verif.Spec.Relay

/-!
# Programs that pass on what they hear, one after the other
-/

namespace Infrared.Spec

/-- A program that passes on standard NEC commands (`relayRun`): the rate of its interrupt, what it does with a command, its
sender, and how it listens to the line before it: with a pause before the line starts, a phase between the two clocks, and
for a number of polls. -/
structure Hop where
  rate : Nat
  convert : NecCommand → NecCommand
  sender : Sender
  pause : Nat
  phase : Nat
  polls : Nat

/-- The output of the last of several such programs; the first one listens to `levels`, a line with `fs` levels per second.
`none` if one of them does not compile for its rate, or panics. -/
def chainRun (t : Target) : (fs : Nat) → List Hop → (levels : List Bool) → Option (List Bool)
  | _, [], levels => some levels
  | fs, h :: hs, levels =>
    match necData Infrared.nec.pulseDistance h.rate, necSpans t Mono.u32 Infrared.nec h.rate with
    | some data, some tbl =>
      (relayRun (necDecoder t Mono.u32 tbl Infrared.nec) h.convert (necEncode Infrared.nec data) h.sender
        (overhear fs h.rate h.phase h.pause levels h.polls)).bind (chainRun t h.rate hs)
    | _, _ => none

/-- The rate of the last program, or of the line. -/
def endRate : Nat → List Hop → Nat
  | fs, [] => fs
  | _, h :: hs => endRate h.rate hs

/-- The number of polls of the last program, or the length of the line. -/
def endPolls : Nat → List Hop → Nat
  | n, [] => n
  | _, h :: hs => endPolls h.polls hs

/-- A receiver at `f` Hz that listens for `polls` polls to a line of `n` levels, `fs` per second: 16 ms of silence before it
and 68 ms of silence after it are heard, too. -/
structure Listens (fs n f pause phase polls : Nat) : Prop where
  slower : fs ≤ f
  below : phase < fs
  before : 16000 * fs ≤ 1000000 * pause
  after : ∃ more, 68 * fs ≤ 1000 * more ∧ reading fs f phase (pause + n + more) < polls
  range : polls + 1 < 2 ^ 32

/-- A sender of standard NEC that has played all of its buffer, with at most `K` spare slots, which are empty. -/
def ReadyToPass (K : Nat) (s : Sender) : Prop :=
  Silent s ∧ ∃ k ≤ K, s.buffer.ptb.buf.length = 67 + k ∧ s.buffer.ptb.buf.drop 67 = List.replicate k 0

/-- Each program is at least as fast as the one before, listens to it, and has such a sender. -/
def Chained (K : Nat) : (fs n : Nat) → List Hop → Prop
  | _, _, [] => True
  | fs, n, h :: hs => (21000 ≤ h.rate ∨ (20000 ≤ h.rate ∧ h.rate % 1000 = 0)) ∧ h.rate ≤ 477218999 ∧
    Listens fs n h.rate h.pause h.phase h.polls ∧ ReadyToPass K h.sender ∧ Chained K h.rate h.polls hs

end Infrared.Spec
