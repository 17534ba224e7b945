import Verif.Spec.Frames
import Verif.Lemmas.Time

/-!
# Several protocols in one room
-/

namespace Infrared.Spec

/-- The pulse distance timings. -/
inductive Timing
  | nec | samsung | sbp | denon
deriving DecidableEq

/-- Interval table of a timing for `f` Hz. -/
def Timing.table (f : Nat) : Timing → PulseSpans
  | .nec => necTable f
  | .samsung => samsungTable f
  | .sbp => sbpTable f
  | .denon => denonTable f

/-- `ps` is a frame of that timing, carrying any word. -/
def Timing.Frame (f : Nat) (ps : List (Nat × Nat)) : Timing → Prop
  | .nec => ∃ w, NecFrame (necTable f) w ps
  | .samsung => ∃ w, NecFrame (samsungTable f) w ps
  | .sbp => ∃ a w, Matches (sbpTable f) (sbpSlots a w) ps
  | .denon => ∃ w, Matches (denonTable f) (denonSlots w) ps

/-- Any number of frames, each followed by a pulse (stop mark, gap) that means nothing to a receiver
with table `tbl` and a clock of `width` bits. -/
def Traffic (a : Timing) (f : Nat) (tbl : PulseSpans) (width : Nat)
    (chunks : List (List (Nat × Nat) × (Nat × Nat))) : Prop :=
  ∀ c ∈ chunks, a.Frame f c.1 ∧ c.2.1 + c.2.2 < 2 ^ width ∧
    ∀ i, i < 4 → ¬ InTol tbl i (c.2.1 + c.2.2)

/-- The edges on the wire, `g` after power-up. -/
def traffic (g : Nat) (chunks : List (List (Nat × Nat) × (Nat × Nat))) : List Ev :=
  (true, g) :: pulses (chunks.flatMap fun c => c.1 ++ [c.2])

/-- No result is a command. -/
def NoCommand {K : Type} (outs : List (Res K)) : Prop := ∀ k, .ok (some k) ∉ outs

end Infrared.Spec
