import Verif.Spec.Frames
import Verif.Spec.Manchester
import Verif.Spec.Sampling

/-!
# Many transmissions, one after the other

What a remote control sends over a long time: any number of frames (and NEC repeat codes) with
pauses between them, and what the listener is supposed to hear.
-/

namespace Infrared.Spec

/-- What a NEC remote sends: a frame carrying a word, or a repeat code. -/
inductive NecItem where
  | frame (w : BitVec 32) (ps : List (Nat × Nat))
  | rep (p : Nat × Nat)

/-- Its pulses. -/
def NecItem.wire : NecItem → List (Nat × Nat)
  | .frame _ ps => ps
  | .rep p => [p]

/-- The pulses are within tolerance. -/
def NecItem.Ok (tbl : PulseSpans) : NecItem → Prop
  | .frame w ps => NecFrame tbl w ps
  | .rep p => InTol tbl 1 (p.1 + p.2)

/-- A period that fits the clock and is none of the given symbols: a pause. -/
def Pause (tbl : PulseSpans) (width : Nat) (syms : List Nat) (p : Nat × Nat) : Prop :=
  p.1 + p.2 < 2 ^ width ∧ ∀ i ∈ syms, ¬ InTol tbl i (p.1 + p.2)

/-- A series of pulse-distance transmissions, each followed by its stop mark and a pause. -/
def series {A : Type} (wire : A → List (Nat × Nat)) (items : List (A × (Nat × Nat))) : List Ev :=
  pulses (items.flatMap fun i => wire i.1 ++ [i.2])

/-- What the listener hears: each frame as its own command, and each repeat code as a repetition of
the most recent word (`last`), read by `unpack`; words `unpack` refuses are not heard. -/
def necHeard {C : Type} (unpack : BitVec 32 → Bool → Option C) : (last : BitVec 32) →
    List NecItem → List C
  | _, [] => []
  | _, .frame w _ :: is => (unpack w false).toList ++ necHeard unpack w is
  | last, .rep _ :: is => (unpack last true).toList ++ necHeard unpack last is

/-- A Manchester transmission and, when the line ends high, the edge that ends it, whenever that
may come. -/
def withTail (evs : List Ev) : Option Nat → List Ev
  | none => evs
  | some x => evs ++ [(false, x)]

/-- Commands as successful results. -/
def oks {K : Type} (l : List K) : List (Res K) := l.map fun k => .ok (some k)

end Infrared.Spec
