import Verif.Spec.Run

/-!
# Frames on the wire

Descriptions of well-formed transmissions, written from the protocol documentation; a pulse
is a pair (mark, space) in receiver ticks.
-/

namespace Infrared.Spec

/-- A NEC-family frame carrying `w`: a sync pulse and 32 bit pulses, least significant bit
first, each within the tolerance of its symbol (slot 0 sync, 2 zero, 3 one). -/
structure NecFrame (tbl : PulseSpans) (w : BitVec 32) (ps : List (Nat × Nat)) : Prop where
  len : ps.length = 33
  sync : ∀ p, ps[0]? = some p → InTol tbl 0 (p.1 + p.2)
  bits : ∀ i p, ps[i + 1]? = some p → InTol tbl (if w.getLsbD i then 3 else 2) (p.1 + p.2)

/-- The history ends with a NEC-family frame carrying `w`. -/
def EndsWithNecFrame (width : Nat) (tbl : PulseSpans) (w : BitVec 32) (h : List Ev) : Prop :=
  ∃ pre s bits, periods width h = pre ++ s :: bits ∧ bits.length = 32 ∧ InTol tbl 0 s ∧
    ∀ i p, bits[i]? = some p → InTol tbl (if w.getLsbD i then 3 else 2) p

/-- The history ends with a NEC repeat code (slot 1). -/
def EndsWithNecRepeat (width : Nat) (tbl : PulseSpans) (h : List Ev) : Prop :=
  ∃ pre p, periods width h = pre ++ [p] ∧ InTol tbl 1 p

/-- The frame with nominal durations in µs (standard timing), for a 1 MHz receiver. -/
def nominalNec (w : BitVec 32) : List (Nat × Nat) :=
  (9000, 4500) :: (List.range 32).map fun i => (560, if w.getLsbD i then 1690 else 560)

/-- The frame with nominal durations in µs (Samsung timing), for a 1 MHz receiver. -/
def nominalSamsung (w : BitVec 32) : List (Nat × Nat) :=
  (4500, 4500) :: (List.range 32).map fun i => (560, if w.getLsbD i then 1690 else 560)

/-- Slots of an SBP frame: sync, 16 address bits, divider, 20 command bits, least significant
bit first (slot 0 sync, 1 divider, 2 zero, 3 one). -/
def sbpSlots (a : BitVec 16) (w : BitVec 20) : List Nat :=
  [0] ++ (List.range 16).map (fun i => if a.getLsbD i then 3 else 2) ++ [1] ++
    (List.range 20).map (fun i => if w.getLsbD i then 3 else 2)

/-- Slots of a Denon frame: sync and 48 bits (slot 0 sync, 1 zero, 2 one). -/
def denonSlots (w : BitVec 48) : List Nat :=
  [0] ++ (List.range 48).map (fun i => if w.getLsbD i then 2 else 1)

/-- The pulses match the slots one by one. -/
def Matches (tbl : PulseSpans) (slots : List Nat) (ps : List (Nat × Nat)) : Prop :=
  ps.length = slots.length ∧
    ∀ (i : Nat) (p : Nat × Nat) (s : Nat), ps[i]? = some p → slots[i]? = some s →
      InTol tbl s (p.1 + p.2)

/-- The most recent periods of the history match the slots one by one. -/
def EndsWith (width : Nat) (tbl : PulseSpans) (slots : List Nat) (h : List Ev) : Prop :=
  ∃ pre ps, periods width h = pre ++ ps ∧ ps.length = slots.length ∧
    ∀ (i : Nat) (p s : Nat), ps[i]? = some p → slots[i]? = some s → InTol tbl s p

/-- Edges alternate. -/
def Alternating : List Ev → Prop
  | [] => True
  | [_] => True
  | a :: b :: es => a.1 ≠ b.1 ∧ Alternating (b :: es)

end Infrared.Spec
