import Verif.Model.Receiver

/-!
# Event histories

Vocabulary for statements about receivers over whole histories; independent of the decoders.
An event is `(edge, dt)`: the direction of the edge (`true` = rising, i.e. a mark begins) and
the time since the previous edge.
-/

namespace Infrared

abbrev Ev := Bool × Nat

variable {C K : Type}

/-- Run a (partial) step function with output over a list of inputs. -/
def runStep {S I R : Type} (f : S → I → Option (S × R)) (s : S) : List I → Option (S × List R)
  | [] => some (s, [])
  | e :: es =>
    match f s e with
    | none => none
    | some (s', res) =>
      match runStep f s' es with
      | none => none
      | some (s'', out) => some (s'', res :: out)

/-- Feed a receiver a history; `none` if some call panics.  The second component lists the
result of every call. -/
def Receiver.run (D : Decoder C) (conv : C → K) (r : Receiver D) :
    List Ev → Option (Receiver D × List (Res K))
  | [] => some (r, [])
  | e :: es =>
    match r.event D conv e.2 e.1 with
    | none => none
    | some (r', res) =>
      match Receiver.run D conv r' es with
      | none => none
      | some (r'', out) => some (r'', res :: out)

/-- The results a brand-new receiver returns for a history. -/
def results (D : Decoder C) (conv : C → K) (evs : List Ev) : Option (List (Res K)) :=
  ((Receiver.new D).run D conv evs).map Prod.snd

namespace Spec

/-- Periods between rising edges, as a `width`-bit receiver sees them: the time from a rising
edge to the next one is mark + space; `saved` is the duration of the mark in progress. -/
def periodsFrom (width : Nat) : (saved : Nat) → List Ev → List Nat
  | _, [] => []
  | _, (false, dt) :: es => periodsFrom width dt es
  | saved, (true, dt) :: es => ((saved + dt) % 2 ^ width) :: periodsFrom width 0 es

/-- The periods of a history starting at power-up. -/
def periods (width : Nat) (evs : List Ev) : List Nat := periodsFrom width 0 evs

/-- A pulse train after a rising edge: each pair is (mark, space). -/
def pulses : List (Nat × Nat) → List Ev
  | [] => []
  | (h, l) :: ps => (false, h) :: (true, l) :: pulses ps

/-- `d` lies in interval `i` of the table. -/
def InTol (ps : PulseSpans) (i d : Nat) : Prop :=
  ∃ s, ps.spans[i]? = some s ∧ s.low ≤ d ∧ d ≤ s.high

end Spec

end Infrared
