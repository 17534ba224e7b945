import Verif.Spec.Run

/-!
# Vocabulary for the receiver front ends

How sampled levels, absolute timestamps, buffers and failing pins translate into the plain
event histories of `Spec.Run`; independent of the front ends themselves.
-/

namespace Infrared

variable {C K E I : Type}

namespace Spec

/-- Durations with alternating edges; the first one ends with edge `first`. -/
def alternating : (first : Bool) → List Nat → List Ev
  | _, [] => []
  | b, d :: ds => (b, d) :: alternating (!b) ds

/-- Results that are not errors. -/
def isOk : Res K → Bool
  | .ok _ => true
  | .error _ => false

/-- The commands among the results. -/
def commands (outs : List (Res K)) : List K :=
  outs.filterMap fun
    | .ok c => c
    | .error _ => none

/-- The results that say something, as an iterator can express them: `some k` for a command,
`none` for an error. -/
def reports (outs : List (Res K)) : List (Option K) :=
  outs.filterMap fun
    | .ok none => none
    | .ok (some k) => some (some k)
    | .error _ => some none

/-- What a sampler sees: for each sample nothing, or an edge with the number of samples since
the previous edge (as a 32-bit count).  `level` is the level before, `n` the number of samples
since the previous edge. -/
def sampledEdges : (level : Bool) → (n : Nat) → List Bool → List (Option Ev)
  | _, _, [] => []
  | level, n, s :: ss =>
    if s = level then none :: sampledEdges level (n + 1) ss
    else some (s, (n + 1) % 2 ^ 32) :: sampledEdges s 0 ss

/-- Put the results of the events back where the events occurred; `Ok(None)` elsewhere. -/
def placeResults : List (Option Ev) → List (Res K) → List (Res K)
  | none :: es, outs => .ok none :: placeResults es outs
  | some _ :: es, o :: outs => o :: placeResults es outs
  | _, _ => []

/-- Timestamped edges as durations: time since the previous edge, 0 if the clock went
backwards. -/
def elapsed : (prev : Nat) → List (Bool × Nat) → List Ev
  | _, [] => []
  | prev, (edge, t) :: es => (edge, if prev ≤ t then t - prev else 0) :: elapsed t es

/-- The calls whose pin read succeeded. -/
def readable : List (Except E Bool × I) → List (Bool × I)
  | [] => []
  | (.ok b, i) :: cs => (b, i) :: readable cs
  | (.error _, _) :: cs => readable cs

/-- The same for calls without further argument. -/
def readableSamples : List (Except E Bool) → List Bool
  | [] => []
  | .ok b :: cs => b :: readableSamples cs
  | .error _ :: cs => readableSamples cs

/-- Results of a pin-driven receiver, given the results of the plain one for the successful
calls. -/
def pinResults : List (Except E Bool) → List (Res K) → List (PinRes E K)
  | .error e :: cs, outs => .error (.hal e) :: pinResults cs outs
  | .ok _ :: cs, .ok c :: outs => .ok c :: pinResults cs outs
  | .ok _ :: cs, .error .address :: outs => .error .address :: pinResults cs outs
  | .ok _ :: cs, .error .data :: outs => .error .data :: pinResults cs outs
  | .ok _ :: cs, .error .validation :: outs => .error .validation :: pinResults cs outs
  | .ok _ :: cs, .error .remoteControlError :: outs =>
    .error .remoteControlError :: pinResults cs outs
  | _, _ => []

/-- What a slot of a `MultiReceiver` is supposed to report for a result of its protocol. -/
def slotOf {A : Type} (into : C → A) : Res C → Option A
  | .ok c => c.map into
  | .error _ => none

end Spec

/-! ### Running the front ends -/

/-- `PeriodicPoll` fed with samples, from power-up. -/
def pollRun (D : Decoder C) (conv : C → K) (samples : List Bool) : Option (List (Res K)) :=
  (runStep (fun p s => PeriodicPoll.pollBase D conv p s) (PeriodicPoll.new D) samples).map Prod.snd

/-- `event_instant` fed with (edge, timestamp) pairs, from power-up. -/
def instantRun (m : Mono) (D : Decoder C) (conv : C → K) (calls : List (Bool × Nat)) :
    Option (List (Res K)) :=
  (runStep (fun r (c : Bool × Nat) => Receiver.eventInstant m D conv r c.2 c.1)
    (Receiver.new D) calls).map Prod.snd

/-- `event` with a pin. -/
def pinRun (D : Decoder C) (conv : C → K) (calls : List (Except E Bool × Nat)) :
    Option (List (PinRes E K)) :=
  (runStep (fun r (c : Except E Bool × Nat) => Receiver.eventPin D conv r c.1 c.2)
    (Receiver.new D) calls).map Prod.snd

/-- `event_instant` with a pin. -/
def instantPinRun (m : Mono) (D : Decoder C) (conv : C → K)
    (calls : List (Except E Bool × Nat)) : Option (List (PinRes E K)) :=
  (runStep (fun r (c : Except E Bool × Nat) => Receiver.eventInstantPin m D conv r c.1 c.2)
    (Receiver.new D) calls).map Prod.snd

/-- `PeriodicPoll::poll` with a pin. -/
def pollPinRun (D : Decoder C) (conv : C → K) (calls : List (Except E Bool)) :
    Option (List (PinRes E K)) :=
  (runStep (fun p c => PeriodicPoll.pollPin D conv p c) (PeriodicPoll.new D) calls).map Prod.snd

/-- `MultiReceiver::event` fed with a history: for each event the list of slots. -/
def multiRun : List Slot → List Ev → Option (List Slot × List (List (Option AnyCommand)))
  | ss, [] => some (ss, [])
  | ss, e :: es =>
    match multiEvent ss e.2 e.1 with
    | none => none
    | some rs =>
      match multiRun (rs.map Prod.fst) es with
      | none => none
      | some (ss', outs) => some (ss', rs.map Prod.snd :: outs)

/-- Calling `BufferIterator::next` `n` times. -/
def BufferIterator.nextN (D : Decoder C) (conv : C → K) :
    Nat → BufferIterator D → Option (List (Option K))
  | 0, _ => some []
  | n + 1, it =>
    match it.next D conv with
    | none => none
    | some (it', r) => (BufferIterator.nextN D conv n it').map (r :: ·)

end Infrared
