import Verif.Model.Decoder

/-!
# Denon 48 bit protocol

Models `/repo/src/protocol/denon/mod.rs`.
-/

namespace Infrared

/-- `DenonCommand`, `denon/mod.rs:61-63`. -/
structure DenonCommand where
  bits : BitVec 64
deriving Repr, DecidableEq

/-- `PULSE`, `denon/mod.rs:14-28`. -/
def denonPulse : List Nat := [3400 + 1600, 480 + 360, 480 + 1200, 0, 0, 0, 0, 0]

/-- `TOL`, `denon/mod.rs:30`. -/
def denonTol : List Nat := [8, 10, 10, 0, 0, 0, 0, 0]

/-- `PulseWidth`, `denon/mod.rs:142-147`. -/
inductive DenonPulse
  | sync | zero | one | fail
deriving Repr, DecidableEq

/-- `impl From<usize> for PulseWidth`, `denon/mod.rs:149-158`. -/
def DenonPulse.ofIdx : Nat → DenonPulse
  | 0 => .sync
  | 1 => .zero
  | 2 => .one
  | _ => .fail

/-- `self.spans.get::<PulseWidth>(..).unwrap_or(PulseWidth::Fail)`, `denon/mod.rs:82-83`. -/
def DenonPulse.classify (spans : PulseSpans) (total : Nat) : DenonPulse :=
  match spans.get total with
  | some i => DenonPulse.ofIdx i
  | none => .fail

/-- `DenonState`, `denon/mod.rs:124-128`. -/
inductive DenonState
  | idle | data (idx : Nat) | done
deriving Repr, DecidableEq

/-- `impl From<DenonState> for State`, `denon/mod.rs:130-138`. -/
def DenonState.toState : DenonState → State
  | .idle => .idle
  | .data _ => .receiving
  | .done => .done

/-- `DenonDecoder`, `denon/mod.rs:52-57`. -/
structure DenonDecoder where
  state : DenonState
  buf : BitVec 64
  dtSave : Nat
deriving Repr, DecidableEq

/-- The `match (self.state, pulsewidth)`, `denon/mod.rs:85-94`.  Note that the
`(Data(47), One)` arm does not record the bit, and that a failed frame returns to `Idle`
without clearing `buf`. -/
def DenonDecoder.transition (t : Target) (state : DenonState) (buf : BitVec 64)
    (pw : DenonPulse) : Option (DenonState × BitVec 64) :=
  match state, pw with
  | .idle, .sync => some (.data 0, buf)
  | .idle, _ => some (.idle, buf)
  | .data idx, .zero =>
    if idx = 47 then some (.done, buf) else some (.data (idx + 1), buf)
  | .data idx, .one =>
    if idx = 47 then some (.done, buf)
    else do
      let b ← shl1 t 64 idx
      some (.data (idx + 1), buf ||| b)
  | .data _, _ => some (.idle, buf)
  | .done, _ => some (.done, buf)

/-- `DenonDecoder::event`, `denon/mod.rs:79-102`. -/
def DenonDecoder.event (t : Target) (m : Mono) (spans : PulseSpans) (d : DenonDecoder)
    (rising : Bool) (dt : Nat) : Option (DenonDecoder × State) :=
  if rising then do
    let total ← m.add t d.dtSave dt
    let (state, buf) ← DenonDecoder.transition t d.state d.buf (DenonPulse.classify spans total)
    some ({ state, buf, dtSave := 0 }, state.toState)
  else
    some ({ d with dtSave := dt }, d.state.toState)

/-- `DenonDecoder::command`, `denon/mod.rs:104-110`. -/
def DenonDecoder.command (d : DenonDecoder) : Option DenonCommand :=
  if d.state = .done then some { bits := d.buf } else none

/-- `DenonDecoder::reset`, `denon/mod.rs:111-115`. -/
def DenonDecoder.reset (_d : DenonDecoder) : DenonDecoder :=
  { state := .idle, buf := 0, dtSave := 0 }

/-- `impl ProtocolDecoder<Denon, Mono> for DenonDecoder` with the initial state of `build`,
`denon/mod.rs:42-49,77-120`. -/
def denonDecoder (t : Target) (m : Mono) (spans : PulseSpans) : Decoder DenonCommand where
  St := DenonDecoder
  init := { state := .idle, buf := 0, dtSave := 0 }
  event := DenonDecoder.event t m spans
  command := DenonDecoder.command
  reset := DenonDecoder.reset

/-- The tolerance table made by `build(freq)`, `denon/mod.rs:47`. -/
def denonSpans (t : Target) (m : Mono) (freq : Nat) : Option PulseSpans :=
  PulseSpans.new t m freq denonPulse denonTol

end Infrared
