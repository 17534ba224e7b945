import Verif.Spec.Run

/-!
# Manchester (bi-phase) waveforms

A transmission is a sequence of levels, one per half-bit; the receiver sees its level changes.
Written from the protocol documentation, independently of encoders and decoders.
-/

namespace Infrared.Spec

/-- Level changes of a sequence of half-bit levels: direction and number of half-bits since the
previous change (`n` so far, at level `prev`). -/
def edgesFrom (prev : Bool) (n : Nat) : List Bool → List (Bool × Nat)
  | [] => []
  | l :: ls => if l = prev then edgesFrom prev (n + 1) ls else (l, n) :: edgesFrom l 1 ls

/-- `d` ticks count as `n` half-bits: interval `n - 1` is the first one containing `d`. -/
def HalfBits (tbl : PulseSpans) (d n : Nat) : Prop :=
  ∃ k, n = k + 1 ∧ InTol tbl k d ∧ ∀ j, j < k → ¬ InTol tbl j d

/-- `d` ticks are within the tolerance of `n` half-bits. -/
def Within (tbl : PulseSpans) (d n : Nat) : Prop := InTol tbl (n - 1) d

/-- The events have the given directions and lengths, where `fits d n` says that `d` ticks fit
`n` half-bits. -/
def Timed (fits : Nat → Nat → Prop) : List Ev → List (Bool × Nat) → Prop
  | [], [] => True
  | e :: es, w :: ws => e.1 = w.1 ∧ fits e.2 w.2 ∧ Timed fits es ws
  | _, _ => False

/-- The events are a transmission with the given edges: a rising edge after an arbitrary pause,
and the rest on time. -/
def ManchesterFrame (fits : Nat → Nat → Prop) (edges : List (Bool × Nat)) (evs : List Ev) : Prop :=
  ∃ pause n evs' edges', evs = (true, pause) :: evs' ∧ edges = (true, n) :: edges' ∧
    Timed fits evs' edges'

/-- RC5: bits most significant first, `1` is low-high, `0` is high-low. -/
def rc5Levels (w : BitVec 14) : List Bool :=
  (List.range 14).flatMap fun i => [!w.getLsbD (13 - i), w.getLsbD (13 - i)]

/-- The edges of an RC5 transmission (line low before it). -/
def rc5Edges (w : BitVec 14) : List (Bool × Nat) := edgesFrom false 0 (rc5Levels w)

/-- RC6: leader (6 high, 2 low), start bit `1`, three mode bits, a double-length toggle bit,
16 data bits most significant first; `1` is high-low, `0` is low-high. -/
def rc6LevelsMode (mode : BitVec 3) (w : BitVec 16) (toggle : Bool) : List Bool :=
  List.replicate 6 true ++ List.replicate 2 false ++ [true, false] ++
  ((List.range 3).flatMap fun i => [mode.getLsbD (2 - i), !mode.getLsbD (2 - i)]) ++
  [toggle, toggle, !toggle, !toggle] ++
  (List.range 16).flatMap fun i => [w.getLsbD (15 - i), !w.getLsbD (15 - i)]

/-- The edges of an RC6 transmission (line low before it). -/
def rc6EdgesMode (mode : BitVec 3) (w : BitVec 16) (toggle : Bool) : List (Bool × Nat) :=
  edgesFrom false 0 (rc6LevelsMode mode w toggle)

/-- The edges of an RC6 mode 0 transmission. -/
def rc6Edges (w : BitVec 16) (toggle : Bool) : List (Bool × Nat) := rc6EdgesMode 0 w toggle

/-- Directions of the edges that fall on half-bit positions of the given parity, counting from
position `pos`. -/
def sampled (parity pos : Nat) : List (Bool × Nat) → List Bool
  | [] => []
  | (b, n) :: es =>
    if (pos + n) % 2 = parity then b :: sampled parity (pos + n) es
    else sampled parity (pos + n) es

/-- Position after the edges. -/
def total (edges : List (Bool × Nat)) : Nat := (edges.map Prod.snd).sum

end Infrared.Spec
