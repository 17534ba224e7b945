import Verif.Spec.Wrap
import Verif.Spec.HurtBi

/-!
# Counters that wrap around: the Manchester codes

The interval in which the counter wraps around is measured as 0 ticks.  The decoders take that for a symbol of their table
that is not in use: 3 half-bits (RC5), 7 half-bits (RC6).  So a transmission is not broken off, but an interval of 2
half-bits that is taken for an odd number of them exchanges the middles of bits and the boundaries between them.
-/

namespace Infrared.Spec

/-- The interval, counted from 0 (the pause), in which the counter wraps around; `t` is the time before it. -/
def wrapEdge (u f phase w : Nat) : (t : Nat) → List (Bool × Nat) → Option Nat
  | _, [] => none
  | t, e :: es =>
    if laps u f phase w t = laps u f phase w (t + e.2) then (wrapEdge u f phase w (t + e.2) es).map (· + 1) else some 0

/-- The transmissions of a series: what was sent, whether the end of its last mark is seen, and where the counter wraps
around. -/
def wrapsOf {A : Type} (u f phase w : Nat) :
    (t : Nat) → List (A × List (Bool × Nat) × Option Nat) → List (A × Bool × Option Nat)
  | _, [] => []
  | t, i :: is => (i.1, i.2.2.isSome, wrapEdge u f phase w t (withTail i.2.1 i.2.2)) ::
      wrapsOf u f phase w (t + total (withTail i.2.1 i.2.2)) is

/-- A pause of 16 ms or more before the transmission; both together take less than half of what the counter can count. -/
def RestBefore (u f w : Nat) (evs : List (Bool × Nat)) (tail : Option Nat) : Prop :=
  After16 u evs ∧ 2 * total (withTail evs tail) * f + u < 2 ^ w * u

/-- If the interval before edge `k` is of 2 half-bits: how many half-bits after the first edge it ends. -/
def longAt (edges : List (Bool × Nat)) (k : Nat) : Option Nat :=
  if edges[k]?.map Prod.snd = some 2 then some (total (edges.tail.take k)) else none

/-- RC5: the command is heard unless the wrap-around hits an interval of 2 half-bits.  Then nothing is heard, except if all
bits from there on (`m` of them) are ones and the end of the last mark is seen: the receiver takes these bits for zeros. -/
def rc5Wrapped (w : BitVec 14) (ended : Bool) (k : Option Nat) : List (Res Rc5Command) :=
  match k.bind (longAt (rc5Edges w)) with
  | none => oks [Rc5Command.unpack (w.setWidth 16)]
  | some n =>
    let m := 14 - n / 2
    if ended = true ∧ ∀ i < m, w.getLsbD i = true then oks [Rc5Command.unpack ((w >>> m <<< m).setWidth 16)] else []

/-- The interval before edge `k`: how many half-bits it takes, and how many half-bits after the first edge it ends. -/
def intervalAt (edges : List (Bool × Nat)) (k : Nat) : Option (Nat × Nat) :=
  edges[k]?.map fun e => (e.2, total (edges.tail.take k))

/-- From the most significant bit on: ones, then zeros. -/
def Sinking (d : BitVec 16) : Prop := ∀ j < 16, ∀ i < j, d.getLsbD i = true → d.getLsbD j = true

instance (d : BitVec 16) : Decidable (Sinking d) := inferInstanceAs (Decidable (∀ j < 16, _))

/-- RC6: nothing is heard if the wrap-around hits the leader (ends 6 and 8 half-bits after the first edge) or the toggle
bit (16 and 18).  Elsewhere the command is heard unless the interval is of 2 half-bits.  If it is, nothing is heard with
three exceptions, all for few commands only:
* before the data, or at their beginning (11 and 20), toggle bit clear: all bits zero are taken for all ones;
* at the beginning of the data, toggle bit set: ones followed by zeros are taken for zeros followed by ones;
* within the data: if all bits from there on (`m` of them) are zeros, they are taken for ones.

The last two only if the end of the last mark is seen, or if the bits are all ones. -/
def rc6Wrapped (c : Rc6Command) (ended : Bool) (k : Option Nat) : List (Res Rc6Command) :=
  let d := c.addr ++ c.cmd
  match k.bind (intervalAt (rc6Edges d c.toggle)) with
  | none => oks [c]
  | some (n, q) =>
    if q = 6 ∨ q = 8 ∨ q = 16 ∨ q = 18 then []
    else if n ≠ 2 then oks [c]
    else if q ≤ 20 then
      if (c.toggle = false ∧ d = 0#16) ∨
          (c.toggle = true ∧ q = 20 ∧ Sinking d ∧ (ended = true ∨ d = BitVec.allOnes 16)) then
        oks [Rc6Command.fromBits (~~~d) c.toggle]
      else []
    else
      let m := 16 - (q - 21) / 2
      if ended = true ∧ ∀ i < m, d.getLsbD i = false then
        oks [Rc6Command.fromBits (d ||| BitVec.allOnes 16 >>> (16 - m)) c.toggle]
      else []

end Infrared.Spec
