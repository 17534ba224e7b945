import Verif.Spec.Missing

/-!
# Transmissions and noise

What is on the line between two pauses is a transmission, disturbed or not, or something else: an arbitrary number of marks
and spaces of arbitrary length.
-/

namespace Infrared.Spec

variable {C : Type}

/-- The counter of the receiver does not overflow during any of these periods. -/
def Countable (u f width : Nat) (ps : List (Nat × Nat)) : Prop := ∀ p ∈ ps, (p.1 + p.2) * f + u < 2 ^ width * u

/-- A transmission of the NEC family, or noise of `n` periods. -/
inductive NecNoisy where
  | sent (s : NecHurt)
  | noise (n : Nat)

/-- How it looks on the line: noise can be anything. -/
def NecNoisy.Wire (u f width j sync again : Nat) (ps : List (Nat × Nat)) : NecNoisy → Prop
  | .sent s => s.Wire u j sync again ps
  | .noise n => ps.length = n ∧ Countable u f width ps

/-- What the receiver can make of noise of `n` periods, the pause after it not counted: a command takes 33 of them, a
repeat code one (it stands for the last frame begun, `last`), an error two, or one if it is the pause that is wrong. -/
inductive NecMade (unpack : BitVec 32 → Bool → Option C) : BitVec 32 → Nat → List (Res C) → BitVec 32 → Prop
  | nothing (last : BitVec 32) (n : Nat) : NecMade unpack last n [] last
  | ended (last last' : BitVec 32) (n : Nat) : NecMade unpack last (n + 1) [.error .data] last'
  | again (last last' : BitVec 32) (n : Nat) (r : List (Res C)) (h : NecMade unpack last n r last') :
      NecMade unpack last (n + 1) (oks (unpack last true).toList ++ r) last'
  | wrong (last w last' : BitVec 32) (n : Nat) (r : List (Res C)) (h : NecMade unpack w n r last') :
      NecMade unpack last (n + 2) (.error .data :: r) last'
  | command (last w last' : BitVec 32) (n : Nat) (r : List (Res C)) (h : NecMade unpack w n r last') :
      NecMade unpack last (n + 33) (oks (unpack w false).toList ++ r) last'

/-- What the receiver says: transmissions are answered as if there were no noise. -/
inductive necNoisyAnswer (unpack : BitVec 32 → Bool → Option C) (last : BitVec 32) :
    NecNoisy → List (Res C) → BitVec 32 → Prop
  | sent (s : NecHurt) (r : List (Res C)) (last' : BitVec 32) (h : necHurtAnswer unpack last s r last') :
      necNoisyAnswer unpack last (.sent s) r last'
  | noise (n : Nat) (r : List (Res C)) (last' : BitVec 32) (h : NecMade unpack last n r last') :
      necNoisyAnswer unpack last (.noise n) r last'

/-- A transmission of SBP, or noise of `n` periods. -/
inductive SbpNoisy where
  | sent (s : SbpHurt)
  | noise (n : Nat)

@[inherit_doc NecNoisy.Wire]
def SbpNoisy.Wire (u f width j : Nat) (ps : List (Nat × Nat)) : SbpNoisy → Prop
  | .sent s => s.Wire u j ps
  | .noise n => ps.length = n ∧ Countable u f width ps

/-- What the receiver can make of noise of `n` periods: a command takes 38 of them, an error in the address two and one in
the data 18, one less if it is the pause that is wrong. -/
inductive SbpMade : Nat → List (Res SbpCommand) → Prop
  | nothing (n : Nat) : SbpMade n []
  | endedAddress (n : Nat) : SbpMade (n + 1) [.error .address]
  | endedData (n : Nat) : SbpMade (n + 17) [.error .data]
  | address (n : Nat) (r : List (Res SbpCommand)) (h : SbpMade n r) : SbpMade (n + 2) (.error .address :: r)
  | data (n : Nat) (r : List (Res SbpCommand)) (h : SbpMade n r) : SbpMade (n + 18) (.error .data :: r)
  | command (a : BitVec 16) (w : BitVec 32) (n : Nat) (r : List (Res SbpCommand)) (h : SbpMade n r) :
      SbpMade (n + 38) (.ok (some (SbpCommand.unpack a w)) :: r)

@[inherit_doc necNoisyAnswer]
inductive sbpNoisyAnswer : Unit → SbpNoisy → List (Res SbpCommand) → Unit → Prop
  | sent (s : SbpHurt) (r : List (Res SbpCommand)) (h : sbpHurtAnswer () s r ()) : sbpNoisyAnswer () (.sent s) r ()
  | noise (n : Nat) (r : List (Res SbpCommand)) (h : SbpMade n r) : sbpNoisyAnswer () (.noise n) r ()

/-- A transmission of Denon, or noise of `n` periods. -/
inductive DenonNoisy where
  | sent (s : DenonHurt)
  | noise (n : Nat)

@[inherit_doc NecNoisy.Wire]
def DenonNoisy.Wire (u f width j : Nat) (ps : List (Nat × Nat)) : DenonNoisy → Prop
  | .sent s => s.Wire u j ps
  | .noise n => ps.length = n ∧ Countable u f width ps

/-- What the receiver can make of noise of `n` periods: a command takes 49 of them; what looks like the beginning of a frame
is mixed into the next command. -/
inductive DenonMade : BitVec 64 → Nat → List (Res DenonCommand) → BitVec 64 → Prop
  | nothing (stale : BitVec 64) (n : Nat) : DenonMade stale n [] stale
  | lost (stale w stale' : BitVec 64) (n : Nat) (r : List (Res DenonCommand)) (h : DenonMade (stale ||| w) n r stale') :
      DenonMade stale (n + 1) r stale'
  | command (stale w stale' : BitVec 64) (n : Nat) (r : List (Res DenonCommand)) (h : DenonMade 0 n r stale') :
      DenonMade stale (n + 49) (.ok (some { bits := stale ||| w }) :: r) stale'

@[inherit_doc necNoisyAnswer]
inductive denonNoisyAnswer : BitVec 64 → DenonNoisy → List (Res DenonCommand) → BitVec 64 → Prop
  | sent (stale : BitVec 64) (s : DenonHurt) (r : List (Res DenonCommand)) (stale' : BitVec 64)
      (h : denonHurtAnswer stale s r stale') : denonNoisyAnswer stale (.sent s) r stale'
  | noise (stale : BitVec 64) (n : Nat) (r : List (Res DenonCommand)) (stale' : BitVec 64)
      (h : DenonMade stale n r stale') : denonNoisyAnswer stale (.noise n) r stale'

/-! ## Manchester codes -/

/-- The edges of a piece of noise: any edges, the first of them at least 16 ms after whatever came before. -/
def Stray (u n : Nat) (evs : List (Bool × Nat)) (tail : Option Nat) : Prop :=
  evs.length = n ∧ tail = none ∧ ∃ e es, evs = e :: es ∧ 16000 * u ≤ 1000000 * e.2

/-- The first `k` edges of an RC5 transmission, or noise of `n` edges. -/
inductive Rc5Noisy where
  | sent (w : BitVec 14) (k : Nat)
  | noise (n : Nat)

/-- How it looks on the line. -/
def Rc5Noisy.Wire (u j f : Nat) (evs : List (Bool × Nat)) (tail : Option Nat) : Rc5Noisy → Prop
  | .sent w k => w.getLsbD 13 = true ∧ SentFor u j f 889 (rc5Edges w) k evs tail
  | .noise n => Stray u n evs tail

/-- What the receiver says: the command of a complete transmission, nothing about one that breaks off.  A command made of
noise takes 14 edges of it. -/
inductive rc5NoisyAnswer : Unit → Rc5Noisy → List (Res Rc5Command) → Unit → Prop
  | whole (w : BitVec 14) (k : Nat) (h : (rc5Edges w).length ≤ k) :
      rc5NoisyAnswer () (.sent w k) (oks [Rc5Command.unpack (w.setWidth 16)]) ()
  | part (w : BitVec 14) (k : Nat) (h : k < (rc5Edges w).length) : rc5NoisyAnswer () (.sent w k) [] ()
  | noise (n : Nat) (cs : List Rc5Command) (h : 14 * cs.length ≤ n) : rc5NoisyAnswer () (.noise n) (oks cs) ()

/-- The first `k` edges of an RC6 transmission (mode 0), or noise of `n` edges. -/
inductive Rc6Noisy where
  | sent (c : Rc6Command) (k : Nat)
  | noise (n : Nat)

@[inherit_doc Rc5Noisy.Wire]
def Rc6Noisy.Wire (u j f : Nat) (evs : List (Bool × Nat)) (tail : Option Nat) : Rc6Noisy → Prop
  | .sent c k => SentFor u j f 444 (rc6Edges (c.addr ++ c.cmd) c.toggle) k evs tail
  | .noise n => Stray u n evs tail

/-- What the receiver says.  A command made of noise takes 24 edges of it. -/
inductive rc6NoisyAnswer : Unit → Rc6Noisy → List (Res Rc6Command) → Unit → Prop
  | whole (c : Rc6Command) (k : Nat) (h : (rc6Edges (c.addr ++ c.cmd) c.toggle).length ≤ k) :
      rc6NoisyAnswer () (.sent c k) (oks [c]) ()
  | part (c : Rc6Command) (k : Nat) (h : k < (rc6Edges (c.addr ++ c.cmd) c.toggle).length) :
      rc6NoisyAnswer () (.sent c k) [] ()
  | noise (n : Nat) (cs : List Rc6Command) (h : 24 * cs.length ≤ n) : rc6NoisyAnswer () (.noise n) (oks cs) ()

/-- The noise in a series of Manchester pieces is not so long that the counters of a build with overflow checks
overflow. -/
def NoPanic (t : Target) (n : Nat) : Prop := t.overflowChecks = false ∨ 8 * n < 2 ^ t.usizeBits

end Infrared.Spec
