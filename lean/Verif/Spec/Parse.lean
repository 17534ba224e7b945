import Verif.Spec.Streams

/-!
# Everything a receiver says, as a parser

Histories are turned into periods between rising edges (`periods`) and these into symbols of the table; the parsers
below read whole frames off the list of symbols.  For the Manchester codes the edges are measured in half-bits instead.  They cover every list,
well-formed or not.
-/

namespace Infrared.Spec

variable {C : Type}

/-- The symbols of a history: for each period its slot of the table, if any. -/
def symbols (width : Nat) (tbl : PulseSpans) (evs : List Ev) : List (Option Nat) :=
  (periods width evs).map tbl.get

/-- The bits at the beginning of a list of symbols, at most `k`. -/
def leadingBits (z o : Nat) : Nat → List (Option Nat) → List Bool
  | 0, _ => []
  | _, [] => []
  | k + 1, s :: ss =>
    if s = some o then true :: leadingBits z o k ss
    else if s = some z then false :: leadingBits z o k ss
    else []

/-- The word with these bits, least significant first. -/
def wordOf (n : Nat) : List Bool → BitVec n
  | [] => 0
  | b :: bs => (if b then 1 else 0) ||| wordOf n bs <<< 1

/-- NEC family (slots 0 sync, 1 repeat, 2 zero, 3 one).  `last` is the word a repeat code stands for: the bits of the
last frame begun, complete or not.  A frame that breaks off is answered with one error, and the symbol that broke it
is used up. -/
def necParse (unpack : BitVec 32 → Bool → Option C) (last : BitVec 32) : List (Option Nat) → List (Res C)
  | [] => []
  | s :: ss =>
    if s = some 0 then
      let bits := leadingBits 2 3 32 ss
      if bits.length = 32 then
        said [.ok (unpack (wordOf 32 bits) false)] ++ necParse unpack (wordOf 32 bits) (ss.drop 32)
      else if ss.length ≤ bits.length then []
      else .error .data :: necParse unpack (wordOf 32 bits) (ss.drop (bits.length + 1))
    else if s = some 1 then said [.ok (unpack last true)] ++ necParse unpack last ss
    else necParse unpack last ss
termination_by ss => ss.length

/-- SBP (slots 0 sync, 1 divider, 2 zero, 3 one): sync, 16 bits, divider, 20 bits. -/
def sbpParse : List (Option Nat) → List (Res SbpCommand)
  | [] => []
  | s :: ss =>
    if s = some 0 then
      let a := leadingBits 2 3 16 ss
      if a.length < 16 then
        if ss.length ≤ a.length then [] else .error .address :: sbpParse (ss.drop (a.length + 1))
      else if ss.length ≤ 16 then []
      else if ss[16]? = some (some 1) then
        let c := leadingBits 2 3 20 (ss.drop 17)
        if c.length = 20 then
          .ok (some (SbpCommand.unpack (wordOf 16 a) (wordOf 32 c))) :: sbpParse (ss.drop 37)
        else if ss.length ≤ 17 + c.length then []
        else .error .data :: sbpParse (ss.drop (17 + c.length + 1))
      else .error .data :: sbpParse (ss.drop 17)
    else sbpParse ss
termination_by ss => ss.length

/-- Denon (slots 0 sync, 1 zero, 2 one): sync and 48 bits, of which the last is not kept.  `stale` are the bits of
frames that broke off since the last command; they are added to the next command. -/
def denonParse (stale : BitVec 64) : List (Option Nat) → List (Res DenonCommand)
  | [] => []
  | s :: ss =>
    if s = some 0 then
      let bits := leadingBits 1 2 48 ss
      if bits.length = 48 then
        .ok (some { bits := stale ||| wordOf 64 (bits.take 47) }) :: denonParse 0 (ss.drop 48)
      else denonParse (stale ||| wordOf 64 bits) (ss.drop (bits.length + 1))
    else denonParse stale ss
termination_by ss => ss.length

/-! ## Manchester codes -/

/-- An edge and the number of half-bits since the one before it, if it is one the table knows. -/
abbrev HalfEdge := Bool × Option Nat

/-- The measured edges of a history. -/
def halfEdges (tbl : PulseSpans) (evs : List Ev) : List HalfEdge :=
  evs.map fun e => (e.1, (tbl.get e.2).map (· + 1))

/-- Reads edges until `k` of them were at a position of parity `par`, counted in half-bits from `pos`: the directions
of these, the position reached and the edges left.  Stops before an edge that cannot be measured. -/
def midEdges (par : Nat) : Nat → Nat → List HalfEdge → List Bool × Nat × List HalfEdge
  | pos, 0, es => ([], pos, es)
  | pos, _ + 1, [] => ([], pos, [])
  | pos, _ + 1, (l, none) :: es => ([], pos, (l, none) :: es)
  | pos, k + 1, (l, some n) :: es =>
    if (pos + n) % 2 = par then
      (l :: (midEdges par (pos + n) k es).1, (midEdges par (pos + n) k es).2)
    else midEdges par (pos + n) (k + 1) es

theorem midEdges_length (par pos k : Nat) (es : List HalfEdge) :
    (midEdges par pos k es).2.2.length ≤ es.length := by
  induction es generalizing pos k with
  | nil => cases k <;> simp [midEdges]
  | cons e es ih =>
    obtain ⟨l, _ | n⟩ := e <;> cases k <;> simp only [midEdges, Nat.le_refl]
    · split
      · exact Nat.le_succ_of_le (ih _ _)
      · exact Nat.le_succ_of_le (ih _ _)

/-- RC5: a rising edge begins a frame; the 13 bits after it are the directions of the edges at whole bits from it. -/
def rc5Parse : List HalfEdge → List (Res Rc5Command)
  | [] => []
  | (false, _) :: es => rc5Parse es
  | (true, _) :: es =>
    let r := midEdges 0 0 13 es
    if r.1.length = 13 then
      .ok (some (Rc5Command.unpack (wordOf 16 (true :: r.1).reverse))) :: rc5Parse r.2.2
    else rc5Parse r.2.2
termination_by es => es.length
decreasing_by
  · simp
  · exact Nat.lt_succ_of_le (midEdges_length 0 0 13 es)
  · exact Nat.lt_succ_of_le (midEdges_length 0 0 13 es)

/-- What is left when an edge does not fit: the edge is used up if it can be measured, and looked at again if not. -/
def missed : List HalfEdge → List HalfEdge
  | [] => []
  | (l, none) :: es => (l, none) :: es
  | (_, some _) :: es => es

/-- The toggle bit of RC6: falling edges after one half-bit are passed over; then a falling edge after three half-bits
is a set bit and a rising edge after two a clear one. -/
def toggleEdges : Nat → List HalfEdge → Option (Bool × Nat) × List HalfEdge
  | pos, (false, some n) :: es =>
    if n = 1 then toggleEdges (pos + 1) es
    else if n = 3 then (some (true, pos + 3), es)
    else (none, es)
  | pos, (true, some n) :: es => if n = 2 then (some (false, pos + 2), es) else (none, es)
  | _, es => (none, missed es)

/-- The rest of an RC6 frame after its first edge: leader (6 and 2 half-bits), 4 header bits, toggle bit, 16 bits of
which a falling edge is a one. -/
def rc6Frame (es : List HalfEdge) : Option Rc6Command × List HalfEdge :=
  match es with
  | (false, some 6) :: (true, some 2) :: es =>
    let h := midEdges 1 8 4 es
    if h.1.length = 4 then
      match toggleEdges h.2.1 h.2.2 with
      | (some (toggle, pos), es) =>
        let d := midEdges 1 pos 16 es
        if d.1.length = 16 then (some (Rc6Command.fromBits (wordOf 16 (d.1.map not).reverse) toggle), d.2.2)
        else (none, d.2.2)
      | (none, es) => (none, es)
    else (none, h.2.2)
  | (false, some 6) :: es => (none, missed es)
  | es => (none, missed es)

theorem missed_length (es : List HalfEdge) : (missed es).length ≤ es.length := by
  rcases es with _ | ⟨⟨l, _ | n⟩, es⟩ <;> simp [missed]

theorem toggleEdges_length (pos : Nat) (es : List HalfEdge) : (toggleEdges pos es).2.length ≤ es.length := by
  induction es generalizing pos with
  | nil => simp [toggleEdges, missed]
  | cons e es ih =>
    obtain ⟨_ | _, _ | n⟩ := e <;> unfold toggleEdges
    · simp [missed]
    · split
      · exact Nat.le_succ_of_le (ih _)
      · split <;> simp
    · simp [missed]
    · split <;> simp

theorem rc6Frame_length (es : List HalfEdge) : (rc6Frame es).2.length ≤ es.length := by
  unfold rc6Frame
  split
  · rename_i es
    have h1 := midEdges_length 1 8 4 es
    have h2 := toggleEdges_length (midEdges 1 8 4 es).2.1 (midEdges 1 8 4 es).2.2
    dsimp only
    split
    · split
      · rename_i tg pos es' heq
        have h3 := midEdges_length 1 pos 16 es'
        rw [heq] at h2
        dsimp only at h2
        split <;> simp only [List.length_cons] <;> omega
      · rename_i es' heq
        rw [heq] at h2
        dsimp only at h2
        simp only [List.length_cons]; omega
    · simp only [List.length_cons]; omega
  · rename_i es _
    have := missed_length es
    simp only [List.length_cons]; omega
  · exact missed_length _

/-- RC6: a rising edge begins a frame. -/
def rc6Parse : List HalfEdge → List (Res Rc6Command)
  | [] => []
  | (false, _) :: es => rc6Parse es
  | (true, _) :: es =>
    let r := rc6Frame es
    match r.1 with
    | some c => .ok (some c) :: rc6Parse r.2
    | none => rc6Parse r.2
termination_by es => es.length
decreasing_by
  · simp
  · exact Nat.lt_succ_of_le (rc6Frame_length es)
  · exact Nat.lt_succ_of_le (rc6Frame_length es)

end Infrared.Spec
