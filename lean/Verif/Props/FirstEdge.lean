import Verif.Props.Parse
import Verif.Props.Noise
import Verif.Props.Mailbox
import Verif.Spec.Examples

/-!
# Programs that skip the first edge (C72)

`receiver-event-driven.rs` and `multireceiver.rs` measure the distance from the edge before, and do nothing at the very
first edge because there is none before it.  For the protocols with pulse distances this loses nothing.  An RC5 or RC6
receiver waits for exactly this edge.
-/

namespace Infrared

open Spec

variable {C K : Type}

/-! ## The programs -/

theorem eventApp_run (D : Decoder C) (calls : List (Bool × Nat × Nat)) (r : Receiver D) (last : Nat) :
    (EventApp.run D { recv := r, last := some last } calls).map Prod.snd =
      (r.run D id (gaps last calls)).map
        fun p => commands p.2 := by
  induction calls generalizing r last with
  | nil => rfl
  | cons c cs ih =>
    obtain ⟨low, now, later⟩ := c
    rw [EventApp.run, gaps, Receiver.run]
    unfold EventApp.exti9_5 Receiver.eventPin Receiver.event
    dsimp only [Option.map_some]
    change Option.map _ (match (match ((r.eventEdge D id ((2 ^ 32 + later - last) % 2 ^ 32) low).bind
      fun x => some (x.1, PinRes.ofRes (PinErr := Empty) x.2)) with
        | none => none
        | some (recv, .ok (some cmd)) => some ({ recv, last := some now }, some cmd)
        | some (recv, _) => some ({ recv, last := some now }, none) : Option (EventApp D × Option C)) with
      | none => none
      | some (a', logged) => (EventApp.run D a' cs).map fun p => (p.1, logged.toList ++ p.2)) = _
    rcases r.eventEdge D id ((2 ^ 32 + later - last) % 2 ^ 32) low with _ | ⟨r1, res⟩
    · rfl
    · have hi := ih r1 now
      dsimp only
      rcases hs : r1.run D id (gaps now cs) with
        _ | ⟨r2, os⟩
      · rw [hs] at hi
        have hn : EventApp.run D { recv := r1, last := some now } cs = none := Option.map_eq_none_iff.mp hi
        rcases res with e | _ | c
        · change Option.map _ (Option.map _ (EventApp.run D { recv := r1, last := some now } cs)) = _
          rw [hn]; rfl
        · change Option.map _ (Option.map _ (EventApp.run D { recv := r1, last := some now } cs)) = _
          rw [hn]; rfl
        · change Option.map _ (Option.map _ (EventApp.run D { recv := r1, last := some now } cs)) = _
          rw [hn]; rfl
      · rw [hs] at hi
        obtain ⟨⟨a2, l⟩, hn, hl⟩ := Option.map_eq_some_iff.mp hi
        change l = commands os at hl
        subst hl
        rcases res with e | _ | c
        · change Option.map _ (Option.map _ (EventApp.run D { recv := r1, last := some now } cs)) = _
          rw [hn]; rfl
        · change Option.map _ (Option.map _ (EventApp.run D { recv := r1, last := some now } cs)) = _
          rw [hn]; rfl
        · change Option.map _ (Option.map _ (EventApp.run D { recv := r1, last := some now } cs)) = _
          rw [hn]; rfl

/-- **C72**, `receiver-event-driven.rs`: the program logs exactly the commands a receiver returns for the distances
between consecutive edges, the first edge left out; it panics exactly if that receiver does. -/
theorem C72_event (D : Decoder C) (l0 : Bool) (n0 x0 : Nat) (calls : List (Bool × Nat × Nat)) :
    (EventApp.run D (EventApp.init D) ((l0, n0, x0) :: calls)).map Prod.snd =
      (results D id (gaps n0 calls)).map commands := by
  have h := eventApp_run D calls (Receiver.new D) n0
  unfold results
  rw [Option.map_map]
  change _ = Option.map (fun p : Receiver D × List (Res C) => commands p.2) _
  rw [← h, EventApp.run]
  change Option.map _ (Option.map _ (EventApp.run D { recv := Receiver.new D, last := some n0 } calls)) = _
  rw [Option.map_map]
  congr 1

theorem multiApp_run (calls : List (Bool × Nat × Nat)) (ss : List Slot) (last : Nat) :
    (MultiApp.run { recv := ss, last := some last } calls).map Prod.snd =
      (multiRun ss (gaps last calls)).map fun p => p.2.map fun row => row.filterMap id := by
  induction calls generalizing ss last with
  | nil => rfl
  | cons c cs ih =>
    obtain ⟨low, now, later⟩ := c
    rw [MultiApp.run, gaps, multiRun]
    unfold MultiApp.exti9_5 multiEventPin
    dsimp only [Option.map_some]
    rw [show wrappingSub 32 later last = (2 ^ 32 + later - last) % 2 ^ 32 from rfl]
    rcases multiEvent ss ((2 ^ 32 + later - last) % 2 ^ 32) low with _ | rs
    · rfl
    · have hi := ih (rs.map Prod.fst) now
      dsimp only [Option.bind_eq_bind, Option.bind_some]
      rcases hs : multiRun (rs.map Prod.fst) (gaps now cs) with _ | ⟨ss2, os⟩
      · rw [hs] at hi
        rw [Option.map_eq_none_iff.mp hi]
        rfl
      · rw [hs] at hi
        obtain ⟨⟨a2, l⟩, hn, hl⟩ := Option.map_eq_some_iff.mp hi
        change l = _ at hl
        subst hl
        rw [hn]
        rfl

/-- **C72**, `multireceiver.rs`: the same for all six receivers at once; each edge logs the commands of its row. -/
theorem C72_multi (cs : List Component) (l0 : Bool) (n0 x0 : Nat) (calls : List (Bool × Nat × Nat)) :
    (MultiApp.run (MultiApp.init cs) ((l0, n0, x0) :: calls)).map Prod.snd =
      (multiRun (multiMake cs) (gaps n0 calls)).map fun p => [] :: p.2.map fun row => row.filterMap id := by
  have h := multiApp_run calls (multiMake cs) n0
  rw [MultiApp.run]
  change Option.map _ (Option.map _ (MultiApp.run { recv := multiMake cs, last := some n0 } calls)) = _
  rcases hs : multiRun (multiMake cs) (gaps n0 calls) with _ | ⟨ss2, os⟩
  · rw [hs] at h
    rw [Option.map_eq_none_iff.mp h]
    rfl
  · rw [hs] at h
    obtain ⟨⟨a2, l⟩, hn, hl⟩ := Option.map_eq_some_iff.mp h
    change l = _ at hl
    subst hl
    rw [hn]
    rfl

/-! ## Readings of the cycle counter -/

/-- What the handler reads: for an edge `dt` cycles after the one before (the time of that one is `T`), the first
reading comes `a` cycles after the edge and the second one `b` cycles after the first. -/
def Spec.handlerReads : (T : Nat) → List (Bool × Nat × Nat × Nat) → List (Bool × Nat × Nat)
  | _, [] => []
  | T, (e, dt, a, b) :: es => (e, (T + dt + a) % 2 ^ 32, (T + dt + a + b) % 2 ^ 32) :: handlerReads (T + dt) es

/-- The distances with the delays in them (`a0` is that of the edge before). -/
def Spec.delayed : (a0 : Nat) → List (Bool × Nat × Nat × Nat) → List Ev
  | _, [] => []
  | a0, (e, dt, a, b) :: es => (e, dt + a + b - a0) :: delayed a es

/-- **C72**: as long as the handler starts before the next edge comes, the distances are those of the edges up to the
delays of the handler, wherever the counter wraps. -/
theorem C72_gaps (T a0 A : Nat) (ha0 : a0 ≤ A) (es : List (Bool × Nat × Nat × Nat))
    (h : ∀ e ∈ es, e.2.2.1 ≤ A ∧ A ≤ e.2.1 ∧ e.2.1 + e.2.2.1 + e.2.2.2 < 2 ^ 32) :
    gaps ((T + a0) % 2 ^ 32) (handlerReads T es) = delayed a0 es := by
  induction es generalizing T a0 with
  | nil => rfl
  | cons e es ih =>
    obtain ⟨e, dt, a, b⟩ := e
    obtain ⟨h1, h2, h3⟩ := h _ (List.mem_cons_self ..)
    dsimp only at h1 h2 h3
    rw [handlerReads, gaps, delayed]
    congr 1
    · congr 1
      omega
    · exact ih (T + dt) a h1 (fun x hx => h x (List.mem_cons_of_mem _ hx))

/-! ## Pulse distance protocols lose nothing -/

theorem nec_without_first (t : Target) (m : Mono) (hl : m.Lawful) (tbl : PulseSpans) (v : NecVariant C) (conv : C → K)
    (g : Nat) (hg : Pause tbl m.width [0, 1] (0, g)) (evs : List Ev) :
    (results (necDecoder t m tbl v) conv ((true, g) :: evs)).map said =
      (results (necDecoder t m tbl v) conv evs).map said := by
  have hgap := nec_gap_idle t m hl tbl v
    ({ state := .init, bitbuf := 0, dtSave := 0 } : NecDecoder) rfl g hg.1
    (hg.2 0 (by simp)) (hg.2 1 (by simp))
  rw [results_snd, results_snd]
  have hstep : runStep (necDecoder t m tbl v).step (necDecoder t m tbl v).init ((true, g) :: evs) =
      (runStep (necDecoder t m tbl v).step (necDecoder t m tbl v).init evs).map fun p => (p.1, .ok none :: p.2) := by
    rw [runStep]
    have : (necDecoder t m tbl v).step (necDecoder t m tbl v).init (true, g) =
        some ((necDecoder t m tbl v).init, .ok none) := hgap
    rw [this]
    dsimp only
    rcases runStep (necDecoder t m tbl v).step (necDecoder t m tbl v).init evs with _ | ⟨s, o⟩ <;> rfl
  rw [hstep]
  rcases runStep (necDecoder t m tbl v).step (necDecoder t m tbl v).init evs with _ | ⟨s, o⟩ <;> rfl

/-- **C72**, NEC family (`receiver-event-driven.rs` is written for Apple remotes): if the measured distances after the
first edge are a series of transmissions within the tolerances, the program logs exactly the commands sent, the first
one included. -/
theorem C72_nec_heard (t : Target) (m : Mono) (hm : m = Mono.u32 ∨ m = Mono.u64) (f : Nat) (hlo : 20000 ≤ f)
    (hf : f < 2 ^ 32) (v : NecVariant C) (hv : v.Shipped) (tbl : PulseSpans) (htbl : necSpans t m v f = some tbl)
    (l0 : Bool) (n0 x0 : Nat) (calls : List (Bool × Nat × Nat)) (items : List (NecItem × (Nat × Nat)))
    (hcalls : gaps n0 calls = series NecItem.wire items)
    (hok : ∀ i ∈ items, i.1.Ok tbl ∧ Pause tbl m.width [0, 1] i.2) :
    (EventApp.run (necDecoder t m tbl v) (EventApp.init _) ((l0, n0, x0) :: calls)).map Prod.snd =
      some (necHeard v.unpack 0 (items.map Prod.fst)) := by
  obtain ⟨hu, hfit⟩ := necSpans_good hm t hlo hf v hv htbl
  rw [C72_event, hcalls]
  obtain ⟨d', o, h1, -, h2⟩ := nec_series t m (Mono.prim_lawful hm) tbl hu hfit v items hok
    ({ state := .init, bitbuf := 0, dtSave := 0 } : NecDecoder) rfl
  have h := said_results (D := necDecoder t m tbl v) id h1 h2
  obtain ⟨outs, h3, h4⟩ := Option.map_eq_some_iff.mp h
  rw [h3, Option.map_some, commands_said', h4, commands_oks', List.map_id]

/-! ## RC5 -/

theorem midEdges_count (es : List (Bool × Nat)) (hpos : ∀ e ∈ es, 1 ≤ e.2) (pos k : Nat) :
    (midEdges 0 pos k (es.map fun e => (e.1, some e.2))).1.length + pos / 2 ≤ (pos + total es) / 2 ∧
    ((midEdges 0 pos k (es.map fun e => (e.1, some e.2))).1.length < k →
      (midEdges 0 pos k (es.map fun e => (e.1, some e.2))).2.2 = []) := by
  induction es generalizing pos k with
  | nil => cases k <;> simp [midEdges, total]
  | cons e es ih =>
    obtain ⟨l, n⟩ := e
    have hn : 1 ≤ n := hpos _ (List.mem_cons_self ..)
    have ht : total ((l, n) :: es) = n + total es := by simp [total]
    cases k with
    | zero => exact ⟨by simp [midEdges]; omega, by simp⟩
    | succ k =>
      rw [List.map_cons, midEdges]
      dsimp only at *
      split
      · rename_i hp
        obtain ⟨h1, h2⟩ := ih (fun x hx => hpos x (List.mem_cons_of_mem _ hx)) (pos + n) k
        refine ⟨?_, fun h => h2 (by simpa using h)⟩
        rw [List.length_cons, ht]
        rw [Nat.add_assoc] at h1
        omega
      · obtain ⟨h1, h2⟩ := ih (fun x hx => hpos x (List.mem_cons_of_mem _ hx)) (pos + n) (k + 1)
        refine ⟨?_, h2⟩
        rw [ht]
        rw [Nat.add_assoc] at h1
        omega

/-- Edges that take no more than 26 half-bits are no RC5 frame. -/
theorem rc5Parse_short (es : List (Bool × Nat)) (hpos : ∀ e ∈ es, 1 ≤ e.2) (ht : total es ≤ 26) :
    rc5Parse (es.map fun e => (e.1, some e.2)) = [] := by
  induction es with
  | nil => rw [List.map_nil, rc5Parse]
  | cons e es ih =>
    obtain ⟨l, n⟩ := e
    have hn : 1 ≤ n := hpos _ (List.mem_cons_self ..)
    have htt : total ((l, n) :: es) = n + total es := by simp [total]
    rw [List.map_cons]
    cases l with
    | false =>
      rw [rc5Parse]
      exact ih (fun x hx => hpos x (List.mem_cons_of_mem _ hx)) (by omega)
    | true =>
      rw [rc5Parse]
      obtain ⟨h1, h2⟩ := midEdges_count es (fun x hx => hpos x (List.mem_cons_of_mem _ hx)) 0 13
      have hlt : (midEdges 0 0 13 (es.map fun e => (e.1, some e.2))).1.length < 13 := by omega
      rw [if_neg (by omega), h2 hlt, rc5Parse]

theorem total_edgesFrom (prev : Bool) (n : Nat) (ls : List Bool) :
    total (edgesFrom prev n ls) + 1 ≤ n + ls.length ∨ edgesFrom prev n ls = [] := by
  induction ls generalizing prev n with
  | nil => exact .inr rfl
  | cons l ls ih =>
    rw [edgesFrom]
    split
    · rcases ih prev (n + 1) with h | h
      · left; rw [List.length_cons]; omega
      · exact .inr h
    · left
      have ht : total ((l, n) :: edgesFrom l 1 ls) = n + total (edgesFrom l 1 ls) := by simp [total]
      rw [ht, List.length_cons]
      rcases ih l 1 with h | h
      · omega
      · rw [h]; simp [total]

/-- The edges of an RC5 transmission after the first one, and the end of its last bit if the line is still high, are
no transmission. -/
theorem rc5Parse_rest (w : BitVec 14) (tail : List (Bool × Nat)) (htail : tail = [] ∨ tail = [(false, 1)]) :
    rc5Parse ((edgesFrom true 1 (rc5Tail w 13) ++ tail).map fun e => (e.1, some e.2)) = [] := by
  have hl : (rc5Tail w 13).length = 26 := by simp [rc5Tail]
  have hpos : ∀ e ∈ edgesFrom true 1 (rc5Tail w 13) ++ tail, 1 ≤ e.2 := by
    intro e he
    rcases List.mem_append.mp he with he | he
    · rcases rc5_edges_len w 13 true e he with h | h <;> omega
    · rcases htail with rfl | rfl
      · cases he
      · rw [List.mem_singleton.mp he]
  have htot : total (edgesFrom true 1 (rc5Tail w 13) ++ tail) ≤ 27 := by
    rw [total_append]
    have : total tail ≤ 1 := by rcases htail with rfl | rfl <;> decide
    rcases total_edgesFrom true 1 (rc5Tail w 13) with h | h
    · omega
    · rw [h, show total [] = 0 from rfl]; omega
  -- the first of these edges is a falling one
  have hfirst : ∀ (ls : List Bool) (n : Nat), edgesFrom true n ls = [] ∨ ∃ k r, edgesFrom true n ls = (false, k) :: r := by
    intro ls
    induction ls with
    | nil => intro n; exact .inl rfl
    | cons l ls ih =>
      intro n
      cases l
      · exact .inr ⟨n, _, by rw [edgesFrom, if_neg (by decide)]⟩
      · rw [edgesFrom, if_pos rfl]
        exact ih _
  rcases hfirst (rc5Tail w 13) 1 with h | ⟨k, r, h⟩
  · rw [h, List.nil_append]
    rcases htail with rfl | rfl <;> simp [rc5Parse]
  · rw [h] at htot hpos ⊢
    rw [List.cons_append] at htot hpos ⊢
    rw [List.map_cons, rc5Parse]
    have hk : 1 ≤ k := hpos _ (List.mem_cons_self ..)
    have ht : total ((false, k) :: (r ++ tail)) = k + total (r ++ tail) := by simp [total]
    exact rc5Parse_short _ (fun x hx => hpos x (List.mem_cons_of_mem _ hx)) (by omega)

theorem rc5_rest_said (t : Target) (hus : 16 ≤ t.usizeBits) (tbl : PulseSpans) (hlen : tbl.spans.length ≤ 8)
    (conv : Rc5Command → K) (evs : List Ev) (hl : evs.length ≤ 1000) :
    ∃ outs, results (rc5Decoder t tbl) conv evs = some outs ∧
      said outs = (rc5Parse (halfEdges tbl evs)).map (Res.map conv) := by
  have hp : 2 ^ 16 ≤ 2 ^ t.usizeBits := Nat.pow_le_pow_right (by decide) hus
  obtain ⟨d', h1, -, -⟩ := rc5_run_ex t tbl hus hlen sim5_init evs (.inr (by
    change 0 + 8 * evs.length < _
    omega))
  rcases h3 : results (rc5Decoder t tbl) conv evs with _ | outs
  · rw [results_snd] at h3
    have h1' : runStep (rc5Decoder t tbl).step (rc5Decoder t tbl).init evs = some _ := h1
    rw [h1'] at h3
    cases h3
  exact ⟨outs, rfl, C67_rc5 t hus tbl hlen conv evs _ h3⟩

/-- **C72**, a defect: an event-driven program written this way for RC5 does not hear the first transmission after
power-up, whatever it is, and hears all those after it. -/
theorem C72_rc5_first_lost (t : Target) (hus : 16 ≤ t.usizeBits) (m : Mono) (hm : m = Mono.u32 ∨ m = Mono.u64)
    (f : Nat) (hlo : 20000 ≤ f) (hf : f < 2 ^ 32) (tbl : PulseSpans) (htbl : rc5Spans t m f = some tbl)
    (l0 : Bool) (n0 x0 : Nat) (calls : List (Bool × Nat × Nat))
    (w : BitVec 14) (hw : w.getLsbD 13 = true) (p : Nat) (first : List Ev) (tail : Option Nat)
    (hfirst : ManchesterFrame (Within tbl) (rc5Edges w) ((true, p) :: first))
    (htail : ∀ x, tail = some x → Within tbl x 1)
    (items : List (BitVec 14 × List Ev × Option Nat))
    (hok : ∀ i ∈ items, i.1.getLsbD 13 = true ∧ ManchesterFrame (Within tbl) (rc5Edges i.1) i.2.1)
    (hgap : ∀ e es, (items.flatMap fun i => withTail i.2.1 i.2.2) = e :: es → Gap tbl e.2)
    (hcalls : gaps n0 calls = withTail first tail ++ items.flatMap fun i => withTail i.2.1 i.2.2) :
    (EventApp.run (rc5Decoder t tbl) (EventApp.init _) ((l0, n0, x0) :: calls)).map Prod.snd =
      some (items.map fun i => Rc5Command.unpack (i.1.setWidth 16)) := by
  rw [C72_event, hcalls]
  have hlen : tbl.spans.length ≤ 8 := by
    rw [rc5Spans_eq hm t hf, Option.some.injEq] at htbl
    subst htbl
    simp [rc5Table]
  have hu : Unambiguous tbl 2 := by
    rw [rc5Spans_eq hm t hf, Option.some.injEq] at htbl
    subst htbl
    exact rc5_unambiguous f hlo
  -- the rest of the first transmission
  obtain ⟨pause, n, evs', edges', h1, h2, h3⟩ := rc5_halfBits_of hu hw hfirst
  rw [List.cons.injEq] at h1
  obtain ⟨-, rfl⟩ := h1
  rw [rc5Edges_eq w hw, List.cons.injEq] at h2
  obtain ⟨-, rfl⟩ := h2
  have hlen2 : first.length ≤ 26 := by
    rw [Timed.length h3]
    refine Nat.le_trans (edgesFrom_length _ _ _) ?_
    simp [rc5Tail]
  have hs : rc5Parse (halfEdges tbl (withTail first tail)) = [] := by
    rw [timed_iff] at h3
    cases tail with
    | none =>
      have := rc5Parse_rest w [] (.inl rfl)
      rw [List.append_nil, ← h3] at this
      exact this
    | some x =>
      have hx : tbl.half x = some 1 := by
        have := inTol_get hu (by decide) (htail x rfl)
        unfold PulseSpans.half
        rw [this]
        rfl
      have := rc5Parse_rest w [(false, 1)] (.inr rfl)
      rw [List.map_append, ← h3] at this
      unfold halfEdges withTail
      rw [List.map_append]
      change rc5Parse (first.map (measure tbl) ++ [(false, tbl.half x)]) = []
      rw [hx]
      exact this
  obtain ⟨outs, h4, h5⟩ := rc5_rest_said t hus tbl hlen id (withTail first tail) (by
    cases tail <;> simp [withTail] <;> omega)
  rw [hs] at h5
  cases hser : items.flatMap fun i => withTail i.2.1 i.2.2 with
  | nil =>
    have hitems : items = [] := by
      cases items with
      | nil => rfl
      | cons i is =>
        obtain ⟨-, p', n', e', d', h6, -⟩ := hok i (List.mem_cons_self ..)
        rw [List.flatMap_cons, List.append_eq_nil_iff] at hser
        rw [h6] at hser
        cases htl : i.2.2 <;> simp [withTail, htl] at hser
    rw [hitems, List.append_nil, h4, Option.map_some, commands_said', h5]
    rfl
  | cons e es =>
    have h6 := C66_rc5 t hus m hm f hlo hf tbl htbl id (withTail first tail) outs h4 items hok e es hser
      (hgap e es hser)
    rw [hser, h5] at h6
    obtain ⟨outs', h7, h8⟩ := Option.map_eq_some_iff.mp h6
    rw [h7, Option.map_some, commands_said', h8]
    change some (commands (oks _)) = _
    rw [commands_oks']
    rfl

/-! ## RC6 -/

theorem missed_sublist (es : List HalfEdge) : (missed es).Sublist es := by
  rcases es with _ | ⟨⟨l, _ | n⟩, es⟩
  · exact List.Sublist.refl _
  · exact List.Sublist.refl _
  · exact List.sublist_cons_self ..

/-- Without a leader there is no RC6 frame. -/
theorem rc6Parse_no_leader (n : Nat) (es : List HalfEdge) (hn : es.length ≤ n) (h : (false, some 6) ∉ es) :
    rc6Parse es = [] := by
  induction n generalizing es with
  | zero =>
    obtain rfl := List.eq_nil_of_length_eq_zero (Nat.le_zero.mp hn)
    rw [rc6Parse]
  | succ n ih =>
    rcases es with _ | ⟨⟨_ | _, k⟩, es⟩
    · rw [rc6Parse]
    · rw [rc6Parse]
      exact ih es (by simpa using hn) (fun hm => h (List.mem_cons_of_mem _ hm))
    · rw [rc6Parse]
      have hf : rc6Frame es = (none, missed es) := by
        unfold rc6Frame
        split
        · exact absurd (List.mem_cons_of_mem _ (List.mem_cons_self ..)) h
        · exact absurd (List.mem_cons_of_mem _ (List.mem_cons_self ..)) h
        · rfl
      rw [hf]
      exact ih _ (Nat.le_trans (missed_length es) (by simpa using hn))
        (fun hm => h (List.mem_cons_of_mem _ ((missed_sublist es).subset hm)))

theorem rc6_rest_said (t : Target) (hus : 16 ≤ t.usizeBits) (tbl : PulseSpans) (hlen : tbl.spans.length ≤ 8)
    (conv : Rc6Command → K) (evs : List Ev) (hl : evs.length ≤ 1000) :
    ∃ outs, results (rc6Decoder t tbl) conv evs = some outs ∧
      said outs = (rc6Parse (halfEdges tbl evs)).map (Res.map conv) := by
  have hp : 2 ^ 16 ≤ 2 ^ t.usizeBits := Nat.pow_le_pow_right (by decide) hus
  obtain ⟨d', h1, -, -⟩ := rc6_run_ex t tbl hus hlen sim6_init evs (.inr (by
    change 0 + 8 * evs.length < _
    omega))
  rcases h3 : results (rc6Decoder t tbl) conv evs with _ | outs
  · rw [results_snd] at h3
    have h1' : runStep (rc6Decoder t tbl).step (rc6Decoder t tbl).init evs = some _ := h1
    rw [h1'] at h3
    cases h3
  exact ⟨outs, rfl, C67_rc6 t hus tbl hlen conv evs _ h3⟩

/-- The edges of an RC6 transmission after the first two have no leader among them. -/
theorem rc6_rest_no_leader (w : BitVec 16) (toggle : Bool) :
    ∃ r, rc6Head 0 toggle ++ edgesFrom (!toggle) 2 (rc6Tail w 16) = (false, 6) :: r ∧ (false, 6) ∉ r := by
  have hh : ∃ r, rc6Head 0 toggle = (false, 6) :: r ∧ (false, 6) ∉ r := by
    cases toggle <;> exact ⟨_, rfl, by decide⟩
  obtain ⟨r, h1, h2⟩ := hh
  refine ⟨r ++ edgesFrom (!toggle) 2 (rc6Tail w 16), by rw [h1]; rfl, ?_⟩
  intro hm
  rcases List.mem_append.mp hm with hm | hm
  · exact h2 hm
  · rcases rc6_tail_len w 16 (!toggle) 2 (.inr rfl) _ hm with h | h | h <;> cases h

/-- **C72**, the same defect for RC6. -/
theorem C72_rc6_first_lost (t : Target) (hus : 16 ≤ t.usizeBits) (m : Mono) (hm : m = Mono.u32 ∨ m = Mono.u64)
    (f : Nat) (hlo : 20000 ≤ f) (hf : f < 2 ^ 32) (tbl : PulseSpans) (htbl : rc6Spans t m f = some tbl)
    (l0 : Bool) (n0 x0 : Nat) (calls : List (Bool × Nat × Nat))
    (c : Rc6Command) (p : Nat) (first : List Ev) (tail : Option Nat)
    (hfirst : ManchesterFrame (WithinRc6 tbl) (rc6Edges (c.addr ++ c.cmd) c.toggle) ((true, p) :: first))
    (htail : ∀ x, tail = some x → WithinRc6 tbl x 1)
    (items : List (Rc6Command × List Ev × Option Nat))
    (hok : ∀ i ∈ items, ManchesterFrame (WithinRc6 tbl) (rc6Edges (i.1.addr ++ i.1.cmd) i.1.toggle) i.2.1)
    (hgap : ∀ e es, (items.flatMap fun i => withTail i.2.1 i.2.2) = e :: es → Gap tbl e.2)
    (hcalls : gaps n0 calls = withTail first tail ++ items.flatMap fun i => withTail i.2.1 i.2.2) :
    (EventApp.run (rc6Decoder t tbl) (EventApp.init _) ((l0, n0, x0) :: calls)).map Prod.snd =
      some (items.map fun i => i.1) := by
  rw [C72_event, hcalls]
  have hlen : tbl.spans.length ≤ 8 := by
    rw [rc6Spans_eq hm t hf, Option.some.injEq] at htbl
    subst htbl
    simp [rc6Table]
  have hu : Unambiguous tbl 4 := by
    rw [rc6Spans_eq hm t hf, Option.some.injEq] at htbl
    subst htbl
    exact rc6_unambiguous f hlo
  have h6 : ∀ d, InTol tbl 5 d → ¬ InTol tbl 4 d → tbl.get d = some 5 := by
    rw [rc6Spans_eq hm t hf, Option.some.injEq] at htbl
    subst htbl
    exact rc6_six hm t hlo hf
  obtain ⟨pause, n, evs', edges', h1, h2, h3⟩ := rc6_halfBits_of hu h6 hfirst
  rw [List.cons.injEq] at h1
  obtain ⟨-, rfl⟩ := h1
  rw [rc6Edges_eq 0 (.inl rfl), List.cons.injEq] at h2
  obtain ⟨-, rfl⟩ := h2
  have hlen2 : first.length ≤ 100 := by
    rw [Timed.length h3, List.length_append]
    have := edgesFrom_length (!c.toggle) 2 (rc6Tail (c.addr ++ c.cmd) 16)
    have h32 : (rc6Tail (c.addr ++ c.cmd) 16).length = 32 := by simp [rc6Tail]
    have : (rc6Head 0 c.toggle).length ≤ 60 := by cases c.toggle <;> decide
    omega
  have hs : rc6Parse (halfEdges tbl (withTail first tail)) = [] := by
    rw [timed_iff] at h3
    obtain ⟨r, hr1, hr2⟩ := rc6_rest_no_leader (c.addr ++ c.cmd) c.toggle
    rw [hr1] at h3
    have key : ∀ tl : List HalfEdge, (false, some 6) ∉ tl → rc6Parse (first.map (measure tbl) ++ tl) = [] := by
      intro tl htl
      rw [h3, List.map_cons, List.cons_append, rc6Parse]
      refine rc6Parse_no_leader _ _ (Nat.le_refl _) ?_
      intro hm
      rcases List.mem_append.mp hm with hm | hm
      · obtain ⟨⟨a, b⟩, hab, hab2⟩ := List.mem_map.mp hm
        simp only [Prod.mk.injEq, Option.some.injEq] at hab2
        obtain ⟨rfl, rfl⟩ := hab2
        exact hr2 hab
      · exact htl hm
    cases tail with
    | none =>
      have := key [] (by simp)
      rw [List.append_nil] at this
      exact this
    | some x =>
      have hx : tbl.half x = some 1 := by
        have := inTol_get hu (by decide) (htail x rfl).1
        unfold PulseSpans.half
        rw [this]
        rfl
      unfold halfEdges withTail
      rw [List.map_append]
      change rc6Parse (first.map (measure tbl) ++ [(false, tbl.half x)]) = []
      rw [hx]
      exact key _ (by decide)
  obtain ⟨outs, h4, h5⟩ := rc6_rest_said t hus tbl hlen id (withTail first tail) (by
    cases tail <;> simp [withTail] <;> omega)
  rw [hs] at h5
  cases hser : items.flatMap fun i => withTail i.2.1 i.2.2 with
  | nil =>
    have hitems : items = [] := by
      cases items with
      | nil => rfl
      | cons i is =>
        obtain ⟨p', n', e', d', h6, -⟩ := hok i (List.mem_cons_self ..)
        rw [List.flatMap_cons, List.append_eq_nil_iff] at hser
        rw [h6] at hser
        cases htl : i.2.2 <;> simp [withTail, htl] at hser
    rw [hitems, List.append_nil, h4, Option.map_some, commands_said', h5]
    rfl
  | cons e es =>
    have h6 := C66_rc6 t hus m hm f hlo hf tbl htbl id (withTail first tail) outs h4 items hok e es hser
      (hgap e es hser)
    rw [hser, h5] at h6
    obtain ⟨outs', h7, h8⟩ := Option.map_eq_some_iff.mp h6
    rw [h7, Option.map_some, commands_said', h8]
    change some (commands (oks _)) = _
    rw [commands_oks']
    rfl

/-! ## Concrete cases -/

theorem delayed_zero (evs : List Ev) : delayed 0 (evs.map fun e => (e.1, e.2, 0, 0)) = evs := by
  induction evs with
  | nil => rfl
  | cons e es ih =>
    rw [List.map_cons, delayed, ih]
    simp

/-- The readings for a history, without delays. -/
theorem gaps_reads (T : Nat) (evs : List Ev) (h : ∀ e ∈ evs, e.2 < 2 ^ 32) :
    gaps (T % 2 ^ 32) (handlerReads T (evs.map fun e => (e.1, e.2, 0, 0))) = evs := by
  have := C72_gaps T 0 0 (Nat.le_refl _) (evs.map fun e => (e.1, e.2, 0, 0)) (by
    intro e he
    obtain ⟨x, hx, rfl⟩ := List.mem_map.mp he
    exact ⟨Nat.le_refl _, Nat.zero_le _, h x hx⟩)
  rw [delayed_zero] at this
  exact this

theorem nominalRc5_cons (w : BitVec 14) (hw : w.getLsbD 13 = true) :
    ∃ r, nominalRc5 w = (true, 100000) :: r ∧ ∀ e ∈ r, e.2 < 2 ^ 32 := by
  unfold nominalRc5
  rw [rc5Edges_eq w hw]
  refine ⟨_, rfl, ?_⟩
  intro e he
  obtain ⟨x, hx, rfl⟩ := List.mem_map.mp he
  rcases rc5_edges_len w 13 true x hx with h | h <;> simp only [h] <;> decide

/-- Two RC5 transmissions at 1 MHz: the hypotheses of `C72_rc5_first_lost` hold for any two words, and the first one
is lost. -/
example (w w' : BitVec 14) (hw : w.getLsbD 13 = true) (hw' : w'.getLsbD 13 = true) :
    ∃ calls, (EventApp.run (rc5Decoder ⟨true, 32⟩ (rc5Table 1000000)) (EventApp.init _)
      ((true, 7, 8) :: calls)).map Prod.snd = some [Rc5Command.unpack (w'.setWidth 16)] := by
  obtain ⟨r, hq, hr⟩ := nominalRc5_cons w hw
  obtain ⟨r', hq', hr'⟩ := nominalRc5_cons w' hw'
  refine ⟨handlerReads 7 ((withTail r none ++ [(w', nominalRc5 w', none)].flatMap fun i =>
    withTail i.2.1 i.2.2).map fun e => (e.1, e.2, 0, 0)), ?_⟩
  refine C72_rc5_first_lost ⟨true, 32⟩ (by decide) Mono.u32 (.inl rfl) 1000000 (by decide) (by decide) _
    (rc5Spans_eq (.inl rfl) _ (by decide)) true 7 8 _ w hw 100000 r none (hq ▸ nominalRc5_frame w hw) (by simp)
    [(w', nominalRc5 w', none)] ?_ ?_ (gaps_reads 7 _ ?_)
  · intro i hi
    rw [List.mem_singleton.mp hi]
    exact ⟨hw', nominalRc5_frame w' hw'⟩
  · intro e es he
    have : e = (true, 100000) := by
      simp only [List.flatMap_cons, List.flatMap_nil, List.append_nil, withTail, hq', List.cons.injEq] at he
      exact he.1.symm
    rw [this, gap_iff]
    decide +kernel
  · intro e he
    simp only [List.flatMap_cons, List.flatMap_nil, List.append_nil, withTail, hq', List.mem_append,
      List.mem_cons] at he
    rcases he with he | rfl | he
    · exact hr e he
    · decide
    · exact hr' e he

/-- The same for RC6, with delays in the handler, at 1 MHz; the counter wraps around during the first one. -/
example : ((EventApp.run (rc6Decoder ⟨true, 32⟩ (rc6Table 1000000)) (EventApp.init _)
    ((true, (2 ^ 32 - 10000 + 9) % 2 ^ 32, 0) :: handlerReads (2 ^ 32 - 10000)
      (((nominalRc6 0 0x0102 true).tail ++ [(false, 444)] ++ nominalRc6 0 0x0304 false).map
        fun e : Ev => (e.1, e.2, 9, 4)))).map Prod.snd) = some [⟨3, 4, false⟩] := by
  rw [C72_event, C72_gaps (2 ^ 32 - 10000) 9 9 (Nat.le_refl _) _ (by decide +kernel)]
  decide +kernel

/-- And for an Apple remote, where both are heard. -/
example : ((EventApp.run (necDecoder ⟨true, 32⟩ Mono.u32 (necTable 1000000) appleNec) (EventApp.init _)
    ((true, (2 ^ 32 - 10000 + 9) % 2 ^ 32, 0) :: handlerReads (2 ^ 32 - 10000)
      ((pulses (nominalNec 0x0C0B87EE ++ [(560, 40000), (9000, 2250), (560, 96000)])).map
        fun e : Ev => (e.1, e.2, 9, 4)))).map Prod.snd) =
    some [⟨14, 5, 12, false⟩, ⟨14, 5, 12, true⟩] := by
  rw [C72_event, C72_gaps (2 ^ 32 - 10000) 9 9 (Nat.le_refl _) _ (by decide +kernel)]
  decide +kernel

end Infrared
