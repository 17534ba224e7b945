import Verif.Props.Streams

/-!
# Transmissions after arbitrary noise (C66)

`evs` is whatever the receiver saw before: noise, glitches, halves of transmissions, other remote controls.  The
only thing asked for is that it did not panic (C30 says when).
-/

namespace Infrared

open Spec

variable {C K : Type}

/-- What a receiver says for a history and what follows. -/
theorem said_after {D : Decoder C} (conv : C → K) {evs evs' : List Ev} {s s' : D.St} {o o' : List (Res C)}
    (h : runStep D.step D.init evs = some (s, o)) (h' : runStep D.step s evs' = some (s', o')) :
    (results D conv (evs ++ evs')).map said =
      some (said (o.map (Res.map conv)) ++ (said o').map (Res.map conv)) := by
  rw [results_of conv (run_append_some h h'), Option.map_some, List.map_append, said_append, said_map conv o']

/-! ## NEC family -/

theorem nec_any_pause (t : Target) (m : Mono) (hm : m.Lawful) (tbl : PulseSpans) (v : NecVariant C)
    (d : NecDecoder) (hd : d.Ready) (p : Nat × Nat) (hp : Pause tbl m.width [0, 1, 2, 3] p) :
    ∃ (d' : NecDecoder) (x : Res C), (x = .ok none ∨ x = .error .data) ∧
      runStep (necFn t m tbl v) d (pulses [p]) = some (d', [.ok none, x]) ∧ d'.state = .init := by
  obtain ⟨h, l⟩ := p
  obtain ⟨hlt, hno⟩ := hp
  have h1 := nec_pulse t m tbl v hm d hd h l hlt
  obtain ⟨c0, c1, c2, c3⟩ := nec_classify_iff tbl (h + l)
  have n0 : NecPulse.classify tbl (h + l) ≠ .sync := fun hc => hno 0 (by simp) (get_inTol (c0.mp hc))
  have n1 : NecPulse.classify tbl (h + l) ≠ .rep := fun hc => hno 1 (by simp) (get_inTol (c1.mp hc))
  have n2 : NecPulse.classify tbl (h + l) ≠ .zero := fun hc => hno 2 (by simp) (get_inTol (c2.mp hc))
  have n3 : NecPulse.classify tbl (h + l) ≠ .one := fun hc => hno 3 (by simp) (get_inTol (c3.mp hc))
  refine ⟨_, _, ?_, h1, ?_⟩
  · generalize NecPulse.classify tbl (h + l) = pw at n0 n1 n2 n3
    rcases hd with hd | ⟨n, hn, hd⟩ <;> rw [hd] <;> cases pw <;> simp_all [necStep]
  · generalize NecPulse.classify tbl (h + l) = pw at n0 n1 n2 n3
    rcases hd with hd | ⟨n, hn, hd⟩ <;> rw [hd] <;> cases pw <;> simp_all [necStep]

/-- **C66**, NEC family: after any history, a pause is answered with at most one error and no command, and then any
sequence of frames and repeat codes is heard exactly as sent (`last` is the word a repeat code in front of the first
frame refers to). -/
theorem C66_nec (t : Target) (m : Mono) (hm : m = Mono.u32 ∨ m = Mono.u64) (f : Nat) (hlo : 20000 ≤ f)
    (hf : f < 2 ^ 32) (v : NecVariant C) (hv : v.Shipped) (tbl : PulseSpans) (htbl : necSpans t m v f = some tbl)
    (conv : C → K) (evs : List Ev) (outs : List (Res K)) (hist : results (necDecoder t m tbl v) conv evs = some outs)
    (p : Nat × Nat) (hp : Pause tbl m.width [0, 1, 2, 3] p) (items : List (NecItem × (Nat × Nat)))
    (hok : ∀ i ∈ items, i.1.Ok tbl ∧ Pause tbl m.width [0, 1] i.2) :
    ∃ (last : BitVec 32) (x : List (Res K)), (x = [] ∨ x = [.error .data]) ∧
      (results (necDecoder t m tbl v) conv (evs ++ (pulses [p] ++ series NecItem.wire items))).map said =
        some (said outs ++ (x ++ oks ((necHeard v.unpack last (items.map Prod.fst)).map conv))) := by
  obtain ⟨hu, hfit⟩ := necSpans_good hm t hlo hf v hv htbl
  have hlaw := Mono.prim_lawful hm
  obtain ⟨d, o, hrun, rfl⟩ := nec_results_inv t m tbl v hist
  have hready : d.Ready := nec_run_ready t m tbl v (.inl rfl) hrun
  obtain ⟨d1, x, hx, h1, hd1⟩ := nec_any_pause t m hlaw tbl v d hready p hp
  obtain ⟨d2, o2, h2, -, hs2⟩ := nec_series t m hlaw tbl hu hfit v items hok d1 hd1
  refine ⟨d1.bitbuf, said [x.map conv], ?_, ?_⟩
  · rcases hx with rfl | rfl
    · exact .inl rfl
    · exact .inr rfl
  · refine (said_after (D := necDecoder t m tbl v) conv hrun (run_append_some h1 h2)).trans ?_
    rw [said_append, hs2, List.map_append, oks_map]
    rcases hx with rfl | rfl <;> rfl

/-- **C66**: if the first of them is a frame the history does not matter at all. -/
theorem C66_nec_frame_first (unpack : BitVec 32 → Bool → Option C) (last last' : BitVec 32) (w : BitVec 32)
    (ps : List (Nat × Nat)) (is : List NecItem) :
    necHeard unpack last (.frame w ps :: is) = necHeard unpack last' (.frame w ps :: is) := rfl

/-! ## SBP -/

theorem sbp_any_pause (t : Target) (m : Mono) (hm : m.Lawful) (tbl : PulseSpans)
    (d : SbpDecoder) (hd : d.Ready) (p : Nat × Nat) (hp : Pause tbl m.width [0, 1, 2, 3] p) :
    ∃ (d' : SbpDecoder) (x : Res SbpCommand), (x = .ok none ∨ ∃ e, x = .error e) ∧
      runStep (sbpFn t m tbl) d (pulses [p]) = some (d', [.ok none, x]) ∧
      d'.state = .init ∧ d'.address = 0 ∧ d'.command = 0 := by
  obtain ⟨h, l⟩ := p
  obtain ⟨hlt, hno⟩ := hp
  have h1 := sbp_pulse t m tbl hm d hd h l hlt
  obtain ⟨c0, c1, c2, c3⟩ := sbp_classify_iff tbl (h + l)
  have n0 : SbpPulse.classify tbl (h + l) ≠ .sync := fun hc => hno 0 (by simp) (get_inTol (c0.mp hc))
  have n1 : SbpPulse.classify tbl (h + l) ≠ .paus := fun hc => hno 1 (by simp) (get_inTol (c1.mp hc))
  have n2 : SbpPulse.classify tbl (h + l) ≠ .zero := fun hc => hno 2 (by simp) (get_inTol (c2.mp hc))
  have n3 : SbpPulse.classify tbl (h + l) ≠ .one := fun hc => hno 3 (by simp) (get_inTol (c3.mp hc))
  refine ⟨_, _, ?_, h1, ?_⟩
  · generalize SbpPulse.classify tbl (h + l) = pw at n0 n1 n2 n3
    obtain ⟨st, a, c, sv⟩ := d
    rcases hd with ⟨hd, -⟩ | ⟨n, -, hd, -⟩ | ⟨hd, -⟩ | ⟨n, -, hd, -⟩ <;> dsimp only at hd <;> subst hd <;>
      cases pw <;> simp_all [sbpStep]
  · generalize SbpPulse.classify tbl (h + l) = pw at n0 n1 n2 n3
    obtain ⟨st, a, c, sv⟩ := d
    rcases hd with ⟨hd, ha, hc⟩ | ⟨n, -, hd, -⟩ | ⟨hd, -⟩ | ⟨n, -, hd, -⟩ <;> dsimp only at hd <;> subst hd <;>
      cases pw <;> simp_all [sbpStep, sbpInit]

/-- SBP transmissions to a receiver between transmissions. -/
theorem sbp_series_from (t : Target) (m : Mono) (hl : m.Lawful) (tbl : PulseSpans)
    (hu : Unambiguous tbl 4) (hfit : Fits tbl m.width)
    (items : List ((BitVec 16 × BitVec 20 × List (Nat × Nat)) × (Nat × Nat)))
    (hok : ∀ i ∈ items, Matches tbl (sbpSlots i.1.1 i.1.2.1) i.1.2.2 ∧ Pause tbl m.width [0] i.2)
    (d : SbpDecoder) (hd : d.state = .init ∧ d.address = 0 ∧ d.command = 0) :
    ∃ d' o, runStep (sbpFn t m tbl) d (series (fun i => i.2.2) items) = some (d', o) ∧
      said o = oks (items.map fun i => SbpCommand.unpack i.1.1 (i.1.2.1.setWidth 32)) := by
  obtain ⟨d', o, h1, -, h2⟩ := chunks_run (sbpFn t m tbl)
    (fun d => d.state = .init ∧ d.address = 0 ∧ d.command = 0)
    (fun i => pulses i.1.2.2 ++ pulses [i.2])
    (fun i => [SbpCommand.unpack i.1.1 (i.1.2.1.setWidth 32)]) items (by
      intro a ha s hs
      obtain ⟨hfr, hp⟩ := hok a ha
      have h1 := sbp_frame t m tbl hl hu hfit s hs a.1.1 a.1.2.1 a.1.2.2 hfr
      obtain ⟨d', h2, h3⟩ := sbp_pause t m hl tbl sbpInit ⟨rfl, rfl, rfl⟩ a.2 hp
      refine ⟨d', _, run_append_some h1 h2, h3, ?_⟩
      rw [said_append, said_append, said_nones]; rfl) d hd
  refine ⟨d', o, by rw [series_eq]; exact h1, ?_⟩
  rw [h2, flatMap_one]

/-- **C66**, SBP. -/
theorem C66_sbp (t : Target) (m : Mono) (hm : m = Mono.u32 ∨ m = Mono.u64) (f : Nat) (hlo : 20000 ≤ f)
    (hf : f < 2 ^ 32) (tbl : PulseSpans) (htbl : sbpSpans t m f = some tbl) (conv : SbpCommand → K)
    (evs : List Ev) (outs : List (Res K)) (hist : results (sbpDecoder t m tbl) conv evs = some outs)
    (p : Nat × Nat) (hp : Pause tbl m.width [0, 1, 2, 3] p)
    (items : List ((BitVec 16 × BitVec 20 × List (Nat × Nat)) × (Nat × Nat)))
    (hok : ∀ i ∈ items, Matches tbl (sbpSlots i.1.1 i.1.2.1) i.1.2.2 ∧ Pause tbl m.width [0] i.2) :
    ∃ x : List (Res K), (x = [] ∨ ∃ e, x = [.error e]) ∧
      (results (sbpDecoder t m tbl) conv (evs ++ (pulses [p] ++ series (fun i => i.2.2) items))).map said =
        some (said outs ++ (x ++
          oks (items.map fun i => conv (SbpCommand.unpack i.1.1 (i.1.2.1.setWidth 32))))) := by
  rw [sbpSpans_eq hm t hf, Option.some.injEq] at htbl
  subst htbl
  have hlaw := Mono.prim_lawful hm
  obtain ⟨d, o, hrun, rfl⟩ := sbp_results_inv t m _ hist
  have hready : d.Ready := sbp_run_ready t m _ sbpInit_ready hrun
  obtain ⟨d1, x, hx, h1, hd1⟩ := sbp_any_pause t m hlaw _ d hready p hp
  obtain ⟨d2, o2, h2, hs2⟩ := sbp_series_from t m hlaw _ (sbp_unambiguous f hlo)
    (sbpTable_fits hf (Mono.IsPrim.width hm)) items hok d1 hd1
  refine ⟨said [x.map conv], ?_, ?_⟩
  · rcases hx with rfl | ⟨e, rfl⟩
    · exact .inl rfl
    · exact .inr ⟨e, rfl⟩
  · refine (said_after (D := sbpDecoder t m _) conv hrun (run_append_some h1 h2)).trans ?_
    rw [said_append, hs2, List.map_append, oks_map, List.map_map]
    rcases hx with rfl | ⟨e, rfl⟩ <;> rfl

/-! ## Denon -/

theorem denon_any_pause (t : Target) (m : Mono) (hm : m.Lawful) (tbl : PulseSpans)
    (d : DenonDecoder) (hd : d.Ready) (p : Nat × Nat) (hp : Pause tbl m.width [0, 1, 2] p) :
    ∃ d' : DenonDecoder, runStep (denonFn t m tbl) d (pulses [p]) = some (d', [.ok none, .ok none]) ∧
      d'.state = .idle := by
  obtain ⟨h, l⟩ := p
  obtain ⟨hlt, hno⟩ := hp
  have h1 := denon_pulse t m tbl hm d hd h l hlt
  obtain ⟨c0, c1, c2⟩ := denon_classify_iff tbl (h + l)
  have n0 : DenonPulse.classify tbl (h + l) ≠ .sync := fun hc => hno 0 (by simp) (get_inTol (c0.mp hc))
  have n1 : DenonPulse.classify tbl (h + l) ≠ .zero := fun hc => hno 1 (by simp) (get_inTol (c1.mp hc))
  have n2 : DenonPulse.classify tbl (h + l) ≠ .one := fun hc => hno 2 (by simp) (get_inTol (c2.mp hc))
  have key : (denonStep d.state d.buf (DenonPulse.classify tbl (h + l))).2 = .ok none ∧
      (denonStep d.state d.buf (DenonPulse.classify tbl (h + l))).1.state = .idle := by
    generalize DenonPulse.classify tbl (h + l) = pw at n0 n1 n2
    rcases hd with hd | ⟨n, hn, hd⟩ <;> rw [hd] <;> cases pw <;> simp_all [denonStep]
  refine ⟨_, ?_, key.2⟩
  rw [key.1] at h1
  exact h1

/-- What is heard of Denon words if bits of the history are left in the receiver: the first word may have more bits
set than were sent. -/
def Spec.denonHeard (stale : BitVec 64) : List (BitVec 48) → List DenonCommand
  | [] => []
  | w :: ws => { bits := stale ||| (w.setWidth 47).setWidth 64 } :: ws.map fun w => { bits := (w.setWidth 47).setWidth 64 }

theorem denon_series_from (t : Target) (m : Mono) (hl : m.Lawful) (tbl : PulseSpans)
    (hu : Unambiguous tbl 3) (hfit : Fits tbl m.width)
    (items : List ((BitVec 48 × List (Nat × Nat)) × (Nat × Nat)))
    (hok : ∀ i ∈ items, Matches tbl (denonSlots i.1.1) i.1.2 ∧ Pause tbl m.width [0] i.2)
    (d : DenonDecoder) (hd : d.state = .idle) :
    ∃ d' o, runStep (denonFn t m tbl) d (series (fun i => i.2) items) = some (d', o) ∧
      said o = oks (denonHeard d.buf (items.map fun i => i.1.1)) := by
  cases items with
  | nil => exact ⟨d, [], rfl, rfl⟩
  | cons a as =>
    obtain ⟨hfr, hp⟩ := hok a (by simp)
    have h1 := denon_frame t m tbl hl hu hfit d hd a.1.1 a.1.2 hfr
    obtain ⟨d1, h2, h3⟩ := denon_pause t m hl tbl denonInit ⟨rfl, rfl⟩ a.2 hp
    obtain ⟨d', o, h4, -, h5⟩ := chunks_run (denonFn t m tbl)
      (fun d => d.state = .idle ∧ d.buf = 0)
      (fun i => pulses i.1.2 ++ pulses [i.2])
      (fun i => [{ bits := low47 i.1.1 }]) as (by
        intro a ha s hs
        obtain ⟨hfr, hp⟩ := hok a (by simp [ha])
        have h1 := denon_frame t m tbl hl hu hfit s hs.1 a.1.1 a.1.2 hfr
        obtain ⟨d', h2, h3⟩ := denon_pause t m hl tbl denonInit ⟨rfl, rfl⟩ a.2 hp
        refine ⟨d', _, run_append_some h1 h2, h3, ?_⟩
        rw [said_append, said_append, said_nones, hs.2,
          show (0 : BitVec 64) ||| low47 a.1.1 = low47 a.1.1 from BitVec.zero_or]; rfl) d1 h3
    have h6 := run_append_some (run_append_some h1 h2) h4
    refine ⟨d', _, (congrArg (runStep (denonFn t m tbl) d) (series_eq _ _)).trans h6, ?_⟩
    · rw [said_append, h5, said_append, said_append, said_nones, flatMap_one, List.map_cons, denonHeard, List.map_map]
      rfl

/-- **C66**, Denon: nothing is said in the pause, every later transmission is heard once, and exactly (47 bits),
except that the first may have additional bits set (C23). -/
theorem C66_denon (t : Target) (m : Mono) (hm : m = Mono.u32 ∨ m = Mono.u64) (f : Nat) (hlo : 20000 ≤ f)
    (hf : f < 2 ^ 32) (tbl : PulseSpans) (htbl : denonSpans t m f = some tbl) (conv : DenonCommand → K)
    (evs : List Ev) (outs : List (Res K)) (hist : results (denonDecoder t m tbl) conv evs = some outs)
    (p : Nat × Nat) (hp : Pause tbl m.width [0, 1, 2] p)
    (items : List ((BitVec 48 × List (Nat × Nat)) × (Nat × Nat)))
    (hok : ∀ i ∈ items, Matches tbl (denonSlots i.1.1) i.1.2 ∧ Pause tbl m.width [0] i.2) :
    ∃ stale : BitVec 64,
      (results (denonDecoder t m tbl) conv (evs ++ (pulses [p] ++ series (fun i => i.2) items))).map said =
        some (said outs ++ oks ((denonHeard stale (items.map fun i => i.1.1)).map conv)) := by
  rw [denonSpans_eq hm t hf, Option.some.injEq] at htbl
  subst htbl
  have hlaw := Mono.prim_lawful hm
  obtain ⟨d, o, hrun, rfl⟩ := denon_results_inv t m _ hist
  have hready : d.Ready := denon_run_ready t m _ denonInit_ready hrun
  obtain ⟨d1, h1, hd1⟩ := denon_any_pause t m hlaw _ d hready p hp
  obtain ⟨d2, o2, h2, hs2⟩ := denon_series_from t m hlaw _ (denon_unambiguous f hlo)
    (denonTable_fits hf (Mono.IsPrim.width hm)) items hok d1 hd1
  refine ⟨d1.buf, (said_after (D := denonDecoder t m _) conv hrun (run_append_some h1 h2)).trans ?_⟩
  rw [said_append, hs2, List.map_append, oks_map]
  rfl

/-! ## RC5 and RC6 -/

theorem results_append_gap (D : Decoder C) (conv : C → K) {evs : List Ev} {outs : List (Res K)}
    (hist : results D conv evs = some outs) (after : List Ev)
    (h : ∀ r : Receiver D, (r.run _ conv after).map Prod.snd = results D conv after) :
    results D conv (evs ++ after) = (results D conv after).map (outs ++ ·) := by
  obtain ⟨s, o, hrun, rfl⟩ := results_inv hist
  have h1 := h { Receiver.new D with decoder := s }
  rw [Receiver.run_snd] at h1
  rw [results_snd, ← h1, run_append, hrun]
  change ((Option.map (fun q => (q.1, o ++ q.2)) (runStep D.step s after)).map Prod.snd).map _ =
    (((runStep D.step s after).map Prod.snd).map _).map _
  rcases runStep D.step s after with _ | ⟨s2, o2⟩
  · rfl
  · simp

/-- **C66**, RC5: after any history, a series of transmissions is heard exactly, if the pause before the first one is
no pulse length of RC5. -/
theorem C66_rc5 (t : Target) (hus : 16 ≤ t.usizeBits) (m : Mono) (hm : m = Mono.u32 ∨ m = Mono.u64) (f : Nat)
    (hlo : 20000 ≤ f) (hf : f < 2 ^ 32) (tbl : PulseSpans) (htbl : rc5Spans t m f = some tbl)
    (conv : Rc5Command → K) (evs : List Ev) (outs : List (Res K))
    (hist : results (rc5Decoder t tbl) conv evs = some outs)
    (items : List (BitVec 14 × List Ev × Option Nat))
    (hok : ∀ i ∈ items, i.1.getLsbD 13 = true ∧ ManchesterFrame (Within tbl) (rc5Edges i.1) i.2.1)
    (e : Ev) (after : List Ev) (he : (items.flatMap fun i => withTail i.2.1 i.2.2) = e :: after)
    (hgap : Gap tbl e.2) :
    (results (rc5Decoder t tbl) conv (evs ++ (items.flatMap fun i => withTail i.2.1 i.2.2))).map said =
      some (said outs ++ oks (items.map fun i => conv (Rc5Command.unpack (i.1.setWidth 16)))) := by
  have h := C56_rc5_series t hus m hm f hlo hf tbl htbl conv items hok
  rw [results_append_gap _ conv hist _ (fun r => by rw [he]; exact C29_rc5_gap_forgets t tbl conv r e hgap after)]
  rcases hr : results (rc5Decoder t tbl) conv (items.flatMap fun i => withTail i.2.1 i.2.2) with _ | o
  · rw [hr] at h; simp at h
  · rw [hr, Option.map_some, Option.some.injEq] at h
    rw [hr, Option.map_some, Option.map_some, said_append, h]

/-- **C66**, RC6 (mode 0). -/
theorem C66_rc6 (t : Target) (hus : 16 ≤ t.usizeBits) (m : Mono) (hm : m = Mono.u32 ∨ m = Mono.u64) (f : Nat)
    (hlo : 20000 ≤ f) (hf : f < 2 ^ 32) (tbl : PulseSpans) (htbl : rc6Spans t m f = some tbl)
    (conv : Rc6Command → K) (evs : List Ev) (outs : List (Res K))
    (hist : results (rc6Decoder t tbl) conv evs = some outs)
    (items : List (Rc6Command × List Ev × Option Nat))
    (hok : ∀ i ∈ items, ManchesterFrame (WithinRc6 tbl) (rc6Edges (i.1.addr ++ i.1.cmd) i.1.toggle) i.2.1)
    (e : Ev) (after : List Ev) (he : (items.flatMap fun i => withTail i.2.1 i.2.2) = e :: after)
    (hgap : Gap tbl e.2) :
    (results (rc6Decoder t tbl) conv (evs ++ (items.flatMap fun i => withTail i.2.1 i.2.2))).map said =
      some (said outs ++ oks (items.map fun i => conv i.1)) := by
  have h := C56_rc6_series t hus m hm f hlo hf tbl htbl conv items hok
  rw [results_append_gap _ conv hist _ (fun r => by rw [he]; exact C29_rc6_gap_forgets t tbl conv r e hgap after)]
  rcases hr : results (rc6Decoder t tbl) conv (items.flatMap fun i => withTail i.2.1 i.2.2) with _ | o
  · rw [hr] at h; simp at h
  · rw [hr, Option.map_some, Option.some.injEq] at h
    rw [hr, Option.map_some, Option.map_some, said_append, h]

/-! ## Concrete cases -/

/-- A history as asked for: the first half of a frame, a spike and an edge without its partner. -/
def noise : List Ev := pulses [(9000, 4500), (562, 562), (562, 1687), (3, 4)] ++ [(true, 17)]

example : (results (necDecoder ⟨true, 32⟩ Mono.u32 (necTable 1000000) Infrared.nec) id noise).map said =
    some [.error .data] := by
  decide +kernel

example : Pause (necTable 1000000) 32 [0, 1, 2, 3] (562, 40000) := by
  refine ⟨by decide, ?_⟩
  intro j hj
  simp only [List.mem_cons, List.not_mem_nil, or_false] at hj
  rcases hj with rfl | rfl | rfl | rfl <;> rintro ⟨s, hs, -, hb⟩ <;> cases hs <;> revert hb <;> decide

example : (results (sbpDecoder ⟨true, 32⟩ Mono.u32 (sbpTable 1000000)) id noise).isSome = true := by
  decide +kernel

example : Pause (sbpTable 1000000) 32 [0, 1, 2, 3] (500, 30000) := by
  refine ⟨by decide, ?_⟩
  intro j hj
  simp only [List.mem_cons, List.not_mem_nil, or_false] at hj
  rcases hj with rfl | rfl | rfl | rfl <;> rintro ⟨s, hs, -, hb⟩ <;> cases hs <;> revert hb <;> decide

example : (results (denonDecoder ⟨true, 32⟩ Mono.u32 (denonTable 1000000)) id noise).isSome = true := by
  decide +kernel

example : Pause (denonTable 1000000) 32 [0, 1, 2] (400, 70000) := by
  refine ⟨by decide, ?_⟩
  intro j hj
  simp only [List.mem_cons, List.not_mem_nil, or_false] at hj
  rcases hj with rfl | rfl | rfl <;> rintro ⟨s, hs, -, hb⟩ <;> cases hs <;> revert hb <;> decide

/-- The stale bits are real: an abandoned Denon transmission whose first bit is one leaves a bit in the next. -/
example : (results (denonDecoder ⟨true, 32⟩ Mono.u32 (denonTable 1000000)) id
      (pulses [(3400, 1600), (400, 1200)] ++ (pulses [(400, 70000)] ++ pulses (nominalDenon 0)))).map said =
    some (oks (denonHeard 1 [0])) := by
  decide +kernel

example : (results (rc5Decoder ⟨true, 32⟩ (rc5Table 1000000)) id noise).isSome = true ∧
    (results (rc6Decoder ⟨true, 32⟩ (rc6Table 1000000)) id noise).isSome = true := by
  decide +kernel

/-- The nominal RC5 transmission comes after a gap. -/
example (w : BitVec 14) (hw : w.getLsbD 13 = true) :
    ∃ after, nominalRc5 w = (true, 100000) :: after ∧ Gap (rc5Table 1000000) 100000 := by
  unfold nominalRc5
  rw [rc5Edges_eq w hw]
  exact ⟨_, rfl, by rw [gap_iff]; decide⟩

end Infrared
