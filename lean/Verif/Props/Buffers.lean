import Verif.Model.Buffers
import Verif.Props.Streams
import Verif.Props.Encoders
import Verif.Props.Sender

/-!
# Recorded and prepared buffers (C61)
-/

namespace Infrared

open Spec

variable {C K : Type}

/-! ### Recordings of many transmissions -/

/-- The durations of a recording: the time before the first edge, then mark and space of each pulse. -/
def Spec.recording (first : Nat) (ps : List (Nat × Nat)) : List Nat :=
  first :: ps.flatMap fun p => [p.1, p.2]

theorem alternating_recording (g : Nat) (ps : List (Nat × Nat)) :
    alternating true (recording g ps) = (true, g) :: pulses ps := by
  simp only [recording, alternating, Bool.not_true]
  congr 1
  induction ps with
  | nil => rfl
  | cons p ps ih => simp [alternating, pulses, ih]

theorem said_oks {outs : List (Res K)} {ks : List K} (h : said outs = oks ks) :
    commands (outs.takeWhile isOk) = ks := by
  induction outs generalizing ks with
  | nil =>
    cases ks with
    | nil => rfl
    | cons k ks => simp [said, oks] at h
  | cons x xs ih =>
    match x with
    | .error e =>
      cases ks with
      | nil => simp [said, oks] at h
      | cons k ks => simp [said, oks] at h
    | .ok none =>
      have h' : said xs = oks ks := by simpa [said] using h
      rw [List.takeWhile_cons_of_pos rfl]
      exact ih h'
    | .ok (some k) =>
      cases ks with
      | nil => simp [said, oks] at h
      | cons k' ks =>
        have h' : k = k' ∧ said xs = oks ks := by simpa [said, oks] using h
        rw [List.takeWhile_cons_of_pos rfl, ← ih h'.2, ← h'.1]
        rfl

theorem collect_of {D : Decoder C} (hD : D.Commits) (conv : C → K) (buf : List Nat) (ks : List K)
    (h : (results D conv (alternating true buf)).map said = some (oks ks)) :
    bufferCollect D conv buf = some ks := by
  rcases hr : results D conv (alternating true buf) with _ | outs
  · rw [hr] at h; cases h
  · rw [hr, Option.map_some, Option.some.injEq] at h
    rw [C33_buffer_collect_partial D hD conv buf outs hr, said_oks h]

/-- **C61**: a recording of any number of NEC frames and repeat codes, as a buffer of durations:
`BufferInputReceiver` yields exactly the commands, in order.  (NEC, Samsung, NEC16, raw.) -/
theorem C61_recording_nec (t : Target) (m : Mono) (hm : m = Mono.u32 ∨ m = Mono.u64)
    (f : Nat) (hlo : 20000 ≤ f) (hf : f < 2 ^ 32) (v : NecVariant C) (hv : v.Shipped) (hvt : v.Total)
    (tbl : PulseSpans) (htbl : necSpans t m v f = some tbl) (conv : C → K) (g : Nat)
    (hg : Pause tbl m.width [0, 1] (0, g)) (items : List (NecItem × (Nat × Nat)))
    (hok : ∀ i ∈ items, i.1.Ok tbl ∧ Pause tbl m.width [0, 1] i.2) :
    (BufferInputReceiver.withFrequency f).collect (necBuild t m v) conv
        (recording g (items.flatMap fun i => i.1.wire ++ [i.2])) =
      some ((necHeard v.unpack 0 (items.map Prod.fst)).map conv) := by
  have h := C56_nec_series t m hm f hlo hf v hv tbl htbl conv g hg items hok
  simp only [BufferInputReceiver.collect, BufferInputReceiver.withFrequency, necBuild, htbl,
    Option.map_some, Option.bind_some]
  exact collect_of (nec_commits t m tbl v hvt) conv _ _ (by rw [alternating_recording]; exact h)

/-- **C61** for SBP. -/
theorem C61_recording_sbp (t : Target) (m : Mono) (hm : m = Mono.u32 ∨ m = Mono.u64)
    (f : Nat) (hlo : 20000 ≤ f) (hf : f < 2 ^ 32) (tbl : PulseSpans)
    (htbl : sbpSpans t m f = some tbl) (conv : SbpCommand → K) (g : Nat)
    (hg : Pause tbl m.width [0] (0, g))
    (items : List ((BitVec 16 × BitVec 20 × List (Nat × Nat)) × (Nat × Nat)))
    (hok : ∀ i ∈ items, Matches tbl (sbpSlots i.1.1 i.1.2.1) i.1.2.2 ∧
      Pause tbl m.width [0] i.2) :
    (BufferInputReceiver.withFrequency f).collect (sbpBuild t m) conv
        (recording g (items.flatMap fun i => i.1.2.2 ++ [i.2])) =
      some (items.map fun i => conv (SbpCommand.unpack i.1.1 (i.1.2.1.setWidth 32))) := by
  have h := C56_sbp_series t m hm f hlo hf tbl htbl conv g hg items hok
  simp only [BufferInputReceiver.collect, BufferInputReceiver.withFrequency, sbpBuild, htbl,
    Option.map_some, Option.bind_some]
  exact collect_of (sbp_commits t m tbl) conv _ _ (by rw [alternating_recording]; exact h)

/-- **C61** for Denon (47 of the 48 bits, see C23). -/
theorem C61_recording_denon (t : Target) (m : Mono) (hm : m = Mono.u32 ∨ m = Mono.u64)
    (f : Nat) (hlo : 20000 ≤ f) (hf : f < 2 ^ 32) (tbl : PulseSpans)
    (htbl : denonSpans t m f = some tbl) (conv : DenonCommand → K) (g : Nat)
    (hg : Pause tbl m.width [0] (0, g))
    (items : List ((BitVec 48 × List (Nat × Nat)) × (Nat × Nat)))
    (hok : ∀ i ∈ items, Matches tbl (denonSlots i.1.1) i.1.2 ∧ Pause tbl m.width [0] i.2) :
    (BufferInputReceiver.withFrequency f).collect (denonBuild t m) conv
        (recording g (items.flatMap fun i => i.1.2 ++ [i.2])) =
      some (items.map fun i => conv { bits := (i.1.1.setWidth 47).setWidth 64 }) := by
  have h := C56_denon_series t m hm f hlo hf tbl htbl conv g hg items hok
  simp only [BufferInputReceiver.collect, BufferInputReceiver.withFrequency, denonBuild, htbl,
    Option.map_some, Option.bind_some]
  exact collect_of (denon_commits t m tbl) conv _ _ (by rw [alternating_recording]; exact h)

/-- **C61** for RC5: `buf` are the durations of the transmissions, whose edges alternate. -/
theorem C61_recording_rc5 (t : Target) (hus : 16 ≤ t.usizeBits) (m : Mono)
    (hm : m = Mono.u32 ∨ m = Mono.u64) (f : Nat) (hlo : 20000 ≤ f) (hf : f < 2 ^ 32)
    (conv : Rc5Command → K) (items : List (BitVec 14 × List Ev × Option Nat))
    (hok : ∀ i ∈ items, i.1.getLsbD 13 = true ∧
      ManchesterFrame (Within (rc5Table f)) (rc5Edges i.1) i.2.1)
    (buf : List Nat) (hbuf : alternating true buf = items.flatMap fun i => withTail i.2.1 i.2.2) :
    (BufferInputReceiver.withFrequency f).collect (rc5Build t m) conv buf =
      some (items.map fun i => conv (Rc5Command.unpack (i.1.setWidth 16))) := by
  have htbl := rc5Spans_eq hm t hf
  have h := C56_rc5_series t hus m hm f hlo hf _ htbl conv items hok
  simp only [BufferInputReceiver.collect, BufferInputReceiver.withFrequency, rc5Build, htbl,
    Option.map_some, Option.bind_some]
  exact collect_of (rc5_commits t _) conv _ _ (by rw [hbuf]; exact h)

/-- **C61** for RC6. -/
theorem C61_recording_rc6 (t : Target) (hus : 16 ≤ t.usizeBits) (m : Mono)
    (hm : m = Mono.u32 ∨ m = Mono.u64) (f : Nat) (hlo : 20000 ≤ f) (hf : f < 2 ^ 32)
    (conv : Rc6Command → K) (items : List (Rc6Command × List Ev × Option Nat))
    (hok : ∀ i ∈ items, ManchesterFrame (WithinRc6 (rc6Table f))
      (rc6Edges (i.1.addr ++ i.1.cmd) i.1.toggle) i.2.1)
    (buf : List Nat) (hbuf : alternating true buf = items.flatMap fun i => withTail i.2.1 i.2.2) :
    (BufferInputReceiver.withFrequency f).collect (rc6Build t m) conv buf =
      some (items.map fun i => conv i.1) := by
  have htbl := rc6Spans_eq hm t hf
  have h := C56_rc6_series t hus m hm f hlo hf _ htbl conv items hok
  simp only [BufferInputReceiver.collect, BufferInputReceiver.withFrequency, rc6Build, htbl,
    Option.map_some, Option.bind_some]
  exact collect_of (rc6_commits t _) conv _ _ (by rw [hbuf]; exact h)

/-- `BufferInputReceiver::new` is a receiver for microseconds, and `iter_with` has its own
resolution. -/
theorem C61_resolution (build : Build C) (conv : C → K) (buf : List Nat) :
    BufferInputReceiver.new.collect build conv buf =
      (BufferInputReceiver.withFrequency 1000000).collect build conv buf ∧
    ∀ (r : BufferInputReceiver) (f : Nat), r.collectWith f build conv buf =
      (BufferInputReceiver.withFrequency f).collect build conv buf := ⟨rfl, fun _ _ => rfl⟩

/-! ### Prepared buffers -/

/-- What a program can do with a `PulsedataSender`. -/
inductive Spec.PulseCall
  | load (enc : Encode)
  | tick (ts : Nat)
  | reset

/-- Do it; `none` is a panic. -/
def PulsedataSender.calls (s : PulsedataSender) : List PulseCall → Option PulsedataSender
  | [] => some s
  | .load enc :: cs => (s.loadCommand enc).bind fun s' => s'.calls cs
  | .tick ts :: cs => (s.tick ts).1.calls cs
  | .reset :: cs => s.reset.calls cs

theorem PulsedataSender.tick_ptb (s : PulsedataSender) (ts : Nat) : (s.tick ts).1.ptb = s.ptb := by
  unfold PulsedataSender.tick
  split
  · dsimp only
    split <;> rfl
  · rfl

theorem PulsedataSender.ticks_ptb (ts : List Nat) (s : PulsedataSender) :
    ∃ s', s.calls (ts.map .tick) = some s' ∧ s'.ptb = s.ptb := by
  induction ts generalizing s with
  | nil => exact ⟨s, rfl, rfl⟩
  | cons x xs ih =>
    obtain ⟨s', h1, h2⟩ := ih (s.tick x).1
    exact ⟨s', h1, h2.trans (PulsedataSender.tick_ptb s x)⟩

theorem PulsedataSender.calls_append (a b : List PulseCall) (s : PulsedataSender) :
    s.calls (a ++ b) = (s.calls a).bind fun s' => s'.calls b := by
  induction a generalizing s with
  | nil => rfl
  | cons c cs ih =>
    cases c with
    | load enc =>
      simp only [List.cons_append, PulsedataSender.calls]
      rcases s.loadCommand enc with _ | s'
      · rfl
      · exact ih s'
    | tick ts => exact ih _
    | reset => exact ih _

/-- Encoders do not change the length of the slice. -/
def Spec.KeepsLength (enc : Encode) : Prop := ∀ b b' n, enc b = some (b', n) → b'.length = b.length

theorem Writes.keepsLength {enc : Encode} {wave : List Nat} (h : Writes enc wave) : KeepsLength enc := by
  intro b b' n hb
  rw [h b] at hb
  split at hb
  · simp only [Option.some.injEq, Prod.mk.injEq] at hb
    rw [← hb.1]
    simp only [List.length_append, List.length_drop]
    omega
  · cases hb

/-- The number of slots never changes. -/
theorem PulsedataSender.calls_size (cs : List PulseCall) (hk : ∀ enc, .load enc ∈ cs → KeepsLength enc)
    (s s' : PulsedataSender) (h : s.calls cs = some s') : s'.ptb.buf.length = s.ptb.buf.length := by
  induction cs generalizing s with
  | nil => cases h; rfl
  | cons c cs ih =>
    have hk' : ∀ enc, .load enc ∈ cs → KeepsLength enc := fun enc he => hk enc (by simp [he])
    cases c with
    | load enc =>
      simp only [PulsedataSender.calls] at h
      rcases hl : s.loadCommand enc with _ | s1
      · rw [hl] at h; cases h
      · rw [hl, Option.bind_some] at h
        rw [ih hk' s1 h]
        simp only [PulsedataSender.loadCommand, PulsedataSender.reset, PulsedataBuffer.reset,
          PulsedataBuffer.load, Nat.zero_le, if_true, List.drop_zero, Option.bind_eq_bind] at hl
        rcases he : enc s.ptb.buf with _ | ⟨b, n⟩
        · simp [he] at hl
        · simp only [he, Option.bind_some, Option.some.injEq] at hl
          rw [← hl]
          simpa using hk enc (by simp) _ _ _ he
    | tick ts => rw [ih hk' _ h, PulsedataSender.tick_ptb]
    | reset => exact ih hk' s.reset h

/-- **C61**: whatever was done with a new `PulsedataSender` before, loading a command panics exactly if
its waveform does not fit the buffer, and afterwards, also while and after it is ticked, `buffer()` is
exactly the waveform. -/
theorem C61_prepared (S : Nat) (before : List PulseCall)
    (hk : ∀ enc, .load enc ∈ before → KeepsLength enc) (s : PulsedataSender)
    (hs : (PulsedataSender.new S).calls before = some s) (enc : Encode) (wave : List Nat)
    (hw : Writes enc wave) (ts : List Nat) :
    if wave.length ≤ S then
      ∃ s', s.calls (.load enc :: ts.map .tick) = some s' ∧ s'.contents = some wave
    else s.calls (.load enc :: ts.map .tick) = none := by
  have hsz : s.ptb.buf.length = S := by
    rw [PulsedataSender.calls_size before hk _ s hs]
    simp [PulsedataSender.new, PulsedataBuffer.new]
  have hl : s.loadCommand enc = (enc s.ptb.buf).map fun p =>
      { pos := 0, tsLastedge := 0, status := .idle, ptb := { buf := p.1, offset := p.2 } } := by
    simp only [PulsedataSender.loadCommand, PulsedataSender.reset, PulsedataBuffer.reset,
      PulsedataBuffer.load, Nat.zero_le, if_true, List.drop_zero, Option.bind_eq_bind]
    rcases enc s.ptb.buf with _ | ⟨b, n⟩
    · rfl
    · simp
  have he := hw s.ptb.buf
  rw [hsz] at he
  split
  · next h =>
    rw [if_pos h] at he
    obtain ⟨s', h1, h2⟩ := PulsedataSender.ticks_ptb ts
      { pos := 0, tsLastedge := 0, status := .idle,
        ptb := { buf := wave ++ s.ptb.buf.drop wave.length, offset := wave.length } }
    refine ⟨s', ?_, ?_⟩
    · simp only [PulsedataSender.calls, hl, he, Option.map_some, Option.bind_some]
      exact h1
    · simp [PulsedataSender.contents, PulsedataBuffer.buffer, h2]
  · next h =>
    rw [if_neg h] at he
    simp [PulsedataSender.calls, hl, he]

/-- `PulsedataBuffer::load` several times without `reset`. -/
def PulsedataBuffer.loads : PulsedataBuffer → List Encode → Option PulsedataBuffer
  | p, [] => some p
  | p, enc :: encs => (p.load enc).bind fun p' => p'.loads encs

theorem loads_append (ws : List (Encode × List Nat)) (hw : ∀ x ∈ ws, Writes x.1 x.2) (p : PulsedataBuffer)
    (hp : p.offset ≤ p.buf.length) :
    if p.offset + (ws.map fun x => x.2.length).sum ≤ p.buf.length then
      ∃ p', p.loads (ws.map Prod.fst) = some p' ∧ p'.buf.length = p.buf.length ∧
        p'.buffer = some (p.buf.take p.offset ++ ws.flatMap Prod.snd)
    else p.loads (ws.map Prod.fst) = none := by
  induction ws generalizing p with
  | nil =>
    rw [if_pos (by simpa using hp)]
    exact ⟨p, rfl, rfl, by simp [PulsedataBuffer.buffer, hp]⟩
  | cons x ws ih =>
    obtain ⟨enc, wave⟩ := x
    have he := hw (enc, wave) (by simp) (p.buf.drop p.offset)
    have hl : p.load enc = (enc (p.buf.drop p.offset)).bind fun r =>
        some { buf := p.buf.take p.offset ++ r.1, offset := p.offset + r.2 } := by
      rw [PulsedataBuffer.load, if_pos hp]; rfl
    dsimp only at he
    rw [List.length_drop] at he
    simp only [List.map_cons, List.sum_cons, PulsedataBuffer.loads, hl]
    by_cases hfit : wave.length ≤ p.buf.length - p.offset
    · rw [if_pos hfit] at he
      rw [he]
      have hlen : (p.buf.take p.offset ++ (wave ++ (p.buf.drop p.offset).drop wave.length)).length = p.buf.length := by
        simp only [List.length_append, List.length_take, List.length_drop]; omega
      have key := ih (fun x hx => hw x (by simp [hx]))
        { buf := p.buf.take p.offset ++ (wave ++ (p.buf.drop p.offset).drop wave.length),
          offset := p.offset + wave.length } (by rw [hlen]; dsimp only; omega)
      rw [hlen] at key
      dsimp only at key
      rw [Nat.add_assoc] at key
      simp only [Option.bind_some]
      split at key
      · rename_i h
        rw [if_pos h]
        obtain ⟨p', h1, h2, h3⟩ := key
        refine ⟨p', h1, h2, ?_⟩
        rw [h3, ← List.append_assoc (p.buf.take p.offset), List.take_append_of_le_length (by
          simp only [List.length_append, List.length_take]; omega), List.take_of_length_le (by
          simp only [List.length_append, List.length_take]; omega)]
        simp [List.append_assoc]
      · rename_i h
        rw [if_neg h]
        exact key
    · rw [if_neg hfit] at he
      rw [he, if_neg (by omega)]
      rfl

/-- **C61**: several commands loaded one after the other into a new buffer, without `reset`, follow each other in it;
loading panics exactly if together they do not fit. -/
theorem C61_appends (S : Nat) (ws : List (Encode × List Nat)) (hw : ∀ x ∈ ws, Writes x.1 x.2) :
    if (ws.map fun x => x.2.length).sum ≤ S then
      ∃ p, (PulsedataBuffer.new S).loads (ws.map Prod.fst) = some p ∧ p.buffer = some (ws.flatMap Prod.snd)
    else (PulsedataBuffer.new S).loads (ws.map Prod.fst) = none := by
  have h := loads_append ws hw (PulsedataBuffer.new S) (by simp [PulsedataBuffer.new])
  simp only [PulsedataBuffer.new, Nat.zero_add, List.length_replicate, List.take_zero, List.nil_append] at h ⊢
  split at h
  · rename_i hle
    rw [if_pos hle]
    obtain ⟨p', h1, -, h3⟩ := h
    exact ⟨p', h1, h3⟩
  · rename_i hle
    rw [if_neg hle]
    exact h

/-- Calling `next` `n` times. -/
def PulseIterator.nextN : Nat → PulseIterator → Option (List (Option Nat))
  | 0, _ => some []
  | n + 1, it =>
    match it.next with
    | none => none
    | some (it', r) => (PulseIterator.nextN n it').map (r :: ·)

theorem PulseIterator.nextN_eq (n : Nat) (ps : List Nat) (pos : Nat) (h : pos ≤ ps.length) :
    PulseIterator.nextN n { pulses := ps, pos } =
      some (((ps.drop pos).map some ++ List.replicate n none).take n) := by
  induction n generalizing pos with
  | zero => rfl
  | succ n ih =>
    simp only [PulseIterator.nextN, PulseIterator.next]
    by_cases hp : pos = ps.length
    · rw [if_pos hp]
      dsimp only
      rw [ih pos h, hp, List.drop_length]
      simp [List.replicate_succ]
    · have hlt : pos < ps.length := by omega
      rw [if_neg hp, List.getElem?_eq_getElem hlt]
      dsimp only
      rw [ih (pos + 1) hlt, List.drop_eq_getElem_cons hlt]
      simp only [Option.map_some, List.map_cons, List.cons_append, List.take_succ_cons,
        Option.some.injEq, List.cons.injEq, true_and]
      rw [List.replicate_succ', ← List.append_assoc,
        List.take_append_of_le_length (l₂ := [none])
          (by rw [List.length_append, List.length_replicate]; omega)]

/-- **C61**: iterating over the buffer gives the contents of `buffer()` and then `None` forever; it
panics exactly when `buffer()` does. -/
theorem C61_iterate (p : PulsedataBuffer) (n : Nat) :
    p.intoIter.bind (PulseIterator.nextN n) =
      p.buffer.map fun b => (b.map some ++ List.replicate n none).take n := by
  unfold PulsedataBuffer.intoIter PulsedataBuffer.buffer
  split
  · exact PulseIterator.nextN_eq n _ 0 (Nat.zero_le _)
  · rfl

/-! ### From a sender's buffer to a buffer receiver -/

/-- `PulsedataSender::load_command` on a sender with any past, then `buffer()`. -/
def Spec.Prepares (s : PulsedataSender) (enc : Encode) (ts : List Nat) (buf : List Nat) : Prop :=
  ∃ s', s.calls (.load enc :: ts.map .tick) = some s' ∧ s'.contents = some buf

theorem prepares_of {S : Nat} {before : List PulseCall}
    (hk : ∀ enc, .load enc ∈ before → KeepsLength enc) {s : PulsedataSender}
    (hs : (PulsedataSender.new S).calls before = some s) {enc : Encode} {wave : List Nat}
    (hw : Writes enc wave) (hlen : wave.length ≤ S) (ts : List Nat) : Prepares s enc ts wave := by
  have := C61_prepared S before hk s hs enc wave hw ts
  rwa [if_pos hlen] at this

theorem taken {enc : Encode} {wave : List Nat} (hw : Writes enc wave) {slice buf : List Nat} {n : Nat}
    (h : enc slice = some (buf, n)) : buf.take n = wave := by
  rw [hw slice] at h
  split at h
  · simp only [Option.some.injEq, Prod.mk.injEq] at h
    obtain ⟨rfl, rfl⟩ := h
    exact List.take_left
  · cases h

section
variable (t : Target) (m : Mono) (hm : m = Mono.u32 ∨ m = Mono.u64) (S : Nat)
  (before : List PulseCall) (hk : ∀ enc, .load enc ∈ before → KeepsLength enc) (s : PulsedataSender)
  (hs : (PulsedataSender.new S).calls before = some s) (ts : List Nat)
include hm hk hs

/-- **C61**: load a NEC command into a `PulsedataSender` of at least 67 entries, whatever it was used
for before, and hand its `buffer()` to a `BufferInputReceiver` of the same frequency: exactly this
command is received, not marked as a repeat. -/
theorem C61_transfer_nec (f : Nat) (hlo : 14000 ≤ f) (hhi : f ≤ 477218999) (hS : 67 ≤ S)
    (conv : NecCommand → K) (cmd : NecCommand) :
    ∃ data buf, necData nec.pulseDistance f = some data ∧ Prepares s (necEncode nec data cmd) ts buf ∧
      (BufferInputReceiver.withFrequency f).collect (necBuild t m nec) conv buf =
        some [conv { cmd with rep := false }] := by
  have htbl := necSpans_standard hm t (show f < 2 ^ 32 by omega) nec rfl
  obtain ⟨data, buf, hd, he, -, hr⟩ := C39_nec_roundtrip t m hm f hlo hhi _ htbl conv cmd
    (List.replicate 67 0) (by simp)
  obtain ⟨hw, h67⟩ := C38_nec_encode nec data cmd _ rfl
  rw [taken hw he] at hr
  refine ⟨data, _, hd, prepares_of hk hs hw (by omega) ts, ?_⟩
  simpa only [BufferInputReceiver.collect, BufferInputReceiver.withFrequency, necBuild, htbl,
    Option.map_some, Option.bind_some] using hr

/-- **C61** for Samsung. -/
theorem C61_transfer_samsung (f : Nat) (hlo : 14000 ≤ f) (hhi : f ≤ 954437999) (hS : 67 ≤ S)
    (conv : SamsungNecCommand → K) (cmd : SamsungNecCommand) :
    ∃ data buf, necData samsungNec.pulseDistance f = some data ∧
      Prepares s (necEncode samsungNec data cmd) ts buf ∧
      (BufferInputReceiver.withFrequency f).collect (necBuild t m samsungNec) conv buf =
        some [conv { cmd with rep := false }] := by
  have htbl := necSpans_samsung hm t (show f < 2 ^ 32 by omega) samsungNec rfl
  obtain ⟨data, buf, hd, he, -, hr⟩ := C39_samsung_roundtrip t m hm f hlo hhi _ htbl conv cmd
    (List.replicate 67 0) (by simp)
  obtain ⟨hw, h67⟩ := C38_nec_encode samsungNec data cmd _ rfl
  rw [taken hw he] at hr
  refine ⟨data, _, hd, prepares_of hk hs hw (by omega) ts, ?_⟩
  simpa only [BufferInputReceiver.collect, BufferInputReceiver.withFrequency, necBuild, htbl,
    Option.map_some, Option.bind_some] using hr

/-- **C61** for 16-bit addresses. -/
theorem C61_transfer_nec16 (f : Nat) (hlo : 14000 ≤ f) (hhi : f ≤ 477218999) (hS : 67 ≤ S)
    (conv : Nec16Command → K) (cmd : Nec16Command) :
    ∃ data buf, necData nec16.pulseDistance f = some data ∧
      Prepares s (necEncode nec16 data cmd) ts buf ∧
      (BufferInputReceiver.withFrequency f).collect (necBuild t m nec16) conv buf =
        some [conv { cmd with rep := false }] := by
  have htbl := necSpans_standard hm t (show f < 2 ^ 32 by omega) nec16 rfl
  obtain ⟨data, buf, hd, he, -, hr⟩ := C39_nec16_roundtrip t m hm f hlo hhi _ htbl conv cmd
    (List.replicate 67 0) (by simp)
  obtain ⟨hw, h67⟩ := C38_nec_encode nec16 data cmd _ rfl
  rw [taken hw he] at hr
  refine ⟨data, _, hd, prepares_of hk hs hw (by omega) ts, ?_⟩
  simpa only [BufferInputReceiver.collect, BufferInputReceiver.withFrequency, necBuild, htbl,
    Option.map_some, Option.bind_some] using hr

/-- **C61** for raw words. -/
theorem C61_transfer_raw (f : Nat) (hlo : 14000 ≤ f) (hhi : f ≤ 477218999) (hS : 67 ≤ S)
    (conv : NecDebugCmd → K) (cmd : NecDebugCmd) :
    ∃ data buf, necData necDebug.pulseDistance f = some data ∧
      Prepares s (necEncode necDebug data cmd) ts buf ∧
      (BufferInputReceiver.withFrequency f).collect (necBuild t m necDebug) conv buf =
        some [conv cmd] := by
  have htbl := necSpans_standard hm t (show f < 2 ^ 32 by omega) necDebug rfl
  obtain ⟨data, buf, hd, he, -, hr⟩ := C39_raw_roundtrip t m hm f hlo hhi _ htbl conv cmd
    (List.replicate 67 0) (by simp)
  obtain ⟨hw, h67⟩ := C38_nec_encode necDebug data cmd _ rfl
  rw [taken hw he] at hr
  refine ⟨data, _, hd, prepares_of hk hs hw (by omega) ts, ?_⟩
  simpa only [BufferInputReceiver.collect, BufferInputReceiver.withFrequency, necBuild, htbl,
    Option.map_some, Option.bind_some] using hr

/-- **C61** for RC5, 27 entries. -/
theorem C61_transfer_rc5 (hus : 16 ≤ t.usizeBits) (f : Nat) (hlo : 13000 ≤ f) (hf : f < 2 ^ 32)
    (hS : 27 ≤ S) (conv : Rc5Command → K) (cmd : Rc5Command) (ha : cmd.addr.toNat < 32)
    (hc : cmd.cmd.toNat < 64) (hst : cmd.start = 2 ∨ cmd.start = 3) :
    ∃ len buf, rc5CalcFreq f = some len ∧ Prepares s (rc5Encode t len cmd) ts buf ∧
      (BufferInputReceiver.withFrequency f).collect (rc5Build t m) conv buf = some [conv cmd] := by
  have htbl := rc5Spans_eq hm t hf
  obtain ⟨len, buf, n, hd, he, -, -, hr⟩ := C40_rc5_roundtrip_exact t hus m hm f hlo hf _ htbl conv cmd
    ha hc hst (List.replicate 27 0) (by simp)
  obtain ⟨len', hlen, -, henc⟩ := C38_rc5_encode t f hf
  rw [hd, Option.some.injEq] at hlen
  subst hlen
  obtain ⟨hw, -, h27⟩ := henc cmd
  rw [taken hw he] at hr
  refine ⟨len, _, hd, prepares_of hk hs hw (by omega) ts, ?_⟩
  simpa only [BufferInputReceiver.collect, BufferInputReceiver.withFrequency, rc5Build, htbl,
    Option.map_some, Option.bind_some] using hr

/-- **C61** for RC6, 44 entries. -/
theorem C61_transfer_rc6 (hus : 16 ≤ t.usizeBits) (f : Nat) (hlo : 27028 ≤ f) (hhi : f ≤ 9673349)
    (hS : 44 ≤ S) (conv : Rc6Command → K) (cmd : Rc6Command) :
    ∃ len buf, rc6Data f = some len ∧ Prepares s (rc6Encode len cmd) ts buf ∧
      (BufferInputReceiver.withFrequency f).collect (rc6Build t m) conv buf = some [conv cmd] := by
  have htbl := rc6Spans_eq hm t (show f < 2 ^ 32 by omega)
  obtain ⟨len, buf, n, k, j, hd, he, -, -, -, hr⟩ := C41_rc6_roundtrip_partial t hus m hm f hlo hhi _
    htbl conv cmd (List.replicate 44 0) (by simp)
  obtain ⟨-, hw, h44⟩ := C38_rc6_encode f len hd cmd
  rw [taken hw he] at hr
  refine ⟨len, _, hd, prepares_of hk hs hw (by omega) ts, ?_⟩
  simpa only [BufferInputReceiver.collect, BufferInputReceiver.withFrequency, rc6Build, htbl,
    Option.map_some, Option.bind_some] using hr

end

/-! ### Non-vacuity -/

/-- A sender with a past: it has sent an RC6 command and was interrupted by an RC5 one. -/
example : ∃ s, (PulsedataSender.new 96).calls [.load (rc6Encode 17 ⟨70, 2, true⟩), .tick 0, .tick 300,
      .load (rc5Encode ⟨true, 32⟩ 35 (Rc5Command.new 20 9 false)), .tick 310, .reset, .tick 320] = some s ∧
    s.ptb.buf ≠ List.replicate 96 0 :=
  ⟨_, rfl, by decide +kernel⟩

example : ∀ enc, PulseCall.load enc ∈ [PulseCall.load (rc6Encode 17 ⟨70, 2, true⟩), .tick 0, .tick 300,
      .load (rc5Encode ⟨true, 32⟩ 35 (Rc5Command.new 20 9 false)), .tick 310, .reset, .tick 320] →
    KeepsLength enc := by
  intro enc h
  simp only [List.mem_cons, PulseCall.load.injEq, reduceCtorEq, List.not_mem_nil, or_false, false_or] at h
  rcases h with rfl | rfl
  · exact Writes.keepsLength (rc6Encode_writes 17 _)
  · obtain ⟨len, hlen, -, henc⟩ := C38_rc5_encode ⟨true, 32⟩ 40000 (by decide)
    obtain rfl : 35 = len := Option.some.inj hlen
    exact Writes.keepsLength (henc _).1

/-- Two RC6 commands fit a buffer of 96 slots, three do not. -/
example : (∃ p, (PulsedataBuffer.new 96).loads [rc6Encode 17 ⟨70, 2, true⟩, rc6Encode 17 ⟨0, 12, false⟩] = some p ∧
      p.buffer = some (rc6Wave 17 (70#8 ++ 2#8) true ++ rc6Wave 17 (0#8 ++ 12#8) false)) ∧
    (PulsedataBuffer.new 96).loads [rc6Encode 17 ⟨70, 2, true⟩, rc6Encode 17 ⟨0, 12, false⟩,
      rc6Encode 17 ⟨70, 2, true⟩] = none := by
  have h2 := C61_appends 96 [(rc6Encode 17 ⟨70, 2, true⟩, rc6Wave 17 (70#8 ++ 2#8) true),
      (rc6Encode 17 ⟨0, 12, false⟩, rc6Wave 17 (0#8 ++ 12#8) false)] (by
    intro x hx
    simp only [List.mem_cons, List.not_mem_nil, or_false] at hx
    rcases hx with rfl | rfl
    · exact rc6Encode_writes 17 ⟨70, 2, true⟩
    · exact rc6Encode_writes 17 ⟨0, 12, false⟩)
  rw [if_pos (by decide +kernel)] at h2
  obtain ⟨p, h3, h4⟩ := h2
  exact ⟨⟨p, h3, h4⟩, by decide +kernel⟩

/-- A recording of two nominal SBP frames at 1 MHz, in µs, with `BufferInputReceiver::new`. -/
example (t : Target) (a b : BitVec 16) (c d : BitVec 20) :
    BufferInputReceiver.new.collect (sbpBuild t Mono.u32) id
        (recording 40000 ((nominalSbp a c ++ [(500, 30000)]) ++ (nominalSbp b d ++ [(500, 30000)]))) =
      some [SbpCommand.unpack a (c.setWidth 32), SbpCommand.unpack b (d.setWidth 32)] := by
  have hp : Pause (sbpTable 1000000) 32 [0] (500, 30000) ∧ Pause (sbpTable 1000000) 32 [0] (0, 40000) := by
    constructor <;>
    · refine ⟨by decide, ?_⟩
      intro j hj
      simp only [List.mem_singleton] at hj
      subst hj
      rintro ⟨s, hs, -, hb⟩
      cases hs
      revert hb
      dsimp only
      decide
  have h := C61_recording_sbp t Mono.u32 (.inl rfl) 1000000 (by decide) (by decide) _
    (sbpSpans_eq (.inl rfl) t (by decide)) id 40000 hp.2
    [((a, c, nominalSbp a c), (500, 30000)), ((b, d, nominalSbp b d), (500, 30000))] (by
      intro i hi
      simp only [List.mem_cons, List.not_mem_nil, or_false] at hi
      rcases hi with rfl | rfl
      · exact ⟨nominalSbp_frame _ _, hp.1⟩
      · exact ⟨nominalSbp_frame _ _, hp.1⟩)
  rw [(C61_resolution _ _ _).1]
  simpa using h

end Infrared
