import Verif.Props.Usb
import Verif.Props.Tutorial
import Verif.Props.Documented

/-!
# The example programs that only log (C80)

`receiver-polled.rs` and `tutorial1a.rs` (bluepill) and `receiver-event-driven-rtic.rs` (rp-pico): for every input the
program logs what its receiver says, nothing else; and for a line on which transmissions arrive, that is the
transmissions.
-/

namespace Infrared

open Spec

variable {C K : Type} {hz w : Nat} {micros : Nat → Option Nat} {since : Nat → Nat → Option Nat}

/-! ## `receiver-polled.rs` -/

theorem pollBase_conv (D : Decoder C) (conv : C → K) (p : PeriodicPoll D) (s : Bool) :
    PeriodicPoll.pollBase D conv p s =
      (PeriodicPoll.pollBase D (fun c => c) p s).map fun q => (q.1, Res.map conv q.2) := by
  unfold PeriodicPoll.pollBase
  dsimp only
  split
  · rfl
  · rcases D.eventTotal p.decoder s _ with _ | ⟨d, e | _ | c⟩ <;> rfl

/-- A handler that polls once and logs `lines` of the result: what it logs is the concatenation of the lines of the
receiver's results. -/
theorem poll_log {L : Type} (D : Decoder C) (conv : C → K) (lines : PinRes Empty K → List L)
    (run : PeriodicPoll D → List Bool → Option (List L)) (h0 : ∀ p, run p [] = some [])
    (h1 : ∀ p s ss, run p (s :: ss) = match p.pollPin (PinErr := Empty) D conv (.ok s) with
      | none => none
      | some (p', res) => (run p' ss).map (lines res ++ ·)) (samples : List Bool) (p : PeriodicPoll D) :
    run p samples =
      ((runStep (fun p s => PeriodicPoll.pollBase D (fun c => c) p s) p samples).map Prod.snd).map
        fun outs => outs.flatMap fun r => lines (PinRes.ofRes (Res.map conv r)) := by
  induction samples generalizing p with
  | nil => exact h0 p
  | cons s ss ih =>
    rw [h1, runStep, PeriodicPoll.pollPin, pollBase_conv]
    dsimp only
    rcases PeriodicPoll.pollBase D (fun c => c) p s with _ | ⟨p', res⟩
    · rfl
    · change (run p' ss).map _ = _
      rw [ih p']
      dsimp only
      rcases runStep (fun p s => PeriodicPoll.pollBase D (fun c => c) p s) p' ss with _ | ⟨p'', out⟩ <;> rfl

theorem appleAction_eq (c : AppleNecCommand) :
    (Button.from apple2009 c).action =
      (appleActions.find? fun e => e.1 = (c.commandPage.toNat, c.command.toNat)).map Prod.snd := by
  have hnd : ∀ p ∈ appleActions, ∀ q ∈ appleActions, p.1 = q.1 → p.2 = q.2 := by decide
  have key : ∀ a, (Button.from apple2009 c).action = some a ↔
      (appleActions.find? fun e => e.1 = (c.commandPage.toNat, c.command.toNat)).map Prod.snd = some a := by
    intro a
    rw [show (Button.from apple2009 c).action = apple2009.decode c from rfl, (C46_apple c a).1,
      Option.map_eq_some_iff]
    have hm : AppleButton c.commandPage.toNat c.command.toNat a ↔
        ((c.commandPage.toNat, c.command.toNat), a) ∈ appleActions := by
      simp [appleActions, AppleButton, and_assoc]
    rw [hm]
    constructor
    · intro h
      obtain ⟨e, he⟩ : ∃ e, appleActions.find? (fun e => e.1 = (c.commandPage.toNat, c.command.toNat)) = some e := by
        rw [← Option.isSome_iff_exists, List.find?_isSome]
        exact ⟨_, h, by simp⟩
      have h1 : e.1 = (c.commandPage.toNat, c.command.toNat) := by simpa using List.find?_some he
      exact ⟨e, he, hnd _ (List.mem_of_find?_eq_some he) _ h h1⟩
    · rintro ⟨e, he, rfl⟩
      have h1 : e.1 = (c.commandPage.toNat, c.command.toNat) := by simpa using List.find?_some he
      rw [← h1]
      exact List.mem_of_find?_eq_some he
  exact Option.ext fun a => key a

/-- **C80**: for every sequence of samples, `receiver-polled.rs` panics only if its receiver does, and logs, in
order, each error and for each command the line of its button; nothing for a command that is not a button of the
remote. -/
theorem C80_polled (D : Decoder AppleNecCommand) (samples : List Bool) :
    receiverPolledRun D (PeriodicPoll.new D) samples =
      (pollRun D (fun c => c) samples).map fun outs => outs.filterMap fun
        | .ok (some c) => polledLine c
        | .ok none => none
        | .error e => some (.err (pinError e)) := by
  have h := poll_log D (Button.from apple2009) polledLines (receiverPolledRun D) (fun _ => rfl)
    (fun p s _ => by
      rw [receiverPolledRun]
      rcases p.pollPin (PinErr := Empty) D (Button.from apple2009) (.ok s) with _ | ⟨_, _⟩ <;> rfl) samples
    (PeriodicPoll.new D)
  rw [h]
  unfold pollRun
  congr 1
  funext outs
  induction outs with
  | nil => rfl
  | cons o os ih =>
    rw [List.flatMap_cons, ih, List.filterMap_cons]
    rcases o with e | _ | c
    · cases e <;> rfl
    · rfl
    · have ha := appleAction_eq c
      dsimp only [Res.map, Except.map, Option.map, PinRes.ofRes, polledLines]
      unfold polledLine
      rw [← ha]
      rcases hb : (Button.from apple2009 c).action with _ | a
      · rfl
      · have hp : a ≠ .power := by
          rintro rfl
          have := (C46_apple c .power).1.mp hb
          simp [AppleButton] at this
        dsimp only
        split
        · rename_i h; cases h; rfl
        · rename_i h; exact absurd (Option.some.inj h) hp
        · rename_i b h1 h2 h
          cases h
          rw [if_neg (fun h => h1 (by rw [h]))]
          rfl
        · rename_i h; cases h

/-- **C80**: "Power on/off" is never logged: the Apple remote has no such button. -/
theorem C80_never_power (D : Decoder AppleNecCommand) (samples : List Bool) (lines : List PolledLine)
    (h : receiverPolledRun D (PeriodicPoll.new D) samples = some lines) : PolledLine.power ∉ lines := by
  rw [C80_polled] at h
  obtain ⟨outs, -, rfl⟩ := Option.map_eq_some_iff.mp h
  intro hk
  obtain ⟨c, -, hc⟩ := List.mem_filterMap.mp hk
  rcases c with e | _ | c
  · cases hc
  · cases hc
  · dsimp only [polledLine] at hc
    split at hc
    · cases hc
    · split at hc <;> cases hc

/-- **C80**: polled 20 000 times per second, `receiver-polled.rs` logs for any series of frames and repeat codes within
6 % exactly the lines of the Apple commands among them, and no errors. -/
theorem C80_polled_heard (t : Target) (tbl : PulseSpans) (htbl : necSpans t Mono.u32 appleNec 20000 = some tbl)
    (u : Nat) (hu : 0 < u) (phase pause : Nat)
    (hg : Pause tbl 32 [0, 1] (0, reading u 20000 phase pause + 1)) (items : List (NecItem × (Nat × Nat)))
    (hok : ∀ i ∈ items, i.1.Near u 6 13500 11250 ∧
      16000 * u ≤ 1000000 * (i.2.1 + i.2.2) ∧ (i.2.1 + i.2.2) * 20000 + u < 2 ^ 32 * u)
    (hmin : ∀ e ∈ series NecItem.wire items, u ≤ e.2 * 20000)
    (hmax : ∀ e ∈ series NecItem.wire items, e.2 * 20000 / u + 1 < 2 ^ 32)
    (n : Nat) (hn : reading u 20000 phase (duration ((true, pause) :: series NecItem.wire items)) < n) :
    receiverPolledRun (necDecoder t Mono.u32 tbl appleNec) (PeriodicPoll.new _)
        (polled u 20000 phase ((true, pause) :: series NecItem.wire items) n) =
      some ((necHeard appleNec.unpack 0 (items.map Prod.fst)).filterMap polledLine) := by
  have h := C79_nec_partial t appleNec (.inl rfl) tbl htbl (fun c => c) u hu phase pause hg items hok hmin hmax n hn
  obtain ⟨outs, h1, h2⟩ := Option.map_eq_some_iff.mp h
  rw [C80_polled, h1, Option.map_some, List.map_id'] at *
  generalize necHeard appleNec.unpack 0 (items.map Prod.fst) = cs at h2
  congr 1
  clear h h1
  induction outs generalizing cs with
  | nil =>
    rcases cs with _ | ⟨c, cs⟩
    · rfl
    · cases h2
  | cons o os ih =>
    rcases o with e | _ | c
    · rcases cs with _ | ⟨c, cs⟩ <;> cases h2
    · exact ih cs h2
    · rcases cs with _ | ⟨c', cs⟩
      · cases h2
      · change Except.ok (some c) :: said os = Except.ok (some c') :: oks cs at h2
        injection h2 with h2 h3
        cases h2
        rw [List.filterMap_cons, List.filterMap_cons, ih cs h3]

/-! ## `tutorial1a.rs` -/

/-- **C80**: for every sequence of samples, `tutorial1a.rs` panics only if its receiver does, and logs, in order, the
address and the code of each command and each error. -/
theorem C80_tutorial (D : Decoder Rc6Command) (samples : List Bool) :
    tutorial1aRun D (PeriodicPoll.new D) samples =
      (pollRun D (fun c => c) samples).map fun outs => outs.filterMap fun
        | .ok (some c) => some (.cmd c.addr c.cmd)
        | .ok none => none
        | .error e => some (.err (pinError e)) := by
  have h := poll_log D id tutorial1aLines (tutorial1aRun D) (fun _ => rfl)
    (fun p s _ => by
      rw [tutorial1aRun]
      rcases p.pollPin (PinErr := Empty) D id (.ok s) with _ | ⟨_, _⟩ <;> rfl) samples
    (PeriodicPoll.new D)
  rw [h]
  unfold pollRun
  congr 1
  funext outs
  induction outs with
  | nil => rfl
  | cons o os ih =>
    rw [List.flatMap_cons, ih, List.filterMap_cons]
    rcases o with e | _ | c
    · cases e <;> rfl
    · rfl
    · rfl

/-- **C80**: polled 40 000 times per second, `tutorial1a.rs` logs exactly one line per RC6 transmission, with its
address and code, and no errors. -/
theorem C80_tutorial_heard (t : Target) (hus : 16 ≤ t.usizeBits) (tbl : PulseSpans)
    (htbl : rc6Spans t Mono.u32 40000 = some tbl) (u : Nat) (hu : 0 < u) (phase : Nat)
    (items : List (Rc6Command × List (Bool × Nat) × Option Nat))
    (hok : ∀ i ∈ items, ManchesterFrame (fun x n => Near u 5 (444 * n) x)
      (rc6Edges (i.1.addr ++ i.1.cmd) i.1.toggle) i.2.1)
    (hch : Changes false (items.flatMap fun i => withTail i.2.1 i.2.2))
    (hmin : ∀ e ∈ (items.flatMap fun i => withTail i.2.1 i.2.2).tail, u ≤ e.2 * 40000)
    (hmax : ∀ e ∈ items.flatMap fun i => withTail i.2.1 i.2.2, (e.2 * 40000 + phase) / u + 1 < 2 ^ 32)
    (n : Nat) (hn : reading u 40000 phase (duration (items.flatMap fun i => withTail i.2.1 i.2.2)) < n) :
    tutorial1aRun (rc6Decoder t tbl) (PeriodicPoll.new _)
        (polled u 40000 phase (items.flatMap fun i => withTail i.2.1 i.2.2) n) =
      some (items.map fun i => .cmd i.1.addr i.1.cmd) := by
  have htbl' := htbl
  rw [rc6Spans_eq (.inl rfl) t (by decide), Option.some.injEq] at htbl'
  subst htbl'
  have h := rc6_polled_of t hus 40000 (by decide) (by decide) _ htbl (fun c => c) u hu phase 5
    (rc6Clock_40k hu phase) items hok hch hmin hmax n hn
  obtain ⟨outs, h1, h2⟩ := Option.map_eq_some_iff.mp h
  rw [C80_tutorial, h1, Option.map_some]
  rw [show (items.map fun i => Tutorial1aLine.cmd i.1.addr i.1.cmd) =
    (items.map fun i => i.1).map fun c => Tutorial1aLine.cmd c.addr c.cmd by rw [List.map_map]; rfl]
  generalize (items.map fun i => i.1) = cs at h2
  congr 1
  clear h h1 hn hmax hmin hch hok
  induction outs generalizing cs with
  | nil =>
    rcases cs with _ | ⟨c, cs⟩
    · rfl
    · cases h2
  | cons o os ih =>
    rcases o with e | _ | c
    · rcases cs with _ | ⟨c, cs⟩ <;> cases h2
    · exact ih cs h2
    · rcases cs with _ | ⟨c', cs⟩
      · cases h2
      · change Except.ok (some c) :: said os = Except.ok (some c') :: oks cs at h2
        injection h2 with h2 h3
        cases h2
        rw [List.filterMap_cons, List.map_cons, ih cs h3]

/-! ## `receiver-event-driven-rtic.rs` -/

/-- **C80**: for every sequence of edges and clock readings, the rp-pico program panics only if its receiver does, and
logs exactly the commands the receiver returns, in order. -/
theorem C80_rtic (m : Mono) (D : Decoder AppleNecCommand) (calls : List (Bool × Nat)) :
    rticRun m D (Receiver.new D) calls = (instantRun m D (fun c => c) calls).map commands := by
  unfold instantRun
  rw [Option.map_map]
  generalize Receiver.new D = r
  induction calls generalizing r with
  | nil => rfl
  | cons c cs ih =>
    obtain ⟨low, now⟩ := c
    rw [rticRun, runStep]
    have he : r.eventInstantPin (PinErr := Empty) m D id (.ok low) now =
        (Receiver.eventInstant m D (fun c => c) r now low).map fun p => (p.1, PinRes.ofRes p.2) := by
      unfold Receiver.eventInstantPin Receiver.eventInstant
      dsimp only
      change (Receiver.eventEdge D (fun c => c) _ _ _).bind _ = _
      rcases Receiver.eventEdge D (fun c => c) _ _ _ with _ | ⟨d, e | _ | c⟩ <;> rfl
    rw [he]
    dsimp only
    rcases Receiver.eventInstant m D (fun c => c) r now low with _ | ⟨r', res⟩
    · rfl
    · change (rticRun m D r' cs).map _ = _
      rw [ih r']
      dsimp only
      rcases runStep _ r' cs with _ | ⟨r'', out⟩
      · rcases res with e | _ | c <;> rfl
      · rcases res with e | _ | c <;> rfl

/-- **C80**: with the 64-bit clock of the rp-pico (one tick per microsecond), any series of frames and repeat codes
within 5 % is logged as exactly the Apple commands among them, whatever the reading of the clock at the start. -/
theorem C80_rtic_heard (hc : FugitClock 1000000 64 micros since) (t : Target) (f : Nat) (tbl : PulseSpans)
    (htbl : necSpans t (Mono.fugit 64 micros since) appleNec f = some tbl)
    (u : Nat) (hu : 0 < u) (phase t0 x0 : Nat)
    (hg : Pause tbl 64 [0, 1] (0, firstGap 64 (reading u 1000000 phase (t0 + x0) % 2 ^ 64)))
    (items : List (NecItem × (Nat × Nat)))
    (hok : ∀ i ∈ items, i.1.Near u 5 13500 11250 ∧ 16000 * u ≤ 1000000 * (i.2.1 + i.2.2))
    (hgap : ∀ e ∈ series NecItem.wire items, e.2 * 1000000 + u < 2 ^ 63 * u) :
    rticRun (Mono.fugit 64 micros since) (necDecoder t (Mono.fugit 64 micros since) tbl appleNec)
        (Receiver.new _) (stamps u 1000000 phase 64 t0 ((true, x0) :: series NecItem.wire items)) =
      some (necHeard appleNec.unpack 0 (items.map Prod.fst)) := by
  have h := commands_of_said (C64_nec_real_time hc (by decide) (by decide) (by decide) t f appleNec (.inl rfl) tbl htbl
    (fun c => c) u hu phase t0 x0 hg items hok hgap)
  rw [C80_rtic, h, List.map_id']


/-! ## Non-vacuity -/

/-- Play twice (a frame and a repeat code) from an Apple remote, then a word of another remote, all 4 % slow. -/
example (t : Target) (phase : Nat) (hp : phase < 1000000000) :
    receiverPolledRun (necDecoder t Mono.u32 (necTable 20000) appleNec) (PeriodicPoll.new _)
      (polled 1000000000 20000 phase ((true, 1000000) :: series NecItem.wire (slowNec 0x0C0487EE 0x00FF00FF)) 300000) =
      some [.play, .play] := by
  have hr : reading 1000000000 20000 phase 1000000 = 20 := by unfold reading; omega
  refine (C80_polled_heard t _ (necSpans_standard (.inl rfl) t (by decide) _ rfl) 1000000000
    (by decide) phase 1000000 ?_ _ ?_ (by decide +kernel) (by decide +kernel) 300000 ?_).trans (by decide +kernel)
  · rw [hr]
    refine ⟨by decide, ?_⟩
    intro j hj
    simp only [List.mem_cons, List.not_mem_nil, or_false] at hj
    rcases hj with rfl | rfl <;> rintro ⟨s, hs, ha, hb⟩ <;> cases hs
    · exact absurd ha (by decide +kernel)
    · exact absurd ha (by decide +kernel)
  · intro i hi
    simp only [slowNec, List.mem_cons, List.not_mem_nil, or_false] at hi
    rcases hi with rfl | rfl | rfl
    · exact ⟨nearPeriods_zip (by decide +kernel), by decide, by decide⟩
    · exact ⟨⟨by decide, by decide⟩, by decide, by decide⟩
    · exact ⟨nearPeriods_zip (by decide +kernel), by decide, by decide⟩
  · have hd : duration ((true, 1000000) :: series NecItem.wire (slowNec 0x0C0487EE 0x00FF00FF)) ≤ 11000000000 := by
      decide +kernel
    unfold reading
    omega

/-- Three RC6 transmissions, 4 % slow. -/
example (t : Target) (hus : 16 ≤ t.usizeBits) (phase : Nat) (hp : phase < 1000000000) :
    let items : List (Rc6Command × List (Bool × Nat) × Option Nat) :=
      [⟨0, 60, true⟩, ⟨7, 76, false⟩, ⟨0, 12, true⟩].map fun c => (c, slowRc6 c, some 444000)
    tutorial1aRun (rc6Decoder t (rc6Table 40000)) (PeriodicPoll.new _)
        (polled 1000000000 40000 phase (items.flatMap fun i => withTail i.2.1 i.2.2) 20000) =
      some [.cmd 0 60, .cmd 7 76, .cmd 0 12] := by
  intro items
  refine (C80_tutorial_heard t hus _ (rc6Spans_eq (.inl rfl) t (by decide)) 1000000000 (by decide) phase items ?_
    (by decide +kernel) (by decide +kernel) ?_ _ ?_).trans rfl
  · intro i hi
    obtain ⟨c, -, rfl⟩ := List.mem_map.mp hi
    dsimp only
    rw [slowRc6, rc6Edges, rc6Edges_eq 0 (.inl rfl)]
    exact ⟨_, _, _, _, rfl, rfl, timed_scaled 1040 5 444 (fun n => by unfold Near; omega) _⟩
  · intro e he
    have h : ∀ e ∈ items.flatMap fun i => withTail i.2.1 i.2.2, e.2 ≤ 5000000 := by decide +kernel
    have := h e he
    omega
  · have hd : duration (items.flatMap fun i => withTail i.2.1 i.2.2) ≤ 90000000 := by decide +kernel
    unfold reading
    omega

/-- A frame and a repeat code from an Apple remote and a word of another one, 4 % slow, with the clock of the rp-pico
about to wrap around. -/
example (t : Target) : ∃ tbl, necSpans t (Mono.fugit 64 (fun p => some (p * 1000000 / 1000000))
      (fun a b => if (a + 2 ^ 64 - b) % 2 ^ 64 < 2 ^ 63 then some ((a + 2 ^ 64 - b) % 2 ^ 64) else none))
      appleNec 1000000 = some tbl ∧
    rticRun (Mono.fugit 64 (fun p => some (p * 1000000 / 1000000))
        (fun a b => if (a + 2 ^ 64 - b) % 2 ^ 64 < 2 ^ 63 then some ((a + 2 ^ 64 - b) % 2 ^ 64) else none))
      (necDecoder t (Mono.fugit 64 (fun p => some (p * 1000000 / 1000000))
        (fun a b => if (a + 2 ^ 64 - b) % 2 ^ 64 < 2 ^ 63 then some ((a + 2 ^ 64 - b) % 2 ^ 64) else none))
        tbl appleNec) (Receiver.new _)
      (stamps 1000000000 1000000 ((2 ^ 64 - 1000) * 1000000000) 64 0
        ((true, 5000) :: series NecItem.wire (slowNec 0x0C0B87EE 0x00FF00FF))) =
      some [⟨14, 5, 12, false⟩, ⟨14, 5, 12, true⟩] := by
  have hc := wrapping_fugit 1000000 64 (by decide)
  have hb := fugit_build hc (by decide) (by decide) t 1000000 .nec
  have htbl : necSpans t _ appleNec 1000000 = some _ := hb
  have hg : ∀ i ∈ slowNec 0x0C0B87EE 0x00FF00FF, i.1.Near 1000000000 5 13500 11250 ∧
      16000 * 1000000000 ≤ 1000000 * (i.2.1 + i.2.2) := by
    intro i hi
    simp only [slowNec, List.mem_cons, List.not_mem_nil, or_false] at hi
    rcases hi with rfl | rfl | rfl
    · exact ⟨nearPeriods_zip (by decide +kernel), by decide⟩
    · exact ⟨⟨by decide, by decide⟩, by decide⟩
    · exact ⟨nearPeriods_zip (by decide +kernel), by decide⟩
  refine ⟨_, htbl, (C80_rtic_heard hc t 1000000 _ htbl
    1000000000 (by decide) _ 0 5000 ?_ _ hg (by decide +kernel)).trans (by decide +kernel)⟩
  refine ⟨by decide +kernel, ?_⟩
  intro j hj
  simp only [List.mem_cons, List.not_mem_nil, or_false] at hj
  rcases hj with rfl | rfl <;> rintro ⟨s, hs, ha, hb⟩ <;> cases hs
  · exact absurd ha (by decide +kernel)
  · exact absurd ha (by decide +kernel)

end Infrared
