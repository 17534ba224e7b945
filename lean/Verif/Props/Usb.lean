import Verif.Props.Remotes
import Verif.Props.Drivers
import Verif.Props.Fugit
import Verif.Props.Mailbox
import Verif.Spec.Examples

/-!
# The USB mouse (C70) and the USB media keyboard (C71)
-/

namespace Infrared

open Spec

variable {C K : Type} {hz w : Nat} {micros : Nat → Option Nat} {since : Nat → Nat → Option Nat}

/-! ## From edges to buttons -/

theorem mouse_run (t : Target) (m : Mono) (D : Decoder AppleNecCommand) (calls : List (Bool × Nat)) (r : Receiver D)
    (n : Nat) :
    (∀ outs, runStep (fun r (c : Bool × Nat) => Receiver.eventInstant m D (Button.from apple2009) r c.2 c.1) r calls =
      some outs → mouseRun t m D (r, n) calls = mouseReports t n (commands outs.2)) := by
  induction calls generalizing r n with
  | nil =>
    intro outs h
    rw [runStep, Option.some.injEq] at h
    rw [← h]
    rfl
  | cons c cs ih =>
    obtain ⟨low, now⟩ := c
    intro outs h
    rw [runStep] at h
    rw [mouseRun]
    unfold mouseIrRx Receiver.eventInstantPin
    unfold Receiver.eventInstant at h ih
    dsimp only at h ⊢
    generalize hq : ({ r with prevInstant := now } : Receiver D).eventEdge D (Button.from apple2009) _ low = q at h ⊢
    rcases q with _ | ⟨r1, res⟩
    · cases h
    · dsimp only at h
      generalize hs : runStep _ r1 cs = p at h
      rcases p with _ | ⟨r2, os⟩
      · cases h
      · rw [Option.some.injEq] at h
        rw [← h]
        have hi := fun k => ih r1 k _ hs
        rcases res with e | _ | b
        · change (mouseRun t m D (r1, n) cs).map (fun l => [] ++ l) = _
          rw [hi n]
          change _ = mouseReports t n (commands os)
          cases mouseReports t n (commands os) <;> rfl
        · change (mouseRun t m D (r1, n) cs).map (fun l => [] ++ l) = _
          rw [hi n]
          change _ = mouseReports t n (commands os)
          cases mouseReports t n (commands os) <;> rfl
        · change (match (processIrCmd t n b).map fun p => ((r1, p.1), p.2) with
            | none => none
            | some (s', sent) => (mouseRun t m D s' cs).map fun l => sent.toList ++ l) =
              mouseReports t n (b :: commands os)
          rw [mouseReports]
          rcases processIrCmd t n b with _ | ⟨n', sent⟩
          · rfl
          · change (mouseRun t m D (r1, n') cs).map _ = _
            rw [hi n']

/-- **C70**: what the mouse sends is a function of the buttons its receiver reports. -/
theorem C70_mouse (t : Target) (m : Mono) (D : Decoder AppleNecCommand) (calls : List (Bool × Nat))
    (outs : List (Res (Button AppleNecCommand)))
    (h : instantRun m D (Button.from apple2009) calls = some outs) :
    mouseRun t m D (Receiver.new D, 0) calls = mouseReports t 0 (commands outs) := by
  obtain ⟨p, h1, rfl⟩ := Option.map_eq_some_iff.mp h
  exact mouse_run t m D calls _ 0 p h1

theorem processIrCmd_eq (t : Target) (n : Nat) (b : Button AppleNecCommand) (hn : n + 1 < 2 ^ 32) :
    processIrCmd t n b = some ((if b.isRepeat apple2009 then n else 0) + 1,
      b.action.map fun a => buttonToMousereport a ((if b.isRepeat apple2009 then n else 0) + 1)) := by
  unfold processIrCmd
  dsimp only
  generalize hk : (if b.isRepeat apple2009 then n else 0) = k
  have hk' : k + 1 < 2 ^ 32 := by split at hk <;> omega
  unfold uadd
  rw [if_pos hk']
  rfl

/-- **C70**, a defect: the mouse never clicks.  Whatever fewer than 2^32 - 1 buttons are received, no report has a
mouse button pressed, because the counter is incremented before it is compared with 0. -/
theorem C70_no_click (t : Target) (n : Nat) (bs : List (Button AppleNecCommand)) (h : n + bs.length < 2 ^ 32) :
    ∃ reports, mouseReports t n bs = some reports ∧ ∀ r ∈ reports, r.buttons = 0 := by
  induction bs generalizing n with
  | nil => exact ⟨[], rfl, by simp⟩
  | cons b bs ih =>
    rw [List.length_cons] at h
    obtain ⟨reports, h1, h2⟩ := ih ((if b.isRepeat apple2009 then n else 0) + 1) (by split <;> omega)
    rw [mouseReports, processIrCmd_eq t n b (by omega)]
    dsimp only
    rw [h1]
    refine ⟨_, rfl, ?_⟩
    intro r hr
    rcases List.mem_append.mp hr with hr | hr
    · rcases ha : b.action with _ | a <;> rw [ha] at hr
      · cases hr
      · have : r = buttonToMousereport a ((if b.isRepeat apple2009 then n else 0) + 1) := by simpa using hr
        rw [this]
        unfold buttonToMousereport
        cases a <;> simp
    · exact h2 r hr

/-- The same with the whole program: any edges at any times. -/
theorem C70_mouse_never_clicks (t : Target) (m : Mono) (D : Decoder AppleNecCommand) (calls : List (Bool × Nat))
    (outs : List (Res (Button AppleNecCommand)))
    (h : instantRun m D (Button.from apple2009) calls = some outs) (hlen : (commands outs).length < 2 ^ 32) :
    ∃ reports, mouseRun t m D (Receiver.new D, 0) calls = some reports ∧ ∀ r ∈ reports, r.buttons = 0 := by
  rw [C70_mouse t m D calls outs h]
  exact C70_no_click t 0 _ (by omega)

theorem steps_toInt (n : Nat) (h : 1 ≤ n) :
    (if n ≤ 6 then 1#8 <<< n else 64 : BitVec 8).toInt = ((min (2 ^ n) 64 : Nat) : Int) ∧
    (-(if n ≤ 6 then 1#8 <<< n else 64 : BitVec 8)).toInt = -((min (2 ^ n) 64 : Nat) : Int) := by
  by_cases h6 : n ≤ 6
  · rw [if_pos h6]
    revert h h6
    have : ∀ n < 7, 1 ≤ n → n ≤ 6 → (1#8 <<< n).toInt = ((min (2 ^ n) 64 : Nat) : Int) ∧
        (-(1#8 <<< n)).toInt = -((min (2 ^ n) 64 : Nat) : Int) := by decide
    exact fun h h6 => this n (by omega) h h6
  · rw [if_neg h6]
    have : 2 ^ 6 ≤ 2 ^ n := Nat.pow_le_pow_right (by decide) (by omega)
    rw [Nat.min_eq_right (by omega)]
    decide

theorem report_moves (a : Action) (d : Int × Int) (hd : direction a = some d) (n : Nat) (h : 1 ≤ n) :
    MouseReport.says (buttonToMousereport a n) (d.1 * (min (2 ^ n) 64 : Nat)) (d.2 * (min (2 ^ n) 64 : Nat)) false := by
  obtain ⟨h1, h2⟩ := steps_toInt n h
  unfold buttonToMousereport
  cases a <;> simp only [direction, Option.some.injEq, reduceCtorEq] at hd <;> subst hd
  · exact ⟨by simp, by simpa using h2, by simp, rfl, rfl⟩
  · exact ⟨by simp, by simpa using h1, by simp, rfl, rfl⟩
  · exact ⟨by simpa using h2, by simp, by simp, rfl, rfl⟩
  · exact ⟨by simpa using h1, by simp, by simp, rfl, rfl⟩

/-- The reports for repetitions of an arrow key. -/
theorem held_reports (t : Target) (a : Action) (d : Int × Int) (hd : direction a = some d) (reps : List (Button AppleNecCommand))
    (hreps : ∀ b ∈ reps, b.isRepeat apple2009 = true ∧ b.action = some a) (n : Nat)
    (hlen : n + reps.length < 2 ^ 32) :
    ∃ reports, mouseReports t n reps = some reports ∧ reports.length = reps.length ∧
      ∀ i r, reports[i]? = some r →
        MouseReport.says r (d.1 * (min (2 ^ (n + 1 + i)) 64 : Nat)) (d.2 * (min (2 ^ (n + 1 + i)) 64 : Nat)) false := by
  induction reps generalizing n with
  | nil => exact ⟨[], rfl, rfl, by simp⟩
  | cons b bs ih =>
    rw [List.length_cons] at hlen
    obtain ⟨h1, h2⟩ := hreps b (by simp)
    obtain ⟨reports, h3, h4, h5⟩ := ih (fun x hx => hreps x (List.mem_cons_of_mem _ hx)) (n + 1) (by omega)
    rw [mouseReports, processIrCmd_eq t n b (by omega)]
    dsimp only
    rw [h1, if_pos rfl, h3, h2]
    refine ⟨_, rfl, by simp [h4], ?_⟩
    intro i r hi
    cases i with
    | zero =>
      have : r = buttonToMousereport a (n + 1) := by simpa using hi.symm
      rw [this]
      exact report_moves a d hd (n + 1) (by omega)
    | succ i =>
      have := h5 i r (by simpa using hi)
      rwa [show n + 1 + 1 + i = n + 1 + (i + 1) by omega] at this

/-- **C70**: pressing an arrow key and holding it for `k` repetitions moves the pointer `k + 1` times in the direction
of the key and not sideways, by 2, 4, 8, 16, 32, 64, 64, … steps, whatever was pressed before, and never presses a
button. -/
theorem C70_held_partial (t : Target) (a : Action) (d : Int × Int) (hd : direction a = some d) (press : Button AppleNecCommand)
    (hpress : press.isRepeat apple2009 = false ∧ press.action = some a) (reps : List (Button AppleNecCommand))
    (hreps : ∀ b ∈ reps, b.isRepeat apple2009 = true ∧ b.action = some a) (n : Nat) (hn : n + 1 < 2 ^ 32)
    (hlen : 1 + reps.length < 2 ^ 32) :
    ∃ reports, mouseReports t n (press :: reps) = some reports ∧ reports.length = reps.length + 1 ∧
      ∀ i r, reports[i]? = some r →
        MouseReport.says r (d.1 * (min (2 ^ (i + 1)) 64 : Nat)) (d.2 * (min (2 ^ (i + 1)) 64 : Nat)) false := by
  obtain ⟨reports, h3, h4, h5⟩ := held_reports t a d hd reps hreps 1 hlen
  rw [mouseReports, processIrCmd_eq t n press (by omega)]
  dsimp only
  rw [hpress.1, if_neg (by simp), h3, hpress.2]
  refine ⟨_, rfl, by simp [h4], ?_⟩
  intro i r hi
  cases i with
  | zero =>
    have : r = buttonToMousereport a (0 + 1) := by simpa using hi.symm
    rw [this]
    exact report_moves a d hd (0 + 1) (by omega)
  | succ i =>
    have := h5 i r (by simpa using hi)
    rwa [show 1 + 1 + i = i + 1 + 1 by omega] at this

/-- **C70**: a debug build panics when the same key repeats for the 2^32-th time. -/
theorem C70_overflow (t : Target) (ht : t.overflowChecks = true) (b : Button AppleNecCommand)
    (hb : b.isRepeat apple2009 = true) : processIrCmd t (2 ^ 32 - 1) b = none := by
  unfold processIrCmd
  rw [if_pos hb]
  simp [uadd, ht]

/-- Non-vacuity: the "up" key of the Apple remote held for two repetitions. -/
example : mouseReports ⟨true, 32⟩ 17 ([false, true, true].map fun rep =>
      Button.from apple2009 { commandPage := 14, deviceId := 12, command := 5, rep }) =
    some [⟨0, 0, 0xFE, 0, 0⟩, ⟨0, 0, 0xFC, 0, 0⟩, ⟨0, 0, 0xF8, 0, 0⟩] := by
  decide

example : direction .up = some (0, -1) ∧
    (Button.from apple2009 { commandPage := 14, deviceId := 12, command := 5, rep := true }).action = some .up ∧
    (Button.from apple2009 { commandPage := 14, deviceId := 12, command := 5, rep := true }).isRepeat apple2009 =
      true := by
  decide

/-! ## C71 -/

theorem media_run (m : Mono) (D : Decoder AppleNecCommand) (calls : List (Bool × Nat)) (r : Receiver D) :
    mediaRun m D r calls =
      (runStep (fun r (c : Bool × Nat) => Receiver.eventInstant m D (Button.from apple2009) r c.2 c.1) r calls).map
        fun p => (commands p.2).filterMap fun b => b.action.map actionToMediakey := by
  induction calls generalizing r with
  | nil => rfl
  | cons c cs ih =>
    obtain ⟨low, now⟩ := c
    rw [runStep, mediaRun]
    unfold mediaIrRx Receiver.eventInstantPin
    unfold Receiver.eventInstant at ih ⊢
    dsimp only
    rcases hq : ({ r with prevInstant := now } : Receiver D).eventEdge D (Button.from apple2009) _ low with _ | ⟨r1, res⟩
    · rfl
    · have hi := ih r1
      dsimp only
      generalize hs : runStep _ r1 cs = p at hi ⊢
      rcases p with _ | ⟨r2, os⟩ <;> rcases res with e | _ | b
      · change (mediaRun m D r1 cs).map (fun l => [] ++ l) = none
        rw [hi]; rfl
      · change (mediaRun m D r1 cs).map (fun l => [] ++ l) = none
        rw [hi]; rfl
      · change (mediaRun m D r1 cs).map (fun l => _ ++ l) = none
        rw [hi]; rfl
      · change (mediaRun m D r1 cs).map (fun l => [] ++ l) = _
        rw [hi]; rfl
      · change (mediaRun m D r1 cs).map (fun l => [] ++ l) = _
        rw [hi]; rfl
      · change (mediaRun m D r1 cs).map (fun l => (b.action.map actionToMediakey).toList ++ l) =
          some ((b :: commands os).filterMap fun b => b.action.map actionToMediakey)
        rw [hi, List.filterMap_cons, Option.map_some]
        cases b.action <;> rfl

theorem apple_key (c : AppleNecCommand) (k : MediaKey) :
    (apple2009.decode c).map actionToMediakey = some k ↔
      ((c.commandPage.toNat, c.command.toNat), k) ∈ appleKeys := by
  rw [Option.map_eq_some_iff]
  constructor
  · rintro ⟨a, h1, rfl⟩
    have h2 := (C46_apple c a).1.mp h1
    unfold Spec.AppleButton at h2
    rcases h2 with ⟨e1, e2, rfl⟩ | ⟨e1, e2, rfl⟩ | ⟨e1, e2, rfl⟩ | ⟨e1, e2, rfl⟩ | ⟨e1, e2, rfl⟩ | ⟨e1, e2, rfl⟩ |
      ⟨e1, e2, rfl⟩ | ⟨e1, e2, rfl⟩ | ⟨e1, e2, rfl⟩ | ⟨e1, e2, rfl⟩ <;> rw [e1, e2] <;> decide
  · intro h
    simp only [appleKeys, List.mem_cons, Prod.mk.injEq, List.not_mem_nil, or_false] at h
    rcases h with ⟨⟨e1, e2⟩, rfl⟩ | ⟨⟨e1, e2⟩, rfl⟩ | ⟨⟨e1, e2⟩, rfl⟩ | ⟨⟨e1, e2⟩, rfl⟩ | ⟨⟨e1, e2⟩, rfl⟩ |
      ⟨⟨e1, e2⟩, rfl⟩ | ⟨⟨e1, e2⟩, rfl⟩ | ⟨⟨e1, e2⟩, rfl⟩ | ⟨⟨e1, e2⟩, rfl⟩ | ⟨⟨e1, e2⟩, rfl⟩
    · exact ⟨.menu, (C46_apple c _).1.mpr (by unfold Spec.AppleButton; rw [e1, e2]; decide), rfl⟩
    · exact ⟨.playPause, (C46_apple c _).1.mpr (by unfold Spec.AppleButton; rw [e1, e2]; decide), rfl⟩
    · exact ⟨.right, (C46_apple c _).1.mpr (by unfold Spec.AppleButton; rw [e1, e2]; decide), rfl⟩
    · exact ⟨.left, (C46_apple c _).1.mpr (by unfold Spec.AppleButton; rw [e1, e2]; decide), rfl⟩
    · exact ⟨.up, (C46_apple c _).1.mpr (by unfold Spec.AppleButton; rw [e1, e2]; decide), rfl⟩
    · exact ⟨.down, (C46_apple c _).1.mpr (by unfold Spec.AppleButton; rw [e1, e2]; decide), rfl⟩
    · exact ⟨.enter, (C46_apple c _).1.mpr (by unfold Spec.AppleButton; rw [e1, e2]; decide), rfl⟩
    · exact ⟨.playPause2, (C46_apple c _).1.mpr (by unfold Spec.AppleButton; rw [e1, e2]; decide), rfl⟩
    · exact ⟨.batteryLow, (C46_apple c _).1.mpr (by unfold Spec.AppleButton; rw [e1, e2]; decide), rfl⟩
    · exact ⟨.batteryLow, (C46_apple c _).1.mpr (by unfold Spec.AppleButton; rw [e1, e2]; decide), rfl⟩

/-- The key for a command, read off the table. -/
def Spec.keyFor (c : AppleNecCommand) : Option MediaKey :=
  (appleKeys.find? fun e => e.1 = (c.commandPage.toNat, c.command.toNat)).map Prod.snd

theorem appleKeys_find (pc : Nat × Nat) (k : MediaKey) :
    (appleKeys.find? fun e => e.1 = pc).map Prod.snd = some k ↔ (pc, k) ∈ appleKeys := by
  have hnd : ∀ p ∈ appleKeys, ∀ q ∈ appleKeys, p.1 = q.1 → p.2 = q.2 := by decide
  rw [Option.map_eq_some_iff]
  constructor
  · rintro ⟨e, h1, rfl⟩
    have h2 := List.find?_some h1
    have h3 := List.mem_of_find?_eq_some h1
    rw [← of_decide_eq_true h2]
    exact h3
  · intro h
    rcases hf : appleKeys.find? (fun e => e.1 = pc) with _ | e
    · have := List.find?_eq_none.mp hf _ h
      simp at this
    · refine ⟨e, hf, ?_⟩
      have h2 := List.find?_some hf
      exact hnd _ (List.mem_of_find?_eq_some hf) _ h (of_decide_eq_true h2)

theorem eventInstant_conv (m : Mono) (D : Decoder C) (conv : C → K) (r : Receiver D) (now : Nat) (e : Bool) :
    Receiver.eventInstant m D conv r now e =
      (Receiver.eventInstant m D (fun c => c) r now e).map fun p => (p.1, Res.map conv p.2) := by
  unfold Receiver.eventInstant Receiver.eventEdge
  dsimp only
  rcases D.event r.decoder e _ with _ | ⟨d, st⟩
  · rfl
  · cases st
    · rfl
    · rfl
    · change some (_, Except.ok ((D.command d).map conv)) = some (_, Except.ok (((D.command d).map fun c => c).map conv))
      rw [Option.map_map]
      rfl
    · rfl

theorem commands_map_conv (conv : C → K) (outs : List (Res C)) :
    commands (outs.map (Res.map conv)) = (commands outs).map conv := by
  induction outs with
  | nil => rfl
  | cons o os ih =>
    rcases o with e | _ | c
    · exact ih
    · exact ih
    · change conv c :: commands _ = conv c :: _
      rw [ih]
      rfl

theorem instantRun_conv (m : Mono) (D : Decoder C) (conv : C → K) (calls : List (Bool × Nat)) :
    instantRun m D conv calls =
      (instantRun m D (fun c => c) calls).map fun outs => outs.map (Res.map conv) := by
  unfold instantRun
  generalize Receiver.new D = r
  rw [Option.map_map]
  suffices h : ∀ r : Receiver D,
      runStep (fun r (c : Bool × Nat) => Receiver.eventInstant m D conv r c.2 c.1) r calls =
        (runStep (fun r (c : Bool × Nat) => Receiver.eventInstant m D (fun c => c) r c.2 c.1) r calls).map
          fun p => (p.1, p.2.map (Res.map conv)) by
    rw [h r, Option.map_map]
    rfl
  induction calls with
  | nil => intro r; rfl
  | cons c cs ih =>
    intro r
    rw [runStep, runStep, eventInstant_conv]
    rcases Receiver.eventInstant m D (fun c => c) r c.2 c.1 with _ | ⟨r1, res⟩
    · rfl
    · rw [Option.map_some]
      dsimp only
      rw [ih r1]
      rcases runStep _ r1 cs with _ | ⟨r2, os⟩ <;> rfl

theorem keyFor_eq (c : AppleNecCommand) : (Button.from apple2009 c).action.map actionToMediakey = keyFor c := by
  have h : ∀ k, (Button.from apple2009 c).action.map actionToMediakey = some k ↔ keyFor c = some k := fun k =>
    (apple_key c k).trans (appleKeys_find _ k).symm
  rcases h1 : (Button.from apple2009 c).action.map actionToMediakey with _ | k
  · rcases h2 : keyFor c with _ | k
    · rfl
    · have := (h k).mpr h2
      rw [h1] at this
      cases this
  · exact ((h k).mp h1).symm

/-- **C71**: for every history of edges, the keyboard panics only if the receiver does, and sends exactly the keys the
table assigns to the received commands, in order (repetitions included, from any Apple remote); other commands send
nothing. -/
theorem C71_media (m : Mono) (D : Decoder AppleNecCommand) (calls : List (Bool × Nat)) :
    mediaRun m D (Receiver.new D) calls =
      (instantRun m D (fun c => c) calls).map fun outs => (commands outs).filterMap keyFor := by
  have h := media_run m D calls (Receiver.new D)
  have h' : mediaRun m D (Receiver.new D) calls = (instantRun m D (Button.from apple2009) calls).map
      fun outs => (commands outs).filterMap fun b => b.action.map actionToMediakey := by
    rw [h]
    unfold instantRun
    rw [Option.map_map]
    rfl
  rw [h', instantRun_conv, Option.map_map]
  congr 1
  funext outs
  change (commands (outs.map _)).filterMap _ = _
  rw [commands_map_conv, List.filterMap_map]
  congr 1
  funext c
  exact keyFor_eq c

/-- **C71**: the "stop" key the program knows about is never sent. -/
theorem C71_never_stop (m : Mono) (D : Decoder AppleNecCommand) (calls : List (Bool × Nat)) (keys : List MediaKey)
    (h : mediaRun m D (Receiver.new D) calls = some keys) : MediaKey.stop ∉ keys := by
  rw [C71_media] at h
  obtain ⟨outs, -, rfl⟩ := Option.map_eq_some_iff.mp h
  intro hk
  obtain ⟨c, -, hc⟩ := List.mem_filterMap.mp hk
  have := (appleKeys_find _ _).mp hc
  revert this
  have hn : ∀ p ∈ appleKeys, p.2 ≠ MediaKey.stop := by decide
  exact fun h => hn _ h rfl

theorem commands_of_said {R : Option (List (Res K))} {l : List K} (h : R.map said = some (oks l)) :
    R.map commands = some l := by
  obtain ⟨outs, rfl, h2⟩ := Option.map_eq_some_iff.mp h
  rw [Option.map_some, commands_said', h2, commands_oks']

/-- **C71**, in the room of C64: the keyboard (its clock is a wrapping fugit clock of 100 kHz, `mediakeyboard.rs:31`)
receives any series of frames and repeat codes and types exactly the keys of the Apple commands among them. -/
theorem C71_typed (hc : FugitClock hz w micros since) (hw : 32 ≤ w) (hz' : hz < 2 ^ 32)
    (hlo : 20000 ≤ hz) (t : Target) (f : Nat) (tbl : PulseSpans)
    (htbl : necSpans t (Mono.fugit w micros since) appleNec f = some tbl)
    (u : Nat) (hu : 0 < u) (phase t0 x0 : Nat)
    (hg : Pause tbl w [0, 1] (0, firstGap w (reading u hz phase (t0 + x0) % 2 ^ w)))
    (items : List (NecItem × (Nat × Nat)))
    (hok : ∀ i ∈ items, i.1.Near u 5 13500 11250 ∧ 16000 * u ≤ 1000000 * (i.2.1 + i.2.2))
    (hgap : ∀ e ∈ series NecItem.wire items, e.2 * hz + u < 2 ^ (w - 1) * u) :
    mediaRun (Mono.fugit w micros since) (necDecoder t (Mono.fugit w micros since) tbl appleNec)
        (Receiver.new _) (stamps u hz phase w t0 ((true, x0) :: series NecItem.wire items)) =
      some ((necHeard appleNec.unpack 0 (items.map Prod.fst)).filterMap keyFor) := by
  have h := commands_of_said (C64_nec_real_time hc hw hz' hlo t f appleNec (.inl rfl) tbl htbl
    (fun c => c) u hu phase t0 x0 hg items hok hgap)
  rw [C71_media]
  obtain ⟨outs, h1, h2⟩ := Option.map_eq_some_iff.mp h
  rw [h1, Option.map_some, h2, List.map_id']

/-- **C70**, in the room of C64: what the mouse sends for any series of transmissions. -/
theorem C70_moved (hc : FugitClock hz w micros since) (hw : 32 ≤ w) (hz' : hz < 2 ^ 32)
    (hlo : 20000 ≤ hz) (t : Target) (f : Nat) (tbl : PulseSpans)
    (htbl : necSpans t (Mono.fugit w micros since) appleNec f = some tbl)
    (u : Nat) (hu : 0 < u) (phase t0 x0 : Nat)
    (hg : Pause tbl w [0, 1] (0, firstGap w (reading u hz phase (t0 + x0) % 2 ^ w)))
    (items : List (NecItem × (Nat × Nat)))
    (hok : ∀ i ∈ items, i.1.Near u 5 13500 11250 ∧ 16000 * u ≤ 1000000 * (i.2.1 + i.2.2))
    (hgap : ∀ e ∈ series NecItem.wire items, e.2 * hz + u < 2 ^ (w - 1) * u) :
    mouseRun t (Mono.fugit w micros since) (necDecoder t (Mono.fugit w micros since) tbl appleNec)
        (Receiver.new _, 0) (stamps u hz phase w t0 ((true, x0) :: series NecItem.wire items)) =
      mouseReports t 0 ((necHeard appleNec.unpack 0 (items.map Prod.fst)).map (Button.from apple2009)) := by
  have h := commands_of_said (C64_nec_real_time hc hw hz' hlo t f appleNec (.inl rfl) tbl htbl
    (Button.from apple2009) u hu phase t0 x0 hg items hok hgap)
  obtain ⟨outs, h1, h2⟩ := Option.map_eq_some_iff.mp h
  rw [C70_mouse t _ _ _ outs h1, h2]

/-- Non-vacuity: the "up" key and a repeat, 4 % slow, at 100 kHz with a counter that wraps between them, turn the
volume up twice and move the pointer up by 2 and 4. -/
example (t : Target) : ∃ tbl, necSpans t (Mono.fugit 32 (fun p => some (p * 100000 / 1000000))
      (fun a b => if (a + 2 ^ 32 - b) % 2 ^ 32 < 2 ^ 31 then some ((a + 2 ^ 32 - b) % 2 ^ 32) else none))
      appleNec 1000000 = some tbl ∧
    mediaRun (Mono.fugit 32 (fun p => some (p * 100000 / 1000000))
        (fun a b => if (a + 2 ^ 32 - b) % 2 ^ 32 < 2 ^ 31 then some ((a + 2 ^ 32 - b) % 2 ^ 32) else none))
      (necDecoder t (Mono.fugit 32 (fun p => some (p * 100000 / 1000000))
        (fun a b => if (a + 2 ^ 32 - b) % 2 ^ 32 < 2 ^ 31 then some ((a + 2 ^ 32 - b) % 2 ^ 32) else none))
        tbl appleNec) (Receiver.new _)
      (stamps 1000000000 100000 ((2 ^ 32 - 1000) * 1000000000) 32 0
        ((true, 5000) :: series NecItem.wire (slowNec 0x0C0B87EE 0x00FF00FF))) =
      some [.volumeIncrement, .volumeIncrement] ∧
    mouseRun t (Mono.fugit 32 (fun p => some (p * 100000 / 1000000))
        (fun a b => if (a + 2 ^ 32 - b) % 2 ^ 32 < 2 ^ 31 then some ((a + 2 ^ 32 - b) % 2 ^ 32) else none))
      (necDecoder t (Mono.fugit 32 (fun p => some (p * 100000 / 1000000))
        (fun a b => if (a + 2 ^ 32 - b) % 2 ^ 32 < 2 ^ 31 then some ((a + 2 ^ 32 - b) % 2 ^ 32) else none))
        tbl appleNec) (Receiver.new _, 0)
      (stamps 1000000000 100000 ((2 ^ 32 - 1000) * 1000000000) 32 0
        ((true, 5000) :: series NecItem.wire (slowNec 0x0C0B87EE 0x00FF00FF))) =
      some [⟨0, 0, 0xFE, 0, 0⟩, ⟨0, 0, 0xFC, 0, 0⟩] := by
  have hc := wrapping_fugit 100000 32 (by decide)
  have hb := fugit_build hc (by decide) (by decide) t 1000000 .nec
  have htbl : necSpans t _ appleNec 1000000 = some _ := hb
  have hg : ∀ i ∈ slowNec 0x0C0B87EE 0x00FF00FF, i.1.Near 1000000000 5 13500 11250 ∧
      16000 * 1000000000 ≤ 1000000 * (i.2.1 + i.2.2) := by
    intro i hi
    simp only [slowNec, List.mem_cons, List.not_mem_nil, or_false] at hi
    rcases hi with rfl | rfl | rfl
    · exact ⟨nearPeriods_zip (by decide +kernel), by decide⟩
    · exact ⟨⟨by decide, by decide⟩, by decide⟩
    · exact ⟨nearPeriods_zip (by decide +kernel), by decide⟩
  refine ⟨_, htbl, (C71_typed hc (by decide) (by decide) (by decide) t 1000000 _ htbl
    1000000000 (by decide) _ 0 5000 ?_ _ hg (by decide +kernel)).trans (by decide +kernel),
    (C70_moved hc (by decide) (by decide) (by decide) t 1000000 _ htbl
    1000000000 (by decide) _ 0 5000 ?_ _ hg (by decide +kernel)).trans ?_⟩
  · refine ⟨by decide +kernel, ?_⟩
    intro j hj
    simp only [List.mem_cons, List.not_mem_nil, or_false] at hj
    rcases hj with rfl | rfl <;> rintro ⟨s, hs, ha, hb⟩ <;> cases hs
    · exact absurd ha (by decide +kernel)
    · exact absurd ha (by decide +kernel)
  · refine ⟨by decide +kernel, ?_⟩
    intro j hj
    simp only [List.mem_cons, List.not_mem_nil, or_false] at hj
    rcases hj with rfl | rfl <;> rintro ⟨s, hs, ha, hb⟩ <;> cases hs
    · exact absurd ha (by decide +kernel)
    · exact absurd ha (by decide +kernel)
  · have hh : necHeard appleNec.unpack 0 ((slowNec 0x0C0B87EE 0x00FF00FF).map Prod.fst) =
        [false, true].map fun rep => { commandPage := 14, deviceId := 12, command := 5, rep } := by decide +kernel
    rw [hh]
    obtain ⟨b, c⟩ := t
    cases b <;> rfl

end Infrared
