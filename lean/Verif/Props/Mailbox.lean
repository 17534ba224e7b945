import Verif.Props.Reception
import Verif.Spec.Examples

/-!
# The programs for the Arduino: an interrupt handler and a main loop sharing one mailbox (C69)
-/

namespace Infrared

open Spec

variable {C : Type}

theorem commands_snoc (l : List (Res C)) (r : Res C) : commands (l ++ [r]) = commands l ++ commands [r] := by
  simp [commands, List.filterMap_append]

theorem getLast_commands_none (l : List (Res C)) (r : Res C) (h : commands [r] = []) :
    (commands (l ++ [r])).getLast? = (commands l).getLast? := by
  rw [commands_snoc, h, List.append_nil]

theorem getLast_commands_some (l : List (Res C)) (c : C) :
    (commands (l ++ [.ok (some c)])).getLast? = some c := by
  rw [commands_snoc]
  change (commands l ++ [c]).getLast? = some c
  simp

theorem latest_cons (g : List (Res C)) (gs : List (List (Res C))) :
    latest (g :: gs) = (commands g).getLast?.toList ++ latest gs := by
  unfold latest
  rw [List.filterMap_cons]
  cases (commands g).getLast? <;> rfl

theorem polled_step (D : Decoder C) (a : PolledApp D) (low : Bool) :
    a.timer0Compa D low = (a.recv.pollBase D id low).map fun p =>
      { recv := p.1, cell := match p.2 with | .ok (some c) => some c | _ => a.cell } := by
  unfold PolledApp.timer0Compa PeriodicPoll.pollPin
  dsimp only
  rcases h : a.recv.pollBase D id low with _ | ⟨r, res⟩
  · rfl
  · rcases res with e | _ | c <;> rfl

theorem polled_run (D : Decoder C) (acts : List PolledAct) (a : PolledApp D) (cur : List (Res C))
    (hcell : a.cell = (commands cur).getLast?) :
    (PolledApp.run D a acts).map Prod.snd =
      (runStep (fun p s => PeriodicPoll.pollBase D id p s) a.recv (samplesOf acts)).map
        fun p => latest (grouped cur (acts.map PolledAct.kind) p.2) := by
  induction acts generalizing a cur with
  | nil => rfl
  | cons x xs ih =>
    rcases x with low | _
    · rw [PolledApp.run, polled_step, samplesOf, runStep]
      rcases h : a.recv.pollBase D id low with _ | ⟨r, res⟩
      · rfl
      · rw [Option.map_some, Option.bind_some]
        dsimp only
        rw [ih _ (cur ++ [res])]
        · dsimp only
          rcases runStep (fun p s => PeriodicPoll.pollBase D id p s) r (samplesOf xs) with _ | p <;> rfl
        · rcases res with e | _ | c
          · rw [getLast_commands_none _ _ rfl]; exact hcell
          · rw [getLast_commands_none _ _ rfl]; exact hcell
          · rw [getLast_commands_some]
    · rw [PolledApp.run, samplesOf, Option.map_map]
      have h := ih a.mainRound.1 [] rfl
      have e : a.mainRound.1.recv = a.recv := rfl
      rw [e] at h
      rcases h1 : PolledApp.run D a.mainRound.1 xs with _ | p <;>
        rcases h2 : runStep (fun p s => PeriodicPoll.pollBase D id p s) a.recv (samplesOf xs) with _ | q <;>
        rw [h1, h2] at h
      · rfl
      · cases h
      · cases h
      · rw [Option.map_some, Option.map_some, Option.some.injEq] at h
        rw [Option.map_some, Option.map_some, Function.comp, h, List.map_cons,
          show PolledAct.kind .main = none from rfl, grouped, latest_cons, ← hcell]
        rfl

/-- **C69**, `polled.rs`: however the timer interrupts and the rounds of the main loop interleave, the program panics
only if the receiver does, and prints for each round exactly the last command the receiver reported since the round
before. -/
theorem C69_polled (D : Decoder C) (acts : List PolledAct) :
    (PolledApp.run D (PolledApp.init D) acts).map Prod.snd =
      (pollRun D id (samplesOf acts)).map fun outs => latest (grouped [] (acts.map PolledAct.kind) outs) := by
  rw [polled_run D acts (PolledApp.init D) [] rfl, pollRun, Option.map_map]
  rfl

theorem external_step (D : Decoder C) (a : ExternalApp D) (low : Bool) :
    a.pcint2 D low = (a.recv.eventInstant Mono.u32 D id a.clock low).map fun p =>
      { clock := a.clock
        recv := p.1
        led := !a.led
        errorLed := match p.2 with | .ok (some _) => false | .ok none => a.errorLed | .error _ => true
        cell := match p.2 with | .ok (some c) => some c | _ => a.cell } := by
  unfold ExternalApp.pcint2 Receiver.eventInstantPin Receiver.eventInstant
  dsimp only
  rcases h : Receiver.eventEdge D id _ _ low with _ | ⟨r, res⟩
  · rfl
  · rcases res with e | _ | c <;> rfl

/-- The error LED: on exactly if the last thing the receiver said is an error (`before` if it said nothing). -/
def Spec.alarm (before : Bool) (outs : List (Res C)) : Bool :=
  ((reports outs).getLast?.map Option.isNone).getD before

theorem alarm_cons (b : Bool) (r : Res C) (outs : List (Res C)) :
    alarm b (r :: outs) = alarm (match r with | .ok (some _) => false | .ok none => b | .error _ => true) outs := by
  unfold alarm
  have h : reports (r :: outs) = reports [r] ++ reports outs := by
    unfold reports; rw [← List.filterMap_append]; rfl
  rw [h, List.getLast?_append]
  generalize (reports outs).getLast? = g
  rcases r with e | _ | c <;> cases g <;> rfl

theorem external_run (D : Decoder C) (acts : List ExternalAct) (a : ExternalApp D) (cur : List (Res C)) (n : Nat)
    (hclock : a.clock = n % 2 ^ 32) (hcell : a.cell = (commands cur).getLast?) :
    (ExternalApp.run D a acts).map (fun p => (p.2, p.1.led, p.1.errorLed)) =
      (runStep (fun r (c : Bool × Nat) => Receiver.eventInstant Mono.u32 D id r c.2 c.1) a.recv
        (stampsOf n acts)).map fun p =>
          (latest (grouped cur (acts.map ExternalAct.kind) p.2), xor a.led (decide (p.2.length % 2 = 1)),
            alarm a.errorLed p.2) := by
  induction acts generalizing a cur n with
  | nil =>
    simp only [ExternalApp.run, stampsOf, runStep, Option.map_some, List.map_nil, grouped]
    simp [latest, alarm, reports]
  | cons x xs ih =>
    rcases x with low | _ | _
    · rw [ExternalApp.run, external_step, stampsOf, runStep, hclock]
      rcases h : a.recv.eventInstant Mono.u32 D id (n % 2 ^ 32) low with _ | ⟨r, res⟩
      · rfl
      · rw [Option.map_some, Option.bind_some]
        dsimp only
        rw [ih _ (cur ++ [res]) n rfl]
        · dsimp only
          rcases h2 : runStep (fun r (c : Bool × Nat) => Receiver.eventInstant Mono.u32 D id r c.2 c.1) r
            (stampsOf n xs) with _ | p
          · rfl
          · simp only [Option.map_some, Option.some.injEq, Prod.mk.injEq]
            refine ⟨rfl, ?_, ?_⟩
            · rw [List.length_cons]
              rcases Nat.mod_two_eq_zero_or_one p.2.length with hp | hp <;> cases a.led <;>
                simp [hp, Nat.add_mod]
            · rw [alarm_cons]
        · rcases res with e | _ | c
          · rw [getLast_commands_none _ _ rfl]; exact hcell
          · rw [getLast_commands_none _ _ rfl]; exact hcell
          · rw [getLast_commands_some]
    · rw [ExternalApp.run, stampsOf, ih a.timer0Compa cur (n + 1)]
      · rfl
      · change (a.clock + 1) % 2 ^ 32 = _
        rw [hclock]; omega
      · exact hcell
    · rw [ExternalApp.run, stampsOf, Option.map_map]
      have h := ih a.mainRound.1 [] n hclock rfl
      have e : a.mainRound.1.recv = a.recv := rfl
      rw [e] at h
      rcases h1 : ExternalApp.run D a.mainRound.1 xs with _ | p <;>
        rcases h2 : runStep (fun r (c : Bool × Nat) => Receiver.eventInstant Mono.u32 D id r c.2 c.1) a.recv
          (stampsOf n xs) with _ | q <;>
        rw [h1, h2] at h
      · rfl
      · cases h
      · cases h
      · rw [Option.map_some, Option.map_some, Option.some.injEq, Prod.mk.injEq] at h
        rw [Option.map_some, Option.map_some, Function.comp, Option.some.injEq, Prod.mk.injEq]
        refine ⟨?_, h.2⟩
        rw [List.map_cons, show ExternalAct.kind .main = none from rfl, grouped, latest_cons, ← hcell, h.1]
        rfl

/-- **C69**, `external-interrupt.rs`: however pin changes, ticks of the clock and rounds of the main loop interleave,
the program panics only if the receiver does; each edge is stamped with the number of ticks so far (32 bits), each
round prints the last command reported since the round before, the yellow LED tells whether the number of edges is odd
and the blue one whether the last report was an error. -/
theorem C69_external (D : Decoder C) (acts : List ExternalAct) :
    (ExternalApp.run D (ExternalApp.init D) acts).map (fun p => (p.2, p.1.led, p.1.errorLed)) =
      (instantRun Mono.u32 D id (stampsOf 0 acts)).map fun outs =>
        (latest (grouped [] (acts.map ExternalAct.kind) outs), decide (outs.length % 2 = 1),
          alarm false outs) := by
  rw [external_run D acts (ExternalApp.init D) [] 0 rfl rfl, instantRun, Option.map_map]
  refine congrArg (fun f => Option.map f _) (funext fun p => ?_)
  simp [ExternalApp.init]

/-! ## What this means -/

theorem grouped_sublist {R : Type} (kinds : List (Option Bool)) (cur outs : List R) :
    (grouped cur kinds outs).flatten.Sublist (cur ++ outs) := by
  induction kinds generalizing cur outs with
  | nil => simp [grouped]
  | cons k ks ih =>
    rcases k with _ | _ | _
    · rw [grouped, List.flatten_cons]
      exact (List.Sublist.refl cur).append (by simpa using ih [] outs)
    · rw [grouped]; exact ih cur outs
    · cases outs with
      | nil => simp [grouped]
      | cons o os =>
        rw [grouped]
        have := ih (cur ++ [o]) os
        rwa [List.append_assoc] at this

theorem commands_flatten (gs : List (List (Res C))) :
    commands gs.flatten = gs.flatMap commands := by
  induction gs with
  | nil => rfl
  | cons g gs ih =>
    rw [List.flatten_cons, List.flatMap_cons, ← ih]
    exact List.filterMap_append

theorem latest_sublist (gs : List (List (Res C))) : (latest gs).Sublist (commands gs.flatten) := by
  rw [commands_flatten]
  induction gs with
  | nil => exact List.Sublist.refl _
  | cons g gs ih =>
    rw [latest_cons, List.flatMap_cons]
    refine List.Sublist.append ?_ ih
    rcases h : (commands g).getLast? with _ | c
    · exact List.nil_sublist _
    · exact List.singleton_sublist.mpr (List.mem_of_getLast? h)

/-- **C69**: nothing is printed that the receiver did not report, nothing twice, and the order is kept. -/
theorem C69_sublist (kinds : List (Option Bool)) (outs : List (Res C)) :
    (latest (grouped [] kinds outs)).Sublist (commands outs) := by
  have h := grouped_sublist kinds [] outs
  rw [List.nil_append] at h
  exact (latest_sublist _).trans (h.filterMap _)

/-- **C69**: if the rounds are frequent enough, at most one command between two of them, and the last round comes
after the last command, then every command is printed. -/
theorem C69_nothing_lost (kinds : List (Option Bool)) (outs : List (Res C))
    (hone : ∀ g ∈ grouped [] kinds outs, (commands g).length ≤ 1)
    (hall : commands (grouped [] kinds outs).flatten = commands outs) :
    latest (grouped [] kinds outs) = commands outs := by
  rw [← hall, commands_flatten]
  generalize grouped [] kinds outs = gs at hone
  clear hall
  induction gs with
  | nil => rfl
  | cons g gs ih =>
    rw [latest_cons, List.flatMap_cons, ih fun x hx => hone x (List.mem_cons_of_mem _ hx)]
    congr 1
    have := hone g (by simp)
    rcases h : commands g with _ | ⟨c, _ | ⟨d, l⟩⟩
    · rfl
    · rfl
    · rw [h] at this; simp at this

/-- **C69**: the newest command is never lost: whatever was overwritten, the last command before a round is the last
one printed up to then. -/
theorem C69_newest (kinds : List (Option Bool)) (outs : List (Res C)) :
    (latest (grouped [] kinds outs)).getLast? = (commands (grouped [] kinds outs).flatten).getLast? := by
  rw [commands_flatten]
  generalize grouped [] kinds outs = gs
  induction gs with
  | nil => rfl
  | cons g gs ih =>
    rw [latest_cons, List.flatMap_cons, List.getLast?_append, List.getLast?_append, ih]
    cases (commands g).getLast? <;> rfl

theorem commands_said' (outs : List (Res C)) : commands outs = commands (said outs) := by
  induction outs with
  | nil => rfl
  | cons o os ih =>
    rcases o with e | _ | c
    · exact ih
    · exact ih
    · exact congrArg (c :: ·) ih

theorem commands_oks' (l : List C) : commands (oks l) = l := by
  induction l with
  | nil => rfl
  | cons c l ih =>
    change c :: commands (oks l) = _
    rw [ih]

/-- **C69**, `polled.rs` in the room of C65: the timer interrupts sample a line that carries any series of NEC
transmissions.  Whenever the main loop gets its turns, the program does not panic and prints only commands that were
sent, each at most once and in order; if it gets a turn between any two of them and one at the end, it prints them
all. -/
theorem C69_polled_nec (t : Target) (tbl : PulseSpans)
    (htbl : necSpans t Mono.u32 Infrared.nec 20000 = some tbl) (u : Nat) (hu : 0 < u) (phase pause : Nat)
    (hg : Pause tbl 32 [0, 1] (0, reading u 20000 phase pause + 1)) (items : List (NecItem × (Nat × Nat)))
    (hok : ∀ i ∈ items, i.1.Near u 5 (9000 + 4500) (9000 + 2250) ∧
      16000 * u ≤ 1000000 * (i.2.1 + i.2.2) ∧ (i.2.1 + i.2.2) * 20000 + u < 2 ^ 32 * u)
    (hmin : ∀ e ∈ series NecItem.wire items, u ≤ e.2 * 20000)
    (hmax : ∀ e ∈ series NecItem.wire items, e.2 * 20000 / u + 1 < 2 ^ 32)
    (acts : List PolledAct) (n : Nat)
    (hn : reading u 20000 phase (duration ((true, pause) :: series NecItem.wire items)) < n)
    (hacts : samplesOf acts = polled u 20000 phase ((true, pause) :: series NecItem.wire items) n) :
    ∃ a outs printed, PolledApp.run (necDecoder t Mono.u32 tbl Infrared.nec) (PolledApp.init _) acts = some (a, printed) ∧
      pollRun (necDecoder t Mono.u32 tbl Infrared.nec) id (samplesOf acts) = some outs ∧
      printed.Sublist (necHeard Infrared.nec.unpack 0 (items.map Prod.fst)) ∧
      ((∀ g ∈ grouped [] (acts.map PolledAct.kind) outs, (commands g).length ≤ 1) →
        commands (grouped [] (acts.map PolledAct.kind) outs).flatten = commands outs →
        printed = necHeard Infrared.nec.unpack 0 (items.map Prod.fst)) := by
  have h := C65_nec_polled t 20000 (by decide) (by decide) Infrared.nec (.inl rfl) tbl htbl id u hu phase pause hg items
    hok hmin hmax n hn
  rw [← hacts] at h
  obtain ⟨outs, h1, h2⟩ := Option.map_eq_some_iff.mp h
  have h3 : commands outs = necHeard Infrared.nec.unpack 0 (items.map Prod.fst) := by
    rw [commands_said', h2, List.map_id, commands_oks']
  have h4 := C69_polled (necDecoder t Mono.u32 tbl Infrared.nec) acts
  rw [h1, Option.map_some] at h4
  obtain ⟨⟨a, printed⟩, h5, h6⟩ := Option.map_eq_some_iff.mp h4
  refine ⟨a, outs, printed, h5, h1, ?_, fun h7 h8 => ?_⟩
  · change printed = _ at h6
    rw [h6, ← h3]
    exact C69_sublist _ _
  · change printed = _ at h6
    rw [h6, ← h3]
    exact C69_nothing_lost _ _ h7 h8

/-! ## Non-vacuity -/

/-- A main loop that gets a turn after every interrupt prints everything. -/
theorem grouped_prompt {R : Type} (outs : List R) :
    grouped [] (List.replicate outs.length [some true, none]).flatten outs = outs.map fun o => [o] := by
  induction outs with
  | nil => rfl
  | cons o os ih =>
    rw [List.length_cons, List.replicate_succ, List.flatten_cons]
    simp only [List.cons_append, List.nil_append, grouped, List.map_cons, ih]

example (outs : List (Res C)) :
    latest (grouped [] (List.replicate outs.length [some true, none]).flatten outs) = commands outs := by
  refine C69_nothing_lost _ _ ?_ ?_ <;> rw [grouped_prompt]
  · intro g hg
    obtain ⟨o, -, rfl⟩ := List.mem_map.mp hg
    rcases o with e | _ | c <;> simp [commands]
  · congr 1
    induction outs with
    | nil => rfl
    | cons o os ih => rw [List.map_cons, List.flatten_cons, ih]; rfl

/-- The hypothesis is needed: with two commands between two turns, the first is lost. -/
example : latest (grouped [] [some true, some true, none] [.ok (some 1), .ok (some 2)]) = [2] := rfl

/-- A NEC frame seen by `external-interrupt.rs`: 20 ticks before the first edge, the frame, a turn of the main loop. -/
def necActs (evs : List Ev) : List ExternalAct :=
  (evs.flatMap fun e => List.replicate e.2 .tick ++ [.change e.1]) ++ [.main]

example : (ExternalApp.run (necDecoder ⟨true, 16⟩ Mono.u32 (necTable 20000) Infrared.nec) (ExternalApp.init _)
    (necActs ((true, 20) :: pulses [(180, 90), (11, 11), (11, 11), (11, 34), (11, 11), (11, 11), (11, 11), (11, 11),
      (11, 11), (11, 34), (11, 34), (11, 11), (11, 34), (11, 34), (11, 34), (11, 34), (11, 34), (11, 11), (11, 11),
      (11, 11), (11, 34), (11, 11), (11, 11), (11, 11), (11, 11), (11, 34), (11, 34), (11, 34), (11, 11), (11, 34),
      (11, 34), (11, 34), (11, 34)]))).map (fun p => (p.2, p.1.led, p.1.errorLed)) =
    some ([{ addr := 4, cmd := 8, rep := false }], true, false) := by
  decide +kernel

end Infrared
