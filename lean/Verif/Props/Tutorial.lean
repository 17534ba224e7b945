import Verif.Props.Remotes
import Verif.Props.Mailbox

/-!
# The tutorial program with an RC6 remote control, `examples/bluepill/src/bin/tutorial1b.rs` (C74)
-/

namespace Infrared

open Spec

theorem rc6TvTable_small : ∀ p ∈ rc6TvTable, p.1 < 256 := by decide +kernel

/-- **C74**: the remote control model of the tutorial is a lossless table of its buttons, address 0. -/
theorem C74_remote : IsRemote rc6Tv 0 rc6TvTable := by
  refine IsRemote.congr (table := rc6TvButtons) ?_ (by decide +kernel) (by decide +kernel)
  refine isRemote_of _ _ _ rfl rfl rfl (by decide +kernel) ?_
  intro p hp
  have : p.1 < 256 := by
    revert p
    decide +kernel
  refine ⟨Rc6Command.new 0 (BitVec.ofNat 8 p.1), ?_, rfl, ?_, rfl⟩
  · simp [rc6Tv, rc6AC, tryU8, this]
  · simp [rc6Tv, rc6AC, Rc6Command.new]; omega

/-- A clock of 40 kHz measures the distances of RC6 (within 5 %) as what they are. -/
theorem rc6Clock_40k {u : Nat} (hu : 0 < u) (phase : Nat) : Rc6Clock (rc6Table 40000) u 40000 phase 5 := by
  intro t n x h12 hn
  obtain ⟨h1, h2⟩ := reading_bounds hu 40000 phase t x
  obtain ⟨h3, h4⟩ := hn
  rw [show 100 - 5 = 95 from rfl] at h3
  rw [show 100 + 5 = 105 from rfl] at h4
  generalize reading u 40000 phase (t + x) - reading u 40000 phase t = d at h1 h2 ⊢
  have lo : 95 * (444 * n) ≤ 2500 * (d + 1) := by
    refine Nat.le_of_mul_le_mul_left (c := u) ?_ hu
    rw [Nat.mul_left_comm u 2500, Nat.mul_add u, Nat.mul_comm u (95 * _)]
    omega
  have hi : 2500 * d ≤ 105 * (444 * n) + 2500 := by
    refine Nat.le_of_mul_le_mul_left (c := u) ?_ hu
    rw [Nat.mul_left_comm u 2500, Nat.mul_add u, Nat.mul_comm u (105 * _)]
    omega
  have acc : ∀ i s, (rc6Table 40000).spans[i]? = some s → s.low ≤ d → d ≤ s.high → InTol (rc6Table 40000) i d :=
    fun i s h1 h2 h3 => ⟨s, h1, h2, h3⟩
  have e : (rc6Table 40000).spans = [⟨15, 19⟩, ⟨31, 39⟩, ⟨47, 59⟩, ⟨63, 79⟩, ⟨78, 98⟩, ⟨94, 118⟩, ⟨0, 0⟩, ⟨0, 0⟩] := by
    decide +kernel
  rcases h12 with rfl | rfl | rfl | rfl
  · exact ⟨⟨⟨15, 19⟩, by rw [e]; rfl, by dsimp only; omega, by dsimp only; omega⟩, by simp⟩
  · exact ⟨⟨⟨31, 39⟩, by rw [e]; rfl, by dsimp only; omega, by dsimp only; omega⟩, by simp⟩
  · exact ⟨⟨⟨47, 59⟩, by rw [e]; rfl, by dsimp only; omega, by dsimp only; omega⟩, by simp⟩
  · refine ⟨⟨⟨94, 118⟩, by rw [e]; rfl, by dsimp only; omega, by dsimp only; omega⟩, fun _ h5 => ?_⟩
    obtain ⟨s, hs, h5, h6⟩ := h5
    rw [e] at hs
    cases hs
    dsimp only at h6
    omega

/-- The line for a button. -/
def lineOf (b : Button Rc6Command) : TutorialLine :=
  match b.action with
  | some .teletext => .teletext
  | some .power => .powerOnOff
  | _ => .cmd b

theorem tutorialRun_eq (D : Decoder Rc6Command) (samples : List Bool) (p : PeriodicPoll D) :
    tutorialRun D p samples =
      ((runStep (fun p s => PeriodicPoll.pollBase D (Button.from rc6Tv) p s) p samples).map Prod.snd).map
        fun outs => (commands outs).map lineOf := by
  induction samples generalizing p with
  | nil => rfl
  | cons s ss ih =>
    rw [tutorialRun, runStep, PeriodicPoll.pollPin]
    dsimp only
    rcases h : PeriodicPoll.pollBase D (Button.from rc6Tv) p s with _ | ⟨p', res⟩
    · rfl
    · have key := ih p'
      change (tutorialRun D p' ss).map _ = _
      rw [key]
      dsimp only
      rcases runStep (fun p s => PeriodicPoll.pollBase D (Button.from rc6Tv) p s) p' ss with _ | ⟨p'', out⟩
      · rfl
      · rcases res with e | _ | b
        · rfl
        · rfl
        · simp only [PinRes.ofRes, Option.map_some, Option.some.injEq]
          change _ = lineOf b :: (commands out).map lineOf
          change _ ++ _ = [lineOf b] ++ (commands out).map lineOf
          refine congrArg (fun x : List TutorialLine => x ++ (commands out).map lineOf) ?_
          rw [lineOf]
          split <;> simp_all

namespace Spec

/-- The line the program is meant to log for a command: address 0 with code 60 is Teletext, with code 12 Power;
everything else is logged as the command, with the action of the button table if it has one. -/
def LineFor (c : Rc6Command) (line : TutorialLine) : Prop :=
  if c.addr = 0 ∧ c.cmd = 60 then line = .teletext
  else if c.addr = 0 ∧ c.cmd = 12 then line = .powerOnOff
  else ∃ action, line = .cmd { action := action, cmd := c } ∧ ∀ a, action = some a ↔ c.addr = 0 ∧ (c.cmd.toNat, a) ∈ rc6TvTable

end Spec

theorem lineOf_spec (c : Rc6Command) : LineFor c (lineOf (Button.from rc6Tv c)) := by
  have hd : ∀ a, rc6Tv.decode c = some a ↔ c.addr = 0 ∧ (c.cmd.toNat, a) ∈ rc6TvTable := by
    intro a
    rw [C74_remote.decode_iff c a]
    refine and_congr_left fun _ => ?_
    change c.addr.toNat = 0 ↔ c.addr = 0
    constructor
    · intro h; apply BitVec.eq_of_toNat_eq; simpa using h
    · rintro h; rw [h]; rfl
  have e60 : ∀ x : BitVec 8, x = 60 ↔ (x.toNat, Action.teletext) ∈ rc6TvTable := by decide +kernel
  have e12 : ∀ x : BitVec 8, x = 12 ↔ (x.toNat, Action.power) ∈ rc6TvTable := by decide +kernel
  have h60 := hd .teletext
  have h12 := hd .power
  rw [← e60] at h60
  rw [← e12] at h12
  unfold LineFor
  split
  · rename_i h
    rw [lineOf, show (Button.from rc6Tv c).action = some .teletext from h60.mpr h]
  · rename_i h
    split
    · rename_i h'
      rw [lineOf, show (Button.from rc6Tv c).action = some .power from h12.mpr h']
    · rename_i h'
      refine ⟨rc6Tv.decode c, ?_, hd⟩
      rw [lineOf]
      change (match rc6Tv.decode c with
        | some .teletext => TutorialLine.teletext | some .power => .powerOnOff | _ => .cmd _) = _
      split
      · rename_i h'' ; exact absurd (h60.mp h'') h
      · rename_i h'' ; exact absurd (h12.mp h'') h'
      · rfl

/-- **C74**: the tutorial's receiver, polled 40 000 times per second, looks at a line that carries any sequence of
RC6 transmissions of mode 0 whose edges are within 5 % of their distances, any pauses between them; the program logs
exactly one line per transmission, and the line is the one meant for it. -/
theorem C74_tutorial (t : Target) (hus : 16 ≤ t.usizeBits) (tbl : PulseSpans)
    (htbl : rc6Spans t Mono.u32 40000 = some tbl) (u : Nat) (hu : 0 < u) (phase : Nat)
    (items : List (Rc6Command × List (Bool × Nat) × Option Nat))
    (hok : ∀ i ∈ items, ManchesterFrame (fun x n => Near u 5 (444 * n) x)
      (rc6Edges (i.1.addr ++ i.1.cmd) i.1.toggle) i.2.1)
    (hch : Changes false (items.flatMap fun i => withTail i.2.1 i.2.2))
    (hmin : ∀ e ∈ (items.flatMap fun i => withTail i.2.1 i.2.2).tail, u ≤ e.2 * 40000)
    (hmax : ∀ e ∈ items.flatMap fun i => withTail i.2.1 i.2.2, (e.2 * 40000 + phase) / u + 1 < 2 ^ 32)
    (n : Nat) (hn : reading u 40000 phase (duration (items.flatMap fun i => withTail i.2.1 i.2.2)) < n) :
    ∃ lines, tutorialRun (rc6Decoder t tbl) (PeriodicPoll.new _)
        (polled u 40000 phase (items.flatMap fun i => withTail i.2.1 i.2.2) n) = some lines ∧
      List.Forall₂ LineFor (items.map Prod.fst) lines := by
  have htbl' := htbl
  rw [rc6Spans_eq (.inl rfl) t (by decide), Option.some.injEq] at htbl'
  subst htbl'
  have h := rc6_polled_of t hus 40000 (by decide) (by decide) _ htbl (Button.from rc6Tv) u hu phase 5
    (rc6Clock_40k hu phase) items hok hch hmin hmax n hn
  obtain ⟨outs, h1, h2⟩ := Option.map_eq_some_iff.mp h
  refine ⟨(items.map Prod.fst).map fun c => lineOf (Button.from rc6Tv c), ?_, ?_⟩
  · rw [tutorialRun_eq]
    change (pollRun _ _ _).map _ = _
    rw [h1, Option.map_some, commands_said' outs, h2, commands_oks']
    simp [List.map_map, Function.comp_def]
  · generalize items.map Prod.fst = cs
    induction cs with
    | nil => exact .nil
    | cons c cs ih => exact .cons (lineOf_spec c) ih

/-! ## Non-vacuity -/

/-- An RC6 transmission, 4 % slow, after a pause of 5 ms. -/
def slowRc6 (c : Rc6Command) : List (Bool × Nat) :=
  (true, 5000000) :: (rc6Edges (c.addr ++ c.cmd) c.toggle).tail.map fun e => (e.1, 1040 * (444 * e.2))

/-- Teletext, volume up and Power, 4 % slow. -/
example (t : Target) (hus : 16 ≤ t.usizeBits) (phase : Nat) (hp : phase < 1000000000) :
    let items : List (Rc6Command × List (Bool × Nat) × Option Nat) :=
      [⟨0, 60, true⟩, ⟨0, 76, false⟩, ⟨0, 12, true⟩].map fun c => (c, slowRc6 c, some 444000)
    ∃ lines, tutorialRun (rc6Decoder t (rc6Table 40000)) (PeriodicPoll.new _)
        (polled 1000000000 40000 phase (items.flatMap fun i => withTail i.2.1 i.2.2) 20000) = some lines ∧
      List.Forall₂ LineFor (items.map Prod.fst) lines := by
  intro items
  refine C74_tutorial t hus _ (rc6Spans_eq (.inl rfl) t (by decide)) 1000000000 (by decide) phase items ?_
    (by decide +kernel) (by decide +kernel) ?_ _ ?_
  · intro i hi
    obtain ⟨c, -, rfl⟩ := List.mem_map.mp hi
    dsimp only
    rw [slowRc6, rc6Edges, rc6Edges_eq 0 (.inl rfl)]
    exact ⟨_, _, _, _, rfl, rfl, timed_scaled 1040 5 444 (fun n => by unfold Near; omega) _⟩
  · intro e he
    have h : ∀ e ∈ items.flatMap fun i => withTail i.2.1 i.2.2, e.2 ≤ 5000000 := by decide +kernel
    have := h e he
    omega
  · have hd : duration (items.flatMap fun i => withTail i.2.1 i.2.2) ≤ 90000000 := by decide +kernel
    unfold reading
    omega

example : LineFor ⟨0, 60, true⟩ .teletext ∧ LineFor ⟨0, 12, false⟩ .powerOnOff ∧
    LineFor ⟨0, 76, false⟩ (.cmd ⟨⟨0, 76, false⟩, some .volumeUp⟩) ∧
    LineFor ⟨5, 12, false⟩ (.cmd ⟨⟨5, 12, false⟩, none⟩) := by
  refine ⟨by simp [LineFor], by simp [LineFor], ?_, ?_⟩
  · exact lineOf_spec ⟨0, 76, false⟩
  · exact lineOf_spec ⟨5, 12, false⟩

end Infrared
