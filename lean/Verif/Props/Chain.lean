import Verif.Spec.Chain
import Verif.Props.SessionTimeRc

/-!
# C107: programs that pass on what they hear, one after the other
-/

namespace Infrared
open Spec

theorem said_numbered {K : Type} (k : Nat) (outs : List (Res K)) : (numberedSaid k outs).map Prod.snd = said outs := by
  induction outs generalizing k with
  | nil => rfl
  | cons r outs ih =>
    rw [numberedSaid_cons]
    rcases r with e | _ | c <;> simp [audible, said, ih] 

theorem ticks_le {A : Type} (cmds : List (A × Nat)) (x : A × Nat) (hx : x ∈ cmds) : x.2 ≤ sessionTicks cmds := by
  induction cmds with
  | nil => cases hx
  | cons a cmds ih =>
    simp only [sessionTicks, List.map_cons, List.sum_cons] at ih ⊢
    rcases List.mem_cons.mp hx with rfl | hx
    · omega
    · have := ih hx
      omega

/-- What any receiver of standard NEC hears on a line: the commands, each at least `q` ms and `K` polls after the one
before and before the end. -/
def HeardOn (t : Target) (fs n : Nat) (levels : List Bool) (cmds : List NecCommand) (q K : Nat) : Prop :=
  ∀ (T : Type) (conv : NecCommand → T) (f : Nat) (tbl : PulseSpans) (pause phase polls : Nat), f < 2 ^ 32 →
    necSpans t Mono.u32 Infrared.nec f = some tbl → Listens fs n f pause phase polls →
    ∃ outs, pollRun (necDecoder t Mono.u32 tbl Infrared.nec) conv (overhear fs f phase pause levels polls) = some outs ∧
      outs.length = polls ∧ said outs = oks (cmds.map conv) ∧ (spaced outs).map Prod.fst = cmds.map conv ∧
      ∀ x ∈ spaced outs, q * f + 1000 * K ≤ 1000 * x.2

/-- A session of a sender is heard. -/
theorem session_on (t : Target) (fs : Nat) (hfs : 21000 ≤ fs ∨ (20000 ≤ fs ∧ fs % 1000 = 0))
    (data : NecData) (hdata : necData Infrared.nec.pulseDistance fs = some data) (s : Sender)
    (hidle : s.buffer.status = .idle) (k : Nat) (hlen : s.buffer.ptb.buf.length = 67 + k)
    (hz : s.buffer.ptb.buf.drop 67 = List.replicate k 0) (cmds : List (NecCommand × Nat)) (q K : Nat) (hq : 107 ≤ q) (hk : k ≤ K)
    (hticks : ∀ x ∈ cmds, (q + 1) * fs + 1000 * K ≤ 1000 * x.2) (s' : Sender) (levels : List Bool)
    (hs : s.calls (session (necEncode Infrared.nec data) cmds) = some (s', levels)) (quiet : Nat) :
    HeardOn t fs (quiet + sessionTicks cmds) (List.replicate quiet false ++ levels)
      (cmds.map fun x => { x.1 with rep := false }) q K := by
  intro T conv f tbl pause phase polls hf htbl ⟨hle, hph, hb, ⟨more, hm, hn⟩, hr⟩
  have hq1 : ∀ x ∈ cmds, 108 * fs + 1000 * k ≤ 1000 * x.2 := by
    intro x hx
    have h1 := hticks x hx
    have h2 : 108 * fs ≤ (q + 1) * fs := Nat.mul_le_mul_right _ (by omega)
    omega
  have hbig : ∀ x ∈ cmds, x.2 * f / fs + 1 < 2 ^ 32 := by
    intro x hx
    have h1 : x.2 ≤ sessionTicks cmds := ticks_le _ x hx
    have h2 : x.2 * f / fs ≤ reading fs f phase x.2 := Nat.div_le_div_right (Nat.le_add_right _ _)
    have h3 := reading_le fs f phase (by omega : x.2 ≤ pause + (quiet + sessionTicks cmds) + more)
    omega
  obtain ⟨s1, levels1, h1, -, h2⟩ := C105_nec_session t fs hfs f hle hf Infrared.nec (.inl rfl) data hdata tbl
    htbl conv cmds (fun c => { c with rep := false }) (fun x _ => ⟨x.1.pack, rfl, (C01_nec_roundtrip { x.1 with rep := false }).2⟩)
    s hidle k hlen hz (fun x hx => ⟨hq1 x hx, hbig x hx⟩)
  rw [hs, Option.some.injEq, Prod.mk.injEq] at h1
  obtain ⟨rfl, rfl⟩ := h1
  rw [overhear_silent]
  have hn1 : reading fs f phase (pause + quiet + sessionTicks cmds + more) < polls := by
    rw [Nat.add_assoc pause]; exact hn
  have hpr := reading_le fs f phase (by omega : pause + quiet ≤ pause + quiet + sessionTicks cmds + more)
  obtain ⟨outs, h3, h4⟩ := h2 (pause + quiet) phase polls hph
    (pause_long (.inl rfl) (by omega) (by omega) hf htbl (by omega) (by omega))
    (Nat.lt_of_le_of_lt (reading_le _ _ _ (Nat.le_add_right _ _)) hn1)
  rw [completes_const _ (frameTicks data.headerHigh data.headerLow data.dataHigh data.dataZeroLow data.dataOneLow 16)
    _ _ fun (x : NecCommand × Nat) _ => congrArg (frameTicks _ _ _ _ _) (C100_ones x.1 ⟨0, 0, false⟩ ⟨0, 0, false⟩).1] at h4
  have hlm := (standard_ticks hdata).1
  obtain ⟨h5, h6, h7⟩ := reports_apart (q := q) (k := K) (f₂ := 0) (more := more)
    (hear := fun c : NecCommand => conv { c with rep := false }) (by omega) hle h3 h4
    (fun x hx => by have := hticks x hx; omega) (by omega) hn1 (by simp)
  refine ⟨outs, h3, h5, ?_, by rw [h6, List.map_map]; rfl, fun x hx => (h7 x hx).1⟩
  have h8 : ∀ (L time : Nat) (cs : List (NecCommand × Nat)), (completes (fun _ => L) time cs).map Prod.snd = cs.map Prod.fst := by
    intro L time cs
    induction cs generalizing time with
    | nil => rfl
    | cons a cs ih => exact congrArg (_ :: ·) (ih (time + a.2))
  rw [← said_numbered 1, h4, List.map_map, oks, List.map_map, List.map_map]
  have h9 := congrArg (List.map fun c : NecCommand => (Except.ok (some (conv { c with rep := false })) : Res T))
    (h8 (frameTicks data.headerHigh data.headerLow data.dataHigh data.dataZeroLow data.dataOneLow 16) (pause + quiet) cmds)
  rw [List.map_map, List.map_map] at h9
  exact h9

/-- One program: what it sends is heard. -/
theorem hop_on (t : Target) {fs n : Nat} {levels : List Bool} {cmds : List NecCommand} {q K : Nat} (hq : 107 ≤ q) (h : Hop)
    (hrate : 21000 ≤ h.rate ∨ (20000 ≤ h.rate ∧ h.rate % 1000 = 0)) (hhi : h.rate ≤ 477218999)
    (hl : Listens fs n h.rate h.pause h.phase h.polls) (hs : ReadyToPass K h.sender)
    (hon : HeardOn t fs n levels cmds (q + 1) K) :
    ∃ levels', (∀ hs, chainRun t fs (h :: hs) levels = chainRun t h.rate hs levels') ∧
      HeardOn t h.rate h.polls levels' (cmds.map fun c => { h.convert c with rep := false }) q K := by
  obtain ⟨data, hdata⟩ := Option.isSome_iff_exists.mp ((C38_nec_compiles h.rate (by omega)).1.mpr hhi)
  have htbl : necSpans t Mono.u32 Infrared.nec h.rate = some (necTable h.rate) :=
    necSpans_standard (.inl rfl) t (by omega) _ rfl
  obtain ⟨hsil, k, hk, hlen, hz⟩ := hs
  obtain ⟨outs, h1, h2, -, h3, h4⟩ := hon NecCommand h.convert h.rate _ h.pause h.phase h.polls (by omega) htbl hl
  have hr := hl.range
  have hbig : ∀ x ∈ spaced outs, x.2 * h.rate / h.rate + 1 < 2 ^ 32 := by
    intro x hx
    rw [Nat.mul_div_cancel _ (by omega)]
    have h5 := spaced_le outs x hx
    omega
  obtain ⟨s', lev, h5, s1, h6, h7⟩ := relay_session (necDecoder t Mono.u32 (necTable h.rate) Infrared.nec) h.convert
    (necEncode Infrared.nec data) h.sender hsil _ outs h1
    (fun s' lev => ∃ s1 : Sender, s1.buffer = h.sender.buffer ∧
      s1.calls (session (necEncode Infrared.nec data) (spaced outs)) = some (s', lev))
    (by
      intro s1 hs1
      obtain ⟨s', lev, h5, -, -⟩ := C105_nec_session t h.rate hrate h.rate (Nat.le_refl _) (by omega) Infrared.nec (.inl rfl)
        data hdata _ htbl (fun c => c) (spaced outs) (fun c => { c with rep := false })
        (fun x _ => ⟨x.1.pack, rfl, (C01_nec_roundtrip { x.1 with rep := false }).2⟩) s1 (by rw [hs1]; exact hsil.1) k
        (by rw [hs1]; exact hlen) (by rw [hs1]; exact hz) (by
          intro x hx
          have h8 := h4 x hx
          have h9 : 108 * h.rate ≤ (q + 1) * h.rate := Nat.mul_le_mul_right _ (by omega)
          exact ⟨by omega, hbig x hx⟩)
      exact ⟨s', lev, h5, s1, hs1, h5⟩)
  refine ⟨List.replicate (quietPolls outs) false ++ lev, fun hs => ?_, ?_⟩
  · have hd : necData Infrared.nec.pulseDistance h.rate = some data := hdata
    rw [chainRun, hd, htbl]
    dsimp only
    rw [h5]
    rfl
  · have h8 := session_on t h.rate hrate data hdata s1 (by rw [h6]; exact hsil.1) k (by rw [h6]; exact hlen)
      (by rw [h6]; exact hz) (spaced outs) q K hq hk (fun x hx => by have := h4 x hx; omega) s' lev h7 (quietPolls outs)
    rw [spaced_total, h2] at h8
    have h9 := congrArg (List.map fun c : NecCommand => { c with rep := false }) h3
    rw [List.map_map, List.map_map] at h9
    rw [show (spaced outs).map (fun x => ({ x.1 with rep := false } : NecCommand)) =
      cmds.map fun c => { h.convert c with rep := false } from h9] at h8
    exact h8

theorem chain_on (t : Target) {q K : Nat} (hq : 107 ≤ q) (hops : List Hop) : ∀ {fs n : Nat} {levels : List Bool}
    {cmds : List NecCommand}, Chained K fs n hops → HeardOn t fs n levels cmds (q + hops.length) K →
    ∃ levels', chainRun t fs hops levels = some levels' ∧
      HeardOn t (endRate fs hops) (endPolls n hops) levels'
        (cmds.map fun c => hops.foldl (fun c h => { h.convert c with rep := false }) c) q K := by
  induction hops with
  | nil =>
    intro fs n levels cmds _ h
    exact ⟨levels, rfl, by simpa [endRate, endPolls] using h⟩
  | cons h hs ih =>
    intro fs n levels cmds hc hon
    obtain ⟨h1, h2, h3, h4, h5⟩ := hc
    obtain ⟨lev, h6, h7⟩ := hop_on t (q := q + hs.length) (by omega) h h1 h2 h3 h4 hon
    obtain ⟨lev', h8, h9⟩ := ih h5 h7
    rw [List.map_map] at h9
    exact ⟨lev', by rw [h6, h8], h9⟩

/-- **C107**: a new sender of standard NEC is given any commands, and any number `N` of programs that pass on standard NEC
commands stand in a row: each is at least as fast as the one before, listens to it from 16 ms before it starts until 68 ms
after it stops, and converts what it hears in its own way.  If the commands are given `108 + N` ms apart, and one tick more
for each of the `K` spare slots of the largest buffer, none of the programs panics and any receiver that listens to the last
one reports all of the commands, each converted by all of the programs, in order, once each, and nothing else. -/
theorem C107_chain (t : Target) (fs : Nat) (hfs : 21000 ≤ fs ∨ (20000 ≤ fs ∧ fs % 1000 = 0)) (hhi : fs ≤ 477218999)
    (cmds : List (NecCommand × Nat)) (S K : Nat) (hS : 67 ≤ S) (hK : S ≤ 67 + K) (pin : Bool) (hops : List Hop)
    (hchain : Chained K fs (sessionTicks cmds) hops)
    (hticks : ∀ x ∈ cmds, (108 + hops.length) * fs + 1000 * K ≤ 1000 * x.2 ∧ x.2 + 1 < 2 ^ 32) :
    ∃ data s' levels levels', necData Infrared.nec.pulseDistance fs = some data ∧
      (Sender.new S pin).calls (session (necEncode Infrared.nec data) cmds) = some (s', levels) ∧
      chainRun t fs hops levels = some levels' ∧
      ∀ (T : Type) (conv : NecCommand → T) (f : Nat) (tbl : PulseSpans) (pause phase polls : Nat), f < 2 ^ 32 →
      necSpans t Mono.u32 Infrared.nec f = some tbl →
      Listens (endRate fs hops) (endPolls (sessionTicks cmds) hops) f pause phase polls →
      (pollRun (necDecoder t Mono.u32 tbl Infrared.nec) conv
          (overhear (endRate fs hops) f phase pause levels' polls)).map said =
        some (oks (cmds.map fun x =>
          conv (hops.foldl (fun c h => { h.convert c with rep := false }) { x.1 with rep := false }))) := by
  obtain ⟨data, hdata⟩ := Option.isSome_iff_exists.mp ((C38_nec_compiles fs (by omega)).1.mpr hhi)
  have hlen : (Sender.new S pin).buffer.ptb.buf.length = 67 + (S - 67) :=
    show (List.replicate S 0).length = _ by rw [List.length_replicate]; omega
  have hz : (Sender.new S pin).buffer.ptb.buf.drop 67 = List.replicate (S - 67) 0 := List.drop_replicate ..
  obtain ⟨s', levels, h1, -, -⟩ := C105_nec_session t fs hfs fs (Nat.le_refl _) (by omega) Infrared.nec (.inl rfl)
    data hdata _ (necSpans_standard (.inl rfl) t (by omega) _ rfl) (fun c => c) cmds (fun c => { c with rep := false })
    (fun x _ => ⟨x.1.pack, rfl, (C01_nec_roundtrip { x.1 with rep := false }).2⟩) (Sender.new S pin) rfl (S - 67) hlen hz (by
      intro x hx
      have h2 := hticks x hx
      have h3 : 108 * fs ≤ (108 + hops.length) * fs := Nat.mul_le_mul_right _ (by omega)
      rw [Nat.mul_div_cancel _ (by omega)]
      omega)
  have h2 := session_on t fs hfs data hdata (Sender.new S pin) rfl (S - 67) hlen hz cmds (107 + hops.length) K (by omega)
    (by omega) (fun x hx => by
      have h3 := (hticks x hx).1
      rwa [show 107 + hops.length + 1 = 108 + hops.length by omega]) s' levels h1 0
  rw [Nat.zero_add, List.replicate_zero, List.nil_append] at h2
  obtain ⟨levels', h3, h4⟩ := chain_on t (by omega) hops hchain h2
  refine ⟨data, s', levels, levels', hdata, h1, h3, fun T conv f tbl pause phase polls hf htbl hl => ?_⟩
  obtain ⟨outs, h5, -, h6, -⟩ := h4 T conv f tbl pause phase polls hf htbl hl
  rw [h5, Option.map_some, h6, List.map_map, List.map_map]
  rfl

/-! ## Non-vacuity -/

/-- C107 applies: a remote at 20 kHz with a command every 120 ms, a program at 20 kHz that complements the address, one at
40 kHz that complements the command, and a receiver at 40 kHz; the senders have 128 slots. -/
example (t : Target) (cmds : List NecCommand) (hlen : cmds.length ≤ 100000) :
    ∃ data s' levels levels', necData Infrared.nec.pulseDistance 20000 = some data ∧
      (Sender.new 128 false).calls (session (necEncode Infrared.nec data) (cmds.map fun c => (c, 2400))) =
        some (s', levels) ∧
      chainRun t 20000
        [⟨20000, fun c => { c with addr := ~~~c.addr }, Nat.repeat Sender.tick 130 (Sender.new 128 false), 400, 0,
            1761 + 2400 * cmds.length⟩,
          ⟨40000, fun c => { c with cmd := ~~~c.cmd }, Nat.repeat Sender.tick 130 (Sender.new 128 false), 400, 0,
            7043 + 4800 * cmds.length⟩] levels = some levels' ∧
      (pollRun (necDecoder t Mono.u32 (necTable 40000) Infrared.nec) id
          (overhear 40000 40000 0 800 levels' (10564 + 4800 * cmds.length))).map said =
        some (oks (cmds.map fun c => ⟨~~~c.addr, ~~~c.cmd, false⟩)) := by
  have hready : ReadyToPass 61 (Nat.repeat Sender.tick 130 (Sender.new 128 false)) :=
    ⟨silent_example.1, 61, Nat.le_refl _, by rw [silent_example.2, List.length_replicate],
      by rw [silent_example.2, List.drop_replicate]⟩
  have hst := sessionTicks_const cmds 2400
  have hl1 : Listens 20000 (sessionTicks (cmds.map fun c => (c, 2400))) 20000 400 0 (1761 + 2400 * cmds.length) :=
    ⟨by decide, by decide, by decide, ⟨1360, by decide, by rw [hst]; simp only [reading]; omega⟩, by omega⟩
  have hl2 : Listens 20000 (1761 + 2400 * cmds.length) 40000 400 0 (7043 + 4800 * cmds.length) :=
    ⟨by decide, by decide, by decide, ⟨1360, by decide, by simp only [reading]; omega⟩, by omega⟩
  have hl3 : Listens 40000 (7043 + 4800 * cmds.length) 40000 800 0 (10564 + 4800 * cmds.length) :=
    ⟨by decide, by decide, by decide, ⟨2720, by decide, by simp only [reading]; omega⟩, by omega⟩
  obtain ⟨data, s', levels, levels', h1, h2, h3, h4⟩ := C107_chain t 20000 (.inr (by decide)) (by decide)
    (cmds.map fun c => (c, 2400)) 128 61 (by decide) (by decide) false
    [⟨20000, fun c => { c with addr := ~~~c.addr }, Nat.repeat Sender.tick 130 (Sender.new 128 false), 400, 0,
        1761 + 2400 * cmds.length⟩,
      ⟨40000, fun c => { c with cmd := ~~~c.cmd }, Nat.repeat Sender.tick 130 (Sender.new 128 false), 400, 0,
        7043 + 4800 * cmds.length⟩]
    ⟨.inr (by dsimp only; decide), by dsimp only; decide, hl1, hready,
      .inr (by dsimp only; decide), by dsimp only; decide, hl2, hready, trivial⟩
    (by
      intro x hx
      obtain ⟨c, -, rfl⟩ := List.mem_map.mp hx
      simp)
  refine ⟨data, s', levels, levels', h1, h2, h3, ?_⟩
  have h5 := h4 NecCommand id 40000 (necTable 40000) 800 0 (10564 + 4800 * cmds.length) (by decide)
    (necSpans_standard (.inl rfl) t (by omega) _ rfl) hl3
  rw [List.map_map] at h5
  exact h5

end Infrared
