import Verif.Spec.Row
import Verif.Props.Chain
import Verif.Props.RelayTable

/-!
# C109: programs in a row that pass on what they hear, from one protocol to another
-/

namespace Infrared
open Spec

/-- What any receiver of protocol `p` hears on a line: the commands, each at least `q` ms and `K` polls after the one
before and before the end. -/
def HearsOn (t : Target) (p : Tongue) (fs n : Nat) (levels : List Bool) (cmds : List p.Cmd) (q K : Nat) : Prop :=
  ∀ (T : Type) (conv : p.Cmd → T) (f : Nat) (D : Decoder p.Cmd) (pause phase polls : Nat), f < 2 ^ 32 →
    Tongue.decoder t f p = some D → Listens fs n f pause phase polls →
    ∃ outs, pollRun D conv (overhear fs f phase pause levels polls) = some outs ∧
      outs.length = polls ∧ said outs = oks (cmds.map conv) ∧ (spaced outs).map Prod.fst = cmds.map conv ∧
      ∀ x ∈ spaced outs, q * f + 1000 * K ≤ 1000 * x.2

theorem heard_fits (p : Tongue) (c : p.Cmd) (h : p.Fits c) : p.Fits (p.heard c) := by
  cases p with
  | nec => trivial
  | rc5 =>
    obtain ⟨h1, h2, h3⟩ := h
    refine ⟨h1, h2, ?_⟩
    show (Rc5Command.start c ||| 2) < 4
    rw [BitVec.lt_def, BitVec.toNat_or]
    exact Nat.or_lt_two_pow (n := 2) h3 (by decide)
  | rc6 => trivial

theorem completes_snd {A : Type} (L time : Nat) (cs : List (A × Nat)) :
    (completes (fun _ => L) time cs).map Prod.snd = cs.map Prod.fst := by
  induction cs generalizing time with
  | nil => rfl
  | cons a cs ih => exact congrArg (_ :: ·) (ih (time + a.2))

/-- From the polls at which the commands are reported to what a receiver says. -/
theorem said_completes {A T : Type} {L pause fs f phase : Nat} {cmds : List (A × Nat)} {hear : A → T} {outs : List (Res T)}
    (h : numberedSaid 1 outs = (completes (fun _ => L) pause cmds).map fun x =>
      (reading fs f phase x.1 + 1, .ok (some (hear x.2)))) : said outs = oks (cmds.map fun x => hear x.1) := by
  have h9 := congrArg (List.map fun c : A => (Except.ok (some (hear c)) : Res T)) (completes_snd L pause cmds)
  rw [List.map_map, List.map_map] at h9
  rw [← said_numbered 1, h, List.map_map, oks, List.map_map]
  exact h9

/-- A session of a sender is heard. -/
theorem session_hears (t : Target) (hus : 16 ≤ t.usizeBits) (p : Tongue) (fs : Nat) (hfs : 80000 ≤ fs) (hhi : fs ≤ 9673349)
    (enc : p.Cmd → Encode) (henc : Tongue.encoder t fs p = some enc) (s : Sender) (hidle : s.buffer.status = .idle) (k : Nat)
    (hbuf : s.buffer.ptb.buf = List.replicate (p.slots + k) 0) (cmds : List (p.Cmd × Nat)) (hfit : ∀ x ∈ cmds, p.Fits x.1)
    (q K : Nat) (hq : 114 ≤ q) (hk : k ≤ K)
    (hticks : ∀ x ∈ cmds, (q + 1) * fs + 1000 * K ≤ 1000 * x.2 ∧ x.2 + 1 < 2 ^ 32) :
    ∃ s' levels, s.calls (session enc cmds) = some (s', levels) ∧ ∀ quiet,
      HearsOn t p fs (quiet + sessionTicks cmds) (List.replicate quiet false ++ levels)
        (cmds.map fun x => p.heard x.1) q K := by
  have hq1 : ∀ x ∈ cmds, 115 * fs + 1000 * k ≤ 1000 * x.2 := by
    intro x hx
    have h1 := (hticks x hx).1
    have h2 : 115 * fs ≤ (q + 1) * fs := Nat.mul_le_mul_right _ (by omega)
    omega
  have hsame : ∀ x ∈ cmds, x.2 * fs / fs + 1 < 2 ^ 32 := by
    intro x hx
    rw [Nat.mul_div_cancel _ (by omega)]
    exact (hticks x hx).2
  have hbig : ∀ {f phase quiet pause more polls}, reading fs f phase (pause + (quiet + sessionTicks cmds) + more) < polls →
      polls + 1 < 2 ^ 32 → ∀ x ∈ cmds, x.2 * f / fs + 1 < 2 ^ 32 := by
    intro f phase quiet pause more polls hn hr x hx
    have h1 : x.2 ≤ sessionTicks cmds := ticks_le _ x hx
    have h2 : x.2 * f / fs ≤ reading fs f phase x.2 := Nat.div_le_div_right (Nat.le_add_right _ _)
    have h3 := reading_le fs f phase (by omega : x.2 ≤ pause + (quiet + sessionTicks cmds) + more)
    omega
  have hlen : s.buffer.ptb.buf.length = p.slots + k := by rw [hbuf, List.length_replicate]
  have hz : s.buffer.ptb.buf.drop p.slots = List.replicate k 0 := by
    rw [hbuf, List.drop_replicate, Nat.add_sub_cancel_left]
  have hold : ∀ l, ∀ d ∈ s.buffer.ptb.buf, d ≤ l := by
    intro l d hd
    rw [hbuf] at hd
    have := (List.mem_replicate.mp hd).2
    omega
  cases p with
  | nec =>
    obtain ⟨data, hdata, rfl⟩ := Option.map_eq_some_iff.mp henc
    obtain ⟨s', levels, h1, -, -⟩ := C105_nec_session t fs (.inl (by omega)) fs (Nat.le_refl _) (by omega) Infrared.nec (.inl rfl)
      data hdata _ (necSpans_standard (.inl rfl) t (by omega) _ rfl) (fun c => c) cmds (fun c => { c with rep := false })
      (fun x _ => ⟨x.1.pack, rfl, (C01_nec_roundtrip { x.1 with rep := false }).2⟩) s hidle k hlen hz
      (fun x hx => ⟨by have := hq1 x hx; omega, hsame x hx⟩)
    refine ⟨s', levels, h1, fun quiet T conv f D pause phase polls hf hD hl => ?_⟩
    obtain ⟨tbl, htbl, rfl⟩ := Option.map_eq_some_iff.mp hD
    exact session_on t fs (.inl (by omega)) data hdata s hidle k hlen hz cmds q K (by omega) hk
      (fun x hx => (hticks x hx).1) s' levels h1 quiet T conv f tbl pause phase polls hf htbl hl
  | rc5 =>
    obtain ⟨l, hl, rfl⟩ := Option.map_eq_some_iff.mp henc
    obtain ⟨s', levels, h1, -, -⟩ := C106_rc5_session t hus fs (.inl (by omega)) fs (by omega) (Nat.le_refl _) (by omega) _
      (rc5Spans_eq (.inl rfl) t (by omega)) (fun c => c) l hl cmds hfit s hidle k hlen hz (hold _)
      (fun x hx => ⟨by have := hq1 x hx; omega, hsame x hx⟩)
    refine ⟨s', levels, h1, fun quiet T conv f D pause phase polls hf hD ⟨hle, hph, hb, ⟨more, hm, hn⟩, hr⟩ => ?_⟩
    obtain ⟨tbl, htbl, rfl⟩ := Option.map_eq_some_iff.mp hD
    obtain ⟨s1, levels1, h1', -, h2⟩ := C106_rc5_session t hus fs (.inl (by omega)) f (by omega) hle hf tbl htbl conv l hl cmds
      hfit s hidle k hlen hz (hold _) (fun x hx => ⟨by have := hq1 x hx; omega, hbig hn hr x hx⟩)
    rw [h1, Option.some.injEq, Prod.mk.injEq] at h1'
    obtain ⟨rfl, rfl⟩ := h1'
    rw [overhear_silent]
    have hn1 : reading fs f phase (pause + quiet + sessionTicks cmds + more) < polls := by
      rw [Nat.add_assoc pause]; exact hn
    have hpr := reading_le fs f phase (by omega : pause + quiet ≤ pause + quiet + sessionTicks cmds + more)
    obtain ⟨outs, h3, h4⟩ := h2 (pause + quiet) phase polls hph (by omega)
      (Nat.lt_of_le_of_lt (reading_le _ _ _ (Nat.le_add_right _ _)) hn1)
    have e := (rc5CalcFreq_eq (by omega) hl).2 (by omega)
    obtain ⟨h5, h6, h7⟩ := reports_apart (q := q) (k := K) (f₂ := 0) (more := more)
      (hear := fun c : Rc5Command => conv { c with start := c.start ||| 2 }) (by omega) hle h3 h4
      (fun x hx => (hticks x hx).1) (by rw [e]; omega) hn1 (by simp)
    refine ⟨outs, h3, h5, ?_, by rw [h6, List.map_map]; rfl, fun x hx => (h7 x hx).1⟩
    rw [said_completes (hear := fun c : Rc5Command => conv { c with start := c.start ||| 2 }) h4, List.map_map]
    rfl
  | rc6 =>
    obtain ⟨l, hl, rfl⟩ := Option.map_eq_some_iff.mp henc
    have hold2 : ∀ d ∈ s.buffer.ptb.buf.drop 2, d ≤ 3 * l := fun d hd => hold _ d (List.mem_of_mem_drop hd)
    obtain ⟨s', levels, h1, -, -⟩ := C106_rc6_session t hus fs (by omega) fs (by omega) (Nat.le_refl _) (by omega) _
      (rc6Spans_eq (.inl rfl) t (by omega)) (fun c => c) l hl cmds s hidle k hlen hz hold2
      (fun x hx => ⟨by have := hq1 x hx; omega, hsame x hx⟩)
    refine ⟨s', levels, h1, fun quiet T conv f D pause phase polls hf hD ⟨hle, hph, hb, ⟨more, hm, hn⟩, hr⟩ => ?_⟩
    obtain ⟨tbl, htbl, rfl⟩ := Option.map_eq_some_iff.mp hD
    obtain ⟨s1, levels1, h1', -, h2⟩ := C106_rc6_session t hus fs (by omega) f (by omega) hle hf tbl htbl conv l hl cmds
      s hidle k hlen hz hold2 (fun x hx => ⟨by have := hq1 x hx; omega, hbig hn hr x hx⟩)
    rw [h1, Option.some.injEq, Prod.mk.injEq] at h1'
    obtain ⟨rfl, rfl⟩ := h1'
    rw [overhear_silent]
    have hn1 : reading fs f phase (pause + quiet + sessionTicks cmds + more) < polls := by
      rw [Nat.add_assoc pause]; exact hn
    have hpr := reading_le fs f phase (by omega : pause + quiet ≤ pause + quiet + sessionTicks cmds + more)
    obtain ⟨outs, h3, h4⟩ := h2 (pause + quiet) phase polls hph (by omega)
      (Nat.lt_of_le_of_lt (reading_le _ _ _ (Nat.le_add_right _ _)) hn1)
    have e : 1000000 * l ≤ 444 * fs := by
      unfold rc6Data at hl
      split at hl
      · cases hl; omega
      · cases hl
    obtain ⟨h5, h6, h7⟩ := reports_apart (q := q) (k := K) (f₂ := 0) (more := more) (hear := conv) (by omega) hle h3 h4
      (fun x hx => (hticks x hx).1) (by omega) hn1 (by simp)
    refine ⟨outs, h3, h5, ?_, by rw [h6, List.map_map]; rfl, fun x hx => (h7 x hx).1⟩
    rw [said_completes (hear := conv) h4, List.map_map]
    rfl

/-- Every protocol compiles and can be heard at these rates. -/
theorem tongue_works (t : Target) (p : Tongue) (f : Nat) (hlo : 80000 ≤ f) (hhi : f ≤ 9673349) :
    (∃ enc, Tongue.encoder t f p = some enc) ∧ ∃ D, Tongue.decoder t f p = some D := by
  cases p with
  | nec =>
    obtain ⟨data, hdata⟩ := Option.isSome_iff_exists.mp ((C38_nec_compiles f (by omega)).1.mpr (by omega))
    have hd : necData Infrared.nec.pulseDistance f = some data := hdata
    exact ⟨⟨_, by rw [Tongue.encoder, hd]; rfl⟩, ⟨_, by
      rw [Tongue.decoder, necSpans_standard (.inl rfl) t (by omega) _ rfl]; rfl⟩⟩
  | rc5 =>
    obtain ⟨l, hl, -⟩ := C38_rc5_encode t f (by omega)
    exact ⟨⟨_, by rw [Tongue.encoder, hl]; rfl⟩, ⟨_, by
      rw [Tongue.decoder, rc5Spans_eq (.inl rfl) t (by omega)]; rfl⟩⟩
  | rc6 =>
    obtain ⟨l, hl⟩ := Option.isSome_iff_exists.mp ((C38_rc6_compiles f).mpr hhi)
    exact ⟨⟨_, by rw [Tongue.encoder, hl]; rfl⟩, ⟨_, by
      rw [Tongue.decoder, rc6Spans_eq (.inl rfl) t (by omega)]; rfl⟩⟩

/-- One program: what it sends is heard. -/
theorem bridge_on (t : Target) (hus : 16 ≤ t.usizeBits) {p m : Tongue} {fs n : Nat} {levels : List Bool} {cmds : List p.Cmd}
    {q K : Nat} (hq : 114 ≤ q) (hfs : 80000 ≤ fs) (b : Bridge p m) (hhi : b.rate ≤ 9673349)
    (hl : Listens fs n b.rate b.pause b.phase b.polls) (hs : Unused m K b.sender)
    (hfit : ∀ c, p.Fits c → m.Fits (b.convert c)) (hcmds : ∀ c ∈ cmds, p.Fits c)
    (hon : HearsOn t p fs n levels cmds (q + 1) K) :
    ∃ levels', (∀ {z : Tongue} (r : Row m z), (Row.next b r).run t fs levels = r.run t b.rate levels') ∧
      HearsOn t m b.rate b.polls levels' (cmds.map fun c => m.heard (b.convert c)) q K := by
  have hle := hl.slower
  obtain ⟨⟨enc, henc⟩, -⟩ := tongue_works t m b.rate (by omega) hhi
  obtain ⟨-, D, hD⟩ := tongue_works t p b.rate (by omega) hhi
  obtain ⟨hsil, k, hk, hbuf⟩ := hs
  obtain ⟨outs, h1, h2, -, h3, h4⟩ := hon m.Cmd b.convert b.rate D b.pause b.phase b.polls (by omega) hD hl
  have hr := hl.range
  have hsp : ∀ x ∈ spaced outs, m.Fits x.1 := by
    intro x hx
    have : x.1 ∈ (spaced outs).map Prod.fst := List.mem_map_of_mem hx
    rw [h3] at this
    obtain ⟨y, hy, he⟩ := List.mem_map.mp this
    rw [← he]
    exact hfit y (hcmds y hy)
  obtain ⟨s', lev, h5, h6⟩ := relay_session D b.convert enc b.sender hsil _ outs h1
    (fun _ lev => ∀ quiet, HearsOn t m b.rate (quiet + sessionTicks (spaced outs)) (List.replicate quiet false ++ lev)
      ((spaced outs).map fun x => m.heard x.1) q K)
    (by
      intro s1 hs1
      exact session_hears t hus m b.rate (by omega) hhi enc henc s1 (by rw [hs1]; exact hsil.1) k (by rw [hs1]; exact hbuf)
        (spaced outs) hsp q K hq hk (fun x hx => ⟨h4 x hx, by have := spaced_le outs x hx; omega⟩))
  refine ⟨List.replicate (quietPolls outs) false ++ lev, fun r => ?_, ?_⟩
  · rw [Row.run, hD, henc]
    dsimp only
    rw [h5]
    rfl
  · have h7 := h6 (quietPolls outs)
    rw [spaced_total, h2] at h7
    have h8 := congrArg (List.map m.heard) h3
    rw [List.map_map, List.map_map] at h8
    rw [show (spaced outs).map (fun x => m.heard x.1) = cmds.map fun c => m.heard (b.convert c) from h8] at h7
    exact h7

theorem row_on (t : Target) (hus : 16 ≤ t.usizeBits) {q K : Nat} (hq : 114 ≤ q) {p z : Tongue} (r : Row p z) :
    ∀ {fs n : Nat} {levels : List Bool} {cmds : List p.Cmd}, 80000 ≤ fs → r.Ready K fs n → (∀ c ∈ cmds, p.Fits c) →
    HearsOn t p fs n levels cmds (q + r.count) K →
    ∃ levels', r.run t fs levels = some levels' ∧
      HearsOn t z (r.rate fs) (r.polls n) levels' (cmds.map r.convert) q K := by
  induction r with
  | done =>
    intro fs n levels cmds _ _ _ h
    exact ⟨levels, rfl, by simpa [Row.rate, Row.polls, Row.convert, Row.count] using h⟩
  | @next p m z b r ih =>
    intro fs n levels cmds hfs hc hfit hon
    obtain ⟨h2, h3, h4, h5, h6⟩ := hc
    obtain ⟨lev, h7, h8⟩ := bridge_on t hus (q := q + r.count) (by omega) hfs b h2 h3 h4 h5 hfit hon
    have hle := h3.slower
    obtain ⟨lev', h9, h10⟩ := ih (by omega) h6 (by
      intro c hc
      obtain ⟨d, hd, rfl⟩ := List.mem_map.mp hc
      exact heard_fits m _ (h5 d (hfit d hd))) h8
    rw [List.map_map] at h10
    exact ⟨lev', by rw [h7, h9], h10⟩

/-- **C109**: a new sender of standard NEC, RC5 or RC6 is given any commands that fit into frames, and any number `N` of
programs stand in a row, each of which hears one of the three protocols and sends one of them, the same or another one: each
is at least as fast as the one before, listens to it from 16 ms before it starts until 68 ms after it stops, and converts
what it hears in its own way.  If the commands are given `115 + N` ms apart, and one tick more for each of the `K` spare
slots of the largest buffer, none of the programs panics and any receiver that listens to the last one reports all of the
commands, each converted by all of the programs, in order, once each, and nothing else. -/
theorem C109_row (t : Target) (hus : 16 ≤ t.usizeBits) (fs : Nat) (hfs : 80000 ≤ fs) (hhi : fs ≤ 9673349) {p z : Tongue}
    (cmds : List (p.Cmd × Nat)) (hfit : ∀ x ∈ cmds, p.Fits x.1) (S K : Nat) (hS : p.slots ≤ S) (hK : S ≤ p.slots + K)
    (pin : Bool) (row : Row p z) (hrow : row.Ready K fs (sessionTicks cmds))
    (hticks : ∀ x ∈ cmds, (115 + row.count) * fs + 1000 * K ≤ 1000 * x.2 ∧ x.2 + 1 < 2 ^ 32) :
    ∃ enc s' levels levels', Tongue.encoder t fs p = some enc ∧
      (Sender.new S pin).calls (session enc cmds) = some (s', levels) ∧
      row.run t fs levels = some levels' ∧
      ∀ (T : Type) (conv : z.Cmd → T) (f : Nat) (D : Decoder z.Cmd) (pause phase polls : Nat), f < 2 ^ 32 →
      Tongue.decoder t f z = some D → Listens (row.rate fs) (row.polls (sessionTicks cmds)) f pause phase polls →
      (pollRun D conv (overhear (row.rate fs) f phase pause levels' polls)).map said =
        some (oks (cmds.map fun x => conv (row.convert (p.heard x.1)))) := by
  obtain ⟨⟨enc, henc⟩, -⟩ := tongue_works t p fs hfs hhi
  have hbuf : (Sender.new S pin).buffer.ptb.buf = List.replicate (p.slots + (S - p.slots)) 0 := by
    rw [Nat.add_sub_cancel' hS]; rfl
  obtain ⟨s', levels, h1, h2⟩ := session_hears t hus p fs hfs hhi enc henc (Sender.new S pin) rfl (S - p.slots) hbuf cmds hfit
    (114 + row.count) K (by omega) (by omega) (fun x hx => by
      have h3 := hticks x hx
      rw [show 114 + row.count + 1 = 115 + row.count by omega]
      exact h3)
  have h3 := h2 0
  rw [Nat.zero_add, List.replicate_zero, List.nil_append] at h3
  obtain ⟨levels', h4, h5⟩ := row_on t hus (Nat.le_refl 114) row hfs hrow (by
    intro c hc
    obtain ⟨x, hx, rfl⟩ := List.mem_map.mp hc
    exact heard_fits p _ (hfit x hx)) h3
  refine ⟨enc, s', levels, levels', henc, h1, h4, fun T conv f D pause phase polls hf hD hl => ?_⟩
  obtain ⟨outs, h6, -, h7, -⟩ := h5 T conv f D pause phase polls hf hD hl
  rw [h6, Option.map_some, h7, List.map_map, List.map_map]
  rfl

/-! ## Non-vacuity -/

/-- A program that hears NEC and sends RC5. -/
def exampleBridge₁ (n : Nat) : Bridge .nec .rc5 :=
  { rate := 80000
    convert := fun (c : NecCommand) => (⟨c.addr &&& 31, c.cmd &&& 63, 3, false⟩ : Rc5Command)
    sender := Nat.repeat Sender.tick 130 (Sender.new 128 false)
    pause := 1280
    phase := 0
    polls := 6721 + 9600 * n }

/-- A program that hears RC5 and sends RC6. -/
def exampleBridge₂ (n : Nat) : Bridge .rc5 .rc6 :=
  { rate := 80000
    convert := fun (c : Rc5Command) => (⟨~~~c.addr, c.cmd, c.toggle⟩ : Rc6Command)
    sender := Nat.repeat Sender.tick 130 (Sender.new 128 false)
    pause := 1280
    phase := 0
    polls := 13442 + 9600 * n }

/-- C109 applies: a NEC remote, one command every 120 ms, the two programs above, and a receiver of RC6, all at 80 kHz; the
senders have 128 slots. -/
example (t : Target) (hus : 16 ≤ t.usizeBits) (cmds : List NecCommand) (hlen : cmds.length ≤ 100000) :
    ∃ enc s' levels levels', Tongue.encoder t 80000 .nec = some enc ∧
      (Sender.new 128 false).calls (session enc (cmds.map fun c => (c, 9600))) = some (s', levels) ∧
      (Row.next (exampleBridge₁ cmds.length) (.next (exampleBridge₂ cmds.length) .done)).run t 80000 levels = some levels' ∧
      (pollRun (rc6Decoder t (rc6Table 80000)) id
          (overhear 80000 80000 0 1280 levels' (20163 + 9600 * cmds.length))).map said =
        some (oks (cmds.map fun c => ⟨~~~(c.addr &&& 31), c.cmd &&& 63, false⟩)) := by
  have hst := sessionTicks_const cmds 9600
  have hl : ∀ n m, n + 6720 < m → m + 1 < 2 ^ 32 → Listens 80000 n 80000 1280 0 m := fun n m h1 h2 =>
    ⟨by decide, by decide, by decide, ⟨5440, by decide, by simp only [reading]; omega⟩, h2⟩
  have hand : ∀ a : BitVec 8, (a &&& 31) < 32 ∧ (a &&& 63) < 64 := by
    intro a
    constructor
    · have := @Nat.and_le_right a.toNat 31
      rw [BitVec.lt_def, BitVec.toNat_and]
      exact Nat.lt_succ_of_le this
    · have := @Nat.and_le_right a.toNat 63
      rw [BitVec.lt_def, BitVec.toNat_and]
      exact Nat.lt_succ_of_le this
  have hu₁ : Unused .rc5 101 (exampleBridge₁ cmds.length).sender := by
    rw [exampleBridge₁]
    exact ⟨silent_example.1, 101, Nat.le_refl _, by rw [silent_example.2]; rfl⟩
  have hu₂ : Unused .rc6 101 (exampleBridge₂ cmds.length).sender := by
    rw [exampleBridge₂]
    exact ⟨silent_example.1, 84, by decide, by rw [silent_example.2]; rfl⟩
  have hready : (Row.next (exampleBridge₁ cmds.length) (.next (exampleBridge₂ cmds.length) .done)).Ready 101 80000
      (sessionTicks (cmds.map fun c => (c, 9600))) := by
    refine ⟨show 80000 ≤ 9673349 by decide, hl _ _ (by rw [hst]; show _ < 6721 + 9600 * cmds.length; omega)
      (show 6721 + 9600 * cmds.length + 1 < 2 ^ 32 by omega), hu₁,
      fun c _ => ⟨(hand _).1, (hand _).2, show (3 : BitVec 8) < 4 by decide⟩, show 80000 ≤ 9673349 by decide,
      hl _ _ (show 6721 + 9600 * cmds.length + 6720 < 13442 + 9600 * cmds.length by omega)
      (show 13442 + 9600 * cmds.length + 1 < 2 ^ 32 by omega), hu₂,
      fun _ _ => trivial, trivial⟩
  obtain ⟨enc, s', levels, levels', h1, h2, h3, h4⟩ := C109_row t hus 80000 (by decide) (by decide) (p := .nec) (z := .rc6)
    (cmds.map fun c => (c, 9600)) (fun _ _ => trivial) 128 101 (by decide) (by decide) false _ hready
    (by
      intro x hx
      obtain ⟨c, -, rfl⟩ := List.mem_map.mp hx
      show (115 + 2) * 80000 + 1000 * 101 ≤ 1000 * 9600 ∧ 9600 + 1 < 2 ^ 32
      decide)
  refine ⟨enc, s', levels, levels', h1, h2, h3, ?_⟩
  have h5 := h4 Rc6Command id 80000 (rc6Decoder t (rc6Table 80000)) 1280 0 (20163 + 9600 * cmds.length) (by decide)
    (by rw [Tongue.decoder, rc6Spans_eq (.inl rfl) t (by decide)]; rfl)
    (hl _ _ (show 13442 + 9600 * cmds.length + 6720 < 20163 + 9600 * cmds.length by omega) (by omega))
  refine h5.trans (congrArg (fun l => some (oks l)) ?_)
  exact List.map_map (f := fun c : NecCommand => (c, 9600))
    (g := fun x : NecCommand × Nat => (⟨~~~(x.1.addr &&& 31), x.1.cmd &&& 63, false⟩ : Rc6Command)) (l := cmds)

end Infrared
