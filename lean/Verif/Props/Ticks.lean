import Verif.Spec.Ticks
import Verif.Props.Late
import Verif.Props.Session

/-!
# Sessions of a sender whose ticks are late (C87)
-/

namespace Infrared

open Spec

variable {C K : Type}

/-! ## Sender ticks on the receiver's clock -/

theorem tick_mono {u fs L : Nat} {tick : Nat → Nat} (ht : Ticking u fs L tick) (k x : Nat) : tick k ≤ tick (k + x) := by
  induction x with
  | zero => exact Nat.le_refl _
  | succ x ih => exact Nat.le_trans ih (ht (k + x)).2.2

theorem clockedBy_clockedBy (r tick : Nat → Nat) (hmono : ∀ k x, tick k ≤ tick (k + x)) (es : List (Bool × Nat)) (k : Nat) :
    clockedBy r (tick k) (clockedBy tick k es) = clockedBy (fun k => r (tick k)) k es := by
  induction es generalizing k with
  | nil => rfl
  | cons e es ih =>
    obtain ⟨b, x⟩ := e
    have := hmono k x
    simp only [clockedBy, show tick k + (tick (k + x) - tick k) = tick (k + x) by omega, ih]

/-- A clock that follows time, read at ticks up to `L` late, follows the ticks. -/
theorem follows_ticks {u fs f L c c' : Nat} (hu : 0 < u) {r tick : Nat → Nat} (hr : Follows u f c r)
    (ht : Ticking u fs L tick) (hc : L * f + c * u ≤ c' * u) : Follows fs f c' fun k => r (tick k) := by
  intro k x
  have hm := tick_mono ht k x
  obtain ⟨T, hT⟩ := Nat.le.dest hm
  obtain ⟨h1, h2, h3⟩ := hr (tick k) T
  obtain ⟨a1, a2, -⟩ := ht k
  obtain ⟨b1, b2, -⟩ := ht (k + x)
  dsimp only
  rw [← hT]
  rw [← hT, Nat.add_mul] at b1 b2
  rw [Nat.add_mul] at b1 b2
  have t1 : T * fs ≤ x * u + L * fs := by omega
  have t2 : x * u ≤ T * fs + L * fs := by omega
  generalize r (tick k + T) - r (tick k) = d at h2 h3 ⊢
  have hc' := Nat.mul_le_mul_right fs hc
  have t1' := Nat.mul_le_mul_right f t1
  have t2' := Nat.mul_le_mul_right f t2
  rw [Nat.add_mul] at hc' t1' t2'
  have e1 : T * fs * f = T * f * fs := Nat.mul_right_comm ..
  have e2 : L * fs * f = L * f * fs := Nat.mul_right_comm ..
  have e3 : x * u * f = u * (x * f) := by rw [Nat.mul_right_comm, Nat.mul_comm]
  have e4 : u * d * fs = u * (fs * d) := by rw [Nat.mul_assoc, Nat.mul_comm d]
  have e5 : c' * u * fs = u * (c' * fs) := by rw [Nat.mul_right_comm, Nat.mul_comm]
  refine ⟨h1, ?_, ?_⟩
  · refine Nat.le_of_mul_le_mul_left (c := u) ?_ hu
    have := Nat.mul_le_mul_right fs h2
    rw [Nat.add_mul] at this
    rw [Nat.mul_add]
    omega
  · rcases h3 with h3 | h3
    · left
      refine Nat.le_of_mul_le_mul_left (c := u) ?_ hu
      have := Nat.mul_le_mul_right fs h3
      rw [Nat.add_mul] at this
      rw [Nat.mul_add]
      omega
    · right
      have : c ≤ c' := Nat.le_of_mul_le_mul_right (Nat.le_trans (Nat.le_add_left ..) hc) hu
      omega

/-! ## NEC frames and leftover slots through such a clock -/

theorem pulsesBy_append (r : Nat → Nat) (a b : List (Nat × Nat)) (t : Nat) :
    pulsesBy r t (a ++ b) = pulsesBy r t a ++ pulsesBy r (t + span a) b := by
  induction a generalizing t with
  | nil => rfl
  | cons p a ih =>
    obtain ⟨h, l⟩ := p
    simp only [List.cons_append, pulsesBy, ih, span, List.map_cons, List.sum_cons, Nat.add_assoc]

theorem pulsesBy_mem {r : Nat → Nat} (hr : ∀ t x, r t ≤ r (t + x)) {t : Nat} {ps : List (Nat × Nat)} {q : Nat × Nat}
    (h : q ∈ pulsesBy r t ps) : ∃ p ∈ ps, ∃ t', q.1 + q.2 = r (t' + (p.1 + p.2)) - r t' := by
  obtain ⟨i, hi⟩ := List.mem_iff_getElem?.mp h
  obtain ⟨p, t', hp, hq⟩ := pulsesBy_get r hr t ps i q hi
  exact ⟨p, List.mem_of_getElem? hp, t', hq⟩

section
variable {t : Target} {m : Mono} (hm : m = Mono.u32 ∨ m = Mono.u64) {f c : Nat} (hc : 1 ≤ c)
  (hlo : 10000 * (c + 1) ≤ f) (hf : f < 2 ^ 32) {v : NecVariant C} (hv : v.Shipped) {tbl : PulseSpans}
  (htbl : necSpans t m v f = some tbl) {u : Nat} (hu : 0 < u) {r : Nat → Nat} (hr : Follows u f c r)
include hm hc hlo hf hv htbl hu hr

theorem nec_frame_by {w : BitVec 32} {ps : List (Nat × Nat)}
    (h : NearPeriods u 5 (necPeriods (v.pulseDistance.headerHigh + v.pulseDistance.headerLow) w) ps) (t0 : Nat) :
    NecFrame tbl w (pulsesBy r t0 ps) := by
  obtain ⟨k, hk, he⟩ := nec_kind v hv
  have htbl' := htbl
  rw [he] at htbl'
  have hclk : ∀ s l, (necLengths v)[s]? = some l → s ≠ 1 → MeasuresBy tbl r u 5 s l := by
    intro s l hs h1
    rcases hk with ⟨rfl, hv'⟩ | ⟨rfl, hv'⟩ <;> rw [necLengths, hv'] at hs <;> rcases s with _ | _ | _ | _ | s <;>
      cases hs
    · exact measures_by hm hf (by decide) hu hr .nec htbl' (s := 0) (l := 13500) (tol := 7) rfl (by omega) (by omega)
    · exact absurd rfl h1
    · exact measures_by hm hf (by decide) hu hr .nec htbl' (s := 2) (tol := 25) rfl (by omega) (by omega)
    · exact measures_by hm hf (by decide) hu hr .nec htbl' (s := 3) (tol := 12) rfl (by omega) (by omega)
    · exact measures_by hm hf (by decide) hu hr .samsung htbl' (s := 0) (l := 9000) (tol := 7) rfl (by omega) (by omega)
    · exact absurd rfl h1
    · exact measures_by hm hf (by decide) hu hr .samsung htbl' (s := 2) (tol := 25) rfl (by omega) (by omega)
    · exact measures_by hm hf (by decide) hu hr .samsung htbl' (s := 3) (tol := 12) rfl (by omega) (by omega)
  refine necFrame_of_matches ?_
  refine matches_by (fun t x => (hr t x).1)
    (us := necPeriods (v.pulseDistance.headerHigh + v.pulseDistance.headerLow) w)
    (by simp [necPeriods, necSlots]) ?_ h _
  exact append_ok (l1 := [_]) (s1 := [0]) rfl (single_ok (hclk 0 _ rfl (by decide)))
    (bits_ok 32 _ _ _ _ _ (hclk 3 _ rfl (by decide)) (hclk 2 _ rfl (by decide)))

omit hc in
/-- Two ticks of the sender, or 22 ms of them, are no NEC sync and no repeat. -/
theorem nec_not_sync_by (hu20 : 20000 ≤ u) {t' : Nat} {q p : Nat × Nat} (hq : q.1 + q.2 = r (t' + (p.1 + p.2)) - r t')
    (hp : p.1 + p.2 = 2 ∨ 22 * u ≤ 1000 * (p.1 + p.2) ∧ (p.1 + p.2) * f + c * u < 2 ^ m.width * u) :
    Pause tbl m.width [0, 1] q := by
  obtain ⟨k, hk, he⟩ := nec_kind v hv
  have htbl' := htbl
  rw [he] at htbl'
  rcases hp with hp | ⟨hp, hlong⟩
  · obtain ⟨-, b, -⟩ := hr t' (p.1 + p.2)
    rw [← hq, hp] at b
    have key : ∀ d, u * d ≤ 2 * f + c * u → 10000 * d ≤ f + 10000 * c := by
      intro d hd
      have h2 : 2 * f * 10000 ≤ f * u := by
        rw [show 2 * f * 10000 = f * 20000 by omega]
        exact Nat.mul_le_mul_left f hu20
      refine Nat.le_of_mul_le_mul_left (c := u) ?_ hu
      rw [Nat.mul_add, Nat.mul_left_comm u 10000, Nat.mul_left_comm u 10000 c, Nat.mul_comm u f, Nat.mul_comm u c]
      omega
    have hd := key _ b
    refine ⟨?_, fun i hi hin => ?_⟩
    · rcases hm with rfl | rfl
      · show q.1 + q.2 < 2 ^ 32; omega
      · show q.1 + q.2 < 2 ^ 64; omega
    · simp only [List.mem_cons, List.not_mem_nil, or_false] at hi
      have hw := (C52_rejects k t m hm f hf tbl htbl' i _ hin).1
      rcases hk with ⟨rfl, -⟩ | ⟨rfl, -⟩ <;> rcases hi with rfl | rfl
      · have := hw (9000 + 4500) 7 rfl; omega
      · have := hw (9000 + 2250) 7 rfl; omega
      · have := hw (4500 + 4500) 7 rfl; omega
      · have := hw (4500 + 2250) 7 rfl; omega
  · have hm1 := (hr t' p.1).1
    have hm2 := (hr (t' + p.1) p.2).1
    have := pause_by hm hf hlo hu hr k htbl' [0, 1] (by rcases hk with ⟨rfl, -⟩ | ⟨rfl, -⟩ <;> decide) p (by omega) hlong t'
    unfold Pause at this ⊢
    dsimp only at this
    rw [show r (t' + p.1) - r t' + (r (t' + p.1 + p.2) - r (t' + p.1)) = q.1 + q.2 by
      rw [hq, ← Nat.add_assoc]; omega] at this
    exact this

/-- A session heard through such a clock. -/
theorem nec_body_by (hu20 : 20000 ≤ u) {data : NecData} (k : Nat) (w : C → BitVec 32) (hear : C → C)
    (ws : List (C × Nat))
    (hws : ∀ x ∈ ws, v.unpack (w x.1) false = some (hear x.1) ∧
      NearPeriods u 5 (necPeriods (v.pulseDistance.headerHigh + v.pulseDistance.headerLow) (w x.1))
        (necPairs data.headerHigh data.headerLow data.dataHigh data.dataZeroLow data.dataOneLow (w x.1)) ∧
      22 * u ≤ 1000 * ((necChunk data k (w x.1) x.2).2 + 1) ∧
      ((necChunk data k (w x.1) x.2).2 + 1) * f + c * u < 2 ^ m.width * u)
    (t0 : Nat) (d : NecDecoder) (hd : d.state = .init) :
    ∃ d' o, runStep (necFn t m tbl v) d
        (pulses (pulsesBy r t0 (body (ws.map fun x => necChunk data k (w x.1) x.2)))) =
          some (d', o) ∧ d'.state = .init ∧ said o = oks (ws.map fun x => hear x.1) := by
  have hmono := fun t x => (hr t x).1
  obtain ⟨hus, hfit⟩ := necSpans_good hm t (by omega) hf v hv htbl
  induction ws generalizing t0 d with
  | nil => exact ⟨d, [], rfl, hd, rfl⟩
  | cons x ws ih =>
    obtain ⟨hx, hnear, hlong, hfits⟩ := hws x (by simp)
    have h1 := nec_frame t m (Mono.prim_lawful hm) tbl hus hfit v d hd (w x.1) _
      (nec_frame_by hm hc hlo hf hv htbl hu hr hnear t0)
    have hsaid : said (List.replicate 65 (.ok none) ++ [.ok (v.unpack (w x.1) false)]) =
        oks [hear x.1] := by
      rw [said_append, said_nones, hx]; rfl
    cases ws with
    | nil =>
      simp only [List.map_cons, List.map_nil, body]
      obtain ⟨d', o, h2, h3, h4⟩ := nec_pauses t m (Mono.prim_lawful hm) tbl v
        (pulsesBy r (t0 + span (necPairs data.headerHigh data.headerLow
          data.dataHigh data.dataZeroLow data.dataOneLow (w x.1))) (List.replicate (k / 2) (1, 1))) (by
          intro q hq
          obtain ⟨p, hp, t', hq⟩ := pulsesBy_mem hmono hq
          rw [List.eq_of_mem_replicate hp] at hq
          exact nec_not_sync_by hm hlo hf hv htbl hu hr hu20 hq (.inl rfl))
        { state := .init, bitbuf := (w x.1), dtSave := 0 } rfl
      refine ⟨d', _, (congrArg (runStep (necFn t m tbl v) d) ?_).trans
        (run_append_some h1 h2), h3, ?_⟩
      · rw [necChunk, pulsesBy_append, pulses_append]
      · rw [said_append, hsaid, h4, List.append_nil]
    | cons y ws =>
      simp only [List.map_cons, body] at ih ⊢
      obtain ⟨d1, o1, h2, h3, h4⟩ := nec_pauses t m (Mono.prim_lawful hm) tbl v
        (pulsesBy r (t0 + span (necPairs data.headerHigh data.headerLow
          data.dataHigh data.dataZeroLow data.dataOneLow (w x.1))) (List.replicate (k / 2) (1, 1) ++
            [(1, (necChunk data k (w x.1) x.2).2)])) (by
          intro q hq
          obtain ⟨p, hp, t', hq⟩ := pulsesBy_mem hmono hq
          rcases List.mem_append.mp hp with hp | hp
          · rw [List.eq_of_mem_replicate hp] at hq
            exact nec_not_sync_by hm hlo hf hv htbl hu hr hu20 hq (.inl rfl)
          · rw [List.mem_singleton.mp hp] at hq
            refine nec_not_sync_by hm hlo hf hv htbl hu hr hu20 hq (.inr ⟨?_, ?_⟩)
            · simp only; omega
            · rw [Nat.add_comm (1, _).1]; exact hfits)
        { state := .init, bitbuf := (w x.1), dtSave := 0 } rfl
      obtain ⟨d', o, h5, h6, h7⟩ := ih (fun z hz => hws z (by simp [hz]))
        (t0 + span (necPairs data.headerHigh data.headerLow
          data.dataHigh data.dataZeroLow data.dataOneLow (w x.1)) + span (List.replicate (k / 2) (1, 1) ++
            [(1, (necChunk data k (w x.1) x.2).2)])) d1 h3
      refine ⟨d', _, (congrArg (runStep (necFn t m tbl v) d) ?_).trans
        (run_append_some (run_append_some h1 h2) h5), h6, ?_⟩
      · rw [show (necChunk data k (w x.1) x.2).1 = necPairs data.headerHigh data.headerLow
          data.dataHigh data.dataZeroLow data.dataOneLow (w x.1) ++ List.replicate (k / 2) (1, 1) from rfl,
          List.append_assoc, ← List.singleton_append, ← List.append_assoc (List.replicate _ _),
          pulsesBy_append, pulsesBy_append, pulses_append, pulses_append, List.append_assoc]
      · rw [said_append, said_append, hsaid, h4, h7, List.append_nil, ← oks_append]
        rfl

end

/-! ## What the sender puts on the line -/

/-- The pulses a NEC encoder writes at 56 kHz or more, at a whole number of kHz from 36, or at 20 kHz, are within 5 % of the documented periods. -/
theorem necPairs_near {fs : Nat} (hfs : 56000 ≤ fs ∨ (36000 ≤ fs ∧ fs % 1000 = 0) ∨ fs = 20000) {p : NecPulseLen}
    (hp : p = necStandardTiming ∨ p = necSamsungTiming) {data : NecData}
    (hdata : necData p fs = some data) (w : BitVec 32) :
    NearPeriods fs 5 (necPeriods (p.headerHigh + p.headerLow) w)
      (necPairs data.headerHigh data.headerLow data.dataHigh data.dataZeroLow data.dataOneLow w) := by
  unfold necData at hdata
  simp only [Option.bind_eq_bind, Option.bind_eq_some_iff, Option.some.injEq] at hdata
  obtain ⟨a, ha, b, hb, c, hc, d, hd, e, he, g, hg, rfl⟩ := hdata
  obtain ⟨ha, -⟩ := calcTicks_eq (by omega) ha
  obtain ⟨hb, -⟩ := calcTicks_eq (by omega) hb
  obtain ⟨hd, -⟩ := calcTicks_eq (by omega) hd
  obtain ⟨he, -⟩ := calcTicks_eq (by omega) he
  obtain ⟨hg, -⟩ := calcTicks_eq (by omega) hg
  have hd' : p.dataHigh = 560 ∧ p.dataZeroLow = 560 ∧ p.dataOneLow = 1690 := by
    rcases hp with rfl | rfl <;> exact ⟨rfl, rfl, rfl⟩
  obtain ⟨d1, d2, d3⟩ := hd'
  rw [d1] at hd
  rw [d2] at he
  rw [d3] at hg
  refine ⟨by simp [necPeriods, necPairs], ?_⟩
  intro i q l hq hl'
  unfold Near
  rcases i with _ | i
  · simp only [necPeriods, necPairs, List.getElem?_cons_zero, Option.some.injEq] at hq hl'
    subst hq hl'
    rcases hp with rfl | rfl <;> simp only [necStandardTiming, necSamsungTiming] at ha hb ⊢ <;> omega
  · simp only [necPeriods, necPairs, List.getElem?_cons_succ, List.getElem?_map] at hq hl'
    rcases hr : (List.range 32)[i]? with _ | x
    · simp [hr] at hq
    · rw [hr] at hq hl'
      simp only [Option.map_some, Option.some.injEq] at hq hl'
      subst hq hl'
      cases w.getLsbD x
      · simp only [Bool.false_eq_true, if_false]
        omega
      · simp only [if_true]
        omega

/-- The edges of a session, in ticks. -/
theorem session_edges {v : NecVariant C} (hv : v.Shipped) {fs : Nat} (hfs : 14000 ≤ fs) {data : NecData}
    (hdata : necData v.pulseDistance fs = some data) {k : Nat} (w : C → BitVec 32) (cmds : List (C × Nat))
    (hn : ∀ x ∈ cmds, 108 * fs + 1000 * k ≤ 1000 * x.2) (hne : cmds ≠ []) (pause : Nat) :
    ∃ es, edgesFrom false 0 (List.replicate pause false ++
        (cmds.map fun x => necChunk data k (w x.1) x.2).flatMap chunkLevels) = (true, pause) :: es ∧
      es = pulses (body (cmds.map fun x => necChunk data k (w x.1) x.2)) ++ [(false, 1)] ∧
      (∀ x ∈ cmds, 22 * fs ≤ 1000 * ((necChunk data k (w x.1) x.2).2 + 1) ∧
        (necChunk data k (w x.1) x.2).2 + 1 ≤ x.2) ∧
      (∀ e ∈ es, 1 ≤ e.2 ∧ ∃ x ∈ cmds, e.2 ≤ x.2) ∧
      duration ((true, pause) :: es) ≤ pause + sessionTicks cmds := by
  have hchunk : ∀ x ∈ cmds, span (necChunk data k (w x.1) x.2).1 + (necChunk data k (w x.1) x.2).2 + 1 = x.2 ∧
      22 * fs ≤ 1000 * ((necChunk data k (w x.1) x.2).2 + 1) := by
    intro x hx
    have h1 := hn x hx
    have h2 := necPairs_span hfs hdata hv (w x.1)
    simp only [necChunk, span_append, span_ones]
    omega
  have hlen : (((cmds.map fun x => necChunk data k (w x.1) x.2)).flatMap chunkLevels).length = sessionTicks cmds := by
    clear hne
    induction cmds with
    | nil => rfl
    | cons x xs ih =>
      have := (hchunk x (by simp)).1
      have hlev : (chunkLevels (necChunk data k (w x.1) x.2)).length = x.2 := by
        rw [chunkLevels, List.length_append, List.length_replicate, transmission_span]
        · omega
        · intro p hp
          rcases List.mem_append.mp hp with hp | hp
          · have := necPairs_pos hfs hdata hv (w x.1) p hp
            exact ⟨this.1.1, this.2.1⟩
          · rw [List.eq_of_mem_replicate hp]; decide
      have := ih (fun y hy => hn y (by simp [hy])) (fun y hy => hchunk y (by simp [hy]))
      simp only [List.map_cons, List.flatMap_cons, List.length_append, hlev, this, sessionTicks,
        List.sum_cons]
  generalize hcs : (cmds.map fun x => necChunk data k (w x.1) x.2) = cs at *
  have hmem : ∀ c ∈ cs, ∃ x ∈ cmds, c = necChunk data k (w x.1) x.2 := by
    intro c hc
    rw [← hcs] at hc
    obtain ⟨x, hx, rfl⟩ := List.mem_map.mp hc
    exact ⟨x, hx, rfl⟩
  have hpos : ∀ c ∈ cs, 1 ≤ c.2 ∧ ∀ p ∈ c.1, 0 < p.1 ∧ 0 < p.2 := by
    intro c hc
    obtain ⟨x, hx, rfl⟩ := hmem c hc
    refine ⟨by have := (hchunk x hx).2; omega, fun p hp => ?_⟩
    rcases List.mem_append.mp hp with hp | hp
    · have := necPairs_pos hfs hdata hv (w x.1) p hp
      exact ⟨this.1.1, this.2.1⟩
    · rw [List.eq_of_mem_replicate hp]; decide
  have hedges : edgesFrom false 0 (List.replicate pause false ++ cs.flatMap chunkLevels) =
      (true, pause) :: (pulses (body cs) ++ [(false, 1)]) := by
    rw [edgesFrom_replicate, Nat.zero_add, edges_chunks cs hpos (by rw [← hcs]; simpa using hne)]
    rfl
  refine ⟨_, hedges, rfl, fun x hx => ⟨(hchunk x hx).2, by have := (hchunk x hx).1; omega⟩, ?_, ?_⟩
  · intro e he
    rcases List.mem_append.mp he with he | he
    · obtain ⟨p, hp, h⟩ := mem_pulses he
      obtain ⟨c, hc, hpc⟩ := mem_body hp
      have hc' := hpos c hc
      obtain ⟨x, hx, rfl⟩ := hmem c hc
      have hx' := (hchunk x hx).1
      rcases hpc with hpc | rfl
      · have h1 := hc'.2 p hpc
        have h2 := le_span hpc
        rcases h with h | h
        · rw [h]; exact ⟨h1.1, x, hx, by omega⟩
        · rw [h]; exact ⟨h1.2, x, hx, by omega⟩
      · rcases h with h | h
        · rw [h]; exact ⟨Nat.le_refl 1, x, hx, by simp only; omega⟩
        · rw [h]; exact ⟨hc'.1, x, hx, by simp only; omega⟩
    · rw [List.mem_singleton.mp he]
      obtain ⟨x, hx⟩ := List.exists_mem_of_ne_nil _ hne
      have := (hchunk x hx).1
      exact ⟨Nat.le_refl 1, x, hx, by simp only; omega⟩
  · have := edges_duration (List.replicate pause false ++ cs.flatMap chunkLevels) false 0
    rw [hedges, List.length_append, hlen, List.length_replicate] at this
    omega

/-- A session on any clock that follows the ticks of the sender. -/
theorem nec_session_by {t : Target} {m : Mono} (hm : m = Mono.u32 ∨ m = Mono.u64) {f c : Nat} (hc : 1 ≤ c)
    (hlo : 10000 * (c + 1) ≤ f) (hf : f < 2 ^ 32) {v : NecVariant C} (hv : v.Shipped) {tbl : PulseSpans}
    (htbl : necSpans t m v f = some tbl) (conv : C → K) {fs : Nat}
    (hfs : 56000 ≤ fs ∨ (36000 ≤ fs ∧ fs % 1000 = 0) ∨ fs = 20000) {r : Nat → Nat} (hr : Follows fs f c r)
    {data : NecData} (hdata : necData v.pulseDistance fs = some data) (k : Nat) (w : C → BitVec 32) (hear : C → C)
    (cmds : List (C × Nat)) (hw : ∀ x ∈ cmds, v.unpack (w x.1) false = some (hear x.1))
    (hgap : ∀ x ∈ cmds, 22 * fs ≤ 1000 * ((necChunk data k (w x.1) x.2).2 + 1) ∧
        (necChunk data k (w x.1) x.2).2 + 1 ≤ x.2)
    (hticks : ∀ x ∈ cmds, x.2 * f + c * fs < 2 ^ m.width * fs) (pause g : Nat) (hg : Pause tbl m.width [0, 1] (0, g)) :
    (results (necDecoder t m tbl v) conv ((true, g) :: clockedBy r pause
        (pulses (body (cmds.map fun x => necChunk data k (w x.1) x.2)) ++ [(false, 1)]))).map said =
      some (oks (cmds.map fun x => conv (hear x.1))) := by
  obtain ⟨t1, h1⟩ := clockedBy_append_at r (pulses (body (cmds.map fun x => necChunk data k (w x.1) x.2)))
    [(false, 1)] pause
  rw [h1, clockedBy_pulses, ← List.cons_append]
  have hgap' := nec_gap_idle t m (Mono.prim_lawful hm) tbl v
    ({ state := .init, bitbuf := 0, dtSave := 0 } : NecDecoder) rfl g
    (by have := hg.1; simpa using this) (by simpa using hg.2 0 (by simp)) (by simpa using hg.2 1 (by simp))
  have hg' : runStep (necFn t m tbl v) ({ state := .init, bitbuf := 0, dtSave := 0 } : NecDecoder)
      [(true, g)] =
      some ({ state := .init, bitbuf := 0, dtSave := 0 }, [.ok none]) := by
    rw [run_singleton, hgap']; rfl
  obtain ⟨d', o, h1, h2, h3⟩ := nec_body_by hm hc hlo hf hv htbl (by omega) hr (by omega) (data := data) k w hear cmds (by
    intro x hx
    refine ⟨hw x hx, necPairs_near hfs hv hdata (w x.1), (hgap x hx).1, ?_⟩
    have h1 := hticks x hx
    have h2 := Nat.mul_le_mul_right f (hgap x hx).2
    omega) pause ({ state := .init, bitbuf := 0, dtSave := 0 } : NecDecoder) rfl
  have hlast : ∀ y, runStep (necFn t m tbl v) d' [(false, y)] =
      some ({ d' with dtSave := y }, [.ok none]) := by
    intro y
    rw [run_singleton, nec_falling _ _ _ _ _ (.inl h2)]; rfl
  exact (said_results (D := necDecoder t m tbl v) conv
    (run_append_some (run_append_some hg' h1) (hlast _))
    (by rw [said_append, said_append, h3]; exact List.append_nil _)).trans (by rw [List.map_map]; rfl)

/-! ## C87 -/

theorem follows_reading {u : Nat} (hu : 0 < u) (f phase : Nat) : Follows u f 1 (reading u f phase) := by
  intro t x
  obtain ⟨b1, b2⟩ := reading_bounds hu f phase t x
  have m := reading_mono u f phase t x
  refine ⟨m, ?_, .inl ?_⟩ <;> omega

/-- Ticks that are late and edges that are handled late are ticks that are later. -/
theorem ticking_late {u fs L L' : Nat} {tick late : Nat → Nat} (ht : Ticking u fs L tick) (hlate : ∀ t, late t ≤ L')
    (horder : ∀ t x, late t ≤ x + late (t + x)) : Ticking u fs (L + L') fun k => tick k + late (tick k) := by
  intro k
  obtain ⟨h1, h2, h3⟩ := ht k
  have h4 := Nat.mul_le_mul_right fs (hlate (tick k))
  obtain ⟨y, hy⟩ := Nat.le.dest h3
  have h5 := horder (tick k) y
  rw [hy] at h5
  refine ⟨?_, ?_, ?_⟩ <;> dsimp only <;> (try rw [Nat.add_mul]) <;> (try rw [Nat.add_mul]) <;> omega

theorem unevenly_silent (u f phase : Nat) (delay : Nat → Nat) (n : Nat) :
    unevenly u f phase delay [] n = List.replicate n false := by
  rw [unevenly, List.eq_replicate_iff]
  refine ⟨by simp, fun b hb => ?_⟩
  obtain ⟨i, -, rfl⟩ := List.mem_map.mp hb
  rfl

theorem no_edges (pause : Nat) : edgesFrom false 0 (List.replicate pause false ++ []) = [] := by
  rw [edgesFrom_replicate]
  rfl

/-- **C87**, NEC family, event-driven: a sender whose ticks come up to `L` late and a receiver that handles edges up to
`L'` late, together at most `c` ticks of the receiver's clock. -/
theorem C87_nec_late (t : Target) (m : Mono) (hm : m = Mono.u32 ∨ m = Mono.u64) (fs : Nat)
    (hfs : 56000 ≤ fs ∨ (36000 ≤ fs ∧ fs % 1000 = 0) ∨ fs = 20000) (f c : Nat)
    (hlo : 10000 * (c + 2) ≤ f) (hf : f < 2 ^ 32) (v : NecVariant C) (hv : v.Shipped)
    (data : NecData) (hdata : necData v.pulseDistance fs = some data) (tbl : PulseSpans)
    (htbl : necSpans t m v f = some tbl) (conv : C → K) (cmds : List (C × Nat)) (hear : C → C)
    (hcmds : ∀ x ∈ cmds, ∃ w, v.pack x.1 = some w ∧ v.unpack w false = some (hear x.1))
    (s : Sender) (hidle : s.buffer.status = .idle) (k : Nat) (hlen : s.buffer.ptb.buf.length = 67 + k)
    (hz : s.buffer.ptb.buf.drop 67 = List.replicate k 0)
    (hticks : ∀ x ∈ cmds, 108 * fs + 1000 * k ≤ 1000 * x.2 ∧ x.2 * f + (c + 1) * fs < 2 ^ m.width * fs) :
    ∃ s' levels, s.calls (session (necEncode v data) cmds) = some (s', levels) ∧
      s'.buffer.status = .idle ∧ ∀ (u : Nat) (_ : 0 < u) (phase L L' : Nat) (tick late : Nat → Nat) (pause : Nat),
      Ticking u fs L tick → (∀ t, late t ≤ L') → (∀ t x, late t ≤ x + late (t + x)) → (L + L') * f ≤ c * u →
      Pause tbl m.width [0, 1] (0, reading u f phase (tick pause + late (tick pause)) - reading u f phase (late 0)) →
      (results (necDecoder t m tbl v) conv
          (handled u f phase late 0 (ticked tick (List.replicate pause false ++ levels)))).map said =
        some (oks (cmds.map fun x => conv (hear x.1))) := by
  let w : C → BitVec 32 := fun c => (v.pack c).getD 0
  have hw : ∀ x ∈ cmds, v.pack x.1 = some (w x.1) ∧ v.unpack (w x.1) false = some (hear x.1) := by
    intro x hx
    obtain ⟨y, h1, h2⟩ := hcmds x hx
    have : w x.1 = y := by simp only [w, h1, Option.getD_some]
    rw [this]
    exact ⟨h1, h2⟩
  obtain ⟨s', hcalls, hid⟩ := session_calls hv (by omega) hdata w cmds (fun x hx => (hw x hx).1)
    (fun x hx => (hticks x hx).1) s hidle hlen hz
  refine ⟨s', _, hcalls, hid, fun u hu phase L L' tick late pause htick hlate horder hL hpause => ?_⟩
  by_cases hne : cmds = []
  · subst hne
    rw [ticked, List.map_nil, List.flatMap_nil, no_edges]
    rfl
  obtain ⟨es, hes, hes', hgap, -, -⟩ := session_edges hv (by omega) hdata w cmds (fun x hx => (hticks x hx).1) hne pause
  rw [ticked, hes]
  dsimp only
  rw [handled, clockedBy, Nat.zero_add, Nat.zero_add, clockedBy_clockedBy _ _ (tick_mono htick), hes']
  exact nec_session_by hm (c := c + 1) (by omega) (by omega) hf hv htbl conv hfs
    (follows_ticks (r := reading u f phase) (L := L + L') hu (follows_reading hu f phase)
      (ticking_late htick hlate horder) (by rw [Nat.add_mul c]; omega)) hdata k w hear cmds
    (fun x hx => (hw x hx).2) hgap (fun x hx => (hticks x hx).2) pause _ hpause

/-- **C87**, NEC family, polled: a sender whose ticks come up to `L` late, at most `c` polls, and a receiver that is polled
at any moment of each polling period; two ticks of the sender are at least two polling periods apart. -/
theorem C87_nec_uneven (t : Target) (fs : Nat)
    (hfs : 56000 ≤ fs ∨ (36000 ≤ fs ∧ fs % 1000 = 0) ∨ fs = 20000) (f c : Nat)
    (hlo : 10000 * (c + 3) ≤ f) (hf : f < 2 ^ 32) (v : NecVariant C) (hv : v.Shipped)
    (data : NecData) (hdata : necData v.pulseDistance fs = some data) (tbl : PulseSpans)
    (htbl : necSpans t Mono.u32 v f = some tbl) (conv : C → K) (cmds : List (C × Nat)) (hear : C → C)
    (hcmds : ∀ x ∈ cmds, ∃ w, v.pack x.1 = some w ∧ v.unpack w false = some (hear x.1))
    (s : Sender) (hidle : s.buffer.status = .idle) (k : Nat) (hlen : s.buffer.ptb.buf.length = 67 + k)
    (hz : s.buffer.ptb.buf.drop 67 = List.replicate k 0)
    (hticks : ∀ x ∈ cmds, 108 * fs + 1000 * k ≤ 1000 * x.2 ∧ x.2 * f + (c + 3) * fs < 2 ^ 32 * fs) :
    ∃ s' levels, s.calls (session (necEncode v data) cmds) = some (s', levels) ∧
      s'.buffer.status = .idle ∧ ∀ (u : Nat) (_ : 0 < u) (phase L : Nat) (tick delay : Nat → Nat) (pause n : Nat),
      Ticking u fs L tick → (∀ k, delay k < u) → L * f ≤ c * u → (∀ k, tick k * f + 2 * u ≤ tick (k + 1) * f) →
      Pause tbl 32 [0, 1] (0, pollsBefore u f phase delay (tick pause) + 1) →
      reading u f phase (tick (pause + sessionTicks cmds)) < n →
      (pollRun (necDecoder t Mono.u32 tbl v) conv
          (unevenly u f phase delay (ticked tick (List.replicate pause false ++ levels)) n)).map said =
        some (oks (cmds.map fun x => conv (hear x.1))) := by
  let w : C → BitVec 32 := fun c => (v.pack c).getD 0
  have hw : ∀ x ∈ cmds, v.pack x.1 = some (w x.1) ∧ v.unpack (w x.1) false = some (hear x.1) := by
    intro x hx
    obtain ⟨y, h1, h2⟩ := hcmds x hx
    have : w x.1 = y := by simp only [w, h1, Option.getD_some]
    rw [this]
    exact ⟨h1, h2⟩
  obtain ⟨s', hcalls, hid⟩ := session_calls hv (by omega) hdata w cmds (fun x hx => (hw x hx).1)
    (fun x hx => (hticks x hx).1) s hidle hlen hz
  refine ⟨s', _, hcalls, hid, fun u hu phase L tick delay pause n htick hd hL hspace hpause hn => ?_⟩
  by_cases hne : cmds = []
  · subst hne
    rw [ticked, List.map_nil, List.flatMap_nil, no_edges]
    show (pollRun _ conv (unevenly u f phase delay [] n)).map said = _
    rw [unevenly_silent, C54_silent_line, Option.map_some, said_nones]
    rfl
  obtain ⟨es, hes, hes', hgap, hbound, hdur⟩ := session_edges hv (by omega) hdata w cmds (fun x hx => (hticks x hx).1)
    hne pause
  have hch : Changes false ((true, pause) :: es) := hes ▸ edgesFrom_changes _ false 0
  have hmono := tick_mono htick
  have hp1 := hpause.1
  dsimp only at hp1
  rw [ticked, hes]
  dsimp only
  rw [uneven_line _ conv u hu f phase delay hd true (tick pause) (clockedBy tick pause es)
    ⟨hch.1, changes_by tick true pause es hch.2⟩ ?_ n ?_ (by omega) ?_, clockedBy_clockedBy _ _ hmono, hes']
  · exact nec_session_by (.inl rfl) (c := c + 2) (by omega) (by omega) hf hv htbl conv hfs
      (follows_ticks (r := pollsBefore u f phase delay) hu (follows_uneven hu) htick (by rw [Nat.add_mul c]; omega))
      hdata k w hear cmds (fun x hx => (hw x hx).2) hgap (fun x hx => by
        have := (hticks x hx).2
        rw [Nat.add_mul] at this ⊢
        show _ < 2 ^ 32 * fs
        omega) pause _ hpause
  · intro e he
    obtain ⟨t', x, ⟨b', hb⟩, hx⟩ := mem_by he
    have h1 := (hbound _ hb).1
    dsimp only at h1
    obtain ⟨y, rfl⟩ : ∃ y, x = 1 + y := ⟨x - 1, by omega⟩
    have h2 := hspace t'
    have h3 := Nat.mul_le_mul_right f (hmono (t' + 1) y)
    rw [hx, Nat.sub_mul, ← Nat.add_assoc]
    omega
  · have h1 := duration_by tick hmono pause es
    have h2 : duration ((true, tick pause) :: clockedBy tick pause es) = tick (pause + duration es) := by
      rw [← h1]; simp [duration]
    rw [h2]
    have h3 : pause + duration es ≤ pause + sessionTicks cmds := by
      have : duration ((true, pause) :: es) = pause + duration es := by simp [duration]
      omega
    refine Nat.lt_of_le_of_lt ?_ hn
    obtain ⟨y, hy⟩ := Nat.le.dest h3
    rw [← hy]
    obtain ⟨z, hz⟩ := Nat.le.dest (hmono (pause + duration es) y)
    rw [← hz]
    exact reading_mono _ _ _ _ _
  · intro e he
    obtain ⟨t', x, ⟨b', hb⟩, hx⟩ := mem_by he
    obtain ⟨z, hz, hle⟩ := (hbound _ hb).2
    dsimp only at hle
    have h1 := (hticks z hz).2
    have h2 := Nat.mul_le_mul_right f hle
    rw [hx]
    obtain ⟨T, hT⟩ := Nat.le.dest (hmono t' x)
    obtain ⟨a1, -, -⟩ := htick t'
    obtain ⟨-, b1, -⟩ := htick (t' + x)
    rw [← hT, Nat.add_mul, Nat.add_mul] at b1
    rw [← hT, Nat.add_sub_cancel_left]
    have t1 : T * fs ≤ x * u + L * fs := by omega
    have t2 := Nat.mul_le_mul_right f t1
    have t3 := Nat.mul_le_mul_right fs hL
    have t4 := (Nat.mul_lt_mul_left hu).mpr (Nat.lt_of_le_of_lt (Nat.add_le_add_right h2 _) h1)
    refine Nat.lt_of_mul_lt_mul_right (a := fs) ?_
    rw [Nat.add_mul] at t2 ⊢
    rw [Nat.mul_add, Nat.add_mul, Nat.mul_add] at t4
    have e1 : T * fs * f = T * f * fs := Nat.mul_right_comm ..
    have e2 : L * fs * f = L * f * fs := Nat.mul_right_comm ..
    have e3 : x * u * f = u * (x * f) := by rw [Nat.mul_right_comm, Nat.mul_comm]
    have e4 : c * u * fs = u * (c * fs) := by rw [Nat.mul_right_comm, Nat.mul_comm]
    have e5 : 3 * u * fs = u * (3 * fs) := by rw [Nat.mul_right_comm, Nat.mul_comm]
    have e6 : 2 ^ 32 * u * fs = u * (2 ^ 32 * fs) := by rw [Nat.mul_right_comm, Nat.mul_comm]
    omega

/-! ## Non-vacuity -/

/-- Any list of NEC commands from the shipped example's sender (`Sender<_, 20_000, 128>`), one every 200 ms, every tick up
to 10 µs late by a different time, edges handled up to 5 µs late by a different time, received with a clock of 1 MHz. -/
example (t : Target) (cmds : List NecCommand) (tick late : Nat → Nat) (htick : Ticking 1000000 20000 10 tick)
    (hlate : ∀ t, late t ≤ 5) (horder : ∀ t x, late t ≤ x + late (t + x)) :
    ∃ data s' levels, necData Infrared.nec.pulseDistance 20000 = some data ∧
      (Sender.new 128 false).calls (session (necEncode Infrared.nec data) (cmds.map fun c => (c, 4000))) = some (s', levels) ∧
      (results (necDecoder t Mono.u32 (necTable 1000000) Infrared.nec) id
          (handled 1000000 1000000 0 late 0 (ticked tick (List.replicate 1 false ++ levels)))).map said =
        some (oks (cmds.map fun c => { c with rep := false })) := by
  obtain ⟨data, hdata⟩ := Option.isSome_iff_exists.mp ((C38_nec_compiles 20000 (by omega)).1.mpr (by decide))
  obtain ⟨s', levels, h1, -, h2⟩ := C87_nec_late t Mono.u32 (.inl rfl) 20000 (.inr (.inr rfl)) 1000000 15 (by decide)
    (by decide) Infrared.nec (.inl rfl) data hdata _ (necSpans_standard (.inl rfl) t (by decide) _ rfl) id
    (cmds.map fun c => (c, 4000)) (fun c => { c with rep := false })
    (fun x _ => ⟨x.1.pack, rfl, (C01_nec_roundtrip { x.1 with rep := false }).2⟩) (Sender.new 128 false) rfl 61 rfl
    (List.drop_replicate ..) (by
      intro x hx
      obtain ⟨c, -, rfl⟩ := List.mem_map.mp hx
      show 108 * 20000 + 1000 * 61 ≤ 1000 * 4000 ∧ 4000 * 1000000 + (15 + 1) * 20000 < 2 ^ 32 * 20000
      decide)
  refine ⟨data, s', levels, hdata, h1, ?_⟩
  have := h2 1000000 (by decide) 0 10 5 tick late 1 htick hlate horder (by decide) ?_
  · rw [this, List.map_map]
    rfl
  · obtain ⟨-, h, -⟩ := htick 1
    have hl := hlate (tick 1)
    have hr : reading 1000000 1000000 0 (tick 1 + late (tick 1)) - reading 1000000 1000000 0 (late 0) ≤ 65 := by
      unfold reading; omega
    generalize reading 1000000 1000000 0 (tick 1 + late (tick 1)) - reading 1000000 1000000 0 (late 0) = g at hr
    refine ⟨show 0 + g < 2 ^ 32 by omega, ?_⟩
    intro j hj
    simp only [List.mem_cons, List.not_mem_nil, or_false] at hj
    rcases hj with rfl | rfl <;> rintro ⟨s, hs, ha, hb⟩ <;> cases hs
    · have : (12000 : Nat) ≤ _ := Nat.le_trans (by decide +kernel) ha
      dsimp only at this
      omega
    · have : (10000 : Nat) ≤ _ := Nat.le_trans (by decide +kernel) ha
      dsimp only at this
      omega

/-- Such ticks exist: every tick that is a multiple of three is 10 µs late. -/
example : Ticking 1000000 20000 10 fun k => 50 * k + if k % 3 = 0 then 10 else 0 := by
  intro k
  dsimp only
  refine ⟨?_, ?_, ?_⟩ <;> split <;> (try split) <;> omega

/-- The same sender, and a receiver polled 100 000 times per second, at any moment of each period. -/
example (t : Target) (cmds : List NecCommand) (tick delay : Nat → Nat) (htick : Ticking 1000000 20000 10 tick)
    (hd : ∀ k, delay k < 1000000) (n : Nat)
    (hn : reading 1000000 100000 0 (tick (1 + sessionTicks (cmds.map fun c => (c, 4000)))) < n) :
    ∃ data s' levels, necData Infrared.nec.pulseDistance 20000 = some data ∧
      (Sender.new 128 false).calls (session (necEncode Infrared.nec data) (cmds.map fun c => (c, 4000))) = some (s', levels) ∧
      (pollRun (necDecoder t Mono.u32 (necTable 100000) Infrared.nec) id
          (unevenly 1000000 100000 0 delay (ticked tick (List.replicate 1 false ++ levels)) n)).map said =
        some (oks (cmds.map fun c => { c with rep := false })) := by
  obtain ⟨data, hdata⟩ := Option.isSome_iff_exists.mp ((C38_nec_compiles 20000 (by omega)).1.mpr (by decide))
  obtain ⟨s', levels, h1, -, h2⟩ := C87_nec_uneven t 20000 (.inr (.inr rfl)) 100000 1 (by decide)
    (by decide) Infrared.nec (.inl rfl) data hdata _ (necSpans_standard (.inl rfl) t (by decide) _ rfl) id
    (cmds.map fun c => (c, 4000)) (fun c => { c with rep := false })
    (fun x _ => ⟨x.1.pack, rfl, (C01_nec_roundtrip { x.1 with rep := false }).2⟩) (Sender.new 128 false) rfl 61 rfl
    (List.drop_replicate ..) (by
      intro x hx
      obtain ⟨c, -, rfl⟩ := List.mem_map.mp hx
      show 108 * 20000 + 1000 * 61 ≤ 1000 * 4000 ∧ 4000 * 100000 + (1 + 3) * 20000 < 2 ^ 32 * 20000
      decide)
  refine ⟨data, s', levels, hdata, h1, ?_⟩
  have := h2 1000000 (by decide) 0 10 tick delay 1 n htick hd (by decide) ?_ ?_ hn
  · rw [this, List.map_map]
    rfl
  · intro k
    obtain ⟨-, h, -⟩ := htick k
    obtain ⟨h', -, -⟩ := htick (k + 1)
    have h3 : tick k + 40 ≤ tick (k + 1) := by omega
    have := Nat.mul_le_mul_right 100000 h3
    rw [Nat.add_mul] at this
    exact Nat.le_trans (Nat.add_le_add_left (by decide) _) this
  · obtain ⟨-, h, -⟩ := htick 1
    have hr : pollsBefore 1000000 100000 0 delay (tick 1) + 1 ≤ 10 := by
      have := pollsBefore_le (u := 1000000) (f := 100000) (phase := 0) (delay := delay) (tick 1)
      unfold reading at this
      omega
    generalize pollsBefore 1000000 100000 0 delay (tick 1) + 1 = g at hr
    refine ⟨show 0 + g < 2 ^ 32 by omega, ?_⟩
    intro j hj
    simp only [List.mem_cons, List.not_mem_nil, or_false] at hj
    rcases hj with rfl | rfl <;> rintro ⟨s, hs, ha, hb⟩ <;> cases hs
    · have : (1200 : Nat) ≤ _ := Nat.le_trans (by decide +kernel) ha
      dsimp only at this
      omega
    · have : (1000 : Nat) ≤ _ := Nat.le_trans (by decide +kernel) ha
      dsimp only at this
      omega

end Infrared
