import Verif.Props.Encoders
import Verif.Props.Buffers

/-!
# The frequencies at which an RC6 command survives the round trip (C41)
-/

namespace Infrared

open Spec

variable {C K : Type}

/-- The frequencies in Hz (below the limit of compilation) at which the leader that the encoder writes is read as a
leader. -/
def Spec.rc6Bands : List (Nat × Nat) :=
  [(2253, 2627), (4505, 4954), (6757, 7657), (9010, 9909), (11262, 12162), (13514, 14864), (15766, 17117),
    (18019, 19369), (20271, 22072), (22523, 24324), (24775, 26576), (27028, 9673349)]

/-- In one of the bands. -/
def Spec.InBand (f : Nat) : Prop := ∃ b ∈ rc6Bands, b.1 ≤ f ∧ f ≤ b.2

/-- Below 27 028 Hz the table depends only on the number of sixtieths of a unit. -/
def bandSpan (v : Nat) : Span := { low := v - v * 12 / 100, high := v + v * 12 / 100 }

@[inherit_doc bandSpan]
def bandTable (g : Nat) : PulseSpans :=
  { spans := [bandSpan (g / 60), bandSpan (g / 30), bandSpan (g / 20), bandSpan (g / 15), bandSpan (g / 12),
      bandSpan (g / 10), ⟨0, 0⟩, ⟨0, 0⟩] }

theorem rc6Table_band (f : Nat) (hf : f < 27028) : rc6Table f = bandTable (6660 * f / 250000) := by
  have h : ∀ l, l ≤ 2664 → scaleVal l f = l * f / 1000000 := by
    intro l hl
    unfold scaleVal
    rw [if_pos]
    exact Nat.lt_of_le_of_lt (Nat.mul_le_mul hl (Nat.le_of_lt hf)) (by decide)
  unfold rc6Table bandTable spanOf bandSpan
  simp only [h 444 (by decide), h 888 (by decide), h 1332 (by decide), h 1776 (by decide), h 2220 (by decide),
    h 2664 (by decide)]
  have e1 : 444 * f / 1000000 = 6660 * f / 250000 / 60 := by omega
  have e2 : 888 * f / 1000000 = 6660 * f / 250000 / 30 := by omega
  have e3 : 1332 * f / 1000000 = 6660 * f / 250000 / 20 := by omega
  have e4 : 1776 * f / 1000000 = 6660 * f / 250000 / 15 := by omega
  have e5 : 2220 * f / 1000000 = 6660 * f / 250000 / 12 := by omega
  have e6 : 2664 * f / 1000000 = 6660 * f / 250000 / 10 := by omega
  rw [e1, e2, e3, e4, e5, e6]

/-- The bands in sixtieths of a unit. -/
def bandGood (g : Nat) : Bool :=
  [(60, 69), (120, 131), (180, 203), (240, 263), (300, 323), (360, 395), (420, 455), (480, 515), (540, 587), (600, 647),
    (660, 707)].any fun b => decide (b.1 ≤ g) && decide (g ≤ b.2)

theorem bandGood_iff (f : Nat) (hf : f < 27028) : bandGood (6660 * f / 250000) = true ↔ InBand f := by
  simp only [bandGood, List.any_cons, List.any_nil, Bool.or_eq_true, Bool.and_eq_true, decide_eq_true_eq, InBand,
    rc6Bands, List.mem_cons, List.not_mem_nil, or_false, exists_eq_or_imp, exists_eq_left, Bool.or_false]
  omega

theorem band_checks : ∀ g : Fin 720,
    (bandGood g.1 = true → (bandTable g.1).half (1 * (g.1 / 60)) = some 1 ∧ (bandTable g.1).half (2 * (g.1 / 60)) = some 2 ∧
      (bandTable g.1).half (3 * (g.1 / 60)) = some 3 ∧ (bandTable g.1).half (6 * (g.1 / 60)) = some 6) ∧
    (bandGood g.1 = false → ∀ u : Fin 7, (bandTable g.1).half (u.1 * (g.1 / 60)) ≠ some 6) := by
  decide +kernel

theorem band_halves (f : Nat) (hb : InBand f) : ∀ n, n = 1 ∨ n = 2 ∨ n = 3 ∨ n = 6 →
    (rc6Table f).half (n * (444 * f / 1000000)) = some n := by
  rcases Nat.lt_or_ge f 27028 with hf | hf
  · obtain ⟨h1, h2, h3, h6⟩ := (band_checks ⟨6660 * f / 250000, by omega⟩).1 ((bandGood_iff f hf).mpr hb)
    rw [rc6Table_band f hf, show 444 * f / 1000000 = 6660 * f / 250000 / 60 by omega]
    rintro n (rfl | rfl | rfl | rfl) <;> assumption
  · obtain ⟨g1, g2, g3, g6⟩ := rc6_gets f hf
    rintro n (rfl | rfl | rfl | rfl) <;> simp only [PulseSpans.half]
    · rw [Nat.one_mul, g1]; rfl
    · rw [g2]; rfl
    · rw [g3]; rfl
    · rw [g6]; rfl

theorem outside_halves (f : Nat) (hhi : f ≤ 9673349) (hb : ¬ InBand f) (u : Nat) (hu : u ≤ 6) :
    (rc6Table f).half (u * (444 * f / 1000000)) ≠ some 6 := by
  have hf : f < 27028 := by
    refine Nat.lt_of_not_le fun h => hb ⟨(27028, 9673349), by simp [rc6Bands], h, hhi⟩
  have hg : bandGood (6660 * f / 250000) = false := by
    rw [← Bool.not_eq_true, bandGood_iff f hf]
    exact hb
  have := (band_checks ⟨6660 * f / 250000, by omega⟩).2 hg ⟨u, by omega⟩
  rw [rc6Table_band f hf, show 444 * f / 1000000 = 6660 * f / 250000 / 60 by omega]
  exact this

/-- **C41**, exactly: in the bands every command survives the round trip, the receiver reporting it and nothing else;
outside them (below 27 028 Hz) no command does, the receiver reporting nothing at all. -/
theorem C41_rc6_bands (t : Target) (hus : 16 ≤ t.usizeBits) (m : Mono) (hm : m = Mono.u32 ∨ m = Mono.u64) (f : Nat)
    (hhi : f ≤ 9673349) (tbl : PulseSpans) (htbl : rc6Spans t m f = some tbl) (conv : Rc6Command → K)
    (cmd : Rc6Command) (slice : List Nat) (hsl : 44 ≤ slice.length) :
    ∃ len buf n, rc6Data f = some len ∧ rc6Encode len cmd slice = some (buf, n) ∧ n ≤ 44 ∧
      (InBand f → (results (rc6Decoder t tbl) conv (alternating true (buf.take n))).map said = some (oks [conv cmd]) ∧
        bufferCollect (rc6Decoder t tbl) conv (buf.take n) = some [conv cmd]) ∧
      (¬ InBand f → (results (rc6Decoder t tbl) conv (alternating true (buf.take n))).map said = some [] ∧
        bufferCollect (rc6Decoder t tbl) conv (buf.take n) = some []) := by
  rw [rc6Spans_eq hm t (by omega), Option.some.injEq] at htbl
  subst htbl
  have hdata : rc6Data f = some (444 * f / 1000000) := if_pos (by omega)
  obtain ⟨-, hw, h44⟩ := C38_rc6_encode f _ hdata cmd
  have h1 := hw slice
  rw [if_pos (by omega)] at h1
  have hp : 2 ^ 16 ≤ 2 ^ t.usizeBits := Nat.pow_le_pow_right (by decide) hus
  have habs := rc6_results_abs t hus (rc6Table f) (by simp [rc6Table]) conv
    (alternating true (rc6Wave (444 * f / 1000000) (cmd.addr ++ cmd.cmd) cmd.toggle))
    (.inr (by rw [alternating_length]; omega))
  refine ⟨_, _, _, hdata, h1, h44, fun hb => ?_, fun hb => ?_⟩ <;> rw [List.take_left]
  · have key : (results (rc6Decoder t (rc6Table f)) conv (alternating true
        (rc6Wave (444 * f / 1000000) (cmd.addr ++ cmd.cmd) cmd.toggle))).map said = some (oks [conv cmd]) := by
      rw [habs, rc6Wave_cons]
      obtain ⟨evs, extra, he, hfr, hex⟩ := rc6_wave_frame_of (HalfBits (rc6Table f)) (444 * f / 1000000) (by
        have := band_halves f hb
        simp only [halfBits_iff]
        exact ⟨this 1 (by simp), this 2 (by simp), this 3 (by simp), this 6 (by simp)⟩)
        (cmd.addr ++ cmd.cmd) cmd.toggle 0
      rw [show alternating true (0 :: (rc6Wave (444 * f / 1000000) (cmd.addr ++ cmd.cmd) cmd.toggle).tail) =
        (true, 0) :: alternating false (rc6Wave (444 * f / 1000000) (cmd.addr ++ cmd.cmd) cmd.toggle).tail from rfl,
        he, List.map_append, runTotal_append]
      have hframe := rc6_abs_frame (rc6Table f) 0 (.inl rfl) _ cmd.toggle false false evs hfr
      rw [show Abs6.start false = ⟨.idle, 0, false, false⟩ from rfl, hframe, rc6_fromBits_append]
      rcases hex with rfl | ⟨d, rfl⟩
      · simp [runTotal, Res.map, said, oks]
      · have : (Abs6.step (Abs6.start cmd.toggle) (measure (rc6Table f) (false, d))).2 = .ok none := by
          unfold Abs6.step measure
          rcases (rc6Table f).half d with _ | k <;> rfl
        simp [runTotal, Res.map, this, said, oks]
    exact ⟨key, collect_of (rc6_commits t (rc6Table f)) conv _ _ key⟩
  · have key : (results (rc6Decoder t (rc6Table f)) conv (alternating true
        (rc6Wave (444 * f / 1000000) (cmd.addr ++ cmd.cmd) cmd.toggle))).map said = some [] := by
      rw [habs, Option.map_some, said, List.filter_eq_nil_iff.mpr]
      intro x hx
      obtain ⟨y, hy, rfl⟩ := List.mem_map.mp hx
      rw [rc6_no_leader _ _ (fun e he => ?_) _ (.inl rfl) y hy]
      · simp [Res.map]
      · obtain ⟨u, hu, h6⟩ := rc6_wave_units _ _ _ _ (alternating_mem he)
        rw [hu]
        exact outside_halves f hhi hb u h6
    exact ⟨key, collect_of (rc6_commits t (rc6Table f)) conv _ [] key⟩

/-- 40 kHz is in a band; the documented 20 kHz is not, and neither is 1 kHz. -/
example : InBand 40000 ∧ ¬ InBand 20000 ∧ ¬ InBand 1000 := by
  refine ⟨⟨(27028, 9673349), by simp [rc6Bands], by decide, by decide⟩, ?_, ?_⟩ <;> unfold InBand <;> decide

end Infrared
