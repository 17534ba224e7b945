import Verif.Spec.Waveforms
import Verif.Props.Nec
import Verif.Props.Rc5
import Verif.Props.Rc6

/-!
# Encoders as sequences of writes
-/

namespace Infrared

open Spec

/-- Consecutive writes from index `i`. -/
def writeAll (b : List Nat) (i : Nat) : List Nat → Option (List Nat × Nat)
  | [] => some (b, i)
  | v :: vs => (store b i v).bind fun b' => writeAll b' (i + 1) vs

theorem writeAll_append (b : List Nat) (i : Nat) (us vs : List Nat) :
    writeAll b i (us ++ vs) = (writeAll b i us).bind fun p => writeAll p.1 p.2 vs := by
  induction us generalizing b i with
  | nil => rfl
  | cons u us ih =>
    simp only [List.cons_append, writeAll]
    rcases store b i u with _ | b' <;> simp [ih]

theorem writeAll_eq (pre b : List Nat) (vs : List Nat) :
    writeAll (pre ++ b) pre.length vs =
      if vs.length ≤ b.length then some (pre ++ (vs ++ b.drop vs.length), pre.length + vs.length)
      else none := by
  induction vs generalizing pre b with
  | nil => simp [writeAll]
  | cons v vs ih =>
    rcases b with _ | ⟨x, b⟩
    · simp [writeAll, store]
    · have hs : store (pre ++ x :: b) pre.length v = some ((pre ++ [v]) ++ b) := by
        unfold store
        rw [if_pos (by simp)]
        simp
      have := ih (pre ++ [v]) b
      simp only [List.length_append, List.length_cons, List.length_nil, Nat.zero_add] at this
      simp only [writeAll, hs, Option.bind_some, this, List.length_cons, Nat.add_le_add_iff_right,
        List.drop_succ_cons]
      simp [Nat.add_assoc, Nat.add_comm 1]

theorem writes_iff (enc : List Nat → Option (List Nat × Nat)) (wave : List Nat)
    (h : ∀ b, enc b = writeAll b 0 wave) : Writes enc wave := by
  intro b
  rw [h b]
  have := writeAll_eq [] b wave
  simpa using this

/-! ### NEC -/

theorem getLsbD_and_one_ne (w : BitVec 32) (i : Nat) :
    ((w >>> i) &&& 1#32 != 0#32) = w.getLsbD i := by
  have h1 : ((w >>> i) &&& 1#32 != 0#32) = ((w >>> i).getLsbD 0) := by
    generalize w >>> i = x
    have h : x &&& 1#32 = if x.getLsbD 0 then 1#32 else 0#32 := by
      apply BitVec.eq_of_getLsbD_eq
      intro j hj
      rw [BitVec.getLsbD_and]
      by_cases h0 : j = 0
      · subst h0; cases x.getLsbD 0 <;> simp
      · have : (1#32).getLsbD j = false := by simp [BitVec.getLsbD_one, h0]
        rw [this]
        cases x.getLsbD 0 <;> simp [BitVec.getLsbD_one, h0]
    rw [h]
    cases x.getLsbD 0 <;> decide
  rw [h1]
  simp

theorem necEncode_bits (data : NecData) (w : BitVec 32) (l : List Nat) (b : List Nat) (i : Nat) :
    l.foldlM (necEncodeBit data w) (b, i) =
      writeAll b i (l.flatMap fun j =>
        [data.dataHigh, if w.getLsbD j then data.dataOneLow else data.dataZeroLow]) := by
  induction l generalizing b i with
  | nil => rfl
  | cons j l ih =>
    rw [List.foldlM_cons, List.flatMap_cons, writeAll_append]
    simp only [necEncodeBit, getLsbD_and_one_ne, writeAll]
    rcases store b i data.dataHigh with _ | b1
    · rfl
    · simp only [Option.bind_some, Option.bind_eq_bind]
      rcases store b1 (i + 1) (if w.getLsbD j = true then data.dataOneLow else data.dataZeroLow)
        with _ | b2
      · rfl
      · exact ih _ _

theorem necEncode_writes {C : Type} (v : NecVariant C) (data : NecData) (cmd : C) (w : BitVec 32)
    (hw : v.pack cmd = some w) :
    Writes (necEncode v data cmd) (necWave data.headerHigh data.headerLow data.dataHigh
      data.dataZeroLow data.dataOneLow w) := by
  apply writes_iff
  intro b
  unfold necEncode necWave
  generalize List.range 32 = l
  rw [writeAll_append]
  simp only [writeAll, hw, Option.bind_eq_bind, Option.bind_some, necEncode_bits, Option.bind_assoc]

/-! ### RC5 -/

theorem rc5_mask (w : BitVec 16) (k : Nat) (hk : k < 16) :
    (w &&& ((1 : BitVec 16) <<< k) != 0#16) = w.getLsbD k := by
  have h : w &&& ((1 : BitVec 16) <<< k) = if w.getLsbD k then (1 : BitVec 16) <<< k else 0#16 := by
    apply BitVec.eq_of_getLsbD_eq
    intro j hj
    rw [BitVec.getLsbD_and, getLsbD_one_shl _ _ _ hk]
    by_cases h0 : j = k
    · subst h0
      cases w.getLsbD j
      · simp
      · rw [if_pos rfl, getLsbD_one_shl _ _ _ hk]; simp
    · cases w.getLsbD k
      · simp [h0]
      · rw [if_pos rfl, getLsbD_one_shl _ _ _ hk]; simp [h0]
  rw [h]
  cases w.getLsbD k
  · rfl
  · have : ((1 : BitVec 16) <<< k).getLsbD k = true := by rw [getLsbD_one_shl _ _ _ hk]; simp
    have hne : (1 : BitVec 16) <<< k ≠ 0#16 := by
      intro h0; rw [h0] at this; simp at this
    simpa using hne

theorem umul_lt (t : Target) {w a b : Nat} (h : a * b < 2 ^ w) : umul t w a b = some (a * b) := by
  unfold umul
  simp [h]

theorem rc5Encode_bits (t : Target) (len : Nat) (hlen : len * 2 < 2 ^ 32) (bits : BitVec 16)
    (w : BitVec 14) (hw : ∀ i, i ≤ 12 → bits.getLsbD i = w.getLsbD i) (n : Nat) (hn : n ≤ 13)
    (b : List Nat) (i : Nat) (prev : Bool) :
    ((List.range' (13 - n) n).foldlM (rc5EncodeBit t len bits) ⟨b, i, prev⟩).map
        (fun s => (s.buf, s.index)) =
      writeAll b i ((edgesFrom prev 1 (rc5Tail w n)).map fun e => e.2 * len) := by
  induction n generalizing b i prev with
  | zero => rfl
  | succ n ih =>
    have hr : List.range' (13 - (n + 1)) (n + 1) = (12 - n) :: List.range' (13 - n) n := by
      rw [show 13 - (n + 1) = 12 - n by omega, show 13 - n = 12 - n + 1 by omega, List.range'_succ]
    rw [hr, List.foldlM_cons, rc5Tail, edgesFrom_bit]
    have h12 : 12 - (12 - n) = n := by omega
    simp only [rc5EncodeBit, h12, rc5_mask bits n (by omega), hw n (by omega), umul_lt t hlen]
    generalize w.getLsbD n = c
    by_cases hc : c = prev
    · subst hc
      simp only [if_true, List.map_cons, writeAll, Nat.one_mul]
      rcases h1 : store b i len with _ | b1
      · simp
      · rcases h2 : store b1 (i + 1) len with _ | b2
        · simp [h2]
        · simp only [Option.bind_some, Option.bind_eq_bind, h2]
          exact ih (by omega) _ _ _
    · have hc' : ¬ prev = c := fun h => hc h.symm
      simp only [if_neg hc, if_neg hc', List.map_cons, writeAll, Nat.mul_comm 2 len,
        Option.bind_some, Option.bind_eq_bind]
      rcases h1 : store b i (len * 2) with _ | b1
      · simp
      · simp only [Option.bind_some]
        exact ih (by omega) _ _ _

theorem rc5Encode_writes (t : Target) (len : Nat) (hlen : len * 2 < 2 ^ 32) (cmd : Rc5Command)
    (w : BitVec 14) (hw : ∀ i, i ≤ 12 → cmd.pack.getLsbD i = w.getLsbD i)
    (h13 : w.getLsbD 13 = true) : Writes (rc5Encode t len cmd) (rc5Wave len w) := by
  apply writes_iff
  intro b
  unfold rc5Encode rc5Wave
  rw [rc5Edges_eq w h13]
  simp only [manchesterWave, writeAll]
  rcases store b 0 0 with _ | b1
  · rfl
  · have := rc5Encode_bits t len hlen cmd.pack w hw 13 (Nat.le_refl _) b1 1 true
    rw [Option.bind_some, ← this, Nat.sub_self, ← List.range_eq_range']
    simp only [Option.bind_eq_bind, Option.bind_some]
    rcases List.foldlM (rc5EncodeBit t len cmd.pack) ⟨b1, 1, true⟩ (List.range 13) with _ | s <;> rfl

/-! ### RC6 -/

/-- A run of `n` equal half-bits as a `Level`. -/
def levelOf (len : Nat) (r : Bool × Nat) : Level :=
  if r.1 then .high (r.2 * len) else .low (r.2 * len)

/-- The half-bits of a list of runs. -/
def expand (rs : List (Bool × Nat)) : List Bool := rs.flatMap fun r => List.replicate r.2 r.1

theorem edgesFrom_replicate (p : Bool) (n k : Nat) (ls : List Bool) :
    edgesFrom p n (List.replicate k p ++ ls) = edgesFrom p (n + k) ls := by
  induction k generalizing n with
  | zero => rfl
  | succ k ih =>
    rw [List.replicate_succ, List.cons_append, edgesFrom, if_pos rfl, ih]
    congr 1
    omega

theorem rc6Encode_levels (len : Nat) (rs : List (Bool × Nat)) (hpos : ∀ r ∈ rs, 0 < r.2)
    (b : List Nat) (i : Nat) (p : Bool) (n : Nat) :
    ((rs.map (levelOf len)).foldlM rc6EncodeLevel ⟨b, i, levelOf len (p, n)⟩).map
        (fun s => (s.buf, s.index)) =
      writeAll b i ((edgesFrom p n (expand rs)).map fun e => e.2 * len) := by
  induction rs generalizing b i p n with
  | nil => rfl
  | cons r rs ih =>
    obtain ⟨c, k⟩ := r
    have hk : 0 < k := hpos (c, k) (by simp)
    have ih' := ih fun r hr => hpos r (by simp [hr])
    have he : expand ((c, k) :: rs) = List.replicate k c ++ expand rs := rfl
    rw [List.map_cons, List.foldlM_cons, he]
    by_cases hc : c = p
    · subst hc
      have hs : rc6EncodeLevel ⟨b, i, levelOf len (c, n)⟩ (levelOf len (c, k)) =
          some ⟨b, i, levelOf len (c, n + k)⟩ := by
        cases c <;> simp [levelOf, rc6EncodeLevel, Nat.add_mul]
      rw [hs, edgesFrom_replicate]
      exact ih' _ _ _ _
    · obtain ⟨k', rfl⟩ : ∃ k', k = k' + 1 := ⟨k - 1, by omega⟩
      have hs : rc6EncodeLevel ⟨b, i, levelOf len (p, n)⟩ (levelOf len (c, k' + 1)) =
          (store b i (n * len)).map fun b' => ⟨b', i + 1, levelOf len (c, k' + 1)⟩ := by
        cases c <;> cases p <;> first
          | exact absurd rfl hc
          | (simp only [levelOf, rc6EncodeLevel, if_true, Bool.false_eq_true, if_false]
             rcases store b i (n * len) with _ | b' <;> rfl)
      rw [hs, List.replicate_succ, List.cons_append, edgesFrom, if_neg hc, List.map_cons, writeAll,
        edgesFrom_replicate]
      rcases store b i (n * len) with _ | b'
      · rfl
      · rw [show 1 + k' = k' + 1 by omega]
        exact ih' _ _ _ _

/-- The runs of the leader. -/
def rc6LeaderRuns (toggle : Bool) : List (Bool × Nat) :=
  [(true, 6), (false, 2), (true, 1), (false, 1), (false, 1), (true, 1), (false, 1), (true, 1),
    (false, 1), (true, 1), (toggle, 2), (!toggle, 2)]

/-- The runs of the data bits. -/
def rc6PayloadRuns (w : BitVec 16) : List (Bool × Nat) :=
  (List.range 16).flatMap fun b => [(w.getLsbD (15 - b), 1), (!w.getLsbD (15 - b), 1)]

theorem rc6Leader_runs (toggle : Bool) (len : Nat) :
    rc6Leader toggle len = (rc6LeaderRuns toggle).map (levelOf len) := by
  cases toggle <;> simp [rc6Leader, rc6LeaderRuns, levelOf]

theorem rc6Payload_runs (w : BitVec 16) (len : Nat) :
    rc6Payload w len = (rc6PayloadRuns w).map (levelOf len) := by
  unfold rc6Payload rc6PayloadRuns
  have h : ∀ b, (w &&& ((1 : BitVec 16) <<< (15 - b)) != 0#16) = w.getLsbD (15 - b) :=
    fun b => rc5_mask w _ (by omega)
  rw [List.map_flatMap]
  congr 1
  funext b
  rw [h b]
  cases w.getLsbD (15 - b) <;> simp [levelOf]

theorem expand_append (a b : List (Bool × Nat)) : expand (a ++ b) = expand a ++ expand b := by
  simp [expand]

theorem rc6_expand (w : BitVec 16) (toggle : Bool) :
    expand (rc6LeaderRuns toggle ++ rc6PayloadRuns w ++ [(false, 6)]) =
      rc6LevelsMode 0 w toggle ++ List.replicate 6 false := by
  have hp : expand (rc6PayloadRuns w) =
      (List.range 16).flatMap fun i => [w.getLsbD (15 - i), !w.getLsbD (15 - i)] := by
    unfold expand rc6PayloadRuns
    rw [List.flatMap_assoc]
    rfl
  rw [expand_append, expand_append, hp]
  unfold rc6LevelsMode
  cases toggle <;> rfl

theorem rc6_bits (cmd : Rc6Command) :
    (cmd.addr.setWidth 16 <<< 8) ||| cmd.cmd.setWidth 16 = cmd.addr ++ cmd.cmd := by
  apply BitVec.eq_of_getLsbD_eq
  intro i hi
  rw [BitVec.getLsbD_or, BitVec.getLsbD_append, BitVec.getLsbD_shiftLeft]
  simp only [BitVec.getLsbD_setWidth]
  by_cases h : i < 8
  · simp [h, hi]
  · have : cmd.cmd.getLsbD i = false := BitVec.getLsbD_of_ge _ _ (by omega)
    simp [h, hi, this]
    omega

theorem rc6Encode_writes (len : Nat) (cmd : Rc6Command) :
    Writes (rc6Encode len cmd) (rc6Wave len (cmd.addr ++ cmd.cmd) cmd.toggle) := by
  apply writes_iff
  intro b
  unfold rc6Encode rc6Wave
  have h := rc6Encode_levels len (rc6LeaderRuns cmd.toggle ++ rc6PayloadRuns (cmd.addr ++ cmd.cmd) ++
    [(false, 6)]) (by
      intro r hr
      simp only [rc6LeaderRuns, rc6PayloadRuns, List.mem_append, List.mem_cons, List.mem_flatMap,
        List.not_mem_nil, or_false] at hr
      rcases hr with ((rfl | rfl | rfl | rfl | rfl | rfl | rfl | rfl | rfl | rfl | rfl | rfl) |
        ⟨_, _, rfl | rfl⟩) | rfl <;> simp) b 0 false 0
  rw [rc6_expand] at h
  have hm : manchesterWave len (edgesFrom false 0 (rc6LevelsMode 0 (cmd.addr ++ cmd.cmd) cmd.toggle ++
      List.replicate 6 false)) = (edgesFrom false 0 (rc6LevelsMode 0 (cmd.addr ++ cmd.cmd) cmd.toggle ++
      List.replicate 6 false)).map fun e => e.2 * len := by
    simp only [rc6LevelsMode, List.replicate_succ, List.cons_append]
    rw [edgesFrom, if_neg (by simp)]
    simp [manchesterWave]
  rw [hm, ← h, List.map_append, List.map_append, ← rc6Leader_runs, ← rc6Payload_runs, ← rc6_bits]
  simp only [Option.bind_eq_bind]
  rw [show levelOf len (false, 0) = .low 0 by simp [levelOf],
    show [(false, 6)].map (levelOf len) = [Level.low (6 * len)] by simp [levelOf]]
  generalize List.foldlM rc6EncodeLevel _ _ = x
  cases x <;> rfl

end Infrared
