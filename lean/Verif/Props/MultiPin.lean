import Verif.Model.Buffers
import Verif.Props.Room

/-!
# `MultiReceiver` on a pin whose reads may fail (C37, C60)
-/

namespace Infrared

open Spec

variable {E : Type}

/-- What a pin-driven receiver returns, given what the plain one returns for the successful reads. -/
def Spec.pinFill {A : Type} : List (Except E Bool) → List A → List (Except E A)
  | [], _ => []
  | .error e :: cs, as => .error e :: pinFill cs as
  | .ok _ :: _, [] => []
  | .ok _ :: cs, a :: as => .ok a :: pinFill cs as

/-- `MultiReceiver::event` (`receiver/multi.rs:50-53`) called once for each pin read and duration. -/
def multiPinRun : List Slot → List (Except E Bool × Nat) →
    Option (List Slot × List (Except E (List (Option AnyCommand))))
  | ss, [] => some (ss, [])
  | ss, c :: cs =>
    match multiEventPin ss c.1 c.2 with
    | none => none
    | some (ss', r) =>
      match multiPinRun ss' cs with
      | none => none
      | some (ss'', rs) => some (ss'', r :: rs)

/-- `MultiReceiver::event_iter` (`receiver/multi.rs:55-61`) called once for each pin read and
duration. -/
def multiPinIterRun : List Slot → List (Except E Bool × Nat) →
    Option (List (Except E (List AnyCommand)))
  | _, [] => some []
  | ss, c :: cs =>
    match multiEventIterPin ss c.1 c.2 with
    | none => none
    | some (ss', r) => (multiPinIterRun ss' cs).map (r :: ·)

/-- **C37** for `MultiReceiver::event`: a failed read of the pin is reported and has no other effect;
the other calls give what `event_generic` gives for them alone. -/
theorem C37_multi_pin (ss : List Slot) (calls : List (Except E Bool × Nat)) :
    multiPinRun ss calls =
      (multiRun ss (readable calls)).map fun p => (p.1, pinFill (calls.map Prod.fst) p.2) := by
  induction calls generalizing ss with
  | nil => rfl
  | cons c cs ih =>
    obtain ⟨e | b, dt⟩ := c
    · simp only [multiPinRun, multiEventPin, ih, readable, List.map_cons]
      rcases multiRun ss (readable cs) with _ | p <;> rfl
    · simp only [multiPinRun, multiEventPin, ih, readable, List.map_cons, multiRun]
      rcases multiEvent ss dt b with _ | rs
      · rfl
      · simp only [Option.bind_eq_bind, Option.bind_some, ih]
        rcases multiRun (rs.map Prod.fst) (readable cs) with _ | p <;> rfl

/-- **C37** for `MultiReceiver::event_iter`: the same with the commands instead of the slots. -/
theorem C37_multi_pin_iter (ss : List Slot) (calls : List (Except E Bool × Nat)) :
    multiPinIterRun ss calls =
      (multiRun ss (readable calls)).map fun p =>
        pinFill (calls.map Prod.fst) (p.2.map (List.filterMap id)) := by
  induction calls generalizing ss with
  | nil => rfl
  | cons c cs ih =>
    obtain ⟨e | b, dt⟩ := c
    · simp only [multiPinIterRun, multiEventIterPin, multiEventPin, Option.bind_eq_bind, Option.bind_some,
        ih, readable, List.map_cons]
      rcases multiRun ss (readable cs) with _ | p <;> rfl
    · simp only [multiPinIterRun, multiEventIterPin, multiEventPin, readable, List.map_cons, multiRun]
      rcases multiEvent ss dt b with _ | rs
      · rfl
      · simp only [Option.bind_eq_bind, Option.bind_some, ih]
        rcases multiRun (rs.map Prod.fst) (readable cs) with _ | p <;> rfl

/-- The commands and pin errors of a run of `event_iter`. -/
def Spec.heardOnPin : List (Except E (List AnyCommand)) → List AnyCommand × List E
  | [] => ([], [])
  | .error e :: rs => ((heardOnPin rs).1, e :: (heardOnPin rs).2)
  | .ok cs :: rs => (cs ++ (heardOnPin rs).1, (heardOnPin rs).2)

/-- The errors of the failed reads. -/
def Spec.failures : List (Except E Bool × Nat) → List E
  | [] => []
  | (.error e, _) :: cs => e :: failures cs
  | (.ok _, _) :: cs => failures cs

theorem multiRun_length : ∀ (ss : List Slot) (evs : List Ev) (p), multiRun ss evs = some p →
    p.2.length = evs.length := by
  intro ss evs
  induction evs generalizing ss with
  | nil => intro p h; cases h; rfl
  | cons e es ih =>
    intro p h
    simp only [multiRun] at h
    split at h
    · cases h
    · next rs _ =>
      split at h
      · cases h
      · next ss' outs hr =>
        cases h
        simp [ih _ _ hr]

theorem heardOnPin_fill (calls : List (Except E Bool × Nat)) (rows : List (List AnyCommand))
    (h : rows.length = (readable calls).length) :
    heardOnPin (pinFill (calls.map Prod.fst) rows) = (rows.flatMap id, failures calls) := by
  induction calls generalizing rows with
  | nil =>
    cases rows with
    | nil => rfl
    | cons r rs => simp [readable] at h
  | cons c cs ih =>
    obtain ⟨e | b, dt⟩ := c
    · simp only [List.map_cons, pinFill, heardOnPin, failures]
      rw [ih rows h]
    · cases rows with
      | nil => simp [readable] at h
      | cons r rs =>
        simp only [List.map_cons, pinFill, heardOnPin, failures]
        rw [ih rs (by simpa [readable] using h)]
        rfl

/-- **C60** for a `MultiReceiver` on a pin: reads of the pin may fail at any time between the edges;
their errors are returned, in order, and the commands are those of C60. -/
theorem C60_room_pin (t : Target) (hus : 16 ≤ t.usizeBits) (m : Mono)
    (hm : m = Mono.u32 ∨ m = Mono.u64) (f : Nat) (hlo : 20000 ≤ f) (hf : f < 2 ^ 32)
    (ks : List Listener) (msgs : List (Msg × List Ev))
    (hok : ∀ x ∈ msgs, Carries f x.1 x.2 ∧ Spaced f x.2) (hc : Compatible ks (msgs.map Prod.fst))
    (calls : List (Except E Bool × Nat)) (hcalls : readable calls = msgs.flatMap Prod.snd) :
    ((multiNew t m f ks).bind (multiPinIterRun · calls)).map heardOnPin =
      some (heard ks 0 (msgs.map Prod.fst), failures calls) := by
  have h := C60_room t hus m hm f hlo hf ks msgs hok hc
  rcases hn : multiNew t m f ks with _ | ss
  · rw [hn] at h; cases h
  · rw [hn, Option.bind_some, multiIterRun_eq, ← hcalls] at h
    rw [Option.bind_some, C37_multi_pin_iter]
    rcases hr : multiRun ss (readable calls) with _ | p
    · rw [hr] at h; cases h
    · rw [hr, Option.map_some, Option.some.injEq] at h
      simp only [Option.map_some, Option.some.injEq]
      rw [heardOnPin_fill _ _ (by rw [List.length_map, multiRun_length _ _ _ hr]),
        List.flatMap_map, ← h]
      rfl

/-- Non-vacuity: two failing reads during a NEC frame, for a `MultiReceiver` of two protocols. -/
example (t : Target) (hus : 16 ≤ t.usizeBits) :
    ((multiNew t Mono.u32 1000000 [.rc5, .nec]).bind (multiPinIterRun ·
        ((.ok true, 40000) :: (.error "low battery", 7) ::
          ((pulses (nominalNec 0xF708FB04)).map (fun e => (.ok e.1, e.2)) ++
            [(.error "loose wire", 1), (.ok false, 560)])))).map heardOnPin =
      some ([{ protocol := .nec, raw := 0, address := 4, command := 8, rep := false }],
        ["low battery", "loose wire"]) := by
  have h := C60_room_pin t hus Mono.u32 (.inl rfl) 1000000 (by decide) (by decide)
    [.rc5, .nec] [(.nec 0xF708FB04, onAir (.nec 0xF708FB04))] (by
      intro x hx
      simp only [List.mem_singleton] at hx
      subst hx
      exact onAir_carries _ (by intro w hw; cases hw)) (by intro h; simp at h)
    ((.ok true, 40000) :: (.error "low battery", 7) ::
          ((pulses (nominalNec 0xF708FB04)).map (fun e => (.ok e.1, e.2)) ++
            [(.error "loose wire", 1), (.ok false, 560)])) (by decide +kernel)
  refine h.trans (congrArg some ?_)
  decide +kernel

end Infrared
