import Verif.Model.ShapeCalls
/-!
# C128: every call of a shape ends in a result or in the documented shape error

The libraries and user classes are arbitrary (`World`): every theorem holds for whatever they return or raise.
-/
namespace Asyncz
namespace ShapeCalls
open Spec
variable {O : Type}

/-! ## Constructing -/

theorem caught_false {e : Exc} (h : caught e = false) : IsStop e := by
  cases e <;> simp_all [caught, IsStop]

theorem ends_stop {α : Type} {k : Kind} {e : Exc} (h : IsStop e) : EndsWith k (.error e : Res α) := Or.inr h

theorem trying_ends (w : World O) {t : O} (hn : w.hasName t = true) (r : Res O) : EndsWith .validation (trying w t r) := by
  cases r with
  | ok v => trivial
  | error e =>
    unfold trying
    by_cases hc : caught e = true
    · simp [hc, invalid, hn, EndsWith, IsKind]
    · simp only [hc]
      exact Or.inr (caught_false (by simpa using hc))

theorem base_ends (w : World O) {t v : O} (hn : w.hasName t = true) (hi : ∀ e, w.isInstance v t = .error e → IsStop e) :
    EndsWith .validation (baseConstruct w t v) := by
  unfold baseConstruct
  cases h : w.isInstance v t with
  | error e => exact Or.inr (hi e h)
  | ok b =>
    cases b with
    | true => trivial
    | false =>
      by_cases hm : w.isMapping v = true
      · simp only [hm]; exact trying_ends w hn _
      · simp [hm, invalid, hn, EndsWith, IsKind]

theorem class_ends (w : World O) (known : Bool) {t v : O} (hn : w.hasName t = true)
    (hi : ∀ e, w.isInstance v t = .error e → IsStop e) : EndsWith .validation (classConstruct w known t v) := by
  unfold classConstruct
  cases known with
  | false => exact base_ends w hn hi
  | true =>
    cases h : w.isInstance v t with
    | error e => exact ends_stop (hi e h)
    | ok b =>
      cases b with
      | true => trivial
      | false =>
        by_cases hm : w.isMapping v = true
        · simp only [hm]; exact trying_ends w hn _
        · simp only [hm]; exact base_ends w hn hi

/-- **C128 (constructing and validating), part.**  Whatever the libraries and the constructor of the class do, `construct` and
`validate` of every shape whose library is installed give a result, raise a `ShapeValidationError`, or are stopped.  Not
covered are model types with which `isinstance` fails and types without a name: `C128_type_witness`, `C128_name_witness`. -/
theorem C128_construct_partial (w : World O) (s : Shape) (t v : O) (hs : w.installed s = true) (hn : w.hasName t = true)
    (hi : ∀ e, w.isInstance v t = .error e → IsStop e) :
    EndsWith .validation (construct w s t v) ∧ EndsWith .validation (validate w s t v) := by
  suffices h : EndsWith .validation (construct w s t v) from ⟨h, h⟩
  unfold construct
  cases s with
  | pydantic =>
    cases h : w.isInstance v t with
    | error e => exact ends_stop (hi e h)
    | ok b =>
      cases b with
      | true => trivial
      | false =>
        by_cases hm : supports w .pydantic t = true
        · simp only [hm]; exact trying_ends w hn _
        · simp only [hm]; exact base_ends w hn hi
  | dataclass => exact class_ends w _ hn hi
  | attrs => simp only [hs]; exact class_ends w _ hn hi
  | msgspec =>
    simp only [hs]
    by_cases hm : supports w .msgspec t = true
    · simp only [hm]
      cases h : w.isInstance v t with
      | error e => exact ends_stop (hi e h)
      | ok b =>
        cases b with
        | true => trivial
        | false => exact trying_ends w hn _
    · simp only [hm]; exact base_ends w hn hi
  | any =>
    by_cases ha : w.isAny t = true
    · simp only [ha]; trivial
    · simp only [ha]
      cases h : w.isInstance v t with
      | error e => exact ends_stop (hi e h)
      | ok b =>
        cases b with
        | true => trivial
        | false =>
          by_cases hm : w.isMapping v = true
          · simp only [hm]; exact trying_ends w hn _
          · simp only [hm]; exact trying_ends w hn _

/-- **C128 (restoring), part.**  `load` gives a result, raises a `ShapeDeserializationError` or is stopped, under the same
conditions. -/
theorem C128_load_partial (w : World O) (s : Shape) (t v : O) (hs : w.installed s = true) (hn : w.hasName t = true)
    (hi : ∀ e, w.isInstance v t = .error e → IsStop e) : EndsWith .deserialization (load w s t v) := by
  have h := (C128_construct_partial w s t v hs hn hi).1
  unfold load
  cases hc : construct w s t v with
  | ok x => trivial
  | error e =>
    rw [hc] at h
    cases e <;> simp_all [EndsWith, IsKind, IsStop, isValidation]

/-- `load` succeeds with what `construct` gives, and fails exactly if `construct` fails; the validation error is the cause. -/
theorem C128_load (w : World O) (s : Shape) (t v : O) :
    (∀ x, load w s t v = .ok x ↔ construct w s t v = .ok x) ∧
    (∀ e, construct w s t v = .error e → IsKind .validation e → load w s t v = .error (.shapeFrom .deserialization e)) ∧
    (∀ e, construct w s t v = .error e → ¬ IsKind .validation e → load w s t v = .error e) := by
  unfold load
  cases construct w s t v with
  | ok x => simp
  | error e =>
    refine ⟨fun x => ?_, fun e' he hk => ?_, fun e' he hk => ?_⟩
    · by_cases hv : isValidation e = true <;> simp [hv]
    · cases he
      cases e <;> simp_all [IsKind, isValidation]
    · cases he
      cases e with
      | shape k => cases k <;> simp_all [IsKind, isValidation]
      | shapeFrom k c => cases k <;> simp_all [IsKind, isValidation]
      | _ => simp [isValidation]

/-- **C128 (instances).**  Every shape whose library is installed gives an instance of the class back as it is, and so do
`validate` and `load`. -/
theorem C128_instance (w : World O) (s : Shape) (t v : O) (hs : w.installed s = true) (h : w.isInstance v t = .ok true) :
    construct w s t v = .ok v ∧ validate w s t v = .ok v ∧ load w s t v = .ok v := by
  suffices hc : construct w s t v = .ok v from ⟨hc, hc, by rw [load, hc]⟩
  have hb : baseConstruct w t v = .ok v := by rw [baseConstruct, h]
  cases s with
  | pydantic => simp [construct, h]
  | dataclass =>
    by_cases hr : w.recognises .dataclass t = true <;> simp [construct, classConstruct, hr, h, hb]
  | attrs => by_cases hr : w.recognises .attrs t = true <;> simp [construct, classConstruct, hs, hr, h, hb]
  | msgspec => by_cases hr : supports w .msgspec t = true <;> simp [construct, hs, hr, h, hb]
  | any => by_cases hr : w.isAny t = true <;> simp [construct, hr, h]

theorem trying_ok {w : World O} {t x : O} {r : Res O} (h : trying w t r = .ok x) : r = .ok x := by
  cases r with
  | ok v => simpa [trying] using h
  | error e => by_cases hc : caught e = true <;> simp [trying, hc] at h

theorem trying_cause {w : World O} {t : O} {r : Res O} {e : Exc} (h : trying w t r = .error (.shapeFrom .validation e)) :
    r = .error e := by
  cases r with
  | ok v => simp [trying] at h
  | error e' =>
    by_cases hc : caught e' = true
    · by_cases hn : w.hasName t = true <;> simp [trying, hc, invalid, hn] at h
      rw [h]
    · simp [trying, hc] at h
      subst h
      simp [caught] at hc

theorem base_ok {w : World O} {t v x : O} (h : baseConstruct w t v = .ok x) :
    (x = v ∧ w.isInstance v t = .ok true) ∨ w.callKw t v = .ok x := by
  unfold baseConstruct at h
  cases hi : w.isInstance v t with
  | error e => rw [hi] at h; simp at h
  | ok b =>
    rw [hi] at h
    cases b with
    | true => exact Or.inl ⟨by simpa using h.symm, rfl⟩
    | false =>
      by_cases hm : w.isMapping v = true
      · simp only [hm] at h; exact Or.inr (trying_ok h)
      · simp [hm] at h

theorem base_cause {w : World O} {t v : O} {e : Exc} (h : baseConstruct w t v = .error (.shapeFrom .validation e)) :
    w.isInstance v t = .error (.shapeFrom .validation e) ∨ w.callKw t v = .error e := by
  unfold baseConstruct at h
  cases hi : w.isInstance v t with
  | error e' => rw [hi] at h; simp at h; exact Or.inl (by rw [h])
  | ok b =>
    rw [hi] at h
    cases b with
    | true => simp at h
    | false =>
      by_cases hm : w.isMapping v = true
      · simp only [hm] at h; exact Or.inr (trying_cause h)
      · by_cases hn : w.hasName t = true <;> simp [hm, invalid, hn] at h

theorem class_ok {w : World O} {k : Bool} {t v x : O} (h : classConstruct w k t v = .ok x) :
    (x = v ∧ w.isInstance v t = .ok true) ∨ w.callKw t v = .ok x := by
  unfold classConstruct at h
  cases k with
  | false => exact base_ok h
  | true =>
    cases hi : w.isInstance v t with
    | error e => rw [hi] at h; simp at h
    | ok b =>
      rw [hi] at h
      cases b with
      | true => exact Or.inl ⟨by simpa using h.symm, rfl⟩
      | false =>
        by_cases hm : w.isMapping v = true
        · simp only [hm] at h; exact Or.inr (trying_ok h)
        · simp only [hm] at h
          have := base_ok h
          rw [hi] at this
          exact this

theorem class_cause {w : World O} {k : Bool} {t v : O} {e : Exc}
    (h : classConstruct w k t v = .error (.shapeFrom .validation e)) :
    w.isInstance v t = .error (.shapeFrom .validation e) ∨ w.callKw t v = .error e := by
  unfold classConstruct at h
  cases k with
  | false => exact base_cause h
  | true =>
    cases hi : w.isInstance v t with
    | error e' => rw [hi] at h; simp at h; exact Or.inl (by rw [h])
    | ok b =>
      rw [hi] at h
      cases b with
      | true => simp at h
      | false =>
        by_cases hm : w.isMapping v = true
        · simp only [hm] at h; exact Or.inr (trying_cause h)
        · simp only [hm] at h
          have := base_cause h
          rw [hi] at this
          exact this

/-- **C128 (results).**  A shape gives nothing it has made up: the result of `construct` is the given value, if that is an
instance (or `AnyShape` is asked for anything), or what the class or the validator of the shape's own library made of the
given value. -/
theorem C128_result (w : World O) (s : Shape) (t v x : O) (h : construct w s t v = .ok x) :
    (x = v ∧ (w.isInstance v t = .ok true ∨ (s = .any ∧ w.isAny t = true))) ∨
    w.callKw t v = .ok x ∨
    (s = .pydantic ∧ w.modelValidate t v = .ok x) ∨
    (s = .msgspec ∧ w.convert t v = .ok x) ∨
    (s = .any ∧ w.callOne t v = .ok x) := by
  have lift : ((x = v ∧ w.isInstance v t = .ok true) ∨ w.callKw t v = .ok x) →
    ((x = v ∧ (w.isInstance v t = .ok true ∨ (s = .any ∧ w.isAny t = true))) ∨
    w.callKw t v = .ok x ∨
    (s = .pydantic ∧ w.modelValidate t v = .ok x) ∨
    (s = .msgspec ∧ w.convert t v = .ok x) ∨
    (s = .any ∧ w.callOne t v = .ok x)) := fun H =>
    H.elim (fun a => Or.inl ⟨a.1, Or.inl a.2⟩) (fun a => Or.inr (Or.inl a))
  cases s with
  | pydantic =>
    unfold construct at h
    cases hi : w.isInstance v t with
    | error e => simp [hi] at h
    | ok b =>
      cases b with
      | true => simp only [hi] at h; exact Or.inl ⟨by simpa using h.symm, Or.inl rfl⟩
      | false =>
        by_cases hm : supports w .pydantic t = true
        · simp only [hi, hm] at h; exact Or.inr (Or.inr (Or.inl ⟨rfl, trying_ok h⟩))
        · simp only [hi, hm] at h
          have := lift (base_ok h)
          rw [hi] at this
          exact this
  | dataclass => exact lift (class_ok h)
  | attrs =>
    by_cases hs : w.installed .attrs = true
    · simp only [construct, hs] at h; exact lift (class_ok h)
    · simp [construct, hs] at h
  | msgspec =>
    by_cases hs : w.installed .msgspec = true
    · simp only [construct, hs] at h
      by_cases hm : supports w .msgspec t = true
      · simp only [hm] at h
        cases hi : w.isInstance v t with
        | error e => simp [hi] at h
        | ok b =>
          cases b with
          | true => simp [hi] at h; exact Or.inl ⟨h.symm, Or.inl rfl⟩
          | false =>
            simp only [hi] at h
            exact Or.inr (Or.inr (Or.inr (Or.inl ⟨rfl, trying_ok h⟩)))
      · simp only [hm] at h; exact lift (base_ok h)
    · simp [construct, hs] at h
  | any =>
    by_cases ha : w.isAny t = true
    · simp [construct, ha] at h; exact Or.inl ⟨h.symm, Or.inr ⟨rfl, ha⟩⟩
    · simp only [construct, ha] at h
      cases hi : w.isInstance v t with
      | error e => simp [hi] at h
      | ok b =>
        cases b with
        | true => simp [hi] at h; exact Or.inl ⟨h.symm, Or.inl rfl⟩
        | false =>
          by_cases hm : w.isMapping v = true
          · simp [hi, hm] at h; exact Or.inr (Or.inl (trying_ok h))
          · simp [hi, hm] at h; exact Or.inr (Or.inr (Or.inr (Or.inr ⟨rfl, trying_ok h⟩)))

/-- **C128 (cause).**  The error attached to a validation error of `construct` is the one the class or the shape's own library
raised on the given value. -/
theorem C128_cause (w : World O) (s : Shape) (t v : O) (e : Exc)
    (hi : w.isInstance v t ≠ .error (.shapeFrom .validation e))
    (h : construct w s t v = .error (.shapeFrom .validation e)) :
    w.callKw t v = .error e ∨
    (s = .pydantic ∧ w.modelValidate t v = .error e) ∨
    (s = .msgspec ∧ w.convert t v = .error e) ∨
    (s = .any ∧ w.callOne t v = .error e) := by
  have lift : (w.isInstance v t = .error (.shapeFrom .validation e) ∨ w.callKw t v = .error e) →
    (w.callKw t v = .error e ∨
    (s = .pydantic ∧ w.modelValidate t v = .error e) ∨
    (s = .msgspec ∧ w.convert t v = .error e) ∨
    (s = .any ∧ w.callOne t v = .error e)) := fun H =>
    H.elim (fun a => absurd a hi) (fun a => Or.inl a)
  cases s with
  | pydantic =>
    unfold construct at h
    cases hb : w.isInstance v t with
    | error e' => simp [hb] at h; subst h; exact absurd hb hi
    | ok b =>
      cases b with
      | true => simp [hb] at h
      | false =>
        by_cases hm : supports w .pydantic t = true
        · simp only [hb, hm] at h; exact Or.inr (Or.inl ⟨rfl, trying_cause h⟩)
        · simp only [hb, hm] at h; exact lift (base_cause h)
  | dataclass => exact lift (class_cause h)
  | attrs =>
    by_cases hs : w.installed .attrs = true
    · simp only [construct, hs] at h; exact lift (class_cause h)
    · simp [construct, hs] at h
  | msgspec =>
    by_cases hs : w.installed .msgspec = true
    · simp only [construct, hs] at h
      by_cases hm : supports w .msgspec t = true
      · simp only [hm] at h
        cases hb : w.isInstance v t with
        | error e' => simp [hb] at h; subst h; exact absurd hb hi
        | ok b =>
          cases b with
          | true => simp [hb] at h
          | false =>
            simp only [hb] at h
            exact Or.inr (Or.inr (Or.inl ⟨rfl, trying_cause h⟩))
      · simp only [hm] at h; exact lift (base_cause h)
    · simp [construct, hs] at h
  | any =>
    by_cases ha : w.isAny t = true
    · simp [construct, ha] at h
    · simp only [construct, ha] at h
      cases hb : w.isInstance v t with
      | error e' => simp [hb] at h; subst h; exact absurd hb hi
      | ok b =>
        cases b with
        | true => simp [hb] at h
        | false =>
          by_cases hm : w.isMapping v = true
          · simp [hb, hm] at h; exact Or.inl (trying_cause h)
          · simp [hb, hm] at h; exact Or.inr (Or.inr (Or.inr ⟨rfl, trying_cause h⟩))

/-- **C128 (own library).**  A class the shape knows is constructed by its own library: `model_validate` and `convert` for
every value that is no instance, the constructor for mappings of dataclasses and attrs classes; its result is the result, its
error the cause of a validation error, and a request to stop passes through. -/
theorem C128_library (w : World O) (s : Shape) (t v : O) (hs : w.installed s = true) (hk : w.recognises s t = true)
    (hn : w.hasName t = true) (hi : w.isInstance v t = .ok false) (ha : s = .any → w.isAny t = false)
    (hm : (s = .dataclass ∨ s = .attrs) → w.isMapping v = true) :
    ∃ r : Res O,
      r = (match s with
        | .pydantic => w.modelValidate t v
        | .msgspec => w.convert t v
        | .any => if w.isMapping v then w.callKw t v else w.callOne t v
        | _ => w.callKw t v) ∧
      (∀ x, r = .ok x → construct w s t v = .ok x) ∧
      (∀ c, r = .error (.stop c) → construct w s t v = .error (.stop c)) ∧
      (∀ e, r = .error e → ¬ IsStop e → construct w s t v = .error (.shapeFrom .validation e)) := by
  have key : ∀ r : Res O, construct w s t v = trying w t r →
      (∀ x, r = .ok x → construct w s t v = .ok x) ∧
      (∀ c, r = .error (.stop c) → construct w s t v = .error (.stop c)) ∧
      (∀ e, r = .error e → ¬ IsStop e → construct w s t v = .error (.shapeFrom .validation e)) := by
    intro r hr
    rw [hr]
    refine ⟨fun x hx => by rw [hx]; rfl, fun c hc => by rw [hc]; simp [trying, caught], fun e he hne => ?_⟩
    rw [he]
    cases e <;> simp_all [trying, caught, invalid, IsStop]
  refine ⟨_, rfl, key _ ?_⟩
  cases s with
  | pydantic => simp [construct, hi, supports, hs, hk]
  | dataclass => simp [construct, classConstruct, hi, hk, hm]
  | attrs => simp [construct, classConstruct, hs, hi, hk, hm]
  | msgspec => simp [construct, hi, supports, hs, hk]
  | any => by_cases hv : w.isMapping v = true <;> simp [construct, hi, ha, hv]

/-! ## Dumping -/

theorem dumping_ends (r : Res O) : EndsWith .serialization (dumping r) := by
  cases r with
  | ok v => trivial
  | error e =>
    unfold dumping
    by_cases hc : caught e = true
    · simp [hc, EndsWith, IsKind]
    · simp only [hc]
      exact Or.inr (caught_false (by simpa using hc))

theorem dumpItems_ends (w : World O) (ex : Bool) : ∀ (items : List (String × O)),
    (∀ k x e, (k, x) ∈ items → w.dumpPlain ex x = .error e → IsStop e) →
    ∀ e, dumpItems w ex items = .error e → IsStop e
  | [], _, e, h => by simp [dumpItems] at h
  | (k, v) :: l, hp, e, h => by
    have ih := dumpItems_ends w ex l (fun k' x e' hx => hp k' x e' (List.mem_cons_of_mem _ hx))
    unfold dumpItems at h
    split at h
    · cases hd : w.dumpPlain ex v with
      | error e' =>
        simp only [hd] at h
        cases h
        exact hp k v _ (by simp) hd
      | ok d =>
        simp only [hd] at h
        cases hr : dumpItems w ex l with
        | error e' =>
          rw [hr] at h
          cases h
          exact ih _ hr
        | ok r => rw [hr] at h; cases h
    · exact ih e h

/-- **C128 (dumping).**  `dump` of `DataclassShape`, `MsgspecShape` and `AnyShape` gives a result, raises a
`ShapeSerializationError`, or is stopped, for every object and whatever the libraries do. -/
theorem C128_dump (w : World O) (s : Shape) (mode : Option String) (ex : Bool) (v : O) (hs : w.installed s = true)
    (hp : s ≠ .pydantic) (ha : s ≠ .attrs) : EndsWith .serialization (dump w s mode ex v) := by
  cases s with
  | pydantic => exact absurd rfl hp
  | attrs => exact absurd rfl ha
  | dataclass => exact dumping_ends _
  | any => exact dumping_ends _
  | msgspec =>
    simp only [dump, hs]
    by_cases hm : supports w .msgspec v = true
    · simp only [hm]; exact dumping_ends _
    · simp only [hm]; exact dumping_ends _

/-- **C128, the mode.**  No mode and an empty one mean "python"; a Pydantic model is dumped in the given mode, or, if its library
does not know modes, as it is. -/
theorem C128_dump_mode (w : World O) (ex : Bool) (v : O) (h : w.hasModelDump v = true) :
    dump w .pydantic none ex v = dump w .pydantic (some "python") ex v ∧
    dump w .pydantic (some "") ex v = dump w .pydantic (some "python") ex v ∧
    ∀ m d, m ≠ "" → dump w .pydantic (some m) ex v = .ok d →
      w.modelDumpMode m ex v = .ok d ∨ (w.modelDumpMode m ex v = .error (.raw "TypeError") ∧ w.modelDump ex v = .ok d) := by
  refine ⟨?_, ?_, ?_⟩
  · simp [dump, modeOf]
  · simp [dump, modeOf]
  · intro m d hm hd
    simp only [dump, h, if_true, modeOf, hm, if_false] at hd
    cases hx : w.modelDumpMode m ex v with
    | ok d' => rw [hx] at hd; cases hd; exact .inl rfl
    | error e =>
      rw [hx] at hd
      simp only at hd
      split at hd
      · rename_i ht
        refine .inr ⟨?_, hd⟩
        unfold isTypeError at ht
        split at ht
        · rfl
        · cases ht
      · split at hd <;> cases hd

/-- **C128 (dumping), part.**  `dump` of `PydanticShape` and `AttrsShape` ends so, too, if `model_dump` without a mode, the
attributes of the instance and the dump of each attribute do not fail: `C128_dump_witness`. -/
theorem C128_dump_partial (w : World O) (s : Shape) (mode : Option String) (ex : Bool) (v : O) (hs : w.installed s = true)
    (hm : s = .pydantic → ∀ e, w.modelDump ex v = .error e → IsStop e)
    (ha : s = .attrs → (∀ e, w.asdict v = .error e → IsStop e) ∧
      ∀ items, w.asdict v = .ok items → ∀ k x e, (k, x) ∈ items → w.dumpPlain ex x = .error e → IsStop e) :
    EndsWith .serialization (dump w s mode ex v) := by
  cases s with
  | pydantic =>
    by_cases hd : w.hasModelDump v = true
    · simp only [dump, hd]
      cases h : w.modelDumpMode (modeOf mode) ex v with
      | ok d => trivial
      | error e =>
        by_cases ht : isTypeError e = true
        · simp only [ht]
          cases h2 : w.modelDump ex v with
          | ok d => trivial
          | error e2 => exact Or.inr (hm rfl e2 h2)
        · by_cases hc : caught e = true
          · simp [ht, hc, EndsWith, IsKind]
          · simp only [ht, hc]
            exact Or.inr (caught_false (by simpa using hc))
    · simp only [dump, hd]; exact dumping_ends _
  | attrs =>
    simp only [dump, hs]
    by_cases hr : w.recognises .attrs v = true
    · simp only [hr]
      cases hd : w.asdict v with
      | error e => exact ends_stop ((ha rfl).1 e hd)
      | ok items =>
        cases hi : dumpItems w ex items with
        | error e =>
          have := dumpItems_ends w ex items ((ha rfl).2 items hd) e hi
          simpa [hi, Except.map, EndsWith] using (Or.inr this : IsKind .serialization e ∨ IsStop e)
        | ok l => simp [hi, Except.map, EndsWith]
    · simp only [hr]; exact dumping_ends _
  | dataclass => exact dumping_ends _
  | any => exact dumping_ends _
  | msgspec => exact C128_dump w .msgspec mode ex v hs (by simp) (by simp)

/-! ## Missing libraries -/

/-- **C128 (missing library).**  Without its library, every operation of `AttrsShape` and `MsgspecShape` that needs it raises a
`ShapeDependencyError`, whatever it is called with; `AttrsShape.schema` has no schemas with or without. -/
theorem C128_missing (w : World O) (s : Shape) (hs : s = .attrs ∨ s = .msgspec) (hm : w.installed s = false) (t v : O)
    (mode : Option String) (ex : Bool) :
    Raises .dependency (construct w s t v) ∧ Raises .dependency (validate w s t v) ∧ Raises .dependency (load w s t v) ∧
    Raises .dependency (dump w s mode ex v) ∧ Raises .dependency (fields w s t) ∧
    Raises (if s = .attrs then .capability else .dependency) (schema w s t) := by
  rcases hs with rfl | rfl <;>
    simp [construct, validate, load, dump, fields, schema, hm, Raises, IsKind, isValidation]

/-- The other libraries do not matter: the operations of a shape depend on the presence of its own library only; those of
`DataclassShape` and `AnyShape` on none. -/
theorem C128_own_dependency (w : World O) (s : Shape) (i : Shape → Bool)
    (hi : s = .dataclass ∨ s = .any ∨ i s = w.installed s) (t v : O) (mode : Option String) (ex : Bool) :
    construct { w with installed := i } s t v = construct w s t v ∧
    load { w with installed := i } s t v = load w s t v ∧
    dump { w with installed := i } s mode ex v = dump w s mode ex v ∧
    fields { w with installed := i } s t = fields w s t ∧
    schema { w with installed := i } s t = schema w s t := by
  have ht : ∀ r, trying { w with installed := i } t r = trying w t r := fun r => rfl
  have hb : baseConstruct { w with installed := i } t v = baseConstruct w t v := rfl
  have hcc : ∀ k, classConstruct { w with installed := i } k t v = classConstruct w k t v := fun k => rfl
  have hdi : ∀ l, dumpItems { w with installed := i } ex l = dumpItems w ex l := by
    intro l
    induction l with
    | nil => rfl
    | cons p l ih => obtain ⟨k, x⟩ := p; simp only [dumpItems, ih]
  have hf : ∀ hs f, field { w with installed := i } s hs f = field w s hs f := fun _ _ => rfl
  have hf' : ∀ hs, field { w with installed := i } s hs = field w s hs := fun hs => funext (hf hs)
  cases hr : w.recognises s t <;> cases s <;>
    simp_all [construct, load, dump, fields, schema, supports]

/-! ## Field metadata and schemas -/

/-- **C128 (fields).**  For a class the shape does not know, `fields` raises a `ShapeCapabilityError`, and `AnyShape.fields`
always does; for a class it knows, the fields are those of the library, by name and in order, with a field required exactly if
it has no default. -/
theorem C128_fields (w : World O) (s : Shape) (t : O) (hs : w.installed s = true) :
    (s = .any ∨ w.recognises s t = false → Raises .capability (fields w s t)) ∧
    (s ≠ .any → w.recognises s t = true → ∀ hints ls,
      (s = .dataclass → w.typeHints t = .ok hints) → w.libFields s t = .ok ls →
      (∀ f ∈ ls, f.required = true ↔ f.default = none ∧ f.factory = false) →
      ∃ fs, fields w s t = .ok fs ∧ fs.map Field.name = ls.map LibField.name ∧
        fs.map Field.required = ls.map (fun f => f.default.isNone && !f.factory)) := by
  constructor
  · intro h
    cases s <;> simp_all [fields, supports, Raises, IsKind]
  · intro ha hk hints ls hh hl hreq
    have hq : ∀ f ∈ ls, f.required = (f.default.isNone && !f.factory) := by
      intro f hf
      have := hreq f hf
      cases hd : f.default <;> cases hfac : f.factory <;> cases hr : f.required <;> simp_all
    cases s with
    | any => exact absurd rfl ha
    | dataclass =>
      refine ⟨_, by simp only [fields, hk, hh rfl, hl]; rfl, ?_, ?_⟩ <;> simp [Function.comp_def, field]
    | attrs =>
      refine ⟨_, by simp only [fields, hs, hk, hl]; rfl, ?_, ?_⟩ <;> simp [Function.comp_def, field]
    | pydantic =>
      refine ⟨_, by simp only [fields, supports, hs, hk, hl]; rfl, ?_, ?_⟩
      · simp [Function.comp_def, field]
      · simpa [Function.comp_def, field] using hq
    | msgspec =>
      refine ⟨_, by simp only [fields, supports, hs, hk, hl]; rfl, ?_, ?_⟩
      · simp [Function.comp_def, field]
      · simpa [Function.comp_def, field] using hq

/-- **C128 (schemas).**  `schema` is the library's schema for Pydantic models and Structs, and a `ShapeCapabilityError` for
everything else. -/
theorem C128_schema (w : World O) (s : Shape) (t : O) (hs : w.installed s = true) :
    ((s = .pydantic ∧ w.recognises s t = true ∧ w.hasSchema t = true) ∨ (s = .msgspec ∧ w.recognises s t = true) →
      schema w s t = w.librarySchema s t) ∧
    (¬ ((s = .pydantic ∧ w.recognises s t = true ∧ w.hasSchema t = true) ∨ (s = .msgspec ∧ w.recognises s t = true)) →
      Raises .capability (schema w s t)) := by
  cases s with
  | pydantic =>
    by_cases hr : w.recognises .pydantic t = true <;> by_cases hh : w.hasSchema t = true <;>
      simp_all [schema, supports, Raises, IsKind]
  | msgspec => by_cases hr : w.recognises .msgspec t = true <;> simp_all [schema, supports, Raises, IsKind]
  | _ => simp [schema, Raises, IsKind]

/-- **C128 (metadata), part.**  `fields` and `schema` give a result, raise a `ShapeCapabilityError` or are stopped, if the
library's own inspection does not fail: `C128_fields_witness`. -/
theorem C128_metadata_partial (w : World O) (s : Shape) (t : O) (hs : w.installed s = true)
    (hh : s = .dataclass → ∀ e, w.typeHints t = .error e → IsStop e) (hf : ∀ e, w.libFields s t = .error e → IsStop e)
    (hl : ∀ e, w.librarySchema s t = .error e → IsStop e) :
    EndsWith .capability (fields w s t) ∧ EndsWith .capability (schema w s t) := by
  have hmap : ∀ (g : LibField O → Field O), EndsWith .capability ((w.libFields s t).map (·.map g)) := by
    intro g
    cases h : w.libFields s t with
    | ok l => simp [Except.map, EndsWith]
    | error e => simpa [Except.map, EndsWith] using (Or.inr (hf e h) : IsKind .capability e ∨ IsStop e)
  have hcap : ∀ {β : Type}, EndsWith .capability (.error (.shape .capability) : Res β) := by
    intro β; simp [EndsWith, IsKind]
  have hsch : EndsWith .capability (w.librarySchema s t) := by
    cases h : w.librarySchema s t with
    | ok l => trivial
    | error e => exact Or.inr (hl e h)
  constructor
  · cases s with
    | any => exact hcap
    | pydantic =>
      by_cases hr : supports w .pydantic t = true
      · simp only [fields, hr]; exact hmap _
      · simp only [fields, hr]; exact hcap
    | msgspec =>
      by_cases hr : supports w .msgspec t = true
      · simp only [fields, hs, hr]; exact hmap _
      · simp only [fields, hs, hr]; exact hcap
    | attrs =>
      by_cases hr : w.recognises .attrs t = true
      · simp only [fields, hs, hr]; exact hmap _
      · simp only [fields, hs, hr]; exact hcap
    | dataclass =>
      by_cases hr : w.recognises .dataclass t = true
      · simp only [fields, hr]
        cases hty : w.typeHints t with
        | error e => simpa [EndsWith] using (Or.inr (hh rfl e hty) : IsKind .capability e ∨ IsStop e)
        | ok hints => simpa [hty] using hmap _
      · simp only [fields, hr]; exact hcap
  · cases s with
    | pydantic =>
      by_cases hr : (supports w .pydantic t && w.hasSchema t) = true
      · simp only [schema, hr]; exact hsch
      · simp only [schema, hr]; exact hcap
    | msgspec =>
      by_cases hr : supports w .msgspec t = true
      · simp only [schema, hs, hr]; exact hsch
      · simp only [schema, hs, hr]; exact hcap
    | _ => exact hcap

/-! ## A concrete world, and what the code does otherwise -/

namespace Witness

/-- Objects: 0 the class `Point`, 1 the type `Optional[Point]`, 2 a `Point`, 3 the mapping `{"x": 1}`, 4 the mapping
`{"y": 1}`, 5 the text `"x"`, 6 an alias `Point2` without a name, 7 a `Point` whose dump fails, 8 `None`, 9 anything else. -/
def world : World Nat where
  installed := fun s => s ≠ .msgspec
  recognises := fun _ t => t = 0 || t = 2 || t = 7
  isInstance := fun v t => if t = 1 then .error (.raw "TypeError") else .ok (t = 0 && (v = 2 || v = 7))
  isMapping := fun v => v = 3 || v = 4
  hasName := fun t => t ≠ 6
  isAny := fun _ => false
  callKw := fun _ v => if v = 3 then .ok 2 else .error (.raw "TypeError")
  callOne := fun _ _ => .error (.raw "TypeError")
  modelValidate := fun _ v => if v = 3 then .ok 2 else .error (.raw "ValidationError")
  convert := fun _ v => if v = 3 then .ok 2 else .error (.raw "msgspec.ValidationError")
  hasModelDump := fun v => v = 2 || v = 7
  modelDumpMode := fun _ _ v => if v = 2 then .ok 3 else .error (.raw "TypeError")
  modelDump := fun _ v => if v = 2 then .ok 3 else .error (.raw "TypeError")
  dumpPlain := fun _ v => if v = 7 then .error (.raw "RecursionError") else .ok v
  asdict := fun v => .ok [("x", v)]
  dict := fun _ => 3
  isNone := fun v => v = 8
  none := 8
  anyType := 9
  toBuiltins := fun v => .ok v
  libFields := fun s _ => .ok [⟨"x", 9, none, false, 9, s ≠ .attrs⟩]
  typeHints := fun _ => .error (.raw "NameError")
  hasSchema := fun _ => true
  librarySchema := fun _ _ => .ok 9

/-- A good mapping is constructed, a bad one is a validation error with the library's error, and an instance is itself. -/
example : construct world .pydantic 0 3 = .ok 2 ∧
    construct world .pydantic 0 4 = .error (.shapeFrom .validation (.raw "ValidationError")) ∧
    construct world .attrs 0 5 = .error (.shape .validation) ∧ construct world .dataclass 0 2 = .ok 2 ∧
    load world .any 0 5 = .error (.shapeFrom .deserialization (.shapeFrom .validation (.raw "TypeError"))) ∧
    construct world .msgspec 0 3 = .error (.shapeFrom .dependency (.raw "ImportError")) :=
  ⟨rfl, rfl, rfl, rfl, rfl, rfl⟩

/-- the conditions of the partial theorems hold of the class `Point` -/
example : world.installed .attrs = true ∧ world.hasName 0 = true ∧ ∀ e, world.isInstance 4 0 = .error e → IsStop e := by
  refine ⟨rfl, rfl, fun e h => ?_⟩
  simp [world] at h

example : EndsWith .validation (construct world .attrs 0 4) :=
  (C128_construct_partial world .attrs 0 4 rfl rfl (fun e h => by simp [world] at h)).1

/-- **C128 fails for types that are no classes.**  Asked for `Optional[Point]`, `isinstance` raises a `TypeError` outside the
`try`, and the shapes raise it instead of a validation error; `load` does not translate it either. -/
theorem C128_type_witness (s : Shape) (hs : s ≠ .msgspec) (v : Nat) :
    construct world s 1 v = .error (.raw "TypeError") ∧ load world s 1 v = .error (.raw "TypeError") := by
  have hc : construct world s 1 v = .error (.raw "TypeError") := by
    cases s with
    | msgspec => exact absurd rfl hs
    | _ => simp [construct, classConstruct, baseConstruct, world]
  exact ⟨hc, by rw [load, hc]; rfl⟩

/-- **C128 fails for types without a name**: a value that does not fit raises an `AttributeError` while the message is
written. -/
theorem C128_name_witness : construct world .pydantic 6 4 = .error (.raw "AttributeError") ∧
    load world .any 6 5 = .error (.raw "AttributeError") := ⟨rfl, rfl⟩

/-- **C128 fails for dumps**: `PydanticShape.dump` tries again after a `TypeError` and lets the second one through, and
`AttrsShape.dump` lets errors of the attributes through. -/
theorem C128_dump_witness : dump world .pydantic none false 7 = .error (.raw "TypeError") ∧
    dump world .attrs none false 7 = .error (.raw "RecursionError") ∧
    dump world .any none false 7 = .error (.shapeFrom .serialization (.raw "RecursionError")) := ⟨rfl, rfl, rfl⟩

/-- **C128 fails for field metadata**: an annotation that cannot be resolved makes `DataclassShape.fields` raise a
`NameError`. -/
theorem C128_fields_witness : fields world .dataclass 0 = .error (.raw "NameError") := rfl

/-- a model that can be dumped in the mode asked for, and one that cannot -/
example : world.hasModelDump 2 = true ∧ dump world .pydantic (some "json") false 2 = .ok 3 ∧
    dump world .pydantic (some "") false 2 = dump world .pydantic none false 2 := ⟨rfl, rfl, rfl⟩

end Witness
end ShapeCalls
end Asyncz
