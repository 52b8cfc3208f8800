import Verif.Spec.Settings
/-!
# C113: settings and the environment
-/
namespace Asyncz
namespace Settings
open Spec
variable {V : Type} {w : World V}

/-! ## Type hints -/

theorem foldlM_none {α β : Type} {f : β → α → Option β} {a : α} (ha : ∀ b, f b a = none) :
    ∀ (l : List α) (b : β), a ∈ l → l.foldlM f b = none := by
  intro l
  induction l with
  | nil => intro _ h; cases h
  | cons x l ih =>
    intro b h
    rw [List.foldlM_cons]
    rcases List.mem_cons.1 h with e | e
    · subst e; rw [ha]; rfl
    · cases hx : f b x with
      | none => rfl
      | some b' => exact ih b' e

/-- The annotation `dict[str, Any]` of `BaseSettings` cannot be evaluated: in its class body `dict` is a method. -/
theorem base_hint_fails (w : World V) (modl : String → Option Thing) : evalAnn w (base w modl) (.text "dict[str, Any]") = none := by
  have h1 : beforeBracket "dict[str, Any]" = "dict" := by decide +kernel
  have h2 : (isName "dict" && "dict[str, Any]".toList.contains '[') = true := by decide +kernel
  unfold evalAnn
  simp only [h1, h2, if_true]
  simp [base]

/-- So no class below `BaseSettings` has type hints other than the annotations of its own body. -/
theorem hints_own (w : World V) (modl : String → Option Thing) (c : Class V) (anc : List (Class V)) :
    safeHints w c (anc ++ [base w modl]) = c.annotations := by
  have : getTypeHints w (c :: (anc ++ [base w modl])) = none := by
    unfold getTypeHints
    refine foldlM_none (a := base w modl) (fun d => ?_) _ _ (by simp)
    refine foldlM_none (a := ("__type_hints__", .text "dict[str, Any]")) (fun d => ?_) _ _ (by simp [base])
    rw [base_hint_fails]; rfl
  unfold safeHints
  rw [this]

/-! ## Conversion -/

theorem takeWhile_spec : ∀ l : List Char, '[' ∉ l.takeWhile (· ≠ '[') ∧
    (l = l.takeWhile (· ≠ '[') ∨ ∃ r, l = l.takeWhile (· ≠ '[') ++ '[' :: r)
  | [] => ⟨by simp, .inl rfl⟩
  | c :: l => by
    obtain ⟨h1, h2⟩ := takeWhile_spec l
    by_cases hc : c = '['
    · subst hc; exact ⟨by simp, .inr ⟨l, by simp⟩⟩
    · have hcc : (decide (c ≠ '[')) = true := by simpa using hc
      rw [List.takeWhile_cons, if_pos hcc]
      refine ⟨fun hm => ?_, ?_⟩
      · rcases List.mem_cons.1 hm with e | e
        · exact hc e.symm
        · exact h1 e
      rcases h2 with e | ⟨r, e⟩
      · exact .inl (by rw [← e])
      · exact .inr ⟨r, by rw [List.cons_append, ← e]⟩

theorem takeWhile_unique : ∀ (l a : List Char), '[' ∉ a → (l = a ∨ ∃ r, l = a ++ '[' :: r) → l.takeWhile (· ≠ '[') = a
  | _, [], _, .inl h => by subst h; rfl
  | _, [], _, .inr ⟨r, h⟩ => by subst h; simp
  | _, c :: a, ha, h => by
    have hc : c ≠ '[' := fun e => ha (by simp [e])
    have ha' : '[' ∉ a := fun e => ha (by simp [e])
    have hcc : (decide (c ≠ '[')) = true := by simpa using hc
    rcases h with h | ⟨r, h⟩
    · subst h
      rw [List.takeWhile_cons, if_pos hcc, takeWhile_unique a a ha' (.inl rfl)]
    · subst h
      rw [List.cons_append, List.takeWhile_cons, if_pos hcc, takeWhile_unique (a ++ '[' :: r) a ha' (.inr ⟨r, rfl⟩)]

theorem names_iff (s n : String) : Names s n ↔ beforeBracket s = n := by
  have hto : ∀ a b : String, a = b ↔ a.toList = b.toList := fun a b => ⟨fun h => by rw [h], fun h => String.ext h⟩
  unfold Names beforeBracket
  constructor
  · intro h
    rw [hto, String.toList_ofList]
    rcases h with ⟨h1, h2⟩ | ⟨h1, h2⟩
    · exact takeWhile_unique _ _ h2 (.inl (by rw [h1]))
    · exact takeWhile_unique _ _ h1 (.inr h2)
  · intro h
    have h' : s.toList.takeWhile (· ≠ '[') = n.toList := by rw [← h, String.toList_ofList]
    obtain ⟨h1, h2⟩ := takeWhile_spec s.toList
    rw [h'] at h1 h2
    rcases h2 with e | e
    · exact .inl ⟨(hto _ _).2 e, h1⟩
    · exact .inr ⟨h1, e⟩

theorem truthy_iff (t : Text) : truthy.contains (w.lower t) = true ↔ IsTrue w t := by
  unfold IsTrue truthy
  simp

theorem castOne_bool (t : Text) (v : V) :
    some (w.bool (truthy.contains (w.lower t))) = some v ↔ Stands w (.cls "bool") t v := by
  constructor
  · intro h
    cases h
    cases hb : truthy.contains (w.lower t) with
    | true => exact .isTrue ((truthy_iff t).1 hb)
    | false => exact .isFalse fun h => by rw [(truthy_iff t).2 h] at hb; cases hb
  · intro h
    cases h with
    | isTrue h => rw [(truthy_iff t).2 h]
    | isFalse h =>
      have : truthy.contains (w.lower t) = false := by
        cases hb : truthy.contains (w.lower t) with
        | true => exact absurd ((truthy_iff t).1 hb) h
        | false => rfl
      rw [this]
    | cls hn _ => exact absurd rfl hn

theorem castOne_cls (n : String) (t : Text) (v : V) : castOne w t (.cls n) = some v ↔ Stands w (.cls n) t v := by
  by_cases hn : n = "bool"
  · subst hn
    simp only [castOne, if_true]
    exact castOne_bool t v
  · simp only [castOne, if_neg hn]
    constructor
    · exact .cls hn
    · intro h
      cases h with
      | isTrue _ => exact absurd rfl hn
      | isFalse _ => exact absurd rfl hn
      | cls _ h => exact h

/-- The other types of a union are exactly one class. -/
theorem nonNone_one : ∀ (ts : List Ty) (n : String), nonNone ts = [.cls n] ↔ (Ty.cls n ∈ ts ∧
    ∀ i j : Nat, (∃ u : Ty, ts[i]? = some u ∧ u ≠ .none) → (∃ u : Ty, ts[j]? = some u ∧ u ≠ .none) → i = j) := by
  have hnil : ∀ ts, nonNone ts = [] ↔ ∀ u ∈ ts, u = .none := by
    intro ts
    induction ts with
    | nil => simp [nonNone]
    | cons u ts ih => cases u <;> simp [nonNone, ih]
  have hcons : ∀ u ts, u ≠ .none → nonNone (u :: ts) = u :: nonNone ts := by
    intro u ts hu; cases u <;> first | rfl | exact absurd rfl hu
  intro ts
  induction ts with
  | nil => intro n; simp [nonNone]
  | cons u ts ih =>
    intro n
    by_cases hu : u = .none
    · subst hu
      rw [nonNone, ih n]
      constructor
      · rintro ⟨h1, h2⟩
        refine ⟨List.mem_cons_of_mem _ h1, fun i j hi hj => ?_⟩
        cases i with
        | zero => obtain ⟨u, h, hu⟩ := hi; simp at h; exact absurd h.symm hu
        | succ i =>
          cases j with
          | zero => obtain ⟨u, h, hu⟩ := hj; simp at h; exact absurd h.symm hu
          | succ j => rw [h2 i j (by simpa using hi) (by simpa using hj)]
      · rintro ⟨h1, h2⟩
        refine ⟨by simpa using h1, fun i j hi hj => ?_⟩
        have := h2 (i + 1) (j + 1) (by simpa using hi) (by simpa using hj)
        omega
    · rw [hcons u ts hu, List.cons.injEq, hnil]
      constructor
      · rintro ⟨rfl, h⟩
        refine ⟨by simp, fun i j hi hj => ?_⟩
        have hz : ∀ i : Nat, (∃ v : Ty, (Ty.cls n :: ts)[i]? = some v ∧ v ≠ .none) → i = 0 := by
          intro i ⟨v, hv, hne⟩
          cases i with
          | zero => rfl
          | succ i => exact absurd (h v (List.mem_of_getElem? (by simpa using hv))) hne
        rw [hz i hi, hz j hj]
      · rintro ⟨h1, h2⟩
        have hrest : ∀ v ∈ ts, v = .none := by
          intro v hv
          refine Classical.byContradiction fun hne => ?_
          obtain ⟨i, hi⟩ := List.mem_iff_getElem?.1 hv
          have := h2 0 (i + 1) ⟨u, by simp, hu⟩ ⟨v, by simpa using hi, hne⟩
          omega
        rcases List.mem_cons.1 h1 with e | e
        · exact ⟨e.symm, hrest⟩
        · exact absurd (hrest _ e) (by simp)

theorem castOne_simple {t : Text} {ty : Ty} {v : V} (h : castOne w t ty = some v) : (∃ n, ty = .cls n) ∨ ty = .unresolved "bool" := by
  cases ty with
  | cls n => exact .inl ⟨n, rfl⟩
  | unresolved s =>
    simp only [castOne] at h
    split at h
    · rename_i e; exact .inr (by rw [e])
    · cases h
  | _ => cases h

/-- no annotation is the unresolved text `bool`: `bool` is a builtin -/
def Real (ts : Ty) : Prop := match ts with
  | .unresolved _ => False
  | .union l => ∀ s, Ty.unresolved s ∉ l
  | _ => True

theorem cast_iff (t : Text) (ty : Ty) (hr : Real ty) (v : V) : cast w t ty = some v ↔ Stands w ty t v := by
  cases ty with
  | cls n => exact castOne_cls n t v
  | union ts =>
    constructor
    · intro h
      simp only [cast] at h
      split at h
      · rename_i ty hn
        rcases castOne_simple h with ⟨n, rfl⟩ | rfl
        · obtain ⟨h1, h2⟩ := (nonNone_one ts n).1 hn
          exact .optional h1 h2 ((castOne_cls n t v).1 h)
        · have hm : ∀ ts : List Ty, ∀ u ∈ nonNone ts, u ∈ ts := by
            intro ts
            induction ts with
            | nil => intro u h; cases h
            | cons x ts ih =>
              intro u h
              cases x <;> simp only [nonNone, List.mem_cons] at h <;>
                first
                | (rcases h with h | h
                   · subst h; simp
                   · exact List.mem_cons_of_mem _ (ih _ h))
                | exact List.mem_cons_of_mem _ (ih _ h)
          exact absurd (hm ts _ (by rw [hn]; simp)) (hr "bool")
      · cases h
    · intro h
      cases h with
      | optional hm hone h =>
        simp only [cast]
        rw [(nonNone_one ts _).2 ⟨hm, hone⟩]
        exact (castOne_cls _ t v).2 h
  | none => exact ⟨fun h => (by cases h), fun h => (by cases h)⟩
  | annotated t => exact ⟨fun h => (by cases h), fun h => (by cases h)⟩
  | unresolved s => exact absurd hr id
  | other => exact ⟨fun h => (by cases h), fun h => (by cases h)⟩

/-- The world is Python's: types that are bound to names or written out are types, and `bool` is a builtin. -/
structure Sane (w : World V) (c : Class V) : Prop where
  builtins : ∀ n ty, w.builtins n = some (.ty ty) → Real ty
  module : ∀ n ty, c.module n = some (.ty ty) → Real ty
  objects : ∀ k ty, (k, Ann.obj ty) ∈ c.annotations → Real ty ∧ ∀ t, ty = .annotated t → Real t
  bool : w.builtins "bool" = some (.ty (.cls "bool"))

theorem resolve_iff (w : World V) (c : Class V) (s : String) (x : Thing) :
    (c.module (beforeBracket s)).or (w.builtins (beforeBracket s)) = some x ↔ Bound w c (beforeBracket s) x := by
  unfold Bound
  cases c.module (beforeBracket s) <;> simp

theorem cast_extract {c : Class V} (hs : Sane w c) {k : String} {a : Ann} (ha : (k, a) ∈ c.annotations) (t : Text) (v : V) :
    cast w t (extract w c a) = some v ↔ Reads w c a t v := by
  cases a with
  | obj ty =>
    obtain ⟨h1, h2⟩ := hs.objects k ty ha
    by_cases hta : ∃ u, ty = .annotated u
    · obtain ⟨u, rfl⟩ := hta
      simp only [extract]
      rw [cast_iff t u (h2 u rfl) v]
      constructor
      · exact .annotated
      · intro h
        cases h with
        | obj h => cases h
        | annotated h => exact h
    · have : extract w c (.obj ty) = ty := by
        cases ty <;> first | rfl | exact absurd ⟨_, rfl⟩ hta
      rw [this, cast_iff t ty h1 v]
      constructor
      · exact .obj
      · intro h
        cases h with
        | obj h => exact h
        | annotated h => exact absurd ⟨_, rfl⟩ hta
  | text s =>
    have key : ∀ x, (c.module (beforeBracket s)).or (w.builtins (beforeBracket s)) = x →
        (cast w t (extract w c (.text s)) = some v ↔ ∃ ty, x = some (.ty ty) ∧ Stands w ty t v) := by
      intro x hx
      simp only [extract, resolveText, hx]
      match x, hx with
      | some (.ty ty), hx =>
        have hr : Real ty := by
          rcases (resolve_iff w c s _).1 hx with h | h
          · exact hs.module _ _ h
          · exact hs.builtins _ _ h.2
        show cast w t ty = some v ↔ _
        rw [cast_iff t ty hr v]
        constructor
        · intro h; exact ⟨ty, rfl, h⟩
        · rintro ⟨ty', e, h⟩; cases e; exact h
      | some .function, _ =>
        show castOne w t .other = some v ↔ _
        exact ⟨fun h => (by cases h), fun ⟨_, e, _⟩ => (by cases e)⟩
      | none, hx =>
        show cast w t (.unresolved s) = some v ↔ _
        have hb : s ≠ "bool" := by
          rintro rfl
          have : beforeBracket "bool" = "bool" := by decide +kernel
          rw [this, hs.bool] at hx
          cases hm : c.module "bool" <;> simp [hm] at hx
        simp only [cast, castOne, if_neg hb]
        exact ⟨fun h => (by cases h), fun ⟨_, e, _⟩ => (by cases e)⟩
    rw [key _ rfl]
    constructor
    · rintro ⟨ty, hb, h⟩
      exact .text ((names_iff s _).2 rfl) ((resolve_iff w c s _).1 hb) h
    · intro h
      cases h with
      | text hn hb h =>
        rw [names_iff] at hn
        subst hn
        exact ⟨_, (resolve_iff w c s _).2 hb, h⟩

/-! ## Construction -/

theorem classAttr_iff (cs : List (Class V)) (k : String) (v : V) : classAttr cs k = some v ↔ Default cs k v := by
  unfold classAttr
  induction cs with
  | nil => exact ⟨fun h => (by cases h), fun h => (by cases h)⟩
  | cons c cs ih =>
    rw [List.findSome?_cons]
    cases hc : c.defaults.get? k with
    | some u =>
      constructor
      · intro h; cases h; exact .here hc
      · intro h
        cases h with
        | here h => rw [hc] at h; exact h
        | above h _ => rw [hc] at h; cases h
    | none =>
      constructor
      · intro h; exact .above hc (ih.1 h)
      · intro h
        cases h with
        | here h => rw [hc] at h; cases h
        | above _ h => exact ih.2 h

theorem kwargs_spec (cs : List (Class V)) : ∀ (kw : Dict String V) (obj : Dict String V), kw.WF →
    (kw.foldlM (setKw cs) obj = none ↔ ∃ k ∈ kw.keys, ∃ c ∈ cs, k ∈ c.readOnly) ∧
    ∀ obj', kw.foldlM (setKw cs) obj = some obj' → ∀ k, obj'.get? k = (kw.get? k).or (obj.get? k) := by
  intro kw
  induction kw with
  | nil => intro obj _; exact ⟨by simp [Dict.keys], fun obj' h k => by cases h; simp [Dict.get?]⟩
  | cons p kw ih =>
    intro obj hw
    obtain ⟨k0, v0⟩ := p
    have hw' : k0 ∉ Dict.keys kw ∧ Dict.WF kw := by simpa [Dict.WF, Dict.keys] using hw
    rw [List.foldlM_cons]
    by_cases hr : ∃ c ∈ cs, k0 ∈ c.readOnly
    · have : setKw cs obj (k0, v0) = none := by
        unfold setKw; rw [if_pos]
        obtain ⟨c, h1, h2⟩ := hr
        exact List.any_eq_true.2 ⟨c, h1, by simpa using h2⟩
      rw [this]
      refine ⟨⟨fun _ => ⟨k0, by simp [Dict.keys], hr⟩, fun _ => rfl⟩, fun obj' h => by cases h⟩
    · have : setKw cs obj (k0, v0) = some (obj.set k0 v0) := by
        unfold setKw; rw [if_neg]
        intro h
        obtain ⟨c, h1, h2⟩ := List.any_eq_true.1 h
        exact hr ⟨c, h1, by simpa using h2⟩
      rw [this]
      obtain ⟨q1, q2⟩ := ih (obj.set k0 v0) hw'.2
      refine ⟨?_, ?_⟩
      · show List.foldlM _ _ _ = none ↔ _
        rw [q1]
        constructor
        · rintro ⟨k, h1, h2⟩; exact ⟨k, by simp only [Dict.keys, List.map_cons, List.mem_cons]; exact .inr h1, h2⟩
        · rintro ⟨k, h1, h2⟩
          simp only [Dict.keys, List.map_cons, List.mem_cons] at h1
          rcases h1 with rfl | h1
          · exact absurd h2 hr
          · exact ⟨k, h1, h2⟩
      · intro obj' h k
        rw [q2 obj' h k, Dict.get?_set]
        simp only [Dict.get?]
        by_cases hk : k0 = k
        · subst hk
          rw [(Dict.get?_eq_none _ _).2 hw'.1]; simp
        · have hk' : ¬ k = k0 := fun e => hk e.symm
          simp [hk, hk']

theorem load_spec (c : Class V) (mro : List (Class V)) : ∀ (hs : Dict String Ann) (obj : Dict String V), hs.WF →
    (hs.foldlM (loadOne w c mro) obj = none ↔ ∃ k a, (k, a) ∈ hs ∧ ∃ t, w.env (w.upper k) = some t ∧ cast w t (extract w c a) = none) ∧
    ∀ obj', hs.foldlM (loadOne w c mro) obj = some obj' →
      (∀ k, k ∉ hs.keys → obj'.get? k = obj.get? k) ∧
      ∀ k a, (k, a) ∈ hs → obj'.get? k = match w.env (w.upper k) with
        | some t => cast w t (extract w c a)
        | none => some (getAttr w (c :: mro) obj k) := by
  intro hs
  induction hs with
  | nil => intro obj _; exact ⟨by simp, fun obj' h => by cases h; exact ⟨fun _ _ => rfl, by simp⟩⟩
  | cons p hs ih =>
    intro obj hw
    obtain ⟨k0, a0⟩ := p
    have hw' : k0 ∉ Dict.keys hs ∧ Dict.WF hs := by simpa [Dict.WF, Dict.keys] using hw
    rw [List.foldlM_cons]
    have step : ∀ x, loadOne w c mro obj (k0, a0) = x →
        (x = none ↔ ∃ t, w.env (w.upper k0) = some t ∧ cast w t (extract w c a0) = none) ∧
        ∀ o, x = some o → ∃ v, o = obj.set k0 v ∧ some v = match w.env (w.upper k0) with
          | some t => cast w t (extract w c a0)
          | none => some (getAttr w (c :: mro) obj k0) := by
      intro x hx
      subst hx
      unfold loadOne
      cases he : w.env (w.upper k0) with
      | none =>
        refine ⟨⟨fun h => (by cases h), fun ⟨_, h, _⟩ => (by cases h)⟩, fun o h => ?_⟩
        simp only [Option.some.injEq] at h
        subst h
        exact ⟨_, rfl, rfl⟩
      | some t =>
        refine ⟨⟨fun h => ⟨t, rfl, by simpa using h⟩, fun ⟨t', h, h'⟩ => by cases h; simpa using h'⟩, fun o h => ?_⟩
        simp only [Option.map_eq_some_iff] at h
        obtain ⟨v, h1, h2⟩ := h
        subst h2
        exact ⟨v, rfl, h1.symm⟩
    obtain ⟨s1, s2⟩ := step _ rfl
    cases hl : loadOne w c mro obj (k0, a0) with
    | none =>
      refine ⟨⟨fun _ => ?_, fun _ => rfl⟩, fun obj' h => by cases h⟩
      exact ⟨k0, a0, by simp, s1.1 hl⟩
    | some o =>
      obtain ⟨v, rfl, hv⟩ := s2 o hl
      obtain ⟨q1, q2⟩ := ih (obj.set k0 v) hw'.2
      refine ⟨?_, ?_⟩
      · show List.foldlM _ _ _ = none ↔ _
        rw [q1]
        constructor
        · rintro ⟨k, a, h1, h2⟩; exact ⟨k, a, List.mem_cons_of_mem _ h1, h2⟩
        · rintro ⟨k, a, h1, h2⟩
          rcases List.mem_cons.1 h1 with e | e
          · cases e
            have := s1.2 h2
            rw [hl] at this; cases this
          · exact ⟨k, a, e, h2⟩
      · intro obj' h
        obtain ⟨r1, r2⟩ := q2 obj' h
        refine ⟨?_, ?_⟩
        · intro k hk
          simp only [Dict.keys, List.map_cons, List.mem_cons, not_or] at hk
          rw [r1 k hk.2, Dict.get?_set, if_neg hk.1]
        · intro k a hm
          rcases List.mem_cons.1 hm with e | e
          · cases e
            rw [r1 _ hw'.1, Dict.get?_set, if_pos rfl]
            exact hv
          · rw [r2 k a e]
            have hne : k ≠ k0 := by
              rintro rfl
              exact hw'.1 (Dict.mem_keys_of_mem e)
            simp only [getAttr, Dict.get?_set, if_neg hne]

/-- **C113, values.**  A settings object of a class below `BaseSettings` that was made: a setting annotated in the class
itself whose environment variable (the name in capitals) is set has the value that the text stands for, whatever was passed as
keyword argument; every other attribute has the value of the keyword argument, else of the class attribute, else `None`. -/
theorem C113_value_partial (w : World V) (modl : String → Option Thing) (c : Class V) (anc : List (Class V)) (kwargs obj : Dict String V)
    (hs : Sane w c) (ha : c.annotations.WF) (hk : kwargs.WF) (h : construct w c (anc ++ [base w modl]) kwargs = some obj) (k : String) :
    (∀ a t, (k, a) ∈ c.annotations → w.env (w.upper k) = some t →
      Reads w c a t (getAttr w (c :: (anc ++ [base w modl])) obj k)) ∧
    (k ∉ c.annotations.keys ∨ w.env (w.upper k) = none →
      Plain w (c :: (anc ++ [base w modl])) kwargs k (getAttr w (c :: (anc ++ [base w modl])) obj k)) := by
  unfold construct at h
  rw [hints_own] at h
  obtain ⟨o1, h1, h2⟩ := Option.bind_eq_some_iff.1 h
  have e1 := (kwargs_spec (c :: (anc ++ [base w modl])) kwargs [] hk).2 o1 h1
  obtain ⟨e2, e3⟩ := (load_spec (w := w) c (anc ++ [base w modl]) c.annotations o1 ha).2 obj h2
  have hplain : ∀ o : Dict String V, o.get? k = kwargs.get? k ∨ o.get? k = some (getAttr w (c :: (anc ++ [base w modl])) o1 k) →
      Plain w (c :: (anc ++ [base w modl])) kwargs k (getAttr w (c :: (anc ++ [base w modl])) o k) := by
    intro o ho
    have hone : Plain w (c :: (anc ++ [base w modl])) kwargs k (getAttr w (c :: (anc ++ [base w modl])) o1 k) := by
      unfold getAttr Plain
      rw [e1 k]
      cases hq : kwargs.get? k with
      | some v => exact .inl (by simp)
      | none =>
        refine .inr ?_
        cases hd : classAttr (c :: (anc ++ [base w modl])) k with
        | some v => exact .inl ⟨rfl, by simpa [Dict.get?] using (classAttr_iff _ k v).1 hd⟩
        | none =>
          refine .inr ⟨rfl, fun u hu => ?_, by simp [Dict.get?]⟩
          rw [(classAttr_iff _ k u).2 hu] at hd; cases hd
    rcases ho with ho | ho
    · have : getAttr w (c :: (anc ++ [base w modl])) o k = getAttr w (c :: (anc ++ [base w modl])) o1 k := by
        unfold getAttr
        rw [ho, e1 k]; simp [Dict.get?]
      rw [this]; exact hone
    · have : getAttr w (c :: (anc ++ [base w modl])) o k = getAttr w (c :: (anc ++ [base w modl])) o1 k := by
        conv => lhs; unfold getAttr
        rw [ho]; rfl
      rw [this]; exact hone
  refine ⟨?_, ?_⟩
  · intro a t hm he
    have hg := e3 k a hm
    rw [he] at hg
    cases hcv : cast w t (extract w c a) with
    | none =>
      exact absurd ((load_spec (w := w) c (anc ++ [base w modl]) c.annotations o1 ha).1.2 ⟨k, a, hm, t, he, hcv⟩) (by rw [h2]; simp)
    | some v =>
      have hgv : obj.get? k = some v := by rw [hg]; exact hcv
      have : getAttr w (c :: (anc ++ [base w modl])) obj k = v := by unfold getAttr; rw [hgv]; rfl
      rw [this]
      exact (cast_extract hs hm t v).1 hcv
  · intro hor
    by_cases hm : k ∈ c.annotations.keys
    · obtain ⟨⟨k', a⟩, hka, rfl⟩ := List.mem_map.1 hm
      rcases hor with hor | hor
      · exact absurd hm hor
      · have hg := e3 k' a hka
        simp only at hor
        rw [hor] at hg
        exact hplain obj (.inr hg)
    · refine hplain obj (.inl ?_)
      rw [e2 k hm, e1 k]; simp [Dict.get?]

/-- **C113, errors.**  Making the object raises exactly if a keyword argument names a read-only property, or the environment
variable of a setting annotated in the class itself holds a text that stands for no value of it. -/
theorem C113_raises (w : World V) (modl : String → Option Thing) (c : Class V) (anc : List (Class V)) (kwargs : Dict String V)
    (hs : Sane w c) (ha : c.annotations.WF) (hk : kwargs.WF) :
    construct w c (anc ++ [base w modl]) kwargs = none ↔
      (∃ k ∈ kwargs.keys, ∃ d ∈ c :: (anc ++ [base w modl]), k ∈ d.readOnly) ∨
      ∃ k a t, (k, a) ∈ c.annotations ∧ w.env (w.upper k) = some t ∧ ∀ v, ¬ Reads w c a t v := by
  unfold construct
  rw [hints_own]
  have e1 := (kwargs_spec (c :: (anc ++ [base w modl])) kwargs [] hk).1
  have hload := fun o1 => (load_spec (w := w) c (anc ++ [base w modl]) c.annotations o1 ha).1
  have hcast : ∀ o1 : Dict String V, (c.annotations.foldlM (loadOne w c (anc ++ [base w modl])) o1 = none) ↔
      ∃ k a t, (k, a) ∈ c.annotations ∧ w.env (w.upper k) = some t ∧ ∀ v, ¬ Reads w c a t v := by
    intro o1
    rw [hload o1]
    constructor
    · rintro ⟨k, a, hm, t, he, hc⟩
      refine ⟨k, a, t, hm, he, fun v hv => ?_⟩
      rw [(cast_extract hs hm t v).2 hv] at hc; cases hc
    · rintro ⟨k, a, t, hm, he, hv⟩
      refine ⟨k, a, hm, t, he, ?_⟩
      cases hc : cast w t (extract w c a) with
      | none => rfl
      | some v => exact absurd ((cast_extract hs hm t v).1 hc) (hv v)
  cases hq : kwargs.foldlM (setKw (c :: (anc ++ [base w modl]))) [] with
  | none => exact ⟨fun _ => .inl (e1.1 hq), fun _ => rfl⟩
  | some o1 =>
    show List.foldlM _ _ _ = none ↔ _
    rw [hcast o1]
    constructor
    · exact .inr
    · rintro (h | h)
      · have := e1.2 h
        rw [hq] at this; cases this
      · exact h

/-! ## Dumps -/

theorem foldl_set_get {V : Type} : ∀ (l : List (String × V)) (d : Dict String V), (l.map (·.1)).Nodup →
    ∀ k, (l.foldl (fun d p => d.set p.1 p.2) d).get? k = (Dict.get? l k).or (d.get? k) := by
  intro l
  induction l with
  | nil => intro d _ k; simp [Dict.get?]
  | cons p l ih =>
    intro d hn k
    simp only [List.map_cons, List.nodup_cons] at hn
    rw [List.foldl_cons, ih _ hn.2 k, Dict.get?_set]
    simp only [Dict.get?]
    by_cases hk : p.1 = k
    · subst hk
      rw [(Dict.get?_eq_none _ _).2 hn.1]; simp
    · have hk' : ¬ k = p.1 := fun e => hk e.symm
      simp [hk, hk']

/-- **C113, dump.**  `dict()` maps each setting annotated in the class itself (in capitals if asked) that is not excluded to its
value, leaving out `None` if asked, and nothing else. -/
theorem C113_dict_partial [DecidableEq V] (w : World V) (modl : String → Option Thing) (c : Class V) (anc : List (Class V))
    (obj : Dict String V) (excludeNone upper : Bool) (exclude : List String) (ha : c.annotations.WF)
    (hu : upper = true → ∀ k ∈ c.annotations.keys, ∀ k' ∈ c.annotations.keys, w.upper k = w.upper k' → k = k')
    (key : String) (v : V) :
    (dict w c (anc ++ [base w modl]) obj excludeNone upper exclude).get? key = some v ↔
      ∃ k, k ∈ c.annotations.keys ∧ k ∉ exclude ∧ key = (if upper then w.upper k else k) ∧
        v = getAttr w (c :: (anc ++ [base w modl])) obj k ∧ (excludeNone = true → v ≠ w.noneV) := by
  have hd : dumped w c (anc ++ [base w modl]) obj excludeNone upper exclude =
      (c.annotations.keys.filter fun k => !exclude.contains k).filterMap fun k =>
        let v := getAttr w (c :: (anc ++ [base w modl])) obj k
        if excludeNone && decide (v = w.noneV) then none else some (if upper then w.upper k else k, v) := by
    unfold dumped; rw [hints_own]
  have hmem : ∀ p, p ∈ dumped w c (anc ++ [base w modl]) obj excludeNone upper exclude ↔
      ∃ k, k ∈ c.annotations.keys ∧ k ∉ exclude ∧ p.1 = (if upper then w.upper k else k) ∧
        p.2 = getAttr w (c :: (anc ++ [base w modl])) obj k ∧ (excludeNone = true → p.2 ≠ w.noneV) := by
    intro p
    rw [hd, List.mem_filterMap]
    constructor
    · rintro ⟨k, h1, h2⟩
      rw [List.mem_filter] at h1
      simp only at h2
      split at h2
      · cases h2
      · rename_i hx
        cases h2
        refine ⟨k, h1.1, by simpa using h1.2, rfl, rfl, fun e h => hx ?_⟩
        have h' : getAttr w (c :: (anc ++ [base w modl])) obj k = w.noneV := h
        simp [e, h']
    · rintro ⟨k, h1, h2, h3, h4, h5⟩
      refine ⟨k, List.mem_filter.2 ⟨h1, by simpa using h2⟩, ?_⟩
      simp only
      rw [if_neg, ← h3, ← h4]
      intro h
      simp only [Bool.and_eq_true, decide_eq_true_eq] at h
      exact h5 h.1 (h4.trans h.2)
  have hnd : ((dumped w c (anc ++ [base w modl]) obj excludeNone upper exclude).map (·.1)).Nodup := by
    rw [hd]
    have key : ∀ l : List String, l.Nodup → (∀ k ∈ l, k ∈ c.annotations.keys) →
        ((l.filterMap fun k =>
          let v := getAttr w (c :: (anc ++ [base w modl])) obj k
          if excludeNone && decide (v = w.noneV) then none else some (if upper then w.upper k else k, v)).map (·.1)).Nodup := by
      intro l
      induction l with
      | nil => intro _ _; simp
      | cons a l ih =>
        intro hn hk
        rw [List.nodup_cons] at hn
        have hrest := ih hn.2 fun k h => hk k (List.mem_cons_of_mem _ h)
        rw [List.filterMap_cons]
        split
        · exact hrest
        · rename_i p hp
          simp only at hp
          split at hp
          · cases hp
          · cases hp
            rw [List.map_cons, List.nodup_cons]
            refine ⟨?_, hrest⟩
            intro hm
            obtain ⟨q, hq, e⟩ := List.mem_map.1 hm
            obtain ⟨b, hb, hbq⟩ := List.mem_filterMap.1 hq
            simp only at hbq
            split at hbq
            · cases hbq
            · cases hbq
              have hab : a = b := by
                cases upper with
                | false => exact e.symm
                | true => exact hu rfl a (hk a (by simp)) b (hk b (List.mem_cons_of_mem _ hb)) e.symm
              exact hn.1 (hab ▸ hb)
    refine key _ (ha.sublist List.filter_sublist) fun k h => (List.mem_filter.1 h).1
  unfold dict
  rw [foldl_set_get _ _ hnd]
  simp only [Dict.get?, Option.or_none]
  rw [Dict.get?_iff_mem hnd]
  exact hmem (key, v)

/-! ## Where the code is wrong; examples -/

/-- **The secret key cannot be set through the environment.**  Whatever `SECRET_KEY` holds, making the settings raises: the
source text `str | None` of the annotation is not the name of anything. -/
theorem secret_key_witness (w : World V) (modl : String → Option Thing) (version : V) (kwargs : Dict String V)
    (hm : modl "str | None" = none) (hb : w.builtins "str | None" = none) (hs : Sane w (settings w modl version))
    (hk : kwargs.WF) (t : Text) (he : w.env (w.upper "secret_key") = some t) :
    construct w (settings w modl version) [base w modl] kwargs = none := by
  have := C113_raises w modl (settings w modl version) [] kwargs hs (by simp [settings, Dict.WF]) hk
  rw [List.nil_append] at this
  rw [this]
  refine .inr ⟨"secret_key", .text "str | None", t, by simp [settings], he, fun v h => ?_⟩
  cases h with
  | text hn hb' _ =>
    rw [names_iff] at hn
    have e : beforeBracket "str | None" = "str | None" := by decide +kernel
    rw [e] at hn
    subst hn
    rcases hb' with h | h
    · have : (settings w modl version).module "str | None" = modl "str | None" := by simp [settings]
      rw [this, hm] at h; cases h
    · rw [hb] at h; cases h.2

/-- **A subclass of `Settings` no longer reads the settings it inherits.**  Whatever the environment holds, without a keyword
argument a setting that is annotated only in an ancestor has its class attribute. -/
theorem inherited_witness (w : World V) (modl : String → Option Thing) (c : Class V) (anc : List (Class V)) (obj : Dict String V)
    (hs : Sane w c) (ha : c.annotations.WF) (h : construct w c (anc ++ [base w modl]) [] = some obj) (k : String) (v : V)
    (hk : k ∉ c.annotations.keys) (hd : Default (c :: (anc ++ [base w modl])) k v) :
    getAttr w (c :: (anc ++ [base w modl])) obj k = v := by
  rcases (C113_value_partial w modl c anc [] obj hs ha (by simp [Dict.WF]) h k).2 (.inl hk) with q | ⟨_, q⟩ | ⟨_, q, _⟩
  · cases q
  · have h1 := (classAttr_iff _ k v).2 hd
    have h2 := (classAttr_iff _ k _).2 q
    rw [h1] at h2
    exact (Option.some.inj h2).symm
  · exact absurd hd (q v)

/-- values of the examples -/
inductive ExV where
  | bool (b : Bool)
  | str (t : Text)
  | list (l : List Char)
  | nat (n : Nat)
  | none
  deriving DecidableEq, Repr

/-- Python as far as the examples need it -/
def exWorld (env : List (String × String)) : World ExV where
  call n t :=
    if n = "str" then some (.str t) else if n = "list" then some (.list t)
    else if n = "int" ∧ t ≠ [] ∧ t.all Char.isDigit then some (.nat (t.foldl (fun n c => 10 * n + (c.toNat - 48)) 0))
    else .none
  bool := .bool
  noneV := .none
  lower t := t.map Char.toLower
  upper s := String.ofList (s.toList.map Char.toUpper)
  env n := (Dict.get? env n).map String.toList
  builtins n := if n ∈ ["bool", "str", "int", "list", "dict"] then some (.ty (.cls n)) else .none
  evalOther _ := .none

/-- a subclass of `Settings` in a module with future annotations -/
def exChild : Class ExV where
  annotations := [("workers", .text "int"), ("hosts", .text "list[str]"), ("limit", .obj (.union [.none, .cls "int"]))]
  defaults := [("workers", .nat 4)]
  functions := []
  readOnly := []
  module _ := none

theorem exSane (env : List (String × String)) : Sane (exWorld env) exChild where
  builtins n ty h := by
    simp only [exWorld] at h
    split at h
    · cases h; trivial
    · cases h
  module n ty h := by cases h
  objects k ty h := by
    simp only [exChild, List.mem_cons, List.not_mem_nil, or_false, Prod.mk.injEq, reduceCtorEq, and_false, Ann.obj.injEq,
      false_or] at h
    obtain ⟨_, rfl⟩ := h
    exact ⟨by simp [Real], fun t h => by cases h⟩
  bool := by simp [exWorld]

theorem exSaneBase (env : List (String × String)) : Sane (exWorld env) (settings (exWorld env) (fun _ => none) (.str ['1'])) where
  builtins n ty h := by
    simp only [exWorld] at h
    split at h
    · cases h; trivial
    · cases h
  module n ty h := by simp [settings] at h
  objects k ty h := by simp [settings] at h
  bool := by simp [exWorld]

/-- The hypotheses are met, and what the code does: numbers and optional numbers are read; a list is read character by character;
`DEBUG` is read by `Settings` but not by a subclass; the environment has precedence over a keyword argument; text that is no
number, and any `SECRET_KEY`, raises. -/
theorem C113_example :
    (let w := exWorld [("WORKERS", "8"), ("HOSTS", "a,b"), ("LIMIT", "3"), ("DEBUG", "TRUE")]
     let mro := [settings w (fun _ => none) (.str ['1']), base w fun _ => none]
     (construct w exChild mro [("workers", .nat 5)]).map fun o =>
       ["workers", "hosts", "limit", "debug"].map (getAttr w (exChild :: mro) o)) =
      some [.nat 8, .list ['a', ',', 'b'], .nat 3, .bool false] ∧
    (let w := exWorld [("DEBUG", "TRUE"), ("VERSION", "9")]
     let c := settings w (fun _ => none) (.str ['1'])
     (construct w c [base w fun _ => none] []).map fun o => dict w c [base w fun _ => none] o true false []) =
      some [("debug", .bool true), ("version", .str ['9'])] ∧
    (let w := exWorld [("WORKERS", "many")]
     (construct w exChild [settings w (fun _ => none) (.str ['1']), base w fun _ => none] []).isSome) = false ∧
    (let w := exWorld [("SECRET_KEY", "x")]
     (construct w (settings w (fun _ => none) (.str ['1'])) [base w fun _ => none] []).isSome) = false := by
  refine ⟨?_, ?_, ?_, ?_⟩ <;> decide +kernel

end Settings
end Asyncz
