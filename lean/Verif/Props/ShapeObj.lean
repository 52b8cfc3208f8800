import Verif.Model.ShapeObj
/-!
# C108, C109: shapes restore what they dump; field metadata
-/
namespace Asyncz
namespace ShapeObj
open Spec

/-! ## Dumping plain data -/

mutual
theorem dump_plain_keep : ∀ v, plain v = true → dump false v = v
  | .none, _ => rfl
  | .atom _, _ => rfl
  | .map items, h => by
    rw [dump, dumpItems_plain_keep items (by simpa [plain] using h)]
  | .list items, h => by rw [dump, dumpList_plain_keep items (by simpa [plain] using h)]
  | .tuple items, h => by rw [dump, dumpList_plain_keep items (by simpa [plain] using h)]
  | .seq _, h => by simp [plain] at h
  | .obj _ _, h => by simp [plain] at h

theorem dumpItems_plain_keep : ∀ l, plainItems l = true → dumpItems false l = l
  | [], _ => rfl
  | (k, v) :: l, h => by
    simp only [plainItems, Bool.and_eq_true] at h
    have hk : kept false v = true := by cases v <;> rfl
    rw [dumpItems, if_pos hk, dump_plain_keep v h.1, dumpItems_plain_keep l h.2]

theorem dumpList_plain_keep : ∀ l, plainList l = true → dumpList false l = l
  | [], _ => rfl
  | v :: l, h => by
    simp only [plainList, Bool.and_eq_true] at h
    rw [dumpList, dump_plain_keep v h.1, dumpList_plain_keep l h.2]
end

mutual
theorem dump_noNone : ∀ v, noNone v = true → dump true v = dump false v
  | .none, _ => rfl
  | .atom _, _ => rfl
  | .map items, h => by rw [dump, dump, dumpItems_noNone items (by simpa [noNone] using h)]
  | .list items, h => by rw [dump, dump, dumpList_noNone items (by simpa [noNone] using h)]
  | .tuple items, h => by rw [dump, dump, dumpList_noNone items (by simpa [noNone] using h)]
  | .seq items, h => by rw [dump, dump, dumpList_noNone items (by simpa [noNone] using h)]
  | .obj _ attrs, h => by rw [dump, dump, dumpItems_noNone attrs (by simpa [noNone] using h)]

theorem dumpItems_noNone : ∀ l, noNoneItems l = true → dumpItems true l = dumpItems false l
  | [], _ => rfl
  | (k, v) :: l, h => by
    have hv : (∀ ex, kept ex v = true) ∧ noNone v = true ∧ noNoneItems l = true := by
      cases v <;> simp_all [noNoneItems, kept]
    rw [dumpItems, dumpItems, if_pos (hv.1 true), if_pos (hv.1 false), dump_noNone v hv.2.1, dumpItems_noNone l hv.2.2]

theorem dumpList_noNone : ∀ l, noNoneList l = true → dumpList true l = dumpList false l
  | [], _ => rfl
  | v :: l, h => by
    simp only [noNoneList, Bool.and_eq_true] at h
    rw [dumpList, dumpList, dump_noNone v h.1, dumpList_noNone l h.2]
end

/-! ## C108 -/

/-- An object of the class: its attributes are those of the class's fields. -/
def OfClass (c : Cls) (attrs : List (String × V)) : Prop := attrs.map (·.1) = c.fields.map (·.name)

/-- Every field is a parameter of the constructor, under its own name, and the names differ. -/
def Open (c : Cls) : Prop := (∀ f ∈ c.fields, f.arg = some f.name) ∧ (c.fields.map (·.name)).Nodup

theorem lookup_of_mem {kw : List (String × V)} {k v} (hn : (kw.map (·.1)).Nodup) (h : (k, v) ∈ kw) :
    lookup kw k = some v := by
  induction kw with
  | nil => cases h
  | cons p l ih =>
    rw [List.map_cons, List.nodup_cons] at hn
    unfold lookup
    rw [List.find?_cons]
    rcases List.mem_cons.1 h with h | h
    · subst h; simp
    · have : p.1 ≠ k := fun e => hn.1 (List.mem_map.2 ⟨(k, v), h, e.symm⟩)
      simp only [this, decide_false]
      exact ih hn.2 h

theorem initAll_all {kw : List (String × V)} (hn : (kw.map (·.1)).Nodup) :
    ∀ (fs : List Field) (attrs : List (String × V)), (∀ f ∈ fs, f.arg = some f.name) →
      attrs.map (·.1) = fs.map (·.name) → (∀ p ∈ attrs, p ∈ kw) → initAll kw fs = some attrs
  | [], [], _, _, _ => rfl
  | [], _ :: _, _, h, _ => by simp at h
  | _ :: _, [], _, h, _ => by simp at h
  | f :: fs, (k, v) :: l, ha, h, hm => by
    simp only [List.map_cons, List.cons.injEq] at h
    have h1 : init kw f = some v := by
      have := lookup_of_mem hn (hm (k, v) (by simp))
      rw [h.1] at this
      simp [init, ha f (by simp), this]
    rw [initAll, h1]
    have h2 := initAll_all hn fs l (fun g hg => ha g (by simp [hg])) h.2 (fun p hp => hm p (by simp [hp]))
    simp [h2, h.1]

theorem call_all {c : Cls} (ho : Open c) {attrs} (hc : OfClass c attrs) : call c attrs = some (.obj c.id attrs) := by
  have hn : (attrs.map (·.1)).Nodup := by rw [hc]; exact ho.2
  unfold call
  have h1 : (attrs.all fun p => c.fields.any fun f => f.arg = some p.1) = true := by
    rw [List.all_eq_true]
    intro p hp
    have : p.1 ∈ c.fields.map (·.name) := by rw [← hc]; exact List.mem_map_of_mem hp
    obtain ⟨f, hf, e⟩ := List.mem_map.1 this
    rw [List.any_eq_true]
    exact ⟨f, hf, by simp [ho.1 f hf, e]⟩
  rw [if_pos h1, initAll_all hn c.fields attrs ho.1 hc (fun p h => h)]
  rfl

/-- **C108** (partial): an object of a class all of whose fields are parameters of its constructor, with plain data in its
attributes, is restored from its dump as it was. -/
theorem C108_round_trip_partial (c : Cls) (ho : Open c) (attrs : List (String × V)) (hc : OfClass c attrs)
    (hp : plainItems attrs = true) : construct c (shapeDump c.kind false (.obj c.id attrs)) = .ok (.obj c.id attrs) := by
  have hd : shapeDump c.kind false (.obj c.id attrs) = .map attrs := by
    have : dump false (.obj c.id attrs) = .map attrs := by rw [dump, dumpItems_plain_keep attrs hp]
    unfold shapeDump; split <;> exact this
  rw [hd, construct, call_all ho hc]

theorem dumpItems_drop : ∀ l : List (String × V), plainItems l = true → (∀ p ∈ l, noNone p.2 = true) →
    dumpItems true l = l.filter fun p => kept true p.2
  | [], _, _ => rfl
  | (k, v) :: l, h, hn => by
    simp only [plainItems, Bool.and_eq_true] at h
    have ih := dumpItems_drop l h.2 (fun p hp => hn p (by simp [hp]))
    have hv : dump true v = v := by rw [dump_noNone v (hn (k, v) (by simp)), dump_plain_keep v h.1]
    rw [dumpItems, ih, hv]
    by_cases hk : kept true v = true
    · simp [hk]
    · simp [hk]

theorem lookup_filter {kw : List (String × V)} {k : String} {v : V} (hn : (kw.map (·.1)).Nodup) (h : (k, v) ∈ kw)
    (q : String × V → Bool) : lookup (kw.filter q) k = if q (k, v) then some v else none := by
  induction kw with
  | nil => cases h
  | cons p l ih =>
    rw [List.map_cons, List.nodup_cons] at hn
    have hrest : ∀ x ∈ l.filter q, x.1 ≠ p.1 := fun x hx e =>
      hn.1 (List.mem_map.2 ⟨x, (List.mem_filter.1 hx).1, e⟩)
    rcases List.mem_cons.1 h with h | h
    · subst h
      by_cases hq : q (k, v) = true
      · simp [List.filter_cons, hq, lookup]
      · simp only [List.filter_cons, hq]
        unfold lookup
        have : (l.filter q).find? (fun x => decide (x.1 = k)) = none := by
          rw [List.find?_eq_none]
          intro x hx
          simpa using hrest x hx
        simp [this]
    · have hne : ¬ p.1 = k := fun e => hn.1 (List.mem_map.2 ⟨(k, v), h, e.symm⟩)
      by_cases hq : q p = true
      · rw [List.filter_cons, if_pos hq]
        unfold lookup
        rw [List.find?_cons]
        simp only [hne, decide_false]
        exact ih hn.2 h
      · rw [List.filter_cons, if_neg hq]
        exact ih hn.2 h

theorem initAll_drop {kw : List (String × V)} (hn : (kw.map (·.1)).Nodup) :
    ∀ (fs : List Field) (attrs : List (String × V)), (∀ f ∈ fs, f.arg = some f.name) →
      attrs.map (·.1) = fs.map (·.name) → (∀ p ∈ attrs, p ∈ kw) →
      (∀ f ∈ fs, (f.name, V.none) ∈ attrs → f.default = .value .none ∨ f.default = .factory .none) →
      initAll (kw.filter fun p => kept true p.2) fs = some attrs
  | [], [], _, _, _, _ => rfl
  | [], _ :: _, _, h, _, _ => by simp at h
  | _ :: _, [], _, h, _, _ => by simp at h
  | f :: fs, (k, v) :: l, ha, h, hm, hd => by
    simp only [List.map_cons, List.cons.injEq] at h
    obtain ⟨hk, hl⟩ := h
    subst hk
    have hlook := lookup_filter hn (hm (f.name, v) (by simp)) (fun p => kept true p.2)
    have h1 : init (kw.filter fun p => kept true p.2) f = some v := by
      unfold init
      rw [ha f (by simp)]
      simp only [Option.bind_some, hlook]
      by_cases hkv : kept true v = true
      · simp [hkv]
      · have hv : v = .none := by cases v <;> simp [kept] at hkv ⊢
        subst hv
        rcases hd f (by simp) (by simp) with e | e <;> simp [kept, e]
    have h2 := initAll_drop hn fs l (fun g hg => ha g (by simp [hg])) hl (fun p hp => hm p (by simp [hp]))
      (fun g hg hin => hd g (by simp [hg]) (by simp [hin]))
    rw [initAll, h1]
    simp [h2]

/-- **C108** (partial): the same for dumps without `None`, if the attributes that are `None` have `None` as their default, and
there is no `None` in the mappings inside the attributes. -/
theorem C108_exclude_none_partial (c : Cls) (ho : Open c) (attrs : List (String × V)) (hc : OfClass c attrs)
    (hp : plainItems attrs = true) (hn : ∀ p ∈ attrs, noNone p.2 = true)
    (hd : ∀ f ∈ c.fields, (f.name, V.none) ∈ attrs → f.default = .value .none ∨ f.default = .factory .none) :
    construct c (shapeDump c.kind true (.obj c.id attrs)) = .ok (.obj c.id attrs) := by
  by_cases hk : c.kind = .msgspec
  · have h := C108_round_trip_partial c ho attrs hc hp
    rw [hk] at h ⊢
    exact h
  · have e : shapeDump c.kind true (.obj c.id attrs) = .map (attrs.filter fun p => kept true p.2) := by
      have : dump true (.obj c.id attrs) = .map (attrs.filter fun p => kept true p.2) := by
        rw [dump, dumpItems_drop attrs hp hn]
      unfold shapeDump; split
      · rename_i h; exact absurd h hk
      · exact this
    have hnd : (attrs.map (·.1)).Nodup := by rw [hc]; exact ho.2
    have hall : ((attrs.filter fun p => kept true p.2).all fun p => c.fields.any fun f => f.arg = some p.1) = true := by
      rw [List.all_eq_true]
      intro p hpm
      have : p.1 ∈ c.fields.map (·.name) := by rw [← hc]; exact List.mem_map_of_mem (List.mem_filter.1 hpm).1
      obtain ⟨f, hf, e⟩ := List.mem_map.1 this
      rw [List.any_eq_true]
      exact ⟨f, hf, by simp [ho.1 f hf, e]⟩
    rw [e, construct, call, if_pos hall, initAll_drop hnd c.fields attrs ho.1 hc (fun p h => h) hd]
    rfl

/-- **C108** (partial): what was never dumped is returned as it is. -/
theorem C108_instance (c : Cls) (attrs : List (String × V)) : construct c (.obj c.id attrs) = .ok (.obj c.id attrs) := by
  simp [construct]

/-- **C108** (counterexample): an attribute that is itself an object comes back as a mapping, for every such class and object
(dataclass and attrs). -/
theorem C108_nested_witness (i j : Nat) (inner : List (String × V)) (hp : plainItems inner = true) (name : String)
    (k : Kind) (hk : k = .dataclass ∨ k = .attrs) :
    construct ⟨i, k, [⟨name, some name, .required⟩]⟩ (shapeDump k false (.obj i [(name, .obj j inner)])) =
      .ok (.obj i [(name, .map inner)]) := by
  have : shapeDump k false (.obj i [(name, .obj j inner)]) = .map [(name, .map inner)] := by
    have h1 : dump false (.obj i [(name, .obj j inner)]) = .map [(name, .map inner)] := by
      simp [dump, dumpItems, kept, dumpItems_plain_keep inner hp]
    rcases hk with rfl | rfl <;> exact h1
  rw [this, construct]
  simp [call, initAll, init, lookup]

/-- **C108** (counterexample): an object with an attribute that is no parameter (`init=False`), or whose parameter has another
name (attrs drops the underscore of a private attribute), cannot be restored at all. -/
theorem C108_hidden_witness (c : Cls) (_ : c.kind = .dataclass ∨ c.kind = .attrs) (attrs : List (String × V)) (k : String) (v : V) (hv : (k, v) ∈ attrs)
    (hk : ∀ f ∈ c.fields, f.arg ≠ some k) :
    construct c (shapeDump c.kind false (.obj c.id attrs)) = .error .validation := by
  have hm : ∀ l : List (String × V), (k, v) ∈ l → (k, dump false v) ∈ dumpItems false l := by
    intro l
    induction l with
    | nil => intro h; cases h
    | cons p l ih =>
      intro h
      obtain ⟨k', v'⟩ := p
      have hk' : kept false v' = true := by cases v' <;> rfl
      rw [dumpItems, if_pos hk']
      rcases List.mem_cons.1 h with h | h
      · cases h; simp
      · simp [ih h]
  have hd : shapeDump c.kind false (.obj c.id attrs) = .map (dumpItems false attrs) := by
    unfold shapeDump; split <;> rw [dump]
  rw [hd, construct]
  have : call c (dumpItems false attrs) = none := by
    unfold call
    rw [if_neg]
    intro h
    rw [List.all_eq_true] at h
    have := h _ (hm attrs hv)
    rw [List.any_eq_true] at this
    obtain ⟨f, hf, e⟩ := this
    exact hk f hf (by simpa using e)
  rw [this]

/-- **C108** (counterexample): with `exclude_none=True` an attribute that was set to `None` comes back as its default. -/
theorem C108_none_witness (i : Nat) (name : String) (d : V) (k : Kind) (hk : k ≠ .msgspec) :
    construct ⟨i, k, [⟨name, some name, .value d⟩]⟩ (shapeDump k true (.obj i [(name, .none)])) =
      .ok (.obj i [(name, d)]) := by
  have : shapeDump k true (.obj i [(name, .none)]) = .map [] := by
    unfold shapeDump; split
    · exact absurd rfl hk
    · simp [dump, dumpItems, kept]
  rw [this]
  simp [construct, call, initAll, init, lookup]

/-- **C108** (counterexample): a msgspec Struct's dump with `exclude_none=True` has its `None`s. -/
theorem C108_msgspec_witness (i : Nat) (name : String) :
    shapeDump .msgspec true (.obj i [(name, .none)]) = .map [(name, .none)] := by
  simp [shapeDump, dump, dumpItems, kept]

/-! ## C109 -/

theorem initAll_none {kw fs} (f : Field) (hf : f ∈ fs) (h : init kw f = none) : initAll kw fs = none := by
  induction fs with
  | nil => cases hf
  | cons g fs ih =>
    rw [initAll]
    rcases List.mem_cons.1 hf with e | hf
    · subst e; rw [h]
    · split
      · rfl
      · rw [ih hf]; rfl

theorem initAll_some {kw : List (String × V)} {fs : List Field} (h : ∀ f ∈ fs, (init kw f).isSome = true) :
    ∃ l, initAll kw fs = some l ∧ ∀ f ∈ fs, ∃ v, init kw f = some v ∧ (f.name, v) ∈ l := by
  induction fs with
  | nil => exact ⟨[], rfl, by simp⟩
  | cons f fs ih =>
    obtain ⟨l, hl, hm⟩ := ih fun g hg => h g (by simp [hg])
    obtain ⟨v, hv⟩ := Option.isSome_iff_exists.1 (h f (by simp))
    refine ⟨(f.name, v) :: l, by rw [initAll, hv]; simp [hl], fun g hg => ?_⟩
    rcases List.mem_cons.1 hg with e | hg
    · subst e; exact ⟨v, hv, by simp⟩
    · obtain ⟨w, hw, hm'⟩ := hm g hg
      exact ⟨w, hw, by simp [hm']⟩

/-- Arguments for all fields but `f`. -/
def AllBut (c : Cls) (f : Field) (kw : List (String × V)) : Prop :=
  (∀ p ∈ kw, ∃ g ∈ c.fields, g.name = p.1) ∧ lookup kw f.name = none ∧
    ∀ g ∈ c.fields, g.name ≠ f.name → (lookup kw g.name).isSome = true

theorem unique_field {fs : List Field} (hn : (fs.map (·.name)).Nodup) {f g : Field} (hf : f ∈ fs) (hg : g ∈ fs)
    (e : g.name = f.name) : g = f := by
  induction fs with
  | nil => cases hg
  | cons x fs ih =>
    rw [List.map_cons, List.nodup_cons] at hn
    rcases List.mem_cons.1 hg with rfl | hg'
    · rcases List.mem_cons.1 hf with rfl | hf'
      · rfl
      · exact absurd (List.mem_map.2 ⟨f, hf', e.symm⟩) hn.1
    · rcases List.mem_cons.1 hf with rfl | hf'
      · exact absurd (List.mem_map.2 ⟨g, hg', e⟩) hn.1
      · exact ih hn.2 hf' hg'

theorem call_allBut {c : Cls} (ho : Open c) {f : Field} (hf : f ∈ c.fields) {kw : List (String × V)}
    (hkw : AllBut c f kw) :
    (f.default = .required → call c kw = none) ∧
    ∀ v, f.default = .value v ∨ f.default = .factory v → ∃ l, call c kw = some (.obj c.id l) ∧ (f.name, v) ∈ l := by
  have hall : (kw.all fun p => c.fields.any fun g => g.arg = some p.1) = true := by
    rw [List.all_eq_true]
    intro p hp
    obtain ⟨g, hg, e⟩ := hkw.1 p hp
    rw [List.any_eq_true]
    exact ⟨g, hg, by simp [ho.1 g hg, e]⟩
  have hfi : init kw f = match f.default with
      | .required => none
      | .value v => some v
      | .factory v => some v := by
    unfold init
    rw [ho.1 f hf]
    simp only [Option.bind_some, hkw.2.1]
    cases f.default <;> rfl
  unfold call
  rw [if_pos hall]
  constructor
  · intro hd
    rw [hd] at hfi
    rw [initAll_none f hf hfi]; rfl
  · intro v hd
    have hfv : init kw f = some v := by
      rcases hd with hd | hd <;> rw [hd] at hfi <;> exact hfi
    obtain ⟨l, hl, hm⟩ := initAll_some (kw := kw) (fs := c.fields) fun g hg => by
      by_cases e : g.name = f.name
      · rw [unique_field ho.2 hf hg e, hfv]; rfl
      · obtain ⟨w, hw⟩ := Option.isSome_iff_exists.1 (hkw.2.2 g hg e)
        unfold init
        rw [ho.1 g hg]
        simp only [Option.bind_some, hw]
        rfl
    obtain ⟨w, hw, hmem⟩ := hm f hf
    rw [hfv] at hw
    cases hw
    exact ⟨l, by rw [hl]; rfl, hmem⟩

/-- **C109**: for a class all of whose fields are parameters: a field is shown as required exactly if the class cannot be
constructed without it, all else being given. -/
theorem C109_required_partial (c : Cls) (ho : Open c) (f : Field) (hf : f ∈ c.fields) (kw : List (String × V))
    (hkw : AllBut c f kw) :
    ((info c.kind f).required = true ↔ construct c (.map kw) = .error .validation) := by
  have h := call_allBut ho hf hkw
  cases hd : f.default with
  | required => simp [construct, info, hd, h.1 hd]
  | value v =>
    obtain ⟨l, hl, _⟩ := h.2 v (.inl hd)
    simp [construct, info, hd, hl]
  | factory v =>
    obtain ⟨l, hl, _⟩ := h.2 v (.inr hd)
    simp [construct, info, hd, hl]

/-- **C109**: and a default that is shown as a value is what an object constructed without the field gets. -/
theorem C109_default_partial (c : Cls) (ho : Open c) (f : Field) (hf : f ∈ c.fields) (kw : List (String × V))
    (hkw : AllBut c f kw) (v : V) (hv : (info c.kind f).default = .value v) :
    ∃ l, construct c (.map kw) = .ok (.obj c.id l) ∧ (f.name, v) ∈ l := by
  have h := call_allBut ho hf hkw
  have hd : f.default = .value v := by
    unfold info at hv
    cases hd : f.default with
    | required => rw [hd] at hv; dsimp only at hv; split at hv <;> cases hv
    | value w => rw [hd] at hv; cases hv; rfl
    | factory w => rw [hd] at hv; cases hv
  obtain ⟨l, hl, hm⟩ := h.2 v (.inl hd)
  exact ⟨l, by simp [construct, hl], hm⟩

/-- **C109** (counterexample): of a field with a factory a marker object of the library is shown, whatever the factory makes. -/
theorem C109_factory_witness (k : Kind) (name : String) (arg : Option String) (v : V) :
    (info k ⟨name, arg, .factory v⟩).default = .marker ∧ (info k ⟨name, arg, .factory v⟩).required = false :=
  ⟨rfl, rfl⟩

/-- **C109** (counterexample): of a required field of a Struct, too. -/
theorem C109_msgspec_witness (name : String) (arg : Option String) :
    (info .msgspec ⟨name, arg, .required⟩).default = .marker := rfl

/-- **C109** (counterexample): a field that is no parameter is shown like the others; giving it fails. -/
theorem C109_hidden_witness (c : Cls) (f : Field) (hf : f ∈ c.fields) (hk : ∀ g ∈ c.fields, g.arg ≠ some f.name)
    (kw : List (String × V)) (v : V) :
    info c.kind f ∈ fields c ∧ construct c (.map ((f.name, v) :: kw)) = .error .validation := by
  refine ⟨List.mem_map_of_mem hf, ?_⟩
  have : call c ((f.name, v) :: kw) = none := by
    unfold call
    rw [if_neg]
    intro h
    rw [List.all_eq_true] at h
    have := h (f.name, v) (by simp)
    rw [List.any_eq_true] at this
    obtain ⟨g, hg, e⟩ := this
    exact hk g hg (by simpa using e)
  rw [construct, this]

/-! ## Examples -/

/-- `class C: x; tags = field(default_factory=list); note = None` -/
def exCls : Cls := ⟨7, .dataclass, [⟨"x", some "x", .required⟩, ⟨"tags", some "tags", .factory (.list [])⟩,
  ⟨"note", some "note", .value .none⟩]⟩

/-- attributes of an instance -/
def exAttrs : List (String × V) := [("x", .atom 1), ("tags", .list [.atom 2, .tuple [.none]]), ("note", .map [("a", .atom 3)])]

example : Open exCls ∧ OfClass exCls exAttrs ∧ plainItems exAttrs = true ∧ noNoneItems exAttrs = true := by
  refine ⟨⟨?_, ?_⟩, ?_, ?_, ?_⟩
  · intro f hf
    simp only [exCls, List.mem_cons, List.not_mem_nil, or_false] at hf
    rcases hf with rfl | rfl | rfl <;> rfl
  · simp [exCls]
  · simp [OfClass, exCls, exAttrs]
  · simp [plainItems, plain, plainList, exAttrs]
  · simp [noNoneItems, noNone, noNoneList, exAttrs]

example : AllBut exCls ⟨"note", some "note", .value .none⟩ [("x", .atom 1), ("tags", .list [])] := by
  refine ⟨?_, by simp [lookup], ?_⟩
  · intro p hp
    simp only [List.mem_cons, List.not_mem_nil, or_false] at hp
    rcases hp with rfl | rfl
    · exact ⟨_, List.mem_cons_self .., rfl⟩
    · exact ⟨_, List.mem_cons_of_mem _ (List.mem_cons_self ..), rfl⟩
  · intro g hg hne
    simp only [exCls, List.mem_cons, List.not_mem_nil, or_false] at hg
    rcases hg with rfl | rfl | rfl
    · simp [lookup]
    · simp [lookup]
    · exact absurd rfl hne

/-- attrs: `class P: _key` -/
example : ∀ f ∈ (⟨3, .attrs, [⟨"_key", some "key", .required⟩]⟩ : Cls).fields, f.arg ≠ some "_key" := by
  intro f hf
  simp at hf
  subst hf; simp

/-- an object with a `None` where `None` is the default, before another attribute -/
example : let c : Cls := ⟨7, .dataclass, [⟨"note", some "note", .value .none⟩, ⟨"x", some "x", .required⟩]⟩
    let attrs : List (String × V) := [("note", .none), ("x", .atom 1)]
    (∀ p ∈ attrs, noNone p.2 = true) ∧
    (∀ f ∈ c.fields, (f.name, V.none) ∈ attrs → f.default = .value .none ∨ f.default = .factory .none) ∧
    dump true (.obj 7 attrs) = .map [("x", .atom 1)] := by
  refine ⟨?_, ?_, ?_⟩
  · intro p hp
    simp only [List.mem_cons, List.not_mem_nil, or_false] at hp
    rcases hp with rfl | rfl <;> rfl
  · intro f hf hin
    simp only [List.mem_cons, List.not_mem_nil, or_false] at hf
    rcases hf with rfl | rfl
    · exact Or.inl rfl
    · simp at hin
  · simp [dump, dumpItems, kept]

end ShapeObj
end Asyncz
