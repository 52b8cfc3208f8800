import Verif.Model.Plugins
/-!
# C74: an alias makes an instance of the class it points to
-/
namespace Asyncz
namespace Plugins

variable {ω β ι ε : Type}

/-! ## Specification -/

/-- What an alias points to after a history: the target given last, else the one it had at first. -/
def targetOf (al : Kind → Dict Text Text) (l : List (Op β)) (k : Kind) (a : Text) : Option Text :=
  l.foldl (fun o op => match op with
    | .point k' a' t => if k' = k ∧ a' = a then some t else o
    | .create .. => o) ((al k).get? a)

/-- The text `t` names the object `c`: a module path, a colon, and a name without colon. -/
def Names (py : Py ω β ι ε) (t : Text) (c : ω) : Prop :=
  ∃ m n, t = m ++ ':' :: n ∧ ':' ∉ n ∧ py.attr m n = .ok c

/-- The alias gets no new target once it has been used. -/
def Settled (l : List (Op β)) (k : Kind) (a : Text) : Prop :=
  ∀ l₁ args l₂, l = l₁ ++ .create k a args :: l₂ → ∀ t, Op.point k a t ∉ l₂

/-- The alias has been used. -/
def Used (l : List (Op β)) (k : Kind) (a : Text) : Prop := ∃ args, Op.create k a args ∈ l

/-! ## rsplit -/

theorem rsplit_none {t : Text} : rsplit t = none ↔ ':' ∉ t := by
  induction t with
  | nil => simp [rsplit]
  | cons c t ih =>
    unfold rsplit
    cases h : rsplit t with
    | none =>
      have := ih.mp h
      by_cases hc : c = ':'
      · simp [hc]
      · simp only [if_neg hc, true_iff, List.mem_cons, not_or]
        exact ⟨fun h => hc h.symm, this⟩
    | some p =>
      have : ':' ∈ t := by
        by_cases hm : ':' ∈ t
        · exact hm
        · rw [ih.mpr hm] at h; cases h
      simp [this]

theorem rsplit_some {t m n : Text} : rsplit t = some (m, n) ↔ t = m ++ ':' :: n ∧ ':' ∉ n := by
  induction t generalizing m with
  | nil => simp [rsplit]
  | cons c t ih =>
    unfold rsplit
    cases h : rsplit t with
    | none =>
      have hn := rsplit_none.mp h
      by_cases hc : c = ':'
      · subst hc
        simp only [if_true, Option.some.injEq, Prod.mk.injEq]
        constructor
        · rintro ⟨rfl, rfl⟩; exact ⟨rfl, hn⟩
        · rintro ⟨h, h'⟩
          cases m with
          | nil => simp at h; exact ⟨rfl, h⟩
          | cons d m => simp at h; rw [h.2] at hn; simp at hn
      · simp only [if_neg hc, reduceCtorEq, false_iff, not_and]
        intro h
        cases m with
        | nil => simp at h; exact absurd h.1 hc
        | cons d m => simp at h; rw [h.2] at hn; simp at hn
    | some p =>
      obtain ⟨a, b⟩ := p
      simp only [Option.some.injEq, Prod.mk.injEq]
      constructor
      · rintro ⟨rfl, rfl⟩
        have := (ih (m := a)).mp (by rw [h])
        exact ⟨by simp [this.1], this.2⟩
      · rintro ⟨e, h'⟩
        cases m with
        | nil =>
          simp at e
          rw [← e.2] at h'
          rw [rsplit_none.mpr h'] at h; cases h
        | cons d m =>
          simp at e
          have := (ih (m := m)).mpr ⟨e.2, h'⟩
          rw [h] at this
          simp at this
          exact ⟨by rw [e.1, this.1], this.2⟩

theorem load_ok {py : Py ω β ι ε} {t : Text} {c : ω} : load py t = .ok c ↔ Names py t c := by
  unfold load Names
  cases h : rsplit t with
  | none =>
    have hn := rsplit_none.mp h
    simp only [reduceCtorEq, false_iff, not_exists]
    rintro m n ⟨rfl, -, -⟩
    simp at hn
  | some p =>
    obtain ⟨m, n⟩ := p
    have hs := rsplit_some.mp h
    constructor
    · intro e; exact ⟨m, n, hs.1, hs.2, e⟩
    · rintro ⟨m', n', e, hn, he⟩
      have := rsplit_some.mpr ⟨e, hn⟩
      rw [h] at this; simp at this
      rw [this.1, this.2]; exact he

theorem names_unique {py : Py ω β ι ε} {t : Text} {c d : ω} (h : Names py t c) (h' : Names py t d) : c = d := by
  have h := load_ok.mpr h
  have h' := load_ok.mpr h'
  rw [h] at h'; cases h'; rfl

/-! ## The registries after a history -/

theorem create_aliases (py : Py ω β ι ε) (r : Reg ω) (k : Kind) (a : Text) (args : Dict Text β) :
    (create py r k a args).1.aliases = r.aliases := by
  unfold create
  repeat' split
  all_goals rfl

theorem create_classes (py : Py ω β ι ε) (r : Reg ω) (k k' : Kind) (a a' : Text) (args : Dict Text β) :
    (((create py r k a args).1.classes k').get? a') = (r.classes k').get? a' ∨
      (k' = k ∧ a' = a ∧ (r.classes k).get? a = none ∧ ∃ t c, (r.aliases k).get? a = some t ∧ load py t = .ok c ∧
        ((create py r k a args).1.classes k').get? a' = some c) := by
  unfold create
  split
  · exact .inl rfl
  · rename_i hn
    split
    · exact .inl rfl
    · rename_i t ht
      split
      · exact .inl rfl
      · rename_i c hc
        have key : ((r.cache k a c).classes k').get? a' =
            if k' = k ∧ a' = a then some c else (r.classes k').get? a' := by
          unfold Reg.cache
          by_cases hk : k' = k
          · subst hk; simp [Dict.get?_set]
          · simp [hk]
        by_cases hh : k' = k ∧ a' = a
        · right
          refine ⟨hh.1, hh.2, hn, t, c, ht, hc, ?_⟩
          split <;> simp only [key, if_pos hh]
        · left
          split <;> simp only [key, if_neg hh]

theorem point_aliases (r : Reg ω) (k k' : Kind) (a a' t : Text) :
    ((r.point k a t).aliases k').get? a' = if k = k' ∧ a = a' then some t else (r.aliases k').get? a' := by
  unfold Reg.point
  by_cases hk : k' = k
  · subst hk; simp [Dict.get?_set, eq_comm]
  · have hk' : k ≠ k' := fun h => hk h.symm
    simp [hk, hk']

theorem run_append (py : Py ω β ι ε) (r : Reg ω) (l : List (Op β)) (op : Op β) :
    run py r (l ++ [op]) = step py (run py r l) op := by
  simp [run]

theorem run_aliases (py : Py ω β ι ε) (r : Reg ω) (l : List (Op β)) (k : Kind) (a : Text) :
    ((run py r l).aliases k).get? a = targetOf r.aliases l k a := by
  suffices H : ∀ l r o, (r.aliases k).get? a = o → ((run py r l).aliases k).get? a =
      l.foldl (fun o op => match op with
        | .point k' a' t => if k' = k ∧ a' = a then some t else o
        | .create .. => o) o from H l r _ rfl
  intro l
  induction l with
  | nil => intro r o h; exact h
  | cons op l ih =>
    intro r o h
    cases op with
    | create k' a' args =>
      refine ih (step py r (.create k' a' args)) o ?_
      simp only [step, create_aliases, h]
    | point k' a' t =>
      refine ih (step py r (.point k' a' t)) _ ?_
      simp only [step, point_aliases, h]

theorem settled_init {l : List (Op β)} {op : Op β} {k : Kind} {a : Text} (h : Settled (l ++ [op]) k a) :
    Settled l k a := by
  intro l₁ args l₂ e t ht
  refine h l₁ args (l₂ ++ [op]) (by simp [e]) t (by simp [ht])

theorem targetOf_append (al : Kind → Dict Text Text) (l : List (Op β)) (op : Op β) (k : Kind) (a : Text) :
    targetOf al (l ++ [op]) k a = match op with
      | .point k' a' t => if k' = k ∧ a' = a then some t else targetOf al l k a
      | .create .. => targetOf al l k a := by
  unfold targetOf
  rw [List.foldl_append]
  rfl

/-- What is cached is what the alias points to. -/
theorem run_classes (py : Py ω β ι ε) (r : Reg ω) (hr : ∀ k, r.classes k = []) (l : List (Op β)) (k : Kind) (a : Text)
    (hs : Settled l k a) : (((run py r l).classes k).get? a = none ∨
      Used l k a ∧ ∃ t c, targetOf r.aliases l k a = some t ∧ load py t = .ok c ∧ ((run py r l).classes k).get? a = some c) := by
  suffices H : ∀ l' : List (Op β), Settled l'.reverse k a → (((run py r l'.reverse).classes k).get? a = none ∨
      Used l'.reverse k a ∧ ∃ t c, targetOf r.aliases l'.reverse k a = some t ∧ load py t = .ok c ∧
        ((run py r l'.reverse).classes k).get? a = some c) by
    have := H l.reverse; simp only [List.reverse_reverse] at this; exact this hs
  intro l'
  induction l' with
  | nil => intro _; left; simp [run, hr, Dict.get?]
  | cons op l' ih =>
    intro hs
    simp only [List.reverse_cons] at hs ⊢
    have ih := ih (settled_init hs)
    rw [run_append, targetOf_append]
    cases op with
    | point k' a' t =>
      simp only [step, Reg.point]
      rcases ih with h | ⟨hu, h⟩
      · exact .inl h
      · right
        obtain ⟨args, hargs⟩ := hu
        refine ⟨⟨args, by simp only [List.mem_append]; exact .inl hargs⟩, ?_⟩
        have : ¬ (k' = k ∧ a' = a) := by
          rintro ⟨rfl, rfl⟩
          obtain ⟨l₁, l₂, e⟩ := List.append_of_mem hargs
          exact hs l₁ args (l₂ ++ [.point k' a' t]) (by simp [e]) t (by simp)
        simp only [if_neg this]; exact h
    | create k' a' args =>
      simp only [step]
      have used : Used l'.reverse k a → Used (l'.reverse ++ [Op.create k' a' args]) k a := by
        rintro ⟨x, hx⟩; exact ⟨x, by simp only [List.mem_append]; exact .inl hx⟩
      rcases create_classes py (run py r l'.reverse) k' k a' a args with h | ⟨rfl, rfl, hn, t, c, ht, hc, h⟩
      · rw [h]
        rcases ih with h | ⟨hu, h⟩
        · exact .inl h
        · exact .inr ⟨used hu, h⟩
      · right
        refine ⟨⟨args, by simp⟩, t, c, ?_, hc, h⟩
        rw [← run_aliases py]; exact ht

/-! ## C74 -/

/-- On every scheduler whatever has happened to it, provided the alias got no new target after its first
use and (if it was used before) does not point to something of another kind: creating from an alias gives
an instance exactly of the class the alias points to, made with exactly the given arguments; without such a
target the answer is a LookupError, with a target of another kind a TypeError. -/
theorem C74_create_partial (py : Py ω β ι ε) (r : Reg ω) (hr : ∀ k, r.classes k = []) (l : List (Op β)) (k : Kind)
    (a : Text) (hs : Settled l k a)
    (hk : Used l k a → ∀ t c, targetOf r.aliases l k a = some t → Names py t c → py.isKind c k = true)
    (args : Dict Text β) :
    let res := (create py (run py r l) k a args).2
    (∀ x, res = .ok x ↔ ∃ t c, targetOf r.aliases l k a = some t ∧ Names py t c ∧ py.isKind c k = true ∧
      py.call c args = .ok x) ∧
    (targetOf r.aliases l k a = none → res = .error .lookupError) ∧
    (∀ t, targetOf r.aliases l k a = some t → (':' ∉ t → res = .error .importError) ∧
      ∀ c, Names py t c → py.isKind c k = false → res = .error .typeError) := by
  have hcl := run_classes py r hr l k a hs
  have hal := run_aliases py r l k a
  generalize run py r l = r' at hcl hal
  generalize targetOf r.aliases l k a = o at *
  intro res
  have makeOk : ∀ c x, make py c args = .ok x ↔ py.call c args = .ok x := by
    intro c x; unfold make; cases py.call c args <;> simp
  rcases hcl with hc | ⟨hu, t, c, rfl, hl, hc⟩
  · have hres : res = match o with
        | none => .error .lookupError
        | some t => match load py t with
          | .error e => .error e
          | .ok c => if py.isKind c k then make py c args else .error .typeError := by
      show (create py r' k a args).2 = _
      unfold create
      simp only [hc, hal]
      cases o with
      | none => rfl
      | some t =>
        cases hl : load py t with
        | error e => simp only [hl]
        | ok c => simp only [hl]; split <;> rfl
    rw [hres]
    clear hres res
    cases o with
    | none => simp
    | some t =>
      refine ⟨?_, by simp, ?_⟩
      · intro x
        simp only [Option.some.injEq]
        cases hl : load py t with
        | error e =>
          simp only [reduceCtorEq, false_iff]
          rintro ⟨t', c, rfl, hn, -, -⟩
          rw [load_ok.mpr hn] at hl; cases hl
        | ok c =>
          have hn := load_ok.mp hl
          by_cases hkk : py.isKind c k = true
          · simp only [hkk, if_true, makeOk]
            constructor
            · intro h; exact ⟨t, c, rfl, hn, hkk, h⟩
            · rintro ⟨t', c', rfl, hn', -, h⟩
              rw [names_unique hn hn']; exact h
          · simp only [if_neg hkk, reduceCtorEq, false_iff]
            rintro ⟨t', c', rfl, hn', hk', -⟩
            rw [names_unique hn hn'] at hkk; exact hkk hk'
      · intro t' h
        cases h
        refine ⟨?_, ?_⟩
        · intro h
          simp only [load, rsplit_none.mpr h]
        · intro c hn hkk
          simp only [load_ok.mpr hn, hkk, Bool.false_eq_true, if_false]
  · have hres : res = make py c args := by
      show (create py r' k a args).2 = _
      unfold create
      simp only [hc]
    have hn := load_ok.mp hl
    have hkk := hk hu t c rfl hn
    rw [hres]
    refine ⟨?_, by simp, ?_⟩
    · intro x
      rw [makeOk]
      constructor
      · intro h; exact ⟨t, c, rfl, hn, hkk, h⟩
      · rintro ⟨t', c', h1, hn', -, h⟩
        cases h1
        rw [names_unique hn hn']; exact h
    · intro t' h
      cases h
      refine ⟨?_, ?_⟩
      · intro h
        obtain ⟨m, n, rfl, -⟩ := hn
        simp at h
      · intro c' hn' hkk'
        rw [names_unique hn' hn, hkk] at hkk'
        cases hkk'

/-- A failed creation leaves every other alias and kind alone, and a successful one too: what a later call
makes of another alias does not depend on it. -/
theorem C74_independent (py : Py ω β ι ε) (r : Reg ω) (k k' : Kind) (a a' : Text) (args args' : Dict Text β)
    (h : ¬ (k' = k ∧ a' = a)) :
    (create py (create py r k a args).1 k' a' args').2 = (create py r k' a' args').2 := by
  have hc := create_classes py r k k' a a' args
  have hc : ((create py r k a args).1.classes k').get? a' = (r.classes k').get? a' := by
    rcases hc with hc | ⟨h1, h2, -⟩
    · exact hc
    · exact absurd ⟨h1, h2⟩ h
  have ha := create_aliases py r k a args
  generalize (create py r k a args).1 = r' at hc ha
  unfold create
  rw [hc, ha]
  cases (r.classes k').get? a' with
  | some c => rfl
  | none =>
    cases (r.aliases k').get? a' with
    | none => rfl
    | some t =>
      cases hl : load py t with
      | error e => simp only [hl]
      | ok c => simp only [hl]; split <;> rfl

/-- A trigger argument: an instance is used as it is, nothing means the date trigger, an alias is created, and
anything else is refused; the created trigger gets the scheduler's timezone exactly if no timezone is among the
arguments, and all other arguments unchanged. -/
theorem C74_trigger (py : Py ω β ι ε) (tz : β) (r : Reg ω) (args : Dict Text β) :
    (∀ x, createTrigger py tz r (.instance x) args = (r, .ok x)) ∧
    createTrigger py tz r .other args = (r, .error .typeError) ∧
    createTrigger py tz r .none args = createTrigger py tz r (.alias "date".toList) args ∧
    ∃ full, (∀ a, createTrigger py tz r (.alias a) args = create py r .trigger a full) ∧
      full.get? "timezone".toList = some ((args.get? "timezone".toList).getD tz) ∧
      ∀ key, key ≠ "timezone".toList → full.get? key = args.get? key := by
  refine ⟨fun x => rfl, rfl, rfl, withZone tz args, fun a => rfl, ?_, ?_⟩
  · unfold withZone
    cases h : args.get? "timezone".toList with
    | none => simp only [Dict.get?_set, if_true, Option.getD_none]
    | some z => simp only [h, Option.getD_some]
  · intro key hk
    unfold withZone
    cases h : args.get? "timezone".toList with
    | none => simp only [Dict.get?_set, if_neg hk]
    | some z => rfl

/-- add_executor and add_store: a taken alias is refused; otherwise an instance is entered under the alias, and
a plugin name exactly if an instance can be created from it; in every refused case the table of executors or
stores is unchanged, and never is another entry. -/
theorem C74_add (py : Py ω β ι ε) (k : Kind) (r : Reg ω) (parts : Dict Text ι) (x : PartArg ι) (alias : Text)
    (args : Dict Text β) :
    let new := (addPart py k r parts x alias args).2.1
    let res := (addPart py k r parts x alias args).2.2
    ((parts.get? alias).isSome → res = .error .valueError) ∧
    (∀ e, res = .error e → new = parts) ∧
    (res = .ok () ↔ parts.get? alias = none ∧ ∃ y, new.get? alias = some y ∧
      (x = .instance y ∨ ∃ a, x = .alias a ∧ (create py r k a args).2 = .ok y)) ∧
    (∀ b, b ≠ alias → new.get? b = parts.get? b) := by
  unfold addPart
  cases h : parts.get? alias with
  | some y => simp
  | none =>
    cases x with
    | «instance» y => simp +contextual [Dict.get?_set]
    | other => simp [h]
    | «alias» a =>
      rcases hc : create py r k a args with ⟨r', res⟩
      cases res with
      | error e => simp [h, hc]
      | ok y => simp +contextual [Dict.get?_set, hc]

/-- Every built-in alias names a module and a class name without colon, so it is never refused as malformed. -/
theorem C74_defaults (k : Kind) (a t : Text) (h : (defaults k).get? a = some t) :
    ∃ m n, t = m ++ ':' :: n ∧ ':' ∉ n ∧ m ≠ [] ∧ n ≠ [] := by
  have H : ∀ p ∈ defaults k, ∃ q, rsplit p.2 = some q ∧ q.1 ≠ [] ∧ q.2 ≠ [] := by
    have : ∀ k, (defaults k).all (fun p => match rsplit p.2 with
        | some (m, n) => !m.isEmpty && !n.isEmpty | none => false) = true := by
      intro k; cases k <;> decide
    intro p hp
    have := List.all_eq_true.mp (this k) p hp
    cases hq : rsplit p.2 with
    | none => rw [hq] at this; cases this
    | some q =>
      rw [hq] at this
      simp at this
      exact ⟨q, rfl, this.1, this.2⟩
  obtain ⟨⟨m, n⟩, hq, h1, h2⟩ := H (a, t) (Dict.mem_of_get? h)
  have := rsplit_some.mp hq
  exact ⟨m, n, this.1, this.2, h1, h2⟩

/-- the classes of the package are importable and of their kinds -/
def Package (py : Py ω β ι ε) (obj : Class → ω) : Prop :=
  ∀ c ∈ classes, py.attr c.module c.name = .ok (obj c) ∧ ∀ k, py.isKind (obj c) k = decide (k = c.kind)

/-- Every built-in alias makes an instance of a class of the package of the right kind; a trigger alias one of the class
that calls itself so. -/
theorem C74_builtin (py : Py ω β ι ε) (obj : Class → ω) (hp : Package py obj) (k : Kind) (a t : Text)
    (h : (defaults k).get? a = some t) : ∃ c ∈ classes, c.kind = k ∧ (k = .trigger → c.alias = some a) ∧
      ∀ args, (create py fresh k a args).2 = make py (obj c) args := by
  have H : ∀ k, (defaults k).all (fun p => match rsplit p.2 with
      | some (m, n) => classes.any fun c => decide (c.module = m ∧ c.name = n ∧ c.kind = k ∧ (k = .trigger → c.alias = some p.1))
      | none => false) = true := by
    intro k; cases k <;> decide
  have := List.all_eq_true.mp (H k) (a, t) (Dict.mem_of_get? h)
  cases hq : rsplit t with
  | none => simp [hq] at this
  | some q =>
    obtain ⟨m, n⟩ := q
    simp only [hq, List.any_eq_true, decide_eq_true_eq] at this
    obtain ⟨c, hc, rfl, rfl, rfl, h4⟩ := this
    refine ⟨c, hc, rfl, h4, fun args => ?_⟩
    obtain ⟨h5, h6⟩ := hp c hc
    have e1 : ((fresh : Reg ω).classes c.kind).get? a = none := rfl
    have e2 : ((fresh : Reg ω).aliases c.kind).get? a = some t := h
    simp only [create, e1, e2, load, hq, h5, h6, decide_true, if_true]

example : Package (ω := Class) (β := Nat) (ι := Nat) (ε := Nat)
    ⟨fun m n => match classes.find? fun c => decide (c.module = m ∧ c.name = n) with
      | some c => .ok c | none => .error .importError, fun c k => decide (k = c.kind), fun _ _ => .ok 0⟩ id := by
  have H : classes.all (fun c => decide ((classes.find? fun d => decide (d.module = c.module ∧ d.name = c.name)) = some c)) = true := by
    decide
  intro c hc
  have := List.all_eq_true.mp H c hc
  simp only [decide_eq_true_eq] at this
  exact ⟨by simp only [this]; rfl, fun _ => rfl⟩

/-! ## Examples and witnesses -/

/-- Objects are numbers: the class `x` of module `m` is 1 (a trigger), `y` is 2 (a store). -/
def exPy : Py Nat Nat (Nat × Dict Text Nat) String where
  attr m n := if m = "m".toList then
      (if n = "x".toList then .ok 1 else if n = "y".toList then .ok 2 else .error .importError)
    else .error .importError
  isKind c k := (c == 1 && k == .trigger) || (c == 2 && k == .store)
  call c args := .ok (c, args)

/-- A scheduler with the alias "t" for a trigger and "w" for something that is no trigger. -/
def exReg : Reg Nat :=
  ⟨fun k => if k = .trigger then [("t".toList, "m:x".toList), ("w".toList, "m:y".toList)] else [], fun _ => []⟩

-- the hypotheses are met by a history that uses both aliases and adds a third
example : Settled [.create .trigger "w".toList [], .create .trigger "t".toList [("n".toList, 3)],
    (.point .store "s".toList "m:y".toList : Op Nat)] .trigger "t".toList := by
  intro l₁ args l₂ e t ht
  have hm : Op.point .trigger "t".toList t ∈ [.create .trigger "w".toList [], .create .trigger "t".toList [("n".toList, 3)],
      (.point .store "s".toList "m:y".toList : Op Nat)] := by
    rw [e]; exact List.mem_append_right _ (List.mem_cons_of_mem _ ht)
  simp at hm

example : (create exPy (run exPy exReg [.create .trigger "w".toList [], .create .trigger "t".toList [],
    .point .store "s".toList "m:y".toList]) .trigger "t".toList [("n".toList, 3)]).2 =
      .ok (1, [("n".toList, 3)]) := by rfl

/-- The check of the kind is made only at the first use: afterwards an alias of another kind is accepted. -/
theorem C74_kind_witness : ∃ (py : Py Nat Nat (Nat × Dict Text Nat) String) (r : Reg Nat) (a : Text),
    (∀ k, r.classes k = []) ∧ (create py r .trigger a []).2 = .error .typeError ∧
    ∃ x, (create py (create py r .trigger a []).1 .trigger a []).2 = .ok x ∧ py.isKind x.1 .trigger = false :=
  ⟨exPy, exReg, "w".toList, fun _ => rfl, rfl, (2, []), rfl, rfl⟩

/-- A new target of an alias that has been used is ignored. -/
theorem C74_stale_witness : ∃ (py : Py Nat Nat (Nat × Dict Text Nat) String) (r : Reg Nat) (a t : Text),
    (∀ k, r.classes k = []) ∧ Names py t 1 ∧ py.isKind 1 .store = false ∧
    (create py (run py r [.create .store a [], .point .store a t]) .store a []).2 = .ok (2, []) := by
  refine ⟨exPy, ⟨fun _ => [("w".toList, "m:y".toList)], fun _ => []⟩, "w".toList, "m:x".toList, fun _ => rfl, ?_, rfl, rfl⟩
  exact ⟨"m".toList, "x".toList, rfl, by decide, rfl⟩

end Plugins
end Asyncz
