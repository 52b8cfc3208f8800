import Verif.Model.TaskObj
/-!
# C25, C26: updating and persisting task objects
-/
namespace Asyncz
namespace TaskObj

/-! ## Specification of `update_task` -/

/-- a number greater than zero; `True` counts as 1 -/
def PositiveNumber (v : Val) : Prop :=
  v = .bool true ∨ (∃ n, 0 < n ∧ v = .int n) ∨ (∃ n, 0 < n ∧ v = .float n)

/-- an integer greater than zero; `True` counts as 1 -/
def PositiveInt (v : Val) : Prop := v = .bool true ∨ (∃ n, 0 < n ∧ v = .int n)

/-- the function meant by the value of the `fn` argument, and its textual reference -/
inductive Resolves (py : Py) : Val → Val → Val → Prop
  | none : Resolves py .none .none .none
  | ref {s c} (h : py.resolve s = some c) : Resolves py (.str s) (.callable c) (.str s)
  | obj {c} : Resolves py (.callable c) (.callable c) (match py.ref c with | some r => .str r | none => .none)

/-- the `fn` argument counts, or else the task's own function -/
def chosen (t : Attrs) (fn : Val) : Val := if fn.truthy then fn else t .fn

/-- function or arguments are to be changed -/
def Touched (fn : Val) (u : String → Option Val) : Prop :=
  fn.truthy = true ∨ (u "args").isSome ∨ (u "kwargs").isSome

/-- a name has to be made up: the task has none and none is given -/
def Nameless (t : Attrs) (u : String → Option Val) : Prop :=
  (t .name).truthy = false ∧ (u "name" = none ∨ u "name" = some .none)

/-- The changes that are accepted: `u key` is the value given for `key`. -/
structure Accepts (py : Py) (t : Attrs) (fn sched : Val) (u : String → Option Val) : Prop where
  scheduler : sched ≠ .none → t .scheduler = .none ∨ t .scheduler = sched
  id : u "id" = none
  fn : Touched fn u → ∃ f r, Resolves py (chosen t fn) f r ∧
    isArgs ((u "args").getD (t .args)) = true ∧ isKwargs ((u "kwargs").getD (t .kwargs)) = true ∧
    ∀ c, f = .callable c → py.argsOk c ((u "args").getD (t .args)) ((u "kwargs").getD (t .kwargs)) = true ∧
      (Nameless t u → ∃ n, py.name c = some n ∧ n ≠ "")
  name : ∀ v, u "name" = some v → v = .none ∨ ∃ s, s ≠ "" ∧ v = .str s
  grace : ∀ v, u "mistrigger_grace_time" = some v → v = .none ∨ PositiveNumber v
  storeAlias : ∀ v, u "store_alias" = some v → ∃ s, v = .str s
  maxInst : ∀ v, u "max_instances" = some v → PositiveInt v
  trigger : ∀ v, u "trigger" = some v → ∃ g, v = .trigger g
  executor : ∀ v, u "executor" = some v → ∃ s, v = .str s
  nrt : ∀ v, u "next_run_time" = some v →
    (∃ k, (if sched = .none then t .scheduler else sched) = .scheduler k) ∧ ∃ w, py.toDatetime v = .ok w
  known : ∀ k, (u k).isSome → k ∈ ["args", "kwargs", "name", "mistrigger_grace_time", "coalesce", "store_alias",
    "max_instances", "trigger", "executor", "next_run_time"]

/-! ## Following the validation -/

/-- the local variables, read as functions -/
def Track (l : Loc) (u : String → Option Val) (A : Attr → Option Val) : Prop :=
  l.updates.WF ∧ l.approved.WF ∧ (∀ k, l.updates.get? k = u k) ∧ ∀ a, l.approved.get? a = A a

def Stage (f : Loc → Except PyErr Loc) (u : String → Option Val) (A : Attr → Option Val) (cond : Prop)
    (u' : String → Option Val) (A' : Attr → Option Val) : Prop :=
  ∀ l, Track l u A → (cond → ∃ l', f l = .ok l' ∧ Track l' u' A') ∧ ∀ l', f l = .ok l' → cond

theorem Stage.comp {f g : Loc → Except PyErr Loc} {u u1 u2 : String → Option Val} {A A1 A2 : Attr → Option Val}
    {c c' : Prop} (h1 : Stage f u A c u1 A1) (h2 : c → Stage g u1 A1 c' u2 A2) :
    Stage (fun l => f l >>= g) u A (c ∧ c') u2 A2 := by
  intro l hl
  have h := h1 l hl
  constructor
  · rintro ⟨hc, hc'⟩
    obtain ⟨l1, e1, t1⟩ := h.1 hc
    obtain ⟨l2, e2, t2⟩ := (h2 hc l1 t1).1 hc'
    exact ⟨l2, by simp only [e1]; exact e2, t2⟩
  · intro l' hl'
    cases hf : f l with
    | error e => simp only [hf] at hl'; cases hl'
    | ok l1 =>
      simp only [hf] at hl'
      have hc := h.2 l1 hf
      obtain ⟨l1', e1, t1⟩ := h.1 hc
      rw [hf] at e1
      cases e1
      exact ⟨hc, (h2 hc l1 t1).2 l' hl'⟩

/-- the given value of `key`, converted -/
def taken (u : String → Option Val) (key : String) (conv : Val → Except PyErr Val) (old : Option Val) : Option Val :=
  match u key with
  | none => old
  | some v => match conv v with
    | .ok w => some w
    | .error _ => old

theorem stage_take (key : String) (a : Attr) (conv : Val → Except PyErr Val) (u : String → Option Val)
    (A : Attr → Option Val) : Stage (take key a conv) u A (∀ v, u key = some v → ∃ w, conv v = .ok w)
      (fun k => if k = key then none else u k) (fun b => if b = a then taken u key conv (A a) else A b) := by
  rintro l ⟨hw, hw', hu, hA⟩
  unfold take
  rw [hu key]
  cases hk : u key with
  | none =>
    refine ⟨fun _ => ⟨l, rfl, hw, hw', ?_, ?_⟩, by simp⟩
    · intro k; by_cases h : k = key
      · subst h; simp [hu, hk]
      · simp [hu, h]
    · intro b; by_cases h : b = a
      · subst h; simp [hA, taken, hk]
      · simp [hA, h]
  | some v =>
    cases hv : conv v with
    | error e =>
      simp only [hv]
      exact ⟨fun h => (by obtain ⟨w, h⟩ := h v rfl; rw [hv] at h; cases h), fun _ h => (by cases h)⟩
    | ok w =>
      simp only [hv]
      refine ⟨fun _ => ⟨_, rfl, hw.erase _, hw'.set _ _, ?_, ?_⟩, fun _ _ v' e => (by cases e; exact ⟨w, hv⟩)⟩
      · intro k; rw [Dict.get?_erase hw, hu]
      · intro b; rw [Dict.get?_set]; by_cases h : b = a
        · simp [h, taken, hk, hv]
        · simp [h, hA]

theorem stage_scheduler (t : Attrs) (sched : Val) (u : String → Option Val) (A : Attr → Option Val) :
    Stage (schedulerStage t sched) u A (sched ≠ .none → t .scheduler = .none ∨ t .scheduler = sched) u
      (fun b => if b = .scheduler ∧ sched ≠ .none then some sched else A b) := by
  rintro l ⟨hw, hw', hu, hA⟩
  unfold schedulerStage
  by_cases h : sched = .none
  · simp only [h, if_true]
    exact ⟨fun _ => ⟨l, rfl, hw, hw', hu, by simpa using hA⟩, by simp⟩
  · simp only [h, if_false]
    by_cases h' : t .scheduler ≠ .none ∧ t .scheduler ≠ sched
    · rw [if_pos h']
      refine ⟨fun hc => ?_, fun _ e => (by cases e)⟩
      rcases hc h with h1 | h1
      · exact absurd h1 h'.1
      · exact absurd h1 h'.2
    · rw [if_neg h']
      refine ⟨fun _ => ⟨_, rfl, hw, hw'.set _ _, hu, ?_⟩, fun _ _ _ => ?_⟩
      · intro b; simp only [Dict.get?_set]; by_cases hb : b = .scheduler <;> simp [hb, h, hA]
      · by_cases h1 : t .scheduler = .none
        · exact Or.inl h1
        · by_cases h2 : t .scheduler = sched
          · exact Or.inr h2
          · exact absurd ⟨h1, h2⟩ h'

theorem stage_id (u : String → Option Val) (A : Attr → Option Val) : Stage idStage u A (u "id" = none) u A := by
  rintro l ⟨hw, hw', hu, hA⟩
  unfold idStage
  have hc : l.updates.contains "id" = (u "id").isSome := by unfold Dict.contains; rw [hu]
  rw [hc]
  cases h : u "id" with
  | none => exact ⟨fun _ => ⟨l, rfl, hw, hw', hu, hA⟩, by simp⟩
  | some v => exact ⟨fun e => (by cases e), fun _ e => (by simp at e)⟩

theorem stage_name (u : String → Option Val) (A : Attr → Option Val) :
    Stage nameStage u A (∀ v, u "name" = some v → v = .none ∨ ∃ s, s ≠ "" ∧ v = .str s)
      (fun k => if k = "name" then none else u k)
      (fun b => if b = .name then (match u "name" with | some (.str s) => some (.str s) | _ => A .name) else A b) := by
  rintro l ⟨hw, hw', hu, hA⟩
  have herase : ∀ k, (l.updates.erase "name").get? k = if k = "name" then none else u k := by
    intro k; rw [Dict.get?_erase hw, hu]
  unfold nameStage
  rw [hu]
  cases h : u "name" with
  | none =>
    refine ⟨fun _ => ⟨_, rfl, hw.erase _, hw', herase, ?_⟩, by simp⟩
    intro b; rw [hA]; by_cases hb : b = .name <;> simp [hb]
  | some v =>
    cases v with
    | none =>
      refine ⟨fun _ => ⟨_, rfl, hw.erase _, hw', herase, ?_⟩, by simp⟩
      intro b; rw [hA]; by_cases hb : b = .name <;> simp [hb]
    | str s =>
      simp only [Option.getD_some]
      by_cases hs : s = ""
      · rw [if_pos hs]
        exact ⟨fun hc => (by rcases hc _ rfl with h | ⟨s', h1, h2⟩ <;> simp_all), fun _ e => (by cases e)⟩
      · rw [if_neg hs]
        refine ⟨fun _ => ⟨_, rfl, hw.erase _, hw'.set _ _, herase, ?_⟩, fun _ _ v e => ?_⟩
        · intro b; simp only [Dict.get?_set]; by_cases hb : b = .name <;> simp [hb, hA]
        · cases e; exact Or.inr ⟨s, hs, rfl⟩
    | _ =>
      refine ⟨fun hc => ?_, fun _ e => (by cases e)⟩
      rcases hc _ rfl with h | ⟨s', h1, h2⟩ <;> simp_all

theorem stage_leftover (u : String → Option Val) (A : Attr → Option Val) :
    Stage leftover u A (∀ k, u k = none) u A := by
  rintro l ⟨hw, hw', hu, hA⟩
  unfold leftover
  cases hl : l.updates with
  | nil =>
    refine ⟨fun _ => ⟨l, rfl, hw, hw', hu, hA⟩, fun _ _ k => ?_⟩
    rw [← hu, hl]; rfl
  | cons p d =>
    refine ⟨fun hc => ?_, fun _ e => (by simp at e)⟩
    have := hu p.1
    rw [hl, hc] at this
    simp [Dict.get?] at this

/-- the name that is made up -/
def madeUp (py : Py) (t : Attrs) (f : Val) (u : String → Option Val) : Option Val :=
  match f with
  | .callable c => if (t .name).truthy = false ∧ (u "name").getD .none = .none then (py.name c).map Val.str else none
  | _ => none

theorem resolveFn_iff (py : Py) (t : Attrs) (fn f r : Val) :
    resolveFn py t fn = .ok (f, r) ↔ Resolves py (chosen t fn) f r := by
  unfold resolveFn chosen
  generalize (if fn.truthy = true then fn else t .fn) = v
  constructor
  · intro h
    cases v with
    | none => simp only [Except.ok.injEq, Prod.mk.injEq] at h; obtain ⟨rfl, rfl⟩ := h; exact .none
    | str s =>
      cases hs : py.resolve s with
      | none => simp [hs] at h
      | some c =>
        simp only [hs, Except.ok.injEq, Prod.mk.injEq] at h
        obtain ⟨rfl, rfl⟩ := h
        exact .ref hs
    | callable c => simp only [Except.ok.injEq, Prod.mk.injEq] at h; obtain ⟨rfl, rfl⟩ := h; exact .obj
    | _ => simp at h
  · intro h
    cases h with
    | none => rfl
    | ref h => simp [h]
    | obj => rfl

theorem nameless_iff (t : Attrs) (u : String → Option Val) :
    ((t .name).truthy = false ∧ (u "name").getD .none = .none) ↔ Nameless t u := by
  unfold Nameless
  cases u "name" <;> simp

/-- condition under which the stage of the function succeeds -/
def FnOk (py : Py) (t : Attrs) (fn : Val) (u : String → Option Val) : Prop :=
  Touched fn u → ∃ f r, Resolves py (chosen t fn) f r ∧
    isArgs ((u "args").getD (t .args)) = true ∧ isKwargs ((u "kwargs").getD (t .kwargs)) = true ∧
    ∀ c, f = .callable c → py.argsOk c ((u "args").getD (t .args)) ((u "kwargs").getD (t .kwargs)) = true ∧
      (Nameless t u → ∃ n, py.name c = some n)

open Classical in
/-- the name given or made up by the stage of the function -/
noncomputable def fnName (py : Py) (t : Attrs) (fn : Val) (u : String → Option Val) : Option Val :=
  if Touched fn u ∧ Nameless t u then
    match resolveFn py t fn with
    | .ok (.callable c, _) => (py.name c).map Val.str
    | _ => u "name"
  else u "name"

open Classical in
noncomputable def fnUpdates (py : Py) (t : Attrs) (fn : Val) (u : String → Option Val) (k : String) : Option Val :=
  if Touched fn u then (if k = "args" ∨ k = "kwargs" then none else if k = "name" then fnName py t fn u else u k)
  else u k

open Classical in
noncomputable def fnApproved (py : Py) (t : Attrs) (fn : Val) (u : String → Option Val) (A : Attr → Option Val)
    (a : Attr) : Option Val :=
  if Touched fn u then
    match resolveFn py t fn with
    | .error _ => A a
    | .ok (f, r) => match a with
      | .fn => some f
      | .fnRef => some r
      | .args => some ((u "args").getD (t .args))
      | .kwargs => some ((u "kwargs").getD (t .kwargs))
      | a => A a
  else A a

theorem stage_fn (py : Py) (t : Attrs) (fn : Val) (u : String → Option Val) (A : Attr → Option Val) :
    Stage (fnStage py t fn) u A (FnOk py t fn u) (fnUpdates py t fn u) (fnApproved py t fn u A) := by
  rintro l ⟨hw, hw', hu, hA⟩
  unfold fnStage
  have hcond : (fn.truthy = true ∨ l.updates.contains "args" = true ∨ l.updates.contains "kwargs" = true) ↔ Touched fn u := by
    unfold Touched Dict.contains; rw [hu, hu]
  by_cases ht : ¬ Touched fn u
  · rw [if_neg (fun h => ht (hcond.1 h))]
    refine ⟨fun _ => ⟨l, rfl, hw, hw', ?_, ?_⟩, fun _ _ h => absurd h ht⟩
    · intro k; rw [hu]; unfold fnUpdates; rw [if_neg ht]
    · intro a; rw [hA]; unfold fnApproved; rw [if_neg ht]
  replace ht := Classical.not_not.1 ht
  rw [if_pos (hcond.2 ht)]
  simp only [hu]
  cases hr : resolveFn py t fn with
  | error e =>
    refine ⟨fun hc => ?_, fun _ h => (by cases h)⟩
    obtain ⟨f, r, h, _⟩ := hc ht
    rw [(resolveFn_iff py t fn f r).2 h] at hr
    cases hr
  | ok p =>
    obtain ⟨f, r⟩ := p
    have hres := (resolveFn_iff py t fn f r).1 hr
    have huniq : ∀ f' r', Resolves py (chosen t fn) f' r' → f' = f ∧ r' = r := by
      intro f' r' h
      rw [(resolveFn_iff py t fn f' r').2 h] at hr
      cases hr; exact ⟨rfl, rfl⟩
    simp only
    -- the updates after removing the arguments
    have hw2 : ((l.updates.erase "args").erase "kwargs").WF := (hw.erase _).erase _
    have hu2 : ∀ k, ((l.updates.erase "args").erase "kwargs").get? k = if k = "args" ∨ k = "kwargs" then none else u k := by
      intro k
      rw [Dict.get?_erase (hw.erase _), Dict.get?_erase hw, hu]
      by_cases h1 : k = "kwargs" <;> by_cases h2 : k = "args" <;> simp [h1, h2]
    -- the default name
    have hname : (∃ u2 : Dict String Val, defaultName py t f { l with updates := (l.updates.erase "args").erase "kwargs" } =
        .ok { l with updates := u2 } ∧ u2.WF ∧ ∀ k, u2.get? k = fnUpdates py t fn u k) ∨
        (∃ e c, defaultName py t f { l with updates := (l.updates.erase "args").erase "kwargs" } = .error e ∧
          f = .callable c ∧ Nameless t u ∧ py.name c = none) := by
      have hnn : ((t .name).truthy = false ∧ (u "name").getD .none = .none) ↔ Nameless t u := nameless_iff t u
      have hsame : (∀ c, f = .callable c → ¬ Nameless t u) → ∀ k, ((l.updates.erase "args").erase "kwargs").get? k = fnUpdates py t fn u k := by
        intro hno k
        rw [hu2]; unfold fnUpdates; rw [if_pos ht]
        split
        · rfl
        · split
          · subst_vars
            unfold fnName
            split
            · rename_i hh
              rw [hr]
              cases f with
              | callable c => exact absurd hh.2 (hno c rfl)
              | _ => rfl
            · rfl
          · rfl
      unfold defaultName
      cases f with
      | callable c =>
        simp only [Bool.not_eq_eq_eq_not, Bool.not_true, hu2]
        rw [if_neg (by decide : ¬ ("name" = "args" ∨ "name" = "kwargs"))]
        by_cases hn : Nameless t u
        · rw [if_pos (hnn.2 hn)]
          cases hp : py.name c with
          | none => exact Or.inr ⟨_, c, rfl, rfl, hn, hp⟩
          | some n =>
            refine Or.inl ⟨_, rfl, hw2.set _ _, ?_⟩
            intro k
            rw [Dict.get?_set, hu2]
            unfold fnUpdates
            rw [if_pos ht]
            by_cases hk : k = "name"
            · subst hk
              rw [if_pos rfl, if_neg (by decide : ¬ ("name" = "args" ∨ "name" = "kwargs")), if_pos rfl]
              unfold fnName
              rw [if_pos ⟨ht, hn⟩, hr]
              simp [hp]
            · rw [if_neg hk, if_neg hk]
        · rw [if_neg (fun h => hn (hnn.1 h))]
          exact Or.inl ⟨_, rfl, hw2, hsame (fun _ _ => hn)⟩
      | _ => exact Or.inl ⟨_, rfl, hw2, hsame (fun _ h => (by cases h))⟩
    rcases hname with ⟨u2, he, hw3, hu3⟩ | ⟨e, c, he, hfc, hnl, hpn⟩
    · rw [he]
      simp only
      by_cases ha : isArgs ((u "args").getD (t .args)) = false
      · rw [if_pos ha]
        refine ⟨fun hc => ?_, fun _ h => (by cases h)⟩
        obtain ⟨f', r', _, h, _⟩ := hc ht
        rw [ha] at h; cases h
      rw [if_neg ha]
      by_cases hk : isKwargs ((u "kwargs").getD (t .kwargs)) = false
      · rw [if_pos hk]
        refine ⟨fun hc => ?_, fun _ h => (by cases h)⟩
        obtain ⟨f', r', _, _, h, _⟩ := hc ht
        rw [hk] at h; cases h
      rw [if_neg hk]
      by_cases hc : callOk py f ((u "args").getD (t .args)) ((u "kwargs").getD (t .kwargs)) = false
      · rw [if_pos hc]
        refine ⟨fun hh => ?_, fun _ h => (by cases h)⟩
        obtain ⟨f', r', h1, _, _, h⟩ := hh ht
        obtain ⟨rfl, rfl⟩ := huniq _ _ h1
        cases f' with
        | callable c => have := (h c rfl).1; simp only [callOk] at hc; rw [this] at hc; cases hc
        | _ => simp [callOk] at hc
      rw [if_neg hc]
      refine ⟨fun _ => ⟨_, rfl, hw3, (((hw'.set _ _).set _ _).set _ _).set _ _, hu3, ?_⟩, fun _ _ _ => ?_⟩
      · intro a
        simp only [Dict.get?_set, hA]
        unfold fnApproved
        rw [if_pos ht, hr]
        cases a <;> simp
      · refine ⟨f, r, hres, by simpa using ha, by simpa using hk, ?_⟩
        rintro c rfl
        refine ⟨by simpa [callOk] using hc, fun hn => ?_⟩
        cases hp : py.name c with
        | some n => exact ⟨n, rfl⟩
        | none =>
          exfalso
          unfold defaultName at he
          simp only [Bool.not_eq_eq_eq_not, Bool.not_true, hu2] at he
          rw [if_neg (by decide : ¬ ("name" = "args" ∨ "name" = "kwargs")), if_pos ((nameless_iff t u).2 hn)] at he
          simp [hp] at he
    · rw [he]
      refine ⟨fun hc => ?_, fun _ h => (by cases h)⟩
      obtain ⟨f', r', h1, _, _, h⟩ := hc ht
      obtain ⟨rfl, rfl⟩ := huniq _ _ h1
      obtain ⟨n, hn⟩ := (h c hfc).2 hnl
      rw [hpn] at hn; cases hn

/-! ## The whole update -/

theorem convGrace_iff (v w : Val) : convGrace v = .ok w ↔ (v = .none ∨ PositiveNumber v) ∧ w = v := by
  unfold PositiveNumber
  cases v with
  | none => simp [convGrace, eq_comm]
  | bool b => cases b <;> simp [convGrace, eq_comm]
  | int n =>
    by_cases h : n ≤ 0
    · simp [convGrace, h]; omega
    · simp [convGrace, h, eq_comm]; omega
  | float n =>
    by_cases h : n ≤ 0
    · simp [convGrace, h]; omega
    · simp [convGrace, h, eq_comm]; omega
  | _ => simp [convGrace]

theorem convMax_iff (v w : Val) : convMax v = .ok w ↔ PositiveInt v ∧ w = v := by
  unfold PositiveInt
  cases v with
  | bool b => cases b <;> simp [convMax, eq_comm]
  | int n =>
    by_cases h : n ≤ 0
    · simp [convMax, h]; omega
    · simp [convMax, h, eq_comm]; omega
  | _ => simp [convMax]

theorem convStr_iff (v w : Val) : convStr v = .ok w ↔ (∃ s, v = .str s) ∧ w = v := by
  cases v <;> simp [convStr, eq_comm]

theorem convTrigger_iff (v w : Val) : convTrigger v = .ok w ↔ (∃ s, v = .trigger s) ∧ w = v := by
  cases v <;> simp [convTrigger, eq_comm]

theorem convNrt_iff (py : Py) (sched v w : Val) :
    convNrt py sched v = .ok w ↔ (∃ k, sched = .scheduler k) ∧ py.toDatetime v = .ok w := by
  cases sched <;> simp [convNrt]

theorem assign_get {d : Dict Attr Val} (hd : d.WF) (t : Attrs) (a : Attr) :
    assign t d a = (d.get? a).getD (t a) := by
  induction d generalizing t with
  | nil => rfl
  | cons p d ih =>
    obtain ⟨b, v⟩ := p
    have hn := hd
    unfold Dict.WF at hn
    simp only [Dict.keys, List.map_cons, List.nodup_cons] at hn
    have hd' : Dict.WF d := hn.2
    rw [assign, ih hd']
    by_cases h : b = a
    · subst h
      have : Dict.get? d b = none := by
        cases hg : Dict.get? d b with
        | none => rfl
        | some x => exact absurd (List.mem_map.2 ⟨(b, x), Dict.mem_of_get? hg, rfl⟩) hn.1
      simp [this, Dict.get?, Attrs.set]
    · simp [Dict.get?, h, Attrs.set, Ne.symm h, show ¬ a = b from fun e => h e.symm]

/-- What an accepted update does to every attribute: `t'` is the task afterwards. -/
structure Effect (py : Py) (t : Attrs) (fn sched : Val) (u : String → Option Val) (t' : Attrs) : Prop where
  id : t' .id = t .id
  scheduler : t' .scheduler = if sched = .none then t .scheduler else sched
  fnSet : Touched fn u → Resolves py (chosen t fn) (t' .fn) (t' .fnRef) ∧
    t' .args = (u "args").getD (t .args) ∧ t' .kwargs = (u "kwargs").getD (t .kwargs)
  fnKept : ¬ Touched fn u → t' .fn = t .fn ∧ t' .fnRef = t .fnRef ∧ t' .args = t .args ∧ t' .kwargs = t .kwargs
  nameGiven : ∀ s, u "name" = some (.str s) → t' .name = .str s
  nameMadeUp : Nameless t u → Touched fn u → ∀ c, t' .fn = .callable c → ∃ n, py.name c = some n ∧ t' .name = .str n
  nameKept : (u "name" = none ∨ u "name" = some .none) →
    (¬ Nameless t u ∨ ¬ Touched fn u ∨ ∀ c, t' .fn ≠ .callable c) → t' .name = t .name
  grace : t' .grace = (u "mistrigger_grace_time").getD (t .grace)
  coalesce : t' .coalesce = match u "coalesce" with | some v => .bool v.truthy | none => t .coalesce
  storeAlias : t' .storeAlias = (u "store_alias").getD (t .storeAlias)
  maxInst : t' .maxInst = (u "max_instances").getD (t .maxInst)
  trigger : t' .trigger = (u "trigger").getD (t .trigger)
  executor : t' .executor = (u "executor").getD (t .executor)
  nrt : ∀ v, u "next_run_time" = some v → py.toDatetime v = .ok (t' .nrt)
  nrtKept : u "next_run_time" = none → t' .nrt = t .nrt

theorem fnUpdates_other (py : Py) (t : Attrs) (fn : Val) (u : String → Option Val) (k : String)
    (h1 : k ≠ "args") (h2 : k ≠ "kwargs") (h3 : k ≠ "name") : fnUpdates py t fn u k = u k := by
  unfold fnUpdates
  simp [h1, h2, h3]

theorem fnUpdates_name (py : Py) (t : Attrs) (fn : Val) (u : String → Option Val) :
    fnUpdates py t fn u "name" = fnName py t fn u := by
  unfold fnUpdates fnName
  by_cases h : Touched fn u <;> simp [h]

theorem fnName_kept {py : Py} {t : Attrs} {fn : Val} {u : String → Option Val}
    (h : ¬ (Touched fn u ∧ Nameless t u)) : fnName py t fn u = u "name" := by
  unfold fnName; rw [if_neg h]

theorem fnName_callable {py : Py} {t : Attrs} {fn r : Val} {u : String → Option Val} {c : Nat}
    (h : Touched fn u ∧ Nameless t u) (hr : resolveFn py t fn = .ok (.callable c, r)) :
    fnName py t fn u = (py.name c).map Val.str := by
  unfold fnName; rw [if_pos h, hr]

theorem fnName_none {py : Py} {t : Attrs} {fn r : Val} {u : String → Option Val}
    (hr : resolveFn py t fn = .ok (.none, r)) : fnName py t fn u = u "name" := by
  unfold fnName; rw [hr]; split <;> rfl

theorem Resolves.shape {py : Py} {v f r : Val} (h : Resolves py v f r) : f = .none ∨ ∃ c, f = .callable c := by
  cases h
  · exact Or.inl rfl
  · exact Or.inr ⟨_, rfl⟩
  · exact Or.inr ⟨_, rfl⟩

theorem nameless_name {t : Attrs} {u : String → Option Val} (h : Nameless t u) (v : Val) (hv : u "name" = some v) :
    v = .none := by
  rcases h.2 with h | h
  · rw [h] at hv; cases hv
  · rw [h] at hv; cases hv; rfl

theorem stage_congr {f : Loc → Except PyErr Loc} {u u' : String → Option Val} {A A' : Attr → Option Val} {c c' : Prop}
    (h : Stage f u A c u' A') (hc : c ↔ c') : Stage f u A c' u' A' := by
  intro l hl
  exact ⟨fun h' => (h l hl).1 (hc.2 h'), fun l' h' => hc.1 ((h l hl).2 l' h')⟩

theorem validate_stage (py : Py) (t : Attrs) (fn sched : Val) (u : String → Option Val) :
    ∃ (u' : String → Option Val) (A' : Attr → Option Val),
      Stage (fun l => do
        let l ← schedulerStage t sched l
        let l ← idStage l
        let l ← fnStage py t fn l
        let l ← nameStage l
        let l ← take "mistrigger_grace_time" .grace convGrace l
        let l ← take "coalesce" .coalesce convCoalesce l
        let l ← take "store_alias" .storeAlias convStr l
        let l ← take "max_instances" .maxInst convMax l
        let l ← take "trigger" .trigger convTrigger l
        let l ← take "executor" .executor convStr l
        let l ← take "next_run_time" .nrt (convNrt py (if sched = .none then t .scheduler else sched)) l
        leftover l) u (fun _ => none) (Accepts py t fn sched u) u' A' ∧
      (Accepts py t fn sched u → Effect py t fn sched u (fun a => (A' a).getD (t a))) := by
  have key := Stage.comp (stage_scheduler t sched u (fun _ => none)) fun _ =>
    Stage.comp (stage_id _ _) fun _ =>
    Stage.comp (stage_fn py t fn _ _) fun _ =>
    Stage.comp (stage_name _ _) fun _ =>
    Stage.comp (stage_take "mistrigger_grace_time" .grace convGrace _ _) fun _ =>
    Stage.comp (stage_take "coalesce" .coalesce convCoalesce _ _) fun _ =>
    Stage.comp (stage_take "store_alias" .storeAlias convStr _ _) fun _ =>
    Stage.comp (stage_take "max_instances" .maxInst convMax _ _) fun _ =>
    Stage.comp (stage_take "trigger" .trigger convTrigger _ _) fun _ =>
    Stage.comp (stage_take "executor" .executor convStr _ _) fun _ =>
    Stage.comp (stage_take "next_run_time" .nrt (convNrt py (if sched = .none then t .scheduler else sched)) _ _) fun _ =>
    stage_leftover _ _
  refine ⟨_, _, stage_congr key ?_, ?_⟩
  · clear key
    constructor
    · rintro ⟨h1, h2, h3, h4, h5, -, h7, h8, h9, h10, h11, h12⟩
      simp only [fnUpdates_name] at h4
      simp [fnUpdates_other] at h5
      simp [fnUpdates_other] at h7
      simp [fnUpdates_other] at h8
      simp [fnUpdates_other] at h9
      simp [fnUpdates_other] at h10
      simp [fnUpdates_other] at h11
      refine ⟨h1, h2, ?_, ?_, ?_, ?_, ?_, ?_, ?_, ?_, ?_⟩
      · intro ht
        obtain ⟨f, r, a1, a2, a3, a4⟩ := h3 ht
        refine ⟨f, r, a1, a2, a3, fun c hc => ⟨(a4 c hc).1, fun hn => ?_⟩⟩
        obtain ⟨n, b1⟩ := (a4 c hc).2 hn
        subst hc
        have := h4 (.str n)
        rw [fnName_callable ⟨ht, hn⟩ ((resolveFn_iff _ _ _ _ _).2 a1), b1] at this
        rcases this rfl with e | ⟨s, e, e'⟩
        · cases e
        · cases e'; exact ⟨n, b1, e⟩
      · intro v hv
        by_cases hh : Touched fn u ∧ Nameless t u
        · exact Or.inl (nameless_name hh.2 v hv)
        · exact h4 v (by rw [fnName_kept hh, hv])
      · intro v hv; obtain ⟨w, hw⟩ := h5 v hv; exact ((convGrace_iff v w).1 hw).1
      · intro v hv; obtain ⟨w, hw⟩ := h7 v hv; exact ((convStr_iff v w).1 hw).1
      · intro v hv; obtain ⟨w, hw⟩ := h8 v hv; exact ((convMax_iff v w).1 hw).1
      · intro v hv; obtain ⟨w, hw⟩ := h9 v hv; exact ((convTrigger_iff v w).1 hw).1
      · intro v hv; obtain ⟨w, hw⟩ := h10 v hv; exact ((convStr_iff v w).1 hw).1
      · intro v hv; obtain ⟨w, hw⟩ := h11 v hv
        have := (convNrt_iff _ _ v w).1 hw
        exact ⟨this.1, w, this.2⟩
      · intro k hk
        have := h12 k
        by_cases hin : k ∈ ["args", "kwargs", "name", "mistrigger_grace_time", "coalesce", "store_alias",
          "max_instances", "trigger", "executor", "next_run_time"]
        · exact hin
        · exfalso
          simp only [List.mem_cons, List.not_mem_nil, or_false, not_or] at hin
          obtain ⟨n1, n2, n3, n4, n5, n6, n7, n8, n9, n10⟩ := hin
          rw [if_neg n10, if_neg n9, if_neg n8, if_neg n7, if_neg n6, if_neg n5, if_neg n4, if_neg n3,
            fnUpdates_other _ _ _ _ _ n1 n2 n3] at this
          rw [this] at hk; cases hk
    · rintro ⟨h1, h2, h3, h4, h5, h6, h7, h8, h9, h10, h11⟩
      simp only [fnUpdates_name]
      refine ⟨h1, h2, ?_, ?_, ?_, ?_, ?_, ?_, ?_, ?_, ?_, ?_⟩
      · intro ht
        obtain ⟨f, r, a1, a2, a3, a4⟩ := h3 ht
        exact ⟨f, r, a1, a2, a3, fun c hc => ⟨(a4 c hc).1, fun hn => ⟨_, ((a4 c hc).2 hn).choose_spec.1⟩⟩⟩
      · intro v hv
        by_cases hh : Touched fn u ∧ Nameless t u
        · obtain ⟨f, r, a1, a2, a3, a4⟩ := h3 hh.1
          rcases a1.shape with rfl | ⟨c, rfl⟩
          · rw [fnName_none ((resolveFn_iff _ _ _ _ _).2 a1)] at hv
            exact h4 v hv
          · obtain ⟨n, b1, b2⟩ := (a4 c rfl).2 hh.2
            rw [fnName_callable hh ((resolveFn_iff _ _ _ _ _).2 a1), b1] at hv
            cases hv
            exact Or.inr ⟨n, b2, rfl⟩
        · rw [fnName_kept hh] at hv; exact h4 v hv
      · simp [fnUpdates_other]; intro v hv; exact ⟨v, (convGrace_iff v v).2 ⟨h5 v hv, rfl⟩⟩
      · intro v _; exact ⟨_, rfl⟩
      · simp [fnUpdates_other]; intro v hv; exact ⟨v, (convStr_iff v v).2 ⟨h6 v hv, rfl⟩⟩
      · simp [fnUpdates_other]; intro v hv; exact ⟨v, (convMax_iff v v).2 ⟨h7 v hv, rfl⟩⟩
      · simp [fnUpdates_other]; intro v hv; exact ⟨v, (convTrigger_iff v v).2 ⟨h8 v hv, rfl⟩⟩
      · simp [fnUpdates_other]; intro v hv; exact ⟨v, (convStr_iff v v).2 ⟨h9 v hv, rfl⟩⟩
      · simp [fnUpdates_other]; intro v hv
        obtain ⟨k, w, hw⟩ := h10 v hv
        exact ⟨w, (convNrt_iff _ _ v w).2 ⟨k, hw⟩⟩
      · intro k
        repeat' (split; rfl)
        by_cases e1 : k = "args"
        · subst e1; unfold fnUpdates; by_cases ht : Touched fn u
          · simp [ht]
          · rw [if_neg ht]; unfold Touched at ht; simp at ht; exact ht.2.1
        by_cases e2 : k = "kwargs"
        · subst e2; unfold fnUpdates; by_cases ht : Touched fn u
          · simp [ht]
          · rw [if_neg ht]; unfold Touched at ht; simp at ht; exact ht.2.2
        rw [fnUpdates_other _ _ _ _ _ e1 e2 (by assumption)]
        cases hk : u k with
        | none => rfl
        | some v =>
          exfalso
          have := h11 k (by simp [hk])
          simp_all
  · clear key
    intro h
    have hothers : ∀ a, a ≠ Attr.name → a ≠ .fn → a ≠ .fnRef → a ≠ .args → a ≠ .kwargs → ∀ A,
        fnApproved py t fn u A a = A a := by
      intro a _ h2 h3 h4 h5 A
      unfold fnApproved
      split
      · cases resolveFn py t fn with
        | error e => rfl
        | ok p => cases a <;> simp_all
      · rfl
    constructor
    · simp [hothers]
    · simp [hothers]; split <;> simp_all
    · intro ht
      obtain ⟨f, r, a1, _⟩ := h.fn ht
      have hr := (resolveFn_iff _ _ _ _ _).2 a1
      simp [fnApproved, ht, hr]
      exact a1
    · intro ht
      simp [fnApproved, ht]
    · intro s hs
      have : ¬ (Touched fn u ∧ Nameless t u) := fun hh => (by have := nameless_name hh.2 _ hs; cases this)
      simp [fnUpdates_name, fnName_kept this, hs]
    · intro hn ht c
      obtain ⟨f, r, a1, _, _, a4⟩ := h.fn ht
      have hr := (resolveFn_iff _ _ _ _ _).2 a1
      simp [fnApproved, ht, hr, fnUpdates_name]
      rintro rfl
      obtain ⟨n, b1, b2⟩ := (a4 c rfl).2 hn
      rw [fnName_callable ⟨ht, hn⟩ hr]
      exact ⟨n, b1, by simp [b1]⟩
    · intro hu hcase
      have hname : fnName py t fn u = u "name" := by
        by_cases hh : Touched fn u ∧ Nameless t u
        · obtain ⟨f, r, a1, _, _, a4⟩ := h.fn hh.1
          have hr := (resolveFn_iff _ _ _ _ _).2 a1
          rcases hcase with hc | hc | hc
          · exact absurd hh.2 hc
          · exact absurd hh.1 hc
          · rcases a1.shape with rfl | ⟨c, rfl⟩
            · exact fnName_none hr
            · have := hc c
              simp [fnApproved, hh.1, hr] at this
        · exact fnName_kept hh
      simp [fnUpdates_name, hname]
      have : fnApproved py t fn u (fun b => if b = .scheduler ∧ sched ≠ .none then some sched else none) .name = none := by
        unfold fnApproved; split
        · cases resolveFn py t fn with
          | error e => rfl
          | ok p => rfl
        · rfl
      rcases hu with hu | hu <;> simp_all
    · simp [taken, fnUpdates_other, hothers]
      cases hv : u "mistrigger_grace_time" with
      | none => rfl
      | some v => simp [(convGrace_iff v v).2 ⟨h.grace v hv, rfl⟩]
    · simp [taken, fnUpdates_other, hothers]
      cases hv : u "coalesce" with
      | none => rfl
      | some v => rfl
    · simp [taken, fnUpdates_other, hothers]
      cases hv : u "store_alias" with
      | none => rfl
      | some v => simp [(convStr_iff v v).2 ⟨h.storeAlias v hv, rfl⟩]
    · simp [taken, fnUpdates_other, hothers]
      cases hv : u "max_instances" with
      | none => rfl
      | some v => simp [(convMax_iff v v).2 ⟨h.maxInst v hv, rfl⟩]
    · simp [taken, fnUpdates_other, hothers]
      cases hv : u "trigger" with
      | none => rfl
      | some v => simp [(convTrigger_iff v v).2 ⟨h.trigger v hv, rfl⟩]
    · simp [taken, fnUpdates_other, hothers]
      cases hv : u "executor" with
      | none => rfl
      | some v => simp [(convStr_iff v v).2 ⟨h.executor v hv, rfl⟩]
    · intro v hv
      obtain ⟨hk, w, hw⟩ := h.nrt v hv
      have := (convNrt_iff py _ v w).2 ⟨hk, hw⟩
      simp [taken, fnUpdates_other, hv, this, hw]
    · intro hv
      simp [taken, fnUpdates_other, hothers, hv]

/-! ## C25 -/

/-- **C25.** For every task, every `fn` and `scheduler` argument and every set of other keyword arguments:
the update either is accepted, raises nothing and changes exactly what was asked for (`Effect`), or is not
accepted, raises and leaves every attribute of the task as it was.  `Accepts` says which are accepted.
`updates` are keyword arguments, so no key occurs twice. -/
theorem C25_update_task (py : Py) (t : Attrs) (fn sched : Val) (updates : Dict String Val) (hw : updates.WF) :
    (Accepts py t fn sched updates.get? →
      (update py t fn sched updates).2 = none ∧ Effect py t fn sched updates.get? (update py t fn sched updates).1) ∧
    (¬ Accepts py t fn sched updates.get? →
      (update py t fn sched updates).2.isSome ∧ (update py t fn sched updates).1 = t) := by
  obtain ⟨u', A', hst, heff⟩ := validate_stage py t fn sched updates.get?
  have h := hst ⟨[], updates⟩ ⟨hw, Dict.WF.nil, fun _ => rfl, fun _ => rfl⟩
  constructor
  · intro ha
    obtain ⟨l, hl, _, hwf, _, hA⟩ := h.1 ha
    have hv : validate py t fn sched updates = .ok l := hl
    have he := heff ha
    unfold update
    rw [hv]
    refine ⟨rfl, ?_⟩
    have : assign t l.approved = fun a => (A' a).getD (t a) := by
      funext a; rw [assign_get hwf, hA]
    simp only [this]
    exact he
  · intro ha
    unfold update
    cases hv : validate py t fn sched updates with
    | error e => exact ⟨rfl, rfl⟩
    | ok l => exact absurd (h.2 l hv) ha

/-- the rejections named in the property -/
theorem C25_rejects (py : Py) (t : Attrs) (fn sched : Val) (updates : Dict String Val) (hw : updates.WF)
    (hbad : (∃ v, updates.get? "id" = some v) ∨
      (∃ n, n ≤ 0 ∧ updates.get? "max_instances" = some (.int n)) ∨
      (∃ v, updates.get? "max_instances" = some v ∧ (∀ n, v ≠ .int n) ∧ ∀ b, v ≠ .bool b) ∨
      (∃ n, n ≤ 0 ∧ (updates.get? "mistrigger_grace_time" = some (.int n) ∨
        updates.get? "mistrigger_grace_time" = some (.float n))) ∨
      (∃ s, updates.get? "mistrigger_grace_time" = some (.str s)) ∨
      (∃ v, updates.get? "trigger" = some v ∧ ∀ g, v ≠ .trigger g) ∨
      (∃ v, updates.get? "executor" = some v ∧ ∀ s, v ≠ .str s) ∨
      (∃ v, updates.get? "store_alias" = some v ∧ ∀ s, v ≠ .str s) ∨
      (∃ v, updates.get? "name" = some v ∧ v ≠ .none ∧ ∀ s, s ≠ "" → v ≠ .str s) ∨
      (∃ v, updates.get? "args" = some v ∧ (∀ l, v ≠ .seq l) ∧ ∀ m, v ≠ .map m) ∨
      (∃ v, updates.get? "kwargs" = some v ∧ ∀ m, v ≠ .map m) ∨
      (sched ≠ .none ∧ t .scheduler ≠ .none ∧ t .scheduler ≠ sched) ∨
      (∃ k v, updates.get? k = some v ∧ k ∉ ["args", "kwargs", "name", "mistrigger_grace_time", "coalesce",
        "store_alias", "max_instances", "trigger", "executor", "next_run_time"])) :
    (update py t fn sched updates).2.isSome ∧ (update py t fn sched updates).1 = t := by
  refine (C25_update_task py t fn sched updates hw).2 fun ha => ?_
  rcases hbad with ⟨v, h⟩ | ⟨n, hn, h⟩ | ⟨v, h, h1, h2⟩ | ⟨n, hn, h⟩ | ⟨s, h⟩ | ⟨v, h, h1⟩ | ⟨v, h, h1⟩ | ⟨v, h, h1⟩ |
    ⟨v, h, h1, h2⟩ | ⟨v, h, h1, h2⟩ | ⟨v, h, h1⟩ | ⟨h1, h2, h3⟩ | ⟨k, v, h, h1⟩
  · rw [ha.id] at h; cases h
  · rcases ha.maxInst _ h with e | ⟨m, hm, e⟩
    · cases e
    · cases e; omega
  · rcases ha.maxInst _ h with e | ⟨m, hm, e⟩
    · exact h2 _ e
    · exact h1 _ e
  · rcases h with h | h <;> rcases ha.grace _ h with e | e | ⟨m, hm, e⟩ | ⟨m, hm, e⟩ <;> cases e <;> omega
  · rcases ha.grace _ h with e | e | ⟨m, hm, e⟩ | ⟨m, hm, e⟩ <;> cases e
  · obtain ⟨g, e⟩ := ha.trigger _ h; exact h1 g e
  · obtain ⟨g, e⟩ := ha.executor _ h; exact h1 g e
  · obtain ⟨g, e⟩ := ha.storeAlias _ h; exact h1 g e
  · rcases ha.name _ h with e | ⟨s, hs, e⟩
    · exact h1 e
    · exact h2 s hs e
  · obtain ⟨f, r, _, e, _⟩ := ha.fn (Or.inr (Or.inl (by rw [h]; rfl)))
    rw [h] at e; simp only [Option.getD_some] at e
    cases v with
    | seq l => exact h1 l rfl
    | map m => exact h2 m rfl
    | _ => cases e
  · obtain ⟨f, r, _, _, e, _⟩ := ha.fn (Or.inr (Or.inr (by rw [h]; rfl)))
    rw [h] at e; simp only [Option.getD_some] at e
    cases v with
    | map m => exact h1 m rfl
    | _ => cases e
  · rcases ha.scheduler h1 with e | e
    · exact h2 e
    · exact h3 e
  · exact h1 (ha.known k (by rw [h]; rfl))

/-- a small interpreter: `"m:f"` is the function 1 taking up to two positional arguments -/
def exPy : Py where
  resolve s := if s = "m:f" then some 1 else none
  ref c := if c = 1 then some "m:f" else none
  name c := if c = 1 then some "f" else none
  argsOk _ a _ := match a with | .seq xs => decide (xs.length ≤ 2) | _ => false
  toDatetime v := match v with | .datetime u => .ok (.datetime u) | .none => .ok .none | _ => .error .typeError

/-- a task as `Task()` creates it, with an id -/
def exBlank : Attrs := fun a => match a with
  | .id => .str "t1" | .args => .seq [] | .kwargs => .map [] | .maxInst => .int 1 | .coalesce => .bool false
  | _ => .none

/-- setting the function by reference, with two arguments, a grace time and a maximum -/
def exUpdates : Dict String Val :=
  [("args", .seq [7, 8]), ("max_instances", .int 3), ("mistrigger_grace_time", .float 1500000), ("coalesce", .int 5)]

example : (update exPy exBlank (.str "m:f") .none exUpdates).2 = none ∧
    [Attr.id, .fn, .fnRef, .args, .name, .maxInst, .grace, .coalesce, .executor].map
      (update exPy exBlank (.str "m:f") .none exUpdates).1 =
      [.str "t1", .callable 1, .str "m:f", .seq [7, 8], .str "f", .int 3, .float 1500000, .bool true, .none] := by
  decide +kernel

/-- the accepted case is met ... -/
example : Accepts exPy exBlank (.str "m:f") .none (Dict.get? exUpdates) := by
  have hw : Dict.WF exUpdates := by unfold Dict.WF; decide +kernel
  refine Classical.byContradiction fun h => ?_
  have := (C25_update_task exPy exBlank (.str "m:f") .none exUpdates hw).2 h
  have h2 : (update exPy exBlank (.str "m:f") .none exUpdates).2 = none := by decide +kernel
  rw [h2] at this
  cases this.1

/-- ... and one bad value among good ones rejects them all -/
example : (update exPy exBlank (.str "m:f") .none (Dict.set exUpdates "max_instances" (.int 0))).2 = some .typeError ∧
    (update exPy exBlank (.str "m:f") .none (Dict.set exUpdates "max_instances" (.int 0))).1 .args = .seq [] := by
  decide +kernel

/-! ## C26 -/

/-- The textual reference of a task leads back to its function: to the function itself, or, for a method
bound to an object when the reference was derived from it, to the function of the class. -/
inductive Faithful (resolve : String → Option Fn) (ref : Fn → Option String) (t : Full) (r : String) : Prop
  | same (h : resolve r = some t.fn) (hn : ∀ self f, t.fn = .bound self f → ref t.fn ≠ some r)
  | method (self f : Nat) (hf : t.fn = .bound self f) (hr : ref t.fn = some r) (h : resolve r = some (.plain f))

/-- **C26.** A task that can be serialised and whose reference leads back to its function is restored with
the same id, name, function reference, trigger, executor, coalesce, max_instances, misfire grace time and
next run time, and running it makes the same call (same function, same positional and keyword arguments;
a bound method becomes its function with the object as first argument).  It is no longer pending.

Partial: `obj_to_ref` does not check that the reference leads back (see `C26_classmethod_witness`). -/
theorem C26_round_trip_partial (resolve : String → Option Fn) (ref : Fn → Option String) (t : Full) (s : Saved)
    (hs : save ref t = some s) (hf : ∀ r, t.fnRef = some r → Faithful resolve ref t r) :
    ∃ t', restore resolve s = some t' ∧ t'.id = t.id ∧ t'.name = t.name ∧ t'.fnRef = t.fnRef ∧ t'.call = t.call ∧
      t'.kwargs = t.kwargs ∧ ((∀ self f, t.fn ≠ .bound self f) → t'.fn = t.fn ∧ t'.args = t.args) ∧
      t'.trigger = t.trigger ∧ t'.executor = t.executor ∧ t'.coalesce = t.coalesce ∧ t'.maxInst = t.maxInst ∧
      t'.grace = t.grace ∧ t'.nrt = t.nrt ∧ t'.pending = false ∧ t'.submitted = true := by
  unfold save at hs
  cases hr : t.fnRef with
  | none => simp [hr] at hs
  | some r =>
    simp only [hr] at hs
    by_cases he : r = ""
    · simp [he] at hs
    rw [if_neg he] at hs
    cases hg : saveGrace t.grace with
    | none => simp [hg] at hs
    | some g =>
      simp only [hg, Option.some.injEq] at hs
      subst hs
      have hgrace : g.map (· * 1000000) = t.grace := by
        unfold saveGrace at hg
        cases hh : t.grace with
        | none => simp [hh] at hg; subst hg; rfl
        | some x =>
          simp only [hh] at hg
          split at hg
          · simp only [Option.some.injEq] at hg; subst hg
            simp only [Option.map_some, Option.some.injEq]; omega
          · cases hg
      rcases hf r hr with ⟨h, hn⟩ | ⟨self, f, hfn, hrf, h⟩
      · have hargs : saveArgs ref t r = t.args := by
          unfold saveArgs
          cases hfn : t.fn with
          | bound self f =>
            have := hn self f hfn
            rw [hfn] at this
            simp [this]
          | _ => rfl
        simp only [restore, h, Option.some.injEq, exists_eq_left']
        simp [hargs, hgrace, Full.call]
      · have hargs : saveArgs ref t r = self :: t.args := by
          unfold saveArgs
          rw [hfn] at hrf
          simp [hfn, hrf]
        simp only [restore, h, Option.some.injEq, exists_eq_left']
        simp [hargs, hgrace, Full.call, hfn]

/-- Saving a restored task again gives what was saved the first time. -/
theorem C26_again_partial (resolve : String → Option Fn) (ref : Fn → Option String) (t t' : Full) (s : Saved)
    (hs : save ref t = some s) (hf : ∀ r, t.fnRef = some r → Faithful resolve ref t r)
    (hr : restore resolve s = some t') : save ref t' = some s := by
  have hg : ∃ g r, saveGrace t.grace = some g ∧ t.fnRef = some r ∧ r ≠ "" ∧ s = {
      id := t.id, name := t.name, fnRef := r, args := saveArgs ref t r, kwargs := t.kwargs, trigger := t.trigger,
      executor := t.executor, coalesce := t.coalesce, maxInst := t.maxInst, grace := g, nrt := t.nrt } := by
    unfold save at hs
    cases hr : t.fnRef with
    | none => simp [hr] at hs
    | some r =>
      simp only [hr] at hs
      by_cases he : r = ""
      · simp [he] at hs
      rw [if_neg he] at hs
      cases hg : saveGrace t.grace with
      | none => simp [hg] at hs
      | some g =>
        simp only [hg, Option.some.injEq] at hs
        exact ⟨g, r, rfl, rfl, he, hs.symm⟩
  obtain ⟨g, r, h1, h2, h3, rfl⟩ := hg
  have hgg : saveGrace (g.map (· * 1000000)) = some g := by
    cases g with
    | none => rfl
    | some x => simp [saveGrace]
  unfold restore at hr
  cases hres : resolve r with
  | none => simp [hres] at hr
  | some f =>
    simp only [hres, Option.some.injEq] at hr
    subst hr
    unfold save
    simp only [h3, if_false, hgg, Option.some.injEq, Saved.mk.injEq, true_and, and_true]
    rcases hf r h2 with ⟨h, hn⟩ | ⟨self, f', hfn, hrf, h⟩
    · rw [hres] at h
      cases h
      unfold saveArgs
      cases hfn : t.fn with
      | bound self f =>
        have := hn self f hfn
        rw [hfn] at this
        simp [this]
      | _ => rfl
    · rw [hres] at h
      cases h
      rfl

/-- Which tasks can be serialised: those with a function reference and a grace time of whole seconds. -/
theorem C26_saveable_iff (ref : Fn → Option String) (t : Full) :
    (save ref t).isSome ↔ (∃ r, t.fnRef = some r ∧ r ≠ "") ∧ ∀ g, t.grace = some g → ∃ k, g = k * 1000000 := by
  unfold save saveGrace
  cases hr : t.fnRef with
  | none => simp
  | some r =>
    by_cases he : r = ""
    · simp [he]
    · cases hg : t.grace with
      | none => simp [he]
      | some g =>
        by_cases hm : g % 1000000 = 0
        · simp [he, hm]; exact ⟨g / 1000000, by omega⟩
        · simp [he, hm]; intro k hk; omega

/-- `class Base: @classmethod def f(cls)`, `class Sub(Base)`: classes 1 and 2, function 5, module `m` -/
def exResolve : String → Option Fn := fun s => if s = "m:Base.f" then some (.boundToClass 1 5)
  else if s = "m:Base.g" then some (.plain 6) else none
/-- `__qualname__` is that of the class where the function is defined -/
def exRef : Fn → Option String
  | .boundToClass _ 5 => some "m:Base.f"
  | .bound _ 6 => some "m:Base.g"
  | .plain 6 => some "m:Base.g"
  | _ => none

def exFull (fn : Fn) (r : String) : Full where
  id := "t"; name := some "n"; fn := fn; fnRef := some r; args := [9]; kwargs := [("a", 3)]; trigger := 4
  executor := some "default"; coalesce := true; maxInst := 2; grace := some 3000000; nrt := some 17
  pending := true; submitted := true

/-- the hypotheses of `C26_round_trip_partial` are met by a bound method ... -/
example : ∃ s, save exRef (exFull (.bound 8 6) "m:Base.g") = some s ∧
    ∀ r, (exFull (.bound 8 6) "m:Base.g").fnRef = some r → Faithful exResolve exRef (exFull (.bound 8 6) "m:Base.g") r := by
  refine ⟨_, rfl, ?_⟩
  intro r hr
  cases hr
  exact .method 8 6 rfl rfl rfl

/-- ... for which the restored task calls the function with the object first -/
example : ((save exRef (exFull (.bound 8 6) "m:Base.g")).bind (restore exResolve)).map
    (fun t => (t.call, t.grace, t.scheduleState)) = some ((6, [8, 9], [("a", 3)]), some 3000000, .scheduled) := by
  decide +kernel

/-- `C26` does not hold of the code for a class method inherited by a subclass: `Sub.f` is saved as
`m:Base.f`, and the restored task calls `Base.f`. -/
theorem C26_classmethod_witness : ∃ s t', save exRef (exFull (.boundToClass 2 5) "m:Base.f") = some s ∧
    restore exResolve s = some t' ∧ (exFull (.boundToClass 2 5) "m:Base.f").call = (5, [2, 9], [("a", 3)]) ∧
    t'.call = (5, [1, 9], [("a", 3)]) := ⟨_, _, rfl, rfl, rfl, rfl⟩

end TaskObj
end Asyncz
