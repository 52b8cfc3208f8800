import Verif.Model.Listing
import Verif.Props.SchedTasks
import Verif.Props.SchedStart
/-!
# Task listings (C42)
-/
namespace Asyncz
namespace Listing

variable {ρ : Type}

/-! ## Specification -/

/-- `needle` occurs in `hay` -/
def Occurs (needle hay : Text) : Prop := ∃ a b, hay = a ++ needle ++ b

/-- The words for the states of a task. -/
def stateWord : SState → Text
  | .pending => "pending".toList
  | .paused => "paused".toList
  | .scheduled => "scheduled".toList

theorem value_eq : SState.value = stateWord := by
  funext s
  cases s <;> rfl

/-- The texts the free-text search looks in. -/
def searched (S : Str) (i : Info ρ) : List Text :=
  [i.id, i.name, i.callableName, i.callableRef, i.triggerAlias, i.triggerName, i.triggerDesc, i.executor,
    i.store].map (fun x => S.lower (x.getD [])) ++ [stateWord i.state]

/-- A task passes the filters of a query; empty texts do not filter. -/
structure Passes (S : Str) (st : Option SState) (qy : Query) (i : Info ρ) : Prop where
  state : ∀ s, st = some s → i.state = s
  executor : ∀ t, qy.executor = some t → t ≠ [] → i.executor = some t
  trigger : ∀ t, qy.trigger = some t → t ≠ [] →
    S.lower (i.triggerAlias.getD []) = S.lower (S.strip t) ∨ S.lower (i.triggerName.getD []) = S.lower (S.strip t)
  search : ∀ t, qy.q = some t → t ≠ [] → ∃ x ∈ searched S i, Occurs (S.lower (S.strip t)) x

/-- The state a `schedule_state` argument names. -/
inductive Names (S : Str) : StateArg → Option SState → Prop
  | absent : Names S .absent none
  | member (s : SState) : Names S (.member s) (some s)
  | text (t : Text) (s : SState) (h : S.lower (S.strip t) = stateWord s) : Names S (.text t) (some s)

/-- Strings by code points. -/
def TextLt (a b : Text) : Prop :=
  (∃ p x y a' b', a = p ++ x :: a' ∧ b = p ++ y :: b' ∧ x.toNat < y.toNat) ∨ ∃ x b', b = a ++ x :: b'

def TextLe (a b : Text) : Prop := a = b ∨ TextLt a b

/-- Run times; tasks without one come last. -/
def Earlier : Option Int → Option Int → Prop
  | some a, some b => a < b
  | some _, none => True
  | none, _ => False

/-- Order on one field, ties decided by `r`. -/
def By {α : Type} (lt : α → α → Prop) (f : Info ρ → α) (r : Info ρ → Info ρ → Prop) (a b : Info ρ) : Prop :=
  lt (f a) (f b) ∨ f a = f b ∧ r a b

def fId (S : Str) (i : Info ρ) : Text := S.lower (i.id.getD [])
def fName (S : Str) (i : Info ρ) : Text := S.lower (i.name.getD [])
def fExecutor (S : Str) (i : Info ρ) : Text := S.lower (i.executor.getD [])
def fStore (S : Str) (i : Info ρ) : Text := S.lower (i.store.getD [])
/-- the alias of the trigger, or the name of its class if it has none -/
def fTrigger (S : Str) (i : Info ρ) : Text :=
  S.lower (match i.triggerAlias with
    | none => i.triggerName.getD []
    | some t => if t = [] then i.triggerName.getD [] else t)

/-- `a` may stand before `b` in a listing sorted by the given field (upwards). -/
def Ordered (S : Str) (field : String) (a b : Info ρ) : Prop :=
  match field with
  | "id" => TextLe (fId S a) (fId S b)
  | "name" => By TextLt (fName S) (fun a b => TextLe (fId S a) (fId S b)) a b
  | "next_run_time" => By Earlier (·.nextRun) (By TextLt (fName S) fun a b => TextLe (fId S a) (fId S b)) a b
  | "schedule_state" => By TextLt (fun i => stateWord i.state) (By Earlier (·.nextRun) fun a b => TextLe (fId S a) (fId S b)) a b
  | "executor" => By TextLt (fExecutor S) (fun a b => TextLe (fId S a) (fId S b)) a b
  | "store" => By TextLt (fStore S) (fun a b => TextLe (fId S a) (fId S b)) a b
  | "trigger" => By TextLt (fTrigger S) (fun a b => TextLe (fId S a) (fId S b)) a b
  | _ => False

def sortFields : List String :=
  ["id", "name", "next_run_time", "schedule_state", "executor", "store", "trigger"]

/-- `a` stands before `b` in `l` -/
def Before {α : Type} (l : List α) (a b : α) : Prop := [a, b].Sublist l

/-! ## Lemmas -/

theorem isIn_iff (n h : Text) : isIn n h = true ↔ Occurs n h := by
  induction h with
  | nil =>
    simp only [isIn, Occurs, List.isPrefixOf_iff_prefix]
    constructor
    · rintro ⟨t, ht⟩; exact ⟨[], t, by simp [ht]⟩
    · rintro ⟨a, b, hab⟩
      have := List.append_eq_nil_iff.1 hab.symm
      have := List.append_eq_nil_iff.1 this.1
      exact ⟨[], by simp [this.2]⟩
  | cons c h ih =>
    simp only [isIn, Bool.or_eq_true, List.isPrefixOf_iff_prefix, ih, Occurs]
    constructor
    · rintro (⟨t, ht⟩ | ⟨a, b, hab⟩)
      · exact ⟨[], t, by simp [ht]⟩
      · exact ⟨c :: a, b, by simp [hab]⟩
    · rintro ⟨a, b, hab⟩
      cases a with
      | nil => exact .inl ⟨b, by simpa using hab.symm⟩
      | cons x a =>
        simp only [List.cons_append, List.cons.injEq] at hab
        exact .inr ⟨a, b, by simpa using hab.2⟩

theorem textLt_cons {x y : Char} {a b : Text} :
    TextLt (x :: a) (y :: b) ↔ x.toNat < y.toNat ∨ x = y ∧ TextLt a b := by
  constructor
  · rintro (⟨p, u, v, a', b', h1, h2, h3⟩ | ⟨u, b', h⟩)
    · cases p with
      | nil =>
        simp only [List.nil_append, List.cons.injEq] at h1 h2
        rw [h1.1, h2.1]; exact .inl h3
      | cons w p =>
        simp only [List.cons_append, List.cons.injEq] at h1 h2
        exact .inr ⟨h1.1.trans h2.1.symm, .inl ⟨p, u, v, a', b', h1.2, h2.2, h3⟩⟩
    · simp only [List.cons_append, List.cons.injEq] at h
      exact .inr ⟨h.1.symm, .inr ⟨u, b', h.2⟩⟩
  · rintro (h | ⟨rfl, h⟩)
    · exact .inl ⟨[], x, y, a, b, rfl, rfl, h⟩
    · rcases h with ⟨p, u, v, a', b', h1, h2, h3⟩ | ⟨u, b', h⟩
      · exact .inl ⟨x :: p, u, v, a', b', by simp [h1], by simp [h2], h3⟩
      · exact .inr ⟨u, b', by simp [h]⟩

theorem not_textLt_nil {a : Text} : ¬ TextLt a [] := by
  rintro (⟨p, u, v, a', b', _, h2, _⟩ | ⟨u, b', h⟩)
  · cases p <;> simp at h2
  · cases a <;> simp at h

theorem textLt_nil_cons {x : Char} {a : Text} : TextLt [] (x :: a) := .inr ⟨x, a, rfl⟩

theorem char_eq {x y : Char} (h1 : ¬ x.toNat < y.toNat) (h2 : ¬ y.toNat < x.toNat) : x = y := by
  have : x.toNat = y.toNat := by omega
  have h3 := congrArg Char.ofNat this
  rwa [Char.ofNat_toNat, Char.ofNat_toNat] at h3

theorem textLe_iff (a b : Text) : textLe a b = true ↔ TextLe a b := by
  induction a generalizing b with
  | nil =>
    cases b with
    | nil => simp [textLe, TextLe]
    | cons y b => simp [textLe, TextLe, textLt_nil_cons]
  | cons x a ih =>
    cases b with
    | nil => simp [textLe, TextLe, not_textLt_nil]
    | cons y b =>
      simp only [textLe, TextLe, textLt_cons]
      split
      · rename_i h; simp [h]
      · rename_i h
        split
        · rename_i h'
          constructor
          · intro hh; cases hh
          · rintro (hh | hh | ⟨rfl, _⟩)
            · injection hh with h1 _; subst h1; exact absurd h' h
            · exact absurd hh h
            · exact absurd h' h
        · rename_i h'
          have hxy := char_eq h h'
          subst hxy
          rw [ih, TextLe]
          simp

theorem textLt_irrefl (a : Text) : ¬ TextLt a a := by
  induction a with
  | nil => exact not_textLt_nil
  | cons x a ih =>
    rw [textLt_cons]
    rintro (h | ⟨_, h⟩)
    · omega
    · exact ih h

theorem textLt_trans {a b c : Text} (h1 : TextLt a b) (h2 : TextLt b c) : TextLt a c := by
  induction a generalizing b c with
  | nil =>
    cases c with
    | nil => exact absurd h2 not_textLt_nil
    | cons => exact textLt_nil_cons
  | cons x a ih =>
    cases b with
    | nil => exact absurd h1 not_textLt_nil
    | cons y b =>
      cases c with
      | nil => exact absurd h2 not_textLt_nil
      | cons z c =>
        rw [textLt_cons] at h1 h2 ⊢
        rcases h1 with h1 | ⟨rfl, h1⟩ <;> rcases h2 with h2 | ⟨rfl, h2⟩
        · exact .inl (by omega)
        · exact .inl h1
        · exact .inl h2
        · exact .inr ⟨rfl, ih h1 h2⟩

theorem textLt_tri (a b : Text) : TextLt a b ∨ a = b ∨ TextLt b a := by
  induction a generalizing b with
  | nil =>
    cases b with
    | nil => exact .inr (.inl rfl)
    | cons => exact .inl textLt_nil_cons
  | cons x a ih =>
    cases b with
    | nil => exact .inr (.inr textLt_nil_cons)
    | cons y b =>
      simp only [textLt_cons]
      by_cases h : x.toNat < y.toNat
      · exact .inl (.inl h)
      · by_cases h' : y.toNat < x.toNat
        · exact .inr (.inr (.inl h'))
        · have hxy := char_eq h h'
          subst hxy
          rcases ih b with h | rfl | h
          · exact .inl (.inr ⟨rfl, h⟩)
          · exact .inr (.inl rfl)
          · exact .inr (.inr (.inr ⟨rfl, h⟩))

/-- strict order on parts -/
def PartLt : Part → Part → Prop
  | .flag a, .flag b => a = false ∧ b = true
  | .time a, .time b => a < b
  | .text a, .text b => TextLt a b
  | .flag _, _ => True
  | .time _, .text _ => True
  | _, _ => False

theorem partLe_iff (a b : Part) : partLe a b = true ↔ a = b ∨ PartLt a b := by
  cases a <;> cases b <;> simp [partLe, PartLt, textLe_iff, TextLe]
  · rename_i x y; cases x <;> cases y <;> simp
  · rename_i x y; omega

theorem partLt_irrefl (a : Part) : ¬ PartLt a a := by
  cases a <;> simp [PartLt, textLt_irrefl]

theorem partLt_trans {a b c : Part} (h1 : PartLt a b) (h2 : PartLt b c) : PartLt a c := by
  cases a <;> cases b <;> cases c <;> simp_all [PartLt]
  · omega
  · exact textLt_trans h1 h2

theorem partLt_tri (a b : Part) : PartLt a b ∨ a = b ∨ PartLt b a := by
  cases a <;> cases b <;> simp [PartLt]
  · rename_i x y; cases x <;> cases y <;> simp
  · rename_i x y; omega
  · exact textLt_tri _ _

/-- tuples -/
def KeyLe : List Part → List Part → Prop
  | [], _ => True
  | _ :: _, [] => False
  | a :: as, b :: bs => PartLt a b ∨ a = b ∧ KeyLe as bs

theorem keyLe_iff (a b : List Part) : keyLe a b = true ↔ KeyLe a b := by
  induction a generalizing b with
  | nil => simp [keyLe, KeyLe]
  | cons x a ih =>
    cases b with
    | nil => simp [keyLe, KeyLe]
    | cons y b =>
      have h1 := partLe_iff x y
      have h2 := partLe_iff y x
      simp only [keyLe, KeyLe]
      rcases partLt_tri x y with h | rfl | h
      · have : ¬ (y = x ∨ PartLt y x) := by
          rintro (rfl | h')
          · exact partLt_irrefl _ h
          · exact partLt_irrefl _ (partLt_trans h h')
        simp [h1.2 (.inr h), Bool.eq_false_iff.2 (fun hh => this (h2.1 hh)), h]
      · simp [h1.2 (.inl rfl), ih, partLt_irrefl]
      · have : ¬ (x = y ∨ PartLt x y) := by
          rintro (rfl | h')
          · exact partLt_irrefl _ h
          · exact partLt_irrefl _ (partLt_trans h h')
        have h3 : ¬ x = y := fun hh => this (.inl hh)
        have h4 : ¬ PartLt x y := fun hh => this (.inr hh)
        simp [Bool.eq_false_iff.2 (fun hh => this (h1.1 hh)), h3, h4]

theorem KeyLe.trans {a b c : List Part} (h1 : KeyLe a b) (h2 : KeyLe b c) : KeyLe a c := by
  induction a generalizing b c with
  | nil => trivial
  | cons x a ih =>
    cases b with
    | nil => exact h1.elim
    | cons y b =>
      cases c with
      | nil => exact h2.elim
      | cons z c =>
        rcases h1 with h1 | ⟨rfl, h1⟩ <;> rcases h2 with h2 | ⟨rfl, h2⟩
        · exact .inl (partLt_trans h1 h2)
        · exact .inl h1
        · exact .inl h2
        · exact .inr ⟨rfl, ih h1 h2⟩

theorem KeyLe.total (a b : List Part) : KeyLe a b ∨ KeyLe b a := by
  induction a generalizing b with
  | nil => exact .inl trivial
  | cons x a ih =>
    cases b with
    | nil => exact .inr trivial
    | cons y b =>
      rcases partLt_tri x y with h | rfl | h
      · exact .inl (.inl h)
      · rcases ih b with h | h
        · exact .inl (.inr ⟨rfl, h⟩)
        · exact .inr (.inr ⟨rfl, h⟩)
      · exact .inr (.inl h)

theorem timeKey_le (n m : Option Int) (k k' : List Part) :
    KeyLe (timeKey n ++ k) (timeKey m ++ k') ↔ Earlier n m ∨ n = m ∧ KeyLe k k' := by
  cases n <;> cases m <;> simp [timeKey, KeyLe, PartLt, Earlier]

theorem parse_some {s : String} {k : SortBy} (h : SortBy.parse s = some k) :
    (s, k) ∈ [("id", SortBy.id), ("name", .name), ("next_run_time", .nextRunTime),
      ("schedule_state", .scheduleState), ("executor", .executor), ("store", .store), ("trigger", .trigger)] := by
  unfold SortBy.parse at h
  split at h <;> simp_all

theorem orEmpty_trigger (i : Info ρ) :
    (if orEmpty i.triggerAlias = [] then orEmpty i.triggerName else orEmpty i.triggerAlias) =
    (match i.triggerAlias with
    | none => i.triggerName.getD []
    | some t => if t = [] then i.triggerName.getD [] else t) := by
  cases i.triggerAlias <;> rfl

theorem sortKey_le (S : Str) {s : String} {k : SortBy} (h : SortBy.parse s = some k) (a b : Info ρ) :
    KeyLe (sortKey S k a) (sortKey S k b) ↔ Ordered S s a b := by
  have hm := parse_some h
  simp only [List.mem_cons, Prod.mk.injEq, List.not_mem_nil, or_false] at hm
  rcases hm with ⟨rfl, rfl⟩ | ⟨rfl, rfl⟩ | ⟨rfl, rfl⟩ | ⟨rfl, rfl⟩ | ⟨rfl, rfl⟩ | ⟨rfl, rfl⟩ | ⟨rfl, rfl⟩
  · have : KeyLe (sortKey S .id a) (sortKey S .id b) ↔ TextLe (fId S a) (fId S b) := by
      simp [sortKey, KeyLe, PartLt, TextLe, fId, orEmpty, or_comm]
    rw [this]; rfl
  · have : KeyLe (sortKey S .name a) (sortKey S .name b) ↔
        By TextLt (fName S) (fun a b => TextLe (fId S a) (fId S b)) a b := by
      simp [sortKey, KeyLe, PartLt, TextLe, fId, fName, By, orEmpty, or_comm]
    rw [this]; rfl
  · have : KeyLe (sortKey S .nextRunTime a) (sortKey S .nextRunTime b) ↔
        By Earlier (·.nextRun) (By TextLt (fName S) fun a b => TextLe (fId S a) (fId S b)) a b := by
      simp only [sortKey, timeKey_le, By]
      simp [KeyLe, PartLt, TextLe, fId, fName, orEmpty, or_comm]
    rw [this]; rfl
  · have : KeyLe (sortKey S .scheduleState a) (sortKey S .scheduleState b) ↔
        By TextLt (fun i => stateWord i.state) (By Earlier (·.nextRun) fun a b => TextLe (fId S a) (fId S b)) a b := by
      simp only [sortKey, List.cons_append, KeyLe, timeKey_le, By, value_eq]
      simp [KeyLe, PartLt, TextLe, fId, orEmpty, or_comm]
    rw [this]; rfl
  · have : KeyLe (sortKey S .executor a) (sortKey S .executor b) ↔
        By TextLt (fExecutor S) (fun a b => TextLe (fId S a) (fId S b)) a b := by
      simp [sortKey, KeyLe, PartLt, TextLe, fId, fExecutor, By, orEmpty, or_comm]
    rw [this]; rfl
  · have : KeyLe (sortKey S .store a) (sortKey S .store b) ↔
        By TextLt (fStore S) (fun a b => TextLe (fId S a) (fId S b)) a b := by
      simp [sortKey, KeyLe, PartLt, TextLe, fId, fStore, By, orEmpty, or_comm]
    rw [this]; rfl
  · have : KeyLe (sortKey S .trigger a) (sortKey S .trigger b) ↔
        By TextLt (fTrigger S) (fun a b => TextLe (fId S a) (fId S b)) a b := by
      simp only [sortKey, KeyLe, PartLt, orEmpty_trigger]
      simp [TextLe, fId, fTrigger, By, orEmpty, or_comm]
    rw [this]; rfl

theorem parse_iff (s : String) : SortBy.parse s = none ↔ s ∉ sortFields := by
  constructor
  · intro h hm
    simp only [sortFields, List.mem_cons, List.not_mem_nil, or_false] at hm
    rcases hm with rfl | rfl | rfl | rfl | rfl | rfl | rfl <;> simp [SortBy.parse] at h
  · intro h
    cases hp : SortBy.parse s with
    | none => rfl
    | some k =>
      exfalso; apply h
      have := parse_some hp
      simp only [List.mem_cons, Prod.mk.injEq, List.not_mem_nil, or_false] at this
      simp only [sortFields, List.mem_cons, List.not_mem_nil, or_false]
      rcases this with ⟨h, _⟩ | ⟨h, _⟩ | ⟨h, _⟩ | ⟨h, _⟩ | ⟨h, _⟩ | ⟨h, _⟩ | ⟨h, _⟩ <;> simp [h]

theorem value_inj {a b : SState} (h : a.value = b.value) : a = b := by
  cases a <;> cases b <;> first | rfl | (exact absurd h (by decide))

theorem resolve_some {S : Str} {arg : StateArg} {st : Option SState} :
    resolveState S arg = some st ↔ Names S arg st := by
  cases arg with
  | absent =>
    constructor
    · intro h; cases h; exact .absent
    · intro h; cases h; rfl
  | member s =>
    constructor
    · intro h; cases h; exact .member s
    · intro h; cases h; rfl
  | text t =>
    constructor
    · intro h
      simp only [resolveState] at h
      split at h
      · cases h; exact .text t _ ‹_›
      · split at h
        · cases h; exact .text t _ ‹_›
        · split at h
          · cases h; exact .text t _ ‹_›
          · cases h
    · intro h
      cases h with
      | text _ s h =>
        simp only [resolveState, h]
        cases s <;> decide

theorem filterState_eq (st : Option SState) (l : List (Info ρ)) :
    filterState st l = l.filter fun i => match st with | none => true | some s => decide (i.state = s) := by
  cases st
  · exact (List.filter_eq_self.2 fun _ _ => rfl).symm
  · rfl

theorem mem_filtered (S : Str) (st : Option SState) (qy : Query) (l : List (Info ρ)) :
    ∃ p : Info ρ → Bool, (∀ i, p i = true ↔ Passes S st qy i) ∧
      filterQuery S qy.q (filterTrigger S qy.trigger (filterExecutor qy.executor (filterState st l))) = l.filter p := by
  refine ⟨fun i => (match st with | none => true | some s => decide (i.state = s)) &&
    (decide (orEmpty qy.executor = []) || decide (i.executor = qy.executor)) &&
    (decide (orEmpty qy.trigger = []) ||
      (decide (S.lower (orEmpty i.triggerAlias) = S.lower (S.strip (orEmpty qy.trigger))) ||
        decide (S.lower (orEmpty i.triggerName) = S.lower (S.strip (orEmpty qy.trigger))))) &&
    (decide (orEmpty qy.q = []) || (searched S i).any (isIn (S.lower (S.strip (orEmpty qy.q))))), ?_, ?_⟩
  · intro i
    simp only [Bool.and_eq_true, Bool.or_eq_true, decide_eq_true_eq]
    constructor
    · rintro ⟨⟨⟨h1, h2⟩, h3⟩, h4⟩
      refine ⟨?_, ?_, ?_, ?_⟩
      · rintro s rfl; simpa using h1
      · intro t ht hne
        rw [ht] at h2
        rcases h2 with h2 | h2
        · exact absurd h2 hne
        · exact h2
      · intro t ht hne
        rw [ht] at h3
        rcases h3 with h3 | h3
        · exact absurd h3 hne
        · exact h3
      · intro t ht hne
        rw [ht] at h4
        rcases h4 with h4 | h4
        · exact absurd h4 hne
        · obtain ⟨x, hx, hi⟩ := List.any_eq_true.1 h4
          exact ⟨x, hx, (isIn_iff _ _).1 hi⟩
    · rintro ⟨h1, h2, h3, h4⟩
      refine ⟨⟨⟨?_, ?_⟩, ?_⟩, ?_⟩
      · cases st with
        | none => rfl
        | some s => simpa using h1 s rfl
      · cases he : qy.executor with
        | none => exact .inl rfl
        | some t =>
          by_cases ht : t = []
          · exact .inl ht
          · exact .inr (h2 t he ht)
      · cases he : qy.trigger with
        | none => exact .inl rfl
        | some t =>
          by_cases ht : t = []
          · exact .inl ht
          · exact .inr (h3 t he ht)
      · cases he : qy.q with
        | none => exact .inl rfl
        | some t =>
          by_cases ht : t = []
          · exact .inl ht
          · obtain ⟨x, hx, hi⟩ := h4 t he ht
            exact .inr (List.any_eq_true.2 ⟨x, hx, (isIn_iff _ _).2 hi⟩)
  · rw [filterState_eq]
    have h2 : ∀ l : List (Info ρ), filterExecutor qy.executor l = l.filter fun i =>
        decide (orEmpty qy.executor = []) || decide (i.executor = qy.executor) := by
      intro l; unfold filterExecutor; split
      · simp only [*, decide_true, Bool.true_or]; exact (List.filter_eq_self.2 fun _ _ => rfl).symm
      · simp [*]
    have h3 : ∀ l : List (Info ρ), filterTrigger S qy.trigger l = l.filter fun i =>
        decide (orEmpty qy.trigger = []) ||
      (decide (S.lower (orEmpty i.triggerAlias) = S.lower (S.strip (orEmpty qy.trigger))) ||
        decide (S.lower (orEmpty i.triggerName) = S.lower (S.strip (orEmpty qy.trigger)))) := by
      intro l; unfold filterTrigger; split
      · simp only [*, decide_true, Bool.true_or]; exact (List.filter_eq_self.2 fun _ _ => rfl).symm
      · simp [*]
    have h4 : ∀ l : List (Info ρ), filterQuery S qy.q l = l.filter fun i =>
        decide (orEmpty qy.q = []) || (searched S i).any (isIn (S.lower (S.strip (orEmpty qy.q)))) := by
      intro l
      unfold filterQuery
      split
      · simp only [*, decide_true, Bool.true_or]; exact (List.filter_eq_self.2 fun _ _ => rfl).symm
      · rename_i h
        simp only [h, decide_false, Bool.false_or]
        congr 1
        funext i
        simp [searched, orEmpty, Bool.or_assoc, value_eq]
    rw [h2, h3, h4]
    simp only [List.filter_filter]
    congr 1
    funext i
    simp only [Bool.and_comm, Bool.and_assoc, Bool.and_left_comm]

/-! ## Theorems -/

/-- **C42** (errors): a listing is refused (`ValueError`) exactly for an unknown schedule state or sort field. -/
theorem C42_rejects (S : Str) (qy : Query) (l : List (Info ρ)) :
    getTaskInfos S qy l = none ↔ (∀ st, ¬ Names S qy.state st) ∨ qy.sortBy ∉ sortFields := by
  unfold getTaskInfos
  cases hr : resolveState S qy.state with
  | none =>
    have : ∀ st, ¬ Names S qy.state st := fun st h => by rw [resolve_some.2 h] at hr; cases hr
    exact ⟨fun _ => .inl this, fun _ => rfl⟩
  | some st =>
    have hst := resolve_some.1 hr
    cases hp : SortBy.parse qy.sortBy with
    | none => exact ⟨fun _ => .inr ((parse_iff _).1 hp), fun _ => rfl⟩
    | some k =>
      constructor
      · intro h; cases h
      · rintro (h | h)
        · exact absurd hst (h st)
        · rw [(parse_iff _).2 h] at hp; cases hp

/-- **C42**: a listing contains each task that passes the filters exactly once and no other, sorted by the
requested field and direction, and tasks with the same key keep their order. -/
theorem C42_listing (S : Str) (qy : Query) (l r : List (Info ρ)) (h : getTaskInfos S qy l = some r) :
    ∃ st, Names S qy.state st ∧
      (∃ p : Info ρ → Bool, (∀ i, p i = true ↔ Passes S st qy i) ∧ r.Perm (l.filter p)) ∧
      (qy.descending = false → r.Pairwise (Ordered S qy.sortBy)) ∧
      (qy.descending = true → r.Pairwise fun a b => Ordered S qy.sortBy b a) ∧
      ∀ a b, Before l a b → Passes S st qy a → Passes S st qy b →
        Ordered S qy.sortBy a b → Ordered S qy.sortBy b a → Before r a b := by
  unfold getTaskInfos at h
  cases hr : resolveState S qy.state with
  | none => rw [hr] at h; cases h
  | some st =>
    rw [hr] at h
    cases hp : SortBy.parse qy.sortBy with
    | none => simp only [hp] at h; cases h
    | some k =>
      simp only [hp, Option.some.injEq] at h
      obtain ⟨p, hpp, hf⟩ := mem_filtered S st qy l
      rw [hf] at h
      subst h
      refine ⟨st, resolve_some.1 hr, ⟨p, hpp, sortBy_perm _ _⟩, ?_, ?_, ?_⟩
      · intro hd
        rw [hd]
        refine List.Pairwise.imp (fun {a b} hab => ?_) (sortBy_pairwise (le := fun a b =>
          if false = true then keyLe (sortKey S k b) (sortKey S k a) else keyLe (sortKey S k a) (sortKey S k b)) ?_ ?_ _)
        · exact (sortKey_le S hp a b).1 ((keyLe_iff _ _).1 (by simpa using hab))
        · intro a b c h1 h2
          simp only [Bool.false_eq_true, if_false, keyLe_iff] at h1 h2 ⊢
          exact h1.trans h2
        · intro a b
          simp only [Bool.false_eq_true, if_false, Bool.or_eq_true, keyLe_iff]
          exact KeyLe.total _ _
      · intro hd
        rw [hd]
        refine List.Pairwise.imp (fun {a b} hab => ?_) (sortBy_pairwise (le := fun a b =>
          if true = true then keyLe (sortKey S k b) (sortKey S k a) else keyLe (sortKey S k a) (sortKey S k b)) ?_ ?_ _)
        · exact (sortKey_le S hp b a).1 ((keyLe_iff _ _).1 (by simpa using hab))
        · intro a b c h1 h2
          simp only [if_true, keyLe_iff] at h1 h2 ⊢
          exact h2.trans h1
        · intro a b
          simp only [if_true, Bool.or_eq_true, keyLe_iff]
          exact KeyLe.total _ _
      · intro a b hab ha hb h1 h2
        let same : Info ρ → Bool := fun i =>
          keyLe (sortKey S k i) (sortKey S k a) && keyLe (sortKey S k a) (sortKey S k i)
        have hsame : ∀ x y, same x = true → same y = true →
            (if qy.descending = true then keyLe (sortKey S k y) (sortKey S k x)
              else keyLe (sortKey S k x) (sortKey S k y)) = true := by
          intro x y hx hy
          simp only [same, Bool.and_eq_true, keyLe_iff] at hx hy
          split
          · rw [keyLe_iff]; exact hy.1.trans hx.2
          · rw [keyLe_iff]; exact hx.1.trans hy.2
        have heq := sortBy_filter (le := fun x y => if qy.descending = true then keyLe (sortKey S k y) (sortKey S k x)
              else keyLe (sortKey S k x) (sortKey S k y)) hsame (l.filter p)
        have hsa : same a = true := by
          have : KeyLe (sortKey S k a) (sortKey S k a) := by
            rcases KeyLe.total (sortKey S k a) (sortKey S k a) with h | h <;> exact h
          simp only [same, Bool.and_eq_true, keyLe_iff]; exact ⟨this, this⟩
        have hsb : same b = true := by
          simp only [same, Bool.and_eq_true, keyLe_iff, sortKey_le S hp]
          exact ⟨h2, h1⟩
        have hsub : [a, b].Sublist ((l.filter p).filter same) := by
          have h3 := (hab.filter p).filter same
          simp only [List.filter_cons, List.filter_nil, (hpp a).2 ha, (hpp b).2 hb, hsa, hsb, if_true] at h3
          exact h3
        rw [← heq] at hsub
        exact hsub.trans List.filter_sublist

/-- **C42** (default order): by next run time, upwards, every task that has one stands before every task that has
none, and earlier ones stand first. -/
theorem C42_next_run_time (S : Str) (qy : Query) (l r : List (Info ρ)) (h : getTaskInfos S qy l = some r)
    (hk : qy.sortBy = "next_run_time") (hd : qy.descending = false) :
    r.Pairwise fun a b => ∀ y, b.nextRun = some y → ∃ x, a.nextRun = some x ∧ x ≤ y := by
  obtain ⟨_, _, _, h1, _, _⟩ := C42_listing S qy l r h
  refine (h1 hd).imp ?_
  intro a b hab y hy
  rw [hk] at hab
  have hab : By Earlier (·.nextRun) (By TextLt (fName S) fun a b => TextLe (fId S a) (fId S b)) a b := hab
  rcases hab with h | ⟨h, _⟩
  · have h : Earlier a.nextRun b.nextRun := h
    rw [hy] at h
    cases ha : a.nextRun with
    | none => rw [ha] at h; exact h.elim
    | some x => rw [ha] at h; exact ⟨x, rfl, Int.le_of_lt h⟩
  · exact ⟨y, h.trans hy, Int.le_refl y⟩

/-- the state shown for a task: pending until it is in a running store, then paused exactly without run time -/
theorem C42_state (pending : Bool) (n : Option Int) :
    (scheduleState pending n = .pending ↔ pending = true) ∧
    (scheduleState pending n = .paused ↔ pending = false ∧ n = none) ∧
    (scheduleState pending n = .scheduled ↔ pending = false ∧ ∃ x, n = some x) := by
  cases pending <;> cases n <;> simp [scheduleState]

/-! ### A concrete case -/

/-- a `Str` for examples: the identity on text without upper case or surrounding blanks -/
def exStr : Str where
  lower := List.map Char.toLower
  strip := fun t => ((t.dropWhile (· = ' ')).reverse.dropWhile (· = ' ')).reverse

def exInfo (id name ex : String) (n : Option Int) : Info Unit where
  id := some id.toList
  name := some name.toList
  callableName := none
  callableRef := none
  triggerAlias := some "interval".toList
  triggerName := some "IntervalTrigger".toList
  triggerDesc := none
  executor := some ex.toList
  store := some "default".toList
  state := scheduleState false n
  nextRun := n
  rest := ()

def exInfos : List (Info Unit) :=
  [exInfo "a" "Zeta" "default" none, exInfo "b" "mail" "pool" (some 9), exInfo "c" "Mail" "default" (some 3),
    exInfo "d" "alpha" "default" (some 9)]

def exQuery (st : StateArg) (q sort : String) (d : Bool) : Query where
  state := st
  executor := none
  trigger := some "Interval ".toList
  q := some q.toList
  sortBy := sort
  descending := d

example : (getTaskInfos exStr (exQuery .absent "" "next_run_time" false) exInfos).map (·.map (·.id)) =
    some [some ['c'], some ['d'], some ['b'], some ['a']] := by decide
example : (getTaskInfos exStr (exQuery .absent "" "next_run_time" true) exInfos).map (·.map (·.id)) =
    some [some ['a'], some ['b'], some ['d'], some ['c']] := by decide
example : (getTaskInfos exStr (exQuery (.text " Scheduled".toList) "MAIL" "name" false) exInfos).map (·.map (·.id)) =
    some [some ['b'], some ['c']] := by decide
example : getTaskInfos exStr (exQuery (.text "done".toList) "" "name" false) exInfos = none := by decide
example : getTaskInfos exStr (exQuery .absent "" "priority" false) exInfos = none := by decide

end Listing

namespace Sched
variable {σ τ φ ρ : Type} {O : StoreOps σ (Body τ φ)}

/-- The tasks of the admitted stores, store by store. -/
def Segments (O : StoreOps σ (Body τ φ)) (s : State σ τ φ) (store : Option String) (segs : List (String × List (T τ φ))) :
    Prop :=
  (segs.map (·.1)).Nodup ∧ (∀ a, a ∈ segs.map (·.1) ↔ a ∈ s.stores.keys ∧ Admits store a) ∧
  ∀ a l, (a, l) ∈ segs → l.Nodup ∧ ∀ t, t ∈ l ↔ entry O s a t.id = some t

theorem getTasks_stores (L : LawfulStore O) (store : Option String) (d : Dict String σ) (hd : Stores L d) :
    ∃ segs : List (String × List (T τ φ)), (segs.map (·.1)).Nodup ∧
      (∀ a, a ∈ segs.map (·.1) ↔ a ∈ d.keys ∧ Admits store a) ∧
      (∀ a l, (a, l) ∈ segs → l.Nodup ∧ ∀ t, t ∈ l ↔ look O d a t.id = some t) ∧
      (d.flatMap fun p => if store = none ∨ store = some p.1 then O.all p.2 else []) = segs.flatMap (·.2) := by
  induction d with
  | nil => exact ⟨[], by simp, by simp [Dict.keys], by simp, rfl⟩
  | cons p d ih =>
    obtain ⟨b, st⟩ := p
    have hwf : b ∉ Dict.keys d ∧ (Dict.keys d).Nodup := by
      have := hd.1; simp only [Dict.WF, Dict.keys, List.map_cons, List.nodup_cons] at this ⊢; exact this
    have hst : L.Inv st := hd.2 b st (by simp [Dict.get?])
    have hd' : Stores L d := ⟨hwf.2, fun a st' h => hd.2 a st' (by
      have hne : b ≠ a := by
        rintro rfl
        have : Dict.get? d b = none := by
          cases hg : Dict.get? d b with
          | none => rfl
          | some x => exact absurd (Dict.mem_keys_of_mem (Dict.mem_of_get? hg)) hwf.1
        rw [this] at h; cases h
      simpa [Dict.get?, hne] using h)⟩
    obtain ⟨segs, h1, h2, h3, h4⟩ := ih hd'
    by_cases ha : store = none ∨ store = some b
    · refine ⟨(b, O.all st) :: segs, ?_, ?_, ?_, ?_⟩
      · simp only [List.map_cons, List.nodup_cons]
        exact ⟨fun h => hwf.1 ((h2 b).1 h).1, h1⟩
      · intro a
        simp only [List.map_cons, List.mem_cons, h2, Dict.keys]
        constructor
        · rintro (rfl | ⟨h, h'⟩)
          · exact ⟨.inl rfl, admits_iff.1 ha⟩
          · exact ⟨.inr h, h'⟩
        · rintro ⟨rfl | h, h'⟩
          · exact .inl rfl
          · exact .inr ⟨h, h'⟩
      · intro a l hm
        rcases List.mem_cons.1 hm with hm | hm
        · injection hm with e1 e2
          subst e1; subst e2
          refine ⟨(L.all hst).1, fun t => ?_⟩
          rw [look_cons_eq, L.lookup hst, (L.all hst).2 t]; simp
        · obtain ⟨h5, h6⟩ := h3 a l hm
          have hne : b ≠ a := by
            rintro rfl
            exact hwf.1 ((h2 b).1 (List.mem_map.2 ⟨_, hm, rfl⟩)).1
          exact ⟨h5, fun t => by rw [look_cons_ne hne]; exact h6 t⟩
      · simp only [List.flatMap_cons, if_pos ha, h4]
    · refine ⟨segs, h1, ?_, ?_, ?_⟩
      · intro a
        rw [h2]
        simp only [Dict.keys, List.map_cons, List.mem_cons]
        constructor
        · rintro ⟨h, h'⟩; exact ⟨.inr h, h'⟩
        · rintro ⟨rfl | h, h'⟩
          · exact absurd (admits_iff.2 h') ha
          · exact ⟨h, h'⟩
      · intro a l hm
        have hne : b ≠ a := by
          rintro rfl
          exact hwf.1 ((h2 b).1 (List.mem_map.2 ⟨_, hm, rfl⟩)).1
        obtain ⟨h5, h6⟩ := h3 a l hm
        exact ⟨h5, fun t => by rw [look_cons_ne hne]; exact h6 t⟩
      · simp only [List.flatMap_cons, if_neg ha, List.nil_append, h4]

/-- **C42** (`get_tasks`): a stopped scheduler lists its pending tasks in the order in which they were added,
restricted to the named store; otherwise every stored task of the admitted stores is listed, once for each store
that has it. -/
theorem C42_get_tasks (L : LawfulStore O) (c : Cfg τ) (s : State σ τ φ) (hs : Reachable L c s) (store : Option String) :
    (s.mode = .stopped → ∃ p : T τ φ → Bool, (∀ t, p t = true ↔ Admits store t.body.store) ∧
      getTasks O s store = (s.pending.map (·.1)).filter p) ∧
    (s.mode ≠ .stopped → ∃ segs, Segments O s store segs ∧ getTasks O s store = segs.flatMap (·.2)) := by
  constructor
  · intro hm
    refine ⟨fun t => store == none || store == some t.body.store, fun t => ?_, ?_⟩
    · rw [← admits_iff]; simp
    · simp only [getTasks, if_pos hm]
  · intro hm
    obtain ⟨segs, h1, h2, h3, h4⟩ := getTasks_stores (φ := φ) L store s.stores (wf_iff.1 hs.wf)
    exact ⟨segs, ⟨h1, h2, h3⟩, by simp only [getTasks, if_neg hm]; exact h4⟩

/-- **C42** (whole call): what `get_task_infos` shows of a running or paused scheduler are the snapshots of the
stored tasks of the admitted stores that pass the filters. -/
theorem C42_scheduler (L : LawfulStore O) (c : Cfg τ) (s : State σ τ φ) (hs : Reachable L c s) (store : Option String)
    (hm : s.mode ≠ .stopped) (S : Listing.Str) (snap : T τ φ → Listing.Info ρ) (qy : Listing.Query)
    (r : List (Listing.Info ρ))
    (h : Listing.getTaskInfos S qy ((getTasks O s store).map snap) = some r) :
    ∃ st, Listing.Names S qy.state st ∧ ∀ i, i ∈ r ↔
      Listing.Passes S st qy i ∧ ∃ a t, Admits store a ∧ entry O s a t.id = some t ∧ snap t = i := by
  obtain ⟨st, h1, ⟨p, hp, hperm⟩, _⟩ := Listing.C42_listing S qy _ r h
  refine ⟨st, h1, fun i => ?_⟩
  obtain ⟨segs, ⟨_, h2, h3⟩, h4⟩ := (C42_get_tasks L c s hs store).2 hm
  rw [hperm.mem_iff, List.mem_filter, hp, h4, List.mem_map]
  constructor
  · rintro ⟨⟨t, ht, rfl⟩, hpass⟩
    obtain ⟨⟨a, l⟩, hal, htl⟩ := List.mem_flatMap.1 ht
    exact ⟨hpass, a, t, ((h2 a).1 (List.mem_map.2 ⟨_, hal, rfl⟩)).2, ((h3 a l hal).2 t).1 htl, rfl⟩
  · rintro ⟨hpass, a, t, ha, ht, rfl⟩
    refine ⟨⟨t, ?_, rfl⟩, hpass⟩
    have hk : a ∈ s.stores.keys := by
      unfold entry at ht
      cases hg : s.stores.get? a with
      | none => rw [hg] at ht; cases ht
      | some x => exact Dict.mem_keys_of_mem (Dict.mem_of_get? hg)
    obtain ⟨⟨a', l⟩, hal, rfl⟩ := List.mem_map.1 ((h2 a).2 ⟨hk, ha⟩)
    exact List.mem_flatMap.2 ⟨_, hal, ((h3 _ l hal).2 t).2 ht⟩

/-- three tasks in two stores are listed before and after the scheduler is started, and restricted to a store -/
def exListed (st : Option String) (started : Bool) : List (String × String) :=
  let s := addAll Memory.ops (exEnvAt 7) exAdds exTwo
  (getTasks Memory.ops (if started then (start Memory.ops exCfg (exEnvAt 7) false s).1 else s) st).map
    fun t => (t.body.store, t.id)

example : exListed none false = [("default", "a"), ("default", "b"), ("s1", "a")] ∧
    exListed (some "s1") false = [("s1", "a")] ∧
    exListed none true = [("s1", "a"), ("default", "a"), ("default", "b")] ∧ exListed (some "s1") true = [("s1", "a")] := by
  decide +kernel

end Sched
end Asyncz
