import Verif.Model.Install
import Verif.Props.Listeners

/-!
# C80: the dashboard records each event of each scheduler once
-/
namespace Asyncz
namespace Install
open Listen

variable {π : Type}

/-! ## What a user expects: a machine without addresses, tables and closures -/

/-- `held`: someone holds the scheduler; `users`: its listeners; `inUse`: the storage of the last installation of any scheduler;
`subscribed`: the storage of the last installation for this scheduler; `recs`: what was recorded, by kind of listener. -/
structure Spec (π : Type) where
  count : Nat
  held : Nat → Bool
  identity : Nat → String
  users : Nat → List (Nat × Nat)
  inUse : Which → Option Stor
  subscribed : Which → Nat → Option Stor
  recs : Which → List (Stor × Nat × Event (Cls × π))

/-- nothing exists -/
def Spec.init : Spec π := ⟨0, fun _ => false, fun _ => "", fun _ => [], fun _ => none, fun _ _ => none, fun _ => []⟩

/-- the event page wants all events, the run history submissions and outcomes -/
def wants : Which → Event (Cls × π) → Bool
  | .events, _ => true
  | .runs, e =>
    (e.payload.1 == .submission && [Kind.taskSubmitted, .taskMaxInstances].contains e.kind) ||
    (e.payload.1 == .execution && [Kind.taskExecuted, .taskError, .taskMissed].contains e.kind)

/-- a task event without an identity gets that of the scheduler, if it has one -/
def stamped (name : String) (e : Event (Cls × π)) : Event (Cls × π) :=
  { e with identity := if e.isTask = true ∧ e.identity = none ∧ name ≠ "" then some name else e.identity }

/-- removes the first registration of the callback -/
def dropFirst (n : Nat) : List (Nat × Nat) → List (Nat × Nat)
  | [] => []
  | p :: l => if p.1 = n then l else p :: dropFirst n l

/-- one step; nobody can use a scheduler that nobody holds -/
def Spec.step (s : Spec π) : Op π → Spec π
  | .create _ name =>
    { s with count := s.count + 1, held := upd s.held s.count true, identity := upd s.identity s.count name }
  | .drop i => { s with held := upd s.held i false }
  | .collect _ => s
  | .install k i arg =>
    if s.held i then
      let st := (arg.or (s.inUse k)).getD .default
      { s with inUse := upd s.inUse k (some st), subscribed := upd s.subscribed k (upd (s.subscribed k) i (some st)) }
    else s
  | .listen i n m => if s.held i then { s with users := upd s.users i (s.users i ++ [(n, m)]) } else s
  | .unlisten i n => if s.held i then { s with users := upd s.users i (dropFirst n (s.users i)) } else s
  | .emit i e =>
    if s.held i then
      { s with recs := fun k => s.recs k ++
          match s.subscribed k i with
          | some st => if wants k e then [(st, i, stamped (s.identity i) e)] else []
          | none => [] }
    else s

/-- a history -/
def spec (ops : List (Op π)) : Spec π := ops.foldl Spec.step .init

/-- the dashboard's listener of this kind -/
def isDash (k : Which) (p : Cb × Nat) : Bool := match p.1 with | .dash k' _ _ _ => k' = k | .user _ => false
/-- the user's registrations among the listeners -/
def userOf (p : Cb × Nat) : Option (Nat × Nat) := match p.1 with | .user n => some (n, p.2) | .dash _ _ _ _ => none

/-! ## The invariant -/

/-- the model does what is expected -/
structure Inv (w : W π) (s : Spec π) : Prop where
  count : w.next = s.count
  bound : ∀ i o, w.objs i = some o → i < w.next
  sbound : ∀ i, s.held i = true → i < s.count
  apart : ∀ i j o o', w.objs i = some o → w.objs j = some o' → o.addr = o'.addr → i = j
  live : ∀ i, s.held i = true → ∃ o, w.objs i = some o ∧ o.held = true
  obj : ∀ i o, w.objs i = some o → o.held = s.held i ∧ o.identity = s.identity i ∧ o.listeners.filterMap userOf = s.users i
  wf : ∀ k, (w.tables k).WF
  entry : ∀ k a j cb, (w.tables k).get? a = some (j, cb) → ∃ o ser st, w.objs j = some o ∧ o.addr = a ∧
    cb = .dash k ser j st ∧ s.subscribed k j = some st ∧ o.listeners.filter (isDash k) = [(cb, k.mask)]
  noentry : ∀ k i o, w.objs i = some o → (w.tables k).get? o.addr = none →
    s.subscribed k i = none ∧ o.listeners.filter (isDash k) = []
  subs : ∀ k i st, s.subscribed k i = some st → ∃ o, w.objs i = some o
  unused : ∀ i, s.count ≤ i → s.users i = []
  inUse : w.storages = s.inUse
  recs : ∀ k, (w.recs.filter (fun r => r.which = k)).map (fun r => (r.storage, r.sched, r.event)) = s.recs k

theorem inv_init : Inv (init : W π) .init := by
  constructor <;> simp [init, Spec.init, Dict.get?, Dict.WF]

theorem upd_same {α β : Type} [DecidableEq α] (f : α → β) (a : α) (b : β) : upd f a b a = b := by simp [upd]
theorem upd_other {α β : Type} [DecidableEq α] (f : α → β) (a x : α) (b : β) (h : x ≠ a) : upd f a b x = f x := by simp [upd, h]

theorem top_le (w : W π) : ∀ n i o, i < n → w.objs i = some o → o.addr ≤ w.top n := by
  intro n
  induction n with
  | zero => intro i o h; omega
  | succ n ih =>
    intro i o h ho
    by_cases hi : i = n
    · subst hi; simp only [W.top, ho]; omega
    · have := ih i o (by omega) ho
      simp only [W.top]; omega

theorem alloc_free (w : W π) (hb : ∀ i o, w.objs i = some o → i < w.next) (addr i : Nat) (o : Obj) (h : w.objs i = some o) :
    o.addr ≠ w.alloc addr := by
  unfold W.alloc
  split
  · have := top_le w w.next i o (hb i o h) h; omega
  · rename_i hn
    intro he
    apply hn
    unfold W.taken
    rw [List.any_eq_true]
    exact ⟨i, List.mem_range.2 (hb i o h), by simp [h, he]⟩

theorem user_eq {w : W π} {s : Spec π} (h : Inv w s) (i : Nat) :
    (s.held i = false ∧ w.user i = none) ∨ (s.held i = true ∧ ∃ o, w.objs i = some o ∧ o.held = true ∧ w.user i = some o) := by
  unfold W.user
  cases hh : s.held i with
  | true =>
    obtain ⟨o, ho, hhd⟩ := h.live i hh
    exact Or.inr ⟨rfl, o, ho, hhd, by simp [ho, hhd]⟩
  | false =>
    refine Or.inl ⟨rfl, ?_⟩
    cases ho : w.objs i with
    | none => rfl
    | some o => have := (h.obj i o ho).1; simp [this, hh]

theorem filter_remove_dash (k k' : Which) (ls : Ls Cb) (ser sc : Nat) (st : Stor) (hk : k' ≠ k) :
    (remove ls (.dash k ser sc st)).1.filter (isDash k') = ls.filter (isDash k') := by
  induction ls with
  | nil => rfl
  | cons p l ih =>
    obtain ⟨c, m⟩ := p
    by_cases h : Cb.dash k ser sc st = c
    · subst h
      have hd : isDash k' (Cb.dash k ser sc st, m) = false := by simpa [isDash] using (fun h => hk h.symm)
      simp [remove, hd]
    · simp only [remove, h, if_false, List.filter_cons, ih]

theorem users_remove_dash (k : Which) (ls : Ls Cb) (ser sc : Nat) (st : Stor) :
    (remove ls (.dash k ser sc st)).1.filterMap userOf = ls.filterMap userOf := by
  induction ls with
  | nil => rfl
  | cons p l ih =>
    obtain ⟨c, m⟩ := p
    by_cases h : Cb.dash k ser sc st = c
    · subst h
      rw [List.filterMap_cons_none (f := userOf) (a := (Cb.dash k ser sc st, m)) rfl]
      simp [remove]
    · simp only [remove, h, if_false, List.filterMap_cons, ih]

theorem filter_remove_user (k : Which) (ls : Ls Cb) (n : Nat) :
    (remove ls (.user n)).1.filter (isDash k) = ls.filter (isDash k) := by
  induction ls with
  | nil => rfl
  | cons p l ih =>
    obtain ⟨c, m⟩ := p
    by_cases h : Cb.user n = c
    · subst h; simp [remove, isDash]
    · simp only [remove, h, if_false, List.filter_cons, ih]

theorem users_remove_user (ls : Ls Cb) (n : Nat) :
    (remove ls (.user n)).1.filterMap userOf = dropFirst n (ls.filterMap userOf) := by
  induction ls with
  | nil => rfl
  | cons p l ih =>
    obtain ⟨c, m⟩ := p
    cases c with
    | user n' =>
      by_cases h : n = n'
      · subst h; simp [remove, userOf, dropFirst]
      · have h' : ¬ n' = n := fun e => h e.symm
        simp [remove, userOf, dropFirst, h, h', ih]
    | dash k ser sc st =>
      rw [List.filterMap_cons_none (f := userOf) (a := (Cb.dash k ser sc st, m)) rfl, ← ih]
      simp only [remove, reduceCtorEq, if_false]
      rw [List.filterMap_cons_none (f := userOf) rfl]

theorem remove_only (k : Which) (ls : Ls Cb) (cb : Cb) (m : Nat) (h : ls.filter (isDash k) = [(cb, m)])
    (hc : isDash k (cb, m) = true) : (remove ls cb).1.filter (isDash k) = [] := by
  induction ls with
  | nil => simp at h
  | cons p l ih =>
    obtain ⟨c, m'⟩ := p
    by_cases hp : isDash k (c, m') = true
    · rw [List.filter_cons, if_pos hp] at h
      injection h with h1 h2
      injection h1 with h3 h4
      subst h3
      simp [remove, h2]
    · rw [List.filter_cons, if_neg hp] at h
      have hne : ¬ cb = c := by
        rintro rfl; apply hp; simpa [isDash] using hc
      simp only [remove, hne, if_false, List.filter_cons, if_neg hp]
      exact ih h

theorem rec_filter (k : Which) (e : Event (Cls × π)) (P : Cb × Nat → Bool) (ls : Ls Cb) :
    (((ls.filter P).map (fun p => (p.1, e))).filterMap recOf).filter (fun r => r.which = k) =
    ((((ls.filter (isDash k)).filter P).map (fun p => (p.1, e))).filterMap recOf) := by
  induction ls with
  | nil => rfl
  | cons p l ih =>
    obtain ⟨c, m⟩ := p
    cases hP : P (c, m) with
    | false =>
      rw [List.filter_cons, hP]
      simp only [Bool.false_eq_true, if_false, ih]
      rw [List.filter_cons]
      split
      · rw [List.filter_cons, hP]; simp
      · rfl
    | true =>
      rw [List.filter_cons, hP]
      simp only [if_true, List.map_cons]
      cases c with
      | user n =>
        have hd : ¬ isDash k (Cb.user n, m) = true := by simp [isDash]
        rw [List.filter_cons, if_neg hd, List.filterMap_cons_none (f := recOf) (a := (Cb.user n, e)) rfl]
        exact ih
      | dash k' ser sc st =>
        have hrec : recOf (Cb.dash k' ser sc st, e) = if records k' e then some ⟨k', st, sc, e⟩ else none := rfl
        by_cases hk : k' = k
        · subst hk
          have hd : isDash k' (Cb.dash k' ser sc st, m) = true := by simp [isDash]
          rw [List.filter_cons, if_pos hd, List.filter_cons, hP]
          simp only [if_true, List.map_cons]
          cases hr : records k' e with
          | true =>
            rw [hr] at hrec
            rw [List.filterMap_cons_some (f := recOf) hrec, List.filterMap_cons_some (f := recOf) hrec, List.filter_cons]
            simp only [decide_true, if_true]
            rw [ih]
          | false =>
            rw [hr] at hrec
            rw [List.filterMap_cons_none (f := recOf) hrec, List.filterMap_cons_none (f := recOf) hrec]
            exact ih
        · have hd : ¬ isDash k (Cb.dash k' ser sc st, m) = true := by simpa [isDash] using hk
          rw [List.filter_cons, if_neg hd]
          cases hr : records k' e with
          | true =>
            rw [hr] at hrec
            rw [List.filterMap_cons_some (f := recOf) hrec, List.filter_cons]
            simp only [hk, decide_false, Bool.false_eq_true, if_false]
            exact ih
          | false =>
            rw [hr] at hrec
            rw [List.filterMap_cons_none (f := recOf) hrec]
            exact ih

theorem stamp_eq (name : String) (e : Event (Cls × π)) : stamp name e = stamped name e := by
  cases e with
  | mk kind isTask identity payload =>
    unfold stamp stamped
    by_cases h1 : isTask = true <;> by_cases h2 : identity = none <;> by_cases h3 : name = "" <;> simp [h1, h2, h3]

theorem wants_eq (k : Which) (e e' : Event (Cls × π)) (h1 : e'.kind = e.kind) (h2 : e'.payload = e.payload) :
    (decide (k.mask.testBit e.kind.bit = true) && records k e') = wants k e := by
  have hm : ∀ ks : List Kind, (maskOf ks).testBit e.kind.bit = decide (e.kind ∈ ks) := by
    intro ks
    rw [maskOf, testBit_foldl]
    simp
  cases k with
  | events =>
    have := hm Kind.all
    simp only [Which.mask, allEvents, this, records, wants]
    cases e.kind <;> rfl
  | runs =>
    simp only [Which.mask, hm, records, wants, h1, h2]
    cases e.payload.1 <;> cases e.kind <;> rfl

theorem emit_recs (o : Obj) (k : Which) (e : Event (Cls × π)) :
    ((dispatch passive o.identity e o.listeners).1.filterMap recOf).filter (fun r => r.which = k) =
    ((((o.listeners.filter (isDash k)).filter (fun p => p.2.testBit e.kind.bit)).map
      (fun p => (p.1, stamped o.identity e))).filterMap recOf) := by
  unfold dispatch
  rw [loop_calls, rec_filter, stamp_eq]
  rfl

/-- replacing the listeners of one scheduler by others with the same listeners of the dashboard -/
theorem inv_obj {w : W π} {s : Spec π} (h : Inv w s) (i : Nat) (o o' : Obj) (ho : w.objs i = some o) (ha : o'.addr = o.addr)
    (hn : o'.identity = o.identity) (hd : ∀ k, o'.listeners.filter (isDash k) = o.listeners.filter (isDash k)) :
    Inv { w with objs := upd w.objs i (some o') }
      { s with held := upd s.held i o'.held, users := upd s.users i (o'.listeners.filterMap userOf) } := by
  have hi := h.bound i o ho
  have key : ∀ j p, upd w.objs i (some o') j = some p → (j = i ∧ p = o') ∨ (j ≠ i ∧ w.objs j = some p) := by
    intro j p hj
    by_cases hji : j = i
    · subst hji; rw [upd_same] at hj; exact Or.inl ⟨rfl, (Option.some.inj hj).symm⟩
    · rw [upd_other _ _ _ _ hji] at hj; exact Or.inr ⟨hji, hj⟩
  constructor
  · exact h.count
  · intro j p hj
    rcases key j p hj with ⟨rfl, _⟩ | ⟨_, hj⟩
    · exact hi
    · exact h.bound j p hj
  · intro j hj
    by_cases hji : j = i
    · subst hji; rw [← h.count]; exact hi
    · simp only [upd_other _ _ _ _ hji] at hj; exact h.sbound j hj
  · intro j j' p p' hj hj' hpp
    rcases key j p hj with ⟨e1, e2⟩ | ⟨hne, hj⟩ <;> rcases key j' p' hj' with ⟨e3, e4⟩ | ⟨hne', hj'⟩
    · rw [e1, e3]
    · rw [e1]; exact h.apart _ _ _ _ ho hj' (by rw [← ha, ← e2]; exact hpp)
    · rw [e3]; exact h.apart _ _ _ _ hj ho (by rw [← ha, ← e4]; exact hpp)
    · exact h.apart _ _ _ _ hj hj' hpp
  · intro j hj
    by_cases hji : j = i
    · subst hji; simp only [upd_same] at hj ⊢; exact ⟨o', rfl, hj⟩
    · simp only [upd_other _ _ _ _ hji] at hj ⊢; exact h.live j hj
  · intro j p hj
    rcases key j p hj with ⟨rfl, rfl⟩ | ⟨hne, hj⟩
    · simp only [upd_same]; exact ⟨trivial, by rw [hn]; exact (h.obj _ _ ho).2.1, trivial⟩
    · simp only [upd_other _ _ _ _ hne]; exact h.obj j p hj
  · exact h.wf
  · intro k a j cb he
    obtain ⟨p, ser, st, h1, h2, h3, h4, h5⟩ := h.entry k a j cb he
    by_cases hji : j = i
    · subst hji
      rw [ho] at h1; cases h1
      exact ⟨o', ser, st, upd_same _ _ _, by rw [ha]; exact h2, h3, h4, by rw [hd]; exact h5⟩
    · exact ⟨p, ser, st, by simp only [upd_other _ _ _ _ hji]; exact h1, h2, h3, h4, h5⟩
  · intro k j p hj he
    rcases key j p hj with ⟨rfl, rfl⟩ | ⟨hne, hj⟩
    · have := h.noentry k j o ho (by rw [← ha]; exact he)
      exact ⟨this.1, by rw [hd]; exact this.2⟩
    · exact h.noentry k j p hj he
  · intro k j st hj
    by_cases hji : j = i
    · subst hji; exact ⟨o', upd_same _ _ _⟩
    · simp only [upd_other _ _ _ _ hji]; exact h.subs k j st hj
  · intro j hj
    have : j ≠ i := by have := h.count; rintro rfl; simp only at hj; omega
    simp only [upd_other _ _ _ _ this]; exact h.unused j hj
  · exact h.inUse
  · exact h.recs

theorem upd_self {α β : Type} [DecidableEq α] (f : α → β) (a : α) : upd f a (f a) = f := by
  funext x; by_cases h : x = a <;> simp [upd, h]

theorem referenced_entry {w : W π} {s : Spec π} (h : Inv w s) (k : Which) (i : Nat) (o : Obj) (ho : w.objs i = some o)
    (j : Nat) (cb : Cb) (he : (w.tables k).get? o.addr = some (j, cb)) : j = i ∧ w.referenced i = true := by
  obtain ⟨p, ser, st, h1, h2, h3, h4, h5⟩ := h.entry k _ j cb he
  have hji := h.apart _ _ _ _ h1 ho h2
  subst hji
  refine ⟨rfl, ?_⟩
  unfold W.referenced
  rw [List.any_eq_true]
  refine ⟨k, by cases k <;> simp, ?_⟩
  rw [List.any_eq_true]
  exact ⟨_, Dict.mem_of_get? he, by simp [h3]⟩

theorem inv_create {w : W π} {s : Spec π} (h : Inv w s) (addr : Nat) (name : String) :
    Inv (step w (.create addr name)) (s.step (.create addr name)) := by
  have hnone : w.objs w.next = none := by
    cases hc : w.objs w.next with
    | none => rfl
    | some o => have := h.bound _ _ hc; omega
  have hfree := alloc_free w h.bound addr
  have hc := h.count
  have key : ∀ j p, upd w.objs w.next (some ⟨w.alloc addr, name, true, []⟩) j = some p →
      (j = w.next ∧ p = ⟨w.alloc addr, name, true, []⟩) ∨ (j ≠ w.next ∧ w.objs j = some p) := by
    intro j p hj
    by_cases hji : j = w.next
    · subst hji; rw [upd_same] at hj; exact Or.inl ⟨rfl, (Option.some.inj hj).symm⟩
    · rw [upd_other _ _ _ _ hji] at hj; exact Or.inr ⟨hji, hj⟩
  constructor <;> simp only [step, Spec.step]
  · rw [hc]
  · intro j p hj
    rcases key j p hj with ⟨rfl, _⟩ | ⟨_, hj⟩
    · omega
    · have := h.bound j p hj; omega
  · intro j hj
    by_cases hji : j = s.count
    · omega
    · rw [upd_other _ _ _ _ hji] at hj; have := h.sbound j hj; omega
  · intro j j' p p' hj hj' hpp
    rcases key j p hj with ⟨rfl, rfl⟩ | ⟨hne, hj⟩ <;> rcases key j' p' hj' with ⟨rfl, rfl⟩ | ⟨hne', hj'⟩
    · rfl
    · exact absurd hpp.symm (hfree _ _ hj')
    · exact absurd hpp (hfree _ _ hj)
    · exact h.apart _ _ _ _ hj hj' hpp
  · intro j hj
    by_cases hji : j = w.next
    · subst hji; exact ⟨_, upd_same _ _ _, rfl⟩
    · rw [upd_other _ _ _ _ (by omega)] at hj ⊢
      exact h.live j hj
  · intro j p hj
    rcases key j p hj with ⟨rfl, rfl⟩ | ⟨hne, hj⟩
    · rw [hc, upd_same, upd_same, h.unused _ (Nat.le_refl _)]; exact ⟨rfl, rfl, rfl⟩
    · rw [upd_other _ _ _ _ (by omega), upd_other _ _ _ _ (by omega)]; exact h.obj j p hj
  · exact h.wf
  · intro k a j cb he
    obtain ⟨p, ser, st, h1, h2, h3, h4, h5⟩ := h.entry k a j cb he
    have : j ≠ w.next := by have := h.bound _ _ h1; omega
    exact ⟨p, ser, st, by rw [upd_other _ _ _ _ this]; exact h1, h2, h3, h4, h5⟩
  · intro k j p hj he
    rcases key j p hj with ⟨rfl, rfl⟩ | ⟨hne, hj⟩
    · refine ⟨?_, rfl⟩
      cases hs : s.subscribed k w.next with
      | none => rfl
      | some st => obtain ⟨o, ho⟩ := h.subs k _ st hs; rw [hnone] at ho; cases ho
    · exact h.noentry k j p hj he
  · intro k j st hj
    obtain ⟨o, ho⟩ := h.subs k j st hj
    have : j ≠ w.next := by have := h.bound _ _ ho; omega
    exact ⟨o, by rw [upd_other _ _ _ _ this]; exact ho⟩
  · intro j hj; exact h.unused j (by omega)
  · exact h.inUse
  · exact h.recs

theorem inv_collect {w : W π} {s : Spec π} (h : Inv w s) (i : Nat) :
    Inv (step w (.collect i)) (s.step (.collect i)) := by
  simp only [step, Spec.step]
  cases ho : w.objs i with
  | none => exact h
  | some o =>
    by_cases hr : (o.held || w.referenced i) = true
    · simp only [hr, if_true]; exact h
    · simp only [hr]
      simp only [Bool.or_eq_true, not_or, Bool.not_eq_true] at hr
      obtain ⟨hh, hr⟩ := hr
      have hheld : s.held i = false := by rw [← (h.obj i o ho).1]; exact hh
      have hnoent : ∀ k, (w.tables k).get? o.addr = none := by
        intro k
        cases he : (w.tables k).get? o.addr with
        | none => rfl
        | some p =>
          obtain ⟨j, cb⟩ := p
          have := (referenced_entry h k i o ho j cb he).2
          rw [hr] at this; cases this
      have key : ∀ j p, upd w.objs i none j = some p → j ≠ i ∧ w.objs j = some p := by
        intro j p hj
        by_cases hji : j = i
        · subst hji; rw [upd_same] at hj; cases hj
        · rw [upd_other _ _ _ _ hji] at hj; exact ⟨hji, hj⟩
      constructor
      · exact h.count
      · intro j p hj; exact h.bound j p (key j p hj).2
      · exact h.sbound
      · intro j j' p p' hj hj'; exact h.apart _ _ _ _ (key j p hj).2 (key j' p' hj').2
      · intro j hj
        have : j ≠ i := by rintro rfl; rw [hheld] at hj; cases hj
        simp only [Bool.false_eq_true, if_false, upd_other _ _ _ _ this]; exact h.live j hj
      · intro j p hj; exact h.obj j p (key j p hj).2
      · exact h.wf
      · intro k a j cb he
        obtain ⟨p, ser, st, h1, h2, h3, h4, h5⟩ := h.entry k a j cb he
        have : j ≠ i := by
          rintro rfl
          rw [ho] at h1; cases h1
          have := hnoent k; rw [h2] at this; simp only [Bool.false_eq_true, if_false] at he; rw [he] at this; cases this
        exact ⟨p, ser, st, by simp only [Bool.false_eq_true, if_false, upd_other _ _ _ _ this]; exact h1, h2, h3, h4, h5⟩
      · intro k j p hj he; exact h.noentry k j p (key j p hj).2 he
      · intro k j st hj
        have : j ≠ i := by
          rintro rfl
          have := (h.noentry k j o ho (hnoent k)).1
          rw [this] at hj; cases hj
        simp only [Bool.false_eq_true, if_false, upd_other _ _ _ _ this]; exact h.subs k j st hj
      · exact h.unused
      · exact h.inUse
      · exact h.recs

theorem inv_emit {w : W π} {s : Spec π} (h : Inv w s) (i : Nat) (e : Event (Cls × π)) :
    Inv (step w (.emit i e)) (s.step (.emit i e)) := by
  rcases user_eq h i with ⟨hh, hu⟩ | ⟨hh, o, ho, hhd, hu⟩
  · simp only [step, Spec.step, hh, hu]; exact h
  · simp only [step, Spec.step, hh, hu, if_true]
    refine ⟨h.count, h.bound, h.sbound, h.apart, h.live, h.obj, h.wf, h.entry, h.noentry, h.subs, h.unused, h.inUse, ?_⟩
    intro k
    simp only [List.filter_append, List.map_append, h.recs k, emit_recs]
    congr 1
    have hname := (h.obj i o ho).2.1
    cases he : (w.tables k).get? o.addr with
    | none =>
      obtain ⟨h1, h2⟩ := h.noentry k i o ho he
      simp [h1, h2]
    | some p =>
      obtain ⟨j, cb⟩ := p
      have hji := (referenced_entry h k i o ho j cb he).1
      subst hji
      obtain ⟨p, ser, st, h1, h2, h3, h4, h5⟩ := h.entry k _ j cb he
      rw [ho] at h1; cases h1
      have hw := wants_eq k e (stamped o.identity e) rfl rfl
      simp only [h5, h4, h3, ← hw]
      cases hb : k.mask.testBit e.kind.bit with
      | false => simp [hb]
      | true =>
        rw [← hname]
        cases hr : records k (stamped o.identity e) <;> simp [hb, hr, recOf]

theorem getStorage_eq (cur arg : Option Stor) : getStorage cur arg = (arg.or cur).getD .default := by
  cases arg <;> cases cur <;> rfl

theorem inv_install {w : W π} {s : Spec π} (h : Inv w s) (k : Which) (i : Nat) (arg : Option Stor) :
    Inv (step w (.install k i arg)) (s.step (.install k i arg)) := by
  rcases user_eq h i with ⟨hh, hu⟩ | ⟨hh, o, ho, hhd, hu⟩
  · simp only [step, Spec.step, hh, hu]; exact h
  · have hi := h.bound i o ho
    -- the listeners after the old one of the dashboard has been removed
    obtain ⟨ls, hls, hl1, hl2, hl3⟩ : ∃ ls, (match (w.tables k).get? o.addr with
        | some (ref, cb) => if w.deref ref = some i then (remove o.listeners cb).1 else o.listeners
        | none => o.listeners) = ls ∧ ls.filter (isDash k) = [] ∧
        (∀ k', k' ≠ k → ls.filter (isDash k') = o.listeners.filter (isDash k')) ∧
        ls.filterMap userOf = o.listeners.filterMap userOf := by
      cases he : (w.tables k).get? o.addr with
      | none => exact ⟨_, rfl, (h.noentry k i o ho he).2, fun _ _ => rfl, rfl⟩
      | some p =>
        obtain ⟨j, cb⟩ := p
        have hji := (referenced_entry h k i o ho j cb he).1
        subst hji
        obtain ⟨p, ser, st, h1, h2, h3, h4, h5⟩ := h.entry k _ j cb he
        rw [ho] at h1; cases h1
        have hd : w.deref j = some j := by simp [W.deref, ho]
        refine ⟨_, rfl, ?_, ?_, ?_⟩
        · simp only [hd, if_true]
          exact remove_only k _ _ _ h5 (by simp [isDash, h3])
        · intro k' hk'
          simp only [hd, if_true, h3]
          exact filter_remove_dash k k' _ _ _ _ hk'
        · simp only [hd, if_true, h3]
          exact users_remove_dash k _ _ _ _
    generalize hst : (arg.or (s.inUse k)).getD .default = st
    have hst' : getStorage (w.storages k) arg = st := by rw [getStorage_eq, h.inUse, hst]
    generalize hcb : Cb.dash k w.serial i st = cb
    have hcbd : ∀ k', isDash k' (cb, k.mask) = decide (k = k') := by intro k'; simp [isDash, ← hcb]
    have hcbu : userOf (cb, k.mask) = none := by simp [userOf, ← hcb]
    have hstep : step w (.install k i arg) = { w with
        storages := upd w.storages k (some st)
        objs := upd w.objs i (some { o with listeners := ls ++ [(cb, k.mask)] })
        tables := upd w.tables k ((w.tables k).set o.addr (i, cb))
        serial := w.serial + 1 } := by
      simp only [step, hu]
      unfold install
      simp only [hst', hcb, add]
      rw [← hls]
      rfl
    have hsstep : s.step (.install k i arg) = { s with
        inUse := upd s.inUse k (some st), subscribed := upd s.subscribed k (upd (s.subscribed k) i (some st)) } := by
      simp only [Spec.step, hh, if_true, hst]
    rw [hstep, hsstep]
    have key : ∀ j p, upd w.objs i (some { o with listeners := ls ++ [(cb, k.mask)] }) j = some p →
        (j = i ∧ p = { o with listeners := ls ++ [(cb, k.mask)] }) ∨ (j ≠ i ∧ w.objs j = some p) := by
      intro j p hj
      by_cases hji : j = i
      · subst hji; rw [upd_same] at hj; exact Or.inl ⟨rfl, (Option.some.inj hj).symm⟩
      · rw [upd_other _ _ _ _ hji] at hj; exact Or.inr ⟨hji, hj⟩
    have hdash : ∀ k', (ls ++ [(cb, k.mask)]).filter (isDash k') =
        if k' = k then [(cb, k.mask)] else o.listeners.filter (isDash k') := by
      intro k'
      by_cases hk : k' = k
      · subst hk; simp [List.filter_append, hl1, hcbd]
      · have hk2 : ¬ k = k' := fun e => hk e.symm
        simp [List.filter_append, hl2 k' hk, hcbd, hk, hk2]
    constructor <;> simp only
    · exact h.count
    · intro j p hj
      rcases key j p hj with ⟨rfl, _⟩ | ⟨_, hj⟩
      · exact hi
      · exact h.bound j p hj
    · exact h.sbound
    · intro j j' p p' hj hj' hpp
      rcases key j p hj with ⟨e1, e2⟩ | ⟨hne, hj⟩ <;> rcases key j' p' hj' with ⟨e3, e4⟩ | ⟨hne', hj'⟩
      · rw [e1, e3]
      · rw [e1]; exact h.apart _ _ _ _ ho hj' (by rw [e2] at hpp; exact hpp)
      · rw [e3]; exact h.apart _ _ _ _ hj ho (by rw [e4] at hpp; exact hpp)
      · exact h.apart _ _ _ _ hj hj' hpp
    · intro j hj
      by_cases hji : j = i
      · subst hji; exact ⟨_, upd_same _ _ _, hhd⟩
      · rw [upd_other _ _ _ _ hji]; exact h.live j hj
    · intro j p hj
      rcases key j p hj with ⟨e1, e2⟩ | ⟨hne, hj⟩
      · subst e1; subst e2
        have := h.obj j o ho
        exact ⟨this.1, this.2.1, by simp [hcbu, hl3, this.2.2]⟩
      · exact h.obj j p hj
    · intro k'
      by_cases hk : k' = k
      · subst hk; rw [upd_same]; exact Dict.WF.set (h.wf k') _ _
      · rw [upd_other _ _ _ _ hk]; exact h.wf k'
    · intro k' a j cb' he
      by_cases hk : k' = k
      · subst hk
        rw [upd_same, Dict.get?_set] at he
        by_cases haa : a = o.addr
        · rw [if_pos haa] at he
          cases he
          exact ⟨_, w.serial, st, upd_same _ _ _, haa.symm, hcb.symm, by rw [upd_same, upd_same], by rw [hdash, if_pos rfl]⟩
        · rw [if_neg haa] at he
          obtain ⟨p, ser, st', h1, h2, h3, h4, h5⟩ := h.entry k' a j cb' he
          have hji : j ≠ i := by rintro rfl; rw [ho] at h1; cases h1; exact haa h2.symm
          exact ⟨p, ser, st', by rw [upd_other _ _ _ _ hji]; exact h1, h2, h3, by rw [upd_same, upd_other _ _ _ _ hji]; exact h4, h5⟩
      · rw [upd_other _ _ _ _ hk] at he
        obtain ⟨p, ser, st', h1, h2, h3, h4, h5⟩ := h.entry k' a j cb' he
        by_cases hji : j = i
        · subst hji
          rw [ho] at h1; cases h1
          exact ⟨_, ser, st', upd_same _ _ _, h2, h3, by rw [upd_other _ _ _ _ hk]; exact h4, by rw [hdash, if_neg hk]; exact h5⟩
        · exact ⟨p, ser, st', by rw [upd_other _ _ _ _ hji]; exact h1, h2, h3, by rw [upd_other _ _ _ _ hk]; exact h4, h5⟩
    · intro k' j p hj he
      by_cases hk : k' = k
      · subst hk
        rw [upd_same, Dict.get?_set] at he
        rcases key j p hj with ⟨e1, e2⟩ | ⟨hne, hj⟩
        · subst e2; simp at he
        · split at he
          · cases he
          · rw [upd_same, upd_other _ _ _ _ hne]; exact h.noentry k' j p hj he
      · rw [upd_other _ _ _ _ hk] at he ⊢
        rcases key j p hj with ⟨e1, e2⟩ | ⟨hne, hj⟩
        · subst e1; subst e2
          have := h.noentry k' j o ho he
          exact ⟨this.1, by rw [hdash, if_neg hk]; exact this.2⟩
        · exact h.noentry k' j p hj he
    · intro k' j st' hj
      by_cases hji : j = i
      · subst hji; exact ⟨_, upd_same _ _ _⟩
      · rw [upd_other _ _ _ _ hji]
        by_cases hk : k' = k
        · subst hk; rw [upd_same, upd_other _ _ _ _ hji] at hj; exact h.subs k' j st' hj
        · rw [upd_other _ _ _ _ hk] at hj; exact h.subs k' j st' hj
    · exact h.unused
    · rw [h.inUse]
    · exact h.recs

theorem inv_step {w : W π} {s : Spec π} (h : Inv w s) (op : Op π) : Inv (step w op) (s.step op) := by
  cases op with
  | create addr name => exact inv_create h addr name
  | collect i => exact inv_collect h i
  | install k i arg => exact inv_install h k i arg
  | emit i e => exact inv_emit h i e
  | drop i =>
    rcases user_eq h i with ⟨hh, hu⟩ | ⟨hh, o, ho, hhd, hu⟩
    · simp only [step, Spec.step, hu, ← hh, upd_self]; exact h
    · simp only [step, Spec.step, hu]
      have := inv_obj h i o { o with held := false } ho rfl rfl (fun _ => rfl)
      simp only [(h.obj i o ho).2.2, upd_self] at this
      exact this
  | listen i n m =>
    rcases user_eq h i with ⟨hh, hu⟩ | ⟨hh, o, ho, hhd, hu⟩
    · simp only [step, Spec.step, hu, hh]; exact h
    · simp only [step, Spec.step, hu, hh, if_true]
      have := inv_obj h i o { o with listeners := add o.listeners (.user n) m } ho rfl rfl
        (fun k => by simp [add, List.filter_append, isDash])
      have e1 : upd s.held i o.held = s.held := by rw [(h.obj i o ho).1, upd_self]
      have e2 : (add o.listeners (Cb.user n) m).filterMap userOf = s.users i ++ [(n, m)] := by
        simp only [add, List.filterMap_append, (h.obj i o ho).2.2]; rfl
      simp only [e1, e2] at this
      exact this
  | unlisten i n =>
    rcases user_eq h i with ⟨hh, hu⟩ | ⟨hh, o, ho, hhd, hu⟩
    · simp only [step, Spec.step, hu, hh]; exact h
    · simp only [step, Spec.step, hu, hh, if_true]
      have := inv_obj h i o { o with listeners := (remove o.listeners (.user n)).1 } ho rfl rfl
        (fun k => filter_remove_user k _ n)
      have e1 : upd s.held i o.held = s.held := by rw [(h.obj i o ho).1, upd_self]
      simp only [e1, users_remove_user, (h.obj i o ho).2.2] at this
      exact this

theorem inv_run (ops : List (Op π)) : Inv (run ops) (spec ops) := by
  unfold run spec
  suffices H : ∀ (w : W π) (s : Spec π), Inv w s → Inv (ops.foldl step w) (ops.foldl Spec.step s) from H _ _ inv_init
  induction ops with
  | nil => exact fun _ _ h => h
  | cons op ops ih => intro w s h; exact ih _ _ (inv_step h op)

/-! ## C80 -/

/-- **C80.** For every history of schedulers made, forgotten and destroyed, of installations, of registrations and of events:
each event of a scheduler is recorded exactly once by each listener of the dashboard installed for that scheduler and
interested in it, in the storage of the last installation for that scheduler, in order, and nothing else is recorded; the
registrations of the user are those the user made. -/
theorem C80_recorded (ops : List (Op π)) :
    (∀ k, ((run ops).recs.filter (fun r => r.which = k)).map (fun r => (r.storage, r.sched, r.event)) = (spec ops).recs k) ∧
    ∀ i, (spec ops).held i = true → ∃ o, (run ops).objs i = some o ∧ o.listeners.filterMap userOf = (spec ops).users i := by
  refine ⟨(inv_run ops).recs, fun i hi => ?_⟩
  obtain ⟨o, ho, _⟩ := (inv_run ops).live i hi
  exact ⟨o, ho, ((inv_run ops).obj i o ho).2.2⟩

/-- A scheduler for which the dashboard was ever installed has exactly one listener of that kind, others have none. -/
theorem C80_one (ops : List (Op π)) (i : Nat) (o : Obj) (ho : (run ops).objs i = some o) (k : Which) :
    (o.listeners.filter (isDash k)).length = if ((spec ops).subscribed k i).isSome then 1 else 0 := by
  have h := inv_run ops
  cases he : ((run ops).tables k).get? o.addr with
  | none =>
    obtain ⟨h1, h2⟩ := h.noentry k i o ho he
    simp [h1, h2]
  | some p =>
    obtain ⟨j, cb⟩ := p
    have hji := (referenced_entry h k i o ho j cb he).1
    subst hji
    obtain ⟨p, ser, st, h1, h2, h3, h4, h5⟩ := h.entry k _ j cb he
    rw [ho] at h1; cases h1
    simp [h4, h5]

/-- **C80, creating the dashboard's app.**  For a scheduler that someone holds, `create_dashboard_app` has every later event
of it recorded on the event page's storage in use, and every later submission and outcome in the run history given, or else in
the one in use; until another installation, whatever else happens. -/
theorem C80_app (ops : List (Op π)) (i : Nat) (hi : (spec ops).held i = true) (runStorage : Option Stor)
    (later : List (Op π)) (hl : ∀ op ∈ later, (∃ e, op = .emit i e) ∨ (∃ a n, op = .create a n) ∨ (∃ j, op = .collect j) ∨
      (∃ n m, op = .listen i n m) ∨ ∃ n, op = .unlisten i n) :
    let before := run ops
    let after := run (ops ++ createApp i runStorage ++ later)
    let events := later.filterMap fun | .emit _ e => some e | _ => none
    let seen := fun k => ((after.recs.filter (fun r => r.which = k)).map (fun r => (r.storage, r.sched, r.event)))
    let old := fun k => ((before.recs.filter (fun r => r.which = k)).map (fun r => (r.storage, r.sched, r.event)))
    seen .events = old .events ++ events.map (fun e =>
      ((((spec ops).inUse .events).getD .default), i, stamped ((spec ops).identity i) e)) ∧
    seen .runs = old .runs ++ (events.filter (wants .runs)).map (fun e =>
      (((runStorage.or ((spec ops).inUse .runs)).getD .default), i, stamped ((spec ops).identity i) e)) := by
  intro before after events seen old
  have e1 : ∀ k, seen k = (spec (ops ++ createApp i runStorage ++ later)).recs k := fun k => (inv_run _).recs k
  have e2 : ∀ k, old k = (spec ops).recs k := fun k => (inv_run _).recs k
  have hbound : i < (spec ops).count := (inv_run ops).sbound i hi
  rw [e1, e1, e2, e2]
  have e3 : spec (ops ++ createApp i runStorage ++ later) =
      later.foldl Spec.step ((createApp i runStorage).foldl Spec.step (spec ops)) := by
    simp only [spec, List.foldl_append]
  rw [e3]
  suffices H : ∀ (later : List (Op π)), (∀ op ∈ later, (∃ e, op = .emit i e) ∨ (∃ a n, op = .create a n) ∨ (∃ j, op = .collect j) ∨
      (∃ n m, op = .listen i n m) ∨ ∃ n, op = .unlisten i n) → ∀ (s : Spec π) (a b : Stor) (name : String), s.held i = true → i < s.count →
      s.identity i = name → s.subscribed .events i = some a → s.subscribed .runs i = some b →
      (later.foldl Spec.step s).recs .events = s.recs .events ++
        (later.filterMap fun | .emit _ e => some e | _ => none).map (fun e => (a, i, stamped name e)) ∧
      (later.foldl Spec.step s).recs .runs = s.recs .runs ++
        ((later.filterMap fun | .emit _ e => some e | _ => none).filter (wants .runs)).map (fun e => (b, i, stamped name e)) by
    have h0 : (createApp i runStorage).foldl Spec.step (spec ops) =
        { (spec ops) with
          inUse := upd (upd (spec ops).inUse .runs (some ((runStorage.or ((spec ops).inUse .runs)).getD .default)))
            .events (some ((((spec ops).inUse .events)).getD .default))
          subscribed := upd (upd (spec ops).subscribed .runs (upd ((spec ops).subscribed .runs) i
              (some ((runStorage.or ((spec ops).inUse .runs)).getD .default))))
            .events (upd ((spec ops).subscribed .events) i (some ((((spec ops).inUse .events)).getD .default))) } := by
      simp [createApp, Spec.step, hi, upd]
    rw [h0]
    exact H later hl _ _ _ _ hi hbound rfl (by simp [upd]) (by simp [upd])
  intro later
  induction later with
  | nil => intro _ s a b name _ _ _ _ _; simp
  | cons op later ih =>
    intro hop s a b name h1 hb h2 h3 h4
    have hrest := fun o ho => hop o (List.mem_cons_of_mem _ ho)
    rcases hop op List.mem_cons_self with ⟨e, rfl⟩ | ⟨x, n, rfl⟩ | ⟨j, rfl⟩ | ⟨n, m, rfl⟩ | ⟨n, rfl⟩
    · let more : Which → List (Stor × Nat × Event (Cls × π)) := fun k => match s.subscribed k i with
        | some st => if wants k e then [(st, i, stamped (s.identity i) e)] else []
        | none => []
      have hs : s.step (.emit i e) = { s with recs := fun k => s.recs k ++ more k } := by
        simp only [Spec.step, h1, if_true]; rfl
      obtain ⟨r1, r2⟩ := ih hrest (s.step (.emit i e)) a b name (by rw [hs]; exact h1) (by rw [hs]; exact hb) (by rw [hs]; exact h2)
        (by rw [hs]; exact h3) (by rw [hs]; exact h4)
      rw [List.foldl_cons, r1, r2, hs]
      subst h2
      have hw : wants .events e = true := rfl
      constructor
      · simp [more, h3, hw]
      · by_cases hr : wants .runs e = true
        · simp [more, h4, hr]
        · simp [more, h4, hr]
    · have hne : i ≠ s.count := by omega
      have hs : s.step (.create x n) = { s with count := s.count + 1, held := upd s.held s.count true, identity := upd s.identity s.count n } := rfl
      have := ih hrest (s.step (.create x n)) a b name (by rw [hs]; show upd s.held s.count true i = true; rw [upd_other _ _ _ _ hne]; exact h1)
        (by rw [hs]; exact Nat.lt_succ_of_lt hb)
        (by rw [hs]; show upd s.identity s.count n i = name; rw [upd_other _ _ _ _ hne]; exact h2) h3 h4
      exact this
    · exact ih hrest s a b name h1 hb h2 h3 h4
    · have hs : s.step (.listen i n m) = { s with users := upd s.users i (s.users i ++ [(n, m)]) } := by simp [Spec.step, h1]
      have := ih hrest (s.step (.listen i n m)) a b name (by rw [hs]; exact h1) (by rw [hs]; exact hb) (by rw [hs]; exact h2)
        (by rw [hs]; exact h3) (by rw [hs]; exact h4)
      rw [hs] at this
      rw [List.foldl_cons, hs]
      exact this
    · have hs : s.step (.unlisten i n) = { s with users := upd s.users i (dropFirst n (s.users i)) } := by simp [Spec.step, h1]
      have := ih hrest (s.step (.unlisten i n)) a b name (by rw [hs]; exact h1) (by rw [hs]; exact hb) (by rw [hs]; exact h2)
        (by rw [hs]; exact h3) (by rw [hs]; exact h4)
      rw [hs] at this
      rw [List.foldl_cons, hs]
      exact this

-- a scheduler that is held, an app with its own run history, a submission and another event
example : (spec ([.create 5 "a"] : List (Op Nat))).held 0 = true ∧
    ((run ([.create 5 "a"] ++ createApp 0 (some (.given 3)) ++
      [.emit 0 ⟨.taskSubmitted, true, none, (.submission, 7)⟩, .emit 0 ⟨.schedulerStarted, false, none, (.plain, 8)⟩]) :
        W Nat).recs.map fun r => (r.which, r.storage)) =
      [(.runs, .given 3), (.events, .default), (.events, .default)] := by decide +kernel

theorem subscribed_stays (ops : List (Op π)) (s : Spec π) (k : Which) (i : Nat) (h : (s.subscribed k i).isSome = true) :
    ((ops.foldl Spec.step s).subscribed k i).isSome = true := by
  induction ops generalizing s with
  | nil => exact h
  | cons op ops ih =>
    refine ih (s.step op) ?_
    cases op <;> simp only [Spec.step] <;> (try split) <;> (try exact h)
    rename_i k' j arg hh
    simp only [upd]
    split
    · rename_i hk; subst hk
      by_cases hij : i = j
      · simp [upd, hij]
      · rw [upd_other _ _ _ _ hij]; exact h
    · exact h

/-- A scheduler that nobody refers to any more is released by the garbage collector, if the dashboard was never installed
for it. -/
theorem C80_released_partial (ops : List (Op π)) (i : Nat) (h : ∀ k, (spec ops).subscribed k i = none) :
    (run (ops ++ [.drop i, .collect i])).objs i = none := by
  have hi := inv_run (ops ++ [.drop i])
  have hs : ∀ k, (spec (ops ++ [.drop i])).subscribed k i = none := by
    intro k; simp [spec, Spec.step]; exact h k
  have hh : (spec (ops ++ [.drop i])).held i = false := by simp [spec, Spec.step, upd]
  have e : run (ops ++ [.drop i, .collect i]) = step (run (ops ++ [.drop i])) (.collect i) := by
    simp [run]
  rw [e]
  simp only [step]
  cases ho : (run (ops ++ [.drop i])).objs i with
  | none => exact ho
  | some o =>
    have h1 : o.held = false := by rw [(hi.obj i o ho).1, hh]
    have h2 : (run (ops ++ [.drop i])).referenced i = false := by
      cases hr : (run (ops ++ [.drop i])).referenced i with
      | false => rfl
      | true =>
        unfold W.referenced at hr
        rw [List.any_eq_true] at hr
        obtain ⟨k, _, hk⟩ := hr
        rw [List.any_eq_true] at hk
        obtain ⟨⟨a, j, cb⟩, hm, hcb⟩ := hk
        have hg : ((run (ops ++ [.drop i])).tables k).get? a = some (j, cb) := Dict.get?_of_mem (hi.wf k) hm
        obtain ⟨p, ser, st, g1, g2, g3, g4, g5⟩ := hi.entry k a j cb hg
        subst g3
        simp only [decide_eq_true_eq] at hcb
        subst hcb
        rw [hs k] at g4; cases g4
    simp only [h1, h2, Bool.or_self, Bool.false_eq_true, if_false, upd_same]

/-- Once the dashboard has been installed for a scheduler, the scheduler is never released, whatever happens later: the listener
kept in the module refers to it, and the weak reference beside it is of no use. -/
theorem C80_kept_witness (pre post : List (Op π)) (k : Which) (i : Nat) (arg : Option Stor) (h : (spec pre).held i = true) :
    ((run (pre ++ .install k i arg :: post)).objs i).isSome = true := by
  have hi := inv_run (pre ++ .install k i arg :: post)
  have hs : ((spec (pre ++ .install k i arg :: post)).subscribed k i).isSome = true := by
    unfold spec
    rw [List.foldl_append, List.foldl_cons]
    refine subscribed_stays post _ k i ?_
    have h' : (pre.foldl Spec.step Spec.init).held i = true := h
    simp only [Spec.step, h', if_true, upd_same, Option.isSome_some]
  cases hc : (spec (pre ++ .install k i arg :: post)).subscribed k i with
  | none => rw [hc] at hs; cases hs
  | some st =>
    obtain ⟨o, ho⟩ := hi.subs k i st hc
    rw [ho]; rfl

/-- If all installations name the same storage (or all none), the pages of the dashboard read the storage everything is
recorded in. -/
theorem C80_pages_partial (ops : List (Op π)) (k : Which) (arg : Option Stor)
    (h : ∀ i a, Op.install k i a ∈ ops → a = arg) :
    ∀ r ∈ (spec ops).recs k, r.1 = (run ops).pageStorage k := by
  have key : ∀ (ops : List (Op π)) (s : Spec π), (∀ i a, Op.install k i a ∈ ops → a = arg) →
      (s.inUse k = none ∨ s.inUse k = some (arg.getD .default)) →
      (∀ i st, s.subscribed k i = some st → st = arg.getD .default ∧ s.inUse k = some st) →
      (∀ r ∈ s.recs k, r.1 = arg.getD .default ∧ s.inUse k = some r.1) →
      ∀ r ∈ (ops.foldl Spec.step s).recs k, r.1 = arg.getD .default ∧ (ops.foldl Spec.step s).inUse k = some r.1 := by
    intro ops
    induction ops with
    | nil => exact fun _ _ _ _ h => h
    | cons op ops ih =>
      intro s ho h1 h2 h3
      refine ih (s.step op) (fun i a hm => ho i a (List.mem_cons_of_mem _ hm)) ?_ ?_ ?_
      all_goals cases op with
        | create a n => first | exact h1 | exact h2 | exact h3
        | drop i => first | exact h1 | exact h2 | exact h3
        | collect i => first | exact h1 | exact h2 | exact h3
        | listen i n m => simp only [Spec.step]; split <;> first | exact h1 | exact h2 | exact h3
        | unlisten i n => simp only [Spec.step]; split <;> first | exact h1 | exact h2 | exact h3
        | install k' i a =>
          simp only [Spec.step]
          split
          · by_cases hk : k = k'
            · subst hk
              have ha : a = arg := ho i a List.mem_cons_self
              subst ha
              have hst : (a.or (s.inUse k)).getD .default = a.getD .default := by
                rcases h1 with h1 | h1 <;> rw [h1] <;> cases a <;> rfl
              simp only [hst, upd_same]
              first
                | exact Or.inr trivial
                | (intro j st hj
                   by_cases hji : j = i
                   · subst hji; rw [upd_same] at hj; cases hj; exact ⟨rfl, rfl⟩
                   · rw [upd_other _ _ _ _ hji] at hj
                     have := (h2 j st hj).1
                     exact ⟨this, by rw [this]⟩)
                | (intro r hr
                   have := (h3 r hr).1
                   exact ⟨this, by rw [this]⟩)
            · simp only [upd_other _ _ _ _ hk]
              first | exact h1 | exact h2 | exact h3
          · first | exact h1 | exact h2 | exact h3
        | emit i e =>
          simp only [Spec.step]
          split
          · first
              | exact h1
              | exact h2
              | (intro r hr
                 rw [List.mem_append] at hr
                 rcases hr with hr | hr
                 · exact h3 r hr
                 · split at hr
                   · rename_i st hst
                     split at hr
                     · simp only [List.mem_singleton] at hr
                       subst hr
                       exact h2 i st hst
                     · cases hr
                   · cases hr)
          · first | exact h1 | exact h2 | exact h3
  intro r hr
  have := key ops .init h (Or.inl rfl) (by simp [Spec.init]) (by simp [Spec.init]) r hr
  unfold W.pageStorage
  rw [(inv_run ops).inUse]
  have e : (spec ops).inUse k = some r.1 := this.2
  rw [e]
  rfl

/-- a submission of a task of the first scheduler -/
def someSubmission : Event (Cls × Nat) := ⟨.taskSubmitted, true, none, (.submission, 7)⟩

/-- Two dashboards with histories of their own: what happens in the first scheduler is recorded in the first history, but the
history page of both dashboards reads the second. -/
theorem C80_pages_witness :
    let w : W Nat := run ([.create 0 "a", .create 1 "b"] ++ createApp 0 (some (.given 0)) ++ createApp 1 (some (.given 1)) ++
      [.emit 0 someSubmission])
    (w.recs.filter (fun r => r.which = .runs)).map (fun r => r.storage) = [.given 0] ∧ w.pageStorage .runs = .given 1 := by
  decide +kernel

example : (spec ([.create 5 "a", .listen 0 3 1, .install .events 0 none, .emit 0 someSubmission, .install .events 0 none,
    .emit 0 someSubmission, .drop 0, .collect 0, .create 5 "b", .install .events 1 (some (.given 2)),
    .emit 1 someSubmission] : List (Op Nat))).recs .events =
    [(.default, 0, stamped "a" someSubmission), (.default, 0, stamped "a" someSubmission),
      (.given 2, 1, stamped "b" someSubmission)] := by decide +kernel
example : (spec ([.create 5 "a"] : List (Op Nat))).held 0 = true := by decide

/-! ## The records of the event page -/
open Listing (Text orEmpty)

/-- **C80, records.** The record of an event has the event's code and a name that no other kind of event has; the task, the
store and the scheduler of a task event; category "task" for task events, else by what the event is about; the data of a
submission are complete. -/
theorem C80_record (hash : Int → Nat → Option Text → Option Text → Option Text → Details → Text) (now : Int)
    (ident : Option Text) (e : Ev) :
    let r := eventRecord hash now ident e
    r.code = e.kind.code ∧ r.observedAt = now ∧ r.alias = e.alias ∧
    (∀ e' now' ident', (eventRecord hash now' ident' e').name = r.name ↔ e'.kind = e.kind) ∧
    r.taskId = e.body.taskId ∧ r.store = e.body.store ∧
    r.identity = (if e.body = .plain then ident else e.body.identity) ∧
    r.category = (if e.body ≠ .plain then "task".toList
      else if e.kind ∈ [Kind.executorAdded, .executorRemoved] then "executor".toList
      else if e.kind ∈ [Kind.storeAdded, .storeRemoved] then "store".toList else "scheduler".toList) ∧
    (∀ t s i times c, e.body = .submission t s i times none c →
      r.details = .submission "unknown".toList times.length c times) ∧
    (∀ t s i times x xs c, e.body = .submission t s i times (some (x :: xs)) c →
      r.details = .submission (x :: xs) times.length c times) := by
  refine ⟨rfl, rfl, rfl, ?_, ?_, ?_, ?_, ?_, ?_, ?_⟩
  · intro e' _ _
    simp only [eventRecord]
    constructor
    · intro h; revert h; cases e'.kind <;> cases e.kind <;> decide
    · intro h; rw [h]
  · cases hb : e.body <;> simp [eventRecord, hb, Body.isTask, Body.taskId]
  · cases hb : e.body <;> simp [eventRecord, hb, Body.isTask, Body.store]
  · cases hb : e.body <;> simp [eventRecord, hb, Body.isTask, Body.identity]
  · cases hb : e.body with
    | plain => simp only [eventRecord, hb, Body.isTask]; cases e.kind <;> decide
    | _ => simp [eventRecord, hb, Body.isTask, category]
  · intro t s i times c hb; simp [eventRecord, hb, details, Dash.truthy]
  · intro t s i times x xs c hb; simp [eventRecord, hb, details, Dash.truthy, orEmpty]

/-- **C80, the names.** The name under which each kind of event is recorded. -/
theorem C80_names (hash : Int → Nat → Option Text → Option Text → Option Text → Details → Text) (now : Int)
    (ident : Option Text) (e : Ev) :
    ∃ n, (e.kind, n) ∈ [
      (Kind.schedulerStarted, "scheduler.started"),
      (Kind.schedulerShutdown, "scheduler.shutdown"),
      (Kind.schedulerPaused, "scheduler.paused"),
      (Kind.schedulerResumed, "scheduler.resumed"),
      (Kind.executorAdded, "executor.added"),
      (Kind.executorRemoved, "executor.removed"),
      (Kind.storeAdded, "store.added"),
      (Kind.storeRemoved, "store.removed"),
      (Kind.allTasksRemoved, "task.all_removed"),
      (Kind.taskAdded, "task.added"),
      (Kind.taskRemoved, "task.removed"),
      (Kind.taskModified, "task.modified"),
      (Kind.taskExecuted, "task.executed"),
      (Kind.taskError, "task.error"),
      (Kind.taskMissed, "task.missed"),
      (Kind.taskSubmitted, "task.submitted"),
      (Kind.taskMaxInstances, "task.max_instances")] ∧
    (eventRecord hash now ident e).name = n.toList := by
  refine ⟨String.ofList (eventName e.kind), ?_, by rw [String.toList_ofList]; rfl⟩
  generalize e.kind = k
  cases k <;> decide

/-- **C80, who and what.** The record of a task event names the event's task, store and scheduler, one of another event names
no task and no store; the record of an execution has the time of the run, and of an exception the name of its class,
with its module unless it is one of Python's own. -/
theorem C80_execution (hash : Int → Nat → Option Text → Option Text → Option Text → Details → Text) (now : Int)
    (ident : Option Text) (k : Kind) (alias : Option Text) :
    (∀ t s i, let r := eventRecord hash now ident ⟨k, alias, .task t s i⟩;
      r.taskId = some t ∧ r.store = s ∧ r.identity = i ∧ r.details = .empty) ∧
    (∀ t s i times src c, let r := eventRecord hash now ident ⟨k, alias, .submission t s i times src c⟩;
      r.taskId = some t ∧ r.store = s ∧ r.identity = i) ∧
    (let r := eventRecord hash now ident ⟨k, alias, .plain⟩;
      r.taskId = none ∧ r.store = none ∧ r.identity = ident ∧ r.details = .empty) ∧
    (∀ t s i time v, let r := eventRecord hash now ident ⟨k, alias, .execution t s i time v none⟩;
      r.taskId = some t ∧ r.store = s ∧ r.identity = i ∧ r.details = .execution time (safeText v) none none) ∧ safeText none = none ∧
    ∀ t s i time v x, ∃ c, (eventRecord hash now ident ⟨k, alias, .execution t s i time v (some x)⟩).details =
        .execution time (safeText v) (some c) (safeText (some x.val)) ∧
      (x.module = "builtins".toList → c = x.qualname) ∧
      (x.module ≠ "builtins".toList → c = x.module ++ ".".toList ++ x.qualname) := by
  refine ⟨fun t s i => ⟨rfl, rfl, rfl, rfl⟩, fun t s i times src c => ⟨rfl, rfl, rfl⟩, ⟨rfl, rfl, rfl, rfl⟩,
    fun t s i time v => ⟨rfl, rfl, rfl, rfl⟩, rfl, fun t s i time v x => ?_⟩
  have hx : ∃ c, excType (some x) = some c ∧ (x.module = "builtins".toList → c = x.qualname) ∧
      (x.module ≠ "builtins".toList → c = x.module ++ ".".toList ++ x.qualname) := by
    unfold excType
    simp only []
    by_cases h : x.module = "builtins".toList
    · rw [if_pos h]; exact ⟨_, rfl, fun _ => rfl, fun h' => absurd h h'⟩
    · rw [if_neg h]; exact ⟨_, rfl, fun h' => absurd h' h, fun _ => by rw [List.append_assoc]; rfl⟩
  obtain ⟨c, h1, h2⟩ := hx
  refine ⟨c, ?_, h2⟩
  show Details.execution time (safeText v) (excType (some x)) (safeText (some x.val)) = _
  rw [h1]

/-- The removal of all tasks is named like a task event and filed under "scheduler". -/
theorem C80_category_witness (hash : Int → Nat → Option Text → Option Text → Option Text → Details → Text) (now : Int) :
    let r := eventRecord hash now none ⟨.allTasksRemoved, none, .plain⟩
    r.name = "task.all_removed".toList ∧ r.category = "scheduler".toList := by
  exact ⟨rfl, rfl⟩

/-- The text of a returned value or of an exception: absent only for `None`, whole if it has at most 500 characters, else its
first 497 followed by dots; if the value cannot be shown, its type is. -/
theorem C80_text (v : Val) : ∃ r, safeText (some v) = some r ∧ r.length ≤ 500 ∧
    (∀ t, v.text = some t → (t.length ≤ 500 → r = t) ∧ (500 < t.length → r = t.take 497 ++ "...".toList)) ∧
    (v.text = none → v.typeName.length ≤ 498 → r = "<".toList ++ v.typeName ++ ">".toList) := by
  have key : ∀ t : Text, ∃ r, (if t.length > 500 then some (t.take 497 ++ "...".toList) else some t) = some r ∧
      r.length ≤ 500 ∧ (t.length ≤ 500 → r = t) ∧ (500 < t.length → r = t.take 497 ++ "...".toList) := by
    intro t
    by_cases h : t.length > 500
    · refine ⟨_, by rw [if_pos h], ?_, fun h' => by omega, fun _ => rfl⟩
      have : "...".toList.length = 3 := rfl
      rw [List.length_append, List.length_take, this]; omega
    · exact ⟨t, by rw [if_neg h], by omega, fun _ => rfl, fun h' => by omega⟩
  cases hv : v.text with
  | some t =>
    obtain ⟨r, h1, h2, h3, h4⟩ := key t
    refine ⟨r, by simp only [safeText, hv]; exact h1, h2, fun t' ht => ?_, fun h => by cases h⟩
    cases ht; exact ⟨h3, h4⟩
  | none =>
    obtain ⟨r, h1, h2, h3, h4⟩ := key ('<' :: v.typeName ++ ['>'])
    refine ⟨r, by simp only [safeText, hv]; exact h1, h2, (fun t' ht => by cases ht), fun _ hl => h3 ?_⟩
    simp only [List.length_append, List.length_cons, List.length_nil]; omega

end Install
end Asyncz
