import Verif.Model.Cli
import Verif.Props.DateString
import Verif.Props.TaskObj
/-!
# C52, C61, C62: the command line
-/
namespace Asyncz
namespace Cli
open Spec

theorem partition_some {c : Char} {s a b : Text} : partition c s = (a, some b) ↔ CutAt c s a b := by
  induction s generalizing a with
  | nil => simp [partition, CutAt]
  | cons d s ih =>
    simp only [partition, CutAt]
    by_cases h : d = c
    · subst h
      rw [if_pos rfl]
      constructor
      · intro e
        simp only [Prod.mk.injEq, Option.some.injEq] at e
        obtain ⟨rfl, rfl⟩ := e
        simp
      · rintro ⟨e, hn⟩
        cases a with
        | nil => simp only [List.nil_append, List.cons.injEq, true_and] at e; rw [e]
        | cons x a =>
          simp only [List.cons_append, List.cons.injEq] at e
          rw [← e.1] at hn
          simp at hn
    · rw [if_neg h]
      constructor
      · intro e
        simp only [Prod.mk.injEq] at e
        obtain ⟨rfl, e2⟩ := e
        have := (ih (a := (partition c s).1)).1 (by rw [← e2])
        obtain ⟨h1, h2⟩ := this
        refine ⟨by rw [List.cons_append, ← h1], ?_⟩
        simp only [List.mem_cons, not_or]
        exact ⟨fun e => h e.symm, h2⟩
      · rintro ⟨e, hn⟩
        cases a with
        | nil => simp only [List.nil_append, List.cons.injEq] at e; exact absurd e.1 h
        | cons x a =>
          simp only [List.cons_append, List.cons.injEq] at e
          simp only [List.mem_cons, not_or] at hn
          have := (ih (a := a)).2 ⟨e.2, hn.2⟩
          rw [this, e.1]

theorem partition_none {c : Char} {s : Text} (h : c ∉ s) : partition c s = (s, none) := by
  induction s with
  | nil => rfl
  | cons d s ih =>
    simp only [List.mem_cons, not_or] at h
    rw [partition, if_neg (fun e => h.1 e.symm), ih h.2]

theorem partition_cases (c : Char) (s : Text) :
    (c ∉ s ∧ partition c s = (s, none)) ∨ ∃ a b, CutAt c s a b ∧ partition c s = (a, some b) := by
  cases h : partition c s with
  | mk a b =>
    cases b with
    | some b => exact .inr ⟨a, b, partition_some.1 h, rfl⟩
    | none =>
      refine .inl ?_
      by_cases hc : c ∈ s
      · exfalso
        obtain ⟨x, y, rfl, hx⟩ : ∃ x y, s = x ++ c :: y ∧ c ∉ x := List.eq_append_cons_of_mem hc
        have := partition_some.2 (show CutAt c (x ++ c :: y) x y from ⟨rfl, hx⟩)
        rw [this] at h
        cases h
      · rw [partition_none hc] at h
        exact ⟨hc, h.symm⟩

theorem cut_unique {c : Char} {s a b a' b' : Text} (h : CutAt c s a b) (h' : CutAt c s a' b') :
    a = a' ∧ b = b' := by
  have h1 := partition_some.2 h
  rw [partition_some.2 h'] at h1
  cases h1
  exact ⟨rfl, rfl⟩

/-! ## C52 -/

/-- the kinds of option that select the database store -/
def Database (kind : Text) : Prop :=
  kind = "durable".toList ∨ kind = "sql".toList ∨ kind = "sqlite".toList ∨ kind = "sqlalchemy".toList

instance (k : Text) : Decidable (Database k) := by unfold Database; infer_instance

theorem pluginOf_database {k : Text} : pluginOf k = "sqlalchemy".toList ↔ Database k := by
  unfold pluginOf Database
  split
  · rename_i h; exact ⟨fun _ => h, fun _ => rfl⟩
  · rename_i h
    constructor
    · intro e; exact absurd (.inr (.inr (.inr e))) h
    · intro e; exact absurd e h

theorem pluginOf_memory {k : Text} : pluginOf k = "memory".toList ↔ k = "memory".toList := by
  unfold pluginOf
  split
  · rename_i h
    constructor
    · intro e; exact absurd e (by decide)
    · rintro rfl; exact absurd h (by decide)
  · exact Iff.rfl

theorem not_database_memory : ¬ Database "memory".toList := by unfold Database; decide

/-- **C52, one option.**  A database store is configured exactly by `kind=url`, cut at the first `=`, with a kind
(trimmed, in lower case) that means the database store and a non-empty (trimmed) url; the memory store by the
empty option, by `memory` and by `memory=anything`; every other option is refused. -/
theorem store_option (S : Str) (spec : Text) (c : StoreCfg) (hint : Option Text) :
    parseStoreOption S spec = some (c, hint) ↔
      (∃ left right, CutAt '=' spec left right ∧ hint = some (S.lower (S.strip left)) ∧
        ((Database (S.lower (S.strip left)) ∧ S.strip right ≠ [] ∧ c = .sqlalchemy (S.strip right)) ∨
          (S.lower (S.strip left) = "memory".toList ∧ c = .memory))) ∨
      ('=' ∉ spec ∧ hint = none ∧ c = .memory ∧ (spec = [] ∨ S.lower (S.strip spec) = "memory".toList)) := by
  unfold parseStoreOption
  by_cases hs : spec = []
  · subst hs
    simp only [if_true]
    constructor
    · intro h; cases h; exact .inr ⟨by simp, rfl, rfl, .inl trivial⟩
    · rintro (⟨l, r, h, _⟩ | ⟨_, rfl, rfl, _⟩)
      · exact absurd h.1 (by simp)
      · rfl
  rw [if_neg hs]
  rcases partition_cases '=' spec with ⟨hn, hp⟩ | ⟨a, b, hc, hp⟩
  · rw [hp]
    simp only [pluginOf_database, pluginOf_memory, Bool.false_eq_true, if_false]
    constructor
    · intro h
      by_cases h1 : Database (S.lower (S.strip spec))
      · rw [if_pos h1] at h; cases h
      rw [if_neg h1] at h
      by_cases h2 : S.lower (S.strip spec) = "memory".toList
      · rw [if_pos h2] at h; cases h; exact .inr ⟨hn, rfl, rfl, .inr h2⟩
      · rw [if_neg h2] at h; cases h
    · rintro (⟨l, r, h, _⟩ | ⟨_, rfl, rfl, h⟩)
      · exfalso; apply hn; rw [h.1]; simp
      · rcases h with h | h
        · exact absurd h hs
        · rw [h, if_neg not_database_memory, if_pos rfl]
  · rw [hp]
    simp only [pluginOf_database, pluginOf_memory, if_true]
    constructor
    · intro h
      left
      by_cases h1 : Database (S.lower (S.strip a))
      · rw [if_pos h1] at h
        cases hv : S.strip b with
        | nil => rw [hv] at h; cases h
        | cons x y =>
          rw [hv] at h
          cases h
          exact ⟨a, b, hc, rfl, .inl ⟨h1, by rw [hv]; simp, by rw [hv]⟩⟩
      · rw [if_neg h1] at h
        by_cases h2 : S.lower (S.strip a) = "memory".toList
        · rw [if_pos h2] at h; cases h; exact ⟨a, b, hc, rfl, .inr ⟨h2, rfl⟩⟩
        · rw [if_neg h2] at h; cases h
    · rintro (⟨l, r, h, rfl, h'⟩ | ⟨h, _⟩)
      · obtain ⟨rfl, rfl⟩ := cut_unique hc h
        rcases h' with ⟨h1, h2, rfl⟩ | ⟨h1, rfl⟩
        · rw [if_pos h1]
          cases hv : S.strip b with
          | nil => exact absurd hv h2
          | cons x y => rfl
        · rw [h1, if_neg not_database_memory, if_pos rfl]
      · exfalso; apply h; rw [hc.1]; simp

/-- The name of a store: what is written before `=`; else `default` for the first option and the kind of the store for
later ones. -/
def aliasOf : Bool → Option Text → StoreCfg → Text
  | true, none, _ | true, some [], _ => "default".toList
  | false, none, .memory | false, some [], .memory => "memory".toList
  | false, none, .sqlalchemy _ | false, some [], .sqlalchemy _ => "sqlalchemy".toList
  | _, some (c :: l), _ => c :: l

theorem storeAlias_eq (first : Bool) (hint : Option Text) (c : StoreCfg) : storeAlias first hint c = aliasOf first hint c := by
  cases first <;> cases c <;> cases hint with
  | none => rfl
  | some l => cases l <;> rfl

/-- the aliases and stores the options name, if all are accepted -/
def storePairs (S : Str) : Bool → List Text → Option (List (Text × StoreCfg))
  | _, [] => some []
  | first, s :: ss =>
    match parseStoreOption S s, storePairs S false ss with
    | some (c, hint), some l => some ((aliasOf first hint c, c) :: l)
    | _, _ => none

theorem foldl_set_last {κ ν : Type} [DecidableEq κ] (l : List (κ × ν)) (d : Dict κ ν) (k : κ) (v : ν) :
    (l.foldl (fun d x => d.set x.1 x.2) d).get? k = some v ↔
      Last l k v ∨ ((∀ x ∈ l, x.1 ≠ k) ∧ d.get? k = some v) := by
  induction l generalizing d with
  | nil => simp [Last]
  | cons x l ih =>
    rw [List.foldl_cons, ih]
    constructor
    · rintro (⟨a, b, rfl, h⟩ | ⟨h, h'⟩)
      · exact .inl ⟨x :: a, b, by simp, h⟩
      · by_cases e : x.1 = k
        · left
          rw [← e, Dict.get?_set, if_pos rfl] at h'
          cases h'
          exact ⟨[], l, by rw [← e]; rfl, h⟩
        · right
          rw [Dict.get?_set, if_neg (fun e' => e e'.symm)] at h'
          refine ⟨?_, h'⟩
          intro y hy
          simp only [List.mem_cons] at hy
          rcases hy with rfl | hy
          · exact e
          · exact h y hy
    · rintro (⟨a, b, e, h⟩ | ⟨h, h'⟩)
      · cases a with
        | nil =>
          simp only [List.nil_append, List.cons.injEq] at e
          obtain ⟨rfl, rfl⟩ := e
          exact .inr ⟨h, by rw [Dict.get?_set, if_pos rfl]⟩
        | cons y a =>
          simp only [List.cons_append, List.cons.injEq] at e
          obtain ⟨rfl, rfl⟩ := e
          exact .inl ⟨a, b, rfl, h⟩
      · right
        refine ⟨fun y hy => h y (List.mem_cons_of_mem _ hy), ?_⟩
        rw [Dict.get?_set, if_neg (fun e => h x (List.mem_cons_self ..) e.symm)]
        exact h'

theorem storesLoop_eq (S : Str) (first : Bool) (specs : List Text) (d : Dict Text StoreCfg) :
    storesLoop S first specs d =
      (storePairs S first specs).map fun l => l.foldl (fun d x => d.set x.1 x.2) d := by
  induction specs generalizing first d with
  | nil => rfl
  | cons s ss ih =>
    unfold storesLoop storePairs
    cases parseStoreOption S s with
    | none => rfl
    | some p =>
      obtain ⟨c, hint⟩ := p
      simp only [ih, storeAlias_eq]
      cases storePairs S false ss <;> rfl

/-- **C52, no option.**  Without options there is one memory store, `default`. -/
theorem stores_default (S : Str) : ∃ d, buildStoresMap S [] = some d ∧
    ∀ a c, d.get? a = some c ↔ a = "default".toList ∧ c = .memory := by
  refine ⟨_, rfl, fun a c => ?_⟩
  simp only [Dict.get?]
  by_cases h : "default".toList = a
  · subst h
    simp only [if_true, Option.some.injEq, true_and]
    exact eq_comm
  · rw [if_neg h]
    constructor
    · intro h'; cases h'
    · rintro ⟨rfl, _⟩; exact absurd rfl h

/-- **C52, several options.**  The options are accepted exactly if each is; the alias of a store is the kind
written before `=`, else `default` for the first option and `memory` for later ones; each alias stands for the store of the
*last* option with that alias.  Without options there is one memory store, `default`. -/
theorem stores_map (S : Str) (specs : List Text) (hne : specs ≠ []) :
    (buildStoresMap S specs = none ↔ ∃ s ∈ specs, parseStoreOption S s = none) ∧
    ∀ d, buildStoresMap S specs = some d → ∃ l, storePairs S true specs = some l ∧
      l.length = specs.length ∧ ∀ a c, d.get? a = some c ↔ Last l a c := by
  have hb : buildStoresMap S specs = storesLoop S true specs [] := if_neg hne
  rw [hb]
  have hnone : ∀ (first : Bool) (ss : List Text),
      storePairs S first ss = none ↔ ∃ s ∈ ss, parseStoreOption S s = none := by
    intro first ss
    induction ss generalizing first with
    | nil => simp [storePairs]
    | cons s ss ih =>
      unfold storePairs
      have := ih false
      cases hp : parseStoreOption S s with
      | none => simp [hp]
      | some p =>
        obtain ⟨c, hint⟩ := p
        cases hq : storePairs S false ss with
        | none =>
          rw [hq] at this
          obtain ⟨s', hs', h⟩ := this.1 rfl
          simp only [true_iff]
          exact ⟨s', List.mem_cons_of_mem _ hs', h⟩
        | some l =>
          rw [hq] at this
          simp only [reduceCtorEq, false_iff]
          rintro ⟨s', hs', h⟩
          simp only [List.mem_cons] at hs'
          rcases hs' with rfl | hs'
          · rw [hp] at h; cases h
          · exact absurd (this.2 ⟨s', hs', h⟩) (by simp)
  have hlen : ∀ (first : Bool) (ss : List Text) l, storePairs S first ss = some l → l.length = ss.length := by
    intro first ss
    induction ss generalizing first with
    | nil => intro l h; cases h; rfl
    | cons s ss ih =>
      intro l h
      unfold storePairs at h
      cases hp : parseStoreOption S s with
      | none => rw [hp] at h; cases h
      | some p =>
        obtain ⟨c, hint⟩ := p
        cases hq : storePairs S false ss with
        | none => rw [hp, hq] at h; cases h
        | some l' =>
          rw [hp, hq] at h
          cases h
          simp [ih _ _ hq]
  constructor
  · rw [storesLoop_eq]
    cases h : storePairs S true specs with
    | none => simpa [h] using (hnone true specs).1 h
    | some l =>
      simp only [Option.map_some, reduceCtorEq, false_iff]
      intro h'
      rw [(hnone true specs).2 h'] at h
      cases h
  · intro d hd
    rw [storesLoop_eq] at hd
    cases h : storePairs S true specs with
    | none => rw [h] at hd; cases hd
    | some l =>
      rw [h] at hd
      simp only [Option.map_some, Option.some.injEq] at hd
      subst hd
      refine ⟨l, rfl, hlen _ _ _ h, ?_⟩
      intro a c
      rw [foldl_set_last]
      simp [Dict.get?]

/-- **C52, every option counts.**  If the aliases are distinct, each option's store is configured under its alias.
-/
theorem stores_map_partial (S : Str) (specs : List Text) (hne : specs ≠ []) (d : Dict Text StoreCfg)
    (h : buildStoresMap S specs = some d) (l : List (Text × StoreCfg)) (hl : storePairs S true specs = some l)
    (hd : (l.map (·.1)).Nodup) : ∀ x ∈ l, d.get? x.1 = some x.2 := by
  obtain ⟨l', hl', _, hg⟩ := (stores_map S specs hne).2 d h
  rw [hl] at hl'
  cases hl'
  intro x hx
  rw [hg]
  obtain ⟨a, b, rfl⟩ := List.append_of_mem hx
  refine ⟨a, b, rfl, ?_⟩
  intro y hy e
  rw [List.map_append, List.nodup_append, List.map_cons] at hd
  have := (List.nodup_cons.1 hd.2.1).1
  exact this (List.mem_map.2 ⟨y, hy, e⟩)

/-- plain ASCII strings without blanks and capitals -/
def plainStr : Str := ⟨id, id⟩

/-- **C52 fails for two stores of the same kind:** the first is silently lost. -/
theorem stores_lost_witness :
    buildStoresMap plainStr ["sqlite=sqlite:///a.db".toList, "sqlite=sqlite:///b.db".toList] =
      some [("sqlite".toList, .sqlalchemy "sqlite:///b.db".toList)] := by decide +kernel

/-- **C52 fails for free aliases:** `default=memory`, of the documented form `alias=value`, is refused, and so is
any alias that is not a kind of store. -/
theorem alias_witness (S : Str) (h : S.lower (S.strip "default".toList) = "default".toList) :
    parseStoreOption S "default=memory".toList = none := by
  cases hp : parseStoreOption S "default=memory".toList with
  | none => rfl
  | some p =>
    exfalso
    obtain ⟨c, hint⟩ := p
    rw [store_option] at hp
    have hc : CutAt '=' "default=memory".toList "default".toList "memory".toList := ⟨by decide, by decide⟩
    rcases hp with ⟨l, r, h1, _, h2⟩ | ⟨h1, _⟩
    · obtain ⟨rfl, rfl⟩ := cut_unique hc h1
      rw [h] at h2
      rcases h2 with ⟨h2, _⟩ | ⟨h2, _⟩
      · exact absurd h2 (by unfold Database; decide)
      · exact absurd h2 (by decide)
    · exact h1 (by decide)

/-- two stores with distinct aliases, one url with `=` in it -/
example : ∃ d l, buildStoresMap plainStr ["sql=sqlite:///a?x=1".toList, "memory".toList] = some d ∧
    storePairs plainStr true ["sql=sqlite:///a?x=1".toList, "memory".toList] = some l ∧
    l = [("sql".toList, .sqlalchemy "sqlite:///a?x=1".toList), ("memory".toList, .memory)] ∧
    (l.map (·.1)).Nodup :=
  ⟨_, _, rfl, rfl, by decide +kernel, by decide +kernel⟩

/-! ## C61: executors, intervals, triggers -/

/-- **C61, one executor.**  `alias=type[:workers]`, cut at the first `=` and then at the first `:`. -/
theorem executor_option (S : Str) (int : Text → Option Int) (spec alias type : Text) (w : Option Int) :
    parseExecutor S int spec = some (alias, type, w) ↔
      ∃ left right, CutAt '=' spec left right ∧ alias = S.strip left ∧
        ((':' ∉ right ∧ type = S.lower (S.strip right) ∧ w = none) ∨
          ∃ t n, CutAt ':' right t n ∧ type = S.lower (S.strip t) ∧
            ((n = [] ∧ w = none) ∨ (n ≠ [] ∧ ∃ k, int n = some k ∧ w = some k))) := by
  unfold parseExecutor
  rcases partition_cases '=' spec with ⟨hn, hp⟩ | ⟨a, b, hc, hp⟩
  · rw [hp]
    simp only [reduceCtorEq, false_iff]
    rintro ⟨l, r, h, _⟩
    apply hn
    rw [h.1]
    simp
  · rw [hp]
    simp only
    rcases partition_cases ':' b with ⟨hn, hp'⟩ | ⟨t, n, hc', hp'⟩
    · rw [hp']
      simp only [Option.getD_none, if_true, Option.some.injEq, Prod.mk.injEq]
      constructor
      · rintro ⟨rfl, rfl, rfl⟩
        exact ⟨a, b, hc, rfl, .inl ⟨hn, rfl, rfl⟩⟩
      · rintro ⟨l, r, h, rfl, h'⟩
        obtain ⟨rfl, rfl⟩ := cut_unique hc h
        rcases h' with ⟨_, rfl, rfl⟩ | ⟨t, n, h', _⟩
        · exact ⟨rfl, rfl, rfl⟩
        · exfalso; apply hn; rw [h'.1]; simp
    · rw [hp']
      simp only [Option.getD_some]
      constructor
      · intro h
        refine ⟨a, b, hc, ?_⟩
        by_cases h0 : n = []
        · rw [if_pos h0] at h
          cases h
          exact ⟨rfl, .inr ⟨t, n, hc', rfl, .inl ⟨h0, rfl⟩⟩⟩
        · rw [if_neg h0] at h
          cases hi : int n with
          | none => rw [hi] at h; cases h
          | some k =>
            rw [hi] at h
            cases h
            exact ⟨rfl, .inr ⟨t, n, hc', rfl, .inr ⟨h0, k, hi, rfl⟩⟩⟩
      · rintro ⟨l, r, h, rfl, h'⟩
        obtain ⟨rfl, rfl⟩ := cut_unique hc h
        rcases h' with ⟨h', _⟩ | ⟨t', n', h', rfl, h''⟩
        · exfalso; apply h'; rw [hc'.1]; simp
        · obtain ⟨rfl, rfl⟩ := cut_unique hc' h'
          rcases h'' with ⟨rfl, rfl⟩ | ⟨h0, k, hk, rfl⟩
          · rfl
          · rw [if_neg h0, hk]

/-- the aliases and executors the options name, if all are accepted -/
def executorPairs (S : Str) (int : Text → Option Int) :
    List Text → Option (List (Text × ExecutorClass × Option Int))
  | [] => some []
  | s :: ss =>
    match parseExecutor S int s with
    | none => none
    | some (a, t, w) =>
      match executorClass t, executorPairs S int ss with
      | some c, some l => some ((a, c, w) :: l)
      | _, _ => none

theorem executorsLoop_eq (S : Str) (int : Text → Option Int) (specs : List Text)
    (d : Dict Text (ExecutorClass × Option Int)) :
    executorsLoop S int specs d =
      (executorPairs S int specs).map fun l => l.foldl (fun d x => d.set x.1 x.2) d := by
  induction specs generalizing d with
  | nil => rfl
  | cons s ss ih =>
    unfold executorsLoop executorPairs
    cases parseExecutor S int s with
    | none => rfl
    | some p =>
      obtain ⟨a, t, w⟩ := p
      simp only [ih]
      cases executorClass t with
      | none => rfl
      | some c => cases executorPairs S int ss <;> rfl

/-- the class of an executor type -/
def classOf : Spec.Executor → ExecutorClass
  | .asyncio => .asyncio | .thread => .thread | .process => .process | .debug => .debug

/-- **C61, executor types.**  Exactly the listed names are executor types, each for its class. -/
theorem executor_types (t : Text) (c : ExecutorClass) :
    executorClass t = some c ↔ ∃ n x, (n, x) ∈ Spec.executorNames ∧ t = n.toList ∧ c = classOf x := by
  constructor
  · intro h
    unfold executorClass at h
    split at h
    · cases h; exact ⟨"asyncio", .asyncio, by decide, by assumption, rfl⟩
    · split at h
      · rename_i h1
        cases h
        rcases h1 with h1 | h1 | h1
        · exact ⟨"thread", .thread, by decide, h1, rfl⟩
        · exact ⟨"threads", .thread, by decide, h1, rfl⟩
        · exact ⟨"pool", .thread, by decide, h1, rfl⟩
      · split at h
        · rename_i h1
          cases h
          rcases h1 with h1 | h1 | h1
          · exact ⟨"process", .process, by decide, h1, rfl⟩
          · exact ⟨"proc", .process, by decide, h1, rfl⟩
          · exact ⟨"processpool", .process, by decide, h1, rfl⟩
        · split at h
          · cases h; exact ⟨"debug", .debug, by decide, by assumption, rfl⟩
          · cases h
  · rintro ⟨n, x, hm, rfl, rfl⟩
    simp only [Spec.executorNames, List.mem_cons, List.not_mem_nil, or_false, Prod.mk.injEq] at hm
    rcases hm with ⟨rfl, rfl⟩ | ⟨rfl, rfl⟩ | ⟨rfl, rfl⟩ | ⟨rfl, rfl⟩ | ⟨rfl, rfl⟩ | ⟨rfl, rfl⟩ | ⟨rfl, rfl⟩ | ⟨rfl, rfl⟩ <;>
      decide

example : executorClass "proc".toList = some .process ∧ executorClass "Proc".toList = none := by decide

/-- **C61, several executors.**  Each alias stands for the executor of the last option with that alias; an unknown
type or malformed option anywhere makes the command fail. -/
theorem executors_map (S : Str) (int : Text → Option Int) (specs : List Text) :
    (buildExecutorsMap S int specs = none ↔
      ∃ s ∈ specs, ∀ a t w, parseExecutor S int s = some (a, t, w) → executorClass t = none) ∧
    ∀ d, buildExecutorsMap S int specs = some d → ∃ l, executorPairs S int specs = some l ∧
      ∀ a c, d.get? a = some c ↔ Last l a c := by
  unfold buildExecutorsMap
  constructor
  · rw [executorsLoop_eq]
    rw [Option.map_eq_none_iff]
    induction specs with
    | nil => simp [executorPairs]
    | cons s ss ih =>
      unfold executorPairs
      cases hp : parseExecutor S int s with
      | none => simp [hp]
      | some p =>
        obtain ⟨a, t, w⟩ := p
        cases hc : executorClass t with
        | none =>
          simp only [hc, true_iff]
          refine ⟨s, by simp, ?_⟩
          intro a' t' w' h
          rw [hp] at h
          cases h
          exact hc
        | some c =>
          cases hq : executorPairs S int ss with
          | none =>
            obtain ⟨s', hs', h⟩ := ih.1 hq
            simp only [hc, true_iff]
            exact ⟨s', List.mem_cons_of_mem _ hs', h⟩
          | some l =>
            simp only [hc, reduceCtorEq, false_iff]
            rintro ⟨s', hs', h⟩
            simp only [List.mem_cons] at hs'
            rcases hs' with rfl | hs'
            · rw [h _ _ _ hp] at hc; cases hc
            · have := ih.2 ⟨s', hs', h⟩
              rw [hq] at this; cases this
  · intro d hd
    rw [executorsLoop_eq] at hd
    cases h : executorPairs S int specs with
    | none => rw [h] at hd; cases hd
    | some l =>
      rw [h] at hd
      simp only [Option.map_some, Option.some.injEq] at hd
      subst hd
      refine ⟨l, rfl, ?_⟩
      intro a c
      rw [foldl_set_last]
      simp [Dict.get?]

example : buildExecutorsMap plainStr (fun t => if t = "4".toList then some 4 else none)
    ["default=asyncio".toList, "cpu=process:4".toList] =
    some [("default".toList, .asyncio, none), ("cpu".toList, .process, some 4)] := by decide +kernel

/-- digits, blanks and unit letters exclude each other -/
structure Classes (D : DateString.Spec.Digits) (blank : Char → Bool) : Prop where
  digit_blank : ∀ c, (D c).isSome → blank c = false
  unit_digit : ∀ c, isUnit c = true → D c = none
  unit_blank : ∀ c, isUnit c = true → blank c = false

theorem takeWhile_cut {p : Char → Bool} {a b : Text} (ha : ∀ c ∈ a, p c = true)
    (hb : ∀ c, b.head? = some c → p c = false) : (a ++ b).takeWhile p = a ∧ (a ++ b).dropWhile p = b := by
  have hb1 : b.takeWhile p = [] ∧ b.dropWhile p = b := by
    cases b with
    | nil => exact ⟨rfl, rfl⟩
    | cons c b => simp [List.takeWhile_cons, List.dropWhile_cons, hb c rfl]
  rw [List.takeWhile_append_of_pos ha, List.dropWhile_append_of_pos ha, hb1.1, hb1.2]
  simp

theorem mem_takeWhile {p : Char → Bool} {s : Text} {c : Char} (h : c ∈ s.takeWhile p) : p c = true := by
  have := List.all_takeWhile (p := p) (l := s)
  rw [List.all_eq_true] at this
  exact this c h

theorem intervalMatch_iff {D : DateString.Spec.Digits} {blank : Char → Bool} (hc : Classes D blank) (s ds : Text)
    (u : Char) :
    intervalMatch D blank s = some (ds, u) ↔
      ∃ b, s = ds ++ (b ++ [u]) ∧ ds ≠ [] ∧ DateString.Spec.Row D ds ∧ (∀ c ∈ b, blank c = true) ∧ isUnit u = true := by
  unfold intervalMatch
  simp only
  constructor
  · intro h
    split at h
    · cases h
    · rename_i hne
      split at h
      · rename_i u' he
        split at h
        · rename_i hu
          cases h
          refine ⟨(s.dropWhile fun c => (D c).isSome).takeWhile blank, ?_, hne,
            fun c hcm => mem_takeWhile hcm, fun c hcm => mem_takeWhile hcm, hu⟩
          rw [← he, List.takeWhile_append_dropWhile, List.takeWhile_append_dropWhile]
        · cases h
      · cases h
  · rintro ⟨b, rfl, hne, hrow, hb, hu⟩
    have h1 := takeWhile_cut (p := fun c => (D c).isSome) (a := ds) (b := b ++ [u]) hrow (by
      intro c hcm
      cases b with
      | nil => cases hcm; rw [hc.unit_digit u hu]; rfl
      | cons x b =>
        cases hcm
        cases hd : (D c).isSome with
        | false => rfl
        | true =>
          have := hc.digit_blank c hd
          rw [hb c (by simp)] at this
          cases this)
    have h2 := takeWhile_cut (p := blank) (a := b) (b := [u]) hb (by
      intro c hcm; cases hcm; exact hc.unit_blank u hu)
    rw [h1.1, h1.2, h2.2, if_neg hne]
    simp [hu]

theorem mult_eq (c : Char) : mult c = seconds c := by
  by_cases h1 : c = 's'
  · subst h1; rfl
  by_cases h2 : c = 'S'
  · subst h2; rfl
  by_cases h3 : c = 'm'
  · subst h3; rfl
  by_cases h4 : c = 'M'
  · subst h4; rfl
  by_cases h5 : c = 'h'
  · subst h5; rfl
  by_cases h6 : c = 'H'
  · subst h6; rfl
  have e : mult c = none := by simp [mult, h1, h2, h3, h4, h5, h6]
  rw [e]
  unfold seconds
  split
  · exact absurd rfl h1
  · exact absurd rfl h2
  · exact absurd rfl h3
  · exact absurd rfl h4
  · exact absurd rfl h5
  · exact absurd rfl h6
  · rfl

/-- **C61, intervals.**  `parse_interval` yields `n` seconds exactly if the trimmed text is a row of digits, blanks
and a unit `s`, `m` or `h` in either case, and `n` is the number written times the seconds in the unit. -/
theorem interval (D : DateString.Spec.Digits) (S : Str) (blank : Char → Bool) (hc : Classes D blank) (text : Text)
    (n : Nat) :
    parseInterval D S blank text = .seconds n ↔
      ∃ ds b u k, S.strip text = ds ++ (b ++ [u]) ∧ ds ≠ [] ∧ DateString.Spec.Row D ds ∧ (∀ c ∈ b, blank c = true) ∧
        seconds u = some k ∧ n = DateString.Spec.number D ds * k := by
  unfold parseInterval
  constructor
  · intro h
    split at h
    · cases h
    · rename_i ds u hm
      obtain ⟨b, h1, h2, h3, h4, h5⟩ := (intervalMatch_iff hc _ _ _).1 hm
      rw [mult_eq] at h
      cases hk : seconds u with
      | none => rw [hk] at h; cases h
      | some k =>
        rw [hk] at h
        cases h
        exact ⟨ds, b, u, k, h1, h2, h3, h4, hk, by rw [DateString.int_eq]⟩
  · rintro ⟨ds, b, u, k, h1, h2, h3, h4, h5, rfl⟩
    have hu : isUnit u = true := by
      unfold seconds at h5
      split at h5 <;> first | rfl | cases h5
    rw [(intervalMatch_iff hc _ _ _).2 ⟨b, h1, h2, h3, h4, hu⟩]
    simp only [mult_eq, h5, DateString.int_eq]

/-- **C61: one text fails differently:** `10ſ` raises `KeyError`, not the documented `ValueError`. -/
theorem interval_long_s_witness :
    parseInterval DateString.Spec.ascii plainStr (· == ' ') "10ſ".toList = .keyError := by decide +kernel

theorem ascii_classes : Classes DateString.Spec.ascii (· == ' ') := by
  refine ⟨?_, ?_, ?_⟩
  · intro c hc
    cases h : (c == ' ') with
    | false => rfl
    | true =>
      rw [beq_iff_eq] at h
      subst h
      exact absurd hc (by decide)
  · intro c h
    simp only [isUnit, decide_eq_true_eq, List.mem_cons, List.not_mem_nil, or_false] at h
    rcases h with rfl | rfl | rfl | rfl | rfl | rfl | rfl <;> decide
  · intro c h
    simp only [isUnit, decide_eq_true_eq, List.mem_cons, List.not_mem_nil, or_false] at h
    rcases h with rfl | rfl | rfl | rfl | rfl | rfl | rfl <;> decide

example : parseInterval DateString.Spec.ascii plainStr (· == ' ') "90 M".toList = .seconds 5400 ∧
    parseInterval DateString.Spec.ascii plainStr (· == ' ') "1h30m".toList = .valueError := by decide +kernel

/-- an option was given and is not empty -/
def Given (x : Option Text) (t : Text) : Prop := x = some t ∧ t ≠ []

/-- an option was not given or is empty -/
def Absent (x : Option Text) : Prop := x = none ∨ x = some []

/-- **C61, triggers.**  A trigger is made exactly if one of the three options is given, from that option. -/
theorem trigger_option (cron interval at_ : Option Text) (r : TriggerOf) :
    parseTrigger cron interval at_ = some r ↔
      (∃ t, Given cron t ∧ Absent interval ∧ Absent at_ ∧ r = .cron t) ∨
      (∃ t, Absent cron ∧ Given interval t ∧ Absent at_ ∧ r = .interval t) ∨
      (∃ t, Absent cron ∧ Absent interval ∧ Given at_ t ∧ r = .date t) := by
  unfold parseTrigger
  have key : ∀ x : Option Text, x = none ∨ x = some [] ∨ ∃ c t, x = some (c :: t) := by
    intro x
    cases x with
    | none => exact .inl rfl
    | some t => cases t with
      | nil => exact .inr (.inl rfl)
      | cons c t => exact .inr (.inr ⟨c, t, rfl⟩)
  rcases key cron with rfl | rfl | ⟨c, t, rfl⟩ <;>
  rcases key interval with rfl | rfl | ⟨c', t', rfl⟩ <;>
  rcases key at_ with rfl | rfl | ⟨c'', t'', rfl⟩ <;>
  simp [given, Given, Absent, eq_comm] <;>
  exact ⟨fun h => ⟨_, ⟨rfl, by simp⟩, h⟩, fun ⟨_, ⟨h1, _⟩, h2⟩ => by rw [h2, h1]⟩

example : parseTrigger (some "* * * * *".toList) none (some []) = some (.cron "* * * * *".toList) ∧
    parseTrigger none (some "5m".toList) (some "2024-01-01".toList) = none := by decide +kernel

/-! ## C62: `asyncz update` -/
open TaskObj

theorem addOpt_wf {k : String} {v : Option Val} {d : Dict String Val} (h : d.WF) : (addOpt k v d).WF := by
  cases v with
  | none => exact h
  | some v => exact Dict.WF.set h k v

theorem updatesOf_wf (o : UpdateOpts) : (updatesOf o).WF := by
  unfold updatesOf
  exact addOpt_wf (addOpt_wf (addOpt_wf (addOpt_wf (addOpt_wf (addOpt_wf (addOpt_wf Dict.WF.nil))))))

theorem addOpt_get? (k : String) (v : Option Val) (d : Dict String Val) (k' : String) :
    (addOpt k v d).get? k' = if k' = k then (match v with | some v => some v | none => d.get? k') else d.get? k' := by
  cases v with
  | none => simp [addOpt]
  | some v => simp only [addOpt, Dict.get?_set]

/-- What the options ask to change. -/
def asked (o : UpdateOpts) (key : String) : Option Val :=
  if key = "name" then o.name.map .str
  else if key = "args" then o.args
  else if key = "kwargs" then o.kwargs
  else if key = "executor" then o.executor.map .str
  else if key = "coalesce" then o.coalesce.map .bool
  else if key = "max_instances" then o.maxInstances.map .int
  else if key = "mistrigger_grace_time" then (if o.clearGrace then some .none else o.grace.map .float)
  else none

theorem updatesOf_get? (o : UpdateOpts) : (updatesOf o).get? = asked o := by
  funext key
  unfold updatesOf asked
  simp only [addOpt_get?, Dict.get?]
  by_cases h1 : key = "name"
  · subst h1; simp; cases o.name <;> rfl
  by_cases h2 : key = "args"
  · subst h2; simp; cases o.args <;> rfl
  by_cases h3 : key = "kwargs"
  · subst h3; simp; cases o.kwargs <;> rfl
  by_cases h4 : key = "executor"
  · subst h4; simp; cases o.executor <;> rfl
  by_cases h5 : key = "coalesce"
  · subst h5; simp; cases o.coalesce <;> rfl
  by_cases h6 : key = "max_instances"
  · subst h6; simp; cases o.maxInstances <;> rfl
  by_cases h7 : key = "mistrigger_grace_time"
  · subst h7; simp [graceOpt]; cases o.clearGrace <;> cases o.grace <;> rfl
  simp [h1, h2, h3, h4, h5, h6, h7]

/-- The attributes shown by `asyncz update`, with the names shown -/
def Shown (name : String) (a : Attr) : Prop :=
  (name, a) ∈ [("name", Attr.name), ("executor", .executor), ("callable_reference", .fnRef), ("args", .args),
    ("kwargs", .kwargs), ("coalesce", .coalesce), ("max_instances", .maxInst), ("mistrigger_grace_time", .grace)]

theorem mem_diff {t t' : Attrs} {name : String} {b a : Val} :
    (name, b, a) ∈ diff t t' ↔ ∃ f, Shown name f ∧ t f ≠ t' f ∧ b = t f ∧ a = t' f := by
  unfold diff Shown
  simp only [List.mem_map, List.mem_filter, Prod.mk.injEq, decide_eq_true_eq, ne_eq]
  constructor
  · rintro ⟨⟨n, f⟩, ⟨h1, h2⟩, rfl, rfl, rfl⟩
    exact ⟨f, h1, h2, rfl, rfl⟩
  · rintro ⟨f, h1, h2, rfl, rfl⟩
    exact ⟨(name, f), ⟨h1, h2⟩, rfl, rfl, rfl⟩

/-- **C62.**  Whatever the options, the answer and the task: unless the command reports the update as applied, the
stored task is unchanged; in particular after `--dry-run`.  If it is reported as applied, then it was no dry
run, it was confirmed or `--yes` was given, the task has become exactly what `update_task` makes of
the options (every option asked for is set, everything else kept), and the reported differences are exactly
the shown attributes that changed, with their values before and after.  A dry run reports the same
differences as applying would. -/
theorem update_cmd (py : Py) (sched : Val) (o : UpdateOpts) (confirm : Bool) (t : Attrs) :
    let r := updateCmd py sched o confirm t
    ((∀ d, r.2 ≠ .applied d) → r.1 = t) ∧
    (o.dryRun = true → r.1 = t ∧ ∀ d, r.2 ≠ .applied d) ∧
    (o.yes = false → confirm = false → r.1 = t) ∧
    (∀ d, r.2 = .applied d →
      (o.yes = true ∨ confirm = true) ∧ Effect py t ((o.callable.map Val.str).getD .none) sched (asked o) r.1 ∧
      ∀ name b a, (name, b, a) ∈ d ↔ ∃ f, Shown name f ∧ t f ≠ r.1 f ∧ b = t f ∧ a = r.1 f) ∧
    (∀ d, r.2 = .dryRun d → ∃ t', (updateCmd py sched { o with dryRun := false, yes := true } confirm t) =
      (t', .applied d)) := by
  intro r
  have hr : r = updateCmd py sched o confirm t := rfl
  clear_value r
  unfold updateCmd at hr
  by_cases h1 : badJson o = true
  · rw [if_pos h1] at hr
    subst hr
    refine ⟨fun _ => rfl, fun _ => ⟨rfl, fun d h => (by cases h)⟩, fun _ _ => rfl, fun d h => (by cases h),
      fun d h => (by cases h)⟩
  rw [if_neg h1] at hr
  by_cases h2 : updatesOf o = [] ∧ o.callable = none
  · rw [if_pos h2] at hr
    subst hr
    refine ⟨fun _ => rfl, fun _ => ⟨rfl, fun d h => (by cases h)⟩, fun _ _ => rfl, fun d h => (by cases h),
      fun d h => (by cases h)⟩
  rw [if_neg h2] at hr
  cases hu : update py t (fnOf o) sched (updatesOf o) with
  | mk t' e =>
    rw [hu] at hr
    cases e with
    | some e =>
      simp only at hr
      subst hr
      refine ⟨fun _ => rfl, fun _ => ⟨rfl, fun d h => (by cases h)⟩, fun _ _ => rfl, fun d h => (by cases h),
        fun d h => (by cases h)⟩
    | none =>
      simp only at hr
      by_cases h3 : diff t t' = []
      · rw [if_pos h3] at hr
        subst hr
        refine ⟨fun _ => rfl, fun _ => ⟨rfl, fun d h => (by cases h)⟩, fun _ _ => rfl, fun d h => (by cases h),
          fun d h => (by cases h)⟩
      rw [if_neg h3] at hr
      have heff : Effect py t (fnOf o) sched (asked o) t' := by
        have h := C25_update_task py t (fnOf o) sched (updatesOf o) (updatesOf_wf o)
        rw [updatesOf_get?, hu] at h
        by_cases ha : Accepts py t (fnOf o) sched (asked o)
        · exact (h.1 ha).2
        · exact absurd (h.2 ha).1 (by simp)
      by_cases h4 : o.dryRun = true
      · rw [if_pos h4] at hr
        subst hr
        refine ⟨fun _ => rfl, fun _ => ⟨rfl, fun d h => (by cases h)⟩, fun _ _ => rfl, fun d h => (by cases h), ?_⟩
        intro d h
        cases h
        refine ⟨t', ?_⟩
        unfold updateCmd
        have e0 : badJson { o with dryRun := false, yes := true } = badJson o := rfl
        have e1 : updatesOf { o with dryRun := false, yes := true } = updatesOf o := rfl
        have e2 : fnOf { o with dryRun := false, yes := true } = fnOf o := rfl
        rw [e0, if_neg h1, e1, e2, if_neg h2, hu]
        simp only
        rw [if_neg h3]
        rfl
      rw [if_neg h4] at hr
      by_cases h5 : (!o.yes && !confirm) = true
      · rw [if_pos h5] at hr
        subst hr
        refine ⟨fun _ => rfl, fun _ => ⟨rfl, fun d h => (by cases h)⟩, fun _ _ => rfl, fun d h => (by cases h),
          fun d h => (by cases h)⟩
      rw [if_neg h5] at hr
      subst hr
      refine ⟨fun h => absurd rfl (h _), fun h => absurd h h4, ?_, ?_, fun d h => (by cases h)⟩
      · intro hy hc
        rw [hy, hc] at h5
        exact absurd rfl h5
      · intro d h
        cases h
        have hfn : fnOf o = (o.callable.map Val.str).getD .none := by unfold fnOf; cases o.callable <;> rfl
        refine ⟨?_, hfn ▸ heff, fun name b a => mem_diff⟩
        cases hy : o.yes <;> cases hc : confirm <;> simp_all

/-- **C62, what is refused.**  The options are refused, without looking at the task, exactly if the value given for `--args`
is not a JSON array, the value for `--kwargs` is not a JSON object, or nothing is asked for at all. -/
theorem update_cmd_refused (py : Py) (sched : Val) (o : UpdateOpts) (confirm : Bool) (t : Attrs) :
    (updateCmd py sched o confirm t).2 = .badOptions ↔
      (∃ v, o.args = some v ∧ ∀ l, v ≠ .seq l) ∨ (∃ v, o.kwargs = some v ∧ ∀ l, v ≠ .map l) ∨
      (o.callable = none ∧ ∀ key, asked o key = none) := by
  have hb : badJson o = true ↔ (∃ v, o.args = some v ∧ ∀ l, v ≠ .seq l) ∨ (∃ v, o.kwargs = some v ∧ ∀ l, v ≠ .map l) := by
    unfold badJson
    rw [Bool.or_eq_true]
    refine or_congr ?_ ?_
    · cases o.args with
      | none => simp
      | some v => cases v <;> simp
    · cases o.kwargs with
      | none => simp
      | some v => cases v <;> simp
  have hn : updatesOf o = [] ↔ ∀ key, asked o key = none := by
    rw [← updatesOf_get?]
    constructor
    · intro h key; rw [h]; rfl
    · intro h
      cases hu : updatesOf o with
      | nil => rfl
      | cons p d =>
        have := h p.1
        rw [hu] at this
        simp [Dict.get?] at this
  unfold updateCmd
  by_cases h1 : badJson o = true
  · rw [if_pos h1]
    rcases hb.1 h1 with h | h
    · exact ⟨fun _ => .inl h, fun _ => rfl⟩
    · exact ⟨fun _ => .inr (.inl h), fun _ => rfl⟩
  rw [if_neg h1]
  by_cases h2 : updatesOf o = [] ∧ o.callable = none
  · rw [if_pos h2]
    exact ⟨fun _ => .inr (.inr ⟨h2.2, hn.1 h2.1⟩), fun _ => rfl⟩
  rw [if_neg h2]
  refine ⟨fun h => ?_, fun h => ?_⟩
  · exfalso
    split at h
    · cases h
    · simp only at h
      split at h
      · cases h
      · split at h
        · cases h
        · split at h <;> cases h
  · exfalso
    rcases h with h | h | ⟨h, h'⟩
    · exact h1 (hb.2 (.inl h))
    · exact h1 (hb.2 (.inr h))
    · exact h2 ⟨hn.2 h', h⟩

/-- a dry run, the same applied, and one that is refused at the question -/
example : let py : Py := ⟨fun _ => none, fun _ => none, fun _ => none, fun _ _ _ => true, fun v => .ok v⟩
    let t : Attrs := fun a => match a with | .name => .str "old" | .maxInst => .int 1 | .grace => .int 5 | _ => .none
    let o : UpdateOpts := ⟨some "new", none, none, none, none, none, some 1, none, true, false, false⟩
    let d := [("name", Val.str "old", Val.str "new"), ("mistrigger_grace_time", Val.int 5, Val.none)]
    (updateCmd py (.scheduler 0) { o with dryRun := true } true t).2 = .dryRun d ∧
    (updateCmd py (.scheduler 0) o true t).2 = .applied d ∧
    (updateCmd py (.scheduler 0) o true t).1 .name = .str "new" ∧
    (updateCmd py (.scheduler 0) o false t).2 = .aborted := by
  refine ⟨by decide +kernel, by decide +kernel, by decide +kernel, by decide +kernel⟩

end Cli
end Asyncz
