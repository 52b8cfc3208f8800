import Verif.Model.Logs
import Verif.Props.Dash
/-!
# C79: task logs
-/
namespace Asyncz
namespace Logs
open Listing (Text)
open Dash

/-! ## Attribution -/

/-- the task an entry made from these attributes is stored under -/
def owner (attrs : Dict Text V) : Option Text := extractTaskId attrs taskIdKeys

theorem owner_of_get {attrs : Dict Text V} {tid : Text} (h : attrs.get? "task_id".toList = some (.obj true tid)) :
    owner attrs = some tid := by
  simp only [owner, taskIdKeys, extractTaskId, h, Option.getD_some, V.isTrue, V.text, if_true]

/-- The entry names a task: it is there, and not a value that counts as false. -/
def NamesTask (attrs : Dict Text V) (k : Text) (t : Text) : Prop := attrs.get? k = some (.obj true t)

/-- **C79, attribution of any record.** A record belongs to the task named under "task_id", else under "job_id", else under
"asyncz_task_id", and otherwise to none. -/
theorem C79_owner (attrs : Dict Text V) :
    (∀ t, owner attrs = some t ↔ NamesTask attrs "task_id".toList t ∨
      (∀ t', ¬ NamesTask attrs "task_id".toList t') ∧ (NamesTask attrs "job_id".toList t ∨
        (∀ t', ¬ NamesTask attrs "job_id".toList t') ∧ NamesTask attrs "asyncz_task_id".toList t)) ∧
    (owner attrs = none ↔ ∀ k ∈ ["task_id".toList, "job_id".toList, "asyncz_task_id".toList], ∀ t, ¬ NamesTask attrs k t) := by
  have key : ∀ k : Text, (∃ t, NamesTask attrs k t ∧ (((attrs.get? k).getD .none).isTrue = true ∧ ((attrs.get? k).getD .none).text = t)) ∨
      (∀ t, ¬ NamesTask attrs k t) ∧ ((attrs.get? k).getD .none).isTrue = false := by
    intro k
    unfold NamesTask
    cases attrs.get? k with
    | none => exact .inr ⟨(fun t h => by cases h), rfl⟩
    | some v => cases v with
      | none => exact .inr ⟨(fun t h => by cases h), rfl⟩
      | obj b t => cases b with
        | true => exact .inl ⟨t, rfl, rfl, rfl⟩
        | false => exact .inr ⟨(fun t h => by cases h), rfl⟩
  have uniq : ∀ {k : Text} {t t' : Text}, NamesTask attrs k t → NamesTask attrs k t' → t = t' := by
    intro k t t' h h'
    unfold NamesTask at h h'
    rw [h] at h'
    cases h'
    rfl
  simp only [owner, taskIdKeys, extractTaskId]
  rcases key "task_id".toList with ⟨t1, h1, h2, h3⟩ | ⟨h1, h2⟩
  · rw [if_pos h2, h3]
    refine ⟨fun t => ⟨?_, ?_⟩, ?_, ?_⟩
    · intro h; cases h; exact .inl h1
    · rintro (h | ⟨h, _⟩)
      · rw [uniq h1 h]
      · exact absurd h1 (h _)
    · intro h; cases h
    · intro h; exact absurd h1 (h _ (by simp) _)
  · rw [h2]
    simp only [Bool.false_eq_true, if_false]
    rcases key "job_id".toList with ⟨t1, k1, k2, k3⟩ | ⟨k1, k2⟩
    · rw [if_pos k2, k3]
      refine ⟨fun t => ⟨?_, ?_⟩, ?_, ?_⟩
      · intro h; cases h; exact .inr ⟨h1, .inl k1⟩
      · rintro (h | ⟨_, h | ⟨h, _⟩⟩)
        · exact absurd h (h1 _)
        · rw [uniq k1 h]
        · exact absurd k1 (h _)
      · intro h; cases h
      · intro h; exact absurd k1 (h _ (by simp) _)
    · rw [k2]
      simp only [Bool.false_eq_true, if_false]
      rcases key "asyncz_task_id".toList with ⟨t1, l1, l2, l3⟩ | ⟨l1, l2⟩
      · rw [if_pos l2, l3]
        refine ⟨fun t => ⟨?_, ?_⟩, ?_, ?_⟩
        · intro h; cases h; exact .inr ⟨h1, .inr ⟨k1, l1⟩⟩
        · rintro (h | ⟨_, h | ⟨_, h⟩⟩)
          · exact absurd h (h1 _)
          · exact absurd h (k1 _)
          · rw [uniq l1 h]
        · intro h; cases h
        · intro h; exact absurd l1 (h _ (by simp) _)
      · rw [l2]
        simp only [Bool.false_eq_true, if_false]
        refine ⟨fun t => ⟨?_, ?_⟩, ?_, ?_⟩
        · intro h; cases h
        · rintro (h | ⟨_, h | ⟨_, h⟩⟩)
          · exact absurd h (h1 _)
          · exact absurd h (k1 _)
          · exact absurd h (l1 _)
        · intro _ k hk t
          simp only [List.mem_cons, List.not_mem_nil, or_false] at hk
          rcases hk with hk | hk | hk
          · rw [hk]; exact h1 t
          · rw [hk]; exact k1 t
          · rw [hk]; exact l1 t
        · exact fun _ => trivial

example : NamesTask [("job_id".toList, .obj true ['b'])] "job_id".toList ['b'] := by unfold NamesTask; decide

theorem setDefault_fresh {d : Dict Text V} {k : Text} {v : V} (h : d.get? k = none) :
    (setDefault d k v).get? k = some v ∧ ∀ k', k' ≠ k → (setDefault d k v).get? k' = d.get? k' := by
  simp only [setDefault, h]
  exact ⟨by rw [Dict.get?_set, if_pos rfl], fun k' hk => by rw [Dict.get?_set, if_neg hk]⟩

theorem nonempty_true {tid : Text} (h : tid ≠ []) : (!tid.isEmpty) = true := by
  cases tid with
  | nil => exact absurd rfl h
  | cons c t => rfl

/-- **C79.** A message logged with the logger of a task, with a dictionary of extra data that does not name a task under
"task_id", is attributed to that task and keeps its extra data. -/
theorem C79_attribution (tid : Text) (ht : tid ≠ []) (heap : Nat → Dict Text V) (x : Extra)
    (hx : x ≠ .isNone) (hd : ∀ r, x = .dict r → (heap r).get? "task_id".toList = none) :
    ∃ attrs heap', process tid heap x = some (attrs, heap') ∧ owner attrs = some tid ∧
      ∀ r, x = .dict r → ∀ k, k ≠ "task_id".toList → attrs.get? k = (heap r).get? k := by
  cases x with
  | isNone => exact absurd rfl hx
  | absent =>
    refine ⟨_, _, rfl, ?_, by intro r h; cases h⟩
    apply owner_of_get
    rw [(setDefault_fresh rfl).1, nonempty_true ht]
  | dict r =>
    obtain ⟨h1, h2⟩ := setDefault_fresh (v := .obj (!tid.isEmpty) tid) (hd r rfl)
    refine ⟨_, _, rfl, ?_, ?_⟩
    · apply owner_of_get
      rw [h1, nonempty_true ht]
    · intro r' h k hk
      cases h
      exact h2 k hk

/-- A task named in the call itself is kept. -/
theorem C79_explicit (tid explicit : Text) (heap : Nat → Dict Text V) (r : Nat)
    (h : (heap r).get? "task_id".toList = some (.obj true explicit)) :
    ∃ attrs heap', process tid heap (.dict r) = some (attrs, heap') ∧ owner attrs = some explicit := by
  refine ⟨_, _, rfl, ?_⟩
  apply owner_of_get
  simp only [setDefault, h]

/-- each dictionary of extra data is used with the logger of one task only -/
def OneTask (calls : List (Text × Extra)) : Prop :=
  ∀ t t' r, (t, Extra.dict r) ∈ calls → (t', Extra.dict r) ∈ calls → t = t'

/-- Every message of a history of log calls is attributed to the task whose logger was used, if each dictionary of extra data
is used with the logger of one task only and does not name a task.  Missing: shared dictionaries (the adapter writes the task
into the caller's dictionary). -/
theorem C79_history_partial (heap : Nat → Dict Text V) (calls : List (Text × Extra)) (hone : OneTask calls)
    (ht : ∀ c ∈ calls, c.1 ≠ [] ∧ c.2 ≠ .isNone)
    (hh : ∀ t r, (t, Extra.dict r) ∈ calls → (heap r).get? "task_id".toList = none) :
    (logAll heap calls).map (fun a => a.map owner) = calls.map fun c => some (some c.1) := by
  suffices H : ∀ (calls : List (Text × Extra)) (heap : Nat → Dict Text V), OneTask calls → (∀ c ∈ calls, c.1 ≠ [] ∧ c.2 ≠ .isNone) →
      (∀ t r, (t, Extra.dict r) ∈ calls → (heap r).get? "task_id".toList = none ∨
        (heap r).get? "task_id".toList = some (.obj true t)) →
      (logAll heap calls).map (fun a => a.map owner) = calls.map fun c => some (some c.1) from
    H calls heap hone ht (fun t r h => Or.inl (hh t r h))
  intro calls
  induction calls with
  | nil => intro _ _ _ _; rfl
  | cons c calls ih =>
    intro heap hone ht hh
    obtain ⟨tid, x⟩ := c
    have hone' : OneTask calls := fun t t' r h h' => hone t t' r (by simp [h]) (by simp [h'])
    have ht' : ∀ c ∈ calls, c.1 ≠ [] ∧ c.2 ≠ .isNone := fun c hc => ht c (by simp [hc])
    obtain ⟨htid, hx⟩ := ht (tid, x) (by simp)
    have hT := nonempty_true htid
    cases x with
    | isNone => exact absurd rfl hx
    | absent =>
      simp only [logAll, process, List.map_cons, Option.map_some]
      rw [ih heap hone' ht' (fun t r h => hh t r (by simp [h]))]
      congr 2
      apply owner_of_get
      rw [(setDefault_fresh rfl).1, hT]
    | dict r =>
      have hd : (setDefault (heap r) "task_id".toList (.obj (!tid.isEmpty) tid)).get? "task_id".toList = some (.obj true tid) := by
        rcases hh tid r (by simp) with h | h
        · rw [(setDefault_fresh h).1, hT]
        · simp only [setDefault, h]
      simp only [logAll, process, List.map_cons, Option.map_some]
      rw [ih _ hone' ht' ?_]
      · congr 2
        exact owner_of_get hd
      · intro t r' h
        by_cases hr : r' = r
        · subst hr
          have : t = tid := hone t tid r' (by simp [h]) (by simp)
          subst this
          rw [if_pos rfl]
          exact Or.inr hd
        · rw [if_neg hr]
          exact hh t r' (by simp [h])

example : OneTask [("a".toList, .dict 0), ("b".toList, .dict 1), ("a".toList, .dict 0), ("b".toList, .absent)] := by
  intro t t' r h h'
  simp at h h'
  rcases h with ⟨rfl, rfl⟩ | ⟨rfl, rfl⟩ | ⟨rfl, rfl⟩ <;> rcases h' with ⟨rfl, h⟩ | ⟨rfl, h⟩ | ⟨rfl, h⟩ <;> first | rfl | cases h

/-- Two tasks log with the same dictionary of extra data: the message of the second is attributed to the first. -/
theorem C79_shared_witness :
    (logAll (fun _ => [("part".toList, .obj true "x".toList)]) [("a".toList, .dict 0), ("b".toList, .dict 0)]).map (fun a => a.map owner) =
      [some (some "a".toList), some (some "a".toList)] := by decide

/-- `extra=None`, which plain loggers accept, makes the log call raise. -/
theorem C79_extra_none_witness (tid : Text) (heap : Nat → Dict Text V) : process tid heap .isNone = none := rfl

/-! ## From the record to the page -/

/-- what `emit` stores -/
theorem emit_eq (m : Nat) (buf : List LogEntry) (r : Record) (msg : Text) (h : r.message = some msg) :
    emit m buf r = logAppend m buf ⟨r.created, r.level, msg, r.name, owner r.attrs, runIdOf (extractExtra r.attrs)⟩ := by
  unfold emit
  rw [h]
  rfl

/-- **C79, the buffer.**  After any sequence of records the handler's buffer holds the newest `m` of those that can be formatted, in
order, each with its time, level, message, logger and owner; a record that cannot be formatted is skipped and loses nothing. -/
theorem C79_buffer (m : Nat) (rs : List Record) :
    (rs.foldl (emit m) []).map (fun e => (e.ts, e.level, e.message, e.logger, e.taskId)) =
      Dash.Spec.newest m (rs.filterMap fun r => r.message.map fun msg => (r.created, r.level, msg, r.name, owner r.attrs)) := by
  have hf : ∀ (rs : List Record) (buf : List LogEntry), rs.foldl (emit m) buf = (rs.filterMap fun r => r.message.map fun msg =>
      (⟨r.created, r.level, msg, r.name, owner r.attrs, runIdOf (extractExtra r.attrs)⟩ : LogEntry)).foldl (dequeAppend m) buf := by
    intro rs
    induction rs with
    | nil => intro buf; rfl
    | cons r rs ih =>
      intro buf
      rw [List.foldl_cons, ih]
      cases hm : r.message with
      | none =>
        have he : emit m buf r = buf := by unfold emit; rw [hm]
        simp only [List.filterMap_cons, hm, Option.map_none, he]
      | some msg => simp only [List.filterMap_cons, hm, Option.map_some, List.foldl_cons, emit_eq m buf r msg hm, logAppend]
  rw [hf, foldl_dequeAppend]
  simp only [Dash.Spec.newest, List.map_drop, List.map_filterMap, Option.map_map, Function.comp_def]
  congr 1
  congr 1
  have hlen : ∀ rs : List Record, (rs.filterMap fun r => r.message.map fun msg =>
      (⟨r.created, r.level, msg, r.name, owner r.attrs, runIdOf (extractExtra r.attrs)⟩ : LogEntry)).length =
      (rs.filterMap fun r => r.message.map fun msg => (r.created, r.level, msg, r.name, owner r.attrs)).length := by
    intro rs
    induction rs with
    | nil => rfl
    | cons r rs ih => cases hm : r.message <;> simp [hm, ih]
  exact hlen rs

-- three records, one of which cannot be formatted, in a buffer of two
example : ([⟨1, 20, ['I'], ['n'], some ['a'], []⟩, ⟨2, 20, ['I'], ['n'], none, []⟩, ⟨3, 20, ['I'], ['n'], some ['b'], []⟩,
    ⟨4, 20, ['I'], ['n'], some ['c'], []⟩].foldl (emit 2) []).map (fun e => (e.ts, e.message)) = [(3, ['b']), (4, ['c'])] := by
  decide +kernel

/-- A record that can be formatted is stored as the newest entry, under its owner, with its time, level, logger and message,
so that the log page of the task shows it first. -/
theorem C79_stored (S : Str) (hS : S.strip (S.lower []) = []) (m : Nat) (hm : m ≠ 0) (buf : List LogEntry) (r : Record) (msg tid : Text)
    (hmsg : r.message = some msg) (ho : owner r.attrs = some tid) (limit : Int) :
    ∃ e, (logQuery S (emit m buf r) ⟨some tid, none, none, none, none, none, limit⟩).head? = some e ∧
      e.ts = r.created ∧ e.level = r.level ∧ e.message = msg ∧ e.logger = r.name ∧ e.taskId = some tid := by
  refine ⟨⟨r.created, r.level, msg, r.name, owner r.attrs, runIdOf (extractExtra r.attrs)⟩, ?_, rfl, rfl, rfl, rfl, ho⟩
  have hk : logKeep S ⟨some tid, none, none, none, none, none, limit⟩
      ⟨r.created, r.level, msg, r.name, owner r.attrs, runIdOf (extractExtra r.attrs)⟩ = true := by
    rw [logKeep_iff]
    refine ⟨fun _ => ho, ?_, by simp, by simp, ?_, ?_⟩
    · intro h; exact absurd rfl h.1
    · intro h; exact absurd rfl h.1
    · intro h; exact absurd hS h
  have hl : ∃ l, emit m buf r = l ++ [⟨r.created, r.level, msg, r.name, owner r.attrs, runIdOf (extractExtra r.attrs)⟩] := by
    rw [emit_eq m buf r msg hmsg]
    simp only [logAppend, dequeAppend, if_neg hm]
    split
    · exact ⟨_, rfl⟩
    · exact ⟨_, rfl⟩
  obtain ⟨l, hl⟩ := hl
  rw [hl, logQuery, scan_nil_eq, List.reverse_append, List.reverse_singleton, List.singleton_append, List.filter_cons_of_pos hk]
  obtain ⟨n, hn⟩ : ∃ n, (max limit 1).toNat = n + 1 := ⟨(max limit 1).toNat - 1, by omega⟩
  rw [hn]
  rfl

/-- The run a record names: its extra attribute `run_id`. -/
theorem runIdOf_get {attrs : Dict Text V} (v : V) (h : attrs.get? "run_id".toList = some v) :
    runIdOf (extractExtra attrs) = some v.text := by
  have key : (extractExtra attrs).get? "run_id".toList = attrs.get? "run_id".toList := by
    clear h
    induction attrs with
    | nil => rfl
    | cons p ps ih =>
      obtain ⟨k, x⟩ := p
      by_cases hk : k = "run_id".toList
      · subst hk
        have e : extractExtra (("run_id".toList, x) :: ps) = ("run_id".toList, x) :: extractExtra ps :=
          List.filter_cons_of_pos (by rfl)
        rw [e]
        simp [Dict.get?]
      · have e : Dict.get? ((k, x) :: ps) "run_id".toList = Dict.get? ps "run_id".toList := by
          simp only [Dict.get?]; rw [if_neg hk]
        rw [e, ← ih]
        by_cases hp : (!decide (k.head? = some '_')) = true
        · have e' : extractExtra ((k, x) :: ps) = (k, x) :: extractExtra ps := List.filter_cons_of_pos hp
          rw [e']
          simp only [Dict.get?]; rw [if_neg hk]
        · have e' : extractExtra ((k, x) :: ps) = extractExtra ps := List.filter_cons_of_neg hp
          rw [e']
  have hne : extractExtra attrs ≠ [] := by
    intro h0
    rw [h0, h] at key
    cases key
  unfold runIdOf
  rw [if_neg hne, key, h]
  rfl

/-- A record that was logged with a `run_id` is the first thing the log page of that run shows, whatever else it carries. -/
theorem C79_stored_run (S : Str) (hS : S.strip (S.lower []) = []) (m : Nat) (hm : m ≠ 0) (buf : List LogEntry) (r : Record) (msg : Text)
    (v : V) (hmsg : r.message = some msg) (hv : r.attrs.get? "run_id".toList = some v) (limit : Int) :
    ∃ e, (logQuery S (emit m buf r) ⟨none, some v.text, none, none, none, none, limit⟩).head? = some e ∧
      e.ts = r.created ∧ e.level = r.level ∧ e.message = msg ∧ e.logger = r.name ∧ e.extraRunId = some v.text := by
  have hrun := runIdOf_get v hv
  refine ⟨⟨r.created, r.level, msg, r.name, owner r.attrs, runIdOf (extractExtra r.attrs)⟩, ?_, rfl, rfl, rfl, rfl, hrun⟩
  have hk : logKeep S ⟨none, some v.text, none, none, none, none, limit⟩
      ⟨r.created, r.level, msg, r.name, owner r.attrs, runIdOf (extractExtra r.attrs)⟩ = true := by
    rw [logKeep_iff]
    refine ⟨fun h => absurd rfl h.1, fun _ => hrun, by simp, by simp, ?_, ?_⟩
    · intro h; exact absurd rfl h.1
    · intro h; exact absurd hS h
  have hl : ∃ l, emit m buf r = l ++ [⟨r.created, r.level, msg, r.name, owner r.attrs, runIdOf (extractExtra r.attrs)⟩] := by
    rw [emit_eq m buf r msg hmsg]
    simp only [logAppend, dequeAppend, if_neg hm]
    split
    · exact ⟨_, rfl⟩
    · exact ⟨_, rfl⟩
  obtain ⟨l, hl⟩ := hl
  rw [hl, logQuery, scan_nil_eq, List.reverse_append, List.reverse_singleton, List.singleton_append, List.filter_cons_of_pos hk]
  obtain ⟨n, hn⟩ : ∃ n, (max limit 1).toNat = n + 1 := ⟨(max limit 1).toNat - 1, by omega⟩
  rw [hn]
  rfl

example : (Dict.get? [("_x".toList, V.none), ("run_id".toList, V.obj true "7".toList)] "run_id".toList) = some (V.obj true "7".toList) := by decide

/-! ## Levels -/

/-- The first installation captures every record of at least its level, and sends it to its storage. -/
theorem C79_install (s : Setup) (hs : s.handler = none) (storage level : Nat) (hl : level ≠ 0) (n : Nat) :
    captured (install s storage level) n = if level ≤ n then some storage else none := by
  simp only [install, hs, captured]
  have h0 : min (if s.level = 0 then level else s.level) level ≠ 0 := by
    split <;> omega
  rw [if_neg h0]
  by_cases h : level ≤ n
  · rw [if_pos h, if_pos]
    exact ⟨by omega, h⟩
  · rw [if_neg h, if_neg (fun hh => h hh.2)]

/-- Any further installations: the records of at least the last level go to the last storage, provided no later level is below
the first.  Missing: a later, lower level. -/
theorem C79_reinstall_partial (s : Setup) (hs : s.handler = none) (first : Nat × Nat) (later : List (Nat × Nat)) (last : Nat × Nat)
    (hl : first.2 ≠ 0) (hlast : (first :: later).getLast? = some last) (hge : first.2 ≤ last.2) (n : Nat) :
    captured ((first :: later).foldl (fun s p => install s p.1 p.2) s) n = if last.2 ≤ n then some last.1 else none := by
  have key : ∀ (later : List (Nat × Nat)) (s : Setup) (p : Nat × Nat), s.handler = some (p.2, p.1) →
      (later.foldl (fun s p => install s p.1 p.2) s).level = s.level ∧
      (later.foldl (fun s p => install s p.1 p.2) s).root = s.root ∧
      ∃ q, (p :: later).getLast? = some q ∧ (later.foldl (fun s p => install s p.1 p.2) s).handler = some (q.2, q.1) := by
    intro later
    induction later with
    | nil => intro s p h; exact ⟨rfl, rfl, p, rfl, h⟩
    | cons q later ih =>
      intro s p h
      have e : install s q.1 q.2 = { s with handler := some (q.2, q.1) } := by simp only [install, h]
      obtain ⟨h1, h2, r, h3, h4⟩ := ih (install s q.1 q.2) q (by rw [e])
      rw [List.foldl_cons]
      refine ⟨h1.trans (by rw [e]), h2.trans (by rw [e]), r, ?_, h4⟩
      rw [List.getLast?_cons_cons]; exact h3
  have hi : (install s first.1 first.2).handler = some (first.2, first.1) := by simp only [install, hs]
  obtain ⟨h1, h2, q, h3, h4⟩ := key later _ first hi
  rw [h3] at hlast
  cases hlast
  rw [List.foldl_cons]
  simp only [captured, h4, h1, h2]
  have h0 : (install s first.1 first.2).level ≠ 0 ∧ (install s first.1 first.2).level ≤ first.2 := by
    simp only [install, hs]
    constructor
    · split <;> omega
    · omega
  rw [if_neg h0.1]
  by_cases h : last.2 ≤ n
  · rw [if_pos h, if_pos]
    exact ⟨by omega, h⟩
  · rw [if_neg h, if_neg (fun hh => h hh.2)]

/-- After INFO a second installation for DEBUG captures no DEBUG records: the level of the logger is not lowered. -/
theorem C79_level_witness :
    captured (install (install ⟨0, 30, none⟩ 0 20) 0 10) 10 = none ∧ captured (install ⟨0, 30, none⟩ 0 10) 10 = some 0 := by decide

/-! ## The logs of a run -/

/-- when the run is taken to begin and to end -/
def Run.begin (r : Run) : Option Int := r.submittedAt.or (r.finishedAt.or r.createdAt)
/-- see above -/
def Run.stop (r : Run) (now : Int) : Int := (r.finishedAt.or r.updatedAt).getD now

/-- the entry carries the identifier of the run -/
def Direct (r : Run) (e : LogEntry) : Prop := e.extraRunId = some r.runId

/-- the entry is one of the task and was made while the run was under way, give or take five seconds -/
def Correlated (r : Run) (now : Int) (e : LogEntry) : Prop :=
  e.taskId = some r.taskId ∧ ∃ b, r.begin = some b ∧ b - 5000000 ≤ e.ts ∧ e.ts ≤ r.stop now + 5000000

/-- first occurrences, by key, of what has not been seen -/
def firsts (seen : List (Int × Text × Text × Text)) : List LogEntry → List LogEntry
  | [] => []
  | e :: l => if keyOf e ∈ seen then firsts seen l else e :: firsts (keyOf e :: seen) l

theorem merge_eq (limit : Int) (l : List LogEntry) : ∀ (seen : List (Int × Text × Text × Text)) (out : List LogEntry),
    (out.length : Int) < limit → merge limit seen out l = out ++ (firsts seen l).take (limit.toNat - out.length) := by
  induction l with
  | nil => intro seen out _; simp [merge, firsts]
  | cons e l ih =>
    intro seen out h
    simp only [merge, firsts]
    by_cases hs : keyOf e ∈ seen
    · rw [if_pos hs, if_pos hs]; exact ih seen out h
    · rw [if_neg hs, if_neg hs]
      by_cases hl : ((out ++ [e]).length : Int) ≥ limit
      · rw [if_pos hl]
        simp only [List.length_append, List.length_cons, List.length_nil] at hl
        have h1 : limit.toNat - out.length = 1 := by omega
        rw [h1]; simp
      · rw [if_neg hl, ih _ _ (by omega)]
        simp only [List.length_append, List.length_cons, List.length_nil] at hl
        have h1 : limit.toNat - out.length = (limit.toNat - (out ++ [e]).length) + 1 := by
          simp only [List.length_append, List.length_cons, List.length_nil]; omega
        rw [h1, List.take_succ_cons, List.append_assoc]
        rfl

theorem firsts_mem {l : List LogEntry} : ∀ {seen : List (Int × Text × Text × Text)} {e : LogEntry}, e ∈ firsts seen l → e ∈ l := by
  induction l with
  | nil => intro seen e h; simp [firsts] at h
  | cons x l ih =>
    intro seen e h
    simp only [firsts] at h
    split at h
    · exact List.mem_cons_of_mem _ (ih h)
    · rcases List.mem_cons.mp h with rfl | h
      · simp
      · exact List.mem_cons_of_mem _ (ih h)

theorem firsts_keys {l : List LogEntry} : ∀ {seen : List (Int × Text × Text × Text)},
    ((firsts seen l).map keyOf).Nodup ∧ (∀ e ∈ firsts seen l, keyOf e ∉ seen) ∧
    ∀ e ∈ l, keyOf e ∈ seen ∨ keyOf e ∈ (firsts seen l).map keyOf := by
  induction l with
  | nil => intro seen; simp [firsts]
  | cons x l ih =>
    intro seen
    simp only [firsts]
    by_cases hs : keyOf x ∈ seen
    · rw [if_pos hs]
      obtain ⟨h1, h2, h3⟩ := ih (seen := seen)
      refine ⟨h1, h2, ?_⟩
      intro e he
      rcases List.mem_cons.mp he with rfl | he
      · exact Or.inl hs
      · exact h3 e he
    · rw [if_neg hs]
      obtain ⟨h1, h2, h3⟩ := ih (seen := keyOf x :: seen)
      refine ⟨?_, ?_, ?_⟩
      · rw [List.map_cons, List.nodup_cons]
        refine ⟨?_, h1⟩
        intro hm
        obtain ⟨e, he, hk⟩ := List.mem_map.mp hm
        exact h2 e he (by simp [hk])
      · intro e he
        rcases List.mem_cons.mp he with rfl | he
        · exact hs
        · exact fun hh => h2 e he (by simp [hh])
      · intro e he
        rcases List.mem_cons.mp he with rfl | he
        · exact Or.inr (by simp)
        · rcases h3 e he with h | h
          · rcases List.mem_cons.mp h with h | h
            · exact Or.inr (by simp [h])
            · exact Or.inl h
          · exact Or.inr (by rw [List.map_cons]; exact List.mem_cons_of_mem _ h)

theorem length_le_of_nodup_subset {α : Type} [DecidableEq α] : ∀ {l m : List α}, l.Nodup → (∀ a ∈ l, a ∈ m) → l.length ≤ m.length := by
  intro l
  induction l with
  | nil => intro m _ _; exact Nat.zero_le _
  | cons a l ih =>
    intro m hn hs
    rw [List.nodup_cons] at hn
    have ha : a ∈ m := hs a (by simp)
    have := ih (m := m.erase a) hn.2 (fun b hb => (List.mem_erase_of_ne (by rintro rfl; exact hn.1 hb)).mpr (hs b (by simp [hb])))
    rw [List.length_erase_of_mem ha] at this
    have : 0 < m.length := List.length_pos_of_mem ha
    simp only [List.length_cons]
    omega

theorem inj_of_nodup {α β : Type} {f : α → β} : ∀ {l : List α}, (l.map f).Nodup → ∀ {a b : α}, a ∈ l → b ∈ l → f a = f b → a = b := by
  intro l
  induction l with
  | nil => intro _ a b ha; cases ha
  | cons x l ih =>
    intro hn a b ha hb hf
    rw [List.map_cons, List.nodup_cons] at hn
    rcases List.mem_cons.mp ha with rfl | ha1 <;> rcases List.mem_cons.mp hb with rfl | hb1
    · rfl
    · exact absurd (List.mem_map.mpr ⟨b, hb1, hf.symm⟩) hn.1
    · exact absurd (List.mem_map.mpr ⟨a, ha1, hf⟩) hn.1
    · exact ih hn.2 ha1 hb1 hf

/-- the newest entries first, those that satisfy `P`, at most `limit` -/
theorem query_eq (S : Str) (buf : List LogEntry) (a : LogQuery) (hl : 1 ≤ a.limit) :
    logQuery S buf a = (buf.reverse.filter (logKeep S a)).take a.limit.toNat := by
  rw [logQuery, scan_nil_eq]
  have h2 : max a.limit 1 = a.limit := by omega
  rw [h2]

theorem keep_direct (S : Str) (hS : S.strip (S.lower []) = []) (r : Run) (hr : r.runId ≠ []) (limit : Int) (e : LogEntry) :
    logKeep S ⟨none, some r.runId, none, none, none, none, limit⟩ e = true ↔ Direct r e := by
  rw [logKeep_iff]
  constructor
  · intro h; exact h.2.1 ⟨by simp, by simpa using hr⟩
  · intro h
    exact ⟨fun hh => absurd rfl hh.1, fun _ => h, by simp, by simp, fun hh => absurd rfl hh.1, fun hh => absurd hS hh⟩

theorem keep_correlated (S : Str) (hS : S.strip (S.lower []) = []) (t : Text) (ht : t ≠ []) (a b limit : Int) (e : LogEntry) :
    logKeep S ⟨some t, none, none, none, some a, some b, limit⟩ e = true ↔ e.taskId = some t ∧ a ≤ e.ts ∧ e.ts ≤ b := by
  rw [logKeep_iff]
  constructor
  · intro h; exact ⟨h.1 ⟨by simp, by simpa using ht⟩, h.2.2.1 a rfl, h.2.2.2.1 b rfl⟩
  · intro h
    exact ⟨fun _ => h.1, fun hh => absurd rfl hh.1, by intro t ht; cases ht; exact h.2.1, by intro t ht; cases ht; exact h.2.2,
      fun hh => absurd rfl hh.1, fun hh => absurd hS hh⟩

theorem begin_eq (r : Run) : orElse3 r.submittedAt r.finishedAt r.createdAt = r.begin := by
  unfold orElse3 Run.begin
  cases r.submittedAt <;> cases r.finishedAt <;> rfl

theorem stop_eq (r : Run) (now : Int) : (orElse3 r.finishedAt r.updatedAt (some now)).getD now = r.stop now := by
  unfold orElse3 Run.stop
  cases r.finishedAt <;> cases r.updatedAt <;> rfl

/-- **C79, log page of a run.**  It shows at most `limit` entries; each of them is in the buffer and either carries the run's
identifier or is one of the task from the time of the run.  If it shows fewer than `limit`, nothing that belongs there is
missing, provided no two entries of the buffer agree in time, level, logger and message. -/
theorem C79_run_logs (S : Str) (hS : S.strip (S.lower []) = []) (buf : List LogEntry) (now : Int) (r : Run) (hr : r.runId ≠ [])
    (ht : r.taskId ≠ []) (limit : Int) (hl : 1 ≤ limit) :
    ((logsForRun S buf now r limit).length : Int) ≤ limit ∧
    (∀ e ∈ logsForRun S buf now r limit, e ∈ buf ∧ (Direct r e ∨ Correlated r now e)) ∧
    ((buf.map keyOf).Nodup → ((logsForRun S buf now r limit).length : Int) < limit →
      ∀ e ∈ buf, Direct r e ∨ Correlated r now e → e ∈ logsForRun S buf now r limit) := by
  unfold logsForRun
  simp only [begin_eq, stop_eq]
  rw [query_eq S buf _ hl]
  simp only
  generalize hD : buf.reverse.filter (logKeep S ⟨none, some r.runId, none, none, none, none, limit⟩) = D
  have hDmem : ∀ e, e ∈ D ↔ e ∈ buf ∧ Direct r e := by
    intro e
    rw [← hD, List.mem_filter, List.mem_reverse, keep_direct S hS r hr]
  by_cases hge : ((D.take limit.toNat).length : Int) ≥ limit
  · rw [if_pos hge]
    have hlen : ((D.take limit.toNat).take limit.toNat).length = limit.toNat := by
      simp only [List.length_take] at hge ⊢; omega
    refine ⟨by omega, ?_, fun _ h => by omega⟩
    intro e he
    have := (hDmem e).mp (List.mem_of_mem_take (List.mem_of_mem_take he))
    exact ⟨this.1, Or.inl this.2⟩
  · rw [if_neg hge]
    have hDt : D.take limit.toNat = D := by
      apply List.take_of_length_le
      simp only [List.length_take] at hge; omega
    rw [hDt]
    cases hb : r.begin with
    | none =>
      simp only
      rw [hDt] at hge
      refine ⟨by omega, fun e he => ?_, fun _ _ e he hor => ?_⟩
      · have := (hDmem e).mp he
        exact ⟨this.1, Or.inl this.2⟩
      · rcases hor with h | ⟨_, b, hb', _⟩
        · exact (hDmem e).mpr ⟨he, h⟩
        · rw [hb] at hb'; cases hb'
    | some start =>
      simp only
      rw [query_eq S buf _ hl]
      simp only
      generalize hC : buf.reverse.filter (logKeep S ⟨some r.taskId, none, none, none, some (start - 5000000),
        some (r.stop now + 5000000), limit⟩) = C
      have hCmem : ∀ e, e ∈ C ↔ e ∈ buf ∧ Correlated r now e := by
        intro e
        rw [← hC, List.mem_filter, List.mem_reverse, keep_correlated S hS r.taskId ht]
        unfold Correlated
        rw [hb]
        constructor
        · rintro ⟨h1, h2, h3⟩; exact ⟨h1, h2, start, rfl, h3⟩
        · rintro ⟨h1, h2, b, hb', h3⟩; cases hb'; exact ⟨h1, h2, h3⟩
      rw [merge_eq limit _ [] [] (by simp only [List.length_nil]; omega)]
      simp only [List.nil_append, List.length_nil, Nat.sub_zero]
      obtain ⟨h1, h2, h3⟩ := firsts_keys (l := D ++ C.take limit.toNat) (seen := [])
      refine ⟨by simp only [List.length_take]; omega, ?_, ?_⟩
      · intro e he
        have := firsts_mem (List.mem_of_mem_take he)
        rcases List.mem_append.mp this with h | h
        · exact ⟨((hDmem e).mp h).1, Or.inl ((hDmem e).mp h).2⟩
        · have := (hCmem e).mp (List.mem_of_mem_take h)
          exact ⟨this.1, Or.inr this.2⟩
      · intro hnd hlt e he hor
        have hF : (firsts [] (D ++ C.take limit.toNat)).length < limit.toNat := by
          simp only [List.length_take] at hlt; omega
        rw [List.take_of_length_le (by omega)]
        -- entries of the buffer with the same key are the same
        have hinj : ∀ a ∈ buf, ∀ b ∈ buf, keyOf a = keyOf b → a = b := by
          intro a ha b hb' hk
          exact inj_of_nodup hnd ha hb' hk
        have hCnd : ((C.take limit.toNat).map keyOf).Nodup := by
          have hs : (C.take limit.toNat).Sublist buf.reverse := by
            rw [← hC]; exact (List.take_sublist _ _).trans List.filter_sublist
          have hnr : (buf.reverse.map keyOf).Nodup := by rw [List.map_reverse]; exact (List.reverse_perm _).nodup_iff.mpr hnd
          exact (hs.map keyOf).nodup hnr
        have hCt : C.take limit.toNat = C := by
          apply List.take_of_length_le
          have := length_le_of_nodup_subset hCnd (m := (firsts [] (D ++ C.take limit.toNat)).map keyOf) (by
            intro k hk
            obtain ⟨x, hx, rfl⟩ := List.mem_map.mp hk
            rcases h3 x (by simp [hx]) with h | h
            · cases h
            · exact h)
          simp only [List.length_map, List.length_take] at this
          omega
        have hmem : e ∈ D ++ C.take limit.toNat := by
          rw [hCt, List.mem_append]
          rcases hor with h | h
          · exact Or.inl ((hDmem e).mpr ⟨he, h⟩)
          · exact Or.inr ((hCmem e).mpr ⟨he, h⟩)
        rcases h3 e hmem with h | h
        · cases h
        · obtain ⟨x, hx, hk⟩ := List.mem_map.mp h
          have hxb : x ∈ buf := by
            rcases List.mem_append.mp (firsts_mem hx) with h | h
            · exact ((hDmem x).mp h).1
            · exact ((hCmem x).mp (List.mem_of_mem_take h)).1
          rw [← hinj x hxb e he hk]
          exact hx

/-! ### Examples and witness -/

/-- texts without case -/
def plain : Str := ⟨id, id, id⟩

/-- an entry of task "t" -/
def exEntry (ts : Int) (msg : String) (run : Option Text) : LogEntry := ⟨ts, "INFO".toList, msg.toList, "asyncz".toList, some "t".toList, run⟩

/-- a run of task "t" -/
def exRun : Run := ⟨"r1".toList, "t".toList, some 10000000, some 20000000, some 0, some 0⟩

example : plain.strip (plain.lower []) = [] := rfl
-- an entry with the run's identifier, one from its time, one too early
example : logsForRun plain [exEntry 1 "early" none, exEntry 6000000 "near" none, exEntry 12000000 "mine" (some "r1".toList)] 0 exRun 200 =
    [exEntry 12000000 "mine" (some "r1".toList), exEntry 6000000 "near" none] := by decide

/-- Entries that agree in time, level, logger and message are shown once, and can displace others: two fit, one is shown. -/
theorem C79_same_witness :
    logsForRun plain [exEntry 7000000 "first" none, exEntry 12000000 "tick" (some "x".toList), exEntry 12000000 "tick" (some "y".toList)] 0 exRun 2 =
      [exEntry 12000000 "tick" (some "y".toList)] ∧ Correlated exRun 0 (exEntry 7000000 "first" none) :=
  ⟨by decide, rfl, 10000000, rfl, by decide⟩

end Logs
end Asyncz
