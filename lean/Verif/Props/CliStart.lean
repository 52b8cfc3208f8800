import Verif.Model.CliStart
import Verif.Props.TaskObj
/-!
# `asyncz start` (C90, C91, C92)
-/
namespace Asyncz
namespace CliStart
open TaskObj

/-! ## C90: loading jobs -/

/-- `Task(func=…)` raises, whatever the function is. -/
theorem construct_raises (py : Py) (base : Attrs) (func name : Val) : (construct py base func name).2.isSome :=
  (C25_rejects py base .none .none [("func", func), ("name", name)] (by simp [Dict.WF])
    (Or.inr (Or.inr (Or.inr (Or.inr (Or.inr (Or.inr (Or.inr (Or.inr (Or.inr (Or.inr (Or.inr (Or.inr
      ⟨"func", func, rfl, by decide⟩))))))))))))).1

/-- **C90** (partial): `asyncz start --config` or `--module` with an empty list of jobs adds nothing and succeeds, and whenever
loading succeeds the number of jobs is returned.  Partial: no other list can be loaded (`C90_witness`). -/
theorem C90_load_partial {S : Type} (py : Py) (base : Attrs) (add : S → Attrs → Entry → S × Option PyErr) (js : List Entry)
    (s s' : S) (n : Nat) (h : loadJobs py base add js 0 s = (s', .ok n)) : n = js.length ∧ js = [] ∧ s' = s := by
  cases js with
  | nil => simp only [loadJobs, Prod.mk.injEq, Except.ok.injEq] at h; exact ⟨h.2.symm, rfl, h.1.symm⟩
  | cons j js =>
    simp only [loadJobs] at h
    split at h
    · cases h
    · split at h
      · cases h
      · rename_i f _
        have := construct_raises py base f j.name
        split at h
        · cases h
        · rename_i hc; rw [hc] at this; cases this

example {S : Type} (py : Py) (base : Attrs) (add : S → Attrs → Entry → S × Option PyErr) (s : S) :
    loadJobs py base add [] 0 s = (s, .ok 0) := rfl

/-- **C90, counterexample**: `asyncz start --config` or `--module` fails for every list of jobs but the empty one, and no job is
added: the loader calls `Task(func=…)`, but the parameter is called `fn`. -/
theorem C90_witness {S : Type} (py : Py) (base : Attrs) (add : S → Attrs → Entry → S × Option PyErr) (j : Entry)
    (js : List Entry) (s : S) : ∃ e, loadJobs py base add (j :: js) 0 s = (s, .error e) := by
  simp only [loadJobs]
  split
  · exact ⟨_, rfl⟩
  · split
    · exact ⟨_, rfl⟩
    · rename_i f _
      have := construct_raises py base f j.name
      split
      · exact ⟨_, rfl⟩
      · rename_i hc; rw [hc] at this; cases this

/-- also for a job that could be added: a resolvable function, a name, a trigger -/
example (base : Attrs) (s : List Attrs) : ∃ e, loadJobs exPy base (fun s t _ => (s ++ [t], none))
    [⟨some (.str "m:f"), .str "ping", true⟩] 0 s = (s, .error (.task e)) := by
  have h1 := construct_raises exPy base (.str "m:f") (.str "ping")
  simp only [loadJobs, Bool.true_eq_false, if_false]
  split
  · exact ⟨_, rfl⟩
  · rename_i hc; rw [hc] at h1; cases h1

/-! ## C91: watching files -/

/-- the modification time of `p` that was seen last: at the last of these polls at which the file was there, or before them -/
def lastSeen (p : String) (first : Int) : List Files → Int
  | [] => first
  | fs :: rest => lastSeen p ((fs p).getD first) rest

/-- **C91**: at each poll `start --watch` reloads exactly if some watched file is missing or has another modification
time than when it was last seen there. -/
theorem C91_watch (ts : List Target) (before : List Files) (fs : Files) (after : List Files) :
    ∃ reload, (polls (before ++ fs :: after) ts)[before.length]? = some reload ∧
      (reload = true ↔ ∃ t ∈ ts, fs t.path = none ∨ ∃ m, fs t.path = some m ∧ m ≠ lastSeen t.path t.mtime before) := by
  induction before generalizing ts with
  | nil =>
    refine ⟨(changed fs ts).1, rfl, ?_⟩
    have key : ∀ t : Target, (check fs t).1 = true ↔ (fs t.path = none ∨ ∃ m, fs t.path = some m ∧ m ≠ t.mtime) := by
      intro t
      simp only [check]
      cases h : fs t.path with
      | none => simp
      | some m => by_cases hm : m = t.mtime <;> simp [hm]
    simp only [changed, List.any_eq_true]
    exact ⟨fun ⟨t, h1, h2⟩ => ⟨t, h1, (key t).1 h2⟩, fun ⟨t, h1, h2⟩ => ⟨t, h1, (key t).2 h2⟩⟩
  | cons g before ih =>
    obtain ⟨r, h1, h2⟩ := ih (changed g ts).2
    refine ⟨r, by simpa only [List.cons_append, polls, List.length_cons, List.getElem?_cons_succ] using h1, h2.trans ?_⟩
    have hc : ∀ t : Target, (check g t).2.path = t.path ∧ (check g t).2.mtime = (g t.path).getD t.mtime := by
      intro t
      simp only [check]
      cases h : g t.path with
      | none => simp
      | some m => by_cases hm : m = t.mtime <;> simp [hm]
    simp only [changed]
    constructor
    · rintro ⟨t', ht', h⟩
      obtain ⟨t, ht, rfl⟩ := List.mem_map.1 ht'
      rw [(hc t).1, (hc t).2] at h
      exact ⟨t, ht, h⟩
    · rintro ⟨t, ht, h⟩
      refine ⟨_, List.mem_map.2 ⟨t, ht, rfl⟩, ?_⟩
      rw [(hc t).1, (hc t).2]
      exact h

/-- a change is announced once: the next poll with the same files is quiet, unless a file is missing -/
theorem C91_once (ts : List Target) (before : List Files) (fs : Files) (after : List Files)
    (hall : ∀ t ∈ ts, (fs t.path).isSome) :
    (polls (before ++ fs :: fs :: after) ts)[before.length + 1]? = some false := by
  obtain ⟨r, this, hr⟩ := C91_watch ts (before ++ [fs]) fs after
  simp only [List.append_assoc, List.singleton_append, List.length_append, List.length_singleton] at this
  rw [this]
  refine congrArg some (Bool.eq_false_iff.2 fun hrt => ?_)
  obtain ⟨t, ht, h⟩ := hr.1 hrt
  have hl : ∀ (x : Int) (l : List Files), lastSeen t.path x (l ++ [fs]) = (fs t.path).getD (lastSeen t.path x l) := by
    intro x l
    induction l generalizing x with
    | nil => rfl
    | cons g l ih => simp only [List.cons_append, lastSeen, ih]
  obtain ⟨m, hm⟩ := Option.isSome_iff_exists.1 (hall t ht)
  rcases h with h | ⟨m', h1, h2⟩
  · rw [hm] at h; cases h
  · rw [hm] at h1; cases h1
    rw [hl, hm] at h2
    exact h2 rfl

/-- the watched files are those of the given ones that exist at the start -/
theorem C91_targets (fs : Files) (paths : List String) (t : Target) :
    t ∈ collect fs paths ↔ t.path ∈ paths ∧ fs t.path = some t.mtime := by
  obtain ⟨p, m⟩ := t
  simp only [collect, List.mem_filterMap, Option.map_eq_some_iff, Target.mk.injEq]
  constructor
  · rintro ⟨q, hq, m', hm, rfl, rfl⟩; exact ⟨hq, hm⟩
  · rintro ⟨hp, hm⟩; exact ⟨p, hp, m, hm, rfl, rfl⟩

/-- **C91, counterexample**: while a watched file is missing every poll reloads, though nothing changes any more. -/
theorem C91_missing_witness (ts : List Target) (before : List Files) (fs : Files) (after : List Files) (t : Target)
    (ht : t ∈ ts) (hm : fs t.path = none) :
    (polls (before ++ fs :: fs :: after) ts)[before.length + 1]? = some true := by
  obtain ⟨r, this, hr⟩ := C91_watch ts (before ++ [fs]) fs after
  simp only [List.append_assoc, List.singleton_append, List.length_append, List.length_singleton] at this
  rw [this]
  exact congrArg some (hr.2 ⟨t, ht, .inl hm⟩)

/-- four polls: nothing, a change, nothing, the file is gone and stays away -/
example : let fs (m : Option Int) : Files := fun p => if p = "jobs.py" then m else none
    polls [fs (some 1), fs (some 2), fs (some 2), fs none, fs none, fs (some 2)] (collect (fs (some 1)) ["jobs.yml", "jobs.py"]) =
      [false, true, false, true, true, false] := by decide

/-! ## C92: the bootstrap scheduler -/

variable {α : Type}

theorem accept_spec (w : World α) (path : String) (r : Option α) (b : Boot α) :
    (∃ s, r = some s ∧ w.isScheduler s = true ∧ accept w path r b = ({ b with cache := b.cache.set path s }, some s)) ∨
    accept w path r b = (b, none) := by
  simp only [accept]
  split
  · exact .inr rfl
  · split
    · exact .inl ⟨_, rfl, ‹_›, rfl⟩
    · exact .inr rfl

/-- either a scheduler is found and cached, or nothing is cached -/
theorem load_spec (w : World α) (path : String) (b : Boot α) (hb : b.cache.get? path = none) :
    (∃ s n, w.isScheduler s = true ∧ load w path b = (⟨b.cache.set path s, n⟩, some s)) ∨
    ∃ n, load w path b = (⟨b.cache, n⟩, none) := by
  have acc : ∀ r (b' : Boot α), b'.cache = b.cache →
      (∃ s n, w.isScheduler s = true ∧ accept w path r b' = (⟨b.cache.set path s, n⟩, some s)) ∨
      ∃ n, accept w path r b' = (⟨b.cache, n⟩, none) := by
    intro r b' hb'
    rcases accept_spec w path r b' with ⟨s, _, h2, h3⟩ | h
    · exact .inl ⟨s, b'.calls, h2, by rw [h3, hb']⟩
    · exact .inr ⟨b'.calls, by rw [h, ← hb']⟩
  have obj : ∀ o (b' : Boot α), b'.cache = b.cache →
      (∃ s n, w.isScheduler s = true ∧ loadObject w path o b' = (⟨b.cache.set path s, n⟩, some s)) ∨
      ∃ n, loadObject w path o b' = (⟨b.cache, n⟩, none) := by
    intro o b' hb'
    simp only [loadObject]
    split
    · exact acc _ _ hb'
    · split
      · exact acc _ _ hb'
      · exact .inr ⟨b'.calls, by rw [← hb']⟩
  simp only [load, hb]
  split
  · exact .inr ⟨b.calls, rfl⟩
  · split
    · exact .inr ⟨b.calls, rfl⟩
    · split
      · split
        · exact .inr ⟨_, rfl⟩
        · split
          · exact acc _ _ rfl
          · exact obj _ _ rfl
      · exact obj _ _ rfl

/-- what can happen: loading a path, clearing the cache -/
inductive Loaded (w : World α) : Boot α → Prop
  | init (n : Nat) : Loaded w ⟨[], n⟩
  | load {b : Boot α} (path : String) (h : Loaded w b) : Loaded w (load w path b).1
  | clear {b : Boot α} (h : Loaded w b) : Loaded w (clear b)

theorem Loaded.schedulers {w : World α} {b : Boot α} (h : Loaded w b) :
    ∀ p s, b.cache.get? p = some s → w.isScheduler s = true := by
  induction h with
  | init n => intro p s h; cases h
  | clear _ _ => intro p s h; cases h
  | @load b path _ ih =>
    intro p s h
    cases hb : b.cache.get? path with
    | some s0 =>
      have : (CliStart.load w path b).1 = b := by simp [CliStart.load, hb]
      rw [this] at h
      exact ih p s h
    | none =>
      rcases load_spec w path b hb with ⟨s0, n, h1, h2⟩ | ⟨n, h2⟩
      · rw [h2] at h
        simp only [Dict.get?_set] at h
        split at h
        · cases h; exact h1
        · exact ih p s h
      · rw [h2] at h; exact ih p s h

/-- loads of other paths and of the same path, in any order -/
def loads (w : World α) (ps : List String) (b : Boot α) : Boot α := ps.foldl (fun b p => (load w p b).1) b

theorem load_cached (w : World α) (p : String) (s : α) (b : Boot α) (h : b.cache.get? p = some s) :
    load w p b = (b, some s) := by simp only [load, h]

theorem load_keeps (w : World α) (p q : String) (s : α) (b : Boot α) (h : b.cache.get? p = some s) :
    (load w q b).1.cache.get? p = some s := by
  cases hb : b.cache.get? q with
  | some s0 => simpa [load, hb] using h
  | none =>
    rcases load_spec w q b hb with ⟨s0, n, h1, h2⟩ | ⟨n, h2⟩
    · rw [h2]
      simp only [Dict.get?_set]
      split
      · rename_i hc; subst hc; rw [h] at hb; cases hb
      · exact h
    · rw [h2]; exact h

/-- **C92**: what `--bootstrap` loads is a scheduler; every later load of the same path, whatever has been loaded in between,
gives the same scheduler and calls nothing; a load that fails leaves the cache as it was; a path without a colon fails
without importing anything. -/
theorem C92_bootstrap (w : World α) (b : Boot α) (hb : Loaded w b) (path : String) :
    (∀ s, (load w path b).2 = some s → w.isScheduler s = true ∧
      ∀ ps, load w path (loads w ps (load w path b).1) = (loads w ps (load w path b).1, some s)) ∧
    ((load w path b).2 = none → (load w path b).1.cache = b.cache) ∧
    (':' ∉ path.toList → b.cache.get? path = none → load w path b = (b, none)) := by
  refine ⟨fun s hs => ?_, fun hn => ?_, fun hc hg => ?_⟩
  · have hcache : w.isScheduler s = true ∧ (load w path b).1.cache.get? path = some s := by
      cases hg : b.cache.get? path with
      | some s0 =>
        have : load w path b = (b, some s0) := by simp [load, hg]
        rw [this] at hs ⊢
        cases hs
        exact ⟨hb.schedulers _ _ hg, hg⟩
      | none =>
        rcases load_spec w path b hg with ⟨s0, n, h1, h2⟩ | ⟨n, h2⟩
        · rw [h2] at hs ⊢
          cases hs
          exact ⟨h1, by simp [Dict.get?_set]⟩
        · rw [h2] at hs; cases hs
    refine ⟨hcache.1, fun ps => ?_⟩
    have : ∀ (ps : List String) (b' : Boot α), b'.cache.get? path = some s → (loads w ps b').cache.get? path = some s := by
      intro ps
      induction ps with
      | nil => exact fun b' h => h
      | cons p ps ih => exact fun b' h => ih _ (load_keeps w path p s b' h)
    have hg := this ps _ hcache.2
    exact load_cached w path s _ hg
  · cases hg : b.cache.get? path with
    | some s0 => simp [load, hg] at hn
    | none =>
      rcases load_spec w path b hg with ⟨s0, n, h1, h2⟩ | ⟨n, h2⟩
      · rw [h2] at hn; cases hn
      · rw [h2]
  · have hs : splitPath path = none := by
      simp only [splitPath]
      have : path.toList.dropWhile (· ≠ ':') = [] := by
        have H : ∀ l : List Char, ':' ∉ l → l.dropWhile (· ≠ ':') = [] := by
          intro l
          induction l with
          | nil => exact fun _ => rfl
          | cons x l ih =>
            intro hl
            have hx : x ≠ ':' := fun hx => hl (hx ▸ List.mem_cons_self)
            rw [List.dropWhile_cons, if_pos (decide_eq_true hx)]
            exact ih fun hm => hl (List.mem_cons_of_mem _ hm)
        exact H _ hc
      rw [this]
    simp only [load, hg, hs]

/-- What a path names: the text before the first colon is the module, the rest the attribute. -/
def Names (path m a : String) : Prop := path.toList = m.toList ++ ':' :: a.toList ∧ ':' ∉ m.toList

/-- The object named by a path provides `s` (when `n` calls have been made before): a class whose instances have `get_scheduler`
through an instance; any other object that has `get_scheduler` through it; any other callable by being called. -/
inductive Provides (w : World α) (obj : α) (n : Nat) : α → Prop
  | instance_ {inst s : α} : w.isClass obj = true → w.call obj n = some inst → w.offers inst = true →
      w.getScheduler inst (n + 1) = some s → Provides w obj n s
  | method {s : α} : w.isClass obj = false → w.offers obj = true → w.getScheduler obj n = some s → Provides w obj n s
  | called {s : α} : w.isClass obj = false → w.offers obj = false → w.callable obj = true → w.call obj n = some s →
      Provides w obj n s
  | classMethod {inst s : α} : w.isClass obj = true → w.call obj n = some inst → w.offers inst = false → w.offers obj = true →
      w.getScheduler obj (n + 1) = some s → Provides w obj n s
  | classCalled {inst s : α} : w.isClass obj = true → w.call obj n = some inst → w.offers inst = false → w.offers obj = false →
      w.callable obj = true → w.call obj (n + 1) = some s → Provides w obj n s

theorem splitPath_iff (path m a : String) : splitPath path = some (m, a) ↔ Names path m a := by
  have H : ∀ l : List Char, (match l.dropWhile (· ≠ ':') with
      | [] => ':' ∉ l
      | c :: b => c = ':' ∧ l = l.takeWhile (· ≠ ':') ++ ':' :: b ∧ ':' ∉ l.takeWhile (· ≠ ':')) := by
    intro l
    induction l with
    | nil => simp
    | cons x l ih =>
      by_cases hx : x = ':'
      · subst hx; simp
      · have hx' : ¬ ':' = x := fun h => hx h.symm
        simp only [List.dropWhile_cons, List.takeWhile_cons, ne_eq, hx, not_false_eq_true, decide_true, if_true] at ih ⊢
        split
        · rename_i hd
          rw [hd] at ih
          simpa [hx'] using ih
        · rename_i c b hd
          rw [hd] at ih
          obtain ⟨h1, h2, h3⟩ := ih
          refine ⟨h1, ?_, ?_⟩
          · rw [List.cons_append, ← h2]
          · simp only [List.mem_cons, not_or]; exact ⟨hx', h3⟩
  have U : ∀ (x y u v : List Char), ':' ∉ x → ':' ∉ u → x ++ ':' :: y = u ++ ':' :: v → x = u ∧ y = v := by
    intro x
    induction x with
    | nil =>
      intro y u v _ hu h
      cases u with
      | nil => simpa using h
      | cons c u => simp at h; exact absurd (h.1 ▸ List.mem_cons_self) hu
    | cons c x ih =>
      intro y u v hx hu h
      cases u with
      | nil => simp at h; exact absurd (h.1 ▸ List.mem_cons_self) hx
      | cons d u =>
        simp only [List.cons_append, List.cons.injEq] at h
        obtain ⟨h1, h2⟩ := ih y u v (fun q => hx (by simp [q])) (fun q => hu (by simp [q])) h.2
        exact ⟨by rw [h.1, h1], h2⟩
  have h := H path.toList
  unfold splitPath Names
  split at h
  · rename_i hd
    rw [hd]
    constructor
    · intro q; cases q
    · rintro ⟨q, _⟩; exact absurd (by rw [q]; simp) h
  · rename_i c b hd
    rw [hd]
    obtain ⟨_, h2, h3⟩ := h
    simp only [Option.some.injEq, Prod.mk.injEq]
    constructor
    · rintro ⟨rfl, rfl⟩
      simp only [String.toList_ofList]
      exact ⟨h2, h3⟩
    · rintro ⟨q1, q2⟩
      obtain ⟨r1, r2⟩ := U _ _ _ _ q2 h3 (q1.symm.trans h2)
      exact ⟨by rw [← r1, String.ofList_toList], by rw [← r2, String.ofList_toList]⟩

theorem accept_iff (w : World α) (path : String) (r : Option α) (b : Boot α) (s : α) :
    (accept w path r b).2 = some s ↔ r = some s ∧ w.isScheduler s = true := by
  unfold accept
  cases r with
  | none => simp
  | some x =>
    by_cases hx : w.isScheduler x = true
    · simp only [hx, if_true, Option.some.injEq]
      exact ⟨fun h => ⟨h, h ▸ hx⟩, fun h => h.1⟩
    · simp only [hx, Bool.false_eq_true, if_false, Option.some.injEq]
      exact ⟨fun h => (by cases h), fun h => absurd (h.1 ▸ h.2) hx⟩

/-- **C92, which scheduler.**  A path not loaded before gives the scheduler that the object it names provides, and fails if there
is no such object or what it provides is no scheduler. -/
theorem C92_source (w : World α) (path : String) (b : Boot α) (hb : b.cache.get? path = none) (s : α) :
    (load w path b).2 = some s ↔
      w.isScheduler s = true ∧ ∃ m a obj, Names path m a ∧ w.find m a = some obj ∧ Provides w obj b.calls s := by
  have hobj : ∀ (obj : α) (b' : Boot α), (loadObject w path obj b').2 = some s ↔
      w.isScheduler s = true ∧ ((w.offers obj = true ∧ w.getScheduler obj b'.calls = some s) ∨
        (w.offers obj = false ∧ w.callable obj = true ∧ w.call obj b'.calls = some s)) := by
    intro obj b'
    unfold loadObject
    by_cases h1 : w.offers obj = true
    · simp only [h1, if_true, accept_iff]
      constructor
      · rintro ⟨q1, q2⟩; exact ⟨q2, .inl ⟨trivial, q1⟩⟩
      · rintro ⟨q1, ⟨_, q2⟩ | ⟨q, _⟩⟩
        · exact ⟨q2, q1⟩
        · cases q
    · have h1' : w.offers obj = false := by simpa using h1
      simp only [h1', Bool.false_eq_true, if_false]
      by_cases h2 : w.callable obj = true
      · simp only [h2, if_true, accept_iff]
        constructor
        · rintro ⟨q1, q2⟩; exact ⟨q2, .inr ⟨trivial, trivial, q1⟩⟩
        · rintro ⟨q1, ⟨q, _⟩ | ⟨_, _, q2⟩⟩
          · cases q
          · exact ⟨q2, q1⟩
      · simp only [h2, Bool.false_eq_true, if_false]
        constructor
        · intro q; cases q
        · rintro ⟨q1, ⟨q, _⟩ | ⟨_, q, _⟩⟩ <;> cases q
  have main : ∀ obj, (if w.isClass obj then
          match w.call obj b.calls with
          | none => (({ b with calls := b.calls + 1 } : Boot α), none)
          | some inst =>
            if w.offers inst then accept w path (w.getScheduler inst (b.calls + 1)) { b with calls := b.calls + 2 }
            else loadObject w path obj { b with calls := b.calls + 1 }
        else loadObject w path obj b).2 = some s ↔ w.isScheduler s = true ∧ Provides w obj b.calls s := by
    intro obj
    by_cases hc : w.isClass obj = true
    · rw [if_pos hc]
      cases hi : w.call obj b.calls with
      | none =>
        constructor
        · intro q; cases q
        · rintro ⟨_, q⟩
          cases q <;> simp_all
      | some inst =>
        simp only
        by_cases ho : w.offers inst = true
        · rw [if_pos ho, accept_iff]
          constructor
          · rintro ⟨q1, q2⟩; exact ⟨q2, .instance_ hc hi ho q1⟩
          · rintro ⟨q1, q⟩
            refine ⟨?_, q1⟩
            cases q <;> simp_all
        · rw [if_neg ho, hobj]
          have ho' : w.offers inst = false := by simpa using ho
          constructor
          · rintro ⟨q1, ⟨q2, q3⟩ | ⟨q2, q3, q4⟩⟩
            · exact ⟨q1, .classMethod hc hi ho' q2 q3⟩
            · exact ⟨q1, .classCalled hc hi ho' q2 q3 q4⟩
          · rintro ⟨q1, q⟩
            refine ⟨q1, ?_⟩
            cases q <;> simp_all
    · rw [if_neg hc, hobj]
      have hc' : w.isClass obj = false := by simpa using hc
      constructor
      · rintro ⟨q1, ⟨q2, q3⟩ | ⟨q2, q3, q4⟩⟩
        · exact ⟨q1, .method hc' q2 q3⟩
        · exact ⟨q1, .called hc' q2 q3 q4⟩
      · rintro ⟨q1, q⟩
        refine ⟨q1, ?_⟩
        cases q <;> simp_all
  simp only [load, hb]
  cases hsp : splitPath path with
  | none =>
    constructor
    · intro q; cases q
    · rintro ⟨_, m, a, _, hn, _⟩
      rw [(splitPath_iff path m a).2 hn] at hsp; cases hsp
  | some ma =>
    obtain ⟨m, a⟩ := ma
    have hn := (splitPath_iff path m a).1 hsp
    have huniq : ∀ m' a', Names path m' a' → m' = m ∧ a' = a := by
      intro m' a' h
      have := (splitPath_iff path m' a').2 h
      rw [hsp] at this; cases this; exact ⟨rfl, rfl⟩
    simp only
    cases hf : w.find m a with
    | none =>
      constructor
      · intro q; cases q
      · rintro ⟨_, m', a', _, h1, h2, _⟩
        obtain ⟨rfl, rfl⟩ := huniq _ _ h1
        rw [hf] at h2; cases h2
    | some obj =>
      refine (main obj).trans ?_
      constructor
      · rintro ⟨q1, q2⟩; exact ⟨q1, m, a, obj, hn, hf, q2⟩
      · rintro ⟨q1, m', a', obj', h1, h2, h3⟩
        obtain ⟨rfl, rfl⟩ := huniq _ _ h1
        rw [hf] at h2; cases h2
        exact ⟨q1, h3⟩

/-- **C92, counterexample**: a scheduler class given as bootstrap is instantiated twice, and the second instance is used. -/
theorem C92_twice_witness : ∃ w : World Nat, (load w "pkg.mod:Sched" ⟨[], 0⟩).2 = some 11 ∧ (load w "pkg.mod:Sched" ⟨[], 0⟩).1.calls = 2 ∧
    w.isClass 1 = true ∧ w.call 1 0 = some 10 ∧ w.isScheduler 10 = true := by
  refine ⟨⟨fun _ _ => some 1, fun a => a == 1, fun a => a == 1, fun _ => false, fun _ n => some (10 + n), fun _ _ => none,
    fun a => decide (a ≥ 10)⟩, ?_⟩
  decide +kernel

/-- a class with `get_scheduler`, a path without a colon -/
example : let w : World Nat := ⟨fun _ _ => some 1, fun a => a == 1, fun a => a == 1, fun a => a == 2, fun _ _ => some 2, fun _ n => some (10 + n),
      fun a => decide (a ≥ 10)⟩
    (load w "pkg.mod:Spec" ⟨[], 0⟩).2 = some 11 ∧ (load w "pkg.mod" ⟨[], 0⟩).2 = none := by decide +kernel

/-- the module and the attribute of a path with two colons -/
example : let w : World Nat := ⟨fun m a => if m = "pkg.mod" ∧ a = "Spec:x" then some 12 else none, fun _ => false, fun _ => true, fun _ => false,
      fun a _ => some (a + 1), fun _ _ => none, fun a => decide (a ≥ 10)⟩
    (load w "pkg.mod:Spec:x" ⟨[], 0⟩).2 = some 13 := by decide +kernel

end CliStart
end Asyncz
