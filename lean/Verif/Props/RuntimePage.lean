import Verif.Model.RuntimePage
import Verif.Lemmas.Home
import Verif.Props.SchedInfo
import Verif.Props.History
import Verif.Props.ListPages
import Verif.Props.SchedStop
/-!
# C112: the overview, runtime and instances pages
-/
namespace Asyncz
namespace Sched
variable {σ τ φ ρ : Type} {O : StoreOps σ (Body τ φ)}

/-- the states of a scheduler after any history of calls that leave the labels of stored tasks alone -/
inductive LabelledReachable (L : LawfulStore O) (c : Cfg τ) : Timed σ τ φ → Prop
  | init : LabelledReachable L c Timed.init
  | call {x x' : Timed σ τ φ} {e : Env τ} {fuel : Nat} {k : Call σ τ φ} (hx : LabelledReachable L c x) (hk : k.Ok L)
      (hl : k.Keeps L) (h : execTimed O c e fuel k x = some x') : LabelledReachable L c x'

theorem LabelledReachable.timed {L : LawfulStore O} {c : Cfg τ} {x : Timed σ τ φ} (h : LabelledReachable L c x) :
    TimedReachable L c x := by
  induction h with
  | init => exact .init
  | call _ hk _ h ih => exact .call ih hk h

theorem LabelledReachable.labelled {L : LawfulStore O} (hc : ClosesClean L) {c : Cfg τ} {x : Timed σ τ φ}
    (h : LabelledReachable L c x) : Labelled L x.s.stores := by
  induction h with
  | init => intro a st hg; simp [Timed.init, State.init, Dict.get?] at hg
  | call hx hk hl h ih => exact labelled_exec hc hx.timed.reachable.wf ih hl (execTimed_exec h)

theorem count_flatMap_one {α : Type} (k : α → List String) (a : String) (segs : List α) (n : α → Nat)
    (hn : ∀ p ∈ segs, (k p).count a = n p) : (segs.flatMap k).count a = (segs.map n).sum := by
  induction segs with
  | nil => rfl
  | cons p segs ih =>
    rw [List.flatMap_cons, List.count_append, hn p List.mem_cons_self, ih fun q h => hn q (List.mem_cons_of_mem _ h)]
    rfl

theorem sum_one {segs : List (String × List (T τ φ))} (hd : (segs.map (·.1)).Nodup) {a : String} {l : List (T τ φ)}
    (hm : (a, l) ∈ segs) : (segs.map fun p => if p.1 = a then p.2.length else 0).sum = l.length := by
  induction segs with
  | nil => cases hm
  | cons p segs ih =>
    simp only [List.map_cons, List.nodup_cons] at hd
    simp only [List.map_cons, List.sum_cons]
    rcases List.mem_cons.1 hm with h | h
    · subst h
      have hz : ∀ q ∈ segs, (if q.1 = a then q.2.length else 0) = 0 := by
        intro q hq
        rw [if_neg]
        rintro rfl
        exact hd.1 (List.mem_map.2 ⟨q, hq, rfl⟩)
      have : (segs.map fun p => if p.1 = a then p.2.length else 0).sum = 0 := by
        clear ih hm hd
        induction segs with
        | nil => rfl
        | cons q segs ih =>
          simp only [List.map_cons, List.sum_cons]
          rw [hz q List.mem_cons_self, ih fun r h => hz r (List.mem_cons_of_mem _ h)]
      rw [this]; simp
    · have hne : p.1 ≠ a := by
        rintro rfl
        exact hd.1 (List.mem_map.2 ⟨_, h, rfl⟩)
      rw [if_neg hne, ih hd.2 h]; simp

theorem rows_alias (aliases counts : List String) :
    ((componentRows aliases counts).map (·.1)).Perm aliases ∧ ((componentRows aliases counts).map (·.1)).Pairwise (· ≤ ·) ∧
    ∀ p ∈ componentRows aliases counts, p.2 = counts.count p.1 := by
  have h : (componentRows aliases counts).map (·.1) = sortBy (fun a b => decide (a ≤ b)) aliases := by
    unfold componentRows
    rw [List.map_map]
    exact List.map_id _
  refine ⟨by rw [h]; exact sortBy_perm _ _, ?_, ?_⟩
  · rw [h]
    have := sortBy_pairwise (le := fun a b : String => decide (a ≤ b))
      (fun a b c h1 h2 => by simp only [decide_eq_true_eq] at *; exact String.le_trans h1 h2)
      (fun a b => by simpa using String.le_total a b) aliases
    exact this.imp (by simp)
  · intro p hp
    obtain ⟨a, _, rfl⟩ := List.mem_map.1 hp
    rfl

/-- **C112, runtime page.**  There is one row for every registered store and executor, sorted by alias.  Beside a store of a
started scheduler stands the number of tasks in that store; of a stopped one, the number of waiting tasks that are to go
there.  Beside an executor stands the number of tasks that name it. -/
theorem C112_runtime_partial (L : LawfulStore O) (hc : ClosesClean L) (c : Cfg τ) (x : Timed σ τ φ)
    (hx : LabelledReachable L c x) (now : Int) (hne : "" ∉ x.s.stores.keys)
    (hne' : "" ∉ x.s.executors.keys) :
    ((runtimePage O now x).stores.map (·.1)).Perm x.s.stores.keys ∧
    ((runtimePage O now x).stores.map (·.1)).Pairwise (· ≤ ·) ∧
    ((runtimePage O now x).executors.map (·.1)).Perm x.s.executors.keys ∧
    ((runtimePage O now x).executors.map (·.1)).Pairwise (· ≤ ·) ∧
    (x.s.mode ≠ .stopped → ∀ a n, (a, n) ∈ (runtimePage O now x).stores →
      ∃ st, x.s.stores.get? a = some st ∧ n = (O.all st).length) ∧
    (x.s.mode = .stopped → ∀ a n, (a, n) ∈ (runtimePage O now x).stores →
      n = x.s.pending.countP fun p => p.1.body.store = a ∨ (p.1.body.store = "" ∧ a = "default")) ∧
    (∀ a n, (a, n) ∈ (runtimePage O now x).executors →
      n = (getTasks O x.s none).countP fun t => t.body.executor = a ∨ (t.body.executor = "" ∧ a = "default")) := by
  have hcount : ∀ (f : T τ φ → String) (ts : List (T τ φ)) (a : String),
      (ts.map fun t => orDefault (f t)).count a = ts.countP fun t => decide (orDefault (f t) = a) := by
    intro f ts a
    rw [List.count_eq_countP, List.countP_map]
    refine List.countP_congr fun t _ => ?_
    simp [Function.comp]
  have hdef : ∀ s a : String, a ≠ "" → (orDefault s = a ↔ s = a ∨ (s = "" ∧ a = "default")) := by
    intro s a ha
    unfold orDefault
    by_cases h : s = ""
    · rw [if_pos h]; subst h
      constructor
      · intro h; exact .inr ⟨rfl, h.symm⟩
      · rintro (h | h)
        · exact absurd h.symm ha
        · exact h.2.symm
    · rw [if_neg h]
      constructor
      · exact .inl
      · rintro (h' | h')
        · exact h'
        · exact absurd h'.1 h
  have hs := rows_alias x.s.stores.keys ((getTasks O x.s none).map fun t => orDefault t.body.store)
  have he := rows_alias x.s.executors.keys ((getTasks O x.s none).map fun t => orDefault t.body.executor)
  have hL := hx.labelled hc
  have hw := hx.timed.reachable.wf
  refine ⟨hs.1, hs.2.1, he.1, he.2.1, ?_, ?_, ?_⟩
  · intro hm a n hmem
    have hn := hs.2.2 _ hmem
    have hak : a ∈ x.s.stores.keys := hs.1.mem_iff.1 (List.mem_map.2 ⟨_, hmem, rfl⟩)
    have ha : a ≠ "" := fun h => hne (h ▸ hak)
    obtain ⟨segs, ⟨h1, h2, h3⟩, h4⟩ := (C42_get_tasks L c x.s hx.timed.reachable none).2 hm
    simp only at hn
    rw [h4, List.map_flatMap] at hn
    have hlab : ∀ p ∈ segs, ∀ t ∈ p.2, t.body.store = p.1 := by
      intro p hp t ht
      have he := ((h3 p.1 p.2 hp).2 t).1 ht
      obtain ⟨_, st, hg, _, hmap⟩ := look_id L (wf_iff.1 hw) he
      exact hL _ st hg _ _ hmap
    rw [count_flatMap_one _ _ _ (fun p => if p.1 = a then p.2.length else 0)] at hn
    · obtain ⟨⟨a', l⟩, hal, rfl⟩ := List.mem_map.1 ((h2 a).2 ⟨hak, by simp [Admits]⟩)
      rw [sum_one h1 hal] at hn
      obtain ⟨st, hg⟩ : ∃ st, x.s.stores.get? a' = some st := by
        cases hg : x.s.stores.get? a' with
        | none => exact absurd hak ((Dict.get?_eq_none _ _).1 hg)
        | some st => exact ⟨st, rfl⟩
      refine ⟨st, hg, hn.trans ?_⟩
      obtain ⟨q1, q2⟩ := h3 _ _ hal
      obtain ⟨q3, q4⟩ := L.all (hw.inv _ _ hg)
      refine List.Perm.length_eq ((List.perm_ext_iff_of_nodup q1 q3).2 fun t => ?_)
      rw [q2, q4, entry_eq L hw hg]; simp
    · intro p hp
      have hp1 : p.1 ≠ "" := by
        intro h
        exact hne (h ▸ ((h2 p.1).1 (List.mem_map.2 ⟨p, hp, rfl⟩)).1)
      have hall : (p.2.map fun t => orDefault t.body.store) = p.2.map fun _ => p.1 := by
        refine List.map_congr_left fun t ht => ?_
        rw [hlab p hp t ht, orDefault, if_neg hp1]
      rw [hall]
      split
      · rename_i h; rw [h]; simp [List.count_replicate, List.map_const']
      · rename_i h
        rw [List.count_eq_zero]
        intro hm
        obtain ⟨_, _, e⟩ := List.mem_map.1 hm
        exact h e
  · intro hm a n hmem
    have hn := hs.2.2 _ hmem
    have hak : a ∈ x.s.stores.keys := hs.1.mem_iff.1 (List.mem_map.2 ⟨_, hmem, rfl⟩)
    have ha : a ≠ "" := fun h => hne (h ▸ hak)
    simp only at hn
    rw [hn, hcount]
    simp only [getTasks, if_pos hm]
    rw [List.filter_eq_self.2 (by simp), List.countP_map]
    refine List.countP_congr fun p _ => ?_
    simp only [Function.comp, decide_eq_true_eq]
    exact hdef _ _ ha
  · intro a n hmem
    have hn := he.2.2 _ hmem
    simp only at hn
    rw [hn, hcount]
    refine List.countP_congr fun t _ => ?_
    simp only [decide_eq_true_eq]
    exact hdef _ _ fun h => hne' (h ▸ he.1.mem_iff.1 (List.mem_map.2 ⟨_, hmem, rfl⟩))

/-- **C112, instances page.**  The page shows one instance, this scheduler.  It counts as active exactly while the scheduler is
started and as stale otherwise; the counts at the top are those of the rows. -/
theorem C112_instances (L : LawfulStore O) (c : Cfg τ) (x : Timed σ τ φ) (hx : TimedReachable L c x) (now : Int) :
    ∃ active stale, instancesPage O now x = ([(infoAt O now x, active, stale)], 1, if active then 1 else 0, if stale then 1 else 0) ∧
      (active = true ↔ x.s.mode ≠ .stopped) ∧ (stale = true ↔ x.s.mode = .stopped) := by
  have h := (C88_doctor L c x hx now).2.2.2
  refine ⟨decide (x.s.mode ≠ .stopped), decide (x.s.mode = .stopped), ?_, by simp, by simp⟩
  simp only [instancesPage, h]
  cases x.s.mode <;> rfl

theorem head_take_filter {α : Type} (P : α → Bool) (R : α → α → Prop) (hr : ∀ x y, R x y → R x x) :
    ∀ l : List α, l.Pairwise R → ((l.filter P).take 1).head? = none ∧ (∀ r ∈ l, P r = false) ∨
      ∃ r, ((l.filter P).take 1).head? = some r ∧ r ∈ l ∧ P r = true ∧ ∀ r' ∈ l, P r' = true → r' = r ∨ R r r' := by
  intro l
  induction l with
  | nil => intro _; exact .inl ⟨rfl, by simp⟩
  | cons a l ih =>
    intro h
    rw [List.pairwise_cons] at h
    cases ha : P a with
    | true =>
      refine .inr ⟨a, by simp [List.filter_cons, ha], by simp, ha, ?_⟩
      intro r' hr' _
      rcases List.mem_cons.1 hr' with e | e
      · exact .inl e
      · exact .inr (h.1 r' e)
    | false =>
      have hf : (a :: l).filter P = l.filter P := by simp [List.filter_cons, ha]
      rw [hf]
      rcases ih h.2 with ⟨q1, q2⟩ | ⟨r, q1, q2, q3, q4⟩
      · refine .inl ⟨q1, ?_⟩
        intro r hr'
        rcases List.mem_cons.1 hr' with e | e
        · rw [e]; exact ha
        · exact q2 r e
      · refine .inr ⟨r, q1, List.mem_cons_of_mem _ q2, q3, ?_⟩
        intro r' hr' hp
        rcases List.mem_cons.1 hr' with e | e
        · rw [e] at hp; rw [ha] at hp; cases hp
        · exact q4 r' e hp

open Classical in
/-- **C112, overview page.**  The page shows the first ten tasks.  Beside a task stands a run of a task with that id such that
no run of a task with that id was seen later, or nothing if there is no such run in the history.  Below stand the six runs seen
last. -/
theorem C112_home_partial (rid : Hist.Key → Listing.Text) (iso : Int → Listing.Text) (m : Nat) (ops : List Hist.Op)
    (hc : Hist.NoCollision rid iso ops) {h : Hist.State} (hs : Hist.runAll rid iso m ops = some h)
    (S : Dash.Str) (hS : S.lower (S.strip []) = []) (now : Int) (infos : List (Listing.Info ρ)) :
    ((homePage S now h infos).1.map (·.1) = infos.take 10) ∧
    (∀ i last, (i, last) ∈ (homePage S now h infos).1 → ∀ tid, i.id = some tid → tid ≠ [] →
      match last with
      | none => ∀ r ∈ h.records.values, r.task ≠ tid
      | some r => r ∈ h.records.values ∧ r.task = tid ∧ ∀ r' ∈ h.records.values, r'.task = tid →
          ∃ t u, Hist.lastSeen r = some t ∧ Hist.lastSeen r' = some u ∧ u ≤ t) ∧
    (∃ order : List Hist.Rec, order.Perm h.records.values ∧
      order.Pairwise (fun x y => ∃ t u, Hist.lastSeen x = some t ∧ Hist.lastSeen y = some u ∧ u ≤ t) ∧
      (homePage S now h infos).2 = order.take 6) := by
  refine ⟨?_, ?_, ?_⟩
  · simp only [homePage, List.map_map]
    exact List.map_id _
  · intro i last hm tid hid htid
    obtain ⟨i', _, e⟩ := List.mem_map.1 hm
    cases e
    obtain ⟨order, h1, h2, h3⟩ := Hist.history_query rid iso m ops hc hs S now ⟨i.id, none, none, none, 1⟩ (Int.le_refl 1)
    have hP : ∀ r : Hist.Rec, decide (Hist.Matches S ⟨i.id, none, none, none, 1⟩ r) = decide (r.task = tid) := by
      intro r
      have : Hist.Matches S ⟨i.id, none, none, none, 1⟩ r ↔ r.task = tid := by
        unfold Hist.Matches
        simp only [Option.getD_none, hS, ne_eq, not_true_eq_false, false_imp_iff, and_true, hid]
        constructor
        · intro q
          have := q (by unfold Dash.Given; simp [htid])
          simpa using this
        · intro q _; rw [q]
      simp [this]
    have hP' : (fun r : Hist.Rec => decide (Hist.Matches S ⟨i.id, none, none, none, 1⟩ r)) = fun r => decide (r.task = tid) :=
      funext hP
    rw [hP'] at h3
    rw [h3]
    have hd := Hist.history_dated rid iso m ops hc hs
    rcases head_take_filter (fun r : Hist.Rec => decide (r.task = tid)) _ (fun x y ⟨t, u, q1, q2, q3⟩ => ⟨t, t, q1, q1, Int.le_refl _⟩)
      order h2 with ⟨q1, q2⟩ | ⟨r, q1, q2, q3, q4⟩
    · have q1' : (List.take (1 : Int).toNat (order.filter fun r : Hist.Rec => decide (r.task = tid))).head? = none := q1
      rw [q1']
      intro r hr
      have := q2 r (h1.mem_iff.2 hr)
      simpa using this
    · have q1' : (List.take (1 : Int).toNat (order.filter fun r : Hist.Rec => decide (r.task = tid))).head? = some r := q1
      rw [q1']
      refine ⟨h1.mem_iff.1 q2, by simpa using q3, ?_⟩
      intro r' hr' ht'
      rcases q4 r' (h1.mem_iff.2 hr') (by simpa using ht') with e | e
      · subst e
        have hsub := (hd r' hr').1
        have : ∃ t, Hist.lastSeen r' = some t := by
          unfold Hist.lastSeen
          cases r'.finishedAt with
          | some t => exact ⟨t, rfl⟩
          | none =>
            cases hq : r'.submittedAt with
            | none => exact absurd hq hsub
            | some t => exact ⟨t, rfl⟩
        obtain ⟨t, ht⟩ := this
        exact ⟨t, t, ht, ht, Int.le_refl _⟩
      · exact e
  · obtain ⟨order, h1, h2, h3⟩ := Hist.history_query rid iso m ops hc hs S now ⟨none, none, none, none, 6⟩ (by decide)
    refine ⟨order, h1, h2, ?_⟩
    simp only [homePage]
    rw [h3, List.filter_eq_self.2]
    · rfl
    · intro r _
      rw [decide_eq_true_eq]
      have hk : ∀ P : Prop, S.lower (S.strip ((none : Option Listing.Text).getD [])) ≠ [] → P := fun P q => absurd hS q
      exact ⟨fun q => absurd q (by simp [Dash.Given]), hk _, hk _, hk _⟩

/-! ## The memory store meets the assumptions; examples and where the pages are wrong -/

theorem memory_closesClean : ClosesClean (Memory.lawful (β := Body τ φ)) :=
  fun st hi i t h => close_sub_memory st i t hi h

theorem execTimeds_labelled {ks : List (Int × Call MS Int Unit)} (hk : ∀ k ∈ ks, k.2.Ok Memory.lawful ∧ k.2.Keeps Memory.lawful)
    {x x' : Timed MS Int Unit} (hx : LabelledReachable Memory.lawful exCfg x) (h : execTimeds ks x = some x') :
    LabelledReachable Memory.lawful exCfg x' := by
  induction ks generalizing x with
  | nil => cases h; exact hx
  | cons k ks ih =>
    obtain ⟨now, k⟩ := k
    simp only [execTimeds] at h
    obtain ⟨x1, h1, h2⟩ := Option.bind_eq_some_iff.1 h
    exact ih (fun k h => hk k (by simp [h])) (.call hx (hk (now, k) (by simp)).1 (hk (now, k) (by simp)).2 h1) h2

/-- two stores and two executors; three tasks, one of which names an executor that is not there -/
def exPageHistory : List (Int × Call MS Int Unit) :=
  [(1, .addStore Memory.init "s2"), (1, .addExecutor 1 "pool"),
   (2, .addTask ⟨"a", none, { exBody 30 "default" "default" false 3 with pending := true }⟩ none false),
   (2, .addTask ⟨"b", none, { exBody 30 "pool" "s2" false 3 with pending := true }⟩ none false),
   (7, .start false),
   (8, .addTask ⟨"c", none, { exBody 30 "gone" "s2" false 3 with pending := true }⟩ none false)]

set_option synthInstance.maxSize 1000 in
/-- The hypotheses of `C112_runtime_partial` are met, before and after the start.  A task whose executor is not there is in the
row of its store and in no row of an executor. -/
theorem C112_runtime_example :
    (∃ x : Timed MS Int Unit, LabelledReachable Memory.lawful exCfg x ∧ "" ∉ x.s.stores.keys ∧ "" ∉ x.s.executors.keys ∧
      (runtimePage Memory.ops 5 x).stores = [("s2", 1)] ∧ (runtimePage Memory.ops 5 x).executors = [("pool", 1)] ∧
      (runtimePage Memory.ops 5 x).info.tasks = 2) ∧
    (∃ x : Timed MS Int Unit, LabelledReachable Memory.lawful exCfg x ∧ "" ∉ x.s.stores.keys ∧ "" ∉ x.s.executors.keys ∧
      (runtimePage Memory.ops 9 x).stores = [("default", 1), ("s2", 2)] ∧
      (runtimePage Memory.ops 9 x).executors = [("default", 1), ("pool", 1)] ∧
      (runtimePage Memory.ops 9 x).info.tasks = 3) := by
  have mk : ∀ (ks : List (Int × Call MS Int Unit)) (now : Int) (a b : List (String × Nat)) (n : Nat),
      (∀ k ∈ ks, k.2.Ok Memory.lawful ∧ k.2.Keeps Memory.lawful) →
      (execTimeds ks Timed.init).map (fun x => (decide ("" ∈ x.s.stores.keys), decide ("" ∈ x.s.executors.keys),
        (runtimePage Memory.ops now x).stores, (runtimePage Memory.ops now x).executors,
        (runtimePage Memory.ops now x).info.tasks)) = some (false, false, a, b, n) →
      ∃ x : Timed MS Int Unit, LabelledReachable Memory.lawful exCfg x ∧ "" ∉ x.s.stores.keys ∧ "" ∉ x.s.executors.keys ∧
        (runtimePage Memory.ops now x).stores = a ∧ (runtimePage Memory.ops now x).executors = b ∧
        (runtimePage Memory.ops now x).info.tasks = n := by
    intro ks now a b n hk h
    obtain ⟨x, h1, h2⟩ := Option.map_eq_some_iff.1 h
    simp only [Prod.mk.injEq, decide_eq_false_iff_not] at h2
    exact ⟨x, execTimeds_labelled hk .init h1, h2⟩
  have hk : ∀ k ∈ exPageHistory, k.2.Ok Memory.lawful ∧ k.2.Keeps Memory.lawful := by
    intro k hk
    simp only [exPageHistory, List.mem_cons, List.not_mem_nil, or_false] at hk
    rcases hk with rfl | rfl | rfl | rfl | rfl | rfl <;>
      first
      | exact ⟨trivial, trivial⟩
      | refine ⟨?_, fun i t h => by
          exact absurd h (by simp [Memory.lawful, Memory.toMap, Memory.lookupTask, Memory.init, Dict.get?])⟩
        exact (Memory.lawful (β := Body Int Unit)).init_inv
  exact ⟨mk (exPageHistory.take 4) 5 _ _ _ (fun k h => hk k (List.mem_of_mem_take h)) (by decide +kernel),
    mk exPageHistory 9 _ _ _ hk (by decide +kernel)⟩

/-- **Where the runtime page is wrong.**  After `update_task("b", store_alias="default")` the task `b` is still in the store
`s2`, which holds two tasks; the page says that `default` holds two and `s2` one. -/
theorem runtime_relabel_witness :
    (execTimeds (exPageHistory ++ [(9, .update "b" none fun t => some { t with body := { t.body with store := "default" } })])
      Timed.init).map (fun x => ((runtimePage Memory.ops 9 x).stores,
        (x.s.stores.map fun p => (p.1, (Memory.ops.all p.2).map (·.id))))) =
    some ([("default", 2), ("s2", 1)], [("s2", ["b", "c"]), ("default", ["a"])]) := by decide +kernel

set_option synthInstance.maxSize 1000 in
/-- The hypotheses of `C112_home_partial` are met; and **where the overview is wrong**: two tasks `a` in different stores are
shown with the same last run, that of the one that ran last. -/
theorem home_shared_run_witness :
    Hist.NoCollision (Hist.runIdOf id) Hist.exIso [Hist.exDone "a" (some "s") 1 5, Hist.exDone "a" (some "default") 1 6] ∧
    ((Hist.runAll (Hist.runIdOf id) Hist.exIso 10 [Hist.exDone "a" (some "s") 1 5, Hist.exDone "a" (some "default") 1 6]).map
      fun h => (homePage ListPages.ascii.toStr 9 h
        [{ Listing.exInfo "a" "n" "e" none with store := some "s".toList },
         { Listing.exInfo "a" "n" "e" none with store := some "default".toList }, Listing.exInfo "b" "n" "e" none]).1.map
        fun p => (p.1.store, p.2.map fun r => (r.store, r.finishedAt))) =
      some [(some "s".toList, some (some "default".toList, some 6)), (some "default".toList, some (some "default".toList, some 6)),
        ((Listing.exInfo "b" "n" "e" none).store, none)] := by
  refine ⟨Hist.runId_clean _ _ _ ?_ (fun _ _ _ _ h => h), by decide +kernel⟩
  intro k hk
  simp only [Hist.keysOf, Hist.reports, Hist.exDone, List.flatMap_cons, List.flatMap_nil, List.map_cons,
    List.map_nil, List.cons_append, List.nil_append, List.mem_cons, List.not_mem_nil, or_false] at hk
  rcases hk with rfl | rfl <;> simp [Hist.Clean, Hist.runKey, Hist.normalize]

/-- an instance before and after the start -/
example : (execTimeds exPageHistory Timed.init).map (fun x => (instancesPage Memory.ops 9 x).2) = some (1, 1, 0) ∧
    (instancesPage Memory.ops 9 (Timed.init : Timed MS Int Unit)).2 = (1, 0, 1) := by decide +kernel

end Sched
end Asyncz
