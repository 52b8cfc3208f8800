import Verif.Model.Timeline
import Verif.Props.SchedRun
import Verif.Props.Listing
/-!
# C122: the timeline
-/
namespace Asyncz
namespace Timeline
open Sched
variable {σ τ φ ρ : Type} {O : StoreOps σ (Body τ φ)}

/-! ## Specification -/

/-- `l` are successive times of the trigger, beginning with `first`; `after` is the one that follows them. -/
inductive Runs (e : Env τ) (g : τ) : Option Int → List Int → Option Int → Prop
  | nil (x : Option Int) : Runs e g x [] x
  | cons {r : Int} {x y : Option Int} {l : List Int} (h : e.next 2 g (some r) r = .ok x) (hr : Runs e g x l y) :
      Runs e g (some r) (r :: l) y

/-- `l` are the next `k` runs of the task, or all there are (`done`): from its next run time on or, if it has none, from
the first time its trigger gives now. -/
def Upcoming (e : Env τ) (t : T τ φ) (k : Int) (l : List Int) (done : Bool) : Prop :=
  ∃ first after, (t.nrt ≠ none → first = t.nrt) ∧
    (t.nrt = none → e.next 2 t.body.trigger none e.now = .ok first) ∧
    Runs e t.body.trigger first l after ∧ (l.length : Int) ≤ k ∧ (after ≠ none → (l.length : Int) = k) ∧
    (done = true ↔ after = none)

/-- the trigger of the task can be asked for its first time now and for the time after any run -/
def Answers (e : Env τ) (t : T τ φ) : Prop :=
  (∃ x, e.next 2 t.body.trigger none e.now = .ok x) ∧ ∀ r, ∃ x, e.next 2 t.body.trigger (some r) r = .ok x

/-! ## Previews -/

theorem previewLoop_iff {e : Env τ} {g : τ} (n : Nat) (first : Option Int) (l : List Int) (b : Bool) :
    previewLoop e g n first = .ok (l, b) ↔
      ∃ after, Runs e g first l after ∧ l.length ≤ n ∧ (after ≠ none → l.length = n) ∧ (b = true ↔ after = none) := by
  induction n generalizing first l b with
  | zero =>
    cases first with
    | none =>
      simp only [previewLoop, Except.ok.injEq, Prod.mk.injEq]
      constructor
      · rintro ⟨rfl, rfl⟩; exact ⟨none, .nil _, by simp, by simp, by simp⟩
      · rintro ⟨after, h1, h2, h3, h4⟩; cases h1; exact ⟨rfl, by simp [h4]⟩
    | some r =>
      simp only [previewLoop, Except.ok.injEq, Prod.mk.injEq]
      constructor
      · rintro ⟨rfl, rfl⟩; exact ⟨some r, .nil _, by simp, by simp, by simp⟩
      · rintro ⟨after, h1, h2, h3, h4⟩
        cases h1 with
        | nil => exact ⟨rfl, by cases b <;> simp_all⟩
        | cons => simp at h2
  | succ n ih =>
    cases first with
    | none =>
      simp only [previewLoop, Except.ok.injEq, Prod.mk.injEq]
      constructor
      · rintro ⟨rfl, rfl⟩; exact ⟨none, .nil _, by simp, by simp, by simp⟩
      · rintro ⟨after, h1, h2, h3, h4⟩; cases h1; exact ⟨rfl, by simp [h4]⟩
    | some r =>
      constructor
      · intro h
        simp only [previewLoop] at h
        cases hx : e.next 2 g (some r) r with
        | error x => rw [hx] at h; cases h
        | ok x =>
          simp only [hx] at h
          cases hl : previewLoop e g n x with
          | error y => rw [hl] at h; cases h
          | ok p =>
            obtain ⟨l', b'⟩ := p
            simp only [hl, Except.ok.injEq, Prod.mk.injEq] at h
            obtain ⟨rfl, rfl⟩ := h
            obtain ⟨after, h1, h2, h3, h4⟩ := (ih x l' b').1 hl
            exact ⟨after, .cons hx h1, by simp; omega, fun h => by have := h3 h; simp; omega, h4⟩
      · rintro ⟨after, h1, h2, h3, h4⟩
        cases h1 with
        | nil => have := h3 (by simp); simp at this
        | cons hx hr =>
          rename_i x l'
          have := (ih x l' b).2 ⟨after, hr, by simp at h2; omega, fun h => by have := h3 h; simp at this; omega, h4⟩
          simp only [previewLoop, hx, this]

theorem preview_iff (L : LawfulStore O) (c : Cfg τ) (e : Env τ) (s : State σ τ φ) (hs : Reachable L c s) (id : String)
    {k : Int} (h1 : 1 ≤ k) (h2 : k ≤ 50) (l : List Int) (b : Bool) :
    preview O e s id none k = .ok (some (l, b)) ↔ ∃ t loc, Located O s id none t loc ∧ Upcoming e t k l b := by
  have hl := C38_lookup L c s hs id none
  have key : ∀ t : T τ φ, (∃ first, firstPreview e t = .ok first ∧ previewLoop e t.body.trigger k.toNat first = .ok (l, b)) ↔
      Upcoming e t k l b := by
    intro t
    unfold Upcoming
    constructor
    · rintro ⟨first, hf, hp⟩
      obtain ⟨after, q1, q2, q3, q4⟩ := (previewLoop_iff _ _ _ _).1 hp
      refine ⟨first, after, ?_, ?_, q1, by omega, fun h => by have := q3 h; omega, q4⟩
      · intro hn
        cases ht : t.nrt with
        | none => exact absurd ht hn
        | some n => simp only [firstPreview, ht, Except.ok.injEq] at hf; exact hf.symm
      · intro hn; simpa only [firstPreview, hn] using hf
    · rintro ⟨first, after, q0, q0', q1, q2, q3, q4⟩
      refine ⟨first, ?_, (previewLoop_iff _ _ _ _).2 ⟨after, q1, by omega, fun h => by have := q3 h; omega, q4⟩⟩
      cases ht : t.nrt with
      | none => simp only [firstPreview, ht]; exact q0' ht
      | some n => simp only [firstPreview, ht]; rw [q0 (by simp [ht]), ht]
  simp only [preview, if_pos (And.intro h1 h2)]
  constructor
  · intro h
    cases hk : lookupTask O s id none with
    | none => simp [hk] at h
    | some p =>
      obtain ⟨t, loc⟩ := p
      simp only [hk] at h
      refine ⟨t, loc, (hl.2 t loc).1 hk, (key t).1 ?_⟩
      cases hf : firstPreview e t with
      | error x => simp [hf] at h
      | ok first =>
        simp only [hf] at h
        refine ⟨first, rfl, ?_⟩
        cases hp : previewLoop e t.body.trigger k.toNat first with
        | error x => simp [hp] at h
        | ok r => simp only [hp, Except.ok.injEq, Option.some.injEq] at h; rw [h]
  · rintro ⟨t, loc, hloc, hu⟩
    obtain ⟨first, hf, hp⟩ := (key t).2 hu
    simp only [(hl.2 t loc).2 hloc, hf, hp]

/-! ## The list of the tasks -/

theorem insertBy_map {α β : Type} (f : α → β) (le : β → β → Bool) (a : α) (l : List α) :
    insertBy le (f a) (l.map f) = (insertBy (fun x y => le (f x) (f y)) a l).map f := by
  induction l with
  | nil => rfl
  | cons b l ih =>
    simp only [List.map_cons, insertBy]
    split
    · rfl
    · simp only [List.map_cons, ih]

theorem sortBy_map {α β : Type} (f : α → β) (le : β → β → Bool) (l : List α) :
    sortBy le (l.map f) = (sortBy (fun x y => le (f x) (f y)) l).map f := by
  induction l with
  | nil => rfl
  | cons a l ih => simp only [List.map_cons, sortBy, ih, insertBy_map]

/-- the timeline lists every task -/
theorem infos_all (S : Listing.Str) (snap : T τ φ → Listing.Info ρ) (l : List (T τ φ)) :
    ∃ l' : List (T τ φ), l'.Perm l ∧ Listing.getTaskInfos S query (l.map snap) = some (l'.map snap) := by
  have h : Listing.getTaskInfos S query (l.map snap) = some (Listing.sortInfos S .nextRunTime false (l.map snap)) := by
    simp only [Listing.getTaskInfos, query, Listing.resolveState, Listing.SortBy.parse, Listing.filterState,
      Listing.filterExecutor, Listing.filterTrigger, Listing.filterQuery, Listing.orEmpty, Option.getD_none, if_true]
  rw [h]
  unfold Listing.sortInfos
  rw [sortBy_map]
  exact ⟨_, sortBy_perm _ _, rfl⟩

/-- a task that is listed is found by its id -/
theorem listed_located (L : LawfulStore O) (c : Cfg τ) (s : State σ τ φ) (hs : Reachable L c s) (t : T τ φ)
    (ht : t ∈ getTasks O s none) : ∃ t' loc, Located O s t.id none t' loc ∧ t' ∈ getTasks O s none := by
  have hl := C38_lookup L c s hs t.id none
  have hfound : ¬ Absent O s t.id none := by
    intro ha
    by_cases hm : s.mode = .stopped
    · simp only [getTasks, if_pos hm, List.mem_filter, List.mem_map] at ht
      obtain ⟨⟨p, hp, rfl⟩, _⟩ := ht
      exact ha.1 hm p hp ⟨rfl, admits_iff.1 (.inl rfl)⟩
    · obtain ⟨segs, ⟨_, h2, h3⟩, h4⟩ := (C42_get_tasks L c s hs none).2 hm
      rw [h4] at ht
      obtain ⟨⟨a, l⟩, hal, htl⟩ := List.mem_flatMap.1 ht
      have := ((h3 a l hal).2 t).1 htl
      rw [ha.2 hm a (admits_iff.1 (.inl rfl))] at this
      cases this
  cases hk : lookupTask O s t.id none with
  | none => exact absurd (hl.1.1 hk) hfound
  | some p =>
    obtain ⟨t', loc⟩ := p
    have hloc := (hl.2 t' loc).1 hk
    refine ⟨t', loc, hloc, ?_⟩
    cases hloc with
    | pending hm hp hn hf =>
      rename_i pre post flags
      simp only [getTasks, if_pos hm, List.mem_filter, List.mem_map]
      exact ⟨⟨(t', flags), by rw [hp]; simp, rfl⟩, by simp⟩
    | stored hm ha he hkeys hf =>
      rename_i pre post a
      obtain ⟨segs, ⟨_, h2, h3⟩, h4⟩ := (C42_get_tasks L c s hs none).2 hm
      rw [h4]
      obtain ⟨⟨a', l⟩, hal, rfl⟩ := List.mem_map.1 ((h2 a).2 ⟨by rw [hkeys]; simp, ha⟩)
      have hid : t'.id = t.id := (look_id L (wf_iff.1 hs.wf) he).1
      exact List.mem_flatMap.2 ⟨_, hal, ((h3 _ l hal).2 t').2 (by rw [hid]; exact he)⟩

/-! ## The loop -/

/-- one task of the timeline: the listed task, the task that is previewed, its times and whether there are no more -/
structure Entry (τ φ : Type) where
  task : T τ φ
  previewed : T τ φ
  times : List Int
  done : Bool

/-- the rows of a plan, in the order of the tasks -/
def rowsOf (snap : T τ φ → Listing.Info ρ) (plan : List (Entry τ φ)) : List (Row ρ) :=
  plan.flatMap fun p => p.times.map (Row.mk (snap p.task))

theorem gather_plan (L : LawfulStore O) (c : Cfg τ) (e : Env τ) (s : State σ τ φ) (hs : Reachable L c s)
    (snap : T τ φ → Listing.Info ρ) (hid : ∀ t, (snap t).id = some t.id.toList) {k : Int} (h1 : 1 ≤ k) (h2 : k ≤ 50)
    (l : List (T τ φ)) (hl : ∀ t ∈ l, t ∈ getTasks O s none) (rows : List (Row ρ)) (n : Nat)
    (h : gather O e s k (l.map snap) = .ok (rows, n)) :
    ∃ plan : List (Entry τ φ), plan.map (·.task) = l ∧
      (∀ p ∈ plan, (∃ loc, Located O s p.task.id none p.previewed loc) ∧ Upcoming e p.previewed k p.times p.done) ∧
      rows = rowsOf snap plan ∧ n = (plan.filter (·.done)).length := by
  induction l generalizing rows n with
  | nil => cases h; exact ⟨[], rfl, by simp, rfl, rfl⟩
  | cons t l ih =>
    obtain ⟨t', loc, hloc, _⟩ := listed_located L c s hs t (hl t (by simp))
    simp only [List.map_cons, gather, hid, String.ofList_toList] at h
    cases hp : preview O e s t.id none k with
    | error x => simp [hp] at h
    | ok o =>
      cases o with
      | none =>
        have hl := (C38_lookup L c s hs t.id none).2 t' loc
        simp only [preview, if_pos (And.intro h1 h2), hl.2 hloc] at hp
        cases hf : firstPreview e t' with
        | error x => simp [hf] at hp
        | ok f =>
          simp only [hf] at hp
          cases hq : previewLoop e t'.body.trigger k.toNat f <;> simp [hq] at hp
      | some r =>
        obtain ⟨times, done⟩ := r
        simp only [hp] at h
        cases hg : gather O e s k (l.map snap) with
        | error x => simp [hg] at h
        | ok q =>
          obtain ⟨rows', n'⟩ := q
          simp only [hg, Except.ok.injEq, Prod.mk.injEq] at h
          obtain ⟨rfl, rfl⟩ := h
          obtain ⟨plan, q1, q2, q3, q4⟩ := ih (fun x hx => hl x (by simp [hx])) rows' n' hg
          obtain ⟨u, loc', hu, hup⟩ := (preview_iff L c e s hs t.id h1 h2 times done).1 hp
          refine ⟨⟨t, u, times, done⟩ :: plan, by simp [q1], ?_, by simp [rowsOf, q3], ?_⟩
          · intro p hp'
            rcases List.mem_cons.1 hp' with rfl | hp'
            · exact ⟨⟨loc', hu⟩, hup⟩
            · exact q2 p hp'
          · cases done <;> simp [q4]

theorem gather_ok (L : LawfulStore O) (c : Cfg τ) (e : Env τ) (s : State σ τ φ) (hs : Reachable L c s)
    (snap : T τ φ → Listing.Info ρ) (hid : ∀ t, (snap t).id = some t.id.toList) {k : Int} (h1 : 1 ≤ k) (h2 : k ≤ 50)
    (hans : ∀ t ∈ getTasks O s none, Answers e t)
    (l : List (T τ φ)) (hl : ∀ t ∈ l, t ∈ getTasks O s none) :
    ∃ r, gather O e s k (l.map snap) = .ok r := by
  induction l with
  | nil => exact ⟨_, rfl⟩
  | cons t l ih =>
    obtain ⟨t', loc, hloc, hmem⟩ := listed_located L c s hs t (hl t (by simp))
    obtain ⟨⟨x0, hx0⟩, hx⟩ := hans t' hmem
    obtain ⟨⟨rows, n⟩, hr⟩ := ih fun x hx => hl x (by simp [hx])
    have hloop : ∀ n f, ∃ r, previewLoop e t'.body.trigger n f = .ok r := by
      intro n
      induction n with
      | zero => intro f; cases f <;> exact ⟨_, rfl⟩
      | succ n ihn =>
        intro f
        cases f with
        | none => exact ⟨_, rfl⟩
        | some r =>
          obtain ⟨x, hx⟩ := hx r
          obtain ⟨q, hq⟩ := ihn x
          exact ⟨_, by simp only [previewLoop, hx, hq]; rfl⟩
    have hfirst : ∃ f, firstPreview e t' = .ok f := by
      cases ht : t'.nrt with
      | none => exact ⟨x0, by simp only [firstPreview, ht, hx0]⟩
      | some m => exact ⟨_, by simp only [firstPreview, ht]; rfl⟩
    obtain ⟨f, hf⟩ := hfirst
    obtain ⟨⟨times, done⟩, hq⟩ := hloop k.toNat f
    have hp : preview O e s t.id none k = .ok (some (times, done)) := by
      simp only [preview, if_pos (And.intro h1 h2), ((C38_lookup L c s hs t.id none).2 t' loc).2 hloc, hf, hq]
    exact ⟨_, by simp only [List.map_cons, gather, hid, String.ofList_toList, hp, hr]; rfl⟩

/-! ## C122 -/

/-- `v` shows the runs `all`: the earliest `limit` of them, in the order of time. -/
def Shows (all : List (Row ρ)) (limit : Nat) (v : View ρ) : Prop :=
  v.rows.Pairwise (fun a b => a.time ≤ b.time) ∧
  (∃ rest, (v.rows ++ rest).Perm all ∧ ∀ a ∈ v.rows, ∀ b ∈ rest, a.time ≤ b.time) ∧
  v.rows.length = min limit all.length ∧ v.total = all.length

/-- **C122.** What the timeline shows: there is one entry for every listed task, the times of an entry are the next
`per_task` runs of a task with that id – the one in the first store that has the id –, and the rows are the earliest
`limit` of all these, in the order of time, under the snapshots of the listed tasks; the counts are those of the
runs, of the tasks and of the tasks without further runs. -/
theorem C122_timeline (L : LawfulStore O) (c : Cfg τ) (e : Env τ) (S : Listing.Str) (s : State σ τ φ)
    (hs : Reachable L c s) (snap : T τ φ → Listing.Info ρ) (hid : ∀ t, (snap t).id = some t.id.toList) {k : Int}
    (h1 : 1 ≤ k) (h2 : k ≤ 50) (limit : Nat) (v : View ρ) (h : timeline O e S snap k limit s = .ok v) :
    ∃ plan : List (Entry τ φ), (plan.map (·.task)).Perm (getTasks O s none) ∧
      (∀ p ∈ plan, (∃ loc, Located O s p.task.id none p.previewed loc) ∧ Upcoming e p.previewed k p.times p.done) ∧
      Shows (rowsOf snap plan) limit v ∧ v.tasks = (getTasks O s none).length ∧
      v.exhausted = (plan.filter (·.done)).length := by
  obtain ⟨l', hperm, hl'⟩ := infos_all S snap (getTasks O s none)
  simp only [timeline, hl'] at h
  cases hg : gather O e s k (l'.map snap) with
  | error x => simp [hg] at h
  | ok q =>
    obtain ⟨rows, n⟩ := q
    simp only [hg, Except.ok.injEq] at h
    obtain ⟨plan, q1, q2, rfl, rfl⟩ := gather_plan L c e s hs snap hid h1 h2 l' (fun t ht => hperm.mem_iff.1 ht) rows n hg
    refine ⟨plan, by rw [q1]; exact hperm, q2, ?_, ?_, ?_⟩
    · subst h
      generalize rowsOf snap plan = all
      have hs := sortBy_pairwise (le := fun a b : Row ρ => decide (a.time ≤ b.time))
        (fun a b c h1 h2 => by simp at *; omega) (fun a b => by simp; omega) all
      have hs' : (sortBy (fun a b : Row ρ => decide (a.time ≤ b.time)) all).Pairwise fun a b => a.time ≤ b.time :=
        hs.imp fun h => by simpa using h
      have hp := sortBy_perm (fun a b : Row ρ => decide (a.time ≤ b.time)) all
      generalize hm : sortBy (fun a b : Row ρ => decide (a.time ≤ b.time)) all = m at *
      refine ⟨?_, ⟨m.drop limit, ?_, ?_⟩, ?_, rfl⟩
      · exact hs'.sublist (List.take_sublist _ _)
      · show (m.take limit ++ m.drop limit).Perm all
        rw [List.take_append_drop]; exact hp
      · rw [← List.take_append_drop limit m, List.pairwise_append] at hs'
        exact hs'.2.2
      · show (m.take limit).length = _
        rw [List.length_take, hp.length_eq]
    · subst h; simp [hperm.length_eq]
    · subst h; rfl

/-- **C122, in part.** If no two tasks of the scheduler have the same id, the times shown for a task are its own next
`per_task` runs, or all it has. -/
theorem C122_own_partial (L : LawfulStore O) (c : Cfg τ) (e : Env τ) (S : Listing.Str) (s : State σ τ φ)
    (hs : Reachable L c s) (snap : T τ φ → Listing.Info ρ) (hid : ∀ t, (snap t).id = some t.id.toList) {k : Int}
    (h1 : 1 ≤ k) (h2 : k ≤ 50) (limit : Nat) (v : View ρ) (h : timeline O e S snap k limit s = .ok v)
    (huniq : ∀ t ∈ getTasks O s none, ∀ u ∈ getTasks O s none, t.id = u.id → t = u) :
    ∃ plan : List (T τ φ × List Int × Bool), (plan.map (·.1)).Perm (getTasks O s none) ∧
      (∀ p ∈ plan, Upcoming e p.1 k p.2.1 p.2.2) ∧
      Shows (plan.flatMap fun p => p.2.1.map (Row.mk (snap p.1))) limit v ∧ v.tasks = plan.length ∧
      v.exhausted = (plan.filter (·.2.2)).length := by
  obtain ⟨plan, q1, q2, q3, q4, q5⟩ := C122_timeline L c e S s hs snap hid h1 h2 limit v h
  have hown : ∀ p ∈ plan, p.previewed = p.task := by
    intro p hp
    obtain ⟨⟨loc, hloc⟩, _⟩ := q2 p hp
    have hmem : p.task ∈ getTasks O s none := q1.mem_iff.1 (List.mem_map.2 ⟨p, hp, rfl⟩)
    obtain ⟨u, loc', hu, humem⟩ := listed_located L c s hs p.task hmem
    have hl := (C38_lookup L c s hs p.task.id none).2
    have := ((hl _ _).2 hloc).symm.trans ((hl _ _).2 hu)
    injection this with this
    injection this with e1 e2
    have hidu : u.id = p.task.id := by
      cases hu with
      | pending hm hp hn hf => exact hn.1
      | stored hm ha he hk hf => exact (look_id L (wf_iff.1 hs.wf) he).1
    rw [e1]
    exact huniq u humem p.task hmem hidu
  refine ⟨plan.map fun p => (p.task, p.times, p.done), ?_, ?_, ?_, ?_, ?_⟩
  · simpa [List.map_map, Function.comp_def] using q1
  · intro p hp
    obtain ⟨q, hq, rfl⟩ := List.mem_map.1 hp
    have := (q2 q hq).2
    rw [hown q hq] at this
    exact this
  · have : ((plan.map fun p => (p.task, p.times, p.done)).flatMap fun p => p.2.1.map (Row.mk (snap p.1))) = rowsOf snap plan := by
      simp [rowsOf, List.flatMap_map]
    rw [this]; exact q3
  · rw [q4, List.length_map, ← q1.length_eq, List.length_map]
  · rw [q5, List.filter_map, List.length_map]; rfl

/-- **C122.** The timeline is shown whatever the tasks, if their triggers can be asked. -/
theorem C122_answers (L : LawfulStore O) (c : Cfg τ) (e : Env τ) (S : Listing.Str) (s : State σ τ φ)
    (hs : Reachable L c s) (snap : T τ φ → Listing.Info ρ) (hid : ∀ t, (snap t).id = some t.id.toList) {k : Int}
    (h1 : 1 ≤ k) (h2 : k ≤ 50) (limit : Nat) (hans : ∀ t ∈ getTasks O s none, Answers e t) :
    ∃ v, timeline O e S snap k limit s = .ok v := by
  obtain ⟨l', hperm, hl'⟩ := infos_all S snap (getTasks O s none)
  obtain ⟨⟨rows, n⟩, hr⟩ := gather_ok L c e s hs snap hid h1 h2 hans l' fun t ht => hperm.mem_iff.1 ht
  exact ⟨_, by simp only [timeline, hl', hr]; rfl⟩

theorem Runs.successive {e : Env τ} {g : τ} {nx : Int → Option Int} (hnx : ∀ r, e.next 2 g (some r) r = .ok (nx r))
    {f x : Option Int} {l : List Int} (h : Runs e g f l x) : Successive nx f l x := by
  induction h with
  | nil => exact .nil _
  | cons hx hr ih =>
    rw [hnx] at hx
    cases hx
    exact .cons ih

/-- **C122, in part.** The runs of a task that has a next run time happen at the times shown: whatever follows, if the
time after a run does not depend on when the trigger is asked, the times handed to the executor are some of the times
shown (in their order), or of those that come after all that are shown. -/
theorem C122_happens_partial (L : LawfulStore O) (c : Cfg τ) (e : Env τ) (a i : String) (s s' : State σ τ φ)
    (hw : WF L s) (t : T τ φ) (ht : entry O s a i = some t) (hn : t.nrt ≠ none) (nx : Int → Option Int)
    (hnx : ∀ r, e.next 2 t.body.trigger (some r) r = .ok (nx r)) (subs : List (Int × List Int))
    (h : History L c (fun e => ∀ site p, p ≤ e.now → e.next site t.body.trigger (some p) e.now = .ok (nx p)) a i s subs s')
    (k : Int) (times : List Int) (done : Bool) (hu : Upcoming e t k times done) :
    ∃ l, (subs.flatMap (·.2)).Sublist l ∧ (l <+: times ∨ times <+: l) := by
  obtain ⟨l, after, h1, h2, _, h4⟩ := C41_runs_are_previewed_partial L c a i s s' hw t ht nx subs h
  obtain ⟨first, aft, q1, _, q3, _⟩ := hu
  have := q3.successive hnx
  rw [q1 hn] at this
  exact ⟨l, h2, h4 _ _ this⟩

/-! ### Examples -/

/-- **C122, tasks that go away**: the timeline first lists the tasks and then previews them one by one; a task that is gone by then (or has
no id) is left out, and everything else is as if it had not been listed. -/
theorem C122_vanished (L : LawfulStore O) (c : Cfg τ) (e : Env τ) (s : State σ τ φ) (hs : Reachable L c s) {k : Int} (h1 : 1 ≤ k) (h2 : k ≤ 50)
    (pre post : List (Listing.Info ρ)) (i : Listing.Info ρ) (hi : ∀ id, i.id = some id → Absent O s (String.ofList id) none) :
    gather O e s k (pre ++ i :: post) = gather O e s k (pre ++ post) := by
  induction pre with
  | nil =>
    simp only [List.nil_append, gather]
    cases hid : i.id with
    | none => rfl
    | some id =>
      have := (C38_lookup L c s hs (String.ofList id) none).1.2 (hi id hid)
      simp only [preview, if_pos (And.intro h1 h2), this]
  | cons j pre ih => simp only [List.cons_append, gather, ih]

/-- the snapshot of an example task -/
def exSnap (t : T Int Unit) : Listing.Info String where
  id := some t.id.toList
  name := none
  callableName := none
  callableRef := none
  triggerAlias := none
  triggerName := none
  triggerDesc := none
  executor := some t.body.executor.toList
  store := some t.body.store.toList
  state := Listing.scheduleState t.body.pending t.nrt
  nextRun := t.nrt
  rest := t.body.store

/-- what an example timeline shows: store, state and time of each row, and the counts -/
def exShown (ks : List (Call MS Int Unit)) (k : Int) (limit : Nat) :
    Option (List (String × Listing.SState × Int) × Nat × Nat × Nat) :=
  (execAll 7 ks State.init).bind fun s =>
    ((timeline Memory.ops (exEnvAt 8) Listing.exStr exSnap k limit s).toOption).map fun v =>
      (v.rows.map fun r => (r.info.rest, r.info.state, r.time), v.total, v.tasks, v.exhausted)

def exCalls : List (Call MS Int Unit) :=
  [.addStore Memory.init "s1", .addStore Memory.init "s2",
   .addTask ⟨"a", none, exBody 10 "default" "s1" false 3⟩ none false,
   .addTask ⟨"c", some 12, exBody 50 "default" "s2" false 1⟩ none false,
   .addTask ⟨"b", none, exBody 0 "default" "s2" false 1⟩ none false,
   .start false]

set_option synthInstance.maxSize 2048 in
example : exShown exCalls 3 4 =
    some ([("s1", .scheduled, 7), ("s2", .scheduled, 7), ("s2", .scheduled, 12), ("s1", .scheduled, 17)], 7, 3, 1) := by
  decide +kernel

theorem exCalls_ok : ∀ k ∈ exCalls, k.Ok (Memory.lawful (β := Body Int Unit)) := by
  intro k hk
  simp only [exCalls, List.mem_cons, List.not_mem_nil, or_false] at hk
  rcases hk with rfl | rfl | rfl | rfl | rfl | rfl
  · exact Memory.lawful.init_inv
  · exact Memory.lawful.init_inv
  all_goals exact trivial

/-- the timeline of the two tasks of the example, one of which is listed as "gone" -/
example : ∃ s : State MS Int Unit, Reachable Memory.lawful exCfg s ∧ lookupTask Memory.ops s "gone" none = none ∧
    ((gather Memory.ops (exEnvAt 8) s 2 ([{ exSnap ⟨"gone", some 3, exBody 5 "default" "s1" false 1⟩ with id := some "gone".toList },
      exSnap ⟨"a", some 7, exBody 10 "default" "s1" false 3⟩])).toOption.map fun p => p.1.map (·.time)) = some [7, 17] := by
  have h : ((execAll 7 exCalls State.init).map fun s => (lookupTask Memory.ops s "gone" none).isNone &&
      ((gather Memory.ops (exEnvAt 8) s 2 ([{ exSnap ⟨"gone", some 3, exBody 5 "default" "s1" false 1⟩ with id := some "gone".toList },
      exSnap ⟨"a", some 7, exBody 10 "default" "s1" false 3⟩])).toOption.map fun p => p.1.map (·.time)) = some [7, 17]) = some true := by
    decide +kernel
  obtain ⟨s, hs, h⟩ := Option.map_eq_some_iff.1 h
  simp only [Bool.and_eq_true, Option.isNone_iff_eq_none, decide_eq_true_eq] at h
  exact ⟨s, execAll_reachable exCalls_ok .init hs, h.1, h.2⟩

/-- the hypotheses of the theorems are met by a scheduler that calls lead to -/
example : ∃ (s : State MS Int Unit) (v : View String), Reachable Memory.lawful exCfg s ∧
    timeline Memory.ops (exEnvAt 8) Listing.exStr exSnap 3 4 s = .ok v ∧ v.rows.map (·.time) = [7, 7, 12, 17] ∧
    (∀ t ∈ getTasks Memory.ops s none, ∀ u ∈ getTasks Memory.ops s none, t.id = u.id → t = u) ∧
    ∀ t ∈ getTasks Memory.ops s none, Answers (exEnvAt 8) t := by
  have h : ((execAll 7 exCalls State.init).bind fun s =>
      ((timeline Memory.ops (exEnvAt 8) Listing.exStr exSnap 3 4 s).toOption).map fun v =>
        (v.rows.map (·.time), decide (∀ t ∈ getTasks Memory.ops s none, ∀ u ∈ getTasks Memory.ops s none,
          t.id = u.id → t = u))) =
      some ([7, 7, 12, 17], true) := by decide +kernel
  obtain ⟨s, h1, h⟩ := Option.bind_eq_some_iff.1 h
  obtain ⟨v, h2, h⟩ := Option.map_eq_some_iff.1 h
  simp only [Prod.mk.injEq, decide_eq_true_eq] at h
  refine ⟨s, v, execAll_reachable exCalls_ok .init h1, ?_, h.1, h.2, fun t _ => ⟨⟨_, rfl⟩, fun r => ⟨_, rfl⟩⟩⟩
  cases ht : timeline Memory.ops (exEnvAt 8) Listing.exStr exSnap 3 4 s with
  | error x => rw [ht] at h2; cases h2
  | ok w => rw [ht] at h2; cases h2; rfl

set_option synthInstance.maxSize 2048 in
/-- **C122, counterexample**: of two tasks with the same id in two stores both are shown with the times of the first:
the one in the store "s2" runs at 33, not at 7 and 17. -/
theorem C122_same_id_witness :
    exShown exHistory 2 100 = some ([("s1", .scheduled, 7), ("s2", .scheduled, 7), ("s2", .scheduled, 7),
      ("s1", .scheduled, 17), ("s2", .scheduled, 17)], 5, 3, 1) ∧
    (execAll 7 exHistory State.init).map (fun s => (entry Memory.ops s "s2" "a").map Task.nrt) = some (some (some 33)) := by
  refine ⟨?_, ?_⟩ <;> decide +kernel

/-- **C122, counterexample**: a paused task is shown with run times, although no run of it happens until it is resumed. -/
theorem C122_paused_witness : ∃ (s : State MS Int Unit) (v : View String) (r : Row String), Reachable Memory.lawful exCfg s ∧
    timeline Memory.ops (exEnvAt 8) Listing.exStr exSnap 2 100 s = .ok v ∧ r ∈ v.rows ∧ r.info.id = some "a".toList ∧
    r.info.state = .paused ∧ r.time = 18 ∧
    ∀ subs s', History Memory.lawful exCfg (fun _ => True) "default" "a" s subs s' → subs = [] := by
  have h : ((execAll 7 [.addTask ⟨"a", none, exBody 10 "default" "default" false 3⟩ none false, .start false,
      .pauseTask "a" none] State.init).bind fun s =>
      ((timeline Memory.ops (exEnvAt 8) Listing.exStr exSnap 2 100 s).toOption).map fun v =>
        (v.rows.map fun r => (r.info.id, r.info.state, r.time), (entry Memory.ops s "default" "a").map Task.nrt)) =
      some ([(some "a".toList, .paused, 8), (some "a".toList, .paused, 18)], some none) := by decide +kernel
  obtain ⟨s, h1, h⟩ := Option.bind_eq_some_iff.1 h
  obtain ⟨v, h2, h⟩ := Option.map_eq_some_iff.1 h
  simp only [Prod.mk.injEq] at h
  obtain ⟨hv, hn⟩ := h
  have hr := execAll_reachable (by
    intro k hk
    simp only [List.mem_cons, List.not_mem_nil, or_false] at hk
    rcases hk with rfl | rfl | rfl <;> exact trivial) .init h1
  have hmem : (some "a".toList, Listing.SState.paused, (18 : Int)) ∈ v.rows.map fun r => (r.info.id, r.info.state, r.time) := by
    rw [hv]; simp
  obtain ⟨r, hr1, hr2⟩ := List.mem_map.1 hmem
  simp only [Prod.mk.injEq] at hr2
  refine ⟨s, v, r, hr, ?_, hr1, hr2.1, hr2.2.1, hr2.2.2, ?_⟩
  · cases ht : timeline Memory.ops (exEnvAt 8) Listing.exStr exSnap 2 100 s with
    | error x => rw [ht] at h2; cases h2
    | ok w => rw [ht] at h2; cases h2; rfl
  · intro subs s' hist
    refine (C36_paused_not_submitted Memory.lawful exCfg "default" "a" s s' hr.wf subs hist ?_).1
    intro t ht
    rw [ht] at hn
    simpa using hn

end Timeline
end Asyncz
