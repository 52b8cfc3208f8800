import Verif.Model.TaskPage
import Verif.Props.RuntimePage
import Verif.Props.SchedRun
/-!
# C114: the page of a task
-/
namespace Asyncz
namespace Sched
variable {σ τ φ : Type} {O : StoreOps σ (Body τ φ)}

/-- **C114, which page.**  The page answers 404 exactly if there is no task with that id, and otherwise shows the task that all
other calls with that id are about; it raises exactly if there is one whose arguments cannot be written as JSON. -/
theorem C114_found_partial (L : LawfulStore O) (c : Cfg τ) (s : State σ τ φ) (hs : Reachable L c s) (S : Dash.Str) (e : Env τ)
    (jsonable : T τ φ → Bool) (now : Int) (h : Hist.State) (buf : List Dash.LogEntry) (id : String) :
    (Absent O s id none → taskPage O S e jsonable now h buf s id = some (404, none)) ∧
    (∀ t loc, Located O s id none t loc → jsonable t = true →
      ∃ p, taskPage O S e jsonable now h buf s id = some (200, some p) ∧ p.task = t ∧ p.store = loc) ∧
    (∀ t loc, Located O s id none t loc → jsonable t = false → taskPage O S e jsonable now h buf s id = none) := by
  have hl := C38_lookup L c s hs id none
  refine ⟨fun ha => ?_, fun t loc hloc hj => ?_, fun t loc hloc hj => ?_⟩
  · unfold taskPage; rw [hl.1.2 ha]
  · unfold taskPage
    rw [(hl.2 t loc).2 hloc]
    simp only [hj, if_true]
    exact ⟨_, rfl, rfl, rfl⟩
  · unfold taskPage
    rw [(hl.2 t loc).2 hloc]
    simp [hj]

theorem taskPage_parts {S : Dash.Str} {e : Env τ} {jsonable : T τ φ → Bool} {now : Int} {h : Hist.State}
    {buf : List Dash.LogEntry} {s : State σ τ φ} {id : String} {n : Nat} {p : TaskPage τ φ}
    (hp : taskPage O S e jsonable now h buf s id = some (n, some p)) :
    p.preview = (preview O e s id none 5).toOption.join ∧
    p.runs = Hist.query S now h ⟨some id.toList, none, none, none, 6⟩ ∧
    p.logs = Dash.logQuery S buf ⟨some id.toList, none, none, none, none, none, 6⟩ := by
  unfold taskPage at hp
  split at hp
  · cases hp
  · simp only at hp
    split at hp
    · cases hp
      refine ⟨?_, rfl, rfl⟩
      show (match preview O e s id none 5 with
        | .ok (some p) => some p
        | .ok none => none
        | .error _ => none) = _
      cases preview O e s id none 5 with
      | error _ => rfl
      | ok x => cases x <;> rfl
    · cases hp

/-- **C114, preview.**  If the trigger answers, the page shows the task's next runs, five of them or all there are; the page
says that there are no more exactly if there are none.  If the trigger raises, the page comes without a preview. -/
theorem C114_preview (L : LawfulStore O) (c : Cfg τ) (s : State σ τ φ) (hs : Reachable L c s) (S : Dash.Str) (e : Env τ)
    (jsonable : T τ φ → Bool) (now : Int) (h : Hist.State) (buf : List Dash.LogEntry) (id : String) (n : Nat) (p : TaskPage τ φ)
    (hp : taskPage O S e jsonable now h buf s id = some (n, some p)) (nx : Int → Option Int)
    (hnx : ∀ r, e.next 2 p.task.body.trigger (some r) r = .ok (nx r)) (first : Int)
    (hfirst : p.task.nrt = some first ∨ (p.task.nrt = none ∧ e.next 2 p.task.body.trigger none e.now = .ok (some first))) :
    ∃ l more, p.preview = some (l, more.isNone) ∧ Successive nx (some first) l more ∧ l.length ≤ 5 ∧
      (more ≠ none → l.length = 5) := by
  have hl := C38_lookup L c s hs id none
  have hloc : ∃ loc, Located O s id none p.task loc := by
    cases hk : lookupTask O s id none with
    | none => unfold taskPage at hp; rw [hk] at hp; cases hp
    | some x =>
      obtain ⟨t, loc⟩ := x
      unfold taskPage at hp
      rw [hk] at hp
      simp only at hp
      split at hp
      · cases hp; exact ⟨loc, (hl.2 t loc).1 hk⟩
      · cases hp
  obtain ⟨loc, hloc⟩ := hloc
  obtain ⟨l, more, h1, h2, h3, h4⟩ := (C41_preview L c e s hs id none 5).2.2 (by decide) (by decide) p.task loc hloc nx hnx first hfirst
  refine ⟨l, more, ?_, h2, by omega, fun hm => by have := h4 hm; omega⟩
  rw [(taskPage_parts hp).1, h1]; rfl

open Classical in
/-- **C114, runs and messages.**  The page shows the six runs seen last of tasks with that id, and the six newest stored
messages logged for that id. -/
theorem C114_runs_logs_partial (rid : Hist.Key → Listing.Text) (iso : Int → Listing.Text) (m : Nat) (ops : List Hist.Op)
    (hc : Hist.NoCollision rid iso ops) {h : Hist.State} (hs : Hist.runAll rid iso m ops = some h)
    (m' : Nat) (es : List (Int × Dash.RawEntry)) (S : Dash.Str) (hS : S.lower (S.strip []) = []) (hS' : S.strip (S.lower []) = [])
    (e : Env τ) (jsonable : T τ φ → Bool) (now : Int) (s : State σ τ φ) (id : String) (hid : id ≠ "") (n : Nat) (p : TaskPage τ φ)
    (hp : taskPage O S e jsonable now h (Dash.logsAfter m' es) s id = some (n, some p)) :
    (∃ order : List Hist.Rec, order.Perm h.records.values ∧
      order.Pairwise (fun x y => ∃ t u, Hist.lastSeen x = some t ∧ Hist.lastSeen y = some u ∧ u ≤ t) ∧
      p.runs = (order.filter fun r => decide (r.task = id.toList)).take 6) ∧
    p.logs = Dash.Spec.answer (fun x => x.taskId = some id.toList) 6
      (Dash.Spec.newest m' (es.filterMap fun x => Dash.coerceEntry x.1 x.2)) := by
  obtain ⟨_, h2, h3⟩ := taskPage_parts hp
  have hne : id.toList ≠ [] := fun q => hid (String.ext q)
  constructor
  · obtain ⟨order, q1, q2, q3⟩ := Hist.history_query rid iso m ops hc hs S now ⟨some id.toList, none, none, none, 6⟩ (by
      show (1 : Int) ≤ 6; decide)
    refine ⟨order, q1, q2, ?_⟩
    rw [h2, q3]
    have : ∀ r : Hist.Rec, Hist.Matches S ⟨some id.toList, none, none, none, 6⟩ r ↔ r.task = id.toList := by
      intro r
      unfold Hist.Matches
      simp only [Option.getD_none, hS, ne_eq, not_true_eq_false, false_imp_iff, and_true]
      constructor
      · intro q
        have := q (by unfold Dash.Given; simp [hne])
        simpa using this
      · intro q _; rw [q]
    simp only [this]
    rfl
  · rw [h3, (Dash.logs_partial S m' es ⟨some id.toList, none, none, none, none, none, 6⟩ (by show (1 : Int) ≤ 6; decide)).2]
    unfold Dash.Spec.answer
    refine congrArg (List.take 6) ?_
    refine congrArg (fun f => List.filter f _) ?_
    funext x
    rw [Bool.eq_iff_iff, decide_eq_true_iff, decide_eq_true_iff]
    unfold Dash.LogMatches
    constructor
    · intro q
      exact q.1 (by unfold Dash.Given; simp [hne])
    · intro q
      refine ⟨fun _ => q, fun w => ?_, fun t w => (by cases w), fun t w => (by cases w), fun w => ?_, fun w => ?_⟩
      · simp [Dash.Given] at w
      · simp [Dash.Given] at w
      · exact absurd hS' w

/-! ## Examples -/

/-- the page after the calls of C112's example -/
def exTaskPage (id : String) : Option (Option (Nat × Option (TaskPage Int Unit))) :=
  (execTimeds exPageHistory Timed.init).map fun x =>
    taskPage Memory.ops ListPages.ascii.toStr (exEnvAt 9) (fun t => t.id != "c") 9
      (Hist.State.mk [] [] []) [ListPages.exEntry 1 "INFO" "hello" (some "b"), ListPages.exEntry 2 "INFO" "other" (some "a")] x.s id

/-- the page of `b`, of the task `c` whose arguments are no JSON, and of a missing task -/
theorem C114_example :
    ((exTaskPage "b").map fun r => r.map fun r => (r.1, r.2.map fun p => (p.task.id, p.store))) = some (some (200, some ("b", some "s2"))) ∧
    ((exTaskPage "b").map fun r => r.map fun r => r.2.map fun p => p.preview) =
      some (some (some (some ([7, 37, 67, 97, 127], false)))) ∧
    ((exTaskPage "b").map fun r => r.map fun r => r.2.map fun p => p.logs.length) = some (some (some 1)) ∧
    ((exTaskPage "c").map fun r => r.isSome) = some false ∧
    ((exTaskPage "z").map fun r => r.map fun r => (r.1, r.2.isSome)) = some (some (404, false)) := by
  refine ⟨?_, ?_, ?_, ?_, ?_⟩ <;> decide +kernel

end Sched
end Asyncz
