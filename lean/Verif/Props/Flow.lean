import Verif.Model.Flow
import Verif.Props.History
import Verif.Props.Executor
import Verif.Props.EndToEnd
import Verif.Props.Logs
import Verif.Props.Crash
import Std.Data.String.ToInt
/-!
# C124: every scheduled run is in the run history, once, with how it ended
-/
namespace Asyncz
namespace Flow
open Listing (Text)
open Sched
open Hist.Spec (Status Report Run Terminal)

/-! ## Specification -/

/-- what the scheduler did, in order -/
def seen (l : List Item) : List Obs := l.filterMap fun | .obs o _ => some o | .ends _ _ _ => none

/-- How the run for the time `u` ended, given what `run_task` met: too late, the function returned, or it raised. -/
inductive EndedAs (r : Exec.Reading Ret Raised) (u : Int) : Status → Prop
  | missed (h : Exec.IsLate r u) : EndedAs r u .missed
  | succeeded {v : Ret} (h : ¬ Exec.IsLate r u) (hv : r.outcome = .returns v) : EndedAs r u .succeeded
  | failed {x : Raised} (h : ¬ Exec.IsLate r u) (hx : r.outcome = .raises x) : EndedAs r u .failed

/-- The record is that of the run for the time `u` of the task `i` of store `a`. -/
def IsRunOf (iso : Int → Text) (a i : String) (u : Int) (r : Hist.Rec) : Prop :=
  Hist.keyOf iso r = (i.toList, some a.toList, iso u)

/-- The function of the task let no `BaseException` escape in the runs that have ended (see C29). -/
def NoEscape (s : Sys) (a i : String) : Prop :=
  ∀ e ∈ s.ended, e.got.store = a → e.got.id = i → ∀ j t, e.got.times[j]? = some t → ¬ Exec.IsLate (e.w j) t → (e.w j).outcome ≠ .escapes

/-- What is to be said of the run for the time `u` of the task: it was skipped because too many instances were running, it is in
progress, or it has ended in that way. -/
inductive Told (s : Sys) (os : List Obs) (a i : String) (u : Int) : Status → Prop
  | skipped {ts : List Int} {n : Nat} {manual : Bool} (h : Obs.taskMaxInstances i a ts n manual ∈ os) (hu : u ∈ ts) :
      Told s os a i u .maxInstances
  | running {g : Got} (h : g ∈ s.running) (hs : g.store = a) (hi : g.id = i) (hu : u ∈ g.times) : Told s os a i u .running
  | ended {e : Ended} {j : Nat} {st : Status} (h : e ∈ s.ended) (hs : e.got.store = a) (hi : e.got.id = i)
      (hu : e.got.times[j]? = some u) (hst : EndedAs (e.w j) u st) : Told s os a i u st

/-- The scheduler did nothing for the task but what it did in those passes. -/
def Only (a i : String) (os : List Obs) (passes : List (Int × List Obs)) : Prop :=
  submissionEvents a i os = passes.flatMap (fun p => submissionEvents a i p.2) ∧
  sends a i os = passes.flatMap (fun p => sends a i p.2)

/-- The runs that the history is told of, of all tasks together, are at most `m`. -/
def Room (iso : Int → Text) (m : Nat) (ops : List Hist.Op) : Prop :=
  ∃ K : List Hist.Key, (∀ k ∈ Hist.keysOf iso ops, k ∈ K) ∧ K.length ≤ m

/-- The history `h` has a record of the run for the time `u` of the task exactly if `u` is one of `us`; it has one at most, and what it
says of the run is true. -/
def Recorded (iso : Int → Text) (h : Hist.State) (s : Sys) (os : List Obs) (a i : String) (us : List Int) : Prop :=
  ∀ u, (u ∈ us ↔ ∃ r ∈ h.records.values, IsRunOf iso a i u r) ∧
    (h.records.values.filter fun r => Hist.keyOf iso r = (i.toList, some a.toList, iso u)).length ≤ 1 ∧
    ∀ r ∈ h.records.values, IsRunOf iso a i u r → Told s os a i u r.status

/-! ## The history while there is room -/

theorem newest_room {α : Type} {m : Nat} {l : List α} (h : l.length ≤ m) : Dash.Spec.newest m l = l := by
  simp only [Dash.Spec.newest]
  rw [show l.length - m = 0 by omega, List.drop_zero]

/-- what a run is after some reports -/
def after {κ : Type} (k : κ) (xs : List (κ × Int × Report)) : Run κ :=
  xs.foldl (fun r x => r.report x.2.1 x.2.2) ⟨k, .running, none, none⟩

theorem history_room {κ : Type} [DecidableEq κ] {m : Nat} (K : List κ) (hK : K.length ≤ m) (xs : List (κ × Int × Report))
    (h : ∀ x ∈ xs, x.1 ∈ K) :
    ((Hist.Spec.history m xs).map Run.key).Nodup ∧ (∀ k, k ∈ (Hist.Spec.history m xs).map Run.key ↔ k ∈ xs.map (·.1)) ∧
      ∀ r ∈ Hist.Spec.history m xs, r = after r.key (xs.filter fun x => x.1 = r.key) := by
  induction xs using Hist.list_reverse_ind with
  | h0 => exact ⟨.nil, by simp [Hist.Spec.history], by simp [Hist.Spec.history]⟩
  | h1 xs x ih =>
    obtain ⟨h1, h2, h3⟩ := ih fun y hy => h y (by simp [hy])
    have he : Hist.Spec.history m (xs ++ [x]) = Hist.Spec.receive m (Hist.Spec.history m xs) x := by
      simp only [Hist.Spec.history, List.foldl_append, List.foldl_cons, List.foldl_nil]
    rw [he]
    generalize Hist.Spec.history m xs = l at *
    unfold Hist.Spec.receive
    by_cases hx : x.1 ∈ l.map Run.key
    · rw [if_pos hx]
      have hkeys : (l.map fun r => if r.key = x.1 then r.report x.2.1 x.2.2 else r).map Run.key = l.map Run.key := by
        rw [List.map_map]
        apply List.map_congr_left
        intro r _
        simp only [Function.comp]
        split
        · exact Hist.report_key _ _ _
        · rfl
      rw [hkeys]
      refine ⟨h1, fun k => ?_, fun r hr => ?_⟩
      · rw [h2, List.map_append, List.mem_append]
        constructor
        · exact .inl
        · rintro (hk | hk)
          · exact hk
          · simp only [List.map_cons, List.map_nil, List.mem_singleton] at hk
            subst hk
            exact (h2 _).1 hx
      · obtain ⟨r0, hr0, rfl⟩ := List.mem_map.1 hr
        have h0 := h3 r0 hr0
        split
        · rename_i hk
          rw [Hist.report_key, List.filter_append]
          simp only [after, List.foldl_append]
          rw [show List.filter (fun y => decide (y.1 = r0.key)) [x] = [x] by rw [List.filter_cons, if_pos (by simpa using hk.symm), List.filter_nil]]
          simp only [List.foldl_cons, List.foldl_nil]
          rw [show List.foldl (fun (r : Run κ) y => r.report y.2.1 y.2.2) ⟨r0.key, .running, none, none⟩
            (List.filter (fun y => decide (y.1 = r0.key)) xs) = r0 from h0.symm]
        · rename_i hk
          rw [List.filter_append, show List.filter (fun y => decide (y.1 = r0.key)) [x] = [] by
            rw [List.filter_cons, if_neg (by simpa using fun h : x.1 = r0.key => hk h.symm), List.filter_nil], List.append_nil]
          exact h0
    · rw [if_neg hx]
      have hnd : (x.1 :: l.map Run.key).Nodup := List.nodup_cons.2 ⟨hx, h1⟩
      have hlen := Logs.length_le_of_nodup_subset (m := K) hnd (by
        intro k hk
        rcases List.mem_cons.1 hk with rfl | hk
        · exact h x (by simp)
        · obtain ⟨y, hy, rfl⟩ := List.mem_map.1 ((h2 k).1 hk)
          exact h y (by simp [hy]))
      simp only [List.length_cons, List.length_map] at hlen
      rw [newest_room (by simp; omega)]
      have hkn : (Run.report ⟨x.1, .running, none, none⟩ x.2.1 x.2.2 : Run κ).key = x.1 := Hist.report_key _ _ _
      refine ⟨?_, fun k => ?_, fun r hr => ?_⟩
      · rw [List.map_append, List.map_cons, List.map_nil, hkn, List.nodup_append]
        refine ⟨h1, by simp, ?_⟩
        intro k hk k' hk'
        simp only [List.mem_singleton] at hk'
        rintro rfl
        exact hx (hk' ▸ hk)
      · rw [List.map_append, List.mem_append, List.map_append, List.mem_append, h2]
        simp only [List.map_cons, List.map_nil, hkn]
      · rcases List.mem_append.1 hr with hr | hr
        · have hne : ¬ x.1 = r.key := fun e => hx (e ▸ List.mem_map.2 ⟨r, hr, rfl⟩)
          rw [List.filter_append, show List.filter (fun y => decide (y.1 = r.key)) [x] = [] by simp [hne], List.append_nil]
          exact h3 r hr
        · simp only [List.mem_singleton] at hr
          subst hr
          rw [hkn, List.filter_append, show List.filter (fun y => decide (y.1 = x.1)) [x] = [x] by simp]
          have : xs.filter (fun y => decide (y.1 = x.1)) = [] := by
            rw [List.filter_eq_nil_iff]
            intro y hy
            simp only [decide_eq_true_eq]
            intro e
            exact hx ((h2 _).2 (List.mem_map.2 ⟨y, hy, e⟩))
          rw [this]
          rfl

/-- the status after one report -/
def statusStep (s : Status) : Report → Status
  | .submitted => if Terminal s then s else .running
  | .skipped => if Terminal s then s else .maxInstances
  | .finished x => x

theorem after_status {κ : Type} (k : κ) (xs : List (κ × Int × Report)) :
    (after k xs).status = (xs.map fun x => x.2.2).foldl statusStep .running := by
  unfold after
  suffices H : ∀ r : Run κ, (xs.foldl (fun r x => r.report x.2.1 x.2.2) r).status = (xs.map fun x => x.2.2).foldl statusStep r.status from H _
  induction xs with
  | nil => intro r; rfl
  | cons x xs ih =>
    intro r
    simp only [List.foldl_cons, List.map_cons, ih]
    congr 1
    cases x.2.2 <;> rfl

/-! ## The reports about one run -/

section
variable {iso : Int → Text} {a i : String} {u : Int}

/-- the key of a run -/
abbrev key (iso : Int → Text) (a i : String) (u : Int) : Hist.Key := (i.toList, some a.toList, iso u)

/-- what is reported about a run by calls of the history -/
def about (iso : Int → Text) (a i : String) (u : Int) (ops : List Hist.Op) : List Report :=
  ((ops.flatMap (Hist.reports iso)).filter fun x => x.1 = key iso a i u).map fun x => x.2.2

theorem about_append (ops ops' : List Hist.Op) : about iso a i u (ops ++ ops') = about iso a i u ops ++ about iso a i u ops' := by
  simp only [about, List.flatMap_append, List.filter_append, List.map_append]

theorem key_eq (hiso : ∀ x y, iso x = iso y → x = y) (b j : String) (t : Int) :
    key iso b j t = key iso a i u ↔ b = a ∧ j = i ∧ t = u := by
  simp only [key, Prod.mk.injEq, Option.some.injEq]
  constructor
  · rintro ⟨h1, h2, h3⟩
    exact ⟨String.toList_inj.1 h2, String.toList_inj.1 h1, hiso _ _ h3⟩
  · rintro ⟨rfl, rfl, rfl⟩
    exact ⟨rfl, rfl, rfl⟩

theorem about_submission (hiso : ∀ x y, iso x = iso y → x = y) (skipped : Bool) (b j : String) (ts : List Int) (n : Nat) (manual : Bool) (x : Ctx) :
    about iso a i u [submission skipped j b ts n manual x] =
      if b = a ∧ j = i then List.replicate (ts.count u) (if skipped then .skipped else .submitted) else [] := by
  have hr : Hist.reports iso (submission skipped j b ts n manual x) =
      ts.map fun t => (key iso b j t, x.now, if skipped then Report.skipped else .submitted) := by
    simp only [submission, Hist.reports, List.map_map]
    rfl
  simp only [about, List.flatMap_cons, List.flatMap_nil, List.append_nil, hr]
  clear hr
  induction ts with
  | nil => simp
  | cons t ts ih =>
    rw [List.map_cons, List.filter_cons]
    have hk := key_eq (a := a) (i := i) (u := u) hiso b j t
    by_cases h : b = a ∧ j = i
    · rw [if_pos h] at ih ⊢
      by_cases ht : t = u
      · rw [if_pos (by simpa using hk.2 ⟨h.1, h.2, ht⟩), List.map_cons, ih, ht, List.count_cons_self, List.replicate_succ]
      · rw [if_neg (by simpa using fun e => ht (hk.1 e).2.2), List.count_cons_of_ne ht]
        exact ih
    · rw [if_neg h] at ih ⊢
      rw [if_neg (by simpa using fun e => h ⟨(hk.1 e).1, (hk.1 e).2.1⟩)]
      exact ih

/-- the run time of an event of `run_task`, and how the run ended -/
def evTime : Exec.Event Ret Raised → Int
  | .missed t => t
  | .executed t _ => t
  | .error t _ => t

def evStatus : Exec.Event Ret Raised → Status
  | .missed _ => .missed
  | .executed _ _ => .succeeded
  | .error _ _ => .failed

/-- what the events of a run report about the time `u` -/
def finished (u : Int) (es : List (Exec.Event Ret Raised)) : List Report :=
  (es.filter fun e => evTime e = u).map fun e => .finished (evStatus e)

theorem about_execution (hiso : ∀ x y, iso x = iso y → x = y) (b j : String) (x : Ctx) (e : Exec.Event Ret Raised) :
    about iso a i u [execution j b x e] = if b = a ∧ j = i then finished u [e] else [] := by
  have hk := key_eq (a := a) (i := i) (u := u) hiso b j (evTime e)
  have hr : Hist.reports iso (execution j b x e) = [(key iso b j (evTime e), x.now, .finished (evStatus e))] := by
    cases e <;> rfl
  simp only [about, List.flatMap_cons, List.flatMap_nil, List.append_nil, hr, finished]
  by_cases h : b = a ∧ j = i
  · rw [if_pos h]
    by_cases ht : evTime e = u
    · rw [List.filter_cons, if_pos (by simpa using hk.2 ⟨h.1, h.2, ht⟩), List.filter_cons, if_pos (by simpa using ht)]
      rfl
    · rw [List.filter_cons, if_neg (by simpa using fun e => ht (hk.1 e).2.2), List.filter_cons, if_neg (by simpa using ht)]
      rfl
  · rw [if_neg h, List.filter_cons, if_neg (by simpa using fun e => h ⟨(hk.1 e).1, (hk.1 e).2.1⟩)]
    rfl

theorem about_executions (hiso : ∀ x y, iso x = iso y → x = y) (b j : String) (x : Nat → Ctx) (es : List (Exec.Event Ret Raised)) :
    about iso a i u (executions j b x es) = if b = a ∧ j = i then finished u es else [] := by
  unfold executions
  suffices H : ∀ n, about iso a i u ((es.zipIdx n).map fun p => execution j b (x p.2) p.1) = if b = a ∧ j = i then finished u es else [] from H 0
  induction es with
  | nil => intro n; simp [about, finished]
  | cons e es ih =>
    intro n
    rw [List.zipIdx_cons, List.map_cons, ← List.singleton_append, about_append, about_execution hiso, ih]
    split
    · rw [← List.singleton_append (l := es), finished, finished, finished, List.filter_append, List.map_append]
    · rfl

/-- how an event of the scheduler reports -/
def repOf : Obs → Report
  | .taskMaxInstances .. => .skipped
  | _ => .submitted

/-- what the scheduler's events report about the run -/
def subR (a i : String) (u : Int) (os : List Obs) : List Report :=
  (submissionEvents a i os).flatMap fun o => List.replicate ((timesOf o).count u) (repOf o)

/-- what the ended runs of the task report about the run -/
def endR (a i : String) (u : Int) (es : List Ended) : List Report :=
  es.flatMap fun e => if e.got.store = a ∧ e.got.id = i then finished u (Exec.dispatched (Exec.runTask e.w e.got.times).2) else []

theorem submissionEvents_append (os os' : List Obs) :
    submissionEvents a i (os ++ os') = submissionEvents a i os ++ submissionEvents a i os' := by
  simp only [submissionEvents, List.filter_append]

theorem sends_append (os os' : List Obs) : sends a i (os ++ os') = sends a i os ++ sends a i os' := by
  induction os with
  | nil => rfl
  | cons o os ih =>
    cases o <;> simp only [List.cons_append, sends, ih]
    split <;> rfl

theorem run_append (alias : String → String → String) (l : List Item) (x : Item) : run alias (l ++ [x]) = step alias (run alias l) x := by
  simp only [run, List.foldl_append, List.foldl_cons, List.foldl_nil]

theorem seen_append (l l' : List Item) : seen (l ++ l') = seen l ++ seen l' := by
  simp only [seen, List.filterMap_append]

/-- the runs of the task in progress and ended -/
def runningOf (a i : String) (s : Sys) : List (List Int) := (s.running.filter fun g => g.store = a ∧ g.id = i).map (·.times)
def endedOf (a i : String) (s : Sys) : List (List Int) :=
  (s.ended.filter fun e => e.got.store = a ∧ e.got.id = i).map (·.got.times)

theorem perm_swap_right {α : Type} (A B C : List α) : (A ++ B ++ C).Perm (A ++ C ++ B) := by
  rw [List.append_assoc, List.append_assoc]
  exact List.Perm.append_left A List.perm_append_comm

theorem eraseIdx_perm {α : Type} {l : List α} {k : Nat} {g : α} (h : l[k]? = some g) : l.Perm (g :: l.eraseIdx k) := by
  induction l generalizing k with
  | nil => simp at h
  | cons x l ih =>
    cases k with
    | zero => simp at h; subst h; exact List.Perm.refl _
    | succ k =>
      simp only [List.getElem?_cons_succ] at h
      exact ((ih h).cons x).trans (List.Perm.swap g x _)

/-- the reports made are those of the scheduler's events and of the ended runs, and a run that was handed over is in progress or ended -/
theorem flow_inv (hiso : ∀ x y, iso x = iso y → x = y) (alias : String → String → String) (hal : ∀ b, alias b i = a ↔ b = a) (l : List Item) :
    (about iso a i u (run alias l).ops).Perm (subR a i u (seen l) ++ endR a i u (run alias l).ended) ∧
    ((sends a i (seen l)).map (·.2)).Perm (runningOf a i (run alias l) ++ endedOf a i (run alias l)) := by
  induction l using Hist.list_reverse_ind with
  | h0 => exact ⟨List.Perm.refl _, List.Perm.refl _⟩
  | h1 l x ih =>
    obtain ⟨h1, h2⟩ := ih
    rw [run_append, seen_append]
    generalize run alias l = s at *
    cases x with
    | obs o x =>
      have hseen : seen [Item.obs o x] = [o] := rfl
      rw [hseen, subR, submissionEvents_append, List.flatMap_append, sends_append, List.map_append]
      have hsub : ∀ (ops : List Hist.Op), (about iso a i u ops).Perm
          ((submissionEvents a i [o]).flatMap fun o => List.replicate ((timesOf o).count u) (repOf o)) →
          (about iso a i u (s.ops ++ ops)).Perm (((submissionEvents a i (seen l)).flatMap fun o =>
            List.replicate ((timesOf o).count u) (repOf o)) ++ ((submissionEvents a i [o]).flatMap fun o =>
              List.replicate ((timesOf o).count u) (repOf o)) ++ endR a i u s.ended) := by
        intro ops h
        rw [about_append]
        exact (List.Perm.append h1 h).trans (perm_swap_right _ _ _)
      have hnone : submissionEvents a i [o] = [] → (about iso a i u s.ops).Perm (((submissionEvents a i (seen l)).flatMap fun o =>
            List.replicate ((timesOf o).count u) (repOf o)) ++ ((submissionEvents a i [o]).flatMap fun o =>
              List.replicate ((timesOf o).count u) (repOf o)) ++ endR a i u s.ended) := by
        intro h
        rw [h, List.flatMap_nil, List.append_nil]
        exact h1
      cases o with
      | send x j b ts =>
        refine ⟨hnone rfl, ?_⟩
        simp only [step, sends, runningOf, List.filter_append, List.map_append]
        by_cases h : b = a ∧ j = i
        · rw [if_pos h, List.filter_cons, if_pos (by simpa using h)]
          exact ((h2.append_right _).trans (perm_swap_right _ _ _))
        · rw [if_neg h, List.filter_cons, if_neg (by simpa using h)]
          simp only [List.map_nil, List.append_nil, List.filter_nil]
          exact h2
      | taskSubmitted j b ts n manual =>
        refine ⟨hsub [_] ?_, by rw [show (sends a i [Obs.taskSubmitted j b ts n manual]).map (·.2) = [] from rfl, List.append_nil]; exact h2⟩
        rw [about_submission hiso]
        by_cases h : b = a ∧ j = i
        · have he : submissionEvents a i [Obs.taskSubmitted j b ts n manual] = [Obs.taskSubmitted j b ts n manual] := by
            simp [submissionEvents, h]
          rw [if_pos h, he]
          simp [timesOf, repOf]
        · have he : submissionEvents a i [Obs.taskSubmitted j b ts n manual] = [] := by
            simpa [submissionEvents] using h
          rw [if_neg h, he]
          exact List.Perm.refl _
      | taskMaxInstances j b ts n manual =>
        refine ⟨hsub [_] ?_, by rw [show (sends a i [Obs.taskMaxInstances j b ts n manual]).map (·.2) = [] from rfl, List.append_nil]; exact h2⟩
        rw [about_submission hiso]
        by_cases h : b = a ∧ j = i
        · have he : submissionEvents a i [Obs.taskMaxInstances j b ts n manual] = [Obs.taskMaxInstances j b ts n manual] := by
            simp [submissionEvents, h]
          rw [if_pos h, he]
          simp [timesOf, repOf]
        · have he : submissionEvents a i [Obs.taskMaxInstances j b ts n manual] = [] := by
            simpa [submissionEvents] using h
          rw [if_neg h, he]
          exact List.Perm.refl _
      | _ => exact ⟨hnone rfl, by simpa only [sends, List.map_nil, List.append_nil, step] using h2⟩
    | ends k w x =>
      have hseen : seen [Item.ends k w x] = [] := rfl
      rw [hseen, List.append_nil]
      simp only [step]
      cases hk : s.running[k]? with
      | none => exact ⟨h1, h2⟩
      | some g =>
        simp only []
        refine ⟨?_, ?_⟩
        · rw [about_append, about_executions hiso, endR, List.flatMap_append, ← List.append_assoc]
          refine List.Perm.append h1 ?_
          simp only [List.flatMap_cons, List.flatMap_nil, List.append_nil]
          by_cases h : g.store = a ∧ g.id = i
          · rw [if_pos h, if_pos ⟨by rw [h.2]; exact (hal _).2 h.1, h.2⟩]
          · rw [if_neg h, if_neg]
            rintro ⟨q1, q2⟩
            rw [q2] at q1
            exact h ⟨(hal _).1 q1, q2⟩
        · refine h2.trans ?_
          simp only [runningOf, endedOf, List.filter_append, List.map_append]
          have hp := ((eraseIdx_perm hk).filter fun g => decide (g.store = a ∧ g.id = i)).map Got.times
          rw [List.filter_cons] at hp
          by_cases h : g.store = a ∧ g.id = i
          · rw [if_pos (by simpa using h), List.map_cons] at hp
            rw [List.filter_cons, if_pos (by simpa using h)]
            simp only [List.filter_nil, List.map_cons, List.map_nil]
            refine (hp.append_right _).trans ?_
            rw [List.cons_append, ← List.append_assoc]
            exact (List.perm_append_comm (l₁ := [g.times])).trans (List.Perm.refl _)
          · rw [if_neg (by simpa using h)] at hp
            rw [List.filter_cons, if_neg (by simpa using h)]
            simp only [List.filter_nil, List.map_nil, List.append_nil]
            exact hp.append_right _

/-- the events of a run report each of its times as often as it is there, each time truly -/
theorem finished_spec (w : Nat → Exec.Reading Ret Raised) (ts : List Int) (u : Int)
    (hexc : ∀ j t, ts[j]? = some t → ¬ Exec.IsLate (w j) t → (w j).outcome ≠ .escapes) :
    (finished u (Exec.dispatched (Exec.runTask w ts).2)).length = ts.count u ∧
    ∀ x ∈ finished u (Exec.dispatched (Exec.runTask w ts).2), ∃ (j : Nat) (s : Status), x = .finished s ∧ ts[j]? = some u ∧ EndedAs (w j) u s := by
  obtain ⟨events, _, h2, h3, h4, _⟩ := Exec.C29_one_event_each_partial w ts hexc
  rw [h2]
  have hkey : ∀ (ts : List Int) (events : List (Exec.Event Ret Raised)) (n : Nat), events.length = ts.length →
      (∀ (i : Nat) t, ts[i]? = some t → ∃ ev, events[i]? = some ev ∧ Exec.Describes (w (n + i)) t ev) →
      (finished u events).length = ts.count u ∧
      ∀ x ∈ finished u events, ∃ (j : Nat) (s : Status), x = .finished s ∧ ts[j]? = some u ∧ EndedAs (w (n + j)) u s := by
    intro ts
    induction ts with
    | nil =>
      intro events n hl _
      have : events = [] := List.length_eq_zero_iff.1 hl
      subst this
      exact ⟨rfl, by simp [finished]⟩
    | cons t ts ih =>
      intro events n hl hd
      cases events with
      | nil => simp at hl
      | cons e events =>
        obtain ⟨e', he', hD⟩ := hd 0 t rfl
        cases he'
        have ht : evTime e = t := by
          rcases hD with ⟨_, rfl⟩ | ⟨_, ⟨_, _, rfl⟩ | ⟨_, _, rfl⟩⟩ <;> rfl
        have hst : EndedAs (w (n + 0)) t (evStatus e) := by
          rcases hD with ⟨hl', rfl⟩ | ⟨hl', ⟨v, hv, rfl⟩ | ⟨v, hv, rfl⟩⟩
          · exact .missed hl'
          · exact .succeeded hl' hv
          · exact .failed hl' hv
        obtain ⟨k1, k2⟩ := ih events (n + 1) (by simpa using hl) (fun j t' hj => by
          have := hd (j + 1) t' hj
          rw [show n + (j + 1) = n + 1 + j by omega] at this
          simpa using this)
        have hrest : ∀ x ∈ finished u events, ∃ (j : Nat) (s : Status), x = .finished s ∧ (t :: ts)[j]? = some u ∧ EndedAs (w (n + j)) u s := by
          intro x hx
          obtain ⟨j, s, q1, q2, q3⟩ := k2 x hx
          exact ⟨j + 1, s, q1, q2, by rw [show n + (j + 1) = n + 1 + j by omega]; exact q3⟩
        unfold finished at *
        rw [List.filter_cons]
        by_cases htu : t = u
        · rw [if_pos (by simp [ht, htu])]
          subst htu
          refine ⟨by simpa using k1, fun x hx => ?_⟩
          rcases List.mem_cons.1 hx with rfl | hx
          · exact ⟨0, _, rfl, rfl, hst⟩
          · exact hrest x hx
        · rw [if_neg (by simp [ht, htu]), List.count_cons_of_ne htu]
          exact ⟨k1, hrest⟩
  have := hkey ts events 0 h3 (by simpa using h4)
  simpa using this

theorem endR_spec (s : Sys) (u : Int) (h : NoEscape s a i) :
    (endR a i u s.ended).length = ((endedOf a i s).flatten).count u ∧
    ∀ x ∈ endR a i u s.ended, ∃ e ∈ s.ended, e.got.store = a ∧ e.got.id = i ∧
      ∃ (j : Nat) (st : Status), x = .finished st ∧ e.got.times[j]? = some u ∧ EndedAs (e.w j) u st := by
  unfold NoEscape at h
  unfold endR endedOf
  generalize s.ended = es at *
  induction es with
  | nil => exact ⟨rfl, by simp⟩
  | cons e es ih =>
    obtain ⟨k1, k2⟩ := ih fun e' he' => h e' (by simp [he'])
    have hrest : ∀ x ∈ (es.flatMap fun e => if e.got.store = a ∧ e.got.id = i then
        finished u (Exec.dispatched (Exec.runTask e.w e.got.times).2) else []), ∃ e' ∈ e :: es, e'.got.store = a ∧ e'.got.id = i ∧
        ∃ (j : Nat) (st : Status), x = .finished st ∧ e'.got.times[j]? = some u ∧ EndedAs (e'.w j) u st := by
      intro x hx
      obtain ⟨e', he', q⟩ := k2 x hx
      exact ⟨e', by simp [he'], q⟩
    rw [List.flatMap_cons, List.filter_cons]
    by_cases hc : e.got.store = a ∧ e.got.id = i
    · obtain ⟨f1, f2⟩ := finished_spec e.w e.got.times u (h e (by simp) hc.1 hc.2)
      rw [if_pos hc, if_pos (by simpa using hc)]
      refine ⟨by simp only [List.length_append, List.map_cons, List.flatten_cons, List.count_append, f1, k1], fun x hx => ?_⟩
      rcases List.mem_append.1 hx with hx | hx
      · exact ⟨e, by simp, hc.1, hc.2, f2 x hx⟩
      · exact hrest x hx
    · rw [if_neg hc, if_neg (by simpa using hc), List.nil_append]
      exact ⟨k1, hrest⟩

/-- what groups of run times are reported as about the run -/
def subG (u : Int) (G : List (Bool × List Int)) : List Report :=
  G.flatMap fun g => List.replicate (g.2.count u) (if g.1 then .submitted else .skipped)

/-- the times that were handed over -/
def goneG (G : List (Bool × List Int)) : List Int := ((G.filter (·.1)).map (·.2)).flatten

theorem subG_spec (u : Int) (G : List (Bool × List Int)) :
    (subG u G).length = (G.flatMap (·.2)).count u ∧ (goneG G).count u ≤ (G.flatMap (·.2)).count u ∧
    (∀ x ∈ subG u G, (x = .submitted ∧ u ∈ goneG G) ∨ (x = .skipped ∧ (∃ g ∈ G, g.1 = false ∧ u ∈ g.2) ∧
      (goneG G).count u < (G.flatMap (·.2)).count u)) := by
  induction G with
  | nil => exact ⟨rfl, by simp [goneG], by simp [subG]⟩
  | cons g G ih =>
    obtain ⟨h1, h2, h3⟩ := ih
    have hs : subG u (g :: G) = List.replicate (g.2.count u) (if g.1 then .submitted else .skipped) ++ subG u G := by
      simp only [subG, List.flatMap_cons]
    have hf : ((g :: G).flatMap (·.2)).count u = g.2.count u + (G.flatMap (·.2)).count u := by
      simp only [List.flatMap_cons, List.count_append]
    have hg : (goneG (g :: G)) = (if g.1 then g.2 else []) ++ goneG G := by
      unfold goneG
      rw [List.filter_cons]
      cases g.1 <;> simp
    rw [hs, hf, hg, List.count_append]
    refine ⟨by simp [h1], by split <;> simp <;> omega, fun x hx => ?_⟩
    rcases List.mem_append.1 hx with hx | hx
    · obtain ⟨hn, rfl⟩ := List.mem_replicate.1 hx
      have hu : u ∈ g.2 := List.count_pos_iff.1 (by omega)
      cases hb : g.1
      · exact .inr ⟨by simp, ⟨g, by simp, hb, hu⟩, by simp; omega⟩
      · exact .inl ⟨by simp, by simp [hu]⟩
    · rcases h3 x hx with ⟨q1, q2⟩ | ⟨q1, ⟨g', q2, q3⟩, q4⟩
      · exact .inl ⟨q1, List.mem_append.2 (.inr q2)⟩
      · refine .inr ⟨q1, ⟨g', by simp [q2], q3⟩, ?_⟩
        split <;> simp <;> omega

theorem perm_pair {α : Type} {x y : α} {l : List α} (h : l.Perm [x, y]) : l = [x, y] ∨ l = [y, x] := by
  have hl := h.length_eq
  match l, hl with
  | [p, q], _ =>
    have hp : p = x ∨ p = y := by simpa using h.mem_iff.1 (show p ∈ [p, q] by simp)
    have hq : q = x ∨ q = y := by simpa using h.mem_iff.1 (show q ∈ [p, q] by simp)
    have hx : x = p ∨ x = q := by simpa using h.mem_iff.2 (show x ∈ [x, y] by simp)
    have hy : y = p ∨ y = q := by simpa using h.mem_iff.2 (show y ∈ [x, y] by simp)
    rcases hp with rfl | rfl <;> rcases hq with rfl | rfl
    · rcases hy with rfl | rfl <;> simp
    · simp
    · simp
    · rcases hx with rfl | rfl <;> simp

theorem EndedAs.terminal {r : Exec.Reading Ret Raised} {u : Int} {st : Status} (h : EndedAs r u st) : Terminal st := by
  cases h <;> simp [Terminal]

/-- what is reported about a run, and what comes of it -/
theorem flow_core (hiso : ∀ x y, iso x = iso y → x = y) (alias : String → String → String) (hal : ∀ b, alias b i = a ↔ b = a) (l : List Item)
    (hne : NoEscape (run alias l) a i) (G : List (Bool × List Int)) (hc : (G.flatMap (·.2)).count u ≤ 1)
    (h1 : subR a i u (seen l) = subG u G) (h2 : (sends a i (seen l)).map (·.2) = (G.filter (·.1)).map (·.2))
    (h3 : ∀ g ∈ G, g.1 = false → ∃ n m, Obs.taskMaxInstances i a g.2 n m ∈ seen l) :
    (u ∉ G.flatMap (·.2) ∧ about iso a i u (run alias l).ops = []) ∨
    (u ∈ G.flatMap (·.2) ∧ about iso a i u (run alias l).ops ≠ [] ∧
      Told (run alias l) (seen l) a i u ((about iso a i u (run alias l).ops).foldl statusStep .running)) := by
  obtain ⟨f1, f2⟩ := flow_inv (a := a) (i := i) (u := u) hiso alias hal l
  obtain ⟨g1, g2, g3⟩ := subG_spec u G
  obtain ⟨e1, e2⟩ := endR_spec (run alias l) u hne
  rw [h1] at f1
  have hcount : (goneG G).count u = ((runningOf a i (run alias l)).flatten).count u + ((endedOf a i (run alias l)).flatten).count u := by
    have := (f2.flatten).count_eq u
    rw [h2, List.flatten_append, List.count_append] at this
    exact this
  generalize hA : about iso a i u (run alias l).ops = A at *
  match hS : subG u G, g1 with
  | [], g1 =>
    have h0 : (G.flatMap (·.2)).count u = 0 := by simpa using g1.symm
    have hE : endR a i u (run alias l).ended = [] := List.length_eq_zero_iff.1 (by omega)
    rw [hS, hE] at f1
    exact .inl ⟨fun hu => by have := List.count_pos_iff.2 hu; omega, by simpa using f1⟩
  | [x], g1 =>
    have h0 : (G.flatMap (·.2)).count u = 1 := by simpa using g1.symm
    have hu : u ∈ G.flatMap (·.2) := List.count_pos_iff.1 (by omega)
    refine .inr ⟨hu, ?_⟩
    rw [hS] at f1
    rcases g3 x (by rw [hS]; simp) with ⟨rfl, q2⟩ | ⟨rfl, ⟨g, q2, q3, q4⟩, q5⟩
    · have hgone : (goneG G).count u = 1 := by
        have := List.count_pos_iff.2 q2
        omega
      rcases Nat.eq_zero_or_pos (((endedOf a i (run alias l)).flatten).count u) with hz | hz
      · have hE : endR a i u (run alias l).ended = [] := List.length_eq_zero_iff.1 (by omega)
        rw [hE, List.append_nil] at f1
        have hA' : A = [.submitted] := by simpa using f1
        subst hA'
        refine ⟨by simp, ?_⟩
        obtain ⟨ts, k1, k2⟩ := List.mem_flatten.1 (List.count_pos_iff.1 (show 0 < ((runningOf a i (run alias l)).flatten).count u by omega))
        obtain ⟨g, k3, rfl⟩ := List.mem_map.1 k1
        have k4 := List.mem_filter.1 k3
        have k5 : g.store = a ∧ g.id = i := by simpa using k4.2
        exact .running k4.1 k5.1 k5.2 k2
      · have hl : (endR a i u (run alias l).ended).length = 1 := by omega
        match hE : endR a i u (run alias l).ended, hl with
        | [y], _ =>
          rw [hE] at f1
          obtain ⟨e, he, k1, k2, j, st, rfl, k3, k4⟩ := e2 y (by rw [hE]; simp)
          have hA' : A = [.submitted, .finished st] ∨ A = [.finished st, .submitted] := perm_pair f1
          have ht := k4.terminal
          have hst : A ≠ [] ∧ A.foldl statusStep .running = st := by
            rcases hA' with rfl | rfl
            · exact ⟨by simp, rfl⟩
            · exact ⟨by simp, by simp [statusStep, ht]⟩
          rw [hst.2]
          exact ⟨hst.1, .ended he k1 k2 k3 k4⟩
    · have hE : endR a i u (run alias l).ended = [] := List.length_eq_zero_iff.1 (by omega)
      rw [hE, List.append_nil] at f1
      have hA' : A = [.skipped] := by simpa using f1
      subst hA'
      refine ⟨by simp, ?_⟩
      obtain ⟨n, m, hm⟩ := h3 g q2 q3
      exact .skipped hm q4
  | _ :: _ :: _, g1 =>
    simp only [List.length_cons] at g1
    omega

/-- nothing clears the history -/
theorem run_no_clear (alias : String → String → String) (l : List Item) : ∀ o ∈ (run alias l).ops, o ≠ .clear := by
  induction l using Hist.list_reverse_ind with
  | h0 => simp [run, init]
  | h1 l x ih =>
    rw [run_append]
    generalize run alias l = s at *
    intro o ho
    unfold step at ho
    split at ho
    · exact ih o ho
    · rcases List.mem_append.1 ho with ho | ho
      · exact ih o ho
      · simp only [List.mem_singleton] at ho
        subst ho
        exact fun h => by unfold submission at h; cases h
    · rcases List.mem_append.1 ho with ho | ho
      · exact ih o ho
      · simp only [List.mem_singleton] at ho
        subst ho
        exact fun h => by unfold submission at h; cases h
    · exact ih o ho
    · split at ho
      · exact ih o ho
      · rcases List.mem_append.1 ho with ho | ho
        · exact ih o ho
        · obtain ⟨p, _, rfl⟩ := List.mem_map.1 ho
          exact fun h => by unfold execution at h; cases h

theorem expected_history (m : Nat) (ops : List Hist.Op) (h : ∀ o ∈ ops, o ≠ .clear) :
    Hist.expected iso m ops = Hist.Spec.history m (ops.flatMap (Hist.reports iso)) := by
  unfold Hist.expected Hist.Spec.history
  suffices H : ∀ l, ops.foldl (fun l o => if o = .clear then [] else (Hist.reports iso o).foldl (Hist.Spec.receive m) l) l =
      (ops.flatMap (Hist.reports iso)).foldl (Hist.Spec.receive m) l from H []
  induction ops with
  | nil => intro l; rfl
  | cons o ops ih =>
    intro l
    rw [List.foldl_cons, if_neg (h o (by simp)), List.flatMap_cons, List.foldl_append]
    exact ih (fun o ho => h o (by simp [ho])) _

/-- the records that a flow leaves in the history -/
theorem flow_records (rid : Hist.Key → Text) (m : Nat) (alias : String → String → String) (l : List Item)
    (hroom : Room iso m (run alias l).ops) (hnc : Hist.NoCollision rid iso (run alias l).ops) :
    ∃ h, Hist.runAll rid iso m (run alias l).ops = some h ∧ (h.records.values.map (Hist.keyOf iso)).Nodup ∧
      ∀ k, (k ∈ h.records.values.map (Hist.keyOf iso) ↔ k ∈ Hist.keysOf iso (run alias l).ops) ∧
        ∀ r ∈ h.records.values, Hist.keyOf iso r = k →
          r.status = ((((run alias l).ops.flatMap (Hist.reports iso)).filter fun x => x.1 = k).map fun x => x.2.2).foldl statusStep .running := by
  obtain ⟨h, q1, q2, _, q3, _, _⟩ := Hist.history_partial rid iso m _ hnc
  refine ⟨h, q1, q3, ?_⟩
  obtain ⟨K, k1, k2⟩ := hroom
  rw [expected_history m _ (run_no_clear alias l)] at q2
  have hkeys : Hist.keysOf iso (run alias l).ops = ((run alias l).ops.flatMap (Hist.reports iso)).map (·.1) := by
    rw [List.map_flatMap]
    rfl
  rw [hkeys] at k1 ⊢
  obtain ⟨r1, r2, r3⟩ := history_room K k2 ((run alias l).ops.flatMap (Hist.reports iso)) (fun x hx => k1 _ (List.mem_map.2 ⟨x, hx, rfl⟩))
  rw [← q2] at r1 r2 r3
  have hview : ∀ r : Hist.Rec, (Hist.view iso r).key = Hist.keyOf iso r := fun _ => rfl
  have hvs : (h.records.values.map (Hist.view iso)).map Run.key = h.records.values.map (Hist.keyOf iso) := by
    rw [List.map_map]
    rfl
  rw [hvs] at r2
  refine fun k => ⟨r2 k, fun r hr hk => ?_⟩
  have := r3 (Hist.view iso r) (List.mem_map.2 ⟨r, hr, rfl⟩)
  have hs := congrArg Run.status this
  rw [after_status, hview, hk] at hs
  exact hs

end

theorem nodup_filter_length {α β : Type} [DecidableEq β] {f : α → β} {l : List α} (h : (l.map f).Nodup) (k : β) :
    (l.filter fun x => f x = k).length ≤ 1 := by
  induction l with
  | nil => simp
  | cons x l ih =>
    rw [List.map_cons, List.nodup_cons] at h
    rw [List.filter_cons]
    split
    · rename_i hx
      have hx : f x = k := by simpa using hx
      have : l.filter (fun y => decide (f y = k)) = [] := by
        rw [List.filter_eq_nil_iff]
        intro y hy
        simp only [decide_eq_true_eq]
        intro e
        exact h.1 (List.mem_map.2 ⟨y, hy, by rw [e, hx]⟩)
      simp [this]
    · exact ih h.2

theorem handed_count (co : Bool) (l : List Int) (u : Int) : (handed co l).count u ≤ l.count u := by
  unfold handed
  split
  · cases h : l.getLast? with
    | none => simp
    | some x =>
      obtain ⟨ys, rfl⟩ := List.getLast?_eq_some_iff.1 h
      simp
  · exact Nat.le_refl _

theorem handed_flat_count (co : Bool) (gs : List (Bool × List Int)) (u : Int) :
    ((gs.map fun g => (g.1, handed co g.2)).flatMap (·.2)).count u ≤ (gs.flatMap (·.2)).count u := by
  induction gs with
  | nil => simp
  | cons g gs ih =>
    simp only [List.map_cons, List.flatMap_cons, List.count_append]
    have := handed_count co g.2 u
    omega

/-- from what the passes did for the task to what is in the history -/
theorem recorded_of_groups {iso : Int → Text} {a i : String} (hiso : ∀ x y, iso x = iso y → x = y) (rid : Hist.Key → Text) (m : Nat)
    (alias : String → String → String) (hal : ∀ b, alias b i = a ↔ b = a) (l : List Item)
    (hne : NoEscape (run alias l) a i) (hroom : Room iso m (run alias l).ops) (hnc : Hist.NoCollision rid iso (run alias l).ops)
    (passes : List (Int × List Obs)) (honly : Only a i (seen l) passes) (co : Bool) (x : String) (gs : List (Bool × List Int))
    (hinc : (gs.flatMap (·.2)).Pairwise (· < ·))
    (h1 : passes.flatMap (fun p => submissionEvents a i p.2) = gs.map (report a i co))
    (h2 : passes.flatMap (fun p => sends a i p.2) = (gs.filter (·.1)).map (fun g => (x, handed co g.2))) :
    ∃ h, Hist.runAll rid iso m (run alias l).ops = some h ∧ Recorded iso h (run alias l) (seen l) a i (reported a i passes) := by
  obtain ⟨h, r1, r2, r3⟩ := flow_records rid m alias l hroom hnc
  refine ⟨h, r1, fun u => ?_⟩
  have hrep : reported a i passes = (gs.map fun g => (g.1, handed co g.2)).flatMap (·.2) := by
    have : reported a i passes = (passes.flatMap fun p => submissionEvents a i p.2).flatMap timesOf := by
      rw [List.flatMap_assoc]
      rfl
    rw [this, h1, List.flatMap_map, List.flatMap_map]
    congr 1
    funext g
    unfold report
    split <;> rfl
  have hev : submissionEvents a i (seen l) = gs.map (report a i co) := honly.1.trans h1
  have hc := flow_core (u := u) hiso alias hal l hne (gs.map fun g => (g.1, handed co g.2))
    (Nat.le_trans (handed_flat_count co gs u) (increasing_count hinc u))
    (by
      unfold subR subG
      rw [hev, List.flatMap_map, List.flatMap_map]
      congr 1
      funext g
      unfold report
      cases g.1 <;> rfl)
    (by
      rw [honly.2, h2, List.map_map]
      clear h1 h2 hrep hev hinc
      induction gs with
      | nil => rfl
      | cons g gs ih =>
        rw [List.map_cons, List.filter_cons, List.filter_cons]
        cases g.1
        · exact ih
        · simp only [if_true, List.map_cons, ih, Function.comp])
    (by
      intro g hg hf
      obtain ⟨g0, hg0, rfl⟩ := List.mem_map.1 hg
      have hm : report a i co g0 ∈ submissionEvents a i (seen l) := by rw [hev]; exact List.mem_map.2 ⟨g0, hg0, rfl⟩
      have hm := (List.mem_filter.1 hm).1
      unfold report at hm
      simp only at hf
      rw [hf] at hm
      exact ⟨_, _, hm⟩)
  rw [← hrep] at hc
  have hk := r3 (key iso a i u)
  have hab : ((((run alias l).ops.flatMap (Hist.reports iso)).filter fun x => x.1 = key iso a i u).map fun x => x.2.2) =
    about iso a i u (run alias l).ops := rfl
  rw [hab] at hk
  have hmem : key iso a i u ∈ Hist.keysOf iso (run alias l).ops ↔ about iso a i u (run alias l).ops ≠ [] := by
    have hkeys : Hist.keysOf iso (run alias l).ops = ((run alias l).ops.flatMap (Hist.reports iso)).map (·.1) := by
      rw [List.map_flatMap]
      rfl
    rw [hkeys, ← hab]
    simp only [ne_eq, List.map_eq_nil_iff, List.filter_eq_nil_iff, decide_eq_true_eq, List.mem_map]
    constructor
    · rintro ⟨y, hy, e⟩ hn
      exact hn y hy e
    · intro hn
      exact Classical.byContradiction fun hx => hn fun y hy e => hx ⟨y, hy, e⟩
  refine ⟨?_, nodup_filter_length r2 _, ?_⟩
  · have : (∃ r ∈ h.records.values, IsRunOf iso a i u r) ↔ key iso a i u ∈ h.records.values.map (Hist.keyOf iso) := by
      rw [List.mem_map]
      rfl
    rw [this, hk.1, hmem]
    rcases hc with ⟨q1, q2⟩ | ⟨q1, q2, _⟩
    · exact ⟨fun hu => absurd hu q1, fun hn => absurd q2 hn⟩
    · exact ⟨fun _ => q2, fun _ => q1⟩
  · intro r hr hru
    rcases hc with ⟨_, q2⟩ | ⟨_, _, q3⟩
    · exact absurd q2 (hmem.1 (hk.1.1 (List.mem_map.2 ⟨r, hr, hru⟩)))
    · rw [hk.2 r hr hru]
      exact q3

/-- **C124**: for a task of a store, over any history of passes in which nothing is lost (C83), while its executors end the runs in any
order and at any moment, also before the scheduler has said that it handed them over: the run history has one record for every run that
the scheduler reported, and for no other time of this task; the record says that the run was skipped because too many instances were
running, that it is in progress, or how it ended, and that is true.  `iso` is a way to write times that writes different times
differently.  Missing from the full property: the task must still be labelled with its own store (`C124_relabelled_witness`), a
`BaseException` must not escape (C29), run identifiers must not collide and listeners must not be called at once (C49). -/
theorem C124_recorded_partial {σ τ φ : Type} {O : StoreOps σ (Body τ φ)} {ans : Int → Except Exc (Option Int)}
    (L : LawfulStore O) (c : Cfg τ) (a i : String) (s s' : State σ τ φ) (hw : WF L s) (t : T τ φ)
    (ht : entry O s a i = some t) (r : Int) (hr : t.nrt = some r) (lo : Int) (hlo : lo ≤ r) (hf : Forward lo ans)
    (passes : List (Int × List Obs)) (h : Served L c (Regular t.body.trigger lo ans) a i t.body.executor s passes s')
    (iso : Int → Text) (hiso : ∀ x y, iso x = iso y → x = y) (rid : Hist.Key → Text) (m : Nat)
    (alias : String → String → String) (hal : ∀ b, alias b i = a ↔ b = a) (l : List Item) (honly : Only a i (seen l) passes)
    (hne : NoEscape (run alias l) a i) (hroom : Room iso m (run alias l).ops) (hnc : Hist.NoCollision rid iso (run alias l).ops) :
    ∃ h, Hist.runAll rid iso m (run alias l).ops = some h ∧ Recorded iso h (run alias l) (seen l) a i (reported a i passes) := by
  obtain ⟨gs, after, q1, _, _, _, q5, q6, _⟩ := C83_none_lost L c a i s s' hw t ht r hr lo hlo hf passes h
  exact recorded_of_groups hiso rid m alias hal l hne hroom hnc passes honly _ _ gs
    (q1.increasing hf fun r' hr' => by cases hr'; exact hlo) q5 q6

/-- **C124** (interval triggers): the run history of a task with an interval trigger that does not coalesce has exactly the times `r`,
`r + interval`, … up to the latest pass and the end date, one record each, with what is true of each. -/
theorem C124_interval_partial {σ φ : Type} {O : StoreOps σ (Body Trig φ)} {E : TzEnv} (hE : E.Fixed) (tz : Nat) (L : LawfulStore O)
    (c : Cfg Trig) (a i : String) (s s' : State σ Trig φ) (hw : WF L s) (t : T Trig φ) (ht : entry O s a i = some t) (g : Interval)
    (hg : t.body.trigger = .interval g) (hI : 0 < g.interval) (hj : g.jitter = none) (hco : t.body.coalesce = false)
    (r : Int) (hr : t.nrt = some r) (passes : List (Int × List Obs)) (T : Int) (hT : Latest passes T)
    (h : Served L c (fun e => ∃ draw, e.next = Trig.next E tz draw) a i t.body.executor s passes s')
    (iso : Int → Text) (hiso : ∀ x y, iso x = iso y → x = y) (rid : Hist.Key → Text) (m : Nat)
    (alias : String → String → String) (hal : ∀ b, alias b i = a ↔ b = a) (l : List Item) (honly : Only a i (seen l) passes)
    (hne : NoEscape (run alias l) a i) (hroom : Room iso m (run alias l).ops) (hnc : Hist.NoCollision rid iso (run alias l).ops) :
    ∃ n : Nat, (∀ k : Nat, k < n ↔ r + k * g.interval ≤ T ∧ ∀ j : Nat, 0 < j → j ≤ k → g.WithinEnd E tz (r + j * g.interval)) ∧
    ∃ h, Hist.runAll rid iso m (run alias l).ops = some h ∧
      Recorded iso h (run alias l) (seen l) a i ((List.range n).map (fun k : Nat => r + k * g.interval)) := by
  obtain ⟨n, h1, h2, _⟩ := C83_interval hE tz L c a i s s' hw t ht g hg hI hj hco r hr passes T hT h
  refine ⟨n, h2, ?_⟩
  rw [← h1]
  obtain ⟨hf, hreg⟩ := builtin_regular hE tz t.body.trigger (by rw [hg]; exact ⟨hI, hj⟩) r (by rw [hg]; trivial)
  exact C124_recorded_partial L c a i s s' hw t ht r hr r (Int.le_refl _) hf passes (h.mono hreg) iso hiso rid m alias hal l honly hne
    hroom hnc

/-- **C124** (cron triggers): the run history of a task with a cron trigger that does not coalesce has exactly `r` and the matching times
of the calendar after it, up to the latest pass and the end date, one record each, with what is true of each. -/
theorem C124_cron_partial {σ φ : Type} {O : StoreOps σ (Body Trig φ)} {E : TzEnv} (hE : E.Fixed) (tz : Nat) (L : LawfulStore O)
    (c : Cfg Trig) (a i : String) (s s' : State σ Trig φ) (hw : WF L s) (t : T Trig φ) (ht : entry O s a i = some t) (g : Cron.Trig)
    (hg : t.body.trigger = .cron g) (hwf : g.WfAll) (hj : g.jitter = none) (hco : t.body.coalesce = false)
    (r : Int) (hr : t.nrt = some r) (hcal : 0 ≤ ((E (g.zone tz)).loc r).1) (passes : List (Int × List Obs)) (T : Int) (hT : Latest passes T)
    (h : Served L c (fun e => ∃ draw, e.next = Trig.next E tz draw) a i t.body.executor s passes s')
    (iso : Int → Text) (hiso : ∀ x y, iso x = iso y → x = y) (rid : Hist.Key → Text) (m : Nat)
    (alias : String → String → String) (hal : ∀ b, alias b i = a ↔ b = a) (l : List Item) (honly : Only a i (seen l) passes)
    (hne : NoEscape (run alias l) a i) (hroom : Room iso m (run alias l).ops) (hnc : Hist.NoCollision rid iso (run alias l).ops) :
    ∃ us : List Int, (∀ u, u ∈ us ↔ u ≤ T ∧ (u = r ∨ r < u ∧ Cron.FiresAt g.exprs (E (g.zone tz)) u ∧ g.WithinEnd E tz u)) ∧
    ∃ h, Hist.runAll rid iso m (run alias l).ops = some h ∧ Recorded iso h (run alias l) (seen l) a i us := by
  obtain ⟨_, h2, _⟩ := C83_cron hE tz L c a i s s' hw t ht g hg hwf hj hco r hr hcal passes T hT h
  refine ⟨_, h2, ?_⟩
  obtain ⟨hf, hreg⟩ := builtin_regular hE tz t.body.trigger (by rw [hg]; exact ⟨hwf, hj⟩) r (by rw [hg]; exact hcal)
  exact C124_recorded_partial L c a i s s' hw t ht r hr r (Int.le_refl _) hf passes (h.mono hreg) iso hiso rid m alias hal l honly hne
    hroom hnc

/-! ## Examples -/

/-- functions that let nothing escape -/
theorem noEscape_of_items (alias : String → String → String) (l : List Item) (a i : String)
    (h : ∀ k w x, Item.ends k w x ∈ l → ∀ j, (w j).outcome ≠ .escapes) : NoEscape (run alias l) a i := by
  suffices H : ∀ e ∈ (run alias l).ended, ∀ j, (e.w j).outcome ≠ .escapes from fun e he _ _ j _ _ _ => H e he j
  induction l using Hist.list_reverse_ind with
  | h0 => simp [run, init]
  | h1 l x ih =>
    have ih := ih fun k w y hy => h k w y (by simp [hy])
    rw [run_append]
    generalize run alias l = s at *
    intro e he
    unfold step at he
    split at he
    · exact ih e he
    · exact ih e he
    · exact ih e he
    · exact ih e he
    · split at he
      · exact ih e he
      · rcases List.mem_append.1 he with he | he
        · exact ih e he
        · simp only [List.mem_singleton] at he
          subst he
          exact h _ _ _ (List.mem_append.2 (.inr (List.mem_singleton.2 rfl)))

theorem exIso_inj (x y : Int) (h : Hist.exIso x = Hist.exIso y) : x = y := by
  unfold Hist.exIso at h
  exact Int.repr_injective (String.toList_inj.1 h)

def exCtx : Ctx := ⟨⟨none, none, none⟩, none, none, 0⟩

/-- the function returns at once, always; or it raises the second time -/
def exGood : Nat → Exec.Reading Ret Raised := fun _ => ⟨some 1000000, 0, .returns none⟩
def exSecond : Nat → Exec.Reading Ret Raised :=
  fun j => ⟨some 1000000, 0, if j = 1 then .raises ⟨("ValueError".toList, "no".toList, "ValueError('no')".toList), "Traceback".toList⟩ else .returns none⟩

/-- four passes; the first run ends before its submission is reported, those of the second pass end after it, the last are in progress -/
def exItems (ps : List (Int × List Obs)) : List Item :=
  match ps with
  | [p1, p2, p3, p4] =>
    ((p1.2.take 1).map (.obs · exCtx)) ++ [.ends 0 exGood fun _ => exCtx] ++ ((p1.2.drop 1).map (.obs · exCtx)) ++
    (p2.2.map (.obs · exCtx)) ++ [.ends 1 exSecond fun _ => exCtx, .ends 7 exGood fun _ => exCtx] ++ (p3.2.map (.obs · exCtx)) ++
    (p4.2.map (.obs · exCtx))
  | _ => []

def exPs : Option (List (Int × List Obs)) :=
  (exPasses exEnv exTrigCfg "default" [secs 7, secs 33, secs 34, secs 70] exTrigState).map (·.1)

set_option synthInstance.maxSize 2048 in
example : exPs.map (fun ps => (submissionEvents "s" "tick" (seen (exItems ps)), sends "s" "tick" (seen (exItems ps)))) =
    exPs.map (fun ps => (ps.flatMap (fun p => submissionEvents "s" "tick" p.2), ps.flatMap (fun p => sends "s" "tick" p.2))) := by
  decide +kernel

/-- what is in the history: the runs for 5 and 15 have succeeded, that for 25 has failed, the others are in progress; the run of the other
task is there too -/
example : (exPs.bind fun ps => (Hist.runAll (Hist.runIdOf id) Hist.exIso 10 (run (fun b _ => b) (exItems ps)).ops).map fun h =>
      h.records.values.map fun r => (r.task, r.time, r.status)) =
    some [("tick".toList, .utc (secs 5), .succeeded), ("once".toList, .utc (secs 8), .running), ("tick".toList, .utc (secs 15), .succeeded),
      ("tick".toList, .utc (secs 25), .failed), ("tick".toList, .utc (secs 35), .running), ("tick".toList, .utc (secs 45), .running),
      ("tick".toList, .utc (secs 55), .running), ("tick".toList, .utc (secs 65), .running)] := by decide +kernel

/-- the hypotheses of the theorems are met by it -/
example : ∀ ps, exPs = some ps → Room Hist.exIso 10 (run (fun b _ => b) (exItems ps)).ops ∧
    NoEscape (run (fun b _ => b) (exItems ps)) "s" "tick" ∧ Hist.NoCollision (Hist.runIdOf id) Hist.exIso (run (fun b _ => b) (exItems ps)).ops ∧
    Only "s" "tick" (seen (exItems ps)) ps := by
  intro ps hps
  have h1 : exPs.map (fun ps => decide ((Hist.keysOf Hist.exIso (run (fun b _ => b) (exItems ps)).ops).eraseDups.length ≤ 10)) = some true := by
    decide +kernel
  have h2 : exPs.map (fun ps => decide (∀ k ∈ Hist.keysOf Hist.exIso (run (fun b _ => b) (exItems ps)).ops,
      ∀ k' ∈ Hist.keysOf Hist.exIso (run (fun b _ => b) (exItems ps)).ops, Hist.runIdOf id k = Hist.runIdOf id k' → k = k')) = some true := by
    decide +kernel
  have h3 : exPs.map (fun ps => decide (submissionEvents "s" "tick" (seen (exItems ps)) = ps.flatMap (fun p => submissionEvents "s" "tick" p.2) ∧
      sends "s" "tick" (seen (exItems ps)) = ps.flatMap (fun p => sends "s" "tick" p.2))) = some true := by decide +kernel
  rw [hps] at h1 h2 h3
  have h2 := of_decide_eq_true (Option.some.inj h2)
  have h3 := of_decide_eq_true (Option.some.inj h3)
  refine ⟨⟨_, fun k hk => List.mem_eraseDups.2 hk, by simpa using h1⟩, noEscape_of_items _ _ _ _ ?_, h2, h3⟩
  intro k w x hm
  have hw : w = exGood ∨ w = exSecond := by
    unfold exItems at hm
    split at hm
    · simp only [List.mem_append, List.mem_map, List.mem_cons, List.not_mem_nil, or_false, reduceCtorEq, and_false, exists_false, false_or,
        or_false, Item.ends.injEq] at hm
      rcases hm with ⟨_, rfl, _⟩ | ⟨_, rfl, _⟩ | ⟨_, rfl, _⟩ <;> simp
    · cases hm
  rcases hw with rfl | rfl
  · intro j; simp [exGood]
  · intro j; simp only [exSecond]; split <;> simp

/-- the state of the example after `update_task("tick", store_alias="other")`, and the labels of its tasks -/
def exRelabelled : State (Memory.Store (Body Trig Unit)) Trig Unit :=
  (updateTask Memory.ops "tick" none (fun t => some { t with body := { t.body with store := "other" } }) exTrigState).1
def exLabel (b i : String) : String := ((entry Memory.ops exRelabelled b i).map (·.body.store)).getD b

set_option synthInstance.maxSize 2048 in
/-- **Where the history is wrong.**  After `update_task("tick", store_alias="other")` the task is still in the store `s`.  The scheduler
reports its runs for `s`, the executor for `other`: the run for 5 that has ended is in the history twice, once as a success of a task of
`other` that does not exist, and once as a run of the task of `s` that is still in progress, for ever. -/
theorem C124_relabelled_witness :
    ((exPasses exEnv exTrigCfg "default" [secs 7] exRelabelled).map fun p =>
        run exLabel (p.1.flatMap (fun q => q.2.map (Item.obs · exCtx)) ++ [.ends 0 exGood fun _ => exCtx])).map (fun f =>
      (f.running.length, f.ended.length, (Hist.runAll (Hist.runIdOf id) Hist.exIso 10 f.ops).map fun h =>
        h.records.values.map fun r => (r.store, r.time, r.status))) =
    some (0, 1, some [(some "s".toList, .utc (secs 5), .running), (some "other".toList, .utc (secs 5), .succeeded)]) := by
  decide +kernel

end Flow
end Asyncz
