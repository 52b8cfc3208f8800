import Verif.Props.Flow
import Verif.Props.HistoryOrigin
/-!
# C124: what the history tells of a run that has ended
-/
namespace Asyncz
namespace Flow
open Listing (Text)
open Sched
open Hist.Spec (Status ShownAs)

/-- The record shows how the run for the time `u` ended, given what `run_task` met: too late; with the value that the function returned
(nothing for `None`); or with the exception it raised and its traceback.  Long texts are cut. -/
inductive Shows (w : Exec.Reading Ret Raised) (u : Int) (r : Hist.Rec) : Prop
  | missed (h : Exec.IsLate w u) (hs : r.status = .missed) (hr : r.ret = none)
      (hx : r.excType = none ∧ r.excMsg = none ∧ r.exc = none ∧ r.tb = none)
  | returned {v : Ret} (h : ¬ Exec.IsLate w u) (hv : w.outcome = .returns v) (hs : r.status = .succeeded)
      (hn : v = none → r.ret = none) (hr : ∀ t, v = some t → ∃ s, r.ret = some s ∧ ShownAs t s)
      (hx : r.excType = none ∧ r.excMsg = none ∧ r.exc = none ∧ r.tb = none)
  | raised {x : Raised} (h : ¬ Exec.IsLate w u) (hv : w.outcome = .raises x) (hs : r.status = .failed) (hr : r.ret = none)
      (ht : r.excType = some x.exc.1) (hm : ∃ s, r.excMsg = some s ∧ ShownAs x.exc.2.1 s) (hx : ∃ s, r.exc = some s ∧ ShownAs x.exc.2.2 s)
      (htb : r.tb = some x.tb)

/-- the executions that the history is told of are events of runs that have ended -/
theorem ops_executions (alias : String → String → String) (l : List Item) (x : Hist.Execution) (h : Hist.Op.execution x ∈ (run alias l).ops) :
    ∃ e ∈ (run alias l).ended, ∃ c, ∃ ev ∈ Exec.dispatched (Exec.runTask e.w e.got.times).2,
      Hist.Op.execution x = execution e.got.id (alias e.got.store e.got.id) c ev := by
  induction l using Hist.list_reverse_ind with
  | h0 => cases h
  | h1 l y ih =>
    rw [run_append] at h ⊢
    generalize run alias l = s at *
    unfold step at h ⊢
    split at h
    · exact ih h
    · rcases List.mem_append.1 h with h | h
      · exact ih h
      · simp only [List.mem_singleton] at h
        unfold submission at h
        cases h
    · rcases List.mem_append.1 h with h | h
      · exact ih h
      · simp only [List.mem_singleton] at h
        unfold submission at h
        cases h
    · exact ih h
    · rename_i k w c
      cases hk : s.running[k]? with
      | none =>
        rw [hk] at h
        simp only at h ⊢
        exact ih h
      | some g =>
        rw [hk] at h
        simp only at h ⊢
        rcases List.mem_append.1 h with h | h
        · obtain ⟨e, he, q⟩ := ih h
          exact ⟨e, List.mem_append.2 (.inl he), q⟩
        · obtain ⟨p, hp, hx⟩ := List.mem_map.1 h
          have hev : p.1 ∈ Exec.dispatched (Exec.runTask w g.times).2 := by
            obtain ⟨_, hlt, he⟩ := List.mem_zipIdx hp
            rw [he]
            exact List.getElem_mem _
          exact ⟨⟨g, w⟩, List.mem_append.2 (.inr (by simp)), c p.2, p.1, hev, hx.symm⟩

/-- an event of a run is about one of its times and describes what happened -/
theorem event_described (w : Nat → Exec.Reading Ret Raised) (ts : List Int)
    (hexc : ∀ j t, ts[j]? = some t → ¬ Exec.IsLate (w j) t → (w j).outcome ≠ .escapes)
    (ev : Exec.Event Ret Raised) (h : ev ∈ Exec.dispatched (Exec.runTask w ts).2) :
    ∃ j : Nat, ts[j]? = some (evTime ev) ∧ Exec.Describes (w j) (evTime ev) ev := by
  obtain ⟨events, _, h2, h3, h4, _⟩ := Exec.C29_one_event_each_partial w ts hexc
  rw [h2] at h
  obtain ⟨j, hj⟩ := List.mem_iff_getElem?.1 h
  have hlt : j < ts.length := by
    have := (List.getElem?_eq_some_iff.1 hj).1
    omega
  obtain ⟨ev', he, hD⟩ := h4 j ts[j] (List.getElem?_eq_getElem hlt)
  rw [hj] at he
  cases he
  have ht : evTime ev = ts[j] := by
    rcases hD with ⟨_, rfl⟩ | ⟨_, ⟨_, _, rfl⟩ | ⟨_, _, rfl⟩⟩ <;> rfl
  rw [ht]
  exact ⟨j, List.getElem?_eq_getElem hlt, hD⟩

/-- **C124, what is told of a run that has ended**: a record of the task that says how a run ended is that of a run of the task for this
very time which has ended, and shows how: too late, with the value returned, or with the exception raised.  This needs no room in the
history and holds whatever the scheduler did. -/
theorem C124_result_partial {iso : Int → Text} {a i : String} (hiso : ∀ x y, iso x = iso y → x = y) (rid : Hist.Key → Text) (m : Nat)
    (alias : String → String → String) (hal : ∀ b, alias b i = a ↔ b = a) (l : List Item) (hne : NoEscape (run alias l) a i)
    (hnc : Hist.NoCollision rid iso (run alias l).ops) {h : Hist.State} (hh : Hist.runAll rid iso m (run alias l).ops = some h)
    (u : Int) (r : Hist.Rec) (hr : r ∈ h.records.values) (hu : IsRunOf iso a i u r)
    (hs : r.status = .succeeded ∨ r.status = .failed ∨ r.status = .missed) :
    ∃ e ∈ (run alias l).ended, e.got.store = a ∧ e.got.id = i ∧ ∃ j : Nat, e.got.times[j]? = some u ∧ Shows (e.w j) u r := by
  obtain ⟨x, hx, hT⟩ := Hist.C49_result_origin rid iso m _ hnc hh r hr hs
  obtain ⟨e, he, c, ev, hev, hxe⟩ := ops_executions alias l x hx
  have hrun : key iso (alias e.got.store e.got.id) e.got.id (evTime ev) = key iso a i u := by
    have h1 : Hist.runKey iso x.task x.store (Hist.normalize x.time) = key iso (alias e.got.store e.got.id) e.got.id (evTime ev) := by
      unfold execution at hxe
      cases ev <;> (cases hxe; rfl)
    rw [← h1, hT.run]
    exact hu
  obtain ⟨k1, k2, k3⟩ := (key_eq hiso _ _ _).1 hrun
  rw [k2] at k1
  have k1 := (hal _).1 k1
  obtain ⟨j, hj, hD⟩ := event_described e.w e.got.times (hne e he k1 k2) ev hev
  rw [k3] at hj hD
  refine ⟨e, he, k1, k2, j, hj, ?_⟩
  have hclip : ∀ t : Text, ShownAs t (Hist.clip t) := Hist.history_clip
  rcases hD with ⟨hl, rfl⟩ | ⟨hl, ⟨v, hv, rfl⟩ | ⟨v, hv, rfl⟩⟩
  · unfold execution at hxe
    cases hxe
    exact .missed hl hT.status hT.ret ⟨hT.excType, hT.excMsg, hT.exc, hT.tb⟩
  · unfold execution at hxe
    cases hxe
    refine .returned hl hv hT.status (fun hn => ?_) (fun t ht => ?_) ⟨hT.excType, hT.excMsg, hT.exc, hT.tb⟩
    · rw [hT.ret, hn]; rfl
    · exact ⟨Hist.clip t, by rw [hT.ret, ht]; rfl, hclip t⟩
  · unfold execution at hxe
    cases hxe
    exact .raised hl hv hT.status hT.ret hT.excType ⟨_, hT.excMsg, hclip _⟩ ⟨_, hT.exc, hclip _⟩ hT.tb

-- the history of `exItems` (which meets the hypotheses, see there): what it shows of the runs for 15 and 25
example : (exPs.bind fun ps => (Hist.runAll (Hist.runIdOf id) Hist.exIso 10 (run (fun b _ => b) (exItems ps)).ops).map fun h =>
      (h.records.values.filter fun r => r.time = .utc (secs 15) ∨ r.time = .utc (secs 25)).map fun r => (r.status, r.excType, r.tb)) =
    some [(.succeeded, none, none), (.failed, some "ValueError".toList, some "Traceback".toList)] := by decide +kernel

end Flow
end Asyncz
