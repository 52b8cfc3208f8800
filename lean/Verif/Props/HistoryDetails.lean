import Verif.Props.History
/-!
# C49: what a run record tells about its task and its result
-/
namespace Asyncz
namespace Hist
open Listing (Text orEmpty)
open Dash (truthy)
open Spec (Status Terminal)

/-- a text that is there and not empty -/
def Given (x : Option Text) : Prop := ∃ c t, x = some (c :: t)

/-- What is known is kept; what was not is taken from the report, if it says it. -/
def Learns (old new now : Option Text) : Prop := (Given old → now = old) ∧ (¬ Given old → Given new → now = new)

/-- the first of the two that is there -/
def FirstGiven (x y r : Option Text) : Prop := (Given x → r = x) ∧ (¬ Given x → r = y)

theorem truthy_given (x : Option Text) : truthy x = true ↔ Given x := by
  unfold Given
  match x with
  | none => simp [truthy]
  | some [] => simp [truthy]
  | some (c :: t) => simp [truthy]

theorem fill_learns (old new : Option Text) : Learns old new (fill old new) := by
  unfold fill Learns
  rw [← truthy_given, ← truthy_given]
  cases truthy old <;> cases truthy new <;> simp

theorem orText_first (x y : Option Text) : FirstGiven x y (orText x y) := by
  unfold orText FirstGiven
  rw [← truthy_given]
  cases truthy x <;> simp

/-- The description of a run after a report: `old` is what was known before, if the run was listed. -/
structure Described (old : Option Rec) (mt : Meta) (identity : Option Text) (r : Rec) : Prop where
  again : ∀ o, old = some o → r.runId = o.runId ∧ r.task = o.task ∧ r.store = o.store ∧ r.time = o.time ∧
    r.createdAt = o.createdAt ∧ Learns o.taskName mt.taskName r.taskName ∧ Learns o.callable mt.callable r.callable ∧
    Learns o.executor mt.executor r.executor ∧ Learns o.identity identity r.identity
  first : old = none → r.taskName = mt.taskName ∧ r.callable = mt.callable ∧ r.executor = mt.executor ∧ r.identity = identity

theorem get_drop_last {d : Dict Text Rec} {k : Text} {v : Rec} (hk : k ∉ d.keys) (n : Nat) (hn : n ≤ d.length) :
    Dict.get? ((d ++ [(k, v)]).drop n) k = some v := by
  induction d generalizing n with
  | nil =>
    have : n = 0 := by simpa using hn
    subst this
    simp [Dict.get?]
  | cons p d ih =>
    simp only [Dict.keys, List.map_cons, List.mem_cons, not_or] at hk
    cases n with
    | succ n => exact ih hk.2 n (by simpa using hn)
    | zero =>
      have := ih hk.2 0 (Nat.zero_le _)
      simp only [List.drop_zero] at this ⊢
      obtain ⟨a, b⟩ := p
      have hne : a ≠ k := fun h => hk.1 h.symm
      simp only [List.cons_append, Dict.get?, hne, if_false]
      exact this

theorem get_drop_other {d : Dict Text Rec} (hw : d.WF) {k r : Text} {v : Rec} (hr : r ≠ k) (n : Nat) :
    Dict.get? ((d ++ [(k, v)]).drop n) r = none ∨ Dict.get? ((d ++ [(k, v)]).drop n) r = d.get? r := by
  cases hg : Dict.get? ((d ++ [(k, v)]).drop n) r with
  | none => exact .inl rfl
  | some x =>
    right
    have := List.mem_of_mem_drop (Dict.mem_of_get? hg)
    rcases List.mem_append.1 this with h | h
    · exact (Dict.get?_of_mem hw h).symm
    · simp only [List.mem_singleton, Prod.mk.injEq] at h
      exact absurd h.1 hr

/-- the records after one report -/
theorem records_after {d d' : Dict Text Rec} {k : Text} {m : Nat} (hm : 0 < m) (hw : d.WF) (g : Rec → Rec) (new : Rec)
    (h : d' = (match d.get? k with
      | some old => d.set k (g old)
      | none => Dash.Spec.newest m (d ++ [(k, new)]))) :
    (∀ r, r ≠ k → d'.get? r = none ∨ d'.get? r = d.get? r) ∧
    ∃ rec, d'.get? k = some rec ∧ (∀ o, d.get? k = some o → rec = g o) ∧ (d.get? k = none → rec = new) := by
  cases hg : d.get? k with
  | some old =>
    rw [hg] at h
    subst h
    refine ⟨fun r hr => .inr ?_, g old, ?_, (fun o ho => by cases ho; rfl), (fun hn => by cases hn)⟩
    · rw [Dict.get?_set, if_neg hr]
    · rw [Dict.get?_set, if_pos rfl]
  | none =>
    rw [hg] at h
    subst h
    have hk := (Dict.get?_eq_none _ _).1 hg
    refine ⟨fun r hr => get_drop_other hw hr _, new, ?_, (fun o ho => by cases ho), fun _ => rfl⟩
    exact get_drop_last hk _ (by simp; omega)

theorem submitRec_keeps (e : Submission) (r : Rec) : (submitRec e r).runId = r.runId ∧ (submitRec e r).task = r.task ∧ (submitRec e r).store = r.store ∧
      (submitRec e r).time = r.time ∧ (submitRec e r).createdAt = r.createdAt ∧ (submitRec e r).taskName = r.taskName ∧
      (submitRec e r).callable = r.callable ∧ (submitRec e r).executor = r.executor ∧ (submitRec e r).identity = r.identity ∧
      (submitRec e r).ret = r.ret ∧ (submitRec e r).excType = r.excType ∧ (submitRec e r).excMsg = r.excMsg ∧
      (submitRec e r).exc = r.exc ∧ (submitRec e r).tb = r.tb ∧ (Terminal r.status → (submitRec e r).status = r.status) ∧
      (submitRec e r).coalesced = max r.coalesced e.coalesced ∧
      (submitRec e r).source = if truthy e.source then orEmpty e.source else "scheduled".toList := by
  obtain ⟨sk, _, _, _, src, co, _, _, _⟩ := e
  obtain ⟨a1, a2, a3, a4, a5, a6, a7, a8, a9, a10, st, a12, a13, a14, a15, a16, a17, a18, a19, a20⟩ := r
  cases st <;> cases sk <;>
    exact ⟨rfl, rfl, rfl, rfl, rfl, rfl, rfl, rfl, rfl, rfl, rfl, rfl, rfl, rfl,
      (by first | exact fun _ => rfl | exact fun h => absurd rfl h), rfl, rfl⟩

section
variable (rid : Key → Text) (iso : Int → Text) (m : Nat) (hm : 0 < m) (ops : List Op)
include hm

theorem runAll_snoc {o : Op} {s s' : State} (h1 : runAll rid iso m ops = some s) (h2 : runAll rid iso m (ops ++ [o]) = some s') :
    ∃ l, step rid iso m s o = some (s', l) := by
  unfold runAll at h1 h2
  rw [List.foldlM_append, h1] at h2
  simp only [List.foldlM_cons, List.foldlM_nil, Option.bind_eq_bind, Option.bind_some, Option.bind_eq_some_iff, Option.map_eq_some_iff] at h2
  obtain ⟨a, ⟨x, hx, rfl⟩, h⟩ := h2
  have : x.1 = s' := by simpa using h
  exact ⟨x.2, by rw [hx, ← this]⟩

/-- **C49, result of a run.**  After the report that a run has ended, its record tells the status, time and result reported
and describes the task as known before, or as reported if that was not known; no other record is altered. -/
theorem history_result (e : Execution) (hc : NoCollision rid iso (ops ++ [.execution e])) {s s' : State}
    (h1 : runAll rid iso m ops = some s) (h2 : runAll rid iso m (ops ++ [.execution e]) = some s') :
    (∀ r, r ≠ rid (runKey iso e.task e.store (normalize e.time)) → get s' r = none ∨ get s' r = get s r) ∧
    ∃ rec identity, get s' (rid (runKey iso e.task e.store (normalize e.time))) = some rec ∧
      FirstGiven e.identity e.schedIdentity identity ∧
      Described (get s (rid (runKey iso e.task e.store (normalize e.time)))) e.mt identity rec ∧
      rec.finishedAt = some e.now ∧ rec.ret = e.ret.map clip ∧
      rec.excType = e.exc.map (·.1) ∧ rec.excMsg = e.exc.map (fun x => clip x.2.1) ∧ rec.exc = e.exc.map (fun x => clip x.2.2) ∧
      rec.tb = e.tb ∧ (rec.status = .succeeded ↔ e.code = .executed) ∧ (rec.status = .failed ↔ e.code = .error) ∧
      (rec.status = .missed ↔ e.code = .missed) ∧
      (∀ o, get s (rid (runKey iso e.task e.store (normalize e.time))) = some o → o.submittedAt ≠ none → rec.submittedAt = o.submittedAt) ∧
      (∀ o, get s (rid (runKey iso e.task e.store (normalize e.time))) = some o → rec.source = o.source ∧ rec.coalesced = o.coalesced) := by
  have hK : ∀ k ∈ keysOf iso ops, k ∈ keysOf iso (ops ++ [.execution e]) := fun k hk => by
    simp only [keysOf, List.flatMap_append, List.mem_append]; exact .inl hk
  obtain ⟨s0, k1, k2, _⟩ := runAll_ok (m := m) hc.inj ops hK
  rw [h1] at k1; cases k1
  obtain ⟨l, hl⟩ := runAll_snoc rid iso m hm ops h1 h2
  obtain ⟨s1, line, q1, _, q3, _⟩ := recordExecution_ok hc.inj e k2 (by
    simp only [keysOf, List.flatMap_append, List.mem_append]
    exact .inr (by simp [reports]))
  have : s1 = s' := by
    simp only [step] at hl
    rw [q1] at hl
    simp only [Option.some.injEq, Prod.mk.injEq] at hl
    exact hl.1
  subst this
  obtain ⟨r1, rec, r2, r3, r4⟩ := records_after hm k2.wf
    (fun old => executeRec e (refill e.mt (orText e.identity e.schedIdentity) old)) _ q3
  refine ⟨r1, rec, orText e.identity e.schedIdentity, r2, orText_first _ _, ⟨fun o ho => ?_, fun hn => ?_⟩, ?_⟩
  · have := r3 o ho
    subst this
    exact ⟨rfl, rfl, rfl, rfl, rfl, fill_learns _ _, fill_learns _ _, fill_learns _ _, fill_learns _ _⟩
  · have := r4 hn
    subst this
    exact ⟨rfl, rfl, rfl, rfl⟩
  · have hst : ∀ c : Code, (statusOf c = .succeeded ↔ c = .executed) ∧ (statusOf c = .failed ↔ c = .error) ∧
        (statusOf c = .missed ↔ c = .missed) := by intro c; cases c <;> simp [statusOf]
    cases hg : s.records.get? (rid (runKey iso e.task e.store (normalize e.time))) with
    | some old =>
      have := r3 old hg
      subst this
      refine ⟨rfl, rfl, rfl, rfl, rfl, rfl, (hst e.code).1, (hst e.code).2.1, (hst e.code).2.2, fun o ho hs => ?_, fun o ho => ?_⟩
      · unfold get at ho; rw [hg] at ho; cases ho
        simp only [executeRec, refill]
        cases hsub : old.submittedAt with
        | none => exact absurd hsub hs
        | some t => simp
      · unfold get at ho; rw [hg] at ho; cases ho; exact ⟨rfl, rfl⟩
    | none =>
      have := r4 hg
      subst this
      refine ⟨rfl, rfl, rfl, rfl, rfl, rfl, (hst e.code).1, (hst e.code).2.1, (hst e.code).2.2, fun o ho => ?_, fun o ho => ?_⟩ <;>
        (unfold get at ho; rw [hg] at ho; cases ho)

/-- **C49, submission of a run.**  After the report that one run was submitted (or skipped), its record tells the source,
keeps the result of a run that is over, and describes the task as above; no other record is altered. -/
theorem history_submitted (e : Submission) (x : RawTime × Meta) (hx : e.times = [x])
    (hc : NoCollision rid iso (ops ++ [.submission e])) {s s' : State}
    (h1 : runAll rid iso m ops = some s) (h2 : runAll rid iso m (ops ++ [.submission e]) = some s') :
    (∀ r, r ≠ rid (runKey iso e.task e.store (normalize x.1)) → get s' r = none ∨ get s' r = get s r) ∧
    ∃ rec identity, get s' (rid (runKey iso e.task e.store (normalize x.1))) = some rec ∧
      FirstGiven e.identity e.schedIdentity identity ∧
      Described (get s (rid (runKey iso e.task e.store (normalize x.1)))) x.2 identity rec ∧
      (Given e.source → some rec.source = e.source) ∧ (¬ Given e.source → rec.source = "scheduled".toList) ∧
      (∀ o, get s (rid (runKey iso e.task e.store (normalize x.1))) = some o →
        rec.ret = o.ret ∧ rec.excType = o.excType ∧ rec.excMsg = o.excMsg ∧ rec.exc = o.exc ∧ rec.tb = o.tb ∧
        (Terminal o.status → rec.status = o.status) ∧ o.coalesced ≤ rec.coalesced ∧ e.coalesced ≤ rec.coalesced ∧
        (rec.coalesced = o.coalesced ∨ rec.coalesced = e.coalesced)) := by
  have hK : ∀ k ∈ keysOf iso ops, k ∈ keysOf iso (ops ++ [.submission e]) := fun k hk => by
    simp only [keysOf, List.flatMap_append, List.mem_append]; exact .inl hk
  obtain ⟨s0, k1, k2, _⟩ := runAll_ok (m := m) hc.inj ops hK
  rw [h1] at k1; cases k1
  obtain ⟨l, hl⟩ := runAll_snoc rid iso m hm ops h1 h2
  obtain ⟨s1, line, q1, _, q3, _⟩ := submitOne_ok hc.inj e [] k2 x (by
    simp only [keysOf, List.flatMap_append, List.mem_append]
    exact .inr (by simp [reports, hx]))
  have : s1 = s' := by
    simp only [step, recordSubmission, hx, List.foldlM_cons, List.foldlM_nil] at hl
    rw [q1] at hl
    have hl' : some (s1, line) = some (s', l) := hl
    cases hl'; rfl
  subst this
  obtain ⟨r1, rec, r2, r3, r4⟩ := records_after hm k2.wf
    (fun old => submitRec e (refill x.2 (orText e.identity e.schedIdentity) old)) _ q3
  have hkeep := submitRec_keeps e
  refine ⟨r1, rec, orText e.identity e.schedIdentity, r2, orText_first _ _, ⟨fun o ho => ?_, fun hn => ?_⟩, ?_, ?_, fun o ho => ?_⟩
  · have := r3 o ho
    subst this
    obtain ⟨a1, a2, a3, a4, a5, a6, a7, a8, a9, _⟩ := hkeep (refill x.2 (orText e.identity e.schedIdentity) o)
    refine ⟨a1, a2, a3, a4, a5, ?_, ?_, ?_, ?_⟩
    · rw [a6]; exact fill_learns _ _
    · rw [a7]; exact fill_learns _ _
    · rw [a8]; exact fill_learns _ _
    · rw [a9]; exact fill_learns _ _
  · have := r4 hn
    subst this
    obtain ⟨_, _, _, _, _, a6, a7, a8, a9, _⟩ := hkeep (fresh rid iso e.task e.store x.1 x.2 (orText e.identity e.schedIdentity) e.now)
    exact ⟨a6, a7, a8, a9⟩
  · rintro ⟨c, t, ht⟩
    have hsrc : rec.source = if truthy e.source then orEmpty e.source else "scheduled".toList := by
      cases hg : s.records.get? (rid (runKey iso e.task e.store (normalize x.1))) with
      | some old => rw [r3 old hg]; exact (hkeep _).2.2.2.2.2.2.2.2.2.2.2.2.2.2.2.2
      | none => rw [r4 hg]; exact (hkeep _).2.2.2.2.2.2.2.2.2.2.2.2.2.2.2.2
    rw [hsrc, ht]
    rfl
  · intro hn
    have hsrc : rec.source = if truthy e.source then orEmpty e.source else "scheduled".toList := by
      cases hg : s.records.get? (rid (runKey iso e.task e.store (normalize x.1))) with
      | some old => rw [r3 old hg]; exact (hkeep _).2.2.2.2.2.2.2.2.2.2.2.2.2.2.2.2
      | none => rw [r4 hg]; exact (hkeep _).2.2.2.2.2.2.2.2.2.2.2.2.2.2.2.2
    rw [hsrc, if_neg]
    rw [truthy_given]; exact hn
  · have := r3 o ho
    subst this
    obtain ⟨_, _, _, _, _, _, _, _, _, b1, b2, b3, b4, b5, b6, b7, _⟩ := hkeep (refill x.2 (orText e.identity e.schedIdentity) o)
    refine ⟨b1, b2, b3, b4, b5, b6, ?_, ?_, ?_⟩
    · rw [b7]; exact Int.le_max_left _ _
    · rw [b7]; exact Int.le_max_right _ _
    · rw [b7]
      have : (refill x.2 (orText e.identity e.schedIdentity) o).coalesced = o.coalesced := rfl
      rw [this]
      omega

end

/-- an execution report that tells the name of the task and its result -/
def exTold (name : String) (now : Int) : Op :=
  .execution ⟨.executed, ['a'], none, .aware 1, some "42".toList, none, none, ⟨some name.toList, none, none⟩, none, some ['s'], now⟩

/-- the name is learnt from the first report that tells it and kept -/
example : (runAll (runIdOf id) exIso 2 [exSubmit "a" none 1 5, exTold "job" 6]).map
      (fun s => s.records.values.map fun r => (r.taskName, r.identity, r.ret)) =
    some [(some "job".toList, some ['s'], some "42".toList)] ∧
    (runAll (runIdOf id) exIso 2 [exSubmit "a" none 1 5, exTold "job" 6, exTold "other" 7]).map
      (fun s => s.records.values.map fun r => (r.taskName, r.finishedAt)) = some [(some "job".toList, some 7)] := by
  refine ⟨?_, ?_⟩ <;> decide +kernel

end Hist
end Asyncz
