import Verif.Lemmas.History
/-!
# C49: the dashboard's run history
-/
namespace Asyncz
namespace Hist
open Listing (Text isIn orEmpty)
open Dash (truthy scan joinSpace Str)
open Spec (Status Report Run Terminal word)

theorem isTerminal_iff (s : Status) : isTerminal s = true ↔ Terminal s := by
  cases s <;> simp [isTerminal, Terminal]

/-! ## What is reported -/

/-- the reports a call makes about runs: one per run time of a submission, one for an execution -/
def reports (iso : Int → Text) : Op → List (Key × Int × Report)
  | .submission e => e.times.map fun x =>
      (runKey iso e.task e.store (normalize x.1), e.now, if e.skipped then .skipped else .submitted)
  | .execution e =>
      [(runKey iso e.task e.store (normalize e.time), e.now, .finished (match e.code with
        | .executed => .succeeded
        | .error => .failed
        | .missed => .missed))]
  | .clear => []

/-- **C49, what a run is.**  The key of a run is its task, its store and its time: for a time without a zone and for one with
a zone, the UTC text of the instant; for any other value its text; for none, the empty text. -/
theorem history_key (iso : Int → Text) (task : Text) (store : Option Text) (x : RawTime) :
    runKey iso task store (normalize x) = (task, store, match x with
      | .none => []
      | .naive t => iso t
      | .aware t => iso t
      | .other s => s) := by
  cases x <;> rfl

/-- **C49, when two events are about the same run**: same task, same store and, for two points in time, the same instant,
however it is written; for two other values, the same text. -/
theorem history_same_run (iso : Int → Text) (hiso : ∀ a b, iso a = iso b → a = b) (task task' : Text)
    (store store' : Option Text) :
    (∀ t t' : Int, ∀ x ∈ [RawTime.naive t, .aware t], ∀ y ∈ [RawTime.naive t', .aware t'],
      (runKey iso task store (normalize x) = runKey iso task' store' (normalize y) ↔
        task = task' ∧ store = store' ∧ t = t')) ∧
    (∀ a b : Text, runKey iso task store (normalize (.other a)) = runKey iso task' store' (normalize (.other b)) ↔
        task = task' ∧ store = store' ∧ a = b) ∧
    (∀ t : Int, iso t ≠ [] → ∀ x ∈ [RawTime.naive t, .aware t],
      runKey iso task store (normalize .none) ≠ runKey iso task' store' (normalize x)) := by
  refine ⟨?_, ?_, ?_⟩
  · intro t t' x hx y hy
    have e1 : runKey iso task store (normalize x) = (task, store, iso t) := by
      simp only [List.mem_cons, List.not_mem_nil, or_false] at hx
      rcases hx with rfl | rfl <;> rfl
    have e2 : runKey iso task' store' (normalize y) = (task', store', iso t') := by
      simp only [List.mem_cons, List.not_mem_nil, or_false] at hy
      rcases hy with rfl | rfl <;> rfl
    rw [e1, e2]
    simp only [Prod.mk.injEq]
    exact ⟨fun h => ⟨h.1, h.2.1, hiso _ _ h.2.2⟩, fun h => ⟨h.1, h.2.1, congrArg iso h.2.2⟩⟩
  · intro a b
    rw [history_key, history_key]
    simp only [Prod.mk.injEq]
  · intro t ht x hx h
    have e2 : runKey iso task' store' (normalize x) = (task', store', iso t) := by
      simp only [List.mem_cons, List.not_mem_nil, or_false] at hx
      rcases hx with rfl | rfl <;> rfl
    rw [e2, history_key] at h
    simp only [Prod.mk.injEq] at h
    exact ht h.2.2.symm

/-- the hypotheses hold of a text of instants, and the two writings of one instant are one run -/
example : (∀ t : Int, (fun t : Int => 'T' :: List.replicate t.toNat 'x') t ≠ []) ∧
    runKey (fun t => (toString t).toList) ['a'] none (normalize (.naive 5)) =
      runKey (fun t => (toString t).toList) ['a'] none (normalize (.aware 5)) ∧
    runKey (fun t => (toString t).toList) ['a'] none (normalize (.naive 5)) ≠
      runKey (fun t => (toString t).toList) ['a'] none (normalize .none) := by
  refine ⟨fun t => by simp, rfl, by decide +kernel⟩

/-- the history the user should see after those calls -/
def expected (iso : Int → Text) (m : Nat) (ops : List Op) : List (Run Key) :=
  ops.foldl (fun l o => if o = .clear then [] else (reports iso o).foldl (Spec.receive m) l) []

/-- the runs those calls are about -/
def keysOf (iso : Int → Text) (ops : List Op) : List Key :=
  ops.flatMap fun o => (reports iso o).map (·.1)

/-- the assignments of `record_submission` -/
def submitRec (e : Submission) (r : Rec) : Rec :=
  let status : Status := if e.skipped then .maxInstances else .running
  let r := { r with
    source := if truthy e.source then orEmpty e.source else "scheduled".toList
    coalesced := max r.coalesced e.coalesced
    submittedAt := some (r.submittedAt.getD (r.finishedAt.getD e.now)) }
  let r := if isTerminal r.status then r else { r with status := status }
  let r := if status = .maxInstances then
      { r with finishedAt := some (r.finishedAt.getD e.now) } else r
  { r with updatedAt := some e.now }

/-- the assignments of `record_execution` -/
def executeRec (e : Execution) (r : Rec) : Rec :=
  { r with
    finishedAt := some e.now
    submittedAt := some (r.submittedAt.getD e.now)
    status := statusOf e.code
    ret := e.ret.map clip
    excType := e.exc.map (·.1)
    excMsg := e.exc.map fun x => clip x.2.1
    exc := e.exc.map fun x => clip x.2.2
    tb := e.tb
    updatedAt := some e.now }

theorem submitRec_ok (iso : Int → Text) (e : Submission) (r : Rec) :
    (submitRec e r).runId = r.runId ∧ view iso (submitRec e r) =
      (view iso r).report e.now (if e.skipped then .skipped else .submitted) := by
  have ht : isTerminal r.status = decide (Terminal r.status) := by
    rw [Bool.eq_iff_iff, isTerminal_iff]; simp
  unfold submitRec
  by_cases hs : e.skipped = true
  · by_cases h : Terminal r.status
    · simp only [ht, hs, h, decide_true, if_true]
      refine ⟨by trivial, ?_⟩
      simp only [view, Run.report, h, if_true]
      rfl
    · simp only [ht, hs, h, decide_false, if_true]
      refine ⟨by trivial, ?_⟩
      simp only [view, Run.report, h, if_false]
      rfl
  · by_cases h : Terminal r.status
    · simp only [ht, hs, h, decide_true, if_true]
      refine ⟨by trivial, ?_⟩
      simp only [view, Run.report, h, if_true]
      rfl
    · simp only [ht, hs, h, decide_false]
      refine ⟨by trivial, ?_⟩
      simp only [view, Run.report, h, if_false]
      rfl

theorem executeRec_ok (iso : Int → Text) (e : Execution) (r : Rec) :
    (executeRec e r).runId = r.runId ∧ view iso (executeRec e r) =
      (view iso r).report e.now (.finished (match e.code with
        | .executed => .succeeded
        | .error => .failed
        | .missed => .missed)) := by
  obtain ⟨code, _, _, _, _, _, _, _, _, _, _⟩ := e
  cases code <;> exact ⟨rfl, rfl⟩

/-! ## Refinement -/

section
variable {rid : Key → Text} {iso : Int → Text} {K : Key → Prop} {m : Nat}

theorem submitOne_ok (hinj : ∀ k k', K k → K k' → rid k = rid k' → k = k') (e : Submission)
    {s : State} (lines : List Line) (h : Inv rid iso K m s) (x : RawTime × Meta)
    (hK : K (runKey iso e.task e.store (normalize x.1))) :
    ∃ s' lines', submitOne rid iso m e (s, lines) x = some (s', lines') ∧ Inv rid iso K m s' ∧
      s'.records = (match s.records.get? (rid (runKey iso e.task e.store (normalize x.1))) with
        | some old => s.records.set (rid (runKey iso e.task e.store (normalize x.1)))
            (submitRec e (refill x.2 (orText e.identity e.schedIdentity) old))
        | none => Dash.Spec.newest m (s.records ++ [(rid (runKey iso e.task e.store (normalize x.1)),
            submitRec e (fresh rid iso e.task e.store x.1 x.2 (orText e.identity e.schedIdentity) e.now))])) ∧
      listed iso s' = Spec.receive m (listed iso s)
        (runKey iso e.task e.store (normalize x.1), e.now, if e.skipped then .skipped else .submitted) := by
  obtain ⟨s', rec, h1, h2, h3, _, _⟩ := upsert_put hinj h e.task e.store x.1 x.2
    (orText e.identity e.schedIdentity) e.now hK (submitRec e) _ (submitRec_ok iso e)
  refine ⟨put s' (submitRec e rec), ?_⟩
  simp only [submitOne, h1]
  refine ⟨_, rfl, h2, h3, ?_⟩
  refine listed_receive hinj h _ hK e.now _
    (fun r => submitRec e (refill x.2 (orText e.identity e.schedIdentity) r)) _ ?_ ?_ h3
  · intro r; exact (submitRec_ok iso e _).2
  · exact (submitRec_ok iso e _).2

theorem recordExecution_ok (hinj : ∀ k k', K k → K k' → rid k = rid k' → k = k') (e : Execution)
    {s : State} (h : Inv rid iso K m s) (hK : K (runKey iso e.task e.store (normalize e.time))) :
    ∃ s' line, recordExecution rid iso m s e = some (s', [line]) ∧ Inv rid iso K m s' ∧
      s'.records = (match s.records.get? (rid (runKey iso e.task e.store (normalize e.time))) with
        | some old => s.records.set (rid (runKey iso e.task e.store (normalize e.time)))
            (executeRec e (refill e.mt (orText e.identity e.schedIdentity) old))
        | none => Dash.Spec.newest m (s.records ++ [(rid (runKey iso e.task e.store (normalize e.time)),
            executeRec e (fresh rid iso e.task e.store e.time e.mt (orText e.identity e.schedIdentity) e.now))])) ∧
      listed iso s' = (reports iso (.execution e)).foldl (Spec.receive m) (listed iso s) ∧
      line.status = statusOf e.code ∧ line.runId = rid (runKey iso e.task e.store (normalize e.time)) := by
  obtain ⟨s', rec, h1, h2, h3, _, h5⟩ := upsert_put hinj h e.task e.store e.time e.mt
    (orText e.identity e.schedIdentity) e.now hK (executeRec e) _ (executeRec_ok iso e)
  refine ⟨put s' (executeRec e rec), ?_⟩
  simp only [recordExecution, h1]
  refine ⟨_, rfl, h2, h3, ?_, rfl, h5⟩
  refine listed_receive hinj h _ hK e.now _
    (fun r => executeRec e (refill e.mt (orText e.identity e.schedIdentity) r)) _ ?_ ?_ h3
  · intro r; exact (executeRec_ok iso e _).2
  · exact (executeRec_ok iso e _).2

theorem recordSubmission_ok (hinj : ∀ k k', K k → K k' → rid k = rid k' → k = k') (e : Submission)
    {s : State} (h : Inv rid iso K m s)
    (hK : ∀ x ∈ e.times, K (runKey iso e.task e.store (normalize x.1))) :
    ∃ s' lines, recordSubmission rid iso m s e = some (s', lines) ∧ Inv rid iso K m s' ∧
      listed iso s' = (reports iso (.submission e)).foldl (Spec.receive m) (listed iso s) := by
  suffices H : ∀ (l : List (RawTime × Meta)), (∀ x ∈ l, K (runKey iso e.task e.store (normalize x.1))) →
      ∀ (s : State) (lines : List Line), Inv rid iso K m s →
      ∃ s' lines', l.foldlM (submitOne rid iso m e) (s, lines) = some (s', lines') ∧
        Inv rid iso K m s' ∧ listed iso s' = (l.map fun x =>
          (runKey iso e.task e.store (normalize x.1), e.now,
            if e.skipped then Report.skipped else Report.submitted)).foldl (Spec.receive m) (listed iso s) by
    exact H e.times hK s [] h
  intro l
  induction l with
  | nil => intro _ s lines h; exact ⟨s, lines, rfl, h, rfl⟩
  | cons x l ih =>
    intro hK s lines h
    obtain ⟨s1, l1, h1, h2, _, h4⟩ := submitOne_ok hinj e lines h x (hK x List.mem_cons_self)
    obtain ⟨s2, l2, h5, h6, h7⟩ := ih (fun y hy => hK y (List.mem_cons_of_mem _ hy)) s1 l1 h2
    refine ⟨s2, l2, ?_, h6, ?_⟩
    · rw [List.foldlM_cons, h1]
      exact h5
    · rw [h7, h4]
      rfl

theorem step_ok (hinj : ∀ k k', K k → K k' → rid k = rid k' → k = k') {s : State}
    (h : Inv rid iso K m s) (o : Op) (hK : ∀ x ∈ reports iso o, K x.1) :
    ∃ s' lines, step rid iso m s o = some (s', lines) ∧ Inv rid iso K m s' ∧
      listed iso s' = if o = .clear then [] else (reports iso o).foldl (Spec.receive m) (listed iso s) := by
  cases o with
  | clear => exact ⟨_, _, rfl, Inv.empty _ _ _ _, by simp [listed, State.empty, Dict.values]⟩
  | submission e =>
    obtain ⟨s', l, h1, h2, h3⟩ := recordSubmission_ok hinj e h fun x hx =>
      hK (runKey iso e.task e.store (normalize x.1), e.now, if e.skipped then .skipped else .submitted)
        (List.mem_map.2 ⟨x, hx, rfl⟩)
    exact ⟨s', l, h1, h2, by rw [if_neg (by simp)]; exact h3⟩
  | execution e =>
    obtain ⟨s', l, h1, h2, _, h3, _⟩ := recordExecution_ok hinj e h (hK _ List.mem_cons_self)
    exact ⟨s', _, h1, h2, by rw [if_neg (by simp)]; exact h3⟩

theorem runAll_ok (hinj : ∀ k k', K k → K k' → rid k = rid k' → k = k') (ops : List Op)
    (hK : ∀ k ∈ keysOf iso ops, K k) :
    ∃ s, runAll rid iso m ops = some s ∧ Inv rid iso K m s ∧ listed iso s = expected iso m ops := by
  suffices H : ∀ (ops : List Op), (∀ k ∈ keysOf iso ops, K k) → ∀ s, Inv rid iso K m s →
      ∃ s', ops.foldlM (fun s o => (step rid iso m s o).map (·.1)) s = some s' ∧ Inv rid iso K m s' ∧
        listed iso s' = ops.foldl (fun l o => if o = .clear then []
          else (reports iso o).foldl (Spec.receive m) l) (listed iso s) from
    H ops hK State.empty (Inv.empty _ _ _ _)
  intro ops
  induction ops with
  | nil => intro _ s h; exact ⟨s, rfl, h, rfl⟩
  | cons o ops ih =>
    intro hK s h0
    obtain ⟨s1, l, h1, h2, h3⟩ := step_ok hinj h0 o fun x hx => hK x.1 (by
      simp only [keysOf, List.flatMap_cons, List.mem_append]
      exact .inl (List.mem_map_of_mem hx))
    obtain ⟨s2, h4, h5, h6⟩ := ih (fun k hk => hK k (by
      simp only [keysOf, List.flatMap_cons, List.mem_append]
      exact .inr hk)) s1 h2
    refine ⟨s2, ?_, h5, ?_⟩
    · rw [List.foldlM_cons, h1]
      exact h4
    · rw [h6, h3, List.foldl_cons]

end

/-! ## C49 -/

/-- The run identifiers do not collide on the runs of these calls. -/
def NoCollision (rid : Key → Text) (iso : Int → Text) (ops : List Op) : Prop :=
  ∀ k ∈ keysOf iso ops, ∀ k' ∈ keysOf iso ops, rid k = rid k' → k = k'

theorem NoCollision.inj {rid : Key → Text} {iso : Int → Text} {ops : List Op}
    (h : NoCollision rid iso ops) :
    ∀ k k', k ∈ keysOf iso ops → k' ∈ keysOf iso ops → rid k = rid k' → k = k' :=
  fun k k' hk hk' => h k hk k' hk'

/-- **C49.**  For every sequence of calls whose runs have distinct identifiers: no call raises; the
history lists exactly the runs it should, oldest first, each with its status, start and end; it holds at
most `m` runs, one record per run; and looking a run up by its identifier gives exactly the record
listed under it.  Missing from the full property: identifiers can collide
(`runId_collision_witness`), and calls of different threads can interleave (`status_race_witness`). -/
theorem history_partial (rid : Key → Text) (iso : Int → Text) (m : Nat) (ops : List Op)
    (hc : NoCollision rid iso ops) :
    ∃ s, runAll rid iso m ops = some s ∧
      s.records.values.map (view iso) = expected iso m ops ∧
      s.records.values.length ≤ m ∧
      (s.records.values.map (keyOf iso)).Nodup ∧
      (∀ r rec, get s r = some rec ↔ rec ∈ s.records.values ∧ rec.runId = r) ∧
      (∀ rec ∈ s.records.values, rec.runId = rid (keyOf iso rec)) := by
  obtain ⟨s, h1, h2, h3⟩ := runAll_ok (m := m) hc.inj ops (fun k hk => hk)
  have hid : ∀ rec ∈ s.records.values, ∃ r, (r, rec) ∈ s.records ∧ rec.runId = r ∧
      rid (keyOf iso rec) = r := by
    intro rec hr
    obtain ⟨⟨r, rec'⟩, hm, he⟩ := List.mem_map.1 hr
    simp only at he
    subst he
    exact ⟨r, hm, (h2.id _ _ hm).1, (h2.id _ _ hm).2.1⟩
  refine ⟨s, h1, h3, ?_, ?_, ?_, ?_⟩
  · simpa [Dict.values] using h2.len
  · have hw := h2.wf
    have : s.records.map Prod.fst = (s.records.values.map (keyOf iso)).map rid := by
      simp only [Dict.values, List.map_map]
      apply List.map_congr_left
      rintro ⟨r, rec⟩ hm
      exact (h2.id _ _ hm).2.1.symm
    rw [Dict.WF, this] at hw
    exact List.Pairwise.of_map rid (fun a b hab e => hab (congrArg rid e)) hw
  · intro r rec
    rw [get, Dict.get?_iff_mem h2.wf]
    constructor
    · intro hm
      exact ⟨List.mem_map.2 ⟨_, hm, rfl⟩, (h2.id _ _ hm).1⟩
    · rintro ⟨hm, rfl⟩
      obtain ⟨r, hr, he, _⟩ := hid rec hm
      rw [he]; exact hr
  · intro rec hr
    obtain ⟨r, _, h4, h5⟩ := hid rec hr
    rw [h4, h5]

/-! ### A run's status -/

theorem receive_mem {κ : Type} [DecidableEq κ] {m : Nat} {l : List (Run κ)} {x : κ × Int × Report}
    {r : Run κ} (h : r ∈ Spec.receive m l x) :
    (r ∈ l ∧ r.key ≠ x.1) ∨ (∃ o ∈ l, o.key = x.1 ∧ r = o.report x.2.1 x.2.2) ∨
      (x.1 ∉ l.map Run.key ∧ r = Run.report ⟨x.1, .running, none, none⟩ x.2.1 x.2.2) := by
  unfold Spec.receive at h
  split at h
  · obtain ⟨o, ho, he⟩ := List.mem_map.1 h
    split at he
    · rename_i hk
      exact .inr (.inl ⟨o, ho, hk, he.symm⟩)
    · rename_i hk
      subst he
      exact .inl ⟨ho, hk⟩
  · rename_i hk
    have h' := List.mem_of_mem_drop h
    rcases List.mem_append.1 h' with h' | h'
    · refine .inl ⟨h', ?_⟩
      intro e
      exact hk (e ▸ List.mem_map_of_mem h')
    · simp only [List.mem_singleton] at h'
      exact .inr (.inr ⟨hk, h'⟩)

/-- every listed run has a start, and an end exactly if it is over -/
def Dated {κ : Type} (r : Run κ) : Prop := r.started ≠ none ∧ (r.ended ≠ none ↔ Terminal r.status)

theorem report_dated {κ : Type} (r : Run κ) (now : Int) (rep : Report)
    (h : r.ended ≠ none ↔ Terminal r.status) (hr : ∀ s, rep = .finished s → Terminal s) :
    Dated (r.report now rep) := by
  cases rep with
  | submitted =>
    refine ⟨by simp [Run.report], ?_⟩
    simp only [Run.report]
    by_cases ht : Terminal r.status
    · simp [ht, h.2 ht]
    · simp only [ht, if_false]
      constructor
      · intro hh; exact absurd (h.1 hh) ht
      · intro hh; exact absurd rfl hh
  | skipped =>
    refine ⟨by simp [Run.report], ?_⟩
    simp only [Run.report]
    by_cases ht : Terminal r.status
    · simp [ht]
    · rw [if_neg ht]; simp [Terminal]
  | finished s =>
    refine ⟨by simp [Run.report], ?_⟩
    simp [Run.report, hr s rfl]

theorem reports_terminal {iso : Int → Text} {o : Op} {x : Key × Int × Report} (h : x ∈ reports iso o)
    {s : Status} (hs : x.2.2 = .finished s) : Terminal s := by
  cases o with
  | clear => cases h
  | submission e =>
    obtain ⟨y, _, rfl⟩ := List.mem_map.1 h
    simp only at hs
    split at hs <;> cases hs
  | execution e =>
    simp only [reports, List.mem_singleton] at h
    subst h
    simp only [Report.finished.injEq] at hs
    subst hs
    cases e.code <;> simp [Terminal]

theorem receive_dated {m : Nat} (xs : List (Key × Int × Report))
    (hx : ∀ x ∈ xs, ∀ s, x.2.2 = .finished s → Terminal s) (l : List (Run Key))
    (h : ∀ r ∈ l, Dated r) : ∀ r ∈ xs.foldl (Spec.receive m) l, Dated r := by
  induction xs generalizing l with
  | nil => exact h
  | cons x xs ih =>
    rw [List.foldl_cons]
    apply ih (fun y hy => hx y (List.mem_cons_of_mem _ hy))
    intro r hr
    rcases receive_mem hr with ⟨h1, _⟩ | ⟨o, ho, _, rfl⟩ | ⟨_, rfl⟩
    · exact h r h1
    · exact report_dated o _ _ (h o ho).2 fun s hs => hx x List.mem_cons_self s hs
    · exact report_dated _ _ _ (by simp [Terminal]) fun s hs => hx x List.mem_cons_self s hs

theorem expected_append (iso : Int → Text) (m : Nat) (ops : List Op) (o : Op) :
    expected iso m (ops ++ [o]) = if o = .clear then [] else
      (reports iso o).foldl (Spec.receive m) (expected iso m ops) := by
  simp [expected]

theorem list_reverse_ind {α : Type} {P : List α → Prop} (h0 : P [])
    (h1 : ∀ l x, P l → P (l ++ [x])) (l : List α) : P l := by
  have : ∀ l : List α, P l.reverse := by
    intro l
    induction l with
    | nil => exact h0
    | cons x l ih => rw [List.reverse_cons]; exact h1 _ _ ih
  have := this l.reverse
  rwa [List.reverse_reverse] at this

theorem expected_dated (iso : Int → Text) (m : Nat) (ops : List Op) :
    ∀ r ∈ expected iso m ops, Dated r := by
  induction ops using list_reverse_ind with
  | h0 => intro r h; cases h
  | h1 ops o ih =>
    rw [expected_append]
    split
    · intro r h; cases h
    · exact receive_dated _ (fun x hx s hs => reports_terminal hx hs) _ ih

/-- **C49, dates.**  Every run in the history has a start, and it has an end (and a duration, which is not
negative) exactly if it is over. -/
theorem history_dated (rid : Key → Text) (iso : Int → Text) (m : Nat) (ops : List Op)
    (hc : NoCollision rid iso ops) {s : State} (hs : runAll rid iso m ops = some s) :
    ∀ rec ∈ s.records.values, rec.submittedAt ≠ none ∧
      (rec.finishedAt ≠ none ↔ Terminal rec.status) ∧
      ((∃ d, durationMs rec = some d ∧ 0 ≤ d) ↔ Terminal rec.status) := by
  obtain ⟨s', h1, h2, _⟩ := history_partial rid iso m ops hc
  rw [hs] at h1
  cases h1
  intro rec hr
  have hd := expected_dated iso m ops (view iso rec) (h2 ▸ List.mem_map_of_mem hr)
  refine ⟨hd.1, hd.2, ?_⟩
  have h3 : rec.submittedAt ≠ none := hd.1
  have h4 : rec.finishedAt ≠ none ↔ Terminal rec.status := hd.2
  rw [← h4]
  unfold durationMs
  cases hsub : rec.submittedAt with
  | none => exact absurd hsub h3
  | some a =>
    cases hfin : rec.finishedAt with
    | none => simp
    | some b => simp; omega

theorem report_keeps {κ : Type} (r : Run κ) (now : Int) (skipped : Bool) (ht : Terminal r.status) :
    (r.report now (if skipped then .skipped else .submitted)).status = r.status := by
  cases skipped <;> simp [Run.report, ht]

theorem receive_keeps {m : Nat} {l : List (Run Key)} {k : Key} {st : Status} (ht : Terminal st)
    (hk : k ∈ l.map Run.key) (hl : ∀ r ∈ l, r.key = k → r.status = st) (k' : Key) (now : Int)
    (skipped : Bool) :
    ∀ r ∈ Spec.receive m l (k', now, if skipped then .skipped else .submitted),
      r.key = k → r.status = st := by
  intro r hr hrk
  rcases receive_mem hr with ⟨h1, _⟩ | ⟨o, ho, hok, rfl⟩ | ⟨hn, rfl⟩
  · exact hl r h1 hrk
  · rw [report_key] at hrk
    rw [report_keeps _ _ _ (by rw [hl o ho hrk]; exact ht), hl o ho hrk]
  · rw [report_key] at hrk
    have hrk' : k' = k := hrk
    exact absurd (by rw [hrk']; exact hk) hn

theorem receive_room {m : Nat} {l : List (Run Key)} (x : Key × Int × Report) (h : l.length + 1 ≤ m) :
    (Spec.receive m l x).length ≤ l.length + 1 ∧
      ∀ k ∈ l.map Run.key, k ∈ (Spec.receive m l x).map Run.key := by
  unfold Spec.receive
  split
  · refine ⟨by simp, ?_⟩
    intro k hk
    obtain ⟨r, hr, rfl⟩ := List.mem_map.1 hk
    refine List.mem_map.2 ⟨_, List.mem_map.2 ⟨r, hr, rfl⟩, ?_⟩
    split
    · rw [report_key]
    · rfl
  · have : ∀ y : Run Key, Dash.Spec.newest m (l ++ [y]) = l ++ [y] := by
      intro y
      simp only [Dash.Spec.newest, List.length_append, List.length_singleton]
      rw [show l.length + 1 - m = 0 from by omega, List.drop_zero]
    rw [this]
    refine ⟨by simp, ?_⟩
    intro k hk
    rw [List.map_append]
    exact List.mem_append_left _ hk

theorem receive_all_keeps {m : Nat} {k : Key} {st : Status} (ht : Terminal st) (now : Int)
    (skipped : Bool) (ks : List Key) (l : List (Run Key))
    (hk : k ∈ l.map Run.key) (hl : ∀ r ∈ l, r.key = k → r.status = st)
    (hroom : l.length + ks.length ≤ m) :
    ∀ r ∈ (ks.map fun k' => (k', now, if skipped then Report.skipped else .submitted)).foldl
      (Spec.receive m) l, r.key = k → r.status = st := by
  induction ks generalizing l with
  | nil => exact hl
  | cons k' ks ih =>
    simp only [List.map_cons, List.foldl_cons]
    simp only [List.length_cons] at hroom
    have h1 := receive_room (m := m) (l := l)
      (k', now, if skipped then Report.skipped else .submitted) (by omega)
    exact ih _ (h1.2 k hk) (receive_keeps ht hk hl k' now skipped) (by omega)

/-- **C49, no regression.**  Let a history contain a run that is over.  A submission (or skip) event,
whatever runs it is about, leaves that run's status as it is as long as the run stays in the history
(an event about one run time can only drop it; an event about several is considered while there is room
for them, since it could drop a run and then add it again). -/
theorem history_terminal_stays (rid : Key → Text) (iso : Int → Text) (m : Nat) (ops : List Op)
    (e : Submission) (hc : NoCollision rid iso (ops ++ [.submission e])) {s s' : State}
    (hs : runAll rid iso m ops = some s)
    (hs' : runAll rid iso m (ops ++ [.submission e]) = some s')
    (hroom : e.times.length ≤ 1 ∨ s.records.values.length + e.times.length ≤ m)
    {r : Text} {old new : Rec} (ho : get s r = some old) (ht : Terminal old.status)
    (hn : get s' r = some new) : new.status = old.status := by
  have hc0 : NoCollision rid iso ops := by
    intro k hk k' hk'
    apply hc <;> (simp only [keysOf, List.flatMap_append, List.mem_append]; exact .inl (by assumption))
  obtain ⟨s0, h1, h2, _, h4, h5, h6⟩ := history_partial rid iso m ops hc0
  rw [hs] at h1; cases h1
  obtain ⟨s1, h1', h2', _, h4', h5', h6'⟩ := history_partial rid iso m _ hc
  rw [hs'] at h1'; cases h1'
  obtain ⟨hom, hoi⟩ := (h5 _ _).1 ho
  obtain ⟨hnm, hni⟩ := (h5' _ _).1 hn
  have hov : view iso old ∈ expected iso m ops := h2 ▸ List.mem_map_of_mem hom
  have hnv : view iso new ∈ expected iso m (ops ++ [.submission e]) := h2' ▸ List.mem_map_of_mem hnm
  -- same key
  have hkeys : ∀ {ops : List Op} {r : Run Key}, r ∈ expected iso m ops → r.key ∈ keysOf iso ops := by
    intro ops
    induction ops using list_reverse_ind with
    | h0 => intro r h; cases h
    | h1 ops o ih =>
      intro r h
      rw [expected_append] at h
      simp only [keysOf, List.flatMap_append, List.mem_append, List.flatMap_cons, List.flatMap_nil,
        List.append_nil]
      split at h
      · cases h
      · have hgen : ∀ (xs : List (Key × Int × Report)) (l : List (Run Key)) (r : Run Key),
            r ∈ xs.foldl (Spec.receive m) l → r.key ∈ l.map Run.key ∨ r.key ∈ xs.map (·.1) := by
          intro xs
          induction xs with
          | nil => intro l r h; exact .inl (List.mem_map_of_mem h)
          | cons x xs ihx =>
            intro l r h
            rcases ihx _ _ h with h | h
            · obtain ⟨r1, hr1, he⟩ := List.mem_map.1 h
              rw [← he]
              rcases receive_mem hr1 with ⟨h1, _⟩ | ⟨o, ho, hok, rfl⟩ | ⟨hn, rfl⟩
              · exact .inl (List.mem_map_of_mem h1)
              · rw [report_key]; exact .inl (List.mem_map_of_mem ho)
              · rw [report_key]; exact .inr (by simp)
            · exact .inr (by simp only [List.map_cons, List.mem_cons]; exact .inr h)
        rcases hgen _ _ _ h with h | h
        · obtain ⟨r1, hr1, he⟩ := List.mem_map.1 h
          rw [← he]
          exact .inl (ih hr1)
        · exact .inr h
  have hke : keyOf iso new = keyOf iso old := by
    apply hc _ (hkeys hnv) _ ?_ ?_
    · simp only [keysOf, List.flatMap_append, List.mem_append]
      exact .inl (hkeys hov)
    · show rid (keyOf iso new) = rid (keyOf iso old)
      rw [← h6' _ hnm, ← h6 _ hom, hoi, hni]
  -- status of the run before
  have huniq : ∀ r ∈ expected iso m ops, r.key = keyOf iso old → r.status = old.status := by
    intro r hr hk
    rw [← h2] at hr
    obtain ⟨rec, hrm, rfl⟩ := List.mem_map.1 hr
    have hrk : keyOf iso rec = keyOf iso old := hk
    have h7 := (h5 r rec)
    have hg1 : get s rec.runId = some rec := (h5 _ _).2 ⟨hrm, rfl⟩
    have hg2 : get s old.runId = some old := (h5 _ _).2 ⟨hom, rfl⟩
    rw [h6 _ hrm, hrk, ← h6 _ hom, hg2] at hg1
    cases hg1
    rfl
  have hkm : keyOf iso old ∈ (expected iso m ops).map Run.key := List.mem_map.2 ⟨_, hov, rfl⟩
  rw [expected_append, if_neg (by simp)] at hnv
  have hrep : reports iso (.submission e) = (e.times.map fun x =>
      runKey iso e.task e.store (normalize x.1)).map fun k' =>
        (k', e.now, if e.skipped then Report.skipped else .submitted) := by
    simp [reports, Function.comp_def]
  rw [hrep] at hnv
  rcases hroom with h | h
  · match htimes : e.times, h with
    | [], _ =>
      rw [htimes] at hnv
      exact huniq _ hnv hke
    | [x], _ =>
      rw [htimes] at hnv
      exact receive_keeps ht hkm huniq _ _ _ _ hnv hke
  · refine receive_all_keeps ht e.now e.skipped _ _ hkm huniq ?_ _ hnv hke
    rw [← h2]
    simpa using h

/-- a run dropped and added again by one event loses its status: why `hroom` is needed -/
example :
    ((runAll (runIdOf id) (fun t => (toString t).toList) 1
      [.execution ⟨.executed, ['a'], none, .aware 1, none, none, none, ⟨none, none, none⟩, none, none, 5⟩,
        .submission ⟨false, ['a'], none, [(.aware 2, ⟨none, none, none⟩), (.aware 1, ⟨none, none, none⟩)],
          none, 0, none, none, 6⟩]).map fun s => s.records.values.map fun r => (r.time, r.status)) =
      some [(.utc 1, .running)] := by decide +kernel

/-! ### One event at a time -/

theorem newest_mem_last {α : Type} {m : Nat} (hm : m ≠ 0) (l : List α) (x : α) :
    x ∈ Dash.Spec.newest m (l ++ [x]) := by
  simp only [Dash.Spec.newest, List.length_append, List.length_singleton]
  rw [List.drop_append_of_le_length (by omega)]
  simp

/-- **C49, long values.**  Return values and exceptions of up to 500 characters are recorded as they are, longer ones are
cut to 500 characters. -/
theorem history_clip (t : Text) : Spec.ShownAs t (clip t) := by
  unfold clip
  split
  · rename_i h
    refine .inr ⟨h, ?_, t.take 497, List.take_prefix _ _, rfl⟩
    have e : ("...".toList).length = 3 := by decide
    rw [List.length_append, List.length_take, e]
    omega
  · exact .inl ⟨by omega, rfl⟩

/-- **C49, the end of a run is recorded.**  After an execution event (and `m > 0`) the run it is about is
found under its identifier, with the event's status, time, return value, exception and traceback; its
submission time, source and coalesced count are those recorded before, if any; one log line is written,
for that run and with that status. -/
theorem history_execution (rid : Key → Text) (iso : Int → Text) (m : Nat) (hm : m ≠ 0) (ops : List Op)
    (e : Execution) (hc : NoCollision rid iso (ops ++ [.execution e])) {s : State}
    (hs : runAll rid iso m ops = some s) :
    ∃ s' line rec, step rid iso m s (.execution e) = some (s', [line]) ∧
      get s' (rid (runKey iso e.task e.store (normalize e.time))) = some rec ∧
      rec.task = e.task ∧ rec.store = e.store ∧ keyOf iso rec = runKey iso e.task e.store (normalize e.time) ∧
      rec.status = statusOf e.code ∧ rec.finishedAt = some e.now ∧
      rec.ret = e.ret.map clip ∧ rec.tb = e.tb ∧ rec.excMsg = e.exc.map (fun x => clip x.2.1) ∧
      (match get s (rid (runKey iso e.task e.store (normalize e.time))) with
        | some old => rec.submittedAt = some (old.submittedAt.getD e.now) ∧ rec.source = old.source ∧
            rec.coalesced = old.coalesced ∧ rec.createdAt = old.createdAt
        | none => rec.submittedAt = some e.now ∧ rec.createdAt = some e.now) ∧
      line.status = statusOf e.code ∧ line.runId = rid (runKey iso e.task e.store (normalize e.time)) := by
  have hsub : ∀ k ∈ keysOf iso ops, k ∈ keysOf iso (ops ++ [.execution e]) := by
    intro k hk
    simp only [keysOf, List.flatMap_append, List.mem_append]
    exact .inl hk
  obtain ⟨s0, h1, h2, _⟩ := runAll_ok (m := m) hc.inj ops hsub
  rw [hs] at h1; cases h1
  have hK : runKey iso e.task e.store (normalize e.time) ∈ keysOf iso (ops ++ [.execution e]) := by
    simp [keysOf, reports]
  obtain ⟨s', line, h3, h4, h5, _, h7, h8⟩ := recordExecution_ok hc.inj e h2 hK
  have hmem : ∃ rec, (rid (runKey iso e.task e.store (normalize e.time)), rec) ∈ s'.records ∧
      rec = match get s (rid (runKey iso e.task e.store (normalize e.time))) with
        | some old => executeRec e (refill e.mt (orText e.identity e.schedIdentity) old)
        | none => executeRec e (fresh rid iso e.task e.store e.time e.mt
            (orText e.identity e.schedIdentity) e.now) := by
    refine ⟨_, ?_, rfl⟩
    rw [h5, get]
    cases hg : s.records.get? (rid (runKey iso e.task e.store (normalize e.time))) with
    | some old =>
      apply Dict.mem_of_get?
      simp only [Dict.get?_set, if_true]
    | none => exact newest_mem_last hm _ _
  obtain ⟨rec, hrm, hrec⟩ := hmem
  have hkey : keyOf iso rec = runKey iso e.task e.store (normalize e.time) := by
    have hid := h4.id _ _ hrm
    exact hc _ hid.2.2 _ hK hid.2.1
  refine ⟨s', line, rec, h3, Dict.get?_of_mem h4.wf hrm, ?_⟩
  have hparts : ∀ (nt : NTime) (task : Text) (store : Option Text) (nt' : NTime) (task' : Text)
      (store' : Option Text), runKey iso task store nt = runKey iso task' store' nt' →
      task = task' ∧ store = store' := by
    intro nt task store nt' task' store' h
    cases nt <;> cases nt' <;>
      (simp only [runKey, Prod.mk.injEq] at h; exact ⟨h.1, h.2.1⟩)
  have hts := hparts _ _ _ _ _ _ hkey
  refine ⟨hts.1, hts.2, hkey, ?_, ?_, ?_, ?_, ?_, ?_, h7, h8⟩
  all_goals
    cases hg : get s (rid (runKey iso e.task e.store (normalize e.time))) with
    | some old => rw [hg] at hrec; subst hrec; first | rfl | exact ⟨rfl, rfl, rfl, rfl⟩
    | none => rw [hg] at hrec; subst hrec; first | rfl | exact ⟨rfl, rfl⟩

theorem submitOne_line {rid : Key → Text} {iso : Int → Text} {m : Nat} {e : Submission} {acc acc' : State × List Line}
    {x : RawTime × Meta} (h : submitOne rid iso m e acc x = some acc') :
    ∃ new, acc'.2 = acc.2 ++ new ∧ new.length ≤ 1 ∧ (e.skipped = true → new.length = 1) ∧
      ∀ l ∈ new, l.level = (if e.skipped then "WARNING" else "INFO").toList ∧
        (e.skipped = true → l.status ≠ .running) ∧ (e.skipped = false → l.status = .running) := by
  unfold submitOne at h
  simp only at h
  split at h
  · cases h
  · rename_i s record _
    have hst : (submitRec e record).status = if isTerminal record.status then record.status
        else if e.skipped then .maxInstances else .running := by
      have hv : (submitRec e record).status =
          ((view (fun _ => []) record).report e.now (if e.skipped then .skipped else .submitted)).status :=
        congrArg Run.status (submitRec_ok (fun _ => []) e record).2
      have hw : (view (fun _ => []) record).status = record.status := rfl
      rw [hv]
      cases hs : e.skipped with
      | true =>
        simp only [if_true, Run.report, hw]
        by_cases ht : Terminal record.status
        · rw [if_pos ht, if_pos ((isTerminal_iff _).2 ht)]
        · rw [if_neg ht, if_neg (fun hc => ht ((isTerminal_iff _).1 hc))]
      | false =>
        simp only [Bool.false_eq_true, if_false, Run.report, hw]
        by_cases ht : Terminal record.status
        · rw [if_pos ht, if_pos ((isTerminal_iff _).2 ht)]
        · rw [if_neg ht, if_neg (fun hc => ht ((isTerminal_iff _).1 hc))]
    have hl : acc'.2 = acc.2 ++ (if (if e.skipped then Status.maxInstances else .running) = .maxInstances then
          [⟨"WARNING".toList, (submitRec e record).runId, (submitRec e record).task, (submitRec e record).status⟩]
        else if !isTerminal record.status then
          [⟨"INFO".toList, (submitRec e record).runId, (submitRec e record).task, (submitRec e record).status⟩]
        else []) := by
      have h' := Option.some.inj h
      rw [← h']
      rfl
    clear h
    rw [hst] at hl
    generalize (submitRec e record).runId = A at hl
    generalize (submitRec e record).task = B at hl
    refine ⟨_, hl, ?_⟩
    cases hs : e.skipped with
    | true =>
      cases ht : isTerminal record.status with
      | true =>
        have hn : record.status ≠ .running := (isTerminal_iff _).1 ht
        simp [hn]
      | false => simp
    | false =>
      cases ht : isTerminal record.status <;> simp

/-- **C49, the lines logged.**  The end of a run is logged once, as information if it succeeded, as a warning if it was missed and as an
error if it failed; a submission is logged at most once for each run time, as information that the run is under way; a skipped one exactly
once for each, as a warning, never as under way; clearing the history logs nothing. -/
theorem history_lines (rid : Key → Text) (iso : Int → Text) (m : Nat) (s s' : State) (op : Op) (lines : List Line)
    (h : step rid iso m s op = some (s', lines)) :
    match op with
    | .execution e => ∃ line, lines = [line] ∧ line.level = (match e.code with
        | .executed => "INFO"
        | .missed => "WARNING"
        | .error => "ERROR").toList
    | .submission e => lines.length ≤ e.times.length ∧ (e.skipped = true → lines.length = e.times.length) ∧
        ∀ l ∈ lines, l.level = (if e.skipped then "WARNING" else "INFO").toList ∧
          (e.skipped = true → l.status ≠ .running) ∧ (e.skipped = false → l.status = .running)
    | .clear => lines = [] := by
  match op with
  | .clear => simp only [step] at h ⊢; cases h; rfl
  | .execution e =>
    simp only [step, recordExecution] at h ⊢
    split at h
    · cases h
    · cases h
      refine ⟨_, rfl, ?_⟩
      cases e.code <;> rfl
  | .submission e =>
    simp only [step, recordSubmission] at h ⊢
    suffices H : ∀ (l : List (RawTime × Meta)) (acc acc' : State × List Line), l.foldlM (submitOne rid iso m e) acc = some acc' →
        ∃ new, acc'.2 = acc.2 ++ new ∧ new.length ≤ l.length ∧ (e.skipped = true → new.length = l.length) ∧
        ∀ x ∈ new, x.level = (if e.skipped then "WARNING" else "INFO").toList ∧
          (e.skipped = true → x.status ≠ .running) ∧ (e.skipped = false → x.status = .running) by
      obtain ⟨new, h1, h2, h3, h4⟩ := H e.times (s, []) (s', lines) h
      simp only [List.nil_append] at h1
      subst h1
      exact ⟨h2, h3, h4⟩
    intro l
    induction l with
    | nil =>
      intro acc acc' hh
      cases hh
      exact ⟨[], by simp, by simp, by simp, by simp⟩
    | cons x l ih =>
      intro acc acc' hh
      rw [List.foldlM_cons] at hh
      cases h1 : submitOne rid iso m e acc x with
      | none => rw [h1] at hh; cases hh
      | some mid =>
        rw [h1] at hh
        obtain ⟨n1, a1, a2, a3, a4⟩ := submitOne_line h1
        obtain ⟨n2, b1, b2, b3, b4⟩ := ih mid acc' hh
        refine ⟨n1 ++ n2, by rw [b1, a1, List.append_assoc], ?_, ?_, ?_⟩
        · rw [List.length_append, List.length_cons]; omega
        · intro hs; rw [List.length_append, List.length_cons, a3 hs, b3 hs]; omega
        · intro y hy
          rcases List.mem_append.1 hy with hy | hy
          · exact a4 y hy
          · exact b4 y hy

-- a submission of two run times, then the first of them is missed
example : (step (runIdOf id) (fun t => (toString t).toList) 5 .empty
      (.submission ⟨false, ['a'], none, [(.aware 1, ⟨none, none, none⟩), (.aware 2, ⟨none, none, none⟩)], none, 0, none, none, 6⟩)).map
        (fun r => r.2.map fun l => (l.level, l.status)) = some [("INFO".toList, .running), ("INFO".toList, .running)] ∧
    (step (runIdOf id) (fun t => (toString t).toList) 5 .empty
      (.execution ⟨.missed, ['a'], none, .aware 1, none, none, none, ⟨none, none, none⟩, none, none, 5⟩)).map
        (fun r => r.2.map fun l => (l.level, l.status)) = some [("WARNING".toList, .missed)] := by decide +kernel

/-- **C49, an event touches only its own run.**  A record of another run found after an execution event is
the one that was there before, unchanged. -/
theorem history_frame (rid : Key → Text) (iso : Int → Text) (m : Nat) (ops : List Op)
    (e : Execution) (hc : NoCollision rid iso (ops ++ [.execution e])) {s s' : State} {lines : List Line}
    (hs : runAll rid iso m ops = some s) (hs' : step rid iso m s (.execution e) = some (s', lines))
    {r : Text} (hr : r ≠ rid (runKey iso e.task e.store (normalize e.time))) {rec : Rec}
    (hg : get s' r = some rec) : get s r = some rec := by
  have hsub : ∀ k ∈ keysOf iso ops, k ∈ keysOf iso (ops ++ [.execution e]) := by
    intro k hk
    simp only [keysOf, List.flatMap_append, List.mem_append]
    exact .inl hk
  obtain ⟨s0, h1, h2, _⟩ := runAll_ok (m := m) hc.inj ops hsub
  rw [hs] at h1; cases h1
  have hK : runKey iso e.task e.store (normalize e.time) ∈ keysOf iso (ops ++ [.execution e]) := by
    simp [keysOf, reports]
  obtain ⟨s1, line, h3, h4, h5, _, h7, h8⟩ := recordExecution_ok hc.inj e h2 hK
  have h3' : step rid iso m s (.execution e) = some (s1, [line]) := h3
  rw [hs'] at h3'
  cases h3'
  rw [get] at hg ⊢
  rw [h5] at hg
  cases hgo : s.records.get? (rid (runKey iso e.task e.store (normalize e.time))) with
  | some old =>
    rw [hgo] at hg
    simpa [Dict.get?_set, hr] using hg
  | none =>
    rw [hgo] at hg
    have hm := List.mem_of_mem_drop (Dict.mem_of_get? hg)
    rcases List.mem_append.1 hm with hm | hm
    · exact Dict.get?_of_mem h2.wf hm
    · simp only [List.mem_singleton, Prod.mk.injEq] at hm
      exact absurd hm.1 hr

theorem foldlM_submit_frame {rid : Key → Text} {iso : Int → Text} {K : Key → Prop} {m : Nat}
    (hinj : ∀ k k', K k → K k' → rid k = rid k' → k = k') (e : Submission) {r : Text}
    (l : List (RawTime × Meta)) (hK : ∀ x ∈ l, K (runKey iso e.task e.store (normalize x.1)))
    (hr : ∀ x ∈ l, r ≠ rid (runKey iso e.task e.store (normalize x.1))) :
    ∀ (s : State) (lines : List Line), Inv rid iso K m s → ∀ s' lines',
      l.foldlM (submitOne rid iso m e) (s, lines) = some (s', lines') →
      ∀ rec, get s' r = some rec → get s r = some rec := by
  induction l with
  | nil =>
    intro s lines _ s' lines' h rec hg
    cases h
    exact hg
  | cons x l ih =>
    intro s lines hinv s' lines' h rec hg
    obtain ⟨s1, l1, h1, h2, h3, _⟩ := submitOne_ok hinj e lines hinv x (hK x List.mem_cons_self)
    rw [List.foldlM_cons, h1] at h
    have hg1 := ih (fun y hy => hK y (List.mem_cons_of_mem _ hy))
      (fun y hy => hr y (List.mem_cons_of_mem _ hy)) s1 l1 h2 s' lines' h rec hg
    rw [get] at hg1 ⊢
    rw [h3] at hg1
    have hrx := hr x List.mem_cons_self
    cases hgo : s.records.get? (rid (runKey iso e.task e.store (normalize x.1))) with
    | some old =>
      rw [hgo] at hg1
      simpa [Dict.get?_set, hrx] using hg1
    | none =>
      rw [hgo] at hg1
      have hm := List.mem_of_mem_drop (Dict.mem_of_get? hg1)
      rcases List.mem_append.1 hm with hm | hm
      · exact Dict.get?_of_mem hinv.wf hm
      · simp only [List.mem_singleton, Prod.mk.injEq] at hm
        exact absurd hm.1 hrx

/-- **C49, a submission touches only its own runs.**  A record of another run found after a submission
event is the one that was there before, unchanged. -/
theorem history_frame_submission (rid : Key → Text) (iso : Int → Text) (m : Nat) (ops : List Op)
    (e : Submission) (hc : NoCollision rid iso (ops ++ [.submission e])) {s s' : State}
    {lines : List Line} (hs : runAll rid iso m ops = some s)
    (hs' : step rid iso m s (.submission e) = some (s', lines)) {r : Text}
    (hr : ∀ x ∈ e.times, r ≠ rid (runKey iso e.task e.store (normalize x.1))) {rec : Rec}
    (hg : get s' r = some rec) : get s r = some rec := by
  have hsub : ∀ k ∈ keysOf iso ops, k ∈ keysOf iso (ops ++ [.submission e]) := by
    intro k hk
    simp only [keysOf, List.flatMap_append, List.mem_append]
    exact .inl hk
  obtain ⟨s0, h1, h2, _⟩ := runAll_ok (m := m) hc.inj ops hsub
  rw [hs] at h1; cases h1
  refine foldlM_submit_frame hc.inj e e.times ?_ hr s [] h2 s' lines hs' rec hg
  intro x hx
  simp only [keysOf, List.flatMap_append, List.mem_append, List.flatMap_cons, List.flatMap_nil,
    List.append_nil, reports, List.map_map]
  exact .inr (List.mem_map.2 ⟨x, hx, rfl⟩)

/-! ### Queries and counts -/

/-- A record matches a query. -/
def Matches (S : Str) (a : Query) (r : Rec) : Prop :=
  let clean := fun x : Option Text => S.lower (S.strip (x.getD []))
  (Dash.Given a.taskId → some r.task = a.taskId) ∧
  (clean a.status ≠ [] → word r.status = clean a.status) ∧
  (clean a.source ≠ [] → r.source = clean a.source) ∧
  (clean a.q ≠ [] → Dash.Spec.Within (clean a.q) (S.lower (Dash.Spec.words
      [some r.task, r.taskName, r.callable, r.identity,
        (if r.coalesced ≠ 0 then some "coalesced".toList else some []), some (word r.status),
        some r.source, some r.runId])))

theorem statusText_eq (s : Status) : statusText s = word s := by cases s <;> rfl

theorem keep_iff (S : Str) (a : Query) (r : Rec) : keep S a r = true ↔ Matches S a r := by
  unfold keep Matches
  rw [Dash.joinSpace_words]
  simp only [statusText_eq]
  rw [← and_assoc, ← and_assoc]
  exact Dash.keepIff (Dash.keepIff (Dash.keepIff (Dash.skipIff (Dash.truthy_iff _) (Dash.neIff _ _))
    (Dash.skipIff (Dash.neIff _ _) (Dash.neIff _ _))) (Dash.skipIff (Dash.neIff _ _) (Dash.neIff _ _)))
    (Dash.skipIff (Dash.neIff _ _) (Dash.inIff _ _))

/-- when a run of the history last did something: its end, or its start -/
def lastSeen (r : Rec) : Option Int := r.finishedAt <|> r.submittedAt

open Classical in
/-- **C49, listings.**  A query with a positive limit returns the first `limit` matching records of the
history ordered by the time each run was last seen, newest first. -/
theorem history_query (rid : Key → Text) (iso : Int → Text) (m : Nat) (ops : List Op)
    (hc : NoCollision rid iso ops) {s : State} (hs : runAll rid iso m ops = some s)
    (S : Str) (now : Int) (a : Query) (hl : 1 ≤ a.limit) :
    ∃ order : List Rec, order.Perm s.records.values ∧
      order.Pairwise (fun x y => ∃ t u, lastSeen x = some t ∧ lastSeen y = some u ∧ u ≤ t) ∧
      query S now s a = (order.filter fun r => decide (Matches S a r)).take a.limit.toNat := by
  have hd := history_dated rid iso m ops hc hs
  have hseen : ∀ r ∈ s.records.values, lastSeen r = some (sortKey now r) := by
    intro r hr
    have h1 := (hd r hr).1
    unfold lastSeen sortKey
    cases hf : r.finishedAt with
    | some t => simp
    | none =>
      cases hsb : r.submittedAt with
      | none => exact absurd hsb h1
      | some t => simp
  refine ⟨sortBy (fun x y => decide (sortKey now y ≤ sortKey now x)) s.records.values,
    sortBy_perm _ _, ?_, ?_⟩
  · exact List.Pairwise.imp_of_mem (S := fun x y => ∃ t u, lastSeen x = some t ∧ lastSeen y = some u ∧ u ≤ t)
      (fun {x y} hx hy hxy => ⟨_, _, hseen x (mem_sortBy.1 hx), hseen y (mem_sortBy.1 hy),
        by simpa using hxy⟩)
      (sortBy_pairwise (le := fun x y => decide (sortKey now y ≤ sortKey now x))
        (by intro a b c h1 h2; simp only [decide_eq_true_eq] at *; omega)
        (by intro a b; simp only [Bool.or_eq_true, decide_eq_true_eq]; omega) s.records.values)
  · rw [query, Dash.scan_nil_eq, show max a.limit 1 = a.limit from by omega]
    congr 2
    funext x
    rw [Bool.eq_iff_iff, keep_iff]
    simp

/-- **C49, last run of a task.**  What the task lists show as the last run of a task is the recorded run of that task that
was seen last, and they show none only if none is recorded. -/
theorem C49_latest (rid : Key → Text) (iso : Int → Text) (m : Nat) (ops : List Op)
    (hc : NoCollision rid iso ops) {s : State} (hs : runAll rid iso m ops = some s)
    (S : Str) (hS : S.lower (S.strip []) = []) (now : Int) (task : Text) (ht : task ≠ []) :
    (latestForTask S now s task = none ↔ ∀ r ∈ s.records.values, r.task ≠ task) ∧
    ∀ r, latestForTask S now s task = some r → r ∈ s.records.values ∧ r.task = task ∧
      ∀ r' ∈ s.records.values, r'.task = task →
        ∃ t u, lastSeen r = some t ∧ lastSeen r' = some u ∧ u ≤ t := by
  obtain ⟨order, h1, h2, h3⟩ := history_query rid iso m ops hc hs S now ⟨some task, none, none, none, 1⟩ (Int.le_refl 1)
  have hm : ∀ r : Rec, Matches S ⟨some task, none, none, none, 1⟩ r ↔ r.task = task := by
    intro r
    unfold Matches
    simp only [Option.getD_none, hS, ne_eq, not_true_eq_false, false_imp_iff, and_true]
    constructor
    · intro q
      have := q (by unfold Dash.Given; simp [ht])
      simpa using this
    · intro q _; rw [q]
  have hl : latestForTask S now s task = (order.filter fun r => decide (r.task = task)).head? := by
    unfold latestForTask
    rw [h3]
    simp only [hm]
    have e : ∀ l : List Rec, (l.take (Int.toNat 1)).head? = l.head? := by
      intro l
      cases l <;> rfl
    rw [e]
  have hmem : ∀ r, r ∈ order.filter (fun r => decide (r.task = task)) ↔ r ∈ s.records.values ∧ r.task = task := by
    intro r
    rw [List.mem_filter, decide_eq_true_eq, h1.mem_iff]
  have hp := h2.filter (fun r => decide (r.task = task))
  have hp2 : ∀ r ∈ s.records.values, ∃ t, lastSeen r = some t := by
    intro r hr
    have h1 := (history_dated rid iso m ops hc hs r hr).1
    unfold lastSeen
    cases hf : r.finishedAt with
    | some t => exact ⟨t, rfl⟩
    | none =>
      cases hsb : r.submittedAt with
      | none => exact absurd hsb h1
      | some t => exact ⟨t, rfl⟩
  rw [hl]
  cases hf : order.filter fun r => decide (r.task = task) with
  | nil =>
    rw [hf] at hmem
    refine ⟨⟨fun _ r hr e => ?_, fun _ => rfl⟩, fun r hr => by cases hr⟩
    exact absurd ((hmem r).2 ⟨hr, e⟩) (by simp)
  | cons x xs =>
    rw [hf] at hmem hp
    obtain ⟨hx1, hx2⟩ := (hmem x).1 (by simp)
    refine ⟨⟨fun h => (by cases h), fun h => absurd hx2 (h x hx1)⟩, fun r hr => ?_⟩
    cases hr
    refine ⟨hx1, hx2, fun r' hr' ht' => ?_⟩
    rcases List.mem_cons.1 ((hmem r').2 ⟨hr', ht'⟩) with rfl | hin
    · obtain ⟨t, q⟩ := hp2 r' hr'
      exact ⟨t, t, q, q, Int.le_refl t⟩
    · exact (List.pairwise_cons.1 hp).1 r' hin

/-- **C49, counts.**  The summary's total is the number of runs listed, and the five counts add up to it. -/
theorem history_summary (s : State) :
    ∃ total running succeeded failed missed skipped,
      summary s = (total, running, succeeded, failed, missed, skipped) ∧
      total = s.records.values.length ∧
      running = s.records.values.countP (fun r => r.status = .running) ∧
      succeeded = s.records.values.countP (fun r => r.status = .succeeded) ∧
      failed = s.records.values.countP (fun r => r.status = .failed) ∧
      missed = s.records.values.countP (fun r => r.status = .missed) ∧
      skipped = s.records.values.countP (fun r => r.status = .maxInstances) ∧
      running + succeeded + failed + missed + skipped = total := by
  refine ⟨_, _, _, _, _, _, rfl, rfl, List.countP_eq_length_filter.symm, List.countP_eq_length_filter.symm,
    List.countP_eq_length_filter.symm, List.countP_eq_length_filter.symm,
    List.countP_eq_length_filter.symm, ?_⟩
  induction s.records.values with
  | nil => rfl
  | cons r l ih =>
    cases hr : r.status <;> simp [List.filter_cons, hr] at * <;> omega

/-! ### Run identifiers -/

/-- no `|` in the task id or the store alias, and the alias is not the empty text -/
def Clean (k : Key) : Prop := '|' ∉ k.1 ∧ (∀ s, k.2.1 = some s → '|' ∉ s ∧ s ≠ [])

theorem cut_inj {c : Char} : ∀ {a b : Text} {x y : Text}, c ∉ a → c ∉ b → a ++ c :: x = b ++ c :: y →
    a = b ∧ x = y
  | [], [], _, _, _, _, h => by simpa using h
  | [], d :: b, _, _, _, hb, h => by
    simp only [List.nil_append, List.cons_append, List.cons.injEq] at h
    exact absurd (h.1 ▸ List.mem_cons_self) hb
  | d :: a, [], _, _, ha, _, h => by
    simp only [List.nil_append, List.cons_append, List.cons.injEq] at h
    exact absurd (h.1 ▸ List.mem_cons_self) ha
  | d :: a, d' :: b, x, y, ha, hb, h => by
    simp only [List.cons_append, List.cons.injEq] at h
    have := cut_inj (a := a) (b := b) (fun hm => ha (List.mem_cons_of_mem _ hm))
      (fun hm => hb (List.mem_cons_of_mem _ hm)) h.2
    exact ⟨by rw [h.1, this.1], this.2⟩

/-- **C49, identifiers.**  Runs whose task ids and store aliases are clean have different identifiers if
the hash does not collide on what is hashed. -/
theorem runId_clean (hash : Text → Text) (iso : Int → Text) (ops : List Op)
    (hclean : ∀ k ∈ keysOf iso ops, Clean k)
    (hhash : ∀ k ∈ keysOf iso ops, ∀ k' ∈ keysOf iso ops, hash (rawId k) = hash (rawId k') →
      rawId k = rawId k') : NoCollision (runIdOf hash) iso ops := by
  intro k hk k' hk' h
  have h1 := hhash k hk k' hk' h
  have hc := hclean k hk
  have hc' := hclean k' hk'
  obtain ⟨t, st, tm⟩ := k
  obtain ⟨t', st', tm'⟩ := k'
  have h2 := cut_inj hc.1 hc'.1 h1
  have hs : '|' ∉ orEmpty st := by
    cases hst : st with
    | none => simp [orEmpty]
    | some s => exact (hc.2 s hst).1
  have hs' : '|' ∉ orEmpty st' := by
    cases hst : st' with
    | none => simp [orEmpty]
    | some s => exact (hc'.2 s hst).1
  have h3 := cut_inj hs hs' h2.2
  have h4 : st = st' := by
    cases hst : st with
    | none =>
      cases hst' : st' with
      | none => rfl
      | some s' =>
        rw [hst, hst'] at h3
        exact absurd h3.1.symm (hc'.2 s' hst').2
    | some s =>
      cases hst' : st' with
      | none =>
        rw [hst, hst'] at h3
        exact absurd h3.1 (hc.2 s hst).2
      | some s' =>
        rw [hst, hst'] at h3
        simpa [orEmpty] using h3.1
  simp only [Prod.mk.injEq]
  exact ⟨h2.1, h4, h3.2⟩

/-- an execution event of a task in a store -/
def exDone (task : String) (store : Option String) (t now : Int) : Op :=
  .execution ⟨.executed, task.toList, store.map String.toList, .aware t, none, none, none,
    ⟨none, none, none⟩, none, none, now⟩

/-- a submission event of one run -/
def exSubmit (task : String) (store : Option String) (t now : Int) : Op :=
  .submission ⟨false, task.toList, store.map String.toList, [(.aware t, ⟨none, none, none⟩)], none, 0, none,
    none, now⟩

/-- decimal digits for dates -/
def exIso (t : Int) : Text := (toString t).toList

/-- **C49 fails when identifiers collide**, for any hash function: the task `a|b` in store `c` and the task
`a` in store `b|c` get the same identifier for the same run time, so only the second run is listed although
there is room for both; and with `maxlen = 1` the next event about the first run raises `KeyError`. -/
theorem runId_collision_witness :
    (∀ hash t, runIdOf hash ("a|b".toList, some "c".toList, t) =
      runIdOf hash ("a".toList, some "b|c".toList, t)) ∧
    (∀ hash t, runIdOf hash ("a".toList, none, t) = runIdOf hash ("a".toList, some [], t)) ∧
    (runAll (runIdOf id) exIso 10 [exDone "a|b" (some "c") 1 5, exDone "a" (some "b|c") 1 6]).map
      (fun s => s.records.values.map fun r => (r.task, r.store)) = some [(['a'], some ['b', '|', 'c'])] ∧
    runAll (runIdOf id) exIso 1 [exDone "a|b" (some "c") 1 5, exDone "a" (some "b|c") 1 6,
      exDone "a|b" (some "c") 1 7] = none := by
  refine ⟨fun hash t => ?_, fun hash t => ?_, by decide +kernel, by decide +kernel⟩
  · simp [runIdOf, rawId, orEmpty]
  · simp [runIdOf, rawId, orEmpty]

/-- the hypotheses of the theorems above hold for a history with an eviction, a late submission event and a
lookup -/
example : NoCollision (runIdOf id) exIso [exSubmit "a" none 1 5, exDone "b" none 1 6, exSubmit "b" none 1 7,
      exDone "a" none 1 8, exDone "c" (some "s") 2 9] ∧
    (runAll (runIdOf id) exIso 2 [exSubmit "a" none 1 5, exDone "b" none 1 6, exSubmit "b" none 1 7,
      exDone "a" none 1 8, exDone "c" (some "s") 2 9]).map
      (fun s => s.records.values.map fun r => (r.task, r.status, r.submittedAt, r.finishedAt)) =
    some [(['b'], .succeeded, some 6, some 6), (['c'], .succeeded, some 9, some 9)] := by
  refine ⟨runId_clean _ _ _ ?_ (fun _ _ _ _ h => h), by decide +kernel⟩
  intro k hk
  simp only [keysOf, reports, exSubmit, exDone, List.flatMap_cons, List.flatMap_nil, List.map_cons,
    List.map_nil, List.cons_append, List.nil_append, List.mem_cons, List.not_mem_nil, or_false] at hk
  rcases hk with rfl | rfl | rfl | rfl | rfl <;> simp [Clean, runKey, normalize]

/-- the last run of `b` among three recorded runs -/
example : ((runAll (runIdOf id) exIso 9 [exDone "b" none 1 6, exDone "b" none 2 9, exDone "a" none 2 8]).bind
      (fun s => latestForTask ⟨id, id, id⟩ 10 s ['b'])).map (fun r => (r.task, r.finishedAt)) = some (['b'], some 9) := by
  decide +kernel

/-! ### Interleaved handlers -/

/-- the status of a record after those steps -/
def runMicro (st : Status) (l : List Micro) : Status := (l.foldl (fun x a => a.exec x) (st, false)).1

/-- Handled one after the other, in either order, a submission and the end of a run leave the final
status. -/
theorem status_serial (st : Status) (skipped : Bool) (c : Code) :
    runMicro st (submitSteps skipped ++ executeSteps c) = statusOf c ∧
    runMicro st (executeSteps c ++ submitSteps skipped) = statusOf c := by
  cases skipped <;> cases st <;> cases c <;> decide

/-- **C49 fails under concurrency.**  The status is tested and written outside the lock: if the end of the
run is handled by another thread between the test and the write of the submission handler, the run stays
`running` although its end was recorded. -/
theorem status_race_witness (c : Code) :
    ∃ l, Merge (submitSteps false) (executeSteps c) l ∧ runMicro .running l = .running :=
  ⟨[.test, .finish (statusOf c), .write .running],
    .left _ (.right _ (.left _ .nil)), by cases c <;> decide⟩

end Hist
end Asyncz
