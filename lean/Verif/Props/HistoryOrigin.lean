import Verif.Props.HistoryDetails
/-!
# C49: a record that says how a run ended was told so

The result shown for a run (status, value, exception, traceback, time) is the one of a report about this very run.
-/
namespace Asyncz
namespace Hist
open Spec (Status)
open Listing (Text)

/-- The record tells of the run what the report `e` says. -/
structure Tells (iso : Int → Text) (e : Execution) (r : Rec) : Prop where
  run : runKey iso e.task e.store (normalize e.time) = keyOf iso r
  status : r.status = statusOf e.code
  ret : r.ret = e.ret.map clip
  excType : r.excType = e.exc.map (·.1)
  excMsg : r.excMsg = e.exc.map fun x => clip x.2.1
  exc : r.exc = e.exc.map fun x => clip x.2.2
  tb : r.tb = e.tb
  finishedAt : r.finishedAt = some e.now

/-- a status that says how a run ended -/
def IsResult (s : Status) : Prop := s = .succeeded ∨ s = .failed ∨ s = .missed

/-- a record that says how a run ended is that of a report among `ops` -/
def From (iso : Int → Text) (ops : List Op) (r : Rec) : Prop := IsResult r.status → ∃ e, Op.execution e ∈ ops ∧ Tells iso e r

section
variable {rid : Key → Text} {iso : Int → Text} {K : Key → Prop} {m : Nat}

theorem From.mono {ops ops' : List Op} {r : Rec} (h : From iso ops r) (hs : ∀ o ∈ ops, o ∈ ops') : From iso ops' r := by
  intro hr
  obtain ⟨e, h1, h2⟩ := h hr
  exact ⟨e, hs _ h1, h2⟩

theorem submitRec_more (e : Submission) (r : Rec) : (∀ t, r.finishedAt = some t → (submitRec e r).finishedAt = some t) ∧
    (¬ Spec.Terminal r.status → ¬ IsResult (submitRec e r).status) := by
  obtain ⟨sk, _, _, _, src, co, _, _, _⟩ := e
  obtain ⟨a1, a2, a3, a4, a5, a6, a7, a8, a9, a10, st, a12, a13, a14, a15, a16, a17, a18, a19, a20⟩ := r
  have n1 : ¬ IsResult .running := fun h => by rcases h with h | h | h <;> cases h
  have n2 : ¬ IsResult .maxInstances := fun h => by rcases h with h | h | h <;> cases h
  cases st <;> cases sk <;>
    refine ⟨fun t ht => ?_, fun h => ?_⟩ <;>
    first
    | exact ht
    | (simp only at ht; subst ht; rfl)
    | exact n1
    | exact n2
    | exact absurd (fun h => by cases h) h

theorem submitRec_from {ops : List Op} (e : Submission) (mt : Meta) (identity : Option Text) {r : Rec} (h : From iso ops r) :
    From iso ops (submitRec e (refill mt identity r)) := by
  obtain ⟨_, k2, k3, k4, _, _, _, _, _, k10, k11, k12, k13, k14, k15, _, _⟩ := submitRec_keeps e (refill mt identity r)
  intro hres
  have hkey : keyOf iso (submitRec e (refill mt identity r)) = keyOf iso r := by
    simp only [keyOf, k2, k3, k4]
    rfl
  by_cases ht : Spec.Terminal r.status
  · have hst := k15 ht
    have hst : (submitRec e (refill mt identity r)).status = r.status := hst
    rw [hst] at hres
    obtain ⟨x, h1, h2⟩ := h hres
    refine ⟨x, h1, ⟨h2.run.trans hkey.symm, hst.trans h2.status, k10.trans h2.ret, k11.trans h2.excType, k12.trans h2.excMsg, k13.trans h2.exc,
      k14.trans h2.tb, ?_⟩⟩
    exact (submitRec_more e (refill mt identity r)).1 _ h2.finishedAt
  · exact absurd hres ((submitRec_more e (refill mt identity r)).2 ht)

theorem executeRec_from {ops : List Op} (e : Execution) (he : Op.execution e ∈ ops) (r : Rec)
    (hk : keyOf iso r = runKey iso e.task e.store (normalize e.time)) : From iso ops (executeRec e r) :=
  fun _ => ⟨e, he, ⟨hk.symm, rfl, rfl, rfl, rfl, rfl, rfl, rfl⟩⟩

theorem mem_set_values {d : Dict Text Rec} (hw : d.WF) {k : Text} {v r : Rec} (h : r ∈ (d.set k v).values) : r = v ∨ r ∈ d.values := by
  obtain ⟨⟨k', r'⟩, hm, rfl⟩ := List.mem_map.1 h
  have hg := Dict.get?_of_mem (Dict.WF.set hw k v) hm
  rw [Dict.get?_set] at hg
  split at hg
  · cases hg; exact .inl rfl
  · exact .inr (List.mem_map.2 ⟨_, Dict.mem_of_get? hg, rfl⟩)

theorem mem_newest_values {d : Dict Text Rec} {k : Text} {v r : Rec} (h : r ∈ Dict.values (Dash.Spec.newest m (d ++ [(k, v)]))) :
    r = v ∨ r ∈ d.values := by
  obtain ⟨p, hm, rfl⟩ := List.mem_map.1 h
  rcases List.mem_append.1 (List.mem_of_mem_drop hm) with hm | hm
  · exact .inr (List.mem_map.2 ⟨_, hm, rfl⟩)
  · simp only [List.mem_singleton] at hm
    subst hm
    exact .inl rfl

theorem submitOne_from (hinj : ∀ k k', K k → K k' → rid k = rid k' → k = k') (e : Submission) {ops : List Op} (l : List (RawTime × Meta))
    (hK : ∀ x ∈ l, K (runKey iso e.task e.store (normalize x.1))) :
    ∀ (s : State) (lines : List Line), Inv rid iso K m s → (∀ r ∈ s.records.values, From iso ops r) → ∀ s' lines',
      l.foldlM (submitOne rid iso m e) (s, lines) = some (s', lines') → ∀ r ∈ s'.records.values, From iso ops r := by
  induction l with
  | nil =>
    intro s lines _ hf s' lines' h
    cases h
    exact hf
  | cons x l ih =>
    intro s lines hinv hf s' lines' h
    obtain ⟨s1, l1, h1, h2, h3, _⟩ := submitOne_ok hinj e lines hinv x (hK x List.mem_cons_self)
    rw [List.foldlM_cons, h1] at h
    refine ih (fun y hy => hK y (List.mem_cons_of_mem _ hy)) s1 l1 h2 (fun r hr => ?_) s' lines' h
    rw [h3] at hr
    cases hg : s.records.get? (rid (runKey iso e.task e.store (normalize x.1))) with
    | some old =>
      rw [hg] at hr
      rcases mem_set_values hinv.wf hr with rfl | hr
      · exact submitRec_from e _ _ (hf old (List.mem_map.2 ⟨_, Dict.mem_of_get? hg, rfl⟩))
      · exact hf r hr
    | none =>
      rw [hg] at hr
      rcases mem_newest_values hr with rfl | hr
      · exact fun hres => absurd hres ((submitRec_more e _).2 fun h => h rfl)
      · exact hf r hr

/-- **C49, where a result comes from.**  For every sequence of calls whose runs have distinct identifiers: a listed record that says how
its run ended tells exactly what one of the reports about this very run said: the status, the value, the exception, the traceback and
the time. -/
theorem C49_result_origin (rid : Key → Text) (iso : Int → Text) (m : Nat) (ops : List Op) (hc : NoCollision rid iso ops) {s : State}
    (h : runAll rid iso m ops = some s) : ∀ r ∈ s.records.values, IsResult r.status → ∃ e, Op.execution e ∈ ops ∧ Tells iso e r := by
  suffices H : ∀ (ops done : List Op), (∀ k ∈ keysOf iso (done ++ ops), ∀ k' ∈ keysOf iso (done ++ ops), rid k = rid k' → k = k') →
      ∀ s, Inv rid iso (· ∈ keysOf iso (done ++ ops)) m s → (∀ r ∈ s.records.values, From iso done r) → ∀ s',
      ops.foldlM (fun s o => (step rid iso m s o).map (·.1)) s = some s' → ∀ r ∈ s'.records.values, From iso (done ++ ops) r from
    H ops [] hc State.empty (Inv.empty _ _ _ _) (fun r hr => by cases hr) s h
  intro ops
  induction ops with
  | nil =>
    intro done _ s _ hf s' h r hr
    cases h
    rw [List.append_nil]
    exact hf r hr
  | cons o ops ih =>
    intro done hc s hinv hf s' h
    have hinj : ∀ k k', k ∈ keysOf iso (done ++ o :: ops) → k' ∈ keysOf iso (done ++ o :: ops) → rid k = rid k' → k = k' :=
      fun k k' hk hk' => hc k hk k' hk'
    obtain ⟨s1, l, h1, h2, h3⟩ := step_ok hinj hinv o fun x hx => by
      simp only [keysOf, List.flatMap_append, List.flatMap_cons, List.mem_append]
      exact .inr (.inl (List.mem_map_of_mem hx))
    rw [List.foldlM_cons, h1] at h
    have e0 : done ++ o :: ops = done ++ [o] ++ ops := by simp
    have hone : ∀ r ∈ s1.records.values, From iso (done ++ [o]) r := by
      have hf' : ∀ r ∈ s.records.values, From iso (done ++ [o]) r := fun r hr => (hf r hr).mono fun x hx => by simp [hx]
      cases o with
      | clear =>
        simp only [step, Option.some.injEq, Prod.mk.injEq] at h1
        intro r hr
        rw [← h1.1] at hr
        cases hr
      | submission e =>
        refine submitOne_from hinj e e.times (fun x hx => ?_) s [] hinv hf' s1 l h1
        simp only [keysOf, List.flatMap_append, List.flatMap_cons, List.mem_append, reports, List.map_map]
        exact .inr (.inl (List.mem_map.2 ⟨x, hx, rfl⟩))
      | execution e =>
        have hK : runKey iso e.task e.store (normalize e.time) ∈ keysOf iso (done ++ Op.execution e :: ops) := by
          simp only [keysOf, List.flatMap_append, List.flatMap_cons, List.mem_append, reports]
          exact .inr (.inl (by simp))
        obtain ⟨s2, line, q1, _, q3, _⟩ := recordExecution_ok hinj e hinv hK
        have : s2 = s1 := by
          simp only [step] at h1
          rw [q1] at h1
          simp only [Option.some.injEq, Prod.mk.injEq] at h1
          exact h1.1
        subst this
        intro r hr
        rw [q3] at hr
        cases hg : s.records.get? (rid (runKey iso e.task e.store (normalize e.time))) with
        | some old =>
          rw [hg] at hr
          rcases mem_set_values hinv.wf hr with rfl | hr
          · have hid := hinv.id _ _ (Dict.mem_of_get? hg)
            exact executeRec_from e (by simp) _ (hinj _ _ hid.2.2 hK hid.2.1)
          · exact hf' r hr
        | none =>
          rw [hg] at hr
          rcases mem_newest_values hr with rfl | hr
          · exact executeRec_from e (by simp) _ rfl
          · exact hf' r hr
    have := ih (done ++ [o]) (by rw [← e0]; exact hc) s1 (by rw [← e0]; exact h2) hone s' h
    rw [e0]
    exact this

end

-- two reports about one run: the record tells of the second
example : ((runAll (runIdOf id) exIso 5 [exDone "a" none 1 5, exDone "a" none 1 9]).map fun s =>
    s.records.values.map fun r => (r.status, r.finishedAt)) = some [(.succeeded, some 9)] := by decide +kernel

end Hist
end Asyncz
