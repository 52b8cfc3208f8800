import Verif.Model.CliRun
import Verif.Props.SchedStop
import Verif.Lemmas.SchedFrame
/-!
# One-shot commands (C86, C87)
-/
namespace Asyncz
namespace CliRun
open Sched
variable {σ τ φ : Type} {O : StoreOps σ (Body τ φ)}

/-- the task `i` in the store behind `a`, before the command -/
def saved (O : StoreOps σ (Body τ φ)) (d : Dict String σ) (a i : String) : Option (T τ φ) :=
  (d.get? a).bind fun st => O.lookup st i

/-- the stores that `Keeps` tells keep their tasks when they are closed; no other gets more tasks by that -/
structure Durable (L : LawfulStore O) (Keeps : σ → Prop) : Prop where
  sub : ∀ st i t, L.Inv st → L.toMap (O.close st) i = some t → L.toMap st i = some t
  step : ∀ st op, Keeps st → Keeps (O.step st op).1
  keep : ∀ st, L.Inv st → Keeps st → L.toMap (O.close st) = L.toMap st

/-! ## The temporary scheduler -/

theorem temporary_aux (d : Dict String σ) (s : State σ τ φ) (h : (s.stores ++ d).WF) (hm : s.mode = .stopped) :
    (d.foldl (fun s p => (addStore p.2 p.1 s).1) s).stores = s.stores ++ d ∧
    (d.foldl (fun s p => (addStore p.2 p.1 s).1) s).mode = .stopped ∧
    (d.foldl (fun s p => (addStore p.2 p.1 s).1) s).refs = s.refs ∧
    (d.foldl (fun s p => (addStore p.2 p.1 s).1) s).pending = s.pending ∧
    (d.foldl (fun s p => (addStore p.2 p.1 s).1) s).executors = s.executors ∧
    ∃ l, (d.foldl (fun s p => (addStore p.2 p.1 s).1) s).log = s.log ++ l ∧ ∀ o ∈ l, ∃ a, o = .storeAdded a := by
  induction d generalizing s with
  | nil => exact ⟨by simp, hm, rfl, rfl, rfl, [], by simp, by simp⟩
  | cons p d ih =>
    obtain ⟨a, st⟩ := p
    have hna : s.stores.get? a = none := by
      rw [Dict.get?_eq_none]
      intro hc
      simp only [Dict.WF, List.map_append, List.map_cons] at h
      exact (List.nodup_append.1 h).2.2 a hc a (by simp) rfl
    have hset : s.stores.set a st = s.stores ++ [(a, st)] := by
      revert hna
      generalize s.stores = x
      intro hna
      induction x with
      | nil => rfl
      | cons q x ih =>
        simp only [Dict.get?] at hna
        split at hna
        · cases hna
        · rename_i hq
          simp only [Dict.set, if_neg hq, List.cons_append, ih hna]
    have e1 : (addStore st a s).1 = ((s.setStore a st).emit (.storeAdded a)).wakeIfRunning := by
      simp [addStore, Dict.contains, hna]
    have hm1 : (addStore st a s).1.mode = .stopped := by
      rw [e1, wakeIfRunning_stopped (s := (s.setStore a st).emit (.storeAdded a)) hm]; exact hm
    have e2 : (addStore st a s).1 = (s.setStore a st).emit (.storeAdded a) := by
      rw [e1, wakeIfRunning_stopped (s := (s.setStore a st).emit (.storeAdded a)) hm]
    have hs1 : (addStore st a s).1.stores = s.stores ++ [(a, st)] := by
      rw [e2]; exact hset
    obtain ⟨k1, k2, k3, k4, k5, l, k6, k7⟩ := ih (addStore st a s).1 (by
      rw [hs1]; simpa [List.append_assoc] using h) hm1
    simp only [List.foldl_cons]
    refine ⟨by rw [k1, hs1]; simp, k2, by rw [k3, e2]; rfl, by rw [k4, e2]; rfl, by rw [k5, e2]; rfl,
      .storeAdded a :: l, by rw [k6, e2]; simp [State.emit, State.setStore], ?_⟩
    intro o ho
    rcases List.mem_cons.1 ho with rfl | ho
    · exact ⟨a, rfl⟩
    · exact k7 o ho

theorem temporary_reachable (L : LawfulStore O) (c : Cfg τ) (e : Env τ) (d : Dict String σ)
    (hd : ∀ p ∈ d, L.Inv p.2) : Reachable L c (temporary d : State σ τ φ) := by
  have : ∀ s : State σ τ φ, Reachable L c s → Reachable L c (d.foldl (fun s p => (addStore p.2 p.1 s).1) s) := by
    induction d with
    | nil => exact fun s h => h
    | cons p d ih =>
      intro s h
      exact ih (fun q hq => hd q (by simp [hq])) _
        (.call h (e := e) (fuel := 0) (k := .addStore p.2 p.1) (hd p (by simp)) rfl)
  exact this _ .init

/-- an observation that is no run: neither handed to an executor nor called at shutdown -/
def NoRun : Obs → Prop
  | .send .. | .shutdownRun .. => False
  | _ => True

/-- what `start` makes of the temporary scheduler -/
structure Started (O : StoreOps σ (Body τ φ)) (d : Dict String σ) (s : State σ τ φ) : Prop where
  mode : s.mode = .running
  refs : s.refs = 1
  entry : ∀ a i, entry O s a i = saved O d a i
  keys : ∃ l, s.stores.keys = d.keys ++ l
  stores : ∀ a st, d.get? a = some st → s.stores.get? a = some st
  executors : s.executors.keys = ["default"]
  log : ∀ o ∈ s.log, NoRun o

theorem addPending_nil {e : Env τ} {m : Option Int} {ps : List (T τ φ × Bool × Bool)} {s s' : State σ τ φ}
    {r : Except Err Unit} (hp : ps = []) (h : addPending O e m ps s = (s', r)) : s' = s := by
  subst hp
  simp only [addPending, Prod.mk.injEq] at h
  exact h.1.symm

theorem started (L : LawfulStore O) (c : Cfg τ) (e : Env τ) (d : Dict String σ) (hd : Stores L d) :
    ∃ s1, start O c e false (temporary d : State σ τ φ) = (s1, .ok true) ∧ Reachable L c s1 ∧ Started O d s1 := by
  obtain ⟨k1, k2, k3, k4, k5, l, k6, k7⟩ := temporary_aux d (State.init : State σ τ φ) (by simpa [State.init] using hd.1) rfl
  have hr := temporary_reachable L c e d (φ := φ) (fun p hp => hd.2 p.1 p.2 (Dict.get?_of_mem hd.1 hp))
  rw [show d.foldl (fun s p => (addStore p.2 p.1 s).1) State.init = (temporary d : State σ τ φ) from rfl] at *
  have k1 : (temporary d : State σ τ φ).stores = d := by rw [k1]; rfl
  have hst : start O c e false (temporary d : State σ τ φ) = ((start O c e false (temporary d : State σ τ φ)).1, .ok true) := by
    simp only [start, k3, State.init, k2, k4, addPending]
    rfl
  refine ⟨_, hst, .call hr (e := e) (fuel := 0) (k := .start false) trivial rfl, ?_⟩
  obtain ⟨h1, h2⟩ := start_ok hst
  rcases h2 with ⟨h2, _⟩ | ⟨_, _, _, h4, h5, _, s2, h6, h7, h8, h9⟩
  · rw [k3] at h2; simp [State.init] at h2
  · have h6 := addPending_nil k4 h6
    subst h6
    have hex : (addExecutor c.defaultExecutor "default" { (temporary d : State σ τ φ) with refs := (temporary d : State σ τ φ).refs + 1 }).1.executors
        = [("default", c.defaultExecutor)] := by
      simp [addExecutor, Dict.contains, Dict.get?, k5, State.init, State.emit, Dict.set]
    have hlog : ∀ o ∈ (withDefaults O c { (temporary d : State σ τ φ) with refs := (temporary d : State σ τ φ).refs + 1 }).log, NoRun o := by
      intro o ho
      have hl : ∀ o ∈ (temporary d : State σ τ φ).log, NoRun o := by
        intro o ho
        rw [k6] at ho
        simp only [State.init, List.nil_append] at ho
        obtain ⟨a, rfl⟩ := k7 o ho
        exact trivial
      simp only [withDefaults, addStore, addExecutor] at ho
      have wk : ∀ s : State σ τ φ, s.wakeIfRunning.log = s.log := by
        intro s; simp only [State.wakeIfRunning]; split <;> rfl
      split at ho <;> split at ho <;> (try rw [wk] at ho) <;>
        simp only [State.emit, State.setStore, List.mem_append, List.mem_singleton] at ho
      · exact hl o ho
      · rcases ho with ho | rfl
        · exact hl o ho
        · exact trivial
      · rcases ho with ho | rfl
        · exact hl o ho
        · exact trivial
      · rcases ho with (ho | rfl) | rfl
        · exact hl o ho
        · exact trivial
        · exact trivial
    have hsto : (withDefaults O c { (temporary d : State σ τ φ) with refs := (temporary d : State σ τ φ).refs + 1 }).stores =
        if d.contains "default" then d else d.set "default" O.init := by
      simp only [withDefaults, addStore_stores, stores_addExecutor, k1]
      rfl
    refine ⟨by rw [h4]; rfl, by rw [h1, k3]; rfl, fun a i => ?_, ?_, ?_, ?_, ?_⟩
    · have := entry_withDefaults L c (s := { (temporary d : State σ τ φ) with refs := (temporary d : State σ τ φ).refs + 1 })
        (hr.wf.congr rfl) a i
      simp only [entry, h7] at this ⊢
      rw [this]
      simp only [saved, k1]
    · rw [h7, hsto]
      split
      · exact ⟨[], by simp⟩
      · rename_i hc
        refine ⟨["default"], ?_⟩
        have hc : "default" ∉ d.keys := by
          rw [← Dict.get?_eq_none]
          simpa [Dict.contains] using hc
        revert hc
        generalize d = x
        intro hc
        induction x with
        | nil => rfl
        | cons q x ih =>
          simp only [Dict.keys, List.map_cons, List.mem_cons, not_or] at hc
          simp only [Dict.set, if_neg (Ne.symm hc.1), Dict.keys, List.map_cons, List.cons_append]
          rw [show List.map Prod.fst (Dict.set x "default" O.init) = _ from ih hc.2]; rfl
    · intro a st hg
      rw [h7, hsto]
      split
      · exact hg
      · rename_i hc
        rw [Dict.get?_set, if_neg, hg]
        rintro rfl
        simp [Dict.contains, hg] at hc
    · rw [h8]
      have : (withDefaults O c { (temporary d : State σ τ φ) with refs := (temporary d : State σ τ φ).refs + 1 }).executors =
          [("default", c.defaultExecutor)] := by
        simp only [withDefaults, addStore_executors, hex]
      rw [this]; rfl
    · intro o ho
      rw [h9] at ho
      rcases List.mem_append.1 ho with ho | ho
      · exact hlog o ho
      · simp only [List.mem_singleton] at ho; subst ho; exact trivial

/-! ## Stores that keep their data stay such -/

def Lasting (Keeps : σ → Prop) (s s' : State σ τ φ) : Prop :=
  ∀ a st, s.stores.get? a = some st → Keeps st → ∃ st', s'.stores.get? a = some st' ∧ Keeps st'

variable {Keeps : σ → Prop}

theorem Lasting.rfl' {s : State σ τ φ} : Lasting Keeps s s := fun _ st h hk => ⟨st, h, hk⟩

theorem Lasting.trans {s s' s'' : State σ τ φ} (h : Lasting Keeps s s') (h' : Lasting Keeps s' s'') :
    Lasting Keeps s s'' := fun a st hg hk => by
  obtain ⟨st1, h1, h2⟩ := h a st hg hk
  exact h' a st1 h1 h2

theorem Lasting.same {s s' : State σ τ φ} (h : s'.stores = s.stores) : Lasting Keeps s s' := fun a st hg hk => by
  rw [h]; exact ⟨st, hg, hk⟩

theorem lasting_setStore (hK : ∀ st op, Keeps st → Keeps (O.step st op).1) {s : State σ τ φ} {a : String} {st : σ}
    (hg : s.stores.get? a = some st) (op : StoreOp (Body τ φ)) : Lasting Keeps s (s.setStore a (O.step st op).1) := by
  intro b st' hg' hk
  simp only [State.setStore, Dict.get?_set]
  split
  · rename_i hb; subst hb; rw [hg] at hg'; cases hg'; exact ⟨_, rfl, hK _ _ hk⟩
  · exact ⟨st', hg', hk⟩

theorem lasting_deleteInStores (hK : ∀ st op, Keeps st → Keeps (O.step st op).1) (id : String) (store : Option String)
    (d : Dict String σ) (a : String) (st : σ) (hg : d.get? a = some st) (hk : Keeps st) :
    ∃ st', (deleteInStores O id store d).1.get? a = some st' ∧ Keeps st' := by
  induction d with
  | nil => cases hg
  | cons p d ih =>
    obtain ⟨b, st0⟩ := p
    simp only [Dict.get?] at hg
    have hstep := hK st0 (.delete id)
    simp only [deleteInStores]
    split
    · split <;> rename_i hd <;> rw [hd] at hstep <;> simp only [Dict.get?] <;> split at hg
      · cases hg; rw [if_pos ‹_›]; exact ⟨_, rfl, hstep hk⟩
      · rw [if_neg ‹_›]; exact ⟨st, hg, hk⟩
      · cases hg; rw [if_pos ‹_›]; exact ⟨_, rfl, hstep hk⟩
      · rw [if_neg ‹_›]; exact ih hg
    · simp only [Dict.get?]
      split at hg
      · cases hg; rw [if_pos ‹_›]; exact ⟨_, rfl, hk⟩
      · rw [if_neg ‹_›]; exact ih hg

theorem lasting_deleteTask (hK : ∀ st op, Keeps st → Keeps (O.step st op).1) (id : String) (store : Option String)
    (s : State σ τ φ) : Lasting Keeps s (deleteTask O id store s).1 := by
  simp only [deleteTask]
  split
  · split <;> exact .same rfl
  · split <;> exact fun a st hg hk => lasting_deleteInStores hK id store _ a st hg hk

theorem lasting_passRel (hK : ∀ st op, Keeps st → Keeps (O.step st op).1) (e : Env τ) :
    PassRel O e (Lasting (φ := φ) Keeps) where
  refl _ := .rfl'
  trans h h' := h.trans h'
  del := lasting_deleteTask hK
  upd _ _ _ _ _ hg _ := lasting_setStore hK hg _
  obs _ _ _ _ := .same rfl

theorem lasting_tick (hK : ∀ st op, Keeps st → Keeps (O.step st op).1) {c : Cfg τ} {e : Env τ} {fuel : Nat}
    {s s' : State σ τ φ} {r : Except Err Unit} (h : tick O c e fuel s = some (s', r)) : Lasting Keeps s s' := by
  simp only [tick] at h
  split at h
  · cases h
  · rename_i hd; cases h
    have := rel_processTasks (lasting_passRel hK e) hd
    exact this
  · rename_i hd; cases h
    have := rel_processTasks (lasting_passRel hK e) hd
    exact this

theorem lasting_updateTask (hK : ∀ st op, Keeps st → Keeps (O.step st op).1) (id : String) (store : Option String)
    (f : T τ φ → Option (T τ φ)) (s : State σ τ φ) : Lasting Keeps s (updateTask O id store f s).1 := by
  simp only [updateTask]
  cases lookupTask O s id store with
  | none => exact .rfl'
  | some p =>
    obtain ⟨t, loc⟩ := p
    simp only []
    cases f t with
    | none => exact .rfl'
    | some t' =>
      cases loc with
      | none => exact .same (by rw [stores_wakeIfRunning]; rfl)
      | some a =>
        simp only []
        cases hg : s.stores.get? a with
        | none => exact .rfl'
        | some st =>
          have h := lasting_setStore hK hg (.update t')
          simp only []
          split <;> rename_i hd <;> rw [hd] at h
          · exact h.trans (.same (by rw [stores_wakeIfRunning]; rfl))
          · exact h

theorem lasting_realAddTask (hK : ∀ st op, Keeps st → Keeps (O.step st op).1) (e : Env τ) (t : T τ φ)
    (replace start : Bool) (minD : Option Int) (s : State σ τ φ) :
    Lasting Keeps s (realAddTask O e t replace start minD s).1 := by
  have hadd : ∀ (t : T τ φ) (s : State σ τ φ), Lasting Keeps s (added t start s) := by
    intro t s
    simp only [added]
    split
    · exact .same (by rw [stores_wakeIfRunning]; rfl)
    · exact .same rfl
  simp only [realAddTask]
  cases firstTime e t start minD with
  | error x => exact .rfl'
  | ok n =>
    simp only []
    cases hg : s.stores.get? t.body.store with
    | none => exact .rfl'
    | some st =>
      have h1 := lasting_setStore hK hg (.add { t with nrt := n, body := { t.body with pending := false } })
      have h2 := lasting_setStore hK hg (.update { t with nrt := n, body := { t.body with pending := false } })
      simp only []
      split
      · rename_i hd; rw [hd] at h1; exact h1.trans (hadd _ _)
      · split
        · split <;> rename_i hd <;> rw [hd] at h2
          · exact h2.trans (hadd _ _)
          · exact h2
        · exact .rfl'

theorem lasting_ask (hK : ∀ st op, Keeps st → Keeps (O.step st op).1) {e : Env τ} {fuel : Nat} {k : Request τ φ}
    {s s' : State σ τ φ} {ok : Bool} (h : ask O e fuel k s = some (s', ok)) : Lasting Keeps s s' := by
  cases k with
  | read => cases h; exact .rfl'
  | pause id => cases h; exact lasting_updateTask hK _ _ _ _
  | update id f => cases h; exact lasting_updateTask hK _ _ _ _
  | remove id =>
    simp only [ask] at h
    split at h
    · cases h; exact .rfl'
    · cases h; exact lasting_deleteTask hK _ _ _
  | resume id =>
    cases h
    simp only [resumeTask]
    split
    · exact .rfl'
    · split
      · exact .rfl'
      · rename_i n _
        have := lasting_updateTask hK id (‹Option String›) (fun t => some { t with nrt := some n }) s
        split <;> rename_i hd <;> rw [hd] at this <;> exact this
      · rename_i t loc _ _ _
        have := lasting_deleteTask hK t.id loc s
        split <;> rename_i hd <;> rw [hd] at this <;> exact this
  | run id =>
    simp only [ask] at h
    obtain ⟨r, h1, h2⟩ := Option.map_eq_some_iff.1 h
    cases h2
    exact rel_runTask (lasting_passRel hK e) h1
  | add t =>
    cases h
    simp only [addTask]
    split
    · exact .same rfl
    · exact lasting_realAddTask hK _ _ _ _ _ _

theorem ask_reachable {L : LawfulStore O} {c : Cfg τ} {e : Env τ} {fuel : Nat} {k : Request τ φ}
    {s s' : State σ τ φ} {ok : Bool} (hs : Reachable L c s)
    (hf : ∀ id f, k = .update id f → ∀ t t', f t = some t' → t'.id = t.id)
    (h : ask O e fuel k s = some (s', ok)) : Reachable L c s' := by
  cases k with
  | read => cases h; exact hs
  | pause id => cases h; exact .call hs (e := e) (fuel := fuel) (k := .pauseTask id none) trivial rfl
  | update id f => cases h; exact .call hs (e := e) (fuel := fuel) (k := .update id none f) (hf _ _ rfl) rfl
  | remove id =>
    simp only [ask] at h
    split at h
    · cases h; exact hs
    · cases h; exact .call hs (e := e) (fuel := fuel) (k := .deleteTask id _) trivial rfl
  | resume id => cases h; exact .call hs (e := e) (fuel := fuel) (k := .resumeTask id none) trivial rfl
  | run id =>
    simp only [ask] at h
    obtain ⟨r, h1, h2⟩ := Option.map_eq_some_iff.1 h
    cases h2
    exact .call hs (e := e) (fuel := fuel) (k := .runTask id none true true) trivial (by simp [exec, h1])
  | add t => cases h; exact .call hs (e := e) (fuel := fuel) (k := .addTask t none false) trivial rfl

theorem ask_kept {e : Env τ} {fuel : Nat} {k : Request τ φ} {s s' : State σ τ φ} {ok : Bool}
    (h : ask O e fuel k s = some (s', ok)) : Kept s s' := by
  cases k with
  | read => cases h; exact .rfl'
  | pause id => cases h; exact kept_updateTask _ _ _ _
  | update id f => cases h; exact kept_updateTask _ _ _ _
  | remove id =>
    simp only [ask] at h
    split at h
    · cases h; exact .rfl'
    · cases h; exact kept_deleteTask _ _ _
  | resume id =>
    cases h
    exact kept_exec (c := ⟨false, 0, 0, 0, fun _ => false, 0⟩) (e := e) (fuel := fuel) (k := .resumeTask id none) trivial rfl
  | run id =>
    simp only [ask] at h
    obtain ⟨r, h1, h2⟩ := Option.map_eq_some_iff.1 h
    cases h2
    exact rel_runTask (kept_passRel O e) h1
  | add t =>
    cases h
    exact kept_exec (c := ⟨false, 0, 0, 0, fun _ => false, 0⟩) (e := e) (fuel := fuel) (k := .addTask t none false) trivial rfl

/-! ## The queued wake-ups -/

theorem wakeUps_keep {L : LawfulStore O} {c : Cfg τ} {fuel : Nat} {es : List (Env τ)} {s s' : State σ τ φ}
    (hK : ∀ st op, Keeps st → Keeps (O.step st op).1) (hs : Reachable L c s)
    (h : wakeUps O c fuel es s = some s') : Reachable L c s' ∧ Kept s s' ∧ Lasting Keeps s s' := by
  induction es generalizing s with
  | nil => cases h; exact ⟨hs, .rfl', .rfl'⟩
  | cons e es ih =>
    simp only [wakeUps] at h
    split at h
    · cases h
    · rename_i s1 r hd
      have h1 : Reachable L c s1 := .call hs (e := e) (fuel := fuel) (k := .tick) trivial (by simp [exec, hd])
      obtain ⟨k1, k2, k3⟩ := ih h1 h
      exact ⟨k1, (kept_tick hd).trans k2, (lasting_tick hK hd).trans k3⟩

/-- nothing is due at any of the passes -/
def NothingDue (O : StoreOps σ (Body τ φ)) (es : List (Env τ)) (s : State σ τ φ) : Prop :=
  ∀ e ∈ es, ∀ a i t n, entry O s a i = some t → t.nrt = some n → e.now < n

theorem idle_tick {L : LawfulStore O} {c : Cfg τ} {fuel : Nat} {e : Env τ} {s s' : State σ τ φ} (hw : WF L s)
    (hn : ∀ a i t n, entry O s a i = some t → t.nrt = some n → e.now < n) {r : Except Err Unit}
    (h : tick O c e fuel s = some (s', r)) : s'.stores = s.stores ∧ s'.log = s.log := by
  have hdue : ∀ a st, s.stores.get? a = some st → O.due st e.now = [] := by
    intro a st hg
    have hi := hw.inv _ _ hg
    refine List.eq_nil_iff_forall_not_mem.2 fun t ht => ?_
    obtain ⟨hm, n, h1, h2⟩ := ((L.due hi e.now).2 t).1 ht
    have := hn a t.id t n (by simp [entry, hg, L.lookup hi, hm]) h1
    omega
  have key : ∀ (as : List String) (s s' : State σ τ φ) w x,
      (∀ a st, s.stores.get? a = some st → O.due st e.now = []) →
      processStores O c e fuel as w s = some (s', x) → s' = s ∧ ∀ q, x = .ok q → q.1 = [] := by
    intro as
    induction as with
    | nil => intro s s' w x _ h; cases h; exact ⟨rfl, fun q hq => by cases hq; rfl⟩
    | cons a as ih =>
      intro s s' w x hdue h
      have one : ∀ s1 y, processStore O c e fuel a w s = some (s1, y) → s1 = s ∧ ∃ q, y = .ok q ∧ q.1 = [] := by
        intro s1 y h
        simp only [processStore] at h
        split at h
        · cases h; exact ⟨rfl, _, rfl, rfl⟩
        · rename_i st hg
          rw [hdue _ _ hg] at h
          simp only [processDue] at h
          split at h <;> (cases h; exact ⟨rfl, _, rfl, rfl⟩)
      simp only [processStores] at h
      split at h
      · cases h
      · rename_i hd
        obtain ⟨_, q, hq, _⟩ := one _ _ hd
        cases hq
      · rename_i s1 q hd
        obtain ⟨rfl, q', hq, hq1⟩ := one _ _ hd
        cases hq
        split at h
        · cases h
        · rename_i hd'
          cases h
          exact ⟨(ih _ _ _ _ hdue hd').1, fun q hq => by cases hq⟩
        · rename_i hd'
          cases h
          obtain ⟨e1, e2⟩ := ih _ _ _ _ hdue hd'
          exact ⟨e1, fun q hq => by cases hq; simp [hq1, e2 _ rfl]⟩
  simp only [tick, processTasks] at h
  split at h
  · cases h
  · rename_i hd
    cases h
    split at hd
    · cases hd
    · split at hd
      · split at hd
        · cases hd
        · rename_i hd'; cases hd
          have := (key _ { s with woken := false, timer := none } _ _ _ hdue hd').1
          subst this; exact ⟨rfl, rfl⟩
        · cases hd
      · cases hd
  · rename_i hd
    cases h
    split at hd
    · cases hd; exact ⟨rfl, rfl⟩
    · split at hd
      · split at hd
        · cases hd
        · cases hd
        · rename_i hd'; cases hd
          obtain ⟨e1, e2⟩ := key _ { s with woken := false, timer := none } _ _ _ hdue hd'
          subst e1
          exact ⟨rfl, by simp [e2 _ rfl]⟩
      · cases hd; exact ⟨rfl, rfl⟩

theorem idle_wakeUps {L : LawfulStore O} {c : Cfg τ} {fuel : Nat} {es : List (Env τ)} {s s' : State σ τ φ} (hw : WF L s)
    (hn : NothingDue O es s) (h : wakeUps O c fuel es s = some s') : s'.stores = s.stores ∧ s'.log = s.log := by
  induction es generalizing s with
  | nil => cases h; exact ⟨rfl, rfl⟩
  | cons e es ih =>
    simp only [wakeUps] at h
    split at h
    · cases h
    · rename_i s1 r hd
      obtain ⟨h1, h2⟩ := idle_tick hw (hn e (by simp)) hd
      obtain ⟨h3, h4⟩ := ih (hw.congr h1) (fun e' he' a i t n ht => hn e' (by simp [he']) a i t n (by
        rw [← ht]; simp [entry, h1])) h
      exact ⟨by rw [h3, h1], by rw [h4, h2]⟩

/-! ## A whole command -/

theorem command_shape (L : LawfulStore O) (D : Durable L Keeps) {c : Cfg τ} {e0 e1 : Env τ} {fuel : Nat} {es : List (Env τ)}
    {k : Request τ φ} {d : Dict String σ} (hd : Stores L d)
    (hf : ∀ id f, k = .update id f → ∀ t t', f t = some t' → t'.id = t.id) {s' : State σ τ φ} {ok : Bool}
    (h : command O c e0 e1 fuel es k d = some (s', ok)) :
    ∃ s1 s2 s3 : State σ τ φ, Reachable L c s1 ∧ Started O d s1 ∧ ask O e1 fuel k s1 = some (s2, ok) ∧ Reachable L c s2 ∧
      wakeUps O c fuel es s2 = some s3 ∧ Reachable L c s3 ∧ Kept s1 s3 ∧ Lasting Keeps s1 s3 ∧
      (ok = true ∨ k.guarded = true → shutdown O c s3 = (s', .ok true)) ∧
      (ok = false → k.guarded = false → s' = s3) := by
  obtain ⟨s1, h1, h2, h3⟩ := started L c e0 d hd (φ := φ)
  simp only [command, h1] at h
  cases ha : ask O e1 fuel k s1 with
  | none => rw [ha] at h; cases h
  | some q =>
    obtain ⟨s2, ok2⟩ := q
    rw [ha] at h
    simp only at h
    cases hw : wakeUps O c fuel es s2 with
    | none => rw [hw] at h; cases h
    | some s3 =>
      rw [hw] at h
      simp only at h
      have r2 := ask_reachable h2 hf ha
      obtain ⟨r3, k3, l3⟩ := wakeUps_keep D.step r2 hw
      have k13 := (ask_kept ha).trans k3
      have hsd : ∃ s4, shutdown O c s3 = (s4, .ok true) := by
        simp only [shutdown]
        rw [if_neg (by simp [k13.refs, h3.refs]), if_neg (by simp [k13.mode, h3.mode])]
        exact ⟨_, rfl⟩
      obtain ⟨s4, h4⟩ := hsd
      rw [h4] at h
      have hok : ok = ok2 := by split at h <;> (cases h; rfl)
      subst hok
      refine ⟨s1, s2, s3, h2, h3, ha, r2, hw, r3, k13, (lasting_ask D.step ha).trans l3, fun hg => ?_, fun h1 h2 => ?_⟩
      · rw [if_pos (by simpa using hg)] at h; cases h; exact h4
      · rw [if_neg (by simp [h1, h2])] at h; cases h; rfl

/-- **C86** (partial): if no task is due when the queued wake-ups run, and no store holds a shutdown task, then what a
command leaves in the stores that keep their data is what its one call left there, and it runs no task. -/
theorem C86_only_the_call_partial (L : LawfulStore O) (D : Durable L Keeps) (c : Cfg τ) (e0 e1 : Env τ) (fuel : Nat)
    (es : List (Env τ)) (k : Request τ φ) (d : Dict String σ) (hd : Stores L d)
    (hf : ∀ id f, k = .update id f → ∀ t t', f t = some t' → t'.id = t.id) (s' : State σ τ φ) (ok : Bool)
    (h : command O c e0 e1 fuel es k d = some (s', ok)) :
    ∃ s1 s2 : State σ τ φ, Started O d s1 ∧ ask O e1 fuel k s1 = some (s2, ok) ∧
      (NothingDue O es s2 → (∀ a i, ¬ ShutdownTask O c s2 a i) →
        (∀ a st, d.get? a = some st → Keeps st → ∀ i, entry O s' a i = entry O s2 a i) ∧
        ∃ l, s'.log = s2.log ++ l ∧ ∀ o ∈ l, NoRun o) := by
  obtain ⟨s1, s2, s3, r1, st1, ha, r2, hw, r3, k13, l13, hg, hng⟩ := command_shape L D hd hf h
  refine ⟨s1, s2, st1, ha, fun hn hns => ?_⟩
  obtain ⟨e1, e2⟩ := idle_wakeUps r2.wf hn hw
  have een : ∀ a i, entry O s3 a i = entry O s2 a i := fun a i => by simp [entry, e1]
  by_cases hc : ok = true ∨ k.guarded = true
  · obtain ⟨⟨l, h1, _, h3⟩, _, h5, h6⟩ := C40_shutdown_partial L c s3 s' r3 (hg hc) D.sub Keeps D.step D.keep
    have hl : l = [] := by
      refine List.eq_nil_iff_forall_not_mem.2 fun o ho => ?_
      obtain ⟨a, i, _, t, ht, hs⟩ := (h3 o).1 ho
      exact hns a i ⟨t, by rw [← een]; exact ht, hs⟩
    subst hl
    refine ⟨fun a st hga hk i => ?_, [.schedulerShutdown], by simp [h1, e2], by simp [NoRun]⟩
    obtain ⟨st3, g3, k3⟩ := l13 a st (st1.stores a st hga) hk
    rw [← een]
    cases hx : entry O s3 a i with
    | some t =>
      refine h6 a st3 g3 k3 i t hx ?_
      cases hb : c.isShutdown t.body.trigger with
      | false => rfl
      | true => exact (hns a i ⟨t, by rw [← een, hx], hb⟩).elim
    | none =>
      cases hy : entry O s' a i with
      | none => rfl
      | some t => have := h5 a i t hy; rw [hx] at this; cases this
  · simp only [not_or, Bool.not_eq_true] at hc
    have := hng hc.1 hc.2
    subst this
    exact ⟨fun a _ _ _ i => een a i, [], by simp [e2], by simp⟩

/-- **C86**, commands that only look: with nothing due and no shutdown tasks, the stores that keep their data hold what they
held, and no task has been run. -/
theorem C86_read_partial (L : LawfulStore O) (D : Durable L Keeps) (c : Cfg τ) (e0 e1 : Env τ) (fuel : Nat)
    (es : List (Env τ)) (d : Dict String σ) (hd : Stores L d)
    (hn : ∀ e ∈ es, ∀ a i t n, saved O d a i = some t → t.nrt = some n → e.now < n)
    (hns : ∀ a i t, saved O d a i = some t → c.isShutdown t.body.trigger = false) (s' : State σ τ φ) (ok : Bool)
    (h : command O c e0 e1 fuel es .read d = some (s', ok)) :
    ok = true ∧ (∀ a st, d.get? a = some st → Keeps st → ∀ i, entry O s' a i = saved O d a i) ∧
    ∀ o ∈ s'.log, NoRun o := by
  obtain ⟨s1, s2, h1, h2, h3⟩ := C86_only_the_call_partial L D c e0 e1 fuel es .read d hd (fun _ _ h => by cases h) s' ok h
  simp only [ask, Option.some.injEq, Prod.mk.injEq] at h2
  obtain ⟨rfl, rfl⟩ := h2
  obtain ⟨h4, l, h5, h6⟩ := h3 (fun e he a i t n ht => hn e he a i t n (by rw [← h1.entry]; exact ht))
    (by rintro a i ⟨t, ht, hs⟩; rw [h1.entry] at ht; rw [hns a i t ht] at hs; cases hs)
  refine ⟨rfl, fun a st hg hk i => by rw [h4 a st hg hk, h1.entry], fun o ho => ?_⟩
  rw [h5] at ho
  rcases List.mem_append.1 ho with ho | ho
  · exact h1.log o ho
  · exact h6 o ho

/-! ## C87: what a command does to its task lasts -/

theorem submitted_eq_nil {a i : String} {l : List Obs} (h : ∀ o ∈ l, NoRun o) : submitted a i l = [] := by
  induction l with
  | nil => rfl
  | cons o l ih =>
    have h1 := h o (by simp)
    have h2 := ih fun o ho => h o (by simp [ho])
    cases o <;> first | exact h2 | cases h1

/-- the task is not due at any of the passes -/
def NotYet (es : List (Env τ)) (x : Option (T τ φ)) : Prop :=
  ∀ e ∈ es, ∀ t, x = some t → ¬ Due e.now t

theorem wakeUps_apart (L : LawfulStore O) {c : Cfg τ} {fuel : Nat} {es : List (Env τ)} {s s' : State σ τ φ}
    (hs : Reachable L c s) {a i : String} (hx : NotYet es (entry O s a i)) (h : wakeUps O c fuel es s = some s') :
    entry O s' a i = entry O s a i ∧ ∃ l, s'.log = s.log ++ l ∧ submitted a i l = [] := by
  induction es generalizing s with
  | nil => cases h; exact ⟨rfl, [], by simp, rfl⟩
  | cons e es ih =>
    simp only [wakeUps] at h
    split at h
    · cases h
    · rename_i s1 r hd
      have h1 := apart_tick L hs.wf hd a i (fun t ht => hx e (by simp) t ht)
      have r1 : Reachable L c s1 := .call hs (e := e) (fuel := fuel) (k := .tick) trivial (by simp [exec, hd])
      obtain ⟨k1, l, k2, k3⟩ := ih r1 (by rw [h1]; exact fun e' he' => hx e' (by simp [he'])) h
      have hlog : ∃ l, s1.log = s.log ++ l ∧ submitted a i l = [] := by
        have r0 : Reachable L c s := hs
        have key : ∀ s1 y, processTasks O c e fuel { s with woken := false, timer := none } = some (s1, y) →
            ∃ l, s1.log = s.log ++ l ∧ submitted a i l = [] := by
          intro s1 y hy
          obtain ⟨l, q1, q2⟩ := processTasks_dueOnly L (s := { s with woken := false, timer := none }) (hs.wf.congr rfl) hy
          refine ⟨l, q1, ?_⟩
          cases hz : submitted a i l with
          | nil => rfl
          | cons p ps =>
            obtain ⟨t, n, z1, z2, z3⟩ := q2 a i (by rw [hz]; simp)
            exact (hx e (by simp) t z1 ⟨n, z2, z3⟩).elim
        simp only [tick] at hd
        split at hd
        · cases hd
        · rename_i hy; cases hd; exact key _ _ hy
        · rename_i s9 w9 hy; cases hd; have := key _ _ hy; exact this
      obtain ⟨l1, j1, j2⟩ := hlog
      exact ⟨by rw [k1, h1], l1 ++ l, by rw [k2, j1, List.append_assoc], by rw [submitted_append, j2, k3]; rfl⟩

/-- What the call makes of a task lasts if the task is not due at the passes; and the command does not submit it. -/
theorem lasts (L : LawfulStore O) (D : Durable L Keeps) {c : Cfg τ} {fuel : Nat}
    {es : List (Env τ)} {d : Dict String σ} {s1 s2 s3 s' : State σ τ φ} {a i : String} (st1 : Started O d s1)
    (r2 : Reachable L c s2) (hlog : ∃ l, s2.log = s1.log ++ l ∧ ∀ o ∈ l, NoRun o) (hw : wakeUps O c fuel es s2 = some s3)
    (r3 : Reachable L c s3) (l13 : Lasting Keeps s1 s3) (hsd : shutdown O c s3 = (s', .ok true))
    (hx : NotYet es (entry O s2 a i))
    (hk : ∀ t, entry O s2 a i = some t → c.isShutdown t.body.trigger = false ∧ ∃ st, d.get? a = some st ∧ Keeps st) :
    entry O s' a i = entry O s2 a i ∧ submitted a i s'.log = [] := by
  obtain ⟨e1, l, e2, e3⟩ := wakeUps_apart L r2 hx hw
  obtain ⟨⟨l', h1, _, h3⟩, _, h5, h6⟩ := C40_shutdown_partial L c s3 s' r3 hsd D.sub Keeps D.step D.keep
  obtain ⟨l0, g1, g2⟩ := hlog
  refine ⟨?_, ?_⟩
  · rw [← e1]
    cases hy : entry O s3 a i with
    | some t =>
      obtain ⟨q1, st, q2, q3⟩ := hk t (by rw [← e1, hy])
      obtain ⟨st3, z1, z2⟩ := l13 a st (st1.stores a st q2) q3
      exact h6 a st3 z1 z2 i t hy q1
    | none =>
      cases hz : entry O s' a i with
      | none => rfl
      | some t => have := h5 a i t hz; rw [hy] at this; cases this
  · have h7 : submitted a i (l' ++ [.schedulerShutdown]) = [] := by
      have : ∀ l' : List Obs, (∀ o ∈ l', ∃ b j, o = .shutdownRun j b) → submitted a i (l' ++ [.schedulerShutdown]) = [] := by
        intro l' h
        induction l' with
        | nil => rfl
        | cons o l' ih =>
          obtain ⟨b, j, rfl⟩ := h o (by simp)
          exact ih fun o ho => h o (by simp [ho])
      refine this l' fun o ho => ?_
      obtain ⟨b, j, q, _⟩ := (h3 o).1 ho
      exact ⟨b, j, q⟩
    rw [h1, e2, g1]
    simp only [List.append_assoc, submitted_append] at h7 ⊢
    rw [submitted_eq_nil st1.log, submitted_eq_nil g2, e3, h7]; rfl

/-- the task `t` with that id is in the store behind `a`, and in none that was given before it -/
structure First (O : StoreOps σ (Body τ φ)) (d : Dict String σ) (id : String) (t : T τ φ) (a : String) : Prop where
  here : saved O d a id = some t
  first : ∃ pre post, d.keys = pre ++ a :: post ∧ ∀ b ∈ pre, saved O d b id = none

theorem First.located {d : Dict String σ} {id a : String} {t : T τ φ} (h : First O d id t a) {s : State σ τ φ}
    (hs : Started O d s) : Located O s id none t (some a) := by
  obtain ⟨pre, post, h1, h2⟩ := h.first
  obtain ⟨l, h3⟩ := hs.keys
  refine .stored (pre := pre) (post := post ++ l) (by rw [hs.mode]; decide) (fun _ h => by cases h) ?_ ?_ ?_
  · rw [hs.entry]; exact h.here
  · rw [h3, h1]; simp
  · intro b hb _; rw [hs.entry]; exact h2 b hb

theorem Replaced.entry_eq {s s' : State σ τ φ} {id a : String} {store : Option String} {x : Option (T τ φ)}
    (h : Replaced O s s' id store x (some a)) : entry O s' a id = x := by
  cases h with
  | stored hx _ _ => exact hx

theorem Replaced.others {s s' : State σ τ φ} {id a : String} {store : Option String} {x : Option (T τ φ)}
    (h : Replaced O s s' id store x (some a)) : ∀ b j, (b, j) ≠ (a, id) → entry O s' b j = entry O s b j := by
  cases h with
  | stored _ ho _ => exact ho

/-- **C87** (pause): after `asyncz pause` the task is paused in its store, whatever else is due, and the command has not
run it. -/
theorem C87_pause (L : LawfulStore O) (D : Durable L Keeps) (c : Cfg τ) (e0 e1 : Env τ) (fuel : Nat)
    (es : List (Env τ)) (d : Dict String σ) (hd : Stores L d) (id a : String) (t : T τ φ) (st : σ) (ht : First O d id t a)
    (hst : d.get? a = some st) (hk : Keeps st) (hns : c.isShutdown t.body.trigger = false) (s' : State σ τ φ) (ok : Bool)
    (h : command O c e0 e1 fuel es (.pause id) d = some (s', ok)) :
    ok = true ∧ entry O s' a id = some { t with nrt := none } ∧ submitted a id s'.log = [] := by
  obtain ⟨s1, s2, s3, r1, st1, ha, r2, hw, r3, k13, l13, hg, hng⟩ := command_shape L D hd (fun _ _ h => by cases h) h
  have hl := ht.located st1
  obtain ⟨p1, p2, p3⟩ := ((C38_update L c s1 r1 id none (fun t => some { t with nrt := none })
    (by intro t t' h; simp only [Option.some.injEq] at h; subst h; rfl)).2 t (some a) hl).2 _ rfl
  have hr : (pauseTask O id none s1).2 = .ok { t with nrt := none } := p1
  simp only [ask, Option.some.injEq, Prod.mk.injEq, hr, returned] at ha
  obtain ⟨ha, hok⟩ := ha
  have hen : entry O s2 a id = some { t with nrt := none } := by rw [← ha]; exact Replaced.entry_eq p2
  have := lasts L D st1 r2 ⟨_, by rw [← ha]; exact p3, by simp [NoRun]⟩ hw r3 l13 (hg (.inl hok.symm))
    (a := a) (i := id)
    (by rw [hen]; intro e _ u hu hdue; cases hu; obtain ⟨n, hn, _⟩ := hdue; cases hn)
    (by rw [hen]; intro u hu; cases hu; exact ⟨hns, st, hst, hk⟩)
  exact ⟨hok.symm, by rw [this.1, hen], this.2⟩

/-- **C87** (remove): after `asyncz remove` the task is gone, whatever else is due, and the command has not run it. -/
theorem C87_remove (L : LawfulStore O) (D : Durable L Keeps) (c : Cfg τ) (e0 e1 : Env τ) (fuel : Nat)
    (es : List (Env τ)) (d : Dict String σ) (hd : Stores L d) (id a : String) (t : T τ φ) (ht : First O d id t a)
    (s' : State σ τ φ) (ok : Bool) (h : command O c e0 e1 fuel es (.remove id) d = some (s', ok)) :
    ok = true ∧ entry O s' a id = none ∧ submitted a id s'.log = [] := by
  obtain ⟨s1, s2, s3, r1, st1, ha, r2, hw, r3, k13, l13, hg, hng⟩ := command_shape L D hd (fun _ _ h => by cases h) h
  have hl := ht.located st1
  have hlk := ((C38_lookup L c s1 r1 id none).2 t (some a)).2 hl
  have hl' : Located O s1 id (some a) t (some a) := by
    cases hl with
    | stored hm ha ht hk hf =>
      refine .stored hm (fun x hx => by cases hx; rfl) ht hk (fun b hb hab => ?_)
      have := hab a rfl
      subst this
      exfalso
      have hnd : s1.stores.keys.Nodup := r1.wf.keys
      rw [hk] at hnd
      exact (List.nodup_append.1 hnd).2.2 _ hb _ (by simp) rfl
  obtain ⟨p1, p2, p3⟩ := (C38_delete L c s1 r1 id (some a)).2 t (some a) hl'
  simp only [ask, hlk, Option.some.injEq, Prod.mk.injEq, p1, returned] at ha
  obtain ⟨ha, hok⟩ := ha
  have hen : entry O s2 a id = none := by rw [← ha]; exact Replaced.entry_eq p2
  have := lasts L D st1 r2 ⟨_, by rw [← ha]; exact p3, by simp [NoRun]⟩ hw r3 l13 (hg (.inl hok.symm))
    (a := a) (i := id) (by rw [hen]; intro e _ u hu; cases hu) (by rw [hen]; intro u hu; cases hu)
  exact ⟨hok.symm, by rw [this.1, hen], this.2⟩

/-- **C87** (resume): after `asyncz resume` the task is in its store with the trigger's next time – if that has not come
before the command ends – or is gone if its trigger has no next time. -/
theorem C87_resume (L : LawfulStore O) (D : Durable L Keeps) (c : Cfg τ) (e0 e1 : Env τ) (fuel : Nat)
    (es : List (Env τ)) (d : Dict String σ) (hd : Stores L d) (id a : String) (t : T τ φ) (st : σ) (ht : First O d id t a)
    (hst : d.get? a = some st) (hk : Keeps st) (hns : c.isShutdown t.body.trigger = false) (n : Option Int)
    (hn : e1.next 2 t.body.trigger none e1.now = .ok n) (hlate : ∀ m, n = some m → ∀ e ∈ es, e.now < m)
    (s' : State σ τ φ) (ok : Bool) (h : command O c e0 e1 fuel es (.resume id) d = some (s', ok)) :
    ok = true ∧ entry O s' a id = n.map (fun m => { t with nrt := some m }) ∧ submitted a id s'.log = [] := by
  obtain ⟨s1, s2, s3, r1, st1, ha, r2, hw, r3, k13, l13, hg, hng⟩ := command_shape L D hd (fun _ _ h => by cases h) h
  have hl := ht.located st1
  obtain ⟨p1, p2, _⟩ := C36_resume L c e1 s1 r1 id none t a hl
  have hlog : ∃ l, (resumeTask O e1 id none s1).1.log = s1.log ++ l ∧ ∀ o ∈ l, NoRun o := by
    have hu : ∀ store f, ∃ l, (updateTask O id store f s1).1.log = s1.log ++ l ∧ ∀ o ∈ l, NoRun o := by
      intro store f
      have wk : ∀ s : State σ τ φ, s.wakeIfRunning.log = s.log := by
        intro s; simp only [State.wakeIfRunning]; split <;> rfl
      simp only [updateTask]
      cases lookupTask O s1 id store with
      | none => exact ⟨[], by simp, by simp⟩
      | some p =>
        obtain ⟨t, loc⟩ := p
        simp only []
        cases f t with
        | none => exact ⟨[], by simp, by simp⟩
        | some t' =>
          cases loc with
          | none => exact ⟨_, by rw [wk]; rfl, by simp [NoRun]⟩
          | some a =>
            simp only []
            cases s1.stores.get? a with
            | none => exact ⟨[], by simp, by simp⟩
            | some st =>
              simp only []
              split
              · exact ⟨_, by rw [wk]; rfl, by simp [NoRun]⟩
              · exact ⟨[], by simp [State.setStore], by simp⟩
    have hm : s1.mode ≠ .stopped := by rw [st1.mode]; decide
    have hdel : ∀ i store, ∃ l, (deleteTask O i store s1).1.log = s1.log ++ l ∧ ∀ o ∈ l, NoRun o := by
      intro i store
      rcases deleteTask_spec L r1.wf hm i store with ⟨_, _, _, h4, _⟩ | ⟨t, a', _, _, _, h4, _⟩
      · exact ⟨[], by rw [h4]; simp, by simp⟩
      · exact ⟨_, h4, by simp [NoRun]⟩
    simp only [resumeTask]
    split
    · exact ⟨[], by simp, by simp⟩
    · split
      · exact ⟨[], by simp, by simp⟩
      · rename_i n _
        have := hu (‹Option String›) (fun t => some { t with nrt := some n })
        split <;> rename_i hd <;> rw [hd] at this <;> exact this
      · rename_i t loc _ _ _
        have := hdel t.id loc
        split <;> rename_i hd <;> rw [hd] at this <;> exact this
  have key : (∃ x, (resumeTask O e1 id none s1).2 = .ok x) ∧
      entry O (resumeTask O e1 id none s1).1 a id = n.map (fun m => { t with nrt := some m }) := by
    cases n with
    | some m => obtain ⟨q1, q2, _⟩ := p1 m hn; exact ⟨⟨_, q1⟩, Replaced.entry_eq q2⟩
    | none => obtain ⟨q1, q2⟩ := p2 hn; exact ⟨⟨_, q1⟩, Replaced.entry_eq q2⟩
  obtain ⟨⟨x, hx⟩, hen⟩ := key
  simp only [ask, Option.some.injEq, Prod.mk.injEq, hx, returned] at ha
  obtain ⟨ha, hok⟩ := ha
  rw [ha] at hen hlog
  have := lasts L D st1 r2 hlog hw r3 l13 (hg (.inl hok.symm)) (a := a) (i := id)
    (by
      rw [hen]; intro e he u hu hdue
      obtain ⟨m, hm, rfl⟩ := Option.map_eq_some_iff.1 hu
      obtain ⟨r, hr, hle⟩ := hdue
      simp only [Option.some.injEq] at hr
      have := hlate m hm e he
      omega)
    (by
      rw [hen]; intro u hu
      obtain ⟨m, hm, rfl⟩ := Option.map_eq_some_iff.1 hu
      exact ⟨hns, st, hst, hk⟩)
  exact ⟨hok.symm, by rw [this.1, hen], this.2⟩

/-- **C87** (update): what `asyncz update` makes of the task is in its store, if it is not due before the command ends. -/
theorem C87_update (L : LawfulStore O) (D : Durable L Keeps) (c : Cfg τ) (e0 e1 : Env τ) (fuel : Nat)
    (es : List (Env τ)) (d : Dict String σ) (hd : Stores L d) (id a : String) (t t' : T τ φ) (st : σ) (ht : First O d id t a)
    (hst : d.get? a = some st) (hk : Keeps st) (f : T τ φ → Option (T τ φ)) (hf : ∀ t t', f t = some t' → t'.id = t.id)
    (hft : f t = some t') (hns : c.isShutdown t'.body.trigger = false) (hlate : ∀ m, t'.nrt = some m → ∀ e ∈ es, e.now < m)
    (s' : State σ τ φ) (ok : Bool) (h : command O c e0 e1 fuel es (.update id f) d = some (s', ok)) :
    ok = true ∧ entry O s' a id = some t' ∧ submitted a id s'.log = [] := by
  obtain ⟨s1, s2, s3, r1, st1, ha, r2, hw, r3, k13, l13, hg, hng⟩ := command_shape L D hd
    (fun _ _ h => by cases h; exact hf) h
  obtain ⟨p1, p2, p3⟩ := ((C38_update L c s1 r1 id none f hf).2 t (some a) (ht.located st1)).2 _ hft
  simp only [ask, Option.some.injEq, Prod.mk.injEq, p1, returned] at ha
  obtain ⟨ha, hok⟩ := ha
  have hen : entry O s2 a id = some t' := by rw [← ha]; exact Replaced.entry_eq p2
  have := lasts L D st1 r2 ⟨_, by rw [← ha]; exact p3, by simp [NoRun]⟩ hw r3 l13 (hg (.inl hok.symm))
    (a := a) (i := id)
    (by
      rw [hen]; intro e he u hu hdue; cases hu
      obtain ⟨r, hr, hle⟩ := hdue
      have := hlate r hr e he
      omega)
    (by rw [hen]; intro u hu; cases hu; exact ⟨hns, st, hst, hk⟩)
  exact ⟨hok.symm, by rw [this.1, hen], this.2⟩

/-- **C87** (add): `asyncz add` adds the task, with the trigger's next time, to the store, if the id is free there;
otherwise it fails and the task that is there stays. -/
theorem C87_add (L : LawfulStore O) (D : Durable L Keeps) (c : Cfg τ) (e0 e1 : Env τ) (fuel : Nat)
    (es : List (Env τ)) (d : Dict String σ) (hd : Stores L d) (t : T τ φ) (st : σ)
    (hst : d.get? t.body.store = some st) (hk : Keeps st) (hns : c.isShutdown t.body.trigger = false) (n : Option Int)
    (hnrt : t.nrt = none) (hn : e1.next 2 t.body.trigger none e1.now = .ok n)
    (hlate : ∀ m, n = some m → ∀ e ∈ es, e.now < m)
    (s' : State σ τ φ) (ok : Bool) (h : command O c e0 e1 fuel es (.add t) d = some (s', ok)) :
    (saved O d t.body.store t.id = none → ok = true ∧
      entry O s' t.body.store t.id = some { t with nrt := n, body := { t.body with pending := false } } ∧
      submitted t.body.store t.id s'.log = []) ∧
    (∀ u, saved O d t.body.store t.id = some u → ok = false ∧
      (NotYet es (some u) → entry O s' t.body.store t.id = some u ∧ submitted t.body.store t.id s'.log = [])) := by
  obtain ⟨s1, s2, s3, r1, st1, ha, r2, hw, r3, k13, l13, hg, hng⟩ := command_shape L D hd (fun _ _ h => by cases h) h
  have hm : s1.mode ≠ .stopped := by rw [st1.mode]; decide
  have hadd : addTask O e1 t none false s1 = realAddTask O e1 t false true none s1 := by
    simp only [addTask, if_neg hm, Option.getD_none]
    rfl
  have hft : firstTime e1 t true none = .ok n := by
    simp only [firstTime, hnrt, hn]
    cases n <;> rfl
  have hgs : s1.stores.get? t.body.store = some st := st1.stores _ _ hst
  have hen : ∀ i, entry O s1 t.body.store i = saved O d t.body.store i := fun i => st1.entry _ i
  have spec := realAddTask_spec L r1.wf e1 t false true none
  simp only [ask, hadd, Option.some.injEq, Prod.mk.injEq] at ha
  obtain ⟨ha, hok⟩ := ha
  rcases spec with ⟨hs, ⟨x, hx, _⟩ | ⟨hx, _⟩ | ⟨_, hc, he⟩⟩ | ⟨m, h1, _, h3, h4, _, h6, _, _, _, h10⟩
  · rw [hft] at hx; cases hx
  · rw [hgs] at hx; cases hx
  · rw [he] at hok
    simp only [returned] at hok
    refine ⟨fun hno => ?_, fun u hu => ⟨hok.symm, fun hy => ?_⟩⟩
    · rw [hen, hno] at hc; cases hc
    · have := hng hok.symm rfl
      subst this
      rw [ha] at hs
      subst hs
      obtain ⟨q1, l, q2, q3⟩ := wakeUps_apart L r2 (a := t.body.store) (i := t.id) (by rw [hen, hu]; exact hy) hw
      exact ⟨by rw [q1, hen, hu], by rw [q2, submitted_append, q3, submitted_eq_nil st1.log]; rfl⟩
  · rw [hft] at h1; cases h1
    rw [h4] at hok
    simp only [returned] at hok
    have hno : saved O d t.body.store t.id = none := by
      rcases h3 with h3 | h3
      · rw [← hen]; exact h3
      · cases h3
    have hen2 : entry O s2 t.body.store t.id = some { t with nrt := n, body := { t.body with pending := false } } := by
      rw [← ha, h10]; simp [put]
    refine ⟨fun _ => ?_, fun u hu => by rw [hno] at hu; cases hu⟩
    have := lasts L D st1 r2 ⟨_, by rw [← ha]; exact h6, by simp [NoRun]⟩ hw r3 l13 (hg (.inl hok.symm))
      (a := t.body.store) (i := t.id)
      (by
        rw [hen2]; intro e he u hu hdue; cases hu
        obtain ⟨r, hr, hle⟩ := hdue
        have := hlate r hr e he
        omega)
      (by rw [hen2]; intro u hu; cases hu; exact ⟨hns, st, hst, hk⟩)
    exact ⟨hok.symm, by rw [this.1, hen2], this.2⟩

/-- **C87** (unknown id): the command fails, and leaves every task that is not due alone. -/
theorem C87_unknown (L : LawfulStore O) (D : Durable L Keeps) (c : Cfg τ) (e0 e1 : Env τ) (fuel : Nat)
    (es : List (Env τ)) (d : Dict String σ) (hd : Stores L d) (id : String) (hno : ∀ a, saved O d a id = none)
    (k : Request τ φ) (hk : k = .pause id ∨ k = .resume id ∨ k = .remove id)
    (s' : State σ τ φ) (ok : Bool) (h : command O c e0 e1 fuel es k d = some (s', ok)) :
    ok = false ∧ ∀ a i, NotYet es (saved O d a i) → entry O s' a i = saved O d a i ∧ submitted a i s'.log = [] := by
  obtain ⟨s1, s2, s3, r1, st1, ha, r2, hw, r3, k13, l13, hg, hng⟩ := command_shape L D hd
    (by rcases hk with rfl | rfl | rfl <;> (intro _ _ h; cases h)) h
  have hm : s1.mode ≠ .stopped := by rw [st1.mode]; decide
  have habs : Absent O s1 id none := ⟨fun h => absurd h hm, fun _ a _ => by rw [st1.entry]; exact hno a⟩
  have hlk := (C38_lookup L c s1 r1 id none).1.2 habs
  have key : s2 = s1 ∧ ok = false := by
    rcases hk with rfl | rfl | rfl
    · simp only [ask, pauseTask, updateTask, hlk, returned, Option.some.injEq, Prod.mk.injEq] at ha
      exact ⟨ha.1.symm, ha.2.symm⟩
    · simp only [ask, resumeTask, hlk, returned, Option.some.injEq, Prod.mk.injEq] at ha
      exact ⟨ha.1.symm, ha.2.symm⟩
    · simp only [ask, hlk, Option.some.injEq, Prod.mk.injEq] at ha
      exact ⟨ha.1.symm, ha.2.symm⟩
  obtain ⟨rfl, rfl⟩ := key
  have := hng rfl (by rcases hk with rfl | rfl | rfl <;> rfl)
  subst this
  refine ⟨rfl, fun a i hx => ?_⟩
  obtain ⟨q1, l, q2, q3⟩ := wakeUps_apart L r2 (a := a) (i := i) (by rw [st1.entry]; exact hx) hw
  exact ⟨by rw [q1, st1.entry], by rw [q2, submitted_append, q3, submitted_eq_nil st1.log]; rfl⟩

/-! ## Examples -/

theorem mixedDurable : Durable mixedLawful IsSql := ⟨mixed_meets.1, mixed_meets.2.1, mixed_meets.2.2⟩

/-- a SQL store with these tasks -/
def exTable (ts : List (T Int Unit)) : Mixed := ts.foldl (fun st t => (mixedOps.step st (.add t)).1) (.inr [])

theorem exTable_inv (ts : List (T Int Unit)) : mixedLawful.Inv (exTable ts) ∧ IsSql (exTable ts) := by
  have : ∀ st, mixedLawful.Inv st ∧ IsSql st → mixedLawful.Inv (ts.foldl (fun st t => (mixedOps.step st (.add t)).1) st) ∧
      IsSql (ts.foldl (fun st t => (mixedOps.step st (.add t)).1) st) := by
    induction ts with
    | nil => exact fun st h => h
    | cons t ts ih =>
      exact fun st h => ih _ ⟨mixedLawful.step_inv h.1 _, mixed_meets.2.1 _ _ h.2⟩
  exact this _ ⟨(Persist.Rows.sqlLawful (c := exCodec) (fun _ => rfl)).init_inv, trivial⟩

theorem exStores (ts : List (T Int Unit)) : Stores mixedLawful [("sql", exTable ts)] := by
  refine ⟨by simp [Dict.WF], fun a st h => ?_⟩
  simp only [Dict.get?] at h
  split at h
  · cases h; exact (exTable_inv ts).1
  · cases h

/-- triggers that give the time `g` after now, or after the last run -/
def exRunEnv (now : Int) : Env Int :=
  { exStopEnv now with next := fun _ g p n => if g = -1 then .ok none else .ok (some (p.getD n + g)) }

/-- the command's wake-ups all run at time `now` -/
def exCommand (now : Int) (k : Request Int Unit) (ts : List (T Int Unit)) : Option (State Mixed Int Unit × Bool) :=
  command mixedOps exStopCfg (exRunEnv now) (exRunEnv now) 20 [exRunEnv now] k [("sql", exTable ts)]

/-- what is looked at in the examples: is the command done well, the run time of tasks "a", "b", what "a" and "b" were
submitted, and which tasks the shutdown ran -/
def exSees (r : State Mixed Int Unit × Bool) :
    Bool × List (Option (Option Int)) × List (List (List Int)) × List Obs :=
  (r.2, ["a", "b"].map (fun i => (entry mixedOps r.1 "sql" i).map Task.nrt), ["a", "b"].map (fun i => submitted "sql" i r.1.log),
    r.1.log.filter fun | .shutdownRun .. => true | _ => false)

def exLater : List (T Int Unit) := [⟨"a", some 100, exBody 10 "default" "sql" false 3⟩, ⟨"b", none, exBody 10 "default" "sql" false 3⟩]
def exDue : List (T Int Unit) := [⟨"a", some 100, exBody 10 "default" "sql" false 3⟩, ⟨"b", some 5, exBody 10 "default" "sql" false 3⟩]
def exElsewhere : List (T Int Unit) := [⟨"a", some 100, exBody 10 "default" "sql" false 3⟩, ⟨"b", some 5, exBody 10 "reports" "sql" false 3⟩]
def exAtExit : List (T Int Unit) := [⟨"a", some 100, exBody 10 "default" "sql" false 3⟩, ⟨"b", none, exBody (-1) "default" "sql" false 3⟩]

theorem exSaved (ts : List (T Int Unit)) (a i : String) (t : T Int Unit)
    (h : saved mixedOps [("sql", exTable ts)] a i = some t) : a = "sql" ∧ mixedOps.lookup (exTable ts) i = some t := by
  simp only [saved, Dict.get?] at h
  split at h
  · rename_i hc; exact ⟨hc.symm, h⟩
  · cases h

set_option synthInstance.maxSize 2048 in
set_option synthInstance.maxHeartbeats 200000 in
/-- `C86_read_partial` applies: `asyncz list` at time 7, one task for time 100, one paused. -/
example : ∃ s', command mixedOps exStopCfg (exRunEnv 7) (exRunEnv 7) 20 [exRunEnv 7] .read [("sql", exTable exLater)] = some (s', true) ∧
    (entry mixedOps s' "sql" "a").map Task.nrt = some (some 100) ∧ ∀ o ∈ s'.log, NoRun o := by
  have h : (exCommand 7 .read exLater).map exSees = some (true, [some (some 100), some none], [[], []], []) := by decide +kernel
  obtain ⟨⟨s', ok⟩, h1, h2⟩ := Option.map_eq_some_iff.1 h
  have hl : ∀ i t, mixedOps.lookup (exTable exLater) i = some t → t ∈ exLater := by
    intro i t hm
    have hi := (exTable_inv exLater).1
    rw [mixedLawful.lookup hi] at hm
    have hall := ((mixedLawful.all hi).2 t).2 ⟨by rw [mixedLawful.key hi hm]; exact hm, trivial⟩
    have hx : ∀ t ∈ mixedOps.all (exTable exLater), t ∈ exLater := by decide +kernel
    exact hx t hall
  obtain ⟨q1, _, q3⟩ := C86_read_partial mixedLawful mixedDurable exStopCfg (exRunEnv 7) (exRunEnv 7) 20 [exRunEnv 7] _
    (exStores exLater)
    (by
      intro e he a i t n ht hn
      simp only [List.mem_singleton] at he; subst he
      have := hl i t (exSaved _ _ _ _ ht).2
      simp only [exLater, List.mem_cons, List.not_mem_nil, or_false] at this
      rcases this with rfl | rfl
      · cases hn; decide
      · cases hn)
    (by
      intro a i t ht
      have := hl i t (exSaved _ _ _ _ ht).2
      simp only [exLater, List.mem_cons, List.not_mem_nil, or_false] at this
      rcases this with rfl | rfl <;> rfl)
    s' ok h1
  subst q1
  refine ⟨s', h1, ?_, q3⟩
  simp only [exSees, Prod.mk.injEq, List.map_cons, List.cons.injEq] at h2
  exact h2.2.1.1

set_option synthInstance.maxSize 2048 in
set_option synthInstance.maxHeartbeats 200000 in
/-- **C86, counterexample**: `asyncz list` at time 7 takes the task that was due at time 5: it submits it to an executor of its
own and moves the task on. -/
theorem C86_due_witness : ∃ s', command mixedOps exStopCfg (exRunEnv 7) (exRunEnv 7) 20 [exRunEnv 7] .read
      [("sql", exTable exDue)] = some (s', true) ∧
    (saved mixedOps [("sql", exTable exDue)] "sql" "b").map Task.nrt = some (some 5) ∧
    (entry mixedOps s' "sql" "b").map Task.nrt = some (some 15) ∧ submitted "sql" "b" s'.log = [[5]] := by
  have h : (exCommand 7 .read exDue).map exSees = some (true, [some (some 100), some (some 15)], [[], [[5]]], []) := by decide +kernel
  obtain ⟨⟨s', ok⟩, h1, h2⟩ := Option.map_eq_some_iff.1 h
  simp only [exSees, Prod.mk.injEq, List.map_cons, List.map_nil, List.cons.injEq] at h2
  obtain ⟨rfl, ⟨_, h3, _⟩, ⟨_, h4, _⟩, _⟩ := h2
  exact ⟨s', h1, by decide +kernel, h3, h4⟩

set_option synthInstance.maxSize 2048 in
set_option synthInstance.maxHeartbeats 200000 in
/-- **C86, counterexample**: `asyncz list` deletes a due task whose executor is not called "default": the command's own scheduler
has no other executor. -/
theorem C86_executor_witness : ∃ s', command mixedOps exStopCfg (exRunEnv 7) (exRunEnv 7) 20 [exRunEnv 7] .read
      [("sql", exTable exElsewhere)] = some (s', true) ∧
    (saved mixedOps [("sql", exTable exElsewhere)] "sql" "b").map Task.nrt = some (some 5) ∧
    entry mixedOps s' "sql" "b" = none ∧ submitted "sql" "b" s'.log = [] := by
  have h : (exCommand 7 .read exElsewhere).map exSees = some (true, [some (some 100), none], [[], []], []) := by decide +kernel
  obtain ⟨⟨s', ok⟩, h1, h2⟩ := Option.map_eq_some_iff.1 h
  simp only [exSees, Prod.mk.injEq, List.map_cons, List.map_nil, List.cons.injEq] at h2
  obtain ⟨rfl, ⟨_, h3, _⟩, ⟨_, h4, _⟩, _⟩ := h2
  exact ⟨s', h1, by decide +kernel, by simpa using h3, h4⟩

set_option synthInstance.maxSize 2048 in
set_option synthInstance.maxHeartbeats 200000 in
/-- **C86, counterexample**: `asyncz list` runs the shutdown tasks it finds and deletes them. -/
theorem C86_shutdown_witness : ∃ s', command mixedOps exStopCfg (exRunEnv 7) (exRunEnv 7) 20 [exRunEnv 7] .read
      [("sql", exTable exAtExit)] = some (s', true) ∧
    (saved mixedOps [("sql", exTable exAtExit)] "sql" "b").isSome ∧
    entry mixedOps s' "sql" "b" = none ∧ .shutdownRun "b" "sql" ∈ s'.log := by
  have h : (exCommand 7 .read exAtExit).map exSees = some (true, [some (some 100), none], [[], []], [.shutdownRun "b" "sql"]) := by
    decide +kernel
  obtain ⟨⟨s', ok⟩, h1, h2⟩ := Option.map_eq_some_iff.1 h
  simp only [exSees, Prod.mk.injEq, List.map_cons, List.map_nil, List.cons.injEq] at h2
  obtain ⟨rfl, ⟨_, h3, _⟩, ⟨_, h4, _⟩, h5⟩ := h2
  refine ⟨s', h1, by decide +kernel, by simpa using h3, ?_⟩
  have : Obs.shutdownRun "b" "sql" ∈ s'.log.filter (fun | .shutdownRun .. => true | _ => false) := by rw [h5]; simp
  exact (List.mem_filter.1 this).1

theorem exFirst {ts : List (T Int Unit)} {i : String} {t : T Int Unit} (h : mixedOps.lookup (exTable ts) i = some t) :
    First mixedOps [("sql", exTable ts)] i t "sql" :=
  ⟨by simp [saved, Dict.get?, h], [], [], rfl, by simp⟩

set_option synthInstance.maxSize 2048 in
set_option synthInstance.maxHeartbeats 200000 in
/-- The hypotheses of the theorems of C87 are met, also while another task is due: `asyncz pause a`, `asyncz remove a`,
`asyncz resume a`, `asyncz update a`, `asyncz add c` and `asyncz add a` at time 7. -/
example : mixedOps.lookup (exTable exDue) "a" = some exDue[0] ∧ IsSql (exTable exDue) ∧
    (exCommand 7 (.pause "a") exDue).map exSees = some (true, [some none, some (some 15)], [[], [[5]]], []) ∧
    (exCommand 7 (.remove "a") exDue).map exSees = some (true, [none, some (some 15)], [[], [[5]]], []) ∧
    (exCommand 7 (.resume "a") exDue).map exSees = some (true, [some (some 17), some (some 15)], [[], [[5]]], []) ∧
    (exRunEnv 7).next 2 10 none 7 = .ok (some 17) ∧
    (exCommand 7 (.update "a" fun t => some { t with nrt := some 50 }) exDue).map exSees =
      some (true, [some (some 50), some (some 15)], [[], [[5]]], []) ∧
    (exCommand 7 (.add ⟨"c", none, exBody 10 "default" "sql" false 3⟩) exDue).map exSees =
      some (true, [some (some 100), some (some 15)], [[], [[5]]], []) ∧
    (exCommand 7 (.add ⟨"a", none, exBody 10 "default" "sql" false 3⟩) exDue).map exSees =
      some (false, [some (some 100), some (some 15)], [[], [[5]]], []) ∧
    (exCommand 7 (.pause "x") exDue).map exSees = some (false, [some (some 100), some (some 15)], [[], [[5]]], []) := by
  refine ⟨?_, (exTable_inv _).2, ?_, ?_, ?_, ?_, ?_, ?_, ?_, ?_⟩ <;> decide +kernel

example : ∃ s', command mixedOps exStopCfg (exRunEnv 7) (exRunEnv 7) 20 [exRunEnv 7] (.pause "a")
      [("sql", exTable exDue)] = some (s', true) ∧
    entry mixedOps s' "sql" "a" = some { exDue[0] with nrt := none } ∧ submitted "sql" "a" s'.log = [] := by
  have h : (exCommand 7 (.pause "a") exDue).isSome := by decide +kernel
  obtain ⟨⟨s', ok⟩, h1⟩ := Option.isSome_iff_exists.1 h
  obtain ⟨q1, q2, q3⟩ := C87_pause mixedLawful mixedDurable exStopCfg (exRunEnv 7) (exRunEnv 7) 20 [exRunEnv 7] _
    (exStores exDue) "a" "sql" exDue[0] (exTable exDue) (exFirst (by decide +kernel)) rfl (exTable_inv _).2 rfl s' ok h1
  subst q1
  exact ⟨s', h1, q2, q3⟩

end CliRun
end Asyncz
