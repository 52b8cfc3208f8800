import Verif.Model.SchedInfo
import Verif.Props.CliRun
import Verif.Props.Listing
/-!
# What a scheduler tells about itself (C88)
-/
namespace Asyncz
namespace Sched
variable {σ τ φ : Type} {O : StoreOps σ (Body τ φ)}

/-- the states of a scheduler that any history of calls can lead to -/
inductive TimedReachable {O : StoreOps σ (Body τ φ)} (L : LawfulStore O) (c : Cfg τ) : Timed σ τ φ → Prop
  | init : TimedReachable L c Timed.init
  | call {x x' : Timed σ τ φ} {e : Env τ} {fuel : Nat} {k : Call σ τ φ} (hx : TimedReachable L c x) (hk : k.Ok L)
      (h : execTimed O c e fuel k x = some x') : TimedReachable L c x'

theorem execTimed_exec {c : Cfg τ} {e : Env τ} {fuel : Nat} {k : Call σ τ φ} {x x' : Timed σ τ φ}
    (h : execTimed O c e fuel k x = some x') : exec O c e fuel k x.s = some x'.s := by
  cases k with
  | start p =>
    simp only [execTimed] at h
    split at h <;> (rename_i hd; cases h; simp [exec, hd])
  | shutdown =>
    simp only [execTimed] at h
    split at h <;> (rename_i hd; cases h; simp [exec, hd])
  | _ => simp only [execTimed] at h; obtain ⟨s', h1, h2⟩ := Option.map_eq_some_iff.1 h; cases h2; exact h1

theorem TimedReachable.reachable {L : LawfulStore O} {c : Cfg τ} {x : Timed σ τ φ} (h : TimedReachable L c x) :
    Reachable L c x.s := by
  induction h with
  | init => exact .init
  | call _ hk h ih => exact .call ih hk (execTimed_exec h)

/-- Only `start` and `shutdown` start and stop; they set and clear `started_at`. -/
theorem timed_step {L : LawfulStore O} {c : Cfg τ} {e : Env τ} {fuel : Nat} {k : Call σ τ φ} {x x' : Timed σ τ φ}
    (hk : k.Ok L) (h : execTimed O c e fuel k x = some x') :
    (x.s.mode = .stopped → x'.s.mode = .stopped → x'.startedAt = x.startedAt) ∧
    (x.s.mode = .stopped → x'.s.mode ≠ .stopped → x'.startedAt = some e.now) ∧
    (x.s.mode ≠ .stopped → x'.s.mode ≠ .stopped → x'.startedAt = x.startedAt) ∧
    (x.s.mode ≠ .stopped → x'.s.mode = .stopped → x'.startedAt = none) := by
  have same : ∀ {x' : Timed σ τ φ}, (x.s.mode = .stopped ↔ x'.s.mode = .stopped) → x'.startedAt = x.startedAt →
      (x.s.mode = .stopped → x'.s.mode = .stopped → x'.startedAt = x.startedAt) ∧
      (x.s.mode = .stopped → x'.s.mode ≠ .stopped → x'.startedAt = some e.now) ∧
      (x.s.mode ≠ .stopped → x'.s.mode ≠ .stopped → x'.startedAt = x.startedAt) ∧
      (x.s.mode ≠ .stopped → x'.s.mode = .stopped → x'.startedAt = none) := by
    intro x' h1 h2
    exact ⟨fun _ _ => h2, fun a b => absurd (h1.1 a) b, fun _ _ => h2, fun a b => absurd (h1.2 b) a⟩
  cases k with
  | start p =>
    simp only [execTimed] at h
    split at h
    · rename_i hd; cases h
      obtain ⟨_, ⟨_, _, h3⟩ | ⟨_, h2, _, h4, _⟩⟩ := start_ok hd
      · cases h3
      · have h4 : (‹State σ τ φ›).mode ≠ .stopped := by rw [h4]; split <;> decide
        exact ⟨fun _ b => absurd b h4, fun _ _ => rfl, fun a _ => absurd h2 a, fun a _ => absurd h2 a⟩
    · rename_i s' r hr hd; cases h
      refine same ?_ rfl
      have hmode : s'.mode = x.s.mode := by
        simp only [start] at hd
        split at hd
        · cases hd; rfl
        · split at hd
          · cases hd; rfl
          · rename_i h1 h2
            have hk := kept_addPending (O := O) e (if c.lockPath then some (e.now + c.startupDelay) else none) x.s.pending
              (withDefaults O c { x.s with refs := x.s.refs + 1 })
            split at hd
            · rename_i hd2
              cases hd
              rw [hd2] at hk
              have := hk.mode
              simp only at this
              rw [this]
              have hm : ∀ s : State σ τ φ, (withDefaults O c s).mode = s.mode := by
                intro s
                have wk : ∀ s : State σ τ φ, s.wakeIfRunning.mode = s.mode := by
                  intro s; simp only [State.wakeIfRunning]; split <;> rfl
                simp only [withDefaults, addStore, addExecutor]
                split <;> split <;> (try rw [wk]) <;> rfl
              rw [hm]
            · cases hd
              exact (hr rfl).elim
      simp only [hmode]
  | shutdown =>
    simp only [execTimed] at h
    split at h
    · rename_i s' hd; cases h
      simp only [shutdown] at hd
      split at hd
      · cases hd
      · split at hd
        · cases hd
        · rename_i h1 h2
          simp only [Prod.mk.injEq] at hd
          have hm : s'.mode = .stopped := by rw [← hd.1]
          exact ⟨fun a _ => absurd a h2, fun a _ => absurd a h2, fun _ b => absurd hm b, fun _ _ => rfl⟩
    · rename_i s' r hr hd; cases h
      refine same ?_ rfl
      simp only [shutdown] at hd
      split at hd
      · cases hd; rfl
      · split at hd
        · cases hd; rfl
        · simp only [Prod.mk.injEq] at hd
          exact (hr hd.2.symm).elim
  | pause =>
    cases h
    refine same ?_ rfl
    simp only [pause]
    cases hm : x.s.mode <;> simp [State.emit, hm]
  | resume =>
    cases h
    refine same ?_ rfl
    simp only [resume]
    cases hm : x.s.mode <;> simp [State.emit, State.wake, hm]
  | _ =>
    simp only [execTimed] at h
    obtain ⟨s', h1, h2⟩ := Option.map_eq_some_iff.1 h
    cases h2
    refine same ?_ rfl
    exact (inner_keeps (by simp [Call.Inner]) h1).2.symm

/-- **C88** (clock): `get_scheduler_info` gives a start time and an uptime exactly while the scheduler is started;
the uptime is not negative and is the time since the start. -/
theorem C88_clock (L : LawfulStore O) (c : Cfg τ) (x : Timed σ τ φ) (hx : TimedReachable L c x) (now : Int) :
    ((infoAt O now x).running = true ↔ x.s.mode ≠ .stopped) ∧
    ((infoAt O now x).startedAt.isSome ↔ x.s.mode ≠ .stopped) ∧
    (∀ t, (infoAt O now x).startedAt = some t → ∃ u, (infoAt O now x).uptime = some u ∧ 0 ≤ u ∧ (t ≤ now → u = now - t)) ∧
    ((infoAt O now x).startedAt = none → (infoAt O now x).uptime = none) := by
  have hinv : x.startedAt.isSome ↔ x.s.mode ≠ .stopped := by
    induction hx with
    | init => simp [Timed.init, State.init]
    | @call x x' e fuel k _ hk h ih =>
      obtain ⟨h1, h2, h3, h4⟩ := timed_step hk h
      by_cases ha : x.s.mode = .stopped <;> by_cases hb : x'.s.mode = .stopped
      · rw [h1 ha hb, ih]; simp [ha, hb]
      · rw [h2 ha hb]; simp [hb]
      · rw [h4 ha hb]; simp [hb]
      · rw [h3 ha hb, ih]; simp [ha, hb]
  refine ⟨by simp [infoAt], ?_, ?_, ?_⟩
  · simp only [infoAt]
    split
    · rename_i h; simp [h]
    · exact hinv
  · intro t ht
    simp only [infoAt] at ht ⊢
    rw [ht]
    exact ⟨max 0 (now - t), rfl, by omega, fun h => by omega⟩
  · intro h
    simp only [infoAt] at h ⊢
    rw [h]; rfl

/-- **C88** (since when): the start time shown is that of the call of `start` that started the scheduler, until it is
stopped. -/
theorem C88_since (L : LawfulStore O) (c : Cfg τ) (x x' : Timed σ τ φ) (e : Env τ) (fuel : Nat) (k : Call σ τ φ)
    (hk : k.Ok L) (h : execTimed O c e fuel k x = some x') (now now' : Int) (hr : (infoAt O now' x').running = true) :
    ((infoAt O now x).running = false → (infoAt O now' x').startedAt = some e.now) ∧
    ((infoAt O now x).running = true → (infoAt O now' x').startedAt = (infoAt O now x).startedAt) := by
  obtain ⟨_, h2, h3, _⟩ := timed_step hk h
  have hb : x'.s.mode ≠ .stopped := by simpa [infoAt] using hr
  simp only [infoAt, if_neg hb]
  refine ⟨fun ha => h2 (by simpa using ha) hb, fun ha => ?_⟩
  have ha : x.s.mode ≠ .stopped := by simpa using ha
  rw [if_neg ha]
  exact h3 ha hb

theorem countP_states (ts : List (T τ φ)) :
    ts.countP (fun t => decide (stateOf t = .scheduled)) + ts.countP (fun t => decide (stateOf t = .paused)) +
      ts.countP (fun t => decide (stateOf t = .pending)) = ts.length := by
  induction ts with
  | nil => rfl
  | cons t ts ih =>
    simp only [List.countP_cons, List.length_cons]
    rcases h : stateOf t <;> simp <;> omega

/-- **C88** (counts): the counts of scheduled, paused and pending tasks add up to the number of tasks; a started scheduler
counts each task of each store once, a stopped one its pending tasks.  The aliases shown are those of the
executors and stores, in order. -/
theorem C88_counts (L : LawfulStore O) (c : Cfg τ) (x : Timed σ τ φ) (hx : TimedReachable L c x) (now : Int) :
    (infoAt O now x).scheduled + (infoAt O now x).paused + (infoAt O now x).pending = (infoAt O now x).tasks ∧
    (x.s.mode = .stopped → (infoAt O now x).tasks = x.s.pending.length) ∧
    (x.s.mode ≠ .stopped → ∃ segs, Segments O x.s none segs ∧ (infoAt O now x).tasks = (segs.map fun p => p.2.length).sum ∧
      (infoAt O now x).scheduled =
        (segs.map fun p => p.2.countP fun t => !t.body.pending && t.nrt.isSome).sum) ∧
    (infoAt O now x).stores.Perm x.s.stores.keys ∧ (infoAt O now x).stores.Pairwise (· ≤ ·) ∧
    (infoAt O now x).executors.Perm x.s.executors.keys ∧ (infoAt O now x).executors.Pairwise (· ≤ ·) := by
  have hsort : ∀ l : List String, (sortBy (fun a b => decide (a ≤ b)) l).Pairwise (· ≤ ·) := by
    intro l
    have := sortBy_pairwise (le := fun a b : String => decide (a ≤ b))
      (fun a b c h1 h2 => by simp only [decide_eq_true_eq] at *; exact String.le_trans h1 h2)
      (fun a b => by simpa using String.le_total a b) l
    exact this.imp (by simp)
  refine ⟨countP_states _, fun hm => ?_, fun hm => ?_, sortBy_perm _ _, hsort _, sortBy_perm _ _, hsort _⟩
  · simp only [infoAt, getTasks, if_pos hm]
    rw [List.filter_eq_self.2 (by simp)]; simp
  · obtain ⟨segs, h1, h2⟩ := (C42_get_tasks L c x.s hx.reachable none).2 hm
    refine ⟨segs, h1, ?_, ?_⟩
    · simp only [infoAt, h2, List.length_flatMap]
    · simp only [infoAt, h2, List.countP_flatMap]
      congr 1
      refine List.map_congr_left fun p _ => ?_
      simp only [Function.comp]
      refine List.countP_congr fun t _ => ?_
      suffices H : ∀ (b : Bool) (n : Option Int), decide (Listing.scheduleState b n = .scheduled) = (!b && n.isSome) by
        rw [← H]; rfl
      intro b n
      cases b <;> cases n <;> rfl

/-- **C88** (doctor): the scheduler is said to be ready exactly if it is started and has a store and an executor; health is
"failed" exactly if a store or an executor is missing; an instance is active exactly if started, and stale otherwise. -/
theorem C88_doctor (L : LawfulStore O) (c : Cfg τ) (x : Timed σ τ φ) (hx : TimedReachable L c x) (now : Int) :
    ((doctor (infoAt O now x)).2 = true ↔ x.s.mode ≠ .stopped ∧ x.s.stores.keys ≠ [] ∧ x.s.executors.keys ≠ []) ∧
    ((doctor (infoAt O now x)).1 = .failed ↔ x.s.stores.keys = [] ∨ x.s.executors.keys = []) ∧
    ((doctor (infoAt O now x)).1 = .ok ↔ (doctor (infoAt O now x)).2 = true) ∧
    activeStale (infoAt O now x) = (decide (x.s.mode ≠ .stopped), decide (x.s.mode = .stopped)) := by
  obtain ⟨h1, h2, h3, _⟩ := C88_clock L c x hx now
  have hs : (infoAt O now x).stores = [] ↔ x.s.stores.keys = [] := by
    have := (sortBy_perm (fun a b => decide (a ≤ b)) x.s.stores.keys)
    simp only [infoAt]
    exact ⟨fun h => by rw [h] at this; exact this.symm.eq_nil, fun h => by rw [h] at this ⊢; exact this.eq_nil⟩
  have he : (infoAt O now x).executors = [] ↔ x.s.executors.keys = [] := by
    have := (sortBy_perm (fun a b => decide (a ≤ b)) x.s.executors.keys)
    simp only [infoAt]
    exact ⟨fun h => by rw [h] at this; exact this.symm.eq_nil, fun h => by rw [h] at this ⊢; exact this.eq_nil⟩
  have hclock : (infoAt O now x).running = true → (infoAt O now x).startedAt ≠ none ∧ (infoAt O now x).uptime ≠ none := by
    intro hr
    have := h2.2 (h1.1 hr)
    obtain ⟨t, ht⟩ := Option.isSome_iff_exists.1 this
    obtain ⟨u, hu, _⟩ := h3 t ht
    rw [ht, hu]; simp
  have hact : activeStale (infoAt O now x) = (decide (x.s.mode ≠ .stopped), decide (x.s.mode = .stopped)) := by
    simp only [activeStale, infoAt]
    cases x.s.mode <;> rfl
  suffices H : ((doctor (infoAt O now x)).2 = true ↔ (infoAt O now x).running = true ∧ (infoAt O now x).stores ≠ [] ∧
        (infoAt O now x).executors ≠ []) ∧
      ((doctor (infoAt O now x)).1 = .failed ↔ (infoAt O now x).stores = [] ∨ (infoAt O now x).executors = []) ∧
      ((doctor (infoAt O now x)).1 = .ok ↔ (doctor (infoAt O now x)).2 = true) by
    refine ⟨H.1.trans ⟨fun h => ⟨h1.1 h.1, fun hn => h.2.1 (hs.2 hn), fun hn => h.2.2 (he.2 hn)⟩,
      fun h => ⟨h1.2 h.1, fun hn => h.2.1 (hs.1 hn), fun hn => h.2.2 (he.1 hn)⟩⟩,
      H.2.1.trans ⟨fun h => h.imp hs.1 he.1, fun h => h.imp hs.2 he.2⟩, H.2.2, hact⟩
  suffices H : ∀ i : Info, (i.running = true → i.startedAt ≠ none ∧ i.uptime ≠ none) →
      ((doctor i).2 = true ↔ i.running = true ∧ i.stores ≠ [] ∧ i.executors ≠ []) ∧
      ((doctor i).1 = .failed ↔ i.stores = [] ∨ i.executors = []) ∧ ((doctor i).1 = .ok ↔ (doctor i).2 = true) from
    H _ hclock
  intro i hclock
  refine ⟨?_, ?_, ?_⟩ <;> (
    cases hr : i.running
    · by_cases a : i.stores = [] <;> by_cases b : i.executors = [] <;> simp [doctor, checks, healthOf, hr, a, b]
    · obtain ⟨p, q⟩ := hclock hr
      by_cases a : i.stores = [] <;> by_cases b : i.executors = [] <;> simp [doctor, checks, healthOf, hr, a, b, p, q])

/-- **C88, the checks.** Of every scheduler `doctor` reports the same five checks in the same order; a check failed or gives a
warning exactly if what its name says is missing or the scheduler is stopped; and the health is the worst of them. -/
theorem C88_checks (i : Info) :
    (checks i).map (·.1) = ["scheduler_running", "stores_registered", "executors_registered", "task_inventory", "lifecycle_clock"] ∧
    (("scheduler_running", Health.ok) ∈ checks i ↔ i.running = true) ∧
    (("scheduler_running", Health.failed) ∉ checks i) ∧
    (("stores_registered", Health.failed) ∈ checks i ↔ i.stores = []) ∧
    (("stores_registered", Health.warning) ∉ checks i) ∧
    (("executors_registered", Health.failed) ∈ checks i ↔ i.executors = []) ∧
    (("executors_registered", Health.warning) ∉ checks i) ∧
    (("task_inventory", Health.ok) ∈ checks i) ∧
    (("lifecycle_clock", Health.warning) ∈ checks i ↔ i.running = false) ∧
    (("lifecycle_clock", Health.failed) ∈ checks i ↔ i.running = true ∧ (i.startedAt = none ∨ i.uptime = none)) ∧
    ((doctor i).1 = .failed ↔ ∃ n, (n, Health.failed) ∈ checks i) ∧
    ((doctor i).1 = .ok ↔ ∀ p ∈ checks i, p.2 = Health.ok) := by
  cases hr : i.running <;> by_cases a : i.stores = [] <;> by_cases b : i.executors = [] <;>
    by_cases p : i.startedAt = none <;> by_cases q : i.uptime = none <;>
    simp [doctor, checks, healthOf, hr, a, b, p, q]

/-- **C88**: `asyncz doctor` without `--bootstrap` finds its own scheduler ready, whatever the stores hold. -/
theorem C88_doctor_command (L : LawfulStore O) (c : Cfg τ) (e : Env τ) (d : Dict String σ) (hd : Stores L d) (now : Int) :
    ∃ s1, start O c e false (CliRun.temporary d : State σ τ φ) = (s1, .ok true) ∧
      doctor (infoAt O now ⟨s1, some e.now⟩) = (.ok, true) := by
  obtain ⟨s1, h1, _, h3⟩ := CliRun.started L c e d hd (φ := φ)
  refine ⟨s1, h1, ?_⟩
  have hst : (infoAt O now ⟨s1, some e.now⟩).stores ≠ [] := by
    have hm : "default" ∈ s1.stores.keys := by
      obtain ⟨_, ⟨_, _, q⟩ | ⟨_, _, _, _, _, _, s2, q1, q2, _⟩⟩ := start_ok h1
      · cases q
      · have hk := kept_addPending (O := O) e (if c.lockPath then some (e.now + c.startupDelay) else none)
          (CliRun.temporary d : State σ τ φ).pending
          (withDefaults O c { (CliRun.temporary d : State σ τ φ) with refs := (CliRun.temporary d : State σ τ φ).refs + 1 })
        rw [q1] at hk
        have := hk.keys
        simp only at this
        rw [q2, this]
        simp only [withDefaults, addStore_stores]
        split
        · rename_i hc
          have : Dict.get? (addExecutor c.defaultExecutor "default" { (CliRun.temporary d : State σ τ φ) with refs := (CliRun.temporary d : State σ τ φ).refs + 1 }).1.stores "default" ≠ none := by
            intro hn; simp [Dict.contains, hn] at hc
          rw [ne_eq, Dict.get?_eq_none] at this
          simpa using this
        · exact Dict.mem_keys_of_mem (Dict.mem_of_get? (by rw [Dict.get?_set, if_pos rfl]))
    have hp := sortBy_perm (fun a b => decide (a ≤ b)) s1.stores.keys
    simp only [infoAt]
    intro hn
    rw [hn] at hp
    have := hp.symm.eq_nil
    rw [this] at hm; cases hm
  have hex : (infoAt O now ⟨s1, some e.now⟩).executors ≠ [] := by
    simp [infoAt, h3.executors, sortBy, insertBy]
  suffices H : ∀ i : Info, i.stores ≠ [] → i.executors ≠ [] → i.running = true → i.startedAt ≠ none → i.uptime ≠ none →
      doctor i = (.ok, true) from
    H _ hst hex (by simp [infoAt, h3.mode]) (by simp [infoAt, h3.mode]) (by simp [infoAt, h3.mode])
  intro i a b cc d e
  simp [doctor, checks, healthOf, a, b, cc, d, e]

/-! ## Examples -/

/-- a history on a scheduler with memory stores; the calls are at the given times -/
def execTimeds : List (Int × Call MS Int Unit) → Timed MS Int Unit → Option (Timed MS Int Unit)
  | [], x => some x
  | (now, k) :: ks, x => (execTimed Memory.ops exCfg (exEnvAt now) 20 k x).bind (execTimeds ks)

theorem execTimeds_reachable {ks : List (Int × Call MS Int Unit)} (hk : ∀ k ∈ ks, k.2.Ok Memory.lawful)
    {x x' : Timed MS Int Unit} (hx : TimedReachable Memory.lawful exCfg x) (h : execTimeds ks x = some x') :
    TimedReachable Memory.lawful exCfg x' := by
  induction ks generalizing x with
  | nil => cases h; exact hx
  | cons k ks ih =>
    obtain ⟨now, k⟩ := k
    simp only [execTimeds] at h
    obtain ⟨x1, h1, h2⟩ := Option.bind_eq_some_iff.1 h
    exact ih (fun k h => hk k (by simp [h])) (.call hx (hk (now, k) (by simp)) h1) h2

def exInfoHistory : List (Int × Call MS Int Unit) :=
  [(1, .addTask ⟨"a", none, { exBody 30 "default" "default" false 3 with pending := true }⟩ none false),
   (2, .addTask ⟨"b", none, { exBody 30 "default" "default" false 3 with pending := true }⟩ (some none) false),
   (7, .start false)]

/-- C88's hypotheses are met: two pending tasks; then a scheduler that was started at 7, one task scheduled and one paused;
stopped again. -/
example : (∃ x, TimedReachable Memory.lawful exCfg x ∧ execTimeds (exInfoHistory.take 2) Timed.init = some x ∧
      infoAt Memory.ops 5 x = ⟨.stopped, false, none, none, [], [], 2, 0, 0, 2⟩ ∧
      doctor (infoAt Memory.ops 5 x) = (.failed, false)) ∧
    (∃ x, TimedReachable Memory.lawful exCfg x ∧ execTimeds exInfoHistory Timed.init = some x ∧
      infoAt Memory.ops 12 x = ⟨.running, true, some 7, some 5, ["default"], ["default"], 2, 1, 1, 0⟩ ∧
      doctor (infoAt Memory.ops 12 x) = (.ok, true)) ∧
    (∃ x, TimedReachable Memory.lawful exCfg x ∧ execTimeds (exInfoHistory ++ [(20, .shutdown)]) Timed.init = some x ∧
      infoAt Memory.ops 30 x = ⟨.stopped, false, none, none, ["default"], ["default"], 0, 0, 0, 0⟩ ∧
      doctor (infoAt Memory.ops 30 x) = (.warning, false)) := by
  have mk : ∀ (ks : List (Int × Call MS Int Unit)) now i d, (∀ k ∈ ks, k.2.Ok Memory.lawful) →
      (execTimeds ks Timed.init).map (fun x => (infoAt Memory.ops now x, doctor (infoAt Memory.ops now x))) = some (i, d) →
      ∃ x, TimedReachable Memory.lawful exCfg x ∧ execTimeds ks Timed.init = some x ∧
        infoAt Memory.ops now x = i ∧ doctor (infoAt Memory.ops now x) = d := by
    intro ks now i d hk h
    obtain ⟨x, h1, h2⟩ := Option.map_eq_some_iff.1 h
    simp only [Prod.mk.injEq] at h2
    exact ⟨x, execTimeds_reachable hk .init h1, h1, h2⟩
  refine ⟨mk _ _ _ _ ?_ (by decide +kernel), mk _ _ _ _ ?_ (by decide +kernel), mk _ _ _ _ ?_ (by decide +kernel)⟩ <;>
    · intro k hk
      simp only [exInfoHistory, List.take, List.cons_append, List.nil_append, List.mem_cons, List.not_mem_nil, or_false] at hk
      first
      | (rcases hk with rfl | rfl | rfl | rfl <;> exact trivial)
      | (rcases hk with rfl | rfl | rfl <;> exact trivial)
      | (rcases hk with rfl | rfl <;> exact trivial)

end Sched
end Asyncz
