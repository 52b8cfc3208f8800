import Verif.Lemmas.OpsAgree
import Verif.Lemmas.SchedStore3
import Verif.Props.AddToRun
import Verif.Props.Crash
import Verif.Lemmas.TrigCodec
/-!
# C123: what is promised of a scheduler holds for each of the five built-in stores

The theorems on histories of a scheduler (C83, C84, C117) assume stores that behave like a map of tasks.  Memory, SQL and MongoDB stores
do.  A file store raises for ids that it does not accept, and a Redis store never finds a time before 1970 due.  Here: a scheduler with
any mixture of the five, as the code is, keeps the promises as long as its tasks have ids that their stores accept and no times
before 1970 (in Redis).
-/
namespace Asyncz
namespace Sched

/-! ## Specification -/

section
variable {τ φ : Type}

/-- a store of one of the five kinds: memory, SQL, MongoDB, file, Redis -/
abbrev AnyStore (τ φ : Type) := Memory.Store (Body τ φ) ⊕ Persist.Rows.Table ⊕ Persist.Rows.Table ⊕ Persist.File.Dir ⊕ Persist.Redis.DB

/-- the five stores, as the code is -/
def builtinOps (c : Persist.Codec (Body τ φ)) (suffix : String) (cleanup : Bool) : StoreOps (AnyStore τ φ) (Body τ φ) :=
  Memory.ops.sum ((Persist.Rows.sqlOps c).sum ((Persist.Rows.mongoOps c).sum
    ((Persist.File.realOps c suffix cleanup).sum (Persist.Redis.realOps c))))

/-- the store accepts the id: a file store does not accept all -/
def Accepts : AnyStore τ φ → String → Prop
  | .inr (.inr (.inr (.inl _))), i => Persist.File.checkTaskId i = true
  | _, _ => True

/-- the store can keep the task and find it when it is due: its id is accepted, and in Redis its time is not before 1970 -/
def Fits : AnyStore τ φ → T τ φ → Prop
  | .inr (.inr (.inr (.inl _))), t => Persist.File.checkTaskId t.id = true
  | .inr (.inr (.inr (.inr _))), t => ∀ r, t.nrt = some r → 0 ≤ r
  | _, _ => True

/-- every task of every store fits there; the tasks are those that `get_tasks` shows -/
def AllFit (c : Persist.Codec (Body τ φ)) (suffix : String) (cleanup : Bool) (s : State (AnyStore τ φ) τ φ) : Prop :=
  ∀ a st, s.stores.get? a = some st → ∀ t ∈ (builtinOps c suffix cleanup).all st, Fits st t

/-- the stores have different aliases, and each was written by its own kind of store: what is in it are serialised tasks under their
ids, and the indexes of SQL, MongoDB and Redis agree with them -/
structure Consistent (c : Persist.Codec (Body τ φ)) (suffix : String) (s : State (AnyStore τ φ) τ φ) : Prop where
  aliases : s.stores.WF
  memory : ∀ a st, s.stores.get? a = some (.inl st) → ∃ ops, st = Memory.after ops
  sql : ∀ a st, s.stores.get? a = some (.inr (.inl st)) → Persist.Rows.Inv c id st
  mongo : ∀ a st, s.stores.get? a = some (.inr (.inr (.inl st))) → Persist.Rows.Inv c id st
  file : ∀ a st, s.stores.get? a = some (.inr (.inr (.inr (.inl st)))) → Persist.File.AnyInv c suffix st
  redis : ∀ a st, s.stores.get? a = some (.inr (.inr (.inr (.inr st)))) → Persist.Redis.Inv c st

/-- the store `a` accepts the id -/
def Takes (s : State (AnyStore τ φ) τ φ) (a i : String) : Prop := ∀ st, s.stores.get? a = some st → Accepts st i

/-- `Served`, for the stores as the code has them: at each pass the tasks in the stores fit there.  (Between the passes: anything at all
that leaves this task alone.) -/
inductive ServedBy (c : Persist.Codec (Body τ φ)) (suffix : String) (cleanup : Bool) (cfg : Cfg τ) (Good : Env τ → Prop) (a i x : String) :
    State (AnyStore τ φ) τ φ → List (Int × List Obs) → State (AnyStore τ φ) τ φ → Prop
  | done (s : State (AnyStore τ φ) τ φ) : ServedBy c suffix cleanup cfg Good a i x s [] s
  | pass {s s' s'' : State (AnyStore τ φ) τ φ} {e : Env τ} {fuel : Nat} {w : Option Int} {obs : List Obs} {rest : List (Int × List Obs)}
      (hfit : AllFit c suffix cleanup s) (hm : s.mode = .running) (hg : Good e)
      (hl : e.procLock = true ∧ e.storeLock a = true ∧ e.dueOk a = true)
      (hx : (s.executors.get? x).isSome = true ∧ e.sendOk x i = true)
      (h : processTasks (builtinOps c suffix cleanup) cfg e fuel s = some (s', .ok w)) (hlog : s'.log = s.log ++ obs)
      (hr : ServedBy c suffix cleanup cfg Good a i x s' rest s'') :
      ServedBy c suffix cleanup cfg Good a i x s ((e.now, obs) :: rest) s''
  | other {s s' s'' : State (AnyStore τ φ) τ φ} {rest : List (Int × List Obs)} (hc : Consistent c suffix s') (ht : Takes s' a i)
      (he : entry (builtinOps c suffix cleanup) s' a i = entry (builtinOps c suffix cleanup) s a i)
      (hr : ServedBy c suffix cleanup cfg Good a i x s' rest s'') : ServedBy c suffix cleanup cfg Good a i x s rest s''

/-- `Recovered`, for the stores as the code has them: the process dies in passes and is started again, with tasks that fit. -/
inductive RecoveredBy (c : Persist.Codec (Body τ φ)) (suffix : String) (cleanup : Bool) (cfg : Cfg τ) (Good : Env τ → Prop)
    (Room : State (AnyStore τ φ) τ φ → Prop) (a i x : String) :
    State (AnyStore τ φ) τ φ → List Seen → State (AnyStore τ φ) τ φ → Prop
  | done (s : State (AnyStore τ φ) τ φ) : RecoveredBy c suffix cleanup cfg Good Room a i x s [] s
  | pass {s s' s'' : State (AnyStore τ φ) τ φ} {e : Env τ} {fuel : Nat} {w : Option Int} {obs : List Obs} {rest : List Seen}
      (hfit : AllFit c suffix cleanup s) (hm : s.mode = .running) (hg : Good e)
      (hl : e.procLock = true ∧ e.storeLock a = true ∧ e.dueOk a = true)
      (hx : (s.executors.get? x).isSome = true ∧ e.sendOk x i = true)
      (h : processTasks (builtinOps c suffix cleanup) cfg e fuel s = some (s', .ok w)) (hlog : s'.log = s.log ++ obs) (hroom : Room s')
      (hr : RecoveredBy c suffix cleanup cfg Good Room a i x s' rest s'') :
      RecoveredBy c suffix cleanup cfg Good Room a i x s (⟨true, e.now, obs⟩ :: rest) s''
  | crash {s s' s1 s'' : State (AnyStore τ φ) τ φ} {e e1 : Env τ} {fuel : Nat} {p : Point} {obs : List Obs} {rest : List Seen}
      {executors : Dict String Nat} {pending : List (Waiting τ φ)} {paused : Bool}
      (hfit : AllFit c suffix cleanup s) (hm : s.mode = .running) (hg : Good e)
      (hl : e.procLock = true ∧ e.storeLock a = true ∧ e.dueOk a = true)
      (hx : (s.executors.get? x).isSome = true ∧ e.sendOk x i = true)
      (h : crashPass (builtinOps c suffix cleanup) cfg e fuel p s = some s') (hlog : s'.log = s.log ++ obs) (hroom : Room s')
      (hacc : ∀ q ∈ pending, Takes s' q.1.body.store q.1.id)
      (hp : ∀ q ∈ pending, q.1.body.store = a → q.1.id = i → q.2.1 = false)
      (hgone : (entry (builtinOps c suffix cleanup) s' a i).isNone → ∀ q ∈ pending, ¬ (q.1.body.store = a ∧ q.1.id = i))
      (hs : start (builtinOps c suffix cleanup) cfg e1 paused (newProcess executors pending s') = (s1, .ok true))
      (hr : RecoveredBy c suffix cleanup cfg Good Room a i x s1 rest s'') :
      RecoveredBy c suffix cleanup cfg Good Room a i x s (⟨false, e.now, obs⟩ :: rest) s''
  | other {s s' s'' : State (AnyStore τ φ) τ φ} {rest : List Seen} (hc : Consistent c suffix s') (ht : Takes s' a i)
      (he : entry (builtinOps c suffix cleanup) s' a i = entry (builtinOps c suffix cleanup) s a i)
      (hr : RecoveredBy c suffix cleanup cfg Good Room a i x s' rest s'') :
      RecoveredBy c suffix cleanup cfg Good Room a i x s rest s''

end

/-! ## Proof -/

section
variable {σ σ' τ φ : Type}

theorem Agree.rfl' {O : StoreOps σ (Body τ φ)} (L : LawfulStore O) : Agree O O L (fun _ _ => True) (fun _ _ => True) where
  init := rfl
  nextRun := fun _ => rfl
  add := fun _ _ _ => rfl
  update := fun _ _ _ => rfl
  delete := fun _ _ _ => rfl
  stable := fun _ _ _ => Iff.rfl
  lookup := fun _ _ _ => rfl
  ok_id := fun _ _ _ => trivial
  due := fun _ _ _ _ => rfl

theorem Agree.sum {O1 O1' : StoreOps σ (Body τ φ)} {O2 O2' : StoreOps σ' (Body τ φ)} {L1 : LawfulStore O1'} {L2 : LawfulStore O2'}
    {i1 : σ → String → Prop} {i2 : σ' → String → Prop} {k1 : σ → T τ φ → Prop} {k2 : σ' → T τ φ → Prop}
    (h1 : Agree O1 O1' L1 i1 k1) (h2 : Agree O2 O2' L2 i2 k2) :
    Agree (O1.sum O2) (O1'.sum O2') (L1.sum L2) (Sum.elim i1 i2) (Sum.elim k1 k2) where
  init := by simp only [StoreOps.sum, h1.init]
  nextRun := by
    rintro (st | st)
    · exact h1.nextRun st
    · exact h2.nextRun st
  add := by
    rintro (st | st) t h
    · simp only [StoreOps.sum, h1.add st t h]
    · simp only [StoreOps.sum, h2.add st t h]
  update := by
    rintro (st | st) t h
    · simp only [StoreOps.sum, h1.update st t h]
    · simp only [StoreOps.sum, h2.update st t h]
  delete := by
    rintro (st | st) t h
    · simp only [StoreOps.sum, h1.delete st t h]
    · simp only [StoreOps.sum, h2.delete st t h]
  stable := by
    rintro (st | st) op i
    · exact h1.stable st op i
    · exact h2.stable st op i
  lookup := by
    rintro (st | st) i h
    · exact h1.lookup st i h
    · exact h2.lookup st i h
  ok_id := by
    rintro (st | st) t h
    · exact h1.ok_id st t h
    · exact h2.ok_id st t h
  due := by
    rintro (st | st) now hi h
    · exact h1.due st now hi h
    · exact h2.due st now hi h

theorem file_agree (c : Persist.Codec (Body τ φ)) (suffix : String) (cleanup : Bool) (hc : ∀ t, (c.enc t).isSome) :
    Agree (Persist.File.realOps c suffix cleanup) (Persist.File.anyOps c suffix cleanup) (Persist.File.anyLawful c suffix cleanup hc)
      (fun _ i => Persist.File.checkTaskId i = true) (fun _ t => Persist.File.checkTaskId t.id = true) where
  init := rfl
  nextRun := fun _ => rfl
  add := by
    intro st t h
    obtain ⟨b, hb⟩ := Option.isSome_iff_exists.1 (hc t)
    simp only [Persist.File.realOps, Persist.File.anyOps, Persist.File.step, Persist.File.addTask, Persist.File.anyStep, h, if_true, hb]
    cases st.get? (Persist.File.fileName suffix t.id) <;> rfl
  update := by
    intro st t h
    obtain ⟨b, hb⟩ := Option.isSome_iff_exists.1 (hc t)
    simp only [Persist.File.realOps, Persist.File.anyOps, Persist.File.step, Persist.File.updateTask, Persist.File.anyStep, h, if_true, hb]
    cases st.get? (Persist.File.fileName suffix t.id) <;> rfl
  delete := by
    intro st i h
    simp only [Persist.File.realOps, Persist.File.anyOps, Persist.File.step, Persist.File.deleteTask, Persist.File.anyStep, h, if_true]
    cases st.get? (Persist.File.fileName suffix i) <;> rfl
  stable := fun _ _ _ => Iff.rfl
  lookup := by
    intro st i h
    simp only [Persist.File.realOps, Persist.File.anyOps, Persist.File.lookupTask, h, if_true]
    cases st.get? (Persist.File.fileName suffix i) with
    | none => rfl
    | some b => simp only [Option.bind_some]; cases c.dec b <;> rfl
  ok_id := fun _ _ h => h
  due := fun _ _ _ _ => rfl

theorem redis_agree (c : Persist.Codec (Body τ φ)) (hc : ∀ t, (c.enc t).isSome) :
    Agree (Persist.Redis.realOps c) (Persist.Redis.anyOps c) (Persist.Redis.anyLawful c hc)
      (fun _ _ => True) (fun _ t => ∀ r, t.nrt = some r → 0 ≤ r) where
  init := rfl
  nextRun := fun _ => rfl
  add := fun _ _ _ => rfl
  update := fun _ _ _ => rfl
  delete := fun _ _ _ => rfl
  stable := fun _ _ _ => Iff.rfl
  lookup := fun _ _ _ => rfl
  ok_id := fun _ _ _ => trivial
  due := by
    intro db now hi h
    have hall : (db.zset.all fun p => decide (0 ≤ p.2)) = true := by
      rw [List.all_eq_true]
      rintro ⟨i, r⟩ hm
      have hz : db.zset.get? i = some r := Dict.get?_of_mem hi.wfz hm
      rw [hi.scores] at hz
      obtain ⟨t, ht, hr⟩ := Option.bind_eq_some_iff.1 hz
      simpa using h i t ht r hr
    show _ = if _ then _ else _
    rw [if_pos hall]
    rfl

/-- the five stores without the two exceptions -/
def idealOps (c : Persist.Codec (Body τ φ)) (suffix : String) (cleanup : Bool) : StoreOps (AnyStore τ φ) (Body τ φ) :=
  Memory.ops.sum ((Persist.Rows.sqlOps c).sum ((Persist.Rows.mongoOps c).sum
    ((Persist.File.anyOps c suffix cleanup).sum (Persist.Redis.anyOps c))))

def idealLawful (c : Persist.Codec (Body τ φ)) (suffix : String) (cleanup : Bool) (hc : ∀ t, (c.enc t).isSome) :
    LawfulStore (idealOps c suffix cleanup) :=
  Memory.lawful.sum ((Persist.Rows.sqlLawful c hc).sum ((Persist.Rows.mongoLawful c hc).sum
    ((Persist.File.anyLawful c suffix cleanup hc).sum (Persist.Redis.anyLawful c hc))))

theorem builtin_agree (c : Persist.Codec (Body τ φ)) (suffix : String) (cleanup : Bool) (hc : ∀ t, (c.enc t).isSome) :
    Agree (builtinOps c suffix cleanup) (idealOps c suffix cleanup) (idealLawful c suffix cleanup hc) Accepts Fits := by
  have h := (Agree.rfl' (Memory.lawful (β := Body τ φ))).sum ((Agree.rfl' (Persist.Rows.sqlLawful c hc)).sum
    ((Agree.rfl' (Persist.Rows.mongoLawful c hc)).sum ((file_agree c suffix cleanup hc).sum (redis_agree c hc))))
  have e1 : (Accepts : AnyStore τ φ → String → Prop) = Sum.elim (fun _ _ => True) (Sum.elim (fun _ _ => True)
      (Sum.elim (fun _ _ => True) (Sum.elim (fun _ i => Persist.File.checkTaskId i = true) (fun _ _ => True)))) := by
    funext st i; rcases st with st | st | st | st | st <;> rfl
  have e2 : (Fits : AnyStore τ φ → T τ φ → Prop) = Sum.elim (fun _ _ => True) (Sum.elim (fun _ _ => True)
      (Sum.elim (fun _ _ => True) (Sum.elim (fun _ t => Persist.File.checkTaskId t.id = true)
        (fun _ t => ∀ r, t.nrt = some r → 0 ≤ r)))) := by
    funext st i; rcases st with st | st | st | st | st <;> rfl
  rw [e1, e2]
  exact h

variable {c : Persist.Codec (Body τ φ)} {suffix : String} {cleanup : Bool} (hc : ∀ t, (c.enc t).isSome)

theorem consistent_iff {s : State (AnyStore τ φ) τ φ} : Consistent c suffix s ↔ WF (idealLawful c suffix cleanup hc) s := by
  constructor
  · intro h
    refine ⟨h.aliases, ?_⟩
    rintro a (st | st | st | st | st) hg
    · exact h.memory a st hg
    · exact h.sql a st hg
    · exact h.mongo a st hg
    · exact h.file a st hg
    · exact h.redis a st hg
  · intro h
    exact ⟨h.keys, fun a st hg => h.inv a _ hg, fun a st hg => h.inv a _ hg, fun a st hg => h.inv a _ hg, fun a st hg => h.inv a _ hg,
      fun a st hg => h.inv a _ hg⟩

theorem allFit_ok {s : State (AnyStore τ φ) τ φ} (hw : WF (idealLawful c suffix cleanup hc) s) (h : AllFit c suffix cleanup s) :
    AllOk (idealLawful c suffix cleanup hc) Fits s := by
  intro a st hg i t hm
  have hall : (builtinOps c suffix cleanup).all st = (idealOps c suffix cleanup).all st := by
    rcases st with st | st | st | st | st <;> rfl
  refine h a st hg t ?_
  rw [hall]
  have hid := (idealLawful c suffix cleanup hc).key (hw.inv a st hg) hm
  exact (((idealLawful c suffix cleanup hc).all (hw.inv a st hg)).2 t).2 ⟨by rw [hid]; exact hm, trivial⟩

theorem servedBy_ideal {cfg : Cfg τ} {Good : Env τ → Prop} {a i x : String} {s s' : State (AnyStore τ φ) τ φ} {ps : List (Int × List Obs)}
    (h : ServedBy c suffix cleanup cfg Good a i x s ps s') (hw : Consistent c suffix s) (ht : Takes s a i) :
    Served (idealLawful c suffix cleanup hc) cfg Good a i x s ps s' := by
  have hA := builtin_agree c suffix cleanup hc
  induction h with
  | done s => exact .done s
  | pass hfit hm hg hl hx h hlog _ ih =>
    have hw' := (consistent_iff (cleanup := cleanup) hc).1 hw
    rw [agree_processTasks hA cfg _ _ hw' (allFit_ok hc hw' hfit)] at h
    exact .pass hm hg hl hx h hlog (ih ((consistent_iff hc).2 (wf_processTasks hw' h))
      (kinds_idOk (rel_processTasks (kinds_passRel hA _) h) ht))
  | other hc' ht' he _ ih =>
    refine .other ((consistent_iff hc).1 hc') ?_ (ih hc' ht')
    rw [← agree_entry hA ht', ← agree_entry hA ht]; exact he

theorem recoveredBy_ideal {cfg : Cfg τ} {Good : Env τ → Prop} {Room : State (AnyStore τ φ) τ φ → Prop} {a i x : String}
    {s s' : State (AnyStore τ φ) τ φ} {seen : List Seen} (h : RecoveredBy c suffix cleanup cfg Good Room a i x s seen s')
    (hw : Consistent c suffix s) (ht : Takes s a i) : Recovered (idealLawful c suffix cleanup hc) cfg Good Room a i x s seen s' := by
  have hA := builtin_agree c suffix cleanup hc
  induction h with
  | done s => exact .done s
  | pass hfit hm hg hl hx h hlog hroom _ ih =>
    have hw' := (consistent_iff (cleanup := cleanup) hc).1 hw
    rw [agree_processTasks hA cfg _ _ hw' (allFit_ok hc hw' hfit)] at h
    exact .pass hm hg hl hx h hlog hroom (ih ((consistent_iff hc).2 (wf_processTasks hw' h))
      (kinds_idOk (rel_processTasks (kinds_passRel hA _) h) ht))
  | @crash s s' s1 s'' e e1 fuel p obs rest executors pending paused hfit hm hg hl hx h hlog hroom hacc hp hgone hs _ ih =>
    have hw' := (consistent_iff (cleanup := cleanup) hc).1 hw
    rw [agree_crashPass hA cfg _ _ _ hw' (allFit_ok hc hw' hfit)] at h
    have ht1 : Takes s' a i := kinds_idOk (kinds_crashPass hA _ _ _ _ h) ht
    obtain ⟨_, _, hw1, _⟩ := crashPass_task (ans := fun _ => .ok none) (idealLawful c suffix cleanup hc) hw' hm a i hl h
    have hpend : ∀ q ∈ (newProcess executors pending s').pending,
        IdOk Accepts (newProcess executors pending s') q.1.body.store q.1.id := hacc
    rw [agree_entry hA ht1] at hgone
    have hi : ∀ j, Accepts (idealOps c suffix cleanup).init j := fun _ => trivial
    rw [agree_start hA hi cfg e1 paused hpend] at hs
    have hw2 := (restart_entry _ hw1 a i hp hgone hs).1
    have ht2 := idOk_start hA hi cfg e1 paused hpend (a := a) (i := i) ht1
    rw [hs] at ht2
    exact .crash hm hg hl hx h hlog hroom hp hgone hs (ih ((consistent_iff hc).2 hw2) ht2)
  | other hc' ht' he _ ih =>
    refine .other ((consistent_iff hc).1 hc') ?_ (ih hc' ht')
    rw [← agree_entry hA ht', ← agree_entry hA ht]; exact he

end

/-! ## The theorems -/

section
variable {φ : Type} {c : Persist.Codec (Body Trig φ)} {suffix : String} {cleanup : Bool} {E : TzEnv}

/-- **C123, one pass**: on consistent stores whose tasks fit, a pass over the stores as they are does exactly what it does over stores
that are maps of tasks. -/
theorem C123_pass {τ φ : Type} (c : Persist.Codec (Body τ φ)) (suffix : String) (cleanup : Bool) (hc : ∀ t, (c.enc t).isSome) (cfg : Cfg τ)
    (e : Env τ) (fuel : Nat) (s : State (AnyStore τ φ) τ φ) (hs : Consistent c suffix s) (hf : AllFit c suffix cleanup s) :
    processTasks (builtinOps c suffix cleanup) cfg e fuel s = processTasks (idealOps c suffix cleanup) cfg e fuel s :=
  agree_processTasks (builtin_agree c suffix cleanup hc) cfg e fuel ((consistent_iff hc).1 hs)
    (allFit_ok hc ((consistent_iff hc).1 hs) hf)

/-- **C123, no interval run is lost** (C83): whatever the mixture of stores. -/
theorem C123_interval (hc : ∀ t, (c.enc t).isSome) (hE : E.Fixed) (tz : Nat) (cfg : Cfg Trig)
    (a i : String) (s s' : State (AnyStore Trig φ) Trig φ) (hs : Consistent c suffix s) (hi : Takes s a i) (t : T Trig φ)
    (ht : entry (builtinOps c suffix cleanup) s a i = some t) (g : Interval)
    (hg : t.body.trigger = .interval g) (hI : 0 < g.interval) (hj : g.jitter = none) (hco : t.body.coalesce = false)
    (r : Int) (hr : t.nrt = some r) (passes : List (Int × List Obs)) (T : Int) (hT : Latest passes T)
    (h : ServedBy c suffix cleanup cfg (fun e => ∃ draw, e.next = Trig.next E tz draw) a i t.body.executor s passes s') :
    ∃ n : Nat, reported a i passes = (List.range n).map (fun k : Nat => r + k * g.interval) ∧
      (∀ k : Nat, k < n ↔ r + k * g.interval ≤ T ∧ ∀ j : Nat, 0 < j → j ≤ k → g.WithinEnd E tz (r + j * g.interval)) ∧
      (NeverFull a i passes → executed a i passes = reported a i passes) := by
  rw [agree_entry (builtin_agree c suffix cleanup hc) hi] at ht
  exact C83_interval hE tz _ cfg a i s s' ((consistent_iff hc).1 hs) t ht g hg hI hj hco r hr passes T hT (servedBy_ideal hc h hs hi)

/-- **C123, no cron run is lost** (C83): whatever the mixture of stores. -/
theorem C123_cron (hc : ∀ t, (c.enc t).isSome) (hE : E.Fixed) (tz : Nat) (cfg : Cfg Trig)
    (a i : String) (s s' : State (AnyStore Trig φ) Trig φ) (hs : Consistent c suffix s) (hi : Takes s a i) (t : T Trig φ)
    (ht : entry (builtinOps c suffix cleanup) s a i = some t) (g : Cron.Trig)
    (hg : t.body.trigger = .cron g) (hwf : g.WfAll) (hj : g.jitter = none) (hco : t.body.coalesce = false)
    (r : Int) (hr : t.nrt = some r) (hcal : 0 ≤ ((E (g.zone tz)).loc r).1) (passes : List (Int × List Obs)) (T : Int) (hT : Latest passes T)
    (h : ServedBy c suffix cleanup cfg (fun e => ∃ draw, e.next = Trig.next E tz draw) a i t.body.executor s passes s') :
    (reported a i passes).Pairwise (· < ·) ∧
      (∀ u, u ∈ reported a i passes ↔ u ≤ T ∧ (u = r ∨ r < u ∧ Cron.FiresAt g.exprs (E (g.zone tz)) u ∧ g.WithinEnd E tz u)) ∧
      (NeverFull a i passes → executed a i passes = reported a i passes) := by
  rw [agree_entry (builtin_agree c suffix cleanup hc) hi] at ht
  exact C83_cron hE tz _ cfg a i s s' ((consistent_iff hc).1 hs) t ht g hg hwf hj hco r hr hcal passes T hT (servedBy_ideal hc h hs hi)

/-- **C123, from `add_task` on** (C84): an interval task added to a store that accepts its id. -/
theorem C123_added (hc : ∀ t, (c.enc t).isSome) (hE : E.Fixed) (tz : Nat) (cfg : Cfg Trig) (e : Env Trig)
    (he : ∃ draw, e.next = Trig.next E tz draw) (s s1 s' : State (AnyStore Trig φ) Trig φ) (t : T Trig φ) (replace : Bool)
    (hs : Consistent c suffix s) (hm : s.mode ≠ .stopped) (hi : Takes s t.body.store t.id)
    (hadd : addTask (builtinOps c suffix cleanup) e t none replace s = (s1, .ok ()))
    (ht : t.nrt = none) (g : Interval) (hg : t.body.trigger = .interval g) (hv : g.Valid) (hj : g.jitter = none)
    (hco : t.body.coalesce = false) (passes : List (Int × List Obs)) (T : Int) (hT : Latest passes T)
    (h : ServedBy c suffix cleanup cfg (fun e => ∃ draw, e.next = Trig.next E tz draw) t.body.store t.id t.body.executor s1 passes s') :
    (reported t.body.store t.id passes).Pairwise (· < ·) ∧
    (∀ u, u ∈ reported t.body.store t.id passes ↔
      (∃ k : Nat, u = (g.startDt tz).inst E + k * g.interval) ∧ e.now ≤ u ∧ u ≤ T ∧ g.WithinEnd E tz u) ∧
    (NeverFull t.body.store t.id passes → executed t.body.store t.id passes = reported t.body.store t.id passes) := by
  have hA := builtin_agree c suffix cleanup hc
  rw [agree_addTask hA e t none replace hi] at hadd
  have hw := (consistent_iff (cleanup := cleanup) hc).1 hs
  have hb : Begins (idealLawful c suffix cleanup hc) cfg e t s1 := .added hw hm hadd
  obtain ⟨_, _, hw1, _⟩ := hb.first ht
  have hi1 : Takes s1 t.body.store t.id := by
    have := (agree_realAddTask hA e { t with nrt := (none : Option (Option Int)).getD t.nrt } replace true none hi).2
    simp only [addTask, if_neg hm] at hadd
    have he : decide ((none : Option (Option Int)) ≠ some none) = true := by decide
    rw [he] at hadd
    rw [hadd] at this
    exact kinds_idOk this hi
  exact C84_interval hE tz _ cfg e he s1 s' t ht g hg hv hj hco hb passes T hT (servedBy_ideal hc h ((consistent_iff hc).2 hw1) hi1)

/-- **C123, after crashes** (C117): an interval task, whatever the mixture of stores.  (As in C117 the process dies between store calls; in the
middle of a write of the file store it may destroy the task, C118.) -/
theorem C123_recovered (hc : ∀ t, (c.enc t).isSome) (hE : E.Fixed) (tz : Nat) (cfg : Cfg Trig)
    (a i : String) (s s' : State (AnyStore Trig φ) Trig φ) (hs : Consistent c suffix s) (hi : Takes s a i) (t : T Trig φ)
    (ht : entry (builtinOps c suffix cleanup) s a i = some t) (g : Interval)
    (hg : t.body.trigger = .interval g) (hI : 0 < g.interval) (hj : g.jitter = none) (hco : t.body.coalesce = false)
    (r : Int) (hr : t.nrt = some r) (seen : List Seen)
    (h : RecoveredBy c suffix cleanup cfg (fun e => ∃ draw, e.next = Trig.next E tz draw) (fun s => count s i < t.body.maxInst) a i
      t.body.executor s seen s') :
    (∀ u, (handedOver a i seen).count u ≤ 1 + deaths seen) ∧
    (∀ u ∈ handedOver a i seen, ∃ k : Nat, u = r + k * g.interval) ∧
    ∀ k : Nat, (∀ j : Nat, 0 < j → j ≤ k → g.WithinEnd E tz (r + j * g.interval)) →
      (∃ p ∈ seen, p.complete = true ∧ r + k * g.interval ≤ p.now) → r + k * g.interval ∈ handedOver a i seen := by
  rw [agree_entry (builtin_agree c suffix cleanup hc) hi] at ht
  exact C117_interval hE tz _ cfg a i s s' ((consistent_iff hc).1 hs) t ht g hg hI hj hco r hr seen (recoveredBy_ideal hc h hs hi)

end
/-! ## Example: tasks in a file store and in Redis -/

def exBEvery : Interval := ⟨10, some 10, none, ⟨0, false, none⟩, none, none⟩

/-- the task of the example, every 10 µs -/
def exBTask (a : String) (r : Int) : T Trig Unit := ⟨"t", some r, ⟨.interval exBEvery, "x", a, false, 9, none, false, ()⟩⟩

/-- a file store and a Redis database with one task each -/
def exBState : State (AnyStore Trig Unit) Trig Unit :=
  { mode := .running, refs := 1, executors := [("x", 0)],
    stores := [("f", .inr (.inr (.inr (.inl ((Persist.File.step Persist.Prefixed.trigCodec ".t" [] (.add (exBTask "f" 5))).1))))),
      ("r", .inr (.inr (.inr (.inr ((Persist.Redis.step Persist.Prefixed.trigCodec Persist.Redis.init (.add (exBTask "r" 7))).1)))))],
    pending := [], instances := [], timer := none, woken := false, log := [] }

theorem exB_consistent : Consistent Persist.Prefixed.trigCodec ".t" exBState := by
  have hw : WF (idealLawful Persist.Prefixed.trigCodec ".t" false Persist.Prefixed.trigCodec_total) exBState := by
    refine ⟨(by decide : ["f", "r"].Nodup), fun a st h => ?_⟩
    simp only [exBState, Dict.get?] at h
    split at h
    · cases h
      have h1 := (Persist.File.any_step Persist.Prefixed.trigCodec_total (Persist.File.anyInv_nil Persist.Prefixed.trigCodec ".t")
        (.add (exBTask "f" 5))).1
      have h2 := (file_agree Persist.Prefixed.trigCodec ".t" false Persist.Prefixed.trigCodec_total).add [] (exBTask "f" 5) (by decide)
      exact congrArg Prod.fst h2 ▸ h1
    · split at h
      · cases h
        exact (Persist.Redis.any_step Persist.Prefixed.trigCodec_total (Persist.Redis.inv_init _) (.add (exBTask "r" 7))).1
      · cases h
  exact (consistent_iff _).2 hw

-- the hypotheses of `C123_interval` on the state
example : (entry (builtinOps Persist.Prefixed.trigCodec ".t" false) exBState "f" "t").map (·.nrt) = some (some 5) := by decide +kernel

/-- `Fits`, by computation -/
def fitsB : AnyStore Trig Unit → T Trig Unit → Bool
  | .inr (.inr (.inr (.inl _))), t => Persist.File.checkTaskId t.id
  | .inr (.inr (.inr (.inr _))), t => match t.nrt with | some r => decide (0 ≤ r) | none => true
  | _, _ => true

theorem allFit_of {s : State (AnyStore Trig Unit) Trig Unit}
    (h : (s.stores.all fun p => ((builtinOps Persist.Prefixed.trigCodec ".t" false).all p.2).all (fitsB p.2)) = true) :
    AllFit Persist.Prefixed.trigCodec ".t" false s := by
  intro a st hg t ht
  have h := List.all_eq_true.1 (List.all_eq_true.1 h _ (Dict.mem_of_get? hg)) t ht
  rcases st with st | st | st | st | st <;> simp only [fitsB, Fits] at h ⊢
  · exact h
  · intro r hr; rw [hr] at h; simpa using h

/-- the passes of the example, at the times given -/
def exBPasses (E : TzEnv) : List Int → State (AnyStore Trig Unit) Trig Unit →
    Option (List (Int × List Obs) × State (AnyStore Trig Unit) Trig Unit)
  | [], s => some ([], s)
  | now :: l, s =>
    if (s.stores.all fun p => ((builtinOps Persist.Prefixed.trigCodec ".t" false).all p.2).all (fitsB p.2)) = true ∧
      s.mode = .running ∧ (s.executors.get? "x").isSome = true then
      match processTasks (builtinOps Persist.Prefixed.trigCodec ".t" false) exTrigCfg (envAt E 0 now) 50 s with
      | some (s', .ok _) =>
        if s'.log = s.log ++ s'.log.drop s.log.length then
          (exBPasses E l s').map fun p => ((now, s'.log.drop s.log.length) :: p.1, p.2)
        else none
      | _ => none
    else none

theorem exBPasses_served {E : TzEnv} {a i : String} {l : List Int} {s s' : State (AnyStore Trig Unit) Trig Unit}
    {ps : List (Int × List Obs)} (h : exBPasses E l s = some (ps, s')) :
    ServedBy Persist.Prefixed.trigCodec ".t" false exTrigCfg (fun e => ∃ draw, e.next = Trig.next E 0 draw) a i "x" s ps s' := by
  induction l generalizing s ps with
  | nil => simp only [exBPasses, Option.some.injEq, Prod.mk.injEq] at h; rw [← h.1, ← h.2]; exact .done s
  | cons now l ih =>
    rw [exBPasses] at h
    split at h
    · rename_i hm
      split at h
      · rename_i s1 w hp
        split at h
        · rename_i hlog
          cases hr : exBPasses E l s1 with
          | none => rw [hr] at h; cases h
          | some p =>
            rw [hr] at h
            simp only [Option.map_some, Option.some.injEq, Prod.mk.injEq] at h
            obtain ⟨rfl, rfl⟩ := h
            exact .pass (e := envAt E 0 now) (allFit_of hm.1) hm.2.1 ⟨_, rfl⟩ ⟨rfl, rfl, rfl⟩ ⟨hm.2.2, rfl⟩ hp hlog (ih hr)
        · cases h
      · cases h
    · cases h

-- both stores are served: the passes at 12 and 33 hand over what is due in the file store and in Redis
example : (exBPasses exEnv [12, 33] exBState).map (fun p => (reported "f" "t" p.1, executed "r" "t" p.1,
      (entry (builtinOps Persist.Prefixed.trigCodec ".t" false) p.2 "f" "t").map (·.nrt))) =
    some ([5, 15, 25], [7, 17, 27], some (some 35)) := by decide +kernel

/-- the task of a Redis store has a time before 1970 -/
def exBOld : State (AnyStore Trig Unit) Trig Unit :=
  { exBState with stores := [("r",
      .inr (.inr (.inr (.inr ((Persist.Redis.step Persist.Prefixed.trigCodec Persist.Redis.init (.add (exBTask "r" (-7)))).1)))))] }

/-- **C123 fails in Redis for a time before 1970**: the pass at 12 finds a task due since -7, does nothing with it, and asks to be called
again at once; the same holds after it, so the scheduler never comes to rest and the task never runs.  (In the file store the task runs,
`C123_interval`.) -/
theorem C123_redis_witness :
    ∃ s', processTasks (builtinOps Persist.Prefixed.trigCodec ".t" false) exTrigCfg (envAt exEnv 0 12) 50 exBOld = some (s', .ok (some 0)) ∧
      s'.log = [] ∧ s'.stores = exBOld.stores := by
  exact ⟨exBOld, rfl, rfl, rfl⟩

end Sched
end Asyncz
