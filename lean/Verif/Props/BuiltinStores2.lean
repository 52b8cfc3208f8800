import Verif.Props.BuiltinStores
import Verif.Props.CalmRun
/-!
# C123, continued: any trigger, coalescing, cron and date triggers, zones with clock changes

The theorems of C83, C84, C117 and C121 for a scheduler with any mixture of the five built-in stores as the code is.
-/
namespace Asyncz
namespace Sched

section
variable {τ φ : Type} {c : Persist.Codec (Body τ φ)} {suffix : String} {cleanup : Bool}

/-- What `add_task` on a running (or paused) scheduler does on the five stores it does on maps of tasks. -/
theorem added_begins (hc : ∀ t, (c.enc t).isSome) (cfg : Cfg τ) {e : Env τ} {s s1 : State (AnyStore τ φ) τ φ} {t : T τ φ} {replace : Bool}
    (hs : Consistent c suffix s) (hm : s.mode ≠ .stopped) (hi : Takes s t.body.store t.id) (ht : t.nrt = none)
    (hadd : addTask (builtinOps c suffix cleanup) e t none replace s = (s1, .ok ())) :
    Begins (idealLawful c suffix cleanup hc) cfg e t s1 ∧ Consistent c suffix s1 ∧ Takes s1 t.body.store t.id := by
  have hA := builtin_agree c suffix cleanup hc
  rw [agree_addTask hA e t none replace hi] at hadd
  have hw := (consistent_iff (cleanup := cleanup) hc).1 hs
  have hb : Begins (idealLawful c suffix cleanup hc) cfg e t s1 := .added hw hm hadd
  obtain ⟨_, _, hw1, _⟩ := hb.first ht
  refine ⟨hb, (consistent_iff hc).2 hw1, ?_⟩
  have := (agree_realAddTask hA e { t with nrt := (none : Option (Option Int)).getD t.nrt } replace true none hi).2
  simp only [addTask, if_neg hm] at hadd
  have he : decide ((none : Option (Option Int)) ≠ some none) = true := by decide
  rw [he] at hadd
  rw [hadd] at this
  exact kinds_idOk this hi

/-- the entry shown by stores in a state that `ServedBy` ends in -/
theorem served_takes (hc : ∀ t, (c.enc t).isSome) {cfg : Cfg τ} {Good : Env τ → Prop} {a i x : String} {s s' : State (AnyStore τ φ) τ φ} {ps : List (Int × List Obs)}
    (h : ServedBy c suffix cleanup cfg Good a i x s ps s') (hw : Consistent c suffix s) (ht : Takes s a i) : Takes s' a i := by
  have hA := builtin_agree c suffix cleanup hc
  induction h with
  | done s => exact ht
  | pass hfit hm hg hl hx h hlog _ ih =>
    have hw' := (consistent_iff (cleanup := cleanup) hc).1 hw
    rw [agree_processTasks hA cfg _ _ hw' (allFit_ok hc hw' hfit)] at h
    exact ih ((consistent_iff hc).2 (wf_processTasks hw' h)) (kinds_idOk (rel_processTasks (kinds_passRel hA _) h) ht)
  | other hc' ht' he _ ih => exact ih hc' ht'

theorem recovered_takes (hc : ∀ t, (c.enc t).isSome) {cfg : Cfg τ} {Good : Env τ → Prop} {Room : State (AnyStore τ φ) τ φ → Prop} {a i x : String}
    {s s' : State (AnyStore τ φ) τ φ} {seen : List Seen} (h : RecoveredBy c suffix cleanup cfg Good Room a i x s seen s')
    (hw : Consistent c suffix s) (ht : Takes s a i) : Takes s' a i := by
  have hA := builtin_agree c suffix cleanup hc
  induction h with
  | done s => exact ht
  | pass hfit hm hg hl hx h hlog hroom _ ih =>
    have hw' := (consistent_iff (cleanup := cleanup) hc).1 hw
    rw [agree_processTasks hA cfg _ _ hw' (allFit_ok hc hw' hfit)] at h
    exact ih ((consistent_iff hc).2 (wf_processTasks hw' h)) (kinds_idOk (rel_processTasks (kinds_passRel hA _) h) ht)
  | @crash s s' s1 s'' e e1 fuel p obs rest executors pending paused hfit hm hg hl hx h hlog hroom hacc hp hgone hs _ ih =>
    have hw' := (consistent_iff (cleanup := cleanup) hc).1 hw
    rw [agree_crashPass hA cfg _ _ _ hw' (allFit_ok hc hw' hfit)] at h
    have ht1 : Takes s' a i := kinds_idOk (kinds_crashPass hA _ _ _ _ h) ht
    obtain ⟨_, _, hw1, _⟩ := crashPass_task (ans := fun _ => .ok none) (idealLawful c suffix cleanup hc) hw' hm a i hl h
    have hpend : ∀ q ∈ (newProcess executors pending s').pending,
        IdOk Accepts (newProcess executors pending s') q.1.body.store q.1.id := hacc
    rw [agree_entry hA ht1] at hgone
    have hi : ∀ j, Accepts (idealOps c suffix cleanup).init j := fun _ => trivial
    rw [agree_start hA hi cfg e1 paused hpend] at hs
    have hw2 := (restart_entry _ hw1 a i hp hgone hs).1
    have ht2 := idOk_start hA hi cfg e1 paused hpend (a := a) (i := i) ht1
    rw [hs] at ht2
    exact ih ((consistent_iff hc).2 hw2) ht2
  | other hc' ht' he _ ih => exact ih hc' ht'

variable {ans : Int → Except Exc (Option Int)}

/-- **C123, every trigger whose answers go forward, with or without coalescing** (C83): over any history, on any mixture of stores, the
times dealt with are the trigger's successive times without a gap; each group was reported once, what was submitted was handed over,
and the task's next run time is the one that follows, or the task is gone because there is none. -/
theorem C123_none_lost (hc : ∀ t, (c.enc t).isSome) (cfg : Cfg τ) (a i : String) (s s' : State (AnyStore τ φ) τ φ) (hs : Consistent c suffix s)
    (hi : Takes s a i) (t : T τ φ) (ht : entry (builtinOps c suffix cleanup) s a i = some t) (r : Int) (hr : t.nrt = some r) (lo : Int)
    (hlo : lo ≤ r) (hf : Forward lo ans) (passes : List (Int × List Obs))
    (h : ServedBy c suffix cleanup cfg (Regular t.body.trigger lo ans) a i t.body.executor s passes s') :
    ∃ gs : List (Bool × List Int), ∃ after, Answered ans (some r) (gs.flatMap (·.2)) after ∧
      entry (builtinOps c suffix cleanup) s' a i = after.map (fun n => { t with nrt := some n }) ∧
      (∀ p ∈ passes, ∀ q, after = some q → p.1 < q) ∧
      (∀ x ∈ gs.flatMap (·.2), ∃ p ∈ passes, x ≤ p.1) ∧
      passes.flatMap (fun p => submissionEvents a i p.2) = gs.map (report a i t.body.coalesce) ∧
      passes.flatMap (fun p => sends a i p.2) =
        (gs.filter (·.1)).map (fun g => (t.body.executor, handed t.body.coalesce g.2)) ∧
      ∀ g ∈ gs, g.2 ≠ [] := by
  have hA := builtin_agree c suffix cleanup hc
  rw [agree_entry hA (served_takes hc h hs hi)]
  rw [agree_entry hA hi] at ht
  exact C83_none_lost _ cfg a i s s' ((consistent_iff hc).1 hs) t ht r hr lo hlo hf passes (servedBy_ideal hc h hs hi)

/-- **C123, every trigger whose answers go forward, after crashes** (C117). -/
theorem C123_recovery (hc : ∀ t, (c.enc t).isSome) (cfg : Cfg τ) (Room : State (AnyStore τ φ) τ φ → Prop) (a i : String)
    (s s' : State (AnyStore τ φ) τ φ) (hs : Consistent c suffix s) (hi : Takes s a i) (t : T τ φ)
    (ht : entry (builtinOps c suffix cleanup) s a i = some t) (r : Int) (hr : t.nrt = some r) (lo : Int) (hlo : lo ≤ r) (hf : Forward lo ans)
    (seen : List Seen) (h : RecoveredBy c suffix cleanup cfg (Regular t.body.trigger lo ans) Room a i t.body.executor s seen s') :
    (∀ u, (handedOver a i seen).count u ≤ 1 + deaths seen) ∧
    (∀ u ∈ handedOver a i seen, Successor ans r u ∧ ∃ p ∈ seen, u ≤ p.now) ∧
    ((∀ s, Room s → count s i < t.body.maxInst) → ∀ u, Successor ans r u → (∃ p ∈ seen, p.complete = true ∧ u ≤ p.now) →
      if t.body.coalesce = true then ∃ v ∈ handedOver a i seen, u ≤ v else u ∈ handedOver a i seen) ∧
    ∃ after, entry (builtinOps c suffix cleanup) s' a i = after.map (fun n => { t with nrt := some n }) ∧
      (∀ n, after = some n → Successor ans r n ∧ ∀ p ∈ seen, p.complete = true → p.now < n) ∧
      (after = none → ∃ u, Successor ans r u ∧ ans u = .ok none) := by
  have hA := builtin_agree c suffix cleanup hc
  rw [agree_entry hA (recovered_takes hc h hs hi)]
  rw [agree_entry hA hi] at ht
  exact C117_recovery _ cfg Room a i s s' ((consistent_iff hc).1 hs) t ht r hr lo hlo hf seen (recoveredBy_ideal hc h hs hi)

end

section
variable {φ : Type} {c : Persist.Codec (Body Trig φ)} {suffix : String} {cleanup : Bool} {E : TzEnv} {lo hi : Int}

/-- **C123, a cron task from `add_task` on** (C84). -/
theorem C123_added_cron (hc : ∀ t, (c.enc t).isSome) (hE : E.Fixed) (tz : Nat) (cfg : Cfg Trig) (e : Env Trig)
    (he : ∃ draw, e.next = Trig.next E tz draw) (s s1 s' : State (AnyStore Trig φ) Trig φ) (t : T Trig φ) (replace : Bool)
    (hs : Consistent c suffix s) (hm : s.mode ≠ .stopped) (hi : Takes s t.body.store t.id)
    (hadd : addTask (builtinOps c suffix cleanup) e t none replace s = (s1, .ok ()))
    (ht : t.nrt = none) (g : Cron.Trig) (hg : t.body.trigger = .cron g) (hwf : g.WfAll) (hj : g.jitter = none)
    (hcal : 0 ≤ ((E (g.zone tz)).loc e.now).1) (hco : t.body.coalesce = false) (passes : List (Int × List Obs)) (T : Int) (hT : Latest passes T)
    (h : ServedBy c suffix cleanup cfg (fun e => ∃ draw, e.next = Trig.next E tz draw) t.body.store t.id t.body.executor s1 passes s') :
    (reported t.body.store t.id passes).Pairwise (· < ·) ∧
    (∀ u, u ∈ reported t.body.store t.id passes ↔
      Cron.FiresAt g.exprs (E (g.zone tz)) u ∧ e.now ≤ u ∧ (∀ st, g.start = some st → (st.withTz (g.zone tz)).inst E ≤ u) ∧
      u ≤ T ∧ g.WithinEnd E tz u) ∧
    (NeverFull t.body.store t.id passes → executed t.body.store t.id passes = reported t.body.store t.id passes) := by
  obtain ⟨hb, hs1, hi1⟩ := added_begins hc cfg hs hm hi ht hadd
  exact C84_cron hE tz _ cfg e he s1 s' t ht g hg hwf hj hcal hco hb passes T hT (servedBy_ideal hc h hs1 hi1)

/-- **C123, a date task from `add_task` on** (C84), in every zone. -/
theorem C123_added_date (hc : ∀ t, (c.enc t).isSome) (tz : Nat) (hE : (E tz).Lawful) (cfg : Cfg Trig) (e : Env Trig)
    (he : ∃ draw, e.next = Trig.next E tz draw) (s s1 s' : State (AnyStore Trig φ) Trig φ) (t : T Trig φ) (replace : Bool)
    (hs : Consistent c suffix s) (hm : s.mode ≠ .stopped) (hi : Takes s t.body.store t.id)
    (hadd : addTask (builtinOps c suffix cleanup) e t none replace s = (s1, .ok ()))
    (ht : t.nrt = none) (g : DateTrig) (hg : t.body.trigger = .date g) (passes : List (Int × List Obs)) (T : Int) (hT : Latest passes T)
    (h : ServedBy c suffix cleanup cfg (fun e => ∃ draw, e.next = Trig.next E tz draw) t.body.store t.id t.body.executor s1 passes s') :
    reported t.body.store t.id passes = (if g.runAt.inst E ≤ T then [g.runAt.inst E] else []) ∧
    (entry (builtinOps c suffix cleanup) s' t.body.store t.id = none ↔ g.runAt.inst E ≤ T) ∧
    (NeverFull t.body.store t.id passes → executed t.body.store t.id passes = reported t.body.store t.id passes) := by
  obtain ⟨hb, hs1, hi1⟩ := added_begins hc cfg hs hm hi ht hadd
  rw [agree_entry (builtin_agree c suffix cleanup hc) (served_takes hc h hs1 hi1)]
  exact C84_date tz hE _ cfg e he s1 s' t ht g hg hb passes T hT (servedBy_ideal hc h hs1 hi1)

/-- **C123, a cron task after crashes** (C117). -/
theorem C123_recovered_cron (hc : ∀ t, (c.enc t).isSome) (hE : E.Fixed) (tz : Nat) (cfg : Cfg Trig)
    (a i : String) (s s' : State (AnyStore Trig φ) Trig φ) (hs : Consistent c suffix s) (hi : Takes s a i) (t : T Trig φ)
    (ht : entry (builtinOps c suffix cleanup) s a i = some t) (g : Cron.Trig)
    (hg : t.body.trigger = .cron g) (hwf : g.WfAll) (hj : g.jitter = none) (hco : t.body.coalesce = false)
    (r : Int) (hr : t.nrt = some r) (hcal : 0 ≤ ((E (g.zone tz)).loc r).1) (seen : List Seen)
    (h : RecoveredBy c suffix cleanup cfg (fun e => ∃ draw, e.next = Trig.next E tz draw) (fun s => count s i < t.body.maxInst) a i
      t.body.executor s seen s') :
    (∀ u, (handedOver a i seen).count u ≤ 1 + deaths seen) ∧
    (∀ u ∈ handedOver a i seen, u = r ∨ r < u ∧ Cron.FiresAt g.exprs (E (g.zone tz)) u ∧ g.WithinEnd E tz u) ∧
    ∀ u, (u = r ∨ r < u ∧ Cron.FiresAt g.exprs (E (g.zone tz)) u ∧ g.WithinEnd E tz u) →
      (∃ p ∈ seen, p.complete = true ∧ u ≤ p.now) → u ∈ handedOver a i seen := by
  rw [agree_entry (builtin_agree c suffix cleanup hc) hi] at ht
  exact C117_cron hE tz _ cfg a i s s' ((consistent_iff hc).1 hs) t ht g hg hwf hj hco r hr hcal seen (recoveredBy_ideal hc h hs hi)

/-- **C123, in zones with clock changes** (C121): an interval task, over a period in which no clock is changed. -/
theorem C123_calm_interval (hc : ∀ t, (c.enc t).isSome) (hS : E.Steady lo hi) (tz : Nat) (cfg : Cfg Trig)
    (a i : String) (s s' : State (AnyStore Trig φ) Trig φ) (hs : Consistent c suffix s) (hi' : Takes s a i) (t : T Trig φ)
    (ht : entry (builtinOps c suffix cleanup) s a i = some t) (g : Interval)
    (hg : t.body.trigger = .interval g) (hv : g.Valid) (hj : g.jitter = none) (hco : t.body.coalesce = false)
    (hst : ∀ s, g.stopDt tz = some s → s.Clear E lo hi)
    (r : Int) (hr : t.nrt = some r) (hlo : lo ≤ r) (passes : List (Int × List Obs)) (T : Int) (hT : Latest passes T) (hhi : T + g.interval ≤ hi)
    (h : ServedBy c suffix cleanup cfg (fun e => ∃ draw, e.next = Trig.next E tz draw) a i t.body.executor s passes s') :
    ∃ n : Nat, reported a i passes = (List.range n).map (fun k : Nat => r + k * g.interval) ∧
      (∀ k : Nat, k < n ↔ r + k * g.interval ≤ T ∧ ∀ j : Nat, 0 < j → j ≤ k → g.WithinEnd E tz (r + j * g.interval)) ∧
      (NeverFull a i passes → executed a i passes = reported a i passes) := by
  rw [agree_entry (builtin_agree c suffix cleanup hc) hi'] at ht
  exact C121_interval hS tz _ cfg a i s s' ((consistent_iff hc).1 hs) t ht g hg hv hj hco hst r hr hlo passes T hT hhi
    (servedBy_ideal hc h hs hi')

/-- **C123, in zones with clock changes** (C121): a cron task, over a period in which no clock is changed. -/
theorem C123_calm_cron (hc : ∀ t, (c.enc t).isSome) (hS : E.Steady lo hi) (tz : Nat) (cfg : Cfg Trig)
    (a i : String) (s s' : State (AnyStore Trig φ) Trig φ) (hs : Consistent c suffix s) (hi' : Takes s a i) (t : T Trig φ)
    (ht : entry (builtinOps c suffix cleanup) s a i = some t) (g : Cron.Trig)
    (hg : t.body.trigger = .cron g) (hwf : g.WfAll) (hj : g.jitter = none) (hco : t.body.coalesce = false)
    (hE : (E (g.zone tz)).Lawful) (hcal : 0 ≤ ((E (g.zone tz)).loc lo).1) (hst : ∀ s, g.stopDt tz = some s → s.Clear E lo hi)
    (r : Int) (hr : t.nrt = some r) (hlo : lo ≤ r) (passes : List (Int × List Obs)) (T : Int) (hT : Latest passes T)
    (v : Int) (hv : Cron.FiresAt g.exprs (E (g.zone tz)) v) (hTv : T < v) (hvhi : v ≤ hi) (hve : g.WithinEnd E tz v)
    (h : ServedBy c suffix cleanup cfg (fun e => ∃ draw, e.next = Trig.next E tz draw) a i t.body.executor s passes s') :
    (reported a i passes).Pairwise (· < ·) ∧
      (∀ u, u ∈ reported a i passes ↔ u ≤ T ∧ (u = r ∨ r < u ∧ Cron.FiresAt g.exprs (E (g.zone tz)) u)) ∧
      (NeverFull a i passes → executed a i passes = reported a i passes) := by
  rw [agree_entry (builtin_agree c suffix cleanup hc) hi'] at ht
  exact C121_cron hS tz _ cfg a i s s' ((consistent_iff hc).1 hs) t ht g hg hwf hj hco hE hcal hst r hr hlo passes T hT v hv hTv hvhi hve
    (servedBy_ideal hc h hs hi')

end

/-! ## Examples -/

/-- a date task for a Redis store -/
def exBDate : T Trig Unit := ⟨"d", none, ⟨.date ⟨⟨20, false, 0⟩⟩, "x", "r", true, 9, none, false, ()⟩⟩

/-- the file store and Redis of `exBState`, and the date task added at 3 -/
def exBAdded : State (AnyStore Trig Unit) Trig Unit × Except Err Unit :=
  addTask (builtinOps Persist.Prefixed.trigCodec ".t" false) (envAt exEnv 0 3) exBDate none false exBState

-- the hypotheses of `C123_added_date`, and a history that it is about: the pass at 12 does not run it, the one at 33 does, and it is gone
example : exBState.mode ≠ .stopped ∧ exBAdded.2.isOk = true := by decide +kernel
example : Takes exBState exBDate.body.store exBDate.id := by
  intro st h
  simp only [exBState, exBDate, Dict.get?] at h
  split at h
  · rename_i h'; exact absurd h' (by decide)
  · cases h; trivial
example : (exBPasses exEnv [12, 33] exBAdded.1).map (fun p => (reported "r" "d" p.1, executed "f" "t" p.1,
      (entry (builtinOps Persist.Prefixed.trigCodec ".t" false) p.2 "r" "d").isNone)) =
    some ([20], [5, 15, 25], true) := by decide +kernel
example : (exBPasses exEnv [12] exBAdded.1).map (fun p => (reported "r" "d" p.1,
      (entry (builtinOps Persist.Prefixed.trigCodec ".t" false) p.2 "r" "d").isNone)) = some ([], false) := by decide +kernel

end Sched
end Asyncz
