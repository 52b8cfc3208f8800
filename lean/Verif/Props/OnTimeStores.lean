import Verif.Props.OnTime
import Verif.Props.BuiltinStores2
/-!
# C125 over the built-in stores

What `Props/OnTime.lean` proves for lawful stores, for a scheduler with any mixture of the five built-in stores as the code is (C123).
-/
namespace Asyncz
namespace Sched

section
variable {τ φ : Type}

/-- `Driven`, for the stores as the code has them: at each pass the tasks in the stores fit there.  (Between the passes: anything at all
that leaves this task alone and the stores consistent.) -/
inductive DrivenBy (c : Persist.Codec (Body τ φ)) (suffix : String) (cleanup : Bool) (cfg : Cfg τ) (Good : Env τ → Prop) (ℓ b : Int)
    (a i x : String) (s0 : State (AnyStore τ φ) τ φ) : Int → State (AnyStore τ φ) τ φ → Option Int → List Turn → Prop
  | start : DrivenBy c suffix cleanup cfg Good ℓ b a i x s0 b s0 (if s0.woken then some (b + ℓ) else s0.timer.map (· + ℓ)) []
  | other {n n' : Int} {s s' : State (AnyStore τ φ) τ φ} {dl : Option Int} {ps : List Turn}
      (hs : DrivenBy c suffix cleanup cfg Good ℓ b a i x s0 n s dl ps) (hn : n ≤ n') (hdl : ∀ d, dl = some d → n' ≤ d)
      (hc : Consistent c suffix s') (ht : Takes s' a i) (hm : s'.mode = .running)
      (he : entry (builtinOps c suffix cleanup) s' a i = entry (builtinOps c suffix cleanup) s a i) :
      DrivenBy c suffix cleanup cfg Good ℓ b a i x s0 n' s' (dl.or (if s'.woken then some (n' + ℓ) else none)) ps
  | pass {n : Int} {s s' : State (AnyStore τ φ) τ φ} {dl : Option Int} {ps : List Turn} {e : Env τ} {fuel : Nat} {obs : List Obs}
      (hs : DrivenBy c suffix cleanup cfg Good ℓ b a i x s0 n s dl ps) (hn : n ≤ e.now) (hdl : ∀ d, dl = some d → e.now ≤ d) (hg : Good e)
      (hfit : AllFit c suffix cleanup s) (hl : e.procLock = true ∧ e.storeLock a = true ∧ e.dueOk a = true)
      (hx : (s.executors.get? x).isSome = true ∧ e.sendOk x i = true)
      (h : tick (builtinOps c suffix cleanup) cfg e fuel s = some (s', .ok ())) (hlog : s'.log = s.log ++ obs) :
      DrivenBy c suffix cleanup cfg Good ℓ b a i x s0 e.now s' (s'.timer.map (· + ℓ)) (ps ++ [⟨true, e.now, obs⟩])
  | blocked {n : Int} {s s' : State (AnyStore τ φ) τ φ} {dl : Option Int} {ps : List Turn} {e : Env τ} {fuel : Nat} {obs : List Obs}
      (hs : DrivenBy c suffix cleanup cfg Good ℓ b a i x s0 n s dl ps) (hn : n ≤ e.now) (hdl : ∀ d, dl = some d → e.now ≤ d)
      (hfit : AllFit c suffix cleanup s) (hl : e.procLock = false ∨ e.storeLock a = false ∨ e.dueOk a = false)
      (h : tick (builtinOps c suffix cleanup) cfg e fuel s = some (s', .ok ())) (hlog : s'.log = s.log ++ obs) :
      DrivenBy c suffix cleanup cfg Good ℓ b a i x s0 e.now s' (s'.timer.map (· + ℓ)) (ps ++ [⟨false, e.now, obs⟩])

variable {c : Persist.Codec (Body τ φ)} {suffix : String} {cleanup : Bool}

theorem tick_ideal (hc : ∀ t, (c.enc t).isSome) {cfg : Cfg τ} {e : Env τ} {fuel : Nat} {s : State (AnyStore τ φ) τ φ} (hw : Consistent c suffix s)
    (hf : AllFit c suffix cleanup s) :
    tick (builtinOps c suffix cleanup) cfg e fuel s = tick (idealOps c suffix cleanup) cfg e fuel s := by
  have hw' := (consistent_iff (cleanup := cleanup) hc).1 hw
  have := agree_processTasks (builtin_agree c suffix cleanup hc) cfg e fuel (s := { s with woken := false, timer := none })
    (hw'.congr rfl) (allFit_ok hc (hw'.congr rfl) hf)
  simp only [tick, this]

theorem tick_takes (hc : ∀ t, (c.enc t).isSome) {cfg : Cfg τ} {e : Env τ} {fuel : Nat} {s s' : State (AnyStore τ φ) τ φ} {a i : String} (ht : Takes s a i)
    (h : tick (idealOps c suffix cleanup) cfg e fuel s = some (s', .ok ())) : Takes s' a i := by
  obtain ⟨s1, w, h1, rfl⟩ := tick_pass h
  exact kinds_idOk (s := { s with woken := false, timer := none }) (s' := s1)
    (rel_processTasks (kinds_passRel (builtin_agree c suffix cleanup hc) _) h1) ht

theorem drivenBy_ideal (hc : ∀ t, (c.enc t).isSome) {cfg : Cfg τ} {Good : Env τ → Prop} {ℓ b : Int} {a i x : String} {s0 s : State (AnyStore τ φ) τ φ} {n : Int}
    {dl : Option Int} {ps : List Turn} (h : DrivenBy c suffix cleanup cfg Good ℓ b a i x s0 n s dl ps) (hw : Consistent c suffix s0)
    (ht : Takes s0 a i) :
    Driven (idealLawful c suffix cleanup hc) cfg Good ℓ b a i x s0 n s dl ps ∧ Consistent c suffix s ∧ Takes s a i := by
  have hA := builtin_agree c suffix cleanup hc
  induction h with
  | start => exact ⟨.start, hw, ht⟩
  | other _ hn hdl hc' ht' hm he ih =>
    obtain ⟨h1, h2, h3⟩ := ih
    refine ⟨.other h1 hn hdl ((consistent_iff hc).1 hc') hm ?_, hc', ht'⟩
    rw [← agree_entry hA ht', ← agree_entry hA h3]; exact he
  | pass _ hn hdl hg hfit hl hx h hlog ih =>
    obtain ⟨h1, h2, h3⟩ := ih
    rw [tick_ideal hc h2 hfit] at h
    exact ⟨.pass h1 hn hdl hg hl hx h hlog, (consistent_iff hc).2 (wf_tick ((consistent_iff hc).1 h2) h), tick_takes hc h3 h⟩
  | blocked _ hn hdl hfit hl h hlog ih =>
    obtain ⟨h1, h2, h3⟩ := ih
    rw [tick_ideal hc h2 hfit] at h
    exact ⟨.blocked h1 hn hdl hl h hlog, (consistent_iff hc).2 (wf_tick ((consistent_iff hc).1 h2) h), tick_takes hc h3 h⟩

theorem told_ideal (hc : ∀ t, (c.enc t).isSome) {T : Int} {s : State (AnyStore τ φ) τ φ} {a i : String} (ht : Takes s a i) :
    Told (builtinOps c suffix cleanup) T s a i ↔ Told (idealOps c suffix cleanup) T s a i := by
  simp only [Told, agree_entry (builtin_agree c suffix cleanup hc) ht]

variable {ans : Int → Except Exc (Option Int)}

/-- **C125, any mixture of built-in stores**, every trigger whose answers go forward, with or without coalescing. -/
theorem C125_stores (hc : ∀ t, (c.enc t).isSome) (cfg : Cfg τ) (hri : 0 ≤ cfg.retryInterval) (δ ℓ b : Int) (hδ : 0 ≤ δ) (hℓ : 0 ≤ ℓ) (a i : String)
    (s0 : State (AnyStore τ φ) τ φ) (hs : Consistent c suffix s0) (hi : Takes s0 a i) (h0 : Told (builtinOps c suffix cleanup) (b + δ) s0 a i)
    (hm : s0.mode = .running) (t : T τ φ) (ht : entry (builtinOps c suffix cleanup) s0 a i = some t)
    (r : Int) (hr : t.nrt = some r) (lo : Int) (hlo : lo ≤ r) (hf : Forward lo ans)
    (n : Int) (s : State (AnyStore τ φ) τ φ) (dl : Option Int) (turns : List Turn)
    (h : DrivenBy c suffix cleanup cfg (Regular t.body.trigger lo ans) ℓ b a i t.body.executor s0 n s dl turns) :
    (∀ u, (turns.flatMap (reportedIn a i)).count u ≤ 1) ∧
    (∀ p ∈ turns, ∀ v ∈ reportedIn a i p, Successor ans r v ∧ v ≤ p.now ∧ InTime cfg.retryInterval ℓ b δ turns v p.now) ∧
    (∀ u, Successor ans r u → ¬ InTime cfg.retryInterval ℓ b δ turns u n →
      ∃ p ∈ turns, p.served = true ∧ u ≤ p.now ∧ InTime cfg.retryInterval ℓ b δ turns u p.now ∧
        ∃ v ∈ reportedIn a i p, u ≤ v ∧ (t.body.coalesce = false → v = u)) ∧
    ∀ p ∈ turns, (∀ ts k m, Obs.taskMaxInstances i a ts k m ∉ p.obs) → (submitted a i p.obs).flatten = reportedIn a i p := by
  rw [agree_entry (builtin_agree c suffix cleanup hc) hi] at ht
  exact C125_general _ cfg hri δ ℓ b hδ hℓ a i s0 ((consistent_iff hc).1 hs) ((told_ideal hc hi).1 h0) hm t ht r hr lo hlo hf n s dl turns
    (drivenBy_ideal hc h hs hi).1

end

section
variable {φ : Type} {c : Persist.Codec (Body Trig φ)} {suffix : String} {cleanup : Bool} {E : TzEnv} {lo hi : Int}

/-- **C125, any mixture of built-in stores, interval triggers**, in zones of constant offset. -/
theorem C125_stores_interval (hc : ∀ t, (c.enc t).isSome) (hE : E.Fixed) (tz : Nat) (cfg : Cfg Trig) (hri : 0 ≤ cfg.retryInterval)
    (δ ℓ b : Int) (hδ : 0 ≤ δ) (hℓ : 0 ≤ ℓ) (a i : String) (s0 : State (AnyStore Trig φ) Trig φ) (hs : Consistent c suffix s0)
    (hi : Takes s0 a i) (h0 : Told (builtinOps c suffix cleanup) (b + δ) s0 a i) (hm : s0.mode = .running) (t : T Trig φ)
    (ht : entry (builtinOps c suffix cleanup) s0 a i = some t) (g : Interval) (hg : t.body.trigger = .interval g) (hI : 0 < g.interval)
    (hj : g.jitter = none) (hco : t.body.coalesce = false) (r : Int) (hr : t.nrt = some r)
    (n : Int) (s : State (AnyStore Trig φ) Trig φ) (dl : Option Int) (turns : List Turn)
    (h : DrivenBy c suffix cleanup cfg (fun e => ∃ draw, e.next = Trig.next E tz draw) ℓ b a i t.body.executor s0 n s dl turns) :
    RunsOnTime cfg.retryInterval ℓ b δ a i
      (fun u => ∃ k : Nat, u = r + k * g.interval ∧ ∀ j : Nat, 0 < j → j ≤ k → g.WithinEnd E tz (r + j * g.interval)) n turns := by
  rw [agree_entry (builtin_agree c suffix cleanup hc) hi] at ht
  exact C125_interval hE tz _ cfg hri δ ℓ b hδ hℓ a i s0 ((consistent_iff hc).1 hs) ((told_ideal hc hi).1 h0) hm t ht g hg hI hj hco r hr
    n s dl turns (drivenBy_ideal hc h hs hi).1

/-- **C125, any mixture of built-in stores, cron triggers**, in zones of constant offset. -/
theorem C125_stores_cron (hc : ∀ t, (c.enc t).isSome) (hE : E.Fixed) (tz : Nat) (cfg : Cfg Trig) (hri : 0 ≤ cfg.retryInterval)
    (δ ℓ b : Int) (hδ : 0 ≤ δ) (hℓ : 0 ≤ ℓ) (a i : String) (s0 : State (AnyStore Trig φ) Trig φ) (hs : Consistent c suffix s0)
    (hi : Takes s0 a i) (h0 : Told (builtinOps c suffix cleanup) (b + δ) s0 a i) (hm : s0.mode = .running) (t : T Trig φ)
    (ht : entry (builtinOps c suffix cleanup) s0 a i = some t) (g : Cron.Trig) (hg : t.body.trigger = .cron g) (hwf : g.WfAll)
    (hj : g.jitter = none) (hco : t.body.coalesce = false) (r : Int) (hr : t.nrt = some r) (hcal : 0 ≤ ((E (g.zone tz)).loc r).1)
    (n : Int) (s : State (AnyStore Trig φ) Trig φ) (dl : Option Int) (turns : List Turn)
    (h : DrivenBy c suffix cleanup cfg (fun e => ∃ draw, e.next = Trig.next E tz draw) ℓ b a i t.body.executor s0 n s dl turns) :
    RunsOnTime cfg.retryInterval ℓ b δ a i
      (fun u => u = r ∨ r < u ∧ Cron.FiresAt g.exprs (E (g.zone tz)) u ∧ g.WithinEnd E tz u) n turns := by
  rw [agree_entry (builtin_agree c suffix cleanup hc) hi] at ht
  exact C125_cron hE tz _ cfg hri δ ℓ b hδ hℓ a i s0 ((consistent_iff hc).1 hs) ((told_ideal hc hi).1 h0) hm t ht g hg hwf hj hco r hr hcal
    n s dl turns (drivenBy_ideal hc h hs hi).1

/-- **C125, any mixture of built-in stores, interval triggers from `add_task` on**, in any time zones over a period without a change of
the clocks. -/
theorem C125_stores_added_interval (hc : ∀ t, (c.enc t).isSome) (hS : E.Steady lo hi) (tz : Nat) (cfg : Cfg Trig)
    (hri : 0 ≤ cfg.retryInterval) (ℓ : Int) (hℓ : 0 ≤ ℓ) (e : Env Trig) (he : ∃ draw, e.next = Trig.next E tz draw)
    (s s1 : State (AnyStore Trig φ) Trig φ) (hs : Consistent c suffix s) (hm : s.mode ≠ .stopped) (t : T Trig φ)
    (hi' : Takes s t.body.store t.id) (ht : t.nrt = none) (replace : Bool)
    (hadd : addTask (builtinOps c suffix cleanup) e t none replace s = (s1, .ok ())) (hm1 : s1.mode = .running)
    (g : Interval) (hg : t.body.trigger = .interval g) (hv : g.Valid) (hj : g.jitter = none)
    (hco : t.body.coalesce = false) (hst : ∀ s, g.stopDt tz = some s → s.Clear E lo hi) (hstart : (g.startDt tz).In E lo hi)
    (hlo : lo ≤ e.now) (hnhi : e.now + g.interval ≤ hi)
    (n : Int) (hhi : n + g.interval ≤ hi) (s2 : State (AnyStore Trig φ) Trig φ) (dl : Option Int) (turns : List Turn)
    (h : DrivenBy c suffix cleanup cfg (fun e => ∃ draw, e.next = Trig.next E tz draw) ℓ e.now t.body.store t.id t.body.executor s1 n s2
      dl turns) :
    RunsOnTime cfg.retryInterval ℓ e.now 0 t.body.store t.id
      (fun u => (∃ k : Nat, u = (g.startDt tz).inst E + k * g.interval) ∧ e.now ≤ u ∧ g.WithinEnd E tz u) n turns := by
  obtain ⟨hb, hc1, ht1⟩ := added_begins hc cfg hs hm hi' ht hadd
  exact C125_added_interval hS tz _ cfg hri ℓ hℓ e he s1 t ht g hg hv hj hco hst hstart hlo hnhi hb hm1 n hhi s2 dl turns
    (drivenBy_ideal hc h hc1 ht1).1

/-- **C125, any mixture of built-in stores, cron triggers from `add_task` on**, in any time zones over a period without a change of the
clocks. -/
theorem C125_stores_added_cron (hc : ∀ t, (c.enc t).isSome) (hS : E.Steady lo hi) (tz : Nat) (cfg : Cfg Trig)
    (hri : 0 ≤ cfg.retryInterval) (ℓ : Int) (hℓ : 0 ≤ ℓ) (e : Env Trig) (he : ∃ draw, e.next = Trig.next E tz draw)
    (s s1 : State (AnyStore Trig φ) Trig φ) (hs : Consistent c suffix s) (hm : s.mode ≠ .stopped) (t : T Trig φ)
    (hi' : Takes s t.body.store t.id) (ht : t.nrt = none) (replace : Bool)
    (hadd : addTask (builtinOps c suffix cleanup) e t none replace s = (s1, .ok ())) (hm1 : s1.mode = .running)
    (g : Cron.Trig) (hg : t.body.trigger = .cron g) (hwf : g.WfAll) (hj : g.jitter = none) (hco : t.body.coalesce = false)
    (hE : (E (g.zone tz)).Lawful) (hcal : 0 ≤ ((E (g.zone tz)).loc lo).1) (hst : ∀ s, g.stopDt tz = some s → s.Clear E lo hi)
    (hstart : ∀ s, g.start = some s → (s.withTz (g.zone tz)).In E lo hi) (hlo : lo ≤ e.now)
    (n v : Int) (hv : Cron.FiresAt g.exprs (E (g.zone tz)) v) (hTv : n < v) (hvhi : v ≤ hi) (hve : g.WithinEnd E tz v) (hnv : e.now ≤ v)
    (hsv : ∀ s, g.start = some s → (s.withTz (g.zone tz)).inst E ≤ v)
    (s2 : State (AnyStore Trig φ) Trig φ) (dl : Option Int) (turns : List Turn)
    (h : DrivenBy c suffix cleanup cfg (fun e => ∃ draw, e.next = Trig.next E tz draw) ℓ e.now t.body.store t.id t.body.executor s1 n s2
      dl turns) :
    RunsOnTime cfg.retryInterval ℓ e.now 0 t.body.store t.id
      (fun u => Cron.FiresAt g.exprs (E (g.zone tz)) u ∧ e.now ≤ u ∧ ∀ st, g.start = some st → (st.withTz (g.zone tz)).inst E ≤ u) n turns := by
  obtain ⟨hb, hc1, ht1⟩ := added_begins hc cfg hs hm hi' ht hadd
  exact C125_added_cron hS tz _ cfg hri ℓ hℓ e he s1 t ht g hg hwf hj hco hE hcal hst hstart hlo hb hm1 n v hv hTv hvhi hve hnv hsv s2 dl
    turns (drivenBy_ideal hc h hc1 ht1).1

end

/-! ## Example: the tasks of the file store and of Redis, with a latency of 2 µs -/

/-- the passes of the example, at the times given, checked against the time limits -/
def exBDriven (ℓ : Int) : List Int → Int × State (AnyStore Trig Unit) Trig Unit × Option Int × List Turn →
    Option (Int × State (AnyStore Trig Unit) Trig Unit × Option Int × List Turn)
  | [], p => some p
  | now :: l, (n, s, dl, ps) =>
    if exBefore dl n now = true ∧ (s.stores.all fun p => ((builtinOps Persist.Prefixed.trigCodec ".t" false).all p.2).all (fitsB p.2)) = true ∧
        (s.executors.get? "x").isSome = true then
      match tick (builtinOps Persist.Prefixed.trigCodec ".t" false) exTrigCfg (envAt exEnv 0 now) 50 s with
      | some (s', .ok _) =>
        if s'.log = s.log ++ s'.log.drop s.log.length then
          exBDriven ℓ l (now, s', s'.timer.map (· + ℓ), ps ++ [⟨true, now, s'.log.drop s.log.length⟩])
        else none
      | _ => none
    else none

theorem exBDriven_driven {ℓ b : Int} {a i : String} {s0 : State (AnyStore Trig Unit) Trig Unit} (l : List Int)
    (p q : Int × State (AnyStore Trig Unit) Trig Unit × Option Int × List Turn)
    (hp : DrivenBy Persist.Prefixed.trigCodec ".t" false exTrigCfg (fun e => ∃ draw, e.next = Trig.next exEnv 0 draw) ℓ b a i "x" s0
      p.1 p.2.1 p.2.2.1 p.2.2.2)
    (h : exBDriven ℓ l p = some q) :
    DrivenBy Persist.Prefixed.trigCodec ".t" false exTrigCfg (fun e => ∃ draw, e.next = Trig.next exEnv 0 draw) ℓ b a i "x" s0
      q.1 q.2.1 q.2.2.1 q.2.2.2 := by
  induction l generalizing p with
  | nil => simp only [exBDriven, Option.some.injEq] at h; rw [← h]; exact hp
  | cons now l ih =>
    obtain ⟨n, s, dl, ps⟩ := p
    rw [exBDriven] at h
    split at h
    · rename_i hm
      have hb := hm.1
      simp only [exBefore, Bool.and_eq_true, decide_eq_true_eq] at hb
      have hb2 : ∀ d, dl = some d → now ≤ d := by
        intro d hd
        have := hb.2
        subst hd
        simpa using this
      split at h
      · rename_i s1 w hp'
        split at h
        · rename_i hlog
          exact ih _ (.pass (e := envAt exEnv 0 now) hp hb.1 hb2 ⟨_, rfl⟩ (allFit_of hm.2.1) ⟨rfl, rfl, rfl⟩ ⟨hm.2.2, rfl⟩ hp' hlog) h
        · cases h
      · cases h
    · cases h

/-- the scheduler of `exBState` when it has just been woken up -/
def exBWoken : State (AnyStore Trig Unit) Trig Unit := { exBState with woken := true }

-- the hypotheses of `C125_stores_interval`: `exB_consistent`, `exBDriven_driven`, and
example : Told (builtinOps Persist.Prefixed.trigCodec ".t" false) 4 exBWoken "f" "t" ∧ exBWoken.mode = .running := ⟨.inl rfl, rfl⟩
example : Consistent Persist.Prefixed.trigCodec ".t" exBWoken :=
  ⟨exB_consistent.aliases, exB_consistent.memory, exB_consistent.sql, exB_consistent.mongo, exB_consistent.file, exB_consistent.redis⟩

/-- the passes of the example and the runs of the two tasks that they report -/
def exBOnTime (l : List Int) : Option (List (Int × List Int × List Int)) :=
  (exBDriven 2 l (4, exBWoken, some 6, [])).map fun q => q.2.2.2.map fun p => (p.now, reportedIn "f" "t" p, reportedIn "r" "t" p)

example : exBOnTime [6, 8, 17, 19, 25] = some [(6, [5], []), (8, [], [7]), (17, [15], [17]), (19, [], []), (25, [25], [])] := by decide +kernel
-- the event loop may not let the timer pass by more than the latency
example : exBOnTime [6, 10] = none := by decide +kernel

end Sched
end Asyncz
