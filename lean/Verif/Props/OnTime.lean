import Verif.Props.Punctual
import Verif.Props.CalmCrash
/-!
# C125: every run of a recurring task is submitted, once and on time

C83 says that no run is lost or made twice over any passes; C85 that the next run is submitted within the latency of the event loop.
Here both are followed through time: the passes are those that the event loop makes because of the wake-ups and the timer.
-/
namespace Asyncz
namespace Sched

variable {σ τ φ : Type} {O : StoreOps σ (Body τ φ)} {ans : Int → Except Exc (Option Int)}

/-! ## Specification -/

/-- what was seen of a pass of the event loop: whether the store of the task could be processed, its time, and what was observed -/
structure Turn where
  served : Bool
  now : Int
  obs : List Obs

/-- A stretch of the life of a running scheduler that begins at time `b` in state `s0`, on an event loop that answers within `ℓ`: when
a wake-up is queued or the timer has expired, the pass comes no more than `ℓ` later.  In between there are any calls that leave the
task `i` of store `a` (executor `x`) alone.  A pass either serves the store `a`, or finds a lock taken or the store failing; other
stores may fail or be locked at any pass.  The stretch ends at the time and in the state given; then comes the time until which the
next pass must have come, if there is any, and what was seen of the passes. -/
inductive Driven (L : LawfulStore O) (c : Cfg τ) (Good : Env τ → Prop) (ℓ b : Int) (a i x : String) (s0 : State σ τ φ) :
    Int → State σ τ φ → Option Int → List Turn → Prop
  | start : Driven L c Good ℓ b a i x s0 b s0 (if s0.woken then some (b + ℓ) else s0.timer.map (· + ℓ)) []
  | call {n : Int} {s s' : State σ τ φ} {dl : Option Int} {ps : List Turn} {e : Env τ} {fuel : Nat} {k : Call σ τ φ}
      (hs : Driven L c Good ℓ b a i x s0 n s dl ps) (hn : n ≤ e.now) (hdl : ∀ d, dl = some d → e.now ≤ d) (hk : k.Ok L) (hq : k ≠ .tick)
      (h : exec O c e fuel k s = some s') (hm : s'.mode = .running) (he : entry O s' a i = entry O s a i) :
      Driven L c Good ℓ b a i x s0 e.now s' (dl.or (if s'.woken then some (e.now + ℓ) else none)) ps
  | other {n n' : Int} {s s' : State σ τ φ} {dl : Option Int} {ps : List Turn} (hs : Driven L c Good ℓ b a i x s0 n s dl ps)
      (hn : n ≤ n') (hdl : ∀ d, dl = some d → n' ≤ d) (hw : WF L s') (hm : s'.mode = .running) (he : entry O s' a i = entry O s a i) :
      Driven L c Good ℓ b a i x s0 n' s' (dl.or (if s'.woken then some (n' + ℓ) else none)) ps
  | pass {n : Int} {s s' : State σ τ φ} {dl : Option Int} {ps : List Turn} {e : Env τ} {fuel : Nat} {obs : List Obs}
      (hs : Driven L c Good ℓ b a i x s0 n s dl ps) (hn : n ≤ e.now) (hdl : ∀ d, dl = some d → e.now ≤ d) (hg : Good e)
      (hl : e.procLock = true ∧ e.storeLock a = true ∧ e.dueOk a = true)
      (hx : (s.executors.get? x).isSome = true ∧ e.sendOk x i = true)
      (h : tick O c e fuel s = some (s', .ok ())) (hlog : s'.log = s.log ++ obs) :
      Driven L c Good ℓ b a i x s0 e.now s' (s'.timer.map (· + ℓ)) (ps ++ [⟨true, e.now, obs⟩])
  | blocked {n : Int} {s s' : State σ τ φ} {dl : Option Int} {ps : List Turn} {e : Env τ} {fuel : Nat} {obs : List Obs}
      (hs : Driven L c Good ℓ b a i x s0 n s dl ps) (hn : n ≤ e.now) (hdl : ∀ d, dl = some d → e.now ≤ d)
      (hl : e.procLock = false ∨ e.storeLock a = false ∨ e.dueOk a = false)
      (h : tick O c e fuel s = some (s', .ok ())) (hlog : s'.log = s.log ++ obs) :
      Driven L c Good ℓ b a i x s0 e.now s' (s'.timer.map (· + ℓ)) (ps ++ [⟨false, e.now, obs⟩])

/-- the run times that a pass reported for the task, as submitted or as one too many -/
def reportedIn (a i : String) (p : Turn) : List Int := (submissionEvents a i p.obs).flatMap timesOf

/-- The time `n` is in time for a run at `u`: no more than `ℓ` after `u`, after the beginning `b` (plus `δ`), or after the retry
interval `ri` from a pass that could not serve the task. -/
def InTime (ri ℓ b δ : Int) (turns : List Turn) (u n : Int) : Prop :=
  n ≤ u + ℓ ∨ n ≤ b + δ + ℓ ∨ ∃ p ∈ turns, p.served = false ∧ n ≤ p.now + ri + ℓ

/-- The event loop has been told of the next run of the task: a wake-up is queued, or the timer is set no later than that run or `T`. -/
def Told (O : StoreOps σ (Body τ φ)) (T : Int) (s : State σ τ φ) (a i : String) : Prop :=
  s.woken = true ∨ ∀ t r, entry O s a i = some t → t.nrt = some r → ∃ x, s.timer = some x ∧ x ≤ max r T

/-! ## Proof -/

/-- **C125**: the event loop has always been told, after any history of calls and passes that did not raise, without forced runs. -/
theorem C125_told (L : LawfulStore O) (c : Cfg τ) (δ b : Int) (hδ : 0 ≤ δ) (s0 : State σ τ φ) (h0 : Timeline L c δ b s0)
    (hm : s0.mode = .running) (a i : String) : WF L s0 ∧ Told O (b + δ) s0 a i :=
  ⟨h0.reachable.wf, (C33_timely_partial L c δ hδ b s0 h0 hm).imp id fun h => h a i⟩

theorem InTime.more {ri ℓ b δ u n : Int} {l : List Turn} (h : InTime ri ℓ b δ l u n) (l' : List Turn) : InTime ri ℓ b δ (l ++ l') u n := by
  rcases h with h | h | ⟨p, hp, h⟩
  · exact .inl h
  · exact .inr (.inl h)
  · exact .inr (.inr ⟨p, List.mem_append.2 (.inl hp), h⟩)

theorem InTime.mono {ri ℓ b δ u n u' n' : Int} {l : List Turn} (h : InTime ri ℓ b δ l u n) (hu : u ≤ u') (hn : n' ≤ n) :
    InTime ri ℓ b δ l u' n' := by
  rcases h with h | h | ⟨p, hp, h1, h2⟩
  · exact .inl (by omega)
  · exact .inr (.inl (by omega))
  · exact .inr (.inr ⟨p, hp, h1, by omega⟩)

/-- the timer after a pass, for a task of a store that was served -/
theorem timer_served (L : LawfulStore O) {c : Cfg τ} {e : Env τ} {fuel : Nat} {s s' : State σ τ φ} (hw : WF L s) (hm : s.mode = .running)
    {a i : String} (hl : e.procLock = true ∧ e.storeLock a = true ∧ e.dueOk a = true) (h : tick O c e fuel s = some (s', .ok ()))
    {t : T τ φ} {r : Int} (ha : entry O s' a i = some t) (hr : t.nrt = some r) : ∃ x, s'.timer = some x ∧ x ≤ max r e.now := by
  obtain ⟨s1, w, h1, rfl⟩ := tick_pass h
  obtain ⟨new, evs, wake, _, _, hw1, _, _, hst, hno, rfl⟩ := processTasks_spec L
    (s := { s with woken := false, timer := none }) (hw.congr rfl) hm hl.1 h1
  rw [entry_look] at ha
  obtain ⟨_, st', hg', _, hmap⟩ := look_id L (d := s1.stores) (wf_iff.1 hw1) ha
  cases hg : s.stores.get? a with
  | none =>
    exfalso
    have hk : a ∈ s1.stores.keys := Dict.mem_keys_of_mem (Dict.mem_of_get? hg')
    rw [(rel_processTasks (kept_passRel O e) h1).keys] at hk
    exact (Dict.get?_eq_none _ _).1 hg hk
  | some st =>
    obtain ⟨st2, g2, _, n1, n2⟩ := hst a st hg
    rw [hg'] at g2
    cases g2
    obtain ⟨y, rfl, hy⟩ := n1 (by simp [hl.2.1, hl.2.2]) i t r hmap hr
    refine ⟨e.now + min (max (y - e.now) 0) c.timeoutMax, rfl, ?_⟩
    omega

/-- a pass that cannot serve the store leaves the task alone, and the timer is set to the retry interval or earlier -/
theorem pass_blocked (L : LawfulStore O) {c : Cfg τ} {e : Env τ} {fuel : Nat} {s s' : State σ τ φ} (hw : WF L s) (hm : s.mode = .running)
    {a i : String} (hl : e.procLock = false ∨ e.storeLock a = false ∨ e.dueOk a = false) (hc : (entry O s a i).isSome)
    (hri : 0 ≤ c.retryInterval) (h : tick O c e fuel s = some (s', .ok ())) :
    ∃ obs, s'.log = s.log ++ obs ∧ entry O s' a i = entry O s a i ∧ submissionEvents a i obs = [] ∧ sends a i obs = [] ∧
      ∃ x, s'.timer = some x ∧ x ≤ e.now + c.retryInterval := by
  obtain ⟨s1, w, h1, rfl⟩ := tick_pass h
  by_cases hp : e.procLock = true
  · obtain ⟨new, evs, wake, z1, _, hw1, _, _, hst, hno, rfl⟩ := processTasks_spec L
      (s := { s with woken := false, timer := none }) (hw.congr rfl) hm hp h1
    have hlk : (e.storeLock a && e.dueOk a) = false := by
      rcases hl with hl | hl | hl
      · rw [hp] at hl; cases hl
      · simp [hl]
      · simp [hl]
    cases hg : s.stores.get? a with
    | none => simp [entry, hg] at hc
    | some st =>
      obtain ⟨st', b1, b2, _, n2⟩ := hst a st hg
      have he := b2.other i (.inl hlk)
      refine ⟨new ++ evs, by rw [← List.append_assoc]; exact z1, ?_, ?_, ?_, ?_⟩
      · have e1 : entry O s1 a i = L.toMap st' i := entry_eq L hw1 b1 i
        have e2 : entry O s a i = L.toMap st i := entry_eq L hw hg i
        show entry O s1 a i = entry O s a i
        rw [e1, e2, he.1]
      · rw [← submissionEvents_filter, List.filter_append, he.2.1, he.2.2]; rfl
      · rw [← sends_filter, List.filter_append, he.2.1, he.2.2]; rfl
      · obtain ⟨y, rfl, hy⟩ := n2 hlk
        refine ⟨e.now + min (max (y - e.now) 0) c.timeoutMax, rfl, ?_⟩
        omega
  · simp only [processTasks, hm, if_neg (show ¬ Mode.running = Mode.paused by decide)] at h1
    rw [if_neg hp] at h1
    cases h1
    refine ⟨[], by simp, rfl, rfl, rfl, ?_⟩
    obtain ⟨y, hy0, hy⟩ := (earlier_le none (e.now + c.retryInterval)).1
    refine ⟨e.now + min (max (y - e.now) 0) c.timeoutMax, ?_, by omega⟩
    rw [hy0]; rfl

/-- a pass has nothing for a task that is not there or has no next run time -/
theorem pass_gone (L : LawfulStore O) {c : Cfg τ} {e : Env τ} {fuel : Nat} {s s' : State σ τ φ} (hw : WF L s)
    (hm : s.mode = .running) {a i : String} (he : ∀ t, entry O s a i = some t → t.nrt = none) (h : tick O c e fuel s = some (s', .ok ())) :
    ∃ obs, s'.log = s.log ++ obs ∧ entry O s' a i = entry O s a i ∧ submissionEvents a i obs = [] ∧ sends a i obs = [] := by
  obtain ⟨s1, w, h1, rfl⟩ := tick_pass h
  by_cases hp : e.procLock = true
  · obtain ⟨new, evs, wake, z1, z2, z3, z4, z5, z6, z7, z8⟩ := processTasks_spec L
      (s := { s with woken := false, timer := none }) (hw.congr rfl) hm hp h1
    have key : entry O s1 a i = entry O s a i ∧ new.filter (concerns a i) = [] ∧ evs.filter (concerns a i) = [] := by
      cases hg : s.stores.get? a with
      | none =>
        have hg' : s1.stores.get? a = none := by
          rw [Dict.get?_eq_none] at hg ⊢
          rw [z4]; exact hg
        exact ⟨by simp [entry, hg, hg'], z7 a hg i⟩
      | some st =>
        obtain ⟨st', b1, b2, b3, b4⟩ := z6 a st hg
        have e1 : entry O s a i = L.toMap st i := entry_eq L hw hg i
        have e2 : entry O s1 a i = L.toMap st' i := entry_eq L z3 b1 i
        have := b2.other i (.inr (fun t ht hd => by
          obtain ⟨q, hq, _⟩ := hd
          rw [he t (by rw [e1]; exact ht)] at hq; cases hq))
        exact ⟨by rw [e1, e2, this.1], this.2⟩
    refine ⟨new ++ evs, by rw [← List.append_assoc]; exact z1, key.1, ?_, ?_⟩
    · rw [← submissionEvents_filter, List.filter_append, key.2.1, key.2.2]; rfl
    · rw [← sends_filter, List.filter_append, key.2.1, key.2.2]; rfl
  · simp only [processTasks, hm, if_neg (show ¬ Mode.running = Mode.paused by decide)] at h1
    rw [if_neg hp] at h1
    cases h1
    exact ⟨[], by simp, rfl, rfl, rfl⟩

theorem Answered.successor {first after : Option Int} {l : List Int} {u : Int} (h : Answered ans first l after) (hu : u ∈ l) :
    ∃ l', Answered ans first l' (some u) := by
  induction h with
  | nil => cases hu
  | cons e h ih =>
    rcases List.mem_cons.1 hu with rfl | hu
    · exact ⟨[], .nil _⟩
    · obtain ⟨l', h'⟩ := ih hu
      exact ⟨_ :: l', .cons e h'⟩

theorem times_report (a i : String) (co ok : Bool) (l : List Int) : timesOf (report a i co (ok, l)) = handed co l := by
  cases ok <;> rfl

theorem handed_sublist (co : Bool) (l : List Int) : (handed co l).Sublist l := by
  unfold handed
  split
  · cases hl : l.getLast? with
    | none => simp
    | some x => simpa using List.mem_of_getLast? hl
  · exact List.Sublist.refl _

/-- everything that can be said about such a stretch -/
theorem Driven.invariant {L : LawfulStore O} {c : Cfg τ} {ℓ b lo δ : Int} {a i : String} {s0 : State σ τ φ} {t : T τ φ} {r : Int}
    (hw0 : WF L s0) (h0 : Told O (b + δ) s0 a i) (hδ : 0 ≤ δ) (hℓ : 0 ≤ ℓ) (hri : 0 ≤ c.retryInterval) (hm0 : s0.mode = .running)
    (ht : entry O s0 a i = some t) (hr : t.nrt = some r) (hlo : lo ≤ r) (hf : Forward lo ans)
    {n : Int} {s : State σ τ φ} {dl : Option Int} {ps : List Turn}
    (h : Driven L c (Regular t.body.trigger lo ans) ℓ b a i t.body.executor s0 n s dl ps) :
    WF L s ∧ s.mode = .running ∧ ∃ l after, Answered ans (some r) l after ∧ entry O s a i = after.map (fun q => { t with nrt := some q }) ∧
      (∀ q, after = some q → InTime c.retryInterval ℓ b δ ps q n ∧ ∃ d, dl = some d ∧ InTime c.retryInterval ℓ b δ ps q d) ∧
      (ps.flatMap (reportedIn a i)).Sublist l ∧
      (∀ u ∈ l, ∃ p ∈ ps, p.served = true ∧ u ≤ p.now ∧ InTime c.retryInterval ℓ b δ ps u p.now ∧
        ∃ v ∈ reportedIn a i p, u ≤ v ∧ (t.body.coalesce = false → v = u)) ∧
      (∀ p ∈ ps, (∀ v ∈ reportedIn a i p, v ≤ p.now ∧ InTime c.retryInterval ℓ b δ ps v p.now) ∧
        ((∀ ts k m, Obs.taskMaxInstances i a ts k m ∉ p.obs) → (submitted a i p.obs).flatten = reportedIn a i p)) := by
  have hf' : ∀ {q' : Option Int} {m : List Int} {y : Option Int}, Answered ans (some r) m q' → ∀ q, q' = some q → lo ≤ q := by
    intro q' m y hA q hq
    subst hq
    exact (hA.ge hf fun w hw => by cases hw; exact hlo).1 q rfl
  induction h with
  | start =>
    refine ⟨hw0, hm0, [], some r, .nil _, ?_, ?_, List.Sublist.refl _, by simp, by simp⟩
    · rw [ht]; cases t; simp only at hr; subst hr; rfl
    · intro q hq
      cases hq
      refine ⟨.inr (.inl (by omega)), ?_⟩
      rcases h0 with hw | hw
      · rw [hw]; exact ⟨_, rfl, .inr (.inl (by omega))⟩
      · obtain ⟨x, hx, hle⟩ := hw t r ht hr
        rw [hx]
        cases s0.woken with
        | true => exact ⟨_, rfl, .inr (.inl (by omega))⟩
        | false =>
          refine ⟨x + ℓ, rfl, ?_⟩
          by_cases hc : r ≤ b + δ
          · exact .inr (.inl (by omega))
          · exact .inl (by omega)
  | other hs hn hdl hw hm he ih =>
    obtain ⟨w1, w2, l, after, k1, k2, k3, k4, k5, k6⟩ := ih
    refine ⟨hw, hm, l, after, k1, by rw [he, k2], ?_, k4, k5, k6⟩
    intro q hq
    obtain ⟨_, d, rfl, hd⟩ := k3 q hq
    exact ⟨hd.mono (Int.le_refl _) (hdl d rfl), d, rfl, hd⟩
  | call hs hn hdl hk hq h hm he ih =>
    obtain ⟨w1, w2, l, after, k1, k2, k3, k4, k5, k6⟩ := ih
    refine ⟨wf_exec w1 hk h, hm, l, after, k1, by rw [he, k2], ?_, k4, k5, k6⟩
    intro q hq
    obtain ⟨_, d, rfl, hd⟩ := k3 q hq
    exact ⟨hd.mono (Int.le_refl _) (hdl d rfl), d, rfl, hd⟩
  | @blocked n s s' dl ps e fuel obs hs hn hdl hl h hlog ih =>
    obtain ⟨w1, w2, l, after, k1, k2, k3, k4, k5, k6⟩ := ih
    have hm' : s'.mode = .running := by rw [(kept_tick h).mode]; exact w2
    have hw' := wf_tick w1 h
    have main : entry O s' a i = entry O s a i ∧ submissionEvents a i obs = [] ∧ sends a i obs = [] ∧
        (after ≠ none → ∃ x, s'.timer = some x ∧ x ≤ e.now + c.retryInterval) := by
      cases after with
      | none =>
        obtain ⟨obs', z1, z2, z3, z4⟩ := pass_gone L w1 w2 (fun t ht => by rw [k2] at ht; cases ht) h
        rw [hlog, List.append_cancel_left_eq] at z1
        subst z1
        exact ⟨z2, z3, z4, fun h => absurd rfl h⟩
      | some q =>
        obtain ⟨obs', z1, z2, z3, z4, z5⟩ := pass_blocked (i := i) L w1 w2 hl (by rw [k2]; rfl) hri h
        rw [hlog, List.append_cancel_left_eq] at z1
        subst z1
        exact ⟨z2, z3, z4, fun _ => z5⟩
    obtain ⟨m1, m2, m3, m4⟩ := main
    have hrep : reportedIn a i ⟨false, e.now, obs⟩ = [] := by simp [reportedIn, m2]
    refine ⟨hw', hm', l, after, k1, by rw [m1, k2], ?_, ?_, ?_, ?_⟩
    · intro q hq
      obtain ⟨x, hx, hle⟩ := m4 (by rw [hq]; simp)
      have hmem : (⟨false, e.now, obs⟩ : Turn) ∈ ps ++ [⟨false, e.now, obs⟩] := by simp
      refine ⟨.inr (.inr ⟨_, hmem, rfl, by show e.now ≤ e.now + _ + _; omega⟩), x + ℓ, by rw [hx]; rfl, .inr (.inr ⟨_, hmem, rfl, ?_⟩)⟩
      show x + ℓ ≤ e.now + _ + _
      omega
    · rw [List.flatMap_append]; simpa [hrep] using k4
    · intro u hu
      obtain ⟨p, hp, h1, h2, h3, h4⟩ := k5 u hu
      exact ⟨p, List.mem_append.2 (.inl hp), h1, h2, h3.more _, h4⟩
    · intro p hp
      rcases List.mem_append.1 hp with hp | hp
      · exact ⟨fun v hv => ⟨((k6 p hp).1 v hv).1, ((k6 p hp).1 v hv).2.more _⟩, (k6 p hp).2⟩
      · rw [List.mem_singleton] at hp
        subst hp
        refine ⟨by rw [hrep]; simp, fun _ => ?_⟩
        rw [hrep]; simp [submitted, m3]
  | @pass n s s' dl ps e fuel obs hs hn hdl hg hl hx h hlog ih =>
    obtain ⟨w1, w2, l, after, k1, k2, k3, k4, k5, k6⟩ := ih
    have hm' : s'.mode = .running := by rw [(kept_tick h).mode]; exact w2
    have hw' := wf_tick w1 h
    cases after with
    | none =>
      obtain ⟨obs', z1, z2, z3, z4⟩ := pass_gone L w1 w2 (fun t ht => by rw [k2] at ht; cases ht) h
      rw [hlog, List.append_cancel_left_eq] at z1
      subst z1
      have hrep : reportedIn a i ⟨true, e.now, obs⟩ = [] := by simp [reportedIn, z3]
      refine ⟨hw', hm', l, none, k1, by rw [z2, k2], by simp, ?_, ?_, ?_⟩
      · rw [List.flatMap_append]; simpa [hrep] using k4
      · intro u hu
        obtain ⟨p, hp, h1, h2, h3, h4⟩ := k5 u hu
        exact ⟨p, List.mem_append.2 (.inl hp), h1, h2, h3.more _, h4⟩
      · intro p hp
        rcases List.mem_append.1 hp with hp | hp
        · exact ⟨fun v hv => ⟨((k6 p hp).1 v hv).1, ((k6 p hp).1 v hv).2.more _⟩, (k6 p hp).2⟩
        · rw [List.mem_singleton] at hp
          subst hp
          refine ⟨by rw [hrep]; simp, fun _ => ?_⟩
          rw [hrep]; simp [submitted, z4]
    | some q =>
      obtain ⟨_, d, rfl, hd⟩ := k3 q rfl
      have hnow := hdl d rfl
      have hqlo : lo ≤ q := hf' (y := none) k1 q rfl
      obtain ⟨s1, w, h1, hs1⟩ := tick_pass h
      obtain ⟨obs', z1, z2, zc⟩ := pass_task L c e fuel { s with woken := false, timer := none } s1 w (w1.congr rfl) w2 a i hl
        { t with nrt := some q } (by exact k2) hx hg hf (fun r' hr' => by cases hr'; exact hqlo) h1
      have hent : entry O s' a i = entry O s1 a i := by rw [hs1]; rfl
      have hlog' : s1.log = s.log ++ obs := by rw [← hlog, hs1]
      rw [hlog', List.append_cancel_left_eq] at z1
      subst z1
      rcases zc with ⟨hnd, he, h3, h4⟩ | ⟨m, after, ok, hne, hA, hle, haf, he, h4, h3⟩
      · have hrep : reportedIn a i ⟨true, e.now, obs⟩ = [] := by simp [reportedIn, h4]
        refine ⟨hw', hm', l, some q, k1, by rw [hent, he]; rfl, ?_, ?_, ?_, ?_⟩
        · intro q' hq'
          cases hq'
          have hlt : e.now < q := by
            by_cases hh : e.now < q
            · exact hh
            · exact absurd ⟨q, rfl, by omega⟩ hnd
          obtain ⟨x, hx1, hx2⟩ := timer_served L w1 w2 hl h (by rw [hent, he]) rfl
          exact ⟨.inl (by omega), x + ℓ, by rw [hx1]; rfl, .inl (by omega)⟩
        · rw [List.flatMap_append]; simpa [hrep] using k4
        · intro u hu
          obtain ⟨p, hp, h1, h2, h3, h4⟩ := k5 u hu
          exact ⟨p, List.mem_append.2 (.inl hp), h1, h2, h3.more _, h4⟩
        · intro p hp
          rcases List.mem_append.1 hp with hp | hp
          · exact ⟨fun v hv => ⟨((k6 p hp).1 v hv).1, ((k6 p hp).1 v hv).2.more _⟩, (k6 p hp).2⟩
          · rw [List.mem_singleton] at hp
            subst hp
            refine ⟨by rw [hrep]; simp, fun _ => ?_⟩
            rw [hrep]; simp [submitted, h3]
      · have hrep : reportedIn a i ⟨true, e.now, obs⟩ = handed t.body.coalesce m := by
          simp only [reportedIn, h4, List.flatMap_cons, List.flatMap_nil, List.append_nil]
          exact times_report a i _ ok m
        have hge : ∀ u ∈ m, q ≤ u := (hA.ge (fun p r hp hr => hf p r (by omega) hr) fun w hw => by cases hw; exact Int.le_refl _).2
        have hin : ∀ u ∈ m, InTime c.retryInterval ℓ b δ (ps ++ [⟨true, e.now, obs⟩]) u e.now := fun u hu =>
          (hd.mono (hge u hu) hnow).more _
        refine ⟨hw', hm', l ++ m, after, k1.append hA, by rw [hent, he], ?_, ?_, ?_, ?_⟩
        · intro q' hq'
          have hlt := haf q' hq'
          obtain ⟨x, hx1, hx2⟩ := timer_served L w1 w2 hl h (by rw [hent, he, hq']; rfl) rfl
          exact ⟨.inl (by omega), x + ℓ, by rw [hx1]; rfl, .inl (by omega)⟩
        · rw [List.flatMap_append]
          refine List.Sublist.append k4 ?_
          simpa [hrep] using handed_sublist _ m
        · intro u hu
          rcases List.mem_append.1 hu with hu | hu
          · obtain ⟨p, hp, h1, h2, h3, h4⟩ := k5 u hu
            exact ⟨p, List.mem_append.2 (.inl hp), h1, h2, h3.more _, h4⟩
          · refine ⟨⟨true, e.now, obs⟩, by simp, rfl, hle u hu, hin u hu, ?_⟩
            rw [hrep]
            cases hco : t.body.coalesce with
            | false => exact ⟨u, hu, Int.le_refl _, fun _ => rfl⟩
            | true =>
              have hinc := hA.increasing hf fun r' hr' => by cases hr'; exact hqlo
              cases hla : m.getLast? with
              | none => rw [List.getLast?_eq_none_iff] at hla; exact absurd hla hne
              | some v =>
                refine ⟨v, by simp [handed, hla], ?_, by simp⟩
                obtain ⟨m', rfl⟩ := List.getLast?_eq_some_iff.1 hla
                rcases List.mem_append.1 hu with hu | hu
                · have := (List.pairwise_append.1 hinc).2.2 u hu v (by simp)
                  omega
                · rw [List.mem_singleton] at hu; omega
        · intro p hp
          rcases List.mem_append.1 hp with hp | hp
          · exact ⟨fun v hv => ⟨((k6 p hp).1 v hv).1, ((k6 p hp).1 v hv).2.more _⟩, (k6 p hp).2⟩
          · rw [List.mem_singleton] at hp
            subst hp
            refine ⟨fun v hv => ?_, fun hfull => ?_⟩
            · rw [hrep] at hv
              have hv := (handed_sublist _ _).subset hv
              exact ⟨hle v hv, hin v hv⟩
            · rw [hrep]
              cases ok with
              | true => simp [submitted, h3]
              | false =>
                exfalso
                have hmem : report a i t.body.coalesce (false, m) ∈ submissionEvents a i obs := by rw [h4]; simp
                have := (List.mem_filter.1 hmem).1
                exact hfull _ _ _ this

/-- **C125**, from any state in which the event loop has been told of the task. -/
theorem C125_general (L : LawfulStore O) (c : Cfg τ) (hri : 0 ≤ c.retryInterval) (δ ℓ b : Int) (hδ : 0 ≤ δ) (hℓ : 0 ≤ ℓ)
    (a i : String) (s0 : State σ τ φ) (hw0 : WF L s0) (h0 : Told O (b + δ) s0 a i) (hm : s0.mode = .running) (t : T τ φ) (ht : entry O s0 a i = some t)
    (r : Int) (hr : t.nrt = some r) (lo : Int) (hlo : lo ≤ r) (hf : Forward lo ans)
    (n : Int) (s : State σ τ φ) (dl : Option Int) (turns : List Turn)
    (h : Driven L c (Regular t.body.trigger lo ans) ℓ b a i t.body.executor s0 n s dl turns) :
    (∀ u, (turns.flatMap (reportedIn a i)).count u ≤ 1) ∧
    (∀ p ∈ turns, ∀ v ∈ reportedIn a i p, Successor ans r v ∧ v ≤ p.now ∧ InTime c.retryInterval ℓ b δ turns v p.now) ∧
    (∀ u, Successor ans r u → ¬ InTime c.retryInterval ℓ b δ turns u n →
      ∃ p ∈ turns, p.served = true ∧ u ≤ p.now ∧ InTime c.retryInterval ℓ b δ turns u p.now ∧
        ∃ v ∈ reportedIn a i p, u ≤ v ∧ (t.body.coalesce = false → v = u)) ∧
    ∀ p ∈ turns, (∀ ts k m, Obs.taskMaxInstances i a ts k m ∉ p.obs) → (submitted a i p.obs).flatten = reportedIn a i p := by
  obtain ⟨_, _, l, after, k1, k2, k3, k4, k5, k6⟩ := h.invariant hw0 h0 hδ hℓ hri hm ht hr hlo hf
  have hlo' : ∀ q, some r = some q → lo ≤ q := fun q hq => by cases hq; exact hlo
  refine ⟨fun u => ?_, fun p hp v hv => ?_, fun u hu hn => ?_, fun p hp => (k6 p hp).2⟩
  · exact Nat.le_trans (k4.count_le u) (increasing_count (k1.increasing hf hlo') u)
  · exact ⟨k1.successor (k4.subset (List.mem_flatMap.2 ⟨p, hp, hv⟩)), (k6 p hp).1 v hv⟩
  · obtain ⟨l', hl'⟩ := hu
    rcases k1.covers hl' with h1 | ⟨l'', h1⟩
    · exact k5 u h1
    · exfalso
      cases after with
      | none => cases h1
      | some q =>
        have hq := (k1.ge hf hlo').1 q rfl
        have hqu : q ≤ u := (h1.ge (fun p r hp hr => hf p r (by omega) hr) fun w hw => by cases hw; exact Int.le_refl _).1 u rfl
        exact hn ((k3 q rfl).1.mono hqu (Int.le_refl _))

/-- **C125.** A scheduler is running at time `b` after any history of calls and passes that did not raise (without forced runs; `δ` is
0, or the retry interval if some earlier pass found a lock taken or a store failing), and a stored task has the next run time `r`.  From
then on, until time `n`, the event loop makes its passes within the latency `ℓ`, whatever other calls come in between that leave the task
alone, and whatever passes find a lock taken or a store failing.  Then every time of the trigger from `r` on whose time has come and
gone has been submitted (or found too many instances), exactly once, at a pass that came when it was due and no more than `ℓ` later
(with the exceptions of `InTime`), and nothing else has been; with coalescing, several due times are submitted as the last of them. -/
theorem C125_on_time (L : LawfulStore O) (c : Cfg τ) (hri : 0 ≤ c.retryInterval) (δ ℓ b : Int) (hδ : 0 ≤ δ) (hℓ : 0 ≤ ℓ)
    (s0 : State σ τ φ) (h0 : Timeline L c δ b s0) (hm : s0.mode = .running) (a i : String) (t : T τ φ) (ht : entry O s0 a i = some t)
    (r : Int) (hr : t.nrt = some r) (lo : Int) (hlo : lo ≤ r) (hf : Forward lo ans)
    (n : Int) (s : State σ τ φ) (dl : Option Int) (turns : List Turn)
    (h : Driven L c (Regular t.body.trigger lo ans) ℓ b a i t.body.executor s0 n s dl turns) :
    (∀ u, (turns.flatMap (reportedIn a i)).count u ≤ 1) ∧
    (∀ p ∈ turns, ∀ v ∈ reportedIn a i p, Successor ans r v ∧ v ≤ p.now ∧ InTime c.retryInterval ℓ b δ turns v p.now) ∧
    (∀ u, Successor ans r u → ¬ InTime c.retryInterval ℓ b δ turns u n →
      ∃ p ∈ turns, p.served = true ∧ u ≤ p.now ∧ InTime c.retryInterval ℓ b δ turns u p.now ∧
        ∃ v ∈ reportedIn a i p, u ≤ v ∧ (t.body.coalesce = false → v = u)) ∧
    ∀ p ∈ turns, (∀ ts k m, Obs.taskMaxInstances i a ts k m ∉ p.obs) → (submitted a i p.obs).flatten = reportedIn a i p :=
  C125_general L c hri δ ℓ b hδ hℓ a i s0 (C125_told L c δ b hδ s0 h0 hm a i).1 (C125_told L c δ b hδ s0 h0 hm a i).2 hm t ht r hr lo hlo hf n s dl turns h

theorem Driven.until {L : LawfulStore O} {c : Cfg τ} {G G' : Env τ → Prop} {ℓ b T : Int} {a i x : String} {s0 : State σ τ φ}
    {n : Int} {s : State σ τ φ} {dl : Option Int} {ps : List Turn} (h : Driven L c G ℓ b a i x s0 n s dl ps) (hn : n ≤ T)
    (hG : ∀ e, G e → e.now ≤ T → G' e) : Driven L c G' ℓ b a i x s0 n s dl ps ∧ ∀ p ∈ ps, p.now ≤ n := by
  induction h with
  | start => exact ⟨.start, by simp⟩
  | call hs hn' hdl hk hq h hm he ih =>
    obtain ⟨h1, h2⟩ := ih (by omega)
    exact ⟨.call h1 hn' hdl hk hq h hm he, fun p hp => by have := h2 p hp; omega⟩
  | other hs hn' hdl hw hm he ih =>
    obtain ⟨h1, h2⟩ := ih (by omega)
    exact ⟨.other h1 hn' hdl hw hm he, fun p hp => by have := h2 p hp; omega⟩
  | @pass n s s' dl ps e fuel obs hs hn' hdl hg hl hx h hlog ih =>
    obtain ⟨h1, h2⟩ := ih (by omega)
    refine ⟨.pass h1 hn' hdl (hG _ hg hn) hl hx h hlog, fun p hp => ?_⟩
    rcases List.mem_append.1 hp with hp | hp
    · have := h2 p hp; omega
    · rw [List.mem_singleton] at hp; subst hp; exact Int.le_refl _
  | @blocked n s s' dl ps e fuel obs hs hn' hdl hl h hlog ih =>
    obtain ⟨h1, h2⟩ := ih (by omega)
    refine ⟨.blocked h1 hn' hdl hl h hlog, fun p hp => ?_⟩
    rcases List.mem_append.1 hp with hp | hp
    · have := h2 p hp; omega
    · rw [List.mem_singleton] at hp; subst hp; exact Int.le_refl _

/-! ## Interval and cron triggers -/

section
variable {σ φ : Type} {O : StoreOps σ (Body Trig φ)} {E : TzEnv} {lo hi : Int}

/-- The task runs at the times in `F`, on time: up to now each time of `F` that is due and past its latency has been reported exactly
once, at a pass that came when it was due and in time, and nothing else has been; and what was not found too many was handed to the
executor. -/
structure RunsOnTime (ri ℓ b δ : Int) (a i : String) (F : Int → Prop) (n : Int) (turns : List Turn) : Prop where
  once : ∀ u, (turns.flatMap (reportedIn a i)).count u ≤ 1
  only : ∀ p ∈ turns, ∀ u ∈ reportedIn a i p, F u ∧ u ≤ p.now ∧ InTime ri ℓ b δ turns u p.now
  all : ∀ u, F u → ¬ InTime ri ℓ b δ turns u n →
    ∃ p ∈ turns, p.served = true ∧ u ≤ p.now ∧ InTime ri ℓ b δ turns u p.now ∧ u ∈ reportedIn a i p
  handed : ∀ p ∈ turns, (∀ ts k m, Obs.taskMaxInstances i a ts k m ∉ p.obs) → (submitted a i p.obs).flatten = reportedIn a i p

theorem runsOnTime_of {ans : Int → Except Exc (Option Int)} (L : LawfulStore O) (c : Cfg Trig) (hri : 0 ≤ c.retryInterval) (δ ℓ b : Int)
    (hδ : 0 ≤ δ) (hℓ : 0 ≤ ℓ) (a i : String) (s0 : State σ Trig φ) (hw0 : WF L s0) (h0 : Told O (b + δ) s0 a i)
    (hm : s0.mode = .running) (t : T Trig φ)
    (ht : entry O s0 a i = some t) (r : Int) (hr : t.nrt = some r) (hf : Forward r ans) (hco : t.body.coalesce = false)
    (n : Int) (s : State σ Trig φ) (dl : Option Int) (turns : List Turn) (G : Env Trig → Prop)
    (h : Driven L c G ℓ b a i t.body.executor s0 n s dl turns)
    (hreg : ∀ e, G e → e.now ≤ n → Regular t.body.trigger r ans e) (F : Int → Prop) (hF : ∀ u, u ≤ n → (Successor ans r u ↔ F u)) :
    RunsOnTime c.retryInterval ℓ b δ a i F n turns := by
  obtain ⟨h', hle⟩ := h.until (Int.le_refl n) hreg
  obtain ⟨k1, k2, k3, k4⟩ := C125_general L c hri δ ℓ b hδ hℓ a i s0 hw0 h0 hm t ht r hr r (Int.le_refl _) hf n s dl turns h'
  refine ⟨k1, fun p hp u hu => ?_, fun u hu hn => ?_, k4⟩
  · obtain ⟨h1, h2, h3⟩ := k2 p hp u hu
    exact ⟨(hF u (by have := hle p hp; omega)).1 h1, h2, h3⟩
  · have hun : u ≤ n := by
      by_cases hun : u ≤ n
      · exact hun
      · exact absurd (.inl (by omega)) hn
    obtain ⟨p, hp, h1, h2, h3, v, hv, h4, h5⟩ := k3 u ((hF u hun).2 hu) hn
    exact ⟨p, hp, h1, h2, h3, by rw [← h5 hco]; exact hv⟩

/-- **C125** (interval triggers): a task that runs every `interval`, in zones of constant offset, without jitter and coalescing. -/
theorem C125_interval (hE : E.Fixed) (tz : Nat) (L : LawfulStore O) (c : Cfg Trig) (hri : 0 ≤ c.retryInterval) (δ ℓ b : Int)
    (hδ : 0 ≤ δ) (hℓ : 0 ≤ ℓ) (a i : String) (s0 : State σ Trig φ) (hw0 : WF L s0) (h0 : Told O (b + δ) s0 a i)
    (hm : s0.mode = .running) (t : T Trig φ)
    (ht : entry O s0 a i = some t) (g : Interval) (hg : t.body.trigger = .interval g) (hI : 0 < g.interval) (hj : g.jitter = none)
    (hco : t.body.coalesce = false) (r : Int) (hr : t.nrt = some r)
    (n : Int) (s : State σ Trig φ) (dl : Option Int) (turns : List Turn)
    (h : Driven L c (fun e => ∃ draw, e.next = Trig.next E tz draw) ℓ b a i t.body.executor s0 n s dl turns) :
    RunsOnTime c.retryInterval ℓ b δ a i
      (fun u => ∃ k : Nat, u = r + k * g.interval ∧ ∀ j : Nat, 0 < j → j ≤ k → g.WithinEnd E tz (r + j * g.interval)) n turns := by
  obtain ⟨hf, hreg⟩ := builtin_regular hE tz t.body.trigger (by rw [hg]; exact ⟨hI, hj⟩) r (by rw [hg]; trivial)
  refine runsOnTime_of L c hri δ ℓ b hδ hℓ a i s0 hw0 h0 hm t ht r hr hf hco n s dl turns _ h (fun e he _ => hreg e he) _ fun u _ => ?_
  rw [hg]
  exact interval_successor hE tz g hj r u

/-- **C125** (cron triggers): a task with a cron trigger, in zones of constant offset, without jitter and coalescing. -/
theorem C125_cron (hE : E.Fixed) (tz : Nat) (L : LawfulStore O) (c : Cfg Trig) (hri : 0 ≤ c.retryInterval) (δ ℓ b : Int)
    (hδ : 0 ≤ δ) (hℓ : 0 ≤ ℓ) (a i : String) (s0 : State σ Trig φ) (hw0 : WF L s0) (h0 : Told O (b + δ) s0 a i)
    (hm : s0.mode = .running) (t : T Trig φ)
    (ht : entry O s0 a i = some t) (g : Cron.Trig) (hg : t.body.trigger = .cron g) (hwf : g.WfAll) (hj : g.jitter = none)
    (hco : t.body.coalesce = false) (r : Int) (hr : t.nrt = some r) (hcal : 0 ≤ ((E (g.zone tz)).loc r).1)
    (n : Int) (s : State σ Trig φ) (dl : Option Int) (turns : List Turn)
    (h : Driven L c (fun e => ∃ draw, e.next = Trig.next E tz draw) ℓ b a i t.body.executor s0 n s dl turns) :
    RunsOnTime c.retryInterval ℓ b δ a i
      (fun u => u = r ∨ r < u ∧ Cron.FiresAt g.exprs (E (g.zone tz)) u ∧ g.WithinEnd E tz u) n turns := by
  obtain ⟨hf, hreg⟩ := builtin_regular hE tz t.body.trigger (by rw [hg]; exact ⟨hwf, hj⟩) r (by rw [hg]; exact hcal)
  refine runsOnTime_of L c hri δ ℓ b hδ hℓ a i s0 hw0 h0 hm t ht r hr hf hco n s dl turns _ h (fun e he _ => hreg e he) _ fun u _ => ?_
  rw [hg]
  exact cron_successor hE tz g hwf hj r u hcal

/-- **C125** (interval triggers, any time zones, over a period in which no clock is changed). -/
theorem C125_calm_interval (hS : E.Steady lo hi) (tz : Nat) (L : LawfulStore O) (c : Cfg Trig) (hri : 0 ≤ c.retryInterval) (δ ℓ b : Int)
    (hδ : 0 ≤ δ) (hℓ : 0 ≤ ℓ) (a i : String) (s0 : State σ Trig φ) (hw0 : WF L s0) (h0 : Told O (b + δ) s0 a i)
    (hm : s0.mode = .running) (t : T Trig φ)
    (ht : entry O s0 a i = some t) (g : Interval) (hg : t.body.trigger = .interval g) (hv : g.Valid) (hj : g.jitter = none)
    (hco : t.body.coalesce = false) (hst : ∀ s, g.stopDt tz = some s → s.Clear E lo hi) (r : Int) (hr : t.nrt = some r) (hlo : lo ≤ r)
    (n : Int) (hhi : n + g.interval ≤ hi) (s : State σ Trig φ) (dl : Option Int) (turns : List Turn)
    (h : Driven L c (fun e => ∃ draw, e.next = Trig.next E tz draw) ℓ b a i t.body.executor s0 n s dl turns) :
    RunsOnTime c.retryInterval ℓ b δ a i
      (fun u => ∃ k : Nat, u = r + k * g.interval ∧ ∀ j : Nat, 0 < j → j ≤ k → g.WithinEnd E tz (r + j * g.interval)) n turns := by
  obtain ⟨ans, hf, hreg, hsucc⟩ := interval_calm_ans hS tz g hv hj hst r hlo n hhi
  rw [← hg] at hreg
  exact runsOnTime_of L c hri δ ℓ b hδ hℓ a i s0 hw0 h0 hm t ht r hr hf hco n s dl turns _ h hreg _ hsucc

/-- **C125** (cron triggers, any time zones, over a period in which no clock is changed). -/
theorem C125_calm_cron (hS : E.Steady lo hi) (tz : Nat) (L : LawfulStore O) (c : Cfg Trig) (hri : 0 ≤ c.retryInterval) (δ ℓ b : Int)
    (hδ : 0 ≤ δ) (hℓ : 0 ≤ ℓ) (a i : String) (s0 : State σ Trig φ) (hw0 : WF L s0) (h0 : Told O (b + δ) s0 a i)
    (hm : s0.mode = .running) (t : T Trig φ)
    (ht : entry O s0 a i = some t) (g : Cron.Trig) (hg : t.body.trigger = .cron g) (hwf : g.WfAll) (hj : g.jitter = none)
    (hco : t.body.coalesce = false) (hE : (E (g.zone tz)).Lawful) (hcal : 0 ≤ ((E (g.zone tz)).loc lo).1)
    (hst : ∀ s, g.stopDt tz = some s → s.Clear E lo hi) (r : Int) (hr : t.nrt = some r) (hlo : lo ≤ r)
    (n : Int) (v : Int) (hv : Cron.FiresAt g.exprs (E (g.zone tz)) v) (hnv : n < v) (hvhi : v ≤ hi) (hve : g.WithinEnd E tz v)
    (s : State σ Trig φ) (dl : Option Int) (turns : List Turn)
    (h : Driven L c (fun e => ∃ draw, e.next = Trig.next E tz draw) ℓ b a i t.body.executor s0 n s dl turns) :
    RunsOnTime c.retryInterval ℓ b δ a i (fun u => u = r ∨ r < u ∧ Cron.FiresAt g.exprs (E (g.zone tz)) u) n turns := by
  obtain ⟨ans, hf, hreg, hsucc⟩ := cron_calm_ans hS tz g hwf hj hE hcal hst r hlo n v hv hnv hvhi hve
  rw [← hg] at hreg
  exact runsOnTime_of L c hri δ ℓ b hδ hℓ a i s0 hw0 h0 hm t ht r hr hf hco n s dl turns _ h hreg _ hsucc

/-! ## From `add_task` on -/

/-- a task without a next run time is left in peace -/
theorem Driven.idle {L : LawfulStore O} {c : Cfg Trig} {G : Env Trig → Prop} {ℓ b : Int} {a i x : String} {s0 : State σ Trig φ}
    (hw0 : WF L s0) (hm0 : s0.mode = .running) (he0 : ∀ t, entry O s0 a i = some t → t.nrt = none)
    {n : Int} {s : State σ Trig φ} {dl : Option Int} {ps : List Turn} (h : Driven L c G ℓ b a i x s0 n s dl ps) :
    (WF L s ∧ s.mode = .running ∧ entry O s a i = entry O s0 a i) ∧ ∀ p ∈ ps, reportedIn a i p = [] ∧ sends a i p.obs = [] := by
  have step : ∀ {e : Env Trig} {fuel : Nat} {s s' : State σ Trig φ} {ps : List Turn} {obs : List Obs} (served : Bool),
      ((WF L s ∧ s.mode = .running ∧ entry O s a i = entry O s0 a i) ∧ ∀ p ∈ ps, reportedIn a i p = [] ∧ sends a i p.obs = []) →
      tick O c e fuel s = some (s', .ok ()) → s'.log = s.log ++ obs →
      (WF L s' ∧ s'.mode = .running ∧ entry O s' a i = entry O s0 a i) ∧
        ∀ p ∈ ps ++ [⟨served, e.now, obs⟩], reportedIn a i p = [] ∧ sends a i p.obs = [] := by
    rintro e fuel s s' ps obs served ⟨⟨w1, w2, w3⟩, w4⟩ h hlog
    obtain ⟨obs', z1, z2, z3, z4⟩ := pass_gone L w1 w2 (fun t ht => he0 t (by rw [← w3]; exact ht)) h
    rw [hlog, List.append_cancel_left_eq] at z1
    subst z1
    refine ⟨⟨wf_tick w1 h, by rw [(kept_tick h).mode]; exact w2, by rw [z2, w3]⟩, fun p hp => ?_⟩
    rcases List.mem_append.1 hp with hp | hp
    · exact w4 p hp
    · rw [List.mem_singleton] at hp
      subst hp
      exact ⟨by simp [reportedIn, z3], z4⟩
  induction h with
  | start => exact ⟨⟨hw0, hm0, rfl⟩, by simp⟩
  | call hs hn' hdl hk hq h hm he ih =>
    obtain ⟨⟨w1, w2, w3⟩, w4⟩ := ih
    exact ⟨⟨wf_exec w1 hk h, hm, by rw [he, w3]⟩, w4⟩
  | other hs hn' hdl hw hm he ih =>
    obtain ⟨⟨w1, w2, w3⟩, w4⟩ := ih
    exact ⟨⟨hw, hm, by rw [he, w3]⟩, w4⟩
  | pass hs hn' hdl hg hl hx h hlog ih => exact step true ih h hlog
  | blocked hs hn' hdl hl h hlog ih => exact step false ih h hlog

theorem RunsOnTime.congr {ri ℓ b δ : Int} {a i : String} {F F' : Int → Prop} {n : Int} {turns : List Turn}
    (h : RunsOnTime ri ℓ b δ a i F n turns) (hF : ∀ u, F u ↔ F' u) : RunsOnTime ri ℓ b δ a i F' n turns :=
  ⟨h.once, fun p hp u hu => ⟨(hF u).1 (h.only p hp u hu).1, (h.only p hp u hu).2⟩, fun u hu => h.all u ((hF u).2 hu), h.handed⟩

/-- adding a task to a running scheduler, and starting one, wakes up the event loop -/
theorem Begins.woken {σ τ φ : Type} {O : StoreOps σ (Body τ φ)} {L : LawfulStore O} {c : Cfg τ} {e : Env τ} {t : T τ φ} {s1 : State σ τ φ}
    (h : Begins L c e t s1) (hm : s1.mode = .running) : s1.woken = true := by
  cases h with
  | @added s _ replace hw hs h =>
    simp only [addTask, if_neg hs, Option.getD_none, show decide ((none : Option (Option Int)) ≠ some none) = true by decide] at h
    rcases realAddTask_spec L hw e { t with nrt := t.nrt } replace true none with ⟨_, hx⟩ | ⟨n, _, _, _, _, _, _, _, hf, _⟩
    · rw [h] at hx
      rcases hx with ⟨_, _, hx⟩ | ⟨_, hx⟩ | ⟨_, _, hx⟩ <;> cases hx
    · rw [h] at hf
      have h1 := hf.woken
      have h2 := hf.mode
      simp only at h1 h2
      rw [h1, ← h2, hm]
      simp
  | @started s _ l replace paused e' hs hm0 hp hlock hmem hl hn h =>
    simp only [start] at h
    split at h
    · cases h
    · split at h
      · cases h
      · split at h
        · cases h
        · rename_i s2 _ _
          simp only [Prod.mk.injEq, and_true] at h
          subst h
          cases paused with
          | true => cases hm
          | false => simp [State.wake] 

/-- **C125** (interval triggers, from `add_task` on): in any time zones, if the start date, the addition and the time to one interval
from now lie in a period without a change of the clocks, the task runs on time at exactly the points of the grid `start + k * interval`
not before the addition, up to the end date. -/
theorem C125_added_interval (hS : E.Steady lo hi) (tz : Nat) (L : LawfulStore O) (c : Cfg Trig) (hri : 0 ≤ c.retryInterval) (ℓ : Int)
    (hℓ : 0 ≤ ℓ) (e : Env Trig) (he : ∃ draw, e.next = Trig.next E tz draw) (s1 : State σ Trig φ) (t : T Trig φ)
    (ht : t.nrt = none) (g : Interval) (hg : t.body.trigger = .interval g) (hv : g.Valid) (hj : g.jitter = none)
    (hco : t.body.coalesce = false) (hst : ∀ s, g.stopDt tz = some s → s.Clear E lo hi) (hstart : (g.startDt tz).In E lo hi)
    (hlo : lo ≤ e.now) (hnhi : e.now + g.interval ≤ hi) (hb : Begins L c e t s1) (hm : s1.mode = .running)
    (n : Int) (hhi : n + g.interval ≤ hi) (s : State σ Trig φ) (dl : Option Int) (turns : List Turn)
    (h : Driven L c (fun e => ∃ draw, e.next = Trig.next E tz draw) ℓ e.now t.body.store t.id t.body.executor s1 n s dl turns) :
    RunsOnTime c.retryInterval ℓ e.now 0 t.body.store t.id
      (fun u => (∃ k : Nat, u = (g.startDt tz).inst E + k * g.interval) ∧ e.now ≤ u ∧ g.WithinEnd E tz u) n turns := by
  obtain ⟨q0, hn, hw1, hent⟩ := hb.first ht
  obtain ⟨draw, he⟩ := he
  have hI := hv.1
  obtain ⟨n1, hnow⟩ := Dt.ofInst_in hS tz (u := e.now) hlo (by omega)
  rw [he, hg] at hn
  simp only [Trig.next, Option.map_none] at hn
  obtain ⟨_, _, _, _, hs2⟩ := hstart.facts hS
  have hC : g.Calm E tz none (Dt.ofInst E tz e.now) lo hi :=
    ⟨fun _ => ⟨hstart, n1, by rw [hj]; simp only [Option.getD_none, secs]; omega, by rw [hj, hnow]; simp only [Option.getD_none, secs]; omega⟩,
      by simp, hst⟩
  obtain ⟨q, ⟨⟨k0, hk0⟩, hq1, hq2⟩, hq⟩ := Interval.C11_interval_first_run_calm_partial hS g hv hj tz (Dt.ofInst E tz e.now) (draw 2) hC
  rw [hnow] at hq1 hq2
  rcases hq with ⟨hin, r, hr, hri'⟩ | ⟨hin, hr⟩
  · rw [hr] at hn
    simp only [toInst, Option.map_some, Except.ok.injEq] at hn
    subst hn
    rw [hri'] at hent
    refine (C125_calm_interval hS tz L c hri 0 ℓ e.now (Int.le_refl _) hℓ t.body.store t.id s1 hw1 (.inl (hb.woken hm)) hm
      { t with nrt := some q, body := { t.body with pending := false } } hent g hg hv hj hco hst q rfl (by omega) n hhi s dl turns h).congr
      fun u => ?_
    constructor
    · rintro ⟨k, rfl, hb⟩
      have hkI : 0 ≤ (k : Int) * g.interval := Int.mul_nonneg (by omega) (by omega)
      refine ⟨⟨k0 + k, ?_⟩, by omega, ?_⟩
      · rw [hk0]; push_cast; rw [Int.add_mul]; omega
      · rcases Nat.eq_zero_or_pos k with rfl | hk
        · simpa using hin
        · exact hb k hk (Nat.le_refl _)
    · rintro ⟨⟨k, rfl⟩, hu1, hu3⟩
      have hle := hq2 k hu1
      rw [hk0] at hle
      have hkk : (k0 : Int) * g.interval ≤ (k : Int) * g.interval := by omega
      have hkk' : k0 ≤ k := by
        have := Int.le_of_mul_le_mul_right hkk hI
        omega
      obtain ⟨j, rfl⟩ := Nat.le.dest hkk'
      have hsum : q + (j : Int) * g.interval = (g.startDt tz).inst E + ((k0 + j : Nat) : Int) * g.interval := by
        rw [hk0]; push_cast; rw [Int.add_mul]; omega
      refine ⟨j, hsum.symm, fun i _ hi st hst => ?_⟩
      have h5 := hu3 st hst
      have : (i : Int) * g.interval ≤ (j : Int) * g.interval := Int.mul_le_mul_of_nonneg_right (by omega) (by omega)
      omega
  · rw [hr] at hn
    simp only [toInst, Option.map_none, Except.ok.injEq] at hn
    subst hn
    obtain ⟨_, hnil⟩ := h.idle hw1 hm (fun t' ht' => by rw [hent] at ht'; cases ht'; rfl)
    refine ⟨fun u => ?_, fun p hp u hu => ?_, fun u hu => ?_, fun p hp _ => ?_⟩
    · rw [List.count_eq_zero.2]
      · omega
      · intro hu
        obtain ⟨p, hp, hu⟩ := List.mem_flatMap.1 hu
        rw [(hnil p hp).1] at hu; cases hu
    · rw [(hnil p hp).1] at hu; cases hu
    · obtain ⟨⟨k, rfl⟩, hu1, hu3⟩ := hu
      exact absurd (fun st hst => Int.le_trans (hq2 k hu1) (hu3 st hst)) hin
    · rw [(hnil p hp).1]; simp [submitted, (hnil p hp).2]

/-- **C125** (cron triggers, from `add_task` on): in any time zones, if the addition, the start date (if there is one) and the time to
some matching time to come (and not after the end date) lie in a period without a change of the clocks, the task runs on time at exactly
the matching times of the calendar not before the addition and the start date. -/
theorem C125_added_cron (hS : E.Steady lo hi) (tz : Nat) (L : LawfulStore O) (c : Cfg Trig) (hri : 0 ≤ c.retryInterval) (ℓ : Int)
    (hℓ : 0 ≤ ℓ) (e : Env Trig) (he : ∃ draw, e.next = Trig.next E tz draw) (s1 : State σ Trig φ) (t : T Trig φ)
    (ht : t.nrt = none) (g : Cron.Trig) (hg : t.body.trigger = .cron g) (hwf : g.WfAll) (hj : g.jitter = none)
    (hco : t.body.coalesce = false) (hE : (E (g.zone tz)).Lawful) (hcal : 0 ≤ ((E (g.zone tz)).loc lo).1)
    (hst : ∀ s, g.stopDt tz = some s → s.Clear E lo hi) (hstart : ∀ s, g.start = some s → (s.withTz (g.zone tz)).In E lo hi)
    (hlo : lo ≤ e.now) (hb : Begins L c e t s1) (hm : s1.mode = .running)
    (n v : Int) (hv : Cron.FiresAt g.exprs (E (g.zone tz)) v) (hTv : n < v) (hvhi : v ≤ hi) (hve : g.WithinEnd E tz v) (hnv : e.now ≤ v)
    (hsv : ∀ s, g.start = some s → (s.withTz (g.zone tz)).inst E ≤ v) (s : State σ Trig φ) (dl : Option Int) (turns : List Turn)
    (h : Driven L c (fun e => ∃ draw, e.next = Trig.next E tz draw) ℓ e.now t.body.store t.id t.body.executor s1 n s dl turns) :
    RunsOnTime c.retryInterval ℓ e.now 0 t.body.store t.id
      (fun u => Cron.FiresAt g.exprs (E (g.zone tz)) u ∧ e.now ≤ u ∧ ∀ st, g.start = some st → (st.withTz (g.zone tz)).inst E ≤ u) n turns := by
  obtain ⟨q0, hn, hw1, hent⟩ := hb.first ht
  obtain ⟨draw, he⟩ := he
  obtain ⟨n1, hnow⟩ := Dt.ofInst_in hS tz (u := e.now) hlo (by omega)
  rw [he, hg] at hn
  simp only [Trig.next, Option.map_none, cronNext] at hn
  have hfrom : ∀ u, Cron.searchFrom E g tz none (Dt.ofInst E tz e.now) ≤ u ↔
      e.now ≤ u ∧ ∀ st, g.start = some st → (st.withTz (g.zone tz)).inst E ≤ u := by
    intro u
    simp only [Cron.searchFrom, hnow]
    cases hst : g.start with
    | none => simp
    | some st =>
      simp only [Option.some.injEq, forall_eq']
      omega
  have hC : Cron.Calm E g tz none (Dt.ofInst E tz e.now) lo hi := ⟨n1, fun _ => hstart, by simp, hst⟩
  have hy : 0 ≤ (Cron.startOf E g tz none (Dt.ofInst E tz e.now)).wall := by
    obtain ⟨hin, hfr⟩ := Cron.startOf_calm hS hC
    obtain ⟨c, hc, e1, s1, s2⟩ := hin.facts hS
    rw [Cron.startOf_tz] at hc
    rw [(hc lo (Int.le_refl _) (by omega)).1] at hcal
    simp only [] at hcal
    omega
  obtain ⟨x, hx⟩ := cron_total g hwf tz hE none (Dt.ofInst E tz e.now) (draw 2) hy
  rw [hx] at hn
  simp only at hn
  obtain ⟨r, rfl, h1, h2, hf1, hf2, hf3⟩ := Cron.C18_cron_finds_calm_partial hS g hwf hj tz hE _ _ (draw 2) cronFuel hC hcal x hx v hv
    ((hfrom v).2 ⟨hnv, hsv⟩) hvhi hve
  simp only [toInst, Option.map_some, Except.ok.injEq] at hn
  subst hn
  have hr2 := (hfrom _).mp hf2
  refine (C125_calm_cron hS tz L c hri 0 ℓ e.now (Int.le_refl _) hℓ t.body.store t.id s1 hw1 (.inl (hb.woken hm)) hm
    { t with nrt := some (r.inst E), body := { t.body with pending := false } } hent g hg hwf hj hco hE hcal hst (r.inst E) rfl
    (by omega) n v hv hTv hvhi hve s dl turns h).congr fun u => ?_
  constructor
  · rintro (rfl | ⟨hu1, hu2⟩)
    · exact ⟨hf1, hr2.1, hr2.2⟩
    · exact ⟨hu2, by omega, fun st hst => by have := hr2.2 st hst; omega⟩
  · rintro ⟨hu1, hu2, hu3⟩
    have := hf3 u hu1 ((hfrom u).mpr ⟨hu2, hu3⟩)
    rcases Int.lt_or_eq_of_le this with h | h
    · exact .inr ⟨h, hu1⟩
    · exact .inl h.symm

end

/-! ## Example: a scheduler with three tasks, started at 7 s; a fourth is added at 14 s; the store is locked at 23 s -/

def exOnTimeCfg : Cfg Trig := ⟨false, secs 5, 1, secs 4294967, fun _ => false, 0⟩

/-- what happens in the example: a pass, a pass that finds the store locked, a call -/
inductive ExStep where
  | pass (now : Int)
  | locked (now : Int)
  | add (now : Int) (t : T Trig Unit)

/-- the time limit of a state, or no limit -/
def exBefore (dl : Option Int) (n now : Int) : Bool := decide (n ≤ now) && (match dl with | some d => decide (now ≤ d) | none => true)

/-- the store of task `i` is locked -/
def exLocked (now : Int) : Env Trig := { envAt exEnv 0 now with storeLock := fun _ => false }

/-- the steps of the example, checked against the time limits; the latest time, the state, the limit, and what was seen -/
def exDriven (ℓ : Int) (a i x : String) : List ExStep → Int × State (Memory.Store (Body Trig Unit)) Trig Unit × Option Int × List Turn →
    Option (Int × State (Memory.Store (Body Trig Unit)) Trig Unit × Option Int × List Turn)
  | [], p => some p
  | .pass now :: l, (n, s, dl, ps) =>
    if exBefore dl n now = true ∧ (s.executors.get? x).isSome = true then
      match tick Memory.ops exOnTimeCfg (envAt exEnv 0 now) 50 s with
      | some (s', .ok _) =>
        if s'.log = s.log ++ s'.log.drop s.log.length then
          exDriven ℓ a i x l (now, s', s'.timer.map (· + ℓ), ps ++ [⟨true, now, s'.log.drop s.log.length⟩])
        else none
      | _ => none
    else none
  | .locked now :: l, (n, s, dl, ps) =>
    if exBefore dl n now = true then
      match tick Memory.ops exOnTimeCfg (exLocked now) 50 s with
      | some (s', .ok _) =>
        if s'.log = s.log ++ s'.log.drop s.log.length then
          exDriven ℓ a i x l (now, s', s'.timer.map (· + ℓ), ps ++ [⟨false, now, s'.log.drop s.log.length⟩])
        else none
      | _ => none
    else none
  | .add now t :: l, (n, s, dl, ps) =>
    let s' := (addTask Memory.ops (envAt exEnv 0 now) t none false s).1
    if exBefore dl n now = true ∧ s.mode = .running ∧ s'.mode = .running ∧ ¬ (a = t.body.store ∧ i = t.id) then
      exDriven ℓ a i x l (now, s', dl.or (if s'.woken then some (now + ℓ) else none), ps)
    else none

/-- `add_task` leaves the tasks of other names alone -/
theorem addTask_other {σ τ φ : Type} {O : StoreOps σ (Body τ φ)} (L : LawfulStore O) (e : Env τ) {s : State σ τ φ} (hw : WF L s)
    (hm : s.mode = .running) (t : T τ φ) (replace : Bool) {a i : String} (h : ¬ (a = t.body.store ∧ i = t.id)) :
    entry O (addTask O e t none replace s).1 a i = entry O s a i := by
  simp only [addTask, if_neg (show ¬ s.mode = .stopped by rw [hm]; decide), Option.getD_none]
  rcases realAddTask_spec L hw e t replace (decide ((none : Option (Option Int)) ≠ some none)) none with ⟨h1, _⟩ | ⟨n, _, _, _, _, _, _, _, _, _, h10⟩
  · rw [h1]
  · rw [h10, put, if_neg h]

theorem Driven.wf {σ τ φ : Type} {O : StoreOps σ (Body τ φ)} {L : LawfulStore O} {c : Cfg τ} {G : Env τ → Prop} {ℓ b : Int}
    {a i x : String} {s0 : State σ τ φ} (h0 : WF L s0) {n : Int} {s : State σ τ φ} {dl : Option Int} {ps : List Turn}
    (h : Driven L c G ℓ b a i x s0 n s dl ps) : WF L s := by
  induction h with
  | start => exact h0
  | call _ _ _ hk _ h _ _ ih => exact wf_exec ih hk h
  | other _ _ _ hw _ _ _ => exact hw
  | pass _ _ _ _ _ _ h _ ih => exact wf_tick ih h
  | blocked _ _ _ _ h _ ih => exact wf_tick ih h

theorem exDriven_driven {ℓ b : Int} {a i x : String} {s0 : State (Memory.Store (Body Trig Unit)) Trig Unit}
    (h0 : WF (Memory.lawful (β := Body Trig Unit)) s0) (l : List ExStep)
    (p q : Int × State (Memory.Store (Body Trig Unit)) Trig Unit × Option Int × List Turn)
    (hp : Driven Memory.lawful exOnTimeCfg (fun e => ∃ draw, e.next = Trig.next exEnv 0 draw) ℓ b a i x s0 p.1 p.2.1 p.2.2.1 p.2.2.2)
    (h : exDriven ℓ a i x l p = some q) :
    Driven Memory.lawful exOnTimeCfg (fun e => ∃ draw, e.next = Trig.next exEnv 0 draw) ℓ b a i x s0 q.1 q.2.1 q.2.2.1 q.2.2.2 := by
  induction l generalizing p with
  | nil => simp only [exDriven, Option.some.injEq] at h; rw [← h]; exact hp
  | cons k l ih =>
    obtain ⟨n, s, dl, ps⟩ := p
    have hb : ∀ {now : Int}, exBefore dl n now = true → n ≤ now ∧ ∀ d, dl = some d → now ≤ d := by
      intro now hb
      simp only [exBefore, Bool.and_eq_true, decide_eq_true_eq] at hb
      refine ⟨hb.1, fun d hd => ?_⟩
      subst hd
      simpa using hb.2
    cases k with
    | pass now =>
      rw [exDriven] at h
      split at h
      · rename_i hc
        split at h
        · rename_i s' _ ht
          split at h
          · rename_i hlog
            exact ih _ (.pass (e := envAt exEnv 0 now) hp (hb hc.1).1 (hb hc.1).2 ⟨_, rfl⟩ ⟨rfl, rfl, rfl⟩ ⟨hc.2, rfl⟩ ht hlog) h
          · cases h
        · cases h
      · cases h
    | locked now =>
      rw [exDriven] at h
      split at h
      · rename_i hc
        split at h
        · rename_i s' _ ht
          split at h
          · rename_i hlog
            exact ih _ (.blocked (e := exLocked now) hp (hb hc).1 (hb hc).2 (.inr (.inl rfl)) ht hlog) h
          · cases h
        · cases h
      · cases h
    | add now t =>
      rw [exDriven] at h
      split at h
      · rename_i hc
        exact ih _ (.call (e := envAt exEnv 0 now) (fuel := 0) (k := .addTask t none false) hp (hb hc.1).1 (hb hc.1).2 trivial (by simp) rfl
          hc.2.2.1 (addTask_other _ _ (hp.wf h0) hc.2.1 t false hc.2.2.2)) h
      · cases h

/-- the scheduler of the example when it has been started -/
def exOnTime0 : State (Memory.Store (Body Trig Unit)) Trig Unit :=
  (start Memory.ops exOnTimeCfg (envAt exEnv 0 (day 7)) false (addAll Memory.ops (envAt exEnv 0 (day 0)) exThree State.init)).1

theorem exOnTime0_timeline : Timeline Memory.lawful exOnTimeCfg (secs 5) (day 7) exOnTime0 := by
  have key : ∀ (l : Adds Trig Unit) (s : State (Memory.Store (Body Trig Unit)) Trig Unit), Timeline Memory.lawful exOnTimeCfg (secs 5) (day 0) s →
      Timeline Memory.lawful exOnTimeCfg (secs 5) (day 0) (addAll Memory.ops (envAt exEnv 0 (day 0)) l s) := by
    intro l
    induction l with
    | nil => exact fun s h => h
    | cons p l ih =>
      obtain ⟨t, n, rep⟩ := p
      exact fun s h => ih _ (.call (e := envAt exEnv 0 (day 0)) (fuel := 0) (k := .addTask t n rep) h (Int.le_refl _) trivial (by simp) rfl)
  exact .call (e := envAt exEnv 0 (day 7)) (fuel := 0) (k := .start false) (key exThree _ (.init _)) (by decide) trivial (by simp) rfl

/-- latency 2 s -/
def exSteps : List ExStep :=
  [.pass (day 8), .pass (day 13), .add (day 14) ⟨"extra", none, ⟨.date ⟨⟨day 25, false, 0⟩⟩, "default", "default", true, 3, none, false, ()⟩⟩,
   .pass (day 15), .pass (day 21), .locked (day 23), .pass (day 29), .pass (day 30), .pass (day 34), .pass (day 45)]

def exOnTime (i : String) (l : List ExStep) : Option (List (Bool × Int × List Int) × Option Int) :=
  (exDriven (secs 2) "default" i "default" l
    (day 7, exOnTime0, (if exOnTime0.woken then some (day 7 + secs 2) else exOnTime0.timer.map (· + secs 2)), [])).map fun q =>
    (q.2.2.2.map (fun p => (p.served, p.now, reportedIn "default" i p)), q.2.2.1)

-- the hypotheses of C125 are met: `exOnTime0_timeline`, `Driven.start` and `exDriven_driven` (`exOnTime0` is `Begins.started`).  The
-- run of 23 s comes 6 s late because of the lock: `InTime` allows 5 + 2 after the pass that found it.
example : exOnTime0.mode = .running ∧ exOnTime0.woken = true ∧ (entry Memory.ops exOnTime0 "default" "tick").map (·.nrt) = some (some (day 13)) ∧
    (entry Memory.ops exOnTime0 "default" "half").map (·.nrt) = some (some (day 30)) := by
  refine ⟨?_, ?_, ?_, ?_⟩ <;> decide +kernel
example : exOnTime "tick" exSteps = some ([(true, day 8, []), (true, day 13, [day 13]), (true, day 15, []), (true, day 21, []),
    (false, day 23, []), (true, day 29, [day 23]), (true, day 30, []), (true, day 34, [day 33]), (true, day 45, [day 43])], some (day 55)) := by
  decide +kernel
example : (exOnTime "half" exSteps).map (fun p => p.1.filter fun q => !q.2.2.isEmpty) = some [(true, day 30, [day 30])] := by decide +kernel

end Sched
end Asyncz
