import Verif.Lemmas.Executor
/-!
# C27, C28, C29: executors
-/
namespace Asyncz
namespace Exec

/-! ## C29: one event per run time -/

/-- The run is missed: a grace time is set and more than it has passed since the run time. -/
def IsLate {ρ ε : Type} (r : Reading ρ ε) (runTime : Int) : Prop :=
  ∃ g, r.grace = some g ∧ runTime + g < r.now

theorem late_iff {ρ ε : Type} (r : Reading ρ ε) (t : Int) : late r.grace r.now t = true ↔ IsLate r t := by
  unfold late IsLate
  cases r.grace with
  | none => simp
  | some g => simp only [decide_eq_true_eq, Option.some.injEq, exists_eq_left']; omega

/-- The event that belongs to a run time. -/
def Describes {ρ ε : Type} (r : Reading ρ ε) (t : Int) (ev : Event ρ ε) : Prop :=
  (IsLate r t ∧ ev = .missed t) ∨
  (¬ IsLate r t ∧ ((∃ v, r.outcome = .returns v ∧ ev = .executed t v) ∨ (∃ x, r.outcome = .raises x ∧ ev = .error t x)))

/-- C29 (`_partial`: needs that the function only raises `Exception`s; see `C29_escape_witness`).
Running a task for any list of run times, whatever the clock shows, whatever the grace time and whatever the
function returns or raises, dispatches exactly one event per run time, in order, of the right kind; and the
function is called exactly for the run times that are not missed, in order. -/
theorem C29_one_event_each_partial {ρ ε : Type} (w : Nat → Reading ρ ε) (times : List Int)
    (hexc : ∀ i t, times[i]? = some t → ¬ IsLate (w i) t → (w i).outcome ≠ .escapes) :
    ∃ events, (runTask w times).2 = some events ∧ dispatched (runTask w times).2 = events ∧
      events.length = times.length ∧
      (∀ (i : Nat) t, times[i]? = some t → ∃ ev, events[i]? = some ev ∧ Describes (w i) t ev) ∧
      ∃ called : Nat → Bool, (∀ (i : Nat) t, times[i]? = some t → (called i = true ↔ ¬ IsLate (w i) t)) ∧
        (runTask w times).1 = (times.zipIdx.filter fun p => called p.2).map Prod.fst := by
  have key : ∀ (times : List Int) (k : Nat),
      (∀ i t, times[i]? = some t → ¬ IsLate (w (i + k)) t → (w (i + k)).outcome ≠ .escapes) →
      ∃ events, (runLoop w k times).2 = some events ∧ events.length = times.length ∧
      (∀ (i : Nat) t, times[i]? = some t → ∃ ev, events[i]? = some ev ∧ Describes (w (i + k)) t ev) ∧
      (runLoop w k times).1 = ((times.zipIdx k).filter fun p => !late (w p.2).grace (w p.2).now p.1).map Prod.fst := by
    intro times
    induction times with
    | nil => intro k _; exact ⟨[], rfl, rfl, by simp, rfl⟩
    | cons t ts ih =>
      intro k h
      have h0 := h 0 t rfl
      simp only [Nat.zero_add] at h0
      obtain ⟨evs, h1, h2, h3, h4⟩ := ih (k + 1) (fun i t' hi hl => by
        have := h (i + 1) t' (by simpa using hi)
        rw [show i + 1 + k = i + (k + 1) by omega] at this
        exact this hl)
      have wrap : ∀ ev, Describes (w k) t ev → ∃ events, (runLoop w (k + 1) ts).2.map (ev :: ·) = some events ∧
          events.length = (t :: ts).length ∧
          (∀ (i : Nat) t', (t :: ts)[i]? = some t' → ∃ ev, events[i]? = some ev ∧ Describes (w (i + k)) t' ev) := by
        intro ev hev
        refine ⟨ev :: evs, by rw [h1]; rfl, by simp [h2], ?_⟩
        intro i t' hi
        cases i with
        | zero => simp only [List.getElem?_cons_zero, Option.some.injEq] at hi; subst hi; exact ⟨ev, rfl, by simpa using hev⟩
        | succ i =>
          obtain ⟨ev', h5, h6⟩ := h3 i t' (by simpa using hi)
          exact ⟨ev', by simpa using h5, by rw [show i + 1 + k = i + (k + 1) by omega]; exact h6⟩
      simp only [runLoop, List.zipIdx_cons, List.filter_cons]
      by_cases hl : late (w k).grace (w k).now t = true
      · obtain ⟨events, h5, h6, h7⟩ := wrap (.missed t) (Or.inl ⟨(late_iff _ _).1 hl, rfl⟩)
        refine ⟨events, ?_, h6, h7, ?_⟩
        · simp only [hl, if_true]; exact h5
        · simp [hl, h4]
      · have hl' : ¬ IsLate (w k) t := fun e => hl ((late_iff _ _).2 e)
        cases ho : (w k).outcome with
        | returns v =>
          obtain ⟨events, h5, h6, h7⟩ := wrap (.executed t v) (Or.inr ⟨hl', Or.inl ⟨v, ho, rfl⟩⟩)
          refine ⟨events, ?_, h6, h7, ?_⟩
          · simp only [hl, if_false]; exact h5
          · simp [hl, h4]
        | raises x =>
          obtain ⟨events, h5, h6, h7⟩ := wrap (.error t x) (Or.inr ⟨hl', Or.inr ⟨x, ho, rfl⟩⟩)
          refine ⟨events, ?_, h6, h7, ?_⟩
          · simp only [hl, if_false]; exact h5
          · simp [hl, h4]
        | escapes => exact absurd ho (h0 hl')
  obtain ⟨events, h1, h2, h3, h4⟩ := key times 0 (by simpa using hexc)
  refine ⟨events, h1, ?_, h2, by simpa using h3, fun i => match times[i]? with
    | some t => !late (w i).grace (w i).now t | none => false, ?_, ?_⟩
  · unfold runTask; rw [h1]; rfl
  · intro i t hi
    simp only [hi]
    rw [Bool.not_eq_true', ← Bool.not_eq_true, late_iff]
  · unfold runTask
    rw [h4]
    congr 1
    apply List.filter_congr
    rintro ⟨t, i⟩ hm
    have := List.mem_zipIdx_iff_getElem?.1 hm
    simp only [this]

/-- not vacuous: one run too late, one that returns, one that raises -/
example : runTask (fun i => ⟨some 10, 100, if i = 1 then .returns "ok" else .raises "boom"⟩) [80, 90, 95] =
    ([90, 95], some [Event.missed 80, .executed 90 "ok", .error 95 "boom"]) := by decide

/-- without a grace time nothing is ever missed -/
example : runTask (ε := Unit) (fun _ => ⟨none, 1000000, .returns ()⟩) [0] = ([0], some [Event.executed 0 ()]) := by decide

/-- C29 fails for a function that exits: `run_task` catches `Exception` only (executors/base.py:131), so the
events of the run times handled before are lost as well: the first run was executed, and nothing is dispatched. -/
theorem C29_escape_witness : ∃ (w : Nat → Reading String Unit) (times : List Int),
    (runTask w times).1 = [1, 2] ∧ (w 0).outcome = .returns "done" ∧ dispatched (runTask w times).2 = [] :=
  ⟨fun i => ⟨none, 5, if i = 0 then .returns "done" else .escapes⟩, [1, 2], rfl, rfl, rfl⟩

/-! ## C27: at most `max_instances` runs -/

/-- runs of `id` that are submitted and have not ended -/
def running (s : Sys) (id : String) : Nat := (s.live.filter fun r => r.2 = id).length

theorem running_eq (s : Sys) (id : String) : running s id = liveN s id := by
  unfold running liveN
  rw [List.countP_eq_length_filter]
  congr 2

variable {ok : Nat → String → Int → Prop} {nests : Nat → Prop} {home : String → Nat}

/-- C27 (`_partial`: needs that a task is always sent to the same executor, and that this executor does not
submit tasks from inside `do_send_task`, as `DebugExecutor` can; see the two witnesses below).
In every interleaving of submissions, ends of runs, callbacks and failures in any number of threads and
executors, at most `lim` runs of a task are submitted and not ended, if no submission allows more. -/
theorem C27_max_instances_partial (hhome : ∀ ex id m, ok ex id m → ex = home id) {id : String} {lim : Int}
    (hn : ¬ nests (home id)) (hlim : ∀ ex m, ok ex id m → m ≤ lim) (h0 : 0 ≤ lim) {s : Sys}
    (h : Reach ok nests s) : (running s id : Int) ≤ lim := by
  induction h with
  | init => simpa [running, Sys.init] using h0
  | step hr hs ih =>
    rename_i s s'
    have inv := inv_reach hhome hr
    rw [running_eq] at ih ⊢
    cases hs with
    | submit hi hf =>
      rename_i i f rest m
      by_cases hid : f.id = id
      · have hex := inv.homeF i _ hi f (by simp)
        have hmid := no_mid inv hi hf (by rw [hex, hid]; exact hn)
        have hb := inv.bal f.id
        have hl := inv.loc i _ hi f (by simp)
        have hok := inv.okF i _ hi f (by simp)
        unfold Loc at hl
        unfold OkFrame at hok
        rw [hf] at hl hok
        simp only at hl hok
        have := hlim f.ex m (hid ▸ hok)
        rw [hid] at hb hl hmid
        simp only [liveN, List.countP_cons, hid, beq_self_eq_true, if_true] at *
        omega
      · simpa [liveN, List.countP_cons, hid] using ih
    | abort hi hf hn' hl =>
      have := liveN_erase hl id (s' := { s with live := s.live.erase _ }) rfl
      simp only [liveN] at *; omega
    | ends hl =>
      have := liveN_erase hl id (s' := { s with live := s.live.erase _ }) rfl
      simp only [liveN] at *; omega
    | endsInline hi hf hl =>
      have := liveN_erase hl id (s' := { s with live := s.live.erase _ }) rfl
      simp only [liveN] at *; omega
    | cancelled hl =>
      have := liveN_erase hl id (s' := { s with live := s.live.erase _ }) rfl
      simp only [liveN] at *; omega
    | _ => simpa [liveN] using ih

/-- C27 for limits that change: a submission that starts a run leaves at most its own `max_instances` runs.
(`_partial`: same conditions.) -/
theorem C27_submission_partial (hhome : ∀ ex id m, ok ex id m → ex = home id) {id : String}
    (hn : ¬ nests (home id)) {s s' : Sys} (h : Reach ok nests s) (hs : Step ok nests s s')
    (hgrow : running s id < running s' id) : ∃ ex m, ok ex id m ∧ (running s' id : Int) ≤ m := by
  have inv := inv_reach hhome h
  rw [running_eq, running_eq] at hgrow
  rw [running_eq]
  cases hs with
  | submit hi hf =>
    rename_i i f rest m
    by_cases hid : f.id = id
    · have hex := inv.homeF i _ hi f (by simp)
      have hmid := no_mid inv hi hf (by rw [hex, hid]; exact hn)
      have hb := inv.bal f.id
      have hl := inv.loc i _ hi f (by simp)
      have hok := inv.okF i _ hi f (by simp)
      unfold Loc at hl
      unfold OkFrame at hok
      rw [hf] at hl hok
      simp only at hl hok
      refine ⟨f.ex, m, hid ▸ hok, ?_⟩
      rw [hid] at hb hl hmid
      simp only [liveN, List.countP_cons, hid, beq_self_eq_true, if_true] at *
      omega
    · simp [liveN, List.countP_cons, hid] at hgrow
  | abort hi hf hn' hl =>
    have := liveN_erase hl id (s' := { s with live := s.live.erase _ }) rfl
    simp only [liveN] at *; omega
  | ends hl =>
    have := liveN_erase hl id (s' := { s with live := s.live.erase _ }) rfl
    simp only [liveN] at *; omega
  | endsInline hi hf hl =>
    have := liveN_erase hl id (s' := { s with live := s.live.erase _ }) rfl
    simp only [liveN] at *; omega
  | cancelled hl =>
    have := liveN_erase hl id (s' := { s with live := s.live.erase _ }) rfl
    simp only [liveN] at *; omega
  | _ => simp [liveN] at hgrow

/-- C27, the refusal (`_partial`: same conditions): while `max` runs of a task are going on, a `send_task`
with that limit raises `MaximumInstancesError`, starts nothing and counts nothing. -/
theorem C27_refused_partial (hhome : ∀ ex id m, ok ex id m → ex = home id) {s : Sys} (h : Reach ok nests s)
    {i : Nat} {f : Frame} {rest : List Frame} {m : Int} (hi : s.threads[i]? = some (f :: rest))
    (hf : f.op = .sendCheck m) (hn : ¬ nests f.ex) (hrun : m ≤ running s f.id) {op' : Op} {T' : Dict String Int}
    (hm : Move f.id f.op s.table op' T') : op' = .done ∧ ∀ id, count T' id = count s.table id := by
  have inv := inv_reach hhome h
  have hb := inv.bal f.id
  rw [running_eq] at hrun
  have hmid : frames s f.id Op.mid = 0 := by
    unfold frames
    rw [List.countP_eq_zero]
    intro g hg hgm
    simp only [isAt, Bool.and_eq_true, beq_iff_eq] at hgm
    obtain ⟨st, hst, hg⟩ := List.mem_flatten.1 hg
    obtain ⟨j, hj⟩ := List.mem_iff_getElem?.1 hst
    have hex : g.ex = f.ex := by rw [inv.homeF j st hj g hg, inv.homeF i _ hi f (by simp), hgm.1]
    have hgh : g.op.holds = true := by
      generalize g.op = o at hgm; revert hgm; cases o <;> simp [Op.mid, Op.holds]
    have hji := inv.mutex j i f.ex ⟨st, hj, g, hg, hex, hgh⟩ ⟨_, hi, f, by simp, rfl, by rw [hf]; rfl⟩
    subst hji
    rw [hi] at hj
    simp only [Option.some.injEq] at hj
    subst hj
    rcases List.mem_cons.1 hg with rfl | hg
    · rw [hf] at hgm; simp [Op.mid] at hgm
    · have := (inv.chain j f rest hi).1 (by rw [hf]; rfl) g hg
      rw [hex] at this
      exact hn this
  rw [hf] at hm
  cases hm with
  | checkFail _ => exact ⟨rfl, fun id => count_set_self _ _ _⟩
  | checkOk hc => omega

/-! ## C28: the count comes back to zero -/

/-- C28 (`_partial`: same condition on executors, and no run may have been cancelled in a pool, see
`C28_cancelled_blocks`; the entry of the dictionary itself may stay, see `C28_entry_witness`).
Whenever no call for a task is in progress, its count is exactly the number of its runs that are going on. -/
theorem C28_count_exact_partial (hhome : ∀ ex id m, ok ex id m → ex = home id) {id : String} {s : Sys}
    (h : Reach ok nests s) (hq : ∀ st ∈ s.threads, ∀ f ∈ st, f.id ≠ id) (hc : id ∉ s.lost) :
    count s.table id = running s id := by
  have hz : ∀ p, frames s id p = 0 := by
    intro p
    unfold frames
    rw [List.countP_eq_zero]
    intro g hg hgm
    simp only [isAt, Bool.and_eq_true, beq_iff_eq] at hgm
    obtain ⟨st, hst, hg⟩ := List.mem_flatten.1 hg
    exact hq st hst g hg hgm.1
  have hb := (inv_reach hhome h).bal id
  have hl : lostN s id = 0 := List.count_eq_zero.2 hc
  rw [hz, hz, hl] at hb
  rw [running_eq]
  omega

/-- C28: when every run of a task has ended, its count is 0 and `send_task` accepts it again.
(`_partial`: same conditions.) -/
theorem C28_no_leak_partial (hhome : ∀ ex id m, ok ex id m → ex = home id) {id : String} {s : Sys}
    (h : Reach ok nests s) (hq : ∀ st ∈ s.threads, ∀ f ∈ st, f.id ≠ id) (hc : id ∉ s.lost)
    (hr : running s id = 0) : count s.table id = 0 ∧
    ∀ m op' T', 0 < m → Move id (.sendCheck m) s.table op' T' → op' = .sendDo m := by
  have hz := C28_count_exact_partial hhome h hq hc
  rw [hr] at hz
  refine ⟨by simpa using hz, fun m op' T' hm hmv => ?_⟩
  cases hmv with
  | checkFail hf => simp at hz; omega
  | checkOk _ => rfl

/-- The flaw that C28 excludes: a run that is cancelled in a pool (`cancel_futures=True`) is never counted
down, because the callback itself raises (pool.py:29-33).  After `max` such runs every later submission to an
executor that does not nest is refused, in every continuation, although nothing is running. -/
theorem C28_cancelled_blocks (hhome : ∀ ex id m, ok ex id m → ex = home id) {s : Sys} (h : Reach ok nests s)
    {i : Nat} {f : Frame} {rest : List Frame} {m : Int} (hi : s.threads[i]? = some (f :: rest))
    (hf : f.op = .sendDo m) (hn : ¬ nests f.ex) : (s.lost.count f.id : Int) < m := by
  have inv := inv_reach hhome h
  have hmid := no_mid inv hi hf hn
  have hb := inv.bal f.id
  have hl := inv.loc i _ hi f (by simp)
  unfold Loc at hl
  rw [hf] at hl
  simp only [lostN] at hl hb
  omega

/-! ## An executable scheduler for concrete interleavings -/

/-- a choice of the next step -/
inductive Act where
  | spawn (ex : Nat) (id : String) (m : Int)
  | nest (i ex : Nat) (id : String) (m : Int)
  | acquire (i : Nat)
  | move (i : Nat)
  | submit (i : Nat)
  | release (i : Nat)
  | ends (ex : Nat) (id : String)
  | endsInline (i : Nat)
  | cancelled (ex : Nat) (id : String)

def enterOf : Op → Option Op
  | .sendWait m => some (.sendCheck m)
  | .finWait => some .finRead
  | _ => none

def moveOf (id : String) (T : Dict String Int) : Op → Option (Op × Dict String Int)
  | .sendCheck m => if count T id ≥ m then some (.done, T.set id (count T id)) else some (.sendDo m, T.set id (count T id))
  | .sendSent => some (.sendRead, T)
  | .sendRead => some (.sendWrite (count T id), T.set id (count T id))
  | .sendWrite n => some (.done, T.set id (n + 1))
  | .finRead => some (.finWrite (count T id), T.set id (count T id))
  | .finWrite n => some (.finCheck, T.set id (n - 1))
  | .finCheck => if count T id = 0 then some (.finDel, T.set id (count T id)) else some (.done, T.set id (count T id))
  | .finDel => some (.done, T.erase id)
  | _ => none

def free (s : Sys) (i ex : Nat) : Bool :=
  s.threads.zipIdx.all fun p => p.2 == i || p.1.all fun f => !(f.ex == ex && f.op.holds)

def apply (okB : Nat → String → Int → Bool) (nestsB : Nat → Bool) (s : Sys) : Act → Option Sys
  | .spawn ex id m => if okB ex id m then some { s with threads := s.threads ++ [[⟨ex, id, .sendWait m⟩]] } else none
  | .nest i ex id m => match s.threads[i]? with
    | some (f :: rest) => if okB ex id m ∧ f.op = .sendSent ∧ nestsB f.ex = true then
        some { s with threads := s.threads.set i (⟨ex, id, .sendWait m⟩ :: f :: rest) } else none
    | _ => none
  | .acquire i => match s.threads[i]? with
    | some (f :: rest) => match enterOf f.op with
      | some op' => if free s i f.ex then some { s with threads := s.threads.set i ({ f with op := op' } :: rest) } else none
      | none => none
    | _ => none
  | .move i => match s.threads[i]? with
    | some (f :: rest) => match moveOf f.id s.table f.op with
      | some r => some { s with table := r.2, threads := s.threads.set i ({ f with op := r.1 } :: rest) }
      | none => none
    | _ => none
  | .submit i => match s.threads[i]? with
    | some (f :: rest) => match f.op with
      | .sendDo _ => some { s with threads := s.threads.set i ({ f with op := .sendSent } :: rest), live := (f.ex, f.id) :: s.live }
      | _ => none
    | _ => none
  | .release i => match s.threads[i]? with
    | some (f :: rest) => if f.op = .done then some { s with threads := s.threads.set i rest } else none
    | _ => none
  | .ends ex id => if (ex, id) ∈ s.live then
      some { s with threads := s.threads ++ [[⟨ex, id, .finWait⟩]], live := s.live.erase (ex, id) } else none
  | .endsInline i => match s.threads[i]? with
    | some (f :: rest) => if f.op = .sendSent ∧ (f.ex, f.id) ∈ s.live then
        some { s with threads := s.threads.set i (⟨f.ex, f.id, .finWait⟩ :: f :: rest), live := s.live.erase (f.ex, f.id) } else none
    | _ => none
  | .cancelled ex id => if (ex, id) ∈ s.live then
      some { s with live := s.live.erase (ex, id), lost := id :: s.lost } else none

theorem moveOf_sound {id : String} {T T' : Dict String Int} {op op' : Op} (h : moveOf id T op = some (op', T')) :
    Move id op T op' T' := by
  cases op <;> simp only [moveOf, Option.some.injEq, Prod.mk.injEq, reduceCtorEq] at h
  case sendCheck m =>
    split at h <;> simp only [Option.some.injEq, Prod.mk.injEq] at h <;> obtain ⟨rfl, rfl⟩ := h
    · exact .checkFail (by assumption)
    · exact .checkOk (by omega)
  case finCheck =>
    split at h <;> simp only [Option.some.injEq, Prod.mk.injEq] at h <;> obtain ⟨rfl, rfl⟩ := h
    · exact .finZero (by assumption)
    · exact .finNonzero (by assumption)
  all_goals obtain ⟨rfl, rfl⟩ := h; constructor

theorem free_sound {s : Sys} {i ex : Nat} (h : free s i ex = true) : ∀ j, j ≠ i → ¬ holdsLock s j ex := by
  rintro j hj ⟨st, hst, f, hf, he, hh⟩
  unfold free at h
  rw [List.all_eq_true] at h
  have := h (st, j) (List.mem_zipIdx_iff_getElem?.2 hst)
  simp only [Bool.or_eq_true, beq_iff_eq, List.all_eq_true, Bool.not_eq_true', Bool.and_eq_false_iff] at this
  rcases this with h1 | h1
  · exact hj h1
  · rcases h1 f hf with h2 | h2
    · simp [he] at h2
    · rw [hh] at h2; simp at h2

theorem apply_sound {okB : Nat → String → Int → Bool} {nestsB : Nat → Bool} {s s' : Sys} {a : Act}
    (h : apply okB nestsB s a = some s') :
    Step (fun ex id m => okB ex id m = true) (fun ex => nestsB ex = true) s s' := by
  cases a with
  | spawn ex id m =>
    simp only [apply] at h
    split at h
    · simp only [Option.some.injEq] at h; subst h; exact .spawn (by assumption)
    · simp at h
  | nest i ex id m =>
    simp only [apply] at h
    split at h
    · split at h
      · rename_i hc; simp only [Option.some.injEq] at h; subst h; exact .nest hc.1 (by assumption) hc.2.1 hc.2.2
      · simp at h
    · simp at h
  | acquire i =>
    simp only [apply] at h
    split at h
    · rename_i f rest hi
      split at h
      · rename_i op' ho
        split at h
        · rename_i hfree
          simp only [Option.some.injEq] at h; subst h
          refine .acquire hi ?_ (free_sound hfree)
          generalize f.op = o at ho
          cases o <;> simp [enterOf] at ho <;> subst ho <;> constructor
        · simp at h
      · simp at h
    · simp at h
  | move i =>
    simp only [apply] at h
    split at h
    · rename_i f rest hi
      split at h
      · rename_i r ho
        simp only [Option.some.injEq] at h; subst h
        exact .move hi (moveOf_sound ho)
      · simp at h
    · simp at h
  | submit i =>
    simp only [apply] at h
    split at h
    · rename_i f rest hi
      split at h
      · simp only [Option.some.injEq] at h; subst h
        exact .submit hi (by assumption)
      · simp at h
    · simp at h
  | release i =>
    simp only [apply] at h
    split at h
    · rename_i f rest hi
      split at h
      · simp only [Option.some.injEq] at h; subst h
        exact .release hi (by assumption)
      · simp at h
    · simp at h
  | ends ex id =>
    simp only [apply] at h
    split at h
    · simp only [Option.some.injEq] at h; subst h; exact .ends (by assumption)
    · simp at h
  | endsInline i =>
    simp only [apply] at h
    split at h
    · rename_i f rest hi
      split at h
      · rename_i hc; simp only [Option.some.injEq] at h; subst h
        exact .endsInline hi hc.1 hc.2
      · simp at h
    · simp at h
  | cancelled ex id =>
    simp only [apply] at h
    split at h
    · simp only [Option.some.injEq] at h; subst h; exact .cancelled (by assumption)
    · simp at h

def applyAll (okB : Nat → String → Int → Bool) (nestsB : Nat → Bool) : Sys → List Act → Option Sys
  | s, [] => some s
  | s, a :: as => (apply okB nestsB s a).bind fun s' => applyAll okB nestsB s' as

theorem applyAll_reach {okB : Nat → String → Int → Bool} {nestsB : Nat → Bool} {s s' : Sys} {as : List Act}
    (hr : Reach (fun ex id m => okB ex id m = true) (fun ex => nestsB ex = true) s)
    (h : applyAll okB nestsB s as = some s') :
    Reach (fun ex id m => okB ex id m = true) (fun ex => nestsB ex = true) s' := by
  induction as generalizing s with
  | nil => simp only [applyAll, Option.some.injEq] at h; exact h ▸ hr
  | cons a as ih =>
    simp only [applyAll, Option.bind_eq_some_iff] at h
    obtain ⟨s1, h1, h2⟩ := h
    exact ih (.step hr (apply_sound h1)) h2

/-- two submissions of "a" with limit 2 to executor 0 by two threads, interleaved where the lock permits; one
ends while the other is going on -/
def exTwoRuns : List Act :=
  [.spawn 0 "a" 2, .spawn 0 "a" 2, .acquire 0, .move 0, .submit 0, .move 0, .move 0, .move 0, .release 0,
   .acquire 1, .move 1, .submit 1, .ends 0 "a", .move 1, .move 1, .move 1, .release 1,
   .acquire 2, .move 2, .move 2, .move 2, .release 2]

/-- The hypotheses of the theorems of C27 and C28 are met by a history with two runs going on at once. -/
example : ∃ s, Reach (fun ex id m => (ex == 0 && id == "a" && m == 2) = true) (fun ex => (false && ex == 0) = true) s ∧
    running s "a" = 2 :=
  ⟨_, applyAll_reach (okB := fun ex id m => ex == 0 && id == "a" && m == 2) (nestsB := fun ex => false && ex == 0)
    (as := exTwoRuns.take 12) .init (by rfl), by decide⟩

example : ∃ s, Reach (fun ex id m => (ex == 0 && id == "a" && m == 2) = true) (fun ex => (false && ex == 0) = true) s ∧
    (∀ st ∈ s.threads, ∀ f ∈ st, f.id ≠ "a") ∧ "a" ∉ s.lost ∧ running s "a" = 1 ∧ s.table = [("a", 1)] :=
  ⟨_, applyAll_reach (okB := fun ex id m => ex == 0 && id == "a" && m == 2) (nestsB := fun ex => false && ex == 0)
    (as := exTwoRuns) .init (by rfl), by decide, by decide, by decide, by decide⟩

/-- C27 fails if a task is sent to two executors (each has its own lock, `instances` is shared): two threads
both read 0 before either counts up, and two runs of a task with `max_instances=1` are going on. -/
theorem C27_two_executors_witness : ∃ s, Reach (fun ex id m => (id == "a" && m == 1 && decide (ex < 2)) = true)
    (fun ex => (false && ex == 0) = true) s ∧ running s "a" = 2 :=
  ⟨_, applyAll_reach (okB := fun ex id m => id == "a" && m == 1 && decide (ex < 2)) (nestsB := fun ex => false && ex == 0)
    (as := [.spawn 0 "a" 1, .spawn 1 "a" 1, .acquire 0, .acquire 1, .move 0, .move 1, .submit 0, .submit 1])
    .init (by rfl), by decide⟩

/-- C27 fails for an executor that runs the function inside `do_send_task` (`DebugExecutor`): the run is not
yet counted when the function submits its own task again. -/
theorem C27_nested_witness : ∃ s, Reach (fun ex id m => (ex == 0 && id == "a" && m == 1) = true)
    (fun ex => (ex == 0) = true) s ∧ running s "a" = 2 :=
  ⟨_, applyAll_reach (okB := fun ex id m => ex == 0 && id == "a" && m == 1) (nestsB := fun ex => ex == 0)
    (as := [.spawn 0 "a" 1, .acquire 0, .move 0, .submit 0, .nest 0 0 "a" 1, .acquire 0, .move 0, .submit 0])
    .init (by rfl), by decide⟩

/-- After a run inside `do_send_task` the count is 0 but the entry stays: it goes to -1 first, which the test
for 0 does not remove (executors/base.py:77-79). -/
theorem C28_entry_witness : ∃ s, Reach (fun ex id m => (ex == 0 && id == "a" && m == 1) = true)
    (fun ex => (ex == 0) = true) s ∧ s.threads = [[]] ∧ s.live = [] ∧ s.table = [("a", 0)] :=
  ⟨_, applyAll_reach (okB := fun ex id m => ex == 0 && id == "a" && m == 1) (nestsB := fun ex => ex == 0)
    (as := [.spawn 0 "a" 1, .acquire 0, .move 0, .submit 0, .endsInline 0, .acquire 0, .move 0, .move 0, .move 0,
      .release 0, .move 0, .move 0, .move 0, .release 0])
    .init (by rfl), by decide, by decide, by decide⟩

/-- A cancelled run keeps the task from ever running again: nothing is going on, and the check refuses it. -/
theorem C28_cancelled_witness : ∃ s, Reach (fun ex id m => (ex == 0 && id == "a" && m == 1) = true)
    (fun ex => (false && ex == 0) = true) s ∧ running s "a" = 0 ∧
    (∀ op' T', Move "a" (.sendCheck 1) s.table op' T' → op' = .done) :=
  ⟨_, applyAll_reach (okB := fun ex id m => ex == 0 && id == "a" && m == 1) (nestsB := fun ex => false && ex == 0)
    (as := [.spawn 0 "a" 1, .acquire 0, .move 0, .submit 0, .move 0, .move 0, .move 0, .release 0, .cancelled 0 "a"])
    .init (by rfl), by decide, by
      intro op' T' h
      cases h with
      | checkFail _ => rfl
      | checkOk h => exact absurd h (by decide)⟩

/-! ## The scheduler's view -/

theorem set_set (T : Dict String Int) (id : String) (a b : Int) : (T.set id a).set id b = T.set id b := by
  induction T with
  | nil => simp [Dict.set]
  | cons p T ih =>
    obtain ⟨k, v⟩ := p
    simp only [Dict.set]
    by_cases h : k = id <;> simp [h, Dict.set, ih]

/-- `Sched.sendTask`, which the model of the scheduler uses, is a call of `send_task` that no other thread
interrupts. -/
theorem sendTask_is_send {σ τ φ : Type} (e : Sched.Env τ) (executor store : String) (t : Sched.T τ φ) (times : List Int)
    (s : Sched.State σ τ φ) : let r := Sched.sendTask e executor store t times s
    match r.2 with
    | .max => Move t.id (.sendCheck t.body.maxInst) s.instances .done r.1.instances
    | .failed => ∃ T, Move t.id (.sendCheck t.body.maxInst) s.instances (.sendDo t.body.maxInst) T ∧
        Move t.id (.sendDo t.body.maxInst) T .done r.1.instances
    | .ok => ∃ T n T', Move t.id (.sendCheck t.body.maxInst) s.instances (.sendDo t.body.maxInst) T ∧
        Move t.id .sendRead T (.sendWrite n) T' ∧ Move t.id (.sendWrite n) T' .done r.1.instances := by
  simp only [Sched.sendTask]
  by_cases h : (s.instances.get? t.id).getD 0 ≥ t.body.maxInst
  · simp only [h, if_true]
    exact .checkFail h
  · simp only [h, if_false]
    have hok : Move t.id (.sendCheck t.body.maxInst) s.instances (.sendDo t.body.maxInst)
        (s.instances.set t.id (count s.instances t.id)) := .checkOk (by unfold count; omega)
    by_cases hs : e.sendOk executor t.id = true
    · simp only [hs, if_true]
      refine ⟨_, _, _, hok, .sendRead, ?_⟩
      have : count (s.instances.set t.id (count s.instances t.id)) t.id = (s.instances.get? t.id).getD 0 := by
        rw [count_set_self]; rfl
      have h2 : ((s.instances.set t.id ((s.instances.get? t.id).getD 0)).set t.id ((s.instances.get? t.id).getD 0 + 1)) =
          (((s.instances.set t.id (count s.instances t.id)).set t.id
            (count (s.instances.set t.id (count s.instances t.id)) t.id)).set t.id
            (count (s.instances.set t.id (count s.instances t.id)) t.id + 1)) := by
        rw [this, set_set, set_set, set_set]
      rw [h2]
      exact .sendWrite
    · simp only [hs]
      exact ⟨_, hok, .sendFails⟩

end Exec
end Asyncz
