import Verif.Lemmas.SchedCount
import Verif.Lemmas.SchedStore
/-!
# Processing passes (C24, C31, C32, C14)

The theorems hold for every lawful store (`LawfulStore`; `MemoryStore` is one, `Memory.lawful`).
-/
namespace Asyncz
namespace Sched
variable {σ τ φ : Type} {O : StoreOps σ (Body τ φ)}

/-! ## Examples: a scheduler with two memory stores -/

/-- example triggers: period `g` (`0`: once) -/
def exNext (_ : Nat) (g : Int) (prev : Option Int) (now : Int) : Except Exc (Option Int) :=
  match prev with
  | none => .ok (some now)
  | some p => .ok (if g = 0 then none else some (p + g))

def exEnvAt (now : Int) : Env Int := ⟨now, exNext, fun _ => true, true, fun _ => true, fun _ _ => true⟩

def exBody (g : Int) (ex store : String) (co : Bool) (mx : Int) : Body Int Unit :=
  ⟨g, ex, store, co, mx, none, false, ()⟩

def exTasks : List (T Int Unit) :=
  [⟨"a", some 10, exBody 10 "default" "s1" false 3⟩, ⟨"b", some 5, exBody 10 "default" "s1" true 3⟩,
   ⟨"c", some 100, exBody 7 "default" "s1" true 3⟩, ⟨"d", some 30, exBody 0 "default" "s1" true 3⟩,
   ⟨"e", some 3, exBody 10 "gone" "s1" true 3⟩, ⟨"f", some 3, exBody 40 "default" "s1" true 0⟩]

abbrev MS := Memory.Store (Body Int Unit)

def exState : State MS Int Unit :=
  { mode := .running, refs := 1, executors := [("default", 0)],
    stores := [("s1", Memory.after (exTasks.map StoreOp.add)),
      ("s2", Memory.after [.add ⟨"a", some 33, exBody 50 "default" "s2" false 1⟩])],
    pending := [], instances := [], timer := none, woken := false, log := [] }

theorem exState_wf : WF (Memory.lawful (β := Body Int Unit)) exState := by
  refine ⟨(by decide : ["s1", "s2"].Nodup), fun a st h => ?_⟩
  simp only [exState, Dict.get?] at h
  split at h
  · cases h; exact ⟨_, rfl⟩
  · split at h
    · cases h; exact ⟨_, rfl⟩
    · cases h

/-- next run time and existence of the example tasks -/
def exView (s : State MS Int Unit) : List (Option (Option Int)) :=
  (["a", "b", "c", "d", "e", "f"].map fun i => (entry Memory.ops s "s1" i).map Task.nrt) ++
    [(entry Memory.ops s "s2" "a").map Task.nrt]

def exCfg : Cfg Int := ⟨false, 10, 1, 4000000, fun _ => false, 0⟩

/-! ## C24: the due run times of a task -/

theorem Successive.unique {nx : Int → Option Int} {now : Int} {first : Option Int} {l l' : List Int}
    (h : DueTimes nx now first l) (h' : DueTimes nx now first l') : l = l' := by
  obtain ⟨x, h1, h2, h3⟩ := h
  obtain ⟨x', h1', h2', h3'⟩ := h'
  induction h1 generalizing l' with
  | nil x =>
    cases h1' with
    | nil => rfl
    | cons h => rename_i r l; have := h2' r (List.mem_cons_self ..); have := h3 r rfl; omega
  | cons h ih =>
    rename_i r l x
    cases h1' with
    | nil => have := h2 r (List.mem_cons_self ..); have := h3' r rfl; omega
    | cons h' =>
      rw [ih (fun t ht => h2 t (List.mem_cons_of_mem _ ht)) h3 h'
        (fun t ht => h2' t (List.mem_cons_of_mem _ ht))]

/-- **C24** (partial): for a trigger that answers `nx p` after a run at `p` and goes forward,
`get_run_times` ends and returns exactly the successive times from `next_run_time` on that are not after
`now`, in increasing order; the time that follows them is after `now`; and there is only one such list.
Partial: a trigger that goes backward (an interval in the repeated hour of a daylight saving zone, see
`C24_dst_witness`) gives a list that is not in order. -/
theorem C24_due_run_times_partial (e : Env τ) (g : τ) (nx : Int → Option Int)
    (hn : ∀ r, r ≤ e.now → e.next 0 g (some r) e.now = .ok (nx r))
    (ha : ∀ p r, p ≤ e.now → nx p = some r → p < r) (first : Option Int) :
    ∃ fuel l, (∀ k, runTimes e g (fuel + k) first = some (.ok l)) ∧
      (∃ after, Successive nx first l after ∧ (∀ t ∈ l, t ≤ e.now) ∧ ∀ r, after = some r → e.now < r) ∧
      l.Pairwise (· < ·) ∧ ∀ l', DueTimes nx e.now first l' → l' = l := by
  have ha' : ∀ p r, p ≤ e.now → e.next 0 g (some p) e.now = .ok (some r) → p < r := by
    intro p r hp h
    rw [hn p hp] at h
    exact ha p r hp (by simpa using h)
  have main : ∀ fuel : Nat, (∀ r, first = some r → e.now - r + 2 ≤ fuel ∧ 1 ≤ fuel) →
      ∃ l, runTimes e g fuel first = some (.ok l) := fun fuel hf =>
    runTimes_ok (fun p hp => ⟨_, hn p hp⟩) ha' fuel first hf
  let n := (e.now - first.getD 0 + 2).toNat + 1
  have hf : ∀ k, ∀ r, first = some r → e.now - r + 2 ≤ ((n + k : Nat) : Int) ∧ 1 ≤ n + k := by
    intro k r hr
    simp only [n, hr, Option.getD_some]
    constructor <;> omega
  obtain ⟨l, hl⟩ := main (n + 0) (hf 0)
  have hd := runTimes_spec hn hl
  refine ⟨n, l, fun k => ?_, hd, (runTimes_increasing ha' hl).1, fun l' h' => Successive.unique h' hd⟩
  obtain ⟨l', hl'⟩ := main (n + k) (hf k)
  rw [hl', Successive.unique (runTimes_spec hn hl') hd]

example : runTimes (exEnvAt 35) (10 : Int) 9 (some 10) = some (.ok [10, 20, 30]) := by decide

/-- **C24**, without any assumption on the trigger (random jitter allowed, backward steps allowed): what
is returned begins with `next_run_time` and contains no time after `now`; it is empty only if the task is
not due. -/
theorem C24_nothing_early (e : Env τ) (g : τ) (fuel : Nat) (first : Option Int) (l : List Int)
    (h : runTimes e g fuel first = some (.ok l)) :
    (∀ t ∈ l, t ≤ e.now) ∧ (∀ r, first = some r → r ≤ e.now → l.head? = some r) ∧
    ((first = none ∨ ∃ r, first = some r ∧ e.now < r) → l = []) := by
  obtain ⟨h1, h2, h3⟩ := runTimes_cons h
  refine ⟨h1, fun r hr hle => ?_, fun hno => ?_⟩
  · cases l with
    | nil => have := h3 rfl r hr; omega
    | cons t l => have := h2 t l rfl; rw [hr] at this; cases this; rfl
  · cases l with
    | nil => rfl
    | cons t l =>
      have h2 := h2 t l rfl
      rcases hno with h | ⟨r, h, hlt⟩
      · rw [h] at h2; cases h2
      · rw [h] at h2; cases h2
        have := h1 t (List.mem_cons_self ..); omega

example : runTimes ⟨35, fun _ _ p _ => .ok (p.map (· + 9)), fun _ => true, true, fun _ => true, fun _ _ => true⟩
    () 9 (some 20) = some (.ok [20, 29]) := by decide

/-! ## C31: one pass -/

theorem entry_eq (L : LawfulStore O) {s : State σ τ φ} (hw : WF L s) {a : String} {st : σ}
    (h : s.stores.get? a = some st) (i : String) : entry O s a i = L.toMap st i := by
  simp only [entry, h, Option.bind_some]
  exact L.lookup (hw.inv _ _ h) i

/-- the run times handed to the executor: all, or the last one if the task coalesces -/
def Handed (co : Bool) (l times : List Int) : Prop :=
  if co then ∃ r, l.getLast? = some r ∧ times = [r] else times = l

theorem coalesce_handed (co : Bool) {l : List Int} (hl : l ≠ []) : Handed co l (coalesce co l).1 ∧
    (coalesce co l).2 = l.length - (coalesce co l).1.length ∧
    (coalesce co l).1.getLast? = l.getLast? := by
  obtain ⟨r, hr⟩ : ∃ r, l.getLast? = some r := ⟨_, List.getLast?_eq_some_getLast hl⟩
  cases co with
  | false => simp [coalesce, Handed]
  | true =>
    cases l with
    | nil => exact absurd rfl hl
    | cons a l => simp [coalesce, Handed, hr]

theorem Successive.last {nx : Int → Option Int} {first x : Option Int} {l : List Int} {last : Int}
    (h : Successive nx first l x) (hl : l.getLast? = some last) : x = nx last := by
  induction h with
  | nil => simp at hl
  | cons h ih =>
    rename_i r l x
    cases l with
    | nil =>
      simp at hl; subst hl
      generalize hq : nx r = q at h
      cases h; rfl
    | cons b l => exact ih (by simpa using hl)

/-- what a pass may do with a due task whose executor exists -/
def Processed (e : Env τ) (nx : Int → Option Int) (running : Int) (a i : String) (t : T τ φ)
    (obs : List Obs) (new : Option (T τ φ)) : Prop :=
  ∃ l after times, l ≠ [] ∧ Successive nx t.nrt l after ∧ (∀ r ∈ l, r ≤ e.now) ∧
    (∀ r, after = some r → e.now < r) ∧ Handed t.body.coalesce l times ∧
    new = after.map (fun n => { t with nrt := some n }) ∧
    ((sends a i obs = [(t.body.executor, times)] ∧
        submissionEvents a i obs = [.taskSubmitted i a times (l.length - times.length) false]) ∨
     (sends a i obs = [] ∧ t.body.maxInst ≤ running ∧
        submissionEvents a i obs = [.taskMaxInstances i a times (l.length - times.length) false]) ∨
     (sends a i obs = [] ∧ e.sendOk t.body.executor i = false ∧ submissionEvents a i obs = []))

theorem Outcome.processed {e : Env τ} {fuel : Nat} {a : String} {t : T τ φ} {ex : Option Nat} {n0 n1 : Int}
    {new evs : List Obs} {r : Option (T τ φ)} (h : Outcome e fuel a t ex n0 n1 new evs r)
    {nx : Int → Option Int} (hnx : ∀ site p, p ≤ e.now → e.next site t.body.trigger (some p) e.now = .ok (nx p))
    (hdue : Due e.now t) {m : Int} (hm : n0 ≤ m) :
    (ex = none → r = none ∧ sends a t.id (new ++ evs) = []) ∧
    (ex.isSome → Processed e nx m a t.id t (new ++ evs) r) := by
  cases h with
  | noExecutor h hn he hi =>
    refine ⟨fun _ => ⟨rfl, by subst hn he; rfl⟩, fun hx => ?_⟩
    rw [h] at hx; cases hx
  | notDue h hn he hi hx =>
    obtain ⟨q, hq, hle⟩ := hdue
    have := (runTimes_cons h).2.2 rfl q hq
    omega
  | ran hx hr hl hn hnew hrem hsent =>
    rename_i all last n sent removed
    refine ⟨fun h => ?_, fun _ => ?_⟩
    · rw [h] at hx; cases hx
    · have hspec := runTimes_spec (fun p hp => hnx 0 p hp) hr
      obtain ⟨after, s1, s2, s3⟩ := hspec
      have hne : all ≠ [] := by
        intro h; subst h; simp [coalesce] at hl
      obtain ⟨c1, c2, c3⟩ := coalesce_handed t.body.coalesce hne
      rw [c3] at hl
      have hafter := s1.last hl
      have hle := s2 last (List.mem_of_getLast? hl)
      rw [hnx 1 last hle] at hn
      simp only [Except.ok.injEq] at hn
      have hna : n = after := by rw [← hn, hafter]
      subst hna
      refine ⟨all, n, (coalesce t.body.coalesce all).1, hne, s1, s2, s3, c1, rfl, ?_⟩
      have hremE : ∀ l, sends a t.id (l ++ removed) = sends a t.id l ∧
          submissionEvents a t.id removed = [] := by
        intro l; rw [sends_append, hrem]; split <;> simp [sends, submissionEvents]
      rw [sends_append, submissionEvents_append, hnew, (hremE sent).1, submissionEvents_append, (hremE []).2,
        ← c2]
      rcases hsent with ⟨h1, h2, _⟩ | ⟨h1, h2, h3, _⟩ | ⟨h1, h2, h3, _⟩
      · exact .inl (by subst h1 h2; simp [sends, submissionEvents])
      · exact .inr (.inl ⟨by subst h1 h2; simp [sends], by omega, by subst h1 h2; simp [submissionEvents]⟩)
      · exact .inr (.inr ⟨by subst h1 h2; simp [sends], h3, by subst h1 h2; simp [submissionEvents]⟩)

/-- **C31** (partial): a pass at time `now` on a running scheduler, with triggers that answer the same
wherever they are asked.  For every task of every store: if it is not due, or the lock of its store is
held by somebody else, nothing happens to it; if it is due, it is submitted exactly once to its executor
with all its due run times (the last one if it coalesces) – unless the executor refuses or the maximum of
running instances is reached – and its next run time becomes the trigger's following time, which is after
`now`, or it is removed if there is none.  A due task whose executor is unknown is removed.
Partial: with random jitter the stored time need not be after `now` (`C31_jitter_witness`); if a trigger
raises, the pass is abandoned (`C31_raise_witness`). -/
theorem C31_pass_partial (L : LawfulStore O) (c : Cfg τ) (e : Env τ) (fuel : Nat) (s s' : State σ τ φ)
    (w : Option Int) (hw : WF L s) (hm : s.mode = .running) (hp : e.procLock = true)
    (nx : τ → Int → Option Int)
    (hnx : ∀ site g p, p ≤ e.now → e.next site g (some p) e.now = .ok (nx g p))
    (h : processTasks O c e fuel s = some (s', .ok w)) :
    ∃ obs, s'.log = s.log ++ obs ∧
      (∀ i, count s' i = count s i + (sendCount i obs : Int)) ∧ ∀ a i,
      (entry O s a i = none → entry O s' a i = none ∧ sends a i obs = [] ∧ submissionEvents a i obs = []) ∧
      ∀ t, entry O s a i = some t →
        (¬ Due e.now t ∨ e.storeLock a = false ∨ e.dueOk a = false →
          entry O s' a i = some t ∧ sends a i obs = [] ∧ submissionEvents a i obs = []) ∧
        (Due e.now t → e.storeLock a = true → e.dueOk a = true →
          (s.executors.get? t.body.executor = none → entry O s' a i = none ∧ sends a i obs = []) ∧
          ((s.executors.get? t.body.executor).isSome →
            Processed e (nx t.body.trigger) (count s' i) a i t obs (entry O s' a i))) := by
  obtain ⟨new, evs, wake, h1, h2, h3, h4, h5, h6, h7, h8⟩ := processTasks_spec L hw hm hp h
  refine ⟨new ++ evs, by rw [h1, List.append_assoc], ?_, ?_⟩
  · intro i
    have := balance_processTasks h i
    simp only [balance, h1, sendCount_append] at this
    rw [sendCount_append]
    omega
  · intro a i
    have noObs : ∀ n v : List Obs, n.filter (concerns a i) = [] ∧ v.filter (concerns a i) = [] →
        sends a i (n ++ v) = [] ∧ submissionEvents a i (n ++ v) = [] := by
      intro n v hnv
      rw [← sends_filter, ← submissionEvents_filter, List.filter_append, hnv.1, hnv.2]
      exact ⟨rfl, rfl⟩
    cases hg : s.stores.get? a with
    | none =>
      have hg' : s'.stores.get? a = none := by
        rw [Dict.get?_eq_none] at hg ⊢
        rw [h4]; exact hg
      have e1 : entry O s a i = none := by simp [entry, hg]
      have e2 : entry O s' a i = none := by simp [entry, hg']
      refine ⟨fun _ => ⟨e2, noObs _ _ (h7 a hg i)⟩, fun t ht => ?_⟩
      rw [e1] at ht; cases ht
    | some st =>
      obtain ⟨st', b1, b2, b3, b4⟩ := h6 a st hg
      rw [entry_eq L hw hg, entry_eq L h3 b1]
      refine ⟨fun hn => ?_, fun t ht => ⟨fun hno => ?_, fun hdue hl1 hl2 => ?_⟩⟩
      · have := b2.other i (.inr (fun t ht => by rw [hn] at ht; cases ht))
        exact ⟨by rw [this.1, hn], noObs _ _ this.2⟩
      · have := b2.other i (by
          rcases hno with h | h | h
          · exact .inr fun t' ht' => by rw [ht] at ht'; cases ht'; exact h
          · exact .inl (by simp [h])
          · exact .inl (by simp [h]))
        exact ⟨by rw [this.1, ht], noObs _ _ this.2⟩
      · obtain ⟨n0, n1, c1, c2, c3⟩ := b2.due (by simp [hl1, hl2]) i t ht hdue
        have hk := L.key (hw.inv _ _ hg) ht
        subst hk
        have hpr := c3.processed (nx := nx t.body.trigger) (fun site p hp => hnx site _ p hp) hdue
          (m := count s' t.id) (by have := c3.le; omega)
        have es : sends a t.id (new.filter (concerns a t.id) ++ evs.filter (concerns a t.id)) =
            sends a t.id (new ++ evs) := by
          rw [← List.filter_append, sends_filter]
        have ev : submissionEvents a t.id (new.filter (concerns a t.id) ++ evs.filter (concerns a t.id)) =
            submissionEvents a t.id (new ++ evs) := by
          rw [← List.filter_append, submissionEvents_filter]
        rw [Processed, es, ev] at hpr
        exact hpr

/-- **C31**: such a pass completes, if the triggers go forward and do not raise. -/
theorem C31_pass_completes (L : LawfulStore O) (c : Cfg τ) (e : Env τ) (s : State σ τ φ) (hw : WF L s)
    (hm : s.mode ≠ .stopped) (nx : Nat → τ → Int → Option Int)
    (hnx : ∀ site g p, p ≤ e.now → e.next site g (some p) e.now = .ok (nx site g p))
    (ha : ∀ site g p r, p ≤ e.now → nx site g p = some r → p < r) :
    ∃ n, ∀ fuel, n ≤ fuel → ∃ s' w, processTasks O c e fuel s = some (s', .ok w) :=
  processTasks_completes L ⟨fun site g p hp => ⟨_, hnx site g p hp⟩, fun site g p r hp h => by
    rw [hnx site g p hp] at h; exact ha site g p r hp (by simpa using h)⟩ hw hm

/-- the view of the state after a pass and its result -/
def exAfter (e : Env Int) (s : State MS Int Unit) (a i : String) :
    Option (List (Option (Option Int)) × List (String × List Int) × List Obs × Except Err (Option Int)) :=
  (processTasks Memory.ops exCfg e 20 s).map fun r =>
    (exView r.1, sends a i r.1.log, submissionEvents a i r.1.log, r.2)

-- a pass at time 35: three times for "a", coalesced "b", "c" is not due, "d" is over, the executor of
-- "e" is gone, "f" may not run, and another "a" of a second store finds its one instance running
set_option synthInstance.maxHeartbeats 200000 in
set_option synthInstance.maxSize 2048 in
example : exView exState = [some (some 10), some (some 5), some (some 100), some (some 30), some (some 3),
      some (some 3), some (some 33)] ∧
    exAfter (exEnvAt 35) exState "s1" "a" = some
      ([some (some 40), some (some 45), some (some 100), none, none, some (some 43), some (some 83)],
       [("default", [10, 20, 30])], [.taskSubmitted "a" "s1" [10, 20, 30] 0 false], .ok (some 5)) ∧
    exAfter (exEnvAt 35) exState "s1" "b" = some
      ([some (some 40), some (some 45), some (some 100), none, none, some (some 43), some (some 83)],
       [("default", [35])], [.taskSubmitted "b" "s1" [35] 3 false], .ok (some 5)) ∧
    exAfter (exEnvAt 35) exState "s2" "a" = some
      ([some (some 40), some (some 45), some (some 100), none, none, some (some 43), some (some 83)],
       [], [.taskMaxInstances "a" "s2" [33] 0 false], .ok (some 5)) := by decide +kernel

/-- **C31, counterexample** with jitter: `get_run_times` and the rescheduling ask the trigger separately,
so the stored next run time may be one that is already over (here 25, at time 35). -/
theorem C31_jitter_witness : ∃ (e : Env Int) (s' : State MS Int Unit) (r : Except Err (Option Int)) (t : T Int Unit),
    (∀ site g p now q, e.next site g (some p) now = .ok (some q) → p < q) ∧
    processTasks Memory.ops exCfg e 20 exState = some (s', r) ∧
    entry Memory.ops s' "s1" "a" = some t ∧ t.nrt = some 25 ∧ e.now = 35 := by
  -- an interval of 10 with jitter 20 or 5
  let e : Env Int := ⟨35, fun site _ p _ => .ok (p.map (· + (if site = 0 then 30 else 15))), fun _ => true, true,
    fun _ => true, fun _ _ => true⟩
  have h : ((processTasks Memory.ops exCfg e 20 exState).bind fun r => entry Memory.ops r.1 "s1" "a") =
      some ⟨"a", some 25, exBody 10 "default" "s1" false 3⟩ := by decide +kernel
  cases hp : processTasks Memory.ops exCfg e 20 exState with
  | none => rw [hp] at h; cases h
  | some r =>
    rw [hp] at h
    refine ⟨e, r.1, r.2, _, ?_, hp, h, rfl, rfl⟩
    intro site g p now q hq
    simp only [e, Option.map_some, Except.ok.injEq, Option.some.injEq] at hq
    subst hq
    split <;> omega

set_option synthInstance.maxSize 2048 in
/-- **C31, counterexample**: if the trigger of one task raises, the pass is abandoned: the tasks after it are
not submitted though due, and the task itself, already submitted, keeps its old run time. -/
theorem C31_raise_witness : ∃ (e : Env Int) (s' : State MS Int Unit) (t : T Int Unit),
    processTasks Memory.ops exCfg e 20 exState = some (s', .error (.trigger .indexError)) ∧
    entry Memory.ops s' "s1" "b" = some t ∧ t.nrt = some 5 ∧ sends "s1" "b" s'.log = [("default", [35])] ∧
    entry Memory.ops s' "s1" "a" = entry Memory.ops exState "s1" "a" ∧ sends "s1" "a" s'.log = [] := by
  let e : Env Int := ⟨35, fun site _ p _ => if site = 1 ∧ p = some 35 then .error .indexError
    else .ok (p.map (· + 10)), fun _ => true, true, fun _ => true, fun _ _ => true⟩
  have h : ((processTasks Memory.ops exCfg e 20 exState).map fun r =>
      (entry Memory.ops r.1 "s1" "b", entry Memory.ops r.1 "s1" "a", sends "s1" "b" r.1.log,
        sends "s1" "a" r.1.log, r.2)) =
      some (some ⟨"b", some 5, exBody 10 "default" "s1" true 3⟩, entry Memory.ops exState "s1" "a",
        [("default", [35])], [], .error (.trigger .indexError)) := by decide +kernel
  cases hp : processTasks Memory.ops exCfg e 20 exState with
  | none => rw [hp] at h; cases h
  | some r =>
    obtain ⟨s', r⟩ := r
    rw [hp] at h
    simp only [Option.map_some, Option.some.injEq, Prod.mk.injEq] at h
    obtain ⟨h1, h2, h3, h4, rfl⟩ := h
    exact ⟨e, s', _, hp, h1, rfl, h3, h2, h4⟩

end Sched
end Asyncz
