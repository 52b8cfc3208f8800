import Verif.Props.SchedTrigger
/-!
# C83: no scheduled run is lost

From the trigger to the executor, over any history of passes.
-/
namespace Asyncz
namespace Sched

variable {σ τ φ : Type} {O : StoreOps σ (Body τ φ)} {ans : Int → Except Exc (Option Int)}

/-! ## Specification -/

/-- The times that a trigger gives one after the other, beginning with `first`: each is its answer after the one before; the
last component is the time that follows. -/
inductive Answered (ans : Int → Except Exc (Option Int)) : Option Int → List Int → Option Int → Prop
  | nil (x : Option Int) : Answered ans x [] x
  | cons {r : Int} {y x : Option Int} {l : List Int} (h : ans r = .ok y) (h' : Answered ans y l x) : Answered ans (some r) (r :: l) x

/-- what the executor is to run of some due times: all, or the last one if the task coalesces -/
def handed (co : Bool) (l : List Int) : List Int := if co then l.getLast?.toList else l

/-- the event by which a pass reports the due times `l`: submitted, or too many instances are running -/
def report (a i : String) (co : Bool) (p : Bool × List Int) : Obs :=
  if p.1 then .taskSubmitted i a (handed co p.2) (p.2.length - (handed co p.2).length) false
  else .taskMaxInstances i a (handed co p.2) (p.2.length - (handed co p.2).length) false

/-- A history of the task `i` of store `a`: passes that complete, at which the scheduler was running, no other process held a
lock, the store could be read, the task's executor `x` was there and took what it was given; and between them anything at all
that leaves this task alone.  The list has, for each pass, its time and what was observed. -/
inductive Served (L : LawfulStore O) (c : Cfg τ) (Good : Env τ → Prop) (a i x : String) :
    State σ τ φ → List (Int × List Obs) → State σ τ φ → Prop
  | done (s : State σ τ φ) : Served L c Good a i x s [] s
  | pass {s s' s'' : State σ τ φ} {e : Env τ} {fuel : Nat} {w : Option Int} {obs : List Obs} {rest : List (Int × List Obs)}
      (hm : s.mode = .running) (hg : Good e) (hl : e.procLock = true ∧ e.storeLock a = true ∧ e.dueOk a = true)
      (hx : (s.executors.get? x).isSome = true ∧ e.sendOk x i = true)
      (h : processTasks O c e fuel s = some (s', .ok w)) (hlog : s'.log = s.log ++ obs)
      (hr : Served L c Good a i x s' rest s'') : Served L c Good a i x s ((e.now, obs) :: rest) s''
  | other {s s' s'' : State σ τ φ} {rest : List (Int × List Obs)} (hw : WF L s') (he : entry O s' a i = entry O s a i)
      (hr : Served L c Good a i x s' rest s'') : Served L c Good a i x s rest s''

/-- The trigger answers `ans p` after a run at `p`, whenever (not before `p`) and wherever it is asked, for `p` from `lo` on. -/
def Regular (g : τ) (lo : Int) (ans : Int → Except Exc (Option Int)) (e : Env τ) : Prop :=
  ∀ site p, lo ≤ p → p ≤ e.now → e.next site g (some p) e.now = ans p

/-- The answers go forward. -/
def Forward (lo : Int) (ans : Int → Except Exc (Option Int)) : Prop := ∀ p r, lo ≤ p → ans p = .ok (some r) → p < r

/-! ## Proof -/

theorem Answered.append {x y z : Option Int} {l l' : List Int} (h : Answered ans x l y) (h' : Answered ans y l' z) :
    Answered ans x (l ++ l') z := by
  induction h with
  | nil => exact h'
  | cons e _ ih => exact .cons e (ih h')

theorem Answered.last {first x : Option Int} {l : List Int} {last : Int} (h : Answered ans first l x) (hl : l.getLast? = some last) :
    ans last = .ok x := by
  induction h with
  | nil => simp at hl
  | @cons r y x l e h ih =>
    cases l with
    | nil =>
      simp at hl; subst hl
      cases h; exact e
    | cons b l => exact ih (by simpa using hl)

theorem Answered.ge {lo : Int} (hf : Forward lo ans) {first x : Option Int} {l : List Int} (h : Answered ans first l x)
    (hlo : ∀ r, first = some r → lo ≤ r) : (∀ r, x = some r → lo ≤ r) ∧ ∀ r ∈ l, lo ≤ r := by
  induction h with
  | nil => exact ⟨hlo, by simp⟩
  | @cons r y x l e h ih =>
    have h0 := hlo r rfl
    have := ih (fun q hq => by subst hq; have := hf r q h0 e; omega)
    refine ⟨this.1, fun q hq => ?_⟩
    rcases List.mem_cons.mp hq with rfl | hq
    · exact h0
    · exact this.2 q hq

theorem Answered.mono {lo : Int} (hf : Forward lo ans) {first x : Option Int} {l : List Int} (h : Answered ans first l x) :
    ∀ f, first = some f → lo ≤ f → ∀ y, x = some y → f ≤ y := by
  induction h with
  | nil => intro f hf' _ y hy; rw [hf'] at hy; cases hy; omega
  | @cons r2 y2 x2 l2 h0 h4 ih2 =>
    intro f hf' hlo' y hy
    cases hf'
    cases y2 with
    | none => subst hy; cases h4
    | some y3 =>
      have := hf _ _ hlo' h0
      have := ih2 y3 rfl (by omega) y hy
      omega

theorem runTimes_answered {e : Env τ} {g : τ} {lo : Int} (hreg : Regular g lo ans e) (hf : Forward lo ans) {fuel : Nat}
    {first : Option Int} {l : List Int} (hlo : ∀ r, first = some r → lo ≤ r) (h : runTimes e g fuel first = some (.ok l)) :
    ∃ after, Answered ans first l after ∧ (∀ r ∈ l, r ≤ e.now) ∧ ∀ r, after = some r → e.now < r := by
  induction fuel generalizing first l with
  | zero =>
    cases first with
    | none => simp [runTimes] at h; subst h; exact ⟨none, .nil _, by simp, by simp⟩
    | some r => simp [runTimes] at h
  | succ n ih =>
    cases first with
    | none => simp [runTimes] at h; subst h; exact ⟨none, .nil _, by simp, by simp⟩
    | some r =>
      rw [runTimes] at h
      split at h
      · rename_i hle
        have h0 := hlo r rfl
        rw [hreg 0 r h0 hle] at h
        cases ha : ans r with
        | error x => rw [ha] at h; cases h
        | ok y =>
          rw [ha] at h
          simp only at h
          cases hrt : runTimes e g n y with
          | none => rw [hrt] at h; cases h
          | some z =>
            cases z with
            | error x => rw [hrt] at h; cases h
            | ok l' =>
              rw [hrt] at h
              simp only [Option.some.injEq, Except.ok.injEq] at h
              subst h
              obtain ⟨after, h1, h2, h3⟩ := ih (fun q hq => by subst hq; have := hf r q h0 ha; omega) hrt
              refine ⟨after, .cons ha h1, fun q hq => ?_, h3⟩
              rcases List.mem_cons.mp hq with rfl | hq
              · exact hle
              · exact h2 q hq
      · rename_i hle
        simp only [Option.some.injEq, Except.ok.injEq] at h
        subst h
        exact ⟨some r, .nil _, by simp, fun q hq => by cases hq; omega⟩

theorem answered_runTimes {e : Env τ} {g : τ} {lo : Int} (hreg : Regular g lo ans e) (hf : Forward lo ans)
    {first after : Option Int} {l : List Int} (h : Answered ans first l after) (hlo : ∀ r, first = some r → lo ≤ r)
    (hle : ∀ r ∈ l, r ≤ e.now) (hafter : ∀ r, after = some r → e.now < r) : runTimes e g (l.length + 1) first = some (.ok l) := by
  induction h with
  | nil x =>
    cases x with
    | none => rfl
    | some r =>
      have := hafter r rfl
      simp only [List.length_nil, runTimes]
      rw [if_neg (by omega)]
  | @cons r y x l ha h ih =>
    have h0 := hlo r rfl
    have hr := hle r (by simp)
    have := ih (fun q hq => by subst hq; have := hf r q h0 ha; omega) (fun q hq => hle q (by simp [hq])) hafter
    rw [List.length_cons, runTimes, if_pos hr, hreg 0 r h0 hr, ha]
    simp only [this]

theorem coalesce_handed' (co : Bool) {l : List Int} (hl : l ≠ []) :
    (coalesce co l).1 = handed co l ∧ (coalesce co l).2 = l.length - (handed co l).length ∧ (handed co l).getLast? = l.getLast? := by
  obtain ⟨r, hr⟩ : ∃ r, l.getLast? = some r := ⟨_, List.getLast?_eq_some_getLast hl⟩
  cases co with
  | false => simp [coalesce, handed]
  | true =>
    cases l with
    | nil => exact absurd rfl hl
    | cons b l => simp [coalesce, handed, hr]

/-- one pass, seen from one task -/
theorem pass_task (L : LawfulStore O) (c : Cfg τ) (e : Env τ) (fuel : Nat) (s s' : State σ τ φ) (w : Option Int) (hw : WF L s)
    (hm : s.mode = .running) (a i : String) (hl : e.procLock = true ∧ e.storeLock a = true ∧ e.dueOk a = true) (t : T τ φ)
    (ht : entry O s a i = some t) (hx : (s.executors.get? t.body.executor).isSome = true ∧ e.sendOk t.body.executor i = true)
    {lo : Int} (hreg : Regular t.body.trigger lo ans e) (hf : Forward lo ans) (hlo : ∀ r, t.nrt = some r → lo ≤ r)
    (h : processTasks O c e fuel s = some (s', .ok w)) :
    ∃ obs, s'.log = s.log ++ obs ∧ WF L s' ∧
      ((¬ Due e.now t ∧ entry O s' a i = some t ∧ sends a i obs = [] ∧ submissionEvents a i obs = []) ∨
       ∃ l after ok, l ≠ [] ∧ Answered ans t.nrt l after ∧ (∀ r ∈ l, r ≤ e.now) ∧ (∀ r, after = some r → e.now < r) ∧
        entry O s' a i = after.map (fun n => { t with nrt := some n }) ∧
        submissionEvents a i obs = [report a i t.body.coalesce (ok, l)] ∧
        sends a i obs = if ok = true then [(t.body.executor, handed t.body.coalesce l)] else []) := by
  obtain ⟨new, evs, wake, h1, h2, h3, h4, h5, h6, h7, h8⟩ := processTasks_spec L hw hm hl.1 h
  refine ⟨new ++ evs, by rw [h1, List.append_assoc], h3, ?_⟩
  have noObs : ∀ n v : List Obs, n.filter (concerns a i) = [] ∧ v.filter (concerns a i) = [] →
      sends a i (n ++ v) = [] ∧ submissionEvents a i (n ++ v) = [] := by
    intro n v hnv
    rw [← sends_filter, ← submissionEvents_filter, List.filter_append, hnv.1, hnv.2]
    exact ⟨rfl, rfl⟩
  cases hg : s.stores.get? a with
  | none =>
    have e1 : entry O s a i = none := by simp [entry, hg]
    rw [e1] at ht; cases ht
  | some st =>
    obtain ⟨st', b1, b2, b3, b4⟩ := h6 a st hg
    rw [entry_eq L hw hg] at ht
    rw [entry_eq L h3 b1]
    by_cases hdue : Due e.now t
    · right
      obtain ⟨n0, n1, c1, c2, c3⟩ := b2.due (by simp [hl.2.1, hl.2.2]) i t ht hdue
      have hk := L.key (hw.inv _ _ hg) ht
      subst hk
      have es : sends a t.id (new.filter (concerns a t.id) ++ evs.filter (concerns a t.id)) = sends a t.id (new ++ evs) := by
        rw [← List.filter_append, sends_filter]
      have ev : submissionEvents a t.id (new.filter (concerns a t.id) ++ evs.filter (concerns a t.id)) =
          submissionEvents a t.id (new ++ evs) := by
        rw [← List.filter_append, submissionEvents_filter]
      rw [← es, ← ev]
      generalize new.filter (concerns a t.id) = new' at *
      generalize evs.filter (concerns a t.id) = evs' at *
      generalize hr' : L.toMap st' t.id = r' at *
      cases c3 with
      | noExecutor h hn he hi => rw [h] at hx; cases hx.1
      | notDue h hn he hi hx' =>
        obtain ⟨q, hq, hle⟩ := hdue
        have := (runTimes_cons h).2.2 rfl q hq
        omega
      | ran hx' hr hla hn hnew hrem hsent =>
        rename_i all last n sent removed
        obtain ⟨after, s1, s2, s3⟩ := runTimes_answered hreg hf hlo hr
        have hne : all ≠ [] := by
          intro h; subst h; simp [coalesce] at hla
        obtain ⟨k1, k2, k3⟩ := coalesce_handed' t.body.coalesce hne
        rw [k1, k3] at hla
        have hlast := s1.last hla
        have hle := s2 last (List.mem_of_getLast? hla)
        have hge := (s1.ge hf hlo).2 last (List.mem_of_getLast? hla)
        rw [hreg 1 last hge hle, hlast] at hn
        simp only [Except.ok.injEq] at hn
        subst hn
        have hremE : ∀ l, sends a t.id (l ++ removed) = sends a t.id l ∧ submissionEvents a t.id removed = [] := by
          intro l; rw [sends_append, hrem]; split <;> simp [sends, submissionEvents]
        rw [k1, k2] at hsent
        rcases hsent with ⟨h1, h2, _⟩ | ⟨h1, h2, h3, _⟩ | ⟨h1, h2, h3, _⟩
        · refine ⟨all, after, true, hne, s1, s2, s3, rfl, ?_, ?_⟩
          · rw [submissionEvents_append, hnew, submissionEvents_append, (hremE []).2, h1, h2]
            simp [submissionEvents, report]
          · rw [sends_append, hnew, (hremE sent).1, h1, h2]
            simp [sends]
        · refine ⟨all, after, false, hne, s1, s2, s3, rfl, ?_, ?_⟩
          · rw [submissionEvents_append, hnew, submissionEvents_append, (hremE []).2, h1, h2]
            simp [submissionEvents, report]
          · rw [sends_append, hnew, (hremE sent).1, h1, h2]
            simp [sends]
        · rw [hx.2] at h3; cases h3
    · left
      have := b2.other i (.inr fun t' ht' => by rw [ht] at ht'; cases ht'; exact hdue)
      exact ⟨hdue, by rw [this.1, ht], noObs _ _ this.2⟩

/-- **C83.** Over any history of passes at which the task could be served, the times that the passes dealt with are the
successive times of the trigger, without a gap, from the next run time the task had at the beginning up to the latest pass:
grouped by passes (`gs`), each group is reported once, as submitted or as too many instances, and what was submitted was handed to
the executor.  The task's next run time is the one that follows, after every pass, or the task is gone because there is none. -/
theorem C83_none_lost (L : LawfulStore O) (c : Cfg τ) (a i : String) (s s' : State σ τ φ) (hw : WF L s) (t : T τ φ)
    (ht : entry O s a i = some t) (r : Int) (hr : t.nrt = some r) (lo : Int) (hlo : lo ≤ r) (hf : Forward lo ans)
    (passes : List (Int × List Obs)) (h : Served L c (Regular t.body.trigger lo ans) a i t.body.executor s passes s') :
    ∃ gs : List (Bool × List Int), ∃ after, Answered ans (some r) (gs.flatMap (·.2)) after ∧
      entry O s' a i = after.map (fun n => { t with nrt := some n }) ∧
      (∀ p ∈ passes, ∀ q, after = some q → p.1 < q) ∧
      (∀ x ∈ gs.flatMap (·.2), ∃ p ∈ passes, x ≤ p.1) ∧
      passes.flatMap (fun p => submissionEvents a i p.2) = gs.map (report a i t.body.coalesce) ∧
      passes.flatMap (fun p => sends a i p.2) =
        (gs.filter (·.1)).map (fun g => (t.body.executor, handed t.body.coalesce g.2)) ∧
      ∀ g ∈ gs, g.2 ≠ [] := by
  generalize hgood : Regular t.body.trigger lo ans = Good at h
  generalize hx' : t.body.executor = x at h
  induction h generalizing t r with
  | done s =>
    refine ⟨[], some r, .nil _, ?_, by simp, by simp, rfl, rfl, by simp⟩
    rw [ht]
    simp only [Option.map_some, Option.some.injEq]
    cases t; simp only at hr ⊢; rw [hr]
  | other hw' he hr' ih => exact ih hw' t (by rw [he]; exact ht) r hr hlo hgood hx'
  | pass hm hg hl hx h hlog hr' ih =>
    rename_i s s1 s2 e fuel w obs rest
    subst hx'
    rw [← hgood] at hg
    obtain ⟨obs', hl', hw1, hcase⟩ := pass_task L c e fuel s s1 w hw hm a i hl t ht hx hg hf
      (fun q hq => by rw [hr] at hq; cases hq; exact hlo) h
    rw [hlog, List.append_cancel_left_eq] at hl'
    subst hl'
    rcases hcase with ⟨hnd, he, h1, h2⟩ | ⟨l, after, ok, hne, hA, hle, haf, he, h1, h2⟩
    · obtain ⟨gs, after, k1, k2, k3, k4, k5, k6, k7⟩ := ih hw1 t he r hr hlo hgood rfl
      refine ⟨gs, after, k1, k2, ?_, ?_, ?_, ?_, k7⟩
      · intro p hp q hq
        rcases List.mem_cons.mp hp with rfl | hp
        · subst hq
          have hnow : e.now < r := by
            by_cases hh : e.now < r
            · exact hh
            · exact absurd ⟨r, hr, by omega⟩ hnd
          have := k1.mono hf r rfl hlo q rfl
          show e.now < q
          omega
        · exact k3 p hp q hq
      · intro x hx
        obtain ⟨p, hp, hx⟩ := k4 x hx
        exact ⟨p, List.mem_cons_of_mem _ hp, hx⟩
      · rw [List.flatMap_cons, h2, List.nil_append]; exact k5
      · rw [List.flatMap_cons, h1, List.nil_append]; exact k6
    · cases after with
      | none =>
        have hnone : ∀ {s s' : State σ τ φ} {ps}, Served L c Good a i t.body.executor s ps s' → WF L s → entry O s a i = none →
            entry O s' a i = none ∧ ps.flatMap (fun p => submissionEvents a i p.2) = [] ∧ ps.flatMap (fun p => sends a i p.2) = [] := by
          intro s s' ps h
          induction h with
          | done => intro _ h; exact ⟨h, rfl, rfl⟩
          | other hw' he _ ih => intro _ h; exact ih hw' (by rw [he]; exact h)
          | pass hm hg hl hx h hlog _ ih =>
            intro hw he
            rename_i s s1 s2 e fuel w obs rest _
            obtain ⟨new, evs, wake, z1, z2, z3, z4, z5, z6, z7, z8⟩ := processTasks_spec L hw hm hl.1 h
            rw [hlog, List.append_assoc, List.append_cancel_left_eq] at z1
            have key : entry O s1 a i = none ∧ new.filter (concerns a i) = [] ∧ evs.filter (concerns a i) = [] := by
              cases hg : s.stores.get? a with
              | none =>
                have hg' : s1.stores.get? a = none := by
                  rw [Dict.get?_eq_none] at hg ⊢
                  rw [z4]; exact hg
                exact ⟨by simp [entry, hg'], z7 a hg i⟩
              | some st =>
                obtain ⟨st', b1, b2, b3, b4⟩ := z6 a st hg
                rw [entry_eq L hw hg] at he
                rw [entry_eq L z3 b1]
                have := b2.other i (.inr (fun t ht => by rw [he] at ht; cases ht))
                exact ⟨by rw [this.1, he], this.2⟩
            have e1 : submissionEvents a i obs = [] := by
              rw [z1, ← submissionEvents_filter, List.filter_append, key.2.1, key.2.2]; rfl
            have e2 : sends a i obs = [] := by
              rw [z1, ← sends_filter, List.filter_append, key.2.1, key.2.2]; rfl
            obtain ⟨i1, i2, i3⟩ := ih z3 key.1
            refine ⟨i1, ?_, ?_⟩
            · rw [List.flatMap_cons, i2, e1]; rfl
            · rw [List.flatMap_cons, i3, e2]; rfl
        obtain ⟨n1, n2, n3⟩ := hnone hr' hw1 he
        refine ⟨[(ok, l)], none, by simpa [hr] using hA, n1, by simp, ?_, ?_, ?_, by simpa using hne⟩
        · intro x hx
          exact ⟨(e.now, obs), by simp, hle x (by simpa using hx)⟩
        · rw [List.flatMap_cons, n2, h1]; rfl
        · rw [List.flatMap_cons, n3, h2]
          cases ok <;> rfl
      | some n =>
        have hlon : lo ≤ n := (hA.ge hf (fun q hq => by rw [hr] at hq; cases hq; exact hlo)).1 n rfl
        obtain ⟨gs, after, k1, k2, k3, k4, k5, k6, k7⟩ := ih hw1 { t with nrt := some n } (by rw [he]; rfl) n rfl hlon hgood rfl
        have hnow := haf n rfl
        refine ⟨(ok, l) :: gs, after, ?_, k2, ?_, ?_, ?_, ?_, ?_⟩
        · rw [List.flatMap_cons]
          exact Answered.append (by rw [← hr]; exact hA) k1
        · intro p hp q hq
          rcases List.mem_cons.mp hp with rfl | hp
          · subst hq
            have := k1.mono hf n rfl hlon q rfl
            show e.now < q
            omega
          · exact k3 p hp q hq
        · intro x hx
          rw [List.flatMap_cons, List.mem_append] at hx
          rcases hx with hx | hx
          · exact ⟨(e.now, obs), by simp, hle x hx⟩
          · obtain ⟨p, hp, hx⟩ := k4 x hx
            exact ⟨p, List.mem_cons_of_mem _ hp, hx⟩
        · rw [List.flatMap_cons, k5, h1]; rfl
        · rw [List.flatMap_cons, k6, h2]
          cases ok <;> rfl
        · intro g hg
          rcases List.mem_cons.mp hg with rfl | hg
          · exact hne
          · exact k7 g hg

/-! ## The built-in triggers -/

/-- the run times that an event of a pass names -/
def timesOf : Obs → List Int
  | .taskSubmitted _ _ ts _ _ => ts
  | .taskMaxInstances _ _ ts _ _ => ts
  | _ => []

/-- all run times that the passes reported for the task, in order -/
def reported (a i : String) (passes : List (Int × List Obs)) : List Int :=
  passes.flatMap fun p => (submissionEvents a i p.2).flatMap timesOf

/-- all run times that the passes handed to executors for the task, in order -/
def executed (a i : String) (passes : List (Int × List Obs)) : List Int :=
  passes.flatMap fun p => (submitted a i p.2).flatten

/-- no pass found too many instances of the task running -/
def NeverFull (a i : String) (passes : List (Int × List Obs)) : Prop :=
  ∀ p ∈ passes, ∀ ts n b, Obs.taskMaxInstances i a ts n b ∉ p.2

/-- `T` is the time of the latest pass -/
def Latest (passes : List (Int × List Obs)) (T : Int) : Prop := (∃ p ∈ passes, p.1 = T) ∧ ∀ p ∈ passes, p.1 ≤ T

theorem Served.mono {L : LawfulStore O} {c : Cfg τ} {G G' : Env τ → Prop} (hG : ∀ e, G e → G' e) {a i x : String} {s s' : State σ τ φ}
    {ps : List (Int × List Obs)} (h : Served L c G a i x s ps s') : Served L c G' a i x s ps s' := by
  induction h with
  | done s => exact .done s
  | pass hm hg hl hx h hlog _ ih => exact .pass hm (hG _ hg) hl hx h hlog ih
  | other hw he _ ih => exact .other hw he ih

/-- what the passes reported, if the task does not coalesce -/
theorem reported_eq {a i x : String} {passes : List (Int × List Obs)} {gs : List (Bool × List Int)}
    (h1 : passes.flatMap (fun p => submissionEvents a i p.2) = gs.map (report a i false))
    (h2 : passes.flatMap (fun p => sends a i p.2) = (gs.filter (·.1)).map (fun g => (x, handed false g.2))) :
    reported a i passes = gs.flatMap (·.2) ∧ (NeverFull a i passes → executed a i passes = gs.flatMap (·.2)) := by
  constructor
  · have : reported a i passes = (passes.flatMap (fun p => submissionEvents a i p.2)).flatMap timesOf := by
      simp only [reported, List.flatMap_assoc]
    rw [this, h1, List.flatMap_map]
    congr 1
    funext g
    cases hg : g.1 <;> simp [report, hg, timesOf, handed]
  · intro hn
    have hall : ∀ g ∈ gs, g.1 = true := by
      intro g hg
      cases hb : g.1 with
      | true => rfl
      | false =>
        have : report a i false g ∈ passes.flatMap (fun p => submissionEvents a i p.2) := by
          rw [h1]; exact List.mem_map_of_mem hg
        obtain ⟨p, hp, hm⟩ := List.mem_flatMap.mp this
        have hm := (List.mem_filter.mp hm).1
        simp only [report, hb] at hm
        exact absurd hm (hn p hp _ _ _)
    have : executed a i passes = (passes.flatMap (fun p => sends a i p.2)).flatMap (·.2) := by
      rw [List.flatMap_assoc]; rfl
    rw [this, h2, List.filter_eq_self.mpr hall, List.flatMap_map]
    rfl

theorem next_draw {E : TzEnv} {tz : Nat} {g : Trig} (hg : g.Good) (draw draw' : Nat → Int) (i j : Nat) (p : Option Int) (n : Int) :
    Trig.next E tz draw i g p n = Trig.next E tz draw' j g p n := by
  cases g with
  | interval g =>
    have hj := hg.2
    simp only [Trig.next, Interval.next, hj, applyJitter]
  | date g => rfl
  | shutdown => rfl
  | cron g =>
    have hj := hg.2
    simp only [Trig.next, cronNext, Cron.next, hj, applyJitter]

/-- the built-in triggers are regular and go forward -/
theorem builtin_regular {E : TzEnv} (hE : E.Fixed) (tz : Nat) (g : Trig) (hg : g.Good) (r : Int) (hr : g.InCalendar E tz r) :
    Forward r (fun p => Trig.next E tz (fun _ => 0) 0 g (some p) p) ∧
    ∀ e : Env Trig, (∃ draw, e.next = Trig.next E tz draw) → Regular g r (fun p => Trig.next E tz (fun _ => 0) 0 g (some p) p) e := by
  have hcal : ∀ p, r ≤ p → g.InCalendar E tz p := by
    intro p hp
    cases g with
    | cron g =>
      obtain ⟨c, hc⟩ := hE (g.zone tz)
      simp only [Trig.InCalendar, hc, Zone.fixed] at hr ⊢
      omega
    | _ => trivial
  constructor
  · intro p q hp hq
    exact (trigger_step hE tz (fun _ => 0) g hg p (hcal p hp) p 0 (Int.le_refl _)).2 q hq
  · rintro e ⟨draw, he⟩ site p hp hle
    rw [he, next_draw hg draw (fun _ => 0) site 0]
    exact (trigger_step hE tz (fun _ => 0) g hg p (hcal p hp) e.now 0 hle).1

/-- the times reported are those that one call of `get_run_times` at the time of the latest pass would have given -/
theorem builtin_run_times {σ φ : Type} {O : StoreOps σ (Body Trig φ)} {E : TzEnv} (hE : E.Fixed) (tz : Nat) (L : LawfulStore O) (c : Cfg Trig)
    (a i : String) (s s' : State σ Trig φ) (hw : WF L s) (t : T Trig φ) (ht : entry O s a i = some t) (hgood : t.body.trigger.Good)
    (hco : t.body.coalesce = false) (r : Int) (hr : t.nrt = some r) (hcal : t.body.trigger.InCalendar E tz r)
    (passes : List (Int × List Obs)) (T : Int) (hT : Latest passes T)
    (h : Served L c (fun e => ∃ draw, e.next = Trig.next E tz draw) a i t.body.executor s passes s') (e : Env Trig)
    (he : e.next = Trig.next E tz (fun _ => 0)) (hnow : e.now = T) :
    runTimes e t.body.trigger ((reported a i passes).length + 1) (some r) = some (.ok (reported a i passes)) ∧
    (NeverFull a i passes → executed a i passes = reported a i passes) := by
  obtain ⟨hf, hreg⟩ := builtin_regular hE tz t.body.trigger hgood r hcal
  obtain ⟨gs, after, k1, k2, k3, k4, k5, k6, k7⟩ := C83_none_lost L c a i s s' hw t ht r hr r (Int.le_refl _) hf passes (h.mono hreg)
  rw [hco] at k5 k6
  obtain ⟨e1, e2⟩ := reported_eq k5 k6
  rw [e1]
  refine ⟨?_, e2⟩
  refine answered_runTimes (hreg e ⟨_, he⟩) hf k1 (fun q hq => by cases hq; omega) (fun x hx => ?_) (fun q hq => ?_)
  · obtain ⟨p, hp, hx⟩ := k4 x hx
    have := hT.2 p hp
    omega
  · obtain ⟨p, hp, hpT⟩ := hT.1
    have := k3 p hp q hq
    omega

/-- an environment at time `T` -/
def envAt (E : TzEnv) (tz : Nat) (T : Int) : Env Trig :=
  ⟨T, Trig.next E tz (fun _ => 0), fun _ => true, true, fun _ => true, fun _ _ => true⟩

/-- **C83** (interval triggers): a task that runs every `interval` in a zone of constant offset, and does not coalesce.  After
any history whose latest pass was at `T`, the run times reported by the passes are exactly `r`, `r + interval`, ... up to `T`
(and up to the end date), each once and in order; and if there were never too many instances, these are the run times that the
executor got. -/
theorem C83_interval {σ φ : Type} {O : StoreOps σ (Body Trig φ)} {E : TzEnv} (hE : E.Fixed) (tz : Nat) (L : LawfulStore O) (c : Cfg Trig)
    (a i : String) (s s' : State σ Trig φ) (hw : WF L s) (t : T Trig φ) (ht : entry O s a i = some t) (g : Interval)
    (hg : t.body.trigger = .interval g) (hI : 0 < g.interval) (hj : g.jitter = none) (hco : t.body.coalesce = false)
    (r : Int) (hr : t.nrt = some r) (passes : List (Int × List Obs)) (T : Int) (hT : Latest passes T)
    (h : Served L c (fun e => ∃ draw, e.next = Trig.next E tz draw) a i t.body.executor s passes s') :
    ∃ n : Nat, reported a i passes = (List.range n).map (fun k : Nat => r + k * g.interval) ∧
      (∀ k : Nat, k < n ↔ r + k * g.interval ≤ T ∧ ∀ j : Nat, 0 < j → j ≤ k → g.WithinEnd E tz (r + j * g.interval)) ∧
      (NeverFull a i passes → executed a i passes = reported a i passes) := by
  have hb := builtin_run_times hE tz L c a i s s' hw t ht (by rw [hg]; exact ⟨hI, hj⟩) hco r hr (by rw [hg]; trivial) passes T hT h
    (envAt E tz T) rfl rfl
  rw [hg] at hb
  obtain ⟨n, h1, h2⟩ := C24_interval_run_times_partial hE tz (fun _ => 0) g hI hj (envAt E tz T) rfl _ r _ hb.1
  exact ⟨n, h1, h2, hb.2⟩

/-- **C83** (cron triggers): the same for a cron trigger: the run times reported are, in increasing order, exactly `r` and the
matching times of the calendar after it, up to the latest pass and the end date. -/
theorem C83_cron {σ φ : Type} {O : StoreOps σ (Body Trig φ)} {E : TzEnv} (hE : E.Fixed) (tz : Nat) (L : LawfulStore O) (c : Cfg Trig)
    (a i : String) (s s' : State σ Trig φ) (hw : WF L s) (t : T Trig φ) (ht : entry O s a i = some t) (g : Cron.Trig)
    (hg : t.body.trigger = .cron g) (hwf : g.WfAll) (hj : g.jitter = none) (hco : t.body.coalesce = false)
    (r : Int) (hr : t.nrt = some r) (hcal : 0 ≤ ((E (g.zone tz)).loc r).1) (passes : List (Int × List Obs)) (T : Int) (hT : Latest passes T)
    (h : Served L c (fun e => ∃ draw, e.next = Trig.next E tz draw) a i t.body.executor s passes s') :
    (reported a i passes).Pairwise (· < ·) ∧
      (∀ u, u ∈ reported a i passes ↔ u ≤ T ∧ (u = r ∨ r < u ∧ Cron.FiresAt g.exprs (E (g.zone tz)) u ∧ g.WithinEnd E tz u)) ∧
      (NeverFull a i passes → executed a i passes = reported a i passes) := by
  have hb := builtin_run_times hE tz L c a i s s' hw t ht (by rw [hg]; exact ⟨hwf, hj⟩) hco r hr (by rw [hg]; exact hcal) passes T hT h
    (envAt E tz T) rfl rfl
  rw [hg] at hb
  obtain ⟨h1, h2⟩ := C24_cron_run_times_partial hE tz (fun _ => 0) g hwf hj (envAt E tz T) rfl _ r hcal _ hb.1
  exact ⟨h1, h2, hb.2⟩

/-! ## Example: a scheduler with an interval task and a cron task, passes at 7, 33, 34 and 70 s -/

/-- the passes of the example, at the times given -/
def exPasses (E : TzEnv) (c : Cfg Trig) (x : String) : List Int → State (Memory.Store (Body Trig Unit)) Trig Unit →
    Option (List (Int × List Obs) × State (Memory.Store (Body Trig Unit)) Trig Unit)
  | [], s => some ([], s)
  | now :: l, s =>
    if s.mode = .running ∧ (s.executors.get? x).isSome = true then
      match processTasks Memory.ops c (envAt E 0 now) 50 s with
      | some (s', .ok _) =>
        if s'.log = s.log ++ s'.log.drop s.log.length then
          (exPasses E c x l s').map fun p => ((now, s'.log.drop s.log.length) :: p.1, p.2)
        else none
      | _ => none
    else none

theorem exPasses_served {E : TzEnv} {c : Cfg Trig} {a i x : String} {l : List Int} {s s' : State (Memory.Store (Body Trig Unit)) Trig Unit}
    {ps : List (Int × List Obs)} (h : exPasses E c x l s = some (ps, s')) :
    Served Memory.lawful c (fun e => ∃ draw, e.next = Trig.next E 0 draw) a i x s ps s' := by
  induction l generalizing s ps with
  | nil => simp only [exPasses, Option.some.injEq, Prod.mk.injEq] at h; rw [← h.1, ← h.2]; exact .done s
  | cons now l ih =>
    rw [exPasses] at h
    split at h
    · rename_i hm
      split at h
      · rename_i s1 w hp
        split at h
        · rename_i hlog
          cases hr : exPasses E c x l s1 with
          | none => rw [hr] at h; cases h
          | some p =>
            rw [hr] at h
            simp only [Option.map_some, Option.some.injEq, Prod.mk.injEq] at h
            obtain ⟨rfl, rfl⟩ := h
            exact .pass (e := envAt E 0 now) hm.1 ⟨_, rfl⟩ ⟨rfl, rfl, rfl⟩ ⟨hm.2, rfl⟩ hp hlog (ih hr)
        · cases h
      · cases h
    · cases h

def exTrigCfg : Cfg Trig := ⟨false, 10, 1, 4000000, fun _ => false, 0⟩

/-- every 10 s in a zone of constant offset -/
def exEvery : Interval := ⟨secs 10, some (secs 10), none, ⟨0, false, none⟩, none, none⟩

def exTrigState : State (Memory.Store (Body Trig Unit)) Trig Unit :=
  { mode := .running, refs := 1, executors := [("default", 0)],
    stores := [("s", Memory.after [.add ⟨"tick", some (secs 5), ⟨.interval exEvery, "default", "s", false, 3, none, false, ()⟩⟩,
      .add ⟨"once", some (secs 8), ⟨.shutdown, "default", "s", true, 3, none, false, ()⟩⟩])],
    pending := [], instances := [], timer := none, woken := false, log := [] }

theorem exTrigState_wf : WF (Memory.lawful (β := Body Trig Unit)) exTrigState := by
  refine ⟨(by decide : ["s"].Nodup), fun a st h => ?_⟩
  simp only [exTrigState, Dict.get?] at h
  split at h
  · cases h; exact ⟨_, rfl⟩
  · cases h

-- the hypotheses of `C83_interval` are met: `exPasses_served` makes a `Served` history of these passes; the third finds nothing
-- due.  What was reported is 5, 15, 25 (by the pass at 33), ...; nothing is left out although the passes come late.
example : (exPasses exEnv exTrigCfg "default" [secs 7, secs 33, secs 34, secs 70] exTrigState).map (fun p =>
      (reported "s" "tick" p.1, executed "s" "tick" p.1, p.1.map (fun q => (submitted "s" "tick" q.2).flatten),
       (entry Memory.ops p.2 "s" "tick").map (·.nrt))) =
    some ([secs 5, secs 15, secs 25, secs 35, secs 45, secs 55, secs 65],
      [secs 5, secs 15, secs 25, secs 35, secs 45, secs 55, secs 65],
      [[secs 5], [secs 15, secs 25], [], [secs 35, secs 45, secs 55, secs 65]], some (some (secs 75))) := by decide +kernel
example : (entry Memory.ops exTrigState "s" "tick").map (·.nrt) = some (some (secs 5)) := by decide

end Sched
end Asyncz
