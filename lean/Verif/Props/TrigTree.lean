import Verif.Model.TrigTree
import Verif.Props.AddToRun
/-!
# Triggers made of triggers (C23 for combinations, C93)
-/
namespace Asyncz
namespace Sched
open Dt

/-! ## The triggers a combination is made of -/

mutual
/-- the triggers at the leaves -/
def Tree.leaves : Tree → List Trig
  | .leaf g => [g]
  | .and ms _ => Tree.leavesOf ms
  | .or ms _ => Tree.leavesOf ms
/-- the triggers at the leaves of several trees -/
def Tree.leavesOf : List Tree → List Trig
  | [] => []
  | t :: ts => t.leaves ++ Tree.leavesOf ts
end

mutual
/-- made of `OrTrigger`s without jitter -/
def Tree.Union : Tree → Prop
  | .leaf _ => True
  | .and _ _ => False
  | .or ms j => j = none ∧ Tree.Unions ms
/-- all made of `OrTrigger`s without jitter -/
def Tree.Unions : List Tree → Prop
  | [] => True
  | t :: ts => t.Union ∧ Tree.Unions ts
end

/-! ## C23: saving and restoring combinations -/

/-- what survives of a trigger that is no combination -/
theorem leaf_restore (E : TzEnv) (tz : Nat) (g : Trig) (prev : Option Dt) (now : Dt) (draw : Int)
    (h : prev.isSome ∨ ∀ i, g ≠ .interval i) : leafNext E tz g.restore prev now draw = leafNext E tz g prev now draw := by
  cases g with
  | interval g =>
    rcases h with h | h
    · exact Interval.C23_interval_restore_partial E g tz prev now draw (.inl h)
    · exact absurd rfl (h g)
  | date g => rfl
  | cron g => rfl
  | shutdown => rfl

mutual
/-- **C23** (combinations, partial): a combination of any depth that was saved and restored answers as before, on every call
with a previous time, and on every call at all if there is no interval trigger in it.  Missing: calls without
previous time if there is one (`C23_tree_restore_witness`). -/
theorem C23_tree_restore_partial (E : TzEnv) (tz rounds : Nat) (prev : Option Dt) (t : Tree) (draw : List Nat → Int) (now : Dt)
    (h : prev.isSome ∨ ∀ g ∈ t.leaves, ∀ i, g ≠ .interval i) :
    t.restore.next E tz rounds prev draw now = t.next E tz rounds prev draw now := by
  cases t with
  | leaf g =>
    have := leaf_restore E tz g prev now (draw []) (h.imp id fun h => h g (by simp [Tree.leaves]))
    simp only [Tree.restore, Tree.next, this]
  | or ms j =>
    have := restores_next E tz rounds prev ms 0 draw now (h.imp id fun h g hg => h g (by simpa [Tree.leaves] using hg))
    simp only [Tree.restore, Tree.next, this]
  | and ms j =>
    have := fun k now => restores_next E tz rounds prev ms 0 (fun p => draw (k :: p)) now
      (h.imp id fun h g hg => h g (by simpa [Tree.leaves] using hg))
    simp only [Tree.restore, Tree.next]
    congr 1
    funext k now
    exact this k now
/-- the same for the members of a combination -/
theorem restores_next (E : TzEnv) (tz rounds : Nat) (prev : Option Dt) (ms : List Tree) (i : Nat) (draw : List Nat → Int) (now : Dt)
    (h : prev.isSome ∨ ∀ g ∈ Tree.leavesOf ms, ∀ i, g ≠ .interval i) :
    Tree.nexts E tz rounds prev (Tree.restores ms) i draw now = Tree.nexts E tz rounds prev ms i draw now := by
  cases ms with
  | nil => rfl
  | cons t ts =>
    have h1 := C23_tree_restore_partial E tz rounds prev t (fun p => draw (i :: p)) now
      (h.imp id fun h g hg => h g (by simp [Tree.leavesOf, hg]))
    have h2 := restores_next E tz rounds prev ts (i + 1) draw now (h.imp id fun h g hg => h g (by simp [Tree.leavesOf, hg]))
    simp only [Tree.restores, Tree.nexts, h1, h2]
end

/-- **C23, counterexample** (combinations): an `OrTrigger` that was saved and restored raises when it is asked for a first time, if
it has an interval trigger whose start has passed among its members – though the other members could answer. -/
theorem C23_tree_restore_witness (E : TzEnv) (tz rounds : Nat) (g : Interval) (hv : g.Valid) (ms : List Tree) (j : Option Int)
    (draw : List Nat → Int) (now : Dt) (h : Dt.lt E now (g.startDt tz) = false) :
    (Tree.or (.leaf (.interval g) :: ms) j).restore.next E tz rounds none draw now = some (.error .attributeError) := by
  have := (Interval.C23_interval_restore_witness E g hv tz now (draw [0]) h).1
  simp only [Tree.restore, Tree.restores, Tree.next, Tree.nexts, Trig.restore, leafNext, orAnswer, orLoop, this]

/-! ## One call -/

/-- jitter apart, a trigger needs no random numbers -/
theorem leaf_draw {E : TzEnv} {tz : Nat} {g : Trig} (hg : g.Good) (prev : Option Dt) (now : Dt) (d d' : Int) :
    leafNext E tz g prev now d = leafNext E tz g prev now d' := by
  cases g with
  | interval g => have hj := hg.2; simp only [leafNext, Interval.next, hj, applyJitter]
  | date g => rfl
  | shutdown => rfl
  | cron g => have hj := hg.2; simp only [leafNext, cronNext, Cron.next, hj, applyJitter]

/-- what a union of triggers answers: an exception of one of them, `None` if all of them are finished, or the earliest of
their answers -/
def EarliestOf (E : TzEnv) (tz : Nat) (prev : Option Dt) (now : Dt) (gs : List Trig) : Except Exc (Option Dt) → Prop
  | .error e => ∃ g ∈ gs, leafNext E tz g prev now 0 = .error e
  | .ok none => ∀ g ∈ gs, leafNext E tz g prev now 0 = .ok none
  | .ok (some r) => (∀ g ∈ gs, ∃ o, leafNext E tz g prev now 0 = .ok o) ∧
      (∃ g ∈ gs, leafNext E tz g prev now 0 = .ok (some r)) ∧
      ∀ g ∈ gs, ∀ q, leafNext E tz g prev now 0 = .ok (some q) → r.inst E ≤ q.inst E

mutual
/-- **C15** (nested; fixed offsets): a union of any depth answers as one `OrTrigger` of all the triggers in it. -/
theorem C15_nested_partial {E : TzEnv} (hE : E.Fixed) (tz rounds : Nat) (prev : Option Dt) (t : Tree) (hU : t.Union)
    (hg : ∀ g ∈ t.leaves, g.Good) (draw : List Nat → Int) (now : Dt) :
    ∃ x, t.next E tz rounds prev draw now = some x ∧ EarliestOf E tz prev now t.leaves x := by
  cases t with
  | leaf g =>
    have hg := hg g (by simp [Tree.leaves])
    refine ⟨_, rfl, ?_⟩
    rw [leaf_draw hg prev now (draw []) 0]
    rcases h : leafNext E tz g prev now 0 with e | _ | r <;> simp [EarliestOf, Tree.leaves, h]
  | and ms j => exact hU.elim
  | or ms j =>
    obtain ⟨rfl, hU⟩ := hU
    obtain ⟨y, hy, h1⟩ := unions_next hE tz rounds prev ms hU (fun g h => hg g (by simpa [Tree.leaves] using h)) 0 draw now
    simp only [Tree.next, orAnswer, hy, Tree.leaves]
    rcases y with e | ts
    · exact ⟨_, rfl, h1⟩
    · obtain ⟨h1, h2, h3⟩ := h1
      cases ts with
      | nil =>
        refine ⟨_, rfl, fun g hg => ?_⟩
        obtain ⟨o, ho⟩ := h1 g hg
        cases o with
        | none => exact ho
        | some q => obtain ⟨r, hr, _⟩ := h3 g hg q ho; cases hr
      | cons t ts =>
        obtain ⟨m, hm⟩ := pyMin_cons (E := E) t ts
        obtain ⟨m1, m2⟩ := pyMin_agree (agree_fixed hE _) hm
        simp only [hm, applyJitter]
        refine ⟨_, rfl, h1, h2 m m1, fun g hg q hq => ?_⟩
        obtain ⟨r, hr, hle⟩ := h3 g hg q hq
        have := m2 r hr
        omega
/-- the answers that the loop of a union collects -/
theorem unions_next {E : TzEnv} (hE : E.Fixed) (tz rounds : Nat) (prev : Option Dt) (ms : List Tree) (hU : Tree.Unions ms)
    (hg : ∀ g ∈ Tree.leavesOf ms, g.Good) (i : Nat) (draw : List Nat → Int) (now : Dt) :
    ∃ x, orLoop (Tree.nexts E tz rounds prev ms i draw now) = some x ∧ match x with
      | .error e => ∃ g ∈ Tree.leavesOf ms, leafNext E tz g prev now 0 = .error e
      | .ok ts => (∀ g ∈ Tree.leavesOf ms, ∃ o, leafNext E tz g prev now 0 = .ok o) ∧
        (∀ r ∈ ts, ∃ g ∈ Tree.leavesOf ms, leafNext E tz g prev now 0 = .ok (some r)) ∧
        ∀ g ∈ Tree.leavesOf ms, ∀ q, leafNext E tz g prev now 0 = .ok (some q) → ∃ r ∈ ts, r.inst E ≤ q.inst E := by
  cases ms with
  | nil => exact ⟨_, rfl, by simp [Tree.leavesOf], by simp, by simp [Tree.leavesOf]⟩
  | cons t ts =>
    obtain ⟨x, hx, h1⟩ := C15_nested_partial hE tz rounds prev t hU.1 (fun g h => hg g (by simp [Tree.leavesOf, h])) (fun p => draw (i :: p)) now
    obtain ⟨y, hy, h2⟩ := unions_next hE tz rounds prev ts hU.2 (fun g h => hg g (by simp [Tree.leavesOf, h])) (i + 1) draw now
    simp only [Tree.nexts, Tree.leavesOf, List.mem_append]
    rw [hx]
    rcases x with e | o
    · refine ⟨.error e, by rw [orLoop], ?_⟩
      obtain ⟨g, hg, h⟩ := h1
      exact ⟨g, .inl hg, h⟩
    · rcases y with e | rs
      · refine ⟨.error e, by rw [orLoop, hy], ?_⟩
        obtain ⟨g, hg, h⟩ := h2
        exact ⟨g, .inr hg, h⟩
      · obtain ⟨k1, k2, k3⟩ := h2
        cases o with
        | none =>
          refine ⟨.ok rs, by rw [orLoop, hy], ?_⟩
          refine ⟨fun g hg => hg.elim (fun h => ⟨none, h1 g h⟩) (k1 g), fun r hr => ?_, fun g hg q hq => ?_⟩
          · obtain ⟨g, hg, h⟩ := k2 r hr; exact ⟨g, .inr hg, h⟩
          · rcases hg with hg | hg
            · rw [h1 g hg] at hq; cases hq
            · exact k3 g hg q hq
        | some r =>
          obtain ⟨j1, j2, j3⟩ := h1
          refine ⟨.ok (r :: rs), by rw [orLoop, hy], ?_⟩
          refine ⟨fun g hg => hg.elim (j1 g) (k1 g), fun r' hr => ?_, fun g hg q hq => ?_⟩
          · rcases List.mem_cons.1 hr with rfl | hr
            · obtain ⟨g, hg, h⟩ := j2; exact ⟨g, .inl hg, h⟩
            · obtain ⟨g, hg, h⟩ := k2 r' hr; exact ⟨g, .inr hg, h⟩
          · rcases hg with hg | hg
            · exact ⟨r, by simp, j3 g hg q hq⟩
            · obtain ⟨r', hr', h⟩ := k3 g hg q hq
              exact ⟨r', by simp [hr'], h⟩
end

/-! ## C93: a union of triggers, from `add_task` to the executor -/

/-- the times after its first run at which a trigger wants to run: none for a date or shutdown trigger; the matching times up to
the end date for a cron trigger.  (Intervals have no such set: `C93_intervals_witness`.) -/
def Trig.Later (E : TzEnv) (tz : Nat) (u : Int) : Trig → Prop
  | .cron g => Cron.FiresAt g.exprs (E (g.zone tz)) u ∧ g.WithinEnd E tz u
  | _ => False

/-- usable, without jitter, and not an interval trigger -/
def Trig.Calendar (g : Trig) : Prop := g.Good ∧ ∀ i, g ≠ .interval i

/-- the answers at `lo` and at the elements of a set of times are the next elements of the set -/
def FollowsSet (S : Int → Prop) (lo : Int) (ans : Int → Except Exc (Option Int)) : Prop :=
  ∀ p x, lo ≤ p → p = lo ∨ S p → ans p = .ok x → match x with
    | none => ∀ u, S u → u ≤ p
    | some q => FirstOf S (p + 1) q

theorem answered_set {S : Int → Prop} {lo T : Int} {ans : Int → Except Exc (Option Int)} (hS : FollowsSet S lo ans)
    {first after : Option Int} {l : List Int} (h : Answered ans first l after) (hT : ∀ x ∈ l, x ≤ T) (ha : ∀ q, after = some q → T < q) :
    ∀ r, first = some r → lo ≤ r → r = lo ∨ S r → l.Pairwise (· < ·) ∧ ∀ u, u ∈ l ↔ u ≤ T ∧ (u = r ∨ r < u ∧ S u) := by
  induction h with
  | nil x =>
    rintro r rfl _ _
    have := ha r rfl
    refine ⟨.nil, fun u => ⟨fun h => (by cases h), fun h => ?_⟩⟩
    omega
  | @cons r y x l h h' ih =>
    intro r' hr hlo hS'
    cases hr
    have hrT := hT r (by simp)
    cases y with
    | none =>
      cases h'
      have := hS r _ hlo hS' h
      refine ⟨by simp, fun u => ?_⟩
      simp only [List.mem_singleton]
      constructor
      · rintro rfl; exact ⟨hrT, .inl rfl⟩
      · rintro ⟨_, h | ⟨h1, h2⟩⟩
        · exact h
        · have := this u h2; omega
    | some q =>
      obtain ⟨s1, s2, s3⟩ := hS r _ hlo hS' h
      obtain ⟨i1, i2⟩ := ih (fun x hx => hT x (by simp [hx])) ha q rfl (by omega) (.inr s1)
      have hq : ∀ u, u ∈ l ↔ u ≤ T ∧ r < u ∧ S u := by
        intro u
        rw [i2 u]
        constructor
        · rintro ⟨h1, rfl | ⟨h2, h3⟩⟩
          · exact ⟨h1, by omega, s1⟩
          · exact ⟨h1, by omega, h3⟩
        · rintro ⟨h1, h2, h3⟩
          have := s3 u h3 (by omega)
          rcases Int.lt_or_eq_of_le this with h | h
          · exact ⟨h1, .inr ⟨h, h3⟩⟩
          · exact ⟨h1, .inl h.symm⟩
      refine ⟨List.pairwise_cons.2 ⟨fun u hu => ((hq u).1 hu).2.1, i1⟩, fun u => ?_⟩
      rw [List.mem_cons, hq u]
      constructor
      · rintro (rfl | h)
        · exact ⟨hrT, .inl rfl⟩
        · exact ⟨h.1, .inr h.2⟩
      · rintro ⟨h1, h | h⟩
        · exact .inl h
        · exact .inr ⟨h1, h⟩

/-- what is reported of a task whose trigger answers with the next elements of a set of times -/
theorem reported_set {σ τ φ : Type} {O : StoreOps σ (Body τ φ)} {ans : Int → Except Exc (Option Int)} (L : LawfulStore O) (c : Cfg τ)
    (a i : String) (s s' : State σ τ φ) (hw : WF L s) (t : T τ φ)
    (ht : entry O s a i = some t) (hco : t.body.coalesce = false) (r : Int) (hr : t.nrt = some r) (S : Int → Prop) (hS : FollowsSet S r ans)
    (hf : Forward r ans) (passes : List (Int × List Obs)) (T : Int) (hT : Latest passes T)
    (h : Served L c (Regular t.body.trigger r ans) a i t.body.executor s passes s') :
    (reported a i passes).Pairwise (· < ·) ∧
    (∀ u, u ∈ reported a i passes ↔ u ≤ T ∧ (u = r ∨ r < u ∧ S u)) ∧
    (NeverFull a i passes → executed a i passes = reported a i passes) := by
  obtain ⟨gs, after, k1, k2, k3, k4, k5, k6, k7⟩ := C83_none_lost L c a i s s' hw t ht r hr r (Int.le_refl _) hf passes h
  rw [hco] at k5 k6
  obtain ⟨e1, e2⟩ := reported_eq k5 k6
  rw [e1]
  obtain ⟨a1, a2⟩ := answered_set hS k1 (T := T) (fun x hx => by obtain ⟨p, hp, hx⟩ := k4 x hx; have := hT.2 p hp; omega)
    (fun q hq => by obtain ⟨p, hp, hpT⟩ := hT.1; have := k3 p hp q hq; omega) r rfl (Int.le_refl _) (.inl rfl)
  exact ⟨a1, a2, e2⟩

/-- the answer of a trigger that is no combination, as an instant -/
theorem leaf_inst (E : TzEnv) (tz : Nat) (draw : Nat → Int) (i : Nat) (g : Trig) (prev : Option Int) (now : Int) :
    Trig.next E tz draw i g prev now = toInst E (leafNext E tz g (prev.map (Dt.ofInst E tz)) (Dt.ofInst E tz now) (draw i)) := by
  cases g <;> rfl

/-- the answer after a run does not depend on when the trigger is asked -/
theorem leaf_steady {E : TzEnv} (hE : E.Fixed) (tz : Nat) (g : Trig) (p now : Int) (hle : p ≤ now) (d : Int) :
    leafNext E tz g (some (Dt.ofInst E tz p)) (Dt.ofInst E tz now) d = leafNext E tz g (some (Dt.ofInst E tz p)) (Dt.ofInst E tz p) d := by
  have hinst : ∀ u, (Dt.ofInst E tz u).inst E = u := fun u => Dt.inst_ofInst tz u (hE.lawful tz)
  cases g with
  | interval g => rfl
  | date g => rfl
  | shutdown => rfl
  | cron g =>
    have hfrom : ∀ n, p ≤ n → Cron.searchFrom E g tz (some (Dt.ofInst E tz p)) (Dt.ofInst E tz n) = p + 1 := by
      intro n hn
      simp only [Cron.searchFrom, hinst]
      rw [if_neg (by omega)]
    obtain ⟨c, hc⟩ := hE (g.zone tz)
    have hwall : ∀ n, p ≤ n → (Cron.startOf E g tz (some (Dt.ofInst E tz p)) (Dt.ofInst E tz n)).wall = p + 1 + c := by
      intro n hn
      rw [wall_fixed (Cron.startOf_tz E g tz _ _) hc, Cron.startOf_inst hE, hfrom n hn, hc]
      rfl
    have hsame : (Cron.startOf E g tz (some (Dt.ofInst E tz p)) (Dt.ofInst E tz now)) =
        (Cron.startOf E g tz (some (Dt.ofInst E tz p)) (Dt.ofInst E tz p)) := by
      have h1 := hwall now hle
      have h2 := hwall p (Int.le_refl _)
      have f : ∀ n, p ≤ n → (Cron.startOf E g tz (some (Dt.ofInst E tz p)) (Dt.ofInst E tz n)).fold = false := by
        intro n hn
        have hz : ∀ z, (Dt.ofInst E tz z).fold = false := by
          intro z
          obtain ⟨c', hc'⟩ := hE tz
          simp only [Dt.ofInst, hc', Zone.fixed]
        have hz' : ∀ z, (Dt.ofInst E (g.tz.getD tz) z).fold = false := by
          intro z
          obtain ⟨c', hc'⟩ := hE (g.tz.getD tz)
          simp only [Dt.ofInst, hc', Zone.fixed]
        have hz1 : ∀ d : Dt, d.fold = false → (Dt.astimezone E (g.tz.getD tz) d).fold = false := by
          intro d hd
          simp only [Dt.astimezone]
          split
          · exact hd
          · exact hz' _
        simp only [Cron.startOf]
        apply hz1
        split
        · rfl
        · simp only [Dt.min]; split
          · rfl
          · exact hz n
      have h3 := f now hle
      have h4 := f p (Int.le_refl _)
      have h5 := Cron.startOf_tz E g tz (some (Dt.ofInst E tz p)) (Dt.ofInst E tz now)
      have h6 := Cron.startOf_tz E g tz (some (Dt.ofInst E tz p)) (Dt.ofInst E tz p)
      generalize Cron.startOf E g tz (some (Dt.ofInst E tz p)) (Dt.ofInst E tz now) = x at *
      generalize Cron.startOf E g tz (some (Dt.ofInst E tz p)) (Dt.ofInst E tz p) = y at *
      cases x; cases y
      simp_all
    simp only [leafNext, cronNext, Cron.next, hsame]

mutual
theorem union_congr {E : TzEnv} {tz rounds : Nat} {prev : Option Dt} {now now' : Dt} (t : Tree) (hU : t.Union)
    (hg : ∀ g ∈ t.leaves, g.Good) (draw draw' : List Nat → Int)
    (h : ∀ g ∈ t.leaves, leafNext E tz g prev now 0 = leafNext E tz g prev now' 0) :
    t.next E tz rounds prev draw now = t.next E tz rounds prev draw' now' := by
  cases t with
  | leaf g =>
    have hg := hg g (by simp [Tree.leaves])
    have h := h g (by simp [Tree.leaves])
    simp only [Tree.next]
    rw [leaf_draw hg prev now _ 0, leaf_draw hg prev now' _ 0, h]
  | and ms j => exact hU.elim
  | or ms j =>
    obtain ⟨rfl, hU⟩ := hU
    have := unions_congr (tz := tz) (rounds := rounds) (prev := prev) ms hU (fun g hm => hg g (by simpa [Tree.leaves] using hm)) 0 draw draw'
      (fun g hm => h g (by simpa [Tree.leaves] using hm))
    simp only [Tree.next, this, orAnswer, applyJitter]
theorem unions_congr {E : TzEnv} {tz rounds : Nat} {prev : Option Dt} {now now' : Dt} (ms : List Tree) (hU : Tree.Unions ms)
    (hg : ∀ g ∈ Tree.leavesOf ms, g.Good) (i : Nat) (draw draw' : List Nat → Int)
    (h : ∀ g ∈ Tree.leavesOf ms, leafNext E tz g prev now 0 = leafNext E tz g prev now' 0) :
    Tree.nexts E tz rounds prev ms i draw now = Tree.nexts E tz rounds prev ms i draw' now' := by
  cases ms with
  | nil => rfl
  | cons t ts =>
    have h1 := union_congr (tz := tz) (rounds := rounds) (prev := prev) t hU.1 (fun g hm => hg g (by simp [Tree.leavesOf, hm]))
      (fun p => draw (i :: p)) (fun p => draw' (i :: p)) (fun g hm => h g (by simp [Tree.leavesOf, hm]))
    have h2 := unions_congr (tz := tz) (rounds := rounds) (prev := prev) ts hU.2 (fun g hm => hg g (by simp [Tree.leavesOf, hm])) (i + 1)
      draw draw' (fun g hm => h g (by simp [Tree.leavesOf, hm]))
    simp only [Tree.nexts, h1, h2]
end

/-- the earliest of the answers, as instants -/
def EarliestAt (E : TzEnv) (tz : Nat) (prev : Option Int) (now : Int) (gs : List Trig) : Except Exc (Option Int) → Prop
  | .error e => ∃ g ∈ gs, Trig.next E tz (fun _ => 0) 0 g prev now = .error e
  | .ok none => ∀ g ∈ gs, Trig.next E tz (fun _ => 0) 0 g prev now = .ok none
  | .ok (some r) => (∀ g ∈ gs, ∃ o, Trig.next E tz (fun _ => 0) 0 g prev now = .ok o) ∧
      (∃ g ∈ gs, Trig.next E tz (fun _ => 0) 0 g prev now = .ok (some r)) ∧
      ∀ g ∈ gs, ∀ q, Trig.next E tz (fun _ => 0) 0 g prev now = .ok (some q) → r ≤ q

theorem union_at {E : TzEnv} (hE : E.Fixed) (tz : Nat) (draw : Nat → List Nat → Int) (i : Nat) (t : Tree) (hU : t.Union)
    (hg : ∀ g ∈ t.leaves, g.Good) (prev : Option Int) (now : Int) :
    EarliestAt E tz prev now t.leaves (Tree.at E tz draw i t prev now) := by
  obtain ⟨x, hx, h⟩ := C15_nested_partial hE tz 0 (prev.map (Dt.ofInst E tz)) t hU hg (draw i) (Dt.ofInst E tz now)
  simp only [Tree.at, hx, Option.getD_some]
  rcases x with e | _ | r
  · obtain ⟨g, h1, h2⟩ := h
    exact ⟨g, h1, by rw [leaf_inst, h2]; rfl⟩
  · exact fun g h1 => by rw [leaf_inst, h g h1]; rfl
  · obtain ⟨h1, ⟨g, h2, h3⟩, h4⟩ := h
    refine ⟨fun g hm => ?_, ⟨g, h2, by rw [leaf_inst, h3]; rfl⟩, fun g hm q hq => ?_⟩
    · obtain ⟨o, ho⟩ := h1 g hm
      exact ⟨_, by rw [leaf_inst, ho]; rfl⟩
    · obtain ⟨o, ho⟩ := h1 g hm
      rw [leaf_inst, ho] at hq
      cases o with
      | none => simp [toInst] at hq
      | some o =>
        simp only [toInst, Option.map_some, Except.ok.injEq, Option.some.injEq] at hq
        have := h4 g hm o ho
        omega

/-- the answers of a calendar trigger after a run are the next elements of its schedule -/
theorem leaf_later {E : TzEnv} (hE : E.Fixed) (tz : Nat) (g : Trig) (hg : g.Calendar) (p : Int) (hp : g.InCalendar E tz p)
    (x : Option Int) (h : Trig.next E tz (fun _ => 0) 0 g (some p) p = .ok x) :
    match x with
    | none => ∀ u, g.Later E tz u → u ≤ p
    | some q => FirstOf (g.Later E tz) (p + 1) q := by
  have hinst : ∀ u, (Dt.ofInst E tz u).inst E = u := fun u => Dt.inst_ofInst tz u (hE.lawful tz)
  obtain ⟨hg, hi⟩ := hg
  cases g with
  | interval g => exact absurd rfl (hi g)
  | date g => simp only [Trig.next, DateTrig.next, toInst, Option.map_some, Except.ok.injEq] at h; subst h; exact fun u hu => hu.elim
  | shutdown => simp only [Trig.next, shutdownNext, toInst, Except.ok.injEq] at h; subst h; exact fun u hu => hu.elim
  | cron g =>
    obtain ⟨hw, hj⟩ := hg
    obtain ⟨c, hc⟩ := hE (g.zone tz)
    have hfrom : Cron.searchFrom E g tz (some (Dt.ofInst E tz p)) (Dt.ofInst E tz p) = p + 1 := by
      simp only [Cron.searchFrom, hinst]; rw [if_neg (by omega)]
    have hy : 0 ≤ (Cron.startOf E g tz (some (Dt.ofInst E tz p)) (Dt.ofInst E tz p)).wall := by
      rw [wall_fixed (Cron.startOf_tz E g tz _ _) hc, Cron.startOf_inst hE, hfrom, hc]
      have hp' : 0 ≤ ((E (g.zone tz)).loc p).1 := hp
      rw [hc] at hp'
      simp only [Zone.fixed] at hp' ⊢
      omega
    obtain ⟨z, hz⟩ := cron_total g hw tz (hE.lawful _) (some (Dt.ofInst E tz p)) (Dt.ofInst E tz p) 0 hy
    simp only [Trig.next, cronNext, Option.map_some, hz] at h
    rcases Cron.C17_C18_cron_first_match_partial hE g hw hj tz _ _ 0 cronFuel hy z hz with ⟨r, rfl, hin, f1, f2, f3⟩ | ⟨hr, hno⟩
    · simp only [toInst, Option.map_some, Except.ok.injEq] at h
      subst h
      rw [hfrom] at f2 f3
      exact ⟨⟨f1, hin⟩, f2, fun u hu hle => f3 u hu.1 hle⟩
    · rcases hr with rfl | ⟨e, rfl⟩
      · simp only [toInst, Option.map_none, Except.ok.injEq] at h
        subst h
        rw [hfrom] at hno
        intro u hu
        by_cases hle : u ≤ p
        · exact hle
        · exact absurd hu.2 (hno u hu.1 (by omega))
      · cases h

/-- the answers of a union after a run are the next elements of the union of the schedules -/
theorem union_later {E : TzEnv} (hE : E.Fixed) (tz : Nat) (t : Tree) (hU : t.Union) (hg : ∀ g ∈ t.leaves, g.Calendar)
    (lo : Int) (hlo : ∀ g ∈ t.leaves, g.InCalendar E tz lo) :
    ∀ p x, lo ≤ p → Tree.at E tz (fun _ _ => 0) 0 t (some p) p = .ok x → match x with
      | none => ∀ u, (∃ g ∈ t.leaves, g.Later E tz u) → u ≤ p
      | some q => FirstOf (fun u => ∃ g ∈ t.leaves, g.Later E tz u) (p + 1) q := by
  intro p x hp hx
  have hcal : ∀ g ∈ t.leaves, g.InCalendar E tz p := by
    intro g hm
    have h := hlo g hm
    cases g with
    | cron g =>
      obtain ⟨c, hc⟩ := hE (g.zone tz)
      simp only [Trig.InCalendar, hc, Zone.fixed] at h ⊢
      omega
    | _ => trivial
  have hat := union_at hE tz (fun _ _ => 0) 0 t hU (fun g hm => (hg g hm).1) (some p) p
  rw [hx] at hat
  cases x with
  | none =>
    rintro u ⟨g, hm, hu⟩
    exact leaf_later hE tz g (hg g hm) p (hcal g hm) none (hat g hm) u hu
  | some q =>
    obtain ⟨h1, ⟨g, h2, h3⟩, h4⟩ := hat
    obtain ⟨f1, f2, f3⟩ := leaf_later hE tz g (hg g h2) p (hcal g h2) _ h3
    refine ⟨⟨g, h2, f1⟩, f2, ?_⟩
    rintro u ⟨g', hm, hu⟩ hle
    obtain ⟨o, ho⟩ := h1 g' hm
    have := leaf_later hE tz g' (hg g' hm) p (hcal g' hm) o ho
    cases o with
    | none => have := this u hu; omega
    | some q' =>
      have h5 := h4 g' hm q' ho
      have h6 := this.2.2 u hu hle
      omega

/-- what a union answers after a run does not depend on when and where it is asked -/
theorem union_regular {E : TzEnv} (hE : E.Fixed) (tz : Nat) (t : Tree) (hU : t.Union) (hg : ∀ g ∈ t.leaves, g.Good) (lo : Int)
    (e : Env Tree) (he : ∃ draw, e.next = Tree.at E tz draw) :
    Regular t lo (fun p => Tree.at E tz (fun _ _ => 0) 0 t (some p) p) e := by
  obtain ⟨draw, he⟩ := he
  intro site p _ hle
  rw [he]
  simp only [Tree.at, Option.map_some]
  rw [union_congr t hU hg (draw site) (fun _ => 0) (fun g _ => leaf_steady hE tz g p e.now hle 0)]

variable {σ φ : Type} {O : StoreOps σ (Body Tree φ)} {E : TzEnv}

/-- **C93** (partial: zones of constant offset; no interval among the members): a task with a union of cron, date and shutdown
triggers, of any depth, without coalescing.  From a next run time `r` on, and after any history whose latest pass was at `T`, the
run times reported are, in increasing order, `r` and exactly the later times up to `T` that at least one cron member matches
within its end date. -/
theorem C93_after_first_partial (hE : E.Fixed) (tz : Nat) (L : LawfulStore O) (c : Cfg Tree) (a i : String) (s s' : State σ Tree φ)
    (hw : WF L s) (t : T Tree φ) (ht : entry O s a i = some t) (hU : t.body.trigger.Union) (hg : ∀ g ∈ t.body.trigger.leaves, g.Calendar)
    (hco : t.body.coalesce = false) (r : Int) (hr : t.nrt = some r) (hcal : ∀ g ∈ t.body.trigger.leaves, g.InCalendar E tz r)
    (passes : List (Int × List Obs)) (T : Int) (hT : Latest passes T)
    (h : Served L c (fun e => ∃ draw, e.next = Tree.at E tz draw) a i t.body.executor s passes s') :
    (reported a i passes).Pairwise (· < ·) ∧
    (∀ u, u ∈ reported a i passes ↔ u ≤ T ∧ (u = r ∨ r < u ∧
      ∃ g, .cron g ∈ t.body.trigger.leaves ∧ Cron.FiresAt g.exprs (E (g.zone tz)) u ∧ g.WithinEnd E tz u)) ∧
    (NeverFull a i passes → executed a i passes = reported a i passes) := by
  have hlater := union_later hE tz t.body.trigger hU hg r hcal
  obtain ⟨h1, h2, h3⟩ := reported_set L c a i s s' hw t ht hco r hr (fun u => ∃ g ∈ t.body.trigger.leaves, g.Later E tz u)
    (fun p x hp _ => hlater p x hp) (fun p q hp hq => by have := (hlater p _ hp hq).2.1; omega) passes T hT
    (h.mono (fun e he => union_regular hE tz _ hU (fun g hm => (hg g hm).1) r e he))
  refine ⟨h1, fun u => ?_, h3⟩
  rw [h2 u]
  have : (∃ g ∈ t.body.trigger.leaves, g.Later E tz u) ↔
      ∃ g, .cron g ∈ t.body.trigger.leaves ∧ Cron.FiresAt g.exprs (E (g.zone tz)) u ∧ g.WithinEnd E tz u := by
    constructor
    · rintro ⟨g, hm, hl⟩
      cases g with
      | cron g => exact ⟨g, hm, hl⟩
      | _ => exact hl.elim
    · rintro ⟨g, hm, hl⟩; exact ⟨_, hm, hl⟩
  rw [this]

/-- **C93** (partial: zones of constant offset, cron members without start date): a task with a union of cron triggers, of any
depth, without coalescing, is scheduled at `e.now` (`Begins`).  After any history whose latest pass was at `T`, the run times
reported are, in increasing order and each once, exactly the times from `e.now` up to `T` that at least one member matches within its
end date; and if there were never too many instances these are the run times that the executor got.  Members that are dates or
intervals, and start dates: see the witnesses below. -/
theorem C93_union_partial (hE : E.Fixed) (tz : Nat) (L : LawfulStore O) (c : Cfg Tree) (e : Env Tree)
    (he : ∃ draw, e.next = Tree.at E tz draw) (s1 s' : State σ Tree φ) (t : T Tree φ) (ht : t.nrt = none)
    (hU : t.body.trigger.Union)
    (hg : ∀ g ∈ t.body.trigger.leaves, ∃ k, g = .cron k ∧ k.WfAll ∧ k.jitter = none ∧ k.start = none ∧ 0 ≤ ((E (k.zone tz)).loc e.now).1)
    (hco : t.body.coalesce = false) (hb : Begins L c e t s1) (passes : List (Int × List Obs)) (T : Int) (hT : Latest passes T)
    (h : Served L c (fun e => ∃ draw, e.next = Tree.at E tz draw) t.body.store t.id t.body.executor s1 passes s') :
    (reported t.body.store t.id passes).Pairwise (· < ·) ∧
    (∀ u, u ∈ reported t.body.store t.id passes ↔ e.now ≤ u ∧ u ≤ T ∧
      ∃ g, .cron g ∈ t.body.trigger.leaves ∧ Cron.FiresAt g.exprs (E (g.zone tz)) u ∧ g.WithinEnd E tz u) ∧
    (NeverFull t.body.store t.id passes → executed t.body.store t.id passes = reported t.body.store t.id passes) := by
  have hinst : ∀ u, (Dt.ofInst E tz u).inst E = u := fun u => Dt.inst_ofInst tz u (hE.lawful tz)
  obtain ⟨n, hn, hw1, hent⟩ := hb.first ht
  obtain ⟨draw, he⟩ := he
  rw [he] at hn
  have hcl : ∀ g ∈ t.body.trigger.leaves, g.Calendar := by
    intro g hm
    obtain ⟨k, rfl, h1, h2, _⟩ := hg g hm
    exact ⟨⟨h1, h2⟩, fun i hi => by cases hi⟩
  have hat := union_at hE tz draw 2 t.body.trigger hU (fun g hm => (hcl g hm).1) none e.now
  rw [hn] at hat
  -- the first answer of a member
  have key : ∀ k, Trig.cron k ∈ t.body.trigger.leaves → ∀ o, Trig.next E tz (fun _ => 0) 0 (.cron k) none e.now = .ok o →
      match (o : Option Int) with
      | none => ∀ u, (Trig.cron k).Later E tz u → u < e.now
      | some q => FirstOf ((Trig.cron k).Later E tz) e.now q := by
    intro k hm o ho
    obtain ⟨k', hk', hw, hj, hs, hcal⟩ := hg _ hm
    cases hk'
    obtain ⟨z, hz⟩ := hE (k.zone tz)
    have hfrom : Cron.searchFrom E k tz none (Dt.ofInst E tz e.now) = e.now := by simp only [Cron.searchFrom, hs, hinst]
    have hstart : 0 ≤ (Cron.startOf E k tz none (Dt.ofInst E tz e.now)).wall := by
      rw [wall_fixed (Cron.startOf_tz E k tz none (Dt.ofInst E tz e.now)) hz, Cron.startOf_inst hE, hfrom]
      exact hcal
    obtain ⟨x, hx⟩ := cron_total k hw tz (hE.lawful _) none (Dt.ofInst E tz e.now) 0 hstart
    simp only [Trig.next, cronNext, Option.map_none, hx] at ho
    rcases Cron.C17_C18_cron_first_match_partial hE k hw hj tz none (Dt.ofInst E tz e.now) 0 cronFuel hstart x hx with
      ⟨r, rfl, hin, f1, f2, f3⟩ | ⟨hr, hno⟩
    · simp only [toInst, Option.map_some, Except.ok.injEq] at ho
      subst ho
      rw [hfrom] at f2 f3
      exact ⟨⟨f1, hin⟩, f2, fun u hu hle => f3 u hu.1 hle⟩
    · rcases hr with rfl | ⟨e', rfl⟩
      · simp only [toInst, Option.map_none, Except.ok.injEq] at ho
        subst ho
        rw [hfrom] at hno
        intro u hu
        by_cases hle : u < e.now
        · exact hle
        · exact absurd hu.2 (hno u hu.1 (by omega))
      · cases ho
  cases n with
  | none =>
    have hnil := reported_nil (h.idle hw1 (fun t' ht' => by rw [hent] at ht'; cases ht'; rfl))
    rw [hnil.1, hnil.2]
    refine ⟨.nil, fun u => ⟨fun h => (by cases h), ?_⟩, fun _ => rfl⟩
    rintro ⟨h1, _, g, hm, hu⟩
    have := key g hm none (hat _ hm) u hu
    omega
  | some r =>
    obtain ⟨h1, ⟨g, h2, h3⟩, h4⟩ := hat
    obtain ⟨k, rfl, _⟩ := hg g h2
    obtain ⟨f1, f2, f3⟩ := key k h2 _ h3
    obtain ⟨a1, a2, a3⟩ := C93_after_first_partial hE tz L c t.body.store t.id s1 s' hw1
      { t with nrt := some r, body := { t.body with pending := false } } hent hU hcl hco r rfl
      (by
        intro g hm
        obtain ⟨k', rfl, _, _, _, hc⟩ := hg g hm
        obtain ⟨z, hz⟩ := hE (k'.zone tz)
        simp only [Trig.InCalendar, hz, Zone.fixed] at hc ⊢
        omega) passes T hT h
    refine ⟨a1, fun u => ?_, a3⟩
    rw [a2 u]
    constructor
    · rintro ⟨hu, rfl | ⟨hu1, hu2⟩⟩
      · exact ⟨f2, hu, k, h2, f1⟩
      · exact ⟨by omega, hu, hu2⟩
    · rintro ⟨hu1, hu2, g, hm, hu3⟩
      refine ⟨hu2, ?_⟩
      obtain ⟨o, ho⟩ := h1 _ hm
      have hk := key g hm o ho
      cases o with
      | none => have := hk u hu3; omega
      | some q =>
        have h5 := h4 _ hm q ho
        have h6 := hk.2.2 u hu3 hu1
        rcases Int.lt_or_eq_of_le (Int.le_trans h5 h6) with h | h
        · exact .inr ⟨h, g, hm, hu3⟩
        · exact .inl h.symm

/-- **C93, counterexample** (dates): of a union of date triggers only the earliest date is ever run; whatever passes come,
the others are never reported. -/
theorem C93_dates_witness (hE : E.Fixed) (tz : Nat) (L : LawfulStore O) (c : Cfg Tree) (e : Env Tree)
    (he : ∃ draw, e.next = Tree.at E tz draw) (s1 s' : State σ Tree φ) (t : T Tree φ) (ht : t.nrt = none)
    (hU : t.body.trigger.Union) (hne : t.body.trigger.leaves ≠ []) (hg : ∀ g ∈ t.body.trigger.leaves, ∃ d, g = .date d)
    (hco : t.body.coalesce = false) (hb : Begins L c e t s1) (passes : List (Int × List Obs)) (T : Int) (hT : Latest passes T)
    (h : Served L c (fun e => ∃ draw, e.next = Tree.at E tz draw) t.body.store t.id t.body.executor s1 passes s') :
    ∃ d, .date d ∈ t.body.trigger.leaves ∧ (∀ d', .date d' ∈ t.body.trigger.leaves → d.runAt.inst E ≤ d'.runAt.inst E) ∧
      ∀ u, u ∈ reported t.body.store t.id passes ↔ u ≤ T ∧ u = d.runAt.inst E := by
  obtain ⟨n, hn, hw1, hent⟩ := hb.first ht
  obtain ⟨draw, he⟩ := he
  rw [he] at hn
  have hgood : ∀ g ∈ t.body.trigger.leaves, g.Calendar := by
    intro g hm
    obtain ⟨d, rfl⟩ := hg g hm
    exact ⟨trivial, fun i hi => by cases hi⟩
  have hfirst : ∀ d : DateTrig, Trig.next E tz (fun _ => 0) 0 (.date d) none e.now = .ok (some (d.runAt.inst E)) := by
    intro d
    have : (Dt.astimezone E tz d.runAt).inst E = d.runAt.inst E := by
      simp only [Dt.astimezone]
      split
      · rfl
      · exact Dt.inst_ofInst tz _ (hE.lawful tz)
    simp only [Trig.next, Option.map_none, toInst, DateTrig.next, Option.map_some, this]
  have hat := union_at hE tz draw 2 t.body.trigger hU (fun g hm => (hgood g hm).1) none e.now
  rw [hn] at hat
  cases n with
  | none =>
    obtain ⟨g, hm⟩ := List.exists_mem_of_ne_nil _ hne
    obtain ⟨d, rfl⟩ := hg g hm
    have := hat _ hm
    rw [hfirst] at this
    cases this
  | some r =>
    obtain ⟨h1, ⟨g, h2, h3⟩, h4⟩ := hat
    obtain ⟨d, rfl⟩ := hg g h2
    rw [hfirst] at h3
    simp only [Except.ok.injEq, Option.some.injEq] at h3
    refine ⟨d, h2, fun d' hm => by have := h4 _ hm _ (hfirst d'); omega, ?_⟩
    obtain ⟨a1, a2, a3⟩ := C93_after_first_partial hE tz L c t.body.store t.id s1 s' hw1
      { t with nrt := some r, body := { t.body with pending := false } } hent hU hgood hco r rfl
      (by intro g hm; obtain ⟨d, rfl⟩ := hg g hm; trivial) passes T hT h
    intro u
    rw [a2 u, h3]
    constructor
    · rintro ⟨hu, h | ⟨_, g, hm, _⟩⟩
      · exact ⟨hu, h⟩
      · obtain ⟨d, hd⟩ := hg _ hm
        cases hd
    · rintro ⟨hu, h⟩; exact ⟨hu, .inl h⟩

/-- **C93, counterexample** (intervals): after the first run at `r`, a union of interval triggers (without end dates) runs at
`r`, `r + m`, `r + 2m`, ... where `m` is the smallest interval; the longer intervals have no effect at all. -/
theorem C93_intervals_witness (hE : E.Fixed) (tz : Nat) (L : LawfulStore O) (c : Cfg Tree) (a i : String) (s s' : State σ Tree φ)
    (hw : WF L s) (t : T Tree φ) (ht : entry O s a i = some t) (hU : t.body.trigger.Union)
    (hg : ∀ g ∈ t.body.trigger.leaves, ∃ k, g = .interval k ∧ k.jitter = none ∧ k.stop = none)
    (m : Int) (hm0 : 0 < m) (hm1 : ∃ k, .interval k ∈ t.body.trigger.leaves ∧ k.interval = m)
    (hm2 : ∀ k, .interval k ∈ t.body.trigger.leaves → m ≤ k.interval)
    (hco : t.body.coalesce = false) (r : Int) (hr : t.nrt = some r) (passes : List (Int × List Obs)) (T : Int) (hT : Latest passes T)
    (h : Served L c (fun e => ∃ draw, e.next = Tree.at E tz draw) a i t.body.executor s passes s') :
    (reported a i passes).Pairwise (· < ·) ∧ ∀ u, u ∈ reported a i passes ↔ u ≤ T ∧ ∃ k : Nat, u = r + k * m := by
  have hinst : ∀ u, (Dt.ofInst E tz u).inst E = u := fun u => Dt.inst_ofInst tz u (hE.lawful tz)
  have hgood : ∀ g ∈ t.body.trigger.leaves, g.Good := by
    intro g hm
    obtain ⟨k, rfl, h1, _⟩ := hg g hm
    exact ⟨by have := hm2 k hm; omega, h1⟩
  have hans : ∀ p, Tree.at E tz (fun _ _ => 0) 0 t.body.trigger (some p) p = .ok (some (p + m)) := by
    intro p
    have hleaf : ∀ k, .interval k ∈ t.body.trigger.leaves →
        Trig.next E tz (fun _ => 0) 0 (.interval k) (some p) p = .ok (some (p + k.interval)) := by
      intro k hk
      obtain ⟨k', hk', h1, h2⟩ := hg _ hk
      cases hk'
      rcases Interval.C12_interval_step_partial hE k h1 tz (Dt.ofInst E tz p) (Dt.ofInst E tz p) 0 with ⟨_, q, hq, hq'⟩ | ⟨hno, _⟩
      · simp only [Trig.next, Option.map_some, hq, toInst, hq', hinst]
      · exact absurd (fun st hst => by simp [Interval.stopDt, h2] at hst) hno
    have hat := union_at hE tz (fun _ _ => 0) 0 t.body.trigger hU hgood (some p) p
    obtain ⟨k, hk, hkm⟩ := hm1
    rcases hx : Tree.at E tz (fun _ _ => 0) 0 t.body.trigger (some p) p with x | _ | q
    · rw [hx] at hat
      obtain ⟨g, hm, h1⟩ := hat
      obtain ⟨k', rfl, _⟩ := hg g hm
      rw [hleaf k' hm] at h1
      cases h1
    · rw [hx] at hat
      have := hat _ hk
      rw [hleaf k hk] at this
      cases this
    · rw [hx] at hat
      obtain ⟨_, ⟨g, h2, h3⟩, h4⟩ := hat
      have h5 := h4 _ hk _ (hleaf k hk)
      obtain ⟨k', rfl, _⟩ := hg g h2
      rw [hleaf k' h2] at h3
      simp only [Except.ok.injEq, Option.some.injEq] at h3
      have := hm2 k' h2
      rw [show q = p + m by omega]
  have step : ∀ k : Nat, ((k + 1 : Nat) : Int) * m = k * m + m := by intro k; push_cast; rw [Int.add_mul]; omega
  obtain ⟨h1, h2, _⟩ := reported_set (ans := fun p => Tree.at E tz (fun _ _ => 0) 0 t.body.trigger (some p) p) L c a i s s' hw t ht hco r hr
    (fun u => ∃ k : Nat, u = r + k * m)
    (by
      intro p x hp hS hx
      dsimp only at hx
      rw [hans p] at hx
      simp only [Except.ok.injEq] at hx
      subst hx
      have : ∃ k : Nat, p = r + k * m := by
        rcases hS with rfl | h
        · exact ⟨0, by simp⟩
        · exact h
      obtain ⟨k, rfl⟩ := this
      refine ⟨⟨k + 1, by rw [step]; omega⟩, by omega, ?_⟩
      rintro u ⟨j, rfl⟩ hle
      have hlt : (k : Int) * m < j * m := by omega
      have : (k : Int) < j := Int.lt_of_mul_lt_mul_right hlt (by omega)
      have : ((k + 1 : Nat) : Int) * m ≤ j * m := Int.mul_le_mul_of_nonneg_right (by push_cast; omega) (by omega)
      rw [step] at this
      omega)
    (fun p q _ hq => by dsimp only at hq; rw [hans p] at hq; simp only [Except.ok.injEq, Option.some.injEq] at hq; omega) passes T hT
    (h.mono (fun e he => union_regular hE tz _ hU hgood r e he))
  refine ⟨h1, fun u => ?_⟩
  rw [h2 u]
  constructor
  · rintro ⟨h, rfl | ⟨_, h'⟩⟩
    · exact ⟨h, 0, by simp⟩
    · exact ⟨h, h'⟩
  · rintro ⟨h, k, rfl⟩
    refine ⟨h, ?_⟩
    cases k with
    | zero => exact .inl (by simp)
    | succ k =>
      refine .inr ⟨?_, k + 1, rfl⟩
      have : 0 ≤ (k : Int) * m := Int.mul_nonneg (by omega) (by omega)
      rw [step]
      omega

/-! ## Examples -/

/-- an environment at time `T` -/
def treeEnv (E : TzEnv) (T : Int) : Env Tree :=
  ⟨T, Tree.at E 0 (fun _ _ => 0), fun _ => true, true, fun _ => true, fun _ _ => true⟩

/-- the passes of the examples, at the times given -/
def exTreePasses (E : TzEnv) (c : Cfg Tree) (x : String) : List Int → State (Memory.Store (Body Tree Unit)) Tree Unit →
    Option (List (Int × List Obs) × State (Memory.Store (Body Tree Unit)) Tree Unit)
  | [], s => some ([], s)
  | now :: l, s =>
    if s.mode = .running ∧ (s.executors.get? x).isSome = true then
      match processTasks Memory.ops c (treeEnv E now) 50 s with
      | some (s', .ok _) =>
        if s'.log = s.log ++ s'.log.drop s.log.length then
          (exTreePasses E c x l s').map fun p => ((now, s'.log.drop s.log.length) :: p.1, p.2)
        else none
      | _ => none
    else none

theorem exTreePasses_served {E : TzEnv} {c : Cfg Tree} {a i x : String} {l : List Int} {s s' : State (Memory.Store (Body Tree Unit)) Tree Unit}
    {ps : List (Int × List Obs)} (h : exTreePasses E c x l s = some (ps, s')) :
    Served Memory.lawful c (fun e => ∃ draw, e.next = Tree.at E 0 draw) a i x s ps s' := by
  induction l generalizing s ps with
  | nil => simp only [exTreePasses, Option.some.injEq, Prod.mk.injEq] at h; rw [← h.1, ← h.2]; exact .done s
  | cons now l ih =>
    rw [exTreePasses] at h
    split at h
    · rename_i hm
      split at h
      · rename_i s1 w hp
        split at h
        · rename_i hlog
          cases hr : exTreePasses E c x l s1 with
          | none => rw [hr] at h; cases h
          | some p =>
            rw [hr] at h
            simp only [Option.map_some, Option.some.injEq, Prod.mk.injEq] at h
            obtain ⟨rfl, rfl⟩ := h
            exact .pass (e := treeEnv E now) hm.1 ⟨_, rfl⟩ ⟨rfl, rfl, rfl⟩ ⟨hm.2, rfl⟩ hp hlog (ih hr)
        · cases h
      · cases h
    · cases h

def exTreeCfg : Cfg Tree := ⟨false, 10, 1, 4000000, fun _ => false, 0⟩

/-- the fields of `CronTrigger(second=n)` -/
def exSecond (n : Nat) : Cron.FieldName → List Cron.Expr
  | .second => [.range n (some n) none]
  | _ => [.all none]

theorem exSecond_wf (n : Nat) (g : Cron.Trig) (h : g.exprs = exSecond n) : g.WfAll := by
  intro f e he
  rw [h] at he
  cases f <;> simp only [exSecond, List.mem_cons, List.not_mem_nil, or_false] at he <;> subst he <;> simp [Cron.Wf, Cron.lowest]

/-- a task with the trigger given is added to a scheduler started at 7 s; passes at the times given -/
def exTree (g : Tree) (l : List Int) : Option (List Int × List Int × Option (Option Int)) :=
  let t : T Tree Unit := ⟨"t", none, ⟨g, "default", "default", false, 30, none, false, ()⟩⟩
  let r := start Memory.ops exTreeCfg (treeEnv exEnv (day 7)) false (addAll Memory.ops (treeEnv exEnv (day 0)) [(t, none, false)] State.init)
  if r.2 = .ok true then (exTreePasses exEnv exTreeCfg "default" l r.1).map fun p =>
    (reported "default" "t" p.1, executed "default" "t" p.1, (entry Memory.ops p.2 "default" "t").map (·.nrt))
  else none

/-- second 30, or one of seconds 20 and 30: a union of unions -/
def exUnion : Tree := .or [.leaf (.cron ⟨exSecond 30, none, none, none, none⟩),
  .or [.leaf (.cron ⟨exSecond 20, none, none, none, none⟩), .leaf (.cron ⟨exSecond 30, none, none, none, none⟩)] none] none

-- the hypotheses of `C93_union_partial` on the trigger are met (`Begins.started` and `exTreePasses_served` give the others)
example : exUnion.Union ∧ ∀ g ∈ exUnion.leaves, ∃ k, g = .cron k ∧ k.WfAll ∧ k.jitter = none ∧ k.start = none ∧
    0 ≤ ((exEnv (k.zone 0)).loc (day 7)).1 := by
  refine ⟨⟨rfl, trivial, ⟨rfl, trivial, trivial, trivial⟩, trivial⟩, fun g hg => ?_⟩
  simp only [exUnion, Tree.leaves, Tree.leavesOf, List.append_nil, List.singleton_append, List.mem_cons, List.not_mem_nil, or_false] at hg
  rcases hg with rfl | rfl | rfl <;> exact ⟨_, rfl, exSecond_wf _ _ rfl, rfl, rfl, by decide⟩
-- 30 is matched by two members and run once
example : exTree exUnion [day 8, day 40, day 41, day 95] =
    some ([day 20, day 30, day 80, day 90], [day 20, day 30, day 80, day 90], some (some (day 140))) := by decide +kernel
-- `C93_dates_witness`: the date 25 is never run, and the task is gone
example : exTree (.or [.leaf (.date ⟨⟨day 25, false, 0⟩⟩), .leaf (.date ⟨⟨day 15, false, 0⟩⟩)] none) [day 20, day 40, day 95] =
    some ([day 15], [day 15], none) := by decide +kernel
-- `C93_intervals_witness`: every 20 s beginning at 10, or every 30 s beginning at 15: 15, 45, 75 are never run
example : exTree (.or [.leaf (.interval ⟨secs 20, some (secs 20), none, ⟨day 10, false, none⟩, none, none⟩),
    .leaf (.interval ⟨secs 30, some (secs 30), none, ⟨day 15, false, none⟩, none, none⟩)] none) [day 40, day 95] =
    some ([day 10, day 30, day 50, day 70, day 90], [day 10, day 30, day 50, day 70, day 90], some (some (day 110))) := by decide +kernel
/-- **C93, counterexample** (start dates): second 20 from 120 on, or second 30: alone, the first member would not run before 140; in
the union it runs at 80, since after the first run (at 30) its start date is not looked at. -/
theorem C93_start_witness :
    exTree (.or [.leaf (.cron ⟨exSecond 20, none, some ⟨day 120, false, none⟩, none, none⟩), .leaf (.cron ⟨exSecond 30, none, none, none, none⟩)] none)
      [day 40, day 95] = some ([day 30, day 80, day 90], [day 30, day 80, day 90], some (some (day 140))) ∧
    exTree (.leaf (.cron ⟨exSecond 20, none, some ⟨day 120, false, none⟩, none, none⟩)) [day 40, day 95] = some ([], [], some (some (day 140))) := by
  refine ⟨?_, ?_⟩ <;> decide +kernel

/-! ## C16: an `AndTrigger` after the first run -/

/-- the answer after a run at `p` is the same at every later time, in whatever zone it is given -/
theorem leaf_steady_later {E : TzEnv} (hE : E.Fixed) (tz : Nat) (g : Trig) (p : Int) (now : Dt) (hle : p + 2 ≤ now.inst E) (d : Int) :
    leafNext E tz g (some (Dt.ofInst E tz p)) now d = leafNext E tz g (some (Dt.ofInst E tz p)) (Dt.ofInst E tz p) d := by
  have hinst : ∀ u, (Dt.ofInst E tz u).inst E = u := fun u => Dt.inst_ofInst tz u (hE.lawful tz)
  rw [← leaf_steady hE tz g p (p + 2) (by omega) d]
  cases g with
  | interval g => rfl
  | date g => rfl
  | shutdown => rfl
  | cron g =>
    have hmin : ∀ n : Dt, p + 2 ≤ n.inst E → Dt.min E n ((Dt.ofInst E tz p).add 1) = (Dt.ofInst E tz p).add 1 := by
      intro n hn
      obtain ⟨c, hc⟩ := hE n.tz
      obtain ⟨c', hc'⟩ := hE tz
      have : ((Dt.ofInst E tz p).add 1).inst E = p + 1 := by
        have h1 := hinst p
        simp only [Dt.inst, Dt.ofInst, Dt.add, hc', Zone.fixed] at h1 ⊢
        omega
      simp only [Dt.min, Dt.lt_fixed hc, this]
      rw [if_pos (by simp; omega)]
    have : Cron.startOf E g tz (some (Dt.ofInst E tz p)) now = Cron.startOf E g tz (some (Dt.ofInst E tz p)) (Dt.ofInst E tz (p + 2)) := by
      simp only [Cron.startOf, hmin now hle, hmin (Dt.ofInst E tz (p + 2)) (by rw [hinst]; omega)]
    simp only [leafNext, cronNext, Cron.next, this]

theorem nexts_leaves (E : TzEnv) (tz rounds : Nat) (prev : Option Dt) (gs : List Trig) (hg : ∀ g ∈ gs, g.Good) (i : Nat)
    (draw : List Nat → Int) (now : Dt) :
    Tree.nexts E tz rounds prev (gs.map .leaf) i draw now = gs.map fun g => some (leafNext E tz g prev now 0) := by
  induction gs generalizing i with
  | nil => rfl
  | cons g gs ih =>
    simp only [List.map_cons, Tree.nexts, Tree.next]
    rw [ih (fun g hm => hg g (by simp [hm])), leaf_draw (hg g (by simp)) prev now _ 0]

theorem andFor_times {gs : List Trig} {f : Trig → Except Exc (Option Dt)} (h : ∀ g ∈ gs, ∃ q, f g = .ok (some q)) :
    ∃ ts, andFor (gs.map fun g => some (f g)) = some (.ok (some ts)) ∧ (ts = [] → gs = []) ∧
      ∀ q, q ∈ ts ↔ ∃ g ∈ gs, f g = .ok (some q) := by
  induction gs with
  | nil => exact ⟨[], rfl, fun _ => rfl, by simp⟩
  | cons g gs ih =>
    obtain ⟨ts, h1, _, h2⟩ := ih (fun g hm => h g (by simp [hm]))
    obtain ⟨q, hq⟩ := h g (by simp)
    refine ⟨q :: ts, by simp only [List.map_cons, hq, andFor, h1], by simp, fun q' => ?_⟩
    rw [List.mem_cons, h2 q']
    constructor
    · rintro (rfl | ⟨g', hm, hq'⟩)
      · exact ⟨g, by simp, hq⟩
      · exact ⟨g', by simp [hm], hq'⟩
    · rintro ⟨g', hm, hq'⟩
      rcases List.mem_cons.1 hm with rfl | hm
      · rw [hq] at hq'; cases hq'; exact .inl rfl
      · exact .inr ⟨g', hm, hq'⟩

/-- **C16, counterexample** (all built-in members): after a run at `p`, an `AndTrigger` whose members all have a next time answers
only if these next times happen to be the same – then with that time.  If two members differ, no number of rounds is enough: the call
does not end, whatever times the members may have in common later. -/
theorem C16_and_after_run_witness {E : TzEnv} (hE : E.Fixed) (tz : Nat) (gs : List Trig) (hg : ∀ g ∈ gs, g.Good) (hne : gs ≠ [])
    (p : Int) (hcal : ∀ g ∈ gs, g.InCalendar E tz p) (now : Int) (hle : p ≤ now) (draw : List Nat → Int)
    (ha : ∀ g ∈ gs, ∃ q, Trig.next E tz (fun _ => 0) 0 g (some p) p = .ok (some q)) :
    (∀ q, (∀ g ∈ gs, Trig.next E tz (fun _ => 0) 0 g (some p) p = .ok (some q)) → ∀ rounds, ∃ r : Dt, r.inst E = q ∧
      Tree.next E tz (rounds + 1) (some (Dt.ofInst E tz p)) (.and (gs.map .leaf) none) draw (Dt.ofInst E tz now) = some (.ok (some r))) ∧
    ((∃ g ∈ gs, ∃ g' ∈ gs, Trig.next E tz (fun _ => 0) 0 g (some p) p ≠ Trig.next E tz (fun _ => 0) 0 g' (some p) p) → ∀ rounds,
      Tree.next E tz rounds (some (Dt.ofInst E tz p)) (.and (gs.map .leaf) none) draw (Dt.ofInst E tz now) = none) := by
  let P := Dt.ofInst E tz p
  let f := fun g => leafNext E tz g (some P) P 0
  have hf : ∀ g, Trig.next E tz (fun _ => 0) 0 g (some p) p = toInst E (f g) := fun g => leaf_inst E tz _ 0 g (some p) p
  have hq : ∀ g ∈ gs, ∃ q, f g = .ok (some q) := by
    intro g hm
    obtain ⟨q, h⟩ := ha g hm
    rw [hf] at h
    rcases hx : f g with x | _ | x
    · rw [hx] at h; cases h
    · rw [hx] at h; cases h
    · exact ⟨x, rfl⟩
  obtain ⟨ts, t1, t2, t3⟩ := andFor_times hq
  -- every round asks for the same times
  have hask : ∀ rounds k (n : Dt), (n = Dt.ofInst E tz now ∨ p + 2 ≤ n.inst E) →
      andFor (Tree.nexts E tz rounds (some P) (gs.map .leaf) 0 (fun q => draw (k :: q)) n) = some (.ok (some ts)) := by
    intro rounds k n hn
    rw [nexts_leaves E tz rounds _ gs hg, ← t1]
    congr 1
    apply List.map_congr_left
    intro g _
    rcases hn with rfl | hn
    · rw [leaf_steady hE tz g p now hle 0]
    · rw [leaf_steady_later hE tz g p n hn 0]
  cases hts : ts with
  | nil => exact absurd (t2 hts) hne
  | cons t ts' =>
    obtain ⟨lo, hlo⟩ := pyMin_cons (E := E) t ts'
    obtain ⟨hi, hhi⟩ := pyMax_cons (E := E) t ts'
    rw [← hts] at hlo hhi
    obtain ⟨l1, l2⟩ := pyMin_spec hE hlo
    obtain ⟨m1, m2⟩ := pyMax_spec hE hhi
    have heq : Dt.eq E lo hi = decide (lo.inst E = hi.inst E) := by
      obtain ⟨c, hc⟩ := hE lo.tz
      exact Dt.eq_fixed hc
    constructor
    · intro q hsame rounds
      have hall : ∀ x ∈ ts, x.inst E = q := by
        intro x hx
        obtain ⟨g, hm, hx⟩ := (t3 x).1 hx
        have := hsame g hm
        rw [hf, hx] at this
        simpa [toInst] using this
      refine ⟨t, hall t (by simp [hts]), ?_⟩
      simp only [Tree.next, andLoop]
      rw [hask _ _ _ (.inl rfl)]
      simp only [hlo, hhi, heq, hall lo l1, hall hi m1, decide_true, if_true]
      rw [hts]
      rfl
    · rintro ⟨g, hm, g', hm', hdiff⟩
      obtain ⟨q, h1⟩ := hq g hm
      obtain ⟨q', h2⟩ := hq g' hm'
      have hdiff' : q.inst E ≠ q'.inst E := by
        intro h
        apply hdiff
        rw [hf, hf, h1, h2]
        simp [toInst, h]
      have hq1 := (t3 q).2 ⟨g, hm, h1⟩
      have hq2 := (t3 q').2 ⟨g', hm', h2⟩
      have hlt : lo.inst E < hi.inst E := by
        have := l2 q hq1; have := l2 q' hq2; have := m2 q hq1; have := m2 q' hq2
        omega
      have hplo : p < lo.inst E := by
        obtain ⟨g0, hm0, hx0⟩ := (t3 lo).1 l1
        have := (trigger_step hE tz (fun _ => 0) g0 (hg g0 hm0) p (hcal g0 hm0) p 0 (Int.le_refl _)).2 (lo.inst E)
          (by rw [hf, hx0]; rfl)
        exact this
      intro rounds
      simp only [Tree.next]
      suffices H : ∀ n k (x : Dt), (x = Dt.ofInst E tz now ∨ p + 2 ≤ x.inst E) →
          andLoop E (fun k now => Tree.nexts E tz rounds (some P) (gs.map .leaf) 0 (fun q => draw (k :: q)) now) none (draw []) n k x = none from
        H rounds 0 _ (.inl rfl)
      intro n
      induction n with
      | zero => intro k x _; rfl
      | succ n ih =>
        intro k x hx
        rw [andLoop]
        simp only [hask _ _ _ hx, hlo, hhi, heq]
        rw [if_neg (by simp; omega)]
        exact ih (k + 1) hi (.inr (by omega))

/-- the fields of `CronTrigger(second="20,30")` -/
def exTwoSeconds : Cron.FieldName → List Cron.Expr
  | .second => [.range 20 (some 20) none, .range 30 (some 30) none]
  | _ => [.all none]

-- second 30 of every minute, and seconds 20 and 30: after the run at 30 the next times are 90 and 80, so the call does not end,
-- though 90 is a common time
theorem exHang_conditions : (∀ g ∈ [Trig.cron ⟨exSecond 30, none, none, none, none⟩, .cron ⟨exTwoSeconds, none, none, none, none⟩], g.Good) ∧
    Trig.next exEnv 0 (fun _ => 0) 0 (.cron ⟨exSecond 30, none, none, none, none⟩) (some (day 30)) (day 30) = .ok (some (day 90)) ∧
    Trig.next exEnv 0 (fun _ => 0) 0 (.cron ⟨exTwoSeconds, none, none, none, none⟩) (some (day 30)) (day 30) = .ok (some (day 80)) ∧
    0 ≤ ((exEnv 0).loc (day 30)).1 := by
  refine ⟨fun g hg => ?_, ?_, ?_, ?_⟩
  · simp only [List.mem_cons, List.not_mem_nil, or_false] at hg
    rcases hg with rfl | rfl
    · exact ⟨exSecond_wf _ _ rfl, rfl⟩
    · refine ⟨fun f e he => ?_, rfl⟩
      cases f <;> simp only [exTwoSeconds, List.mem_cons, List.not_mem_nil, or_false] at he
      all_goals first
        | (subst he; simp [Cron.Wf, Cron.lowest])
        | (rcases he with rfl | rfl <;> simp [Cron.Wf, Cron.lowest])
  · decide +kernel
  · decide +kernel
  · decide

end Sched
end Asyncz
