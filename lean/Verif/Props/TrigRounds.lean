import Verif.Props.TrigTree
/-!
# C16: the number of rounds the model allows does not matter
-/
namespace Asyncz
namespace Sched

/-- the second answers everything the first one answers, and the same -/
def Extends : List Answer → List Answer → Prop
  | [], [] => True
  | x :: xs, y :: ys => (∀ a, x = some a → y = some a) ∧ Extends xs ys
  | _, _ => False

theorem orLoop_extends : ∀ {l m : List Answer}, Extends l m → ∀ r, orLoop l = some r → orLoop m = some r
  | [], [], _, r, h => h
  | [], _ :: _, he, _, _ => he.elim
  | _ :: _, [], he, _, _ => he.elim
  | none :: _, _ :: _, _, r, h => by simp [orLoop] at h
  | some (.error x) :: _, y :: _, he, r, h => by
    rw [he.1 _ rfl]
    simpa [orLoop] using h
  | some (.ok t) :: l, y :: m, he, r, h => by
    rw [he.1 _ rfl]
    have ih := orLoop_extends he.2
    simp only [orLoop] at h ⊢
    cases hl : orLoop l with
    | none => rw [hl] at h; simp at h
    | some a => rw [ih a hl]; rw [hl] at h; exact h

theorem andFor_extends : ∀ {l m : List Answer}, Extends l m → ∀ r, andFor l = some r → andFor m = some r
  | [], [], _, r, h => h
  | [], _ :: _, he, _, _ => he.elim
  | _ :: _, [], he, _, _ => he.elim
  | none :: _, _ :: _, _, r, h => by simp [andFor] at h
  | some (.error x) :: _, y :: _, he, r, h => by
    rw [he.1 _ rfl]
    simpa [andFor] using h
  | some (.ok none) :: _, y :: _, he, r, h => by
    rw [he.1 _ rfl]
    simpa [andFor] using h
  | some (.ok (some t)) :: l, y :: m, he, r, h => by
    rw [he.1 _ rfl]
    have ih := andFor_extends he.2
    simp only [andFor] at h ⊢
    cases hl : andFor l with
    | none => rw [hl] at h; simp at h
    | some a => rw [ih a hl]; rw [hl] at h; exact h

theorem orAnswer_extends {E : TzEnv} {l m : List Answer} (he : Extends l m) (j : Option Int) (d : Int) (a)
    (h : orAnswer E l j d = some a) : orAnswer E m j d = some a := by
  unfold orAnswer at h ⊢
  cases hl : orLoop l with
  | none => rw [hl] at h; simp at h
  | some r => rw [orLoop_extends he r hl]; rw [hl] at h; exact h

theorem andLoop_extends {E : TzEnv} {ask ask' : Nat → Dt → List Answer} (he : ∀ k now, Extends (ask k now) (ask' k now))
    (j : Option Int) (d : Int) : ∀ {n n' : Nat}, n ≤ n' → ∀ k now a, andLoop E ask j d n k now = some a →
    andLoop E ask' j d n' k now = some a
  | 0, _, _, k, now, a, h => by simp [andLoop] at h
  | n + 1, 0, hn, _, _, _, _ => by omega
  | n + 1, n' + 1, hn, k, now, a, h => by
    have ih := andLoop_extends (E := E) he j d (n := n) (n' := n') (by omega)
    rw [andLoop] at h ⊢
    cases hl : andFor (ask k now) with
    | none => rw [hl] at h; simp at h
    | some r =>
      rw [andFor_extends (he k now) r hl]
      rw [hl] at h
      rcases r with x | _ | ts
      · exact h
      · exact h
      · dsimp only at h ⊢
        split at h
        · split at h
          · rename_i c; rw [if_pos c]; exact h
          · rename_i c; rw [if_neg c]; exact ih _ _ _ h
        · exact h
        · exact h

mutual
theorem next_extends (E : TzEnv) (tz : Nat) {n n' : Nat} (hn : n ≤ n') (prev : Option Dt) : ∀ (t : Tree) (draw : List Nat → Int)
    (now : Dt) (a), Tree.next E tz n prev t draw now = some a → Tree.next E tz n' prev t draw now = some a
  | .leaf g, draw, now, a, h => by rw [Tree.next] at h ⊢; exact h
  | .or ms j, draw, now, a, h => by
    rw [Tree.next] at h ⊢
    exact orAnswer_extends (nexts_extends E tz hn prev ms 0 draw now) j _ a h
  | .and ms j, draw, now, a, h => by
    rw [Tree.next] at h ⊢
    exact andLoop_extends (fun k x => nexts_extends E tz hn prev ms 0 _ x) j _ hn 0 now a h

theorem nexts_extends (E : TzEnv) (tz : Nat) {n n' : Nat} (hn : n ≤ n') (prev : Option Dt) : ∀ (ts : List Tree) (i : Nat)
    (draw : List Nat → Int) (now : Dt), Extends (Tree.nexts E tz n prev ts i draw now) (Tree.nexts E tz n' prev ts i draw now)
  | [], _, _, _ => by simp [Tree.nexts, Extends]
  | t :: ts, i, draw, now => by
    rw [Tree.nexts, Tree.nexts]
    exact ⟨fun a h => next_extends E tz hn prev t _ now a h, nexts_extends E tz hn prev ts (i + 1) draw now⟩
end

/-- **C16 (nested triggers, one answer).**  A trigger built of others to any depth has at most one answer: however many rounds
its `while` loops are given, two runs that end answer the same, and giving more rounds never takes an answer away.  So "the
call ends" does not depend on the bound used to state it. -/
theorem C16_nested_answer (E : TzEnv) (tz : Nat) (prev : Option Dt) (t : Tree) (draw : List Nat → Int) (now : Dt) :
    (∀ n n' a a', Tree.next E tz n prev t draw now = some a → Tree.next E tz n' prev t draw now = some a' → a = a') ∧
    (∀ n a, Tree.next E tz n prev t draw now = some a → ∀ n', n ≤ n' → Tree.next E tz n' prev t draw now = some a) := by
  refine ⟨fun n n' a a' h h' => ?_, fun n a h n' hn => next_extends E tz hn prev t draw now a h⟩
  rcases Nat.le_total n n' with hn | hn
  · rw [next_extends E tz hn prev t draw now a h] at h'
    exact Option.some.inj h'
  · rw [next_extends E tz hn prev t draw now a' h'] at h
    exact (Option.some.inj h).symm

/-- **C16 (nested triggers, hanging members).**  A call asks its members in order: if one of them does not end, and those before
it have a time, the `AndTrigger` does not end either; and an `OrTrigger` does not end if a member does not and none before it
fails. -/
theorem C16_nested_hang (E : TzEnv) (ms ms' : List Answer) :
    ((∀ x ∈ ms, ∃ q, x = some (.ok (some q))) → andFor (ms ++ none :: ms') = none) ∧
    ((∀ x ∈ ms, ∃ q, x = some (.ok q)) → ∀ j d, orAnswer E (ms ++ none :: ms') j d = none) := by
  constructor
  · intro h
    induction ms with
    | nil => rfl
    | cons x ms ih =>
      obtain ⟨q, rfl⟩ := h x (by simp)
      simp [andFor, ih (fun y hy => h y (by simp [hy]))]
  · intro h j d
    have : orLoop (ms ++ none :: ms') = none := by
      induction ms with
      | nil => rfl
      | cons x ms ih =>
        obtain ⟨q, rfl⟩ := h x (by simp)
        simp [orLoop, ih (fun y hy => h y (by simp [hy]))]
    simp [orAnswer, this]

/-- **C16 (nested triggers, hanging members), as the call.**  A nested trigger whose first member does not end does not end. -/
theorem C16_nested_hang_first (E : TzEnv) (tz : Nat) (prev : Option Dt) (t : Tree) (ms : List Tree) (j : Option Int)
    (n : Nat) (now : Dt) (h : ∀ draw, Tree.next E tz n prev t draw now = none) (draw : List Nat → Int) :
    Tree.next E tz n prev (.and (t :: ms) j) draw now = none ∧ Tree.next E tz n prev (.or (t :: ms) j) draw now = none := by
  constructor
  · rw [Tree.next]
    cases n with
    | zero => rfl
    | succ n => simp only [andLoop, Tree.nexts, h, andFor]
  · rw [Tree.next]
    simp only [Tree.nexts, h, orAnswer, orLoop]

theorem exHangs (d : List Nat → Int) (n : Nat) :
    Tree.next exEnv 0 n (some (Dt.ofInst exEnv 0 (day 30))) (.and ([Trig.cron ⟨exSecond 30, none, none, none, none⟩,
      .cron ⟨exTwoSeconds, none, none, none, none⟩].map .leaf) none) d (Dt.ofInst exEnv 0 (day 30)) = none := by
  obtain ⟨h1, h2, h3, h4⟩ := exHang_conditions
  refine (C16_and_after_run_witness (E := exEnv) exEnv_fixed 0 _ h1 (by simp) (day 30) ?_ (day 30) (Int.le_refl _) d ?_).2 ?_ n
  · intro g hg
    simp only [List.mem_cons, List.not_mem_nil, or_false] at hg
    rcases hg with rfl | rfl <;> exact h4
  · intro g hg
    simp only [List.mem_cons, List.not_mem_nil, or_false] at hg
    rcases hg with rfl | rfl
    · exact ⟨_, h2⟩
    · exact ⟨_, h3⟩
  · refine ⟨_, List.mem_cons_self, _, List.mem_cons_of_mem _ List.mem_cons_self, ?_⟩
    rw [h2, h3]
    decide

-- after a run at second 30, "second 30" and "seconds 20 and 30" do not end, and so no `OrTrigger` does whose first member they are
example (ms : List Tree) (n : Nat) (draw : List Nat → Int) :
    Tree.next exEnv 0 n (some (Dt.ofInst exEnv 0 (day 30))) (.or (.and ([Trig.cron ⟨exSecond 30, none, none, none, none⟩,
      .cron ⟨exTwoSeconds, none, none, none, none⟩].map .leaf) none :: ms) none) draw (Dt.ofInst exEnv 0 (day 30)) = none := by
  refine (C16_nested_hang_first exEnv 0 _ _ ms none n _ (fun d => ?_) draw).2
  exact exHangs d n

-- an `OrTrigger` of an `AndTrigger` answers with one round, and so with any number
example (E : TzEnv) (tz n : Nat) (g : Trig) (prev : Option Dt) (now r : Dt) (d : List Nat → Int)
    (h : leafNext E tz g prev now (d [0, 0]) = .ok (some r)) :
    Tree.next E tz (n + 1) prev (.and [.leaf g] none) d now = Tree.next E tz 1 prev (.and [.leaf g] none) d now := by
  have h1 : ∃ a, Tree.next E tz 1 prev (.and [.leaf g] none) d now = some a := by
    simp only [Tree.next, Tree.nexts, andLoop, andFor, h, pyMin, pyMax]
    simp [Dt.eq]
  obtain ⟨a, ha⟩ := h1
  rw [ha]
  exact (C16_nested_answer E tz prev _ d now).2 1 a ha _ (by omega)

end Sched
end Asyncz
