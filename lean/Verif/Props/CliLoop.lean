import Verif.Model.CliLoop
/-!
# What becomes of the jobs a command submits (C89)
-/
namespace Asyncz
namespace CliLoop

/-- the functions among the jobs -/
def functions (js : List Job) : List Nat := (js.filter fun j => j.suspends.isNone).map (·.id)

theorem foldl_submit (js : List Job) (l : Loop) :
    ∃ r, js.foldl submit l = ⟨l.ready ++ r, l.stopping, l.pending ++ js.map (·.id), l.cancelled, l.began ++ functions js,
      l.ended ++ functions js, l.reported⟩ := by
  induction js generalizing l with
  | nil => exact ⟨[], by simp [functions]⟩
  | cons j js ih =>
    obtain ⟨i, k⟩ := j
    cases k with
    | none =>
      obtain ⟨r, hr⟩ := ih (submit l ⟨i, none⟩)
      refine ⟨.settle i :: r, ?_⟩
      rw [List.foldl_cons, hr]
      simp [submit, functions]
    | some k =>
      obtain ⟨r, hr⟩ := ih (submit l ⟨i, some k⟩)
      refine ⟨.step i k :: r, ?_⟩
      rw [List.foldl_cons, hr]
      simp [submit, functions]

/-- the outcome for the command's own job -/
def ownBegan : Option Job → List Nat
  | none => []
  | some j => [j.id]

def ownEnded : Option Job → List Nat
  | some ⟨i, none⟩ | some ⟨i, some 0⟩ => [i]
  | _ => []

theorem once_afterMain (due : List Job) (own : Option Job) :
    (once (afterMain due own)).stopping = true ∧
    (∀ i, i ∈ (once (afterMain due own)).began ↔ i ∈ functions due ∨ i ∈ ownBegan own) ∧
    (∀ i, i ∈ (once (afterMain due own)).ended ↔ i ∈ functions due ∨ i ∈ ownEnded own) ∧
    (once (afterMain due own)).reported = [] := by
  cases own with
  | none =>
    obtain ⟨r, hr⟩ := foldl_submit due ⟨[], false, [], [], [], [], []⟩
    simp only [afterMain, once, List.foldl_append, List.foldl_cons, List.foldl_nil, runItem, hr]
    simp [ownBegan, ownEnded]
  | some j =>
    obtain ⟨i, k⟩ := j
    cases k with
    | none =>
      obtain ⟨r, hr⟩ := foldl_submit due ⟨[], false, [i], [], [i], [i], []⟩
      simp only [afterMain, submit, once, List.foldl_append, List.foldl_cons, List.foldl_nil, List.nil_append, runItem, hr]
      simp [ownBegan, ownEnded, or_comm]
    | some k =>
      obtain ⟨r, hr⟩ := foldl_submit due ⟨[], false, [i], [], [], [], []⟩
      simp only [afterMain, submit, once, List.foldl_append, List.foldl_cons, List.foldl_nil, List.nil_append, runItem, hr]
      cases k with
      | zero => simp [ownBegan, ownEnded]
      | succ k => simp [ownBegan, ownEnded]

/-- **C89** (partial): a command ends after one round of the loop; then the job of `asyncz run` has been entered, and has
ended if it is a function or a coroutine that never suspends.  Functions that were due have been run, too; coroutines that
were due have not been entered.  Partial: a coroutine that suspends is abandoned (`C89_coroutine_witness`), and no outcome is
reported to anyone (`C89_silent_witness`). -/
theorem C89_run_partial (n : Nat) (due : List Job) (own : Option Job) (hn : 0 < n) :
    ∃ l, command n due own = some l ∧
      (∀ i, i ∈ l.began ↔ (∃ j ∈ due, j.id = i ∧ j.suspends = none) ∨ ∃ j, own = some j ∧ j.id = i) ∧
      (∀ i, i ∈ l.ended ↔ (∃ j ∈ due, j.id = i ∧ j.suspends = none) ∨
        ∃ j, own = some j ∧ j.id = i ∧ (j.suspends = none ∨ j.suspends = some 0)) := by
  obtain ⟨h1, h2, h3, _⟩ := once_afterMain due own
  have hf : ∀ i, i ∈ functions due ↔ ∃ j ∈ due, j.id = i ∧ j.suspends = none := by
    intro i
    simp only [functions, List.mem_map, List.mem_filter, Option.isNone_iff_eq_none]
    exact ⟨fun ⟨j, ⟨a, b⟩, c⟩ => ⟨j, a, c, b⟩, fun ⟨j, a, c, b⟩ => ⟨j, ⟨a, b⟩, c⟩⟩
  refine ⟨once (afterMain due own), ?_, fun i => ?_, fun i => ?_⟩
  · cases n with
    | zero => cases hn
    | succ n => simp only [command, rounds, h1, if_true]
  · rw [h2, hf]
    cases own with
    | none => simp [ownBegan]
    | some j => simp [ownBegan, eq_comm]
  · rw [h3, hf]
    rcases own with _ | ⟨i', k⟩
    · simp [ownEnded]
    · rcases k with _ | _ | k <;> simp [ownEnded, eq_comm]

/-- **C89, counterexample**: whatever else is due, a coroutine that suspends even once is entered by `asyncz run` and never ends. -/
theorem C89_coroutine_witness (n : Nat) (due : List Job) (i k : Nat) (hi : ∀ j ∈ due, j.id ≠ i) (l : Loop)
    (h : command n due (some ⟨i, some (k + 1)⟩) = some l) : i ∈ l.began ∧ i ∉ l.ended := by
  cases n with
  | zero => cases h
  | succ n =>
    obtain ⟨l', h1, h2, h3⟩ := C89_run_partial (n + 1) due (some ⟨i, some (k + 1)⟩) (Nat.succ_pos n)
    rw [h] at h1; cases h1
    refine ⟨(h2 i).2 (.inr ⟨_, rfl, rfl⟩), fun hc => ?_⟩
    rcases (h3 i).1 hc with ⟨j, hj, hji, _⟩ | ⟨j, hj, _, hs⟩
    · exact hi j hj hji
    · cases hj; simp at hs

/-- **C89, counterexample**: no command ever reports the outcome of a job it submitted: neither an executed nor an error event. -/
theorem C89_silent_witness (n : Nat) (due : List Job) (own : Option Job) (l : Loop) (h : command n due own = some l) :
    l.reported = [] := by
  cases n with
  | zero => cases h
  | succ n =>
    obtain ⟨h1, _, _, h4⟩ := once_afterMain due own
    simp only [command, rounds, h1, if_true, Option.some.injEq] at h
    rw [← h, h4]

/-- **C89, counterexample**: the coroutines that a command found due and submitted (C86) are never entered: these runs are lost. -/
theorem C89_due_witness (n : Nat) (due : List Job) (own : Option Job) (l : Loop) (h : command n due own = some l)
    (j : Job) (k : Nat) (hj : j ∈ due) (hk : j.suspends = some k) (hu : ∀ j' ∈ due, j'.id = j.id → j' = j)
    (hown : ∀ o, own = some o → o.id ≠ j.id) : j.id ∉ l.began := by
  cases n with
  | zero => cases h
  | succ n =>
    obtain ⟨l', h1, h2, _⟩ := C89_run_partial (n + 1) due own (Nat.succ_pos n)
    rw [h] at h1; cases h1
    intro hc
    rcases (h2 j.id).1 hc with ⟨j', hj', he, hs⟩ | ⟨o, ho, he⟩
    · rw [hu j' hj' he, hk] at hs; cases hs
    · exact hown o ho he

/-- so many rounds of a loop that goes on -/
def goesOn : Nat → Loop → Loop
  | 0, l => l
  | n + 1, l => goesOn n (once l)

/-- **C89**: what the commands lack is rounds.  In a loop that goes on – that of a started scheduler – a submitted coroutine that
suspends `k` times has ended after `k + 1` rounds and not before, and its outcome is reported in the round after that. -/
theorem C89_daemon (j : Job) (k : Nat) (hj : j.suspends = some k) (n : Nat) :
    let l := goesOn n (submit ⟨[], false, [], [], [], [], []⟩ j)
    (l.ended = if n ≤ k then [] else [j.id]) ∧ (l.reported = if n ≤ k + 1 then [] else [j.id]) ∧
    (l.pending = if n ≤ k + 1 then [j.id] else []) := by
  simp only [submit, hj]
  have idle : ∀ n (l : Loop), l.ready = [] → goesOn n l = l := by
    intro n
    induction n with
    | zero => intro l _; rfl
    | succ n ih =>
      intro l h
      have : once l = l := by cases l; simp only at h; subst h; rfl
      rw [goesOn, this]; exact ih l h
  suffices H : ∀ k n b, let l := goesOn n ⟨[.step j.id k], false, [j.id], [], b, [], []⟩
      (l.ended = if n ≤ k then [] else [j.id]) ∧ (l.reported = if n ≤ k + 1 then [] else [j.id]) ∧
      (l.pending = if n ≤ k + 1 then [j.id] else []) from H k n []
  intro k
  induction k with
  | zero =>
    intro n b
    match n with
    | 0 => simp [goesOn]
    | 1 => simp [goesOn, once, runItem]
    | n + 2 =>
      have := idle n ⟨[], false, [], [], b ++ [j.id], [j.id], [j.id]⟩ rfl
      simp [goesOn, once, runItem, this]
  | succ k ih =>
    intro n b
    cases n with
    | zero => simp [goesOn]
    | succ n =>
      have := ih n (b ++ [j.id])
      simpa [goesOn, once, runItem] using this

/-- **C89**, plain functions: in a loop that goes on, the outcome of a function that has ended is reported after the second
round; until then it counts as pending. -/
theorem C89_daemon_function (j : Job) (hj : j.suspends = none) (n : Nat) :
    let l := goesOn n (submit ⟨[], false, [], [], [], [], []⟩ j)
    l.began = [j.id] ∧ l.ended = [j.id] ∧ (l.reported = if n ≤ 1 then [] else [j.id]) ∧
    (l.pending = if n ≤ 1 then [j.id] else []) := by
  have idle : ∀ n (l : Loop), l.ready = [] → goesOn n l = l := by
    intro n
    induction n with
    | zero => intro l _; rfl
    | succ n ih =>
      intro l h
      have : once l = l := by cases l; simp only at h; subst h; rfl
      rw [goesOn, this]; exact ih l h
  simp only [submit, hj]
  match n with
  | 0 => simp [goesOn]
  | 1 => simp [goesOn, once, runItem]
  | n + 2 =>
    have := idle n ⟨[], false, [], [], [j.id], [j.id], [j.id]⟩ rfl
    simp [goesOn, once, runItem, this]

-- a function: reported in the second round
example : (goesOn 1 (submit ⟨[], false, [], [], [], [], []⟩ ⟨7, none⟩)).reported = [] ∧
    (goesOn 2 (submit ⟨[], false, [], [], [], [], []⟩ ⟨7, none⟩)).reported = [7] := by decide

-- a coroutine that suspends three times: ended after four rounds, reported after five
example : (goesOn 4 (submit ⟨[], false, [], [], [], [], []⟩ ⟨7, some 3⟩)).ended = [7] ∧
    (goesOn 4 (submit ⟨[], false, [], [], [], [], []⟩ ⟨7, some 3⟩)).reported = [] ∧
    (goesOn 5 (submit ⟨[], false, [], [], [], [], []⟩ ⟨7, some 3⟩)).reported = [7] := by decide

/-- `asyncz run` of a function, a coroutine that never suspends, one that suspends; two jobs are due. -/
example : (command 5 [⟨1, none⟩, ⟨2, some 0⟩] (some ⟨0, none⟩)).map (fun l => (l.began, l.ended, l.reported)) = some ([0, 1], [0, 1], []) ∧
    (command 5 [⟨1, none⟩, ⟨2, some 0⟩] (some ⟨0, some 0⟩)).map (fun l => (l.began, l.ended, l.reported)) = some ([1, 0], [1, 0], []) ∧
    (command 5 [⟨1, none⟩, ⟨2, some 0⟩] (some ⟨0, some 3⟩)).map (fun l => (l.began, l.ended, l.reported)) = some ([1, 0], [1], []) := by
  decide

end CliLoop
end Asyncz
