import Verif.Model.Listeners
/-!
# C35: event listeners
-/
namespace Asyncz
namespace Listen

/-! ## Masks -/

/-- the position of a kind among the event kinds -/
def Kind.bit (k : Kind) : Nat := Kind.all.idxOf k

theorem code_eq (k : Kind) : k.code = 2 ^ k.bit := by cases k <;> rfl

theorem bit_inj {k k' : Kind} (h : k.bit = k'.bit) : k = k' := by
  have : ∀ k : Kind, Kind.all[k.bit]? = some k := by intro k; cases k <;> rfl
  have h1 := this k
  rw [h, this k'] at h1
  exact (Option.some.inj h1).symm

theorem code_and (k : Kind) (m : Nat) : (k.code &&& m ≠ 0) ↔ m.testBit k.bit = true := by
  rw [code_eq]
  constructor
  · intro h
    obtain ⟨i, hi⟩ := Nat.exists_testBit_of_ne_zero h
    rw [Nat.testBit_and, Nat.testBit_two_pow] at hi
    simp only [Bool.and_eq_true, decide_eq_true_eq] at hi
    rw [hi.1]; exact hi.2
  · intro h h0
    have : (2 ^ k.bit &&& m).testBit k.bit = true := by
      rw [Nat.testBit_and, Nat.testBit_two_pow]; simp [h]
    rw [h0] at this
    simp at this

theorem testBit_code (k k' : Kind) : k.code.testBit k'.bit = decide (k = k') := by
  rw [code_eq, Nat.testBit_two_pow]
  by_cases h : k = k'
  · simp [h]
  · simp only [h, decide_false, decide_eq_false_iff_not]
    exact fun h' => h (bit_inj h')

theorem testBit_foldl (ks : List Kind) (m : Nat) (k : Kind) :
    (ks.foldl (fun m k => m ||| k.code) m).testBit k.bit = (m.testBit k.bit || decide (k ∈ ks)) := by
  induction ks generalizing m with
  | nil => simp
  | cons a ks ih =>
    rw [List.foldl_cons, ih, Nat.testBit_or, testBit_code]
    by_cases h : a = k
    · simp [h]
    · have : ¬ k = a := fun e => h e.symm
      simp [h, this]

/-- A mask made of several event codes selects exactly those events, `ALL_EVENTS` selects all. -/
theorem C35_mask (ks : List Kind) (k : Kind) :
    (k.code &&& maskOf ks ≠ 0 ↔ k ∈ ks) ∧ k.code &&& allEvents ≠ 0 := by
  have h : ∀ ks : List Kind, k.code &&& maskOf ks ≠ 0 ↔ k ∈ ks := by
    intro ks
    rw [code_and, maskOf, testBit_foldl]
    simp
  exact ⟨h ks, (h _).2 (by cases k <;> decide)⟩

/-! ## One event -/

variable {κ : Type} [DecidableEq κ] {π : Type}

theorem loop_calls (b : Behaviour κ π) (e : Event π) (snap ls : Ls κ) :
    (loop b e snap ls).1 = (snap.filter (fun p => p.2.testBit e.kind.bit)).map (fun p => (p.1, e)) := by
  induction snap generalizing ls with
  | nil => rfl
  | cons p rest ih =>
    obtain ⟨c, m⟩ := p
    unfold loop
    by_cases h : m.testBit e.kind.bit = true
    · rw [if_pos ((code_and _ _).2 h)]
      cases b.raises c e ls <;> simp [ih, h]
    · rw [if_neg (fun h' => h ((code_and _ _).1 h'))]
      simp [ih, h]

/-- **C35.** Every event is delivered to the listeners registered when it is dispatched whose mask has the
bit of its code, once for each registration, in the order of registration, whatever the callbacks do
meanwhile (raise, add or remove listeners, dispatch events) and whatever other threads do to the list. -/
theorem C35_dispatch (b : Behaviour κ π) (self : String) (e : Event π) (ls : Ls κ) :
    (dispatch b self e ls).1.map Prod.fst = (ls.filter (fun p => p.2.testBit e.kind.bit)).map Prod.fst ∧
    ∀ p ∈ (dispatch b self e ls).1, p.2.kind = e.kind ∧ p.2.payload = e.payload ∧
      p.2.identity = if e.isTask = true ∧ e.identity = none ∧ self ≠ "" then some self else e.identity := by
  have hk : (stamp self e).kind = e.kind := by unfold stamp; split <;> rfl
  unfold dispatch
  rw [loop_calls, hk]
  constructor
  · rw [List.map_map]; rfl
  · intro p hp
    rw [List.mem_map] at hp
    obtain ⟨q, _, rfl⟩ := hp
    refine ⟨hk, ?_, ?_⟩
    · show (stamp self e).payload = _; unfold stamp; split <;> rfl
    · show (stamp self e).identity = _
      unfold stamp
      by_cases h1 : e.isTask = true <;> by_cases h2 : e.identity = none <;> by_cases h3 : self = "" <;>
        simp [h1, h2, h3]

/-! ## Registration -/

theorem remove_spec (ls : Ls κ) (c : κ) :
    (c ∉ ls.map Prod.fst ∧ remove ls c = (ls, false)) ∨
    ∃ l1 m l2, ls = l1 ++ (c, m) :: l2 ∧ c ∉ l1.map Prod.fst ∧ remove ls c = (l1 ++ l2, true) := by
  induction ls with
  | nil => exact Or.inl ⟨by simp, rfl⟩
  | cons p rest ih =>
    obtain ⟨c', m⟩ := p
    by_cases h : c = c'
    · subst h
      exact Or.inr ⟨[], m, rest, rfl, by simp, by simp [remove]⟩
    · rcases ih with ⟨h1, h2⟩ | ⟨l1, m', l2, h1, h2, h3⟩
      · refine Or.inl ⟨?_, ?_⟩
        · simp only [List.map_cons, List.mem_cons, not_or]; exact ⟨h, h1⟩
        · simp [remove, h, h2]
      · refine Or.inr ⟨(c', m) :: l1, m', l2, by rw [h1]; rfl, ?_, ?_⟩
        · simp only [List.map_cons, List.mem_cons, not_or]; exact ⟨h, h2⟩
        · simp [remove, h, h3]

/-- **C35.** `add_listener` puts the callback behind the others; `remove_listener` takes away exactly the
first registration of the callback, leaves the others in order, and says whether there was one.  So a
callback that was registered once is not called for later events. -/
theorem C35_registration (b : Behaviour κ π) (self : String) (e : Event π) (ls : Ls κ) (c : κ) (m : Nat) :
    ((dispatch b self e (add ls c m)).1.map Prod.fst =
      (dispatch b self e ls).1.map Prod.fst ++ if m.testBit e.kind.bit then [c] else []) ∧
    ((remove ls c).2 = true ↔ c ∈ ls.map Prod.fst) ∧
    ((ls.map Prod.fst).count c ≤ 1 → c ∉ (dispatch b self e (remove ls c).1).1.map Prod.fst) ∧
    (((remove ls c).1.map Prod.fst).count c = (ls.map Prod.fst).count c - 1) ∧
    ((remove ls c).1.filter (fun p => p.1 ≠ c) = ls.filter (fun p => p.1 ≠ c)) := by
  refine ⟨?_, ?_, ?_, ?_, ?_⟩
  · rw [(C35_dispatch b self e _).1, (C35_dispatch b self e _).1]
    unfold add
    rw [List.filter_append, List.map_append]
    congr 1
    cases h : m.testBit e.kind.bit <;> simp [h]
  · rcases remove_spec ls c with ⟨h1, h2⟩ | ⟨l1, m', l2, h1, h2, h3⟩
    · rw [h2]; simp only [Bool.false_eq_true, false_iff]; exact h1
    · rw [h3, h1]; simp
  · intro hc
    rw [(C35_dispatch b self e _).1]
    intro hm
    have hmem : c ∈ (remove ls c).1.map Prod.fst := by
      rw [List.mem_map] at hm ⊢
      obtain ⟨p, hp, rfl⟩ := hm
      exact ⟨p, (List.mem_filter.1 hp).1, rfl⟩
    rcases remove_spec ls c with ⟨h1, h2⟩ | ⟨l1, m', l2, h1, h2, h3⟩
    · rw [h2] at hmem; exact h1 hmem
    · rw [h3] at hmem
      rw [h1] at hc
      simp only [List.map_append, List.map_cons, List.count_append, List.count_cons_self] at hc
      simp only [List.map_append, List.mem_append] at hmem
      rcases hmem with hmem | hmem
      · exact h2 hmem
      · have := List.count_pos_iff.2 hmem
        omega
  · rcases remove_spec ls c with ⟨h1, h2⟩ | ⟨l1, m', l2, h1, h2, h3⟩
    · rw [h2, List.count_eq_zero_of_not_mem h1]
    · rw [h3, h1]
      simp only [List.map_append, List.map_cons, List.count_append, List.count_cons_self]
      omega
  · rcases remove_spec ls c with ⟨h1, h2⟩ | ⟨l1, m', l2, h1, h2, h3⟩
    · rw [h2]
    · rw [h3, h1]; simp

/-! ## Histories -/

/-- what one operation does to the registrations -/
def register (ls : Ls κ) : Op κ π → Ls κ
  | .add c m => ls ++ [(c, m)]
  | .remove c => ls.eraseP (fun p => p.1 = c)
  | .dispatch _ => ls

/-- The specification: the registrations in force after some operations, oldest first. -/
def registered (ops : List (Op κ π)) : Ls κ := ops.foldl register []

def isDispatch : Op κ π → Bool
  | .dispatch _ => true
  | _ => false

theorem remove_eraseP (ls : Ls κ) (c : κ) : (remove ls c).1 = ls.eraseP (fun p => p.1 = c) := by
  induction ls with
  | nil => rfl
  | cons p rest ih =>
    obtain ⟨c', m⟩ := p
    by_cases h : c = c'
    · subst h; simp [remove]
    · have h' : ¬ c' = c := fun e => h e.symm
      simp [remove, h, h', ih]

theorem loop_passive {b : Behaviour κ π} (hb : ∀ c e ls, b.effect c e ls = ls) (e : Event π) (snap ls : Ls κ) :
    (loop b e snap ls).2 = ls := by
  induction snap generalizing ls with
  | nil => rfl
  | cons p rest ih =>
    obtain ⟨c, m⟩ := p
    unfold loop
    split
    · cases b.raises c e ls <;> simp [ih, hb]
    · exact ih ls

/-- **C35, over histories.** In every sequence of registrations, removals and events, with callbacks that
may raise but do not change the registrations, the event dispatched after `pre` is delivered to exactly the
callbacks registered then whose mask has its bit, once per registration, oldest first. -/
theorem C35_history (b : Behaviour κ π) (hb : ∀ c e ls, b.effect c e ls = ls) (self : String)
    (pre post : List (Op κ π)) (e : Event π) :
    ((run b self [] (pre ++ .dispatch e :: post)).1[(pre.filter isDispatch).length]?).map (List.map Prod.fst) =
      some (((registered pre).filter (fun p => p.2.testBit e.kind.bit)).map Prod.fst) := by
  unfold registered
  generalize ([] : Ls κ) = ls
  induction pre generalizing ls with
  | nil => simp [run, (C35_dispatch b self e ls).1]
  | cons o pre ih =>
    cases o with
    | add c m => simpa [run, isDispatch, add, register] using ih _
    | remove c => simpa [run, isDispatch, remove_eraseP, register] using ih _
    | dispatch e' =>
      have : (dispatch b self e' ls).2 = ls := loop_passive hb _ _ _
      simpa [run, List.filter_cons, isDispatch, this, register] using ih ls

/-- a listener registered twice, one that raises, and one that removes another while it is called -/
def exBeh : Behaviour Nat Unit where
  effect c _ ls := if c = 1 then (remove ls 2).1 else ls
  raises c _ _ := c = 1 ∨ c = 3

def exLs : Ls Nat := [(1, maskOf [.taskAdded, .taskError]), (2, allEvents), (3, maskOf [.taskMissed]),
  (2, maskOf [.taskError])]

example : (dispatch exBeh "s" ⟨.taskError, true, none, ()⟩ exLs).1 =
    [(1, ⟨.taskError, true, some "s", ()⟩), (2, ⟨.taskError, true, some "s", ()⟩), (2, ⟨.taskError, true, some "s", ()⟩)] ∧
    (dispatch exBeh "s" ⟨.taskError, true, none, ()⟩ exLs).2.map Prod.fst = [1, 3, 2] := by decide +kernel

example : (run ⟨fun _ _ ls => ls, fun _ _ _ => true⟩ "s" []
    [.add 5 allEvents, .add 6 (maskOf [.storeAdded]), .add 5 allEvents, .remove 5,
      .dispatch ⟨.storeAdded, false, none, ()⟩, .remove 5, .dispatch ⟨.storeAdded, false, none, ()⟩]).1.map
      (List.map Prod.fst) = [[6, 5], [6]] := by decide +kernel

end Listen
end Asyncz
