import Verif.Props.FileRace
/-!
# C118: a process killed while it changes a task of a file store
-/
namespace Asyncz
namespace FileRace
variable {τ : Type} {buf : Nat} {dec : Bytes → Option τ}

/-! ## Specification -/

/-- the path leads to a file with these bytes, and nobody holds a lock -/
def Holds (f : FS) (v : Bytes) : Prop := ∃ i, f.path = some i ∧ i < f.data.length ∧ f.get i = v ∧ f.locks = []

/-- there is no file, and nobody holds a lock -/
def Absent (f : FS) : Prop := f.path = none ∧ f.locks = []

/-! ## Proof -/

theorem run_replicate_succ (s : St τ) (k : Nat) :
    run buf dec s (List.replicate (k + 1) 0) = run buf dec (step buf dec s 0) (List.replicate k 0) := rfl

theorem run_done (f : FS) (op : Op) (r : Res τ) (k : Nat) :
    run buf dec ⟨f, [⟨op, .done r⟩]⟩ (List.replicate k 0) = ⟨f, [⟨op, .done r⟩]⟩ := by
  induction k with
  | zero => rfl
  | succ k ih =>
    rw [run_replicate_succ]
    have : step buf dec ⟨f, [⟨op, .done r⟩]⟩ 0 = ⟨f, [⟨op, .done r⟩]⟩ := by
      cases op <;> rfl
    rw [this, ih]

/-- one step of the only process -/
theorem step_alone (f : FS) (op : Op) (pc : PC τ) :
    step buf dec ⟨f, [⟨op, pc⟩]⟩ 0 = ⟨(stepProc buf dec 0 f ⟨op, pc⟩).1, [⟨op, (stepProc buf dec 0 f ⟨op, pc⟩).2⟩]⟩ := rfl

theorem get_set_same (f : FS) (i : Nat) (v : Bytes) (hi : i < f.data.length) (h : Option Nat) (l : List (Nat × Nat × Bool)) :
    (⟨h, f.data.set i v, l⟩ : FS).get i = v := by
  simp [FS.get, hi]

/-- a whole record is read -/
theorem readBack_holds {f : FS} {v : Bytes} {t : τ} (h : Holds f v) (ht : dec v = some t) :
    (readBack buf dec f).2 = some (.task t) ∧ Holds (readBack buf dec f).1 v := by
  obtain ⟨i, h1, h2, h3, h4⟩ := h
  obtain ⟨p, d, l⟩ := f
  simp only at h1 h4
  subst h1 h4
  have hg : (⟨some i, d, [(i, 0, false)]⟩ : FS).get i = v := h3
  simp only [readBack, begin, List.map_cons, List.map_nil, run_replicate_succ, step_alone, stepProc, FS.free, List.all_nil, if_true,
    List.nil_append, hg, ht]
  have hrel : (⟨some i, d, [(i, 0, false)]⟩ : FS).release 0 i = ⟨some i, d, []⟩ := by simp [FS.release]
  rw [hrel, run_done]
  exact ⟨rfl, i, rfl, h2, h3, rfl⟩

/-- an empty file is no task, and is removed by the reader -/
theorem readBack_torn {f : FS} {v : Bytes} (h : Holds f v) (ht : dec v = none) :
    (readBack buf dec f).2 = some .nothing ∧ Absent (readBack buf dec f).1 := by
  obtain ⟨i, h1, h2, h3, h4⟩ := h
  obtain ⟨p, d, l⟩ := f
  simp only at h1 h4
  subst h1 h4
  have hg : (⟨some i, d, [(i, 0, false)]⟩ : FS).get i = v := h3
  have hrel : (⟨some i, d, [(i, 0, false)]⟩ : FS).release 0 i = ⟨some i, d, []⟩ := by simp [FS.release]
  simp only [readBack, begin, List.map_cons, List.map_nil, run_replicate_succ, step_alone, stepProc, FS.free, List.all_nil, if_true,
    List.nil_append, hg, ht, hrel, run_done]
  exact ⟨trivial, rfl, rfl⟩

theorem readBack_absent {f : FS} (h : Absent f) : (readBack buf dec f).2 = some .nothing ∧ Absent (readBack buf dec f).1 := by
  obtain ⟨p, d, l⟩ := f
  obtain ⟨h1, h2⟩ := h
  simp only at h1 h2
  subst h1 h2
  simp only [readBack, begin, List.map_cons, List.map_nil, run_replicate_succ, step_alone, stepProc, run_done]
  exact ⟨trivial, rfl, rfl⟩

/-- the steps of an update -/
theorem killed_update {f : FS} {old v : Bytes} (h : Holds f old) (k : Nat) :
    Holds (killed buf dec f (.update v) k) (if k ≤ 2 then old else if k ≤ (if v.length > buf then 3 else 5) then [] else v) := by
  obtain ⟨i, h1, h2, h3, h4⟩ := h
  obtain ⟨p, d, l⟩ := f
  simp only at h1 h4
  subst h1 h4
  have hrel : ∀ d : List Bytes, (⟨some i, d, [(i, 0, true)]⟩ : FS).release 0 i = ⟨some i, d, []⟩ := by simp [FS.release]
  have hput : ∀ l, (⟨some i, d.set i [], l⟩ : FS).put i v = ⟨some i, (d.set i []).set i v, l⟩ := by
    intro l
    have : (⟨some i, d.set i [], l⟩ : FS).get i = [] := by
      have h2' : i < d.length := h2
      simp [FS.get, h2']
    simp [FS.put, this]
  have h2' : i < d.length := h2
  match k with
  | 0 => exact ⟨i, rfl, h2, h3, rfl⟩
  | 1 =>
    refine ⟨i, rfl, h2, ?_, rfl⟩
    exact h3
  | 2 =>
    refine ⟨i, rfl, h2, ?_, rfl⟩
    exact h3
  | 3 =>
    refine ⟨i, rfl, ?_, ?_, rfl⟩
    · simpa [killed, begin, run_replicate_succ, step_alone, stepProc, FS.free, run] using h2'
    · rw [if_neg (by omega), if_pos (by split <;> omega)]
      simp [killed, begin, run_replicate_succ, step_alone, stepProc, FS.free, run, FS.get, h2']
  | 4 =>
    by_cases hb : v.length > buf
    · rw [if_neg (by omega), if_pos hb, if_neg (by omega)]
      refine ⟨i, ?_, ?_, ?_, rfl⟩ <;>
        simp [killed, begin, run_replicate_succ, step_alone, stepProc, FS.free, run, Op.bytes, hb, hput, FS.get, h2']
    · rw [if_neg (by omega), if_neg hb, if_pos (by omega)]
      refine ⟨i, ?_, ?_, ?_, rfl⟩ <;>
        simp [killed, begin, run_replicate_succ, step_alone, stepProc, FS.free, run, Op.bytes, hb, hput, FS.get, h2']
  | 5 =>
    by_cases hb : v.length > buf
    · rw [if_neg (by omega), if_pos hb, if_neg (by omega)]
      refine ⟨i, ?_, ?_, ?_, rfl⟩ <;>
        simp [killed, begin, run_replicate_succ, step_alone, stepProc, FS.free, run, Op.bytes, hb, hput, FS.get, h2', hrel]
    · rw [if_neg (by omega), if_neg hb, if_pos (by omega)]
      refine ⟨i, ?_, ?_, ?_, rfl⟩ <;>
        simp [killed, begin, run_replicate_succ, step_alone, stepProc, FS.free, run, Op.bytes, hb, hput, FS.get, h2', hrel]
  | k + 6 =>
    rw [if_neg (by omega), if_neg (by split <;> omega)]
    by_cases hb : v.length > buf
    · refine ⟨i, ?_, ?_, ?_, rfl⟩ <;>
        simp [killed, begin, run_replicate_succ, step_alone, stepProc, FS.free, Op.bytes, hb, hput, FS.get, h2', hrel, run_done]
    · refine ⟨i, ?_, ?_, ?_, rfl⟩ <;>
        simp [killed, begin, run_replicate_succ, step_alone, stepProc, FS.free, Op.bytes, hb, hput, FS.get, h2', hrel, run_done]

/-- the steps of an addition -/
theorem killed_add {f : FS} {v : Bytes} (h : Absent f) (k : Nat) :
    if k = 0 then Absent (killed buf dec f (.add v) k)
    else Holds (killed buf dec f (.add v) k) (if k ≤ (if v.length > buf then 2 else 4) then [] else v) := by
  obtain ⟨p, d, l⟩ := f
  obtain ⟨h1, h2⟩ := h
  simp only at h1 h2
  subst h1 h2
  have hrel : ∀ d' : List Bytes, (⟨some d.length, d', [(d.length, 0, true)]⟩ : FS).release 0 d.length = ⟨some d.length, d', []⟩ := by
    simp [FS.release]
  have hput : ∀ l, (⟨some d.length, d ++ [[]], l⟩ : FS).put d.length v = ⟨some d.length, d ++ [v], l⟩ := by
    intro l
    simp [FS.put, FS.get]
  match k with
  | 0 => exact ⟨rfl, rfl⟩
  | 1 =>
    rw [if_neg (by omega), if_pos (by split <;> omega)]
    refine ⟨d.length, ?_, ?_, ?_, rfl⟩ <;> simp [killed, begin, step_alone, stepProc, run, FS.get]
  | 2 =>
    rw [if_neg (by omega), if_pos (by split <;> omega)]
    refine ⟨d.length, ?_, ?_, ?_, rfl⟩ <;> simp [killed, begin, step_alone, stepProc, run, FS.get, FS.free]
  | 3 =>
    by_cases hb : v.length > buf
    · rw [if_neg (by omega), if_pos hb, if_neg (by omega)]
      refine ⟨d.length, ?_, ?_, ?_, rfl⟩ <;> simp [killed, begin, step_alone, stepProc, run, FS.get, FS.free, Op.bytes, hb, hput]
    · rw [if_neg (by omega), if_neg hb, if_pos (by omega)]
      refine ⟨d.length, ?_, ?_, ?_, rfl⟩ <;> simp [killed, begin, step_alone, stepProc, run, FS.get, FS.free, Op.bytes, hb]
  | 4 =>
    by_cases hb : v.length > buf
    · rw [if_neg (by omega), if_pos hb, if_neg (by omega)]
      refine ⟨d.length, ?_, ?_, ?_, rfl⟩ <;> simp [killed, begin, step_alone, stepProc, run, FS.get, FS.free, Op.bytes, hb, hput, hrel]
    · rw [if_neg (by omega), if_neg hb, if_pos (by omega)]
      refine ⟨d.length, ?_, ?_, ?_, rfl⟩ <;> simp [killed, begin, step_alone, stepProc, run, FS.get, FS.free, Op.bytes, hb, hrel]
  | k + 5 =>
    rw [if_neg (by omega), if_neg (by split <;> omega)]
    by_cases hb : v.length > buf
    · refine ⟨d.length, ?_, ?_, ?_, rfl⟩ <;>
        simp [killed, begin, run_replicate_succ, step_alone, stepProc, FS.get, FS.free, Op.bytes, hb, hput, hrel, run_done]
    · refine ⟨d.length, ?_, ?_, ?_, rfl⟩ <;>
        simp [killed, begin, run_replicate_succ, step_alone, stepProc, FS.get, FS.free, Op.bytes, hb, hput, hrel, run_done]

theorem killed_delete {f : FS} {old : Bytes} (h : Holds f old) (k : Nat) :
    if k = 0 then Holds (killed buf dec f .delete k) old else Absent (killed buf dec f .delete k) := by
  obtain ⟨i, h1, h2, h3, h4⟩ := h
  obtain ⟨p, d, l⟩ := f
  simp only at h1 h4
  subst h1 h4
  match k with
  | 0 => exact ⟨i, rfl, h2, h3, rfl⟩
  | k + 1 =>
    rw [if_neg (by omega)]
    refine ⟨?_, rfl⟩
    simp [killed, begin, run_replicate_succ, step_alone, stepProc, run_done]

/-- **C118** (partial): a process is killed at any step of adding, updating or removing a task in a file store; then another
process looks.  An addition and a removal are made completely or not at all.  An update is made completely or not at all, or –
from the truncation of the file until its new content is written – the task is lost: the next reader finds no task and removes
the file.  Partial: the last case must not be. -/
theorem C118_killed_partial (f : FS) (old v : Bytes) (t t' : τ) (ht : dec old = some t) (ht' : dec v = some t') (h0 : dec [] = none)
    (k : Nat) :
    (Absent f →
      ((readBack buf dec (killed buf dec f (.add v) k)).2 = some .nothing ∧ Absent (readBack buf dec (killed buf dec f (.add v) k)).1) ∨
      ((readBack buf dec (killed buf dec f (.add v) k)).2 = some (.task t') ∧
        Holds (readBack buf dec (killed buf dec f (.add v) k)).1 v)) ∧
    (Holds f old →
      ((readBack buf dec (killed buf dec f .delete k)).2 = some (.task t) ∧ Holds (readBack buf dec (killed buf dec f .delete k)).1 old) ∨
      ((readBack buf dec (killed buf dec f .delete k)).2 = some .nothing ∧ Absent (readBack buf dec (killed buf dec f .delete k)).1)) ∧
    (Holds f old →
      ((readBack buf dec (killed buf dec f (.update v) k)).2 = some (.task t) ∧
        Holds (readBack buf dec (killed buf dec f (.update v) k)).1 old ∧ k < 3) ∨
      ((readBack buf dec (killed buf dec f (.update v) k)).2 = some (.task t') ∧
        Holds (readBack buf dec (killed buf dec f (.update v) k)).1 v ∧ 3 < k) ∨
      ((readBack buf dec (killed buf dec f (.update v) k)).2 = some .nothing ∧
        Absent (readBack buf dec (killed buf dec f (.update v) k)).1 ∧ 3 ≤ k ∧ k ≤ if v.length > buf then 3 else 5)) := by
  refine ⟨fun h => ?_, fun h => ?_, fun h => ?_⟩
  · have hk := killed_add (buf := buf) (dec := dec) (v := v) h k
    split at hk
    · exact .inl (readBack_absent hk)
    · by_cases h5 : k ≤ (if v.length > buf then 2 else 4)
      · rw [if_pos h5] at hk
        exact .inl (readBack_torn hk h0)
      · rw [if_neg h5] at hk
        exact .inr (readBack_holds hk ht')
  · have hk := killed_delete (buf := buf) (dec := dec) h k
    split at hk
    · exact .inl (readBack_holds hk ht)
    · exact .inr (readBack_absent hk)
  · have hk := killed_update (buf := buf) (dec := dec) (v := v) h k
    split at hk
    · exact .inl ⟨(readBack_holds hk ht).1, (readBack_holds hk ht).2, by omega⟩
    · rename_i h3
      by_cases h5 : k ≤ (if v.length > buf then 3 else 5)
      · rw [if_pos h5] at hk
        exact .inr (.inr ⟨(readBack_torn hk h0).1, (readBack_torn hk h0).2, by omega, h5⟩)
      · rw [if_neg h5] at hk
        refine .inr (.inl ⟨(readBack_holds hk ht').1, (readBack_holds hk ht').2, ?_⟩)
        split at h5 <;> omega

/-- an operation that is not killed (`k` large) is made completely -/
theorem C118_not_killed (f : FS) (old v : Bytes) (t' : τ) (ht' : dec v = some t') (k : Nat) (hk : 6 ≤ k) :
    (Absent f → (readBack buf dec (killed buf dec f (.add v) k)).2 = some (.task t')) ∧
    (Holds f old → (readBack buf dec (killed buf dec f .delete k)).2 = some .nothing) ∧
    (Holds f old → (readBack buf dec (killed buf dec f (.update v) k)).2 = some (.task t')) := by
  refine ⟨fun h => ?_, fun h => ?_, fun h => ?_⟩
  · have hz := killed_add (buf := buf) (dec := dec) (v := v) h k
    rw [if_neg (by omega), if_neg (by split <;> omega)] at hz
    exact (readBack_holds hz ht').1
  · have hz := killed_delete (buf := buf) (dec := dec) h k
    rw [if_neg (by omega)] at hz
    exact (readBack_absent hz).1
  · have hz := killed_update (buf := buf) (dec := dec) (v := v) h k
    rw [if_neg (by omega), if_neg (by split <;> omega)] at hz
    exact (readBack_holds hz ht').1

/-- **C118, counterexample**, for every task and every new version of it: killed right after the truncation, the update destroys
the task. -/
theorem C118_lost_witness (f : FS) (old v : Bytes) (h : Holds f old) (h0 : dec [] = none) :
    (readBack buf dec (killed buf dec f (.update v) 3)).2 = some .nothing ∧
      Absent (readBack buf dec (killed buf dec f (.update v) 3)).1 := by
  have hk := killed_update (buf := buf) (dec := dec) (v := v) h 3
  rw [if_neg (by omega), if_pos (by split <;> omega)] at hk
  exact readBack_torn hk h0

-- records of two bytes, a buffer of 10: the six steps of an update
example : (List.range 8).map (fun k => (readBack 10 (fun b => if b = [] then none else some b)
      (killed 10 (fun b => if b = [] then none else some b) ⟨some 0, [[1, 2]], []⟩ (.update [3, 4]) k)).2) =
    [some (.task [1, 2]), some (.task [1, 2]), some (.task [1, 2]), some .nothing, some .nothing, some .nothing, some (.task [3, 4]),
      some (.task [3, 4])] := by decide
example : Holds ⟨some 0, [[1, 2]], []⟩ [1, 2] := ⟨0, rfl, by decide, rfl, rfl⟩

end FileRace
end Asyncz
