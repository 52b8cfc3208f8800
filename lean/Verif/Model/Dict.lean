/-!
# Python dictionaries

An insertion-ordered association list.  Assigning to an existing key keeps its position, as in
CPython.  Used by every model below.
-/
namespace Asyncz

/-- A Python `dict` with keys `κ`: insertion ordered.
(/repo/asyncz/schedulers/base.py:100-113 and stores/memory.py:18-20 are such dicts) -/
abbrev Dict (κ ν : Type) := List (κ × ν)

namespace Dict
variable {κ ν : Type} [DecidableEq κ]

/-- `d.get(k)`.  (Library; used at /repo/asyncz/stores/memory.py:23) -/
def get? (d : Dict κ ν) (k : κ) : Option ν :=
  match d with
  | [] => none
  | (k', v) :: d => if k' = k then some v else get? d k

/-- `d[k] = v`.  (Library; used at /repo/asyncz/stores/memory.py:62) -/
def set (d : Dict κ ν) (k : κ) (v : ν) : Dict κ ν :=
  match d with
  | [] => [(k, v)]
  | (k', v') :: d => if k' = k then (k', v) :: d else (k', v') :: set d k v

/-- `del d[k]` / `d.pop(k, None)`.  (Library; used at /repo/asyncz/stores/memory.py:97) -/
def erase (d : Dict κ ν) (k : κ) : Dict κ ν :=
  match d with
  | [] => []
  | (k', v') :: d => if k' = k then d else (k', v') :: erase d k

/-- `k in d`.  (Library; used at /repo/asyncz/stores/memory.py:55) -/
def contains (d : Dict κ ν) (k : κ) : Bool := (d.get? k).isSome

/-- `list(d)`.  (Library; used at /repo/asyncz/schedulers/base.py:1105-1107) -/
def keys (d : Dict κ ν) : List κ := d.map Prod.fst

/-- `list(d.values())`.  (Library; used at /repo/asyncz/stores/redis.py:104-107) -/
def values (d : Dict κ ν) : List ν := d.map Prod.snd

/-- A dict never has two entries for one key.
(Library invariant of the dicts of /repo/asyncz/schedulers/base.py:100-113) -/
def WF (d : Dict κ ν) : Prop := (d.map Prod.fst).Nodup

theorem get?_set (d : Dict κ ν) (k k' : κ) (v : ν) :
    (d.set k v).get? k' = if k' = k then some v else d.get? k' := by
  induction d with
  | nil => simp only [set, get?]; grind
  | cons a d ih => obtain ⟨a, b⟩ := a; simp only [set, get?]; grind [get?]

theorem get?_eq_none (d : Dict κ ν) (k : κ) : d.get? k = none ↔ k ∉ d.keys := by
  induction d with
  | nil => simp [get?, keys]
  | cons a d ih => obtain ⟨a, b⟩ := a; simp only [get?, keys, List.map_cons, List.mem_cons] at *; grind

theorem mem_of_get? {d : Dict κ ν} {k : κ} {v : ν} (h : d.get? k = some v) : (k, v) ∈ d := by
  induction d with
  | nil => simp [get?] at h
  | cons a d ih => obtain ⟨a, b⟩ := a; simp only [get?] at h; grind

omit [DecidableEq κ] in
theorem mem_keys_of_mem {d : Dict κ ν} {k : κ} {v : ν} (h : (k, v) ∈ d) : k ∈ d.keys :=
  List.mem_map.2 ⟨_, h, rfl⟩

theorem get?_of_mem {d : Dict κ ν} {k : κ} {v : ν} (hw : d.WF) (h : (k, v) ∈ d) :
    d.get? k = some v := by
  induction d with
  | nil => simp at h
  | cons a d ih =>
    obtain ⟨a, b⟩ := a
    simp only [WF, List.map_cons, List.nodup_cons] at hw
    simp only [get?]
    rcases List.mem_cons.1 h with h | h
    · grind
    · have : k ∈ d.map Prod.fst := mem_keys_of_mem h
      have := ih hw.2 h
      grind

theorem get?_iff_mem {d : Dict κ ν} {k : κ} {v : ν} (hw : d.WF) :
    d.get? k = some v ↔ (k, v) ∈ d := ⟨mem_of_get?, get?_of_mem hw⟩

theorem get?_erase {d : Dict κ ν} (hw : d.WF) (k k' : κ) :
    (d.erase k).get? k' = if k' = k then none else d.get? k' := by
  induction d with
  | nil => simp [erase, get?]
  | cons a d ih =>
    obtain ⟨a, b⟩ := a
    simp only [WF, List.map_cons, List.nodup_cons] at hw
    have := ih hw.2
    simp only [erase]
    by_cases h : a = k
    · subst h
      have h0 : Dict.get? d a = none := (get?_eq_none d a).2 hw.1
      simp only [if_true, get?]
      grind
    · simp only [h, if_false, get?]
      grind

theorem keys_set (d : Dict κ ν) (k : κ) (v : ν) :
    (d.set k v).keys = if k ∈ d.keys then d.keys else d.keys ++ [k] := by
  induction d with
  | nil => simp [set, keys]
  | cons a d ih =>
    obtain ⟨a, b⟩ := a
    simp only [keys, set, List.map_cons, List.mem_cons] at *
    by_cases h : a = k
    · simp [h]
    · have h' : ¬ k = a := fun e => h e.symm
      simp only [h, h', if_false, List.map_cons, ih, false_or]
      by_cases hk : k ∈ List.map Prod.fst d <;> simp [hk]

theorem keys_erase (d : Dict κ ν) (k : κ) : (d.erase k).keys = d.keys.erase k := by
  induction d with
  | nil => simp [erase, keys]
  | cons a d ih =>
    obtain ⟨a, b⟩ := a
    simp only [keys, erase, List.map_cons, List.erase_cons] at *
    by_cases h : a = k <;> simp [h, ih]

theorem WF.set {d : Dict κ ν} (hw : d.WF) (k : κ) (v : ν) : (d.set k v).WF := by
  have h := keys_set d k v
  unfold keys at h
  unfold WF at *
  rw [h]
  split
  · exact hw
  · rename_i hn
    rw [List.nodup_append]
    refine ⟨hw, by simp, ?_⟩
    intro a ha b hb
    simp at hb; subst hb
    intro e; subst e; exact hn ha

theorem WF.erase {d : Dict κ ν} (hw : d.WF) (k : κ) : (d.erase k).WF := by
  have h := keys_erase d k
  unfold keys at h
  unfold WF at *
  rw [h]
  exact hw.erase k

omit [DecidableEq κ] in
theorem WF.nil : WF ([] : Dict κ ν) := by simp [WF]

end Dict
end Asyncz
