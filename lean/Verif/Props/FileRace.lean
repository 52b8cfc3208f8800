import Verif.Model.FileRace
/-!
# C110: processes that share a file store
-/
namespace Asyncz
namespace FileRace

variable {τ : Type}

/-! ## what the theorems speak about -/

/-- a finished `add` that succeeded -/
def Proc.added (q : Proc τ) : Bool := match q.op, q.pc with
  | .add _, .done .ok => true
  | _, _ => false

/-- a finished `delete` that succeeded -/
def Proc.deleted (q : Proc τ) : Bool := match q.op, q.pc with
  | .delete, .done .ok => true
  | _, _ => false

/-- the process has finished -/
def Proc.finished (q : Proc τ) : Bool := match q.pc with
  | .done _ => true
  | _ => false

/-- between lock and unlock: the file, and whether the lock is an exclusive one -/
def Proc.inside (q : Proc τ) : Option (Nat × Bool) := match q.op, q.pc with
  | .read, .data i => some (i, false)
  | .read, .unread i _ => some (i, false)
  | _, .trunc i => some (i, true)
  | _, .write i => some (i, true)
  | _, .unlock i _ => some (i, true)
  | _, _ => none

/-! ## one step, seen from the list of processes -/

theorem run_cons (buf : Nat) (dec : Bytes → Option τ) (s : St τ) (p : Nat) (l : List Nat) :
    run buf dec s (p :: l) = run buf dec (step buf dec s p) l := rfl

/-- an invariant of the single steps is an invariant of all interleavings -/
theorem run_inv {I : St τ → Prop} {buf : Nat} {dec : Bytes → Option τ}
    (h : ∀ s p q, I s → s.procs[p]? = some q →
      I ⟨(stepProc buf dec p s.fs q).1, s.procs.set p { q with pc := (stepProc buf dec p s.fs q).2 }⟩)
    (l : List Nat) : ∀ s, I s → I (run buf dec s l) := by
  induction l with
  | nil => intro s hs; exact hs
  | cons p l ih =>
    intro s hs
    rw [run_cons]
    apply ih
    unfold step
    split
    · exact hs
    · rename_i q hq
      exact h s p q hs hq

theorem mem_set_elim {α : Type} {l : List α} {p : Nat} {a b : α} (h : b ∈ l.set p a) : b = a ∨ b ∈ l := by
  induction l generalizing p with
  | nil => cases h
  | cons x l ih =>
    cases p with
    | zero =>
      cases h with
      | head => exact Or.inl rfl
      | tail _ h => exact Or.inr (List.mem_cons_of_mem _ h)
    | succ p =>
      cases h with
      | head => exact Or.inr (List.mem_cons_self ..)
      | tail _ h => exact (ih h).imp id (List.mem_cons_of_mem _)

theorem mem_of_getElem? {α : Type} {l : List α} {p : Nat} {a : α} (h : l[p]? = some a) : a ∈ l := by
  exact List.mem_of_getElem? h

/-! ## readers alone -/

/-- what a reader can be doing while the file is good -/
def CalmReader (i : Nat) (t : τ) (q : Proc τ) : Prop :=
  q.op = .read ∧ (q.pc = .ready ∨ q.pc = .lock i ∨ q.pc = .data i ∨ q.pc = .unread i (some t) ∨ q.pc = .done (.task t))

theorem readers_step {buf : Nat} {dec : Bytes → Option τ} {i : Nat} {t : τ} {f : FS} {q : Proc τ} {p : Nat}
    (hp : f.path = some i) (hd : dec (f.get i) = some t) (hq : CalmReader i t q) :
    (stepProc buf dec p f q).1.path = some i ∧ (stepProc buf dec p f q).1.data = f.data ∧
      CalmReader i t { q with pc := (stepProc buf dec p f q).2 } := by
  obtain ⟨op, pc⟩ := q
  obtain ⟨rfl, h⟩ := hq
  dsimp only at h
  rcases h with rfl | rfl | rfl | rfl | rfl
  · simp [stepProc, hp, CalmReader]
  · by_cases hf : f.free p i false = true <;> simp [stepProc, hf, hp, CalmReader]
  · simp [stepProc, hp, CalmReader, hd]
  · simp [stepProc, hp, CalmReader, FS.release]
  · simp [stepProc, hp, CalmReader]

/-- **C110** Any number of processes reading a good file, in any interleaving: the file stays, with its content, and every
finished read returned the task. -/
theorem readers_share_partial (buf : Nat) (dec : Bytes → Option τ) (f : FS) (i : Nat) (t : τ) (n : Nat)
    (hp : f.path = some i) (hd : dec (f.get i) = some t) (sched : List Nat) :
    let s := run buf dec (begin f (List.replicate n Op.read)) sched
    s.fs.path = some i ∧ s.fs.data = f.data ∧
      ∀ q ∈ s.procs, q.finished = true → q.pc = .done (.task t) := by
  intro s
  have key : s.fs.path = some i ∧ s.fs.data = f.data ∧ ∀ q ∈ s.procs, CalmReader i t q := by
    apply run_inv (I := fun s => s.fs.path = some i ∧ s.fs.data = f.data ∧ ∀ q ∈ s.procs, CalmReader i t q)
    · rintro s p q ⟨h1, h2, h3⟩ hq
      have hg : dec (s.fs.get i) = some t := by rw [← hd]; unfold FS.get; rw [h2]
      obtain ⟨k1, k2, k3⟩ := readers_step (buf := buf) (p := p) h1 hg (h3 q (mem_of_getElem? hq))
      refine ⟨k1, k2.trans h2, ?_⟩
      intro q' hq'
      rcases mem_set_elim hq' with rfl | h
      · exact k3
      · exact h3 q' h
    · refine ⟨hp, rfl, ?_⟩
      intro q hq
      simp only [begin, List.map_replicate] at hq
      rw [List.eq_of_mem_replicate hq]
      exact ⟨rfl, Or.inl rfl⟩
  refine ⟨key.1, key.2.1, ?_⟩
  intro q hq hf
  obtain ⟨_, h⟩ := key.2.2 q hq
  rcases h with h | h | h | h | h
  all_goals first | exact h | (simp [Proc.finished, h] at hf)

/-! ## the lock is exclusive -/

/-- the locks and the processes agree; no two processes hold conflicting locks on a file -/
def LockInv (s : St τ) : Prop :=
  (∀ p q i ex, s.procs[p]? = some q → q.inside = some (i, ex) → (i, p, ex) ∈ s.fs.locks) ∧
  (∀ l ∈ s.fs.locks, ∀ l' ∈ s.fs.locks, l.1 = l'.1 → l.2.1 ≠ l'.2.1 → l.2.2 = false)

/-- what a step does to the locks, and where it leads -/
theorem step_locks (buf : Nat) (dec : Bytes → Option τ) (p : Nat) (f : FS) (q : Proc τ) :
    let r := stepProc buf dec p f q
    let q' : Proc τ := { q with pc := r.2 }
    (r.1.locks = f.locks ∧ (q'.inside = none ∨ q'.inside = q.inside)) ∨
    (∃ i ex, r.1.locks = f.locks ++ [(i, p, ex)] ∧ q'.inside = some (i, ex) ∧ f.free p i ex = true) ∨
    (∃ i, r.1.locks = f.locks.filter (fun l => !(l.1 = i && l.2.1 = p)) ∧ q'.inside = none) := by
  obtain ⟨op, pc⟩ := q
  cases pc with
  | ready =>
    left
    cases op <;> cases hp : f.path <;> simp [stepProc, hp, Proc.inside]
  | lock i =>
    cases op with
    | add v =>
      by_cases hf : f.free p i true = true
      · right; left; exact ⟨i, true, by simp [stepProc, hf], by simp [stepProc, hf, Proc.inside], hf⟩
      · left; simp [stepProc, hf, Proc.inside]
    | update v =>
      by_cases hf : f.free p i true = true
      · right; left; exact ⟨i, true, by simp [stepProc, hf], by simp [stepProc, hf, Proc.inside], hf⟩
      · left; simp [stepProc, hf, Proc.inside]
    | read =>
      by_cases hf : f.free p i false = true
      · right; left; exact ⟨i, false, by simp [stepProc, hf], by simp [stepProc, hf, Proc.inside], hf⟩
      · left; simp [stepProc, hf, Proc.inside]
    | delete => left; simp [stepProc, Proc.inside]
  | trunc i => left; cases op <;> simp [stepProc, Proc.inside]
  | write i =>
    left
    by_cases hb : op.bytes.length > buf
    · cases op <;> simp [stepProc, Proc.inside, hb, FS.put]
    · cases op <;> simp [stepProc, Proc.inside, hb]
  | unlock i b => right; right; exact ⟨i, by cases op <;> simp [stepProc, FS.release], by cases op <;> simp [stepProc, Proc.inside]⟩
  | close i b => left; cases b <;> cases op <;> simp [stepProc, Proc.inside, FS.put]
  | data i => left; cases op <;> simp [stepProc, Proc.inside]
  | unread i r =>
    right; right
    refine ⟨i, by cases op <;> simp [stepProc, FS.release], ?_⟩
    cases r <;> cases op <;> simp [stepProc, Proc.inside]
  | unlink => left; cases op <;> simp [stepProc, Proc.inside]
  | done r => left; cases op <;> simp [stepProc, Proc.inside]

theorem getElem?_set_elim {α : Type} {l : List α} {p k : Nat} {a b : α} (h : (l.set p a)[k]? = some b) :
    (k = p ∧ b = a) ∨ (k ≠ p ∧ l[k]? = some b) := by
  by_cases hk : k = p
  · subst hk
    left
    rw [List.getElem?_set] at h
    simp at h
    exact ⟨rfl, h.2.symm⟩
  · right
    rw [List.getElem?_set_ne (fun h => hk h.symm)] at h
    exact ⟨hk, h⟩

theorem lock_inv_step (buf : Nat) (dec : Bytes → Option τ) (s : St τ) (p : Nat) (q : Proc τ) (h : LockInv s)
    (hq : s.procs[p]? = some q) :
    LockInv ⟨(stepProc buf dec p s.fs q).1, s.procs.set p { q with pc := (stepProc buf dec p s.fs q).2 }⟩ := by
  obtain ⟨h1, h2⟩ := h
  have hs := step_locks buf dec p s.fs q
  dsimp only at hs
  rcases hs with ⟨hl, hi⟩ | ⟨i, ex, hl, hi, hf⟩ | ⟨i, hl, hi⟩
  · refine ⟨?_, ?_⟩
    · intro k q' j e hk hin
      dsimp only at hk ⊢
      rw [hl]
      rcases getElem?_set_elim hk with ⟨rfl, rfl⟩ | ⟨_, hk⟩
      · rcases hi with hi | hi
        · rw [hi] at hin; cases hin
        · exact h1 _ q j e hq (hi.symm.trans hin)
      · exact h1 k q' j e hk hin
    · dsimp only; rw [hl]; exact h2
  · refine ⟨?_, ?_⟩
    · intro k q' j e hk hin
      dsimp only at hk ⊢
      rw [hl]
      rcases getElem?_set_elim hk with ⟨rfl, rfl⟩ | ⟨_, hk⟩
      · rw [hi] at hin
        cases hin
        simp
      · exact List.mem_append_left _ (h1 k q' j e hk hin)
    · dsimp only
      rw [hl]
      have hfree : ∀ l ∈ s.fs.locks, l.1 = i → l.2.1 ≠ p → ex = false ∧ l.2.2 = false := by
        intro l hl' e1 e2
        have := List.all_eq_true.mp hf l hl'
        simp only [e1, e2, ne_eq, decide_not, decide_true, decide_false, Bool.not_false, Bool.true_and, Bool.not_eq_true',
          Bool.or_eq_false_iff] at this
        exact this
      intro l hl1 l' hl2 e1 e2
      rcases List.mem_append.mp hl1 with hl1 | hl1 <;> rcases List.mem_append.mp hl2 with hl2 | hl2
      · exact h2 l hl1 l' hl2 e1 e2
      · simp only [List.mem_singleton] at hl2
        subst hl2
        exact (hfree l hl1 e1 e2).2
      · simp only [List.mem_singleton] at hl1
        subst hl1
        exact (hfree l' hl2 e1.symm (fun e => e2 e.symm)).1
      · simp only [List.mem_singleton] at hl1 hl2
        subst hl1; subst hl2
        exact absurd rfl e2
  · refine ⟨?_, ?_⟩
    · intro k q' j e hk hin
      dsimp only at hk ⊢
      rw [hl]
      rcases getElem?_set_elim hk with ⟨rfl, rfl⟩ | ⟨hne, hk⟩
      · rw [hi] at hin; cases hin
      · refine List.mem_filter.mpr ⟨h1 k q' j e hk hin, ?_⟩
        simp [hne]
    · dsimp only
      rw [hl]
      intro l hl1 l' hl2
      exact h2 l (List.mem_filter.mp hl1).1 l' (List.mem_filter.mp hl2).1

theorem begin_inside {f : FS} {ops : List Op} {p : Nat} {q : Proc τ} (h : (begin f ops : St τ).procs[p]? = some q) :
    q.pc = .ready ∧ ops[p]? = some q.op := by
  simp only [begin, List.getElem?_map] at h
  cases ho : ops[p]? with
  | none => rw [ho] at h; cases h
  | some o => rw [ho] at h; cases h; exact ⟨rfl, rfl⟩

theorem lock_inv_begin (f : FS) (ops : List Op) (hf : f.locks = []) : LockInv (begin f ops : St τ) := by
  refine ⟨?_, ?_⟩
  · intro p q i ex hq hin
    obtain ⟨h, _⟩ := begin_inside hq
    obtain ⟨op, pc⟩ := q
    dsimp only at h
    subst h
    cases op <;> cases hin
  · intro l hl
    have : l ∈ f.locks := hl
    rw [hf] at this; cases this

theorem lock_inv_run (buf : Nat) (dec : Bytes → Option τ) (f : FS) (ops : List Op) (hf : f.locks = []) (sched : List Nat) :
    LockInv (run buf dec (begin f ops) sched) :=
  run_inv (fun s p q h hq => lock_inv_step buf dec s p q h hq) sched _ (lock_inv_begin f ops hf)

theorem LockInv.alone {s : St τ} (h : LockInv s) {p p' : Nat} {q q' : Proc τ} {i : Nat} {ex : Bool}
    (hq : s.procs[p]? = some q) (hq' : s.procs[p']? = some q') (hne : p ≠ p')
    (hin : q.inside = some (i, true)) (hin' : q'.inside = some (i, ex)) : False := by
  have a := h.1 p q i true hq hin
  have b := h.1 p' q' i ex hq' hin'
  cases h.2 _ a _ b rfl hne

/-- **C110** Whatever the processes do, in any interleaving: while a process is between taking and giving back the lock of a
file it writes, no other process is between taking and giving back a lock of that file. -/
theorem writer_is_alone (buf : Nat) (dec : Bytes → Option τ) (f : FS) (ops : List Op) (hf : f.locks = []) (sched : List Nat)
    (p p' : Nat) (q q' : Proc τ) (i : Nat) (ex : Bool)
    (hq : (run buf dec (begin f ops) sched).procs[p]? = some q)
    (hq' : (run buf dec (begin f ops) sched).procs[p']? = some q') (hne : p ≠ p')
    (hin : q.inside = some (i, true)) : q'.inside ≠ some (i, ex) :=
  fun hin' => (lock_inv_run buf dec f ops hf sched).alone hq hq' hne hin hin'

/-! ## writers alone: nothing is lost -/

/-- an `add` that has created the file -/
def Proc.created (q : Proc τ) : Nat := match q.op, q.pc with
  | .add _, .ready => 0
  | .add _, .done .conflict => 0
  | .add _, _ => 1
  | _, _ => 0

/-- a `delete` that has removed it -/
def Proc.removed (q : Proc τ) : Nat := if q.deleted then 1 else 0

/-- where a process that does not read can be -/
def Writer (q : Proc τ) : Prop := q.op ≠ .read ∧ match q.pc with
  | .ready => True
  | .lock _ | .write _ | .unlock _ _ | .close _ _ => q.op ≠ .delete
  | .trunc _ => ∃ v, q.op = .update v
  | .done .ok => True
  | .done .conflict => ∃ v, q.op = .add v
  | .done .missing => ∀ v, q.op ≠ .add v
  | _ => False

theorem writer_step (buf : Nat) (dec : Bytes → Option τ) (p : Nat) (f : FS) (q : Proc τ) (h : Writer q) :
    let r := stepProc buf dec p f q
    let q' : Proc τ := { q with pc := r.2 }
    Writer q' ∧ q.created + q'.removed + (if r.1.path.isSome then 1 else 0) =
      q'.created + q.removed + (if f.path.isSome then 1 else 0) := by
  obtain ⟨op, pc⟩ := q
  obtain ⟨h0, h⟩ := h
  dsimp only at h0 h ⊢
  cases pc with
  | ready =>
    cases op <;> cases hp : f.path <;>
      simp [stepProc, hp, Writer, Proc.created, Proc.removed, Proc.deleted] at h0 ⊢
  | lock i =>
    cases op with
    | add v => by_cases hf : f.free p i true = true <;>
        simp [stepProc, hf, Writer, Proc.created, Proc.removed, Proc.deleted]
    | update v => by_cases hf : f.free p i true = true <;>
        simp [stepProc, hf, Writer, Proc.created, Proc.removed, Proc.deleted]
    | read => exact absurd rfl h0
    | delete => exact absurd rfl h
  | trunc i =>
    obtain ⟨v, rfl⟩ := h
    refine ⟨by simp [stepProc, Writer], ?_⟩
    rfl
  | write i =>
    by_cases hb : op.bytes.length > buf <;> cases op <;>
      simp [stepProc, hb, Writer, Proc.created, Proc.removed, Proc.deleted, FS.put] at h0 h ⊢
  | unlock i b =>
    cases op <;> simp [stepProc, Writer, Proc.created, Proc.removed, Proc.deleted, FS.release] at h0 h ⊢
  | close i b =>
    cases b <;> cases op <;> simp [stepProc, Writer, Proc.created, Proc.removed, Proc.deleted, FS.put] at h0 h ⊢
  | data i => exact h.elim
  | unread i r => exact h.elim
  | unlink => exact h.elim
  | done r =>
    have e : stepProc buf dec p f ⟨op, .done r⟩ = (f, .done r) := by cases op <;> simp [stepProc]
    rw [e]
    exact ⟨⟨h0, h⟩, rfl⟩

/-- total of a number over the processes -/
def total (g : Proc τ → Nat) (l : List (Proc τ)) : Nat := (l.map g).sum

theorem total_set (g : Proc τ → Nat) (l : List (Proc τ)) (p : Nat) (q q' : Proc τ) (h : l[p]? = some q) :
    total g (l.set p q') + g q = total g l + g q' := by
  induction l generalizing p with
  | nil => cases h
  | cons x l ih =>
    cases p with
    | zero => cases h; simp [total]; omega
    | succ p =>
      have := ih p h
      simp [total] at this ⊢; omega

theorem total_begin (g : Proc τ → Nat) (f : FS) (ops : List Op) (h : ∀ o, g ⟨o, .ready⟩ = 0) :
    total g (begin f ops : St τ).procs = 0 := by
  induction ops with
  | nil => rfl
  | cons o ops ih => simp [total, begin, h] at ih ⊢; exact ih

theorem writers_count (buf : Nat) (dec : Bytes → Option τ) (f : FS) (ops : List Op) (hr : Op.read ∉ ops) (sched : List Nat) :
    let s := run buf dec (begin f ops) sched
    (∀ q ∈ s.procs, Writer q) ∧
      total Proc.created s.procs + (if f.path.isSome then 1 else 0) =
        total Proc.removed s.procs + (if s.fs.path.isSome then 1 else 0) := by
  apply run_inv (I := fun s => (∀ q ∈ s.procs, Writer q) ∧
      total Proc.created s.procs + (if f.path.isSome then 1 else 0) =
        total Proc.removed s.procs + (if s.fs.path.isSome then 1 else 0))
  · rintro s p q ⟨h1, h2⟩ hq
    have := writer_step buf dec p s.fs q (h1 q (mem_of_getElem? hq))
    dsimp only at this ⊢
    refine ⟨?_, ?_⟩
    · intro q' hq'
      rcases mem_set_elim hq' with rfl | h
      · exact this.1
      · exact h1 q' h
    · have a := total_set Proc.created s.procs p q { q with pc := (stepProc buf dec p s.fs q).2 } hq
      have b := total_set Proc.removed s.procs p q { q with pc := (stepProc buf dec p s.fs q).2 } hq
      have c := this.2
      omega
  · refine ⟨?_, ?_⟩
    · intro q hq
      simp only [begin, List.mem_map] at hq
      obtain ⟨o, ho, rfl⟩ := hq
      exact ⟨fun h => hr (h ▸ ho), trivial⟩
    · rw [total_begin _ _ _ (fun o => by cases o <;> rfl), total_begin _ _ _ (fun o => by cases o <;> rfl)]
      rfl

theorem total_eq_countP (g : Proc τ → Nat) (b : Proc τ → Bool) (l : List (Proc τ))
    (h : ∀ q ∈ l, g q = if b q then 1 else 0) : total g l = l.countP b := by
  induction l with
  | nil => rfl
  | cons x l ih =>
    have := ih (fun q hq => h q (List.mem_cons_of_mem _ hq))
    have hx := h x (List.mem_cons_self ..)
    simp only [total, List.map_cons, List.sum_cons, List.countP_cons] at this ⊢
    rw [this, hx]
    omega

/-- **C110** Any number of processes that add, update and delete (none reads), in any interleaving, once all have finished: as
many adds succeeded as deletes, up to the file that was there before and the one that is there now.  So no task is lost, and
no id is added twice. -/
theorem writers_lose_nothing_partial (buf : Nat) (dec : Bytes → Option τ) (f : FS) (ops : List Op) (hr : Op.read ∉ ops)
    (sched : List Nat) (hfin : ∀ q ∈ (run buf dec (begin f ops) sched).procs, q.finished = true) :
    let s := run buf dec (begin f ops) sched
    s.procs.countP Proc.added + (if f.path.isSome then 1 else 0) =
      s.procs.countP Proc.deleted + (if s.fs.path.isSome then 1 else 0) := by
  intro s
  obtain ⟨h1, h2⟩ := writers_count buf dec f ops hr sched
  rw [total_eq_countP Proc.created Proc.added, total_eq_countP Proc.removed Proc.deleted] at h2
  · exact h2
  · intro q _; rfl
  · intro q hq
    have hw := (h1 q hq).2
    have hd := hfin q hq
    obtain ⟨op, pc⟩ := q
    cases pc <;> simp [Proc.finished] at hd
    rename_i r
    cases op <;> cases r <;> simp [Proc.created, Proc.added] at hw ⊢

/-! ## writers alone: the content is readable again -/

/-- the process will still write to file `i` -/
def Proc.pending (q : Proc τ) (i : Nat) : Prop := match q.op, q.pc with
  | .add _, .lock j => j = i
  | _, .write j => j = i
  | _, .unlock j b => j = i ∧ b = true
  | _, .close j b => j = i ∧ b = true
  | _, _ => False

/-- the content starts with one of `W` -/
def Starts (W : List Bytes) (c : Bytes) : Prop := ∃ v ∈ W, ∃ junk, c = v ++ junk

theorem get_set (f : FS) (i j : Nat) (c : Bytes) (hj : j < f.data.length) :
    FS.get { f with data := f.data.set i c } j = if i = j then c else f.get j := by
  unfold FS.get
  dsimp only
  rw [List.getElem?_set]
  by_cases h : i = j
  · subst h; simp [hj]
  · simp [h]

theorem get_put (f : FS) (i j : Nat) (v : Bytes) (hj : j < f.data.length) :
    (f.put i v).get j = if i = j then v ++ (f.get i).drop v.length else f.get j := get_set f i j _ hj

theorem get_append (f : FS) (j : Nat) (c : Bytes) (h : Option Nat) (l : List (Nat × Nat × Bool)) :
    FS.get { path := h, data := f.data ++ [c], locks := l } j = if j = f.data.length then c else f.get j := by
  unfold FS.get
  dsimp only
  rw [List.getElem?_append]
  by_cases h : j < f.data.length
  · have : ¬ j = f.data.length := by omega
    simp [h, this]
  · by_cases h' : j = f.data.length
    · subst h'; simp
    · have : 1 ≤ j - f.data.length := by omega
      have h2 : f.data.length ≤ j := by omega
      simp only [h, h', if_false]
      rw [List.getElem?_eq_none (by simpa using this), List.getElem?_eq_none h2]

/-- the invariant for one file -/
def ContentInv (W : List Bytes) (s : St τ) : Prop :=
  (∀ q ∈ s.procs, Writer q ∧ (∀ v, q.op = .add v ∨ q.op = .update v → v ∈ W)) ∧
  (∀ i, s.fs.path = some i → i < s.fs.data.length) ∧
  (∀ i < s.fs.data.length, Starts W (s.fs.get i) ∨ ∃ (p : Nat) (q : Proc τ), s.procs[p]? = some q ∧ q.pending i)

theorem getElem?_set_same {α : Type} {l : List α} {p : Nat} {a b : α} (h : l[p]? = some a) : (l.set p b)[p]? = some b := by
  have : p < l.length := by
    apply Decidable.byContradiction; intro hn
    rw [List.getElem?_eq_none (by omega)] at h; cases h
  simp [this]

/-- what a writer's step does to the files -/
theorem content_step (W : List Bytes) (buf : Nat) (dec : Bytes → Option τ) (p : Nat) (f : FS) (q : Proc τ) (h : Writer q)
    (hW : ∀ v, q.op = .add v ∨ q.op = .update v → v ∈ W) (hpath : ∀ i, f.path = some i → i < f.data.length) :
    let r := stepProc buf dec p f q
    let q' : Proc τ := { q with pc := r.2 }
    (∀ i, r.1.path = some i → i < r.1.data.length) ∧ f.data.length ≤ r.1.data.length ∧
    (∀ i < r.1.data.length, Starts W (r.1.get i) ∨ q'.pending i ∨ (i < f.data.length ∧ r.1.get i = f.get i ∧ (q.pending i → q'.pending i))) := by
  obtain ⟨op, pc⟩ := q
  obtain ⟨h0, h⟩ := h
  dsimp only at h0 h hW ⊢
  have same : ∀ i < f.data.length, i < f.data.length ∧ f.get i = f.get i := fun i hi => ⟨hi, rfl⟩
  cases pc with
  | ready =>
    cases op with
    | add v =>
      cases hp : f.path with
      | some k => simp [stepProc, hp] at hpath ⊢; refine ⟨hpath, fun i hi => Or.inr (Or.inr ⟨hi, ?_⟩)⟩; simp [Proc.pending]
      | none =>
        simp only [stepProc, hp]
        refine ⟨?_, by simp, ?_⟩
        · intro i hi; cases hi; simp
        · intro i hi
          by_cases hii : i = f.data.length
          · right; left; simp [Proc.pending, hii]
          · right; right
            simp at hi
            refine ⟨by omega, ?_, by simp [Proc.pending]⟩
            rw [get_append]; simp [hii]
    | update v =>
      cases hp : f.path with
      | some k => simp [stepProc, hp] at hpath ⊢; refine ⟨hpath, fun i hi => Or.inr (Or.inr ⟨hi, ?_⟩)⟩; simp [Proc.pending]
      | none => simp [stepProc, hp]; refine fun i hi => Or.inr (Or.inr ⟨hi, ?_⟩); simp [Proc.pending]
    | read => exact absurd rfl h0
    | delete =>
      cases hp : f.path with
      | some k =>
        simp [stepProc, hp]; refine fun i hi => Or.inr (Or.inr ⟨hi, ?_⟩); simp [Proc.pending, FS.get]
      | none => simp [stepProc, hp]; refine fun i hi => Or.inr (Or.inr ⟨hi, ?_⟩); simp [Proc.pending]
  | lock i =>
    cases op with
    | add v =>
      by_cases hf : f.free p i true = true
      · simp only [stepProc, hf, if_true]
        refine ⟨hpath, Nat.le_refl _, fun j hj => Or.inr (Or.inr ⟨hj, rfl, ?_⟩)⟩
        simp [Proc.pending]
      · simp only [stepProc, hf, if_false]
        exact ⟨hpath, Nat.le_refl _, fun j hj => Or.inr (Or.inr ⟨hj, rfl, id⟩)⟩
    | update v =>
      by_cases hf : f.free p i true = true
      · simp only [stepProc, hf, if_true]
        refine ⟨hpath, Nat.le_refl _, fun j hj => Or.inr (Or.inr ⟨hj, rfl, ?_⟩)⟩
        simp [Proc.pending]
      · simp only [stepProc, hf, if_false]
        exact ⟨hpath, Nat.le_refl _, fun j hj => Or.inr (Or.inr ⟨hj, rfl, id⟩)⟩
    | read => exact absurd rfl h0
    | delete => exact absurd rfl h
  | trunc i =>
    obtain ⟨v, rfl⟩ := h
    simp only [stepProc]
    refine ⟨by simpa using hpath, by simp, ?_⟩
    intro j hj
    have hj : j < f.data.length := by simpa using hj
    by_cases hji : i = j
    · right; left; simp [Proc.pending, hji]
    · right; right
      refine ⟨hj, ?_, by simp [Proc.pending]⟩
      rw [get_set f i j [] hj, if_neg hji]
  | write i =>
    have hop : op.bytes ∈ W := by
      cases op with
      | add v => exact hW v (Or.inl rfl)
      | update v => exact hW v (Or.inr rfl)
      | read => exact absurd rfl h0
      | delete => exact absurd rfl h
    by_cases hb : op.bytes.length > buf
    · have e : stepProc buf dec p f ⟨op, .write i⟩ = (f.put i op.bytes, .unlock i false) := by
        cases op <;> simp [stepProc, hb]
      rw [e]
      refine ⟨by simpa [FS.put] using hpath, by simp [FS.put], ?_⟩
      intro j hj
      have hj : j < f.data.length := by simpa [FS.put] using hj
      dsimp only
      rw [get_put f i j _ hj]
      by_cases hji : i = j
      · left; rw [if_pos hji]; exact ⟨_, hop, _, rfl⟩
      · right; right
        refine ⟨hj, if_neg hji, ?_⟩
        cases op <;> simp [Proc.pending, hji]
    · have e : stepProc buf dec p f ⟨op, .write i⟩ = (f, .unlock i true) := by
        cases op <;> simp [stepProc, hb]
      rw [e]
      refine ⟨hpath, Nat.le_refl _, fun j hj => Or.inr (Or.inr ⟨hj, rfl, ?_⟩)⟩
      cases op <;> simp [Proc.pending]
  | unlock i b =>
    have e : stepProc buf dec p f ⟨op, .unlock i b⟩ = (f.release p i, .close i b) := by
      cases op <;> simp [stepProc]
    rw [e]
    refine ⟨hpath, Nat.le_refl _, fun j hj => Or.inr (Or.inr ⟨hj, rfl, ?_⟩)⟩
    cases op <;> simp [Proc.pending]
  | close i b =>
    have hop : op.bytes ∈ W := by
      cases op with
      | add v => exact hW v (Or.inl rfl)
      | update v => exact hW v (Or.inr rfl)
      | read => exact absurd rfl h0
      | delete => exact absurd rfl h
    have e : stepProc buf dec p f ⟨op, .close i b⟩ = (if b then f.put i op.bytes else f, .done .ok) := by
      cases op <;> simp [stepProc]
    rw [e]
    cases b with
    | false =>
      refine ⟨by simpa using hpath, by simp, fun j hj => Or.inr (Or.inr ⟨by simpa using hj, by simp, ?_⟩)⟩
      cases op <;> simp [Proc.pending]
    | true =>
      refine ⟨by simpa [FS.put] using hpath, by simp [FS.put], ?_⟩
      intro j hj
      have hj : j < f.data.length := by simpa [FS.put] using hj
      dsimp only
      rw [if_pos rfl, get_put f i j _ hj]
      by_cases hji : i = j
      · left; rw [if_pos hji]; exact ⟨_, hop, _, rfl⟩
      · right; right
        refine ⟨hj, if_neg hji, ?_⟩
        cases op <;> simp [Proc.pending, hji]
  | data i => exact h.elim
  | unread i r => exact h.elim
  | unlink => exact h.elim
  | done r =>
    have e : stepProc buf dec p f ⟨op, .done r⟩ = (f, .done r) := by cases op <;> simp [stepProc]
    rw [e]
    exact ⟨hpath, Nat.le_refl _, fun j hj => Or.inr (Or.inr ⟨hj, rfl, id⟩)⟩

theorem content_inv_step (W : List Bytes) (buf : Nat) (dec : Bytes → Option τ) (s : St τ) (p : Nat) (q : Proc τ)
    (h : ContentInv W s) (hq : s.procs[p]? = some q) :
    ContentInv W ⟨(stepProc buf dec p s.fs q).1, s.procs.set p { q with pc := (stepProc buf dec p s.fs q).2 }⟩ := by
  obtain ⟨h1, h2, h3⟩ := h
  have hm := h1 q (mem_of_getElem? hq)
  have hc := content_step W buf dec p s.fs q hm.1 hm.2 h2
  have hw := (writer_step buf dec p s.fs q hm.1).1
  dsimp only at hc hw
  refine ⟨?_, hc.1, ?_⟩
  · intro q' hq'
    rcases mem_set_elim hq' with rfl | h
    · exact ⟨hw, hm.2⟩
    · exact h1 q' h
  · intro i hi
    rcases hc.2.2 i hi with h | h | ⟨hi', he, hk⟩
    · exact Or.inl h
    · exact Or.inr ⟨p, _, getElem?_set_same hq, h⟩
    · rcases h3 i hi' with h | ⟨p', q', hq', hp'⟩
      · left; dsimp only; rw [he]; exact h
      · right
        by_cases hpp : p = p'
        · subst hpp
          rw [hq] at hq'
          cases hq'
          exact ⟨p, _, getElem?_set_same hq, hk hp'⟩
        · refine ⟨p', q', ?_, hp'⟩
          dsimp only
          rw [List.getElem?_set_ne hpp]; exact hq'

/-- the bytes the processes write -/
def written (ops : List Op) : List Bytes := ops.filterMap fun o => match o with
  | .add v => some v
  | .update v => some v
  | _ => none

/-- **C110** The same processes, once all have finished: if there is a file, its content starts with the complete bytes that one
of them wrote, or with the content it had at the beginning. -/
theorem writers_leave_whole_record_partial (buf : Nat) (dec : Bytes → Option τ) (f : FS) (ops : List Op) (hr : Op.read ∉ ops)
    (hpath : ∀ i, f.path = some i → i < f.data.length)
    (sched : List Nat) (hfin : ∀ q ∈ (run buf dec (begin f ops) sched).procs, q.finished = true) (i : Nat)
    (hi : (run buf dec (begin f ops) sched).fs.path = some i) :
    ∃ v ∈ f.data ++ written ops, ∃ junk, (run buf dec (begin f ops) sched).fs.get i = v ++ junk := by
  have key : ContentInv (f.data ++ written ops) (run buf dec (begin f ops) sched) := by
    apply run_inv (I := ContentInv (f.data ++ written ops))
    · exact fun s p q h hq => content_inv_step _ buf dec s p q h hq
    · refine ⟨?_, hpath, ?_⟩
      · intro q hq
        simp only [begin, List.mem_map] at hq
        obtain ⟨o, ho, rfl⟩ := hq
        refine ⟨⟨fun h => hr (h ▸ ho), trivial⟩, ?_⟩
        intro v hv
        refine List.mem_append_right _ (List.mem_filterMap.mpr ⟨o, ho, ?_⟩)
        dsimp only at hv
        rcases hv with rfl | rfl <;> rfl
      · intro j hj
        have hj : j < f.data.length := hj
        left
        refine ⟨f.data[j]'hj, List.mem_append_left _ (List.getElem_mem hj), [], ?_⟩
        simp [begin, FS.get]
        rw [List.getElem?_eq_getElem hj]; rfl
  obtain ⟨_, k2, k3⟩ := key
  rcases k3 i (k2 i hi) with h | ⟨p, q, hq, hp⟩
  · exact h
  · have hd := hfin q (mem_of_getElem? hq)
    obtain ⟨op, pc⟩ := q
    cases pc <;> simp [Proc.finished] at hd
    cases op <;> simp [Proc.pending] at hp

/-! ## large records: readers and updaters together -/

/-- the invariant: the file is empty exactly while its one writer is about to write -/
def BigInv (W : List Bytes) (buf : Nat) (dec : Bytes → Option τ) (i : Nat) (s : St τ) : Prop :=
  LockInv s ∧ s.fs.path = some i ∧ i < s.fs.data.length ∧
  (∀ (p : Nat) (q : Proc τ), s.procs[p]? = some q → q.pc = .write i → s.fs.get i = []) ∧
  ((∀ (p : Nat) (q : Proc τ), s.procs[p]? = some q → q.pc ≠ .write i) → s.fs.get i ∈ W) ∧
  (∀ q ∈ s.procs, (q.op = .read ∧ (q.pc = .ready ∨ q.pc = .lock i ∨ q.pc = .data i ∨
      (∃ v ∈ W, ∃ t, dec v = some t ∧ (q.pc = .unread i (some t) ∨ q.pc = .done (.task t))))) ∨
    (∃ v ∈ W, v.length > buf ∧ q.op = .update v ∧ (q.pc = .ready ∨ q.pc = .lock i ∨ q.pc = .trunc i ∨ q.pc = .write i ∨
      q.pc = .unlock i false ∨ q.pc = .close i false ∨ q.pc = .done .ok)))

theorem big_inv_step (W : List Bytes) (buf : Nat) (dec : Bytes → Option τ) (i : Nat) (hdec : ∀ v ∈ W, (dec v).isSome = true)
    (s : St τ) (p : Nat) (q : Proc τ) (h : BigInv W buf dec i s) (hq : s.procs[p]? = some q) :
    BigInv W buf dec i ⟨(stepProc buf dec p s.fs q).1, s.procs.set p { q with pc := (stepProc buf dec p s.fs q).2 }⟩ := by
  obtain ⟨hl, hpath, hlen, hA, hB, hq'⟩ := h
  have hL := lock_inv_step buf dec s p q hl hq
  have hme := hq' q (mem_of_getElem? hq)
  -- a step that leaves the content of the file and does not enter or leave `write`
  have quiet : ∀ pc', (stepProc buf dec p s.fs q).2 = pc' → (stepProc buf dec p s.fs q).1.path = some i →
      (stepProc buf dec p s.fs q).1.data = s.fs.data → q.pc ≠ .write i → pc' ≠ .write i →
      ((q.op = .read ∧ (pc' = .ready ∨ pc' = .lock i ∨ pc' = .data i ∨
        (∃ v ∈ W, ∃ t, dec v = some t ∧ (pc' = .unread i (some t) ∨ pc' = .done (.task t))))) ∨
      (∃ v ∈ W, v.length > buf ∧ q.op = .update v ∧ (pc' = .ready ∨ pc' = .lock i ∨ pc' = .trunc i ∨ pc' = .write i ∨
        pc' = .unlock i false ∨ pc' = .close i false ∨ pc' = .done .ok))) →
      BigInv W buf dec i ⟨(stepProc buf dec p s.fs q).1, s.procs.set p { q with pc := (stepProc buf dec p s.fs q).2 }⟩ := by
    intro pc' e1 e2 e3 e4 e5 e6
    have hg : (stepProc buf dec p s.fs q).1.get i = s.fs.get i := by unfold FS.get; rw [e3]
    refine ⟨hL, e2, ?_, ?_, ?_, ?_⟩
    · dsimp only; rw [e3]; exact hlen
    · intro k q2 hk hw
      dsimp only at hk ⊢
      rw [hg]
      rcases getElem?_set_elim hk with ⟨_, rfl⟩ | ⟨_, hk⟩
      · exact absurd (e1.symm.trans hw) e5
      · exact hA k q2 hk hw
    · intro hn
      dsimp only at hn ⊢
      rw [hg]
      apply hB
      intro k q2 hk hw
      by_cases hkp : p = k
      · subst hkp; rw [hq] at hk; cases hk; exact e4 hw
      · exact hn k q2 (by rw [List.getElem?_set_ne hkp]; exact hk) hw
    · intro q2 hq2
      rcases mem_set_elim hq2 with rfl | h
      · dsimp only; rw [e1]; exact e6
      · exact hq' q2 h
  have noWriter : q.inside = some (i, false) → ∀ (k : Nat) (q2 : Proc τ), s.procs[k]? = some q2 → q2.pc ≠ .write i := by
    intro hin k q2 hk hw
    by_cases hkp : p = k
    · subst hkp; rw [hq] at hk; cases hk
      unfold Proc.inside at hin; rw [hw] at hin; cases hop : q.op <;> simp [hop] at hin
    · refine hl.alone hk hq (fun e => hkp e.symm) (i := i) ?_ hin
      unfold Proc.inside; rw [hw]; cases q2.op <;> rfl
  obtain ⟨op, pc⟩ := q
  dsimp only at hme quiet noWriter
  rcases hme with ⟨rfl, hpc⟩ | ⟨v, hv, hvl, rfl, hpc⟩
  · rcases hpc with rfl | rfl | rfl | ⟨v, hv, t, ht, rfl | rfl⟩
    · refine quiet (.lock i) ?_ ?_ ?_ ?_ ?_ ?_ <;> simp [stepProc, hpath]
    · by_cases hf : s.fs.free p i false = true
      · refine quiet (.data i) ?_ ?_ ?_ ?_ ?_ ?_ <;> simp [stepProc, hpath, hf]
      · refine quiet (.lock i) ?_ ?_ ?_ ?_ ?_ ?_ <;> simp [stepProc, hpath, hf]
    · have hg := hB (noWriter rfl)
      have hs := hdec _ hg
      cases hd : dec (s.fs.get i) with
      | none => rw [hd] at hs; cases hs
      | some t =>
        refine quiet (.unread i (some t)) ?_ ?_ ?_ ?_ ?_ ?_
        · simp [stepProc, hd]
        · simp [stepProc, hpath]
        · simp [stepProc]
        · simp
        · simp
        · left; exact ⟨rfl, Or.inr (Or.inr (Or.inr ⟨_, hg, t, hd, Or.inl rfl⟩))⟩
    · refine quiet (.done (.task t)) ?_ ?_ ?_ ?_ ?_ ?_
      · simp [stepProc]
      · simp [stepProc, FS.release, hpath]
      · simp [stepProc, FS.release]
      · simp
      · simp
      · left; exact ⟨rfl, Or.inr (Or.inr (Or.inr ⟨_, hv, t, ht, Or.inr rfl⟩))⟩
    · refine quiet (.done (.task t)) ?_ ?_ ?_ ?_ ?_ ?_
      · simp [stepProc]
      · simp [stepProc, hpath]
      · simp [stepProc]
      · simp
      · simp
      · left; exact ⟨rfl, Or.inr (Or.inr (Or.inr ⟨_, hv, t, ht, Or.inr rfl⟩))⟩
  · rcases hpc with rfl | rfl | rfl | rfl | rfl | rfl | rfl
    · refine quiet (.lock i) ?_ ?_ ?_ ?_ ?_ (Or.inr ⟨v, hv, hvl, rfl, ?_⟩) <;> simp [stepProc, hpath]
    · by_cases hf : s.fs.free p i true = true
      · refine quiet (.trunc i) ?_ ?_ ?_ ?_ ?_ (Or.inr ⟨v, hv, hvl, rfl, ?_⟩) <;> simp [stepProc, hpath, hf]
      · refine quiet (.lock i) ?_ ?_ ?_ ?_ ?_ (Or.inr ⟨v, hv, hvl, rfl, ?_⟩) <;> simp [stepProc, hpath, hf]
    · -- truncate
      have e : stepProc buf dec p s.fs ⟨.update v, .trunc i⟩ = ({ s.fs with data := s.fs.data.set i [] }, .write i) := rfl
      rw [e] at hL ⊢
      have hg : FS.get { s.fs with data := s.fs.data.set i [] } i = [] := by rw [get_set _ _ _ _ hlen, if_pos rfl]
      refine ⟨hL, hpath, by simpa using hlen, fun _ _ _ _ => hg, ?_, ?_⟩
      · intro hn
        exact absurd rfl (hn p _ (getElem?_set_same hq))
      · intro q2 hq2
        rcases mem_set_elim hq2 with rfl | h
        · right; exact ⟨v, hv, hvl, rfl, by simp⟩
        · exact hq' q2 h
    · -- write
      have e : stepProc buf dec p s.fs ⟨.update v, .write i⟩ = (s.fs.put i v, .unlock i false) := by
        simp [stepProc, Op.bytes, hvl]
      rw [e] at hL ⊢
      have hem := hA p _ hq rfl
      have hg : (s.fs.put i v).get i = v := by rw [get_put _ _ _ _ hlen, if_pos rfl, hem]; simp
      refine ⟨hL, hpath, by simpa [FS.put] using hlen, ?_, fun _ => by dsimp only; rw [hg]; exact hv, ?_⟩
      · intro k q2 hk hw
        exfalso
        rcases getElem?_set_elim hk with ⟨_, rfl⟩ | ⟨hne, hk⟩
        · cases hw
        · refine hl.alone (ex := true) hk hq hne (i := i) ?_ rfl
          unfold Proc.inside; rw [hw]; cases q2.op <;> rfl
      · intro q2 hq2
        rcases mem_set_elim hq2 with rfl | h
        · right; exact ⟨v, hv, hvl, rfl, by simp⟩
        · exact hq' q2 h
    · refine quiet (.close i false) ?_ ?_ ?_ ?_ ?_ (Or.inr ⟨v, hv, hvl, rfl, ?_⟩) <;> simp [stepProc, hpath, FS.release]
    · refine quiet (.done .ok) ?_ ?_ ?_ ?_ ?_ (Or.inr ⟨v, hv, hvl, rfl, ?_⟩) <;> simp [stepProc, hpath]
    · refine quiet (.done .ok) ?_ ?_ ?_ ?_ ?_ (Or.inr ⟨v, hv, hvl, rfl, ?_⟩) <;> simp [stepProc, hpath]

/-- **C110** Any number of processes that read a task or update it, in any interleaving, if the records are larger than the
buffer of a file object: the task's file stays, and every finished read returned the task as it was at the beginning or as one
of them wrote it. -/
theorem large_updates_and_readers_partial (buf : Nat) (dec : Bytes → Option τ) (f : FS) (ops : List Op) (i : Nat)
    (hf : f.locks = []) (hp : f.path = some i) (hlen : i < f.data.length)
    (hops : ∀ o ∈ ops, o = .read ∨ ∃ v, o = .update v ∧ v.length > buf)
    (hdec : ∀ v ∈ f.get i :: written ops, (dec v).isSome = true) (sched : List Nat) :
    let s := run buf dec (begin f ops) sched
    s.fs.path = some i ∧
      ∀ q ∈ s.procs, q.op = .read → q.finished = true →
        ∃ v ∈ f.get i :: written ops, ∃ t, dec v = some t ∧ q.pc = .done (.task t) := by
  intro s
  have key : BigInv (f.get i :: written ops) buf dec i s := by
    apply run_inv (I := BigInv (f.get i :: written ops) buf dec i)
    · exact fun s p q h hq => big_inv_step _ buf dec i hdec s p q h hq
    · refine ⟨lock_inv_begin f ops hf, hp, hlen, ?_, fun _ => List.mem_cons_self .., ?_⟩
      · intro p q hq hw
        rw [(begin_inside hq).1] at hw; cases hw
      · intro q hq
        simp only [begin, List.mem_map] at hq
        obtain ⟨o, ho, rfl⟩ := hq
        rcases hops o ho with rfl | ⟨v, rfl, hv⟩
        · left; simp
        · right
          refine ⟨v, List.mem_cons_of_mem _ (List.mem_filterMap.mpr ⟨_, ho, rfl⟩), hv, rfl, Or.inl rfl⟩
  refine ⟨key.2.1, ?_⟩
  intro q hq hr hfin
  rcases key.2.2.2.2.2 q hq with ⟨_, h⟩ | ⟨v, _, _, h, _⟩
  · rcases h with h | h | h | ⟨v, hv, t, ht, h | h⟩
    · simp [Proc.finished, h] at hfin
    · simp [Proc.finished, h] at hfin
    · simp [Proc.finished, h] at hfin
    · simp [Proc.finished, h] at hfin
    · exact ⟨v, hv, t, ht, h⟩
  · rw [hr] at h; cases h

/-! ## what is lost -/

/-- **C110** (what the code does) A record that fits the buffer, a reader beside an `add`: both the window between creating and
locking the file and the one between unlocking and flushing it show the reader an empty file, which it removes; `add` reports
success. -/
theorem reader_removes_added_task (buf : Nat) (dec : Bytes → Option τ) (v : Bytes) (hv : v.length ≤ buf) (h0 : dec [] = none) :
    (run buf dec (begin ⟨none, [], []⟩ [.add v, .read]) [0, 1, 1, 1, 1, 1, 0, 0, 0, 0] : St τ) =
      ⟨⟨none, [v], []⟩, [⟨.add v, .done .ok⟩, ⟨.read, .done .nothing⟩]⟩ ∧
    (run buf dec (begin ⟨none, [], []⟩ [.add v, .read]) [0, 0, 0, 0, 1, 1, 1, 1, 1, 0] : St τ) =
      ⟨⟨none, [v], []⟩, [⟨.add v, .done .ok⟩, ⟨.read, .done .nothing⟩]⟩ := by
  have hb : ¬ buf < v.length := by omega
  constructor <;>
    simp [run, begin, step, stepProc, FS.free, FS.release, FS.get, FS.put, h0, hb, Op.bytes]

/-- **C110** (what the code does) The window between creating and locking is there for large records too. -/
theorem reader_removes_large_added_task (buf : Nat) (dec : Bytes → Option τ) (v : Bytes) (hv : v.length > buf) (h0 : dec [] = none) :
    (run buf dec (begin ⟨none, [], []⟩ [.add v, .read]) [0, 1, 1, 1, 1, 1, 0, 0, 0, 0] : St τ) =
      ⟨⟨none, [v], []⟩, [⟨.add v, .done .ok⟩, ⟨.read, .done .nothing⟩]⟩ := by
  simp [run, begin, step, stepProc, FS.free, FS.release, FS.get, FS.put, h0, hv, Op.bytes]

/-- **C110** (what the code does) A reader beside an `update` of a record that fits the buffer: between unlocking and flushing the
file is empty, the reader removes it, and the task is gone although nobody deleted it. -/
theorem reader_removes_updated_task (buf : Nat) (dec : Bytes → Option τ) (old v : Bytes) (hv : v.length ≤ buf)
    (h0 : dec [] = none) :
    (run buf dec (begin ⟨some 0, [old], []⟩ [.update v, .read]) [0, 0, 0, 0, 0, 1, 1, 1, 1, 1, 0] : St τ) =
      ⟨⟨none, [v], []⟩, [⟨.update v, .done .ok⟩, ⟨.read, .done .nothing⟩]⟩ := by
  have hb : ¬ buf < v.length := by omega
  simp [run, begin, step, stepProc, FS.free, FS.release, FS.get, FS.put, h0, hb, Op.bytes]

/-- **C110** (what the code does) Looking up an id that does not exist removes the file that another process adds in the meantime,
complete as it may be. -/
theorem lookup_of_missing_removes_added (buf : Nat) (dec : Bytes → Option τ) (v : Bytes) :
    (run buf dec (begin ⟨none, [], []⟩ [.add v, .read]) [1, 0, 0, 0, 0, 0, 1] : St τ) =
      ⟨⟨none, [v], []⟩, [⟨.add v, .done .ok⟩, ⟨.read, .done .nothing⟩]⟩ := by
  by_cases hv : buf < v.length <;>
    simp [run, begin, step, stepProc, FS.free, FS.release, FS.get, FS.put, hv, Op.bytes]

/-- **C110** (what the code does) Two updates without any reader: the longer bytes are flushed first, the shorter ones over them.
What is left behind them makes a format that checks its end (an encrypted record) undecodable; the next reader then removes
the file. -/
theorem updates_mix (buf : Nat) (dec : Bytes → Option τ) (old v w : Bytes) (hv : v.length ≤ buf) (hw : w.length < v.length)
    (hstrict : dec (w ++ v.drop w.length) = none) :
    let s : St τ := run buf dec (begin ⟨some 0, [old], []⟩ [.update v, .update w, .read]) [0, 0, 0, 0, 0, 1, 1, 1, 1, 1, 0, 1]
    s = ⟨⟨some 0, [w ++ v.drop w.length], []⟩, [⟨.update v, .done .ok⟩, ⟨.update w, .done .ok⟩, ⟨.read, .ready⟩]⟩ ∧
      (run buf dec s [2, 2, 2, 2, 2]).fs.path = none := by
  have hb : ¬ buf < v.length := by omega
  have hb' : ¬ buf < w.length := by omega
  have key : (run buf dec (begin ⟨some 0, [old], []⟩ [.update v, .update w, .read]) [0, 0, 0, 0, 0, 1, 1, 1, 1, 1, 0, 1] : St τ) =
      ⟨⟨some 0, [w ++ v.drop w.length], []⟩, [⟨.update v, .done .ok⟩, ⟨.update w, .done .ok⟩, ⟨.read, .ready⟩]⟩ := by
    simp [run, begin, step, stepProc, FS.free, FS.release, FS.get, FS.put, hb, hb', Op.bytes]
  intro s
  refine ⟨key, ?_⟩
  have : s = _ := key
  rw [this]
  simp [run, step, stepProc, FS.free, FS.release, FS.get, hstrict]

/-! ## the hypotheses are met -/

/-- a reading of bytes for the examples: the first byte says how many follow; what lies behind does not matter -/
def exDec (b : Bytes) : Option Bytes := match b with
  | [] => none
  | n :: r => if n ≤ r.length then some (r.take n) else none

/-- one that checks the end -/
def exStrict (b : Bytes) : Option Bytes := match b with
  | [] => none
  | n :: r => if n = r.length then some r else none

example : let f : FS := ⟨some 0, [[1, 7]], []⟩; f.path = some 0 ∧ exDec (f.get 0) = some [7] := by decide
example : (run 10 exDec (begin ⟨some 0, [[1, 7]], []⟩ (List.replicate 2 Op.read)) [0, 1, 1, 0, 0, 1, 1, 0] : St Bytes).procs =
    [⟨.read, .done (.task [7])⟩, ⟨.read, .done (.task [7])⟩] := by decide
example : (run 10 exDec (begin ⟨none, [], []⟩ [.add [1, 5], .delete, .add [1, 6], .update [1, 7]])
    [0, 2, 0, 0, 3, 0, 0, 1, 3, 3, 3, 3, 3] : St Bytes).procs.all Proc.finished = true := by decide
example : (run 10 exDec (begin ⟨none, [], []⟩ [.add [1, 5], .update [1, 6]]) [0, 0, 0, 1, 0, 1, 1] : St Bytes).procs.map Proc.inside =
    [none, some (0, true)] := by decide
example : (run 1 exDec (begin ⟨some 0, [[1, 7]], []⟩ [.update [1, 8], .read, .read]) [0, 0, 0, 1, 1, 0, 0, 1, 1, 1, 2, 2, 2, 2, 0] : St Bytes).procs =
    [⟨.update [1, 8], .done .ok⟩, ⟨.read, .done (.task [8])⟩, ⟨.read, .done (.task [8])⟩] := by decide
example : exDec [] = none ∧ exStrict ([1, 5] ++ [2, 6, 6].drop 2) = none := by decide

end FileRace
end Asyncz
