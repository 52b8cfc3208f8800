import Verif.Model.Executor
/-!
# Lemmas on the bookkeeping of running instances
-/
namespace Asyncz
namespace Exec

theorem countP_flatten_set {α : Type} (p : α → Bool) {l : List (List α)} {i : Nat} {x y : List α}
    (h : l[i]? = some x) : (l.set i y).flatten.countP p + x.countP p = l.flatten.countP p + y.countP p := by
  induction l generalizing i with
  | nil => simp at h
  | cons a l ih =>
    cases i with
    | zero =>
      simp only [List.getElem?_cons_zero, Option.some.injEq] at h
      subst h
      simp only [List.set_cons_zero, List.flatten_cons, List.countP_append]
      omega
    | succ i =>
      simp only [List.getElem?_cons_succ] at h
      have := ih h
      simp only [List.set_cons_succ, List.flatten_cons, List.countP_append]
      omega

theorem countP_erase_mem {α : Type} [BEq α] [LawfulBEq α] (p : α → Bool) {l : List α} {a : α} (h : a ∈ l) :
    (l.erase a).countP p + (if p a then 1 else 0) = l.countP p := by
  have := (List.perm_cons_erase h).countP_eq p
  rw [this, List.countP_cons]

/-- submitted, not yet counted up -/
def Op.mid : Op → Bool
  | .sendSent => true
  | .sendRead => true
  | .sendWrite _ => true
  | _ => false

/-- ended, not yet counted down -/
def Op.fin : Op → Bool
  | .finWait => true
  | .finRead => true
  | .finWrite _ => true
  | _ => false

/-- a call of `send_task` (not its end) -/
def Op.send : Op → Bool
  | .sendWait _ => true
  | .sendCheck _ => true
  | .sendDo _ => true
  | .sendSent => true
  | .sendRead => true
  | .sendWrite _ => true
  | _ => false

def isAt (id : String) (p : Op → Bool) (f : Frame) : Bool := f.id == id && p f.op

/-- number of calls for `id` at a position in `p` -/
def frames (s : Sys) (id : String) (p : Op → Bool) : Nat := s.threads.flatten.countP (isAt id p)

/-- number of runs of `id` submitted and not ended -/
def liveN (s : Sys) (id : String) : Nat := s.live.countP (fun r => r.2 == id)

def lostN (s : Sys) (id : String) : Nat := s.lost.count id

/-- what a call has read is still so -/
def Loc (T : Dict String Int) (f : Frame) : Prop :=
  match f.op with
  | .sendDo m => count T f.id < m
  | .sendWrite n => count T f.id = n
  | .finWrite n => count T f.id = n
  | .finDel => count T f.id = 0
  | _ => True

/-- the submission a call is about -/
def OkFrame (ok : Nat → String → Int → Prop) (f : Frame) : Prop :=
  match f.op with
  | .sendWait m => ok f.ex f.id m
  | .sendCheck m => ok f.ex f.id m
  | .sendDo m => ok f.ex f.id m
  | _ => True

structure Inv (ok : Nat → String → Int → Prop) (nests : Nat → Prop) (home : String → Nat) (s : Sys) : Prop where
  wf : s.table.WF
  bal : ∀ id, count s.table id + frames s id Op.mid = liveN s id + frames s id Op.fin + lostN s id
  mutex : ∀ i j ex, holdsLock s i ex → holdsLock s j ex → i = j
  tail : ∀ (i : Nat) (f : Frame) (rest : List Frame), s.threads[i]? = some (f :: rest) → ∀ g ∈ rest, g.op = .sendSent
  chain : ∀ (i : Nat) (f : Frame) (rest : List Frame), s.threads[i]? = some (f :: rest) → (f.op.send = true → ∀ g ∈ rest, nests g.ex) ∧
    ∀ g rest', rest = g :: rest' → ∀ g' ∈ rest', nests g'.ex
  homeF : ∀ (i : Nat) (st : List Frame), s.threads[i]? = some st → ∀ f ∈ st, f.ex = home f.id
  homeL : ∀ r ∈ s.live, r.1 = home r.2
  loc : ∀ (i : Nat) (st : List Frame), s.threads[i]? = some st → ∀ f ∈ st, Loc s.table f
  okF : ∀ (i : Nat) (st : List Frame), s.threads[i]? = some st → ∀ f ∈ st, OkFrame ok f

variable {ok : Nat → String → Int → Prop} {nests : Nat → Prop} {home : String → Nat}

theorem count_set (T : Dict String Int) (id id' : String) (n : Int) :
    count (T.set id n) id' = if id' = id then n else count T id' := by
  unfold count; rw [Dict.get?_set]; split <;> rfl

theorem count_set_self (T : Dict String Int) (id id' : String) :
    count (T.set id (count T id)) id' = count T id' := by
  rw [count_set]; split
  · subst_vars; rfl
  · rfl

theorem count_erase {T : Dict String Int} (hw : T.WF) (id id' : String) :
    count (T.erase id) id' = if id' = id then 0 else count T id' := by
  unfold count; rw [Dict.get?_erase hw]; split <;> rfl

/-- effect of replacing the top frame on the number of calls at a position -/
theorem frames_top {s : Sys} {i : Nat} {f : Frame} {rest : List Frame} {op' : Op} (hi : s.threads[i]? = some (f :: rest))
    (id : String) (p : Op → Bool) {s' : Sys} (hs : s'.threads = s.threads.set i ({ f with op := op' } :: rest)) :
    frames s' id p + (if f.id = id ∧ p f.op = true then 1 else 0) =
      frames s id p + (if f.id = id ∧ p op' = true then 1 else 0) := by
  have h := countP_flatten_set (isAt id p) (y := { f with op := op' } :: rest) hi
  unfold frames
  rw [hs]
  simp only [List.countP_cons, isAt, Bool.and_eq_true, beq_iff_eq] at h ⊢
  omega

theorem frames_push {s : Sys} {i : Nat} {st : List Frame} {g : Frame} (hi : s.threads[i]? = some st)
    (id : String) (p : Op → Bool) {s' : Sys} (hs : s'.threads = s.threads.set i (g :: st)) :
    frames s' id p = frames s id p + (if g.id = id ∧ p g.op = true then 1 else 0) := by
  have h := countP_flatten_set (isAt id p) (y := g :: st) hi
  unfold frames
  rw [hs]
  simp only [List.countP_cons, isAt, Bool.and_eq_true, beq_iff_eq] at h ⊢
  omega

theorem frames_new {s : Sys} {g : Frame} (id : String) (p : Op → Bool) {s' : Sys} (hs : s'.threads = s.threads ++ [[g]]) :
    frames s' id p = frames s id p + (if g.id = id ∧ p g.op = true then 1 else 0) := by
  unfold frames
  rw [hs]
  simp only [List.flatten_append, List.flatten_cons, List.flatten_nil, List.countP_append, List.countP_cons, isAt,
    List.countP_nil, List.append_nil, Bool.and_eq_true, beq_iff_eq]
  omega

theorem frames_pop {s : Sys} {i : Nat} {f : Frame} {rest : List Frame} (hi : s.threads[i]? = some (f :: rest))
    (id : String) (p : Op → Bool) {s' : Sys} (hs : s'.threads = s.threads.set i rest) :
    frames s' id p + (if f.id = id ∧ p f.op = true then 1 else 0) = frames s id p := by
  have h := countP_flatten_set (isAt id p) (y := rest) hi
  unfold frames
  rw [hs]
  simp only [List.countP_cons, isAt, Bool.and_eq_true, beq_iff_eq] at h ⊢
  omega

theorem frames_eq {s s' : Sys} (id : String) (p : Op → Bool) (h : s'.threads = s.threads) :
    frames s' id p = frames s id p := by unfold frames; rw [h]

theorem liveN_erase {s : Sys} {r : Nat × String} (h : r ∈ s.live) (id : String) {s' : Sys} (hs : s'.live = s.live.erase r) :
    liveN s' id + (if r.2 = id then 1 else 0) = liveN s id := by
  unfold liveN
  rw [hs]
  have := countP_erase_mem (fun r : Nat × String => r.2 == id) h
  simpa using this

/-- what is known of every stack after thread `i` has changed -/
theorem stacks_set {P : List Frame → Prop} {l : List (List Frame)} {i : Nat} {y : List Frame}
    (h : ∀ (j : Nat) (st : List Frame), l[j]? = some st → j ≠ i → P st) (hy : P y) :
    ∀ (j : Nat) (st : List Frame), (l.set i y)[j]? = some st → P st := by
  intro j st hj
  by_cases hji : j = i
  · subst hji
    rw [List.getElem?_set] at hj
    simp only [if_true] at hj
    split at hj
    · simp only [Option.some.injEq] at hj; subst hj; exact hy
    · simp at hj
  · rw [List.getElem?_set_ne (fun e => hji e.symm)] at hj
    exact h j st hj hji

theorem stacks_new {P : List Frame → Prop} {l : List (List Frame)} {y : List Frame}
    (h : ∀ (j : Nat) (st : List Frame), l[j]? = some st → P st) (hy : P y) :
    ∀ (j : Nat) (st : List Frame), (l ++ [y])[j]? = some st → P st := by
  intro j st hj
  rw [List.getElem?_append] at hj
  split at hj
  · exact h j st hj
  · rw [List.getElem?_singleton] at hj
    split at hj
    · simp only [Option.some.injEq] at hj; subst hj; exact hy
    · simp at hj

/-- the locks a thread holds after a change of thread `i` -/
theorem holdsLock_set {s s' : Sys} {i : Nat} {x y : List Frame} (hi : s.threads[i]? = some x)
    (hs : s'.threads = s.threads.set i y) {j ex : Nat} :
    holdsLock s' j ex ↔ if j = i then ∃ f ∈ y, f.ex = ex ∧ f.op.holds = true else holdsLock s j ex := by
  unfold holdsLock
  rw [hs]
  by_cases h : j = i
  · subst h
    have hl : j < s.threads.length := by
      rcases List.getElem?_eq_some_iff.1 hi with ⟨h, _⟩; exact h
    simp [hl]
  · rw [List.getElem?_set_ne (fun e => h e.symm)]
    simp [h]

theorem holdsLock_new {s s' : Sys} {y : List Frame} (hy : ∀ f ∈ y, f.op.holds = false)
    (hs : s'.threads = s.threads ++ [y]) {j ex : Nat} (h : holdsLock s' j ex) : holdsLock s j ex := by
  obtain ⟨st, hj, f, hf, h1, h2⟩ := h
  rw [hs, List.getElem?_append] at hj
  split at hj
  · exact ⟨st, hj, f, hf, h1, h2⟩
  · rw [List.getElem?_singleton] at hj
    split at hj
    · simp only [Option.some.injEq] at hj
      subst hj
      rw [hy f hf] at h2
      simp at h2
    · simp at hj

/-- a change of thread `i` that does not acquire a lock keeps mutual exclusion -/
theorem mutex_set {s s' : Sys} {i : Nat} {x y : List Frame} (hm : ∀ i j ex, holdsLock s i ex → holdsLock s j ex → i = j)
    (hi : s.threads[i]? = some x) (hs : s'.threads = s.threads.set i y)
    (hxy : ∀ f ∈ y, f.op.holds = true → ∃ g ∈ x, g.ex = f.ex ∧ g.op.holds = true) :
    ∀ a b ex, holdsLock s' a ex → holdsLock s' b ex → a = b := by
  have hsub : ∀ a ex, holdsLock s' a ex → holdsLock s a ex := by
    intro a ex h
    rw [holdsLock_set hi hs] at h
    split at h
    · subst_vars
      obtain ⟨f, hf, he, hh⟩ := h
      obtain ⟨g, hg, hge, hgh⟩ := hxy f hf hh
      exact ⟨_, hi, g, hg, hge.trans he, hgh⟩
    · exact h
  exact fun a b ex ha hb => hm a b ex (hsub a ex ha) (hsub b ex hb)

theorem Move.holds {id : String} {op op' : Op} {T T' : Dict String Int} (h : Move id op T op' T') : op.holds = true := by
  cases h <;> rfl

theorem Move.wf {id : String} {op op' : Op} {T T' : Dict String Int} (h : Move id op T op' T') (hw : T.WF) : T'.WF := by
  cases h <;> first | exact hw.set _ _ | exact hw | exact hw.erase _

/-- a call only changes the number of its own task -/
theorem Move.other {id id' : String} {op op' : Op} {T T' : Dict String Int} (h : Move id op T op' T') (hw : T.WF)
    (hne : id' ≠ id) : count T' id' = count T id' := by
  cases h <;> first | rfl | (rw [count_set, if_neg hne]) | (rw [count_erase hw, if_neg hne])

/-- how a read or write changes the number, given that what was read is still so -/
theorem Move.own {ex : Nat} {id : String} {op op' : Op} {T T' : Dict String Int} (h : Move id op T op' T') (hw : T.WF)
    (hl : Loc T ⟨ex, id, op⟩) :
    (count T' id + (if op'.mid then 1 else 0) + (if op.fin then 1 else 0) =
      count T id + (if op.mid then 1 else 0) + (if op'.fin then 1 else 0)) ∧ Loc T' ⟨ex, id, op'⟩ := by
  cases h <;> simp_all [Loc, count_set, count_erase, Op.mid, Op.fin] <;> omega

/-- the operations of `Move` keep the kind of the call -/
theorem Move.send {id : String} {op op' : Op} {T T' : Dict String Int} (h : Move id op T op' T') (hs : op'.send = true) :
    op.send = true := by
  cases h <;> simp_all [Op.send]

theorem loc_of_other {s : Sys} (inv : Inv ok nests home s) {i : Nat} {f : Frame} {rest : List Frame}
    (hi : s.threads[i]? = some (f :: rest)) (hf : f.op.holds = true) {T' : Dict String Int}
    (hT : ∀ id', id' ≠ f.id → count T' id' = count s.table id') {j : Nat} {st : List Frame}
    (hj : s.threads[j]? = some st) (hji : j ≠ i) : ∀ g ∈ st, Loc T' g := by
  intro g hg
  have hl := inv.loc j st hj g hg
  by_cases hid : g.id = f.id
  · have hex : g.ex = f.ex := by
      rw [inv.homeF j st hj g hg, inv.homeF i _ hi f (by simp), hid]
    have hno : g.op.holds = false := by
      cases hh : g.op.holds with
      | false => rfl
      | true => exact absurd (inv.mutex j i f.ex ⟨st, hj, g, hg, hex, hh⟩ ⟨_, hi, f, by simp, rfl, hf⟩) hji
    obtain ⟨ge, gi, go⟩ := g
    cases go <;> simp_all [Loc, Op.holds]
  · obtain ⟨ge, gi, go⟩ := g
    have := hT gi hid
    cases go <;> simp_all [Loc]

theorem inv_init : Inv ok nests home Sys.init where
  wf := Dict.WF.nil
  bal := fun _ => rfl
  mutex := by rintro i j ex ⟨st, h, _⟩; simp [Sys.init] at h
  tail := by intro i f rest h; simp [Sys.init] at h
  chain := by intro i f rest h; simp [Sys.init] at h
  homeF := by intro i st h; simp [Sys.init] at h
  homeL := by intro r h; simp [Sys.init] at h
  loc := by intro i st h; simp [Sys.init] at h
  okF := by intro i st h; simp [Sys.init] at h

/-- a new thread starts to wait for a lock -/
theorem inv_new {s s' : Sys} (inv : Inv ok nests home s) {g : Frame} (hg : g.op.holds = false)
    (hs : s'.threads = s.threads ++ [[g]]) (hT : s'.table = s.table) (hh : g.ex = home g.id) (hok : OkFrame ok g)
    (hL : ∀ r ∈ s'.live, r.1 = home r.2)
    (hb : ∀ id, (liveN s' id : Int) + frames s' id Op.fin + lostN s' id - frames s' id Op.mid =
      liveN s id + frames s id Op.fin + lostN s id - frames s id Op.mid) : Inv ok nests home s' where
  wf := by rw [hT]; exact inv.wf
  bal := by intro id; have := inv.bal id; have := hb id; rw [hT]; omega
  mutex := fun i j ex hi hj =>
    inv.mutex i j ex (holdsLock_new (by simpa using hg) hs hi) (holdsLock_new (by simpa using hg) hs hj)
  tail := by
    rw [hs]
    intro i f rest hi
    have := stacks_new (P := fun st => ∀ f rest, st = f :: rest → ∀ g ∈ rest, g.op = .sendSent)
      (fun j st hj f rest e => inv.tail j f rest (e ▸ hj)) (by intro f rest e; cases e; simp) i _ hi
    exact this f rest rfl
  chain := by
    rw [hs]
    intro i f rest hi
    have := stacks_new (P := fun st => ∀ f rest, st = f :: rest → (f.op.send = true → ∀ g ∈ rest, nests g.ex) ∧
      ∀ g rest', rest = g :: rest' → ∀ g' ∈ rest', nests g'.ex)
      (fun j st hj f rest e => inv.chain j f rest (e ▸ hj)) (by intro f rest e; cases e; simp) i _ hi
    exact this f rest rfl
  homeF := by rw [hs]; exact stacks_new inv.homeF (by simpa using hh)
  homeL := hL
  loc := by
    rw [hs, hT]
    refine stacks_new inv.loc ?_
    obtain ⟨ge, gi, go⟩ := g
    cases go <;> simp_all [Loc, Op.holds]
  okF := by rw [hs]; exact stacks_new inv.okF (by simpa using hok)

/-- a thread inside `do_send_task` starts to wait for a lock -/
theorem inv_push {s s' : Sys} (inv : Inv ok nests home s) {i : Nat} {f : Frame} {rest : List Frame}
    (hi : s.threads[i]? = some (f :: rest)) (hf : f.op = .sendSent) {g : Frame} (hg : g.op.holds = false)
    (hn : g.op.send = true → nests f.ex)
    (hs : s'.threads = s.threads.set i (g :: f :: rest)) (hT : s'.table = s.table) (hh : g.ex = home g.id)
    (hok : OkFrame ok g) (hL : ∀ r ∈ s'.live, r.1 = home r.2)
    (hb : ∀ id, (liveN s' id : Int) + frames s' id Op.fin + lostN s' id - frames s' id Op.mid =
      liveN s id + frames s id Op.fin + lostN s id - frames s id Op.mid) : Inv ok nests home s' where
  wf := by rw [hT]; exact inv.wf
  bal := by intro id; have := inv.bal id; have := hb id; rw [hT]; omega
  mutex := by
    refine mutex_set inv.mutex hi hs ?_
    intro a ha hah
    rcases List.mem_cons.1 ha with rfl | ha
    · rw [hg] at hah; simp at hah
    · exact ⟨a, ha, rfl, hah⟩
  tail := by
    rw [hs]
    intro j f' rest' hj
    have := stacks_set (P := fun st => ∀ f rest, st = f :: rest → ∀ g ∈ rest, g.op = .sendSent) (i := i)
      (fun j st hj _ f rest e => inv.tail j f rest (e ▸ hj)) (y := g :: f :: rest)
      (by
        intro f' rest' e; cases e
        intro a ha
        rcases List.mem_cons.1 ha with rfl | ha
        · exact hf
        · exact inv.tail i f rest hi a ha) j _ hj
    exact this f' rest' rfl
  chain := by
    have hc := inv.chain i f rest hi
    have hfs : f.op.send = true := by rw [hf]; rfl
    rw [hs]
    intro j f' rest' hj
    have := stacks_set (P := fun st => ∀ f rest, st = f :: rest → (f.op.send = true → ∀ g ∈ rest, nests g.ex) ∧
      ∀ g rest', rest = g :: rest' → ∀ g' ∈ rest', nests g'.ex) (i := i)
      (fun j st hj _ f rest e => inv.chain j f rest (e ▸ hj)) (y := g :: f :: rest)
      (by
        intro f' rest' e; cases e
        refine ⟨fun hgs a ha => ?_, fun a rest'' e => ?_⟩
        · rcases List.mem_cons.1 ha with rfl | ha
          · exact hn hgs
          · exact hc.1 hfs a ha
        · cases e; exact hc.1 hfs) j _ hj
    exact this f' rest' rfl
  homeF := by
    rw [hs]
    refine stacks_set (fun j st hj _ => inv.homeF j st hj) ?_
    intro a ha
    rcases List.mem_cons.1 ha with rfl | ha
    · exact hh
    · exact inv.homeF i _ hi a ha
  homeL := hL
  loc := by
    rw [hs, hT]
    refine stacks_set (fun j st hj _ => inv.loc j st hj) ?_
    intro a ha
    rcases List.mem_cons.1 ha with rfl | ha
    · obtain ⟨ge, gi, go⟩ := a
      cases go <;> simp_all [Loc, Op.holds]
    · exact inv.loc i _ hi a ha
  okF := by
    rw [hs]
    refine stacks_set (fun j st hj _ => inv.okF j st hj) ?_
    intro a ha
    rcases List.mem_cons.1 ha with rfl | ha
    · exact hok
    · exact inv.okF i _ hi a ha

/-- the innermost call of a thread makes a step -/
theorem inv_top {s s' : Sys} (inv : Inv ok nests home s) {i : Nat} {f : Frame} {rest : List Frame} {op' : Op}
    (hi : s.threads[i]? = some (f :: rest))
    (hs : s'.threads = s.threads.set i ({ f with op := op' } :: rest))
    (hw : s'.table.WF) (hT : ∀ id', id' ≠ f.id → count s'.table id' = count s.table id')
    (hT' : f.op.holds = false → s'.table = s.table)
    (hsend : op'.send = true → f.op.send = true)
    (hmut : ∀ i j ex, holdsLock s' i ex → holdsLock s' j ex → i = j)
    (hloc : Loc s'.table { f with op := op' }) (hok : OkFrame ok { f with op := op' })
    (hL : ∀ r ∈ s'.live, r.1 = home r.2)
    (hb : ∀ id, count s'.table id + frames s' id Op.mid = liveN s' id + frames s' id Op.fin + lostN s' id) :
    Inv ok nests home s' where
  wf := hw
  bal := hb
  mutex := hmut
  tail := by
    rw [hs]
    intro j f' rest' hj
    have := stacks_set (P := fun st => ∀ f rest, st = f :: rest → ∀ g ∈ rest, g.op = .sendSent) (i := i)
      (fun j st hj _ f rest e => inv.tail j f rest (e ▸ hj)) (y := { f with op := op' } :: rest)
      (by intro f' rest' e; cases e; exact inv.tail i f rest hi) j _ hj
    exact this f' rest' rfl
  chain := by
    have hc := inv.chain i f rest hi
    rw [hs]
    intro j f' rest' hj
    have := stacks_set (P := fun st => ∀ f rest, st = f :: rest → (f.op.send = true → ∀ g ∈ rest, nests g.ex) ∧
      ∀ g rest', rest = g :: rest' → ∀ g' ∈ rest', nests g'.ex) (i := i)
      (fun j st hj _ f rest e => inv.chain j f rest (e ▸ hj)) (y := { f with op := op' } :: rest)
      (by intro f' rest' e; cases e; exact ⟨fun h => hc.1 (hsend h), hc.2⟩) j _ hj
    exact this f' rest' rfl
  homeF := by
    rw [hs]
    refine stacks_set (fun j st hj _ => inv.homeF j st hj) ?_
    intro a ha
    rcases List.mem_cons.1 ha with rfl | ha
    · exact inv.homeF i _ hi f (by simp)
    · exact inv.homeF i _ hi a (by simp [ha])
  homeL := hL
  loc := by
    rw [hs]
    refine stacks_set (fun j st hj hji => ?_) ?_
    · cases hfh : f.op.holds with
      | true => exact loc_of_other inv hi hfh hT hj hji
      | false => rw [hT' hfh]; exact inv.loc j st hj
    · intro a ha
      rcases List.mem_cons.1 ha with rfl | ha
      · exact hloc
      · have := inv.tail i f rest hi a ha
        simp [Loc, this]
  okF := by
    rw [hs]
    refine stacks_set (fun j st hj _ => inv.okF j st hj) ?_
    intro a ha
    rcases List.mem_cons.1 ha with rfl | ha
    · exact hok
    · exact inv.okF i _ hi a (by simp [ha])

theorem mem_erase_home {l : List (Nat × String)} {r0 : Nat × String} (h : ∀ r ∈ l, r.1 = home r.2) :
    ∀ r ∈ l.erase r0, r.1 = home r.2 := fun r hr => h r (List.mem_of_mem_erase hr)

theorem mutex_top {s s' : Sys} {i : Nat} {f : Frame} {rest : List Frame} {op' : Op}
    (hm : ∀ i j ex, holdsLock s i ex → holdsLock s j ex → i = j)
    (hi : s.threads[i]? = some (f :: rest)) (hs : s'.threads = s.threads.set i ({ f with op := op' } :: rest))
    (hf : f.op.holds = true) : ∀ a b ex, holdsLock s' a ex → holdsLock s' b ex → a = b := by
  refine mutex_set hm hi hs ?_
  intro a ha hah
  rcases List.mem_cons.1 ha with rfl | ha
  · exact ⟨f, by simp, rfl, hf⟩
  · exact ⟨a, by simp [ha], rfl, hah⟩

theorem inv_step (hhome : ∀ ex id m, ok ex id m → ex = home id) {s s' : Sys} (inv : Inv ok nests home s)
    (h : Step ok nests s s') : Inv ok nests home s' := by
  cases h with
  | spawn h =>
    rename_i ex id m
    refine inv_new inv (g := ⟨ex, id, .sendWait m⟩) rfl rfl rfl (hhome _ _ _ h) h inv.homeL ?_
    intro id'
    rw [frames_new (s := s) id' Op.fin rfl, frames_new (s := s) id' Op.mid rfl]
    simp [Op.fin, Op.mid, liveN, lostN]
  | nest h hi hf hn =>
    rename_i i f rest ex id m
    refine inv_push inv hi hf (g := ⟨ex, id, .sendWait m⟩) rfl (fun _ => hn) rfl rfl (hhome _ _ _ h) h inv.homeL ?_
    intro id'
    rw [frames_push hi id' Op.fin rfl, frames_push hi id' Op.mid rfl]
    simp [Op.fin, Op.mid, liveN, lostN]
  | acquire hi h hl =>
    rename_i i f rest op'
    have hnh : f.op.holds = false := by generalize f.op = o at h ⊢; cases h <;> rfl
    refine inv_top inv hi rfl inv.wf (fun _ _ => rfl) (fun _ => rfl) ?_ ?_ ?_ ?_ inv.homeL ?_
    · generalize f.op = o at h ⊢; cases h <;> simp [Op.send]
    · intro a b ex ha hb
      rw [holdsLock_set hi rfl] at ha hb
      have key : ∀ j, j ≠ i → holdsLock s j ex → (∃ g ∈ ({ f with op := op' } : Frame) :: rest, g.ex = ex ∧ g.op.holds = true) → False := by
        rintro j hj hjl ⟨g, hg, hge, hgh⟩
        rcases List.mem_cons.1 hg with rfl | hg
        · simp only at hge; subst hge; exact hl j hj hjl
        · exact hj (inv.mutex j i ex hjl ⟨_, hi, g, by simp [hg], hge, hgh⟩)
      split at ha <;> split at hb
      · subst_vars; rfl
      · exact (key b (by assumption) hb ha).elim
      · exact (key a (by assumption) ha hb).elim
      · exact inv.mutex a b ex ha hb
    · unfold Loc; generalize f.op = o at h; cases h <;> simp
    · have := inv.okF i _ hi f (by simp)
      unfold OkFrame at this ⊢
      generalize f.op = o at h this; cases h <;> simp_all
    · intro id'
      have h1 := frames_top hi id' Op.mid (s' := { s with threads := s.threads.set i ({ f with op := op' } :: rest) }) rfl
      have h2 := frames_top hi id' Op.fin (s' := { s with threads := s.threads.set i ({ f with op := op' } :: rest) }) rfl
      have h3 := inv.bal id'
      generalize f.op = o at h h1 h2
      simp only [liveN, lostN] at h3 ⊢
      cases h <;> simp [Op.mid, Op.fin] at h1 h2 <;> omega
  | move hi h =>
    rename_i i f rest op' T'
    have hfl := inv.loc i _ hi f (by simp)
    have ho := h.own (ex := f.ex) inv.wf hfl
    refine inv_top inv hi rfl (h.wf inv.wf) (fun id' hne => h.other inv.wf hne) ?_ h.send ?_ ho.2 ?_ inv.homeL ?_
    · intro hh; rw [h.holds] at hh; simp at hh
    · exact mutex_top inv.mutex hi rfl h.holds
    · have := inv.okF i _ hi f (by simp)
      unfold OkFrame at this ⊢
      generalize f.op = o at h this; cases h <;> simp_all
    · intro id'
      have h1 := frames_top hi id' Op.mid (s' := { s with table := T', threads := s.threads.set i ({ f with op := op' } :: rest) }) rfl
      have h2 := frames_top hi id' Op.fin (s' := { s with table := T', threads := s.threads.set i ({ f with op := op' } :: rest) }) rfl
      have h3 := inv.bal id'
      have h4 := ho.1
      simp only [liveN, lostN] at h3 ⊢
      by_cases hid : f.id = id'
      · subst hid
        simp only [true_and] at h1 h2
        generalize frames _ f.id Op.mid = x1 at h1 h3 ⊢
        generalize frames _ f.id Op.fin = x2 at h2 h3 ⊢
        generalize frames _ f.id Op.mid = x3 at h1 h3 ⊢
        generalize frames _ f.id Op.fin = x4 at h2 h3 ⊢
        generalize f.op.mid = b1 at *
        generalize f.op.fin = b2 at *
        generalize op'.mid = b3 at *
        generalize op'.fin = b4 at *
        cases b1 <;> cases b2 <;> cases b3 <;> cases b4 <;> simp at h1 h2 h4 <;> omega
      · simp only [hid, false_and, if_false, Nat.add_zero] at h1 h2
        rw [h1, h2, h.other inv.wf (fun e => hid e.symm)]
        exact h3
  | submit hi h =>
    rename_i i f rest m
    refine inv_top inv hi rfl inv.wf (fun _ _ => rfl) (fun _ => rfl) ?_ ?_ trivial trivial ?_ ?_
    · intro _; rw [h]; rfl
    · exact mutex_top inv.mutex hi rfl (by rw [h]; rfl)
    · intro r hr
      rcases List.mem_cons.1 hr with rfl | hr
      · exact inv.homeF i _ hi f (by simp)
      · exact inv.homeL r hr
    · intro id'
      have h1 := frames_top hi id' Op.mid (op' := .sendSent) (s' := { s with threads := s.threads.set i ({ f with op := .sendSent } :: rest), live := (f.ex, f.id) :: s.live }) rfl
      have h2 := frames_top hi id' Op.fin (op' := .sendSent) (s' := { s with threads := s.threads.set i ({ f with op := .sendSent } :: rest), live := (f.ex, f.id) :: s.live }) rfl
      have h3 := inv.bal id'
      simp only [liveN, lostN, List.countP_cons, beq_iff_eq] at h3 ⊢
      rw [h] at h1 h2
      simp only [Op.mid, Op.fin, and_true, and_false, if_false, Nat.add_zero, Bool.false_eq_true] at h1 h2
      split at h1 <;> simp_all <;> omega
  | abort hi h hn hl =>
    rename_i i f rest
    refine inv_top inv hi rfl inv.wf (fun _ _ => rfl) (fun _ => rfl) ?_ ?_ trivial trivial (mem_erase_home inv.homeL) ?_
    · intro hh; simp [Op.send] at hh
    · exact mutex_top inv.mutex hi rfl (by rw [h]; rfl)
    · intro id'
      have h1 := frames_top hi id' Op.mid (op' := .done) (s' := { s with threads := s.threads.set i ({ f with op := .done } :: rest), live := s.live.erase (f.ex, f.id) }) rfl
      have h2 := frames_top hi id' Op.fin (op' := .done) (s' := { s with threads := s.threads.set i ({ f with op := .done } :: rest), live := s.live.erase (f.ex, f.id) }) rfl
      have h3 := inv.bal id'
      have h4 := liveN_erase hl id' (s' := { s with threads := s.threads.set i ({ f with op := .done } :: rest), live := s.live.erase (f.ex, f.id) }) rfl
      rw [h] at h1 h2
      simp only [Op.mid, Op.fin, and_true, and_false, if_false, Nat.add_zero, Bool.false_eq_true] at h1 h2
      simp only [lostN] at h3 ⊢
      split at h1 <;> split at h4 <;> first | contradiction | omega
  | release hi h =>
    rename_i i f rest
    have hc := inv.chain i f rest hi
    have ht := inv.tail i f rest hi
    refine ⟨inv.wf, ?_, ?_, ?_, ?_, ?_, inv.homeL, ?_, ?_⟩
    · intro id'
      have h1 := frames_pop hi id' Op.mid (s' := { s with threads := s.threads.set i rest }) rfl
      have h2 := frames_pop hi id' Op.fin (s' := { s with threads := s.threads.set i rest }) rfl
      have h3 := inv.bal id'
      rw [h] at h1 h2
      simp [Op.mid, Op.fin] at h1 h2
      simp only [liveN, lostN] at h3 ⊢
      omega
    · exact mutex_set inv.mutex hi rfl (fun a ha hah => ⟨a, by simp [ha], rfl, hah⟩)
    · intro j f' rest' hj
      have := stacks_set (P := fun st => ∀ f rest, st = f :: rest → ∀ g ∈ rest, g.op = .sendSent) (i := i)
        (fun j st hj _ f rest e => inv.tail j f rest (e ▸ hj)) (y := rest)
        (by intro f' rest' e g hg; exact ht g (by rw [e]; simp [hg])) j _ hj
      exact this f' rest' rfl
    · intro j f' rest' hj
      have := stacks_set (P := fun st => ∀ f rest, st = f :: rest → (f.op.send = true → ∀ g ∈ rest, nests g.ex) ∧
        ∀ g rest', rest = g :: rest' → ∀ g' ∈ rest', nests g'.ex) (i := i)
        (fun j st hj _ f rest e => inv.chain j f rest (e ▸ hj)) (y := rest)
        (by
          intro f' rest' e
          refine ⟨fun _ => hc.2 f' rest' e, ?_⟩
          intro g rest'' e' g' hg'
          exact hc.2 f' rest' e g' (by rw [e']; simp [hg'])) j _ hj
      exact this f' rest' rfl
    · exact stacks_set (fun j st hj _ => inv.homeF j st hj) (fun a ha => inv.homeF i _ hi a (by simp [ha]))
    · exact stacks_set (fun j st hj _ => inv.loc j st hj) (fun a ha => inv.loc i _ hi a (by simp [ha]))
    · exact stacks_set (fun j st hj _ => inv.okF j st hj) (fun a ha => inv.okF i _ hi a (by simp [ha]))
  | ends hl =>
    rename_i ex id
    refine inv_new inv (g := ⟨ex, id, .finWait⟩) rfl rfl rfl (inv.homeL _ hl) trivial (mem_erase_home inv.homeL) ?_
    intro id'
    have h4 := liveN_erase hl id' (s' := { s with threads := s.threads ++ [[⟨ex, id, .finWait⟩]], live := s.live.erase (ex, id) }) rfl
    rw [frames_new (s := s) id' Op.fin rfl, frames_new (s := s) id' Op.mid rfl]
    simp only [lostN, Op.fin, Op.mid, and_true, and_false, if_false, Nat.add_zero, Bool.false_eq_true] at h4 ⊢
    split at h4 <;> simp_all <;> omega
  | endsInline hi h hl =>
    rename_i i f rest
    refine inv_push inv hi h (g := ⟨f.ex, f.id, .finWait⟩) rfl (by simp [Op.send]) rfl rfl (inv.homeL _ hl) trivial
      (mem_erase_home inv.homeL) ?_
    intro id'
    have h4 := liveN_erase hl id' (s' := { s with threads := s.threads.set i (⟨f.ex, f.id, .finWait⟩ :: f :: rest), live := s.live.erase (f.ex, f.id) }) rfl
    rw [frames_push hi id' Op.fin rfl, frames_push hi id' Op.mid rfl]
    simp only [lostN, Op.fin, Op.mid, and_true, and_false, if_false, Nat.add_zero, Bool.false_eq_true] at h4 ⊢
    split at h4 <;> simp_all <;> omega
  | cancelled hl =>
    rename_i ex id
    refine ⟨inv.wf, ?_, inv.mutex, inv.tail, inv.chain, inv.homeF, mem_erase_home inv.homeL, inv.loc, inv.okF⟩
    intro id'
    have h4 := liveN_erase hl id' (s' := { s with live := s.live.erase (ex, id), lost := id :: s.lost }) rfl
    have h3 := inv.bal id'
    simp only [lostN, List.count_cons, beq_iff_eq, frames] at h3 h4 ⊢
    split at h4 <;> split <;> first | contradiction | omega

theorem inv_reach (hhome : ∀ ex id m, ok ex id m → ex = home id) {s : Sys} (h : Reach ok nests s) :
    Inv ok nests home s := by
  induction h with
  | init => exact inv_init
  | step _ hs ih => exact inv_step hhome ih hs

/-- A task that is about to be submitted by an executor that does not nest: nobody else is submitting it. -/
theorem no_mid {s : Sys} (inv : Inv ok nests home s) {i : Nat} {f : Frame} {rest : List Frame} {m : Int}
    (hi : s.threads[i]? = some (f :: rest)) (hf : f.op = .sendDo m) (hn : ¬ nests f.ex) :
    frames s f.id Op.mid = 0 := by
  unfold frames
  rw [List.countP_eq_zero]
  intro g hg hgm
  simp only [isAt, Bool.and_eq_true, beq_iff_eq] at hgm
  obtain ⟨st, hst, hg⟩ := List.mem_flatten.1 hg
  obtain ⟨j, hj⟩ := List.mem_iff_getElem?.1 hst
  have hex : g.ex = f.ex := by rw [inv.homeF j st hj g hg, inv.homeF i _ hi f (by simp), hgm.1]
  have hgh : g.op.holds = true := by
    generalize g.op = o at hgm; revert hgm; cases o <;> simp [Op.mid, Op.holds]
  have hji := inv.mutex j i f.ex ⟨st, hj, g, hg, hex, hgh⟩ ⟨_, hi, f, by simp, rfl, by rw [hf]; rfl⟩
  subst hji
  rw [hi] at hj
  simp only [Option.some.injEq] at hj
  subst hj
  rcases List.mem_cons.1 hg with rfl | hg
  · rw [hf] at hgm; simp [Op.mid] at hgm
  · have := (inv.chain j f rest hi).1 (by rw [hf]; rfl) g hg
    rw [hex] at this
    exact hn this

end Exec
end Asyncz
