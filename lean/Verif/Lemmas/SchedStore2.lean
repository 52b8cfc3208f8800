import Verif.Lemmas.SchedStore
import Verif.Props.Persist
/-!
# SQL, MongoDB and mixed stores are lawful stores

So that the scheduler theorems hold for schedulers with these stores.  The `FileStore` (which rejects some ids) and
the `RedisStore` (which never finds run times before 1970 due) are not lawful in this sense; for them see SchedStore3 and
Props/BuiltinStores.
-/
namespace Asyncz
namespace Persist
variable {β : Type}
namespace Rows

/-- `SQLAlchemyStore` (sqlalchemy.py:60-171) and `MongoDBStore` (mongo.py:54-149) differ only in how they list.
`shutdown` (sqlalchemy.py:66-68, mongo.py:151-153) closes the connection and keeps the data.
Simplification: a task that cannot be serialised raises; here `ok` stands for that, and `lawful` assumes that it
does not happen. -/
def ops (c : Codec β) (due : Codec β → Table → Int → List (Task β)) (all : Codec β → Table → List (Task β)) :
    StoreOps Table β where
  init := []
  lookup := lookupTask c
  due := due c
  nextRun := nextRunTime
  all := all c
  step := fun tb op => match step c id tb op with
    | (tb', .res r) => (tb', r)
    | (tb', _) => (tb', .ok)
  close := fun tb => tb

/-- `SQLAlchemyStore` -/
abbrev sqlOps (c : Codec β) : StoreOps Table β := ops c sqlDue sqlAll
/-- `MongoDBStore` -/
abbrev mongoOps (c : Codec β) : StoreOps Table β := ops c mongoDue mongoAll

theorem opOk_of_total {c : Codec β} (hc : ∀ t, (c.enc t).isSome) (op : StoreOp β) : Redis.OpOk c op := by
  cases op <;> simp [Redis.OpOk, hc]

theorem ops_step {c : Codec β} (hc : ∀ t, (c.enc t).isSome) {tb : Table} (h : Inv c id tb) (op : StoreOp β)
    (due : Codec β → Table → Int → List (Task β)) (all : Codec β → Table → List (Task β)) :
    Inv c id ((ops c due all).step tb op).1 ∧
    (toMap c ((ops c due all).step tb op).1, ((ops c due all).step tb op).2) = specStep false (toMap c tb) op := by
  obtain ⟨h1, h2, h3⟩ := step_ok h op (opOk_of_total hc op)
  simp only [ops]
  cases hs : step c id tb op with
  | mk tb' o =>
    rw [hs] at h1 h2 h3
    simp only at h1 h2 h3
    subst h3
    exact ⟨h1, by rw [h2]⟩

theorem toMap_nil' (c : Codec β) : toMap c [] = AMap.empty := by
  funext i; simp [toMap, lookupTask, Dict.get?, AMap.empty]

theorem lists_due {c : Codec β} {tb : Table} (h : Inv c id tb) (now : Int)
    {l : List (String × Option Int × Bytes)} (hp : l.Perm (tb.filter (dueRow now))) :
    Lists (toMap c tb) (Due now) (rebuild c l) := by
  refine Lists.perm ?_ (rebuild_perm c hp)
  rw [rebuild_due h now]
  refine (Lists.filter (rebuild_lists h) _).congr ?_
  intro t; unfold Due; cases hn : t.nrt <;> simp

/-- `SQLAlchemyStore` behaves like a map, if every task can be serialised -/
def sqlLawful (c : Codec β) (hc : ∀ t, (c.enc t).isSome) : LawfulStore (sqlOps c) where
  Inv := Inv c id
  toMap := toMap c
  upsert := fun _ => false
  init_inv := inv_nil c id
  init_map := toMap_nil' c
  key := fun h hm => h.toMap_id _ _ hm
  lookup := fun _ _ => rfl
  due := fun h now => lists_due h now (sortBy_perm _ _)
  nextRun := fun h => next_earliest h
  all := fun h => (rebuild_lists h).perm (rebuild_perm c (sortBy_perm _ _))
  close_inv := fun h => h
  step_inv := fun h op => (ops_step hc h op _ _).1
  step_map := fun h op => (ops_step hc h op _ _).2

/-- `MongoDBStore` behaves like a map, if every task can be serialised -/
def mongoLawful (c : Codec β) (hc : ∀ t, (c.enc t).isSome) : LawfulStore (mongoOps c) where
  Inv := Inv c id
  toMap := toMap c
  upsert := fun _ => false
  init_inv := inv_nil c id
  init_map := toMap_nil' c
  key := fun h hm => h.toMap_id _ _ hm
  lookup := fun _ _ => rfl
  due := fun h now => lists_due h now (sortBy_perm _ _)
  nextRun := fun h => next_earliest h
  all := fun h => Lists.perm ((rebuild_lists h).perm (rebuild_perm c (sortBy_perm _ _))) (fixPaused_perm _)
  close_inv := fun h => h
  step_inv := fun h op => (ops_step hc h op _ _).1
  step_map := fun h op => (ops_step hc h op _ _).2

end Rows
end Persist

/-! ### Several kinds of stores in one scheduler -/
section Sum
variable {σ σ' β : Type}

/-- A store of either kind; new default stores are of the first kind (schedulers/base.py:1339-1343 creates a `MemoryStore`). -/
def StoreOps.sum (O : StoreOps σ β) (O' : StoreOps σ' β) : StoreOps (σ ⊕ σ') β where
  init := .inl O.init
  lookup := Sum.elim O.lookup O'.lookup
  due := Sum.elim O.due O'.due
  nextRun := Sum.elim O.nextRun O'.nextRun
  all := Sum.elim O.all O'.all
  step := fun s op => match s with
    | .inl s => (.inl (O.step s op).1, (O.step s op).2)
    | .inr s => (.inr (O'.step s op).1, (O'.step s op).2)
  close := Sum.map O.close O'.close

/-- Stores of two lawful kinds make a lawful kind. -/
def LawfulStore.sum {O : StoreOps σ β} {O' : StoreOps σ' β} (L : LawfulStore O) (L' : LawfulStore O') :
    LawfulStore (O.sum O') where
  Inv := Sum.elim L.Inv L'.Inv
  toMap := Sum.elim L.toMap L'.toMap
  upsert := Sum.elim L.upsert L'.upsert
  init_inv := L.init_inv
  init_map := L.init_map
  key := by
    intro s i t h h'
    cases s with
    | inl s => exact L.key h h'
    | inr s => exact L'.key h h'
  lookup := by
    intro s h i
    cases s with
    | inl s => exact L.lookup h i
    | inr s => exact L'.lookup h i
  due := by
    intro s h i
    cases s with
    | inl s => exact L.due h i
    | inr s => exact L'.due h i
  nextRun := by
    intro s h
    cases s with
    | inl s => exact L.nextRun h
    | inr s => exact L'.nextRun h
  all := by
    intro s h
    cases s with
    | inl s => exact L.all h
    | inr s => exact L'.all h
  close_inv := by
    intro s h
    cases s with
    | inl s => exact L.close_inv h
    | inr s => exact L'.close_inv h
  step_inv := by
    intro s h op
    cases s with
    | inl s => exact L.step_inv h op
    | inr s => exact L'.step_inv h op
  step_map := by
    intro s h op
    cases s with
    | inl s => exact L.step_map h op
    | inr s => exact L'.step_map h op

end Sum

/-! ### A codec that meets the assumptions of `Codec` -/
namespace Persist
variable {α γ : Type}

/-- a self-delimiting encoding -/
structure Prefixed (α : Type) where
  enc : α → Bytes
  dec : Bytes → Option (α × Bytes)
  dec_enc : ∀ a r, dec (enc a ++ r) = some (a, r)
  short : ∀ a n, n < (enc a).length → dec ((enc a).take n) = none

namespace Prefixed

/-- numbers in unary: so many ones, then a zero -/
def decNat : Bytes → Option (Nat × Bytes)
  | [] => none
  | 0 :: r => some (0, r)
  | _ :: r => (decNat r).map fun p => (p.1 + 1, p.2)

theorem decNat_one (r : Bytes) : decNat (1 :: r) = (decNat r).map fun p => (p.1 + 1, p.2) := by
  rw [decNat]; decide

def nat : Prefixed Nat where
  enc n := List.replicate n 1 ++ [0]
  dec := decNat
  dec_enc n r := by
    induction n with
    | zero => rfl
    | succ n ih => rw [List.replicate_succ, List.cons_append, List.cons_append, decNat_one, ih]; rfl
  short a n h := by
    induction a generalizing n with
    | zero =>
      have : n = 0 := by simp at h; omega
      subst this; rfl
    | succ a ih =>
      cases n with
      | zero => rfl
      | succ n =>
        rw [List.replicate_succ, List.cons_append, List.take_succ_cons, decNat_one, ih n (by simp at h ⊢; omega)]
        rfl

def prod (p : Prefixed α) (q : Prefixed γ) : Prefixed (α × γ) where
  enc x := p.enc x.1 ++ q.enc x.2
  dec b := (p.dec b).bind fun x => (q.dec x.2).map fun y => ((x.1, y.1), y.2)
  dec_enc x r := by rw [List.append_assoc, p.dec_enc]; simp [q.dec_enc]
  short x n h := by
    by_cases hn : n < (p.enc x.1).length
    · rw [List.take_append_of_le_length (by omega), p.short _ _ hn]; rfl
    · rw [List.take_append, List.take_of_length_le (by omega), p.dec_enc]
      simp only [List.length_append] at h
      simp [q.short x.2 (n - (p.enc x.1).length) (by omega)]

/-- along an injection with a left inverse -/
def via (p : Prefixed γ) (f : α → γ) (g : γ → Option α) (hg : ∀ a, g (f a) = some a) : Prefixed α where
  enc a := p.enc (f a)
  dec b := (p.dec b).bind fun x => (g x.1).map fun a => (a, x.2)
  dec_enc a r := by rw [p.dec_enc]; simp [hg]
  short a n h := by rw [p.short _ _ h]; rfl

/-- so many values one after the other -/
def encAll (p : Prefixed α) : List α → Bytes
  | [] => []
  | a :: l => p.enc a ++ encAll p l

def decAll (p : Prefixed α) : Nat → Bytes → Option (List α × Bytes)
  | 0, b => some ([], b)
  | n + 1, b => (p.dec b).bind fun x => (decAll p n x.2).map fun y => (x.1 :: y.1, y.2)

theorem decAll_encAll (p : Prefixed α) (l : List α) (r : Bytes) : decAll p l.length (encAll p l ++ r) = some (l, r) := by
  induction l with
  | nil => rfl
  | cons a l ih => simp only [encAll, List.length_cons, decAll]; rw [List.append_assoc, p.dec_enc]; simp [ih]

theorem decAll_short (p : Prefixed α) (l : List α) (n : Nat) (h : n < (encAll p l).length) :
    decAll p l.length ((encAll p l).take n) = none := by
  induction l generalizing n with
  | nil => simp [encAll] at h
  | cons a l ih =>
    simp only [encAll, List.length_cons, decAll] at h ⊢
    by_cases hn : n < (p.enc a).length
    · rw [List.take_append_of_le_length (by omega), p.short _ _ hn]; rfl
    · rw [List.take_append, List.take_of_length_le (by omega), p.dec_enc]
      simp only [List.length_append] at h
      simp [ih (n - (p.enc a).length) (by omega)]

def list (p : Prefixed α) : Prefixed (List α) where
  enc l := nat.enc l.length ++ encAll p l
  dec b := (nat.dec b).bind fun x => decAll p x.1 x.2
  dec_enc l r := by rw [List.append_assoc, nat.dec_enc]; exact decAll_encAll p l r
  short l n h := by
    by_cases hn : n < (nat.enc l.length).length
    · rw [List.take_append_of_le_length (by omega), nat.short _ _ hn]; rfl
    · rw [List.take_append, List.take_of_length_le (by omega), nat.dec_enc]
      simp only [List.length_append] at h
      exact decAll_short p l (n - (nat.enc l.length).length) (by omega)

def bool : Prefixed Bool := nat.via (fun b => if b then 1 else 0) (fun n => some (n == 1)) (by intro a; cases a <;> rfl)

def int : Prefixed Int := (bool.prod nat).via (fun i => match i with | .ofNat n => (true, n) | .negSucc n => (false, n))
  (fun x => some (if x.1 then .ofNat x.2 else .negSucc x.2)) (by intro a; cases a <;> rfl)

def option (p : Prefixed α) : Prefixed (Option α) := p.list.via Option.toList (fun l => some l.head?) (by intro a; cases a <;> rfl)

def char : Prefixed Char := nat.via Char.toNat (fun n => some (Char.ofNat n)) (by intro a; simp [Char.ofNat_toNat])

def string : Prefixed String := char.list.via String.toList (fun l => some (String.ofList l)) (by intro a; simp)

/-- the codec of a self-delimiting encoding: the whole input must be used -/
def codec {β : Type} (p : Prefixed (Task β)) : Codec β where
  enc t := some (p.enc t)
  dec b := match p.dec b with
    | some (t, []) => some t
    | _ => none
  dec_enc t b h := by
    cases h
    have := p.dec_enc t []
    rw [List.append_nil] at this
    rw [this]
  dec_prefix t b n h hn := by cases h; rw [p.short t n hn]

/-- tasks with bodies of type `β` -/
def task {β : Type} (p : Prefixed β) : Prefixed (Task β) := (string.prod (int.option.prod p)).via
  (fun t => (t.id, t.nrt, t.body)) (fun x => some ⟨x.1, x.2.1, x.2.2⟩) (by intro a; rfl)

end Prefixed
end Persist
end Asyncz
