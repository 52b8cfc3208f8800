import Verif.Model.Remote
/-!
# What a remote call should do

The same as the call on the worker's scheduler, up to what JSON does to the values that cross the boundary.
-/
namespace Asyncz
namespace Remote
variable {σ γ : Type}

/-- The library functions used at the boundary do not lose anything. -/
structure Codec.Lawful (C : Codec γ) : Prop where
  pyd : ∀ w, C.parse (C.pyd w) = some w
  unpickle : ∀ g, C.unpickle (C.pickle g) = some g
  pickle : ∀ g, C.pickle g ≠ ""

/-- The value on the other side of a JSON boundary: a tuple arrives as a list, a datetime as its text, an enum member as
its value, and everything else as it was. -/
inductive Sent (iso : When → String) : Val → Val → Prop
  | none : Sent iso .none .none
  | bool (b) : Sent iso (.bool b) (.bool b)
  | int (n) : Sent iso (.int n) (.int n)
  | float (x) : Sent iso (.float x) (.float x)
  | str (s) : Sent iso (.str s) (.str s)
  | datetime (w) : Sent iso (.datetime w) (.str (iso w))
  | enum (v) : Sent iso (.enum v) (.str v)
  | model (j : Json) : Sent iso (.model (some j)) j.py
  | tupleNil : Sent iso (.tuple []) (.list [])
  | tupleCons {v v' xs ys} (h : Sent iso v v') (hs : Sent iso (.tuple xs) (.list ys)) :
      Sent iso (.tuple (v :: xs)) (.list (v' :: ys))
  | listNil : Sent iso (.list []) (.list [])
  | listCons {v v' xs ys} (h : Sent iso v v') (hs : Sent iso (.list xs) (.list ys)) :
      Sent iso (.list (v :: xs)) (.list (v' :: ys))
  | dictNil : Sent iso (.dict []) (.dict [])
  | dictCons {k v v' xs ys} (h : Sent iso v v') (hs : Sent iso (.dict xs) (.dict ys)) :
      Sent iso (.dict ((k, v) :: xs)) (.dict ((k, v') :: ys))

/-- Values that JSON represents exactly. -/
inductive Plain : Val → Prop
  | none : Plain .none
  | bool (b) : Plain (.bool b)
  | int (n) : Plain (.int n)
  | float (x) : Plain (.float x)
  | str (s) : Plain (.str s)
  | list {xs} (h : ∀ v ∈ xs, Plain v) : Plain (.list xs)
  | dict {kv} (h : ∀ p ∈ kv, Plain p.2) : Plain (.dict kv)

/-- A snapshot on the other side: the same except for the arguments, which have crossed the JSON boundary. -/
def Info.Sent (C : Codec γ) (i i' : Info) : Prop :=
  Remote.Sent C.pyd (.list i.args) (.list i'.args) ∧ Remote.Sent C.pyd (.dict i.kwargs) (.dict i'.kwargs) ∧
  i' = { i with args := i'.args, kwargs := i'.kwargs }

/-- Snapshots one by one. -/
inductive Infos.Sent (C : Codec γ) : List Info → List Info → Prop
  | nil : Infos.Sent C [] []
  | cons {i i' l l'} (h : Info.Sent C i i') (hs : Infos.Sent C l l') : Infos.Sent C (i :: l) (i' :: l')

/-- A result on the other side. -/
inductive Ret.Sent (C : Codec γ) : Ret → Ret → Prop
  | info (j) : Ret.Sent C (.info j) (.info j)
  | instances (l) : Ret.Sent C (.instances l) (.instances l)
  | infos {l l'} (h : Infos.Sent C l l') : Ret.Sent C (.infos l) (.infos l')
  | gone : Ret.Sent C (.task none) (.task none)
  | task {i i'} (h : Info.Sent C i i') : Ret.Sent C (.task (some i)) (.task (some i'))
  | noPreview : Ret.Sent C (.preview none) (.preview none)
  | preview {p p' : Preview} (h : Info.Sent C p.task p'.task) (he : p' = { p with task := p'.task }) :
      Ret.Sent C (.preview (some p)) (.preview (some p'))
  | done : Ret.Sent C .done .done

/-- The call made directly on the scheduler. -/
def direct (A : Api σ γ) (op : Op γ) (s : σ) : Except Exc Ret × σ :=
  match op with
  | .info => let r := A.info s; (r.1.map .info, r.2)
  | .instances => let r := A.instances s; (r.1.map .instances, r.2)
  | .infos f => let r := A.infos f s; (r.1.map .infos, r.2)
  | .detail id store => let r := A.detail id store s; (r.1.map .task, r.2)
  | .preview id store count now => let r := A.preview id store count now s; (r.1.map .preview, r.2)
  | .add a => let r := A.add a s; (r.1.map fun i => .task (some i), r.2)
  | .update id store u => let r := A.update id store u s; (r.1.map fun i => .task (some i), r.2)
  | .run id store force rf => let r := A.run id store force rf s; (r.1.map .task, r.2)
  | .pause id store => let r := A.pause id store s; (r.1.map fun i => .task (some i), r.2)
  | .resume id store => let r := A.resume id store s; (r.1.map .task, r.2)
  | .remove id store => let r := A.remove id store s; (r.1.map fun _ => .done, r.2)

/-- A task id that fits into one segment of a path. -/
def GoodId (id : String) : Prop := id ≠ "" ∧ '/' ∉ id.toList

/-- An optional argument that is not an empty string. -/
def NotBlank (x : Option String) : Prop := x ≠ some ""

/-- The calls that reach the worker as they are: ids without a slash, filters that are not empty texts, no `now` for a
preview, no explicit `None` for a new task, and no trigger arguments beside a trigger object. -/
def Op.Sendable : Op γ → Prop
  | .info | .instances => True
  | .infos f => NotBlank f.store ∧ NotBlank f.state ∧ NotBlank f.executor ∧ NotBlank f.trigger ∧ NotBlank f.q ∧
      f.sortBy ≠ ""
  | .detail id store => GoodId id ∧ NotBlank store
  | .preview id store _ now => GoodId id ∧ NotBlank store ∧ now = none
  | .add a => a.grace ≠ some .none ∧ a.coalesce ≠ some .none ∧ a.maxInst ≠ some .none ∧ a.nextRun ≠ some .none ∧
      (∀ g, a.trigger = .object g → a.trigArgs = [])
  | .update id _ _ | .run id _ _ _ | .pause id _ | .resume id _ | .remove id _ => GoodId id

/-- An optional argument on the other side. -/
def OptSent (C : Codec γ) : Option Val → Option Val → Prop
  | none, none => True
  | some v, some v' => Remote.Sent C.iso v v'
  | _, _ => False

/-- The call that the worker makes for a call of the client: the same, with JSON-crossed arguments. -/
inductive Op.Sent (C : Codec γ) : Op γ → Op γ → Prop
  | add {a b : Add γ} (hargs : Remote.Sent C.iso (.list a.args) (.list b.args))
      (hkwargs : Remote.Sent C.iso (.dict a.kwargs) (.dict b.kwargs))
      (htrig : Remote.Sent C.iso (.dict a.trigArgs) (.dict b.trigArgs))
      (hgrace : OptSent C a.grace b.grace) (hco : OptSent C a.coalesce b.coalesce)
      (hmax : OptSent C a.maxInst b.maxInst) (hnext : OptSent C a.nextRun b.nextRun)
      (he : b = { a with args := b.args, kwargs := b.kwargs, trigArgs := b.trigArgs, grace := b.grace,
                         coalesce := b.coalesce, maxInst := b.maxInst, nextRun := b.nextRun }) :
      Op.Sent C (.add a) (.add b)
  | update (id : String) (store : Option String) {u u' : List (String × Val)}
      (h : Remote.Sent C.iso (.dict u) (.dict u')) : Op.Sent C (.update id store u) (.update id store u')
  | same (op : Op γ) (h : match op with | .add _ | .update _ _ _ => False | _ => True) : Op.Sent C op op

/-- The task a call is about. -/
def Op.id : Op γ → Option String
  | .info | .instances | .infos _ | .add _ => none
  | .detail id _ | .preview id _ _ _ | .update id _ _ | .run id _ _ _ | .pause id _ | .resume id _ | .remove id _ =>
    some id

/-- Calls whose exceptions the worker reports to the client. -/
def Op.Reported : Op γ → Prop
  | .info | .instances | .detail _ _ | .preview _ _ _ _ => False
  | _ => True

/-- the names of the exception classes that keep their type -/
def keptClasses : List String :=
  ["TaskLookupError", "SchedulerNotRunningError", "MaximumInstancesError", "ValueError"]

/-- The exception the client raises when the worker's scheduler raises `e`: a failed lookup, a stopped scheduler, too
many instances and `ValueError` keep their type and content; everything else becomes `RemoteSchedulerError` with the
same message. -/
inductive Translated (op : Op γ) : Exc → Exc → Prop
  | lookup (i : Option String) : Translated op (.lookup i) (.lookup op.id)
  | notRunning : Translated op .notRunning .notRunning
  | maxInst {id : String} (n : Int) (h : id ≠ "") : Translated op (.maxInst id n) (.maxInst id n)
  | maxInstBlank (n : Int) : Translated op (.maxInst "" n) (.maxInst "unknown" n)
  | value {m : String} (h : m ≠ "") : Translated op (.value m) (.value m)
  | valueBlank : Translated op (.value "") (.value "ValueError")
  | other {cls m : String} (h : m ≠ "") (hk : cls ∉ keptClasses) : Translated op (.other cls m) (.remote m)
  | otherBlank {cls m : String} (hk : cls ∉ keptClasses) : Translated op (.other cls "") (.remote m)
  | remote (m m' : String) (h : m ≠ "" → m' = m) : Translated op (.remote m) (.remote m')
  | badReply (m : String) : Translated op .badReply (.remote m)
  | unsendable (m : String) : Translated op .unsendable (.remote m)

/-- What the client gets for what the scheduler answered: the result; an error if the result cannot be turned into JSON; the
translated exception; or, where the worker does not catch exceptions, the complaint about an answer that is not JSON. -/
inductive Answered (C : Codec γ) (op : Op γ) : Except Exc Ret → Except Exc Ret → Prop
  | value {r r' : Ret} (h : Ret.Sent C r r') : Answered C op (.ok r) (.ok r')
  | undumpable {r : Ret} (h : ∀ r', ¬ Ret.Sent C r r') (e : Exc) : Answered C op (.ok r) (.error e)
  | error {e e' : Exc} (hr : op.Reported) (h : Translated op e e') : Answered C op (.error e) (.error e')
  | unreported {e : Exc} (hr : ¬ op.Reported) : Answered C op (.error e) (.error .badReply)

/-- An exception of another class does not have the name of one of the four. -/
def Exc.Honest : Exc → Prop
  | .other cls _ => cls ∉ keptClasses
  | _ => True

/-- No exception of the scheduler pretends to be another. -/
def Api.Honest (A : Api σ γ) : Prop := ∀ op s e, (direct A op s).1 = .error e → e.Honest

/-- The arguments of the call are values that JSON represents exactly. -/
def Op.Plain : Op γ → Prop
  | .add a => (∀ v ∈ a.args, Remote.Plain v) ∧ (∀ p ∈ a.kwargs, Remote.Plain p.2) ∧
      (∀ p ∈ a.trigArgs, Remote.Plain p.2) ∧
      ∀ v, a.grace = some v ∨ a.coalesce = some v ∨ a.maxInst = some v ∨ a.nextRun = some v → Remote.Plain v
  | .update _ _ u => ∀ p ∈ u, Remote.Plain p.2
  | _ => True

/-- The arguments of the task are values that JSON represents exactly. -/
def Info.Plain (i : Info) : Prop := (∀ v ∈ i.args, Remote.Plain v) ∧ ∀ p ∈ i.kwargs, Remote.Plain p.2

/-- The arguments of all tasks in a result are values that JSON represents exactly. -/
def Ret.Plain : Ret → Prop
  | .infos l => ∀ i ∈ l, i.Plain
  | .task (some i) => i.Plain
  | .preview (some p) => p.task.Plain
  | _ => True

/-- Results that arrive as they are: plain values, and for a call whose exceptions are reported a failed lookup of its own
task, a stopped scheduler, too many instances of a task and `ValueError` with a message. -/
def Exact (op : Op γ) : Except Exc Ret → Prop
  | .ok r => r.Plain
  | .error (.lookup i) => op.Reported ∧ i = op.id
  | .error .notRunning => op.Reported
  | .error (.maxInst id _) => op.Reported ∧ id ≠ ""
  | .error (.value m) => op.Reported ∧ m ≠ ""
  | _ => False

/-! ## Editing a proxy -/

/-- the value asked for, if any -/
def asked (key : String) (u : List (String × Val)) : Option Val := (u.find? fun p => p.1 == key).map (·.2)

/-- the metadata that can be edited -/
def editable : List String :=
  ["name", "fn", "args", "kwargs", "executor", "coalesce", "max_instances", "mistrigger_grace_time"]

/-- What a value asked for must be, and what the metadata becomes. -/
inductive NewName : Val → Option String → Option String → Prop
  | keep (old) : NewName .none old old
  | set {s : String} (h : s ≠ "") (old) : NewName (.str s) old (some s)

/-- the new callable reference -/
inductive NewFn (ref : Val → Option String) : Val → Option String → Prop
  | text (s : String) : NewFn ref (.str s) (some s)
  | object {v : Val} {r : String} (hv : ∀ s, v ≠ .str s) (h : ref v = some r) : NewFn ref v (some r)

/-- the new positional arguments -/
inductive NewArgs : Val → List Val → Prop
  | list (xs) : NewArgs (.list xs) xs
  | tuple (xs) : NewArgs (.tuple xs) xs

/-- the new number of instances: positive (`True` counts as 1) -/
inductive NewMax : Val → Int → Prop
  | int {n : Int} (h : 0 < n) : NewMax (.int n) n
  | true : NewMax (.bool true) 1

/-- the new grace time: none, or positive -/
inductive NewGrace : Val → Option Num → Prop
  | none : NewGrace .none none
  | int {n : Int} (h : 0 < n) : NewGrace (.int n) (some (.int n))
  | float {x : Int} (h : 0 < x) : NewGrace (.float x) (some (.float x))
  | true : NewGrace (.bool true) (some (.int 1))

/-- The values that count as false. -/
inductive Nought : Val → Prop
  | none : Nought .none
  | false : Nought (.bool false)
  | zero : Nought (.int 0)
  | zeroFloat : Nought (.float 0)
  | empty : Nought (.str "")
  | noTuple : Nought (.tuple [])
  | noList : Nought (.list [])
  | noDict : Nought (.dict [])

/-- `x` is what `v` asks for, or `old` if nothing is asked. -/
def Becomes {α : Type} (P : Val → α → Prop) (v : Option Val) (old x : α) : Prop :=
  match v with
  | none => x = old
  | some w => P w x

/-- The snapshot `i'` is `i` with the metadata asked for, all of it valid, and nothing else changed. -/
structure Edited (ref : Val → Option String) (i : Info) (u : List (String × Val)) (i' : Info) : Prop where
  keys : ∀ p ∈ u, p.1 ∈ editable
  name : Becomes (fun v x => NewName v i.name x) (asked "name" u) i.name i'.name
  fn : Becomes (NewFn ref) (asked "fn" u) i.callableRef i'.callableRef
  args : Becomes NewArgs (asked "args" u) i.args i'.args
  kwargs : Becomes (fun v x => v = .dict x) (asked "kwargs" u) i.kwargs i'.kwargs
  executor : Becomes (fun v x => ∃ s, v = .str s ∧ x = some s) (asked "executor" u) i.executor i'.executor
  coalesce : Becomes (fun v x => x = Bool.false ↔ Nought v) (asked "coalesce" u) i.coalesce i'.coalesce
  maxInst : Becomes NewMax (asked "max_instances" u) i.maxInst i'.maxInst
  grace : Becomes NewGrace (asked "mistrigger_grace_time" u) i.grace i'.grace
  rest : i' = { i with
    name := i'.name, callableRef := i'.callableRef, args := i'.args, kwargs := i'.kwargs, executor := i'.executor,
    coalesce := i'.coalesce, maxInst := i'.maxInst, grace := i'.grace }

end Remote
end Asyncz
