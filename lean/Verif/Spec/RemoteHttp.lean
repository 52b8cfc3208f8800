import Verif.Spec.Remote
/-!
# What an answer of the control application tells its reader

For a client that is not asyncz's own: which call a request stands for, and what status and payload mean.
-/
namespace Asyncz
namespace Remote
variable {σ γ : Type}

/-- the status line -/
def Reply.status : Reply → Nat
  | .json n _ => n
  | .text n => n

/-- The words that ask for descending order, in any mixture of cases. -/
def MeansYes (t : String) : Prop :=
  t.toLower = "1" ∨ t.toLower = "true" ∨ t.toLower = "yes"

/-- `x` is the value of the entry `k` of a query, unless that is empty or missing. -/
def Entry (k : String) (q : List (String × String)) (x : Option String) : Prop :=
  match q.find? fun p => p.1 == k with
  | some (_, v) => if v = "" then x = none else x = some v
  | none => x = none

/-- The call on the scheduler that a request for an endpoint stands for. -/
inductive StandsFor (q : List (String × String)) : Endpoint → Op γ → Prop
  | info : StandsFor q .info .info
  | instances : StandsFor q .instances .instances
  | tasks {f : Filter} (hs : Entry "store" q f.store) (hst : Entry "schedule_state" q f.state)
      (he : Entry "executor" q f.executor) (ht : Entry "trigger" q f.trigger) (hq : Entry "q" q f.q)
      (hsort : Entry "sort_by" q (some f.sortBy) ∨ Entry "sort_by" q none ∧ f.sortBy = "next_run_time")
      (hd : f.desc = true ↔ ∃ v, (q.find? fun p => p.1 == "descending") = some ("descending", v) ∧ MeansYes v) :
      StandsFor q .tasks (.infos f)
  | add (a : Add γ) : StandsFor q .addTask (.add a)
  | detail {id : String} {store : Option String} (h : Entry "store" q store) :
      StandsFor q (.detail id) (.detail id store)
  | preview {id : String} {store : Option String} (h : Entry "store" q store) (n : Int) :
      StandsFor q (.preview id) (.preview id store n none)
  | update (id : String) (store : Option String) (u : List (String × Val)) :
      StandsFor q (.update id) (.update id store u)
  | run (id : String) (store : Option String) (force rf : Bool) :
      StandsFor q (.action id "run") (.run id store force rf)
  | pause (id : String) (store : Option String) : StandsFor q (.action id "pause") (.pause id store)
  | resume (id : String) (store : Option String) : StandsFor q (.action id "resume") (.resume id store)
  | remove (id : String) (store : Option String) : StandsFor q (.action id "remove") (.remove id store)

/-- the JSON of a result -/
inductive Shown (C : Codec γ) : Ret → Json → Prop
  | info (j : Json) : Shown C (.info j) j
  | instances (l : List Json) : Shown C (.instances l) (.arr l)
  | infos {l : List Info} {js : List Json} (h : infosJson C l = some js) : Shown C (.infos l) (.arr js)
  | gone : Shown C (.task none) .null
  | task {i : Info} {j : Json} (h : infoJson C i = some j) : Shown C (.task (some i)) j
  | preview {p : Preview} {j : Json} (h : previewJson C p = some j) : Shown C (.preview (some p)) j
  | done : Shown C .done .null

/-- The calls that run, pause, resume or remove a task. -/
def Op.IsAction : Op γ → Prop
  | .run _ _ _ _ | .pause _ _ | .resume _ _ | .remove _ _ => True
  | _ => False

/-- The calls that change a task that exists. -/
def Op.OnTask : Op γ → Prop
  | .update _ _ _ => True
  | op => op.IsAction

/-- The status for an exception: 404 if the task to change is not there; 409 if an action is refused because the
scheduler is not running or the task has all its instances; 400 otherwise. -/
inductive Code (op : Op γ) : Exc → Nat → Prop
  | missing (id : Option String) (h : op.OnTask) : Code op (.lookup id) 404
  | stopped (h : op.IsAction) : Code op .notRunning 409
  | full (id : String) (n : Int) (h : op.IsAction) : Code op (.maxInst id n) 409
  | bad {e : Exc} (h1 : op.OnTask → ∀ id, e ≠ .lookup id)
      (h2 : op.IsAction → e ≠ .notRunning ∧ ∀ id n, e ≠ .maxInst id n) : Code op e 400

/-- What is said of an exception: the name of its class and its text. -/
inductive Words : Exc → String → String → Prop
  | lookup (id : String) : Words (.lookup (some id)) "TaskLookupError" ("No task with the id " ++ id ++ " has been found.")
  | lookupNone : Words (.lookup none) "TaskLookupError" "No task with the id None has been found."
  | notRunning : Words .notRunning "SchedulerNotRunningError" "Scheduler is not running"
  | maxInst (id : String) (n : Int) : Words (.maxInst id n) "MaximumInstancesError"
      ("The task by the id of " ++ id ++ " reached its maximum number of instances " ++ toString n ++ ".")
  | value (m : String) : Words (.value m) "ValueError" m
  | other (c m : String) : Words (.other c m) c m
  | remote (m : String) : Words (.remote m) "RemoteSchedulerError" m
  | badReply (m : String) : Words .badReply "JSONDecodeError" m
  | unsendable (m : String) : Words .unsendable "TypeError" m

/-- An error answer that names the exception, and the task if one is given. -/
def Names (e : Exc) (id : Option String) (body : Json) : Prop :=
  ∃ kv cls msg, body = .obj kv ∧ Words e cls msg ∧ field "error" kv = some (.str cls) ∧
    field "message" kv = some (.str msg) ∧
    match e with
    | .maxInst i n => field "task_id" kv = some (.str i) ∧ field "max_instances" kv = some (.int n)
    | _ => ∀ i, id = some i → field "task_id" kv = some (.str i)

/-- What the answer to a call says. -/
inductive Told (C : Codec γ) (op : Op γ) : Except Exc Ret → Reply → Prop
  /-- 200: the call returned, and this is what -/
  | done {r : Ret} {j : Json} (h : Shown C r j) : Told C op (.ok r) (.json 200 (.obj [("data", j)]))
  /-- 404: looking at a task that is not there -/
  | noTask {r : Ret} {id : String} {b : Json} (h : op.id = some id) (hop : ¬ op.Reported) (hb : Names (.lookup (some id)) (some id) b)
      (hr : r = .task none ∨ r = .preview none) : Told C op (.ok r) (.json 404 b)
  /-- the exception of the call -/
  | failed {e : Exc} {code : Nat} {b : Json} (h : op.Reported) (hc : Code op e code) (hb : Names e op.id b) :
      Told C op (.error e) (.json code b)
  /-- 500: an exception of a call that only reads -/
  | crashed {e : Exc} (h : ¬ op.Reported) : Told C op (.error e) (.text 500)
  /-- the call returned, but what it returned has no JSON -/
  | unshown {r : Ret} (h : ∀ j, ¬ Shown C r j) {reply : Reply} (hs : reply.status = 400 ∨ reply.status = 500) :
      Told C op (.ok r) reply

/-- a hexadecimal digit and its value -/
def HexDigit (c : Char) (n : Nat) : Prop :=
  "0123456789abcdef".toList[n]? = some c ∨ "0123456789ABCDEF".toList[n]? = some c

/-- The bytes that a quoted text stands for; `plus`: in a query, where `+` is a space.  A `%` that is not followed by two
hexadecimal digits is itself. -/
inductive Unquoted (plus : Bool) : List Char → List UInt8 → Prop
  | nil : Unquoted plus [] []
  | hex {a b : Char} {x y : Nat} (ha : HexDigit a x) (hb : HexDigit b y) {l : List Char} {bs : List UInt8}
      (h : Unquoted plus l bs) : Unquoted plus ('%' :: a :: b :: l) (UInt8.ofNat (x * 16 + y) :: bs)
  | stray {l : List Char} {bs : List UInt8} (hn : ∀ a b x y l', l = a :: b :: l' → ¬ (HexDigit a x ∧ HexDigit b y))
      (h : Unquoted plus l bs) : Unquoted plus ('%' :: l) (37 :: bs)
  | space {l : List Char} {bs : List UInt8} (hp : plus = true) (h : Unquoted plus l bs) :
      Unquoted plus ('+' :: l) (32 :: bs)
  | char {c : Char} (hc : c ≠ '%') (hp : ¬ (plus = true ∧ c = '+')) {l : List Char} {bs : List UInt8}
      (h : Unquoted plus l bs) : Unquoted plus (c :: l) (UInt8.ofNat c.toNat :: bs)

end Remote
end Asyncz
