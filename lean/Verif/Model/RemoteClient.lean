import Verif.Model.Remote
/-!
# Model of the remote client's side of a call (/repo/asyncz/contrib/dashboard/remote.py:543-686)

`Model/Remote.lean` joins the client to a worker that always answers.  Here the client is alone: what comes back is
anything at all, or nothing.
-/
namespace Asyncz
namespace RemoteClient
open Remote

/-! ## The client -/

/-- The attributes of a `RemoteSchedulerClient` (remote.py:552-574); `transport`: a custom one is given. -/
structure Client where
  baseUrl : Option (List Char)
  token : Option String
  transport : Bool
  deriving DecidableEq, Repr

/-- `text.rstrip("/")` (remote.py:572). -/
def rstripSlash (l : List Char) : List Char := (l.reverse.dropWhile (· = '/')).reverse

/-- `RemoteSchedulerClient(base_url, token=…, transport=…)` (remote.py:552-574); `none`: `ValueError`.  An empty
`base_url` is not `None`, and is stored as `None`. -/
def make (baseUrl : Option (List Char)) (token : Option String) (transport : Bool) : Option Client :=
  if baseUrl = none ∧ transport = false then none
  else some ⟨match baseUrl with
    | some (c :: l) => some (rstripSlash (c :: l))
    | _ => none, token, transport⟩

/-- `_headers` (remote.py:585-596). -/
def headers (c : Client) : List (String × String) :=
  ("content-type", "application/json") :: match c.token with
    | some t => [("x-asyncz-remote-token", t)]
    | none => []

/-- the url of a request with the standard library (remote.py:612-615); the target already has its query.  `none`:
the `assert` fails. -/
def url (c : Client) (target : List Char) : Option (List Char) :=
  c.baseUrl.map (· ++ target)

/-! ## What comes back -/

/-- The bytes of an answer (remote.py:620-621, 623-624). -/
inductive Body where
  | empty
  /-- anything `json.loads` refuses -/
  | notJson
  | json (j : Json)

/-- What `urlopen` does (remote.py:618-626).  `refused`: it raises `URLError` (no connection could be made, or the
request could not be sent); the text is `str(exc)`.  `silent`: the connection is lost, or ten seconds pass, when
the request has been sent: another `OSError`, which is not caught.  `answer`: a status and a body; redirects have
been followed by the library. -/
inductive Wire where
  | refused (why : String)
  | silent
  | answer (status : Nat) (body : Body)

/-- What a call of the client raises.  `other`: the class of an exception that is not one of those the client
translates to.  (remote.py:605-674) -/
inductive Fail where
  | lookup (id : Json)
  | notRunning
  | maxInst (id : String) (total : Int)
  | value (msg : String)
  | remote (msg : String)
  | other (cls : String)

/-- The library functions: `str(value)`, `int(text)` and `int(x)` for floats.  (remote.py:661, 668-671) -/
structure Py where
  text : Json → String
  parse : String → Option Int
  trunc : Int → Int

/-- `bool(value)` of a JSON value.  (remote.py:661, 669-670) -/
def truthy : Json → Bool
  | .null => false
  | .bool b => b
  | .int n => n != 0
  | .float x => x != 0
  | .str s => s != ""
  | .arr xs => !xs.isEmpty
  | .obj kv => !kv.isEmpty

/-- `response.get(key)` (remote.py:649, 660-662): `None` if it is missing -/
def get (key : String) (kv : List (String × Json)) : Json := (field key kv).getD .null

/-- `_urllib_request` (remote.py:618-626): a status and a JSON value, or an exception. -/
def read : Wire → Except Fail (Nat × Json)
  | .refused why => .error (.remote ("Remote scheduler request failed: " ++ why))
  | .silent => .error (.other "TimeoutError")
  | .answer st .empty => .ok (st, .obj [])
  | .answer _ .notJson => .error (.other "JSONDecodeError")
  | .answer st (.json j) => .ok (st, j)

/-- `str(response.get("message") or error or "Remote scheduler error.")` (remote.py:661). -/
def message (P : Py) (kv : List (String × Json)) : String :=
  if truthy (get "message" kv) then P.text (get "message" kv)
  else if truthy (get "error" kv) then P.text (get "error" kv)
  else "Remote scheduler error."

/-- `int(value or 0)` (remote.py:670); the exceptions are `ValueError` for a text and `TypeError` otherwise -/
def intOf (P : Py) (j : Json) : Except Fail Int :=
  if truthy j then match j with
    | .bool _ => .ok 1
    | .int n => .ok n
    | .float x => .ok (P.trunc x)
    | .str s => match P.parse s with
      | some n => .ok n
      | none => .error (.value "invalid literal for int()")
    | _ => .error (.other "TypeError")
  else .ok 0

/-- `error == text` (remote.py:663-673) -/
def isText (j : Json) (t : String) : Bool :=
  match j with
  | .str s => s == t
  | _ => false

/-- `_raise_remote_error` (remote.py:652-674). -/
def raised (P : Py) (kv : List (String × Json)) : Fail :=
  let error := get "error" kv
  let taskId := get "task_id" kv
  if isText error "TaskLookupError" then .lookup taskId
  else if isText error "SchedulerNotRunningError" then .notRunning
  else if isText error "MaximumInstancesError" then
    match intOf P (get "max_instances" kv) with
    | .ok n => .maxInst (if truthy taskId then P.text taskId else "unknown") n
    | .error e => e
  else if isText error "ValueError" then .value (message P kv)
  else .remote (message P kv)

/-- `_request` (remote.py:643-650) after the transport has returned. -/
def receive (P : Py) : Except Fail (Nat × Json) → Except Fail Json
  | .error e => .error e
  | .ok (st, .obj kv) => if st < 400 then .ok (get "data" kv) else .error (raised P kv)
  | .ok _ => .error (.other "AttributeError")

/-- `_request` (remote.py:628-650) with the standard library. -/
def exchange (P : Py) (c : Client) (target : List Char) (w : Wire) : Except Fail Json :=
  match url c target with
  | none => .error (.other "AssertionError")
  | some _ => receive P (read w)

/-! ## A call over a network that may fail -/

/-- What the network does with one request.  (remote.py:618-626) -/
inductive Net where
  | through
  /-- nothing reaches the worker -/
  | unreachable (why : String)
  /-- the answer does not come back; `arrived`: the request reached the worker -/
  | silent (arrived : Bool)
  /-- something else answers in the worker's place -/
  | stranger (status : Nat) (body : Body)

/-- a reply of the worker as an answer on the wire.  (remote.py:250-278, 618-624) -/
def wire : Reply → Wire
  | .json st j => .answer st (.json j)
  | .text st => .answer st .notJson

variable {σ γ : Type}

/-- One request over the network: what `urlopen` does and the worker's state.  It is made once, there is no second
attempt.  (remote.py:618-626) -/
def transmit (C : Codec γ) (A : Api σ γ) (workerToken : Option String) (net : Net) (r : Req) (s : σ) : Wire × σ :=
  match net with
  | .through => let x := serve C A workerToken r s; (wire x.1, x.2)
  | .unreachable why => (.refused why, s)
  | .silent true => (.silent, (serve C A workerToken r s).2)
  | .silent false => (.silent, s)
  | .stranger st b => (.answer st b, s)

/-- A method of the client up to `_request`'s result (remote.py:628-650, 688-964); `json.dumps` of the payload comes
before the connection. -/
def call (P : Py) (C : Codec γ) (A : Api σ γ) (c : Client) (workerToken : Option String) (net : Net) (op : Op γ) (s : σ) :
    Except Fail Json × σ :=
  match url c [] with
  | none => (.error (.other "AssertionError"), s)
  | some _ => match request C c.token op with
    | none => (.error (.other "TypeError"), s)
    | some r => let x := transmit C A workerToken net r s; (receive P (read x.1), x.2)

/-- `lookup_task` (remote.py:758-783): the proxy's snapshot and store, or `TaskLookupError`, given what `get_task_info`
returns. -/
def lookupTask (id : String) : Except Exc Ret → Except Exc (Info × Option String)
  | .ok (.task (some i)) => .ok (i, (Proxy.make i).storeAlias)
  | .ok _ => .error (.lookup (some id))
  | .error e => .error e

/-- `running` (remote.py:576-583) of the scheduler's snapshot. -/
def running : Except Exc Ret → Except Exc Bool
  | .ok (.info (.obj kv)) => match field "running" kv with
    | some (.bool b) => .ok b
    | _ => .error .badReply
  | .ok _ => .error .badReply
  | .error e => .error e

end RemoteClient
end Asyncz
