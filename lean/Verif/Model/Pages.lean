import Verif.Model.Remote
import Verif.Model.CronParse
import Verif.Model.Sort
/-!
# Model of the pages of the dashboard (/repo/asyncz/contrib/dashboard/controllers)

The blank characters, `str.lower` and `int()` are parameters (Unicode tables).
-/
namespace Asyncz
namespace Pages
open Remote (param urlencode)

/-- The string methods used (Library; used at controllers/_helpers.py:261-267). -/
structure Str where
  /-- the characters that `str.strip()` removes and `str.split()` splits at -/
  blank : Char → Bool
  lower : String → String
  /-- `int(text)`; `none`: `ValueError` -/
  int : String → Option Int

/-- without the blanks at both ends.  (Library: `str.strip`; used at controllers/_helpers.py:261-267) -/
def trim (p : Char → Bool) (s : List Char) : List Char := Cron.trimRight p (Cron.trimLeft p s)

/-- `s.strip()`.  (Library; used at controllers/_helpers.py:261-267) -/
def Str.strip (S : Str) (s : String) : String := String.ofList (trim S.blank s.toList)

/-! ## Filters and pagination -/

/-- `_bounded_int` (controllers/_helpers.py:299-304); an absent parameter is `int(None)`, a `TypeError`. -/
def boundedInt (S : Str) (v : Option String) (default lo hi : Nat) : Nat :=
  match v.bind S.int with
  | none => default
  | some n => (max (lo : Int) (min (hi : Int) n)).toNat

/-- The filters of a task page: the `form` of `parse_task_filters` without the two page fields.
(controllers/_helpers.py:286-293) -/
structure Filters where
  q : String
  state : String
  executor : String
  trigger : String
  sort : String
  desc : Bool
  deriving DecidableEq

/-- The whole `form` (controllers/_helpers.py:286-296). -/
structure Form where
  filters : Filters
  page : Nat
  perPage : Nat
  deriving DecidableEq

/-- `a or b` for strings.  (controllers/_helpers.py:261-267) -/
def orText (a b : String) : String := if a = "" then b else a

/-- `parse_task_filters(request)["form"]` (controllers/_helpers.py:252-297) -/
def parseFilters (S : Str) (params : List (String × String)) : Form :=
  { filters :=
      { q := S.strip ((param "q" params).getD "")
        state := S.lower (S.strip ((param "state" params).getD ""))
        executor := S.strip ((param "executor" params).getD "")
        trigger := S.strip ((param "trigger" params).getD "")
        sort := orText (S.strip (orText ((param "sort" params).getD "") "next_run_time")) "next_run_time"
        desc := orText (S.lower (S.strip (orText ((param "direction" params).getD "") "asc"))) "asc" == "desc" }
    page := boundedInt S (param "page" params) 1 1 10000
    perPage := boundedInt S (param "per_page" params) 50 1 200 }

/-- one entry of the comprehension, unless it is empty or the default.  (controllers/_helpers.py:321-329) -/
def entry (k v default : String) : List (String × String) := if v = "" ∨ v = default then [] else [(k, v)]

/-- `query_values` (controllers/_helpers.py:320-329) -/
def queryValues (f : Form) : List (String × String) :=
  entry "q" f.filters.q "" ++ entry "state" f.filters.state "" ++ entry "executor" f.filters.executor "" ++
  entry "trigger" f.filters.trigger "" ++ entry "sort" f.filters.sort "next_run_time" ++
  (if f.filters.desc then [("direction", "desc")] else []) ++
  (if f.page = 0 ∨ f.page = 1 then [] else [("page", f.page.repr)]) ++
  (if f.perPage = 0 ∨ f.perPage = 50 then [] else [("per_page", f.perPage.repr)])

/-- `_build_task_query_suffix` (controllers/_helpers.py:307-331) -/
def suffix (f : Form) : List Char :=
  if queryValues f = [] then [] else '?' :: urlencode (queryValues f)

/-- The pagination mapping (controllers/_helpers.py:345-357). -/
structure Page where
  page : Nat
  perPage : Nat
  pageCount : Nat
  total : Nat
  start : Nat
  stop : Nat
  hasPrevious : Bool
  hasNext : Bool
  previous : Nat
  next : Nat
  deriving DecidableEq, Repr

/-- `_paginate_task_infos` (controllers/_helpers.py:334-358) -/
def paginate {α : Type} (visible : List α) (requested perPage : Nat) : List α × Page :=
  let total := visible.length
  let pageCount := max 1 ((total + perPage - 1) / perPage)
  let page := min requested pageCount
  let start := (page - 1) * perPage
  let stop := start + perPage
  ((visible.drop start).take (stop - start),
   { page, perPage, pageCount, total
     start := if total = 0 then 0 else start + 1
     stop := min stop total
     hasPrevious := decide (page > 1)
     hasNext := decide (page < pageCount)
     previous := max 1 (page - 1)
     next := min pageCount (page + 1) })

/-- What the page shows: the rows, the pagination and the query suffixes of the previous and the next page.
(controllers/_helpers.py:361-422) -/
structure View (α : Type) where
  rows : List α
  pagination : Page
  form : Form
  suffix : List Char
  previous : List Char
  next : List Char

/-- `build_task_dashboard_context` (controllers/_helpers.py:361-422); `infos` is `get_task_infos` with the filters. -/
def view {α : Type} (infos : Filters → List α) (f : Form) : View α :=
  let (rows, p) := paginate (infos f.filters) f.page f.perPage
  let form := { f with page := p.page, perPage := p.perPage }
  { rows, pagination := p, form, suffix := suffix form, previous := suffix { form with page := p.previous }
    next := suffix { form with page := p.next } }

/-- A request for the page with a query suffix: the library's query parsing, then the view.
(controllers/_helpers.py:371, tasks.py:224) -/
def request {α : Type} (S : Str) (infos : Filters → List α) (suffix : List Char) : View α :=
  view infos (parseFilters S (Remote.parseQuery (suffix.drop 1)))

/-- `_limit` (controllers/history.py:31-35, logs.py:63-67, audit.py, events.py) -/
def pageLimit (S : Str) (v : String) : Int :=
  match S.int v with
  | none => 200
  | some n => max 1 (min n 1000)

/-- the limit parameter of those pages.  (controllers/history.py:27, logs.py:59) -/
def limitParam (S : Str) (v : Option String) : Int :=
  pageLimit S (orText (S.strip (orText (v.getD "") "200")) "200")

/-! ## The ids of a bulk action -/

/-- One element of a list payload: a string (or decoded bytes), or something else.
(controllers/_helpers.py:479-487) -/
inductive RawItem where
  | text (s : String)
  | other
  deriving DecidableEq

/-- `data.get("ids")` (controllers/_helpers.py:468-476): absent, a string (or decoded bytes), a list, or another object
with its `str()`. -/
inductive RawIds where
  | absent
  | text (s : String)
  | items (l : List RawItem)
  | other (str : String)

/-- `s.split(",")` (controllers/_helpers.py:496). -/
def commas (s : String) : List String := (Remote.split ',' s.toList).map String.ofList

/-- `[p.strip() for p in s.split(",") if p.strip()]` (controllers/_helpers.py:506, 511, 515) -/
def commaIds (S : Str) (s : String) : List String := ((commas s).map S.strip).filter (· ≠ "")

/-- `json.loads(v)` of a text that begins with a bracket: the strings in the list (`none` for other elements), or it
raises.  (controllers/_helpers.py:489-494, 502-504) -/
abbrev Loads := String → Option (List (Option String))

/-- one element of a list payload (controllers/_helpers.py:479-497); the parts are not stripped -/
def itemIds (S : Str) (loads : Loads) : RawItem → List String
  | .other => []
  | .text v =>
    let v := S.strip v
    let plain := (commas v).filter fun s => S.strip s ≠ ""
    if v.toList.head? = some '[' then
      match loads v with
      | some l => l.filterMap id
      | none => plain
    else plain

/-- the collected ids (controllers/_helpers.py:470-516) -/
def collected (S : Str) (loads : Loads) : RawIds → List String
  | .absent => []
  | .items l => l.flatMap (itemIds S loads)
  | .text raw =>
    let s := S.strip raw
    if s.toList.head? = some '[' then
      match loads s with
      | some l => l.filterMap id
      | none => commaIds S s
    else if s ≠ "" then commaIds S s else []
  | .other s => commaIds S s

/-- the loop that removes duplicates (controllers/_helpers.py:518-525): what has been seen, and the result -/
def dedup : List String → List String → List String
  | _, [] => []
  | seen, x :: l => if x ∈ seen then dedup seen l else x :: dedup (x :: seen) l

/-- `parse_ids_from_request_form` (controllers/_helpers.py:449-525) -/
def parseIds (S : Str) (loads : Loads) (raw : RawIds) : List String := dedup [] (collected S loads raw)

/-! ## Actions on tasks -/

/-- the four actions (controllers/tasks.py:241-304) -/
inductive Action where
  | run | pause | resume | remove
  deriving DecidableEq, Repr

/-- An entry of the audit log: action, task, status and message.  (controllers/tasks.py:200-214) -/
structure Audit where
  action : Action
  id : String
  status : String
  message : String
  deriving DecidableEq

/-- the message of a success (controllers/tasks.py:249, 264, 279, 294) -/
def doneMessage : Action → String → String
  | .run, id => "Triggered task " ++ id ++ " manually."
  | .pause, id => "Paused task " ++ id ++ "."
  | .resume, id => "Resumed task " ++ id ++ "."
  | .remove, id => "Removed task " ++ id ++ "."

variable {σ : Type}

/-- The scheduler's methods, as far as these pages use them.  (controllers/tasks.py:248, 263, 278, 293) -/
abbrev Act (σ : Type) := Action → String → σ → Except Remote.Exc Unit × σ

/-- One action with its audit entry; the last component is an exception that is not caught.
(controllers/tasks.py:245-256, 262-267, 277-282, 292-297) -/
def actOne (act : Act σ) (a : Action) (id : String) (s : σ) : σ × List Audit × Option Remote.Exc :=
  match act a id s with
  | (.ok _, s') => (s', [⟨a, id, "succeeded", doneMessage a id⟩], none)
  | (.error (.lookup _), s') => (s', [⟨a, id, "failed", "Task was not found."⟩], none)
  | (.error (.maxInst i n), s') =>
    if a = .run then (s', [⟨a, id, "warning", (Remote.Exc.maxInst i n).msg⟩], none) else (s', [], some (.maxInst i n))
  | (.error e, s') => (s', [], some e)

/-- The loops of the bulk actions (controllers/tasks.py:565-575, 592-603, 623-633, 650-661) -/
def actAll (act : Act σ) (a : Action) : List String → σ → σ × List Audit × Option Remote.Exc
  | [], s => (s, [], none)
  | id :: ids, s => match actOne act a id s with
    | (s', log, some e) => (s', log, some e)
    | (s', log, none) => match actAll act a ids s' with
      | (s'', log', e) => (s'', log ++ log', e)

/-- A bulk request (controllers/tasks.py:560-661): the scheduler, the new audit entries, the uncaught exception. -/
def bulk (S : Str) (loads : Loads) (act : Act σ) (a : Action) (raw : RawIds) (s : σ) : σ × List Audit × Option Remote.Exc :=
  actAll act a (parseIds S loads raw) s

/-! ## Triggers of the creation form -/

/-- `parse_trigger_config` (controllers/_helpers.py:88-130): the alias with its arguments. -/
inductive TriggerConfig where
  | interval (unit : String) (n : Int)
  | cron (minute hour day month dayOfWeek : List Char)
  /-- the text given to `datetime.fromisoformat` -/
  | date (text : List Char)
  deriving DecidableEq

/-- `s.endswith(c)` and `s[:-1]`.  (controllers/_helpers.py:94-99) -/
def cutLast (s : List Char) : Option (List Char × Char) := s.getLast?.map fun c => (s.dropLast, c)

/-- the interval (controllers/_helpers.py:92-105); `none`: `ValueError` -/
def intervalConfig (S : Str) (tv : List Char) : Option TriggerConfig :=
  match cutLast tv with
  | some (body, 's') => (S.int (String.ofList body)).map (.interval "seconds")
  | some (body, 'm') => (S.int (String.ofList body)).map (.interval "minutes")
  | some (body, 'h') => (S.int (String.ofList body)).map (.interval "hours")
  | _ => (S.int (String.ofList tv)).map (.interval "seconds")

/-- `head, tail = tv.rsplit(" ", 1)` for a text with a space.  (controllers/_helpers.py:121) -/
def rsplitSpace (s : List Char) : Option (List Char × List Char) :=
  let r := s.reverse
  if ' ' ∈ s then some (((r.dropWhile (· ≠ ' ')).drop 1).reverse, (r.takeWhile (· ≠ ' ')).reverse) else none

/-- the repair of a plus sign that the form decoding turned into a space (controllers/_helpers.py:120-123) -/
def fixPlus (digit : Char → Bool) (tv : List Char) : List Char :=
  if 'T' ∈ tv then
    match rsplitSpace tv with
    | some (head, tail) =>
      if tail.length = 5 && tail[2]? = some ':' &&
          (!(tail.filter (· ≠ ':')).isEmpty && (tail.filter (· ≠ ':')).all digit)
      then head ++ '+' :: tail else tv
    | none => tv
  else tv

/-- `parse_trigger_config` (controllers/_helpers.py:75-130); `iso` says whether `datetime.fromisoformat` accepts the
text; `none`: `ValueError`. -/
def triggerConfig (S : Str) (digit : Char → Bool) (iso : List Char → Bool) (type : String) (value : Option String) :
    Option TriggerConfig :=
  let tt := S.lower (S.strip type)
  let tv := (S.strip (value.getD "")).toList
  if tt = "interval" then intervalConfig S tv
  else if tt = "cron" then match Cron.words tv with
    | [mi, h, d, mo, dow] => some (.cron mi h d mo dow)
    | _ => none
  else if tt = "date" then
    let tv := fixPlus digit tv
    if iso tv then some (.date tv) else none
  else none

/-- the cron trigger made of it (controllers/_helpers.py:157-158); `none`: `CronTrigger` raises -/
def cronOf (minute hour day month dayOfWeek : List Char) : Option (Cron.FieldName → List Cron.Expr) :=
  Cron.construct fun
    | .minute => some minute | .hour => some hour | .day => some day | .month => some month
    | .dayOfWeek => some dayOfWeek
    | _ => none

/-! ## The timeline -/

/-- What the timeline needs to know of a task: its id and, if there is a preview, the run times.
(controllers/timeline.py:40-49) -/
structure TimelineTask where
  id : Option String
  preview : Option (List Int × Bool)

/-- A row: task and run time (instant).  (controllers/timeline.py:53-68) -/
structure Row where
  id : String
  time : Int
  deriving DecidableEq, Repr

/-- the rows of one task (controllers/timeline.py:42-68) -/
def taskRows (t : TimelineTask) : List Row :=
  match t.id, t.preview with
  | some id, some (times, _) => times.map (Row.mk id)
  | _, _ => []

/-- `rows.sort(key=…)` and the limit (controllers/timeline.py:39-71); `tasks` in the order of `get_task_infos` -/
def timelineRows (tasks : List TimelineTask) (limit : Nat) : List Row :=
  (sortBy (fun a b => decide (a.time ≤ b.time)) (tasks.flatMap taskRows)).take limit

/-- `_bounded_int` of the timeline (controllers/timeline.py:15-20): an empty value is the default -/
def timelineInt (S : Str) (v : Option String) (default lo hi : Nat) : Nat :=
  match v with
  | none => (max (lo : Int) (min (default : Int) (hi : Int))).toNat
  | some s =>
    if s = "" then (max (lo : Int) (min (default : Int) (hi : Int))).toNat
    else match S.int s with
      | none => default
      | some n => (max (lo : Int) (min n (hi : Int))).toNat

end Pages
end Asyncz
