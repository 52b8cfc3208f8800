import Verif.Model.Web
/-!
# Model of the dashboard's pages as a browser sees them

Flash messages (`contrib/dashboard/messages.py`, `mixins.py`, `controllers/_helpers.py`), the routes of
`application.py` together with the links of the task table's templates, and the way from a refused request
through the login page (`admin/middleware/auth_gate.py`, `admin/backends.py`).
-/
namespace Asyncz
namespace DashWeb
open Listing (Text)

/-! ## Flash messages -/

/-- `{"level": level, "text": message}`.  (/repo/asyncz/contrib/dashboard/messages.py:12) -/
structure Flash where
  level : Text
  text : Text
  deriving DecidableEq, Repr

/-- `add_message`, on the list under `_messages` of the session (missing is empty).
(/repo/asyncz/contrib/dashboard/messages.py:6-12) -/
def addMessage (session : List Flash) (level text : Text) : List Flash := session ++ [⟨level, text⟩]

/-- `get_messages`: what is returned and what is left.  (/repo/asyncz/contrib/dashboard/messages.py:15-20) -/
def getMessages (session : List Flash) : List Flash × List Flash := (session, [])

/-- What `scheduler.run_task(task_id, remove_finished=False)` comes to for the controllers.
(/repo/asyncz/contrib/dashboard/controllers/tasks.py:629-637) -/
inductive Run where
  | submitted
  | maxInstances (text : Text)
  | lookupError
  | raises
  deriving DecidableEq, Repr

/-- The loop of the bulk run (and, for one id, the body of the single one): the session's messages when it
ends, `none` if another exception ends it.
(/repo/asyncz/contrib/dashboard/controllers/tasks.py:627-637,704-713) -/
def runAll (run : Text → Run) : List Flash → List Text → Option (List Flash)
  | s, [] => some s
  | s, i :: is => match run i with
    | .submitted => runAll run s is
    | .maxInstances t => runAll run (addMessage s "warning".toList t) is
    | .lookupError => runAll run s is
    | .raises => none

/-- Requests to the controllers, as far as messages go: a page built on `layout.html` (or the login form,
shown again after a failed attempt); the task table after pause, resume, remove, or reload; a (bulk) run; a create
whose callable or trigger is refused with a text; a table fragment of history or logs; a successful
sign-in; the run controller that redirects.
(/repo/asyncz/contrib/dashboard/application.py:75-225, controllers/tasks.py:258-274,415-437,616-775,
controllers/history.py:68-74, controllers/logs.py:117-137, admin/backends.py:75-110) -/
inductive Visit where
  | page
  | table
  | run (ids : List Text)
  | createRefused (error : Text)
  | fragment
  | signedIn
  | redirectingRun (id : Text)
  deriving DecidableEq, Repr

/-- A response: the messages in it (`none`: an exception, answered by the server's error page) and the
session's messages afterwards (an exception leaves the session as it was saved before: the session
middleware, library code, saves it when the response starts).
(/repo/asyncz/contrib/dashboard/controllers/_helpers.py:417-439, messages.py:6-20) -/
structure Answer where
  shown : Option (List Flash)
  session : List Flash
  deriving DecidableEq, Repr

/-- The controllers.  `default_context` takes the messages out of the session into the context; the
layout, the login form and the task table show the context's; the fragments' templates do not, nor does a
redirect.  Nothing in the code sets `request.state._flash_messages`.
(/repo/asyncz/contrib/dashboard/mixins.py:11-29, controllers/_helpers.py:154-180,417-439,
controllers/tasks.py:258-274,415-437,616-775, controllers/history.py:68-74, controllers/logs.py:117-137,
admin/backends.py:75-110, templates/layout.html:121, templates/login.html:20) -/
def respond (run : Text → Run) (s : List Flash) : Visit → Answer
  | .page => let (ms, s') := getMessages s; ⟨some ms, s'⟩
  | .table => let (ms, s') := getMessages s; ⟨some ms, s'⟩
  | .run ids => match runAll run s ids with
    | some s₁ => let (ms, s') := getMessages s₁; ⟨some ms, s'⟩
    | none => ⟨none, s⟩
  | .createRefused e => let (ms, s') := getMessages (addMessage s "error".toList e); ⟨some ms, s'⟩
  | .fragment => let (_, s') := getMessages s; ⟨some [], s'⟩
  | .signedIn => let (_, s') := getMessages s; ⟨some [], s'⟩
  | .redirectingRun i => match runAll run s [i] with
    | some s₁ => ⟨some [], s₁⟩
    | none => ⟨none, s⟩

/-- A browser's visits, one after the other, each with its own outcomes of `run_task`: the responses and
the session's messages.  (/repo/asyncz/contrib/dashboard/messages.py:6-20) -/
def browse : List Flash → List (Visit × (Text → Run)) → List Answer × List Flash
  | s, [] => ([], s)
  | s, (v, run) :: vs =>
    let a := respond run s v
    let (as_, s') := browse a.session vs
    (a :: as_, s')

/-! ## The messages as HTML -/

/-- The colour and the icon of a level; `lower` is `str.lower`.
(/repo/asyncz/contrib/dashboard/controllers/_helpers.py:208-220) -/
def colour (lower : Text → Text) (level : Text) : Text × Text :=
  let l := lower (if level ≠ [] then level else "info".toList)
  if l = "success".toList then ("green".toList, "check-circle".toList)
  else if l = "error".toList then ("red".toList, "x-circle".toList)
  else if l = "warning".toList then ("yellow".toList, "alert-triangle".toList)
  else ("blue".toList, "info".toList)

/-- One banner; `i` is the running number as a text.  The white space between the tags is left out.
(/repo/asyncz/contrib/dashboard/controllers/_helpers.py:221-233) -/
def banner (lower : Text → Text) (i : Text) (m : Flash) : Text :=
  let (c, icon) := colour lower m.level
  "<div id=\"flash-".toList ++ i ++ "\" class=\"relative flex items-start gap-3 p-4 bg-".toList ++ c ++
  "-50 border-l-4 border-".toList ++ c ++ "-500 text-".toList ++ c ++
  "-700 shadow transition-opacity duration-200\"><i data-lucide=\"".toList ++ icon ++
  "\" class=\"w-5 h-5 mt-1 flex-shrink-0\"></i><div class=\"flex-1 leading-relaxed\">".toList ++ m.text ++
  "</div><button type=\"button\" data-dismiss-target=\"flash-".toList ++ i ++
  "\" class=\"absolute top-5 right-6 text-xl font-bold leading-none text-".toList ++ c ++
  "-700 hover:text-".toList ++ c ++ "-900 focus:outline-none\" aria-label=\"Dismiss\">&times;</button></div>".toList

/-- The banners from number `n` on.  (/repo/asyncz/contrib/dashboard/controllers/_helpers.py:207-234) -/
def banners (lower : Text → Text) : Nat → List Flash → Text
  | _, [] => []
  | n, m :: ms => banner lower (toString n).toList m ++ banners lower (n + 1) ms

/-- `_render_messages_oob`; the template `partials/_messages_oob.html` it looks for is not in the
repository, so this is the inline rendering.
(/repo/asyncz/contrib/dashboard/controllers/_helpers.py:183-236) -/
def renderOob (lower : Text → Text) (ms : List Flash) : Text :=
  if ms = [] then "<div id=\"flash-messages\" hx-swap-oob=\"true\"></div>".toList
  else "<div id=\"flash-messages\" hx-swap-oob=\"true\"><div class=\"space-y-4 w-full\">".toList ++
    banners lower 1 ms ++ "</div></div>".toList

/-- `str.partition(":")`: before, and after.  (/repo/asyncz/cli/utils.py:75) -/
def partitionColon : Text → Text × Text
  | [] => ([], [])
  | c :: t => if c = ':' then ([], t) else let (a, b) := partitionColon t; (c :: a, b)

/-- The text of the error the create form gets for a local scheduler, if the path has no attribute part;
what importing comes to otherwise is a parameter.
(/repo/asyncz/cli/utils.py:73-80, /repo/asyncz/contrib/dashboard/controllers/tasks.py:415-425) -/
def callableError (importError : Text → Option Text) (path : Text) : Option Text :=
  if (partitionColon path).2 = [] then
    some ("Expected dotted path 'pkg.mod:callable', got '".toList ++ path ++ "'".toList)
  else importError path

/-- The start of the response to a create whose callable is refused: the messages (the table follows).
`strip` is `str.strip`.
(/repo/asyncz/contrib/dashboard/controllers/tasks.py:401-437, controllers/_helpers.py:436-439) -/
def createResponse (lower strip : Text → Text) (importError : Text → Option Text) (session : List Flash)
    (callablePath : Text) : Option Text :=
  (callableError importError (strip callablePath)).map fun e =>
    renderOob lower (getMessages (addMessage session "error".toList e)).1

/-! ## Routes and links of the tasks -/

/-- A part of a route's path: a literal or `{name:str}` (one or more characters, no slash).
(/repo/asyncz/contrib/dashboard/application.py:138-212) -/
inductive Seg where
  | lit (t : Text)
  | param
  deriving DecidableEq, Repr

/-- The controllers below `/tasks`.  (/repo/asyncz/contrib/dashboard/application.py:138-212) -/
inductive Ctl where
  | index | table | create | edit | detail
  | bulkPause | bulkResume | bulkRemove | bulkRun
  | run | pause | resume | remove
  deriving DecidableEq, Repr

/-- The routes below `/tasks`, in their order.  (/repo/asyncz/contrib/dashboard/application.py:140-211) -/
def taskRoutes : List (List Seg × Ctl) :=
  [([.lit []], .index),
   ([.lit "partials".toList, .lit "table".toList], .table),
   ([.lit "create".toList], .create),
   ([.param, .lit "edit".toList], .edit),
   ([.param], .detail),
   ([.lit "hx".toList, .lit "bulk".toList, .lit "pause".toList], .bulkPause),
   ([.lit "hx".toList, .lit "bulk".toList, .lit "resume".toList], .bulkResume),
   ([.lit "hx".toList, .lit "bulk".toList, .lit "remove".toList], .bulkRemove),
   ([.lit "hx".toList, .lit "bulk".toList, .lit "run".toList], .bulkRun),
   ([.param, .lit "run".toList], .run),
   ([.param, .lit "pause".toList], .pause),
   ([.param, .lit "resume".toList], .resume),
   ([.param, .lit "remove".toList], .remove)]

/-- Does a path, split at its slashes, match a route's?  The value of `task_id`, if it has one.
(Library; used at /repo/asyncz/contrib/dashboard/application.py:140-211) -/
def matchSegs : List Seg → List Text → Option (Option Text)
  | [], [] => some none
  | .lit t :: ss, p :: ps => if t = p then matchSegs ss ps else none
  | .param :: ss, p :: ps => if p = [] then none else
    match matchSegs ss ps with
    | some _ => some (some p)
    | none => none
  | _, _ => none

/-- The first route that matches is served.  (Library; used at
/repo/asyncz/contrib/dashboard/application.py:138-212) -/
def dispatch : List (List Seg × Ctl) → List Text → Option (Ctl × Option Text)
  | [], _ => none
  | (ss, c) :: rs, ps => match matchSegs ss ps with
    | some i => some (c, i)
    | none => dispatch rs ps

/-- Split at slashes.  (Library: paths; used at /repo/asyncz/contrib/dashboard/application.py:138-212) -/
def splitSlash : Text → List Text
  | [] => [[]]
  | c :: t => if c = '/' then [] :: splitSlash t
    else match splitSlash t with
      | [] => [[c]]
      | s :: ss => (c :: s) :: ss

/-- A hexadecimal digit's value.  (Library: percent decoding of the path by the server, before
/repo/asyncz/contrib/dashboard/application.py:138-212 routes it) -/
def hexVal (c : Char) : Option Nat :=
  if '0' ≤ c ∧ c ≤ '9' then some (c.toNat - '0'.toNat)
  else if 'a' ≤ c ∧ c ≤ 'f' then some (c.toNat - 'a'.toNat + 10)
  else if 'A' ≤ c ∧ c ≤ 'F' then some (c.toNat - 'A'.toNat + 10)
  else none

/-- `urllib.parse.unquote`, bytes beyond ASCII read as Latin-1 (a simplification; the statements that use it
are about texts without `%`, or about ASCII examples).
(Library; the server decodes the path before /repo/asyncz/contrib/dashboard/application.py:138-212 routes it) -/
def unquote : Text → Text
  | '%' :: a :: b :: t => match hexVal a, hexVal b with
    | some x, some y => Char.ofNat (16 * x + y) :: unquote t
    | _, _ => '%' :: unquote (a :: b :: t)
  | c :: t => c :: unquote t
  | [] => []
termination_by t => t.length

/-- The browser removes the segments `.` and `..` (the segments so far are kept in reverse).
(RFC 3986, 5.2.4; what a browser does with the links of
/repo/asyncz/contrib/dashboard/templates/tasks/_table.html:109-190) -/
def removeDots : List Text → List Text → List Text
  | done, [] => done.reverse
  | done, [s] => if s = ['.'] then ([] :: done).reverse
    else if s = ['.', '.'] then ([] :: done.drop 1).reverse else (s :: done).reverse
  | done, s :: t :: ss =>
    if s = ['.'] then removeDots done (t :: ss)
    else if s = ['.', '.'] then removeDots (done.drop 1) (t :: ss)
    else removeDots (s :: done) (t :: ss)

/-- The path of a reference, without query and fragment.
(RFC 3986, 3; links of /repo/asyncz/contrib/dashboard/templates/tasks/_table.html:109-190) -/
def cutQuery (r : Text) : Text := r.takeWhile fun c => c ≠ '?' ∧ c ≠ '#'

/-- Does a reference start with a scheme (a letter, then letters, digits, `+`, `-`, `.`, then a colon)?
(RFC 3986, 4.2; links of /repo/asyncz/contrib/dashboard/templates/tasks/_table.html:109-190) -/
def hasScheme : Text → Bool
  | [] => false
  | c :: t => c.isAlpha && go t
where
  /-- (RFC 3986, 3.1) -/
  go : Text → Bool
    | [] => false
    | c :: t => if c = ':' then true
      else if c.isAlphanum || c = '+' || c = '-' || c = '.' then go t else false

/-- The segments of the path the server sees when a link in the page at `base` (segments without the
leading slash) is followed; `none` if the link leaves the site.  The percent-encoding of other characters
by the browser is undone by the server and left out; a backslash (a slash to browsers) is not modelled (the
statements exclude it).  (RFC 3986, 5.2;
/repo/asyncz/contrib/dashboard/templates/tasks/_table.html:109-190) -/
def follow (base : List Text) (ref : Text) : Option (List Text) :=
  if hasScheme ref || ['/', '/'].isPrefixOf ref then none
  else
    let segs := match cutQuery ref with
      | '/' :: p => removeDots [] (splitSlash p)
      | p => removeDots (base.dropLast.reverse) (splitSlash p)
    some (segs.flatMap fun s => splitSlash (unquote s))

/-- What the dashboard mounted below `mount` serves for a path below `/tasks`.
(/repo/asyncz/contrib/dashboard/application.py:138-212) -/
def serve (mount : List Text) (path : List Text) : Option (Ctl × Option Text) :=
  let p := mount ++ ["tasks".toList]
  if p.isPrefixOf path then dispatch taskRoutes (path.drop p.length) else none

/-- The prefix as a text: every segment preceded by a slash, `/` if there is none.
(/repo/asyncz/contrib/dashboard/config.py:96-144, as `url_prefix` in mixins.py:24) -/
def prefixText (mount : List Text) : Text :=
  if mount = [] then ['/'] else mount.flatMap fun s => '/' :: s

/-- The links of a row of the task table (`query` is `query_suffix`: empty or starting with `?`).
(/repo/asyncz/contrib/dashboard/templates/tasks/_table.html:109,118,131,141,166,190) -/
inductive Link where
  | detail | edit | run | pause | resume | remove
  deriving DecidableEq, Repr

/-- The text of the link.  (/repo/asyncz/contrib/dashboard/templates/tasks/_table.html:109,118,131,141,166,190) -/
def Link.ref (mount : List Text) (query id : Text) : Link → Text
  | .detail => prefixText mount ++ "/tasks/".toList ++ id
  | .edit => prefixText mount ++ "/tasks/".toList ++ id ++ "/edit".toList
  | .run => id ++ "/run".toList ++ query
  | .pause => id ++ "/pause".toList ++ query
  | .resume => id ++ "/resume".toList ++ query
  | .remove => id ++ "/remove".toList ++ query

/-- What following a link in the page at `base` comes to.
(/repo/asyncz/contrib/dashboard/templates/tasks/_table.html:109-190, application.py:138-212) -/
def click (mount base : List Text) (query id : Text) (l : Link) : Option (Ctl × Option Text) :=
  (follow base (l.ref mount query id)).bind (serve mount)

/-! ## From a refused request through the login page -/

/-- Cut at a character.  (Library `parse_qsl`; used at /repo/asyncz/contrib/dashboard/admin/backends.py:79) -/
def cutAt (sep : Char) : Text → Text × Option Text
  | [] => ([], none)
  | c :: t => if c = sep then ([], some t) else let (a, b) := cutAt sep t; (c :: a, b)

/-- `unquote_plus`.  (Library `parse_qsl`; used at /repo/asyncz/contrib/dashboard/admin/backends.py:79) -/
def unquotePlus (t : Text) : Text := unquote (t.map fun c => if c = '+' then ' ' else c)

/-- The pairs of a query string: separated by `&`, name and value by the first `=`; those without a value
are left out.  (Library `parse_qsl`; used at /repo/asyncz/contrib/dashboard/admin/backends.py:79) -/
def parseQuery (fuel : Nat) (t : Text) : List (Text × Text) :=
  match fuel with
  | 0 => []
  | fuel + 1 =>
    let (first, rest) := cutAt '&' t
    let here := match cutAt '=' first with
      | (k, some (c :: v)) => [(unquotePlus k, unquotePlus (c :: v))]
      | (k, some []) => [(unquotePlus k, [])]
      | (_, none) => []
    here ++ (match rest with
      | some r => parseQuery fuel r
      | none => [])

/-- `request.query_params.get("next")` of a URL: the query is what lies between the first `?` and the
fragment.  (/repo/asyncz/contrib/dashboard/admin/backends.py:79) -/
def nextOf (url : Text) : Option Text :=
  match (cutAt '?' (cutAt '#' url).1).2 with
  | none => none
  | some q => ((parseQuery (q.length + 1) q).find? fun kv => kv.1 = "next".toList).map (·.2)

/-- The login page: the value of its hidden field `next`.
(/repo/asyncz/contrib/dashboard/templates/login.html:48, admin/backends.py:77-84,93-96) -/
structure LoginPage where
  hidden : Text
  deriving DecidableEq, Repr

/-- GET of the login page: `{{ next or '' }}`.
(/repo/asyncz/contrib/dashboard/admin/backends.py:77-84, templates/login.html:48) -/
def loginPage (url : Text) : LoginPage := ⟨(nextOf url).getD []⟩

/-- POST of the form: the page again, or the redirect's target; `index` is `reverse("dashboard:index")`.
On a failure the context has no `next`.
(/repo/asyncz/contrib/dashboard/admin/backends.py:86-110) -/
def submit (index : Text) (page : LoginPage) (valid : Bool) : LoginPage ⊕ Text :=
  if valid then .inr (if page.hidden ≠ [] then page.hidden else index) else .inl ⟨[]⟩

/-- Attempts to sign in, until the first that succeeds.
(/repo/asyncz/contrib/dashboard/admin/backends.py:62-110) -/
def attempts (index : Text) : LoginPage → List Bool → Option Text
  | _, [] => none
  | p, v :: vs => match submit index p v with
    | .inr t => some t
    | .inl p' => attempts index p' vs

/-- The URL a refusal sends the browser to: the header `location` or `hx-redirect`.
(/repo/asyncz/contrib/dashboard/admin/middleware/auth_gate.py:96-105) -/
def sentTo : List Web.Message → Option Text
  | .start _ [(_, u)] :: _ => some u
  | _ => none

/-! ## The prefix of the dashboard's links -/

/-- `_normalize_prefix`; `strip` is `str.strip`.  (/repo/asyncz/contrib/dashboard/config.py:98-105) -/
def normalizePrefix (strip : Text → Text) (value : Option Text) : Text :=
  match value with
  | none => ['/']
  | some [] => ['/']
  | some v =>
    let v := strip v
    let v := if ['/'].isPrefixOf v then v else '/' :: v
    if v = ['/'] then v else Web.rstripSlash v

/-- `str.endswith`.  (/repo/asyncz/contrib/dashboard/config.py:117) -/
def endsWith (t suffix : Text) : Bool := suffix.reverse.isPrefixOf t.reverse

/-- `_combine_prefixes`.  (/repo/asyncz/contrib/dashboard/config.py:108-119) -/
def combinePrefixes (strip : Text → Text) (externalPrefix configuredPrefix : Text) : Text :=
  let external := normalizePrefix strip (some externalPrefix)
  let configured := normalizePrefix strip (some configuredPrefix)
  if external = ['/'] then configured
  else if configured = ['/'] then external
  else if external = configured ∨ endsWith external configured then external
  else external ++ configured

/-- `scope.get(...) or "/"`.  (/repo/asyncz/contrib/dashboard/config.py:137,142) -/
def orSlash : Option Text → Text
  | some (c :: t) => c :: t
  | _ => ['/']

/-- `get_effective_prefix` for a request; `configured` is the setting `dashboard_url_prefix`.
(/repo/asyncz/contrib/dashboard/config.py:122-144) -/
def effectivePrefix (strip : Text → Text) (configured : Text) (appRootPath rootPath : Option Text) : Text :=
  let configured := normalizePrefix strip (some configured)
  let external := normalizePrefix strip (some (orSlash appRootPath))
  if external ≠ ['/'] then combinePrefixes strip external configured
  else if configured = ['/'] then normalizePrefix strip (some (orSlash rootPath))
  else configured

end DashWeb
end Asyncz
