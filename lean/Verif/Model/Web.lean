import Verif.Model.Dashboard
/-!
# Model of the dashboard's middlewares

`contrib/dashboard/admin/middleware/{auth_gate,security_headers,forward_root_path}.py` and the way
`contrib/dashboard/admin/core.py` stacks them.  An ASGI application is a function from the scope to the
messages it sends (what it receives is not modelled); header names and values are texts (bytes read as
Latin-1).
-/
namespace Asyncz
namespace Web
open Listing (Text orEmpty)
open Dash (truthy)

/-- The entries of an ASGI scope the middlewares use; `client` is `str(client[0])` if there is a client,
`user` is `request.state.user`.
(/repo/asyncz/contrib/dashboard/admin/middleware/auth_gate.py:58-63, forward_root_path.py:51-92) -/
structure Scope (υ : Type) where
  type_ : Text
  rootPath : Option Text
  appRootPath : Option Text
  path : Option Text
  scheme : Option Text
  headers : List (Text × Text)
  client : Option Text
  user : Option υ
  deriving DecidableEq, Repr

/-- An ASGI message: a response start with status and headers, or any other.
(/repo/asyncz/contrib/dashboard/admin/middleware/security_headers.py:37-50) -/
inductive Message where
  | start (status : Nat) (headers : List (Text × Text))
  | other (body : Text)
  deriving DecidableEq, Repr

/-- An ASGI application: the messages it sends.
(/repo/asyncz/contrib/dashboard/admin/middleware/auth_gate.py:49) -/
abbrev App (υ : Type) := Scope υ → List Message

/-- What a request leads to: the wrapped application's messages, or an exception of `authenticate`.
(/repo/asyncz/contrib/dashboard/admin/middleware/auth_gate.py:80) -/
inductive Outcome where
  | sent (ms : List Message)
  | raised
  deriving DecidableEq, Repr

/-! ## Authentication gate -/

/-- The outcome of the backend's `authenticate`: an exception, a falsy value, or a user.
(/repo/asyncz/contrib/dashboard/admin/middleware/auth_gate.py:80-81) -/
inductive Auth (υ : Type) where
  | raises
  | nobody
  | user (u : υ)
  deriving DecidableEq, Repr

/-- The constructor's arguments.  (/repo/asyncz/contrib/dashboard/admin/middleware/auth_gate.py:24-47) -/
structure Gate (υ : Type) where
  authenticate : Scope υ → Auth υ
  loginPath : Text
  allowlist : List Text

/-- The path relative to the mounted application.
(/repo/asyncz/contrib/dashboard/admin/middleware/auth_gate.py:61-70) -/
def childPath {υ : Type} (scope : Scope υ) : Text :=
  let mount := orEmpty scope.rootPath
  let path := if truthy scope.path then orEmpty scope.path else ['/']
  let child :=
    if mount ≠ [] && mount.isPrefixOf path then
      (let rest := path.drop mount.length
       if rest ≠ [] then rest else ['/'])
    else path
  if ['/'].isPrefixOf child then child else '/' :: child

/-- `any(child_path == p or child_path.startswith(p + "/") for p in self.allowlist)`.
(/repo/asyncz/contrib/dashboard/admin/middleware/auth_gate.py:74) -/
def allowed (allowlist : List Text) (child : Text) : Bool :=
  allowlist.any fun p => decide (child = p) || (p ++ ['/']).isPrefixOf child

/-- `request.headers.get("hx-request") == "true"` (header names are compared in lower case; the library
returns the first match).  (/repo/asyncz/contrib/dashboard/admin/middleware/auth_gate.py:96) -/
def isHx {υ : Type} (lower : Text → Text) (scope : Scope υ) : Bool :=
  match scope.headers.find? fun h => decide (lower h.1 = "hx-request".toList) with
  | some h => decide (h.2 = "true".toList)
  | none => false

/-- The response to an unauthenticated request: 401 with `HX-Redirect`, or a redirect (303).  The library's
quoting of the redirect target is not modelled.
(/repo/asyncz/contrib/dashboard/admin/middleware/auth_gate.py:87-108) -/
def refusal {υ : Type} (lower : Text → Text) (g : Gate υ) (scope : Scope υ) : List Message :=
  let path := if truthy scope.path then orEmpty scope.path else ['/']
  let url := orEmpty scope.rootPath ++ g.loginPath ++ "?next=".toList ++ path
  if isHx lower scope then
    [.start 401 [("hx-redirect".toList, url)], .other "Authentication required".toList]
  else [.start 303 [("location".toList, url)], .other []]

/-- `AuthGateMiddleware.__call__`.
(/repo/asyncz/contrib/dashboard/admin/middleware/auth_gate.py:49-108) -/
def authGate {υ : Type} (lower : Text → Text) (g : Gate υ) (app : App υ) (scope : Scope υ) : Outcome :=
  if scope.type_ ≠ "http".toList then .sent (app scope)
  else if allowed g.allowlist (childPath scope) then .sent (app scope)
  else match g.authenticate scope with
    | .raises => .raised
    | .user u => .sent (app { scope with user := some u })
    | .nobody => .sent (refusal lower g scope)

/-- The allow-list `AsynczAdmin` gives to the gate; `urlPrefix` is already stripped of trailing slashes.
(/repo/asyncz/contrib/dashboard/admin/core.py:61,85,187-201) -/
def adminAllowlist (allowlist : List Text) (urlPrefix : Text) : List Text :=
  if urlPrefix ≠ [] && urlPrefix ≠ ['/'] then
    allowlist ++ [urlPrefix ++ "/static".toList, urlPrefix ++ "/assets".toList]
  else allowlist

/-- The default allow-list.
(/repo/asyncz/contrib/dashboard/admin/middleware/auth_gate.py:29, admin/core.py:61) -/
def defaultAllowlist : List Text :=
  ["/login".toList, "/logout".toList, "/static".toList, "/assets".toList]

/-! ## Security headers -/

/-- `send_with_headers`, for one message.
(/repo/asyncz/contrib/dashboard/admin/middleware/security_headers.py:37-50) -/
def addHeaders (lower : Text → Text) (configured : List (Text × Text)) (scheme : Option Text) :
    Message → Message
  | .other b => .other b
  | .start status headers =>
    let existing := headers.map fun h => lower h.1
    let added := configured.filter fun h => decide (h.1 ∉ existing)
    let hsts :=
      if scheme = some "https".toList && decide ("strict-transport-security".toList ∉ existing) then
        [("strict-transport-security".toList, "max-age=31536000; includeSubDomains".toList)]
      else []
    .start status (headers ++ added ++ hsts)

/-- `SecurityHeadersMiddleware.__call__`.
(/repo/asyncz/contrib/dashboard/admin/middleware/security_headers.py:32-52) -/
def securityHeaders {υ : Type} (lower : Text → Text) (configured : List (Text × Text))
    (app : Scope υ → Outcome) (scope : Scope υ) : Outcome :=
  if scope.type_ ≠ "http".toList then app scope
  else match app scope with
    | .raised => .raised
    | .sent ms => .sent (ms.map (addHeaders lower configured scope.scheme))

/-- `DEFAULT_SECURITY_HEADERS`.
(/repo/asyncz/contrib/dashboard/admin/middleware/security_headers.py:7-18) -/
def defaultHeaders : List (Text × Text) :=
  [("content-security-policy".toList,
      ("default-src 'self'; script-src 'self'; style-src 'self' 'unsafe-inline'; img-src 'self' data:; " ++
      "font-src 'self' data:; connect-src 'self'; object-src 'none'; base-uri 'self'; " ++
      "frame-ancestors 'none'; form-action 'self'").toList),
    ("referrer-policy".toList, "same-origin".toList),
    ("x-content-type-options".toList, "nosniff".toList),
    ("x-frame-options".toList, "DENY".toList),
    ("permissions-policy".toList, "camera=(), microphone=(), geolocation=()".toList)]

/-! ## Forwarded prefix -/

/-- The part of `ipaddress` used: parsing an address and a network (`strict=False`), membership (a version
mismatch is `False`).  (/repo/asyncz/contrib/dashboard/admin/middleware/forward_root_path.py:98-108) -/
structure Ip (α ν : Type) where
  address : Text → Option α
  network : Text → Option ν
  contains : ν → α → Bool

/-- `_is_trusted`.
(/repo/asyncz/contrib/dashboard/admin/middleware/forward_root_path.py:87-109) -/
def isTrusted {υ α ν : Type} (ip : Ip α ν) (trusted : List Text) (scope : Scope υ) : Bool :=
  if ['*'] ∈ trusted then true
  else
    let host := orEmpty scope.client
    if host = [] then false
    else if host ∈ trusted then true
    else match ip.address host with
      | none => false
      | some a => trusted.any fun v => match ip.network v with
        | some n => ip.contains n a
        | none => false

/-- `str.rstrip("/")`.
(/repo/asyncz/contrib/dashboard/admin/middleware/forward_root_path.py:68,78) -/
def rstripSlash (t : Text) : Text := (t.reverse.dropWhile fun c => c = '/').reverse

/-- `{k.lower(): v for k, v in headers}.get(name)`: the last one wins.
(/repo/asyncz/contrib/dashboard/admin/middleware/forward_root_path.py:53-55) -/
def headerGet (lower : Text → Text) (headers : List (Text × Text)) (name : Text) : Option Text :=
  (headers.reverse.find? fun h => decide (lower h.1 = name)).map (·.2)

/-- The prefix as normalised, combined with the existing one.
(/repo/asyncz/contrib/dashboard/admin/middleware/forward_root_path.py:61-78) -/
def combined {υ : Type} (p : Text) (scope : Scope υ) : Text :=
  let p := if ['/'].isPrefixOf p then p else '/' :: p
  let p := if p ≠ ['/'] then rstripSlash p else p
  let existing := if truthy scope.appRootPath then orEmpty scope.appRootPath
    else if truthy scope.rootPath then orEmpty scope.rootPath else []
  let existing := if existing ≠ [] && !['/'].isPrefixOf existing then '/' :: existing else existing
  let r := rstripSlash (p ++ existing)
  if r ≠ [] then r else ['/']

/-- The scope `ForwardedPrefixMiddleware` hands on; `strip` is `str.strip`.
(/repo/asyncz/contrib/dashboard/admin/middleware/forward_root_path.py:42-85) -/
def forwardedScope {υ α ν : Type} (lower strip : Text → Text) (ip : Ip α ν) (trusted : List Text)
    (headerName : Text) (scope : Scope υ) : Scope υ :=
  if (scope.type_ = "http".toList ∨ scope.type_ = "websocket".toList) ∧ isTrusted ip trusted scope then
    match headerGet lower scope.headers (lower headerName) with
    | some (c :: b) =>
      let p := strip (c :: b)
      if p ≠ [] ∧ p ≠ ['/'] then { scope with appRootPath := some (combined p scope) } else scope
    | _ => scope
  else scope

/-- The scope behind the optional first middleware.  (/repo/asyncz/contrib/dashboard/admin/core.py:275-282) -/
def adminScope {υ α ν : Type} (lower strip : Text → Text) (ip : Ip α ν) (forward : Option (List Text))
    (scope : Scope υ) : Scope υ :=
  match forward with
  | some trusted => forwardedScope lower strip ip trusted "x-forwarded-prefix".toList scope
  | none => scope

/-- The stack `AsynczAdmin.get_asgi_app` builds around the routed application when login is enabled
(CORS and sessions, which are library code, left out): forwarded prefix (optional), security headers,
gate.  (/repo/asyncz/contrib/dashboard/admin/core.py:272-305) -/
def adminApp {υ α ν : Type} (lower strip : Text → Text) (ip : Ip α ν) (forward : Option (List Text))
    (g : Gate υ) (app : App υ) (scope : Scope υ) : Outcome :=
  securityHeaders lower defaultHeaders (authGate lower g app) (adminScope lower strip ip forward scope)

/-! ## Session backend -/

/-- A value kept in a session or in a user's extra data: what matters is its truth value.
(/repo/asyncz/contrib/dashboard/admin/backends.py:58-60,99-104) -/
abbrev SessionData := Dict Text Text

/-- `User`: id, name, is_admin (as texts) and extras.
(/repo/asyncz/contrib/dashboard/admin/protocols.py:9-30) -/
structure User where
  id : Text
  name : Text
  isAdmin : Text
  extra : Dict Text Text
  deriving DecidableEq, Repr

/-- `User(**data)`: `none` if `id` or `name` is missing (`TypeError`); `is_admin` defaults to `True`.
(/repo/asyncz/contrib/dashboard/admin/protocols.py:17-30) -/
def User.ofData (d : SessionData) : Option User :=
  match d.get? "id".toList, d.get? "name".toList with
  | some i, some n =>
    some ⟨i, n, (d.get? "is_admin".toList).getD "True".toList,
      ((d.erase "id".toList).erase "name".toList).erase "is_admin".toList⟩
  | _, _ => none

/-- `{"id": ..., "name": ..., "is_admin": ..., **user.extra}`.
(/repo/asyncz/contrib/dashboard/admin/backends.py:99-104) -/
def sessionOf (u : User) : SessionData :=
  u.extra.foldl (fun d kv => d.set kv.1 kv.2)
    [("id".toList, u.id), ("name".toList, u.name), ("is_admin".toList, u.isAdmin)]

/-- The session: what is stored under the backend's key.
(/repo/asyncz/contrib/dashboard/admin/backends.py:58,99,121) -/
abbrev Session := Option SessionData

/-- `authenticate`.  (/repo/asyncz/contrib/dashboard/admin/backends.py:48-60) -/
def authenticate (s : Session) : Auth User :=
  match s with
  | none => .nobody
  | some [] => .nobody
  | some d => match User.ofData d with
    | some u => .user u
    | none => .raises

/-- Requests to the sign-in pages: a POST with user name and password (`strip` applied to the former), a
GET of the form, the logout page.  (/repo/asyncz/contrib/dashboard/admin/backends.py:62-122) -/
inductive SignIn where
  | form
  | post (username password : Text)
  | logout
  deriving DecidableEq, Repr

/-- The session after the request.  (/repo/asyncz/contrib/dashboard/admin/backends.py:62-122) -/
def signIn (strip : Text → Text) (verify : Text → Text → Option User) (s : Session) : SignIn → Session
  | .form => s
  | .post n p => match verify (strip n) p with
    | none => s
    | some u => some (sessionOf u)
  | .logout => none

end Web
end Asyncz
