/-!
# Specification of the dashboard's middlewares (C46-C48)
-/
namespace Asyncz
namespace Web
namespace Spec

/-- Texts. -/
abbrev Text := List Char

/-- `path` is the entry `p` itself or lies below it -/
def Under (p path : Text) : Prop := path = p ∨ ∃ rest, path = p ++ '/' :: rest

/-- A request path that lies in the application mounted at `root`, and its path relative to it: the mount
point itself is `/`; below it, what follows the mount point. -/
inductive Relative (root : Text) : Text → Text → Prop where
  | top (h : root ≠ []) : Relative root root ['/']
  | below (rest : Text) : Relative root (root ++ '/' :: rest) ('/' :: rest)

/-- the values of the headers with that name -/
def valuesOf (lower : Text → Text) (name : Text) (headers : List (Text × Text)) : List Text :=
  (headers.filter fun h => decide (lower h.1 = name)).map (·.2)

/-- a normalised prefix: `/` itself, or a text that starts with a slash and does not end in one -/
def Normal (p : Text) : Prop := p = ['/'] ∨ (∃ r, p = '/' :: r) ∧ ¬ ∃ r, p = r ++ ['/']

/-- HTMX announces itself: the first header named `hx-request` is `true` -/
def Hx (lower : Text → Text) (headers : List (Text × Text)) : Prop :=
  (valuesOf lower "hx-request".toList headers).head? = some "true".toList

/-- the security headers of the dashboard and their values -/
def promised : List (Text × Text) :=
  [("content-security-policy".toList,
      ("default-src 'self'; script-src 'self'; style-src 'self' 'unsafe-inline'; " ++
       "img-src 'self' data:; font-src 'self' data:; connect-src 'self'; " ++
       "object-src 'none'; base-uri 'self'; frame-ancestors 'none'; form-action 'self'").toList),
    ("referrer-policy".toList, "same-origin".toList), ("x-content-type-options".toList, "nosniff".toList),
    ("x-frame-options".toList, "DENY".toList),
    ("permissions-policy".toList, "camera=(), microphone=(), geolocation=()".toList)]

end Spec
end Web
end Asyncz
