import Verif.Model.Web
import Verif.Spec.Web
import Verif.Props.Dash
/-!
# C46, C47, C48, C60: the dashboard's middlewares and sign-in
-/
namespace Asyncz
namespace Web
open Listing (Text orEmpty)
open Dash (truthy)

/-! ## C46: the authentication gate -/

section
variable {υ : Type}

/-- the path of a request: `/` if the scope has none -/
def requestPath (scope : Scope υ) : Text := if truthy scope.path then orEmpty scope.path else ['/']

theorem childPath_relative {scope : Scope υ} {r : Text}
    (h : Spec.Relative (scope.rootPath.getD []) (requestPath scope) r) : childPath scope = r := by
  have hp : (if truthy scope.path then orEmpty scope.path else ['/']) = requestPath scope := rfl
  unfold childPath
  simp only [hp]
  generalize requestPath scope = path at h
  have horE : orEmpty scope.rootPath = scope.rootPath.getD [] := rfl
  rw [horE]
  generalize scope.rootPath.getD [] = root at h
  cases h with
  | top hne =>
    simp [hne]
  | below rest =>
    by_cases hr : root = []
    · subst hr
      simp [List.isPrefixOf]
    · have : root.isPrefixOf (root ++ '/' :: rest) = true := by
        simp [List.isPrefixOf_iff_prefix]
      simp [hr, this, List.isPrefixOf]

theorem allowed_iff (l : List Text) (child : Text) :
    allowed l child = true ↔ ∃ p ∈ l, Spec.Under p child := by
  unfold allowed Spec.Under
  simp only [List.any_eq_true, Bool.or_eq_true, decide_eq_true_eq, List.isPrefixOf_iff_prefix]
  constructor
  · rintro ⟨p, hp, h | ⟨t, ht⟩⟩
    · exact ⟨p, hp, .inl h⟩
    · exact ⟨p, hp, .inr ⟨t, by rw [← ht]; simp⟩⟩
  · rintro ⟨p, hp, h | ⟨t, ht⟩⟩
    · exact ⟨p, hp, .inl h⟩
    · exact ⟨p, hp, .inr ⟨t, by rw [ht]; simp⟩⟩

theorem isHx_iff (lower : Text → Text) (scope : Scope υ) : isHx lower scope = true ↔ Spec.Hx lower scope.headers := by
  unfold isHx Spec.Hx Spec.valuesOf
  induction scope.headers with
  | nil => simp
  | cons h t ih =>
    by_cases hh : lower h.1 = "hx-request".toList
    · simp [List.find?_cons, List.filter_cons, hh]
    · simp only [List.find?_cons, List.filter_cons, hh, decide_false, Bool.false_eq_true, if_false]
      exact ih

/-- **C46.**  An HTTP request to the mounted application whose relative path is not allow-listed reaches the
application only with a user the backend returned (who is then attached to the request); without one the
answer is the same whatever the application is: a redirect (303) to the login page, or for an HTMX request a
401 that asks for it; an exception of the backend is passed on.  An allow-listed request reaches the
application as it is.  Missing from the full property: a path that merely starts with the mount point's text
(`gate_boundary_witness`), and requests that are not HTTP (`gate_websocket_witness`). -/
theorem gate_partial (lower : Text → Text) (g : Gate υ) (scope : Scope υ)
    (hhttp : scope.type_ = "http".toList) {r : Text}
    (hrel : Spec.Relative (scope.rootPath.getD []) (requestPath scope) r) :
    ((∃ p ∈ g.allowlist, Spec.Under p r) → ∀ app, authGate lower g app scope = .sent (app scope)) ∧
    ((¬ ∃ p ∈ g.allowlist, Spec.Under p r) →
      (∀ u, g.authenticate scope = .user u →
        ∀ app, authGate lower g app scope = .sent (app { scope with user := some u })) ∧
      (g.authenticate scope = .raises → ∀ app, authGate lower g app scope = .raised) ∧
      (g.authenticate scope = .nobody → ∃ ms, (∀ app, authGate lower g app scope = .sent ms) ∧
        ∃ status name body, ms = [.start status
            [(name, scope.rootPath.getD [] ++ g.loginPath ++ "?next=".toList ++ requestPath scope)],
            .other body] ∧
          ((Spec.Hx lower scope.headers ∧ status = 401 ∧ name = "hx-redirect".toList) ∨
           (¬ Spec.Hx lower scope.headers ∧ status = 303 ∧ name = "location".toList)))) := by
  have hc := childPath_relative hrel
  have hne : ¬ scope.type_ ≠ "http".toList := fun h => h hhttp
  refine ⟨fun ha app => ?_, fun ha => ⟨fun u hu app => ?_, fun hr app => ?_, fun hn => ?_⟩⟩
  · rw [authGate, if_neg hne, hc, if_pos ((allowed_iff _ _).2 ha)]
  all_goals
    have hna : ¬ allowed g.allowlist (childPath scope) = true := by
      rw [hc, allowed_iff]; exact ha
  · rw [authGate, if_neg hne, if_neg hna, hu]
  · rw [authGate, if_neg hne, if_neg hna, hr]
  · refine ⟨refusal lower g scope, fun app => ?_, ?_⟩
    · rw [authGate, if_neg hne, if_neg hna, hn]
    · unfold refusal
      cases hx : isHx lower scope with
      | true => exact ⟨_, _, _, rfl, .inl ⟨(isHx_iff lower scope).1 hx, rfl, rfl⟩⟩
      | false => exact ⟨_, _, _, rfl, .inr ⟨fun h => (by rw [(isHx_iff lower scope).2 h] at hx; cases hx), rfl, rfl⟩⟩

/-- a request -/
def exScope (type_ root path : String) : Scope υ :=
  ⟨type_.toList, some root.toList, none, some path.toList, none, [], none, none⟩

/-- a gate that lets nobody in -/
def exGate : Gate υ := ⟨fun _ => .nobody, "/login".toList, defaultAllowlist⟩

/-- **C46 fails at the boundary of the mount point:** with the application mounted at `/root`, the path
`/rootlogin`, which is not below it, is taken for `/login` and let through. -/
theorem gate_boundary_witness (lower : Text → Text) (app : App υ) :
    authGate lower exGate app (exScope "http" "/root" "/rootlogin") =
      .sent (app (exScope "http" "/root" "/rootlogin")) := by
  rfl

/-- **C46 does not cover other connections:** a websocket connection reaches the application without
authentication, whatever its path. -/
theorem gate_websocket_witness (lower : Text → Text) (g : Gate υ) (app : App υ) (scope : Scope υ)
    (h : scope.type_ = "websocket".toList) : authGate lower g app scope = .sent (app scope) := by
  rw [authGate, if_pos (by rw [h]; decide)]

/-- the hypotheses hold: a page below the mount point, and one on the allow-list -/
example : Spec.Relative ((exScope (υ := Nat) "http" "/root" "/root/tasks").rootPath.getD [])
      (requestPath (exScope (υ := Nat) "http" "/root" "/root/tasks")) "/tasks".toList ∧
    (¬ ∃ p ∈ defaultAllowlist, Spec.Under p "/tasks".toList) ∧
    ∃ p ∈ defaultAllowlist, Spec.Under p "/static/app.css".toList := by
  refine ⟨Spec.Relative.below "tasks".toList, ?_, ?_⟩
  · rw [← allowed_iff]; decide +kernel
  · rw [← allowed_iff]; decide +kernel

theorem under_of_append {p pre rest : Text} (h : Spec.Under p (pre ++ '/' :: rest))
    (hslash : ∃ q, p = '/' :: q ∧ '/' ∉ q) (hpre : pre ≠ []) : Spec.Under p pre := by
  obtain ⟨q, rfl, hq⟩ := hslash
  cases pre with
  | nil => exact absurd rfl hpre
  | cons c pre =>
    have key : ∃ t, pre ++ '/' :: rest = q ++ t ∧ (t = [] ∨ ∃ u, t = '/' :: u) ∧ c = '/' := by
      rcases h with h | ⟨u, h⟩
      · simp only [List.cons_append, List.cons.injEq] at h
        exact ⟨[], by simp [h.2], .inl rfl, h.1⟩
      · simp only [List.cons_append, List.cons.injEq] at h
        exact ⟨'/' :: u, h.2, .inr ⟨u, rfl⟩, h.1⟩
    obtain ⟨t, ht, htt, rfl⟩ := key
    -- compare `pre` and `q`
    rcases List.append_eq_append_iff.1 ht with ⟨a, ha, hb⟩ | ⟨a, ha, hb⟩
    · -- q = pre ++ a
      cases a with
      | nil =>
        left
        simp only [List.append_nil] at ha
        rw [ha]
      | cons d a =>
        simp only [List.cons_append, List.cons.injEq] at hb
        exact absurd (by rw [ha, ← hb.1]; simp) hq
    · -- pre = q ++ a
      cases a with
      | nil =>
        left
        simp only [List.append_nil] at ha
        rw [ha]
      | cons d a =>
        right
        rcases htt with rfl | ⟨u, rfl⟩
        · simp at hb
        · simp only [List.cons_append, List.cons.injEq] at hb
          exact ⟨a, by rw [ha, ← hb.1]; rfl⟩

/-- **C46, the allow-list of the dashboard**: the paths given to the constructor, and `/static` and `/assets` below the prefix of
the dashboard if it has one. -/
theorem adminAllowlist_iff (l : List Text) (pre p : Text) : p ∈ adminAllowlist l pre ↔
    p ∈ l ∨ ((pre ≠ [] ∧ pre ≠ ['/']) ∧ (p = pre ++ "/static".toList ∨ p = pre ++ "/assets".toList)) := by
  unfold adminAllowlist
  by_cases h : pre ≠ [] ∧ pre ≠ ['/']
  · rw [if_pos (by simp [h.1, h.2])]; simp [h.1, h.2]
  · rw [if_neg (by simpa using h)]
    constructor
    · exact .inl
    · rintro (h' | h')
      · exact h'
      · exact absurd h'.1 h

example : adminAllowlist [] ['/'] = [] ∧ "/d/static".toList ∈ adminAllowlist [] "/d".toList := by decide

/-- **C46, the dashboard's own pages.**  With the default allow-list, every page below the URL prefix other
than those of `/static` and `/assets` is gated, provided the prefix itself is not below an allow-listed
path (see `admin_prefix_witness`). -/
theorem admin_pages_gated (lower : Text → Text) (g : Gate υ) (pre : Text) (hpre : pre ≠ [] ∧ pre ≠ ['/'])
    (hlist : g.allowlist = adminAllowlist defaultAllowlist pre)
    (hout : ∀ p ∈ defaultAllowlist, ¬ Spec.Under p pre)
    (scope : Scope υ) (hhttp : scope.type_ = "http".toList) (hroot : scope.rootPath.getD [] = [])
    (rest : Text) (hpath : scope.path = some (pre ++ '/' :: rest)) (hs : ∃ q, pre = '/' :: q)
    (hstatic : ¬ Spec.Under "static".toList rest ∧ ¬ Spec.Under "assets".toList rest)
    (hnobody : g.authenticate scope = .nobody) :
    ∃ ms, ∀ app, authGate lower g app scope = .sent ms := by
  obtain ⟨q, hq⟩ := hs
  have hreq : requestPath scope = pre ++ '/' :: rest := by
    have : truthy (some (pre ++ '/' :: rest)) = true :=
      (Dash.truthy_iff _).2 ⟨by simp, by simp⟩
    rw [requestPath, hpath, if_pos this]; rfl
  have hrel : Spec.Relative (scope.rootPath.getD []) (requestPath scope) (pre ++ '/' :: rest) := by
    rw [hroot, hreq, hq]
    exact Spec.Relative.below (q ++ '/' :: rest)
  have h := gate_partial lower g scope hhttp hrel
  have hna : ¬ ∃ p ∈ g.allowlist, Spec.Under p (pre ++ '/' :: rest) := by
    rintro ⟨p, hp, hu⟩
    have hl : adminAllowlist defaultAllowlist pre =
        defaultAllowlist ++ [pre ++ "/static".toList, pre ++ "/assets".toList] := by
      unfold adminAllowlist
      rw [if_pos (by simp [hpre.1, hpre.2])]
    rw [hlist, hl, List.mem_append] at hp
    rcases hp with hp | hp
    · refine hout p hp (under_of_append hu ?_ hpre.1)
      simp only [defaultAllowlist, List.mem_cons, List.not_mem_nil, or_false] at hp
      rcases hp with rfl | rfl | rfl | rfl
      · exact ⟨"login".toList, by decide, by decide⟩
      · exact ⟨"logout".toList, by decide, by decide⟩
      · exact ⟨"static".toList, by decide, by decide⟩
      · exact ⟨"assets".toList, by decide, by decide⟩
    · have hcut : ∀ w : Text, Spec.Under (pre ++ '/' :: w) (pre ++ '/' :: rest) → Spec.Under w rest := by
        rintro w (h | ⟨u, h⟩)
        · simp only [List.append_cancel_left_eq, List.cons.injEq, true_and] at h
          exact .inl h
        · simp only [List.append_assoc, List.cons_append, List.append_cancel_left_eq, List.cons.injEq,
            true_and] at h
          exact .inr ⟨u, h⟩
      simp only [List.mem_cons, List.not_mem_nil, or_false] at hp
      rcases hp with rfl | rfl
      · exact hstatic.1 (hcut _ hu)
      · exact hstatic.2 (hcut _ hu)
  obtain ⟨ms, hms, _⟩ := (h.2 hna).2.2 hnobody
  exact ⟨ms, hms⟩

/-- **C46 fails for some URL prefixes:** a dashboard served below `/static` (or `/assets`, `/login`,
`/logout`) is open to everyone. -/
theorem admin_prefix_witness (lower : Text → Text) (app : App υ) :
    authGate lower ⟨fun _ => .nobody, "/login".toList,
        adminAllowlist defaultAllowlist "/static/dashboard".toList⟩ app
        (exScope "http" "" "/static/dashboard/tasks") =
      .sent (app (exScope "http" "" "/static/dashboard/tasks")) := by
  rfl

/-- the hypotheses of `admin_pages_gated` hold for the usual prefix -/
example : ("/dashboard".toList ≠ [] ∧ "/dashboard".toList ≠ ['/']) ∧
    (∀ p ∈ defaultAllowlist, ¬ Spec.Under p "/dashboard".toList) ∧
    (¬ Spec.Under "static".toList "tasks/7".toList ∧ ¬ Spec.Under "assets".toList "tasks/7".toList) := by
  refine ⟨by decide, ?_, ?_, ?_⟩
  · intro p hp hu
    have : allowed defaultAllowlist "/dashboard".toList = true := (allowed_iff _ _).2 ⟨p, hp, hu⟩
    revert this; decide
  · intro hu
    have : allowed ["static".toList] "tasks/7".toList = true := (allowed_iff _ _).2 ⟨_, by simp, hu⟩
    revert this; decide
  · intro hu
    have : allowed ["assets".toList] "tasks/7".toList = true := (allowed_iff _ _).2 ⟨_, by simp, hu⟩
    revert this; decide

end

/-! ## C47: security headers -/

/-- **C47.**  For configured headers with distinct lower-case names: every response start keeps its status and
all the application's headers, in their place; what is added are configured headers (and, over HTTPS, the
strict transport security header) that the application has not set itself, under any spelling; so for each
configured name the response has the application's values if there are any, and otherwise exactly the
configured one.  Other messages are not changed. -/
theorem addHeaders_spec (lower : Text → Text) (configured : List (Text × Text)) (scheme : Option Text)
    (hlow : ∀ h ∈ configured, lower h.1 = h.1) (hnodup : (configured.map (·.1)).Nodup)
    (hhsts : "strict-transport-security".toList ∉ configured.map (·.1))
    (hlowS : lower "strict-transport-security".toList = "strict-transport-security".toList) :
    (∀ body, addHeaders lower configured scheme (.other body) = .other body) ∧
    ∀ status headers, ∃ added,
      addHeaders lower configured scheme (.start status headers) = .start status (headers ++ added) ∧
      (∀ h ∈ added, h ∈ configured ∨ (h.1 = "strict-transport-security".toList ∧
        scheme = some "https".toList)) ∧
      (∀ n v, (n, v) ∈ configured → Spec.valuesOf lower n (headers ++ added) =
        if Spec.valuesOf lower n headers = [] then [v] else Spec.valuesOf lower n headers) ∧
      (scheme = some "https".toList → Spec.valuesOf lower "strict-transport-security".toList (headers ++ added) =
        if Spec.valuesOf lower "strict-transport-security".toList headers = [] then
          ["max-age=31536000; includeSubDomains".toList]
        else Spec.valuesOf lower "strict-transport-security".toList headers) := by
  refine ⟨fun _ => rfl, fun status headers => ?_⟩
  have hno : ∀ n, n ∉ headers.map (fun h => lower h.1) ↔ Spec.valuesOf lower n headers = [] := by
    intro n
    simp only [Spec.valuesOf, List.map_eq_nil_iff, List.filter_eq_nil_iff, decide_eq_true_eq,
      List.mem_map, not_exists, not_and]
  have happ : ∀ n a b, Spec.valuesOf lower n (a ++ b) = Spec.valuesOf lower n a ++ Spec.valuesOf lower n b := by
    intro n a b; simp [Spec.valuesOf]
  generalize hS : "strict-transport-security".toList = S at *
  generalize hV : "max-age=31536000; includeSubDomains".toList = V at *
  generalize hE : "https".toList = E at *
  refine ⟨(configured.filter fun h => decide (h.1 ∉ headers.map fun h => lower h.1)) ++
    (if scheme = some E && decide (S ∉ headers.map fun h => lower h.1) then [(S, V)] else []), ?_, ?_, ?_, ?_⟩
  · simp only [addHeaders, hS, hV, hE, List.append_assoc]
  · intro h hm
    rcases List.mem_append.1 hm with hm | hm
    · exact .inl (List.mem_filter.1 hm).1
    · split at hm
      · rename_i hc
        simp only [List.mem_singleton] at hm
        subst hm
        simp only [Bool.and_eq_true, decide_eq_true_eq] at hc
        exact .inr ⟨rfl, hc.1⟩
      · cases hm
  · intro n v hm
    have hln : lower n = n := hlow _ hm
    have hSn : S ≠ n := by
      intro e; subst e; exact hhsts (List.mem_map.2 ⟨_, hm, rfl⟩)
    have hpart2 : Spec.valuesOf lower n (if scheme = some E && decide (S ∉ headers.map fun h => lower h.1)
        then [(S, V)] else []) = [] := by
      split
      · simp [Spec.valuesOf, hlowS, hSn]
      · rfl
    have hpart1 : Spec.valuesOf lower n (configured.filter fun h =>
        decide (h.1 ∉ headers.map fun h => lower h.1)) =
        if Spec.valuesOf lower n headers = [] then [v] else [] := by
      have hconf : ∀ l : List (Text × Text), (∀ h ∈ l, lower h.1 = h.1) → (l.map (·.1)).Nodup →
          Spec.valuesOf lower n (l.filter fun h => decide (h.1 ∉ headers.map fun h => lower h.1)) =
          if Spec.valuesOf lower n headers = [] then
            (l.filter fun h => decide (h.1 = n)).map (·.2) else [] := by
        intro l hl _
        have e0 : ∀ l' : List (Text × Text), Spec.valuesOf lower n l' =
          (l'.filter fun h => decide (lower h.1 = n)).map (·.2) := fun _ => rfl
        rw [e0, List.filter_filter]
        by_cases hv : Spec.valuesOf lower n headers = []
        · rw [if_pos hv]
          congr 1
          apply List.filter_congr
          intro h hh
          rw [hl h hh]
          by_cases hhn : h.1 = n
          · simp only [hhn, decide_true, Bool.true_and, decide_eq_true_eq]
            exact (hno n).2 hv
          · simp [hhn]
        · rw [if_neg hv, List.map_eq_nil_iff, List.filter_eq_nil_iff]
          intro h hh
          rw [hl h hh]
          by_cases hhn : h.1 = n
          · simp only [hhn, decide_true, Bool.true_and, decide_eq_true_eq]
            exact fun hx => hv ((hno n).1 hx)
          · simp [hhn]
      have huniq : ∀ l : List (Text × Text), (l.map (·.1)).Nodup → (n, v) ∈ l →
          (l.filter fun h => decide (h.1 = n)).map (·.2) = [v] := by
        intro l hnd hml
        induction l with
        | nil => cases hml
        | cons h l ih =>
          simp only [List.map_cons, List.nodup_cons] at hnd
          rcases List.mem_cons.1 hml with hml | hml
          · subst hml
            have : l.filter (fun h => decide (h.1 = n)) = [] := by
              rw [List.filter_eq_nil_iff]
              intro x hx
              simp only [decide_eq_true_eq]
              intro e
              exact hnd.1 (List.mem_map.2 ⟨x, hx, e⟩)
            simp [this]
          · have hne : ¬ h.1 = n := by
              intro e
              exact hnd.1 (List.mem_map.2 ⟨_, hml, e.symm⟩)
            rw [List.filter_cons_of_neg (by simpa using hne)]
            exact ih hnd.2 hml
      rw [hconf configured hlow hnodup, huniq configured hnodup hm]
    rw [happ, happ, hpart1, hpart2]
    split
    · rename_i h0; rw [h0]; rfl
    · simp
  · intro hsch
    have hpart1 : Spec.valuesOf lower S (configured.filter fun h =>
        decide (h.1 ∉ headers.map fun h => lower h.1)) = [] := by
      simp only [Spec.valuesOf, List.map_eq_nil_iff, List.filter_eq_nil_iff, decide_eq_true_eq]
      intro h hm e
      have hm' := (List.mem_filter.1 hm).1
      rw [hlow h hm'] at e
      exact hhsts (List.mem_map.2 ⟨h, hm', e⟩)
    rw [happ, happ, hpart1]
    by_cases hv : Spec.valuesOf lower S headers = []
    · have : decide (S ∉ headers.map fun h => lower h.1) = true := decide_eq_true ((hno S).2 hv)
      rw [if_pos hv, hsch, this]
      simp [Spec.valuesOf, hlowS] at hv ⊢
      exact hv
    · have : decide (S ∉ headers.map fun h => lower h.1) = false := by
        rw [decide_eq_false_iff_not]; exact fun hh => hv ((hno S).1 hh)
      rw [if_neg hv, this]
      simp [Spec.valuesOf]

/-- the default configuration meets the hypotheses (with ASCII lower case) -/
theorem defaultHeaders_ok :
    (∀ h ∈ defaultHeaders, h.1.map Char.toLower = h.1) ∧ (defaultHeaders.map (·.1)).Nodup ∧
    "strict-transport-security".toList ∉ defaultHeaders.map (·.1) ∧
    "strict-transport-security".toList.map Char.toLower = "strict-transport-security".toList := by
  decide +kernel

/-- the code's list is the promised one -/
theorem promised_eq : Spec.promised = defaultHeaders := by decide +kernel

/-- **C47 needs lower-case names:** a header configured as `X-Frame-Options` is added even if the application
has set it. -/
theorem addHeaders_capital_witness :
    addHeaders (·.map Char.toLower) [("X-Frame-Options".toList, "DENY".toList)] none
      (.start 200 [("x-frame-options".toList, "SAMEORIGIN".toList)]) =
    .start 200 [("x-frame-options".toList, "SAMEORIGIN".toList), ("X-Frame-Options".toList, "DENY".toList)] := by
  decide +kernel

/-- an application's own policy is kept, the others are added -/
example : (match addHeaders (·.map Char.toLower) defaultHeaders (some "https".toList)
      (.start 200 [("Referrer-Policy".toList, "no-referrer".toList)]) with
    | .start s h => (s, h.map (fun x => String.ofList x.1))
    | .other _ => (0, [])) = (200, ["Referrer-Policy", "content-security-policy", "x-content-type-options",
      "x-frame-options", "permissions-policy", "strict-transport-security"]) := by decide +kernel

/-- **C47 for the whole dashboard.**  Every response start of the stacked application to an HTTP request,
be it a page or the refusal of the gate, carries each promised security header: as the page itself set it, or with the
promised value. -/
theorem admin_headers {υ α ν : Type} (lower strip : Text → Text) (ip : Ip α ν) (forward : Option (List Text))
    (g : Gate υ) (app : App υ) (scope : Scope υ) (hhttp : scope.type_ = "http".toList)
    (hlow : ∀ h ∈ defaultHeaders, lower h.1 = h.1)
    (hlowS : lower "strict-transport-security".toList = "strict-transport-security".toList)
    {ms : List Message} (hms : adminApp lower strip ip forward g app scope = .sent ms)
    {status : Nat} {headers : List (Text × Text)} (hm : .start status headers ∈ ms) :
    ∃ own, (∃ l, authGate lower g app (adminScope lower strip ip forward scope) = .sent l ∧ .start status own ∈ l) ∧ own <+: headers ∧
      ∀ n v, (n, v) ∈ Spec.promised → Spec.valuesOf lower n headers =
        if Spec.valuesOf lower n own = [] then [v] else Spec.valuesOf lower n own := by
  unfold adminApp at hms
  have ht : (adminScope lower strip ip forward scope).type_ = "http".toList := by
    cases forward with
    | none => exact hhttp
    | some trusted =>
      simp only [adminScope, forwardedScope]
      split
      · split
        · split <;> exact hhttp
        · exact hhttp
      · exact hhttp
  generalize adminScope lower strip ip forward scope = sc at hms ht
  rw [securityHeaders, if_neg (fun h => h ht)] at hms
  cases ho : authGate lower g app sc with
  | raised => rw [ho] at hms; cases hms
  | sent l =>
    rw [ho] at hms
    simp only [Outcome.sent.injEq] at hms
    subst hms
    obtain ⟨m0, hm0, he⟩ := List.mem_map.1 hm
    cases m0 with
    | other b => cases he
    | start st hd =>
      have hspec := (addHeaders_spec lower defaultHeaders sc.scheme hlow defaultHeaders_ok.2.1
        defaultHeaders_ok.2.2.1 hlowS).2 st hd
      obtain ⟨added, h1, _, h3, _⟩ := hspec
      rw [h1] at he
      cases he
      exact ⟨hd, ⟨l, rfl, hm0⟩, ⟨added, rfl⟩, fun n v hnv => h3 n v (promised_eq ▸ hnv)⟩

/-! ## C48: the forwarded prefix -/

theorem rstripSlash_no_end (t : Text) : ¬ ∃ r, rstripSlash t = r ++ ['/'] := by
  rintro ⟨r, h⟩
  unfold rstripSlash at h
  have h' := congrArg List.reverse h
  simp only [List.reverse_reverse, List.reverse_append, List.reverse_cons, List.reverse_nil,
    List.nil_append, List.singleton_append] at h'
  have := List.head?_dropWhile_not (fun c : Char => decide (c = '/')) t.reverse
  rw [h'] at this
  simp at this

theorem rstripSlash_append (t : Text) : ∃ n : Nat, t = rstripSlash t ++ List.replicate n '/' := by
  refine ⟨(t.reverse.takeWhile fun c => c = '/').length, ?_⟩
  have h := List.takeWhile_append_dropWhile (p := fun c : Char => decide (c = '/')) (l := t.reverse)
  have h2 : t.reverse.takeWhile (fun c : Char => decide (c = '/')) =
      List.replicate (t.reverse.takeWhile fun c => c = '/').length '/' := by
    rw [List.eq_replicate_iff]
    refine ⟨rfl, ?_⟩
    intro b hb
    have := List.all_takeWhile (p := fun c : Char => decide (c = '/')) (l := t.reverse)
    rw [List.all_eq_true] at this
    simpa using this b hb
  have h3 := congrArg List.reverse h
  simp only [List.reverse_append, List.reverse_reverse] at h3
  rw [h2, List.reverse_replicate] at h3
  exact h3.symm

theorem rstripSlash_head {c : Char} {t : Text} (h : rstripSlash (c :: t) ≠ []) :
    ∃ r, rstripSlash (c :: t) = c :: r := by
  obtain ⟨n, hn⟩ := rstripSlash_append (c :: t)
  cases hr : rstripSlash (c :: t) with
  | nil => exact absurd hr h
  | cons d r =>
    rw [hr] at hn
    simp only [List.cons_append, List.cons.injEq] at hn
    exact ⟨r, by rw [hn.1]⟩

theorem combined_normal {υ : Type} (p : Text) (scope : Scope υ) : Spec.Normal (combined p scope) := by
  have key : ∀ a b : Text, ((∃ r, a = '/' :: r) ∨ a = []) → ((∃ r, b = '/' :: r) ∨ b = []) →
      Spec.Normal (if rstripSlash (a ++ b) ≠ [] then rstripSlash (a ++ b) else ['/']) := by
    intro a b ha hb
    split
    · rename_i hne
      refine .inr ⟨?_, rstripSlash_no_end _⟩
      have : ∃ r, a ++ b = '/' :: r := by
        rcases ha with ⟨r, rfl⟩ | rfl
        · exact ⟨r ++ b, rfl⟩
        · rcases hb with ⟨r, rfl⟩ | rfl
          · exact ⟨r, rfl⟩
          · simp [rstripSlash] at hne
      obtain ⟨r, hr⟩ := this
      rw [hr] at hne ⊢
      exact rstripSlash_head hne
    · exact .inl rfl
  unfold combined
  apply key
  · have h1 : ∃ r, (if ['/'].isPrefixOf p then p else '/' :: p) = '/' :: r := by
      split
      · rename_i h
        obtain ⟨t, ht⟩ := List.isPrefixOf_iff_prefix.1 h
        exact ⟨t, ht.symm⟩
      · exact ⟨p, rfl⟩
    obtain ⟨r, hr⟩ := h1
    rw [hr]
    split
    · by_cases hne : rstripSlash ('/' :: r) = []
      · exact .inr hne
      · exact .inl (rstripSlash_head hne)
    · exact .inl ⟨r, rfl⟩
  · generalize (if truthy scope.appRootPath then orEmpty scope.appRootPath
      else if truthy scope.rootPath then orEmpty scope.rootPath else []) = ex
    cases ex with
    | nil => exact .inr rfl
    | cons c ex =>
      by_cases hc : c = '/'
      · subst hc
        exact .inl ⟨ex, by simp⟩
      · left
        have : ['/'].isPrefixOf (c :: ex) = false := by
          simp only [List.isPrefixOf, Bool.and_true]
          simpa using fun e : '/' = c => hc e.symm
        exact ⟨c :: ex, by simp [this]⟩

/-- **C48.**  The scope handed on differs from the one received at most in the external root path, and only
if the connection is HTTP or a websocket, the client is trusted (`*` is configured, or its host is listed, or
its address lies in a listed network) and the last header of that name is set to something other than blanks or
a single slash; the new external root path then starts with a slash and, unless it is `/` itself, does not end
in one.  Missing from the full property: it can start with several slashes
(`forwarded_double_slash_witness`). -/
theorem forwarded_partial {υ α ν : Type} (lower strip : Text → Text) (ip : Ip α ν) (trusted : List Text)
    (name : Text) (scope : Scope υ) :
    forwardedScope lower strip ip trusted name scope = scope ∨
    ((scope.type_ = "http".toList ∨ scope.type_ = "websocket".toList) ∧
      (['*'] ∈ trusted ∨ ∃ host, scope.client = some host ∧ host ≠ [] ∧ (host ∈ trusted ∨
        ∃ a v n, ip.address host = some a ∧ v ∈ trusted ∧ ip.network v = some n ∧
          ip.contains n a = true)) ∧
      (∃ v, (Spec.valuesOf lower (lower name) scope.headers).getLast? = some v ∧ v ≠ [] ∧
        strip v ≠ [] ∧ strip v ≠ ['/']) ∧
      ∃ p, forwardedScope lower strip ip trusted name scope = { scope with appRootPath := some p } ∧
        Spec.Normal p) := by
  unfold forwardedScope
  split
  · rename_i h
    split
    · rename_i c b hg
      dsimp only
      split
      · rename_i hp
        right
        refine ⟨h.1, ?_, ⟨c :: b, ?_, by simp, hp.1, hp.2⟩, _, rfl, combined_normal _ _⟩
        · have ht := h.2
          unfold isTrusted at ht
          split at ht
          · left; assumption
          · right
            dsimp only at ht
            split at ht
            · cases ht
            · rename_i hne
              have hcl : scope.client = some (orEmpty scope.client) := by
                cases hc : scope.client with
                | none => rw [hc] at hne; exact absurd rfl hne
                | some x => rfl
              refine ⟨_, hcl, hne, ?_⟩
              split at ht
              · left; assumption
              · right
                split at ht
                · cases ht
                · rename_i a ha
                  rw [List.any_eq_true] at ht
                  obtain ⟨v, hv, hc⟩ := ht
                  split at hc
                  · rename_i n hn
                    exact ⟨a, v, n, ha, hv, hn, hc⟩
                  · cases hc
        · have hlast : ∀ (l : List (Text × Text)) (nm : Text),
              headerGet lower l nm = (Spec.valuesOf lower nm l).getLast? := by
            intro l nm
            unfold headerGet Spec.valuesOf
            rw [List.getLast?_map, ← List.head?_reverse, ← List.filter_reverse, List.head?_filter]
          rw [← hlast]
          exact hg
      · left; rfl
    · left; rfl
  · left; rfl

/-- **C48 fails for prefixes with several slashes:** a trusted proxy's prefix `//evil.example` is used as it is,
so generated links point to another host. -/
theorem forwarded_double_slash_witness :
    (forwardedScope (υ := Nat) (α := Nat) (ν := Nat) (·.map Char.toLower) id
      ⟨fun _ => none, fun _ => none, fun _ _ => false⟩ ["127.0.0.1".toList] "x-forwarded-prefix".toList
      ⟨"http".toList, none, none, none, none, [("X-Forwarded-Prefix".toList, "//evil.example".toList)],
        some "127.0.0.1".toList, none⟩).appRootPath = some "//evil.example".toList := by decide +kernel

/-- a trusted client's prefix is normalised, an untrusted one's is ignored -/
example :
    (forwardedScope (υ := Nat) (α := Nat) (ν := Nat) (·.map Char.toLower) id
      ⟨fun _ => none, fun _ => none, fun _ _ => false⟩ ["127.0.0.1".toList] "x-forwarded-prefix".toList
      ⟨"http".toList, some "app".toList, none, none, none, [("X-Forwarded-Prefix".toList, "base/".toList)],
        some "127.0.0.1".toList, none⟩).appRootPath = some "/base/app".toList ∧
    (forwardedScope (υ := Nat) (α := Nat) (ν := Nat) (·.map Char.toLower) id
      ⟨fun _ => none, fun _ => none, fun _ _ => false⟩ ["127.0.0.1".toList] "x-forwarded-prefix".toList
      ⟨"http".toList, some "app".toList, none, none, none, [("X-Forwarded-Prefix".toList, "base/".toList)],
        some "10.0.0.9".toList, none⟩).appRootPath = none := by decide +kernel

/-! ## C60: signing in -/

/-- the session after those requests -/
def sessionAfter (strip : Text → Text) (verify : Text → Text → Option User) (rs : List SignIn) : Session :=
  rs.foldl (signIn strip verify) none

/-- the user a session belongs to, according to the requests: the last successful login, unless there was a
logout since -/
def loggedIn (strip : Text → Text) (verify : Text → Text → Option User) : List SignIn → Option User
  | [] => none
  | r :: rs => match r with
    | .logout => none
    | .form => loggedIn strip verify rs
    | .post n p => match verify (strip n) p with
      | some u => some u
      | none => loggedIn strip verify rs

/-- extras that do not hide the user's own fields, as `User(...)` makes them -/
def Proper (u : User) : Prop :=
  u.extra.WF ∧ "id".toList ∉ u.extra.keys ∧ "name".toList ∉ u.extra.keys ∧ "is_admin".toList ∉ u.extra.keys

theorem sessionOf_eq (u : User) (h : Proper u) : sessionOf u =
    [("id".toList, u.id), ("name".toList, u.name), ("is_admin".toList, u.isAdmin)] ++ u.extra := by
  obtain ⟨id, name, adm, extra⟩ := u
  obtain ⟨hw, h1, h2, h3⟩ := h
  simp only at hw h1 h2 h3
  unfold sessionOf
  simp only
  have hgen : ∀ (l : Dict Text Text) (d : Dict Text Text), l.WF → (∀ k ∈ l.keys, k ∉ d.keys) →
      l.foldl (fun d kv => d.set kv.1 kv.2) d = d ++ l := by
    intro l
    induction l with
    | nil => intro d _ _; simp
    | cons kv l ih =>
      intro d hwl hd
      obtain ⟨k, v⟩ := kv
      simp only [Dict.WF, List.map_cons, List.nodup_cons] at hwl
      rw [List.foldl_cons, Dash.set_fresh _ _ _ (hd k (by simp [Dict.keys])), ih _ hwl.2]
      · simp
      · intro k' hk'
        simp only [Dict.keys, List.map_append, List.map_cons, List.map_nil, List.mem_append,
          List.mem_singleton, not_or]
        refine ⟨hd k' (by simp only [Dict.keys, List.map_cons, List.mem_cons]; exact .inr hk'), ?_⟩
        intro e
        subst e
        exact hwl.1 hk'
  apply hgen _ _ hw
  intro k hk hk'
  simp only [Dict.keys, List.map_cons, List.map_nil, List.mem_cons, List.not_mem_nil, or_false] at hk'
  rcases hk' with rfl | rfl | rfl
  · exact h1 hk
  · exact h2 hk
  · exact h3 hk

theorem ofData_sessionOf (u : User) (h : Proper u) : User.ofData (sessionOf u) = some u := by
  rw [sessionOf_eq u h]
  obtain ⟨id, name, adm, extra⟩ := u
  simp only [List.cons_append, List.nil_append]
  have e1 : ¬ "id".toList = "name".toList := by decide
  have e2 : ¬ "id".toList = "is_admin".toList := by decide
  have e3 : ¬ "name".toList = "is_admin".toList := by decide
  unfold User.ofData
  generalize "id".toList = I at e1 e2 ⊢
  generalize "name".toList = N at e1 e3 ⊢
  generalize "is_admin".toList = A at e2 e3 ⊢
  generalize "True".toList = T
  simp only [Dict.get?, Dict.erase, if_pos, if_neg e1, if_neg e2, if_neg e3, Option.getD_some]

theorem authenticate_sessionOf (u : User) (h : Proper u) : authenticate (some (sessionOf u)) = .user u := by
  have h1 := ofData_sessionOf u h
  have h2 := sessionOf_eq u h
  unfold authenticate
  rw [h2] at h1 ⊢
  simp only [List.cons_append] at h1 ⊢
  rw [h1]

/-- **C60.**  Whatever sign-in requests a browser session makes, the gate sees exactly the user of the last
successful login since the last logout, and nobody if there is none. -/
theorem signIn_partial (strip : Text → Text) (verify : Text → Text → Option User)
    (hproper : ∀ n p u, verify n p = some u → Proper u) (rs : List SignIn) :
    authenticate (sessionAfter strip verify rs) =
      match loggedIn strip verify rs.reverse with
      | some u => .user u
      | none => .nobody := by
  have key : sessionAfter strip verify rs = (loggedIn strip verify rs.reverse).map sessionOf := by
    unfold sessionAfter
    rw [← List.foldr_reverse]
    generalize rs.reverse = l
    induction l with
    | nil => rfl
    | cons r l ih =>
      rw [List.foldr_cons, ih]
      cases r with
      | form => rfl
      | logout => rfl
      | post n p =>
        simp only [signIn, loggedIn]
        cases verify (strip n) p <;> rfl
  rw [key]
  cases hl : loggedIn strip verify rs.reverse with
  | none => rfl
  | some u =>
    have hp : Proper u := by
      revert hl
      generalize rs.reverse = l
      induction l with
      | nil => intro h; cases h
      | cons r l ih =>
        intro h
        cases r with
        | form => exact ih h
        | logout => cases h
        | post n p =>
          simp only [loggedIn] at h
          split at h
          · rename_i u' hv
            cases h
            exact hproper _ _ _ hv
          · exact ih h
    exact authenticate_sessionOf u hp

/-- **C60, other sessions.**  No session, or an empty one, is nobody's; one without an id or a name makes the request fail
(it is never taken for anybody's); any other is that user's, an administrator unless it says otherwise. -/
theorem signIn_sessions (d : SessionData) :
    authenticate none = .nobody ∧ authenticate (some []) = .nobody ∧
    (d ≠ [] → (d.get? "id".toList = none ∨ d.get? "name".toList = none) → authenticate (some d) = .raises) ∧
    ∀ i n, d.get? "id".toList = some i → d.get? "name".toList = some n →
      ∃ u, authenticate (some d) = .user u ∧ u.id = i ∧ u.name = n ∧
        u.isAdmin = (d.get? "is_admin".toList).getD "True".toList := by
  refine ⟨rfl, rfl, ?_, ?_⟩
  · intro hd h
    have hu : User.ofData d = none := by
      unfold User.ofData
      rcases h with h | h <;> rw [h]
      cases d.get? "id".toList <;> rfl
    match d, hd with
    | p :: d, _ => simp only [authenticate, hu]
  · intro i n h1 h2
    have hu : User.ofData d = some ⟨i, n, (d.get? "is_admin".toList).getD "True".toList,
        ((d.erase "id".toList).erase "name".toList).erase "is_admin".toList⟩ := by
      unfold User.ofData; rw [h1, h2]
    match d with
    | [] => cases h1
    | p :: d =>
      exact ⟨⟨i, n, (Dict.get? (p :: d) "is_admin".toList).getD "True".toList,
        ((Dict.erase (p :: d) "id".toList).erase "name".toList).erase "is_admin".toList⟩, by simp only [authenticate, hu], rfl, rfl, rfl⟩

example : authenticate (some [("id".toList, "1".toList)]) = .raises ∧
    authenticate (some [("id".toList, "1".toList), ("name".toList, "ann".toList)]) =
      .user ⟨"1".toList, "ann".toList, "True".toList, []⟩ := by decide +kernel

/-- **C60 needs proper extras:** extra data named like a user field replaces it in the session. -/
theorem signIn_extra_witness :
    authenticate (sessionAfter id (fun _ _ => some ⟨"1".toList, "eve".toList, "False".toList,
        [("is_admin".toList, "True".toList)]⟩) [.post "eve".toList "pw".toList]) =
      .user ⟨"1".toList, "eve".toList, "True".toList, []⟩ := by decide +kernel

/-- a failed login does not end a session, a logout does -/
example : let v : Text → Text → Option User := fun n p =>
      if p = "pw".toList then some ⟨"1".toList, n, "True".toList, [("mail".toList, "a".toList)]⟩ else none
    (∀ n p u, v n p = some u → Proper u) ∧
    authenticate (sessionAfter id v [.post "ann".toList "pw".toList, .post "bob".toList "no".toList, .form]) =
      .user ⟨"1".toList, "ann".toList, "True".toList, [("mail".toList, "a".toList)]⟩ ∧
    authenticate (sessionAfter id v [.post "ann".toList "pw".toList, .logout]) = .nobody := by
  refine ⟨?_, by decide +kernel, by decide +kernel⟩
  intro n p u h
  simp only at h
  split at h
  · cases h
    simp only [Proper, Dict.WF]
    decide
  · cases h

end Web
end Asyncz
