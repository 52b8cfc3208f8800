import Verif.Model.DashWeb
import Verif.Spec.DashWeb
import Verif.Props.Web
/-!
# C94-C98: the dashboard's pages as a browser sees them
-/
namespace Asyncz
namespace DashWeb
open Listing (Text orEmpty)

/-! ## C94: flash messages -/

/-- the ids a request runs -/
def Visit.ids : Visit → List Text
  | .run ids => ids
  | .redirectingRun i => [i]
  | _ => []

/-- the message about one run -/
def Run.message : Run → Option Flash
  | .maxInstances t => some ⟨"warning".toList, t⟩
  | _ => none

/-- the messages a request raises: a warning for every run refused because of the task's concurrency limit,
an error for a refused creation -/
def Visit.raised (run : Text → Run) : Visit → List Flash
  | .createRefused e => [⟨"error".toList, e⟩]
  | v => v.ids.filterMap fun i => (run i).message

/-- the request is answered by the server's error page -/
def Visit.fails (run : Text → Run) (v : Visit) : Bool := v.ids.any fun i => decide (run i = .raises)

/-- is the controller one of those that redirect, which the dashboard does not route? -/
def Visit.redirects : Visit → Bool
  | .redirectingRun _ => true
  | _ => false

theorem runAll_spec (run : Text → Run) : ∀ (ids : List Text) (s : List Flash),
    runAll run s ids = if ids.any (fun i => decide (run i = .raises)) then none
      else some (s ++ ids.filterMap fun i => (run i).message)
  | [], s => by simp [runAll]
  | i :: is, s => by
    rw [runAll]
    have ih := runAll_spec run is
    cases h : run i <;> simp [ih, addMessage, Run.message, h]

theorem respond_routed (run : Text → Run) (v : Visit) (h : v.redirects = false) :
    respond run [] v = ⟨if v.fails run then none else some (v.raised run), []⟩ := by
  cases v with
  | run ids =>
    rw [respond, runAll_spec]
    have h1 : Visit.fails run (.run ids) = ids.any fun i => decide (run i = .raises) := rfl
    rw [h1]
    cases hb : (ids.any fun i => decide (run i = .raises)) <;> simp [getMessages, Visit.raised, Visit.ids]
  | redirectingRun i => cases h
  | _ => simp [respond, getMessages, addMessage, Visit.fails, Visit.ids, Visit.raised]

/-- **C94.**  Whatever the order of a browser's requests to the dashboard, every response shows exactly the
messages its own request raised — none is lost, shown twice, or shown in another response — and nothing is
left for later; a request that ends in an exception shows none. -/
theorem C94_shown_once : ∀ (vs : List (Visit × (Text → Run))), (∀ v ∈ vs, v.1.redirects = false) →
    (browse [] vs).1.map Answer.shown =
      vs.map (fun v => if v.1.fails v.2 then none else some (v.1.raised v.2)) ∧
    (browse [] vs).2 = []
  | [], _ => ⟨rfl, rfl⟩
  | (v, run) :: vs, h => by
    have hv := respond_routed run v (h (v, run) List.mem_cons_self)
    have ih := C94_shown_once vs fun w hw => h w (List.mem_cons_of_mem _ hw)
    rw [browse, hv]
    exact ⟨by simp only [List.map_cons, ih.1], ih.2⟩

/-- a bulk run of three tasks of which two are refused, then the page -/
example : (browse [] [(.run ["a".toList, "b".toList, "c".toList],
      fun i => if i = "b".toList then .submitted else .maxInstances i), (.page, fun _ => .submitted)]).1.map
        Answer.shown =
      [some [⟨"warning".toList, "a".toList⟩, ⟨"warning".toList, "c".toList⟩], some []] := by decide +kernel

/-- does the response leave out messages it takes from the session? -/
def Visit.drops : Visit → Bool
  | .fragment | .signedIn => true
  | _ => false

theorem respond_conserves (run : Text → Run) (v : Visit) (s : List Flash) (hd : v.drops = false)
    (hf : v.fails run = false) :
    ∃ shown, (respond run s v).shown = some shown ∧
      shown ++ (respond run s v).session = s ++ v.raised run := by
  have h1 : v.ids.any (fun i => decide (run i = .raises)) = false := hf
  cases v with
  | run ids =>
    have h2 : ids.any (fun i => decide (run i = .raises)) = false := h1
    simp only [respond, runAll_spec, h2]
    exact ⟨_, rfl, by simp [getMessages, Visit.raised, Visit.ids]⟩
  | redirectingRun i =>
    have h2 : [i].any (fun i => decide (run i = .raises)) = false := h1
    simp only [respond, runAll_spec, h2]
    exact ⟨[], rfl, by simp [Visit.raised, Visit.ids]⟩
  | fragment => cases hd
  | signedIn => cases hd
  | _ => exact ⟨_, rfl, by simp [respond, getMessages, addMessage, Visit.ids, Visit.raised]⟩

/-- **C94, with the redirecting controllers.**  With the controllers that answer a run with a redirect (not
routed by the dashboard, but there for the host application), messages go to the next response, in order and
once, as long as that is not a table fragment of history or logs or the answer to a sign-in. -/
theorem C94_redirects_conserve : ∀ (vs : List (Visit × (Text → Run))) (s : List Flash),
    (∀ v ∈ vs, v.1.drops = false ∧ v.1.fails v.2 = false) →
    ((browse s vs).1.map fun a => a.shown.getD []).flatten ++ (browse s vs).2 =
      s ++ (vs.map fun v => v.1.raised v.2).flatten
  | [], s, _ => by simp [browse]
  | (v, run) :: vs, s, h => by
    obtain ⟨sh, hs, hc⟩ := respond_conserves run v s (h (v, run) List.mem_cons_self).1
      (h (v, run) List.mem_cons_self).2
    have ih := C94_redirects_conserve vs (respond run s v).session fun w hw => h w (List.mem_cons_of_mem _ hw)
    rw [browse]
    simp only [List.map_cons, List.flatten_cons, hs, Option.getD_some, List.append_assoc]
    rw [ih, ← List.append_assoc, hc, List.append_assoc]

example : (browse [] [(.redirectingRun "a".toList, fun i => .maxInstances i), (.page, fun _ => .submitted)]).1.map
    Answer.shown = [some [], some [⟨"warning".toList, "a".toList⟩]] := by decide +kernel

/-- **C94, counterexample for the redirecting controllers.**  After such a redirect the first fragment of
history or logs, or a sign-in, takes the message out of the session and shows it to nobody: the page after
it does not have it. -/
theorem C94_fragment_witness (run : Text → Run) (i t : Text) (hr : run i = .maxInstances t) (v : Visit)
    (hv : v.drops = true) :
    (browse [] [(.redirectingRun i, run), (v, run), (.page, run)]).1.map Answer.shown =
      [some [], some [], some []] := by
  cases v <;> first
    | (simp [browse, respond, runAll, hr, addMessage, getMessages]; done)
    | (cases hv; done)

/-! ## C95: messages are text -/

/-- are we inside a tag after the text? -/
def after : Bool → Text → Bool
  | b, [] => b
  | false, c :: t => after (decide (c = '<')) t
  | true, c :: t => after (!decide (c = '>')) t

theorem tags_append (t u : Text) : ∀ b, Spec.tags b (t ++ u) = Spec.tags b t ++ Spec.tags (after b t) u := by
  induction t with
  | nil => intro b; cases b <;> rfl
  | cons c t ih =>
    intro b
    cases b
    · simp only [List.cons_append, Spec.tags, after]
      by_cases hc : c = '<' <;> simp [hc, ih]
    · simp only [List.cons_append, Spec.tags, after]
      by_cases hc : c = '>' <;> simp [hc, ih]

theorem after_append (t u : Text) : ∀ b, after b (t ++ u) = after (after b t) u := by
  induction t with
  | nil => intro b; cases b <;> rfl
  | cons c t ih => intro b; cases b <;> simp only [List.cons_append, after, ih]

/-- after a `>` we are outside -/
theorem after_close (b : Bool) (t : Text) : after b (t ++ ['>']) = false := by
  rw [after_append]
  cases after b t <;> rfl

theorem tags_plain : ∀ (t : Text), '<' ∉ t → Spec.tags false t = [] ∧ after false t = false
  | [], _ => ⟨rfl, rfl⟩
  | c :: t, h => by
    have hc : c ≠ '<' := fun e => h (e ▸ List.mem_cons_self)
    have ih := tags_plain t fun m => h (List.mem_cons_of_mem _ m)
    simp [Spec.tags, after, hc, ih]

/-- what comes before a message's text, and what after it -/
theorem banner_parts (lower : Text → Text) (i level : Text) :
    ∃ A B : Text, (∀ text, banner lower i ⟨level, text⟩ = A ++ text ++ B) ∧ after false A = false ∧
      (∀ b, after b B = false) := by
  refine ⟨"<div id=\"flash-".toList ++ i ++ "\" class=\"relative flex items-start gap-3 p-4 bg-".toList ++
    (colour lower level).1 ++ "-50 border-l-4 border-".toList ++ (colour lower level).1 ++
    "-500 text-".toList ++ (colour lower level).1 ++
    "-700 shadow transition-opacity duration-200\"><i data-lucide=\"".toList ++ (colour lower level).2 ++
    "\" class=\"w-5 h-5 mt-1 flex-shrink-0\"></i><div class=\"flex-1 leading-relaxed\"".toList ++ ['>'],
    "</div><button type=\"button\" data-dismiss-target=\"flash-".toList ++ i ++
    "\" class=\"absolute top-5 right-6 text-xl font-bold leading-none text-".toList ++
    (colour lower level).1 ++ "-700 hover:text-".toList ++ (colour lower level).1 ++
    "-900 focus:outline-none\" aria-label=\"Dismiss\">&times;</button></div".toList ++ ['>'], ?_, after_close _ _,
    fun b => after_close b _⟩
  intro text
  unfold banner
  have h1 : "\" class=\"w-5 h-5 mt-1 flex-shrink-0\"></i><div class=\"flex-1 leading-relaxed\">".toList =
    "\" class=\"w-5 h-5 mt-1 flex-shrink-0\"></i><div class=\"flex-1 leading-relaxed\"".toList ++ ['>'] := rfl
  have h2 : "-900 focus:outline-none\" aria-label=\"Dismiss\">&times;</button></div>".toList =
    "-900 focus:outline-none\" aria-label=\"Dismiss\">&times;</button></div".toList ++ ['>'] := rfl
  simp only [h1, h2, List.append_assoc]

/-- The colour and the icon of a banner say what kind of message it is: green for success, red for an error, yellow for a
warning (in any case), blue for everything else and for a message without a level. -/
inductive Look (lower : Text → Text) : Text → Text → Text → Prop
  | success {l : Text} (h : lower l = "success".toList) (hl : l ≠ []) : Look lower l "green".toList "check-circle".toList
  | error {l : Text} (h : lower l = "error".toList) (hl : l ≠ []) : Look lower l "red".toList "x-circle".toList
  | warning {l : Text} (h : lower l = "warning".toList) (hl : l ≠ []) : Look lower l "yellow".toList "alert-triangle".toList
  | other {l : Text} (h1 : lower l ≠ "success".toList) (h2 : lower l ≠ "error".toList) (h3 : lower l ≠ "warning".toList) :
      Look lower l "blue".toList "info".toList
  | none : Look lower [] "blue".toList "info".toList

/-- **C94, levels.** Every banner has the look of its message's level; the text is not part of it. -/
theorem C94_look (lower : Text → Text) (hl : lower "info".toList = "info".toList) (i : Text) (m : Flash) :
    ∃ c icon A B, Look lower m.level c icon ∧ banner lower i m =
      "<div id=\"flash-".toList ++ i ++ "\" class=\"relative flex items-start gap-3 p-4 bg-".toList ++ c ++ "-50 border-l-4 border-".toList ++
      c ++ A ++ "<i data-lucide=\"".toList ++ icon ++ "\"".toList ++ B := by
  have key : Look lower m.level (colour lower m.level).1 (colour lower m.level).2 := by
    unfold colour
    simp only []
    by_cases h : m.level = []
    · rw [h]
      simp only [ne_eq, not_true_eq_false, if_false, hl]
      exact .none
    · rw [if_pos h]
      by_cases h1 : lower m.level = "success".toList
      · rw [if_pos h1]; exact .success h1 h
      rw [if_neg h1]
      by_cases h2 : lower m.level = "error".toList
      · rw [if_pos h2]; exact .error h2 h
      rw [if_neg h2]
      by_cases h3 : lower m.level = "warning".toList
      · rw [if_pos h3]; exact .warning h3 h
      rw [if_neg h3]
      exact .other h1 h2 h3
  refine ⟨_, _, "-500 text-".toList ++ (colour lower m.level).1 ++ "-700 shadow transition-opacity duration-200\">".toList,
    " class=\"w-5 h-5 mt-1 flex-shrink-0\"></i><div class=\"flex-1 leading-relaxed\">".toList ++ m.text ++
    "</div><button type=\"button\" data-dismiss-target=\"flash-".toList ++ i ++
    "\" class=\"absolute top-5 right-6 text-xl font-bold leading-none text-".toList ++
    (colour lower m.level).1 ++ "-700 hover:text-".toList ++ (colour lower m.level).1 ++
    "-900 focus:outline-none\" aria-label=\"Dismiss\">&times;</button></div>".toList, key, ?_⟩
  unfold banner
  have h1 : "-700 shadow transition-opacity duration-200\"><i data-lucide=\"".toList =
    "-700 shadow transition-opacity duration-200\">".toList ++ "<i data-lucide=\"".toList := rfl
  have h2 : "\" class=\"w-5 h-5 mt-1 flex-shrink-0\"></i><div class=\"flex-1 leading-relaxed\">".toList =
    "\"".toList ++ " class=\"w-5 h-5 mt-1 flex-shrink-0\"></i><div class=\"flex-1 leading-relaxed\">".toList := rfl
  simp only [h1, h2, List.append_assoc]

/-- the messages without their texts -/
def blank (ms : List Flash) : List Flash := ms.map fun m => ⟨m.level, []⟩

theorem banners_markup (lower : Text → Text) : ∀ (ms : List Flash), (∀ m ∈ ms, '<' ∉ m.text) → ∀ n,
    Spec.tags false (banners lower n ms) = Spec.tags false (banners lower n (blank ms)) ∧
    after false (banners lower n ms) = false ∧ after false (banners lower n (blank ms)) = false
  | [], _, n => ⟨rfl, rfl, rfl⟩
  | ⟨l, t⟩ :: ms, h, n => by
    have ih := banners_markup lower ms (fun m hm => h m (List.mem_cons_of_mem _ hm)) (n + 1)
    obtain ⟨A, B, hb, hA, hB⟩ := banner_parts lower (toString n).toList l
    have ht := tags_plain t (h ⟨l, t⟩ List.mem_cons_self)
    have hbl : blank (⟨l, t⟩ :: ms) = ⟨l, []⟩ :: blank ms := rfl
    rw [hbl, banners, banners, hb, hb]
    have key : ∀ x : Text, Spec.tags false x = [] → after false x = false → ∀ r : Text,
        Spec.tags false (A ++ x ++ B ++ r) = Spec.tags false A ++ (Spec.tags false B ++ Spec.tags false r) ∧
        after false (A ++ x ++ B ++ r) = after false r := by
      intro x h1 h2 r
      constructor
      · rw [tags_append, tags_append, tags_append, after_append, after_append, hA, h1, h2, hB]
        simp
      · rw [after_append, after_append, after_append, hB]
    have k1 := key t ht.1 ht.2 (banners lower (n + 1) ms)
    have k2 := key [] rfl rfl (banners lower (n + 1) (blank ms))
    exact ⟨by rw [k1.1, k2.1, ih.1], by rw [k1.2]; exact ih.2.1, by rw [k2.2]; exact ih.2.2⟩

theorem banners_occurs (lower : Text → Text) : ∀ (ms : List Flash) (n : Nat), ∀ m ∈ ms,
    Spec.Occurs m.text (banners lower n ms)
  | [], _, m, h => by cases h
  | ⟨l, t⟩ :: ms, n, m, h => by
    obtain ⟨A, B, hb, _, _⟩ := banner_parts lower (toString n).toList l
    rw [banners, hb]
    rcases List.mem_cons.1 h with rfl | h
    · exact ⟨A, B ++ banners lower (n + 1) ms, by simp⟩
    · obtain ⟨a, b, hab⟩ := banners_occurs lower ms (n + 1) m h
      exact ⟨A ++ t ++ B ++ a, b, by rw [hab]; simp⟩

/-- **C95.**  The part of a task table's response that shows the messages has every message's text as it is,
and as long as no text has a `<` its markup does not depend on the texts: it is the markup for empty texts.
Missing from the full property: texts with `<` (`C95_injection_witness`) — nothing is escaped. -/
theorem C95_text_partial (lower : Text → Text) (ms : List Flash) :
    (∀ m ∈ ms, Spec.Occurs m.text (renderOob lower ms)) ∧
    ((∀ m ∈ ms, '<' ∉ m.text) →
      Spec.markup (renderOob lower ms) = Spec.markup (renderOob lower (blank ms))) := by
  by_cases hms : ms = []
  · subst hms
    exact ⟨fun m h => absurd h List.not_mem_nil, fun _ => rfl⟩
  have hbl : blank ms ≠ [] := by
    cases ms with
    | nil => exact absurd rfl hms
    | cons m ms => exact List.cons_ne_nil _ _
  constructor
  · intro m hm
    obtain ⟨a, b, hab⟩ := banners_occurs lower ms 1 m hm
    rw [renderOob, if_neg hms, hab]
    exact ⟨"<div id=\"flash-messages\" hx-swap-oob=\"true\"><div class=\"space-y-4 w-full\">".toList ++ a,
      b ++ "</div></div>".toList, by simp only [List.append_assoc]⟩
  · intro h
    obtain ⟨h1, h2, h3⟩ := banners_markup lower ms h 1
    rw [renderOob, renderOob, if_neg hms, if_neg hbl]
    unfold Spec.markup
    have h0 : after false "<div id=\"flash-messages\" hx-swap-oob=\"true\"><div class=\"space-y-4 w-full\">".toList =
      false := by decide +kernel
    rw [tags_append, tags_append, tags_append, tags_append, after_append, after_append, h0, h1, h2, h3]

example : Spec.markup (renderOob id [⟨"error".toList, "1 > 0".toList⟩]) =
    Spec.markup (renderOob id [⟨"error".toList, []⟩]) := by decide +kernel

theorem tags_inside : ∀ (t : Text), '>' ∉ t → Spec.tags true (t ++ ['>']) = t ++ ['>']
  | [], _ => rfl
  | c :: t, h => by
    have hc : c ≠ '>' := fun e => h (e ▸ List.mem_cons_self)
    simp [Spec.tags, hc, tags_inside t fun m => h (List.mem_cons_of_mem _ m)]

theorem partitionColon_none : ∀ (t : Text), ':' ∉ t → (partitionColon t).2 = []
  | [], _ => rfl
  | c :: t, h => by
    have hc : c ≠ ':' := fun e => h (e ▸ List.mem_cons_self)
    simp [partitionColon, hc, partitionColon_none t fun m => h (List.mem_cons_of_mem _ m)]

/-- **C95, counterexample.**  Whatever tag is given as the callable of a new task (anything between `<` and
`>` without a colon), it is a tag of the response. -/
theorem C95_injection_witness (lower strip : Text → Text) (importError : Text → Option Text) (t : Text)
    (h1 : '>' ∉ t) (h2 : ':' ∉ t) (hs : strip ('<' :: t ++ ['>']) = '<' :: t ++ ['>']) :
    ∃ r, createResponse lower strip importError [] ('<' :: t ++ ['>']) = some r ∧
      Spec.Occurs ('<' :: t ++ ['>']) (Spec.markup r) := by
  have hp : (partitionColon ('<' :: t ++ ['>'])).2 = [] := by
    apply partitionColon_none
    simp [h2]
  rw [createResponse, hs, callableError, if_pos hp]
  refine ⟨_, rfl, ?_⟩
  simp only [getMessages, addMessage, List.nil_append]
  rw [renderOob, if_neg (by simp)]
  simp only [banners]
  obtain ⟨A, B, hb, hA, _⟩ := banner_parts lower (toString 1).toList "error".toList
  rw [hb]
  unfold Spec.markup
  have h0 : after false "<div id=\"flash-messages\" hx-swap-oob=\"true\"><div class=\"space-y-4 w-full\">".toList =
    false := by decide +kernel
  have h3 : Spec.tags false "Expected dotted path 'pkg.mod:callable', got '".toList = [] ∧
    after false "Expected dotted path 'pkg.mod:callable', got '".toList = false := tags_plain _ (by decide +kernel)
  have hin : Spec.tags false ('<' :: t ++ ['>']) = '<' :: t ++ ['>'] := by
    simp [Spec.tags, tags_inside t h1]
  suffices H : ∀ x : Text, Spec.tags false x = x → Spec.Occurs x (Spec.tags false
      ("<div id=\"flash-messages\" hx-swap-oob=\"true\"><div class=\"space-y-4 w-full\">".toList ++
        (A ++ ("Expected dotted path 'pkg.mod:callable', got '".toList ++ x ++ "'".toList) ++ B ++ []) ++
        "</div></div>".toList)) from H _ hin
  intro x hx
  simp only [List.append_nil, tags_append, after_append, h0, hA, h3.1, h3.2, hx, List.append_assoc,
    List.nil_append]
  exact ⟨Spec.tags false "<div id=\"flash-messages\" hx-swap-oob=\"true\"><div class=\"space-y-4 w-full\">".toList ++
    Spec.tags false A, _, by simp only [List.append_assoc]; rfl⟩

/-- an image with a handler -/
example : ∃ r, createResponse id id (fun _ => none) [] "<img src=x onerror=alert(1)>".toList = some r ∧
    Spec.Occurs "<img src=x onerror=alert(1)>".toList (Spec.markup r) :=
  C95_injection_witness id id _ "img src=x onerror=alert(1)".toList (by decide +kernel) (by decide +kernel) rfl

/-! ## C96: the links of the task table -/

theorem splitSlash_one : ∀ (t : Text), '/' ∉ t → splitSlash t = [t]
  | [], _ => rfl
  | c :: t, h => by
    have hc : c ≠ '/' := fun e => h (e ▸ List.mem_cons_self)
    rw [splitSlash, if_neg hc, splitSlash_one t fun m => h (List.mem_cons_of_mem _ m)]

theorem splitSlash_cons : ∀ (t u : Text), '/' ∉ t → splitSlash (t ++ '/' :: u) = t :: splitSlash u
  | [], u, _ => by simp [splitSlash]
  | c :: t, u, h => by
    have hc : c ≠ '/' := fun e => h (e ▸ List.mem_cons_self)
    rw [List.cons_append, splitSlash, if_neg hc, splitSlash_cons t u fun m => h (List.mem_cons_of_mem _ m)]

/-- The value of each hexadecimal digit, in small letters and in capitals. -/
theorem hexVal_digit (n : Nat) (c : Char)
    (h : "0123456789abcdef".toList[n]? = some c ∨ "0123456789ABCDEF".toList[n]? = some c) : hexVal c = some n := by
  have key : ∀ k < 16, ∀ l ∈ ["0123456789abcdef".toList, "0123456789ABCDEF".toList], (l[k]?).bind hexVal = some k := by
    decide +kernel
  rcases h with h | h
  · have hn := (List.getElem?_eq_some_iff.1 h).1
    have := key n hn _ (List.mem_cons_self ..)
    rw [h] at this
    exact this
  · have hn := (List.getElem?_eq_some_iff.1 h).1
    have := key n hn _ (List.mem_cons_of_mem _ (List.mem_cons_self ..))
    rw [h] at this
    exact this

/-- An escape in a path is the character it stands for. -/
theorem unquote_escape {a b : Char} {x y : Nat}
    (ha : "0123456789abcdef".toList[x]? = some a ∨ "0123456789ABCDEF".toList[x]? = some a)
    (hb : "0123456789abcdef".toList[y]? = some b ∨ "0123456789ABCDEF".toList[y]? = some b) (t : Text) :
    unquote ('%' :: a :: b :: t) = Char.ofNat (16 * x + y) :: unquote t := by
  rw [unquote, hexVal_digit x a ha, hexVal_digit y b hb]

theorem unquote_plain : ∀ (t : Text), '%' ∉ t → unquote t = t
  | [], _ => by rw [unquote]
  | c :: t, h => by
    have hc : c ≠ '%' := fun e => h (e ▸ List.mem_cons_self)
    have ih := unquote_plain t fun m => h (List.mem_cons_of_mem _ m)
    rw [unquote]
    · rw [ih]
    · intro a b u e
      exact absurd e hc

theorem cutQuery_plain (t u : Text) (h : ∀ c ∈ t, c ≠ '?' ∧ c ≠ '#') (hu : u = [] ∨ ∃ v, u = '?' :: v) :
    cutQuery (t ++ u) = t := by
  unfold cutQuery
  induction t with
  | nil =>
    rcases hu with rfl | ⟨v, rfl⟩
    · rfl
    · simp
  | cons c t ih =>
    have hc := h c List.mem_cons_self
    rw [List.cons_append, List.takeWhile_cons_of_pos (by simp [hc]),
      ih fun d hd => h d (List.mem_cons_of_mem _ hd)]

/-- a path's segments without special meaning -/
def Clean (s : Text) : Prop := s ≠ ['.'] ∧ s ≠ ['.', '.'] ∧ ∀ c ∈ s, c ∉ ['/', '?', '#', '%']

theorem Clean.of_plain {s : Text} (h : Spec.Plain s) : Clean s := by
  refine ⟨h.2.1, h.2.2.1, fun c hc hm => h.2.2.2 c hc ?_⟩
  simp only [List.mem_cons, List.not_mem_nil, or_false] at hm ⊢
  rcases hm with h | h | h | h <;> simp [h]

theorem Clean.noSlash {s : Text} (h : Clean s) : '/' ∉ s := fun m => h.2.2 _ m (by simp)
theorem Clean.noPercent {s : Text} (h : Clean s) : '%' ∉ s := fun m => h.2.2 _ m (by simp)

theorem removeDots_clean : ∀ (ss done : List Text), (∀ s ∈ ss, Clean s) → removeDots done ss = done.reverse ++ ss
  | [], done, _ => by simp [removeDots]
  | [s], done, h => by
    have hs := h s List.mem_cons_self
    simp [removeDots, hs.1, hs.2.1]
  | s :: t :: ss, done, h => by
    have hs := h s List.mem_cons_self
    rw [removeDots, if_neg hs.1, if_neg hs.2.1, removeDots_clean (t :: ss) (s :: done) fun x hx =>
      h x (List.mem_cons_of_mem _ hx)]
    simp

theorem flatMap_clean : ∀ (ss : List Text), (∀ s ∈ ss, Clean s) →
    ss.flatMap (fun s => splitSlash (unquote s)) = ss
  | [], _ => rfl
  | s :: ss, h => by
    have hs := h s List.mem_cons_self
    rw [List.flatMap_cons, unquote_plain s hs.noPercent, splitSlash_one s hs.noSlash,
      flatMap_clean ss fun x hx => h x (List.mem_cons_of_mem _ hx)]
    rfl

theorem splitSlash_join : ∀ (ss : List Text) (s : Text), (∀ x ∈ s :: ss, '/' ∉ x) →
    splitSlash (s ++ ss.flatMap fun x => '/' :: x) = s :: ss
  | [], s, h => by simp [splitSlash_one s (h s List.mem_cons_self)]
  | t :: ss, s, h => by
    rw [List.flatMap_cons, List.cons_append, splitSlash_cons s _ (h s List.mem_cons_self),
      splitSlash_join ss t fun x hx => h x (List.mem_cons_of_mem _ hx)]

/-- an absolute link whose segments are clean leads to them -/
theorem follow_absolute (base : List Text) (s : Text) (ss : List Text) (hs : s ≠ [])
    (h : ∀ x ∈ s :: ss, Clean x) :
    follow base ('/' :: (s ++ ss.flatMap fun x => '/' :: x)) = some (s :: ss) := by
  have hq : cutQuery ('/' :: (s ++ ss.flatMap fun x => '/' :: x)) =
      '/' :: (s ++ ss.flatMap fun x => '/' :: x) := by
    have := cutQuery_plain ('/' :: (s ++ ss.flatMap fun x => '/' :: x)) [] (by
      intro c hc
      have hcl : ∀ x ∈ s :: ss, ∀ c ∈ x, c ≠ '?' ∧ c ≠ '#' := fun x hx c hc =>
        ⟨fun e => (h x hx).2.2 c hc (by simp [e]), fun e => (h x hx).2.2 c hc (by simp [e])⟩
      simp only [List.mem_cons, List.mem_append, List.mem_flatMap] at hc
      rcases hc with rfl | hc | ⟨x, hx, rfl | hc⟩
      · decide
      · exact hcl s List.mem_cons_self c hc
      · decide
      · exact hcl x (List.mem_cons_of_mem _ hx) c hc) (.inl rfl)
    rwa [List.append_nil] at this
  have hns : ∀ x ∈ s :: ss, '/' ∉ x := fun x hx => (h x hx).noSlash
  unfold follow
  have h1 : hasScheme ('/' :: (s ++ ss.flatMap fun x => '/' :: x)) = false := by
    rw [hasScheme]
    have : Char.isAlpha '/' = false := by decide
    rw [this]
    rfl
  have h2 : ['/', '/'].isPrefixOf ('/' :: (s ++ ss.flatMap fun x => '/' :: x)) = false := by
    cases s with
    | nil => exact absurd rfl hs
    | cons c s =>
      have hc : ¬ '/' = c := fun e => hns (c :: s) List.mem_cons_self (e ▸ List.mem_cons_self)
      simp [List.isPrefixOf, hc]
  rw [h1, h2, if_neg (by simp), hq]
  simp only
  rw [splitSlash_join ss s hns, removeDots_clean _ _ h]
  simp only [List.reverse_nil, List.nil_append]
  rw [flatMap_clean _ h]

theorem hasScheme_go_false : ∀ (t u : Text), ':' ∉ t → hasScheme.go (t ++ '/' :: u) = false
  | [], u, _ => by
    have : Char.isAlphanum '/' = false := by decide
    simp [hasScheme.go, this]
  | c :: t, u, h => by
    have hc : c ≠ ':' := fun e => h (e ▸ List.mem_cons_self)
    have ih := hasScheme_go_false t u fun m => h (List.mem_cons_of_mem _ m)
    rw [List.cons_append, hasScheme.go, if_neg hc, ih]
    simp

/-- a relative link of two segments leads below the page's directory -/
theorem follow_relative (dir : List Text) (last id a query : Text) (hid : Spec.Plain id) (ha : Clean a)
    (hdir : ∀ x ∈ dir, Clean x) (hq : query = [] ∨ ∃ v, query = '?' :: v) :
    follow (dir ++ [last]) (id ++ '/' :: a ++ query) = some (dir ++ [id, a]) := by
  have hcid := Clean.of_plain hid
  have hcut : cutQuery (id ++ '/' :: a ++ query) = id ++ '/' :: a := by
    apply cutQuery_plain _ _ _ hq
    intro c hc
    simp only [List.mem_append, List.mem_cons] at hc
    rcases hc with hc | rfl | hc
    · exact ⟨fun e => hcid.2.2 c hc (by simp [e]), fun e => hcid.2.2 c hc (by simp [e])⟩
    · decide
    · exact ⟨fun e => ha.2.2 c hc (by simp [e]), fun e => ha.2.2 c hc (by simp [e])⟩
  have hcolon : ':' ∉ id := fun m => hid.2.2.2 _ m (by simp)
  unfold follow
  rw [hcut]
  obtain ⟨c, r, rfl⟩ : ∃ c r, id = c :: r := by
    cases id with
    | nil => exact absurd rfl hid.1
    | cons c r => exact ⟨c, r, rfl⟩
  have hc : c ≠ '/' := fun e => hcid.noSlash (e ▸ List.mem_cons_self)
  have h1 : hasScheme (c :: r ++ '/' :: a ++ query) = false := by
    have e : (c :: r ++ '/' :: a ++ query) = c :: (r ++ '/' :: (a ++ query)) := by simp
    rw [e, hasScheme, hasScheme_go_false r _ fun m => hcolon (List.mem_cons_of_mem _ m)]
    simp
  have h2 : ['/', '/'].isPrefixOf (c :: r ++ '/' :: a ++ query) = false := by
    have hc' : ¬ '/' = c := fun e => hc e.symm
    simp [List.isPrefixOf, hc']
  have h3 : splitSlash (c :: r ++ '/' :: a) = [c :: r, a] := by
    rw [splitSlash_cons _ _ hcid.noSlash, splitSlash_one a ha.noSlash]
  rw [h1, h2, if_neg (by simp)]
  have h4 : (match c :: r ++ '/' :: a with
      | '/' :: p => removeDots [] (splitSlash p)
      | p => removeDots ((dir ++ [last]).dropLast.reverse) (splitSlash p)) = dir ++ [c :: r, a] := by
    split
    · next p e =>
      simp only [List.cons_append, List.cons.injEq] at e
      exact absurd e.1 hc
    · rw [h3, removeDots_clean]
      · simp
      · intro x hx
        simp only [List.mem_cons, List.not_mem_nil, or_false] at hx
        rcases hx with rfl | rfl
        · exact hcid
        · exact ha
  have hall : ∀ x ∈ dir ++ [c :: r, a], Clean x := by
    intro x hx
    simp only [List.mem_append, List.mem_cons, List.not_mem_nil, or_false] at hx
    rcases hx with hx | rfl | rfl
    · exact hdir x hx
    · exact hcid
    · exact ha
  have hfm := flatMap_clean _ hall
  rw [← h4] at hfm
  exact congrArg some (hfm.trans h4)

theorem serve_below (mount rest : List Text) :
    serve mount (mount ++ "tasks".toList :: rest) = dispatch taskRoutes rest := by
  unfold serve
  have h1 : (mount ++ ["tasks".toList]).isPrefixOf (mount ++ "tasks".toList :: rest) = true := by
    rw [List.isPrefixOf_iff_prefix]
    exact ⟨rest, by simp⟩
  rw [if_pos h1]
  have h2 : (mount ++ "tasks".toList :: rest).drop (mount ++ ["tasks".toList]).length = rest := by
    have e : mount ++ "tasks".toList :: rest = (mount ++ ["tasks".toList]) ++ rest := by simp
    rw [e, List.drop_left]
  rw [h2]

/-- the controller a link is meant for -/
def Link.target : Link → Ctl
  | .detail => .detail
  | .edit => .edit
  | .run => .run
  | .pause => .pause
  | .resume => .resume
  | .remove => .remove

theorem dispatch_two (id : Text) (hid : id ≠ []) (l : Link) (a : Text)
    (ha : (l = .edit ∧ a = "edit".toList) ∨ (l = .run ∧ a = "run".toList) ∨ (l = .pause ∧ a = "pause".toList) ∨
      (l = .resume ∧ a = "resume".toList) ∨ (l = .remove ∧ a = "remove".toList)) :
    dispatch taskRoutes [id, a] = some (l.target, some id) := by
  rcases ha with ⟨rfl, rfl⟩ | ⟨rfl, rfl⟩ | ⟨rfl, rfl⟩ | ⟨rfl, rfl⟩ | ⟨rfl, rfl⟩ <;>
    simp [dispatch, taskRoutes, matchSegs, hid, Link.target]

/-- **C96, several tasks.** The forms of the page for actions on several tasks post to the controllers of these actions, below
any mount point, and the table of the page and the creation form are reached too. -/
theorem C96_bulk (mount : List Text) :
    serve mount (mount ++ ["tasks", "hx", "bulk", "run"].map String.toList) = some (.bulkRun, none) ∧
    serve mount (mount ++ ["tasks", "hx", "bulk", "pause"].map String.toList) = some (.bulkPause, none) ∧
    serve mount (mount ++ ["tasks", "hx", "bulk", "resume"].map String.toList) = some (.bulkResume, none) ∧
    serve mount (mount ++ ["tasks", "hx", "bulk", "remove"].map String.toList) = some (.bulkRemove, none) ∧
    serve mount (mount ++ ["tasks", "partials", "table"].map String.toList) = some (.table, none) ∧
    serve mount (mount ++ ["tasks", "create"].map String.toList) = some (.create, none) ∧
    serve mount (mount ++ ["tasks", ""].map String.toList) = some (.index, none) := by
  refine ⟨?_, ?_, ?_, ?_, ?_, ?_, ?_⟩ <;>
    (simp only [List.map_cons, List.map_nil]; rw [serve_below]; decide +kernel)

theorem clean_lits : Clean "tasks".toList ∧ Clean "edit".toList ∧ Clean "run".toList ∧ Clean "pause".toList ∧
    Clean "resume".toList ∧ Clean "remove".toList := by
  unfold Clean
  refine ⟨?_, ?_, ?_, ?_, ?_, ?_⟩ <;> decide +kernel

/-- **C96.**  Every link and button in the row of a task with a plain id — not empty, neither `.` nor `..`,
none of `/ ? # % \\ :` — leads to the page or action it is labelled with, for that very task, whatever
filters are set (`query`) and wherever below the host application the dashboard is mounted (at least one
plain segment); the link to the details with the exception of the id `create`.  Missing from the full
property: other ids and a dashboard mounted at the root (the witnesses below). -/
theorem C96_links_partial (mount : List Text) (hm : mount ≠ []) (hms : ∀ s ∈ mount, Spec.Plain s)
    (query id : Text) (hq : query = [] ∨ ∃ v, query = '?' :: v) (hid : Spec.Plain id) (l : Link)
    (hl : l = .detail → id ≠ "create".toList) :
    click mount (mount ++ ["tasks".toList, []]) query id l = some (l.target, some id) := by
  have hcm : ∀ x ∈ mount, Clean x := fun x hx => Clean.of_plain (hms x hx)
  have hci := Clean.of_plain hid
  obtain ⟨ct, ce, cr, cp, cs, cv⟩ := clean_lits
  have habs : ∀ (base rest : List Text), (∀ x ∈ rest, Clean x) →
      follow base (prefixText mount ++ ("tasks".toList :: rest).flatMap fun s => '/' :: s) =
        some (mount ++ "tasks".toList :: rest) := by
    intro base rest hr
    cases mount with
    | nil => exact absurd rfl hm
    | cons s ss =>
      have e : prefixText (s :: ss) ++ (("tasks".toList :: rest).flatMap fun s => '/' :: s) =
          '/' :: (s ++ (ss ++ "tasks".toList :: rest).flatMap fun x => '/' :: x) := by
        simp [prefixText, List.flatMap_append]
      rw [e]
      refine follow_absolute base s (ss ++ "tasks".toList :: rest) (hms s List.mem_cons_self).1 ?_
      intro x hx
      simp only [List.mem_cons, List.mem_append] at hx
      rcases hx with rfl | hx | rfl | hx
      · exact hcm _ List.mem_cons_self
      · exact hcm x (List.mem_cons_of_mem _ hx)
      · exact ct
      · exact hr x hx
  have hrel : ∀ a : Text, Clean a →
      follow (mount ++ ["tasks".toList, []]) (id ++ '/' :: a ++ query) =
        some (mount ++ "tasks".toList :: [id, a]) := by
    intro a ha
    have := follow_relative (mount ++ ["tasks".toList]) [] id a query hid ha (by
      intro x hx
      simp only [List.mem_append, List.mem_cons, List.not_mem_nil, or_false] at hx
      rcases hx with hx | rfl
      · exact hcm x hx
      · exact ct) hq
    simpa using this
  unfold click
  cases l with
  | detail =>
    have h := habs (mount ++ ["tasks".toList, []]) [id] (by
      intro x hx
      simp only [List.mem_cons, List.not_mem_nil, or_false] at hx
      exact hx ▸ hci)
    have e : Link.ref mount query id .detail =
        prefixText mount ++ ("tasks".toList :: [id]).flatMap fun s => '/' :: s := by
      simp [Link.ref]
    rw [e, h, Option.bind_some, serve_below]
    have hne : ¬ "create".toList = id := fun e => hl rfl e.symm
    have hne' : ¬ (['c', 'r', 'e', 'a', 't', 'e'] : Text) = id := hne
    simp [dispatch, taskRoutes, matchSegs, hid.1, hne', Link.target, fun e => hid.1 (Eq.symm e)]
  | edit =>
    have h := habs (mount ++ ["tasks".toList, []]) [id, "edit".toList] (by
      intro x hx
      simp only [List.mem_cons, List.not_mem_nil, or_false] at hx
      rcases hx with rfl | rfl
      · exact hci
      · exact ce)
    have e : Link.ref mount query id .edit =
        prefixText mount ++ ("tasks".toList :: [id, "edit".toList]).flatMap fun s => '/' :: s := by
      simp [Link.ref]
    rw [e, h, Option.bind_some, serve_below]
    exact dispatch_two id hid.1 .edit _ (.inl ⟨rfl, rfl⟩)
  | run =>
    have e : Link.ref mount query id .run = id ++ '/' :: "run".toList ++ query := rfl
    rw [e, hrel _ cr, Option.bind_some, serve_below]
    exact dispatch_two id hid.1 .run _ (by simp)
  | pause =>
    have e : Link.ref mount query id .pause = id ++ '/' :: "pause".toList ++ query := rfl
    rw [e, hrel _ cp, Option.bind_some, serve_below]
    exact dispatch_two id hid.1 .pause _ (by simp)
  | resume =>
    have e : Link.ref mount query id .resume = id ++ '/' :: "resume".toList ++ query := rfl
    rw [e, hrel _ cs, Option.bind_some, serve_below]
    exact dispatch_two id hid.1 .resume _ (by simp)
  | remove =>
    have e : Link.ref mount query id .remove = id ++ '/' :: "remove".toList ++ query := rfl
    rw [e, hrel _ cv, Option.bind_some, serve_below]
    exact dispatch_two id hid.1 .remove _ (by simp)

/-- the mount point and the page of the examples -/
def exMount : List Text := ["dashboard".toList]
def exBase : List Text := ["dashboard".toList, "tasks".toList, []]

example : click exMount exBase "?q=x:y".toList "nightly job".toList .remove =
    some (.remove, some "nightly job".toList) :=
  C96_links_partial exMount (by decide) (by unfold Spec.Plain; decide +kernel) _ _
    (.inr ⟨"q=x:y".toList, rfl⟩) (by unfold Spec.Plain; decide +kernel) .remove (fun h => by cases h)

/-- **C96, counterexamples.**  The details of a task `create` are those of the creation route; those of `a/edit`
are the edit page of the task `a`; the button that removes the task `b/../a`, or the task `%61`, removes
the task `a`; the one that runs the task `hx/bulk` posts to the bulk action; of `a?b` nothing is run. -/
theorem C96_ids_witness :
    click exMount exBase [] "create".toList .detail = some (.create, none) ∧
    click exMount exBase [] "a/edit".toList .detail = some (.edit, some "a".toList) ∧
    click exMount exBase [] "b/../a".toList .remove = some (.remove, some "a".toList) ∧
    click exMount exBase [] "%61".toList .remove = some (.remove, some "a".toList) ∧
    click exMount exBase [] "hx/bulk".toList .run = some (.bulkRun, none) ∧
    click exMount exBase [] "a?b".toList .run = some (.detail, some "a".toList) := by
  refine ⟨?_, ?_, ?_, ?_, ?_, ?_⟩ <;> decide +kernel

/-- **C96, counterexample.**  The buttons of a task whose id starts like a URL (a letter, then letters,
digits, `+ - .`, then a colon — such as `module:function`) are links to that scheme: they do not reach the
dashboard. -/
theorem C96_colon_witness (mount base : List Text) (query : Text) (c : Char) (pre rest : Text)
    (hc : c.isAlpha = true) (hpre : ∀ d ∈ pre, (d.isAlphanum || d = '+' || d = '-' || d = '.') = true)
    (l : Link) (hl : l ≠ .detail ∧ l ≠ .edit) :
    click mount base query (c :: pre ++ ':' :: rest) l = none := by
  have go : ∀ (pre u : Text), (∀ d ∈ pre, (d.isAlphanum || d = '+' || d = '-' || d = '.') = true) →
      hasScheme.go (pre ++ ':' :: u) = true := by
    intro pre u
    induction pre with
    | nil => intro _; simp [hasScheme.go]
    | cons d pre ih =>
      intro h
      rw [List.cons_append, hasScheme.go]
      split
      · rfl
      · rw [if_pos (h d List.mem_cons_self)]
        exact ih fun x hx => h x (List.mem_cons_of_mem _ hx)
  have hs : ∀ u : Text, hasScheme (c :: pre ++ ':' :: rest ++ u) = true := by
    intro u
    have e : c :: pre ++ ':' :: rest ++ u = c :: (pre ++ ':' :: (rest ++ u)) := by simp
    rw [e, hasScheme, hc, go pre _ hpre]
    rfl
  have hf : ∀ u v : Text, follow base (c :: pre ++ ':' :: rest ++ u ++ v) = none := by
    intro u v
    have e : c :: pre ++ ':' :: rest ++ u ++ v = c :: pre ++ ':' :: rest ++ (u ++ v) := by simp
    rw [e, follow, hs, Bool.true_or, if_pos rfl]
  unfold click
  cases l with
  | detail => exact absurd rfl hl.1
  | edit => exact absurd rfl hl.2
  | run => simp only [Link.ref, hf, Option.bind_none]
  | pause => simp only [Link.ref, hf, Option.bind_none]
  | resume => simp only [Link.ref, hf, Option.bind_none]
  | remove => simp only [Link.ref, hf, Option.bind_none]

example : click exMount exBase [] "jobs:clean".toList .run = none :=
  C96_colon_witness exMount exBase [] 'j' "obs".toList "clean".toList (by decide +kernel) (by decide +kernel) .run
    ⟨by decide, by decide⟩

/-- **C96, counterexample.**  When the dashboard is mounted at the root, the prefix is `/`: the links to a task's
details and to its edit page start with `//` and lead to another host, whatever the id. -/
theorem C96_root_witness (base : List Text) (query id : Text) (l : Link) (hl : l = .detail ∨ l = .edit) :
    click [] base query id l = none := by
  have hf : ∀ u : Text, follow base ('/' :: '/' :: u) = none := by
    intro u
    have : ['/', '/'].isPrefixOf ('/' :: '/' :: u) = true := by simp [List.isPrefixOf]
    rw [follow, this, Bool.or_true, if_pos rfl]
  have e1 : Link.ref [] query id .detail = '/' :: '/' :: ("tasks/".toList ++ id) := by
    simp [Link.ref, prefixText]
  have e2 : Link.ref [] query id .edit = '/' :: '/' :: ("tasks/".toList ++ id ++ "/edit".toList) := by
    simp [Link.ref, prefixText]
  unfold click
  rcases hl with rfl | rfl
  · rw [e1, hf]; rfl
  · rw [e2, hf]; rfl

/-! ## C97: signing in leads to the page asked for -/

theorem cutAt_none (sep : Char) : ∀ (t : Text), sep ∉ t → cutAt sep t = (t, none)
  | [], _ => rfl
  | c :: t, h => by
    have hc : c ≠ sep := fun e => h (e ▸ List.mem_cons_self)
    simp [cutAt, hc, cutAt_none sep t fun m => h (List.mem_cons_of_mem _ m)]

theorem cutAt_some (sep : Char) : ∀ (t u : Text), sep ∉ t → cutAt sep (t ++ sep :: u) = (t, some u)
  | [], u, _ => by simp [cutAt]
  | c :: t, u, h => by
    have hc : c ≠ sep := fun e => h (e ▸ List.mem_cons_self)
    simp [cutAt, hc, cutAt_some sep t u fun m => h (List.mem_cons_of_mem _ m)]

theorem unquotePlus_plain (t : Text) (h1 : '+' ∉ t) (h2 : '%' ∉ t) : unquotePlus t = t := by
  unfold unquotePlus
  have : t.map (fun c => if c = '+' then ' ' else c) = t := by
    conv => rhs; rw [← List.map_id t]
    apply List.map_congr_left
    intro c hc
    have : c ≠ '+' := fun e => h1 (e ▸ hc)
    simp [this]
  rw [this, unquote_plain t h2]

/-- the login page's URL with a plain target has it as `next` -/
theorem nextOf_plain (pre target : Text) (hpre : '?' ∉ pre ∧ '#' ∉ pre) (ht : Spec.PlainPath target)
    (hne : target ≠ []) : nextOf (pre ++ "?next=".toList ++ target) = some target := by
  have ham : '&' ∉ target := fun m => ht _ m (by simp)
  have hha : '#' ∉ target := fun m => ht _ m (by simp)
  have hpc : '%' ∉ target := fun m => ht _ m (by simp)
  have hpl : '+' ∉ target := fun m => ht _ m (by simp)
  obtain ⟨c, r, rfl⟩ : ∃ c r, target = c :: r := by
    cases target with
    | nil => exact absurd rfl hne
    | cons c r => exact ⟨c, r, rfl⟩
  have e : pre ++ "?next=".toList ++ c :: r = pre ++ '?' :: ("next".toList ++ '=' :: c :: r) := by simp
  have h1 : (cutAt '#' (pre ++ "?next=".toList ++ c :: r)).1 = pre ++ "?next=".toList ++ c :: r := by
    rw [cutAt_none]
    have : '#' ∉ "?next=".toList := by decide +kernel
    simp only [List.mem_append, not_or]
    exact ⟨⟨hpre.2, this⟩, hha⟩
  unfold nextOf
  rw [h1, e, cutAt_some '?' pre _ hpre.1]
  simp only
  have h2 : cutAt '&' ("next".toList ++ '=' :: c :: r) = ("next".toList ++ '=' :: c :: r, none) := by
    apply cutAt_none
    have : '&' ∉ "next".toList := by decide +kernel
    simp only [List.mem_append, List.mem_cons, not_or] at ham ⊢
    exact ⟨this, by decide, ham.1, ham.2⟩
  have h3 : cutAt '=' ("next".toList ++ '=' :: c :: r) = ("next".toList, some (c :: r)) :=
    cutAt_some '=' _ _ (by decide +kernel)
  have h4 : unquotePlus "next".toList = "next".toList := unquotePlus_plain _ (by decide +kernel) (by decide +kernel)
  rw [parseQuery]
  simp only [h2, h3, h4, unquotePlus_plain _ hpl hpc]
  simp

/-- **C97.**  A request that the gate refuses sends the browser to the login page, and signing in there at the
first attempt leads back to the path that was asked for, if it has none of `& # % +` (the mount point and the
login path: neither `?` nor `#`).  Missing from the full property: a failed attempt in between, the query
string, other paths (`C97_retry_witness`, `C97_query_witness`). -/
theorem C97_back_partial {υ : Type} (lower : Text → Text) (g : Web.Gate υ) (app : Web.App υ)
    (scope : Web.Scope υ) (index : Text) (hhttp : scope.type_ = "http".toList)
    (hrefused : Web.allowed g.allowlist (Web.childPath scope) = false) (hnobody : g.authenticate scope = .nobody)
    (hroot : '?' ∉ scope.rootPath.getD [] ∧ '#' ∉ scope.rootPath.getD [])
    (hlogin : '?' ∉ g.loginPath ∧ '#' ∉ g.loginPath) (hpath : Spec.PlainPath (Web.requestPath scope)) :
    ∃ ms url, Web.authGate lower g app scope = .sent ms ∧ sentTo ms = some url ∧
      attempts index (loginPage url) [true] = some (Web.requestPath scope) := by
  have hne : Web.requestPath scope ≠ [] := by
    unfold Web.requestPath
    split
    · next h =>
      intro e
      cases hp : scope.path with
      | none => rw [hp] at h; cases h
      | some p =>
        rw [hp] at h e
        cases p with
        | nil => cases h
        | cons c p => cases e
    · simp
  refine ⟨Web.refusal lower g scope,
    scope.rootPath.getD [] ++ g.loginPath ++ "?next=".toList ++ Web.requestPath scope, ?_, ?_, ?_⟩
  · rw [Web.authGate, if_neg (fun h => h hhttp), if_neg (by rw [hrefused]; simp), hnobody]
  · rw [Web.refusal]
    by_cases hx : Web.isHx lower scope = true
    · rw [if_pos hx]; rfl
    · rw [if_neg hx]; rfl
  · have hn := nextOf_plain (scope.rootPath.getD [] ++ g.loginPath) (Web.requestPath scope)
      ⟨by simp only [List.mem_append, not_or]; exact ⟨hroot.1, hlogin.1⟩,
        by simp only [List.mem_append, not_or]; exact ⟨hroot.2, hlogin.2⟩⟩ hpath hne
    simp only [attempts, submit, loginPage, hn, Option.getD_some]
    simp [hne]

/-- the refused request of the example -/
example : ∃ ms url, Web.authGate id (Web.exGate (υ := Unit)) (fun _ => [])
      (Web.exScope "http" "/dashboard" "/dashboard/tasks/x") = .sent ms ∧ sentTo ms = some url ∧
    attempts "/dashboard/".toList (loginPage url) [true] = some "/dashboard/tasks/x".toList :=
  C97_back_partial id Web.exGate (fun _ => []) (Web.exScope "http" "/dashboard" "/dashboard/tasks/x") _ rfl
    (by decide +kernel) rfl ⟨by decide +kernel, by decide +kernel⟩ ⟨by decide +kernel, by decide +kernel⟩
    (by unfold Spec.PlainPath; decide +kernel)

/-- **C97, counterexample.**  After a failed attempt the page asked for is forgotten: whatever it was, the attempt that
succeeds leads to the dashboard's start page. -/
theorem C97_retry_witness (index : Text) (page : LoginPage) (n : Nat) :
    attempts index page (List.replicate (n + 1) false ++ [true]) = some index := by
  have : ∀ m, attempts index ⟨[]⟩ (List.replicate m false ++ [true]) = some index := by
    intro m
    induction m with
    | zero => simp [attempts, submit]
    | succ m ih => rw [List.replicate_succ, List.cons_append, attempts]; simpa [submit] using ih
  rw [List.replicate_succ, List.cons_append, attempts]
  simpa [submit] using this n

/-- **C97, counterexample.**  A path with an ampersand is cut there; a percent sign in it is decoded once more (the
path the gate passes on is already decoded); a plus becomes a space.  (The query string is not passed on at
all.) -/
theorem C97_query_witness :
    attempts [] (loginPage "/login?next=/tasks/a&b".toList) [true] = some "/tasks/a".toList ∧
    attempts [] (loginPage "/login?next=/tasks/100%25".toList) [true] = some "/tasks/100%".toList ∧
    attempts [] (loginPage "/login?next=/tasks/a+b".toList) [true] = some "/tasks/a b".toList := by
  refine ⟨?_, ?_, ?_⟩ <;> decide +kernel

/-- **C97, counterexample: open redirect.**  A link to the login page leads, after signing in, to whatever address it names,
also on another host. -/
theorem C97_open_redirect_witness (index target : Text) (ht : Spec.PlainPath target) (hne : target ≠ []) :
    attempts index (loginPage ("/dashboard/login".toList ++ "?next=".toList ++ target)) [true] = some target := by
  have hn := nextOf_plain "/dashboard/login".toList target (by decide +kernel) ht hne
  simp only [attempts, submit, loginPage, hn, Option.getD_some]
  simp [hne]

example : attempts [] (loginPage "/dashboard/login?next=https://evil.example/".toList) [true] =
    some "https://evil.example/".toList := by decide +kernel

/-! ## C98: the prefix of the dashboard's links -/

theorem rstripSlash_of_no_end {t : Text} (h : ∀ r, t ≠ r ++ ['/']) : Web.rstripSlash t = t := by
  obtain ⟨n, hn⟩ := Web.rstripSlash_append t
  cases n with
  | zero => simpa using hn.symm
  | succ n =>
    rw [List.replicate_succ', ← List.append_assoc] at hn
    exact absurd hn (h _)

theorem normal_ne_nil {p : Text} (h : Spec.NormalPrefix p) : p ≠ [] := by
  rcases h with rfl | ⟨⟨c, r, rfl⟩, _⟩ <;> simp

theorem normal_head {p : Text} (h : Spec.NormalPrefix p) : ['/'].isPrefixOf p = true := by
  rcases h with rfl | ⟨⟨c, r, rfl⟩, _⟩ <;> simp [List.isPrefixOf]

/-- a normal prefix is left as it is -/
theorem normalizePrefix_normal {strip : Text → Text} {p : Text} (h : Spec.NormalPrefix p) (hs : strip p = p) :
    normalizePrefix strip (some p) = p := by
  have hne := normal_ne_nil h
  cases p with
  | nil => exact absurd rfl hne
  | cons c r =>
    simp only [normalizePrefix, hs, normal_head h, if_true]
    split
    · rfl
    · next hn =>
      rcases h with h | ⟨_, h⟩
      · exact absurd h hn
      · exact rstripSlash_of_no_end h

/-- every value that is not made of several slashes comes to a normal prefix -/
theorem normalizePrefix_isNormal (strip : Text → Text) (v : Option Text)
    (h : ∀ t, v = some t → ∀ n, strip t ≠ List.replicate (n + 2) '/') :
    Spec.NormalPrefix (normalizePrefix strip v) := by
  cases v with
  | none => exact .inl rfl
  | some t =>
    cases t with
    | nil => exact .inl rfl
    | cons c r =>
      have h' := h (c :: r) rfl
      suffices H : ∀ u : Text, (∀ n, u ≠ List.replicate (n + 2) '/') →
          Spec.NormalPrefix (if (if ['/'].isPrefixOf u then u else '/' :: u) = ['/'] then
            (if ['/'].isPrefixOf u then u else '/' :: u)
          else Web.rstripSlash (if ['/'].isPrefixOf u then u else '/' :: u)) from H _ h'
      intro u hu
      have hw : ∃ w, (if ['/'].isPrefixOf u then u else '/' :: u) = '/' :: w ∧
          ∀ n, '/' :: w ≠ List.replicate (n + 2) '/' := by
        cases u with
        | nil =>
          refine ⟨[], rfl, fun n e => ?_⟩
          have := congrArg List.length e
          simp at this
        | cons d u =>
          by_cases hd : d = '/'
          · subst hd
            exact ⟨u, by simp [List.isPrefixOf], hu⟩
          · have hd' : ¬ '/' = d := fun e => hd e.symm
            refine ⟨d :: u, by simp [List.isPrefixOf, hd'], fun n e => ?_⟩
            rw [List.replicate_succ, List.replicate_succ] at e
            simp only [List.cons.injEq, true_and] at e
            exact hd e.1
      obtain ⟨w, hw1, hw2⟩ := hw
      rw [hw1]
      split
      · next e => exact .inl e
      · next hne =>
        refine .inr ⟨?_, fun r e => Web.rstripSlash_no_end _ ⟨r, e⟩⟩
        obtain ⟨n, hn⟩ := Web.rstripSlash_append ('/' :: w)
        have hnn : Web.rstripSlash ('/' :: w) ≠ [] := by
          intro e
          rw [e, List.nil_append] at hn
          cases n with
          | zero => cases hn
          | succ n =>
            cases n with
            | zero => exact hne hn
            | succ n => exact hw2 n hn
        obtain ⟨r, hr⟩ := Web.rstripSlash_head hnn
        rw [hr]
        cases r with
        | cons d r => exact ⟨d, r, rfl⟩
        | nil => exact absurd ⟨[], hr⟩ (Web.rstripSlash_no_end _)

theorem endsWith_iff (t u : Text) : endsWith t u = true ↔ ∃ a, t = a ++ u := by
  unfold endsWith
  rw [List.isPrefixOf_iff_prefix]
  constructor
  · rintro ⟨a, ha⟩
    have := congrArg List.reverse ha
    simp at this
    exact ⟨a.reverse, this.symm⟩
  · rintro ⟨a, rfl⟩
    exact ⟨a.reverse, by simp⟩

theorem append_normal {P M : Text} (hP : Spec.NormalPrefix P) (hP' : P ≠ ['/']) (hM : Spec.NormalPrefix M)
    (hM' : M ≠ ['/']) : Spec.NormalPrefix (P ++ M) ∧ P ++ M ≠ ['/'] := by
  obtain ⟨⟨c, r, rfl⟩, hP2⟩ := hP.resolve_left hP'
  obtain ⟨⟨d, q, rfl⟩, hM2⟩ := hM.resolve_left hM'
  refine ⟨.inr ⟨⟨c, r ++ '/' :: d :: q, rfl⟩, fun x e => ?_⟩, by simp⟩
  have h1 := congrArg List.getLast? e
  rw [List.getLast?_append, List.getLast?_append] at h1
  simp only [List.getLast?_singleton, Option.some_or] at h1
  have h2 : ('/' :: d :: q).getLast? = some '/' := by
    cases hl : ('/' :: d :: q).getLast? with
    | none => simp at hl
    | some z => rw [hl, Option.some_or] at h1; exact h1
  obtain ⟨a, ha⟩ := List.getLast?_eq_some_iff.1 h2
  exact hM2 a ha

/-- **C98.**  For normal prefixes (that start with a slash and do not end in one, and that `strip` leaves alone;
`M` is the setting, `P` the application's root path): without a root path the links have the prefix `M`;
with one, they have `P ++ M`, or `P` alone if `M` is `/` or `P` already ends with `M`; if both are `/` the
path the dashboard is mounted at is used.  Missing: a root path that ends with `M` by itself and a nested
mount (`C98_prefix_witness`). -/
theorem C98_prefix_partial (strip : Text → Text) {M : Text} (hM : Spec.NormalPrefix M) (hsM : strip M = M)
    (hroot : strip ['/'] = ['/']) (R : Option Text) :
    (M ≠ ['/'] → effectivePrefix strip M none R = M) ∧
    (∀ R', R = some R' → Spec.NormalPrefix R' → strip R' = R' → M = ['/'] → effectivePrefix strip M none R = R') ∧
    (∀ P, Spec.NormalPrefix P → P ≠ ['/'] → strip P = P →
      (M = ['/'] → effectivePrefix strip M (some P) R = P) ∧
      (M ≠ ['/'] → (∃ a, P = a ++ M) → effectivePrefix strip M (some P) R = P) ∧
      (M ≠ ['/'] → (¬ ∃ a, P = a ++ M) → effectivePrefix strip M (some P) R = P ++ M)) := by
  have nM := normalizePrefix_normal hM hsM
  have nroot : normalizePrefix strip (some ['/']) = ['/'] := normalizePrefix_normal (.inl rfl) hroot
  refine ⟨fun h => ?_, fun R' hR hn hs h => ?_, fun P hP hP' hsP => ?_⟩
  · simp only [effectivePrefix, orSlash, nroot, nM, ne_eq, not_true, if_false, h]
  · subst hR
    have hne := normal_ne_nil hn
    have ho : orSlash (some R') = R' := by
      cases R' with
      | nil => exact absurd rfl hne
      | cons c r => rfl
    simp only [effectivePrefix, nM, ho]
    simp only [orSlash, nroot, ne_eq, not_true, if_false, h, if_true, normalizePrefix_normal hn hs]
  · have hne := normal_ne_nil hP
    have ho : orSlash (some P) = P := by
      cases P with
      | nil => exact absurd rfl hne
      | cons c r => rfl
    have nP := normalizePrefix_normal hP hsP
    have e : effectivePrefix strip M (some P) R =
        if P = ['/'] then M else if M = ['/'] then P else if P = M ∨ endsWith P M = true then P else P ++ M := by
      simp only [effectivePrefix, ho, nP, nM, ne_eq, hP', not_false_eq_true, if_true, combinePrefixes]
    rw [e, if_neg hP']
    refine ⟨fun h => if_pos h, fun h ha => ?_, fun h ha => ?_⟩
    · rw [if_neg h, if_pos (.inr ((endsWith_iff _ _).2 ha))]
    · rw [if_neg h, if_neg]
      rintro (rfl | h')
      · exact ha ⟨[], rfl⟩
      · exact ha ((endsWith_iff _ _).1 h')

theorem combined_mounted {υ : Type} (P M : Text) (hP : Spec.NormalPrefix P) (hP' : P ≠ ['/'])
    (hM : Spec.NormalPrefix M) (hM' : M ≠ ['/']) (scope : Web.Scope υ) (hroot : scope.rootPath = some M)
    (happ : scope.appRootPath = none) : Web.combined P scope = P ++ M := by
  have h1 := normal_head hP
  have h2 := normal_head hM
  have hc := append_normal hP hP' hM hM'
  have hne := normal_ne_nil hM
  have ht : Dash.truthy (some M) = true := by
    cases M with
    | nil => exact absurd rfl hne
    | cons c r => rfl
  have hr : Web.rstripSlash P = P := rstripSlash_of_no_end (hP.resolve_left hP').2
  have hr2 : Web.rstripSlash (P ++ M) = P ++ M := rstripSlash_of_no_end (hc.1.resolve_left hc.2).2
  have hf : Dash.truthy none = false := rfl
  have ho : orEmpty (some M) = M := rfl
  simp only [Web.combined, h1, if_true, happ, hroot, ht, hf, hP', ne_eq, not_false_eq_true, hr, ho, h2,
    Bool.not_true, Bool.and_false, Bool.false_eq_true, if_false, hr2]
  rw [if_pos (normal_ne_nil hc.1)]

/-- **C98, behind a proxy.**  A trusted proxy removes the prefix `P` and names it in `X-Forwarded-Prefix`; the host
application mounts the dashboard at the configured prefix `M`.  Then the links of the pages start with
`P ++ M`, where the browser finds the dashboard. -/
theorem C98_proxy {υ α ν : Type} (lower strip : Text → Text) (ip : Web.Ip α ν) (trusted : List Text)
    (scope : Web.Scope υ) {P M : Text} (hP : Spec.NormalPrefix P) (hP' : P ≠ ['/']) (hsP : strip P = P)
    (hM : Spec.NormalPrefix M) (hM' : M ≠ ['/']) (hsM : strip M = M) (hsPM : strip (P ++ M) = P ++ M)
    (hhttp : scope.type_ = "http".toList) (htr : Web.isTrusted ip trusted scope = true)
    (hh : Web.headerGet lower scope.headers (lower "x-forwarded-prefix".toList) = some P)
    (hroot : scope.rootPath = some M) (happ : scope.appRootPath = none) :
    effectivePrefix strip M (Web.adminScope lower strip ip (some trusted) scope).appRootPath
      (Web.adminScope lower strip ip (some trusted) scope).rootPath = P ++ M := by
  have hPn := normal_ne_nil hP
  have hsc : Web.adminScope lower strip ip (some trusted) scope = { scope with appRootPath := some (P ++ M) } := by
    rw [Web.adminScope, Web.forwardedScope, if_pos ⟨.inl hhttp, htr⟩, hh]
    cases P with
    | nil => exact absurd rfl hPn
    | cons c r =>
      simp only
      rw [hsP, if_pos ⟨hPn, hP'⟩, combined_mounted (c :: r) M hP hP' hM hM' scope hroot happ]
  have hc := append_normal hP hP' hM hM'
  have hne := normal_ne_nil hc.1
  have ho : orSlash (some (P ++ M)) = P ++ M := by
    cases h : P ++ M with
    | nil => exact absurd h hne
    | cons c r => rfl
  rw [hsc]
  have nM := normalizePrefix_normal hM hsM
  have nPM := normalizePrefix_normal hc.1 hsPM
  simp only [effectivePrefix, ho, nPM, nM, ne_eq, hc.2, not_false_eq_true, if_true, combinePrefixes, if_false, hM']
  rw [if_pos (.inr ((endsWith_iff _ _).2 ⟨P, rfl⟩))]

/-- the dashboard at `/dashboard` behind a proxy's `/jobs` -/
example : effectivePrefix id "/dashboard".toList
      (Web.adminScope (υ := Unit) id id (⟨fun _ => some (), fun _ => none, fun (_ : Unit) _ => false⟩ : Web.Ip Unit Unit)
        (some [['*']])
        { Web.exScope "http" "/dashboard" "/dashboard/tasks" with
          headers := [("x-forwarded-prefix".toList, "/jobs".toList)] }).appRootPath (some "/dashboard".toList) =
    "/jobs/dashboard".toList := by decide +kernel

/-- **C98, counterexamples.**  A root path that ends with the setting's text by itself is taken to include the
mount; a dashboard mounted deeper than the setting says is linked without the outer part; a setting of two
slashes gives no prefix at all. -/
theorem C98_prefix_witness :
    effectivePrefix id "/dashboard".toList (some "/x/dashboard".toList) none = "/x/dashboard".toList ∧
    effectivePrefix id "/dashboard".toList none (some "/app/dashboard".toList) = "/dashboard".toList ∧
    effectivePrefix id "//".toList none (some "/dashboard".toList) = [] := by
  refine ⟨?_, ?_, ?_⟩ <;> decide +kernel

example : effectivePrefix id "/dashboard".toList (some "/jobs".toList) none = "/jobs/dashboard".toList :=
  ((C98_prefix_partial id (M := "/dashboard".toList)
    (.inr ⟨⟨'d', "ashboard".toList, rfl⟩, fun r e => by
      have := congrArg List.getLast? e
      rw [List.getLast?_append] at this
      exact absurd this (by simp)⟩) rfl rfl none).2.2 "/jobs".toList
    (.inr ⟨⟨'j', "obs".toList, rfl⟩, fun r e => by
      have := congrArg List.getLast? e
      rw [List.getLast?_append] at this
      exact absurd this (by simp)⟩) (by decide +kernel) rfl).2.2 (by decide +kernel) (by
      rintro ⟨a, ha⟩
      have := congrArg List.length ha
      simp at this)

end DashWeb
end Asyncz
