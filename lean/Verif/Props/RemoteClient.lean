import Verif.Spec.RemoteClient
import Verif.Props.RemoteHttp
/-!
# C120: a remote call ends in a documented way, and is made at most once
-/
namespace Asyncz
namespace RemoteClient
open Remote
variable {σ γ : Type}

/-! ## Values -/

theorem truthy_iff (j : Json) : truthy j = false ↔ Blank j := by
  constructor
  · intro h
    cases j with
    | null => exact .null
    | bool b => cases b with
      | true => cases h
      | false => exact .false
    | int n =>
      have : n = 0 := by simpa [truthy] using h
      subst this; exact .zero
    | float n =>
      have : n = 0 := by simpa [truthy] using h
      subst this; exact .zeroFloat
    | str s =>
      have : s = "" := by simpa [truthy] using h
      subst this; exact .empty
    | arr xs =>
      have : xs = [] := by simpa [truthy] using h
      subst this; exact .noItems
    | obj xs =>
      have : xs = [] := by simpa [truthy] using h
      subst this; exact .noEntries
  · intro h
    cases h <;> rfl

theorem truthy_get (k : String) (kv : List (String × Json)) : truthy (get k kv) = false ↔ Unsaid k kv := by
  unfold get Unsaid
  cases field k kv with
  | none =>
    constructor
    · intro _ j h; cases h
    · intro _; rfl
  | some j =>
    rw [Option.getD_some, truthy_iff]
    constructor
    · intro h j' h'; cases h'; exact h
    · intro h; exact h _ rfl

/-- a value that says something is there -/
theorem get_said {k : String} {kv : List (String × Json)} (h : truthy (get k kv) = true) :
    field k kv = some (get k kv) ∧ ¬ Blank (get k kv) := by
  constructor
  · unfold get at h ⊢
    cases hf : field k kv with
    | none => rw [hf] at h; cases h
    | some j => rfl
  · intro hb
    rw [(truthy_iff _).2 hb] at h
    cases h

theorem message_explains (P : Py) (kv : List (String × Json)) : Explains P kv (message P kv) := by
  unfold message
  by_cases h : truthy (get "message" kv) = true
  · rw [if_pos h]
    exact .message (get_said h).1 (get_said h).2
  · rw [if_neg h]
    have hm := (truthy_get _ _).1 (Bool.not_eq_true _ ▸ h)
    by_cases h' : truthy (get "error" kv) = true
    · rw [if_pos h']
      exact .error hm (get_said h').1 (get_said h').2
    · rw [if_neg h']
      exact .unknown hm ((truthy_get _ _).1 (Bool.not_eq_true _ ▸ h'))

theorem isText_iff (kv : List (String × Json)) (t : String) : isText (get "error" kv) t = true ↔ Called kv t := by
  unfold Called get
  cases field "error" kv with
  | none => simp [isText]
  | some j => cases j <;> simp [isText]

theorem intOf_counts (P : Py) (kv : List (String × Json)) {n : Int} (h : intOf P (get "max_instances" kv) = .ok n) :
    Counts P kv n := by
  unfold intOf at h
  by_cases ht : truthy (get "max_instances" kv) = true
  · rw [if_pos ht] at h
    obtain ⟨h1, h2⟩ := get_said ht
    generalize get "max_instances" kv = j at h h1 h2 ht
    cases j with
    | null => cases h
    | bool b => cases b with
      | false => cases ht
      | true => cases h; exact .true h1
    | int m => cases h; exact .int h1
    | float x =>
      cases h
      refine .float h1 ?_
      rintro rfl
      exact h2 .zeroFloat
    | str s =>
      simp only at h
      cases hp : P.parse s with
      | none => rw [hp] at h; cases h
      | some m =>
        rw [hp] at h
        cases h
        refine .digits h1 ?_ hp
        rintro rfl
        exact h2 .empty
    | arr xs => cases h
    | obj xs => cases h
  · rw [if_neg ht] at h
    cases h
    exact .unsaid ((truthy_get _ _).1 (Bool.not_eq_true _ ▸ ht))

theorem counts_intOf (P : Py) (kv : List (String × Json)) {n : Int} (h : Counts P kv n) :
    intOf P (get "max_instances" kv) = .ok n := by
  cases h with
  | int h =>
    unfold get
    rw [h]
    by_cases h0 : n = 0
    · subst h0; rfl
    · simp [intOf, truthy, h0]
  | float h hx => unfold get; rw [h]; simp [intOf, truthy, hx]
  | true h => unfold get; rw [h]; rfl
  | digits h ht hp => unfold get; rw [h]; simp [intOf, truthy, ht, hp]
  | unsaid h =>
    have := (truthy_get _ _).2 h
    unfold intOf
    rw [this]
    rfl

/-! ## Answers -/

/-- Error answers about instances whose count is a number, and all others. -/
def Countable (P : Py) (kv : List (String × Json)) : Prop := Called kv "MaximumInstancesError" → ∃ n, Counts P kv n

theorem raised_means {P : Py} {kv : List (String × Json)} (hc : Countable P kv) : Means P kv (raised P kv) := by
  unfold raised
  by_cases h1 : isText (get "error" kv) "TaskLookupError" = true
  · simp only [h1, if_true]
    cases hf : field "task_id" kv with
    | none =>
      have : get "task_id" kv = .null := by unfold get; rw [hf]; rfl
      rw [this]
      exact .lookupUnsaid ((isText_iff _ _).1 h1) hf
    | some j =>
      have : get "task_id" kv = j := by unfold get; rw [hf]; rfl
      rw [this]
      exact .lookup ((isText_iff _ _).1 h1) hf
  by_cases h2 : isText (get "error" kv) "SchedulerNotRunningError" = true
  · simp only [h1, h2, if_true, if_false, Bool.false_eq_true]
    exact .notRunning ((isText_iff _ _).1 h2)
  by_cases h3 : isText (get "error" kv) "MaximumInstancesError" = true
  · simp only [h1, h2, h3, if_true, if_false, Bool.false_eq_true]
    obtain ⟨n, hn⟩ := hc ((isText_iff _ _).1 h3)
    rw [counts_intOf P kv hn]
    refine .maxInst ((isText_iff _ _).1 h3) ?_ hn
    by_cases ht : truthy (get "task_id" kv) = true
    · rw [if_pos ht]
      exact .task (get_said ht).1 (get_said ht).2
    · rw [if_neg ht]
      exact .unknown ((truthy_get _ _).1 (Bool.not_eq_true _ ▸ ht))
  by_cases h4 : isText (get "error" kv) "ValueError" = true
  · simp only [h1, h2, h3, h4, if_true, if_false, Bool.false_eq_true]
    exact .value ((isText_iff _ _).1 h4) (message_explains _ _)
  · simp only [h1, h2, h3, h4, if_false, Bool.false_eq_true]
    refine .remote ?_ (message_explains _ _)
    intro n hn hcn
    have := (isText_iff kv n).2 hcn
    simp only [List.mem_cons, List.not_mem_nil, or_false] at hn
    rcases hn with rfl | rfl | rfl | rfl
    · exact h1 this
    · exact h2 this
    · exact h3 this
    · exact h4 this

/-- **C120 (partial), answers.** A JSON object with a status below 400 gives its `data`; with another status it raises the
exception it stands for. -/
theorem C120_answer_partial (P : Py) {c : Client} (hc : c.baseUrl ≠ none) (t : List Char) (st : Nat) (kv : List (String × Json)) :
    (st < 400 → (∀ j, field "data" kv = some j → exchange P c t (.answer st (.json (.obj kv))) = .ok j) ∧
      (field "data" kv = none → exchange P c t (.answer st (.json (.obj kv))) = .ok .null)) ∧
    (400 ≤ st → Countable P kv → ∃ f, exchange P c t (.answer st (.json (.obj kv))) = .error f ∧ Means P kv f) := by
  obtain ⟨b, hb⟩ := Option.ne_none_iff_exists'.1 hc
  have he : exchange P c t (.answer st (.json (.obj kv))) = receive P (.ok (st, .obj kv)) := by
    unfold exchange url
    rw [hb]
    rfl
  rw [he]
  refine ⟨fun hs => ⟨fun j hj => ?_, fun hj => ?_⟩, fun hs hk => ⟨raised P kv, ?_, raised_means hk⟩⟩
  · simp [receive, hs, get, hj]
  · simp [receive, hs, get, hj]
  · have : ¬ st < 400 := by omega
    simp [receive, this]

/-- An exchange that raises one of the documented exceptions or none: nobody answers the connection, or what answers speaks
like the control application. -/
theorem C120_documented_partial (P : Py) {c : Client} (hc : c.baseUrl ≠ none) (t : List Char) {w : Wire}
    (hw : (∃ why, w = .refused why) ∨ ∃ st b, w = .answer st b ∧ Sound P b) {f : Fail} (h : exchange P c t w = .error f) :
    Documented f := by
  obtain ⟨b, hb⟩ := Option.ne_none_iff_exists'.1 hc
  have he : exchange P c t w = receive P (read w) := by
    unfold exchange url
    rw [hb]
    rfl
  rw [he] at h
  have key : ∀ (st : Nat) (kv : List (String × Json)), Countable P kv → receive P (.ok (st, .obj kv)) = .error f → Documented f := by
    intro st kv hk h
    by_cases hs : st < 400
    · simp [receive, hs] at h
    · simp only [receive, hs, if_false, Except.error.injEq] at h
      subst h
      have := raised_means hk
      generalize raised P kv = f at this
      cases this <;> trivial
  rcases hw with ⟨why, rfl⟩ | ⟨st, b, rfl, hs⟩
  · cases h
    trivial
  · cases b with
    | empty => exact key st [] (fun h => by cases h) h
    | notJson => exact hs.elim
    | json j =>
      cases j with
      | obj kv => exact key st kv hs h
      | _ => exact hs.elim

/-- Nobody there: `RemoteSchedulerError` with the reason. -/
theorem C120_refused (P : Py) {c : Client} (hc : c.baseUrl ≠ none) (t : List Char) (why : String) :
    exchange P c t (.refused why) = .error (.remote ("Remote scheduler request failed: " ++ why)) := by
  obtain ⟨b, hb⟩ := Option.ne_none_iff_exists'.1 hc
  unfold exchange url
  rw [hb]
  rfl

/-- An empty body says nothing: below 400 there is no data, otherwise the error is unknown. -/
theorem C120_empty (P : Py) {c : Client} (hc : c.baseUrl ≠ none) (t : List Char) (st : Nat) :
    (st < 400 → exchange P c t (.answer st .empty) = .ok .null) ∧
    (400 ≤ st → exchange P c t (.answer st .empty) = .error (.remote "Remote scheduler error.")) := by
  obtain ⟨b, hb⟩ := Option.ne_none_iff_exists'.1 hc
  have he : exchange P c t (.answer st .empty) = receive P (.ok (st, .obj [])) := by
    unfold exchange url
    rw [hb]
    rfl
  rw [he]
  constructor
  · intro h
    simp [receive, h, get, field]
  · intro h
    have : ¬ st < 400 := by omega
    simp only [receive, this, if_false]
    rfl

/-- What the full property excludes: a page of a proxy, JSON that is no object, a worker that does not answer in time and a
count that is no number each raise something else than the documented exceptions (for the last, a `ValueError` about the
number, which reads like the worker's). -/
theorem C120_undocumented_witness (P : Py) {c : Client} (hc : c.baseUrl ≠ none) (t : List Char) (st : Nat) (hs : 400 ≤ st) :
    exchange P c t (.answer 502 .notJson) = .error (.other "JSONDecodeError") ∧
    exchange P c t (.answer st (.json (.arr []))) = .error (.other "AttributeError") ∧
    exchange P c t .silent = .error (.other "TimeoutError") ∧
    exchange P c t (.answer st (.json (.obj [("error", .str "MaximumInstancesError"), ("max_instances", .arr [.null])]))) =
      .error (.other "TypeError") := by
  obtain ⟨b, hb⟩ := Option.ne_none_iff_exists'.1 hc
  have : ¬ st < 400 := by omega
  refine ⟨?_, ?_, ?_, ?_⟩ <;> unfold exchange url <;> rw [hb]
  · rfl
  · rfl
  · rfl
  · simp only [Option.map_some, read, receive, this, if_false]
    rfl

/-! ## Making a client -/

theorem rstrip_slashes {b : List Char} (hb : b.getLast? ≠ some '/') (n : Nat) : rstripSlash (b ++ List.replicate n '/') = b := by
  unfold rstripSlash
  rw [List.reverse_append, List.reverse_replicate]
  have hd : ∀ n, List.dropWhile (fun x => decide (x = '/')) (List.replicate n '/' ++ b.reverse) = b.reverse := by
    intro n
    induction n with
    | zero =>
      simp only [List.replicate_zero, List.nil_append]
      cases hr : b.reverse with
      | nil => rfl
      | cons c l =>
        have : c ≠ '/' := by
          rintro rfl
          apply hb
          rw [← List.head?_reverse, hr]
          rfl
        simp [List.dropWhile, this]
    | succ n ih =>
      rw [List.replicate_succ, List.cons_append]
      simp only [List.dropWhile, decide_true]
      exact ih
  rw [hd, List.reverse_reverse]

/-- The url of a request is the base url, however many slashes it was given with, and then the target. -/
theorem C120_url {b : List Char} (hb : b.getLast? ≠ some '/') (hne : b ≠ []) (n : Nat) (tok : Option String) (tr : Bool)
    (t : List Char) :
    ∃ c, make (some (b ++ List.replicate n '/')) tok tr = some c ∧ c.token = tok ∧ c.transport = tr ∧
      url c t = some (b ++ t) := by
  have hm : make (some (b ++ List.replicate n '/')) tok tr = some ⟨some b, tok, tr⟩ := by
    cases b with
    | nil => exact absurd rfl hne
    | cons x l =>
      have := rstrip_slashes hb n
      simp only [List.cons_append] at this
      simp [make, this]
  exact ⟨_, hm, rfl, rfl, rfl⟩

/-- A client needs something to talk to: with neither a url nor a transport it is not made. -/
theorem C120_make (b : Option (List Char)) (tok : Option String) (tr : Bool) :
    make b tok tr = none ↔ b = none ∧ tr = false := by
  unfold make
  by_cases h : b = none ∧ tr = false
  · simp [h]
  · rw [if_neg h]
    simp [h]

/-- An empty url is accepted, and then every call fails an assertion. -/
theorem C120_empty_url_witness (P : Py) (tok : Option String) (w : Wire) (t : List Char) :
    ∃ c, make (some []) tok false = some c ∧ exchange P c t w = .error (.other "AssertionError") := ⟨⟨none, tok, false⟩, rfl, rfl⟩

/-- The token goes with every request, and only if there is one. -/
theorem C120_headers (c : Client) :
    (∀ v, ("x-asyncz-remote-token", v) ∈ headers c ↔ c.token = some v) ∧ ("content-type", "application/json") ∈ headers c := by
  unfold headers
  cases c.token with
  | none => simp
  | some t => simp [eq_comm]

/-! ## The worker's answers -/

/-- the forms of the worker's answers -/
inductive Formed : Reply → Prop
  | success (j : Json) : Formed (success j)
  | error (e : Exc) (st : Nat) (h : 400 ≤ st) (id : Option String) : Formed (errorReply e st id)
  | unauthorized : Formed unauthorized
  | text (st : Nat) : Formed (.text st)

theorem formed_snapshot {C : Codec γ} (id : String) (o : Option Info) : Formed (snapshotReply C id o) := by
  unfold snapshotReply
  cases o with
  | none => exact .success _
  | some i =>
    simp only
    cases infoJson C i with
    | some j => exact .success _
    | none => exact .error _ _ (by decide) _

theorem formed_handle (C : Codec γ) (A : Api σ γ) (q : List (String × String)) (b : Option Json) (e : Endpoint) (s : σ) :
    Formed (handle C A q b e s).1 := by
  have ha : ∀ e : Exc, 400 ≤ actionStatus e := fun e => (status_ge e).1
  have hu : ∀ e : Exc, 400 ≤ updateStatus e := fun e => (status_ge e).2
  cases e <;> simp only [handle, hInfo, hInstances, hTasks, hAdd, hDetail, hUpdate, hPreview, hAction] <;>
    repeat' split
  all_goals first
    | exact .success _
    | exact .text _
    | exact .error _ _ (ha _) _
    | exact .error _ _ (hu _) _
    | exact .error _ _ (by decide) _
    | exact formed_snapshot _ _
    | exact formed_snapshot _ (some _)

theorem formed_serve (C : Codec γ) (A : Api σ γ) (tok : Option String) (r : Req) (s : σ) : Formed (serve C A tok r s).1 := by
  unfold serve
  simp only
  cases unquote false (r.target.takeWhile (· ≠ '?')) with
  | none => exact .text _
  | some path =>
    simp only
    cases dispatch r.method (segments path.toList) with
    | inl st => exact .text _
    | inr e =>
      simp only
      split
      · exact .unauthorized
      · exact formed_handle ..

/-- An exception of the worker, told to the client. -/
theorem raised_errorEntries {P : Py} (hP : ∀ t, P.text (.str t) = t) (e : Exc) (id : Option String) :
    Fits (remoteError (errorEntries e id)) (raised P (errorEntries e id)) := by
  have herr : get "error" (errorEntries e id) = .str e.cls := by simp [get, field, errorEntries]
  have hmsg : get "message" (errorEntries e id) = .str e.msg := by simp [get, field, errorEntries]
  have herr' := errorEntries_cls e id
  have hmsg' := errorEntries_msg e id
  have hm : message P (errorEntries e id) = messageOf (errorEntries e id) := by
    unfold message messageOf
    rw [herr, hmsg, herr', hmsg', hP, hP]
    by_cases h1 : e.msg = ""
    · by_cases h2 : e.cls = ""
      · simp [truthy, h1, h2]
      · simp [truthy, h1, h2]
    · simp [truthy, h1]
  unfold raised remoteError
  rw [herr, herr', hm]
  simp only [isText, beq_iff_eq]
  by_cases h1 : e.cls = "TaskLookupError"
  · simp only [h1, if_true]
    have : ∀ i n, e ≠ .maxInst i n := by
      rintro i n rfl
      simp [Exc.cls] at h1
    cases id with
    | none =>
      have h2 : strField "task_id" (errorEntries e none) = none := by
        cases e <;> first | exact absurd rfl (this _ _) | simp [strField, field, errorEntries]
      have h3 : get "task_id" (errorEntries e none) = .null := by
        cases e <;> first | exact absurd rfl (this _ _) | simp [get, field, errorEntries]
      rw [h2, h3]
      exact rfl
    | some i =>
      have h2 : strField "task_id" (errorEntries e (some i)) = some i := by
        cases e <;> first | exact absurd rfl (this _ _) | simp [strField, field, errorEntries]
      have h3 : get "task_id" (errorEntries e (some i)) = .str i := by
        cases e <;> first | exact absurd rfl (this _ _) | simp [get, field, errorEntries]
      rw [h2, h3]
      exact rfl
  by_cases h2 : e.cls = "SchedulerNotRunningError"
  · simp only [h2, if_true, String.reduceEq, if_false]
    exact rfl
  by_cases h3 : e.cls = "MaximumInstancesError"
  · simp only [h3, if_true, String.reduceEq, if_false]
    by_cases hmi : ∃ i n, e = .maxInst i n
    · obtain ⟨i, n, rfl⟩ := hmi
      have t1 : strField "task_id" (errorEntries (.maxInst i n) id) = some i := by simp [strField, field, errorEntries]
      have t2 : get "task_id" (errorEntries (.maxInst i n) id) = .str i := by simp [get, field, errorEntries]
      have t3 : field "max_instances" (errorEntries (.maxInst i n) id) = some (.int n) := by simp [field, errorEntries]
      rw [counts_intOf P _ (.int t3), t1, t2, t3, hP]
      by_cases hi : i = ""
      · simp [truthy, hi, Fits, asInt]
      · simp [truthy, hi, Fits, asInt]
    · have t3 : field "max_instances" (errorEntries e id) = none := by
        cases e <;> first | exact absurd ⟨_, _, rfl⟩ hmi | (cases id <;> simp [field, errorEntries])
      have hun : Unsaid "max_instances" (errorEntries e id) := by
        intro j hj
        rw [t3] at hj
        cases hj
      rw [counts_intOf P _ (.unsaid hun), t3]
      cases id with
      | none =>
        have t1 : strField "task_id" (errorEntries e none) = none := by
          cases e <;> first | exact absurd ⟨_, _, rfl⟩ hmi | simp [strField, field, errorEntries]
        have t2 : get "task_id" (errorEntries e none) = .null := by
          cases e <;> first | exact absurd ⟨_, _, rfl⟩ hmi | simp [get, field, errorEntries]
        rw [t1, t2]
        exact rfl
      | some i =>
        have t1 : strField "task_id" (errorEntries e (some i)) = some i := by
          cases e <;> first | exact absurd ⟨_, _, rfl⟩ hmi | simp [strField, field, errorEntries]
        have t2 : get "task_id" (errorEntries e (some i)) = .str i := by
          cases e <;> first | exact absurd ⟨_, _, rfl⟩ hmi | simp [get, field, errorEntries]
        rw [t1, t2, hP]
        by_cases hi : i = ""
        · simp [truthy, hi, Fits, asInt]
        · simp [truthy, hi, Fits, asInt]
  by_cases h4 : e.cls = "ValueError"
  · simp only [h4, if_true, String.reduceEq, if_false]
    exact rfl
  · simp only [h1, h2, h3, h4, if_false]
    exact rfl

theorem agree_formed {P : Py} (hP : ∀ t, P.text (.str t) = t) {r : Reply} (h : Formed r) :
    Agree (received r) (receive P (read (wire r))) := by
  cases h with
  | success j =>
    have h2 : receive P (read (wire (success j))) = .ok j := by simp [success, wire, read, receive, get, field]
    have h1 : received (success j) = .ok j := by simp [success, received, field]
    rw [h1, h2]
    exact .ok j
  | error e st h id =>
    rw [received_error h]
    have : ¬ st < 400 := by omega
    have h2 : receive P (read (wire (errorReply e st id))) = .error (raised P (errorEntries e id)) := by
      simp only [errorReply, wire, read, receive, this, if_false]
    rw [h2]
    exact .error (raised_errorEntries hP e id)
  | unauthorized =>
    have h1 : received unauthorized = .error (.remote "Invalid remote token.") := by
      simp [unauthorized, received, remoteError, messageOf, strField, field]
    have h2 : receive P (read (wire unauthorized)) = .error (.remote "Invalid remote token.") := by
      simp [unauthorized, wire, read, receive, raised, message, get, field, isText, truthy, hP]
    rw [h1, h2]
    exact .error rfl
  | text st => exact .error rfl

/-- Through a network that delivers, the client gets exactly what the theorems on remote calls (C65, C66) say: `remote` is
this call, read by the method. -/
theorem C120_through {P : Py} (hP : ∀ t, P.text (.str t) = t) (C : Codec γ) (A : Api σ γ) {c : Client} (hc : c.baseUrl ≠ none)
    (wt : Option String) (op : Op γ) (s : σ) :
    ∃ x, Agree x (call P C A c wt .through op s).1 ∧
      remote C A wt c.token op s = (decode C op x, (call P C A c wt .through op s).2) := by
  obtain ⟨b, hb⟩ := Option.ne_none_iff_exists'.1 hc
  have hu : url c [] = some (b ++ []) := by unfold url; rw [hb]; rfl
  unfold call remote
  rw [hu]
  simp only
  cases hr : request C c.token op with
  | none =>
    refine ⟨.error .unsendable, .error rfl, ?_⟩
    have : decode C op (.error .unsendable) = .error .unsendable := by cases op <;> rfl
    simp only [this]
  | some r =>
    refine ⟨received (serve C A wt r s).1, ?_, rfl⟩
    exact agree_formed hP (formed_serve C A wt r s)

/-! ## At most once -/

/-- **C120, at most once.** Whatever the network does, the worker's scheduler is afterwards in the state it was in, or in the
state that one direct call leaves it in. -/
theorem C120_once (P : Py) {C : Codec γ} (hC : C.Lawful) {A : Api σ γ} (hA : A.Honest) {c : Client} {op : Op γ}
    (hop : op.Sendable) (net : Net) (s : σ) :
    (call P C A c c.token net op s).2 = s ∨
    ∃ op', Op.Sent C op op' ∧ (call P C A c c.token net op s).2 = (direct A op' s).2 := by
  unfold call
  cases hu : url c [] with
  | none => exact .inl rfl
  | some u =>
    simp only
    cases hr : request C c.token op with
    | none => exact .inl rfl
    | some r =>
      have key : (serve C A c.token r s).2 = s ∨ ∃ op', Op.Sent C op op' ∧ (serve C A c.token r s).2 = (direct A op' s).2 := by
        rcases C65_remote_partial hC hA c.token hop s with ⟨op', h1, h2, _⟩ | ⟨_, h2⟩
        · refine .inr ⟨op', h1, ?_⟩
          unfold remote at h2
          rw [hr] at h2
          exact h2
        · refine .inl ?_
          unfold remote at h2
          rw [hr] at h2
          exact congrArg Prod.snd h2
      cases net with
      | through => exact key
      | unreachable why => exact .inl rfl
      | silent a => cases a with
        | true => exact key
        | false => exact .inl rfl
      | stranger st b => exact .inl rfl

/-- Without a connection nothing happened. -/
theorem C120_unreachable (P : Py) (C : Codec γ) (A : Api σ γ) {c : Client} (wt : Option String) (why : String) (op : Op γ) (s : σ) :
    (call P C A c wt (.unreachable why) op s).2 = s ∧
    (c.baseUrl ≠ none → request C c.token op ≠ none →
      (call P C A c wt (.unreachable why) op s).1 = .error (.remote ("Remote scheduler request failed: " ++ why))) := by
  unfold call
  cases hu : url c [] with
  | none =>
    refine ⟨rfl, fun h => ?_⟩
    unfold url at hu
    rw [Option.map_eq_none_iff] at hu
    exact absurd hu h
  | some u =>
    simp only
    cases hr : request C c.token op with
    | none => exact ⟨rfl, fun _ h => absurd rfl h⟩
    | some r => exact ⟨rfl, fun _ _ => rfl⟩

/-- `lookup_task` finds what the worker's scheduler finds, with its store, and otherwise raises `TaskLookupError` for the id. -/
theorem C120_lookup {C : Codec γ} (hC : C.Lawful) (A : Api σ γ) (tok : Option String) {id : String} (hid : GoodId id)
    {store : Option String} (hs : NotBlank store) (s : σ) :
    ((A.detail id store s).1 = .ok none →
      lookupTask id (remote C A tok tok (.detail id store) s).1 = .error (.lookup (some id))) ∧
    (∀ i j, (A.detail id store s).1 = .ok (some i) → infoJson C i = some j →
      ∃ i', Info.Sent C i i' ∧ lookupTask id (remote C A tok tok (.detail id store) s).1 = .ok (i', i.storeAlias)) ∧
    (remote C A tok tok (.detail id store) s).2 = (A.detail id store s).2 := by
  obtain ⟨h1, h2⟩ := remote_detail hC A tok hid hs s
  refine ⟨fun h => ?_, fun i j h hj => ?_, h1⟩
  · have hd : (direct A (.detail id store) s).1 = .ok (.task none) := by
      show (A.detail id store s).1.map Ret.task = _
      rw [h]
      rfl
    rw [hd] at h2
    generalize (remote C A tok tok (.detail id store) s).1 = x at h2
    cases h2 with
    | value h => cases h; rfl
    | undumpable h e => exact absurd .gone (h _)
  · have hd : (direct A (.detail id store) s).1 = .ok (.task (some i)) := by
      show (A.detail id store s).1.map Ret.task = _
      rw [h]
      rfl
    rw [hd] at h2
    generalize (remote C A tok tok (.detail id store) s).1 = x at h2
    cases h2 with
    | value h =>
      cases h with
      | @task i i' h =>
        refine ⟨i', h, ?_⟩
        show Except.ok (i', (Proxy.make i').storeAlias) = _
        obtain ⟨_, _, h3⟩ := h
        rw [h3]
        rfl
    | undumpable h e =>
      obtain ⟨i', _, h''⟩ := infoOf_infoJson hC hj
      exact absurd (.task h'') (h _)

/-- `running` is what the worker's snapshot says. -/
theorem C120_running {C : Codec γ} (A : Api σ γ) (tok : Option String) (s : σ) {kv : List (String × Json)} {b : Bool}
    (h : (A.info s).1 = .ok (.obj kv)) (hb : field "running" kv = some (.bool b)) :
    running (remote C A tok tok .info s).1 = .ok b := by
  obtain ⟨_, h2⟩ := remote_info (C := C) A tok s
  have hd : (direct A (.info : Op γ) s).1 = .ok (.info (.obj kv)) := by
    show (A.info s).1.map Ret.info = _
    rw [h]
    rfl
  rw [hd] at h2
  generalize (remote C A tok tok .info s).1 = x at h2
  cases h2 with
  | value h =>
    cases h
    simp [running, hb]
  | undumpable h e => exact absurd (.info _) (h _)

/-! ## Reading snapshots -/

theorem asStr_iff (o : Option Json) (x : Option String) : asStr o = some x ↔ o = some (strJson x) := by
  cases o with
  | none => simp [asStr]
  | some j => cases j <;> cases x <;> simp [asStr, strJson, eq_comm]

theorem asBool_iff (o : Option Json) (x : Bool) : asBool o = some x ↔ o = some (.bool x) := by
  cases o with
  | none => simp [asBool]
  | some j => cases j <;> simp [asBool]

theorem asInt_iff (o : Option Json) (x : Int) : asInt o = some x ↔ o = some (.int x) := by
  cases o with
  | none => simp [asInt]
  | some j => cases j <;> simp [asInt]

theorem asNum_iff (o : Option Json) (x : Option Num) : asNum o = some x ↔ o = some (numJson x) := by
  cases o with
  | none => simp [asNum]
  | some j =>
    cases x with
    | none => cases j <;> simp [asNum, numJson]
    | some x => cases x <;> cases j <;> simp [asNum, numJson]

theorem asState_iff (o : Option Json) (x : Listing.SState) : asState o = some x ↔ o = some (stateJson x) := by
  cases o with
  | none => simp [asState]
  | some j =>
    cases j with
    | str s =>
      simp only [asState]
      by_cases h1 : s = "pending"
      · subst h1; cases x <;> simp [stateJson]
      by_cases h2 : s = "paused"
      · subst h2; cases x <;> simp [stateJson]
      by_cases h3 : s = "scheduled"
      · subst h3; cases x <;> simp [stateJson]
      · cases x <;> simp [stateJson, h1, h2, h3]
    | _ => cases x <;> simp [asState, stateJson]

theorem asWhenOpt_iff (C : Codec γ) (o : Option Json) (x : Option When) :
    asWhenOpt C o = some x ↔ ∃ j, o = some j ∧ Dated C j x := by
  constructor
  · intro h
    cases o with
    | none => cases h
    | some j =>
      refine ⟨j, rfl, ?_⟩
      cases j with
      | null => cases h; exact .null
      | str s =>
        obtain ⟨w, hw, rfl⟩ := Option.map_eq_some_iff.1 h
        exact .text hw
      | _ => cases h
  · rintro ⟨j, rfl, h⟩
    cases h with
    | null => rfl
    | text h => simp [asWhenOpt, h]

/-- The client makes a snapshot of exactly the data that has all its fields, and it is what they say. -/
theorem C120_snapshot (C : Codec γ) (j : Json) (i : Info) : infoOf C j = some i ↔ Pictures C j i := by
  constructor
  · intro h
    cases j with
    | obj kv =>
      refine ⟨kv, rfl, ?_⟩
      simp only [infoOf, Option.bind_eq_bind, Option.bind_eq_some_iff] at h
      obtain ⟨a1, h1, a2, h2, a3, h3, a4, h4, a5, h5, a6, h6, a7, h7, a8, h8, a9, h9, a10, h10, a11, h11, a12, h12, a13, h13,
        a14, h14, a15, h15, a16, h16, a17, h17, h⟩ := h
      split at h
      · rename_i args kwargs ha hk
        cases h
        exact ⟨(asStr_iff _ _).1 h1, (asStr_iff _ _).1 h2, (asStr_iff _ _).1 h3, (asStr_iff _ _).1 h4, (asStr_iff _ _).1 h5,
          (asStr_iff _ _).1 h6, (asStr_iff _ _).1 h7, (asStr_iff _ _).1 h8, (asStr_iff _ _).1 h9, (asState_iff _ _).1 h10,
          (asWhenOpt_iff C _ _).1 h11, (asBool_iff _ _).1 h12, (asInt_iff _ _).1 h13, (asNum_iff _ _).1 h14,
          (asBool_iff _ _).1 h15, (asBool_iff _ _).1 h16, (asBool_iff _ _).1 h17, ⟨args, ha, rfl⟩, ⟨kwargs, hk, rfl⟩⟩
      · cases h
    | _ => cases h
  · rintro ⟨kv, rfl, h⟩
    obtain ⟨args, ha, ha'⟩ := h.args
    obtain ⟨kwargs, hk, hk'⟩ := h.kwargs
    simp only [infoOf, Option.bind_eq_bind, (asStr_iff _ _).2 h.id, (asStr_iff _ _).2 h.name, (asStr_iff _ _).2 h.callableName,
      (asStr_iff _ _).2 h.callableRef, (asStr_iff _ _).2 h.triggerAlias, (asStr_iff _ _).2 h.triggerName,
      (asStr_iff _ _).2 h.triggerDesc, (asStr_iff _ _).2 h.executor, (asStr_iff _ _).2 h.storeAlias,
      (asState_iff _ _).2 h.state, (asWhenOpt_iff C _ _).2 h.nextRun, (asBool_iff _ _).2 h.coalesce, (asInt_iff _ _).2 h.maxInst,
      (asNum_iff _ _).2 h.grace, (asBool_iff _ _).2 h.pending, (asBool_iff _ _).2 h.paused, (asBool_iff _ _).2 h.submitted,
      Option.bind_some, ha, hk]
    rw [← ha', ← hk']

theorem infosOf_pictures {C : Codec γ} : ∀ {js : List Json} {l : List Info}, infosOf C js = some l →
    l.length = js.length ∧ ∀ (k : Nat) (j : Json), js[k]? = some j → ∃ i, l[k]? = some i ∧ Pictures C j i
  | [], l, h => by
    cases h
    exact ⟨rfl, fun k j hk => by simp at hk⟩
  | j :: js, l, h => by
    simp only [infosOf] at h
    cases hi : infoOf C j with
    | none => rw [hi] at h; cases h
    | some i =>
      cases hl : infosOf C js with
      | none => rw [hi, hl] at h; cases h
      | some l' =>
        rw [hi, hl] at h
        cases h
        obtain ⟨h1, h2⟩ := infosOf_pictures hl
        refine ⟨by simp [h1], fun k j' hk => ?_⟩
        cases k with
        | zero =>
          simp only [List.getElem?_cons_zero, Option.some.injEq] at hk
          subst hk
          exact ⟨i, rfl, (C120_snapshot C _ _).1 hi⟩
        | succ k =>
          simp only [List.getElem?_cons_succ] at hk
          exact h2 k j' hk

/-- **C120, results.** Whatever the data of an answer, a task or a list of tasks that a method returns is a picture of it. -/
theorem C120_result (C : Codec γ) (op : Op γ) (j : Json) :
    (∀ i, decode C op (.ok j) = .ok (.task (some i)) → Pictures C j i) ∧
    (∀ l, decode C op (.ok j) = .ok (.infos l) → ∃ js : List Json, j = .arr js ∧ l.length = js.length ∧
      ∀ (k : Nat) (j' : Json), js[k]? = some j' → ∃ i, l[k]? = some i ∧ Pictures C j' i) := by
  have key : ∀ (x : Except Exc Ret) (i : Info), (x = match infoOf C j with | some i => .ok (.task (some i)) | none => .error .badReply) →
      x = .ok (.task (some i)) → Pictures C j i := by
    intro x i hx h
    rw [hx] at h
    cases hi : infoOf C j with
    | none => rw [hi] at h; cases h
    | some i' => rw [hi] at h; cases h; exact (C120_snapshot C j _).1 hi
  constructor
  · intro i h
    cases op with
    | info => cases h
    | instances => cases j <;> cases h
    | infos f =>
      cases j with
      | arr js => simp only [decode] at h; split at h <;> cases h
      | _ => cases h
    | detail => exact key _ i rfl h
    | preview => simp only [decode] at h; split at h <;> cases h
    | add => exact key _ i rfl h
    | update => exact key _ i rfl h
    | run =>
      cases j with
      | null => cases h
      | _ => exact key _ i rfl h
    | pause => exact key _ i rfl h
    | resume =>
      cases j with
      | null => cases h
      | _ => exact key _ i rfl h
    | remove => cases h
  · intro l h
    have no : ∀ x : Except Exc Ret, (x = match infoOf C j with | some i => .ok (.task (some i)) | none => .error .badReply) →
        x = .ok (.infos l) → False := by
      intro x hx h
      rw [hx] at h
      split at h <;> cases h
    cases op with
    | info => cases h
    | instances => cases j <;> cases h
    | infos f =>
      cases j with
      | arr js =>
        simp only [decode] at h
        cases hl : infosOf C js with
        | none => rw [hl] at h; cases h
        | some l' =>
          rw [hl] at h
          cases h
          obtain ⟨h1, h2⟩ := infosOf_pictures hl
          exact ⟨js, rfl, h1, h2⟩
      | _ => cases h
    | detail => exact (no _ rfl h).elim
    | preview => simp only [decode] at h; split at h <;> cases h
    | add => exact (no _ rfl h).elim
    | update => exact (no _ rfl h).elim
    | run =>
      cases j with
      | null => cases h
      | _ => exact (no _ rfl h).elim
    | pause => exact (no _ rfl h).elim
    | resume =>
      cases j with
      | null => cases h
      | _ => exact (no _ rfl h).elim
    | remove => cases h

/-! ## Examples -/

private def exPy : Py := ⟨fun | .str t => t | _ => "?", String.toInt?, id⟩

/-- The hypotheses are met: texts are their own text, a client with a url. -/
example : (∀ t, exPy.text (.str t) = t) ∧
    make (some "http://worker/".toList) (some "t") false = some ⟨some "http://worker".toList, some "t", false⟩ :=
  ⟨fun _ => rfl, by decide⟩

/-- A full task, told by an answer whose count is a number. -/
example : Means exPy [("error", .str "MaximumInstancesError"), ("task_id", .str "a"), ("max_instances", .int 3)] (.maxInst "a" 3) :=
  .maxInst (by simp [Called, field]) (.task (j := .str "a") (by simp [field]) (fun h => by have := (truthy_iff _).2 h; simp [truthy] at this)) (.int (by simp [field]))

/-- An error of another program: its message if it has one, else its name. -/
example : Means exPy [("error", .str "Busy"), ("message", .str "")] (.remote "Busy") :=
  .remote (by simp [Called, field])
    (.error (j := .str "Busy") (by intro j h; simp [field] at h; subst h; exact .empty) (by simp [field]) (fun h => by have := (truthy_iff _).2 h; simp [truthy] at this))

private def exCodec : Codec Unit := ⟨fun _ => "t", fun _ => "t", fun _ => some ⟨0, 0⟩, fun _ => "p", fun _ => some ()⟩

private def exKv : List (String × Json) :=
  [("id", .str "a"), ("name", .null), ("callable_name", .null), ("callable_reference", .null), ("trigger_alias", .null),
   ("trigger_name", .null), ("trigger_description", .null), ("executor", .null), ("store_alias", .null),
   ("schedule_state", .str "paused"), ("next_run_time", .null), ("coalesce", .bool true), ("max_instances", .int 2),
   ("mistrigger_grace_time", .null), ("pending", .bool false), ("paused", .bool true), ("submitted", .bool true),
   ("args", .arr []), ("kwargs", .obj [])]

/-- Data with all the fields is a snapshot; the list of it is a result; without its last field it is none. -/
example : (∃ i, Pictures exCodec (.obj exKv) i ∧ i.id = some "a" ∧ i.maxInst = 2) ∧
    (∃ l, decode exCodec (.pause "a" none) (.ok (.obj exKv)) = .ok (.task (some l))) ∧
    ¬ ∃ i, Pictures exCodec (.obj exKv.dropLast) i := by
  have h : infoOf exCodec (.obj exKv) = some ⟨some "a", none, none, none, none, none, none, none, none, .paused, none, true, 2,
      none, false, true, true, [], []⟩ := by rfl
  refine ⟨⟨_, (C120_snapshot _ _ _).1 h, rfl, rfl⟩, ⟨_, by simp only [decode, h]; rfl⟩, ?_⟩
  rintro ⟨i, hi⟩
  have := (C120_snapshot _ _ _).2 hi
  have h2 : infoOf exCodec (.obj exKv.dropLast) = none := by rfl
  rw [h2] at this
  cases this

/-- a scheduler with one task, whose state says if it has been removed -/
private def exApi : Api Bool Unit :=
  { info := fun s => (.ok (.obj [("running", .bool true)]), s)
    instances := fun s => (.ok [], s)
    infos := fun _ s => (.ok [], s)
    detail := fun _ _ s => (.ok none, s)
    preview := fun _ _ _ _ s => (.ok none, s)
    add := fun _ s => (.error (.value "no"), s)
    update := fun id _ _ s => (.error (.lookup (some id)), s)
    run := fun id _ _ _ s => (.error (.maxInst id 1), s)
    pause := fun id _ s => (.error (.lookup (some id)), s)
    resume := fun _ _ s => (.error .notRunning, s)
    remove := fun _ _ _ => (.ok (), true) }

/-- **Why a failed call may have been made.**  The worker removes the task, the answer is lost and the caller gets a
`TimeoutError`. -/
theorem C120_lost_answer_witness (P : Py) :
    ∃ (A : Api Bool Unit) (C : Codec Unit) (c : Client),
      call P C A c none (.silent true) (.remove "a" none) false = (.error (.other "TimeoutError"), true) := by
  refine ⟨exApi, exCodec, ⟨some "http://w".toList, none, false⟩, ?_⟩
  have h : ∀ p : List Char, Literal p → dispatch "POST" (segments p) = .inr (.action "a" "remove") →
      ∀ b, serve exCodec exApi none ⟨"POST", p, some (.obj b), none⟩ false = (success .null, true) := by
    intro p hl hd b
    have ht : p.takeWhile (· ≠ '?') = p := (cut_single (sep := '?') (fun h => (hl _ h).2.1 rfl)).1
    simp only [serve, ht, unquote_plain hl, String.toList_ofList, hd]
    rfl
  have hp : taskPath "a" "/remove" = "/tasks/a/remove".toList := by decide
  have hs := h (taskPath "a" "/remove") (by rw [hp]; decide) (by rw [hp]; decide) [storeJson none]
  unfold call
  simp only [url, Option.map_some, request, transmit, hs]
  rfl

end RemoteClient
end Asyncz
