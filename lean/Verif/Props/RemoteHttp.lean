import Verif.Spec.RemoteHttp
import Verif.Props.Remote
/-!
# The answers of the control application

C119: every request either does not reach the scheduler, or stands for one call and its answer tells how the call ended.
-/
namespace Asyncz
namespace Remote
variable {σ γ : Type}

theorem words (e : Exc) : Words e e.cls e.msg := by
  cases e with
  | lookup id =>
    cases id with
    | none => exact .lookupNone
    | some i => exact .lookup i
  | notRunning => exact .notRunning
  | maxInst id n => exact .maxInst id n
  | value m => exact .value m
  | other c m => exact .other c m
  | remote m => exact .remote m
  | badReply => exact .badReply _
  | unsendable => exact .unsendable _

theorem names_entries (e : Exc) (id : Option String) : Names e id (.obj (errorEntries e id)) := by
  refine ⟨_, _, _, rfl, words e, ?_, ?_, ?_⟩
  · simp [errorEntries, field]
  · simp [errorEntries, field]
  · cases e <;> cases id <;> simp [errorEntries, field]

theorem entry_paramOrNone (k : String) (q : List (String × String)) : Entry k q (paramOrNone k q) := by
  unfold Entry paramOrNone param
  cases q.find? fun p => p.1 == k with
  | none => rfl
  | some p => obtain ⟨a, v⟩ := p; by_cases h : v = "" <;> simp [h]

theorem isTrue_iff (v : String) : isTrue (some v) = true ↔ MeansYes v := by
  have key : ∀ w : String, v.toList.map Char.toLower = w.toList ↔ v.toLower = w := by
    intro w
    rw [← String.toList_inj]
    unfold String.toLower
    rw [String.toList_map]
  unfold isTrue MeansYes
  simp only [Option.getD_some, List.contains_eq_mem, List.mem_cons, List.not_mem_nil, or_false, decide_eq_true_eq, key]

theorem descending_iff (q : List (String × String)) : isTrue (param "descending" q) = true ↔
    ∃ v, (q.find? fun p => p.1 == "descending") = some ("descending", v) ∧ MeansYes v := by
  unfold param
  cases h : q.find? fun p => p.1 == "descending" with
  | none =>
    have h0 : isTrue none = false := by decide
    simp [h0]
  | some p =>
    obtain ⟨a, v⟩ := p
    have ha := List.find?_some h
    simp only [beq_iff_eq] at ha
    subst ha
    simp [isTrue_iff]

theorem sort_entry (q : List (String × String)) : ∀ x, x = (paramOrNone "sort_by" q).getD "next_run_time" →
    Entry "sort_by" q (some x) ∨ Entry "sort_by" q none ∧ x = "next_run_time" := by
  intro x hx
  have h := entry_paramOrNone "sort_by" q
  cases hp : paramOrNone "sort_by" q with
  | none => rw [hp] at h hx; exact .inr ⟨h, hx⟩
  | some y => rw [hp] at h hx; subst hx; exact .inl h

theorem code_action {op : Op γ} (h : op.IsAction) (e : Exc) : Code op e (actionStatus e) := by
  have ht : op.OnTask := by cases op <;> first | exact h | trivial
  cases e <;> simp only [actionStatus] <;>
    first
      | exact .missing _ ht
      | exact .stopped h
      | exact .full _ _ h
      | exact .bad (fun _ _ => by simp) (fun _ => ⟨by simp, fun _ _ => by simp⟩)

theorem code_update {op : Op γ} (h : op.OnTask) (hn : ¬ op.IsAction) (e : Exc) : Code op e (updateStatus e) := by
  cases e <;> simp only [updateStatus] <;>
    first
      | exact .missing _ h
      | exact .bad (fun _ _ => by simp) (fun h => absurd h hn)

/-- The request never got to the scheduler: its answer is an error, the same for every scheduler, and changes nothing. -/
def Unserved (C : Codec γ) (tok : Option String) (r : Req) (reply : Reply) : Prop :=
  400 ≤ reply.status ∧ ∀ {σ : Type} (A : Api σ γ) (s : σ), serve C A tok r s = (reply, s)

/-- the endpoint a request is routed to -/
def Routed (r : Req) (e : Endpoint) : Prop :=
  ∃ path : String, unquote false (r.target.takeWhile (· ≠ '?')) = some path ∧
    dispatch r.method (segments path.toList) = .inr e

theorem told_snapshot {C : Codec γ} {op : Op γ} (id : String) (o : Option Info) :
    Told C op (.ok (.task o)) (snapshotReply C id o) := by
  cases o with
  | none => exact .done .gone
  | some i =>
    unfold snapshotReply
    simp only []
    cases h : infoJson C i with
    | some j => exact .done (.task h)
    | none =>
      refine .unshown (fun j hj => ?_) (.inl rfl)
      cases hj with
      | task h' => rw [h] at h'; cases h'

theorem handle_told (C : Codec γ) (q : List (String × String)) (b : Option Json) (e : Endpoint) :
    (∃ reply, 400 ≤ reply.status ∧ ∀ {σ : Type} (A : Api σ γ) (s : σ), handle C A q b e s = (reply, s)) ∨
    ∃ op, StandsFor q e op ∧ ∀ {σ : Type} (A : Api σ γ) (s : σ), (handle C A q b e s).2 = (direct A op s).2 ∧
      Told C op (direct A op s).1 (handle C A q b e s).1 := by
  cases e with
  | info =>
    refine .inr ⟨.info, .info, fun A s => ?_⟩
    simp only [handle, hInfo, direct]
    cases A.info s with
    | mk x s' => cases x with
      | error e => exact ⟨rfl, .crashed (fun h => h)⟩
      | ok j => exact ⟨rfl, .done (.info j)⟩
  | instances =>
    refine .inr ⟨.instances, .instances, fun A s => ?_⟩
    simp only [handle, hInstances, direct]
    cases A.instances s with
    | mk x s' => cases x with
      | error e => exact ⟨rfl, .crashed (fun h => h)⟩
      | ok j => exact ⟨rfl, .done (.instances j)⟩
  | tasks =>
    refine .inr ⟨.infos ⟨paramOrNone "store" q, paramOrNone "schedule_state" q, paramOrNone "executor" q,
      paramOrNone "trigger" q, paramOrNone "q" q, (paramOrNone "sort_by" q).getD "next_run_time",
      isTrue (param "descending" q)⟩, .tasks (entry_paramOrNone _ _) (entry_paramOrNone _ _) (entry_paramOrNone _ _)
        (entry_paramOrNone _ _) (entry_paramOrNone _ _) (sort_entry q _ rfl) (descending_iff q), fun A s => ?_⟩
    simp only [handle, hTasks, direct]
    cases A.infos _ s with
    | mk x s' => cases x with
      | error e =>
        exact ⟨rfl, .failed trivial (.bad (fun h => by cases h) (fun h => by cases h)) (names_entries e none)⟩
      | ok l =>
        simp only []
        cases h : infosJson C l with
        | some js => exact ⟨rfl, .done (.infos h)⟩
        | none =>
          refine ⟨rfl, .unshown (fun j hj => ?_) (.inl rfl)⟩
          cases hj with
          | infos h' => rw [h] at h'; cases h'
  | detail id =>
    refine .inr ⟨.detail id (paramOrNone "store" q), .detail (entry_paramOrNone _ _), fun A s => ?_⟩
    simp only [handle, hDetail, direct]
    cases A.detail id (paramOrNone "store" q) s with
    | mk x s' => cases x with
      | error e => exact ⟨rfl, .crashed (fun h => h)⟩
      | ok o => cases o with
        | none => exact ⟨rfl, .noTask rfl (fun h => h) (names_entries _ _) (.inl rfl)⟩
        | some i =>
          simp only []
          cases h : infoJson C i with
          | some j => exact ⟨rfl, .done (.task h)⟩
          | none =>
            refine ⟨rfl, .unshown (fun j hj => ?_) (.inr rfl)⟩
            cases hj with
            | task h' => rw [h] at h'; cases h'
  | preview id =>
    cases hc : (paramOrNone "count" q).elim (some 5) String.toInt? with
    | none =>
      refine .inl ⟨.text 500, by decide, fun A s => ?_⟩
      simp only [handle, hPreview, hc]
    | some n =>
      refine .inr ⟨.preview id (paramOrNone "store" q) n none, .preview (entry_paramOrNone _ _) n, fun A s => ?_⟩
      simp only [handle, hPreview, direct, hc]
      cases A.preview id (paramOrNone "store" q) n none s with
      | mk x s' => cases x with
        | error e => exact ⟨rfl, .crashed (fun h => h)⟩
        | ok o => cases o with
          | none => exact ⟨rfl, .noTask rfl (fun h => h) (names_entries _ _) (.inr rfl)⟩
          | some p =>
            simp only []
            cases h : previewJson C p with
            | some j => exact ⟨rfl, .done (.preview h)⟩
            | none =>
              refine ⟨rfl, .unshown (fun j hj => ?_) (.inr rfl)⟩
              cases hj with
              | preview h' => rw [h] at h'; cases h'
  | addTask =>
    cases hb : jsonBody b with
    | none =>
      refine .inl ⟨.text 500, by decide, fun A s => ?_⟩
      simp only [handle, hAdd, hb]
    | some kv =>
      cases hd : dictField "trigger_args" kv with
      | none =>
        refine .inl ⟨.text 500, by decide, fun A s => ?_⟩
        simp only [handle, hAdd, hb, hd]
      | some ta =>
        cases ht : triggerField C kv with
        | none =>
          refine .inl ⟨.text 500, by decide, fun A s => ?_⟩
          simp only [handle, hAdd, hb, hd, ht]
        | some tr =>
          refine .inr ⟨.add {
            fn := (strField "fn" kv).getD "", trigger := tr, trigArgs := ta,
            args := listField "args" kv, kwargs := (dictField "kwargs" kv).getD [],
            replace := boolField "replace_existing" false kv,
            id := strField "id" kv, name := strField "name" kv, store := strField "store" kv,
            executor := strField "executor" kv,
            grace := (field "mistrigger_grace_time" kv).map Json.py, coalesce := (field "coalesce" kv).map Json.py,
            maxInst := (field "max_instances" kv).map Json.py, nextRun := (field "next_run_time" kv).map Json.py },
            .add _, fun A s => ?_⟩
          simp only [handle, hAdd, hb, hd, ht, direct]
          cases A.add _ s with
          | mk x s' => cases x with
            | error e =>
              exact ⟨rfl, .failed trivial (.bad (fun h => by cases h) (fun h => by cases h)) (names_entries e none)⟩
            | ok i =>
              simp only []
              cases h : infoJson C i with
              | some j => exact ⟨rfl, .done (.task h)⟩
              | none =>
                refine ⟨rfl, .unshown (fun j hj => ?_) (.inr rfl)⟩
                cases hj with
                | task h' => rw [h] at h'; cases h'
  | update id =>
    cases hb : jsonBody b with
    | none =>
      refine .inl ⟨.text 500, by decide, fun A s => ?_⟩
      simp only [handle, hUpdate, hb]
    | some kv =>
      cases hd : dictField "updates" kv with
      | none =>
        refine .inl ⟨errorReply (.value "dictionary update sequence") 400 (some id), (by decide : 400 ≤ 400), fun A s => ?_⟩
        simp only [handle, hUpdate, hb, hd]
      | some u =>
        refine .inr ⟨.update id (strField "store" kv) u, .update _ _ _, fun A s => ?_⟩
        simp only [handle, hUpdate, hb, hd, direct]
        cases A.update id (strField "store" kv) u s with
        | mk x s' => cases x with
          | error e => exact ⟨rfl, .failed trivial (code_update (by trivial) (by intro h; exact h) e) (names_entries e (some id))⟩
          | ok i =>
            simp only []
            cases h : infoJson C i with
            | some j => exact ⟨rfl, .done (.task h)⟩
            | none =>
              refine ⟨rfl, .unshown (fun j hj => ?_) (.inr rfl)⟩
              cases hj with
              | task h' => rw [h] at h'; cases h'
  | action id a =>
    cases hb : jsonBody b with
    | none =>
      refine .inl ⟨.text 500, by decide, fun A s => ?_⟩
      simp only [handle, hAction, hb]
    | some kv =>
      by_cases h1 : a = "run"
      · subst h1
        refine .inr ⟨.run id (strField "store" kv) (boolField "force" true kv) (boolField "remove_finished" true kv),
          .run _ _ _ _, fun A s => ?_⟩
        simp only [handle, hAction, hb, if_true, direct]
        cases A.run id (strField "store" kv) (boolField "force" true kv) (boolField "remove_finished" true kv) s with
        | mk x s' => cases x with
          | error e => exact ⟨rfl, .failed trivial (code_action (by trivial) e) (names_entries e (some id))⟩
          | ok o => exact ⟨rfl, told_snapshot id o⟩
      by_cases h2 : a = "pause"
      · subst h2
        refine .inr ⟨.pause id (strField "store" kv), .pause _ _, fun A s => ?_⟩
        simp only [handle, hAction, hb, if_neg h1, if_true, direct]
        cases A.pause id (strField "store" kv) s with
        | mk x s' => cases x with
          | error e => exact ⟨rfl, .failed trivial (code_action (by trivial) e) (names_entries e (some id))⟩
          | ok o => exact ⟨rfl, told_snapshot id (some o)⟩
      by_cases h3 : a = "resume"
      · subst h3
        refine .inr ⟨.resume id (strField "store" kv), .resume _ _, fun A s => ?_⟩
        simp only [handle, hAction, hb, if_neg h1, if_neg h2, if_true, direct]
        cases A.resume id (strField "store" kv) s with
        | mk x s' => cases x with
          | error e => exact ⟨rfl, .failed trivial (code_action (by trivial) e) (names_entries e (some id))⟩
          | ok o => exact ⟨rfl, told_snapshot id o⟩
      by_cases h4 : a = "remove"
      · subst h4
        refine .inr ⟨.remove id (strField "store" kv), .remove _ _, fun A s => ?_⟩
        simp only [handle, hAction, hb, if_neg h1, if_neg h2, if_neg h3, if_true, direct]
        cases A.remove id (strField "store" kv) s with
        | mk x s' => cases x with
          | error e => exact ⟨rfl, .failed trivial (code_action (by trivial) e) (names_entries e (some id))⟩
          | ok o => exact ⟨rfl, .done .done⟩
      · refine .inl ⟨errorReply (.value ("Unsupported task action: " ++ a)) 404 none, (by decide : 400 ≤ 404), fun A s => ?_⟩
        simp only [handle, hAction, hb, if_neg h1, if_neg h2, if_neg h3, if_neg h4]

/-- **C119.** Whatever is sent to the control application: either the request does not get to the scheduler, and the answer
is an error; or it stands for one call on the scheduler, that call alone is made, and the answer tells how it ended —
200 with what it returned, 404 for a task that is not there, 409 for a scheduler that is not running or a task with
all its instances, 400 for other exceptions of calls that change something (always with class and text of the
exception), 500 for exceptions of calls that read, and 400 or 500 if what was returned has no JSON. -/
theorem C119_told (C : Codec γ) (tok : Option String) (r : Req) :
    (∃ reply, Unserved C tok r reply) ∨
    ∃ e op, Routed r e ∧ StandsFor (parseQuery ((r.target.dropWhile (· ≠ '?')).drop 1)) e op ∧
      ∀ {σ : Type} (A : Api σ γ) (s : σ), (serve C A tok r s).2 = (direct A op s).2 ∧
        Told C op (direct A op s).1 (serve C A tok r s).1 := by
  cases hu : unquote false (r.target.takeWhile (· ≠ '?')) with
  | none =>
    refine .inl ⟨.text 404, by decide, fun A s => ?_⟩
    simp only [serve, hu]
  | some path =>
    cases hd : dispatch r.method (segments path.toList) with
    | inl st =>
      refine .inl ⟨.text st, ?_, fun A s => ?_⟩
      · have : st = 404 ∨ st = 405 := by
          unfold dispatch at hd
          split at hd
          · cases hd
          · split at hd <;> cases hd
            · exact .inr rfl
            · exact .inl rfl
        show 400 ≤ st
        omega
      · simp only [serve, hu, hd]
    | inr e =>
      by_cases ht : tokenOk tok r.token = false
      · refine .inl ⟨unauthorized, by decide, fun A s => ?_⟩
        simp only [serve, hu, hd, ht, if_true]
      · have hs : ∀ {σ : Type} (A : Api σ γ) (s : σ), serve C A tok r s =
            handle C A (parseQuery ((r.target.dropWhile (· ≠ '?')).drop 1)) r.body e s := by
          intro σ A s
          simp only [serve, hu, hd, ht]
          rfl
        rcases handle_told C (parseQuery ((r.target.dropWhile (· ≠ '?')).drop 1)) r.body e with ⟨reply, h1, h2⟩ | ⟨op, h1, h2⟩
        · exact .inl ⟨reply, h1, fun A s => by rw [hs]; exact h2 A s⟩
        · refine .inr ⟨e, op, ⟨path, hu, hd⟩, h1, fun A s => ?_⟩
          rw [hs]
          exact h2 A s

/-- Only 200 says that something was done, and it is true: the call was made and returned. -/
theorem C119_success (C : Codec γ) (A : Api σ γ) (tok : Option String) (r : Req) (s : σ)
    (h : (serve C A tok r s).1.status < 400) :
    ∃ e op ret j, Routed r e ∧ StandsFor (parseQuery ((r.target.dropWhile (· ≠ '?')).drop 1)) e op ∧
      direct A op s = (.ok ret, (serve C A tok r s).2) ∧ Shown C ret j ∧
      (serve C A tok r s).1 = .json 200 (.obj [("data", j)]) := by
  rcases C119_told C tok r with ⟨reply, h1, h2⟩ | ⟨e, op, hr, hs, ht⟩
  · rw [h2 A s] at h
    simp only at h
    omega
  · obtain ⟨h1, h2⟩ := ht A s
    generalize hx : (direct A op s).1 = x at h2
    generalize hy : (serve C A tok r s).1 = y at h h2 ⊢
    have hd : direct A op s = (x, (serve C A tok r s).2) := by rw [← hx, h1]
    cases h2 with
    | done hj => exact ⟨e, op, _, _, hr, hs, hd, hj, rfl⟩
    | noTask _ _ _ _ => simp [Reply.status] at h
    | failed _ hc _ =>
      exfalso
      cases hc <;> simp [Reply.status] at h
    | crashed _ => simp [Reply.status] at h
    | unshown _ hst => exfalso; omega

/-- 404 and 409 say that the call was not carried out: either no call was made, or it raised, or the task looked for is
not there. -/
theorem C119_refused (C : Codec γ) (A : Api σ γ) (tok : Option String) (r : Req) (s : σ)
    (h : (serve C A tok r s).1.status = 404 ∨ (serve C A tok r s).1.status = 409) :
    (serve C A tok r s).2 = s ∨
    ∃ e op, Routed r e ∧ StandsFor (parseQuery ((r.target.dropWhile (· ≠ '?')).drop 1)) e op ∧
      (serve C A tok r s).2 = (direct A op s).2 ∧
      ((direct A op s).1 = .ok (.task none) ∨ (direct A op s).1 = .ok (.preview none) ∨
       (∃ id, (direct A op s).1 = .error (.lookup id)) ∨ (direct A op s).1 = .error .notRunning ∨
       ∃ id n, (direct A op s).1 = .error (.maxInst id n)) := by
  rcases C119_told C tok r with ⟨reply, h1, h2⟩ | ⟨e, op, hr, hs, ht⟩
  · exact .inl (by rw [h2 A s])
  · obtain ⟨h1, h2⟩ := ht A s
    refine .inr ⟨e, op, hr, hs, h1, ?_⟩
    generalize (direct A op s).1 = x at h2 ⊢
    generalize (serve C A tok r s).1 = y at h h2
    cases h2 with
    | done hj => simp [Reply.status] at h
    | noTask _ _ _ hret =>
      rcases hret with rfl | rfl
      · exact .inl rfl
      · exact .inr (.inl rfl)
    | failed _ hc _ =>
      cases hc with
      | missing id _ => exact .inr (.inr (.inl ⟨id, rfl⟩))
      | stopped _ => exact .inr (.inr (.inr (.inl rfl)))
      | full id n _ => exact .inr (.inr (.inr (.inr ⟨id, n, rfl⟩)))
      | bad _ _ => simp [Reply.status] at h
    | crashed _ => simp [Reply.status] at h
    | unshown _ hst => exfalso; omega

/-! ## The texts of a request -/

theorem hexDigit_lt {c : Char} {n : Nat} (h : HexDigit c n) : n < 16 := by
  rcases h with h | h
  · exact (List.getElem?_eq_some_iff.1 h).1
  · exact (List.getElem?_eq_some_iff.1 h).1

instance (c : Char) (n : Nat) : Decidable (HexDigit c n) := inferInstanceAs (Decidable (_ ∨ _))

theorem hexVal_small : ∀ k < 128, ∀ n < 16, hexVal (Char.ofNat k) = some n ↔ HexDigit (Char.ofNat k) n := by
  decide +kernel

theorem hexDigit_ascii {c : Char} {n : Nat} (h : HexDigit c n) : c.toNat < 128 := by
  have h1 : ∀ x ∈ "0123456789abcdef".toList ++ "0123456789ABCDEF".toList, x.toNat < 128 := by decide
  refine h1 c ?_
  rcases h with h | h
  · exact List.mem_append_left _ (List.mem_of_getElem? h)
  · exact List.mem_append_right _ (List.mem_of_getElem? h)

theorem hexVal_bounds {c : Char} {n : Nat} (h : hexVal c = some n) : c.toNat < 128 ∧ n < 16 := by
  unfold hexVal at h
  simp only [Bool.and_eq_true, decide_eq_true_eq] at h
  split at h
  · cases h; omega
  · split at h
    · cases h; omega
    · split at h
      · cases h; omega
      · cases h

theorem hexVal_iff (c : Char) (n : Nat) : hexVal c = some n ↔ HexDigit c n := by
  have hc : Char.ofNat c.toNat = c := Char.ofNat_toNat c
  constructor
  · intro h
    obtain ⟨h1, h2⟩ := hexVal_bounds h
    have := hexVal_small _ h1 _ h2
    rw [hc] at this
    exact this.1 h
  · intro h
    have := hexVal_small _ (hexDigit_ascii h) _ (hexDigit_lt h)
    rw [hc] at this
    exact this.2 h

theorem unquoted_other {plus : Bool} {c : Char} (hc : c ≠ '%') {l : List Char} {bs : List UInt8} (h : Unquoted plus l bs) :
    Unquoted plus (c :: l) ((if plus && c == '+' then 32 else UInt8.ofNat c.toNat) :: bs) := by
  by_cases hp : plus = true ∧ c = '+'
  · obtain ⟨h1, rfl⟩ := hp
    subst h1
    exact .space rfl h
  · have : (plus && c == '+') = false := by
      rw [Bool.eq_false_iff]
      intro h
      simp only [Bool.and_eq_true, beq_iff_eq] at h
      exact hp h
    rw [this]
    exact .char hc hp h

/-- Paths and queries are read as they should be. -/
theorem C119_unquote (plus : Bool) : ∀ l : List Char, Unquoted plus l (unquoteBytes plus l) := by
  suffices H : ∀ n, ∀ l : List Char, l.length ≤ n → Unquoted plus l (unquoteBytes plus l) from
    fun l => H l.length l (Nat.le_refl _)
  intro n
  induction n with
  | zero =>
    intro l hl
    have : l = [] := List.length_eq_zero_iff.1 (by omega)
    subst this
    exact .nil
  | succ n ih =>
    intro l hl
    have h37 : ∀ l' : List Char, (if plus && '%' == '+' then (32 : UInt8) else UInt8.ofNat '%'.toNat) = 37 := by
      intro _
      cases plus <;> rfl
    match l, hl with
    | [], _ => exact .nil
    | [c], hl =>
      by_cases hc : c = '%'
      · subst hc
        have : unquoteBytes plus ['%'] = [37] := by cases plus <;> rfl
        rw [this]
        exact .stray (fun a b x y l' h => by cases h) .nil
      · have := unquoted_other (plus := plus) hc .nil
        rw [unquoteBytes]
        · exact this
        · intro a b l h; exact absurd h hc
    | [c, d], hl =>
      have hd := ih [d] (by simp only [List.length_cons, List.length_nil] at hl ⊢; omega)
      by_cases hc : c = '%'
      · subst hc
        have : unquoteBytes plus ['%', d] = 37 :: unquoteBytes plus [d] := by
          rw [unquoteBytes.eq_3]
          · rw [h37 []]
          · intro a b l _ h; cases h
        rw [this]
        exact .stray (fun a b x y l' h => by cases h) hd
      · have := unquoted_other (plus := plus) hc hd
        rw [unquoteBytes]
        · exact this
        · intro a b l h; exact absurd h hc
    | c :: a :: b :: l, hl =>
      simp only [List.length_cons] at hl
      by_cases hc : c = '%'
      · subst hc
        rw [unquoteBytes]
        cases ha : hexVal a with
        | none =>
          refine .stray (fun a' b' x y l' h => ?_) (ih _ (by simp only [List.length_cons]; omega))
          rintro ⟨h1, h2⟩
          cases h
          rw [← hexVal_iff, ha] at h1
          cases h1
        | some x =>
          cases hb : hexVal b with
          | none =>
            refine .stray (fun a' b' x y l' h => ?_) (ih _ (by simp only [List.length_cons]; omega))
            rintro ⟨h1, h2⟩
            cases h
            rw [← hexVal_iff, hb] at h2
            cases h2
          | some y => exact .hex ((hexVal_iff _ _).1 ha) ((hexVal_iff _ _).1 hb) (ih _ (by omega))
      · have := unquoted_other (plus := plus) hc (ih (a :: b :: l) (by simp only [List.length_cons]; omega))
        rw [unquoteBytes]
        · exact this
        · intro a b l h; exact absurd h hc

/-- **C119, bodies.** A request to create or change something whose body is JSON but not an object is answered with 500, one
whose changes are not an object with 400 or 500 (the token being right), and nothing happens. -/
theorem C119_body (C : Codec γ) (A : Api σ γ) {tok : Option String} {r : Req} (ht : tok = none ∨ r.token = tok) (s : σ) :
    (∀ e j, Routed r e → (e = .addTask ∨ (∃ id, e = .update id) ∨ ∃ id a, e = .action id a) → r.body = some j → j ≠ .null →
      (∀ kv, j ≠ .obj kv) → serve C A tok r s = (.text 500, s)) ∧
    (∀ id kv j, Routed r (.update id) → r.body = some (.obj kv) → field "updates" kv = some j → j ≠ .null → (∀ d, j ≠ .obj d) →
      (serve C A tok r s).1.status = 400 ∧ (serve C A tok r s).2 = s) ∧
    (∀ kv j, Routed r .addTask → r.body = some (.obj kv) → field "trigger_args" kv = some j → j ≠ .null → (∀ d, j ≠ .obj d) →
      serve C A tok r s = (.text 500, s)) := by
  have htok : tokenOk tok r.token = true := by
    rcases ht with rfl | h
    · rfl
    · rw [h]; exact tokenOk_same tok
  have key : ∀ e, Routed r e → serve C A tok r s = handle C A (parseQuery ((r.target.dropWhile (· ≠ '?')).drop 1)) r.body e s := by
    rintro e ⟨path, h1, h2⟩
    unfold serve
    simp only [h1, h2, htok]
    rfl
  have nobody : ∀ j : Json, j ≠ .null → (∀ kv, j ≠ .obj kv) → jsonBody (some j) = none := by
    intro j h1 h2
    cases j with
    | null => exact absurd rfl h1
    | obj kv => exact absurd rfl (h2 kv)
    | _ => rfl
  have nodict : ∀ (k : String) (kv : List (String × Json)) (j : Json), field k kv = some j → j ≠ .null → (∀ d, j ≠ .obj d) →
      dictField k kv = none := by
    intro k kv j h h1 h2
    unfold dictField
    rw [h]
    cases j with
    | null => exact absurd rfl h1
    | obj kv => exact absurd rfl (h2 kv)
    | _ => rfl
  refine ⟨fun e j hr he hb h1 h2 => ?_, fun id kv j hr hb hf h1 h2 => ?_, fun kv j hr hb hf h1 h2 => ?_⟩
  · rw [key e hr, hb]
    rcases he with rfl | ⟨id, rfl⟩ | ⟨id, a, rfl⟩
    · simp only [handle, hAdd, nobody j h1 h2]
    · simp only [handle, hUpdate, nobody j h1 h2]
    · simp only [handle, hAction, nobody j h1 h2]
  · rw [key _ hr, hb]
    simp only [handle, hUpdate, jsonBody, nodict _ _ _ hf h1 h2]
    exact ⟨rfl, trivial⟩
  · rw [key _ hr, hb]
    simp only [handle, hAdd, jsonBody, nodict _ _ _ hf h1 h2]

/-! ## Examples -/

private def exCodec : Codec Unit :=
  { iso := fun _ => "", pyd := fun _ => "", parse := fun _ => none, pickle := fun _ => "p", unpickle := fun _ => some () }

private def exInfo : Info :=
  { id := some "a", name := none, callableName := none, callableRef := none, triggerAlias := none,
    triggerName := none, triggerDesc := none, executor := none, storeAlias := none,
    state := .scheduled, nextRun := none, coalesce := true, maxInst := 1, grace := none, pending := false,
    paused := false, submitted := true, args := [.object 0], kwargs := [] }

/-- a scheduler with the task `a`, whose argument is an object; its state: whether the task is paused -/
private def exApi : Api Bool Unit :=
  { info := fun s => (.error (.value "no"), s)
    instances := fun s => (.ok [], s)
    infos := fun f s => (if f.desc then .ok [] else .error (.value "up"), s)
    detail := fun id _ s => (.ok (if id = "a" then some exInfo else none), s)
    preview := fun _ _ _ _ s => (.ok none, s)
    add := fun _ s => (.error (.other "ConflictIdError" "conflict"), s)
    update := fun id _ _ s => (.error (.lookup (some id)), s)
    run := fun id _ _ _ s => (.error (.maxInst id 1), s)
    pause := fun id _ s => if id = "a" then (.ok exInfo, true) else (.error (.lookup (some id)), s)
    resume := fun _ _ s => (.error .notRunning, s)
    remove := fun _ _ _ => (.ok (), false) }

private theorem exServe {m : String} {p : List Char} {e : Endpoint} (hl : Literal p) (hd : dispatch m (segments p) = .inr e)
    (b : Option Json) (s : Bool) : serve exCodec exApi none ⟨m, p, b, none⟩ s = handle exCodec exApi [] b e s := by
  have ht : p.takeWhile (· ≠ '?') = p := by
    exact (cut_single (sep := '?') (fun h => (hl _ h).2.1 rfl)).1
  have hdr : p.dropWhile (· ≠ '?') = [] := by
    exact (cut_single (sep := '?') (fun h => (hl _ h).2.1 rfl)).2
  simp only [serve, ht, hdr, unquote_plain hl, String.toList_ofList, hd]
  rfl

/-- An error answer does not mean that nothing happened: a task whose arguments have no JSON is paused, and the answer
is 400.  (So is the answer of the other actions; adding and changing such a task is answered with 500.) -/
theorem C119_done_witness :
    (serve exCodec exApi none ⟨"POST", "/tasks/a/pause".toList, none, none⟩ false).2 = true ∧
    (serve exCodec exApi none ⟨"POST", "/tasks/a/pause".toList, none, none⟩ false).1.status = 400 := by
  have h : serve exCodec exApi none ⟨"POST", "/tasks/a/pause".toList, none, none⟩ false =
      handle exCodec exApi [] none (.action "a" "pause") false := exServe (by decide) (by decide) none false
  rw [h]
  exact ⟨rfl, rfl⟩

/-- 404, 409, 400 and 500 all occur, and 200. -/
example : (serve exCodec exApi none ⟨"POST", "/tasks/b/pause".toList, none, none⟩ false).1.status = 404 ∧
    (serve exCodec exApi none ⟨"POST", "/tasks/b/run".toList, none, none⟩ false).1.status = 409 ∧
    (serve exCodec exApi none ⟨"POST", "/tasks/b/resume".toList, none, none⟩ false).1.status = 409 ∧
    (serve exCodec exApi none ⟨"POST", "/tasks".toList, none, none⟩ false).1.status = 400 ∧
    (serve exCodec exApi none ⟨"GET", "/info".toList, none, none⟩ false).1.status = 500 ∧
    (serve exCodec exApi none ⟨"POST", "/tasks/b/remove".toList, none, none⟩ true).1.status = 200 ∧
    (serve exCodec exApi none ⟨"POST", "/tasks/b/remove".toList, none, none⟩ true).2 = false := by
  refine ⟨?_, ?_, ?_, ?_, ?_, ?_, ?_⟩
  · rw [exServe (e := .action "b" "pause") (by decide) (by decide)]; rfl
  · rw [exServe (e := .action "b" "run") (by decide) (by decide)]; rfl
  · rw [exServe (e := .action "b" "resume") (by decide) (by decide)]; rfl
  · rw [exServe (e := .addTask) (by decide) (by decide)]; rfl
  · rw [exServe (e := .info) (by decide) (by decide)]; rfl
  · rw [exServe (e := .action "b" "remove") (by decide) (by decide)]; rfl
  · rw [exServe (e := .action "b" "remove") (by decide) (by decide)]; rfl

/-- A request to update whose body is a number: 500. -/
example : serve exCodec exApi none ⟨"PATCH", "/tasks/b".toList, some (.int 3), none⟩ true = (.text 500, true) :=
  (C119_body exCodec exApi (r := ⟨"PATCH", "/tasks/b".toList, some (.int 3), none⟩) (.inl rfl) true).1 (.update "b") (.int 3)
    ⟨"/tasks/b", by decide, by decide⟩ (.inr (.inl ⟨_, rfl⟩)) rfl (by simp) (by simp)

/-- `YES` asks for descending order, `on` does not. -/
example : MeansYes "YES" ∧ ¬ MeansYes "on" := by
  have h1 := isTrue_iff "YES"
  have h2 := isTrue_iff "on"
  exact ⟨h1.1 (by decide), fun h => absurd (h2.2 h) (by decide)⟩

/-- `100%+` in a query: the percent sign stays, the plus is a space. -/
example : Unquoted true "100%+".toList [49, 48, 48, 37, 32] := C119_unquote true "100%+".toList

end Remote
end Asyncz
