import Verif.Spec.ListPages
import Verif.Props.Dash
import Verif.Props.History
import Verif.Props.Logs
import Verif.Props.Pages
/-!
# C111: the list pages of the dashboard show the newest entries that fit their URL
-/
namespace Asyncz
namespace ListPages
open Listing (Text orEmpty)
open Dash Spec

variable {O : Ops}

/-! ## Fields and the limit -/

theorem field_typed (p : Params) (key : String) : field O p key = typed O p key := by
  unfold field typed orText
  split
  · rename_i h; rw [h]
  · rfl

theorem limit_bounds (v : Text) : 1 ≤ limit O v ∧ limit O v ≤ 1000 := by
  unfold limit
  split <;> omega

theorem asked_limit (hO : Lawful O) (p : Params) : Asked O p (limit O (limitField O p)).toNat := by
  have h200 : O.strip "200".toList = "200".toList := (hO.plain _ (by decide)).2
  have hf : limitField O p = orText (typed O p "limit") "200".toList := by
    unfold limitField typed
    by_cases h : (p "limit").getD [] = []
    · rw [h, hO.strip_nil]
      simp only [orText, if_true]
      rw [h200]; decide
    · rw [orText, orText, if_neg h]; rfl
  rw [hf]
  by_cases ht : typed O p "limit" = []
  · rw [ht]
    have hl : limit O (orText [] "200".toList) = 200 := by
      show limit O "200".toList = 200
      unfold limit; rw [hO.int_200]; rfl
    rw [hl]
    constructor <;> rw [ht, hO.int_nil]
    · intro k h; cases h
    · intro k h; cases h
    · intro k h; cases h
    · intro _; rfl
  · rw [orText, if_neg ht]
    constructor
    · intro k hk h1 h2
      have hl : limit O (typed O p "limit") = max 1 (min k 1000) := by unfold limit; rw [hk]
      omega
    · intro k hk h1
      have hl : limit O (typed O p "limit") = max 1 (min k 1000) := by unfold limit; rw [hk]
      omega
    · intro k hk h1
      have hl : limit O (typed O p "limit") = max 1 (min k 1000) := by unfold limit; rw [hk]
      omega
    · intro hk; unfold limit; rw [hk]; rfl

theorem orNone_getD (t : Text) : (orNone t).getD [] = t := by
  unfold orNone; split
  · rename_i h; rw [h]; rfl
  · rfl

theorem given_orNone (t : Text) : Given (orNone t) ↔ t ≠ [] := by
  unfold orNone Given; split <;> simp_all

theorem clean_lower (hO : Lawful O) (p : Params) (key : String) :
    O.lower (O.strip ((orNone (O.lower (field O p key))).getD [])) = O.lower (typed O p key) := by
  rw [orNone_getD, field_typed]
  unfold typed
  rw [hO.strip_lower, hO.lower_lower]

theorem clean_text (hO : Lawful O) (p : Params) (key : String) :
    O.lower (O.strip ((orNone (field O p key)).getD [])) = O.lower (typed O p key) := by
  rw [orNone_getD, field_typed]
  unfold typed
  rw [hO.strip_strip]

theorem typed_orNone {p : Params} {key : String} {x : Option Text} :
    (Given (orNone (field O p key)) → x = orNone (field O p key)) ↔ (typed O p key ≠ [] → x = some (typed O p key)) := by
  rw [given_orNone, field_typed]
  by_cases h : typed O p key = []
  · simp [h]
  · simp [h, orNone]

/-! ## Which entries fit -/

theorem eventMatches_iff (hO : Lawful O) (p : Params) (l : Int) (r : EventRec) :
    EventMatches O.toStr ⟨orNone (eventFilters O p).category, orNone (eventFilters O p).name,
      orNone (eventFilters O p).taskId, orNone (eventFilters O p).q, l⟩ r ↔ EventFits O p r := by
  unfold EventMatches
  simp only [eventFilters]
  rw [clean_lower hO, clean_lower hO, clean_text hO, typed_orNone]
  simp only [ne_eq, hO.lower_nil]
  constructor
  · rintro ⟨a, b, c, d⟩; exact ⟨a, b, c, d⟩
  · rintro ⟨a, b, c, d⟩; exact ⟨a, b, c, d⟩

theorem auditMatches_iff (hO : Lawful O) (p : Params) (l : Int) (r : AuditRec) :
    AuditMatches O.toStr ⟨orNone (auditFilters O p).action, orNone (auditFilters O p).status,
      orNone (auditFilters O p).q, l⟩ r ↔ AuditFits O p r := by
  unfold AuditMatches
  simp only [auditFilters]
  rw [clean_lower hO, clean_lower hO, clean_text hO]
  simp only [ne_eq, hO.lower_nil]
  constructor
  · rintro ⟨a, b, c⟩; exact ⟨a, b, c⟩
  · rintro ⟨a, b, c⟩; exact ⟨a, b, c⟩

theorem runMatches_iff (hO : Lawful O) (p : Params) (l : Int) (r : Hist.Rec) :
    Hist.Matches O.toStr ⟨orNone (historyFilters O p).taskId, orNone (historyFilters O p).status,
      orNone (historyFilters O p).source, orNone (historyFilters O p).q, l⟩ r ↔ RunFits O p r := by
  unfold Hist.Matches
  simp only [historyFilters]
  rw [clean_lower hO, clean_lower hO, clean_text hO, typed_orNone]
  simp only [ne_eq, hO.lower_nil]
  constructor
  · rintro ⟨a, b, c, d⟩; exact ⟨fun h => by simpa using a h, b, c, d⟩
  · rintro ⟨a, b, c, d⟩; exact ⟨fun h => by simpa using a h, b, c, d⟩

theorem logMatches_iff (hO : Lawful O) (p : Params) (l : Int) (e : LogEntry) :
    LogMatches O.toStr ⟨orNone (logFilters O p).taskId, orNone (logFilters O p).runId, orNone (logFilters O p).level,
      orNone (logFilters O p).q, none, none, l⟩ e ↔ LogFits O p e := by
  unfold LogMatches
  simp only [logFilters]
  rw [typed_orNone, typed_orNone, given_orNone, orNone_getD, orNone_getD, field_typed, field_typed]
  have hq : O.strip (O.lower (typed O p "q")) = O.lower (typed O p "q") := hO.strip_lower _
  rw [hq, hO.upper_upper]
  simp only [ne_eq, hO.lower_nil, hO.upper_nil]
  constructor
  · rintro ⟨a, b, -, -, c, d⟩; exact ⟨a, b, fun h => c h h, d⟩
  · rintro ⟨a, b, c, d⟩
    exact ⟨a, b, fun _ h => by simp at h, fun _ h => by simp at h, fun h _ => c h, d⟩

open Classical in
theorem answer_congr {α : Type} {P Q : α → Prop} (h : ∀ x, P x ↔ Q x) (n : Nat) (l : List α) :
    Dash.Spec.answer P n l = Dash.Spec.answer Q n l := by
  have : P = Q := funext fun x => propext (h x)
  subst this; rfl

/-! ## The pages -/

theorem beq_dec {α : Type} [BEq α] [LawfulBEq α] (a b : α) [Decidable (a = b)] : (a == b) = decide (a = b) := by
  rw [Bool.eq_iff_iff]; simp

open Classical in
/-- **C111, events.**  After any sequence of events the page shows the newest of those that fit the URL, newest first, as
many as asked for; the counts at the top are those of the whole buffer, whatever the filters. -/
theorem C111_events (hO : Lawful O) (m : Nat) (rs : List EventRec) (p : Params) :
    ∃ n, Asked O p n ∧
      (eventsContext O (eventsAfter m rs) p).rows = Dash.Spec.answer (EventFits O p) n (Dash.Spec.newest m rs) ∧
      (eventsContext O (eventsAfter m rs) p).summary =
        ((Dash.Spec.newest m rs).length, (Dash.Spec.newest m rs).countP (fun r => r.category = "scheduler".toList),
         (Dash.Spec.newest m rs).countP (fun r => r.category = "task".toList),
         (Dash.Spec.newest m rs).countP (fun r => r.code ∈ [4096, 8192, 16384, 65536, 2])) := by
  refine ⟨_, asked_limit hO p, ?_, ?_⟩
  · have h := (events_partial O.toStr m rs
      ⟨orNone (eventFilters O p).category, orNone (eventFilters O p).name, orNone (eventFilters O p).taskId,
        orNone (eventFilters O p).q, limit O (eventFilters O p).limit⟩ (limit_bounds _).1).2
    show eventQuery _ _ _ = _
    rw [h]
    exact answer_congr (fun r => eventMatches_iff hO p _ r) _ _
  · have h := (events_partial O.toStr m rs ⟨none, none, none, none, 1⟩ (by decide)).1
    show eventSummary _ = _
    rw [h]
    unfold eventSummary
    simp only [List.countP_eq_length_filter, terminalCode, Listen.Kind.code]
    have e1 : ∀ r : EventRec, (r.category == "scheduler".toList) = decide (r.category = "scheduler".toList) := fun r => beq_dec _ _
    have e2 : ∀ r : EventRec, (r.category == "task".toList) = decide (r.category = "task".toList) := fun r => beq_dec _ _
    have e3 : ∀ r : EventRec, (r.code == 4096 || r.code == 8192 || r.code == 16384 || r.code == 65536 || r.code == 2) =
        decide (r.code ∈ [4096, 8192, 16384, 65536, 2]) := by
      intro r
      rw [Bool.eq_iff_iff]
      simp [or_assoc]
    simp only [e1, e2, e3]

open Classical in
/-- **C111, audit trail.**  If the ids drawn are distinct, the page shows the newest records that fit the URL, newest first,
as many as asked for, and counts the whole trail. -/
theorem C111_audit_partial (hO : Lawful O) (m : Nat) (rs : List AuditRec) (hd : (rs.map (·.eventId)).Nodup) (p : Params) :
    ∃ n c, Asked O p n ∧ auditContext O (auditAfter m rs) p = some c ∧
      c.rows = Dash.Spec.answer (AuditFits O p) n (Dash.Spec.newest m rs) ∧
      c.summary =
        ((Dash.Spec.newest m rs).length, (Dash.Spec.newest m rs).countP (fun r => r.status = "succeeded".toList),
         (Dash.Spec.newest m rs).countP (fun r => r.status = "failed".toList),
         (Dash.Spec.newest m rs).countP (fun r => r.status = "warning".toList)) := by
  have h := audit_partial O.toStr m rs hd
    ⟨orNone (auditFilters O p).action, orNone (auditFilters O p).status, orNone (auditFilters O p).q,
      limit O (auditFilters O p).limit⟩ (limit_bounds _).1
  refine ⟨_, ⟨auditFilters O p, Dash.Spec.answer (AuditFits O p) (limit O (limitField O p)).toNat (Dash.Spec.newest m rs),
      auditSummary (auditAfter m rs)⟩, asked_limit hO p, ?_, ?_, ?_⟩
  · show Option.map _ (auditQuery _ _ _) = _
    rw [h.2, Option.map_some]
    congr 2
    exact answer_congr (fun r => auditMatches_iff hO p _ r) _ _
  · rfl
  · show auditSummary _ = _
    unfold auditSummary
    rw [h.1]
    simp only [List.countP_eq_length_filter, beq_dec]

open Classical in
/-- **C111, history.**  If no two runs share an id, the page shows the first runs that fit the URL in the order of the time
they were last seen, as many as asked for. -/
theorem C111_history_partial (hO : Lawful O) (rid : Hist.Key → Text) (iso : Int → Text) (m : Nat) (ops : List Hist.Op)
    (hc : Hist.NoCollision rid iso ops) {s : Hist.State} (hs : Hist.runAll rid iso m ops = some s) (now : Int) (p : Params) :
    ∃ (n : Nat) (order : List Hist.Rec), Asked O p n ∧ order.Perm s.records.values ∧
      order.Pairwise (fun x y => ∃ t u, Hist.lastSeen x = some t ∧ Hist.lastSeen y = some u ∧ u ≤ t) ∧
      (historyContext O now s p).rows = (order.filter fun r => decide (RunFits O p r)).take n ∧
      (historyContext O now s p).summary.1 = s.records.values.length := by
  obtain ⟨order, h1, h2, h3⟩ := Hist.history_query rid iso m ops hc hs O.toStr now
    ⟨orNone (historyFilters O p).taskId, orNone (historyFilters O p).status, orNone (historyFilters O p).source,
      orNone (historyFilters O p).q, limit O (historyFilters O p).limit⟩ (limit_bounds _).1
  refine ⟨_, order, asked_limit hO p, h1, h2, ?_, rfl⟩
  show Hist.query _ _ _ _ = _
  rw [h3]
  congr 2
  funext r
  rw [Bool.eq_iff_iff, decide_eq_true_iff, decide_eq_true_iff]
  exact runMatches_iff hO p _ r

open Classical in
/-- **C111, logs.**  After any sequence of `append` calls the page shows the newest accepted entries that fit the URL, newest
first, as many as asked for. -/
theorem C111_logs (hO : Lawful O) (m : Nat) (es : List (Int × RawEntry)) (p : Params) :
    ∃ n, Asked O p n ∧ (logContext O (logsAfter m es) p).rows =
      Dash.Spec.answer (LogFits O p) n (Dash.Spec.newest m (es.filterMap fun x => coerceEntry x.1 x.2)) := by
  refine ⟨_, asked_limit hO p, ?_⟩
  have h := (logs_partial O.toStr m es
    ⟨orNone (logFilters O p).taskId, orNone (logFilters O p).runId, orNone (logFilters O p).level,
      orNone (logFilters O p).q, none, none, limit O (logFilters O p).limit⟩ (limit_bounds _).1).2
  show logQuery _ _ _ = _
  rw [h]
  exact answer_congr (fun r => logMatches_iff hO p _ r) _ _

/-- the run a record is about: its id, its task and its four times -/
def shown (r : Hist.Rec) : Logs.Run := ⟨r.runId, r.task, r.submittedAt, r.finishedAt, r.createdAt, r.updatedAt⟩

/-- **C111, run page.**  The page of a run answers 404 exactly if the history has no run with that id, and otherwise shows
that run and at most 200 log entries, each of them the run's own or of its task at that time. -/
theorem C111_run_page (hO : Lawful O) (now : Int) (s : Hist.State) (buf : List LogEntry) (runId : Text) :
    ((historyDetail O now s buf runId).1 = 404 ↔ s.records.get? runId = none) ∧
    ((historyDetail O now s buf runId).1 = 404 ∨ (historyDetail O now s buf runId).1 = 200) ∧
    (historyDetail O now s buf runId).2.1 = s.records.get? runId ∧
    ∀ r, s.records.get? runId = some r → r.runId ≠ [] → r.task ≠ [] →
      (historyDetail O now s buf runId).2.2.length ≤ 200 ∧
      ∀ e ∈ (historyDetail O now s buf runId).2.2,
        e ∈ buf ∧ (Logs.Direct (shown r) e ∨ Logs.Correlated (shown r) now e) := by
  unfold historyDetail Hist.get
  cases h : s.records.get? runId with
  | none => simp
  | some r =>
    refine ⟨by simp, by simp, rfl, ?_⟩
    intro r' hr' h1 h2
    cases hr'
    have hl : O.strip (O.lower []) = [] := by rw [(hO.lower_nil []).2 rfl, hO.strip_nil]
    have := Logs.C79_run_logs O.toStr hl buf now (runOf r) h1 h2 200 (by decide)
    refine ⟨?_, this.2.1⟩
    have h3 := this.1
    show (Logs.logsForRun O.toStr buf now (runOf r) 200).length ≤ 200
    omega

/-! ## Every entry can be asked for -/

theorem name_plain (k : Listen.Kind) : ∀ c ∈ Install.eventName k, c ∈ "abcdefghijklmnopqrstuvwxyz._0123456789".toList := by
  cases k <;> decide

theorem category_mem (b : Bool) (t : Text) : Install.category b t ∈ categories := by
  unfold Install.category
  split
  · decide
  · split
    · decide
    · split <;> decide

theorem categories_plain : ∀ t ∈ categories, ∀ c ∈ t, c ∈ "abcdefghijklmnopqrstuvwxyz._0123456789".toList := by
  decide

/-- **C111, choices.**  The name and the category of every recorded event are among those the page offers, and choosing them
(for a page without other filters) does not hide the event. -/
theorem C111_event_choices (hO : Lawful O)
    (hash : Int → Nat → Option Text → Option Text → Option Text → Install.Details → Text)
    (now : Int) (ident : Option Text) (e : Install.Ev) (p : Params) (r : EventRec)
    (hr : r.name = (Install.eventRecord hash now ident e).name) (hc : r.category = (Install.eventRecord hash now ident e).category)
    (hn : p "name" = some r.name ∨ p "name" = none) (hcat : p "category" = some r.category ∨ p "category" = none)
    (ht : p "task_id" = none) (hq : p "q" = none) :
    r.name ∈ eventNames ∧ r.category ∈ categories ∧ EventFits O p r := by
  have hn' : r.name = Install.eventName e.kind := hr
  have hc' : r.category = Install.category e.body.isTask (Install.eventName e.kind) := hc
  have hcm : r.category ∈ categories := by rw [hc']; exact category_mem _ _
  have hnp := hO.plain r.name (by rw [hn']; exact name_plain _)
  have hcp := hO.plain r.category (categories_plain _ hcm)
  refine ⟨?_, hcm, ⟨?_, ?_, ?_, ?_⟩⟩
  · rw [hn']; cases e.kind <;> decide
  · intro h
    rcases hcat with hcat | hcat
    · unfold typed; rw [hcat]; simp only [Option.getD_some]; rw [hcp.2, hcp.1]
    · exact absurd (by unfold typed; rw [hcat]; exact hO.strip_nil) h
  · intro h
    rcases hn with hn | hn
    · unfold typed; rw [hn]; simp only [Option.getD_some]; rw [hnp.2, hnp.1]
    · exact absurd (by unfold typed; rw [hn]; exact hO.strip_nil) h
  · intro h; exact absurd (by unfold typed; rw [ht]; exact hO.strip_nil) h
  · intro h; exact absurd (by unfold typed; rw [hq]; exact hO.strip_nil) h

/-- **C111, audit actions.**  A record the dashboard makes of one of its actions fits a URL asking for that action and that
outcome. -/
theorem C111_audit_choices (hO : Lawful O) (id : Text) (now : Int) (action : Text) (task : Option Text) (status : Text)
    (message : Option Text) (p : Params)
    (ha : action ∈ ["run".toList, "pause".toList, "resume".toList, "remove".toList, "create".toList, "update".toList])
    (hs : status ∈ ["succeeded".toList, "failed".toList, "warning".toList])
    (hpa : p "action" = some ("task.".toList ++ action)) (hps : p "status" = some status) (hq : p "q" = none) :
    AuditFits O p (auditTaskAction id now action task status message) := by
  have h1 := hO.plain ("task.".toList ++ action) (by
    simp only [List.mem_cons, List.not_mem_nil, or_false] at ha
    rcases ha with h | h | h | h | h | h <;> rw [h] <;> decide)
  have h2 := hO.plain status (by
    simp only [List.mem_cons, List.not_mem_nil, or_false] at hs
    rcases hs with h | h | h <;> rw [h] <;> decide)
  refine ⟨fun _ => ?_, fun _ => ?_, ?_⟩
  · unfold typed; rw [hpa]; simp only [Option.getD_some]; rw [h1.2, h1.1]; rfl
  · unfold typed; rw [hps]; simp only [Option.getD_some]; rw [h2.2, h2.1]; rfl
  · intro h; exact absurd (by unfold typed; rw [hq]; exact hO.strip_nil) h

/-- **C111, what an audit record of a task action says.**  Action, outcome, task, message and time are those of the action; the
actor is the dashboard and the target a task. -/
theorem C111_audit_record (id : Text) (now : Int) (action : Text) (task : Option Text) (status : Text) (message : Option Text) :
    let r := auditTaskAction id now action task status message;
    r.action = "task.".toList ++ action ∧ r.status = status ∧ r.targetId = task ∧ r.message = message ∧ r.createdAt = now ∧
    r.actor = "dashboard".toList ∧ r.targetType = "task".toList ∧ r.eventId = id := ⟨rfl, rfl, rfl, rfl, rfl, rfl, rfl, rfl⟩

/-! ## Examples, and where the code falls short -/

/-- the capital of a small letter -/
def upC (c : Char) : Char := if 'a' ≤ c ∧ c ≤ 'z' then Char.ofNat (c.toNat - 32) else c

/-- the number written in decimal digits -/
def digits (t : Text) : Option Int :=
  if t ≠ [] ∧ t.all (fun c => decide (48 ≤ c.toNat) && decide (c.toNat ≤ 57)) then
    some (t.foldl (fun n c => 10 * n + (c.toNat - 48 : Nat)) 0) else none

/-- What Python's methods do on ASCII text (without the underscores `int` allows). -/
def ascii : Ops where
  lower := Cron.lower
  upper t := t.map upC
  strip := Pages.trim Cron.isBlank
  int t :=
    match Pages.trim Cron.isBlank t with
    | '-' :: u => (digits u).map (- ·)
    | '+' :: u => digits u
    | u => digits u

theorem upC_twice (c : Char) : upC (upC c) = upC c := by
  unfold upC
  by_cases h : 'a' ≤ c ∧ c ≤ 'z'
  · rw [if_pos h]
    have h1 : 97 ≤ c.toNat := h.1
    have h2 : c.toNat ≤ 122 := h.2
    have h3 : ∃ n : Fin 26, c = Char.ofNat (97 + n) := by
      refine ⟨⟨c.toNat - 97, by omega⟩, ?_⟩
      show c = Char.ofNat (97 + (c.toNat - 97))
      rw [show 97 + (c.toNat - 97) = c.toNat by omega, Char.ofNat_toNat]
    obtain ⟨n, rfl⟩ := h3
    clear h h1 h2
    revert n
    decide +kernel
  · rw [if_neg h, if_neg h]

theorem ascii_lawful : Lawful ascii where
  strip_nil := by decide
  strip_strip t := Pages.trim_trim _ t
  strip_lower t := by
    show Pages.trim _ (Cron.lower (Pages.trim _ t)) = Cron.lower (Pages.trim _ t)
    unfold Cron.lower
    rw [Pages.trim_map Pages.lowerC_blank, Pages.trim_trim]
  lower_lower t := by
    show Cron.lower (Cron.lower t) = Cron.lower t
    unfold Cron.lower
    rw [List.map_map]
    exact List.map_congr_left fun c _ => Pages.lowerC_twice c
  lower_nil t := List.map_eq_nil_iff
  upper_upper t := by
    show (t.map upC).map upC = t.map upC
    rw [List.map_map]
    exact List.map_congr_left fun c _ => upC_twice c
  upper_nil t := List.map_eq_nil_iff
  plain t ht := by
    have hp : ∀ c ∈ "abcdefghijklmnopqrstuvwxyz._0123456789".toList, Cron.lowerC c = c ∧ Cron.isBlank c = false := by
      decide +kernel
    refine ⟨?_, Pages.trim_ink fun c hc => (hp c (ht c hc)).2⟩
    show t.map Cron.lowerC = t
    exact (List.map_congr_left fun c hc => (hp c (ht c hc)).1).trans (List.map_id t)
  int_nil := by decide +kernel
  int_200 := by decide +kernel

/-- the parameters `?level=warning&q= Late &limit=2` -/
def exParams : Params := fun k =>
  if k = "level" then some "warning".toList else if k = "q" then some " Late ".toList
  else if k = "limit" then some "2".toList else none

/-- a log entry -/
def exEntry (t : Int) (level msg : String) (task : Option String) : LogEntry :=
  ⟨t, level.toList, msg.toList, [], task.map String.toList, none⟩

/-- filters and limit at work: the two newest warnings that mention "late" -/
example : (logContext ascii [exEntry 1 "WARNING" "late 1" none, exEntry 2 "INFO" "late 2" none, exEntry 3 "WARNING" "Late 3" none,
      exEntry 4 "WARNING" "on time" none, exEntry 5 "warning" "LATE 5" none] exParams).rows =
    [exEntry 5 "warning" "LATE 5" none, exEntry 3 "WARNING" "Late 3" none] := by decide +kernel

/-- the events page of three events, asked for `task.added` -/
example : ((eventsContext ascii [⟨['a'], 512, "task.added".toList, "task".toList, 0, none, some ['t'], none, none, []⟩,
      ⟨['b'], 2, "scheduler.shutdown".toList, "scheduler".toList, 1, none, none, none, none, []⟩,
      ⟨['c'], 512, "task.added".toList, "task".toList, 2, none, some ['u'], none, none, []⟩]
      (fun k => if k = "name" then some " Task.Added".toList else none)).rows.map (·.eventId),
    (eventsContext ascii [⟨['a'], 512, "task.added".toList, "task".toList, 0, none, some ['t'], none, none, []⟩,
      ⟨['b'], 2, "scheduler.shutdown".toList, "scheduler".toList, 1, none, none, none, none, []⟩,
      ⟨['c'], 512, "task.added".toList, "task".toList, 2, none, some ['u'], none, none, []⟩]
      (fun k => if k = "name" then some " Task.Added".toList else none)).summary) =
    ([['c'], ['a']], (3, 1, 2, 1)) := by decide +kernel

/-- the audit page finds a failed pause -/
example : (auditContext ascii (auditAfter 5 [auditTaskAction ['i'] 0 "pause".toList (some ['t']) "failed".toList none,
      auditTaskAction ['j'] 1 "pause".toList (some ['u']) "succeeded".toList none])
      (fun k => if k = "status" then some "FAILED".toList else none)).map (fun c => (c.rows.map (·.eventId), c.summary)) =
    some ([['i']], (2, 1, 1, 0)) := by decide +kernel

/-- **Blanks:** an entry of a task whose id ends in a blank is not found under that id: the page strips what is typed. -/
theorem log_blank_witness :
    (logContext ascii [exEntry 1 "INFO" "x" (some "t ")] (fun k => if k = "task_id" then some "t ".toList else none)).rows = [] ∧
    (logContext ascii [exEntry 1 "INFO" "x" (some "t ")] (fun _ => none)).rows = [exEntry 1 "INFO" "x" (some "t ")] := by
  decide +kernel

end ListPages
end Asyncz
