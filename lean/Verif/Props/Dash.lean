import Verif.Model.Dashboard
import Verif.Spec.Dash
import Verif.Props.Listing
/-!
# C50: the dashboard's event, audit and log buffers
-/
namespace Asyncz
namespace Dash
open Listing (Text isIn orEmpty)

/-! ## The scanning loop and the deque -/

theorem scan_eq {α : Type} (limit : Int) (p : α → Bool) (l : List α) :
    ∀ out : List α, (out.length : Int) < max limit 1 →
      scan limit p out l = out ++ (l.filter p).take ((max limit 1).toNat - out.length) := by
  induction l with
  | nil => intro out _; simp [scan]
  | cons x xs ih =>
    intro out h
    unfold scan
    by_cases hp : p x = true
    · rw [if_pos hp, List.filter_cons_of_pos hp]
      split
      · rename_i hl
        have hl' : (out.length : Int) + 1 ≥ limit := by simpa using hl
        have h1 : (max limit 1).toNat - out.length = 1 := by omega
        rw [h1]
        simp
      · rename_i hl
        have hl' : ¬ (out.length : Int) + 1 ≥ limit := by simpa using hl
        have h1 : (max limit 1).toNat - out.length = ((max limit 1).toNat - (out ++ [x]).length) + 1 := by
          simp only [List.length_append, List.length_singleton]; omega
        rw [ih _ (by simp only [List.length_append, List.length_singleton]; omega), h1,
          List.take_succ_cons, List.append_assoc]
        rfl
    · rw [if_neg hp, List.filter_cons_of_neg hp]
      exact ih out h

theorem scan_nil_eq {α : Type} (limit : Int) (p : α → Bool) (l : List α) :
    scan limit p [] l = (l.filter p).take (max limit 1).toNat := by
  have := scan_eq limit p l [] (by simp; omega)
  simpa using this

theorem dequeAppend_newest {α : Type} (m : Nat) (l : List α) (x : α) :
    dequeAppend m (Spec.newest m l) x = Spec.newest m (l ++ [x]) := by
  unfold dequeAppend Spec.newest
  by_cases hm : m = 0
  · subst hm; simp
  · rw [if_neg hm]
    simp only [List.length_drop, List.length_append, List.length_singleton]
    split
    · rename_i h
      have h1 : l.length - m = 0 := by omega
      have h2 : l.length + 1 - m = 0 := by omega
      rw [h1, h2]; simp
    · rename_i h
      have h2 : l.length + 1 - m ≤ l.length := by omega
      rw [List.drop_append_of_le_length h2, List.drop_drop]
      congr 2
      omega

theorem foldl_dequeAppend {α : Type} (m : Nat) (xs : List α) :
    xs.foldl (dequeAppend m) [] = Spec.newest m xs := by
  suffices ∀ ys : List α, xs.foldl (dequeAppend m) (Spec.newest m ys) = Spec.newest m (ys ++ xs) by
    have := this []
    simpa [Spec.newest] using this
  induction xs with
  | nil => intro ys; simp
  | cons x xs ih =>
    intro ys
    rw [List.foldl_cons, dequeAppend_newest, ih]
    simp

/-! ## What a query asks for -/

theorem isIn_iff (needle hay : Text) : isIn needle hay = true ↔ Spec.Within needle hay := by
  induction hay with
  | nil =>
    simp only [isIn, List.isPrefixOf_iff_prefix]
    constructor
    · rintro ⟨t, ht⟩; exact ⟨[], t, by simp [ht]⟩
    · rintro ⟨a, b, h⟩
      have h' := h.symm
      simp only [List.append_eq_nil_iff] at h'
      rw [h'.1.2]
      exact List.prefix_rfl
  | cons c hay ih =>
    simp only [isIn, Bool.or_eq_true, ih, List.isPrefixOf_iff_prefix]
    constructor
    · rintro (⟨t, ht⟩ | ⟨a, b, h⟩)
      · exact ⟨[], t, by simp [ht]⟩
      · exact ⟨c :: a, b, by simp [h]⟩
    · rintro ⟨a, b, h⟩
      cases a with
      | nil => left; exact ⟨b, by simpa using h.symm⟩
      | cons d a =>
        right
        simp only [List.cons_append, List.cons.injEq] at h
        exact ⟨a, b, h.2⟩

/-- an optional text argument that is given: neither `None` nor `""` -/
def Given (x : Option Text) : Prop := x ≠ none ∧ x ≠ some []

theorem truthy_iff (x : Option Text) : truthy x = true ↔ Given x := by
  unfold truthy Given
  rcases x with _ | _ | _ <;> simp

/-- A scheduler event matches a query. -/
def EventMatches (S : Str) (a : EventQuery) (r : EventRec) : Prop :=
  let clean := fun x : Option Text => S.lower (S.strip (x.getD []))
  (clean a.category ≠ [] → r.category = clean a.category) ∧
  (clean a.name ≠ [] → r.name = clean a.name) ∧
  (Given a.taskId → r.taskId = a.taskId) ∧
  (clean a.q ≠ [] → Spec.Within (clean a.q) (S.lower (Spec.words
      [some r.name, some r.category, r.alias, r.taskId, r.store, r.identity, some r.eventId,
        some r.detailsText])))

/-- An audit record matches a query. -/
def AuditMatches (S : Str) (a : AuditQuery) (r : AuditRec) : Prop :=
  let clean := fun x : Option Text => S.lower (S.strip (x.getD []))
  (clean a.action ≠ [] → r.action = clean a.action) ∧
  (clean a.status ≠ [] → r.status = clean a.status) ∧
  (clean a.q ≠ [] → Spec.Within (clean a.q) (S.lower (Spec.words
      [some r.eventId, some r.action, some r.status, some r.targetType, r.targetId, r.message,
        some r.actor])))

/-- A log entry matches a query. -/
def LogMatches (S : Str) (a : LogQuery) (e : LogEntry) : Prop :=
  (Given a.taskId → e.taskId = a.taskId) ∧
  (Given a.runId → e.extraRunId = a.runId) ∧
  (∀ t, a.since = some t → t ≤ e.ts) ∧
  (∀ t, a.until_ = some t → e.ts ≤ t) ∧
  (Given a.level → S.upper (a.level.getD []) ≠ [] → S.upper e.level = S.upper (a.level.getD [])) ∧
  (S.strip (S.lower (a.q.getD [])) ≠ [] →
    Spec.Within (S.strip (S.lower (a.q.getD []))) (S.lower e.message))

theorem keepIff {a b : Bool} {P Q : Prop} (h1 : a = true ↔ P) (h2 : b = true ↔ Q) :
    (a && b) = true ↔ P ∧ Q := by
  rw [Bool.and_eq_true, h1, h2]

theorem skipIff {c x : Bool} {P Q : Prop} (hc : c = true ↔ P) (hx : x = true ↔ ¬ Q) :
    (!(c && x)) = true ↔ (P → Q) := by
  cases c <;> cases x <;> simp_all

theorem neIff {α : Type} [DecidableEq α] (a b : α) : (decide (a ≠ b)) = true ↔ ¬ a = b := by simp

theorem inIff (needle hay : Text) : (!isIn needle hay) = true ↔ ¬ Spec.Within needle hay := by
  rw [← isIn_iff]; simp

theorem joinSpace_words : ∀ xs : List (Option Text), joinSpace xs = Spec.words xs
  | [] => rfl
  | [x] => by cases x <;> simp [joinSpace, Spec.words, orEmpty, List.intercalate]
  | x :: y :: l => by
    rw [joinSpace, joinSpace_words (y :: l)]
    cases x <;> simp [Spec.words, orEmpty, List.intercalate]

theorem eventKeep_iff (S : Str) (a : EventQuery) (r : EventRec) :
    eventKeep S a r = true ↔ EventMatches S a r := by
  unfold eventKeep EventMatches
  rw [joinSpace_words]
  rw [← and_assoc, ← and_assoc]
  exact keepIff (keepIff (keepIff (skipIff (neIff _ _) (neIff _ _)) (skipIff (neIff _ _) (neIff _ _)))
    (skipIff (truthy_iff _) (neIff _ _))) (skipIff (neIff _ _) (inIff _ _))

theorem auditKeep_iff (S : Str) (a : AuditQuery) (r : AuditRec) :
    auditKeep S a r = true ↔ AuditMatches S a r := by
  unfold auditKeep AuditMatches
  rw [joinSpace_words]
  rw [← and_assoc]
  exact keepIff (keepIff (skipIff (neIff _ _) (neIff _ _)) (skipIff (neIff _ _) (neIff _ _)))
    (skipIff (neIff _ _) (inIff _ _))

theorem logKeep_iff (S : Str) (a : LogQuery) (e : LogEntry) :
    logKeep S a e = true ↔ LogMatches S a e := by
  unfold logKeep LogMatches
  rw [← and_assoc, ← and_assoc, ← and_assoc, ← and_assoc]
  refine keepIff (keepIff (keepIff (keepIff (keepIff (skipIff (truthy_iff _) (neIff _ _)) ?_) ?_) ?_) ?_)
    (skipIff (neIff _ _) (inIff _ _))
  · by_cases h : Given a.runId
    · have h' := (truthy_iff _).2 h
      cases he : e.extraRunId with
      | none =>
        simp only [h', Option.isNone_none, Bool.true_or, Bool.and_self, Bool.not_true,
          Bool.false_eq_true, false_iff]
        exact fun hh => h.1 (hh h).symm
      | some x => simp [h', h]
    · have h' : truthy a.runId = false := by
        cases hh : truthy a.runId
        · rfl
        · exact absurd ((truthy_iff _).1 hh) h
      simp [h', h]
  · cases a.since <;> simp [Int.not_lt]
  · cases a.until_ <;> simp [Int.not_lt]
  · by_cases h : Given a.level
    · have h' := (truthy_iff _).2 h
      simp only [h', if_true]
      by_cases hn : S.upper (a.level.getD []) = []
      · simp [truthy, orEmpty, hn, h]
      · have : truthy (some (S.upper (a.level.getD []))) = true := (truthy_iff _).2 ⟨by simp, by simpa using hn⟩
        simp [this, orEmpty, hn, h]
    · have h' : truthy a.level = false := by
        cases hh : truthy a.level
        · rfl
        · exact absurd ((truthy_iff _).1 hh) h
      simp only [h', Bool.false_eq_true, if_false, h, false_imp_iff, iff_true]
      rfl

/-! ## Events -/

/-- the storage after those appends -/
def eventsAfter (m : Nat) (rs : List EventRec) : List EventRec := rs.foldl (eventAppend m) []

open Classical in
/-- **C50, scheduler events.**  After any sequence of appends the storage holds exactly the newest
`m` records, oldest first, and a query with a positive limit returns the matching ones among them,
newest first, at most `limit`.  (With a limit of zero or less it returns one: see
`logQuery_limit_zero_witness`.) -/
theorem events_partial (S : Str) (m : Nat) (rs : List EventRec) (a : EventQuery) (hl : 1 ≤ a.limit) :
    eventsAfter m rs = Spec.newest m rs ∧
    eventQuery S (eventsAfter m rs) a =
      Spec.answer (EventMatches S a) a.limit.toNat (Spec.newest m rs) := by
  have h1 : eventsAfter m rs = Spec.newest m rs := foldl_dequeAppend m rs
  refine ⟨h1, ?_⟩
  rw [h1, eventQuery, scan_nil_eq, Spec.answer]
  have h2 : max a.limit 1 = a.limit := by omega
  rw [h2]
  congr 2
  funext x
  rw [Bool.eq_iff_iff, eventKeep_iff]
  simp

/-! ## Logs -/

/-- the storage after those `append` calls; a call that raises `TypeError` changes nothing -/
def logsAfter (m : Nat) (es : List (Int × RawEntry)) : List LogEntry :=
  (es.filterMap fun x => coerceEntry x.1 x.2).foldl (logAppend m) []

open Classical in
/-- **C50, logs.**  After any sequence of appends the buffer holds exactly the newest `m` accepted
entries, and a query with a positive limit returns the matching ones, newest first, at most `limit`. -/
theorem logs_partial (S : Str) (m : Nat) (es : List (Int × RawEntry)) (a : LogQuery)
    (hl : 1 ≤ a.limit) :
    logsAfter m es = Spec.newest m (es.filterMap fun x => coerceEntry x.1 x.2) ∧
    logQuery S (logsAfter m es) a = Spec.answer (LogMatches S a) a.limit.toNat
      (Spec.newest m (es.filterMap fun x => coerceEntry x.1 x.2)) := by
  have h1 : logsAfter m es = Spec.newest m (es.filterMap fun x => coerceEntry x.1 x.2) :=
    foldl_dequeAppend m _
  refine ⟨h1, ?_⟩
  rw [h1, logQuery, scan_nil_eq, Spec.answer]
  have h2 : max a.limit 1 = a.limit := by omega
  rw [h2]
  congr 2
  funext x
  rw [Bool.eq_iff_iff, logKeep_iff]
  simp

/-- **C50, logs: what is accepted.**  An entry object is stored as it is; a dictionary is stored with
its own values where it has them, with the current time for a missing or invalid timestamp, level
`INFO` and empty texts as defaults; anything else is refused. -/
theorem log_coerce (now : Int) (e : RawEntry) :
    (∀ x, e = .entry x → coerceEntry now e = some x) ∧
    (e = .other → coerceEntry now e = none) ∧
    (∀ ts level message logger task extra, e = .dict ts level message logger task extra →
      ∃ x, coerceEntry now e = some x ∧ x.taskId = task ∧ x.extraRunId = extra ∧
        (∀ t, ts = .aware t ∨ ts = .naive t → x.ts = t) ∧ (ts = .absent → x.ts = now) ∧
        (∀ v, level = some v → x.level = v) ∧ (level = none → x.level = ['I', 'N', 'F', 'O']) ∧
        (∀ v, message = some v → x.message = v) ∧ (message = none → x.message = []) ∧
        (∀ v, logger = some v → x.logger = v) ∧ (logger = none → x.logger = [])) := by
  refine ⟨?_, ?_, ?_⟩
  · rintro x rfl; rfl
  · rintro rfl; rfl
  · rintro ts level message logger task extra rfl
    refine ⟨_, rfl, rfl, rfl, ?_, ?_, ?_, ?_, ?_, ?_, ?_, ?_⟩
    · rintro t (rfl | rfl) <;> rfl
    · rintro rfl; rfl
    all_goals first | (rintro v rfl; rfl) | (rintro rfl; rfl)

/-! ## Audit trail -/

/-- the trail after those appends -/
def auditAfter (m : Nat) (rs : List AuditRec) : Audit := rs.foldl (auditAppend m) Audit.empty

/-- the state of a trail that holds exactly `l`, oldest first -/
def auditOf (l : List AuditRec) : Audit := ⟨l.map fun r => (r.eventId, r), l.map (·.eventId)⟩

theorem set_fresh {κ ν : Type} [DecidableEq κ] (d : Dict κ ν) (k : κ) (v : ν) (h : k ∉ d.keys) :
    d.set k v = d ++ [(k, v)] := by
  induction d with
  | nil => rfl
  | cons a d ih =>
    obtain ⟨a, b⟩ := a
    simp only [Dict.keys, List.map_cons, List.mem_cons, not_or] at h
    have : ¬ a = k := fun e => h.1 e.symm
    simp [Dict.set, this, ih (by simpa [Dict.keys] using h.2)]

theorem auditTrim_of (m : Nat) (l : List AuditRec) :
    auditTrim m (auditOf l).records (auditOf l).order = auditOf (Spec.newest m l) := by
  induction l with
  | nil => simp [Spec.newest, auditOf, auditTrim]
  | cons r l ih =>
    simp only [auditOf, List.map_cons, auditTrim, List.length_cons, List.length_map]
    by_cases h : l.length + 1 > m
    · rw [if_pos h]
      simp only [Dict.erase, if_true]
      have : Spec.newest m (r :: l) = Spec.newest m l := by
        simp only [Spec.newest, List.length_cons]
        rw [show l.length + 1 - m = (l.length - m) + 1 from by omega, List.drop_succ_cons]
      rw [this]
      exact ih
    · rw [if_neg h]
      have : Spec.newest m (r :: l) = r :: l := by
        simp only [Spec.newest, List.length_cons]
        rw [show l.length + 1 - m = 0 from by omega, List.drop_zero]
      rw [this]
      rfl

theorem newest_newest {α : Type} (m : Nat) (l : List α) (x : α) :
    Spec.newest m (Spec.newest m l ++ [x]) = Spec.newest m (l ++ [x]) := by
  simp only [Spec.newest, List.length_append, List.length_drop, List.length_singleton]
  by_cases h : l.length ≤ m
  · rw [show l.length - m = 0 from by omega]; simp
  · rw [← List.drop_append_of_le_length (by omega), List.drop_drop]
    congr 1
    omega

theorem auditAfter_eq (m : Nat) (rs : List AuditRec) (hd : (rs.map (·.eventId)).Nodup) :
    auditAfter m rs = auditOf (Spec.newest m rs) := by
  suffices ∀ ys : List AuditRec, ((ys ++ rs).map (·.eventId)).Nodup →
      rs.foldl (auditAppend m) (auditOf (Spec.newest m ys)) = auditOf (Spec.newest m (ys ++ rs)) by
    have := this [] hd
    simpa [Spec.newest, auditOf, auditAfter, Audit.empty] using this
  clear hd
  induction rs with
  | nil => intro ys _; simp
  | cons r rs ih =>
    intro ys hd
    rw [List.foldl_cons]
    have hnot : r.eventId ∉ (ys.map (·.eventId)) := by
      simp only [List.map_append, List.map_cons] at hd
      have := (List.nodup_append.1 hd).2.2
      intro hm
      exact this _ hm _ List.mem_cons_self rfl
    have hk : r.eventId ∉ (auditOf (Spec.newest m ys)).records.keys := by
      simp only [auditOf, Dict.keys, List.map_map]
      intro hm
      obtain ⟨x, hx, he⟩ := List.mem_map.1 hm
      exact hnot (List.mem_map.2 ⟨x, List.mem_of_mem_drop hx, he⟩)
    have h1 : auditAppend m (auditOf (Spec.newest m ys)) r = auditOf (Spec.newest m (ys ++ [r])) := by
      rw [auditAppend, set_fresh _ _ _ hk, ← newest_newest, ← auditTrim_of m (Spec.newest m ys ++ [r])]
      simp [auditOf]
    rw [h1, ih (ys ++ [r]) (by simpa using hd)]
    simp

theorem mapM_get (l l' : List AuditRec) (hs : ∀ r ∈ l', (r.eventId, r) ∈ (auditOf l).records)
    (hw : (auditOf l).records.WF) :
    (l'.map (·.eventId)).mapM (auditOf l).records.get? = some l' := by
  induction l' with
  | nil => rfl
  | cons r l' ih =>
    rw [List.map_cons, List.mapM_cons, Dict.get?_of_mem hw (hs r List.mem_cons_self),
      ih (fun x hx => hs x (List.mem_cons_of_mem _ hx))]
    rfl

open Classical in
/-- **C50, audit trail.**  If the generated event ids are distinct, after any sequence of appends the
trail holds exactly the newest `m` records, and a query with a positive limit succeeds and returns
the matching ones, newest first, at most `limit`. -/
theorem audit_partial (S : Str) (m : Nat) (rs : List AuditRec) (hd : (rs.map (·.eventId)).Nodup)
    (a : AuditQuery) (hl : 1 ≤ a.limit) :
    (auditAfter m rs).records.values = Spec.newest m rs ∧
    auditQuery S (auditAfter m rs) a =
      some (Spec.answer (AuditMatches S a) a.limit.toNat (Spec.newest m rs)) := by
  have h1 := auditAfter_eq m rs hd
  refine ⟨?_, ?_⟩
  · rw [h1]; simp [auditOf, Dict.values, Function.comp_def]
  · have hw : (auditOf (Spec.newest m rs)).records.WF := by
      simp only [Dict.WF, auditOf, List.map_map, Function.comp_def]
      exact hd.sublist ((List.drop_sublist _ _).map _)
    have h2 : auditNewestFirst (auditAfter m rs) = some (Spec.newest m rs).reverse := by
      rw [h1, auditNewestFirst, show (auditOf (Spec.newest m rs)).order.reverse =
        (Spec.newest m rs).reverse.map (·.eventId) from by simp [auditOf]]
      apply mapM_get _ _ _ hw
      intro r hr
      exact List.mem_map.2 ⟨r, List.mem_reverse.1 hr, rfl⟩
    rw [auditQuery, h2, Option.map_some, scan_nil_eq, Spec.answer,
      show max a.limit 1 = a.limit from by omega]
    congr 3
    funext x
    rw [Bool.eq_iff_iff, auditKeep_iff]
    simp

/-! ## Where the code falls short, and examples -/

/-- ASCII texts without capitals or blanks -/
def exStr : Str := ⟨fun t => t.map Char.toLower, fun t => t.map Char.toUpper, id⟩

/-- a log entry -/
def exLog (t : Int) (msg : String) : LogEntry :=
  ⟨t, "INFO".toList, msg.toList, [], some "t".toList, none⟩

/-- a query for everything -/
def exAll (limit : Int) : LogQuery := ⟨none, none, none, none, none, none, limit⟩

/-- **C50 fails for `limit=0`:** a query asking for no entries returns one. -/
theorem logQuery_limit_zero_witness :
    (logQuery exStr (logsAfter 2 [(0, .entry (exLog 1 "a"))]) (exAll 0)).length = 1 ∧
    (eventQuery exStr (eventsAfter 2 [⟨[], 1, [], [], 0, none, none, none, none, []⟩])
      ⟨none, none, none, none, 0⟩).length = 1 ∧
    (auditQuery exStr (auditAfter 2 [⟨['i'], ['x'], [], [], none, none, [], 0⟩])
      ⟨none, none, none, 0⟩).map List.length = some 1 := by decide +kernel

/-- **C50 fails for actions with capitals:** the action filter is lower-cased but the recorded action
is not, so a record whose action has a capital is not found under its own action. -/
theorem auditQuery_capital_witness :
    auditQuery exStr (auditAfter 2 [⟨['i'], "Run".toList, [], [], none, none, [], 0⟩])
      ⟨some "Run".toList, none, none, 10⟩ = some [] := by decide +kernel

/-- **C50 needs distinct event ids:** if two appends draw the same one, the trail lists the second
record twice and, once one of the two is evicted, every query raises. -/
theorem audit_same_id_witness :
    (auditAfter 2 [⟨['i'], ['x'], [], [], none, none, [], 0⟩, ⟨['i'], ['y'], [], [], none, none, [], 0⟩,
      ⟨['j'], ['z'], [], [], none, none, [], 0⟩]).order = [['i'], ['j']] ∧
    auditQuery exStr (auditAfter 2 [⟨['i'], ['x'], [], [], none, none, [], 0⟩,
      ⟨['i'], ['y'], [], [], none, none, [], 0⟩, ⟨['j'], ['z'], [], [], none, none, [], 0⟩])
      ⟨none, none, none, 10⟩ = none := by decide +kernel

/-- eviction, order, filter and limit at work -/
example :
    logQuery exStr (logsAfter 3 [(0, .entry (exLog 1 "one")), (0, .entry (exLog 2 "two")),
      (0, .other), (9, .dict .absent none (some "Twofold".toList) none none none),
      (0, .entry (exLog 4 "four"))])
      ⟨none, none, none, some "TWO".toList, none, none, 5⟩ =
    [⟨9, "INFO".toList, "Twofold".toList, [], none, none⟩, exLog 2 "two"] := by decide +kernel

/-- the hypotheses of `audit_partial` hold for a trail that has evicted a record -/
example : (([⟨['i'], ['x'], [], [], none, none, [], 0⟩, ⟨['k'], ['y'], [], [], none, none, [], 0⟩,
      ⟨['j'], ['z'], [], [], none, none, [], 0⟩] : List AuditRec).map (·.eventId)).Nodup ∧
    auditQuery exStr (auditAfter 2 [⟨['i'], ['x'], [], [], none, none, [], 0⟩,
      ⟨['k'], ['y'], [], [], none, none, [], 0⟩, ⟨['j'], ['z'], [], [], none, none, [], 0⟩])
      ⟨none, none, none, 10⟩ =
    some [⟨['j'], ['z'], [], [], none, none, [], 0⟩, ⟨['k'], ['y'], [], [], none, none, [], 0⟩] := by
  decide +kernel

/-- a limit is honoured -/
example : (eventQuery exStr (eventsAfter 2 [⟨['a'], 1, [], [], 0, none, none, none, none, []⟩,
      ⟨['b'], 1, [], [], 0, none, none, none, none, []⟩,
      ⟨['c'], 1, [], [], 0, none, none, none, none, []⟩]) ⟨none, none, none, none, 1⟩).map (·.eventId) =
    [['c']] := by decide +kernel

end Dash
end Asyncz
