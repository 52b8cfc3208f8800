import Verif.Model.ListPages
import Verif.Spec.Dash
import Verif.Spec.History
/-!
# Specification of the list pages (C111): which entries fit the filters of a URL, and how many are shown
-/
namespace Asyncz
namespace ListPages
namespace Spec
open Listing (Text)
open Dash.Spec (Within)

/-- What is assumed of Python's text methods and of `int()`. -/
structure Lawful (O : Ops) : Prop where
  strip_nil : O.strip [] = []
  strip_strip : ∀ t, O.strip (O.strip t) = O.strip t
  strip_lower : ∀ t, O.strip (O.lower (O.strip t)) = O.lower (O.strip t)
  lower_lower : ∀ t, O.lower (O.lower t) = O.lower t
  lower_nil : ∀ t, O.lower t = [] ↔ t = []
  upper_upper : ∀ t, O.upper (O.upper t) = O.upper t
  upper_nil : ∀ t, O.upper t = [] ↔ t = []
  /-- small letters, dots, underscores and digits are left alone -/
  plain : ∀ t : Text, (∀ c ∈ t, c ∈ "abcdefghijklmnopqrstuvwxyz._0123456789".toList) → O.lower t = t ∧ O.strip t = t
  int_nil : O.int [] = none
  int_200 : O.int "200".toList = some 200

/-- What was typed into a field of the form: without the blanks around it, empty if the field is missing. -/
def typed (O : Ops) (p : Params) (key : String) : Text := O.strip ((p key).getD [])

/-- The number of entries asked for: what was typed, at least 1 and at most 1000; 200 if that is not a number. -/
structure Asked (O : Ops) (p : Params) (n : Nat) : Prop where
  number : ∀ k : Int, O.int (typed O p "limit") = some k → 1 ≤ k → k ≤ 1000 → (n : Int) = k
  small : ∀ k : Int, O.int (typed O p "limit") = some k → k < 1 → n = 1
  large : ∀ k : Int, O.int (typed O p "limit") = some k → 1000 < k → n = 1000
  otherwise : O.int (typed O p "limit") = none → n = 200

/-- An event fits the fields of the events page. -/
structure EventFits (O : Ops) (p : Params) (r : Dash.EventRec) : Prop where
  category : typed O p "category" ≠ [] → r.category = O.lower (typed O p "category")
  name : typed O p "name" ≠ [] → r.name = O.lower (typed O p "name")
  task : typed O p "task_id" ≠ [] → r.taskId = some (typed O p "task_id")
  q : typed O p "q" ≠ [] → Within (O.lower (typed O p "q")) (O.lower (Dash.Spec.words
      [some r.name, some r.category, r.alias, r.taskId, r.store, r.identity, some r.eventId, some r.detailsText]))

/-- An audit record fits the fields of the audit page. -/
structure AuditFits (O : Ops) (p : Params) (r : Dash.AuditRec) : Prop where
  action : typed O p "action" ≠ [] → r.action = O.lower (typed O p "action")
  status : typed O p "status" ≠ [] → r.status = O.lower (typed O p "status")
  q : typed O p "q" ≠ [] → Within (O.lower (typed O p "q")) (O.lower (Dash.Spec.words
      [some r.eventId, some r.action, some r.status, some r.targetType, r.targetId, r.message, some r.actor]))

/-- A run fits the fields of the history page. -/
structure RunFits (O : Ops) (p : Params) (r : Hist.Rec) : Prop where
  task : typed O p "task_id" ≠ [] → r.task = typed O p "task_id"
  status : typed O p "status" ≠ [] → Hist.Spec.word r.status = O.lower (typed O p "status")
  source : typed O p "source" ≠ [] → r.source = O.lower (typed O p "source")
  q : typed O p "q" ≠ [] → Within (O.lower (typed O p "q")) (O.lower (Dash.Spec.words
      [some r.task, r.taskName, r.callable, r.identity, (if r.coalesced ≠ 0 then some "coalesced".toList else some []),
        some (Hist.Spec.word r.status), some r.source, some r.runId]))

/-- A log entry fits the fields of the log page. -/
structure LogFits (O : Ops) (p : Params) (e : Dash.LogEntry) : Prop where
  task : typed O p "task_id" ≠ [] → e.taskId = some (typed O p "task_id")
  run : typed O p "run_id" ≠ [] → e.extraRunId = some (typed O p "run_id")
  level : typed O p "level" ≠ [] → O.upper e.level = O.upper (typed O p "level")
  q : typed O p "q" ≠ [] → Within (O.lower (typed O p "q")) (O.lower e.message)

end Spec
end ListPages
end Asyncz
