import Verif.Lemmas.SchedStore2
import Verif.Model.SchedTrigger
/-! # Tasks with the built-in triggers can be serialised: the assumptions on codecs can be met -/
namespace Asyncz
namespace Persist
namespace Prefixed

def ndt : Prefixed NDt := (int.prod (bool.prod nat.option)).via (fun d => (d.wall, d.fold, d.tz)) (fun x => some ⟨x.1, x.2.1, x.2.2⟩)
  (by intro a; rfl)

def dt : Prefixed Dt := (int.prod (bool.prod nat)).via (fun d => (d.wall, d.fold, d.tz)) (fun x => some ⟨x.1, x.2.1, x.2.2⟩)
  (by intro a; rfl)

def interval : Prefixed Interval := (int.prod (int.option.prod (nat.option.prod (ndt.prod (ndt.option.prod int.option))))).via
  (fun g => (g.interval, g.size, g.tz, g.start, g.stop, g.jitter))
  (fun x => some ⟨x.1, x.2.1, x.2.2.1, x.2.2.2.1, x.2.2.2.2.1, x.2.2.2.2.2⟩) (by intro a; rfl)

def expr : Prefixed Cron.Expr := (nat.prod (nat.option.prod (nat.option.prod nat.option))).via
  (fun e => match e with
    | .all s => (0, s, none, none)
    | .range f l s => (1, some f, l, s)
    | .monthRange f l => (2, some f, some l, none)
    | .weekdayRange f l => (3, some f, some l, none)
    | .weekdayPos f l => (4, some f, some l, none)
    | .lastDay => (5, none, none, none))
  (fun x => match x with
    | (0, s, _, _) => some (.all s)
    | (1, some f, l, s) => some (.range f l s)
    | (2, some f, some l, _) => some (.monthRange f l)
    | (3, some f, some l, _) => some (.weekdayRange f l)
    | (4, some f, some l, _) => some (.weekdayPos f l)
    | (5, _, _, _) => some .lastDay
    | _ => none) (by intro a; cases a <;> rfl)

/-- the expressions of the eight fields -/
def fields : Prefixed (Cron.FieldName → List Cron.Expr) :=
  (expr.list.prod (expr.list.prod (expr.list.prod (expr.list.prod (expr.list.prod (expr.list.prod (expr.list.prod expr.list))))))).via
    (fun f => (f .year, f .month, f .day, f .week, f .dayOfWeek, f .hour, f .minute, f .second))
    (fun x => some fun n => match n with
      | .year => x.1 | .month => x.2.1 | .day => x.2.2.1 | .week => x.2.2.2.1 | .dayOfWeek => x.2.2.2.2.1 | .hour => x.2.2.2.2.2.1
      | .minute => x.2.2.2.2.2.2.1 | .second => x.2.2.2.2.2.2.2)
    (by intro f; simp only [Option.some.injEq]; funext n; cases n <;> rfl)

def cron : Prefixed Cron.Trig := (fields.prod (nat.option.prod (ndt.option.prod (ndt.option.prod int.option)))).via
  (fun g => (g.exprs, g.tz, g.start, g.stop, g.jitter)) (fun x => some ⟨x.1, x.2.1, x.2.2.1, x.2.2.2.1, x.2.2.2.2⟩) (by intro a; rfl)

def trig : Prefixed Sched.Trig := (interval.option.prod (dt.option.prod cron.option)).via
  (fun g => match g with
    | .interval g => (some g, none, none)
    | .date g => (none, some g.runAt, none)
    | .cron g => (none, none, some g)
    | .shutdown => (none, none, none))
  (fun x => match x with
    | (some g, _, _) => some (.interval g)
    | (none, some d, _) => some (.date ⟨d⟩)
    | (none, none, some g) => some (.cron g)
    | (none, none, none) => some .shutdown) (by intro a; cases a <;> rfl)

/-- tasks with built-in triggers -/
def trigCodec : Codec (Sched.Body Sched.Trig Unit) := codec (task
  ((trig.prod (string.prod (string.prod (bool.prod (int.prod (int.option.prod bool)))))).via
    (fun b => (b.trigger, b.executor, b.store, b.coalesce, b.maxInst, b.grace, b.pending))
    (fun x => some ⟨x.1, x.2.1, x.2.2.1, x.2.2.2.1, x.2.2.2.2.1, x.2.2.2.2.2.1, x.2.2.2.2.2.2, ()⟩) (by intro a; rfl)))

theorem trigCodec_total (t : Task (Sched.Body Sched.Trig Unit)) : (trigCodec.enc t).isSome = true := rfl

end Prefixed
end Persist
end Asyncz
