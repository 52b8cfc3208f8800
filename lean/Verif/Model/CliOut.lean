import Verif.Spec.CliOut
/-!
# The commands that show something: /repo/asyncz/cli/commands/list.py, status.py, preview.py, inspect.py, doctor.py, instances.py,
timeline.py

What each of them prints, in which order, and how it ends.  What the scheduler answers, and what can fail, is a parameter.
-/
namespace Asyncz
namespace CliOut

/-- The options.  An empty `--bootstrap` counts as none.  (list.py:17-52, doctor.py:101-115) -/
structure Opts where
  bootstrap : String
  store : List String
  json : Bool
  strict : Bool
  deriving DecidableEq, Repr

/-- What the calls of a command do: `load_bootstrap_scheduler`; `build_stores_map` and the constructor of the scheduler; `start`;
the queries, up to the payload (a task that is not found is a failure); `json.dumps`; the lines for a reader; whether the health is
`ok`; `shutdown`.  `ε`: what is raised.  (list.py:75-149, inspect.py:60-111, doctor.py:128-160) -/
structure World (ε π : Type) where
  load : Except ε Unit
  build : Except ε Unit
  start : Except ε Unit
  /-- the exception is an `Exception` and not only a `BaseException` -/
  ordinary : ε → Bool
  payload : Except ε π
  dumps : π → Except ε Unit
  lines : π → List String
  healthy : π → Bool
  unhealthy : π → ε
  shutdown : Except ε Unit

/-- the note about options that are not used (list.py:77, status.py:62, preview.py:65, inspect.py:64, doctor.py:131, instances.py:63,
timeline.py:104) -/
def note : String := "Using --bootstrap; ignoring --store."

/-- A bootstrapped scheduler is started by these commands (list.py:80-81, preview.py:67-68, inspect.py:66-67, timeline.py:106-107), not
by the others (status.py:63, doctor.py:132, instances.py:64). -/
def starts : Cmd → Bool
  | .list => true
  | .preview => true
  | .inspect => true
  | .timeline => true
  | .status => false
  | .doctor => false
  | .instances => false

variable {ε π : Type}

/-- The part of `main` up to the `try`: what happened and whether it raised.  An ordinary exception of the start of a bootstrapped
scheduler is suppressed.  (list.py:74-92, status.py:59-70, doctor.py:128-139) -/
def begin (w : World ε π) (c : Cmd) (o : Opts) : List (Ev π) × Except ε Unit :=
  if o.bootstrap ≠ "" then
    let said := if o.store = [] then [] else [Ev.text note]
    match w.load with
    | .error e => (said, .error e)
    | .ok () =>
      if starts c then
        match w.start with
        | .ok () => (said ++ [.loaded, .started], .ok ())
        | .error e => (said ++ [.loaded], if w.ordinary e then .ok () else .error e)
      else (said ++ [.loaded], .ok ())
  else
    match w.build with
    | .error e => ([], .error e)
    | .ok () => match w.start with
      | .error e => ([], .error e)
      | .ok () => ([.started], .ok ())

/-- The `try` block: the queries, then the output, then, for `doctor --strict`, the failure.  (list.py:94-141, inspect.py:76-108,
doctor.py:140-158) -/
def body (w : World ε π) (c : Cmd) (o : Opts) : List (Ev π) × Except ε Unit :=
  match w.payload with
  | .error e => ([], .error e)
  | .ok p =>
    let shown : List (Ev π) × Except ε Unit :=
      if o.json then
        match w.dumps p with
        | .error e => ([], .error e)
        | .ok () => ([.json p], .ok ())
      else ((w.lines p).map .text, .ok ())
    match shown with
    | (es, .error e) => (es, .error e)
    | (es, .ok ()) =>
      if c = .doctor ∧ o.strict = true ∧ w.healthy p = false then (es, .error (w.unhealthy p)) else (es, .ok ())

/-- The command; its exit is the failure, if any.  The temporary scheduler is shut down whatever happens in the `try` block; an exception
of that takes the place of an earlier one.  (list.py:142-149, doctor.py:159-163) -/
def command (w : World ε π) (c : Cmd) (o : Opts) : List (Ev π) × Except ε Unit :=
  match begin w c o with
  | (es, .error e) => (es, .error e)
  | (es, .ok ()) =>
    let r := body w c o
    if o.bootstrap ≠ "" then (es ++ r.1, r.2)
    else match w.shutdown with
      | .error e => (es ++ r.1, .error e)
      | .ok () => (es ++ r.1 ++ [.stopped], r.2)

end CliOut
end Asyncz
