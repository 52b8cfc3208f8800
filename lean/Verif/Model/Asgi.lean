import Verif.Model.SchedApi
/-!
# Model of the ASGI integration (/repo/asyncz/schedulers/base.py:337-374)

One scheduler, any number of wrapped applications (each the result of one call of `asgi`, numbered), and the lifespan
messages that servers send them, in any order, with other calls of the scheduler in between.  `LifespanHook` belongs to
the library monkay: on `lifespan.startup` it awaits `setup` and keeps the exit stack it returns (replacing the one it may have
kept), on `lifespan.shutdown` it closes the kept stack; an exception is reported as `failed`, otherwise the message goes on
to the application.  Closing an `AsyncExitStack` calls each callback pushed once, and a second time nothing.
-/
namespace Asyncz
namespace Asgi
open Sched
variable {σ τ φ : Type}

/-- What happens.  (/repo/asyncz/schedulers/base.py:356-374) -/
inductive Msg (σ τ φ : Type) where
  /-- the server sends `lifespan.startup` to application `h` -/
  | startup (h : Nat) (e : Env τ)
  /-- the server sends `lifespan.shutdown` to application `h` -/
  | shutdown (h : Nat)
  /-- the event loop runs a queued shutdown (`AsyncIOScheduler`) -/
  | turn
  /-- another call of the scheduler -/
  | call (k : Call σ τ φ) (e : Env τ) (fuel : Nat)

/-- The scheduler, the number of queued shutdowns, the applications whose kept exit stack holds the callback, and the replies
to the lifespan messages so far: the application and whether it was `complete`.
(/repo/asyncz/schedulers/base.py:363-374) -/
structure World (σ τ φ : Type) where
  s : State σ τ φ
  queued : Nat := 0
  kept : List Nat := []
  replies : List (Nat × Bool) := []

/-- `setup`: start, and only then push the callback.  (/repo/asyncz/schedulers/base.py:368-373) -/
def setup (O : StoreOps σ (Body τ φ)) (c : Cfg τ) (h : Nat) (e : Env τ) (w : World σ τ φ) : World σ τ φ :=
  match start O c e false w.s with
  | (s', .ok _) => { w with s := s', kept := if h ∈ w.kept then w.kept else h :: w.kept, replies := w.replies ++ [(h, true)] }
  | (s', .error _) => { w with s := s', replies := w.replies ++ [(h, false)] }

/-- Closing the kept exit stack: `shutdown(wait)` if the callback is in it.  `queue`: an `AsyncIOScheduler`, whose `shutdown`
only queues the work in the event loop and does not raise.
(/repo/asyncz/schedulers/base.py:363-366, /repo/asyncz/schedulers/asyncio.py:60-74) -/
def close (O : StoreOps σ (Body τ φ)) (c : Cfg τ) (queue : Bool) (h : Nat) (w : World σ τ φ) : World σ τ φ :=
  if h ∈ w.kept then
    let w := { w with kept := w.kept.erase h }
    if queue then { w with queued := w.queued + 1, replies := w.replies ++ [(h, true)] }
    else
      match shutdown O c w.s with
      | (s', .ok _) => { w with s := s', replies := w.replies ++ [(h, true)] }
      | (s', .error _) => { w with s := s', replies := w.replies ++ [(h, false)] }
  else { w with replies := w.replies ++ [(h, true)] }

/-- One message.  `none`: the call does not end within its fuel.  (/repo/asyncz/schedulers/base.py:356-374) -/
def step (O : StoreOps σ (Body τ φ)) (c : Cfg τ) (queue : Bool) (w : World σ τ φ) : Msg σ τ φ → Option (World σ τ φ)
  | .startup h e => some (setup O c h e w)
  | .shutdown h => some (close O c queue h w)
  | .turn =>
    match w.queued with
    | 0 => some w
    | n + 1 => some { w with s := (shutdown O c w.s).1, queued := n }
  | .call k e fuel => (exec O c e fuel k w.s).map fun s' => { w with s := s' }

/-- All messages, from a new scheduler.  (/repo/asyncz/schedulers/base.py:356-374) -/
def run (O : StoreOps σ (Body τ φ)) (c : Cfg τ) (queue : Bool) (ms : List (Msg σ τ φ)) : Option (World σ τ φ) :=
  ms.foldlM (step O c queue) ⟨State.init, 0, [], []⟩

end Asgi
end Asyncz
