import Verif.Model.Asgi
import Verif.Props.SchedLife
/-!
# C115: a scheduler behind ASGI applications runs while one of them is up
-/
namespace Asyncz
namespace Asgi
open Sched
variable {σ τ φ : Type} {O : StoreOps σ (Body τ φ)}

/-! ## Specification -/

/-- the lifespan message is for application `h` -/
def Msg.For (h : Nat) : Msg σ τ φ → Prop
  | .startup h' _ => h' = h
  | .shutdown h' => h' = h
  | _ => False

/-- Application `h` is up: its last lifespan message was a startup. -/
def Up (h : Nat) (ms : List (Msg σ τ φ)) : Prop :=
  ∃ a e b, ms = a ++ Msg.startup h e :: b ∧ ∀ m ∈ b, ¬ m.For h

/-- Servers start an application only when it is not up, and the other calls are neither `start` nor `shutdown`, and legal. -/
def Served (L : LawfulStore O) (ms : List (Msg σ τ φ)) : Prop :=
  ∀ a m b, ms = a ++ m :: b →
    match m with
    | .startup h _ => ¬ Up h a
    | .shutdown _ => True
    | .turn => True
    | .call k _ _ => k.Inner ∧ k.Ok L

/-- every startup was answered with `complete` -/
def Completed (O : StoreOps σ (Body τ φ)) (c : Cfg τ) (queue : Bool) (ms : List (Msg σ τ φ)) : Prop :=
  ∀ a h e b w, ms = a ++ Msg.startup h e :: b → run O c queue a = some w → ∃ r, (start O c e false w.s).2 = .ok r

/-! ## Proof -/

theorem up_nil (h : Nat) : ¬ Up h ([] : List (Msg σ τ φ)) := by
  rintro ⟨a, e, b, h1, _⟩
  cases a <;> cases h1

theorem up_snoc (h : Nat) (ms : List (Msg σ τ φ)) (m : Msg σ τ φ) :
    Up h (ms ++ [m]) ↔ (∃ e, m = .startup h e) ∨ (¬ m.For h ∧ Up h ms) := by
  constructor
  · rintro ⟨a, e, b, h1, h2⟩
    rcases List.eq_nil_or_concat b with rfl | ⟨b', x, rfl⟩
    · have := List.append_inj' h1 rfl
      exact .inl ⟨e, by simpa using this.2⟩
    · have h1' : ms ++ [m] = (a ++ Msg.startup h e :: b') ++ [x] := by simpa using h1
      have := List.append_inj' h1' rfl
      have hx : m = x := by simpa using this.2
      subst hx
      exact .inr ⟨h2 m (by simp), a, e, b', this.1, fun y hy => h2 y (by simp [hy])⟩
  · rintro (⟨e, rfl⟩ | ⟨h1, a, e, b, rfl, h2⟩)
    · exact ⟨ms, e, [], rfl, fun _ h => by cases h⟩
    · refine ⟨a, e, b ++ [m], by simp, fun y hy => ?_⟩
      rcases List.mem_append.1 hy with hy | hy
      · exact h2 y hy
      · simp at hy; subst hy; exact h1

theorem run_snoc (c : Cfg τ) (queue : Bool) (ms : List (Msg σ τ φ)) (m : Msg σ τ φ) :
    run O c queue (ms ++ [m]) = (run O c queue ms).bind fun w => step O c queue w m := by
  unfold run
  rw [List.foldlM_append]
  cases List.foldlM (step O c queue) _ ms with
  | none => rfl
  | some w =>
    show (List.foldlM (step O c queue) w [m]) = step O c queue w m
    simp [List.foldlM]

theorem Served.init {L : LawfulStore O} {ms : List (Msg σ τ φ)} {m : Msg σ τ φ} (h : Served L (ms ++ [m])) : Served L ms := by
  intro a x b hx
  exact h a x (b ++ [m]) (by simp [hx])

theorem Completed.init {c : Cfg τ} {queue : Bool} {ms : List (Msg σ τ φ)} {m : Msg σ τ φ}
    (h : Completed O c queue (ms ++ [m])) : Completed O c queue ms := by
  intro a k e b w hx
  exact h a k e (b ++ [m]) w (by simp [hx])

/-- what holds after every history -/
structure Good (L : LawfulStore O) (c : Cfg τ) (ms : List (Msg σ τ φ)) (w : World σ τ φ) : Prop where
  nodup : w.kept.Nodup
  mem : ∀ h, h ∈ w.kept ↔ Up h ms
  nested : AsyncNested L c w.kept.length (w.s, w.queued)
  ok : ∀ r ∈ w.replies, r.2 = true

/-- a scheduler whose `shutdown` works at once is like one whose event loop runs the queued shutdown at once -/
theorem good (L : LawfulStore O) (c : Cfg τ) (queue : Bool) (ms : List (Msg σ τ φ)) (hs : Served L ms)
    (hc : Completed O c queue ms) (w : World σ τ φ) (hw : run O c queue ms = some w) :
    Good L c ms w ∧ (queue = false → w.queued = 0) := by
  suffices H : ∀ n (ms : List (Msg σ τ φ)), ms.length = n → Served L ms → Completed O c queue ms →
      ∀ w, run O c queue ms = some w → Good L c ms w ∧ (queue = false → w.queued = 0) from H _ ms rfl hs hc w hw
  clear hs hc hw w ms
  intro n
  induction n with
  | zero =>
    intro ms hn hs hc w hw
    have : ms = [] := List.length_eq_zero_iff.1 hn
    subst this
    cases hw
    exact ⟨⟨List.nodup_nil, fun h => ⟨fun q => (by cases q), fun q => absurd q (up_nil h)⟩, .init, fun r q => (by cases q)⟩, fun _ => rfl⟩
  | succ n ih =>
    intro ms hn hs hc w hw
    rcases List.eq_nil_or_concat ms with rfl | ⟨l, m, rfl⟩
    · cases hn
    rw [List.concat_eq_append] at *
    rw [run_snoc] at hw
    cases hr : run O c queue l with
    | none => rw [hr] at hw; cases hw
    | some w0 =>
      rw [hr] at hw
      simp only [Option.bind_some] at hw
      obtain ⟨g, hq⟩ := ih l (by simpa using hn) hs.init hc.init w0 hr
      have hm := hs l m [] rfl
      cases m with
      | startup h e =>
        simp only [step, Option.some.injEq] at hw
        have hnot : h ∉ w0.kept := fun q => hm ((g.mem h).1 q)
        obtain ⟨r, hst⟩ := hc l h e [] w0 rfl hr
        unfold setup at hw
        split at hw
        · rename_i s' b hst'
          rw [if_neg hnot] at hw
          subst hw
          refine ⟨⟨?_, fun x => ?_, ?_, fun r q => ?_⟩, hq⟩
          · exact List.nodup_cons.2 ⟨hnot, g.nodup⟩
          · simp only [List.mem_cons]
            rw [up_snoc, g.mem]
            constructor
            · rintro (rfl | q)
              · exact .inl ⟨e, rfl⟩
              · by_cases hx : x = h
                · exact .inl ⟨e, by rw [hx]⟩
                · exact .inr ⟨fun z => hx z.symm, q⟩
            · rintro (⟨e', q⟩ | ⟨_, q⟩)
              · cases q; exact .inl rfl
              · exact .inr q
          · exact .begin g.nested hst'
          · simp only [List.mem_append, List.mem_singleton] at q
            rcases q with q | rfl
            · exact g.ok r q
            · rfl
        · rename_i s' b hst'
          rw [hst'] at hst; cases hst
      | shutdown h =>
        simp only [step, Option.some.injEq] at hw
        have hup : ∀ x, Up x (l ++ [Msg.shutdown h]) ↔ x ≠ h ∧ x ∈ w0.kept := by
          intro x
          rw [up_snoc, g.mem]
          constructor
          · rintro (⟨e', q⟩ | ⟨q1, q2⟩)
            · cases q
            · exact ⟨fun z => q1 z.symm, q2⟩
          · rintro ⟨q1, q2⟩
            exact .inr ⟨fun z => q1 z.symm, q2⟩
        have hrep : ∀ r ∈ w0.replies ++ [(h, true)], r.2 = true := by
          intro r q
          simp only [List.mem_append, List.mem_singleton] at q
          rcases q with q | rfl
          · exact g.ok r q
          · rfl
        unfold close at hw
        split at hw
        · rename_i hin
          have hlen : w0.kept.length = (w0.kept.erase h).length + 1 := by
            rw [List.length_erase_of_mem hin]
            have := List.length_pos_of_mem hin
            omega
          have hnd := g.nodup.erase h
          have hmem : ∀ x, x ∈ w0.kept.erase h ↔ Up x (l ++ [Msg.shutdown h]) := by
            intro x; rw [hup, g.nodup.mem_erase_iff]
          have hnest := g.nested
          rw [hlen] at hnest
          have hstop := AsyncNested.stop hnest
          simp only at hw
          split at hw
          · rename_i hqu
            subst hw
            exact ⟨⟨hnd, hmem, hstop, hrep⟩, fun q => by rw [hqu] at q; cases q⟩
          · rename_i hqu
            have hq0 := hq (by simpa using hqu)
            have hloop := AsyncNested.loop hstop
            simp only [asyncShutdown, asyncRun, hq0] at hloop
            have hne : w0.s.mode ≠ .stopped := by
              have := (C30_async_nested_partial L c _ _ _ hnest).2.2.2 (by omega)
              exact this
            split at hw
            · rename_i s' b hsd
              subst hw
              rw [hsd] at hloop
              exact ⟨⟨hnd, hmem, by rw [hq0]; exact hloop, hrep⟩, fun _ => hq0⟩
            · rename_i s' b hsd
              exfalso
              simp only [Sched.shutdown] at hsd
              split at hsd
              · cases hsd
              · cases hsd
        · rename_i hin
          subst hw
          refine ⟨⟨g.nodup, fun x => ?_, g.nested, hrep⟩, hq⟩
          rw [hup]
          exact ⟨fun q => ⟨fun z => hin (z ▸ q), q⟩, fun q => q.2⟩
      | turn =>
        have hup : ∀ x, Up x (l ++ [(Msg.turn : Msg σ τ φ)]) ↔ Up x l := by
          intro x
          rw [up_snoc]
          constructor
          · rintro (⟨e', q⟩ | ⟨q1, q2⟩)
            · cases q
            · exact q2
          · exact fun q => .inr ⟨fun z => z, q⟩
        simp only [step] at hw
        split at hw
        · rename_i h0
          cases hw
          exact ⟨⟨g.nodup, fun x => by rw [g.mem, hup], g.nested, g.ok⟩, hq⟩
        · rename_i k h0
          cases hw
          have hloop := AsyncNested.loop g.nested
          simp only [asyncRun, h0] at hloop
          exact ⟨⟨g.nodup, fun x => by rw [g.mem, hup], hloop, g.ok⟩, fun q => by rw [hq q] at h0; cases h0⟩
      | call k e fuel =>
        have hup : ∀ x, Up x (l ++ [Msg.call k e fuel]) ↔ Up x l := by
          intro x
          rw [up_snoc]
          constructor
          · rintro (⟨e', q⟩ | ⟨q1, q2⟩)
            · cases q
            · exact q2
          · exact fun q => .inr ⟨fun z => z, q⟩
        simp only [step, Option.map_eq_some_iff] at hw
        obtain ⟨s', hex, rfl⟩ := hw
        exact ⟨⟨g.nodup, fun x => by rw [g.mem, hup], .other g.nested hm.1 hm.2 hex, g.ok⟩, hq⟩

/-- **C115** (partial): a scheduler whose `shutdown` works at once.  Whatever lifespan messages servers send to any number of
wrapped applications, in any order, and whatever else is called in between: the scheduler runs exactly while one of the
applications is up.  Messages `shutdown` to an application that is not up do nothing, and every message is answered with
`complete`.  Partial: every startup works, and no application is started while it is up (see the witnesses). -/
theorem C115_running_partial (L : LawfulStore O) (c : Cfg τ) (ms : List (Msg σ τ φ)) (hs : Served L ms)
    (hc : Completed O c false ms) (w : World σ τ φ) (hw : run O c false ms = some w) :
    (w.s.mode ≠ .stopped ↔ ∃ h, Up h ms) ∧ (∀ r ∈ w.replies, r.2 = true) := by
  obtain ⟨g, hq⟩ := good L c false ms hs hc w hw
  have h2 := (C30_async_nested_partial L c _ _ _ g.nested).2.2.1 (hq rfl)
  refine ⟨?_, g.ok⟩
  rw [ne_eq, h2, List.length_eq_zero_iff]
  constructor
  · intro q
    cases hk : w.kept with
    | nil => exact absurd hk q
    | cons h t => exact ⟨h, (g.mem h).1 (by simp [hk])⟩
  · rintro ⟨h, q⟩ h0
    have := (g.mem h).2 q
    rw [h0] at this; cases this

/-- **C115** (partial, `AsyncIOScheduler`): the scheduler runs while one of the applications is up, and is stopped when none is
and the event loop has got round to the queued shutdowns. -/
theorem C115_running_async_partial (L : LawfulStore O) (c : Cfg τ) (ms : List (Msg σ τ φ)) (hs : Served L ms)
    (hc : Completed O c true ms) (w : World σ τ φ) (hw : run O c true ms = some w) :
    ((∃ h, Up h ms) → w.s.mode ≠ .stopped) ∧ ((∀ h, ¬ Up h ms) → w.queued = 0 → w.s.mode = .stopped) ∧
    (∀ r ∈ w.replies, r.2 = true) := by
  obtain ⟨g, _⟩ := good L c true ms hs hc w hw
  have h2 := C30_async_nested_partial L c _ _ _ g.nested
  refine ⟨?_, ?_, g.ok⟩
  · rintro ⟨h, q⟩
    exact h2.2.2.2 (List.length_pos_of_mem ((g.mem h).2 q))
  · intro hn hq
    refine (h2.2.2.1 hq).2 ?_
    rw [List.length_eq_zero_iff]
    cases hk : w.kept with
    | nil => rfl
    | cons h t => exact absurd ((g.mem h).1 (by simp [hk])) (hn h)

/-- **C115, failed startup.**  A startup that raises is answered with `failed`, and a shutdown sent after it all the same does
not reach the scheduler. -/
theorem C115_failed (L : LawfulStore O) (c : Cfg τ) (queue : Bool) (ms : List (Msg σ τ φ)) (hs : Served L ms)
    (hc : Completed O c queue ms) (w : World σ τ φ) (hw : run O c queue ms = some w) (h : Nat) (hup : ¬ Up h ms) (e : Env τ)
    (s' : State σ τ φ) (x : Err) (hx : start O c e false w.s = (s', .error x)) :
    ∃ w1 w2, run O c queue (ms ++ [.startup h e]) = some w1 ∧ w1.s = s' ∧ w1.replies = w.replies ++ [(h, false)] ∧
      run O c queue (ms ++ [.startup h e, .shutdown h]) = some w2 ∧ w2.s = s' ∧ w2.queued = w.queued := by
  obtain ⟨g, _⟩ := good L c queue ms hs hc w hw
  have hk : h ∉ w.kept := fun q => hup ((g.mem h).1 q)
  have h1 : run O c queue (ms ++ [.startup h e]) = some { w with s := s', replies := w.replies ++ [(h, false)] } := by
    rw [run_snoc, hw]; simp only [Option.bind_some, step, setup, hx]
  have h2 : run O c queue (ms ++ [.startup h e, .shutdown h]) =
      some { w with s := s', replies := w.replies ++ [(h, false)] ++ [(h, true)] } := by
    rw [show ms ++ [Msg.startup h e, .shutdown h] = (ms ++ [Msg.startup h e]) ++ [.shutdown h] by simp, run_snoc, h1]
    simp only [Option.bind_some, step, close, if_neg hk]
  exact ⟨_, _, h1, rfl, rfl, h2, rfl, rfl⟩

/-- the queue is emptied by as many turns of the event loop as there are queued shutdowns -/
theorem C115_turns (c : Cfg τ) (ms : List (Msg σ τ φ)) (w : World σ τ φ) (hw : run O c true ms = some w) :
    ∃ w', run O c true (ms ++ List.replicate w.queued Msg.turn) = some w' ∧ w'.queued = 0 := by
  suffices H : ∀ n (ms : List (Msg σ τ φ)) w, run O c true ms = some w → w.queued = n →
      ∃ w', run O c true (ms ++ List.replicate n Msg.turn) = some w' ∧ w'.queued = 0 from H _ ms w hw rfl
  intro n
  induction n with
  | zero => intro ms w hw h0; exact ⟨w, by simpa using hw, h0⟩
  | succ n ih =>
    intro ms w hw h0
    have h1 : run O c true (ms ++ [Msg.turn]) = some { w with s := (Sched.shutdown O c w.s).1, queued := n } := by
      rw [run_snoc, hw]; simp only [Option.bind_some, step, h0]
    obtain ⟨w', h2, h3⟩ := ih _ _ h1 rfl
    refine ⟨w', ?_, h3⟩
    rw [List.replicate_succ]
    simpa using h2

/-! ## Witnesses and examples -/

/-- mode and replies after messages to a scheduler with the stores of the other examples -/
def ex (queue : Bool) (ms : List (Msg MS Int Unit)) : Option (Mode × List Nat × List (Nat × Bool)) :=
  (run Memory.ops exCfg queue ms).map fun w => (w.s.mode, w.kept, w.replies)

/-- two applications around one scheduler; a shutdown too many for the first -/
theorem C115_example :
    ex false [.startup 0 (exEnvAt 7), .startup 1 (exEnvAt 8), .shutdown 0, .shutdown 0] =
      some (.running, [1], [(0, true), (1, true), (0, true), (0, true)]) ∧
    ex false [.startup 0 (exEnvAt 7), .startup 1 (exEnvAt 8), .shutdown 0, .shutdown 0, .shutdown 1] =
      some (.stopped, [], [(0, true), (1, true), (0, true), (0, true), (1, true)]) ∧
    ex true [.startup 0 (exEnvAt 7), .shutdown 0] = some (.running, [], [(0, true), (0, true)]) ∧
    ex true [.startup 0 (exEnvAt 7), .shutdown 0, .turn] = some (.stopped, [], [(0, true), (0, true)]) := by
  refine ⟨?_, ?_, ?_, ?_⟩ <;> decide +kernel

/-- the messages of the example -/
def exMsgs : List (Msg MS Int Unit) := [.startup 0 (exEnvAt 7), .startup 1 (exEnvAt 8), .shutdown 0, .shutdown 0]

/-- they meet the hypotheses -/
theorem exMsgs_ok : Served Memory.lawful exMsgs ∧ Completed Memory.ops exCfg false exMsgs := by
  have hno : ∀ h, ¬ Up h ([] : List (Msg MS Int Unit)) := up_nil
  constructor
  · intro a m b h
    match a with
    | [] => cases h; exact hno 0
    | [_] =>
      cases h
      show ¬ Up 1 ([] ++ [Msg.startup 0 (exEnvAt 7)])
      rw [up_snoc]
      rintro (⟨_, q⟩ | ⟨_, q⟩)
      · cases q
      · exact hno 1 q
    | [_, _] => cases h; trivial
    | [_, _, _] => cases h; trivial
    | _ :: _ :: _ :: _ :: _ => simp [exMsgs] at h
  · intro a h e b w hm hr
    match a with
    | [] => cases hm; cases hr; exact ⟨true, by decide +kernel⟩
    | [_] => cases hm; cases hr; exact ⟨false, by decide +kernel⟩
    | [_, _] => cases hm
    | [_, _, _] => cases hm
    | _ :: _ :: _ :: _ :: _ => simp [exMsgs] at hm

/-- **Counterexample**: an application started twice (two servers in one process serve the same wrapped application) keeps only
the last exit stack: the scheduler goes on after both have shut down. -/
theorem C115_twice_witness :
    ex false [.startup 0 (exEnvAt 7), .startup 0 (exEnvAt 8), .shutdown 0, .shutdown 0] =
      some (.running, [], [(0, true), (0, true), (0, true), (0, true)]) := by decide +kernel

/-- a task waiting for a store that does not exist -/
def exLost : Msg MS Int Unit :=
  .call (.addTask ⟨"a", some 1, exBody 1 "default" "nowhere" false 1⟩ none false) (exEnvAt 6) 0

/-- **Counterexample**: after a startup that failed, the next one is answered with `complete` though the scheduler does not
run. -/
theorem C115_failed_witness :
    ex false [exLost, .startup 0 (exEnvAt 7), .startup 0 (exEnvAt 8)] = some (.stopped, [0], [(0, false), (0, true)]) := by
  decide +kernel

end Asgi
end Asyncz
