import Verif.Model.CliOut
/-!
# C129: what a command that shows something writes, and how it ends
-/
namespace Asyncz
namespace CliOut
open Spec
variable {ε π : Type}

theorem output_append (a b : List (Ev π)) : output (a ++ b) = output a ++ output b := by
  induction a with
  | nil => rfl
  | cons e a ih => cases e <;> simp [output, ih]

theorem effects_append (a b : List (Ev π)) : effects (a ++ b) = effects a ++ effects b := by
  induction a with
  | nil => rfl
  | cons e a ih => cases e <;> simp [effects, ih]

theorem output_text (l : List String) : output (l.map (Ev.text (π := π))) = l.map .text := by
  induction l with
  | nil => rfl
  | cons x l ih => simp [output, ih]

theorem effects_text (l : List String) : effects (l.map (Ev.text (π := π))) = [] := by
  induction l with
  | nil => rfl
  | cons x l ih => simp [effects, ih]

/-- the output before the queries -/
theorem begin_output (w : World ε π) (c : Cmd) (o : Opts) :
    output (begin w c o).1 = if o.bootstrap ≠ "" ∧ o.store ≠ [] then [.text note] else [] := by
  unfold begin
  by_cases hb : o.bootstrap = ""
  · simp only [hb, ne_eq, not_true, if_false, false_and]
    cases w.build with
    | error e => rfl
    | ok u => cases w.start <;> rfl
  · by_cases hs : o.store = []
    · simp only [hb, hs, ne_eq, not_false_iff, if_true, not_true, and_false, if_false]
      cases w.load with
      | error e => rfl
      | ok u => cases starts c <;> cases w.start <;> rfl
    · simp only [hb, hs, ne_eq, not_false_iff, if_true, and_true, if_false]
      cases w.load with
      | error e => rfl
      | ok u => cases starts c <;> cases w.start <;> rfl

/-- what is done before the queries -/
theorem begin_effects (w : World ε π) (c : Cmd) (o : Opts) :
    (o.bootstrap = "" → (begin w c o).2 = .ok () → effects (begin w c o).1 = [.started]) ∧
    (o.bootstrap = "" → (begin w c o).2 ≠ .ok () → effects (begin w c o).1 = []) ∧
    Ev.stopped ∉ effects (begin w c o).1 ∧
    (o.bootstrap ≠ "" → (c = .status ∨ c = .doctor ∨ c = .instances) → Ev.started ∉ effects (begin w c o).1) := by
  unfold begin
  by_cases hb : o.bootstrap = ""
  · simp only [hb, ne_eq, not_true, if_false]
    cases w.build with
    | error e => simp [effects]
    | ok u => cases w.start <;> simp [effects]
  · simp only [hb, ne_eq, not_false_iff, if_true]
    have he : effects (if o.store = [] then [] else [Ev.text (π := π) note]) = [] := by
      split <;> rfl
    cases w.load with
    | error e => simp [he]
    | ok u =>
      cases c <;> cases w.start <;> simp [starts, he, effects_append, effects]

theorem body_output (w : World ε π) (c : Cmd) (o : Opts) (hj : o.json = true) :
    (output (body w c o).1 = [] ∧ (body w c o).2 ≠ .ok ()) ∨ ∃ p, w.payload = .ok p ∧ output (body w c o).1 = [.json p] := by
  unfold body
  cases w.payload with
  | error e => exact .inl ⟨rfl, by simp⟩
  | ok p =>
    simp only [hj, if_true]
    cases w.dumps p with
    | error e => exact .inl ⟨rfl, by simp⟩
    | ok u =>
      refine .inr ⟨p, rfl, ?_⟩
      simp only
      split <;> rfl

theorem body_effects (w : World ε π) (c : Cmd) (o : Opts) : effects (body w c o).1 = [] := by
  unfold body
  cases w.payload with
  | error e => rfl
  | ok p =>
    cases hj : o.json
    · simp only [Bool.false_eq_true, if_false]
      split <;> exact effects_text _
    · simp only [if_true]
      cases w.dumps p with
      | error e => rfl
      | ok u => simp only; split <;> rfl

/-- all of the output -/
theorem command_output (w : World ε π) (c : Cmd) (o : Opts) (h : (begin w c o).2 = .ok ()) :
    output (command w c o).1 = output (begin w c o).1 ++ output (body w c o).1 := by
  unfold command
  match hb : begin w c o with
  | (es, .error e) => rw [hb] at h; cases h
  | (es, .ok ()) =>
    by_cases hbs : o.bootstrap = ""
    · simp only [hbs, ne_eq, not_true, if_false]
      cases w.shutdown <;> simp [output_append, output]
    · simp [hbs, output_append]

theorem command_output_fail (w : World ε π) (c : Cmd) (o : Opts) (h : (begin w c o).2 ≠ .ok ()) :
    output (command w c o).1 = output (begin w c o).1 := by
  unfold command
  match hb : begin w c o with
  | (es, .error e) => rfl
  | (es, .ok ()) => rw [hb] at h; exact absurd rfl h

theorem command_ok (w : World ε π) (c : Cmd) (o : Opts) (h : (command w c o).2 = .ok ()) :
    (begin w c o).2 = .ok () ∧ (body w c o).2 = .ok () := by
  unfold command at h
  match hb : begin w c o with
  | (es, .error e) => rw [hb] at h; cases h
  | (es, .ok ()) =>
    rw [hb] at h
    refine ⟨rfl, ?_⟩
    by_cases hbs : o.bootstrap = ""
    · simp only [hbs, ne_eq, not_true, if_false] at h
      cases hs : w.shutdown with
      | error e => rw [hs] at h; cases h
      | ok u => rw [hs] at h; exact h
    · simpa [hbs] using h

/-- **C129, JSON.**  With `--json`, unless both `--bootstrap` and `--store` are given, the standard output is one JSON document, what the
scheduler answered, or nothing, and the latter only if the command fails. -/
theorem C129_json_partial (w : World ε π) (c : Cmd) (o : Opts) (hj : o.json = true) (hb : o.bootstrap = "" ∨ o.store = []) :
    (∃ p, w.payload = .ok p ∧ Parses (command w c o).1 p) ∨
    (output (command w c o).1 = [] ∧ ∃ e, (command w c o).2 = .error e) := by
  have h0 : output (begin w c o).1 = [] := by
    rw [begin_output, if_neg]
    rintro ⟨h1, h2⟩
    rcases hb with h | h
    · exact h1 h
    · exact h2 h
  have hfail : (command w c o).2 ≠ .ok () → ∃ e, (command w c o).2 = .error e := by
    intro h
    match hx : (command w c o).2 with
    | .ok () => exact absurd hx h
    | .error e => exact ⟨e, rfl⟩
  by_cases hok : (begin w c o).2 = .ok ()
  · have ho := command_output w c o hok
    rw [h0, List.nil_append] at ho
    rcases body_output w c o hj with ⟨h1, h2⟩ | ⟨p, h1, h2⟩
    · exact .inr ⟨by rw [ho, h1], hfail fun h => h2 (command_ok w c o h).2⟩
    · exact .inl ⟨p, h1, by unfold Parses; rw [ho, h2]⟩
  · have ho := command_output_fail w c o hok
    rw [h0] at ho
    exact .inr ⟨ho, hfail fun h => hok (command_ok w c o h).1⟩

/-- **C129, counterexample**: with both options the output is never a JSON document, whatever the command and the scheduler do: a
sentence precedes it. -/
theorem C129_note_witness (w : World ε π) (c : Cmd) (o : Opts) (hb : o.bootstrap ≠ "") (hs : o.store ≠ []) :
    (∃ rest, output (command w c o).1 = .text note :: rest) ∧ ∀ p, ¬ Parses (command w c o).1 p := by
  have h : ∃ rest, output (command w c o).1 = .text note :: rest := by
    by_cases hok : (begin w c o).2 = .ok ()
    · rw [command_output w c o hok, begin_output, if_pos ⟨hb, hs⟩]
      exact ⟨_, rfl⟩
    · rw [command_output_fail w c o hok, begin_output, if_pos ⟨hb, hs⟩]
      exact ⟨_, rfl⟩
  refine ⟨h, fun p hp => ?_⟩
  obtain ⟨rest, hr⟩ := h
  unfold Parses at hp
  rw [hr] at hp
  simp at hp

/-- **C129, text.**  Without `--json` a command that succeeds prints exactly the lines for a reader, after the note if both options are
given, and never JSON. -/
theorem C129_text (w : World ε π) (c : Cmd) (o : Opts) (hj : o.json = false) (h : (command w c o).2 = .ok ()) :
    ∃ p, w.payload = .ok p ∧ output (command w c o).1 =
      (if o.bootstrap ≠ "" ∧ o.store ≠ [] then [.text note] else []) ++ (w.lines p).map .text := by
  obtain ⟨h1, h2⟩ := command_ok w c o h
  rw [command_output w c o h1, begin_output]
  unfold body at h2 ⊢
  cases hp : w.payload with
  | error e => rw [hp] at h2; cases h2
  | ok p =>
    refine ⟨p, rfl, ?_⟩
    simp only [hj]
    congr 1
    simp only [Bool.false_eq_true, if_false]
    split <;> exact output_text _

/-- **C129, the temporary scheduler.**  Without `--bootstrap` a scheduler that was started is shut down at the end, once, whatever
happens in between (unless that fails, and then the command fails); none is touched if it could not be started. -/
theorem C129_temporary (w : World ε π) (c : Cmd) (o : Opts) (hb : o.bootstrap = "") :
    effects (command w c o).1 = [] ∨ effects (command w c o).1 = [.started, .stopped] ∨
    (effects (command w c o).1 = [.started] ∧ ∃ e, w.shutdown = .error e ∧ (command w c o).2 = .error e) := by
  obtain ⟨h1, h2, _⟩ := begin_effects w c o
  unfold command
  match hx : begin w c o with
  | (es, .error e) =>
    rw [hx] at h2
    exact .inl (h2 hb (by simp))
  | (es, .ok ()) =>
    rw [hx] at h1
    have h3 : effects es = [.started] := h1 hb rfl
    simp only [hb, ne_eq, not_true, if_false]
    cases hs : w.shutdown with
    | error e => exact .inr (.inr ⟨by simp [effects_append, h3, body_effects], e, rfl, rfl⟩)
    | ok u => exact .inr (.inl (by simp [effects_append, h3, body_effects, effects]))

/-- **C129, the application's scheduler.**  With `--bootstrap` no command shuts the scheduler down; `status`, `doctor` and `instances`
do not start it either. -/
theorem C129_bootstrapped (w : World ε π) (c : Cmd) (o : Opts) (hb : o.bootstrap ≠ "") :
    Ev.stopped ∉ effects (command w c o).1 ∧
    ((c = .status ∨ c = .doctor ∨ c = .instances) → Ev.started ∉ effects (command w c o).1) := by
  obtain ⟨_, _, h3, h4⟩ := begin_effects w c o
  have h5 : effects (command w c o).1 = effects (begin w c o).1 := by
    unfold command
    match hx : begin w c o with
    | (es, .error e) => rfl
    | (es, .ok ()) => simp [hb, effects_append, body_effects]
  rw [h5]
  exact ⟨h3, h4 hb⟩

/-- **C129, `doctor --strict`** succeeds only if the health is `ok`; it shows its report either way. -/
theorem C129_strict (w : World ε π) (o : Opts) (hs : o.strict = true) :
    ((command w .doctor o).2 = .ok () → ∃ p, w.payload = .ok p ∧ w.healthy p = true) ∧
    ∀ p, w.payload = .ok p → w.dumps p = .ok () → (begin w .doctor o).2 = .ok () →
      output (command w .doctor o).1 = (if o.bootstrap ≠ "" ∧ o.store ≠ [] then [.text note] else []) ++
        (if o.json then [.json p] else (w.lines p).map .text) := by
  constructor
  · intro h
    have h2 := (command_ok w _ o h).2
    unfold body at h2
    cases hp : w.payload with
    | error e => rw [hp] at h2; cases h2
    | ok p =>
      refine ⟨p, rfl, ?_⟩
      rw [hp] at h2
      cases hh : w.healthy p with
      | true => rfl
      | false =>
        cases hj : o.json
        · simp [hj, hh, hs] at h2
        · cases hd : w.dumps p with
          | error e => simp [hj, hd] at h2
          | ok u => simp [hj, hd, hh, hs] at h2
  · intro p hp hd hb
    rw [command_output w _ o hb, begin_output]
    congr 1
    unfold body
    rw [hp]
    cases hj : o.json
    · simp only [Bool.false_eq_true, if_false]
      split <;> exact output_text _
    · simp only [if_true, hd]
      split <;> rfl

/-- Without `--strict`, and for every other command, the health does not matter: the command fails only if a call does. -/
theorem C129_fails (w : World ε π) (c : Cmd) (o : Opts) (hs : c ≠ .doctor ∨ o.strict = false) (e : ε)
    (h : (command w c o).2 = .error e) :
    w.load = .error e ∨ w.build = .error e ∨ w.start = .error e ∨ w.payload = .error e ∨ (∃ p, w.dumps p = .error e) ∨
    w.shutdown = .error e := by
  have hbody : ∀ e', (body w c o).2 = .error e' → w.payload = .error e' ∨ ∃ p, w.dumps p = .error e' := by
    intro e' he
    unfold body at he
    cases hp : w.payload with
    | error x => rw [hp] at he; cases he; exact .inl rfl
    | ok p =>
      rw [hp] at he
      have hn : ¬ (c = .doctor ∧ o.strict = true ∧ w.healthy p = false) := by
        rintro ⟨h1, h2, _⟩
        rcases hs with h | h
        · exact h h1
        · rw [h] at h2; cases h2
      cases hj : o.json
      · simp [hj, hn] at he
      · cases hd : w.dumps p with
        | error x => simp [hj, hd] at he; subst he; exact .inr ⟨p, hd⟩
        | ok u => simp [hj, hd, hn] at he
  have hbegin : ∀ e', (begin w c o).2 = .error e' → w.load = .error e' ∨ w.build = .error e' ∨ w.start = .error e' := by
    intro e' he
    unfold begin at he
    by_cases hb : o.bootstrap = ""
    · simp only [hb, ne_eq, not_true, if_false] at he
      cases hx : w.build with
      | error x => rw [hx] at he; cases he; exact .inr (.inl rfl)
      | ok u =>
        rw [hx] at he
        cases hy : w.start with
        | error x => rw [hy] at he; cases he; exact .inr (.inr rfl)
        | ok u => rw [hy] at he; cases he
    · simp only [hb, ne_eq, not_false_iff, if_true] at he
      cases hx : w.load with
      | error x => rw [hx] at he; cases he; exact .inl rfl
      | ok u =>
        rw [hx] at he
        cases hst : starts c with
        | false => simp [hst] at he
        | true =>
          cases hy : w.start with
          | ok u => simp [hst, hy] at he
          | error x =>
            cases ho : w.ordinary x <;> simp [hst, hy, ho] at he
            subst he; exact .inr (.inr rfl)
  unfold command at h
  match hx : begin w c o with
  | (es, .error x) =>
    rw [hx] at h
    cases h
    rcases hbegin e (by rw [hx]) with h | h | h
    · exact .inl h
    · exact .inr (.inl h)
    · exact .inr (.inr (.inl h))
  | (es, .ok ()) =>
    rw [hx] at h
    by_cases hb : o.bootstrap = ""
    · simp only [hb, ne_eq, not_true, if_false] at h
      cases hsd : w.shutdown with
      | error x => rw [hsd] at h; cases h; exact .inr (.inr (.inr (.inr (.inr rfl))))
      | ok u =>
        rw [hsd] at h
        rcases hbody e h with h | h
        · exact .inr (.inr (.inr (.inl h)))
        · exact .inr (.inr (.inr (.inr (.inl h))))
    · have h' : (body w c o).2 = .error e := by simpa [hb] using h
      rcases hbody e h' with h | h
      · exact .inr (.inr (.inr (.inl h)))
      · exact .inr (.inr (.inr (.inr (.inl h))))

/-- **C129, success.**  A command succeeds only if everything it needs does: with `--bootstrap` the application is loaded and, for
`list`, `preview`, `inspect` and `timeline`, its scheduler started, where an ordinary exception of the start is ignored but no other is;
without, the temporary scheduler is made, started and shut down; and the queries are answered. -/
theorem C129_succeeds (w : World ε π) (c : Cmd) (o : Opts) (h : (command w c o).2 = .ok ()) :
    (o.bootstrap ≠ "" → w.load = .ok () ∧ (c ∈ [Cmd.list, .preview, .inspect, .timeline] →
      w.start = .ok () ∨ ∃ e, w.start = .error e ∧ w.ordinary e = true)) ∧
    (o.bootstrap = "" → w.build = .ok () ∧ w.start = .ok () ∧ w.shutdown = .ok ()) ∧
    ∃ p, w.payload = .ok p ∧ (o.json = true → w.dumps p = .ok ()) := by
  obtain ⟨h1, h2⟩ := command_ok w c o h
  refine ⟨fun hb => ?_, fun hb => ?_, ?_⟩
  · unfold begin at h1
    simp only [hb, ne_eq, not_false_iff, if_true] at h1
    cases hl : w.load with
    | error e => rw [hl] at h1; cases h1
    | ok u =>
      rw [hl] at h1
      refine ⟨rfl, fun hc => ?_⟩
      have hst : starts c = true := by
        simp only [List.mem_cons, List.not_mem_nil, or_false] at hc
        rcases hc with rfl | rfl | rfl | rfl <;> rfl
      cases hs : w.start with
      | ok u => exact .inl rfl
      | error e =>
        refine .inr ⟨e, rfl, ?_⟩
        cases ho : w.ordinary e with
        | true => rfl
        | false => simp [hst, hs, ho] at h1
  · unfold begin at h1
    simp only [hb, ne_eq, not_true, if_false] at h1
    cases hl : w.build with
    | error e => rw [hl] at h1; cases h1
    | ok u =>
      rw [hl] at h1
      cases hs : w.start with
      | error e => rw [hs] at h1; cases h1
      | ok u =>
        refine ⟨rfl, rfl, ?_⟩
        cases hd : w.shutdown with
        | ok u => rfl
        | error e =>
          unfold command at h
          have hbeg : begin w c o = ([.started], .ok ()) := by
            unfold begin; simp [hb, hl, hs]
          rw [hbeg] at h
          simp [hb, hd] at h
  · unfold body at h2
    cases hp : w.payload with
    | error e => rw [hp] at h2; cases h2
    | ok p =>
      refine ⟨p, rfl, fun hj => ?_⟩
      cases hd : w.dumps p with
      | ok u => rfl
      | error e => rw [hp] at h2; simp [hj, hd] at h2

/-- **C129, starting.**  `list`, `preview`, `inspect` and `timeline` do start the application's scheduler. -/
theorem C129_starts (w : World ε π) (c : Cmd) (o : Opts) (hb : o.bootstrap ≠ "") (hc : c ∈ [Cmd.list, .preview, .inspect, .timeline])
    (hl : w.load = .ok ()) (hs : w.start = .ok ()) : effects (command w c o).1 = [.loaded, .started] := by
  have hst : starts c = true := by
    simp only [List.mem_cons, List.not_mem_nil, or_false] at hc
    rcases hc with rfl | rfl | rfl | rfl <;> rfl
  have he : effects (if o.store = [] then [] else [Ev.text (π := π) note]) = [] := by
    split <;> rfl
  unfold command begin
  simp only [hb, ne_eq, not_false_iff, if_true, hl, hst, hs, effects_append, body_effects, he]
  rfl

/-- everything works; the health is not `ok` -/
def exWorld : World String Nat :=
  { load := .ok (), build := .ok (), start := .ok (), ordinary := fun _ => true, payload := .ok 7, dumps := fun _ => .ok ()
    lines := fun p => [toString p], healthy := fun _ => false, unhealthy := fun _ => "degraded", shutdown := .ok () }

example : (command exWorld .list ⟨"", ["a=memory"], true, false⟩).1 = [.started, .json 7, .stopped] ∧
    (command exWorld .status ⟨"app:spec", [], true, false⟩).1 = [.loaded, .json 7] ∧
    (command exWorld .preview ⟨"app:spec", ["a=memory"], true, false⟩).1 = [.text note, .loaded, .started, .json 7] ∧
    (command exWorld .doctor ⟨"app:spec", [], true, true⟩).1 = [.loaded, .json 7] := by decide +kernel
example : (command exWorld .doctor ⟨"app:spec", [], true, true⟩).2 = .error "degraded" ∧
    (command exWorld .doctor ⟨"app:spec", [], true, false⟩).2 = .ok () ∧
    (command exWorld .list ⟨"", [], false, true⟩).2 = .ok () := ⟨rfl, rfl, rfl⟩

end CliOut
end Asyncz
