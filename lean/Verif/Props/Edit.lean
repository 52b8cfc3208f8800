import Verif.Spec.Edit
import Verif.Props.Pages
import Verif.Props.Cli
/-!
# C71: the task editing form
-/
namespace Asyncz
namespace Edit
open TaskObj Pages

theorem attempt_nil {key : String} {v : Option Val} {r : Dict String Val × List String} :
    (attempt key v r).2 = [] ↔ (∃ x, v = some x) ∧ r.2 = [] := by
  cases v with
  | none => simp [attempt]
  | some x => simp [attempt]

theorem attempt_some (key : String) (x : Val) (r : Dict String Val × List String) :
    attempt key (some x) r = (r.1.set key x, r.2) := rfl

theorem parseBool_some {S : Str} (hS : S.Lawful) {f : Form} {b : Bool} :
    parseBool S (S.lower (text S f.coalesce)) = some b ↔
      (S.lower (text S f.coalesce) ∈ ["1", "true", "yes", "on"] ∧ b = true) ∨
      (S.lower (text S f.coalesce) ∈ ["0", "false", "no", "off"] ∧ b = false) := by
  have e : S.lower (S.strip (S.lower (text S f.coalesce))) = S.lower (text S f.coalesce) := by
    unfold text
    rw [hS.strip_lower, hS.lower_lower]
  unfold parseBool
  simp only [e]
  generalize S.lower (text S f.coalesce) = x
  by_cases h1 : x ∈ ["1", "true", "yes", "on"]
  · rw [if_pos h1]
    have h2 : x ∉ ["0", "false", "no", "off"] := by
      simp only [List.mem_cons, List.not_mem_nil, or_false] at h1 ⊢
      rcases h1 with rfl | rfl | rfl | rfl <;> decide
    constructor
    · intro h; injection h with h; exact .inl ⟨h1, h.symm⟩
    · rintro (⟨_, rfl⟩ | ⟨h, _⟩)
      · rfl
      · exact absurd h h2
  · rw [if_neg h1]
    by_cases h2 : x ∈ ["0", "false", "no", "off"]
    · rw [if_pos h2]
      constructor
      · intro h; injection h with h; exact .inr ⟨h2, h.symm⟩
      · rintro (⟨h, _⟩ | ⟨_, rfl⟩)
        · exact absurd h h1
        · rfl
    · rw [if_neg h2]
      constructor
      · intro h; cases h
      · rintro (⟨h, _⟩ | ⟨h, _⟩)
        · exact absurd h h1
        · exact absurd h h2

theorem parseGrace_some {L : Lib} {v : String} {x : Val} (hv : v ≠ "") : parseGrace L v = some x ↔
    ∃ m, L.float v = some m ∧ 0 < m ∧ ((∃ n, m = n * 1000000 ∧ x = .int n) ∨ ((∀ n, m ≠ n * 1000000) ∧ x = .float m)) := by
  unfold parseGrace
  rw [if_neg hv]
  cases L.float v with
  | none => simp
  | some m =>
    simp only [Option.bind_some, Option.some.injEq]
    by_cases h1 : m ≤ 0
    · rw [if_pos h1]
      constructor
      · intro h; cases h
      · rintro ⟨m', rfl, h, _⟩; omega
    · rw [if_neg h1]
      by_cases h2 : m % 1000000 = 0
      · rw [if_pos h2]
        constructor
        · intro h; injection h with h; exact ⟨m, rfl, by omega, .inl ⟨m / 1000000, by omega, h.symm⟩⟩
        · rintro ⟨m', rfl, _, ⟨n, h, rfl⟩ | ⟨h, _⟩⟩
          · rw [show m / 1000000 = n by omega]
          · exact absurd (show m = m / 1000000 * 1000000 by omega) (h _)
      · rw [if_neg h2]
        constructor
        · intro h; injection h with h; exact ⟨m, rfl, by omega, .inr ⟨fun n hn => by omega, h.symm⟩⟩
        · rintro ⟨m', rfl, _, ⟨n, h, rfl⟩ | ⟨h, rfl⟩⟩
          · omega
          · rfl

/-- the updates that a valid form makes -/
def made (name : Option Val) (executor args kwargs coalesce maxInst grace : Val) : Dict String Val :=
  ((((((Cli.addOpt "name" name []).set "executor" executor).set "args" args).set "kwargs" kwargs).set "coalesce" coalesce).set
    "max_instances" maxInst).set "mistrigger_grace_time" grace

theorem made_wf (name : Option Val) (executor args kwargs coalesce maxInst grace : Val) :
    (made name executor args kwargs coalesce maxInst grace).WF :=
  Dict.WF.set (Dict.WF.set (Dict.WF.set (Dict.WF.set (Dict.WF.set (Dict.WF.set (Cli.addOpt_wf Dict.WF.nil) _ _) _ _) _ _) _ _) _ _) _ _

theorem made_get (name : Option Val) (executor args kwargs coalesce maxInst grace : Val) (k : String) :
    (made name executor args kwargs coalesce maxInst grace).get? k =
      if k = "mistrigger_grace_time" then some grace else if k = "max_instances" then some maxInst
      else if k = "coalesce" then some coalesce else if k = "kwargs" then some kwargs else if k = "args" then some args
      else if k = "executor" then some executor else if k = "name" then name else none := by
  unfold made
  simp only [Dict.get?_set, Cli.addOpt_get?, Dict.get?]
  cases name <;> rfl

/-- how a form without errors is read -/
theorem parse_nil {S : Str} {L : Lib} {f : Form} {t : Attrs} : (parseEdit S L f t).2.2 = [] ↔
    (nameStage S f t ([], [])).2 = [] ∧ (fnStage S f t).2 = [] ∧ text S f.executor ≠ "" ∧
    ∃ args kwargs coalesce maxInst grace, parseList L (text S f.args) = some args ∧ parseObject L (text S f.kwargs) = some kwargs ∧
      (parseBool S (S.lower (text S f.coalesce))).map Val.bool = some coalesce ∧
      parsePositive S (text S f.maxInstances) = some maxInst ∧ graceOf S L f = some grace := by
  unfold parseEdit
  simp only [attempt_nil]
  have e : S.strip (text S f.executor) = text S f.executor := strip_strip S _
  have hx : ∀ r, (executorStage S f r).2 = [] ↔ text S f.executor ≠ "" ∧ r.2 = [] := by
    intro r
    unfold executorStage
    simp only [e]
    by_cases h : text S f.executor = ""
    · rw [if_neg (fun hh => hh h)]; simp [h]
    · rw [if_pos h]; simp [h]
  rw [hx]
  simp only [List.append_eq_nil_iff]
  constructor
  · rintro ⟨⟨g, hg⟩, ⟨m, hm⟩, ⟨c, hc⟩, ⟨k, hk⟩, ⟨a, ha⟩, h1, h2, h3⟩
    exact ⟨h2, h3, h1, a, k, c, m, g, ha, hk, hc, hm, hg⟩
  · rintro ⟨h2, h3, h1, a, k, c, m, g, ha, hk, hc, hm, hg⟩
    exact ⟨⟨g, hg⟩, ⟨m, hm⟩, ⟨c, hc⟩, ⟨k, hk⟩, ⟨a, ha⟩, h1, h2, h3⟩

/-- the name in the updates -/
def nameVal (S : Str) (f : Form) : Option Val := if text S f.name ≠ "" then some (.str (text S f.name)) else none

theorem nameStage_eq {S : Str} {f : Form} {t : Attrs} (h : (nameStage S f t ([], [])).2 = []) :
    (nameStage S f t ([], [])).1 = Cli.addOpt "name" (nameVal S f) [] ∧
    (text S f.name = "" → (t .name).truthy = false ∨ f.name = none) := by
  have e : S.strip (text S f.name) = text S f.name := strip_strip S _
  unfold nameStage at h ⊢
  unfold nameVal
  simp only [e] at h ⊢
  by_cases h1 : text S f.name = ""
  · have h1' : ¬ text S f.name ≠ "" := fun hh => hh h1
    simp only [if_neg h1'] at h ⊢
    by_cases h2 : ((t .name).truthy && f.name.isSome) = true
    · rw [if_pos h2] at h; simp at h
    · rw [if_neg h2]
      refine ⟨rfl, fun _ => ?_⟩
      cases h3 : (t .name).truthy
      · exact .inl rfl
      · right
        rw [h3] at h2
        cases hf : f.name with
        | none => rfl
        | some x => rw [hf] at h2; exact absurd rfl h2
  · rw [if_pos h1, if_pos h1]
    exact ⟨rfl, fun h => absurd h h1⟩

theorem executorStage_some {S : Str} {f : Form} (h : text S f.executor ≠ "") (r : Dict String Val × List String) :
    executorStage S f r = (r.1.set "executor" (.str (text S f.executor)), r.2) := by
  have e : S.strip (text S f.executor) = text S f.executor := strip_strip S _
  unfold executorStage
  simp only [e]
  exact if_pos h

theorem parse_made {S : Str} {L : Lib} {f : Form} {t : Attrs} {args kwargs coalesce maxInst grace : Val}
    (h1 : (nameStage S f t ([], [])).2 = []) (h3 : text S f.executor ≠ "")
    (ha : parseList L (text S f.args) = some args) (hk : parseObject L (text S f.kwargs) = some kwargs)
    (hc : (parseBool S (S.lower (text S f.coalesce))).map Val.bool = some coalesce)
    (hm : parsePositive S (text S f.maxInstances) = some maxInst) (hg : graceOf S L f = some grace) :
    (parseEdit S L f t).1 = (fnStage S f t).1 ∧
    (parseEdit S L f t).2.1 = made (nameVal S f) (.str (text S f.executor)) args kwargs coalesce maxInst grace := by
  refine ⟨by simp only [parseEdit], ?_⟩
  unfold parseEdit made
  simp only [ha, hk, hc, hm, hg, attempt_some, executorStage_some h3, (nameStage_eq h1).1]

theorem fnStage_eq {S : Str} {f : Form} {t : Attrs} (h : (fnStage S f t).2 = []) :
    (text S f.callable ≠ "" ∧ (fnStage S f t).1 = .str (text S f.callable)) ∨
    (text S f.callable = "" ∧ (fnStage S f t).1 = .none ∧ (t .fnRef).truthy = false) := by
  have e : S.strip (text S f.callable) = text S f.callable := strip_strip S _
  unfold fnStage at h ⊢
  simp only [e] at h ⊢
  by_cases h1 : text S f.callable = ""
  · rw [if_neg (fun hh => hh h1)] at h ⊢
    split at h
    · simp at h
    · rename_i h2
      rw [if_neg h2]
      exact .inr ⟨h1, rfl, by simpa using h2⟩
  · rw [if_pos h1]
    exact .inl ⟨h1, rfl⟩

theorem parse_asks {S : Str} (hS : S.Lawful) {L : Lib} {f : Form} {t : Attrs} (h : (parseEdit S L f t).2.2 = []) :
    Asks S L f t (parseEdit S L f t).1 (parseEdit S L f t).2.1.get? ∧ (parseEdit S L f t).2.1.WF := by
  obtain ⟨h1, h2, h3, args, kwargs, coalesce, maxInst, grace, ha, hk, hc, hm, hg⟩ := parse_nil.1 h
  obtain ⟨e1, e2⟩ := parse_made h1 h3 ha hk hc hm hg
  rw [e1, e2]
  refine ⟨⟨?_, fnStage_eq h2, ?_, ?_, ?_, ?_, ?_, ?_, ?_⟩, made_wf _ _ _ _ _ _ _⟩
  · rw [made_get]
    simp only [String.reduceEq, if_true, if_false]
    unfold nameVal
    by_cases hn : text S f.name = ""
    · rw [if_neg (fun hh => hh hn)]; exact .inr ⟨hn, rfl, (nameStage_eq h1).2 hn⟩
    · rw [if_pos hn]; exact .inl ⟨hn, rfl⟩
  · rw [made_get]
    simp only [String.reduceEq, if_true, if_false]
    exact ⟨h3, trivial⟩
  · rw [made_get]
    simp only [String.reduceEq, if_true, if_false]
    unfold parseList at ha
    obtain ⟨xs, hx, hy⟩ := Option.map_eq_some_iff.1 ha
    exact ⟨xs, hx, by rw [← hy]⟩
  · rw [made_get]
    simp only [String.reduceEq, if_true, if_false]
    unfold parseObject at hk
    obtain ⟨xs, hx, hy⟩ := Option.map_eq_some_iff.1 hk
    exact ⟨xs, hx, by rw [← hy]⟩
  · rw [made_get]
    simp only [String.reduceEq, if_true, if_false]
    obtain ⟨b, hb, hy⟩ := Option.map_eq_some_iff.1 hc
    rcases (parseBool_some hS).1 hb with ⟨hb', rfl⟩ | ⟨hb', rfl⟩
    · exact .inl ⟨hb', by rw [← hy]⟩
    · exact .inr ⟨hb', by rw [← hy]⟩
  · rw [made_get]
    simp only [String.reduceEq, if_true, if_false]
    unfold parsePositive at hm
    obtain ⟨n, hn, hy⟩ := Option.bind_eq_some_iff.1 hm
    split at hy
    · cases hy
    · injection hy with hy
      exact ⟨n, hn, by omega, by rw [← hy]⟩
  · rw [made_get]
    simp only [if_true]
    unfold graceOf at hg
    split at hg
    · rename_i hc'
      injection hg with hg
      exact .inl ⟨.inl hc', by rw [← hg]⟩
    · rename_i hc'
      by_cases hn : text S f.grace = ""
      · rw [hn] at hg
        injection hg with hg
        exact .inl ⟨.inr hn, by rw [← hg]⟩
      · obtain ⟨m, q1, q2, q3⟩ := (parseGrace_some hn).1 hg
        refine .inr ⟨by simpa using hc', hn, m, q1, q2, ?_⟩
        rcases q3 with ⟨n, q3, rfl⟩ | ⟨q3, rfl⟩
        · exact .inl ⟨n, q3, rfl⟩
        · exact .inr ⟨q3, rfl⟩
  · intro k hk'
    simp only [List.mem_cons, List.not_mem_nil, or_false, not_or] at hk'
    rw [made_get]
    simp [hk']

theorem asks_parse {S : Str} (hS : S.Lawful) {L : Lib} {f : Form} {t : Attrs} {fn : Val} {u : String → Option Val}
    (h : Asks S L f t fn u) : (parseEdit S L f t).2.2 = [] := by
  rw [parse_nil]
  obtain ⟨xs, hx, _⟩ := h.args
  obtain ⟨kv, hkv, _⟩ := h.kwargs
  obtain ⟨n, hn, hn0, _⟩ := h.maxInst
  refine ⟨?_, ?_, h.executor.1, .seq xs, .map kv, ?_⟩
  · have e : S.strip (text S f.name) = text S f.name := strip_strip S _
    unfold nameStage
    simp only [e]
    rcases h.name with ⟨h1, _⟩ | ⟨h1, _, h2⟩
    · rw [if_pos h1]
    · rw [if_neg (fun hh => hh h1)]
      rcases h2 with h2 | h2 <;> simp [h2]
  · have e : S.strip (text S f.callable) = text S f.callable := strip_strip S _
    unfold fnStage
    simp only [e]
    rcases h.fn with ⟨h1, _⟩ | ⟨h1, _, h2⟩
    · rw [if_pos h1]
    · rw [if_neg (fun hh => hh h1)]; simp [h2]
  · have hc : ∃ b, parseBool S (S.lower (text S f.coalesce)) = some b := by
      rcases h.coalesce with ⟨h1, _⟩ | ⟨h1, _⟩
      · exact ⟨true, (parseBool_some hS).2 (.inl ⟨h1, rfl⟩)⟩
      · exact ⟨false, (parseBool_some hS).2 (.inr ⟨h1, rfl⟩)⟩
    obtain ⟨b, hb⟩ := hc
    have hg : ∃ g, graceOf S L f = some g := by
      unfold graceOf
      rcases h.grace with ⟨h1 | h1, _⟩ | ⟨h1, h2, m, h3, h4, h5⟩
      · exact ⟨.none, by rw [if_pos h1]⟩
      · rw [h1]
        split
        · exact ⟨_, rfl⟩
        · exact ⟨.none, rfl⟩
      · rw [h1]
        rcases h5 with ⟨n, h5, _⟩ | ⟨h5, _⟩
        · exact ⟨.int n, (parseGrace_some h2).2 ⟨m, h3, h4, .inl ⟨n, h5, rfl⟩⟩⟩
        · exact ⟨.float m, (parseGrace_some h2).2 ⟨m, h3, h4, .inr ⟨h5, rfl⟩⟩⟩
    obtain ⟨g, hg⟩ := hg
    refine ⟨.bool b, .int n, g, ?_, ?_, ?_, ?_, hg⟩
    · unfold parseList orText; rw [hx]; rfl
    · unfold parseObject orText; rw [hkv]; rfl
    · rw [hb]; rfl
    · unfold parsePositive; rw [hn]; simp; omega

/-- a form asks for one thing only -/
theorem asks_unique {S : Str} {L : Lib} {f : Form} {t : Attrs} {fn fn' : Val} {u u' : String → Option Val}
    (h : Asks S L f t fn u) (h' : Asks S L f t fn' u') : fn = fn' ∧ u = u' := by
  constructor
  · rcases h.fn with ⟨a, b⟩ | ⟨a, b, _⟩ <;> rcases h'.fn with ⟨a', b'⟩ | ⟨a', b', _⟩
    · rw [b, b']
    · exact absurd a' a
    · exact absurd a a'
    · rw [b, b']
  · funext k
    by_cases hk : k ∈ ["name", "executor", "args", "kwargs", "coalesce", "max_instances", "mistrigger_grace_time"]
    · simp only [List.mem_cons, List.not_mem_nil, or_false] at hk
      rcases hk with rfl | rfl | rfl | rfl | rfl | rfl | rfl
      · rcases h.name with ⟨a, b⟩ | ⟨a, b, _⟩ <;> rcases h'.name with ⟨a', b'⟩ | ⟨a', b', _⟩
        · rw [b, b']
        · exact absurd a' a
        · exact absurd a a'
        · rw [b, b']
      · rw [h.executor.2, h'.executor.2]
      · obtain ⟨x, a, b⟩ := h.args
        obtain ⟨x', a', b'⟩ := h'.args
        rw [a] at a'; injection a' with a'
        rw [b, b', a']
      · obtain ⟨x, a, b⟩ := h.kwargs
        obtain ⟨x', a', b'⟩ := h'.kwargs
        rw [a] at a'; injection a' with a'
        rw [b, b', a']
      · have key : ∀ x : String, x ∈ ["1", "true", "yes", "on"] → x ∉ ["0", "false", "no", "off"] := by
          intro x hx
          simp only [List.mem_cons, List.not_mem_nil, or_false] at hx
          rcases hx with rfl | rfl | rfl | rfl <;> decide
        rcases h.coalesce with ⟨a, b⟩ | ⟨a, b⟩ <;> rcases h'.coalesce with ⟨a', b'⟩ | ⟨a', b'⟩
        · rw [b, b']
        · exact absurd a' (key _ a)
        · exact absurd a (key _ a')
        · rw [b, b']
      · obtain ⟨x, a, _, b⟩ := h.maxInst
        obtain ⟨x', a', _, b'⟩ := h'.maxInst
        rw [a] at a'; injection a' with a'
        rw [b, b', a']
      · rcases h.grace with ⟨a, b⟩ | ⟨a1, a2, m, a3, a4, a5⟩ <;> rcases h'.grace with ⟨a', b'⟩ | ⟨a1', a2', m', a3', a4', a5'⟩
        · rw [b, b']
        · rcases a with a | a
          · rw [a1'] at a; cases a
          · exact absurd a a2'
        · rcases a' with a' | a'
          · rw [a1] at a'; cases a'
          · exact absurd a' a2
        · rw [a3] at a3'; injection a3' with a3'
          subst a3'
          rcases a5 with ⟨n, c, d⟩ | ⟨c, d⟩ <;> rcases a5' with ⟨n', c', d'⟩ | ⟨c', d'⟩
          · rw [d, d', show n = n' by omega]
          · exact absurd c (c' n)
          · exact absurd c' (c n')
          · rw [d, d']
    · rw [h.rest k hk, h'.rest k hk]

theorem diff_differences (t t' : Attrs) : Differences t t' (Cli.diff t t') := fun _ _ _ => Cli.mem_diff

theorem post_eq (S : Str) (L : Lib) (py : Py) (sched : Val) (f : Form) (t : Attrs) :
    post S L py sched f (some t) =
      if (parseEdit S L f t).2.2 ≠ [] then (some t, ["failed"], .invalid (parseEdit S L f t).2.2)
      else match update py t (parseEdit S L f t).1 sched (parseEdit S L f t).2.1 with
        | (_, some e) => (some t, ["failed"], .rejected e)
        | (t', none) =>
          if S.lower (S.strip (f.intent.getD "preview")) ≠ "apply" ∨ Cli.diff t t' = [] then (some t, [], .preview (Cli.diff t t'))
          else (some t', ["succeeded"], .applied (Cli.diff t t')) := by
  unfold post
  simp only []
  split
  · rfl
  · cases hu : update py t (parseEdit S L f t).1 sched (parseEdit S L f t).2.1 with
    | mk t' e =>
      cases e with
      | some e => rfl
      | none =>
        simp only []

theorem mem_attempt {key : String} {v : Option Val} {r : Dict String Val × List String} {x : String} :
    x ∈ (attempt key v r).2 ↔ (v = none ∧ x = key) ∨ x ∈ r.2 := by
  cases v with
  | none => simp [attempt, or_comm]
  | some v => simp [attempt]

theorem mem_name {S : Str} {f : Form} {t : Attrs} {x : String} :
    x ∈ (nameStage S f t ([], [])).2 ↔ text S f.name = "" ∧ (t .name).truthy = true ∧ f.name ≠ none ∧ x = "name" := by
  have e : S.strip (text S f.name) = text S f.name := strip_strip S _
  unfold nameStage
  simp only [e]
  by_cases h1 : text S f.name = ""
  · have h1' : ¬ text S f.name ≠ "" := fun hh => hh h1
    simp only [if_neg h1']
    cases h2 : (t .name).truthy <;> cases h3 : f.name <;> simp_all
  · rw [if_pos h1]; simp [h1]

theorem mem_fn {S : Str} {f : Form} {t : Attrs} {x : String} :
    x ∈ (fnStage S f t).2 ↔ text S f.callable = "" ∧ (t .fnRef).truthy = true ∧ x = "callable" := by
  have e : S.strip (text S f.callable) = text S f.callable := strip_strip S _
  unfold fnStage
  simp only [e]
  by_cases h1 : text S f.callable = ""
  · have h1' : ¬ text S f.callable ≠ "" := fun hh => hh h1
    simp only [if_neg h1']
    cases h2 : (t .fnRef).truthy <;> simp [h1]
  · rw [if_pos h1]; simp [h1]

theorem mem_executor {S : Str} {f : Form} {r : Dict String Val × List String} {x : String} :
    x ∈ (executorStage S f r).2 ↔ (text S f.executor = "" ∧ x = "executor") ∨ x ∈ r.2 := by
  by_cases h1 : text S f.executor = ""
  · have e : S.strip (text S f.executor) = text S f.executor := strip_strip S _
    unfold executorStage
    simp only [e]
    rw [if_neg (fun hh => hh h1)]; simp [h1, or_comm]
  · rw [executorStage_some h1]; simp [h1]

/-- the reported fields are exactly the invalid ones -/
theorem mem_errors {S : Str} (hS : S.Lawful) {L : Lib} {f : Form} {t : Attrs} {x : String} :
    x ∈ (parseEdit S L f t).2.2 ↔ Invalid S L f t x := by
  unfold parseEdit
  simp only [mem_attempt, mem_executor, List.mem_append, mem_name, mem_fn]
  have hl : parseList L (text S f.args) = none ↔ L.list (if text S f.args = "" then "[]" else text S f.args) = none := by
    unfold parseList orText
    exact Option.map_eq_none_iff
  have ho : parseObject L (text S f.kwargs) = none ↔ L.object (if text S f.kwargs = "" then "{}" else text S f.kwargs) = none := by
    unfold parseObject orText
    exact Option.map_eq_none_iff
  have hb : (parseBool S (S.lower (text S f.coalesce))).map Val.bool = none ↔
      S.lower (text S f.coalesce) ∉ ["1", "true", "yes", "on", "0", "false", "no", "off"] := by
    rw [Option.map_eq_none_iff]
    have h1 := @parseBool_some S hS f true
    have h2 := @parseBool_some S hS f false
    simp only [and_true, Bool.true_eq_false, and_false, or_false, Bool.false_eq_true, false_or] at h1 h2
    have h3 : S.lower (text S f.coalesce) ∈ ["1", "true", "yes", "on", "0", "false", "no", "off"] ↔
        S.lower (text S f.coalesce) ∈ ["1", "true", "yes", "on"] ∨ S.lower (text S f.coalesce) ∈ ["0", "false", "no", "off"] := by
      rw [← List.mem_append]; rfl
    rw [h3, ← h1, ← h2]
    cases hp : parseBool S (S.lower (text S f.coalesce)) with
    | none => simp
    | some b => cases b <;> simp
  have hm : parsePositive S (text S f.maxInstances) = none ↔ ∀ n, S.int (text S f.maxInstances) = some n → n ≤ 0 := by
    unfold parsePositive
    cases S.int (text S f.maxInstances) with
    | none => simp
    | some n =>
      simp only [Option.bind_some, Option.some.injEq, forall_eq']
      split <;> simp_all
  have hg : graceOf S L f = none ↔ f.clearGrace = false ∧ text S f.grace ≠ "" ∧ ∀ m, L.float (text S f.grace) = some m → m ≤ 0 := by
    unfold graceOf
    cases f.clearGrace with
    | true => simp
    | false =>
      simp only [Bool.false_eq_true, if_false, true_and]
      by_cases h0 : text S f.grace = ""
      · simp [h0, parseGrace]
      · unfold parseGrace
        rw [if_neg h0]
        cases L.float (text S f.grace) with
        | none => simp [h0]
        | some m =>
          simp only [Option.bind_some, Option.some.injEq, forall_eq']
          by_cases h1 : m ≤ 0
          · simp [h0, h1]
          · rw [if_neg h1]
            constructor
            · intro h; split at h <;> cases h
            · rintro ⟨_, h⟩; exact absurd h h1
  rw [hl, ho, hb, hm, hg]
  constructor
  · rintro (⟨⟨a, b, c⟩, rfl⟩ | ⟨a, rfl⟩ | ⟨a, rfl⟩ | ⟨a, rfl⟩ | ⟨a, rfl⟩ | ⟨a, rfl⟩ | ⟨a, b, c, rfl⟩ | ⟨a, b, rfl⟩)
    · exact .grace a b c
    · exact .maxInst a
    · exact .coalesce a
    · exact .kwargs a
    · exact .args a
    · exact .executor a
    · exact .name a b c
    · exact .callable a b
  · intro h
    cases h with
    | name a b c => exact .inr (.inr (.inr (.inr (.inr (.inr (.inl ⟨a, b, c, rfl⟩))))))
    | callable a b => exact .inr (.inr (.inr (.inr (.inr (.inr (.inr ⟨a, b, rfl⟩))))))
    | executor a => exact .inr (.inr (.inr (.inr (.inr (.inl ⟨a, rfl⟩)))))
    | args a => exact .inr (.inr (.inr (.inr (.inl ⟨a, rfl⟩))))
    | kwargs a => exact .inr (.inr (.inr (.inl ⟨a, rfl⟩)))
    | coalesce a => exact .inr (.inr (.inl ⟨a, rfl⟩))
    | maxInst a => exact .inr (.inl ⟨a, rfl⟩)
    | grace a b c => exact .inl ⟨⟨a, b, c⟩, rfl⟩

/-- A form asks for something exactly if no field is invalid. -/
theorem asks_iff {S : Str} (hS : S.Lawful) {L : Lib} {f : Form} {t : Attrs} :
    (∃ fn u, Asks S L f t fn u) ↔ ∀ x, ¬ Invalid S L f t x := by
  constructor
  · rintro ⟨fn, u, h⟩ x hx
    have := asks_parse hS h
    rw [← mem_errors hS, this] at hx
    cases hx
  · intro h
    have : (parseEdit S L f t).2.2 = [] := List.eq_nil_iff_forall_not_mem.2 fun x hx => h x ((mem_errors hS).1 hx)
    exact ⟨_, _, (parse_asks hS this).1⟩

/-- **C71.** A form with an invalid field changes nothing, is reported with exactly the invalid fields and audited as failed. -/
theorem C71_invalid {S : Str} (hS : S.Lawful) (L : Lib) (py : Py) (sched : Val) (f : Form) (t : Attrs)
    (h : ¬ ∃ fn u, Asks S L f t fn u) :
    ∃ fields, fields ≠ [] ∧ (∀ x, x ∈ fields ↔ Invalid S L f t x) ∧ post S L py sched f (some t) = (some t, ["failed"], .invalid fields) := by
  have hn : (parseEdit S L f t).2.2 ≠ [] := fun he => h ⟨_, _, (parse_asks hS he).1⟩
  exact ⟨_, hn, fun x => mem_errors hS, by rw [post_eq, if_pos hn]⟩

/-- **C71.** Nor does a valid form whose values `update_task` does not accept. -/
theorem C71_rejected {S : Str} (hS : S.Lawful) (L : Lib) (py : Py) (sched : Val) (f : Form) (t : Attrs) {fn : Val}
    {u : String → Option Val} (h : Asks S L f t fn u) (ha : ¬ Accepts py t fn sched u) :
    ∃ e, post S L py sched f (some t) = (some t, ["failed"], .rejected e) := by
  have hn := asks_parse hS h
  obtain ⟨hp, hw⟩ := parse_asks hS hn
  obtain ⟨e1, e2⟩ := asks_unique h hp
  rw [e1, e2] at ha
  obtain ⟨h1, h2⟩ := (C25_update_task py t (parseEdit S L f t).1 sched (parseEdit S L f t).2.1 hw).2 ha
  rw [post_eq, if_neg (fun hh => hh hn)]
  cases hu : update py t (parseEdit S L f t).1 sched (parseEdit S L f t).2.1 with
  | mk t' e =>
    rw [hu] at h1
    cases e with
    | none => cases h1
    | some e => exact ⟨e, rfl⟩

/-- **C71.** A valid form whose values are accepted: the page shows exactly the differences that applying it makes.  It is
applied exactly if that was asked for and there is a difference; then the task becomes exactly what was asked for and the
audit log says so, and otherwise nothing changes and nothing is logged. -/
theorem C71_accepted {S : Str} (hS : S.Lawful) (L : Lib) (py : Py) (sched : Val) (f : Form) (t : Attrs) {fn : Val}
    {u : String → Option Val} (h : Asks S L f t fn u) (ha : Accepts py t fn sched u) :
    ∃ t' d, Effect py t fn sched u t' ∧ Differences t t' d ∧
      (S.lower (S.strip (f.intent.getD "preview")) = "apply" → d ≠ [] →
        post S L py sched f (some t) = (some t', ["succeeded"], .applied d)) ∧
      (S.lower (S.strip (f.intent.getD "preview")) ≠ "apply" ∨ d = [] →
        post S L py sched f (some t) = (some t, [], .preview d)) := by
  have hn := asks_parse hS h
  obtain ⟨hp, hw⟩ := parse_asks hS hn
  obtain ⟨e1, e2⟩ := asks_unique h hp
  rw [e1, e2] at ha
  obtain ⟨h1, h2⟩ := (C25_update_task py t (parseEdit S L f t).1 sched (parseEdit S L f t).2.1 hw).1 ha
  rw [post_eq, if_neg (fun hh => hh hn)]
  cases hu : update py t (parseEdit S L f t).1 sched (parseEdit S L f t).2.1 with
  | mk t' e =>
    rw [hu] at h1 h2
    cases h1
    refine ⟨t', Cli.diff t t', by rw [e1, e2]; exact h2, diff_differences t t', ?_, ?_⟩
    · intro hi hd
      simp only []
      rw [if_neg (by simp [hi, hd])]
    · intro hi
      simp only []
      rw [if_pos hi]

/-- **C71.** No task, no change; the attempt is audited as failed. -/
theorem C71_not_found (S : Str) (L : Lib) (py : Py) (sched : Val) (f : Form) :
    post S L py sched f none = (none, ["failed"], .notFound) := rfl

theorem text_plain {S : Str} {v : Val} {s : String} (h : Plain S v s) (d : String) : text S (some (textOr v d)) = s := by
  obtain ⟨rfl, h1, h2⟩ := h
  have e : textOr (.str s) d = s := if_neg h1
  unfold text
  rw [e, Option.getD_some, h2]

theorem strip_empty (S : Str) : S.strip "" = "" := by simp [Str.strip, trim, Cron.trimLeft, Cron.trimRight]

/-- **C71.** Sending the form back as it was shown changes nothing, whether as preview or to apply: there is no
difference. -/
theorem C71_unchanged {S : Str} (hS : S.Lawful) (htrue : S.strip "true" = "true" ∧ S.lower "true" = "true" ∧ S.strip "false" = "false" ∧ S.lower "false" = "false")
    {L : Lib} {W : Show} (py : Py) {sched : Val} {t : Attrs} (ht : Showable S py sched t)
    (hW : W.Readable S L t) (intent : String) : post S L py sched (formOf W t intent) (some t) = (some t, [], .preview []) := by
  obtain ⟨name, hname⟩ := ht.name
  obtain ⟨ref, c, href, hres, hfn, hargs⟩ := ht.fn
  obtain ⟨ex, hex⟩ := ht.executor
  obtain ⟨xs, hxs⟩ := ht.args
  obtain ⟨kv, hkv⟩ := ht.kwargs
  obtain ⟨b, hb⟩ := ht.coalesce
  obtain ⟨n, hn0, hn⟩ := ht.maxInst
  obtain ⟨l1, l2, l3⟩ := hW.list xs hxs
  obtain ⟨o1, o2, o3⟩ := hW.object kv hkv
  obtain ⟨i1, i3⟩ := hW.int n hn
  have tn : text S (formOf W t intent).name = name := text_plain hname ""
  have tc : text S (formOf W t intent).callable = ref := text_plain href ""
  have te : text S (formOf W t intent).executor = ex := text_plain hex "default"
  have ta : text S (formOf W t intent).args = W.list xs := by
    show S.strip (match t .args with | .seq xs => W.list xs | _ => "") = _
    rw [hxs]; exact l2
  have tk : text S (formOf W t intent).kwargs = W.object kv := by
    show S.strip (match t .kwargs with | .map kv => W.object kv | _ => "") = _
    rw [hkv]; exact o2
  have tb : S.lower (text S (formOf W t intent).coalesce) = if b then "true" else "false" := by
    show S.lower (S.strip (if (t .coalesce).truthy then "true" else "false")) = _
    rw [hb]
    cases b
    · show S.lower (S.strip "false") = "false"
      rw [htrue.2.2.1, htrue.2.2.2]
    · show S.lower (S.strip "true") = "true"
      rw [htrue.1, htrue.2.1]
  have tm : text S (formOf W t intent).maxInstances = W.int n := by
    show S.strip (W.num (t .maxInst)) = _
    rw [hn]; exact i3
  have tg : text S (formOf W t intent).grace = W.num (t .grace) := by
    show S.strip (W.num (t .grace)) = _
    rcases ht.grace with h | ⟨m, hm, h⟩ | ⟨m, hm, _, h⟩
    · rw [h]; exact strip_empty S
    · rw [h]; exact (hW.whole m h).2.1
    · rw [h]; exact (hW.float m h).2.1
  have tcl : (formOf W t intent).clearGrace = decide (t .grace = .none) := rfl
  -- what the form asks for
  let u : String → Option Val := (made (some (.str name)) (.str ex) (.seq xs) (.map kv) (.bool b) (.int n) (t .grace)).get?
  have hu : ∀ k, u k = _ := fun k => made_get (some (.str name)) (.str ex) (.seq xs) (.map kv) (.bool b) (.int n) (t .grace) k
  have hask : Asks S L (formOf W t intent) t (.str ref) u := by
    refine ⟨.inl ⟨by rw [tn]; exact hname.2.1, ?_⟩, .inl ⟨by rw [tc]; exact href.2.1, by rw [tc]⟩,
      ⟨by rw [te]; exact hex.2.1, ?_⟩, ⟨xs, ?_, ?_⟩, ⟨kv, ?_, ?_⟩, ?_, ⟨n, by rw [tm]; exact i1, hn0, ?_⟩, ?_, ?_⟩
    · rw [hu, tn]; simp only [String.reduceEq, if_true, if_false]
    · rw [hu, te]; simp only [String.reduceEq, if_true, if_false]
    · rw [ta, if_neg l3]; exact l1
    · rw [hu]; simp only [String.reduceEq, if_true, if_false]
    · rw [tk, if_neg o3]; exact o1
    · rw [hu]; simp only [String.reduceEq, if_true, if_false]
    · rw [hu, tb]; simp only [String.reduceEq, if_true, if_false]
      cases b
      · exact .inr ⟨by decide, rfl⟩
      · exact .inl ⟨by decide, rfl⟩
    · rw [hu]; simp only [String.reduceEq, if_true, if_false]
    · rw [hu, tg, tcl]; simp only [if_true]
      rcases ht.grace with h | ⟨m, hm, h⟩ | ⟨m, hm, hd, h⟩
      · rw [h]; exact .inl ⟨.inl rfl, rfl⟩
      · obtain ⟨j2, _, j4⟩ := hW.whole m h
        rw [h]
        exact .inr ⟨rfl, j4, m * 1000000, j2, by omega, .inl ⟨m, rfl, rfl⟩⟩
      · obtain ⟨j1, _, j3⟩ := hW.float m h
        rw [h]
        exact .inr ⟨rfl, j3, m, j1, hm, .inr ⟨hd, rfl⟩⟩
    · intro k hk
      simp only [List.mem_cons, List.not_mem_nil, or_false, not_or] at hk
      rw [hu]; simp [hk]
  have uname : u "name" = some (.str name) := by rw [hu]; simp only [String.reduceEq, if_true, if_false]
  have uargs : u "args" = some (.seq xs) := by rw [hu]; simp only [String.reduceEq, if_true, if_false]
  have ukw : u "kwargs" = some (.map kv) := by rw [hu]; simp only [String.reduceEq, if_true, if_false]
  have uex : u "executor" = some (.str ex) := by rw [hu]; simp only [String.reduceEq, if_true, if_false]
  have uco : u "coalesce" = some (.bool b) := by rw [hu]; simp only [String.reduceEq, if_true, if_false]
  have umi : u "max_instances" = some (.int n) := by rw [hu]; simp only [String.reduceEq, if_true, if_false]
  have ugr : u "mistrigger_grace_time" = some (t .grace) := by rw [hu]; simp only [if_true]
  have uno : ∀ k, k ∉ ["name", "executor", "args", "kwargs", "coalesce", "max_instances", "mistrigger_grace_time"] → u k = none :=
    hask.rest
  have hch : chosen t (.str ref) = .str ref := by
    unfold chosen
    rw [if_pos (by simp [Val.truthy, href.2.1])]
  have hacc : Accepts py t (.str ref) sched u := by
    refine ⟨fun _ => ht.sched, uno _ (by decide), fun _ => ⟨.callable c, .str ref, ?_, ?_, ?_, ?_⟩, ?_, ?_, ?_, ?_, ?_, ?_, ?_, ?_⟩
    · rw [hch]; exact .ref hres
    · rw [uargs]; rfl
    · rw [ukw]; rfl
    · intro c' hc'
      injection hc' with hc'
      subst hc'
      rw [uargs, ukw, Option.getD_some, Option.getD_some, ← hxs, ← hkv]
      refine ⟨hargs, fun hno => ?_⟩
      rcases hno.2 with h | h <;> rw [uname] at h <;> cases h
    · intro v hv
      rw [uname] at hv; injection hv with hv
      exact .inr ⟨name, hname.2.1, hv.symm⟩
    · intro v hv
      rw [ugr] at hv; injection hv with hv
      subst hv
      rcases ht.grace with h | ⟨m, hm, h⟩ | ⟨m, hm, _, h⟩
      · exact .inl h
      · exact .inr (.inr (.inl ⟨m, hm, h⟩))
      · exact .inr (.inr (.inr ⟨m, hm, h⟩))
    · intro v hv
      rw [uno _ (by decide)] at hv; cases hv
    · intro v hv
      rw [umi] at hv; injection hv with hv
      exact .inr ⟨n, hn0, hv.symm⟩
    · intro v hv
      rw [uno _ (by decide)] at hv; cases hv
    · intro v hv
      rw [uex] at hv; injection hv with hv
      exact ⟨ex, hv.symm⟩
    · intro v hv
      rw [uno _ (by decide)] at hv; cases hv
    · intro k hk
      by_cases hk' : k ∈ ["name", "executor", "args", "kwargs", "coalesce", "max_instances", "mistrigger_grace_time"]
      · simp only [List.mem_cons, List.not_mem_nil, or_false] at hk'
        rcases hk' with rfl | rfl | rfl | rfl | rfl | rfl | rfl <;> decide
      · rw [uno k hk'] at hk; cases hk
  obtain ⟨t', d, heff, hdiff, _, hpre⟩ := C71_accepted hS L py sched (formOf W t intent) t hask hacc
  have htouch : Touched (.str ref) u := .inr (.inl (by rw [uargs]; rfl))
  have hsame : ∀ s f, Shown s f → t f = t' f := by
    intro s f hs
    obtain ⟨e1, e2, e3⟩ := heff.fnSet htouch
    unfold Shown at hs
    simp only [List.mem_cons, List.not_mem_nil, or_false, Prod.mk.injEq] at hs
    rcases hs with ⟨_, rfl⟩ | ⟨_, rfl⟩ | ⟨_, rfl⟩ | ⟨_, rfl⟩ | ⟨_, rfl⟩ | ⟨_, rfl⟩ | ⟨_, rfl⟩ | ⟨_, rfl⟩
    · rw [heff.nameGiven name uname, hname.1]
    · rw [heff.executor, uex, hex.1]; rfl
    · rw [hch] at e1
      rw [href.1]
      generalize t' .fnRef = r at e1
      generalize t' .fn = g at e1
      cases e1
      rfl
    · rw [e2, uargs, hxs]; rfl
    · rw [e3, ukw, hkv]; rfl
    · rw [heff.coalesce, uco, hb]; rfl
    · rw [heff.maxInst, umi, hn]; rfl
    · rw [heff.grace, ugr]; rfl
  have hd : d = [] := by
    cases hd : d with
    | nil => rfl
    | cons x xs =>
      obtain ⟨s, b', a⟩ := x
      obtain ⟨f, hs, hne, _⟩ := (hdiff s b' a).1 (by rw [hd]; exact List.mem_cons_self ..)
      exact absurd (hsame s f hs) hne
  rw [hpre (.inr hd), hd]

/-! ## Examples -/

/-- text functions whose `int` can be evaluated for two numbers -/
def exStr : Str := { Pages.exStr with int := fun s => if s = "3" then some 3 else if s = "0" then some 0 else String.toInt? s }

theorem exStr_lawful : exStr.Lawful where
  lower_lower := Pages.exStr_lawful.lower_lower
  strip_lower := Pages.exStr_lawful.strip_lower
  words := Pages.exStr_lawful.words
  ink := Pages.exStr_lawful.ink
  int n := by
    have h : ∀ s, exStr.int s = String.toInt? s := by
      intro s
      show (if s = "3" then some 3 else if s = "0" then some 0 else String.toInt? s) = _
      split
      · rename_i h; subst h; exact (Nat.toInt?_repr 3).symm
      · split
        · rename_i h; subst h; exact (Nat.toInt?_repr 0).symm
        · rfl
    rw [h, h]
    exact Pages.exStr_lawful.int n

def exLib : Lib where
  list s := if s = "[]" then some [] else if s = "[7]" then some [7] else none
  object s := if s = "{}" then some [] else if s = "{\"a\": 8}" then some [("a", 8)] else none
  float s := if s = "2.5" then some 2500000 else if s = "4" then some 4000000 else none

def exShow : Show where
  list xs := if xs = [] then "[]" else "[7]"
  object kv := if kv = [] then "{}" else "{\"a\": 8}"
  int := toString
  float _ := "2.5"

def exPy : Py where
  resolve s := if s = "m:f" then some 1 else if s = "m:g" then some 2 else none
  ref c := if c = 1 then some "m:f" else some "m:g"
  name c := if c = 1 then some "f" else some "g"
  argsOk c a _ := c = 1 || a = .seq []
  toDatetime v := .ok v

def exTask : Attrs
  | .id => .str "t1"
  | .name => .str "nightly"
  | .fn => .callable 1
  | .fnRef => .str "m:f"
  | .args => .seq [7]
  | .kwargs => .map [("a", 8)]
  | .grace => .float 2500000
  | .coalesce => .bool true
  | .storeAlias => .str "default"
  | .maxInst => .int 3
  | .trigger => .trigger 5
  | .executor => .str "default"
  | .nrt => .datetime 100
  | .scheduler => .scheduler 0

/-- the example task can be shown completely -/
theorem exTask_showable : Showable exStr exPy (.scheduler 0) exTask where
  name := ⟨"nightly", rfl, by decide, by decide +kernel⟩
  fn := ⟨"m:f", 1, ⟨rfl, by decide, by decide +kernel⟩, rfl, rfl, rfl⟩
  executor := ⟨"default", rfl, by decide, by decide +kernel⟩
  args := ⟨[7], rfl⟩
  kwargs := ⟨[("a", 8)], rfl⟩
  coalesce := ⟨true, rfl⟩
  maxInst := ⟨3, by decide, rfl⟩
  grace := .inr (.inr ⟨2500000, by decide, fun n => by omega, rfl⟩)
  sched := .inr rfl

theorem exTask_readable : exShow.Readable exStr exLib exTask where
  list xs h := by
    have h : Val.seq [7] = .seq xs := h
    injection h with h; subst h
    decide +kernel
  object kv h := by
    have h : Val.map [("a", 8)] = .map kv := h
    injection h with h; subst h
    decide +kernel
  int n h := by
    have h : Val.int 3 = .int n := h
    injection h with h; subst h
    decide +kernel
  whole n h := by
    have h : Val.float 2500000 = .int n := h
    cases h
  float m h := by
    have h : Val.float 2500000 = .float m := h
    injection h with h; subst h
    decide +kernel

/-- sent back as shown: no difference -/
example : post exStr exLib exPy (.scheduler 0) (formOf exShow exTask " Apply ") (some exTask) = (some exTask, [], .preview []) :=
  C71_unchanged exStr_lawful (by decide +kernel) exPy exTask_showable exTask_readable _

/-- a form that changes name, coalescing and grace time -/
def exForm (intent maxInst callable : String) : Form where
  name := some " weekly "
  callable := some callable
  args := some "[7]"
  kwargs := some "{\"a\": 8}"
  executor := some "default"
  coalesce := some "Off"
  maxInstances := some maxInst
  grace := some "4"
  clearGrace := false
  intent := some intent

/-- shown, applied ... -/
example : (post exStr exLib exPy (.scheduler 0) (exForm "preview" "3" "m:f") (some exTask)).2 =
    ([], .preview [("name", .str "nightly", .str "weekly"), ("coalesce", .bool true, .bool false),
      ("mistrigger_grace_time", .float 2500000, .int 4)]) ∧
    (post exStr exLib exPy (.scheduler 0) (exForm "APPLY" "3" "m:f") (some exTask)).2.1 = ["succeeded"] ∧
    ((post exStr exLib exPy (.scheduler 0) (exForm "APPLY" "3" "m:f") (some exTask)).1.map fun t => (t .name, t .grace, t .maxInst)) =
      some (.str "weekly", .int 4, .int 3) := by decide +kernel

/-- ... invalid, and rejected because the other function does not take the arguments -/
example : (post exStr exLib exPy (.scheduler 0) (exForm "apply" "0" " ") (some exTask)).2 =
      (["failed"], .invalid ["callable", "max_instances"]) ∧
    (post exStr exLib exPy (.scheduler 0) (exForm "apply" "3" "m:g") (some exTask)).2 = (["failed"], .rejected .valueError) := by
  decide +kernel

/-- the hypotheses of `C71_accepted`, `C71_rejected` and `C71_invalid` -/
example : (∃ fn u, Asks exStr exLib (exForm "apply" "3" "m:f") exTask fn u ∧ Accepts exPy exTask fn (.scheduler 0) u) ∧
    (∃ fn u, Asks exStr exLib (exForm "apply" "3" "m:g") exTask fn u ∧ ¬ Accepts exPy exTask fn (.scheduler 0) u) ∧
    ¬ ∃ fn u, Asks exStr exLib (exForm "apply" "0" "m:f") exTask fn u := by
  refine ⟨?_, ?_, ?_⟩
  · obtain ⟨h, hw⟩ := parse_asks (S := exStr) (L := exLib) (f := exForm "apply" "3" "m:f") (t := exTask) exStr_lawful (by decide +kernel)
    refine ⟨_, _, h, Classical.byContradiction fun ha => ?_⟩
    have := ((C25_update_task exPy exTask _ (.scheduler 0) _ hw).2 ha).1
    revert this
    decide +kernel
  · obtain ⟨h, hw⟩ := parse_asks (S := exStr) (L := exLib) (f := exForm "apply" "3" "m:g") (t := exTask) exStr_lawful (by decide +kernel)
    refine ⟨_, _, h, fun ha => ?_⟩
    have := ((C25_update_task exPy exTask _ (.scheduler 0) _ hw).1 ha).1
    revert this
    decide +kernel
  · rw [asks_iff exStr_lawful]
    intro h
    exact h "max_instances" (.maxInst fun n hn => by
      have e : exStr.int (text exStr (exForm "apply" "0" "m:f").maxInstances) = some 0 := by decide +kernel
      rw [e] at hn
      injection hn with hn
      omega)

end Edit
end Asyncz
