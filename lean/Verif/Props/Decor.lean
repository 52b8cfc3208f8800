import Verif.Model.Decor
import Verif.Props.TaskObj
/-!
# C75: adding a callable and decorating it
-/
namespace Asyncz
namespace Decor

open TaskObj

/-! ## Specification -/

/-- The options `u` (by name, `none`: not given) can be used for a task that runs the callable `c`: the arguments fit
the callable, a name is a text that is not empty (or the callable has one), and every option is of its kind. -/
structure Fine (py : Py) (c : Nat) (u : String → Option Val) : Prop where
  fits : ∀ x y, u "args" = some x → u "kwargs" = some y → py.argsOk c x y = true
  name : ∀ v, u "name" = some v → v = .none ∨ ∃ s, s ≠ "" ∧ v = .str s
  ownName : u "name" = none ∨ u "name" = some .none → ∃ n, py.name c = some n ∧ n ≠ ""
  grace : ∀ v, u "mistrigger_grace_time" = some v → v = .none ∨ PositiveNumber v
  storeAlias : ∀ v, u "store_alias" = some v → ∃ s, v = .str s
  maxInst : ∀ v, u "max_instances" = some v → PositiveInt v
  executor : ∀ v, u "executor" = some v → ∃ s, v = .str s
  nrt : ∀ v, u "next_run_time" = some v → ∃ w, py.toDatetime v = .ok w

/-- The task that is asked for: `u` are the options by name. -/
structure Wanted (py : Py) (sch : Val) (c : Nat) (id : Val) (u : String → Option Val) (t : Attrs) : Prop where
  id : t .id = id
  scheduler : t .scheduler = sch
  fn : t .fn = .callable c
  fnRef : t .fnRef = match py.ref c with | some r => .str r | none => .none
  args : some (t .args) = u "args"
  kwargs : some (t .kwargs) = u "kwargs"
  trigger : some (t .trigger) = u "trigger"
  name : ∀ s, u "name" = some (.str s) → t .name = .str s
  ownName : u "name" = none ∨ u "name" = some .none → ∃ n, py.name c = some n ∧ t .name = .str n
  grace : t .grace = (u "mistrigger_grace_time").getD (.int 1)
  coalesce : t .coalesce = .bool (match u "coalesce" with | some v => v.truthy | none => true)
  maxInst : t .maxInst = (u "max_instances").getD (.int 1)
  executor : t .executor = (u "executor").getD (.str "default")
  storeAlias : t .storeAlias = (u "store_alias").getD (.str "default")
  nrt : match u "next_run_time" with | some v => py.toDatetime v = .ok (t .nrt) | none => t .nrt = .none

theorem wanted_unique {py : Py} {sch : Val} {c : Nat} {id : Val} {u : String → Option Val} {t t' : Attrs}
    (hn : ∀ v, u "name" = some v → v = .none ∨ ∃ s, s ≠ "" ∧ v = .str s)
    (h : Wanted py sch c id u t) (h' : Wanted py sch c id u t') : t = t' := by
  funext a
  cases a
  · rw [h.id, h'.id]
  · have key : (u "name" = none ∨ u "name" = some .none) → t .name = t' .name := by
      intro hu
      obtain ⟨n, e, hn⟩ := h.ownName hu
      obtain ⟨n', e', hn'⟩ := h'.ownName hu
      rw [e] at e'; cases e'
      rw [hn, hn']
    cases hu : u "name" with
    | none => exact key (Or.inl hu)
    | some v =>
      rcases hn v hu with rfl | ⟨s, _, rfl⟩
      · exact key (Or.inr hu)
      · rw [h.name s hu, h'.name s hu]
  · rw [h.fn, h'.fn]
  · rw [h.fnRef, h'.fnRef]
  · have := h.args; rw [← h'.args] at this; exact Option.some.inj this
  · have := h.kwargs; rw [← h'.kwargs] at this; exact Option.some.inj this
  · rw [h.grace, h'.grace]
  · rw [h.coalesce, h'.coalesce]
  · rw [h.storeAlias, h'.storeAlias]
  · rw [h.maxInst, h'.maxInst]
  · have := h.trigger; rw [← h'.trigger] at this; exact Option.some.inj this
  · rw [h.executor, h'.executor]
  · have h1 := h.nrt; have h2 := h'.nrt
    cases hu : u "next_run_time" with
    | none => rw [hu] at h1 h2; simp only at h1 h2; rw [h1, h2]
    | some v => rw [hu] at h1 h2; simp only at h1 h2; rw [h1] at h2; exact Except.ok.inj h2
  · rw [h.scheduler, h'.scheduler]

/-! ## Construction and submission -/

theorem construct_ok (py : Py) (uuid : String) (fn id sched : Val) (kw : Dict String Val) (hw : kw.WF) (t : Attrs) :
    let id' := if id = .none ∧ fn ≠ .none then .str uuid else id
    construct py uuid fn id sched kw = .ok t ↔ Accepts py (initial id' sched kw) fn sched kw.get? ∧
      (update py (initial id' sched kw) fn sched kw).1 = t := by
  intro id'
  have h := C25_update_task py (initial id' sched kw) fn sched kw hw
  have hc : construct py uuid fn id sched kw = match update py (initial id' sched kw) fn sched kw with
    | (t, none) => .ok t
    | (_, some e) => .error (.py e) := rfl
  rw [hc]
  by_cases ha : Accepts py (initial id' sched kw) fn sched kw.get?
  · have h1 := (h.1 ha).1
    rcases hu : update py (initial id' sched kw) fn sched kw with ⟨t', e⟩
    rw [hu] at h1; simp only at h1; subst h1
    simp [ha]
  · have h1 := (h.2 ha).1
    rcases hu : update py (initial id' sched kw) fn sched kw with ⟨t', e⟩
    rw [hu] at h1; simp only at h1
    cases e with
    | none => cases h1
    | some e => simp [ha]

theorem withDefaults_get (t : Attrs) (a : Attr) : withDefaults t a =
    if a = .executor ∧ t .executor = .none then .str "default"
    else if a = .storeAlias ∧ t .storeAlias = .none then .str "default" else t a := by
  unfold withDefaults
  by_cases h1 : t .executor = .none <;> by_cases h2 : t .storeAlias = .none <;> cases a <;>
    simp [h1, h2, Attrs.set]

theorem submit_ok (py : Py) (k : Nat) (t : Attrs) (nrt : Option Val) (replace : Bool) (hs : t .scheduler = .scheduler k)
    (ht : t .trigger ≠ .none) (hi : t .id ≠ .none) (hn : ∀ v, nrt = some v → py.toDatetime v = .ok (t .nrt)) :
    submit py (.scheduler k) t nrt replace = .ok ⟨withDefaults t, replace, decide (nrt ≠ some .none)⟩ := by
  unfold submit
  generalize hd : nrtUpdate nrt = d
  have hdw : d.WF := by subst hd; cases nrt <;> simp [Dict.WF, nrtUpdate]
  have hget : ∀ key, d.get? key = if key = "next_run_time" then nrt else none := by
    intro key; subst hd
    cases nrt with
    | none => simp [Dict.get?, nrtUpdate]
    | some v => simp only [Dict.get?, nrtUpdate, eq_comm]
  have hno : ∀ key, key ≠ "next_run_time" → d.get? key = none := fun key h => by rw [hget, if_neg h]
  have hnr : d.get? "next_run_time" = nrt := by rw [hget, if_pos rfl]
  have notT : ¬ Touched .none d.get? := by
    rintro (h | h | h)
    · cases h
    · rw [hno _ (by decide)] at h; cases h
    · rw [hno _ (by decide)] at h; cases h
  have nosome : ∀ {key : String} {v : Val} {p : Prop}, key ≠ "next_run_time" → d.get? key = some v → p := by
    intro key v p h e; rw [hno key h] at e; cases e
  have hacc : Accepts py t .none (.scheduler k) d.get? := by
    constructor
    · intro _; exact Or.inr hs
    · exact hno _ (by decide)
    · intro h; exact absurd h notT
    · intro v e; exact nosome (by decide) e
    · intro v e; exact nosome (by decide) e
    · intro v e; exact nosome (by decide) e
    · intro v e; exact nosome (by decide) e
    · intro v e; exact nosome (by decide) e
    · intro v e; exact nosome (by decide) e
    · intro v e
      rw [hnr] at e
      exact ⟨⟨k, by simp⟩, _, hn v e⟩
    · intro key h
      by_cases hk : key = "next_run_time"
      · subst hk; simp
      · rw [hno key hk] at h; cases h
  obtain ⟨h1, h2⟩ := (C25_update_task py t .none (.scheduler k) d hdw).1 hacc
  rcases hu : update py t .none (.scheduler k) d with ⟨t', e⟩
  rw [hu] at h1 h2
  simp only at h1 h2
  subst h1
  have htt : t' = t := by
    funext a
    have hf := h2.fnKept notT
    cases a
    · exact h2.id
    · exact h2.nameKept (Or.inl (hno _ (by decide))) (Or.inr (Or.inl notT))
    · exact hf.1
    · exact hf.2.1
    · exact hf.2.2.1
    · exact hf.2.2.2
    · rw [h2.grace, hno _ (by decide)]; rfl
    · rw [h2.coalesce, hno _ (by decide)]
    · rw [h2.storeAlias, hno _ (by decide)]; rfl
    · rw [h2.maxInst, hno _ (by decide)]; rfl
    · rw [h2.trigger, hno _ (by decide)]; rfl
    · rw [h2.executor, hno _ (by decide)]; rfl
    · cases hnn : nrt with
      | none => exact h2.nrtKept (by rw [hnr, hnn])
      | some v =>
        have e1 := h2.nrt v (by rw [hnr, hnn])
        rw [hn v hnn] at e1
        exact (Except.ok.inj e1).symm
    · rw [h2.scheduler, hs]; simp
  subst htt
  have g1 : withDefaults t' .trigger = t' .trigger := by
    rw [withDefaults_get]; simp
  have g2 : withDefaults t' .id = t' .id := by
    rw [withDefaults_get]; simp
  simp only [g1, g2, if_neg ht, if_neg hi]

/-- The keyword arguments as add_task makes them. -/
structure Shape (kw : Dict String Val) (g : Nat) (xs : List Nat) (ys : List (String × Nat)) : Prop where
  wf : kw.WF
  trigger : kw.get? "trigger" = some (.trigger g)
  args : kw.get? "args" = some (.seq xs)
  kwargs : kw.get? "kwargs" = some (.map ys)
  known : ∀ k, (kw.get? k).isSome → k ∈ ["args", "kwargs", "name", "mistrigger_grace_time", "coalesce", "store_alias",
    "max_instances", "trigger", "executor", "next_run_time"]

theorem Shape.unknown {kw : Dict String Val} {g : Nat} {xs : List Nat} {ys : List (String × Nat)} (h : Shape kw g xs ys)
    (k : String) (hk : k ∉ ["args", "kwargs", "name", "mistrigger_grace_time", "coalesce", "store_alias",
      "max_instances", "trigger", "executor", "next_run_time"]) : kw.get? k = none := by
  cases e : kw.get? k with
  | none => rfl
  | some v => exact absurd (h.known k (by rw [e]; rfl)) hk

theorem nameless_initial (id sched : Val) (kw : Dict String Val) :
    Nameless (initial id sched kw) kw.get? ↔ kw.get? "name" = none ∨ kw.get? "name" = some .none := by
  unfold Nameless
  constructor
  · exact fun h => h.2
  · intro h
    refine ⟨?_, h⟩
    show ((kw.get? (keyOf .name)).getD (classDefault .name)).truthy = false
    have : keyOf .name = "name" := rfl
    rw [this]
    rcases h with h | h <;> rw [h] <;> rfl

/-- A callable with given options: accepted exactly if they are fine, and then the task is the wanted one. -/
theorem construct_callable (py : Py) (uuid : String) (c : Nat) (id : Val) (k : Nat) (kw : Dict String Val)
    (g : Nat) (xs : List Nat) (ys : List (String × Nat)) (h : Shape kw g xs ys) (t : Attrs) :
    let id' := if id = .none then .str uuid else id
    construct py uuid (.callable c) id (.scheduler k) kw = .ok t →
      Fine py c kw.get? ∧ t .scheduler = .scheduler k ∧ t .trigger = .trigger g ∧ t .id = id' ∧
      (∀ v, kw.get? "next_run_time" = some v → py.toDatetime v = .ok (t .nrt)) ∧
      Wanted py (.scheduler k) c id' kw.get? (withDefaults t) := by
  intro id' hc
  have hid : (if id = Val.none ∧ (.callable c : Val) ≠ .none then Val.str uuid else id) = id' := by simp [id']
  have hc := (construct_ok py uuid (.callable c) id (.scheduler k) kw h.wf t).mp hc
  rw [hid] at hc
  obtain ⟨ha, hu⟩ := hc
  have he := ((C25_update_task py (initial id' (.scheduler k) kw) (.callable c) (.scheduler k) kw h.wf).1 ha).2
  rw [hu] at he
  have hT : Touched (.callable c) kw.get? := Or.inl rfl
  have hch : chosen (initial id' (.scheduler k) kw) (.callable c) = .callable c := rfl
  have hfs := he.fnSet hT
  rw [hch, h.args, h.kwargs] at hfs
  obtain ⟨hres, hargs, hkwargs⟩ := hfs
  simp only [Option.getD_some] at hargs hkwargs
  have hfn : t .fn = .callable c ∧ t .fnRef = match py.ref c with | some r => .str r | none => .none := by
    generalize e1 : t .fn = f at hres
    generalize e2 : t .fnRef = r at hres
    cases hres
    exact ⟨rfl, rfl⟩
  obtain ⟨f, r, hr, -, -, hcall⟩ := ha.fn hT
  rw [hch, h.args, h.kwargs] at *
  simp only [Option.getD_some] at hcall
  have hcc : f = .callable c := by cases hr; rfl
  obtain ⟨hok, hnm⟩ := hcall c hcc
  rw [nameless_initial] at hnm
  have htr : t .trigger = .trigger g := by rw [he.trigger, h.trigger]; rfl
  have hnrt : t .nrt = .none ∨ (kw.get? "next_run_time").isSome := by
    cases e : kw.get? "next_run_time" with
    | some v => exact Or.inr rfl
    | none =>
      left
      rw [he.nrtKept e]
      show ((kw.get? "next_run_time").getD .none) = .none
      rw [e]; rfl
  have hwd : ∀ a, a ≠ .executor → a ≠ .storeAlias → withDefaults t a = t a := by
    intro a h1 h2
    rw [withDefaults_get, if_neg (fun x => h1 x.1), if_neg (fun x => h2 x.1)]
  refine ⟨⟨?_, ha.name, hnm, ha.grace, ha.storeAlias, ha.maxInst, ha.executor, fun v hv => (ha.nrt v hv).2⟩,
    by rw [he.scheduler]; simp, htr, by rw [he.id]; rfl, he.nrt, ?_⟩
  · intro x y hx hy
    rw [h.args] at hx; rw [h.kwargs] at hy; cases hx; cases hy
    exact hok
  · constructor
    · rw [hwd _ (by decide) (by decide), he.id]; rfl
    · rw [hwd _ (by decide) (by decide), he.scheduler]; simp
    · rw [hwd _ (by decide) (by decide)]; exact hfn.1
    · rw [hwd _ (by decide) (by decide)]; exact hfn.2
    · rw [hwd _ (by decide) (by decide), hargs, h.args]
    · rw [hwd _ (by decide) (by decide), hkwargs, h.kwargs]
    · rw [hwd _ (by decide) (by decide), htr, h.trigger]
    · intro s hs; rw [hwd _ (by decide) (by decide)]; exact he.nameGiven s hs
    · intro hs
      rw [hwd _ (by decide) (by decide)]
      exact he.nameMadeUp ((nameless_initial _ _ _).mpr hs) hT c hfn.1
    · rw [hwd _ (by decide) (by decide), he.grace]
      show _ = _
      cases e : kw.get? "mistrigger_grace_time" with
      | some v => rfl
      | none =>
        show (kw.get? "mistrigger_grace_time").getD (.int 1) = _
        rw [e]
    · rw [hwd _ (by decide) (by decide), he.coalesce]
      cases e : kw.get? "coalesce" with
      | some v => rfl
      | none =>
        show (kw.get? "coalesce").getD (.bool true) = _
        rw [e]; rfl
    · rw [hwd _ (by decide) (by decide), he.maxInst]
      cases e : kw.get? "max_instances" with
      | some v => rfl
      | none =>
        show (kw.get? "max_instances").getD (.int 1) = _
        rw [e]
    · rw [withDefaults_get, he.executor]
      cases e : kw.get? "executor" with
      | some v =>
        obtain ⟨s, rfl⟩ := ha.executor v e
        simp
      | none =>
        have : initial id' (.scheduler k) kw .executor = .none := by
          show (kw.get? "executor").getD .none = _
          rw [e]; rfl
        simp [this]
    · rw [withDefaults_get, he.storeAlias]
      cases e : kw.get? "store_alias" with
      | some v =>
        obtain ⟨s, rfl⟩ := ha.storeAlias v e
        simp
      | none =>
        have : initial id' (.scheduler k) kw .storeAlias = .none := by
          show (kw.get? "store_alias").getD .none = _
          rw [e]; rfl
        simp [this]
    · rw [hwd _ (by decide) (by decide)]
      cases e : kw.get? "next_run_time" with
      | some v => exact he.nrt v e
      | none =>
        rcases hnrt with h | h
        · exact h
        · rw [e] at h; cases h

theorem construct_callable_ok (py : Py) (uuid : String) (c : Nat) (id : Val) (k : Nat) (kw : Dict String Val)
    (g : Nat) (xs : List Nat) (ys : List (String × Nat)) (h : Shape kw g xs ys) (hf : Fine py c kw.get?) :
    ∃ t, construct py uuid (.callable c) id (.scheduler k) kw = .ok t := by
  refine ⟨_, (construct_ok py uuid (.callable c) id (.scheduler k) kw h.wf _).mpr ⟨?_, rfl⟩⟩
  constructor
  · intro _; exact Or.inr rfl
  · exact h.unknown _ (by decide)
  · intro _
    refine ⟨.callable c, _, Resolves.obj, by rw [h.args]; rfl, by rw [h.kwargs]; rfl, ?_⟩
    rintro c' rfl'
    cases rfl'
    rw [h.args, h.kwargs]
    exact ⟨hf.fits _ _ h.args h.kwargs, fun hn => hf.ownName ((nameless_initial _ _ _).mp hn)⟩
  · exact hf.name
  · exact hf.grace
  · exact hf.storeAlias
  · exact hf.maxInst
  · intro v e; rw [h.trigger] at e; cases e; exact ⟨g, rfl⟩
  · exact hf.executor
  · intro v e; exact ⟨⟨k, by simp⟩, hf.nrt v e⟩
  · exact h.known

/-! ## The keyword arguments -/

theorem setDefault_get (d : Dict String Val) (p : String × Val) (k : String) :
    (setDefault d p).get? k = match d.get? k with
      | some v => some v
      | none => if k = p.1 then some p.2 else none := by
  unfold setDefault
  cases h : d.get? p.1 with
  | some v =>
    cases hk : d.get? k with
    | some w => simp [hk]
    | none =>
      by_cases e : k = p.1
      · subst e; rw [h] at hk; cases hk
      · simp [hk, e]
  | none =>
    simp only [Dict.get?_set]
    by_cases e : k = p.1
    · subst e; simp [h]
    · simp only [if_neg e]; cases d.get? k <;> rfl

theorem setDefault_wf {d : Dict String Val} (h : d.WF) (p : String × Val) : (setDefault d p).WF := by
  unfold setDefault
  split
  · exact h
  · exact h.set _ _

theorem setOpt_wf {d : Dict String Val} (h : d.WF) (key : String) (o : Option Val) : (setOpt d key o).WF := by
  cases o with
  | none => exact h
  | some v => exact h.set _ _

theorem setOpt_get (d : Dict String Val) (key k : String) (o : Option Val) : (setOpt d key o).get? k =
    if k = key ∧ o.isSome then o else d.get? k := by
  cases o with
  | none => simp [setOpt]
  | some v => simp [setOpt, Dict.get?_set]

/-- what the task defaults may hold -/
def DefaultKeys (d : Dict String Val) : Prop :=
  ∀ p ∈ d, p.1 = "mistrigger_grace_time" ∨ p.1 = "coalesce" ∨ p.1 = "max_instances"

theorem foldl_setDefault (l : List (String × Val)) (d : Dict String Val) (hd : d.WF) :
    (l.foldl setDefault d).WF ∧ (∀ k v, d.get? k = some v → (l.foldl setDefault d).get? k = some v) ∧
    ∀ k, ((l.foldl setDefault d).get? k).isSome → (d.get? k).isSome ∨ k ∈ l.map Prod.fst := by
  induction l generalizing d with
  | nil => exact ⟨hd, fun _ _ h => h, fun _ h => Or.inl h⟩
  | cons p l ih =>
    obtain ⟨h1, h2, h3⟩ := ih (setDefault d p) (setDefault_wf hd p)
    refine ⟨h1, ?_, ?_⟩
    · intro k v h
      exact h2 k v (by rw [setDefault_get, h])
    · intro k h
      rcases h3 k h with h | h
      · rw [setDefault_get] at h
        cases hk : d.get? k with
        | some v => exact Or.inl rfl
        | none =>
          rw [hk] at h
          simp only at h
          by_cases e : k = p.1
          · right; simp [e]
          · rw [if_neg e] at h; cases h
      · right; simp only [List.map_cons, List.mem_cons]; exact Or.inr h

/-- the options as they are before the defaults are added -/
theorem shape_taskKwargs (a : Args) (defaults : Dict String Val) (hd : DefaultKeys defaults) :
    Shape (taskKwargs a defaults) a.trigger (a.args.getD []) (a.kwargs.getD []) ∧
    (taskKwargs a defaults).get? "next_run_time" = a.nrt := by
  unfold taskKwargs
  simp only
  generalize hb : (Dict.set (Dict.set (Dict.set (Dict.set ([] : Dict String Val) "trigger" (.trigger a.trigger))
    "args" (.seq (a.args.getD []))) "kwargs" (.map (a.kwargs.getD []))) "name" a.name) = base
  have hbw : base.WF := by subst hb; exact (((Dict.WF.nil.set _ _).set _ _).set _ _).set _ _
  have hbg : ∀ k, base.get? k = if k = "name" then some a.name else if k = "kwargs" then some (.map (a.kwargs.getD []))
      else if k = "args" then some (.seq (a.args.getD [])) else if k = "trigger" then some (.trigger a.trigger) else none := by
    intro k; subst hb; simp only [Dict.get?_set, Dict.get?]
  generalize hb1 : setOpt (setOpt (setOpt (setOpt (setOpt (setOpt base "mistrigger_grace_time" a.grace) "coalesce" a.coalesce)
    "max_instances" a.maxInst) "next_run_time" a.nrt) "executor" a.executor) "store_alias" a.store = b1
  have hb1w : b1.WF := by
    subst hb1; exact setOpt_wf (setOpt_wf (setOpt_wf (setOpt_wf (setOpt_wf (setOpt_wf hbw _ _) _ _) _ _) _ _) _ _) _ _
  have hb1g : ∀ k, k ≠ "mistrigger_grace_time" → k ≠ "coalesce" → k ≠ "max_instances" → k ≠ "next_run_time" →
      k ≠ "executor" → k ≠ "store_alias" → b1.get? k = base.get? k := by
    intro k h1 h2 h3 h4 h5 h6; subst hb1
    simp only [setOpt_get, h1, h2, h3, h4, h5, h6, false_and, if_false]
  have hb1n : b1.get? "next_run_time" = a.nrt := by
    subst hb1
    simp only [setOpt_get, String.reduceEq, false_and, if_false, true_and]
    cases h : a.nrt with
    | none => simp [hbg]
    | some v => simp
  generalize hb2 : (if a.allowMistrigger = true then setDefault b1 ("mistrigger_grace_time", .none) else b1) = b2
  have hb2w : b2.WF := by subst hb2; split; exact setDefault_wf hb1w _; exact hb1w
  have hb2g : ∀ k, k ≠ "mistrigger_grace_time" → b2.get? k = b1.get? k := by
    intro k h; subst hb2; split
    · rw [setDefault_get]; simp only [if_neg h]; cases b1.get? k <;> rfl
    · rfl
  obtain ⟨hw, hkeep, hnew⟩ := foldl_setDefault defaults b2 hb2w
  have hkeys : ∀ k, k ∈ defaults.map Prod.fst → k = "mistrigger_grace_time" ∨ k = "coalesce" ∨ k = "max_instances" := by
    intro k hk
    obtain ⟨p, hp, rfl⟩ := List.mem_map.mp hk
    exact hd p hp
  have base2 : ∀ k v, k ≠ "mistrigger_grace_time" → k ≠ "coalesce" → k ≠ "max_instances" → k ≠ "next_run_time" →
      k ≠ "executor" → k ≠ "store_alias" → base.get? k = some v → (List.foldl setDefault b2 defaults).get? k = some v := by
    intro k v h1 h2 h3 h4 h5 h6 h
    exact hkeep k v (by rw [hb2g k h1, hb1g k h1 h2 h3 h4 h5 h6, h])
  refine ⟨⟨hw, ?_, ?_, ?_, ?_⟩, ?_⟩
  · exact base2 _ _ (by decide) (by decide) (by decide) (by decide) (by decide) (by decide) (by rw [hbg]; simp)
  · exact base2 _ _ (by decide) (by decide) (by decide) (by decide) (by decide) (by decide) (by rw [hbg]; simp)
  · exact base2 _ _ (by decide) (by decide) (by decide) (by decide) (by decide) (by decide) (by rw [hbg]; simp)
  · intro k h
    rcases hnew k h with h | h
    · refine Classical.byContradiction fun hk => ?_
      simp only [List.mem_cons, List.not_mem_nil, or_false, not_or] at hk
      obtain ⟨k1, k2, k3, k4, k5, k6, k7, k8, k9, k10⟩ := hk
      rw [hb2g k k4, hb1g k k4 k5 k7 k10 k9 k6, hbg] at h
      simp [k1, k2, k3, k8] at h
    · rcases hkeys k h with rfl | rfl | rfl <;> simp
  · cases hn : a.nrt with
    | some v => exact hkeep _ _ (by rw [hb2g _ (by decide), hb1n, hn])
    | none =>
      cases e : (List.foldl setDefault b2 defaults).get? "next_run_time" with
      | none => rfl
      | some v =>
        rcases hnew "next_run_time" (by rw [e]; rfl) with h | h
        · rw [hb2g _ (by decide), hb1n, hn] at h; cases h
        · rcases hkeys _ h with h | h | h <;> simp at h

theorem callKwargs_wf (t : Attrs) : (callKwargs t).WF := by
  unfold callKwargs
  have h : Dict.WF (Dict.set (Dict.set (Dict.set (Dict.set (Dict.set (Dict.set (Dict.set (Dict.set ([] : Dict String Val) "name" (t .name))
    "next_run_time" (t .nrt)) "args" (t .args)) "kwargs" (t .kwargs)) "trigger" (t .trigger))
    "mistrigger_grace_time" (t .grace)) "coalesce" (t .coalesce)) "max_instances" (t .maxInst)) :=
    (((((((Dict.WF.nil.set _ _).set _ _).set _ _).set _ _).set _ _).set _ _).set _ _).set _ _
  simp only
  split <;> split
  · exact h
  · exact h.set _ _
  · exact h.set _ _
  · exact (h.set _ _).set _ _

theorem callKwargs_get (t : Attrs) (k : String) : (callKwargs t).get? k =
    if k = "executor" then (if t .executor = .none then none else some (t .executor))
    else if k = "store_alias" then (if t .storeAlias = .none then none else some (t .storeAlias))
    else if k = "max_instances" then some (t .maxInst) else if k = "coalesce" then some (t .coalesce)
    else if k = "mistrigger_grace_time" then some (t .grace) else if k = "trigger" then some (t .trigger)
    else if k = "kwargs" then some (t .kwargs) else if k = "args" then some (t .args)
    else if k = "next_run_time" then some (t .nrt) else if k = "name" then some (t .name) else none := by
  unfold callKwargs
  simp only
  have e : ∀ (d : Dict String Val) (P : Prop) [Decidable P] (key : String) (v : Val),
      (if P then d else d.set key v).get? k = if k = key ∧ ¬ P then some v else d.get? k := by
    intro d P _ key v
    by_cases h : P
    · simp [h]
    · simp [h, Dict.get?_set]
  rw [e, e]
  simp only [Dict.get?_set, Dict.get?]
  by_cases h1 : k = "executor"
  · subst h1
    by_cases h : t .executor = .none <;> simp [h]
  · by_cases h2 : k = "store_alias"
    · subst h2
      by_cases h : t .storeAlias = .none <;> simp [h]
    · simp only [h1, h2, false_and, if_false]

/-! ## The template -/

/-- What a template made of the options `u` is like. -/
structure Templ (py : Py) (k : Nat) (id : Val) (g : Nat) (xs : List Nat) (ys : List (String × Nat)) (u : String → Option Val)
    (t : Attrs) : Prop where
  id : t .id = id
  scheduler : t .scheduler = .scheduler k
  args : t .args = .seq xs
  kwargs : t .kwargs = .map ys
  trigger : t .trigger = .trigger g
  name : t .name = (u "name").getD .none
  grace : t .grace = (u "mistrigger_grace_time").getD (.int 1)
  coalesce : t .coalesce = .bool (match u "coalesce" with | some v => v.truthy | none => true)
  maxInst : t .maxInst = (u "max_instances").getD (.int 1)
  executor : t .executor = (u "executor").getD .none
  storeAlias : t .storeAlias = (u "store_alias").getD .none
  nrt : match u "next_run_time" with | some v => py.toDatetime v = .ok (t .nrt) | none => t .nrt = .none
  fineName : ∀ v, u "name" = some v → v = .none ∨ ∃ s, s ≠ "" ∧ v = .str s
  fineGrace : ∀ v, u "mistrigger_grace_time" = some v → v = .none ∨ PositiveNumber v
  fineStore : ∀ v, u "store_alias" = some v → ∃ s, v = .str s
  fineMax : ∀ v, u "max_instances" = some v → PositiveInt v
  fineExecutor : ∀ v, u "executor" = some v → ∃ s, v = .str s

theorem template_templ (py : Py) (uuid : String) (id : Val) (k : Nat) (kw : Dict String Val)
    (g : Nat) (xs : List Nat) (ys : List (String × Nat)) (h : Shape kw g xs ys) (t : Attrs)
    (hc : construct py uuid .none id (.scheduler k) kw = .ok t) : Templ py k id g xs ys kw.get? t := by
  have hid : (if id = Val.none ∧ (.none : Val) ≠ .none then Val.str uuid else id) = id := by simp
  have hc := (construct_ok py uuid .none id (.scheduler k) kw h.wf t).mp hc
  rw [hid] at hc
  obtain ⟨ha, hu⟩ := hc
  have he := ((C25_update_task py (initial id (.scheduler k) kw) .none (.scheduler k) kw h.wf).1 ha).2
  rw [hu] at he
  have hT : Touched .none kw.get? := Or.inr (Or.inl (by rw [h.args]; rfl))
  have hfn0 : initial id (.scheduler k) kw .fn = .none := by
    show (kw.get? "fn").getD .none = .none
    rw [h.unknown _ (by decide)]; rfl
  have hch : chosen (initial id (.scheduler k) kw) .none = .none := hfn0
  have hfs := he.fnSet hT
  rw [hch, h.args, h.kwargs] at hfs
  obtain ⟨hres, hargs, hkwargs⟩ := hfs
  simp only [Option.getD_some] at hargs hkwargs
  have hfn : t .fn = .none := by
    generalize e1 : t .fn = f at hres
    generalize e2 : t .fnRef = r at hres
    cases hres
    rfl
  have init : ∀ a, a ≠ .id → a ≠ .scheduler → initial id (.scheduler k) kw a = (kw.get? (keyOf a)).getD (classDefault a) := by
    intro a h1 h2; cases a <;> first | rfl | contradiction
  refine ⟨he.id, by rw [he.scheduler]; simp, hargs, hkwargs, by rw [he.trigger, h.trigger]; rfl, ?_, ?_, ?_, ?_, ?_, ?_, ?_,
    ha.name, ha.grace, ha.storeAlias, ha.maxInst, ha.executor⟩
  · have kept : (kw.get? "name" = none ∨ kw.get? "name" = some .none) → t .name = .none := by
      intro hn
      rw [he.nameKept hn (Or.inr (Or.inr (by intro c; rw [hfn]; exact fun h => by cases h)))]
      show (kw.get? "name").getD .none = .none
      rcases hn with e | e <;> rw [e] <;> rfl
    cases e : kw.get? "name" with
    | none => rw [kept (Or.inl e)]; rfl
    | some v =>
      rcases ha.name v e with rfl | ⟨s, _, rfl⟩
      · rw [kept (Or.inr e)]; rfl
      · rw [he.nameGiven s e]; rfl
  · rw [he.grace, init _ (by decide) (by decide)]
    show (kw.get? "mistrigger_grace_time").getD ((kw.get? "mistrigger_grace_time").getD (.int 1)) = _
    cases kw.get? "mistrigger_grace_time" <;> rfl
  · rw [he.coalesce, init _ (by decide) (by decide)]
    show (match kw.get? "coalesce" with | some v => Val.bool v.truthy | none => (kw.get? "coalesce").getD (.bool true)) = _
    cases kw.get? "coalesce" <;> rfl
  · rw [he.maxInst, init _ (by decide) (by decide)]
    show (kw.get? "max_instances").getD ((kw.get? "max_instances").getD (.int 1)) = _
    cases kw.get? "max_instances" <;> rfl
  · rw [he.executor, init _ (by decide) (by decide)]
    show (kw.get? "executor").getD ((kw.get? "executor").getD .none) = _
    cases kw.get? "executor" <;> rfl
  · rw [he.storeAlias, init _ (by decide) (by decide)]
    show (kw.get? "store_alias").getD ((kw.get? "store_alias").getD .none) = _
    cases kw.get? "store_alias" <;> rfl
  · cases e : kw.get? "next_run_time" with
    | some v => exact he.nrt v e
    | none =>
      show t .nrt = .none
      rw [he.nrtKept e, init _ (by decide) (by decide)]
      show (kw.get? "next_run_time").getD .none = .none
      rw [e]; rfl

theorem template_ok (py : Py) (uuid : String) (id : Val) (k : Nat) (kw : Dict String Val)
    (g : Nat) (xs : List Nat) (ys : List (String × Nat)) (h : Shape kw g xs ys) (c : Nat) (hf : Fine py c kw.get?) :
    ∃ t, construct py uuid .none id (.scheduler k) kw = .ok t := by
  refine ⟨_, (construct_ok py uuid .none id (.scheduler k) kw h.wf _).mpr ⟨?_, rfl⟩⟩
  constructor
  · intro _; exact Or.inr rfl
  · exact h.unknown _ (by decide)
  · intro _
    refine ⟨.none, .none, ?_, by rw [h.args]; rfl, by rw [h.kwargs]; rfl, ?_⟩
    · have hfn0 : ∀ i, initial i (.scheduler k) kw .fn = .none := by
        intro i
        show (kw.get? "fn").getD .none = .none
        rw [h.unknown _ (by decide)]; rfl
      have : ∀ i, chosen (initial i (.scheduler k) kw) .none = .none := fun i => hfn0 i
      rw [this]
      exact .none
    · intro c' e; cases e
  · exact hf.name
  · exact hf.grace
  · exact hf.storeAlias
  · exact hf.maxInst
  · intro v e; rw [h.trigger] at e; cases e; exact ⟨g, rfl⟩
  · exact hf.executor
  · intro v e; exact ⟨⟨k, by simp⟩, hf.nrt v e⟩
  · exact h.known

/-- `to_datetime` keeps `None` and keeps what it has converted (utils.py:119-171: an aware datetime is returned
unmodified). -/
structure Dates (py : Py) : Prop where
  none : py.toDatetime .none = .ok .none
  again : ∀ v w, py.toDatetime v = .ok w → py.toDatetime w = .ok w

theorem templ_nrt {py : Py} (hd : Dates py) {k : Nat} {id : Val} {g : Nat} {xs : List Nat} {ys : List (String × Nat)}
    {u : String → Option Val} {t : Attrs} (h : Templ py k id g xs ys u t) : py.toDatetime (t .nrt) = .ok (t .nrt) := by
  have hn := h.nrt
  cases e : u "next_run_time" with
  | none => rw [e] at hn; simp only at hn; rw [hn]; exact hd.none
  | some v => rw [e] at hn; exact hd.again v _ hn

theorem templ_shape {py : Py} {k : Nat} {id : Val} {g : Nat} {xs : List Nat} {ys : List (String × Nat)}
    {u : String → Option Val} {t : Attrs} (h : Templ py k id g xs ys u t) : Shape (callKwargs t) g xs ys := by
  refine ⟨callKwargs_wf t, ?_, ?_, ?_, ?_⟩
  · rw [callKwargs_get]; simp [h.trigger]
  · rw [callKwargs_get]; simp [h.args]
  · rw [callKwargs_get]; simp [h.kwargs]
  · intro key hk
    refine Classical.byContradiction fun hn => ?_
    simp only [List.mem_cons, List.not_mem_nil, or_false, not_or] at hn
    obtain ⟨k1, k2, k3, k4, k5, k6, k7, k8, k9, k10⟩ := hn
    rw [callKwargs_get] at hk
    simp [k1, k2, k3, k4, k5, k6, k7, k8, k9, k10] at hk

theorem getD_none_iff {u : Option Val} : u.getD .none = .none ↔ u = none ∨ u = some .none := by
  cases u <;> simp

theorem templ_fine {py : Py} (hd : Dates py) {k : Nat} {id : Val} {g : Nat} {xs : List Nat} {ys : List (String × Nat)}
    {u : String → Option Val} {t : Attrs} (h : Templ py k id g xs ys u t) (ha : u "args" = some (.seq xs))
    (hk : u "kwargs" = some (.map ys)) (c : Nat) : Fine py c (callKwargs t).get? ↔ Fine py c u := by
  have e1 : (callKwargs t).get? "args" = some (.seq xs) := by rw [callKwargs_get]; simp [h.args]
  have e2 : (callKwargs t).get? "kwargs" = some (.map ys) := by rw [callKwargs_get]; simp [h.kwargs]
  have e3 : (callKwargs t).get? "name" = some ((u "name").getD .none) := by rw [callKwargs_get]; simp [h.name]
  have e4 : (callKwargs t).get? "mistrigger_grace_time" = some ((u "mistrigger_grace_time").getD (.int 1)) := by
    rw [callKwargs_get]; simp [h.grace]
  have e5 : (callKwargs t).get? "max_instances" = some ((u "max_instances").getD (.int 1)) := by
    rw [callKwargs_get]; simp [h.maxInst]
  have e6 : (callKwargs t).get? "next_run_time" = some (t .nrt) := by rw [callKwargs_get]; simp
  constructor
  · intro f
    refine ⟨?_, h.fineName, ?_, h.fineGrace, h.fineStore, h.fineMax, h.fineExecutor, ?_⟩
    · intro x y hx hy; rw [ha] at hx; rw [hk] at hy; cases hx; cases hy; exact f.fits _ _ e1 e2
    · intro hn; exact f.ownName (Or.inr (by rw [e3, getD_none_iff.mpr hn]))
    · intro v hv
      have := h.nrt; rw [hv] at this; exact ⟨_, this⟩
  · intro f
    refine ⟨?_, ?_, ?_, ?_, ?_, ?_, ?_, ?_⟩
    · intro x y hx hy; rw [e1] at hx; rw [e2] at hy; cases hx; cases hy; exact f.fits _ _ ha hk
    · intro v hv
      rw [e3] at hv; cases hv
      cases hu : u "name" with
      | none => exact Or.inl rfl
      | some v => exact f.name v hu
    · intro hn
      refine f.ownName (getD_none_iff.mp ?_)
      rcases hn with hn | hn <;> rw [e3] at hn
      · cases hn
      · exact Option.some.inj hn
    · intro v hv
      rw [e4] at hv; cases hv
      cases hu : u "mistrigger_grace_time" with
      | none => exact Or.inr (Or.inr (Or.inl ⟨1, by decide, rfl⟩))
      | some v => exact f.grace v hu
    · intro v hv
      rw [callKwargs_get] at hv
      simp only [String.reduceEq, if_false, if_true, h.storeAlias] at hv
      cases hu : u "store_alias" with
      | none => rw [hu] at hv; simp at hv
      | some w =>
        rw [hu] at hv
        obtain ⟨s, rfl⟩ := f.storeAlias w hu
        simp at hv
        exact ⟨s, hv.symm⟩
    · intro v hv
      rw [e5] at hv; cases hv
      cases hu : u "max_instances" with
      | none => exact Or.inr ⟨1, by decide, rfl⟩
      | some v => exact f.maxInst v hu
    · intro v hv
      rw [callKwargs_get] at hv
      simp only [if_true, h.executor] at hv
      cases hu : u "executor" with
      | none => rw [hu] at hv; simp at hv
      | some w =>
        rw [hu] at hv
        obtain ⟨s, rfl⟩ := f.executor w hu
        simp at hv
        exact ⟨s, hv.symm⟩
    · intro v hv
      rw [e6] at hv; cases hv
      exact ⟨_, templ_nrt hd h⟩

theorem templ_wanted {py : Py} (hd : Dates py) {k : Nat} {id : Val} {g : Nat} {xs : List Nat} {ys : List (String × Nat)}
    {u : String → Option Val} {t : Attrs} (h : Templ py k id g xs ys u t) (ha : u "args" = some (.seq xs))
    (hk : u "kwargs" = some (.map ys)) (ht : u "trigger" = some (.trigger g)) {c : Nat} {sch id' : Val} {t' : Attrs}
    (w : Wanted py sch c id' (callKwargs t).get? t') : Wanted py sch c id' u t' := by
  have e3 : (callKwargs t).get? "name" = some ((u "name").getD .none) := by rw [callKwargs_get]; simp [h.name]
  refine ⟨w.id, w.scheduler, w.fn, w.fnRef, ?_, ?_, ?_, ?_, ?_, ?_, ?_, ?_, ?_, ?_, ?_⟩
  · rw [w.args, callKwargs_get, ha]; simp [h.args]
  · rw [w.kwargs, callKwargs_get, hk]; simp [h.kwargs]
  · rw [w.trigger, callKwargs_get, ht]; simp [h.trigger]
  · intro s hs; exact w.name s (by rw [e3, hs]; rfl)
  · intro hn; exact w.ownName (Or.inr (by rw [e3, getD_none_iff.mpr hn]))
  · rw [w.grace, callKwargs_get]; simp [h.grace]
  · rw [w.coalesce, callKwargs_get]; simp [h.coalesce, Val.truthy]
  · rw [w.maxInst, callKwargs_get]; simp [h.maxInst]
  · rw [w.executor, callKwargs_get]
    simp only [if_true, h.executor]
    cases hu : u "executor" with
    | none => simp
    | some v => obtain ⟨s, rfl⟩ := h.fineExecutor v hu; simp
  · rw [w.storeAlias, callKwargs_get]
    simp only [String.reduceEq, if_false, if_true, h.storeAlias]
    cases hu : u "store_alias" with
    | none => simp
    | some v => obtain ⟨s, rfl⟩ := h.fineStore v hu; simp
  · have hw := w.nrt
    rw [callKwargs_get] at hw
    simp only [String.reduceEq, if_false, if_true] at hw
    rw [templ_nrt hd h] at hw
    have hw := Except.ok.inj hw
    have hn := h.nrt
    rw [hw] at hn
    exact hn

/-! ## C75 -/

/-- Adding a callable: it is accepted exactly if the options are fine, and then the scheduler gets the task asked for
(with a new id if none is given), with the flags asked for: it is to be started unless `next_run_time=None`. -/
theorem C75_add (py : Py) (uuid : String) (k c : Nat) (id : Val) (a : Args) (defaults : Dict String Val)
    (hk : DefaultKeys defaults) (replace : Bool) (e : Entry) :
    addCallable py uuid (.scheduler k) (.callable c) id a defaults replace = .ok e ↔
      Fine py c (taskKwargs a defaults).get? ∧
      Wanted py (.scheduler k) c (if id = .none then .str uuid else id) (taskKwargs a defaults).get? e.task ∧
      e.replace = replace ∧ (e.start = true ↔ a.nrt ≠ some .none) := by
  obtain ⟨hs, hn⟩ := shape_taskKwargs a defaults hk
  have go : ∀ t, construct py uuid (.callable c) id (.scheduler k) (taskKwargs a defaults) = .ok t →
      addCallable py uuid (.scheduler k) (.callable c) id a defaults replace =
        .ok ⟨withDefaults t, replace, decide (a.nrt ≠ some .none)⟩ := by
    intro t ht
    obtain ⟨-, h1, h2, h3, h4, -⟩ := construct_callable py uuid c id k _ _ _ _ hs t ht
    unfold addCallable
    simp only [ht]
    refine submit_ok py k t a.nrt replace h1 (by rw [h2]; exact fun h => by cases h) ?_ ?_
    · rw [h3]; split
      · exact fun h => by cases h
      · assumption
    · intro v hv; exact h4 v (by rw [hn, hv])
  constructor
  · intro h
    cases ht : construct py uuid (.callable c) id (.scheduler k) (taskKwargs a defaults) with
    | error e => unfold addCallable at h; rw [ht] at h; cases h
    | ok t =>
      obtain ⟨h1, -, -, -, -, h2⟩ := construct_callable py uuid c id k _ _ _ _ hs t ht
      rw [go t ht] at h
      cases h
      exact ⟨h1, h2, rfl, by simp⟩
  · rintro ⟨hf, hw, hr, hst⟩
    obtain ⟨t, ht⟩ := construct_callable_ok py uuid c id k _ _ _ _ hs hf
    obtain ⟨-, -, -, -, -, h2⟩ := construct_callable py uuid c id k _ _ _ _ hs t ht
    rw [go t ht]
    have e1 := wanted_unique hf.name h2 hw
    obtain ⟨task, r, st⟩ := e
    simp only at e1 hr hst
    subst e1; subst hr
    have : st = decide (a.nrt ≠ some .none) := by
      by_cases hx : a.nrt ≠ some .none
      · simp [hx, hst.mpr hx]
      · rw [decide_eq_false hx]
        cases st with
        | false => rfl
        | true => exact absurd (hst.mp rfl) hx
    rw [this]

/-- Decorating the callable `c` with a template: what the scheduler gets. -/
def decorate (py : Py) (settable : Nat → Bool) (uuid : String) (k c : Nat) (id : Val) (a : Args) (defaults : Dict String Val)
    (marks : Marks) : Except Fail Called :=
  match template py uuid (.scheduler k) id a defaults with
  | .error e => .error e
  | .ok t => call py settable uuid t c marks

/-- Decorating is accepted exactly if the options are fine, and then the scheduler gets the task asked for, to be
started, and to replace an existing one exactly if an id was given.  Without id the callable is marked with the new
task, if it can be, and no mark of another callable changes. -/
theorem C75_decorate (py : Py) (hd : Dates py) (settable : Nat → Bool) (uuid : String) (k c : Nat) (id : Val) (a : Args)
    (defaults : Dict String Val) (hk : DefaultKeys defaults) (marks : Marks) (hid : id = .none ∨ id.truthy = true) :
    (∀ out, decorate py settable uuid k c id a defaults marks = .ok out →
      Fine py c (taskKwargs a defaults).get? ∧
      Wanted py (.scheduler k) c (if id = .none then .str uuid else id) (taskKwargs a defaults).get? out.entry.task ∧
      (out.entry.replace = true ↔ id ≠ .none) ∧ out.entry.start = true ∧
      (out.err = none ↔ id ≠ .none ∨ settable c = true) ∧
      (∀ d, out.marks d = if d = c ∧ id = .none ∧ settable c = true then marks c ++ [out.entry.task] else marks d)) ∧
    (Fine py c (taskKwargs a defaults).get? → ∃ out, decorate py settable uuid k c id a defaults marks = .ok out) := by
  obtain ⟨hs, hn⟩ := shape_taskKwargs a defaults hk
  have tr : id.truthy = true ↔ id ≠ .none := by
    rcases hid with rfl | h
    · simp [Val.truthy]
    · simp only [h, true_iff]; rintro rfl; cases h
  have core : ∀ t, template py uuid (.scheduler k) id a defaults = .ok t → ∀ t',
      construct py uuid (.callable c) (if id.truthy then id else .str uuid) (.scheduler k) (callKwargs t) = .ok t' →
      Fine py c (taskKwargs a defaults).get? ∧
      Wanted py (.scheduler k) c (if id = .none then .str uuid else id) (taskKwargs a defaults).get? (withDefaults t') ∧
      submit py (.scheduler k) t' none id.truthy = .ok ⟨withDefaults t', id.truthy, true⟩ := by
    intro t ht t' ht'
    have hT := template_templ py uuid id k _ _ _ _ hs t ht
    obtain ⟨h1, h2, h3, h4, h5, h6⟩ := construct_callable py uuid c _ k _ _ _ _ (templ_shape hT) t' ht'
    have hidd : (if (if id.truthy = true then id else Val.str uuid) = Val.none then Val.str uuid
        else if id.truthy = true then id else Val.str uuid) = if id = .none then .str uuid else id := by
      by_cases h : id = .none
      · subst h; rfl
      · simp [h, tr.mpr h]
    rw [hidd] at h4 h6
    refine ⟨(templ_fine hd hT hs.args hs.kwargs c).mp h1, templ_wanted hd hT hs.args hs.kwargs hs.trigger h6, ?_⟩
    have := submit_ok py k t' none id.truthy h2 (by rw [h3]; exact fun h => by cases h) (by
      rw [h4]; split
      · exact fun h => by cases h
      · assumption) (by intro v hv; cases hv)
    rw [this]
    rfl
  have unf : ∀ t, template py uuid (.scheduler k) id a defaults = .ok t → ∀ t',
      construct py uuid (.callable c) (if id.truthy then id else .str uuid) (.scheduler k) (callKwargs t) = .ok t' →
      decorate py settable uuid k c id a defaults marks =
        (if id.truthy = true then .ok ⟨⟨withDefaults t', id.truthy, true⟩, marks, none⟩
        else if settable c then
          .ok ⟨⟨withDefaults t', id.truthy, true⟩, fun d => if d = c then marks c ++ [withDefaults t'] else marks d, none⟩
        else .ok ⟨⟨withDefaults t', id.truthy, true⟩, marks, some .attribute⟩) := by
    intro t ht t' ht'
    have hT := template_templ py uuid id k _ _ _ _ hs t ht
    have h3 := (core t ht t' ht').2.2
    unfold decorate
    simp only [ht]
    unfold call
    simp only [hT.id, hT.scheduler, ht', h3]
  constructor
  · intro out h
    cases ht : template py uuid (.scheduler k) id a defaults with
    | error e => unfold decorate at h; rw [ht] at h; cases h
    | ok t =>
      have hT := template_templ py uuid id k _ _ _ _ hs t ht
      cases ht' : construct py uuid (.callable c) (if id.truthy then id else .str uuid) (.scheduler k) (callKwargs t) with
      | error e =>
        unfold decorate at h; simp only [ht] at h
        unfold call at h; simp only [hT.id, hT.scheduler, ht'] at h
        cases h
      | ok t' =>
        obtain ⟨h1, h2, -⟩ := core t ht t' ht'
        rw [unf t ht t' ht'] at h
        by_cases hi : id.truthy = true
        · have hi' := tr.mp hi
          rw [if_pos hi] at h
          cases h
          refine ⟨h1, h2, by simp [hi, hi'], rfl, by simp [hi'], by simp [hi']⟩
        · have hi' : id = .none := Classical.byContradiction fun hh => hi (tr.mpr hh)
          rw [if_neg hi] at h
          by_cases hc : settable c = true
          · rw [if_pos hc] at h
            cases h
            exact ⟨h1, h2, by simp [hi', Val.truthy], rfl, by simp [hc], by simp [hc, hi']⟩
          · rw [if_neg hc] at h
            cases h
            exact ⟨h1, h2, by simp [hi', Val.truthy], rfl, by simp [hc, hi'], by simp [hc]⟩
  · intro hf
    obtain ⟨t, ht⟩ := template_ok py uuid id k _ _ _ _ hs c hf
    have ht : template py uuid (.scheduler k) id a defaults = .ok t := ht
    have hT := template_templ py uuid id k _ _ _ _ hs t ht
    obtain ⟨t', ht'⟩ := construct_callable_ok py uuid c (if id.truthy then id else .str uuid) k _ _ _ _ (templ_shape hT)
      ((templ_fine hd hT hs.args hs.kwargs c).mpr hf)
    rw [unf t ht t' ht']
    split
    · exact ⟨_, rfl⟩
    · split <;> exact ⟨_, rfl⟩

/-- Decorating a callable is the same as adding it: the scheduler gets the same task, to be treated in the same way.
Missing: with `next_run_time=None` the decorated task is started all the same, and with an id it always replaces. -/
theorem C75_same_partial (py : Py) (hd : Dates py) (settable : Nat → Bool) (uuid : String) (k c : Nat) (id : Val) (a : Args)
    (defaults : Dict String Val) (hk : DefaultKeys defaults) (marks : Marks) (hid : id = .none ∨ id.truthy = true)
    (replace : Bool) (hr : replace = true ↔ id ≠ .none) (hn : a.nrt ≠ some .none) (e : Entry) :
    addCallable py uuid (.scheduler k) (.callable c) id a defaults replace = .ok e ↔
      ∃ out, decorate py settable uuid k c id a defaults marks = .ok out ∧ out.entry = e := by
  obtain ⟨h1, h2⟩ := C75_decorate py hd settable uuid k c id a defaults hk marks hid
  rw [C75_add py uuid k c id a defaults hk replace e]
  have brep : ∀ b : Bool, (b = true ↔ id ≠ .none) → b = replace := by
    intro b hb
    cases b <;> cases replace <;> simp_all
  constructor
  · rintro ⟨hf, hw, hrr, hst⟩
    obtain ⟨out, ho⟩ := h2 hf
    obtain ⟨-, hw', hr', hst', -, -⟩ := h1 out ho
    refine ⟨out, ho, ?_⟩
    have e1 := wanted_unique hf.name hw' hw
    have e2 := brep _ hr'
    have e3 := hst.mpr hn
    obtain ⟨task, r, st⟩ := e
    obtain ⟨⟨task', r', st'⟩, m, er⟩ := out
    simp only at *
    subst e1; subst e2; subst hrr; subst e3; subst hst'
    rfl
  · rintro ⟨out, ho, rfl⟩
    obtain ⟨hf, hw, hr', hst, -, -⟩ := h1 out ho
    exact ⟨hf, hw, brep _ hr', by simp [hst, hn]⟩

/-- One template without id can decorate several callables: each becomes a task of its own, all have the settings of
the template, and they have different ids if the generated ids differ. -/
theorem C75_several (py : Py) (hd : Dates py) (settable : Nat → Bool) (uuid₁ uuid₂ : String) (hu : uuid₁ ≠ uuid₂) (k c₁ c₂ : Nat)
    (a : Args) (defaults : Dict String Val) (hk : DefaultKeys defaults) (marks₁ marks₂ : Marks) (out₁ out₂ : Called)
    (h₁ : decorate py settable uuid₁ k c₁ .none a defaults marks₁ = .ok out₁)
    (h₂ : decorate py settable uuid₂ k c₂ .none a defaults marks₂ = .ok out₂) :
    out₁.entry.task .id ≠ out₂.entry.task .id ∧ out₁.entry.task .fn = .callable c₁ ∧ out₂.entry.task .fn = .callable c₂ ∧
    ∀ x, x ∉ [Attr.id, .fn, .fnRef, .name] → out₁.entry.task x = out₂.entry.task x := by
  obtain ⟨hf, w₁, -⟩ := (C75_decorate py hd settable uuid₁ k c₁ .none a defaults hk marks₁ (Or.inl rfl)).1 out₁ h₁
  obtain ⟨-, w₂, -⟩ := (C75_decorate py hd settable uuid₂ k c₂ .none a defaults hk marks₂ (Or.inl rfl)).1 out₂ h₂
  refine ⟨?_, w₁.fn, w₂.fn, ?_⟩
  · rw [w₁.id, w₂.id]; simp [hu]
  · intro x hx
    cases x <;> simp at hx
    · exact Option.some.inj (by rw [w₁.args, w₂.args])
    · exact Option.some.inj (by rw [w₁.kwargs, w₂.kwargs])
    · rw [w₁.grace, w₂.grace]
    · rw [w₁.coalesce, w₂.coalesce]
    · rw [w₁.storeAlias, w₂.storeAlias]
    · rw [w₁.maxInst, w₂.maxInst]
    · exact Option.some.inj (by rw [w₁.trigger, w₂.trigger])
    · rw [w₁.executor, w₂.executor]
    · have h1 := w₁.nrt; have h2 := w₂.nrt
      cases e : (taskKwargs a defaults).get? "next_run_time" with
      | none => rw [e] at h1 h2; simp only at h1 h2; rw [h1, h2]
      | some v => rw [e] at h1 h2; simp only at h1 h2; rw [h1] at h2; exact Except.ok.inj h2
    · rw [w₁.scheduler, w₂.scheduler]

/-- A template without scheduler, `Task(...)`, cannot be used as a decorator at all: every use raises. -/
theorem C75_no_scheduler (py : Py) (settable : Nat → Bool) (uuid : String) (t : Attrs) (c : Nat) (marks : Marks)
    (h : t .scheduler = .none) : ∃ e, call py settable uuid t c marks = .error e := by
  unfold call
  simp only [h]
  cases hc : construct py uuid (.callable c) (if (t .id).truthy = true then t .id else .str uuid) .none (callKwargs t) with
  | error e => exact ⟨e, rfl⟩
  | ok t' =>
    have := ((construct_ok py uuid _ _ _ _ (callKwargs_wf t) t').mp hc).1.nrt (t .nrt) (by rw [callKwargs_get]; simp)
    obtain ⟨⟨j, hj⟩, -⟩ := this
    simp [initial] at hj

/-! ## Examples and witnesses -/

/-- the callables 1 and 2 take up to two arguments -/
def exPy : Py where
  resolve s := if s = "m:f" then some 1 else none
  ref c := if c = 1 then some "m:f" else none
  name c := if c = 1 then some "f" else some "g"
  argsOk _ a _ := match a with | .seq xs => decide (xs.length ≤ 2) | _ => false
  toDatetime v := match v with
    | .datetime u => .ok (.datetime u) | .str _ => .ok (.datetime 7) | .none => .ok .none | _ => .error .typeError

theorem exDates : Dates exPy := by
  constructor
  · rfl
  · intro v w h
    cases v <;> simp [exPy] at h ⊢ <;> subst h <;> rfl

def exArgs (nrt : Option Val) : Args where
  trigger := 4
  allowMistrigger := true
  args := some [7, 8]
  kwargs := none
  name := .none
  grace := none
  coalesce := some (.int 0)
  maxInst := none
  nrt := nrt
  executor := none
  store := some (.str "disk")

def exDefaults : Dict String Val := [("mistrigger_grace_time", .int 60), ("max_instances", .int 5)]

-- the hypotheses are met, and the task is a real one
example : DefaultKeys exDefaults := by
  intro p hp; simp [exDefaults] at hp; rcases hp with rfl | rfl <;> simp

example : (match decorate exPy (fun _ => true) "u1" 3 1 .none (exArgs (some (.str "tomorrow"))) exDefaults (fun _ => []) with
    | .ok out => some ([Attr.id, .name, .fn, .args, .grace, .coalesce, .maxInst, .executor, .storeAlias, .nrt].map out.entry.task,
        out.entry.replace, out.entry.start, (out.marks 1).length)
    | .error _ => none) =
    some ([.str "u1", .str "f", .callable 1, .seq [7, 8], .none, .bool false, .int 5, .str "default", .str "disk", .datetime 7],
      false, true, 1) := by
  decide +kernel

/-- `next_run_time=None` adds a callable as paused; a decorated one is started. -/
theorem C75_paused_witness : ∃ (py : Py) (a : Args) (e : Entry) (out : Called), Dates py ∧ a.nrt = some .none ∧
    addCallable py "u" (.scheduler 0) (.callable 1) .none a [] false = .ok e ∧ e.start = false ∧
    decorate py (fun _ => true) "u" 0 1 .none a [] (fun _ => []) = .ok out ∧ out.entry.start = true := by
  have hk : DefaultKeys [] := by intro p hp; cases hp
  have hf : Fine exPy 1 (taskKwargs (exArgs (some .none)) []).get? := by
    have := (C75_decorate exPy exDates (fun _ => true) "u" 0 1 .none (exArgs (some .none)) [] hk (fun _ => []) (Or.inl rfl)).1
    cases h : decorate exPy (fun _ => true) "u" 0 1 .none (exArgs (some .none)) [] (fun _ => []) with
    | ok out => exact (this out h).1
    | error e =>
      have h2 : (decorate exPy (fun _ => true) "u" 0 1 .none (exArgs (some .none)) [] (fun _ => [])).isOk = true := by
        decide +kernel
      rw [h] at h2; cases h2
  obtain ⟨out, ho⟩ := (C75_decorate exPy exDates (fun _ => true) "u" 0 1 .none (exArgs (some .none)) [] hk (fun _ => [])
    (Or.inl rfl)).2 hf
  obtain ⟨-, hw, -, hst, -⟩ := (C75_decorate exPy exDates (fun _ => true) "u" 0 1 .none (exArgs (some .none)) [] hk (fun _ => [])
    (Or.inl rfl)).1 out ho
  refine ⟨exPy, exArgs (some .none), ⟨out.entry.task, false, false⟩, out, exDates, rfl, ?_, rfl, ho, hst⟩
  rw [C75_add exPy "u" 0 1 .none _ [] hk]
  exact ⟨hf, hw, rfl, by simp [exArgs]⟩

/-- With an id the decorated task replaces an existing one even if `replace_existing` was not asked for; adding the
callable does not. -/
theorem C75_replace_witness : ∃ (py : Py) (a : Args) (out : Called), Dates py ∧
    (∀ e, addCallable py "u" (.scheduler 0) (.callable 1) (.str "job") a [] false = .ok e → e.replace = false) ∧
    decorate py (fun _ => true) "u" 0 1 (.str "job") a [] (fun _ => []) = .ok out ∧ out.entry.replace = true := by
  have hk : DefaultKeys [] := by intro p hp; cases hp
  have hid : (Val.str "job").truthy = true := by decide +kernel
  cases h : decorate exPy (fun _ => true) "u" 0 1 (.str "job") (exArgs none) [] (fun _ => []) with
  | error e =>
    have h2 : (decorate exPy (fun _ => true) "u" 0 1 (.str "job") (exArgs none) [] (fun _ => [])).isOk = true := by
      decide +kernel
    rw [h] at h2; cases h2
  | ok out =>
    have := (C75_decorate exPy exDates (fun _ => true) "u" 0 1 (.str "job") (exArgs none) [] hk (fun _ => []) (Or.inr hid)).1 out h
    refine ⟨exPy, exArgs none, out, exDates, ?_, h, this.2.2.1.mpr (by simp)⟩
    intro e he
    exact ((C75_add exPy "u" 0 1 (.str "job") _ [] hk false e).mp he).2.2.1

/-- Decorating something that takes no attributes (a bound method, a class) without id raises, but the task has been
handed to the scheduler. -/
theorem C75_method_witness : ∃ (py : Py) (a : Args) (out : Called), Dates py ∧
    decorate py (fun _ => false) "u" 0 1 .none a [] (fun _ => []) = .ok out ∧ out.err = some .attribute ∧
    out.entry.task .fn = .callable 1 := by
  have hk : DefaultKeys [] := by intro p hp; cases hp
  cases h : decorate exPy (fun _ => false) "u" 0 1 .none (exArgs none) [] (fun _ => []) with
  | error e =>
    have h2 : (decorate exPy (fun _ => false) "u" 0 1 .none (exArgs none) [] (fun _ => [])).isOk = true := by
      decide +kernel
    rw [h] at h2; cases h2
  | ok out =>
    have := (C75_decorate exPy exDates (fun _ => false) "u" 0 1 .none (exArgs none) [] hk (fun _ => []) (Or.inl rfl)).1 out h
    refine ⟨exPy, exArgs none, out, exDates, h, ?_, this.2.1.fn⟩
    have h2 : (match decorate exPy (fun _ => false) "u" 0 1 .none (exArgs none) [] (fun _ => []) with
      | .ok out => out.err | .error _ => none) = some .attribute := by decide +kernel
    rw [h] at h2
    exact h2

end Decor
end Asyncz
