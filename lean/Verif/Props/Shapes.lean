import Verif.Model.Shapes
import Verif.Spec.Shapes
/-!
# C53, C63, C64: shapes
-/
namespace Asyncz
namespace Shapes
open Spec
variable {π : Type}

/-! ## C53: the registry -/

/-- What a result says about names: `register` returned the class, or `unregister` returned. -/
def change : Call π × Ret π → Option (Change (Cls π))
  | (.register (.str n) _ _, .cls c) => some (.bind n c)
  | (.unregister n, .unit) => some (.unbind n)
  | _ => none

/-- The changes reported by a sequence of calls. -/
def changes (tr : List (Call π × Ret π)) : List (Change (Cls π)) := tr.filterMap change

theorem run_append (r : Reg π) (a b : List (Call π)) :
    run r (a ++ b) = ((run (run r a).1 b).1, (run r a).2 ++ (run (run r a).1 b).2) := by
  induction a generalizing r with
  | nil => rfl
  | cons c a ih => simp only [List.cons_append, run, ih]

theorem bound_snoc_bind {γ : Type} (h : List (Change γ)) (m n : String) (c d : γ) :
    Bound (h ++ [.bind m c]) n d ↔ (n = m ∧ d = c) ∨ (n ≠ m ∧ Bound h n d) := by
  constructor
  · rintro ⟨a, b, e, hb⟩
    rcases List.eq_nil_or_concat b with rfl | ⟨b', x, rfl⟩
    · have := List.append_inj' e rfl
      simp only [List.cons.injEq, Change.bind.injEq, and_true] at this
      exact .inl ⟨this.2.1.symm, this.2.2.symm⟩
    · rw [List.concat_eq_append] at e hb
      have e' : h ++ [.bind m c] = (a ++ .bind n d :: b') ++ [x] := by simpa using e
      obtain ⟨e1, e2⟩ := List.append_inj' e' rfl
      cases e2
      have hm : m ≠ n := hb (.bind m c) (by simp)
      exact .inr ⟨fun h => hm h.symm, a, b', e1, fun y hy => hb y (by simp [hy])⟩
  · rintro (⟨rfl, rfl⟩ | ⟨hn, a, b, rfl, hb⟩)
    · exact ⟨h, [], rfl, by simp⟩
    · refine ⟨a, b ++ [.bind m c], by simp, fun x hx => ?_⟩
      rcases List.mem_append.1 hx with hx | hx
      · exact hb x hx
      · rw [List.mem_singleton.1 hx]; exact fun h => hn h.symm

theorem bound_snoc_unbind {γ : Type} (h : List (Change γ)) (m n : String) (d : γ) :
    Bound (h ++ [.unbind m]) n d ↔ n ≠ m ∧ Bound h n d := by
  constructor
  · rintro ⟨a, b, e, hb⟩
    rcases List.eq_nil_or_concat b with rfl | ⟨b', x, rfl⟩
    · have := List.append_inj' e rfl
      simp at this
    · rw [List.concat_eq_append] at e hb
      have e' : h ++ [.unbind m] = (a ++ .bind n d :: b') ++ [x] := by simpa using e
      obtain ⟨e1, e2⟩ := List.append_inj' e' rfl
      cases e2
      have hm : m ≠ n := hb (.unbind m) (by simp)
      exact ⟨fun h => hm h.symm, a, b', e1, fun y hy => hb y (by simp [hy])⟩
  · rintro ⟨hn, a, b, rfl, hb⟩
    refine ⟨a, b ++ [.unbind m], by simp, fun x hx => ?_⟩
    rcases List.mem_append.1 hx with hx | hx
    · exact hb x hx
    · rw [List.mem_singleton.1 hx]; exact fun h => hn h.symm

/-- The registry agrees with a list of changes. -/
def Agrees (r : Reg π) (h : List (Change (Cls π))) : Prop :=
  r.classes.WF ∧ ∀ n c, r.classes.get? n = some c ↔ Bound h n c

theorem agrees_step {r : Reg π} {h : List (Change (Cls π))} (ha : Agrees r h) (c : Call π) :
    Agrees (step r c).1 (h ++ (change (c, (step r c).2)).toList) := by
  have hsame : Agrees r (h ++ []) := by rw [List.append_nil]; exact ha
  cases c with
  | register name shape rep =>
    show Agrees (register r name shape rep).1 (h ++ (change (.register name shape rep, (register r name shape rep).2)).toList)
    cases name with
    | other => exact hsame
    | str n =>
      unfold register
      by_cases hn : n = ""
      · simp only [if_pos hn]; exact hsame
      simp only [if_neg hn]
      cases shape with
      | cls c =>
        by_cases hc : (r.classes.contains n && !rep) = true
        · simp only [if_pos hc]; exact hsame
        · simp only [if_neg hc, change, Option.toList]
          refine ⟨Dict.WF.set ha.1 _ _, fun m d => ?_⟩
          rw [bound_snoc_bind, Dict.get?_set, ← ha.2]
          by_cases hm : m = n
          · simp only [hm, if_true, Option.some.injEq, true_and, ne_eq, not_true, false_and, or_false]
            exact eq_comm
          · simp only [hm, if_false, false_and, ne_eq, not_false_eq_true, true_and, false_or]
      | none => exact hsame
      | str s => exact hsame
      | inst i => exact hsame
      | other => exact hsame
  | unregister n =>
    show Agrees (unregister r n).1 (h ++ (change (.unregister n, (unregister r n).2)).toList)
    unfold unregister
    cases hg : r.classes.get? n with
    | none => exact hsame
    | some c =>
      simp only [change, Option.toList]
      refine ⟨?_, fun m d => ?_⟩
      · exact Dict.WF.erase ha.1 _
      · rw [bound_snoc_unbind, Dict.get?_erase ha.1, ← ha.2]
        by_cases hm : m = n
        · simp [hm]
        · simp [hm]
  | get n =>
    show Agrees (get r n).1 (h ++ (change (.get n, (get r n).2)).toList)
    unfold get
    cases r.classes.get? n <;> exact hsame
  | available => exact hsame
  | resolve a =>
    show Agrees (resolve r a).1 (h ++ (change (.resolve a, (resolve r a).2)).toList)
    unfold resolve
    cases a with
    | none => simp only [get]; cases r.classes.get? "pydantic" <;> exact hsame
    | str s => simp only [get]; cases r.classes.get? s <;> exact hsame
    | cls c => exact hsame
    | inst i => exact hsame
    | other => exact hsame

theorem agrees_run (calls : List (Call π)) {r : Reg π} {h : List (Change (Cls π))} (ha : Agrees r h) :
    Agrees (run r calls).1 (h ++ changes (run r calls).2) := by
  induction calls generalizing r h with
  | nil => simpa [run, changes] using ha
  | cons c calls ih =>
    have := ih (agrees_step ha c)
    simp only [run, changes, List.filterMap_cons] at this ⊢
    rw [List.append_assoc] at this
    cases hc : change (c, (step r c).2) with
    | none => rw [hc] at this; exact this
    | some x => rw [hc] at this; exact this

theorem agrees_empty : Agrees (empty : Reg π) [] :=
  ⟨Dict.WF.nil, fun n c => ⟨fun h => by simp [empty, Dict.get?] at h, fun ⟨a, b, e, _⟩ => by simp at e⟩⟩

theorem agrees_history (calls : List (Call π)) : Agrees (run empty calls).1 (changes (run empty calls).2) := by
  simpa using agrees_run calls (agrees_empty (π := π))

theorem created_step (r : Reg π) (c : Call π) : r.created ≤ (step r c).1.created := by
  cases c with
  | register name shape rep =>
    show r.created ≤ (register r name shape rep).1.created
    unfold register
    cases name with
    | other => exact Nat.le_refl _
    | str n =>
      by_cases hn : n = ""
      · simp [hn]
      simp only [if_neg hn]
      cases shape with
      | cls c => simp only []; split <;> exact Nat.le_refl _
      | none => exact Nat.le_refl _
      | str s => exact Nat.le_refl _
      | inst i => exact Nat.le_refl _
      | other => exact Nat.le_refl _
  | unregister n =>
    show r.created ≤ (unregister r n).1.created
    unfold unregister; cases r.classes.get? n <;> exact Nat.le_refl _
  | get n =>
    show r.created ≤ (get r n).1.created
    unfold get; cases r.classes.get? n with
    | none => exact Nat.le_refl _
    | some c => exact Nat.le_succ _
  | available => exact Nat.le_refl _
  | resolve a =>
    show r.created ≤ (resolve r a).1.created
    unfold resolve
    cases a with
    | none => simp only [get]; cases r.classes.get? "pydantic" with
      | none => exact Nat.le_refl _
      | some c => exact Nat.le_succ _
    | str s => simp only [get]; cases r.classes.get? s with
      | none => exact Nat.le_refl _
      | some c => exact Nat.le_succ _
    | cls c => exact Nat.le_succ _
    | inst i => exact Nat.le_refl _
    | other => exact Nat.le_refl _

/-- **C53, registering.**  After any calls, registering succeeds exactly for a non-empty string, a shape class, and
a name that stands for nothing yet unless `replace` is given; otherwise it raises a registration error and
changes nothing.  After success the name stands for that class and all other names for what they did. -/
theorem register_iff (calls : List (Call π)) (name : NameArg) (shape : Arg π) (replace : Bool) :
    let r := (run empty calls).1
    let h := changes (run empty calls).2
    ((∃ n c, name = .str n ∧ n ≠ "" ∧ shape = .cls c ∧ (replace = true ∨ ∀ d, ¬ Bound h n d) ∧
        (step r (.register name shape replace)).2 = .cls c ∧
        ∀ m d, Bound (changes (run empty (calls ++ [.register name shape replace])).2) m d ↔
          (m = n ∧ d = c) ∨ (m ≠ n ∧ Bound h m d)) ∨
     ((¬ ∃ n c, name = .str n ∧ n ≠ "" ∧ shape = .cls c ∧ (replace = true ∨ ∀ d, ¬ Bound h n d)) ∧
        step r (.register name shape replace) = (r, .raised .registration))) := by
  intro r h
  have ha : Agrees r h := agrees_history calls
  have hch : ∀ x, changes (run empty (calls ++ [x])).2 = h ++ (change (x, (step r x).2)).toList := by
    intro x
    rw [run_append]
    show changes ((run empty calls).2 ++ [(x, (step r x).2)]) = _
    unfold changes
    rw [List.filterMap_append]
    congr 1
  simp only [hch]
  show (∃ n c, _ ∧ _ ∧ _ ∧ _ ∧ (register r name shape replace).2 = _ ∧ ∀ m d,
    Bound (h ++ (change (_, (register r name shape replace).2)).toList) m d ↔ _) ∨ (_ ∧ register r name shape replace = _)
  unfold register
  cases name with
  | other => exact .inr ⟨(by rintro ⟨n, c, h, _⟩; cases h), by first | rfl | trivial⟩
  | str n =>
    by_cases hn : n = ""
    · simp only [if_pos hn]
      exact .inr ⟨(by rintro ⟨m, c, h, hm, _⟩; cases h; exact hm hn), by first | rfl | trivial⟩
    simp only [if_neg hn]
    cases shape with
    | cls c =>
      by_cases hc : (r.classes.contains n && !replace) = true
      · simp only [if_pos hc]
        refine .inr ⟨?_, by first | rfl | trivial⟩
        rintro ⟨m, d, e, _, e', hor⟩
        cases e; cases e'
        simp only [Bool.and_eq_true, Bool.not_eq_true', Dict.contains, Option.isSome_iff_exists] at hc
        obtain ⟨⟨d, hd⟩, hr⟩ := hc
        rcases hor with hor | hor
        · rw [hr] at hor; cases hor
        · exact hor d ((ha.2 n d).1 hd)
      · simp only [if_neg hc]
        refine .inl ⟨n, c, rfl, hn, rfl, ?_, rfl, fun m d => ?_⟩
        · cases replace with
          | true => exact .inl rfl
          | false =>
            refine .inr fun d hd => hc ?_
            simp [Dict.contains, (ha.2 n d).2 hd]
        · exact bound_snoc_bind h n m c d
    | none => exact .inr ⟨(by rintro ⟨m, d, _, _, e', _⟩; cases e'), by first | rfl | trivial⟩
    | str s => exact .inr ⟨(by rintro ⟨m, d, _, _, e', _⟩; cases e'), by first | rfl | trivial⟩
    | inst i => exact .inr ⟨(by rintro ⟨m, d, _, _, e', _⟩; cases e'), by first | rfl | trivial⟩
    | other => exact .inr ⟨(by rintro ⟨m, d, _, _, e', _⟩; cases e'), by first | rfl | trivial⟩


theorem serial_lt (calls : List (Call π)) (r : Reg π) (c : Call π) (i : Inst π)
    (h : (c, Ret.inst i) ∈ (run r calls).2) (hc : ∀ j, c ≠ .resolve (.inst j)) :
    i.serial < (run r calls).1.created := by
  induction calls generalizing r with
  | nil => simp [run] at h
  | cons x calls ih =>
    simp only [run, List.mem_cons, Prod.mk.injEq] at h ⊢
    rcases h with ⟨rfl, h⟩ | h
    · have hlt : i.serial < (step r c).1.created := by
        have hget : ∀ n, Ret.inst i = (get r n).2 → i.serial < (get r n).1.created := by
          intro n
          unfold get
          cases r.classes.get? n with
          | none => intro h; cases h
          | some c => intro h; cases h; exact Nat.lt_succ_self _
        cases c with
        | register name shape rep =>
          exfalso
          have h : Ret.inst i = (register r name shape rep).2 := h
          unfold register at h
          split at h
          · cases h
          · split at h
            · cases h
            · split at h
              · split at h <;> cases h
              · cases h
        | unregister n =>
          have h : Ret.inst i = (unregister r n).2 := h
          unfold unregister at h
          split at h <;> cases h
        | get n => exact hget n h
        | available => cases h
        | resolve a =>
          cases a with
          | none => exact hget _ h
          | str s => exact hget _ h
          | cls c => cases h; exact Nat.lt_succ_self _
          | inst j => exact absurd rfl (hc j)
          | other => cases h
      have hmono : ∀ (cs : List (Call π)) (r : Reg π), r.created ≤ (run r cs).1.created := by
        intro cs
        induction cs with
        | nil => intro r; exact Nat.le_refl _
        | cons c cs ih => intro r; exact Nat.le_trans (created_step r c) (ih _)
      exact Nat.lt_of_lt_of_le hlt (hmono calls _)
    · exact ih _ h

/-- `x` is what returning a new instance of the class `n` stands for looks like: an instance of that class that no
earlier call has made; or an error if `n` stands for nothing. -/
def Gives (tr : List (Call π × Ret π)) (n : String) (x : Ret π) : Prop :=
  (∃ c i, Bound (changes tr) n c ∧ x = .inst i ∧ i.cls = c ∧
      ∀ call j, (call, Ret.inst j) ∈ tr → (∀ k, call ≠ .resolve (.inst k)) → j.serial ≠ i.serial) ∨
    ((∀ c, ¬ Bound (changes tr) n c) ∧ x = .raised .notFound)

theorem get_gives (calls : List (Call π)) (n : String) :
    Gives (run empty calls).2 n (get (run empty calls).1 n).2 := by
  have ha := agrees_history calls
  unfold get
  cases hg : (run empty calls).1.classes.get? n with
  | some c =>
    refine .inl ⟨c, ⟨c, (run empty calls).1.created⟩, (ha.2 n c).1 hg, rfl, rfl, fun call j hj hk => ?_⟩
    exact Nat.ne_of_lt (serial_lt calls empty call j hj hk)
  | none =>
    refine .inr ⟨fun c hc => ?_, rfl⟩
    rw [(ha.2 n c).2 hc] at hg
    cases hg

/-- **C53, looking up.**  After any calls, `get` and `resolve` of a name give a new instance of the class it stands
for, and fail if it stands for nothing; `resolve(None)` is `"pydantic"`, a class gives a new instance of
it, an instance itself, anything else an error; `unregister` fails exactly if the name stands for nothing and
otherwise leaves exactly the other names; `available` is the increasing list of the names that stand for
something. -/
theorem lookup_iff (calls : List (Call π)) :
    let r := (run empty calls).1
    let tr := (run empty calls).2
    (∀ n, Gives tr n (step r (.get n)).2 ∧ Gives tr n (step r (.resolve (.str n))).2) ∧
    Gives tr "pydantic" (step r (.resolve .none)).2 ∧
    (∀ c, ∃ i, (step r (.resolve (.cls c))).2 = .inst i ∧ i.cls = c ∧
      ∀ call j, (call, Ret.inst j) ∈ tr → (∀ k, call ≠ .resolve (.inst k)) → j.serial ≠ i.serial) ∧
    (∀ i, (step r (.resolve (.inst i))).2 = .inst i) ∧
    (step r (.resolve .other)).2 = .raised .shape ∧
    (∀ n, (∃ c, Bound (changes tr) n c) → (step r (.unregister n)).2 = .unit ∧
      ∀ m d, Bound (changes (run empty (calls ++ [.unregister n])).2) m d ↔ m ≠ n ∧ Bound (changes tr) m d) ∧
    (∀ n, (∀ c, ¬ Bound (changes tr) n c) → step r (.unregister n) = (r, .raised .notFound)) ∧
    (∃ l, step r .available = (r, .names l) ∧ Increasing l ∧ ∀ n, n ∈ l ↔ ∃ c, Bound (changes tr) n c) := by
  intro r tr
  have ha : Agrees r (changes tr) := agrees_history calls
  refine ⟨fun n => ⟨get_gives calls n, get_gives calls n⟩, get_gives calls "pydantic", fun c => ?_, fun i => rfl,
    rfl, fun n hn => ?_, fun n hn => ?_, ?_⟩
  · exact ⟨⟨c, r.created⟩, rfl, rfl, fun call j hj hk => Nat.ne_of_lt (serial_lt calls empty call j hj hk)⟩
  · obtain ⟨c, hc⟩ := hn
    have hg := (ha.2 n c).2 hc
    have hs : (step r (.unregister n)).2 = .unit := by
      show (unregister r n).2 = _
      unfold unregister
      rw [hg]
    refine ⟨hs, fun m d => ?_⟩
    rw [run_append]
    show Bound (changes (tr ++ [(.unregister n, (step r (.unregister n)).2)])) m d ↔ _
    rw [hs]
    unfold changes
    rw [List.filterMap_append]
    exact bound_snoc_unbind _ n m d
  · show unregister r n = _
    unfold unregister
    cases hg : r.classes.get? n with
    | none => rfl
    | some c => exact absurd ((ha.2 n c).1 hg) (hn c)
  · refine ⟨available r, rfl, ?_, fun n => ?_⟩
    · have hp := sortBy_perm (fun a b : String => decide (a ≤ b)) r.classes.keys
      have hnd : (available r).Nodup := hp.nodup_iff.2 ha.1
      have hs : (available r).Pairwise fun a b => decide (a ≤ b) = true :=
        sortBy_pairwise (fun a b c h1 h2 => by
            simp only [decide_eq_true_eq] at *; exact String.le_trans h1 h2)
          (fun a b => by
            simp only [Bool.or_eq_true, decide_eq_true_eq]; exact String.le_total a b) _
      unfold Increasing
      refine List.Pairwise.imp ?_ (List.Pairwise.and hs hnd)
      rintro a b ⟨h1, h2⟩
      simp only [decide_eq_true_eq] at h1
      rcases Classical.em (a < b) with h | h
      · exact h
      · exact absurd (String.le_antisymm h1 (String.not_lt.1 h)) h2
    · show n ∈ sortBy _ r.classes.keys ↔ _
      rw [mem_sortBy]
      constructor
      · intro h
        cases hg : r.classes.get? n with
        | none => exact absurd h ((Dict.get?_eq_none _ _).1 hg)
        | some c => exact ⟨c, (ha.2 n c).1 hg⟩
      · rintro ⟨c, hc⟩
        exact Dict.mem_keys_of_mem (Dict.mem_of_get? ((ha.2 n c).2 hc))

/-- A name stands for at most one class. -/
theorem bound_unique {γ : Type} {h : List (Change γ)} {n : String} {c d : γ} (hc : Bound h n c) (hd : Bound h n d) :
    c = d := by
  obtain ⟨a, b, rfl, hb⟩ := hc
  obtain ⟨a', b', e, hb'⟩ := hd
  rcases List.append_eq_append_iff.1 e with ⟨x, hx, hy⟩ | ⟨x, hx, hy⟩
  · cases x with
    | nil => simp only [List.nil_append, List.cons.injEq, Change.bind.injEq, true_and] at hy; exact hy.1
    | cons y x =>
      simp only [List.cons_append, List.cons.injEq] at hy
      exact absurd rfl (hb (.bind n d) (by rw [hy.2]; simp))
  · cases x with
    | nil => simp only [List.nil_append, List.cons.injEq, Change.bind.injEq, true_and] at hy; exact hy.1.symm
    | cons y x =>
      simp only [List.cons_append, List.cons.injEq] at hy
      exact absurd rfl (hb' (.bind n c) (by rw [hy.2]; simp))

/-- Registering the same name twice: the second call is refused, `replace` is not, and `get` follows. -/
example : ((run (π := Nat) empty [.register (.str "a") (.cls ⟨"a", some⟩) false,
    .register (.str "a") (.cls ⟨"b", some⟩) false, .get "a",
    .register (.str "a") (.cls ⟨"c", some⟩) true, .get "a", .available]).2.map fun x => match x.2 with
      | .cls c => c.attr | .inst i => i.cls.attr | .raised .registration => "error" | .names l => ",".intercalate l
      | _ => "?")
    = ["a", "error", "a", "c", "c", "a"] := by decide

/-! ## C63: stored task states -/

/-- **C63, what is accepted.**  A stored record is restored to `s` exactly if it is the state `s` written by an old
version, or a version-1 task-state envelope whose shape is registered (given by name) and loads the
payload to the state `s`. -/
theorem restore_iff (isState : π → Bool) (calls : List (Call π)) (rec_ : Record π) (s : π)
    (hname : ∀ e v sh p, rec_ = .envelope e v sh p → ∃ n, sh = .str n) :
    deserialize isState (run empty calls).1 rec_ = some s ↔
      rec_ = .legacy s ∨ ∃ n c p, rec_ = .envelope "task_state" 1 (.str n) p ∧
        Bound (changes (run empty calls).2) n c ∧ c.load p = some s ∧ isState s = true := by
  have ha := agrees_history calls
  cases rec_ with
  | legacy t => simp [deserialize]
  | other => simp [deserialize]
  | envelope e v sh p =>
    obtain ⟨n, rfl⟩ := hname e v sh p rfl
    simp only [deserialize, resolve, get]
    constructor
    · intro h
      right
      split at h
      · cases h
      · rename_i he
        split at h
        · cases h
        · rename_i hv
          simp only [ne_eq, Decidable.not_not] at he hv
          subst he hv
          cases hg : (run empty calls).1.classes.get? n with
          | none => rw [hg] at h; cases h
          | some c =>
            rw [hg] at h
            simp only [instantiate] at h
            cases hl : c.load p with
            | none => rw [hl] at h; cases h
            | some t =>
              rw [hl] at h
              simp only at h
              split at h
              · rename_i hs
                cases h
                exact ⟨n, c, p, rfl, (ha.2 n c).1 hg, hl, hs⟩
              · cases h
    · rintro (h | ⟨m, c, q, h, hb, hl, hs⟩)
      · cases h
      · cases h
        simp only [ne_eq, not_true, if_false, (ha.2 n c).2 hb, instantiate, hl, hs, if_true]

/-- **C63, round trip.**  A task state saved by a store whose shape has the name attribute `n` is restored
unchanged exactly if at that time `n` stands for a class that loads the state to itself. -/
theorem round_trip_iff (isState : π → Bool) (calls : List (Call π)) (shape : Inst π) (s : π) (hs : isState s = true) :
    deserialize isState (run empty calls).1 (serialize shape s) = some s ↔
      ∃ c, Bound (changes (run empty calls).2) shape.cls.attr c ∧ c.load s = some s := by
  rw [restore_iff isState calls _ s (by rintro e v sh p h; cases h; exact ⟨_, rfl⟩)]
  constructor
  · rintro (h | ⟨n, c, p, h, hb, hl, _⟩)
    · cases h
    · cases h; exact ⟨c, hb, hl⟩
  · rintro ⟨c, hb, hl⟩
    exact .inr ⟨_, c, s, rfl, hb, hl, hs⟩

/-- the names of the built-in shapes -/
def builtinNames : List String := ["pydantic", "msgspec", "attrs", "dataclass", "any"]

/-- a call that would change what a built-in name stands for -/
def Touches (n : String) : Call π → Prop
  | .register (.str m) _ true => m = n
  | .unregister m => m = n
  | _ => False

theorem bound_kept {n : String} {c : Cls π} (more : List (Call π)) {r : Reg π} {h : List (Change (Cls π))}
    (ha : Agrees r h) (hb : Bound h n c) (hm : ∀ x ∈ more, ¬ Touches n x) :
    Bound (h ++ changes (run r more).2) n c := by
  induction more generalizing r h with
  | nil => simpa [run, changes] using hb
  | cons x more ih =>
    have hstep := agrees_step ha x
    have : Bound (h ++ (change (x, (step r x).2)).toList) n c := by
      cases hc : change (x, (step r x).2) with
      | none => simpa using hb
      | some y =>
        obtain ⟨a, b, rfl, hb'⟩ := hb
        refine ⟨a, b ++ [y], by simp, fun z hz => ?_⟩
        rcases List.mem_append.1 hz with hz | hz
        · exact hb' z hz
        · simp only [List.mem_singleton] at hz
          subst hz
          have ht := hm x (by simp)
          cases x with
          | register name shape rep =>
            cases name with
            | other => simp [change] at hc
            | str m =>
              have hc0 : change (.register (.str m) shape rep, (register r (.str m) shape rep).2) = some z := hc
              have hz : z.name = m := by
                generalize (register r (.str m) shape rep).2 = ret at hc0
                cases ret <;> simp only [change, reduceCtorEq, Option.some.injEq] at hc0
                subst hc0
                rfl
              intro hmn
              rw [hz] at hmn
              subst hmn
              cases rep with
              | true => exact ht rfl
              | false =>
                have : (register r (.str m) shape false).2 = .raised .registration := by
                  unfold register
                  have hg := (ha.2 m c).2 ⟨a, b, rfl, hb'⟩
                  simp only [Dict.contains, hg, Option.isSome_some, Bool.not_false, Bool.and_self, if_true]
                  split
                  · rfl
                  · split <;> rfl
                rw [this] at hc0
                cases hc0
          | unregister m =>
            have hc0 : change (.unregister m, (unregister r m).2) = some z := hc
            intro hz
            apply ht
            show m = n
            generalize (unregister r m).2 = ret at hc0
            cases ret <;> simp only [change, reduceCtorEq, Option.some.injEq] at hc0
            subst hc0
            exact hz
          | get m => simp [change] at hc
          | available => simp [change] at hc
          | resolve a => simp [change] at hc
    have := ih hstep this fun x hx => hm x (by simp [hx])
    simp only [run, changes, List.filterMap_cons]
    rw [List.append_assoc] at this
    cases hc : change (x, (step r x).2) with
    | none => rw [hc] at this; simpa [changes] using this
    | some y => rw [hc] at this; simpa [changes] using this

theorem bound_import (isState : π → Bool) (construct : String → π → Option π) (attrs msgspec : Bool) (c : Cls π)
    (hc : c ∈ builtin isState construct attrs msgspec) :
    Bound (changes (run empty (imports (builtin isState construct attrs msgspec))).2) c.attr c := by
  have ha := agrees_history (imports (builtin isState construct attrs msgspec))
  rw [← ha.2]
  simp only [builtin, List.mem_cons, List.not_mem_nil, or_false] at hc
  rcases hc with rfl | rfl | rfl | rfl | rfl <;> rfl

/-- **C63, built-in shapes.**  After import and any further calls, as long as nobody unregisters or explicitly
replaces the built-in name, a task state saved with the built-in shape `"pydantic"`, `"dataclass"` or `"any"`,
or with `"attrs"`/`"msgspec"` and the library installed, is restored unchanged. -/
theorem builtin_partial (isState : π → Bool) (construct : String → π → Option π) (attrs msgspec : Bool)
    (more : List (Call π)) (n : String) (hn : n ∈ builtinNames) (hm : ∀ x ∈ more, ¬ Touches n x)
    (hi : (n = "attrs" → attrs = true) ∧ (n = "msgspec" → msgspec = true))
    (shape : Inst π) (hsh : shape.cls.attr = n) (s : π) (hs : isState s = true) :
    deserialize isState (run empty (imports (builtin isState construct attrs msgspec) ++ more)).1 (serialize shape s) =
      some s := by
  rw [round_trip_iff _ _ _ _ hs, hsh, run_append]
  have hex : ∃ c ∈ builtin isState construct attrs msgspec, c.attr = n ∧ c.load s = some s := by
    simp only [builtinNames, List.mem_cons, List.not_mem_nil, or_false] at hn
    unfold builtin
    rcases hn with rfl | rfl | rfl | rfl | rfl
    · exact ⟨_, .head _, rfl, by simp [baseLoad, hs]⟩
    · exact ⟨_, .tail _ (.head _), rfl, by simp [optionalLoad, baseLoad, hs, hi.2 rfl]⟩
    · exact ⟨_, .tail _ (.tail _ (.head _)), rfl, by simp [optionalLoad, baseLoad, hs, hi.1 rfl]⟩
    · exact ⟨_, .tail _ (.tail _ (.tail _ (.head _))), rfl, by simp [baseLoad, hs]⟩
    · exact ⟨_, .tail _ (.tail _ (.tail _ (.tail _ (.head _)))), rfl, by simp [baseLoad, hs]⟩
  obtain ⟨c, hc, ha, hl⟩ := hex
  refine ⟨c, ?_, hl⟩
  have hb := bound_import isState construct attrs msgspec c hc
  rw [ha] at hb
  have := bound_kept more (agrees_history _) hb hm
  unfold changes at this ⊢
  rw [List.filterMap_append]
  exact this

/-- **C63 fails for custom shapes.**  A shape class registered as `"mine"` whose `name` attribute was left at its default
`"shape"` is accepted as scheduler configuration under that name, and stores using it write records that
nobody can restore (the file store then deletes them). -/
theorem custom_witness (isState : π → Bool) (construct : String → π → Option π) (attrs msgspec : Bool) (load : π → Option π)
    (s : π) :
    let c : Cls π := ⟨"shape", load⟩
    let calls := imports (builtin isState construct attrs msgspec) ++ [.register (.str "mine") (.cls c) false]
    let r := (run empty calls).1
    ∃ i, (storeShape r (.str "mine")).2 = .inst i ∧ i.cls = c ∧ deserialize isState r (serialize i s) = none :=
  ⟨_, rfl, rfl, rfl⟩

/-- **C63.**  A store never keeps a shape that does not resolve: it takes the scheduler's, or the default. -/
theorem storeShape_eq (r : Reg π) (a : Arg π) :
    (∃ i, (resolve r a).2 = .inst i ∧ storeShape r a = resolve r a) ∨
    ((∀ i, (resolve r a).2 ≠ .inst i) ∧ (storeShape r a).2 = (resolve r .none).2) := by
  cases a with
  | none =>
    simp only [storeShape, resolve, get]
    cases hg : r.classes.get? "pydantic" with
    | none => exact .inr ⟨fun i h => (by cases h), by simp only [hg]⟩
    | some c => exact .inl ⟨_, rfl, rfl⟩
  | str n =>
    simp only [storeShape, resolve, get]
    cases r.classes.get? n with
    | none => exact .inr ⟨fun i h => (by cases h), rfl⟩
    | some c => exact .inl ⟨_, rfl, rfl⟩
  | cls c => exact .inl ⟨_, rfl, rfl⟩
  | inst i => exact .inl ⟨_, rfl, rfl⟩
  | other => exact .inr ⟨fun i h => (by cases h), rfl⟩

/-- A restored state: the default shape, after a custom registration. -/
example : deserialize (π := Nat) (fun _ => true)
    (run empty (imports (builtin (fun _ => true) (fun _ => some) false false) ++
      [.register (.str "pydantic") (.cls ⟨"x", fun _ => none⟩) false])).1
    (serialize ⟨⟨"pydantic", some⟩, 0⟩ 7) = some 7 := by decide

/-! ## C64: plain dumps -/

/-- a step into a value: an entry of a mapping or a field, or a position of a sequence -/
inductive Step where
  | key (k : String)
  | pos (i : Nat)

/-- the value one step inside another -/
def Part : Value → Step → Value → Prop
  | .record fs, .key k, w => (k, w) ∈ fs
  | .map is, .key k, w => (k, w) ∈ is
  | .tuple is, .pos i, w => is[i]? = some w
  | .list is, .pos i, w => is[i]? = some w
  | .seq is, .pos i, w => is[i]? = some w
  | _, _, _ => False

/-- the value at a path -/
def At (v : Value) : List Step → Value → Prop
  | [], w => v = w
  | s :: p, w => ∃ u, Part v s u ∧ At u p w

/-- no object with a `model_dump` method inside (what such a method returns is up to its library) -/
def NoModel (v : Value) : Prop := ∀ p a b, ¬ At v p (.model a b)

/-- a field or entry that is `None` -/
def NoneEntry : Step → Value → Prop
  | .key _, .none => True
  | _, _ => False

/-- the value at a path that does not lead through a field or entry that is `None` -/
def AtKept (v : Value) : List Step → Value → Prop
  | [], w => v = w
  | s :: p, w => ∃ u, Part v s u ∧ ¬ NoneEntry s u ∧ AtKept u p w

theorem mem_dumpItems {ex : Bool} {l : List (String × Value)} {k : String} {x : Value} :
    (k, x) ∈ dumpItems ex l ↔ ∃ w, (k, w) ∈ l ∧ kept ex w = true ∧ x = dump ex w := by
  induction l with
  | nil => simp [dumpItems]
  | cons a l ih =>
    obtain ⟨k', v⟩ := a
    unfold dumpItems
    by_cases hk : kept ex v = true
    · simp only [hk, if_true, List.mem_cons, ih, Prod.mk.injEq]
      constructor
      · rintro (⟨rfl, rfl⟩ | ⟨w, h1, h2, h3⟩)
        · exact ⟨v, .inl ⟨rfl, rfl⟩, hk, rfl⟩
        · exact ⟨w, .inr h1, h2, h3⟩
      · rintro ⟨w, ⟨rfl, rfl⟩ | h1, h2, h3⟩
        · exact .inl ⟨rfl, h3⟩
        · exact .inr ⟨w, h1, h2, h3⟩
    · simp only [hk, Bool.false_eq_true, if_false, ih, List.mem_cons, Prod.mk.injEq]
      constructor
      · rintro ⟨w, h1, h2, h3⟩; exact ⟨w, .inr h1, h2, h3⟩
      · rintro ⟨w, ⟨rfl, rfl⟩ | h1, h2, h3⟩
        · exact absurd h2 hk
        · exact ⟨w, h1, h2, h3⟩

theorem dumpList_eq (ex : Bool) (l : List Value) : dumpList ex l = l.map (dump ex) := by
  induction l with
  | nil => rfl
  | cons a l ih => simp only [dumpList, List.map_cons, ih]

theorem part_dump {ex : Bool} {v x : Value} {s : Step} (hv : ∀ a b, v ≠ .model a b) :
    Part (dump ex v) s x ↔ ∃ w, Part v s w ∧ (ex = true → ¬ NoneEntry s w) ∧ x = dump ex w := by
  have hkey : ∀ (l : List (String × Value)) k, (k, x) ∈ dumpItems ex l ↔
      ∃ w, (k, w) ∈ l ∧ (ex = true → ¬ NoneEntry (.key k) w) ∧ x = dump ex w := by
    intro l k
    rw [mem_dumpItems]
    constructor
    · rintro ⟨w, h1, h2, h3⟩
      refine ⟨w, h1, fun he hn => ?_, h3⟩
      subst he
      cases w <;> simp [NoneEntry] at hn
      simp [kept, Value.isNone] at h2
    · rintro ⟨w, h1, h2, h3⟩
      refine ⟨w, h1, ?_, h3⟩
      cases ex with
      | false => rfl
      | true =>
        have := h2 rfl
        cases w <;> simp [NoneEntry] at this <;> rfl
  have hpos : ∀ (l : List Value) i, (dumpList ex l)[i]? = some x ↔
      ∃ w, l[i]? = some w ∧ (ex = true → ¬ NoneEntry (.pos i) w) ∧ x = dump ex w := by
    intro l i
    rw [dumpList_eq, List.getElem?_map]
    cases l[i]? with
    | none => simp
    | some w =>
      simp only [Option.map_some, Option.some.injEq]
      constructor
      · rintro rfl; exact ⟨w, rfl, fun _ h => (by cases w <;> exact h), rfl⟩
      · rintro ⟨w', rfl, _, h⟩; exact h.symm
  cases v with
  | model a b => exact absurd rfl (hv a b)
  | none => cases s <;> simp [dump, Part]
  | atom n => cases s <;> simp [dump, Part]
  | record fs => cases s with
    | key k => exact hkey fs k
    | pos i => simp [dump, Part]
  | map fs => cases s with
    | key k => exact hkey fs k
    | pos i => simp [dump, Part]
  | tuple is => cases s with
    | key k => simp [dump, Part]
    | pos i => exact hpos is i
  | list is => cases s with
    | key k => simp [dump, Part]
    | pos i => exact hpos is i
  | seq is => cases s with
    | key k => simp [dump, Part]
    | pos i => exact hpos is i

theorem noModel_part {v w : Value} {s : Step} (h : NoModel v) (hp : Part v s w) : NoModel w :=
  fun p a b ha => h (s :: p) a b ⟨w, hp, ha⟩

theorem at_dump_keep {v : Value} (hv : NoModel v) (p : List Step) (x : Value) :
    At (dump false v) p x ↔ ∃ w, At v p w ∧ x = dump false w := by
  induction p generalizing v with
  | nil => simp only [At]; constructor
           · rintro rfl; exact ⟨v, rfl, rfl⟩
           · rintro ⟨w, rfl, h⟩; exact h.symm
  | cons s p ih =>
    simp only [At]
    constructor
    · rintro ⟨u, hu, ha⟩
      obtain ⟨w, hw, _, rfl⟩ := (part_dump (fun a b e => hv [] a b e)).1 hu
      obtain ⟨y, hy, rfl⟩ := (ih (noModel_part hv hw)).1 ha
      exact ⟨y, ⟨w, hw, hy⟩, rfl⟩
    · rintro ⟨w, ⟨u, hu, ha⟩, rfl⟩
      exact ⟨dump false u, (part_dump (fun a b e => hv [] a b e)).2 ⟨u, hu, (fun h => by cases h), rfl⟩,
        (ih (noModel_part hv hu)).2 ⟨w, ha, rfl⟩⟩

theorem at_dump_drop {v : Value} (hv : NoModel v) (p : List Step) (x : Value) :
    At (dump true v) p x ↔ ∃ w, AtKept v p w ∧ x = dump true w := by
  induction p generalizing v with
  | nil => simp only [At, AtKept]; constructor
           · rintro rfl; exact ⟨v, rfl, rfl⟩
           · rintro ⟨w, rfl, h⟩; exact h.symm
  | cons s p ih =>
    simp only [At, AtKept]
    constructor
    · rintro ⟨u, hu, ha⟩
      obtain ⟨w, hw, hn, rfl⟩ := (part_dump (fun a b e => hv [] a b e)).1 hu
      obtain ⟨y, hy, rfl⟩ := (ih (noModel_part hv hw)).1 ha
      exact ⟨y, ⟨w, hw, hn rfl, hy⟩, rfl⟩
    · rintro ⟨w, ⟨u, hu, hn, ha⟩, rfl⟩
      exact ⟨dump true u, (part_dump (fun a b e => hv [] a b e)).2 ⟨u, hu, fun _ => hn, rfl⟩,
        (ih (noModel_part hv hu)).2 ⟨w, ha, rfl⟩⟩

/-- `p` leads to `w` in `v`; if `ex`, without passing a field or entry that is `None` -/
def Leads (ex : Bool) (v : Value) (p : List Step) (w : Value) : Prop := if ex = true then AtKept v p w else At v p w

/-- **C64.**  The dump of a value without model objects is made of mappings, tuples, lists, `None` and
other plain values only, and has at every path exactly what the value has there: the same plain values, a
mapping where there was a mapping, dataclass or attrs object, a tuple where there was a tuple, a list where there was
a list or other sequence; with `exclude_none`, exactly the fields and entries that are `None` are missing
(items of sequences are kept). -/
theorem dump_exact (ex : Bool) (v : Value) (hv : NoModel v) (p : List Step) :
    (∀ n, At (dump ex v) p (.atom n) ↔ Leads ex v p (.atom n)) ∧
    (At (dump ex v) p .none ↔ Leads ex v p .none) ∧
    ((∃ l, At (dump ex v) p (.map l)) ↔ ∃ l, Leads ex v p (.map l) ∨ Leads ex v p (.record l)) ∧
    ((∃ l, At (dump ex v) p (.tuple l)) ↔ ∃ l, Leads ex v p (.tuple l)) ∧
    ((∃ l, At (dump ex v) p (.list l)) ↔ ∃ l, Leads ex v p (.list l) ∨ Leads ex v p (.seq l)) ∧
    (∀ x, At (dump ex v) p x → (∀ l, x ≠ .record l) ∧ (∀ l, x ≠ .seq l) ∧ ∀ a b, x ≠ .model a b) := by
  have key : ∀ x, At (dump ex v) p x ↔ ∃ w, Leads ex v p w ∧ x = dump ex w := by
    intro x
    cases ex with
    | true => exact at_dump_drop hv p x
    | false => exact at_dump_keep hv p x
  have hkept : ∀ (p : List Step) (v w : Value), AtKept v p w → At v p w := by
    intro p
    induction p with
    | nil => intro v w h; exact h
    | cons s p ih => rintro v w ⟨u, h1, _, h2⟩; exact ⟨u, h1, ih u w h2⟩
  have hno : ∀ a b, ¬ Leads ex v p (.model a b) := by
    intro a b h
    cases ex with
    | true => exact hv p a b (hkept p v _ h)
    | false => exact hv p a b h
  simp only [key]
  refine ⟨fun n => ⟨?_, fun h => ⟨_, h, by simp only [dump]⟩⟩, ⟨?_, fun h => ⟨_, h, by simp only [dump]⟩⟩, ⟨?_, ?_⟩,
    ⟨?_, ?_⟩, ⟨?_, ?_⟩, ?_⟩
  · rintro ⟨w, h, e⟩
    cases w <;> simp only [dump, reduceCtorEq, Value.atom.injEq] at e
    · subst e; exact h
    · exact absurd h (hno _ _)
  · rintro ⟨w, h, e⟩
    cases w <;> simp only [dump, reduceCtorEq] at e
    · exact h
    · exact absurd h (hno _ _)
  · rintro ⟨l, w, h, e⟩
    cases w <;> simp only [dump, reduceCtorEq] at e
    · exact absurd h (hno _ _)
    · exact ⟨_, .inr h⟩
    · exact ⟨_, .inl h⟩
  · rintro ⟨l, h | h⟩
    · exact ⟨_, _, h, by simp only [dump]; rfl⟩
    · exact ⟨_, _, h, by simp only [dump]; rfl⟩
  · rintro ⟨l, w, h, e⟩
    cases w <;> simp only [dump, reduceCtorEq] at e
    · exact absurd h (hno _ _)
    · exact ⟨_, h⟩
  · rintro ⟨l, h⟩
    exact ⟨_, _, h, by simp only [dump]; rfl⟩
  · rintro ⟨l, w, h, e⟩
    cases w <;> simp only [dump, reduceCtorEq] at e
    · exact absurd h (hno _ _)
    · exact ⟨_, .inl h⟩
    · exact ⟨_, .inr h⟩
  · rintro ⟨l, h | h⟩
    · exact ⟨_, _, h, by simp only [dump]; rfl⟩
    · exact ⟨_, _, h, by simp only [dump]; rfl⟩
  · rintro x ⟨w, h, rfl⟩
    cases w <;> simp only [dump, reduceCtorEq, ne_eq, not_false_eq_true, implies_true, and_self]
    exact absurd h (hno _ _)

/-- a dataclass with a list and a `None` field -/
example : dump true (.record [("a", .none), ("b", .seq [.none, .atom 3])]) = .map [("b", .list [.none, .atom 3])] := by
  simp [dump, dumpItems, dumpList, kept, Value.isNone]

example : NoModel (.record [("a", .none), ("b", .seq [.none, .atom 3])]) := by
  intro p a b h
  match p with
  | [] => cases h
  | .pos _ :: _ => obtain ⟨u, h, _⟩ := h; exact h
  | .key k :: p =>
    obtain ⟨u, h, h2⟩ := h
    simp only [Part, List.mem_cons, Prod.mk.injEq, List.not_mem_nil, or_false] at h
    rcases h with ⟨_, rfl⟩ | ⟨_, rfl⟩
    · match p with
      | [] => cases h2
      | .key _ :: _ => obtain ⟨u, h, _⟩ := h2; exact h
      | .pos _ :: _ => obtain ⟨u, h, _⟩ := h2; exact h
    · match p with
      | [] => cases h2
      | .key _ :: _ => obtain ⟨u, h, _⟩ := h2; exact h
      | .pos i :: p =>
        obtain ⟨u, h, h3⟩ := h2
        have hu : u = .none ∨ u = .atom 3 := by
          have := List.mem_of_getElem? h
          simpa using this
        rcases hu with rfl | rfl
        · match p with
          | [] => cases h3
          | .key _ :: _ => obtain ⟨u, h, _⟩ := h3; exact h
          | .pos _ :: _ => obtain ⟨u, h, _⟩ := h3; exact h
        · match p with
          | [] => cases h3
          | .key _ :: _ => obtain ⟨u, h, _⟩ := h3; exact h
          | .pos _ :: _ => obtain ⟨u, h, _⟩ := h3; exact h

end Shapes
end Asyncz
