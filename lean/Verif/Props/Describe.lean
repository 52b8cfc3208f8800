import Verif.Model.Describe
import Verif.Props.Cron
/-!
# C127: the description of a trigger tells its schedule

`trigger_description` of a task is `str(trigger)`.  Two triggers with the same description have the same schedule, up to what is not
described (start and end dates, time zones, jitter, fractions of a second of a date).
-/
namespace Asyncz
namespace Describe

open Cron (Text FieldName Expr showNat natOf fieldText construct fieldNames compileField textOf)

/-! ## Specification -/

/-- what a trigger means, up to start and end dates, time zones and jitter: a date (to the second), the length of an interval, the parsed
fields of a cron trigger, or a combination -/
inductive Meaning where
  | date (s : Stamp)
  | interval (us : Nat)
  | cron (fields : Option (FieldName → List Expr))
  | comb (any : Bool) (members : List Meaning)

mutual
def meaning : Source → Meaning
  | .date s => .date s
  | .interval us => .interval us
  | .cron given => .cron (construct given)
  | .comb any ms => .comb any (meanings ms)
def meanings : List Source → List Meaning
  | [] => []
  | t :: l => meaning t :: meanings l
end

mutual
/-- the abbreviations of time zones have no bracket, and no cron field has a range `0-0` with a step, which is printed without its end
(`C21_zero_range_witness`) -/
def Plain : Source → Prop
  | .date s => ']' ∉ s.abbr
  | .interval _ => True
  | .cron given => ∀ es, construct given = some es → ∀ f n, Expr.range 0 (some 0) (some n) ∉ es f
  | .comb _ ms => AllPlain ms
def AllPlain : List Source → Prop
  | [] => True
  | t :: l => Plain t ∧ AllPlain l
end

/-! ## Proof: texts -/

theorem split_at {c : Char} {a b x y : Text} (ha : c ∉ a) (hb : c ∉ b) (h : a ++ c :: x = b ++ c :: y) : a = b ∧ x = y := by
  induction a generalizing b with
  | nil => cases b with
    | nil => simpa using h
    | cons d b =>
      simp only [List.nil_append, List.cons_append, List.cons.injEq] at h
      exact absurd (by rw [h.1]; simp) hb
  | cons e a ih => cases b with
    | nil =>
      simp only [List.nil_append, List.cons_append, List.cons.injEq] at h
      exact absurd (by rw [← h.1]; simp) ha
    | cons d b =>
      simp only [List.cons_append, List.cons.injEq] at h
      obtain ⟨h1, h2⟩ := ih (fun m => ha (by simp [m])) (fun m => hb (by simp [m])) h.2
      exact ⟨by rw [h.1, h1], h2⟩

theorem digit_not {c : Char} (hc : Cron.isDigit c = false) (n : Nat) : c ∉ showNat n := fun h => by
  have := Cron.showNat_allDigits n c h
  rw [hc] at this; cases this

theorem showNat_inj {n m : Nat} (h : showNat n = showNat m) : n = m := by
  rw [← Cron.natOf_showNat n, h, Cron.natOf_showNat]

theorem natOf_zeros (k : Nat) (t : Text) : natOf (List.replicate k '0' ++ t) = natOf t := by
  induction k with
  | zero => simp
  | succ k ih =>
    rw [List.replicate_succ, List.cons_append]
    rw [← ih]
    simp [natOf]

theorem natOf_pad (k n : Nat) : natOf (pad k n) = n := by rw [pad, natOf_zeros, Cron.natOf_showNat]

theorem pad_inj {k n m : Nat} (h : pad k n = pad k m) : n = m := by rw [← natOf_pad k n, h, natOf_pad]

theorem pad_not {c : Char} (hc : Cron.isDigit c = false) (k n : Nat) : c ∉ pad k n := by
  rw [pad, List.mem_append]
  rintro (h | h)
  · rw [(List.mem_replicate.1 h).2] at hc
    exact absurd hc (by decide)
  · exact digit_not hc n h

theorem stamp_inj {s t : Stamp} (h : s.text = t.text) : s = t := by
  obtain ⟨y, mo, d, hh, mi, se, ab⟩ := s
  obtain ⟨y', mo', d', hh', mi', se', ab'⟩ := t
  simp only [Stamp.text] at h
  obtain ⟨h1, h⟩ := split_at (digit_not (by decide) _) (digit_not (by decide) _) h
  obtain ⟨h2, h⟩ := split_at (pad_not (by decide) _ _) (pad_not (by decide) _ _) h
  obtain ⟨h3, h⟩ := split_at (pad_not (by decide) _ _) (pad_not (by decide) _ _) h
  obtain ⟨h4, h⟩ := split_at (pad_not (by decide) _ _) (pad_not (by decide) _ _) h
  obtain ⟨h5, h⟩ := split_at (pad_not (by decide) _ _) (pad_not (by decide) _ _) h
  obtain ⟨h6, h⟩ := split_at (pad_not (by decide) _ _) (pad_not (by decide) _ _) h
  rw [showNat_inj h1, pad_inj h2, pad_inj h3, pad_inj h4, pad_inj h5, pad_inj h6, h]

theorem clock_inj {h m s u h' m' s' u' : Nat}
    (e : showNat h ++ ':' :: (pad 2 m ++ ':' :: (pad 2 s ++ (if u = 0 then [] else '.' :: pad 6 u))) =
      showNat h' ++ ':' :: (pad 2 m' ++ ':' :: (pad 2 s' ++ (if u' = 0 then [] else '.' :: pad 6 u')))) :
    h = h' ∧ m = m' ∧ s = s' ∧ u = u' := by
  obtain ⟨h1, e⟩ := split_at (digit_not (by decide) _) (digit_not (by decide) _) e
  obtain ⟨h2, e⟩ := split_at (pad_not (by decide) _ _) (pad_not (by decide) _ _) e
  refine ⟨showNat_inj h1, pad_inj h2, ?_⟩
  by_cases hu : u = 0 <;> by_cases hu' : u' = 0
  · rw [if_pos hu, if_pos hu'] at e
    simp only [List.append_nil] at e
    exact ⟨pad_inj e, by omega⟩
  · exfalso
    rw [if_pos hu, if_neg hu', List.append_nil] at e
    exact pad_not (c := '.') (by decide) 2 s (by rw [e]; simp)
  · exfalso
    rw [if_neg hu, if_pos hu', List.append_nil] at e
    exact pad_not (c := '.') (by decide) 2 s' (by rw [← e]; simp)
  · rw [if_neg hu, if_neg hu'] at e
    obtain ⟨e1, e2⟩ := split_at (pad_not (by decide) _ _) (pad_not (by decide) _ _) e
    exact ⟨pad_inj e1, pad_inj e2⟩

theorem clock_not {c : Char} (hc : Cron.isDigit c = false) (h1 : c ≠ ':') (h2 : c ≠ '.') (h m s u : Nat) :
    c ∉ showNat h ++ ':' :: (pad 2 m ++ ':' :: (pad 2 s ++ (if u = 0 then [] else '.' :: pad 6 u))) := by
  have a1 := digit_not hc h
  have a2 := pad_not hc 2 m
  have a3 := pad_not hc 2 s
  have a4 := pad_not hc 6 u
  split <;> simp [a1, a2, a3, a4, h1, h2]

theorem delta_inj {n m : Nat} (h : deltaText n = deltaText m) : n = m := by
  simp only [deltaText] at h
  have key : n / 86400000000 = m / 86400000000 ∧ (n / 3600000000 % 24 = m / 3600000000 % 24 ∧ n / 60000000 % 60 = m / 60000000 % 60 ∧
      n / 1000000 % 60 = m / 1000000 % 60 ∧ n % 1000000 = m % 1000000) := by
    by_cases hd : n / 86400000000 = 0 <;> by_cases hd' : m / 86400000000 = 0
    · rw [if_pos hd, if_pos hd', List.nil_append, List.nil_append] at h
      exact ⟨by omega, clock_inj h⟩
    · exfalso
      rw [if_pos hd, if_neg hd', List.nil_append] at h
      have := clock_not (c := ' ') (by decide) (by decide) (by decide) (n / 3600000000 % 24) (n / 60000000 % 60) (n / 1000000 % 60) (n % 1000000)
      rw [h] at this
      simp at this
    · exfalso
      rw [if_neg hd, if_pos hd', List.nil_append] at h
      have := clock_not (c := ' ') (by decide) (by decide) (by decide) (m / 3600000000 % 24) (m / 60000000 % 60) (m / 1000000 % 60) (m % 1000000)
      rw [← h] at this
      simp at this
    · rw [if_neg hd, if_neg hd', List.append_assoc, List.append_assoc, List.cons_append, List.cons_append] at h
      obtain ⟨h1, h⟩ := split_at (digit_not (by decide) _) (digit_not (by decide) _) h
      have h1 := showNat_inj h1
      rw [h1] at h
      have h := List.append_cancel_left h
      exact ⟨h1, clock_inj h⟩
  omega

theorem delta_not {c : Char} (hc : Cron.isDigit c = false) (h : c ∉ [' ', ',', ':', '.', 'd', 'a', 'y', 's']) (n : Nat) : c ∉ deltaText n := by
  simp only [List.mem_cons, List.not_mem_nil, or_false, not_or] at h
  obtain ⟨q1, q2, q3, q4, q5, q6, q7, q8⟩ := h
  simp only [deltaText]
  have a := clock_not hc q3 q4 (n / 3600000000 % 24) (n / 60000000 % 60) (n / 1000000 % 60) (n % 1000000)
  rw [List.mem_append, not_or]
  refine ⟨?_, a⟩
  have b := digit_not hc (n / 86400000000)
  split
  · simp
  · split <;> simp [b, q1, q2, q5, q6, q7, q8]

theorem stamp_not {s : Stamp} (h : ']' ∉ s.abbr) : ']' ∉ s.text := by
  have a1 := digit_not (c := ']') (by decide) s.year
  have p := fun k n => pad_not (c := ']') (by decide) k n
  simp [Stamp.text, a1, p, h]

/-! ## Cron fields -/

theorem label_inj {f g : FieldName} (h : label f = label g) : f = g := by cases f <;> cases g <;> first | rfl | (exact absurd h (by decide))
theorem label_not (f : FieldName) : '=' ∉ label f ∧ ∃ c r, label f = c :: r ∧ c ≠ ']' := by
  cases f <;> exact ⟨by decide, _, _, rfl, by decide⟩

theorem options_code (l m : List (FieldName × Text)) (hl : ∀ p ∈ l, '\'' ∉ p.2) (hm : ∀ p ∈ m, '\'' ∉ p.2) {u v : Text}
    (h : optionsText l ++ ']' :: u = optionsText m ++ ']' :: v) : l = m ∧ u = v := by
  induction l generalizing m with
  | nil => cases m with
    | nil => exact ⟨rfl, by simpa [optionsText] using h⟩
    | cons q m =>
      exfalso
      obtain ⟨_, c, r, hc, hne⟩ := label_not q.1
      cases m <;> simp [optionsText, hc] at h <;> exact hne h.1.symm
  | cons p l ih => cases m with
    | nil =>
      exfalso
      obtain ⟨_, c, r, hc, hne⟩ := label_not p.1
      cases l <;> simp [optionsText, hc] at h <;> exact hne h.1
    | cons q m =>
      have shape : ∀ (p : FieldName × Text) (l : List (FieldName × Text)) (u : Text), optionsText (p :: l) ++ ']' :: u =
          label p.1 ++ '=' :: ('\'' :: (p.2 ++ '\'' :: ((match l with | [] => [] | l => ',' :: ' ' :: optionsText l) ++ ']' :: u))) := by
        intro p l u
        cases l <;> simp [optionsText]
      rw [shape, shape] at h
      obtain ⟨h1, h⟩ := split_at (label_not _).1 (label_not _).1 h
      simp only [List.cons.injEq, true_and] at h
      obtain ⟨h2, h3⟩ := split_at (hl p (by simp)) (hm q (by simp)) h
      clear h
      have hpq : p = q := by
        obtain ⟨a, b⟩ := p
        obtain ⟨c, d⟩ := q
        simp only at h1 h2
        rw [label_inj h1, h2]
      subst hpq
      cases l with
      | nil => cases m with
        | nil => exact ⟨rfl, by simpa using h3⟩
        | cons _ _ => simp at h3
      | cons p' l => cases m with
        | nil => simp at h3
        | cons q' m =>
          simp only [List.cons_append, List.cons.injEq, true_and] at h3
          obtain ⟨i1, i2⟩ := ih (q' :: m) (fun x hx => hl x (List.mem_cons_of_mem _ hx)) (fun x hx => hm x (List.mem_cons_of_mem _ hx)) h3
          exact ⟨by rw [i1], i2⟩

theorem text_plain {f : FieldName} {e : Expr} (hw : Cron.Wf f e) : '\'' ∉ e.text := by
  have dg := fun n => digit_not (c := '\'') (by decide) n
  have hmo : ∀ k : Nat, '\'' ∉ Cron.months[k]?.getD [] := by
    intro k
    by_cases hk : k < 12
    · have : k = 0 ∨ k = 1 ∨ k = 2 ∨ k = 3 ∨ k = 4 ∨ k = 5 ∨ k = 6 ∨ k = 7 ∨ k = 8 ∨ k = 9 ∨ k = 10 ∨ k = 11 := by omega
      rcases this with rfl | rfl | rfl | rfl | rfl | rfl | rfl | rfl | rfl | rfl | rfl | rfl <;> decide
    · rw [List.getElem?_eq_none (by simp [Cron.months]; omega)]; simp
  have hwd : ∀ k : Nat, '\'' ∉ Cron.weekdays[k]?.getD [] := by
    intro k
    by_cases hk : k < 7
    · have : k = 0 ∨ k = 1 ∨ k = 2 ∨ k = 3 ∨ k = 4 ∨ k = 5 ∨ k = 6 := by omega
      rcases this with rfl | rfl | rfl | rfl | rfl | rfl | rfl <;> decide
    · rw [List.getElem?_eq_none (by simp [Cron.weekdays]; omega)]; simp
  have hop : ∀ k : Nat, '\'' ∉ Cron.options[k]?.getD [] := by
    intro k
    by_cases hk : k < 6
    · have : k = 0 ∨ k = 1 ∨ k = 2 ∨ k = 3 ∨ k = 4 ∨ k = 5 := by omega
      rcases this with rfl | rfl | rfl | rfl | rfl | rfl <;> decide
    · rw [List.getElem?_eq_none (by simp [Cron.options]; omega)]; simp
  have hst : ∀ n, '\'' ∉ Cron.stepText n := by
    intro n
    cases n with
    | none => simp [Cron.stepText]
    | some n => simp only [Cron.stepText]; split <;> simp [dg]
  cases e with
  | all n =>
    cases n with
    | none => decide
    | some n => simp only [Expr.text]; split <;> simp [dg]
  | range a b n =>
    simp only [Expr.text, List.mem_append, not_or]
    refine ⟨?_, hst n⟩
    cases b with
    | none => exact dg a
    | some l => simp only [Cron.rangeText]; split <;> simp [dg]
  | monthRange a b => simp only [Expr.text]; split <;> simp [hmo] 
  | weekdayRange a b => simp only [Expr.text]; split <;> simp [hwd]
  | weekdayPos o w => simp [Expr.text, hop, hwd]
  | lastDay => decide

theorem join_plain {l : List Text} (h : ∀ t ∈ l, '\'' ∉ t) : '\'' ∉ Cron.joinComma l := by
  induction l with
  | nil => simp [Cron.joinComma]
  | cons t l ih => cases l with
    | nil => simpa [Cron.joinComma] using h
    | cons u l =>
      simp only [Cron.joinComma, List.mem_append, List.mem_cons, not_or]
      exact ⟨h t (by simp), by decide, ih fun x hx => h x (List.mem_cons_of_mem _ hx)⟩

theorem construct_some {given : FieldName → Option Text} {es : FieldName → List Expr} (h : construct given = some es) (f : FieldName) :
    compileField f (textOf given f) = some (es f) := by
  simp only [construct] at h
  split at h
  · rename_i hall
    cases h
    have := List.all_eq_true.1 hall f (by cases f <;> decide)
    cases hc : compileField f (textOf given f) with
    | none => rw [hc] at this; cases this
    | some x => simp [hc]
  · cases h

theorem field_plain {f : FieldName} {s : Text} {es : List Expr} (h : compileField f s = some es) : '\'' ∉ fieldText es := by
  refine join_plain fun t ht => ?_
  obtain ⟨e, he, rfl⟩ := List.mem_map.1 ht
  exact text_plain ((Cron.compileField_wf h).2 e he).1

/-- the text of a field that was not given depends only on which fields were given -/
theorem choose_default {given given' : FieldName → Option Text} (hg : ∀ f, (given f).isSome = (given' f).isSome) {f : FieldName}
    (hf : given f = none) (fs left : List FieldName) (a : Bool) :
    (Cron.chooseTexts given fs left a).find? (fun p => p.1 == f) = (Cron.chooseTexts given' fs left a).find? (fun p => p.1 == f) := by
  induction fs generalizing left a with
  | nil => rfl
  | cons g fs ih =>
    have := hg g
    simp only [Cron.chooseTexts]
    cases h1 : given g with
    | none =>
      rw [h1] at this
      cases h2 : given' g with
      | some _ => rw [h2] at this; cases this
      | none =>
        simp only [List.find?_cons]
        split
        · rfl
        · exact ih _ _
    | some t =>
      rw [h1] at this
      cases h2 : given' g with
      | none => rw [h2] at this; cases this
      | some t' =>
        have hne : (g == f) = false := by
          rw [beq_eq_false_iff_ne]
          rintro rfl
          rw [h1] at hf; cases hf
        simp only [List.find?_cons, hne]
        exact ih _ _

theorem textOf_default {given given' : FieldName → Option Text} (hg : ∀ f, (given f).isSome = (given' f).isSome) {f : FieldName}
    (hf : given f = none) : textOf given f = textOf given' f := by
  have : (fieldNames.filter fun f => (given f).isSome) = fieldNames.filter fun f => (given' f).isSome := by
    congr 1; funext f; exact hg f
  simp only [textOf]
  rw [choose_default hg hf, this]

theorem filter_map_inj {β : Type} (p q : FieldName → Bool) (x y : FieldName → β) (l : List FieldName)
    (h : ((l.filter p).map fun f => (f, x f)) = (l.filter q).map fun f => (f, y f)) : ∀ f ∈ l, p f = q f ∧ (p f = true → x f = y f) := by
  have key : ∀ f, ((∃ z, (f, z) ∈ (l.filter p).map fun f => (f, x f)) ↔ f ∈ l ∧ p f = true) := by
    intro f
    constructor
    · rintro ⟨z, hz⟩
      obtain ⟨a, ha, hz⟩ := List.mem_map.1 hz
      cases hz
      exact List.mem_filter.1 ha
    · exact fun hf => ⟨_, List.mem_map.2 ⟨f, List.mem_filter.2 hf, rfl⟩⟩
  have key' : ∀ f, ((∃ z, (f, z) ∈ (l.filter q).map fun f => (f, y f)) ↔ f ∈ l ∧ q f = true) := by
    intro f
    constructor
    · rintro ⟨z, hz⟩
      obtain ⟨a, ha, hz⟩ := List.mem_map.1 hz
      cases hz
      exact List.mem_filter.1 ha
    · exact fun hf => ⟨_, List.mem_map.2 ⟨f, List.mem_filter.2 hf, rfl⟩⟩
  intro f hf
  have e : p f = q f := by
    have := key f
    rw [h, key'] at this
    simp only [hf, true_and] at this
    cases hp : p f <;> cases hq : q f <;> simp_all
  refine ⟨e, fun hp => ?_⟩
  have : (f, x f) ∈ (l.filter q).map fun f => (f, y f) := by
    rw [← h]; exact List.mem_map.2 ⟨f, List.mem_filter.2 ⟨hf, hp⟩, rfl⟩
  obtain ⟨g, _, hg⟩ := List.mem_map.1 this
  simp only [Prod.mk.injEq] at hg
  obtain ⟨rfl, hg⟩ := hg
  exact hg.symm

theorem cron_inj {given given' : FieldName → Option Text} {es es' : FieldName → List Expr} (h : construct given = some es)
    (h' : construct given' = some es') (hz : ∀ f n, Expr.range 0 (some 0) (some n) ∉ es f)
    (hz' : ∀ f n, Expr.range 0 (some 0) (some n) ∉ es' f)
    (e : ((fieldNames.filter fun f => (given f).isSome).map fun f => (f, fieldText (es f))) =
      (fieldNames.filter fun f => (given' f).isSome).map fun f => (f, fieldText (es' f))) : es = es' := by
  have hall : ∀ f : FieldName, f ∈ fieldNames := by intro f; cases f <;> decide
  have k := filter_map_inj _ _ _ _ _ e
  have hg : ∀ f, (given f).isSome = (given' f).isSome := fun f => (k f (hall f)).1
  funext f
  have c1 := construct_some h f
  have c2 := construct_some h' f
  cases hf : given f with
  | none =>
    rw [← textOf_default hg hf, c1] at c2
    exact Option.some.inj c2
  | some t =>
    have ht := (k f (hall f)).2 (by rw [hf]; rfl)
    have r1 := Cron.C21_roundtrip_partial f _ _ c1 (hz f)
    have r2 := Cron.C21_roundtrip_partial f _ _ c2 (hz' f)
    rw [ht, r2] at r1
    exact (Option.some.inj r1).symm

/-! ## Whole triggers -/

theorem describe_head {t : Source} {x : Text} (h : describe t = some x) : ∃ c r, x = c :: r ∧ c ≠ ']' := by
  cases t with
  | date s => simp only [describe, Option.some.injEq] at h; subst h; exact ⟨_, _, rfl, by decide⟩
  | interval us => simp only [describe, Option.some.injEq] at h; subst h; exact ⟨_, _, rfl, by decide⟩
  | cron given =>
    simp only [describe, Option.map_eq_some_iff] at h
    obtain ⟨es, _, rfl⟩ := h
    exact ⟨_, _, rfl, by decide⟩
  | comb any ms =>
    simp only [describe, Option.map_eq_some_iff] at h
    obtain ⟨y, _, rfl⟩ := h
    cases any <;> exact ⟨_, _, rfl, by decide⟩

theorem describeAll_cons {t : Source} {l : List Source} {x : Text} (h : describeAll (t :: l) = some x) :
    ∃ a, describe t = some a ∧ ((l = [] ∧ x = a) ∨ (l ≠ [] ∧ ∃ b, describeAll l = some b ∧ x = a ++ ',' :: ' ' :: b)) := by
  cases l with
  | nil => exact ⟨x, by simpa [describeAll] using h, .inl ⟨rfl, rfl⟩⟩
  | cons u l =>
    rw [describeAll] at h
    split at h
    · rename_i a b h1 h2
      cases h
      exact ⟨a, h1, .inr ⟨by simp, b, h2, rfl⟩⟩
    · cases h

/-- the kind of a trigger, which is the name before the bracket -/
def kind : Source → Text
  | .date _ => "date".toList
  | .interval _ => "interval".toList
  | .cron _ => "cron".toList
  | .comb any _ => if any then "or".toList else "and".toList

/-- what stands in the brackets -/
def body : Source → Option Text
  | .date s => some s.text
  | .interval us => some (deltaText us)
  | .cron given => (construct given).map fun es => optionsText ((fieldNames.filter fun f => (given f).isSome).map fun f => (f, fieldText (es f)))
  | .comb _ ms => describeAll ms

theorem describe_eq {t : Source} {x : Text} (h : describe t = some x) : ∃ y, body t = some y ∧ x = kind t ++ '[' :: (y ++ [']']) := by
  cases t with
  | date s => simp only [describe, Option.some.injEq] at h; exact ⟨_, rfl, h.symm⟩
  | interval us => simp only [describe, Option.some.injEq] at h; exact ⟨_, rfl, h.symm⟩
  | cron given =>
    simp only [describe, Option.map_eq_some_iff] at h
    obtain ⟨es, h1, rfl⟩ := h
    exact ⟨_, by simp only [body, h1, Option.map_some], rfl⟩
  | comb any ms =>
    simp only [describe, Option.map_eq_some_iff] at h
    obtain ⟨y, h1, rfl⟩ := h
    exact ⟨y, h1, rfl⟩

/-- the same, as lists -/
def kindList : Source → Text
  | .date _ => ['d', 'a', 't', 'e']
  | .interval _ => ['i', 'n', 't', 'e', 'r', 'v', 'a', 'l']
  | .cron _ => ['c', 'r', 'o', 'n']
  | .comb true _ => ['o', 'r']
  | .comb false _ => ['a', 'n', 'd']

theorem kind_cases (t : Source) : kind t = kindList t := by
  match t with
  | .comb true _ => rfl
  | .comb false _ => rfl
  | .date _ => rfl
  | .interval _ => rfl
  | .cron _ => rfl

theorem kind_not (t : Source) : '[' ∉ kind t := by
  rw [kind_cases]
  match t with
  | .comb true _ => exact (by decide : '[' ∉ ['o', 'r'])
  | .comb false _ => exact (by decide : '[' ∉ ['a', 'n', 'd'])
  | .date _ => exact (by decide : '[' ∉ ['d', 'a', 't', 'e'])
  | .interval _ => exact (by decide : '[' ∉ ['i', 'n', 't', 'e', 'r', 'v', 'a', 'l'])
  | .cron _ => exact (by decide : '[' ∉ ['c', 'r', 'o', 'n'])

mutual
theorem code (s t : Source) (hs : Plain s) (ht : Plain t) {x y u v : Text} (hx : describe s = some x) (hy : describe t = some y)
    (h : x ++ u = y ++ v) : meaning s = meaning t ∧ u = v := by
  obtain ⟨bx, hbx, rfl⟩ := describe_eq hx
  obtain ⟨bY, hbY, rfl⟩ := describe_eq hy
  simp only [List.append_assoc, List.cons_append, List.nil_append] at h
  obtain ⟨hk, h0⟩ := split_at (kind_not s) (kind_not t) h
  clear h
  rw [kind_cases, kind_cases] at hk
  match s, t, hs, ht, hbx, hbY, hk with
  | .date a, .date b, hs, ht, hbx, hbY, _ =>
    simp only [body, Option.some.injEq] at hbx hbY
    subst hbx hbY
    obtain ⟨h1, h2⟩ := split_at (stamp_not (by simpa only [Plain] using hs)) (stamp_not (by simpa only [Plain] using ht)) h0
    exact ⟨by rw [stamp_inj h1], h2⟩
  | .interval a, .interval b, _, _, hbx, hbY, _ =>
    simp only [body, Option.some.injEq] at hbx hbY
    subst hbx hbY
    obtain ⟨h1, h2⟩ := split_at (delta_not (by decide) (by decide) _) (delta_not (by decide) (by decide) _) h0
    exact ⟨by rw [delta_inj h1], h2⟩
  | .cron a, .cron b, hs, ht, hbx, hbY, _ =>
    simp only [body, Option.map_eq_some_iff] at hbx hbY
    obtain ⟨es, h1, rfl⟩ := hbx
    obtain ⟨es', h2, rfl⟩ := hbY
    have pl : ∀ (g : FieldName → Option Text) (es : FieldName → List Expr), construct g = some es →
        ∀ p ∈ (fieldNames.filter fun f => (g f).isSome).map fun f => (f, fieldText (es f)), '\'' ∉ p.2 := by
      intro g es hg p hp
      obtain ⟨f, _, rfl⟩ := List.mem_map.1 hp
      exact field_plain (construct_some hg f)
    obtain ⟨h3, h4⟩ := options_code _ _ (pl _ _ h1) (pl _ _ h2) h0
    simp only [Plain] at hs ht
    have := cron_inj h1 h2 (hs es h1) (ht es' h2) h3
    exact ⟨by simp only [meaning, h1, h2, this], h4⟩
  | .comb a l, .comb b m, hs, ht, hbx, hbY, hk =>
    simp only [Plain] at hs ht
    obtain ⟨h1, h2⟩ := codeAll l m hs ht hbx hbY h0
    have hab : a = b := by cases a <;> cases b <;> simp [kindList] at hk ⊢
    exact ⟨by simp only [meaning, hab, h1], h2⟩
  | .date _, .interval _, _, _, _, _, hk => exact absurd hk (by simp [kindList])
  | .date _, .cron _, _, _, _, _, hk => exact absurd hk (by simp [kindList])
  | .date _, .comb a _, _, _, _, _, hk => cases a <;> exact absurd hk (by simp [kindList])
  | .interval _, .date _, _, _, _, _, hk => exact absurd hk (by simp [kindList])
  | .interval _, .cron _, _, _, _, _, hk => exact absurd hk (by simp [kindList])
  | .interval _, .comb a _, _, _, _, _, hk => cases a <;> exact absurd hk (by simp [kindList])
  | .cron _, .date _, _, _, _, _, hk => exact absurd hk (by simp [kindList])
  | .cron _, .interval _, _, _, _, _, hk => exact absurd hk (by simp [kindList])
  | .cron _, .comb a _, _, _, _, _, hk => cases a <;> exact absurd hk (by simp [kindList])
  | .comb a _, .date _, _, _, _, _, hk => cases a <;> exact absurd hk (by simp [kindList])
  | .comb a _, .interval _, _, _, _, _, hk => cases a <;> exact absurd hk (by simp [kindList])
  | .comb a _, .cron _, _, _, _, _, hk => cases a <;> exact absurd hk (by simp [kindList])
theorem codeAll (l m : List Source) (hl : AllPlain l) (hm : AllPlain m) {x y u v : Text} (hx : describeAll l = some x)
    (hy : describeAll m = some y) (h : x ++ ']' :: u = y ++ ']' :: v) : meanings l = meanings m ∧ u = v := by
  match l, m, hl, hm, hx, hy with
  | [], [], _, _, hx, hy =>
    simp only [describeAll, Option.some.injEq] at hx hy
    subst hx hy
    exact ⟨rfl, by simpa using h⟩
  | [], t :: m, _, _, hx, hy =>
    exfalso
    simp only [describeAll, Option.some.injEq] at hx
    subst hx
    obtain ⟨a, ha, hc⟩ := describeAll_cons hy
    obtain ⟨c, r, rfl, hne⟩ := describe_head ha
    rcases hc with ⟨_, rfl⟩ | ⟨_, b, _, rfl⟩ <;> simp at h <;> exact hne h.1.symm
  | t :: l, [], _, _, hx, hy =>
    exfalso
    simp only [describeAll, Option.some.injEq] at hy
    subst hy
    obtain ⟨a, ha, hc⟩ := describeAll_cons hx
    obtain ⟨c, r, rfl, hne⟩ := describe_head ha
    rcases hc with ⟨_, rfl⟩ | ⟨_, b, _, rfl⟩ <;> simp at h <;> exact hne h.1
  | s :: l, t :: m, hl, hm, hx, hy =>
    simp only [AllPlain] at hl hm
    obtain ⟨a, ha, hc⟩ := describeAll_cons hx
    obtain ⟨b, hb, hd⟩ := describeAll_cons hy
    rcases hc with ⟨rfl, rfl⟩ | ⟨hl0, a', ha', rfl⟩ <;> rcases hd with ⟨rfl, rfl⟩ | ⟨hm0, b', hb', rfl⟩
    · obtain ⟨h1, h2⟩ := code s t hl.1 hm.1 ha hb h
      simp only [List.cons.injEq, true_and] at h2
      exact ⟨by simp only [meanings, h1], h2⟩
    · rw [List.append_assoc] at h
      obtain ⟨h1, h2⟩ := code s t hl.1 hm.1 ha hb h
      simp at h2
    · rw [List.append_assoc] at h
      obtain ⟨h1, h2⟩ := code s t hl.1 hm.1 ha hb h
      simp at h2
    · rw [List.append_assoc, List.append_assoc] at h
      obtain ⟨h1, h2⟩ := code s t hl.1 hm.1 ha hb h
      simp only [List.cons_append, List.cons.injEq, true_and] at h2
      obtain ⟨h3, h4⟩ := codeAll l m hl.2 hm.2 ha' hb' h2
      exact ⟨by simp only [meanings, h1, h3], h4⟩
end

/-- **C127.** Two triggers with the same description have the same schedule, up to start and end dates, time zones and jitter: they are
dates of the same second, intervals of the same length, cron triggers with the same parsed fields (given or by default), or combinations
of the same kind of members with this property, in the same order. -/
theorem C127_description_partial (s t : Source) (hs : Plain s) (ht : Plain t) (x : Text) (hx : describe s = some x)
    (hy : describe t = some x) : meaning s = meaning t :=
  (code s t hs ht hx hy rfl (u := []) (v := [])).1

/-- every day at five (`hour` as given), or every day and ten seconds, or on a certain date -/
def exampleTrigger (hour : Text) (us : Nat) : Source :=
  .comb true [.cron fun f => if f = .hour then some hour else none, .interval us,
    .comb false [.date ⟨2026, 3, 9, 7, 5, 0, "UTC".toList⟩]]

example : describe (exampleTrigger "5".toList 86410000000) =
    some "or[cron[hour='5'], interval[1 day, 0:00:10], and[date[2026-03-09 07:05:00 UTC]]]".toList := by decide +kernel

theorem plain_cron {given : FieldName → Option Text} (k : ∀ es, construct given = some es → ∀ f ∈ fieldNames,
    (es f).all (fun e => match e with | .range 0 (some 0) (some _) => false | _ => true) = true) : Plain (.cron given) := by
  simp only [Plain]
  intro es h f n hm
  have := List.all_eq_true.1 (k es h f (by cases f <;> decide)) _ hm
  cases this

/-- the hypotheses are met by two triggers made in different ways: another spelling of the hour -/
example : Plain (exampleTrigger "5".toList 86410000000) ∧ Plain (exampleTrigger "05, 5-5".toList 86410000000) := by
  have one : ∀ h : Text, ((construct fun f => if f = FieldName.hour then some h else none).all fun es => fieldNames.all fun f =>
      (es f).all (fun e => match e with | .range 0 (some 0) (some _) => false | _ => true)) = true →
      Plain (exampleTrigger h 86410000000) := by
    intro h k
    simp only [exampleTrigger, Plain, AllPlain, and_true, true_and]
    refine ⟨plain_cron fun es he => ?_, by decide⟩
    rw [he] at k
    exact List.all_eq_true.1 k
  exact ⟨one _ (by decide +kernel), one _ (by decide +kernel)⟩

example : describe (exampleTrigger "05".toList 86410000000) = describe (exampleTrigger "5".toList 86410000000) := by decide +kernel

/-- **C127, counterexample**: a cron trigger for the minutes `0-0/2`, which is once an hour, has the description of one for `0/2`, which
is every second minute. -/
theorem C127_zero_range_witness :
    describe (.cron fun f => if f = .minute then some "0-0/2".toList else none) = some "cron[minute='0/2']".toList ∧
    describe (.cron fun f => if f = .minute then some "0/2".toList else none) = some "cron[minute='0/2']".toList ∧
    ((construct fun f => if f = .minute then some "0-0/2".toList else none).map fun es => es .minute) = some [.range 0 (some 0) (some 2)] ∧
    ((construct fun f => if f = .minute then some "0/2".toList else none).map fun es => es .minute) = some [.range 0 none (some 2)] := by
  refine ⟨?_, ?_, ?_, ?_⟩ <;> decide +kernel

end Describe
end Asyncz
