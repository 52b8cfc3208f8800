import Verif.Props.Cron
/-!
# Crontab expressions and defaults of cron fields (C56), rounding helpers (C54)
-/
namespace Asyncz
namespace Cron

/-! ## Specification -/

/-- `s` consists of the words `ws`, separated by blanks, with any blanks around them. -/
inductive Splits : Text → List Text → Prop
  | nil {s : Text} (h : ∀ c ∈ s, isBlank c = true) : Splits s []
  | cons {b w rest : Text} {ws : List Text} (hb : ∀ c ∈ b, isBlank c = true) (hw : ∀ c ∈ w, isBlank c = false)
      (hne : w ≠ []) (hr : rest = [] ∨ ∃ c cs, rest = c :: cs ∧ isBlank c = true) (h : Splits rest ws) :
      Splits (b ++ w ++ rest) (w :: ws)

/-- The order of significance of the fields. -/
def rank : FieldName → Nat
  | .year => 0 | .month => 1 | .day => 2 | .week => 3 | .dayOfWeek => 4 | .hour => 5 | .minute => 6 | .second => 7

/-- The text that documentation gives an omitted field: the least value (every week and every weekday) if it is less
significant than every given field and some field is given, else every value. -/
def OmittedText (given : FieldName → Option Text) (f : FieldName) (t : Text) : Prop :=
  (((∃ g, (given g).isSome) ∧ ∀ g, (given g).isSome → rank g < rank f) →
    t = match f with
      | .month => ['1'] | .day => ['1'] | .hour => ['0'] | .minute => ['0'] | .second => ['0'] | _ => ['*']) ∧
  (¬ ((∃ g, (given g).isSome) ∧ ∀ g, (given g).isSome → rank g < rank f) → t = ['*'])

/-! ## Proofs -/

theorem dropWhile_all {p : Char → Bool} {b s : Text} (h : ∀ c ∈ b, p c = true) : (b ++ s).dropWhile p = s.dropWhile p := by
  induction b with
  | nil => rfl
  | cons c b ih =>
    rw [List.cons_append, List.dropWhile_cons, if_pos (h c (by simp))]
    exact ih fun c hc => h c (List.mem_cons_of_mem _ hc)

theorem takeWhile_word {p : Char → Bool} {w rest : Text} (hw : ∀ c ∈ w, p c = true)
    (hr : rest = [] ∨ ∃ c cs, rest = c :: cs ∧ p c = false) :
    (w ++ rest).takeWhile p = w ∧ (w ++ rest).dropWhile p = rest := by
  induction w with
  | nil =>
    rcases hr with rfl | ⟨c, cs, rfl, hc⟩
    · exact ⟨rfl, rfl⟩
    · simp [hc]
  | cons c w ih =>
    have := ih fun c hc => hw c (List.mem_cons_of_mem _ hc)
    have hc := hw c (by simp)
    constructor
    · rw [List.cons_append, List.takeWhile_cons, if_pos hc, this.1]
    · rw [List.cons_append, List.dropWhile_cons, if_pos hc, this.2]

theorem of_mem_takeWhile {p : Char → Bool} {s : Text} {c : Char} (h : c ∈ s.takeWhile p) : p c = true :=
  List.all_eq_true.1 List.all_takeWhile c h

theorem words_of_splits {s : Text} {ws : List Text} (h : Splits s ws) : words s = ws := by
  induction h with
  | nil h =>
    rename_i s
    have : s.dropWhile isBlank = [] := by
      have := dropWhile_all (s := []) h
      simpa using this
    rw [words]; split
    · rfl
    · rename_i e; rw [this] at e; cases e
  | cons hb hw hne hr h ih =>
    rename_i b w rest ws
    obtain ⟨c, cs, rfl⟩ := List.exists_cons_of_ne_nil hne
    have hc : isBlank c = false := hw c (by simp)
    have hd : (b ++ (c :: cs) ++ rest).dropWhile isBlank = c :: (cs ++ rest) := by
      rw [List.append_assoc, dropWhile_all hb, List.cons_append, List.dropWhile_cons, if_neg (by simp [hc])]
    have ht := takeWhile_word (p := fun c => !isBlank c) (w := c :: cs) (rest := rest) (fun x hx => by simp [hw x hx]) (by
      rcases hr with hr | ⟨c, cs, hr, hc⟩
      · exact .inl hr
      · exact .inr ⟨c, cs, hr, by simp [hc]⟩)
    rw [words]; split
    · rename_i e; rw [hd] at e; cases e
    · rename_i c' cs' e
      rw [hd] at e
      cases e
      rw [← List.cons_append, ht.1, ht.2, ih]

theorem splits_words (s : Text) : Splits s (words s) := by
  induction s using words.induct with
  | case1 s h =>
    rw [words]; split
    · exact .nil (by
        intro c hc
        have := List.takeWhile_append_dropWhile (p := isBlank) (l := s)
        rw [h, List.append_nil] at this
        rw [← this] at hc
        exact of_mem_takeWhile hc)
    · rename_i e; rw [h] at e; cases e
  | case2 s c cs h ih =>
    rw [words]; split
    · rename_i e; rw [h] at e; cases e
    · rename_i c' cs' e
      rw [h] at e; cases e
      have hs : s = s.takeWhile isBlank ++ (c :: cs).takeWhile (fun c => !isBlank c) ++
          (c :: cs).dropWhile (fun c => !isBlank c) := by
        rw [List.append_assoc, List.takeWhile_append_dropWhile, ← h, List.takeWhile_append_dropWhile]
      have hc : isBlank c = false := by
        have := List.head?_dropWhile_not isBlank s
        rw [h] at this
        simpa using this
      rw (occs := .pos [1]) [hs]
      refine .cons (fun x hx => of_mem_takeWhile hx) (fun x hx => ?_) ?_ ?_ ih
      · simpa using of_mem_takeWhile hx
      · simp [hc]
      · cases hd : (c :: cs).dropWhile (fun c => !isBlank c) with
        | nil => exact .inl rfl
        | cons x xs =>
          refine .inr ⟨x, xs, rfl, ?_⟩
          have := List.head?_dropWhile_not (fun c => !isBlank c) (c :: cs)
          rw [hd] at this
          simpa using this

theorem words_iff {s : Text} {ws : List Text} : words s = ws ↔ Splits s ws :=
  ⟨fun h => h ▸ splits_words s, words_of_splits⟩

/-- what `chooseTexts` does with one field -/
theorem choose_find (given : FieldName → Option Text) : ∀ (pre : List FieldName) (f : FieldName) (post left : List FieldName)
    (assign : Bool), (pre ++ f :: post).Nodup → left = (pre ++ f :: post).filter (fun f => (given f).isSome) →
    (assign = true → ∀ g ∈ pre ++ f :: post, (given g).isSome = false) →
    (chooseTexts given (pre ++ f :: post) left assign).find? (fun p => p.1 == f) = some (f, match given f with
      | some t => t
      | none => if (assign || pre.any fun g => (given g).isSome) && !(post.any fun g => (given g).isSome)
          then defaultText f else ['*']) := by
  intro pre
  induction pre with
  | nil =>
    intro f post left assign hn hl ha
    simp only [List.nil_append, chooseTexts]
    cases hg : given f with
    | some t => simp
    | none =>
      simp only [List.find?_cons, beq_self_eq_true, List.any_nil, Bool.or_false]
      cases assign with
      | false => simp
      | true =>
        have : (post.any fun g => (given g).isSome) = false := by
          rw [List.any_eq_false]
          intro g hgm
          have := ha rfl g (by simp [hgm])
          simp [this]
        simp [this]
  | cons p pre ih =>
    intro f post left assign hn hl ha
    rw [List.cons_append] at hn hl ha ⊢
    have hn' := List.nodup_cons.1 hn
    have hpf : (p == f) = false := by
      have : p ≠ f := fun e => hn'.1 (by rw [e]; simp)
      simpa using this
    simp only [chooseTexts]
    cases hg : given p with
    | some t =>
      have hfa : assign = false := by
        cases assign with
        | false => rfl
        | true => have := ha rfl p (by simp); rw [hg] at this; cases this
      have hl' : left.filter (· != p) = (pre ++ f :: post).filter (fun f => (given f).isSome) := by
        rw [hl, List.filter_cons, if_pos (by rw [hg]; rfl), List.filter_cons]
        simp only [bne_self_eq_false, Bool.false_eq_true, if_false]
        rw [List.filter_eq_self]
        intro g hgm
        have hgm := (List.mem_filter.1 hgm).1
        have : g ≠ p := fun e => hn'.1 (e ▸ hgm)
        simpa using this
      simp only [List.find?_cons, hpf, Bool.false_eq_true]
      rw [ih f post _ _ hn'.2 hl' (by
        rw [hl']
        intro h g hgm
        rw [List.isEmpty_iff, List.filter_eq_nil_iff] at h
        simpa using h g hgm)]
      cases hgf : given f with
      | some t => rfl
      | none =>
        have key : (((left.filter (· != p)).isEmpty || pre.any fun g => (given g).isSome) &&
            !(post.any fun g => (given g).isSome)) =
            ((assign || (p :: pre).any fun g => (given g).isSome) && !(post.any fun g => (given g).isSome)) := by
          rw [hl', List.any_cons, hg]
          cases hp : (post.any fun g => (given g).isSome) with
          | true => simp
          | false =>
            cases hq : (pre.any fun g => (given g).isSome) with
            | true => simp
            | false =>
              have : ((pre ++ f :: post).filter fun f => (given f).isSome) = [] := by
                rw [List.filter_eq_nil_iff]
                intro g hgm
                rw [List.any_eq_false] at hp hq
                rcases List.mem_append.1 hgm with h | h
                · exact hq g h
                · rcases List.mem_cons.1 h with rfl | h
                  · simp [hgf]
                  · exact hp g h
              rw [this]; simp
        simp only [key]
    | none =>
      simp only [List.find?_cons, hpf, Bool.false_eq_true]
      rw [ih f post left assign hn'.2 (by rw [hl, List.filter_cons, if_neg (by rw [hg]; simp)])
        (fun h g hgm => ha h g (List.mem_cons_of_mem _ hgm))]
      simp [List.any_cons, hg]

/-- **C56** (defaults): a field of `CronTrigger(...)` has the text given for it, else the documented default, for every
choice of given fields. -/
theorem C56_defaults (given : FieldName → Option Text) (f : FieldName) :
    (∀ t, given f = some t → textOf given f = t) ∧ (given f = none → OmittedText given f (textOf given f)) := by
  have key : ∃ pre post, fieldNames = pre ++ f :: post ∧ (∀ g, g ∈ pre ↔ rank g < rank f) ∧
      (∀ g, g ∈ post ↔ rank f < rank g) := by
    refine ⟨fieldNames.take (rank f), fieldNames.drop (rank f + 1), by cases f <;> rfl, ?_, ?_⟩
    · intro g; cases f <;> cases g <;> decide
    · intro g; cases f <;> cases g <;> decide
  obtain ⟨pre, post, he, hpre, hpost⟩ := key
  have h := choose_find given pre f post (fieldNames.filter fun f => (given f).isSome) false (by rw [← he]; decide)
    (by rw [he]) (fun h => by cases h)
  have ht : textOf given f = match given f with
      | some t => t
      | none => if (false || pre.any fun g => (given g).isSome) && !(post.any fun g => (given g).isSome)
          then defaultText f else ['*'] := by
    unfold textOf
    rw [← he] at h
    rw [h]; rfl
  refine ⟨fun t hg => by rw [ht, hg], fun hg => ?_⟩
  rw [ht, hg]
  have hiff : ((false || pre.any fun g => (given g).isSome) && !(post.any fun g => (given g).isSome)) = true ↔
      (∃ g, (given g).isSome) ∧ ∀ g, (given g).isSome → rank g < rank f := by
    rw [Bool.false_or, Bool.and_eq_true, Bool.not_eq_true', List.any_eq_true, List.any_eq_false]
    constructor
    · rintro ⟨⟨g, hm, hs⟩, hno⟩
      refine ⟨⟨g, hs⟩, fun g' hs' => ?_⟩
      rcases Nat.lt_trichotomy (rank g') (rank f) with h | h | h
      · exact h
      · have : g' = f := by
          revert h; cases g' <;> cases f <;> decide
        rw [this, hg] at hs'; cases hs'
      · exact absurd hs' (hno g' ((hpost g').2 h))
    · rintro ⟨⟨g, hs⟩, hall⟩
      refine ⟨⟨g, (hpre g).2 (hall g hs), hs⟩, fun g' hm hs' => ?_⟩
      have h1 := hall g' hs'
      have h2 := (hpost g').1 hm
      omega
  refine ⟨fun h => ?_, fun h => ?_⟩
  · simp only [hiff.2 h, if_true]
    cases f <;> rfl
  · rw [if_neg fun h' => h (hiff.1 h')]

/-- `hour=2, day_of_week=mon` and nothing: concrete uses of the defaults -/
example :
    let given : FieldName → Option Text := fun | .hour => some ['2'] | .dayOfWeek => some "mon".toList | _ => none
    textOf given .year = ['*'] ∧ textOf given .day = ['*'] ∧ textOf given .minute = ['0'] ∧ textOf given .second = ['0'] ∧
    textOf (fun f => if f = .year then some "2030".toList else none) .day = ['1'] ∧
    textOf (fun f => if f = .year then some "2030".toList else none) .week = ['*'] ∧
    textOf (fun _ => none) .second = ['*'] := by decide

theorem construct_some {given : FieldName → Option Text} {T : FieldName → List Expr} :
    construct given = some T ↔ ∀ f, compileField f (textOf given f) = some (T f) := by
  unfold construct
  constructor
  · intro h f
    split at h
    · rename_i hall
      cases h
      have := List.all_eq_true.1 hall f (by cases f <;> decide)
      obtain ⟨x, hx⟩ := Option.isSome_iff_exists.1 this
      simp only [hx, Option.getD_some]
    · cases h
  · intro h
    rw [if_pos]
    · congr; funext f; rw [h f]; rfl
    · rw [List.all_eq_true]; intro f _; rw [h f]; rfl

/-- **C56** (crontab): `from_crontab(s)` succeeds iff `s` consists of five blank-separated words that are valid
expressions for minute, hour, day, month and weekday, and these are then the fields of the trigger, at second 0 of
every week and year. -/
theorem C56_crontab (s : Text) (T : FieldName → List Expr) :
    fromCrontab s = some T ↔ ∃ mi h d mo dow, Splits s [mi, h, d, mo, dow] ∧
      compileField .minute mi = some (T .minute) ∧ compileField .hour h = some (T .hour) ∧
      compileField .day d = some (T .day) ∧ compileField .month mo = some (T .month) ∧
      compileField .dayOfWeek dow = some (T .dayOfWeek) ∧
      T .second = [.range 0 (some 0) none] ∧ T .week = [.all none] ∧ T .year = [.all none] := by
  have core : ∀ mi h d mo dow, construct (fun
      | .minute => some mi | .hour => some h | .day => some d | .month => some mo | .dayOfWeek => some dow
      | _ => none) = some T ↔
      compileField .minute mi = some (T .minute) ∧ compileField .hour h = some (T .hour) ∧
      compileField .day d = some (T .day) ∧ compileField .month mo = some (T .month) ∧
      compileField .dayOfWeek dow = some (T .dayOfWeek) ∧
      T .second = [.range 0 (some 0) none] ∧ T .week = [.all none] ∧ T .year = [.all none] := by
    intro mi h d mo dow
    rw [construct_some]
    generalize hg : (fun f : FieldName => match f with
      | .minute => some mi | .hour => some h | .day => some d | .month => some mo | .dayOfWeek => some dow
      | _ => none) = given
    have e1 : textOf given .minute = mi := (C56_defaults given .minute).1 mi (by rw [← hg])
    have e2 : textOf given .hour = h := (C56_defaults given .hour).1 h (by rw [← hg])
    have e3 : textOf given .day = d := (C56_defaults given .day).1 d (by rw [← hg])
    have e4 : textOf given .month = mo := (C56_defaults given .month).1 mo (by rw [← hg])
    have e5 : textOf given .dayOfWeek = dow := (C56_defaults given .dayOfWeek).1 dow (by rw [← hg])
    have hmin : (given .minute).isSome := by rw [← hg]; rfl
    have e6 : textOf given .second = ['0'] := ((C56_defaults given .second).2 (by rw [← hg])).1
      ⟨⟨.minute, hmin⟩, fun g hs => by
        rw [← hg] at hs
        cases g
        case second => cases hs
        all_goals decide⟩
    have e7 : textOf given .week = ['*'] := ((C56_defaults given .week).2 (by rw [← hg])).2
      (fun hc => by have := hc.2 .minute hmin; revert this; decide)
    have e8 : textOf given .year = ['*'] := ((C56_defaults given .year).2 (by rw [← hg])).2
      (fun hc => by have := hc.2 .minute hmin; revert this; decide)
    have c6 : compileField .second ['0'] = some [.range 0 (some 0) none] := by decide +kernel
    have c7 : compileField .week ['*'] = some [.all none] := by decide +kernel
    have c8 : compileField .year ['*'] = some [.all none] := by decide +kernel
    constructor
    · intro hall
      have a1 := hall .minute
      have a2 := hall .hour
      have a3 := hall .day
      have a4 := hall .month
      have a5 := hall .dayOfWeek
      have a6 := hall .second
      have a7 := hall .week
      have a8 := hall .year
      rw [e1] at a1; rw [e2] at a2; rw [e3] at a3; rw [e4] at a4; rw [e5] at a5
      rw [e6, c6] at a6; rw [e7, c7] at a7; rw [e8, c8] at a8
      exact ⟨a1, a2, a3, a4, a5, (Option.some.inj a6).symm, (Option.some.inj a7).symm, (Option.some.inj a8).symm⟩
    · rintro ⟨a1, a2, a3, a4, a5, a6, a7, a8⟩ f
      cases f
      · rw [e8, c8, a8]
      · rw [e4, a4]
      · rw [e3, a3]
      · rw [e7, c7, a7]
      · rw [e5, a5]
      · rw [e2, a2]
      · rw [e1, a1]
      · rw [e6, c6, a6]
  constructor
  · intro hs
    unfold fromCrontab at hs
    split at hs
    · rename_i mi h d mo dow hw
      exact ⟨mi, h, d, mo, dow, words_iff.1 hw, (core mi h d mo dow).1 hs⟩
    · cases hs
  · rintro ⟨mi, h, d, mo, dow, hw, hrest⟩
    unfold fromCrontab
    rw [words_iff.2 hw]
    exact (core mi h d mo dow).2 hrest

/-- **C56** (meaning): the times that satisfy a crontab trigger are those in second 0 whose minute, hour, day, month
and weekday are selected, in the years 1970 to 9999. -/
theorem C56_meaning (s : Text) (T : FieldName → List Expr) (h : fromCrontab s = some T) (sec : Int) :
    Matches T sec ↔ (Cal.ofSec sec).second = 0 ∧ 1970 ≤ (Cal.ofSec sec).year ∧ (Cal.ofSec sec).year ≤ 9999 ∧
      ∀ f, f = .minute ∨ f = .hour ∨ f = .day ∨ f = .month ∨ f = .dayOfWeek →
        ∃ e ∈ T f, Selects e f (Cal.ofSec sec).year (Cal.ofSec sec).month (valueAt f sec) := by
  obtain ⟨_, _, _, _, _, _, _, _, _, _, _, h6, h7, h8⟩ := (C56_crontab s T).1 h
  constructor
  · intro hm
    obtain ⟨e, he, h1, h2, h3⟩ := hm .second
    rw [h6, List.mem_singleton] at he; subst he
    obtain ⟨e', he', g1, g2, g3⟩ := hm .year
    refine ⟨?_, g1, g2, fun f _ => hm f⟩
    have a : (Cal.ofSec sec).second ≤ (0 : Nat) := h3.2 0 rfl
    have b : (0 : Int) ≤ (Cal.ofSec sec).second := h1
    omega
  · rintro ⟨hs, hy1, hy2, hf⟩ f
    have hw := Cal.isoWeek_bounds (sec / 86400)
    cases f
    case year => exact ⟨.all none, by rw [h8]; simp, hy1, hy2, trivial⟩
    case week => exact ⟨.all none, by rw [h7]; simp, hw.1, hw.2, trivial⟩
    case second =>
      refine ⟨.range 0 (some 0) none, by rw [h6]; simp, ?_⟩
      have hv : valueAt .second sec = 0 := hs
      rw [hv]
      exact ⟨by decide, (show (0 : Int) ≤ 59 by decide), ⟨0, by simp⟩, fun l hl => by cases hl; decide⟩
    all_goals exact hf _ (by simp)

/-- `"*/15  9-17 * * mon-fri"` with blanks around: accepted, fires on Monday 2021-10-18 at 09:45:00 and not a second
later; four words, or a word that is no expression, are rejected. -/
example : ∃ T, fromCrontab " */15  9-17 * *\tmon-fri ".toList = some T ∧ T .minute = [.all (some 15)] ∧
    T .dayOfWeek = [.weekdayRange 0 4] ∧ T .second = [.range 0 (some 0) none] ∧
    fromCrontab "* * * *".toList = none ∧ fromCrontab "60 * * * *".toList = none := by
  have h : (fromCrontab " */15  9-17 * *\tmon-fri ".toList).map
      (fun T => (T .minute, T .dayOfWeek, T .second)) =
      some ([.all (some 15)], [.weekdayRange 0 4], [.range 0 (some 0) none]) := by decide +kernel
  obtain ⟨T, hT, he⟩ := Option.map_eq_some_iff.1 h
  simp only [Prod.mk.injEq] at he
  exact ⟨T, hT, he.1, he.2.1, he.2.2, by decide +kernel, by decide +kernel⟩

/-- Unlike in crontab files, weekday 0 is Monday and there is no weekday 7. -/
theorem C56_weekday_numbers :
    (fromCrontab "0 0 * * 0".toList).map (fun T => (T .dayOfWeek, fieldNext (T .dayOfWeek) .dayOfWeek
      (Cal.toSec ⟨2021, 10, 18, 0, 0, 0⟩))) = some ([.range 0 (some 0) none], some 0) ∧
    Cal.weekday (Cal.days 2021 10 18) = 0 ∧ fromCrontab "0 0 * * 7".toList = none := by decide +kernel

end Cron

/-! ## C54 -/

/-- **C54** (rounding): `datetime_ceil` gives the least whole second of the wall clock that is not before its argument,
in the same zone, and leaves whole seconds alone. -/
theorem C54_ceil (d : Dt) :
    (∃ s : Int, d.ceil.wall = s * 1000000 ∧ d.wall ≤ s * 1000000 ∧ ∀ s' : Int, d.wall ≤ s' * 1000000 → s ≤ s') ∧
    d.ceil.tz = d.tz ∧ d.ceil.ceil = d.ceil ∧ (d.wall % 1000000 = 0 → d.ceil = d) := by
  obtain ⟨h1, h2, h3, h4⟩ := Cron.ceil_facts d
  refine ⟨⟨d.ceil.wall / 1000000, by omega, by omega, fun s' h => by omega⟩, h4, ?_, ?_⟩
  · rw [Dt.ceil, if_neg (by omega)]
  · intro h; rw [Dt.ceil, if_neg (by omega)]

/-- **C54** (rounding, instants): in a zone with a constant offset of whole seconds the same holds for the instants.
Missing: zones whose offset changes. -/
theorem C54_ceil_instant_partial {E : TzEnv} {c : Int} (d : Dt) (hz : E d.tz = Zone.fixed (c * 1000000)) :
    ∃ s : Int, d.ceil.inst E = s * 1000000 ∧ d.inst E ≤ s * 1000000 ∧ ∀ s' : Int, d.inst E ≤ s' * 1000000 → s ≤ s' := by
  obtain ⟨h1, h2, h3, h4⟩ := Cron.ceil_facts d
  have e1 : d.ceil.inst E = d.ceil.wall - c * 1000000 := by rw [Dt.inst, h4, hz]; rfl
  have e2 : d.inst E = d.wall - c * 1000000 := by rw [Dt.inst, hz]; rfl
  exact ⟨d.ceil.wall / 1000000 - c, by omega, by omega, fun s' h => by omega⟩

/-- In the repeated hour of a zone the rounded time can be an hour before the argument: adding a `timedelta` forgets
`fold`. -/
theorem C54_fold_witness :
    let E : TzEnv := fun _ => Zone.overlap 3600000000 1000000000000 3600000000
    let d : Dt := ⟨1000000500000, true, 0⟩
    (E 0).Lawful ∧ d.normalize E = d ∧ d.ceil.inst E = d.inst E + 500000 - 3600000000 :=
  ⟨Zone.overlap_lawful _ _ _, by decide, by decide⟩

/-- **C54** (durations): `timedelta_seconds` is the length of the `timedelta`. -/
theorem C54_seconds (us : Int) : timedeltaSeconds us = us := timedeltaSeconds_exact us

/-- **C54** (normalising): `normalize` keeps the instant and the zone and is idempotent, in every lawful zone. -/
theorem C54_normalize {E : TzEnv} (d : Dt) (hE : (E d.tz).Lawful) :
    (d.normalize E).inst E = d.inst E ∧ (d.normalize E).tz = d.tz ∧ (d.normalize E).normalize E = d.normalize E := by
  have h1 := Dt.inst_normalize d hE
  refine ⟨h1, rfl, ?_⟩
  show Dt.ofInst E (d.normalize E).tz ((d.normalize E).inst E) = _
  rw [h1]; rfl

/-- a wall-clock time that a zone skips is moved, its instant stays -/
example :
    let E : TzEnv := fun _ => Zone.gap 0 1000000000 3600000000
    let d : Dt := ⟨1000500000, false, 0⟩
    (E 0).Lawful ∧ d.normalize E = ⟨4600500000, false, 0⟩ ∧ (d.normalize E).inst E = d.inst E ∧
    d.ceil = ⟨1001000000, false, 0⟩ ∧ d.ceil.ceil = d.ceil ∧ timedeltaSeconds (-1) = -1 :=
  ⟨Zone.gap_lawful _ _ _ (by decide), by decide, by decide, by decide, by decide, by decide⟩

end Asyncz
