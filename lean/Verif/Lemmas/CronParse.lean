import Verif.Model.CronParse
import Verif.Spec.Cron
/-! # Facts about parsing and printing cron fields -/
namespace Asyncz
namespace Cron

theorem digit_facts : ∀ n, n < 10 → isDigit (digit n) = true ∧ (digit n).toNat - 48 = n ∧
    digit n ≠ ',' ∧ isBlank (digit n) = false ∧ digit n ≠ '*' ∧ isLetter (digit n) = false := by decide

theorem showNat_lt {n : Nat} (h : n < 10) : showNat n = [digit n] := by rw [showNat, if_pos h]
theorem showNat_ge {n : Nat} (h : ¬ n < 10) : showNat n = showNat (n / 10) ++ [digit (n % 10)] := by
  rw [showNat, if_neg h]

theorem natOf_append (a : Text) (c : Char) : natOf (a ++ [c]) = natOf a * 10 + (c.toNat - 48) := by
  simp [natOf]

theorem natOf_showNat (n : Nat) : natOf (showNat n) = n := by
  induction n using Nat.strongRecOn with
  | ind n ih =>
    by_cases h : n < 10
    · rw [showNat_lt h]; simp [natOf, (digit_facts n h).2.1]
    · rw [showNat_ge h, natOf_append, ih _ (by omega), (digit_facts _ (Nat.mod_lt _ (by omega))).2.1]
      omega

theorem showNat_digits (n : Nat) : ∀ c ∈ showNat n, ∃ k, k < 10 ∧ c = digit k := by
  induction n using Nat.strongRecOn with
  | ind n ih =>
    by_cases h : n < 10
    · rw [showNat_lt h]; intro c hc; simp at hc; exact ⟨n, h, hc⟩
    · rw [showNat_ge h]; intro c hc
      rcases List.mem_append.1 hc with hc | hc
      · exact ih _ (by omega) c hc
      · simp at hc; exact ⟨_, Nat.mod_lt _ (by omega), hc⟩

theorem showNat_ne (n : Nat) : showNat n ≠ [] := by
  by_cases h : n < 10
  · rw [showNat_lt h]; simp
  · rw [showNat_ge h]; simp

/-- `takeWhile`/`dropWhile` of a block of matching characters. -/
theorem take_block {X : Char → Bool} {b r : Text} (hb : ∀ c ∈ b, X c = true)
    (hr : ∀ c, r.head? = some c → X c = false) :
    (b ++ r).takeWhile X = b ∧ (b ++ r).dropWhile X = r := by
  induction b with
  | nil =>
    cases r with
    | nil => simp
    | cons c r => have := hr c rfl; simp [this]
  | cons a b ih =>
    have ha := hb a List.mem_cons_self
    obtain ⟨i1, i2⟩ := ih (fun c hc => hb c (List.mem_cons_of_mem _ hc))
    simp [ha, i1, i2]

theorem optGroup_some {c : Char} {X : Char → Bool} {b r : Text} (hne : b ≠ [])
    (hb : ∀ a ∈ b, X a = true) (hr : ∀ a, r.head? = some a → X a = false) :
    optGroup c X (c :: (b ++ r)) = (some b, r) := by
  obtain ⟨h1, h2⟩ := take_block hb hr
  have : b.isEmpty = false := by cases b <;> simp_all
  simp [optGroup, h1, h2, this]

theorem optGroup_nil (c : Char) (X : Char → Bool) : optGroup c X [] = (none, []) := rfl

theorem optGroup_other {c a : Char} {X : Char → Bool} {r : Text} (h : a ≠ c) :
    optGroup c X (a :: r) = (none, a :: r) := by simp [optGroup, h]

theorem optGroup_mem {c : Char} {X : Char → Bool} {s b r : Text} (h : optGroup c X s = (some b, r)) :
    b ≠ [] ∧ (∀ a ∈ b, X a = true) := by
  cases s with
  | nil => simp [optGroup] at h
  | cons a rest =>
    simp only [optGroup] at h
    split at h
    · rename_i hc
      simp only [Prod.mk.injEq, Option.some.injEq] at h
      obtain ⟨rfl, _⟩ := h
      refine ⟨fun he => by simp [he] at hc, fun x hx => ?_⟩
      exact List.all_eq_true.1 List.all_takeWhile x hx
    · simp at h

theorem indexOf_lt {names : List Text} {s : Text} {i : Nat} (h : indexOf names s = some i) :
    i < names.length := by
  have := List.findIdx?_eq_some_iff_findIdx_eq.1 h
  exact this.1

/-! ### Every accepted expression is well formed -/

theorem parseAll_wf {f : FieldName} {s : Text} {e : Expr} (h : parseAll s = some (some e)) : Wf f e := by
  cases s with
  | nil => simp [parseAll] at h
  | cons a rest =>
    simp only [parseAll] at h
    split at h
    · split at h
      · split at h
        · rename_i hp
          simp only [Option.some.injEq] at h
          subst h
          intro k hk
          rw [hk] at hp
          simpa [posStep] using hp
        · simp at h
      · simp at h
    · simp at h

theorem mkRange_wf {f : FieldName} {a : Nat} {b n : Option Nat} {e : Expr} (h : mkRange a b n = some e)
    (hv : validRange f e = true) : Wf f e := by
  simp only [mkRange] at h
  split at h
  · rename_i hp
    have hpos : ∀ k, n = some k → 0 < k := fun k hk => by rw [hk] at hp; simpa [posStep] using hp
    generalize hb : (if b = none ∧ n = none then some a else b) = b' at h
    have hbn : n = none → b' ≠ none := by
      intro hn; rw [← hb]; split
      · simp
      · rename_i hnn; intro hb'; exact hnn ⟨hb', hn⟩
    have hmin : lowest f = minValue f := by cases f <;> rfl
    cases b' with
    | none =>
      simp only [Option.some.injEq] at h; subst h
      simp only [validRange, validRange.rangeOk, Bool.and_eq_true, decide_eq_true_eq] at hv
      exact ⟨by rw [hmin]; exact hv.2.1.1, by simp, hpos, hbn⟩
    | some l =>
      simp only [] at h
      split at h
      · simp at h
      · simp only [Option.some.injEq] at h; subst h
        simp only [validRange, validRange.rangeOk, Bool.and_eq_true, decide_eq_true_eq] at hv
        refine ⟨by rw [hmin]; exact hv.2.1.1, fun l' hl' => ?_, hpos, hbn⟩
        cases hl'; omega
  · simp at h

theorem parseRange_inv {s : Text} {e : Expr} (h : parseRange s = some (some e)) :
    ∃ a b n, mkRange a b n = some e := by
  simp only [parseRange] at h
  split at h
  · simp at h
  · split at h
    · simp only [Option.some.injEq] at h; exact ⟨_, _, _, h⟩
    · simp at h

theorem parseNames_inv {names : List Text} {base : Nat} {mk : Nat → Nat → Expr} {s : Text} {e : Expr}
    (h : parseNames names base mk s = some (some e)) :
    ∃ i j, i ≤ j ∧ j < names.length ∧ e = mk (i + base) (j + base) := by
  simp only [parseNames] at h
  split at h
  · simp at h
  · simp only [Option.some.injEq] at h
    generalize (optGroup '-' isLetter (s.dropWhile isLetter)).1 = l at h
    simp only [mkNames] at h
    cases hi : indexOf names (s.takeWhile isLetter) with
    | none => rw [hi] at h; simp at h
    | some i =>
      rw [hi] at h
      have h1 := indexOf_lt hi
      cases l with
      | none => simp only [Option.some.injEq] at h; exact ⟨i, i, Nat.le_refl _, h1, h.symm⟩
      | some l =>
        simp only [] at h
        cases hj : indexOf names l with
        | none => rw [hj] at h; simp at h
        | some j =>
          rw [hj] at h
          simp only [] at h
          split at h
          · simp at h
          · simp only [Option.some.injEq] at h
            exact ⟨i, j, by omega, indexOf_lt hj, h.symm⟩

theorem parsePos_inv {s : Text} {e : Expr} (h : parsePos s = some (some e)) :
    ∃ o w, o ≤ 5 ∧ w ≤ 6 ∧ e = .weekdayPos o w := by
  simp only [parsePos] at h
  cases ho : options.findIdx? (fun o => hasPrefix o s) with
  | none => rw [ho] at h; simp at h
  | some i =>
    rw [ho] at h
    simp only [] at h
    have hi : i < options.length := (List.findIdx?_eq_some_iff_findIdx_eq.1 ho).1
    simp only [options, List.length_cons, List.length_nil] at hi
    split at h
    · simp at h
    · split at h
      · simp at h
      · split at h
        · simp at h
        · simp only [Option.some.injEq, Option.map_eq_some_iff] at h
          obtain ⟨w, hw, rfl⟩ := h
          have := indexOf_lt hw
          simp only [weekdays, List.length_cons, List.length_nil] at this
          exact ⟨i, w, by omega, by omega, rfl⟩

theorem compileWith_inv {f : FieldName} {s : Text} {ps : List (Text → Option (Option Expr))} {e : Expr}
    (h : compileWith f s ps = some e) : ∃ p ∈ ps, p s = some (some e) ∧ validRange f e = true := by
  induction ps with
  | nil => simp [compileWith] at h
  | cons p ps ih =>
    rw [compileWith] at h
    cases hp : p s with
    | none =>
      rw [hp] at h
      obtain ⟨q, hq, h1, h2⟩ := ih h
      exact ⟨q, List.mem_cons_of_mem _ hq, h1, h2⟩
    | some o =>
      rw [hp] at h
      cases o with
      | none => simp at h
      | some e' =>
        simp only [] at h
        split at h
        · simp only [Option.some.injEq] at h; subst h
          exact ⟨p, List.mem_cons_self, hp, by assumption⟩
        · simp at h

theorem compile1_wf {f : FieldName} {s : Text} {e : Expr} (h : compile1 f s = some e) :
    Wf f e ∧ validRange f e = true := by
  obtain ⟨p, hp, h1, h2⟩ := compileWith_inv h
  refine ⟨?_, h2⟩
  have hbase : p = parseAll ∨ p = parseRange → Wf f e := by
    rintro (rfl | rfl)
    · exact parseAll_wf h1
    · obtain ⟨a, b, n, h⟩ := parseRange_inv h1; exact mkRange_wf h h2
  cases f <;> simp only [compilers, List.mem_cons, List.not_mem_nil, or_false] at hp
  case month =>
    rcases hp with hp | hp | rfl
    · exact hbase (.inl hp)
    · exact hbase (.inr hp)
    · obtain ⟨i, j, hij, hj, rfl⟩ := parseNames_inv h1
      have h2 : j < 12 := hj
      exact ⟨rfl, by omega, by omega, by omega⟩
  case dayOfWeek =>
    rcases hp with hp | hp | rfl
    · exact hbase (.inl hp)
    · exact hbase (.inr hp)
    · obtain ⟨i, j, hij, hj, rfl⟩ := parseNames_inv h1
      have h2 : j < 7 := hj
      exact ⟨rfl, by omega, by omega⟩
  case day =>
    rcases hp with hp | hp | rfl | rfl
    · exact hbase (.inl hp)
    · exact hbase (.inr hp)
    · obtain ⟨o, w, ho, hw, rfl⟩ := parsePos_inv h1; exact ⟨rfl, ho, hw⟩
    · simp only [parseLast] at h1
      split at h1
      · simp only [Option.some.injEq] at h1; subst h1; rfl
      · simp at h1
  all_goals exact hbase hp

theorem compileAll_mem {f : FieldName} {ps : List Text} {es : List Expr} (h : compileAll f ps = some es) :
    (∀ e ∈ es, ∃ s ∈ ps, compile1 f s = some e) ∧ es.length = ps.length := by
  induction ps generalizing es with
  | nil => simp only [compileAll, Option.some.injEq] at h; subst h; simp
  | cons p ps ih =>
    rw [compileAll] at h
    cases h1 : compile1 f p with
    | none => rw [h1] at h; simp at h
    | some e =>
      rw [h1] at h
      cases h2 : compileAll f ps with
      | none => rw [h2] at h; simp at h
      | some es' =>
        rw [h2] at h
        simp only [Option.some.injEq] at h; subst h
        obtain ⟨i1, i2⟩ := ih h2
        refine ⟨fun e' he' => ?_, by simp [i2]⟩
        rcases List.mem_cons.1 he' with rfl | he'
        · exact ⟨p, List.mem_cons_self, h1⟩
        · obtain ⟨s, hs, h⟩ := i1 e' he'; exact ⟨s, List.mem_cons_of_mem _ hs, h⟩

theorem splitComma_ne (s : Text) : splitComma s ≠ [] := by
  cases s with
  | nil => simp [splitComma]
  | cons c cs =>
    rw [splitComma]
    split
    · simp
    · split <;> simp

theorem compileField_wf {f : FieldName} {s : Text} {es : List Expr} (h : compileField f s = some es) :
    es ≠ [] ∧ ∀ e ∈ es, Wf f e ∧ validRange f e = true := by
  obtain ⟨h1, h2⟩ := compileAll_mem h
  constructor
  · intro he
    rw [he] at h2
    have : pieces s = [] := by
      cases hp : pieces s with
      | nil => rfl
      | cons a b => rw [hp] at h2; simp at h2
    simp only [pieces, List.map_eq_nil_iff] at this
    exact splitComma_ne _ this
  · intro e he
    obtain ⟨s', _, h⟩ := h1 e he
    exact compile1_wf h

/-! ### Printing and parsing again -/

/-- The one accepted expression whose text means something else: `0-0/n`. -/
def ZeroRange : Expr → Prop
  | .range a b n => b = some a ∧ n ≠ none
  | _ => False

theorem parseAll_none {c : Char} {r : Text} (h : c ≠ '*') : parseAll (c :: r) = none := by
  simp [parseAll, h]

theorem parseRange_none {c : Char} {r : Text} (h : isDigit c = false) : parseRange (c :: r) = none := by
  simp [parseRange, h]

theorem parseAll_star : parseAll ['*'] = some (some (.all none)) := by decide

theorem showNat_head (n : Nat) : ∃ c r, showNat n = c :: r ∧ ∃ k, k < 10 ∧ c = digit k := by
  cases h : showNat n with
  | nil => exact absurd h (showNat_ne n)
  | cons c r => exact ⟨c, r, rfl, showNat_digits n c (by rw [h]; simp)⟩

theorem showNat_allDigits (n : Nat) : ∀ c ∈ showNat n, isDigit c = true := fun c hc => by
  obtain ⟨k, hk, rfl⟩ := showNat_digits n c hc; exact (digit_facts k hk).1

theorem parseAll_step {n : Nat} (h : 0 < n) : parseAll ('*' :: '/' :: showNat n) = some (some (.all (some n))) := by
  have := optGroup_some (c := '/') (X := isDigit) (r := []) (showNat_ne n) (showNat_allDigits n) (by simp)
  simp only [List.append_nil] at this
  simp [parseAll, this, atEnd, natOf_showNat, posStep, h]

/-- The optional second bound. -/
def dashText : Option Nat → Text
  | some l => '-' :: showNat l
  | none => []

/-- `RangeExpression.regex` on what `RangeExpression.__str__` prints. -/
theorem parseRange_text (a : Nat) (b n : Option Nat) (hn : posStep n = true) :
    parseRange (showNat a ++ (dashText b ++ stepText n)) = some (mkRange a b n) := by
  have hst : ∀ k, n = some k → stepText n = '/' :: showNat k := by
    rintro k rfl
    have : 0 < k := by simpa [posStep] using hn
    simp [stepText, Nat.pos_iff_ne_zero.1 this]
  have hd := showNat_allDigits a
  have hne : ∀ k, (showNat k).isEmpty = false := fun k => by
    have := showNat_ne k; cases h : showNat k <;> simp_all
  have hdash : isDigit '-' = false := by decide
  have hslash : isDigit '/' = false := by decide
  cases b with
  | none =>
    cases n with
    | none =>
      obtain ⟨t1, t2⟩ := take_block (r := []) hd (by simp)
      simp only [List.append_nil] at t1 t2
      simp [dashText, stepText, parseRange, t1, t2, hne, optGroup_nil, atEnd, natOf_showNat]
    | some k =>
      rw [hst k rfl]
      obtain ⟨t1, t2⟩ := take_block (r := '/' :: showNat k) hd (by simp [hslash])
      have hg := optGroup_some (c := '/') (X := isDigit) (r := []) (showNat_ne k) (showNat_allDigits k) (by simp)
      simp only [List.append_nil] at hg
      simp [dashText, stepText, parseRange, t1, t2, hne, optGroup_other, hg, atEnd, natOf_showNat]
  | some l =>
    cases n with
    | none =>
      obtain ⟨t1, t2⟩ := take_block (r := '-' :: showNat l) hd (by simp [hdash])
      have hg := optGroup_some (c := '-') (X := isDigit) (r := []) (showNat_ne l) (showNat_allDigits l) (by simp)
      simp only [List.append_nil] at hg
      simp [dashText, stepText, parseRange, t1, t2, hne, hg, optGroup_nil, atEnd, natOf_showNat]
    | some k =>
      rw [hst k rfl]
      obtain ⟨t1, t2⟩ := take_block (r := '-' :: (showNat l ++ '/' :: showNat k)) hd (by simp [hdash])
      have hg := optGroup_some (c := '-') (X := isDigit) (r := '/' :: showNat k) (showNat_ne l)
        (showNat_allDigits l) (by simp [hslash])
      have hg2 := optGroup_some (c := '/') (X := isDigit) (r := []) (showNat_ne k) (showNat_allDigits k) (by simp)
      simp only [List.append_nil] at hg2
      simp [dashText, parseRange, t1, t2, hne, hg, hg2, atEnd, natOf_showNat]

theorem compile_all_range {f : FieldName} {s : Text} {e : Expr} (ha : parseAll s = some (some e)) (hv : validRange f e = true) :
    compile1 f s = some e := by
  cases f <;> simp [compile1, compilers, compileWith, ha, hv]

theorem compile_range {f : FieldName} {s : Text} {e : Expr} (ha : parseAll s = none)
    (hr : parseRange s = some (some e)) (hv : validRange f e = true) : compile1 f s = some e := by
  cases f <;> simp [compile1, compilers, compileWith, ha, hr, hv]

theorem months_text : ∀ a < 12, ∀ b < 12, a ≤ b →
    compile1 .month (Expr.text (.monthRange (a + 1) (b + 1))) = some (.monthRange (a + 1) (b + 1)) := by
  decide +kernel

theorem weekdays_text : ∀ a < 7, ∀ b < 7, a ≤ b →
    compile1 .dayOfWeek (Expr.text (.weekdayRange a b)) = some (.weekdayRange a b) := by
  decide +kernel

theorem pos_text : ∀ o < 6, ∀ w < 7,
    compile1 .day (Expr.text (.weekdayPos o w)) = some (.weekdayPos o w) := by
  decide +kernel

theorem last_text : compile1 .day (Expr.text .lastDay) = some .lastDay := by decide +kernel

/-- Printing an accepted expression and parsing the text gives the expression, except for `0-0/n`. -/
theorem compile1_text {f : FieldName} {e : Expr} (hw : Wf f e) (hv : validRange f e = true)
    (hz : ¬ ZeroRange e) : compile1 f e.text = some e := by
  cases e with
  | all n =>
    cases n with
    | none => exact compile_all_range parseAll_star hv
    | some n =>
      have hn := hw n rfl
      simp only [Expr.text, if_neg (Nat.pos_iff_ne_zero.1 hn)]
      exact compile_all_range (parseAll_step hn) hv
  | range a b n =>
    obtain ⟨_, hab, hpos, hbn⟩ := hw
    have hps : posStep n = true := by
      cases n with
      | none => rfl
      | some k => simpa [posStep] using hpos k rfl
    have hhead : ∀ r, parseAll (showNat a ++ r) = none := by
      intro r
      obtain ⟨c, r', h, k, hk, rfl⟩ := showNat_head a
      rw [h, List.cons_append]
      exact parseAll_none (digit_facts k hk).2.2.2.2.1
    simp only [Expr.text]
    cases b with
    | none =>
      have := parseRange_text a none n hps
      refine compile_range (hhead _) (this.trans ?_) hv
      have hn : n ≠ none := fun h => hbn h rfl
      simp [mkRange, hps, hn]
    | some l =>
      by_cases hl : l = a
      · subst hl
        have hn : n = none := by
          cases n with
          | none => rfl
          | some k => exact absurd ⟨rfl, by simp⟩ hz
        subst hn
        have := parseRange_text l none none rfl
        simp only [rangeText, if_true]
        refine compile_range (hhead _) (this.trans ?_) hv
        simp [mkRange, posStep]
      · simp only [rangeText, if_neg hl]
        have := parseRange_text a (some l) n hps
        rw [List.append_assoc]
        refine compile_range (hhead _) (this.trans ?_) hv
        have := hab l rfl
        simp [mkRange, hps, Nat.not_lt.2 this]
  | monthRange a b =>
    obtain ⟨rfl, h1, h2, h3⟩ := hw
    have := months_text (a - 1) (by omega) (b - 1) (by omega) (by omega)
    rwa [Nat.sub_add_cancel h1, Nat.sub_add_cancel (by omega)] at this
  | weekdayRange a b =>
    obtain ⟨rfl, h1, h2⟩ := hw
    exact weekdays_text a (by omega) b (by omega) h1
  | weekdayPos o w =>
    obtain ⟨rfl, h1, h2⟩ := hw
    exact pos_text o (by omega) w (by omega)
  | lastDay => cases hw; exact last_text

/-- A text that survives being put in a list. -/
def Clean (s : Text) : Prop :=
  (∀ c ∈ s, c ≠ ',') ∧ (∃ c r, s = c :: r ∧ isBlank c = false) ∧ (∃ c r, s.reverse = c :: r ∧ isBlank c = false)

theorem clean_append {a b : Text} {c : Char} (hc : c ≠ ',') (ha : Clean a) (hb : Clean b) :
    Clean (a ++ c :: b) := by
  obtain ⟨a1, ⟨x, r, rfl, a2⟩, _⟩ := ha
  obtain ⟨b1, _, ⟨y, q, hq, b3⟩⟩ := hb
  refine ⟨?_, ⟨x, _, rfl, a2⟩, ⟨y, q ++ [c] ++ (x :: r).reverse, ?_, b3⟩⟩
  · intro d hd
    rcases List.mem_append.1 hd with h | h
    · exact a1 d h
    · rcases List.mem_cons.1 h with rfl | h
      · exact hc
      · exact b1 d h
  · rw [List.reverse_append, List.reverse_cons, hq]; simp

theorem clean_showNat (n : Nat) : Clean (showNat n) := by
  refine ⟨fun c hc => ?_, ?_, ?_⟩
  · obtain ⟨k, hk, rfl⟩ := showNat_digits n c hc; exact (digit_facts k hk).2.2.1
  · obtain ⟨c, r, h, k, hk, rfl⟩ := showNat_head n
    exact ⟨_, r, h, (digit_facts k hk).2.2.2.1⟩
  · cases h : (showNat n).reverse with
    | nil => simp [showNat_ne] at h
    | cons c r =>
      have : c ∈ showNat n := by rw [← List.mem_reverse, h]; simp
      obtain ⟨k, hk, rfl⟩ := showNat_digits n c this
      exact ⟨_, r, rfl, (digit_facts k hk).2.2.2.1⟩

/-- Decidable form of `Clean`. -/
def cleanB (s : Text) : Bool :=
  s.all (· != ',') && (match s with | [] => false | c :: _ => !isBlank c) &&
  (match s.reverse with | [] => false | c :: _ => !isBlank c)

theorem clean_of {s : Text} (h : cleanB s = true) : Clean s := by
  simp only [cleanB, Bool.and_eq_true] at h
  obtain ⟨⟨h1, h2⟩, h3⟩ := h
  refine ⟨?_, ?_, ?_⟩
  · intro c hc; simpa using (List.all_eq_true.1 h1) c hc
  · cases s with
    | nil => simp at h2
    | cons c r => exact ⟨c, r, rfl, by simpa using h2⟩
  · cases hr : s.reverse with
    | nil => rw [hr] at h3; simp at h3
    | cons c r => rw [hr] at h3; exact ⟨c, r, rfl, by simpa using h3⟩

theorem clean_months : ∀ a < 12, ∀ b < 12, cleanB (Expr.text (.monthRange (a + 1) (b + 1))) = true := by
  decide +kernel
theorem clean_weekdays : ∀ a < 7, ∀ b < 7, cleanB (Expr.text (.weekdayRange a b)) = true := by decide +kernel
theorem clean_pos : ∀ o < 6, ∀ w < 7, cleanB (Expr.text (.weekdayPos o w)) = true := by decide +kernel

theorem clean_text {f : FieldName} {e : Expr} (hw : Wf f e) : Clean e.text := by
  cases e with
  | all n =>
    cases n with
    | none => exact clean_of (by decide)
    | some n =>
      have hn := hw n rfl
      simp only [Expr.text, if_neg (Nat.pos_iff_ne_zero.1 hn)]
      exact clean_append (a := ['*']) (by decide) (clean_of (by decide)) (clean_showNat n)
  | range a b n =>
    have h1 : Clean (rangeText a b) := by
      cases b with
      | none => exact clean_showNat a
      | some l =>
        simp only [rangeText]
        split
        · exact clean_showNat a
        · exact clean_append (c := '-') (by decide) (clean_showNat a) (clean_showNat l)
    simp only [Expr.text]
    cases n with
    | none => simpa [stepText] using h1
    | some k =>
      simp only [stepText]
      split
      · simpa using h1
      · exact clean_append (c := '/') (by decide) h1 (clean_showNat k)
  | monthRange a b =>
    obtain ⟨rfl, h1, h2, h3⟩ := hw
    have := clean_months (a - 1) (by omega) (b - 1) (by omega)
    rw [Nat.sub_add_cancel h1, Nat.sub_add_cancel (by omega)] at this
    exact clean_of this
  | weekdayRange a b =>
    obtain ⟨rfl, h1, h2⟩ := hw
    exact clean_of (clean_weekdays a (by omega) b (by omega))
  | weekdayPos o w =>
    obtain ⟨rfl, h1, h2⟩ := hw
    exact clean_of (clean_pos o (by omega) w (by omega))
  | lastDay => exact clean_of (by decide)

theorem splitComma_append {p r : Text} (hp : ∀ c ∈ p, c ≠ ',') :
    splitComma (p ++ ',' :: r) = p :: splitComma r := by
  induction p with
  | nil => simp [splitComma]
  | cons c p ih =>
    have := hp c List.mem_cons_self
    rw [List.cons_append, splitComma, if_neg this, ih (fun c hc => hp c (List.mem_cons_of_mem _ hc))]

theorem splitComma_single {p : Text} (hp : ∀ c ∈ p, c ≠ ',') : splitComma p = [p] := by
  induction p with
  | nil => simp [splitComma]
  | cons c p ih =>
    have := hp c List.mem_cons_self
    rw [splitComma, if_neg this, ih (fun c hc => hp c (List.mem_cons_of_mem _ hc))]

theorem splitComma_join {ts : List Text} (hne : ts ≠ []) (h : ∀ t ∈ ts, ∀ c ∈ t, c ≠ ',') :
    splitComma (joinComma ts) = ts := by
  induction ts with
  | nil => exact absurd rfl hne
  | cons t ts ih =>
    cases ts with
    | nil => exact splitComma_single (h t List.mem_cons_self)
    | cons t' ts =>
      rw [joinComma]
      · rw [splitComma_append (h t List.mem_cons_self),
          ih (by simp) (fun x hx => h x (List.mem_cons_of_mem _ hx))]
      · simp

theorem trim_id {p : Char → Bool} (hp : ∀ c, p c = true → isBlank c = true) {s : Text}
    (h1 : ∃ c r, s = c :: r ∧ isBlank c = false) (h2 : ∃ c r, s.reverse = c :: r ∧ isBlank c = false) :
    trimRight p (trimLeft p s) = s := by
  obtain ⟨c, r, rfl, hc⟩ := h1
  have e1 : trimLeft p (c :: r) = c :: r := by
    have : p c = false := by
      cases h : p c with
      | false => rfl
      | true => rw [hp c h] at hc; cases hc
    simp [trimLeft, this]
  rw [e1]
  obtain ⟨d, q, hd, hc2⟩ := h2
  have : p d = false := by
    cases h : p d with
    | false => rfl
    | true => rw [hp d h] at hc2; cases hc2
  simp only [trimRight, hd, List.dropWhile_cons, this]
  simp only [Bool.false_eq_true, if_false]
  rw [← hd, List.reverse_reverse]

theorem join_ends {ts : List Text} (hne : ts ≠ []) (h : ∀ t ∈ ts, Clean t) :
    (∃ c r, joinComma ts = c :: r ∧ isBlank c = false) ∧
    (∃ c r, (joinComma ts).reverse = c :: r ∧ isBlank c = false) := by
  induction ts with
  | nil => exact absurd rfl hne
  | cons t ts ih =>
    have ht := h t List.mem_cons_self
    cases ts with
    | nil => exact ⟨ht.2.1, ht.2.2⟩
    | cons t' ts =>
      obtain ⟨_, ⟨c, r, h1, h2⟩⟩ := ih (by simp) (fun x hx => h x (List.mem_cons_of_mem _ hx))
      rw [joinComma]
      · obtain ⟨c', r', rfl, hc'⟩ := ht.2.1
        refine ⟨⟨c', _, rfl, hc'⟩, ⟨c, r ++ [','] ++ (c' :: r').reverse, ?_, h2⟩⟩
        rw [List.reverse_append, List.reverse_cons, h1]; simp
      · simp

theorem pieces_join {ts : List Text} (hne : ts ≠ []) (h : ∀ t ∈ ts, Clean t) :
    pieces (joinComma ts) = ts := by
  obtain ⟨h1, h2⟩ := join_ends hne h
  simp only [pieces]
  rw [trim_id (fun c h => h) h1 h2, splitComma_join hne (fun t ht => (h t ht).1)]
  have : ∀ t ∈ ts, trimRight (· == ' ') (trimLeft (· == ' ') t) = t := fun t ht =>
    trim_id (fun c hc => by simp at hc; subst hc; decide) (h t ht).2.1 (h t ht).2.2
  calc _ = ts.map id := List.map_congr_left this
    _ = ts := List.map_id _

theorem compileAll_texts {f : FieldName} {es : List Expr} (h : ∀ e ∈ es, compile1 f e.text = some e) :
    compileAll f (es.map Expr.text) = some es := by
  induction es with
  | nil => rfl
  | cons e es ih =>
    rw [List.map_cons, compileAll, h e List.mem_cons_self,
      ih (fun e' he' => h e' (List.mem_cons_of_mem _ he'))]

end Cron
end Asyncz
