import Verif.Spec.CronText
import Verif.Lemmas.CronParse
/-!
# C116: a cron field is read as it is written
-/
namespace Asyncz
namespace Cron
open Lang

/-! ## Characters and numbers -/

theorem natOf_from (t : Text) (n : Nat) :
    t.foldl (fun n c => n * 10 + (c.toNat - 48)) n = n * 10 ^ t.length + Lang.value t := by
  induction t generalizing n with
  | nil => simp [Lang.value]
  | cons c t ih =>
    simp only [List.foldl_cons, ih, Lang.value, List.length_cons, Nat.pow_succ]
    have : '0'.toNat = 48 := rfl
    rw [this, Nat.add_mul, Nat.mul_assoc, Nat.mul_comm 10]
    omega

theorem natOf_value (t : Text) : natOf t = Lang.value t := by
  have := natOf_from t 0
  simpa [natOf] using this

theorem isDigit_iff (c : Char) : isDigit c = true ↔ '0' ≤ c ∧ c ≤ '9' := by simp [isDigit]
theorem isLetter_iff (c : Char) : isLetter c = true ↔ Letter c := by simp [isLetter, isUpper, Letter]
theorem isWord_iff (c : Char) : isWord c = true ↔ WordChar c := by
  simp [isWord, WordChar, isLetter_iff, isDigit_iff, or_assoc]

theorem number_iff (t : Text) (n : Nat) : Number t n ↔ t ≠ [] ∧ (∀ c ∈ t, isDigit c = true) ∧ natOf t = n := by
  simp only [Number, isDigit_iff, natOf_value]

theorem lowerC_eq (c : Char) : lowerC c = c.toLower := by
  unfold lowerC Char.toLower isUpper
  by_cases h : 'A' ≤ c ∧ c ≤ 'Z'
  · have h' : c.val ≥ 'A'.val ∧ c.val ≤ 'Z'.val := h
    rw [dif_pos h', if_pos (by simpa using h)]
    have h2 : c.toNat ≤ 90 := h.2
    have hv : (c.toNat + 32).isValidChar := by left; omega
    have e1 : (Char.ofNat (c.toNat + 32)).val.toNat = c.toNat + 32 := by
      simp only [Char.ofNat, hv, dif_pos, Char.ofNatAux]; rfl
    apply Char.ext
    apply UInt32.toNat_inj.1
    have h3 : c.val.toNat ≤ 90 := h2
    have h4 : ('a'.val - 'A'.val).toNat = 32 := by decide
    rw [e1, UInt32.toNat_add, h4]
    have : c.toNat = c.val.toNat := rfl
    omega
  · have h' : ¬ (c.val ≥ 'A'.val ∧ c.val ≤ 'Z'.val) := h
    rw [dif_neg h', if_neg (by simpa using h)]

theorem lower_eq (t : Text) : lower t = t.map Char.toLower := by
  unfold lower
  exact List.map_congr_left fun c _ => lowerC_eq c

theorem atEnd_iff (r : Text) : atEnd r = true ↔ AtEnd r := by
  unfold atEnd AtEnd
  cases r with
  | nil => simp
  | cons c cs => cases cs <;> simp

theorem atEnd_head {r : Text} (h : AtEnd r) {X : Char → Bool} (hX : X '\n' = false) : ∀ c, r.head? = some c → X c = false := by
  intro c hc
  rcases h with rfl | rfl
  · cases hc
  · simp at hc; subst hc; exact hX

/-- the longest block of such characters -/
theorem split_block (X : Char → Bool) (s : Text) : s = s.takeWhile X ++ s.dropWhile X ∧ (∀ c ∈ s.takeWhile X, X c = true) ∧
    ∀ c, (s.dropWhile X).head? = some c → X c = false := by
  refine ⟨List.takeWhile_append_dropWhile.symm, fun c hc => List.all_eq_true.1 List.all_takeWhile c hc, ?_⟩
  induction s with
  | nil => simp
  | cons a s ih =>
    intro c hc
    rw [List.dropWhile_cons] at hc
    split at hc
    · exact ih c hc
    · simp at hc; subst hc; simpa using ‹¬ X a = true›

theorem optGroup_iff_some (c : Char) (X : Char → Bool) (s b r : Text) :
    optGroup c X s = (some b, r) ↔ s = c :: (b ++ r) ∧ b ≠ [] ∧ (∀ a ∈ b, X a = true) ∧ ∀ a, r.head? = some a → X a = false := by
  constructor
  · intro h
    cases s with
    | nil => simp [optGroup] at h
    | cons a rest =>
      simp only [optGroup] at h
      split at h
      · rename_i hc
        simp only [Prod.mk.injEq, Option.some.injEq] at h
        obtain ⟨rfl, rfl⟩ := h
        obtain ⟨h1, h2, h3⟩ := split_block X rest
        exact ⟨by rw [← h1, hc.1], fun he => by simp [he] at hc, h2, h3⟩
      · simp at h
  · rintro ⟨rfl, h1, h2, h3⟩
    exact optGroup_some h1 h2 h3

theorem optGroup_iff_none (c : Char) (X : Char → Bool) (s r : Text) :
    optGroup c X s = (none, r) ↔ s = r ∧ ∀ a q, s = c :: a :: q → X a = false := by
  cases s with
  | nil =>
    simp only [optGroup, Prod.mk.injEq, true_and]
    exact ⟨fun h => ⟨h, fun _ _ h => by cases h⟩, fun h => h.1⟩
  | cons a rest =>
    simp only [optGroup]
    split
    · rename_i h
      simp only [Prod.mk.injEq, reduceCtorEq, false_and, false_iff, not_and, Classical.not_forall]
      intro _
      cases rest with
      | nil => simp at h
      | cons x q =>
        refine ⟨x, q, by rw [h.1], ?_⟩
        have := h.2
        rw [List.takeWhile_cons] at this
        split at this
        · simpa using ‹X x = true›
        · simp at this
    · rename_i h
      simp only [Prod.mk.injEq, true_and]
      constructor
      · rintro rfl
        refine ⟨rfl, fun x q hq => ?_⟩
        simp only [List.cons.injEq] at hq
        obtain ⟨rfl, rfl⟩ := hq
        cases hx : X x with
        | false => rfl
        | true => exact absurd ⟨rfl, by simp [List.takeWhile_cons, hx]⟩ h
      · exact fun h => h.1

/-! ## The parsers -/

theorem parseAll_iff (s : Text) (e : Expr) : parseAll s = some (some e) ↔
    ∃ t rest, s = t ++ rest ∧ AtEnd rest ∧ ((t = ['*'] ∧ e = .all none) ∨
      ∃ u n, Number u n ∧ 0 < n ∧ t = '*' :: '/' :: u ∧ e = .all (some n)) := by
  constructor
  · intro h
    cases s with
    | nil => simp [parseAll] at h
    | cons a rest =>
      simp only [parseAll] at h
      split at h
      · rename_i ha
        subst ha
        split at h
        · rename_i hend
          simp only [Option.some.injEq] at h
          split at h
          · rename_i hpos
            cases h
            cases hp : optGroup '/' isDigit rest with
            | mk g r =>
              rw [hp] at hend hpos
              cases g with
              | none =>
                obtain ⟨rfl, _⟩ := (optGroup_iff_none _ _ _ _).1 hp
                exact ⟨['*'], rest, rfl, (atEnd_iff _).1 hend, .inl ⟨rfl, rfl⟩⟩
              | some b =>
                obtain ⟨rfl, h1, h2, h3⟩ := (optGroup_iff_some _ _ _ _ _).1 hp
                exact ⟨'*' :: '/' :: b, r, rfl, (atEnd_iff _).1 hend,
                  .inr ⟨b, natOf b, (number_iff _ _).2 ⟨h1, h2, rfl⟩, by simpa [posStep] using hpos, rfl, rfl⟩⟩
          · cases h
        · cases h
      · cases h
  · rintro ⟨t, rest, rfl, hend, ⟨rfl, rfl⟩ | ⟨u, n, hn, hpos, rfl, rfl⟩⟩
    · rcases hend with rfl | rfl <;> decide
    · obtain ⟨h1, h2, h3⟩ := (number_iff _ _).1 hn
      have hg := optGroup_some (c := '/') h1 h2 (atEnd_head hend (X := isDigit) rfl)
      simp only [parseAll, List.cons_append, if_true]
      simp only [hg, (atEnd_iff _).2 hend, if_true, Option.map_some, h3, posStep, decide_eq_true hpos]

theorem mkRange_iff (a : Nat) (last step : Option Nat) (e : Expr) : mkRange a last step = some e ↔
    (∀ n, step = some n → 0 < n) ∧ (∀ b, last = some b → a ≤ b) ∧
    e = .range a (if last = none ∧ step = none then some a else last) step := by
  unfold mkRange
  by_cases hp : posStep step = true
  · have hp' : ∀ n, step = some n → 0 < n := by
      intro n hn; subst hn; simpa [posStep] using hp
    rw [if_pos hp]
    cases last with
    | none =>
      cases step with
      | none => simp [eq_comm]
      | some n => simpa [eq_comm] using fun _ => hp' n rfl
    | some b =>
      simp only [reduceCtorEq, false_and, if_false]
      by_cases hb : a > b
      · rw [if_pos hb]
        constructor
        · intro h; cases h
        · rintro ⟨_, h, _⟩; exact absurd (h b rfl) (by omega)
      · rw [if_neg hb]
        constructor
        · intro h; cases h; exact ⟨hp', fun b' h => by cases h; omega, rfl⟩
        · rintro ⟨_, _, rfl⟩; rfl
  · rw [if_neg hp]
    constructor
    · intro h; cases h
    · rintro ⟨h, _⟩
      cases step with
      | none => exact absurd rfl hp
      | some n => exact absurd (by simpa [posStep] using h n rfl) hp

/-- the text of a range -/
def RangeText (s : Text) (a : Nat) (last step : Option Nat) : Prop :=
  ∃ t p q rest, s = t ++ (p ++ (q ++ rest)) ∧ Number t a ∧ AtEnd rest ∧
    ((p = [] ∧ last = none) ∨ ∃ u b, Number u b ∧ p = '-' :: u ∧ last = some b) ∧
    ((q = [] ∧ step = none) ∨ ∃ v n, Number v n ∧ q = '/' :: v ∧ step = some n)

theorem parseRange_iff (s : Text) (r : Option Expr) : parseRange s = some r ↔
    ∃ a last step, RangeText s a last step ∧ r = mkRange a last step := by
  constructor
  · intro h
    simp only [parseRange] at h
    obtain ⟨hs, hd, hhead⟩ := split_block isDigit s
    split at h
    · cases h
    · rename_i hne
      split at h
      · rename_i hend
        cases h
        have hnum : Number (s.takeWhile isDigit) (natOf (s.takeWhile isDigit)) :=
          (number_iff _ _).2 ⟨fun h => hne (by simp [h]), hd, rfl⟩
        cases hp : optGroup '-' isDigit (s.dropWhile isDigit) with
        | mk g r1 =>
          rw [hp] at hend
          simp only at hend
          cases hq : optGroup '/' isDigit r1 with
          | mk g2 r2 =>
            rw [hq] at hend
            simp only at hend
            have hE := (atEnd_iff _).1 hend
            have h2 : ∃ q, r1 = q ++ r2 ∧ ((q = [] ∧ g2.map natOf = none) ∨ ∃ v n, Number v n ∧ q = '/' :: v ∧ g2.map natOf = some n) := by
              cases g2 with
              | none =>
                obtain ⟨rfl, _⟩ := (optGroup_iff_none _ _ _ _).1 hq
                exact ⟨[], rfl, .inl ⟨rfl, rfl⟩⟩
              | some v =>
                obtain ⟨rfl, k1, k2, _⟩ := (optGroup_iff_some _ _ _ _ _).1 hq
                exact ⟨'/' :: v, rfl, .inr ⟨v, natOf v, (number_iff _ _).2 ⟨k1, k2, rfl⟩, rfl, rfl⟩⟩
            have h1 : ∃ p, s.dropWhile isDigit = p ++ r1 ∧ ((p = [] ∧ g.map natOf = none) ∨ ∃ u b, Number u b ∧ p = '-' :: u ∧ g.map natOf = some b) := by
              cases g with
              | none =>
                obtain ⟨h, _⟩ := (optGroup_iff_none _ _ _ _).1 hp
                exact ⟨[], h, .inl ⟨rfl, rfl⟩⟩
              | some v =>
                obtain ⟨h, k1, k2, _⟩ := (optGroup_iff_some _ _ _ _ _).1 hp
                exact ⟨'-' :: v, h, .inr ⟨v, natOf v, (number_iff _ _).2 ⟨k1, k2, rfl⟩, rfl, rfl⟩⟩
            obtain ⟨q, rfl, hq'⟩ := h2
            obtain ⟨p, hp', hp''⟩ := h1
            refine ⟨_, _, _, ⟨s.takeWhile isDigit, p, q, r2, ?_, hnum, hE, hp'', hq'⟩, ?_⟩
            · rw [← hp']; exact hs
            · rfl
      · cases h
  · rintro ⟨a, last, step, ⟨t, p, q, rest, rfl, hn, hend, hp, hq⟩, rfl⟩
    obtain ⟨k1, k2, k3⟩ := (number_iff _ _).1 hn
    have hdig : ∀ c, rest.head? = some c → isDigit c = false := atEnd_head hend rfl
    have hQ : optGroup '/' isDigit (q ++ rest) = (if q = [] then none else some q.tail, rest) ∧
        (∀ c, (q ++ rest).head? = some c → isDigit c = false) ∧
        step = (if q = [] then (none : Option Text) else some q.tail).map natOf := by
      rcases hq with ⟨rfl, rfl⟩ | ⟨v, n, hv, rfl, rfl⟩
      · refine ⟨?_, hdig, rfl⟩
        rw [if_pos rfl, optGroup_iff_none]
        refine ⟨rfl, fun x y hxy => ?_⟩
        rcases hend with rfl | rfl <;> cases hxy
      · obtain ⟨m1, m2, m3⟩ := (number_iff _ _).1 hv
        exact ⟨optGroup_some m1 m2 hdig, fun c hc => by cases hc; rfl, by simp [m3]⟩
    obtain ⟨q1, q2, q3⟩ := hQ
    have hP : optGroup '-' isDigit (p ++ (q ++ rest)) = (if p = [] then none else some p.tail, q ++ rest) ∧
        (∀ c, (p ++ (q ++ rest)).head? = some c → isDigit c = false) ∧
        last = (if p = [] then (none : Option Text) else some p.tail).map natOf := by
      rcases hp with ⟨rfl, rfl⟩ | ⟨v, n, hv, rfl, rfl⟩
      · refine ⟨?_, q2, rfl⟩
        rw [if_pos rfl, optGroup_iff_none]
        refine ⟨rfl, fun x y hxy => ?_⟩
        rcases hq with ⟨rfl, _⟩ | ⟨v, n, hv, rfl, _⟩
        · rcases hend with rfl | rfl <;> cases hxy
        · cases hxy
      · obtain ⟨m1, m2, m3⟩ := (number_iff _ _).1 hv
        exact ⟨optGroup_some m1 m2 q2, fun c hc => by cases hc; rfl, by simp [m3]⟩
    obtain ⟨p1, p2, p3⟩ := hP
    obtain ⟨b1, b2⟩ := take_block k2 p2
    have hne : t.isEmpty = false := by cases t <;> simp_all
    simp only [parseRange, b1, b2, p1, q1, hne, (atEnd_iff _).2 hend, if_true, k3, p3, q3, Bool.false_eq_true, if_false]

theorem findIdx_iff {α : Type} (p : α → Bool) (l : List α) (i : Nat)
    (huniq : ∀ (a b : Nat) (x y : α), l[a]? = some x → l[b]? = some y → p x = true → p y = true → a = b) :
    l.findIdx? p = some i ↔ ∃ x, l[i]? = some x ∧ p x = true := by
  rw [List.findIdx?_eq_some_iff_getElem]
  constructor
  · rintro ⟨h, h1, _⟩
    exact ⟨l[i], List.getElem?_eq_getElem h, h1⟩
  · rintro ⟨x, hx, hp⟩
    obtain ⟨h, rfl⟩ := List.getElem?_eq_some_iff.1 hx
    refine ⟨h, hp, fun j hj hpj => ?_⟩
    have := huniq j i _ _ (List.getElem?_eq_getElem (by omega)) hx hpj hp
    omega

/-- a list of names without repetition -/
theorem indexOf_iff (names : List Text) (ss : List String) (hns : names = ss.map String.toList) (hnd : names.Nodup) (t : Text) (i : Nat) :
    indexOf names t = some i ↔ Named ss t i := by
  unfold indexOf Named
  rw [findIdx_iff]
  · subst hns
    simp only [List.getElem?_map, Option.map_eq_some_iff, beq_iff_eq, lower_eq]
    constructor
    · rintro ⟨_, ⟨s, h1, rfl⟩, h2⟩; exact ⟨s, h1, h2.symm⟩
    · rintro ⟨s, h1, h2⟩; exact ⟨_, ⟨s, h1, rfl⟩, h2.symm⟩
  · intro a b x y ha hb hx hy
    simp only [beq_iff_eq] at hx hy
    rw [← hy] at hx
    subst hx
    obtain ⟨h1, h2⟩ := List.getElem?_eq_some_iff.1 ha
    exact (List.getElem?_inj h1 hnd).1 (by rw [ha, hb])

theorem months_iff (t : Text) (i : Nat) : indexOf months t = some i ↔ Named monthNames t i :=
  indexOf_iff months monthNames rfl (by decide +kernel) t i
theorem weekdays_iff (t : Text) (i : Nat) : indexOf weekdays t = some i ↔ Named dayNames t i :=
  indexOf_iff weekdays dayNames rfl (by decide +kernel) t i

theorem toLower_letter (c : Char) (h : Letter c.toLower) : Letter c := by
  rw [← lowerC_eq] at h
  unfold lowerC at h
  split at h
  · rename_i hu
    exact .inr (by simpa [isUpper] using hu)
  · exact h

/-- names consist of letters -/
theorem named_letters {ss : List String} (hl : ∀ s ∈ ss, s.toList ≠ [] ∧ ∀ c ∈ s.toList, isLetter c = true) {t : Text} {i : Nat}
    (h : Named ss t i) : t ≠ [] ∧ ∀ c ∈ t, isLetter c = true := by
  obtain ⟨s, hs, he⟩ := h
  obtain ⟨h1, h2⟩ := hl s (List.mem_of_getElem? hs)
  refine ⟨fun ht => h1 (by rw [← he, ht]; rfl), fun c hc => ?_⟩
  rw [isLetter_iff]
  apply toLower_letter
  rw [← isLetter_iff]
  exact h2 _ (by rw [← he]; exact List.mem_map_of_mem hc)

theorem monthNames_ok : ∀ s ∈ monthNames, s.toList ≠ [] ∧ ∀ c ∈ s.toList, isLetter c = true := by decide +kernel
theorem dayNames_ok : ∀ s ∈ dayNames, s.toList ≠ [] ∧ ∀ c ∈ s.toList, isLetter c = true := by decide +kernel

theorem notNext_iff {P : Char → Prop} {X : Char → Bool} (h : ∀ c, X c = true ↔ P c) (r : Text) :
    NotNext P r ↔ ∀ c, r.head? = some c → X c = false := by
  unfold NotNext
  constructor
  · intro hn c hc
    cases r with
    | nil => cases hc
    | cons a q =>
      simp at hc; subst hc
      have := hn a q rfl
      rw [← h] at this; simpa using this
  · rintro hn c q rfl hp
    have := hn c rfl
    rw [(h c).2 hp] at this; cases this

/-- the two name classes -/
theorem parseNames_iff (names : List Text) (ss : List String) (hidx : ∀ t i, indexOf names t = some i ↔ Named ss t i)
    (hl : ∀ s ∈ ss, s.toList ≠ [] ∧ ∀ c ∈ s.toList, isLetter c = true) (base : Nat) (mk : Nat → Nat → Expr) (s : Text) (e : Expr) :
    parseNames names base mk s = some (some e) ↔ ∃ t rest, s = t ++ rest ∧ NotNext Letter rest ∧
      ((∃ i, Named ss t i ∧ (∀ r, rest = '-' :: r → NotNext Letter r) ∧ e = mk (i + base) (i + base)) ∨
       ∃ u i v j, t = u ++ '-' :: v ∧ Named ss u i ∧ Named ss v j ∧ i ≤ j ∧ e = mk (i + base) (j + base)) := by
  constructor
  · intro h
    simp only [parseNames] at h
    obtain ⟨hs, hd, hhead⟩ := split_block isLetter s
    split at h
    · cases h
    · simp only [Option.some.injEq] at h
      cases hg : optGroup '-' isLetter (s.dropWhile isLetter) with
      | mk g r =>
        rw [hg] at h
        simp only [mkNames] at h
        cases hi : indexOf names (s.takeWhile isLetter) with
        | none => rw [hi] at h; cases h
        | some i =>
          rw [hi] at h
          have hni := (hidx _ _).1 hi
          cases g with
          | none =>
            simp only [Option.some.injEq] at h
            obtain ⟨rfl, hno⟩ := (optGroup_iff_none _ _ _ _).1 hg
            refine ⟨_, _, hs, (notNext_iff isLetter_iff _).2 hhead, .inl ⟨i, hni, fun r hr => ?_, h.symm⟩⟩
            rw [notNext_iff isLetter_iff]
            intro c hc
            cases r with
            | nil => cases hc
            | cons a q => simp at hc; subst hc; exact hno a q hr
          | some v =>
            simp only at h
            obtain ⟨hr, h1, h2, h3⟩ := (optGroup_iff_some _ _ _ _ _).1 hg
            cases hj : indexOf names v with
            | none => rw [hj] at h; cases h
            | some j =>
              rw [hj] at h
              simp only at h
              split at h
              · cases h
              · rename_i hle
                simp only [Option.some.injEq] at h
                refine ⟨s.takeWhile isLetter ++ '-' :: v, r, ?_, (notNext_iff isLetter_iff _).2 h3,
                  .inr ⟨_, i, v, j, rfl, hni, (hidx _ _).1 hj, by omega, h.symm⟩⟩
                rw [List.append_assoc, List.cons_append, ← hr]; exact hs
  · rintro ⟨t, rest, rfl, hrest, ⟨i, hn, hdash, rfl⟩ | ⟨u, i, v, j, rfl, hu, hv, hij, rfl⟩⟩
    · obtain ⟨l1, l2⟩ := named_letters hl hn
      obtain ⟨b1, b2⟩ := take_block l2 ((notNext_iff isLetter_iff _).1 hrest)
      have hne : t.isEmpty = false := by cases t <;> simp_all
      have hg : optGroup '-' isLetter rest = (none, rest) := by
        rw [optGroup_iff_none]
        exact ⟨rfl, fun a q h => (notNext_iff isLetter_iff _).1 (hdash (a :: q) h) a rfl⟩
      simp only [parseNames, b1, b2, hne, Bool.false_eq_true, if_false, hg, mkNames, (hidx _ _).2 hn]
    · obtain ⟨l1, l2⟩ := named_letters hl hu
      obtain ⟨m1, m2⟩ := named_letters hl hv
      have e1 : (u ++ '-' :: v) ++ rest = u ++ '-' :: (v ++ rest) := by simp
      obtain ⟨b1, b2⟩ := take_block (r := '-' :: (v ++ rest)) l2 (fun c hc => by cases hc; rfl)
      have hne : u.isEmpty = false := by cases u <;> simp_all
      have hg := optGroup_some (c := '-') m1 m2 ((notNext_iff isLetter_iff _).1 hrest)
      have hij' : ¬ i + base > j + base := by omega
      simp only [e1, parseNames, b1, b2, hne, Bool.false_eq_true, if_false, hg, mkNames, (hidx _ _).2 hu, (hidx _ _).2 hv, hij']

/-! ### Positions -/

theorem hasPrefix_iff (p : String) (s : Text) : hasPrefix p.toList s = true ↔ ∃ t r, s = t ++ r ∧ t.map Char.toLower = p.toList := by
  unfold hasPrefix
  rw [beq_iff_eq, lower_eq]
  constructor
  · intro h; exact ⟨_, _, (List.take_append_drop _ s).symm, h⟩
  · rintro ⟨t, r, rfl, h⟩
    have : t.length = p.toList.length := by rw [← h, List.length_map]
    rw [← this, List.take_left]; exact h

theorem options_eq : options = positionNames.map String.toList := rfl

theorem options_heads : ∀ a < 6, ∀ b < 6, (options.getD a []).head? = (options.getD b []).head? → a = b := by decide +kernel
theorem options_ne : ∀ a < 6, options.getD a [] ≠ [] := by decide +kernel

theorem hasPrefix_head {p s : Text} (hp : p ≠ []) (h : hasPrefix p s = true) : p.head? = s.head?.map lowerC := by
  simp only [hasPrefix, beq_iff_eq] at h
  cases p with
  | nil => exact absurd rfl hp
  | cons c p =>
    cases s with
    | nil => simp [lower] at h
    | cons a s =>
      simp only [List.length_cons, List.take_succ_cons, lower, List.map_cons, List.cons.injEq] at h
      simp [h.1]

theorem options_get {a : Nat} {x : Text} (h : options[a]? = some x) : a < 6 ∧ x = options.getD a [] := by
  obtain ⟨h1, h2⟩ := List.getElem?_eq_some_iff.1 h
  exact ⟨h1, by rw [List.getD_eq_getElem?_getD, h]; rfl⟩

theorem position_iff (s : Text) (o : Nat) : options.findIdx? (fun p => hasPrefix p s) = some o ↔
    ∃ t r, s = t ++ r ∧ t.length = (options.getD o []).length ∧ Named positionNames t o := by
  rw [findIdx_iff]
  · constructor
    · rintro ⟨x, hx, h⟩
      have hx' := hx
      rw [options_eq, List.getElem?_map, Option.map_eq_some_iff] at hx'
      obtain ⟨p, hp, rfl⟩ := hx'
      obtain ⟨t, r, h1, h2⟩ := (hasPrefix_iff p s).1 h
      refine ⟨t, r, h1, ?_, p, hp, h2⟩
      rw [← (options_get hx).2, ← h2, List.length_map]
    · rintro ⟨t, r, h1, _, p, hp, h2⟩
      exact ⟨p.toList, by rw [options_eq, List.getElem?_map, hp]; rfl, (hasPrefix_iff p s).2 ⟨t, r, h1, h2⟩⟩
  · intro a b x y ha hb hx hy
    obtain ⟨ha', rfl⟩ := options_get ha
    obtain ⟨hb', rfl⟩ := options_get hb
    apply options_heads a ha' b hb'
    rw [hasPrefix_head (options_ne a ha') hx, hasPrefix_head (options_ne b hb') hy]

theorem spaces_iff (a : Text) : a ≠ [] ∧ (∀ c ∈ a, (c == ' ') = true) ↔ ∃ k, a = List.replicate (k + 1) ' ' := by
  constructor
  · rintro ⟨h1, h2⟩
    refine ⟨a.length - 1, List.eq_replicate_iff.2 ⟨?_, fun c hc => by simpa using h2 c hc⟩⟩
    cases a with
    | nil => exact absurd rfl h1
    | cons _ _ => simp
  · rintro ⟨k, rfl⟩
    exact ⟨by simp [List.replicate_succ], fun c hc => by simp [List.eq_of_mem_replicate hc]⟩

theorem dayNames_word {u : Text} {w : Nat} (h : Named dayNames u w) : u ≠ [] ∧ (∀ c ∈ u, isWord c = true) ∧
    (∀ c, u.head? = some c → isDigit c = false) ∧ ∀ c, u.head? = some c → (c == ' ') = false := by
  obtain ⟨h1, h2⟩ := named_letters dayNames_ok h
  have h3 : ∀ c, isLetter c = true → isDigit c = false ∧ (c == ' ') = false := by
    intro c hc
    rw [isLetter_iff] at hc
    have hd : isDigit c = false := by
      rw [← Bool.not_eq_true, isDigit_iff]
      rintro ⟨_, hle⟩
      have hle' : c.toNat ≤ 57 := hle
      rcases hc with ⟨h, _⟩ | ⟨h, _⟩
      · have : 97 ≤ c.toNat := h; omega
      · have : 65 ≤ c.toNat := h; omega
    refine ⟨hd, ?_⟩
    rw [← Bool.not_eq_true, beq_iff_eq]
    rintro rfl
    revert hc; unfold Letter; decide
  exact ⟨h1, fun c hc => by simp [isWord, h2 c hc], fun c hc => (h3 c (h2 c (List.mem_of_head? hc))).1,
    fun c hc => (h3 c (h2 c (List.mem_of_head? hc))).2⟩

theorem parsePos_iff (s : Text) (e : Expr) : parsePos s = some (some e) ↔
    ∃ t o k u w rest, s = t ++ (List.replicate (k + 1) ' ' ++ (u ++ rest)) ∧ Named positionNames t o ∧ Named dayNames u w ∧
      NotNext WordChar rest ∧ e = .weekdayPos o w := by
  constructor
  · intro h
    simp only [parsePos] at h
    cases ho : options.findIdx? (fun p => hasPrefix p s) with
    | none => rw [ho] at h; cases h
    | some o =>
      rw [ho] at h
      obtain ⟨t, r, rfl, hlen, hn⟩ := (position_iff s o).1 ho
      simp only [← hlen, List.drop_left] at h
      obtain ⟨s1, s2, s3⟩ := split_block (· == ' ') r
      split at h
      · cases h
      · rename_i hne
        split at h
        · cases h
        · split at h
          · cases h
          · simp only [Option.some.injEq, Option.map_eq_some_iff] at h
            obtain ⟨w, hw, rfl⟩ := h
            obtain ⟨k, hk⟩ := (spaces_iff _).1 ⟨fun he => hne (by simp [he]), s2⟩
            obtain ⟨b1, b2, b3⟩ := split_block isWord (r.dropWhile (· == ' '))
            refine ⟨t, o, k, _, w, _, ?_, hn, (weekdays_iff _ _).1 hw, (notNext_iff isWord_iff _).2 b3, rfl⟩
            rw [← b1, ← hk, ← s1]
  · rintro ⟨t, o, k, u, w, rest, rfl, ht, hu, hrest, rfl⟩
    have hlen : t.length = (options.getD o []).length := by
      obtain ⟨p, hp, hp'⟩ := ht
      have : options[o]? = some p.toList := by rw [options_eq, List.getElem?_map, hp]; rfl
      rw [← (options_get this).2, ← hp', List.length_map]
    have ho := (position_iff (t ++ (List.replicate (k + 1) ' ' ++ (u ++ rest))) o).2 ⟨t, _, rfl, hlen, ht⟩
    obtain ⟨h1, h2, h3, h4⟩ := dayNames_word hu
    obtain ⟨k1, k2⟩ := (spaces_iff _).2 ⟨k, rfl⟩
    have hhead : ∀ {X : Char → Bool}, (∀ c, u.head? = some c → X c = false) → ∀ c, (u ++ rest).head? = some c → X c = false := by
      intro X hX c hc
      cases u with
      | nil => exact absurd rfl h1
      | cons a u => exact hX c hc
    obtain ⟨b1, b2⟩ := take_block (r := u ++ rest) k2 (hhead h4)
    obtain ⟨c1, c2⟩ := take_block h2 ((notNext_iff isWord_iff _).1 hrest)
    have hd : (u ++ rest).takeWhile isDigit = [] := by
      cases u with
      | nil => exact absurd rfl h1
      | cons a u =>
        rw [List.cons_append, List.takeWhile_cons, if_neg]
        rw [h3 a rfl]; simp
    have hne : u.isEmpty = false := by cases u <;> simp_all
    simp only [parsePos, ho, ← hlen, List.drop_left, b1, b2, c1, hd, hne, (weekdays_iff _ _).2 hu]
    simp [List.replicate_succ]

/-- `last`, and not the n-th such day -/
theorem parsePos_last (t rest : Text) (ht : t.map Char.toLower = "last".toList) : parsePos (t ++ rest) = none ↔
    ¬ ∃ k c r, rest = List.replicate (k + 1) ' ' ++ c :: r ∧ WordChar c := by
  have hlen : t.length = (options.getD 5 []).length := by
    have : t.length = "last".toList.length := by rw [← ht, List.length_map]
    rw [this]; rfl
  have ho := (position_iff (t ++ rest) 5).2 ⟨t, _, rfl, hlen, "last", rfl, ht⟩
  simp only [parsePos, ho, ← hlen, List.drop_left]
  obtain ⟨s1, s2, s3⟩ := split_block (· == ' ') rest
  generalize hw : rest.dropWhile (· == ' ') = word at *
  generalize hsp : rest.takeWhile (· == ' ') = sp at *
  have hchar : ∀ c, isDigit c = true → isWord c = true := fun c hc => by simp [isWord, hc]
  cases sp with
  | nil =>
    simp only [List.isEmpty_nil, if_true, true_iff]
    rintro ⟨k, c, r, rfl, hc⟩
    simp [List.replicate_succ, List.takeWhile_cons] at hsp
  | cons a sp =>
    obtain ⟨k, hk⟩ := (spaces_iff (a :: sp)).1 ⟨by simp, s2⟩
    rw [hk] at s1 ⊢
    simp only [List.replicate_succ, List.isEmpty_cons, Bool.false_eq_true, if_false]
    cases word with
    | nil =>
      simp only [List.takeWhile_nil, List.isEmpty_nil, Bool.true_eq_false, if_false, if_true, true_iff]
      rintro ⟨k', c, r, hr, hc⟩
      have hm : c ∈ rest := by rw [hr]; simp
      rw [s1] at hm
      have : c = ' ' := by simpa using hm
      subst this
      rw [← isWord_iff] at hc; cases hc
    | cons x word =>
      have hx : isWord x = true ↔ ∃ k c r, rest = List.replicate (k + 1) ' ' ++ c :: r ∧ WordChar c := by
        constructor
        · intro h; exact ⟨k, x, word, s1, (isWord_iff x).1 h⟩
        · rintro ⟨k', c, r, hr, hc⟩
          have hcs : (c == ' ') = false := by
            rw [← isWord_iff] at hc
            rw [← Bool.not_eq_true, beq_iff_eq]; rintro rfl; cases hc
          have := (take_block (X := (· == ' ')) (b := List.replicate (k' + 1) ' ') (r := c :: r)
            (fun a ha => by simp [List.eq_of_mem_replicate ha]) (fun a ha => by simp at ha; subst ha; exact hcs)).2
          rw [← hr, hw] at this
          simp only [List.cons.injEq] at this
          rw [this.1]; exact (isWord_iff c).2 hc
      simp only [← List.replicate_succ] at *
      rw [← hx]
      cases hxd : isDigit x with
      | true => simp [List.takeWhile_cons, hxd, hchar x hxd]
      | false =>
        cases hxw : isWord x <;> simp [List.takeWhile_cons, hxd, hxw]

/-! ## One expression -/

theorem digit_ne_star {c : Char} (h : isDigit c = true) : c ≠ '*' := by rintro rfl; cases h
theorem letter_ne {c d : Char} (h : isLetter c = true) (hd : isLetter d = false) : c ≠ d := by rintro rfl; rw [h] at hd; cases hd
theorem letter_not_digit {c : Char} (h : isLetter c = true) : isDigit c = false := by
  rw [isLetter_iff] at h
  rw [← Bool.not_eq_true, isDigit_iff]
  rintro ⟨_, hle⟩
  have hle' : c.toNat ≤ 57 := hle
  rcases h with ⟨h, _⟩ | ⟨h, _⟩
  · have : 97 ≤ c.toNat := h; omega
  · have : 65 ≤ c.toNat := h; omega

theorem parseRange_letter2 {c d : Char} {r : Text} (h : isLetter d = true) : parseRange (c :: d :: r) = none := by
  have hd := letter_not_digit h
  have h1 : d ≠ '-' := letter_ne h rfl
  have h2 : d ≠ '/' := letter_ne h rfl
  have h3 : d ≠ '\n' := letter_ne h rfl
  cases hc : isDigit c with
  | false => exact parseRange_none hc
  | true => simp [parseRange, List.takeWhile_cons, List.dropWhile_cons, hc, hd, optGroup, h1, h2, atEnd, h3]

/-- the second character of a position is a letter, and the first is not `*` -/
theorem position_head {t : Text} {o : Nat} (h : Named positionNames t o) : ∃ c d r, t = c :: d :: r ∧ c ≠ '*' ∧ isLetter d = true := by
  obtain ⟨p, hp, he⟩ := h
  have hP : ∀ p ∈ positionNames, 2 ≤ p.toList.length ∧ p.toList.head? ≠ some '*' ∧ ∀ d ∈ p.toList.tail.head?, isLetter d = true := by
    decide +kernel
  obtain ⟨h1, h2, h3⟩ := hP p (List.mem_of_getElem? hp)
  rw [← he] at h1 h2 h3
  match t, h1, h2, h3 with
  | c :: d :: r, _, h2, h3 =>
    refine ⟨c, d, r, rfl, ?_, ?_⟩
    · rintro rfl; exact h2 rfl
    · have := h3 d.toLower rfl
      rw [isLetter_iff] at this ⊢
      exact toLower_letter d this

theorem number_head {t : Text} {n : Nat} (h : Number t n) : ∃ c r, t = c :: r ∧ isDigit c = true := by
  obtain ⟨h1, h2, _⟩ := (number_iff _ _).1 h
  cases t with
  | nil => exact absurd rfl h1
  | cons c r => exact ⟨c, r, rfl, h2 c List.mem_cons_self⟩

theorem minValue_eq (f : FieldName) : minValue f = Lang.lowest f := by cases f <;> rfl
theorem maxValue_eq (f : FieldName) : maxValue f = Lang.highest f := by cases f <;> rfl

theorem named_lt {ss : List String} {t : Text} {i : Nat} (h : Named ss t i) : i < ss.length := by
  obtain ⟨p, hp, _⟩ := h
  exact (List.getElem?_eq_some_iff.1 hp).1

theorem stepOk_iff (step : Option Nat) (range : Int) (hpos : ∀ n, step = some n → 0 < n) :
    validRange.stepOk step range = true ↔ ∀ n, step = some n → (n : Int) ≤ range := by
  cases step with
  | none => simp [validRange.stepOk]
  | some n =>
    have := hpos n rfl
    have h0 : n ≠ 0 := by omega
    simp [validRange.stepOk, h0]

/-- The checks are those of the specification. -/
theorem valid_iff {f : FieldName} {t rest : Text} {e : Expr} (h : Says f t rest e) : validRange f e = true ↔ Fits f e := by
  have hall : ∀ step : Option Nat, (∀ n, step = some n → 0 < n) → (validRange f (.all step) = true ↔ Fits f (.all step)) := by
    intro step hpos
    simp only [validRange, Fits, stepOk_iff _ _ hpos, minValue_eq, maxValue_eq]
  have hrange : ∀ (a : Nat) (b step : Option Nat), (∀ n, step = some n → 0 < n) →
      (validRange f (.range a b step) = true ↔ Fits f (.range a b step)) := by
    intro a b step hpos
    simp only [validRange, validRange.rangeOk, Fits, Bool.and_eq_true, stepOk_iff _ _ hpos, minValue_eq, maxValue_eq, decide_eq_true_eq]
    match b with
    | none =>
      simp only [reduceCtorEq, false_implies, implies_true, and_true, true_and]
      constructor
      · rintro ⟨h1, h2, h4⟩; exact ⟨h2, fun n hn => ⟨h1 n hn, h4 n hn⟩⟩
      · rintro ⟨h2, h4⟩; exact ⟨fun n hn => (h4 n hn).1, h2, fun n hn => (h4 n hn).2⟩
    | some 0 =>
      simp only [decide_eq_true_eq, Option.some.injEq, forall_eq', if_true]
      constructor
      · rintro ⟨h1, ⟨h2, h3⟩, h4⟩; exact ⟨h2, h3, fun n hn => ⟨h1 n hn, h4 n hn⟩⟩
      · rintro ⟨h2, h3, h4⟩; exact ⟨fun n hn => (h4 n hn).1, ⟨h2, h3⟩, fun n hn => (h4 n hn).2⟩
    | some (k + 1) =>
      simp only [decide_eq_true_eq, Option.some.injEq, forall_eq', Nat.add_eq_zero_iff, Nat.one_ne_zero, and_false, if_false]
      constructor
      · rintro ⟨h1, ⟨h2, h3⟩, h4⟩; exact ⟨h2, h3, fun n hn => ⟨h1 n hn, h4 n hn⟩⟩
      · rintro ⟨h2, h3, h4⟩; exact ⟨fun n hn => (h4 n hn).1, ⟨h2, h3⟩, fun n hn => (h4 n hn).2⟩
  have hsome : ∀ {n : Nat}, 0 < n → ∀ m, some n = some m → 0 < m := fun h m hm => by cases hm; exact h
  have hnone : ∀ m : Nat, (none : Option Nat) = some m → 0 < m := fun m hm => by cases hm
  cases h with
  | every _ => exact hall _ hnone
  | everyStep _ hp _ => exact hall _ (hsome hp)
  | one _ _ => exact hrange _ _ _ hnone
  | range _ _ _ _ => exact hrange _ _ _ hnone
  | rangeStep _ _ _ _ hp _ => exact hrange _ _ _ (hsome hp)
  | step _ _ hp _ => exact hrange _ _ _ (hsome hp)
  | month hf hn _ _ =>
    have := named_lt hn
    have h12 : monthNames.length = 12 := rfl
    subst hf
    have hlo : minValue .month = 1 := rfl
    have hhi : maxValue .month = 12 := rfl
    simp only [validRange, validRange.rangeOk, validRange.stepOk, hlo, hhi, Fits, Bool.and_eq_true, decide_eq_true_eq]
    exact ⟨fun _ => trivial, fun _ => ⟨⟨by omega, by omega⟩, trivial⟩⟩
  | months hf hn hm hij _ =>
    have := named_lt hn
    have := named_lt hm
    have h12 : monthNames.length = 12 := rfl
    subst hf
    have hlo : minValue .month = 1 := rfl
    have hhi : maxValue .month = 12 := rfl
    simp only [validRange, validRange.rangeOk, validRange.stepOk, hlo, hhi, Fits, Bool.and_eq_true, decide_eq_true_eq]
    exact ⟨fun _ => trivial, fun _ => ⟨⟨by omega, by omega⟩, trivial⟩⟩
  | weekday hf hn _ _ =>
    have := named_lt hn
    have h12 : dayNames.length = 7 := rfl
    subst hf
    have hlo : minValue .dayOfWeek = 0 := rfl
    have hhi : maxValue .dayOfWeek = 6 := rfl
    simp only [validRange, validRange.rangeOk, validRange.stepOk, hlo, hhi, Fits, Bool.and_eq_true, decide_eq_true_eq]
    exact ⟨fun _ => trivial, fun _ => ⟨⟨by omega, by omega⟩, trivial⟩⟩
  | weekdays hf hn hm hij _ =>
    have := named_lt hn
    have := named_lt hm
    have h12 : dayNames.length = 7 := rfl
    subst hf
    have hlo : minValue .dayOfWeek = 0 := rfl
    have hhi : maxValue .dayOfWeek = 6 := rfl
    simp only [validRange, validRange.rangeOk, validRange.stepOk, hlo, hhi, Fits, Bool.and_eq_true, decide_eq_true_eq]
    exact ⟨fun _ => trivial, fun _ => ⟨⟨by omega, by omega⟩, trivial⟩⟩
  | nth _ _ _ _ => simp [validRange, Fits]
  | last _ _ _ => simp [validRange, Fits]

theorem compileWith_cons (f : FieldName) (s : Text) (p : Text → Option (Option Expr)) (ps : List (Text → Option (Option Expr))) (e : Expr) :
    compileWith f s (p :: ps) = some e ↔
      (p s = some (some e) ∧ validRange f e = true) ∨ (p s = none ∧ compileWith f s ps = some e) := by
  cases h : p s with
  | none => simp [compileWith, h]
  | some r =>
    cases r with
    | none => simp [compileWith, h]
    | some e' =>
      simp only [compileWith, h]
      split
      · rename_i hv
        simp only [Option.some.injEq, reduceCtorEq, false_and, or_false]
        exact ⟨fun he => ⟨he, he ▸ hv⟩, fun he => he.1⟩
      · rename_i hv
        simp only [reduceCtorEq, Option.some.injEq, false_and, or_false, false_iff, not_and]
        rintro rfl; simpa using hv

/-- what the first two classes accept -/
theorem numeric_iff (f : FieldName) (s : Text) (e : Expr) :
    (parseAll s = some (some e) ∨ (parseAll s = none ∧ parseRange s = some (some e))) ↔
      ∃ t rest, s = t ++ rest ∧ AtEnd rest ∧ Says f t rest e ∧ ((∃ n, e = .all n) ∨ ∃ a b n, e = .range a b n) := by
  constructor
  · rintro (h | ⟨_, h⟩)
    · obtain ⟨t, rest, rfl, hend, ⟨rfl, rfl⟩ | ⟨u, n, hn, hpos, rfl, rfl⟩⟩ := (parseAll_iff _ _).1 h
      · exact ⟨_, _, rfl, hend, .every hend, .inl ⟨_, rfl⟩⟩
      · exact ⟨_, _, rfl, hend, .everyStep hn hpos hend, .inl ⟨_, rfl⟩⟩
    · obtain ⟨a, last, step, ⟨t, p, q, rest, rfl, hn, hend, hp, hq⟩, hm⟩ := (parseRange_iff _ _).1 h
      obtain ⟨m1, m2, rfl⟩ := (mkRange_iff _ _ _ _).1 hm.symm
      refine ⟨t ++ (p ++ q), rest, by simp, hend, ?_, .inr ⟨_, _, _, rfl⟩⟩
      rcases hp with ⟨rfl, rfl⟩ | ⟨u, b, hu, rfl, rfl⟩ <;> rcases hq with ⟨rfl, rfl⟩ | ⟨v, n, hv, rfl, rfl⟩
      · simpa using Says.one hn hend
      · simpa using Says.step hn hv (m1 n rfl) hend
      · simpa using Says.range hn hu (m2 b rfl) hend
      · simpa using Says.rangeStep hn hu (m2 b rfl) hv (m1 n rfl) hend
  · rintro ⟨t, rest, rfl, hend, hs, hshape⟩
    have hR : ∀ (t p q : Text) (a : Nat) (last step : Option Nat), Number t a →
        ((p = [] ∧ last = none) ∨ ∃ u b, Number u b ∧ p = '-' :: u ∧ last = some b) →
        ((q = [] ∧ step = none) ∨ ∃ v n, Number v n ∧ q = '/' :: v ∧ step = some n) →
        (∀ n, step = some n → 0 < n) → (∀ b, last = some b → a ≤ b) →
        parseAll (t ++ (p ++ (q ++ rest))) = none ∧
        parseRange (t ++ (p ++ (q ++ rest))) = some (some (.range a (if last = none ∧ step = none then some a else last) step)) := by
      intro t p q a last step hn hp hq h1 h2
      obtain ⟨c, r, rfl, hc⟩ := number_head hn
      refine ⟨parseAll_none (digit_ne_star hc), (parseRange_iff _ _).2 ⟨a, last, step, ⟨_, p, q, rest, rfl, hn, hend, hp, hq⟩, ?_⟩⟩
      exact ((mkRange_iff _ _ _ _).2 ⟨h1, h2, rfl⟩).symm
    have hsome : ∀ {n : Nat}, 0 < n → ∀ m, some n = some m → 0 < m := fun h m hm => by cases hm; exact h
    cases hs with
    | every _ => exact .inl ((parseAll_iff _ _).2 ⟨_, _, rfl, hend, .inl ⟨rfl, rfl⟩⟩)
    | everyStep hn hp _ => exact .inl ((parseAll_iff _ _).2 ⟨_, _, rfl, hend, .inr ⟨_, _, hn, hp, rfl, rfl⟩⟩)
    | one hn _ =>
      right
      simpa using hR t [] [] _ none none hn (.inl ⟨rfl, rfl⟩) (.inl ⟨rfl, rfl⟩) (by simp) (by simp)
    | range hn hu hab _ =>
      right
      have := hR _ _ [] _ _ none hn (.inr ⟨_, _, hu, rfl, rfl⟩) (.inl ⟨rfl, rfl⟩) (by simp) (fun b hb => by cases hb; exact hab)
      simpa using this
    | rangeStep hn hu hab hv hp _ =>
      right
      have := hR _ _ _ _ _ _ hn (.inr ⟨_, _, hu, rfl, rfl⟩) (.inr ⟨_, _, hv, rfl, rfl⟩) (hsome hp) (fun b hb => by cases hb; exact hab)
      simpa using this
    | step hn hv hp _ =>
      right
      have := hR _ [] _ _ none _ hn (.inl ⟨rfl, rfl⟩) (.inr ⟨_, _, hv, rfl, rfl⟩) (hsome hp) (by simp)
      simpa using this
    | _ => simp at hshape

theorem letters_none {t rest : Text} (h1 : t ≠ []) (h2 : ∀ c ∈ t, isLetter c = true) : parseAll (t ++ rest) = none ∧ parseRange (t ++ rest) = none := by
  cases t with
  | nil => exact absurd rfl h1
  | cons c t =>
    have := h2 c List.mem_cons_self
    exact ⟨parseAll_none (letter_ne this rfl), parseRange_none (letter_not_digit this)⟩

/-- **C116, one expression.** -/
theorem compile1_iff (f : FieldName) (s : Text) (e : Expr) : compile1 f s = some e ↔ Reads f s e := by
  have hnum : ∀ {t rest : Text}, Says f t rest e → s = t ++ rest → AtEnd rest → ((∃ n, e = .all n) ∨ ∃ a b n, e = .range a b n) →
      (parseAll s = some (some e) ∨ (parseAll s = none ∧ parseRange s = some (some e))) :=
    fun h h1 h2 h3 => (numeric_iff f s e).2 ⟨_, _, h1, h2, h, h3⟩
  have hsays : (parseAll s = some (some e) ∨ (parseAll s = none ∧ parseRange s = some (some e))) → validRange f e = true →
      Reads f s e := by
    intro h hv
    obtain ⟨t, rest, rfl, _, hs, _⟩ := (numeric_iff f s e).1 h
    exact ⟨(valid_iff hs).1 hv, t, rest, rfl, hs⟩
  unfold compile1
  have hshape : ∃ ps, compilers f = parseAll :: parseRange :: ps := by cases f <;> exact ⟨_, rfl⟩
  constructor
  · intro h
    obtain ⟨ps, hps⟩ := hshape
    have h0 := h
    rw [hps, compileWith_cons] at h
    rcases h with ⟨h, hv⟩ | ⟨h1, h⟩
    · exact hsays (.inl h) hv
    rw [compileWith_cons] at h
    rcases h with ⟨h, hv⟩ | ⟨h2, h⟩
    · exact hsays (.inr ⟨h1, h⟩) hv
    have hfin : ∀ {t rest : Text}, Says f t rest e → s = t ++ rest → validRange f e = true → Reads f s e :=
      fun hs he hv => ⟨(valid_iff hs).1 hv, _, _, he, hs⟩
    by_cases hm : f = .month
    · subst hm
      obtain rfl : ps = [parseNames months 1 .monthRange] := by simp only [compilers, List.cons.injEq, true_and] at hps; exact hps.symm
      rw [compileWith_cons] at h
      rcases h with ⟨h, hv⟩ | ⟨_, h⟩
      · obtain ⟨t, rest, he, hr, ⟨i, hn, hd, rfl⟩ | ⟨u, i, v, j, rfl, hu, hv', hij, rfl⟩⟩ :=
          (parseNames_iff _ monthNames months_iff monthNames_ok _ _ _ _).1 h
        · exact hfin (.month rfl hn hr hd) he hv
        · exact hfin (.months rfl hu hv' hij hr) he hv
      · cases h
    · by_cases hw : f = .dayOfWeek
      · subst hw
        obtain rfl : ps = [parseNames weekdays 0 .weekdayRange] := by simp only [compilers, List.cons.injEq, true_and] at hps; exact hps.symm
        rw [compileWith_cons] at h
        rcases h with ⟨h, hv⟩ | ⟨_, h⟩
        · obtain ⟨t, rest, he, hr, ⟨i, hn, hd, rfl⟩ | ⟨u, i, v, j, rfl, hu, hv', hij, rfl⟩⟩ :=
            (parseNames_iff _ dayNames weekdays_iff dayNames_ok _ _ _ _).1 h
          · exact hfin (.weekday rfl hn hr hd) he hv
          · exact hfin (.weekdays rfl hu hv' hij hr) he hv
        · cases h
      · by_cases hday : f = .day
        · subst hday
          obtain rfl : ps = [parsePos, parseLast] := by simp only [compilers, List.cons.injEq, true_and] at hps; exact hps.symm
          rw [compileWith_cons] at h
          rcases h with ⟨h, hv⟩ | ⟨hp, h⟩
          · obtain ⟨t, o, k, u, w, rest, he, ht, hu, hr, rfl⟩ := (parsePos_iff _ _).1 h
            exact hfin (.nth (k := k) rfl ht hu hr) (by rw [he]; simp) hv
          · rw [compileWith_cons] at h
            rcases h with ⟨h, hv⟩ | ⟨_, h⟩
            · simp only [parseLast] at h
              split at h
              · rename_i hpre
                cases h
                obtain ⟨t, r, rfl, ht⟩ := (hasPrefix_iff "last" s).1 hpre
                exact hfin (.last rfl ht ((parsePos_last t r ht).1 hp)) rfl hv
              · cases h
            · cases h
        · have : ps = [] := by
            cases f <;> first | exact absurd rfl hm | exact absurd rfl hw | exact absurd rfl hday | skip
            all_goals simp only [compilers, List.cons.injEq, true_and] at hps; exact hps.symm
          subst this
          cases h
  · rintro ⟨hfit, t, rest, rfl, hs⟩
    have hv := (valid_iff hs).2 hfit
    obtain ⟨ps, hps⟩ := hshape
    have hN : ∀ rest', AtEnd rest' → rest' = rest → ((∃ n, e = .all n) ∨ ∃ a b n, e = .range a b n) →
        compileWith f (t ++ rest) (compilers f) = some e := by
      rintro rest' hend rfl hsh
      rw [hps, compileWith_cons, compileWith_cons]
      rcases hnum hs rfl hend hsh with h | ⟨h1, h2⟩
      · exact .inl ⟨h, hv⟩
      · exact .inr ⟨h1, .inl ⟨h2, hv⟩⟩
    cases hs with
    | every hend => exact hN rest hend rfl (.inl ⟨_, rfl⟩)
    | everyStep _ _ hend => exact hN rest hend rfl (.inl ⟨_, rfl⟩)
    | one _ hend => exact hN rest hend rfl (.inr ⟨_, _, _, rfl⟩)
    | range _ _ _ hend => exact hN rest hend rfl (.inr ⟨_, _, _, rfl⟩)
    | rangeStep _ _ _ _ _ hend => exact hN rest hend rfl (.inr ⟨_, _, _, rfl⟩)
    | step _ _ _ hend => exact hN rest hend rfl (.inr ⟨_, _, _, rfl⟩)
    | month hf hn hr hd =>
      subst hf
      obtain ⟨l1, l2⟩ := named_letters monthNames_ok hn
      obtain ⟨n1, n2⟩ := letters_none (rest := rest) l1 l2
      simp only [compilers, compileWith_cons]
      exact .inr ⟨n1, .inr ⟨n2, .inl ⟨(parseNames_iff _ monthNames months_iff monthNames_ok _ _ _ _).2
        ⟨t, rest, rfl, hr, .inl ⟨_, hn, hd, rfl⟩⟩, hv⟩⟩⟩
    | @months t i u j _ hf hn hm hij hr =>
      subst hf
      obtain ⟨l1, l2⟩ := named_letters monthNames_ok hn
      obtain ⟨n1, n2⟩ := letters_none (rest := '-' :: (u ++ rest)) l1 l2
      simp only [compilers, compileWith_cons]
      exact .inr ⟨by simpa using n1, .inr ⟨by simpa using n2, .inl ⟨(parseNames_iff _ monthNames months_iff monthNames_ok _ _ _ _).2
        ⟨_, rest, rfl, hr, .inr ⟨_, _, _, _, rfl, hn, hm, hij, rfl⟩⟩, hv⟩⟩⟩
    | weekday hf hn hr hd =>
      subst hf
      obtain ⟨l1, l2⟩ := named_letters dayNames_ok hn
      obtain ⟨n1, n2⟩ := letters_none (rest := rest) l1 l2
      simp only [compilers, compileWith_cons]
      exact .inr ⟨n1, .inr ⟨n2, .inl ⟨(parseNames_iff _ dayNames weekdays_iff dayNames_ok _ _ _ _).2
        ⟨t, rest, rfl, hr, .inl ⟨_, hn, hd, rfl⟩⟩, hv⟩⟩⟩
    | @weekdays t i u j _ hf hn hm hij hr =>
      subst hf
      obtain ⟨l1, l2⟩ := named_letters dayNames_ok hn
      obtain ⟨n1, n2⟩ := letters_none (rest := '-' :: (u ++ rest)) l1 l2
      simp only [compilers, compileWith_cons]
      exact .inr ⟨by simpa using n1, .inr ⟨by simpa using n2, .inl ⟨(parseNames_iff _ dayNames weekdays_iff dayNames_ok _ _ _ _).2
        ⟨_, rest, rfl, hr, .inr ⟨_, _, _, _, rfl, hn, hm, hij, rfl⟩⟩, hv⟩⟩⟩
    | @nth t o k u w _ hf ht hu hr =>
      subst hf
      obtain ⟨c, d, r, rfl, hc, hd⟩ := position_head ht
      simp only [compilers, compileWith_cons]
      refine .inr ⟨parseAll_none hc, .inr ⟨parseRange_letter2 hd, .inl ⟨(parsePos_iff _ _).2
        ⟨_, o, k, u, w, rest, ?_, ht, hu, hr, rfl⟩, hv⟩⟩⟩
      simp
    | last hf ht hno =>
      subst hf
      obtain ⟨c, d, r, rfl, hc, hd⟩ := position_head (o := 5) ⟨"last", rfl, ht⟩
      simp only [compilers, compileWith_cons]
      refine .inr ⟨parseAll_none hc, .inr ⟨parseRange_letter2 hd, .inr ⟨(parsePos_last _ _ ht).2 hno, .inl ⟨?_, hv⟩⟩⟩⟩
      simp only [parseLast]
      rw [if_pos ((hasPrefix_iff "last" _).2 ⟨_, _, rfl, ht⟩)]

/-! ## Lists -/

theorem isBlank_iff (c : Char) : isBlank c = true ↔ White c := by simp [isBlank, White, or_assoc]

/-- the last character -/
theorem trimRight_split (p : Char → Bool) (s : Text) : ∃ b, s = trimRight p s ++ b ∧ (∀ c ∈ b, p c = true) ∧
    ∀ c r, trimRight p s = r ++ [c] → p c = false := by
  obtain ⟨h1, h2, h3⟩ := split_block p s.reverse
  refine ⟨(s.reverse.takeWhile p).reverse, ?_, fun c hc => h2 c (by simpa using hc), fun c r h => ?_⟩
  · unfold trimRight
    rw [← List.reverse_append, ← h1, List.reverse_reverse]
  · apply h3 c
    have : s.reverse.dropWhile p = (r ++ [c]).reverse := by rw [← h]; simp [trimRight]
    rw [this]; simp

theorem trim_split (p : Char → Bool) (P : Char → Prop) (hp : ∀ c, p c = true ↔ P c) (s : Text) :
    ∃ a b, s = a ++ (trimRight p (trimLeft p s) ++ b) ∧ (∀ c ∈ a, P c) ∧ (∀ c ∈ b, P c) ∧ Trimmed P (trimRight p (trimLeft p s)) := by
  obtain ⟨h1, h2, h3⟩ := split_block p s
  obtain ⟨b, k1, k2, k3⟩ := trimRight_split p (s.dropWhile p)
  refine ⟨s.takeWhile p, b, ?_, fun c hc => (hp c).1 (h2 c hc), fun c hc => (hp c).1 (k2 c hc), ?_, ?_⟩
  · unfold trimLeft
    rw [← k1, ← h1]
  · intro c r h hc
    have : (s.dropWhile p).head? = some c := by rw [k1]; unfold trimLeft at h; rw [h]; rfl
    have := h3 c this
    rw [(hp c).2 hc] at this; cases this
  · intro c r h hc
    have := k3 c r h
    rw [(hp c).2 hc] at this; cases this

theorem dropWhile_all {p : Char → Bool} {a r : Text} (h : ∀ c ∈ a, p c = true) : (a ++ r).dropWhile p = r.dropWhile p := by
  induction a with
  | nil => rfl
  | cons c a ih =>
    rw [List.cons_append, List.dropWhile_cons, if_pos (h c List.mem_cons_self)]
    exact ih fun x hx => h x (List.mem_cons_of_mem _ hx)

theorem trim_unique (p : Char → Bool) (P : Char → Prop) (hp : ∀ c, p c = true ↔ P c) {a t b : Text} (ha : ∀ c ∈ a, P c)
    (hb : ∀ c ∈ b, P c) (ht : Trimmed P t) : trimRight p (trimLeft p (a ++ (t ++ b))) = t := by
  unfold trimLeft trimRight
  rw [dropWhile_all fun c hc => (hp c).2 (ha c hc)]
  have hnp : ∀ c, ¬ P c → p c = false := fun c hc => by rw [← Bool.not_eq_true, hp]; exact hc
  cases t with
  | nil =>
    have : ([] ++ b : Text).dropWhile p = [] := by
      have := dropWhile_all (r := []) fun c hc => (hp c).2 (hb c hc)
      simpa using this
    rw [this]; rfl
  | cons c t =>
    have h1 : ((c :: t) ++ b : Text).dropWhile p = c :: t ++ b := by
      rw [List.cons_append, List.dropWhile_cons, if_neg (by rw [hnp c (ht.1 c t rfl)]; simp)]
    rw [h1, List.reverse_append, dropWhile_all fun x hx => (hp x).2 (hb x (by simpa using hx))]
    obtain ⟨r, d, hr⟩ : ∃ (r : Text) (d : Char), c :: t = r ++ [d] :=
      ⟨(c :: t).dropLast, (c :: t).getLast (by simp), (List.dropLast_concat_getLast (by simp)).symm⟩
    have hd := hnp d (ht.2 d r hr)
    rw [hr, List.reverse_append, List.reverse_singleton, List.singleton_append, List.dropWhile_cons, if_neg (by rw [hd]; simp)]
    simp

theorem space_iff (c : Char) : (c == ' ') = true ↔ c = ' ' := by simp

theorem separated_pieces {m : Text} {ts : List Text} (h : Separated m ts) :
    (splitComma m).map (fun p => trimRight (· == ' ') (trimLeft (· == ' ') p)) = ts := by
  have hcomma : ∀ {a t b : Text}, Item t → (∀ c ∈ a, c = ' ') → (∀ c ∈ b, c = ' ') → ∀ c ∈ a ++ (t ++ b), c ≠ ',' := by
    intro a t b ht ha hb c hc
    rcases List.mem_append.1 hc with hc | hc
    · rw [ha c hc]; decide
    · rcases List.mem_append.1 hc with hc | hc
      · exact ht.1 c hc
      · rw [hb c hc]; decide
  induction h with
  | one ht ha hb =>
    rw [splitComma_single (hcomma ht ha hb), List.map_singleton, trim_unique (· == ' ') (· = ' ') space_iff ha hb ht.2]
  | @more t a b s ts ht ha hb _ ih =>
    have : a ++ (t ++ (b ++ ',' :: s)) = (a ++ (t ++ b)) ++ ',' :: s := by simp
    rw [this, splitComma_append (hcomma ht ha hb), List.map_cons, ih, trim_unique (· == ' ') (· = ' ') space_iff ha hb ht.2]

theorem pieces_separated (m : Text) : Separated m ((splitComma m).map (fun p => trimRight (· == ' ') (trimLeft (· == ' ') p))) := by
  suffices H : ∀ n (m : Text), m.length ≤ n → Separated m ((splitComma m).map (fun p => trimRight (· == ' ') (trimLeft (· == ' ') p))) from
    H _ m (Nat.le_refl _)
  intro n
  induction n with
  | zero =>
    intro m hm
    have : m = [] := List.length_eq_zero_iff.1 (Nat.le_zero.1 hm)
    subst this
    exact Separated.one (t := []) (a := []) (b := []) ⟨by simp, by simp [Trimmed]⟩ (by simp) (by simp)
  | succ n ih =>
    intro m hm
    obtain ⟨h1, h2, h3⟩ := split_block (fun c => decide (c ≠ ',')) m
    have hno : ∀ c ∈ m.takeWhile (fun c => decide (c ≠ ',')), c ≠ ',' := fun c hc => by simpa using h2 c hc
    obtain ⟨a, b, k1, k2, k3, k4⟩ := trim_split (· == ' ') (· = ' ') space_iff (m.takeWhile (fun c => decide (c ≠ ',')))
    generalize ht : trimRight (· == ' ') (trimLeft (· == ' ') (m.takeWhile (fun c => decide (c ≠ ',')))) = t at *
    have hitem : Item t := ⟨fun c hc => hno c (by rw [k1]; simp [hc]), k4⟩
    cases hd : m.dropWhile (fun c => decide (c ≠ ',')) with
    | nil =>
      rw [hd, List.append_nil] at h1
      rw [← h1] at hno ht k1
      rw [splitComma_single hno, List.map_singleton, ht]
      conv => arg 1; rw [k1]
      exact .one hitem k2 k3
    | cons x r =>
      have hx : x = ',' := by
        have := h3 x (by rw [hd]; rfl)
        simpa using this
      subst hx
      rw [hd] at h1
      have hlen : r.length ≤ n := by
        have := congrArg List.length h1
        simp at this; omega
      have e : splitComma m = m.takeWhile (fun c => decide (c ≠ ',')) :: splitComma r := by
        conv => lhs; rw [h1]
        exact splitComma_append hno
      rw [e, List.map_cons, ht]
      have e2 : m = a ++ (t ++ (b ++ ',' :: r)) := by
        conv => lhs; rw [h1, k1]
        simp
      conv => arg 1; rw [e2]
      exact .more hitem k2 k3 (ih r hlen)

/-- The items the code takes are those that are listed. -/
theorem lists_iff (s : Text) (ts : List Text) : Lists s ts ↔ pieces s = ts := by
  constructor
  · rintro ⟨a, m, b, rfl, ha, hb, hm, hs⟩
    unfold pieces
    rw [trim_unique isBlank White isBlank_iff ha hb hm]
    exact separated_pieces hs
  · rintro rfl
    obtain ⟨a, b, h1, h2, h3, h4⟩ := trim_split isBlank White isBlank_iff s
    exact ⟨a, _, b, h1, h2, h3, h4, pieces_separated _⟩

theorem compileAll_iff (f : FieldName) (ts : List Text) (es : List Expr) : compileAll f ts = some es ↔
    ts.length = es.length ∧ ∀ (i : Nat) (t : Text) (e : Expr), ts[i]? = some t → es[i]? = some e → Reads f t e := by
  induction ts generalizing es with
  | nil =>
    simp only [compileAll, Option.some.injEq]
    constructor
    · rintro rfl; simp
    · rintro ⟨h, _⟩
      exact (List.length_eq_zero_iff.1 h.symm).symm
  | cons t ts ih =>
    constructor
    · intro h
      simp only [compileAll] at h
      cases h1 : compile1 f t with
      | none => rw [h1] at h; cases h
      | some e =>
        rw [h1] at h
        cases h2 : compileAll f ts with
        | none => rw [h2] at h; cases h
        | some es' =>
          rw [h2] at h
          cases h
          obtain ⟨k1, k2⟩ := (ih es').1 h2
          refine ⟨by simp [k1], fun i t' e' ht he => ?_⟩
          cases i with
          | zero => simp at ht he; subst ht; subst he; exact (compile1_iff _ _ _).1 h1
          | succ i => exact k2 i t' e' (by simpa using ht) (by simpa using he)
    · rintro ⟨h1, h2⟩
      cases es with
      | nil => simp at h1
      | cons e es =>
        have e1 := (compile1_iff f t e).2 (h2 0 t e rfl rfl)
        have e2 := (ih es).2 ⟨by simpa using h1, fun i t' e' ht he => h2 (i + 1) t' e' (by simpa using ht) (by simpa using he)⟩
        simp only [compileAll, e1, e2]

/-- **C116.** A field text is accepted, and means `es`, exactly when it lists items each of which says the expression at its
place and fits the field.  Partial because of what may follow an item (see `Says`). -/
theorem C116_field_partial (f : FieldName) (s : Text) (es : List Expr) : compileField f s = some es ↔
    ∃ ts, Lists s ts ∧ ts.length = es.length ∧
      ∀ (i : Nat) (t : Text) (e : Expr), ts[i]? = some t → es[i]? = some e → Reads f t e := by
  unfold compileField
  constructor
  · intro h
    exact ⟨pieces s, (lists_iff _ _).2 rfl, (compileAll_iff _ _ _).1 h⟩
  · rintro ⟨ts, hl, h⟩
    rw [(lists_iff _ _).1 hl]
    exact (compileAll_iff _ _ _).2 h

/-- The documented language: nothing behind the items. -/
theorem C116_documented (f : FieldName) (s : Text) (ts : List Text) (es : List Expr) (hl : Lists s ts) (hlen : ts.length = es.length)
    (h : ∀ (i : Nat) (t : Text) (e : Expr), ts[i]? = some t → es[i]? = some e → Says f t [] e) :
    compileField f s = some es ↔ ∀ e ∈ es, Fits f e := by
  have hU : ∀ (i : Nat) (t : Text) (e e' : Expr), ts[i]? = some t → es[i]? = some e → Fits f e → Reads f t e :=
    fun i t e _ ht he hf => ⟨hf, t, [], by simp, h i t e ht he⟩
  constructor
  · intro hc e he
    obtain ⟨ts', hl', _, hr⟩ := (C116_field_partial f s es).1 hc
    have : ts' = ts := by rw [← (lists_iff _ _).1 hl, (lists_iff _ _).1 hl']
    subst this
    obtain ⟨i, hi, rfl⟩ := List.getElem_of_mem he
    exact (hr i _ _ (List.getElem?_eq_getElem (by omega)) (List.getElem?_eq_getElem hi)).1
  · intro hf
    exact (C116_field_partial f s es).2 ⟨ts, hl, hlen, fun i t e ht he => hU i t e e ht he (hf e (List.mem_of_getElem? he))⟩

/-- What is not in the language is refused. -/
theorem C116_refused (f : FieldName) (s : Text) (ts : List Text) (hl : Lists s ts) (t : Text) (ht : t ∈ ts)
    (h : ∀ e, ¬ Reads f t e) : compileField f s = none := by
  cases hc : compileField f s with
  | none => rfl
  | some es =>
    obtain ⟨ts', hl', hlen, hr⟩ := (C116_field_partial f s es).1 hc
    have : ts' = ts := by rw [← (lists_iff _ _).1 hl, (lists_iff _ _).1 hl']
    subst this
    obtain ⟨i, hi, rfl⟩ := List.getElem_of_mem ht
    exact absurd (hr i _ _ (List.getElem?_eq_getElem hi) (List.getElem?_eq_getElem (by omega))) (h _)

/-- **C116 does not hold in full:** text behind a name is accepted and ignored. -/
theorem C116_trailing_witness : ∃ (s : Text) (e : Expr), compileField .dayOfWeek s = some [e] ∧ Says .dayOfWeek "mon".toList "!? 7".toList e ∧
    s = "mon!? 7".toList ∧ ∀ e', ¬ Says .dayOfWeek s [] e' := by
  refine ⟨"mon!? 7".toList, .weekdayRange 0 0, by decide +kernel, ?_, rfl, ?_⟩
  · exact .weekday rfl ⟨"mon", rfl, by decide +kernel⟩ (fun c r h => by
      have : c = '!' := by
        have h' : "!? 7".toList = '!' :: "? 7".toList := by decide +kernel
        rw [h'] at h; cases h; rfl
      subst this; unfold Letter; decide) (fun r h => by
      have h' : "!? 7".toList = '!' :: "? 7".toList := by decide +kernel
      rw [h'] at h; cases h)
  · intro e' h
    generalize hs : "mon!? 7".toList = s at h
    have hd : '!' ∈ s := by rw [← hs]; decide +kernel
    have hnum : ∀ {t n}, Number t n → '!' ∉ t := fun hn hm => by
      have := hn.2.1 _ hm; revert this; decide
    have hname : ∀ {t i}, Named dayNames t i → '!' ∉ t := fun hn hm => by
      have := (named_letters dayNames_ok hn).2 _ hm; cases this
    cases h with
    | every _ => simp at hd
    | everyStep h1 _ _ => simp at hd; exact hnum h1 hd
    | one h1 _ => exact hnum h1 hd
    | range h1 h2 _ _ => simp at hd; exact hd.elim (hnum h1) (hnum h2)
    | rangeStep h1 h2 _ h3 _ _ =>
      simp at hd; exact hd.elim (hnum h1) fun hd => hd.elim (hnum h2) (hnum h3)
    | step h1 h2 _ _ => simp at hd; exact hd.elim (hnum h1) (hnum h2)
    | weekday _ h1 _ _ => exact hname h1 hd
    | weekdays _ h1 h2 _ _ => simp at hd; exact hd.elim (hname h1) (hname h2)
    | month hf => cases hf
    | months hf => cases hf
    | nth hf => cases hf
    | last hf => cases hf

/-! ## Examples -/

example : Says .hour "8-18/2".toList [] (.range 8 (some 18) (some 2)) := by
  have : "8-18/2".toList = ['8'] ++ '-' :: (['1', '8'] ++ '/' :: ['2']) := by decide +kernel
  rw [this]
  exact .rangeStep ⟨by simp, by decide, by decide⟩ ⟨by simp, by decide, by decide⟩ (by decide) ⟨by simp, by decide, by decide⟩ (by decide) (.inl rfl)
example : Lists " mon , wed-fri\n".toList ["mon".toList, "wed-fri".toList] := by
  rw [lists_iff]; decide +kernel
example : compileField .dayOfWeek " mon , wed-fri\n".toList = some [.weekdayRange 0 0, .weekdayRange 2 4] := by decide +kernel
example : compileField .day "2nd  FRI,last".toList = some [.weekdayPos 1 4, .lastDay] := by decide +kernel
example : compileField .hour "24".toList = none ∧ compileField .hour "5-3".toList = none ∧ compileField .hour "*/0".toList = none ∧
    compileField .hour "".toList = none := by refine ⟨?_, ?_, ?_, ?_⟩ <;> decide +kernel

end Cron
end Asyncz
