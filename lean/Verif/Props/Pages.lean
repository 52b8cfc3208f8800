import Verif.Spec.Pages
import Verif.Props.Remote
import Verif.Props.Crontab
import Verif.Props.SchedTrigger
/-!
# Pages of the dashboard
-/
namespace Asyncz
namespace Pages
variable {α σ : Type}

/-! ## Strings -/

theorem dropWhile_twice (p : Char → Bool) (l : List Char) : (l.dropWhile p).dropWhile p = l.dropWhile p := by
  induction l with
  | nil => rfl
  | cons c l ih =>
    rw [List.dropWhile_cons]
    split
    · exact ih
    · rename_i h; rw [List.dropWhile_cons, if_neg h]

theorem trim_trim (p : Char → Bool) (s : List Char) : trim p (trim p s) = trim p s := by
  unfold trim Cron.trimRight Cron.trimLeft
  have h : ((((s.dropWhile p).reverse.dropWhile p).reverse).dropWhile p) = ((s.dropWhile p).reverse.dropWhile p).reverse := by
    have hpre : ((s.dropWhile p).reverse.dropWhile p).reverse <+: s.dropWhile p := by
      have := List.dropWhile_suffix p (l := (s.dropWhile p).reverse)
      have := List.reverse_prefix.2 this
      rwa [List.reverse_reverse] at this
    generalize hr : ((s.dropWhile p).reverse.dropWhile p).reverse = r at hpre ⊢
    cases r with
    | nil => rfl
    | cons c r =>
      obtain ⟨q, hq⟩ := hpre
      have hh := List.head?_dropWhile_not p s
      rw [← hq] at hh
      have hc : p c = false := by simpa using hh
      rw [List.dropWhile_cons, if_neg (by simp [hc])]
  rw [h, List.reverse_reverse, dropWhile_twice]

theorem trim_ink {p : Char → Bool} {s : List Char} (h : ∀ c ∈ s, p c = false) : trim p s = s := by
  unfold trim Cron.trimRight Cron.trimLeft
  have key : ∀ l : List Char, (∀ c ∈ l, p c = false) → l.dropWhile p = l := by
    intro l hl
    cases l with
    | nil => rfl
    | cons c l => rw [List.dropWhile_cons, if_neg (by simp [hl c])]
  rw [key s h, key s.reverse (fun c hc => h c (List.mem_reverse.1 hc)), List.reverse_reverse]

theorem trim_cons {p : Char → Bool} {b : Char} (hb : p b = true) (s : List Char) : trim p (b :: s) = trim p s := by
  unfold trim Cron.trimLeft
  rw [List.dropWhile_cons, if_pos hb]

theorem trim_snoc {p : Char → Bool} {b : Char} (hb : p b = true) (s : List Char) : trim p (s ++ [b]) = trim p s := by
  unfold trim Cron.trimLeft Cron.trimRight
  have h : (s ++ [b]).dropWhile p = s.dropWhile p ++ [b] ∨ s.dropWhile p = [] ∧ (s ++ [b]).dropWhile p = [] := by
    induction s with
    | nil => right; simp [hb]
    | cons c s ih =>
      rw [List.cons_append, List.dropWhile_cons, List.dropWhile_cons]
      split
      · exact ih
      · left; rfl
  rcases h with h | ⟨h1, h2⟩
  · rw [h, List.reverse_append]
    show ((b :: (s.dropWhile p).reverse).dropWhile p).reverse = _
    rw [List.dropWhile_cons, if_pos hb]
  · rw [h1, h2]

theorem strip_strip (S : Str) (s : String) : S.strip (S.strip s) = S.strip s := by
  unfold Str.strip
  rw [String.toList_ofList, trim_trim]

theorem strip_ink {S : Str} {s : String} (h : ∀ c ∈ s.toList, S.blank c = false) : S.strip s = s := by
  unfold Str.strip
  rw [trim_ink h, String.ofList_toList]

theorem Str.Lawful.strip_word {S : Str} (hS : S.Lawful) {s : String}
    (h : ∀ c ∈ s.toList, c ∈ "adceinrtvlsxumho_,0123456789-+:T".toList) : S.strip s = s :=
  strip_ink fun c hc => hS.ink c (h c hc)

theorem Str.Lawful.sort {S : Str} (hS : S.Lawful) : S.strip "next_run_time" = "next_run_time" :=
  hS.strip_word (by decide)

theorem Str.Lawful.desc {S : Str} (hS : S.Lawful) : S.lower (S.strip "desc") = "desc" := by
  rw [hS.strip_word (by decide), hS.words.1]

theorem Str.Lawful.asc {S : Str} (hS : S.Lawful) : S.lower (S.strip "asc") = "asc" := by
  rw [hS.strip_word (by decide), hS.words.2.1]

/-- What Python's methods do on ASCII text. -/
def exStr : Str where
  blank := Cron.isBlank
  lower s := String.ofList (Cron.lower s.toList)
  int s := String.toInt? s

theorem upper_cases {c : Char} (h : Cron.isUpper c = true) : ∃ n : Fin 26, c = Char.ofNat (65 + n) := by
  unfold Cron.isUpper at h
  simp only [Bool.and_eq_true, decide_eq_true_eq] at h
  have h1 : 65 ≤ c.toNat := h.1
  have h2 : c.toNat ≤ 90 := h.2
  refine ⟨⟨c.toNat - 65, by omega⟩, ?_⟩
  show c = Char.ofNat (65 + (c.toNat - 65))
  rw [show 65 + (c.toNat - 65) = c.toNat by omega, Char.ofNat_toNat]

theorem lowerC_blank (c : Char) : Cron.isBlank (Cron.lowerC c) = Cron.isBlank c := by
  by_cases h : Cron.isUpper c = true
  · obtain ⟨n, rfl⟩ := upper_cases h
    revert n
    decide +kernel
  · rw [Cron.lowerC, if_neg h]

theorem trim_map {p : Char → Bool} {f : Char → Char} (h : ∀ c, p (f c) = p c) (s : List Char) :
    trim p (s.map f) = (trim p s).map f := by
  have hd : ∀ l : List Char, (l.map f).dropWhile p = (l.dropWhile p).map f := by
    intro l
    induction l with
    | nil => rfl
    | cons c l ih =>
      rw [List.map_cons, List.dropWhile_cons, List.dropWhile_cons, h c]
      split
      · exact ih
      · rfl
  unfold trim Cron.trimRight Cron.trimLeft
  rw [hd, ← List.map_reverse, hd, ← List.map_reverse]

theorem lowerC_twice (c : Char) : Cron.lowerC (Cron.lowerC c) = Cron.lowerC c := by
  by_cases h : Cron.isUpper c = true
  · obtain ⟨n, rfl⟩ := upper_cases h
    revert n
    decide +kernel
  · have e : Cron.lowerC c = c := by rw [Cron.lowerC, if_neg h]
    rw [e, e]

theorem exStr_lawful : exStr.Lawful where
  lower_lower s := by
    show String.ofList (Cron.lower (String.ofList (Cron.lower s.toList)).toList) = String.ofList (Cron.lower s.toList)
    rw [String.toList_ofList]
    unfold Cron.lower
    rw [List.map_map]
    congr 1
    exact List.map_congr_left fun c _ => lowerC_twice c
  strip_lower s := by
    show String.ofList (trim Cron.isBlank (String.ofList (Cron.lower (String.ofList (trim Cron.isBlank s.toList)).toList)).toList) =
      String.ofList (Cron.lower (String.ofList (trim Cron.isBlank s.toList)).toList)
    rw [String.toList_ofList, String.toList_ofList]
    unfold Cron.lower
    rw [trim_map lowerC_blank, trim_trim]
  words := by decide +kernel
  ink := by decide +kernel
  int n := ⟨Nat.toInt?_repr n, by show String.toInt? _ = _; simp⟩

/-! ## Pagination -/

theorem pages_prefix (l : List α) (k : Nat) : ∀ m,
    (List.range m).flatMap (fun i => block l k (i + 1)) = l.take (m * k) := by
  intro m
  induction m with
  | zero => simp
  | succ m ih =>
    rw [List.range_succ, List.flatMap_append, ih, Nat.succ_mul, List.take_add]
    simp [block]

theorem count_enough {n k : Nat} (hk : 0 < k) : n ≤ (n + k - 1) / k * k := by
  have h1 := Nat.div_add_mod (n + k - 1) k
  have h2 := Nat.mod_lt (n + k - 1) hk
  have h3 : k * ((n + k - 1) / k) = (n + k - 1) / k * k := Nat.mul_comm _ _
  omega

theorem count_least {n k c : Nat} (hn : 0 < n) (hk : 0 < k) (hc : c < (n + k - 1) / k) : c * k < n := by
  have h1 : (c + 1) ≤ (n + k - 1) / k := hc
  have h2 := (Nat.le_div_iff_mul_le hk).1 h1
  rw [Nat.succ_mul] at h2
  omega

/-- **C68.** Whatever the list, the page size and the page asked for: the page shown is a page that exists (the one asked
for, or else the last), it shows that block of the list, "next" is offered exactly if rows follow, "previous" exactly
if rows precede, and the numbers shown are those of the first and last row shown. -/
theorem C68_page (l : List α) {n k : Nat} (hn : 0 < n) (hk : 0 < k) :
    let r := paginate l n k
    r.1 = block l k r.2.page ∧ r.1.length ≤ k ∧ (l ≠ [] → r.1 ≠ []) ∧
    (1 ≤ r.2.page ∧ r.2.page ≤ r.2.pageCount ∧ (n ≤ r.2.pageCount → r.2.page = n) ∧
      (r.2.pageCount < n → r.2.page = r.2.pageCount)) ∧
    (r.2.hasNext = true ↔ (l.drop (r.2.page * k)) ≠ []) ∧
    (r.2.hasPrevious = true ↔ 1 < r.2.page) ∧
    (r.2.hasNext = true → r.2.next = r.2.page + 1) ∧ (r.2.hasPrevious = true → r.2.previous = r.2.page - 1) ∧
    r.2.total = l.length ∧ (l ≠ [] → r.1 = (l.take r.2.stop).drop (r.2.start - 1) ∧ 1 ≤ r.2.start ∧
      r.1.length = r.2.stop + 1 - r.2.start) := by
  intro r
  have hr : r = paginate l n k := rfl
  clear_value r
  unfold paginate at hr
  simp only [] at hr
  subst hr
  simp only [block]
  generalize hc : max 1 ((l.length + k - 1) / k) = c
  have hc1 : 1 ≤ c := by omega
  have hcount : l.length ≤ c * k := Nat.le_trans (count_enough hk) (Nat.mul_le_mul_right k (by omega))
  have hless : ∀ m, 0 < l.length → m < c → m * k < l.length := by
    intro m hl hm
    by_cases h0 : m = 0
    · subst h0; omega
    · exact count_least hl hk (by omega)
  generalize hp : min n c = p
  have hp1 : 1 ≤ p := by omega
  have hpc : p ≤ c := by omega
  have hstart : 0 < l.length → (p - 1) * k < l.length := fun hl => hless (p - 1) hl (by omega)
  have hpk : p * k = (p - 1) * k + k := by
    have : p = (p - 1) + 1 := by omega
    rw [this, Nat.succ_mul]; simp
  have hpos : l ≠ [] → 0 < l.length := fun h => List.length_pos_iff.2 h
  refine ⟨?_, ?_, ?_, ⟨hp1, hpc, ?_, ?_⟩, ?_, ?_, ?_, ?_, trivial, ?_⟩
  · congr 1; omega
  · rw [List.length_take]; omega
  · intro hl he
    have := congrArg List.length he
    rw [List.length_take, List.length_drop, List.length_nil] at this
    have := hstart (hpos hl)
    omega
  · intro h; omega
  · intro h; omega
  · rw [decide_eq_true_iff]
    constructor
    · intro h he
      have h1 := List.drop_eq_nil_iff.1 he
      by_cases h0 : 0 < l.length
      · have := hless p h0 h; omega
      · have : l.length = 0 := by omega
        rw [this] at hc
        have h3 : (0 + k - 1) / k = 0 := Nat.div_eq_of_lt (by omega)
        rw [h3] at hc
        omega
    · intro h
      have : p * k < l.length := by
        rcases Nat.lt_or_ge (p * k) l.length with h1 | h1
        · exact h1
        · exact absurd (List.drop_eq_nil_iff.2 h1) h
      rcases Nat.lt_or_ge p c with h1 | h1
      · exact h1
      · have := Nat.mul_le_mul_right k h1
        omega
  · rw [decide_eq_true_iff]
  · intro h
    rw [decide_eq_true_iff] at h
    omega
  · intro h
    rw [decide_eq_true_iff] at h
    omega
  · intro hl
    have h0 := hpos hl
    have h1 := hstart h0
    rw [if_neg (by omega)]
    refine ⟨?_, by omega, ?_⟩
    · rw [Nat.add_sub_cancel, List.drop_take]
      rcases Nat.lt_or_ge ((p - 1) * k + k) l.length with h2 | h2
      · congr 1; omega
      · rw [List.take_of_length_le (by rw [List.length_drop]; omega),
          List.take_of_length_le (by rw [List.length_drop]; omega)]
    · rw [List.length_take, List.length_drop]
      omega

/-- **C68.** The pages one after the other are the whole list: no task is missing and none is shown twice. -/
theorem C68_partition (l : List α) {k : Nat} (hk : 0 < k) :
    (List.range (paginate l 1 k).2.pageCount).flatMap (fun i => (paginate l (i + 1) k).1) = l := by
  have hc : ∀ n, (paginate l n k).2.pageCount = max 1 ((l.length + k - 1) / k) := fun _ => rfl
  have h1 : ∀ i ∈ List.range (paginate l 1 k).2.pageCount, (paginate l (i + 1) k).1 = block l k (i + 1) := by
    intro i hi
    have hi' : i + 1 ≤ (paginate l (i + 1) k).2.pageCount := by
      rw [hc, ← hc 1]; exact List.mem_range.1 hi
    have h := C68_page l (n := i + 1) (Nat.succ_pos i) hk
    rw [h.1, h.2.2.2.1.2.2.1 hi']
  have h2 : (List.range (paginate l 1 k).2.pageCount).flatMap (fun i => (paginate l (i + 1) k).1) =
      (List.range (paginate l 1 k).2.pageCount).flatMap (fun i => block l k (i + 1)) := by
    rw [List.flatMap_def, List.flatMap_def, List.map_congr_left h1]
  rw [h2, pages_prefix, List.take_of_length_le]
  rw [hc]
  exact Nat.le_trans (count_enough hk) (Nat.mul_le_mul_right k (by omega))

/-! ## Links -/

theorem param_append (k : String) (a b : List (String × String)) :
    Remote.param k (a ++ b) = (Remote.param k a).or (Remote.param k b) := by
  unfold Remote.param
  rw [List.find?_append]
  cases a.find? fun p => p.1 == k <;> rfl

theorem param_entry (k k' v d : String) :
    Remote.param k (entry k' v d) = if k' = k ∧ v ≠ "" ∧ v ≠ d then some v else none := by
  unfold entry
  by_cases h : v = "" ∨ v = d
  · rw [if_pos h, if_neg (by rintro ⟨_, h1, h2⟩; rcases h with h | h <;> contradiction)]
    rfl
  · rw [if_neg h]
    have h' : v ≠ "" ∧ v ≠ d := ⟨fun e => h (.inl e), fun e => h (.inr e)⟩
    unfold Remote.param
    by_cases hk : k' = k
    · simp [hk, h']
    · simp [hk]

theorem param_one (k k' v : String) : Remote.param k [(k', v)] = if k' = k then some v else none := by
  unfold Remote.param
  by_cases hk : k' = k <;> simp [hk]

theorem param_nil (k : String) : Remote.param k [] = none := rfl

/-- the forms that requests produce -/
structure Form.Normal (S : Str) (f : Form) : Prop where
  q : S.strip f.filters.q = f.filters.q
  state : S.lower (S.strip f.filters.state) = f.filters.state
  executor : S.strip f.filters.executor = f.filters.executor
  trigger : S.strip f.filters.trigger = f.filters.trigger
  sort : S.strip f.filters.sort = f.filters.sort ∧ f.filters.sort ≠ ""
  page : 1 ≤ f.page
  perPage : 1 ≤ f.perPage ∧ f.perPage ≤ 200

theorem boundedInt_range (S : Str) (v : Option String) {default lo hi : Nat} (h1 : lo ≤ default) (h2 : default ≤ hi) :
    lo ≤ boundedInt S v default lo hi ∧ boundedInt S v default lo hi ≤ hi := by
  unfold boundedInt
  split <;> omega

theorem boundedInt_repr {S : Str} (hS : S.Lawful) {n : Nat} {default lo hi : Nat} (h1 : lo ≤ n) (h2 : n ≤ hi) :
    boundedInt S (some n.repr) default lo hi = n := by
  rw [boundedInt, show (some n.repr).bind S.int = some (n : Int) from (hS.int n).1]
  simp only []
  omega

theorem orText_ne {a b : String} (h : a ≠ "") : orText a b = a := if_neg h

theorem parse_normal {S : Str} (hS : S.Lawful) (params : List (String × String)) :
    (parseFilters S params).Normal S ∧ (parseFilters S params).page ≤ 10000 := by
  have hp := boundedInt_range S (Remote.param "page" params) (default := 1) (lo := 1) (hi := 10000) (by omega) (by omega)
  have hpp := boundedInt_range S (Remote.param "per_page" params) (default := 50) (lo := 1) (hi := 200) (by omega) (by omega)
  refine ⟨⟨strip_strip S _, ?_, strip_strip S _, strip_strip S _, ?_, hp.1, hpp⟩, hp.2⟩
  · simp only [parseFilters]
    rw [hS.strip_lower, hS.lower_lower]
  · simp only [parseFilters]
    generalize (orText ((Remote.param "sort" params).getD "") "next_run_time") = x
    unfold orText
    split
    · exact ⟨hS.sort, by decide⟩
    · rename_i h; exact ⟨strip_strip S _, h⟩

theorem orNone_some (v : String) : (if v ≠ "" ∧ v ≠ "" then some v else none).getD "" = v := by
  by_cases h : v = "" <;> simp [h]

theorem boundedInt_min {S : Str} (hS : S.Lawful) {n : Nat} {default lo hi : Nat} (h1 : lo ≤ n) (h2 : lo ≤ hi) :
    boundedInt S (some n.repr) default lo hi = min n hi := by
  rw [boundedInt, show (some n.repr).bind S.int = some (n : Int) from (hS.int n).1]
  simp only []
  omega

/-- the query values of a form, read back -/
theorem parse_queryValues' {S : Str} (hS : S.Lawful) {f : Form} (hf : f.Normal S) :
    parseFilters S (queryValues f) = { f with page := min f.page 10000 } := by
  have e : ∀ k, Remote.param k (queryValues f) =
      (Remote.param k (entry "q" f.filters.q "")).or ((Remote.param k (entry "state" f.filters.state "")).or
      ((Remote.param k (entry "executor" f.filters.executor "")).or
      ((Remote.param k (entry "trigger" f.filters.trigger "")).or
      ((Remote.param k (entry "sort" f.filters.sort "next_run_time")).or
      ((Remote.param k (if f.filters.desc then [("direction", "desc")] else [])).or
      ((Remote.param k (if f.page = 0 ∨ f.page = 1 then [] else [("page", f.page.repr)])).or
      (Remote.param k (if f.perPage = 0 ∨ f.perPage = 50 then [] else [("per_page", f.perPage.repr)])))))))) := by
    intro k
    unfold queryValues
    simp only [param_append, Option.or_assoc]
  have hite : ∀ (k : String) (c : Prop) [Decidable c] (a b : List (String × String)),
      Remote.param k (if c then a else b) = if c then Remote.param k a else Remote.param k b := by
    intro k c _ a b; split <;> rfl
  have hq : Remote.param "q" (queryValues f) = if f.filters.q ≠ "" ∧ f.filters.q ≠ "" then some f.filters.q else none := by
    rw [e]; simp [param_entry, hite, param_one, param_nil]
  have hst : Remote.param "state" (queryValues f) =
      if f.filters.state ≠ "" ∧ f.filters.state ≠ "" then some f.filters.state else none := by
    rw [e]; simp [param_entry, hite, param_one, param_nil]
  have hex : Remote.param "executor" (queryValues f) =
      if f.filters.executor ≠ "" ∧ f.filters.executor ≠ "" then some f.filters.executor else none := by
    rw [e]; simp [param_entry, hite, param_one, param_nil]
  have htr : Remote.param "trigger" (queryValues f) =
      if f.filters.trigger ≠ "" ∧ f.filters.trigger ≠ "" then some f.filters.trigger else none := by
    rw [e]; simp [param_entry, hite, param_one, param_nil]
  have hso : Remote.param "sort" (queryValues f) =
      if f.filters.sort ≠ "next_run_time" then some f.filters.sort else none := by
    rw [e]; simp [param_entry, hite, param_one, param_nil, hf.sort.2]
  have hdi : Remote.param "direction" (queryValues f) = if f.filters.desc then some "desc" else none := by
    rw [e]; simp [param_entry, hite, param_one, param_nil]
  have hpa : Remote.param "page" (queryValues f) = if f.page = 0 ∨ f.page = 1 then none else some f.page.repr := by
    rw [e]; simp [param_entry, hite, param_one, param_nil]
  have hpp : Remote.param "per_page" (queryValues f) = if f.perPage = 0 ∨ f.perPage = 50 then none else some f.perPage.repr := by
    rw [e]; simp [param_entry, hite, param_one, param_nil]
  unfold parseFilters
  rw [hq, hst, hex, htr, hso, hdi, hpa, hpp]
  simp only [orNone_some]
  rw [hf.q, hf.state, hf.executor, hf.trigger]
  have h1 : orText (S.strip (orText ((if f.filters.sort ≠ "next_run_time" then some f.filters.sort else none).getD "")
      "next_run_time")) "next_run_time" = f.filters.sort := by
    by_cases h : f.filters.sort = "next_run_time"
    · simp [h, orText, hS.sort]
    · rw [if_pos h, Option.getD_some, orText_ne hf.sort.2, hf.sort.1, orText_ne hf.sort.2]
  have h2 : (orText (S.lower (S.strip (orText ((if f.filters.desc then some "desc" else none : Option String).getD "") "asc")))
      "asc" == "desc") = f.filters.desc := by
    cases f.filters.desc with
    | true => simp [orText, hS.desc]
    | false => simp [orText, hS.asc]
  have h3 : boundedInt S (if f.page = 0 ∨ f.page = 1 then none else some f.page.repr) 1 1 10000 = min f.page 10000 := by
    have := hf.page
    by_cases h : f.page = 0 ∨ f.page = 1
    · rw [if_pos h]
      show 1 = min f.page 10000
      omega
    · rw [if_neg h, boundedInt_min hS hf.page (by omega)]
  have h4 : boundedInt S (if f.perPage = 0 ∨ f.perPage = 50 then none else some f.perPage.repr) 50 1 200 = f.perPage := by
    have := hf.perPage
    by_cases h : f.perPage = 0 ∨ f.perPage = 50
    · rw [if_pos h]
      show 50 = f.perPage
      omega
    · rw [if_neg h, boundedInt_repr hS hf.perPage.1 hf.perPage.2]
  rw [h1, h2, h3, h4]

theorem parse_queryValues {S : Str} (hS : S.Lawful) {f : Form} (hf : f.Normal S) (hp : f.page ≤ 10000) :
    parseFilters S (queryValues f) = f := by
  rw [parse_queryValues' hS hf, Nat.min_eq_left hp]

theorem parseQuery_suffix (f : Form) : Remote.parseQuery ((suffix f).drop 1) = queryValues f := by
  unfold suffix
  split
  · rename_i h; rw [h]; rfl
  · rw [List.drop_one, List.tail_cons, Remote.parseQuery_urlencode]

/-- A link keeps filters, sorting, page and page size: the request it makes is parsed back to the form it was made of. -/
theorem parse_suffix {S : Str} (hS : S.Lawful) {f : Form} (hf : f.Normal S) (hp : f.page ≤ 10000) :
    parseFilters S (Remote.parseQuery ((suffix f).drop 1)) = f := by
  rw [parseQuery_suffix, parse_queryValues hS hf hp]

theorem view_normal {S : Str} (hS : S.Lawful) (infos : Filters → List α) (sfx : List Char) :
    (request S infos sfx).form.Normal S ∧ (request S infos sfx).form.page ≤ 10000 := by
  obtain ⟨hn, hp⟩ := parse_normal hS (Remote.parseQuery (sfx.drop 1))
  unfold request view
  simp only []
  generalize parseFilters S (Remote.parseQuery (sfx.drop 1)) = f at hn hp
  have h := C68_page (infos f.filters) hn.page (Nat.lt_of_lt_of_le Nat.zero_lt_one hn.perPage.1)
  refine ⟨⟨hn.q, hn.state, hn.executor, hn.trigger, hn.sort, h.2.2.2.1.1, hn.perPage⟩, ?_⟩
  have : (paginate (infos f.filters) f.page f.perPage).2.page ≤ f.page := by
    simp only [paginate]; omega
  show (paginate (infos f.filters) f.page f.perPage).2.page ≤ 10000
  omega

theorem request_suffix {S : Str} (hS : S.Lawful) (infos : Filters → List α) {f : Form} (hf : f.Normal S)
    (hp : f.page ≤ 10000) : request S infos (suffix f) = view infos f := by
  unfold request
  rw [parse_suffix hS hf hp]

/-- **C68.** Whatever the request: the links of the page it shows keep filters, sorting and page size.  Reloading shows the
same rows; "next" (when offered) shows the block of rows that follows, "previous" the block that precedes. -/
theorem C68_links {S : Str} (hS : S.Lawful) (infos : Filters → List α) (sfx : List Char) :
    let v := request S infos sfx
    (request S infos v.suffix).rows = v.rows ∧ (request S infos v.suffix).form = v.form ∧
    (v.pagination.hasNext = true → v.pagination.page < 10000 →
      (request S infos v.next).form = { v.form with page := v.form.page + 1 } ∧
      (request S infos v.next).rows = block (infos v.form.filters) v.form.perPage (v.form.page + 1)) ∧
    (v.pagination.hasPrevious = true →
      (request S infos v.previous).form = { v.form with page := v.form.page - 1 } ∧
      (request S infos v.previous).rows = block (infos v.form.filters) v.form.perPage (v.form.page - 1)) := by
  intro v
  have hv : v = request S infos sfx := rfl
  obtain ⟨hn, hp⟩ := view_normal hS infos sfx
  rw [← hv] at hn hp
  obtain ⟨f, hf⟩ : ∃ f, v = view infos f := ⟨_, hv⟩
  have hn' := (parse_normal hS (Remote.parseQuery (sfx.drop 1))).1
  have hff : v = view infos (parseFilters S (Remote.parseQuery (sfx.drop 1))) := hv
  clear hf f
  clear_value v
  generalize parseFilters S (Remote.parseQuery (sfx.drop 1)) = f at hff hn'
  subst hff
  clear hv
  have hk : 0 < f.perPage := hn'.perPage.1
  have hpg := C68_page (infos f.filters) hn'.page hk
  simp only [] at hpg
  have hform : (view infos f).form = { f with page := (paginate (infos f.filters) f.page f.perPage).2.page } := rfl
  have hpag : (view infos f).pagination = (paginate (infos f.filters) f.page f.perPage).2 := rfl
  have hrows : (view infos f).rows = (paginate (infos f.filters) f.page f.perPage).1 := rfl
  have hs : (view infos f).suffix = suffix (view infos f).form := rfl
  have hnx : (view infos f).next = suffix { (view infos f).form with page := (view infos f).pagination.next } := rfl
  have hpv : (view infos f).previous = suffix { (view infos f).form with page := (view infos f).pagination.previous } := rfl
  -- a page of the same list
  have key : ∀ m, 1 ≤ m → m ≤ (paginate (infos f.filters) f.page f.perPage).2.pageCount → m ≤ 10000 →
      (request S infos (suffix { (view infos f).form with page := m })).form = { (view infos f).form with page := m } ∧
      (request S infos (suffix { (view infos f).form with page := m })).rows = block (infos f.filters) f.perPage m := by
    intro m h1 h2 h3
    have hnm : ({ (view infos f).form with page := m } : Form).Normal S :=
      ⟨hn.q, hn.state, hn.executor, hn.trigger, hn.sort, h1, hn.perPage⟩
    rw [request_suffix hS infos hnm h3]
    have h := C68_page (infos f.filters) (n := m) h1 hk
    simp only [] at h
    have hm : (paginate (infos f.filters) m f.perPage).2.page = m := h.2.2.2.1.2.2.1 h2
    constructor
    · show ({ filters := f.filters, page := (paginate (infos f.filters) m f.perPage).2.page, perPage := f.perPage } : Form) =
        { filters := f.filters, page := m, perPage := f.perPage }
      rw [hm]
    · show (paginate (infos f.filters) m f.perPage).1 = _
      rw [h.1, hm]
  have hcur : (view infos f).form.page = (paginate (infos f.filters) f.page f.perPage).2.page := rfl
  refine ⟨?_, ?_, ?_, ?_⟩
  · rw [hs]
    have := (key (view infos f).form.page hn.page hpg.2.2.2.1.2.1 hp).2
    rw [hrows, hpg.1]
    exact this
  · rw [hs]
    exact (key (view infos f).form.page hn.page hpg.2.2.2.1.2.1 hp).1
  · intro h hlt
    rw [hpag] at h hlt
    have h1 := hpg.2.2.2.2.2.2.1 h
    rw [hnx, hpag, h1]
    have h2 : (paginate (infos f.filters) f.page f.perPage).2.page <
        (paginate (infos f.filters) f.page f.perPage).2.pageCount := by
      simpa [paginate] using h
    exact key _ (by omega) h2 (by omega)
  · intro h
    rw [hpag] at h
    have h1 := hpg.2.2.2.2.2.2.2.1 h
    have h2 := hpg.2.2.2.2.2.1.1 h
    rw [hpv, hpag, h1]
    have := hpg.2.2.2.1.2.1
    exact key _ (by omega) (by omega) (by rw [hcur] at hp; omega)

/-- following "next" `n` times -/
def follow (S : Str) (infos : Filters → List α) (sfx : List Char) : Nat → View α
  | 0 => request S infos sfx
  | n + 1 => request S infos (follow S infos sfx n).next

theorem follow_page {S : Str} (hS : S.Lawful) (infos : Filters → List α) (sfx : List Char)
    (h1 : (request S infos sfx).form.page = 1) : ∀ n, n < (request S infos sfx).pagination.pageCount → n < 10000 →
      (follow S infos sfx n).form = { (request S infos sfx).form with page := n + 1 } ∧
      (follow S infos sfx n).rows = block (infos (request S infos sfx).form.filters) (request S infos sfx).form.perPage (n + 1) := by
  intro n
  have hcount : ∀ g : Form, (view infos g).pagination.pageCount =
      max 1 (((infos g.filters).length + g.perPage - 1) / g.perPage) := fun _ => rfl
  have hview : ∀ s', ∃ g, request S infos s' = view infos g ∧ g.Normal S ∧ g.filters = (request S infos s').form.filters ∧
      g.perPage = (request S infos s').form.perPage :=
    fun s' => ⟨_, rfl, (parse_normal hS _).1, rfl, rfl⟩
  have hpgform : ∀ s', (request S infos s').pagination.page = (request S infos s').form.page := fun _ => rfl
  have hnext : ∀ s', (request S infos s').pagination.hasNext =
      decide ((request S infos s').pagination.page < (request S infos s').pagination.pageCount) := fun _ => rfl
  induction n with
  | zero =>
    intro _ _
    refine ⟨?_, ?_⟩
    · show (request S infos sfx).form = _
      rw [Nat.zero_add, ← h1]
    · show (request S infos sfx).rows = _
      obtain ⟨g, hg, hgn, hgf, hgp⟩ := hview sfx
      have h := C68_page (infos g.filters) hgn.page (Nat.lt_of_lt_of_le Nat.zero_lt_one hgn.perPage.1)
      have hr : (view infos g).rows = block (infos g.filters) g.perPage (view infos g).form.page := h.1
      rw [hgf, hgp, ← hg, h1] at hr
      rw [hr]
  | succ n ih =>
    intro hn hlt
    obtain ⟨i1, _⟩ := ih (by omega) (by omega)
    obtain ⟨s', hs'⟩ : ∃ s', follow S infos sfx n = request S infos s' := by
      cases n with
      | zero => exact ⟨sfx, rfl⟩
      | succ m => exact ⟨_, rfl⟩
    have hlink := C68_links hS infos s'
    simp only [] at hlink
    rw [← hs'] at hlink
    have hpage : (follow S infos sfx n).pagination.page = n + 1 := by
      rw [hs', hpgform, ← hs', i1]
    have hcnt : (follow S infos sfx n).pagination.pageCount = (request S infos sfx).pagination.pageCount := by
      obtain ⟨g, hg, _, hgf, hgp⟩ := hview s'
      obtain ⟨g', hg', _, hgf', hgp'⟩ := hview sfx
      rw [hs', hg, hcount, hgf, hgp, ← hs', i1, hg', hcount, hgf', hgp', ← hg']
    have hhas : (follow S infos sfx n).pagination.hasNext = true := by
      rw [hs', hnext, ← hs', hpage, hcnt]
      exact decide_eq_true hn
    obtain ⟨k1, k2⟩ := hlink.2.2.1 hhas (by omega)
    refine ⟨?_, ?_⟩
    · show (request S infos (follow S infos sfx n).next).form = _
      rw [k1, i1]
    · show (request S infos (follow S infos sfx n).next).rows = _
      rw [k2, i1]

/-- **C68.** Going through the pages with "next" from the first one shows every task of the filtered list exactly once, in
order (up to 10 000 pages). -/
theorem C68_browse {S : Str} (hS : S.Lawful) (infos : Filters → List α) (sfx : List Char)
    (h1 : (request S infos sfx).form.page = 1) (hc : (request S infos sfx).pagination.pageCount ≤ 10000) :
    (List.range (request S infos sfx).pagination.pageCount).flatMap (fun n => (follow S infos sfx n).rows) =
      infos (request S infos sfx).form.filters := by
  have hrows : ∀ n ∈ List.range (request S infos sfx).pagination.pageCount, (follow S infos sfx n).rows =
      block (infos (request S infos sfx).form.filters) (request S infos sfx).form.perPage (n + 1) := by
    intro n hn
    have := List.mem_range.1 hn
    exact (follow_page hS infos sfx h1 n this (by omega)).2
  rw [List.flatMap_def, List.map_congr_left hrows, ← List.flatMap_def, pages_prefix, List.take_of_length_le]
  have hk := (view_normal hS infos sfx).1.perPage.1
  have : (request S infos sfx).pagination.pageCount = max 1 (((infos (request S infos sfx).form.filters).length +
      (request S infos sfx).form.perPage - 1) / (request S infos sfx).form.perPage) := rfl
  rw [this]
  exact Nat.le_trans (count_enough hk) (Nat.mul_le_mul_right _ (by omega))

theorem request_page {S : Str} (hS : S.Lawful) (infos : Filters → List α) {f : Form} (hf : f.Normal S) :
    (request S infos (suffix f)).form.page = min (min f.page 10000) (view infos f).pagination.pageCount := by
  unfold request
  rw [parseQuery_suffix, parse_queryValues' hS hf]
  rfl

theorem view_facts (infos : Filters → List α) (f : Form) :
    let v := view infos f
    v.pagination.hasNext = decide (v.form.page < v.pagination.pageCount) ∧
    v.next = suffix { v.form with page := v.pagination.next } ∧
    v.pagination.next = min v.pagination.pageCount (v.form.page + 1) ∧
    ∀ m, (view infos { v.form with page := m }).pagination.pageCount = v.pagination.pageCount :=
  ⟨rfl, rfl, rfl, fun _ => rfl⟩

/-- Beyond 10 000 pages "next" is offered but shows the same page again. -/
theorem C68_page_limit {S : Str} (hS : S.Lawful) (infos : Filters → List α) (sfx : List Char)
    (h : (request S infos sfx).form.page = 10000) (hn : (request S infos sfx).pagination.hasNext = true) :
    (request S infos (request S infos sfx).next).form.page = 10000 := by
  obtain ⟨hnorm, _⟩ := view_normal hS infos sfx
  obtain ⟨h1, h2, h3, h4⟩ := view_facts infos (parseFilters S (Remote.parseQuery (sfx.drop 1)))
  have hv : request S infos sfx = view infos (parseFilters S (Remote.parseQuery (sfx.drop 1))) := by rw [request]
  rw [hv] at h hn hnorm ⊢
  generalize view infos (parseFilters S (Remote.parseQuery (sfx.drop 1))) = v at *
  rw [h1, h] at hn
  have hlt := of_decide_eq_true hn
  rw [h] at h3
  have hnm : ({ v.form with page := v.pagination.next } : Form).Normal S :=
    ⟨hnorm.q, hnorm.state, hnorm.executor, hnorm.trigger, hnorm.sort, (by show 1 ≤ v.pagination.next; omega), hnorm.perPage⟩
  rw [h2, request_page hS infos hnm, h4]
  show min (min v.pagination.next 10000) v.pagination.pageCount = 10000
  omega

/-! ## The ids of a bulk action -/

theorem idxOf_ne {a x : String} (h : a ≠ x) (l : List String) : (a :: l).idxOf x = l.idxOf x + 1 := by
  rw [List.idxOf_cons, (by simpa using h : (a == x) = false)]
  rfl

theorem dedup_spec : ∀ (l seen : List String),
    (dedup seen l).Nodup ∧ (∀ x, x ∈ dedup seen l ↔ x ∈ l ∧ x ∉ seen) ∧
    ∀ x y, x ∈ dedup seen l → y ∈ dedup seen l →
      ((dedup seen l).idxOf x < (dedup seen l).idxOf y ↔ l.idxOf x < l.idxOf y) := by
  intro l
  induction l with
  | nil => intro seen; simp [dedup]
  | cons a l ih =>
    intro seen
    unfold dedup
    by_cases h : a ∈ seen
    · rw [if_pos h]
      obtain ⟨h1, h2, h3⟩ := ih seen
      refine ⟨h1, ?_, ?_⟩
      · intro x
        rw [h2 x, List.mem_cons]
        constructor
        · rintro ⟨hx, hs⟩; exact ⟨.inr hx, hs⟩
        · rintro ⟨rfl | hx, hs⟩
          · exact absurd h hs
          · exact ⟨hx, hs⟩
      · intro x y hx hy
        have hxa : a ≠ x := by rintro rfl; exact ((h2 _).1 hx).2 h
        have hya : a ≠ y := by rintro rfl; exact ((h2 _).1 hy).2 h
        rw [h3 x y hx hy, idxOf_ne hxa, idxOf_ne hya]
        omega
    · rw [if_neg h]
      obtain ⟨h1, h2, h3⟩ := ih (a :: seen)
      have ha : a ∉ dedup (a :: seen) l := fun hm => ((h2 a).1 hm).2 (List.mem_cons_self ..)
      refine ⟨List.nodup_cons.2 ⟨ha, h1⟩, ?_, ?_⟩
      · intro x
        rw [List.mem_cons, h2 x, List.mem_cons, List.mem_cons]
        by_cases hx : x = a
        · subst hx; simp [h]
        · simp [hx]
      · intro x y hx hy
        by_cases hxa : a = x
        · subst hxa
          by_cases hya : a = y
          · subst hya; simp
          · rw [List.idxOf_cons_self, idxOf_ne hya, List.idxOf_cons_self, idxOf_ne hya]
            omega
        · by_cases hya : a = y
          · subst hya
            rw [List.idxOf_cons_self, List.idxOf_cons_self]
            omega
          · have hx' := (List.mem_cons.1 hx).resolve_left (Ne.symm hxa)
            have hy' := (List.mem_cons.1 hy).resolve_left (Ne.symm hya)
            rw [idxOf_ne hxa, idxOf_ne hya, idxOf_ne hxa, idxOf_ne hya]
            have := h3 x y hx' hy'
            omega

theorem dedup_first (l : List String) : FirstAppearances l (dedup [] l) := by
  obtain ⟨h1, h2, h3⟩ := dedup_spec l []
  exact ⟨h1, fun x => by rw [h2 x]; simp, h3⟩

/-- text of ids joined with commas -/
theorem commas_join : ∀ {ids : List String}, ids ≠ [] → (∀ x ∈ ids, ',' ∉ x.toList) →
    commas (String.intercalate "," ids) = ids := by
  intro ids hne h
  unfold commas
  have key : ∀ (l : List String), l ≠ [] → (∀ x ∈ l, ',' ∉ x.toList) →
      Remote.split ',' (String.intercalate "," l).toList = l.map String.toList := by
    intro l
    induction l with
    | nil => intro hn; exact absurd rfl hn
    | cons a l ih =>
      intro _ hl
      cases l with
      | nil => simp [Remote.split_single (hl a (by simp))]
      | cons b l =>
        rw [String.intercalate_cons_cons, String.toList_append, String.toList_append, List.append_assoc]
        show Remote.split ',' (a.toList ++ ',' :: _) = _
        rw [Remote.split_append (hl a (by simp))]
        show a.toList :: Remote.split ',' (String.intercalate "," (b :: l)).toList = _
        rw [ih (by simp) (fun x hx => hl x (by simp [hx]))]
        rfl
  rw [key ids hne h, List.map_map]
  conv => rhs; rw [← List.map_id ids]
  exact List.map_congr_left fun x _ => by simp

theorem split_cons {c : Char} (hc : c ≠ ',') (t : List Char) : ∃ h r, Remote.split ',' t = h :: r ∧
    Remote.split ',' (c :: t) = (c :: h) :: r := by
  have hne : ∃ h r, Remote.split ',' t = h :: r := by
    cases t with
    | nil => exact ⟨[], [], rfl⟩
    | cons d t => rw [Remote.split]; split; exact ⟨_, _, rfl⟩; split <;> exact ⟨_, _, rfl⟩
  obtain ⟨h, r, e⟩ := hne
  refine ⟨h, r, e, ?_⟩
  rw [Remote.split, if_neg hc, e]

theorem mem_cut {a : Char} : ∀ {l : List Char}, a ∈ l → ∃ x y, l = x ++ a :: y ∧ a ∉ x := by
  intro l
  induction l with
  | nil => intro h; cases h
  | cons b l ih =>
    intro h
    by_cases hb : b = a
    · subst hb; exact ⟨[], l, rfl, by simp⟩
    · obtain ⟨x, y, e, hn⟩ := ih ((List.mem_cons.1 h).resolve_left (Ne.symm hb))
      exact ⟨b :: x, y, by rw [e]; rfl, by simp [hn, Ne.symm hb]⟩

theorem mem_takeWhile {p : Char → Bool} {c : Char} : ∀ {l : List Char}, c ∈ l.takeWhile p → p c = true := by
  intro l h
  exact List.all_eq_true.1 (List.all_takeWhile (p := p) (l := l)) c h

theorem split_trim {p : Char → Bool} (hp : p ',' = false) (s : List Char) :
    (Remote.split ',' (trim p s)).map (trim p) = (Remote.split ',' s).map (trim p) := by
  have h1 : ∀ s, (Remote.split ',' (s.dropWhile p)).map (trim p) = (Remote.split ',' s).map (trim p) := by
    intro s
    induction s with
    | nil => rfl
    | cons c s ih =>
      rw [List.dropWhile_cons]
      split
      · rename_i hc
        have hne : c ≠ ',' := by rintro rfl; rw [hp] at hc; cases hc
        obtain ⟨h, r, e1, e2⟩ := split_cons hne s
        rw [ih, e1, e2, List.map_cons, List.map_cons, trim_cons hc]
      · rfl
  have h2 : ∀ (s : List Char) (b : Char), p b = true →
      (Remote.split ',' (s ++ [b])).map (trim p) = (Remote.split ',' s).map (trim p) := by
    intro s b hb
    have hne : b ≠ ',' := by rintro rfl; rw [hp] at hb; cases hb
    induction s with
    | nil =>
      rw [List.nil_append, Remote.split_single (by simpa using Ne.symm hne)]
      show [trim p [b]] = [trim p []]
      rw [trim_cons hb]
    | cons c s ih =>
      by_cases hc : c = ','
      · subst hc
        rw [List.cons_append]
        have e : ∀ t, Remote.split ',' (',' :: t) = [] :: Remote.split ',' t := fun t => by rw [Remote.split, if_pos rfl]
        rw [e, e, List.map_cons, List.map_cons, ih]
      · obtain ⟨h, r, e1, e2⟩ := split_cons hc (s ++ [b])
        obtain ⟨h', r', e1', e2'⟩ := split_cons hc s
        rw [e1, e1'] at ih
        simp only [List.map_cons, List.cons.injEq] at ih
        rw [List.cons_append, e2, e2', List.map_cons, List.map_cons, ih.2]
        congr 1
        -- the first part either is followed by a comma or ends with the blank
        have h3 : h = h' ∨ h = h' ++ [b] := by
          by_cases hs : ',' ∈ s
          · left
            obtain ⟨a, t, hat, hna⟩ := mem_cut hs
            subst hat
            rw [Remote.split_append hna] at e1'
            rw [List.append_assoc, List.cons_append, Remote.split_append hna] at e1
            injection e1 with a1 a2
            injection e1' with b1 b2
            rw [← a1, ← b1]
          · right
            rw [Remote.split_single hs] at e1'
            rw [Remote.split_single (by simp [hs, Ne.symm hne])] at e1
            injection e1 with a1 a2
            injection e1' with b1 b2
            rw [← a1, ← b1]
        rcases h3 with rfl | rfl
        · rfl
        · exact trim_snoc hb (c :: h')
  have h4 : ∀ (s t : List Char), (∀ c ∈ t, p c = true) →
      (Remote.split ',' (s ++ t)).map (trim p) = (Remote.split ',' s).map (trim p) := by
    intro s t
    induction t generalizing s with
    | nil => intro _; rw [List.append_nil]
    | cons c t ih =>
      intro ht
      rw [show s ++ c :: t = (s ++ [c]) ++ t by simp, ih _ (fun d hd => ht d (by simp [hd])), h2 s c (ht c (by simp))]
  obtain ⟨t, ht, e⟩ : ∃ t, (∀ c ∈ t, p c = true) ∧ Cron.trimRight p (s.dropWhile p) ++ t = s.dropWhile p := by
    refine ⟨((s.dropWhile p).reverse.takeWhile p).reverse, ?_, ?_⟩
    · intro c hc
      exact mem_takeWhile (List.mem_reverse.1 hc)
    · unfold Cron.trimRight
      rw [← List.reverse_append, List.takeWhile_append_dropWhile, List.reverse_reverse]
  rw [← h1 s, ← e, h4 _ t ht]
  rfl

theorem commaIds_strip {S : Str} (hS : S.Lawful) (s : String) : commaIds S (S.strip s) = commaIds S s := by
  suffices H : (commas (S.strip s)).map S.strip = (commas s).map S.strip by unfold commaIds; rw [H]
  unfold commas
  rw [List.map_map, List.map_map]
  have hc : S.blank ',' = false := hS.ink ',' (by decide)
  have h := congrArg (List.map String.ofList) (split_trim hc s.toList)
  rw [List.map_map, List.map_map] at h
  have hf : (S.strip ∘ String.ofList) = (String.ofList ∘ trim S.blank) := by
    funext t
    simp [Str.strip]
  rw [hf, show (S.strip s).toList = trim S.blank s.toList by simp [Str.strip], h]

/-- **C69.** The ids given as text, separated by commas: the distinct non-blank names, without the blanks around them, in
the order of their first appearance. -/
theorem C69_text {S : Str} (hS : S.Lawful) (loads : Loads) {s : String} (h : (S.strip s).toList.head? ≠ some '[') :
    FirstAppearances (((commas s).map S.strip).filter (· ≠ "")) (parseIds S loads (.text s)) := by
  have e : collected S loads (.text s) = commaIds S s := by
    unfold collected
    simp only []
    rw [if_neg h]
    by_cases h0 : S.strip s = ""
    · rw [if_neg (by simp [h0]), ← commaIds_strip hS, h0]
      have : S.strip "" = "" := by simp [Str.strip, trim, Cron.trimLeft, Cron.trimRight]
      simp [commaIds, commas, Remote.split, this]
    · rw [if_pos (by simpa using h0), commaIds_strip hS]
  unfold parseIds
  rw [e]
  exact dedup_first _

/-- **C69.** A JSON list: exactly the distinct strings in it, whatever characters they contain. -/
theorem C69_json {S : Str} (loads : Loads) {s : String} {l : List (Option String)} (h : (S.strip s).toList.head? = some '[')
    (hl : loads (S.strip s) = some l) : FirstAppearances (l.filterMap id) (parseIds S loads (.text s)) := by
  have e : collected S loads (.text s) = l.filterMap id := by
    unfold collected
    simp only []
    rw [if_pos h, hl]
  unfold parseIds
  rw [e]
  exact dedup_first _

/-- **C69.** One field per id, as the page itself sends them: exactly the distinct ids, in order. -/
theorem C69_fields {S : Str} (loads : Loads) {ids : List String} (h : ∀ x ∈ ids, PlainId S x ∧ x.toList.head? ≠ some '[') :
    FirstAppearances ids (parseIds S loads (.items (ids.map .text))) := by
  have e : collected S loads (.items (ids.map .text)) = ids := by
    unfold collected
    simp only []
    induction ids with
    | nil => rfl
    | cons x ids ih =>
      obtain ⟨⟨h1, h2, h3⟩, h4⟩ := h x (by simp)
      rw [List.map_cons, List.flatMap_cons, ih (fun y hy => h y (by simp [hy]))]
      unfold itemIds
      simp only [h2]
      rw [if_neg h4]
      have : commas x = [x] := by simp [commas, Remote.split_single h3]
      rw [this]
      simp [h2, h1]
  unfold parseIds
  rw [e]
  exact dedup_first _

/-- **C69.** The ids written one after the other with commas between them. -/
theorem C69_join {S : Str} (hS : S.Lawful) (loads : Loads) {ids : List String} (hne : ids ≠ [])
    (h : ∀ x ∈ ids, PlainId S x) (hb : (S.strip (String.intercalate "," ids)).toList.head? ≠ some '[') :
    FirstAppearances ids (parseIds S loads (.text (String.intercalate "," ids))) := by
  have := C69_text hS loads hb
  rw [commas_join hne (fun x hx => (h x hx).2.2)] at this
  have e : (ids.map S.strip).filter (· ≠ "") = ids := by
    rw [List.map_congr_left (g := id) (fun x hx => (h x hx).2.1), List.map_id]
    exact List.filter_eq_self.2 fun x hx => by simpa using (h x hx).1
  rwa [e] at this

/-- what is asked for is determined by the list -/
theorem firstAppearances_unique {l r r' : List String} (h : FirstAppearances l r) (h' : FirstAppearances l r') : r = r' := by
  have hp : r.Perm r' := (List.perm_ext_iff_of_nodup h.nodup h'.nodup).2 fun x => by rw [h.mem, h'.mem]
  have hs : ∀ {r : List String}, FirstAppearances l r → r.Pairwise fun x y => l.idxOf x < l.idxOf y := by
    intro r h
    refine List.pairwise_iff_getElem.2 ?_
    intro i j hi hj hij
    have := (h.order r[i] r[j] (List.getElem_mem hi) (List.getElem_mem hj)).1
    rw [List.Nodup.idxOf_getElem h.nodup, List.Nodup.idxOf_getElem h.nodup] at this
    exact this hij
  exact List.Perm.eq_of_pairwise (le := fun x y => l.idxOf x < l.idxOf y) (by intro a b _ _ h1 h2; omega) (hs h) (hs h') hp

/-! ## Actions on several tasks -/

theorem before_cons (act : Act σ) (a : Action) (id : String) (ids : List String) (s : σ) (k : Nat) :
    before act a (id :: ids) s (k + 1) = before act a ids (act a id s).2 k := rfl

theorem actOne_handled {act : Act σ} {a : Action} {id : String} {s : σ} (h : Handled a (act a id s).1) :
    ∃ m, Message a id (act a id s).1 m ∧
      actOne act a id s = ((act a id s).2, [⟨a, id, statusOf (act a id s).1, m⟩], none) := by
  unfold actOne
  revert h
  rcases hr : act a id s with ⟨r, s'⟩
  intro h
  cases r with
  | ok u => exact ⟨_, (by cases a <;> constructor), rfl⟩
  | error e =>
    cases e with
    | lookup i => exact ⟨_, .missing _ _ _, rfl⟩
    | maxInst i n =>
      have : a = .run := h
      subst this
      exact ⟨_, .full _ _ _ _, rfl⟩
    | _ => exact False.elim h

theorem actOne_unhandled {act : Act σ} {a : Action} {id : String} {s : σ} (h : ¬ Handled a (act a id s).1) :
    ∃ e, (act a id s).1 = .error e ∧ actOne act a id s = ((act a id s).2, [], some e) := by
  unfold actOne
  revert h
  rcases hr : act a id s with ⟨r, s'⟩
  intro h
  cases r with
  | ok u => exact absurd trivial h
  | error e =>
    refine ⟨e, rfl, ?_⟩
    cases e with
    | lookup i => exact absurd trivial h
    | maxInst i n =>
      have : ¬ a = .run := h
      simp only [if_neg this]
    | _ => rfl

/-- **C70.** -/
theorem actAll_handled {act : Act σ} {a : Action} : ∀ {ids : List String} {s : σ},
    (∀ k, (h : k < ids.length) → Handled a (act a ids[k] (before act a ids s k)).1) →
    ∃ log, actAll act a ids s = (before act a ids s ids.length, log, none) ∧
      (log.map (fun e => (e.action, e.id, e.status)) = (List.range ids.length).map fun k =>
        (a, ids.getD k "", statusOf (act a (ids.getD k "") (before act a ids s k)).1)) ∧
      ∀ k, (hk : k < ids.length) → ∀ e, log[k]? = some e → Message a ids[k] (act a ids[k] (before act a ids s k)).1 e.message := by
  intro ids
  induction ids with
  | nil => intro s _; exact ⟨[], rfl, rfl, fun k hk => absurd hk (Nat.not_lt_zero _)⟩
  | cons id ids ih =>
    intro s h
    obtain ⟨m, hmsg, hm⟩ := actOne_handled (h 0 (by simp))
    have hm' : actOne act a id s = ((act a id s).2, [⟨a, id, statusOf (act a id s).1, m⟩], none) := hm
    obtain ⟨log, h1, h2, h3⟩ := ih (s := (act a id s).2) (fun k hk => h (k + 1) (by simpa using hk))
    refine ⟨⟨a, id, statusOf (act a id s).1, m⟩ :: log, ?_, ?_, ?_⟩
    · simp only [actAll, hm', h1]
      rfl
    · rw [List.map_cons, h2, List.length_cons, List.range_succ_eq_map, List.map_cons, List.map_map]
      rfl
    · intro k hk e he
      cases k with
      | zero => cases he; exact hmsg
      | succ k => exact h3 k (by simpa using hk) e (by simpa using he)

/-- **C70.** A bulk action whose calls end in one of the ways the page handles (done, task not found, or too many
instances for "run"): the method is called for every selected task, once and in the order of the selection, and the audit
log gets one entry for each of them, in this order, saying how it ended. -/
theorem C70_bulk_partial (S : Str) (loads : Loads) (act : Act σ) (a : Action) (raw : RawIds) (s : σ)
    (h : ∀ k, (hk : k < (parseIds S loads raw).length) →
      Handled a (act a (parseIds S loads raw)[k] (before act a (parseIds S loads raw) s k)).1) :
    (bulk S loads act a raw s).1 = (parseIds S loads raw).foldl (fun s id => (act a id s).2) s ∧
    (bulk S loads act a raw s).2.2 = none ∧
    (bulk S loads act a raw s).2.1.length = (parseIds S loads raw).length ∧
    ∀ k, (hk : k < (parseIds S loads raw).length) → ∃ e, (bulk S loads act a raw s).2.1[k]? = some e ∧ e.action = a ∧
      e.id = (parseIds S loads raw)[k] ∧
      e.status = statusOf (act a (parseIds S loads raw)[k] (before act a (parseIds S loads raw) s k)).1 ∧
      Message a e.id (act a e.id (before act a (parseIds S loads raw) s k)).1 e.message := by
  obtain ⟨log, h1, h2, h3⟩ := actAll_handled h
  unfold bulk
  rw [h1]
  have hlen : log.length = (parseIds S loads raw).length := by
    have := congrArg List.length h2
    simpa using this
  refine ⟨?_, rfl, hlen, ?_⟩
  · show before act a _ s _ = _
    rw [before, List.take_length]
  · intro k hk
    have hk' : k < log.length := by omega
    have := congrArg (·[k]?) h2
    simp only [List.getElem?_map, List.getElem?_range hk, List.getElem?_eq_getElem hk', Option.map_some] at this
    injection this with this
    injection this with t1 t2
    injection t2 with t2 t3
    have t2' : log[k].id = (parseIds S loads raw)[k] := by
      rw [t2, List.getD_eq_getElem?_getD, List.getElem?_eq_getElem hk, Option.getD_some]
    refine ⟨log[k], List.getElem?_eq_getElem hk', t1, t2', ?_, ?_⟩
    rotate_left
    · rw [t2']
      exact h3 k hk _ (List.getElem?_eq_getElem hk')
    · rw [t3, List.getD_eq_getElem?_getD, List.getElem?_eq_getElem hk, Option.getD_some]

theorem actAll_stop {act : Act σ} {a : Action} : ∀ {ids : List String} {s : σ} {k : Nat} (hk : k < ids.length),
    (∀ j, (hj : j < k) → Handled a (act a (ids[j]'(by omega)) (before act a ids s j)).1) →
    ¬ Handled a (act a ids[k] (before act a ids s k)).1 →
    (actAll act a ids s).1 = before act a ids s (k + 1) ∧ (actAll act a ids s).2.1.map Audit.id = ids.take k ∧
    ∃ e, (actAll act a ids s).2.2 = some e ∧ (act a ids[k] (before act a ids s k)).1 = .error e := by
  intro ids
  induction ids with
  | nil => intro s k hk; simp at hk
  | cons id ids ih =>
    intro s k hk h hn
    cases k with
    | zero =>
      obtain ⟨e, h1, h2⟩ := actOne_unhandled hn
      have h2' : actOne act a id s = ((act a id s).2, [], some e) := h2
      simp only [actAll, h2']
      exact ⟨rfl, rfl, e, rfl, h1⟩
    | succ k =>
      obtain ⟨m, _, hm⟩ := actOne_handled (h 0 (by omega))
      have hm' : actOne act a id s = ((act a id s).2, [⟨a, id, statusOf (act a id s).1, m⟩], none) := hm
      have hk' : k < ids.length := by simpa using hk
      obtain ⟨h1, h2, h3⟩ := ih (s := (act a id s).2) (k := k) hk' (fun j hj => h (j + 1) (by omega)) hn
      simp only [actAll, hm']
      refine ⟨h1, ?_, h3⟩
      show id :: (actAll act a ids (act a id s).2).2.1.map Audit.id = _
      rw [h2]
      rfl

/-- **C70.** What happens in any case: the calls are made in order up to the first that ends in another way; the tasks after
it are left alone, and the exception leaves the request without an entry for that task. -/
theorem C70_stop (S : Str) (loads : Loads) (act : Act σ) (a : Action) (raw : RawIds) (s : σ) {k : Nat}
    (hk : k < (parseIds S loads raw).length)
    (h : ∀ j, (hj : j < k) → Handled a (act a ((parseIds S loads raw)[j]'(by omega)) (before act a (parseIds S loads raw) s j)).1)
    (hn : ¬ Handled a (act a (parseIds S loads raw)[k] (before act a (parseIds S loads raw) s k)).1) :
    (bulk S loads act a raw s).1 = before act a (parseIds S loads raw) s (k + 1) ∧
    (bulk S loads act a raw s).2.1.map Audit.id = (parseIds S loads raw).take k ∧
    ∃ e, (bulk S loads act a raw s).2.2 = some e ∧
      (act a (parseIds S loads raw)[k] (before act a (parseIds S loads raw) s k)).1 = .error e := by
  exact actAll_stop hk h hn

/-! ## Triggers of the creation form -/

theorem cutLast_snoc (l : List Char) (c : Char) : cutLast (l ++ [c]) = some (l, c) := by
  simp [cutLast]

/-- the units of the form -/
def units : List (Char × String) := [('s', "seconds"), ('m', "minutes"), ('h', "hours")]

theorem repr_last (n : Nat) : ∃ l c, n.repr.toList = l ++ [c] ∧ c.isDigit = true := by
  have hne : n.repr.toList ≠ [] := by
    intro h
    have : n.repr = "" := String.toList_eq_nil_iff.1 h
    exact Nat.repr_ne_empty this
  refine ⟨n.repr.toList.dropLast, n.repr.toList.getLast hne, (List.dropLast_concat_getLast hne).symm, ?_⟩
  have : ∀ c ∈ n.repr.toList, c ∈ Nat.toDigits 10 n := by rw [Nat.toList_repr]; exact fun c hc => hc
  have := this _ (List.getLast_mem hne)
  exact Nat.isDigit_of_mem_toDigits (by omega) (by omega) this

/-- **C72.** A number with `s`, `m` or `h` behind it (and any blanks around) is an interval of so many seconds, minutes or
hours; a number alone is an interval of so many seconds. -/
theorem C72_interval {S : Str} (hS : S.Lawful) (digit : Char → Bool) (iso : List Char → Bool) (n : Nat) {v : String} :
    (∀ c u, (c, u) ∈ units → S.strip v = n.repr ++ String.singleton c →
      triggerConfig S digit iso "interval" (some v) = some (.interval u n)) ∧
    (S.strip v = n.repr → triggerConfig S digit iso "interval" (some v) = some (.interval "seconds" n)) := by
  have ht : S.lower (S.strip "interval") = "interval" := by rw [hS.strip_word (by decide), hS.words.2.2.1]
  have hn : S.int (String.ofList n.repr.toList) = some (n : Int) := by rw [String.ofList_toList, (hS.int n).1]
  constructor
  · intro c u hc hv
    have e : (n.repr ++ String.singleton c).toList = n.repr.toList ++ [c] := by simp
    unfold triggerConfig
    simp only [ht, Option.getD_some, hv, if_true, e]
    simp only [units, List.mem_cons, Prod.mk.injEq, List.not_mem_nil, or_false] at hc
    rcases hc with ⟨rfl, rfl⟩ | ⟨rfl, rfl⟩ | ⟨rfl, rfl⟩ <;>
    · unfold intervalConfig
      rw [cutLast_snoc]
      simp only [hn, Option.map_some]
  · intro hv
    unfold triggerConfig
    simp only [ht, Option.getD_some, hv, if_true]
    obtain ⟨l, c, hl, hd⟩ := repr_last n
    unfold intervalConfig
    rw [hl, cutLast_snoc, ← hl]
    split
    · rename_i h; cases h; exact absurd hd (by decide)
    · rename_i h; cases h; exact absurd hd (by decide)
    · rename_i h; cases h; exact absurd hd (by decide)
    · rw [hn]; rfl

theorem cutLast_some {l b : List Char} {c : Char} (h : cutLast l = some (b, c)) : l = b ++ [c] := by
  rcases List.eq_nil_or_concat l with rfl | ⟨b', c', rfl⟩
  · cases h
  · rw [List.concat_eq_append, cutLast_snoc] at h
    injection h with h
    injection h with h1 h2
    rw [h1, h2, List.concat_eq_append]

theorem intervalConfig_some {S : Str} {l : List Char} {g : TriggerConfig} (h : intervalConfig S l = some g) :
    ∃ u n, g = .interval u n ∧ ((∃ c b, (c, u) ∈ units ∧ l = b ++ [c] ∧ S.int (String.ofList b) = some n) ∨
      (u = "seconds" ∧ S.int (String.ofList l) = some n)) := by
  unfold intervalConfig at h
  have key : ∀ {b : List Char} {u : String}, (S.int (String.ofList b)).map (TriggerConfig.interval u) = some g →
      ∃ n, S.int (String.ofList b) = some n ∧ g = .interval u n := by
    intro b u hb
    obtain ⟨m, h1, h2⟩ := Option.map_eq_some_iff.1 hb
    exact ⟨m, h1, h2.symm⟩
  split at h
  · rename_i b hb
    obtain ⟨n, h1, h2⟩ := key h
    exact ⟨_, n, h2, .inl ⟨_, b, List.mem_cons_self .., cutLast_some hb, h1⟩⟩
  · rename_i b hb
    obtain ⟨n, h1, h2⟩ := key h
    exact ⟨_, n, h2, .inl ⟨_, b, List.mem_cons_of_mem _ (List.mem_cons_self ..), cutLast_some hb, h1⟩⟩
  · rename_i b hb
    obtain ⟨n, h1, h2⟩ := key h
    exact ⟨_, n, h2, .inl ⟨_, b, List.mem_cons_of_mem _ (List.mem_cons_of_mem _ (List.mem_cons_self ..)), cutLast_some hb, h1⟩⟩
  · obtain ⟨n, h1, h2⟩ := key h
    exact ⟨_, n, h2, .inr ⟨rfl, h1⟩⟩

/-- **C72.** Nothing else makes an interval: the text without the blanks around it is something `int` reads, alone or with
one of the three letters behind it. -/
theorem C72_interval_only (S : Str) (digit : Char → Bool) (iso : List Char → Bool) {type : String} {v : String} {u : String}
    {n : Int} (h : triggerConfig S digit iso type (some v) = some (.interval u n)) :
    S.lower (S.strip type) = "interval" ∧
    ((∃ c b, (c, u) ∈ units ∧ (S.strip v).toList = b ++ [c] ∧ S.int (String.ofList b) = some n) ∨
      (u = "seconds" ∧ S.int (S.strip v) = some n)) := by
  unfold triggerConfig at h
  simp only [Option.getD_some] at h
  generalize S.lower (S.strip type) = tt at h ⊢
  by_cases ht : tt = "interval"
  · rw [if_pos ht] at h
    refine ⟨ht, ?_⟩
    obtain ⟨u', n', h1, h2⟩ := intervalConfig_some h
    injection h1 with h3 h4
    subst h3 h4
    rwa [String.ofList_toList] at h2
  · rw [if_neg ht] at h
    exfalso
    split at h
    · split at h <;> cases h
    · split at h
      · split at h <;> cases h
      · cases h

theorem splits_left {b s : List Char} (hb : ∀ c ∈ b, Cron.isBlank c = true) {ws : List (List Char)} (h : Cron.Splits s ws) :
    Cron.Splits (b ++ s) ws := by
  cases h with
  | nil h => exact .nil fun c hc => (List.mem_append.1 hc).elim (hb c) (h c)
  | cons hb' hw hne hr h =>
    rw [← List.append_assoc, ← List.append_assoc]
    exact .cons (fun c hc => (List.mem_append.1 hc).elim (hb c) (hb' c)) hw hne hr h

theorem splits_right {b s : List Char} (hb : ∀ c ∈ b, Cron.isBlank c = true) {ws : List (List Char)} (h : Cron.Splits s ws) :
    Cron.Splits (s ++ b) ws := by
  induction h with
  | nil h => exact .nil fun c hc => (List.mem_append.1 hc).elim (h c) (hb c)
  | cons hb' hw hne hr h ih =>
    rw [List.append_assoc]
    refine .cons hb' hw hne ?_ ih
    rcases hr with rfl | ⟨c, cs, rfl, hc⟩
    · cases b with
      | nil => exact .inl rfl
      | cons c cs => exact .inr ⟨c, cs, rfl, hb c (by simp)⟩
    · exact .inr ⟨c, cs ++ b, rfl, hc⟩

theorem trim_decompose (p : Char → Bool) (s : List Char) : ∃ a b, (∀ c ∈ a, p c = true) ∧ (∀ c ∈ b, p c = true) ∧
    s = a ++ trim p s ++ b := by
  refine ⟨s.takeWhile p, ((s.dropWhile p).reverse.takeWhile p).reverse, fun c hc => mem_takeWhile hc,
    fun c hc => mem_takeWhile (List.mem_reverse.1 hc), ?_⟩
  unfold trim Cron.trimRight Cron.trimLeft
  rw [List.append_assoc, ← List.reverse_append, List.takeWhile_append_dropWhile, List.reverse_reverse,
    List.takeWhile_append_dropWhile]

/-- splitting at blanks ignores the blanks around -/
theorem words_trim (s : List Char) : Cron.words (trim Cron.isBlank s) = Cron.words s := by
  obtain ⟨a, b, ha, hb, e⟩ := trim_decompose Cron.isBlank s
  symm
  apply Cron.words_of_splits
  have := splits_right hb (splits_left ha (Cron.splits_words (trim Cron.isBlank s)))
  rwa [← e] at this

/-- **C72.** A cron text makes the trigger that `CronTrigger.from_crontab` makes of it; in particular exactly the texts of
five fields are accepted. -/
theorem C72_cron {S : Str} (hS : S.Lawful) (hb : S.blank = Cron.isBlank) (digit : Char → Bool) (iso : List Char → Bool)
    (v : String) :
    (match triggerConfig S digit iso "cron" (some v) with
      | some (.cron mi h d mo dow) => cronOf mi h d mo dow
      | _ => none) = Cron.fromCrontab v.toList := by
  have ht : S.lower (S.strip "cron") = "cron" := by rw [hS.strip_word (by decide), hS.words.2.2.2.1]
  unfold triggerConfig Cron.fromCrontab
  simp only [ht, Option.getD_some]
  rw [if_neg (by decide), if_pos trivial]
  have e : Cron.words (S.strip v).toList = Cron.words v.toList := by
    rw [Str.strip, String.toList_ofList, hb, words_trim]
  rw [e]
  generalize Cron.words v.toList = w
  match w with
  | [] => rfl
  | [_] => rfl
  | [_, _] => rfl
  | [_, _, _] => rfl
  | [_, _, _, _] => rfl
  | [mi, h, d, mo, dow] => rfl
  | _ :: _ :: _ :: _ :: _ :: _ :: _ => rfl

theorem rsplit_tail {head tail : List Char} (h : ' ' ∉ tail) : rsplitSpace (head ++ ' ' :: tail) = some (head, tail) := by
  unfold rsplitSpace
  simp only []
  rw [if_pos (by simp)]
  have hr : (head ++ ' ' :: tail).reverse = tail.reverse ++ ' ' :: head.reverse := by simp
  have hw : ∀ c ∈ tail.reverse, (decide (c ≠ ' ')) = true := by
    intro c hc
    have : c ≠ ' ' := by rintro rfl; exact h (List.mem_reverse.1 hc)
    simpa using this
  obtain ⟨h1, h2⟩ := Cron.takeWhile_word (p := fun c => decide (c ≠ ' ')) (rest := ' ' :: head.reverse) hw
    (.inr ⟨' ', head.reverse, rfl, by simp⟩)
  rw [hr, h1, h2]
  simp

/-- **C72.** A date whose offset `+hh:mm` arrived with a blank in place of the plus sign (as in an unescaped form) is the
same date as the one with the plus sign, and a text without blanks is taken as it is. -/
theorem C72_date {S : Str} (hS : S.Lawful) (digit : Char → Bool) (iso : List Char → Bool)
    {v w : String} {head : List Char} {a b c d : Char} (hT : 'T' ∈ head)
    (hd : digit a = true ∧ digit b = true ∧ digit c = true ∧ digit d = true) (hns : ∀ c, digit c = true → c ≠ ' ' ∧ c ≠ ':')
    (hv : (S.strip v).toList = head ++ ' ' :: [a, b, ':', c, d]) (hw : (S.strip w).toList = head ++ '+' :: [a, b, ':', c, d])
    (hh : ' ' ∉ head) :
    triggerConfig S digit iso "date" (some v) = triggerConfig S digit iso "date" (some w) ∧
    triggerConfig S digit iso "date" (some w) = if iso (S.strip w).toList then some (.date (S.strip w).toList) else none := by
  have ht : S.lower (S.strip "date") = "date" := by rw [hS.strip_word (by decide), hS.words.2.2.2.2]
  obtain ⟨ha, hb, hc, hd⟩ := hd
  have ha' := hns a ha
  have hb' := hns b hb
  have hc' := hns c hc
  have hd' := hns d hd
  have e1 : fixPlus digit (head ++ ' ' :: [a, b, ':', c, d]) = head ++ '+' :: [a, b, ':', c, d] := by
    unfold fixPlus
    rw [if_pos (by simp [hT]), rsplit_tail (by simp [ha'.1.symm, hb'.1.symm, hc'.1.symm, hd'.1.symm])]
    simp [ha, hb, hc, hd, ha'.2, hb'.2, hc'.2, hd'.2]
  have e2 : fixPlus digit (head ++ '+' :: [a, b, ':', c, d]) = head ++ '+' :: [a, b, ':', c, d] := by
    unfold fixPlus rsplitSpace
    simp only []
    have hn : ' ' ∉ head ++ '+' :: [a, b, ':', c, d] := by
      simp [hh, ha'.1.symm, hb'.1.symm, hc'.1.symm, hd'.1.symm]
    rw [if_neg hn]
    split <;> rfl
  have key : ∀ x : String, triggerConfig S digit iso "date" (some x) =
      if iso (fixPlus digit (S.strip x).toList) then some (.date (fixPlus digit (S.strip x).toList)) else none := by
    intro x
    unfold triggerConfig
    simp only [ht, Option.getD_some]
    rw [if_neg (by decide), if_neg (by decide), if_pos trivial]
  rw [key v, key w, hv, hw, e1, e2]
  exact ⟨rfl, rfl⟩

/-- **C72.** The form accepts intervals of no or negative length.  Of length zero becomes one second ... -/
theorem C72_zero (E : TzEnv) (sys : Zone) (u : Int) : (Interval.mk' E sys u 0 none none none none).interval = 1000000 := rfl

/-- ... but with a negative one, a task that is due has run times without end: `get_run_times`, and with it the scheduler's
pass, does not return. -/
theorem C72_negative_witness {E : TzEnv} (hE : E.Fixed) (tz : Nat) (draw : Nat → Int) (g : Interval) (hI : g.interval < 0)
    (hj : g.jitter = none) (hs : g.stop = none) (e : Sched.Env Sched.Trig) (he : e.next = Sched.Trig.next E tz draw) :
    ∀ (fuel : Nat) (r : Int), r ≤ e.now → Sched.runTimes e (.interval g) fuel (some r) = none := by
  intro fuel
  induction fuel with
  | zero => intro r _; rfl
  | succ fuel ih =>
    intro r hr
    have hinst : ∀ u, (Dt.ofInst E tz u).inst E = u := fun u => Dt.inst_ofInst tz u (hE.lawful tz)
    have hn : ∃ n, e.next 0 (.interval g) (some r) e.now = .ok (some n) ∧ n ≤ e.now := by
      rw [he]
      rcases Interval.C12_interval_step_partial hE g hj tz (Dt.ofInst E tz r) (Dt.ofInst E tz e.now) (draw 0) with
        ⟨_, d, hq, hq'⟩ | ⟨hwe, _⟩
      · rw [hinst] at hq'
        exact ⟨r + g.interval, by simp only [Sched.Trig.next, Option.map_some, hq, Sched.toInst, hq'], by omega⟩
      · exfalso
        apply hwe
        intro s hs'
        unfold Interval.stopDt at hs'
        rw [hs] at hs'
        cases hs'
    obtain ⟨n, h1, h2⟩ := hn
    rw [Sched.runTimes, if_pos hr, h1]
    simp only [ih n h2]

/-! ## The timeline -/

/-- **C73.** The rows are runs of the previews, in the order of time; a run that is left out is not earlier than any that is
shown, and no more are left out than the limit demands; runs at the same time come in the order of the tasks. -/
theorem C73_timeline (tasks : List TimelineTask) (limit : Nat) :
    (timelineRows tasks limit).Pairwise (fun a b => a.time ≤ b.time) ∧
    (∃ rest, (timelineRows tasks limit ++ rest).Perm (tasks.flatMap taskRows) ∧
      (∀ a ∈ timelineRows tasks limit, ∀ b ∈ rest, a.time ≤ b.time)) ∧
    (timelineRows tasks limit).length = min limit (tasks.flatMap taskRows).length ∧
    ∀ t, ((timelineRows tasks limit).filter fun r => r.time = t) <+: ((tasks.flatMap taskRows).filter fun r => r.time = t) := by
  unfold timelineRows
  generalize hl : tasks.flatMap taskRows = l
  have hs := sortBy_pairwise (le := fun a b : Row => decide (a.time ≤ b.time))
    (fun a b c h1 h2 => by simp at *; omega) (fun a b => by simp; omega) l
  have hs' : (sortBy (fun a b : Row => decide (a.time ≤ b.time)) l).Pairwise fun a b => a.time ≤ b.time :=
    hs.imp fun h => by simpa using h
  have hp := sortBy_perm (fun a b : Row => decide (a.time ≤ b.time)) l
  have hf : ∀ t, (sortBy (fun a b : Row => decide (a.time ≤ b.time)) l).filter (fun r => r.time = t) =
      l.filter fun r => r.time = t := by
    intro t
    refine sortBy_filter ?_ l
    intro a b h1 h2
    simp at h1 h2 ⊢
    omega
  generalize sortBy (fun a b : Row => decide (a.time ≤ b.time)) l = m at *
  refine ⟨hs'.sublist (List.take_sublist _ _), ⟨m.drop limit, ?_, ?_⟩, ?_, ?_⟩
  · rw [List.take_append_drop]; exact hp
  · rw [← List.take_append_drop limit m, List.pairwise_append] at hs'
    exact hs'.2.2
  · rw [List.length_take, hp.length_eq]
  · intro t
    rw [← hf t]
    conv => rhs; rw [← List.take_append_drop limit m]
    rw [List.filter_append]
    exact List.prefix_append _ _

/-- what the rows are: the runs that the previews of the tasks show -/
theorem C73_rows (tasks : List TimelineTask) (id : String) (t : Int) : Row.mk id t ∈ tasks.flatMap taskRows ↔
    ∃ k ∈ tasks, k.id = some id ∧ ∃ ts b, k.preview = some (ts, b) ∧ t ∈ ts := by
  rw [List.mem_flatMap]
  refine exists_congr fun k => and_congr_right fun _ => ?_
  unfold taskRows
  rcases k.id with _ | id' <;> rcases k.preview with _ | ⟨ts, b⟩
  · simp
  · simp
  · simp
  · simp only [List.mem_map, Row.mk.injEq, Option.some.injEq, Prod.mk.injEq]
    constructor
    · rintro ⟨x, h1, h2, rfl⟩; exact ⟨h2, ts, b, ⟨rfl, rfl⟩, h1⟩
    · rintro ⟨h1, ts', b', ⟨rfl, rfl⟩, h4⟩; exact ⟨t, h4, h1, rfl⟩

/-- **C73.** "Next run" on the timeline is the earliest of all previewed runs, and missing only if there are none. -/
theorem C73_next (tasks : List TimelineTask) {limit : Nat} (hl : 0 < limit) :
    ((timelineRows tasks limit).head? = none ↔ tasks.flatMap taskRows = []) ∧
    ∀ r, (timelineRows tasks limit).head? = some r → r ∈ tasks.flatMap taskRows ∧ ∀ x ∈ tasks.flatMap taskRows, r.time ≤ x.time := by
  obtain ⟨h1, ⟨rest, h2, h3⟩, h4, _⟩ := C73_timeline tasks limit
  generalize timelineRows tasks limit = rows at *
  generalize tasks.flatMap taskRows = all at *
  constructor
  · rw [List.head?_eq_none_iff]
    constructor
    · rintro rfl
      have : all.length = 0 := by simp at h4; omega
      exact List.eq_nil_of_length_eq_zero this
    · rintro rfl
      have : rows.length = 0 := by simpa using h4
      exact List.eq_nil_of_length_eq_zero this
  · intro r hr
    cases rows with
    | nil => cases hr
    | cons a rows =>
      injection hr with hr
      subst hr
      refine ⟨h2.mem_iff.1 (by simp), ?_⟩
      intro x hx
      rcases List.mem_append.1 (h2.mem_iff.2 hx) with h | h
      · rcases List.mem_cons.1 h with rfl | h
        · exact Int.le_refl _
        · exact (List.pairwise_cons.1 h1).1 x h
      · exact h3 a (by simp) x h

/-- **C73.** Whatever the request says, between 1 and 10 runs of each task are looked at and between 1 and 500 rows shown;
history, logs, audit and events pages ask for between 1 and 1000 entries. -/
theorem C73_limits (S : Str) (v : Option String) :
    (1 ≤ timelineInt S v 3 1 10 ∧ timelineInt S v 3 1 10 ≤ 10) ∧ (1 ≤ timelineInt S v 100 1 500 ∧ timelineInt S v 100 1 500 ≤ 500) ∧
    1 ≤ limitParam S v ∧ limitParam S v ≤ 1000 := by
  refine ⟨?_, ?_, ?_⟩
  · unfold timelineInt
    split
    · omega
    · split
      · omega
      · split <;> omega
  · unfold timelineInt
    split
    · omega
    · split
      · omega
      · split <;> omega
  · unfold limitParam pageLimit
    split <;> omega

/-- **C73.** Without a limit in the request the pages ask for 200 entries; a number between 1 and 1000 is taken as it is. -/
theorem C73_limit_default (S : Str) (h : S.int "200" = some 200) (hb : ∀ c ∈ ['2', '0'], S.blank c = false) :
    limitParam S none = 200 ∧ (∀ t : String, S.strip t = "" → limitParam S (some t) = 200) ∧
    (∀ t : String, t ≠ "" → S.strip t ≠ "" → S.int (S.strip t) = none → limitParam S (some t) = 200) ∧
    ∀ (t : String) (n : Int), t ≠ "" → S.strip t ≠ "" → S.int (S.strip t) = some n →
      (1 ≤ n → n ≤ 1000 → limitParam S (some t) = n) ∧ (n < 1 → limitParam S (some t) = 1) ∧
      (1000 < n → limitParam S (some t) = 1000) := by
  have h2 : S.blank '2' = false := hb _ (by simp)
  have h0 : S.blank '0' = false := hb _ (by simp)
  have hs : S.strip "200" = "200" := by
    simp [Str.strip, trim, Cron.trimRight, Cron.trimLeft, h2, h0]
  refine ⟨?_, fun t ht => ?_, fun t h1 h2 h3 => ?_, fun t n h1 h3 h4 => ?_⟩
  · simp [limitParam, pageLimit, orText, hs, h]; decide
  · by_cases h0 : t = ""
    · subst h0
      simp [limitParam, pageLimit, orText, hs, h]; decide
    · simp only [limitParam, pageLimit, orText, Option.getD_some, if_neg h0, ht, if_true, h]
      decide
  · simp only [limitParam, pageLimit, orText, Option.getD_some, if_neg h1, if_neg h2, h3]
  · simp only [limitParam, pageLimit, orText, Option.getD_some, if_neg h1, if_neg h3, h4]
    refine ⟨?_, ?_, ?_⟩ <;> omega

/-- **C73.** The timeline's two numbers: without a value, with an empty one or with one that is no number the default; a number
within the bounds is taken as it is, any other is moved to the nearest bound. -/
theorem C73_timeline_default (S : Str) {d lo hi : Nat} (h1 : lo ≤ d) (h2 : d ≤ hi) :
    timelineInt S none d lo hi = d ∧ timelineInt S (some "") d lo hi = d ∧
    (∀ t : String, S.int t = none → timelineInt S (some t) d lo hi = d) ∧
    ∀ (t : String) (n : Int), t ≠ "" → S.int t = some n →
      ((lo : Int) ≤ n → n ≤ hi → (timelineInt S (some t) d lo hi : Int) = n) ∧
      (n < lo → timelineInt S (some t) d lo hi = lo) ∧ ((hi : Int) < n → timelineInt S (some t) d lo hi = hi) := by
  refine ⟨?_, ?_, fun t ht => ?_, fun t n h3 h4 => ?_⟩
  · simp only [timelineInt]
    omega
  · simp only [timelineInt, if_true]
    omega
  · by_cases h0 : t = ""
    · subst h0
      simp only [timelineInt, if_true]
      omega
    · simp only [timelineInt, if_neg h0, ht]
  · simp only [timelineInt, if_neg h3, h4]
    refine ⟨?_, ?_, ?_⟩ <;> omega

example (S : Str) : timelineInt S (some "") 3 1 10 = 3 := (C73_timeline_default S (by decide) (by decide)).2.1

/-! ## Examples -/

/-- seven tasks in pages of three -/
example : (paginate [1, 2, 3, 4, 5, 6, 7] 2 3).1 = [4, 5, 6] ∧ (paginate [1, 2, 3, 4, 5, 6, 7] 9 3).1 = [7] ∧
    (paginate [1, 2, 3, 4, 5, 6, 7] 2 3).2 = ⟨2, 3, 3, 7, 4, 6, true, true, 1, 3⟩ := by decide

/-- tasks 0 .. 6 that match the filter "q" -/
def exInfos (f : Filters) : List Nat := if f.q = "a b&c" then [0, 1, 2, 3, 4, 5, 6] else []

/-- the form of a request for page 2 of them, three per page, descending -/
def exForm : Form := ⟨⟨"a b&c", "paused", "", "", "name", true⟩, 2, 3⟩

theorem exForm_normal : exForm.Normal exStr :=
  ⟨by decide +kernel, by decide +kernel, by decide +kernel, by decide +kernel, by decide +kernel, by decide, by decide⟩

example : suffix exForm = "?q=a+b%26c&state=paused&sort=name&direction=desc&page=2&per_page=3".toList := by decide +kernel

/-- the hypotheses of `C68_links` and `C68_browse` with links that lead somewhere -/
example : (request exStr exInfos (suffix exForm)).rows = [3, 4, 5] ∧
    (request exStr exInfos (suffix exForm)).pagination.hasNext = true ∧
    (request exStr exInfos (suffix exForm)).pagination.hasPrevious = true ∧
    (request exStr exInfos (request exStr exInfos (suffix exForm)).next).rows = [6] := by
  have e : request exStr exInfos (suffix exForm) = view exInfos exForm :=
    request_suffix exStr_lawful exInfos exForm_normal (by decide)
  rw [e]
  refine ⟨by decide +kernel, by decide +kernel, by decide +kernel, ?_⟩
  have e2 : (view exInfos exForm).next = suffix { exForm with page := 3 } := by decide +kernel
  rw [e2, request_suffix exStr_lawful exInfos (f := { exForm with page := 3 })
    ⟨exForm_normal.q, exForm_normal.state, exForm_normal.executor, exForm_normal.trigger, exForm_normal.sort, by decide,
      exForm_normal.perPage⟩ (by decide)]
  decide +kernel

example : (request exStr exInfos (suffix { exForm with page := 1 })).form.page = 1 ∧
    (request exStr exInfos (suffix { exForm with page := 1 })).pagination.pageCount = 3 := by
  rw [request_suffix exStr_lawful exInfos (f := { exForm with page := 1 })
    ⟨exForm_normal.q, exForm_normal.state, exForm_normal.executor, exForm_normal.trigger, exForm_normal.sort, by decide,
      exForm_normal.perPage⟩ (by decide)]
  decide +kernel

/-- the hypotheses of `C68_page_limit` are met by 10 001 tasks, one per page -/
example : ∃ (infos : Filters → List Unit) (sfx : List Char), (request exStr infos sfx).form.page = 10000 ∧
    (request exStr infos sfx).pagination.hasNext = true := by
  refine ⟨fun _ => List.replicate 10001 (), suffix { exForm with page := 10000, perPage := 1 }, ?_⟩
  rw [request_suffix exStr_lawful _ (f := { exForm with page := 10000, perPage := 1 })
    ⟨exForm_normal.q, exForm_normal.state, exForm_normal.executor, exForm_normal.trigger, exForm_normal.sort, by decide,
      by decide⟩ (by decide)]
  have hl : (List.replicate 10001 ()).length = 10001 := List.length_replicate
  unfold view paginate
  simp only [hl]
  decide +kernel

example : parseIds exStr (fun _ => none) (.text " b, a,,b , c ") = ["b", "a", "c"] := by decide +kernel

example : parseIds exStr (fun s => if s = "[\"a,b\", 1, \"c\"]" then some [some "a,b", none, some "c"] else none)
    (.text " [\"a,b\", 1, \"c\"]") = ["a,b", "c"] := by decide +kernel

instance (S : Str) (x : String) : Decidable (PlainId S x) :=
  inferInstanceAs (Decidable (x ≠ "" ∧ S.strip x = x ∧ ',' ∉ x.toList))

example : ∀ x ∈ ["t-2", "t 1", "t-2"], PlainId exStr x ∧ x.toList.head? ≠ some '[' := by decide +kernel

example : PlainId exStr "t-2" ∧ PlainId exStr "t 1" ∧
    (exStr.strip (String.intercalate "," ["t-2", "t 1"])).toList.head? ≠ some '[' := by decide +kernel

/-- In a list of fields the parts between commas keep their blanks, so the second id is not found. -/
theorem C69_list_blank_witness : parseIds exStr (fun _ => none) (.items [.text "a, b"]) = ["a", " b"] ∧
    parseIds exStr (fun _ => none) (.text "a, b") = ["a", "b"] := by decide +kernel

/-- a scheduler for the examples: the ids that are there; running "busy" fails, pausing "odd" raises something else -/
def exAct : Act (List String) := fun a id s =>
  if id ∉ s then (.error (.lookup id), s)
  else if id = "busy" ∧ a = .run then (.error (.maxInst id 1), s)
  else if id = "odd" then (.error (.other "RuntimeError" "odd"), s)
  else (.ok (), if a = .remove then s.erase id else s)

instance (a : Action) (r : Except Remote.Exc Unit) : Decidable (Handled a r) :=
  match r with
  | .ok _ => .isTrue trivial
  | .error (.lookup _) => .isTrue trivial
  | .error (.maxInst _ _) => inferInstanceAs (Decidable (a = .run))
  | .error .notRunning => .isFalse id
  | .error (.value _) => .isFalse id
  | .error (.other _ _) => .isFalse id
  | .error (.remote _) => .isFalse id
  | .error .badReply => .isFalse id
  | .error .unsendable => .isFalse id

/-- the hypothesis of `C70_bulk_partial`, with one failure among the tasks -/
example : ∀ k, (hk : k < (parseIds exStr (fun _ => none) (.text "a,x,b,a")).length) →
    Handled .remove (exAct .remove (parseIds exStr (fun _ => none) (.text "a,x,b,a"))[k]
      (before exAct .remove (parseIds exStr (fun _ => none) (.text "a,x,b,a")) ["a", "b", "c"] k)).1 := by
  decide +kernel

example : (bulk exStr (fun _ => none) exAct .remove (.text "a,x,b,a") ["a", "b", "c"]).1 = ["c"] ∧
    (bulk exStr (fun _ => none) exAct .remove (.text "a,x,b,a") ["a", "b", "c"]).2.1.map (fun e => (e.id, e.status)) =
      [("a", "succeeded"), ("x", "failed"), ("b", "succeeded")] := by decide +kernel

/-- **C70**, what is missing: an exception other than the handled ones stops a bulk action. The tasks selected after it are
not touched, and the log says nothing of the one that failed. -/
theorem C70_abort_witness : ∃ (act : Act (List String)) (s : List String),
    (bulk exStr (fun _ => none) act .remove (.text "a,odd,b") s).1 = ["odd", "b"] ∧
    (bulk exStr (fun _ => none) act .remove (.text "a,odd,b") s).2.1.map Audit.id = ["a"] ∧
    (bulk exStr (fun _ => none) act .remove (.text "a,odd,b") s).2.2 = some (.other "RuntimeError" "odd") :=
  ⟨exAct, ["a", "odd", "b"], by decide +kernel⟩

example : exStr.strip " 15m " = (15 : Nat).repr ++ String.singleton 'm' := by decide +kernel

example : (triggerConfig exStr Char.isDigit (fun _ => true) "cron" (some " */5 * * * 1-3 ")) =
    some (.cron "*/5".toList ['*'] ['*'] ['*'] "1-3".toList) := by decide +kernel

example : exStr.blank = Cron.isBlank := rfl

example : (exStr.strip "2030-01-01T10:00:00 02:00").toList = "2030-01-01T10:00:00".toList ++ ' ' :: ['0', '2', ':', '0', '0'] ∧
    (exStr.strip "2030-01-01T10:00:00+02:00").toList = "2030-01-01T10:00:00".toList ++ '+' :: ['0', '2', ':', '0', '0'] := by
  decide +kernel

/-- "-5s" is accepted as an interval, and a trigger like that meets the hypotheses of `C72_negative_witness`. -/
theorem C72_negative_accepted {S : Str} (hS : S.Lawful) (digit : Char → Bool) (iso : List Char → Bool) {v : String}
    (hv : S.strip v = "-5s") : triggerConfig S digit iso "interval" (some v) = some (.interval "seconds" (-5)) := by
  have ht : S.lower (S.strip "interval") = "interval" := by rw [hS.strip_word (by decide), hS.words.2.2.1]
  unfold triggerConfig
  simp only [ht, Option.getD_some, hv, if_true]
  show intervalConfig S "-5s".toList = _
  have : S.int (String.ofList ['-', '5']) = some (-5) := (hS.int 5).2
  unfold intervalConfig
  show (S.int (String.ofList ['-', '5'])).map _ = _
  rw [this]
  rfl

example : (Interval.mk' exEnv (exEnv 0) 0 (-5000000) none none none none).interval < 0 ∧
    (Interval.mk' exEnv (exEnv 0) 0 (-5000000) none none none none).jitter = none ∧
    (Interval.mk' exEnv (exEnv 0) 0 (-5000000) none none none none).stop = none := by decide +kernel

example : timelineRows [⟨some "a", some ([5, 9], false)⟩, ⟨none, none⟩, ⟨some "b", some ([3, 5, 7], true)⟩] 4 =
    [⟨"b", 3⟩, ⟨"a", 5⟩, ⟨"b", 5⟩, ⟨"b", 7⟩] := by decide +kernel

end Pages
end Asyncz
