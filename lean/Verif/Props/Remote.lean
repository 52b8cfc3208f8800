import Verif.Spec.Remote
import Std.Data.String.ToInt
/-!
# Remote control of a scheduler
-/
namespace Asyncz
namespace Remote
variable {σ γ : Type}

/-! ## Quoting -/

theorem hexVal_hexChar : ∀ n < 16, hexVal (hexChar n) = some n := by decide +kernel

theorem safe_byte_char : ∀ n < 256, safeByte (UInt8.ofNat n) = true →
    Char.ofNat n ≠ '%' ∧ Char.ofNat n ≠ '+' ∧ (Char.ofNat n).toNat = n := by decide +kernel

theorem quoteByte_clean : ∀ n < 256, ∀ plus : Bool, ∀ c ∈ quoteByte plus (UInt8.ofNat n),
    c ≠ '/' ∧ c ≠ '?' ∧ c ≠ '&' ∧ c ≠ '=' := by decide +kernel

theorem quoteByte_ne_nil (plus : Bool) (b : UInt8) : quoteByte plus b ≠ [] := by
  unfold quoteByte
  split
  · simp
  · split <;> simp

theorem unquote_char {plus : Bool} {c : Char} {l : List Char} (h : c ≠ '%') (hp : ¬ (plus = true ∧ c = '+')) :
    unquoteBytes plus (c :: l) = UInt8.ofNat c.toNat :: unquoteBytes plus l := by
  rw [unquoteBytes.eq_3]
  · have : (plus && c == '+') = false := by
      cases plus <;> simp_all
    simp [this]
  · intro a b l' hc
    exact absurd hc h

theorem unquote_plus {l : List Char} : unquoteBytes true ('+' :: l) = 32 :: unquoteBytes true l := by
  rw [unquoteBytes.eq_3]
  · simp
  · intro a b l' hc
    exact absurd hc (by decide)

theorem unquote_hex {plus : Bool} {n : Nat} (hn : n < 256) {l : List Char} :
    unquoteBytes plus ('%' :: hexChar (n / 16) :: hexChar (n % 16) :: l) = UInt8.ofNat n :: unquoteBytes plus l := by
  rw [unquoteBytes.eq_2, hexVal_hexChar _ (by omega), hexVal_hexChar _ (by omega)]
  have : n / 16 * 16 + n % 16 = n := by omega
  simp only [this]

theorem unquote_quoteByte (plus : Bool) (b : UInt8) (l : List Char) :
    unquoteBytes plus (quoteByte plus b ++ l) = b :: unquoteBytes plus l := by
  have hb : UInt8.ofNat b.toNat = b := UInt8.ofNat_toNat
  have hlt : b.toNat < 256 := b.toNat_lt
  unfold quoteByte
  split
  · rename_i h
    obtain ⟨h1, h2, h3⟩ := safe_byte_char b.toNat hlt (by rw [hb]; exact h)
    rw [List.cons_append, List.nil_append, unquote_char h1 (fun h => h2 h.2), h3, hb]
  · split
    · rename_i h
      have h' : plus = true ∧ b = 32 := by simpa using h
      rw [h'.1, h'.2]
      exact unquote_plus
    · rw [List.cons_append, List.cons_append, List.cons_append, List.nil_append, unquote_hex hlt, hb]

theorem unquote_quoteBytes (plus : Bool) (bs : List UInt8) (l : List Char) :
    unquoteBytes plus (bs.flatMap (quoteByte plus) ++ l) = bs ++ unquoteBytes plus l := by
  induction bs with
  | nil => rfl
  | cons b bs ih => rw [List.flatMap_cons, List.append_assoc, unquote_quoteByte, ih, List.cons_append]

theorem utf8_decode (cs : List Char) :
    (ByteArray.mk (cs.flatMap String.utf8EncodeChar).toArray).utf8Decode? = some cs.toArray := by
  have : ByteArray.mk (cs.flatMap String.utf8EncodeChar).toArray = cs.utf8Encode := by
    unfold List.utf8Encode
    ext1
    simp
  rw [this, List.utf8Decode?_utf8Encode]

/-- what the server reads is what the client wrote -/
theorem unquote_quote (plus : Bool) (s : String) : unquote plus (quote plus s) = some s := by
  unfold unquote quote
  have := unquote_quoteBytes plus (s.toList.flatMap String.utf8EncodeChar) []
  rw [List.append_nil] at this
  rw [this]
  simp only [unquoteBytes, List.append_nil, utf8_decode, Option.map_some, List.toList_toArray, String.ofList_toList]

theorem mem_quote {plus : Bool} {s : String} {c : Char} (h : c ∈ quote plus s) :
    c ≠ '/' ∧ c ≠ '?' ∧ c ≠ '&' ∧ c ≠ '=' := by
  obtain ⟨b, _, hc⟩ := List.mem_flatMap.1 h
  exact quoteByte_clean b.toNat b.toNat_lt plus c (by rw [UInt8.ofNat_toNat]; exact hc)

/-! ## Paths and queries -/

theorem split_append {sep : Char} : ∀ {a b : List Char}, sep ∉ a → split sep (a ++ sep :: b) = a :: split sep b := by
  intro a b h
  induction a with
  | nil => simp [split]
  | cons c a ih =>
    have hc : c ≠ sep := fun e => h (by simp [e])
    have ha : sep ∉ a := fun e => h (List.mem_cons_of_mem _ e)
    rw [List.cons_append, split, if_neg hc, ih ha]

theorem split_single {sep : Char} : ∀ {a : List Char}, sep ∉ a → split sep a = [a] := by
  intro a h
  induction a with
  | nil => rfl
  | cons c a ih =>
    have hc : c ≠ sep := fun e => h (by simp [e])
    have ha : sep ∉ a := fun e => h (List.mem_cons_of_mem _ e)
    rw [split, if_neg hc, ih ha]

theorem cut_append {sep : Char} : ∀ {a b : List Char}, sep ∉ a →
    (a ++ sep :: b).takeWhile (· ≠ sep) = a ∧ (a ++ sep :: b).dropWhile (· ≠ sep) = sep :: b := by
  intro a b h
  induction a with
  | nil => simp
  | cons c a ih =>
    have hc : c ≠ sep := fun e => h (by simp [e])
    have ha : sep ∉ a := fun e => h (List.mem_cons_of_mem _ e)
    have := ih ha
    simp only [List.cons_append, List.takeWhile_cons, List.dropWhile_cons, hc, ne_eq, not_false_eq_true, decide_true,
      if_true]
    exact ⟨by rw [this.1], this.2⟩

theorem cut_single {sep : Char} : ∀ {a : List Char}, sep ∉ a →
    a.takeWhile (· ≠ sep) = a ∧ a.dropWhile (· ≠ sep) = [] := by
  intro a h
  induction a with
  | nil => simp
  | cons c a ih =>
    have hc : c ≠ sep := fun e => h (by simp [e])
    have ha : sep ∉ a := fun e => h (List.mem_cons_of_mem _ e)
    have := ih ha
    simp only [List.takeWhile_cons, List.dropWhile_cons, hc, ne_eq, not_false_eq_true, decide_true, if_true]
    exact ⟨by rw [this.1], this.2⟩

theorem quote_no {plus : Bool} (s : String) :
    '/' ∉ quote plus s ∧ '?' ∉ quote plus s ∧ '&' ∉ quote plus s ∧ '=' ∉ quote plus s :=
  ⟨fun h => (mem_quote h).1 rfl, fun h => (mem_quote h).2.1 rfl, fun h => (mem_quote h).2.2.1 rfl,
    fun h => (mem_quote h).2.2.2 rfl⟩

theorem parsePair_pair (k v : String) : parsePair (quote true k ++ '=' :: quote true v) = some (k, v) := by
  unfold parsePair
  rw [(cut_append (quote_no k).2.2.2).1, (cut_append (quote_no k).2.2.2).2, List.drop_one, List.tail_cons,
    unquote_quote, unquote_quote]

/-- the worker reads the query parameters that the client gave, in order -/
theorem parseQuery_urlencode (q : List (String × String)) : parseQuery (urlencode q) = q := by
  unfold parseQuery
  have hne : ∀ k v : String, (quote true k ++ '=' :: quote true v) ≠ [] := by intro k v; simp
  have hamp : ∀ k v : String, '&' ∉ quote true k ++ '=' :: quote true v := by
    intro k v h
    rcases List.mem_append.1 h with h | h
    · exact (quote_no k).2.2.1 h
    · rcases List.mem_cons.1 h with h | h
      · exact absurd h (by decide)
      · exact (quote_no v).2.2.1 h
  induction q with
  | nil => rfl
  | cons p q ih =>
    obtain ⟨k, v⟩ := p
    cases q with
    | nil =>
      rw [urlencode, split_single (hamp k v)]
      simp [parsePair_pair]
    | cons p' q =>
      have : urlencode ((k, v) :: p' :: q) = (quote true k ++ '=' :: quote true v) ++ '&' :: urlencode (p' :: q) := by
        rw [urlencode]
        · simp
      rw [this, split_append (hamp k v)]
      rw [List.filter_cons, if_pos (by simp), List.filterMap_cons, parsePair_pair]
      simp only [ih]

/-- The target of a request is read back: path and query. -/
theorem target_cut {path : List Char} (hp : '?' ∉ path) (q : List (String × String)) :
    (target path q).takeWhile (· ≠ '?') = path ∧
    parseQuery (((target path q).dropWhile (· ≠ '?')).drop 1) = q := by
  unfold target
  by_cases h : q = []
  · subst h
    rw [if_pos rfl]
    refine ⟨(cut_single hp).1, ?_⟩
    rw [(cut_single hp).2]; rfl
  · rw [if_neg h]
    refine ⟨(cut_append hp).1, ?_⟩
    rw [(cut_append hp).2, List.drop_one, List.tail_cons, parseQuery_urlencode]

/-- characters that mean themselves in a quoted path -/
def Literal (l : List Char) : Prop := ∀ c ∈ l, c ≠ '%' ∧ c ≠ '?' ∧ String.utf8EncodeChar c = [UInt8.ofNat c.toNat]

instance (l : List Char) : Decidable (Literal l) := inferInstanceAs (Decidable (∀ c ∈ l, _))

theorem unquote_literal {l r : List Char} (h : Literal l) :
    unquoteBytes false (l ++ r) = l.flatMap String.utf8EncodeChar ++ unquoteBytes false r := by
  induction l with
  | nil => rfl
  | cons c l ih =>
    obtain ⟨h1, _, h3⟩ := h c (List.mem_cons_self ..)
    rw [List.cons_append, unquote_char h1 (fun h => by cases h.1), ih (fun d hd => h d (List.mem_cons_of_mem _ hd)),
      List.flatMap_cons, h3]
    rfl

theorem unquote_path {a b : List Char} (ha : Literal a) (hb : Literal b) (id : String) :
    unquote false (a ++ quote false id ++ b) = some (String.ofList (a ++ id.toList ++ b)) := by
  unfold unquote quote
  rw [List.append_assoc, unquote_literal ha, unquote_quoteBytes]
  have := unquote_literal (r := []) hb
  rw [List.append_nil] at this
  rw [this]
  simp only [unquoteBytes, List.append_nil]
  rw [← List.flatMap_append, ← List.flatMap_append, utf8_decode]
  simp

theorem unquote_plain {a : List Char} (ha : Literal a) : unquote false a = some (String.ofList a) := by
  unfold unquote
  have := unquote_literal (r := []) ha
  rw [List.append_nil] at this
  rw [this]
  simp only [unquoteBytes, List.append_nil, utf8_decode, Option.map_some, List.toList_toArray]

/-- The path of a request about a task: its segments are `tasks`, the id and what follows. -/
theorem task_segments {id : String} (hid : GoodId id) (rest : String) :
    segments ("/tasks/".toList ++ id.toList ++ rest.toList) =
      "tasks".toList :: (if rest.toList = [] then [id.toList] else
        match rest.toList with
        | '/' :: r => id.toList :: split '/' r
        | r => split '/' (id.toList ++ r)) := by
  have h1 : "/tasks/".toList = '/' :: ("tasks".toList ++ ['/']) := by decide
  have h2 : '/' ∉ "tasks".toList := by decide
  rw [h1]
  unfold segments
  simp only [List.cons_append, List.append_assoc, List.nil_append]
  rw [split_append h2]
  generalize rest.toList = r
  cases r with
  | nil => simp [split_single hid.2]
  | cons c r =>
    simp only [List.cons_ne_nil, if_false]
    by_cases hc : c = '/'
    · subst hc
      simp [split_append hid.2]
    · congr 1
      split
      · rename_i h; simp at h; exact absurd h.1 hc
      · rfl

/-! ## Values -/

mutual
theorem dump_sent (iso : When → String) : ∀ (v : Val) {j : Json}, dumpJson iso v = some j → Sent iso v j.py
  | .none, j, h => by simp only [dumpJson, Option.some.injEq] at h; subst h; exact .none
  | .bool b, j, h => by simp only [dumpJson, Option.some.injEq] at h; subst h; exact .bool b
  | .int n, j, h => by simp only [dumpJson, Option.some.injEq] at h; subst h; exact .int n
  | .float x, j, h => by simp only [dumpJson, Option.some.injEq] at h; subst h; exact .float x
  | .str x, j, h => by simp only [dumpJson, Option.some.injEq] at h; subst h; exact .str x
  | .datetime x, j, h => by simp only [dumpJson, Option.some.injEq] at h; subst h; exact .datetime x
  | .enum x, j, h => by simp only [dumpJson, Option.some.injEq] at h; subst h; exact .enum x
  | .model x, j, h => by simp only [dumpJson] at h; subst h; exact .model j
  | .tuple xs, j, h => by
    simp only [dumpJson, Option.map_eq_some_iff] at h
    obtain ⟨js, h1, h2⟩ := h
    subst h2
    exact (dumpList_sent iso xs h1).1
  | .list xs, j, h => by
    simp only [dumpJson, Option.map_eq_some_iff] at h
    obtain ⟨js, h1, h2⟩ := h
    subst h2
    exact (dumpList_sent iso xs h1).2
  | .dict xs, j, h => by
    simp only [dumpJson, Option.map_eq_some_iff] at h
    obtain ⟨js, h1, h2⟩ := h
    subst h2
    exact dumpItems_sent iso xs h1
  | .object _, j, h => by simp [dumpJson] at h

theorem dumpList_sent (iso : When → String) : ∀ (xs : List Val) {js : List Json}, dumpList iso xs = some js →
    Sent iso (.tuple xs) (.list (pyList js)) ∧ Sent iso (.list xs) (.list (pyList js))
  | [], js, h => by simp only [dumpList, Option.some.injEq] at h; subst h; exact ⟨.tupleNil, .listNil⟩
  | v :: xs, js, h => by
    simp only [dumpList] at h
    split at h
    · rename_i j js' h1 h2
      simp only [Option.some.injEq] at h
      subst h
      have a := dump_sent iso v h1
      have b := dumpList_sent iso xs h2
      exact ⟨.tupleCons a b.1, .listCons a b.2⟩
    · simp at h

theorem dumpItems_sent (iso : When → String) : ∀ (xs : List (String × Val)) {js : List (String × Json)},
    dumpItems iso xs = some js → Sent iso (.dict xs) (.dict (pyItems js))
  | [], js, h => by simp only [dumpItems, Option.some.injEq] at h; subst h; exact .dictNil
  | (k, v) :: xs, js, h => by
    simp only [dumpItems] at h
    split at h
    · rename_i j js' h1 h2
      simp only [Option.some.injEq] at h
      subst h
      exact .dictCons (dump_sent iso v h1) (dumpItems_sent iso xs h2)
    · simp at h
end

theorem sent_dump {iso : When → String} {v v' : Val} (h : Sent iso v v') :
    ∃ j, dumpJson iso v = some j ∧ j.py = v' := by
  induction h with
  | none => exact ⟨_, rfl, rfl⟩
  | bool b => exact ⟨_, rfl, rfl⟩
  | int b => exact ⟨_, rfl, rfl⟩
  | float b => exact ⟨_, rfl, rfl⟩
  | str b => exact ⟨_, rfl, rfl⟩
  | datetime b => exact ⟨_, rfl, rfl⟩
  | enum b => exact ⟨_, rfl, rfl⟩
  | model j => exact ⟨j, rfl, rfl⟩
  | tupleNil => exact ⟨_, rfl, rfl⟩
  | listNil => exact ⟨_, rfl, rfl⟩
  | dictNil => exact ⟨_, rfl, rfl⟩
  | tupleCons _ _ ih1 ih2 =>
    obtain ⟨j, h1, h2⟩ := ih1
    obtain ⟨j', h3, h4⟩ := ih2
    simp only [dumpJson, Option.map_eq_some_iff] at h3
    obtain ⟨js, h5, rfl⟩ := h3
    refine ⟨.arr (j :: js), by simp [dumpJson, dumpList, h1, h5], ?_⟩
    simp only [Json.py, Val.list.injEq] at h4
    simp [Json.py, pyList, h2, h4]
  | listCons _ _ ih1 ih2 =>
    obtain ⟨j, h1, h2⟩ := ih1
    obtain ⟨j', h3, h4⟩ := ih2
    simp only [dumpJson, Option.map_eq_some_iff] at h3
    obtain ⟨js, h5, rfl⟩ := h3
    refine ⟨.arr (j :: js), by simp [dumpJson, dumpList, h1, h5], ?_⟩
    simp only [Json.py, Val.list.injEq] at h4
    simp [Json.py, pyList, h2, h4]
  | dictCons _ _ ih1 ih2 =>
    obtain ⟨j, h1, h2⟩ := ih1
    obtain ⟨j', h3, h4⟩ := ih2
    simp only [dumpJson, Option.map_eq_some_iff] at h3
    obtain ⟨js, h5, rfl⟩ := h3
    refine ⟨.obj ((_, j) :: js), by simp [dumpJson, dumpItems, h1, h5]; rfl, ?_⟩
    simp only [Json.py, Val.dict.injEq] at h4
    simp [Json.py, pyItems, h2, h4]

theorem sent_list {iso : When → String} {xs ys : List Val} (h : Sent iso (.list xs) (.list ys)) :
    ∃ js, dumpList iso xs = some js ∧ pyList js = ys := by
  obtain ⟨j, h1, h2⟩ := sent_dump h
  simp only [dumpJson, Option.map_eq_some_iff] at h1
  obtain ⟨js, h3, rfl⟩ := h1
  exact ⟨js, h3, by simpa [Json.py] using h2⟩

theorem sent_dict {iso : When → String} {xs ys : List (String × Val)} (h : Sent iso (.dict xs) (.dict ys)) :
    ∃ js, dumpItems iso xs = some js ∧ pyItems js = ys := by
  obtain ⟨j, h1, h2⟩ := sent_dump h
  simp only [dumpJson, Option.map_eq_some_iff] at h1
  obtain ⟨js, h3, rfl⟩ := h1
  exact ⟨js, h3, by simpa [Json.py] using h2⟩

/-- Plain values arrive unchanged. -/
theorem Plain.sent {iso : When → String} {v : Val} (h : Plain v) : Sent iso v v := by
  induction h with
  | none => exact .none
  | bool b => exact .bool b
  | int b => exact .int b
  | float b => exact .float b
  | str b => exact .str b
  | list _ ih =>
    rename_i xs h
    clear h
    induction xs with
    | nil => exact .listNil
    | cons v xs ihx => exact .listCons (ih v (List.mem_cons_self ..)) (ihx fun w hw => ih w (List.mem_cons_of_mem _ hw))
  | dict _ ih =>
    rename_i kv h
    clear h
    induction kv with
    | nil => exact .dictNil
    | cons p xs ihx =>
      obtain ⟨k, v⟩ := p
      exact .dictCons (ih (k, v) (List.mem_cons_self ..)) (ihx fun w hw => ih w (List.mem_cons_of_mem _ hw))

theorem Sent.unique {iso : When → String} {v a b : Val} (h1 : Sent iso v a) (h2 : Sent iso v b) : a = b := by
  obtain ⟨j, e1, rfl⟩ := sent_dump h1
  obtain ⟨j', e2, rfl⟩ := sent_dump h2
  rw [e1] at e2
  cases e2
  rfl

/-! ## Snapshots -/

@[simp] theorem asStr_strJson (o : Option String) : asStr (some (strJson o)) = some o := by cases o <;> rfl
@[simp] theorem asNum_numJson (o : Option Num) : asNum (some (numJson o)) = some o := by
  rcases o with _ | n
  · rfl
  · cases n <;> rfl
@[simp] theorem asState_stateJson (o : Listing.SState) : asState (some (stateJson o)) = some o := by
  cases o <;> simp [stateJson, asState]
theorem asWhenOpt_whenJson {C : Codec γ} (hC : C.Lawful) (o : Option When) :
    asWhenOpt C (some (whenJson C o)) = some o := by
  cases o <;> simp [whenJson, asWhenOpt, hC.pyd]

theorem infoOf_infoJson {C : Codec γ} (hC : C.Lawful) {i : Info} {j : Json} (h : infoJson C i = some j) :
    ∃ i', infoOf C j = some i' ∧ Info.Sent C i i' := by
  unfold infoJson at h
  split at h
  · rename_i args kwargs ha hk
    simp only [Option.some.injEq] at h
    subst h
    refine ⟨{ i with args := pyList args, kwargs := pyItems kwargs }, ?_, (dumpList_sent _ _ ha).2,
      dumpItems_sent _ _ hk, rfl⟩
    simp [infoOf, field, asBool, asInt, asWhenOpt_whenJson hC]
  · simp at h

theorem infoJson_of_sent {C : Codec γ} {i i' : Info} (h : Info.Sent C i i') : ∃ j, infoJson C i = some j := by
  obtain ⟨a, h1, _⟩ := sent_list h.1
  obtain ⟨b, h2, _⟩ := sent_dict h.2.1
  unfold infoJson
  rw [h1, h2]
  exact ⟨_, rfl⟩

theorem infosOf_infosJson {C : Codec γ} (hC : C.Lawful) : ∀ {l : List Info} {js : List Json},
    infosJson C l = some js → ∃ l', infosOf C js = some l' ∧ Infos.Sent C l l'
  | [], js, h => by simp only [infosJson, Option.some.injEq] at h; subst h; exact ⟨[], rfl, .nil⟩
  | i :: l, js, h => by
    simp only [infosJson] at h
    split at h
    · rename_i j js' h1 h2
      simp only [Option.some.injEq] at h
      subst h
      obtain ⟨i', e1, s1⟩ := infoOf_infoJson hC h1
      obtain ⟨l', e2, s2⟩ := infosOf_infosJson hC h2
      exact ⟨i' :: l', by simp [infosOf, e1, e2], .cons s1 s2⟩
    · simp at h

theorem infosJson_of_sent {C : Codec γ} {l l' : List Info} (h : Infos.Sent C l l') : ∃ js, infosJson C l = some js := by
  induction h with
  | nil => exact ⟨[], rfl⟩
  | cons h _ ih =>
    obtain ⟨j, h1⟩ := infoJson_of_sent h
    obtain ⟨js, h2⟩ := ih
    exact ⟨j :: js, by simp [infosJson, h1, h2]⟩

theorem asWhens_map {C : Codec γ} (hC : C.Lawful) (l : List When) :
    asWhens C (l.map fun w => .str (C.pyd w)) = some l := by
  induction l with
  | nil => rfl
  | cons w l ih => simp [asWhens, asWhen, hC.pyd, ih]

theorem previewOf_previewJson {C : Codec γ} (hC : C.Lawful) {p : Preview} {j : Json} (h : previewJson C p = some j) :
    ∃ p', previewOf C j = some p' ∧ Info.Sent C p.task p'.task ∧ p' = { p with task := p'.task } := by
  unfold previewJson at h
  rw [Option.map_eq_some_iff] at h
  obtain ⟨t, ht, rfl⟩ := h
  obtain ⟨i', e, hs⟩ := infoOf_infoJson hC ht
  refine ⟨{ p with task := i' }, ?_, hs, rfl⟩
  simp [previewOf, field, e, asStr, asWhen, asInt, asBool, hC.pyd, asWhens_map hC]

theorem previewJson_of_sent {C : Codec γ} {p p' : Preview} (h : Info.Sent C p.task p'.task) :
    ∃ j, previewJson C p = some j := by
  obtain ⟨j, e⟩ := infoJson_of_sent h
  exact ⟨_, by rw [previewJson, e]; rfl⟩

/-! ## Requests -/

theorem tokenOk_same (t : Option String) : tokenOk t t = true := by cases t <;> simp [tokenOk]

theorem serve_at {C : Codec γ} {A : Api σ γ} {tok tok' : Option String} {m : String} {path : List Char} {p : List Char}
    {q : List (String × String)} {body : Option Json} {e : Endpoint} {s : σ} (hp : '?' ∉ path)
    (hu : unquote false path = some (String.ofList p)) (hd : dispatch m (segments p) = .inr e)
    (ht : tokenOk tok tok' = true) :
    serve C A tok ⟨m, target path q, body, tok'⟩ s = handle C A q body e s := by
  unfold serve
  simp only [(target_cut hp q).1, (target_cut hp q).2, hu, String.toList_ofList, hd, ht]
  simp

theorem taskPath_no (id : String) {rest : String} (hr : '?' ∉ rest.toList) : '?' ∉ taskPath id rest := by
  unfold taskPath
  intro h
  rcases List.mem_append.1 h with h | h
  · rcases List.mem_append.1 h with h | h
    · revert h; decide
    · exact (quote_no id).2.1 h
  · exact hr h

theorem serve_task {C : Codec γ} {A : Api σ γ} {tok tok' : Option String} {m id rest : String}
    {q : List (String × String)} {body : Option Json} {e : Endpoint} {s : σ} (hl : Literal rest.toList)
    (hd : dispatch m (segments ("/tasks/".toList ++ id.toList ++ rest.toList)) = .inr e)
    (ht : tokenOk tok tok' = true) :
    serve C A tok ⟨m, target (taskPath id rest) q, body, tok'⟩ s = handle C A q body e s :=
  serve_at (taskPath_no id fun h => (hl _ h).2.1 rfl) (unquote_path (by decide) hl id) hd ht

theorem target_nil (path : List Char) : target path [] = path := by simp [target]

theorem goodId_toList {id : String} (h : GoodId id) : id.toList ≠ [] := by
  intro e
  apply h.1
  rw [← String.ofList_toList (s := id), e]

theorem dispatch_detail {id : String} (h : GoodId id) :
    dispatch "GET" (segments ("/tasks/".toList ++ id.toList ++ "".toList)) = .inr (.detail id) := by
  rw [task_segments h]
  simp [dispatch, routes, matchSegs, goodId_toList h]

theorem dispatch_update {id : String} (h : GoodId id) :
    dispatch "PATCH" (segments ("/tasks/".toList ++ id.toList ++ "".toList)) = .inr (.update id) := by
  rw [task_segments h]
  simp [dispatch, routes, matchSegs, goodId_toList h]

theorem segs_rest {id : String} (h : GoodId id) {a : String} (ha : '/' ∉ a.toList) :
    segments ("/tasks/".toList ++ id.toList ++ (String.ofList ('/' :: a.toList)).toList) =
      ["tasks".toList, id.toList, a.toList] := by
  rw [task_segments h]
  simp [split_single ha]

theorem dispatch_preview {id : String} (h : GoodId id) :
    dispatch "GET" (segments ("/tasks/".toList ++ id.toList ++ "/preview".toList)) = .inr (.preview id) := by
  have := segs_rest h (a := "preview") (by decide)
  rw [show String.ofList ('/' :: "preview".toList) = "/preview" from by decide] at this
  rw [this]
  simp [dispatch, routes, matchSegs, goodId_toList h]

theorem dispatch_action {id a : String} (h : GoodId id) (ha : GoodId a) :
    dispatch "POST" ["tasks".toList, id.toList, a.toList] = .inr (.action id a) := by
  simp [dispatch, routes, matchSegs, goodId_toList h, goodId_toList ha]

theorem dispatch_act {id a p : String} (h : GoodId id) (ha : GoodId a) (hp : p = String.ofList ('/' :: a.toList)) :
    dispatch "POST" (segments ("/tasks/".toList ++ id.toList ++ p.toList)) = .inr (.action id a) := by
  rw [hp, segs_rest h ha.2, dispatch_action h ha]

/-! ## Answers -/

theorem received_success (j : Json) : received (success j) = .ok j := by
  simp [received, success, field]

theorem received_error {e : Exc} {st : Nat} {tid : Option String} (hst : 400 ≤ st) :
    received (errorReply e st tid) = .error (remoteError (errorEntries e tid)) := by
  have : ¬ st < 400 := by omega
  unfold received errorReply
  simp only [this, if_false]

theorem errorEntries_cls (e : Exc) (tid : Option String) : strField "error" (errorEntries e tid) = some e.cls := by
  simp [strField, field, errorEntries]

theorem errorEntries_msg (e : Exc) (tid : Option String) : strField "message" (errorEntries e tid) = some e.msg := by
  simp [strField, field, errorEntries]

theorem messageOf_msg {e : Exc} {tid : Option String} (h : e.msg ≠ "") : messageOf (errorEntries e tid) = e.msg := by
  unfold messageOf
  rw [errorEntries_msg]
  simp only [h, ne_eq, not_false_eq_true, if_true]

theorem messageOf_cls {e : Exc} {tid : Option String} (h : e.msg = "") (hc : e.cls ≠ "") :
    messageOf (errorEntries e tid) = e.cls := by
  unfold messageOf
  rw [errorEntries_msg, errorEntries_cls, h]
  simp only [ne_eq, not_true_eq_false, if_false, hc, not_false_eq_true, if_true]

theorem remoteError_other {e : Exc} {tid : Option String} (h : e.cls ∉ keptClasses) :
    remoteError (errorEntries e tid) = .remote (messageOf (errorEntries e tid)) := by
  unfold remoteError
  rw [errorEntries_cls]
  have hk1 : e.cls ≠ "TaskLookupError" := fun h' => h (by simp [keptClasses, h'])
  have hk2 : e.cls ≠ "SchedulerNotRunningError" := fun h' => h (by simp [keptClasses, h'])
  have hk3 : e.cls ≠ "MaximumInstancesError" := fun h' => h (by simp [keptClasses, h'])
  have hk4 : e.cls ≠ "ValueError" := fun h' => h (by simp [keptClasses, h'])
  simp only [hk1, hk2, hk3, hk4, if_false]

theorem error_translated {op : Op γ} {e : Exc} {st : Nat} (he : e.Honest) (hst : 400 ≤ st) :
    ∃ e', received (errorReply e st op.id) = .error e' ∧ Translated op e e' := by
  rw [received_error hst]
  refine ⟨_, rfl, ?_⟩
  generalize hid : op.id = tid
  cases e with
  | lookup i =>
    have : remoteError (errorEntries (.lookup i) tid) = .lookup tid := by
      unfold remoteError
      rw [errorEntries_cls]
      simp only [Exc.cls, if_true]
      cases tid <;> simp [errorEntries, strField, field]
    rw [this, ← hid]
    exact .lookup i
  | notRunning =>
    have : remoteError (errorEntries .notRunning tid) = .notRunning := by
      unfold remoteError
      rw [errorEntries_cls]
      simp only [Exc.cls, String.reduceEq, if_true, if_false]
    rw [this]
    exact .notRunning
  | maxInst id n =>
    have h1 : strField "task_id" (errorEntries (.maxInst id n) tid) = some id := by simp [strField, field, errorEntries]
    have h2 : field "max_instances" (errorEntries (.maxInst id n) tid) = some (.int n) := by simp [field, errorEntries]
    have : remoteError (errorEntries (.maxInst id n) tid) = .maxInst (if id = "" then "unknown" else id) n := by
      unfold remoteError
      rw [errorEntries_cls, h1, h2]
      simp only [Exc.cls, String.reduceEq, if_true, if_false, asInt, Option.getD]
    rw [this]
    by_cases h : id = ""
    · subst h
      exact .maxInstBlank n
    · rw [if_neg h]
      exact .maxInst n h
  | value m =>
    have : remoteError (errorEntries (.value m) tid) = .value (messageOf (errorEntries (.value m) tid)) := by
      unfold remoteError
      rw [errorEntries_cls]
      simp only [Exc.cls, String.reduceEq, if_true, if_false]
    rw [this]
    by_cases h : m = ""
    · have hm : messageOf (errorEntries (.value m) tid) = "ValueError" := messageOf_cls h (by simp [Exc.cls])
      rw [hm, h]
      exact .valueBlank
    · have hm : messageOf (errorEntries (.value m) tid) = m := messageOf_msg h
      rw [hm]
      exact .value h
  | other cls m =>
    have hk : cls ∉ keptClasses := he
    rw [remoteError_other (e := .other cls m) hk]
    by_cases h : m = ""
    · rw [h]
      exact .otherBlank hk
    · have hm : messageOf (errorEntries (.other cls m) tid) = m := messageOf_msg h
      rw [hm]
      exact .other h hk
  | remote m =>
    rw [remoteError_other (e := .remote m) (by simp [keptClasses, Exc.cls])]
    exact .remote _ _ fun h => messageOf_msg h
  | badReply =>
    rw [remoteError_other (e := .badReply) (by simp [keptClasses, Exc.cls])]
    exact .badReply _
  | unsendable =>
    rw [remoteError_other (e := .unsendable) (by simp [keptClasses, Exc.cls])]
    exact .unsendable _

theorem answered_some {C : Codec γ} (hC : C.Lawful) {op : Op γ}
    (hdec : ∀ j i, infoOf C j = some i → decode C op (.ok j) = .ok (.task (some i))) {i : Info} {j : Json}
    (h : infoJson C i = some j) : Answered C op (.ok (.task (some i))) (decode C op (received (success j))) := by
  obtain ⟨i', h1, h2⟩ := infoOf_infoJson hC h
  rw [received_success, hdec j i' h1]
  exact .value (.task h2)

theorem undumpable_task {C : Codec γ} {i : Info} (h : infoJson C i = none) (r' : Ret) :
    ¬ Ret.Sent C (.task (some i)) r' := by
  intro hs
  cases hs with
  | task h' =>
    obtain ⟨j, e⟩ := infoJson_of_sent h'
    rw [h] at e
    cases e

theorem answered_error {C : Codec γ} {op : Op γ} {e : Exc} {st : Nat} (he : e.Honest) (hst : 400 ≤ st)
    (hr : op.Reported) (hdec : ∀ e, decode C op (.error e) = .error e) :
    Answered C op (.error e) (decode C op (received (errorReply e st op.id))) := by
  obtain ⟨e', h1, h2⟩ := error_translated (op := op) he hst
  rw [h1, hdec]
  exact .error hr h2

theorem received_text (n : Nat) : received (.text n) = .error .badReply := rfl

theorem decode_error {C : Codec γ} {op : Op γ} (hr : op.Reported) (e : Exc) : decode C op (.error e) = .error e := by
  cases op <;> first | rfl | exact absurd hr (by simp [Op.Reported])

theorem decode_bad {C : Codec γ} (op : Op γ) : decode C op (.error .badReply) = .error .badReply := by
  cases op <;> rfl

theorem status_ge (e : Exc) : 400 ≤ actionStatus e ∧ 400 ≤ updateStatus e := by
  cases e <;> simp [actionStatus, updateStatus]

theorem errorReply_error {C : Codec γ} {op : Op γ} (hr : op.Reported) (e : Exc) {st : Nat} (hst : 400 ≤ st)
    (tid : Option String) : ∃ e', decode C op (received (errorReply e st tid)) = .error e' := by
  rw [received_error hst, decode_error hr]
  exact ⟨_, rfl⟩

/-- the answer of the actions that return a task -/
theorem answered_snapshot {C : Codec γ} (hC : C.Lawful) {op : Op γ} (hr : op.Reported) (id : String)
    (hdec : ∀ j i, infoOf C j = some i → decode C op (.ok j) = .ok (.task (some i))) {o : Option Info}
    (hnull : o = none → decode C op (.ok .null) = .ok (.task none)) :
    Answered C op (.ok (.task o)) (decode C op (received (snapshotReply C id o))) := by
  cases o with
  | none =>
    rw [snapshotReply, received_success, hnull rfl]
    exact .value .gone
  | some i =>
    unfold snapshotReply
    simp only []
    cases h : infoJson C i with
    | some j => exact answered_some hC hdec h
    | none =>
      obtain ⟨e', he'⟩ := errorReply_error (C := C) hr dumpFailed (st := 400) (by omega) (some id)
      rw [he']
      exact .undumpable (undumpable_task h) _

theorem decode_task {C : Codec γ} {op : Op γ}
    (h : match op with | .detail _ _ | .add _ | .update _ _ _ | .run _ _ _ _ | .pause _ _ | .resume _ _ => True | _ => False)
    (j : Json) (i : Info) (hi : infoOf C j = some i) : decode C op (.ok j) = .ok (.task (some i)) := by
  have h0 : ∀ v, j = .null → infoOf C j = some v → False := by
    rintro v rfl hv
    cases hv
  cases op <;> first
    | exact h.elim
    | (cases j <;> first | exact (h0 i rfl hi).elim | simp [decode, hi])

theorem strField_store (store : Option String) (l : List (String × Json)) :
    strField "store" (storeJson store :: l) = store := by
  cases store <;> simp [strField, field, storeJson, strJson]

/-- `paramOrNone` reads what `given` wrote -/
theorem paramOrNone_given {k : String} {v : Option String} (h : NotBlank v) {l : List (String × String)} :
    paramOrNone k (given k v ++ l) = match v with | some s => some s | none => paramOrNone k l := by
  cases v with
  | none => rfl
  | some s =>
    have hs : s ≠ "" := fun e => h (by rw [e])
    simp [paramOrNone, param, given, hs]

theorem param_given_ne {k k' : String} {v : Option String} (h : k ≠ k') {l : List (String × String)} :
    param k' (given k v ++ l) = param k' l := by
  cases v with
  | none => rfl
  | some s =>
    by_cases hs : s = ""
    · simp [given, hs]
    · simp [param, given, hs, h]

theorem paramOrNone_given_ne {k k' : String} {v : Option String} (h : k ≠ k') {l : List (String × String)} :
    paramOrNone k' (given k v ++ l) = paramOrNone k' l := by
  unfold paramOrNone
  rw [param_given_ne h]

theorem paramOrNone_nil (k : String) : paramOrNone k [] = none := rfl

theorem remote_eq {C : Codec γ} {A : Api σ γ} {wt ct : Option String} {op : Op γ} {s : σ} {r : Req} {x : Reply × σ}
    (h1 : request C ct op = some r) (h2 : serve C A wt r s = x) :
    remote C A wt ct op s = (decode C op (received x.1), x.2) := by
  unfold remote
  rw [h1]
  simp only [h2]

/-- The client's call does on the worker what `op'` does there directly, and is answered accordingly. -/
def Remotely (C : Codec γ) (A : Api σ γ) (tok : Option String) (op op' : Op γ) (s : σ) : Prop :=
  (remote C A tok tok op s).2 = (direct A op' s).2 ∧
  Answered C op (direct A op' s).1 (remote C A tok tok op s).1

theorem remote_run {C : Codec γ} (hC : C.Lawful) (A : Api σ γ) (tok : Option String) {id : String} (hid : GoodId id)
    (store : Option String) (force rf : Bool) (s : σ)
    (hE : ∀ e, (A.run id store force rf s).1 = .error e → e.Honest) :
    Remotely C A tok (.run id store force rf) (.run id store force rf) s := by
  have hserve := serve_task (C := C) (A := A) (tok := tok) (tok' := tok) (m := "POST") (id := id) (rest := "/run") (q := [])
    (body := some (.obj [storeJson store, ("force", .bool force), ("remove_finished", .bool rf)])) (s := s) (by decide)
    (dispatch_act hid (a := "run") ⟨by decide, by decide⟩ (by decide)) (tokenOk_same tok)
  rw [target_nil] at hserve
  unfold Remotely
  rw [remote_eq rfl hserve]
  have hf : boolField "force" true [storeJson store, ("force", .bool force), ("remove_finished", .bool rf)] = force := by
    simp [boolField, field, storeJson]
  have hr : boolField "remove_finished" true [storeJson store, ("force", .bool force), ("remove_finished", .bool rf)] = rf := by
    simp [boolField, field, storeJson]
  unfold handle hAction jsonBody direct
  simp only [strField_store, hf, hr, if_true]
  generalize hA : A.run id store force rf s = r
  rw [hA] at hE
  obtain ⟨res, s'⟩ := r
  cases res with
  | ok o => exact ⟨rfl, answered_snapshot (op := .run id store force rf) hC trivial id (decode_task trivial) fun _ => rfl⟩
  | error e =>
    exact ⟨rfl, answered_error (op := .run id store force rf) (hE e rfl) (status_ge e).1 trivial (decode_error trivial)⟩

theorem remote_pause {C : Codec γ} (hC : C.Lawful) (A : Api σ γ) (tok : Option String) {id : String} (hid : GoodId id)
    (store : Option String) (s : σ) (hE : ∀ e, (A.pause id store s).1 = .error e → e.Honest) :
    Remotely C A tok (.pause id store) (.pause id store) s := by
  have hserve := serve_task (C := C) (A := A) (tok := tok) (tok' := tok) (m := "POST") (id := id) (rest := "/pause")
    (q := []) (body := some (.obj [storeJson store])) (s := s) (by decide)
    (dispatch_act hid (a := "pause") ⟨by decide, by decide⟩ (by decide)) (tokenOk_same tok)
  rw [target_nil] at hserve
  unfold Remotely
  rw [remote_eq rfl hserve]
  unfold handle hAction jsonBody direct
  simp only [strField_store, String.reduceEq, if_true, if_false]
  generalize hA : A.pause id store s = r
  rw [hA] at hE
  obtain ⟨res, s'⟩ := r
  cases res with
  | ok o =>
    exact ⟨rfl, answered_snapshot (op := .pause id store) hC trivial id (o := some o) (decode_task trivial) fun h => by cases h⟩
  | error e => exact ⟨rfl, answered_error (op := .pause id store) (hE e rfl) (status_ge e).1 trivial (decode_error trivial)⟩

theorem remote_resume {C : Codec γ} (hC : C.Lawful) (A : Api σ γ) (tok : Option String) {id : String} (hid : GoodId id)
    (store : Option String) (s : σ) (hE : ∀ e, (A.resume id store s).1 = .error e → e.Honest) :
    Remotely C A tok (.resume id store) (.resume id store) s := by
  have hserve := serve_task (C := C) (A := A) (tok := tok) (tok' := tok) (m := "POST") (id := id) (rest := "/resume")
    (q := []) (body := some (.obj [storeJson store])) (s := s) (by decide)
    (dispatch_act hid (a := "resume") ⟨by decide, by decide⟩ (by decide)) (tokenOk_same tok)
  rw [target_nil] at hserve
  unfold Remotely
  rw [remote_eq rfl hserve]
  unfold handle hAction jsonBody direct
  simp only [strField_store, String.reduceEq, if_true, if_false]
  generalize hA : A.resume id store s = r
  rw [hA] at hE
  obtain ⟨res, s'⟩ := r
  cases res with
  | ok o =>
    exact ⟨rfl, answered_snapshot (op := .resume id store) hC trivial id (decode_task trivial) fun _ => rfl⟩
  | error e => exact ⟨rfl, answered_error (op := .resume id store) (hE e rfl) (status_ge e).1 trivial (decode_error trivial)⟩

theorem remote_remove {C : Codec γ} (A : Api σ γ) (tok : Option String) {id : String} (hid : GoodId id)
    (store : Option String) (s : σ) (hE : ∀ e, (A.remove id store s).1 = .error e → e.Honest) :
    Remotely C A tok (.remove id store) (.remove id store) s := by
  have hserve := serve_task (C := C) (A := A) (tok := tok) (tok' := tok) (m := "POST") (id := id) (rest := "/remove")
    (q := []) (body := some (.obj [storeJson store])) (s := s) (by decide)
    (dispatch_act hid (a := "remove") ⟨by decide, by decide⟩ (by decide)) (tokenOk_same tok)
  rw [target_nil] at hserve
  unfold Remotely
  rw [remote_eq rfl hserve]
  unfold handle hAction jsonBody direct
  simp only [strField_store, String.reduceEq, if_true, if_false]
  generalize hA : A.remove id store s = r
  rw [hA] at hE
  obtain ⟨res, s'⟩ := r
  cases res with
  | ok o =>
    refine ⟨rfl, ?_⟩
    rw [received_success]
    exact .value .done
  | error e => exact ⟨rfl, answered_error (op := .remove id store) (hE e rfl) (status_ge e).1 trivial (decode_error trivial)⟩

theorem remote_update {C : Codec γ} (hC : C.Lawful) (A : Api σ γ) (tok : Option String) {id : String} (hid : GoodId id)
    (store : Option String) {u : List (String × Val)} {d : List (String × Json)} (hd : dumpItems C.iso u = some d) (s : σ)
    (hE : ∀ e, (A.update id store (pyItems d) s).1 = .error e → e.Honest) :
    Remotely C A tok (.update id store u) (.update id store (pyItems d)) s := by
  have hserve := serve_task (C := C) (A := A) (tok := tok) (tok' := tok) (m := "PATCH") (id := id) (rest := "") (q := [])
    (body := some (.obj [storeJson store, ("updates", .obj d)])) (s := s) (by decide) (dispatch_update hid)
    (tokenOk_same tok)
  rw [target_nil] at hserve
  have hreq : request C tok (.update id store u) =
      some ⟨"PATCH", taskPath id "", some (.obj [storeJson store, ("updates", .obj d)]), tok⟩ := by
    simp [request, hd]
  unfold Remotely
  rw [remote_eq hreq hserve]
  have hu : dictField "updates" [storeJson store, ("updates", .obj d)] = some (pyItems d) := by
    simp [dictField, field, storeJson]
  unfold handle hUpdate jsonBody direct
  simp only [strField_store, hu]
  generalize hA : A.update id store (pyItems d) s = r
  rw [hA] at hE
  obtain ⟨res, s'⟩ := r
  cases res with
  | error e =>
    exact ⟨rfl, answered_error (op := .update id store u) (hE e rfl) (status_ge e).2 trivial (decode_error trivial)⟩
  | ok i =>
    simp only []
    cases h : infoJson C i with
    | some j => exact ⟨rfl, answered_some (op := .update id store u) hC (decode_task trivial) h⟩
    | none => exact ⟨rfl, .undumpable (undumpable_task h) _⟩

theorem remote_detail {C : Codec γ} (hC : C.Lawful) (A : Api σ γ) (tok : Option String) {id : String} (hid : GoodId id)
    {store : Option String} (hs : NotBlank store) (s : σ) :
    Remotely C A tok (.detail id store) (.detail id store) s := by
  have hserve := serve_task (C := C) (A := A) (tok := tok) (tok' := tok) (m := "GET") (id := id) (rest := "")
    (q := given "store" store) (body := none) (s := s) (by decide) (dispatch_detail hid) (tokenOk_same tok)
  unfold Remotely
  rw [remote_eq rfl hserve]
  have hst : paramOrNone "store" (given "store" store) = store := by
    have := paramOrNone_given (k := "store") hs (l := [])
    rw [List.append_nil] at this
    rw [this]
    cases store <;> rfl
  unfold handle hDetail direct
  simp only [hst]
  generalize A.detail id store s = r
  obtain ⟨res, s'⟩ := r
  cases res with
  | error e => exact ⟨rfl, .unreported (by simp [Op.Reported])⟩
  | ok o =>
    cases o with
    | none =>
      refine ⟨rfl, ?_⟩
      simp only [received_error (show 400 ≤ 404 by omega)]
      have : remoteError (errorEntries (.lookup (some id)) (some id)) = .lookup (some id) := by
        unfold remoteError
        rw [errorEntries_cls]
        simp only [Exc.cls, if_true]
        simp [errorEntries, strField, field]
      rw [this]
      exact .value .gone
    | some i =>
      simp only []
      cases h : infoJson C i with
      | some j => exact ⟨rfl, answered_some (op := .detail id store) hC (decode_task trivial) h⟩
      | none => exact ⟨rfl, .undumpable (undumpable_task h) _⟩

theorem natRepr_ne_blank (n : Nat) : n.repr ≠ "" := by
  rw [Nat.repr_eq_ofList_toDigits]
  intro h
  have h' := congrArg String.toList h
  rw [String.toList_ofList] at h'
  exact Nat.toDigits_ne_nil h'

theorem repr_ne_blank (n : Int) : n.repr ≠ "" := by
  cases n with
  | ofNat n => exact natRepr_ne_blank n
  | negSucc n =>
    intro h
    have h' := congrArg String.toList h
    simp [Int.repr] at h'

theorem remote_preview {C : Codec γ} (hC : C.Lawful) (A : Api σ γ) (tok : Option String) {id : String} (hid : GoodId id)
    {store : Option String} (hs : NotBlank store) (count : Int) (now : Option When) (s : σ) :
    Remotely C A tok (.preview id store count now) (.preview id store count none) s := by
  obtain ⟨tail, htail, hreq⟩ : ∃ tail : List (String × String), (∀ p ∈ tail, p.1 = "now") ∧ request C tok (.preview id store count now) =
      some ⟨"GET", target (taskPath id "/preview") (("count", count.repr) :: (given "store" store ++ tail)), none, tok⟩ := by
    cases now with
    | none => exact ⟨[], by simp, by simp [request]⟩
    | some w => exact ⟨[("now", C.iso w)], by simp, by simp [request]⟩
  have hserve := serve_task (C := C) (A := A) (tok := tok) (tok' := tok) (m := "GET") (id := id) (rest := "/preview")
    (q := ("count", count.repr) :: (given "store" store ++ tail)) (body := none) (s := s) (by decide) (dispatch_preview hid)
    (tokenOk_same tok)
  unfold Remotely
  rw [remote_eq hreq hserve]
  have hst : paramOrNone "store" (("count", count.repr) :: (given "store" store ++ tail)) = store := by
    have h1 : paramOrNone "store" (("count", count.repr) :: (given "store" store ++ tail)) =
        paramOrNone "store" (given "store" store ++ tail) := by simp [paramOrNone, param]
    have hn : paramOrNone "store" tail = none := by
      unfold paramOrNone param
      rw [List.find?_eq_none.2 (fun p hp => by simp [htail p hp])]
      rfl
    rw [h1, paramOrNone_given hs, hn]
    cases store <;> rfl
  have hne : count.repr ≠ "" := by
    intro e
    exact repr_ne_blank count e
  have hco : (paramOrNone "count" (("count", count.repr) :: (given "store" store ++ tail))).elim (some 5) String.toInt? =
      some count := by
    have : paramOrNone "count" (("count", count.repr) :: (given "store" store ++ tail)) = some count.repr := by
      simp [paramOrNone, param, hne]
    rw [this]
    exact Int.toInt?_repr count
  unfold handle hPreview direct
  simp only [hst, hco]
  generalize A.preview id store count none s = r
  obtain ⟨res, s'⟩ := r
  cases res with
  | error e => exact ⟨rfl, .unreported (by simp [Op.Reported])⟩
  | ok o =>
    cases o with
    | none =>
      refine ⟨rfl, ?_⟩
      simp only [received_error (show 400 ≤ 404 by omega)]
      have : remoteError (errorEntries (.lookup (some id)) (some id)) = .lookup (some id) := by
        unfold remoteError
        rw [errorEntries_cls]
        simp only [Exc.cls, if_true]
        simp [errorEntries, strField, field]
      rw [this]
      exact .value .noPreview
    | some p =>
      simp only []
      cases h : previewJson C p with
      | some j =>
        refine ⟨rfl, ?_⟩
        obtain ⟨p', h1, h2, h3⟩ := previewOf_previewJson hC h
        simp only [received_success]
        have : decode C (.preview id store count now) (.ok j) = .ok (.preview (some p')) := by
          cases j <;> simp [decode, h1]
        rw [this]
        exact .value (.preview h2 h3)
      | none =>
        refine ⟨rfl, .undumpable (fun r' hr => ?_) _⟩
        cases hr with
        | preview h' =>
          obtain ⟨j, e⟩ := previewJson_of_sent h'
          rw [h] at e
          cases e


theorem remote_info {C : Codec γ} (A : Api σ γ) (tok : Option String) (s : σ) :
    Remotely C A tok .info .info s := by
  have hserve := serve_at (C := C) (A := A) (tok := tok) (tok' := tok) (m := "GET") (path := "/info".toList)
    (p := "/info".toList) (q := []) (body := none) (e := .info) (s := s) (by decide) (unquote_plain (by decide)) (by decide)
    (tokenOk_same tok)
  rw [target_nil] at hserve
  unfold Remotely
  rw [remote_eq rfl hserve]
  unfold handle hInfo direct
  generalize A.info s = r
  obtain ⟨res, s'⟩ := r
  cases res with
  | error e => exact ⟨rfl, .unreported (by simp [Op.Reported])⟩
  | ok j =>
    refine ⟨rfl, ?_⟩
    simp only [received_success]
    exact .value (.info j)

theorem remote_instances {C : Codec γ} (A : Api σ γ) (tok : Option String) (s : σ) :
    Remotely C A tok .instances .instances s := by
  have hserve := serve_at (C := C) (A := A) (tok := tok) (tok' := tok) (m := "GET") (path := "/instances".toList)
    (p := "/instances".toList) (q := []) (body := none) (e := .instances) (s := s) (by decide) (unquote_plain (by decide))
    (by decide) (tokenOk_same tok)
  rw [target_nil] at hserve
  unfold Remotely
  rw [remote_eq rfl hserve]
  unfold handle hInstances direct
  generalize A.instances s = r
  obtain ⟨res, s'⟩ := r
  cases res with
  | error e => exact ⟨rfl, .unreported (by simp [Op.Reported])⟩
  | ok j =>
    refine ⟨rfl, ?_⟩
    simp only [received_success]
    exact .value (.instances j)

theorem remote_infos {C : Codec γ} (hC : C.Lawful) (A : Api σ γ) (tok : Option String) {f : Filter}
    (hf : (Op.infos f : Op γ).Sendable) (s : σ) (hE : ∀ e, (A.infos f s).1 = .error e → e.Honest) :
    Remotely C A tok (.infos f) (.infos f) s := by
  obtain ⟨h1, h2, h3, h4, h5, h6⟩ := hf
  have hsb : NotBlank (some f.sortBy) := fun h => h6 (by simpa using h)
  have hserve := serve_at (C := C) (A := A) (tok := tok) (tok' := tok) (m := "GET") (path := "/tasks".toList)
    (p := "/tasks".toList) (q := given "store" f.store ++ (given "schedule_state" f.state ++ (given "executor" f.executor ++
       (given "trigger" f.trigger ++ (given "q" f.q ++ (given "sort_by" (some f.sortBy) ++
       (given "descending" (some (if f.desc then "true" else "false")) ++ []))))))) (body := none) (e := .tasks) (s := s)
    (by decide) (unquote_plain (by decide)) (by decide) (tokenOk_same tok)
  have hreq : request C tok (.infos f) = some ⟨"GET", target "/tasks".toList (given "store" f.store ++
       (given "schedule_state" f.state ++ (given "executor" f.executor ++
       (given "trigger" f.trigger ++ (given "q" f.q ++ (given "sort_by" (some f.sortBy) ++
       (given "descending" (some (if f.desc then "true" else "false")) ++ []))))))), none, tok⟩ := by
    simp [request]
  unfold Remotely
  rw [remote_eq hreq hserve]
  have hdesc : isTrue (param "descending" (given "descending" (some (if f.desc then "true" else "false")) ++ [])) =
      f.desc := by
    cases f.desc <;> decide
  have hopt : ∀ (k : String) (v : Option String) (l : List (String × String)), NotBlank v → paramOrNone k l = none →
      paramOrNone k (given k v ++ l) = v := by
    intro k v l hv hl
    rw [paramOrNone_given hv]
    cases v with
    | none => exact hl
    | some x => rfl
  have hnil : ∀ (k : String), k ≠ "descending" →
      paramOrNone k (given "descending" (some (if f.desc then "true" else "false")) ++ []) = none := by
    intro k hk
    rw [paramOrNone_given_ne (Ne.symm hk), paramOrNone_nil]
  unfold handle hTasks direct
  have e1 : Filter.mk f.store f.state f.executor f.trigger f.q f.sortBy f.desc = f := rfl
  simp only []
  rw [hopt "store" f.store _ h1 (by
      rw [paramOrNone_given_ne (by decide), paramOrNone_given_ne (by decide), paramOrNone_given_ne (by decide),
        paramOrNone_given_ne (by decide), paramOrNone_given_ne (by decide), hnil _ (by decide)]),
    paramOrNone_given_ne (k' := "schedule_state") (by decide), hopt "schedule_state" f.state _ h2 (by
      rw [paramOrNone_given_ne (by decide), paramOrNone_given_ne (by decide), paramOrNone_given_ne (by decide),
        paramOrNone_given_ne (by decide), hnil _ (by decide)]),
    paramOrNone_given_ne (k' := "executor") (by decide), paramOrNone_given_ne (k' := "executor") (by decide),
    hopt "executor" f.executor _ h3 (by
      rw [paramOrNone_given_ne (by decide), paramOrNone_given_ne (by decide), paramOrNone_given_ne (by decide),
        hnil _ (by decide)]),
    paramOrNone_given_ne (k' := "trigger") (by decide), paramOrNone_given_ne (k' := "trigger") (by decide),
    paramOrNone_given_ne (k' := "trigger") (by decide), hopt "trigger" f.trigger _ h4 (by
      rw [paramOrNone_given_ne (by decide), paramOrNone_given_ne (by decide), hnil _ (by decide)]),
    paramOrNone_given_ne (k' := "q") (by decide), paramOrNone_given_ne (k' := "q") (by decide),
    paramOrNone_given_ne (k' := "q") (by decide), paramOrNone_given_ne (k' := "q") (by decide),
    hopt "q" f.q _ h5 (by rw [paramOrNone_given_ne (by decide), hnil _ (by decide)]),
    paramOrNone_given_ne (k' := "sort_by") (by decide), paramOrNone_given_ne (k' := "sort_by") (by decide),
    paramOrNone_given_ne (k' := "sort_by") (by decide), paramOrNone_given_ne (k' := "sort_by") (by decide),
    paramOrNone_given_ne (k' := "sort_by") (by decide), hopt "sort_by" (some f.sortBy) _ hsb (hnil _ (by decide)),
    param_given_ne (k' := "descending") (by decide), param_given_ne (k' := "descending") (by decide),
    param_given_ne (k' := "descending") (by decide), param_given_ne (k' := "descending") (by decide),
    param_given_ne (k' := "descending") (by decide), param_given_ne (k' := "descending") (by decide), hdesc]
  simp only [Option.getD, e1]
  generalize hA : A.infos f s = r
  rw [hA] at hE
  obtain ⟨res, s'⟩ := r
  cases res with
  | error e =>
    exact ⟨rfl, answered_error (op := .infos f) (hE e rfl) (by omega) trivial (decode_error trivial)⟩
  | ok l =>
    simp only []
    cases h : infosJson C l with
    | some js =>
      refine ⟨rfl, ?_⟩
      obtain ⟨l', h1, h2⟩ := infosOf_infosJson hC h
      simp only [received_success, decode, h1]
      exact .value (.infos h2)
    | none =>
      refine ⟨rfl, ?_⟩
      obtain ⟨e', he'⟩ := errorReply_error (C := C) (op := .infos f) trivial dumpFailed (st := 400) (by omega) none
      rw [he']
      refine .undumpable (fun r' hr => ?_) _
      cases hr with
      | infos h' =>
        obtain ⟨j, e⟩ := infosJson_of_sent h'
        rw [h] at e
        cases e

theorem field_append (k : String) (a b : List (String × Json)) : field k (a ++ b) = (field k a).or (field k b) := by
  unfold field
  rw [List.find?_append]
  cases a.find? fun p => p.1 == k <;> rfl

theorem field_other {k k' : String} {l : List (String × Json)} (h : ∀ p ∈ l, p.1 = k') (hk : k' ≠ k) :
    field k l = none := by
  unfold field
  rw [List.find?_eq_none.2 (fun p hp => by simpa [h p hp] using hk)]
  rfl

/-- the entry `k` of the payload of `add_task` when it comes from `optEntry` -/
theorem optEntry_cases {C : Codec γ} {k : String} {v : Option Val} {l : List (String × Json)} (hn : v ≠ some .none)
    (h : optEntry C k v = some l) :
    (v = none ∧ l = []) ∨ ∃ w j, v = some w ∧ dumpJson C.iso w = some j ∧ l = [(k, j)] := by
  cases v with
  | none => simp only [optEntry, Option.some.injEq] at h; exact .inl ⟨rfl, h.symm⟩
  | some w =>
    have : optEntry C k (some w) = (dumpJson C.iso w).map fun j => [(k, j)] := by
      cases w <;> first | rfl | exact absurd rfl hn
    rw [this, Option.map_eq_some_iff] at h
    obtain ⟨j, h1, h2⟩ := h
    exact .inr ⟨w, j, rfl, h1, h2.symm⟩

theorem optEntry_read {C : Codec γ} {k : String} {v : Option Val} {l : List (String × Json)} (hn : v ≠ some .none)
    (h : optEntry C k v = some l) : (∀ p ∈ l, p.1 = k) ∧ OptSent C v ((field k l).map Json.py) := by
  rcases optEntry_cases hn h with ⟨rfl, rfl⟩ | ⟨w, j, rfl, h1, rfl⟩
  · exact ⟨by simp, trivial⟩
  · refine ⟨by simp, ?_⟩
    simp only [field, List.find?_cons, beq_self_eq_true, Option.map_some]
    exact dump_sent C.iso w h1

theorem optStr_read (k : String) (v : Option String) : (∀ p ∈ optStr k v, p.1 = k) ∧ strField k (optStr k v) = v := by
  cases v <;> simp [optStr, strField, field]

theorem strField_eq (k : String) (l : List (String × Json)) :
    strField k l = (field k l).bind fun | .str s => some s | _ => none := by
  unfold strField
  cases field k l with
  | none => rfl
  | some j => cases j <;> rfl

theorem field_optStr (k : String) (v : Option String) : field k (optStr k v) = v.map .str := by
  cases v <;> simp [optStr, field]

/-- what the worker reads from the payload of `add_task` -/
theorem add_read {C : Codec γ} (hC : C.Lawful) {a : Add γ} (ha : (Op.add a : Op γ).Sendable) {kv : List (String × Json)}
    (h : addPayload C a = some (.obj kv)) :
    ∃ b : Add γ, Op.Sent C (.add a) (.add b) ∧ dictField "trigger_args" kv = some b.trigArgs ∧
      triggerField C kv = some b.trigger ∧
      b = { fn := (strField "fn" kv).getD "", trigger := b.trigger, trigArgs := b.trigArgs,
            args := listField "args" kv, kwargs := (dictField "kwargs" kv).getD [],
            replace := boolField "replace_existing" false kv,
            id := strField "id" kv, name := strField "name" kv, store := strField "store" kv,
            executor := strField "executor" kv,
            grace := (field "mistrigger_grace_time" kv).map Json.py, coalesce := (field "coalesce" kv).map Json.py,
            maxInst := (field "max_instances" kv).map Json.py, nextRun := (field "next_run_time" kv).map Json.py } := by
  obtain ⟨g1, g2, g3, g4, g5⟩ := ha
  unfold addPayload at h
  simp only [Option.bind_eq_bind, Option.bind_eq_some_iff, Option.some.injEq, Json.obj.injEq] at h
  obtain ⟨args, h1, kwargs, h2, trig, h3, grace, h4, co, h5, mx, h6, nx, h7, rfl⟩ := h
  obtain ⟨kgr, sgr⟩ := optEntry_read g1 h4
  obtain ⟨kco, sco⟩ := optEntry_read g2 h5
  obtain ⟨kmx, smx⟩ := optEntry_read g3 h6
  obtain ⟨knx, snx⟩ := optEntry_read g4 h7
  have kid := (optStr_read "id" a.id).1
  have kname := (optStr_read "name" a.name).1
  have kst := (optStr_read "store" a.store).1
  have kex := (optStr_read "executor" a.executor).1
  have hbase : ∀ k, field k [("fn", Json.str a.fn), ("args", .arr args), ("kwargs", .obj kwargs),
      ("replace_existing", .bool a.replace)] = if "fn" = k then some (.str a.fn) else if "args" = k then some (.arr args)
        else if "kwargs" = k then some (.obj kwargs) else if "replace_existing" = k then some (.bool a.replace) else none := by
    intro k
    simp only [field, List.find?_cons, List.find?_nil]
    by_cases c1 : "fn" = k
    · simp [c1]
    by_cases c2 : "args" = k
    · simp [c1, c2, beq_eq_false_iff_ne.2 c1]
    by_cases c3 : "kwargs" = k
    · simp [c1, c2, c3, beq_eq_false_iff_ne.2 c1, beq_eq_false_iff_ne.2 c2]
    by_cases c4 : "replace_existing" = k
    · simp [c1, c2, c3, c4, beq_eq_false_iff_ne.2 c1, beq_eq_false_iff_ne.2 c2, beq_eq_false_iff_ne.2 c3]
    · simp [c1, c2, c3, c4, beq_eq_false_iff_ne.2 c1, beq_eq_false_iff_ne.2 c2, beq_eq_false_iff_ne.2 c3,
        beq_eq_false_iff_ne.2 c4]
  obtain ⟨b', hb1, hb2, hb3, hb4, hb5⟩ : ∃ b' : Add γ, (∀ p ∈ trig, p.1 = "trigger" ∨ p.1 = "trigger_args" ∨ p.1 = "trigger_pickle") ∧
      Sent C.iso (.dict a.trigArgs) (.dict b'.trigArgs) ∧ dictField "trigger_args" trig = some b'.trigArgs ∧
      triggerField C trig = some b'.trigger ∧ b'.trigger = a.trigger := by
    unfold triggerEntries at h3
    cases ht : a.trigger with
    | name n =>
      rw [ht] at h3
      simp only [Option.map_eq_some_iff] at h3
      obtain ⟨d, hd, rfl⟩ := h3
      refine ⟨{ a with trigArgs := pyItems d }, by simp, dumpItems_sent _ _ hd, by simp [dictField, field], ?_, ht⟩
      cases n <;> simp [triggerField, strField, field, strJson, ht]
    | object g =>
      rw [ht] at h3
      simp only [Option.some.injEq] at h3
      subst h3
      have h0 := g5 g ht
      refine ⟨a, by simp, by rw [h0]; exact .dictNil, by simp [dictField, field, h0], ?_, ht⟩
      simp [triggerField, strField, field, hC.pickle, hC.unpickle, ht]
  have ktr : ∀ k, k ≠ "trigger" → k ≠ "trigger_args" → k ≠ "trigger_pickle" → field k trig = none := by
    intro k c1 c2 c3
    unfold field
    rw [List.find?_eq_none.2 (fun p hp => ?_)]
    · rfl
    · intro hpk
      have hpk' : p.1 = k := by simpa using hpk
      rcases hb1 p hp with e | e | e
      · exact c1 (hpk'.symm.trans e)
      · exact c2 (hpk'.symm.trans e)
      · exact c3 (hpk'.symm.trans e)
  generalize hkv : [("fn", Json.str a.fn), ("args", .arr args), ("kwargs", .obj kwargs),
      ("replace_existing", .bool a.replace)] ++ trig ++ optStr "id" a.id ++ optStr "name" a.name ++ grace ++ co ++ mx ++
      nx ++ optStr "store" a.store ++ optStr "executor" a.executor = kv
  have F : ∀ k, field k kv = (((((((((field k [("fn", Json.str a.fn), ("args", .arr args), ("kwargs", .obj kwargs),
      ("replace_existing", .bool a.replace)]).or (field k trig)).or (field k (optStr "id" a.id))).or
      (field k (optStr "name" a.name))).or (field k grace)).or (field k co)).or (field k mx)).or (field k nx)).or
      (field k (optStr "store" a.store))).or (field k (optStr "executor" a.executor)) := by
    intro k
    rw [← hkv]
    simp only [field_append]
  have ffn : field "fn" kv = some (.str a.fn) := by rw [F, hbase]; simp
  have fargs : field "args" kv = some (.arr args) := by rw [F, hbase]; simp
  have fkw : field "kwargs" kv = some (.obj kwargs) := by rw [F, hbase]; simp
  have frep : field "replace_existing" kv = some (.bool a.replace) := by rw [F, hbase]; simp
  have ftr : ∀ k, k ∈ ["trigger", "trigger_args", "trigger_pickle"] → field k kv = field k trig := by
    intro k hk
    have : k = "trigger" ∨ k = "trigger_args" ∨ k = "trigger_pickle" := by simpa using hk
    rw [F, hbase]
    rcases this with rfl | rfl | rfl <;>
    · rw [field_other kid (by decide), field_other kname (by decide), field_other kgr (by decide),
        field_other kco (by decide), field_other kmx (by decide), field_other knx (by decide), field_other kst (by decide),
        field_other kex (by decide)]
      simp
  have fid : field "id" kv = a.id.map .str := by
    rw [F, hbase, ktr _ (by decide) (by decide) (by decide), field_optStr, field_other kname (by decide), field_other kgr (by decide),
        field_other kco (by decide), field_other kmx (by decide), field_other knx (by decide), field_other kst (by decide),
        field_other kex (by decide)]
    simp
  have fname : field "name" kv = a.name.map .str := by
    rw [F, hbase, ktr _ (by decide) (by decide) (by decide), field_other kid (by decide), field_optStr, field_other kgr (by decide),
        field_other kco (by decide), field_other kmx (by decide), field_other knx (by decide), field_other kst (by decide),
        field_other kex (by decide)]
    simp
  have fst : field "store" kv = a.store.map .str := by
    rw [F, hbase, ktr _ (by decide) (by decide) (by decide), field_other kid (by decide), field_other kname (by decide),
        field_other kgr (by decide),
        field_other kco (by decide), field_other kmx (by decide), field_other knx (by decide), field_optStr,
        field_other kex (by decide)]
    simp
  have fex : field "executor" kv = a.executor.map .str := by
    rw [F, hbase, ktr _ (by decide) (by decide) (by decide), field_other kid (by decide), field_other kname (by decide),
        field_other kgr (by decide),
        field_other kco (by decide), field_other kmx (by decide), field_other knx (by decide), field_other kst (by decide),
        field_optStr]
    simp
  have fgr : field "mistrigger_grace_time" kv = field "mistrigger_grace_time" grace := by
    rw [F, hbase, ktr _ (by decide) (by decide) (by decide), field_other kid (by decide), field_other kname (by decide),
        field_other kco (by decide), field_other kmx (by decide), field_other knx (by decide), field_other kst (by decide),
        field_other kex (by decide)]
    simp
  have fco : field "coalesce" kv = field "coalesce" co := by
    rw [F, hbase, ktr _ (by decide) (by decide) (by decide), field_other kid (by decide), field_other kname (by decide),
        field_other kgr (by decide), field_other kmx (by decide), field_other knx (by decide), field_other kst (by decide),
        field_other kex (by decide)]
    simp
  have fmx : field "max_instances" kv = field "max_instances" mx := by
    rw [F, hbase, ktr _ (by decide) (by decide) (by decide), field_other kid (by decide), field_other kname (by decide),
        field_other kgr (by decide), field_other kco (by decide), field_other knx (by decide), field_other kst (by decide),
        field_other kex (by decide)]
    simp
  have fnx : field "next_run_time" kv = field "next_run_time" nx := by
    rw [F, hbase, ktr _ (by decide) (by decide) (by decide), field_other kid (by decide), field_other kname (by decide),
        field_other kgr (by decide), field_other kco (by decide), field_other kmx (by decide), field_other kst (by decide),
        field_other kex (by decide)]
    simp
  have hs : ∀ (k : String) (v : Option String), field k kv = v.map .str → strField k kv = v := by
    intro k v hv
    rw [strField_eq, hv]
    cases v <;> rfl
  refine ⟨{ a with
      args := pyList args, kwargs := pyItems kwargs, trigArgs := b'.trigArgs,
      grace := (field "mistrigger_grace_time" grace).map Json.py, coalesce := (field "coalesce" co).map Json.py,
      maxInst := (field "max_instances" mx).map Json.py, nextRun := (field "next_run_time" nx).map Json.py }, ?_, ?_, ?_, ?_⟩
  · exact .add (dumpList_sent _ _ h1).2 (dumpItems_sent _ _ h2) hb2 sgr sco smx snx rfl
  · rw [← hb3]
    unfold dictField
    rw [ftr _ (by simp)]
  · have : triggerField C kv = triggerField C trig := by
      unfold triggerField strField
      rw [ftr "trigger_pickle" (by simp), ftr "trigger" (by simp)]
    rw [this, hb4, hb5]
  · rw [hs "id" _ fid, hs "name" _ fname, hs "store" _ fst, hs "executor" _ fex, fgr, fco, fmx, fnx,
      hs "fn" (some a.fn) ffn]
    simp [listField, dictField, boolField, fargs, fkw, frep]

theorem addPayload_obj {C : Codec γ} {a : Add γ} {j : Json} (h : addPayload C a = some j) : ∃ kv, j = .obj kv := by
  unfold addPayload at h
  simp only [Option.bind_eq_bind, Option.bind_eq_some_iff, Option.some.injEq] at h
  obtain ⟨_, _, _, _, _, _, _, _, _, _, _, _, _, _, rfl⟩ := h
  exact ⟨_, rfl⟩

theorem remote_add {C : Codec γ} (hC : C.Lawful) (A : Api σ γ) (tok : Option String) {a : Add γ}
    (ha : (Op.add a : Op γ).Sendable) {j : Json} (hj : addPayload C a = some j) (s : σ) (hE : A.Honest) :
    ∃ b, Op.Sent C (.add a) (.add b) ∧ Remotely C A tok (.add a) (.add b) s := by
  obtain ⟨kv, rfl⟩ := addPayload_obj hj
  obtain ⟨b, hb1, hb2, hb3, hb4⟩ := add_read hC ha hj
  refine ⟨b, hb1, ?_⟩
  have hserve := serve_at (C := C) (A := A) (tok := tok) (tok' := tok) (m := "POST") (path := "/tasks".toList)
    (p := "/tasks".toList) (q := []) (body := some (.obj kv)) (e := .addTask) (s := s) (by decide) (unquote_plain (by decide))
    (by decide) (tokenOk_same tok)
  rw [target_nil] at hserve
  have hreq : request C tok (.add a) = some ⟨"POST", "/tasks".toList, some (.obj kv), tok⟩ := by
    simp [request, hj]
  have hE := hE (.add b) s
  unfold Remotely
  rw [remote_eq hreq hserve]
  unfold handle hAdd jsonBody
  simp only [hb2, hb3]
  unfold direct at hE ⊢
  simp only [] at hE ⊢
  rw [← hb4]
  generalize A.add b s = r at hE ⊢
  obtain ⟨res, s'⟩ := r
  cases res with
  | error e =>
    exact ⟨rfl, answered_error (op := .add a) (hE e rfl) (by omega) trivial (decode_error trivial)⟩
  | ok i =>
    simp only []
    cases h : infoJson C i with
    | some j => exact ⟨rfl, answered_some (op := .add a) hC (decode_task trivial) h⟩
    | none => exact ⟨rfl, .undumpable (undumpable_task h) _⟩

theorem optEntry_of_sent {C : Codec γ} {k : String} {v v' : Option Val} (h : OptSent C v v') :
    ∃ l, optEntry C k v = some l := by
  cases v with
  | none => exact ⟨_, rfl⟩
  | some w =>
    cases v' with
    | none => exact h.elim
    | some w' =>
      obtain ⟨j, h1, _⟩ := sent_dump h
      cases w <;> first | exact ⟨[], rfl⟩ | exact ⟨_, by simp only [optEntry]; rw [h1]; rfl⟩

theorem addPayload_of_sent {C : Codec γ} {a b : Add γ} (h : Op.Sent C (.add a) (.add b)) :
    ∃ j, addPayload C a = some j := by
  cases h with
  | same _ h => exact h.elim
  | add h1 h2 h3 h4 h5 h6 h7 _ =>
    obtain ⟨x1, e1, _⟩ := sent_list h1
    obtain ⟨x2, e2, _⟩ := sent_dict h2
    obtain ⟨x3, e3, _⟩ := sent_dict h3
    obtain ⟨x4, e4⟩ := optEntry_of_sent (k := "mistrigger_grace_time") h4
    obtain ⟨x5, e5⟩ := optEntry_of_sent (k := "coalesce") h5
    obtain ⟨x6, e6⟩ := optEntry_of_sent (k := "max_instances") h6
    obtain ⟨x7, e7⟩ := optEntry_of_sent (k := "next_run_time") h7
    obtain ⟨x8, e8⟩ : ∃ t, triggerEntries C a.trigArgs a.trigger = some t := by
      unfold triggerEntries
      cases a.trigger with
      | name n => exact ⟨_, by simp only [e3]; rfl⟩
      | object g => exact ⟨_, rfl⟩
    exact ⟨_, by simp only [addPayload, e1, e2, e4, e5, e6, e7, e8, Option.bind_eq_bind, Option.bind_some]; rfl⟩

/-- **C65.** A call of the remote client on which nothing is lost at the boundary does to the worker's scheduler exactly
what the same call does there directly (with arguments that have crossed a JSON boundary), and returns its result or raises
its exception; a call whose arguments are not JSON does nothing.  Partial: `Sendable` excludes ids with a slash, explicit
`None`s for a new task and the `now` of previews, and `Answered` allows what the worker does not report; see the theorems
below. -/
theorem C65_remote_partial {C : Codec γ} (hC : C.Lawful) {A : Api σ γ} (hA : A.Honest) (tok : Option String) {op : Op γ}
    (hop : op.Sendable) (s : σ) :
    (∃ op', Op.Sent C op op' ∧ (remote C A tok tok op s).2 = (direct A op' s).2 ∧
      Answered C op (direct A op' s).1 (remote C A tok tok op s).1) ∨
    ((∀ op', ¬ Op.Sent C op op') ∧ remote C A tok tok op s = (.error .unsendable, s)) := by
  have hmap : ∀ {α : Type} {f : α → Ret} {r : Except Exc α} {e : Exc}, r = .error e → r.map f = .error e := by
    rintro α f r e rfl; rfl
  cases op with
  | info => exact .inl ⟨_, .same _ trivial, remote_info A tok s⟩
  | instances => exact .inl ⟨_, .same _ trivial, remote_instances A tok s⟩
  | infos f => exact .inl ⟨_, .same _ trivial, remote_infos hC A tok hop s fun e he => hA (.infos f) s e (hmap he)⟩
  | detail id store => exact .inl ⟨_, .same _ trivial, remote_detail hC A tok hop.1 hop.2 s⟩
  | preview id store count now =>
    obtain ⟨h1, h2, rfl⟩ := hop
    exact .inl ⟨_, .same _ trivial, remote_preview hC A tok h1 h2 count none s⟩
  | add a =>
    cases h : addPayload C a with
    | some j =>
      obtain ⟨b, h1, h2⟩ := remote_add hC A tok hop h s hA
      exact .inl ⟨_, h1, h2⟩
    | none =>
      refine .inr ⟨fun op' hs => ?_, ?_⟩
      · cases hs with
        | same _ h => exact h
        | add h1 h2 h3 h4 h5 h6 h7 he =>
          obtain ⟨j, hj⟩ := addPayload_of_sent (.add h1 h2 h3 h4 h5 h6 h7 he)
          rw [h] at hj
          cases hj
      · simp [remote, request, h]
  | update id store u =>
    cases h : dumpItems C.iso u with
    | some d =>
      exact .inl ⟨_, .update id store (dumpItems_sent _ _ h), remote_update hC A tok hop store h s
        fun e he => hA (.update id store (pyItems d)) s e (hmap he)⟩
    | none =>
      refine .inr ⟨fun op' hs => ?_, ?_⟩
      · cases hs with
        | same _ h => exact h
        | update _ _ h' =>
          obtain ⟨j, hj, _⟩ := sent_dict h'
          rw [h] at hj
          cases hj
      · simp [remote, request, h]
  | run id store f rf =>
    exact .inl ⟨_, .same _ trivial, remote_run hC A tok hop store f rf s fun e he => hA (.run id store f rf) s e (hmap he)⟩
  | pause id store =>
    exact .inl ⟨_, .same _ trivial, remote_pause hC A tok hop store s fun e he => hA (.pause id store) s e (hmap he)⟩
  | resume id store =>
    exact .inl ⟨_, .same _ trivial, remote_resume hC A tok hop store s fun e he => hA (.resume id store) s e (hmap he)⟩
  | remove id store =>
    exact .inl ⟨_, .same _ trivial, remote_remove A tok hop store s fun e he => hA (.remove id store) s e (hmap he)⟩

theorem plain_list_unique {iso : When → String} {xs ys : List Val} (hp : ∀ v ∈ xs, Plain v)
    (h : Sent iso (.list xs) (.list ys)) : ys = xs := by
  have := Sent.unique h (Plain.sent (.list hp))
  simpa using this

theorem plain_dict_unique {iso : When → String} {xs ys : List (String × Val)} (hp : ∀ p ∈ xs, Plain p.2)
    (h : Sent iso (.dict xs) (.dict ys)) : ys = xs := by
  have := Sent.unique h (Plain.sent (.dict hp))
  simpa using this

theorem OptSent.unique {C : Codec γ} {v v' : Option Val} (hp : ∀ w, v = some w → Plain w) (h : OptSent C v v') :
    v' = v := by
  cases v with
  | none =>
    cases v' with
    | none => rfl
    | some w => exact h.elim
  | some w =>
    cases v' with
    | none => exact h.elim
    | some w' =>
      have h' : Sent C.iso w w' := h
      rw [Sent.unique h' (Plain.sent (hp w rfl))]

theorem Op.Sent.unique_of_plain {C : Codec γ} {op op' : Op γ} (hp : op.Plain) (h : Op.Sent C op op') : op' = op := by
  cases h with
  | same _ _ => rfl
  | update id store h => rw [plain_dict_unique hp h]
  | add h1 h2 h3 h4 h5 h6 h7 he =>
    obtain ⟨p1, p2, p3, p4⟩ := hp
    rw [he, plain_list_unique p1 h1, plain_dict_unique p2 h2, plain_dict_unique p3 h3,
      OptSent.unique (fun w hw => p4 w (.inl hw)) h4, OptSent.unique (fun w hw => p4 w (.inr (.inl hw))) h5,
      OptSent.unique (fun w hw => p4 w (.inr (.inr (.inl hw)))) h6,
      OptSent.unique (fun w hw => p4 w (.inr (.inr (.inr hw)))) h7]

theorem Op.Plain.sent {C : Codec γ} {op : Op γ} (hp : op.Plain) : Op.Sent C op op := by
  cases op with
  | add a =>
    obtain ⟨p1, p2, p3, p4⟩ := hp
    have ho : ∀ v : Option Val, (∀ w, v = some w → Remote.Plain w) → OptSent C v v := by
      intro v hv
      cases v with
      | none => trivial
      | some w => exact Remote.Plain.sent (hv w rfl)
    exact .add (Remote.Plain.sent (.list p1)) (Remote.Plain.sent (.dict p2)) (Remote.Plain.sent (.dict p3))
      (ho _ fun w hw => p4 w (.inl hw)) (ho _ fun w hw => p4 w (.inr (.inl hw)))
      (ho _ fun w hw => p4 w (.inr (.inr (.inl hw)))) (ho _ fun w hw => p4 w (.inr (.inr (.inr hw)))) rfl
  | update id store u => exact .update id store (Remote.Plain.sent (.dict hp))
  | _ => exact .same _ trivial

theorem Info.Sent.unique_of_plain {C : Codec γ} {i i' : Info} (hp : i.Plain) (h : Info.Sent C i i') : i' = i := by
  obtain ⟨h1, h2, h3⟩ := h
  rw [h3, plain_list_unique hp.1 h1, plain_dict_unique hp.2 h2]

theorem Info.Plain.sent {C : Codec γ} {i : Info} (hp : i.Plain) : Info.Sent C i i :=
  ⟨Remote.Plain.sent (.list hp.1), Remote.Plain.sent (.dict hp.2), rfl⟩

theorem Infos.unique_of_plain {C : Codec γ} {l l' : List Info} (hp : ∀ i ∈ l, i.Plain) (h : Infos.Sent C l l') : l' = l := by
  induction h with
  | nil => rfl
  | cons h _ ih =>
    rw [h.unique_of_plain (hp _ (List.mem_cons_self ..)), ih fun i hi => hp i (List.mem_cons_of_mem _ hi)]

theorem Infos.plain_sent {C : Codec γ} {l : List Info} (hp : ∀ i ∈ l, i.Plain) : Infos.Sent C l l := by
  induction l with
  | nil => exact .nil
  | cons i l ih =>
    exact .cons (hp i (List.mem_cons_self ..)).sent (ih fun j hj => hp j (List.mem_cons_of_mem _ hj))

theorem Ret.Sent.unique_of_plain {C : Codec γ} {r r' : Ret} (hp : r.Plain) (h : Ret.Sent C r r') : r' = r := by
  cases h with
  | infos h => rw [Infos.unique_of_plain hp h]
  | task h => rw [h.unique_of_plain hp]
  | preview h he =>
    have := h.unique_of_plain hp
    rw [he, this]
  | _ => rfl

theorem Ret.Plain.sent {C : Codec γ} {r : Ret} (hp : r.Plain) : Ret.Sent C r r := by
  cases r with
  | info j => exact .info j
  | instances l => exact .instances l
  | infos l => exact .infos (Infos.plain_sent hp)
  | task o =>
    cases o with
    | none => exact .gone
    | some i => exact .task (Info.Plain.sent hp)
  | preview o =>
    cases o with
    | none => exact .noPreview
    | some p => exact .preview (Info.Plain.sent hp) rfl
  | done => exact .done

/-- **C65, exact form.** With plain arguments, and a result that is plain or one of the four exceptions that keep their
type, a remote call cannot be told from the direct call: same effect, same result, same exception. -/
theorem C65_exact_partial {C : Codec γ} (hC : C.Lawful) {A : Api σ γ} (hA : A.Honest) (tok : Option String) {op : Op γ}
    (hop : op.Sendable) (hp : op.Plain) (s : σ) (hx : Exact op (direct A op s).1) :
    remote C A tok tok op s = direct A op s := by
  rcases C65_remote_partial hC hA tok hop s with ⟨op', h1, h2, h3⟩ | ⟨h1, _⟩
  · have e := h1.unique_of_plain hp
    subst e
    refine Prod.ext ?_ h2
    generalize (remote C A tok tok op' s).1 = x at h3
    generalize (direct A op' s).1 = y at h3 hx
    cases h3 with
    | value h => rw [h.unique_of_plain hx]
    | undumpable h e => exact absurd (Ret.Plain.sent hx) (h _)
    | error hr h =>
      cases h with
      | lookup i => obtain ⟨_, h2⟩ := hx; rw [h2]
      | notRunning => rfl
      | maxInst n h => rfl
      | maxInstBlank n => exact absurd rfl hx.2
      | value h => rfl
      | valueBlank => exact absurd rfl hx.2
      | other _ _ => exact hx.elim
      | otherBlank _ => exact hx.elim
      | remote _ _ _ => exact hx.elim
      | badReply _ => exact hx.elim
      | unsendable _ => exact hx.elim
    | @unreported e hr =>
      cases e with
      | lookup i => exact absurd hx.1 hr
      | notRunning => exact absurd hx hr
      | maxInst n h => exact absurd hx.1 hr
      | value h => exact absurd hx.1 hr
      | other _ _ => exact hx.elim
      | remote _ => exact hx.elim
      | badReply => exact hx.elim
      | unsendable => exact hx.elim
  · exact absurd hp.sent (h1 op)

/-! ## What gets lost -/

theorem remote_add_congr {C : Codec γ} {A : Api σ γ} {wt ct : Option String} {a b : Add γ} (h : addPayload C a = addPayload C b)
    (s : σ) : remote C A wt ct (.add a) s = remote C A wt ct (.add b) s := by
  have hd : ∀ x, decode C (.add a) x = decode C (.add b) x := by
    intro x
    cases x <;> rfl
  have hr : request C ct (.add a) = request C ct (.add b) := by simp only [request, h]
  unfold remote
  rw [hr]
  simp only [hd]

/-- An explicit `None` for a new task is not sent: the worker adds the task as if nothing had been said (so a task meant to
be paused, or without a grace time, gets the defaults). -/
theorem C65_none_dropped (C : Codec γ) (A : Api σ γ) (wt ct : Option String) (a : Add γ) (s : σ) :
    remote C A wt ct (.add { a with nextRun := some .none, grace := some .none, maxInst := some .none }) s =
    remote C A wt ct (.add { a with nextRun := none, grace := none, maxInst := none }) s := by
  apply remote_add_congr
  rfl

/-- The `now` of a preview is ignored by the worker. -/
theorem C65_now_ignored {C : Codec γ} (hC : C.Lawful) (A : Api σ γ) (tok : Option String) {id : String} (hid : GoodId id)
    {store : Option String} (hs : NotBlank store) (count : Int) (now : When) (s : σ) :
    (remote C A tok tok (.preview id store count (some now)) s).2 = (direct A (.preview id store count none) s).2 ∧
    Answered C (.preview id store count (some now)) (direct A (.preview id store count none) s).1
      (remote C A tok tok (.preview id store count (some now)) s).1 :=
  remote_preview hC A tok hid hs count (some now) s

/-- the arguments given beside a trigger object are not sent -/
theorem C65_trigger_args_dropped (C : Codec γ) (A : Api σ γ) (wt ct : Option String) (a : Add γ) (g : γ)
    (x y : List (String × Val)) (s : σ) :
    remote C A wt ct (.add { a with trigger := .object g, trigArgs := x }) s =
    remote C A wt ct (.add { a with trigger := .object g, trigArgs := y }) s := by
  apply remote_add_congr
  rfl

theorem serve_nowhere {C : Codec γ} {A : Api σ γ} {tok tok' : Option String} {m : String} {path p : List Char}
    {q : List (String × String)} {body : Option Json} {st : Nat} {s : σ} (hp : '?' ∉ path)
    (hu : unquote false path = some (String.ofList p)) (hd : dispatch m (segments p) = .inl st) :
    serve C A tok ⟨m, target path q, body, tok'⟩ s = (.text st, s) := by
  unfold serve
  simp only [(target_cut hp q).1, (target_cut hp q).2, hu, String.toList_ofList, hd]

/-- A task whose id contains a slash cannot be reached: the worker answers 405 or 404, whatever the scheduler. -/
theorem C65_slash_unreachable (C : Codec γ) (A : Api σ γ) (tok : Option String) (s : σ) :
    remote C A tok tok (.detail "a/b" none) s = (.error .badReply, s) ∧
    remote C A tok tok (.pause "a/b" none) s = (.error .badReply, s) := by
  constructor
  · have h : serve C A tok ⟨"GET", target (taskPath "a/b" "") [], none, tok⟩ s = (.text 405, s) :=
      serve_nowhere (p := "/tasks/a/b".toList) (taskPath_no _ (by decide))
        (by have := unquote_path (a := "/tasks/".toList) (b := "".toList) (by decide) (by decide) "a/b"
            exact this.trans (by decide)) (by decide)
    exact remote_eq (op := .detail "a/b" none) rfl h
  · have h : serve C A tok ⟨"POST", target (taskPath "a/b" "/pause") [], some (.obj [storeJson none]), tok⟩ s =
        (.text 404, s) :=
      serve_nowhere (p := "/tasks/a/b/pause".toList) (taskPath_no _ (by decide))
        (by have := unquote_path (a := "/tasks/".toList) (b := "/pause".toList) (by decide) (by decide) "a/b"
            exact this.trans (by decide)) (by decide)
    rw [target_nil] at h
    exact remote_eq (op := .pause "a/b" none) rfl h

/-! ## Token -/

/-- **C66.** A request without the worker's token never reaches the scheduler: whatever it is, its answer does not depend on
the scheduler, the scheduler's state does not change, and at every endpoint the answer is 401. -/
theorem C66_token (C : Codec γ) {t : String} {r : Req} (h : r.token ≠ some t) :
    ∃ reply, (∀ {σ : Type} (A : Api σ γ) (s : σ), serve C A (some t) r s = (reply, s)) ∧
      ((∃ b, reply = .json 401 (.obj b) ∧ strField "error" b = some "Unauthorized" ∧ strField "message" b = some "Invalid remote token.") ∨ reply = .text 404 ∨ reply = .text 405) := by
  have ht : tokenOk (some t) r.token = false := by
    simp only [tokenOk]
    exact beq_eq_false_iff_ne.2 h
  unfold serve
  simp only []
  cases unquote false (r.target.takeWhile (· ≠ '?')) with
  | none => exact ⟨_, fun A s => rfl, .inr (.inl rfl)⟩
  | some path =>
    simp only []
    have hst : ∀ st, dispatch r.method (segments path.toList) = .inl st → st = 404 ∨ st = 405 := by
      intro st h
      unfold dispatch at h
      split at h
      · cases h
      · split at h <;> cases h
        · exact .inr rfl
        · exact .inl rfl
    cases hd : dispatch r.method (segments path.toList) with
    | inl st =>
      refine ⟨_, fun A s => rfl, ?_⟩
      rcases hst st hd with rfl | rfl
      · exact .inr (.inl rfl)
      · exact .inr (.inr rfl)
    | inr e =>
      refine ⟨_, fun A s => ?_, .inl ⟨[("error", .str "Unauthorized"), ("message", .str "Invalid remote token.")], rfl,
        by simp [strField, field], by simp [strField, field]⟩⟩
      simp only [ht, if_true, unauthorized]

/-- With the token, or on a worker without one, requests are served alike. -/
theorem C66_token_admits (C : Codec γ) (A : Api σ γ) {t : String} {r : Req} (h : r.token = some t) (s : σ) :
    serve C A (some t) r s = serve C A none r s := by
  have h1 : tokenOk (some t) r.token = true := by simp [tokenOk, h]
  have h2 : tokenOk none r.token = true := rfl
  unfold serve
  simp only [h1, h2]

/-- A client with a wrong token, or with none, changes nothing and gets a `RemoteSchedulerError` (or an error about the
payload) for every call. -/
theorem C66_client {C : Codec γ} (A : Api σ γ) {t : String} {ct : Option String} (h : ct ≠ some t) (op : Op γ) (s : σ) :
    ∃ e, remote C A (some t) ct op s = (.error e, s) := by
  unfold remote
  cases hr : request C ct op with
  | none => exact ⟨_, rfl⟩
  | some r =>
    have htok : r.token = ct := by
      cases op <;> simp only [request, Option.some.injEq, Option.map_eq_some_iff] at hr <;>
        first
          | (subst hr; rfl)
          | (obtain ⟨_, _, rfl⟩ := hr; rfl)
    obtain ⟨reply, h1, h2⟩ := C66_token C (r := r) (t := t) (by rw [htok]; exact h)
    simp only [h1]
    have herr : ∃ m, received reply = .error (.remote m) ∨ received reply = .error .badReply := by
      rcases h2 with ⟨b, rfl, hb1, hb2⟩ | rfl | rfl
      · refine ⟨"Invalid remote token.", .inl ?_⟩
        simp only [received]
        rw [if_neg (by decide)]
        unfold remoteError
        rw [hb1]
        simp only [String.reduceEq, if_false]
        simp [messageOf, hb2]
      · exact ⟨"", .inr rfl⟩
      · exact ⟨"", .inr rfl⟩
    obtain ⟨m, hm | hm⟩ := herr
    · rw [hm]
      exact ⟨.remote m, by cases op <;> rfl⟩
    · rw [hm, decode_bad]
      exact ⟨_, rfl⟩

/-! ## Task proxies -/

/-- **C67.** A proxy shows the snapshot it was made from, and so does its copy. -/
theorem C67_snapshot (i : Info) : (Proxy.make i).snapshot = i ∧ (Proxy.make i).copy = Proxy.make i := ⟨rfl, rfl⟩

theorem lookup_filter {k k' : String} (h : k' ≠ k) (u : List (String × Val)) :
    asked k (u.filter fun p => p.1 != k') = asked k u := by
  unfold asked
  induction u with
  | nil => rfl
  | cons p u ih =>
    by_cases h1 : p.1 = k'
    · have h2 : p.1 ≠ k := fun e => h (h1.symm.trans e)
      simp [h1, h] at ih ⊢
      exact ih
    · have : (p.1 != k') = true := by simpa using h1
      rw [List.filter_cons, if_pos this, List.find?_cons, List.find?_cons]
      by_cases h2 : p.1 = k
      · simp [h2]
      · simp only [beq_eq_false_iff_ne.2 h2]
        exact ih

theorem stage_ok {key : String} {conv : Val → Proxy → Except PErr Proxy} {p p' : Proxy} {u u' : List (String × Val)} :
    stage key conv (p, u) = .ok (p', u') ↔ u' = (u.filter fun x => x.1 != key) ∧
      match asked key u with
      | none => p' = p
      | some v => conv v p = .ok p' := by
  unfold stage pop asked
  simp only []
  cases (u.find? fun p => p.1 == key).map (·.2) with
  | none =>
    simp only [Except.ok.injEq, Prod.mk.injEq]
    exact ⟨fun h => ⟨h.2.symm, h.1.symm⟩, fun h => ⟨h.2.symm, h.1.symm⟩⟩
  | some v =>
    simp only []
    cases conv v p with
    | error e => simp
    | ok q =>
      simp only [Except.ok.injEq, Prod.mk.injEq]
      exact ⟨fun h => ⟨h.2.symm, h.1⟩, fun h => ⟨h.2, h.1.symm⟩⟩

theorem bind_ok {ε α β : Type} {x : Except ε α} {f : α → Except ε β} {b : β} :
    (x >>= f) = .ok b ↔ ∃ a, x = .ok a ∧ f a = .ok b := by
  cases x with
  | error e => simp [bind, Except.bind]
  | ok a => simp [bind, Except.bind]

theorem update_ok {ref : Val → Option String} {p p' : Proxy} {u : List (String × Val)} :
    p.update ref u = (p', none) ↔ asked "id" u = none ∧ (∀ x ∈ u, x.1 ∈ editable) ∧
      ∃ p1 p2 p3 p4 p5 p6 p7,
        (match asked "name" u with | none => p1 = p | some v => setName v p = .ok p1) ∧
        (match asked "fn" u with | none => p2 = p1 | some v => setFn ref v p1 = .ok p2) ∧
        (match asked "args" u with | none => p3 = p2 | some v => setArgs v p2 = .ok p3) ∧
        (match asked "kwargs" u with | none => p4 = p3 | some v => setKwargs v p3 = .ok p4) ∧
        (match asked "executor" u with | none => p5 = p4 | some v => setExecutor v p4 = .ok p5) ∧
        (match asked "coalesce" u with | none => p6 = p5 | some v => setCoalesce v p5 = .ok p6) ∧
        (match asked "max_instances" u with | none => p7 = p6 | some v => setMax v p6 = .ok p7) ∧
        (match asked "mistrigger_grace_time" u with | none => p' = p7 | some v => setGrace v p7 = .ok p') := by
  have hid : (u.any fun x => x.1 == "id") = false ↔ asked "id" u = none := by
    unfold asked
    simp
  unfold Proxy.update
  by_cases h : (u.any fun x => x.1 == "id") = true
  · rw [if_pos h]
    have h' : asked "id" u ≠ none := fun e => by rw [hid.2 e] at h; cases h
    simp [h']
  · have h0 := hid.1 (Bool.eq_false_iff.2 h)
    rw [if_neg h]
    simp only []
    constructor
    · intro hx
      refine ⟨h0, ?_⟩
      split at hx
      · simp at hx
      · rename_i q rest hr
        split at hx
        · rename_i hrest
          simp only [Prod.mk.injEq, and_true] at hx
          subst hx
          obtain ⟨⟨p1, u1⟩, e1, hr⟩ := bind_ok.1 hr
          obtain ⟨⟨p2, u2⟩, e2, hr⟩ := bind_ok.1 hr
          obtain ⟨⟨p3, u3⟩, e3, hr⟩ := bind_ok.1 hr
          obtain ⟨⟨p4, u4⟩, e4, hr⟩ := bind_ok.1 hr
          obtain ⟨⟨p5, u5⟩, e5, hr⟩ := bind_ok.1 hr
          obtain ⟨⟨p6, u6⟩, e6, hr⟩ := bind_ok.1 hr
          obtain ⟨⟨p7, u7⟩, e7, e8⟩ := bind_ok.1 hr
          obtain ⟨f1, g1⟩ := stage_ok.1 e1
          obtain ⟨f2, g2⟩ := stage_ok.1 e2
          obtain ⟨f3, g3⟩ := stage_ok.1 e3
          obtain ⟨f4, g4⟩ := stage_ok.1 e4
          obtain ⟨f5, g5⟩ := stage_ok.1 e5
          obtain ⟨f6, g6⟩ := stage_ok.1 e6
          obtain ⟨f7, g7⟩ := stage_ok.1 e7
          obtain ⟨f8, g8⟩ := stage_ok.1 e8
          subst f1 f2 f3 f4 f5 f6 f7 f8
          simp only [lookup_filter (show "name" ≠ "fn" by decide), lookup_filter (show "name" ≠ "args" by decide),
            lookup_filter (show "fn" ≠ "args" by decide), lookup_filter (show "name" ≠ "kwargs" by decide),
            lookup_filter (show "fn" ≠ "kwargs" by decide), lookup_filter (show "args" ≠ "kwargs" by decide),
            lookup_filter (show "name" ≠ "executor" by decide), lookup_filter (show "fn" ≠ "executor" by decide),
            lookup_filter (show "args" ≠ "executor" by decide), lookup_filter (show "kwargs" ≠ "executor" by decide),
            lookup_filter (show "name" ≠ "coalesce" by decide), lookup_filter (show "fn" ≠ "coalesce" by decide),
            lookup_filter (show "args" ≠ "coalesce" by decide), lookup_filter (show "kwargs" ≠ "coalesce" by decide),
            lookup_filter (show "executor" ≠ "coalesce" by decide),
            lookup_filter (show "name" ≠ "max_instances" by decide), lookup_filter (show "fn" ≠ "max_instances" by decide),
            lookup_filter (show "args" ≠ "max_instances" by decide), lookup_filter (show "kwargs" ≠ "max_instances" by decide),
            lookup_filter (show "executor" ≠ "max_instances" by decide),
            lookup_filter (show "coalesce" ≠ "max_instances" by decide),
            lookup_filter (show "name" ≠ "mistrigger_grace_time" by decide),
            lookup_filter (show "fn" ≠ "mistrigger_grace_time" by decide),
            lookup_filter (show "args" ≠ "mistrigger_grace_time" by decide),
            lookup_filter (show "kwargs" ≠ "mistrigger_grace_time" by decide),
            lookup_filter (show "executor" ≠ "mistrigger_grace_time" by decide),
            lookup_filter (show "coalesce" ≠ "mistrigger_grace_time" by decide),
            lookup_filter (show "max_instances" ≠ "mistrigger_grace_time" by decide)] at g2 g3 g4 g5 g6 g7 g8
          refine ⟨?_, p1, p2, p3, p4, p5, p6, p7, g1, g2, g3, g4, g5, g6, g7, g8⟩
          intro x hx
          have hrest' := List.isEmpty_iff.1 hrest
          by_cases hk : x.1 ∈ editable
          · exact hk
          · exfalso
            have hne : ∀ k, k ∈ editable → x.1 ≠ k := fun k hk' e => hk (e ▸ hk')
            have : x ∈ ([] : List (String × Val)) := by
              rw [← hrest']
              simp only [List.mem_filter]
              simp only [bne_iff_ne]
              exact ⟨⟨⟨⟨⟨⟨⟨⟨hx, hne _ (by decide)⟩, hne _ (by decide)⟩, hne _ (by decide)⟩, hne _ (by decide)⟩,
                hne _ (by decide)⟩, hne _ (by decide)⟩, hne _ (by decide)⟩, hne _ (by decide)⟩
            cases this
        · simp at hx
    · rintro ⟨_, hk, p1, p2, p3, p4, p5, p6, p7, g1, g2, g3, g4, g5, g6, g7, g8⟩
      have e1 := stage_ok.2 ⟨rfl, g1⟩
      have e2 : stage "fn" (setFn ref) (p1, u.filter fun x => x.1 != "name") = .ok (p2, _) := stage_ok.2 ⟨rfl, by
        simp only [lookup_filter (show "name" ≠ "fn" by decide)]; exact g2⟩
      have e3 : stage "args" setArgs (p2, (u.filter fun x => x.1 != "name").filter fun x => x.1 != "fn") = .ok (p3, _) :=
        stage_ok.2 ⟨rfl, by
        simp only [lookup_filter (show "name" ≠ "args" by decide), lookup_filter (show "fn" ≠ "args" by decide)]; exact g3⟩
      have e4 : stage "kwargs" setKwargs (p3, ((u.filter fun x => x.1 != "name").filter fun x => x.1 != "fn").filter fun x =>
          x.1 != "args") = .ok (p4, _) := stage_ok.2 ⟨rfl, by
        simp only [lookup_filter (show "name" ≠ "kwargs" by decide), lookup_filter (show "fn" ≠ "kwargs" by decide),
          lookup_filter (show "args" ≠ "kwargs" by decide)]; exact g4⟩
      have e5 : stage "executor" setExecutor (p4, (((u.filter fun x => x.1 != "name").filter fun x => x.1 != "fn").filter
          fun x => x.1 != "args").filter fun x => x.1 != "kwargs") = .ok (p5, _) := stage_ok.2 ⟨rfl, by
        simp only [lookup_filter (show "name" ≠ "executor" by decide), lookup_filter (show "fn" ≠ "executor" by decide),
          lookup_filter (show "args" ≠ "executor" by decide), lookup_filter (show "kwargs" ≠ "executor" by decide)]
        exact g5⟩
      have e6 : stage "coalesce" setCoalesce (p5, ((((u.filter fun x => x.1 != "name").filter fun x => x.1 != "fn").filter
          fun x => x.1 != "args").filter fun x => x.1 != "kwargs").filter fun x => x.1 != "executor") = .ok (p6, _) :=
        stage_ok.2 ⟨rfl, by
        simp only [lookup_filter (show "name" ≠ "coalesce" by decide), lookup_filter (show "fn" ≠ "coalesce" by decide),
          lookup_filter (show "args" ≠ "coalesce" by decide), lookup_filter (show "kwargs" ≠ "coalesce" by decide),
          lookup_filter (show "executor" ≠ "coalesce" by decide)]
        exact g6⟩
      have e7 : stage "max_instances" setMax (p6, (((((u.filter fun x => x.1 != "name").filter fun x => x.1 != "fn").filter
          fun x => x.1 != "args").filter fun x => x.1 != "kwargs").filter fun x => x.1 != "executor").filter fun x =>
          x.1 != "coalesce") = .ok (p7, _) := stage_ok.2 ⟨rfl, by
        simp only [lookup_filter (show "name" ≠ "max_instances" by decide), lookup_filter (show "fn" ≠ "max_instances" by decide),
          lookup_filter (show "args" ≠ "max_instances" by decide), lookup_filter (show "kwargs" ≠ "max_instances" by decide),
          lookup_filter (show "executor" ≠ "max_instances" by decide),
          lookup_filter (show "coalesce" ≠ "max_instances" by decide)]
        exact g7⟩
      have e8 : stage "mistrigger_grace_time" setGrace (p7, ((((((u.filter fun x => x.1 != "name").filter fun x =>
          x.1 != "fn").filter fun x => x.1 != "args").filter fun x => x.1 != "kwargs").filter fun x =>
          x.1 != "executor").filter fun x => x.1 != "coalesce").filter fun x => x.1 != "max_instances") = .ok (p', _) :=
        stage_ok.2 ⟨rfl, by
        simp only [lookup_filter (show "name" ≠ "mistrigger_grace_time" by decide),
            lookup_filter (show "fn" ≠ "mistrigger_grace_time" by decide),
            lookup_filter (show "args" ≠ "mistrigger_grace_time" by decide),
            lookup_filter (show "kwargs" ≠ "mistrigger_grace_time" by decide),
            lookup_filter (show "executor" ≠ "mistrigger_grace_time" by decide),
            lookup_filter (show "coalesce" ≠ "mistrigger_grace_time" by decide),
            lookup_filter (show "max_instances" ≠ "mistrigger_grace_time" by decide)]
        exact g8⟩
      simp only [e1, e2, e3, e4, e5, e6, e7, e8, bind, Except.bind]
      rw [if_pos]
      rw [List.isEmpty_iff]
      apply List.eq_nil_iff_forall_not_mem.2
      intro x hx
      simp only [List.mem_filter, bne_iff_ne] at hx
      obtain ⟨⟨⟨⟨⟨⟨⟨⟨hx, h1⟩, h2⟩, h3⟩, h4⟩, h5⟩, h6⟩, h7⟩, h8⟩ := hx
      have := hk x hx
      simp only [editable, List.mem_cons, List.not_mem_nil, or_false] at this
      rcases this with e | e | e | e | e | e | e | e <;> contradiction

theorem setName_ok {v : Val} {p q : Proxy} :
    setName v p = .ok q ↔ ∃ x, NewName v p.name x ∧ q = { p with name := x } := by
  constructor
  · intro h
    cases v with
    | none => cases h; exact ⟨p.name, .keep _, rfl⟩
    | str t =>
      simp only [setName] at h
      split at h
      · cases h
      · rename_i ht; cases h; exact ⟨some t, .set ht _, rfl⟩
    | _ => cases h
  · rintro ⟨x, h, rfl⟩
    cases h with
    | keep => rfl
    | set ht => simp [setName, ht]

theorem setFn_ok {ref : Val → Option String} {v : Val} {p q : Proxy} :
    setFn ref v p = .ok q ↔ ∃ x, NewFn ref v x ∧ q = { p with fnRef := x } := by
  have obj : ∀ w : Val, (∀ t, w ≠ .str t) → setFn ref w p = match ref w with
      | some r => .ok { p with fnRef := some r }
      | none => .error .refError := by
    intro w hw
    cases w <;> first | rfl | exact absurd rfl (hw _)
  by_cases hv : ∃ t, v = .str t
  · obtain ⟨t, rfl⟩ := hv
    constructor
    · intro h; cases h; exact ⟨some t, .text t, rfl⟩
    · rintro ⟨x, h, rfl⟩
      cases h with
      | text => rfl
      | object hn => exact absurd rfl (hn t)
  · have hn : ∀ t, v ≠ .str t := fun t e => hv ⟨t, e⟩
    rw [obj v hn]
    constructor
    · intro h
      split at h
      · rename_i r hr; cases h; exact ⟨some r, .object hn hr, rfl⟩
      · cases h
    · rintro ⟨x, h, rfl⟩
      cases h with
      | text t => exact absurd rfl (hn t)
      | object _ hr => rw [hr]

theorem setArgs_ok {v : Val} {p q : Proxy} :
    setArgs v p = .ok q ↔ ∃ x, NewArgs v x ∧ q = { p with args := x } := by
  constructor
  · intro h
    cases v with
    | list xs => cases h; exact ⟨xs, .list xs, rfl⟩
    | tuple xs => cases h; exact ⟨xs, .tuple xs, rfl⟩
    | _ => cases h
  · rintro ⟨x, h, rfl⟩
    cases h <;> rfl

theorem setKwargs_ok {v : Val} {p q : Proxy} :
    setKwargs v p = .ok q ↔ ∃ x, v = .dict x ∧ q = { p with kwargs := x } := by
  constructor
  · intro h
    cases v with
    | dict xs => cases h; exact ⟨xs, rfl, rfl⟩
    | _ => cases h
  · rintro ⟨x, rfl, rfl⟩
    rfl

theorem setExecutor_ok {v : Val} {p q : Proxy} :
    setExecutor v p = .ok q ↔ ∃ x, (∃ t, v = .str t ∧ x = some t) ∧ q = { p with executor := x } := by
  constructor
  · intro h
    cases v with
    | str t => cases h; exact ⟨_, ⟨t, rfl, rfl⟩, rfl⟩
    | _ => cases h
  · rintro ⟨x, ⟨t, rfl, rfl⟩, rfl⟩
    rfl

theorem truthy_nought (v : Val) : v.truthy = false ↔ Nought v := by
  constructor
  · intro h
    cases v with
    | none => exact .none
    | bool b => cases b with
      | true => cases h
      | false => exact .false
    | int n =>
      have : n = 0 := by simpa [Val.truthy] using h
      subst this; exact .zero
    | float n =>
      have : n = 0 := by simpa [Val.truthy] using h
      subst this; exact .zeroFloat
    | str s =>
      have : s = "" := by simpa [Val.truthy] using h
      subst this; exact .empty
    | tuple xs =>
      have : xs = [] := by simpa [Val.truthy] using h
      subst this; exact .noTuple
    | list xs =>
      have : xs = [] := by simpa [Val.truthy] using h
      subst this; exact .noList
    | dict xs =>
      have : xs = [] := by simpa [Val.truthy] using h
      subst this; exact .noDict
    | _ => cases h
  · intro h
    cases h <;> rfl

theorem setCoalesce_ok {v : Val} {p q : Proxy} :
    setCoalesce v p = .ok q ↔ ∃ x, (x = Bool.false ↔ Nought v) ∧ q = { p with coalesce := x } := by
  constructor
  · intro h; cases h; exact ⟨_, truthy_nought v, rfl⟩
  · rintro ⟨x, hx, rfl⟩
    have : x = v.truthy := by
      have h := truthy_nought v
      cases x <;> cases hv : v.truthy <;> simp_all
    rw [this]
    rfl

theorem setMax_ok {v : Val} {p q : Proxy} :
    setMax v p = .ok q ↔ ∃ x, NewMax v x ∧ q = { p with maxInst := x } := by
  constructor
  · intro h
    cases v with
    | int n =>
      simp only [setMax] at h
      split at h
      · cases h
      · rename_i hn; cases h; exact ⟨n, .int (by omega), rfl⟩
    | bool b =>
      cases b with
      | true => cases h; exact ⟨1, .true, rfl⟩
      | false => cases h
    | _ => cases h
  · rintro ⟨x, h, rfl⟩
    cases h with
    | int hn => simp only [setMax]; rw [if_neg (by omega)]
    | true => rfl

theorem setGrace_ok {v : Val} {p q : Proxy} :
    setGrace v p = .ok q ↔ ∃ x, NewGrace v x ∧ q = { p with grace := x } := by
  constructor
  · intro h
    cases v with
    | none => cases h; exact ⟨_, .none, rfl⟩
    | int n =>
      simp only [setGrace] at h
      split at h
      · cases h
      · rename_i hn; cases h; exact ⟨_, .int (by omega), rfl⟩
    | float n =>
      simp only [setGrace] at h
      split at h
      · cases h
      · rename_i hn; cases h; exact ⟨_, .float (by omega), rfl⟩
    | bool b =>
      cases b with
      | true => cases h; exact ⟨_, .true, rfl⟩
      | false => cases h
    | _ => cases h
  · rintro ⟨x, h, rfl⟩
    cases h with
    | none => rfl
    | int hn => simp only [setGrace]; rw [if_neg (by omega)]
    | float hn => simp only [setGrace]; rw [if_neg (by omega)]
    | true => rfl

/-- one stage, as a change of one attribute -/
theorem stage_becomes {α : Type} {P : Val → α → Prop} {conv : Val → Proxy → Except PErr Proxy} {set : Proxy → α → Proxy}
    {old : α} {p q : Proxy} {v : Option Val} (hold : set p old = p)
    (h : ∀ v, conv v p = .ok q ↔ ∃ x, P v x ∧ q = set p x) :
    (match v with | none => q = p | some v => conv v p = .ok q) ↔ ∃ x, Becomes P v old x ∧ q = set p x := by
  cases v with
  | none =>
    simp only [Becomes]
    constructor
    · intro e; exact ⟨old, rfl, by rw [hold]; exact e⟩
    · rintro ⟨x, rfl, e⟩; rw [hold] at e; exact e
  | some w => exact h w

/-- **C67.** Editing a proxy succeeds exactly when every key asked for is editable and every value valid, and then the proxy
shows the edited snapshot. -/
theorem C67_edit (ref : Val → Option String) (i i' : Info) (u : List (String × Val)) :
    (∃ p', (Proxy.make i).update ref u = (p', none) ∧ p'.snapshot = i') ↔ Edited ref i u i' := by
  constructor
  · rintro ⟨p', hp, rfl⟩
    obtain ⟨_, hk, p1, p2, p3, p4, p5, p6, p7, g1, g2, g3, g4, g5, g6, g7, g8⟩ := update_ok.1 hp
    obtain ⟨x1, b1, rfl⟩ := (stage_becomes (set := fun p x => { p with name := x }) (old := (Proxy.make i).name) rfl
      fun v => setName_ok).1 g1
    obtain ⟨x2, b2, rfl⟩ := (stage_becomes (set := fun p x => { p with fnRef := x }) (old := i.callableRef) rfl
      fun v => setFn_ok).1 g2
    obtain ⟨x3, b3, rfl⟩ := (stage_becomes (set := fun p x => { p with args := x }) (old := i.args) rfl
      fun v => setArgs_ok).1 g3
    obtain ⟨x4, b4, rfl⟩ := (stage_becomes (set := fun p x => { p with kwargs := x }) (old := i.kwargs) rfl
      fun v => setKwargs_ok).1 g4
    obtain ⟨x5, b5, rfl⟩ := (stage_becomes (set := fun p x => { p with executor := x }) (old := i.executor) rfl
      fun v => setExecutor_ok).1 g5
    obtain ⟨x6, b6, rfl⟩ := (stage_becomes (set := fun p x => { p with coalesce := x }) (old := i.coalesce) rfl
      fun v => setCoalesce_ok).1 g6
    obtain ⟨x7, b7, rfl⟩ := (stage_becomes (set := fun p x => { p with maxInst := x }) (old := i.maxInst) rfl
      fun v => setMax_ok).1 g7
    obtain ⟨x8, b8, rfl⟩ := (stage_becomes (set := fun p x => { p with grace := x }) (old := i.grace) rfl
      fun v => setGrace_ok).1 g8
    exact ⟨hk, b1, b2, b3, b4, b5, b6, b7, b8, rfl⟩
  · intro h
    refine ⟨{ Proxy.make i with
      name := i'.name, fnRef := i'.callableRef, args := i'.args, kwargs := i'.kwargs, executor := i'.executor,
      coalesce := i'.coalesce, maxInst := i'.maxInst, grace := i'.grace }, ?_, h.rest.symm⟩
    refine update_ok.2 ⟨?_, h.keys, _, _, _, _, _, _, _,
      (stage_becomes (set := fun p x => { p with name := x }) (old := (Proxy.make i).name) rfl
        fun v => setName_ok).2 ⟨_, h.name, rfl⟩,
      (stage_becomes (set := fun p x => { p with fnRef := x }) (old := i.callableRef) rfl
        fun v => setFn_ok).2 ⟨_, h.fn, rfl⟩,
      (stage_becomes (set := fun p x => { p with args := x }) (old := i.args) rfl fun v => setArgs_ok).2 ⟨_, h.args, rfl⟩,
      (stage_becomes (set := fun p x => { p with kwargs := x }) (old := i.kwargs) rfl
        fun v => setKwargs_ok).2 ⟨_, h.kwargs, rfl⟩,
      (stage_becomes (set := fun p x => { p with executor := x }) (old := i.executor) rfl
        fun v => setExecutor_ok).2 ⟨_, h.executor, rfl⟩,
      (stage_becomes (set := fun p x => { p with coalesce := x }) (old := i.coalesce) rfl
        fun v => setCoalesce_ok).2 ⟨_, h.coalesce, rfl⟩,
      (stage_becomes (set := fun p x => { p with maxInst := x }) (old := i.maxInst) rfl
        fun v => setMax_ok).2 ⟨_, h.maxInst, rfl⟩,
      (stage_becomes (set := fun p x => { p with grace := x }) (old := i.grace) rfl
        fun v => setGrace_ok).2 ⟨_, h.grace, rfl⟩⟩
    unfold asked
    rw [Option.map_eq_none_iff, List.find?_eq_none]
    intro x hx he
    have := h.keys x hx
    rw [beq_iff_eq.1 he] at this
    exact absurd this (by decide)

/-- Editing is not atomic: what was asked before the invalid value stays changed in the proxy. -/
theorem C67_edit_not_atomic (ref : Val → Option String) (i : Info) :
    (Proxy.make i).update ref [("max_instances", .int 0), ("name", .str "b")] =
      ({ Proxy.make i with name := some "b" }, some .typeError) := rfl

/-! ## Examples -/

/-- a text for an integer -/
private def zig (n : Int) : Nat := if 0 ≤ n then 2 * n.toNat else 2 * (-n).toNat - 1
private def zag (n : Nat) : Int := if n % 2 = 0 then (n / 2 : Nat) else -((n + 1) / 2 : Nat)

private theorem zag_zig (n : Int) : zag (zig n) = n := by
  unfold zag zig
  split <;> split <;> omega

/-- a codec that writes both numbers of a datetime in strokes -/
private def exText (w : When) : String :=
  String.ofList (List.replicate (zig w.inst) 'a' ++ List.replicate (zig w.offset) 'b')

private def exCodec : Codec Nat :=
  { iso := exText, pyd := exText
    parse := fun t => some ⟨zag (t.toList.count 'a'), zag (t.toList.count 'b')⟩
    pickle := fun n => String.ofList ('p' :: List.replicate n 'x')
    unpickle := fun t => some (t.toList.count 'x') }

private theorem exCodec_lawful : exCodec.Lawful := by
  refine ⟨?_, ?_, ?_⟩
  · intro w
    simp [exCodec, exText, List.count_replicate, zag_zig]
  · intro n
    simp [exCodec, List.count_replicate]
  · intro n h
    have := congrArg String.toList h
    simp [exCodec] at this

private def exInfo : Info :=
  { id := some "café #1", name := some "a", callableName := some "f", callableRef := some "m:f", triggerAlias := some "date",
    triggerName := some "DateTrigger", triggerDesc := none, executor := some "default", storeAlias := some "default",
    state := .scheduled, nextRun := some ⟨5, -3⟩, coalesce := true, maxInst := 1, grace := some (.int 1), pending := false,
    paused := false, submitted := true, args := [.int 1, .list [.str "x"]], kwargs := [("k", .none)] }

/-- a scheduler with one task, which can only be paused -/
private def exApi : Api Info Nat :=
  { info := fun s => (.ok .null, s)
    instances := fun s => (.ok [], s)
    infos := fun _ s => (.ok [s], s)
    detail := fun id _ s => (.ok (if some id = s.id then some s else none), s)
    preview := fun _ _ _ _ s => (.ok none, s)
    add := fun _ s => (.error (.other "ConflictIdError" "conflict"), s)
    update := fun id _ _ s => (.error (.lookup (some id)), s)
    run := fun id _ _ _ s => (.error (.maxInst id 1), s)
    pause := fun id _ s =>
      if some id = s.id then (.ok { s with paused := true }, { s with paused := true })
      else (.error (.lookup (some id)), s)
    resume := fun _ _ s => (.error .notRunning, s)
    remove := fun _ _ s => (.error (.value "no"), s) }

private theorem exApi_honest : exApi.Honest := by
  intro op s e h
  cases op with
  | add a =>
    simp only [direct, exApi, Except.map, Except.error.injEq] at h
    subst h
    show "ConflictIdError" ∉ keptClasses
    decide
  | pause id store =>
    simp only [direct, exApi] at h
    split at h
    · cases h
    · simp only [Except.map, Except.error.injEq] at h
      subst h
      trivial
  | _ =>
    simp only [direct, exApi, Except.map] at h
    cases h <;> trivial

private theorem exInfo_plain : exInfo.Plain := by
  constructor
  · intro v hv
    rcases List.mem_cons.1 hv with rfl | hv
    · exact .int 1
    · rcases List.mem_cons.1 hv with rfl | hv
      · exact .list fun w hw => by
          rcases List.mem_cons.1 hw with rfl | hw
          · exact .str _
          · cases hw
      · cases hv
  · intro p hp
    rcases List.mem_cons.1 hp with rfl | hp
    · exact .none
    · cases hp

/-- Pausing a task whose id needs quoting: the remote call is the direct one, in effect and result. -/
example : remote exCodec exApi (some "t") (some "t") (.pause "café #1" none) exInfo =
    (.ok (.task (some { exInfo with paused := true })), { exInfo with paused := true }) :=
  C65_exact_partial exCodec_lawful exApi_honest (some "t") (op := .pause "café #1" none)
    ⟨by decide, by decide⟩ trivial exInfo exInfo_plain

/-- Errors arrive too. -/
example : remote exCodec exApi none none (.run "b" none true true) exInfo = (.error (.maxInst "b" 1), exInfo) :=
  C65_exact_partial exCodec_lawful exApi_honest none (op := .run "b" none true true)
    ⟨by decide, by decide⟩ trivial exInfo ⟨trivial, by decide⟩

/-- A tuple arrives as a list, a datetime as a text. -/
example : Sent exText (.tuple [.int 1, .datetime ⟨1, 0⟩]) (.list [.int 1, .str "aa"]) :=
  .tupleCons (.int 1) (.tupleCons (.datetime ⟨1, 0⟩) .tupleNil)

/-- An action on a task whose arguments cannot be written as JSON takes effect, but the client is told that it failed. -/
example : remote exCodec exApi none none (.pause "café #1" none) { exInfo with args := [.object 0] } =
    (.error (.remote "Unable to serialize"), { exInfo with args := [.object 0], paused := true }) := by
  have h := remote_pause exCodec_lawful exApi none (id := "café #1") ⟨by decide, by decide⟩ none
    { exInfo with args := [.object 0] } (fun e he => by
      simp only [exApi, exInfo] at he; cases he)
  obtain ⟨h1, h2⟩ := h
  refine Prod.ext ?_ h1
  rfl

/-- A wrong token: nothing happens. -/
example : ∃ e, remote exCodec exApi (some "t") (some "u") (.pause "café #1" none) exInfo = (.error e, exInfo) :=
  C66_client exApi (by decide) _ _

/-- An edit of a proxy. -/
example : Edited (fun _ => none) exInfo [("name", .str "b"), ("args", .tuple [.none]), ("mistrigger_grace_time", .none)]
    { exInfo with name := some "b", args := [.none], grace := none } :=
  ⟨by decide, .set (by decide) _, rfl, .tuple _, rfl, rfl, rfl, rfl, .none, rfl⟩

/-- Unknown keys and wrong values are refused. -/
example : ((Proxy.make exInfo).update (fun _ => none) [("trigger", .str "b")]).2 = some .attributeError ∧
    ((Proxy.make exInfo).update (fun _ => none) [("name", .str "")]).2 = some .typeError ∧
    ((Proxy.make exInfo).update (fun _ => none) [("id", .str "b")]).2 = some .valueError := ⟨rfl, rfl, rfl⟩

end Remote
end Asyncz
