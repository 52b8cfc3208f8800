import Verif.Model.Config
/-!
# Configuration (C43) and task defaults (C58)
-/
namespace Asyncz
namespace Config

variable {ν κ : Type}

/-! ## Specification -/

/-- `path` are the parts of `key` between its dots -/
def IsPath (key : Text) (path : List Text) : Prop :=
  path ≠ [] ∧ (∀ p ∈ path, '.' ∉ p) ∧ key = List.intercalate ['.'] path

/-- what a user reads at a path inside a value -/
def readVal : Val ν → List Text → Option (Val ν)
  | v, [] => some v
  | .leaf _, _ :: _ => none
  | .map d, k :: p => (Dict.get? d k).bind fun v => readVal v p

/-- what a user reads in a configuration -/
def readCfg (c : Cfg ν) (path : List Text) : Option (Val ν) := readVal (.map c) path

/-- the key of the configuration that an entry of the global dictionary stands for -/
def Selected (pre : Option Text) (key short : Text) : Prop :=
  match pre with
  | none => key = short
  | some pre => key = pre ++ short

/-- no key continues another one after a dot -/
def NoConflict (pre : Option Text) (g : Cfg ν) : Prop :=
  ∀ k1 k2 s1 s2, k1 ∈ g.keys → k2 ∈ g.keys → Selected pre k1 s1 → Selected pre k2 s2 → ¬ (s1 ++ ['.']) <+: s2

/-! ## Lemmas -/

theorem splitDot_ne (t : Text) : splitDot t ≠ [] := by
  cases t with
  | nil => simp [splitDot]
  | cons c t =>
    simp only [splitDot]
    split
    · simp
    · split <;> simp

theorem intercalate_cons_cons (a b : Text) (l : List Text) :
    List.intercalate ['.'] (a :: b :: l) = a ++ '.' :: List.intercalate ['.'] (b :: l) := by
  simp [List.intercalate]

theorem intercalate_cons (a : Text) {l : List Text} (h : l ≠ []) :
    List.intercalate ['.'] (a :: l) = a ++ '.' :: List.intercalate ['.'] l := by
  cases l with
  | nil => exact absurd rfl h
  | cons b l => exact intercalate_cons_cons a b l

theorem splitDot_isPath (t : Text) : IsPath t (splitDot t) := by
  induction t with
  | nil => simp [splitDot, IsPath, List.intercalate]
  | cons c t ih =>
    obtain ⟨h1, h2, h3⟩ := ih
    simp only [splitDot]
    split
    · rename_i hc
      subst hc
      refine ⟨by simp, ?_, ?_⟩
      · intro p hp
        rcases List.mem_cons.1 hp with rfl | hp
        · simp
        · exact h2 p hp
      · rw [intercalate_cons [] h1, ← h3]; rfl
    · rename_i hc
      cases hs : splitDot t with
      | nil => exact absurd hs h1
      | cons p ps =>
        rw [hs] at h2 h3
        refine ⟨by simp, ?_, ?_⟩
        · intro q hq
          rcases List.mem_cons.1 hq with rfl | hq
          · simp only [List.mem_cons, not_or]
            exact ⟨fun e => hc e.symm, h2 p (by simp)⟩
          · exact h2 q (by simp [hq])
        · cases ps with
          | nil => simp only [List.intercalate] at h3 ⊢; simpa using h3
          | cons q ps =>
            rw [intercalate_cons_cons] at h3 ⊢
            rw [h3]; rfl

theorem append_dot_inj {a b s t : Text} (ha : '.' ∉ a) (hb : '.' ∉ b) (h : a ++ '.' :: s = b ++ '.' :: t) :
    a = b ∧ s = t := by
  induction a generalizing b with
  | nil =>
    cases b with
    | nil => exact ⟨rfl, by simpa using h⟩
    | cons c b =>
      simp only [List.nil_append, List.cons_append, List.cons.injEq] at h
      rw [← h.1] at hb; simp at hb
  | cons c a ih =>
    cases b with
    | nil =>
      simp only [List.nil_append, List.cons_append, List.cons.injEq] at h
      rw [h.1] at ha; simp at ha
    | cons c' b =>
      simp only [List.cons_append, List.cons.injEq] at h
      obtain ⟨h1, h2⟩ := ih (fun hh => ha (by simp [hh])) (fun hh => hb (by simp [hh])) h.2
      exact ⟨by rw [h.1, h1], h2⟩

theorem IsPath.unique {t : Text} {p q : List Text} (hp : IsPath t p) (hq : IsPath t q) : p = q := by
  induction p generalizing t q with
  | nil => exact absurd rfl hp.1
  | cons a p ih =>
    cases q with
    | nil => exact absurd rfl hq.1
    | cons b q =>
      obtain ⟨_, hp2, hp3⟩ := hp
      obtain ⟨_, hq2, hq3⟩ := hq
      have ha := hp2 a (by simp)
      have hb := hq2 b (by simp)
      cases p with
      | nil =>
        cases q with
        | nil => simp [List.intercalate] at hp3 hq3; rw [← hp3, ← hq3]
        | cons b' q =>
          exfalso
          rw [intercalate_cons_cons] at hq3
          have : t = a := by simpa [List.intercalate] using hp3
          rw [← this, hq3] at ha; simp at ha
      | cons a' p =>
        cases q with
        | nil =>
          exfalso
          rw [intercalate_cons_cons] at hp3
          have : t = b := by simpa [List.intercalate] using hq3
          rw [← this, hp3] at hb; simp at hb
        | cons b' q =>
          rw [intercalate_cons_cons] at hp3 hq3
          obtain ⟨h1, h2⟩ := append_dot_inj ha hb (hp3.symm.trans hq3)
          have := ih (t := List.intercalate ['.'] (a' :: p)) (q := b' :: q)
            ⟨by simp, fun x hx => hp2 x (List.mem_cons_of_mem _ hx), rfl⟩
            ⟨by simp, fun x hx => hq2 x (List.mem_cons_of_mem _ hx), h2⟩
          rw [h1, this]

/-- a path that starts with another one belongs to the same key or to one that continues it -/
theorem path_prefix {t1 t2 : Text} (h : splitDot t1 <+: splitDot t2) : t1 = t2 ∨ (t1 ++ ['.']) <+: t2 := by
  obtain ⟨r, hr⟩ := h
  obtain ⟨a1, _, a3⟩ := splitDot_isPath t1
  obtain ⟨_, _, b3⟩ := splitDot_isPath t2
  cases r with
  | nil =>
    left
    rw [a3, b3, ← hr]; simp
  | cons x r =>
    right
    have key : ∀ (p : List Text), p ≠ [] → List.intercalate ['.'] (p ++ x :: r) =
        List.intercalate ['.'] p ++ '.' :: List.intercalate ['.'] (x :: r) := by
      intro p hp
      induction p with
      | nil => exact absurd rfl hp
      | cons a p ih =>
        cases p with
        | nil => rw [List.singleton_append, intercalate_cons_cons]; simp [List.intercalate]
        | cons b p =>
          rw [List.cons_append, List.cons_append, intercalate_cons_cons, intercalate_cons_cons, ← List.cons_append,
            ih (by simp)]
          simp
    refine ⟨List.intercalate ['.'] (x :: r), ?_⟩
    rw [b3, ← hr, key _ a1, ← a3]; simp

theorem readCfg_cons (d : Cfg ν) (k : Text) (p : List Text) :
    readCfg d (k :: p) = (d.get? k).bind fun v => readVal v p := by simp [readCfg, readVal]

theorem readCfg_set (d : Cfg ν) (k k' : Text) (v : Val ν) (p : List Text) :
    readCfg (d.set k v) (k' :: p) = if k' = k then readVal v p else readCfg d (k' :: p) := by
  rw [readCfg_cons, readCfg_cons, Dict.get?_set]; split <;> rfl

theorem put_cons (k x : Text) (p : List Text) (v : Val ν) (d : Cfg ν) :
    put (k :: x :: p) v d = match d.get? k with
      | none => (put (x :: p) v []).map fun d' => d.set k (.map d')
      | some (.map d') => (put (x :: p) v d').map fun d'' => d.set k (.map d'')
      | some (.leaf _) => none := by
  cases hg : d.get? k with
  | none => simp only [put, hg]
  | some w => cases w <;> simp only [put, hg]

/-- what is read after one assignment -/
theorem put_read {p : List Text} {v : Val ν} {d d' : Cfg ν} (h : put p v d = some d') :
    (∀ r, readCfg d' (p ++ r) = readVal v r) ∧
    (∀ q, ¬ p <+: q → ¬ q <+: p → readCfg d' q = readCfg d q) ∧
    (∀ q r, r ≠ [] → p = q ++ r → ∃ m, readCfg d' q = some (.map m)) := by
  induction p generalizing d d' with
  | nil => simp [put] at h
  | cons k p ih =>
    cases p with
    | nil =>
      simp only [put, Option.some.injEq] at h
      subst h
      refine ⟨fun r => ?_, fun q h1 h2 => ?_, fun q r hr hq => ?_⟩
      · simp [readCfg_set]
      · cases q with
        | nil => exact absurd (List.nil_prefix) h2
        | cons k' q =>
          rw [readCfg_set, if_neg]
          rintro rfl
          exact h1 ⟨q, rfl⟩
      · cases q with
        | nil => exact ⟨_, rfl⟩
        | cons k' q =>
          simp only [List.cons_append, List.cons.injEq] at hq
          have := List.append_eq_nil_iff.1 hq.2.symm
          exact absurd this.2 hr
    | cons x p =>
      rw [put_cons] at h
      have main : ∀ (m m' : Cfg ν), put (x :: p) v m = some m' → d' = d.set k (.map m') →
          (∀ q, ¬ (x :: p) <+: q → ¬ q <+: (x :: p) → (d.get? k).bind (readVal · q) = readCfg m q) →
          (∀ r, readCfg d' (k :: x :: p ++ r) = readVal v r) ∧
          (∀ q, ¬ (k :: x :: p) <+: q → ¬ q <+: (k :: x :: p) → readCfg d' q = readCfg d q) ∧
          (∀ q r, r ≠ [] → k :: x :: p = q ++ r → ∃ m, readCfg d' q = some (.map m)) := by
        intro m m' hm hd' hold
        obtain ⟨i1, i2, i3⟩ := ih hm
        subst hd'
        refine ⟨fun r => ?_, fun q h1 h2 => ?_, fun q r hr hq => ?_⟩
        · rw [List.cons_append, readCfg_set, if_pos rfl]
          exact i1 r
        · cases q with
          | nil => exact absurd (List.nil_prefix) h2
          | cons k' q =>
            rw [readCfg_set]
            split
            · rename_i hk
              subst hk
              have g1 : ¬ (x :: p) <+: q := fun ⟨r, hr⟩ => h1 ⟨r, by simp [← hr]⟩
              have g2 : ¬ q <+: (x :: p) := fun ⟨r, hr⟩ => h2 ⟨r, by simp [← hr]⟩
              rw [readCfg_cons, hold q g1 g2]
              exact i2 q g1 g2
            · rfl
        · cases q with
          | nil => exact ⟨_, rfl⟩
          | cons k' q =>
            simp only [List.cons_append, List.cons.injEq] at hq
            rw [readCfg_set, if_pos hq.1.symm]
            exact i3 q r hr hq.2
      cases hg : d.get? k with
      | none =>
        rw [hg] at h
        obtain ⟨m', hm', he⟩ := Option.map_eq_some_iff.1 h
        refine main [] m' hm' he.symm ?_
        intro q _ hq
        rw [hg]
        cases q with
        | nil => exact absurd (List.nil_prefix) hq
        | cons y q => simp [readCfg_cons, Dict.get?]
      | some w =>
        rw [hg] at h
        cases w with
        | leaf u => cases h
        | map m =>
          obtain ⟨m', hm', he⟩ := Option.map_eq_some_iff.1 h
          refine main m m' hm' he.symm ?_
          intro q _ _
          rw [hg]; rfl

/-- an assignment fails only if some value on the way is not a mapping -/
theorem put_isSome {p : List Text} (hp : p ≠ []) (v : Val ν) {d : Cfg ν}
    (h : ∀ q r u, q ≠ [] → r ≠ [] → p = q ++ r → readCfg d q ≠ some (.leaf u)) : (put p v d).isSome := by
  induction p generalizing d with
  | nil => exact absurd rfl hp
  | cons k p ih =>
    cases p with
    | nil => rfl
    | cons x p =>
      rw [put_cons]
      cases hg : d.get? k with
      | none =>
        simp only [Option.isSome_map]
        refine ih (by simp) ?_
        intro q r u hq _ _
        cases q with
        | nil => exact absurd rfl hq
        | cons y q => simp [readCfg_cons, Dict.get?]
      | some w =>
        cases w with
        | leaf u =>
          exact absurd (by simp [readCfg_cons, hg, readVal]) (h [k] (x :: p) u (by simp) (by simp) rfl)
        | map m =>
          simp only [Option.isSome_map]
          refine ih (by simp) ?_
          intro q r u hq hr he hu
          refine h (k :: q) r u (by simp) hr (by simp [he]) ?_
          rw [readCfg_cons, hg]; exact hu

theorem read_put {p q : List Text} {v u : Val ν} {d d' : Cfg ν} (h : put p v d = some d')
    (hq : readCfg d' q = some u) :
    (∃ r, q = p ++ r ∧ readVal v r = some u) ∨ (∃ m, u = .map m) ∨ readCfg d q = some u := by
  obtain ⟨h1, h2, h3⟩ := put_read h
  by_cases hpq : p <+: q
  · obtain ⟨r, rfl⟩ := hpq
    left
    exact ⟨r, rfl, by rw [← h1]; exact hq⟩
  · by_cases hqp : q <+: p
    · obtain ⟨r, hr⟩ := hqp
      right; left
      have hrne : r ≠ [] := by
        rintro rfl
        exact hpq ⟨[], by simpa using hr.symm⟩
      obtain ⟨m, hm⟩ := h3 q r hrne hr.symm
      rw [hm] at hq
      exact ⟨m, (Option.some.inj hq).symm⟩
    · right; right
      rw [← h2 q hpq hqp]; exact hq

/-- the loop, for keys none of which continues another -/
theorem putAll_spec (l : List (Text × Val ν)) : ∀ (done : List (Text × Val ν)) (d : Cfg ν),
    (∀ p ∈ done, readCfg d (splitDot p.1) = some p.2) →
    (∀ q u, q ≠ [] → readCfg d q = some (.leaf u) → ∃ p ∈ done, ∃ r, q = splitDot p.1 ++ r ∧ readVal p.2 r = some (.leaf u)) →
    (∀ p ∈ l, ∀ q ∈ done, ¬ splitDot p.1 <+: splitDot q.1 ∧ ¬ splitDot q.1 <+: splitDot p.1) →
    l.Pairwise (fun p q => ¬ splitDot p.1 <+: splitDot q.1 ∧ ¬ splitDot q.1 <+: splitDot p.1) →
    ∃ d', putAll l d = some d' ∧ (∀ p, p ∈ done ∨ p ∈ l → readCfg d' (splitDot p.1) = some p.2) ∧
      ∀ q u, q ≠ [] → readCfg d' q = some (.leaf u) →
        ∃ p, (p ∈ done ∨ p ∈ l) ∧ ∃ r, q = splitDot p.1 ++ r ∧ readVal p.2 r = some (.leaf u) := by
  induction l with
  | nil =>
    intro done d h1 h2 _ _
    refine ⟨d, rfl, fun p hp => ?_, fun q u hq hu => ?_⟩
    · rcases hp with hp | hp
      · exact h1 p hp
      · cases hp
    · obtain ⟨p, hp, hr⟩ := h2 q u hq hu
      exact ⟨p, .inl hp, hr⟩
  | cons x l ih =>
    intro done d h1 h2 h3 h4
    obtain ⟨k, v⟩ := x
    obtain ⟨h5, h6⟩ := List.pairwise_cons.1 h4
    have hs : (put (splitDot k) v d).isSome := by
      refine put_isSome (splitDot_ne k) v ?_
      intro q r u hq hr he hu
      obtain ⟨p, hp, r', hr', _⟩ := h2 q u hq hu
      exact (h3 (k, v) (by simp) p hp).2 ⟨r' ++ r, by rw [he, hr']; simp⟩
    obtain ⟨d1, hd1⟩ := Option.isSome_iff_exists.1 hs
    obtain ⟨r1, r2, _⟩ := put_read hd1
    have a1 : ∀ p ∈ (k, v) :: done, readCfg d1 (splitDot p.1) = some p.2 := by
      intro p hp
      rcases List.mem_cons.1 hp with rfl | hp
      · have := r1 []; rw [List.append_nil] at this; rw [this]; simp [readVal]
      · obtain ⟨g1, g2⟩ := h3 (k, v) (by simp) p hp
        rw [r2 _ g1 g2]; exact h1 p hp
    have a2 : ∀ q u, q ≠ [] → readCfg d1 q = some (.leaf u) →
        ∃ p ∈ (k, v) :: done, ∃ r, q = splitDot p.1 ++ r ∧ readVal p.2 r = some (.leaf u) := by
      intro q u hq hu
      rcases read_put hd1 hu with ⟨r, hr, hv⟩ | ⟨m, hm⟩ | hold
      · exact ⟨(k, v), by simp, r, hr, hv⟩
      · cases hm
      · obtain ⟨p, hp, hr⟩ := h2 q u hq hold
        exact ⟨p, List.mem_cons_of_mem _ hp, hr⟩
    have a3 : ∀ p ∈ l, ∀ q ∈ (k, v) :: done, ¬ splitDot p.1 <+: splitDot q.1 ∧ ¬ splitDot q.1 <+: splitDot p.1 := by
      intro p hp q hq
      rcases List.mem_cons.1 hq with rfl | hq
      · exact ⟨(h5 p hp).2, (h5 p hp).1⟩
      · exact h3 p (List.mem_cons_of_mem _ hp) q hq
    obtain ⟨d', e1, e2, e3⟩ := ih ((k, v) :: done) d1 a1 a2 a3 h6
    refine ⟨d', by simp only [putAll, hd1, Option.bind_some, e1], fun p hp => e2 p ?_, fun q u hq hu => ?_⟩
    · rcases hp with hp | hp
      · exact .inl (List.mem_cons_of_mem _ hp)
      · rcases List.mem_cons.1 hp with rfl | hp
        · exact .inl (by simp)
        · exact .inr hp
    · obtain ⟨p, hp, hr⟩ := e3 q u hq hu
      refine ⟨p, ?_, hr⟩
      rcases hp with hp | hp
      · rcases List.mem_cons.1 hp with rfl | hp
        · exact .inr (by simp)
        · exact .inl hp
      · exact .inr (List.mem_cons_of_mem _ hp)

/-- the keys that `setup` keeps -/
def kept (pre : Option Text) (g : Cfg ν) : Cfg ν :=
  match pre with
  | none => g
  | some pre => if pre = [] then g else strip pre g

theorem mem_strip {pre : Text} {g : Cfg ν} {s : Text} {v : Val ν} : (s, v) ∈ strip pre g ↔ (pre ++ s, v) ∈ g := by
  unfold strip
  rw [List.mem_filterMap]
  constructor
  · rintro ⟨⟨k, w⟩, hm, h⟩
    split at h
    · rename_i hp
      obtain ⟨t, ht⟩ := List.isPrefixOf_iff_prefix.1 hp
      simp only [Option.some.injEq, Prod.mk.injEq] at h
      change pre ++ t = k at ht
      subst ht
      rw [List.drop_left] at h
      rw [← h.1, ← h.2]; exact hm
    · cases h
  · intro h
    refine ⟨_, h, ?_⟩
    rw [if_pos (List.isPrefixOf_iff_prefix.2 ⟨s, rfl⟩), List.drop_left]

theorem mem_kept {pre : Option Text} {g : Cfg ν} {s : Text} {v : Val ν} :
    (s, v) ∈ kept pre g ↔ ∃ k, Selected pre k s ∧ (k, v) ∈ g := by
  cases pre with
  | none => simp [kept, Selected]
  | some pre =>
    simp only [kept, Selected]
    split
    · rename_i h; subst h; simp
    · rw [mem_strip]; simp

theorem strip_wf {pre : Text} {g : Cfg ν} (hg : g.WF) : (strip pre g).WF := by
  unfold Dict.WF strip at *
  induction g with
  | nil => simp
  | cons p g ih =>
    simp only [List.map_cons, List.nodup_cons] at hg
    have ih := ih hg.2
    rw [List.filterMap_cons]
    split
    · exact ih
    · rename_i x hx
      split at hx
      · rename_i hp
        simp only [Option.some.injEq] at hx
        subst hx
        simp only [List.map_cons, List.nodup_cons]
        refine ⟨?_, ih⟩
        intro hm
        obtain ⟨⟨s, v⟩, hsv, he⟩ := List.mem_map.1 hm
        have h1 : (s, v) ∈ strip pre g := hsv
        rw [mem_strip] at h1
        obtain ⟨t, ht⟩ := List.isPrefixOf_iff_prefix.1 hp
        rw [← ht, List.drop_left] at he
        apply hg.1
        rw [← ht, ← he]
        exact List.mem_map.2 ⟨_, h1, rfl⟩
      · cases hx

theorem kept_wf {pre : Option Text} {g : Cfg ν} (hg : g.WF) : (kept pre g).WF := by
  unfold kept
  split
  · exact hg
  · split
    · exact hg
    · exact strip_wf hg

theorem get?_update (o : Cfg ν) : ∀ (c : Cfg ν) (k : Text), o.WF →
    (update c o).get? k = (o.get? k).or (c.get? k) := by
  induction o with
  | nil => intro c k _; simp [update, Dict.get?]
  | cons p o ih =>
    intro c k hw
    simp only [Dict.WF, List.map_cons, List.nodup_cons] at hw
    have := ih (c.set p.1 p.2) k hw.2
    unfold update at this ⊢
    rw [List.foldl_cons, this, Dict.get?_set]
    obtain ⟨a, b⟩ := p
    simp only [Dict.get?]
    by_cases h : a = k
    · subst h
      have : Dict.get? o a = none := (Dict.get?_eq_none o a).2 hw.1
      simp [this]
    · simp [h, Ne.symm h]

/-! ## C43 -/

/-- **C43** (guard): on a scheduler that is not stopped `setup` raises; otherwise it raises only if a dotted key
leads through a value that is not a mapping. -/
theorem C43_running (g : Option (Cfg ν)) (pre : Option Text) (o : Cfg ν) :
    setup false g pre o = .error .alreadyRunning ∧ ∀ e, setup true g pre o = .error e → e = .notMapping := by
  refine ⟨rfl, fun e he => ?_⟩
  simp only [setup, if_true] at he
  split at he
  · cases he; rfl
  · cases he

/-- **C43**: if no key continues another key after a dot, `setup` succeeds; every selected key is read back with
its value at its path, every option at its name, options win over keys, and there is nothing else. -/
theorem C43_setup_partial (g : Cfg ν) (pre : Option Text) (o : Cfg ν) (hg : g.WF) (ho : o.WF)
    (hc : NoConflict pre g) :
    ∃ c, setup true (some g) pre o = .ok c ∧
      (∀ k v, (k, v) ∈ o → readCfg c [k] = some v) ∧
      (∀ key short v first rest, (key, v) ∈ g → Selected pre key short → IsPath short (first :: rest) →
        first ∉ o.keys → readCfg c (first :: rest) = some v) ∧
      (∀ first rest u, first ∉ o.keys → readCfg c (first :: rest) = some (.leaf u) →
        ∃ key short v path r, (key, v) ∈ g ∧ Selected pre key short ∧ IsPath short path ∧
          first :: rest = path ++ r ∧ readVal v r = some (.leaf u)) ∧
      ∀ k, k ∈ c.keys → k ∈ o.keys ∨ ∃ key short path, key ∈ g.keys ∧ Selected pre key short ∧ IsPath short (k :: path) := by
  have hsetup : setup true (some g) pre o = match putAll (kept pre g) [] with
      | none => .error .notMapping
      | some c => .ok (update c o) := by
    cases pre with
    | none => rfl
    | some pre => simp only [setup, if_true, Option.getD_some, kept]; rfl
  have hkw := kept_wf (pre := pre) hg
  have hpw : (kept pre g).Pairwise (fun p q => ¬ splitDot p.1 <+: splitDot q.1 ∧ ¬ splitDot q.1 <+: splitDot p.1) := by
    have hne : (kept pre g).Pairwise (fun p q => p.1 ≠ q.1) := List.pairwise_map.1 hkw
    refine List.Pairwise.imp_of_mem ?_ hne
    intro p q hp hq hpq
    obtain ⟨s1, v1⟩ := p
    obtain ⟨s2, v2⟩ := q
    obtain ⟨k1, e1, m1⟩ := mem_kept.1 hp
    obtain ⟨k2, e2, m2⟩ := mem_kept.1 hq
    have c1 := hc k1 k2 s1 s2 (Dict.mem_keys_of_mem m1) (Dict.mem_keys_of_mem m2) e1 e2
    have c2 := hc k2 k1 s2 s1 (Dict.mem_keys_of_mem m2) (Dict.mem_keys_of_mem m1) e2 e1
    constructor
    · intro h
      rcases path_prefix h with h | h
      · exact hpq h
      · exact c1 h
    · intro h
      rcases path_prefix h with h | h
      · exact hpq h.symm
      · exact c2 h
  obtain ⟨c, h1, h2, h3⟩ := putAll_spec (kept pre g) [] [] (by simp)
    (by intro q u hq hu; cases q with
        | nil => exact absurd rfl hq
        | cons k q => simp [readCfg_cons, Dict.get?] at hu) (by simp) hpw
  have hread : ∀ first rest, first ∉ o.keys → readCfg (update c o) (first :: rest) = readCfg c (first :: rest) := by
    intro first rest hf
    rw [readCfg_cons, readCfg_cons, get?_update o c first ho, (Dict.get?_eq_none o first).2 hf]; rfl
  refine ⟨update c o, by rw [hsetup, h1], ?_, ?_, ?_, ?_⟩
  · intro k v hkv
    rw [readCfg_cons, get?_update o c k ho, Dict.get?_of_mem ho hkv]; simp [readVal]
  · intro key short v first rest hkv hsel hpath hf
    rw [hread _ _ hf]
    have hm : (short, v) ∈ kept pre g := mem_kept.2 ⟨key, hsel, hkv⟩
    have := h2 (short, v) (.inr hm)
    rw [(splitDot_isPath short).unique hpath] at this
    exact this
  · intro first rest u hf hu
    rw [hread _ _ hf] at hu
    obtain ⟨⟨short, v⟩, hp, r, hr, hv⟩ := h3 _ u (by simp) hu
    rcases hp with hp | hp
    · cases hp
    · obtain ⟨key, hsel, hkv⟩ := mem_kept.1 hp
      exact ⟨key, short, v, _, r, hkv, hsel, splitDot_isPath short, hr, hv⟩
  · -- top-level keys
    have hput : ∀ (p : List Text) (v : Val ν) (d d' : Cfg ν) (k : Text), put p v d = some d' → k ∈ d'.keys →
        k ∈ d.keys ∨ ∃ t, p = k :: t := by
      intro p v d d' k h hk
      have aux : ∀ a w, d' = d.set a w → (∃ t, p = a :: t) → k ∈ d.keys ∨ ∃ t, p = k :: t := by
        intro a w hd hp
        rw [hd, Dict.keys_set] at hk
        split at hk
        · exact .inl hk
        · rcases List.mem_append.1 hk with hk | hk
          · exact .inl hk
          · rw [List.mem_singleton] at hk; subst hk; exact .inr hp
      cases p with
      | nil => simp [put] at h
      | cons a p =>
        cases p with
        | nil =>
          simp only [put, Option.some.injEq] at h
          exact aux a v h.symm ⟨[], rfl⟩
        | cons x p =>
          rw [put_cons] at h
          cases hg : d.get? a with
          | none =>
            rw [hg] at h
            obtain ⟨m', _, he⟩ := Option.map_eq_some_iff.1 h
            exact aux a _ he.symm ⟨_, rfl⟩
          | some w =>
            rw [hg] at h
            cases w with
            | leaf u => cases h
            | map m =>
              obtain ⟨m', _, he⟩ := Option.map_eq_some_iff.1 h
              exact aux a _ he.symm ⟨_, rfl⟩
    have hall : ∀ (l : List (Text × Val ν)) (d d' : Cfg ν) (k : Text), putAll l d = some d' → k ∈ d'.keys →
        k ∈ d.keys ∨ ∃ p ∈ l, ∃ t, splitDot p.1 = k :: t := by
      intro l
      induction l with
      | nil => intro d d' k h hk; simp only [putAll, Option.some.injEq] at h; subst h; exact .inl hk
      | cons x l ih =>
        intro d d' k h hk
        simp only [putAll] at h
        obtain ⟨d1, hd1, h⟩ := Option.bind_eq_some_iff.1 h
        rcases ih d1 d' k h hk with hk | ⟨p, hp, ht⟩
        · rcases hput _ _ _ _ k hd1 hk with hk | ht
          · exact .inl hk
          · exact .inr ⟨x, by simp, ht⟩
        · exact .inr ⟨p, List.mem_cons_of_mem _ hp, ht⟩
    intro k hk
    by_cases hko : k ∈ o.keys
    · exact .inl hko
    · right
      have hkc : k ∈ c.keys := by
        by_cases h : k ∈ c.keys
        · exact h
        · have h1 := (Dict.get?_eq_none _ k).2 h
          have h2 := (Dict.get?_eq_none _ k).2 hko
          have h3 := get?_update o c k ho
          rw [h1, h2] at h3
          exact absurd hk ((Dict.get?_eq_none _ k).1 h3)
      rcases hall _ _ _ k h1 hkc with h | ⟨⟨short, v⟩, hp, t, ht⟩
      · simp [Dict.keys] at h
      · obtain ⟨key, hsel, hkv⟩ := mem_kept.1 hp
        exact ⟨key, short, t, Dict.mem_keys_of_mem hkv, hsel, by rw [← ht]; exact splitDot_isPath short⟩

/-! ### Concrete cases -/

def exCfg : Cfg Nat :=
  [("asyncz.stores.default.type".toList, .leaf 1), ("other.key".toList, .leaf 2), ("asyncz.timezone".toList, .leaf 3),
    ("asyncz.stores.default.path".toList, .leaf 4), ("asyncz.executors".toList, .map [("pool".toList, .leaf 5)])]

/-- the leaves of a configuration -/
def leafAt (c : Except Err (Cfg Nat)) (path : List String) : Option Nat :=
  match c with
  | .error _ => none
  | .ok c => match readCfg c (path.map String.toList) with
    | some (.leaf v) => some v
    | _ => none

def exSetup : Except Err (Cfg Nat) := setup true (some exCfg) (some "asyncz.".toList) [("timezone".toList, .leaf 9)]

example : leafAt exSetup ["stores", "default", "type"] = some 1 ∧ leafAt exSetup ["stores", "default", "path"] = some 4 ∧
    leafAt exSetup ["timezone"] = some 9 ∧ leafAt exSetup ["executors", "pool"] = some 5 ∧
    leafAt exSetup ["other", "key"] = none := by decide

example : exCfg.WF := by
  simp only [Dict.WF, exCfg, List.map_cons, List.map_nil]; decide

/-- the hypothesis of `C43_setup_partial` is met -/
example : NoConflict (some "asyncz.".toList) exCfg := by
  have key : ∀ s1 ∈ (strip "asyncz.".toList exCfg).map (·.1), ∀ s2 ∈ (strip "asyncz.".toList exCfg).map (·.1),
      ¬ (s1 ++ ['.']) <+: s2 := by decide
  intro k1 k2 s1 s2 h1 h2 e1 e2
  obtain ⟨⟨_, v1⟩, m1, r1⟩ := List.mem_map.1 h1
  obtain ⟨⟨_, v2⟩, m2, r2⟩ := List.mem_map.1 h2
  have f1 : (s1, v1) ∈ strip "asyncz.".toList exCfg := mem_strip.2 (by
    have : k1 = "asyncz.".toList ++ s1 := e1
    rw [← this, ← r1]; exact m1)
  have f2 : (s2, v2) ∈ strip "asyncz.".toList exCfg := mem_strip.2 (by
    have : k2 = "asyncz.".toList ++ s2 := e2
    rw [← this, ← r2]; exact m2)
  exact key s1 (List.mem_map.2 ⟨_, f1, rfl⟩) s2 (List.mem_map.2 ⟨_, f2, rfl⟩)

/-- What is missing in `C43_setup_partial`: if one key continues another, the value of the earlier key is lost
without an error when the shorter key comes second, and `setup` raises when it comes first. -/
theorem C43_conflict_witness :
    let a : Text × Val Nat := ("a.b".toList, .leaf 1)
    let b : Text × Val Nat := ("a".toList, .leaf 2)
    leafAt (setup true (some [a, b]) none []) ["a", "b"] = none ∧
    leafAt (setup true (some [a, b]) none []) ["a"] = some 2 ∧
    (match setup true (some [b, a]) none [] with | .error e => e = .notMapping | .ok _ => False) :=
  ⟨by decide, by decide, rfl⟩

/-! ## C43: executors and stores -/

/-- The three ways in which an entry is given, and what is made of it. -/
inductive Describes (py : Py ν κ) : Val ν → Made ν → Prop
  | given (v : ν) (h : py.isInstance v = true) : Describes py (.leaf v) (.given v)
  | plugin (d : Cfg ν) (t : Val ν) (h : d.get? "type".toList = some t) (ht : truthy py (some t) = true) :
      Describes py (.map d) (.plugin t ((d.erase "class".toList).erase "type".toList))
  | cls (d : Cfg ν) (t : Val ν) (hn : truthy py (d.get? "type".toList) = false)
      (h : d.get? "class".toList = some t) (ht : truthy py (some t) = true) :
      Describes py (.map d) (.class t ((d.erase "class".toList).erase "type".toList))

/-- the error for an entry that describes nothing -/
def refusal : Val ν → EntryErr
  | .leaf _ => .typeError
  | .map _ => .valueError

theorem made_iff (py : Py ν κ) (v : Val ν) (m : Made ν) (hv : ∀ d, v = .map d → Dict.WF d) :
    made py v = .ok m ↔ Describes py v m := by
  cases v with
  | leaf v =>
    simp only [made]
    constructor
    · intro h
      split at h
      · cases h; exact .given v ‹_›
      · cases h
    · intro h; cases h with | given _ h => simp [h]
  | map d =>
    have hw := hv d rfl
    have hg : Dict.get? (Dict.erase d "class".toList) "type".toList = Dict.get? d "type".toList := by
      rw [Dict.get?_erase hw, if_neg (by decide)]
    simp only [made, hg]
    constructor
    · intro h
      split at h
      · rename_i ht
        cases h
        cases hgt : Dict.get? d "type".toList with
        | none => rw [hgt] at ht; cases ht
        | some t => rw [hgt] at ht; exact .plugin d t hgt ht
      · rename_i ht
        split at h
        · rename_i hc
          cases h
          cases hgc : Dict.get? d "class".toList with
          | none => rw [hgc] at hc; cases hc
          | some t =>
            rw [hgc] at hc
            exact .cls d t (Bool.eq_false_iff.2 ht) hgc hc
        · cases h
    · intro h
      cases h with
      | plugin _ t h ht => rw [h, if_pos ht]; rfl
      | cls _ t hn h ht => rw [hn, h]; simp [ht]

/-- **C43** (executors, stores): the configured aliases are registered exactly, each with the object its entry
describes; if an entry cannot be made, the ones before it are registered and no others. -/
theorem C43_entries (py : Py ν κ) (conf : Cfg ν) (hw : conf.WF) (hv : ∀ a d, (a, Val.map d) ∈ conf → Dict.WF d) :
    ∃ before after, conf = before ++ after ∧
      (configure py conf).1.keys = before.keys ∧
      (∀ a v, (a, v) ∈ before → ∃ m x, Describes py v m ∧ py.create m = some x ∧ (configure py conf).1.get? a = some x) ∧
      ((configure py conf).2 = none ↔ after = []) ∧
      ∀ e, (configure py conf).2 = some e → ∃ a v rest, after = (a, v) :: rest ∧
        ((∃ m, Describes py v m ∧ py.create m = none ∧ e = .creation) ∨
         ((∀ m, ¬ Describes py v m) ∧ e = refusal v)) := by
  have main : ∀ (l done : List (Text × Val ν)) (reg : Dict Text κ), conf = done ++ l → reg.keys = done.map (·.1) →
      (∀ a v, (a, v) ∈ done → ∃ m x, Describes py v m ∧ py.create m = some x ∧ reg.get? a = some x) →
      ∃ before after, conf = before ++ after ∧ (entries py l reg).1.keys = before.map (·.1) ∧
      (∀ a v, (a, v) ∈ before → ∃ m x, Describes py v m ∧ py.create m = some x ∧ (entries py l reg).1.get? a = some x) ∧
      ((entries py l reg).2 = none ↔ after = []) ∧
      ∀ e, (entries py l reg).2 = some e → ∃ a v rest, after = (a, v) :: rest ∧
        ((∃ m, Describes py v m ∧ py.create m = none ∧ e = .creation) ∨
         ((∀ m, ¬ Describes py v m) ∧ e = refusal v)) := by
    intro l
    induction l with
    | nil =>
      intro done reg h1 h2 h3
      exact ⟨done, [], h1, h2, h3, by simp [entries], fun e he => by cases he⟩
    | cons p l ih =>
      intro done reg h1 h2 h3
      obtain ⟨a, v⟩ := p
      have hvw : ∀ d, v = .map d → Dict.WF d := fun d hd => hv a d (by rw [h1, ← hd]; simp)
      have hstop : ∀ e, entries py ((a, v) :: l) reg = (reg, some e) →
          ((∃ m, Describes py v m ∧ py.create m = none ∧ e = .creation) ∨
           ((∀ m, ¬ Describes py v m) ∧ e = refusal v)) →
          ∃ before after, conf = before ++ after ∧ (entries py ((a, v) :: l) reg).1.keys = before.map (·.1) ∧
          (∀ a' v', (a', v') ∈ before → ∃ m x, Describes py v' m ∧ py.create m = some x ∧
            (entries py ((a, v) :: l) reg).1.get? a' = some x) ∧
          ((entries py ((a, v) :: l) reg).2 = none ↔ after = []) ∧
          ∀ e, (entries py ((a, v) :: l) reg).2 = some e → ∃ a v rest, after = (a, v) :: rest ∧
            ((∃ m, Describes py v m ∧ py.create m = none ∧ e = .creation) ∨
             ((∀ m, ¬ Describes py v m) ∧ e = refusal v)) :=
        fun e he hh => ⟨done, (a, v) :: l, h1, by rw [he]; exact h2, by rw [he]; exact h3, by rw [he]; simp, by
          intro e' he'
          rw [he] at he'
          cases he'
          exact ⟨a, v, l, rfl, hh⟩⟩
      cases hm : made py v with
      | error e =>
        refine hstop e (by simp only [entries, entry, hm]) (.inr ⟨fun m hd => ?_, ?_⟩)
        · rw [(made_iff py v m hvw).2 hd] at hm; cases hm
        · cases v with
          | leaf v => simp only [made] at hm; split at hm <;> cases hm; rfl
          | map d =>
            simp only [made] at hm
            split at hm
            · cases hm
            · split at hm <;> cases hm
              rfl
      | ok m =>
        have hd := (made_iff py v m hvw).1 hm
        cases hc : py.create m with
        | none => exact hstop .creation (by simp only [entries, entry, hm, hc]) (.inl ⟨m, hd, hc, rfl⟩)
        | some x =>
          have hna : a ∉ reg.keys := by
            rw [h2]
            rw [h1] at hw
            unfold Dict.WF at hw
            rw [List.map_append, List.nodup_append] at hw
            intro hin
            exact hw.2.2 a hin a (by simp) rfl
          have hadd : add a x reg = .ok (reg.set a x) := by
            have : reg.contains a = false := by
              unfold Dict.contains; rw [(Dict.get?_eq_none reg a).2 hna]; rfl
            simp [add, this]
          have he : entries py ((a, v) :: l) reg = entries py l (reg.set a x) := by
            simp only [entries, entry, hm, hc, hadd]
          rw [he]
          refine ih (done ++ [(a, v)]) (reg.set a x) (by rw [h1]; simp) ?_ ?_
          · rw [Dict.keys_set, if_neg hna, h2]; simp
          · intro b w hbw
            rcases List.mem_append.1 hbw with hbw | hbw
            · obtain ⟨m', x', g1, g2, g3⟩ := h3 b w hbw
              refine ⟨m', x', g1, g2, ?_⟩
              rw [Dict.get?_set, if_neg]
              · exact g3
              · rintro rfl
                exact hna (Dict.mem_keys_of_mem (Dict.mem_of_get? g3))
            · rw [List.mem_singleton] at hbw
              cases hbw
              exact ⟨m, x, hd, hc, by rw [Dict.get?_set, if_pos rfl]⟩
  exact main conf [] [] rfl rfl (by simp)

/-- a concrete registry: instance, plugin, class (with an empty `type`), and an entry that is refused -/
def exPy : Py Nat (Nat × Nat) where
  isInstance := fun v => decide (100 ≤ v)
  truthy := fun v => decide (v ≠ 0)
  create := fun m => match m with
    | .given v => some (v, 0)
    | .plugin (.leaf n) args => some (n, args.length)
    | .class (.leaf n) args => some (1000 + n, args.length)
    | _ => none

def exStores : Cfg Nat :=
  [("a".toList, .leaf 100), ("b".toList, .map [("type".toList, .leaf 7), ("class".toList, .leaf 8), ("p".toList, .leaf 1)]),
    ("c".toList, .map [("type".toList, .leaf 0), ("class".toList, .leaf 8)])]

example : configure exPy exStores = ([(['a'], 100, 0), (['b'], 7, 1), (['c'], 1008, 0)], none) ∧
    configure exPy (exStores ++ [("d".toList, .map []), ("e".toList, .leaf 100)]) =
      ([(['a'], 100, 0), (['b'], 7, 1), (['c'], 1008, 0)], some .valueError) := by decide

/-- **C43** (aliases): adding an executor or a store under an alias that is taken is refused (`ValueError`); under a new
alias it is added, and all others are left as they are. -/
theorem C43_alias (alias : Text) (x : κ) (reg : Dict Text κ) :
    (∀ y, reg.get? alias = some y → add alias x reg = .error .valueError) ∧
    (reg.get? alias = none → ∃ reg', add alias x reg = .ok reg' ∧ reg'.get? alias = some x ∧
      ∀ b, b ≠ alias → reg'.get? b = reg.get? b) := by
  constructor
  · intro y h
    simp [add, Dict.contains, h]
  · intro h
    refine ⟨reg.set alias x, by simp [add, Dict.contains, h], by simp [Dict.get?_set], fun b hb => ?_⟩
    simp [Dict.get?_set, hb]

example : add (κ := Nat) "a".toList 2 [("a".toList, 1)] = .error .valueError := by rfl

/-! ## C58: task defaults -/

theorem get?_setDefault (kw : Dict String (OptVal ν)) (key k : String) (v : OptVal ν) :
    (setDefault kw key v).get? k = if k = key then some ((kw.get? key).getD v) else kw.get? k := by
  unfold setDefault Dict.contains
  cases h : kw.get? key with
  | none =>
    simp only [Option.isSome_none, Bool.false_eq_true, if_false, Dict.get?_set, Option.getD_none]
  | some x =>
    simp only [Option.isSome_some, if_true, Option.getD_some]
    split
    · rename_i hk; rw [hk, h]
    · rfl

/-- **C58** (coalesce, max_instances, grace time): an option of a task made by `add_task` from a callable is the
argument if one was given, otherwise the configured default; the grace time of a trigger that allows mistriggering
is unlimited unless given.  Missing: a configured grace time of `None`. -/
theorem C58_defaults_partial (given : Dict String (OptVal ν)) (allow : Bool) (d : Defaults ν)
    (cd : String → OptVal ν) :
    let opt := option cd (taskKwargs given allow d)
    (∀ key v, given.get? key = some v → opt key = v) ∧
    (given.get? "coalesce" = none → opt "coalesce" = some d.coalesce) ∧
    (given.get? "max_instances" = none → opt "max_instances" = some d.maxInstances) ∧
    (given.get? "mistrigger_grace_time" = none → allow = true → opt "mistrigger_grace_time" = none) ∧
    (given.get? "mistrigger_grace_time" = none → allow = false → d.grace ≠ none → opt "mistrigger_grace_time" = d.grace) ∧
    (∀ key, key ∉ ["mistrigger_grace_time", "coalesce", "max_instances"] → given.get? key = none → opt key = cd key) := by
  have hk : ∀ k, (taskKwargs given allow d).get? k =
      if k = "max_instances" then some ((given.get? "max_instances").getD (some d.maxInstances))
      else if k = "coalesce" then some ((given.get? "coalesce").getD (some d.coalesce))
      else if k = "mistrigger_grace_time" then
        (if allow then some ((given.get? k).getD none)
          else if d.grace.isSome then some ((given.get? k).getD d.grace) else given.get? k)
      else given.get? k := by
    intro k
    cases hg : d.grace <;> cases allow <;>
      simp only [taskKwargs, Defaults.dump, hg, List.filter_cons, List.filter_nil, Option.isSome_none, Option.isSome_some,
        if_true, Bool.false_eq_true, if_false, List.foldl_cons, List.foldl_nil, get?_setDefault, String.reduceEq]
    all_goals
      by_cases h1 : k = "max_instances"
      · simp [h1]
      · by_cases h2 : k = "coalesce"
        · simp [h2]
        · by_cases h3 : k = "mistrigger_grace_time"
          · simp [h3]
          · simp [h1, h2, h3]
  intro opt
  refine ⟨?_, ?_, ?_, ?_, ?_, ?_⟩
  · intro key v h
    simp only [opt, option, hk]
    split
    · rename_i e; subst e; simp [h]
    · split
      · rename_i e; subst e; simp [h]
      · split
        · rename_i e; subst e
          split
          · simp [h]
          · split <;> simp [h]
        · simp [h]
  · intro h; simp [opt, option, hk, h]
  · intro h; simp [opt, option, hk, h]
  · intro h ha; simp only [opt, option, hk]; simp [h, ha]
  · intro h ha hd
    obtain ⟨x, hx⟩ := Option.ne_none_iff_exists'.1 hd
    simp only [opt, option, hk]; simp [h, ha, hx]
  · intro key hn h
    simp only [List.mem_cons, List.not_mem_nil, or_false, not_or] at hn
    simp [opt, option, hk, h, hn.1, hn.2.1, hn.2.2]

/-- the class defaults (tasks/types.py:16-19) -/
def classDefault : String → OptVal Nat
  | "mistrigger_grace_time" => some 1
  | "coalesce" => some 1
  | "max_instances" => some 1
  | _ => none

/-- What is missing in `C58_defaults_partial`: the configured default "no limit" (`mistrigger_grace_time: None`) is
not applied; the task gets the limit of one second. -/
theorem C58_none_witness : ∃ d : Defaults Nat, d.grace = none ∧
    option classDefault (taskKwargs [] false d) "mistrigger_grace_time" = some 1 :=
  ⟨⟨none, 1, 1⟩, rfl, by decide⟩

/-- a task with its own `max_instances` under configured defaults -/
example :
    let kw := taskKwargs [("max_instances", some 4)] false (⟨some 30, 0, 2⟩ : Defaults Nat)
    (option classDefault kw "max_instances", option classDefault kw "coalesce",
      option classDefault kw "mistrigger_grace_time") = (some 4, some 0, some 30) := by decide

end Config
end Asyncz
