import Verif.Model.CallArgs
/-!
# Argument validation (C45)
-/
namespace Asyncz
namespace Call

/-- no error was noted -/
def Loc.Clean (l : Loc) : Prop := l.posKwConflicts = [] ∧ l.posOnlyKws = [] ∧ l.unsatArgs = [] ∧ l.unsatKws = []

/-- what the loop checks of the parameters -/
def Fine (n : Nat) (kws : List String) (ps : List Param) : Prop :=
  (∀ i p, (ps.filter Param.positional)[i]? = some p →
    (i < n → p.kind = .posOrKw → p.name ∉ kws) ∧
    (n ≤ i → (p.kind = .posOrKw ∧ p.name ∈ kws) ∨ (p.hasDefault = true ∧ p.name ∉ kws))) ∧
  ∀ p ∈ ps, p.kind = .kwOnly → p.hasDefault = true ∨ p.name ∈ kws

theorem fine_nil (n : Nat) (kws : List String) : Fine n kws [] := ⟨fun i p h => by simp at h, fun p h => by cases h⟩

theorem fine_cons_pos {n : Nat} {kws : List String} {p : Param} {ps : List Param} (hp : p.positional = true) :
    Fine n kws (p :: ps) ↔
      ((n ≠ 0 → p.kind = .posOrKw → p.name ∉ kws) ∧
       (n = 0 → (p.kind = .posOrKw ∧ p.name ∈ kws) ∨ (p.hasDefault = true ∧ p.name ∉ kws))) ∧ Fine (n - 1) kws ps := by
  have hk : p.kind ≠ .kwOnly := by
    intro h; simp [Param.positional, h] at hp
  simp only [Fine, List.filter_cons, hp, if_true]
  constructor
  · rintro ⟨h1, h2⟩
    refine ⟨⟨fun hn => (h1 0 p rfl).1 (by omega), fun hn => (h1 0 p rfl).2 (by omega)⟩, fun i q hq => ?_,
      fun q hq => h2 q (List.mem_cons_of_mem _ hq)⟩
    have := h1 (i + 1) q (by simpa using hq)
    by_cases hn : n = 0
    · subst hn
      exact ⟨fun h => by omega, fun _ => this.2 (by omega)⟩
    · exact ⟨fun h => this.1 (by omega), fun h => this.2 (by omega)⟩
  · rintro ⟨⟨h0, h0'⟩, h1, h2⟩
    refine ⟨fun i q hq => ?_, fun q hq hkq => ?_⟩
    · cases i with
      | zero =>
        simp only [List.getElem?_cons_zero, Option.some.injEq] at hq
        subst hq
        exact ⟨fun h => h0 (by omega), fun h => h0' (by omega)⟩
      | succ i =>
        simp only [List.getElem?_cons_succ] at hq
        have := h1 i q hq
        exact ⟨fun h => this.1 (by omega), fun h => this.2 (by omega)⟩
    · rcases List.mem_cons.1 hq with rfl | hq
      · exact absurd hkq hk
      · exact h2 q hq hkq

theorem fine_cons_nonpos {n : Nat} {kws : List String} {p : Param} {ps : List Param} (hp : p.positional = false) :
    Fine n kws (p :: ps) ↔ (p.kind = .kwOnly → p.hasDefault = true ∨ p.name ∈ kws) ∧ Fine n kws ps := by
  simp only [Fine, List.filter_cons, hp, Bool.false_eq_true, if_false, List.mem_cons, forall_eq_or_imp]
  constructor
  · rintro ⟨a, b, c⟩; exact ⟨b, a, c⟩
  · rintro ⟨b, a, c⟩; exact ⟨a, b, c⟩

/-- only the keywords that are names of the parameters matter -/
theorem fine_congr {n : Nat} {k1 k2 : List String} {ps : List Param} (h : ∀ p ∈ ps, p.name ∈ k1 ↔ p.name ∈ k2) :
    Fine n k1 ps ↔ Fine n k2 ps := by
  have key : ∀ k1 k2 : List String, (∀ p ∈ ps, p.name ∈ k1 ↔ p.name ∈ k2) → Fine n k1 ps → Fine n k2 ps := by
    intro k1 k2 h ⟨h1, h2⟩
    refine ⟨fun i p hp => ?_, fun p hp hk => ?_⟩
    · have hm : p ∈ ps := (List.mem_filter.1 (List.mem_of_getElem? hp)).1
      rw [← h p hm]; exact h1 i p hp
    · rw [← h p hp]; exact h2 p hp hk
  exact ⟨key k1 k2 h, key k2 k1 fun p hp => (h p hp).symm⟩

/-- errors are never forgotten -/
theorem dirty_visit {l : Loc} {p : Param} (h : ¬ l.Clean) : ¬ (visit l p).Clean := by
  intro hc; apply h
  unfold visit Loc.Clean at *
  split at hc
  all_goals (repeat' split at hc)
  all_goals simp_all

theorem dirty_fold {ps : List Param} {l : Loc} (h : ¬ l.Clean) : ¬ (ps.foldl visit l).Clean := by
  induction ps generalizing l with
  | nil => exact h
  | cons p ps ih => exact ih (dirty_visit h)

theorem visit_flags (l : Loc) (p : Param) :
    (visit l p).hasVarargs = (l.hasVarargs || p.kind == .varPos) ∧ (visit l p).hasVarKw = (l.hasVarKw || p.kind == .varKw) := by
  unfold visit
  cases hk : p.kind <;> simp only <;> (repeat' split) <;> simp

theorem fold_flags (ps : List Param) (l : Loc) :
    ((ps.foldl visit l).hasVarargs = true ↔ l.hasVarargs = true ∨ ∃ p ∈ ps, p.kind = .varPos) ∧
    ((ps.foldl visit l).hasVarKw = true ↔ l.hasVarKw = true ∨ ∃ p ∈ ps, p.kind = .varKw) := by
  induction ps generalizing l with
  | nil => simp
  | cons p ps ih =>
    rw [List.foldl_cons, (ih _).1, (ih _).2, (visit_flags l p).1, (visit_flags l p).2]
    simp [or_assoc]

theorem fold_spec (ps : List Param) : ∀ (l : Loc), (ps.map (·.name)).Nodup → l.kws.Nodup → l.Clean →
    ((ps.foldl visit l).Clean ↔ Fine l.args l.kws ps) ∧
    ((ps.foldl visit l).Clean →
      (ps.foldl visit l).args = l.args - (ps.filter Param.positional).length ∧
      (∀ k, k ∈ (ps.foldl visit l).kws ↔ k ∈ l.kws ∧ ¬ ∃ p ∈ ps, p.byKeyword ∧ p.name = k)) := by
  induction ps with
  | nil =>
    intro l _ _ hc
    exact ⟨⟨fun _ => fine_nil _ _, fun _ => hc⟩, fun _ => ⟨by simp, by simp⟩⟩
  | cons p ps ih =>
    intro l hn hk hc
    simp only [List.map_cons, List.nodup_cons] at hn
    have hne : ∀ q ∈ ps, q.name ≠ p.name := fun q hq e => hn.1 (List.mem_map.2 ⟨q, hq, e⟩)
    have herase : ∀ q ∈ ps, q.name ∈ l.kws.erase p.name ↔ q.name ∈ l.kws := fun q hq =>
      List.mem_erase_of_ne (hne q hq)
    have hkerase : ∀ k, k ∈ l.kws.erase p.name ↔ k ∈ l.kws ∧ k ≠ p.name := fun k => by
      rw [hk.mem_erase_iff]; exact And.comm
    rw [List.foldl_cons]
    have bad : ∀ l', ¬ Loc.Clean l' → ¬ Fine l.args l.kws (p :: ps) →
        ((ps.foldl visit l').Clean ↔ Fine l.args l.kws (p :: ps)) ∧
        ((ps.foldl visit l').Clean →
          (ps.foldl visit l').args = l.args - ((p :: ps).filter Param.positional).length ∧
          (∀ k, k ∈ (ps.foldl visit l').kws ↔ k ∈ l.kws ∧ ¬ ∃ q ∈ p :: ps, q.byKeyword ∧ q.name = k)) :=
      fun l' h1 h2 => ⟨⟨fun h => absurd h (dirty_fold h1), fun h => absurd h h2⟩, fun h => absurd h (dirty_fold h1)⟩
    cases hkind : p.kind with
    | posOrKw =>
      have hpos : p.positional = true := by simp [Param.positional, hkind]
      have hby : p.byKeyword = true := by simp [Param.byKeyword, hkind]
      simp only [visit, hkind]
      split
      · rename_i h
        refine bad _ (fun h' => by simp [Loc.Clean] at h') (fun h' => ?_)
        exact ((fine_cons_pos hpos).1 h').1.1 h.2 hkind h.1
      · rename_i h
        split
        · rename_i ha
          have hkw : p.name ∉ l.kws := fun h' => h ⟨h', ha⟩
          obtain ⟨i1, i2⟩ := ih { l with args := l.args - 1 } hn.2 hk hc
          refine ⟨i1.trans ?_, fun hcl => ⟨?_, fun k => ?_⟩⟩
          · rw [fine_cons_pos hpos]
            exact ⟨fun h => ⟨⟨fun _ _ => hkw, fun h0 => absurd h0 ha⟩, h⟩, fun h => h.2⟩
          · rw [(i2 hcl).1, List.filter_cons, if_pos hpos, List.length_cons]
            show l.args - 1 - _ = _
            omega
          · rw [(i2 hcl).2 k]
            simp only [List.mem_cons, exists_eq_or_imp, hby, true_and, not_or]
            exact ⟨fun h => ⟨h.1, fun e => hkw (e ▸ h.1), h.2⟩, fun h => ⟨h.1, h.2.2⟩⟩
        · rename_i ha
          have ha : l.args = 0 := by omega
          split
          · rename_i hkw
            obtain ⟨i1, i2⟩ := ih { l with kws := l.kws.erase p.name } hn.2 (hk.erase _) hc
            refine ⟨i1.trans ?_, fun hcl => ⟨?_, fun k => ?_⟩⟩
            · rw [fine_cons_pos hpos]
              show Fine l.args (l.kws.erase p.name) ps ↔ _
              rw [fine_congr herase, ha]
              exact ⟨fun h => ⟨⟨fun h0 => absurd rfl h0, fun _ => .inl ⟨hkind, hkw⟩⟩, h⟩, fun h => h.2⟩
            · rw [(i2 hcl).1]
              show l.args - _ = _
              omega
            · rw [(i2 hcl).2 k]
              show k ∈ l.kws.erase p.name ∧ _ ↔ _
              rw [hkerase]
              simp only [List.mem_cons, exists_eq_or_imp, hby, true_and, not_or]
              exact ⟨fun h => ⟨h.1.1, fun e => h.1.2 e.symm, h.2⟩, fun h => ⟨⟨h.1, fun e => h.2.1 e.symm⟩, h.2.2⟩⟩
          · rename_i hkw
            split
            · rename_i hd
              refine bad _ (fun h' => by simp [Loc.Clean] at h') (fun h' => ?_)
              rcases ((fine_cons_pos hpos).1 h').1.2 ha with h | h
              · exact hkw h.2
              · simp [h.1] at hd
            · rename_i hd
              have hd : p.hasDefault = true := by simpa using hd
              obtain ⟨i1, i2⟩ := ih l hn.2 hk hc
              refine ⟨i1.trans ?_, fun hcl => ⟨?_, fun k => ?_⟩⟩
              · rw [fine_cons_pos hpos, ha]
                exact ⟨fun h => ⟨⟨fun h0 => absurd rfl h0, fun _ => .inr ⟨hd, hkw⟩⟩, h⟩, fun h => h.2⟩
              · rw [(i2 hcl).1]; omega
              · rw [(i2 hcl).2 k]
                simp only [List.mem_cons, exists_eq_or_imp, hby, true_and, not_or]
                exact ⟨fun h => ⟨h.1, fun e => hkw (e ▸ h.1), h.2⟩, fun h => ⟨h.1, h.2.2⟩⟩
    | posOnly =>
      have hpos : p.positional = true := by simp [Param.positional, hkind]
      have hby : p.byKeyword = false := by simp [Param.byKeyword, hkind]
      simp only [visit, hkind]
      split
      · rename_i ha
        obtain ⟨i1, i2⟩ := ih { l with args := l.args - 1 } hn.2 hk hc
        refine ⟨i1.trans ?_, fun hcl => ⟨?_, fun k => ?_⟩⟩
        · rw [fine_cons_pos hpos]
          exact ⟨fun h => ⟨⟨fun _ h0 => (by rw [hkind] at h0; cases h0), fun h0 => absurd h0 ha⟩, h⟩, fun h => h.2⟩
        · rw [(i2 hcl).1, List.filter_cons, if_pos hpos, List.length_cons]
          show l.args - 1 - _ = _
          omega
        · rw [(i2 hcl).2 k]
          simp [hby]
      · rename_i ha
        have ha : l.args = 0 := by omega
        split
        · rename_i hkw
          refine bad _ (fun h' => by simp [Loc.Clean] at h') (fun h' => ?_)
          rcases ((fine_cons_pos hpos).1 h').1.2 ha with h | h
          · rw [hkind] at h; cases h.1
          · exact h.2 hkw
        · rename_i hkw
          split
          · rename_i hd
            refine bad _ (fun h' => by simp [Loc.Clean] at h') (fun h' => ?_)
            rcases ((fine_cons_pos hpos).1 h').1.2 ha with h | h
            · exact hkw h.2
            · simp [h.1] at hd
          · rename_i hd
            have hd : p.hasDefault = true := by simpa using hd
            obtain ⟨i1, i2⟩ := ih l hn.2 hk hc
            refine ⟨i1.trans ?_, fun hcl => ⟨?_, fun k => ?_⟩⟩
            · rw [fine_cons_pos hpos, ha]
              exact ⟨fun h => ⟨⟨fun h0 => absurd rfl h0, fun _ => .inr ⟨hd, hkw⟩⟩, h⟩, fun h => h.2⟩
            · rw [(i2 hcl).1]; omega
            · rw [(i2 hcl).2 k]
              simp [hby]
    | kwOnly =>
      have hpos : p.positional = false := by simp [Param.positional, hkind]
      have hby : p.byKeyword = true := by simp [Param.byKeyword, hkind]
      simp only [visit, hkind]
      split
      · rename_i hkw
        obtain ⟨i1, i2⟩ := ih { l with kws := l.kws.erase p.name } hn.2 (hk.erase _) hc
        refine ⟨i1.trans ?_, fun hcl => ⟨?_, fun k => ?_⟩⟩
        · rw [fine_cons_nonpos hpos]
          show Fine l.args (l.kws.erase p.name) ps ↔ _
          rw [fine_congr herase]
          exact ⟨fun h => ⟨fun _ => .inr hkw, h⟩, fun h => h.2⟩
        · rw [(i2 hcl).1, List.filter_cons, hpos]; rfl
        · rw [(i2 hcl).2 k]
          show k ∈ l.kws.erase p.name ∧ _ ↔ _
          rw [hkerase]
          simp only [List.mem_cons, exists_eq_or_imp, hby, true_and, not_or]
          exact ⟨fun h => ⟨h.1.1, fun e => h.1.2 e.symm, h.2⟩, fun h => ⟨⟨h.1, fun e => h.2.1 e.symm⟩, h.2.2⟩⟩
      · rename_i hkw
        split
        · rename_i hd
          refine bad _ (fun h' => by simp [Loc.Clean] at h') (fun h' => ?_)
          rcases ((fine_cons_nonpos hpos).1 h').1 hkind with h | h
          · simp [h] at hd
          · exact hkw h
        · rename_i hd
          have hd : p.hasDefault = true := by simpa using hd
          obtain ⟨i1, i2⟩ := ih l hn.2 hk hc
          refine ⟨i1.trans ?_, fun hcl => ⟨?_, fun k => ?_⟩⟩
          · rw [fine_cons_nonpos hpos]
            exact ⟨fun h => ⟨fun _ => .inl hd, h⟩, fun h => h.2⟩
          · rw [(i2 hcl).1, List.filter_cons, hpos]; rfl
          · rw [(i2 hcl).2 k]
            simp only [List.mem_cons, exists_eq_or_imp, hby, true_and, not_or]
            exact ⟨fun h => ⟨h.1, fun e => hkw (e ▸ h.1), h.2⟩, fun h => ⟨h.1, h.2.2⟩⟩
    | varPos =>
      have hpos : p.positional = false := by simp [Param.positional, hkind]
      have hby : p.byKeyword = false := by simp [Param.byKeyword, hkind]
      simp only [visit, hkind]
      obtain ⟨i1, i2⟩ := ih { l with hasVarargs := true } hn.2 hk hc
      refine ⟨i1.trans ?_, fun hcl => ⟨?_, fun k => ?_⟩⟩
      · rw [fine_cons_nonpos hpos]
        exact ⟨fun h => ⟨fun h0 => (by rw [hkind] at h0; cases h0), h⟩, fun h => h.2⟩
      · rw [(i2 hcl).1, List.filter_cons, hpos]; rfl
      · rw [(i2 hcl).2 k]; simp [hby]
    | varKw =>
      have hpos : p.positional = false := by simp [Param.positional, hkind]
      have hby : p.byKeyword = false := by simp [Param.byKeyword, hkind]
      simp only [visit, hkind]
      obtain ⟨i1, i2⟩ := ih { l with hasVarKw := true } hn.2 hk hc
      refine ⟨i1.trans ?_, fun hcl => ⟨?_, fun k => ?_⟩⟩
      · rw [fine_cons_nonpos hpos]
        exact ⟨fun h => ⟨fun h0 => (by rw [hkind] at h0; cases h0), h⟩, fun h => h.2⟩
      · rw [(i2 hcl).1, List.filter_cons, hpos]; rfl
      · rw [(i2 hcl).2 k]; simp [hby]

theorem verdict_none {n : Nat} {l : Loc} :
    verdict n l = none ↔ l.Clean ∧ (l.hasVarargs = true ∨ l.args = 0) ∧ (l.hasVarKw = true ∨ l.kws = []) := by
  unfold verdict Loc.Clean
  constructor
  · intro h
    repeat' split at h
    all_goals simp_all
    all_goals grind
  · rintro ⟨⟨h1, h2, h3, h4⟩, h5, h6⟩
    simp only [h1, h2, h3, h4, ne_eq, not_true_eq_false, if_false]
    rcases h5 with h5 | h5 <;> rcases h6 with h6 | h6 <;> simp [h5, h6]

/-- A positional-only parameter that is not reached by the positional arguments has the name of a keyword. -/
def ShadowedPosOnly (ps : List Param) (n : Nat) (kws : List String) : Prop :=
  ∃ i p, (ps.filter Param.positional)[i]? = some p ∧ n ≤ i ∧ p.kind = .posOnly ∧ p.name ∈ kws

theorem check_spec {ps : List Param} {n : Nat} {kws : List String} (hps : (ps.map (·.name)).Nodup) (hk : kws.Nodup) :
    checkCallableArgs ps n kws = none ↔ Binds ps n kws ∧ ¬ ShadowedPosOnly ps n kws := by
  obtain ⟨h1, h2⟩ := fold_spec ps { args := n, kws } hps hk ⟨rfl, rfl, rfl, rfl⟩
  obtain ⟨h3, h4⟩ := fold_flags ps { args := n, kws }
  unfold checkCallableArgs
  rw [verdict_none]
  simp only [Bool.false_eq_true, false_or] at h1 h2 h3 h4
  constructor
  · rintro ⟨hc, ha, hkw⟩
    obtain ⟨f1, f2⟩ := h1.1 hc
    obtain ⟨e1, e2⟩ := h2 hc
    rw [e1, h3] at ha
    refine ⟨⟨?_, ?_, fun i p hp => (f1 i p hp).1, ?_, f2⟩, ?_⟩
    · rcases ha with ha | ha
      · exact .inr ha
      · exact .inl (by omega)
    · intro k hkm
      rcases hkw with h | h
      · exact .inr (h4.1 h)
      · left
        refine Decidable.byContradiction fun hno => ?_
        have := (e2 k).2 ⟨hkm, hno⟩
        rw [h] at this; cases this
    · intro i p hp hi
      rcases (f1 i p hp).2 hi with h | h
      · exact .inr h
      · exact .inl h.1
    · rintro ⟨i, p, hp, hi, hkind, hm⟩
      rcases (f1 i p hp).2 hi with h | h
      · rw [hkind] at h; cases h.1
      · exact h.2 hm
  · rintro ⟨⟨b1, b2, b3, b4, b5⟩, hno⟩
    have hf : Fine n kws ps := by
      refine ⟨fun i p hp => ⟨b3 i p hp, fun hi => ?_⟩, b5⟩
      by_cases hm : p.name ∈ kws
      · left
        refine ⟨?_, hm⟩
        have hpos := (List.mem_filter.1 (List.mem_of_getElem? hp)).2
        cases hkind : p.kind with
        | posOrKw => rfl
        | posOnly => exact absurd ⟨i, p, hp, hi, hkind, hm⟩ hno
        | _ => simp [Param.positional, hkind] at hpos
      · rcases b4 i p hp hi with h | h
        · exact .inr ⟨h, hm⟩
        · exact absurd h.2 hm
    have hc := h1.2 hf
    obtain ⟨e1, e2⟩ := h2 hc
    refine ⟨hc, ?_, ?_⟩
    · rw [e1, h3]
      rcases b1 with h | h
      · exact .inr (by omega)
      · exact .inl h
    · rw [h4]
      by_cases hv : ∃ p ∈ ps, p.kind = .varKw
      · exact .inl hv
      · right
        refine List.eq_nil_iff_forall_not_mem.2 fun k hkm => ?_
        obtain ⟨hk1, hk2⟩ := (e2 k).1 hkm
        rcases b2 k hk1 with h | h
        · exact hk2 h
        · exact hv h

/-- **C45**, first half: what is accepted binds, for every signature (parameter names are distinct), every number of
positional arguments and all keywords (a dict has distinct keys). -/
theorem C45_accepted {ps : List Param} {n : Nat} {kws : List String} (hps : (ps.map (·.name)).Nodup) (hk : kws.Nodup)
    (h : checkCallableArgs ps n kws = none) : Binds ps n kws :=
  ((check_spec hps hk).1 h).1

/-- **C45**, second half: what is rejected does not bind.  Missing: a keyword with the name of a positional-only
parameter that the positional arguments do not reach. -/
theorem C45_rejected_partial {ps : List Param} {n : Nat} {kws : List String} (hps : (ps.map (·.name)).Nodup)
    (hk : kws.Nodup) (hno : ∀ i p, (ps.filter Param.positional)[i]? = some p → n ≤ i → p.kind = .posOnly → p.name ∉ kws)
    (h : checkCallableArgs ps n kws ≠ none) : ¬ Binds ps n kws := fun hb =>
  h ((check_spec hps hk).2 ⟨hb, fun ⟨i, p, hp, hi, hkind, hm⟩ => hno i p hp hi hkind hm⟩)

/-- The missing case is real: `def f(a=0, /, **kw)` can be called as `f(a=1)`, but this is rejected. -/
theorem C45_witness :
    let ps : List Param := [⟨"a", .posOnly, true⟩, ⟨"kw", .varKw, false⟩]
    checkCallableArgs ps 0 ["a"] = some (.positionalOnly ["a"]) ∧ Binds ps 0 ["a"] := by
  refine ⟨by decide, ⟨.inl (by decide), fun k _ => .inr ⟨⟨"kw", .varKw, false⟩, by simp, rfl⟩, fun i p _ hi => by omega, ?_, ?_⟩⟩
  · intro i p hp _
    left
    cases i with
    | zero => simp [Param.positional] at hp; subst hp; rfl
    | succ i => simp [Param.positional] at hp
  · intro p hp hk
    simp only [List.mem_cons, List.not_mem_nil, or_false] at hp
    rcases hp with rfl | rfl <;> cases hk

/-- `def f(a, b, /, c, d=1, *args, e, **kw)` -/
def exSig : List Param :=
  [⟨"a", .posOnly, false⟩, ⟨"b", .posOnly, false⟩, ⟨"c", .posOrKw, false⟩, ⟨"d", .posOrKw, true⟩,
   ⟨"args", .varPos, false⟩, ⟨"e", .kwOnly, false⟩, ⟨"kw", .varKw, false⟩]

example : (exSig.map (·.name)).Nodup ∧ checkCallableArgs exSig 2 ["e", "c", "a"] = none ∧
    checkCallableArgs exSig 7 ["e"] = none ∧
    checkCallableArgs exSig 3 ["c", "e"] = some (.conflicts ["c"]) ∧
    checkCallableArgs exSig 1 ["b"] = some (.positionalOnly ["b"]) ∧
    checkCallableArgs exSig 1 [] = some (.missing ["b", "c"]) ∧
    checkCallableArgs exSig 3 [] = some (.missingKeywords ["e"]) ∧
    checkCallableArgs (exSig.take 4) 5 [] = some (.tooMany 4 5) ∧
    checkCallableArgs (exSig.take 4) 3 ["x"] = some (.unknown ["x"]) := by decide

end Call
end Asyncz
