import Verif.Spec.Sched
/-! # Lemmas about the scheduler model -/
namespace Asyncz

namespace Dict
variable {κ ν : Type} [DecidableEq κ]

theorem keys_set_of_mem {d : Dict κ ν} {k : κ} {v w : ν} (h : d.get? k = some v) :
    (d.set k w).keys = d.keys := by
  rw [keys_set, if_pos]
  exact mem_keys_of_mem (mem_of_get? h)

theorem set_set (d : Dict κ ν) (k : κ) (v w : ν) : (d.set k v).set k w = d.set k w := by
  induction d with
  | nil => simp [set]
  | cons a d ih =>
    obtain ⟨a, b⟩ := a
    simp only [set]
    split
    · simp [set, *]
    · simp [set, *]

theorem set_get {d : Dict κ ν} {k : κ} {v : ν} (h : d.get? k = some v) : d.set k v = d := by
  induction d with
  | nil => simp [get?] at h
  | cons a d ih =>
    obtain ⟨a, b⟩ := a
    simp only [get?] at h
    simp only [set]
    split
    · rename_i hk; simp [hk] at h; simp [h]
    · rename_i hk; simp only [hk, if_false] at h; rw [ih h]

end Dict

namespace LawfulStore
variable {σ β : Type} {O : StoreOps σ β} (L : LawfulStore O)
include L

theorem update_ok {st : σ} (hi : L.Inv st) {t u : Task β} (h : L.toMap st t.id = some u) :
    (O.step st (.update t)).2 = .ok ∧ L.toMap (O.step st (.update t)).1 = (L.toMap st).set t := by
  have := L.step_map hi (.update t)
  simp only [specStep, h, Prod.mk.injEq] at this
  exact ⟨this.2, this.1⟩

theorem delete_ok {st : σ} (hi : L.Inv st) {id : String} {u : Task β} (h : L.toMap st id = some u) :
    (O.step st (.delete id)).2 = .ok ∧ L.toMap (O.step st (.delete id)).1 = (L.toMap st).erase id := by
  have := L.step_map hi (.delete id)
  simp only [specStep, h, Prod.mk.injEq] at this
  exact ⟨this.2, this.1⟩

theorem delete_none {st : σ} (hi : L.Inv st) {id : String} (h : L.toMap st id = none) :
    (O.step st (.delete id)).2 = .notFound id ∧ L.toMap (O.step st (.delete id)).1 = L.toMap st := by
  have := L.step_map hi (.delete id)
  simp only [specStep, h, Prod.mk.injEq] at this
  exact ⟨this.2, this.1⟩

theorem add_ok {st : σ} (hi : L.Inv st) {t : Task β} (h : L.toMap st t.id = none) :
    (O.step st (.add t)).2 = .ok ∧ L.toMap (O.step st (.add t)).1 = (L.toMap st).set t := by
  have := L.step_map hi (.add t)
  simp only [specStep, h, Prod.mk.injEq] at this
  exact ⟨this.2, this.1⟩

theorem add_conflict {st : σ} (hi : L.Inv st) {t u : Task β} (h : L.toMap st t.id = some u) :
    (O.step st (.add t)).2 = .conflict t.id ∧ L.toMap (O.step st (.add t)).1 = L.toMap st := by
  have := L.step_map hi (.add t)
  simp only [specStep, h, Prod.mk.injEq] at this
  exact ⟨this.2, this.1⟩

end LawfulStore

namespace Sched
variable {σ τ φ : Type} {O : StoreOps σ (Body τ φ)}

/-- The stores of a scheduler are in order: one per alias, each in a reachable state. -/
structure WF (L : LawfulStore O) (s : State σ τ φ) : Prop where
  keys : s.stores.WF
  inv : ∀ a st, s.stores.get? a = some st → L.Inv st

theorem WF.set {L : LawfulStore O} {s : State σ τ φ} (h : WF L s) {a : String} {st : σ} (hi : L.Inv st)
    {s' : State σ τ φ} (hs : s'.stores = s.stores.set a st) : WF L s' := by
  refine ⟨by rw [hs]; exact h.keys.set _ _, fun b st' hb => ?_⟩
  rw [hs, Dict.get?_set] at hb
  split at hb
  · cases hb; exact hi
  · exact h.inv _ _ hb

/-! ## run times -/

theorem runTimes_spec {e : Env τ} {g : τ} {nx : Int → Option Int}
    (hn : ∀ r, r ≤ e.now → e.next 0 g (some r) e.now = .ok (nx r)) {fuel : Nat} {first : Option Int}
    {l : List Int} (h : runTimes e g fuel first = some (.ok l)) : DueTimes nx e.now first l := by
  induction fuel generalizing first l with
  | zero =>
    cases first with
    | none => simp [runTimes] at h; subst h; exact ⟨none, .nil _, by simp, by simp⟩
    | some r => simp [runTimes] at h
  | succ n ih =>
    cases first with
    | none => simp [runTimes] at h; subst h; exact ⟨none, .nil _, by simp, by simp⟩
    | some r =>
      rw [runTimes] at h
      split at h
      · rename_i hr
        rw [hn r hr] at h
        simp only [] at h
        split at h
        · cases h
        · cases h
        · rename_i l' hl
          simp only [Option.some.injEq, Except.ok.injEq] at h
          subst h
          obtain ⟨x, h1, h2, h3⟩ := ih hl
          exact ⟨x, .cons h1, by simpa [hr] using h2, h3⟩
      · rename_i hr
        simp only [Option.some.injEq, Except.ok.injEq] at h
        subst h
        exact ⟨some r, .nil _, by simp, fun r' h => by cases h; omega⟩

/-- what `get_run_times` returns begins with the next run time and goes on with answers of the
trigger; nothing is assumed of the trigger -/
theorem runTimes_cons {e : Env τ} {g : τ} {fuel : Nat} {first : Option Int} {l : List Int}
    (h : runTimes e g fuel first = some (.ok l)) :
    (∀ t ∈ l, t ≤ e.now) ∧ (∀ t l', l = t :: l' → first = some t) ∧
    (l = [] → ∀ r, first = some r → e.now < r) := by
  induction fuel generalizing first l with
  | zero =>
    cases first with
    | none => simp [runTimes] at h; subst h; simp
    | some r => simp [runTimes] at h
  | succ n ih =>
    cases first with
    | none => simp [runTimes] at h; subst h; simp
    | some r =>
      rw [runTimes] at h
      split at h
      · rename_i hr
        split at h
        · cases h
        · split at h
          · cases h
          · cases h
          · rename_i l' hl
            simp only [Option.some.injEq, Except.ok.injEq] at h
            subst h
            have := ih hl
            refine ⟨by simpa [hr] using this.1, by simp, by simp⟩
      · rename_i hr
        simp only [Option.some.injEq, Except.ok.injEq] at h
        subst h
        refine ⟨by simp, by simp, fun _ r' h => by cases h; omega⟩

theorem runTimes_increasing {e : Env τ} {g : τ}
    (ha : ∀ p r, p ≤ e.now → e.next 0 g (some p) e.now = .ok (some r) → p < r) {fuel : Nat}
    {first : Option Int} {l : List Int} (h : runTimes e g fuel first = some (.ok l)) :
    l.Pairwise (· < ·) ∧ ∀ r, first = some r → ∀ t ∈ l, r ≤ t := by
  induction fuel generalizing first l with
  | zero =>
    cases first with
    | none => simp [runTimes] at h; subst h; simp
    | some r => simp [runTimes] at h
  | succ n ih =>
    cases first with
    | none => simp [runTimes] at h; subst h; simp
    | some r =>
      rw [runTimes] at h
      split at h
      · rename_i hr
        split at h
        · cases h
        · rename_i nx hnx
          split at h
          · cases h
          · cases h
          · rename_i l' hl
            simp only [Option.some.injEq, Except.ok.injEq] at h
            subst h
            have h1 := ih hl
            have key : ∀ t ∈ l', r < t := by
              intro t ht
              cases nx with
              | none => cases n <;> simp [runTimes] at hl <;> subst hl <;> simp at ht
              | some q => have := ha r q hr hnx; have := h1.2 q rfl t ht; omega
            refine ⟨List.pairwise_cons.2 ⟨key, h1.1⟩, ?_⟩
            intro r' hr' t ht
            cases hr'
            rcases List.mem_cons.1 ht with ht | ht
            · omega
            · have := key t ht; omega
      · simp only [Option.some.injEq, Except.ok.injEq] at h
        subst h
        simp

/-- `get_run_times` ends if the trigger goes forward -/
theorem runTimes_terminates {e : Env τ} {g : τ}
    (ha : ∀ p r, p ≤ e.now → e.next 0 g (some p) e.now = .ok (some r) → p < r) (first : Option Int) :
    ∃ fuel, ∀ k, runTimes e g (fuel + k) first = runTimes e g fuel first ∧
      runTimes e g fuel first ≠ none := by
  have main : ∀ (n : Nat) (r : Int), e.now - r + 1 < n → 0 < n → ∀ k, runTimes e g (n + k) (some r) =
      runTimes e g n (some r) ∧ runTimes e g n (some r) ≠ none := by
    intro n
    induction n with
    | zero =>
      intro r hr h0; omega
    | succ n ih =>
      intro r hr _ k
      have e1 : n + 1 + k = (n + k) + 1 := by omega
      rw [e1, runTimes, runTimes]
      split
      · rename_i hle
        cases hx : e.next 0 g (some r) e.now with
        | error x => simp
        | ok nx => cases nx with
          | none => cases n <;> cases k <;> simp [runTimes]
          | some q =>
            have := ha r q hle hx
            simp only []
            have : (∀ j, runTimes e g (n + j) (some q) = runTimes e g n (some q)) ∧
                runTimes e g n (some q) ≠ none := by
              by_cases hn : 0 < n
              · exact ⟨fun j => (ih q (by omega) hn j).1, (ih q (by omega) hn 0).2⟩
              · exfalso; omega
            rw [this.1]
            refine ⟨rfl, ?_⟩
            cases hh : runTimes e g n (some q) with
            | none => exact absurd hh this.2
            | some v => cases v <;> simp
      · simp
  cases first with
  | none => exact ⟨0, fun k => by cases k <;> simp [runTimes]⟩
  | some r => exact ⟨(e.now - r).toNat + 2, fun k => main _ r (by omega) (by omega) k⟩

end Sched
end Asyncz
