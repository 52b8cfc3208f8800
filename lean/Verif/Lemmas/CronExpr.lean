import Verif.Spec.Cron
import Verif.Lemmas.Trigger
/-! # Cron field expressions: `get_next_value` finds the least selected value -/
namespace Asyncz
namespace Cron

theorem getValue_eq (f : FieldName) (sec : Int) : getValue f sec = valueAt f sec := by
  cases f <;> rfl

theorem getMin_eq (f : FieldName) (sec : Int) : getMin f sec = lowest f := by
  cases f <;> rfl

theorem getMax_eq (f : FieldName) (sec : Int) :
    getMax f sec = highest (Cal.ofSec sec).year (Cal.ofSec sec).month f := by
  cases f <;> rfl

theorem step_up {lo start n : Int} (hn : 0 < n) (h : lo ≤ start) :
    FirstOnGrid lo n start (start + (n - (start - lo)) % n) := by
  have h1 := firstOnGrid_ceil hn h
  have : start + (n - (start - lo)) % n = lo + n * ceilDiv (start - lo) n := by
    have h2 : (n - (start - lo)) % n = (-(start - lo)) % n := by
      rw [show n - (start - lo) = -(start - lo) + n by omega, Int.add_emod_right]
    have h3 := Int.mul_ediv_add_emod (-(start - lo)) n
    simp only [ceilDiv, Int.mul_neg]
    omega
  rw [this]; exact h1

theorem all_least (n : Option Nat) (f : FieldName) (sec : Int) (hw : Wf f (.all n)) :
    LeastFrom (Selects (.all n) f (Cal.ofSec sec).year (Cal.ofSec sec).month) (valueAt f sec)
      ((Expr.all n).next f sec) := by
  simp only [Expr.next, allNext, getValue_eq, getMin_eq, getMax_eq, stepUp]
  cases n with
  | none =>
    simp only []
    split
    · refine ⟨⟨by omega, by assumption, trivial⟩, by omega, fun w hw hx => ?_⟩
      have := hw.1; omega
    · intro w hw' hx
      have := hw'.1; have := hw'.2.1; omega
  | some n =>
    have hn : 0 < n := hw n rfl
    simp only [Nat.ne_of_gt hn, if_false]
    have hg := step_up (lo := lowest f) (start := max (valueAt f sec) (lowest f)) (n := n)
      (by omega) (by omega)
    generalize max (valueAt f sec) (lowest f) + _ = r at hg
    obtain ⟨⟨k, hk⟩, h1, h2⟩ := hg
    split
    · refine ⟨⟨by omega, by assumption, k, hk⟩, by omega, fun w hw' hx => ?_⟩
      obtain ⟨a, b, j, rfl⟩ := hw'
      exact h2 j (by omega)
    · intro w hw' hx
      obtain ⟨a, b, j, rfl⟩ := hw'
      have := h2 j (by omega); omega

theorem range_least (a : Nat) (b n : Option Nat) (f : FieldName) (sec : Int)
    (hw : Wf f (.range a b n)) :
    LeastFrom (Selects (.range a b n) f (Cal.ofSec sec).year (Cal.ofSec sec).month) (valueAt f sec)
      (rangeNext a b n f sec) := by
  obtain ⟨ha, hab, hn, hnb⟩ := hw
  clear hab hnb
  simp only [rangeNext, getValue_eq, getMin_eq, getMax_eq]
  have hm : max (lowest f) (a : Int) = a := by omega
  simp only [hm]
  have key : ∃ r, FirstOnGrid a ((n.getD 1 : Nat) : Int) (max (a : Int) (valueAt f sec)) r ∧
      stepUp n (max (a : Int) (valueAt f sec)) a = r := by
    cases n with
    | none =>
      refine ⟨_, ⟨⟨(max (a : Int) (valueAt f sec) - a).toNat, ?_⟩, Int.le_refl _, fun k hk => ?_⟩, rfl⟩
      · simp; omega
      · simp at hk ⊢; omega
    | some n =>
      have hn' := hn n rfl
      refine ⟨_, step_up (n := n) (lo := a) (start := max (a : Int) (valueAt f sec)) (by omega)
        (by omega), ?_⟩
      simp [stepUp, Nat.ne_of_gt hn']
  obtain ⟨r, ⟨⟨k, hk⟩, h1, h2⟩, hr⟩ := key
  rw [hr]
  have hr0 : (a : Int) ≤ r := by omega
  have hmax : ∃ M : Int, capAt (highest (Cal.ofSec sec).year (Cal.ofSec sec).month f) b = M ∧
      ∀ x : Int, x ≤ M ↔ x ≤ highest (Cal.ofSec sec).year (Cal.ofSec sec).month f ∧
        ∀ l : Nat, b = some l → x ≤ (l : Int) := by
    cases b with
    | none => exact ⟨_, rfl, fun x => by simp [capAt]⟩
    | some l => exact ⟨_, rfl, fun x => by simp [capAt]; omega⟩
  obtain ⟨M, hM, hMle⟩ := hmax
  rw [hM]
  split
  · rename_i hle
    obtain ⟨hle1, hle2⟩ := (hMle r).1 hle
    refine ⟨⟨by omega, hle1, ⟨k, hk⟩, hle2⟩, by omega, fun w hw hx => ?_⟩
    obtain ⟨_, _, ⟨j, rfl⟩, _⟩ := hw
    refine h2 j ?_
    have : 0 ≤ (j : Int) * ((n.getD 1 : Nat) : Int) := Int.mul_nonneg (by omega) (by omega)
    omega
  · rename_i hle
    intro w hw hx
    obtain ⟨_, hh, ⟨j, rfl⟩, hl⟩ := hw
    have h0 : 0 ≤ (j : Int) * ((n.getD 1 : Nat) : Int) := Int.mul_nonneg (by omega) (by omega)
    have := h2 j (by omega)
    have := (hMle _).2 ⟨hh, hl⟩
    omega

theorem LeastFrom.congr {P Q : Int → Prop} (h : ∀ v, P v ↔ Q v) {x : Int} {o : Option Int}
    (hl : LeastFrom P x o) : LeastFrom Q x o := by
  have : P = Q := funext fun v => propext (h v)
  exact this ▸ hl

theorem names_least (a b : Nat) (f : FieldName) (sec : Int) (ha : lowest f ≤ a) (hab : a ≤ b)
    (e : Expr) (he : ∀ y m v, Selects e f y m v ↔
      lowest f ≤ v ∧ v ≤ highest y m f ∧ (a : Int) ≤ v ∧ v ≤ b) :
    LeastFrom (Selects e f (Cal.ofSec sec).year (Cal.ofSec sec).month) (valueAt f sec)
      (rangeNext a (some b) none f sec) := by
  refine (range_least a (some b) none f sec ⟨ha, ?_, by simp, by simp⟩).congr fun v => ?_
  · intro l hl; cases hl; exact hab
  · rw [he]
    simp only [Selects, Option.getD_none, Option.some.injEq, forall_eq']
    constructor
    · rintro ⟨h1, h2, ⟨k, hk⟩, h3⟩; exact ⟨h1, h2, by simp at hk; omega, h3⟩
    · rintro ⟨h1, h2, h3, h4⟩; exact ⟨h1, h2, ⟨(v - a).toNat, by simp; omega⟩, h4⟩

theorem pos_least (o w : Nat) (sec : Int) (hw : w ≤ 6) :
    LeastFrom (Selects (.weekdayPos o w) .day (Cal.ofSec sec).year (Cal.ofSec sec).month)
      (valueAt .day sec) (weekdayPosNext o w sec) := by
  obtain ⟨D, hD⟩ : ∃ D, ∀ v, Cal.days (Cal.ofSec sec).year (Cal.ofSec sec).month v = D + (v - 1) :=
    ⟨_, fun v => rfl⟩
  have hday := (Cal.ofSec_valid sec).day
  have hL : 28 ≤ Cal.monthLen (Cal.ofSec sec).year (Cal.ofSec sec).month := by
    have := Cal.leapDay_bounds (Cal.ofSec sec).year
    simp only [Cal.monthLen]
    split
    · omega
    · split <;> omega
  refine LeastFrom.congr (P := fun v => 1 ≤ v ∧
    v ≤ Cal.monthLen (Cal.ofSec sec).year (Cal.ofSec sec).month ∧ (D + (v - 1)) % 7 = w ∧
    if o < 5 then 7 * (o : Int) < v ∧ v ≤ 7 * (o : Int) + 7
    else Cal.monthLen (Cal.ofSec sec).year (Cal.ofSec sec).month < v + 7)
    (fun v => by simp [Selects, hD, lowest, highest, Cal.weekday]) ?_
  simp only [weekdayPosNext, valueAt, hD, Cal.weekday]
  generalize Cal.monthLen (Cal.ofSec sec).year (Cal.ofSec sec).month = L at *
  generalize (Cal.ofSec sec).day = x at *
  by_cases ho : o < 5
  · simp only [ho, if_true]
    split <;> split
    · refine ⟨⟨by omega, by omega, by omega, by omega⟩, by omega, fun v hv hx => by omega⟩
    · intro v hv hx; omega
    · refine ⟨⟨by omega, by omega, by omega, by omega⟩, by omega, fun v hv hx => by omega⟩
    · intro v hv hx; omega
  · simp only [ho, if_false]
    split <;> split
    · refine ⟨⟨by omega, by omega, by omega, by omega⟩, by omega, fun v hv hx => by omega⟩
    · intro v hv hx; omega
    · refine ⟨⟨by omega, by omega, by omega, by omega⟩, by omega, fun v hv hx => by omega⟩
    · intro v hv hx; omega

/-- Each expression's `get_next_value` is the least selected value not below the current one. -/
theorem expr_least (e : Expr) (f : FieldName) (sec : Int) (hw : Wf f e) :
    LeastFrom (Selects e f (Cal.ofSec sec).year (Cal.ofSec sec).month) (valueAt f sec)
      (e.next f sec) := by
  cases e with
  | all n => exact all_least n f sec hw
  | range a b n => exact range_least a b n f sec hw
  | monthRange a b =>
    obtain ⟨rfl, h1, h2, h3⟩ := hw
    exact names_least a b _ sec (by simp only [lowest]; omega) h2 _ (fun y m v => by simp [Selects])
  | weekdayRange a b =>
    obtain ⟨rfl, h1, h2⟩ := hw
    exact names_least a b _ sec (by simp only [lowest]; omega) h1 _ (fun y m v => by simp [Selects])
  | weekdayPos o w =>
    obtain ⟨rfl, _, h2⟩ := hw
    exact pos_least o w sec h2
  | lastDay =>
    cases hw
    have hv := (Cal.ofSec_valid sec).day
    simp only [Expr.next]
    refine ⟨⟨?_, ?_, rfl⟩, ?_, ?_⟩
    · simp only [lowest]; omega
    · simp only [highest]; omega
    · simp only [valueAt]; omega
    · intro w hw hx
      obtain ⟨_, _, hw⟩ := hw
      rw [hw]; exact Int.le_refl _

theorem fieldNextLoop_least (f : FieldName) (sec : Int) (es : List Expr) (hw : ∀ e ∈ es, Wf f e)
    (P : Int → Prop) (acc : Option Int) (hacc : LeastFrom P (valueAt f sec) acc) :
    LeastFrom (fun v => P v ∨ ∃ e ∈ es, Selects e f (Cal.ofSec sec).year (Cal.ofSec sec).month v)
      (valueAt f sec) (fieldNextLoop f sec es acc) := by
  induction es generalizing P acc with
  | nil => exact hacc.congr fun v => by simp
  | cons e es ih =>
    simp only [fieldNextLoop]
    have he := expr_least e f sec (hw e List.mem_cons_self)
    refine (ih (fun e' h => hw e' (List.mem_cons_of_mem _ h))
      (fun v => P v ∨ Selects e f (Cal.ofSec sec).year (Cal.ofSec sec).month v) _ ?_).congr
      fun v => by simp [or_assoc]
    generalize e.next f sec = o at he
    cases acc with
    | none =>
      simp only []
      cases o with
      | none => intro w hw hx; rcases hw with h | h
                · exact hacc w h hx
                · exact he w h hx
      | some v =>
        obtain ⟨h1, h2, h3⟩ := he
        refine ⟨.inr h1, h2, fun w hw hx => ?_⟩
        rcases hw with h | h
        · exact absurd hx (hacc w h)
        · exact h3 w h hx
    | some s =>
      obtain ⟨a1, a2, a3⟩ := hacc
      cases o with
      | none =>
        refine ⟨.inl a1, a2, fun w hw hx => ?_⟩
        rcases hw with h | h
        · exact a3 w h hx
        · exact absurd hx (he w h)
      | some v =>
        obtain ⟨h1, h2, h3⟩ := he
        simp only []
        split
        · refine ⟨.inr h1, h2, fun w hw hx => ?_⟩
          rcases hw with h | h
          · have := a3 w h hx; omega
          · exact h3 w h hx
        · refine ⟨.inl a1, a2, fun w hw hx => ?_⟩
          rcases hw with h | h
          · exact a3 w h hx
          · have := h3 w h hx; omega

/-- A field's `get_next_value` is the least value selected by any of its expressions. -/
theorem field_least (f : FieldName) (sec : Int) (es : List Expr) (hw : ∀ e ∈ es, Wf f e) :
    LeastFrom (fun v => ∃ e ∈ es, Selects e f (Cal.ofSec sec).year (Cal.ofSec sec).month v)
      (valueAt f sec) (fieldNext es f sec) :=
  (fieldNextLoop_least f sec es hw (fun _ => False) none (fun _ h => h.elim)).congr fun v => by simp

end Cron
end Asyncz
