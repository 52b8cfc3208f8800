import Verif.Model.Trigger
import Verif.Spec.Schedule
/-! # Lemmas about date-times and the simple triggers -/
namespace Asyncz

/-- All zones of the environment have a constant offset. -/
def TzEnv.Fixed (E : TzEnv) : Prop := ∀ z, ∃ c, E z = Zone.fixed c

/-- All zones of the environment are lawful. -/
def TzEnv.Lawful (E : TzEnv) : Prop := ∀ z, (E z).Lawful

theorem TzEnv.Fixed.lawful {E : TzEnv} (h : E.Fixed) : E.Lawful := fun z => by
  obtain ⟨c, hc⟩ := h z; rw [hc]; exact Zone.fixed_lawful c

theorem timedeltaSeconds_exact (us : Int) : timedeltaSeconds us = us := by
  simp only [timedeltaSeconds]; omega

theorem le_ceilDiv_mul {a b : Int} (hb : 0 < b) : a ≤ b * ceilDiv a b := by
  have h1 := Int.mul_ediv_add_emod (-a) b
  have h2 := Int.emod_nonneg (-a) (Int.ne_of_gt hb)
  simp only [ceilDiv, Int.mul_neg]; omega

theorem ceilDiv_mul_lt {a b : Int} (hb : 0 < b) : b * ceilDiv a b < a + b := by
  have h1 := Int.mul_ediv_add_emod (-a) b
  have h2 := Int.emod_lt_of_pos (-a) hb
  simp only [ceilDiv, Int.mul_neg]; omega

theorem ceilDiv_nonneg {a b : Int} (hb : 0 < b) (ha : 0 ≤ a) : 0 ≤ ceilDiv a b := by
  rcases Int.lt_or_le (ceilDiv a b) 0 with h | h
  · have h1 := le_ceilDiv_mul (a := a) hb
    have : b * ceilDiv a b < 0 := Int.mul_neg_of_pos_of_neg hb h
    omega
  · exact h

/-- The `ceil` computation finds the first grid point. -/
theorem firstOnGrid_ceil {S I N : Int} (hI : 0 < I) (hN : S ≤ N) :
    FirstOnGrid S I N (S + I * ceilDiv (N - S) I) := by
  have h1 := le_ceilDiv_mul (a := N - S) hI
  have h2 := ceilDiv_mul_lt (a := N - S) hI
  have h3 := ceilDiv_nonneg (a := N - S) hI (by omega)
  refine ⟨⟨(ceilDiv (N - S) I).toNat, ?_⟩, by omega, ?_⟩
  · rw [Int.toNat_of_nonneg h3, Int.mul_comm]
  · intro k hk
    have h4 : I * (k : Int) + I > I * ceilDiv (N - S) I := by
      have := Int.mul_comm I k; omega
    have h5 : I * ((k : Int) + 1) > I * ceilDiv (N - S) I := by rw [Int.mul_add]; omega
    have h6 := Int.lt_of_mul_lt_mul_left h5 (by omega)
    have h7 : I * ceilDiv (N - S) I ≤ I * k := Int.mul_le_mul_of_nonneg_left (by omega) (by omega)
    rw [Int.mul_comm (k : Int) I]; omega

theorem firstOnGrid_start {S I N : Int} (hI : 0 < I) (hN : N ≤ S) : FirstOnGrid S I N S := by
  refine ⟨⟨0, by simp⟩, hN, fun k _ => ?_⟩
  have : 0 ≤ (k : Int) * I := Int.mul_nonneg (by omega) (by omega)
  omega

theorem FirstOnGrid.unique {S I N r r' : Int} (h : FirstOnGrid S I N r) (h' : FirstOnGrid S I N r') :
    r = r' := by
  obtain ⟨⟨k, hk⟩, h1, h2⟩ := h
  obtain ⟨⟨k', hk'⟩, h1', h2'⟩ := h'
  have a := h2 k' (by omega)
  have b := h2' k (by omega)
  omega

namespace Dt
variable {E : TzEnv}

/-- `normalize` keeps the instant, in every lawful zone. -/
theorem inst_normalize (d : Dt) (h : (E d.tz).Lawful) : (d.normalize E).inst E = d.inst E :=
  h.loc_inst _

theorem inst_ofInst (z : Nat) (u : Int) (h : (E z).Lawful) : (ofInst E z u).inst E = u :=
  h.loc_inst _

@[simp] theorem tz_normalize (d : Dt) : (d.normalize E).tz = d.tz := rfl
@[simp] theorem tz_add (d : Dt) (x : Int) : (d.add x).tz = d.tz := rfl

theorem inst_fixed {d : Dt} {c : Int} (h : E d.tz = Zone.fixed c) : d.inst E = d.wall - c := by
  simp [inst, h, Zone.fixed]

theorem inst_add_fixed {d : Dt} {c : Int} (h : E d.tz = Zone.fixed c) (x : Int) :
    (d.add x).inst E = d.inst E + x := by
  simp [inst, add, h, Zone.fixed]; omega

theorem lt_fixed {a b : Dt} {c : Int} (h : E b.tz = Zone.fixed c) :
    lt E a b = decide (a.inst E < b.inst E) := by
  simp only [lt]
  split
  · rename_i hz
    rw [inst_fixed h, inst_fixed (hz ▸ h)]
    simp
  · rfl

theorem le_fixed {a b : Dt} {c : Int} (h : E a.tz = Zone.fixed c) :
    le E a b = decide (a.inst E ≤ b.inst E) := by
  simp only [le]
  split
  · rename_i hz
    rw [inst_fixed h, inst_fixed (hz ▸ h)]
    simp
  · rfl

theorem eq_fixed {a b : Dt} {c : Int} (h : E a.tz = Zone.fixed c) :
    eq E a b = decide (a.inst E = b.inst E) := by
  simp only [eq]
  split
  · rename_i hz
    rw [inst_fixed h, inst_fixed (hz ▸ h)]
    simp
  · rfl

theorem sub_fixed {a b : Dt} {c : Int} (h : E b.tz = Zone.fixed c) :
    sub E a b = a.inst E - b.inst E := by
  simp only [sub]
  split
  · rename_i hz
    rw [inst_fixed h, inst_fixed (hz ▸ h)]; omega
  · rfl

end Dt

/-- The order of the instants and Python's order agree on fixed-offset zones. -/
theorem inst_min {E : TzEnv} (hE : E.Fixed) (a b : Dt) :
    (Dt.min E a b).inst E = Min.min (a.inst E) (b.inst E) := by
  obtain ⟨c, hc⟩ := hE a.tz
  rw [Dt.min, Dt.lt_fixed hc]
  simp only [decide_eq_true_eq]
  split <;> omega

theorem inst_max {E : TzEnv} (hE : E.Fixed) (a b : Dt) :
    (Dt.max E a b).inst E = Max.max (a.inst E) (b.inst E) := by
  obtain ⟨c, hc⟩ := hE b.tz
  rw [Dt.max, Dt.lt_fixed hc]
  simp only [decide_eq_true_eq]
  split <;> omega

/-- Python's order on these times is the order of the instants they denote. -/
def Agree (E : TzEnv) (ts : List Dt) : Prop :=
  ∀ a ∈ ts, ∀ b ∈ ts, Dt.lt E a b = decide (a.inst E < b.inst E)

theorem agree_fixed {E : TzEnv} (hE : E.Fixed) (ts : List Dt) : Agree E ts := fun a _ b _ => by
  obtain ⟨c, hc⟩ := hE b.tz
  exact Dt.lt_fixed hc

theorem foldl_min {E : TzEnv} (ts : List Dt) (t : Dt) (hA : Agree E (t :: ts)) :
    ts.foldl (Dt.min E) t ∈ t :: ts ∧
    ∀ x ∈ t :: ts, (ts.foldl (Dt.min E) t).inst E ≤ x.inst E := by
  induction ts generalizing t with
  | nil => simp
  | cons a ts ih =>
    have hmem : Dt.min E t a = t ∨ Dt.min E t a = a := by
      simp only [Dt.min]; split <;> simp
    have hsub : ∀ x ∈ Dt.min E t a :: ts, x ∈ t :: a :: ts := by
      intro x hx
      rcases List.mem_cons.1 hx with rfl | hx
      · rcases hmem with e | e <;> rw [e] <;> simp
      · simp [hx]
    obtain ⟨h1, h2⟩ := ih (Dt.min E t a) (fun x hx y hy => hA x (hsub x hx) y (hsub y hy))
    have hm : (Dt.min E t a).inst E = Min.min (t.inst E) (a.inst E) := by
      rw [Dt.min, hA a (by simp) t (by simp)]
      simp only [decide_eq_true_eq]
      split <;> omega
    have hle := h2 _ List.mem_cons_self
    refine ⟨hsub _ h1, ?_⟩
    intro x hx
    simp only [List.foldl_cons]
    simp only [List.mem_cons] at hx
    rcases hx with rfl | rfl | hx
    · omega
    · omega
    · exact h2 x (List.mem_cons_of_mem _ hx)

theorem foldl_max {E : TzEnv} (hE : E.Fixed) (ts : List Dt) (t : Dt) :
    ts.foldl (Dt.max E) t ∈ t :: ts ∧
    ∀ x ∈ t :: ts, x.inst E ≤ (ts.foldl (Dt.max E) t).inst E := by
  induction ts generalizing t with
  | nil => simp
  | cons a ts ih =>
    obtain ⟨h1, h2⟩ := ih (Dt.max E t a)
    have hm := inst_max hE t a
    have hmem : Dt.max E t a = t ∨ Dt.max E t a = a := by
      simp only [Dt.max]; split <;> simp
    have hle := h2 _ List.mem_cons_self
    refine ⟨?_, ?_⟩
    · simp only [List.foldl_cons]
      rcases List.mem_cons.1 h1 with h | h
      · rcases hmem with e | e <;> rw [h, e] <;> simp
      · simp [h]
    · intro x hx
      simp only [List.foldl_cons]
      simp only [List.mem_cons] at hx
      rcases hx with rfl | rfl | hx
      · omega
      · omega
      · exact h2 x (List.mem_cons_of_mem _ hx)

theorem pyMin_agree {E : TzEnv} {ts : List Dt} (hA : Agree E ts) {m : Dt} (h : pyMin E ts = .ok m) :
    m ∈ ts ∧ ∀ x ∈ ts, m.inst E ≤ x.inst E := by
  cases ts with
  | nil => simp [pyMin] at h
  | cons t ts => simp only [pyMin, Except.ok.injEq] at h; subst h; exact foldl_min ts t hA

theorem pyMin_spec {E : TzEnv} (hE : E.Fixed) {ts : List Dt} {m : Dt} (h : pyMin E ts = .ok m) :
    m ∈ ts ∧ ∀ x ∈ ts, m.inst E ≤ x.inst E := pyMin_agree (agree_fixed hE ts) h

theorem pyMax_spec {E : TzEnv} (hE : E.Fixed) {ts : List Dt} {m : Dt} (h : pyMax E ts = .ok m) :
    m ∈ ts ∧ ∀ x ∈ ts, x.inst E ≤ m.inst E := by
  cases ts with
  | nil => simp [pyMax] at h
  | cons t ts => simp only [pyMax, Except.ok.injEq] at h; subst h; exact foldl_max hE ts t

theorem pyMin_cons {E : TzEnv} (t : Dt) (ts : List Dt) : ∃ m, pyMin E (t :: ts) = .ok m := ⟨_, rfl⟩
theorem pyMax_cons {E : TzEnv} (t : Dt) (ts : List Dt) : ∃ m, pyMax E (t :: ts) = .ok m := ⟨_, rfl⟩

/-- The times collected by `OrTrigger` are exactly those returned by the members. -/
theorem orTimes_spec {prev : Option Dt} {now : Dt} {ms : List Member} {ts : List Dt}
    (h : orTimes prev now ms = .ok ts) :
    (∀ t, t ∈ ts ↔ ∃ m ∈ ms, m prev now = .ok (some t)) ∧
    ∀ m ∈ ms, ∃ r, m prev now = .ok r := by
  induction ms generalizing ts with
  | nil => simp only [orTimes, Except.ok.injEq] at h; subst h; simp
  | cons m ms ih =>
    simp only [orTimes] at h
    cases hm : m prev now with
    | error e => simp [hm] at h
    | ok r =>
      cases ho : orTimes prev now ms with
      | error e => simp [hm, ho] at h
      | ok ts' =>
        obtain ⟨h1, h2⟩ := ih ho
        simp only [hm, ho, Except.ok.injEq] at h
        subst h
        refine ⟨fun t => ?_, ?_⟩
        · cases r with
          | none => simp [h1, hm]
          | some t' => simp only [List.mem_cons, h1, exists_eq_or_imp, hm, Except.ok.injEq,
              Option.some.injEq]; simp [eq_comm]
        · intro m' hm'
          rcases List.mem_cons.1 hm' with rfl | hm'
          · exact ⟨r, hm⟩
          · exact h2 m' hm'

/-- If `AndTrigger` collects times, they are, in order, what the members returned. -/
theorem andTimes_some {prev : Option Dt} {now : Dt} {ms : List Member} {ts : List Dt}
    (h : andTimes prev now ms = .ok (some ts)) :
    ms.map (fun m => m prev now) = ts.map (fun t => .ok (some t)) := by
  induction ms generalizing ts with
  | nil => simp only [andTimes, Except.ok.injEq, Option.some.injEq] at h; subst h; rfl
  | cons m ms ih =>
    simp only [andTimes] at h
    cases hm : m prev now with
    | error e => simp [hm] at h
    | ok r =>
      cases r with
      | none => simp [hm] at h
      | some t =>
        cases ho : andTimes prev now ms with
        | error e => simp [hm, ho] at h
        | ok r' =>
          cases r' with
          | none => simp [hm, ho] at h
          | some ts' =>
            simp only [hm, ho, Except.ok.injEq, Option.some.injEq] at h
            subst h
            simp [hm, ih ho]

theorem andTimes_none {prev : Option Dt} {now : Dt} {ms : List Member}
    (h : andTimes prev now ms = .ok none) : ∃ m ∈ ms, m prev now = .ok none := by
  induction ms with
  | nil => simp [andTimes] at h
  | cons m ms ih =>
    simp only [andTimes] at h
    cases hm : m prev now with
    | error e => simp [hm] at h
    | ok r =>
      cases r with
      | none => exact ⟨m, List.mem_cons_self, hm⟩
      | some t =>
        cases ho : andTimes prev now ms with
        | error e => simp [hm, ho] at h
        | ok r' =>
          cases r' with
          | none =>
            obtain ⟨m', h1, h2⟩ := ih ho
            exact ⟨m', List.mem_cons_of_mem _ h1, h2⟩
          | some ts' => simp [hm, ho] at h

/-- If no member raises, `AndTrigger` collects times or bails out. -/
theorem andTimes_total {prev : Option Dt} {now : Dt} {ms : List Member}
    (h : ∀ m ∈ ms, ∃ r, m prev now = .ok r) : ∃ r, andTimes prev now ms = .ok r := by
  induction ms with
  | nil => exact ⟨_, rfl⟩
  | cons m ms ih =>
    obtain ⟨r, hr⟩ := h m List.mem_cons_self
    obtain ⟨r', hr'⟩ := ih fun m' hm' => h m' (List.mem_cons_of_mem _ hm')
    cases r with
    | none => exact ⟨none, by simp [andTimes, hr]⟩
    | some t =>
      cases r' with
      | none => exact ⟨none, by simp [andTimes, hr, hr']⟩
      | some ts => exact ⟨some (t :: ts), by simp [andTimes, hr, hr']⟩

theorem andTimes_none_of {prev : Option Dt} {now : Dt} {ms : List Member}
    (h : ∀ m ∈ ms, ∃ r, m prev now = .ok r) (hn : ∃ m ∈ ms, m prev now = .ok none) :
    andTimes prev now ms = .ok none := by
  obtain ⟨r, hr⟩ := andTimes_total h
  cases r with
  | none => exact hr
  | some ts =>
    obtain ⟨m, h1, h2⟩ := hn
    have h3 := andTimes_some hr
    have : m prev now ∈ ms.map (fun m => m prev now) := List.mem_map_of_mem h1
    rw [h3, h2] at this
    simp at this

end Asyncz
