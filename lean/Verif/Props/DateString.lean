import Verif.Model.DateString
/-!
# C51: date strings are parsed to the instant they denote
-/
namespace Asyncz
namespace DateString
open Spec

/-! ## The matcher -/

theorem mem_bind {α β : Type} {p : Re α} {q : α → Re β} {s : Text} {x : β × Text} :
    x ∈ p.bind q s ↔ ∃ a t, (a, t) ∈ p s ∧ x ∈ q a t := by
  simp only [Re.bind, List.mem_flatMap, Prod.exists]

theorem mem_ret {α : Type} {a : α} {s : Text} {x : α × Text} : x ∈ Re.ret a s ↔ x = (a, s) := by
  simp [Re.ret]

theorem mem_oneOf {cs : List Char} {s t : Text} {c : Char} :
    (c, t) ∈ oneOf cs s ↔ s = c :: t ∧ c ∈ cs := by
  unfold oneOf
  cases s with
  | nil => simp
  | cons d u =>
    simp only
    split
    · rename_i h
      simp only [List.mem_singleton, Prod.mk.injEq, List.cons.injEq]
      constructor
      · rintro ⟨rfl, rfl⟩; exact ⟨⟨rfl, rfl⟩, h⟩
      · rintro ⟨⟨rfl, rfl⟩, _⟩; exact ⟨rfl, rfl⟩
    · rename_i h
      simp only [List.not_mem_nil, List.cons.injEq, false_iff]
      rintro ⟨⟨rfl, rfl⟩, h'⟩
      exact h h'

theorem takeWhile_row {D : Digits} {a t : Text} (h : Row D a) :
    a.length ≤ ((a ++ t).takeWhile fun c => (D c).isSome).length := by
  induction a with
  | nil => simp
  | cons c a ih =>
    have hc := h c (by simp)
    simp only [List.cons_append, List.takeWhile_cons, hc, if_true, List.length_cons]
    have := ih fun d hd => h d (List.mem_cons_of_mem _ hd)
    omega

theorem take_row {D : Digits} (s : Text) (k : Nat) (h : k ≤ (s.takeWhile fun c => (D c).isSome).length) :
    Row D (s.take k) ∧ (s.take k).length = k := by
  induction s generalizing k with
  | nil =>
    simp only [List.takeWhile_nil, List.length_nil, Nat.le_zero] at h
    subst h
    exact ⟨fun c hc => (by simp at hc), rfl⟩
  | cons c s ih =>
    cases k with
    | zero => exact ⟨fun c hc => (by simp at hc), rfl⟩
    | succ k =>
      rw [List.takeWhile_cons] at h
      split at h
      · rename_i hc
        simp only [List.length_cons, Nat.add_le_add_iff_right] at h
        obtain ⟨h1, h2⟩ := ih k h
        constructor
        · intro d hd
          simp only [List.take_succ_cons, List.mem_cons] at hd
          rcases hd with rfl | hd
          · exact hc
          · exact h1 d hd
        · simp only [List.take_succ_cons, List.length_cons, h2]
      · simp at h

theorem mem_digits {D : Digits} {lo hi : Nat} {s a t : Text} :
    (a, t) ∈ digits D lo hi s ↔ s = a ++ t ∧ Count D lo hi a := by
  simp only [digits, List.mem_map, List.mem_reverse, List.mem_range'_1, Prod.mk.injEq]
  constructor
  · rintro ⟨k, ⟨h1, h2⟩, rfl, rfl⟩
    obtain ⟨h3, h4⟩ := take_row (D := D) s k (by omega)
    exact ⟨(List.take_append_drop k s).symm, h3, by omega, by omega⟩
  · rintro ⟨rfl, h1, h2, h3⟩
    have := takeWhile_row (t := t) h1
    exact ⟨a.length, ⟨h2, by omega⟩, by simp, by simp⟩

theorem mem_opt_some {α : Type} {p : Re α} {s t : Text} {a : α} : (some a, t) ∈ opt p s ↔ (a, t) ∈ p s := by
  simp [opt]

theorem mem_opt_none {α : Type} {p : Re α} {s t : Text} : (none, t) ∈ opt p s ↔ t = s := by
  simp [opt]

theorem mem_alt {α : Type} {p q : Re α} {s : Text} {x : α × Text} : x ∈ alt p q s ↔ x ∈ p s ∨ x ∈ q s := by
  simp [alt]

theorem mem_eos {s t : Text} {u : Unit} : (u, t) ∈ eos s ↔ t = s ∧ (s = [] ∨ s = ['\n']) := by
  unfold eos
  split <;> simp_all

theorem mem_zoneRe {D : Digits} {s t z : Text} :
    (z, t) ∈ zoneRe D s ↔ ∃ zt : ZoneText, zt.Ok D ∧ z = zt.render ∧ s = z ++ t := by
  unfold zoneRe
  rw [mem_alt, mem_bind, mem_bind]
  constructor
  · rintro (⟨c, t', h1, h2⟩ | ⟨c, t', h1, h2⟩)
    · rw [mem_oneOf] at h1
      rw [mem_ret] at h2
      obtain ⟨rfl, h1⟩ := h1
      rw [List.mem_singleton] at h1
      cases h2
      subst h1
      exact ⟨.z, trivial, rfl, rfl⟩
    · rw [mem_oneOf] at h1
      obtain ⟨rfl, hc⟩ := h1
      rw [mem_bind] at h2
      obtain ⟨h, t1, h2, h3⟩ := h2
      rw [mem_digits] at h2
      rw [mem_bind] at h3
      obtain ⟨c', t2, h3, h4⟩ := h3
      rw [mem_oneOf, List.mem_singleton] at h3
      rw [mem_bind] at h4
      obtain ⟨m, t3, h4, h5⟩ := h4
      rw [mem_digits] at h4
      rw [mem_ret] at h5
      cases h5
      obtain ⟨rfl, hh⟩ := h2
      obtain ⟨rfl, rfl⟩ := h3
      obtain ⟨rfl, hm⟩ := h4
      refine ⟨.offset (c == '-') h m, ⟨hh, hm⟩, ?_, by simp⟩
      simp only [List.mem_cons, List.not_mem_nil, or_false] at hc
      rcases hc with rfl | rfl <;> rfl
  · rintro ⟨zt, hok, rfl, rfl⟩
    cases zt with
    | z =>
      left
      refine ⟨'Z', t, ?_, ?_⟩
      · rw [mem_oneOf]; exact ⟨rfl, by simp⟩
      · rw [mem_ret]; rfl
    | offset neg h m =>
      right
      obtain ⟨hh, hm⟩ := hok
      refine ⟨if neg then '-' else '+', h ++ ':' :: (m ++ t), ?_, ?_⟩
      · rw [mem_oneOf]
        refine ⟨by simp [ZoneText.render], ?_⟩
        cases neg <;> simp
      · rw [mem_bind]
        refine ⟨h, ':' :: (m ++ t), mem_digits.2 ⟨rfl, hh⟩, ?_⟩
        rw [mem_bind]
        refine ⟨':', m ++ t, mem_oneOf.2 ⟨rfl, by simp⟩, ?_⟩
        rw [mem_bind]
        refine ⟨m, t, mem_digits.2 ⟨rfl, hm⟩, ?_⟩
        rw [mem_ret]
        rfl

/-- the groups captured from a time as written -/
def TimeText.groups (x : TimeText) : TimeGroups :=
  ⟨x.hour, x.minute, x.second, x.fraction, x.zone.map ZoneText.render⟩

/-- the groups captured from a stamp as written -/
def Stamp.groups (x : Stamp) : Groups := ⟨x.year, x.month, x.day, x.time.map TimeText.groups⟩

theorem mem_timeRe {D : Digits} {s t : Text} {g : TimeGroups} :
    (g, t) ∈ timeRe D s ↔ ∃ x : TimeText, x.Ok D ∧ g = TimeText.groups x ∧ s = x.render ++ t := by
  unfold timeRe
  constructor
  · intro h
    rw [mem_bind] at h
    obtain ⟨c, t1, h1, h⟩ := h
    rw [mem_bind] at h
    obtain ⟨ho, t2, h2, h⟩ := h
    rw [mem_bind] at h
    obtain ⟨c3, t3, h3, h⟩ := h
    rw [mem_bind] at h
    obtain ⟨mi, t4, h4, h⟩ := h
    rw [mem_bind] at h
    obtain ⟨c5, t5, h5, h⟩ := h
    rw [mem_bind] at h
    obtain ⟨se, t6, h6, h⟩ := h
    rw [mem_bind] at h
    obtain ⟨us, t7, h7, h⟩ := h
    rw [mem_bind] at h
    obtain ⟨z, t8, h8, h⟩ := h
    rw [mem_ret] at h
    cases h
    rw [mem_oneOf] at h1
    rw [mem_oneOf, List.mem_singleton] at h3 h5
    rw [mem_digits] at h2 h4 h6
    obtain ⟨rfl, hc⟩ := h1
    obtain ⟨rfl, hho⟩ := h2
    obtain ⟨rfl, rfl⟩ := h3
    obtain ⟨rfl, hmi⟩ := h4
    obtain ⟨rfl, rfl⟩ := h5
    obtain ⟨rfl, hse⟩ := h6
    have h7' : t6 = renderFraction us ++ t7 ∧ ∀ f, us = some f → Count D 1 6 f := by
      cases us with
      | none => rw [mem_opt_none] at h7; exact ⟨h7.symm, fun f hf => by cases hf⟩
      | some f =>
        rw [mem_opt_some, mem_bind] at h7
        obtain ⟨c, u, h7, h7'⟩ := h7
        rw [mem_oneOf, List.mem_singleton] at h7
        rw [mem_digits] at h7'
        obtain ⟨rfl, rfl⟩ := h7
        obtain ⟨rfl, hf⟩ := h7'
        exact ⟨rfl, fun f' hf' => by cases hf'; exact hf⟩
    have h8' : ∃ zt : Option ZoneText, z = zt.map ZoneText.render ∧ t7 = renderZone zt ++ t ∧
        ∀ z', zt = some z' → z'.Ok D := by
      cases z with
      | none => rw [mem_opt_none] at h8; exact ⟨none, rfl, h8.symm, fun f hf => by cases hf⟩
      | some z =>
        rw [mem_opt_some, mem_zoneRe] at h8
        obtain ⟨zt, hok, rfl, rfl⟩ := h8
        exact ⟨some zt, rfl, rfl, fun z' hz' => by cases hz'; exact hok⟩
    obtain ⟨rfl, hf⟩ := h7'
    obtain ⟨zt, rfl, rfl, hz⟩ := h8'
    refine ⟨⟨c == 'T', ho, mi, se, us, zt⟩, ⟨hho, hmi, hse, hf, hz⟩, rfl, ?_⟩
    simp only [List.mem_cons, List.not_mem_nil, or_false] at hc
    rcases hc with rfl | rfl <;> simp [TimeText.render]
  · rintro ⟨⟨ti, ho, mi, se, us, zt⟩, ⟨hho, hmi, hse, hf, hz⟩, rfl, rfl⟩
    simp only at hho hmi hse hf hz
    simp only [TimeText.render, TimeText.groups, List.cons_append, List.append_assoc]
    refine mem_bind.2 ⟨_, _, mem_oneOf.2 ⟨rfl, by cases ti <;> simp⟩, ?_⟩
    refine mem_bind.2 ⟨_, _, mem_digits.2 ⟨rfl, hho⟩, ?_⟩
    refine mem_bind.2 ⟨_, _, mem_oneOf.2 ⟨rfl, by simp⟩, ?_⟩
    refine mem_bind.2 ⟨_, _, mem_digits.2 ⟨rfl, hmi⟩, ?_⟩
    refine mem_bind.2 ⟨_, _, mem_oneOf.2 ⟨rfl, by simp⟩, ?_⟩
    refine mem_bind.2 ⟨_, _, mem_digits.2 ⟨rfl, hse⟩, ?_⟩
    refine mem_bind.2 ⟨us, renderZone zt ++ t, ?_, ?_⟩
    · cases us with
      | none => exact mem_opt_none.2 rfl
      | some f =>
        exact mem_opt_some.2 (mem_bind.2 ⟨_, _, mem_oneOf.2 ⟨rfl, by simp⟩, mem_digits.2 ⟨rfl, hf f rfl⟩⟩)
    · refine mem_bind.2 ⟨zt.map ZoneText.render, t, ?_, mem_ret.2 rfl⟩
      cases zt with
      | none => exact mem_opt_none.2 rfl
      | some z => exact mem_opt_some.2 (mem_zoneRe.2 ⟨z, hz z rfl, rfl, rfl⟩)

theorem mem_dateRe {D : Digits} {s t : Text} {g : Groups} :
    (g, t) ∈ dateRe D s ↔
      ∃ x : Stamp, x.Ok D ∧ g = Stamp.groups x ∧ s = x.render ++ t ∧ (t = [] ∨ t = ['\n']) := by
  unfold dateRe
  constructor
  · intro h
    rw [mem_bind] at h
    obtain ⟨y, t2, h2, h⟩ := h
    rw [mem_bind] at h
    obtain ⟨c3, t3, h3, h⟩ := h
    rw [mem_bind] at h
    obtain ⟨mo, t4, h4, h⟩ := h
    rw [mem_bind] at h
    obtain ⟨c5, t5, h5, h⟩ := h
    rw [mem_bind] at h
    obtain ⟨d, t6, h6, h⟩ := h
    rw [mem_bind] at h
    obtain ⟨ti, t7, h7, h⟩ := h
    rw [mem_bind] at h
    obtain ⟨u, t8, h8, h⟩ := h
    rw [mem_ret] at h
    cases h
    rw [mem_oneOf, List.mem_singleton] at h3 h5
    rw [mem_digits] at h2 h4 h6
    rw [mem_eos] at h8
    obtain ⟨rfl, hy⟩ := h2
    obtain ⟨rfl, rfl⟩ := h3
    obtain ⟨rfl, hmo⟩ := h4
    obtain ⟨rfl, rfl⟩ := h5
    obtain ⟨rfl, hd⟩ := h6
    obtain ⟨rfl, he⟩ := h8
    have h7' : ∃ x : Option TimeText, ti = x.map TimeText.groups ∧ t6 = renderTime x ++ t ∧
        ∀ x', x = some x' → x'.Ok D := by
      cases ti with
      | none => rw [mem_opt_none] at h7; exact ⟨none, rfl, h7.symm, fun f hf => by cases hf⟩
      | some z =>
        rw [mem_opt_some, mem_timeRe] at h7
        obtain ⟨zt, hok, rfl, rfl⟩ := h7
        exact ⟨some zt, rfl, rfl, fun z' hz' => by cases hz'; exact hok⟩
    obtain ⟨x, rfl, rfl, hx⟩ := h7'
    exact ⟨⟨y, mo, d, x⟩, ⟨hy, hmo, hd, hx⟩, rfl, by simp [Stamp.render], he⟩
  · rintro ⟨⟨y, mo, d, x⟩, ⟨hy, hmo, hd, hx⟩, rfl, rfl, he⟩
    simp only at hy hmo hd hx
    simp only [Stamp.render, Stamp.groups, List.cons_append, List.append_assoc]
    refine mem_bind.2 ⟨_, _, mem_digits.2 ⟨rfl, hy⟩, ?_⟩
    refine mem_bind.2 ⟨_, _, mem_oneOf.2 ⟨rfl, by simp⟩, ?_⟩
    refine mem_bind.2 ⟨_, _, mem_digits.2 ⟨rfl, hmo⟩, ?_⟩
    refine mem_bind.2 ⟨_, _, mem_oneOf.2 ⟨rfl, by simp⟩, ?_⟩
    refine mem_bind.2 ⟨_, _, mem_digits.2 ⟨rfl, hd⟩, ?_⟩
    refine mem_bind.2 ⟨x.map TimeText.groups, t, ?_, ?_⟩
    · cases x with
      | none => exact mem_opt_none.2 rfl
      | some z => exact mem_opt_some.2 (mem_timeRe.2 ⟨z, hx z rfl, rfl, rfl⟩)
    · exact mem_bind.2 ⟨(), t, mem_eos.2 ⟨rfl, he⟩, mem_ret.2 rfl⟩

/-! ## A string is written in one way only -/

/-- the characters of the format other than digits are no digits -/
def Plain (D : Digits) : Prop := ∀ c ∈ ['-', ':', '.', ' ', 'T', 'Z', '+', '\n'], D c = none

theorem ascii_plain : Plain ascii := by unfold Plain; decide

/-- the text does not begin with a digit -/
def Stops (D : Digits) (t : Text) : Prop := ∀ c, t.head? = some c → D c = none

theorem cut {D : Digits} {a b x y : Text} (ha : Row D a) (hb : Row D b) (hx : Stops D x) (hy : Stops D y)
    (h : a ++ x = b ++ y) : a = b ∧ x = y := by
  induction a generalizing b with
  | nil =>
    cases b with
    | nil => exact ⟨rfl, h⟩
    | cons c b =>
      have := hx c (by rw [List.nil_append] at h; rw [h]; rfl)
      have h2 := hb c (by simp)
      rw [this] at h2
      cases h2
  | cons c a ih =>
    cases b with
    | nil =>
      have := hy c (by rw [List.nil_append] at h; rw [← h]; rfl)
      have h2 := ha c (by simp)
      rw [this] at h2
      cases h2
    | cons d b =>
      simp only [List.cons_append, List.cons.injEq] at h
      obtain ⟨h1, h2⟩ := ih (fun c hc => ha c (List.mem_cons_of_mem _ hc))
        (fun c hc => hb c (List.mem_cons_of_mem _ hc)) h.2
      exact ⟨by rw [h.1, h1], h2⟩

theorem stops_cons {D : Digits} (hp : Plain D) {c : Char} {t : Text}
    (h : c ∈ ['-', ':', '.', ' ', 'T', 'Z', '+', '\n']) : Stops D (c :: t) := by
  intro d hd
  cases hd
  exact hp _ h

theorem stops_end {D : Digits} (hp : Plain D) {t : Text} (h : t = [] ∨ t = ['\n']) : Stops D t := by
  rcases h with rfl | rfl
  · intro c hc; cases hc
  · exact stops_cons hp (by simp)

theorem stops_zone {D : Digits} (hp : Plain D) (z : Option ZoneText) {t : Text} (h : t = [] ∨ t = ['\n']) :
    Stops D (renderZone z ++ t) := by
  cases z with
  | none => exact stops_end hp h
  | some z => cases z with
    | z => exact stops_cons hp (by simp)
    | offset neg a b =>
      cases neg
      · exact stops_cons hp (by simp)
      · exact stops_cons hp (by simp)

theorem stops_fraction {D : Digits} (hp : Plain D) (f : Option Text) {t : Text} (h : Stops D t) :
    Stops D (renderFraction f ++ t) := by
  cases f with
  | none => exact h
  | some f => exact stops_cons hp (by simp)

theorem stops_time {D : Digits} (hp : Plain D) (x : Option TimeText) {t : Text} (h : t = [] ∨ t = ['\n']) :
    Stops D (renderTime x ++ t) := by
  cases x with
  | none => exact stops_end hp h
  | some x =>
    obtain ⟨ti, ho, mi, se, us, zt⟩ := x
    cases ti
    · exact stops_cons hp (by simp)
    · exact stops_cons hp (by simp)

theorem zone_inj {D : Digits} (hp : Plain D) {z z' : Option ZoneText} {t t' : Text}
    (hz : ∀ x, z = some x → x.Ok D) (hz' : ∀ x, z' = some x → x.Ok D)
    (ht : t = [] ∨ t = ['\n']) (ht' : t' = [] ∨ t' = ['\n'])
    (h : renderZone z ++ t = renderZone z' ++ t') : z = z' := by
  cases z with
  | none =>
    cases z' with
    | none => rfl
    | some z' =>
      cases z' with
      | z => rcases ht with rfl | rfl <;> simp [renderZone, ZoneText.render] at h
      | offset n a b => cases n <;> rcases ht with rfl | rfl <;> simp [renderZone, ZoneText.render] at h
  | some z =>
    cases z' with
    | none =>
      cases z with
      | z => rcases ht' with rfl | rfl <;> simp [renderZone, ZoneText.render] at h
      | offset n a b => cases n <;> rcases ht' with rfl | rfl <;> simp [renderZone, ZoneText.render] at h
    | some z' =>
      have k1 := hz _ rfl
      have k2 := hz' _ rfl
      cases z with
      | z =>
        cases z' with
        | z => rfl
        | offset n a b => cases n <;> simp [renderZone, ZoneText.render] at h
      | offset n a b =>
        cases z' with
        | z => cases n <;> simp [renderZone, ZoneText.render] at h
        | offset n' a' b' =>
          simp only [renderZone, ZoneText.render, List.cons_append, List.append_assoc, List.cons.injEq] at h
          obtain ⟨hs, h⟩ := h
          obtain ⟨rfl, h11⟩ := cut k1.1.1 k2.1.1 (stops_cons hp (by simp)) (stops_cons hp (by simp)) h
          rw [List.cons.injEq] at h11
          obtain ⟨rfl, _⟩ := cut k1.2.1 k2.2.1 (stops_end hp ht) (stops_end hp ht') h11.2
          cases n <;> cases n' <;> first | rfl | exact absurd hs (by decide)

theorem fraction_inj {D : Digits} (hp : Plain D) {f f' : Option Text} {t t' : Text}
    (hf : ∀ x, f = some x → Count D 1 6 x) (hf' : ∀ x, f' = some x → Count D 1 6 x)
    (ht : Stops D t) (ht' : Stops D t') (hd : t.head? ≠ some '.') (hd' : t'.head? ≠ some '.')
    (h : renderFraction f ++ t = renderFraction f' ++ t') : f = f' ∧ t = t' := by
  cases f with
  | none =>
    cases f' with
    | none => exact ⟨rfl, h⟩
    | some f' => simp only [renderFraction, List.nil_append, List.cons_append] at h; rw [h] at hd; simp at hd
  | some f =>
    cases f' with
    | none => simp only [renderFraction, List.nil_append, List.cons_append] at h; rw [← h] at hd'; simp at hd'
    | some f' =>
      simp only [renderFraction, List.cons_append, List.cons.injEq, true_and] at h
      obtain ⟨rfl, h2⟩ := cut (hf _ rfl).1 (hf' _ rfl).1 ht ht' h
      exact ⟨rfl, h2⟩

theorem zone_no_dot (z : Option ZoneText) {t : Text} (h : t = [] ∨ t = ['\n']) :
    (renderZone z ++ t).head? ≠ some '.' := by
  cases z with
  | none => rcases h with rfl | rfl <;> simp [renderZone]
  | some z => cases z with
    | z => simp [renderZone, ZoneText.render]
    | offset n a b => cases n <;> simp [renderZone, ZoneText.render]

theorem time_inj {D : Digits} (hp : Plain D) {x x' : Option TimeText} {t t' : Text}
    (hx : ∀ y, x = some y → y.Ok D) (hx' : ∀ y, x' = some y → y.Ok D)
    (ht : t = [] ∨ t = ['\n']) (ht' : t' = [] ∨ t' = ['\n'])
    (h : renderTime x ++ t = renderTime x' ++ t') : x = x' := by
  cases x with
  | none =>
    cases x' with
    | none => rfl
    | some x' =>
      obtain ⟨ti, ho, mi, se, us, zt⟩ := x'
      cases ti <;> rcases ht with rfl | rfl <;> simp [renderTime, TimeText.render] at h
  | some x =>
    cases x' with
    | none =>
      obtain ⟨ti, ho, mi, se, us, zt⟩ := x
      cases ti <;> rcases ht' with rfl | rfl <;> simp [renderTime, TimeText.render] at h
    | some x' =>
      have k := hx _ rfl
      have k' := hx' _ rfl
      obtain ⟨ti, ho, mi, se, us, zt⟩ := x
      obtain ⟨ti', ho', mi', se', us', zt'⟩ := x'
      obtain ⟨a1, a2, a3, a4, a5⟩ := k
      obtain ⟨b1, b2, b3, b4, b5⟩ := k'
      simp only at a1 a2 a3 a4 a5 b1 b2 b3 b4 b5
      simp only [renderTime, TimeText.render, List.cons_append, List.append_assoc, List.cons.injEq] at h
      obtain ⟨h0, h⟩ := h
      obtain ⟨rfl, h11⟩ := cut a1.1 b1.1 (stops_cons hp (by simp)) (stops_cons hp (by simp)) h
      rw [List.cons.injEq] at h11
      obtain ⟨rfl, h12⟩ := cut a2.1 b2.1 (stops_cons hp (by simp)) (stops_cons hp (by simp)) h11.2
      rw [List.cons.injEq] at h12
      obtain ⟨rfl, h13⟩ := cut a3.1 b3.1 (stops_fraction hp _ (stops_zone hp _ ht))
        (stops_fraction hp _ (stops_zone hp _ ht')) h12.2
      obtain ⟨rfl, h14⟩ := fraction_inj hp a4 b4 (stops_zone hp _ ht) (stops_zone hp _ ht')
        (zone_no_dot _ ht) (zone_no_dot _ ht') h13
      obtain rfl := zone_inj hp a5 b5 ht ht' h14
      cases ti <;> cases ti' <;> first | rfl | (simp at h0)

theorem stamp_inj {D : Digits} (hp : Plain D) {x x' : Stamp} {t t' : Text} (hx : x.Ok D) (hx' : x'.Ok D)
    (ht : t = [] ∨ t = ['\n']) (ht' : t' = [] ∨ t' = ['\n'])
    (h : x.render ++ t = x'.render ++ t') : x = x' := by
  obtain ⟨y, mo, d, ti⟩ := x
  obtain ⟨y', mo', d', ti'⟩ := x'
  obtain ⟨a1, a2, a3, a4⟩ := hx
  obtain ⟨b1, b2, b3, b4⟩ := hx'
  simp only at a1 a2 a3 a4 b1 b2 b3 b4
  simp only [Stamp.render, List.cons_append, List.append_assoc] at h
  obtain ⟨rfl, h11⟩ := cut a1.1 b1.1 (stops_cons hp (by simp)) (stops_cons hp (by simp)) h
  rw [List.cons.injEq] at h11
  obtain ⟨rfl, h12⟩ := cut a2.1 b2.1 (stops_cons hp (by simp)) (stops_cons hp (by simp)) h11.2
  rw [List.cons.injEq] at h12
  obtain ⟨rfl, h13⟩ := cut a3.1 b3.1 (stops_time hp _ ht) (stops_time hp _ ht') h12.2
  obtain rfl := time_inj hp a4 b4 ht ht' h13
  rfl

theorem dateMatch_written {D : Digits} (hp : Plain D) {s : Text} {x : Stamp} (h : Written D s x) :
    dateMatch D s = some (Stamp.groups x) := by
  obtain ⟨hok, h⟩ := h
  obtain ⟨t, ht, rfl⟩ : ∃ t, (t = [] ∨ t = ['\n']) ∧ s = x.render ++ t := by
    rcases h with h | h
    · exact ⟨[], .inl rfl, by simp [h]⟩
    · exact ⟨['\n'], .inr rfl, h⟩
  have hm : (Stamp.groups x, t) ∈ dateRe D (x.render ++ t) := mem_dateRe.2 ⟨x, hok, rfl, rfl, ht⟩
  unfold dateMatch
  cases hl : dateRe D (x.render ++ t) with
  | nil => rw [hl] at hm; cases hm
  | cons r l =>
    obtain ⟨g, t'⟩ := r
    have : (g, t') ∈ dateRe D (x.render ++ t) := by rw [hl]; exact List.mem_cons_self ..
    obtain ⟨x', hok', rfl, he, ht'⟩ := mem_dateRe.1 this
    obtain rfl := stamp_inj hp hok hok' ht ht' he
    rfl

theorem dateMatch_not_written {D : Digits} {s : Text} (h : ∀ x, ¬ Written D s x) : dateMatch D s = none := by
  unfold dateMatch
  cases hl : dateRe D s with
  | nil => rfl
  | cons r l =>
    obtain ⟨g, t⟩ := r
    have : (g, t) ∈ dateRe D s := by rw [hl]; exact List.mem_cons_self ..
    obtain ⟨x, hok, rfl, he, ht⟩ := mem_dateRe.1 this
    refine absurd ⟨hok, ?_⟩ (h x)
    rcases ht with rfl | rfl
    · left; simpa using he
    · right; exact he

/-! ## Values -/

theorem int_eq (D : Digits) (t : Text) : int D t = number D t := by
  have H : ∀ (t : Text) (n : Nat),
      t.foldl (fun n c => n * 10 + (D c).getD 0) n = n * 10 ^ t.length + number D t := by
    intro t
    induction t with
    | nil => intro n; simp [number]
    | cons c t ih =>
      intro n
      rw [List.foldl_cons, ih, number, List.length_cons, Nat.pow_succ, Nat.add_mul, Nat.add_assoc,
        Nat.mul_assoc, Nat.mul_comm 10]
  have := H t 0
  simpa [int] using this

theorem number_lt {D : Digits} (hD : ∀ c n, D c = some n → n ≤ 9) (t : Text) : number D t < 10 ^ t.length := by
  induction t with
  | nil => simp [number]
  | cons c t ih =>
    have h : (D c).getD 0 ≤ 9 := by
      cases h : D c with
      | none => simp
      | some n => exact hD c n h
    have := Nat.mul_le_mul_right (10 ^ t.length) h
    rw [number, List.length_cons, Nat.pow_succ]
    omega

theorem zoneMinutes_render {D : Digits} (hp : Plain D) {z : ZoneText} (hz : z.Ok D) :
    zoneMinutes D z.render = z.minutes D := by
  cases z with
  | z => rfl
  | offset neg h m =>
    have hno : ∀ c ∈ h, c ≠ ':' := by
      intro c hc e
      have := hz.1.1 c hc
      rw [e, hp ':' (by simp)] at this
      cases this
    have e1 : (h ++ ':' :: m).takeWhile (fun c : Char => decide (c ≠ ':')) = h := by
      rw [List.takeWhile_append_of_pos (by simpa using hno)]
      simp
    have e2 : (h ++ ':' :: m).dropWhile (fun c : Char => decide (c ≠ ':')) = ':' :: m := by
      rw [List.dropWhile_append_of_pos (by simpa using hno)]
      simp
    unfold zoneMinutes
    rw [if_neg (by cases neg <;> simp [ZoneText.render])]
    simp only [ZoneText.render, List.drop_succ_cons, List.drop_zero, e1, e2, List.head?_cons, int_eq]
    cases neg
    · simp [ZoneText.minutes]
    · have : (some (if True then '-' else '+') = some '+') = False := by simp
      simp only [this, if_false, ZoneText.minutes]
      omega

/-! ## C51 -/

/-- The date and time of day a stamp shows; a missing time is midnight. -/
def civilOf (D : Digits) (x : Stamp) : Civil :=
  match x.time with
  | none => ⟨number D x.year, number D x.month, number D x.day, 0, 0, 0⟩
  | some t => ⟨number D x.year, number D x.month, number D x.day, number D t.hour, number D t.minute,
      number D t.second⟩

/-- The microseconds a stamp shows -/
def microsOf (D : Digits) (x : Stamp) : Nat :=
  match x.time with
  | some ⟨_, _, _, _, some f, _⟩ => micros D f
  | _ => 0

/-- The zone written in a stamp -/
def zoneOf (x : Stamp) : Option ZoneText := x.time.bind (·.zone)

/-- A written fraction of a second has six digits. -/
def SixDigits (x : Stamp) : Prop := ∀ t f, x.time = some t → t.fraction = some f → f.length = 6

/-- A wall-clock time in microseconds since 0001-01-01 reads as the date, time and microseconds given. -/
def Reads (wall : Int) (c : Civil) (us : Nat) : Prop :=
  Cal.ofSec (wall / 1000000) = c ∧ wall % 1000000 = (us : Int)

/-- the microseconds the code reads -/
def codeMicros (D : Digits) (x : Stamp) : Nat := intOr D (x.time.bind (·.fraction))

theorem codeMicros_eq {D : Digits} {x : Stamp} (h6 : SixDigits x) : codeMicros D x = microsOf D x := by
  obtain ⟨y, mo, d, ti⟩ := x
  cases ti with
  | none => rfl
  | some t =>
    obtain ⟨b, ho, mi, se, f, z⟩ := t
    cases f with
    | none => rfl
    | some f =>
      have : f.length = 6 := h6 _ f rfl rfl
      show int D f = micros D f
      rw [int_eq, micros, this, Nat.sub_self, Nat.pow_zero, Nat.mul_one]

theorem reads_wall {c : Civil} {us : Nat} (hc : Cal.Valid c) (hus : us < 1000000) :
    Reads (Cal.toSec c * 1000000 + us) c us := by
  constructor
  · have : (Cal.toSec c * 1000000 + (us : Int)) / 1000000 = Cal.toSec c := by omega
    rw [this, Cal.ofSec_toSec hc]
  · omega

theorem toDatetimeStr_written {D : Digits} (hp : Plain D) {s : Text} {x : Stamp} (h : Written D s x)
    (tz : Option Zone) (req : Bool) :
    toDatetimeStr D tz req s =
      if ((zoneOf x).map fun z => z.minutes D).any (fun m => m ≤ -1440 ∨ 1440 ≤ m) then .range
      else if 1 ≤ (civilOf D x).year ∧ Cal.Valid (civilOf D x) then
        match (match (zoneOf x).map fun z => z.minutes D with
          | some m => some (Zone.fixed (m * 60000000))
          | none => tz) with
        | none => if req then .tzRequired else .naive (Cal.toSec (civilOf D x) * 1000000 + codeMicros D x)
        | some z => localizeIn z (Cal.toSec (civilOf D x) * 1000000 + codeMicros D x)
      else .range := by
  have hne : s ≠ [] := by
    obtain ⟨hok, h⟩ := h
    rintro rfl
    have : x.year.length = 4 := by have := hok.1.2; omega
    rcases h with h | h
    · have := congrArg List.length h
      simp only [Stamp.render, List.length_append, List.length_nil] at this
      omega
    · simp at h
  unfold toDatetimeStr
  rw [if_neg hne, dateMatch_written hp h]
  have e1 : (((Stamp.groups x).time.bind (·.timezone)).map (zoneMinutes D)) =
      (zoneOf x).map fun z => z.minutes D := by
    obtain ⟨y, mo, d, ti⟩ := x
    cases ti with
    | none => rfl
    | some t =>
      obtain ⟨b, ho, mi, se, f, z⟩ := t
      cases z with
      | none => rfl
      | some z =>
        have hz : z.Ok D := (h.1.2.2.2 _ rfl).2.2.2.2 z rfl
        show some (zoneMinutes D z.render) = some (z.minutes D)
        rw [zoneMinutes_render hp hz]
  have e2 : (⟨int D (Stamp.groups x).year, int D (Stamp.groups x).month, int D (Stamp.groups x).day,
      intOr D ((Stamp.groups x).time.map (·.hour)), intOr D ((Stamp.groups x).time.map (·.minute)),
      intOr D ((Stamp.groups x).time.map (·.second))⟩ : Civil) = civilOf D x := by
    obtain ⟨y, mo, d, ti⟩ := x
    cases ti with
    | none => simp [Stamp.groups, civilOf, intOr, int_eq]
    | some t => simp [Stamp.groups, TimeText.groups, civilOf, intOr, int_eq]
  have e3 : intOr D ((Stamp.groups x).time.bind (·.microsecond)) = codeMicros D x := by
    obtain ⟨y, mo, d, ti⟩ := x
    cases ti <;> rfl
  have e4 : ((int D (Stamp.groups x).year : Nat) : Int) = (civilOf D x).year := by rw [← e2]
  simp only [e1, e2, e3]
  simp only [e4]
  by_cases hv : 1 ≤ (civilOf D x).year ∧ Cal.Valid (civilOf D x)
  · rw [if_pos hv, if_pos hv]
    rfl
  · rw [if_neg hv, if_neg hv]

theorem codeMicros_lt {D : Digits} (hD : ∀ c n, D c = some n → n ≤ 9) {x : Stamp} (h : x.Ok D) :
    codeMicros D x < 1000000 := by
  obtain ⟨y, mo, d, ti⟩ := x
  cases ti with
  | none => show 0 < 1000000; decide
  | some t =>
    obtain ⟨b, ho, mi, se, f, z⟩ := t
    cases f with
    | none => show 0 < 1000000; decide
    | some f =>
      have h6 := (h.2.2.2 _ rfl).2.2.2.1 f rfl
      show int D f < 1000000
      rw [int_eq]
      have h1 := number_lt hD f
      have h2 : 10 ^ f.length ≤ 10 ^ 6 := Nat.pow_le_pow_right (by omega) h6.2.2
      omega

/-- Decimal digits have values up to 9 and the characters of the format are none. -/
def Lawful (D : Digits) : Prop := Plain D ∧ ∀ c n, D c = some n → n ≤ 9

theorem ascii_lawful : Lawful ascii := by
  refine ⟨ascii_plain, ?_⟩
  intro c n h
  unfold ascii at h
  split at h
  · rename_i hc
    cases h
    have h2 : c.toNat ≤ '9'.toNat := hc.2
    have : '9'.toNat = 57 := rfl
    omega
  · cases h

theorem civil_year {D : Digits} (hD : ∀ c n, D c = some n → n ≤ 9) {x : Stamp} (h : x.Ok D) :
    (civilOf D x).year ≤ 9999 := by
  have h1 := number_lt hD x.year
  have h2 : x.year.length = 4 := by have := h.1.2; omega
  rw [h2] at h1
  have h3 : (civilOf D x).year = number D x.year := by
    obtain ⟨y, mo, d, ti⟩ := x
    cases ti <;> rfl
  rw [h3]
  omega

theorem wall_range {c : Civil} {us : Nat} (h1 : 1 ≤ c.year) (h2 : c.year ≤ 9999) (hc : Cal.Valid c)
    (hus : us < 1000000) :
    0 ≤ Cal.toSec c * 1000000 + (us : Int) ∧ Cal.toSec c * 1000000 + (us : Int) < endOfTime := by
  have hd := Cal.days_bounds hc
  obtain ⟨a1, a2⟩ := hc.hour
  obtain ⟨b1, b2⟩ := hc.minute
  obtain ⟨c1, c2⟩ := hc.second
  have e : endOfTime = Cal.beforeYear 10000 * 86400000000 := by decide
  have l : Cal.beforeYear (c.year + 1) ≤ Cal.beforeYear 10000 := by
    by_cases hy : c.year = 9999
    · rw [hy]; exact Int.le_refl _
    · exact Cal.beforeYear_succ_le (by omega)
  have g : 0 ≤ Cal.beforeYear c.year := by
    by_cases hy : c.year = 1
    · rw [hy]; decide
    · have := Cal.beforeYear_lt (y := 1) (y' := c.year) (by omega)
      have h0 : Cal.beforeYear 1 = 0 := by decide
      omega
  unfold Cal.toSec
  omega

/-- **C51, strings with a zone.**  A well-written string with a zone that shows an existing date and time, an
offset below 24 hours, and an instant of the years 1 to 9999, yields a date-time with exactly that wall-clock time
at that offset, whatever zone is passed.  Restricted to fractions of a second written with six digits (or
none); see `fraction_witness`. -/
theorem zone_partial (D : Digits) (hD : Lawful D) (s : Text) (x : Stamp) (hw : Written D s x) (h6 : SixDigits x)
    (z : ZoneText) (hz : zoneOf x = some z) (hoff : -1440 < z.minutes D ∧ z.minutes D < 1440)
    (hc : 1 ≤ (civilOf D x).year ∧ Cal.Valid (civilOf D x)) (tz : Option Zone) (req : Bool) :
    ∃ wall, Reads wall (civilOf D x) (microsOf D x) ∧
      (0 ≤ wall - z.minutes D * 60000000 → wall - z.minutes D * 60000000 < endOfTime →
        toDatetimeStr D tz req s = .aware wall false (Zone.fixed (z.minutes D * 60000000))) := by
  refine ⟨Cal.toSec (civilOf D x) * 1000000 + microsOf D x, ?_, ?_⟩
  · apply reads_wall hc.2
    rw [← codeMicros_eq h6]
    exact codeMicros_lt hD.2 hw.1
  · intro h1 h2
    rw [toDatetimeStr_written hD.1 hw, hz]
    simp only [Option.map_some, Option.any_some]
    rw [if_neg (by simp only [decide_eq_true_eq]; omega), if_pos hc, codeMicros_eq h6]
    have hm := codeMicros_lt hD.2 hw.1
    rw [codeMicros_eq h6] at hm
    obtain ⟨h0, h3⟩ := wall_range hc.1 (civil_year hD.2 hw.1) hc.2 hm
    have e : ∀ a b : Int, a - b + b = a := by intro a b; omega
    simp only [localizeIn, Zone.fixed, e]
    rw [if_pos ⟨h1, h2, h0, h3⟩]

/-- **C51, strings without a zone, zone passed.**  The wall-clock time written is read in the zone passed (the
first of two readings where clocks are set back), and the result is that instant in that zone. -/
theorem local_partial (D : Digits) (hD : Lawful D) (s : Text) (x : Stamp) (hw : Written D s x) (h6 : SixDigits x)
    (hz : zoneOf x = none) (hc : 1 ≤ (civilOf D x).year ∧ Cal.Valid (civilOf D x)) (tz : Zone) (req : Bool) :
    ∃ wall, Reads wall (civilOf D x) (microsOf D x) ∧
      ∀ u, u = wall - tz.off wall false → 0 ≤ u → u < endOfTime → 0 ≤ (tz.loc u).1 → (tz.loc u).1 < endOfTime →
        toDatetimeStr D (some tz) req s = .aware (tz.loc u).1 (tz.loc u).2 tz := by
  refine ⟨Cal.toSec (civilOf D x) * 1000000 + microsOf D x, ?_, ?_⟩
  · apply reads_wall hc.2
    rw [← codeMicros_eq h6]
    exact codeMicros_lt hD.2 hw.1
  · rintro u rfl h1 h2 h3 h4
    rw [toDatetimeStr_written hD.1 hw, hz]
    simp only [Option.map_none, Option.any_none, Bool.false_eq_true, if_false]
    rw [if_pos hc, codeMicros_eq h6]
    simp only [localizeIn]
    rw [if_pos ⟨h1, h2, h3, h4⟩]

/-- **C51, strings without a zone, none passed.**  They are refused if a zone is required, else the result is the
wall-clock time written. -/
theorem naive_partial (D : Digits) (hD : Lawful D) (s : Text) (x : Stamp) (hw : Written D s x) (h6 : SixDigits x)
    (hz : zoneOf x = none) (hc : 1 ≤ (civilOf D x).year ∧ Cal.Valid (civilOf D x)) :
    toDatetimeStr D none true s = .tzRequired ∧
    ∃ wall, Reads wall (civilOf D x) (microsOf D x) ∧ toDatetimeStr D none false s = .naive wall := by
  rw [toDatetimeStr_written hD.1 hw, toDatetimeStr_written hD.1 hw, hz]
  simp only [Option.map_none, Option.any_none, Bool.false_eq_true, if_false, if_true]
  rw [if_pos hc, codeMicros_eq h6]
  refine ⟨rfl, _, ?_, if_pos hc⟩
  apply reads_wall hc.2
  rw [← codeMicros_eq h6]
  exact codeMicros_lt hD.2 hw.1

/-- **C51, everything else is rejected.**  A non-empty string that is not well written, or shows a date or time
that does not exist, or an offset of 24 hours or more, raises; the empty string gives no date. -/
theorem reject (D : Digits) (hD : Lawful D) (s : Text) (tz : Option Zone) (req : Bool) :
    (s ≠ [] → (∀ x, ¬ Written D s x) → toDatetimeStr D tz req s = .invalid) ∧
    (∀ x, Written D s x →
      (¬ (1 ≤ (civilOf D x).year ∧ Cal.Valid (civilOf D x)) ∨
        ∃ z, zoneOf x = some z ∧ (z.minutes D ≤ -1440 ∨ 1440 ≤ z.minutes D)) →
      toDatetimeStr D tz req s = .range) ∧
    toDatetimeStr D tz req [] = .nothing := by
  refine ⟨?_, ?_, by simp [toDatetimeStr]⟩
  · intro hne h
    unfold toDatetimeStr
    rw [if_neg hne, dateMatch_not_written h]
  · intro x hw h
    rw [toDatetimeStr_written hD.1 hw]
    rcases h with h | ⟨z, hz, h⟩
    · rw [if_neg h]
      split <;> rfl
    · rw [hz, if_pos (by simpa using h)]

/-- **C51 fails for shorter fractions:** `.5` is read as five microseconds, not half a second, and so is
`.000005`. -/
theorem fraction_witness :
    let half := "2024-01-01 00:00:00.5Z".toList
    let five := "2024-01-01 00:00:00.000005Z".toList
    (∃ x, Written ascii half x ∧ microsOf ascii x = 500000) ∧
    ∃ w, Reads w ⟨2024, 1, 1, 0, 0, 0⟩ 5 ∧
      toDatetimeStr ascii none true half = .aware w false (Zone.fixed 0) ∧
      toDatetimeStr ascii none true five = .aware w false (Zone.fixed 0) := by
  refine ⟨⟨⟨"2024".toList, "01".toList, "01".toList,
    some ⟨false, "00".toList, "00".toList, "00".toList, some "5".toList, some .z⟩⟩, ?_, by decide⟩, ?_⟩
  · refine ⟨⟨?_, ?_, ?_, ?_⟩, .inl (by decide)⟩
    · unfold Count Row; decide
    · unfold Count Row; decide
    · unfold Count Row; decide
    · intro t ht
      cases ht
      refine ⟨by unfold Count Row; decide, by unfold Count Row; decide, by unfold Count Row; decide, ?_, ?_⟩
      · intro f hf; cases hf; unfold Count Row; decide
      · intro z hz; cases hz; trivial
  · refine ⟨Cal.toSec ⟨2024, 1, 1, 0, 0, 0⟩ * 1000000 + 5, by unfold Reads; decide +kernel, ?_, ?_⟩ <;> rfl

/-- **C51: a final line feed is accepted**, because `$` matches before it. -/
theorem newline_witness : ∃ w, Reads w ⟨2024, 2, 29, 0, 0, 0⟩ 0 ∧
    toDatetimeStr ascii none false "2024-02-29\n".toList = .naive w :=
  ⟨Cal.toSec ⟨2024, 2, 29, 0, 0, 0⟩ * 1000000 + 0, by unfold Reads; decide +kernel, rfl⟩

/-- a string with a zone that meets the hypotheses of `zone_partial` -/
example : let x : Stamp := ⟨"2024".toList, "2".toList, "29".toList,
      some ⟨true, "23".toList, "5".toList, "07".toList, some "012345".toList,
        some (.offset true "03".toList "30".toList)⟩⟩
    Written ascii "2024-2-29T23:5:07.012345-03:30".toList x ∧ SixDigits x ∧
      zoneOf x = some (.offset true "03".toList "30".toList) ∧ civilOf ascii x = ⟨2024, 2, 29, 23, 5, 7⟩ ∧
      Cal.Valid (civilOf ascii x) ∧ microsOf ascii x = 12345 ∧
      (ZoneText.offset true "03".toList "30".toList).minutes ascii = -210 := by
  refine ⟨⟨⟨?_, ?_, ?_, ?_⟩, .inl (by decide)⟩, ?_, rfl, by decide, by decide, by decide, by decide⟩
  · unfold Count Row; decide
  · unfold Count Row; decide
  · unfold Count Row; decide
  · intro t ht
    cases ht
    refine ⟨by unfold Count Row; decide, by unfold Count Row; decide, by unfold Count Row; decide, ?_, ?_⟩
    · intro f hf; cases hf; unfold Count Row; decide
    · intro z hz; cases hz; constructor <;> (unfold Count Row; decide)
  · intro t f ht hf
    cases ht; cases hf; rfl

/-- strings that are rejected: not well written, no such date, offset of a day -/
example : toDatetimeStr ascii none false "2024-01-01 00:00".toList = .invalid ∧
    toDatetimeStr ascii none false "2023-02-29".toList = .range ∧
    toDatetimeStr ascii none false "2024-01-01 00:00:00+23:60".toList = .range := ⟨rfl, rfl, rfl⟩

end DateString
end Asyncz
