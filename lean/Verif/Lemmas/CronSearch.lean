import Verif.Lemmas.CronIncr
/-! # The cron search loop -/
namespace Asyncz
namespace Cron

/-- The two times agree on all of year, month, day, hour, minute, second whose field has index `≤ i`. -/
def Pre (i : Int) (a b : Civil) : Prop :=
  (0 ≤ i → b.year = a.year) ∧ (1 ≤ i → b.month = a.month) ∧ (2 ≤ i → b.day = a.day) ∧
  (5 ≤ i → b.hour = a.hour) ∧ (6 ≤ i → b.minute = a.minute) ∧ (7 ≤ i → b.second = a.second)

theorem monthLen_ge (y m : Int) : 28 ≤ Cal.monthLen y m := by
  have := Cal.leapDay_bounds y
  simp only [Cal.monthLen]
  split
  · omega
  · split <;> omega

/-- Which field was increased. -/
def BumpCases (c c' : Civil) (fn fn' : Int) : Prop :=
      (c' = ⟨c.year + 1, 1, 1, 0, 0, 0⟩ ∧ fn' = 0 ∧ c.year ≠ 9999 ∧ (1 ≤ fn → c.month = 12) ∧
        (2 ≤ fn → c.day = Cal.monthLen c.year c.month) ∧ (5 ≤ fn → c.hour = 23) ∧ (6 ≤ fn → c.minute = 59)) ∨
      (c' = ⟨c.year, c.month + 1, 1, 0, 0, 0⟩ ∧ fn' = 1 ∧ 1 ≤ fn ∧ c.month ≠ 12 ∧
        (2 ≤ fn → c.day = Cal.monthLen c.year c.month) ∧ (5 ≤ fn → c.hour = 23) ∧ (6 ≤ fn → c.minute = 59)) ∨
      (c' = ⟨c.year, c.month, c.day + 1, 0, 0, 0⟩ ∧ fn' = 2 ∧ 2 ≤ fn ∧
        c.day ≠ Cal.monthLen c.year c.month ∧ (5 ≤ fn → c.hour = 23) ∧ (6 ≤ fn → c.minute = 59)) ∨
      (c' = ⟨c.year, c.month, c.day, c.hour + 1, 0, 0⟩ ∧ fn' = 5 ∧ 5 ≤ fn ∧ c.hour ≠ 23 ∧
        (6 ≤ fn → c.minute = 59)) ∨
      (c' = ⟨c.year, c.month, c.day, c.hour, c.minute + 1, 0⟩ ∧ fn' = 6 ∧ 6 ≤ fn ∧ c.minute ≠ 59)

theorem bump_spec {c : Civil} (hv : Cal.Valid c) (hy : c.year ≤ 9999) {fn : Int} (h0 : 0 ≤ fn) (h6 : fn ≤ 6)
    {c' : Civil} {fn' : Int} (h : bump c fn = some (c', fn')) :
    Cal.Valid c' ∧ c.year ≤ c'.year ∧ c'.year ≤ 9999 ∧ 0 ≤ fn' ∧ fn' ≤ fn ∧ Pre (fn' - 1) c c' ∧
    Cal.Before c c' ∧
    ∀ x, Cal.Valid x → ¬ Cal.Before x c → Cal.Before x c' → Pre fn c x := by
  have hml := monthLen_ge c.year c.month
  obtain ⟨⟨v1, v2⟩, ⟨v3, v4⟩, ⟨v5, v6⟩, ⟨v7, v8⟩, ⟨v9, v10⟩⟩ := hv
  have mk : ∀ y m d hh mm, 1 ≤ m → m ≤ 12 → 1 ≤ d → d ≤ Cal.monthLen y m → 0 ≤ hh → hh ≤ 23 → 0 ≤ mm →
      mm ≤ 59 → Cal.Valid ⟨y, m, d, hh, mm, 0⟩ :=
    fun y m d hh mm a1 a2 a3 a4 a5 a6 a7 a8 => ⟨⟨a1, a2⟩, ⟨a3, a4⟩, ⟨a5, a6⟩, ⟨a7, a8⟩, by simp⟩
  have hx : ∀ x, Cal.Valid x → x.year = c.year → x.month = c.month →
      x.day ≤ Cal.monthLen c.year c.month := by
    intro x hx e1 e2; have := hx.day.2; rwa [e1, e2] at this
  have hmy := monthLen_ge (c.year + 1) 1
  have hmm := monthLen_ge c.year (c.month + 1)
  have : (fn = 6 ∨ fn = 5 ∨ fn = 4 ∨ fn = 3 ∨ fn = 2 ∨ fn = 1 ∨ fn = 0) := by omega
  have hyear : ∀ c' fn', bumpYear c = some (c', fn') →
      (c' = ⟨c.year + 1, 1, 1, 0, 0, 0⟩ ∧ fn' = 0 ∧ c.year ≠ 9999) := by
    intro c' fn' h
    simp only [bumpYear] at h
    split at h
    · cases h
    · simp only [Option.some.injEq, Prod.mk.injEq] at h
      exact ⟨h.1.symm, h.2.symm, by assumption⟩
  have hmonth : ∀ c' fn', bumpMonth c = some (c', fn') →
      (c' = ⟨c.year + 1, 1, 1, 0, 0, 0⟩ ∧ fn' = 0 ∧ c.year ≠ 9999 ∧ c.month = 12) ∨
      (c' = ⟨c.year, c.month + 1, 1, 0, 0, 0⟩ ∧ fn' = 1 ∧ c.month ≠ 12) := by
    intro c' fn' h
    simp only [bumpMonth] at h
    split at h
    · obtain ⟨a, b, d⟩ := hyear _ _ h; exact .inl ⟨a, b, d, by assumption⟩
    · simp only [Option.some.injEq, Prod.mk.injEq] at h
      exact .inr ⟨h.1.symm, h.2.symm, by assumption⟩
  have hday : ∀ c' fn', bumpDay c = some (c', fn') →
      (c' = ⟨c.year + 1, 1, 1, 0, 0, 0⟩ ∧ fn' = 0 ∧ c.year ≠ 9999 ∧ c.month = 12 ∧
        c.day = Cal.monthLen c.year c.month) ∨
      (c' = ⟨c.year, c.month + 1, 1, 0, 0, 0⟩ ∧ fn' = 1 ∧ c.month ≠ 12 ∧
        c.day = Cal.monthLen c.year c.month) ∨
      (c' = ⟨c.year, c.month, c.day + 1, 0, 0, 0⟩ ∧ fn' = 2 ∧
        c.day ≠ Cal.monthLen c.year c.month) := by
    intro c' fn' h
    simp only [bumpDay] at h
    split at h
    · rcases hmonth _ _ h with ⟨a, b, d, e⟩ | ⟨a, b, d⟩
      · exact .inl ⟨a, b, d, e, by assumption⟩
      · exact .inr (.inl ⟨a, b, d, by assumption⟩)
    · simp only [Option.some.injEq, Prod.mk.injEq] at h
      exact .inr (.inr ⟨h.1.symm, h.2.symm, by assumption⟩)
  have hhour : ∀ c' fn', bumpHour c = some (c', fn') →
      (bumpDay c = some (c', fn') ∧ c.hour = 23) ∨
      (c' = ⟨c.year, c.month, c.day, c.hour + 1, 0, 0⟩ ∧ fn' = 5 ∧ c.hour ≠ 23) := by
    intro c' fn' h
    simp only [bumpHour] at h
    split at h
    · exact .inl ⟨h, by assumption⟩
    · simp only [Option.some.injEq, Prod.mk.injEq] at h
      exact .inr ⟨h.1.symm, h.2.symm, by assumption⟩
  have hmin : ∀ c' fn', bumpMinute c = some (c', fn') →
      (bumpHour c = some (c', fn') ∧ c.minute = 59) ∨
      (c' = ⟨c.year, c.month, c.day, c.hour, c.minute + 1, 0⟩ ∧ fn' = 6 ∧ c.minute ≠ 59) := by
    intro c' fn' h
    simp only [bumpMinute] at h
    split at h
    · exact .inl ⟨h, by assumption⟩
    · simp only [Option.some.injEq, Prod.mk.injEq] at h
      exact .inr ⟨h.1.symm, h.2.symm, by assumption⟩
  have fin_year : ∀ x, Cal.Valid x → ¬ Cal.Before x c → x.year < c.year + 1 → x.year = c.year := by
    intro x _ h1 h2; simp only [Cal.Before] at h1; omega
  -- reduce to the field that was increased
  have cases6 : BumpCases c c' fn fn' := by
    have fromDay : bumpDay c = some (c', fn') → 2 ≤ fn → (5 ≤ fn → c.hour = 23) →
        (6 ≤ fn → c.minute = 59) → BumpCases c c' fn fn' := fun hb h2 h5 h6 => by
      rcases hday _ _ hb with ⟨a, b, d, e, f⟩ | ⟨a, b, d, e⟩ | ⟨a, b, d⟩
      · exact .inl ⟨a, b, d, fun _ => e, fun _ => f, h5, h6⟩
      · exact .inr (.inl ⟨a, b, by omega, d, fun _ => e, h5, h6⟩)
      · exact .inr (.inr (.inl ⟨a, b, h2, d, h5, h6⟩))
    rcases this with rfl | rfl | rfl | rfl | rfl | rfl | rfl
    · simp [bump] at h
      rcases hmin _ _ h with ⟨h, hm⟩ | ⟨a, b, d⟩
      · rcases hhour _ _ h with ⟨h, hh⟩ | ⟨a, b, d⟩
        · exact fromDay h (by omega) (fun _ => hh) (fun _ => hm)
        · exact .inr (.inr (.inr (.inl ⟨a, b, by omega, d, fun _ => hm⟩)))
      · exact .inr (.inr (.inr (.inr ⟨a, b, by omega, d⟩)))
    · simp [bump] at h
      rcases hhour _ _ h with ⟨h, hh⟩ | ⟨a, b, d⟩
      · exact fromDay h (by omega) (fun _ => hh) (fun h => absurd h (by omega))
      · exact .inr (.inr (.inr (.inl ⟨a, b, by omega, d, fun h => absurd h (by omega)⟩)))
    · simp [bump] at h
      exact fromDay h (by omega) (fun h => absurd h (by omega)) (fun h => absurd h (by omega))
    · simp [bump] at h
      exact fromDay h (by omega) (fun h => absurd h (by omega)) (fun h => absurd h (by omega))
    · simp [bump] at h
      exact fromDay h (by omega) (fun h => absurd h (by omega)) (fun h => absurd h (by omega))
    · simp [bump] at h
      rcases hmonth _ _ h with ⟨a, b, d, e⟩ | ⟨a, b, d⟩
      · exact .inl ⟨a, b, d, fun _ => e, fun h => absurd h (by omega), fun h => absurd h (by omega),
          fun h => absurd h (by omega)⟩
      · exact .inr (.inl ⟨a, b, by omega, d, fun h => absurd h (by omega), fun h => absurd h (by omega),
          fun h => absurd h (by omega)⟩)
    · simp [bump] at h
      obtain ⟨a, b, d⟩ := hyear _ _ h
      exact .inl ⟨a, b, d, fun h => absurd h (by omega), fun h => absurd h (by omega),
        fun h => absurd h (by omega), fun h => absurd h (by omega)⟩
  clear h hyear hmonth hday hhour hmin this
  rcases cases6 with ⟨rfl, rfl, a⟩ | ⟨rfl, rfl, a⟩ | ⟨rfl, rfl, a⟩ | ⟨rfl, rfl, a⟩ | ⟨rfl, rfl, a⟩
  · refine ⟨mk _ _ _ _ _ (by omega) (by omega) (by omega) (by omega) (by omega) (by omega) (by omega)
      (by omega), by simp; omega, by simp; omega, by omega, by omega, ?_, ?_, ?_⟩
    · simp [Pre]
    · simp [Cal.Before]; try omega
    · intro x hvx h1 h2
      have hx' := hx x hvx
      obtain ⟨⟨x1, x2⟩, ⟨x3, x4⟩, ⟨x5, x6⟩, ⟨x7, x8⟩, ⟨x9, x10⟩⟩ := hvx
      simp only [Cal.Before] at h1 h2
      simp only [Pre]
      omega
  · refine ⟨mk _ _ _ _ _ (by omega) (by omega) (by omega) (by omega) (by omega) (by omega) (by omega)
      (by omega), by simp, by simp; omega, by omega, by omega, ?_, ?_, ?_⟩
    · simp [Pre]
    · simp [Cal.Before]; try omega
    · intro x hvx h1 h2
      have hx' := hx x hvx
      obtain ⟨⟨x1, x2⟩, ⟨x3, x4⟩, ⟨x5, x6⟩, ⟨x7, x8⟩, ⟨x9, x10⟩⟩ := hvx
      simp only [Cal.Before] at h1 h2
      simp only [Pre]
      omega
  · refine ⟨mk _ _ _ _ _ (by omega) (by omega) (by omega) (by omega) (by omega) (by omega) (by omega)
      (by omega), by simp, by simp; omega, by omega, by omega, ?_, ?_, ?_⟩
    · simp [Pre]
    · simp [Cal.Before]; try omega
    · intro x hvx h1 h2
      have hx' := hx x hvx
      obtain ⟨⟨x1, x2⟩, ⟨x3, x4⟩, ⟨x5, x6⟩, ⟨x7, x8⟩, ⟨x9, x10⟩⟩ := hvx
      simp only [Cal.Before] at h1 h2
      simp only [Pre]
      omega
  · refine ⟨mk _ _ _ _ _ (by omega) (by omega) (by omega) (by omega) (by omega) (by omega) (by omega)
      (by omega), by simp, by simp; omega, by omega, by omega, ?_, ?_, ?_⟩
    · simp [Pre]
    · simp [Cal.Before]; try omega
    · intro x hvx h1 h2
      have hx' := hx x hvx
      obtain ⟨⟨x1, x2⟩, ⟨x3, x4⟩, ⟨x5, x6⟩, ⟨x7, x8⟩, ⟨x9, x10⟩⟩ := hvx
      simp only [Cal.Before] at h1 h2
      simp only [Pre]
      omega
  · refine ⟨mk _ _ _ _ _ (by omega) (by omega) (by omega) (by omega) (by omega) (by omega) (by omega)
      (by omega), by simp, by simp; omega, by omega, by omega, ?_, ?_, ?_⟩
    · simp [Pre]
    · simp [Cal.Before]; try omega
    · intro x hvx h1 h2
      have hx' := hx x hvx
      obtain ⟨⟨x1, x2⟩, ⟨x3, x4⟩, ⟨x5, x6⟩, ⟨x7, x8⟩, ⟨x9, x10⟩⟩ := hvx
      simp only [Cal.Before] at h1 h2
      simp only [Pre]
      omega

end Cron
end Asyncz
