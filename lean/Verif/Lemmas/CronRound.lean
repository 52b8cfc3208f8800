import Verif.Lemmas.CronSearch
import Verif.Lemmas.CronExpr
import Verif.Lemmas.Trigger
/-! # One round of the cron search -/
namespace Asyncz
namespace Cron

theorem bump_none {c : Civil} {fn : Int} (h1 : -1 ≤ fn) (h6 : fn ≤ 6)
    (h : bump c fn = none) : ∀ x, Cal.Valid x → x.year ≤ 9999 → ¬ Cal.Before x c → Pre fn c x := by
  intro x hvx hxy hb
  have hx : x.year = c.year → x.month = c.month → x.day ≤ Cal.monthLen c.year c.month := by
    intro e1 e2; have := hvx.day.2; rwa [e1, e2] at this
  have hyear : bumpYear c = none → c.year = 9999 := by simp only [bumpYear]; split <;> simp_all
  have hmonth : bumpMonth c = none → c.year = 9999 ∧ c.month = 12 := by
    simp only [bumpMonth]; split
    · intro h; exact ⟨hyear h, by assumption⟩
    · simp
  have hday : bumpDay c = none → (c.year = 9999 ∧ c.month = 12) ∧ c.day = Cal.monthLen c.year c.month := by
    simp only [bumpDay]; split
    · intro h; exact ⟨hmonth h, by assumption⟩
    · simp
  have hhour : bumpHour c = none →
      ((c.year = 9999 ∧ c.month = 12) ∧ c.day = Cal.monthLen c.year c.month) ∧ c.hour = 23 := by
    simp only [bumpHour]; split
    · intro h; exact ⟨hday h, by assumption⟩
    · simp
  have hmin : bumpMinute c = none →
      (((c.year = 9999 ∧ c.month = 12) ∧ c.day = Cal.monthLen c.year c.month) ∧ c.hour = 23) ∧
      c.minute = 59 := by
    simp only [bumpMinute]; split
    · intro h; exact ⟨hhour h, by assumption⟩
    · simp
  obtain ⟨⟨x1, x2⟩, ⟨x3, x4⟩, ⟨x5, x6⟩, ⟨x7, x8⟩, ⟨x9, x10⟩⟩ := hvx
  have hml := monthLen_ge c.year c.month
  have : fn = 6 ∨ fn = 5 ∨ fn = 4 ∨ fn = 3 ∨ fn = 2 ∨ fn = 1 ∨ fn = 0 ∨ fn = -1 := by omega
  simp only [Cal.Before] at hb
  simp only [Pre]
  rcases this with rfl | rfl | rfl | rfl | rfl | rfl | rfl | rfl
  · have := hmin (by simpa [bump] using h); omega
  · have := hhour (by simpa [bump] using h); omega
  · have := hday (by simpa [bump] using h); omega
  · have := hday (by simpa [bump] using h); omega
  · have := hday (by simpa [bump] using h); omega
  · have := hmonth (by simpa [bump] using h); omega
  · have := hyear (by simpa [bump] using h); omega
  · omega

/-- `mkDatetime` of complete values. -/
theorem mkDatetime_is {v : Values} {c : Civil} (h : Is v c) (hv : Cal.Valid c) (h1 : 1 ≤ c.year)
    (h2 : c.year ≤ 9999) : mkDatetime v = .ok c := by
  obtain ⟨a1, a2, a3, a4, a5, a6⟩ := h
  obtain ⟨⟨x1, x2⟩, ⟨x3, x4⟩, ⟨x5, x6⟩, ⟨x7, x8⟩, ⟨x9, x10⟩⟩ := hv
  simp [mkDatetime, a1, a2, a3, a4, a5, a6, h1, h2, x1, x2, x3, x4, x5, x6, x7, x8, x9, x10]

/-- The field satisfied at a time. -/
def FieldOk (exprs : FieldName → List Expr) (f : FieldName) (sec : Int) : Prop :=
  ∃ e ∈ exprs f, Selects e f (Cal.ofSec sec).year (Cal.ofSec sec).month (valueAt f sec)

/-- The fields with index `< i` are satisfied. -/
def UpTo (exprs : FieldName → List Expr) (i : Int) (sec : Int) : Prop :=
  ∀ f, f.idx < i → FieldOk exprs f sec

theorem upTo_all (exprs : FieldName → List Expr) (i sec : Int) (hi : 8 ≤ i) :
    UpTo exprs i sec ↔ Matches exprs sec :=
  ⟨fun h f => h f (by cases f <;> simp [FieldName.idx] <;> omega), fun h f _ => h f⟩

theorem selects_congr {e : Expr} {f : FieldName} (hw : Wf f e) (hf : f ≠ .day) (y m y' m' v : Int) :
    Selects e f y m v ↔ Selects e f y' m' v := by
  have hh : highest y m f = highest y' m' f := by cases f <;> simp_all [highest]
  cases e with
  | weekdayPos o w => exact absurd hw.1 hf
  | lastDay => exact absurd hw hf
  | all n => cases n <;> simp only [Selects, hh]
  | range a b n => simp only [Selects, hh]
  | monthRange a b => simp only [Selects, hh]
  | weekdayRange a b => simp only [Selects, hh]

/-- Equal calendar day: equal day number. -/
theorem day_eq {a b : Int} (h : Pre 2 (Cal.ofSec a) (Cal.ofSec b)) : b / 86400 = a / 86400 := by
  have ha := Cal.toSec_ofSec a
  have hb := Cal.toSec_ofSec b
  obtain ⟨h1, h2, h3, _⟩ := h
  have va := Cal.ofSec_valid a
  have vb := Cal.ofSec_valid b
  obtain ⟨_, _, ⟨x5, x6⟩, ⟨x7, x8⟩, ⟨x9, x10⟩⟩ := va
  obtain ⟨_, _, ⟨z5, z6⟩, ⟨z7, z8⟩, ⟨z9, z10⟩⟩ := vb
  simp only [Cal.toSec] at ha hb
  rw [h1 (by omega), h2 (by omega), h3 (by omega)] at hb
  generalize Cal.days _ _ _ = D at ha hb
  omega

theorem Pre.mono {i j : Int} {a b : Civil} (h : Pre i a b) (hj : j ≤ i) : Pre j a b := by
  simp only [Pre] at h ⊢
  obtain ⟨h1, h2, h3, h4, h5, h6⟩ := h
  exact ⟨fun h => h1 (by omega), fun h => h2 (by omega), fun h => h3 (by omega), fun h => h4 (by omega),
    fun h => h5 (by omega), fun h => h6 (by omega)⟩

theorem valueAt_congr {f : FieldName} {a b : Int} (h : Pre f.idx (Cal.ofSec a) (Cal.ofSec b)) :
    valueAt f b = valueAt f a := by
  cases f with
  | week => simp only [valueAt]; rw [day_eq (h.mono (by simp [FieldName.idx]))]
  | dayOfWeek => simp only [valueAt]; rw [day_eq (h.mono (by simp [FieldName.idx]))]
  | year => exact h.1 (by simp [FieldName.idx])
  | month => exact h.2.1 (by simp [FieldName.idx])
  | day => exact h.2.2.1 (by simp [FieldName.idx])
  | hour => exact h.2.2.2.1 (by simp [FieldName.idx])
  | minute => exact h.2.2.2.2.1 (by simp [FieldName.idx])
  | second => exact h.2.2.2.2.2 (by simp [FieldName.idx])

/-- What a field selects depends only on the fields before it. -/
theorem selects_pre {e : Expr} {f : FieldName} (hw : Wf f e) {a b : Int}
    (h : Pre (f.idx - 1) (Cal.ofSec a) (Cal.ofSec b)) (v : Int) :
    Selects e f (Cal.ofSec b).year (Cal.ofSec b).month v ↔
    Selects e f (Cal.ofSec a).year (Cal.ofSec a).month v := by
  by_cases hf : f = .day
  · subst hf
    rw [h.1 (by simp [FieldName.idx]), h.2.1 (by simp [FieldName.idx])]
  · exact selects_congr hw hf _ _ _ _ _

theorem fieldOk_congr {exprs : FieldName → List Expr} (hw : ∀ f, ∀ e ∈ exprs f, Wf f e)
    {f : FieldName} {a b : Int} (h : Pre f.idx (Cal.ofSec a) (Cal.ofSec b)) :
    FieldOk exprs f b ↔ FieldOk exprs f a := by
  have hv := valueAt_congr h
  have hs : ∀ e ∈ exprs f, ∀ v, Selects e f (Cal.ofSec b).year (Cal.ofSec b).month v ↔
      Selects e f (Cal.ofSec a).year (Cal.ofSec a).month v :=
    fun e he v => selects_pre (hw f e he) (h.mono (by omega)) v
  simp only [FieldOk, hv]
  exact ⟨fun ⟨e, he, h⟩ => ⟨e, he, (hs e he _).1 h⟩, fun ⟨e, he, h⟩ => ⟨e, he, (hs e he _).2 h⟩⟩

theorem upTo_congr {exprs : FieldName → List Expr} (hw : ∀ f, ∀ e ∈ exprs f, Wf f e)
    {i j a b : Int} (hij : i ≤ j + 1) (h : Pre j (Cal.ofSec a) (Cal.ofSec b)) :
    UpTo exprs i a → UpTo exprs i b := fun hu f hf =>
  (fieldOk_congr hw (h.mono (by omega))).2 (hu f hf)

/-- Later times with the same earlier fields have at least the same field value. -/
theorem valueAt_mono {f : FieldName} {a b : Int} (h : Pre (f.idx - 1) (Cal.ofSec a) (Cal.ofSec b))
    (hb : ¬ Cal.Before (Cal.ofSec b) (Cal.ofSec a)) : valueAt f a ≤ valueAt f b := by
  simp only [Cal.Before] at hb
  cases f with
  | week => simp only [valueAt]; rw [day_eq (h.mono (by simp [FieldName.idx]))]; exact Int.le_refl _
  | dayOfWeek => simp only [valueAt]; rw [day_eq (h.mono (by simp [FieldName.idx]))]; exact Int.le_refl _
  | year => simp only [Pre, FieldName.idx] at h; simp only [valueAt]; omega
  | month => simp only [Pre, FieldName.idx] at h; simp only [valueAt]; omega
  | day => simp only [Pre, FieldName.idx] at h; simp only [valueAt]; omega
  | hour => simp only [Pre, FieldName.idx] at h; simp only [valueAt]; omega
  | minute => simp only [Pre, FieldName.idx] at h; simp only [valueAt]; omega
  | second => simp only [Pre, FieldName.idx] at h; simp only [valueAt]; omega

theorem before_iff (a b : Int) : Cal.Before (Cal.ofSec a) (Cal.ofSec b) ↔ a < b := by
  rw [← Cal.toSec_lt_iff (Cal.ofSec_valid a) (Cal.ofSec_valid b), Cal.toSec_ofSec, Cal.toSec_ofSec]

/-- A matching time lies in the years 1970..9999. -/
theorem matches_year {exprs : FieldName → List Expr} {s : Int} (h : Matches exprs s) :
    1970 ≤ (Cal.ofSec s).year ∧ (Cal.ofSec s).year ≤ 9999 := by
  obtain ⟨e, _, h1, h2, _⟩ := h .year
  simpa [lowest, highest, valueAt] using And.intro h1 h2

/-- The result of a round: the next time reached and the next field. -/
inductive Step (exprs : FieldName → List Expr) (sec fn : Int) : Int → Int → Prop where
  /-- The field is satisfied. -/
  | stay : (UpTo exprs fn sec → UpTo exprs (fn + 1) sec) → Step exprs sec fn sec (fn + 1)
  /-- The time is advanced over non-matching times. -/
  | jump (sec0 fn' : Int) : sec < sec0 → 0 ≤ fn' → fn' ≤ 8 → (Cal.ofSec sec0).year ≤ 9999 →
      (∀ s, sec ≤ s → s < sec0 → ¬ Matches exprs s) →
      (UpTo exprs fn sec → UpTo exprs fn' sec0) → Step exprs sec fn sec0 fn'
  /-- The calendar ends. -/
  | over (sec0 fn' : Int) : fn' < 0 → (∀ s, sec ≤ s → ¬ Matches exprs s) → Step exprs sec fn sec0 fn'

theorem fieldAt_idx {fn : Int} (h0 : 0 ≤ fn) (h8 : fn < 8) :
    ∃ f, fieldAt fn = .ok f ∧ f.idx = fn := by
  have : fn = 0 ∨ fn = 1 ∨ fn = 2 ∨ fn = 3 ∨ fn = 4 ∨ fn = 5 ∨ fn = 6 ∨ fn = 7 := by omega
  rcases this with rfl | rfl | rfl | rfl | rfl | rfl | rfl | rfl
  · exact ⟨.year, rfl, rfl⟩
  · exact ⟨.month, rfl, rfl⟩
  · exact ⟨.day, rfl, rfl⟩
  · exact ⟨.week, rfl, rfl⟩
  · exact ⟨.dayOfWeek, rfl, rfl⟩
  · exact ⟨.hour, rfl, rfl⟩
  · exact ⟨.minute, rfl, rfl⟩
  · exact ⟨.second, rfl, rfl⟩

/-- What `increment_field_value` does, when it does not raise. -/
theorem increment_spec {E : TzEnv} {d : Dt} {fn : Int} (h1 : -1 ≤ fn) (h6 : fn ≤ 6)
    (hy1 : 1 ≤ (Cal.ofSec (d.wall / 1000000)).year) (hy2 : (Cal.ofSec (d.wall / 1000000)).year ≤ 9999) :
    (∀ d' fn', increment E d fn = .ok (d', fn') → ∃ sec0,
      d' = Dt.normalize E ⟨sec0 * 1000000, false, d.tz⟩ ∧ 0 ≤ d'.wall ∧ d'.wall < endOfTime ∧
      ((d.wall / 1000000 < sec0 ∧ 0 ≤ fn' ∧ fn' ≤ fn ∧ (Cal.ofSec sec0).year ≤ 9999 ∧
        Pre (fn' - 1) (Cal.ofSec (d.wall / 1000000)) (Cal.ofSec sec0) ∧
        ∀ s, d.wall / 1000000 ≤ s → s < sec0 → Pre fn (Cal.ofSec (d.wall / 1000000)) (Cal.ofSec s)) ∨
       (fn' < 0 ∧ ∀ s, d.wall / 1000000 ≤ s → (Cal.ofSec s).year ≤ 9999 →
          Pre fn (Cal.ofSec (d.wall / 1000000)) (Cal.ofSec s)))) ∧
    (∀ e, increment E d fn = .error e →
      (∀ s, d.wall / 1000000 ≤ s → (Cal.ofSec s).year ≤ 9999 →
          Pre fn (Cal.ofSec (d.wall / 1000000)) (Cal.ofSec s)) ∨
      ∃ sec0, d.wall / 1000000 < sec0 ∧ (Cal.ofSec sec0).year ≤ 9999 ∧
        (∀ s, d.wall / 1000000 ≤ s → s < sec0 → Pre fn (Cal.ofSec (d.wall / 1000000)) (Cal.ofSec s)) ∧
        ¬ (0 ≤ (Dt.normalize E ⟨sec0 * 1000000, false, d.tz⟩).wall ∧
          (Dt.normalize E ⟨sec0 * 1000000, false, d.tz⟩).wall < endOfTime)) := by
  have ho := incrLoop_outcome (sec := d.wall / 1000000) fn h1 h6
  generalize hs : d.wall / 1000000 = sec at *
  have hv := Cal.ofSec_valid sec
  have hnone : bump (Cal.ofSec sec) fn = none → ∀ s, sec ≤ s → (Cal.ofSec s).year ≤ 9999 →
      Pre fn (Cal.ofSec sec) (Cal.ofSec s) := fun hb s hle hys =>
    bump_none h1 h6 hb _ (Cal.ofSec_valid s) hys (by rw [before_iff]; omega)
  simp only [Outcome] at ho
  cases hb : bump (Cal.ofSec sec) fn with
  | none =>
    rw [hb] at ho
    refine ⟨?_, fun e _ => .inl (hnone hb)⟩
    intro d' fn' h
    simp only [increment, hs] at h
    rcases ho with ⟨e, ho⟩ | ⟨v', fn'', ho, hneg, his⟩
    · rw [ho] at h; cases h
    · rw [ho] at h
      have hm : mkDatetime v' = .ok epoch := mkDatetime_is his
        ⟨by decide, by decide, by decide, by decide, by decide⟩ (by decide) (by decide)
      simp only [hm, normChecked] at h
      split at h
      · cases h
      · rename_i hn
        split at hn
        · rename_i hr
          cases hn; cases h
          exact ⟨_, rfl, hr.1, hr.2, .inr ⟨hneg, hnone hb⟩⟩
        · cases hn
  | some p =>
    obtain ⟨c', fn''⟩ := p
    rw [hb] at ho
    obtain ⟨v', ho, his⟩ := ho
    have h0 : 0 ≤ fn := by
      rcases Int.lt_or_le fn 0 with h | h
      · have : fn = -1 := by omega
        subst this; simp [bump] at hb
      · exact h
    obtain ⟨b1, b2, b3, b4, b5, b6, b7, b8⟩ := bump_spec hv hy2 h0 h6 hb
    have hc : Cal.ofSec (Cal.toSec c') = c' := Cal.ofSec_toSec b1
    have hlt : sec < Cal.toSec c' := by
      rw [← hc, before_iff] at b7; exact b7
    have hbetween : ∀ s, sec ≤ s → s < Cal.toSec c' → Pre fn (Cal.ofSec sec) (Cal.ofSec s) := by
      intro s hs1 hs2
      refine b8 _ (Cal.ofSec_valid s) (by rw [before_iff]; omega) ?_
      rw [← hc, before_iff]; exact hs2
    have hm : mkDatetime v' = .ok c' := mkDatetime_is his b1 (by omega) b3
    constructor
    · intro d' fn' h
      simp only [increment, hs, ho, hm, normChecked] at h
      split at h
      · cases h
      · rename_i hn
        split at hn
        · rename_i hr
          cases hn; cases h
          refine ⟨_, rfl, hr.1, hr.2, .inl ⟨hlt, b4, b5, ?_, ?_, hbetween⟩⟩
          · rw [hc]; exact b3
          · rw [hc]; exact b6
        · cases hn
    · intro e h
      simp only [increment, hs, ho, hm, normChecked] at h
      split at h
      · rename_i hn
        split at hn
        · cases hn
        · exact .inr ⟨_, hlt, by rw [hc]; exact b3, hbetween, by assumption⟩
      · cases h

/-- What `set_field_value` does to the fields. -/
theorem set_spec {sec x : Int} {f : FieldName} (hr : f.real = true) (hx : valueAt f sec < x)
    (hlo : lowest f ≤ x) (hhi : x ≤ highest (Cal.ofSec sec).year (Cal.ofSec sec).month f)
    (hy2 : (Cal.ofSec sec).year ≤ 9999) :
    ∃ c', Is (setValues sec f.idx x) c' ∧ Cal.Valid c' ∧ (Cal.ofSec sec).year ≤ c'.year ∧
      c'.year ≤ 9999 ∧ Pre (f.idx - 1) (Cal.ofSec sec) c' ∧ Cal.Before (Cal.ofSec sec) c' ∧
      (∀ s, Cal.ofSec s = c' → valueAt f s = x) ∧
      ∀ s, ¬ Cal.Before (Cal.ofSec s) (Cal.ofSec sec) → Cal.Before (Cal.ofSec s) c' →
        Pre (f.idx - 1) (Cal.ofSec sec) (Cal.ofSec s) ∧ valueAt f s < x := by
  have hv := Cal.ofSec_valid sec
  have hml := monthLen_ge (Cal.ofSec sec).year (Cal.ofSec sec).month
  have hmx := monthLen_ge (Cal.ofSec sec).year x
  have hmy := monthLen_ge x 1
  obtain ⟨⟨v1, v2⟩, ⟨v3, v4⟩, ⟨v5, v6⟩, ⟨v7, v8⟩, ⟨v9, v10⟩⟩ := hv
  have mk : ∀ y m d hh mm ss, 1 ≤ m → m ≤ 12 → 1 ≤ d → d ≤ Cal.monthLen y m → 0 ≤ hh → hh ≤ 23 → 0 ≤ mm →
      mm ≤ 59 → 0 ≤ ss → ss ≤ 59 → Cal.Valid ⟨y, m, d, hh, mm, ss⟩ :=
    fun y m d hh mm ss a1 a2 a3 a4 a5 a6 a7 a8 a9 a10 => ⟨⟨a1, a2⟩, ⟨a3, a4⟩, ⟨a5, a6⟩, ⟨a7, a8⟩, a9, a10⟩
  have hgv : ∀ s, valueAt .year s = (Cal.ofSec s).year ∧ valueAt .month s = (Cal.ofSec s).month ∧
      valueAt .day s = (Cal.ofSec s).day ∧ valueAt .hour s = (Cal.ofSec s).hour ∧
      valueAt .minute s = (Cal.ofSec s).minute ∧ valueAt .second s = (Cal.ofSec s).second :=
    fun s => ⟨rfl, rfl, rfl, rfl, rfl, rfl⟩
  cases f with
  | week => cases hr
  | dayOfWeek => cases hr
  | year =>
    simp only [(hgv sec), lowest, highest] at hx hlo hhi
    generalize hc : Cal.ofSec sec = c at *
    refine ⟨⟨x, 1, 1, 0, 0, 0⟩, ?_, mk _ _ _ _ _ _ (by omega) (by omega) (by omega) (by omega) (by omega)
      (by omega) (by omega) (by omega) (by omega) (by omega), ?_, ?_, ?_, ?_, ?_, ?_⟩
    · simp [Is, setValues, FieldName.real, FieldName.idx, getValue, getMin, minValue, hc]
    · simp only []; omega
    · simp only []; omega
    · simp [Pre, FieldName.idx]
    · simp [Cal.Before]; try omega
    · intro s hs; rw [(hgv s).1, hs]
    · intro s h1 h2
      have hvs := Cal.ofSec_valid s
      rw [(hgv s).1]
      generalize Cal.ofSec s = z at *
      obtain ⟨⟨x1, x2⟩, ⟨x3, x4⟩, ⟨x5, x6⟩, ⟨x7, x8⟩, ⟨x9, x10⟩⟩ := hvs
      simp only [Cal.Before] at h1 h2
      simp only [Pre, FieldName.idx]
      omega
  | month =>
    simp only [(hgv sec), lowest, highest] at hx hlo hhi
    generalize hc : Cal.ofSec sec = c at *
    refine ⟨⟨c.year, x, 1, 0, 0, 0⟩, ?_, mk _ _ _ _ _ _ (by omega) (by omega) (by omega) (by omega) (by omega)
      (by omega) (by omega) (by omega) (by omega) (by omega), ?_, ?_, ?_, ?_, ?_, ?_⟩
    · simp [Is, setValues, FieldName.real, FieldName.idx, getValue, getMin, minValue, hc]
    · simp only []; omega
    · simp only []; omega
    · simp [Pre, FieldName.idx]
    · simp [Cal.Before]; try omega
    · intro s hs; rw [(hgv s).2.1, hs]
    · intro s h1 h2
      have hvs := Cal.ofSec_valid s
      rw [(hgv s).2.1]
      generalize Cal.ofSec s = z at *
      obtain ⟨⟨x1, x2⟩, ⟨x3, x4⟩, ⟨x5, x6⟩, ⟨x7, x8⟩, ⟨x9, x10⟩⟩ := hvs
      simp only [Cal.Before] at h1 h2
      simp only [Pre, FieldName.idx]
      omega
  | day =>
    simp only [(hgv sec), lowest, highest] at hx hlo hhi
    generalize hc : Cal.ofSec sec = c at *
    refine ⟨⟨c.year, c.month, x, 0, 0, 0⟩, ?_, mk _ _ _ _ _ _ (by omega) (by omega) (by omega) (by omega) (by omega)
      (by omega) (by omega) (by omega) (by omega) (by omega), ?_, ?_, ?_, ?_, ?_, ?_⟩
    · simp [Is, setValues, FieldName.real, FieldName.idx, getValue, getMin, minValue, hc]
    · simp only []; omega
    · simp only []; omega
    · simp [Pre, FieldName.idx]
    · simp [Cal.Before]; try omega
    · intro s hs; rw [(hgv s).2.2.1, hs]
    · intro s h1 h2
      have hvs := Cal.ofSec_valid s
      rw [(hgv s).2.2.1]
      generalize Cal.ofSec s = z at *
      obtain ⟨⟨x1, x2⟩, ⟨x3, x4⟩, ⟨x5, x6⟩, ⟨x7, x8⟩, ⟨x9, x10⟩⟩ := hvs
      simp only [Cal.Before] at h1 h2
      simp only [Pre, FieldName.idx]
      omega
  | hour =>
    simp only [(hgv sec), lowest, highest] at hx hlo hhi
    generalize hc : Cal.ofSec sec = c at *
    refine ⟨⟨c.year, c.month, c.day, x, 0, 0⟩, ?_, mk _ _ _ _ _ _ (by omega) (by omega) (by omega) (by omega) (by omega)
      (by omega) (by omega) (by omega) (by omega) (by omega), ?_, ?_, ?_, ?_, ?_, ?_⟩
    · simp [Is, setValues, FieldName.real, FieldName.idx, getValue, getMin, minValue, hc]
    · simp only []; omega
    · simp only []; omega
    · simp [Pre, FieldName.idx]
    · simp [Cal.Before]; try omega
    · intro s hs; rw [(hgv s).2.2.2.1, hs]
    · intro s h1 h2
      have hvs := Cal.ofSec_valid s
      rw [(hgv s).2.2.2.1]
      generalize Cal.ofSec s = z at *
      obtain ⟨⟨x1, x2⟩, ⟨x3, x4⟩, ⟨x5, x6⟩, ⟨x7, x8⟩, ⟨x9, x10⟩⟩ := hvs
      simp only [Cal.Before] at h1 h2
      simp only [Pre, FieldName.idx]
      omega
  | minute =>
    simp only [(hgv sec), lowest, highest] at hx hlo hhi
    generalize hc : Cal.ofSec sec = c at *
    refine ⟨⟨c.year, c.month, c.day, c.hour, x, 0⟩, ?_, mk _ _ _ _ _ _ (by omega) (by omega) (by omega) (by omega) (by omega)
      (by omega) (by omega) (by omega) (by omega) (by omega), ?_, ?_, ?_, ?_, ?_, ?_⟩
    · simp [Is, setValues, FieldName.real, FieldName.idx, getValue, getMin, minValue, hc]
    · simp only []; omega
    · simp only []; omega
    · simp [Pre, FieldName.idx]
    · simp [Cal.Before]; try omega
    · intro s hs; rw [(hgv s).2.2.2.2.1, hs]
    · intro s h1 h2
      have hvs := Cal.ofSec_valid s
      rw [(hgv s).2.2.2.2.1]
      generalize Cal.ofSec s = z at *
      obtain ⟨⟨x1, x2⟩, ⟨x3, x4⟩, ⟨x5, x6⟩, ⟨x7, x8⟩, ⟨x9, x10⟩⟩ := hvs
      simp only [Cal.Before] at h1 h2
      simp only [Pre, FieldName.idx]
      omega
  | second =>
    simp only [(hgv sec), lowest, highest] at hx hlo hhi
    generalize hc : Cal.ofSec sec = c at *
    refine ⟨⟨c.year, c.month, c.day, c.hour, c.minute, x⟩, ?_, mk _ _ _ _ _ _ (by omega) (by omega) (by omega) (by omega) (by omega)
      (by omega) (by omega) (by omega) (by omega) (by omega), ?_, ?_, ?_, ?_, ?_, ?_⟩
    · simp [Is, setValues, FieldName.real, FieldName.idx, getValue, getMin, minValue, hc]
    · simp only []; omega
    · simp only []; omega
    · simp [Pre, FieldName.idx]
    · simp [Cal.Before]; try omega
    · intro s hs; rw [(hgv s).2.2.2.2.2, hs]
    · intro s h1 h2
      have hvs := Cal.ofSec_valid s
      rw [(hgv s).2.2.2.2.2]
      generalize Cal.ofSec s = z at *
      obtain ⟨⟨x1, x2⟩, ⟨x3, x4⟩, ⟨x5, x6⟩, ⟨x7, x8⟩, ⟨x9, x10⟩⟩ := hvs
      simp only [Cal.Before] at h1 h2
      simp only [Pre, FieldName.idx]
      omega

/-- One round, in full. -/
theorem round_spec {E : TzEnv} {g : Trig} (hw : ∀ f, ∀ e ∈ g.exprs f, Wf f e) {tz : Nat} {d : Dt}
    (htz : d.tz = tz) {fn : Int} (h0 : 0 ≤ fn) (h8 : fn < 8)
    (hy1 : 1 ≤ (Cal.ofSec (d.wall / 1000000)).year) (hy2 : (Cal.ofSec (d.wall / 1000000)).year ≤ 9999) :
    (∀ d' fn', round E g tz d fn = .ok (d', fn') → ∃ sec0,
      Step g.exprs (d.wall / 1000000) fn sec0 fn' ∧
      ((d' = d ∧ sec0 = d.wall / 1000000 ∧ fn' = fn + 1) ∨
       (d' = Dt.normalize E ⟨sec0 * 1000000, false, tz⟩ ∧ 0 ≤ d'.wall ∧ d'.wall < endOfTime ∧
        (d.wall / 1000000 < sec0 ∨ fn' < 0)))) ∧
    (∀ e, round E g tz d fn = .error e →
      (∀ s, d.wall / 1000000 ≤ s → ¬ Matches g.exprs s) ∨
      ∃ sec0, d.wall / 1000000 < sec0 ∧ (Cal.ofSec sec0).year ≤ 9999 ∧
        (∀ s, d.wall / 1000000 ≤ s → s < sec0 → ¬ Matches g.exprs s) ∧
        ¬ (0 ≤ (Dt.normalize E ⟨sec0 * 1000000, false, tz⟩).wall ∧
          (Dt.normalize E ⟨sec0 * 1000000, false, tz⟩).wall < endOfTime)) := by
  obtain ⟨f, hf, hidx⟩ := fieldAt_idx h0 h8
  have hl := field_least f (d.wall / 1000000) (g.exprs f) (hw f)
  subst htz
  -- not matching because field `f` is not satisfied
  have hno : ∀ s, ¬ FieldOk g.exprs f s → ¬ Matches g.exprs s := fun s h hm => h (hm f)
  cases hn : fieldNext (g.exprs f) f (d.wall / 1000000) with
  | none =>
    rw [hn] at hl
    have hbad : ∀ s, d.wall / 1000000 ≤ s →
        Pre (fn - 1) (Cal.ofSec (d.wall / 1000000)) (Cal.ofSec s) → ¬ Matches g.exprs s := by
      intro s hs hp
      refine hno s fun ⟨e, he, hsel⟩ => ?_
      rw [← hidx] at hp
      exact hl _ ⟨e, he, (selects_pre (hw f e he) hp _).1 hsel⟩
        (valueAt_mono hp (by rw [before_iff]; omega))
    have hi := increment_spec (E := E) (d := d) (fn := fn - 1) (by omega) (by omega) hy1 hy2
    have hred : round E g d.tz d fn = increment E d (fn - 1) := by
      simp only [round, hf, hn]
    rw [hred]
    refine ⟨?_, ?_⟩
    · intro d' fn' h
      obtain ⟨sec0, e1, e2, e3, h⟩ := hi.1 d' fn' h
      rcases h with ⟨a1, a2, a3, a4, a5, a6⟩ | ⟨a1, a2⟩
      · refine ⟨sec0, .jump sec0 fn' a1 a2 (by omega) a4 (fun s h1 h2 => hbad s h1 (a6 s h1 h2)) ?_,
          .inr ⟨e1, e2, e3, .inl a1⟩⟩
        intro hu
        exact upTo_congr hw (j := fn' - 1) (by omega) a5 (fun f' hf' => hu f' (by omega))
      · exact ⟨sec0, .over sec0 fn' a1 (fun s h1 hm => hbad s h1 (a2 s h1 (matches_year hm).2) hm),
          .inr ⟨e1, e2, e3, .inr a1⟩⟩
    · intro e h
      rcases hi.2 e h with h | h
      · exact .inl fun s h1 hm => hbad s h1 (h s h1 (matches_year hm).2) hm
      · obtain ⟨sec0, a1, a2, a3, a4⟩ := h
        exact .inr ⟨sec0, a1, a2, fun s h1 h2 => hbad s h1 (a3 s h1 h2), a4⟩
  | some next =>
    rw [hn] at hl
    obtain ⟨l1, l2, l3⟩ := hl
    by_cases hgt : next > valueAt f (d.wall / 1000000)
    · by_cases hr : f.real = true
      · obtain ⟨e, he, hsel⟩ := l1
        obtain ⟨c', c1, c2, c3, c4, c5, c6, c7, c8⟩ := set_spec hr hgt hsel.1 hsel.2.1 hy2
        have hc : Cal.ofSec (Cal.toSec c') = c' := Cal.ofSec_toSec c2
        have hlt : d.wall / 1000000 < Cal.toSec c' := by
          rw [← hc, before_iff] at c6; exact c6
        have hm : mkDatetime (setValues (d.wall / 1000000) fn next) = .ok c' := by
          rw [← hidx]; exact mkDatetime_is c1 c2 (by omega) c4
        have hskip : ∀ s, d.wall / 1000000 ≤ s → s < Cal.toSec c' → ¬ Matches g.exprs s := by
          intro s h1 h2
          obtain ⟨p1, p2⟩ := c8 s (by rw [before_iff]; omega) (by rw [← hc, before_iff]; exact h2)
          refine hno s fun ⟨e', he', hsel'⟩ => ?_
          have := l3 _ ⟨e', he', (selects_pre (hw f e' he') p1 _).1 hsel'⟩
            (valueAt_mono p1 (by rw [before_iff]; omega))
          omega
        have hred : round E g d.tz d fn =
            match normChecked E ⟨Cal.toSec c' * 1000000, false, d.tz⟩ with
            | .error e => .error e
            | .ok d' => .ok (d', fn + 1) := by
          simp only [round, hf, hn, getValue_eq, hgt, hr, setField, hm]
          simp
          cases normChecked E ⟨Cal.toSec c' * 1000000, false, d.tz⟩ <;> rfl
        rw [hred]
        simp only [normChecked]
        refine ⟨?_, ?_⟩
        · intro d' fn' h
          split at h
          · cases h
          · rename_i hk
            split at hk
            · rename_i hrange
              cases hk; cases h
              refine ⟨Cal.toSec c', .jump _ _ hlt (by omega) (by omega) (by rw [hc]; exact c4) hskip ?_,
                .inr ⟨rfl, hrange.1, hrange.2, .inl hlt⟩⟩
              intro hu f' hf'
              have hc5 : Pre (f.idx - 1) (Cal.ofSec (d.wall / 1000000)) (Cal.ofSec (Cal.toSec c')) := by
                rw [hc]; exact c5
              by_cases hlt' : f'.idx < fn
              · exact (fieldOk_congr hw (hc5.mono (by omega))).2 (hu f' hlt')
              · have : f' = f := by
                  have : f'.idx = f.idx := by omega
                  revert this; cases f <;> cases f' <;> simp [FieldName.idx]
                subst this
                refine ⟨e, he, (selects_pre (hw _ e he) hc5 _).2 ?_⟩
                rw [c7 _ hc]; exact hsel
            · cases hk
        · intro e' h
          split at h
          · rename_i hk
            split at hk
            · cases hk
            · exact .inr ⟨_, hlt, by rw [hc]; exact c4, hskip, by assumption⟩
          · cases h
      · have hfw : f = .week ∨ f = .dayOfWeek := by
          revert hr; cases f <;> simp [FieldName.real]
        have hfn : 3 ≤ fn ∧ fn ≤ 4 := by
          rcases hfw with rfl | rfl <;> simp only [FieldName.idx] at hidx <;> omega
        have hbad : ∀ s, d.wall / 1000000 ≤ s →
            Pre fn (Cal.ofSec (d.wall / 1000000)) (Cal.ofSec s) → ¬ Matches g.exprs s := by
          intro s hs hp
          refine hno s fun ⟨e, he, hsel⟩ => ?_
          rw [← hidx] at hp
          have hp' := hp.mono (j := f.idx - 1) (by omega)
          rw [valueAt_congr hp] at hsel
          have := l3 _ ⟨e, he, (selects_pre (hw f e he) hp' _).1 hsel⟩ (Int.le_refl _)
          omega
        have hi := increment_spec (E := E) (d := d) (fn := fn) (by omega) (by omega) hy1 hy2
        have hred : round E g d.tz d fn = increment E d fn := by
          simp only [round, hf, hn, getValue_eq, hgt, hr]
          simp
        rw [hred]
        refine ⟨?_, ?_⟩
        · intro d' fn' h
          obtain ⟨sec0, e1, e2, e3, h⟩ := hi.1 d' fn' h
          rcases h with ⟨a1, a2, a3, a4, a5, a6⟩ | ⟨a1, a2⟩
          · refine ⟨sec0, .jump sec0 fn' a1 a2 (by omega) a4 (fun s h1 h2 => hbad s h1 (a6 s h1 h2)) ?_,
              .inr ⟨e1, e2, e3, .inl a1⟩⟩
            intro hu
            exact upTo_congr hw (j := fn' - 1) (by omega) a5 (fun f' hf' => hu f' (by omega))
          · exact ⟨sec0, .over sec0 fn' a1 (fun s h1 hm => hbad s h1 (a2 s h1 (matches_year hm).2) hm),
              .inr ⟨e1, e2, e3, .inr a1⟩⟩
        · intro e h
          rcases hi.2 e h with h | h
          · exact .inl fun s h1 hm => hbad s h1 (h s h1 (matches_year hm).2) hm
          · obtain ⟨sec0, a1, a2, a3, a4⟩ := h
            exact .inr ⟨sec0, a1, a2, fun s h1 h2 => hbad s h1 (a3 s h1 h2), a4⟩
    · have heq : next = valueAt f (d.wall / 1000000) := by omega
      have hred : round E g d.tz d fn = .ok (d, fn + 1) := by
        simp only [round, hf, hn, getValue_eq, hgt]
        simp
      rw [hred]
      refine ⟨?_, fun e h => by cases h⟩
      intro d' fn' h
      cases h
      refine ⟨_, .stay ?_, .inl ⟨rfl, rfl, rfl⟩⟩
      intro hu f' hf'
      by_cases hlt' : f'.idx < fn
      · exact hu f' hlt'
      · have : f' = f := by
          have : f'.idx = f.idx := by omega
          revert this; cases f <;> cases f' <;> simp [FieldName.idx]
        subst this
        rw [heq] at l1
        exact l1

end Cron
end Asyncz
