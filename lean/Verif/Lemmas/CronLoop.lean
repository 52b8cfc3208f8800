import Verif.Lemmas.CronRound
/-! # The search loop of the cron trigger -/
namespace Asyncz
namespace Cron

/-- Clocks in zone `tz` show the wall-clock second `s`: it survives the conversion to UTC and back
(the test of PEP 495).  It fails for times skipped when clocks go forward. -/
def Shown (E : TzEnv) (tz : Nat) (s : Int) : Prop :=
  ((E tz).loc (s * 1000000 - (E tz).off (s * 1000000) false)).1 = s * 1000000

instance : Decidable (Shown E tz s) := inferInstanceAs (Decidable (_ = _))

theorem shown_fixed {E : TzEnv} {tz : Nat} {c : Int} (h : E tz = Zone.fixed c) (s : Int) : Shown E tz s := by
  simp [Shown, h, Zone.fixed]

theorem inRange {w : Int} (h0 : 0 ≤ w) (h1 : w < endOfTime) :
    1 ≤ (Cal.ofSec (w / 1000000)).year ∧ (Cal.ofSec (w / 1000000)).year ≤ 9999 := by
  have hy : (Cal.ofSec (w / 1000000)).year = Cal.yearOf (w / 1000000 / 86400) := rfl
  have hs := Cal.yearOf_spec (w / 1000000 / 86400)
  rw [hy]
  generalize Cal.yearOf (w / 1000000 / 86400) = y at *
  simp only [endOfTime, Cal.beforeYear] at *
  omega

theorem inRange' {s : Int} (h0 : 1 ≤ (Cal.ofSec s).year) (h1 : (Cal.ofSec s).year ≤ 9999) :
    0 ≤ s * 1000000 ∧ s * 1000000 < endOfTime := by
  have hy : (Cal.ofSec s).year = Cal.yearOf (s / 86400) := rfl
  have hs := Cal.yearOf_spec (s / 86400)
  rw [hy] at h0 h1
  generalize Cal.yearOf (s / 86400) = y at *
  simp only [endOfTime, Cal.beforeYear] at *
  omega

variable {E : TzEnv} {g : Trig} {tz : Nat} {stop : Option Dt}

theorem search_tz (hw : ∀ f, ∀ e ∈ g.exprs f, Wf f e) (hE : (E tz).Lawful) (fuel : Nat) (d : Dt) (fn : Int)
    (htz : d.tz = tz) (h0 : 0 ≤ d.wall) (h1 : d.wall < endOfTime) {r : Dt}
    (h : search E g tz stop fuel d fn = some (.ok (some r))) :
    r.tz = tz ∧ d.wall ≤ r.wall ∧ r.wall < endOfTime := by
  induction fuel generalizing d fn with
  | zero => simp [search] at h
  | succ fuel ih =>
    rw [search] at h
    split at h
    · rename_i hfn
      obtain ⟨hy1, hy2⟩ := inRange h0 h1
      have hr := (round_spec (E := E) (g := g) hw htz hfn.1 hfn.2 hy1 hy2).1
      cases hrd : round E g tz d fn with
      | error e => rw [hrd] at h; simp at h
      | ok p =>
        obtain ⟨d', fn'⟩ := p
        obtain ⟨sec0, hs, hd⟩ := hr d' fn' hrd
        rw [hrd] at h
        have h' : search E g tz stop fuel d' fn' = some (.ok (some r)) := by
          revert h; simp only []
          cases stop with
          | none => exact id
          | some s => simp only []; split
                      · simp
                      · exact id
        rcases hd with ⟨rfl, _, _⟩ | ⟨rfl, a1, a2, a3⟩
        · exact ih d' fn' htz h0 h1 h'
        · rcases a3 with a3 | a3
          · obtain ⟨b1, b2, b3⟩ := ih _ fn' rfl a1 a2 h'
            have hf : sec0 * 1000000 ≤ _ := hE.forward (sec0 * 1000000)
            refine ⟨b1, ?_, b3⟩
            have : (Dt.normalize E ⟨sec0 * 1000000, false, tz⟩).wall =
              ((E tz).loc (sec0 * 1000000 - (E tz).off (sec0 * 1000000) false)).1 := rfl
            omega
          · exfalso
            cases fuel with
            | zero => simp [search] at h'
            | succ fuel =>
              rw [search, if_neg (by omega)] at h'
              rw [if_neg (by omega)] at h'
              simp at h'
    · split at h
      · simp only [Option.some.injEq, Except.ok.injEq] at h; subst h; exact ⟨htz, Int.le_refl _, h1⟩
      · simp at h

/-- Soundness: a returned time matches and is the first one, provided the clock shows every second up
to it. -/
theorem search_sound (hw : ∀ f, ∀ e ∈ g.exprs f, Wf f e) (hE : (E tz).Lawful) (fuel : Nat) (d : Dt) (fn : Int)
    (htz : d.tz = tz) (h0 : 0 ≤ d.wall) (h1 : d.wall < endOfTime) (hms : d.wall % 1000000 = 0)
    (hu : UpTo g.exprs fn (d.wall / 1000000)) {r : Dt}
    (h : search E g tz stop fuel d fn = some (.ok (some r)))
    (hng : ∀ s, d.wall < s * 1000000 → s * 1000000 ≤ r.wall → Shown E tz s) :
    r.wall % 1000000 = 0 ∧ Matches g.exprs (r.wall / 1000000) ∧
    ∀ s, d.wall / 1000000 ≤ s → s < r.wall / 1000000 → ¬ Matches g.exprs s := by
  induction fuel generalizing d fn with
  | zero => simp [search] at h
  | succ fuel ih =>
    rw [search] at h
    split at h
    · rename_i hfn
      obtain ⟨hy1, hy2⟩ := inRange h0 h1
      have hr := (round_spec (E := E) (g := g) hw htz hfn.1 hfn.2 hy1 hy2).1
      cases hrd : round E g tz d fn with
      | error e => rw [hrd] at h; simp at h
      | ok p =>
        obtain ⟨d', fn'⟩ := p
        obtain ⟨sec0, hs, hd⟩ := hr d' fn' hrd
        rw [hrd] at h
        have h' : search E g tz stop fuel d' fn' = some (.ok (some r)) := by
          revert h; simp only []
          cases stop with
          | none => exact id
          | some s => simp only []; split
                      · simp
                      · exact id
        rcases hd with ⟨rfl, rfl, rfl⟩ | ⟨rfl, a1, a2, a3⟩
        · cases hs with
          | stay hk => exact ih d' _ htz h0 h1 hms (hk hu) h' hng
          | jump _ _ hlt => exact absurd hlt (by omega)
          | over _ _ hlt => exact absurd hlt (by omega)
        · cases hs with
          | stay hk => rcases a3 with a3 | a3
                       · exact absurd a3 (by omega)
                       · exact absurd a3 (by omega)
          | over _ _ hlt hk =>
            exfalso
            cases fuel with
            | zero => simp [search] at h'
            | succ fuel =>
              rw [search, if_neg (by omega)] at h'
              rw [if_neg (by omega)] at h'
              simp at h'
          | jump _ _ hlt hf0 hf8 hyy hskip hk =>
            obtain ⟨b1, b2, b3⟩ := search_tz hw hE fuel _ fn' rfl a1 a2 h'
            have hf : sec0 * 1000000 ≤ _ := hE.forward (sec0 * 1000000)
            have hwall : (Dt.normalize E ⟨sec0 * 1000000, false, tz⟩).wall =
              ((E tz).loc (sec0 * 1000000 - (E tz).off (sec0 * 1000000) false)).1 := rfl
            have hsh : Shown E tz sec0 := hng sec0 (by omega) (by omega)
            rw [← hwall] at hf
            have hwall' : (Dt.normalize E ⟨sec0 * 1000000, false, tz⟩).wall = sec0 * 1000000 := hsh
            have hdiv : sec0 * 1000000 / 1000000 = sec0 := by omega
            obtain ⟨c1, c2, c3⟩ := ih _ fn' rfl a1 a2 (by rw [hwall']; omega)
              (by rw [hwall', hdiv]; exact hk hu) h'
              (fun s hs1 hs2 => hng s (by omega) hs2)
            refine ⟨c1, c2, fun s hs1 hs2 => ?_⟩
            rw [hwall', hdiv] at c3
            by_cases hss : s < sec0
            · exact hskip s hs1 hss
            · exact c3 s (by omega) hs2
    · rename_i hfn
      split at h
      · simp only [Option.some.injEq, Except.ok.injEq] at h; subst h
        refine ⟨hms, (upTo_all _ _ _ (by omega)).1 hu, fun s hs1 hs2 => absurd hs2 (by omega)⟩
      · simp at h

/-- Comparison of the end date with times of the trigger's zone follows the wall clock. -/
def StopMono (E : TzEnv) (tz : Nat) (stop : Option Dt) (w₀ w₁ : Int) : Prop :=
  ∀ st, stop = some st → ∀ a b : Dt, a.tz = tz → b.tz = tz → w₀ ≤ a.wall → a.wall ≤ b.wall → b.wall ≤ w₁ →
    Dt.lt E st a = true → Dt.lt E st b = true

theorem stopMono_tz (h : ∀ st, stop = some st → st.tz = tz) (w₀ w₁ : Int) :
    StopMono E tz stop w₀ w₁ := by
  intro st hst a b ha hb _ hab _ hl
  have := h st hst
  simp only [Dt.lt, ha, hb, this, if_true, decide_eq_true_eq] at *
  omega

theorem stopMono_fixed {c : Int} (h : E tz = Zone.fixed c) (w₀ w₁ : Int) :
    StopMono E tz stop w₀ w₁ := by
  intro st _ a b ha hb _ hab _ hl
  have h1 : E a.tz = Zone.fixed c := by rw [ha]; exact h
  have h2 : E b.tz = Zone.fixed c := by rw [hb]; exact h
  rw [Dt.lt_fixed h1, Dt.inst_fixed h1] at hl
  rw [Dt.lt_fixed h2, Dt.inst_fixed h2]
  simp only [decide_eq_true_eq] at *
  omega

/-- Completeness: if `m` is the first match and the clock shows every second up to it, the search
returns it, or nothing if the end date is earlier. -/
theorem search_complete (hw : ∀ f, ∀ e ∈ g.exprs f, Wf f e) {m w₀ : Int}
    (hst : StopMono E tz stop w₀ (m * 1000000))
    (fuel : Nat) (d : Dt) (fn : Int) (hfn0 : 0 ≤ fn) (hw₀ : w₀ ≤ d.wall)
    (htz : d.tz = tz) (h0 : 0 ≤ d.wall) (h1 : d.wall < endOfTime) (hms : d.wall % 1000000 = 0)
    (hu : UpTo g.exprs fn (d.wall / 1000000)) {x : Except Exc (Option Dt)}
    (h : search E g tz stop fuel d fn = some x)
    (hm : Matches g.exprs m) (hdm : d.wall / 1000000 ≤ m)
    (hng : ∀ s, d.wall < s * 1000000 → s ≤ m → Shown E tz s) :
    (∃ r, x = .ok (some r) ∧ r.wall ≤ m * 1000000) ∨
    (x = .ok none ∧ ∃ st, stop = some st ∧ Dt.lt E st ⟨m * 1000000, false, tz⟩ = true) := by
  induction fuel generalizing d fn with
  | zero => simp [search] at h
  | succ fuel ih =>
    rw [search] at h
    split at h
    · rename_i hfn
      obtain ⟨hy1, hy2⟩ := inRange h0 h1
      have hr := round_spec (E := E) (g := g) hw htz hfn.1 hfn.2 hy1 hy2
      have hshow : ∀ sec0, Shown E tz sec0 →
          (Dt.normalize E ⟨sec0 * 1000000, false, tz⟩).wall = sec0 * 1000000 := fun _ h => h
      cases hrd : round E g tz d fn with
      | error e =>
        exfalso
        rcases hr.2 e hrd with h | ⟨sec0, b1, b2, b3, b4⟩
        · exact h m hdm hm
        · have hle : sec0 ≤ m := by
            rcases Int.lt_or_le m sec0 with h | h
            · exact absurd hm (b3 m hdm h)
            · exact h
          have hsh := hshow sec0 (hng sec0 (by omega) hle)
          rw [hsh] at b4
          have := inRange' (s := sec0) ?_ b2
          · exact b4 this
          · have hb := (before_iff (d.wall / 1000000) sec0).2 b1
            simp only [Cal.Before] at hb
            omega
      | ok p =>
        obtain ⟨d', fn'⟩ := p
        obtain ⟨sec0, hs, hd⟩ := hr.1 d' fn' hrd
        rw [hrd] at h
        -- the new state satisfies the hypotheses
        have key : d'.tz = tz ∧ 0 ≤ d'.wall ∧ d'.wall < endOfTime ∧ d'.wall % 1000000 = 0 ∧ 0 ≤ fn' ∧
            UpTo g.exprs fn' (d'.wall / 1000000) ∧ d'.wall / 1000000 ≤ m ∧ d.wall ≤ d'.wall := by
          rcases hd with ⟨rfl, rfl, rfl⟩ | ⟨rfl, a1, a2, a3⟩
          · cases hs with
            | stay hk => exact ⟨htz, h0, h1, hms, by omega, hk hu, hdm, Int.le_refl _⟩
            | jump _ _ hlt => exact absurd hlt (by omega)
            | over _ _ hlt => exact absurd hlt (by omega)
          · cases hs with
            | stay hk => rcases a3 with a3 | a3
                         · exact absurd a3 (by omega)
                         · exact absurd a3 (by omega)
            | over _ _ hlt hk => exact absurd hm (hk m hdm)
            | jump _ _ hlt hf0 hf8 hyy hskip hk =>
              have hle : sec0 ≤ m := by
                rcases Int.lt_or_le m sec0 with h | h
                · exact absurd hm (hskip m hdm h)
                · exact h
              have hsh := hshow sec0 (hng sec0 (by omega) hle)
              have hdiv : sec0 * 1000000 / 1000000 = sec0 := by omega
              refine ⟨rfl, a1, a2, by omega, hf0, by rw [hsh, hdiv]; exact hk hu, by omega, by omega⟩
        obtain ⟨k1, k2, k3, k4, k5, k6, k7, k8⟩ := key
        have hrec : search E g tz stop fuel d' fn' = some x →
            (∃ r, x = .ok (some r) ∧ r.wall ≤ m * 1000000) ∨
            (x = .ok none ∧ ∃ st, stop = some st ∧ Dt.lt E st ⟨m * 1000000, false, tz⟩ = true) := fun h' =>
          ih d' fn' k5 (by omega) k1 k2 k3 k4 k6 h' k7 (fun s hs1 hs2 => hng s (by omega) hs2)
        simp only [] at h
        have hcase : search E g tz stop fuel d' fn' = some x ∨
            (x = .ok none ∧ ∃ st, stop = some st ∧ Dt.lt E st d' = true) := by
          clear hrec ih hst hng
          cases stop with
          | none => exact .inl h
          | some st =>
            simp only [] at h
            split at h
            · rename_i hlt
              simp only [Option.some.injEq] at h
              exact .inr ⟨h.symm, st, rfl, hlt⟩
            · exact .inl h
        rcases hcase with h | ⟨h, st, hstop, hlt⟩
        · exact hrec h
        · exact .inr ⟨h, st, hstop,
            hst st hstop d' ⟨m * 1000000, false, tz⟩ k1 rfl (by omega) (by simp only []; omega) (Int.le_refl _) hlt⟩
    · rename_i hfn
      simp only [Option.some.injEq] at h
      exact .inl ⟨d, h.symm, by omega⟩

/-- A returned time was compared with the end date. -/
theorem search_stop (fuel : Nat) (d : Dt) (fn : Int) (hfn : fn < 8 ∨ ∀ st, stop = some st → Dt.lt E st d = false)
    {r : Dt} (h : search E g tz stop fuel d fn = some (.ok (some r))) :
    ∀ st, stop = some st → Dt.lt E st r = false := by
  induction fuel generalizing d fn with
  | zero => simp [search] at h
  | succ fuel ih =>
    rw [search] at h
    split at h
    · cases hrd : round E g tz d fn with
      | error e => rw [hrd] at h; simp at h
      | ok p =>
        obtain ⟨d', fn'⟩ := p
        rw [hrd] at h
        simp only [] at h
        intro st hst
        subst hst
        simp only [] at h
        split at h
        · simp at h
        · refine ih d' fn' (.inr fun st' h' => ?_) h st rfl
          cases h'; rename_i hl; simpa using hl
    · rename_i hn
      split at h
      · simp only [Option.some.injEq, Except.ok.injEq] at h; subst h
        rcases hfn with hfn | hfn
        · omega
        · exact hfn
      · simp at h

/-- Termination: in a zone whose gaps go forward the search ends. -/
theorem search_terminates (hw : ∀ f, ∀ e ∈ g.exprs f, Wf f e) (hE : (E tz).Lawful) (n : Nat) (d : Dt) (fn : Int)
    (htz : d.tz = tz) (h0 : 0 ≤ d.wall) (h1 : d.wall < endOfTime) (hfn8 : fn ≤ 8)
    (hn : (endOfTime - d.wall) * 9 + (8 - fn) < n) : ∃ x, search E g tz stop n d fn = some x := by
  induction n generalizing d fn with
  | zero => omega
  | succ n ih =>
    rw [search]
    split
    · rename_i hfn
      obtain ⟨hy1, hy2⟩ := inRange h0 h1
      have hr := (round_spec (E := E) (g := g) hw htz hfn.1 hfn.2 hy1 hy2).1
      cases hrd : round E g tz d fn with
      | error e => exact ⟨_, rfl⟩
      | ok p =>
        obtain ⟨d', fn'⟩ := p
        obtain ⟨sec0, hs, hd⟩ := hr d' fn' hrd
        have h' : ∃ x, search E g tz stop n d' fn' = some x := by
          rcases hd with ⟨rfl, rfl, rfl⟩ | ⟨rfl, a1, a2, a3⟩
          · exact ih d' _ htz h0 h1 (by omega) (by omega)
          · cases hs with
            | stay hk => rcases a3 with a3 | a3
                         · exact absurd a3 (by omega)
                         · exact absurd a3 (by omega)
            | over _ _ hlt hk =>
              cases n with
              | zero => omega
              | succ n => exact ⟨_, by rw [search, if_neg (by omega)]⟩
            | jump _ _ hlt hf0 hf8 hyy hskip hk =>
              have hf : sec0 * 1000000 ≤ _ := hE.forward (sec0 * 1000000)
              have hwall : (Dt.normalize E ⟨sec0 * 1000000, false, tz⟩).wall =
                ((E tz).loc (sec0 * 1000000 - (E tz).off (sec0 * 1000000) false)).1 := rfl
              rw [← hwall] at hf
              exact ih _ fn' rfl a1 a2 hf8 (by omega)
        simp only []
        cases stop with
        | none => exact h'
        | some st =>
          simp only []
          split
          · exact ⟨_, rfl⟩
          · exact h'
    · exact ⟨_, rfl⟩

end Cron
end Asyncz
