import Verif.Lemmas.CronLoop
import Verif.Lemmas.CronParse
import Verif.Props.Trigger
/-!
# Properties of the cron trigger (C13, C17-C23)

Wall-clock times are microseconds since 0001-01-01; `Matches` (Spec/Cron.lean) says what the fields mean.
-/
namespace Asyncz
namespace Cron

/-- What construction establishes about the fields (`construct_wf`). -/
def Trig.WfAll (g : Trig) : Prop := ∀ f, ∀ e ∈ g.exprs f, Wf f e

/-- The zone of the trigger when called with the scheduler's zone `tz`. -/
def Trig.zone (g : Trig) (tz : Nat) : Nat := g.tz.getD tz

/-- The end date as an aware time. -/
def Trig.stopDt (g : Trig) (tz : Nat) : Option Dt := g.stop.map (NDt.withTz (g.tz.getD tz))

/-- `t` is not after the end date. -/
def Trig.WithinEnd (E : TzEnv) (g : Trig) (tz : Nat) (t : Int) : Prop :=
  ∀ s, g.stopDt tz = some s → t ≤ s.inst E

/-- **C17, zones.**  A start or end date given with a zone is read in that zone, another in the zone of the trigger, or else in
that of the scheduler; its wall clock and its fold are those given. -/
theorem C17_zones (g : Trig) (tz : Nat) :
    (g.stopDt tz = match g.stop with
      | none => none
      | some s => some ⟨s.wall, s.fold, match s.tz, g.tz with
        | some z, _ => z
        | none, some z => z
        | none, none => tz⟩) ∧
    ∀ s : NDt, s.withTz (g.zone tz) = ⟨s.wall, s.fold, match s.tz, g.tz with
        | some z, _ => z
        | none, some z => z
        | none, none => tz⟩ := by
  have h : ∀ s : NDt, s.withTz (g.zone tz) = ⟨s.wall, s.fold, match s.tz, g.tz with
        | some z, _ => z
        | none, some z => z
        | none, none => tz⟩ := by
    rintro ⟨w, f, z⟩
    cases z <;> cases hz : g.tz <;> simp [NDt.withTz, Trig.zone, hz]
  refine ⟨?_, h⟩
  cases hs : g.stop with
  | none => simp only [Trig.stopDt, hs, Option.map_none]
  | some s =>
    simp only [Trig.stopDt, hs, Option.map_some]
    exact congrArg some (h s)

-- an end date without a zone, a trigger without one, a scheduler with zone 7
example : (⟨5, true, none⟩ : NDt).withTz ((⟨fun _ => [], none, none, none, none⟩ : Trig).zone 7) = ⟨5, true, 7⟩ := by decide

/-- Every trigger that is constructed has well-formed, in-range fields, each with at least one
expression. -/
theorem construct_wf {given : FieldName → Option Text} {exprs : FieldName → List Expr}
    (h : construct given = some exprs) (f : FieldName) :
    exprs f ≠ [] ∧ ∀ e ∈ exprs f, Wf f e ∧ validRange f e = true := by
  simp only [construct] at h
  split at h
  · rename_i hall
    simp only [Option.some.injEq] at h
    subst h
    have hf := (List.all_eq_true.1 hall) f (by cases f <;> simp [fieldNames])
    cases hc : compileField f (textOf given f) with
    | none => rw [hc] at hf; simp at hf
    | some es => simp only [hc, Option.getD_some]; exact compileField_wf hc
  · simp at h

/-! ## C20: what the expressions select -/

/-- **C20** (one expression): for every text accepted for a field, at every moment, the value computed
is the least value from the current one on that the expression selects, `None` if there is none. -/
theorem C20_expression_values (f : FieldName) (s : Text) (e : Expr) (h : compile1 f s = some e) (sec : Int) :
    LeastFrom (Selects e f (Cal.ofSec sec).year (Cal.ofSec sec).month) (valueAt f sec) (e.next f sec) :=
  expr_least e f sec (compile1_wf h).1

/-- **C20** (a field): the same for a comma-separated list of expressions. -/
theorem C20_field_values (f : FieldName) (s : Text) (es : List Expr) (h : compileField f s = some es)
    (sec : Int) :
    LeastFrom (fun v => ∃ e ∈ es, Selects e f (Cal.ofSec sec).year (Cal.ofSec sec).month v) (valueAt f sec)
      (fieldNext es f sec) :=
  field_least f sec es (fun e he => ((compileField_wf h).2 e he).1)

-- Friday 2021-10-15 12:34:56: next values of some fields
example : compileField .day "last mon, 20-30/4".toList = some [.weekdayPos 5 0, .range 20 (some 30) (some 4)] ∧
    fieldNext [.weekdayPos 5 0, .range 20 (some 30) (some 4)] .day (Cal.toSec ⟨2021, 10, 15, 12, 34, 56⟩)
      = some 20 := by decide +kernel

/-- **C20** (texts): the numeric forms are compiled to the expressions they denote, with exactly the
out-of-range ones rejected; any field. -/
theorem C20_numeric_texts (f : FieldName) (a b n : Nat) :
    compile1 f ['*'] = some (.all none) ∧
    compile1 f ('*' :: '/' :: showNat n) =
      (if 0 < n ∧ (n : Int) ≤ limit f - lowest f then some (.all (some n)) else none) ∧
    compile1 f (showNat a) =
      (if lowest f ≤ a ∧ a ≤ limit f then some (.range a (some a) none) else none) ∧
    compile1 f (showNat a ++ '-' :: showNat b) =
      (if lowest f ≤ a ∧ a ≤ b ∧ b ≤ limit f then some (.range a (some b) none) else none) ∧
    compile1 f (showNat a ++ '/' :: showNat n) =
      (if lowest f ≤ a ∧ 0 < n ∧ (a : Int) + n ≤ limit f
        then some (.range a none (some n)) else none) := by
  have hmin : minValue f = lowest f := by cases f <;> rfl
  have hmax : maxValue f = limit f := by cases f <;> rfl
  have hlim : (1 : Int) ≤ limit f := by cases f <;> simp [limit]
  have hlow : (0 : Int) ≤ lowest f := by cases f <;> simp [lowest]
  have of_all : ∀ s o, parseAll s = some o → compile1 f s = o.bind fun e => if validRange f e then some e else none := by
    intro s o h
    cases f <;> simp [compile1, compilers, compileWith, h] <;> cases o <;> simp
  have of_range : ∀ s o, parseAll s = none → parseRange s = some o →
      compile1 f s = o.bind fun e => if validRange f e then some e else none := by
    intro s o h0 h
    cases f <;> simp [compile1, compilers, compileWith, h0, h] <;> cases o <;> simp
  have hhead : ∀ r, parseAll (showNat a ++ r) = none := by
    intro r
    obtain ⟨c, r', h, k, hk, rfl⟩ := showNat_head a
    rw [h, List.cons_append]
    exact parseAll_none (digit_facts k hk).2.2.2.2.1
  have hstar : parseAll ('*' :: '/' :: showNat n) = some (if 0 < n then some (.all (some n)) else none) := by
    have := optGroup_some (c := '/') (X := isDigit) (r := []) (showNat_ne n) (showNat_allDigits n) (by simp)
    simp only [List.append_nil] at this
    simp [parseAll, this, atEnd, natOf_showNat, posStep]
  have hslash : parseRange (showNat a ++ '/' :: showNat n) = some (mkRange a none (some n)) := by
    obtain ⟨t1, t2⟩ := take_block (r := '/' :: showNat n) (showNat_allDigits a) (by simp; decide)
    have hg := optGroup_some (c := '/') (X := isDigit) (r := []) (showNat_ne n) (showNat_allDigits n) (by simp)
    have hne : (showNat a).isEmpty = false := by
      have := showNat_ne a; cases h : showNat a <;> simp_all
    simp only [List.append_nil] at hg
    simp [parseRange, t1, t2, hne, optGroup_other, hg, atEnd, natOf_showNat]
  refine ⟨?_, ?_, ?_, ?_, ?_⟩
  · rw [of_all _ _ parseAll_star]
    simp [validRange, validRange.stepOk]
  · rw [of_all _ _ hstar]
    by_cases hn : 0 < n
    · have : n ≠ 0 := by omega
      simp [hn, validRange, validRange.stepOk, hmin, hmax, this]
    · simp [hn]
  · have h1 := parseRange_text a none none rfl
    simp only [dashText, stepText, List.append_nil] at h1
    have h2 := hhead []
    rw [List.append_nil] at h2
    rw [of_range _ _ h2 h1]
    simp [mkRange, posStep, validRange, validRange.stepOk, validRange.rangeOk, hmin, hmax]
  · have h1 := parseRange_text a (some b) none rfl
    simp only [dashText, stepText, List.append_nil] at h1
    rw [of_range _ _ (hhead _) h1]
    simp only [mkRange, posStep]
    by_cases hab : a > b
    · have : ¬ a ≤ b := by omega
      simp [hab, this]
    · have : a ≤ b := by omega
      simp [this, Nat.not_lt.2 this, validRange, validRange.stepOk, validRange.rangeOk, hmin, hmax]
  · rw [of_range _ _ (hhead _) hslash]
    by_cases hn : 0 < n
    · have h0 : n ≠ 0 := by omega
      simp only [mkRange, posStep, hn, decide_true, if_true, validRange,
        validRange.stepOk, validRange.rangeOk, hmin, hmax, Bool.and_true]
      simp [h0]
      congr 1
      apply propext
      omega
    · simp [hn, mkRange, posStep]

/-! ## C21: text -/

/-- **C21** (range): whatever text is accepted for a field, all its numbers lie in the documented range,
bounds are ordered, steps are positive and fit. -/
theorem C21_accepted_in_range (f : FieldName) (s : Text) (es : List Expr) (h : compileField f s = some es) :
    es ≠ [] ∧ ∀ e ∈ es, InRange f e := by
  obtain ⟨h1, h2⟩ := compileField_wf h
  refine ⟨h1, fun e he => ?_⟩
  obtain ⟨hw, hv⟩ := h2 e he
  have hmin : minValue f = lowest f := by cases f <;> rfl
  have hmax : maxValue f = limit f := by cases f <;> rfl
  cases e with
  | all n =>
    intro k hk
    have := hw k hk
    subst hk
    simp only [validRange, validRange.stepOk, hmin, hmax, Bool.or_eq_true, decide_eq_true_eq] at hv
    omega
  | range a b n =>
    obtain ⟨w1, w2, w3, w4⟩ := hw
    simp only [validRange, validRange.rangeOk, hmin, hmax, Bool.and_eq_true, decide_eq_true_eq] at hv
    obtain ⟨v1, ⟨v2, v3⟩, v4⟩ := hv
    have hb : ∀ l, b = some l → a ≤ l ∧ l ≤ limit f := by
      rintro l rfl
      refine ⟨w2 l rfl, ?_⟩
      simp only [decide_eq_true_eq] at v3
      omega
    have hk : ∀ k, n = some k → 0 < k ∧ (k : Int) ≤ limit f - a := by
      rintro k rfl
      have hp := w3 k rfl
      refine ⟨hp, ?_⟩
      have hk0 : k ≠ 0 := by omega
      cases b with
      | none =>
        simp only [validRange.stepOk, hk0, decide_false, Bool.false_or, decide_eq_true_eq] at v4
        exact v4
      | some l =>
        have hl := hb l rfl
        cases l with
        | zero =>
          simp only [validRange.stepOk, hk0, decide_false, Bool.false_or, decide_eq_true_eq] at v4
          exact v4
        | succ l =>
          simp only [validRange.stepOk, hk0, decide_false, Bool.false_or, decide_eq_true_eq] at v4
          omega
    refine ⟨v2, ?_, hb, hk⟩
    cases b with
    | some l => have := hb l rfl; omega
    | none =>
      cases n with
      | none => exact absurd rfl (w4 rfl)
      | some k => have := hk k rfl; omega
  | monthRange a b => exact hw
  | weekdayRange a b => exact hw
  | weekdayPos o w => exact hw
  | lastDay => exact hw

/-- **C21** (round trip, partial): printing the expressions of a field and parsing the text gives the same
expressions again.  Partial: not for lists with an expression `0-0/n`, see `C21_zero_range_witness`. -/
theorem C21_roundtrip_partial (f : FieldName) (s : Text) (es : List Expr) (h : compileField f s = some es)
    (hz : ∀ n, Expr.range 0 (some 0) (some n) ∉ es) : compileField f (fieldText es) = some es := by
  obtain ⟨h1, h2⟩ := compileField_wf h
  have hir := (C21_accepted_in_range f s es h).2
  have hclean : ∀ t ∈ es.map Expr.text, Clean t := by
    intro t ht
    obtain ⟨e, he, rfl⟩ := List.mem_map.1 ht
    exact clean_text (h2 e he).1
  simp only [compileField, fieldText]
  rw [pieces_join (by simpa using h1) hclean]
  refine compileAll_texts fun e he => compile1_text (h2 e he).1 (h2 e he).2 ?_
  intro hzr
  cases e with
  | range a b n =>
    obtain ⟨rfl, hn⟩ := hzr
    cases n with
    | none => exact hn rfl
    | some k =>
      by_cases ha : a = 0
      · subst ha; exact hz k he
      · have hp := (h2 _ he).1.2.2.1 k rfl
        have hv := (h2 _ he).2
        simp only [validRange, validRange.rangeOk, Bool.and_eq_true] at hv
        have v4 := hv.2.2
        cases a with
        | zero => exact ha rfl
        | succ a =>
          simp [validRange.stepOk] at v4
          omega
  | _ => exact hzr

example : compileField .dayOfWeek " MON-fri , 6".toList = some [.weekdayRange 0 4, .range 6 (some 6) none] ∧
    fieldText [.weekdayRange 0 4, .range 6 (some 6) none] = "mon-fri,6".toList := by decide +kernel

/-- **C21, counterexample**: `0-0/2` (accepted because the bound 0 is taken for "no bound") selects only 0,
but is printed as `0/2`, which selects every second value. -/
theorem C21_zero_range_witness :
    compileField .minute "0-0/2".toList = some [.range 0 (some 0) (some 2)] ∧
    compileField .minute (fieldText [.range 0 (some 0) (some 2)]) = some [.range 0 none (some 2)] ∧
    fieldNext [.range 0 (some 0) (some 2)] .minute 60 = none ∧
    fieldNext [.range 0 none (some 2)] .minute 60 = some 2 := by decide +kernel

/-- **C21, counterexample**: malformed expressions that begin with a name are accepted, because those
patterns are not anchored at the end: the rest of the text is ignored. -/
theorem C21_trailing_text_witness :
    compileField .month "jan/2".toList = some [.monthRange 1 1] ∧
    compileField .dayOfWeek "mon-5".toList = some [.weekdayRange 0 0] ∧
    compileField .day "lastfoo".toList = some [.lastDay] ∧
    compileField .day "1st mon-fri".toList = some [.weekdayPos 0 0] := by decide +kernel

/-! ## C17, C18: the first matching time -/

theorem ceil_facts (d : Dt) : (d.ceil).wall % 1000000 = 0 ∧ d.wall ≤ (d.ceil).wall ∧
    (d.ceil).wall < d.wall + 1000000 ∧ (d.ceil).tz = d.tz := by
  simp only [Dt.ceil]
  split
  · simp only [Dt.add]
    refine ⟨by omega, by omega, by omega, trivial⟩
  · exact ⟨by omega, by omega, by omega, rfl⟩

theorem startOf_tz (E : TzEnv) (g : Trig) (tz : Nat) (prev : Option Dt) (now : Dt) :
    (startOf E g tz prev now).tz = g.zone tz := by
  have : ∀ d : Dt, (Dt.astimezone E (g.tz.getD tz) d).tz = g.tz.getD tz := by
    intro d
    simp only [Dt.astimezone]
    split
    · assumption
    · rfl
  exact this _

/-- Unjittered answers come straight from the search. -/
theorem next_search {E : TzEnv} {g : Trig} (hj : g.jitter = none) {tz : Nat} {prev : Option Dt} {now r : Dt}
    {draw : Int} {fuel : Nat} (h : next E g tz prev now draw fuel = some (.ok (some r))) :
    ((startOf E g tz prev now).ceil).wall < endOfTime ∧
    search E g (g.zone tz) (g.stopDt tz) fuel ((startOf E g tz prev now).ceil) 0 = some (.ok (some r)) ∧
    ∀ st, g.stopDt tz = some st → Dt.lt E st r = false := by
  simp only [next] at h
  split at h
  · rename_i hlt
    refine ⟨hlt, ?_⟩
    split at h
    · rename_i r' hs
      have hst := search_stop _ _ _ (.inl (by omega)) hs
      simp only [hj, applyJitter, Option.some.injEq, Except.ok.injEq] at h
      have : r' = r := by
        rw [← h]
        cases hgs : g.stop.map (NDt.withTz (g.tz.getD tz)) with
        | none => rfl
        | some st =>
          have := hst st (by rw [← hgs])
          simp [Dt.min, this]
      subst this
      exact ⟨hs, hst⟩
    · rename_i hx
      exact absurd h (hx r)
  · simp at h

/-- **C17/C18** (any zone, by wall clock; partial): without jitter, in every lawful zone, if clocks show
every second between the start of the search and the time returned, then the time returned is a whole
second that satisfies every field, and no second from the start on that satisfies every field is
earlier.  Partial: times skipped when clocks go forward are excluded, see `C17_gap_witness`; in the
hour repeated when clocks go back, "earlier" is by wall clock, see `C18_overlap_witness`. -/
theorem C17_C18_cron_wall_clock_partial {E : TzEnv} (g : Trig) (hw : g.WfAll) (hj : g.jitter = none) (tz : Nat)
    (hE : (E (g.zone tz)).Lawful) (prev : Option Dt) (now r : Dt) (draw : Int) (fuel : Nat)
    (hy : 0 ≤ (startOf E g tz prev now).wall)
    (h : next E g tz prev now draw fuel = some (.ok (some r)))
    (hng : ∀ s, (startOf E g tz prev now).wall ≤ s * 1000000 → s * 1000000 ≤ r.wall →
      Shown E (g.zone tz) s) :
    r.tz = g.zone tz ∧ (startOf E g tz prev now).wall ≤ r.wall ∧
    r.wall % 1000000 = 0 ∧ Matches g.exprs (r.wall / 1000000) ∧
    ∀ s, (startOf E g tz prev now).wall ≤ s * 1000000 → s * 1000000 < r.wall → ¬ Matches g.exprs s := by
  obtain ⟨hlt, hs, _⟩ := next_search hj h
  obtain ⟨c1, c2, c3, c4⟩ := ceil_facts (startOf E g tz prev now)
  rw [startOf_tz] at c4
  obtain ⟨t1, t2, t3⟩ := search_tz hw hE _ _ _ c4 (by omega) hlt hs
  obtain ⟨s1, s2, s3⟩ := search_sound hw hE _ _ _ c4 (by omega) hlt c1
    (fun f hf => absurd hf (by cases f <;> simp [FieldName.idx])) hs
    (fun s h1 h2 => hng s (by omega) h2)
  exact ⟨t1, by omega, s1, s2, fun s h1 h2 => s3 s (by omega) (by omega)⟩

/-- Where the search starts, as an instant: at `now` or `start_at`, whichever is later, before the first
run; just after the previous run afterwards (or at `now`, if the clock has gone back before it). -/
def searchFrom (E : TzEnv) (g : Trig) (tz : Nat) (prev : Option Dt) (now : Dt) : Int :=
  match prev with
  | none => match g.start with
    | none => now.inst E
    | some s => max (now.inst E) ((s.withTz (g.zone tz)).inst E)
  | some p => if now.inst E < p.inst E then now.inst E else p.inst E + 1

theorem startOf_inst {E : TzEnv} (hE : E.Fixed) (g : Trig) (tz : Nat) (prev : Option Dt) (now : Dt) :
    (startOf E g tz prev now).inst E = searchFrom E g tz prev now := by
  have hast : ∀ d : Dt, (Dt.astimezone E (g.tz.getD tz) d).inst E = d.inst E := by
    intro d
    simp only [Dt.astimezone]
    split
    · rfl
    · exact Dt.inst_ofInst _ _ (hE.lawful _)
  simp only [startOf, searchFrom, hast, Trig.zone]
  cases prev with
  | none =>
    cases g.start with
    | none => rfl
    | some s => exact inst_max hE _ _
  | some p =>
    simp only []
    obtain ⟨c, hc⟩ := hE p.tz
    have h1 : (Dt.min E now (p.add 1)).inst E = min (now.inst E) (p.inst E + 1) := by
      rw [inst_min hE, Dt.inst_add_fixed hc]
    obtain ⟨c', hc'⟩ := hE (Dt.min E now (p.add 1)).tz
    rw [Dt.eq_fixed hc', h1]
    simp only [decide_eq_true_eq]
    split
    · rw [Dt.inst_add_fixed hc', h1]; split <;> omega
    · rw [h1]; split <;> omega

/-- **C17, C18** (zones without daylight saving; partial): without jitter, whenever the call ends, either it
answers the earliest instant from the start of the search on at which the clock of the trigger's zone
shows a whole second that satisfies every field, and this is not after the end date; or it answers
`None` (or raises, at the end of the calendar) and there is no such instant up to the end date.
Partial: fixed-offset zones, see the two witnesses below for the others. -/
theorem C17_C18_cron_first_match_partial {E : TzEnv} (hE : E.Fixed) (g : Trig) (hw : g.WfAll)
    (hj : g.jitter = none) (tz : Nat) (prev : Option Dt) (now : Dt) (draw : Int) (fuel : Nat)
    (hy : 0 ≤ (startOf E g tz prev now).wall) (x : Except Exc (Option Dt))
    (h : next E g tz prev now draw fuel = some x) :
    (∃ r, x = .ok (some r) ∧ g.WithinEnd E tz (r.inst E) ∧
      FirstOf (FiresAt g.exprs (E (g.zone tz))) (searchFrom E g tz prev now) (r.inst E)) ∨
    ((x = .ok none ∨ ∃ e, x = .error e) ∧
      ∀ u, FiresAt g.exprs (E (g.zone tz)) u → searchFrom E g tz prev now ≤ u → ¬ g.WithinEnd E tz u) := by
  obtain ⟨c, hc⟩ := hE (g.zone tz)
  have hN := startOf_inst hE g tz prev now
  have hz := startOf_tz E g tz prev now
  have hinst : ∀ d : Dt, d.tz = g.zone tz → d.inst E = d.wall - c := fun d hd =>
    Dt.inst_fixed (by rw [hd]; exact hc)
  rw [hinst _ hz] at hN
  have hfire : ∀ u, FiresAt g.exprs (E (g.zone tz)) u ↔
      (u + c) % 1000000 = 0 ∧ Matches g.exprs ((u + c) / 1000000) := by
    intro u; rw [hc]; rfl
  obtain ⟨c1, c2, c3, c4⟩ := ceil_facts (startOf E g tz prev now)
  rw [hz] at c4
  have hshown : ∀ s, Shown E (g.zone tz) s := shown_fixed hc
  have hstop : ∀ st, g.stopDt tz = some st → ∀ d : Dt, d.tz = g.zone tz →
      Dt.lt E st d = decide (st.inst E < d.inst E) := fun st _ d hd =>
    Dt.lt_fixed (by rw [hd]; exact hc)
  -- no firing time is missed when the search does not return a time
  have hmiss : (∀ r, x ≠ .ok (some r)) → ∀ u, FiresAt g.exprs (E (g.zone tz)) u →
      searchFrom E g tz prev now ≤ u → ¬ g.WithinEnd E tz u := by
    intro hx u hu hNu hwe
    obtain ⟨u1, u2⟩ := (hfire u).1 hu
    have hyear := matches_year u2
    obtain ⟨_, hr2⟩ := inRange' (by omega) hyear.2
    simp only [next] at h
    split at h
    · rename_i hlt
      cases hs : search E g (g.tz.getD tz) (g.stop.map (NDt.withTz (g.tz.getD tz))) fuel
          (startOf E g tz prev now).ceil 0 with
      | none => rw [hs] at h; simp at h
      | some y =>
        have hcomp := search_complete hw (stopMono_fixed hc (startOf E g tz prev now).ceil.wall _) fuel _ 0 (by omega) (Int.le_refl _) c4 (by omega) hlt c1
          (fun f hf => absurd hf (by cases f <;> simp [FieldName.idx])) hs u2 (by omega)
          (fun s _ _ => hshown s)
        rcases hcomp with ⟨r, rfl, _⟩ | ⟨rfl, st, hst, hl⟩
        · rw [hs] at h
          simp only [Option.some.injEq] at h
          exact hx _ h.symm
        · have := hstop st hst ⟨(u + c) / 1000000 * 1000000, false, g.zone tz⟩ rfl
          have hl' : Dt.lt E st ⟨(u + c) / 1000000 * 1000000, false, g.zone tz⟩ = true := hl
          rw [this, hinst ⟨(u + c) / 1000000 * 1000000, false, g.zone tz⟩ rfl] at hl'
          simp only [decide_eq_true_eq] at hl'
          have := hwe st hst
          omega
    · rename_i hlt
      omega
  cases x with
  | error e => exact .inr ⟨.inr ⟨e, rfl⟩, hmiss (by simp)⟩
  | ok o =>
    cases o with
    | none => exact .inr ⟨.inl rfl, hmiss (by simp)⟩
    | some r =>
      left
      refine ⟨r, rfl, ?_⟩
      obtain ⟨_, _, hnl⟩ := next_search hj h
      obtain ⟨s1, s2, s3, s4, s5⟩ := C17_C18_cron_wall_clock_partial g hw hj tz (by rw [hc]; exact Zone.fixed_lawful c)
        prev now r draw fuel hy h (fun s _ _ => hshown s)
      refine ⟨?_, ?_, ?_, ?_⟩
      · intro st hst
        have := hnl st hst
        rw [hstop st hst r s1] at this
        simpa using this
      · rw [hfire, hinst r s1]
        have : r.wall - c + c = r.wall := by omega
        rw [this]; exact ⟨s3, s4⟩
      · rw [hinst r s1]; omega
      · intro u hu hNu
        obtain ⟨u1, u2⟩ := (hfire u).1 hu
        rw [hinst r s1]
        rcases Int.lt_or_le u (r.wall - c) with hlt | hle
        · exact absurd u2 (s5 _ (by omega) (by omega))
        · exact hle

/-- **C18** (partial): if the schedule has a time from the start of the search on and up to the end date, the
trigger finds one (fixed-offset zones). -/
theorem C18_cron_finds_partial {E : TzEnv} (hE : E.Fixed) (g : Trig) (hw : g.WfAll)
    (hj : g.jitter = none) (tz : Nat) (prev : Option Dt) (now : Dt) (draw : Int) (fuel : Nat)
    (hy : 0 ≤ (startOf E g tz prev now).wall) (x : Except Exc (Option Dt))
    (h : next E g tz prev now draw fuel = some x) (u : Int) (hu : FiresAt g.exprs (E (g.zone tz)) u)
    (hN : searchFrom E g tz prev now ≤ u) (hwe : g.WithinEnd E tz u) :
    ∃ r, x = .ok (some r) ∧ r.inst E ≤ u := by
  rcases C17_C18_cron_first_match_partial hE g hw hj tz prev now draw fuel hy x h with
    ⟨r, hx, _, _, _, hf⟩ | ⟨_, hno⟩
  · exact ⟨r, hx, hf u hu hN⟩
  · exact absurd hwe (hno u hu hN)

/-- The fields of `CronTrigger(hour=h, minute=m)` (see the `example`s below). -/
def daily (h m : Nat) : FieldName → List Expr
  | .year => [.all none] | .month => [.all none] | .day => [.all none] | .week => [.all none]
  | .dayOfWeek => [.all none]
  | .hour => [.range h (some h) none] | .minute => [.range m (some m) none]
  | .second => [.range 0 (some 0) none]

theorem daily_wf (h m : Nat) : ∀ f, ∀ e ∈ daily h m f, Wf f e := by
  intro f e he
  cases f <;> simp only [daily, List.mem_cons, List.not_mem_nil, or_false] at he <;> subst he <;>
    simp [Wf, lowest]

-- these are the fields that `CronTrigger(hour="2", minute=30)` compiles
example : ∀ exprs, construct (fun | .hour => some "2".toList | .minute => some "30".toList | _ => none) = some exprs →
    exprs = daily 2 30 := by
  intro exprs h
  funext f
  simp only [construct] at h
  split at h
  · simp only [Option.some.injEq] at h; subst h; cases f <;> decide +kernel
  · simp at h
example : (construct (fun | .hour => some "2".toList | .minute => some "30".toList | _ => none)).isSome = true := by
  decide +kernel

/-- 2021-03-28 at the given time of day, in microseconds. -/
def mar28 (h m s : Int) : Int := Cal.toSec ⟨2021, 3, 28, h, m, s⟩ * 1000000

/-- Clocks go forward from 2:00 to 3:00 on 2021-03-28 (offset +1 h before). -/
def springDay : TzEnv := fun _ => Zone.gap (secs 3600) (mar28 1 0 0) (secs 3600)
/-- Clocks go back from 3:00 to 2:00 on 2021-03-28 (offset +2 h before). -/
def fallDay : TzEnv := fun _ => Zone.overlap (secs 7200) (mar28 1 0 0) (secs 3600)

theorem springDay_lawful : springDay.Lawful := fun _ => Zone.gap_lawful _ _ _ (by decide)
theorem fallDay_lawful : fallDay.Lawful := fun _ => Zone.overlap_lawful _ _ _

-- the hypotheses of the fixed-zone theorems are met by a daily trigger at 2:30 in zone +2 h
example : exEnv.Fixed ∧ 0 ≤ (startOf exEnv ⟨daily 2 30, some 1, none, none, none⟩ 0 none ⟨mar28 1 0 0, false, 0⟩).wall ∧
    next exEnv ⟨daily 2 30, some 1, none, none, none⟩ 0 none ⟨mar28 1 0 0, false, 0⟩ 0 40 =
      some (.ok (some ⟨mar28 2 30 0 + secs 86400, false, 1⟩)) :=
  ⟨exEnv_fixed, by decide +kernel, by decide +kernel⟩

/-- **C17, counterexample** with daylight saving: a trigger for 2:30 answers 3:30, which does not satisfy
its fields, on the day on which 2:30 is skipped. -/
theorem C17_gap_witness : ∃ (now r : Dt),
    next springDay ⟨daily 2 30, some 0, none, none, none⟩ 0 none now 0 40 = some (.ok (some r)) ∧
    r.wall = mar28 3 30 0 ∧ valueAt .hour (r.wall / 1000000) = 3 ∧
    ¬ Matches (daily 2 30) (r.wall / 1000000) := by
  refine ⟨⟨mar28 0 0 0, false, 0⟩, ⟨mar28 3 30 0, false, 0⟩, by decide +kernel, rfl, by decide +kernel, ?_⟩
  intro h
  obtain ⟨e, he, hs⟩ := h .hour
  simp only [daily, List.mem_cons, List.not_mem_nil, or_false] at he
  subst he
  obtain ⟨_, _, _, h2⟩ := hs
  have := h2 2 rfl
  revert this
  decide +kernel

/-- **C18, counterexample** with daylight saving: asked in the repeated hour, the trigger answers a time an
hour in the past; and after a run in the first 2:30 it skips the second 2:30. -/
theorem C18_overlap_witness :
    (∃ now r : Dt, next fallDay ⟨daily 2 30, some 0, none, none, none⟩ 0 none now 0 40 = some (.ok (some r)) ∧
      r.inst fallDay < now.inst fallDay) ∧
    (∃ prev now r : Dt, next fallDay ⟨daily 2 30, some 0, none, none, none⟩ 0 (some prev) now 0 40 =
        some (.ok (some r)) ∧
      ∃ u, FiresAt (daily 2 30) (fallDay 0) u ∧ searchFrom fallDay ⟨daily 2 30, some 0, none, none, none⟩ 0
        (some prev) now ≤ u ∧ u < r.inst fallDay) := by
  refine ⟨⟨⟨mar28 2 20 0, true, 0⟩, ⟨mar28 2 30 0, false, 0⟩, by decide +kernel, by decide +kernel⟩,
    ⟨⟨mar28 2 30 0, false, 0⟩, ⟨mar28 2 31 0, false, 0⟩, ⟨mar28 2 30 0 + secs 86400, false, 0⟩, by decide +kernel,
      mar28 1 30 0, ⟨by decide +kernel, ?_⟩, by decide +kernel, by decide +kernel⟩⟩
  have hs : ((fallDay 0).loc (mar28 1 30 0)).1 / 1000000 = Cal.toSec ⟨2021, 3, 28, 2, 30, 0⟩ := by decide +kernel
  rw [hs]
  have hc : Cal.ofSec (Cal.toSec ⟨2021, 3, 28, 2, 30, 0⟩) = ⟨2021, 3, 28, 2, 30, 0⟩ := by decide +kernel
  intro f
  cases f with
  | week => exact ⟨_, List.mem_singleton.2 rfl, by decide +kernel, by decide +kernel, trivial⟩
  | dayOfWeek => exact ⟨_, List.mem_singleton.2 rfl, by decide +kernel, by decide +kernel, trivial⟩
  | hour => exact ⟨_, List.mem_singleton.2 rfl, by decide +kernel, by decide +kernel, ⟨0, by decide +kernel⟩,
      fun l hl => by cases hl; decide +kernel⟩
  | minute => exact ⟨_, List.mem_singleton.2 rfl, by decide +kernel, by decide +kernel, ⟨0, by decide +kernel⟩,
      fun l hl => by cases hl; decide +kernel⟩
  | second => exact ⟨_, List.mem_singleton.2 rfl, by decide +kernel, by decide +kernel, ⟨0, by decide +kernel⟩,
      fun l hl => by cases hl; decide +kernel⟩
  | _ => exact ⟨_, List.mem_singleton.2 rfl, by decide +kernel, by decide +kernel, trivial⟩

/-! ## C19: termination and progress -/

theorem search_fuel {E : TzEnv} {g : Trig} {tz : Nat} {stop : Option Dt} {fuel : Nat} {d : Dt} {fn : Int}
    {x} (h : search E g tz stop fuel d fn = some x) (k : Nat) : search E g tz stop (fuel + k) d fn = some x := by
  induction fuel generalizing d fn with
  | zero => simp [search] at h
  | succ n ih =>
    rw [Nat.add_right_comm, search]
    rw [search] at h
    split
    · rename_i hfn
      rw [if_pos hfn] at h
      cases hr : round E g tz d fn with
      | error e => rw [hr] at h; exact h
      | ok p =>
        rw [hr] at h
        obtain ⟨d', fn'⟩ := p
        simp only [] at h ⊢
        cases stop with
        | none => exact ih h
        | some st =>
          simp only [] at h ⊢
          split
          · rename_i hl; rw [if_pos hl] at h; exact h
          · rename_i hl; rw [if_neg hl] at h; exact ih h
    · rename_i hfn
      rw [if_neg hfn] at h
      exact h

/-- **C19** (termination): in every lawful zone, whatever the arguments, the search ends: with some bound on
the number of rounds, and any larger one, it gives one and the same answer. -/
theorem C19_cron_terminates {E : TzEnv} (g : Trig) (hw : g.WfAll) (tz : Nat) (hE : (E (g.zone tz)).Lawful)
    (prev : Option Dt) (now : Dt) (draw : Int) (hy : 0 ≤ (startOf E g tz prev now).wall) :
    ∃ n x, ∀ fuel, n ≤ fuel → next E g tz prev now draw fuel = some x := by
  obtain ⟨c1, c2, c3, c4⟩ := ceil_facts (startOf E g tz prev now)
  rw [startOf_tz] at c4
  by_cases hlt : ((startOf E g tz prev now).ceil).wall < endOfTime
  · obtain ⟨y, hs⟩ := search_terminates (stop := g.stopDt tz) hw hE
      (((endOfTime - ((startOf E g tz prev now).ceil).wall) * 9 + 9).toNat) _ 0 c4 (by omega) hlt
      (by omega) (by omega)
    refine ⟨(((endOfTime - ((startOf E g tz prev now).ceil).wall) * 9 + 9).toNat),
      (next E g tz prev now draw (((endOfTime - ((startOf E g tz prev now).ceil).wall) * 9 + 9).toNat)).getD
        (.ok none), fun fuel hf => ?_⟩
    generalize (((endOfTime - ((startOf E g tz prev now).ceil).wall) * 9 + 9).toNat) = n at *
    obtain ⟨k, rfl⟩ := Nat.le.dest hf
    have hs2 := search_fuel hs k
    have e1 : search E g (g.tz.getD tz) (g.stop.map (NDt.withTz (g.tz.getD tz))) n
      (startOf E g tz prev now).ceil 0 = some y := hs
    have e2 : search E g (g.tz.getD tz) (g.stop.map (NDt.withTz (g.tz.getD tz))) (n + k)
      (startOf E g tz prev now).ceil 0 = some y := hs2
    simp only [next, if_pos hlt, e1, e2]
    cases y with
    | error e => rfl
    | ok o => cases o <;> rfl
  · exact ⟨0, .error .valueError, fun fuel _ => by simp only [next, if_neg hlt]⟩

def feb31 : FieldName → List Expr
  | .month => [.range 2 (some 2) none]
  | .day => [.range 31 (some 31) none]
  | .year => [.range 2021 (some 2022) none]
  | _ => [.all none]

-- a schedule without any time (31 February): the search still ends, with `None`
example : next exEnv ⟨feb31, none, none, none, none⟩ 0 none ⟨mar28 1 0 0, false, 0⟩ 0 40 = some (.ok none) := by decide +kernel

/-- **C19** (progress, partial): a time returned after a previous run is strictly later than it, provided the
clock has not gone back before the previous run (fixed-offset zones). -/
theorem C19_cron_progress_partial {E : TzEnv} (hE : E.Fixed) (g : Trig) (hw : g.WfAll)
    (hj : g.jitter = none) (tz : Nat) (p now r : Dt) (draw : Int) (fuel : Nat)
    (hy : 0 ≤ (startOf E g tz (some p) now).wall) (hle : p.inst E ≤ now.inst E)
    (h : next E g tz (some p) now draw fuel = some (.ok (some r))) : p.inst E < r.inst E := by
  rcases C17_C18_cron_first_match_partial hE g hw hj tz (some p) now draw fuel hy _ h with
    ⟨r', hr, _, _, hN, _⟩ | ⟨hx, _⟩
  · cases hr
    have : searchFrom E g tz (some p) now = p.inst E + 1 := by
      simp only [searchFrom]; rw [if_neg (by omega)]
    omega
  · rcases hx with hx | ⟨e, hx⟩ <;> cases hx

example : next exEnv ⟨daily 2 30, some 1, none, none, none⟩ 0 (some ⟨mar28 2 30 0, false, 1⟩)
    ⟨mar28 0 30 0, false, 0⟩ 0 40 = some (.ok (some ⟨mar28 2 30 0 + secs 86400, false, 1⟩)) := by decide +kernel

/-- **C19, counterexample**: if the clock has gone back since the previous run (or the previous run was
requested ahead of time), the trigger answers the previous time again. -/
theorem C19_clock_back_witness : ∃ (p now : Dt), now.inst exEnv < p.inst exEnv ∧
    next exEnv ⟨daily 2 30, some 0, none, none, none⟩ 0 (some p) now 0 40 = some (.ok (some p)) :=
  ⟨⟨mar28 2 30 0, false, 0⟩, ⟨mar28 2 29 0, false, 0⟩, by decide +kernel, by decide +kernel⟩

/-- **C19, observation**: at the end of the calendar the search raises instead of answering `None`. -/
theorem C19_end_of_calendar_witness : ∃ now : Dt,
    next exEnv ⟨daily 2 30, some 0, none, none, none⟩ 0 none now 0 40 = some (.error .indexError) :=
  ⟨⟨Cal.toSec ⟨9999, 12, 31, 23, 59, 59⟩ * 1000000, false, 0⟩, by decide +kernel⟩

/-! ## C13: the end date -/

/-- **C13** (cron): in any zone, with or without jitter, the time returned does not compare as later than
the end date. -/
theorem C13_cron_not_after_end {E : TzEnv} (g : Trig) (tz : Nat) (prev : Option Dt) (now r : Dt) (draw : Int)
    (fuel : Nat) (h : next E g tz prev now draw fuel = some (.ok (some r))) (st : Dt)
    (hst : g.stopDt tz = some st) : Dt.lt E st r = false := by
  simp only [next] at h
  split at h
  · split at h
    · rename_i r' hs
      simp only [Option.some.injEq, Except.ok.injEq] at h
      have hst' : g.stop.map (NDt.withTz (g.tz.getD tz)) = some st := hst
      rw [hst'] at h
      simp only [Dt.min] at h
      split at h
      · subst h; simp [Dt.lt]
      · rename_i hl; subst h; simpa using hl
    · rename_i hx; exact absurd h (hx r)
  · simp at h

/-- **C13** (cron, as instants; partial: fixed-offset zones). -/
theorem C13_cron_within_end_partial {E : TzEnv} (hE : E.Fixed) (g : Trig) (tz : Nat) (prev : Option Dt)
    (now r : Dt) (draw : Int) (fuel : Nat) (h : next E g tz prev now draw fuel = some (.ok (some r))) :
    g.WithinEnd E tz (r.inst E) := by
  intro st hst
  have := C13_cron_not_after_end g tz prev now r draw fuel h st hst
  obtain ⟨c, hc⟩ := hE r.tz
  rw [Dt.lt_fixed hc] at this
  simpa using this

/-- **C13** (cron; partial: fixed-offset zones, no jitter): once the trigger has answered `None`, it gives no
time for any later `now`. -/
theorem C13_cron_none_stays_partial {E : TzEnv} (hE : E.Fixed) (g : Trig) (hw : g.WfAll) (hj : g.jitter = none)
    (tz : Nat) (prev : Option Dt) (now now' r : Dt) (draw draw' : Int) (fuel fuel' : Nat)
    (hy : 0 ≤ (startOf E g tz prev now).wall) (hy' : 0 ≤ (startOf E g tz prev now').wall)
    (hle : now.inst E ≤ now'.inst E) (h : next E g tz prev now draw fuel = some (.ok none)) :
    next E g tz prev now' draw' fuel' ≠ some (.ok (some r)) := by
  intro h'
  have hN : searchFrom E g tz prev now ≤ searchFrom E g tz prev now' := by
    simp only [searchFrom]
    cases prev with
    | none =>
      cases g.start with
      | none => exact hle
      | some s => simp only []; omega
    | some p => simp only []; split <;> split <;> omega
  rcases C17_C18_cron_first_match_partial hE g hw hj tz prev now' draw' fuel' hy' _ h' with
    ⟨r', hr, hwe, hfire, hge, _⟩ | ⟨hx, _⟩
  · cases hr
    rcases C17_C18_cron_first_match_partial hE g hw hj tz prev now draw fuel hy _ h with
      ⟨_, hr, _⟩ | ⟨_, hno⟩
    · cases hr
    · exact hno _ hfire (by omega) hwe
  · rcases hx with hx | ⟨e, hx⟩ <;> cases hx

example : next exEnv ⟨daily 2 30, some 0, none, some ⟨mar28 2 29 0, false, none⟩, none⟩ 0 none
    ⟨mar28 1 0 0, false, 0⟩ 0 40 = some (.ok none) := by decide +kernel

/-! ## C22, C23 -/

/-- **C22** (cron; partial: fixed-offset zones): with jitter `j` the answer is at least the unjittered one, at
most `j` seconds later, and not after the end date. -/
theorem C22_cron_jitter_partial {E : TzEnv} (hE : E.Fixed) (g : Trig) (tz : Nat) (prev : Option Dt)
    (now r : Dt) (draw : Int) (fuel : Nat) (hd : DrawOk g.jitter draw)
    (h : next E g tz prev now draw fuel = some (.ok (some r))) :
    ∃ t, next E { g with jitter := none } tz prev now 0 fuel = some (.ok (some t)) ∧
      t.inst E ≤ r.inst E ∧ r.inst E ≤ t.inst E + secs (g.jitter.getD 0) ∧ g.WithinEnd E tz (r.inst E) := by
  have hwe := C13_cron_within_end_partial hE g tz prev now r draw fuel h
  have hsearch : ∀ st fuel d fn, search E { g with jitter := none } (g.tz.getD tz) st fuel d fn =
      search E g (g.tz.getD tz) st fuel d fn := by
    intro st fuel
    induction fuel with
    | zero => intros; rfl
    | succ n ih =>
      intro d fn
      rw [search, search]
      have hr : round E { g with jitter := none } (g.tz.getD tz) d fn = round E g (g.tz.getD tz) d fn := rfl
      rw [hr]
      simp only [ih]
  have hstart : startOf E { g with jitter := none } tz prev now = startOf E g tz prev now := rfl
  simp only [next] at h
  split at h
  · rename_i hlt
    split at h
    · rename_i t hs
      have hst := search_stop _ _ _ (.inl (by omega)) hs
      have hjit : t.inst E ≤ (applyJitter t g.jitter draw).inst E ∧
          (applyJitter t g.jitter draw).inst E ≤ t.inst E + secs (g.jitter.getD 0) := by
        simp only [applyJitter]
        cases hj : g.jitter with
        | none => simp
        | some j =>
          have := hd j hj
          simp only [Option.getD_some, secs] at this ⊢
          split
          · rename_i h0; subst h0; exact ⟨Int.le_refl _, by omega⟩
          · obtain ⟨c, hc⟩ := hE t.tz
            rw [Dt.inst_add_fixed hc]; omega
      simp only [Option.some.injEq, Except.ok.injEq] at h
      refine ⟨t, ?_, ?_⟩
      · simp only [next, hstart, if_pos hlt, hsearch, hs, applyJitter]
        cases hgs : g.stop.map (NDt.withTz (g.tz.getD tz)) with
        | none => rfl
        | some st =>
          have := hst st hgs
          simp [Dt.min, this]
      · cases hgs : g.stop.map (NDt.withTz (g.tz.getD tz)) with
        | none => rw [hgs] at h; simp only [] at h; subst h; exact ⟨hjit.1, hjit.2, hwe⟩
        | some st =>
          have h2 := hst st hgs
          rw [hgs] at h
          simp only [] at h
          have h3 : r.inst E = min ((applyJitter t g.jitter draw).inst E) (st.inst E) := by
            rw [← h, inst_min hE]
          obtain ⟨c, hc⟩ := hE t.tz
          rw [Dt.lt_fixed hc] at h2
          simp only [decide_eq_false_iff_not] at h2
          exact ⟨by omega, by omega, hwe⟩
    · rename_i hx; exact absurd h (hx r)
  · simp at h

example : next exEnv ⟨daily 2 30, some 0, none, some ⟨mar28 2 30 7, false, none⟩, some 10⟩ 0 none
    ⟨mar28 1 0 0, false, 0⟩ (secs 9) 40 = some (.ok (some ⟨mar28 2 30 7, false, 0⟩)) := by decide +kernel

/-- What `__getstate__` keeps of a cron trigger (trigger.py:275-283, datastructures.py:48-57). -/
structure State where
  timezone : Option Nat
  startAt : Option NDt
  endAt : Option NDt
  fields : FieldName → List Expr
  jitter : Option Int

/-- `CronTrigger.__getstate__` (trigger.py:275-283) -/
def Trig.getState (g : Trig) : State := ⟨g.tz, g.start, g.stop, g.exprs, g.jitter⟩

/-- `CronTrigger.__setstate__` on the state object (trigger.py:285-288, state.py:12-28): its attributes are
assigned to the new object. -/
def State.restore (s : State) : Trig := ⟨s.fields, s.timezone, s.startAt, s.endAt, s.jitter⟩

/-- **C23** (cron): a restored cron trigger answers as the saved one on all arguments. -/
theorem C23_cron_restore (E : TzEnv) (g : Trig) (tz : Nat) (prev : Option Dt) (now : Dt) (draw : Int) (fuel : Nat) :
    next E g.getState.restore tz prev now draw fuel = next E g tz prev now draw fuel := rfl

end Cron
end Asyncz
