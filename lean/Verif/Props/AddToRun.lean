import Verif.Props.EndToEnd
import Verif.Lemmas.SchedApi
import Verif.Props.SchedStart
/-!
# C84: from `add_task` to the executor

What is run of a task that is added to a started scheduler, over any history of passes.
-/
namespace Asyncz
namespace Sched

variable {σ τ φ : Type} {O : StoreOps σ (Body τ φ)}

/-! ## A task without next run time is left alone -/

theorem Served.idle {L : LawfulStore O} {c : Cfg τ} {G : Env τ → Prop} {a i x : String} {s s' : State σ τ φ}
    {ps : List (Int × List Obs)} (h : Served L c G a i x s ps s') :
    WF L s → (∀ t, entry O s a i = some t → t.nrt = none) →
    ps.flatMap (fun p => submissionEvents a i p.2) = [] ∧ ps.flatMap (fun p => sends a i p.2) = [] := by
  induction h with
  | done => exact fun _ _ => ⟨rfl, rfl⟩
  | other hw' he _ ih => exact fun _ h => ih hw' (by rw [he]; exact h)
  | pass hm hg hl hx h hlog _ ih =>
    intro hw he
    rename_i s s1 s2 e fuel w obs rest _
    obtain ⟨new, evs, wake, z1, z2, z3, z4, z5, z6, z7, z8⟩ := processTasks_spec L hw hm hl.1 h
    rw [hlog, List.append_assoc, List.append_cancel_left_eq] at z1
    have key : entry O s1 a i = entry O s a i ∧ new.filter (concerns a i) = [] ∧ evs.filter (concerns a i) = [] := by
      cases hg : s.stores.get? a with
      | none =>
        have hg' : s1.stores.get? a = none := by
          rw [Dict.get?_eq_none] at hg ⊢
          rw [z4]; exact hg
        exact ⟨by simp [entry, hg', hg], z7 a hg i⟩
      | some st =>
        obtain ⟨st', b1, b2, b3, b4⟩ := z6 a st hg
        rw [entry_eq L hw hg] at he ⊢
        rw [entry_eq L z3 b1]
        have := b2.other i (.inr (fun t ht hd => by obtain ⟨q, hq, _⟩ := hd; rw [he t ht] at hq; cases hq))
        exact ⟨this.1, this.2⟩
    have e1 : submissionEvents a i obs = [] := by
      rw [z1, ← submissionEvents_filter, List.filter_append, key.2.1, key.2.2]; rfl
    have e2 : sends a i obs = [] := by
      rw [z1, ← sends_filter, List.filter_append, key.2.1, key.2.2]; rfl
    obtain ⟨i1, i2⟩ := ih z3 (by rw [key.1]; exact he)
    exact ⟨by rw [List.flatMap_cons, i1, e1]; rfl, by rw [List.flatMap_cons, i2, e2]; rfl⟩

theorem reported_nil {a i : String} {ps : List (Int × List Obs)}
    (h : ps.flatMap (fun p => submissionEvents a i p.2) = [] ∧ ps.flatMap (fun p => sends a i p.2) = []) :
    reported a i ps = [] ∧ executed a i ps = [] := by
  constructor
  · have : reported a i ps = (ps.flatMap (fun p => submissionEvents a i p.2)).flatMap timesOf := by
      simp only [reported, List.flatMap_assoc]
    rw [this, h.1]; rfl
  · have : executed a i ps = (ps.flatMap (fun p => sends a i p.2)).flatMap (·.2) := by
      rw [List.flatMap_assoc]; rfl
    rw [this, h.2]; rfl

/-! ## What `add_task` leaves in the store -/

/-- a task added without explicit next run time has the trigger's first answer -/
theorem addTask_first (L : LawfulStore O) (e : Env τ) (s s1 : State σ τ φ) (hw : WF L s) (hm : s.mode ≠ .stopped) (t : T τ φ)
    (ht : t.nrt = none) (replace : Bool) (h : addTask O e t none replace s = (s1, .ok ())) :
    ∃ n, e.next 2 t.body.trigger none e.now = .ok n ∧ WF L s1 ∧
      entry O s1 t.body.store t.id = some { t with nrt := n, body := { t.body with pending := false } } := by
  simp only [addTask, if_neg hm, Option.getD_none] at h
  have hst : decide ((none : Option (Option Int)) ≠ some none) = true := by decide
  rw [hst] at h
  rcases realAddTask_spec L hw e t replace true none with ⟨_, h2⟩ | ⟨n, h1, _, _, _, h5, _, _, _, _, h10⟩
  · have hr : (realAddTask O e t replace true none s).2 = .ok () := by rw [h]
    rcases h2 with ⟨x, _, h3⟩ | ⟨_, h3⟩ | ⟨_, _, h3⟩ <;> rw [h3] at hr <;> cases hr
  · rw [h] at h5 h10
    refine ⟨n, ?_, h5, by rw [h10]; simp [put]⟩
    simp only [firstTime, ht] at h1
    cases hn : e.next 2 t.body.trigger none e.now with
    | error x => rw [hn] at h1; cases h1
    | ok o => rw [hn] at h1; cases o <;> simpa using h1

/-- The task `t` is scheduled at `e.now`, which leads to the state given: it is added to a scheduler that is started, or it is
added (among others of different names) to a scheduler that is stopped, which is then started.  With a lock path the first runs
are put off until the startup delay has passed, so this is for schedulers without. -/
inductive Begins (L : LawfulStore O) (c : Cfg τ) (e : Env τ) (t : T τ φ) : State σ τ φ → Prop
  | added {s s1 : State σ τ φ} {replace : Bool} (hw : WF L s) (hm : s.mode ≠ .stopped)
      (h : addTask O e t none replace s = (s1, .ok ())) : Begins L c e t s1
  | started {s s1 : State σ τ φ} {l : Adds τ φ} {replace paused : Bool} {e' : Env τ} (hs : Reachable L c s)
      (hm : s.mode = .stopped) (hp : s.pending = []) (hlock : c.lockPath = false) (hmem : (t, none, replace) ∈ l)
      (hl : l.Pairwise fun p q => ¬ (p.1.body.store = q.1.body.store ∧ p.1.id = q.1.id))
      (hn : ∀ p ∈ l, entry O s p.1.body.store p.1.id = none)
      (h : start O c e paused (addAll O e' l s) = (s1, .ok true)) : Begins L c e t s1

/-- a task scheduled without explicit next run time has the trigger's first answer -/
theorem Begins.first {L : LawfulStore O} {c : Cfg τ} {e : Env τ} {t : T τ φ} {s1 : State σ τ φ} (h : Begins L c e t s1)
    (ht : t.nrt = none) :
    ∃ n, e.next 2 t.body.trigger none e.now = .ok n ∧ WF L s1 ∧
      entry O s1 t.body.store t.id = some { t with nrt := n, body := { t.body with pending := false } } := by
  cases h with
  | added hw hm h => exact addTask_first L e _ _ hw hm t ht _ h
  | started hs hm hp hlock hmem hl hn h =>
    rename_i s l replace paused e'
    obtain ⟨_, h2, _⟩ := C34_distinct L c e e' paused s s1 hs hm hp l hl hn h
    obtain ⟨n, h3, h4⟩ := h2 _ hmem
    have hw1 : WF L s1 := by
      have hw : WF L (addAll O e' l s) := by rw [addAll_stopped e' l hm]; exact hs.wf.congr rfl
      have := wf_start (c := c) (e := e) (paused := paused) hw
      rw [h] at this
      exact this
    refine ⟨n, ?_, hw1, h4⟩
    have hnb : ∀ {n r : Int}, NotBefore c e n r → r = n := by
      intro n r h
      rcases h with ⟨_, h⟩ | ⟨h, _⟩
      · exact h
      · rw [hlock] at h; cases h
    cases h3 with
    | given h _ => simp [asWaiting, ht] at h
    | paused _ h => simp [asWaiting] at h
    | first _ _ h hr => rw [hnb hr]; exact h
    | never _ _ h => exact h

/-! ## The built-in triggers -/

variable {σ φ : Type} {O : StoreOps σ (Body Trig φ)} {E : TzEnv}

/-- **C84** (interval triggers): a task with an interval trigger is scheduled at `e.now` (`Begins`), in zones of constant
offset, without jitter and coalescing.  After any history whose latest pass was at `T`, the run times that were reported are, in
increasing order, exactly the points `start + k·interval` not before `e.now`, up to `T` and the end date; and if there were
never too many instances these are the run times that the executor got. -/
theorem C84_interval (hE : E.Fixed) (tz : Nat) (L : LawfulStore O) (c : Cfg Trig) (e : Env Trig)
    (he : ∃ draw, e.next = Trig.next E tz draw) (s1 s' : State σ Trig φ) (t : T Trig φ)
    (ht : t.nrt = none) (g : Interval) (hg : t.body.trigger = .interval g) (hv : g.Valid) (hj : g.jitter = none)
    (hco : t.body.coalesce = false) (hb : Begins L c e t s1)
    (passes : List (Int × List Obs)) (T : Int) (hT : Latest passes T)
    (h : Served L c (fun e => ∃ draw, e.next = Trig.next E tz draw) t.body.store t.id t.body.executor s1 passes s') :
    (reported t.body.store t.id passes).Pairwise (· < ·) ∧
    (∀ u, u ∈ reported t.body.store t.id passes ↔
      (∃ k : Nat, u = (g.startDt tz).inst E + k * g.interval) ∧ e.now ≤ u ∧ u ≤ T ∧ g.WithinEnd E tz u) ∧
    (NeverFull t.body.store t.id passes → executed t.body.store t.id passes = reported t.body.store t.id passes) := by
  obtain ⟨n, hn, hw1, hent⟩ := hb.first ht
  obtain ⟨draw, he⟩ := he
  have hnow : (Dt.ofInst E tz e.now).inst E = e.now := Dt.inst_ofInst tz _ (hE.lawful tz)
  rw [he, hg] at hn
  simp only [Trig.next, Option.map_none] at hn
  have hI := hv.1
  obtain ⟨q, ⟨⟨k0, hk0⟩, hq1, hq2⟩, hq⟩ := Interval.C11_interval_first_run_partial hE g hv hj tz (Dt.ofInst E tz e.now) (draw 2)
  rw [hnow] at hq1 hq2
  rcases hq with ⟨hin, r, hr, hri⟩ | ⟨hin, hr⟩
  · rw [hr] at hn
    simp only [toInst, Option.map_some, Except.ok.injEq] at hn
    subst hn
    rw [hri] at hent
    obtain ⟨m, h1, h2, h3⟩ := C83_interval hE tz L c t.body.store t.id s1 s' hw1
      { t with nrt := some q, body := { t.body with pending := false } } hent g hg hI hj hco q rfl passes T hT h
    refine ⟨?_, fun u => ?_, h3⟩
    · rw [h1, List.pairwise_map]
      refine List.Pairwise.imp ?_ List.pairwise_lt_range
      intro x y hxy
      have : (x : Int) * g.interval < (y : Int) * g.interval := Int.mul_lt_mul_of_pos_right (by omega) hI
      omega
    · rw [h1, List.mem_map]
      constructor
      · rintro ⟨k, hk, rfl⟩
        obtain ⟨ha, hb⟩ := (h2 k).mp (List.mem_range.mp hk)
        have hkI : 0 ≤ (k : Int) * g.interval := Int.mul_nonneg (by omega) (by omega)
        refine ⟨⟨k0 + k, ?_⟩, by omega, ha, ?_⟩
        · rw [hk0]; push_cast; rw [Int.add_mul]; omega
        · rcases Nat.eq_zero_or_pos k with rfl | hk
          · simpa using hin
          · exact hb k hk (Nat.le_refl _)
      · rintro ⟨⟨k, rfl⟩, hu1, hu2, hu3⟩
        have hle := hq2 k hu1
        rw [hk0] at hle
        have hkk : (k0 : Int) * g.interval ≤ (k : Int) * g.interval := by omega
        have hkk' : k0 ≤ k := by
          have := Int.le_of_mul_le_mul_right hkk hI
          omega
        obtain ⟨j, rfl⟩ := Nat.le.dest hkk'
        have hsum : q + (j : Int) * g.interval = (g.startDt tz).inst E + ((k0 + j : Nat) : Int) * g.interval := by
          rw [hk0]; push_cast; rw [Int.add_mul]; omega
        refine ⟨j, List.mem_range.mpr ((h2 j).mpr ⟨by omega, fun i _ hi st hst => ?_⟩), hsum⟩
        have h5 := hu3 st hst
        have : (i : Int) * g.interval ≤ (j : Int) * g.interval := Int.mul_le_mul_of_nonneg_right (by omega) (by omega)
        omega
  · rw [hr] at hn
    simp only [toInst, Option.map_none, Except.ok.injEq] at hn
    subst hn
    have hnil := reported_nil (h.idle hw1 (fun t' ht' => by rw [hent] at ht'; cases ht'; rfl))
    rw [hnil.1, hnil.2]
    refine ⟨.nil, fun u => ?_, fun _ => rfl⟩
    constructor
    · intro hu; cases hu
    · rintro ⟨⟨k, rfl⟩, hu1, hu2, hu3⟩
      exact absurd (fun st hst => Int.le_trans (hq2 k hu1) (hu3 st hst)) hin

/-- **C84** (cron triggers): the same for a cron trigger: reported are exactly the matching times of the calendar not before the
addition and the start date, up to the latest pass and the end date. -/
theorem C84_cron (hE : E.Fixed) (tz : Nat) (L : LawfulStore O) (c : Cfg Trig) (e : Env Trig)
    (he : ∃ draw, e.next = Trig.next E tz draw) (s1 s' : State σ Trig φ) (t : T Trig φ)
    (ht : t.nrt = none) (g : Cron.Trig) (hg : t.body.trigger = .cron g) (hwf : g.WfAll) (hj : g.jitter = none)
    (hcal : 0 ≤ ((E (g.zone tz)).loc e.now).1) (hco : t.body.coalesce = false) (hb : Begins L c e t s1) (passes : List (Int × List Obs)) (T : Int) (hT : Latest passes T)
    (h : Served L c (fun e => ∃ draw, e.next = Trig.next E tz draw) t.body.store t.id t.body.executor s1 passes s') :
    (reported t.body.store t.id passes).Pairwise (· < ·) ∧
    (∀ u, u ∈ reported t.body.store t.id passes ↔
      Cron.FiresAt g.exprs (E (g.zone tz)) u ∧ e.now ≤ u ∧ (∀ st, g.start = some st → (st.withTz (g.zone tz)).inst E ≤ u) ∧
      u ≤ T ∧ g.WithinEnd E tz u) ∧
    (NeverFull t.body.store t.id passes → executed t.body.store t.id passes = reported t.body.store t.id passes) := by
  obtain ⟨n, hn, hw1, hent⟩ := hb.first ht
  obtain ⟨draw, he⟩ := he
  have hnow : (Dt.ofInst E tz e.now).inst E = e.now := Dt.inst_ofInst tz _ (hE.lawful tz)
  rw [he, hg] at hn
  simp only [Trig.next, Option.map_none, cronNext] at hn
  obtain ⟨z, hz⟩ := hE (g.zone tz)
  have hfrom : ∀ u, Cron.searchFrom E g tz none (Dt.ofInst E tz e.now) ≤ u ↔
      e.now ≤ u ∧ ∀ st, g.start = some st → (st.withTz (g.zone tz)).inst E ≤ u := by
    intro u
    simp only [Cron.searchFrom, hnow]
    cases hst : g.start with
    | none => simp
    | some st =>
      simp only [Option.some.injEq, forall_eq']
      omega
  have hcal' : ∀ u, e.now ≤ u → 0 ≤ ((E (g.zone tz)).loc u).1 := by
    intro u hu
    rw [hz] at hcal ⊢
    simp only [Zone.fixed] at hcal ⊢
    omega
  have hstart : 0 ≤ (Cron.startOf E g tz none (Dt.ofInst E tz e.now)).wall := by
    rw [wall_fixed (Cron.startOf_tz E g tz none (Dt.ofInst E tz e.now)) hz, Cron.startOf_inst hE]
    exact hcal' _ ((hfrom _).mp (Int.le_refl _)).1
  obtain ⟨x, hx⟩ := cron_total g hwf tz (hE.lawful _) none (Dt.ofInst E tz e.now) (draw 2) hstart
  rw [hx] at hn
  simp only at hn
  rcases Cron.C17_C18_cron_first_match_partial hE g hwf hj tz none (Dt.ofInst E tz e.now) (draw 2) cronFuel hstart x hx with
    ⟨r, hr, hin, hf1, hf2, hf3⟩ | ⟨hr, hno⟩
  · subst hr
    simp only [toInst, Option.map_some, Except.ok.injEq] at hn
    subst hn
    have hr2 := (hfrom _).mp hf2
    obtain ⟨h1, h2, h3⟩ := C83_cron hE tz L c t.body.store t.id s1 s' hw1
      { t with nrt := some (r.inst E), body := { t.body with pending := false } } hent g hg hwf hj hco (r.inst E) rfl
      (hcal' _ hr2.1) passes T hT h
    refine ⟨h1, fun u => ?_, h3⟩
    rw [h2]
    constructor
    · rintro ⟨hu, rfl | ⟨hu1, hu2, hu3⟩⟩
      · exact ⟨hf1, hr2.1, hr2.2, hu, hin⟩
      · exact ⟨hu2, by omega, fun st hst => by have := hr2.2 st hst; omega, hu, hu3⟩
    · rintro ⟨hu1, hu2, hu3, hu4, hu5⟩
      have := hf3 u hu1 ((hfrom u).mpr ⟨hu2, hu3⟩)
      refine ⟨hu4, ?_⟩
      rcases Int.lt_or_eq_of_le this with h | h
      · exact .inr ⟨h, hu1, hu5⟩
      · exact .inl h.symm
  · rcases hr with rfl | ⟨y, rfl⟩
    · simp only [toInst, Option.map_none, Except.ok.injEq] at hn
      subst hn
      have hnil := reported_nil (h.idle hw1 (fun t' ht' => by rw [hent] at ht'; cases ht'; rfl))
      rw [hnil.1, hnil.2]
      refine ⟨.nil, fun u => ?_, fun _ => rfl⟩
      constructor
      · intro hu; cases hu
      · rintro ⟨hu1, hu2, hu3, hu4, hu5⟩
        exact absurd hu5 (hno u hu1 ((hfrom u).mpr ⟨hu2, hu3⟩))
    · cases hn

/-- **C84** (date triggers), in every zone and with or without coalescing: the run date is reported exactly once as soon as a pass
comes at or after it, and the task is gone then. -/
theorem C84_date (tz : Nat) (hE : (E tz).Lawful) (L : LawfulStore O) (c : Cfg Trig) (e : Env Trig)
    (he : ∃ draw, e.next = Trig.next E tz draw) (s1 s' : State σ Trig φ) (t : T Trig φ)
    (ht : t.nrt = none) (g : DateTrig) (hg : t.body.trigger = .date g) (hb : Begins L c e t s1) (passes : List (Int × List Obs)) (T : Int) (hT : Latest passes T)
    (h : Served L c (fun e => ∃ draw, e.next = Trig.next E tz draw) t.body.store t.id t.body.executor s1 passes s') :
    reported t.body.store t.id passes = (if g.runAt.inst E ≤ T then [g.runAt.inst E] else []) ∧
    (entry O s' t.body.store t.id = none ↔ g.runAt.inst E ≤ T) ∧
    (NeverFull t.body.store t.id passes → executed t.body.store t.id passes = reported t.body.store t.id passes) := by
  obtain ⟨n, hn, hw1, hent⟩ := hb.first ht
  obtain ⟨draw, he⟩ := he
  rw [he, hg] at hn
  simp only [Trig.next, Option.map_none, toInst, DateTrig.next, Option.map_some, Except.ok.injEq] at hn
  have hast : (Dt.astimezone E tz g.runAt).inst E = g.runAt.inst E := by
    simp only [Dt.astimezone]
    split
    · rfl
    · exact Dt.inst_ofInst tz _ hE
  rw [hast] at hn
  subst hn
  generalize hd : g.runAt.inst E = d at hent ⊢
  obtain ⟨gs, after, k1, k2, k3, k4, k5, k6, k7⟩ := C83_none_lost (ans := fun _ => .ok none) L c t.body.store t.id s1 s' hw1
    _ hent d rfl d (Int.le_refl _) (fun p r _ hr => by cases hr) passes (h.mono (fun e he site p _ _ => by
      obtain ⟨draw, he⟩ := he
      show e.next site t.body.trigger (some p) e.now = _
      rw [he, hg]; rfl))
  dsimp only at k5 k6
  have hh : ∀ co : Bool, handed co [d] = [d] := by intro co; cases co <;> rfl
  generalize hl : gs.flatMap (·.2) = l at *
  have hgs0 : l = [] → gs = [] := by
    intro h0
    subst h0
    cases gs with
    | nil => rfl
    | cons x gs =>
      simp only [List.flatMap_cons, List.append_eq_nil_iff] at hl
      exact absurd hl.1 (k7 x (by simp))
  cases k1 with
  | nil =>
    have := hgs0 rfl
    subst this
    simp only [List.filter_nil, List.map_nil] at k5 k6
    obtain ⟨r1, r2⟩ := reported_nil ⟨k5, k6⟩
    obtain ⟨p, hp, hpT⟩ := hT.1
    have := k3 p hp d rfl
    rw [r1, r2, if_neg (by omega), k2]
    exact ⟨rfl, ⟨fun h => (by cases h), fun h => (by omega)⟩, fun _ => rfl⟩
  | cons ha hr =>
    cases ha
    cases hr with
    | nil =>
      have hgs : ∃ ok, gs = [(ok, [d])] := by
        cases gs with
        | nil => cases hl
        | cons x gs =>
          have hx := k7 x (by simp)
          obtain ⟨ok, lx⟩ := x
          cases lx with
          | nil => exact absurd rfl hx
          | cons y lx =>
            simp only [List.flatMap_cons, List.cons_append, List.cons.injEq, List.append_eq_nil_iff] at hl
            obtain ⟨rfl, rfl, h3⟩ := hl
            cases gs with
            | nil => exact ⟨ok, rfl⟩
            | cons z gs =>
              simp only [List.flatMap_cons, List.append_eq_nil_iff] at h3
              exact absurd h3.1 (k7 z (by simp))
      obtain ⟨ok, rfl⟩ := hgs
      obtain ⟨p, hp, hpd⟩ := k4 d (by simp)
      have hle : d ≤ T := Int.le_trans hpd (hT.2 p hp)
      have e1 : reported t.body.store t.id passes = (passes.flatMap (fun p => submissionEvents t.body.store t.id p.2)).flatMap timesOf := by
        simp only [reported, List.flatMap_assoc]
      have e2 : executed t.body.store t.id passes = (passes.flatMap (fun p => sends t.body.store t.id p.2)).flatMap (·.2) := by
        rw [List.flatMap_assoc]; rfl
      have e3 : reported t.body.store t.id passes = [d] := by
        rw [e1, k5]
        cases ok <;> simp [report, timesOf, hh]
      rw [e3, if_pos hle, k2]
      refine ⟨rfl, ⟨fun _ => hle, fun _ => rfl⟩, fun hn => ?_⟩
      cases ok with
      | true => rw [e2, k6]; simp [hh]
      | false =>
        have : report t.body.store t.id t.body.coalesce (false, [d]) ∈ passes.flatMap (fun p => submissionEvents t.body.store t.id p.2) := by
          rw [k5]; simp
        obtain ⟨p, hp, hm⟩ := List.mem_flatMap.mp this
        have hm := (List.mem_filter.mp hm).1
        simp only [report] at hm
        exact absurd hm (hn p hp _ _ _)

/-! ## Examples -/

/-- the fields of `CronTrigger(second=30)` -/
def exHalf : Cron.FieldName → List Cron.Expr
  | .second => [.range 30 (some 30) none]
  | _ => [.all none]

/-- a time of 2021-03-28, in seconds after midnight -/
def day (n : Int) : Int := Cron.mar28 0 0 0 + secs n

/-- every 10 s beginning at 3 s; every minute at second 30 (a cron trigger); once at 20 s -/
def exThree : Adds Trig Unit :=
  [(⟨"tick", none, ⟨.interval { exEvery with start := ⟨day 3, false, none⟩ }, "default", "default", false, 3, none, false, ()⟩⟩, none, false),
   (⟨"half", none, ⟨.cron ⟨exHalf, none, none, none, none⟩, "default", "default", false, 3, none, false, ()⟩⟩, none, false),
   (⟨"once", none, ⟨.date ⟨⟨day 20, false, 0⟩⟩, "default", "default", true, 3, none, false, ()⟩⟩, none, false)]

/-- the three tasks are added to a stopped scheduler, which is started at 7 s; passes at the times given -/
def exScheduled (c : Cfg Trig) (l : List Int) (i : String) : Option (List Int × List Int × Option (Option Int)) :=
  let r := start Memory.ops c (envAt exEnv 0 (day 7)) false (addAll Memory.ops (envAt exEnv 0 (day 0)) exThree State.init)
  if r.2 = .ok true then (exPasses exEnv c "default" l r.1).map fun p =>
    (reported "default" i p.1, executed "default" i p.1, (entry Memory.ops p.2 "default" i).map (·.nrt))
  else none

example : exThree.Pairwise (fun p q => ¬ (p.1.body.store = q.1.body.store ∧ p.1.id = q.1.id)) ∧
    (State.init : State (Memory.Store (Body Trig Unit)) Trig Unit).mode = .stopped ∧
    ∀ p ∈ exThree, entry Memory.ops (State.init : State (Memory.Store (Body Trig Unit)) Trig Unit) p.1.body.store p.1.id = none := by
  decide

-- `Begins.started` and `exPasses_served` make these the hypotheses of C84
example : exScheduled exTrigCfg [day 8, day 40, day 41, day 95] "tick" =
      some ([day 13, day 23, day 33, day 43, day 53, day 63, day 73, day 83, day 93],
        [day 13, day 23, day 33, day 43, day 53, day 63, day 73, day 83, day 93], some (some (day 103))) ∧
    exScheduled exTrigCfg [day 8, day 40, day 41, day 95] "half" = some ([day 30, day 90], [day 30, day 90], some (some (day 150))) ∧
    exScheduled exTrigCfg [day 8, day 40, day 41, day 95] "once" = some ([day 20], [day 20], none) ∧
    exScheduled exTrigCfg [day 8] "once" = some ([], [], some (some (day 20))) := by
  refine ⟨?_, ?_, ?_, ?_⟩ <;> decide +kernel

/-- With a lock path the first runs are put off until the startup delay has passed, and an interval task never comes back to its
grid: started at 7 s with a delay of 8 s, the task of the grid 3, 13, 23, ... runs at 15, 25, 35, ... -/
theorem C84_startup_delay_witness :
    exScheduled ⟨true, 10, secs 8, 4000000, fun _ => false, 0⟩ [day 8, day 40] "tick" =
      some ([day 15, day 25, day 35], [day 15, day 25, day 35], some (some (day 45))) := by decide +kernel

end Sched
end Asyncz
