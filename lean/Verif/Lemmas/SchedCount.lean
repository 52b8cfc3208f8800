import Verif.Lemmas.SchedPass
/-! # Counting submissions, and completion of a pass -/
namespace Asyncz
namespace Sched
variable {σ τ φ : Type} {O : StoreOps σ (Body τ φ)}

theorem sends_append (a i : String) (l l' : List Obs) : sends a i (l ++ l') = sends a i l ++ sends a i l' := by
  induction l with
  | nil => rfl
  | cons o l ih =>
    cases o <;> simp [sends, ih]
    split <;> simp

theorem sendCount_append (i : String) (l l' : List Obs) :
    sendCount i (l ++ l') = sendCount i l + sendCount i l' := by
  induction l with
  | nil => simp [sendCount]
  | cons o l ih =>
    cases o <;> simp [sendCount, ih]
    split <;> omega

theorem sends_filter (a i : String) (l : List Obs) : sends a i (l.filter (concerns a i)) = sends a i l := by
  induction l with
  | nil => rfl
  | cons o l ih =>
    by_cases h : concerns a i o = true
    · rw [List.filter_cons_of_pos h]
      cases o <;> simp_all [sends, concerns]
    · rw [List.filter_cons_of_neg h, ih]
      cases o <;> simp [sends]
      simp only [concerns, Bool.and_eq_true, beq_iff_eq] at h
      exact fun h1 h2 => h ⟨h1, h2⟩

theorem submissionEvents_filter (a i : String) (l : List Obs) :
    submissionEvents a i (l.filter (concerns a i)) = submissionEvents a i l := by
  simp only [submissionEvents, List.filter_filter]
  congr 1
  funext o
  cases o <;> simp [concerns]

theorem submissionEvents_append (a i : String) (l l' : List Obs) :
    submissionEvents a i (l ++ l') = submissionEvents a i l ++ submissionEvents a i l' := by
  simp [submissionEvents]

/-- the number of running instances minus the number of submissions so far -/
def balance (s : State σ τ φ) (i : String) : Int := count s i - (sendCount i s.log : Int)

theorem balance_sendTask (e : Env τ) (ex a : String) (t : T τ φ) (times : List Int) (s : State σ τ φ)
    (i : String) : balance (sendTask e ex a t times s).1 i = balance s i := by
  obtain ⟨ins, new, h1, h2, h3, h4⟩ := sendTask_spec e ex a t times s
  rw [h1]
  simp only [balance, count, sendCount_append]
  by_cases hi : i = t.id
  · subst hi
    rcases h4 with ⟨_, rfl, _, _, h⟩ | ⟨_, rfl, _, h⟩ | ⟨_, rfl, _, h⟩ <;> simp [sendCount, h] <;> omega
  · rw [h2 i hi]
    have : sendCount i new = 0 := by
      rcases h4 with ⟨_, rfl, _⟩ | ⟨_, rfl, _⟩ | ⟨_, rfl, _⟩ <;> simp [sendCount]
      exact fun h => hi h.symm
    rw [this]; simp

theorem balance_deleteTask (id : String) (store : Option String) (s : State σ τ φ) (i : String) :
    balance (deleteTask O id store s).1 i = balance s i := by
  simp only [deleteTask]
  split
  · split <;> simp [balance, count, State.emit, sendCount_append, sendCount]
  · split <;> simp [balance, count, State.emit, sendCount_append, sendCount]

theorem balance_reschedule (e : Env τ) (a : String) (t : T τ φ) (last : Int) (s : State σ τ φ) (i : String) :
    balance (reschedule O e a t last s).1 i = balance s i := by
  simp only [reschedule]
  split
  · rfl
  · split
    · rfl
    · split <;> rfl
  · exact balance_deleteTask _ _ _ _

theorem balance_processTask {e : Env τ} {fuel : Nat} {a : String} {t : T τ φ} {s s' : State σ τ φ}
    {r : Except Err (List Obs)} (h : processTask O e fuel a t s = some (s', r)) (i : String) :
    balance s' i = balance s i ∧ ∀ evs, r = .ok evs → sendCount i evs = 0 := by
  simp only [processTask] at h
  split at h
  · split at h <;> rename_i hd <;> simp only [Option.some.injEq, Prod.mk.injEq] at h <;>
      obtain ⟨rfl, rfl⟩ := h
    · refine ⟨?_, fun evs he => by cases he; rfl⟩
      rw [← balance_deleteTask (O := O) t.id (some a) s i, hd]
    · refine ⟨?_, fun evs he => by cases he⟩
      rw [← balance_deleteTask (O := O) t.id (some a) s i, hd]
  · split at h
    · cases h
    · cases h; exact ⟨rfl, fun evs he => by cases he⟩
    · split at h
      · cases h; exact ⟨rfl, fun evs he => by cases he; rfl⟩
      · rename_i all _ _ last hlast
        split at h <;> rename_i hd <;> simp only [Option.some.injEq, Prod.mk.injEq] at h <;>
          obtain ⟨rfl, rfl⟩ := h
        · refine ⟨?_, fun evs he => ?_⟩
          · have := balance_reschedule (O := O) e a t last
              (sendTask e t.body.executor a t (coalesce t.body.coalesce all).1 s).1 i
            rw [hd] at this
            rw [this, balance_sendTask]
          · cases he
            generalize (sendTask e t.body.executor a t _ s).2 = x
            cases x <;> simp [sendEvents, sendCount]
        · refine ⟨?_, fun evs he => by cases he⟩
          have := balance_reschedule (O := O) e a t last
            (sendTask e t.body.executor a t (coalesce t.body.coalesce all).1 s).1 i
          rw [hd] at this
          rw [this, balance_sendTask]

theorem balance_processDue {e : Env τ} {fuel : Nat} {a : String} {ts : List (T τ φ)} {s s' : State σ τ φ}
    {r : Except Err (List Obs)} (h : processDue O e fuel a ts s = some (s', r)) (i : String) :
    balance s' i = balance s i ∧ ∀ evs, r = .ok evs → sendCount i evs = 0 := by
  induction ts generalizing s r with
  | nil => simp only [processDue] at h; cases h; exact ⟨rfl, fun evs he => by cases he; rfl⟩
  | cons t ts ih =>
    simp only [processDue] at h
    split at h
    · cases h
    · rename_i s1 x h1
      cases h
      exact ⟨(balance_processTask h1 i).1, fun evs he => by cases he⟩
    · rename_i s1 evs1 h1
      have b1 := balance_processTask h1 i
      split at h
      · cases h
      · rename_i s2 x h2
        cases h
        exact ⟨by rw [(ih h2).1, b1.1], fun evs he => by cases he⟩
      · rename_i s2 evs2 h2
        cases h
        have b2 := ih h2
        refine ⟨by rw [b2.1, b1.1], fun evs he => ?_⟩
        cases he
        rw [sendCount_append, b1.2 _ rfl, b2.2 _ rfl]

theorem balance_processStore {c : Cfg τ} {e : Env τ} {fuel : Nat} {a : String} {w : Option Int} {s s' : State σ τ φ}
    {r : Except Err (List Obs × Option Int)} (h : processStore O c e fuel a w s = some (s', r)) (i : String) :
    balance s' i = balance s i ∧ ∀ x, r = .ok x → sendCount i x.1 = 0 := by
  simp only [processStore] at h
  split at h
  · cases h; exact ⟨rfl, fun x hx => by cases hx; rfl⟩
  · split at h
    · split at h
      · cases h
      · rename_i h1
        cases h
        exact ⟨(balance_processDue h1 i).1, fun evs he => by cases he⟩
      · rename_i h1
        cases h
        exact ⟨(balance_processDue h1 i).1, fun evs he => by cases he; exact (balance_processDue h1 i).2 _ rfl⟩
    · cases h; exact ⟨rfl, fun x hx => by cases hx; rfl⟩

theorem balance_processStores {c : Cfg τ} {e : Env τ} {fuel : Nat} {as : List String} {w : Option Int}
    {s s' : State σ τ φ} {r : Except Err (List Obs × Option Int)}
    (h : processStores O c e fuel as w s = some (s', r)) (i : String) :
    balance s' i = balance s i ∧ ∀ x, r = .ok x → sendCount i x.1 = 0 := by
  induction as generalizing s r w with
  | nil => simp only [processStores] at h; cases h; exact ⟨rfl, fun evs he => by cases he; rfl⟩
  | cons a as ih =>
    simp only [processStores] at h
    split at h
    · cases h
    · rename_i s1 x h1
      cases h
      exact ⟨(balance_processStore h1 i).1, fun evs he => by cases he⟩
    · rename_i s1 evs1 h1
      have b1 := balance_processStore h1 i
      split at h
      · cases h
      · rename_i s2 x h2
        cases h
        exact ⟨by rw [(ih h2).1, b1.1], fun evs he => by cases he⟩
      · rename_i s2 evs2 h2
        cases h
        have b2 := ih h2
        refine ⟨by rw [b2.1, b1.1], fun evs he => ?_⟩
        cases he
        rw [sendCount_append, b1.2 _ rfl, b2.2 _ rfl]

/-- in a pass the number of running instances grows by the number of submissions -/
theorem balance_processTasks {c : Cfg τ} {e : Env τ} {fuel : Nat} {s s' : State σ τ φ}
    {r : Except Err (Option Int)} (h : processTasks O c e fuel s = some (s', r)) (i : String) :
    balance s' i = balance s i := by
  simp only [processTasks] at h
  split at h
  · cases h; rfl
  · split at h
    · split at h
      · cases h
      · rename_i h1; cases h; exact (balance_processStores h1 i).1
      · rename_i h1
        cases h
        have := balance_processStores h1 i
        rw [← this.1]
        simp only [balance, count, sendCount_append, this.2 _ rfl]
        simp
    · cases h; rfl

/-! ## Completion -/

theorem runTimes_ok {e : Env τ} {g : τ}
    (hok : ∀ p, p ≤ e.now → ∃ n, e.next 0 g (some p) e.now = .ok n)
    (ha : ∀ p r, p ≤ e.now → e.next 0 g (some p) e.now = .ok (some r) → p < r) (fuel : Nat) (first : Option Int)
    (hf : ∀ r, first = some r → e.now - r + 2 ≤ fuel ∧ 1 ≤ fuel) : ∃ l, runTimes e g fuel first = some (.ok l) := by
  induction fuel generalizing first with
  | zero => cases first with
    | none => exact ⟨_, rfl⟩
    | some r => have := hf r rfl; omega
  | succ n ih => cases first with
    | none => exact ⟨_, rfl⟩
    | some r =>
      rw [runTimes]
      split
      · rename_i hr
        obtain ⟨nx, hn⟩ := hok r hr
        have h1 := (hf r rfl).1
        obtain ⟨l, hl⟩ := ih nx (fun q hq => by
          subst hq; have := ha r q hr hn; constructor <;> omega)
        rw [hn]
        simp only [hl]
        exact ⟨_, rfl⟩
      · exact ⟨_, rfl⟩

/-- what is assumed of the triggers for a pass to complete -/
structure GoodTriggers (e : Env τ) : Prop where
  ok : ∀ site g p, p ≤ e.now → ∃ n, e.next site g (some p) e.now = .ok n
  advancing : ∀ site g p r, p ≤ e.now → e.next site g (some p) e.now = .ok (some r) → p < r

theorem processTask_completes (L : LawfulStore O) {e : Env τ} (hg : GoodTriggers e) {fuel : Nat} {alias : String}
    {t : T τ φ} {s : State σ τ φ} {st : σ} (hw : WF L s) (hm : s.mode ≠ .stopped)
    (hst : s.stores.get? alias = some st) (ht : L.toMap st t.id = some t)
    (hf : ∀ r, t.nrt = some r → e.now - r + 2 ≤ fuel ∧ 1 ≤ fuel) :
    ∃ s' evs, processTask O e fuel alias t s = some (s', .ok evs) := by
  have hi := hw.inv _ _ hst
  simp only [processTask]
  split
  · rw [deleteTask_some L hw hm hst ht]; exact ⟨_, _, rfl⟩
  · obtain ⟨l, hl⟩ := runTimes_ok (g := t.body.trigger) (hg.ok 0 _) (hg.advancing 0 _) fuel t.nrt hf
    rw [hl]
    simp only []
    split
    · exact ⟨_, _, rfl⟩
    · rename_i last hlast
      obtain ⟨ins, new, hs1, _⟩ := sendTask_spec e t.body.executor alias t (coalesce t.body.coalesce l).1 s
      have hle : last ≤ e.now := by
        have h1 := (runTimes_cons hl).1
        have : last ∈ (coalesce t.body.coalesce l).1 := List.mem_of_getLast? hlast
        simp only [coalesce] at this
        split at this
        · simp only [Option.mem_toList] at this
          exact h1 _ (List.mem_of_getLast? this)
        · exact h1 _ this
      obtain ⟨n, hn⟩ := hg.ok 1 t.body.trigger last hle
      have key : ∃ s', reschedule O e alias t last
          (sendTask e t.body.executor alias t (coalesce t.body.coalesce l).1 s).1 = (s', .ok ()) := by
        simp only [reschedule, hn]
        cases n with
        | none =>
          simp only []
          have hw1 : WF L (sendTask e t.body.executor alias t (coalesce t.body.coalesce l).1 s).1 := by
            rw [hs1]; exact ⟨hw.keys, hw.inv⟩
          rw [deleteTask_some L hw1 (by rw [hs1]; exact hm) (st := st) (by rw [hs1]; exact hst) ht]
          exact ⟨_, rfl⟩
        | some n =>
          simp only [hs1, hst]
          have ht' : L.toMap st ({ t with nrt := some n } : T τ φ).id = some t := ht
          have hup := (L.update_ok hi ht').1
          generalize hr : O.step st (.update { t with nrt := some n }) = r at hup
          obtain ⟨st', res⟩ := r
          simp only at hup
          subst hup
          exact ⟨_, rfl⟩
      obtain ⟨s', hs'⟩ := key
      rw [hs']
      exact ⟨_, _, rfl⟩

theorem processDue_completes (L : LawfulStore O) {e : Env τ} (hg : GoodTriggers e) {fuel : Nat} {alias : String}
    {ts : List (T τ φ)} {s : State σ τ φ} {st : σ} (hw : WF L s) (hm : s.mode ≠ .stopped)
    (hst : s.stores.get? alias = some st) (ht : ∀ t ∈ ts, L.toMap st t.id = some t) (hd : (ts.map Task.id).Nodup)
    (hf : ∀ t ∈ ts, ∀ r, t.nrt = some r → e.now - r + 2 ≤ fuel ∧ 1 ≤ fuel) :
    ∃ s' evs, processDue O e fuel alias ts s = some (s', .ok evs) := by
  induction ts generalizing s st with
  | nil => exact ⟨_, _, rfl⟩
  | cons t ts ih =>
    simp only [List.map_cons, List.nodup_cons] at hd
    obtain ⟨s1, evs1, h1⟩ := processTask_completes L hg hw hm hst (ht t (List.mem_cons_self ..))
      (hf t (List.mem_cons_self ..))
    obtain ⟨st1, new1, a1, a2, a3, a4, a5, a6, a7⟩ :=
      processTask_spec L hw hm hst (ht t (List.mem_cons_self ..)) h1
    have hg1 : s1.stores.get? alias = some st1 := by rw [a1, Dict.get?_set, if_pos rfl]
    have hne : ∀ u ∈ ts, u.id ≠ t.id := fun u hu heq => hd.1 (heq ▸ List.mem_map.2 ⟨u, hu, rfl⟩)
    obtain ⟨s2, evs2, h2⟩ := ih (hw.set a2 a1) (by rw [a4.mode]; exact hm) hg1
      (fun u hu => by rw [a5 _ (hne u hu)]; exact ht u (List.mem_cons_of_mem _ hu)) hd.2
      (fun u hu => hf u (List.mem_cons_of_mem _ hu))
    exact ⟨s2, evs1 ++ evs2, by simp only [processDue, h1, h2]⟩

theorem due_nodup (L : LawfulStore O) {st : σ} (hi : L.Inv st) (now : Int) :
    (∀ t ∈ O.due st now, L.toMap st t.id = some t ∧ Due now t) ∧ ((O.due st now).map Task.id).Nodup := by
  have hdue := L.due hi now
  have hmem : ∀ t ∈ O.due st now, L.toMap st t.id = some t ∧ Due now t := fun t ht => (hdue.2 t).1 ht
  refine ⟨hmem, ?_⟩
  have := hdue.1
  generalize O.due st now = l at this hmem
  induction l with
  | nil => simp
  | cons t l ih =>
    simp only [List.nodup_cons, List.map_cons] at this ⊢
    refine ⟨fun hx => ?_, ih this.2 (fun u hu => hmem u (List.mem_cons_of_mem _ hu))⟩
    obtain ⟨u, hu, he⟩ := List.mem_map.1 hx
    have x1 := (hmem u (List.mem_cons_of_mem _ hu)).1
    have x2 := (hmem t (List.mem_cons_self ..)).1
    rw [he, x2] at x1
    cases x1
    exact this.1 hu

theorem processStores_completes (L : LawfulStore O) {c : Cfg τ} {e : Env τ} (hg : GoodTriggers e) {fuel : Nat}
    {as : List String} {wake : Option Int} {s : State σ τ φ} (hw : WF L s) (hm : s.mode ≠ .stopped)
    (has : ∀ a ∈ as, ∃ st, s.stores.get? a = some st) (hnd : as.Nodup)
    (hf : ∀ a ∈ as, ∀ st, s.stores.get? a = some st → ∀ i t r, L.toMap st i = some t → t.nrt = some r →
      e.now - r + 2 ≤ fuel ∧ 1 ≤ fuel) :
    ∃ s' x, processStores O c e fuel as wake s = some (s', .ok x) := by
  induction as generalizing s wake with
  | nil => exact ⟨_, _, rfl⟩
  | cons a as ih =>
    obtain ⟨st, hst⟩ := has a (List.mem_cons_self ..)
    simp only [List.nodup_cons] at hnd
    have hi := hw.inv _ _ hst
    have hd := due_nodup L hi e.now
    have key : ∃ s1 x, processStore O c e fuel a wake s = some (s1, .ok x) := by
      simp only [processStore, hst]
      split
      · obtain ⟨s1, evs, h1⟩ := processDue_completes L hg hw hm hst (fun t ht => (hd.1 t ht).1) hd.2
          (fun t ht r hr => hf a (List.mem_cons_self ..) st hst t.id t r (hd.1 t ht).1 hr)
        rw [h1]; exact ⟨_, _, rfl⟩
      · exact ⟨_, _, rfl⟩
    obtain ⟨s1, ⟨evs1, w1⟩, h1⟩ := key
    obtain ⟨st1, new1, a1, a2, a3, a4, _⟩ := processStore_spec L hw hm hst h1
    have hget : ∀ b ∈ as, s1.stores.get? b = s.stores.get? b := fun b hb => by
      rw [a1, Dict.get?_set, if_neg (fun h : b = a => hnd.1 (h ▸ hb))]
    obtain ⟨s2, x, h2⟩ := ih (wake := w1) (s := s1) (hw.set a2 a1) (by rw [a4.mode]; exact hm)
      (fun b hb => by rw [hget b hb]; exact has b (List.mem_cons_of_mem _ hb)) hnd.2
      (fun b hb stb hsb => hf b (List.mem_cons_of_mem _ hb) stb (by rw [← hget b hb]; exact hsb))
    exact ⟨s2, _, by simp only [processStores, h1, h2]; rfl⟩

/-- There are finitely many tasks: some number of rounds is enough for all of them. -/
theorem fuel_exists (L : LawfulStore O) {s : State σ τ φ} (hw : WF L s) (now : Int) :
    ∃ n : Nat, ∀ a st, s.stores.get? a = some st → ∀ i t r, L.toMap st i = some t → t.nrt = some r →
      now - r + 2 ≤ n ∧ 1 ≤ n := by
  have lists : ∀ l : List (T τ φ), ∃ n : Nat, ∀ t ∈ l, ∀ r, t.nrt = some r → now - r + 2 ≤ n ∧ 1 ≤ n := by
    intro l
    induction l with
    | nil => exact ⟨0, by simp⟩
    | cons t l ih =>
      obtain ⟨n, hn⟩ := ih
      refine ⟨n + 1 + (now - t.nrt.getD 0 + 2).toNat, fun u hu r hr => ?_⟩
      rcases List.mem_cons.1 hu with rfl | hu
      · rw [hr]; simp only [Option.getD_some]; omega
      · have := hn u hu r hr; omega
  obtain ⟨n, hn⟩ := lists (s.stores.flatMap fun p => O.all p.2)
  refine ⟨n, fun a st hst i t r ht hr => hn t ?_ r hr⟩
  rw [List.mem_flatMap]
  refine ⟨(a, st), Dict.mem_of_get? hst, ?_⟩
  have hi := hw.inv _ _ hst
  refine ((L.all hi).2 t).2 ⟨?_, trivial⟩
  rw [L.key hi ht]; exact ht

theorem processTasks_completes (L : LawfulStore O) {c : Cfg τ} {e : Env τ} (hg : GoodTriggers e)
    {s : State σ τ φ} (hw : WF L s) (hm : s.mode ≠ .stopped) :
    ∃ n, ∀ fuel, n ≤ fuel → ∃ s' w, processTasks O c e fuel s = some (s', .ok w) := by
  obtain ⟨n, hn⟩ := fuel_exists L hw e.now
  refine ⟨n, fun fuel hle => ?_⟩
  simp only [processTasks]
  split
  · exact ⟨_, _, rfl⟩
  · split
    · obtain ⟨s', x, h⟩ := processStores_completes (c := c) (wake := none) L hg (fuel := fuel) hw hm
        (as := s.stores.keys)
        (fun a ha => by
          cases hg : s.stores.get? a with
          | none => exact absurd ha ((Dict.get?_eq_none _ _).1 hg)
          | some st => exact ⟨st, rfl⟩) hw.keys
        (fun a _ st hst i t r ht hr => by have := hn a st hst i t r ht hr; constructor <;> omega)
      rw [h]; exact ⟨_, _, rfl⟩
    · exact ⟨_, _, rfl⟩

end Sched
end Asyncz
