import Verif.Lemmas.Sched
/-! # A processing pass -/
namespace Asyncz
namespace Sched
variable {σ τ φ : Type} {O : StoreOps σ (Body τ φ)}

theorem deleteInStores_some {id a : String} {stores : Dict String σ} (hw : stores.WF) {st : σ}
    (hg : stores.get? a = some st) :
    deleteInStores O id (some a) stores =
      (stores.set a (O.step st (.delete id)).1,
        if (O.step st (.delete id)).2 = .ok then some a else none) := by
  have hno : ∀ rest : Dict String σ, a ∉ rest.map Prod.fst →
      deleteInStores O id (some a) rest = (rest, none) := by
    intro rest
    induction rest with
    | nil => intro _; rfl
    | cons p rest ih =>
      intro h
      obtain ⟨b, sb⟩ := p
      simp only [List.map_cons, List.mem_cons, not_or] at h
      simp only [deleteInStores]
      rw [if_neg (by simp; exact h.1), ih h.2]
  induction stores with
  | nil => simp [Dict.get?] at hg
  | cons p rest ih =>
    obtain ⟨b, sb⟩ := p
    simp only [Dict.WF, List.map_cons, List.nodup_cons] at hw
    simp only [Dict.get?] at hg
    simp only [deleteInStores, Dict.set]
    by_cases hb : b = a
    · subst hb
      simp only [if_true, Option.some.injEq] at hg
      subst hg
      simp only [or_true, if_true]
      cases hr : O.step sb (.delete id) with
      | mk st' r =>
        cases r with
        | ok => simp
        | conflict _ => simp [hno rest hw.1]
        | notFound _ => simp [hno rest hw.1]
    · simp only [hb, if_false] at hg
      have hb' : ¬ a = b := fun h => hb h.symm
      simp only [Option.some.injEq, hb', hb, if_false, reduceCtorEq, or_self, ih hw.2 hg]

/-- `delete_task(id, alias)` on a scheduler that is not stopped -/
theorem deleteTask_some (L : LawfulStore O) {s : State σ τ φ} (hw : WF L s) (hm : s.mode ≠ .stopped)
    {id a : String} {st : σ} (hg : s.stores.get? a = some st) {t : T τ φ} (ht : L.toMap st id = some t) :
    deleteTask O id (some a) s =
      (({ s with stores := s.stores.set a (O.step st (.delete id)).1 } : State σ τ φ).emit
        (.taskRemoved id a), .ok ()) := by
  have h1 := (L.delete_ok (hw.inv _ _ hg) ht).1
  simp only [deleteTask, if_neg hm, deleteInStores_some hw.keys hg, h1, if_true]

/-- What `sendTask` does. -/
theorem sendTask_spec (e : Env τ) (ex a : String) (t : T τ φ) (times : List Int) (s : State σ τ φ) :
    ∃ (ins : Dict String Int) (new : List Obs),
      (sendTask e ex a t times s).1 = { s with instances := ins, log := s.log ++ new } ∧
      (∀ i, i ≠ t.id → ins.get? i = s.instances.get? i) ∧
      (s.instances.get? t.id).getD 0 ≤ (ins.get? t.id).getD 0 ∧
      (((sendTask e ex a t times s).2 = .ok ∧ new = [.send ex t.id a times] ∧ e.sendOk ex t.id = true ∧
          (s.instances.get? t.id).getD 0 < t.body.maxInst ∧
          (ins.get? t.id).getD 0 = (s.instances.get? t.id).getD 0 + 1) ∨
       ((sendTask e ex a t times s).2 = .max ∧ new = [] ∧ t.body.maxInst ≤ (s.instances.get? t.id).getD 0 ∧
          (ins.get? t.id).getD 0 = (s.instances.get? t.id).getD 0) ∨
       ((sendTask e ex a t times s).2 = .failed ∧ new = [] ∧ e.sendOk ex t.id = false ∧
          (ins.get? t.id).getD 0 = (s.instances.get? t.id).getD 0)) := by
  simp only [sendTask]
  split
  · rename_i h
    refine ⟨s.instances.set t.id ((s.instances.get? t.id).getD 0), [], by simp, ?_, ?_, .inr (.inl ⟨rfl, rfl, h, ?_⟩)⟩
    · intro i hi; rw [Dict.get?_set, if_neg hi]
    · rw [Dict.get?_set, if_pos rfl]; simp
    · rw [Dict.get?_set, if_pos rfl]; simp
  · rename_i h
    split
    · rename_i h2
      refine ⟨(s.instances.set t.id ((s.instances.get? t.id).getD 0)).set t.id ((s.instances.get? t.id).getD 0 + 1),
        [.send ex t.id a times], by simp, ?_, ?_, .inl ⟨rfl, rfl, h2, by omega, ?_⟩⟩
      · intro i hi; rw [Dict.get?_set, if_neg hi, Dict.get?_set, if_neg hi]
      · rw [Dict.get?_set, if_pos rfl]; simp; omega
      · rw [Dict.get?_set, if_pos rfl]; simp
    · rename_i h2
      refine ⟨s.instances.set t.id ((s.instances.get? t.id).getD 0), [], by simp, ?_, ?_,
        .inr (.inr ⟨rfl, rfl, by simpa using h2, ?_⟩)⟩
      · intro i hi; rw [Dict.get?_set, if_neg hi]
      · rw [Dict.get?_set, if_pos rfl]; simp
      · rw [Dict.get?_set, if_pos rfl]; simp

/-- What a pass does not touch. -/
structure Frame (s s' : State σ τ φ) : Prop where
  mode : s'.mode = s.mode
  refs : s'.refs = s.refs
  executors : s'.executors = s.executors
  pending : s'.pending = s.pending
  timer : s'.timer = s.timer
  woken : s'.woken = s.woken

theorem Frame.refl (s : State σ τ φ) : Frame s s := ⟨rfl, rfl, rfl, rfl, rfl, rfl⟩
theorem Frame.trans {s s' s'' : State σ τ φ} (h : Frame s s') (h' : Frame s' s'') : Frame s s'' :=
  ⟨by rw [h'.mode, h.mode], by rw [h'.refs, h.refs], by rw [h'.executors, h.executors],
   by rw [h'.pending, h.pending], by rw [h'.timer, h.timer], by rw [h'.woken, h.woken]⟩

/-- What happens to one due task in a pass: the observations `new`, the events `evs` and its new
entry in the store.  `ex` is its executor, `n0`/`n1` the number of its running instances before and
after. -/
inductive Outcome (e : Env τ) (fuel : Nat) (alias : String) (t : T τ φ) (ex : Option Nat) (n0 n1 : Int)
    (new evs : List Obs) : Option (T τ φ) → Prop
  | noExecutor (h : ex = none) (hn : new = [.taskRemoved t.id alias])
      (he : evs = []) (hi : n1 = n0) : Outcome e fuel alias t ex n0 n1 new evs none
  | notDue (h : runTimes e t.body.trigger fuel t.nrt = some (.ok [])) (hn : new = []) (he : evs = [])
      (hi : n1 = n0) (hx : ex.isSome) :
      Outcome e fuel alias t ex n0 n1 new evs (some t)
  | ran {all : List Int} {last : Int} {n : Option Int} {sent removed : List Obs}
      (hx : ex.isSome)
      (hr : runTimes e t.body.trigger fuel t.nrt = some (.ok all))
      (hl : (coalesce t.body.coalesce all).1.getLast? = some last)
      (hn : e.next 1 t.body.trigger (some last) e.now = .ok n)
      (hnew : new = sent ++ removed)
      (hrem : removed = if n = none then [.taskRemoved t.id alias] else [])
      (hsent : (sent = [.send t.body.executor t.id alias (coalesce t.body.coalesce all).1] ∧
          evs = [.taskSubmitted t.id alias (coalesce t.body.coalesce all).1 (coalesce t.body.coalesce all).2 false] ∧
          e.sendOk t.body.executor t.id = true ∧ n0 < t.body.maxInst ∧ n1 = n0 + 1) ∨
        (sent = [] ∧
          evs = [.taskMaxInstances t.id alias (coalesce t.body.coalesce all).1 (coalesce t.body.coalesce all).2 false] ∧
          t.body.maxInst ≤ n0 ∧ n1 = n0) ∨
        (sent = [] ∧ evs = [] ∧ e.sendOk t.body.executor t.id = false ∧ n1 = n0)) :
      Outcome e fuel alias t ex n0 n1 new evs (n.map fun n => { t with nrt := some n })

theorem processTask_spec (L : LawfulStore O) {e : Env τ} {fuel : Nat} {alias : String} {t : T τ φ}
    {s s' : State σ τ φ} {evs : List Obs} {st : σ} (hw : WF L s) (hm : s.mode ≠ .stopped)
    (hg : s.stores.get? alias = some st) (ht : L.toMap st t.id = some t)
    (h : processTask O e fuel alias t s = some (s', .ok evs)) :
    ∃ st' new, s'.stores = s.stores.set alias st' ∧ L.Inv st' ∧ s'.log = s.log ++ new ∧ Frame s s' ∧
      (∀ i, i ≠ t.id → L.toMap st' i = L.toMap st i) ∧
      (∀ i, i ≠ t.id → s'.instances.get? i = s.instances.get? i) ∧
      Outcome e fuel alias t (s.executors.get? t.body.executor) (count s t.id) (count s' t.id) new evs (L.toMap st' t.id) := by
  have hi := hw.inv _ _ hg
  have hdel := L.delete_ok hi ht
  have hdinv := L.step_inv hi (.delete t.id)
  simp only [processTask] at h
  split at h
  · rename_i hx
    rw [deleteTask_some L hw hm hg ht] at h
    simp only [Option.some.injEq, Prod.mk.injEq, Except.ok.injEq] at h
    obtain ⟨rfl, rfl⟩ := h
    refine ⟨_, [.taskRemoved t.id alias], rfl, hdinv, rfl, ⟨rfl, rfl, rfl, rfl, rfl, rfl⟩, ?_, fun _ _ => rfl, ?_⟩
    · intro i hne; rw [hdel.2]; simp [AMap.erase, hne]
    · have : L.toMap (O.step st (.delete t.id)).1 t.id = none := by rw [hdel.2]; simp [AMap.erase]
      rw [this]
      exact .noExecutor hx rfl rfl rfl
  · rename_i x hx
    split at h
    · cases h
    · cases h
    · rename_i all hall
      split at h
      · rename_i hlast
        simp only [Option.some.injEq, Prod.mk.injEq, Except.ok.injEq] at h
        obtain ⟨rfl, rfl⟩ := h
        have h0 : all = [] := by
          simp only [coalesce] at hlast
          cases all with
          | nil => rfl
          | cons a l =>
            split at hlast
            · rename_i hb; exfalso; revert hlast; cases hz : (a :: l).getLast? <;> simp at hz ⊢
            · simp at hlast
        subst h0
        refine ⟨st, [], (Dict.set_get hg).symm, hi, by simp, Frame.refl _, fun _ _ => rfl, fun _ _ => rfl, ?_⟩
        rw [ht]
        exact .notDue hall rfl rfl rfl (by simp [hx])
      · rename_i last hlast
        obtain ⟨ins, new, hs1, hins, hmono, hcases⟩ :=
          sendTask_spec e t.body.executor alias t (coalesce t.body.coalesce all).1 s
        have hw1 : WF L (sendTask e t.body.executor alias t (coalesce t.body.coalesce all).1 s).1 := by
          rw [hs1]; exact ⟨hw.keys, hw.inv⟩
        have hm1 : (sendTask e t.body.executor alias t (coalesce t.body.coalesce all).1 s).1.mode ≠ .stopped := by
          rw [hs1]; exact hm
        have hg1 : (sendTask e t.body.executor alias t (coalesce t.body.coalesce all).1 s).1.stores.get? alias
            = some st := by rw [hs1]; exact hg
        have hsent : ∀ evs, evs = sendEvents t alias (coalesce t.body.coalesce all).1
            (coalesce t.body.coalesce all).2
            (sendTask e t.body.executor alias t (coalesce t.body.coalesce all).1 s).2 →
          (new = [.send t.body.executor t.id alias (coalesce t.body.coalesce all).1] ∧
          evs = [.taskSubmitted t.id alias (coalesce t.body.coalesce all).1 (coalesce t.body.coalesce all).2 false] ∧
          e.sendOk t.body.executor t.id = true ∧ (s.instances.get? t.id).getD 0 < t.body.maxInst ∧
          (ins.get? t.id).getD 0 = (s.instances.get? t.id).getD 0 + 1) ∨
          (new = [] ∧
          evs = [.taskMaxInstances t.id alias (coalesce t.body.coalesce all).1 (coalesce t.body.coalesce all).2 false] ∧
          t.body.maxInst ≤ (s.instances.get? t.id).getD 0 ∧
          (ins.get? t.id).getD 0 = (s.instances.get? t.id).getD 0) ∨
          (new = [] ∧ evs = [] ∧ e.sendOk t.body.executor t.id = false ∧
          (ins.get? t.id).getD 0 = (s.instances.get? t.id).getD 0) := by
          intro evs he
          rcases hcases with ⟨h1, h2, h3, h4, h5⟩ | ⟨h1, h2, h3, h4⟩ | ⟨h1, h2, h3, h4⟩
          · exact .inl ⟨h2, by rw [he, h1]; rfl, h3, h4, h5⟩
          · exact .inr (.inl ⟨h2, by rw [he, h1]; rfl, h3, h4⟩)
          · exact .inr (.inr ⟨h2, by rw [he, h1]; rfl, h3, h4⟩)
        simp only [reschedule] at h
        split at h
        · rename_i hok
          simp only [Option.some.injEq, Prod.mk.injEq, Except.ok.injEq] at h
          obtain ⟨rfl, hevs⟩ := h
          cases hn : e.next 1 t.body.trigger (some last) e.now with
          | error x => rw [hn] at hok; simp at hok
          | ok n =>
            cases n with
            | none =>
              rw [hn] at hok
              simp only [deleteTask_some L hw1 hm1 hg1 ht, Prod.mk.injEq] at hok
              obtain ⟨rfl, _⟩ := hok
              rw [hs1]
              refine ⟨_, new ++ [.taskRemoved t.id alias], rfl, hdinv, by simp [State.emit],
                ⟨rfl, rfl, rfl, rfl, rfl, rfl⟩, ?_, hins, ?_⟩
              · intro i hne; rw [hdel.2]; simp [AMap.erase, hne]
              · have : L.toMap (O.step st (.delete t.id)).1 t.id = (none : Option Int).map
                    (fun n => { t with nrt := some n }) := by rw [hdel.2]; simp [AMap.erase]
                rw [this]
                exact .ran (by simp [hx]) hall hlast hn rfl rfl (hsent _ hevs.symm)
            | some n =>
              rw [hn] at hok
              simp only [hg1] at hok
              have ht' : L.toMap st ({ t with nrt := some n } : T τ φ).id = some t := ht
              have hup := L.update_ok hi ht'
              have hupi := L.step_inv hi (.update { t with nrt := some n })
              generalize hst : O.step st (.update { t with nrt := some n }) = r at hok hup hupi
              obtain ⟨st', res⟩ := r
              simp only at hup
              obtain ⟨rfl, hmap⟩ := hup
              simp only [Prod.mk.injEq] at hok
              obtain ⟨rfl, _⟩ := hok
              rw [hs1]
              refine ⟨st', new, rfl, hupi, by simp [State.setStore],
                ⟨rfl, rfl, rfl, rfl, rfl, rfl⟩, ?_, hins, ?_⟩
              · intro i hne; rw [hmap]; simp [AMap.set, hne]
              · have : L.toMap st' t.id = (some n).map
                    (fun n => { t with nrt := some n }) := by rw [hmap]; simp [AMap.set]
                rw [this]
                exact .ran (sent := new) (removed := []) (by simp [hx]) hall hlast hn (by simp) (by simp) (hsent _ hevs.symm)
        · cases h

theorem Outcome.about {e : Env τ} {fuel : Nat} {a : String} {t : T τ φ} {ex : Option Nat} {n0 n1 : Int}
    {new evs : List Obs} {r : Option (T τ φ)} (h : Outcome e fuel a t ex n0 n1 new evs r) (b i : String) :
    (b = a ∧ i = t.id → new.filter (concerns b i) = new ∧ evs.filter (concerns b i) = evs) ∧
    (¬ (b = a ∧ i = t.id) → new.filter (concerns b i) = [] ∧ evs.filter (concerns b i) = []) := by
  have key : (∀ o ∈ new, concerns b i o = (a == b && t.id == i)) ∧
      (∀ o ∈ evs, concerns b i o = (a == b && t.id == i)) := by
    cases h with
    | noExecutor h hn he hi => subst hn he; simp [concerns]
    | notDue h hn he hi => subst hn he; simp
    | ran hx hr hl hn hnew hrem hsent =>
      subst hnew hrem
      rcases hsent with ⟨h1, h2, _⟩ | ⟨h1, h2, _⟩ | ⟨h1, h2, _⟩ <;> subst h1 h2 <;>
        split <;> simp [concerns]
  constructor
  · rintro ⟨rfl, rfl⟩
    simp only [List.filter_eq_self]
    exact ⟨fun o ho => by simp [key.1 o ho], fun o ho => by simp [key.2 o ho]⟩
  · intro hne
    simp only [List.filter_eq_nil_iff]
    have : (a == b && t.id == i) = false := by
      simp only [Bool.and_eq_false_iff, beq_eq_false_iff_ne]
      by_cases h : b = a
      · exact .inr fun h' => hne ⟨h, h'.symm⟩
      · exact .inl fun h' => h h'.symm
    exact ⟨fun o ho => by simp [key.1 o ho, this], fun o ho => by simp [key.2 o ho, this]⟩

theorem Outcome.le {e : Env τ} {fuel : Nat} {a : String} {t : T τ φ} {ex : Option Nat} {n0 n1 : Int}
    {new evs : List Obs} {r : Option (T τ φ)} (h : Outcome e fuel a t ex n0 n1 new evs r) : n0 ≤ n1 := by
  cases h with
  | noExecutor h hn he hi => omega
  | notDue h hn he hi => omega
  | ran hx hr hl hn hnew hrem hsent => rcases hsent with ⟨_, _, _, _, h⟩ | ⟨_, _, _, h⟩ | ⟨_, _, _, h⟩ <;> omega

theorem processDue_spec (L : LawfulStore O) {e : Env τ} {fuel : Nat} {alias : String} {ts : List (T τ φ)}
    {s s' : State σ τ φ} {evs : List Obs} {st : σ} (hw : WF L s) (hm : s.mode ≠ .stopped)
    (hg : s.stores.get? alias = some st) (ht : ∀ t ∈ ts, L.toMap st t.id = some t)
    (hd : (ts.map Task.id).Nodup) (h : processDue O e fuel alias ts s = some (s', .ok evs)) :
    ∃ st' new, s'.stores = s.stores.set alias st' ∧ L.Inv st' ∧ s'.log = s.log ++ new ∧ Frame s s' ∧
      (∀ i, i ∉ ts.map Task.id → L.toMap st' i = L.toMap st i) ∧
      (∀ i, count s i ≤ count s' i) ∧
      (∀ b i, (b ≠ alias ∨ i ∉ ts.map Task.id) → new.filter (concerns b i) = [] ∧ evs.filter (concerns b i) = []) ∧
      (∀ t ∈ ts, ∃ n0 n1, count s t.id ≤ n0 ∧ n1 ≤ count s' t.id ∧
        Outcome e fuel alias t (s.executors.get? t.body.executor) n0 n1 (new.filter (concerns alias t.id))
          (evs.filter (concerns alias t.id)) (L.toMap st' t.id)) := by
  induction ts generalizing s evs st with
  | nil =>
    simp only [processDue, Option.some.injEq, Prod.mk.injEq, Except.ok.injEq] at h
    obtain ⟨rfl, rfl⟩ := h
    exact ⟨st, [], (Dict.set_get hg).symm, hw.inv _ _ hg, by simp, Frame.refl _, fun _ _ => rfl,
      fun _ => Int.le_refl _, by simp, by simp⟩
  | cons t ts ih =>
    simp only [processDue] at h
    split at h
    · cases h
    · cases h
    · rename_i s1 evs1 h1
      split at h
      · cases h
      · cases h
      · rename_i s2 evs2 h2
        simp only [Option.some.injEq, Prod.mk.injEq, Except.ok.injEq] at h
        obtain ⟨rfl, rfl⟩ := h
        obtain ⟨st1, new1, a1, a2, a3, a4, a5, a6, a7⟩ :=
          processTask_spec L hw hm hg (ht t (List.mem_cons_self ..)) h1
        simp only [List.map_cons, List.nodup_cons] at hd
        have hg1 : s1.stores.get? alias = some st1 := by rw [a1, Dict.get?_set, if_pos rfl]
        have hne : ∀ u ∈ ts, u.id ≠ t.id := fun u hu heq => hd.1 (heq ▸ List.mem_map.2 ⟨u, hu, rfl⟩)
        obtain ⟨st2, new2, b1, b2, b3, b4, b5, b6, b7, b8⟩ :=
          ih (st := st1) (hw.set a2 a1) (by rw [a4.mode]; exact hm) hg1
            (fun u hu => by rw [a5 _ (hne u hu)]; exact ht u (List.mem_cons_of_mem _ hu)) hd.2 h2
        have hc1 : ∀ i, count s i ≤ count s1 i := by
          intro i
          by_cases hi : i = t.id
          · subst hi; exact a7.le
          · simp only [count, a6 i hi]; exact Int.le_refl _
        refine ⟨st2, new1 ++ new2, by rw [b1, a1, Dict.set_set], b2, by rw [b3, a3, List.append_assoc],
          a4.trans b4, ?_, fun i => Int.le_trans (hc1 i) (b6 i), ?_, ?_⟩
        · intro i hi
          simp only [List.map_cons, List.mem_cons, not_or] at hi
          rw [b5 i hi.2, a5 i hi.1]
        · intro b i hi
          simp only [List.map_cons, List.mem_cons, not_or] at hi
          have x1 := (a7.about b i).2 (by rintro ⟨rfl, rfl⟩; rcases hi with h | h; exact h rfl; exact h.1 rfl)
          have x2 := b7 b i (by rcases hi with h | h; exact .inl h; exact .inr h.2)
          simp [List.filter_append, x1, x2]
        · intro u hu
          rcases List.mem_cons.1 hu with rfl | hu
          · have x1 := (a7.about alias u.id).1 ⟨rfl, rfl⟩
            have x2 := b7 alias u.id (.inr hd.1)
            refine ⟨_, _, Int.le_refl _, b6 u.id, ?_⟩
            simp only [List.filter_append, x1, x2, List.append_nil]
            rw [b5 u.id hd.1]
            exact a7
          · have x1 := (a7.about alias u.id).2 (fun h => hne u hu h.2)
            obtain ⟨n0, n1, c1, c2, c3⟩ := b8 u hu
            refine ⟨n0, n1, Int.le_trans (hc1 _) c1, c2, ?_⟩
            simp only [List.filter_append, x1, List.nil_append]
            rw [← a4.executors]
            exact c3

/-- What a pass did to the tasks of one store whose map was `m` and is now `m'`; `new` are the
observations made and events dispatched during the pass, `c`/`c'` the instance counts before and
after. -/
structure StorePass (e : Env τ) (fuel : Nat) (executors : Dict String Nat) (a : String) (ok : Bool)
    (m m' : AMap (Body τ φ)) (c c' : String → Int) (new evs : List Obs) : Prop where
  other : ∀ i, (ok = false ∨ ∀ t, m i = some t → ¬ Due e.now t) →
    m' i = m i ∧ new.filter (concerns a i) = [] ∧ evs.filter (concerns a i) = []
  due : ok = true → ∀ i t, m i = some t → Due e.now t → ∃ n0 n1, c i ≤ n0 ∧ n1 ≤ c' i ∧
    Outcome e fuel a t (executors.get? t.body.executor) n0 n1 (new.filter (concerns a i))
      (evs.filter (concerns a i)) (m' i)

theorem processStore_spec (L : LawfulStore O) {cfg : Cfg τ} {e : Env τ} {fuel : Nat} {alias : String}
    {wake wake' : Option Int} {s s' : State σ τ φ} {evs : List Obs} {st : σ} (hw : WF L s)
    (hm : s.mode ≠ .stopped) (hg : s.stores.get? alias = some st)
    (h : processStore O cfg e fuel alias wake s = some (s', .ok (evs, wake'))) :
    ∃ st' new, s'.stores = s.stores.set alias st' ∧ L.Inv st' ∧ s'.log = s.log ++ new ∧ Frame s s' ∧
      (∀ i, count s i ≤ count s' i) ∧
      (∀ b i, b ≠ alias → new.filter (concerns b i) = [] ∧ evs.filter (concerns b i) = []) ∧
      StorePass e fuel s.executors alias (e.storeLock alias && e.dueOk alias) (L.toMap st) (L.toMap st')
        (count s) (count s') new evs ∧
      wake' = if (e.storeLock alias && e.dueOk alias) = true then earlierOpt wake (O.nextRun st')
        else earlier wake (e.now + cfg.retryInterval) := by
  simp only [processStore, hg] at h
  have hi := hw.inv _ _ hg
  by_cases hok : (e.storeLock alias && e.dueOk alias) = true
  · rw [if_pos hok] at h
    split at h
    · cases h
    · cases h
    · rename_i s1 evs1 h1
      simp only [Option.some.injEq, Prod.mk.injEq, Except.ok.injEq] at h
      obtain ⟨rfl, rfl, hwk⟩ := h
      have hdue := L.due hi e.now
      have hmem : ∀ t ∈ O.due st e.now, L.toMap st t.id = some t ∧ Due e.now t := fun t ht => (hdue.2 t).1 ht
      have hnd : ((O.due st e.now).map Task.id).Nodup := by
        have := hdue.1
        generalize O.due st e.now = l at this hmem
        induction l with
        | nil => simp
        | cons t l ih =>
          simp only [List.nodup_cons, List.map_cons] at this ⊢
          refine ⟨fun hx => ?_, ih this.2 (fun u hu => hmem u (List.mem_cons_of_mem _ hu))⟩
          obtain ⟨u, hu, he⟩ := List.mem_map.1 hx
          have x1 := (hmem u (List.mem_cons_of_mem _ hu)).1
          have x2 := (hmem t (List.mem_cons_self ..)).1
          rw [he, x2] at x1
          cases x1
          exact this.1 hu
      obtain ⟨st', new, b1, b2, b3, b4, b5, b6, b7, b8⟩ :=
        processDue_spec L hw hm hg (fun t ht => (hmem t ht).1) hnd h1
      refine ⟨st', new, b1, b2, b3, b4, b6, fun b i hb => b7 b i (.inl hb), ⟨?_, ?_⟩, ?_⟩
      · intro i hnot
        have hni : i ∉ (O.due st e.now).map Task.id := by
          intro hx
          obtain ⟨t, ht, rfl⟩ := List.mem_map.1 hx
          rcases hnot with h | h
          · rw [hok] at h; cases h
          · exact h t (hmem t ht).1 (hmem t ht).2
        exact ⟨b5 i hni, b7 alias i (.inr hni)⟩
      · intro _ i t ht hdt
        have hk := L.key hi ht
        subst hk
        exact b8 t ((hdue.2 t).2 ⟨ht, hdt⟩)
      · rw [if_pos hok, ← hwk, b1, Dict.get?_set, if_pos rfl]
  · rw [if_neg hok] at h
    simp only [Option.some.injEq, Prod.mk.injEq, Except.ok.injEq] at h
    obtain ⟨rfl, rfl, rfl⟩ := h
    refine ⟨st, [], (Dict.set_get hg).symm, hi, by simp, Frame.refl _, fun _ => Int.le_refl _, by simp,
      ⟨by simp, fun h => absurd h hok⟩, by rw [if_neg hok]⟩

/-- `w` is set and not after `r` -/
def NoLater (w : Option Int) (r : Int) : Prop := ∃ x, w = some x ∧ x ≤ r

theorem earlier_le (w : Option Int) (r : Int) : NoLater (earlier w r) r ∧
    ∀ x, NoLater w x → NoLater (earlier w r) x := by
  cases w with
  | none => exact ⟨⟨r, rfl, Int.le_refl _⟩, fun x ⟨y, h, _⟩ => by cases h⟩
  | some y =>
    simp only [earlier]
    split
    · exact ⟨⟨r, rfl, Int.le_refl _⟩, fun x ⟨z, h, h'⟩ => by cases h; exact ⟨r, rfl, by omega⟩⟩
    · exact ⟨⟨y, rfl, by omega⟩, fun x h => h⟩

theorem earlierOpt_le (w r : Option Int) : (∀ x, r = some x → NoLater (earlierOpt w r) x) ∧
    ∀ x, NoLater w x → NoLater (earlierOpt w r) x := by
  cases r with
  | none => exact ⟨by simp, fun x h => h⟩
  | some r => exact ⟨fun x h => by cases h; exact (earlier_le w r).1, (earlier_le w r).2⟩

theorem StorePass.mono {e : Env τ} {fuel : Nat} {ex : Dict String Nat} {a : String} {ok : Bool}
    {m m' : AMap (Body τ φ)} {c c' d d' : String → Int} {new evs new' evs' : List Obs}
    (h : StorePass e fuel ex a ok m m' c c' new evs) (hd : ∀ i, d i ≤ c i) (hd' : ∀ i, c' i ≤ d' i)
    (hn : ∀ i, new'.filter (concerns a i) = new.filter (concerns a i))
    (he : ∀ i, evs'.filter (concerns a i) = evs.filter (concerns a i)) :
    StorePass e fuel ex a ok m m' d d' new' evs' := by
  refine ⟨fun i hi => ?_, fun hok i t ht hdue => ?_⟩
  · rw [hn, he]; exact h.other i hi
  · obtain ⟨n0, n1, h0, h1, h2⟩ := h.due hok i t ht hdue
    refine ⟨n0, n1, Int.le_trans (hd i) h0, Int.le_trans h1 (hd' i), ?_⟩
    rw [hn, he]; exact h2

theorem processStores_spec (L : LawfulStore O) {cfg : Cfg τ} {e : Env τ} {fuel : Nat} {as : List String}
    {wake wake' : Option Int} {s s' : State σ τ φ} {evs : List Obs} (hw : WF L s)
    (hm : s.mode ≠ .stopped) (has : ∀ a ∈ as, ∃ st, s.stores.get? a = some st) (hnd : as.Nodup)
    (h : processStores O cfg e fuel as wake s = some (s', .ok (evs, wake'))) :
    ∃ new, s'.log = s.log ++ new ∧ Frame s s' ∧ WF L s' ∧ s'.stores.keys = s.stores.keys ∧
      (∀ i, count s i ≤ count s' i) ∧
      (∀ a i, a ∉ as → new.filter (concerns a i) = [] ∧ evs.filter (concerns a i) = []) ∧
      (∀ a, a ∉ as → s'.stores.get? a = s.stores.get? a) ∧
      (∀ a ∈ as, ∀ st, s.stores.get? a = some st → ∃ st', s'.stores.get? a = some st' ∧
        StorePass e fuel s.executors a (e.storeLock a && e.dueOk a) (L.toMap st) (L.toMap st')
          (count s) (count s') new evs ∧
        ((e.storeLock a && e.dueOk a) = true → ∀ i t r, L.toMap st' i = some t → t.nrt = some r → NoLater wake' r) ∧
        ((e.storeLock a && e.dueOk a) = false → NoLater wake' (e.now + cfg.retryInterval))) ∧
      (∀ x, NoLater wake x → NoLater wake' x) := by
  induction as generalizing s evs wake with
  | nil =>
    simp only [processStores, Option.some.injEq, Prod.mk.injEq, Except.ok.injEq] at h
    obtain ⟨rfl, rfl, rfl⟩ := h
    exact ⟨[], by simp, Frame.refl _, hw, rfl, fun _ => Int.le_refl _, by simp, fun _ _ => rfl, by simp, fun _ h => h⟩
  | cons a as ih =>
    simp only [processStores] at h
    split at h
    · cases h
    · cases h
    · rename_i s1 r1 h1
      obtain ⟨evs1, wake1⟩ := r1
      split at h
      · cases h
      · cases h
      · rename_i s2 r2 h2
        obtain ⟨evs2, wake2⟩ := r2
        simp only [Option.some.injEq, Prod.mk.injEq, Except.ok.injEq] at h
        obtain ⟨rfl, rfl, rfl⟩ := h
        obtain ⟨st, hg⟩ := has a (List.mem_cons_self ..)
        simp only [List.nodup_cons] at hnd
        obtain ⟨st1, new1, a1, a2, a3, a4, a5, a6, a7, a8⟩ := processStore_spec L hw hm hg h1
        have hne : ∀ b ∈ as, b ≠ a := fun b hb h => hnd.1 (h ▸ hb)
        have hget : ∀ b, b ≠ a → s1.stores.get? b = s.stores.get? b := fun b hb => by
          rw [a1, Dict.get?_set, if_neg hb]
        have hw1 : WF L s1 := hw.set a2 a1
        obtain ⟨new2, b1, b2, b3, b4, b5, b6, b7, b8, b9⟩ := ih hw1 (by rw [a4.mode]; exact hm)
          (fun b hb => by rw [hget b (hne b hb)]; exact has b (List.mem_cons_of_mem _ hb)) hnd.2 h2
        have hg1 : s2.stores.get? a = some st1 := by rw [b7 a hnd.1, a1, Dict.get?_set, if_pos rfl]
        refine ⟨new1 ++ new2, by rw [b1, a3, List.append_assoc], a4.trans b2, b3, ?_,
          fun i => Int.le_trans (a5 i) (b5 i), ?_, ?_, ?_, ?_⟩
        · rw [b4, a1, Dict.keys_set_of_mem hg]
        · intro b i hb
          simp only [List.mem_cons, not_or] at hb
          have x1 := a6 b i hb.1
          have x2 := b6 b i hb.2
          simp [List.filter_append, x1, x2]
        · intro b hb
          simp only [List.mem_cons, not_or] at hb
          rw [b7 b hb.2, hget b hb.1]
        · intro b hb stb hgb
          rcases List.mem_cons.1 hb with rfl | hb
          · rw [hg] at hgb; cases hgb
            refine ⟨st1, hg1, a7.mono (fun _ => Int.le_refl _) b5 ?_ ?_, ?_, ?_⟩
            · intro i; simp [List.filter_append, b6 b i hnd.1]
            · intro i; simp [List.filter_append, b6 b i hnd.1]
            · intro hok i t r ht hr
              rw [if_pos hok] at a8
              have he := L.nextRun a2
              cases hnr : O.nextRun st1 with
              | none => rw [hnr] at he; have := he i t ht; rw [hr] at this; cases this
              | some x =>
                rw [hnr] at he
                have hle := he.2 i t r ht hr
                apply b9
                rw [a8, hnr]
                obtain ⟨y, hy, hyle⟩ := (earlierOpt_le wake (some x)).1 x rfl
                exact ⟨y, hy, by omega⟩
            · intro hok
              rw [if_neg (by simp [hok])] at a8
              apply b9
              rw [a8]
              exact (earlier_le _ _).1
          · obtain ⟨st', c1, c2, c3, c4⟩ := b8 b hb stb (by rw [hget b (hne b hb)]; exact hgb)
            refine ⟨st', c1, ?_, c3, c4⟩
            rw [← a4.executors]
            refine c2.mono a5 (fun _ => Int.le_refl _) ?_ ?_
            · intro i; simp [List.filter_append, a6 b i (hne b hb)]
            · intro i; simp [List.filter_append, a6 b i (hne b hb)]
        · intro x hx
          apply b9
          rw [a8]
          split
          · exact (earlierOpt_le _ _).2 x hx
          · exact (earlier_le _ _).2 x hx

/-- What one call of `process_tasks` does, on a scheduler that is running. -/
theorem processTasks_spec (L : LawfulStore O) {cfg : Cfg τ} {e : Env τ} {fuel : Nat}
    {w : Option Int} {s s' : State σ τ φ} (hw : WF L s) (hm : s.mode = .running) (hp : e.procLock = true)
    (h : processTasks O cfg e fuel s = some (s', .ok w)) :
    ∃ new evs wake, s'.log = s.log ++ new ++ evs ∧ Frame s s' ∧ WF L s' ∧ s'.stores.keys = s.stores.keys ∧
      (∀ i, count s i ≤ count s' i) ∧
      (∀ a st, s.stores.get? a = some st → ∃ st', s'.stores.get? a = some st' ∧
        StorePass e fuel s.executors a (e.storeLock a && e.dueOk a) (L.toMap st) (L.toMap st')
          (count s) (count s') new evs ∧
        ((e.storeLock a && e.dueOk a) = true → ∀ i t r, L.toMap st' i = some t → t.nrt = some r → NoLater wake r) ∧
        ((e.storeLock a && e.dueOk a) = false → NoLater wake (e.now + cfg.retryInterval))) ∧
      (∀ a, s.stores.get? a = none → ∀ i, new.filter (concerns a i) = [] ∧ evs.filter (concerns a i) = []) ∧
      w = waitTime cfg e .running wake := by
  simp only [processTasks, hm, if_neg (show ¬ Mode.running = Mode.paused by decide), hp, if_true] at h
  split at h
  · cases h
  · cases h
  · rename_i s1 r1 h1
    obtain ⟨evs, wake⟩ := r1
    simp only [Option.some.injEq, Prod.mk.injEq, Except.ok.injEq] at h
    obtain ⟨rfl, rfl⟩ := h
    obtain ⟨new, b1, b2, b3, b4, b5, b6, b7, b8, b9⟩ := processStores_spec L hw (by rw [hm]; decide)
      (fun a ha => by
        cases hg : s.stores.get? a with
        | none => exact absurd ha ((Dict.get?_eq_none _ _).1 hg)
        | some st => exact ⟨st, rfl⟩) hw.keys h1
    refine ⟨new, evs, wake, by simp [b1], ⟨b2.1, b2.2, b2.3, b2.4, b2.5, b2.6⟩, ⟨b3.1, b3.2⟩, b4, b5, ?_, ?_, ?_⟩
    · intro a st hg
      exact b8 a (Dict.mem_keys_of_mem (Dict.mem_of_get? hg)) st hg
    · intro a hg i
      exact b6 a i ((Dict.get?_eq_none _ _).1 hg)
    · rw [b2.mode, hm]

end Sched
end Asyncz
