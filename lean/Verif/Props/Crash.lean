import Verif.Model.Crash
import Verif.Props.EndToEnd
import Verif.Props.AddToRun
import Verif.Props.SchedStart
/-!
# C117: a process that dies and its successor

A scheduler on persistent stores is killed, possibly in the middle of a pass, and started again.
-/
namespace Asyncz
namespace Sched

variable {σ τ φ : Type} {O : StoreOps σ (Body τ φ)} {ans : Int → Except Exc (Option Int)}

/-! ## Specification -/

/-- what was seen of a pass: whether it was completed, its time, and what was observed -/
structure Seen where
  complete : Bool
  now : Int
  obs : List Obs

/-- A history of the task `i` of store `a` (executor `x`): passes at which it could be served (as in `Served`), of which some end
with the death of the process at some point; after each death another process starts a scheduler on the same stores, and its
program does not replace this task.  In between, anything at all that leaves this task alone.  `Room` holds after each pass. -/
inductive Recovered (L : LawfulStore O) (c : Cfg τ) (Good : Env τ → Prop) (Room : State σ τ φ → Prop) (a i x : String) :
    State σ τ φ → List Seen → State σ τ φ → Prop
  | done (s : State σ τ φ) : Recovered L c Good Room a i x s [] s
  | pass {s s' s'' : State σ τ φ} {e : Env τ} {fuel : Nat} {w : Option Int} {obs : List Obs} {rest : List Seen}
      (hm : s.mode = .running) (hg : Good e) (hl : e.procLock = true ∧ e.storeLock a = true ∧ e.dueOk a = true)
      (hx : (s.executors.get? x).isSome = true ∧ e.sendOk x i = true)
      (h : processTasks O c e fuel s = some (s', .ok w)) (hlog : s'.log = s.log ++ obs) (hroom : Room s')
      (hr : Recovered L c Good Room a i x s' rest s'') : Recovered L c Good Room a i x s (⟨true, e.now, obs⟩ :: rest) s''
  | crash {s s' s1 s'' : State σ τ φ} {e e1 : Env τ} {fuel : Nat} {p : Point} {obs : List Obs} {rest : List Seen}
      {executors : Dict String Nat} {pending : List (Waiting τ φ)} {paused : Bool}
      (hm : s.mode = .running) (hg : Good e) (hl : e.procLock = true ∧ e.storeLock a = true ∧ e.dueOk a = true)
      (hx : (s.executors.get? x).isSome = true ∧ e.sendOk x i = true)
      (h : crashPass O c e fuel p s = some s') (hlog : s'.log = s.log ++ obs) (hroom : Room s')
      (hp : ∀ q ∈ pending, q.1.body.store = a → q.1.id = i → q.2.1 = false)
      (hgone : (entry O s' a i).isNone → ∀ q ∈ pending, ¬ (q.1.body.store = a ∧ q.1.id = i))
      (hs : start O c e1 paused (newProcess executors pending s') = (s1, .ok true))
      (hr : Recovered L c Good Room a i x s1 rest s'') : Recovered L c Good Room a i x s (⟨false, e.now, obs⟩ :: rest) s''
  | other {s s' s'' : State σ τ φ} {rest : List Seen} (hw : WF L s') (he : entry O s' a i = entry O s a i)
      (hr : Recovered L c Good Room a i x s' rest s'') : Recovered L c Good Room a i x s rest s''

/-- all run times that were handed to executors for the task, in order -/
def handedOver (a i : String) (l : List Seen) : List Int := l.flatMap fun p => (submitted a i p.obs).flatten

/-- how often the process died -/
def deaths (l : List Seen) : Nat := l.countP fun p => !p.complete

/-- `u` is among the successive times of the trigger, beginning with `first` -/
def Successor (ans : Int → Except Exc (Option Int)) (first u : Int) : Prop := ∃ l, Answered ans (some first) l (some u)

/-! ## Proof -/

/-- what one pass dealt with: `kept` says that the new run time was stored, `sent` that the executor took it -/
structure Deal where
  kept : Bool
  sent : Bool
  times : List Int

/-- successive deals: one that was not kept is made again -/
inductive Chain (ans : Int → Except Exc (Option Int)) : Option Int → List Deal → Option Int → Prop
  | nil (x : Option Int) : Chain ans x [] x
  | kept {x y z : Option Int} {ok : Bool} {l : List Int} {ds : List Deal} (h : Answered ans x l y) (hr : Chain ans y ds z) :
      Chain ans x (⟨true, ok, l⟩ :: ds) z
  | again {x y z : Option Int} {ok : Bool} {l : List Int} {ds : List Deal} (h : Answered ans x l y) (hr : Chain ans x ds z) :
      Chain ans x (⟨false, ok, l⟩ :: ds) z

/-- the analysis of what was done with one due task -/
theorem Outcome.dealt {e : Env τ} {fuel : Nat} {a : String} {t : T τ φ} {ex : Option Nat} {n0 n1 : Int} {new evs : List Obs}
    {r' : Option (T τ φ)} (h : Outcome e fuel a t ex n0 n1 new evs r') (hx : ex.isSome = true ∧ e.sendOk t.body.executor t.id = true)
    (hdue : Due e.now t) {lo : Int} (hreg : Regular t.body.trigger lo ans e) (hf : Forward lo ans) (hlo : ∀ r, t.nrt = some r → lo ≤ r) :
    ∃ l after ok, l ≠ [] ∧ Answered ans t.nrt l after ∧ (∀ r ∈ l, r ≤ e.now) ∧ (∀ r, after = some r → e.now < r) ∧
      r' = after.map (fun n => { t with nrt := some n }) ∧ (ok = false → t.body.maxInst ≤ n0) ∧
      sends a t.id new = if ok = true then [(t.body.executor, handed t.body.coalesce l)] else [] := by
  cases h with
  | noExecutor h hn he hi => rw [h] at hx; cases hx.1
  | notDue h hn he hi hx' =>
    obtain ⟨q, hq, hle⟩ := hdue
    have := (runTimes_cons h).2.2 rfl q hq
    omega
  | ran hx' hr hla hn hnew hrem hsent =>
    rename_i all last n sent removed
    obtain ⟨after, s1, s2, s3⟩ := runTimes_answered hreg hf hlo hr
    have hne : all ≠ [] := by
      intro h; subst h; simp [coalesce] at hla
    obtain ⟨k1, k2, k3⟩ := coalesce_handed' t.body.coalesce hne
    rw [k1, k3] at hla
    have hlast := s1.last hla
    have hle := s2 last (List.mem_of_getLast? hla)
    have hge := (s1.ge hf hlo).2 last (List.mem_of_getLast? hla)
    rw [hreg 1 last hge hle, hlast] at hn
    simp only [Except.ok.injEq] at hn
    subst hn
    have hremE : ∀ l, sends a t.id (l ++ removed) = sends a t.id l := by
      intro l; rw [sends_append, hrem]; split <;> simp [sends]
    rw [k1, k2] at hsent
    rcases hsent with ⟨h1, h2, _⟩ | ⟨h1, h2, h3, _⟩ | ⟨h1, h2, h3, _⟩
    · refine ⟨all, after, true, hne, s1, s2, s3, rfl, by simp, ?_⟩
      rw [hnew, hremE sent, h1]; simp [sends]
    · refine ⟨all, after, false, hne, s1, s2, s3, rfl, fun _ => h3, ?_⟩
      rw [hnew, hremE sent, h1]; simp [sends]
    · rw [hx.2] at h3; cases h3

theorem handOver_spec {e : Env τ} {fuel : Nat} {a : String} {t : T τ φ} {s s' : State σ τ φ} (h : handOver e fuel a t s = some s') :
    ∃ ins new, s' = { s with instances := ins, log := s.log ++ new } ∧ (∀ i, count s i ≤ count s' i) ∧
      (∀ b i, ¬ (b = a ∧ i = t.id) → sends b i new = []) ∧
      (∀ {lo : Int}, (s.executors.get? t.body.executor).isSome = true → e.sendOk t.body.executor t.id = true → Due e.now t →
        Regular t.body.trigger lo ans e → Forward lo ans → (∀ r, t.nrt = some r → lo ≤ r) →
        ∃ l after ok, l ≠ [] ∧ Answered ans t.nrt l after ∧ (∀ r ∈ l, r ≤ e.now) ∧ (ok = false → t.body.maxInst ≤ count s' t.id) ∧
          sends a t.id new = if ok = true then [(t.body.executor, handed t.body.coalesce l)] else []) := by
  rw [handOver] at h
  split at h
  · rename_i hx
    cases h
    exact ⟨s.instances, [], by simp, fun _ => Int.le_refl _, fun _ _ _ => rfl, fun h => by rw [hx] at h; cases h⟩
  · rename_i x hx
    split at h
    · cases h
    · cases h
    · rename_i all hall
      simp only at h
      split at h
      · rename_i hl
        cases h
        refine ⟨s.instances, [], by simp, fun _ => Int.le_refl _, fun _ _ _ => rfl, fun _ _ hdue _ _ _ => ?_⟩
        obtain ⟨q, hq, hle⟩ := hdue
        have h0 : all ≠ [] := fun h0 => by
          have := (runTimes_cons hall).2.2 h0 q hq
          omega
        rw [(coalesce_handed' t.body.coalesce h0).1, (coalesce_handed' t.body.coalesce h0).2.2] at hl
        rw [List.getLast?_eq_none_iff] at hl
        exact absurd hl h0
      · rename_i last hl
        obtain ⟨ins, new, hs1, hins, hmono, hcases⟩ := sendTask_spec e t.body.executor a t (coalesce t.body.coalesce all).1 s
        cases h
        refine ⟨ins, new, hs1, ?_, ?_, ?_⟩
        · intro i
          rw [hs1]
          by_cases hi : i = t.id
          · subst hi; exact hmono
          · simp only [count, hins i hi]; exact Int.le_refl _
        · intro b i hne
          rcases hcases with ⟨_, h2, _⟩ | ⟨_, h2, _⟩ | ⟨_, h2, _⟩ <;> rw [h2]
          · rw [sends, if_neg (by rintro ⟨rfl, rfl⟩; exact hne ⟨rfl, rfl⟩)]; rfl
          · rfl
          · rfl
        · intro lo _ hok _ hreg hf hlo
          obtain ⟨after, s1, s2, s3⟩ := runTimes_answered hreg hf hlo hall
          have hne : all ≠ [] := by
            intro h; subst h; simp [coalesce] at hl
          rw [(coalesce_handed' t.body.coalesce hne).1] at hcases
          rcases hcases with ⟨_, h2, _⟩ | ⟨_, h2, h3, h4⟩ | ⟨_, h2, h3, _⟩
          · exact ⟨all, after, true, hne, s1, s2, by simp, by rw [h2]; simp [sends]⟩
          · refine ⟨all, after, false, hne, s1, s2, fun _ => ?_, by rw [h2]; simp [sends]⟩
            rw [hs1]
            show t.body.maxInst ≤ (ins.get? t.id).getD 0
            omega
          · rw [hok] at h3; cases h3

/-- what a pass, complete or not, did to one task -/
def Did (O : StoreOps σ (Body τ φ)) (ans : Int → Except Exc (Option Int)) (e : Env τ) (a i : String) (t : T τ φ) (s' : State σ τ φ)
    (obs : List Obs) : Prop :=
  (entry O s' a i = some t ∧ sends a i obs = []) ∨
  ∃ l after ok kept, l ≠ [] ∧ Answered ans t.nrt l after ∧ (∀ r ∈ l, r ≤ e.now) ∧
    (kept = true → ∀ r, after = some r → e.now < r) ∧
    (entry O s' a i = if kept = true then after.map (fun n => { t with nrt := some n }) else some t) ∧
    (ok = false → t.body.maxInst ≤ count s' i) ∧
    sends a i obs = if ok = true then [(t.body.executor, handed t.body.coalesce l)] else []

theorem due_ids (L : LawfulStore O) {st : σ} (hi : L.Inv st) (now : Int) :
    ((O.due st now).map Task.id).Nodup ∧ ∀ t ∈ O.due st now, L.toMap st t.id = some t ∧ Due now t := by
  have hdue := L.due hi now
  have hmem : ∀ t ∈ O.due st now, L.toMap st t.id = some t ∧ Due now t := fun t ht => (hdue.2 t).1 ht
  refine ⟨?_, hmem⟩
  have := hdue.1
  generalize O.due st now = l at this hmem
  induction l with
  | nil => simp
  | cons t l ih =>
    simp only [List.nodup_cons, List.map_cons] at this ⊢
    refine ⟨fun hx => ?_, ih this.2 (fun u hu => hmem u (List.mem_cons_of_mem _ hu))⟩
    obtain ⟨u, hu, he⟩ := List.mem_map.1 hx
    have x1 := (hmem u (List.mem_cons_of_mem _ hu)).1
    have x2 := (hmem t (List.mem_cons_self ..)).1
    rw [he, x2] at x1
    cases x1
    exact this.1 hu

theorem nodup_take_get {α : Type} {l : List α} (h : l.Nodup) (n : Nat) : (l.take n).Nodup ∧ ∀ x, l[n]? = some x → x ∉ l.take n := by
  induction l generalizing n with
  | nil => simp
  | cons b l ih =>
    simp only [List.nodup_cons] at h
    cases n with
    | zero => simp
    | succ n =>
      obtain ⟨h1, h2⟩ := ih h.2 n
      simp only [List.take_succ_cons, List.nodup_cons, List.getElem?_cons_succ, List.mem_cons, not_or]
      refine ⟨⟨fun hb => h.1 (List.mem_of_mem_take hb), h1⟩, fun x hx => ⟨fun hb => ?_, h2 x hx⟩⟩
      subst hb
      exact h.1 (List.mem_of_getElem? hx)

/-- dying within a store, seen from one task of the store -/
theorem crashStore_spec (L : LawfulStore O) {e : Env τ} {fuel n : Nat} {hd : Bool} {b : String} {s s' : State σ τ φ} (hw : WF L s)
    (hm : s.mode ≠ .stopped) (h : crashStore O e fuel n hd b s = some s') :
    ∃ new, s'.log = s.log ++ new ∧ WF L s' ∧ (∀ i, count s i ≤ count s' i) ∧
      (∀ a i, a ≠ b → entry O s' a i = entry O s a i ∧ sends a i new = []) ∧
      (∀ i t {lo : Int}, entry O s b i = some t → e.storeLock b = true → e.dueOk b = true →
        (s.executors.get? t.body.executor).isSome = true → e.sendOk t.body.executor i = true →
        Regular t.body.trigger lo ans e → Forward lo ans → (∀ r, t.nrt = some r → lo ≤ r) → Did O ans e b i t s' new) ∧
      (∀ i, entry O s b i = none → entry O s' b i = none ∧ sends b i new = []) := by
  rw [crashStore] at h
  split at h
  · rename_i hg
    cases h
    refine ⟨[], by simp, hw, fun _ => Int.le_refl _, fun _ _ _ => ⟨rfl, rfl⟩, fun i t lo ht => ?_, fun i hi => ⟨hi, rfl⟩⟩
    simp [entry, hg] at ht
  · rename_i st hg
    have hi := hw.inv _ _ hg
    split at h
    · rename_i hok
      obtain ⟨hnd, hmem⟩ := due_ids L hi e.now
      split at h
      · rename_i s1 evs h1
        have htk : ∀ t ∈ (O.due st e.now).take n, L.toMap st t.id = some t := fun t ht => (hmem t (List.mem_of_mem_take ht)).1
        have hndt : (((O.due st e.now).take n).map Task.id).Nodup := by
          rw [List.map_take]; exact (nodup_take_get hnd n).1
        obtain ⟨st', new, b1, b2, b3, b4, b5, b6, b7, b8⟩ := processDue_spec L hw hm hg htk hndt h1
        have hw1 : WF L s1 := hw.set b2 b1
        have hg1 : s1.stores.get? b = some st' := by rw [b1, Dict.get?_set, if_pos rfl]
        have he1 : ∀ a i, a ≠ b → entry O s1 a i = entry O s a i := by
          intro a i ha
          simp only [entry]
          rw [b1, Dict.get?_set, if_neg ha]
        have noSend : ∀ a i, (a ≠ b ∨ i ∉ ((O.due st e.now).take n).map Task.id) → sends a i new = [] := by
          intro a i h
          rw [← sends_filter, (b7 a i h).1]; rfl
        -- what the tasks done so far got
        have hdid : ∀ i t {lo : Int}, entry O s b i = some t → (s.executors.get? t.body.executor).isSome = true →
            e.sendOk t.body.executor i = true → Regular t.body.trigger lo ans e → Forward lo ans → (∀ r, t.nrt = some r → lo ≤ r) →
            (t ∈ (O.due st e.now).take n ∧ Did O ans e b i t s1 new) ∨
            (t ∉ (O.due st e.now).take n ∧ entry O s1 b i = some t ∧ sends b i new = []) := by
          intro i t lo ht hx hs hreg hf hlo
          rw [entry_eq L hw hg] at ht
          have hk := L.key hi ht
          subst hk
          by_cases hin : t ∈ (O.due st e.now).take n
          · refine .inl ⟨hin, .inr ?_⟩
            obtain ⟨n0, n1, c1, c2, c3⟩ := b8 t hin
            have hle := c3.le
            obtain ⟨l, after, ok, d1, d2, d3, d4, d5, d6, d7⟩ := c3.dealt ⟨hx, hs⟩ (hmem t (List.mem_of_mem_take hin)).2 hreg hf hlo
            refine ⟨l, after, ok, true, d1, d2, d3, fun _ => d4, ?_, fun h => ?_, by rw [← sends_filter]; exact d7⟩
            · rw [entry_eq L hw1 hg1, d5]; simp
            · have := d6 h; omega
          · refine .inr ⟨hin, ?_, ?_⟩
            all_goals
              have hid : t.id ∉ ((O.due st e.now).take n).map Task.id := by
                intro hx
                obtain ⟨u, hu, he⟩ := List.mem_map.1 hx
                have := htk u hu
                rw [he, ht] at this
                cases this
                exact hin hu
            · rw [entry_eq L hw1 hg1, b5 _ hid, ht]
            · exact noSend _ _ (.inr hid)
        have hnone : ∀ i, entry O s b i = none → entry O s1 b i = none ∧ sends b i new = [] := by
          intro i hn
          rw [entry_eq L hw hg] at hn
          have hid : i ∉ ((O.due st e.now).take n).map Task.id := by
            intro hx
            obtain ⟨u, hu, he⟩ := List.mem_map.1 hx
            have := htk u hu
            rw [he, hn] at this
            cases this
          exact ⟨by rw [entry_eq L hw1 hg1, b5 _ hid, hn], noSend _ _ (.inr hid)⟩
        have plain : s' = s1 → ∃ new, s'.log = s.log ++ new ∧ WF L s' ∧ (∀ i, count s i ≤ count s' i) ∧
            (∀ a i, a ≠ b → entry O s' a i = entry O s a i ∧ sends a i new = []) ∧
            (∀ i t {lo : Int}, entry O s b i = some t → e.storeLock b = true → e.dueOk b = true →
              (s.executors.get? t.body.executor).isSome = true → e.sendOk t.body.executor i = true →
              Regular t.body.trigger lo ans e → Forward lo ans → (∀ r, t.nrt = some r → lo ≤ r) → Did O ans e b i t s' new) ∧
            (∀ i, entry O s b i = none → entry O s' b i = none ∧ sends b i new = []) := by
          rintro rfl
          refine ⟨new, b3, hw1, b6, fun a i ha => ⟨he1 a i ha, noSend a i (.inl ha)⟩, ?_, hnone⟩
          intro i t lo ht _ _ hx hs hreg hf hlo
          rcases hdid i t ht hx hs hreg hf hlo with ⟨_, h⟩ | ⟨_, h⟩
          · exact h
          · exact .inl h
        split at h
        · split at h
          · cases h; exact plain rfl
          · rename_i u hu
            obtain ⟨ins, new', c1, c2, c3, c4⟩ := handOver_spec (ans := ans) h
            have hent : ∀ a i, entry O s' a i = entry O s1 a i := by rw [c1]; intro a i; rfl
            have hum : u ∈ O.due st e.now := List.mem_of_getElem? hu
            have hid : u.id ∉ ((O.due st e.now).take n).map Task.id := by
              rw [List.map_take]
              exact (nodup_take_get hnd n).2 _ (by rw [List.getElem?_map, hu]; rfl)
            refine ⟨new ++ new', by rw [c1]; simp [b3], by rw [c1]; exact ⟨hw1.1, hw1.2⟩,
              fun i => Int.le_trans (b6 i) (c2 i), ?_, ?_, ?_⟩
            · intro a i ha
              rw [hent, sends_append, noSend a i (.inl ha), c3 a i (fun h => ha h.1)]
              exact ⟨he1 a i ha, rfl⟩
            · intro i t lo ht _ _ hx hs hreg hf hlo
              have hk := L.key hi (by rw [← entry_eq L hw hg]; exact ht)
              subst hk
              rcases hdid t.id t ht hx hs hreg hf hlo with ⟨hin, h⟩ | ⟨hin, hsame, hz⟩
              · have hne : t.id ≠ u.id := fun he => hid (he ▸ List.mem_map.2 ⟨t, hin, rfl⟩)
                have hz := c3 b t.id (fun h => hne h.2)
                rcases h with ⟨h1, h2⟩ | ⟨l, after, ok, kept, d1, d2, d3, d4, d5, d6, d7⟩
                · exact .inl ⟨by rw [hent]; exact h1, by rw [sends_append, h2, hz]; rfl⟩
                · refine .inr ⟨l, after, ok, kept, d1, d2, d3, d4, by rw [hent]; exact d5, fun h => ?_, ?_⟩
                  · exact Int.le_trans (d6 h) (c2 _)
                  · rw [sends_append, hz, d7, List.append_nil]
              · by_cases hne : t.id = u.id
                · have htu : t = u := by
                    have h1 := (hmem u hum).1
                    rw [entry_eq L hw hg, hne, h1] at ht
                    cases ht; rfl
                  subst htu
                  obtain ⟨l, after, ok, d1, d2, d3, d4, d5⟩ := c4 (by rw [b4.executors]; exact hx) hs (hmem t hum).2 hreg hf hlo
                  refine .inr ⟨l, after, ok, false, d1, d2, d3, by simp, by rw [hent, hsame]; rfl, d4, ?_⟩
                  rw [sends_append, hz, List.nil_append, d5]
                · exact .inl ⟨by rw [hent]; exact hsame, by rw [sends_append, hz, c3 b t.id (fun h => hne h.2)]; rfl⟩
            · intro i hn
              obtain ⟨h1, h2⟩ := hnone i hn
              rw [hent, sends_append, h2]
              refine ⟨h1, ?_⟩
              rw [c3 b i (fun hbi => by
                have := (hmem u hum).1
                rw [← hbi.2, ← entry_eq L hw hg, hn] at this
                cases this)]
              rfl
        · cases h; exact plain rfl
      · cases h
    · rename_i hok
      cases h
      refine ⟨[], by simp, hw, fun _ => Int.le_refl _, fun _ _ _ => ⟨rfl, rfl⟩, fun i t lo ht _ _ _ _ _ _ _ => .inl ⟨ht, rfl⟩,
        fun i hi => ⟨hi, rfl⟩⟩

/-- dying in a pass, seen from one task -/
theorem crashPass_task (L : LawfulStore O) {c : Cfg τ} {e : Env τ} {fuel : Nat} {p : Point} {s s' : State σ τ φ} (hw : WF L s)
    (hm : s.mode = .running) (a i : String) (hl : e.procLock = true ∧ e.storeLock a = true ∧ e.dueOk a = true)
    (h : crashPass O c e fuel p s = some s') :
    ∃ obs, s'.log = s.log ++ obs ∧ WF L s' ∧
      (∀ t {lo : Int}, entry O s a i = some t → (s.executors.get? t.body.executor).isSome = true → e.sendOk t.body.executor i = true →
        Regular t.body.trigger lo ans e → Forward lo ans → (∀ r, t.nrt = some r → lo ≤ r) → Did O ans e a i t s' obs) ∧
      (entry O s a i = none → entry O s' a i = none ∧ sends a i obs = []) := by
  rw [crashPass, hm, if_neg (by decide), if_pos hl.1] at h
  split at h
  · rename_i s1 r1 h1
    obtain ⟨evs, wake⟩ := r1
    have hkeys : s.stores.keys.Nodup := hw.keys
    obtain ⟨new, b1, b2, b3, b4, b5, b6, b7, b8, b9⟩ := processStores_spec L hw (by rw [hm]; decide)
      (fun a ha => by
        cases hg : s.stores.get? a with
        | none => exact absurd (List.mem_of_mem_take ha) ((Dict.get?_eq_none _ _).1 hg)
        | some st => exact ⟨st, rfl⟩) (nodup_take_get hkeys p.stores).1 h1
    have hm1 : s1.mode ≠ .stopped := by rw [b2.mode, hm]; decide
    -- the stores that are done
    have done : (∀ t {lo : Int}, entry O s a i = some t → (s.executors.get? t.body.executor).isSome = true →
          e.sendOk t.body.executor i = true → Regular t.body.trigger lo ans e → Forward lo ans → (∀ r, t.nrt = some r → lo ≤ r) →
          (a ∈ s.stores.keys.take p.stores ∧ Did O ans e a i t s1 new) ∨
          (a ∉ s.stores.keys.take p.stores ∧ entry O s1 a i = some t ∧ sends a i new = [])) ∧
        (entry O s a i = none → entry O s1 a i = none ∧ sends a i new = []) := by
      by_cases hin : a ∈ s.stores.keys.take p.stores
      · cases hg : s.stores.get? a with
        | none => exact absurd (List.mem_of_mem_take hin) ((Dict.get?_eq_none _ _).1 hg)
        | some st =>
          obtain ⟨st', c1, c2, _⟩ := b8 a hin st hg
          constructor
          · intro t lo ht hx hs hreg hf hlo
            refine .inl ⟨hin, ?_⟩
            rw [entry_eq L hw hg] at ht
            have hk := L.key (hw.inv _ _ hg) ht
            subst hk
            by_cases hdue : Due e.now t
            · obtain ⟨n0, n1, d1, d2, d3⟩ := c2.due (by simp [hl.2.1, hl.2.2]) t.id t ht hdue
              have hle := d3.le
              obtain ⟨l, after, ok, f1, f2, f3, f4, f5, f6, f7⟩ := d3.dealt ⟨hx, hs⟩ hdue hreg hf hlo
              refine .inr ⟨l, after, ok, true, f1, f2, f3, fun _ => f4, ?_, fun h => ?_, by rw [← sends_filter]; exact f7⟩
              · rw [entry_eq L b3 c1, f5]; simp
              · have := f6 h; omega
            · have := c2.other t.id (.inr fun t' ht' => by rw [ht] at ht'; cases ht'; exact hdue)
              exact .inl ⟨by rw [entry_eq L b3 c1, this.1, ht], by rw [← sends_filter, this.2.1]; rfl⟩
          · intro hn
            rw [entry_eq L hw hg] at hn
            have := c2.other i (.inr fun t' ht' => by rw [hn] at ht'; cases ht')
            exact ⟨by rw [entry_eq L b3 c1, this.1, hn], by rw [← sends_filter, this.2.1]; rfl⟩
      · have hz : sends a i new = [] := by rw [← sends_filter, (b6 a i hin).1]; rfl
        have he : entry O s1 a i = entry O s a i := by simp only [entry, b7 a hin]
        exact ⟨fun t lo ht _ _ _ _ _ => .inr ⟨hin, by rw [he, ht], hz⟩, fun hn => ⟨by rw [he, hn], hz⟩⟩
    split at h
    · cases h
      refine ⟨new, b1, b3, fun t lo ht hx hs hreg hf hlo => ?_, done.2⟩
      rcases done.1 t ht hx hs hreg hf hlo with ⟨_, h⟩ | ⟨_, h⟩
      · exact h
      · exact .inl h
    · rename_i b hb
      obtain ⟨new', c1, c2, c3, c4, c5, c6⟩ := crashStore_spec (ans := ans) L b3 hm1 h
      refine ⟨new ++ new', by rw [c1, b1, List.append_assoc], c2, fun t lo ht hx hs hreg hf hlo => ?_, fun hn => ?_⟩
      · rcases done.1 t ht hx hs hreg hf hlo with ⟨hin, h⟩ | ⟨hin, hsame, hz⟩
        · have hab : a ≠ b := fun hab => (nodup_take_get hkeys p.stores).2 b hb (hab ▸ hin)
          obtain ⟨d1, d2⟩ := c4 a i hab
          rcases h with ⟨h1, h2⟩ | ⟨l, after, ok, kept, f1, f2, f3, f4, f5, f6, f7⟩
          · exact .inl ⟨by rw [d1]; exact h1, by rw [sends_append, h2, d2]; rfl⟩
          · refine .inr ⟨l, after, ok, kept, f1, f2, f3, f4, by rw [d1]; exact f5, fun h => Int.le_trans (f6 h) (c3 _), ?_⟩
            rw [sends_append, d2, f7, List.append_nil]
        · by_cases hab : a = b
          · subst hab
            have := c5 i t hsame hl.2.1 hl.2.2 (by rw [b2.executors]; exact hx) hs hreg hf hlo
            simp only [Did, sends_append, hz, List.nil_append] at this ⊢
            exact this
          · obtain ⟨d1, d2⟩ := c4 a i hab
            exact .inl ⟨by rw [d1]; exact hsame, by rw [sends_append, hz, d2]; rfl⟩
      · obtain ⟨h1, h2⟩ := done.2 hn
        by_cases hab : a = b
        · subst hab
          obtain ⟨d1, d2⟩ := c6 i h1
          exact ⟨d1, by rw [sends_append, h2, d2]; rfl⟩
        · obtain ⟨d1, d2⟩ := c4 a i hab
          exact ⟨by rw [d1]; exact h1, by rw [sends_append, h2, d2]; rfl⟩
  · cases h

theorem Answered.increasing {lo : Int} (hf : Forward lo ans) {first x : Option Int} {l : List Int} (h : Answered ans first l x)
    (hlo : ∀ r, first = some r → lo ≤ r) : l.Pairwise (· < ·) := by
  induction h with
  | nil => exact .nil
  | @cons r y x l e h ih =>
    have h0 := hlo r rfl
    cases y with
    | none => cases h; exact List.pairwise_singleton ..
    | some q =>
      have hq := hf r q h0 e
      refine List.Pairwise.cons (fun u hu => ?_) (ih fun w hw => by cases hw; omega)
      have hf' : Forward q ans := fun p r hp => hf p r (by omega)
      have := (h.ge hf' (fun w hw => by cases hw; omega)).2 u hu
      omega

theorem increasing_count {l : List Int} (h : l.Pairwise (· < ·)) (u : Int) : l.count u ≤ 1 := by
  induction l with
  | nil => simp
  | cons b l ih =>
    rw [List.pairwise_cons] at h
    rw [List.count_cons]
    split
    · rename_i hb
      have hb : b = u := by simpa using hb
      have : l.count u = 0 := List.count_eq_zero.mpr fun hu => by have := h.1 u hu; omega
      omega
    · have := ih h.2; omega

/-- a successor of the first time is among the times or comes from the time that follows -/
theorem Answered.covers {first after : Option Int} {l l' : List Int} {u : Int} (h : Answered ans first l after)
    (h' : Answered ans first l' (some u)) : u ∈ l ∨ ∃ l'', Answered ans after l'' (some u) := by
  induction h generalizing l' with
  | nil x => exact .inr ⟨l', h'⟩
  | @cons r y x l e h ih =>
    cases h' with
    | nil => exact .inl (by simp)
    | @cons _ y' _ l' e' h' =>
      rw [e] at e'
      cases e'
      rcases ih h' with h1 | h1
      · exact .inl (List.mem_cons_of_mem _ h1)
      · exact .inr h1

/-- the times of the deals that were kept follow each other -/
theorem Chain.kept_answered {x z : Option Int} {ds : List Deal} (h : Chain ans x ds z) :
    Answered ans x ((ds.filter (·.kept)).flatMap (·.times)) z := by
  induction h with
  | nil x => exact .nil x
  | kept h _ ih => exact h.append ih
  | again h _ ih => exact ih

theorem Chain.count {lo : Int} (hf : Forward lo ans) {x z : Option Int} {ds : List Deal} (h : Chain ans x ds z)
    (hlo : ∀ r, x = some r → lo ≤ r) (u : Int) : (ds.flatMap (·.times)).count u ≤ 1 + ds.countP (fun d => !d.kept) := by
  have split : (ds.flatMap (·.times)).count u ≤ ((ds.filter (·.kept)).flatMap (·.times)).count u + ds.countP (fun d => !d.kept) := by
    induction h with
    | nil => simp
    | @kept x y z ok l ds h hr ih =>
      have := ih (h.ge hf hlo).1
      simp only [List.flatMap_cons, List.count_append, List.filter_cons, if_true, List.countP_cons]
      simp only [Bool.not_true, Bool.false_eq_true, if_false]
      omega
    | @again x y z ok l ds h hr ih =>
      have := ih hlo
      have h1 := increasing_count (h.increasing hf hlo) u
      simp only [List.flatMap_cons, List.count_append, List.filter_cons, List.countP_cons]
      simp only [Bool.not_false, if_true, Bool.false_eq_true, if_false]
      omega
  have := increasing_count (h.kept_answered.increasing hf hlo) u
  omega

/-- a pass, seen from a task that is not there -/
theorem pass_none (L : LawfulStore O) {c : Cfg τ} {e : Env τ} {fuel : Nat} {s s' : State σ τ φ} {w : Option Int} (hw : WF L s)
    (hm : s.mode = .running) (a i : String) (hl : e.procLock = true) (he : entry O s a i = none)
    (h : processTasks O c e fuel s = some (s', .ok w)) :
    ∃ obs, s'.log = s.log ++ obs ∧ WF L s' ∧ entry O s' a i = none ∧ sends a i obs = [] := by
  obtain ⟨new, evs, wake, z1, z2, z3, z4, z5, z6, z7, z8⟩ := processTasks_spec L hw hm hl h
  refine ⟨new ++ evs, by rw [z1, List.append_assoc], z3, ?_⟩
  have key : entry O s' a i = none ∧ new.filter (concerns a i) = [] ∧ evs.filter (concerns a i) = [] := by
    cases hg : s.stores.get? a with
    | none =>
      have hg' : s'.stores.get? a = none := by
        rw [Dict.get?_eq_none] at hg ⊢
        rw [z4]; exact hg
      exact ⟨by simp [entry, hg'], z7 a hg i⟩
    | some st =>
      obtain ⟨st', b1, b2, b3, b4⟩ := z6 a st hg
      rw [entry_eq L hw hg] at he
      rw [entry_eq L z3 b1]
      have := b2.other i (.inr (fun t ht => by rw [he] at ht; cases ht))
      exact ⟨by rw [this.1, he], this.2⟩
  refine ⟨key.1, ?_⟩
  rw [← sends_filter, List.filter_append, key.2.1, key.2.2]; rfl

/-- the start of the next process leaves the task alone -/
theorem restart_entry (L : LawfulStore O) {c : Cfg τ} {e : Env τ} {paused : Bool} {s s1 : State σ τ φ} (hw : WF L s)
    {executors : Dict String Nat} {pending : List (Waiting τ φ)} (a i : String)
    (hp : ∀ q ∈ pending, q.1.body.store = a → q.1.id = i → q.2.1 = false)
    (hgone : (entry O s a i).isNone → ∀ q ∈ pending, ¬ (q.1.body.store = a ∧ q.1.id = i))
    (h : start O c e paused (newProcess executors pending s) = (s1, .ok true)) :
    WF L s1 ∧ entry O s1 a i = entry O s a i := by
  have hw0 : WF L (newProcess executors pending s) := ⟨hw.1, hw.2⟩
  have hw1 : WF L s1 := by
    have := wf_start hw0 c e paused
    rw [h] at this; exact this
  refine ⟨hw1, ?_⟩
  obtain ⟨_, h2⟩ := start_ok h
  generalize hs0 : newProcess executors pending s = s0 at h h2 hw0
  have hpe : s0.pending = pending := by rw [← hs0]; rfl
  have he0 : entry O s0 a i = entry O s a i := by rw [← hs0]; rfl
  rcases h2 with ⟨_, _, h2⟩ | ⟨_, _, _, _, _, _, s2, h3, h4, _⟩
  · cases h2
  · have hwd : WF L (withDefaults O c { s0 with refs := s0.refs + 1 }) :=
      wf_withDefaults (s := { s0 with refs := s0.refs + 1 }) (hw0.congr rfl) c
    have hd : entry O (withDefaults O c { s0 with refs := s0.refs + 1 }) a i = entry O s a i := by
      rw [← he0]; exact entry_withDefaults L c (s := { s0 with refs := s0.refs + 1 }) (hw0.congr rfl) a i
    obtain ⟨k1, k2, k3, k4, k5⟩ := addPending_spec L e _ s0.pending hwd h3
    have hen : entry O s1 a i = entry O s2 a i := by rw [entry_look, entry_look, h4]
    rw [hen]
    cases hn : entry O s a i with
    | none => rw [k1 a i (by rw [hpe]; exact hgone (by rw [hn]; rfl)), hd, hn]
    | some t => rw [k5 a i (by rw [hd, hn]; rfl) (by rw [hpe]; exact hp), hd, hn]

/-- everything that can be said about such a history -/
theorem recovered_chain (L : LawfulStore O) {c : Cfg τ} {Good : Env τ → Prop} {Room : State σ τ φ → Prop} {a i x : String}
    {s s' : State σ τ φ} {seen : List Seen} (h : Recovered L c Good Room a i x s seen s') (hw : WF L s) (t : T τ φ)
    (hx : t.body.executor = x) (lo : Int) (hf : Forward lo ans) (hgood : ∀ e, Good e → Regular t.body.trigger lo ans e)
    (first : Option Int) (hlo : ∀ r, first = some r → lo ≤ r)
    (he : entry O s a i = first.map fun n => { t with nrt := some n }) :
    ∃ ds after, Chain ans first ds after ∧ entry O s' a i = after.map (fun n => { t with nrt := some n }) ∧
      ds.countP (fun d => !d.kept) ≤ deaths seen ∧
      seen.flatMap (fun p => sends a i p.obs) = (ds.filter (·.sent)).map (fun d => (x, handed t.body.coalesce d.times)) ∧
      (∀ p ∈ seen, p.complete = true → ∀ q, after = some q → p.now < q) ∧
      ((∀ s, Room s → count s i < t.body.maxInst) → ∀ d ∈ ds, d.sent = true) ∧
      (∀ d ∈ ds, ∀ u ∈ d.times, ∃ p ∈ seen, u ≤ p.now) ∧ ∀ d ∈ ds, d.times ≠ [] := by
  induction h generalizing first with
  | done s =>
    exact ⟨[], first, .nil _, he, by simp [deaths], rfl, by simp, by simp, by simp, by simp⟩
  | other hw' he' hr' ih => exact ih hw' first hlo (by rw [he']; exact he)
  | @pass s s1 s2 e fuel w obs rest hm hg hl hx' h hlog hroom hr ih =>
    subst hx
    cases first with
    | none =>
      obtain ⟨obs', h1, h2, h3, h4⟩ := pass_none L hw hm a i hl.1 he h
      rw [hlog, List.append_cancel_left_eq] at h1
      subst h1
      obtain ⟨ds, after, k1, k2, k3, k4, k5, k6, k7, k8⟩ := ih h2 none (by simp) h3
      refine ⟨ds, after, k1, k2, by simpa [deaths] using k3, by rw [List.flatMap_cons, h4]; exact k4, ?_, k6, ?_, k8⟩
      · intro p hp hc q hq
        rcases List.mem_cons.mp hp with rfl | hp
        · have := k1.kept_answered
          rw [hq] at this
          cases hl : (ds.filter (·.kept)).flatMap (·.times) with
          | nil => rw [hl] at this; cases this
          | cons b l => rw [hl] at this; cases this
        · exact k5 p hp hc q hq
      · intro d hd u hu
        obtain ⟨p, hp, h⟩ := k7 d hd u hu
        exact ⟨p, List.mem_cons_of_mem _ hp, h⟩
    | some r =>
      have h0 := hlo r rfl
      obtain ⟨obs', hl', hw1, hcase⟩ := pass_task L c e fuel s s1 w hw hm a i hl { t with nrt := some r } he hx' (hgood e hg) hf
        (fun q hq => by cases hq; exact h0) h
      obtain ⟨new, evs, wake, z1, z2, z3, z4, z5, z6, z7, z8⟩ := processTasks_spec L hw hm hl.1 h
      have hmax : ∀ l : List Int, sends a i obs' = [] → submissionEvents a i obs' = [report a i t.body.coalesce (false, l)] →
          t.body.maxInst ≤ count s1 i := by
        intro l _ hev
        have hz : obs' = new ++ evs := by
          rw [hl', List.append_assoc, List.append_cancel_left_eq] at z1; exact z1
        cases hgs : s.stores.get? a with
        | none => simp [entry, hgs] at he
        | some st =>
          obtain ⟨st', b1, b2, _⟩ := z6 a st hgs
          have he' : L.toMap st i = some { t with nrt := some r } := by rw [← entry_eq L hw hgs]; exact he
          have hk := L.key (hw.inv _ _ hgs) he'
          by_cases hdue : Due e.now { t with nrt := some r }
          · obtain ⟨n0, n1, d1, d2, d3⟩ := b2.due (by simp [hl.2.1, hl.2.2]) i _ he' hdue
            have hev' : submissionEvents a i (new.filter (concerns a i) ++ evs.filter (concerns a i)) =
                [report a i t.body.coalesce (false, l)] := by
              rw [← List.filter_append, submissionEvents_filter, ← hz]; exact hev
            have hle := d3.le
            generalize L.toMap st' i = r' at d3
            have hmx : t.body.maxInst ≤ n0 := by
              cases d3 with
              | noExecutor h _ _ _ => rw [h] at hx'; cases hx'.1
              | notDue h hn hev hi hx => rw [hn, hev] at hev'; simp [submissionEvents] at hev'
              | ran hxx hr hla hn hnew hrem hsent =>
                rename_i all last n sent removed
                have hremE : submissionEvents a i removed = [] := by rw [hrem]; split <;> simp [submissionEvents]
                rcases hsent with ⟨q1, q2, _⟩ | ⟨q1, q2, q3, _⟩ | ⟨q1, q2, q3, _⟩
                · rw [hnew, q1, q2] at hev'
                  simp only [submissionEvents_append, hremE] at hev'
                  have hk' : t.id = i := hk
                  simp [submissionEvents, report, hk'] at hev'
                · exact q3
                · rw [show ({ t with nrt := some r } : T τ φ).id = i from hk] at q3
                  rw [hx'.2] at q3; cases q3
            omega
          · have := b2.other i (.inr fun t' ht' => by rw [he'] at ht'; cases ht'; exact hdue)
            rw [hz, ← submissionEvents_filter, List.filter_append, this.2.1, this.2.2] at hev
            simp [submissionEvents] at hev
      rw [hlog, List.append_cancel_left_eq] at hl'
      subst hl'
      rcases hcase with ⟨hnd, he1, h1, h2⟩ | ⟨l, after1, ok, hne, hA, hle, haf, he1, h1, h2⟩
      · obtain ⟨ds, after, k1, k2, k3, k4, k5, k6, k7, k8⟩ := ih hw1 (some r) hlo he1
        refine ⟨ds, after, k1, k2, by simpa [deaths] using k3, by rw [List.flatMap_cons, h1]; exact k4, ?_, k6, ?_, k8⟩
        · intro p hp hc q hq
          rcases List.mem_cons.mp hp with rfl | hp
          · have hnow : e.now < r := by
              by_cases hh : e.now < r
              · exact hh
              · exact absurd ⟨r, rfl, by omega⟩ hnd
            have := k1.kept_answered.mono hf r rfl h0 q hq
            show e.now < q
            omega
          · exact k5 p hp hc q hq
        · intro d hd u hu
          obtain ⟨p, hp, h⟩ := k7 d hd u hu
          exact ⟨p, List.mem_cons_of_mem _ hp, h⟩
      · have hlon := (hA.ge hf hlo).1
        obtain ⟨ds, after, k1, k2, k3, k4, k5, k6, k7, k8⟩ := ih hw1 after1 hlon he1
        refine ⟨⟨true, ok, l⟩ :: ds, after, .kept hA k1, k2, by simpa [deaths] using k3, ?_, ?_, ?_, ?_, ?_⟩
        · rw [List.flatMap_cons, k4, h2]
          cases ok <;> rfl
        · intro p hp hc q hq
          rcases List.mem_cons.mp hp with rfl | hp
          · cases after1 with
            | none =>
              have := k1.kept_answered
              rw [hq] at this
              cases hl : (ds.filter (·.kept)).flatMap (·.times) with
              | nil => rw [hl] at this; cases this
              | cons b l => rw [hl] at this; cases this
            | some n =>
              have h3 := haf n rfl
              have := k1.kept_answered.mono hf n rfl (hlon n rfl) q hq
              show e.now < q
              omega
          · exact k5 p hp hc q hq
        · intro hR d hd
          rcases List.mem_cons.mp hd with rfl | hd
          · cases ok with
            | true => rfl
            | false =>
              have h3 := hmax l (by rw [h2]; rfl) h1
              have := hR _ hroom
              omega
          · exact k6 hR d hd
        · intro d hd u hu
          rcases List.mem_cons.mp hd with rfl | hd
          · exact ⟨_, List.mem_cons_self .., hle u hu⟩
          · obtain ⟨p, hp, h⟩ := k7 d hd u hu
            exact ⟨p, List.mem_cons_of_mem _ hp, h⟩
        · intro d hd
          rcases List.mem_cons.mp hd with rfl | hd
          · exact hne
          · exact k8 d hd
  | @crash s s1 s2 s3 e e1 fuel p obs rest executors pending paused hm hg hl hx' h hlog hroom hp hgone hs hr ih =>
    subst hx
    obtain ⟨obs', hl', hw1, hsome, hnone⟩ := crashPass_task (ans := ans) L hw hm a i hl h
    rw [hlog, List.append_cancel_left_eq] at hl'
    subst hl'
    obtain ⟨hw2, he2⟩ := restart_entry L hw1 a i hp hgone hs
    have hdeath : deaths (⟨false, e.now, obs⟩ :: rest) = deaths rest + 1 := by simp [deaths]
    have later : ∀ {after : Option Int}, (∀ p ∈ rest, p.complete = true → ∀ q, after = some q → p.now < q) →
        ∀ p ∈ (⟨false, e.now, obs⟩ :: rest : List Seen), p.complete = true → ∀ q, after = some q → p.now < q := by
      intro after k5 p hp hc q hq
      rcases List.mem_cons.mp hp with rfl | hp
      · cases hc
      · exact k5 p hp hc q hq
    have later' : ∀ {ds : List Deal}, (∀ d ∈ ds, ∀ u ∈ d.times, ∃ p ∈ rest, u ≤ p.now) →
        ∀ d ∈ ds, ∀ u ∈ d.times, ∃ p ∈ (⟨false, e.now, obs⟩ :: rest : List Seen), u ≤ p.now := by
      intro ds k7 d hd u hu
      obtain ⟨p, hp, h⟩ := k7 d hd u hu
      exact ⟨p, List.mem_cons_of_mem _ hp, h⟩
    cases first with
    | none =>
      obtain ⟨h1, h2⟩ := hnone he
      obtain ⟨ds, after, k1, k2, k3, k4, k5, k6, k7, k8⟩ := ih hw2 none (by simp) (by rw [he2, h1]; rfl)
      refine ⟨ds, after, k1, k2, by omega, by rw [List.flatMap_cons, h2]; exact k4, later k5, k6, later' k7, k8⟩
    | some r =>
      rcases hsome { t with nrt := some r } he hx'.1 hx'.2 (hgood e hg) hf hlo with ⟨h1, h2⟩ | ⟨l, after1, ok, kept, g1, g2, g3, g4, g5, g6, g7⟩
      · obtain ⟨ds, after, k1, k2, k3, k4, k5, k6, k7, k8⟩ := ih hw2 (some r) hlo (by rw [he2, h1]; rfl)
        refine ⟨ds, after, k1, k2, by omega, by rw [List.flatMap_cons, h2]; exact k4, later k5, k6, later' k7, k8⟩
      · have htimes : ∀ {ds : List Deal}, (∀ d ∈ ds, ∀ u ∈ d.times, ∃ p ∈ rest, u ≤ p.now) →
            ∀ d ∈ (⟨kept, ok, l⟩ :: ds : List Deal), ∀ u ∈ d.times, ∃ p ∈ (⟨false, e.now, obs⟩ :: rest : List Seen), u ≤ p.now := by
          intro ds k7 d hd u hu
          rcases List.mem_cons.mp hd with rfl | hd
          · exact ⟨_, List.mem_cons_self .., g3 u hu⟩
          · exact later' k7 d hd u hu
        have hsent : ∀ {ds : List Deal}, ((∀ s, Room s → count s i < t.body.maxInst) → ∀ d ∈ ds, d.sent = true) →
            (∀ s, Room s → count s i < t.body.maxInst) → ∀ d ∈ (⟨kept, ok, l⟩ :: ds : List Deal), d.sent = true := by
          intro ds k6 hR d hd
          rcases List.mem_cons.mp hd with rfl | hd
          · cases ok with
            | true => rfl
            | false =>
              have h1 := g6 rfl
              have h2 := hR _ hroom
              have h3 : t.body.maxInst ≤ count s1 i := h1
              omega
          · exact k6 hR d hd
        have hne : ∀ {ds : List Deal}, (∀ d ∈ ds, d.times ≠ []) → ∀ d ∈ (⟨kept, ok, l⟩ :: ds : List Deal), d.times ≠ [] := by
          intro ds k8 d hd
          rcases List.mem_cons.mp hd with rfl | hd
          · exact g1
          · exact k8 d hd
        cases kept with
        | true =>
          have hlon := (g2.ge hf hlo).1
          obtain ⟨ds, after, k1, k2, k3, k4, k5, k6, k7, k8⟩ := ih hw2 after1 hlon (by rw [he2, g5]; rfl)
          refine ⟨⟨true, ok, l⟩ :: ds, after, .kept g2 k1, k2, by simp; omega, ?_, later k5, hsent k6, htimes k7, hne k8⟩
          rw [List.flatMap_cons, k4, g7]
          cases ok <;> rfl
        | false =>
          obtain ⟨ds, after, k1, k2, k3, k4, k5, k6, k7, k8⟩ := ih hw2 (some r) hlo (by rw [he2, g5]; rfl)
          refine ⟨⟨false, ok, l⟩ :: ds, after, .again g2 k1, k2, by simp; omega, ?_, later k5, hsent k6, htimes k7, hne k8⟩
          rw [List.flatMap_cons, k4, g7]
          cases ok <;> rfl

/-- **C117.** A scheduler on persistent stores is killed any number of times, at any points of its passes, and started again each
time.  For a task whose trigger's answer depends only on the previous run time and goes forward:
* every successive time of its trigger up to the latest completed pass has been dealt with: handed to the executor if the task
  does not coalesce and there is room for it – otherwise the executor got a later time instead, or the maximum of instances was
  reached;
* nothing else was handed over: every time is a successive time of the trigger and not after the pass;
* no time was handed over more often than once and once more for each death;
* the task's next run time is the one that follows, or the task is gone because there is none. -/
theorem C117_recovery (L : LawfulStore O) (c : Cfg τ) (Room : State σ τ φ → Prop) (a i : String) (s s' : State σ τ φ) (hw : WF L s)
    (t : T τ φ) (ht : entry O s a i = some t) (r : Int) (hr : t.nrt = some r) (lo : Int) (hlo : lo ≤ r) (hf : Forward lo ans)
    (seen : List Seen) (h : Recovered L c (Regular t.body.trigger lo ans) Room a i t.body.executor s seen s') :
    (∀ u, (handedOver a i seen).count u ≤ 1 + deaths seen) ∧
    (∀ u ∈ handedOver a i seen, Successor ans r u ∧ ∃ p ∈ seen, u ≤ p.now) ∧
    ((∀ s, Room s → count s i < t.body.maxInst) → ∀ u, Successor ans r u → (∃ p ∈ seen, p.complete = true ∧ u ≤ p.now) →
      if t.body.coalesce = true then ∃ v ∈ handedOver a i seen, u ≤ v else u ∈ handedOver a i seen) ∧
    ∃ after, entry O s' a i = after.map (fun n => { t with nrt := some n }) ∧
      (∀ n, after = some n → Successor ans r n ∧ ∀ p ∈ seen, p.complete = true → p.now < n) ∧
      (after = none → ∃ u, Successor ans r u ∧ ans u = .ok none) := by
  have he : entry O s a i = (some r).map fun n => { t with nrt := some n } := by
    rw [ht]; cases t; simp only at hr; subst hr; rfl
  obtain ⟨ds, after, k1, k2, k3, k4, k5, k6, k7, k8⟩ := recovered_chain L h hw t rfl lo hf (fun _ h => h) (some r)
    (fun q hq => by cases hq; exact hlo) he
  have hlo' : ∀ q, some r = some q → lo ≤ q := fun q hq => by cases hq; exact hlo
  have hho : handedOver a i seen = (ds.filter (·.sent)).flatMap (fun d => handed t.body.coalesce d.times) := by
    have : handedOver a i seen = (seen.flatMap (fun p => sends a i p.obs)).flatMap (·.2) := by
      rw [List.flatMap_assoc]; rfl
    rw [this, k4, List.flatMap_map]
  have hsub : ∀ (co : Bool) (l : List Int), (handed co l).Sublist l := by
    intro co l
    unfold handed
    split
    · cases hl : l.getLast? with
      | none => simp
      | some x => simpa using List.mem_of_getLast? hl
    · exact List.Sublist.refl _
  have hkept := k1.kept_answered
  refine ⟨fun u => ?_, fun u hu => ?_, fun hR u hu hp => ?_, after, k2, fun n hn => ?_, fun hn => ?_⟩
  · have h1 := k1.count hf hlo' u
    have h2 : (handedOver a i seen).count u ≤ (ds.flatMap (·.times)).count u := by
      rw [hho]
      clear k1 k2 k3 k4 k5 k6 k7 k8 h1 hho hkept
      induction ds with
      | nil => simp
      | cons d ds ih =>
        rw [List.filter_cons, List.flatMap_cons, List.count_append]
        have := (hsub t.body.coalesce d.times).count_le u
        split
        · rw [List.flatMap_cons, List.count_append]; omega
        · omega
    omega
  · rw [hho] at hu
    obtain ⟨d, hd, hu⟩ := List.mem_flatMap.mp hu
    have hd := (List.mem_filter.mp hd).1
    have hu := (hsub _ _).subset hu
    refine ⟨?_, k7 d hd u hu⟩
    -- a time of a deal is a successor
    have inA : ∀ {x y : Option Int} {l : List Int}, Answered ans x l y → u ∈ l → ∃ l', Answered ans x l' (some u) := by
      intro x y l h
      induction h with
      | nil => intro hu; simp at hu
      | @cons r y x l e h ih =>
        intro hu
        by_cases hru : u = r
        · subst hru; exact ⟨[], .nil _⟩
        · obtain ⟨l', h'⟩ := ih (by simpa [hru] using hu)
          exact ⟨r :: l', .cons e h'⟩
    have inC : ∀ {x z : Option Int} {ds : List Deal}, Chain ans x ds z → d ∈ ds → ∃ l', Answered ans x l' (some u) := by
      intro x z ds h
      induction h with
      | nil => intro hd; simp at hd
      | @kept x y z ok l ds h hr ih =>
        intro hd
        rcases List.mem_cons.mp hd with rfl | hd
        · exact inA h hu
        · obtain ⟨l', h'⟩ := ih hd
          exact ⟨l ++ l', h.append h'⟩
      | @again x y z ok l ds h hr ih =>
        intro hd
        rcases List.mem_cons.mp hd with rfl | hd
        · exact inA h hu
        · exact ih hd
    exact inC k1 hd
  · obtain ⟨p, hp, hc, hle⟩ := hp
    obtain ⟨l', hu⟩ := hu
    have hin : u ∈ (ds.filter (·.kept)).flatMap (·.times) := by
      rcases hkept.covers hu with h1 | ⟨l'', h1⟩
      · exact h1
      · cases after with
        | none => cases h1
        | some q =>
          have h2 := k5 p hp hc q rfl
          have hq := (hkept.ge hf hlo').1 q rfl
          have := h1.mono hf q rfl hq u rfl
          omega
    obtain ⟨d, hd, hud⟩ := List.mem_flatMap.mp hin
    have hd := (List.mem_filter.mp hd).1
    have hds : d ∈ ds.filter (·.sent) := List.mem_filter.mpr ⟨hd, k6 hR d hd⟩
    rw [hho]
    split
    · rename_i hco
      -- the last time of the deal
      have hincr : d.times.Pairwise (· < ·) := by
        have inC : ∀ {x z : Option Int} {ds : List Deal}, Chain ans x ds z → (∀ q, x = some q → lo ≤ q) → d ∈ ds →
            d.times.Pairwise (· < ·) := by
          intro x z ds h
          induction h with
          | nil => intro _ hd; simp at hd
          | @kept x y z ok l ds h hr ih =>
            intro hx hd
            rcases List.mem_cons.mp hd with rfl | hd
            · exact h.increasing hf hx
            · exact ih (h.ge hf hx).1 hd
          | @again x y z ok l ds h hr ih =>
            intro hx hd
            rcases List.mem_cons.mp hd with rfl | hd
            · exact h.increasing hf hx
            · exact ih hx hd
        exact inC k1 hlo' hd
      obtain ⟨v, hv⟩ : ∃ v, d.times.getLast? = some v := ⟨_, List.getLast?_eq_some_getLast (k8 d hd)⟩
      refine ⟨v, List.mem_flatMap.mpr ⟨d, hds, by simp [handed, hco, hv]⟩, ?_⟩
      generalize d.times = l at hincr hv hud
      induction l with
      | nil => simp at hud
      | cons b l ih =>
        rw [List.pairwise_cons] at hincr
        cases l with
        | nil => simp at hv hud; omega
        | cons b' l =>
          have hv' : (b' :: l).getLast? = some v := by simpa using hv
          rcases List.mem_cons.mp hud with rfl | hud
          · have := hincr.1 v (List.mem_of_getLast? hv'); omega
          · exact ih hincr.2 hv' hud
    · rename_i hco
      exact List.mem_flatMap.mpr ⟨d, hds, by simp only [handed, if_neg hco]; exact hud⟩
  · subst hn
    exact ⟨⟨_, hkept⟩, fun p hp hc => k5 p hp hc n rfl⟩
  · subst hn
    generalize (ds.filter (·.kept)).flatMap (·.times) = l at hkept
    have hne : l ≠ [] := fun h => by rw [h] at hkept; cases hkept
    obtain ⟨v, hv⟩ : ∃ v, l.getLast? = some v := ⟨_, List.getLast?_eq_some_getLast hne⟩
    refine ⟨v, ?_, hkept.last hv⟩
    have inA : ∀ {x y : Option Int} {l : List Int}, Answered ans x l y → v ∈ l → ∃ l', Answered ans x l' (some v) := by
      intro x y l h
      induction h with
      | nil => intro hu; simp at hu
      | @cons r y x l e h ih =>
        intro hu
        by_cases hru : v = r
        · subst hru; exact ⟨[], .nil _⟩
        · obtain ⟨l', h'⟩ := ih (by simpa [hru] using hu)
          exact ⟨r :: l', .cons e h'⟩
    exact inA hkept (List.mem_of_getLast? hv)

/-! ## Interval triggers -/

/-- the successive times of an interval trigger -/
theorem interval_successor {E : TzEnv} (hE : E.Fixed) (tz : Nat) (g : Interval) (hj : g.jitter = none) (r u : Int) :
    Successor (fun p => Trig.next E tz (fun _ => 0) 0 (.interval g) (some p) p) r u ↔
      ∃ k : Nat, u = r + k * g.interval ∧ ∀ j : Nat, 0 < j → j ≤ k → g.WithinEnd E tz (r + j * g.interval) := by
  have hinst : ∀ u, (Dt.ofInst E tz u).inst E = u := fun u => Dt.inst_ofInst tz u (hE.lawful tz)
  have step : ∀ q, (g.WithinEnd E tz (q + g.interval) ∧
      Trig.next E tz (fun _ => 0) 0 (.interval g) (some q) q = .ok (some (q + g.interval))) ∨
      (¬ g.WithinEnd E tz (q + g.interval) ∧ Trig.next E tz (fun _ => 0) 0 (.interval g) (some q) q = .ok none) := by
    intro q
    rcases Interval.C12_interval_step_partial hE g hj tz (Dt.ofInst E tz q) (Dt.ofInst E tz q) 0 with ⟨hwe, d, hq, hq'⟩ | ⟨hwe, hq⟩
    · rw [hinst] at hq' hwe
      exact .inl ⟨hwe, by simp only [Trig.next, Option.map_some, hq, toInst, hq']⟩
    · rw [hinst] at hwe
      exact .inr ⟨hwe, by simp only [Trig.next, Option.map_some, hq, toInst, Option.map_none]⟩
  constructor
  · rintro ⟨l, h⟩
    induction l generalizing r with
    | nil => cases h; exact ⟨0, by simp, fun j h1 h2 => by omega⟩
    | cons b l ih =>
      have hbr : b = r := by cases h; rfl
      subst hbr
      cases h with
      | cons e h =>
        rcases step b with ⟨h1, h2⟩ | ⟨h1, h2⟩
        · rw [h2] at e
          cases e
          obtain ⟨k, hk, hj⟩ := ih _ h
          refine ⟨k + 1, by rw [hk]; push_cast; rw [Int.add_mul]; omega, fun j h3 h4 => ?_⟩
          cases j with
          | zero => omega
          | succ j =>
            have hc : b + ((j + 1 : Nat) : Int) * g.interval = b + g.interval + j * g.interval := by push_cast; rw [Int.add_mul]; omega
            rw [hc]
            cases j with
            | zero => simpa using h1
            | succ j => exact hj (j + 1) (by omega) (by omega)
        · rw [h2] at e
          cases e
          cases h
  · rintro ⟨k, hk, hj⟩
    induction k generalizing r with
    | zero => exact ⟨[], by simp at hk; rw [hk]; exact .nil _⟩
    | succ k ih =>
      have h1 := hj 1 (by omega) (by omega)
      rw [show ((1 : Nat) : Int) = 1 from rfl, Int.one_mul] at h1
      rcases step r with ⟨_, h2⟩ | ⟨h3, _⟩
      · obtain ⟨l, hl⟩ := ih (r + g.interval) (by rw [hk]; push_cast; rw [Int.add_mul]; omega) (fun j h3 h4 => by
          have := hj (j + 1) (by omega) (by omega)
          have hc : r + ((j + 1 : Nat) : Int) * g.interval = r + g.interval + j * g.interval := by push_cast; rw [Int.add_mul]; omega
          rw [hc] at this
          exact this)
        exact ⟨r :: l, .cons h2 hl⟩
      · exact absurd h1 h3

/-- **C117** for a task that runs every `interval` (zone of constant offset, no jitter), does not coalesce and has room for its
instances: whatever the deaths, each of `r`, `r + interval`, ... up to the latest completed pass (and the end date) was handed to
the executor, at least once and at most `1 + deaths` times, and nothing else was. -/
theorem C117_interval {σ φ : Type} {O : StoreOps σ (Body Trig φ)} {E : TzEnv} (hE : E.Fixed) (tz : Nat) (L : LawfulStore O) (c : Cfg Trig)
    (a i : String) (s s' : State σ Trig φ) (hw : WF L s) (t : T Trig φ) (ht : entry O s a i = some t) (g : Interval)
    (hg : t.body.trigger = .interval g) (hI : 0 < g.interval) (hj : g.jitter = none) (hco : t.body.coalesce = false)
    (r : Int) (hr : t.nrt = some r) (seen : List Seen)
    (h : Recovered L c (fun e => ∃ draw, e.next = Trig.next E tz draw) (fun s => count s i < t.body.maxInst) a i t.body.executor s seen s') :
    (∀ u, (handedOver a i seen).count u ≤ 1 + deaths seen) ∧
    (∀ u ∈ handedOver a i seen, ∃ k : Nat, u = r + k * g.interval) ∧
    ∀ k : Nat, (∀ j : Nat, 0 < j → j ≤ k → g.WithinEnd E tz (r + j * g.interval)) →
      (∃ p ∈ seen, p.complete = true ∧ r + k * g.interval ≤ p.now) → r + k * g.interval ∈ handedOver a i seen := by
  obtain ⟨hf, hreg⟩ := builtin_regular hE tz t.body.trigger (by rw [hg]; exact ⟨hI, hj⟩) r (by rw [hg]; trivial)
  have h' : Recovered L c (Regular t.body.trigger r (fun p => Trig.next E tz (fun _ => 0) 0 t.body.trigger (some p) p))
      (fun s => count s i < t.body.maxInst) a i t.body.executor s seen s' := by
    clear ht hr hw
    induction h with
    | done s => exact .done s
    | pass hm hg hl hx h hlog hroom _ ih => exact .pass hm (hreg _ hg) hl hx h hlog hroom ih
    | crash hm hg hl hx h hlog hroom hp hgone hs _ ih => exact .crash hm (hreg _ hg) hl hx h hlog hroom hp hgone hs ih
    | other hw he _ ih => exact .other hw he ih
  obtain ⟨k1, k2, k3, _⟩ := C117_recovery L c _ a i s s' hw t ht r hr r (Int.le_refl _) hf seen h'
  rw [hg] at k2 k3
  refine ⟨k1, fun u hu => ?_, fun k hk hp => ?_⟩
  · obtain ⟨k, hk, _⟩ := (interval_successor hE tz g hj r u).mp (k2 u hu).1
    exact ⟨k, hk⟩
  · have := k3 (fun _ h => h) _ ((interval_successor hE tz g hj r _).mpr ⟨k, rfl, hk⟩) hp
    rw [hco] at this
    simpa using this

/-- the answers of a cron trigger that starts from a run -/
private theorem cron_step {E : TzEnv} (hE : E.Fixed) (tz : Nat) (g : Cron.Trig) (hw : g.WfAll) (hj : g.jitter = none) (q : Int)
    (hcal : Trig.InCalendar E tz q (.cron g)) :
    (∃ n, Trig.next E tz (fun _ => 0) 0 (.cron g) (some q) q = .ok (some n) ∧ q < n ∧ Cron.FiresAt g.exprs (E (g.zone tz)) n ∧
      g.WithinEnd E tz n ∧ ∀ u, Cron.FiresAt g.exprs (E (g.zone tz)) u → q < u → n ≤ u) ∨
    ((∀ n, Trig.next E tz (fun _ => 0) 0 (.cron g) (some q) q ≠ .ok (some n)) ∧
      ∀ u, Cron.FiresAt g.exprs (E (g.zone tz)) u → q < u → ¬ g.WithinEnd E tz u) := by
  have hinst : ∀ u, (Dt.ofInst E tz u).inst E = u := fun u => Dt.inst_ofInst tz u (hE.lawful tz)
  obtain ⟨c, hc⟩ := hE (g.zone tz)
  have hcal' : 0 ≤ q + c := by simpa only [Trig.InCalendar, hc, Zone.fixed] using hcal
  have hfrom : Cron.searchFrom E g tz (some (Dt.ofInst E tz q)) (Dt.ofInst E tz q) = q + 1 := by
    simp only [Cron.searchFrom, hinst, if_neg (show ¬ q < q by omega)]
  have hy : 0 ≤ (Cron.startOf E g tz (some (Dt.ofInst E tz q)) (Dt.ofInst E tz q)).wall := by
    rw [wall_fixed (Cron.startOf_tz E g tz _ _) hc, Cron.startOf_inst hE, hc, hfrom]
    simp only [Zone.fixed]
    omega
  obtain ⟨x, hx⟩ := cron_total g hw tz (hE.lawful _) (some (Dt.ofInst E tz q)) (Dt.ofInst E tz q) 0 hy
  have hn : Trig.next E tz (fun _ => 0) 0 (.cron g) (some q) q = toInst E x := by
    simp only [Trig.next, Option.map_some, cronNext, hx]
  have hspec := Cron.C17_C18_cron_first_match_partial hE g hw hj tz _ _ 0 cronFuel hy x hx
  rw [hfrom] at hspec
  rcases hspec with ⟨d, rfl, hd1, hd2, hd3, hd4⟩ | ⟨hx', hno⟩
  · exact .inl ⟨d.inst E, by rw [hn]; rfl, by omega, hd2, hd1, fun u h1 h2 => hd4 u h1 (by omega)⟩
  · refine .inr ⟨fun n h => ?_, fun u h1 h2 => hno u h1 (by omega)⟩
    rw [hn] at h
    rcases hx' with rfl | ⟨y, rfl⟩ <;> simp [toInst] at h

/-- the successive times of a cron trigger from `r` on are `r` and the matching times after it, up to the end date -/
theorem cron_successor {E : TzEnv} (hE : E.Fixed) (tz : Nat) (g : Cron.Trig) (hw : g.WfAll) (hj : g.jitter = none) (r u : Int)
    (hcal : 0 ≤ ((E (g.zone tz)).loc r).1) :
    Successor (fun p => Trig.next E tz (fun _ => 0) 0 (.cron g) (some p) p) r u ↔
      u = r ∨ r < u ∧ Cron.FiresAt g.exprs (E (g.zone tz)) u ∧ g.WithinEnd E tz u := by
  obtain ⟨c, hc⟩ := hE (g.zone tz)
  have up : ∀ p q, p ≤ q → 0 ≤ ((E (g.zone tz)).loc p).1 → 0 ≤ ((E (g.zone tz)).loc q).1 := by
    intro p q h1 h2
    simp only [hc, Zone.fixed] at h2 ⊢
    omega
  constructor
  · rintro ⟨l, h⟩
    induction l generalizing r with
    | nil => cases h; exact .inl rfl
    | cons b l ih =>
      have hbr : b = r := by cases h; rfl
      subst hbr
      cases h with
      | cons e h =>
        rename_i y
        rcases cron_step hE tz g hw hj b hcal with ⟨n, h1, h2, h3, h4, _⟩ | ⟨h1, _⟩
        · rw [h1] at e
          cases e
          rcases ih n (up b n (by omega) hcal) h with rfl | ⟨k1, k2, k3⟩
          · exact .inr ⟨h2, h3, h4⟩
          · exact .inr ⟨by omega, k2, k3⟩
        · cases y with
          | none => cases h
          | some y => exact absurd e (h1 y)
  · intro h
    suffices H : ∀ (k : Nat) (r : Int), 0 ≤ ((E (g.zone tz)).loc r).1 → (u - r).toNat = k →
        (u = r ∨ r < u ∧ Cron.FiresAt g.exprs (E (g.zone tz)) u ∧ g.WithinEnd E tz u) →
        Successor (fun p => Trig.next E tz (fun _ => 0) 0 (.cron g) (some p) p) r u from H _ r hcal rfl h
    intro k
    induction k using Nat.strongRecOn with
    | _ k ih =>
      intro r hcal hk h
      rcases h with rfl | ⟨h1, h2, h3⟩
      · exact ⟨[], .nil _⟩
      · rcases cron_step hE tz g hw hj r hcal with ⟨n, k1, k2, k3, k4, k5⟩ | ⟨_, hno⟩
        · have hle := k5 u h2 h1
          obtain ⟨l, hl⟩ := ih (u - n).toNat (by omega) n (up r n (by omega) hcal) rfl
            (if hu : u = n then .inl hu else .inr ⟨by omega, h2, h3⟩)
          exact ⟨r :: l, .cons k1 hl⟩
        · exact absurd h3 (hno u h2 h1)

/-- **C117** for a task with a cron trigger (zone of constant offset, no jitter) that does not coalesce and has room for its
instances: whatever the deaths, `r` and each matching time of the calendar after it, up to the latest completed pass (and the end
date), was handed to the executor, at least once and at most `1 + deaths` times, and nothing else was. -/
theorem C117_cron {σ φ : Type} {O : StoreOps σ (Body Trig φ)} {E : TzEnv} (hE : E.Fixed) (tz : Nat) (L : LawfulStore O) (c : Cfg Trig)
    (a i : String) (s s' : State σ Trig φ) (hw : WF L s) (t : T Trig φ) (ht : entry O s a i = some t) (g : Cron.Trig)
    (hg : t.body.trigger = .cron g) (hwf : g.WfAll) (hj : g.jitter = none) (hco : t.body.coalesce = false)
    (r : Int) (hr : t.nrt = some r) (hcal : 0 ≤ ((E (g.zone tz)).loc r).1) (seen : List Seen)
    (h : Recovered L c (fun e => ∃ draw, e.next = Trig.next E tz draw) (fun s => count s i < t.body.maxInst) a i t.body.executor s seen s') :
    (∀ u, (handedOver a i seen).count u ≤ 1 + deaths seen) ∧
    (∀ u ∈ handedOver a i seen, u = r ∨ r < u ∧ Cron.FiresAt g.exprs (E (g.zone tz)) u ∧ g.WithinEnd E tz u) ∧
    ∀ u, (u = r ∨ r < u ∧ Cron.FiresAt g.exprs (E (g.zone tz)) u ∧ g.WithinEnd E tz u) →
      (∃ p ∈ seen, p.complete = true ∧ u ≤ p.now) → u ∈ handedOver a i seen := by
  obtain ⟨hf, hreg⟩ := builtin_regular hE tz t.body.trigger (by rw [hg]; exact ⟨hwf, hj⟩) r (by rw [hg]; exact hcal)
  have h' : Recovered L c (Regular t.body.trigger r (fun p => Trig.next E tz (fun _ => 0) 0 t.body.trigger (some p) p))
      (fun s => count s i < t.body.maxInst) a i t.body.executor s seen s' := by
    clear ht hr hw
    induction h with
    | done s => exact .done s
    | pass hm hg hl hx h hlog hroom _ ih => exact .pass hm (hreg _ hg) hl hx h hlog hroom ih
    | crash hm hg hl hx h hlog hroom hp hgone hs _ ih => exact .crash hm (hreg _ hg) hl hx h hlog hroom hp hgone hs ih
    | other hw he _ ih => exact .other hw he ih
  obtain ⟨k1, k2, k3, _⟩ := C117_recovery L c _ a i s s' hw t ht r hr r (Int.le_refl _) hf seen h'
  rw [hg] at k2 k3
  refine ⟨k1, fun u hu => (cron_successor hE tz g hwf hj r u hcal).mp (k2 u hu).1, fun u hu hp => ?_⟩
  have := k3 (fun _ h => h) _ ((cron_successor hE tz g hwf hj r u hcal).mpr hu) hp
  rw [hco] at this
  simpa using this

/-! ## The points and the pass -/

/-- dying after the last store: all is done but the events of the submissions are lost -/
theorem crash_at_end {c : Cfg τ} {e : Env τ} {fuel : Nat} {s s' : State σ τ φ} {w : Option Int} (hm : s.mode ≠ .paused)
    (hl : e.procLock = true) (h : processTasks O c e fuel s = some (s', .ok w)) (n : Nat) (b : Bool) :
    ∃ s1 evs, crashPass O c e fuel ⟨s.stores.keys.length, n, b⟩ s = some s1 ∧ s' = { s1 with log := s1.log ++ evs } := by
  rw [processTasks, if_neg hm, if_pos hl] at h
  split at h
  · cases h
  · cases h
  · rename_i s1 r hr
    cases h
    refine ⟨s1, r.1, ?_, rfl⟩
    rw [crashPass, if_neg hm, if_pos hl, List.take_length, hr]
    simp

/-- dying when all due tasks of a store are done is dying after that store -/
theorem crash_after_store {c : Cfg τ} {e : Env τ} {fuel : Nat} {a : String} {w : Option Int} {s s' : State σ τ φ}
    {r : List Obs × Option Int} (h : processStore O c e fuel a w s = some (s', .ok r)) (n : Nat)
    (hn : ∀ st, s.stores.get? a = some st → (O.due st e.now).length ≤ n) (b : Bool) :
    crashStore O e fuel n b a s = some s' := by
  rw [processStore] at h
  rw [crashStore]
  cases hg : s.stores.get? a with
  | none => rw [hg] at h; cases h; rfl
  | some st =>
    rw [hg] at h
    simp only at h ⊢
    by_cases hl : (e.storeLock a && e.dueOk a) = true
    · rw [if_pos hl] at h
      rw [if_pos hl, List.take_of_length_le (hn st hg)]
      cases hp : processDue O e fuel a (O.due st e.now) s with
      | none => rw [hp] at h; cases h
      | some x =>
        obtain ⟨s1, x⟩ := x
        rw [hp] at h
        cases x with
        | error x => cases h
        | ok v =>
          simp only [Option.some.injEq, Prod.mk.injEq] at h
          obtain ⟨rfl, _⟩ := h
          simp only
          have : (O.due st e.now)[n]? = none := List.getElem?_eq_none (hn st hg)
          rw [this]
          cases b <;> rfl
    · rw [if_neg hl] at h
      rw [if_neg hl]
      cases h
      rfl

/-- what is done with a due task is handing it over and then storing its next time -/
theorem task_in_two_steps {e : Env τ} {fuel : Nat} {a : String} {t : T τ φ} {s s' : State σ τ φ} {evs : List Obs}
    (hx : (s.executors.get? t.body.executor).isSome = true) (h : processTask O e fuel a t s = some (s', .ok evs)) :
    ∃ s1, handOver e fuel a t s = some s1 ∧ (s' = s1 ∨ ∃ last, reschedule O e a t last s1 = (s', .ok ())) := by
  rw [processTask] at h
  rw [handOver]
  cases hg : s.executors.get? t.body.executor with
  | none => rw [hg] at hx; cases hx
  | some x =>
    rw [hg] at h
    simp only at h ⊢
    cases hr : runTimes e t.body.trigger fuel t.nrt with
    | none => rw [hr] at h; cases h
    | some q =>
      cases q with
      | error x => rw [hr] at h; cases h
      | ok all =>
        rw [hr] at h
        simp only at h ⊢
        cases hla : (coalesce t.body.coalesce all).1.getLast? with
        | none => rw [hla] at h; cases h; exact ⟨s, rfl, .inl rfl⟩
        | some last =>
          rw [hla] at h
          simp only at h ⊢
          refine ⟨_, rfl, .inr ⟨last, ?_⟩⟩
          cases hre : reschedule O e a t last (sendTask e t.body.executor a t (coalesce t.body.coalesce all).1 s).1 with
          | mk s2 q =>
            rw [hre] at h
            cases q with
            | error x => cases h
            | ok v => simp only [Option.some.injEq, Prod.mk.injEq] at h; rw [h.1]

/-- dying after `n + 1` tasks of a store is dying after `n` of them and the rest of the next one -/
theorem crash_between {e : Env τ} {fuel : Nat} {a : String} (ts ts' : List (T τ φ)) {s s' : State σ τ φ} {evs : List Obs}
    (h : processDue O e fuel a (ts ++ ts') s = some (s', .ok evs)) :
    ∃ s1 evs1 evs2, processDue O e fuel a ts s = some (s1, .ok evs1) ∧ processDue O e fuel a ts' s1 = some (s', .ok evs2) ∧
      evs = evs1 ++ evs2 := by
  induction ts generalizing s evs with
  | nil => exact ⟨s, [], evs, rfl, h, rfl⟩
  | cons t ts ih =>
    rw [List.cons_append, processDue] at h
    rw [processDue]
    cases hp : processTask O e fuel a t s with
    | none => rw [hp] at h; cases h
    | some r =>
      obtain ⟨s1, r⟩ := r
      rw [hp] at h
      cases r with
      | error x => cases h
      | ok v =>
        simp only at h ⊢
        cases hq : processDue O e fuel a (ts ++ ts') s1 with
        | none => rw [hq] at h; cases h
        | some r2 =>
          obtain ⟨s2, r2⟩ := r2
          rw [hq] at h
          cases r2 with
          | error x => cases h
          | ok v2 =>
            simp only [Option.some.injEq, Prod.mk.injEq, Except.ok.injEq] at h
            obtain ⟨rfl, rfl⟩ := h
            obtain ⟨s3, e1, e2, h1, h2, h3⟩ := ih hq
            exact ⟨s3, v ++ e1, e2, by rw [h1], h2, by rw [h3, List.append_assoc]⟩

/-! ## Example: the scheduler of `EndToEnd`, killed right after it has handed over the run of 5 s -/

/-- what happens in the example: a pass at the time, killed at a point or not -/
def exLives (E : TzEnv) (c : Cfg Trig) : List (Int × Option Point) → State (Memory.Store (Body Trig Unit)) Trig Unit →
    Option (List Seen × State (Memory.Store (Body Trig Unit)) Trig Unit)
  | [], s => some ([], s)
  | (now, none) :: l, s =>
    match processTasks Memory.ops c (envAt E 0 now) 50 s with
    | some (s', .ok _) =>
      if count s' "tick" < 3 then (exLives E c l s').map fun p => (⟨true, now, s'.log.drop s.log.length⟩ :: p.1, p.2) else none
    | _ => none
  | (now, some p) :: l, s =>
    match crashPass Memory.ops c (envAt E 0 now) 50 p s with
    | some s' =>
      match start Memory.ops c (envAt E 0 now) false (newProcess [("default", 0)] [] s') with
      | (s1, .ok true) =>
        if s1.mode = .running ∧ (s1.executors.get? "default").isSome = true ∧ count s' "tick" < 3 then
          (exLives E c l s1).map fun q => (⟨false, now, s'.log.drop s.log.length⟩ :: q.1, q.2)
        else none
      | _ => none
    | none => none

/-- such lives are histories in the sense of the theorem -/
theorem exLives_recovered {E : TzEnv} {c : Cfg Trig} {a i : String} {l : List (Int × Option Point)} {s s' : State (Memory.Store (Body Trig Unit)) Trig Unit} {seen : List Seen}
    (hw : WF (Memory.lawful (β := Body Trig Unit)) s) (hm : s.mode = .running) (hx : (s.executors.get? "default").isSome = true)
    (h : exLives E c l s = some (seen, s')) :
    Recovered Memory.lawful c (fun e => ∃ draw, e.next = Trig.next E 0 draw) (fun s => count s "tick" < 3) a i "default" s seen s' := by
  induction l generalizing s seen with
  | nil => simp only [exLives, Option.some.injEq, Prod.mk.injEq] at h; rw [← h.1, ← h.2]; exact .done s
  | cons q l ih =>
    obtain ⟨now, p⟩ := q
    cases p with
    | none =>
      rw [exLives] at h
      split at h
      · rename_i s1 w hp
        split at h
        · rename_i hroom
          cases hr : exLives E c l s1 with
          | none => rw [hr] at h; cases h
          | some p =>
            rw [hr] at h
            simp only [Option.map_some, Option.some.injEq, Prod.mk.injEq] at h
            obtain ⟨rfl, rfl⟩ := h
            obtain ⟨new, evs, wake, z1, z2, z3, _⟩ := processTasks_spec Memory.lawful hw hm (e := envAt E 0 now) rfl hp
            refine .pass (e := envAt E 0 now) hm ⟨_, rfl⟩ ⟨rfl, rfl, rfl⟩ ⟨hx, rfl⟩ hp ?_ hroom
              (ih z3 (by rw [z2.mode, hm]) (by rw [z2.executors]; exact hx) hr)
            rw [z1, List.append_assoc, List.drop_left]
        · cases h
      · cases h
    | some p =>
      rw [exLives] at h
      split at h
      · rename_i s1 hp
        split at h
        · rename_i s2 hs
          split at h
          · rename_i hmx
            cases hr : exLives E c l s2 with
            | none => rw [hr] at h; cases h
            | some q =>
              rw [hr] at h
              simp only [Option.map_some, Option.some.injEq, Prod.mk.injEq] at h
              obtain ⟨rfl, rfl⟩ := h
              obtain ⟨obs, z1, z2, _, _⟩ := crashPass_task (ans := fun _ => .ok none) Memory.lawful hw hm a i
                (e := envAt E 0 now) ⟨rfl, rfl, rfl⟩ hp
              obtain ⟨hw2, _⟩ := restart_entry Memory.lawful z2 a i (by simp) (by simp) hs
              refine .crash (e := envAt E 0 now) hm ⟨_, rfl⟩ ⟨rfl, rfl, rfl⟩ ⟨hx, rfl⟩ hp ?_ hmx.2.2 (by simp) (by simp) hs
                (ih hw2 hmx.1 hmx.2.1 hr)
              rw [z1, List.drop_left]
          · cases h
        · cases h
      · cases h

/-- the lives of the example: killed at 7 s after handing over the run of 5 s, killed at 33 s before anything, killed at 34 s
after the first task was done, then passes at 36 s and 70 s -/
def exStory : List (Int × Option Point) :=
  [(secs 7, some ⟨0, 0, true⟩), (secs 33, some ⟨0, 0, false⟩), (secs 34, some ⟨0, 1, false⟩), (secs 36, none), (secs 70, none)]

-- the hypotheses of `C117_recovery` and `C117_interval` are met (`exLives_recovered`); the run of 5 s is handed over twice
example : (exLives exEnv exTrigCfg exStory exTrigState).map (fun p =>
      (handedOver "s" "tick" p.1, deaths p.1, p.1.map (fun q => (submitted "s" "tick" q.obs).flatten),
       (entry Memory.ops p.2 "s" "tick").map (·.nrt))) =
    some ([secs 5, secs 5, secs 15, secs 25, secs 35, secs 45, secs 55, secs 65], 3,
      [[secs 5], [], [secs 5, secs 15, secs 25], [secs 35], [secs 45, secs 55, secs 65]], some (some (secs 75))) := by decide +kernel

/-- a task that runs at second 30 of each minute, next at 00:00:30 -/
def exHalfState : State (Memory.Store (Body Trig Unit)) Trig Unit :=
  { exTrigState with stores := [("s", Memory.after [.add ⟨"tick", some (day 30), ⟨.cron ⟨exHalf, none, none, none, none⟩, "default", "s", false, 3, none, false, ()⟩⟩])] }

-- the same for `C117_cron`: killed at 40 s after handing over the run of 30 s, at 100 s before anything, a pass at 160 s
example : (exLives exEnv exTrigCfg [(day 40, some ⟨0, 0, true⟩), (day 100, some ⟨0, 0, false⟩), (day 160, none)] exHalfState).map (fun p =>
      (handedOver "s" "tick" p.1, deaths p.1, (entry Memory.ops p.2 "s" "tick").map (·.nrt))) =
    some ([day 30, day 30, day 90, day 150], 2, some (some (day 210))) := by decide +kernel

/-- the same death, but the program of the next process adds the task again, with `replace_existing`, before it starts -/
def exReplaced : Option (List (String × List Int) × Option (Option Int)) :=
  match crashPass Memory.ops exTrigCfg (envAt exEnv 0 (secs 7)) 50 ⟨0, 0, false⟩ exTrigState with
  | none => none
  | some s' =>
    match start Memory.ops exTrigCfg (envAt exEnv 0 (secs 33)) false (newProcess [("default", 0)]
      [(⟨"tick", none, ⟨.interval exEvery, "default", "s", false, 3, none, false, ()⟩⟩, true, true)] s') with
    | (s1, _) => some (sends "s" "tick" s1.log, (entry Memory.ops s1 "s" "tick").map (·.nrt))

/-- **C117, limit**: a program that adds its tasks again with `replace_existing` whenever it starts loses the runs that were
missed in between: the task of the example was due at 5, 15 and 25 s, none of them handed over, and after the start at 33 s its next
run is at 40 s. -/
theorem C117_replace_witness : exReplaced = some ([], some (some (secs 40))) := by decide +kernel

end Sched
end Asyncz
