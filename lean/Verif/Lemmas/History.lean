import Verif.Model.History
import Verif.Props.Dash
/-!
# The run history refines its specification (lemmas for C49)
-/
namespace Asyncz
namespace Hist
open Listing (Text isIn orEmpty)
open Dash (truthy scan joinSpace Str)
open Spec (Status Report Run)

/-- the run a record is about -/
def keyOf (iso : Int → Text) (r : Rec) : Key := runKey iso r.task r.store r.time

/-- what a record says, as the specification puts it -/
def view (iso : Int → Text) (r : Rec) : Run Key :=
  ⟨keyOf iso r, r.status, r.submittedAt, r.finishedAt⟩

structure Inv (rid : Key → Text) (iso : Int → Text) (K : Key → Prop) (m : Nat) (s : State) : Prop where
  order : s.order = s.records.keys
  wf : s.records.WF
  kwf : s.keyIndex.WF
  id : ∀ r rec, (r, rec) ∈ s.records →
    rec.runId = r ∧ rid (keyOf iso rec) = r ∧ K (keyOf iso rec)
  idx : ∀ k r, s.keyIndex.get? k = some r ↔ ∃ rec, (r, rec) ∈ s.records ∧ keyOf iso rec = k
  len : s.records.length ≤ m

theorem Inv.empty (rid : Key → Text) (iso : Int → Text) (K : Key → Prop) (m : Nat) :
    Inv rid iso K m State.empty where
  order := rfl
  wf := Dict.WF.nil
  kwf := Dict.WF.nil
  id := by intro r rec h; cases h
  idx := by
    intro k r
    constructor
    · intro h; cases h
    · rintro ⟨_, h, _⟩; cases h
  len := Nat.zero_le _

theorem set_present {κ ν : Type} [DecidableEq κ] (d : Dict κ ν) (hw : d.WF) (k : κ) (v : ν)
    (h : k ∈ d.keys) : d.set k v = d.map fun p => if p.1 = k then (p.1, v) else p := by
  induction d with
  | nil => cases h
  | cons a d ih =>
    obtain ⟨a, b⟩ := a
    simp only [Dict.WF, List.map_cons, List.nodup_cons] at hw
    simp only [Dict.set, List.map_cons]
    by_cases ha : a = k
    · subst ha
      simp only [if_true]
      congr 1
      have : d.map (fun p => if p.1 = a then (p.1, v) else p) = d.map id := by
        apply List.map_congr_left
        intro p hp
        rw [if_neg]
        · rfl
        · intro e
          exact hw.1 (e ▸ List.mem_map_of_mem hp)
      rw [this, List.map_id]
    · have hk : k ∈ Dict.keys d := by
        simp only [Dict.keys, List.map_cons, List.mem_cons] at h
        rcases h with h | h
        · exact absurd h.symm ha
        · exact h
      simp only [ha, if_false]
      rw [ih hw.2 hk]

theorem set_set {κ ν : Type} [DecidableEq κ] (d : Dict κ ν) (k : κ) (v w : ν) :
    (d.set k v).set k w = d.set k w := by
  induction d with
  | nil => simp [Dict.set]
  | cons a d ih =>
    obtain ⟨a, b⟩ := a
    by_cases ha : a = k <;> simp [Dict.set, ha, ih]

/-- writing to a record that is in the history -/
theorem Inv.set {rid : Key → Text} {iso : Int → Text} {K : Key → Prop} {m : Nat} {s : State}
    (h : Inv rid iso K m s) {r : Text} {old new : Rec} (hm : (r, old) ∈ s.records)
    (hid : new.runId = r) (hk : keyOf iso new = keyOf iso old) :
    Inv rid iso K m { s with records := s.records.set r new } := by
  have hr : r ∈ s.records.keys := Dict.mem_keys_of_mem hm
  have hmem : ∀ r' rec', (r', rec') ∈ s.records.set r new ↔
      (r' = r ∧ rec' = new) ∨ (r' ≠ r ∧ (r', rec') ∈ s.records) := by
    intro r' rec'
    rw [← Dict.get?_iff_mem (h.wf.set _ _), Dict.get?_set, ← Dict.get?_iff_mem h.wf]
    by_cases e : r' = r
    · simp [e, eq_comm]
    · simp [e]
  refine ⟨?_, h.wf.set _ _, h.kwf, ?_, ?_, ?_⟩
  · simp only [h.order, Dict.keys_set, hr, if_true]
  · intro r' rec' h'
    rcases (hmem _ _).1 h' with ⟨rfl, rfl⟩ | ⟨_, h'⟩
    · rw [hk]; exact ⟨hid, (h.id _ _ hm).2⟩
    · exact h.id _ _ h'
  · intro k r'
    rw [h.idx]
    constructor
    · rintro ⟨rec, hrec, hkk⟩
      by_cases e : r' = r
      · subst e
        refine ⟨new, (hmem _ _).2 (.inl ⟨rfl, rfl⟩), ?_⟩
        have : rec = old := by
          have h1 := Dict.get?_of_mem h.wf hrec
          rw [Dict.get?_of_mem h.wf hm] at h1
          exact (Option.some.inj h1).symm
        rw [hk, ← hkk, this]
      · exact ⟨rec, (hmem _ _).2 (.inr ⟨e, hrec⟩), hkk⟩
    · rintro ⟨rec, hrec, hkk⟩
      rcases (hmem _ _).1 hrec with ⟨rfl, rfl⟩ | ⟨_, h'⟩
      · exact ⟨old, hm, by rw [← hkk, hk]⟩
      · exact ⟨rec, h', hkk⟩
  · have h1 := congrArg List.length (Dict.keys_set s.records r new)
    rw [if_pos hr] at h1
    simp only [Dict.keys, List.length_map] at h1
    simp only [h1]
    exact h.len

theorem trim_eq (iso : Int → Text) (m : Nat) (recs : Dict Text Rec) (idx : Dict Key Text)
    (hl : recs.length ≤ m + 1) :
    (recs.length ≤ m ∧ trim iso m recs idx recs.keys = ⟨recs, recs.keys, idx⟩) ∨
    ∃ r0 old rest, recs = (r0, old) :: rest ∧ rest.length = m ∧
      trim iso m recs idx recs.keys = ⟨rest, Dict.keys rest, idx.erase (keyOf iso old)⟩ := by
  match recs, hl with
  | [], _ => left; exact ⟨Nat.zero_le _, rfl⟩
  | (r0, old) :: rest, hl =>
    simp only [List.length_cons, Nat.add_le_add_iff_right] at hl
    by_cases h : rest.length = m
    · right
      refine ⟨r0, old, rest, rfl, h, ?_⟩
      simp only [Dict.keys, List.map_cons, trim, List.length_cons, List.length_map, h, gt_iff_lt,
        Nat.lt_add_one, if_true, Dict.get?, Dict.erase]
      cases rest with
      | nil => rfl
      | cons p rest =>
        have : ¬ (rest.length + 1 > m) := by
          simp only [List.length_cons] at h; omega
        simp only [List.map_cons, trim, List.length_cons, List.length_map, this, if_false]
        rfl
    · left
      have h' : rest.length + 1 ≤ m := by omega
      refine ⟨h', ?_⟩
      simp only [Dict.keys, List.map_cons, trim, List.length_cons, List.length_map, gt_iff_lt,
        show ¬ (m < rest.length + 1) from by omega, if_false]

/-- adding a run that is not in the history -/
theorem Inv.add {rid : Key → Text} {iso : Int → Text} {K : Key → Prop} {m : Nat} {s : State}
    (hinj : ∀ k k', K k → K k' → rid k = rid k' → k = k')
    (h : Inv rid iso K m s) (new : Rec) (hnone : s.keyIndex.get? (keyOf iso new) = none)
    (hK : K (keyOf iso new)) (hid : new.runId = rid (keyOf iso new)) :
    ∃ s', trim iso m (s.records.set new.runId new) (s.keyIndex.set (keyOf iso new) new.runId)
        (s.order ++ [new.runId]) = s' ∧ Inv rid iso K m s' ∧
      s'.records = Dash.Spec.newest m (s.records ++ [(new.runId, new)]) := by
  have hfreshk : ∀ r rec, (r, rec) ∈ s.records → keyOf iso rec ≠ keyOf iso new := by
    intro r rec hm e
    have := (h.idx (keyOf iso new) r).2 ⟨rec, hm, e⟩
    rw [hnone] at this
    cases this
  have hfresh : new.runId ∉ s.records.keys := by
    intro hm
    obtain ⟨⟨r, rec⟩, hp, he⟩ := List.mem_map.1 hm
    have h1 := h.id r rec hp
    simp only at he
    exact hfreshk r rec hp (hinj _ _ h1.2.2 hK (by rw [h1.2.1, he, hid]))
  have hset : s.records.set new.runId new = s.records ++ [(new.runId, new)] :=
    Dash.set_fresh _ _ _ hfresh
  have hord : s.order ++ [new.runId] = Dict.keys (s.records ++ [(new.runId, new)]) := by
    rw [h.order]; simp [Dict.keys]
  have hw : Dict.WF (s.records ++ [(new.runId, new)]) := hset ▸ h.wf.set _ _
  have hids : ∀ r rec, (r, rec) ∈ s.records ++ [(new.runId, new)] →
      rec.runId = r ∧ rid (keyOf iso rec) = r ∧ K (keyOf iso rec) := by
    intro r rec hm
    rcases List.mem_append.1 hm with hm | hm
    · exact h.id r rec hm
    · simp only [List.mem_singleton, Prod.mk.injEq] at hm
      obtain ⟨rfl, rfl⟩ := hm
      exact ⟨rfl, hid.symm, hK⟩
  have hidx : ∀ k r, (s.keyIndex.set (keyOf iso new) new.runId).get? k = some r ↔
      ∃ rec, (r, rec) ∈ s.records ++ [(new.runId, new)] ∧ keyOf iso rec = k := by
    intro k r
    rw [Dict.get?_set]
    by_cases e : k = keyOf iso new
    · subst e
      simp only [if_true, Option.some.injEq]
      constructor
      · rintro rfl
        exact ⟨new, by simp, rfl⟩
      · rintro ⟨rec, hm, hk⟩
        rcases List.mem_append.1 hm with hm | hm
        · exact absurd hk (hfreshk r rec hm)
        · simp only [List.mem_singleton, Prod.mk.injEq] at hm
          exact hm.1.symm
    · simp only [e, if_false, h.idx]
      constructor
      · rintro ⟨rec, hm, hk⟩
        exact ⟨rec, List.mem_append_left _ hm, hk⟩
      · rintro ⟨rec, hm, hk⟩
        rcases List.mem_append.1 hm with hm | hm
        · exact ⟨rec, hm, hk⟩
        · simp only [List.mem_singleton, Prod.mk.injEq] at hm
          rw [hm.2] at hk
          exact absurd hk.symm e
  refine ⟨_, rfl, ?_⟩
  rw [hset, hord]
  rcases trim_eq iso m (s.records ++ [(new.runId, new)]) (s.keyIndex.set (keyOf iso new) new.runId)
      (by simpa using h.len) with ⟨hle, ht⟩ | ⟨r0, old, rest, hrest, hlen, ht⟩
  · rw [ht]
    refine ⟨⟨rfl, hw, h.kwf.set _ _, hids, hidx, hle⟩, ?_⟩
    simp only [Dash.Spec.newest]
    rw [show (s.records ++ [(new.runId, new)]).length - m = 0 from by omega, List.drop_zero]
  · rw [ht]
    have hmem : ∀ p, p ∈ rest → p ∈ s.records ++ [(new.runId, new)] := by
      intro p hp; rw [hrest]; exact List.mem_cons_of_mem _ hp
    have hw' : Dict.WF ((r0, old) :: rest) := hrest ▸ hw
    have hold : (r0, old) ∈ s.records ++ [(new.runId, new)] := by rw [hrest]; exact List.mem_cons_self
    refine ⟨⟨rfl, (List.nodup_cons.1 hw').2, (h.kwf.set _ _).erase _, ?_, ?_, ?_⟩, ?_⟩
    · intro r rec hm
      exact hids r rec (hmem _ hm)
    · intro k r
      rw [Dict.get?_erase (h.kwf.set _ _)]
      by_cases e : k = keyOf iso old
      · subst e
        simp only [if_true, reduceCtorEq, false_iff]
        rintro ⟨rec, hm, hk⟩
        have h1 := hids r rec (hmem _ hm)
        have h2 := hids r0 old hold
        have : r = r0 := by rw [← h1.2.1, hk, h2.2.1]
        subst this
        exact (List.nodup_cons.1 hw').1 (List.mem_map.2 ⟨_, hm, rfl⟩)
      · simp only [e, if_false, hidx, hrest]
        constructor
        · rintro ⟨rec, hm, hk⟩
          rcases List.mem_cons.1 hm with hm | hm
          · cases hm
            exact absurd hk.symm e
          · exact ⟨rec, hm, hk⟩
        · rintro ⟨rec, hm, hk⟩
          exact ⟨rec, List.mem_cons_of_mem _ hm, hk⟩
    · exact Nat.le_of_eq hlen
    · simp only [Dash.Spec.newest, hrest, List.length_cons]
      rw [show rest.length + 1 - m = 1 from by omega]
      rfl

/-- the history as the specification sees it -/
def listed (iso : Int → Text) (s : State) : List (Run Key) := s.records.values.map (view iso)

/-- what happens to a record when it is found again -/
def refill (mt : Meta) (identity : Option Text) (r : Rec) : Rec :=
  { r with
    taskName := fill r.taskName mt.taskName
    callable := fill r.callable mt.callable
    executor := fill r.executor mt.executor
    identity := fill r.identity identity }

/-- a new record -/
def fresh (rid : Key → Text) (iso : Int → Text) (task : Text) (store : Option Text) (time : RawTime)
    (mt : Meta) (identity : Option Text) (now : Int) : Rec :=
  { runId := rid (runKey iso task store (normalize time)), task := task, store := store,
    time := normalize time, taskName := mt.taskName,
    callable := mt.callable, executor := mt.executor, identity := identity, coalesced := 0,
    source := "unknown".toList, status := .running, submittedAt := none, finishedAt := none,
    ret := none, excType := none, excMsg := none, exc := none, tb := none,
    createdAt := some now, updatedAt := some now }

theorem report_key {κ : Type} (r : Run κ) (now : Int) (rep : Report) : (r.report now rep).key = r.key := by
  cases rep <;> rfl

/-- One `_upsert` followed by assignments `f` to the record it returns. -/
theorem upsert_put {rid : Key → Text} {iso : Int → Text} {K : Key → Prop} {m : Nat} {s : State}
    (hinj : ∀ k k', K k → K k' → rid k = rid k' → k = k')
    (h : Inv rid iso K m s) (task : Text) (store : Option Text) (time : RawTime) (mt : Meta)
    (identity : Option Text) (now : Int) (hK : K (runKey iso task store (normalize time)))
    (f : Rec → Rec) (rep : Report)
    (hf : ∀ r, (f r).runId = r.runId ∧ view iso (f r) = (view iso r).report now rep) :
    ∃ s' rec, upsert rid iso m s task store time mt identity now = some (s', rec) ∧
      Inv rid iso K m (put s' (f rec)) ∧
      (put s' (f rec)).records =
        (match s.records.get? (rid (runKey iso task store (normalize time))) with
        | some old => s.records.set (rid (runKey iso task store (normalize time)))
            (f (refill mt identity old))
        | none => Dash.Spec.newest m (s.records ++ [(rid (runKey iso task store (normalize time)),
            f (fresh rid iso task store time mt identity now))])) ∧
      (rec = fresh rid iso task store time mt identity now ∨
        ∃ old, get s (rid (runKey iso task store (normalize time))) = some old ∧
          rec = refill mt identity old) ∧
      rec.runId = rid (runKey iso task store (normalize time)) := by
  have hfk : ∀ r, keyOf iso (f r) = keyOf iso r := fun r => by
    have := congrArg Run.key (hf r).2
    rwa [report_key] at this
  cases hg : s.keyIndex.get? (runKey iso task store (normalize time)) with
  | some r =>
    obtain ⟨old, hm, hk⟩ := (h.idx _ _).1 hg
    have hid := h.id r old hm
    have hr : r = rid (runKey iso task store (normalize time)) := by rw [← hid.2.1, hk]
    subst hr
    have hget := Dict.get?_of_mem h.wf hm
    refine ⟨⟨s.records.set (rid (runKey iso task store (normalize time))) (refill mt identity old),
      s.order, s.keyIndex⟩, refill mt identity old, ?_, ?_⟩
    · simp only [upsert, hg, hget]
      rfl
    · have hid1 : (refill mt identity old).runId = rid (runKey iso task store (normalize time)) := hid.1
      have hcon : Dict.contains (s.records.set (rid (runKey iso task store (normalize time)))
          (refill mt identity old)) (f (refill mt identity old)).runId = true := by
        rw [(hf _).1, hid1]
        simp [Dict.contains, Dict.get?_set]
      have hput : put ⟨s.records.set (rid (runKey iso task store (normalize time)))
            (refill mt identity old), s.order, s.keyIndex⟩ (f (refill mt identity old)) =
          ⟨s.records.set (rid (runKey iso task store (normalize time)))
            (f (refill mt identity old)), s.order, s.keyIndex⟩ := by
        simp only [put, hcon, if_true]
        rw [(hf _).1, hid1, set_set]
      rw [hput]
      refine ⟨h.set hm (by rw [(hf _).1, hid1]) (by rw [hfk]; rfl), ?_, ?_, hid1⟩
      · simp only [hget]
      · exact .inr ⟨old, hget, rfl⟩
  | none =>
    have hkey : keyOf iso (fresh rid iso task store time mt identity now) =
        runKey iso task store (normalize time) := rfl
    have hnone : s.records.get? (rid (runKey iso task store (normalize time))) = none := by
      cases hh : s.records.get? (rid (runKey iso task store (normalize time))) with
      | none => rfl
      | some old =>
        have hm := Dict.mem_of_get? hh
        have hid := h.id _ _ hm
        have := hinj _ _ hid.2.2 hK hid.2.1
        have h2 := (h.idx _ _).2 ⟨old, hm, this⟩
        rw [hg] at h2
        cases h2
    obtain ⟨s', hs', hinv, hrec⟩ := Inv.add hinj h (fresh rid iso task store time mt identity now) hg hK rfl
    refine ⟨s', fresh rid iso task store time mt identity now, ?_, ?_⟩
    · simp only [upsert, hg]
      rw [← hs']
      rfl
    · simp only [hnone]
      have hfid : (f (fresh rid iso task store time mt identity now)).runId =
          rid (runKey iso task store (normalize time)) := (hf _).1
      have hfid' : (fresh rid iso task store time mt identity now).runId =
          rid (runKey iso task store (normalize time)) := rfl
      rw [hfid'] at hrec
      have hnk : rid (runKey iso task store (normalize time)) ∉ s.records.keys :=
        (Dict.get?_eq_none _ _).1 hnone
      by_cases hm0 : m = 0
      · have h0 : s'.records = [] := by
          rw [hrec, hm0]; simp [Dash.Spec.newest]
        have hput : put s' (f (fresh rid iso task store time mt identity now)) = s' := by
          simp [put, h0, Dict.contains, Dict.get?]
        rw [hput]
        refine ⟨hinv, ?_, .inl trivial, rfl⟩
        rw [h0, hm0]
        simp [Dash.Spec.newest]
      · -- the new record is the last one kept
        have hl : (s.records ++ [(rid (runKey iso task store (normalize time)),
            fresh rid iso task store time mt identity now)]).length - m ≤ s.records.length := by
          simp only [List.length_append, List.length_singleton]; omega
        have hsplit : ∀ v : Rec, Dash.Spec.newest m (s.records ++
            [(rid (runKey iso task store (normalize time)), v)]) =
            s.records.drop (s.records.length + 1 - m) ++
              [(rid (runKey iso task store (normalize time)), v)] := by
          intro v
          simp only [Dash.Spec.newest, List.length_append, List.length_singleton]
          rw [List.drop_append_of_le_length (by omega)]
        rw [hsplit] at hrec
        have hmem : (rid (runKey iso task store (normalize time)),
            fresh rid iso task store time mt identity now) ∈ s'.records := by rw [hrec]; simp
        have hcon : s'.records.contains (f (fresh rid iso task store time mt identity now)).runId = true := by
          rw [hfid]
          simp [Dict.contains, Dict.get?_of_mem hinv.wf hmem]
        have hput : put s' (f (fresh rid iso task store time mt identity now)) =
            ⟨s'.records.set (rid (runKey iso task store (normalize time)))
              (f (fresh rid iso task store time mt identity now)), s'.order, s'.keyIndex⟩ := by
          rw [put, if_pos hcon, hfid]
        rw [hput]
        refine ⟨hinv.set hmem hfid (hfk _), ?_, .inl trivial, rfl⟩
        rw [hsplit]
        simp only
        rw [set_present _ hinv.wf _ _ (Dict.mem_keys_of_mem hmem), hrec, List.map_append]
        simp only [List.map_cons, List.map_nil, if_true]
        congr 1
        have : ∀ p ∈ s.records.drop (s.records.length + 1 - m),
            (if p.1 = rid (runKey iso task store (normalize time)) then
              (p.1, f (fresh rid iso task store time mt identity now)) else p) = id p := by
          intro p hp
          rw [if_neg]
          · rfl
          · intro e
            exact hnk (e ▸ List.mem_map_of_mem (List.mem_of_mem_drop hp))
        rw [List.map_congr_left this, List.map_id]

theorem listed_keys {rid : Key → Text} {iso : Int → Text} {K : Key → Prop} {m : Nat} {s : State}
    (hinj : ∀ k k', K k → K k' → rid k = rid k' → k = k') (h : Inv rid iso K m s) {k : Key}
    (hK : K k) : k ∈ (listed iso s).map Run.key ↔ ∃ old, s.records.get? (rid k) = some old := by
  simp only [listed, List.map_map, Dict.values, List.mem_map, Function.comp_apply]
  constructor
  · rintro ⟨⟨r, rec⟩, hm, he⟩
    have hid := h.id _ _ hm
    have he' : keyOf iso rec = k := he
    refine ⟨rec, ?_⟩
    rw [← he', hid.2.1]
    exact Dict.get?_of_mem h.wf hm
  · rintro ⟨old, ho⟩
    have hm := Dict.mem_of_get? ho
    have hid := h.id _ _ hm
    exact ⟨(rid k, old), hm, hinj _ _ hid.2.2 hK hid.2.1⟩

/-- The record list after a report, as the specification sees it. -/
theorem listed_receive {rid : Key → Text} {iso : Int → Text} {K : Key → Prop} {m : Nat}
    {s s' : State} (hinj : ∀ k k', K k → K k' → rid k = rid k' → k = k') (h : Inv rid iso K m s)
    (k : Key) (hK : K k) (now : Int) (rep : Report) (g : Rec → Rec) (new : Rec)
    (hg : ∀ r, view iso (g r) = (view iso r).report now rep)
    (hnew : view iso new = Run.report ⟨k, .running, none, none⟩ now rep)
    (hs : s'.records = match s.records.get? (rid k) with
      | some old => s.records.set (rid k) (g old)
      | none => Dash.Spec.newest m (s.records ++ [(rid k, new)])) :
    listed iso s' = Spec.receive m (listed iso s) (k, now, rep) := by
  unfold Spec.receive
  by_cases hk : k ∈ (listed iso s).map Run.key
  · rw [if_pos hk]
    obtain ⟨old, ho⟩ := (listed_keys hinj h hK).1 hk
    rw [ho] at hs
    simp only at hs
    have hm := Dict.mem_of_get? ho
    simp only [listed, hs, Dict.values]
    rw [set_present _ h.wf _ _ (Dict.mem_keys_of_mem hm)]
    simp only [List.map_map]
    apply List.map_congr_left
    rintro ⟨r, rec⟩ hp
    have hid := h.id _ _ hp
    simp only [Function.comp_apply]
    by_cases hr : r = rid k
    · subst hr
      have : rec = old := by
        have h1 := Dict.get?_of_mem h.wf hp
        rw [ho] at h1
        exact (Option.some.inj h1).symm
      subst this
      have hkk : keyOf iso rec = k := hinj _ _ hid.2.2 hK hid.2.1
      rw [if_pos rfl, hg, if_pos]
      exact hkk
    · rw [if_neg hr, if_neg]
      intro e
      apply hr
      rw [← hid.2.1]
      exact congrArg rid e
  · rw [if_neg hk]
    have hnone : s.records.get? (rid k) = none := by
      cases hh : s.records.get? (rid k) with
      | none => rfl
      | some old => exact absurd ((listed_keys hinj h hK).2 ⟨old, hh⟩) hk
    rw [hnone] at hs
    simp only at hs
    simp only [listed, hs, Dash.Spec.newest, Dict.values, List.map_drop, List.map_append,
      List.length_append, List.length_map, List.map_cons, List.map_nil, hnew, List.length_singleton,
      List.length_nil, List.length_cons]

end Hist
end Asyncz
