import Verif.Model.PoolLog
/-!
# C107: log messages of worker processes
-/
namespace Asyncz
namespace PoolLog

/-- A message written at once whose logging method does not raise. -/
def Small (m : Msg) : Prop := m.extra = 0 ∧ m.raises = false

/-- Only such messages are logged and no process is killed. -/
def Tame (ops : List Op) : Prop := ∀ op ∈ ops, match op with
  | .log _ m => Small m
  | .die _ => False
  | _ => True

/-- What process `w` logged, of a list of calls: the public ones, in order. -/
def by_ (w : Nat) (l : List (Nat × Msg)) : List Msg := (l.filter fun p => p.1 = w && p.2.isPublic).map (·.2)

/-- the messages of pieces -/
def msgs (l : List Chunk) : List (Nat × Msg) := l.map fun c => (c.src, c.msg)

theorem by_append (w : Nat) (l k : List (Nat × Msg)) : by_ w (l ++ k) = by_ w l ++ by_ w k := by
  simp [by_]

/-- Every piece is a whole message. -/
def Whole (l : List Chunk) : Prop := ∀ c ∈ l, Small c.msg ∧ c.idx = 0

theorem chunks_small {w m} (h : Small m) : chunks w m = [⟨w, m, 0⟩] := by
  simp [chunks, h.1]

/-- The invariant: whole messages only; what a process logged has been passed on, is in the pipe or is about to be written. -/
structure Inv (s : St) : Prop where
  pipe : Whole s.pipe
  keys : (s.workers.map (·.1)).Nodup
  rest : ∀ p ∈ s.workers, Whole p.2 ∧ (∀ c ∈ p.2, c.src = p.1)
  flow : ∀ w, by_ w s.sent = by_ w s.calls ++ by_ w (msgs s.pipe) ++ by_ w (msgs ((s.rest w).getD []))
  alive : s.recv ≠ .crashed
  done : s.recv = .over → s.mainOpen = false ∧ s.workers = [] ∧ s.pipe = []

theorem rest_mem {s : St} {w cs} (h : s.rest w = some cs) : (w, cs) ∈ s.workers := by
  unfold St.rest at h
  obtain ⟨p, hp, rfl⟩ := Option.map_eq_some_iff.1 h
  have h1 := List.mem_of_find?_eq_some hp
  have h2 := List.find?_some hp
  simp at h2
  obtain ⟨a, b⟩ := p
  simp at h2
  subst h2; exact h1

theorem rest_none {s : St} {w} (h : s.rest w = none) : w ∉ s.workers.map (·.1) := by
  unfold St.rest at h
  simp only [Option.map_eq_none_iff, List.find?_eq_none] at h
  intro c
  obtain ⟨p, hp, e⟩ := List.mem_map.1 c
  exact h p hp (by simp [e])

theorem setRest_rest {s : St} {w cs cs'} (h : s.rest w = some cs) (v : Nat) :
    (s.setRest w cs').rest v = if v = w then some cs' else s.rest v := by
  unfold St.rest at h ⊢
  unfold St.setRest
  dsimp only
  generalize s.workers = l at h ⊢
  induction l with
  | nil => simp at h
  | cons p l ih =>
    rw [List.map_cons]
    by_cases hp : p.1 = w
    · rw [if_pos hp]
      by_cases hv : v = w
      · subst hv; simp
      · have : ¬ w = v := fun e => hv e.symm
        rw [if_neg hv, List.find?_cons, List.find?_cons]
        simp only [this, hp, decide_false]
        -- the others are not changed as far as `v` sees
        have other : ∀ l : List (Nat × List Chunk),
            ((l.map fun p => if p.1 = w then (w, cs') else p).find? (fun p => decide (p.1 = v))).map (·.2) =
              (l.find? (fun p => decide (p.1 = v))).map (·.2) := by
          intro l
          induction l with
          | nil => rfl
          | cons q l ih =>
            rw [List.map_cons, List.find?_cons, List.find?_cons]
            by_cases hq : q.1 = w
            · simp only [hq, if_true, this, decide_false]; exact ih
            · simp only [hq, if_false]
              split
              · rfl
              · exact ih
        exact other l
    · rw [if_neg hp]
      rw [List.find?_cons, List.find?_cons]
      by_cases hv : p.1 = v
      · have hvw : ¬ v = w := fun e => hp (hv.trans e)
        simp [hv, hvw]
      · simp only [hv, decide_false]
        refine ih ?_
        rw [List.find?_cons] at h
        simpa [hp] using h

theorem setRest_keys (s : St) (w cs) : (s.setRest w cs).workers.map (·.1) = s.workers.map (·.1) := by
  unfold St.setRest
  dsimp only
  rw [List.map_map]
  apply List.map_congr_left
  intro p _
  by_cases h : p.1 = w <;> simp [h]

theorem setRest_mem {s : St} {w cs} {p} (h : p ∈ (s.setRest w cs).workers) : p = (w, cs) ∨ p ∈ s.workers := by
  unfold St.setRest at h
  obtain ⟨q, hq, e⟩ := List.mem_map.1 h
  by_cases hw : q.1 = w
  · simp [hw] at e; exact .inl e.symm
  · simp [hw] at e; exact .inr (e ▸ hq)

theorem filter_rest (s : St) (w v : Nat) :
    ({ s with workers := s.workers.filter (·.1 ≠ w) } : St).rest v = if v = w then none else s.rest v := by
  unfold St.rest
  dsimp only
  generalize s.workers = l
  induction l with
  | nil => simp
  | cons p l ih =>
    by_cases hp : p.1 = w
    · rw [List.filter_cons, if_neg (by simp [hp]), ih, List.find?_cons]
      by_cases hv : v = w
      · simp [hv]
      · have : ¬ w = v := fun e => hv e.symm
        simp [hv, hp, this]
    · rw [List.filter_cons, if_pos (by simp [hp]), List.find?_cons, List.find?_cons]
      by_cases hv : p.1 = v
      · have hvw : ¬ v = w := fun e => hp (hv.trans e)
        simp [hv, hvw]
      · simp only [hv, decide_false]; exact ih

theorem inv_receive {s : St} (h : Inv s) (hr : s.recv = .running) : Inv (receive s) := by
  unfold receive
  split
  · rename_i hp
    split
    · rename_i hc
      exact ⟨h.pipe, h.keys, h.rest, h.flow, by simp, fun _ => ⟨hc.1, hc.2, hp⟩⟩
    · exact h
  · rename_i c l hp
    have hc := h.pipe c (by rw [hp]; simp)
    have he : c.msg.extra = 0 := hc.1.1
    rw [hp, he, if_neg (by simp)]
    have hcc : chunks c.src c.msg = [c] := by
      rw [chunks_small hc.1]; cases c; simp at hc; simp [hc.2]
    simp only [Nat.zero_add, List.take_succ_cons, List.take_zero, hcc, if_true, List.drop_succ_cons, List.drop_zero]
    have hw : Whole l := fun d hd => h.pipe d (by rw [hp]; simp [hd])
    have hfl := h.flow
    have hno : s.recv ≠ .over := by rw [hr]; simp
    split
    · rename_i hpub
      refine ⟨hw, h.keys, h.rest, fun w => ?_, h.alive, fun e => absurd e hno⟩
      rw [hfl w, hp]
      show _ = by_ w s.calls ++ by_ w (msgs l) ++ _
      have : by_ w (msgs (c :: l)) = by_ w (msgs l) := by simp [by_, msgs, hpub]
      rw [this]; rfl
    · rename_i hpub
      rw [if_neg (by simp [hc.1.2])]
      refine ⟨hw, h.keys, h.rest, fun w => ?_, h.alive, fun e => absurd e hno⟩
      rw [hfl w, hp]
      show _ = by_ w (s.calls ++ [(c.src, c.msg)]) ++ by_ w (msgs l) ++ _
      have : msgs (c :: l) = [(c.src, c.msg)] ++ msgs l := rfl
      rw [this, by_append, by_append, ← List.append_assoc]; rfl

theorem inv_step {cap : Nat} {s : St} (h : Inv s) {op : Op} (hop : Tame [op]) : Inv (step cap s op) := by
  have hop := hop op (by simp)
  cases op with
  | start =>
    simp only [step]
    split
    · rename_i hr
      exact ⟨h.pipe, h.keys, h.rest, h.flow, by simp, by simp⟩
    · exact h
  | spawn w =>
    simp only [step]
    split
    · rename_i hc
      have hn := rest_none hc.2
      refine ⟨h.pipe, ?_, ?_, fun v => ?_, h.alive, fun e => ?_⟩
      · rw [List.map_append]
        refine List.nodup_append.2 ⟨h.keys, by simp, ?_⟩
        intro a ha b hb
        simp at hb
        subst hb
        exact fun e => hn (e ▸ ha)
      · intro p hp
        rcases List.mem_append.1 hp with hp | hp
        · exact h.rest p hp
        · simp at hp; subst hp; exact ⟨by intro c hc; simp at hc, by simp⟩
      · have e : (({ s with workers := s.workers ++ [(w, [])] } : St).rest v).getD [] = (s.rest v).getD [] := by
          unfold St.rest
          dsimp only
          rw [List.find?_append]
          cases hf : s.workers.find? (fun p => decide (p.1 = v)) with
          | some p => simp
          | none =>
            by_cases hv : w = v <;> simp [hv]
        rw [e]; exact h.flow v
      · have := h.done e
        rw [hc.1] at this; cases this.1
    · exact h
  | log w m =>
    simp only [step]
    split
    · rename_i hw
      have hm : Small m := hop
      refine ⟨h.pipe, ?_, ?_, fun v => ?_, h.alive, fun e => ?_⟩
      · show ((s.setRest w _).workers.map (·.1)).Nodup
        rw [setRest_keys]; exact h.keys
      · intro p hp
        rcases setRest_mem hp with rfl | hp
        · rw [chunks_small hm]
          exact ⟨by intro c hc; simp at hc; subst hc; exact ⟨hm, rfl⟩, by simp⟩
        · exact h.rest p hp
      · show by_ v (s.sent ++ [(w, m)]) = by_ v s.calls ++ by_ v (msgs s.pipe) ++
            by_ v (msgs (((s.setRest w (chunks w m)).rest v).getD []))
        rw [by_append, h.flow v, setRest_rest hw, chunks_small hm]
        by_cases hv : v = w
        · subst hv
          rw [if_pos rfl, hw]
          simp [msgs, by_]
        · have hv' : ¬ w = v := fun e => hv e.symm
          rw [if_neg hv]
          have : by_ v [(w, m)] = [] := by simp [by_, hv']
          rw [this, List.append_nil]
      · have := (h.done e).2.1
        rw [St.rest, this] at hw; simp at hw
    · exact h
  | write w =>
    simp only [step]
    split
    · rename_i c cs hw
      split
      · have hmem := h.rest _ (rest_mem hw)
        have hc := hmem.1 c (by simp)
        have hsrc : c.src = w := hmem.2 c (by simp)
        refine ⟨?_, ?_, ?_, fun v => ?_, h.alive, fun e => ?_⟩
        · intro d hd
          rcases List.mem_append.1 hd with hd | hd
          · exact h.pipe d hd
          · simp at hd; subst hd; exact hc
        · show ((s.setRest w cs).workers.map (·.1)).Nodup
          rw [setRest_keys]; exact h.keys
        · intro p hp
          rcases setRest_mem hp with rfl | hp
          · exact ⟨fun d hd => hmem.1 d (by simp [hd]), fun d hd => hmem.2 d (by simp [hd])⟩
          · exact h.rest p hp
        · show by_ v s.sent = by_ v s.calls ++ by_ v (msgs (s.pipe ++ [c])) ++
              by_ v (msgs (((s.setRest w cs).rest v).getD []))
          have hm1 : msgs (s.pipe ++ [c]) = msgs s.pipe ++ msgs [c] := by simp [msgs]
          rw [h.flow v, setRest_rest hw, hm1, by_append]
          by_cases hv : v = w
          · subst hv
            rw [if_pos rfl, hw]
            have hm2 : msgs (c :: cs) = msgs [c] ++ msgs cs := by simp [msgs]
            simp only [Option.getD_some]
            rw [hm2, by_append, List.append_assoc, List.append_assoc, List.append_assoc]
          · have hv' : ¬ w = v := fun e => hv e.symm
            rw [if_neg hv]
            have : by_ v (msgs [c]) = [] := by simp [by_, msgs, hsrc, hv']
            rw [this, List.append_nil]
        · have := (h.done e).2.1
          rw [St.rest, this] at hw; simp at hw
      · exact h
    · exact h
  | exit w =>
    simp only [step]
    split
    · rename_i hw
      refine ⟨h.pipe, ?_, fun p hp => h.rest p (List.mem_filter.1 hp).1, fun v => ?_, h.alive, fun e => ?_⟩
      · exact List.Nodup.sublist (List.Sublist.map _ List.filter_sublist) h.keys
      · rw [filter_rest]
        by_cases hv : v = w
        · subst hv
          rw [if_pos rfl]
          have := h.flow v
          rw [hw] at this
          exact this
        · rw [if_neg hv]; exact h.flow v
      · have := h.done e
        exact ⟨this.1, by simp [this.2.1], this.2.2⟩
    · exact h
  | die w => exact hop.elim
  | recv =>
    simp only [step]
    split
    · rename_i hr; exact inv_receive h hr
    · exact h
  | close =>
    exact ⟨h.pipe, h.keys, h.rest, h.flow, h.alive, fun e => ⟨rfl, (h.done e).2⟩⟩

theorem inv_run (cap : Nat) (ops : List Op) (ht : Tame ops) : Inv (run cap ops) := by
  unfold run
  have h0 : Inv init := ⟨by intro c hc; simp [init] at hc, by simp [init], by simp [init],
    by intro w; simp [init, St.rest, by_, msgs], by simp [init], by simp [init]⟩
  suffices H : ∀ s, Inv s → Inv (ops.foldl (step cap) s) from H _ h0
  intro s hs
  induction ops generalizing s with
  | nil => exact hs
  | cons op ops ih =>
    exact ih (fun o ho => ht o (by simp [ho])) _ (inv_step hs (by
      intro o ho; simp at ho; subst ho; exact ht o (by simp)))

/-- **C107** (partial): as long as the messages are written at once, the logger's methods do not raise and no process is killed,
what a process has logged (by public methods) is, in this order, what was passed to the executor's logger, what is in the pipe
and what it is about to write. -/
theorem C107_in_order_partial (cap : Nat) (ops : List Op) (ht : Tame ops) (w : Nat) :
    by_ w (run cap ops).calls <+: by_ w (run cap ops).sent := by
  rw [(inv_run cap ops ht).flow w, List.append_assoc]
  exact List.prefix_append _ _

/-- **C107** (partial): then, when `shutdown` has returned, everything every process logged has been passed to the executor's
logger, each message once and in the order of that process, and no process is left. -/
theorem C107_complete_partial (cap : Nat) (ops : List Op) (ht : Tame ops) (h : (run cap ops).shutDown) :
    (run cap ops).workers = [] ∧ ∀ w, by_ w (run cap ops).calls = by_ w (run cap ops).sent := by
  have hi := inv_run cap ops ht
  have ho : (run cap ops).recv = .over := h.2.resolve_right hi.alive
  have hd := hi.done ho
  refine ⟨hd.2.1, fun w => ?_⟩
  rw [hi.flow w, hd.2.2]
  have : (run cap ops).rest w = none := by simp [St.rest, hd.2.1]
  rw [this]; simp [msgs, by_]

theorem receive_pipe {s : St} (h : Inv s) (hr : s.recv = .running) (hm : s.mainOpen = false) (hw : s.workers = []) :
    (s.pipe = [] ∧ (receive s).recv = .over) ∨
    ((receive s).recv = .running ∧ (receive s).mainOpen = false ∧ (receive s).workers = [] ∧
      (receive s).pipe.length + 1 = s.pipe.length) := by
  unfold receive
  split
  · rename_i hp; left; rw [if_pos ⟨hm, hw⟩]; exact ⟨hp, rfl⟩
  · rename_i c l hp
    right
    have hc := h.pipe c (by rw [hp]; simp)
    rw [hp, hc.1.1, if_neg (by simp)]
    have hcc : chunks c.src c.msg = [c] := by
      rw [chunks_small hc.1]; cases c; simp at hc; simp [hc.2]
    simp only [Nat.zero_add, List.take_succ_cons, List.take_zero, hcc, if_true, List.drop_succ_cons, List.drop_zero]
    split
    · exact ⟨hr, hm, hw, by simp⟩
    · rw [if_neg (by simp [hc.1.2])]
      exact ⟨hr, hm, hw, by simp⟩

/-- **C107** (partial, progress): once its end is closed and the processes have ended, `shutdown` returns after the thread has
read what is in the pipe. -/
theorem C107_returns_partial (cap : Nat) (ops : List Op) (ht : Tame ops) (hr : (run cap ops).recv = .running)
    (hm : (run cap ops).mainOpen = false) (hw : (run cap ops).workers = []) :
    (run cap (ops ++ List.replicate ((run cap ops).pipe.length + 1) .recv)).shutDown := by
  have e : ∀ n, run cap (ops ++ List.replicate n .recv) = (List.replicate n .recv).foldl (step cap) (run cap ops) := by
    intro n; simp [run, List.foldl_append]
  rw [e]
  have hi := inv_run cap ops ht
  suffices H : ∀ n s, Inv s → s.recv = .running → s.mainOpen = false → s.workers = [] → s.pipe.length = n →
      ((List.replicate (n + 1) Op.recv).foldl (step cap) s).shutDown from H _ _ hi hr hm hw rfl
  intro n
  induction n with
  | zero =>
    intro s hs hr hm hw hp
    have hp' := List.length_eq_zero_iff.1 hp
    show (step cap s .recv).shutDown
    simp [step, hr, receive, hp', hm, hw, St.shutDown]
  | succ n ih =>
    intro s hs hr hm hw hp
    rw [List.replicate_succ, List.foldl_cons]
    have e1 : step cap s .recv = receive s := by simp [step, hr]
    rw [e1]
    rcases receive_pipe hs hr hm hw with h1 | h1
    · rw [h1.1] at hp; cases hp
    · exact ih _ (inv_receive hs hr) h1.1 h1.2.1 h1.2.2.1 (by omega)

/-! ## What goes wrong -/

theorem receive_frame (s : St) : (receive s).workers = s.workers ∧ (receive s).mainOpen = s.mainOpen := by
  unfold receive
  split
  · split <;> exact ⟨rfl, rfl⟩
  · split
    · split <;> exact ⟨rfl, rfl⟩
    · dsimp only
      split
      · split
        · exact ⟨rfl, rfl⟩
        · split <;> exact ⟨rfl, rfl⟩
      · exact ⟨rfl, rfl⟩

theorem receive_over {s : St} (h : (receive s).recv = .over) (hr : s.recv = .running) : s.workers = [] := by
  unfold receive at h
  split at h
  · split at h
    · rename_i hc; exact hc.2
    · rw [hr] at h; cases h
  · split at h
    · split at h
      · cases h
      · rw [hr] at h; cases h
    · dsimp only at h
      split at h
      · split at h
        · rw [hr] at h; cases h
        · split at h
          · cases h
          · rw [hr] at h; cases h
      · cases h

/-- **C107** (counterexample to "`shutdown(wait=False)` does not wait"): whatever `wait` is, `shutdown` returns only when every
worker process has ended, unless the thread crashed. -/
theorem C107_waits_witness (cap : Nat) (ops : List Op) (h : (run cap ops).shutDown) :
    (run cap ops).workers = [] ∨ (run cap ops).recv = .crashed := by
  rcases h.2 with ho | hc
  · left
    unfold run at h ho ⊢
    suffices H : ∀ s : St, (s.recv = .over → s.workers = [] ∧ s.mainOpen = false) →
        ((ops.foldl (step cap) s).recv = .over → (ops.foldl (step cap) s).workers = [] ∧
          (ops.foldl (step cap) s).mainOpen = false) from (H init (by simp [init]) ho).1
    clear h ho
    intro s hs
    induction ops generalizing s with
    | nil => exact hs
    | cons op ops ih =>
      refine ih _ ?_
      cases op with
      | start =>
        simp only [step]
        split
        · simp
        · exact hs
      | spawn w =>
        simp only [step]
        split
        · rename_i hc; intro e
          have := (hs e).2
          rw [hc.1] at this; cases this
        · exact hs
      | log w m =>
        simp only [step]
        split
        · rename_i hw
          intro e
          have := (hs e).1
          rw [St.rest, this] at hw; simp at hw
        · exact hs
      | write w =>
        simp only [step]
        split
        · rename_i c cs hw
          split
          · intro e
            have := (hs e).1
            rw [St.rest, this] at hw; simp at hw
          · exact hs
        · exact hs
      | exit w =>
        simp only [step]
        split
        · intro e; have := hs e; exact ⟨by simp [this.1], this.2⟩
        · exact hs
      | die w => intro e; have := hs e; exact ⟨by simp [step, this.1], this.2⟩
      | recv =>
        simp only [step]
        split
        · rename_i hr
          intro e
          have hw := receive_over e hr
          have f := receive_frame s
          refine ⟨by rw [f.1]; exact hw, ?_⟩
          rw [f.2]
          -- it ended, so nobody could write
          unfold receive at e
          split at e
          · split at e
            · rename_i hc; exact hc.1
            · rw [hr] at e; cases e
          · split at e
            · split at e
              · cases e
              · rw [hr] at e; cases e
            · dsimp only at e
              split at e
              · split at e
                · rw [hr] at e; cases e
                · split at e
                  · cases e
                  · rw [hr] at e; cases e
              · cases e
        · exact hs
      | close => intro e; exact ⟨(hs e).1, rfl⟩
  · exact .inr hc

/-- Nothing of process `w` changes any more. -/
def Stuck (cap : Nat) (w : Nat) (c : Chunk) (cs : List Chunk) (s : St) : Prop :=
  s.recv = .crashed ∧ cap ≤ s.pipe.length ∧ s.rest w = some (c :: cs)

/-- **C107** (counterexample): once the thread has crashed, nothing more is passed to the logger; and as soon as the pipe is
full, a process that logs is stuck in that call for ever, whatever happens except that it is killed: its task never ends, and
a shutdown that waits for the pool never returns. -/
theorem C107_crash_witness (cap : Nat) (w : Nat) (c : Chunk) (cs : List Chunk) (s : St) (h : Stuck cap w c cs s)
    (ops : List Op) (hd : Op.die w ∉ ops) :
    Stuck cap w c cs (ops.foldl (step cap) s) ∧ (ops.foldl (step cap) s).calls = s.calls := by
  induction ops generalizing s with
  | nil => exact ⟨h, rfl⟩
  | cons op ops ih =>
    have hk : Stuck cap w c cs (step cap s op) ∧ (step cap s op).calls = s.calls := by
      obtain ⟨hr, hl, hw⟩ := h
      cases op with
      | start => simp [step, hr, Stuck, hl, hw]
      | spawn v =>
        simp only [step]
        split
        · refine ⟨⟨hr, hl, ?_⟩, rfl⟩
          unfold St.rest at hw ⊢
          dsimp only
          rw [List.find?_append]
          cases hf : s.workers.find? (fun p => decide (p.1 = w)) with
          | some p => rw [hf] at hw; exact hw
          | none => rw [hf] at hw; cases hw
        · exact ⟨⟨hr, hl, hw⟩, rfl⟩
      | log v m =>
        simp only [step]
        split
        · rename_i hv
          refine ⟨⟨hr, hl, ?_⟩, rfl⟩
          show (s.setRest v (chunks v m)).rest w = _
          rw [setRest_rest hv]
          by_cases e : w = v
          · subst e; rw [hv] at hw; cases hw
          · rw [if_neg e]; exact hw
        · exact ⟨⟨hr, hl, hw⟩, rfl⟩
      | write v =>
        simp only [step]
        split
        · rw [if_neg (by omega)]; exact ⟨⟨hr, hl, hw⟩, rfl⟩
        · exact ⟨⟨hr, hl, hw⟩, rfl⟩
      | exit v =>
        simp only [step]
        split
        · rename_i hv
          refine ⟨⟨hr, hl, ?_⟩, rfl⟩
          rw [filter_rest]
          by_cases e : w = v
          · subst e; rw [hv] at hw; cases hw
          · rw [if_neg e]; exact hw
        · exact ⟨⟨hr, hl, hw⟩, rfl⟩
      | die v =>
        refine ⟨⟨hr, hl, ?_⟩, rfl⟩
        show ({ s with workers := s.workers.filter (·.1 ≠ v) } : St).rest w = _
        rw [filter_rest]
        have e : ¬ w = v := fun e => hd (by simp [e])
        rw [if_neg e]; exact hw
      | recv => simp [step, hr, Stuck, hl, hw]
      | close => exact ⟨⟨hr, hl, hw⟩, rfl⟩
    have := ih _ hk.1 (fun m => hd (by simp [m]))
    exact ⟨this.1, by rw [List.foldl_cons, this.2, hk.2]⟩

/-! ## Examples -/

/-- two messages of two processes, one private -/
def exOps : List Op :=
  [.start, .spawn 1, .spawn 2, .log 1 ⟨"info", 7, 0, false⟩, .log 2 ⟨"info", 8, 0, false⟩, .write 2, .write 1,
   .recv, .log 2 ⟨"_log", 9, 0, false⟩, .write 2, .log 1 ⟨"warning", 5, 0, false⟩, .write 1, .exit 1, .close, .recv, .recv, .exit 2,
   .recv, .recv]

instance (m : Msg) : Decidable (Small m) := inferInstanceAs (Decidable (_ ∧ _))

example : Tame exOps := by
  intro op hop
  simp only [exOps, List.mem_cons, List.not_mem_nil, or_false] at hop
  rcases hop with rfl | rfl | rfl | rfl | rfl | rfl | rfl | rfl | rfl | rfl | rfl | rfl | rfl | rfl | rfl | rfl | rfl | rfl | rfl <;>
    first | trivial | exact ⟨rfl, rfl⟩

example : (run 4 exOps).recv = .over ∧ (run 4 exOps).calls =
    [(2, ⟨"info", 8, 0, false⟩), (1, ⟨"info", 7, 0, false⟩), (1, ⟨"warning", 5, 0, false⟩)] := by
  refine ⟨?_, ?_⟩ <;> decide +kernel

/-- Two processes write long messages at the same time: the thread crashes, and, with a full pipe, the next call is stuck. -/
theorem C107_interleaved_witness :
    let s := run 4 [.start, .spawn 1, .spawn 2, .log 1 ⟨"info", 7, 1, false⟩, .log 2 ⟨"info", 8, 1, false⟩, .write 1, .write 2,
      .write 2, .write 1, .recv, .log 1 ⟨"info", 9, 0, false⟩, .write 1, .log 1 ⟨"info", 10, 0, false⟩, .write 1,
      .log 1 ⟨"info", 11, 0, false⟩]
    Stuck 4 1 ⟨1, ⟨"info", 11, 0, false⟩, 0⟩ [] s ∧ s.calls = [] := by
  refine ⟨⟨?_, ?_, ?_⟩, ?_⟩ <;> decide +kernel

/-- A method of the logger that raises ends the thread. -/
example : (run 4 [.start, .spawn 1, .log 1 ⟨"info", 7, 0, true⟩, .write 1, .recv]).recv = .crashed := by decide +kernel

/-- An executor that was not started has no thread to wait for; here `shutdown` raises `AttributeError`. -/
example : (run 4 [.close]).recv = .none := by decide

end PoolLog
end Asyncz
