import Verif.Model.CliLife
/-!
# C106: what `asyncz start` starts, it stops
-/
namespace Asyncz
namespace CliLife
open Spec

/-! ## What the event loop does leaves everything else as it is -/

/-- The stop hook was called for `n`. -/
def Armed (tr : List Ev) (n : Nat) : Prop := ∃ a b, tr = a ++ .started n :: b ∧ .onStop ∈ b

theorem Armed.append {tr n} (h : Armed tr n) (l : List Ev) : Armed (tr ++ l) n := by
  obtain ⟨a, b, rfl, hb⟩ := h
  exact ⟨a, b ++ l, by simp, by simp [hb]⟩

theorem Armed.started {tr n} (h : Armed tr n) : Ev.started n ∈ tr := by
  obtain ⟨a, b, rfl, hb⟩ := h; simp

theorem armed_of_started {tr n} (h : Ev.started n ∈ tr) : Armed (tr ++ [.onStop]) n := by
  obtain ⟨a, b, rfl⟩ := List.append_of_mem h
  exact ⟨a, b ++ [.onStop], by simp, by simp⟩

/-- Only events were added, and no scheduler was started. -/
structure Frame (s s' : St) : Prop where
  ext : ∃ l, s'.trace = s.trace ++ l ∧ ∀ n, Ev.started n ∉ l
  cur : s'.cur = s.cur
  new : s'.new = s.new
  made : s'.made = s.made
  pc : s'.pc = s.pc
  failed : s'.failed = s.failed

theorem Frame.refl (s : St) : Frame s s := ⟨⟨[], by simp, by simp⟩, rfl, rfl, rfl, rfl, rfl⟩

theorem Frame.trans {s t u : St} (h : Frame s t) (k : Frame t u) : Frame s u := by
  obtain ⟨l, hl, hs⟩ := h.ext
  obtain ⟨l', hl', hs'⟩ := k.ext
  exact ⟨⟨l ++ l', by rw [hl', hl, List.append_assoc], fun n => by simp [hs n, hs' n]⟩,
    k.cur.trans h.cur, k.new.trans h.new, k.made.trans h.made, k.pc.trans h.pc, k.failed.trans h.failed⟩

theorem Frame.started {s t : St} (h : Frame s t) (n : Nat) : Ev.started n ∈ t.trace ↔ Ev.started n ∈ s.trace := by
  obtain ⟨l, hl, hs⟩ := h.ext
  rw [hl]; simp [hs n]

theorem Frame.armed {s t : St} (h : Frame s t) {n} (k : Armed s.trace n) : Armed t.trace n := by
  obtain ⟨l, hl, _⟩ := h.ext
  rw [hl]; exact k.append l

theorem frame_emit (s : St) {e} (he : ∀ n, e ≠ Ev.started n) : Frame s (s.emit e) :=
  ⟨⟨[e], rfl, fun n h => by simp at h; exact he n h.symm⟩, rfl, rfl, rfl, rfl, rfl⟩

theorem frame_stop (s : St) (n : Nat) : Frame s (s.stop n) := by
  unfold St.stop
  split
  · exact ⟨⟨[.stopped n], rfl, by simp⟩, rfl, rfl, rfl, rfl, rfl⟩
  · exact frame_emit s (by simp)

theorem frame_posted (s : St) (p) : Frame s { s with posted := p } :=
  ⟨⟨[], by simp, by simp⟩, rfl, rfl, rfl, rfl, rfl⟩

theorem frame_runItem (s : St) (i : Item) : Frame s (s.runItem i) := by
  cases i with
  | stop n =>
    simp only [St.runItem]
    split
    · exact (frame_stop s n).trans (frame_posted _ _)
    · exact frame_stop s n
  | tasks n => exact frame_emit s (by simp)

theorem frame_foldl (l : List Item) (s : St) : Frame s (l.foldl St.runItem s) := by
  induction l generalizing s with
  | nil => exact Frame.refl s
  | cons i l ih => exact (frame_runItem s i).trans (ih _)

theorem frame_turn (s : St) : Frame s s.turn := (frame_posted s []).trans (frame_foldl _ _)

theorem frame_turns (k : Nat) (s : St) : Frame s (s.turns k) := by
  induction k generalizing s with
  | zero => exact Frame.refl s
  | succ k ih => exact (frame_turn s).trans (ih _)

/-! ## What holds in every state -/

/-- Holds wherever the coroutine is. -/
structure Base (s : St) : Prop where
  alive : ∀ n, n ∈ s.running ↔ Alive s.trace n
  orderly : Orderly s.trace
  made : ∀ n, Ev.started n ∈ s.trace → n < s.made
  posted : ∀ n, Item.stop n ∈ s.posted → Armed s.trace n

theorem count_snoc (l : List Ev) (e x : Ev) : (l ++ [e]).count x = l.count x + if e = x then 1 else 0 := by
  rw [List.count_append, List.count_cons]; simp

theorem prefix_snoc {α : Type} {p l : List α} {e : α} (h : p <+: l ++ [e]) : p <+: l ∨ p = l ++ [e] := by
  obtain ⟨t, ht⟩ := h
  rcases List.eq_nil_or_concat t with rfl | ⟨t, x, rfl⟩
  · right; simpa using ht
  · left
    refine ⟨t, ?_⟩
    have h2 : (p ++ t) ++ [x] = l ++ [e] := by simpa using ht
    exact (List.append_inj' h2 rfl).1

theorem orderly_emit {tr e} (h : Orderly tr) (hs : ∀ n, e ≠ Ev.started n) (ht : ∀ n, e ≠ Ev.stopped n) :
    Orderly (tr ++ [e]) := by
  refine ⟨fun n => ?_, fun pre n hp => ?_⟩
  · rw [count_snoc, count_snoc, if_neg (hs n), if_neg (ht n)]; exact h.1 n
  · rcases prefix_snoc hp with hp | hp
    · exact h.2 pre n hp
    · exact absurd (List.append_inj' hp rfl).2 (by simpa using (ht n).symm)

theorem orderly_start {tr m} (h : Orderly tr) (hm : Ev.started m ∉ tr) : Orderly (tr ++ [.started m]) := by
  refine ⟨fun n => ?_, fun pre n hp => ?_⟩
  · rw [count_snoc, count_snoc]
    refine ⟨?_, by simpa using (h.1 n).2⟩
    by_cases e : Ev.started m = .started n
    · rw [if_pos e, ← e, List.count_eq_zero_of_not_mem hm]; simp
    · rw [if_neg e]; exact (h.1 n).1
  · rcases prefix_snoc hp with hp | hp
    · exact h.2 pre n hp
    · exact absurd (List.append_inj' hp rfl).2 (by simp)

theorem orderly_stop {tr m} (h : Orderly tr) (hm : Ev.stopped m ∉ tr) (ha : Armed tr m) :
    Orderly (tr ++ [.stopped m]) := by
  refine ⟨fun n => ?_, fun pre n hp => ?_⟩
  · rw [count_snoc, count_snoc]
    refine ⟨by simpa using (h.1 n).1, ?_⟩
    by_cases e : Ev.stopped m = .stopped n
    · rw [if_pos e, ← e, List.count_eq_zero_of_not_mem hm]; simp
    · rw [if_neg e]; exact (h.1 n).2
  · rcases prefix_snoc hp with hp | hp
    · exact h.2 pre n hp
    · have h1 := (List.append_inj' hp rfl).1
      have h2 := (List.append_inj' hp rfl).2
      simp at h2
      rw [h1, h2]; exact ha

theorem Base.emit {s} (h : Base s) {e} (hs : ∀ n, e ≠ Ev.started n) (ht : ∀ n, e ≠ Ev.stopped n) :
    Base (s.emit e) := by
  have hs' : ∀ n, ¬ Ev.started n = e := fun n c => hs n c.symm
  have ht' : ∀ n, ¬ Ev.stopped n = e := fun n c => ht n c.symm
  refine ⟨fun n => ?_, orderly_emit h.orderly hs ht, fun n hn => h.made n ?_, fun n hn => (h.posted n hn).append _⟩
  · rw [show (s.emit e).running = s.running from rfl, h.alive n]
    simp [Alive, St.emit, hs' n, ht' n]
  · simpa [St.emit, hs' n] using hn

theorem Base.stop {s} (h : Base s) {n} (ha : Armed s.trace n) : Base (s.stop n) := by
  unfold St.stop
  split
  · rename_i hn
    have hal := (h.alive n).1 hn
    refine ⟨fun m => ?_, orderly_stop h.orderly hal.2 ha, fun m hm => h.made m (by simpa using hm),
      fun m hm => (h.posted m hm).append _⟩
    simp only [List.mem_filter, h.alive m, Alive]
    by_cases e : m = n
    · subst e; simp
    · simp [e]
  · exact h.emit (by simp) (by simp)

theorem Base.post {s} (h : Base s) {p} (hp : ∀ n, Item.stop n ∈ p → Armed s.trace n) :
    Base { s with posted := p } := ⟨h.alive, h.orderly, h.made, hp⟩

theorem Base.runItem {s} (h : Base s) {i} (hi : ∀ n, i = .stop n → Armed s.trace n) : Base (s.runItem i) := by
  cases i with
  | stop n =>
    have hb := h.stop (hi n rfl)
    simp only [St.runItem]
    split
    · refine hb.post fun m hm => hb.posted m ?_
      simpa using hm
    · exact hb
  | tasks n => exact h.emit (by simp) (by simp)

theorem Base.foldl {s : St} (h : Base s) {l : List Item} (hl : ∀ n, Item.stop n ∈ l → Armed s.trace n) :
    Base (l.foldl St.runItem s) := by
  induction l generalizing s with
  | nil => exact h
  | cons i l ih =>
    refine ih (h.runItem fun n e => hl n (by simp [e])) fun n hn => (frame_runItem s i).armed (hl n (by simp [hn]))

theorem Base.turn {s} (h : Base s) : Base s.turn :=
  Base.foldl (h.post (p := []) (by simp)) h.posted

theorem Base.turns {s} (h : Base s) (k : Nat) : Base (s.turns k) := by
  induction k generalizing s with
  | zero => exact h
  | succ k ih => exact ih h.turn

/-- What the place in the coroutine says about its variables. -/
def Here (s : St) : Prop :=
  match s.pc with
  | .load again => again = true → Ev.started s.cur ∈ s.trace
  | .start again => s.new < s.made ∧ Ev.started s.new ∉ s.trace ∧ (again = true → Ev.started s.cur ∈ s.trace)
  | .startHook again => Ev.started s.new ∈ s.trace ∧ (again = true → Ev.started s.cur ∈ s.trace)
  | .quickStop | .poll | .reStop | .reload | .sleep | .lastStop => Ev.started s.cur ∈ s.trace
  | .quickShut | .reShut | .lastShut => Armed s.trace s.cur
  | .ended | .killed => True

theorem Base.pc {s} (h : Base s) (p b) : Base { s with pc := p, failed := b } :=
  ⟨h.alive, h.orderly, h.made, h.posted⟩

theorem Base.finish {s} (h : Base s) (b) : Base (s.finish b) := h.turn.pc _ _

theorem Base.shut {s} (h : Base s) (o : Opts) (ha : Armed s.trace s.cur) : Base (s.shut o) := by
  unfold St.shut
  split
  · split
    · exact (h.stop ha).emit (by simp) (by simp)
    · exact (h.stop ha).pc _ _
  · refine h.post fun n hn => ?_
    rcases List.mem_append.1 hn with hn | hn
    · exact h.posted n hn
    · simp at hn; subst hn; exact ha

theorem frame_shut (o : Opts) (s : St) :
    (s.shut o).cur = s.cur ∧ (∀ n, Ev.started n ∈ s.trace → Ev.started n ∈ (s.shut o).trace) := by
  unfold St.shut
  split
  · split
    · have f := (frame_stop s s.cur).trans (frame_emit _ (e := .shutdownTasks s.cur) (by simp))
      exact ⟨f.cur, fun n => (f.started n).2⟩
    · have f := frame_stop s s.cur
      exact ⟨f.cur, fun n => (f.started n).2⟩
  · exact ⟨rfl, fun n h => h⟩

/-- Both. -/
def Good (s : St) : Prop := Base s ∧ Here s

theorem good_abort {s : St} (h : Base s) (again : Bool) (hc : again = true → Ev.started s.cur ∈ s.trace) (a : Ans) :
    Good (s.abort again a) := by
  unfold St.abort
  split <;> split
  · rename_i e; exact ⟨h.pc _ _, hc e⟩
  · exact ⟨h.finish _, trivial⟩
  · rename_i e; exact ⟨h.pc _ _, hc e⟩
  · exact ⟨h.pc _ _, trivial⟩

theorem good_booted {s : St} (h : Base s) (o : Opts) (again : Bool) (hc : Ev.started s.new ∈ s.trace) :
    Good (s.booted o again) := by
  have hb : Base { s with cur := s.new } := ⟨h.alive, h.orderly, h.made, h.posted⟩
  unfold St.booted
  dsimp only
  split
  · exact ⟨hb.pc _ _, hc⟩
  · split
    · exact ⟨hb.pc _ _, hc⟩
    · exact ⟨hb.pc _ _, hc⟩

theorem good_hook {s : St} (h : Base s) (hc : Ev.started s.cur ∈ s.trace) (k : Nat) :
    Base ((s.emit .onStop).turns k) ∧ Armed ((s.emit .onStop).turns k).trace ((s.emit .onStop).turns k).cur := by
  refine ⟨(h.emit (by simp) (by simp)).turns k, ?_⟩
  have f := frame_turns k (s.emit .onStop)
  rw [f.cur]
  exact f.armed (armed_of_started hc)

theorem good_step (o : Opts) {s : St} (h : Good s) (a : Ans) : Good (step o s a) := by
  obtain ⟨hb, hh⟩ := h
  unfold step
  unfold Here at hh
  split <;> rename_i hpc <;> rw [hpc] at hh <;> dsimp only at hh ⊢
  · -- load
    rename_i again
    have hb' : Base { s with new := s.made, made := s.made + 1 } :=
      ⟨hb.alive, hb.orderly, fun n hn => Nat.lt_succ_of_lt (hb.made n hn), hb.posted⟩
    split
    · exact ⟨hb'.pc _ _, Nat.lt_succ_self _, fun c => Nat.lt_irrefl _ (hb.made _ c), hh⟩
    · exact ⟨hb'.pc _ _, Nat.lt_succ_self _, fun c => Nat.lt_irrefl _ (hb.made _ c), hh⟩
    · exact good_abort hb' again hh a
  · -- start
    rename_i again
    have key : ∀ s' : St, Frame s s' → Base s' →
        Good (match a with
          | .ok _ | .no =>
            let s := { s' with running := s'.running ++ [s'.new], trace := s'.trace ++ [Ev.started s'.new] }
            if o.bootstrap then s.booted o again else { s with pc := .startHook again }
          | _ => s'.abort again a) := by
      intro s' f hb'
      have hnew : Ev.started s'.new ∉ s'.trace := by rw [f.started, f.new]; exact hh.2.1
      have hcur : again = true → Ev.started s'.cur ∈ s'.trace := fun e => by
        rw [f.started, f.cur]; exact hh.2.2 e
      have hmade : s'.new < s'.made := by rw [f.new, f.made]; exact hh.1
      have hst : Ev.stopped s'.new ∉ s'.trace := by
        intro c
        obtain ⟨a, b, e⟩ := List.append_of_mem c
        obtain ⟨x, y, e', _⟩ := hb'.orderly.2 a s'.new ⟨b, by rw [e]; simp⟩
        exact hnew (by rw [e, e']; simp)
      have hb2 : Base { s' with running := s'.running ++ [s'.new], trace := s'.trace ++ [Ev.started s'.new] } := by
        refine ⟨fun n => ?_, orderly_start hb'.orderly hnew, fun n hn => ?_, fun n hn => (hb'.posted n hn).append _⟩
        · simp only [List.mem_append, List.mem_singleton, hb'.alive n, Alive, Ev.started.injEq]
          by_cases e : n = s'.new
          · subst e; simp [hst]
          · simp [e]
        · simp only [List.mem_append, List.mem_singleton, Ev.started.injEq] at hn
          rcases hn with hn | hn
          · exact hb'.made n hn
          · rw [hn]; exact hmade
      have hin : ∀ P : Prop, (P → Ev.started s'.cur ∈ s'.trace) → P → Ev.started s'.cur ∈ s'.trace ++ [Ev.started s'.new] :=
        fun P hP p => List.mem_append_left _ (hP p)
      split
      · dsimp only
        split
        · exact good_booted hb2 o again (by simp)
        · exact ⟨hb2.pc _ _, by simp, hin _ hcur⟩
      · dsimp only
        split
        · exact good_booted hb2 o again (by simp)
        · exact ⟨hb2.pc _ _, by simp, hin _ hcur⟩
      · exact good_abort hb' again hcur a
    have k2 : ∀ b : Bool, Frame s (if b then s.turns a.turns else s) ∧ Base (if b then s.turns a.turns else s) := by
      intro b; cases b
      · exact ⟨Frame.refl _, hb⟩
      · exact ⟨frame_turns _ _, hb.turns _⟩
    exact key _ (k2 o.native).1 (k2 o.native).2
  · -- startHook
    rename_i again
    have f := (frame_emit s (e := .onStart) (by simp)).trans (frame_turns a.turns _)
    have hb' := (hb.emit (e := .onStart) (by simp) (by simp)).turns a.turns
    have hnew : Ev.started ((s.emit .onStart).turns a.turns).new ∈ ((s.emit .onStart).turns a.turns).trace := by
      rw [f.started, f.new]; exact hh.1
    split
    · exact good_booted hb' o again hnew
    · exact good_booted hb' o again hnew
    · exact ⟨hb'.pc _ _, trivial⟩
    · exact good_abort hb' again (fun e => by rw [f.started, f.cur]; exact hh.2 e) a
  · -- quickStop
    obtain ⟨hb', ha⟩ := good_hook hb hh a.turns
    split
    · exact ⟨hb'.pc _ _, ha⟩
    · exact ⟨hb'.pc _ _, ha⟩
    · exact ⟨hb'.finish _, trivial⟩
    · exact ⟨hb'.pc _ _, trivial⟩
  · exact ⟨(hb.shut o hh).finish _, trivial⟩
  · -- poll
    split
    · split
      · exact ⟨hb.pc _ _, hh⟩
      · exact ⟨hb.pc _ _, hh⟩
    all_goals exact ⟨hb.pc _ _, hh⟩
  · -- reStop
    obtain ⟨hb', ha⟩ := good_hook hb hh a.turns
    split
    · exact ⟨hb'.pc _ _, ha⟩
    · exact ⟨hb'.pc _ _, ha⟩
    · exact ⟨hb'.pc _ _, ha.started⟩
    · exact ⟨hb'.pc _ _, trivial⟩
    · exact ⟨hb'.pc _ _, ha.started⟩
  · -- reShut
    refine ⟨(hb.shut o hh).pc _ _, ?_⟩
    have := frame_shut o s
    show Ev.started (s.shut o).cur ∈ (s.shut o).trace
    rw [this.1]; exact this.2 _ hh.started
  · -- reload
    split
    · exact ⟨hb.pc _ _, fun _ => hh⟩
    · exact ⟨hb.pc _ _, fun _ => hh⟩
    all_goals exact ⟨hb.pc _ _, hh⟩
  · -- sleep
    have f := frame_turns (a.turns + 1) s
    have hb' := hb.turns (a.turns + 1)
    have hc : Ev.started (s.turns (a.turns + 1)).cur ∈ (s.turns (a.turns + 1)).trace := by
      rw [f.started, f.cur]; exact hh
    split
    · exact ⟨hb'.pc _ _, hc⟩
    · exact ⟨hb'.pc _ _, hc⟩
    · exact ⟨hb'.pc _ _, hc⟩
    · exact ⟨hb'.pc _ _, trivial⟩
    · exact ⟨hb'.pc _ _, hc⟩
  · -- lastStop
    obtain ⟨hb', ha⟩ := good_hook hb hh a.turns
    split
    · exact ⟨hb'.pc _ _, ha⟩
    · exact ⟨hb'.pc _ _, ha⟩
    · exact ⟨hb'.finish _, trivial⟩
    · exact ⟨hb'.pc _ _, trivial⟩
  · exact ⟨(hb.shut o hh).finish _, trivial⟩
  · exact ⟨hb, by rw [Here, hpc]; trivial⟩
  · exact ⟨hb, by rw [Here, hpc]; trivial⟩

theorem good_init : Good init := by
  refine ⟨⟨by simp [init, Alive], ⟨by simp [init], ?_⟩, by simp [init], by simp [init]⟩, by simp [Here, init]⟩
  intro pre n hp
  have := List.IsPrefix.length_le hp
  simp [init] at this

theorem good_run (o : Opts) (as : List Ans) : Good (run o as) := by
  unfold run
  suffices H : ∀ s, Good s → Good (as.foldl (step o) s) from H _ good_init
  intro s hs
  induction as generalizing s with
  | nil => exact hs
  | cons a as ih => exact ih _ (good_step o hs a)

/-- **C106** (safety, unconditional): at every moment of every run of `asyncz start`, whatever fails or is interrupted, every
scheduler was started at most once and stopped at most once, after it was started and after the stop hook was called. -/
theorem C106_orderly (o : Opts) (as : List Ans) : Orderly (run o as).trace := (good_run o as).1.orderly

/-! ## Everything is stopped at the end -/

theorem runItem_running (s : St) (i : Item) (n : Nat) :
    n ∈ (s.runItem i).running ↔ n ∈ s.running ∧ i ≠ .stop n := by
  cases i with
  | stop m =>
    by_cases hm : m ∈ s.running
    · simp only [St.runItem, St.stop, hm, if_true, List.mem_filter]
      constructor
      · rintro ⟨h, h1⟩; exact ⟨h, fun c => by cases c; simp at h1⟩
      · rintro ⟨h, h1⟩; exact ⟨h, by simp; exact fun c => h1 (by rw [c])⟩
    · have e : (s.runItem (.stop m)).running = s.running := by simp [St.runItem, St.stop, hm, St.emit]
      rw [e]
      constructor
      · intro h; exact ⟨h, fun c => hm (by cases c; exact h)⟩
      · exact fun h => h.1
  | tasks m => simp [St.runItem, St.emit]

theorem runItem_posted (s : St) (i : Item) (n : Nat) :
    Item.stop n ∈ (s.runItem i).posted ↔ Item.stop n ∈ s.posted := by
  cases i with
  | stop m => by_cases hm : m ∈ s.running <;> simp [St.runItem, St.stop, hm, St.emit]
  | tasks m => simp [St.runItem, St.emit]

theorem foldl_running (l : List Item) (s : St) (n : Nat) :
    n ∈ (l.foldl St.runItem s).running ↔ n ∈ s.running ∧ Item.stop n ∉ l := by
  induction l generalizing s with
  | nil => simp
  | cons i l ih =>
    rw [List.foldl_cons, ih, runItem_running, List.mem_cons]
    constructor
    · rintro ⟨⟨h, h1⟩, h2⟩; exact ⟨h, fun c => c.elim (fun e => h1 e.symm) h2⟩
    · rintro ⟨h, h1⟩; exact ⟨⟨h, fun e => h1 (.inl e.symm)⟩, fun c => h1 (.inr c)⟩

theorem foldl_posted (l : List Item) (s : St) (n : Nat) :
    Item.stop n ∈ (l.foldl St.runItem s).posted ↔ Item.stop n ∈ s.posted := by
  induction l generalizing s with
  | nil => simp
  | cons i l ih => rw [List.foldl_cons, ih, runItem_posted]

theorem turn_running (s : St) (n : Nat) : n ∈ s.turn.running ↔ n ∈ s.running ∧ Item.stop n ∉ s.posted :=
  foldl_running _ _ n

/-- Every running scheduler is in `P` or about to be stopped. -/
def Cover (s : St) (P : Nat → Prop) : Prop := ∀ n ∈ s.running, P n ∨ Item.stop n ∈ s.posted

theorem Cover.turn {s P} (h : Cover s P) : Cover s.turn P := fun n hn => by
  rw [turn_running] at hn
  exact .inl ((h n hn.1).resolve_right hn.2)

theorem Cover.turns {s P} (h : Cover s P) (k) : Cover (s.turns k) P := by
  induction k generalizing s with
  | zero => exact h
  | succ k ih => exact ih h.turn

theorem Cover.mono {s P Q} (h : Cover s P) (k : ∀ n, P n → Q n) : Cover s Q :=
  fun n hn => (h n hn).imp (k n) id

theorem Cover.finish {s} (h : Cover s fun _ => False) (b) : (s.finish b).running = [] := by
  refine List.eq_nil_iff_forall_not_mem.2 fun n hn => ?_
  have hn : n ∈ s.turn.running := hn
  rw [turn_running] at hn
  exact hn.2 ((h n hn.1).resolve_left id)

theorem Cover.shut {s : St} (h : Cover s (· = s.cur)) (o : Opts) : Cover (s.shut o) fun _ => False := by
  intro n hn
  right
  unfold St.shut at hn ⊢
  split at hn
  · rw [if_pos (by assumption)]
    split at hn
    · rename_i hc
      rw [if_pos hc]
      have hc' := hc
      simp only [St.stop, St.emit, hc, if_true, List.mem_filter] at hn ⊢
      rcases h n hn.1 with e | e
      · simp [e] at hn
      · exact e
    · rename_i hc
      rw [if_neg hc]
      simp only [St.stop, St.emit, hc, if_false] at hn ⊢
      rcases h n hn with e | e
      · exact absurd (e ▸ hn) hc
      · exact e
  · rw [if_neg (by assumption)]
    rcases h n hn with e | e
    · simp [e]
    · simp [e]

/-- The exceptions and interrupts after which `asyncz start` still stops what it started: none is raised by the start hook, by
the stop hook called at the end, nor in the event loop, outside the coroutine. -/
def allowed : PC → Ans → Bool
  | _, .ok _ => true
  | _, .no => true
  | .load _, .fail _ => true
  | .start _, .fail _ => true
  | .poll, .fail _ => true
  | .reStop, .fail _ => true
  | .reload, .fail _ => true
  | .sleep, .fail _ => true
  | .load _, .intr _ => true
  | .start _, .intr _ => true
  | .poll, .intr _ => true
  | .reStop, .intr _ => true
  | .reload, .intr _ => true
  | .sleep, .intr _ => true
  | .quickShut, _ => true
  | .reShut, _ => true
  | .lastShut, _ => true
  | _, _ => false

/-- all answers of a run are of that kind -/
def Calm (o : Opts) : St → List Ans → Prop
  | _, [] => True
  | s, a :: as => allowed s.pc a = true ∧ Calm o (step o s a) as

/-- What is running, by place. -/
def Covered (s : St) : Prop :=
  match s.pc with
  | .load false | .start false => s.running = []
  | .load true | .start true | .reload => Cover s fun _ => False
  | .startHook _ => Cover s (· = s.new)
  | .ended => s.running = []
  | .killed => s.running = []
  | _ => Cover s (· = s.cur)

theorem covered_booted {s : St} (h : Cover s (· = s.new)) (o : Opts) (again) : Covered (s.booted o again) := by
  unfold St.booted
  dsimp only
  split
  · exact h
  · split
    · exact h
    · exact h

theorem turns_nil {s : St} (h : s.running = []) (k) : (s.turns k).running = [] := by
  refine List.eq_nil_iff_forall_not_mem.2 fun n => ?_
  have H : ∀ s : St, n ∈ (s.turns k).running → n ∈ s.running := by
    induction k with
    | zero => exact fun _ => id
    | succ k ih => intro s hm; exact ((turn_running s n).1 (ih _ hm)).1
  intro hn
  have := H s hn
  rw [h] at this; cases this

theorem frame_running_emit (s : St) (e : Ev) : (s.emit e).running = s.running := rfl

theorem covered_step (o : Opts) {s : St} (h : Covered s) {a : Ans} (ha : allowed s.pc a = true) :
    Covered (step o s a) := by
  unfold step
  unfold Covered at h
  split <;> rename_i hpc <;> rw [hpc] at h ha
  · -- load
    rename_i again
    cases again <;> dsimp only at h ⊢
    · cases a <;> first | exact h | (exact Cover.finish (s := { s with new := s.made, made := s.made + 1 }) (fun n hn => by rw [h] at hn; cases hn) _)
    · have h' : Cover s (· = s.cur) := h.mono fun _ => False.elim
      cases a <;> first | exact h | exact h' | cases ha
  · -- start
    rename_i again
    clear ha
    have hcov : Cover s fun _ => False := by
      cases again
      · intro n hn; dsimp only at h; rw [h] at hn; cases hn
      · exact h
    have key : ∀ s' : St, Cover s' (fun _ => False) → (again = false → s'.running = []) →
        Covered (match a with
          | .ok _ | .no =>
            let s := { s' with running := s'.running ++ [s'.new], trace := s'.trace ++ [Ev.started s'.new] }
            if o.bootstrap then s.booted o again else { s with pc := .startHook again }
          | _ => s'.abort again a) := by
      intro s' hc hr
      have hc2 : Cover { s' with running := s'.running ++ [s'.new], trace := s'.trace ++ [Ev.started s'.new] }
          (· = s'.new) := by
        intro n hn
        rcases List.mem_append.1 hn with hn | hn
        · exact .inr ((hc n hn).resolve_left id)
        · exact .inl (by simpa using hn)
      have hc3 : Cover s' (· = s'.cur) := hc.mono fun _ => False.elim
      split
      · dsimp only
        split
        · exact covered_booted hc2 o again
        · exact hc2
      · dsimp only
        split
        · exact covered_booted hc2 o again
        · exact hc2
      · cases again
        · unfold St.abort
          split
          · exact hc.finish _
          · exact hr rfl
        · unfold St.abort
          split
          · exact hc3
          · exact hc3
    have k2 : ∀ b : Bool, Cover (if b then s.turns a.turns else s) (fun _ => False) ∧
        (again = false → (if b then s.turns a.turns else s).running = []) := by
      intro b; cases b
      · exact ⟨hcov, fun e => by subst e; exact h⟩
      · exact ⟨hcov.turns _, fun e => by subst e; exact turns_nil h _⟩
    exact key _ (k2 o.native).1 (k2 o.native).2
  · -- startHook
    rename_i again
    have h' : Cover (s.emit .onStart) (· = s.new) := h
    have h1 : Cover ((s.emit .onStart).turns a.turns) (· = ((s.emit .onStart).turns a.turns).new) := by
      rw [(frame_turns a.turns (s.emit .onStart)).new]; exact h'.turns _
    cases a with
    | ok k => exact covered_booted h1 o again
    | no => exact covered_booted h1 o again
    | fail k => cases ha
    | intr k => cases ha
    | kill k => cases ha
  · -- quickStop
    have h' : Cover (s.emit .onStop) (· = s.cur) := h
    have h1 : Cover ((s.emit .onStop).turns a.turns) (· = ((s.emit .onStop).turns a.turns).cur) := by
      rw [(frame_turns a.turns (s.emit .onStop)).cur]; exact h'.turns _
    cases a with
    | ok k => exact h1
    | no => exact h1
    | fail k => cases ha
    | intr k => cases ha
    | kill k => cases ha
  · exact (Cover.shut h o).finish _
  · -- poll
    cases a with
    | ok k => dsimp only; split <;> exact h
    | kill k => cases ha
    | _ => exact h
  · -- reStop
    have h' : Cover (s.emit .onStop) (· = s.cur) := h
    have h1 : Cover ((s.emit .onStop).turns a.turns) (· = ((s.emit .onStop).turns a.turns).cur) := by
      rw [(frame_turns a.turns (s.emit .onStop)).cur]; exact h'.turns _
    cases a with
    | kill k => cases ha
    | _ => exact h1
  · exact Cover.shut h o
  · -- reload
    have h' : Cover s (· = s.cur) := Cover.mono h fun _ => False.elim
    cases a with
    | ok k => exact h
    | no => exact h
    | kill k => cases ha
    | _ => exact h'
  · -- sleep
    have h1 : Cover (s.turns (a.turns + 1)) (· = (s.turns (a.turns + 1)).cur) := by
      rw [(frame_turns (a.turns + 1) s).cur]; exact Cover.turns h _
    cases a with
    | kill k => cases ha
    | _ => exact h1
  · -- lastStop
    have h' : Cover (s.emit .onStop) (· = s.cur) := h
    have h1 : Cover ((s.emit .onStop).turns a.turns) (· = ((s.emit .onStop).turns a.turns).cur) := by
      rw [(frame_turns a.turns (s.emit .onStop)).cur]; exact h'.turns _
    cases a with
    | ok k => exact h1
    | no => exact h1
    | fail k => cases ha
    | intr k => cases ha
    | kill k => cases ha
  · exact (Cover.shut h o).finish _
  · rw [Covered, hpc]; exact h
  · rw [Covered, hpc]; exact h

/-- **C106** (partial): when a run ends in which neither the start hook nor the last call of the stop hook fails, and in which
the interrupts reach the coroutine, every scheduler that was started has been stopped once. -/
theorem C106_all_stopped_partial (o : Opts) (as : List Ans) (h : Calm o init as)
    (he : (run o as).pc = .ended ∨ (run o as).pc = .killed) : AllStopped (run o as).trace := by
  have hc : Covered (run o as) := by
    unfold run
    suffices H : ∀ s, Covered s → Calm o s as → Covered (as.foldl (step o) s) from H _ rfl h
    intro s hs hcalm
    clear h he
    induction as generalizing s with
    | nil => exact hs
    | cons a as ih => exact ih _ (covered_step o hs hcalm.1) hcalm.2
  have hr : (run o as).running = [] := by
    unfold Covered at hc
    rcases he with he | he <;> rw [he] at hc <;> exact hc
  have g := (good_run o as).1
  intro n hn
  have hlive := g.alive n
  rw [hr] at hlive
  have hst : Ev.stopped n ∈ (run o as).trace := Classical.byContradiction fun c => by
    have := hlive.2 ⟨hn, c⟩
    cases this
  have h1 := (g.orderly.1 n).2
  have h2 := List.count_pos_iff.2 hst
  omega

/-! ## One scheduler at a time -/

theorem one_other {tr e} (h : OneAtATime tr) (he : ∀ n, e ≠ Ev.started n) : OneAtATime (tr ++ [e]) := by
  intro pre hp m n hm hn
  rcases prefix_snoc hp with hp | rfl
  · exact h pre hp m n hm hn
  · have k : ∀ x, Alive (tr ++ [e]) x → Alive tr x := fun x hx => by
      refine ⟨?_, fun c => hx.2 (by simp [c])⟩
      rcases List.mem_append.1 hx.1 with hx | hx
      · exact hx
      · exact absurd (List.mem_singleton.1 hx).symm (he x)
    exact h tr (List.prefix_refl _) m n (k m hm) (k n hn)

theorem one_start {tr m} (h : OneAtATime tr) (he : ∀ n, ¬ Alive tr n) : OneAtATime (tr ++ [.started m]) := by
  intro pre hp a b ha hb
  rcases prefix_snoc hp with hp | rfl
  · exact h pre hp a b ha hb
  · have k : ∀ x, Alive (tr ++ [.started m]) x → x = m := fun x hx => by
      rcases List.mem_append.1 hx.1 with hx' | hx'
      · exact absurd ⟨hx', fun c => hx.2 (by simp [c])⟩ (he x)
      · simpa using hx'
    rw [k a ha, k b hb]

/-- With nothing posted the loop does nothing. -/
theorem turns_idle {s : St} (h : s.posted = []) (k) : s.turns k = s := by
  induction k with
  | zero => rfl
  | succ k ih =>
    have : s.turn = s := by
      have e : { s with posted := [] } = s := by cases s; simp at h; simp [h]
      rw [St.turn, h]; exact e
    rw [St.turns, this, ih]

theorem turn_idle {s : St} (h : s.posted = []) : s.turn = s := turns_idle h 1

/-- Where a native scheduler's run is, with what is running. -/
def Lone (s : St) : Prop :=
  s.posted = [] ∧ OneAtATime s.trace ∧
  match s.pc with
  | .load _ | .start _ | .reload => s.running = []
  | .startHook _ => ∀ n ∈ s.running, n = s.new
  | .lastStop | .lastShut | .ended | .killed => True
  | _ => ∀ n ∈ s.running, n = s.cur

theorem lone_booted {s : St} (hp : s.posted = []) (ht : OneAtATime s.trace) (h : ∀ n ∈ s.running, n = s.new)
    (o : Opts) (again) : Lone (s.booted o again) := by
  unfold St.booted
  dsimp only
  split
  · exact ⟨hp, ht, h⟩
  · split <;> exact ⟨hp, ht, h⟩

theorem lone_abort {s : St} (hp : s.posted = []) (ht : OneAtATime s.trace) (again a) :
    Lone (s.abort again a) := by
  unfold St.abort
  split <;> split
  · exact ⟨hp, ht, trivial⟩
  · rw [St.finish, turn_idle hp]; exact ⟨hp, ht, trivial⟩
  · exact ⟨hp, ht, trivial⟩
  · exact ⟨hp, ht, trivial⟩

theorem lone_shut {o : Opts} (ho : o.native = true) {s : St} (hp : s.posted = []) (ht : OneAtATime s.trace)
    : (s.shut o).posted = [] ∧ OneAtATime (s.shut o).trace ∧
      ((∀ n ∈ s.running, n = s.cur) → (s.shut o).running = []) := by
  unfold St.shut
  rw [if_pos ho]
  split
  · rename_i hc
    simp only [St.stop, St.emit, hc, if_true]
    refine ⟨hp, one_other (one_other ht (by simp)) (by simp), fun h => ?_⟩
    rw [List.filter_eq_nil_iff]
    intro n hn
    simp [h n hn]
  · rename_i hc
    simp only [St.stop, St.emit, hc, if_false]
    refine ⟨hp, one_other ht (by simp), fun h => ?_⟩
    refine List.eq_nil_iff_forall_not_mem.2 fun n hn => hc (h n hn ▸ hn)

theorem lone_step {o : Opts} (ho : o.native = true) {s : St} (hg : Good s) (h : Lone s) (a : Ans) :
    Lone (step o s a) := by
  obtain ⟨hp, ht, h⟩ := h
  have hstop : OneAtATime (s.emit .onStop).trace := one_other ht (by simp)
  have hstart : OneAtATime (s.emit .onStart).trace := one_other ht (by simp)
  have hp1 : (s.emit .onStop).posted = [] := hp
  have hp2 : (s.emit .onStart).posted = [] := hp
  unfold step
  split <;> rename_i hpc <;> rw [hpc] at h <;> dsimp only at h ⊢
  · -- load
    split
    · exact ⟨hp, ht, h⟩
    · exact ⟨hp, ht, h⟩
    · exact lone_abort (s := { s with new := s.made, made := s.made + 1 }) hp ht _ _
  · -- start
    rename_i again
    rw [if_pos ho, turns_idle hp]
    have h1 : OneAtATime (s.trace ++ [.started s.new]) := by
      refine one_start ht fun n hn => ?_
      have := (hg.1.alive n).2 hn
      rw [h] at this; cases this
    have h2 : ∀ n ∈ s.running ++ [s.new], n = s.new := by
      intro n hn; rw [h] at hn; simpa using hn
    split
    · split
      · exact lone_booted (s := { s with running := s.running ++ [s.new], trace := s.trace ++ [.started s.new] }) hp h1 h2 o again
      · exact ⟨hp, h1, h2⟩
    · split
      · exact lone_booted (s := { s with running := s.running ++ [s.new], trace := s.trace ++ [.started s.new] }) hp h1 h2 o again
      · exact ⟨hp, h1, h2⟩
    · exact lone_abort hp ht _ _
  · -- startHook
    rename_i again
    rw [turns_idle hp2]
    split
    · exact lone_booted hp2 hstart h o again
    · exact lone_booted hp2 hstart h o again
    · exact ⟨hp, hstart, trivial⟩
    · exact lone_abort hp2 hstart _ _
  · rw [turns_idle hp1]
    split
    · exact ⟨hp, hstop, h⟩
    · exact ⟨hp, hstop, h⟩
    · rw [St.finish, turn_idle hp1]; exact ⟨hp, hstop, trivial⟩
    · exact ⟨hp, hstop, trivial⟩
  · have k := lone_shut ho hp ht
    rw [St.finish, turn_idle k.1]; exact ⟨k.1, k.2.1, trivial⟩
  · split
    · split <;> exact ⟨hp, ht, h⟩
    · exact ⟨hp, ht, h⟩
    · exact ⟨hp, ht, trivial⟩
    · exact ⟨hp, ht, trivial⟩
  · rw [turns_idle hp1]
    split
    · exact ⟨hp, hstop, h⟩
    · exact ⟨hp, hstop, h⟩
    all_goals exact ⟨hp, hstop, trivial⟩
  · have k := lone_shut ho hp ht
    exact ⟨k.1, k.2.1, k.2.2 h⟩
  · split
    · exact ⟨hp, ht, h⟩
    · exact ⟨hp, ht, h⟩
    all_goals exact ⟨hp, ht, trivial⟩
  · rw [turns_idle hp]
    split
    · exact ⟨hp, ht, h⟩
    · exact ⟨hp, ht, h⟩
    all_goals exact ⟨hp, ht, trivial⟩
  · rw [turns_idle hp1]
    split
    · exact ⟨hp, hstop, trivial⟩
    · exact ⟨hp, hstop, trivial⟩
    · rw [St.finish, turn_idle hp1]; exact ⟨hp, hstop, trivial⟩
    · exact ⟨hp, hstop, trivial⟩
  · have k := lone_shut ho hp ht
    rw [St.finish, turn_idle k.1]; exact ⟨k.1, k.2.1, trivial⟩
  · exact ⟨hp, ht, by rw [hpc]; trivial⟩
  · exact ⟨hp, ht, by rw [hpc]; trivial⟩

/-- **C106** (partial): with a bootstrap that gives a `NativeAsyncIOScheduler`, no two schedulers ever run at the same time,
whatever fails or is interrupted. -/
theorem C106_one_at_a_time_partial (o : Opts) (ho : o.native = true) (as : List Ans) :
    OneAtATime (run o as).trace := by
  suffices H : ∀ s, Good s → Lone s → Lone (as.foldl (step o) s) by
    refine (H init good_init ⟨rfl, ?_, rfl⟩).2.1
    intro pre hp m n hm
    have := List.prefix_nil.1 hp
    subst this
    cases hm.1
  intro s hg hs
  induction as generalizing s with
  | nil => exact hs
  | cons a as ih => exact ih _ (good_step o hg a) (lone_step ho hg hs a)

/-! ## What goes wrong -/

/-- Where the variable `scheduler` (or the one being started) is running and nobody has asked to stop it. -/
def Live (s : St) : Prop :=
  match s.pc with
  | .startHook _ => s.new ∈ s.running ∧ Item.stop s.new ∉ s.posted
  | .quickStop | .quickShut | .poll | .reStop | .reShut | .sleep => s.cur ∈ s.running ∧ Item.stop s.cur ∉ s.posted
  | _ => True

theorem live_turns {s : St} {n} (h : n ∈ s.running ∧ Item.stop n ∉ s.posted) (k) :
    n ∈ (s.turns k).running ∧ Item.stop n ∉ (s.turns k).posted := by
  induction k generalizing s with
  | zero => exact h
  | succ k ih =>
    refine ih ⟨(turn_running s n).2 h, ?_⟩
    unfold St.turn
    rw [foldl_posted]; simp

theorem live_booted {s : St} (h : s.new ∈ s.running ∧ Item.stop s.new ∉ s.posted) (o : Opts) (again) :
    Live (s.booted o again) := by
  unfold St.booted
  dsimp only
  split
  · exact h
  · split <;> exact h

theorem live_abort (s : St) (again a) : Live (s.abort again a) := by
  unfold St.abort
  split <;> split <;> exact trivial

theorem live_step (o : Opts) {s : St} (hg : Good s) (h : Live s) (a : Ans) : Live (step o s a) := by
  unfold step
  unfold Live at h
  have hh := hg.2
  unfold Here at hh
  split <;> rename_i hpc <;> rw [hpc] at h hh <;> dsimp only at h hh ⊢
  · split
    · trivial
    · trivial
    · exact live_abort _ _ _
  · rename_i again
    have key : ∀ s' : St, Frame s s' → Base s' →
        Live (match a with
          | .ok _ | .no =>
            let s := { s' with running := s'.running ++ [s'.new], trace := s'.trace ++ [Ev.started s'.new] }
            if o.bootstrap then s.booted o again else { s with pc := .startHook again }
          | _ => s'.abort again a) := by
      intro s' f hb'
      have hnew : Ev.started s'.new ∉ s'.trace := by rw [f.started, f.new]; exact hh.2.1
      have hl : s'.new ∈ s'.running ++ [s'.new] ∧ Item.stop s'.new ∉ s'.posted :=
        ⟨by simp, fun c => hnew (hb'.posted _ c).started⟩
      split
      · dsimp only
        split
        · exact live_booted (s := { s' with running := s'.running ++ [s'.new], trace := s'.trace ++ [Ev.started s'.new] }) hl o again
        · exact hl
      · dsimp only
        split
        · exact live_booted (s := { s' with running := s'.running ++ [s'.new], trace := s'.trace ++ [Ev.started s'.new] }) hl o again
        · exact hl
      · exact live_abort _ _ _
    have k2 : ∀ b : Bool, Frame s (if b then s.turns a.turns else s) ∧ Base (if b then s.turns a.turns else s) := by
      intro b; cases b
      · exact ⟨Frame.refl _, hg.1⟩
      · exact ⟨frame_turns _ _, hg.1.turns _⟩
    exact key _ (k2 o.native).1 (k2 o.native).2
  · rename_i again
    have h1 : ((s.emit .onStart).turns a.turns).new ∈ ((s.emit .onStart).turns a.turns).running ∧
        Item.stop ((s.emit .onStart).turns a.turns).new ∉ ((s.emit .onStart).turns a.turns).posted := by
      rw [(frame_turns a.turns (s.emit .onStart)).new]
      exact live_turns (s := s.emit .onStart) h a.turns
    split
    · exact live_booted h1 o again
    · exact live_booted h1 o again
    · trivial
    · exact live_abort _ _ _
  all_goals first
    | trivial
    | (have h1 : ((s.emit .onStop).turns a.turns).cur ∈ ((s.emit .onStop).turns a.turns).running ∧
          Item.stop ((s.emit .onStop).turns a.turns).cur ∉ ((s.emit .onStop).turns a.turns).posted := by
        rw [(frame_turns a.turns (s.emit .onStop)).cur]
        exact live_turns (s := s.emit .onStop) h a.turns
       split <;> first | exact h1 | trivial)
    | (split <;> first | exact h | trivial | (split <;> exact h))
    | (have h1 : (s.turns (a.turns + 1)).cur ∈ (s.turns (a.turns + 1)).running ∧
          Item.stop (s.turns (a.turns + 1)).cur ∉ (s.turns (a.turns + 1)).posted := by
        rw [(frame_turns (a.turns + 1) s).cur]
        exact live_turns h (a.turns + 1)
       split <;> first | exact h1 | trivial)
    | (rw [Live, hpc]; trivial)

theorem live_run (o : Opts) (as : List Ans) : Live (run o as) := by
  suffices H : ∀ s, Good s → Live s → Live (as.foldl (step o) s) from H init good_init trivial
  intro s hg hs
  induction as generalizing s with
  | nil => exact hs
  | cons a as ih => exact ih _ (good_step o hg a) (live_step o hg hs a)

theorem run_append (o : Opts) (as bs : List Ans) : run o (as ++ bs) = bs.foldl (step o) (run o as) := by
  simp [run, List.foldl_append]

/-- **C106** (counterexample, for every reload of every run): with an `AsyncIOScheduler` the shutdown is posted to the event
loop, which cannot turn before the next scheduler is started; both run at the same time. -/
theorem C106_overlap_witness (o : Opts) (ho : o.native = false) (as : List Ans) (h : (run o as).pc = .reStop)
    (k₁ k₂ k₃ k₄ k₅ : Nat) :
    ¬ OneAtATime (run o (as ++ [.ok k₁, .ok k₂, .ok k₃, .ok k₄, .ok k₅])).trace := by
  intro hone
  rw [run_append] at hone
  have hg := good_run o as
  have hl := live_run o as
  generalize run o as = s at h hg hl hone
  -- after the stop hook
  have hg1 := good_step o hg (.ok k₁)
  have hl1 := live_step o hg hl (.ok k₁)
  have e1 : (step o s (.ok k₁)).pc = .reShut := by simp [step, h]
  simp only [List.foldl_cons, List.foldl_nil] at hone
  generalize step o s (.ok k₁) = s₁ at hg1 hl1 e1 hone
  have e2 : step o s₁ (.ok k₂) = { s₁ with posted := s₁.posted ++ [.stop s₁.cur], pc := .reload } := by
    simp [step, e1, St.shut, ho]
  have e3 : step o (step o s₁ (.ok k₂)) (.ok k₃) =
      { s₁ with posted := s₁.posted ++ [.stop s₁.cur], pc := .load true } := by
    rw [e2]; simp [step]
  have e4 : step o (step o (step o s₁ (.ok k₂)) (.ok k₃)) (.ok k₄) =
      { s₁ with posted := s₁.posted ++ [.stop s₁.cur], pc := .start true, new := s₁.made, made := s₁.made + 1 } := by
    rw [e3]; simp [step]
  have e5 : (step o (step o (step o (step o s₁ (.ok k₂)) (.ok k₃)) (.ok k₄)) (.ok k₅)).running =
        s₁.running ++ [s₁.made] := by
    rw [e4]; simp only [step, ho]
    by_cases hb : o.bootstrap = true
    · simp [hb, St.booted]
    · simp [hb]
  have hg5 := good_step o (good_step o (good_step o (good_step o hg1 (.ok k₂)) (.ok k₃)) (.ok k₄)) (.ok k₅)
  have hcur : s₁.cur ∈ s₁.running := by
    unfold Live at hl1; rw [e1] at hl1; exact hl1.1
  have a1 := (hg5.1.alive s₁.cur).1 (by rw [e5]; simp [hcur])
  have a2 := (hg5.1.alive s₁.made).1 (by rw [e5]; simp)
  have := hone _ (List.prefix_refl _) _ _ a1 a2
  have hlt := hg1.1.made _ ((hg1.1.alive _).1 hcur).1
  omega

theorem ended_stays (o : Opts) {s : St} (h : s.pc = .ended ∨ s.pc = .killed) (bs : List Ans) :
    bs.foldl (step o) s = s := by
  induction bs with
  | nil => rfl
  | cons b bs ih =>
    have : step o s b = s := by
      rcases h with h | h
      · simp [step, h]
      · simp [step, h]
    rw [List.foldl_cons, this, ih]

/-- **C106** (counterexample): if the start hook fails at the first start, the command ends and its scheduler is never
stopped: the stop hook is not called. -/
theorem C106_start_hook_witness (o : Opts) (as : List Ans) (h : (run o as).pc = .startHook false) (k : Nat)
    (bs : List Ans) :
    (run o (as ++ .fail k :: bs)).pc = .ended ∧ Alive (run o (as ++ .fail k :: bs)).trace (run o as).new := by
  rw [run_append, List.foldl_cons]
  have hg := good_run o as
  have hl := live_run o as
  generalize run o as = s at h hg hl
  have e : step o s (.fail k) = ((s.emit .onStart).turns k).finish true := by simp [step, h, St.abort, Ans.turns]
  rw [ended_stays o (.inl (by rw [e]; rfl))]
  have hg' := good_step o hg (.fail k)
  refine ⟨by rw [e]; rfl, (hg'.1.alive _).1 ?_⟩
  rw [e]
  unfold Live at hl; rw [h] at hl
  have h2 := live_turns (s := s.emit .onStart) hl k
  exact (turn_running _ _).2 h2

/-- **C106** (counterexample): if the stop hook fails, without `--watch` and `--standalone`, the scheduler is never stopped. -/
theorem C106_stop_hook_witness (o : Opts) (as : List Ans) (h : (run o as).pc = .quickStop) (k : Nat)
    (bs : List Ans) :
    (run o (as ++ .fail k :: bs)).pc = .ended ∧ Alive (run o (as ++ .fail k :: bs)).trace (run o as).cur := by
  rw [run_append, List.foldl_cons]
  have hg := good_run o as
  have hl := live_run o as
  generalize run o as = s at h hg hl
  have e : step o s (.fail k) = ((s.emit .onStop).turns k).finish true := by simp [step, h, Ans.turns]
  rw [ended_stays o (.inl (by rw [e]; rfl))]
  have hg' := good_step o hg (.fail k)
  refine ⟨by rw [e]; rfl, (hg'.1.alive _).1 ?_⟩
  rw [e]
  unfold Live at hl; rw [h] at hl
  have h2 := live_turns (s := s.emit .onStop) hl k
  exact (turn_running _ _).2 h2

/-- **C106** (counterexample): Ctrl+C while the command sleeps, which is where it is nearly always, is raised in the event loop
and not in the coroutine: neither is the stop hook called nor the scheduler stopped. -/
theorem C106_ctrl_c_witness (o : Opts) (as : List Ans) (h : (run o as).pc = .sleep) (k : Nat) (bs : List Ans) :
    (run o (as ++ .kill k :: bs)).pc = .killed ∧ Alive (run o (as ++ .kill k :: bs)).trace (run o as).cur ∧
    (run o (as ++ .kill k :: bs)).trace.count .onStop = (run o as).trace.count .onStop := by
  rw [run_append, List.foldl_cons]
  have hg := good_run o as
  have hl := live_run o as
  generalize run o as = s at h hg hl
  have e : step o s (.kill k) = { s.turns (k + 1) with pc := .killed } := by simp [step, h, Ans.turns]
  rw [ended_stays o (.inr (by rw [e]))]
  have hg' := good_step o hg (.kill k)
  refine ⟨by rw [e], (hg'.1.alive _).1 ?_, ?_⟩
  · rw [e]
    unfold Live at hl; rw [h] at hl
    exact (live_turns hl (k + 1)).1
  · rw [e]
    show (s.turns (k + 1)).trace.count .onStop = _
    have item : ∀ (s : St) i, (s.runItem i).trace.count .onStop = s.trace.count .onStop := by
      intro s i
      cases i with
      | stop n => by_cases hn : n ∈ s.running <;> simp [St.runItem, St.stop, hn, St.emit, List.count_append]
      | tasks n => simp [St.runItem, St.emit, List.count_append]
    have fold : ∀ (l : List Item) (s : St), (l.foldl St.runItem s).trace.count .onStop = s.trace.count .onStop := by
      intro l
      induction l with
      | nil => intro s; rfl
      | cons i l ih => intro s; rw [List.foldl_cons, ih, item]
    have all : ∀ k (s : St), (s.turns k).trace.count .onStop = s.trace.count .onStop := by
      intro k
      induction k with
      | zero => intro s; rfl
      | succ k ih => intro s; rw [St.turns, ih]; exact fold _ _
    exact all _ _

/-! ## Shutdown tasks that are coroutine functions -/

/-- No reload, nothing posted before the end, no shutdown coroutine was run. -/
def Unposted (s : St) : Prop :=
  (∀ n, Ev.shutdownTasks n ∉ s.trace) ∧
  match s.pc with
  | .reStop | .reShut | .reload | .load true | .start true | .startHook true => False
  | .ended => True
  | _ => s.posted = []

theorem unposted_finish {s : St} (ht : ∀ n, Ev.shutdownTasks n ∉ s.trace)
    (hp : s.posted = [] ∨ s.posted = [.stop s.cur]) (b) : Unposted (s.finish b) := by
  refine ⟨fun n => ?_, trivial⟩
  show Ev.shutdownTasks n ∉ s.turn.trace
  rcases hp with hp | hp
  · rw [turn_idle hp]; exact ht n
  · rw [St.turn, hp]
    by_cases hc : s.cur ∈ s.running
    · simp [St.runItem, St.stop, hc, ht n]
    · simp [St.runItem, St.stop, hc, ht n, St.emit]

theorem unposted_step {o : Opts} (ho : o.native = false) (hw : o.watch = false) {s : St} (h : Unposted s) (a : Ans) :
    Unposted (step o s a) := by
  obtain ⟨ht, h⟩ := h
  have hemit : ∀ e, (∀ n, e ≠ Ev.shutdownTasks n) → ∀ n, Ev.shutdownTasks n ∉ (s.emit e).trace := by
    intro e he n c
    rcases List.mem_append.1 c with c | c
    · exact ht n c
    · exact he n (List.mem_singleton.1 c).symm
  have abort : ∀ s' : St, (∀ n, Ev.shutdownTasks n ∉ s'.trace) → s'.posted = [] → Unposted (s'.abort false a) := by
    intro s' h1 h2
    unfold St.abort
    split
    · exact unposted_finish h1 (.inl h2) _
    · exact ⟨h1, h2⟩
  have booted : ∀ s' : St, (∀ n, Ev.shutdownTasks n ∉ s'.trace) → s'.posted = [] → Unposted (s'.booted o false) := by
    intro s' h1 h2
    unfold St.booted
    dsimp only
    rw [if_neg (by simp)]
    split <;> exact ⟨h1, h2⟩
  unfold step
  split <;> rename_i hpc <;> rw [hpc] at h
  · rename_i again
    cases again
    · dsimp only
      split
      · exact ⟨ht, h⟩
      · exact ⟨ht, h⟩
      · exact abort { s with new := s.made, made := s.made + 1 } ht h
    · exact h.elim
  · rename_i again
    cases again
    · have ht' : ∀ n, Ev.shutdownTasks n ∉ s.trace ++ [Ev.started s.new] := fun n => by simp [ht n]
      simp only [ho, if_false, Bool.false_eq_true]
      split
      · split
        · exact booted { s with running := s.running ++ [s.new], trace := s.trace ++ [Ev.started s.new] } ht' h
        · exact ⟨ht', h⟩
      · split
        · exact booted { s with running := s.running ++ [s.new], trace := s.trace ++ [Ev.started s.new] } ht' h
        · exact ⟨ht', h⟩
      · exact abort s ht h
    · exact h.elim
  · rename_i again
    cases again
    · have hp : (s.emit .onStart).posted = [] := h
      rw [turns_idle hp]
      have ht' := hemit .onStart (by simp)
      split
      · exact booted _ ht' hp
      · exact booted _ ht' hp
      · exact ⟨ht', hp⟩
      · exact abort _ ht' hp
    · exact h.elim
  · have hp : (s.emit .onStop).posted = [] := h
    rw [turns_idle hp]
    have ht' := hemit .onStop (by simp)
    split
    · exact ⟨ht', hp⟩
    · exact ⟨ht', hp⟩
    · exact unposted_finish ht' (.inl hp) _
    · exact ⟨ht', hp⟩
  · have h : s.posted = [] := h
    have e : s.shut o = { s with posted := [.stop s.cur] } := by simp [St.shut, ho, h]
    rw [e]
    exact unposted_finish (s := { s with posted := [.stop s.cur] }) ht (.inr rfl) _
  · rw [hw]
    split
    · exact ⟨ht, h⟩
    all_goals exact ⟨ht, h⟩
  · exact h.elim
  · exact h.elim
  · exact h.elim
  · rw [turns_idle h]
    split <;> exact ⟨ht, h⟩
  · have hp : (s.emit .onStop).posted = [] := h
    rw [turns_idle hp]
    have ht' := hemit .onStop (by simp)
    split
    · exact ⟨ht', hp⟩
    · exact ⟨ht', hp⟩
    · exact unposted_finish ht' (.inl hp) _
    · exact ⟨ht', hp⟩
  · have h : s.posted = [] := h
    have e : s.shut o = { s with posted := [.stop s.cur] } := by simp [St.shut, ho, h]
    rw [e]
    exact unposted_finish (s := { s with posted := [.stop s.cur] }) ht (.inr rfl) _
  · exact ⟨ht, by rw [hpc]; trivial⟩
  · exact ⟨ht, by rw [hpc]; exact h⟩

/-- **C106** (counterexample): without `--watch`, with an `AsyncIOScheduler`, the coroutine functions registered as shutdown
tasks are never run, in no run of `asyncz start`: they are posted to the loop in its last turn. -/
theorem C106_shutdown_coroutines_witness (o : Opts) (ho : o.native = false) (hw : o.watch = false) (as : List Ans)
    (n : Nat) : Ev.shutdownTasks n ∉ (run o as).trace := by
  suffices H : ∀ s, Unposted s → Unposted (as.foldl (step o) s) from (H init ⟨by simp [init], rfl⟩).1 n
  intro s hs
  induction as generalizing s with
  | nil => exact hs
  | cons a as ih => exact ih _ (unposted_step ho hw hs a)

/-! ## How long it runs -/

/-- nothing fails and nobody interrupts -/
def Ans.smooth : Ans → Bool
  | .ok _ => true
  | .no => true
  | _ => false

theorem turns_quiet (k : Nat) (s : St) (h : s.posted = []) : s.turns k = s := by
  induction k with
  | zero => rfl
  | succ k ih =>
    have : s.turn = s := by
      obtain ⟨_, _, _, _, _, posted, _, _⟩ := s
      dsimp only at h
      subst h
      rfl
    simp only [St.turns, this, ih]

theorem turns_pc (k : Nat) (s : St) : (s.turns k).pc = s.pc := by
  have hi : ∀ (l : List Item) (s : St), (l.foldl St.runItem s).pc = s.pc := by
    intro l
    induction l with
    | nil => intro s; rfl
    | cons i l ih =>
      intro s
      rw [List.foldl_cons, ih]
      cases i with
      | stop n => unfold St.runItem St.stop St.emit; by_cases h : n ∈ s.running <;> simp [h]
      | tasks n => rfl
  induction k generalizing s with
  | zero => rfl
  | succ k ih =>
    simp only [St.turns]
    rw [ih]
    exact hi _ _

/-- the states of a run in which nothing fails -/
def Up : PC → Prop
  | .quickStop | .quickShut | .lastStop | .lastShut | .ended | .killed => False
  | _ => True

theorem up_step (o : Opts) (ho : o.watch = true ∨ o.standalone = true) (s : St) (h : Up s.pc) (a : Ans) (ha : a.smooth = true) :
    Up (step o s a).pc := by
  have hb : (!o.watch && !o.standalone) = false := by rcases ho with h | h <;> simp [h]
  have hbooted : ∀ (s : St) (again : Bool), Up (s.booted o again).pc := by
    intro s again
    cases again <;> simp [St.booted, hb, Up]
  cases a with
  | ok k =>
    cases hp : s.pc <;> rw [hp] at h <;> simp only [step, hp]
    case load => trivial
    case start => by_cases hbo : o.bootstrap = true
                  · simp only [hbo, if_true]; exact hbooted _ _
                  · simp only [hbo]; trivial
    case startHook => exact hbooted _ _
    case poll => by_cases hw : o.watch = true <;> simp [hw, Up]
    case reStop => trivial
    case reShut => trivial
    case reload => trivial
    case sleep => trivial
    all_goals exact h.elim
  | no =>
    cases hp : s.pc <;> rw [hp] at h <;> simp only [step, hp]
    case load => trivial
    case start => by_cases hbo : o.bootstrap = true
                  · simp only [hbo, if_true]; exact hbooted _ _
                  · simp only [hbo]; trivial
    case startHook => exact hbooted _ _
    case poll => trivial
    case reStop => trivial
    case reShut => trivial
    case reload => trivial
    case sleep => trivial
    all_goals exact h.elim
  | fail k => cases ha
  | intr k => cases ha
  | kill k => cases ha

/-- **C106** With `--watch` or `--standalone` the command goes on as long as nothing fails and nobody interrupts it. -/
theorem C106_stays_up (o : Opts) (ho : o.watch = true ∨ o.standalone = true) (as : List Ans)
    (h : ∀ a ∈ as, a.smooth = true) : (run o as).pc ≠ .ended ∧ (run o as).pc ≠ .killed := by
  have key : ∀ s, Up s.pc → Up (as.foldl (step o) s).pc := by
    intro s hs
    induction as generalizing s with
    | nil => exact hs
    | cons a as ih =>
      exact ih (fun b hb => h b (List.mem_cons_of_mem _ hb)) _ (up_step o ho s hs a (h a (List.mem_cons_self ..)))
  have := key init trivial
  unfold run
  constructor <;> intro hc <;> rw [hc] at this <;> exact this

/-- a run without reloads: one scheduler, made first -/
def Steady (s : St) : Prop :=
  s.posted = [] ∧ s.failed = false ∧ match s.pc with
  | .load again => again = false ∧ s.trace = [] ∧ s.made = 0
  | .start again => again = false ∧ s.trace = [] ∧ s.new = 0
  | .startHook again => again = false ∧ s.trace = [.started 0] ∧ s.running = [0]
  | .poll => (s.trace = [.started 0, .onStart] ∨ s.trace = [.started 0]) ∧ s.running = [0]
  | .sleep => (s.trace = [.started 0, .onStart] ∨ s.trace = [.started 0]) ∧ s.running = [0]
  | _ => False

theorem steady_step (o : Opts) (hw : o.watch = false) (hs : o.standalone = true) (s : St)
    (h : Steady s ∧ (s.pc = .load false → s.running = []) ∧ (s.pc = .start false → s.running = [])) (a : Ans)
    (ha : a.smooth = true) :
    Steady (step o s a) ∧ ((step o s a).pc = .load false → (step o s a).running = []) ∧
      ((step o s a).pc = .start false → (step o s a).running = []) := by
  obtain ⟨pc, cur, new, made, running, posted, trace, failed⟩ := s
  obtain ⟨⟨h1, h2, h3⟩, h4, h5⟩ := h
  dsimp only at h1 h2 h3 h4 h5
  subst h1; subst h2
  have ha' : ∀ (s : St), s.posted = [] → s.turns a.turns = s := fun s hs => turns_quiet _ _ hs
  have ha'' : ∀ (s : St), s.posted = [] → s.turns (a.turns + 1) = s := fun s hs => turns_quiet _ _ hs
  cases a with
  | fail k => cases ha
  | intr k => cases ha
  | kill k => cases ha
  | ok k =>
    cases pc <;> dsimp only at h3
    case load again =>
      obtain ⟨rfl, rfl, rfl⟩ := h3
      have := h4 rfl; subst this
      simp [step, Steady]
    case start again =>
      obtain ⟨rfl, rfl, rfl⟩ := h3
      have := h5 rfl; subst this
      by_cases hb : o.bootstrap = true <;> by_cases hn : o.native = true <;>
        simp [step, hb, hn, ha', Steady, St.booted, hs]
    case startHook again =>
      obtain ⟨rfl, rfl, rfl⟩ := h3
      simp [step, ha', Steady, St.booted, hs, St.emit]
    case poll => obtain ⟨h, rfl⟩ := h3; simp [step, hw, Steady, h]
    case sleep => obtain ⟨h, rfl⟩ := h3; simp [step, ha'', Steady, h]
    all_goals exact h3.elim
  | no =>
    cases pc <;> dsimp only at h3
    case load again =>
      obtain ⟨rfl, rfl, rfl⟩ := h3
      have := h4 rfl; subst this
      simp [step, Steady]
    case start again =>
      obtain ⟨rfl, rfl, rfl⟩ := h3
      have := h5 rfl; subst this
      by_cases hb : o.bootstrap = true <;> by_cases hn : o.native = true <;>
        simp [step, hb, hn, ha', Steady, St.booted, hs]
    case startHook again =>
      obtain ⟨rfl, rfl, rfl⟩ := h3
      simp [step, ha', Steady, St.booted, hs, St.emit]
    case poll => obtain ⟨h, rfl⟩ := h3; simp [step, Steady, h]
    case sleep => obtain ⟨h, rfl⟩ := h3; simp [step, ha'', Steady, h]
    all_goals exact h3.elim

/-- **C106** With `--standalone` and without `--watch`, as long as nothing fails and nobody interrupts: one scheduler is started
and stays up; the start hook is called at most once, the stop hook never. -/
theorem C106_standalone (o : Opts) (hw : o.watch = false) (hs : o.standalone = true) (as : List Ans)
    (h : ∀ a ∈ as, a.smooth = true) :
    (run o as).trace = [] ∨ (run o as).trace = [.started 0] ∨ (run o as).trace = [.started 0, .onStart] := by
  have key : ∀ s, (Steady s ∧ (s.pc = .load false → s.running = []) ∧ (s.pc = .start false → s.running = [])) →
      Steady (as.foldl (step o) s) := by
    intro s hst
    induction as generalizing s with
    | nil => exact hst.1
    | cons a as ih =>
      exact ih (fun b hb => h b (List.mem_cons_of_mem _ hb)) _ (steady_step o hw hs s hst a (h a (List.mem_cons_self ..)))
  have := key init ⟨⟨rfl, rfl, rfl, rfl, rfl⟩, fun _ => rfl, fun hc => by cases hc⟩
  obtain ⟨_, _, h3⟩ := this
  unfold run
  generalize as.foldl (step o) init = t at h3 ⊢
  cases hp : t.pc <;> rw [hp] at h3 <;> dsimp only at h3
  case load => exact .inl h3.2.1
  case start => exact .inl h3.2.1
  case startHook => exact .inr (.inl h3.2.1)
  case poll => rcases h3.1 with h | h <;> simp [h]
  case sleep => rcases h3.1 with h | h <;> simp [h]
  all_goals exact h3.elim

/-- **C106** With neither, if nothing fails and nobody interrupts: the command starts the scheduler, stops it at once, and ends. -/
theorem C106_one_shot (o : Opts) (hw : o.watch = false) (hs : o.standalone = false) (a b c d e : Ans) (rest : List Ans)
    (h : ∀ x ∈ [a, b, c, d, e], x.smooth = true) :
    (run o ([a, b, c, d, e] ++ rest)).pc = .ended ∧ (run o ([a, b, c, d, e] ++ rest)).failed = false ∧
    (run o ([a, b, c, d, e] ++ rest)).trace = [.started 0] ++ (if o.bootstrap then [] else [.onStart]) ++ [.onStop, .stopped 0] ++
      (if o.native then [.shutdownTasks 0] else []) := by
  have hq : ∀ (k : Nat) (p : PC) (u v w : Nat) (r : List Nat) (t : List Ev) (f : Bool),
      St.turns k ⟨p, u, v, w, r, [], t, f⟩ = ⟨p, u, v, w, r, [], t, f⟩ := fun _ _ _ _ _ _ _ _ => turns_quiet _ _ rfl
  suffices H : (run o [a, b, c, d, e]).pc = .ended ∧ (run o [a, b, c, d, e]).failed = false ∧
      (run o [a, b, c, d, e]).trace = [.started 0] ++ (if o.bootstrap then [] else [.onStart]) ++ [.onStop, .stopped 0] ++
        (if o.native then [.shutdownTasks 0] else []) by
    rw [run_append]
    have := ended_stays o (bs := rest) (.inl H.1)
    rw [this]
    exact H
  have ha := h a (by simp)
  have hb := h b (by simp)
  have hc := h c (by simp)
  have hd := h d (by simp)
  have he := h e (by simp)
  obtain ⟨watch, standalone, bootstrap, native⟩ := o
  dsimp only at hw hs ⊢
  subst hw; subst hs
  unfold run
  cases bootstrap <;> cases native <;> cases a <;> first | (cases ha; done) | skip
  all_goals (cases b <;> first | (cases hb; done) | skip)
  all_goals (cases c <;> first | (cases hc; done) | skip)
  all_goals (cases d <;> first | (cases hd; done) | skip)
  all_goals simp [init, step, St.booted, St.emit, hq, St.shut, St.finish, St.stop, St.turn, St.runItem, Ans.turns]

/-! ## Examples -/

/-- A run with `--watch --standalone`: a start, a poll without and one with a change, a reload, an interrupt that the coroutine
sees. -/
def exAnswers : List Ans :=
  [.ok 0, .ok 0, .ok 0, .no, .ok 0, .ok 0, .ok 1, .ok 0, .ok 0, .ok 0, .ok 0, .ok 0, .ok 3, .intr 0, .ok 0, .ok 0]

/-- the options -/
def exOpts : Opts := ⟨true, true, false, false⟩

instance (o : Opts) : (s : St) → (as : List Ans) → Decidable (Calm o s as)
  | _, [] => inferInstanceAs (Decidable True)
  | s, a :: as =>
    have := instDecidableCalm o (step o s a) as
    inferInstanceAs (Decidable (_ ∧ _))

example : Calm exOpts init exAnswers ∧ (run exOpts exAnswers).pc = .ended ∧ (run exOpts exAnswers).failed = false ∧
    (run exOpts exAnswers).trace = [.started 0, .onStart, .onStop, .started 1, .onStart, .stopped 0, .shutdownTasks 0, .onStop,
      .stopped 1] := by
  refine ⟨?_, ?_, ?_, ?_⟩ <;> decide

/-- the same with a `NativeAsyncIOScheduler` -/
example : (run { exOpts with native := true } exAnswers).trace = [.started 0, .onStart, .onStop, .stopped 0, .shutdownTasks 0,
    .started 1, .onStart, .onStop, .stopped 1, .shutdownTasks 1] := by decide

/-- The module cannot be reloaded: the stop hook is called twice for the same scheduler, which is asked to stop twice. -/
theorem C106_failed_reload_witness : (run exOpts [.ok 0, .ok 0, .ok 0, .ok 0, .ok 0, .ok 0, .fail 0, .ok 0, .ok 0]).trace =
    [.started 0, .onStart, .onStop, .onStop, .stopped 0, .notRunning 0] := by decide

example : (run exOpts [.ok 0, .ok 0, .ok 0, .ok 0]).pc = .reStop := by decide
example : (run exOpts [.ok 0, .ok 0]).pc = .startHook false := by decide
example : (run ⟨false, false, false, false⟩ [.ok 0, .ok 0, .ok 0]).pc = .quickStop := by decide
example : (run exOpts [.ok 0, .ok 0, .ok 0, .no]).pc = .sleep := by decide

example : ∀ a ∈ [Ans.ok 0, .ok 0, .ok 0, .no, .ok 1, .ok 0, .ok 2], a.smooth = true := by decide
example : (run ⟨false, true, false, false⟩ [Ans.ok 0, .ok 0, .ok 0, .no, .ok 1, .ok 0, .ok 2]).trace = [.started 0, .onStart] := by
  decide

end CliLife
end Asyncz
