import Verif.Model.SignalManager
import Verif.Lemmas.Prog
import Verif.Lemmas.StdMap
/-!
Invariants of the signal manager.
-/
namespace Verif.SignalManager
open Verif.Threads

variable {C : Type}

/-- Places of the handler thread. -/
def PC.handler : PC C → Bool
  | .hLoop | .hLock | .hTest | .hTest2 | .hSleep | .asleep | .hReady | .hStop | .hMore | .hDec | .hCb
  | .hCall _ | .hUnlock | .hBreak | .hEnd => true
  | _ => false

/-- Holds `signal_received_cv_mutex_`. -/
def PC.holds : PC C → Bool
  | .hTest | .hTest2 | .hSleep | .hStop | .hMore | .hDec | .hCb | .hCall _ | .hUnlock | .hBreak => true
  | _ => false

/-- Holds `active_callbacks_mutex_`. -/
def PC.inRound : PC C → Bool
  | .hCall _ => true
  | _ => false

def PC.done : PC C → Bool
  | .hEnd => true
  | _ => false

/-- Signals taken whose round has not started. -/
def PC.taken : PC C → Nat
  | .hCb => 1
  | _ => 0

/-- Places that are only reached once the flag is set. -/
def PC.stopped : PC C → Bool
  | .dNotify | .dJoin | .hBreak | .hEnd => true
  | _ => false

/-- Invariant of a thread. -/
structure Loc (s : Sh C) (i : Nat) (x : PC C) : Prop where
  role : x.handler = decide (i = 0)
  mutex : i = 0 → s.mutex = x.holds
  cb : i = 0 → s.cbMutex = x.inRound
  ended : i = 0 → s.ended = x.done
  count : i = 0 → s.rounds.length + x.taken ≤ s.delivered ∧
    s.received = (s.delivered - s.rounds.length - x.taken) % 4294967296
  dec : x = .hDec → s.rounds.length < s.delivered
  round : ∀ rest, x = .hCall rest → ∃ old cur, s.rounds = old ++ [cur] ∧ cur ++ rest = s.callbacks
  stop : x.stopped = true → s.stop = true
  sleep : x = .hSleep → s.stop = false

/-- Invariant of the data. -/
structure Glob (s : Sh C) : Prop where
  sorted : StdMap.Sorted s.callbacks
  last : s.lastId = s.registered % 4294967296
  keys : ∀ p ∈ s.callbacks, p.1 ≤ s.registered

theorem logCall_append (p : Nat × C) (old : List (List (Nat × C))) (cur : List (Nat × C)) :
    logCall p (old ++ [cur]) = old ++ [cur ++ [p]] := by
  induction old with
  | nil => rfl
  | cons r old ih =>
    cases old with
    | nil => rfl
    | cons r' old => simpa [logCall] using ih

theorem start_spec {x y : PC C} {op : Op C} (h : start x op = some y) :
    (∃ r, x = .idle r) ∧ (y = .sigInc ∨ (∃ c, y = .register c) ∨ (∃ n, y = .unregister n) ∨ y = .dStore) := by
  cases x <;> cases op <;> cases h
  · exact ⟨⟨_, rfl⟩, Or.inl rfl⟩
  · exact ⟨⟨_, rfl⟩, Or.inr (Or.inl ⟨_, rfl⟩)⟩
  · exact ⟨⟨_, rfl⟩, Or.inr (Or.inr (Or.inl ⟨_, rfl⟩))⟩
  · exact ⟨⟨_, rfl⟩, Or.inr (Or.inr (Or.inr rfl))⟩

theorem woken_spec {x y : PC C} (h : woken x = some y) : x = .asleep ∧ y = .hReady := by
  cases x <;> cases h
  exact ⟨rfl, rfl⟩

/-- Thread number of a place that is not of the handler. -/
theorem ne_zero {s : Sh C} {i : Nat} {x : PC C} (h : Loc s i x) (hx : x.handler = false) : i ≠ 0 := by
  have := h.role
  rw [hx] at this
  simpa using this.symm

theorem eq_zero {s : Sh C} {i : Nat} {x : PC C} (h : Loc s i x) (hx : x.handler = true) : i = 0 := by
  have := h.role
  rw [hx] at this
  simpa using this.symm

/-- A thread other than the handler moves to a place without obligations. -/
theorem loc_client {s : Sh C} {i : Nat} {y : PC C} (hi : i ≠ 0) (hy : y.handler = false)
    (hs : y.stopped = true → s.stop = true) : Loc s i y where
  role := by rw [hy]; simpa using hi
  mutex := fun h => absurd h hi
  cb := fun h => absurd h hi
  ended := fun h => absurd h hi
  count := fun h => absurd h hi
  dec := by rintro rfl; cases hy
  round := by rintro rest rfl; cases hy
  stop := hs
  sleep := by rintro rfl; cases hy

/-- What a step of a client does. -/
inductive Client (s : Sh C) : Sh C → Prop
  | same : Client s s
  | signal : Client s { s with received := bump s.received, delivered := s.delivered + 1 }
  | register (c : C) : s.cbMutex = false →
      Client s { s with lastId := bump s.lastId, callbacks := StdMap.put (bump s.lastId) c s.callbacks, registered := s.registered + 1 }
  | unregister (id : Nat) : s.cbMutex = false → Client s { s with callbacks := StdMap.del id s.callbacks }
  | stop : s.mutex = false → Client s { s with stop := true }

theorem client_run {s s' : Sh C} {i : Nat} {x y : PC C} {b : Bool} (hx : x.handler = false)
    (h : run i s x = some (s', y, b)) : Client s s' ∧ y.handler = false ∧
      (y.stopped = true → s'.stop = true ∨ x.stopped = true ∧ s'.stop = s.stop) := by
  cases x with
  | idle r => cases h
  | sigInc => cases h; exact ⟨.signal, rfl, nofun⟩
  | sigNotify => cases h; exact ⟨.same, rfl, nofun⟩
  | register c =>
    simp only [run] at h
    split at h <;> cases h
    rename_i hc
    exact ⟨.register c (by simpa using hc), rfl, nofun⟩
  | unregister id =>
    simp only [run] at h
    split at h
    · cases h
    · rename_i hc
      split at h <;> cases h
      · exact ⟨.unregister id (by simpa using hc), rfl, nofun⟩
      · exact ⟨.same, rfl, nofun⟩
  | dStore =>
    simp only [run] at h
    split at h <;> cases h
    rename_i hc
    exact ⟨.stop (by simpa using hc), rfl, fun _ => Or.inl rfl⟩
  | dNotify => cases h; exact ⟨.same, rfl, fun _ => Or.inr ⟨rfl, rfl⟩⟩
  | dJoin =>
    simp only [run] at h
    split at h <;> cases h
    exact ⟨.same, rfl, nofun⟩
  | _ => cases hx

theorem client_stop {s s' : Sh C} (h : Client s s') (hs : s.stop = true) : s'.stop = true := by
  cases h <;> first | exact hs | rfl

/-- Clients keep what the handler relies on. -/
theorem client_keeps {s s' : Sh C} (h : Client s s') {z : PC C} (hz : Loc s 0 z) : Loc s' 0 z := by
  cases h with
  | same => exact hz
  | signal =>
    refine ⟨hz.role, hz.mutex, hz.cb, hz.ended, ?_, ?_, hz.round, hz.stop, hz.sleep⟩
    · intro _
      obtain ⟨h1, h2⟩ := hz.count rfl
      refine ⟨Nat.le_succ_of_le h1, ?_⟩
      show bump s.received = (s.delivered + 1 - s.rounds.length - z.taken) % 4294967296
      simp only [bump]
      omega
    · intro e
      exact Nat.lt_succ_of_lt (hz.dec e)
  | register c hc =>
    refine ⟨hz.role, hz.mutex, hz.cb, hz.ended, hz.count, hz.dec, ?_, hz.stop, hz.sleep⟩
    rintro rest rfl
    have := hz.cb rfl
    rw [hc] at this
    cases this
  | unregister id hc =>
    refine ⟨hz.role, hz.mutex, hz.cb, hz.ended, hz.count, hz.dec, ?_, hz.stop, hz.sleep⟩
    rintro rest rfl
    have := hz.cb rfl
    rw [hc] at this
    cases this
  | stop hm =>
    refine ⟨hz.role, hz.mutex, hz.cb, hz.ended, hz.count, hz.dec, hz.round, fun _ => rfl, ?_⟩
    rintro rfl
    have := hz.mutex rfl
    rw [hm] at this
    cases this

theorem client_glob {s s' : Sh C} (h : Client s s') (hg : Glob s) : Glob s' := by
  cases h with
  | same => exact hg
  | signal => exact ⟨hg.sorted, hg.last, hg.keys⟩
  | register c hc =>
    have hl := hg.last
    refine ⟨StdMap.sorted_put hg.sorted, ?_, ?_⟩
    · show bump s.lastId = (s.registered + 1) % 4294967296
      simp only [bump]
      omega
    · rintro ⟨k, v⟩ hp
      rcases StdMap.mem_put hp with e | hp
      · cases e
        show bump s.lastId ≤ s.registered + 1
        simp only [bump]
        omega
      · exact Nat.le_succ_of_le (hg.keys _ hp)
  | unregister id hc =>
    exact ⟨StdMap.sorted_del hg.sorted, hg.last, fun p hp => hg.keys p (StdMap.mem_del.1 hp).1⟩
  | stop hm => exact ⟨hg.sorted, hg.last, hg.keys⟩

/-- A step of the handler. -/
theorem handler_run {s s' : Sh C} {x y : PC C} {b : Bool} (hx : x.handler = true) (hl : Loc s 0 x)
    (h : run 0 s x = some (s', y, b)) :
    Loc s' 0 y ∧ s'.stop = s.stop ∧ s'.callbacks = s.callbacks ∧ s'.lastId = s.lastId ∧
      s'.registered = s.registered := by
  obtain ⟨role, mutex, cb, ended, count, dec, round, stop, sleep⟩ := hl
  replace mutex := mutex rfl
  replace cb := cb rfl
  replace ended := ended rfl
  replace count := count rfl
  cases x with
  | hLoop =>
    simp only [run] at h
    split at h <;> cases h
    · rename_i hs
      exact ⟨⟨rfl, fun _ => mutex, fun _ => cb, fun _ => rfl, fun _ => count, nofun, nofun, fun _ => hs, nofun⟩,
        rfl, rfl, rfl, rfl⟩
    · exact ⟨⟨rfl, fun _ => mutex, fun _ => cb, fun _ => ended, fun _ => count, nofun, nofun, nofun, nofun⟩,
        rfl, rfl, rfl, rfl⟩
  | hLock =>
    simp only [run] at h
    split at h <;> cases h
    exact ⟨⟨rfl, fun _ => rfl, fun _ => cb, fun _ => ended, fun _ => count, nofun, nofun, nofun, nofun⟩,
      rfl, rfl, rfl, rfl⟩
  | hTest =>
    simp only [run] at h
    split at h <;> cases h
    · exact ⟨⟨rfl, fun _ => mutex, fun _ => cb, fun _ => ended, fun _ => count, nofun, nofun, nofun, nofun⟩,
        rfl, rfl, rfl, rfl⟩
    · exact ⟨⟨rfl, fun _ => mutex, fun _ => cb, fun _ => ended, fun _ => count, nofun, nofun, nofun, nofun⟩,
        rfl, rfl, rfl, rfl⟩
  | hTest2 =>
    simp only [run] at h
    split at h <;> cases h
    · exact ⟨⟨rfl, fun _ => mutex, fun _ => cb, fun _ => ended, fun _ => count, nofun, nofun, nofun, nofun⟩,
        rfl, rfl, rfl, rfl⟩
    · rename_i hs
      exact ⟨⟨rfl, fun _ => mutex, fun _ => cb, fun _ => ended, fun _ => count, nofun, nofun, nofun,
        fun _ => by simpa using hs⟩, rfl, rfl, rfl, rfl⟩
  | hSleep =>
    cases h
    exact ⟨⟨rfl, fun _ => rfl, fun _ => cb, fun _ => ended, fun _ => count, nofun, nofun, nofun, nofun⟩,
      rfl, rfl, rfl, rfl⟩
  | asleep => cases h
  | hReady =>
    simp only [run] at h
    split at h <;> cases h
    exact ⟨⟨rfl, fun _ => rfl, fun _ => cb, fun _ => ended, fun _ => count, nofun, nofun, nofun, nofun⟩,
      rfl, rfl, rfl, rfl⟩
  | hStop =>
    simp only [run] at h
    split at h <;> cases h
    · rename_i hs
      exact ⟨⟨rfl, fun _ => mutex, fun _ => cb, fun _ => ended, fun _ => count, nofun, nofun, fun _ => hs, nofun⟩,
        rfl, rfl, rfl, rfl⟩
    · exact ⟨⟨rfl, fun _ => mutex, fun _ => cb, fun _ => ended, fun _ => count, nofun, nofun, nofun, nofun⟩,
        rfl, rfl, rfl, rfl⟩
  | hMore =>
    simp only [run] at h
    split at h <;> cases h
    · rename_i hs
      refine ⟨⟨rfl, fun _ => mutex, fun _ => cb, fun _ => ended, fun _ => count, fun _ => ?_, nofun, nofun, nofun⟩,
        rfl, rfl, rfl, rfl⟩
      have h1 := count.1
      have h2 := count.2
      simp only [PC.taken] at h1 h2
      omega
    · exact ⟨⟨rfl, fun _ => mutex, fun _ => cb, fun _ => ended, fun _ => count, nofun, nofun, nofun, nofun⟩,
        rfl, rfl, rfl, rfl⟩
  | hDec =>
    simp only [run, Option.some.injEq, Prod.mk.injEq] at h
    obtain ⟨rfl, rfl, -⟩ := h
    refine ⟨⟨rfl, fun _ => mutex, fun _ => cb, fun _ => ended, fun _ => ?_, nofun, nofun, nofun, nofun⟩,
      rfl, rfl, rfl, rfl⟩
    have h1 := count.1
    have h2 := count.2
    have h3 := dec rfl
    simp only [PC.taken] at h1 h2 ⊢
    have h4 : drop s.received = (s.delivered - s.rounds.length - 1) % 4294967296 := by
      unfold drop
      omega
    exact ⟨h3, h4⟩
  | hCb =>
    simp only [run] at h
    split at h <;> cases h
    refine ⟨⟨rfl, fun _ => mutex, fun _ => rfl, fun _ => ended, fun _ => ?_, nofun, ?_, nofun, nofun⟩,
      rfl, rfl, rfl, rfl⟩
    · have h1 := count.1
      have h2 := count.2
      simp only [PC.taken] at h1 h2 ⊢
      show (s.rounds ++ [[]]).length + 0 ≤ s.delivered ∧ s.received = (s.delivered - (s.rounds ++ [[]]).length - 0) % _
      simp only [List.length_append, List.length_cons, List.length_nil]
      refine ⟨by omega, ?_⟩
      rw [h2]
      congr 1
    · rintro rest e
      cases e
      exact ⟨s.rounds, [], rfl, rfl⟩
  | hCall rest =>
    cases rest with
    | nil =>
      cases h
      exact ⟨⟨rfl, fun _ => mutex, fun _ => rfl, fun _ => ended, fun _ => count, nofun, nofun, nofun, nofun⟩,
        rfl, rfl, rfl, rfl⟩
    | cons p rest =>
      cases h
      obtain ⟨old, cur, e1, e2⟩ := round _ rfl
      have e3 : logCall p s.rounds = old ++ [cur ++ [p]] := by rw [e1, logCall_append]
      refine ⟨⟨rfl, fun _ => mutex, fun _ => cb, fun _ => ended, fun _ => ?_, nofun, ?_, nofun, nofun⟩,
        rfl, rfl, rfl, rfl⟩
      · have : (logCall p s.rounds).length = s.rounds.length := by rw [e3, e1]; simp
        simp only [this]
        exact count
      · rintro rest' e
        cases e
        refine ⟨old, cur ++ [p], e3, ?_⟩
        rw [List.append_assoc]
        exact e2
  | hUnlock =>
    cases h
    exact ⟨⟨rfl, fun _ => rfl, fun _ => cb, fun _ => ended, fun _ => count, nofun, nofun, nofun, nofun⟩,
      rfl, rfl, rfl, rfl⟩
  | hBreak =>
    cases h
    exact ⟨⟨rfl, fun _ => rfl, fun _ => cb, fun _ => rfl, fun _ => count, nofun, nofun, fun _ => stop rfl, nofun⟩,
      rfl, rfl, rfl, rfl⟩
  | hEnd => cases h
  | _ => cases hx

theorem local_ : (prog C).Local (fun _ => True) Glob Loc where
  start := by
    intro s i x op y _ _ hl h
    obtain ⟨⟨r, rfl⟩, hy⟩ := start_spec h
    have hi := ne_zero hl rfl
    rcases hy with rfl | ⟨c, rfl⟩ | ⟨n, rfl⟩ | rfl <;> exact loc_client hi rfl nofun
  shared := by
    intro s i x s' y b hg hl h
    have h : run i s x = some (s', y, b) := h
    cases hx : x.handler with
    | false => exact client_glob (client_run hx h).1 hg
    | true =>
      have := eq_zero hl hx
      subst this
      obtain ⟨-, -, h1, h2, h3⟩ := handler_run hx hl h
      exact ⟨by rw [h1]; exact hg.sorted, by rw [h2, h3]; exact hg.last, by rw [h1, h3]; exact hg.keys⟩
  run := by
    intro s i x s' y b hg hl h
    have h : run i s x = some (s', y, b) := h
    cases hx : x.handler with
    | false =>
      obtain ⟨-, h1, h2⟩ := client_run hx h
      refine loc_client (ne_zero hl hx) h1 ?_
      intro hy
      rcases h2 hy with h | ⟨h, e⟩
      · exact h
      · rw [e]; exact hl.stop h
    | true =>
      have := eq_zero hl hx
      subst this
      exact (handler_run hx hl h).1
  other := by
    intro s i x s' y b j z hg hl h hne hz
    have h : run i s x = some (s', y, b) := h
    cases hx : x.handler with
    | false =>
      have hc := (client_run hx h).1
      by_cases hj : j = 0
      · subst hj
        exact client_keeps hc hz
      · refine loc_client hj (by rw [hz.role]; simpa using hj) ?_
        exact fun h => client_stop hc (hz.stop h)
    | true =>
      have := eq_zero hl hx
      subst this
      refine loc_client hne (by rw [hz.role]; simpa using hne) ?_
      intro h'
      rw [(handler_run hx hl h).2.1]
      exact hz.stop h'
  woken := by
    intro s i x y hl h
    obtain ⟨rfl, rfl⟩ := woken_spec h
    obtain ⟨role, mutex, cb, ended, count, dec, round, stop, sleep⟩ := hl
    exact ⟨role, mutex, cb, ended, count, nofun, nofun, nofun, nofun⟩
  late := fun s i x y _ h => by cases h

abbrev Inv (s : Conf (prog C)) : Prop := (prog C).Inv Glob Loc s

theorem inv_init (n : Nat) : Inv (init C n) := by
  refine ⟨⟨StdMap.sorted_nil, rfl, nofun⟩, ?_⟩
  intro j x h
  cases j with
  | zero =>
    cases h
    exact ⟨rfl, fun _ => rfl, fun _ => rfl, fun _ => rfl, fun _ => ⟨Nat.le_refl _, rfl⟩, nofun, nofun, nofun, nofun⟩
  | succ j =>
    have h : (List.replicate n (PC.idle Ret.void : PC C))[j]? = some x := h
    have := (List.mem_replicate.1 (List.mem_of_getElem? h)).2
    subst this
    exact loc_client (Nat.succ_ne_zero j) rfl nofun

theorem inv_reachable {n : Nat} {s : Conf (prog C)} (h : (prog C).system.Reachable (init C n) s) : Inv s :=
  Prog.Local.reachable local_ (inv_init n) h

/-- The handler thread exists. -/
theorem handler_exists {n : Nat} {s : Conf (prog C)} (h : (prog C).system.Reachable (init C n) s) :
    ∃ x, s.pcs[0]? = some x := by
  have : 0 < s.pcs.length := by
    refine System.Reachable.invariant (S := (prog C).system) (fun s : Conf (prog C) => 0 < s.pcs.length) ?_ ?_ h
    · exact Nat.succ_pos _
    · intro s l s' h hs
      show 0 < s'.pcs.length
      rw [Prog.stepped_length (Prog.step_stepped hs)]
      exact h
  exact ⟨_, List.getElem?_eq_getElem this⟩

end Verif.SignalManager
