import Verif.Props.EventHandler
/-!
C171: destroying an `EventHandler` that other threads use.  The destructors of the derived classes call
`unset_callback` (e.g. PeriodicEventHandler.cpp:55-58, FileWatcherHandler.cpp:50-53, StdinEventHandler.cpp:205-208), of
which EventHandler.hpp says "Do not leave this method until every thread waiting in wait_for_event has exited"; when it
returns, the object is gone.  Nobody starts a call once the destruction has started (`ReachableBy fun _ => False`), what
an owner has to see to in any case; the question is what becomes of the calls that were in progress.
-/
namespace Verif.EventHandler
open Verif.Threads

variable {C A : Type}

/-- Within `event_occurred_`, with `internal_callback_mutex_` locked, EventHandler.ipp:182-202. -/
def PC.inEvent : PC C A → Bool
  | .evTest _ | .evIn _ | .evCount _ | .evNotify | .evRelease => true
  | _ => false

/-- Asleep in `wait_for_event`, or woken there, EventHandler.ipp:126-144. -/
def PC.waits : PC C A → Bool
  | .asleep _ | .ready _ | .waitRet _ => true
  | _ => false

/-- Outside any call. -/
def PC.out : PC C A → Bool
  | .idle _ => true
  | _ => false

/-- In `unset_callback`, the callback is still set, EventHandler.ipp:81-98. -/
def PC.early : PC C A → Bool
  | .unsetEvent | .unsetTest | .unsetInternal | .unsetFlag => true
  | _ => false

/-- In `unset_callback`, the callback is no longer set, or after it, EventHandler.ipp:98-118. -/
def PC.later : PC C A → Bool
  | .unsetStore | .unsetHook | .unsetNotify | .unsetExit | .unsetRelease | .idle _ => true
  | _ => false

/-- What holds of a thread while thread `d` destroys the handler; `w`: there may be waiting threads. -/
def DLoc (w : Bool) (d : Nat) (s : Sh C A) (j : Nat) (z : PC C A) : Prop :=
  (j = d → (z.early = true ∧ s.set = true) ∨ (z.later = true ∧ s.set = false)) ∧
  (j ≠ d → z.out = true ∨ (w = true ∧ z.waits = true) ∨ (z.inEvent = true ∧ s.set = true))

theorem dloc_run {w : Bool} {d i : Nat} {s s' : Sh C A} {x y : PC C A} {b : Bool} (hx : DLoc w d s i x)
    (h : run i s x = some (s', y, b)) : DLoc w d s' i y := by
  constructor
  · intro hi
    rcases hx.1 hi with ⟨he, hs⟩ | ⟨he, hs⟩
    · cases x <;> simp only [PC.early, Bool.false_eq_true] at he <;> simp only [run, hs] at h <;>
        (repeat' split at h) <;> cases h <;> first
        | exact Or.inl ⟨rfl, hs⟩
        | exact Or.inl ⟨rfl, rfl⟩
        | exact Or.inr ⟨rfl, rfl⟩
        | contradiction
    · cases x <;> simp only [PC.later, Bool.false_eq_true] at he <;> simp only [run] at h <;>
        (repeat' split at h) <;> cases h <;> exact Or.inr ⟨rfl, hs⟩
  · intro hi
    rcases hx.2 hi with he | ⟨hw, he⟩ | ⟨he, hs⟩
    · cases x <;> simp only [PC.out, Bool.false_eq_true] at he <;> simp only [run] at h <;> cases h
    · cases x <;> simp only [PC.waits, Bool.false_eq_true] at he <;> simp only [run] at h <;>
        (repeat' split at h) <;> cases h <;> first
        | exact Or.inr (Or.inl ⟨hw, rfl⟩)
        | exact Or.inl rfl
    · cases x <;> simp only [PC.inEvent, Bool.false_eq_true] at he <;> simp only [run, hs] at h <;>
        (repeat' split at h) <;> cases h <;> first
        | exact Or.inr (Or.inr ⟨rfl, hs⟩)
        | exact Or.inr (Or.inr ⟨rfl, rfl⟩)
        | exact Or.inl rfl
        | contradiction

theorem inEvent_holds {z : PC C A} (h : z.inEvent = true) : z.holdsI = true := by
  cases z <;> first | rfl | cases h

/-- The flag is only changed by the destroying thread, with the mutex locked. -/
theorem dloc_flag {w : Bool} {d i : Nat} {s s' : Sh C A} {x y : PC C A} {b : Bool} (hx : DLoc w d s i x)
    (h : run i s x = some (s', y, b)) : s'.set = s.set ∨ (i = d ∧ x.holdsI = true) := by
  have key : (∀ c, x ≠ .setFlag c) → x ≠ .unsetFlag → s'.set = s.set := by
    intro h1 h2
    cases x <;> simp only [run] at h <;> (repeat' split at h) <;> cases h <;> first
      | rfl
      | exact absurd rfl (h1 _)
      | exact absurd rfl h2
  by_cases hu : x = .unsetFlag
  · subst hu
    by_cases hi : i = d
    · exact Or.inr ⟨hi, rfl⟩
    · rcases hx.2 hi with h | ⟨-, h⟩ | ⟨h, -⟩ <;> cases h
  · refine Or.inl (key ?_ hu)
    rintro c rfl
    by_cases hi : i = d
    · rcases hx.1 hi with ⟨h, -⟩ | ⟨h, -⟩ <;> cases h
    · rcases hx.2 hi with h | ⟨-, h⟩ | ⟨h, -⟩ <;> cases h

theorem dloc_other {w : Bool} {d i j : Nat} {s s' : Sh C A} {x y z : PC C A} {b : Bool} (hx : DLoc w d s i x)
    (hlx : Loc s i x) (h : run i s x = some (s', y, b)) (hne : j ≠ i) (hz : DLoc w d s j z) (hlz : Loc s j z) :
    DLoc w d s' j z := by
  rcases dloc_flag hx h with e | ⟨hi, hI⟩
  · unfold DLoc
    rw [e]
    exact hz
  · subst hi
    refine ⟨fun e => absurd e hne, fun _ => ?_⟩
    rcases hz.2 hne with h | h | ⟨h, -⟩
    · exact Or.inl h
    · exact Or.inr (Or.inl h)
    · have h1 := hlx.internal.1 hI
      have h2 := hlz.internal.1 (inEvent_holds h)
      rw [h1] at h2
      cases h2
      exact absurd rfl hne

theorem dloc_local (w : Bool) (d : Nat) :
    (prog C A).Local (fun _ => False) Glob' (fun s j z => Loc' s j z ∧ DLoc w d s j z) where
  start := fun _ _ _ _ _ ha _ _ _ => ha.elim
  shared := fun s i x s' y b hg hx h => (local' fun _ => False).shared s i x s' y b hg hx.1 h
  run := fun s i x s' y b hg hx h => ⟨(local' fun _ => False).run s i x s' y b hg hx.1 h, dloc_run hx.2 h⟩
  other := fun s i x s' y b j z hg hx h hne hz =>
    ⟨(local' fun _ => False).other s i x s' y b j z hg hx.1 h hne hz.1,
      dloc_other hx.2 hx.1.loc h hne hz.2 hz.1.loc⟩
  woken := fun s i x y hx h => by
    refine ⟨(local' fun _ => False).woken s i x y hx.1 h, ?_⟩
    obtain ⟨n, rfl, rfl⟩ := woken_spec h
    refine ⟨fun e => ?_, fun e => ?_⟩
    · rcases hx.2.1 e with ⟨h, -⟩ | ⟨h, -⟩ <;> cases h
    · rcases hx.2.2 e with h | ⟨h, -⟩ | ⟨h, -⟩
      · cases h
      · exact Or.inr (Or.inl ⟨h, rfl⟩)
      · cases h
  late := fun s i x y _ h => by cases h

/-- When the handler is gone. -/
theorem destroyed {w : Bool} {d : Nat} {s : Conf (prog C A)} (hF : Full s)
    (hI : (prog C A).Inv Glob' (fun s j z => Loc' s j z ∧ DLoc w d s j z) s) (r : Ret)
    (hd : s.pcs[d]? = some (.idle r)) (j : Nat) (x : PC C A) (hj : j ≠ d) (hx : s.pcs[j]? = some x) :
    (∃ r, x = .idle r) ∨ (w = true ∧ ∃ n, x = .waitRet n) := by
  have hset : s.sh.set = false := by
    rcases (hI.loc d _ hd).2.1 rfl with ⟨h, -⟩ | ⟨-, h⟩
    · cases h
    · exact h
  have hout : ∀ (k : Nat) (z : PC C A), k ≠ d → s.pcs[k]? = some z →
      z.out = true ∨ (w = true ∧ z.waits = true) := by
    intro k z hk hz
    rcases (hI.loc k z hz).2.2 hk with h | h | ⟨-, h⟩
    · exact Or.inl h
    · exact Or.inr h
    · rw [hset] at h; cases h
  have hev : s.sh.event = none := by
    cases he : s.sh.event with
    | none => rfl
    | some k =>
      exfalso
      have hlt := hF.mem.1 k he
      have hz : s.pcs[k]? = some s.pcs[k] := List.getElem?_eq_getElem hlt
      have hE : (s.pcs[k] : PC C A).holdsE = true := (hI.loc k _ hz).1.loc.event.2 he
      generalize (s.pcs[k] : PC C A) = z at hz hE
      by_cases hk : k = d
      · subst hk
        rw [hd] at hz
        cases hz
        cases hE
      · rcases hout k z hk hz with h | ⟨-, h⟩ <;> cases z <;> first | cases h; done | cases hE; done
  have hw : s.sh.waiting = 0 := hI.glob.nowait hset hev
  have hc : s.sh.waiting = s.pcs.countP PC.inWait := hF.count
  have hno : x.inWait ≠ true := by
    intro h
    have := countP_pos_of_get PC.inWait hx h
    omega
  rcases hout j x hj hx with h | ⟨hw', h⟩
  · cases x <;> first | exact Or.inl ⟨_, rfl⟩ | cases h
  · cases x <;> first
      | exact Or.inr ⟨hw', _, rfl⟩
      | exact absurd rfl hno
      | cases h

theorem destroy_inv {w : Bool} {n d : Nat} {s s' : Conf (prog C A)}
    (hr : (prog C A).system.Reachable (init C A n) s) (hd : s.pcs[d]? = some .unsetEvent) (hset : s.sh.set = true)
    (ho : ∀ (j : Nat) (x : PC C A), j ≠ d → s.pcs[j]? = some x →
      x.out = true ∨ (w = true ∧ x.waits = true) ∨ x.inEvent = true)
    (hs : (prog C A).system.ReachableBy (fun _ => False) s s') :
    Full s' ∧ (prog C A).Inv Glob' (fun s j z => Loc' s j z ∧ DLoc w d s j z) s' := by
  have hF := full_reachable hr
  refine ⟨?_, ?_⟩
  · exact System.ReachableBy.invariant (S := (prog C A).system) Full hF
      (fun _ _ _ hf _ hst => full_step hf (Prog.step_stepped hst)) hs
  · refine (dloc_local w d).reachable ⟨hF.inv.glob, ?_⟩ hs
    intro j x hx
    refine ⟨hF.inv.loc j x hx, fun e => ?_, fun e => ?_⟩
    · subst e
      rw [hd] at hx
      cases hx
      exact Or.inl ⟨rfl, hset⟩
    · rcases ho j x e hx with h | h | h
      · exact Or.inl h
      · exact Or.inr (Or.inl h)
      · exact Or.inr (Or.inr ⟨h, hset⟩)

theorem steps_reachable {s s' : Conf (prog C A)} (is : List Nat)
    (he : (prog C A).system.exec s (is.map .run) = some s') :
    (prog C A).system.ReachableBy (fun _ => False) s s' :=
  (prog C A).system.exec_reachable (is.map .run) (by
    intro l hl
    obtain ⟨i, -, rfl⟩ := List.mem_map.1 hl
    trivial) .init he

/-- C171, as far as it holds: if, when the destruction of a handler with a callback starts, the other threads make no
call or are within an event whose callback is called or about to be, or that has been counted (with the mutex locked),
then no thread is within a call when the handler is gone: nobody uses it any longer.  (Missing: the other calls; and a
handler without callback, see the negations.) -/
theorem C171_events_partial (n : Nat) (s s' : Conf (prog C A)) (hr : (prog C A).system.Reachable (init C A n) s)
    (d : Nat) (hd : s.pcs[d]? = some .unsetEvent) (hset : s.sh.set = true)
    (hothers : ∀ (j : Nat) (x : PC C A), j ≠ d → s.pcs[j]? = some x → (∃ r, x = .idle r) ∨
      (∃ a, x = .evTest a ∨ x = .evIn a ∨ x = .evCount a) ∨ x = .evNotify ∨ x = .evRelease)
    (hs : (prog C A).system.ReachableBy (fun _ => False) s s') (r : Ret) (hgone : s'.pcs[d]? = some (.idle r))
    (j : Nat) (x : PC C A) (hx : s'.pcs[j]? = some x) : ∃ r, x = .idle r := by
  obtain ⟨hF, hI⟩ := destroy_inv (w := false) hr hd hset (by
    intro k z hk hz
    rcases hothers k z hk hz with ⟨r, rfl⟩ | ⟨a, rfl | rfl | rfl⟩ | rfl | rfl
    · exact Or.inl rfl
    all_goals exact Or.inr (Or.inr rfl)) hs
  by_cases hj : j = d
  · subst hj
    rw [hgone] at hx
    cases hx
    exact ⟨_, rfl⟩
  · rcases destroyed hF hI r hgone j x hj hx with h | ⟨h, -⟩
    · exact h
    · cases h

/-- C171, as far as it holds: if threads sleep in `wait_for_event` as well, then when the handler is gone no thread
sleeps on, or is about to lock, a mutex or condition variable of it: each has returned or is about to read the number
of events.  (Missing: as above, and that read, see `C171_negation_waiting`.) -/
theorem C171_waits_partial (n : Nat) (s s' : Conf (prog C A)) (hr : (prog C A).system.Reachable (init C A n) s)
    (d : Nat) (hd : s.pcs[d]? = some .unsetEvent) (hset : s.sh.set = true)
    (hothers : ∀ (j : Nat) (x : PC C A), j ≠ d → s.pcs[j]? = some x → (∃ r, x = .idle r) ∨
      (∃ m, x = .asleep m ∨ x = .ready m) ∨
      (∃ a, x = .evTest a ∨ x = .evIn a ∨ x = .evCount a) ∨ x = .evNotify ∨ x = .evRelease)
    (hs : (prog C A).system.ReachableBy (fun _ => False) s s') (r : Ret) (hgone : s'.pcs[d]? = some (.idle r))
    (j : Nat) (x : PC C A) (hj : j ≠ d) (hx : s'.pcs[j]? = some x) : (∃ r, x = .idle r) ∨ ∃ m, x = .waitRet m := by
  obtain ⟨hF, hI⟩ := destroy_inv (w := true) hr hd hset (by
    intro k z hk hz
    rcases hothers k z hk hz with ⟨r, rfl⟩ | ⟨m, rfl | rfl⟩ | ⟨a, rfl | rfl | rfl⟩ | rfl | rfl
    · exact Or.inl rfl
    · exact Or.inr (Or.inl ⟨rfl, rfl⟩)
    · exact Or.inr (Or.inl ⟨rfl, rfl⟩)
    all_goals exact Or.inr (Or.inr rfl)) hs
  rcases destroyed hF hI r hgone j x hj hx with h | ⟨-, h⟩
  · exact Or.inl h
  · exact Or.inr h

/-- C171: the destructor ends, under fair scheduling, whatever the other threads do. -/
theorem C171_ends (n : Nat) (e : (prog C A).system.Execution) (hf : e.Fair)
    (h0 : (prog C A).system.Reachable (init C A n) (e.at_ 0)) (d : Nat) :
    e.LeadsTo (fun s => s.pcs[d]? = some .unsetEvent) (fun s => s.pcs[d]? = some (.idle .void)) :=
  (C48_returns n e hf h0 d).1.trans (C48_returns n e hf h0 d).2.1

/-- C171 does not hold: a thread that slept in `wait_for_event` when the destruction started reads the number of events
(EventHandler.ipp:144) of a handler that is gone: it has left the count of waiting threads before. -/
theorem C171_negation_waiting : ∃ s s' : Conf (prog Nat Nat),
    (prog Nat Nat).system.Reachable (init Nat Nat 2) s ∧ s.pcs = [.unsetEvent, .asleep 1] ∧ s.sh.set = true ∧
    (prog Nat Nat).system.ReachableBy (fun _ => False) s s' ∧ s'.pcs = [.idle .void, .waitRet 1] :=
  ⟨_, _, (prog Nat Nat).system.exec_reachable'
    [.start 0 (.setCallback 7), .run 0, .run 0, .run 0, .run 0, .run 0, .start 1 (.wait 1), .run 1, .run 1,
      .start 0 .unsetCallback] rfl, rfl, rfl,
    steps_reachable [0, 0, 0, 0, 0, 0, 0, 1, 0, 0] rfl, rfl⟩

/-- C171 does not hold: a thread that had seen that the callback is set (EventHandler.ipp:124) locks the mutex of a
handler that is gone. -/
theorem C171_negation_entering : ∃ s s' : Conf (prog Nat Nat),
    (prog Nat Nat).system.Reachable (init Nat Nat 2) s ∧ s.pcs = [.unsetEvent, .waitLock 1] ∧ s.sh.set = true ∧
    (prog Nat Nat).system.ReachableBy (fun _ => False) s s' ∧ s'.pcs = [.idle .void, .waitLock 1] :=
  ⟨_, _, (prog Nat Nat).system.exec_reachable'
    [.start 0 (.setCallback 7), .run 0, .run 0, .run 0, .run 0, .run 0, .start 1 (.wait 1), .run 1,
      .start 0 .unsetCallback] rfl, rfl, rfl,
    steps_reachable [0, 0, 0, 0, 0, 0, 0, 0, 0] rfl, rfl⟩

/-- C171 does not hold without a callback: an event that is being processed, with the mutex of the handler locked, is
not waited for. -/
theorem C171_negation_event : ∃ s s' : Conf (prog Nat Nat),
    (prog Nat Nat).system.Reachable (init Nat Nat 2) s ∧ s.pcs = [.unsetEvent, .evTest 5] ∧
    (prog Nat Nat).system.ReachableBy (fun _ => False) s s' ∧ s'.pcs = [.idle .void, .evTest 5] ∧
    s'.sh.internal = some 1 :=
  ⟨_, _, (prog Nat Nat).system.exec_reachable' [.start 1 (.event 5), .run 1, .start 0 .unsetCallback] rfl, rfl,
    steps_reachable [0, 0, 0] rfl, rfl, rfl⟩

/-- Non-trivial case for `C171_events_partial`: the destruction starts while the callback is executed. -/
example : ∃ s s' : Conf (prog Nat Nat), (prog Nat Nat).system.Reachable (init Nat Nat 2) s ∧
    s.pcs = [.unsetEvent, .evIn 5] ∧ s.sh.set = true ∧
    (prog Nat Nat).system.ReachableBy (fun _ => False) s s' ∧ s'.pcs = [.idle .void, .idle .void] ∧ s'.sh.count = 1 :=
  ⟨_, _, (prog Nat Nat).system.exec_reachable'
    [.start 0 (.setCallback 7), .run 0, .run 0, .run 0, .run 0, .run 0, .start 1 (.event 5), .run 1, .run 1,
      .start 0 .unsetCallback] rfl, rfl, rfl,
    steps_reachable [0, 0, 1, 1, 1, 1, 0, 0, 0, 0, 0, 0, 0] rfl, rfl, rfl⟩

/-- Non-trivial case for `C171_waits_partial`: a thread sleeps and returns before the handler is gone. -/
example : ∃ s s' : Conf (prog Nat Nat), (prog Nat Nat).system.Reachable (init Nat Nat 2) s ∧
    s.pcs = [.unsetEvent, .asleep 1] ∧ s.sh.set = true ∧
    (prog Nat Nat).system.ReachableBy (fun _ => False) s s' ∧ s'.pcs = [.idle .void, .idle (.waited false)] :=
  ⟨_, _, (prog Nat Nat).system.exec_reachable'
    [.start 0 (.setCallback 7), .run 0, .run 0, .run 0, .run 0, .run 0, .start 1 (.wait 1), .run 1, .run 1,
      .start 0 .unsetCallback] rfl, rfl, rfl,
    steps_reachable [0, 0, 0, 0, 0, 0, 0, 1, 1, 0, 0] rfl, rfl⟩

/-- Non-trivial case for `C171_ends`: a state in which the destruction starts. -/
example : ∃ s : Conf (prog Nat Nat), (prog Nat Nat).system.Reachable (init Nat Nat 2) s ∧
    s.pcs = [.unsetEvent, .asleep 1] :=
  ⟨_, (prog Nat Nat).system.exec_reachable'
    [.start 0 (.setCallback 7), .run 0, .run 0, .run 0, .run 0, .run 0, .start 1 (.wait 1), .run 1, .run 1,
      .start 0 .unsetCallback] rfl, rfl⟩

end Verif.EventHandler
