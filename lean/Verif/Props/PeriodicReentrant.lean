import Verif.Lemmas.Periodic
/-!
C95: callbacks of a `PeriodicEventHandler` that call `set_callback` or `unset_callback` of their own handler.
-/
namespace Verif.Periodic
open Verif.Threads

/-- Outside calls, or at the first mutex of a call. -/
def PC.outside : PC → Bool
  | .idle | .setLock | .unsetLock | .eventLock => true
  | _ => false

/-- A state in which all mutexes are held by two threads that wait for each other (or for themselves), and all other
threads are at the first mutex of their call or outside calls. -/
structure Dead {c : Callback} (s : Conf (prog c)) (i j : Nat) (x y : PC) : Prop where
  first : s.pcs[i]? = some x
  second : s.pcs[j]? = some y
  stuck : run c i s.sh x = none ∧ run c j s.sh y = none
  event : s.sh.event.isSome
  internal : s.sh.internal.isSome
  others : ∀ (k : Nat) (z : PC), s.pcs[k]? = some z → k ≠ i → k ≠ j → z.outside = true

/-- Such a state stays as it is. -/
theorem Dead.step {c : Callback} {s s' : Conf (prog c)} {i j : Nat} {x y : PC} (h : Dead s i j x y)
    (hx : (prog c).Active x) (hy : (prog c).Active y) {l : Label Op} (hs : (prog c).Stepped s l s') :
    Dead s' i j x y ∧ s'.sh = s.sh := by
  -- nobody can take a step
  have none_ : ∀ (k : Nat) (z : PC), s.pcs[k]? = some z → run c k s.sh z = none := by
    intro k z hz
    by_cases hi : k = i
    · subst hi; rw [h.first] at hz; cases hz; exact h.stuck.1
    · by_cases hj : k = j
      · subst hj; rw [h.second] at hz; cases hz; exact h.stuck.2
      · have ho := h.others k z hz hi hj
        have h1 := h.event
        have h2 := h.internal
        cases z <;> first | rfl | (cases ho; done) | (simp only [run, h1, h2]; rfl)
  have hsh : s'.sh = s.sh := by
    rcases Prog.stepped_sh hs with h | ⟨k, z, w, b, -, hz, hr⟩
    · exact h
    · have hr : run c k s.sh z = some (s'.sh, w, b) := hr
      rw [none_ k z hz] at hr
      cases hr
  have notrun : ∀ k, l ≠ .run k := by
    rintro k rfl
    obtain ⟨z, hz⟩ := Prog.stepped_at hs
    obtain ⟨sh, w, b, hr, -, -⟩ := Prog.stepped_run hs hz
    have hr : run c k s.sh z = some (sh, w, b) := hr
    rw [none_ k z hz] at hr
    cases hr
  refine ⟨⟨Prog.frame_active hs h.first hx (notrun i), Prog.frame_active hs h.second hy (notrun j), ?_, ?_, ?_, ?_⟩, hsh⟩
  · rw [hsh]; exact h.stuck
  · rw [hsh]; exact h.event
  · rw [hsh]; exact h.internal
  · intro k w hw hi hj
    have hlt : k < s.pcs.length := by
      rw [← Prog.stepped_length hs]; exact (List.getElem?_eq_some_iff.1 hw).1
    obtain ⟨z, hz⟩ : ∃ z, s.pcs[k]? = some z := ⟨_, List.getElem?_eq_getElem hlt⟩
    have ho := h.others k z hz hi hj
    obtain ⟨w', hw', ht⟩ := Prog.track hs hz
    rw [hw] at hw'
    cases hw'
    rcases ht with ⟨op, -, hst, -⟩ | ⟨hl, -⟩ | ⟨-, hk, -⟩
    · cases z <;> cases op <;> cases hst <;> rfl
    · exact absurd hl (notrun k)
    · rcases hk with rfl | hk | hk
      · exact ho
      · cases z <;> cases hk; cases ho
      · cases z <;> cases hk; cases ho

/-- What a deadlock means: the two threads stay where they are, and a client that calls `set_callback`, `unset_callback`
(so also the destructor) or `simulate_event_occurred` stays inside that call. -/
theorem Dead.forever {c : Callback} {s s' : Conf (prog c)} {i j : Nat} {x y : PC} (h : Dead s i j x y)
    (hx : (prog c).Active x) (hy : (prog c).Active y) {ls : List (Label Op)}
    (he : (prog c).system.exec s ls = some s') :
    s'.pcs[i]? = some x ∧ s'.pcs[j]? = some y ∧ ∀ k : Nat, (prog c).system.step s' (.run k) = none := by
  have key : Dead s' i j x y := by
    induction ls generalizing s with
    | nil => cases he; exact h
    | cons l ls ih =>
      obtain ⟨s1, h1, h2⟩ := System.exec_cons (S := (prog c).system) he
      exact ih (h.step hx hy (Prog.step_stepped h1)).1 h2
  refine ⟨key.first, key.second, fun k => ?_⟩
  cases hs : (prog c).system.step s' (.run k) with
  | none => rfl
  | some t =>
    have hst := Prog.step_stepped hs
    obtain ⟨z, hz⟩ := Prog.stepped_at hst
    obtain ⟨sh, w, b, hr, -, -⟩ := Prog.stepped_run hst hz
    have hr : run c k s'.sh z = some (sh, w, b) := hr
    exfalso
    by_cases hi : k = i
    · subst hi; rw [key.first] at hz; cases hz; rw [key.stuck.1] at hr; cases hr
    · by_cases hj : k = j
      · subst hj; rw [key.second] at hz; cases hz; rw [key.stuck.2] at hr; cases hr
      · have ho := key.others k z hz hi hj
        have h1 := key.event
        have h2 := key.internal
        cases z <;> first | (cases hr; done) | (cases ho; done) | (simp only [run, h1, h2] at hr; cases hr)

theorem active' {c : Callback} {x : PC} (h1 : x ≠ .idle) (h2 : x ≠ .asleep) : (prog c).Active x := by
  refine ⟨fun op => ?_, ?_, ?_⟩
  · cases x <;> first | exact absurd rfl h1 | rfl
  · cases x <;> first | exact absurd rfl h2 | rfl
  · cases x <;> first | exact absurd rfl h2 | rfl

/-- C95, negation: a callback that unsets itself, called by the timer thread, waits forever for
`periodic_wait_mutex_`, which the timer thread itself holds; nobody takes any step any more, whatever is called. -/
theorem C95_negation_timer : ∃ s : Conf (prog .unset), (prog .unset).system.Reachable (init .unset 1) s ∧
    ∀ ls s', (prog .unset).system.exec s ls = some s' → s'.pcs[0]? = some .cbStop ∧
      ∀ k : Nat, (prog .unset).system.step s' (.run k) = none := by
  let s : Conf (prog .unset) :=
    ⟨⟨false, some 0, some 0, some 0, true, .running, 0, false⟩, [.cbStop, .idle]⟩
  have hs : (prog .unset).system.exec (init .unset 1) ([.start 1 .set, .run 1, .run 1, .run 1, .run 1,
      .run 1, .run 1, .run 1, .run 0, .run 0, .run 0, .run 0, .timeout 0, .run 0, .run 0, .run 0, .run 0, .run 0,
      .run 0, .run 0] : List (Label Op)) = some s := rfl
  refine ⟨s, (prog .unset).system.exec_reachable' _ hs, fun ls s' he => ?_⟩
  have hd : Dead s 0 0 .cbStop .cbStop := by
    refine ⟨rfl, rfl, ⟨rfl, rfl⟩, rfl, rfl, ?_⟩
    intro k z hz h1 _
    match k with
    | 0 => exact absurd rfl h1
    | 1 => cases hz; rfl
    | k + 2 => cases hz
  have := hd.forever (active' nofun nofun) (active' nofun nofun) he
  exact ⟨this.1, this.2.2⟩

/-- C95, negation: a callback that unsets itself, called by `simulate_event_occurred`, deadlocks with the timer thread
when the period ends at that moment: each holds a mutex the other one needs. -/
theorem C95_negation_simulate : ∃ s : Conf (prog .unset), (prog .unset).system.Reachable (init .unset 2) s ∧
    ∀ ls s', (prog .unset).system.exec s ls = some s' → s'.pcs[2]? = some .cbStop ∧ s'.pcs[0]? = some .timerLock ∧
      ∀ k : Nat, (prog .unset).system.step s' (.run k) = none := by
  let s : Conf (prog .unset) :=
    ⟨⟨false, some 2, some 2, some 0, true, .running, 0, false⟩, [.timerLock, .idle, .cbStop]⟩
  have hs : (prog .unset).system.exec (init .unset 2) ([.start 1 .set, .run 1, .run 1, .run 1, .run 1,
      .run 1, .run 1, .run 1, .run 0, .run 0, .run 0, .run 0, .start 2 .event, .run 2, .run 2, .run 2, .timeout 0,
      .run 0, .run 0, .run 2, .run 2] : List (Label Op)) = some s := rfl
  refine ⟨s, (prog .unset).system.exec_reachable' _ hs, fun ls s' he => ?_⟩
  have hd : Dead s 2 0 .cbStop .timerLock := by
    refine ⟨rfl, rfl, ⟨rfl, rfl⟩, rfl, rfl, ?_⟩
    intro k z hz h1 h2
    match k with
    | 0 => exact absurd rfl h2
    | 1 => cases hz; rfl
    | 2 => exact absurd rfl h1
    | k + 3 => cases hz
  exact hd.forever (active' nofun nofun) (active' nofun nofun) he

/-- C95, negation: a callback that calls `set_callback`, called by the timer thread, deadlocks with a client that calls
`unset_callback` (or the destructor) at that moment. -/
theorem C95_negation_change : ∃ s : Conf (prog .change), (prog .change).system.Reachable (init .change 1) s ∧
    ∀ ls s', (prog .change).system.exec s ls = some s' → s'.pcs[0]? = some .cbLock ∧
      s'.pcs[1]? = some .unsetInternal ∧ ∀ k : Nat, (prog .change).system.step s' (.run k) = none := by
  let s : Conf (prog .change) :=
    ⟨⟨true, some 1, some 0, some 0, true, .running, 0, false⟩, [.cbLock, .unsetInternal]⟩
  have hs : (prog .change).system.exec (init .change 1) ([.start 1 .set, .run 1, .run 1, .run 1, .run 1,
      .run 1, .run 1, .run 1, .run 0, .run 0, .run 0, .run 0, .timeout 0, .run 0, .run 0, .run 0, .run 0, .run 0,
      .start 1 .unset, .run 1, .run 1] : List (Label Op)) = some s := rfl
  refine ⟨s, (prog .change).system.exec_reachable' _ hs, fun ls s' he => ?_⟩
  have hd : Dead s 0 1 .cbLock .unsetInternal := by
    refine ⟨rfl, rfl, ⟨rfl, rfl⟩, rfl, rfl, ?_⟩
    intro k z hz h1 h2
    match k with
    | 0 => exact absurd rfl h1
    | 1 => exact absurd rfl h2
    | k + 2 => cases hz
  exact hd.forever (active' nofun nofun) (active' nofun nofun) he

/-! ### What holds -/

/-- Places outside `set_callback` and `unset_callback` called by clients, and outside `unset_callback` called by
callbacks. -/
def PC.calm : PC → Bool
  | .idle | .eventLock | .eventTest | .eventCall | .eventRel | .off | .loop | .lock | .test | .asleep | .again | .late
  | .check | .timerLock | .timerTest | .timerCall | .timerRel | .unlock | .finish | .cbLock | .cbFlag | .cbOut => true
  | _ => false

/-- The thread has `event_mutex_`, called from a callback. -/
def PC.cbEvent : PC → Bool
  | .cbFlag | .cbOut => true
  | _ => false

/-- The thread has `internal_callback_mutex_`. -/
def PC.cbInternal : PC → Bool
  | .eventTest | .eventCall | .eventRel | .timerTest | .timerCall | .timerRel | .cbLock | .cbFlag | .cbOut => true
  | _ => false

/-- Facts about one thread while no client sets or unsets. -/
structure Calm (s : Sh) (i : Nat) (x : PC) : Prop where
  calm : x.calm = true
  event : x.cbEvent = true ↔ s.event = some i
  internal : x.cbInternal = true ↔ s.internal = some i

/-- Only the owner of `internal_callback_mutex_` takes `event_mutex_`. -/
def Nested (s : Sh) : Prop := ∀ j, s.event = some j → s.internal = some j

theorem calm_local : (prog .change).Local (fun op => op = .event) Nested Calm where
  start := by
    intro sh i x op y hA _ hx hy
    subst hA
    cases x with
    | idle => cases hy; exact ⟨rfl, hx.event, hx.internal⟩
    | _ => cases hy
  shared := by
    intro sh i x sh' y b hg hx hr
    have hc := hx.calm
    have he := hx.event
    have hi := hx.internal
    have hr : run .change i sh x = some (sh', y, b) := hr
    have no : x.cbEvent = false → sh.internal = some i → ∀ j, sh.event ≠ some j := by
      intro h1 h2 j hj
      have h3 := hg j hj
      rw [h2] at h3
      cases h3
      rw [he.2 hj] at h1
      cases h1
    cases x <;> simp only [run, reduceCtorEq, if_false] at hr <;> (try split at hr) <;> (try (cases hc; done)) <;>
      (try (cases hr; done)) <;> cases hr <;> first
        | exact hg
        | (intro j hj; cases hj; done)
        | (intro j hj; cases hj; exact hi.1 rfl)
        | (intro j hj; exact absurd hj (no rfl (hi.1 rfl) j))
        | (intro j hj; have h3 := hg j hj; exact absurd (by rw [h3]; rfl) ‹¬ sh.internal.isSome = true›)
  run := by
    intro sh i x sh' y b _ hx hr
    have hc := hx.calm
    have he := hx.event
    have hi := hx.internal
    have hr : run .change i sh x = some (sh', y, b) := hr
    cases x <;> simp only [run, reduceCtorEq, if_false] at hr <;> (try split at hr) <;> (try (cases hc; done)) <;> (try (cases hr; done)) <;>
      cases hr <;> (try split) <;> first
        | exact ⟨rfl, he, hi⟩
        | exact ⟨rfl, ⟨fun _ => rfl, fun _ => rfl⟩, hi⟩
        | exact ⟨rfl, he, ⟨fun _ => rfl, fun _ => rfl⟩⟩
        | exact ⟨rfl, he, ⟨nofun, nofun⟩⟩
        | exact ⟨rfl, ⟨nofun, nofun⟩, hi⟩
  other := by
    intro sh i x sh' y b j z _ hx hr hj hz
    have hc := hx.calm
    have he := hx.event
    have hi := hx.internal
    have hr : run .change i sh x = some (sh', y, b) := hr
    have h1 : sh'.event = sh.event ∨ (sh.event = none ∧ sh'.event = some i) ∨
        (sh.event = some i ∧ sh'.event = none) := by
      cases x <;> simp only [run, reduceCtorEq, if_false] at hr <;> (try split at hr) <;> (try (cases hc; done)) <;> (try (cases hr; done)) <;>
        cases hr <;> first
          | exact Or.inl rfl
          | exact Or.inr (Or.inl ⟨not_isSome (by assumption), rfl⟩)
          | exact Or.inr (Or.inr ⟨he.1 rfl, rfl⟩)
    have h2 : sh'.internal = sh.internal ∨ (sh.internal = none ∧ sh'.internal = some i) ∨
        (sh.internal = some i ∧ sh'.internal = none) := by
      cases x <;> simp only [run, reduceCtorEq, if_false] at hr <;> (try split at hr) <;> (try (cases hc; done)) <;> (try (cases hr; done)) <;>
        cases hr <;> first
          | exact Or.inl rfl
          | exact Or.inr (Or.inl ⟨not_isSome (by assumption), rfl⟩)
          | exact Or.inr (Or.inr ⟨hi.1 rfl, rfl⟩)
    exact ⟨hz.calm, owner_keep hj hz.event h1, owner_keep hj hz.internal h2⟩
  woken := by
    intro sh i x y hx hy
    cases x <;> cases hy
    exact ⟨rfl, hx.event, hx.internal⟩
  late := by
    intro sh i x y hx hy
    cases x <;> cases hy
    exact ⟨rfl, hx.event, hx.internal⟩

/-- A handler with a callback that calls `set_callback`, and `n + 1` clients, one of which has just set the callback. -/
def ready (n : Nat) : Conf (prog .change) :=
  ⟨⟨true, none, none, none, true, .spawned, 0, false⟩, .off :: .idle :: List.replicate n .idle⟩

theorem ready_reachable (n : Nat) : (prog .change).system.Reachable (init .change (n + 1)) (ready n) :=
  (prog .change).system.exec_reachable' ([.start 1 .set, .run 1, .run 1, .run 1, .run 1, .run 1, .run 1, .run 1] :
    List (Label Op)) rfl

theorem calm_at {n : Nat} (e : (prog .change).system.Execution) (h0 : e.at_ 0 = ready n)
    (hop : ∀ m i op, e.label m = some (.start i op) → op = .event) (m : Nat) :
    (prog .change).Inv Nested Calm (e.at_ m) := by
  induction m with
  | zero =>
    rw [h0]
    refine ⟨nofun, fun j x hx => ?_⟩
    have : x = .off ∨ x = .idle := by
      match j with
      | 0 => cases hx; exact Or.inl rfl
      | 1 => cases hx; exact Or.inr rfl
      | j + 2 =>
        have hx : (List.replicate n PC.idle)[j]? = some x := hx
        exact Or.inr (List.mem_replicate.1 (List.mem_of_getElem? hx)).2
    rcases this with rfl | rfl <;> exact ⟨rfl, ⟨nofun, nofun⟩, ⟨nofun, nofun⟩⟩
  | succ m ih =>
    rcases e.next m with ⟨-, h⟩ | ⟨l, hl, h⟩
    · rw [h]; exact ih
    · refine calm_local.step ih ?_ (Prog.step_stepped h)
      cases l with
      | start i op => exact hop m i op hl
      | _ => trivial

/-- C95, what holds: while no client calls `set_callback` or `unset_callback`, a callback that calls `set_callback`
returns, under fair scheduling.  Missing: clients that set or unset at the same time (`C95_negation_change`), callbacks
that unset (`C95_negation_timer`, `C95_negation_simulate`). -/
theorem C95_change_partial {n : Nat} (e : (prog .change).system.Execution) (hf : e.Fair) (h0 : e.at_ 0 = ready n)
    (hop : ∀ m i op, e.label m = some (.start i op) → op = .event) (i : Nat) :
    e.LeadsTo (fun s => s.pcs[i]? = some .timerCall ∨ s.pcs[i]? = some .eventCall)
      (fun s => s.pcs[i]? = some .timerRel ∨ s.pcs[i]? = some .eventRel) := by
  have hI := calm_at e h0 hop
  have out : e.LeadsTo (fun s => s.pcs[i]? = some .cbOut)
      (fun s => s.pcs[i]? = some .timerRel ∨ s.pcs[i]? = some .eventRel) := by
    refine Prog.free_step e hf _ hI i .cbOut (active' nofun nofun) _ (fun _ _ _ => rfl) ?_
    intro s s' _ _ hx hs
    obtain ⟨sh, y, b, hr, -, hy⟩ := Prog.stepped_run hs hx
    rw [hy]
    have hr : run .change i s.sh .cbOut = some (sh, y, b) := hr
    simp only [run, reduceCtorEq, if_false] at hr
    cases hr
    split
    · exact Or.inl rfl
    · exact Or.inr rfl
  have flag := (Prog.goto e hf _ hI i .cbFlag .cbOut (active' nofun nofun) (fun s _ _ => ⟨_, _, rfl⟩)).trans out
  have lock := (Prog.goto e hf _ hI i .cbLock .cbFlag (active' nofun nofun) (fun s hi hx => by
    -- the mutex is free: its owner would be inside the callback as well
    have hfree : s.sh.event = none := by
      cases hev : s.sh.event with
      | none => rfl
      | some j =>
        have h1 := hi.glob j hev
        have hl := hi.loc i _ hx
        rw [hl.internal.1 rfl] at h1
        cases h1
        have := hl.event.2 hev
        cases this
    refine ⟨{ s.sh with event := some i }, false, ?_⟩
    show run .change i s.sh .cbLock = _
    simp only [run, hfree]
    rfl)).trans flag
  rintro m (h | h)
  · exact ((Prog.goto e hf _ hI i .timerCall .cbLock (active' nofun nofun) (fun s _ _ => ⟨_, _, rfl⟩)).trans lock) m h
  · exact ((Prog.goto e hf _ hI i .eventCall .cbLock (active' nofun nofun) (fun s _ _ => ⟨_, _, rfl⟩)).trans lock) m h

/-- The hypotheses are met: the callback is called by `simulate_event_occurred`, with the timer thread asleep. -/
example : ∃ e : (prog .change).system.Execution, e.Fair ∧ e.at_ 0 = ready 0 ∧
    (∀ m i op, e.label m = some (.start i op) → op = .event) ∧ ∃ m, (e.at_ m).pcs[1]? = some .eventCall := by
  obtain ⟨e, hf, h0, hat, hlab⟩ := (prog .change).system.finite_fair' (ready 0)
    ⟨⟨true, none, none, none, true, .running, 1, false⟩, [.asleep, .idle]⟩
    ([.run 0, .run 0, .run 0, .run 0, .start 1 .event, .run 1, .run 1, .run 1, .run 1, .run 1, .run 1, .run 1] :
      List (Label Op)) rfl (by
    intro i
    match i with
    | 0 => rfl
    | 1 => rfl
    | i + 2 => rfl)
  refine ⟨e, hf, h0, fun m i op h => ?_, 7, ?_⟩
  · rw [hlab] at h
    have := List.mem_of_getElem? h
    simp at this
    exact this.2
  · obtain ⟨s, h2, h3⟩ := hat 7
    rw [h3]
    cases h2
    rfl

end Verif.Periodic
