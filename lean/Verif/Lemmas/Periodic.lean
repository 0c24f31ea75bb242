import Verif.Model.Periodic
import Verif.Lemmas.Prog
/-!
Invariants of `PeriodicEventHandler` with callbacks that do not use the handler.
-/
namespace Verif.Periodic
open Verif.Threads

/-- The branches of `run`. -/
inductive Ran (i : Nat) (s : Sh) : PC → Sh → PC → Bool → Prop
  | setLock (h : s.event = none) : Ran i s .setLock { s with event := some i } .setInternal false
  | setInternal (h : s.internal = none) : Ran i s .setInternal { s with internal := some i } .setFlag false
  | setFlag : Ran i s .setFlag { s with set := true } (.setRel s.set) false
  | setChanged : Ran i s (.setRel true) { s with internal := none } .setOut false
  | setNew : Ran i s (.setRel false) { s with internal := none } .setStart false
  | setStart (h : s.periodic = none) : Ran i s .setStart { s with active := true } .setSpawn false
  | setSpawn : Ran i s .setSpawn
      { s with thread := .spawned, crashed := s.crashed || decide (s.thread ≠ .none) } .setOut false
  | setOut : Ran i s .setOut { s with event := none } .idle false
  | unsetLock (h : s.event = none) : Ran i s .unsetLock { s with event := some i } .unsetTest false
  | unsetYes (h : s.set = true) : Ran i s .unsetTest s .unsetInternal false
  | unsetNo (h : s.set = false) : Ran i s .unsetTest s .unsetOut false
  | unsetInternal (h : s.internal = none) : Ran i s .unsetInternal { s with internal := some i } .unsetFlag false
  | unsetFlag : Ran i s .unsetFlag { s with set := false } .unsetRel false
  | unsetRel : Ran i s .unsetRel { s with internal := none } .unsetStop false
  | unsetStop (h : s.periodic = none) : Ran i s .unsetStop { s with active := false } .unsetNotify false
  | unsetNotify : Ran i s .unsetNotify s .unsetJoin true
  | unsetJoin (h : s.thread = .ended) : Ran i s .unsetJoin { s with thread := .none } .unsetOut false
  | unsetOut : Ran i s .unsetOut { s with event := none } .idle false
  | eventLock (h : s.internal = none) : Ran i s .eventLock { s with internal := some i } .eventTest false
  | eventYes (h : s.set = true) : Ran i s .eventTest s .eventCall false
  | eventNo (h : s.set = false) : Ran i s .eventTest s .eventRel false
  | eventCall : Ran i s .eventCall { s with calls := s.calls + 1 } .eventRel false
  | eventRel : Ran i s .eventRel { s with internal := none } .idle false
  | off (h : s.thread = .spawned) : Ran i s .off { s with thread := .running } .loop false
  | loopYes (h : s.active = true) : Ran i s .loop s .lock false
  | loopNo (h : s.active = false) : Ran i s .loop s .finish false
  | lock (h : s.periodic = none) : Ran i s .lock { s with periodic := some i } .test false
  | sleep (h : s.active = true) : Ran i s .test { s with periodic := none } .asleep false
  | stay (h : s.active = false) : Ran i s .test s .check false
  | again (h : s.periodic = none) : Ran i s .again { s with periodic := some i } .test false
  | late (h : s.periodic = none) : Ran i s .late { s with periodic := some i } .check false
  | checkYes (h : s.active = true) : Ran i s .check s .timerLock false
  | checkNo (h : s.active = false) : Ran i s .check { s with periodic := none } .finish false
  | timerLock (h : s.internal = none) : Ran i s .timerLock { s with internal := some i } .timerTest false
  | timerYes (h : s.set = true) : Ran i s .timerTest s .timerCall false
  | timerNo (h : s.set = false) : Ran i s .timerTest s .timerRel false
  | timerCall : Ran i s .timerCall { s with calls := s.calls + 1 } .timerRel false
  | timerRel : Ran i s .timerRel { s with internal := none } .unlock false
  | unlock : Ran i s .unlock { s with periodic := none } .loop false
  | finish : Ran i s .finish { s with thread := .ended } .off false

theorem not_isSome {α : Type} {o : Option α} (h : ¬ o.isSome = true) : o = none := by
  cases o with
  | none => rfl
  | some a => exact absurd rfl h

theorem run_ran {i : Nat} {s s' : Sh} {x y : PC} {b : Bool} (h : run .plain i s x = some (s', y, b)) :
    Ran i s x s' y b := by
  cases x with
  | idle | asleep | cbFlag => cases h
  | setLock =>
    simp only [run] at h
    split at h
    · cases h
    · rename_i hl; cases h; exact .setLock (not_isSome hl)
  | setInternal =>
    simp only [run] at h
    split at h
    · cases h
    · rename_i hl; cases h; exact .setInternal (not_isSome hl)
  | setFlag => cases h; exact .setFlag
  | setRel was =>
    cases was with
    | true => cases h; exact .setChanged
    | false => cases h; exact .setNew
  | setStart =>
    simp only [run] at h
    split at h
    · cases h
    · rename_i hl; cases h; exact .setStart (not_isSome hl)
  | setSpawn => cases h; exact .setSpawn
  | setOut => cases h; exact .setOut
  | unsetLock =>
    simp only [run] at h
    split at h
    · cases h
    · rename_i hl; cases h; exact .unsetLock (not_isSome hl)
  | unsetTest =>
    cases hs : s.set with
    | true => simp only [run, hs] at h; cases h; exact .unsetYes hs
    | false => simp only [run, hs] at h; cases h; exact .unsetNo hs
  | unsetInternal =>
    simp only [run] at h
    split at h
    · cases h
    · rename_i hl; cases h; exact .unsetInternal (not_isSome hl)
  | unsetFlag => cases h; exact .unsetFlag
  | unsetRel => cases h; exact .unsetRel
  | unsetStop =>
    simp only [run] at h
    split at h
    · cases h
    · rename_i hl; cases h; exact .unsetStop (not_isSome hl)
  | unsetNotify => cases h; exact .unsetNotify
  | unsetJoin =>
    simp only [run] at h
    split at h
    · rename_i hl; cases h; exact .unsetJoin hl
    · cases h
  | unsetOut => cases h; exact .unsetOut
  | eventLock =>
    simp only [run] at h
    split at h
    · cases h
    · rename_i hl; cases h; exact .eventLock (not_isSome hl)
  | eventTest =>
    cases hs : s.set with
    | true => simp only [run, hs] at h; cases h; exact .eventYes hs
    | false => simp only [run, hs] at h; cases h; exact .eventNo hs
  | eventCall => cases h; exact .eventCall
  | eventRel => cases h; exact .eventRel
  | off =>
    simp only [run] at h
    split at h
    · rename_i hl; cases h; exact .off hl
    · cases h
  | loop =>
    cases hs : s.active with
    | true => simp only [run, hs] at h; cases h; exact .loopYes hs
    | false => simp only [run, hs] at h; cases h; exact .loopNo hs
  | lock =>
    simp only [run] at h
    split at h
    · cases h
    · rename_i hl; cases h; exact .lock (not_isSome hl)
  | test =>
    simp only [run] at h
    split at h
    · rename_i hl; cases h; exact .sleep hl
    · rename_i hl; cases h; exact .stay (by simpa using hl)
  | again =>
    simp only [run] at h
    split at h
    · cases h
    · rename_i hl; cases h; exact .again (not_isSome hl)
  | late =>
    simp only [run] at h
    split at h
    · cases h
    · rename_i hl; cases h; exact .late (not_isSome hl)
  | check =>
    simp only [run] at h
    split at h
    · rename_i hl; cases h; exact .checkYes hl
    · rename_i hl; cases h; exact .checkNo (by simpa using hl)
  | timerLock =>
    simp only [run] at h
    split at h
    · cases h
    · rename_i hl; cases h; exact .timerLock (not_isSome hl)
  | timerTest =>
    cases hs : s.set with
    | true => simp only [run, hs] at h; cases h; exact .timerYes hs
    | false => simp only [run, hs] at h; cases h; exact .timerNo hs
  | timerCall => cases h; exact .timerCall
  | timerRel => cases h; exact .timerRel
  | unlock => cases h; exact .unlock
  | finish => cases h; exact .finish
  | cbLock | cbStop | cbNotify | cbJoin | cbOut => simp [run] at h

/-- The thread has `event_mutex_`. -/
def PC.hasEvent : PC → Bool
  | .setInternal | .setFlag | .setRel _ | .setStart | .setSpawn | .setOut | .unsetTest | .unsetInternal | .unsetFlag
  | .unsetRel | .unsetStop | .unsetNotify | .unsetJoin | .unsetOut => true
  | _ => false

/-- The thread has `internal_callback_mutex_`. -/
def PC.hasInternal : PC → Bool
  | .setFlag | .setRel _ | .unsetFlag | .unsetRel | .eventTest | .eventCall | .eventRel | .timerTest | .timerCall
  | .timerRel => true
  | _ => false

/-- The thread has `periodic_wait_mutex_`. -/
def PC.hasPeriodic : PC → Bool
  | .test | .check | .timerLock | .timerTest | .timerCall | .timerRel | .unlock => true
  | _ => false

/-- Places of the timer thread. -/
def PC.timer : PC → Bool
  | .off | .loop | .lock | .test | .asleep | .again | .late | .check | .timerLock | .timerTest | .timerCall | .timerRel
  | .unlock | .finish => true
  | _ => false

/-- The thread exists exactly while a callback is set. -/
def Cons (s : Sh) : Prop :=
  (s.set = true → s.active = true ∧ (s.thread = .spawned ∨ s.thread = .running)) ∧
  (s.set = false → s.active = false ∧ s.thread = .none)

/-- Facts about the thread with `event_mutex_`; callbacks do not use the handler. -/
def PC.efact (s : Sh) : PC → Prop
  | .setInternal | .setFlag | .unsetTest => Cons s
  | .setRel true | .setOut | .unsetInternal | .unsetFlag => Cons s ∧ s.set = true
  | .setRel false | .setStart => s.set = true ∧ s.active = false ∧ s.thread = .none
  | .setSpawn => s.set = true ∧ s.active = true ∧ s.thread = .none
  | .unsetRel | .unsetStop => s.set = false ∧ s.active = true ∧ (s.thread = .spawned ∨ s.thread = .running)
  | .unsetNotify | .unsetJoin => s.set = false ∧ s.active = false ∧ s.thread ≠ .none
  | .unsetOut => Cons s ∧ s.set = false
  | .cbLock | .cbFlag | .cbStop | .cbNotify | .cbJoin | .cbOut => False
  | _ => True

/-- Facts about the timer thread. -/
def PC.tfact (s : Sh) : PC → Prop
  | .off => s.thread ≠ .running
  | .finish => s.thread = .running ∧ s.active = false
  | .loop | .lock | .test | .asleep | .again | .late | .check | .unlock | .timerLock | .timerRel => s.thread = .running
  | .timerTest | .timerCall => s.thread = .running
  | _ => True

/-- Facts about the thread with `internal_callback_mutex_`. -/
def PC.ifact (s : Sh) : PC → Prop
  | .timerCall | .eventCall => s.set = true
  | _ => True

/-- Facts about one thread. -/
structure Loc (s : Sh) (i : Nat) (x : PC) : Prop where
  event : x.hasEvent = true ↔ s.event = some i
  internal : x.hasInternal = true ↔ s.internal = some i
  periodic : x.hasPeriodic = true ↔ s.periodic = some i
  timer : x.timer = true ↔ i = 0
  efact : x.efact s
  tfact : x.tfact s
  ifact : x.ifact s

/-- Facts about the handler. -/
structure Glob (s : Sh) : Prop where
  cons : s.event = none → Cons s
  crashed : s.crashed = false

theorem ran_event {i : Nat} {s s' : Sh} {x y : PC} {b : Bool} (hx : Loc s i x) (hr : Ran i s x s' y b) :
    (y.hasEvent = true ↔ s'.event = some i) := by
  have h := hx.event
  cases hr <;> first | exact h | exact ⟨fun _ => rfl, fun _ => rfl⟩ | exact ⟨nofun, nofun⟩

theorem ran_internal {i : Nat} {s s' : Sh} {x y : PC} {b : Bool} (hx : Loc s i x) (hr : Ran i s x s' y b) :
    (y.hasInternal = true ↔ s'.internal = some i) := by
  have h := hx.internal
  cases hr <;> first | exact h | exact ⟨fun _ => rfl, fun _ => rfl⟩ | exact ⟨nofun, nofun⟩

theorem ran_periodic {i : Nat} {s s' : Sh} {x y : PC} {b : Bool} (hx : Loc s i x) (hr : Ran i s x s' y b) :
    (y.hasPeriodic = true ↔ s'.periodic = some i) := by
  have h := hx.periodic
  cases hr <;> first | exact h | exact ⟨fun _ => rfl, fun _ => rfl⟩ | exact ⟨nofun, nofun⟩

theorem ran_timer {i : Nat} {s s' : Sh} {x y : PC} {b : Bool} (hx : Loc s i x) (hr : Ran i s x s' y b) :
    (y.timer = true ↔ i = 0) := by
  have h := hx.timer
  cases hr <;> exact h

/-- A step of another thread keeps what a thread has. -/
theorem owner_keep {i j : Nat} {o o' : Option Nat} {p : Bool} (hj : j ≠ i) (h : p = true ↔ o = some j)
    (ho : o' = o ∨ (o = none ∧ o' = some i) ∨ (o = some i ∧ o' = none)) : p = true ↔ o' = some j := by
  rcases ho with rfl | ⟨rfl, rfl⟩ | ⟨rfl, rfl⟩
  · exact h
  · rw [h]
    exact ⟨nofun, fun e => absurd (Option.some.inj e).symm hj⟩
  · rw [h]
    exact ⟨fun e => absurd (Option.some.inj e).symm hj, nofun⟩

theorem ran_event_other {i : Nat} {s s' : Sh} {x y : PC} {b : Bool} (hx : Loc s i x) (hr : Ran i s x s' y b) :
    s'.event = s.event ∨ (s.event = none ∧ s'.event = some i) ∨ (s.event = some i ∧ s'.event = none) := by
  have h := hx.event
  cases hr <;> first | exact Or.inl rfl | exact Or.inr (Or.inl ⟨by assumption, rfl⟩) | exact Or.inr (Or.inr ⟨h.1 rfl, rfl⟩)

theorem ran_internal_other {i : Nat} {s s' : Sh} {x y : PC} {b : Bool} (hx : Loc s i x) (hr : Ran i s x s' y b) :
    s'.internal = s.internal ∨ (s.internal = none ∧ s'.internal = some i) ∨
      (s.internal = some i ∧ s'.internal = none) := by
  have h := hx.internal
  cases hr <;> first | exact Or.inl rfl | exact Or.inr (Or.inl ⟨by assumption, rfl⟩) | exact Or.inr (Or.inr ⟨h.1 rfl, rfl⟩)

theorem ran_periodic_other {i : Nat} {s s' : Sh} {x y : PC} {b : Bool} (hx : Loc s i x) (hr : Ran i s x s' y b) :
    s'.periodic = s.periodic ∨ (s.periodic = none ∧ s'.periodic = some i) ∨
      (s.periodic = some i ∧ s'.periodic = none) := by
  have h := hx.periodic
  cases hr <;> first | exact Or.inl rfl | exact Or.inr (Or.inl ⟨by assumption, rfl⟩) | exact Or.inr (Or.inr ⟨h.1 rfl, rfl⟩)

/-- The facts mention only the flags and the thread. -/
theorem efact_congr {s s' : Sh} {z : PC} (h1 : s'.set = s.set) (h2 : s'.active = s.active)
    (h3 : s'.thread = s.thread) (h : z.efact s) : z.efact s' := by
  cases z <;> first
    | exact trivial
    | exact h.elim
    | (simpa only [PC.efact, Cons, h1, h2, h3] using h)
    | (rename_i was; cases was <;> simpa only [PC.efact, Cons, h1, h2, h3] using h)

theorem tfact_congr {s s' : Sh} {z : PC} (h2 : s'.active = s.active) (h3 : s'.thread = s.thread) (h : z.tfact s) :
    z.tfact s' := by
  cases z <;> first | exact trivial | (simpa only [PC.tfact, h2, h3] using h)

/-- The timer thread starts to run. -/
theorem efact_off {s s' : Sh} {z : PC} (h1 : s'.set = s.set) (h2 : s'.active = s.active) (h0 : s.thread = .spawned)
    (h3 : s'.thread = .running) (h : z.efact s) : z.efact s' := by
  cases z <;> first
    | exact trivial
    | exact h.elim
    | (cases hs : s.set <;> simp only [PC.efact, Cons, h1, h2, h3, h0, hs] at h ⊢ <;> simp_all; done)
    | (rename_i was; cases was <;> (simp only [PC.efact, Cons, h1, h2, h3, h0] at h ⊢; simp_all))

/-- The timer thread ends. -/
theorem efact_finish {s s' : Sh} {z : PC} (h1 : s'.set = s.set) (h2 : s'.active = s.active) (h0 : s.thread = .running)
    (ha : s.active = false) (h3 : s'.thread = .ended) (h : z.efact s) : z.efact s' := by
  cases z <;> first
    | exact trivial
    | exact h.elim
    | (simp only [PC.efact, Cons, h1, h2, h3, h0, ha] at h ⊢; simp_all)
    | (rename_i was; cases was <;> (simp only [PC.efact, Cons, h1, h2, h3, h0, ha] at h ⊢; simp_all))

/-- A thread without `event_mutex_` changes neither flags nor thread, except the timer thread at its ends. -/
theorem ran_flags {i : Nat} {s s' : Sh} {x y : PC} {b : Bool} (hr : Ran i s x s' y b) (hx : x.hasEvent = false) :
    (s'.set = s.set ∧ s'.active = s.active ∧ s'.thread = s.thread) ∨ x = .off ∨ x = .finish := by
  cases hr <;> first | exact Or.inl ⟨rfl, rfl, rfl⟩ | exact Or.inr (Or.inl rfl) | exact Or.inr (Or.inr rfl) | cases hx

theorem local_ : (prog .plain).Local (fun _ => True) Glob Loc where
  start := by
    intro sh i x op y _ _ hx hy
    cases x with
    | idle =>
      cases op <;> cases hy <;> exact ⟨hx.event, hx.internal, hx.periodic, hx.timer, trivial, trivial, trivial⟩
    | _ => cases op <;> cases hy
  shared := by
    intro sh i x sh' y b hg hx hr
    have hr := run_ran hr
    have he := ran_event hx hr
    have hc := hg.crashed
    have hf := hx.efact
    have ht := hx.tfact
    refine ⟨fun hn => ?_, ?_⟩
    · cases hr with
      | setOut => exact hf.1
      | unsetOut => exact hf.1
      | off h =>
        have := hg.cons hn
        simp only [Cons, h] at this ⊢
        simp_all
      | finish =>
        have h1 := hg.cons hn
        have h2 : sh.thread = .running ∧ sh.active = false := ht
        simp only [Cons, h2] at h1
        simp_all
      | _ => first
        | exact hg.cons hn
        | (cases hn; done)
        | (have h := (hx.event.1 rfl).symm.trans hn; cases h; done)
    · cases hr with
      | setSpawn =>
        have h2 : sh.set = true ∧ sh.active = true ∧ sh.thread = .none := hf
        simp [hc, h2.2.2]
      | _ => exact hc
  run := by
    intro sh i x sh' y b hg hx hr
    have hr := run_ran hr
    refine ⟨ran_event hx hr, ran_internal hx hr, ran_periodic hx hr, ran_timer hx hr, ?_, ?_, ?_⟩
    · have hf := hx.efact
      cases hr <;> first
        | exact trivial
        | exact hf
        | exact hg.cons (by assumption)
        | (simp only [PC.efact, Cons] at hf ⊢; simp_all; done)
        | skip
      case unsetStop =>
        have hf : sh.set = false ∧ sh.active = true ∧ (sh.thread = .spawned ∨ sh.thread = .running) := hf
        refine ⟨hf.1, rfl, fun h => ?_⟩
        have h : sh.thread = .none := h
        rw [h] at hf
        simp at hf
      case setFlag =>
        cases hs : sh.set <;> simp only [PC.efact, Cons, hs] at hf ⊢ <;> simp_all
    · have hf := hx.tfact
      cases hr <;> first
        | exact trivial
        | exact hf
        | exact rfl
        | (simp only [PC.tfact] at hf ⊢; simp_all; done)
    · cases hr <;> first | exact trivial | assumption
  other := by
    intro sh i x sh' y b j z hg hx hr hj hz
    have hr := run_ran hr
    refine ⟨owner_keep hj hz.event (ran_event_other hx hr), owner_keep hj hz.internal (ran_internal_other hx hr),
      owner_keep hj hz.periodic (ran_periodic_other hx hr), hz.timer, ?_, ?_, ?_⟩
    · cases hze : z.hasEvent with
      | false => have hf := hz.efact; cases z <;> first | exact trivial | exact hf.elim | cases hze
      | true =>
        have hxe : x.hasEvent = false := by
          cases h : x.hasEvent with
          | false => rfl
          | true =>
            have h1 := (hx.event.1 h).symm.trans (hz.event.1 hze)
            exact absurd (Option.some.inj h1).symm hj
        rcases ran_flags hr hxe with ⟨h1, h2, h3⟩ | rfl | rfl
        · exact efact_congr h1 h2 h3 hz.efact
        · cases hr with | off h => exact efact_off (s := sh) rfl rfl h rfl hz.efact
        · have h := hx.tfact
          cases hr; exact efact_finish (s := sh) rfl rfl h.1 h.2 rfl hz.efact
    · have hf := hz.tfact
      have hxf := hx.efact
      cases hzt : z.timer with
      | false => cases z <;> first | exact trivial | cases hzt
      | true =>
        have hxt : x.timer = false := by
          cases h : x.timer with
          | false => rfl
          | true =>
            have h1 := hx.timer.1 h
            have h2 := hz.timer.1 hzt
            exact absurd (h2.trans h1.symm) hj
        cases hr <;> first
          | (cases hxt; done)
          | exact tfact_congr rfl rfl hf
          | (cases z <;> first | exact trivial | (simp only [PC.efact, PC.tfact] at hf hxf ⊢; simp_all; done))
    · have hf := hz.ifact
      cases hzi : z.hasInternal with
      | false => cases z <;> first | exact trivial | cases hzi
      | true =>
        have hxi : x.hasInternal = false := by
          cases h : x.hasInternal with
          | false => rfl
          | true =>
            have h1 := (hx.internal.1 h).symm.trans (hz.internal.1 hzi)
            exact absurd (Option.some.inj h1).symm hj
        cases hr <;> first | (cases hxi; done) | (cases z <;> first | exact trivial | exact hf)
  woken := by
    intro sh i x y hx hy
    cases x <;> cases hy
    exact ⟨hx.event, hx.internal, hx.periodic, hx.timer, trivial, hx.tfact, trivial⟩
  late := by
    intro sh i x y hx hy
    cases x <;> cases hy
    exact ⟨hx.event, hx.internal, hx.periodic, hx.timer, trivial, hx.tfact, trivial⟩

theorem init_at {c : Callback} {n j : Nat} {x : PC} (h : (init c n).pcs[j]? = some x) :
    (j = 0 ∧ x = .off) ∨ (j ≠ 0 ∧ x = .idle) := by
  cases j with
  | zero => cases h; exact Or.inl ⟨rfl, rfl⟩
  | succ j =>
    refine Or.inr ⟨nofun, ?_⟩
    have h : (List.replicate n PC.idle)[j]? = some x := h
    exact (List.mem_replicate.1 (List.mem_of_getElem? h)).2

theorem inv {n : Nat} {s : Conf (prog .plain)} (h : (prog .plain).system.Reachable (init .plain n) s) :
    (prog .plain).Inv Glob Loc s := by
  refine System.ReachableBy.invariant (S := (prog .plain).system) (fun s => (prog .plain).Inv Glob Loc s) ?_
    (fun s l s' hi hA hs => local_.step hi hA (Prog.step_stepped hs)) h
  refine ⟨⟨fun _ => ⟨nofun, fun _ => ⟨rfl, rfl⟩⟩, rfl⟩, fun j x hx => ?_⟩
  rcases init_at hx with ⟨rfl, rfl⟩ | ⟨hj, rfl⟩
  · exact ⟨⟨nofun, nofun⟩, ⟨nofun, nofun⟩, ⟨nofun, nofun⟩, ⟨fun _ => rfl, fun _ => rfl⟩, trivial, nofun, trivial⟩
  · exact ⟨⟨nofun, nofun⟩, ⟨nofun, nofun⟩, ⟨nofun, nofun⟩, ⟨nofun, fun h => absurd h hj⟩, trivial, trivial, trivial⟩

/-- The timer thread sleeps only while it has to, or somebody is about to notify it. -/
def Sleep (s : Conf (prog .plain)) : Prop :=
  ∀ (j : Nat) (z : PC), s.pcs[j]? = some z → (woken z).isSome →
    s.sh.active = true ∨ ∃ (k : Nat) (w : PC), s.pcs[k]? = some w ∧ w = .unsetNotify

theorem sleep {n : Nat} {s : Conf (prog .plain)} (h : (prog .plain).system.Reachable (init .plain n) s) :
    Sleep s := by
  suffices (prog .plain).Inv Glob Loc s ∧ Sleep s from this.2
  refine System.ReachableBy.invariant (S := (prog .plain).system)
    (fun s => (prog .plain).Inv Glob Loc s ∧ Sleep s) ?_ ?_ h
  · refine ⟨inv .init, fun j z hz hw => ?_⟩
    rcases init_at hz with ⟨-, rfl⟩ | ⟨-, rfl⟩ <;> cases hw
  · intro s l s' ⟨hi, hS⟩ hA hs
    refine ⟨local_.step hi hA (Prog.step_stepped hs), ?_⟩
    refine Prog.sleep_step (P := prog .plain) (fun sh _ => sh.active = true) (fun w => w = .unsetNotify)
      ?_ ?_ ?_ ?_ ?_ ?_ hS (Prog.step_stepped hs)
    · intro x op y hy
      cases x <;> cases op <;> cases hy <;> exact ⟨rfl, nofun⟩
    · intro x y hy
      cases x <;> cases hy
      exact ⟨rfl, nofun⟩
    · intro x y hy
      cases x <;> cases hy
      exact ⟨rfl, nofun⟩
    · intro i x sh y b _ hr hw
      cases run_ran hr <;> first | (cases hw; done) | assumption
    · rintro i x sh y _ hr rfl
      have := run_ran (i := i) (x := .unsetNotify) hr
      cases this
    · intro i x sh y j z _ hr _ _ _ ha
      cases run_ran hr <;> first | exact Or.inr rfl | exact Or.inl ha | exact Or.inl rfl

end Verif.Periodic
