import Verif.Model.SignalEvent
import Verif.Lemmas.Prog
import Verif.Lemmas.StdMap
/-!
Invariants of `SignalEventHandler`.
-/
namespace Verif.SignalEvent
open Verif.Threads

/-- The branches of `run`. -/
inductive Ran (i : Nat) (s : Sh) : Callback → PC → Sh → PC → Bool → Prop
  | sigInc {c : Callback} : Ran i s c .sigInc { s with received := bump s.received } .sigNotify false
  | sigNotify {c : Callback} : Ran i s c .sigNotify s .idle true
  | setLock {c : Callback} (h : Nat) (hf : (s.hs h).event = none) :
      Ran i s c (.setLock h) (s.put h { s.hs h with event := some i }) (.setInternal h) false
  | setInternal {c : Callback} (h : Nat) (hf : (s.hs h).internal = none) :
      Ran i s c (.setInternal h) (s.put h { s.hs h with internal := some i }) (.setFlag h) false
  | setFlag {c : Callback} (h : Nat) : Ran i s c (.setFlag h) (s.put h { s.hs h with set := true }) (.setRel h (s.hs h).set) false
  | setChanged {c : Callback} (h : Nat) : Ran i s c (.setRel h true) (s.put h { s.hs h with internal := none }) (.setOut h) false
  | setNew {c : Callback} (h : Nat) : Ran i s c (.setRel h false) (s.put h { s.hs h with internal := none }) (.setMgr h) false
  | setMgrYes {c : Callback} (h : Nat) (hm : (s.hs h).inMgr = true) :
      Ran i s c (.setMgr h) (s.put h { s.hs h with inMgr := true }) (.setOut h) false
  | setMgrNo {c : Callback} (h : Nat) (hm : (s.hs h).inMgr = false) :
      Ran i s c (.setMgr h) (s.put h { s.hs h with inMgr := true }) (.setReg h) false
  | setReg {c : Callback} (h : Nat) (hf : s.cb = none) : Ran i s c (.setReg h) (register s h) (.setOut h) false
  | setOut {c : Callback} (h : Nat) : Ran i s c (.setOut h) (s.put h { s.hs h with event := none }) .idle false
  | unsetLock {c : Callback} (h : Nat) (hf : (s.hs h).event = none) :
      Ran i s c (.unsetLock h) (s.put h { s.hs h with event := some i }) (.unsetTest h) false
  | unsetYes {c : Callback} (h : Nat) (hs : (s.hs h).set = true) : Ran i s c (.unsetTest h) s (.unsetInternal h) false
  | unsetNo {c : Callback} (h : Nat) (hs : (s.hs h).set = false) : Ran i s c (.unsetTest h) s (.unsetOut h) false
  | unsetInternal {c : Callback} (h : Nat) (hf : (s.hs h).internal = none) :
      Ran i s c (.unsetInternal h) (s.put h { s.hs h with internal := some i }) (.unsetFlag h) false
  | unsetFlag {c : Callback} (h : Nat) : Ran i s c (.unsetFlag h) (s.put h { s.hs h with set := false }) (.unsetRel h) false
  | unsetRel {c : Callback} (h : Nat) : Ran i s c (.unsetRel h) (s.put h { s.hs h with internal := none }) (.unsetMgr h) false
  | unsetMgrYes {c : Callback} (h : Nat) (hm : (s.hs h).inMgr = true) :
      Ran i s c (.unsetMgr h) (s.put h { s.hs h with inMgr := false }) (.unsetReg h) false
  | unsetMgrNo {c : Callback} (h : Nat) (hm : (s.hs h).inMgr = false) :
      Ran i s c (.unsetMgr h) (s.put h { s.hs h with inMgr := false }) (.unsetOut h) false
  | unsetReg {c : Callback} (h : Nat) (hf : s.cb = none) : Ran i s c (.unsetReg h) (unregister s h) (.unsetOut h) false
  | unsetOut {c : Callback} (h : Nat) : Ran i s c (.unsetOut h) (s.put h { s.hs h with event := none }) .idle false
  | evLock {c : Callback} (h : Nat) (k : Rest) (hf : (s.hs h).internal = none) :
      Ran i s c (.evLock h k) (s.put h { s.hs h with internal := some i }) (.evTest h k) false
  | evYes {c : Callback} (h : Nat) (k : Rest) (hs : (s.hs h).set = true) : Ran i s c (.evTest h k) s (.evCall h k) false
  | evNo {c : Callback} (h : Nat) (k : Rest) (hs : (s.hs h).set = false) : Ran i s c (.evTest h k) s (.evRel h k) false
  | evCall (h : Nat) (k : Rest) :
      Ran i s .plain (.evCall h k) (s.put h { s.hs h with calls := (s.hs h).calls + 1 }) (.evRel h k) false
  | evDone {c : Callback} (h : Nat) : Ran i s c (.evRel h none) (s.put h { s.hs h with internal := none }) .idle false
  | evNext {c : Callback} (h : Nat) (rest : List (Nat × Nat)) :
      Ran i s c (.evRel h (some rest)) (s.put h { s.hs h with internal := none }) (.hCall rest) false
  | hYes {c : Callback} (hr : s.received > 0) : Ran i s c .hTest s .hDec false
  | hNo {c : Callback} (hr : s.received = 0) : Ran i s c .hTest s .hSleep false
  | hSleep {c : Callback} : Ran i s c .hSleep s .asleep false
  | hDec {c : Callback} : Ran i s c .hDec { s with received := drop s.received } .hCb false
  | hCb {c : Callback} (hf : s.cb = none) : Ran i s c .hCb { s with cb := some i } (.hCall s.callbacks) false
  | hEnd {c : Callback} : Ran i s c (.hCall []) { s with cb := none } .hTest false
  | hNext {c : Callback} (p : Nat × Nat) (rest : List (Nat × Nat)) :
      Ran i s c (.hCall (p :: rest)) s (.evLock p.2 (some rest)) false
  | evU (h : Nat) (k : Rest) : Ran i s .unset (.evCall h k) s (.cbLock h k) false
  | evC (h : Nat) (k : Rest) : Ran i s .change (.evCall h k) s (.cbLock h k) false
  | cbLockU (h : Nat) (k : Rest) (hf : (s.hs h).event = none) :
      Ran i s .unset (.cbLock h k) (s.put h { s.hs h with event := some i }) (.cbFlag h k) false
  | cbLockC (h : Nat) (k : Rest) (hf : (s.hs h).event = none) :
      Ran i s .change (.cbLock h k) (s.put h { s.hs h with event := some i }) (.cbFlag h k) false
  | cbFlagU (h : Nat) (k : Rest) :
      Ran i s .unset (.cbFlag h k) (s.put h { s.hs h with set := false }) (.cbMgr h k) false
  | cbFlagC (h : Nat) (k : Rest) : Ran i s .change (.cbFlag h k) s (.cbOut h k) false
  | cbMgrYes (h : Nat) (k : Rest) (hm : (s.hs h).inMgr = true) :
      Ran i s .unset (.cbMgr h k) (s.put h { s.hs h with inMgr := false }) (.cbReg h k) false
  | cbMgrNo (h : Nat) (k : Rest) (hm : (s.hs h).inMgr = false) :
      Ran i s .unset (.cbMgr h k) (s.put h { s.hs h with inMgr := false }) (.cbOut h k) false
  | cbReg (h : Nat) (k : Rest) (hf : s.cb = none) :
      Ran i s .unset (.cbReg h k) (unregister s h) (.cbOut h k) false
  | cbOutU (h : Nat) (k : Rest) : Ran i s .unset (.cbOut h k)
      (s.put h { s.hs h with event := none, calls := (s.hs h).calls + 1 }) (.evRel h k) false
  | cbOutC (h : Nat) (k : Rest) : Ran i s .change (.cbOut h k)
      (s.put h { s.hs h with event := none, calls := (s.hs h).calls + 1 }) (.evRel h k) false

theorem not_isSome {α : Type} {o : Option α} (h : ¬ o.isSome = true) : o = none := by
  cases o with
  | none => rfl
  | some a => exact absurd rfl h

theorem run_ran {c : Callback} {i : Nat} {s s' : Sh} {x y : PC} {b : Bool} (h : run c i s x = some (s', y, b)) :
    Ran i s c x s' y b := by
  cases x with
  | idle | asleep => cases h
  | sigInc => cases h; exact .sigInc
  | sigNotify => cases h; exact .sigNotify
  | setLock k =>
    simp only [run] at h
    split at h
    · cases h
    · rename_i hl; cases h; exact .setLock k (not_isSome hl)
  | setInternal k =>
    simp only [run] at h
    split at h
    · cases h
    · rename_i hl; cases h; exact .setInternal k (not_isSome hl)
  | setFlag k => cases h; exact .setFlag k
  | setRel k was =>
    cases was with
    | true => cases h; exact .setChanged k
    | false => cases h; exact .setNew k
  | setMgr k =>
    cases hm : (s.hs k).inMgr with
    | true => simp only [run, hm] at h; cases h; exact .setMgrYes k hm
    | false => simp only [run, hm] at h; cases h; exact .setMgrNo k hm
  | setReg k =>
    simp only [run] at h
    split at h
    · cases h
    · rename_i hl; cases h; exact .setReg k (not_isSome hl)
  | setOut k => cases h; exact .setOut k
  | unsetLock k =>
    simp only [run] at h
    split at h
    · cases h
    · rename_i hl; cases h; exact .unsetLock k (not_isSome hl)
  | unsetTest k =>
    cases hs : (s.hs k).set with
    | true => simp only [run, hs] at h; cases h; exact .unsetYes k hs
    | false => simp only [run, hs] at h; cases h; exact .unsetNo k hs
  | unsetInternal k =>
    simp only [run] at h
    split at h
    · cases h
    · rename_i hl; cases h; exact .unsetInternal k (not_isSome hl)
  | unsetFlag k => cases h; exact .unsetFlag k
  | unsetRel k => cases h; exact .unsetRel k
  | unsetMgr k =>
    cases hm : (s.hs k).inMgr with
    | true => simp only [run, hm] at h; cases h; exact .unsetMgrYes k hm
    | false => simp only [run, hm] at h; cases h; exact .unsetMgrNo k hm
  | unsetReg k =>
    simp only [run] at h
    split at h
    · cases h
    · rename_i hl; cases h; exact .unsetReg k (not_isSome hl)
  | unsetOut k => cases h; exact .unsetOut k
  | evLock k r =>
    simp only [run] at h
    split at h
    · cases h
    · rename_i hl; cases h; exact .evLock k r (not_isSome hl)
  | evTest k r =>
    cases hs : (s.hs k).set with
    | true => simp only [run, hs] at h; cases h; exact .evYes k r hs
    | false => simp only [run, hs] at h; cases h; exact .evNo k r hs
  | evCall k r =>
    cases c with
    | plain => cases h; exact .evCall k r
    | unset => cases h; exact .evU k r
    | change => cases h; exact .evC k r
  | evRel k r =>
    cases r with
    | none => cases h; exact .evDone k
    | some rest => cases h; exact .evNext k rest
  | hTest =>
    by_cases hr : s.received > 0
    · simp only [run, if_pos hr] at h; cases h; exact .hYes hr
    · simp only [run, if_neg hr] at h; cases h; exact .hNo (by omega)
  | hSleep => cases h; exact .hSleep
  | hDec =>
    simp only [run, Option.some.injEq, Prod.mk.injEq] at h
    obtain ⟨rfl, rfl, rfl⟩ := h
    exact .hDec
  | hCb =>
    simp only [run] at h
    split at h
    · cases h
    · rename_i hl; cases h; exact .hCb (not_isSome hl)
  | hCall rest =>
    cases rest with
    | nil => cases h; exact .hEnd
    | cons p rest => cases h; exact .hNext p rest
  | cbLock k r =>
    cases c with
    | plain => simp [run] at h
    | unset =>
      simp only [run, reduceCtorEq, if_false] at h
      split at h
      · cases h
      · rename_i hl; cases h; exact .cbLockU k r (not_isSome hl)
    | change =>
      simp only [run, reduceCtorEq, if_false] at h
      split at h
      · cases h
      · rename_i hl; cases h; exact .cbLockC k r (not_isSome hl)
  | cbFlag k r =>
    cases c with
    | plain => cases h
    | unset => cases h; exact .cbFlagU k r
    | change => cases h; exact .cbFlagC k r
  | cbMgr k r =>
    cases c with
    | unset =>
      cases hm : (s.hs k).inMgr with
      | true => simp only [run, hm, ne_eq, not_true_eq_false, if_false, if_true] at h; cases h; exact .cbMgrYes k r hm
      | false => simp only [run, hm, ne_eq, not_true_eq_false, if_false] at h; cases h; exact .cbMgrNo k r hm
    | _ => simp [run] at h
  | cbReg k r =>
    cases c with
    | unset =>
      simp only [run, ne_eq, not_true_eq_false, if_false] at h
      split at h
      · cases h
      · rename_i hl; cases h; exact .cbReg k r (not_isSome hl)
    | _ => simp [run] at h
  | cbOut k r =>
    cases c with
    | plain => simp [run] at h
    | unset => simp only [run, reduceCtorEq, if_false] at h; cases h; exact .cbOutU k r
    | change => simp only [run, reduceCtorEq, if_false] at h; cases h; exact .cbOutC k r

/-- The handler whose `event_mutex_` the thread has. -/
def PC.ev : PC → Option Nat
  | .setInternal h | .setFlag h | .setRel h _ | .setMgr h | .setReg h | .setOut h | .unsetTest h | .unsetInternal h
  | .unsetFlag h | .unsetRel h | .unsetMgr h | .unsetReg h | .unsetOut h
  | .cbFlag h _ | .cbMgr h _ | .cbReg h _ | .cbOut h _ => some h
  | _ => none

/-- The handler whose `internal_callback_mutex_` the thread has. -/
def PC.int : PC → Option Nat
  | .setFlag h | .setRel h _ | .unsetFlag h | .unsetRel h | .evTest h _ | .evCall h _ | .evRel h _
  | .cbLock h _ | .cbFlag h _ | .cbMgr h _ | .cbReg h _ | .cbOut h _ => some h
  | _ => none

/-- The thread has `active_callbacks_mutex_`. -/
def PC.hasCb : PC → Bool
  | .hCall _ | .evLock _ (some _) | .evTest _ (some _) | .evCall _ (some _) | .evRel _ (some _)
  | .cbLock _ (some _) | .cbFlag _ (some _) | .cbMgr _ (some _) | .cbReg _ (some _) | .cbOut _ (some _) => true
  | _ => false

/-- Places of the manager's thread. -/
def PC.mgr : PC → Bool
  | .hTest | .hSleep | .asleep | .hDec | .hCb | .hCall _ | .evLock _ (some _) | .evTest _ (some _) | .evCall _ (some _)
  | .evRel _ (some _)
  | .cbLock _ (some _) | .cbFlag _ (some _) | .cbMgr _ (some _) | .cbReg _ (some _) | .cbOut _ (some _) => true
  | _ => false

/-- Places inside a callback that uses its handler. -/
def PC.inCb : PC → Bool
  | .cbLock _ _ | .cbFlag _ _ | .cbMgr _ _ | .cbReg _ _ | .cbOut _ _ => true
  | _ => false

/-- The ids have not wrapped. -/
def Ok (s : Sh) : Prop := s.regs < 4294967296

/-- The manager has the handler under the handler's id. -/
def E (s : Sh) (h : Nat) : Prop := StdMap.get (s.hs h).id s.callbacks = some h

/-- A handler that nobody is setting or unsetting is registered while it is set. -/
def Cons (s : Sh) (h : Nat) : Prop :=
  (s.hs h).inMgr = (s.hs h).set ∧ ((s.hs h).set = false → ¬ E s h) ∧ ((s.hs h).set = true → Ok s → E s h)

/-- Facts about the thread with an `event_mutex_`. -/
def PC.efact (s : Sh) : PC → Prop
  | .setInternal h | .setFlag h | .unsetTest h => Cons s h
  | .setRel h true | .setOut h | .unsetInternal h | .unsetFlag h => Cons s h ∧ (s.hs h).set = true
  | .setRel h false | .setMgr h => (s.hs h).set = true ∧ (s.hs h).inMgr = false ∧ ¬ E s h
  | .setReg h => (s.hs h).set = true ∧ (s.hs h).inMgr = true ∧ ¬ E s h
  | .unsetRel h | .unsetMgr h => (s.hs h).set = false ∧ (s.hs h).inMgr = true ∧ (Ok s → E s h)
  | .unsetReg h => (s.hs h).set = false ∧ (s.hs h).inMgr = false ∧ (Ok s → E s h)
  | .unsetOut h => Cons s h ∧ (s.hs h).set = false
  | .cbFlag h _ => Cons s h ∧ (s.hs h).set = true
  | .cbMgr h _ => (s.hs h).set = false ∧ (s.hs h).inMgr = true ∧ (Ok s → E s h)
  | .cbReg h _ => (s.hs h).set = false ∧ (s.hs h).inMgr = false ∧ (Ok s → E s h)
  | .cbOut h _ => Cons s h
  | _ => True

/-- Facts about the thread with an `internal_callback_mutex_`. -/
def PC.ifact (s : Sh) : PC → Prop
  | .evCall h _ | .cbLock h _ => (s.hs h).set = true
  | _ => True

/-- Facts about the manager's thread while it calls callbacks. -/
def PC.rfact (s : Sh) : PC → Prop
  | .hCall rest => ∀ p ∈ rest, p ∈ s.callbacks
  | .evLock h (some rest) | .evTest h (some rest) | .evCall h (some rest) | .evRel h (some rest)
  | .cbLock h (some rest) | .cbFlag h (some rest) | .cbMgr h (some rest) | .cbReg h (some rest)
  | .cbOut h (some rest) =>
    (∃ k, (k, h) ∈ s.callbacks) ∧ ∀ p ∈ rest, p ∈ s.callbacks
  | _ => True

/-- Facts about one thread. -/
structure Loc (c : Callback) (s : Sh) (i : Nat) (x : PC) : Prop where
  event : ∀ h, x.ev = some h ↔ (s.hs h).event = some i
  internal : ∀ h, x.int = some h ↔ (s.hs h).internal = some i
  cb : x.hasCb = true ↔ s.cb = some i
  mgr : x.mgr = true ↔ i = 0
  efact : x.efact s
  ifact : x.ifact s
  rfact : x.rfact s
  inCb : c = .plain → x.inCb = false

/-- Facts about the handlers and the manager. -/
structure Glob (s : Sh) : Prop where
  sorted : StdMap.Sorted s.callbacks
  entry : ∀ k h, StdMap.get k s.callbacks = some h → (s.hs h).id = k
  fresh : Ok s → ∀ k h, StdMap.get k s.callbacks = some h → k ≤ s.regs
  last : s.lastId = s.regs % 4294967296
  cons : ∀ h, (s.hs h).event = none → Cons s h
  dead : Ok s → s.dead = false

theorem put_same (s : Sh) (h : Nat) (x : H) : (s.put h x).hs h = x := by simp [Sh.put]
theorem put_ne (s : Sh) {h j : Nat} (x : H) (e : j ≠ h) : (s.put h x).hs j = s.hs j := by simp [Sh.put, e]
theorem register_same (s : Sh) (h : Nat) : (register s h).hs h = { s.hs h with id := bump s.lastId } := by
  simp [register, Sh.put]
theorem register_ne (s : Sh) {h j : Nat} (e : j ≠ h) : (register s h).hs j = s.hs j := by simp [register, Sh.put, e]
theorem unregister_hs (s : Sh) (h : Nat) : (unregister s h).hs = s.hs := by unfold unregister; split <;> rfl
theorem unregister_cb (s : Sh) (h : Nat) : (unregister s h).cb = s.cb := by unfold unregister; split <;> rfl
theorem unregister_regs (s : Sh) (h : Nat) : (unregister s h).regs = s.regs := by unfold unregister; split <;> rfl
theorem unregister_last (s : Sh) (h : Nat) : (unregister s h).lastId = s.lastId := by unfold unregister; split <;> rfl

/-- How a step treats the owners of the mutexes of one kind. -/
def Owners (o o' : Nat → Option Nat) (i : Nat) (x y : Option Nat) : Prop :=
  (o' = o ∧ y = x) ∨
  (∃ h, x = none ∧ y = some h ∧ o h = none ∧ o' = fun j => if j = h then some i else o j) ∨
  (∃ h, x = some h ∧ y = none ∧ o' = fun j => if j = h then none else o j)

theorem Owners.self {o o' : Nat → Option Nat} {i : Nat} {x y : Option Nat} (ho : Owners o o' i x y)
    (hx : ∀ h, x = some h ↔ o h = some i) (h : Nat) : y = some h ↔ o' h = some i := by
  rcases ho with ⟨rfl, rfl⟩ | ⟨g, rfl, rfl, hn, rfl⟩ | ⟨g, rfl, rfl, rfl⟩
  · exact hx h
  · by_cases e : h = g
    · simp [e]
    · have := hx h
      simp only [if_neg e]
      constructor
      · intro h1; cases h1; exact absurd rfl e
      · intro h1; exact absurd (this.2 h1) nofun
  · by_cases e : h = g
    · simp [e]
    · have := hx h
      simp only [if_neg e]
      constructor
      · intro h1; cases h1
      · intro h1
        have := this.2 h1
        cases this
        exact absurd rfl e

theorem Owners.other {o o' : Nat → Option Nat} {i j : Nat} {x y z : Option Nat} (ho : Owners o o' i x y)
    (hx : ∀ h, x = some h ↔ o h = some i) (hj : j ≠ i) (hz : ∀ h, z = some h ↔ o h = some j) (h : Nat) :
    z = some h ↔ o' h = some j := by
  rcases ho with ⟨rfl, rfl⟩ | ⟨g, rfl, rfl, hn, rfl⟩ | ⟨g, rfl, rfl, rfl⟩
  · exact hz h
  · by_cases e : h = g
    · subst e
      rw [hz h, hn]
      simp [Ne.symm hj]
    · simp only [if_neg e]
      exact hz h
  · by_cases e : h = g
    · subst e
      rw [hz h, (hx h).1 rfl]
      simp [Ne.symm hj]
    · simp only [if_neg e]
      exact hz h

theorem put_field (s : Sh) (f : H → Option Nat) (h : Nat) (x : H) (e : f x = f (s.hs h)) :
    (fun j => f ((s.put h x).hs j)) = fun j => f (s.hs j) := by
  funext j
  by_cases hj : j = h
  · subst hj; rw [put_same, e]
  · rw [put_ne _ _ hj]

theorem put_field' (s : Sh) (f : H → Option Nat) (h : Nat) (x : H) (v : Option Nat) (e : f x = v) :
    (fun j => f ((s.put h x).hs j)) = fun j => if j = h then v else f (s.hs j) := by
  funext j
  by_cases hj : j = h
  · subst hj; rw [put_same, e, if_pos rfl]
  · rw [put_ne _ _ hj, if_neg hj]

theorem ran_event {c : Callback} {i : Nat} {s s' : Sh} {x y : PC} {b : Bool} (hr : Ran i s c x s' y b) :
    Owners (fun h => (s.hs h).event) (fun h => (s'.hs h).event) i x.ev y.ev := by
  cases hr with
  | setLock h hf => exact Or.inr (Or.inl ⟨h, rfl, rfl, hf, put_field' s H.event h _ _ rfl⟩)
  | unsetLock h hf => exact Or.inr (Or.inl ⟨h, rfl, rfl, hf, put_field' s H.event h _ _ rfl⟩)
  | cbLockU h k hf => exact Or.inr (Or.inl ⟨h, rfl, rfl, hf, put_field' s H.event h _ _ rfl⟩)
  | cbLockC h k hf => exact Or.inr (Or.inl ⟨h, rfl, rfl, hf, put_field' s H.event h _ _ rfl⟩)
  | cbOutU h k => exact Or.inr (Or.inr ⟨h, rfl, rfl, put_field' s H.event h _ _ rfl⟩)
  | cbOutC h k => exact Or.inr (Or.inr ⟨h, rfl, rfl, put_field' s H.event h _ _ rfl⟩)
  | setOut h => exact Or.inr (Or.inr ⟨h, rfl, rfl, put_field' s H.event h _ _ rfl⟩)
  | unsetOut h => exact Or.inr (Or.inr ⟨h, rfl, rfl, put_field' s H.event h _ _ rfl⟩)
  | setReg h => exact Or.inl ⟨put_field s H.event h _ rfl, rfl⟩
  | unsetReg h | cbReg h k => exact Or.inl ⟨by rw [unregister_hs], rfl⟩
  | _ => first
    | exact Or.inl ⟨rfl, rfl⟩
    | exact Or.inl ⟨put_field s H.event _ _ rfl, rfl⟩

theorem ran_internal {c : Callback} {i : Nat} {s s' : Sh} {x y : PC} {b : Bool} (hr : Ran i s c x s' y b) :
    Owners (fun h => (s.hs h).internal) (fun h => (s'.hs h).internal) i x.int y.int := by
  cases hr with
  | setInternal h hf => exact Or.inr (Or.inl ⟨h, rfl, rfl, hf, put_field' s H.internal h _ _ rfl⟩)
  | unsetInternal h hf => exact Or.inr (Or.inl ⟨h, rfl, rfl, hf, put_field' s H.internal h _ _ rfl⟩)
  | evLock h k hf => exact Or.inr (Or.inl ⟨h, rfl, rfl, hf, put_field' s H.internal h _ _ rfl⟩)
  | setChanged h => exact Or.inr (Or.inr ⟨h, rfl, rfl, put_field' s H.internal h _ _ rfl⟩)
  | setNew h => exact Or.inr (Or.inr ⟨h, rfl, rfl, put_field' s H.internal h _ _ rfl⟩)
  | unsetRel h => exact Or.inr (Or.inr ⟨h, rfl, rfl, put_field' s H.internal h _ _ rfl⟩)
  | evDone h => exact Or.inr (Or.inr ⟨h, rfl, rfl, put_field' s H.internal h _ _ rfl⟩)
  | evNext h => exact Or.inr (Or.inr ⟨h, rfl, rfl, put_field' s H.internal h _ _ rfl⟩)
  | setReg h => exact Or.inl ⟨put_field s H.internal h _ rfl, rfl⟩
  | unsetReg h | cbReg h k => exact Or.inl ⟨by rw [unregister_hs], rfl⟩
  | _ => first
    | exact Or.inl ⟨rfl, rfl⟩
    | exact Or.inl ⟨put_field s H.internal _ _ rfl, rfl⟩

theorem ran_cb {c : Callback} {i : Nat} {s s' : Sh} {x y : PC} {b : Bool} (hx : x.hasCb = true ↔ s.cb = some i)
    (hr : Ran i s c x s' y b) : (s'.cb = s.cb ∧ y.hasCb = x.hasCb) ∨ (s.cb = none ∧ s'.cb = some i ∧ y.hasCb = true) ∨
      (s.cb = some i ∧ s'.cb = none ∧ y.hasCb = false) := by
  cases hr with
  | hCb hf => exact Or.inr (Or.inl ⟨hf, rfl, rfl⟩)
  | hEnd => exact Or.inr (Or.inr ⟨hx.1 rfl, rfl, rfl⟩)
  | unsetReg h => exact Or.inl ⟨unregister_cb s h, rfl⟩
  | cbReg h k => cases k <;> exact Or.inl ⟨unregister_cb s h, rfl⟩
  | evLock h k | evYes h k | evNo h k | evCall h k | evU h k | evC h k | cbLockU h k | cbLockC h k | cbFlagU h k
  | cbFlagC h k | cbMgrYes h k | cbMgrNo h k | cbOutU h k | cbOutC h k => cases k <;> exact Or.inl ⟨rfl, rfl⟩
  | _ => exact Or.inl ⟨rfl, rfl⟩

theorem ran_mgr {c : Callback} {i : Nat} {s s' : Sh} {x y : PC} {b : Bool} (hr : Ran i s c x s' y b) : y.mgr = x.mgr := by
  cases hr with
  | evLock h k | evYes h k | evNo h k | evCall h k | evU h k | evC h k | cbLockU h k | cbLockC h k | cbFlagU h k
  | cbFlagC h k | cbMgrYes h k | cbMgrNo h k | cbReg h k | cbOutU h k | cbOutC h k => cases k <;> rfl
  | _ => rfl

/-- A step keeps the flags and the id of a handler whose `event_mutex_` the thread has not. -/
theorem ran_flags {c : Callback} {i : Nat} {s s' : Sh} {x y : PC} {b : Bool} (hr : Ran i s c x s' y b) (h : Nat) (hx : x.ev ≠ some h) :
    (s'.hs h).set = (s.hs h).set ∧ (s'.hs h).inMgr = (s.hs h).inMgr ∧ (s'.hs h).id = (s.hs h).id := by
  have ne : ∀ (g : Nat) (z : H), some g ≠ some h → ((s.put g z).hs h) = s.hs h :=
    fun g z hg => put_ne s z (fun e => hg (by rw [e]))
  have eq : ∀ (g : Nat) (z : H), z.set = (s.hs g).set → z.inMgr = (s.hs g).inMgr → z.id = (s.hs g).id →
      ((s.put g z).hs h).set = (s.hs h).set ∧ ((s.put g z).hs h).inMgr = (s.hs h).inMgr ∧
        ((s.put g z).hs h).id = (s.hs h).id := by
    intro g z h1 h2 h3
    by_cases e : h = g
    · subst e; rw [put_same]; exact ⟨h1, h2, h3⟩
    · rw [put_ne _ _ e]; exact ⟨rfl, rfl, rfl⟩
  cases hr with
  | setReg g => rw [register_ne s (fun e => hx (by rw [e]; rfl))]; exact ⟨rfl, rfl, rfl⟩
  | unsetReg g | cbReg g k => rw [unregister_hs]; exact ⟨rfl, rfl, rfl⟩
  | _ => first
    | exact ⟨rfl, rfl, rfl⟩
    | exact eq _ _ rfl rfl rfl
    | (rw [ne _ _ hx]; exact ⟨rfl, rfl, rfl⟩)

theorem ok_of {s s' : Sh} (h : s'.regs = s.regs) : Ok s' → Ok s := by unfold Ok; rw [h]; exact id

theorem ran_regs {c : Callback} {i : Nat} {s s' : Sh} {x y : PC} {b : Bool} (hr : Ran i s c x s' y b) : Ok s' → Ok s := by
  cases hr with
  | setReg g =>
    intro h
    have h : s.regs + 1 < 4294967296 := h
    show s.regs < 4294967296
    omega
  | unsetReg g | cbReg g k => unfold Ok; rw [unregister_regs]; exact id
  | _ => exact ok_of rfl

theorem ok_put (s : Sh) (h : Nat) (x : H) : Ok (s.put h x) ↔ Ok s := ⟨ok_of rfl, ok_of rfl⟩

theorem e_put (s : Sh) (h : Nat) (x : H) (j : Nat) (e : x.id = (s.hs h).id) : E (s.put h x) j ↔ E s j := by
  unfold E
  by_cases hj : j = h
  · subst hj; rw [put_same, e]; rfl
  · rw [put_ne _ _ hj]; rfl

theorem e_of {s s' : Sh} {h : Nat} (h1 : s'.callbacks = s.callbacks) (h2 : (s'.hs h).id = (s.hs h).id) :
    E s' h ↔ E s h := by
  unfold E; rw [h1, h2]

/-- Nothing relevant changes. -/
theorem cons_of {s s' : Sh} {h : Nat} (h1 : (s'.hs h).set = (s.hs h).set) (h2 : (s'.hs h).inMgr = (s.hs h).inMgr)
    (h3 : E s' h → E s h) (h4 : Ok s' → Ok s) (h5 : Ok s' → E s h → E s' h) (hc : Cons s h) : Cons s' h := by
  unfold Cons at hc ⊢
  rw [h1, h2]
  exact ⟨hc.1, fun a b => hc.2.1 a (h3 b), fun a b => h5 b (hc.2.2 a (h4 b))⟩

theorem efact_of {s s' : Sh} {z : PC} {h : Nat} (hz : z.ev = some h) (h1 : (s'.hs h).set = (s.hs h).set)
    (h2 : (s'.hs h).inMgr = (s.hs h).inMgr) (h3 : E s' h → E s h) (h4 : Ok s' → Ok s) (h5 : Ok s' → E s h → E s' h)
    (hf : z.efact s) : z.efact s' := by
  have hc := cons_of h1 h2 h3 h4 h5
  cases z <;> cases hz <;> first
    | exact hc hf
    | exact ⟨hc hf.1, h1.trans hf.2⟩
    | exact ⟨h1.trans hf.1, h2.trans hf.2.1, fun a => hf.2.2 (h3 a)⟩
    | exact ⟨h1.trans hf.1, h2.trans hf.2.1, fun a => h5 a (hf.2.2 (h4 a))⟩
    | skip
  rename_i was
  cases was with
  | true => exact ⟨hc hf.1, h1.trans hf.2⟩
  | false => exact ⟨h1.trans hf.1, h2.trans hf.2.1, fun a => hf.2.2 (h3 a)⟩

theorem new_id {s : Sh} (hg : Glob s) (hok : s.regs + 1 < 4294967296) : bump s.lastId = s.regs + 1 := by
  unfold bump
  rw [hg.last, Nat.mod_eq_of_lt (show s.regs < 4294967296 by omega), Nat.mod_eq_of_lt hok]

/-- The registration of a handler is changed only by the thread with its `event_mutex_`. -/
theorem ran_E {c : Callback} {i : Nat} {s s' : Sh} {x y : PC} {b : Bool} (hg : Glob s) (hx : x.efact s) (hr : Ran i s c x s' y b) (h : Nat)
    (hne : x.ev ≠ some h) : (E s' h → E s h) ∧ (Ok s' → E s h → E s' h) := by
  have put : ∀ (g : Nat) (z : H), z.id = (s.hs g).id → (E (s.put g z) h → E s h) ∧
      (Ok (s.put g z) → E s h → E (s.put g z) h) :=
    fun g z e => ⟨(e_put s g z h e).1, fun _ => (e_put s g z h e).2⟩
  have same : ∀ t : Sh, t.callbacks = s.callbacks → t.hs = s.hs → (E t h → E s h) ∧ (Ok t → E s h → E t h) :=
    fun t e1 e2 => ⟨(e_of e1 (by rw [e2])).1, fun _ => (e_of e1 (by rw [e2])).2⟩
  cases hr with
  | setReg g hf =>
    have hgh : h ≠ g := fun e => hne (by rw [e]; rfl)
    have hid : ((register s g).hs h).id = (s.hs h).id := by rw [register_ne s hgh]
    have key : StdMap.get (s.hs h).id (register s g).callbacks =
        if (s.hs h).id = bump s.lastId then some g else StdMap.get (s.hs h).id s.callbacks := StdMap.get_put _ _ _ _
    unfold E
    rw [hid, key]
    constructor
    · intro he
      split at he
      · exact absurd (Option.some.inj he).symm hgh
      · exact he
    · intro hok he
      have hok' : s.regs + 1 < 4294967296 := hok
      rw [if_neg]
      · exact he
      · rw [new_id hg hok']
        have : (s.hs h).id ≤ s.regs := hg.fresh (show s.regs < 4294967296 by omega) _ _ he
        omega
  | unsetReg g hf | cbReg g k hf =>
    unfold unregister
    split
    · have key : StdMap.get (s.hs h).id (StdMap.del (s.hs g).id s.callbacks) =
          if (s.hs h).id = (s.hs g).id then none else StdMap.get (s.hs h).id s.callbacks := StdMap.get_del _ _ _
      unfold E
      show (StdMap.get (s.hs h).id (StdMap.del (s.hs g).id s.callbacks) = _ → _) ∧ (_ → _ → StdMap.get (s.hs h).id (StdMap.del (s.hs g).id s.callbacks) = _)
      rw [key]
      constructor
      · intro he
        split at he
        · cases he
        · exact he
      · intro hok he
        rw [if_neg]
        · exact he
        · intro e
          have h1 := hx.2.2 (ok_of (s := s) rfl hok)
          unfold E at h1
          rw [← e, he] at h1
          exact hne (by rw [Option.some.inj h1]; rfl)
    · exact same _ rfl rfl
  | _ => first
    | exact same _ rfl rfl
    | exact put _ _ rfl

theorem rfact_of {s s' : Sh} {z : PC} (h : s'.callbacks = s.callbacks) (hz : z.rfact s) : z.rfact s' := by
  cases z with
  | hCall rest => simpa only [PC.rfact, h] using hz
  | evLock _ k | evTest _ k | evCall _ k | evRel _ k | cbLock _ k | cbFlag _ k | cbMgr _ k | cbReg _ k | cbOut _ k =>
    cases k with
    | none => trivial
    | some rest => simpa only [PC.rfact, h] using hz
  | _ => trivial

/-- The registrations change only while nobody calls callbacks. -/
theorem ran_callbacks {c : Callback} {i : Nat} {s s' : Sh} {x y : PC} {b : Bool} (hr : Ran i s c x s' y b) :
    s'.callbacks = s.callbacks ∨ s.cb = none := by
  cases hr with
  | setReg h hf => exact Or.inr hf
  | unsetReg h hf => exact Or.inr hf
  | cbReg h k hf => exact Or.inr hf
  | _ => exact Or.inl rfl

theorem get_mem {m : List (Nat × Nat)} (hs : StdMap.Sorted m) {p : Nat × Nat} (hp : p ∈ m) :
    StdMap.get p.1 m = some p.2 := StdMap.get_of_mem hs hp

theorem local_ (c : Callback) : (prog c).Local (fun _ => True) Glob (Loc c) where
  start := by
    intro sh i x op y _ _ hx hy
    cases x with
    | idle =>
      cases op <;> cases hy <;> exact ⟨hx.event, hx.internal, hx.cb, hx.mgr, trivial, trivial, trivial, fun _ => rfl⟩
    | _ => cases op <;> cases hy
  shared := by
    intro sh i x sh' y b hg hx hr
    have hr := run_ran hr
    have hE := ran_E hg hx.efact hr
    have hF := ran_flags hr
    have hR := ran_regs hr
    have hO := ran_event hr
    have hcons : ∀ h, (sh'.hs h).event = none → Cons sh' h := by
      intro h hn
      by_cases he : x.ev = some h
      · have hl := hx.efact
        have h1 := (hx.event h).1 he
        have out : ∀ g : Nat, Cons sh g → Cons (sh.put g { sh.hs g with event := none }) g := fun g hc =>
          cons_of (by rw [put_same]) (by rw [put_same]) (e_put sh g { sh.hs g with event := none } g rfl).1
            (ok_put _ _ _).1 (fun _ => (e_put sh g { sh.hs g with event := none } g rfl).2) hc
        have outCb : ∀ g : Nat, Cons sh g →
            Cons (sh.put g { sh.hs g with event := none, calls := (sh.hs g).calls + 1 }) g := fun g hc =>
          cons_of (by rw [put_same]) (by rw [put_same])
            (e_put sh g { sh.hs g with event := none, calls := (sh.hs g).calls + 1 } g rfl).1
            (ok_put _ _ _).1 (fun _ => (e_put sh g { sh.hs g with event := none, calls := (sh.hs g).calls + 1 } g rfl).2) hc
        cases hr <;> cases he <;> first
          | exact out _ hl.1
          | exact outCb _ hl
          | (rw [h1] at hn; cases hn; done)
          | (rw [put_same] at hn; rw [h1] at hn; cases hn; done)
          | (rw [register_same] at hn; rw [h1] at hn; cases hn; done)
          | (rw [unregister_hs] at hn; rw [h1] at hn; cases hn; done)
      · refine cons_of (hF h he).1 (hF h he).2.1 (hE h he).1 hR (hE h he).2 (hg.cons h ?_)
        rcases hO with ⟨e, -⟩ | ⟨g, -, -, hn', e⟩ | ⟨g, e1, -, e⟩
        · rw [← congrFun e h]; exact hn
        · have := congrFun e h
          simp only at this
          split at this
          · rename_i e1; rw [e1]; exact hn'
          · rw [← this]; exact hn
        · have := congrFun e h
          simp only at this
          split at this
          · rename_i e2; rw [e2] at he; exact absurd e1 he
          · rw [← this]; exact hn
    have keep : sh'.callbacks = sh.callbacks → sh'.regs = sh.regs → sh'.lastId = sh.lastId → sh'.dead = sh.dead →
        (∀ h, (sh'.hs h).id = (sh.hs h).id) → Glob sh' := by
      intro e1 e2 e3 e4 e5
      exact ⟨by rw [e1]; exact hg.sorted, fun k h => by rw [e1, e5]; exact hg.entry k h,
        fun hok k h => by rw [e1, e2]; exact hg.fresh (hR hok) k h, by rw [e3, e2]; exact hg.last, hcons,
        fun hok => by rw [e4]; exact hg.dead (hR hok)⟩
    have idput : ∀ (g : Nat) (z : H), z.id = (sh.hs g).id → ∀ h, ((sh.put g z).hs h).id = (sh.hs h).id := by
      intro g z e h
      by_cases hh : h = g
      · subst hh; rw [put_same, e]
      · rw [put_ne _ _ hh]
    cases hr with
    | setReg g hf =>
      have hnE : ¬ E sh g := hx.efact.2.2
      have key : ∀ k, StdMap.get k (register sh g).callbacks =
        if k = bump sh.lastId then some g else StdMap.get k sh.callbacks := fun k => StdMap.get_put _ _ _ _
      refine ⟨StdMap.sorted_put hg.sorted, ?_, ?_, ?_, hcons, fun hok => hg.dead (hR hok)⟩
      · intro k h hk
        rw [key] at hk
        split at hk
        · rename_i e
          cases hk
          rw [register_same, e]
        · have h1 := hg.entry k h hk
          have : h ≠ g := by
            rintro rfl
            apply hnE
            unfold E
            rw [h1]
            exact hk
          rw [register_ne _ this]
          exact h1
      · intro hok k h hk
        have hok' : sh.regs + 1 < 4294967296 := hok
        rw [key] at hk
        show k ≤ sh.regs + 1
        split at hk
        · rename_i e
          rw [e, new_id hg hok']
          exact Nat.le_refl _
        · exact Nat.le_succ_of_le (hg.fresh (show sh.regs < 4294967296 by omega) k h hk)
      · show bump sh.lastId = (sh.regs + 1) % 4294967296
        unfold bump
        rw [hg.last]
        omega
    | unsetReg g hf | cbReg g k hf =>
      have hE' := hx.efact.2.2
      have hR' : Ok (unregister sh g) → Ok sh := hR
      unfold unregister at hcons hR' ⊢
      split at hcons
      · rename_i hs
        rw [if_pos hs] at hR' ⊢
        have key : ∀ k, StdMap.get k (StdMap.del (sh.hs g).id sh.callbacks) =
          if k = (sh.hs g).id then none else StdMap.get k sh.callbacks := fun k => StdMap.get_del _ _ _
        refine ⟨StdMap.sorted_del hg.sorted, ?_, ?_, hg.last, hcons, fun hok => hg.dead (hR' hok)⟩
        · intro k h hk
          have hk : StdMap.get k (StdMap.del (sh.hs g).id sh.callbacks) = some h := hk
          rw [key] at hk
          split at hk
          · cases hk
          · exact hg.entry k h hk
        · intro hok k h hk
          have hk : StdMap.get k (StdMap.del (sh.hs g).id sh.callbacks) = some h := hk
          rw [key] at hk
          split at hk
          · cases hk
          · exact hg.fresh (hR' hok) k h hk
      · rename_i hs
        rw [if_neg hs] at hR' ⊢
        refine ⟨hg.sorted, hg.entry, fun hok => hg.fresh (hR' hok), hg.last, hcons, fun hok => ?_⟩
        exfalso
        apply hs
        rw [hE' (hR' hok)]
        rfl
    | _ => first
      | exact keep rfl rfl rfl rfl (fun _ => rfl)
      | exact keep rfl rfl rfl rfl (idput _ _ rfl)
  run := by
    intro sh i x sh' y b hg hx hr
    have hr := run_ran hr
    have hf := hx.efact
    have hrf := hx.rfact
    refine ⟨(ran_event hr).self hx.event, (ran_internal hr).self hx.internal, ?_, ?_, ?_, ?_, ?_, ?_⟩
    · rcases ran_cb hx.cb hr with ⟨e1, e2⟩ | ⟨-, e1, e2⟩ | ⟨-, e1, e2⟩
      · rw [e1, e2]; exact hx.cb
      · rw [e1, e2]; exact ⟨fun _ => rfl, fun _ => rfl⟩
      · rw [e1, e2]; exact ⟨nofun, nofun⟩
    · rw [ran_mgr hr]; exact hx.mgr
    · have pc : ∀ (g : Nat) (z : H), z.set = (sh.hs g).set → z.inMgr = (sh.hs g).inMgr → z.id = (sh.hs g).id →
          Cons sh g → Cons (sh.put g z) g := fun g z e1 e2 e3 =>
        cons_of (by rw [put_same, e1]) (by rw [put_same, e2]) (e_put _ _ _ _ e3).1 (ok_put _ _ _).1
          (fun _ => (e_put _ _ _ _ e3).2)
      have fs : ∀ (g : Nat) (z : H), ((sh.put g z).hs g) = z := put_same sh
      have ep : ∀ (g : Nat) (z : H), z.id = (sh.hs g).id → (E (sh.put g z) g ↔ E sh g) := fun g z e => e_put _ _ _ _ e
      have op : ∀ (g : Nat) (z : H), Ok (sh.put g z) ↔ Ok sh := ok_put sh
      have unreg : ∀ h : Nat, ((sh.hs h).set = false ∧ (sh.hs h).inMgr = false ∧ (Ok sh → E sh h)) →
          Cons (unregister sh h) h ∧ ((unregister sh h).hs h).set = false := by
        intro h hf
        have h1 : ((unregister sh h).hs h).set = false := by rw [unregister_hs]; exact hf.1
        refine ⟨⟨?_, ?_, ?_⟩, h1⟩
        · rw [h1, unregister_hs]; exact hf.2.1
        · intro _ he
          unfold E at he
          rw [unregister_hs] at he
          unfold unregister at he
          split at he
          · have he : StdMap.get (sh.hs h).id (StdMap.del (sh.hs h).id sh.callbacks) = some h := he
            rw [StdMap.get_del, if_pos rfl] at he
            cases he
          · rename_i hs
            apply hs
            have he : StdMap.get (sh.hs h).id sh.callbacks = some h := he
            rw [he]
            rfl
        · intro h2; rw [h1] at h2; cases h2
      cases hr with
      | setLock h hn => exact pc h _ rfl rfl rfl (hg.cons h hn)
      | unsetLock h hn => exact pc h _ rfl rfl rfl (hg.cons h hn)
      | cbLockU h k hn | cbLockC h k hn =>
        have hif : (sh.hs h).set = true := hx.ifact
        exact ⟨pc h _ rfl rfl rfl (hg.cons h hn), by rw [put_same]; exact hif⟩
      | cbFlagC h k => exact hf.1
      | setInternal h => exact pc h _ rfl rfl rfl hf
      | setFlag h =>
        have hf : Cons sh h := hf
        cases hs : (sh.hs h).set with
        | true =>
          have : Cons (sh.put h { sh.hs h with set := true }) h := pc h _ hs.symm rfl rfl hf
          exact ⟨this, by rw [put_same]⟩
        | false =>
          refine ⟨by rw [put_same], by rw [put_same]; exact hf.1.trans hs, ?_⟩
          rw [ep h { sh.hs h with set := true } rfl]
          exact hf.2.1 hs
      | setChanged h => exact ⟨pc h _ rfl rfl rfl hf.1, by rw [put_same]; exact hf.2⟩
      | setNew h =>
        refine ⟨by rw [put_same]; exact hf.1, by rw [put_same]; exact hf.2.1, ?_⟩
        rw [ep h { sh.hs h with internal := none } rfl]
        exact hf.2.2
      | setMgrYes h hm => exact absurd (hm.symm.trans hf.2.1) nofun
      | setMgrNo h hm =>
        refine ⟨by rw [put_same]; exact hf.1, by rw [put_same], ?_⟩
        rw [ep h { sh.hs h with inMgr := true } rfl]
        exact hf.2.2
      | setReg h hn =>
        have hE' : E (register sh h) h := by
          unfold E
          rw [register_same]
          show StdMap.get (bump sh.lastId) (StdMap.put (bump sh.lastId) h sh.callbacks) = some h
          rw [StdMap.get_put, if_pos rfl]
        have h1 : ((register sh h).hs h).set = true := by rw [register_same]; exact hf.1
        refine ⟨⟨?_, ?_, fun _ _ => hE'⟩, h1⟩
        · rw [h1, register_same]; exact hf.2.1
        · intro h2; rw [h1] at h2; cases h2
      | unsetYes h hs => exact ⟨hf, hs⟩
      | unsetNo h hs => exact ⟨hf, hs⟩
      | unsetInternal h => exact ⟨pc h _ rfl rfl rfl hf.1, by rw [put_same]; exact hf.2⟩
      | unsetFlag h | cbFlagU h k =>
        refine ⟨by rw [put_same], by rw [put_same]; exact hf.1.1.trans hf.2, fun hok => ?_⟩
        rw [ep h { sh.hs h with set := false } rfl]
        exact hf.1.2.2 hf.2 ((op _ _).1 hok)
      | unsetRel h =>
        refine ⟨by rw [put_same]; exact hf.1, by rw [put_same]; exact hf.2.1, fun hok => ?_⟩
        rw [ep h { sh.hs h with internal := none } rfl]
        exact hf.2.2 ((op _ _).1 hok)
      | unsetMgrYes h hm | cbMgrYes h k hm =>
        refine ⟨by rw [put_same]; exact hf.1, by rw [put_same], fun hok => ?_⟩
        rw [ep h { sh.hs h with inMgr := false } rfl]
        exact hf.2.2 ((op _ _).1 hok)
      | unsetMgrNo h hm | cbMgrNo h k hm => exact absurd (hm.symm.trans hf.2.1) nofun
      | unsetReg h hn => exact unreg h hf
      | cbReg h k hn => exact (unreg h hf).1
      | _ => trivial
    · have hif := hx.ifact
      cases hr <;> first | exact trivial | assumption
    · have hcb := hx.cb
      cases hr with
      | evLock h k | evYes h k | evNo h k | evCall h k | evU h k | evC h k | cbLockU h k | cbLockC h k | cbFlagU h k
      | cbFlagC h k | cbMgrYes h k | cbMgrNo h k | cbOutU h k | cbOutC h k =>
        cases k with
        | none => trivial
        | some rest => exact hrf
      | cbReg h k hn =>
        cases k with
        | none => trivial
        | some rest =>
          have := (hcb.1 rfl).symm.trans hn
          cases this
      | evNext h rest => exact hrf.2
      | hCb hn => exact fun p hp => hp
      | hNext p rest => exact ⟨⟨p.1, hrf p (List.mem_cons_self ..)⟩, fun q hq => hrf q (List.mem_cons_of_mem _ hq)⟩
      | _ => trivial
    · rintro rfl
      cases hr <;> rfl
  other := by
    intro sh i x sh' y b j z hg hx hr hj hz
    have hr := run_ran hr
    have hR := ran_regs hr
    refine ⟨(ran_event hr).other hx.event hj hz.event, (ran_internal hr).other hx.internal hj hz.internal, ?_, hz.mgr,
      ?_, ?_, ?_, hz.inCb⟩
    · rcases ran_cb hx.cb hr with ⟨e1, -⟩ | ⟨e0, e1, -⟩ | ⟨e0, e1, -⟩
      · rw [e1]; exact hz.cb
      · rw [e1, hz.cb, e0]; exact ⟨nofun, fun e => absurd (Option.some.inj e).symm hj⟩
      · rw [e1, hz.cb, e0]; exact ⟨fun e => absurd (Option.some.inj e).symm hj, nofun⟩
    · cases he : z.ev with
      | none =>
        have hf := hz.efact
        cases z <;> first | exact trivial | cases he
      | some h =>
        have hne : x.ev ≠ some h := by
          intro e
          have h1 := ((hx.event h).1 e).symm.trans ((hz.event h).1 he)
          exact hj (Option.some.inj h1).symm
        have h1 := ran_flags hr h hne
        have h2 := ran_E hg hx.efact hr h hne
        exact efact_of he h1.1 h1.2.1 h2.1 hR h2.2 hz.efact
    · have hi := hz.ifact
      cases z with
      | evCall h k | cbLock h k =>
        have hown : (sh.hs h).internal = some j := (hz.internal h).1 rfl
        have hxi : x.int ≠ some h := by
          intro e
          have h1 := ((hx.internal h).1 e).symm.trans hown
          exact hj (Option.some.inj h1).symm
        have hi : (sh.hs h).set = true := hi
        show (sh'.hs h).set = true
        by_cases he : x.ev = some h
        · cases hr <;> cases he <;> first
            | exact hi
            | (rw [put_same]; exact hi)
            | (rw [register_same]; exact hi)
            | (rw [unregister_hs]; exact hi)
            | exact absurd rfl hxi
        · rw [(ran_flags hr h he).1]; exact hi
      | _ => trivial
    · cases hc : z.hasCb with
      | false =>
        cases z with
        | hCall rest => cases hc
        | evLock _ k | evTest _ k | evCall _ k | evRel _ k | cbLock _ k | cbFlag _ k | cbMgr _ k | cbReg _ k
        | cbOut _ k =>
          cases k with
          | none => trivial
          | some rest => cases hc
        | _ => trivial
      | true =>
        rcases ran_callbacks hr with e | e
        · exact rfact_of e hz.rfact
        · have := (hz.cb.1 hc).symm.trans e
          cases this
  woken := by
    intro sh i x y hx hy
    cases x with
    | asleep => cases hy; exact ⟨hx.event, hx.internal, hx.cb, hx.mgr, trivial, trivial, trivial, fun _ => rfl⟩
    | _ => cases hy
  late := by
    intro sh i x y _ hy
    cases hy

theorem inv {c : Callback} {n : Nat} {s : Conf (prog c)} (h : (prog c).system.Reachable (init c n) s) :
    (prog c).Inv Glob (Loc c) s := by
  refine (local_ c).reachable ⟨⟨StdMap.sorted_nil, fun k h e => (by cases e), fun _ k h e => (by cases e), rfl,
    fun h _ => ⟨rfl, fun _ e => (by cases e), fun e => (by cases e)⟩, fun _ => rfl⟩, ?_⟩ h
  intro j x hx
  cases j with
  | zero => cases hx; exact ⟨fun h => ⟨nofun, nofun⟩, fun h => ⟨nofun, nofun⟩, ⟨nofun, nofun⟩, ⟨fun _ => rfl, fun _ => rfl⟩,
      trivial, trivial, trivial, fun _ => rfl⟩
  | succ j =>
    have hx : (List.replicate n PC.idle)[j]? = some x := hx
    have := (List.mem_replicate.1 (List.mem_of_getElem? hx)).2
    subst this
    exact ⟨fun h => ⟨nofun, nofun⟩, fun h => ⟨nofun, nofun⟩, ⟨nofun, nofun⟩, ⟨nofun, nofun⟩, trivial, trivial, trivial,
      fun _ => rfl⟩

end Verif.SignalEvent
