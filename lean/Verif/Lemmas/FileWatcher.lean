import Verif.Model.FileWatcher
import Verif.Lemmas.Prog
/-!
Invariants of `FileWatcherHandler` with callbacks that do not use the handler.
-/
namespace Verif.FileWatcher
open Verif.Threads
open Verif.FileWatch

/-- The branches of `run`. -/
inductive Ran (c : Cfg) (i : Nat) (s : Sh) : PC → Sh → PC → Bool → Prop
  | fsChange (e : Ev) : Ran c i s (.fsChange e) (s.feed e) .idle false
  | fsPath (ok : Bool) : Ran c i s (.fsPath ok) { s with path := ok } .idle false
  | fsGone : Ran c i s .fsGone { s.unwatch with path := false } .idle false
  | setLock (h : s.event = none) : Ran c i s .setLock { s with event := some i } .setInternal false
  | setInternal (h : s.internal = none) : Ran c i s .setInternal { s with internal := some i } .setFlag false
  | setFlag : Ran c i s .setFlag { s with set := true } (.setRel s.set) false
  | setChanged : Ran c i s (.setRel true) { s with internal := none } .setOut false
  | setNew : Ran c i s (.setRel false) { s with internal := none } .setHook false
  | hookYes (h : s.started = true) : Ran c i s .setHook s .setOut false
  | hookNo (h : s.started = false) : Ran c i s .setHook s .setMake false
  | makeYes (h : s.path = true) : Ran c i s .setMake s.make .setWait false
  | makeNo (h : s.path = false) : Ran c i s .setMake s .setStarted false
  | setWait (h : s.running = true) : Ran c i s .setWait s .setStarted false
  | setStarted : Ran c i s .setStarted { s with started := true } .setOut false
  | setOut : Ran c i s .setOut { s with event := none } .idle false
  | unsetLock (h : s.event = none) : Ran c i s .unsetLock { s with event := some i } .unsetTest false
  | unsetYes (h : s.set = true) : Ran c i s .unsetTest s .unsetInternal false
  | unsetNo (h : s.set = false) : Ran c i s .unsetTest s .unsetOut false
  | unsetInternal (h : s.internal = none) : Ran c i s .unsetInternal { s with internal := some i } .unsetFlag false
  | unsetFlag : Ran c i s .unsetFlag { s with set := false } .unsetRel false
  | unsetRel : Ran c i s .unsetRel { s with internal := none } .unsetHook false
  | stopYes (h : s.started = true) (hp : s.present = true) : Ran c i s .unsetHook s .dFlag false
  | stopNull (h : s.started = true) (hp : s.present = false) : Ran c i s .unsetHook s .unsetStopped false
  | stopNo (h : s.started = false) : Ran c i s .unsetHook s .unsetOut false
  | dFlag : Ran c i s .dFlag { s with destroy := true } .dRemove false
  | dRemove : Ran c i s .dRemove s.unwatch .dNotify false
  | dNotify : Ran c i s .dNotify s .dJoinW true
  | dJoinW (h : s.wt = .ended) : Ran c i s .dJoinW { s with wt := .none } .dJoinC false
  | dJoinC (h : s.ct = .ended) : Ran c i s .dJoinC { s with ct := .none, present := false } .unsetStopped false
  | unsetStopped : Ran c i s .unsetStopped { s with started := false } .unsetOut false
  | unsetOut : Ran c i s .unsetOut { s with event := none } .idle false
  | evLock (t : Bool) (h : s.internal = none) : Ran c i s (.evLock t) { s with internal := some i } (.evTest t) false
  | evYes (t : Bool) (h : s.set = true) : Ran c i s (.evTest t) s (.evCall t) false
  | evNo (t : Bool) (h : s.set = false) : Ran c i s (.evTest t) (s.next t) (.evRel t) false
  | evCall (t : Bool) : Ran c i s (.evCall t) ((s.call t).next t) (.evRel t) false
  | evDone : Ran c i s (.evRel false) { s with internal := none } .idle false
  | evNext : Ran c i s (.evRel true) { s with internal := none } .cNext false
  | wOff (h : s.wt = .spawned) : Ran c i s .wOff { s with wt := .running } .wRun false
  | wRun : Ran c i s .wRun { s with running := true } .wLoop false
  | wStop (h : s.destroy = true) : Ran c i s .wLoop s .wEnd false
  | wGo (h : s.destroy = false) : Ran c i s .wLoop s .wRead false
  | wRead (h : s.queue ≠ []) : Ran c i s .wRead
      { s with parsed := notes c.filter (s.queue.take (max 1 (c.fit s.queue))),
               queue := s.queue.drop (max 1 (c.fit s.queue)) } .wPush false
  | wPush (h : s.cbm = none) : Ran c i s .wPush { s with info := s.info ++ s.parsed, parsed := [] } .wNotify false
  | wNotify : Ran c i s .wNotify s .wLoop true
  | wEnd : Ran c i s .wEnd { s with wt := .ended } .wOff false
  | cOff (h : s.ct = .spawned) : Ran c i s .cOff { s with ct := .running } .cLoop false
  | cStop (h : s.destroy = true) : Ran c i s .cLoop s .cEnd false
  | cGo (h : s.destroy = false) : Ran c i s .cLoop s .cLock false
  | cLock (h : s.cbm = none) : Ran c i s .cLock { s with cbm := some i } .cIf false
  | cIfYes (h : s.info = []) (hd : s.destroy = false) : Ran c i s .cIf s .cPred false
  | cIfNo (h : s.info ≠ [] ∨ s.destroy = true) : Ran c i s .cIf s .cSwap false
  | cPredYes (h : s.info ≠ [] ∨ s.destroy = true) : Ran c i s .cPred s .cSwap false
  | cPredNo (h : s.info = []) (hd : s.destroy = false) : Ran c i s .cPred s .cSleep false
  | cSleep : Ran c i s .cSleep { s with cbm := none } .asleep false
  | cAgain (h : s.cbm = none) : Ran c i s .cAgain { s with cbm := some i } .cPred false
  | cSwap : Ran c i s .cSwap { s with batch := s.info, info := [], cbm := none } .cNext false
  | cNextEnd (h : s.batch = []) : Ran c i s .cNext s .cLoop false
  | cNextMod (p : Str) (rest : List (Str × Change)) (h : s.batch = (p, .modified) :: rest) :
      Ran c i s .cNext s (.evLock true) false
  | cNextSkip (p : Str) (k : Change) (rest : List (Str × Change)) (h : s.batch = (p, k) :: rest)
      (hk : k ≠ .modified) : Ran c i s .cNext { s with batch := rest } .cNext false
  | cEnd : Ran c i s .cEnd { s with ct := .ended } .cOff false

theorem not_isSome {α : Type} {o : Option α} (h : ¬ o.isSome = true) : o = none := by
  cases o with
  | none => rfl
  | some a => exact absurd rfl h

theorem run_ran {c : Cfg} (hc : c.callback = .plain) {i : Nat} {s s' : Sh} {x y : PC} {b : Bool}
    (h : run c i s x = some (s', y, b)) : Ran c i s x s' y b := by
  cases x with
  | idle | asleep => cases h
  | fsChange e => cases h; exact .fsChange e
  | fsPath ok => cases h; exact .fsPath ok
  | fsGone => cases h; exact .fsGone
  | setLock =>
    simp only [run] at h
    split at h
    · cases h
    · rename_i hl; cases h; exact .setLock (not_isSome hl)
  | setInternal =>
    simp only [run] at h
    split at h
    · cases h
    · rename_i hl; cases h; exact .setInternal (not_isSome hl)
  | setFlag => cases h; exact .setFlag
  | setRel was =>
    cases was with
    | true => cases h; exact .setChanged
    | false => cases h; exact .setNew
  | setHook =>
    cases hs : s.started with
    | true => simp only [run, hs] at h; cases h; exact .hookYes hs
    | false => simp only [run, hs] at h; cases h; exact .hookNo hs
  | setMake =>
    cases hs : s.path with
    | true => simp only [run, hs] at h; cases h; exact .makeYes hs
    | false => simp only [run, hs] at h; cases h; exact .makeNo hs
  | setWait =>
    cases hs : s.running with
    | true => simp only [run, hs] at h; cases h; exact .setWait hs
    | false => simp only [run, hs] at h; cases h
  | setStarted => cases h; exact .setStarted
  | setOut => cases h; exact .setOut
  | unsetLock =>
    simp only [run] at h
    split at h
    · cases h
    · rename_i hl; cases h; exact .unsetLock (not_isSome hl)
  | unsetTest =>
    cases hs : s.set with
    | true => simp only [run, hs] at h; cases h; exact .unsetYes hs
    | false => simp only [run, hs] at h; cases h; exact .unsetNo hs
  | unsetInternal =>
    simp only [run] at h
    split at h
    · cases h
    · rename_i hl; cases h; exact .unsetInternal (not_isSome hl)
  | unsetFlag => cases h; exact .unsetFlag
  | unsetRel => cases h; exact .unsetRel
  | unsetHook =>
    cases hs : s.started with
    | true =>
      cases hp : s.present with
      | true => simp only [run, hs, hp] at h; cases h; exact .stopYes hs hp
      | false => simp only [run, hs, hp] at h; cases h; exact .stopNull hs hp
    | false => simp only [run, hs] at h; cases h; exact .stopNo hs
  | dFlag => cases h; exact .dFlag
  | dRemove => cases h; exact .dRemove
  | dNotify => cases h; exact .dNotify
  | dJoinW =>
    simp only [run] at h
    split at h
    · rename_i hl; cases h; exact .dJoinW hl
    · cases h
  | dJoinC =>
    simp only [run] at h
    split at h
    · rename_i hl; cases h; exact .dJoinC hl
    · cases h
  | unsetStopped => cases h; exact .unsetStopped
  | unsetOut => cases h; exact .unsetOut
  | evLock t =>
    simp only [run] at h
    split at h
    · cases h
    · rename_i hl; cases h; exact .evLock t (not_isSome hl)
  | evTest t =>
    cases hs : s.set with
    | true => simp only [run, hs] at h; cases h; exact .evYes t hs
    | false => simp only [run, hs] at h; cases h; exact .evNo t hs
  | evCall t => simp only [run, hc] at h; cases h; exact .evCall t
  | evRel t =>
    cases t with
    | false => cases h; exact .evDone
    | true => cases h; exact .evNext
  | wOff =>
    simp only [run] at h
    split at h
    · rename_i hl; cases h; exact .wOff hl
    · cases h
  | wRun => cases h; exact .wRun
  | wLoop =>
    cases hs : s.destroy with
    | true => simp only [run, hs] at h; cases h; exact .wStop hs
    | false => simp only [run, hs] at h; cases h; exact .wGo hs
  | wRead =>
    simp only [run] at h
    split at h
    · cases h
    · rename_i hl; cases h; exact .wRead hl
  | wPush =>
    simp only [run] at h
    split at h
    · cases h
    · rename_i hl; cases h; exact .wPush (not_isSome hl)
  | wNotify => cases h; exact .wNotify
  | wEnd => cases h; exact .wEnd
  | cOff =>
    simp only [run] at h
    split at h
    · rename_i hl; cases h; exact .cOff hl
    · cases h
  | cLoop =>
    cases hs : s.destroy with
    | true => simp only [run, hs] at h; cases h; exact .cStop hs
    | false => simp only [run, hs] at h; cases h; exact .cGo hs
  | cLock =>
    simp only [run] at h
    split at h
    · cases h
    · rename_i hl; cases h; exact .cLock (not_isSome hl)
  | cIf =>
    by_cases hs : s.info = [] ∧ s.destroy = false
    · simp only [run, if_pos hs] at h; cases h; exact .cIfYes hs.1 hs.2
    · simp only [run, if_neg hs] at h; cases h
      refine .cIfNo ?_
      by_cases hi : s.info = []
      · exact Or.inr (by simpa using fun h => hs ⟨hi, h⟩)
      · exact Or.inl hi
  | cPred =>
    by_cases hs : s.info ≠ [] ∨ s.destroy = true
    · simp only [run, if_pos hs] at h; cases h; exact .cPredYes hs
    · simp only [run, if_neg hs] at h; cases h
      exact .cPredNo (by by_cases hi : s.info = []; exact hi; exact absurd (Or.inl hi) hs)
        (by cases hd : s.destroy; rfl; exact absurd (Or.inr hd) hs)
  | cSleep => cases h; exact .cSleep
  | cAgain =>
    simp only [run] at h
    split at h
    · cases h
    · rename_i hl; cases h; exact .cAgain (not_isSome hl)
  | cSwap => cases h; exact .cSwap
  | cNext =>
    cases hb : s.batch with
    | nil => simp only [run, hb] at h; cases h; exact .cNextEnd hb
    | cons q rest =>
      obtain ⟨p, k⟩ := q
      cases k with
      | modified => simp only [run, hb] at h; cases h; exact .cNextMod p rest hb
      | added => simp only [run, hb] at h; cases h; exact .cNextSkip p _ rest hb nofun
      | removed => simp only [run, hb] at h; cases h; exact .cNextSkip p _ rest hb nofun
  | cEnd => cases h; exact .cEnd
  | cbFlag => simp [run, hc] at h
  | cbLock | cbDestroy | cbRemove | cbNotify | cbJoinW | cbJoinC | cbOut => simp [run, hc] at h

/-- The thread has `event_mutex_`. -/
def PC.hasEvent : PC → Bool
  | .setInternal | .setFlag | .setRel _ | .setHook | .setMake | .setWait | .setStarted | .setOut | .unsetTest
  | .unsetInternal | .unsetFlag | .unsetRel | .unsetHook | .dFlag | .dRemove | .dNotify | .dJoinW | .dJoinC
  | .unsetStopped | .unsetOut => true
  | _ => false

/-- The thread has `internal_callback_mutex_`. -/
def PC.hasInternal : PC → Bool
  | .setFlag | .setRel _ | .unsetFlag | .unsetRel | .evTest _ | .evCall _ | .evRel _ => true
  | _ => false

/-- The thread has `_callback_mutex`. -/
def PC.hasCbm : PC → Bool
  | .cIf | .cPred | .cSleep | .cSwap => true
  | _ => false

/-- Places of thread 0. -/
def PC.isW : PC → Bool
  | .wOff | .wRun | .wLoop | .wRead | .wPush | .wNotify | .wEnd => true
  | _ => false

/-- Places of thread 1. -/
def PC.isC : PC → Bool
  | .cOff | .cLoop | .cLock | .cIf | .cPred | .cSleep | .asleep | .cAgain | .cSwap | .cNext | .cEnd | .evLock true
  | .evTest true | .evCall true | .evRel true => true
  | _ => false

/-- A thread that was started and has not been told to end. -/
def Live (t : Thread) : Prop := t = .spawned ∨ t = .running

/-- There is a `FileWatch` object at work. -/
def On (s : Sh) : Prop := s.present = true ∧ s.destroy = false ∧ Live s.wt ∧ Live s.ct

/-- There is none. -/
def Off (s : Sh) : Prop := s.present = false ∧ s.wt = .none ∧ s.ct = .none

/-- What holds while nobody sets or unsets the callback. -/
def Cons (s : Sh) : Prop :=
  (s.set = true → s.started = true ∧ ((On s ∧ s.running = true) ∨ Off s)) ∧
  (s.set = false → s.started = false ∧ Off s)

/-- Facts about the thread with `event_mutex_`; callbacks do not use the handler. -/
def PC.efact (s : Sh) : PC → Prop
  | .setInternal | .setFlag | .unsetTest => Cons s
  | .setRel true | .setOut | .unsetInternal | .unsetFlag => Cons s ∧ s.set = true
  | .setRel false | .setHook | .setMake => s.set = true ∧ s.started = false ∧ Off s
  | .setWait => s.set = true ∧ s.started = false ∧ On s
  | .setStarted => s.set = true ∧ s.started = false ∧ ((On s ∧ s.running = true) ∨ Off s)
  | .unsetRel | .unsetHook => s.set = false ∧ s.started = true ∧ ((On s ∧ s.running = true) ∨ Off s)
  | .dFlag => s.set = false ∧ s.started = true ∧ On s
  | .dRemove | .dNotify | .dJoinW =>
    s.set = false ∧ s.started = true ∧ s.present = true ∧ s.destroy = true ∧ s.wt ≠ .none ∧ s.ct ≠ .none
  | .dJoinC => s.set = false ∧ s.started = true ∧ s.present = true ∧ s.destroy = true ∧ s.wt = .none ∧ s.ct ≠ .none
  | .unsetStopped => s.set = false ∧ s.started = true ∧ Off s
  | .unsetOut => Cons s ∧ s.set = false
  | .cbLock _ | .cbFlag _ | .cbDestroy _ | .cbRemove _ | .cbNotify _ | .cbJoinW _ | .cbJoinC _ | .cbOut _ => False
  | _ => True

/-- Facts about thread 0. -/
def PC.wfact (s : Sh) : PC → Prop
  | .wOff => s.wt ≠ .running ∧ s.parsed = []
  | .wRun => s.wt = .running ∧ s.parsed = []
  | .wLoop | .wRead | .wNotify => s.wt = .running ∧ s.parsed = [] ∧ s.running = true
  | .wPush => s.wt = .running ∧ s.running = true
  | .wEnd => s.wt = .running ∧ s.parsed = [] ∧ s.destroy = true ∧ s.running = true
  | _ => True

/-- Facts about thread 1. -/
def PC.cfact (s : Sh) : PC → Prop
  | .cOff => s.ct ≠ .running ∧ s.batch = []
  | .cLoop | .cLock | .cIf | .cPred | .cSleep | .asleep | .cAgain | .cSwap =>
    s.ct = .running ∧ s.present = true ∧ s.batch = []
  | .cNext | .evRel true => s.ct = .running ∧ s.present = true
  | .evLock true | .evTest true | .evCall true =>
    s.ct = .running ∧ s.present = true ∧ ∃ p rest, s.batch = (p, .modified) :: rest
  | .cEnd => s.ct = .running ∧ s.present = true ∧ s.batch = [] ∧ s.destroy = true
  | _ => True

/-- Facts about the thread with `internal_callback_mutex_`. -/
def PC.ifact (s : Sh) : PC → Prop
  | .evCall _ => s.set = true
  | _ => True

/-- Facts about one thread. -/
structure Loc (s : Sh) (i : Nat) (x : PC) : Prop where
  event : x.hasEvent = true ↔ s.event = some i
  internal : x.hasInternal = true ↔ s.internal = some i
  cbm : x.hasCbm = true ↔ s.cbm = some i
  isW : x.isW = true ↔ i = 0
  isC : x.isC = true ↔ i = 1
  efact : x.efact s
  wfact : x.wfact s
  cfact : x.cfact s
  ifact : x.ifact s
  nap : x = .cSleep → s.info = []

/-- The names of the files noted as modified. -/
def mods (xs : List (Str × Change)) : List Str := (xs.filter fun x => x.2 = .modified).map Prod.fst

/-- Facts about the handler. -/
structure Glob (c : Cfg) (s : Sh) : Prop where
  cons : s.event = none → Cons s
  wt : s.wt ≠ .none → s.present = true
  ct : s.ct ≠ .none → s.present = true
  dead : s.dead = false
  flow : mods (notes c.filter s.fed) =
    s.tried ++ mods s.batch ++ mods s.info ++ mods s.parsed ++ mods (notes c.filter s.queue)
  called : s.called <+: s.tried
  all : s.set = true → s.present = true → s.called = s.tried

/-- What a thread without `event_mutex_` may change of what the others rely on. -/
structure Upd (s s' : Sh) : Prop where
  set : s'.set = s.set
  started : s'.started = s.started
  present : s'.present = s.present
  destroy : s'.destroy = s.destroy
  running : s.running = true → s'.running = true
  wt : s'.wt = s.wt ∨ (s.wt = .spawned ∧ s'.wt = .running) ∨ (s.wt = .running ∧ s'.wt = .ended ∧ s.destroy = true)
  ct : s'.ct = s.ct ∨ (s.ct = .spawned ∧ s'.ct = .running) ∨ (s.ct = .running ∧ s'.ct = .ended ∧ s.destroy = true)

theorem Upd.liveW {s s' : Sh} (h : Upd s s') (hd : s.destroy = false) (hl : Live s.wt) : Live s'.wt := by
  rcases h.wt with e | ⟨-, e⟩ | ⟨-, -, e⟩
  · rw [e]; exact hl
  · rw [e]; exact Or.inr rfl
  · rw [hd] at e; cases e

theorem Upd.liveC {s s' : Sh} (h : Upd s s') (hd : s.destroy = false) (hl : Live s.ct) : Live s'.ct := by
  rcases h.ct with e | ⟨-, e⟩ | ⟨-, -, e⟩
  · rw [e]; exact hl
  · rw [e]; exact Or.inr rfl
  · rw [hd] at e; cases e

theorem Upd.on {s s' : Sh} (h : Upd s s') (ho : On s) : On s' :=
  ⟨h.present.trans ho.1, h.destroy.trans ho.2.1, h.liveW ho.2.1 ho.2.2.1, h.liveC ho.2.1 ho.2.2.2⟩

theorem Upd.noneW {s s' : Sh} (h : Upd s s') : s'.wt = .none ↔ s.wt = .none := by
  rcases h.wt with e | ⟨e, e'⟩ | ⟨e, e', -⟩
  · rw [e]
  · rw [e, e']; exact ⟨nofun, nofun⟩
  · rw [e, e']; exact ⟨nofun, nofun⟩

theorem Upd.noneC {s s' : Sh} (h : Upd s s') : s'.ct = .none ↔ s.ct = .none := by
  rcases h.ct with e | ⟨e, e'⟩ | ⟨e, e', -⟩
  · rw [e]
  · rw [e, e']; exact ⟨nofun, nofun⟩
  · rw [e, e']; exact ⟨nofun, nofun⟩

theorem Upd.off {s s' : Sh} (h : Upd s s') (ho : Off s) : Off s' :=
  ⟨h.present.trans ho.1, h.noneW.2 ho.2.1, h.noneC.2 ho.2.2⟩

theorem Upd.either {s s' : Sh} (h : Upd s s') (ho : (On s ∧ s.running = true) ∨ Off s) :
    (On s' ∧ s'.running = true) ∨ Off s' := by
  rcases ho with ⟨h1, h2⟩ | h1
  · exact Or.inl ⟨h.on h1, h.running h2⟩
  · exact Or.inr (h.off h1)

theorem Upd.cons {s s' : Sh} (h : Upd s s') (hc : Cons s) : Cons s' := by
  refine ⟨fun hs => ?_, fun hs => ?_⟩
  · rw [h.set] at hs
    obtain ⟨h1, h2⟩ := hc.1 hs
    exact ⟨h.started.trans h1, h.either h2⟩
  · rw [h.set] at hs
    obtain ⟨h1, h2⟩ := hc.2 hs
    exact ⟨h.started.trans h1, h.off h2⟩

theorem Upd.efact {s s' : Sh} (h : Upd s s') {z : PC} (hz : z.efact s) : z.efact s' := by
  cases z with
  | setInternal | setFlag | unsetTest => exact h.cons hz
  | setOut | unsetInternal | unsetFlag | unsetOut => exact ⟨h.cons hz.1, h.set.trans hz.2⟩
  | setRel was =>
    cases was with
    | true => exact ⟨h.cons hz.1, h.set.trans hz.2⟩
    | false => exact ⟨h.set.trans hz.1, h.started.trans hz.2.1, h.off hz.2.2⟩
  | setHook | setMake | unsetStopped => exact ⟨h.set.trans hz.1, h.started.trans hz.2.1, h.off hz.2.2⟩
  | setWait | dFlag => exact ⟨h.set.trans hz.1, h.started.trans hz.2.1, h.on hz.2.2⟩
  | setStarted | unsetRel | unsetHook => exact ⟨h.set.trans hz.1, h.started.trans hz.2.1, h.either hz.2.2⟩
  | dRemove | dNotify | dJoinW =>
    exact ⟨h.set.trans hz.1, h.started.trans hz.2.1, h.present.trans hz.2.2.1, h.destroy.trans hz.2.2.2.1,
      fun e => hz.2.2.2.2.1 (h.noneW.1 e), fun e => hz.2.2.2.2.2 (h.noneC.1 e)⟩
  | dJoinC =>
    exact ⟨h.set.trans hz.1, h.started.trans hz.2.1, h.present.trans hz.2.2.1, h.destroy.trans hz.2.2.2.1,
      h.noneW.2 hz.2.2.2.2.1, fun e => hz.2.2.2.2.2 (h.noneC.1 e)⟩
  | cbLock | cbFlag | cbDestroy | cbRemove | cbNotify | cbJoinW | cbJoinC | cbOut => exact hz.elim
  | _ => exact trivial

theorem Upd.same {s s' : Sh} (h1 : s'.set = s.set) (h2 : s'.started = s.started) (h3 : s'.present = s.present)
    (h4 : s'.destroy = s.destroy) (h5 : s'.running = s.running) (h6 : s'.wt = s.wt) (h7 : s'.ct = s.ct) : Upd s s' :=
  ⟨h1, h2, h3, h4, fun h => h5.trans h, Or.inl h6, Or.inl h7⟩

theorem feed_upd (s : Sh) (e : Ev) : Upd s (s.feed e) := by
  unfold Sh.feed
  split <;> exact .same rfl rfl rfl rfl rfl rfl rfl

theorem unwatch_upd (s : Sh) : Upd s s.unwatch := by
  obtain ⟨h1, h2, h3, h4, h5, h6, h7⟩ := feed_upd s ignored
  exact ⟨h1, h2, h3, h4, h5, h6, h7⟩

theorem next_upd (s : Sh) (t : Bool) : Upd s (s.next t) := by
  unfold Sh.next
  split <;> exact .same rfl rfl rfl rfl rfl rfl rfl

theorem call_upd (s : Sh) (t : Bool) : Upd s ((s.call t).next t) := by
  cases t <;> exact .same rfl rfl rfl rfl rfl rfl rfl

/-- Steps of threads without `event_mutex_`. -/
theorem ran_upd {c : Cfg} {i : Nat} {s s' : Sh} {x y : PC} {b : Bool} (hr : Ran c i s x s' y b) (hw : x.wfact s)
    (hc : x.cfact s) (hx : x.hasEvent = false) : Upd s s' := by
  cases hr <;> first
    | (cases hx; done)
    | exact .same rfl rfl rfl rfl rfl rfl rfl
    | exact feed_upd _ _
    | exact next_upd _ _
    | exact call_upd _ _
    | skip
  case fsGone =>
    obtain ⟨h1, h2, h3, h4, h5, h6, h7⟩ := unwatch_upd s
    exact ⟨h1, h2, h3, h4, h5, h6, h7⟩
  case wOff h => exact ⟨rfl, rfl, rfl, rfl, id, Or.inr (Or.inl ⟨h, rfl⟩), Or.inl rfl⟩
  case wRun => exact ⟨rfl, rfl, rfl, rfl, fun _ => rfl, Or.inl rfl, Or.inl rfl⟩
  case wEnd => exact ⟨rfl, rfl, rfl, rfl, id, Or.inr (Or.inr ⟨hw.1, rfl, hw.2.2.1⟩), Or.inl rfl⟩
  case cOff h => exact ⟨rfl, rfl, rfl, rfl, id, Or.inl rfl, Or.inr (Or.inl ⟨h, rfl⟩)⟩
  case cEnd => exact ⟨rfl, rfl, rfl, rfl, id, Or.inl rfl, Or.inr (Or.inr ⟨hc.1, rfl, hc.2.2.2⟩)⟩

/-- The fields that events of the kernel do not touch. -/
structure Calm (s s' : Sh) : Prop where
  event : s'.event = s.event
  internal : s'.internal = s.internal
  cbm : s'.cbm = s.cbm
  parsed : s'.parsed = s.parsed
  batch : s'.batch = s.batch
  info : s'.info = s.info
  tried : s'.tried = s.tried
  called : s'.called = s.called
  dead : s'.dead = s.dead
  set : s'.set = s.set
  started : s'.started = s.started
  present : s'.present = s.present
  destroy : s'.destroy = s.destroy
  running : s'.running = s.running
  wt : s'.wt = s.wt
  ct : s'.ct = s.ct

theorem feed_calm (s : Sh) (e : Ev) : Calm s (s.feed e) := by
  unfold Sh.feed
  split <;> exact ⟨rfl, rfl, rfl, rfl, rfl, rfl, rfl, rfl, rfl, rfl, rfl, rfl, rfl, rfl, rfl, rfl⟩

theorem unwatch_calm (s : Sh) : Calm s s.unwatch := by
  obtain ⟨h1, h2, h3, h4, h5, h6, h7, h8, h9, h10, h11, h12, h13, h14, h15, h16⟩ := feed_calm s ignored
  exact ⟨h1, h2, h3, h4, h5, h6, h7, h8, h9, h10, h11, h12, h13, h14, h15, h16⟩

theorem gone_calm (s : Sh) : Calm s { s.unwatch with path := false } := by
  obtain ⟨h1, h2, h3, h4, h5, h6, h7, h8, h9, h10, h11, h12, h13, h14, h15, h16⟩ := unwatch_calm s
  exact ⟨h1, h2, h3, h4, h5, h6, h7, h8, h9, h10, h11, h12, h13, h14, h15, h16⟩

/-- Steps of the kernel. -/
def PC.kernel : PC → Bool
  | .fsChange _ | .fsPath _ | .fsGone | .dRemove => true
  | _ => false

theorem ran_kernel {c : Cfg} {i : Nat} {s s' : Sh} {x y : PC} {b : Bool} (hr : Ran c i s x s' y b)
    (hk : x.kernel = true) : Calm s s' ∧ (y = .idle ∧ x ≠ .dRemove ∨ y = .dNotify ∧ x = .dRemove) := by
  cases hr <;> first | (cases hk; done) | skip
  case fsChange e => exact ⟨feed_calm s e, Or.inl ⟨rfl, nofun⟩⟩
  case fsPath ok =>
    exact ⟨⟨rfl, rfl, rfl, rfl, rfl, rfl, rfl, rfl, rfl, rfl, rfl, rfl, rfl, rfl, rfl, rfl⟩, Or.inl ⟨rfl, nofun⟩⟩
  case fsGone => exact ⟨gone_calm s, Or.inl ⟨rfl, nofun⟩⟩
  case dRemove => exact ⟨unwatch_calm s, Or.inr ⟨rfl, rfl⟩⟩

theorem ran_event {c : Cfg} {i : Nat} {s s' : Sh} {x y : PC} {b : Bool} (hx : Loc s i x) (hr : Ran c i s x s' y b) :
    (y.hasEvent = true ↔ s'.event = some i) := by
  have h := hx.event
  cases hk : x.kernel with
  | true =>
    obtain ⟨hc, ho⟩ := ran_kernel hr hk
    rw [hc.event, ← h]
    rcases ho with ⟨rfl, hd⟩ | ⟨rfl, rfl⟩
    · cases x <;> first | exact Iff.rfl | exact absurd rfl hd | cases hk
    · exact Iff.rfl
  | false =>
    cases hr <;> first
      | (cases hk; done)
      | exact h
      | exact ⟨fun _ => rfl, fun _ => rfl⟩
      | (rename_i t _; cases t <;> exact h)
      | (rename_i t; cases t <;> exact h)
      | exact ⟨nofun, nofun⟩

theorem ran_internal {c : Cfg} {i : Nat} {s s' : Sh} {x y : PC} {b : Bool} (hx : Loc s i x)
    (hr : Ran c i s x s' y b) : (y.hasInternal = true ↔ s'.internal = some i) := by
  have h := hx.internal
  cases hk : x.kernel with
  | true =>
    obtain ⟨hc, ho⟩ := ran_kernel hr hk
    rw [hc.internal, ← h]
    rcases ho with ⟨rfl, hd⟩ | ⟨rfl, rfl⟩
    · cases x <;> first | exact Iff.rfl | exact absurd rfl hd | cases hk
    · exact Iff.rfl
  | false =>
    cases hr <;> first
      | (cases hk; done)
      | exact h
      | exact ⟨fun _ => rfl, fun _ => rfl⟩
      | (rename_i t _; cases t <;> exact h)
      | (rename_i t; cases t <;> exact h)
      | exact ⟨nofun, nofun⟩

theorem ran_cbm {c : Cfg} {i : Nat} {s s' : Sh} {x y : PC} {b : Bool} (hx : Loc s i x)
    (hr : Ran c i s x s' y b) : (y.hasCbm = true ↔ s'.cbm = some i) := by
  have h := hx.cbm
  cases hk : x.kernel with
  | true =>
    obtain ⟨hc, ho⟩ := ran_kernel hr hk
    rw [hc.cbm, ← h]
    rcases ho with ⟨rfl, hd⟩ | ⟨rfl, rfl⟩
    · cases x <;> first | exact Iff.rfl | exact absurd rfl hd | cases hk
    · exact Iff.rfl
  | false =>
    cases hr <;> first
      | (cases hk; done)
      | exact h
      | exact ⟨fun _ => rfl, fun _ => rfl⟩
      | (rename_i t _; cases t <;> exact h)
      | (rename_i t; cases t <;> exact h)
      | exact ⟨nofun, nofun⟩

theorem ran_isW {c : Cfg} {i : Nat} {s s' : Sh} {x y : PC} {b : Bool} (hx : Loc s i x) (hr : Ran c i s x s' y b) :
    (y.isW = true ↔ i = 0) := by
  have h := hx.isW
  cases hr <;> exact h

theorem ran_isC {c : Cfg} {i : Nat} {s s' : Sh} {x y : PC} {b : Bool} (hx : Loc s i x) (hr : Ran c i s x s' y b) :
    (y.isC = true ↔ i = 1) := by
  have h := hx.isC
  cases hr <;> first | exact h | (rename_i t _; cases t <;> exact h) | (rename_i t; cases t <;> exact h)

/-- A step of another thread keeps what a thread has. -/
theorem owner_keep {i j : Nat} {o o' : Option Nat} {p : Bool} (hj : j ≠ i) (h : p = true ↔ o = some j)
    (ho : o' = o ∨ (o = none ∧ o' = some i) ∨ (o = some i ∧ o' = none)) : p = true ↔ o' = some j := by
  rcases ho with rfl | ⟨rfl, rfl⟩ | ⟨rfl, rfl⟩
  · exact h
  · rw [h]
    exact ⟨nofun, fun e => absurd (Option.some.inj e).symm hj⟩
  · rw [h]
    exact ⟨fun e => absurd (Option.some.inj e).symm hj, nofun⟩

theorem ran_event_other {c : Cfg} {i : Nat} {s s' : Sh} {x y : PC} {b : Bool} (hx : Loc s i x)
    (hr : Ran c i s x s' y b) :
    s'.event = s.event ∨ (s.event = none ∧ s'.event = some i) ∨ (s.event = some i ∧ s'.event = none) := by
  have h := hx.event
  cases hk : x.kernel with
  | true => exact Or.inl (ran_kernel hr hk).1.event
  | false =>
    cases hr <;> first
      | (cases hk; done)
      | exact Or.inl rfl
      | exact Or.inr (Or.inl ⟨by assumption, rfl⟩)
      | exact Or.inr (Or.inr ⟨h.1 rfl, rfl⟩)
      | (rename_i t _; cases t <;> exact Or.inl rfl)
      | (rename_i t; cases t <;> exact Or.inl rfl)

theorem ran_internal_other {c : Cfg} {i : Nat} {s s' : Sh} {x y : PC} {b : Bool} (hx : Loc s i x)
    (hr : Ran c i s x s' y b) : s'.internal = s.internal ∨ (s.internal = none ∧ s'.internal = some i) ∨
      (s.internal = some i ∧ s'.internal = none) := by
  have h := hx.internal
  cases hk : x.kernel with
  | true => exact Or.inl (ran_kernel hr hk).1.internal
  | false =>
    cases hr <;> first
      | (cases hk; done)
      | exact Or.inl rfl
      | exact Or.inr (Or.inl ⟨by assumption, rfl⟩)
      | exact Or.inr (Or.inr ⟨h.1 rfl, rfl⟩)
      | (rename_i t _; cases t <;> exact Or.inl rfl)
      | (rename_i t; cases t <;> exact Or.inl rfl)

theorem ran_cbm_other {c : Cfg} {i : Nat} {s s' : Sh} {x y : PC} {b : Bool} (hx : Loc s i x)
    (hr : Ran c i s x s' y b) : s'.cbm = s.cbm ∨ (s.cbm = none ∧ s'.cbm = some i) ∨
      (s.cbm = some i ∧ s'.cbm = none) := by
  have h := hx.cbm
  cases hk : x.kernel with
  | true => exact Or.inl (ran_kernel hr hk).1.cbm
  | false =>
    cases hr <;> first
      | (cases hk; done)
      | exact Or.inl rfl
      | exact Or.inr (Or.inl ⟨by assumption, rfl⟩)
      | exact Or.inr (Or.inr ⟨h.1 rfl, rfl⟩)
      | (rename_i t _; cases t <;> exact Or.inl rfl)
      | (rename_i t; cases t <;> exact Or.inl rfl)

theorem wfact_congr {s s' : Sh} {z : PC} (h1 : s'.wt = s.wt) (h2 : s'.parsed = s.parsed)
    (h3 : s'.destroy = s.destroy) (h4 : s'.running = s.running) (h : z.wfact s) : z.wfact s' := by
  cases z <;> first | exact trivial | (simpa only [PC.wfact, h1, h2, h3, h4] using h)

theorem cfact_congr {s s' : Sh} {z : PC} (h1 : s'.ct = s.ct) (h2 : s'.batch = s.batch)
    (h3 : s'.destroy = s.destroy) (h4 : s'.present = s.present) (h : z.cfact s) : z.cfact s' := by
  cases z <;> first
    | exact trivial
    | (simpa only [PC.cfact, h1, h2, h3, h4] using h)
    | (rename_i t; cases t <;> first | exact trivial | (simpa only [PC.cfact, h1, h2, h3, h4] using h))

theorem mods_append (xs ys : List (Str × Change)) : mods (xs ++ ys) = mods xs ++ mods ys := by
  simp [mods, List.filter_append]

theorem notes_append (f : Filter) (xs ys : List Ev) : notes f (xs ++ ys) = notes f xs ++ notes f ys := by
  simp [notes, List.filterMap_append]

theorem feed_flow {c : Cfg} {s : Sh} (e : Ev) (h : mods (notes c.filter s.fed) =
    s.tried ++ mods s.batch ++ mods s.info ++ mods s.parsed ++ mods (notes c.filter s.queue)) :
    mods (notes c.filter (s.feed e).fed) = s.tried ++ mods s.batch ++ mods s.info ++ mods s.parsed ++
      mods (notes c.filter (s.feed e).queue) := by
  unfold Sh.feed
  split
  · simp only [notes_append, mods_append, h, List.append_assoc]
  · exact h

/-- Events pass from the kernel to the callback without being lost, repeated or reordered. -/
theorem ran_flow {c : Cfg} {i : Nat} {s s' : Sh} {x y : PC} {b : Bool} (hr : Ran c i s x s' y b) (hw : x.wfact s)
    (hc : x.cfact s) (h : mods (notes c.filter s.fed) =
      s.tried ++ mods s.batch ++ mods s.info ++ mods s.parsed ++ mods (notes c.filter s.queue)) :
    mods (notes c.filter s'.fed) =
      s'.tried ++ mods s'.batch ++ mods s'.info ++ mods s'.parsed ++ mods (notes c.filter s'.queue) := by
  have step : ∀ (t : Bool), PC.cfact s (.evTest t) → mods (notes c.filter s.fed) = (s.next t).tried ++
      mods (s.next t).batch ++ mods s.info ++ mods s.parsed ++ mods (notes c.filter s.queue) := by
    intro t ht
    cases t with
    | false => exact h
    | true =>
      obtain ⟨-, -, p, rest, hb⟩ := ht
      rw [h]
      have h1 : mods s.batch = p :: mods rest := by rw [hb]; rfl
      have h2 : (s.next true).tried = s.tried ++ [p] := by simp [Sh.next, hb]
      have h3 : (s.next true).batch = rest := by simp [Sh.next, hb]
      rw [h1, h2, h3]
      simp
  cases hr <;> first | exact h | skip
  case fsChange e =>
    have hf := feed_calm s e
    rw [hf.tried, hf.batch, hf.info, hf.parsed]
    exact feed_flow e h
  case fsGone =>
    have hf := feed_calm s ignored
    have := feed_flow ignored h
    rw [← hf.tried, ← hf.batch, ← hf.info, ← hf.parsed] at this
    exact this
  case dRemove =>
    have hf := feed_calm s ignored
    have := feed_flow ignored h
    rw [← hf.tried, ← hf.batch, ← hf.info, ← hf.parsed] at this
    exact this
  case makeYes => rfl
  case evNo t hs =>
    have := step t hc
    cases t <;> exact this
  case evCall t =>
    have := step t (by cases t <;> exact hc)
    cases t <;> exact this
  case wRead hq =>
    have hp : s.parsed = [] := hw.2.1
    rw [hp] at h
    show mods (notes c.filter s.fed) = s.tried ++ mods s.batch ++ mods s.info ++
      mods (notes c.filter (s.queue.take (max 1 (c.fit s.queue)))) ++
      mods (notes c.filter (s.queue.drop (max 1 (c.fit s.queue))))
    rw [List.append_assoc, ← mods_append, ← notes_append, List.take_append_drop, h]
    simp [mods]
  case wPush hq =>
    show mods (notes c.filter s.fed) = s.tried ++ mods s.batch ++ mods (s.info ++ s.parsed) ++ mods [] ++
      mods (notes c.filter s.queue)
    rw [mods_append, h]
    simp [mods]
  case cSwap =>
    have hp : s.batch = [] := hc.2.2
    rw [hp] at h
    show mods (notes c.filter s.fed) = s.tried ++ mods s.info ++ mods [] ++ mods s.parsed ++
      mods (notes c.filter s.queue)
    rw [h]
    simp [mods]
  case cNextSkip p k rest hb hk =>
    rw [h]
    show _ = s.tried ++ mods rest ++ mods s.info ++ mods s.parsed ++ mods (notes c.filter s.queue)
    have h1 : mods s.batch = mods rest := by rw [hb]; simp [mods, hk]
    rw [h1]

/-- Two threads cannot have the same mutex. -/
theorem owner_other {i j : Nat} {o : Option Nat} {p q : Bool} (hj : j ≠ i) (h : p = true ↔ o = some i)
    (h' : q = true ↔ o = some j) (hq : q = true) : p = false := by
  cases p with
  | false => rfl
  | true => exact absurd (Option.some.inj ((h.1 rfl).symm.trans (h'.1 hq))).symm hj

/-- The next place of a thread with `event_mutex_`. -/
theorem ran_efact {c : Cfg} {i : Nat} {s s' : Sh} {x y : PC} {b : Bool} (hr : Ran c i s x s' y b)
    (hg : s.event = none → Cons s) (hf : x.efact s) : y.efact s' := by
  cases hr <;> first | exact trivial | exact hf | exact hg (by assumption) | skip
  case setFlag =>
    cases hs : s.set with
    | true =>
      refine ⟨⟨fun _ => hf.1 hs, nofun⟩, rfl⟩
    | false => exact ⟨rfl, hf.2 hs⟩
  case hookYes h => rw [hf.2.1] at h; cases h
  case makeYes h => exact ⟨hf.1, hf.2.1, rfl, rfl, Or.inl rfl, Or.inl rfl⟩
  case makeNo h => exact ⟨hf.1, hf.2.1, Or.inr hf.2.2⟩
  case setWait h => exact ⟨hf.1, hf.2.1, Or.inl ⟨hf.2.2, h⟩⟩
  case setStarted => exact ⟨⟨fun _ => ⟨rfl, hf.2.2⟩, fun h => absurd (hf.1.symm.trans h) nofun⟩, hf.1⟩
  case unsetYes h => exact ⟨hf, h⟩
  case unsetNo h => exact ⟨hf, h⟩
  case unsetFlag => exact ⟨rfl, (hf.1.1 hf.2).1, (hf.1.1 hf.2).2⟩
  case stopYes h hp =>
    rcases hf.2.2 with ⟨ho, -⟩ | ho
    · exact ⟨hf.1, hf.2.1, ho⟩
    · rw [ho.1] at hp; cases hp
  case stopNull h hp =>
    rcases hf.2.2 with ⟨ho, -⟩ | ho
    · rw [ho.1] at hp; cases hp
    · exact ⟨hf.1, hf.2.1, ho⟩
  case stopNo h => rw [hf.2.1] at h; cases h
  case dFlag =>
    obtain ⟨h1, h2, h3, h4, h5, h6⟩ := hf
    refine ⟨h1, h2, h3, rfl, fun e => ?_, fun e => ?_⟩
    · rcases h5 with h5 | h5 <;> exact absurd (h5.symm.trans e) nofun
    · rcases h6 with h5 | h5 <;> exact absurd (h5.symm.trans e) nofun
  case dRemove => exact (unwatch_upd s).efact (z := .dNotify) hf
  case dJoinW h => exact ⟨hf.1, hf.2.1, hf.2.2.1, hf.2.2.2.1, rfl, hf.2.2.2.2.2⟩
  case dJoinC h => exact ⟨hf.1, hf.2.1, rfl, hf.2.2.2.2.1, rfl⟩
  case unsetStopped => exact ⟨⟨fun h => absurd (hf.1.symm.trans h) nofun, fun _ => ⟨rfl, hf.2.2⟩⟩, hf.1⟩

/-- The next place of thread 0. -/
theorem ran_wfact {c : Cfg} {i : Nat} {s s' : Sh} {x y : PC} {b : Bool} (hr : Ran c i s x s' y b)
    (hf : x.wfact s) : y.wfact s' := by
  cases hr <;> first | exact trivial | exact hf | skip
  case wOff h => exact ⟨rfl, hf.2⟩
  case wRun => exact ⟨hf.1, hf.2, rfl⟩
  case wStop h => exact ⟨hf.1, hf.2.1, h, hf.2.2⟩
  case wRead h => exact ⟨hf.1, hf.2.2⟩
  case wPush h => exact ⟨hf.1, rfl, hf.2⟩
  case wEnd => exact ⟨nofun, hf.2.1⟩

/-- The next place of thread 1. -/
theorem ran_cfact {c : Cfg} {i : Nat} {s s' : Sh} {x y : PC} {b : Bool} (hr : Ran c i s x s' y b)
    (hg : s.ct ≠ .none → s.present = true) (hf : x.cfact s) : y.cfact s' := by
  cases hr <;> first | exact trivial | exact hf | skip
  case evLock t h => cases t <;> exact hf
  case evYes t h => cases t <;> exact hf
  case evNo t h =>
    cases t with
    | false => exact trivial
    | true => exact ⟨hf.1, hf.2.1⟩
  case evCall t =>
    cases t with
    | false => exact trivial
    | true => exact ⟨hf.1, hf.2.1⟩
  case cOff h => exact ⟨rfl, hg (by rw [h]; nofun), hf.2⟩
  case cStop h => exact ⟨hf.1, hf.2.1, hf.2.2, h⟩
  case cSwap => exact ⟨hf.1, hf.2.1⟩
  case cNextEnd h => exact ⟨hf.1, hf.2, h⟩
  case cNextMod p rest h => exact ⟨hf.1, hf.2, p, rest, h⟩
  case cEnd => exact ⟨nofun, hf.2.2.1⟩

theorem spawned_ne : Thread.spawned ≠ .running := nofun

theorem none_ne : Thread.none ≠ .running := nofun

theorem other_wfact {c : Cfg} {i : Nat} {s s' : Sh} {x y z : PC} {b : Bool} (hr : Ran c i s x s' y b)
    (he : x.efact s) (hx : x.isW = false) (hf : z.wfact s) : z.wfact s' := by
  cases hk : x.kernel with
  | true => have h := (ran_kernel hr hk).1; exact wfact_congr h.wt h.parsed h.destroy h.running hf
  | false =>
    cases hr <;> first
      | (cases hk; done)
      | (cases hx; done)
      | exact wfact_congr rfl rfl rfl rfl hf
      | (rename_i t _; cases t <;> exact wfact_congr rfl rfl rfl rfl hf)
      | (rename_i t; cases t <;> exact wfact_congr rfl rfl rfl rfl hf)
      | skip
    case makeYes h =>
      have hn : s.wt = .none := he.2.2.2.1
      cases z <;> first
        | exact trivial
        | exact ⟨spawned_ne, rfl⟩
        | (simp only [PC.wfact, hn] at hf; simp at hf)
    case dFlag => cases z <;> first | exact trivial | exact hf | exact ⟨hf.1, hf.2.1, rfl, hf.2.2.2⟩
    case dJoinW h =>
      cases z <;> first
        | exact trivial
        | exact ⟨none_ne, hf.2⟩
        | (simp only [PC.wfact, h] at hf; simp at hf)

theorem other_cfact {c : Cfg} {i : Nat} {s s' : Sh} {x y z : PC} {b : Bool} (hr : Ran c i s x s' y b)
    (he : x.efact s) (hx : x.isC = false) (hf : z.cfact s) : z.cfact s' := by
  cases hk : x.kernel with
  | true => have h := (ran_kernel hr hk).1; exact cfact_congr h.ct h.batch h.destroy h.present hf
  | false =>
    cases hr <;> first
      | (cases hk; done)
      | (cases hx; done)
      | exact cfact_congr rfl rfl rfl rfl hf
      | (rename_i t _; cases t <;> first | (cases hx; done) | exact cfact_congr rfl rfl rfl rfl hf)
      | (rename_i t; cases t <;> first | (cases hx; done) | exact cfact_congr rfl rfl rfl rfl hf)
      | skip
    case makeYes h =>
      have hn : s.ct = .none := he.2.2.2.2
      cases z <;> first
        | exact trivial
        | exact ⟨spawned_ne, rfl⟩
        | (simp only [PC.cfact, hn] at hf; simp at hf; done)
        | (rename_i t; cases t <;> first | exact trivial | (simp only [PC.cfact, hn] at hf; simp at hf))
    case dFlag =>
      cases z <;> first
        | exact trivial
        | exact hf
        | exact ⟨hf.1, hf.2.1, hf.2.2.1, rfl⟩
        | (rename_i t; cases t <;> exact hf)
    case dJoinC h =>
      cases z <;> first
        | exact trivial
        | exact ⟨none_ne, hf.2⟩
        | (simp only [PC.cfact, h] at hf; simp at hf; done)
        | (rename_i t; cases t <;> first | exact trivial | (simp only [PC.cfact, h] at hf; simp at hf))

theorem other_ifact {c : Cfg} {i : Nat} {s s' : Sh} {x y z : PC} {b : Bool} (hr : Ran c i s x s' y b)
    (hx : x.hasInternal = false) (hf : z.ifact s) : z.ifact s' := by
  have hs : s'.set = s.set := by
    cases hk : x.kernel with
    | true => exact (ran_kernel hr hk).1.set
    | false => cases hr <;> first | (cases hk; done) | (cases hx; done) | rfl
  cases z <;> first | exact trivial | exact hs.trans hf

/-- The callback is called for every file for which there is an event, while it is set. -/
theorem ran_called {c : Cfg} {i : Nat} {s s' : Sh} {x y : PC} {b : Bool} (hr : Ran c i s x s' y b) (he : x.efact s)
    (hc : x.cfact s) (hi : x.ifact s) (h : s.called <+: s.tried)
    (ha : s.set = true → s.present = true → s.called = s.tried) :
    s'.called <+: s'.tried ∧ (s'.set = true → s'.present = true → s'.called = s'.tried) := by
  cases hk : x.kernel with
  | true =>
    have hq := (ran_kernel hr hk).1
    rw [hq.called, hq.tried, hq.set, hq.present]
    exact ⟨h, ha⟩
  | false =>
    cases hr <;> first | (cases hk; done) | exact ⟨h, ha⟩ | skip
    case setFlag =>
      refine ⟨h, fun _ hp => ?_⟩
      cases hs : s.set with
      | true => exact ha hs hp
      | false => have h1 := (he.2 hs).2.1; exact absurd (h1.symm.trans hp) nofun
    case makeYes => exact ⟨List.prefix_refl _, fun _ _ => rfl⟩
    case unsetFlag => exact ⟨h, nofun⟩
    case dJoinC => exact ⟨h, nofun⟩
    case evNo t hs =>
      cases t with
      | false => exact ⟨h, ha⟩
      | true => exact ⟨h.trans (List.prefix_append _ _), fun h1 => absurd (hs.symm.trans h1) nofun⟩
    case evCall t =>
      cases t with
      | false => exact ⟨h, ha⟩
      | true =>
        have h1 := ha hi hc.2.1
        have h2 : (((s.call true).next true).called) = ((s.call true).next true).tried := by
          show s.called ++ _ = s.tried ++ _
          rw [h1]
          rfl
        exact ⟨by rw [h2]; exact List.prefix_refl _, fun _ _ => h2⟩

theorem local_ {c : Cfg} (hp : c.callback = .plain) : (prog c).Local (fun _ => True) (Glob c) Loc where
  start := by
    intro sh i x op y _ _ hx hy
    cases x with
    | idle =>
      cases op <;> cases hy <;>
        exact ⟨hx.event, hx.internal, hx.cbm, hx.isW, hx.isC, trivial, trivial, trivial, trivial, nofun⟩
    | _ => cases op <;> cases hy
  shared := by
    intro sh i x sh' y b hg hx hr
    have hr := run_ran hp hr
    have hf := hx.efact
    have hd := ran_called hr hf hx.cfact hx.ifact hg.called hg.all
    refine ⟨fun hn => ?_, ?_, ?_, ?_, ran_flow hr hx.wfact hx.cfact hg.flow, hd.1, hd.2⟩
    · cases hxe : x.hasEvent with
      | false =>
        have hu := ran_upd hr hx.wfact hx.cfact hxe
        refine hu.cons (hg.cons ?_)
        rcases ran_event_other hx hr with h | ⟨h, -⟩ | ⟨h, -⟩
        · exact h.symm.trans hn
        · exact h
        · rw [hx.event.2 h] at hxe; cases hxe
      | true =>
        have h1 : y.hasEvent = false := by
          cases h : y.hasEvent with
          | false => rfl
          | true => rw [(ran_event hx hr).1 h] at hn; cases hn
        cases hr <;> first | (cases hxe; done) | (cases h1; done) | exact hf.1 | (rename_i t; cases t <;> cases h1)
    · cases hk : x.kernel with
      | true => have h := (ran_kernel hr hk).1; rw [h.wt, h.present]; exact hg.wt
      | false =>
        have hwt := hg.wt
        cases hr <;> first
          | (cases hk; done)
          | exact hwt
          | exact fun _ => rfl
          | exact fun h => absurd rfl h
          | (rename_i t _; cases t <;> exact hwt)
          | (rename_i t; cases t <;> exact hwt)
          | skip
        case dJoinC h => exact fun h => absurd hf.2.2.2.2.1 h
        case wOff h => exact fun _ => hwt (by rw [h]; nofun)
        case wEnd => exact fun _ => hwt (by rw [hx.wfact.1]; nofun)
    · cases hk : x.kernel with
      | true => have h := (ran_kernel hr hk).1; rw [h.ct, h.present]; exact hg.ct
      | false =>
        have hct := hg.ct
        cases hr <;> first
          | (cases hk; done)
          | exact hct
          | exact fun _ => rfl
          | exact fun h => absurd rfl h
          | (rename_i t _; cases t <;> exact hct)
          | (rename_i t; cases t <;> exact hct)
          | skip
        case cOff h => exact fun _ => hct (by rw [h]; nofun)
        case cEnd => exact fun _ => hx.cfact.2.1
    · clear hd
      have hl := hg.dead
      cases hk : x.kernel with
      | true => exact (ran_kernel hr hk).1.dead.trans hl
      | false =>
        cases hr <;> first
          | (cases hk; done)
          | exact hl
          | (rename_i t _; cases t <;> exact hl)
          | (rename_i t; cases t <;> exact hl)
  run := by
    intro sh i x sh' y b hg hx hr
    have hr := run_ran hp hr
    refine ⟨ran_event hx hr, ran_internal hx hr, ran_cbm hx hr, ran_isW hx hr, ran_isC hx hr,
      ran_efact hr hg.cons hx.efact, ran_wfact hr hx.wfact, ran_cfact hr hg.ct hx.cfact, ?_, ?_⟩
    · cases hr <;> first | exact trivial | assumption
    · rintro rfl
      cases hr with
      | cPredNo h hd => exact h
  other := by
    intro sh i x sh' y b j z hg hx hr hj hz
    have hr := run_ran hp hr
    refine ⟨owner_keep hj hz.event (ran_event_other hx hr), owner_keep hj hz.internal (ran_internal_other hx hr),
      owner_keep hj hz.cbm (ran_cbm_other hx hr), hz.isW, hz.isC, ?_, ?_, ?_, ?_, ?_⟩
    · cases hze : z.hasEvent with
      | false => have hf := hz.efact; cases z <;> first | exact trivial | exact hf.elim | cases hze
      | true => exact (ran_upd hr hx.wfact hx.cfact (owner_other hj hx.event hz.event hze)).efact hz.efact
    · cases hzw : z.isW with
      | false => cases z <;> first | exact trivial | cases hzw
      | true =>
        refine other_wfact hr hx.efact ?_ hz.wfact
        cases h : x.isW with
        | false => rfl
        | true => exact absurd ((hz.isW.1 hzw).trans (hx.isW.1 h).symm) hj
    · cases hzw : z.isC with
      | false => cases z <;> first | exact trivial | (cases hzw; done) | (rename_i t; cases t <;> first | exact trivial | cases hzw)
      | true =>
        refine other_cfact hr hx.efact ?_ hz.cfact
        cases h : x.isC with
        | false => rfl
        | true => exact absurd ((hz.isC.1 hzw).trans (hx.isC.1 h).symm) hj
    · cases hzi : z.hasInternal with
      | false => cases z <;> first | exact trivial | cases hzi
      | true => exact other_ifact hr (owner_other hj hx.internal hz.internal hzi) hz.ifact
    · rintro rfl
      have hn := hz.nap rfl
      have ho := owner_other hj hx.cbm hz.cbm rfl
      have hl := hz.cbm.1 rfl
      cases hk : x.kernel with
      | true => exact (ran_kernel hr hk).1.info.trans hn
      | false =>
        cases hr <;> first
          | (cases hk; done)
          | (cases ho; done)
          | exact hn
          | rfl
          | (rename_i t _; cases t <;> exact hn)
          | (rename_i t; cases t <;> exact hn)
          | (rename_i h; rw [h] at hl; cases hl)
  woken := by
    intro sh i x y hx hy
    cases x <;> cases hy
    exact ⟨hx.event, hx.internal, hx.cbm, hx.isW, hx.isC, trivial, trivial, hx.cfact, trivial, nofun⟩
  late := by
    intro sh i x y hx hy
    cases hy

theorem init_at {c : Cfg} {path : Bool} {n j : Nat} {x : PC} (h : (init c path n).pcs[j]? = some x) :
    (j = 0 ∧ x = .wOff) ∨ (j = 1 ∧ x = .cOff) ∨ (j ≠ 0 ∧ j ≠ 1 ∧ x = .idle) := by
  match j with
  | 0 => cases h; exact Or.inl ⟨rfl, rfl⟩
  | 1 => cases h; exact Or.inr (Or.inl ⟨rfl, rfl⟩)
  | j + 2 =>
    refine Or.inr (Or.inr ⟨nofun, nofun, ?_⟩)
    have h : (List.replicate n PC.idle)[j]? = some x := h
    exact (List.mem_replicate.1 (List.mem_of_getElem? h)).2

theorem inv {c : Cfg} (hc : c.callback = .plain) {path : Bool} {n : Nat} {s : Conf (prog c)}
    (h : (prog c).system.Reachable (init c path n) s) : (prog c).Inv (Glob c) Loc s := by
  refine System.ReachableBy.invariant (S := (prog c).system) (fun s => (prog c).Inv (Glob c) Loc s) ?_
    (fun s l s' hi hA hs => (local_ hc).step hi hA (Prog.step_stepped hs)) h
  refine ⟨⟨fun _ => ⟨nofun, fun _ => ⟨rfl, rfl, rfl, rfl⟩⟩, fun h => absurd rfl h, fun h => absurd rfl h, rfl, rfl, List.prefix_refl _, nofun⟩,
    fun j x hx => ?_⟩
  rcases init_at hx with ⟨rfl, rfl⟩ | ⟨rfl, rfl⟩ | ⟨h0, h1, rfl⟩
  · exact ⟨⟨nofun, nofun⟩, ⟨nofun, nofun⟩, ⟨nofun, nofun⟩, ⟨fun _ => rfl, fun _ => rfl⟩, ⟨nofun, nofun⟩, trivial,
      ⟨nofun, rfl⟩, trivial, trivial, nofun⟩
  · exact ⟨⟨nofun, nofun⟩, ⟨nofun, nofun⟩, ⟨nofun, nofun⟩, ⟨nofun, nofun⟩, ⟨fun _ => rfl, fun _ => rfl⟩, trivial,
      trivial, ⟨nofun, rfl⟩, trivial, nofun⟩
  · exact ⟨⟨nofun, nofun⟩, ⟨nofun, nofun⟩, ⟨nofun, nofun⟩, ⟨nofun, fun h => absurd h h0⟩, ⟨nofun, fun h => absurd h h1⟩,
      trivial, trivial, trivial, trivial, nofun⟩

/-- Thread 1 sleeps only while there is nothing for it, or thread 0 is about to notify it. -/
def Sleep {c : Cfg} (s : Conf (prog c)) : Prop :=
  ∀ (j : Nat) (z : PC), s.pcs[j]? = some z → (woken z).isSome →
    s.sh.info = [] ∨ ∃ (k : Nat) (w : PC), s.pcs[k]? = some w ∧ w = .wNotify

theorem sleep {c : Cfg} (hc : c.callback = .plain) {path : Bool} {n : Nat} {s : Conf (prog c)}
    (h : (prog c).system.Reachable (init c path n) s) : Sleep s := by
  suffices (prog c).Inv (Glob c) Loc s ∧ Sleep s from this.2
  refine System.ReachableBy.invariant (S := (prog c).system)
    (fun s => (prog c).Inv (Glob c) Loc s ∧ Sleep s) ?_ ?_ h
  · refine ⟨inv hc .init, fun j z hz hw => ?_⟩
    rcases init_at hz with ⟨-, rfl⟩ | ⟨-, rfl⟩ | ⟨-, -, rfl⟩ <;> cases hw
  · intro s l s' ⟨hi, hS⟩ hA hs
    refine ⟨(local_ hc).step hi hA (Prog.step_stepped hs), ?_⟩
    refine Prog.sleep_step (P := prog c) (fun sh _ => sh.info = []) (fun w => w = .wNotify)
      ?_ ?_ ?_ ?_ ?_ ?_ hS (Prog.step_stepped hs)
    · intro x op y hy
      cases x <;> cases op <;> cases hy <;> exact ⟨rfl, nofun⟩
    · intro x y hy
      cases x <;> cases hy
      exact ⟨rfl, nofun⟩
    · intro x y hy
      cases hy
    · intro i x sh y b hx hr hw
      have hl := hi.loc i x hx
      have hr := run_ran hc (i := i) (x := x) hr
      cases hr with
      | cSleep => exact hl.nap rfl
      | _ => cases hw
    · rintro i x sh y _ hr rfl
      have := run_ran hc (i := i) (x := .wNotify) hr
      cases this
    · intro i x sh y j z hx hr _ _ _ ha
      have hr := run_ran hc (i := i) (x := x) hr
      cases hk : x.kernel with
      | true => exact Or.inl ((ran_kernel hr hk).1.info.trans ha)
      | false =>
        cases hr <;> first
          | (cases hk; done)
          | exact Or.inr rfl
          | exact Or.inl ha
          | exact Or.inl rfl
          | (rename_i t _; cases t <;> exact Or.inl ha)
          | (rename_i t; cases t <;> exact Or.inl ha)

/-- The owners of the mutexes are threads. -/
def Owned {c : Cfg} (s : Conf (prog c)) : Prop :=
  (∀ j, s.sh.event = some j → j < s.pcs.length) ∧ (∀ j, s.sh.internal = some j → j < s.pcs.length) ∧
  (∀ j, s.sh.cbm = some j → j < s.pcs.length) ∧ 1 < s.pcs.length

theorem owned {c : Cfg} (hc : c.callback = .plain) {path : Bool} {n : Nat} {s : Conf (prog c)}
    (h : (prog c).system.Reachable (init c path n) s) : Owned s := by
  suffices (prog c).Inv (Glob c) Loc s ∧ Owned s from this.2
  refine System.ReachableBy.invariant (S := (prog c).system)
    (fun s => (prog c).Inv (Glob c) Loc s ∧ Owned s) ?_ ?_ h
  · exact ⟨inv hc .init, nofun, nofun, nofun, Nat.lt_add_left_iff_pos.2 (Nat.succ_pos _)⟩
  · intro s l s' ⟨hi, ho⟩ hA hs
    have hst := Prog.step_stepped hs
    refine ⟨(local_ hc).step hi hA hst, ?_⟩
    have hlen := Prog.stepped_length hst
    unfold Owned
    rw [hlen]
    rcases Prog.stepped_sh hst with h | ⟨i, x, y, b, -, hx, hr⟩
    · rw [h]; exact ho
    · have hlt : i < s.pcs.length := (List.getElem?_eq_some_iff.1 hx).1
      have hr := run_ran hc (i := i) (x := x) hr
      have hl := hi.loc i x hx
      have key : ∀ o o' : Option Nat, (∀ j, o = some j → j < s.pcs.length) →
          (o' = o ∨ (o = none ∧ o' = some i) ∨ (o = some i ∧ o' = none)) → ∀ j, o' = some j → j < s.pcs.length := by
        rintro o o' h (rfl | ⟨-, rfl⟩ | ⟨-, rfl⟩) j hj
        · exact h j hj
        · cases hj; exact hlt
        · cases hj
      exact ⟨key _ _ ho.1 (ran_event_other hl hr), key _ _ ho.2.1 (ran_internal_other hl hr),
        key _ _ ho.2.2.1 (ran_cbm_other hl hr), ho.2.2.2⟩

/-- Taking a mutex that is released again and again, while `K` is kept. -/
theorem acquires {P : Prog} (e : P.system.Execution) (hf : e.Fair) (I : Conf P → Prop) (hI : ∀ n, I (e.at_ n))
    (i : Nat) (x : P.PC) (ha : P.Active x) (K : Conf P → Prop) (free : P.Sh → Prop) (Q : Conf P → Prop)
    (hkeep : ∀ s l s', I s → I s' → s.pcs[i]? = some x → K s → P.Stepped s l s' → l ≠ .run i → K s' ∨ Q s')
    (hfree : e.LeadsTo (fun _ => True) (fun s => free s.sh))
    (hable : ∀ s : Conf P, I s → s.pcs[i]? = some x → K s → free s.sh → (P.run i s.sh x).isSome)
    (hdone : ∀ s s' : Conf P, I s → I s' → s.pcs[i]? = some x → K s → P.Stepped s (.run i) s' → Q s') :
    e.LeadsTo (fun s => s.pcs[i]? = some x ∧ K s) Q := by
  classical
  refine Prog.runs e hf I hI i x ha K Q hkeep ?_ hdone
  intro n hn
  by_cases hq : ∃ m, n ≤ m ∧ Q (e.at_ m)
  · obtain ⟨m, hm, h⟩ := hq
    exact ⟨m, hm, Or.inr h⟩
  · have hP : ∀ m, n ≤ m → (e.at_ m).pcs[i]? = some x ∧ K (e.at_ m) := by
      intro m hm
      induction hm with
      | refl => exact hn
      | step hm ih =>
        rename_i m
        rcases e.next m with ⟨-, h2⟩ | ⟨l, -, h2⟩
        · rw [h2]; exact ih
        · have hs := Prog.step_stepped h2
          by_cases hl : l = .run i
          · subst hl
            exact absurd ⟨m + 1, Nat.le_succ_of_le hm, hdone _ _ (hI m) (hI (m + 1)) ih.1 ih.2 hs⟩ hq
          · refine ⟨Prog.frame_active hs ih.1 ha hl, ?_⟩
            rcases hkeep _ _ _ (hI m) (hI (m + 1)) ih.1 ih.2 hs hl with h | h
            · exact h
            · exact absurd ⟨m + 1, Nat.le_succ_of_le hm, h⟩ hq
    obtain ⟨m, hm, h⟩ := hfree n trivial
    exact ⟨m, hm, Or.inl ⟨(hP m hm).1, hable _ (hI m) (hP m hm).1 (hP m hm).2 h⟩⟩

/-- What holds until `Q` still holds when something else is reached. -/
theorem keeps {S : System} (e : S.Execution) {A B : S.State → Prop} (I K Q : S.State → Prop) (hI : ∀ n, I (e.at_ n))
    (hK : ∀ s l s', I s → I s' → K s → S.step s l = some s' → K s' ∨ Q s') (h : e.LeadsTo A B) :
    e.LeadsTo (fun s => A s ∧ K s) (fun s => (B s ∧ K s) ∨ Q s) := by
  intro n ⟨ha, hk⟩
  obtain ⟨m, hm, hb⟩ := h n ha
  have : K (e.at_ m) ∨ ∃ k, n ≤ k ∧ Q (e.at_ k) := by
    clear hb
    induction hm with
    | refl => exact Or.inl hk
    | step hm ih =>
      rename_i m
      rcases ih with ih | ih
      · rcases e.next m with ⟨-, h2⟩ | ⟨l, -, h2⟩
        · rw [h2]; exact Or.inl ih
        · rcases hK _ _ _ (hI m) (hI (m + 1)) ih h2 with h | h
          · exact Or.inl h
          · exact Or.inr ⟨m + 1, Nat.le_succ_of_le hm, h⟩
      · exact Or.inr ih
  rcases this with h | ⟨k, hk, h⟩
  · exact ⟨m, hm, Or.inl ⟨hb, h⟩⟩
  · exact ⟨k, hk, Or.inr h⟩

end Verif.FileWatcher
