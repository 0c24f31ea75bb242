import Verif.Model.Stdin
import Verif.Lemmas.Prog
/-!
Invariants of `StdinEventHandler`.
-/
namespace Verif.Stdin
open Verif.Threads

/-- The branches of `run`. -/
inductive Ran (c : Callback) (i : Nat) (s : Sh) : PC → Sh → PC → Prop
  | setLock (h : s.event = none) : Ran c i s .setLock { s with event := some i } .setInternal
  | setInternal (h : s.internal = none) : Ran c i s .setInternal { s with internal := some i } .setFlag
  | setFlag : Ran c i s .setFlag { s with set := true } (.setRel s.set)
  | setChanged : Ran c i s (.setRel true) { s with internal := none } .setOut
  | setNew : Ran c i s (.setRel false) { s with internal := none } .setStart
  | setStart : Ran c i s .setStart { s with enabled := true } .setSpawn
  | setSpawn : Ran c i s .setSpawn
      { s with thread := .spawned, crashed := s.crashed || decide (s.thread ≠ .none) } .setOut
  | setOut : Ran c i s .setOut { s with event := none } .idle
  | unsetLock (h : s.event = none) : Ran c i s .unsetLock { s with event := some i } .unsetTest
  | unsetYes (h : s.set = true) : Ran c i s .unsetTest s .unsetInternal
  | unsetNo (h : s.set = false) : Ran c i s .unsetTest s .unsetOut
  | unsetInternal (h : s.internal = none) : Ran c i s .unsetInternal { s with internal := some i } .unsetFlag
  | unsetFlag : Ran c i s .unsetFlag { s with set := false } .unsetRel
  | unsetRel : Ran c i s .unsetRel { s with internal := none } .unsetStop
  | unsetStop : Ran c i s .unsetStop { s with enabled := false } .unsetJoin
  | unsetJoin (h : s.thread = .ended) : Ran c i s .unsetJoin { s with thread := .none } .unsetOut
  | unsetOut : Ran c i s .unsetOut { s with event := none } .idle
  | more : Ran c i s .more { s with count := s.count + 1, asked := s.asked + 1 } .idle
  | nextMore : Ran c i s .nextMore { s with count := s.count + 1, asked := s.asked + 1 } .nextTake
  | nextTake (t : Str) (rest : List Str) (h : s.queue = t :: rest) :
      Ran c i s .nextTake { s with queue := rest, results := s.results ++ [(i, t)] } .idle
  | typing (t : Str) : Ran c i s (.typing t) { s with input := s.input ++ [t], typed := s.typed ++ [t] } .idle
  | off (h : s.thread = .spawned) : Ran c i s .off { s with thread := .running } .wait
  | grant (h : s.enabled = true) (hc : 0 < s.count) :
      Ran c i s .wait { s with count := s.count - 1, taken := s.taken + 1 } .read
  | stop (h : s.enabled = false) : Ran c i s .wait s .finish
  | read (t : Str) (rest : List Str) (h : s.input = t :: rest) :
      Ran c i s .read { s with input := rest } (.evLock t)
  | evLock (t : Str) (h : s.internal = none) : Ran c i s (.evLock t) { s with internal := some i } (.evTest t)
  | evYes (t : Str) (h : s.set = true) : Ran c i s (.evTest t) s (.evCall t)
  | evNo (t : Str) (h : s.set = false) :
      Ran c i s (.evTest t) { s with log := s.log ++ [(t, false)] } .evRel
  | callPlain (t : Str) (h : c = .plain) : Ran c i s (.evCall t) { s with log := s.log ++ [(t, true)] } .evRel
  | callMore (t : Str) (h : c = .more) : Ran c i s (.evCall t) { s with log := s.log ++ [(t, true)] } .cbMore
  | callProduce (t : Str) (h : c = .produce) :
      Ran c i s (.evCall t) { s with log := s.log ++ [(t, true)], queue := s.queue ++ [t] } .evRel
  | callBack (t : Str) (h : c = .unset ∨ c = .change) :
      Ran c i s (.evCall t) { s with log := s.log ++ [(t, true)] } .cbLock
  | cbMore : Ran c i s .cbMore { s with count := s.count + 1, asked := s.asked + 1 } .evRel
  | cbLock (h : s.event = none) : Ran c i s .cbLock { s with event := some i } .cbFlag
  | cbUnset (h : c = .unset) : Ran c i s .cbFlag { s with set := false } .cbStop
  | cbChange (h : c ≠ .unset) : Ran c i s .cbFlag s .cbOut
  | cbStop : Ran c i s .cbStop { s with enabled := false } .cbJoin
  | cbJoin : Ran c i s .cbJoin { s with crashed := true } .dead
  | cbOut : Ran c i s .cbOut { s with event := none } .evRel
  | evRel : Ran c i s .evRel { s with internal := none } .wait
  | finish : Ran c i s .finish { s with thread := .ended } .off

theorem not_isSome {α : Type} {o : Option α} (h : ¬ o.isSome = true) : o = none := by
  cases o with
  | none => rfl
  | some a => exact absurd rfl h

theorem run_ran {c : Callback} {i : Nat} {s s' : Sh} {x y : PC} {b : Bool} (h : run c i s x = some (s', y, b)) :
    Ran c i s x s' y := by
  cases x with
  | idle | dead => cases h
  | setLock =>
    simp only [run] at h
    split at h
    · cases h
    · rename_i hl; cases h; exact .setLock (not_isSome hl)
  | setInternal =>
    simp only [run] at h
    split at h
    · cases h
    · rename_i hl; cases h; exact .setInternal (not_isSome hl)
  | unsetLock =>
    simp only [run] at h
    split at h
    · cases h
    · rename_i hl; cases h; exact .unsetLock (not_isSome hl)
  | unsetInternal =>
    simp only [run] at h
    split at h
    · cases h
    · rename_i hl; cases h; exact .unsetInternal (not_isSome hl)
  | cbLock =>
    simp only [run] at h
    split at h
    · cases h
    · rename_i hl; cases h; exact .cbLock (not_isSome hl)
  | evLock t =>
    simp only [run] at h
    split at h
    · cases h
    · rename_i hl; cases h; exact .evLock t (not_isSome hl)
  | setRel was =>
    cases was with
    | true => cases h; exact .setChanged
    | false => cases h; exact .setNew
  | setFlag => cases h; exact .setFlag
  | setStart => cases h; exact .setStart
  | setSpawn => cases h; exact .setSpawn
  | setOut => cases h; exact .setOut
  | unsetFlag => cases h; exact .unsetFlag
  | unsetRel => cases h; exact .unsetRel
  | unsetStop => cases h; exact .unsetStop
  | unsetOut => cases h; exact .unsetOut
  | more => cases h; exact .more
  | nextMore => cases h; exact .nextMore
  | cbMore => cases h; exact .cbMore
  | cbStop => cases h; exact .cbStop
  | cbJoin => cases h; exact .cbJoin
  | cbOut => cases h; exact .cbOut
  | evRel => cases h; exact .evRel
  | finish => cases h; exact .finish
  | typing t => cases h; exact .typing t
  | unsetTest =>
    cases hs : s.set with
    | true => simp only [run, hs] at h; cases h; exact .unsetYes hs
    | false => simp only [run, hs] at h; cases h; exact .unsetNo hs
  | evTest t =>
    simp only [run] at h
    split at h
    · rename_i hs; cases h; exact .evYes t hs
    · rename_i hs; cases h; exact .evNo t (by simpa using hs)
  | unsetJoin =>
    simp only [run] at h
    split at h
    · rename_i hl; cases h; exact .unsetJoin hl
    · cases h
  | off =>
    simp only [run] at h
    split at h
    · rename_i hl; cases h; exact .off hl
    · cases h
  | nextTake =>
    cases hq : s.queue with
    | nil => simp only [run, hq] at h; cases h
    | cons t rest => simp only [run, hq] at h; cases h; exact .nextTake t rest hq
  | read =>
    cases hq : s.input with
    | nil => simp only [run, hq] at h; cases h
    | cons t rest => simp only [run, hq] at h; cases h; exact .read t rest hq
  | wait =>
    simp only [run] at h
    split at h
    · rename_i he
      split at h
      · rename_i hc; cases h; exact .grant he hc
      · cases h
    · rename_i he; cases h; exact .stop (by simpa using he)
  | evCall t =>
    cases c with
    | plain => cases h; exact .callPlain t rfl
    | more => cases h; exact .callMore t rfl
    | produce => cases h; exact .callProduce t rfl
    | unset => cases h; exact .callBack t (Or.inl rfl)
    | change => cases h; exact .callBack t (Or.inr rfl)
  | cbFlag =>
    cases c with
    | unset => cases h; exact .cbUnset rfl
    | _ => cases h; exact .cbChange nofun

/-- The branches of `start`. -/
inductive Started : PC → PC → Prop
  | set : Started .idle .setLock
  | unset : Started .idle .unsetLock
  | more : Started .idle .more
  | next : Started .idle .nextMore
  | type (t : Str) : Started .idle (.typing t)

theorem start_started {x y : PC} {op : Op} (h : start x op = some y) : Started x y := by
  unfold start at h
  split at h
  · cases h; exact .set
  · cases h; exact .unset
  · cases h; exact .more
  · cases h; exact .next
  · cases h; exact .type _
  · cases h

/-- Places of the reading thread. -/
def PC.reader : PC → Bool
  | .off | .wait | .read | .evLock _ | .evTest _ | .evCall _ | .cbMore | .cbLock | .cbFlag | .cbStop | .cbJoin | .cbOut
  | .evRel | .finish | .dead => true
  | _ => false

/-- The line that has been read and not yet been given to the callback. -/
def PC.line : PC → List Str
  | .evLock t | .evTest t | .evCall t => [t]
  | _ => []

/-- Reading a line has begun, and it has not yet been given to the callback. -/
def PC.pending : PC → Nat
  | .read | .evLock _ | .evTest _ | .evCall _ => 1
  | _ => 0

/-! ### Lines, for all callbacks -/

/-- Lines are read in order, one for each time asked for. -/
structure LLoc (s : Sh) (i : Nat) (x : PC) : Prop where
  reader : x.reader = true ↔ i = 0
  lines : x.reader = true → s.typed = s.log.map Prod.fst ++ x.line ++ s.input
  taken : x.reader = true → s.taken = s.log.length + x.pending

/-- What is asked for and not taken is counted. -/
structure LGlob (s : Sh) : Prop where
  count : s.lines + s.asked = s.count + s.taken
  neg : 0 ≤ s.count ∨ s.taken = 0

theorem ran_lglob {c : Callback} {i : Nat} {s s' : Sh} {x y : PC} (hg : LGlob s) (hr : Ran c i s x s' y) :
    LGlob s' := by
  obtain ⟨h1, h2⟩ := hg
  cases hr with
  | more => exact ⟨by show s.lines + ((s.asked + 1 : Nat) : Int) = s.count + 1 + s.taken; omega,
      by show 0 ≤ s.count + 1 ∨ s.taken = 0; omega⟩
  | nextMore => exact ⟨by show s.lines + ((s.asked + 1 : Nat) : Int) = s.count + 1 + s.taken; omega,
      by show 0 ≤ s.count + 1 ∨ s.taken = 0; omega⟩
  | cbMore => exact ⟨by show s.lines + ((s.asked + 1 : Nat) : Int) = s.count + 1 + s.taken; omega,
      by show 0 ≤ s.count + 1 ∨ s.taken = 0; omega⟩
  | grant h hc => exact ⟨by show s.lines + (s.asked : Int) = s.count - 1 + ((s.taken + 1 : Nat) : Int); omega,
      Or.inl (by show 0 ≤ s.count - 1; omega)⟩
  | _ => exact ⟨h1, h2⟩

theorem ran_lloc {c : Callback} {i : Nat} {s s' : Sh} {x y : PC} (hx : LLoc s i x) (hr : Ran c i s x s' y) :
    LLoc s' i y := by
  obtain ⟨h1, h2, h3⟩ := hx
  cases hr with
  | off | stop | evRel | finish | cbMore | cbLock | cbUnset | cbChange | cbStop | cbJoin | cbOut | evLock | evYes =>
    exact ⟨h1, h2, h3⟩
  | grant h hc => exact ⟨h1, h2, fun _ => congrArg (· + 1) (h3 rfl)⟩
  | read t rest h =>
    refine ⟨h1, fun _ => ?_, h3⟩
    have := h2 rfl
    rw [h] at this
    simpa [PC.line] using this
  | evNo t _ | callPlain t _ | callMore t _ | callProduce t _ | callBack t _ =>
    refine ⟨h1, fun _ => ?_, fun _ => ?_⟩
    · have := h2 rfl
      simpa [PC.line] using this
    · have := h3 rfl
      simpa [PC.pending] using this
  | _ => exact ⟨h1, nofun, nofun⟩

theorem ran_lother {c : Callback} {i : Nat} {s s' : Sh} {x y : PC} (hx : LLoc s i x) (hr : Ran c i s x s' y)
    {j : Nat} (hj : j ≠ i) {z : PC} (hz : LLoc s j z) : LLoc s' j z := by
  obtain ⟨h1, h2, h3⟩ := hz
  cases hzr : z.reader with
  | false => exact ⟨h1, fun h => by rw [hzr] at h; (cases h), fun h => by rw [hzr] at h; (cases h)⟩
  | true =>
    have hxr : x.reader = false := by
      cases h : x.reader with
      | false => rfl
      | true => exact absurd ((h1.1 hzr).trans (hx.reader.1 h).symm) hj
    cases hr with
    | off | stop | evRel | finish | cbMore | cbLock | cbUnset | cbChange | cbStop | cbJoin | cbOut | evLock | evYes
    | grant | read | evNo | callPlain | callMore | callProduce | callBack => cases hxr
    | typing t =>
      refine ⟨h1, fun h => ?_, h3⟩
      show s.typed ++ [t] = _ ++ (s.input ++ [t])
      rw [h2 h, List.append_assoc]
    | _ => exact ⟨h1, h2, h3⟩

theorem lines_ (c : Callback) : (prog c).Local (fun _ => True) LGlob LLoc where
  start := by
    intro sh i x op y _ _ hx hy
    have hy := start_started hy
    cases hy <;> exact ⟨hx.reader, nofun, nofun⟩
  shared := fun _ _ _ _ _ _ hg _ hr => ran_lglob hg (run_ran hr)
  run := fun _ _ _ _ _ _ _ hx hr => ran_lloc hx (run_ran hr)
  other := fun _ _ _ _ _ _ _ _ _ hx hr hj hz => ran_lother hx (run_ran hr) hj hz
  woken := by
    intro sh i x y _ hy
    cases hy
  late := by
    intro sh i x y _ hy
    cases hy

theorem init_at {c : Callback} {k : Int} {n j : Nat} {x : PC} (h : (init c k n).pcs[j]? = some x) :
    (j = 0 ∧ x = .off) ∨ (j ≠ 0 ∧ x = .idle) := by
  cases j with
  | zero => cases h; exact Or.inl ⟨rfl, rfl⟩
  | succ j =>
    refine Or.inr ⟨nofun, ?_⟩
    have h : (List.replicate n PC.idle)[j]? = some x := h
    exact (List.mem_replicate.1 (List.mem_of_getElem? h)).2

theorem linv {c : Callback} {k : Int} {n : Nat} {s : Conf (prog c)}
    (h : (prog c).system.Reachable (init c k n) s) : (prog c).Inv LGlob LLoc s := by
  refine System.ReachableBy.invariant (S := (prog c).system) (fun s => (prog c).Inv LGlob LLoc s) ?_
    (fun s l s' hi hA hs => (lines_ c).step hi hA (Prog.step_stepped hs)) h
  refine ⟨⟨rfl, Or.inr rfl⟩, fun j x hx => ?_⟩
  rcases init_at hx with ⟨rfl, rfl⟩ | ⟨hj, rfl⟩
  · exact ⟨⟨fun _ => rfl, fun _ => rfl⟩, fun _ => rfl, fun _ => rfl⟩
  · exact ⟨⟨nofun, fun h => absurd h hj⟩, nofun, nofun⟩

/-! ### Mutexes and thread, for callbacks that neither set nor unset -/

/-- The callback neither sets nor unsets callbacks. -/
def Callback.tame : Callback → Bool
  | .plain | .more | .produce => true
  | _ => false

/-- The thread has `event_mutex_`. -/
def PC.hasEvent : PC → Bool
  | .setInternal | .setFlag | .setRel _ | .setStart | .setSpawn | .setOut | .unsetTest | .unsetInternal | .unsetFlag
  | .unsetRel | .unsetStop | .unsetJoin | .unsetOut => true
  | _ => false

/-- The thread has `internal_callback_mutex_`. -/
def PC.hasInternal : PC → Bool
  | .setFlag | .setRel _ | .unsetFlag | .unsetRel | .evTest _ | .evCall _ | .cbMore | .evRel => true
  | _ => false

/-- The thread exists exactly while a callback is set. -/
def Cons (s : Sh) : Prop :=
  (s.set = true → s.enabled = true ∧ (s.thread = .spawned ∨ s.thread = .running)) ∧
  (s.set = false → s.enabled = false ∧ s.thread = .none)

/-- Facts about the thread with `event_mutex_`; callbacks do not use it. -/
def PC.efact (s : Sh) : PC → Prop
  | .setInternal | .setFlag | .unsetTest => Cons s
  | .setRel true | .setOut | .unsetInternal | .unsetFlag => Cons s ∧ s.set = true
  | .setRel false | .setStart => s.set = true ∧ s.enabled = false ∧ s.thread = .none
  | .setSpawn => s.set = true ∧ s.enabled = true ∧ s.thread = .none
  | .unsetRel | .unsetStop => s.set = false ∧ s.enabled = true ∧ (s.thread = .spawned ∨ s.thread = .running)
  | .unsetJoin => s.set = false ∧ s.enabled = false ∧ s.thread ≠ .none
  | .unsetOut => Cons s ∧ s.set = false
  | .cbLock | .cbFlag | .cbStop | .cbJoin | .cbOut | .dead => False
  | _ => True

/-- Facts about the reading thread. -/
def PC.tfact (s : Sh) : PC → Prop
  | .off => s.thread ≠ .running
  | .finish => s.thread = .running ∧ s.enabled = false
  | .wait | .read | .evLock _ | .evTest _ | .evCall _ | .cbMore | .evRel => s.thread = .running
  | _ => True

/-- Facts about the thread with `internal_callback_mutex_`. -/
def PC.ifact (s : Sh) : PC → Prop
  | .evCall _ | .cbMore => s.set = true
  | _ => True

/-- Facts about one thread. -/
structure Loc (s : Sh) (i : Nat) (x : PC) : Prop where
  event : x.hasEvent = true ↔ s.event = some i
  internal : x.hasInternal = true ↔ s.internal = some i
  reader : x.reader = true ↔ i = 0
  efact : x.efact s
  tfact : x.tfact s
  ifact : x.ifact s

/-- Facts about the handler. -/
structure Glob (s : Sh) : Prop where
  cons : s.event = none → Cons s
  crashed : s.crashed = false

section
variable {c : Callback} (ht : c.tame = true) {i : Nat} {s s' : Sh} {x y : PC}

theorem ran_event (hx : Loc s i x) (hr : Ran c i s x s' y) : (y.hasEvent = true ↔ s'.event = some i) := by
  have h := hx.event
  have he := hx.efact
  cases hr <;> first | exact he.elim | exact h | exact ⟨fun _ => rfl, fun _ => rfl⟩ | exact ⟨nofun, nofun⟩

theorem ran_event_other (hx : Loc s i x) (hr : Ran c i s x s' y) :
    s'.event = s.event ∨ (s.event = none ∧ s'.event = some i) ∨ (s.event = some i ∧ s'.event = none) := by
  have h := hx.event
  have he := hx.efact
  cases hr <;> first
    | exact he.elim
    | exact Or.inl rfl
    | exact Or.inr (Or.inl ⟨by assumption, rfl⟩)
    | exact Or.inr (Or.inr ⟨h.1 rfl, rfl⟩)

theorem ran_internal_other (hx : Loc s i x) (hr : Ran c i s x s' y) :
    s'.internal = s.internal ∨ (s.internal = none ∧ s'.internal = some i) ∨
      (s.internal = some i ∧ s'.internal = none) := by
  have h := hx.internal
  cases hr <;> first
    | exact Or.inl rfl
    | exact Or.inr (Or.inl ⟨by assumption, rfl⟩)
    | exact Or.inr (Or.inr ⟨h.1 rfl, rfl⟩)

theorem ran_reader (hx : Loc s i x) (hr : Ran c i s x s' y) : (y.reader = true ↔ i = 0) := by
  have h := hx.reader
  cases hr <;> exact h

include ht in
theorem ran_internal (hx : Loc s i x) (hr : Ran c i s x s' y) : (y.hasInternal = true ↔ s'.internal = some i) := by
  have h := hx.internal
  have he := hx.efact
  cases hr with
  | callBack t hc => rcases hc with rfl | rfl <;> cases ht
  | cbLock | cbUnset | cbChange | cbStop | cbJoin | cbOut => exact he.elim
  | setInternal | unsetInternal | evLock => exact ⟨fun _ => rfl, fun _ => rfl⟩
  | setChanged | setNew | unsetRel | evRel => exact ⟨nofun, nofun⟩
  | _ => exact h

end

/-- A step of another thread keeps what a thread has. -/
theorem owner_keep {i j : Nat} {o o' : Option Nat} {p : Bool} (hj : j ≠ i) (h : p = true ↔ o = some j)
    (ho : o' = o ∨ (o = none ∧ o' = some i) ∨ (o = some i ∧ o' = none)) : p = true ↔ o' = some j := by
  rcases ho with rfl | ⟨rfl, rfl⟩ | ⟨rfl, rfl⟩
  · exact h
  · rw [h]
    exact ⟨nofun, fun e => absurd (Option.some.inj e).symm hj⟩
  · rw [h]
    exact ⟨fun e => absurd (Option.some.inj e).symm hj, nofun⟩

/-- The facts mention only the flags and the thread. -/
theorem efact_congr {s s' : Sh} {z : PC} (h1 : s'.set = s.set) (h2 : s'.enabled = s.enabled)
    (h3 : s'.thread = s.thread) (h : z.efact s) : z.efact s' := by
  cases z <;> first
    | exact trivial
    | exact h.elim
    | (simpa only [PC.efact, Cons, h1, h2, h3] using h)
    | (rename_i was; cases was <;> simpa only [PC.efact, Cons, h1, h2, h3] using h)

theorem tfact_congr {s s' : Sh} {z : PC} (h2 : s'.enabled = s.enabled) (h3 : s'.thread = s.thread) (h : z.tfact s) :
    z.tfact s' := by
  cases z <;> first | exact trivial | (simpa only [PC.tfact, h2, h3] using h)

/-- The reading thread starts to run. -/
theorem efact_off {s s' : Sh} {z : PC} (h1 : s'.set = s.set) (h2 : s'.enabled = s.enabled) (h0 : s.thread = .spawned)
    (h3 : s'.thread = .running) (h : z.efact s) : z.efact s' := by
  cases z <;> first
    | exact trivial
    | exact h.elim
    | (cases hs : s.set <;> simp only [PC.efact, Cons, h1, h2, h3, h0, hs] at h ⊢ <;> simp_all; done)
    | (rename_i was; cases was <;> (simp only [PC.efact, Cons, h1, h2, h3, h0] at h ⊢; simp_all))

/-- The reading thread ends. -/
theorem efact_finish {s s' : Sh} {z : PC} (h1 : s'.set = s.set) (h2 : s'.enabled = s.enabled) (h0 : s.thread = .running)
    (ha : s.enabled = false) (h3 : s'.thread = .ended) (h : z.efact s) : z.efact s' := by
  cases z <;> first
    | exact trivial
    | exact h.elim
    | (simp only [PC.efact, Cons, h1, h2, h3, h0, ha] at h ⊢; simp_all)
    | (rename_i was; cases was <;> (simp only [PC.efact, Cons, h1, h2, h3, h0, ha] at h ⊢; simp_all))

/-- A thread without `event_mutex_` changes neither flags nor thread, except the reading thread at its ends. -/
theorem ran_flags {c : Callback} {i : Nat} {s s' : Sh} {x y : PC} (hr : Ran c i s x s' y)
    (hx : x.hasEvent = false) (he : x.efact s) :
    (s'.set = s.set ∧ s'.enabled = s.enabled ∧ s'.thread = s.thread) ∨ x = .off ∨ x = .finish := by
  cases hr <;> first
    | exact Or.inl ⟨rfl, rfl, rfl⟩
    | exact Or.inr (Or.inl rfl)
    | exact Or.inr (Or.inr rfl)
    | (cases hx; done)
    | exact he.elim

theorem ran_cons {c : Callback} {i : Nat} {s s' : Sh} {x y : PC} (hg : s.event = none → Cons s) (hx : Loc s i x)
    (hr : Ran c i s x s' y) (hn : s'.event = none) : Cons s' := by
  have hf := hx.efact
  have htf := hx.tfact
  have hev := hx.event
  clear hx
  cases hr with
  | setOut => exact hf.1
  | unsetOut => exact hf.1
  | off h =>
    obtain ⟨h1, h2⟩ := hg hn
    refine ⟨fun e => ⟨(h1 e).1, Or.inr rfl⟩, fun e => ?_⟩
    have := (h2 e).2
    rw [h] at this
    cases this
  | finish =>
    obtain ⟨h1, h2⟩ := hg hn
    cases hs : s.set with
    | true => have := (h1 hs).1; rw [htf.2] at this; cases this
    | false => have := (h2 hs).2; rw [htf.1] at this; cases this
  | setLock | unsetLock | cbLock => cases hn
  | cbUnset | cbChange | cbStop | cbJoin | cbOut => exact hf.elim
  | setFlag | setStart | setSpawn | unsetFlag | unsetStop | unsetJoin =>
    have h := (hev.1 rfl).symm.trans hn
    cases h
  | _ => exact hg hn

theorem ran_crashed {c : Callback} {i : Nat} {s s' : Sh} {x y : PC} (hg : s.crashed = false) (hf : x.efact s)
    (hr : Ran c i s x s' y) : s'.crashed = false := by
  cases hr with
  | setSpawn =>
    show (s.crashed || decide (s.thread ≠ .none)) = false
    rw [hg, hf.2.2]
    rfl
  | cbJoin => exact hf.elim
  | _ => exact hg

theorem ran_efact {c : Callback} (ht : c.tame = true) {i : Nat} {s s' : Sh} {x y : PC} (hg : s.event = none → Cons s)
    (hf : x.efact s) (hr : Ran c i s x s' y) : y.efact s' := by
  cases hr with
  | setLock h => exact hg h
  | unsetLock h => exact hg h
  | setInternal => exact hf
  | setFlag =>
    obtain ⟨h1, h2⟩ := hf
    cases hs : s.set with
    | true => exact ⟨⟨fun _ => h1 hs, nofun⟩, rfl⟩
    | false => exact ⟨rfl, h2 hs⟩
  | setChanged => exact hf
  | setNew => exact hf
  | setStart => exact ⟨hf.1, rfl, hf.2.2⟩
  | setSpawn =>
    obtain ⟨h1, h2, h3⟩ := hf
    exact ⟨⟨fun _ => ⟨h2, Or.inl rfl⟩, fun e => by rw [show s.set = false from e] at h1; (cases h1)⟩, h1⟩
  | unsetYes h => exact ⟨hf, h⟩
  | unsetNo h => exact ⟨hf, h⟩
  | unsetInternal => exact hf
  | unsetFlag =>
    obtain ⟨⟨h1, -⟩, h2⟩ := hf
    exact ⟨rfl, (h1 h2).1, (h1 h2).2⟩
  | unsetRel => exact hf
  | unsetStop =>
    obtain ⟨h1, -, h2⟩ := hf
    refine ⟨h1, rfl, fun h => ?_⟩
    rw [show s.thread = .none from h] at h2
    rcases h2 with h | h <;> cases h
  | unsetJoin =>
    obtain ⟨h1, h2, -⟩ := hf
    exact ⟨⟨fun e => by rw [show s.set = true from e] at h1; (cases h1), fun _ => ⟨h2, rfl⟩⟩, h1⟩
  | callBack t hc => rcases hc with rfl | rfl <;> cases ht
  | cbLock | cbUnset | cbChange | cbStop | cbJoin | cbOut => exact hf.elim
  | _ => exact trivial

theorem ran_tfact {c : Callback} {i : Nat} {s s' : Sh} {x y : PC} (hf : x.tfact s) (he : x.efact s)
    (hr : Ran c i s x s' y) : y.tfact s' := by
  cases hr with
  | off => exact rfl
  | grant | read | evLock | evYes | evNo | callPlain | callMore | callProduce | cbMore | evRel => exact hf
  | stop h => exact ⟨hf, h⟩
  | finish => exact nofun
  | cbLock | cbUnset | cbChange | cbStop | cbJoin | cbOut => exact he.elim
  | _ => exact trivial

theorem ran_ifact {c : Callback} {i : Nat} {s s' : Sh} {x y : PC} (hf : x.ifact s) (hr : Ran c i s x s' y) :
    y.ifact s' := by
  cases hr with
  | evYes t h => exact h
  | callMore => exact hf
  | _ => exact trivial

theorem other_tfact {c : Callback} {i : Nat} {s s' : Sh} {x y z : PC} (hxt : x.reader = false) (he : x.efact s)
    (hzt : z.reader = true) (hf : z.tfact s) (hr : Ran c i s x s' y) : z.tfact s' := by
  have noth : s.thread = .none → z = .off ∨ z.tfact s' := by
    intro hn
    cases z <;> first
      | exact Or.inl rfl
      | exact Or.inr trivial
      | (have hf : s.thread = .running := hf; rw [hn] at hf; cases hf; done)
      | (have hf : s.thread = .running := hf.1; rw [hn] at hf; cases hf; done)
  cases hr with
  | setStart =>
    rcases noth he.2.2 with rfl | h
    · exact hf
    · exact h
  | setSpawn =>
    rcases noth he.2.2 with rfl | h
    · exact nofun
    · exact h
  | unsetStop =>
    cases z with
    | finish => exact ⟨hf.1, rfl⟩
    | _ => exact hf
  | unsetJoin h =>
    cases z with
    | off => exact nofun
    | wait | read | evLock | evTest | evCall | cbMore | evRel =>
      have hf : s.thread = .running := hf
      rw [h] at hf
      cases hf
    | finish =>
      have hf := hf.1
      rw [h] at hf
      cases hf
    | _ => exact trivial
  | off | stop | evRel | finish | cbMore | cbLock | cbUnset | cbChange | cbStop | cbJoin | cbOut | evLock | evYes
  | grant | read | evNo | callPlain | callMore | callProduce | callBack => cases hxt
  | _ => exact tfact_congr rfl rfl hf

theorem other_ifact {c : Callback} {i : Nat} {s s' : Sh} {x y z : PC} (hxi : x.hasInternal = false) (he : x.efact s)
    (hf : z.ifact s) (hr : Ran c i s x s' y) : z.ifact s' := by
  cases hr with
  | setFlag | unsetFlag => cases hxi
  | cbLock | cbUnset | cbChange | cbStop | cbJoin | cbOut => exact he.elim
  | _ => cases z <;> first | exact trivial | exact hf

theorem local_ {c : Callback} (ht : c.tame = true) : (prog c).Local (fun _ => True) Glob Loc where
  start := by
    intro sh i x op y _ _ hx hy
    have hy := start_started hy
    cases hy <;> exact ⟨hx.event, hx.internal, hx.reader, trivial, trivial, trivial⟩
  shared := fun _ _ _ _ _ _ hg hx hr =>
    ⟨ran_cons hg.cons hx (run_ran hr), ran_crashed hg.crashed hx.efact (run_ran hr)⟩
  run := fun _ _ _ _ _ _ hg hx hr =>
    ⟨ran_event hx (run_ran hr), ran_internal ht hx (run_ran hr), ran_reader hx (run_ran hr),
      ran_efact ht hg.cons hx.efact (run_ran hr), ran_tfact hx.tfact hx.efact (run_ran hr),
      ran_ifact hx.ifact (run_ran hr)⟩
  other := by
    intro sh i x sh' y b j z hg hx hr hj hz
    have hr := run_ran hr
    refine ⟨owner_keep hj hz.event (ran_event_other hx hr), owner_keep hj hz.internal (ran_internal_other hx hr),
      hz.reader, ?_, ?_, ?_⟩
    · cases hze : z.hasEvent with
      | false => have hf := hz.efact; cases z <;> first | exact trivial | exact hf.elim | cases hze
      | true =>
        have hxe : x.hasEvent = false := by
          cases h : x.hasEvent with
          | false => rfl
          | true =>
            have h1 := (hx.event.1 h).symm.trans (hz.event.1 hze)
            exact absurd (Option.some.inj h1).symm hj
        rcases ran_flags hr hxe hx.efact with ⟨h1, h2, h3⟩ | rfl | rfl
        · exact efact_congr h1 h2 h3 hz.efact
        · cases hr with | off h => exact efact_off (s := sh) rfl rfl h rfl hz.efact
        · have h := hx.tfact
          cases hr; exact efact_finish (s := sh) rfl rfl h.1 h.2 rfl hz.efact
    · cases hzt : z.reader with
      | false => cases z <;> first | exact trivial | cases hzt
      | true =>
        have hxt : x.reader = false := by
          cases h : x.reader with
          | false => rfl
          | true => exact absurd ((hz.reader.1 hzt).trans (hx.reader.1 h).symm) hj
        exact other_tfact hxt hx.efact hzt hz.tfact hr
    · cases hzi : z.hasInternal with
      | false => cases z <;> first | exact trivial | cases hzi
      | true =>
        have hxi : x.hasInternal = false := by
          cases h : x.hasInternal with
          | false => rfl
          | true =>
            have h1 := (hx.internal.1 h).symm.trans (hz.internal.1 hzi)
            exact absurd (Option.some.inj h1).symm hj
        exact other_ifact hxi hx.efact hz.ifact hr
  woken := by
    intro sh i x y _ hy
    cases hy
  late := by
    intro sh i x y _ hy
    cases hy

theorem inv {c : Callback} (ht : c.tame = true) {k : Int} {n : Nat} {s : Conf (prog c)}
    (h : (prog c).system.Reachable (init c k n) s) : (prog c).Inv Glob Loc s := by
  refine System.ReachableBy.invariant (S := (prog c).system) (fun s => (prog c).Inv Glob Loc s) ?_
    (fun s l s' hi hA hs => (local_ ht).step hi hA (Prog.step_stepped hs)) h
  refine ⟨⟨fun _ => ⟨nofun, fun _ => ⟨rfl, rfl⟩⟩, rfl⟩, fun j x hx => ?_⟩
  rcases init_at hx with ⟨rfl, rfl⟩ | ⟨hj, rfl⟩
  · exact ⟨⟨nofun, nofun⟩, ⟨nofun, nofun⟩, ⟨fun _ => rfl, fun _ => rfl⟩, trivial, nofun, trivial⟩
  · exact ⟨⟨nofun, nofun⟩, ⟨nofun, nofun⟩, ⟨nofun, fun h => absurd h hj⟩, trivial, trivial, trivial⟩

end Verif.Stdin
