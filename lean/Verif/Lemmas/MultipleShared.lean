import Verif.Model.MultipleShared
import Verif.Lemmas.Prog
/-!
Invariants of `MultipleEventHandler` and the handlers inside.
-/
namespace Verif.MultipleShared
open Verif.Threads

/-- The branches of `run`. -/
inductive Ran (t : Nat) (s : Sh) : PC → Sh → PC → Prop
  | enter (i : Nat) (h : i < s.kids) (hs : (s.ch i).stopped = false) :
      Ran t s (.cEnter i) (s.put i { s.ch i with busy := (s.ch i).busy + 1 }) (.cLock i)
  | skip (i : Nat) (h : ¬ (i < s.kids ∧ (s.ch i).stopped = false)) : Ran t s (.cEnter i) s .idle
  | cLock (i : Nat) (h : (s.ch i).internal = none) :
      Ran t s (.cLock i) (s.put i { s.ch i with internal := some t }) (.cTest i)
  | cYes (i : Nat) (h : (s.ch i).set = true) : Ran t s (.cTest i) s (.pLock (some i))
  | cNo (i : Nat) (h : (s.ch i).set = false) : Ran t s (.cTest i) s (.cRel i)
  | cCount (i : Nat) : Ran t s (.cCount i)
      { s.put i { s.ch i with count := bump (s.ch i).count } with ended := s.ended + 1 } (.cRel i)
  | cRel (i : Nat) : Ran t s (.cRel i) (s.put i { s.ch i with internal := none, busy := (s.ch i).busy - 1 }) .idle
  | pLock (k : Option Nat) (h : s.internal = none) : Ran t s (.pLock k) { s with internal := some t } (.pTest k)
  | pYes (k : Option Nat) (h : s.set = true) : Ran t s (.pTest k) s (.pCall k)
  | pNo (k : Option Nat) (h : s.set = false) : Ran t s (.pTest k) s (.pRel k)
  | pCall (k : Option Nat) : Ran t s (.pCall k) { s with calls := s.calls + 1, count := bump s.count } (.pRel k)
  | pRel (i : Nat) : Ran t s (.pRel (some i)) { s with internal := none } (.cCount i)
  | pEnd : Ran t s (.pRel none) { s with internal := none, ended := s.ended + 1 } .idle
  | sEvent (h : s.event = none) : Ran t s .sEvent { s with event := some t } .sInternal
  | sInternal (h : s.internal = none) : Ran t s .sInternal { s with internal := some t } .sFlag
  | sFlag : Ran t s .sFlag { s with set := true } .sRel
  | sRel : Ran t s .sRel { s with internal := none } .sOut
  | sOut : Ran t s .sOut { s with event := none } .idle
  | uEvent (d : Bool) (h : s.event = none) : Ran t s (.uEvent d) { s with event := some t } (.uTest d)
  | uYes (d : Bool) (h : s.set = true) : Ran t s (.uTest d) s (.uInternal d)
  | uNo (d : Bool) (h : s.set = false) : Ran t s (.uTest d) s (.uOut d)
  | uInternal (d : Bool) (h : s.internal = none) : Ran t s (.uInternal d) { s with internal := some t } (.uFlag d)
  | uFlag (d : Bool) : Ran t s (.uFlag d) { s with set := false } (.uRel d)
  | uRel (d : Bool) : Ran t s (.uRel d) { s with internal := none } (.uOut d)
  | uOut : Ran t s (.uOut false) { s with event := none } .idle
  | uGone : Ran t s (.uOut true) { s with event := none } .gone
  | dMore (k : Nat) (h : k < s.kids) : Ran t s (.dNext k) s (.dLock k)
  | dAll (k : Nat) (h : ¬ k < s.kids) : Ran t s (.dNext k) s (.uEvent true)
  | dLock (k : Nat) (h : (s.ch k).internal = none) :
      Ran t s (.dLock k) (s.put k { s.ch k with set := false }) (.dStop k)
  | dStop (k : Nat) : Ran t s (.dStop k) (s.put k { s.ch k with stopped := true }) (.dJoin k)
  | dJoin (k : Nat) (h : (s.ch k).busy = 0) : Ran t s (.dJoin k) s (.dNext (k + 1))

theorem not_isSome {α : Type} {o : Option α} (h : ¬ o.isSome = true) : o = none := by
  cases o with
  | none => rfl
  | some a => exact absurd rfl h

theorem run_ran {t : Nat} {s s' : Sh} {x y : PC} {b : Bool} (h : run t s x = some (s', y, b)) : Ran t s x s' y := by
  cases x with
  | idle | gone => cases h
  | cEnter i =>
    simp only [run] at h
    split at h
    · rename_i hc; cases h; exact .enter i hc.1 hc.2
    · rename_i hc; cases h; exact .skip i hc
  | cLock i =>
    simp only [run] at h
    split at h
    · cases h
    · rename_i hl; cases h; exact .cLock i (not_isSome hl)
  | cTest i =>
    cases hs : (s.ch i).set with
    | true => simp only [run, hs] at h; cases h; exact .cYes i hs
    | false => simp only [run, hs] at h; cases h; exact .cNo i hs
  | cCount i => cases h; exact .cCount i
  | cRel i => cases h; exact .cRel i
  | pLock k =>
    simp only [run] at h
    split at h
    · cases h
    · rename_i hl; cases h; exact .pLock k (not_isSome hl)
  | pTest k =>
    simp only [run] at h
    split at h
    · rename_i hs; cases h; exact .pYes k hs
    · rename_i hs; cases h; exact .pNo k (by simpa using hs)
  | pCall k => cases h; exact .pCall k
  | pRel k =>
    cases k with
    | none => cases h; exact .pEnd
    | some i => cases h; exact .pRel i
  | sEvent =>
    simp only [run] at h
    split at h
    · cases h
    · rename_i hl; cases h; exact .sEvent (not_isSome hl)
  | sInternal =>
    simp only [run] at h
    split at h
    · cases h
    · rename_i hl; cases h; exact .sInternal (not_isSome hl)
  | sFlag => cases h; exact .sFlag
  | sRel => cases h; exact .sRel
  | sOut => cases h; exact .sOut
  | uEvent d =>
    simp only [run] at h
    split at h
    · cases h
    · rename_i hl; cases h; exact .uEvent d (not_isSome hl)
  | uTest d =>
    simp only [run] at h
    split at h
    · rename_i hs; cases h; exact .uYes d hs
    · rename_i hs; cases h; exact .uNo d (by simpa using hs)
  | uInternal d =>
    simp only [run] at h
    split at h
    · cases h
    · rename_i hl; cases h; exact .uInternal d (not_isSome hl)
  | uFlag d => cases h; exact .uFlag d
  | uRel d => cases h; exact .uRel d
  | uOut d =>
    cases d with
    | true => cases h; exact .uGone
    | false => cases h; exact .uOut
  | dNext k =>
    simp only [run] at h
    split at h
    · rename_i hl; cases h; exact .dMore k hl
    · rename_i hl; cases h; exact .dAll k hl
  | dLock k =>
    simp only [run] at h
    split at h
    · cases h
    · rename_i hl; cases h; exact .dLock k (not_isSome hl)
  | dStop k => cases h; exact .dStop k
  | dJoin k =>
    simp only [run] at h
    split at h
    · rename_i hl; cases h; exact .dJoin k hl
    · cases h

@[simp] theorem put_ch (s : Sh) (i : Nat) (x : Ch) (j : Nat) : (s.put i x).ch j = if j = i then x else s.ch j := rfl

/-- Holds `event_mutex_` of the outer handler. -/
def PC.holdsE : PC → Bool
  | .sInternal | .sFlag | .sRel | .sOut | .uTest _ | .uInternal _ | .uFlag _ | .uRel _ | .uOut _ => true
  | _ => false

/-- Holds `internal_callback_mutex_` of the outer handler. -/
def PC.holdsI : PC → Bool
  | .pTest _ | .pCall _ | .pRel _ | .sFlag | .sRel | .uFlag _ | .uRel _ => true
  | _ => false

/-- Handler inside whose `internal_callback_mutex_` the thread holds. -/
def PC.holdsC : PC → Option Nat
  | .cTest i | .cCount i | .cRel i => some i
  | .pLock k | .pTest k | .pCall k | .pRel k => k
  | _ => none

/-- Handler inside whose event the thread is within. -/
def PC.within : PC → Option Nat
  | .cLock i => some i
  | x => x.holdsC

/-- What holds of one thread. -/
structure Loc (s : Sh) (j : Nat) (x : PC) : Prop where
  event : x.holdsE = true ↔ s.event = some j
  internal : x.holdsI = true ↔ s.internal = some j
  child : ∀ i, x.holdsC = some i ↔ (s.ch i).internal = some j
  kid : ∀ i, x.within = some i → i < s.kids
  join : ∀ k, x = .dJoin k → (s.ch k).stopped = true

theorem start_spec {x y : PC} {op : Op} (h : start x op = some y) :
    x = .idle ∧ y.holdsE = false ∧ y.holdsI = false ∧ y.holdsC = none ∧ y.within = none ∧ ∀ k, y ≠ .dJoin k := by
  cases x <;> cases op <;> simp only [start, reduceCtorEq] at h <;> cases h <;>
    exact ⟨rfl, rfl, rfl, rfl, rfl, nofun⟩

/-- How a step of thread `t` changes the owner of a mutex. -/
def Turn (t : Nat) (o o' : Option Nat) : Prop := o' = o ∨ (o = none ∧ o' = some t) ∨ (o = some t ∧ o' = none)

theorem Turn.other {t j : Nat} {o o' : Option Nat} (h : Turn t o o') (hj : j ≠ t) : o' = some j ↔ o = some j := by
  rcases h with h | ⟨h, h'⟩ | ⟨h, h'⟩
  · rw [h]
  · rw [h, h']
    exact ⟨fun e => by cases e; exact absurd rfl hj, fun e => by cases e⟩
  · rw [h, h']
    exact ⟨fun e => (by cases e), fun e => by cases e; exact absurd rfl hj⟩

theorem event_turn {t : Nat} {s s' : Sh} {x y : PC} (hx : Loc s t x) (h : Ran t s x s' y) :
    Turn t s.event s'.event := by
  have h1 := hx.event
  cases h with
  | sEvent h | uEvent d h => exact Or.inr (Or.inl ⟨h, rfl⟩)
  | sOut | uOut | uGone => exact Or.inr (Or.inr ⟨h1.1 rfl, rfl⟩)
  | _ => exact Or.inl rfl

theorem internal_turn {t : Nat} {s s' : Sh} {x y : PC} (hx : Loc s t x) (h : Ran t s x s' y) :
    Turn t s.internal s'.internal := by
  have h1 := hx.internal
  cases h with
  | pLock k h | uInternal k h => exact Or.inr (Or.inl ⟨h, rfl⟩)
  | sInternal h => exact Or.inr (Or.inl ⟨h, rfl⟩)
  | pRel | pEnd | sRel | uRel => exact Or.inr (Or.inr ⟨h1.1 rfl, rfl⟩)
  | _ => exact Or.inl rfl

theorem child_turn {t : Nat} {s s' : Sh} {x y : PC} (hx : Loc s t x) (h : Ran t s x s' y) (i : Nat) :
    Turn t (s.ch i).internal (s'.ch i).internal := by
  have h1 := hx.child i
  cases h with
  | enter k | cCount k | dLock k | dStop k =>
    by_cases e : i = k
    · subst e; exact Or.inl (by simp)
    · exact Or.inl (by simp [e])
  | cLock k h =>
    by_cases e : i = k
    · subst e; exact Or.inr (Or.inl ⟨h, by simp⟩)
    · exact Or.inl (by simp [e])
  | cRel k =>
    by_cases e : i = k
    · subst e; exact Or.inr (Or.inr ⟨h1.1 rfl, by simp⟩)
    · exact Or.inl (by simp [e])
  | _ => exact Or.inl rfl

theorem kids_ran {t : Nat} {s s' : Sh} {x y : PC} (h : Ran t s x s' y) : s'.kids = s.kids := by
  cases h <;> rfl

theorem stopped_ran {t : Nat} {s s' : Sh} {x y : PC} (h : Ran t s x s' y) (i : Nat)
    (hi : (s.ch i).stopped = true) : (s'.ch i).stopped = true := by
  cases h with
  | enter k | cCount k | dLock k | dStop k | cLock k | cRel k =>
    by_cases e : i = k
    · subst e; simp [hi]
    · simp [e, hi]
  | _ => exact hi

/-- What a thread holds after a step. -/
theorem own_ran {t : Nat} {s s' : Sh} {x y : PC} (hx : Loc s t x) (h : Ran t s x s' y) :
    (y.holdsE = true ↔ s'.event = some t) ∧ (y.holdsI = true ↔ s'.internal = some t) ∧
    ∀ i, y.holdsC = some i ↔ (s'.ch i).internal = some t := by
  obtain ⟨h1, h2, h3, h4, h5⟩ := hx
  cases h with
  | enter k =>
    refine ⟨h1, h2, fun i => ?_⟩
    by_cases e : i = k
    · subst e; simpa [PC.holdsC] using h3 i
    · simpa [PC.holdsC, e] using h3 i
  | cCount k =>
    refine ⟨h1, h2, fun i => ?_⟩
    by_cases e : i = k
    · subst e; simpa [PC.holdsC] using h3 i
    · simpa [PC.holdsC, e] using h3 i
  | dLock k =>
    refine ⟨h1, h2, fun i => ?_⟩
    by_cases e : i = k
    · subst e; simpa [PC.holdsC] using h3 i
    · simpa [PC.holdsC, e] using h3 i
  | dStop k =>
    refine ⟨h1, h2, fun i => ?_⟩
    by_cases e : i = k
    · subst e; simpa [PC.holdsC] using h3 i
    · simpa [PC.holdsC, e] using h3 i
  | cLock k =>
    refine ⟨h1, h2, fun i => ?_⟩
    by_cases e : i = k
    · subst e; simp [PC.holdsC]
    · have := h3 i
      simp only [PC.holdsC] at this ⊢
      simp only [put_ch, if_neg e, ← this]
      simp [Ne.symm e]
  | cRel k =>
    refine ⟨h1, h2, fun i => ?_⟩
    by_cases e : i = k
    · subst e; simp [PC.holdsC]
    · have := h3 i
      simp only [PC.holdsC] at this ⊢
      simp only [put_ch, if_neg e, ← this]
      simp [Ne.symm e]
  | skip | cYes | cNo | pYes | pNo | pCall | uYes | uNo | dMore | dAll | dJoin | sFlag | uFlag => exact ⟨h1, h2, h3⟩
  | pLock | sInternal | uInternal => exact ⟨h1, ⟨fun _ => rfl, fun _ => rfl⟩, h3⟩
  | pRel | pEnd | sRel | uRel => exact ⟨h1, ⟨fun e => (by cases e), fun e => (by cases e)⟩, h3⟩
  | sEvent | uEvent => exact ⟨⟨fun _ => rfl, fun _ => rfl⟩, h2, h3⟩
  | sOut | uOut | uGone => exact ⟨⟨fun e => (by cases e), fun e => (by cases e)⟩, h2, h3⟩

theorem loc_run {t : Nat} {s s' : Sh} {x y : PC} (hx : Loc s t x) (h : Ran t s x s' y) : Loc s' t y := by
  obtain ⟨a, b, c⟩ := own_ran hx h
  refine ⟨a, b, c, ?_, ?_⟩
  · rw [kids_ran h]
    have h4 := hx.kid
    cases h with
    | enter i hi => intro j hj; cases hj; exact hi
    | skip | cRel | pEnd | sOut | uOut | uGone => exact fun j hj => (by cases hj)
    | _ => exact h4
  · cases h with
    | dStop k => intro j hj; cases hj; simp
    | _ => exact fun j hj => (by cases hj)

theorem loc_other {t j : Nat} {s s' : Sh} {x y z : PC} (hx : Loc s t x) (h : Ran t s x s' y) (hj : j ≠ t)
    (hz : Loc s j z) : Loc s' j z :=
  ⟨hz.event.trans ((event_turn hx h).other hj).symm, hz.internal.trans ((internal_turn hx h).other hj).symm,
    fun i => (hz.child i).trans ((child_turn hx h i).other hj).symm, (kids_ran h).symm ▸ hz.kid,
    fun k e => stopped_ran h k (hz.join k e)⟩

theorem loc_local (A : Op → Prop) : prog.Local A (fun _ => True) Loc where
  start := fun s i x op y _ _ hx h => by
    obtain ⟨rfl, h1, h2, h3, h4, h5⟩ := start_spec h
    refine ⟨?_, ?_, ?_, ?_, ?_⟩
    · rw [h1]; exact hx.event
    · rw [h2]; exact hx.internal
    · rw [h3]; exact hx.child
    · rw [h4]; exact fun j hj => (by cases hj)
    · exact fun k e => absurd e (h5 k)
  shared := fun _ _ _ _ _ _ _ _ _ => trivial
  run := fun _ _ _ _ _ _ _ hx h => loc_run hx (run_ran h)
  other := fun _ _ _ _ _ _ _ _ _ hx h hne hz => loc_other hx (run_ran h) hne hz
  woken := fun _ _ _ _ _ h => by cases h
  late := fun _ _ _ _ _ h => by cases h

theorem loc_init (kids n : Nat) : prog.Inv (fun _ => True) Loc (init kids n) := by
  refine ⟨trivial, fun j x hx => ?_⟩
  cases Prog.init_get hx
  exact ⟨⟨fun e => (by cases e), fun e => (by cases e)⟩, ⟨fun e => (by cases e), fun e => (by cases e)⟩,
    fun i => ⟨fun e => (by cases e), fun e => (by cases e)⟩, fun i e => (by cases e), fun k e => (by cases e)⟩

/-- The number of threads within an event of handler `i` is the one the handler keeps. -/
def Busy (s : Conf prog) : Prop := ∀ i, (s.sh.ch i).busy = s.pcs.countP fun x => decide (x.within = some i)

theorem busy_ran {t : Nat} {s s' : Sh} {x y : PC} (h : Ran t s x s' y) (i : Nat)
    (hpos : x.within = some i → 0 < (s.ch i).busy) :
    (s'.ch i).busy + (if decide (x.within = some i) then 1 else 0) =
      (s.ch i).busy + (if decide (y.within = some i) then 1 else 0) := by
  cases h with
  | enter k | cCount k | dLock k | dStop k | cLock k | cRel k =>
    by_cases e : i = k
    · subst e
      simp [PC.within, PC.holdsC] at hpos ⊢
      try omega
    · simp [PC.within, PC.holdsC, e, Ne.symm e]
  | _ => first | rfl | simp [PC.within, PC.holdsC]

theorem busy_step {s s' : Conf prog} {l : Label Op} (hb : Busy s) (h : prog.Stepped s l s') : Busy s' := by
  intro i
  refine Prog.count_step (P := prog) (fun x => decide (PC.within x = some i)) (fun s => (Sh.ch s i).busy) ?_ ?_ ?_ ?_
    (hb i) h
  · intro x op y hy
    obtain ⟨rfl, -, -, -, h4, -⟩ := start_spec hy
    show decide (PC.within y = some i) = decide (PC.within .idle = some i)
    rw [h4]
    rfl
  · intro t x sh y b hx hy
    refine busy_ran (run_ran hy) i fun e => ?_
    rw [hb i]
    exact countP_pos_of_get (fun x => decide (PC.within x = some i)) hx (by simpa using e)
  · intro x y hy; cases hy
  · intro x y hy; cases hy

/-- The owners of the mutexes are threads. -/
structure Owned (s : Conf prog) : Prop where
  event : ∀ j, s.sh.event = some j → j < s.pcs.length
  internal : ∀ j, s.sh.internal = some j → j < s.pcs.length
  child : ∀ i j, (s.sh.ch i).internal = some j → j < s.pcs.length

theorem Turn.owned {t n : Nat} {o o' : Option Nat} (h : Turn t o o') (ht : t < n) (ho : ∀ j, o = some j → j < n) :
    ∀ j, o' = some j → j < n := by
  rcases h with h | ⟨-, h⟩ | ⟨-, h⟩ <;> rw [h]
  · exact ho
  · intro j e; cases e; exact ht
  · intro j e; cases e

/-- Everything that always holds. -/
structure Full (s : Conf prog) : Prop where
  inv : prog.Inv (fun _ => True) Loc s
  busy : Busy s
  owned : Owned s

theorem owned_step {s s' : Conf prog} {l : Label Op} (hf : Full s) (h : prog.Stepped s l s') : Owned s' := by
  have hlen : s'.pcs.length = s.pcs.length := Prog.stepped_length h
  rcases Prog.stepped_sh h with e | ⟨t, x, y, b, -, hx, hr⟩
  · exact ⟨by rw [e, hlen]; exact hf.owned.event, by rw [e, hlen]; exact hf.owned.internal,
      by rw [e, hlen]; exact hf.owned.child⟩
  · have hr : Ran t s.sh x s'.sh y := run_ran hr
    have ht : t < s.pcs.length := (List.getElem?_eq_some_iff.1 hx).1
    have hl := hf.inv.loc t x hx
    exact ⟨hlen.symm ▸ (event_turn hl hr).owned ht hf.owned.event,
      hlen.symm ▸ (internal_turn hl hr).owned ht hf.owned.internal,
      fun i => hlen.symm ▸ (child_turn hl hr i).owned ht (hf.owned.child i)⟩

theorem full_step {s s' : Conf prog} {l : Label Op} (hf : Full s) (h : prog.Stepped s l s') : Full s' :=
  ⟨(loc_local fun _ => True).step hf.inv (Label.allowed_true l) h, busy_step hf.busy h, owned_step hf h⟩

theorem full_reachable {A : Op → Prop} {kids n : Nat} {s : Conf prog}
    (h : prog.system.ReachableBy A (init kids n) s) : Full s := by
  refine System.ReachableBy.invariant (S := prog.system) Full ?_
    (fun _ _ _ hf _ hs => full_step hf (Prog.step_stepped hs)) h
  refine ⟨loc_init kids n, ?_, fun j e => (by cases e), fun j e => (by cases e), fun i j e => (by cases e)⟩
  intro i
  show 0 = (List.replicate n PC.idle).countP _
  simp [List.countP_replicate, PC.within, PC.holdsC]

end Verif.MultipleShared
