import Verif.Model.MultipleEvent
/-!
C74: a `MultipleEventHandler` reacts to the events of its children.
-/
namespace Verif.MultipleEvent
open Verif.Spec.EventHandler (Call)

variable {C : Type}

/-- What a history with `n` handlers inside at its start means for the handler: every event of a handler inside is an
event of its own. -/
def meaning : Nat → List (Op C) → List (Call C Unit)
  | _, [] => []
  | n, .register _ :: h => meaning (n + 1) h
  | n, .child i :: h => if i < n then .event () :: meaning n h else meaning n h
  | n, .event :: h => .event () :: meaning n h
  | n, .setCallback c :: h => .set c :: meaning n h
  | n, .unsetCallback :: h => .unset :: meaning n h
  | n, .reset :: h => .reset :: meaning n h
  | n, .decrement :: h => .decrement :: meaning n h

/-- The state shows what the specification says, as long as the number of events stays below 2^32. -/
structure Shows (s : State C) (t : Spec.EventHandler.State C Unit) : Prop where
  callback : s.callback = t.callback
  count : s.count = t.count
  calls : s.calls = t.calls.map Prod.fst
  children : ∀ (i : Nat) (c : Child), s.children[i]? = some c → c.set = true ∧ c.redirected = true

theorem shows_occurred {s : State C} {t : Spec.EventHandler.State C Unit} (h : Shows s t)
    (hb : t.count + 1 < 4294967296) : Shows (occurred s) (Spec.EventHandler.step t (.event ())) := by
  unfold occurred
  simp only [Spec.EventHandler.step]
  rw [h.callback]
  cases hc : t.callback with
  | none => exact h
  | some c =>
    refine ⟨rfl, ?_, ?_, h.children⟩
    · show (s.count + 1) % _ = t.count + 1
      rw [h.count, Nat.mod_eq_of_lt hb]
    · show s.calls ++ [c] = _
      rw [h.calls]
      simp

/-- Number of events in a history. -/
def events (h : List (Op C)) : Nat := h.countP fun
  | .child _ => true
  | .event => true
  | _ => false

theorem count_step (t : Spec.EventHandler.State C Unit) (c : Call C Unit) :
    (Spec.EventHandler.step t c).count ≤ t.count + 1 := by
  cases c <;> simp only [Spec.EventHandler.step] <;> try omega
  split
  · exact Nat.le_refl _
  · omega

theorem refines (h : List (Op C)) (s : State C) (t : Spec.EventHandler.State C Unit) (hs : Shows s t)
    (hb : t.count + events h < 4294967296) :
    Shows (run s h) ((meaning s.children.length h).foldl Spec.EventHandler.step t) := by
  induction h generalizing s t with
  | nil => exact hs
  | cons op h ih =>
    have hev : ∀ op : Op C, events (op :: h) = events h + events [op] := by
      intro op
      simp only [events, List.countP_cons, List.countP_nil]
      omega
    rw [hev] at hb
    show Shows (run (step s op) h) _
    cases op with
    | register c =>
      have := ih (step s (.register c)) t ⟨hs.callback, hs.count, hs.calls, ?_⟩ (by omega)
      · simpa [step, meaning] using this
      · intro i d hd
        rcases List.mem_append.1 (List.mem_of_getElem? hd) with hm | hm
        · obtain ⟨j, hj⟩ := List.mem_iff_getElem?.1 hm
          exact hs.children j d hj
        · cases List.mem_singleton.1 hm
          exact ⟨rfl, rfl⟩
    | child i =>
      have e1 : events [Op.child (C := C) i] = 1 := rfl
      rw [e1] at hb
      simp only [meaning]
      by_cases hi : i < s.children.length
      · rw [if_pos hi]
        obtain ⟨c, hc⟩ : ∃ c, s.children[i]? = some c := ⟨_, List.getElem?_eq_getElem hi⟩
        obtain ⟨h1, h2⟩ := hs.children i c hc
        have ho := shows_occurred hs (by omega)
        have hch : (occurred s).children = s.children := by
          unfold occurred
          split <;> rfl
        have hst : step s (.child i) = { occurred s with
            children := (occurred s).children.set i { c with count := (c.count + 1) % 4294967296 } } := by
          simp only [step, hc, h1, h2, if_true]
        have := ih (step s (.child i)) (Spec.EventHandler.step t (.event ())) ?_ ?_
        · rw [hst] at this ⊢
          simpa [hch] using this
        · rw [hst]
          refine ⟨ho.callback, ho.count, ho.calls, ?_⟩
          intro j d hd
          rw [List.getElem?_set] at hd
          split at hd
          · split at hd
            · cases hd
              exact ⟨h1, h2⟩
            · cases hd
          · rw [hch] at hd
            exact hs.children j d hd
        · have := count_step t (.event ())
          omega
      · rw [if_neg hi]
        have hc : s.children[i]? = none := List.getElem?_eq_none (Nat.le_of_not_lt hi)
        have hst : step s (.child i) = s := by simp only [step, hc]
        rw [hst]
        exact ih s t hs (by omega)
    | event =>
      have e1 : events [Op.event (C := C)] = 1 := rfl
      rw [e1] at hb
      have hch : (occurred s).children = s.children := by
        unfold occurred
        split <;> rfl
      have := ih (occurred s) (Spec.EventHandler.step t (.event ())) (shows_occurred hs (by omega)) (by
        have := count_step t (.event ())
        omega)
      rw [hch] at this
      exact this
    | setCallback c =>
      exact ih (step s (.setCallback c)) (Spec.EventHandler.step t (.set c)) ⟨rfl, hs.count, hs.calls, hs.children⟩
        (by show t.count + _ < _; omega)
    | unsetCallback =>
      exact ih (step s .unsetCallback) (Spec.EventHandler.step t .unset) ⟨rfl, hs.count, hs.calls, hs.children⟩
        (by show t.count + _ < _; omega)
    | reset =>
      exact ih (step s .reset) (Spec.EventHandler.step t .reset) ⟨hs.callback, rfl, hs.calls, hs.children⟩
        (by show 0 + _ < _; omega)
    | decrement =>
      refine ih (step s .decrement) (Spec.EventHandler.step t .decrement) ⟨hs.callback, ?_, hs.calls, hs.children⟩
        (by show t.count - 1 + _ < _; omega)
      show s.count - 1 = t.count - 1
      rw [hs.count]

/-- C74: a `MultipleEventHandler` behaves as an event handler for which every event of a registered handler is an event:
the callback set, the count and the calls of callbacks are those of the history so read (fewer than 2^32 events). -/
theorem C74_refines (c : C) (h : List (Op C)) (hb : events h < 4294967296) :
    (run (init c) h).callback = (Spec.EventHandler.run (.set c :: meaning 0 h)).callback ∧
    (run (init c) h).count = (Spec.EventHandler.run (.set c :: meaning 0 h)).count ∧
    (run (init c) h).calls = (Spec.EventHandler.run (.set c :: meaning 0 h)).calls.map Prod.fst := by
  have hs : Shows (init c) (Spec.EventHandler.step {} (.set c)) := ⟨rfl, rfl, rfl, nofun⟩
  have := refines h (init c) _ hs (by show 0 + _ < _; omega)
  exact ⟨this.callback, this.count, this.calls⟩

/-- C74: in a history of registrations and events only, the count is the number of events of registered handlers, and
the callback was called that many times. -/
theorem C74_count (c : C) (h : List (Op C)) (hb : events h < 4294967296)
    (hk : ∀ op ∈ h, (∃ d, op = .register d) ∨ ∃ i, op = .child i) :
    (run (init c) h).count = (meaning 0 h).length ∧ (run (init c) h).calls = List.replicate (meaning 0 h).length c := by
  have key : ∀ (h : List (Op C)), (∀ op ∈ h, (∃ d, op = .register d) ∨ ∃ i, op = .child i) →
      ∀ (n : Nat) (t : Spec.EventHandler.State C Unit), t.callback = some c →
      ((meaning n h).foldl Spec.EventHandler.step t).count = t.count + (meaning n h).length ∧
      ((meaning n h).foldl Spec.EventHandler.step t).calls.map Prod.fst =
        t.calls.map Prod.fst ++ List.replicate (meaning n h).length c := by
    intro h
    induction h with
    | nil => intro _ n t _; simp [meaning]
    | cons op h ih =>
      intro hk n t ht
      have ih := ih (fun o ho => hk o (List.mem_cons_of_mem _ ho))
      rcases hk op List.mem_cons_self with ⟨d, rfl⟩ | ⟨i, rfl⟩
      · exact ih (n + 1) t ht
      · simp only [meaning]
        split
        · have := ih n (Spec.EventHandler.step t (.event ())) (by simp [Spec.EventHandler.step, ht])
          simp only [List.foldl_cons, List.length_cons]
          rw [this.1, this.2]
          simp only [Spec.EventHandler.step, ht]
          refine ⟨by omega, ?_⟩
          rw [List.replicate_succ]
          simp
        · exact ih n t ht
  have h1 := C74_refines c h hb
  have h2 := key h hk 0 (Spec.EventHandler.step {} (.set c)) rfl
  refine ⟨h1.2.1.trans (h2.1.trans ?_), h1.2.2.trans (h2.2.trans ?_)⟩
  · show 0 + _ = _
    omega
  · rfl

/-- C74: a handler inside counts its own events too (modulo 2^32), whatever the parent does. -/
theorem C74_child (s s' : State C) (i : Nat) (c : Child) (hc : s.children[i]? = some c) (hset : c.set = true)
    (hs : s' = step s (.child i)) : ∃ d, s'.children[i]? = some d ∧ d.count = (c.count + 1) % 4294967296 ∧
      ∀ j, j ≠ i → s'.children[j]? = s.children[j]? := by
  subst hs
  have hch : ∀ b : Bool, (if b then occurred s else s).children = s.children := by
    intro b
    unfold occurred
    cases b with
    | false => rfl
    | true =>
      simp only [if_true]
      split <;> rfl
  refine ⟨{ c with count := (c.count + 1) % 4294967296 }, ?_, rfl, fun j hj => ?_⟩
  · simp only [step, hc, hset, if_true, hch]
    rw [List.getElem?_set_self (List.getElem?_eq_some_iff.1 hc).1]
  · simp only [step, hc, hset, if_true, hch]
    rw [List.getElem?_set_ne (Ne.symm hj)]

/-- Two handlers inside, one of which had its own callback and events before. -/
example : run (init 7) [.register ⟨true, false, 3⟩, .child 0, .register ⟨false, false, 0⟩, .child 1, .child 0] =
    ⟨some 7, 3, [7, 7, 7], [⟨true, true, 5⟩, ⟨true, true, 1⟩]⟩ := rfl

end Verif.MultipleEvent
