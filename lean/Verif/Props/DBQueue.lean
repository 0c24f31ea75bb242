import Verif.Model.DBQueue
/-!
C59: `DBQueue` used by one thread.
-/
namespace Verif.DBQueue

variable {T : Type}

/-- Calls of a history. -/
inductive Call (T : Type)
  | push (v : T)
  | pop
  | frontAndPop
  | swap
  | clear

/-- A history from the given queue: the values handed out (by `front_and_pop`, or seen by `front` just
before `pop`) and the queue; undefined behaviour ends it. -/
def history (q : Queue T) : List (Call T) → Res (List T × Queue T)
  | [] => .ok ([], q)
  | .push v :: cs => history (push q v) cs
  | .swap :: cs => history (swap q) cs
  | .clear :: cs => history (clear q) cs
  | .pop :: cs =>
    match front q, pop q with
    | .ok v, .ok q' =>
      match history q' cs with
      | .ok (vs, q'') => .ok (v :: vs, q'')
      | .throw e => .throw e
      | .abort => .abort
      | .ub => .ub
    | _, _ => .ub
  | .frontAndPop :: cs =>
    match frontAndPop q with
    | .ok (v, q') =>
      match history q' cs with
      | .ok (vs, q'') => .ok (v :: vs, q'')
      | .throw e => .throw e
      | .abort => .abort
      | .ub => .ub
    | _ => .ub

/-- The values pushed by a history. -/
def pushes : List (Call T) → List T
  | [] => []
  | .push v :: cs => v :: pushes cs
  | _ :: cs => pushes cs

/-- The history never calls `clear` and calls `swap` only with an empty foreground. -/
def Careful (q : Queue T) : List (Call T) → Prop
  | [] => True
  | .push v :: cs => Careful (push q v) cs
  | .swap :: cs => empty q = true ∧ Careful (swap q) cs
  | .clear :: _ => False
  | .pop :: cs => ∀ q', pop q = .ok q' → Careful q' cs
  | .frontAndPop :: cs => ∀ v q', frontAndPop q = .ok (v, q') → Careful q' cs

/-- C59: `front`, `pop` and `front_and_pop` are undefined exactly when the foreground is empty, which is
what `empty` tells; otherwise they see and remove its first element. -/
theorem C59_front (q : Queue T) :
    (empty q = true ↔ front q = .ub) ∧ (empty q = true ↔ pop q = .ub) ∧
    (empty q = true ↔ frontAndPop q = .ub) ∧ (empty q = true ↔ size q = 0) ∧
    (∀ v q', frontAndPop q = .ok (v, q') ↔ front q = .ok v ∧ pop q = .ok q') := by
  obtain ⟨fg, bg⟩ := q
  cases fg with
  | nil => simp [empty, front, pop, frontAndPop, size]
  | cons a l => simp [empty, front, pop, frontAndPop, size]

/-- C59: `both_empty` is true exactly when no element is stored: the foreground is empty and stays so
after a `swap`. -/
theorem C59_both_empty (q : Queue T) :
    bothEmpty q = true ↔ empty q = true ∧ empty (swap q) = true := by
  simp [bothEmpty, empty, swap]

/-- C59: a push is not seen before the next `swap`. -/
theorem C59_push_hidden (q : Queue T) (v : T) :
    front (push q v) = front q ∧ size (push q v) = size q ∧ empty (push q v) = empty q := ⟨rfl, rfl, rfl⟩

theorem history_append (q : Queue T) (as bs : List (Call T)) :
    history q (as ++ bs) = match history q as with
      | .ok (vs, q') => (match history q' bs with
        | .ok (ws, q'') => .ok (vs ++ ws, q'')
        | .throw e => .throw e
        | .abort => .abort
        | .ub => .ub)
      | .throw e => .throw e
      | .abort => .abort
      | .ub => .ub := by
  induction as generalizing q with
  | nil =>
    simp only [List.nil_append, history]
    cases history q bs with
    | ok x => rfl
    | _ => rfl
  | cons a as ih =>
    cases a with
    | push v => exact ih _
    | swap => exact ih _
    | clear => exact ih _
    | pop =>
      simp only [List.cons_append, history]
      cases hf : front q with
      | ok v =>
        cases hp : pop q with
        | ok q' =>
          simp only [ih q']
          cases history q' as with
          | ok x =>
            obtain ⟨vs, q''⟩ := x
            simp only
            cases history q'' bs with
            | ok y => rfl
            | _ => rfl
          | _ => rfl
        | _ => rfl
      | _ => cases hp : pop q <;> rfl
    | frontAndPop =>
      simp only [List.cons_append, history]
      cases hp : frontAndPop q with
      | ok x =>
        obtain ⟨v, q'⟩ := x
        simp only [ih q']
        cases history q' as with
        | ok x =>
          obtain ⟨vs, q''⟩ := x
          simp only
          cases history q'' bs with
          | ok y => rfl
          | _ => rfl
        | _ => rfl
      | _ => rfl

theorem history_push (q : Queue T) (vs : List T) :
    history q (vs.map .push) = .ok ([], ⟨q.fg, q.bg ++ vs⟩) := by
  induction vs generalizing q with
  | nil => simp [history]
  | cons v vs ih => simp [history, ih, push]

theorem history_pop (q : Queue T) (vs : List T) (bg : List T) (h : q = ⟨vs, bg⟩) :
    history q (vs.map fun _ => .frontAndPop) = .ok (vs, ⟨[], bg⟩) := by
  induction vs generalizing q with
  | nil => rw [h]; rfl
  | cons v vs ih =>
    rw [h]
    simp only [List.map_cons, history, frontAndPop]
    rw [ih _ rfl]

/-- C59: pushed values are seen in order after `swap`; what was left in the foreground is discarded, what
had been pushed before comes first. -/
theorem C59_swap_delivers (q : Queue T) (vs : List T) :
    history q (vs.map .push ++ [.swap] ++ (q.bg ++ vs).map fun _ => .frontAndPop) =
      .ok (q.bg ++ vs, ⟨[], []⟩) := by
  rw [history_append, history_append, history_push]
  simp only [history, swap, List.append_nil, List.nil_append]
  rw [history_pop _ (q.bg ++ vs) [] rfl]

/-- C59: in every history that avoids undefined behaviour the values handed out are values pushed, each at
most once, in the order of the pushes. -/
theorem C59_order (cs : List (Call T)) (vs : List T) (q' : Queue T)
    (h : history ({} : Queue T) cs = .ok (vs, q')) :
    (vs ++ q'.fg ++ q'.bg).Sublist (pushes cs) := by
  have key : ∀ (cs : List (Call T)) (q : Queue T) (vs : List T) (q' : Queue T),
      history q cs = .ok (vs, q') → (vs ++ q'.fg ++ q'.bg).Sublist (q.fg ++ q.bg ++ pushes cs) := by
    intro cs
    induction cs with
    | nil =>
      intro q vs q' h
      cases h
      simp [pushes]
    | cons c cs ih =>
      intro q vs q' h
      cases c with
      | push v =>
        have := ih _ _ _ h
        simpa [push, pushes] using this
      | swap =>
        have := ih _ _ _ h
        refine this.trans ?_
        simp [swap, pushes]
      | clear =>
        have := ih _ _ _ h
        refine this.trans ?_
        simp [clear, pushes]
      | pop =>
        obtain ⟨fg, bg⟩ := q
        cases fg with
        | nil => cases h
        | cons a l =>
          simp only [history, front, pop] at h
          cases hq : history (⟨l, bg⟩ : Queue T) cs with
          | ok x =>
            obtain ⟨ws, q''⟩ := x
            rw [hq] at h
            cases h
            exact (ih _ _ _ hq).cons_cons a
          | throw e => rw [hq] at h; cases h
          | abort => rw [hq] at h; cases h
          | ub => rw [hq] at h; cases h
      | frontAndPop =>
        obtain ⟨fg, bg⟩ := q
        cases fg with
        | nil => cases h
        | cons a l =>
          simp only [history, frontAndPop] at h
          cases hq : history (⟨l, bg⟩ : Queue T) cs with
          | ok x =>
            obtain ⟨ws, q''⟩ := x
            rw [hq] at h
            cases h
            exact (ih _ _ _ hq).cons_cons a
          | throw e => rw [hq] at h; cases h
          | abort => rw [hq] at h; cases h
          | ub => rw [hq] at h; cases h
  simpa using key cs {} vs q' h

/-- C59: nothing is lost in a history without `clear` that swaps only with an empty foreground. -/
theorem C59_complete (cs : List (Call T)) (hc : Careful ({} : Queue T) cs) (vs : List T) (q' : Queue T)
    (h : history ({} : Queue T) cs = .ok (vs, q')) : vs ++ q'.fg ++ q'.bg = pushes cs := by
  have key : ∀ (cs : List (Call T)) (q : Queue T) (vs : List T) (q' : Queue T), Careful q cs →
      history q cs = .ok (vs, q') → vs ++ q'.fg ++ q'.bg = q.fg ++ q.bg ++ pushes cs := by
    intro cs
    induction cs with
    | nil =>
      intro q vs q' _ h
      cases h
      simp [pushes]
    | cons c cs ih =>
      intro q vs q' hc h
      cases c with
      | push v =>
        have := ih _ _ _ hc h
        simpa [push, pushes] using this
      | swap =>
        obtain ⟨he, hc⟩ := hc
        have := ih _ _ _ hc h
        rw [this]
        simp [empty] at he
        simp [swap, pushes, he]
      | clear => exact hc.elim
      | pop =>
        obtain ⟨fg, bg⟩ := q
        cases fg with
        | nil => cases h
        | cons a l =>
          have hc := hc ⟨l, bg⟩ rfl
          simp only [history, front, pop] at h
          cases hq : history (⟨l, bg⟩ : Queue T) cs with
          | ok x =>
            obtain ⟨ws, q''⟩ := x
            rw [hq] at h
            cases h
            exact congrArg (a :: ·) (ih _ _ _ hc hq)
          | throw e => rw [hq] at h; cases h
          | abort => rw [hq] at h; cases h
          | ub => rw [hq] at h; cases h
      | frontAndPop =>
        obtain ⟨fg, bg⟩ := q
        cases fg with
        | nil => cases h
        | cons a l =>
          have hc := hc a ⟨l, bg⟩ rfl
          simp only [history, frontAndPop] at h
          cases hq : history (⟨l, bg⟩ : Queue T) cs with
          | ok x =>
            obtain ⟨ws, q''⟩ := x
            rw [hq] at h
            cases h
            exact congrArg (a :: ·) (ih _ _ _ hc hq)
          | throw e => rw [hq] at h; cases h
          | abort => rw [hq] at h; cases h
          | ub => rw [hq] at h; cases h
  simpa using key cs {} vs q' hc h

/-- C59: `clear` leaves nothing. -/
theorem C59_clear (q : Queue T) : bothEmpty (clear q) = true ∧ size (clear q) = 0 := ⟨rfl, rfl⟩

/-- Non-trivial case: two pushes, a swap, a third push, both seen, swap, the third seen. -/
example : history ({} : Queue Nat)
    [.push 1, .push 2, .swap, .push 3, .frontAndPop, .pop, .swap, .frontAndPop] =
    .ok ([1, 2, 3], ⟨[], []⟩) := by decide

/-- Non-trivial case: that history is careful. -/
example : Careful ({} : Queue Nat)
    [.push 1, .push 2, .swap, .push 3, .frontAndPop, .pop, .swap, .frontAndPop] := by
  refine ⟨rfl, ?_⟩
  intro v q' h
  cases h
  intro q' h
  cases h
  refine ⟨rfl, ?_⟩
  intro v q' h
  trivial

/-- A swap with elements left in the foreground discards them: 1 is lost. -/
example : history ({} : Queue Nat) [.push 1, .swap, .push 2, .swap, .frontAndPop] =
    .ok ([2], ⟨[], []⟩) := by decide

end Verif.DBQueue
