import Verif.Lemmas.Race
/-!
Executions of a few threads, given by lists of moves.
-/
namespace Verif.Race

/-- A move of one of the first `n` threads: call number `c`, also from a callback, or the next step (of two, the first if
`b`). -/
inductive Move
  | start (i c : Nat)
  | call (i c : Nat)
  | go (i : Nat) (b : Bool)

section Exec
variable {M V S : Type} [DecidableEq M]

/-- Some other of the first `n` threads than `i` holds `m`. -/
def takenBy (n : Nat) (s : State M V S) (i : Nat) (m : M) : Bool :=
  (List.range n).any fun j => decide (j ≠ i) && (s.th j).held.any fun h => decide (h.1 = m)

/-- The state after a move; mutexes are not shared. -/
def move (n : Nat) (o : Obj M V S) (s : State M V S) : Move → Option (State M V S)
  | .start i c => if i < n then match (s.th i).todo, o.calls[c]? with
      | [], some c => some (s.set i ⟨(s.th i).held, [c]⟩)
      | _, _ => none
    else none
  | .call i c => if i < n then match (s.th i).todo, o.calls[c]? with
      | .client :: k, some c => some (s.set i ⟨(s.th i).held, c :: .client :: k⟩)
      | _, _ => none
    else none
  | .go i b => if i < n then match (s.th i).todo with
      | .skip :: k => some (s.set i ⟨(s.th i).held, k⟩)
      | .lock m :: k => if takenBy n s i m || !o.recursive m && (s.th i).held.any (fun h => decide (h.1 = m)) then none
          else some (s.set i ⟨(m, .excl) :: (s.th i).held, k⟩)
      | .lockShared m :: k => if takenBy n s i m || (s.th i).held.any (fun h => decide (h.1 = m)) then none
          else some (s.set i ⟨(m, .shared) :: (s.th i).held, k⟩)
      | .unlock m :: k => some (s.set i ⟨(s.th i).held.erase (m, .excl), k⟩)
      | .read _ :: k => some (s.set i ⟨(s.th i).held, k⟩)
      | .write _ e :: k => some { s.set i ⟨(s.th i).held, k⟩ with data := e s.data }
      | .seq x y :: k => some (s.set i ⟨(s.th i).held, x :: y :: k⟩)
      | .alt x y :: k => some (s.set i ⟨(s.th i).held, (if b then x else y) :: k⟩)
      | .loop x :: k => some (s.set i ⟨(s.th i).held, if b then x :: .loop x :: k else k⟩)
      | .client :: k => some (s.set i ⟨(s.th i).held, k⟩)
      | _ => none
    else none

/-- The state after some moves. -/
def moves (n : Nat) (o : Obj M V S) (s : State M V S) : List Move → Option (State M V S)
  | [] => some s
  | m :: ms => (move n o s m).bind fun s' => moves n o s' ms

theorem set_beyond {n i : Nat} (hi : i < n) {s : State M V S} (t : Thread M V S)
    (h : ∀ j, n ≤ j → (s.th j).held = []) : ∀ j, n ≤ j → ((s.set i t).th j).held = [] := by
  intro j hj
  rw [th_set_ne _ _ (by omega)]
  exact h j hj

theorem move_step {n : Nat} {o : Obj M V S} {s s' : State M V S} {m : Move}
    (h : ∀ j, n ≤ j → (s.th j).held = []) (hm : move n o s m = some s') :
    Step o s s' ∧ ∀ j, n ≤ j → (s'.th j).held = [] := by
  cases m with
  | start i c =>
    simp only [move] at hm
    split at hm
    · rename_i hi
      split at hm
      · rename_i c' ht hc
        simp only [Option.some.injEq] at hm
        subst hm
        exact ⟨.start i c' (List.mem_of_getElem? hc) ht, set_beyond hi _ h⟩
      · simp at hm
    · simp at hm
  | call i c =>
    simp only [move] at hm
    split at hm
    · rename_i hi
      split at hm
      · rename_i k c' ht hc
        simp only [Option.some.injEq] at hm
        subst hm
        exact ⟨.call i c' k (List.mem_of_getElem? hc) ht, set_beyond hi _ h⟩
      · simp at hm
    · simp at hm
  | go i b =>
    simp only [move] at hm
    split at hm
    · rename_i hi
      split at hm
      · rename_i k ht
        simp only [Option.some.injEq] at hm
        subst hm
        exact ⟨.skip i k ht, set_beyond hi _ h⟩
      · rename_i m k ht
        split at hm
        · simp at hm
        · rename_i hf
          simp only [Option.some.injEq] at hm
          subst hm
          rw [Bool.or_eq_true, not_or] at hf
          refine ⟨.lock i m k ht (fun j hj x hx => hf.1 ?_) ?_, set_beyond hi _ h⟩
          · by_cases e : j < n
            · simp only [takenBy, List.any_eq_true, List.mem_range, Bool.and_eq_true, decide_eq_true_eq]
              exact ⟨j, e, hj, (m, x), hx, rfl⟩
            · rw [h j (by omega)] at hx
              simp at hx
          · cases hrec : o.recursive m with
            | true => exact .inl rfl
            | false =>
              refine .inr fun x hx => hf.2 ?_
              simp only [hrec, Bool.not_false, Bool.true_and, List.any_eq_true, decide_eq_true_eq]
              exact ⟨(m, x), hx, rfl⟩
      · rename_i m k ht
        split at hm
        · simp at hm
        · rename_i hf
          simp only [Option.some.injEq] at hm
          subst hm
          rw [Bool.or_eq_true, not_or] at hf
          refine ⟨.lockShared i m k ht (fun j hj hx => hf.1 ?_) (fun hx => hf.2 ?_), set_beyond hi _ h⟩
          · by_cases e : j < n
            · simp only [takenBy, List.any_eq_true, List.mem_range, Bool.and_eq_true, decide_eq_true_eq]
              exact ⟨j, e, hj, (m, .excl), hx, rfl⟩
            · rw [h j (by omega)] at hx
              simp at hx
          · simp only [List.any_eq_true, decide_eq_true_eq]
            exact ⟨(m, .excl), hx, rfl⟩
      · rename_i m k ht
        simp only [Option.some.injEq] at hm
        subst hm
        exact ⟨.unlock i m k ht, set_beyond hi _ h⟩
      · rename_i l k ht
        simp only [Option.some.injEq] at hm
        subst hm
        exact ⟨.read i l k ht, set_beyond hi _ h⟩
      · rename_i l e k ht
        simp only [Option.some.injEq] at hm
        subst hm
        exact ⟨.write i l e k ht, set_beyond hi _ h⟩
      · rename_i x y k ht
        simp only [Option.some.injEq] at hm
        subst hm
        exact ⟨.seq i x y k ht, set_beyond hi _ h⟩
      · rename_i x y k ht
        simp only [Option.some.injEq] at hm
        subst hm
        cases b with
        | true => exact ⟨.left i x y k ht, set_beyond hi _ h⟩
        | false => exact ⟨.right i x y k ht, set_beyond hi _ h⟩
      · rename_i x k ht
        simp only [Option.some.injEq] at hm
        subst hm
        cases b with
        | true => exact ⟨.again i x k ht, set_beyond hi _ h⟩
        | false => exact ⟨.done i x k ht, set_beyond hi _ h⟩
      · rename_i k ht
        simp only [Option.some.injEq] at hm
        subst hm
        exact ⟨.back i k ht, set_beyond hi _ h⟩
      · simp at hm
    · simp at hm

theorem moves_reachable {n : Nat} {o : Obj M V S} {d : S} {s s' : State M V S} (ms : List Move)
    (h : ∀ j, n ≤ j → (s.th j).held = []) (hr : Reachable o d s) (hm : moves n o s ms = some s') :
    Reachable o d s' := by
  induction ms generalizing s with
  | nil => simp only [moves, Option.some.injEq] at hm; rw [← hm]; exact hr
  | cons m ms ih =>
    simp only [moves] at hm
    cases h1 : move n o s m with
    | none => rw [h1] at hm; simp at hm
    | some x =>
      rw [h1] at hm
      obtain ⟨h2, h3⟩ := move_step h h1
      exact ih h3 (hr.step h2) hm

/-- What moves of two threads lead to can happen. -/
theorem two_threads {o : Obj M V S} {d : S} {s : State M V S} (ms : List Move)
    (hm : moves 2 o (idle d) ms = some s) : Reachable o d s :=
  moves_reachable ms (fun _ _ => rfl) .init hm
end Exec

/-- `n` steps of thread `i`, each the first of two. -/
def steps (i n : Nat) : List Move := List.replicate n (.go i true)

end Verif.Race
