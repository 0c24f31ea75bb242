import Verif.Props.WaitHandler
/-!
C51 for the calls of `IntWaitHandler` and `BooleanWaitHandler`: from the call to its return.
-/
namespace Verif.WaitHandler
open Verif.Threads

variable {T : Type}

/-- Along a part of an execution in which thread `i` starts nothing, its pending wait is the same. -/
theorem args_back {i : Nat} {a : (T → Bool) × Bool} (ls : List (Label (Op T)))
    (hls : ∀ l ∈ ls, ∀ op, l ≠ .start i op) {s s' : State T} (he : (system T).exec s ls = some s')
    {pc' : PC T} (hpc : s'.pcs[i]? = some pc') (ha : pc'.args = some a) :
    ∃ pc, s.pcs[i]? = some pc ∧ pc.args = some a := by
  induction ls generalizing s with
  | nil => cases he; exact ⟨pc', hpc, ha⟩
  | cons l ls ih =>
    simp only [System.exec] at he
    cases hs : (system T).step s l with
    | none => rw [hs] at he; cases he
    | some s1 =>
      rw [hs] at he
      obtain ⟨pc1, h1, h2⟩ := ih (fun l hl => hls l (by simp [hl])) he
      rcases C51_arguments s s1 l hs i pc1 h1 a h2 with h | h
      · exact h
      · exact absurd h (hls l (by simp) _)

/-- Only a wait returns a reason. -/
theorem returns_args {s s' : State T} {i : Nat} {r : Reason}
    (hs : (system T).step s (.run i) = some s') (hret : s'.pcs[i]? = some (.idle (some r))) :
    ∃ pc a, s.pcs[i]? = some pc ∧ pc.args = some a := by
  change run s i = some s' at hs
  cases hx : s.pcs[i]? with
  | none => simp only [run, hx] at hs; cases hs
  | some x =>
    cases x with
    | enter p t => exact ⟨_, _, rfl, rfl⟩
    | asleep p t => exact ⟨_, _, rfl, rfl⟩
    | ready p t l => exact ⟨_, _, rfl, rfl⟩
    | leaving p t f => exact ⟨_, _, rfl, rfl⟩
    | idle l => simp only [run, hx] at hs; cases hs
    | set f nt =>
      exfalso
      simp only [run, hx] at hs
      split at hs
      · cases hs
      · cases hs
        have := hret.symm.trans (get_set_self hx)
        cases nt <;> cases this
    | setNotify =>
      exfalso
      simp only [run, hx] at hs
      cases hs
      have h1 : (s.pcs.map wake)[i]? = some .setNotify := by rw [List.getElem?_map, hx]; rfl
      cases hret.symm.trans (get_set_self h1)
    | disableNotify o =>
      exfalso
      simp only [run, hx] at hs
      cases hs
      have h1 : (s.pcs.map wake)[i]? = some (.disableNotify o) := by rw [List.getElem?_map, hx]; rfl
      have := hret.symm.trans (get_set_self h1)
      cases o <;> cases this
    | drainNotify o =>
      exfalso
      simp only [run, hx] at hs
      cases hs
      have h1 : (s.pcs.map wake)[i]? = some (.drainNotify o) := by rw [List.getElem?_map, hx]; rfl
      cases hret.symm.trans (get_set_self h1)
    | _ o =>
      exfalso
      simp only [run, hx] at hs
      (repeat' split at hs) <;> cases hs <;>
        · have := hret.symm.trans (get_set_self hx)
          revert this
          cases o <;> (repeat' split) <;> nofun

/-- C51 for `IntWaitHandler`: when a call of `wait_equal`, `wait_greater_than`, … returns, the reason is
`condition_met` exactly when the handler is enabled and the value then compares with the argument as the
name of the call says; `disabled` exactly when it is disabled; otherwise `timeout`, which happens only
with a positive timeout. -/
theorem C51_int (v : Int) (b : Bool) (n : Nat) (s0 s1 s s' : State Int)
    (hr : (system Int).Reachable (init v b n) s0) (i : Nat) (c : IntCall)
    (hc : (system Int).step s0 (.start i (intOp c)) = some s1)
    (ls : List (Label (Op Int))) (hls : ∀ l ∈ ls, ∀ op, l ≠ .start i op)
    (he : (system Int).exec s1 ls = some s) (r : Reason)
    (hs : (system Int).step s (.run i) = some s') (hret : s'.pcs[i]? = some (.idle (some r))) :
    (r = .conditionMet ↔ s.enabled = true ∧
      match c with
      | .waitEqual k _ => s.value = k
      | .waitGreater k _ => k < s.value
      | .waitGreaterEqual k _ => k ≤ s.value
      | .waitLower k _ => s.value < k
      | .waitLowerEqual k _ => s.value ≤ k
      | .inc | .dec => False) ∧
    (r = .disabled ↔ s.enabled = false) ∧
    (r = .timeout →
      match c with
      | .waitEqual _ t | .waitGreater _ t | .waitGreaterEqual _ t | .waitLower _ t
      | .waitLowerEqual _ t => t = true
      | .inc | .dec => False) := by
  obtain ⟨pc, a, hpc, ha⟩ := returns_args hs hret
  obtain ⟨pc1, hp1, ha1⟩ := args_back ls hls he hpc ha
  have hrs : (system Int).Reachable (init v b n) s :=
    (system Int).exec_reachable ls (fun l _ => Label.allowed_true l)
      (.step hr (Label.allowed_true _) hc) he
  obtain ⟨h1, h2, h3, h4⟩ := C51_reason v b n s s' hrs i a.1 a.2 pc hpc ha r hs hret
  change start s0 i (intOp c) = some s1 at hc
  simp only [start] at hc
  split at hc
  · rename_i q hq
    cases hc
    have e := hp1.symm.trans (get_set_self hq)
    cases e
    cases c <;> cases ha1 <;> refine ⟨h1.trans ?_, h2, h4⟩ <;> simp
  · cases hc

/-- C51 for `BooleanWaitHandler`: `wait` returns `condition_met` exactly when it is enabled and open. -/
theorem C51_bool (v b : Bool) (n : Nat) (s0 s1 s s' : State Bool)
    (hr : (system Bool).Reachable (init v b n) s0) (i : Nat) (t : Bool)
    (hc : (system Bool).step s0 (.start i (boolOp (.wait t))) = some s1)
    (ls : List (Label (Op Bool))) (hls : ∀ l ∈ ls, ∀ op, l ≠ .start i op)
    (he : (system Bool).exec s1 ls = some s) (r : Reason)
    (hs : (system Bool).step s (.run i) = some s') (hret : s'.pcs[i]? = some (.idle (some r))) :
    (r = .conditionMet ↔ s.enabled = true ∧ s.value = true) ∧
    (r = .disabled ↔ s.enabled = false) ∧
    (r = .timeout ↔ s.enabled = true ∧ s.value = false) ∧ (r = .timeout → t = true) := by
  obtain ⟨pc, a, hpc, ha⟩ := returns_args hs hret
  obtain ⟨pc1, hp1, ha1⟩ := args_back ls hls he hpc ha
  have hrs : (system Bool).Reachable (init v b n) s :=
    (system Bool).exec_reachable ls (fun l _ => Label.allowed_true l)
      (.step hr (Label.allowed_true _) hc) he
  have h := C51_reason v b n s s' hrs i a.1 a.2 pc hpc ha r hs hret
  change start s0 i (boolOp (.wait t)) = some s1 at hc
  simp only [start] at hc
  split at hc
  · rename_i q hq
    cases hc
    have e := hp1.symm.trans (get_set_self hq)
    cases e
    cases ha1
    exact h
  · cases hc

/-- A thread about to write stays so until it runs. -/
theorem set_stays {i : Nat} {f : T → T} {nt : Bool} (ls : List (Label (Op T)))
    (hls : ∀ l ∈ ls, tid l ≠ i) {s s' : State T} (he : (system T).exec s ls = some s')
    (hpc : s.pcs[i]? = some (.set f nt)) : s'.pcs[i]? = some (.set f nt) := by
  induction ls generalizing s with
  | nil => cases he; exact hpc
  | cons l ls ih =>
    simp only [System.exec] at he
    cases hs : (system T).step s l with
    | none => rw [hs] at he; cases he
    | some s1 =>
      rw [hs] at he
      refine ih (fun l hl => hls l (by simp [hl])) he ?_
      rcases frame_ne hs (Ne.symm (hls l (by simp))) hpc with h | h <;> exact h

/-- `++` and `--` change the value by one, atomically, and then wake everyone: whatever the others do
between the call and the moment the thread gets the mutex. -/
theorem C51_int_update (s0 s1 s s' : State Int) (i : Nat) (up : Bool)
    (hc : (system Int).step s0 (.start i (intOp (if up then .inc else .dec))) = some s1)
    (ls : List (Label (Op Int))) (hls : ∀ l ∈ ls, tid l ≠ i)
    (he : (system Int).exec s1 ls = some s)
    (hs : (system Int).step s (.run i) = some s') :
    s'.value = (if up then s.value + 1 else s.value - 1) ∧ s'.pcs[i]? = some .setNotify := by
  change start s0 i (intOp (if up then .inc else .dec)) = some s1 at hc
  simp only [start] at hc
  split at hc
  · rename_i q hq
    cases hc
    have h := set_stays (f := fun x => if up then x + 1 else x - 1) (nt := true) ls hls he
      (by
        refine (get_set_self hq).trans ?_
        cases up <;> rfl)
    change run s i = some s' at hs
    simp only [run, h] at hs
    split at hs
    · cases hs
    · cases hs
      exact ⟨rfl, get_set_self h⟩
  · cases hc

/-- Non-trivial case for `C51_int`: a thread waits for a value greater than 0 and is woken by `++`. -/
example : ∃ s0 s1 s s' : State Int, (system Int).Reachable (init 0 true 2) s0 ∧
    (system Int).step s0 (.start 0 (intOp (.waitGreater 0 false))) = some s1 ∧
    (system Int).exec s1 [.run 0, .start 1 (intOp .inc), .run 1, .run 1, .run 0] = some s ∧
    (system Int).step s (.run 0) = some s' ∧ s'.pcs[0]? = some (.idle (some .conditionMet)) :=
  ⟨init 0 true 2, _, _, _, .init, rfl, rfl, rfl, rfl⟩

/-- Non-trivial case for `C51_bool`. -/
example : ∃ s0 s1 s s' : State Bool, (system Bool).Reachable (init false true 2) s0 ∧
    (system Bool).step s0 (.start 0 (boolOp (.wait false))) = some s1 ∧
    (system Bool).exec s1 [.run 0, .start 1 (boolOp .open_), .run 1, .run 1, .run 0] = some s ∧
    (system Bool).step s (.run 0) = some s' ∧ s'.pcs[0]? = some (.idle (some .conditionMet)) :=
  ⟨init false true 2, _, _, _, .init, rfl, rfl, rfl, rfl⟩

/-- Non-trivial case for `C51_int_update`: two threads increment at the same time. -/
example : ∃ s0 s1 s s' : State Int,
    (system Int).step s0 (.start 0 (intOp (if true then .inc else .dec))) = some s1 ∧
    (system Int).exec s1 [.start 1 (intOp .inc), .run 1] = some s ∧
    (system Int).step s (.run 0) = some s' ∧ s'.value = 2 :=
  ⟨init 0 true 2, _, _, _, rfl, rfl, rfl, rfl⟩

end Verif.WaitHandler
