import Verif.Lemmas.WaitHandlerSleep
/-!
C51, C52, C53: waits report the true reason, no wake-up is lost, `blocking_disable` drains the waiters.
-/
namespace Verif.WaitHandler
open Verif.Threads

variable {T : Type}

/-- The wait a thread is inside of: its predicate and whether it has a timeout. -/
def PC.args : PC T → Option ((T → Bool) × Bool)
  | .enter p t | .asleep p t | .ready p t _ | .leaving p t _ => some (p, t)
  | _ => none

/-- C51: the step with which `wait` returns gives `condition_met` exactly when the handler is enabled and
the predicate holds, `disabled` exactly when it is disabled, `timeout` exactly when it is enabled and the
predicate is false, and that only with a positive timeout. -/
theorem C51_reason (v : T) (b : Bool) (n : Nat) (s s' : State T)
    (hr : (system T).Reachable (init v b n) s) (i : Nat) (p : T → Bool) (t : Bool) (pc : PC T)
    (hpc : s.pcs[i]? = some pc) (hargs : pc.args = some (p, t)) (r : Reason)
    (hs : (system T).step s (.run i) = some s') (hret : s'.pcs[i]? = some (.idle (some r))) :
    (r = .conditionMet ↔ s.enabled = true ∧ p s.value = true) ∧
    (r = .disabled ↔ s.enabled = false) ∧
    (r = .timeout ↔ s.enabled = true ∧ p s.value = false) ∧
    (r = .timeout → t = true) := by
  have hI := inv_reachable hr
  change run s i = some s' at hs
  cases pc with
  | enter p' t' =>
    exfalso
    simp only [run, hpc] at hs
    (repeat' split at hs) <;> cases hs <;>
      · have := hret.symm.trans (get_set_self hpc)
        cases this
  | asleep p' t' => simp only [run, hpc] at hs; cases hs
  | ready p' t' late =>
    exfalso
    simp only [run, hpc] at hs
    (repeat' split at hs) <;> cases hs <;>
      · have := hret.symm.trans (get_set_self hpc)
        cases this
  | leaving p' t' f =>
    cases hargs
    have hl := (hI.loc i _ hpc).leave
    rw [leaving_run hpc hs] at hret
    have e := hret.symm.trans (get_set_self hpc)
    have e : r = reason s f := by simpa using e
    subst e
    cases f with
    | none =>
      have hl : s.enabled = false := hl
      simp [reason, hl]
    | some fin =>
      obtain ⟨h1, h2⟩ := hl
      simp only [awake] at h1
      cases he : s.enabled <;> cases hp : p s.value <;> simp [he, hp] at h1 <;> subst h1 <;>
        simp [reason, he]
      exact h2 rfl
  | _ => cases hargs

/-- C51: the predicate and the timeout used are the ones given to the call. -/
theorem C51_arguments (s s' : State T) (l : Label (Op T)) (hs : (system T).step s l = some s') (j : Nat)
    (pc' : PC T) (hpc : s'.pcs[j]? = some pc') (a : (T → Bool) × Bool) (ha : pc'.args = some a) :
    (∃ pc, s.pcs[j]? = some pc ∧ pc.args = some a) ∨ l = .start j (.wait a.1 a.2) := by
  change step s l = some s' at hs
  by_cases hj : j = tid l
  · subst hj
    cases l with
    | run i =>
      left
      simp only [tid] at hpc ⊢
      simp only [step, run] at hs
      cases hx : s.pcs[i]? with
      | none => rw [hx] at hs; cases hs
      | some x =>
        rw [hx] at hs
        refine ⟨x, rfl, ?_⟩
        have hself : ∀ y, (s.pcs.set i y)[i]? = some y := fun y => get_set_self hx
        have hselfw : ∀ y, ((s.pcs.map wake).set i y)[i]? = some y := fun y =>
          get_set_self (x := wake x) (by rw [List.getElem?_map, hx]; rfl)
        cases x with
        | enter p t =>
          simp only at hs
          (repeat' split at hs) <;> cases hs <;>
            · have e := hpc.symm.trans (hself _)
              cases e
              exact ha
        | ready p t late =>
          simp only at hs
          (repeat' split at hs) <;> cases hs <;>
            · have e := hpc.symm.trans (hself _)
              cases e
              exact ha
        | idle r => cases hs
        | asleep p t => cases hs
        | acquire o =>
          simp only at hs
          split at hs
          · cases hs
          · cases hs
            have e := hpc.symm.trans (hself _)
            cases o <;> cases e <;> cases ha
        | set f notify =>
          simp only at hs
          split at hs
          · cases hs
          · cases hs
            have e := hpc.symm.trans (hself _)
            cases notify <;> cases e <;> cases ha
        | disableTest o =>
          cases hs
          have e := hpc.symm.trans (hself _)
          cases he : s.enabled <;> rw [he] at e <;> cases o <;> cases e <;> cases ha
        | disableNotify o =>
          cases hs
          have e := hpc.symm.trans (hselfw _)
          cases o <;> cases e <;> cases ha
        | drainTest o =>
          cases hs
          have e := hpc.symm.trans (hself _)
          by_cases hw : 0 < s.waiting
          · rw [if_pos hw] at e; cases e; cases ha
          · rw [if_neg hw] at e; cases o <;> cases e <;> cases ha
        | enableTest o =>
          cases hs
          have e := hpc.symm.trans (hself _)
          cases he : s.enabled <;> rw [he] at e <;> cases e <;> cases ha
        | stopTest o =>
          cases hs
          have e := hpc.symm.trans (hself _)
          cases he : s.enabled <;> rw [he] at e <;> cases e <;> cases ha
        | leaving p t f => cases hs; have e := hpc.symm.trans (hself _); cases e; cases ha
        | setNotify => cases hs; have e := hpc.symm.trans (hselfw _); cases e; cases ha
        | drainNotify o => cases hs; have e := hpc.symm.trans (hselfw _); cases e; cases ha
        | release o => cases hs; have e := hpc.symm.trans (hself _); cases e; cases ha
        | enableStore o =>
          simp only at hs
          split at hs
          · cases hs
          · cases hs; have e := hpc.symm.trans (hself _); cases e; cases ha
        | disableStore o =>
          simp only at hs
          split at hs
          · cases hs
          · cases hs; have e := hpc.symm.trans (hself _); cases e; cases ha
        | drainLock o =>
          simp only at hs
          split at hs
          · cases hs
          · cases hs; have e := hpc.symm.trans (hself _); cases e; cases ha
    | start i op =>
      right
      simp only [step, start, tid] at hs hpc ⊢
      split at hs
      · rename_i r hx
        cases hs
        have e := hpc.symm.trans (get_set_self hx)
        cases op <;> cases e <;> cases ha
        rfl
      · cases hs
    | spurious i =>
      left
      simp only [step, tid] at hs hpc ⊢
      split at hs
      · rename_i p t hx
        cases hs
        have e := hpc.symm.trans (get_set_self hx)
        cases e
        exact ⟨_, hx, ha⟩
      · cases hs
    | timeout i =>
      left
      simp only [step, tid] at hs hpc ⊢
      split at hs
      · rename_i p hx
        cases hs
        have e := hpc.symm.trans (get_set_self hx)
        cases e
        exact ⟨_, hx, ha⟩
      · cases hs
  · left
    obtain ⟨x0, hx0, h | h⟩ := frame_ne' hs hj hpc
    · exact ⟨x0, hx0, by rw [← h]; exact ha⟩
    · refine ⟨x0, hx0, ?_⟩
      rw [h] at ha
      cases x0 <;> exact ha

/-- C51: no thread goes to sleep while the handler is disabled. -/
theorem C51_disabled (s s' : State T) (l : Label (Op T)) (hs : (system T).step s l = some s')
    (he : s.enabled = false) (j : Nat) (p : T → Bool) (t : Bool)
    (hj : s'.pcs[j]? = some (.asleep p t)) : s.pcs[j]? = some (.asleep p t) := by
  change step s l = some s' at hs
  by_cases hjl : j = tid l
  · exfalso
    subst hjl
    cases l with
    | run i =>
      simp only [step, run, tid] at hs hj
      cases hx : s.pcs[i]? with
      | none => rw [hx] at hs; cases hs
      | some x =>
        rw [hx] at hs
        have hself : ∀ y, (s.pcs.set i y)[i]? = some y := fun y => get_set_self hx
        have hselfw : ∀ y, ((s.pcs.map wake).set i y)[i]? = some y := fun y =>
          get_set_self (x := wake x) (by rw [List.getElem?_map, hx]; rfl)
        cases x with
        | acquire o =>
          simp only at hs
          split at hs
          · cases hs
          · cases hs
            have e := hj.symm.trans (hself _)
            cases o <;> cases e
        | disableTest o =>
          cases hs
          have e := hj.symm.trans (hself _)
          rw [he] at e
          cases o <;> cases e
        | disableNotify o =>
          cases hs
          have e := hj.symm.trans (hselfw _)
          cases o <;> cases e
        | drainTest o =>
          cases hs
          have e := hj.symm.trans (hself _)
          by_cases hw : 0 < s.waiting
          · rw [if_pos hw] at e; cases e
          · rw [if_neg hw] at e; cases o <;> cases e
        | set f notify =>
          simp only at hs
          split at hs
          · cases hs
          · cases hs
            have e := hj.symm.trans (hself _)
            cases notify <;> cases e
        | enter p t =>
          simp only [he] at hs
          (repeat' split at hs) <;> first
            | cases hs; done
            | (cases hs; have e := hj.symm.trans (hself _); cases e; done)
            | (simp at *; done)
        | ready p t late =>
          simp only [awake, he] at hs
          (repeat' split at hs) <;> first
            | cases hs; done
            | (cases hs; have e := hj.symm.trans (hself _); cases e; done)
            | (simp at *; done)
        | enableTest o => cases hs; have e := hj.symm.trans (hself _); rw [he] at e; cases e
        | stopTest o => cases hs; have e := hj.symm.trans (hself _); rw [he] at e; cases e
        | idle r => cases hs
        | asleep p t => cases hs
        | _ =>
          simp only at hs
          (repeat' split at hs) <;> first
            | cases hs; done
            | (cases hs; have e := hj.symm.trans (hself _); cases e; done)
            | (cases hs; have e := hj.symm.trans (hselfw _); cases e; done)
    | start i op =>
      simp only [step, start, tid] at hs hj
      split at hs
      · rename_i r hx
        cases hs
        have e := hj.symm.trans (get_set_self hx)
        cases op <;> cases e
      · cases hs
    | spurious i =>
      simp only [step, tid] at hs hj
      split at hs
      · rename_i p t hx
        cases hs
        have e := hj.symm.trans (get_set_self hx)
        cases e
      · cases hs
    | timeout i =>
      simp only [step, tid] at hs hj
      split at hs
      · rename_i p hx
        cases hs
        have e := hj.symm.trans (get_set_self hx)
        cases e
      · cases hs
  · obtain ⟨x0, hx0, h | h⟩ := frame_ne' hs hjl hj
    · rw [h]; exact hx0
    · cases x0 <;> cases h

/-- Non-trivial case: thread 0 waits for the value 3 with a timeout, sleeps, and returns because of it. -/
example : (((system Nat).exec (init 0 true 1) [.start 0 (.wait (fun v : Nat => v == 3) true), .run 0, .timeout 0,
    .run 0, .run 0]).map fun s => s.pcs.map fun | .idle r => r | _ => none) =
    some [some .timeout] := by decide

/-- Non-trivial case: with thread 1 writing 3 the reason is the condition. -/
example : (((system Nat).exec (init 0 true 2) [.start 0 (.wait (fun v : Nat => v == 3) true), .run 0,
    .start 1 (.setValue 3 true), .run 1, .run 1, .run 0, .run 0]).map
      fun s => s.pcs.map fun | .idle r => r | _ => none) =
    some [some .conditionMet, none] := by decide

/-- C52: when no notification is about to be sent, every sleeping thread sleeps rightly: the handler is
enabled and its predicate is false.  Writes without notification are allowed as long as they make no
awaited predicate true. -/
theorem C52_no_lost_wakeup (A : Op T → Prop)
    (hA : ∀ p t v, A (.wait p t) → A (.setValue v false) → p v = false)
    (v : T) (b : Bool) (n : Nat) (s : State T) (hr : (system T).ReachableBy A (init v b n) s)
    (hq : ∀ (k : Nat) (pc : PC T), s.pcs[k]? = some pc → pc ≠ .setNotify ∧ ∀ o, pc ≠ .disableNotify o)
    (j : Nat) (p : T → Bool) (t : Bool) (hj : s.pcs[j]? = some (.asleep p t)) :
    s.enabled = true ∧ p s.value = false := by
  rcases (sinv_reachable hA hr).sleep j p t hj with h | ⟨k, pc, hk, hp⟩
  · exact h
  · obtain ⟨h1, h2⟩ := hq k pc hk
    cases pc with
    | setNotify => exact absurd rfl h1
    | disableNotify o => exact absurd rfl (h2 o)
    | _ => cases hp

/-- C52 for handlers whose values are always written with notification (`IntWaitHandler`). -/
theorem C52_int (v : Int) (b : Bool) (n : Nat) (s : State Int)
    (hr : (system Int).ReachableBy (fun op => (∃ c, op = intOp c) ∨ (∃ v, op = .setValue v true) ∨
      ∃ o, op = .status o) (init v b n) s)
    (hq : ∀ (k : Nat) (pc : PC Int), s.pcs[k]? = some pc → pc ≠ .setNotify ∧ ∀ o, pc ≠ .disableNotify o)
    (j : Nat) (p : Int → Bool) (t : Bool) (hj : s.pcs[j]? = some (.asleep p t)) :
    s.enabled = true ∧ p s.value = false := by
  refine C52_no_lost_wakeup _ ?_ v b n s hr hq j p t hj
  rintro p t v - (⟨c, hc⟩ | ⟨w, hc⟩ | ⟨o, hc⟩)
  · cases c <;> cases hc
  · cases hc
  · cases hc

/-- C52 for `BooleanWaitHandler`, which closes without notifying. -/
theorem C52_bool (v : Bool) (b : Bool) (n : Nat) (s : State Bool)
    (hr : (system Bool).ReachableBy (fun op => (∃ c, op = boolOp c) ∨ ∃ o, op = .status o)
      (init v b n) s)
    (hq : ∀ (k : Nat) (pc : PC Bool), s.pcs[k]? = some pc → pc ≠ .setNotify ∧ ∀ o, pc ≠ .disableNotify o)
    (j : Nat) (p : Bool → Bool) (t : Bool) (hj : s.pcs[j]? = some (.asleep p t)) :
    s.enabled = true ∧ s.value = false := by
  have hid : p = fun v => v := by
    have := (sinv_reachable (A := fun op => (∃ c, op = boolOp c) ∨ ∃ o, op = .status o) (by
      rintro p t v (⟨c, hc⟩ | ⟨o, hc⟩) (⟨d, hd⟩ | ⟨o, hd⟩)
      · cases c <;> cases hc
        cases d <;> cases hd
        rfl
      · cases hd
      · cases hc
      · cases hc) hr).ok j _ hj
    rcases this with ⟨c, hc⟩ | ⟨o, hc⟩
    · cases c <;> cases hc
      rfl
    · cases hc
  have := C52_no_lost_wakeup _ (by
      rintro p t v (⟨c, hc⟩ | ⟨o, hc⟩) (⟨d, hd⟩ | ⟨o, hd⟩)
      · cases c <;> cases hc
        cases d <;> cases hd
        rfl
      · cases hd
      · cases hc
      · cases hc) v b n s hr hq j p t hj
  rw [hid] at this
  exact this

/-- C52, liveness: under fair scheduling a thread inside a wait, at a moment when its predicate holds or
the handler is disabled, returns, unless the predicate becomes false (and the handler enabled) again. -/
theorem C52_wakes (A : Op T → Prop)
    (hA : ∀ p t v, A (.wait p t) → A (.setValue v false) → p v = false)
    (v : T) (b : Bool) (n : Nat) (e : (system T).Execution) (hf : e.Fair)
    (h0 : (system T).ReachableBy A (init v b n) (e.at_ 0))
    (hl : ∀ n l, e.label n = some l → l.Allowed A) (i : Nat) (p : T → Bool) (t : Bool) :
    e.LeadsTo
      (fun s => (∃ pc, s.pcs[i]? = some pc ∧ pc.args = some (p, t)) ∧
        (s.enabled = false ∨ p s.value = true))
      (fun s => (∃ r, s.pcs[i]? = some (.idle (some r))) ∨
        ¬ (s.enabled = false ∨ p s.value = true)) := by
  have hR : ∀ m, (system T).ReachableBy A (init v b n) (e.at_ m) := by
    intro m
    induction m with
    | zero => exact h0
    | succ m ih =>
      rcases e.next m with ⟨-, h2⟩ | ⟨l, h1, h2⟩
      · rw [h2]; exact ih
      · exact .step ih (hl m l h1) h2
  have haw : ∀ s : State T, (s.enabled = false ∨ p s.value = true) → awake s p = true := by
    intro s h
    rcases h with h | h <;> simp [awake, h]
  have h4 : ∀ f, e.LeadsTo (At i (.leaving p t f))
      (fun s => (∃ r, s.pcs[i]? = some (.idle (some r))) ∨
        ¬ (s.enabled = false ∨ p s.value = true)) := by
    intro f
    refine nxt e hf i _ rfl (fun _ c => by cases c) _ ?_
    intro s s' _ _ hx hs
    rw [leaving_run hx hs]
    exact Or.inl ⟨_, get_set_self hx⟩
  -- a thread that is about to look at the predicate
  have h3 : ∀ x : PC T, x.active = true → (∀ o, x ≠ .acquire o) →
      (∀ s s', s.pcs[i]? = some x → awake s p = true → run s i = some s' →
        ∃ f, s'.pcs[i]? = some (.leaving p t f)) →
      e.LeadsTo (fun s => At i x s ∧ (s.enabled = false ∨ p s.value = true))
      (fun s => (∃ r, s.pcs[i]? = some (.idle (some r))) ∨
        ¬ (s.enabled = false ∨ p s.value = true)) := by
    intro x ha hn hgo
    have keep : ∀ s l s', (At i x s ∧ (s.enabled = false ∨ p s.value = true)) →
        (system T).step s l = some s' →
        (At i x s' ∧ (s'.enabled = false ∨ p s'.value = true)) ∨
        ((∃ f, At i (.leaving p t f) s') ∨ ¬ (s'.enabled = false ∨ p s'.value = true)) := by
      rintro s l s' ⟨⟨hI, hx⟩, hp⟩ hs
      have hI' := inv_step hI hs
      by_cases hp' : s'.enabled = false ∨ p s'.value = true
      · by_cases hlr : l = .run i
        · subst hlr
          obtain ⟨f, hf⟩ := hgo s s' hx (haw s hp) hs
          exact Or.inr (Or.inl ⟨f, hI', hf⟩)
        · exact Or.inl ⟨⟨hI', frame_active hs hx ha hlr⟩, hp'⟩
      · exact Or.inr (Or.inr hp')
    have h1 := e.leadsTo hf i _ _ keep (by
      intro n hp
      obtain ⟨m, hm, hfree⟩ := mutex_free e hf n hp.1.1
      rcases e.until_ _ _ keep n hp m hm with h | ⟨k, hk, h⟩
      · exact ⟨m, hm, Or.inl (able h.1.2 ha hfree (Or.inr hn))⟩
      · exact ⟨k, hk, Or.inr h⟩) (by
      rintro s s' ⟨⟨hI, hx⟩, hp⟩ hs
      obtain ⟨f, hf⟩ := hgo s s' hx (haw s hp) hs
      exact Or.inl ⟨f, inv_run hI hs, hf⟩)
    intro n hp
    obtain ⟨m, hm, ⟨f, h⟩ | h⟩ := h1 n hp
    · obtain ⟨m', hm', h'⟩ := h4 f m h
      exact ⟨m', Nat.le_trans hm hm', h'⟩
    · exact ⟨m, hm, Or.inr h⟩
  have hready : ∀ late, e.LeadsTo (fun s => At i (.ready p t late) s ∧
      (s.enabled = false ∨ p s.value = true))
      (fun s => (∃ r, s.pcs[i]? = some (.idle (some r))) ∨
        ¬ (s.enabled = false ∨ p s.value = true)) := by
    intro late
    refine h3 _ rfl (fun _ c => by cases c) ?_
    intro s s' hx ha hs
    simp only [run, hx, ha] at hs
    split at hs
    · cases hs
    · cases hs
      exact ⟨_, get_set_self hx⟩
  rintro m ⟨⟨pc, hpc, hargs⟩, hp⟩
  have hI := inv_reachable (hR m).reachable
  cases pc with
  | enter p' t' =>
    cases hargs
    refine h3 (.enter p t) rfl (fun _ c => by cases c) ?_ m ⟨⟨hI, hpc⟩, hp⟩
    intro s s' hx ha hs
    have ha' : awake { s with waiting := s.waiting + 1 } p = true := ha
    simp only [run, hx, ha'] at hs
    (repeat' split at hs) <;> first
      | (cases hs; done)
      | (cases hs; exact ⟨_, get_set_self hx⟩)
      | (rename_i h; exact absurd trivial h)
  | ready p' t' late => cases hargs; exact hready late m ⟨⟨hI, hpc⟩, hp⟩
  | leaving p' t' f => cases hargs; exact h4 f m ⟨hI, hpc⟩
  | asleep p' t' =>
    cases hargs
    rcases (sinv_reachable hA (hR m)).sleep i p t hpc with ⟨h1, h2⟩ | ⟨k, x, hk, hx⟩
    · rcases hp with hp | hp
      · rw [h1] at hp; cases hp
      · rw [h2] at hp; cases hp
    · -- the pending notification is sent
      have keep : ∀ s l s', (Inv s ∧ s.pcs[i]? = some (.asleep p t) ∧ s.pcs[k]? = some x) →
          (system T).step s l = some s' →
          (Inv s' ∧ s'.pcs[i]? = some (.asleep p t) ∧ s'.pcs[k]? = some x) ∨
          (∃ late, At i (.ready p t late) s') := by
        rintro s l s' ⟨hI, hi, hk⟩ hs
        have hI' := inv_step hI hs
        have hi' : s'.pcs[i]? = some (.asleep p t) ∨ ∃ late, s'.pcs[i]? = some (.ready p t late) := by
          by_cases hil : i = tid l
          · subst hil
            change step s l = some s' at hs
            cases l with
            | run i => simp only [step, run, tid] at hs hi; rw [hi] at hs; cases hs
            | start i op => simp only [step, start, tid] at hs hi; rw [hi] at hs; cases hs
            | spurious i =>
              simp only [step, tid] at hs hi ⊢
              rw [hi] at hs
              cases hs
              exact Or.inr ⟨_, get_set_self hi⟩
            | timeout i =>
              simp only [step, tid] at hs hi ⊢
              rw [hi] at hs
              cases t with
              | true => cases hs; exact Or.inr ⟨_, get_set_self hi⟩
              | false => cases hs
          · rcases frame_ne hs hil hi with h | h
            · exact Or.inl h
            · exact Or.inr ⟨_, h⟩
        rcases hi' with hi' | ⟨late, hi'⟩
        · by_cases hlk : l = .run k
          · subst hlk
            exact absurd hi' (pending_run hk hx hs i p t)
          · exact Or.inl ⟨hI', hi', frame_active hs hk (by cases x <;> first | rfl | cases hx) hlk⟩
        · exact Or.inr ⟨late, hI', hi'⟩
      have hw := e.leadsTo' hf k _ _ keep (fun s h => pending_able h.2.2 hx) (by
        rintro s s' h hs
        rcases keep s _ s' h hs with h' | h'
        · exact absurd h'.2.1 (pending_run h.2.2 hx hs i p t)
        · exact h')
      obtain ⟨k', hk', late, h⟩ := hw m ⟨hI, hpc, hk⟩
      by_cases hp' : (e.at_ k').enabled = false ∨ p (e.at_ k').value = true
      · obtain ⟨m', hm', h'⟩ := hready late k' ⟨h, hp'⟩
        exact ⟨m', Nat.le_trans hk' hm', h'⟩
      · exact ⟨k', hk', Or.inr hp'⟩
  | _ => cases hargs

/-- C53: the counter of waiting threads is the number of threads asleep in a wait or woken from one. -/
theorem C53_counter (v : T) (b : Bool) (n : Nat) (s : State T)
    (hr : (system T).Reachable (init v b n) s) :
    s.waiting = s.pcs.countP (fun | .asleep _ _ => true | .ready _ _ _ => true | _ => false) := by
  rw [(inv_reachable hr).count]
  congr 1

/-- C53: when `blocking_disable` returns (and from the end of its loop on) the handler is disabled and no
thread is asleep in a wait or about to look at its predicate again.  What is missing: a thread may still
be on its way out, see `C53_negation`. -/
theorem C53_drained_partial (v : T) (b : Bool) (n : Nat) (s : State T)
    (hr : (system T).Reachable (init v b n) s) (i : Nat)
    (hi : s.pcs[i]? = some (.release .blockingDisable)) :
    s.enabled = false ∧ s.waiting = 0 ∧
    ∀ (j : Nat) (p : T → Bool) (t late : Bool),
      s.pcs[j]? ≠ some (.asleep p t) ∧ s.pcs[j]? ≠ some (.ready p t late) := by
  have hI := inv_reachable hr
  have hL := hI.loc i _ hi
  have h0 := hL.drained rfl
  refine ⟨hL.off rfl, h0, ?_⟩
  intro j p t late
  have hc := hI.count
  constructor
  · intro c
    have := countP_pos_of_get PC.inWait c rfl
    omega
  · intro c
    have := countP_pos_of_get PC.inWait c rfl
    omega

/-- C53: `enable` returns with the handler enabled, `disable` and `blocking_disable` with it disabled,
`stop_and_continue` with it enabled. -/
theorem C53_status (v : T) (b : Bool) (n : Nat) (s : State T)
    (hr : (system T).Reachable (init v b n) s) (i : Nat) (o : StatusOp)
    (hi : s.pcs[i]? = some (.release o)) :
    s.enabled = (match o with | .enable | .stopAndContinue => true | _ => false) := by
  have hL := (inv_reachable hr).loc i _ hi
  cases o
  · exact hL.on rfl
  · exact hL.off rfl
  · exact hL.off rfl
  · exact hL.on rfl

/-- C53: under fair scheduling every call of `enable`, `disable`, `blocking_disable` and
`stop_and_continue` returns, whatever the other threads do. -/
theorem C53_returns (v : T) (b : Bool) (n : Nat) (e : (system T).Execution) (hf : e.Fair)
    (h0 : (system T).Reachable (init v b n) (e.at_ 0)) (i : Nat) (o : StatusOp) :
    e.LeadsTo (fun s => s.pcs[i]? = some (.acquire o)) (fun s => s.pcs[i]? = some (.release o)) ∧
    e.LeadsTo (fun s => s.pcs[i]? = some (.release o)) (fun s => s.pcs[i]? = some (.idle none)) := by
  have hI : ∀ m, Inv (e.at_ m) := fun m => inv_reachable (e.reachable h0 m)
  constructor
  · intro m hm
    obtain ⟨k, hk, h⟩ := rel_acquire e hf i o m ⟨hI m, hm⟩
    exact ⟨k, hk, h.2⟩
  · intro m hm
    obtain ⟨k, hk, h⟩ := release_idle e hf i o m ⟨hI m, hm⟩
    exact ⟨k, hk, h.2⟩

/-- C53 fails for threads on their way out: `blocking_disable` can return while a thread is still inside
`wait`, holding the mutex of the handler (thread 1 registers, thread 0 disables and notifies, thread 1
decrements the counter, thread 0 reads 0 and returns). -/
theorem C53_negation : ∃ s : State Nat, (system Nat).Reachable (init 0 true 2) s ∧
    s.pcs[0]? = some (.idle none) ∧ s.enabled = false ∧ s.mutex = some 1 ∧
    ∃ p t f, s.pcs[1]? = some (.leaving p t f) := by
  refine ⟨_, (system Nat).exec_reachable'
    [.start 1 (.wait (fun v => v == 3) false), .run 1, .start 0 (.status .blockingDisable),
      .run 0, .run 0, .run 0, .run 0, .run 1, .run 0, .run 0] rfl,
    rfl, rfl, rfl, _, _, _, rfl⟩

/-- Non-trivial case for `C53_drained_partial`: the state just before that return. -/
example : ∃ s : State Nat, (system Nat).Reachable (init 0 true 2) s ∧
    s.pcs[0]? = some (.release .blockingDisable) :=
  ⟨_, (system Nat).exec_reachable'
    [.start 1 (.wait (fun v => v == 3) false), .run 1, .start 0 (.status .blockingDisable),
      .run 0, .run 0, .run 0, .run 0, .run 1, .run 0] rfl, rfl⟩

/-- Non-trivial case for `C52_no_lost_wakeup`: a thread sleeps, with the value below what it waits for. -/
example : ∃ s : State Int, (system Int).ReachableBy (fun op => (∃ c, op = intOp c) ∨
      (∃ v, op = .setValue v true) ∨ ∃ o, op = .status o) (init 0 true 2) s ∧ s.value = 1 ∧
      (∃ p t, s.pcs[0]? = some (.asleep p t)) ∧
      ∀ (k : Nat) (pc : PC Int), s.pcs[k]? = some pc → pc ≠ .setNotify ∧ ∀ o, pc ≠ .disableNotify o := by
  refine ⟨_, (system Int).exec_reachable (s := init 0 true 2)
    [.start 0 (intOp (.waitEqual 2 false)), .run 0, .start 1 (intOp .inc), .run 1, .run 1, .run 0] ?_
    .init rfl, rfl, ⟨_, _, rfl⟩, ?_⟩
  · intro l hl
    simp only [List.mem_cons, List.not_mem_nil, or_false] at hl
    rcases hl with rfl | rfl | rfl | rfl | rfl | rfl <;>
      first | trivial | exact Or.inl ⟨_, rfl⟩
  · intro k pc hk
    match k with
    | 0 => cases hk; exact ⟨nofun, nofun⟩
    | 1 => cases hk; exact ⟨nofun, nofun⟩
    | k + 2 => cases hk

/-- Non-trivial case for `C52_wakes` and `C53_returns`: a fair execution in which thread 1 sleeps and
thread 0 calls `blocking_disable`. -/
example : ∃ e : (system Nat).Execution, e.Fair ∧
    (system Nat).ReachableBy (fun op => ∀ v, op ≠ .setValue v false) (init 0 true 2) (e.at_ 0) ∧
    (∀ n l, e.label n = some l → l.Allowed (fun op => ∀ v, op ≠ .setValue v false)) ∧
    (∃ p t, (e.at_ 2).pcs[1]? = some (.asleep p t)) ∧
    (e.at_ 3).pcs[0]? = some (.acquire .blockingDisable) := by
  obtain ⟨e, h1, h2, h3, h4⟩ := (system Nat).finite_fair (init 0 true 2) _
    [.start 1 (.wait (fun v => v == 3) false), .run 1, .start 0 (.status .blockingDisable),
      .run 0, .run 0, .run 0, .run 0, .run 1, .run 0, .run 0, .run 1] rfl (by
      intro i
      match i with
      | 0 => rfl
      | 1 => rfl
      | i + 2 => rfl)
  refine ⟨e, h1, by rw [h2]; exact .init, ?_, ?_, ?_⟩
  · intro n l hl
    have := h4 n l hl
    simp only [List.mem_cons, List.not_mem_nil, or_false] at this
    rcases this with rfl | rfl | rfl | rfl | rfl | rfl | rfl | rfl | rfl | rfl | rfl <;>
      first | trivial | exact nofun
  · obtain ⟨s, hs, he⟩ := h3 2
    rw [he]
    cases hs
    exact ⟨_, _, rfl⟩
  · obtain ⟨s, hs, he⟩ := h3 3
    rw [he]
    cases hs
    rfl

end Verif.WaitHandler
