import Verif.Model.SlotThreadPool
import Verif.Lemmas.CounterQueue
import Verif.Lemmas.StdMap
/-!
Lemmas about `Verif.SlotThreadPool`: the kinds of steps, the invariant.
-/
namespace Verif.SlotThreadPool
open Verif.Threads
open Verif.WaitHandler (Reason StatusOp)

variable {T : Type}

/-- Within a call to the queue. -/
def PC.calling : PC T → Bool
  | .disableCall => true
  | .emitCall _ => true
  | .waitCall => true
  | .consuming => true
  | _ => false

/-- Where a worker goes with what `consume` gave. -/
def consumed : Option (Counter.Ret Nat) → PC T
  | some (.value v) => .look v
  | some (.threw .disabled) => .ended
  | _ => .terminated

/-- What `wait_all_consumed` gives. -/
def waited : Option (Counter.Ret Nat) → Option Ret
  | some (.reason r) => some (.reason r)
  | _ => none

/-- The branches of `run`. -/
inductive Ran (s : State T) (i : Nat) : PC T → State T → Prop
  | enableSkip (he : s.enabled = true) : Ran s i .enableTest (goto s i (.idle (some .done)))
  | enableStore (he : s.enabled = false) :
      Ran s i .enableTest (goto { s with enabled := true } i (.spawn s.n))
  | spawnEnd : Ran s i (.spawn 0) (goto s i (.idle (some .done)))
  | spawnOne (k j : Nat) (hj : s.pcs[j]? = some .dormant) :
      Ran s i (.spawn (k + 1))
        { s with threads := s.threads ++ [j], pcs := (s.pcs.set j .next).set i (.spawn k) }
  | disableStore (r : Option (Counter.Ret Nat)) (he : s.enabled = true) (hq : s.q.pcs[i]? = some (.idle r)) :
      Ran s i .disableTest
        (goto { s with enabled := false, q := Counter.goto s.q i (.acquire .disable) } i .disableCall)
  | disableSkip (he : s.enabled = false) : Ran s i .disableTest (goto s i (.idle (some .done)))
  | stay (x : PC T) (q : Counter.State Nat) (hc : x.calling = true) (hq : Counter.run s.q i = some q)
      (hn : ∀ r, q.pcs[i]? ≠ some (.idle r)) : Ran s i x { s with q := q }
  | disableRet (q : Counter.State Nat) (r : Option (Counter.Ret Nat)) (hq : Counter.run s.q i = some q)
      (hr : q.pcs[i]? = some (.idle r)) :
      Ran s i .disableCall (goto { s with q := q } i (.joining s.threads))
  | joinEnd : Ran s i (.joining []) (goto { s with threads := [] } i (.idle (some .done)))
  | joinOne (j : Nat) (l : List Nat) (hj : s.pcs[j]? = some .ended) :
      Ran s i (.joining (j :: l)) (goto s i (.joining l))
  | emitUnknown (id : Nat) (hm : s.slotsMutex = none) (hg : StdMap.get id s.slots = none) :
      Ran s i (.emitLock id) (goto s i (.idle (some (.threw .valueNotAllowed))))
  | emitKnown (id : Nat) (t : T) (r : Option (Counter.Ret Nat)) (hm : s.slotsMutex = none)
      (hg : StdMap.get id s.slots = some t) (hq : s.q.pcs[i]? = some (.idle r)) :
      Ran s i (.emitLock id)
        (goto { s with slotsMutex := some i, emitted := s.emitted ++ [id],
                       q := Counter.goto s.q i (.push id) } i (.emitCall id))
  | emitRet (id : Nat) (q : Counter.State Nat) (r : Option (Counter.Ret Nat))
      (hq : Counter.run s.q i = some q) (hr : q.pcs[i]? = some (.idle r)) :
      Ran s i (.emitCall id) (goto { s with q := q, slotsMutex := none } i (.idle (some .done)))
  | slotKnown (id : Nat) (t t' : T) (hm : s.slotsMutex = none) (hg : StdMap.get id s.slots = some t') :
      Ran s i (.slotLock id t) (goto s i (.idle (some (.threw .valueNotAllowed))))
  | slotNew (id : Nat) (t : T) (hm : s.slotsMutex = none) (hg : StdMap.get id s.slots = none) :
      Ran s i (.slotLock id t)
        (goto { s with slots := StdMap.put id t s.slots } i (.idle (some .done)))
  | waitStart (timed : Bool) (r : Option (Counter.Ret Nat)) (hq : s.q.pcs[i]? = some (.idle r)) :
      Ran s i (.waitEnter timed) (goto { s with q := Counter.goto s.q i (.thEnter timed) } i .waitCall)
  | waitRet (q : Counter.State Nat) (r : Option (Counter.Ret Nat)) (hq : Counter.run s.q i = some q)
      (hr : q.pcs[i]? = some (.idle r)) : Ran s i .waitCall (goto { s with q := q } i (.idle (waited r)))
  | next (r : Option (Counter.Ret Nat)) (hq : s.q.pcs[i]? = some (.idle r)) :
      Ran s i .next (goto { s with q := Counter.goto s.q i (.enter true false) } i .consuming)
  | consumeRet (q : Counter.State Nat) (r : Option (Counter.Ret Nat)) (hq : Counter.run s.q i = some q)
      (hr : q.pcs[i]? = some (.idle r)) : Ran s i .consuming (goto { s with q := q } i (consumed r))
  | lookNone (id : Nat) (hm : s.slotsMutex = none) (hg : StdMap.get id s.slots = none) :
      Ran s i (.look id) (goto s i .terminated)
  | lookSome (id : Nat) (t : T) (hm : s.slotsMutex = none) (hg : StdMap.get id s.slots = some t) :
      Ran s i (.look id) (goto s i (.exec id t))
  | exec (id : Nat) (t : T) :
      Ran s i (.exec id t) (goto { s with started := s.started ++ [(id, t)] } i (.inside id t))
  | inside (id : Nat) (t : T) :
      Ran s i (.inside id t)
        (goto { s with finished := s.finished ++ [(id, t)] } i (s.ends s.finished.length).goes)

theorem call_some {s s' : State T} {i : Nat} {op : Counter.Op Nat} {pc : PC T}
    (h : call s i op pc = some s') : ∃ r, s.q.pcs[i]? = some (.idle r) ∧
      s' = goto { s with q := Counter.goto s.q i (Counter.entry op) } i pc := by
  simp only [call, Counter.start] at h
  split at h
  · rename_i r hr
    cases h
    exact ⟨r, hr, rfl⟩
  · cases h

theorem within_some {s s' : State T} {i : Nat} {k : State T → Option (Counter.Ret Nat) → State T}
    (h : within s i k = some s') : ∃ q, Counter.run s.q i = some q ∧
      ((∃ r, q.pcs[i]? = some (.idle r) ∧ s' = k { s with q := q } r) ∨
       ((∀ r, q.pcs[i]? ≠ some (.idle r)) ∧ s' = { s with q := q })) := by
  simp only [within] at h
  cases hq : Counter.run s.q i with
  | none => rw [hq] at h; cases h
  | some q =>
    rw [hq] at h
    simp only [Option.map_some, Option.some.injEq] at h
    refine ⟨q, rfl, ?_⟩
    split at h
    · rename_i r hr
      exact Or.inl ⟨r, hr, h.symm⟩
    · rename_i hn
      exact Or.inr ⟨hn, h.symm⟩

theorem findIdx_dormant {l : List (PC T)} {j : Nat} (h : l.findIdx? PC.isDormant = some j) :
    l[j]? = some .dormant := by
  obtain ⟨hj, hp, -⟩ := List.findIdx?_eq_some_iff_getElem.1 h
  rw [List.getElem?_eq_getElem hj]
  cases hx : l[j] <;> rw [hx] at hp <;> first | rfl | cases hp

theorem run_ran {s s' : State T} {i : Nat} (h : run s i = some s') :
    ∃ x, s.pcs[i]? = some x ∧ Ran s i x s' := by
  unfold run at h
  split at h
  · cases h
  · rename_i x hx
    refine ⟨x, hx, ?_⟩
    cases x with
    | idle r => cases h
    | dormant => cases h
    | ended => cases h
    | terminated => cases h
    | enableTest =>
      simp only at h
      split at h
      · rename_i he; cases h; exact .enableSkip he
      · rename_i he; cases h; exact .enableStore (by simpa using he)
    | spawn k =>
      cases k with
      | zero => cases h; exact .spawnEnd
      | succ k =>
        simp only at h
        split at h
        · cases h
        · rename_i j hj
          cases h
          exact .spawnOne k j (findIdx_dormant hj)
    | disableTest =>
      simp only at h
      split at h
      · rename_i he
        obtain ⟨r, hr, e⟩ := call_some h
        rw [e]
        exact .disableStore r he hr
      · rename_i he; cases h; exact .disableSkip (by simpa using he)
    | disableCall =>
      obtain ⟨q, hq, ⟨r, hr, e⟩ | ⟨hn, e⟩⟩ := within_some h
      · rw [e]; exact .disableRet q r hq hr
      · rw [e]; exact .stay _ q rfl hq hn
    | joining l =>
      cases l with
      | nil => cases h; exact .joinEnd
      | cons j l =>
        simp only at h
        split at h
        · rename_i hj; cases h; exact .joinOne j l hj
        · cases h
    | emitLock id =>
      simp only at h
      split at h
      · cases h
      · rename_i hm
        have hm : s.slotsMutex = none := by simpa using hm
        split at h
        · rename_i hg; cases h; exact .emitUnknown id hm hg
        · rename_i t hg
          obtain ⟨r, hr, e⟩ := call_some h
          rw [e]
          exact .emitKnown id t r hm hg hr
    | emitCall id =>
      obtain ⟨q, hq, ⟨r, hr, e⟩ | ⟨hn, e⟩⟩ := within_some h
      · rw [e]; exact .emitRet id q r hq hr
      · rw [e]; exact .stay _ q rfl hq hn
    | slotLock id t =>
      simp only at h
      split at h
      · cases h
      · rename_i hm
        have hm : s.slotsMutex = none := by simpa using hm
        split at h
        · rename_i t' hg; cases h; exact .slotKnown id t t' hm hg
        · rename_i hg; cases h; exact .slotNew id t hm hg
    | waitEnter timed =>
      obtain ⟨r, hr, e⟩ := call_some h
      rw [e]
      exact .waitStart timed r hr
    | waitCall =>
      obtain ⟨q, hq, ⟨r, hr, e⟩ | ⟨hn, e⟩⟩ := within_some h
      · rw [e]; exact .waitRet q r hq hr
      · rw [e]; exact .stay _ q rfl hq hn
    | next =>
      obtain ⟨r, hr, e⟩ := call_some h
      rw [e]
      exact .next r hr
    | consuming =>
      obtain ⟨q, hq, ⟨r, hr, e⟩ | ⟨hn, e⟩⟩ := within_some h
      · rw [e]; exact .consumeRet q r hq hr
      · rw [e]; exact .stay _ q rfl hq hn
    | look id =>
      simp only at h
      split at h
      · cases h
      · rename_i hm
        have hm : s.slotsMutex = none := by simpa using hm
        split at h
        · rename_i hg; cases h; exact .lookNone id hm hg
        · rename_i t hg; cases h; exact .lookSome id t hm hg
    | exec id t => cases h; exact .exec id t
    | inside id t => cases h; exact .inside id t

/-- The kinds of steps. -/
inductive Stepped (s : State T) : Label (Op T) → State T → Prop
  | run (i : Nat) (x : PC T) (s' : State T) (hx : s.pcs[i]? = some x) (h : Ran s i x s') :
      Stepped s (.run i) s'
  | start (i : Nat) (r : Option Ret) (op : Op T) (hx : s.pcs[i]? = some (.idle r)) :
      Stepped s (.start i op) (goto s i (entry op))
  | spurious (i : Nat) (q : Counter.State Nat) (hq : Counter.step s.q (.spurious i) = some q) :
      Stepped s (.spurious i) { s with q := q }
  | timeout (i : Nat) (q : Counter.State Nat) (hq : Counter.step s.q (.timeout i) = some q) :
      Stepped s (.timeout i) { s with q := q }

theorem step_stepped {s s' : State T} {l : Label (Op T)} (h : step s l = some s') : Stepped s l s' := by
  cases l with
  | run i =>
    obtain ⟨x, hx, h⟩ := run_ran h
    exact .run i x s' hx h
  | start i op =>
    simp only [step] at h
    split at h
    · rename_i r hx
      cases h
      exact .start i r op hx
    · cases h
  | spurious i =>
    simp only [step] at h
    cases hq : Counter.step s.q (.spurious i) with
    | none => rw [hq] at h; cases h
    | some q => rw [hq] at h; cases h; exact .spurious i q hq
  | timeout i =>
    simp only [step] at h
    cases hq : Counter.step s.q (.timeout i) with
    | none => rw [hq] at h; cases h
    | some q => rw [hq] at h; cases h; exact .timeout i q hq

theorem start_idle {q : Counter.State Nat} {i : Nat} {r : Option (Counter.Ret Nat)}
    (h : q.pcs[i]? = some (.idle r)) (op : Counter.Op Nat) :
    Counter.step q (.start i op) = some (Counter.goto q i (Counter.entry op)) := by
  simp only [Counter.step, Counter.start, h]

/-- What a step of the pool does to the queue: a step of the queue of the same thread, or nothing. -/
theorem step_queue {s s' : State T} {l : Label (Op T)} (h : Stepped s l s') :
    s'.q = s.q ∨
    ∃ l' : Label (Counter.Op Nat), Counter.step s.q l' = some s'.q ∧ l'.Allowed Counter.Consumer ∧
      (∀ o, l'.Allowed (· ≠ .status o) ∨ o = .disable) ∧
      (∀ i, l = .run i → l' = .run i ∨ ∃ op, l' = .start i op) ∧
      (∀ i op, l ≠ .start i op) := by
  cases h with
  | run i x s' hx h =>
    have hrun : ∀ q : Counter.State Nat, Counter.run s.q i = some q →
      ∃ l' : Label (Counter.Op Nat), Counter.step s.q l' = some q ∧ l'.Allowed Counter.Consumer ∧
      (∀ o, l'.Allowed (· ≠ .status o) ∨ o = .disable) ∧
      (∀ j, Label.run (Op := Op T) i = .run j → l' = .run j ∨ ∃ op, l' = .start j op) ∧
      (∀ j op, Label.run (Op := Op T) i ≠ .start j op) := fun q hq =>
        ⟨.run i, hq, trivial, fun _ => Or.inl trivial, fun j e => by cases e; exact Or.inl rfl, nofun⟩
    have hstart : ∀ (r : Option (Counter.Ret Nat)) (op : Counter.Op Nat),
      s.q.pcs[i]? = some (.idle r) → Counter.Consumer op → (∀ o, op ≠ .status o ∨ o = .disable) →
      ∃ l' : Label (Counter.Op Nat), Counter.step s.q l' = some (Counter.goto s.q i (Counter.entry op)) ∧
      l'.Allowed Counter.Consumer ∧
      (∀ o, l'.Allowed (· ≠ .status o) ∨ o = .disable) ∧
      (∀ j, Label.run (Op := Op T) i = .run j → l' = .run j ∨ ∃ op, l' = .start j op) ∧
      (∀ j op, Label.run (Op := Op T) i ≠ .start j op) := fun r op hr hc ho =>
        ⟨.start i op, start_idle hr op, hc, ho, fun j e => by cases e; exact Or.inr ⟨op, rfl⟩, nofun⟩
    cases h with
    | stay x q hc hq hn => exact Or.inr (hrun q hq)
    | disableRet q r hq hr => exact Or.inr (hrun q hq)
    | emitRet id q r hq hr => exact Or.inr (hrun q hq)
    | waitRet q r hq hr => exact Or.inr (hrun q hq)
    | consumeRet q r hq hr => exact Or.inr (hrun q hq)
    | disableStore r he hq =>
      refine Or.inr (hstart r (.status .disable) hq trivial ?_)
      intro o
      cases o <;> first | exact Or.inr rfl | exact Or.inl nofun
    | emitKnown id t r hm hg hq => exact Or.inr (hstart r (.produce id) hq trivial fun _ => Or.inl nofun)
    | waitStart timed r hq =>
      exact Or.inr (hstart r (.waitThreshold timed) hq trivial fun _ => Or.inl nofun)
    | next r hq => exact Or.inr (hstart r (.consume false) hq trivial fun _ => Or.inl nofun)
    | _ => exact Or.inl rfl
  | start i r op hx => exact Or.inl rfl
  | spurious i q hq => exact Or.inr ⟨.spurious i, hq, trivial, fun _ => Or.inl trivial, nofun, nofun⟩
  | timeout i q hq => exact Or.inr ⟨.timeout i, hq, trivial, fun _ => Or.inl trivial, nofun, nofun⟩

theorem queue_reachable {n c d : Nat} {picks : Nat → Nat} {ends : Nat → Ending} {s : State T}
    (hr : (system T).Reachable (init n c d picks ends) s) :
    (Counter.system Nat).ReachableBy Counter.Consumer (Counter.init 0 0 true picks (c + d)) s.q := by
  refine System.Reachable.invariant (S := system T)
    (fun s => (Counter.system Nat).ReachableBy Counter.Consumer (Counter.init 0 0 true picks (c + d)) s.q)
    .init ?_ hr
  intro s l s' hq hs
  rcases step_queue (step_stepped hs) with e | ⟨l', h, ha, -⟩
  · show (Counter.system Nat).ReachableBy _ _ s'.q
    rw [e]; exact hq
  · exact .step hq ha h

end Verif.SlotThreadPool
