import Verif.Lemmas.CounterAcc
import Verif.Lemmas.CounterLive
/-!
Liveness of `DBQueueWaitHandler`: elements are taken as long as there is somebody to take them.
-/
namespace Verif.Counter
open Verif.Threads
open Verif.WaitHandler (Reason StatusOp)

variable {T : Type}

/-- `pop_queue_mutex_` is held by a thread. -/
theorem popMutex_step {s s' : State T} {l : Label (Op T)}
    (h : ∀ j : Nat, s.popMutex = some j → j < s.pcs.length) (hs : Stepped s l s') :
    ∀ j : Nat, s'.popMutex = some j → j < s'.pcs.length := by
  have hlen : ∀ (i : Nat) (y : PC T), Woken (s.pcs.set i y) s'.pcs → s'.pcs.length = s.pcs.length := by
    intro i y hw
    rw [hw.length, List.length_set]
  have same : s'.pcs.length = s.pcs.length → s'.popMutex = s.popMutex →
      ∀ j : Nat, s'.popMutex = some j → j < s'.pcs.length := by
    intro e1 e2 j hj
    rw [e1]
    exact h j (e2 ▸ hj)
  cases hs with
  | run i x s' hx hr =>
    obtain ⟨y, hy⟩ := ran_woken hr
    have e1 := hlen i y hy
    cases hr with
    | enterGrant c t he hv => exact same e1 (decrease_same _).1.popMutex
    | readyGrant c t l he hv => exact same e1 (decrease_same _).1.popMutex
    | inc p => exact same e1 (increment_same _).1.popMutex
    | popEmpty hm hq =>
      intro j hj
      cases hj
      rw [e1]
      exact (List.getElem?_eq_some_iff.1 hx).1
    | popSome hm hq =>
      intro j hj
      cases hj
      rw [e1]
      exact (List.getElem?_eq_some_iff.1 hx).1
    | popFail hq => nofun
    | popTake v l hq => nofun
    | _ => exact same e1 rfl
  | start i r op hx => exact same (List.length_set ..) rfl
  | spurious i c t hx => exact same (List.length_set ..) rfl
  | spuriousTh i t hx => exact same (List.length_set ..) rfl
  | timeout i c hx => exact same (List.length_set ..) rfl
  | timeoutTh i hx => exact same (List.length_set ..) rfl

theorem popMutex_reachable {v0 thr : Nat} {b : Bool} {picks : Nat → Nat} {n : Nat} {s : State T}
    {A : Op T → Prop} (h : (system T).ReachableBy A (init thr v0 b picks n) s) :
    ∀ j : Nat, s.popMutex = some j → j < s.pcs.length :=
  System.ReachableBy.invariant (fun (s : State T) => ∀ j : Nat, s.popMutex = some j → j < s.pcs.length)
    nofun (fun _ _ _ hI _ hs => popMutex_step hI (step_stepped hs)) h

theorem popped_step {s s' : State T} {l : Label (Op T)} (hs : Stepped s l s') :
    s.popped.length ≤ s'.popped.length ∧ s.pushed.length ≤ s'.pushed.length ∧ s.incs ≤ s'.incs ∧
      s.popped <+: s'.popped ∧ s.pushed <+: s'.pushed := by
  have hi : s.incs ≤ s'.incs := by
    obtain ⟨-, h | h | h⟩ := step_counter hs
    · rw [h.2.1]; exact Nat.le_refl _
    · rw [h.2.1]; exact Nat.le_succ _
    · rw [h.2.2.2.1]; exact Nat.le_refl _
  have hp : s.popped <+: s'.popped ∧ s.pushed <+: s'.pushed := by
    have same : s'.popped = s.popped → s'.pushed = s.pushed →
        s.popped <+: s'.popped ∧ s.pushed <+: s'.pushed :=
      fun e1 e2 => by rw [e1, e2]; exact ⟨List.prefix_refl _, List.prefix_refl _⟩
    cases hs with
    | run i x s' hx hr =>
      cases hr with
      | enterGrant c t he hv => exact same (decrease_same _).1.popped (decrease_same _).1.pushed
      | readyGrant c t l he hv => exact same (decrease_same _).1.popped (decrease_same _).1.pushed
      | inc p => exact same (increment_same _).1.popped (increment_same _).1.pushed
      | push v => exact ⟨List.prefix_refl _, List.prefix_append _ _⟩
      | popTake v l hq => exact ⟨List.prefix_append _ _, List.prefix_refl _⟩
      | _ => exact same rfl rfl
    | _ => exact same rfl rfl
  exact ⟨hp.1.length_le, hp.2.length_le, hi, hp⟩

variable (e : (system T).Execution)

theorem mono_exec {n m : Nat} (h : n ≤ m) :
    (e.at_ n).popped <+: (e.at_ m).popped ∧ (e.at_ n).pushed <+: (e.at_ m).pushed ∧
      (e.at_ n).incs ≤ (e.at_ m).incs := by
  induction h with
  | refl => exact ⟨List.prefix_refl _, List.prefix_refl _, Nat.le_refl _⟩
  | step h ih =>
    rename_i m
    rcases e.next m with ⟨-, h2⟩ | ⟨l, -, h2⟩
    · rw [h2]; exact ih
    · obtain ⟨-, -, a, b, c⟩ := popped_step (step_stepped h2)
      exact ⟨ih.1.trans b, ih.2.1.trans c, Nat.le_trans ih.2.2 a⟩

/-- A thread that is active and does not wait for a mutex executes its step. -/
theorem active_runs (hf : e.Fair) (i : Nat) (x : PC T) (ha : x.active = true) (h1 : ∀ o, x ≠ .acquire o)
    (h2 : x ≠ .popLock) (n : Nat) (hx : (e.at_ n).pcs[i]? = some x) :
    ∃ m, n ≤ m ∧ (e.at_ m).pcs[i]? = some x ∧ Ran (e.at_ m) i x (e.at_ (m + 1)) := by
  obtain ⟨m, hm, hx, -, hs⟩ := e.runs_at hf i (fun s => s.pcs[i]? = some x)
    (fun s l s' hx hl hs => frame_active (step_stepped hs) hx ha hl) n hx
    (fun m _ hx => ⟨m, Nat.le_refl m, able hx ha h1 h2⟩)
  refine ⟨m, hm, hx, ?_⟩
  have hs : step (e.at_ m) (.run i) = some (e.at_ (m + 1)) := hs
  cases step_stepped hs with
  | run i y s' hy hr =>
    rw [hx] at hy
    cases hy
    exact hr

section
variable {thr : Nat} {b : Bool} {picks : Nat → Nat} {N : Nat}
  (hR : ∀ n, (system T).ReachableBy Consumer (init thr 0 b picks N) (e.at_ n))

include hR in
theorem take_runs (hf : e.Fair) (i n : Nat) (hx : (e.at_ n).pcs[i]? = some .popTake) :
    ∃ m, n ≤ m ∧ (e.at_ n).popped.length < (e.at_ m).popped.length ∧ (e.at_ m).popMutex = none := by
  obtain ⟨m, hm, hx, hr⟩ := active_runs e hf i .popTake rfl nofun nofun n hx
  refine ⟨m + 1, by omega, ?_⟩
  have hmono := (mono_exec e hm).1.length_le
  have htake := (cl_reachable (hR m)).take i hx
  generalize e.at_ (m + 1) = s' at hr
  cases hr with
  | popFail hq => exact absurd hq htake
  | popTake v l hq =>
    refine ⟨?_, rfl⟩
    show (e.at_ n).popped.length < ((e.at_ m).popped ++ [v]).length
    rw [List.length_append, List.length_singleton]
    omega

theorem swap_runs (hf : e.Fair) (i n : Nat) (hx : (e.at_ n).pcs[i]? = some .popSwap) :
    ∃ m, n ≤ m ∧ (e.at_ m).pcs[i]? = some .popTake := by
  obtain ⟨m, hm, hx, hr⟩ := active_runs e hf i .popSwap rfl nofun nofun n hx
  refine ⟨m + 1, by omega, ?_⟩
  generalize e.at_ (m + 1) = s' at hr
  cases hr with
  | popSwap => exact get_set_self hx

include hR in
theorem popMutex_free (hf : e.Fair) (n : Nat) : ∃ m, n ≤ m ∧ (e.at_ m).popMutex = none := by
  cases hm : (e.at_ n).popMutex with
  | none => exact ⟨n, Nat.le_refl n, hm⟩
  | some j =>
    have hj := popMutex_reachable (hR n) j hm
    have hx : (e.at_ n).pcs[j]? = some (e.at_ n).pcs[j] := List.getElem?_eq_getElem hj
    have ho := ((qu_reachable (hR n)).own j _ hx).2 hm
    have hcase : (e.at_ n).pcs[j]? = some .popSwap ∨ (e.at_ n).pcs[j]? = some .popTake := by
      rw [hx]
      generalize (e.at_ n).pcs[j] = x at ho
      cases x <;> first | exact Or.inl rfl | exact Or.inr rfl | cases ho
    rcases hcase with h | h
    · obtain ⟨m, hm, h⟩ := swap_runs e hf j n h
      obtain ⟨k, hk, -, h⟩ := take_runs e hR hf j m h
      exact ⟨k, Nat.le_trans hm hk, h⟩
    · obtain ⟨k, hk, -, h⟩ := take_runs e hR hf j n h
      exact ⟨k, hk, h⟩

include hR in
theorem lock_runs (hf : e.Fair) (i n : Nat) (hx : (e.at_ n).pcs[i]? = some .popLock) :
    ∃ m, n ≤ m ∧ ((e.at_ m).pcs[i]? = some .popSwap ∨ (e.at_ m).pcs[i]? = some .popTake) := by
  by_cases hq : ∃ m, n ≤ m ∧ ((e.at_ m).pcs[i]? = some .popSwap ∨ (e.at_ m).pcs[i]? = some .popTake)
  · exact hq
  · have hr : ∀ m l, (e.at_ m).pcs[i]? = some .popLock → step (e.at_ m) l = some (e.at_ (m + 1)) → n ≤ m →
        l ≠ .run i := by
      rintro m l hx hs hm rfl
      refine hq ⟨m + 1, by omega, ?_⟩
      have hs := step_stepped hs
      generalize e.at_ (m + 1) = s' at hs
      cases hs with
      | run i y s' hy hr =>
        rw [hx] at hy
        cases hy
        cases hr with
        | popEmpty hm hq => exact Or.inl (get_set_self hx)
        | popSome hm hq => exact Or.inr (get_set_self hx)
    have hstay : ∀ m, n ≤ m → (e.at_ m).pcs[i]? = some .popLock := by
      intro m hm
      induction hm with
      | refl => exact hx
      | step hm ih =>
        rename_i m
        rcases e.next m with ⟨-, h2⟩ | ⟨l, -, h2⟩
        · rw [h2]; exact ih
        · exact frame_active (step_stepped h2) ih rfl (hr m l ih h2 hm)
    obtain ⟨m, hm, hl⟩ := hf i n (fun m hm => by
      obtain ⟨k, hk, hfree⟩ := popMutex_free e hR hf m
      refine ⟨k, hk, ?_⟩
      show (run (e.at_ k) i).isSome
      unfold run
      rw [hstay k (Nat.le_trans hm hk)]
      simp only [hfree, Option.isSome_none, Bool.false_eq_true, if_false]
      split <;> rfl)
    have := e.ok m
    rw [hl] at this
    exact absurd rfl (hr m _ (hstay m hm) this hm)

include hR in
theorem popping_pops (hf : e.Fair) (i n : Nat) (x : PC T) (hx : (e.at_ n).pcs[i]? = some x)
    (hp : x.popping = true) : ∃ m, n ≤ m ∧ (e.at_ n).popped.length < (e.at_ m).popped.length := by
  have take : ∀ m, n ≤ m → (e.at_ m).pcs[i]? = some .popTake →
      ∃ m, n ≤ m ∧ (e.at_ n).popped.length < (e.at_ m).popped.length := by
    intro m hm h
    obtain ⟨k, hk, h, -⟩ := take_runs e hR hf i m h
    have := (mono_exec e hm).1.length_le
    exact ⟨k, Nat.le_trans hm hk, by omega⟩
  have swap : ∀ m, n ≤ m → (e.at_ m).pcs[i]? = some .popSwap →
      ∃ m, n ≤ m ∧ (e.at_ n).popped.length < (e.at_ m).popped.length := by
    intro m hm h
    obtain ⟨k, hk, h⟩ := swap_runs e hf i m h
    exact take k (Nat.le_trans hm hk) h
  cases x with
  | popLock =>
    obtain ⟨m, hm, h | h⟩ := lock_runs e hR hf i n hx
    · exact swap m hm h
    · exact take m hm h
  | popSwap => exact swap n (Nat.le_refl n) hx
  | popTake => exact take n (Nat.le_refl n) hx
  | _ => cases hp

/-- Within `consume`. -/
def PC.consuming : PC T → Bool
  | .enter _ _ => true
  | .asleep _ _ => true
  | .ready _ _ _ => true
  | .popLock => true
  | .popSwap => true
  | .popTake => true
  | _ => false

/-- As long as fewer than 2^32 elements are stored the counter does not wrap. -/
theorem value_eq {s : State T} (h : (system T).ReachableBy Consumer (init thr 0 b picks N) s)
    (hb : s.queue.fg.length + s.queue.bg.length < 2 ^ 32) : s.value + s.grants = s.incs := by
  have h0 := stored_eq h hb
  have hA := ac_reachable h
  have hl : s.pushed.length = s.popped.length + (s.queue.fg.length + s.queue.bg.length) := by
    rw [(qu_reachable h).hist, List.length_append, List.length_append]
  have h1 := hA.stored
  have h2 := hA.granted
  omega

end

/-- An element in an enabled queue with threshold 0 is followed by a pop, if threads keep consuming. -/
theorem queue_progress {b : Bool} {picks : Nat → Nat} {N : Nat}
    (hR : ∀ n, (system T).ReachableBy Consumer (init 0 0 b picks N) (e.at_ n)) (hf : e.Fair)
    (he : ∀ n, (e.at_ n).enabled = true)
    (hb : ∀ n, (e.at_ n).queue.fg.length + (e.at_ n).queue.bg.length < 2 ^ 32) (n : Nat)
    (hne : (e.at_ n).popped.length < (e.at_ n).pushed.length)
    (hc : ∀ m, n ≤ m → ∃ k, m ≤ k ∧ ∃ (j : Nat) (x : PC T), (e.at_ k).pcs[j]? = some x ∧
      x.consuming = true) :
    ∃ m, n ≤ m ∧ (e.at_ n).popped.length < (e.at_ m).popped.length := by
  by_cases hq : ∃ m, n ≤ m ∧ (e.at_ n).popped.length < (e.at_ m).popped.length
  · exact hq
  · exfalso
    have hpop : ∀ m, n ≤ m → (e.at_ m).popped.length = (e.at_ n).popped.length := by
      intro m hm
      have h1 := (mono_exec e hm).1.length_le
      have h2 : ¬ (e.at_ n).popped.length < (e.at_ m).popped.length := fun h => hq ⟨m, hm, h⟩
      omega
    have hno : ∀ m, n ≤ m → ∀ (i : Nat) (x : PC T), (e.at_ m).pcs[i]? = some x → x.popping = false := by
      intro m hm i x hx
      cases hp : x.popping with
      | false => rfl
      | true =>
        obtain ⟨k, hk, h⟩ := popping_pops e hR hf i m x hx hp
        refine absurd ⟨k, Nat.le_trans hm hk, ?_⟩ hq
        rw [← hpop m hm]
        exact h
    have hzero : ∀ m, n ≤ m → (e.at_ m).pcs.countP PC.popping = 0 := by
      intro m hm
      rcases Nat.eq_zero_or_pos ((e.at_ m).pcs.countP PC.popping) with h | h
      · exact h
      · obtain ⟨i, x, hx, hp⟩ := exists_of_countP_pos _ h
        rw [hno m hm i x hx] at hp
        cases hp
    have hgr : ∀ m, n ≤ m → (e.at_ m).grants = (e.at_ n).popped.length := by
      intro m hm
      rw [(ac_reachable (hR m)).granted, hzero m hm, hpop m hm]
      rfl
    have hthr : ∀ m, (e.at_ m).threshold = 0 := fun m => (ar_reachable (by decide) (hR m)).threshold
    -- a surplus
    have hval : ∃ m, n ≤ m ∧ 0 < (e.at_ m).value := by
      by_cases hv : 0 < (e.at_ n).value
      · exact ⟨n, Nat.le_refl n, hv⟩
      · have hA := ac_reachable (hR n)
        have h1 := hA.stored
        have h2 := value_eq (hR n) (hb n)
        have h3 := hgr n (Nat.le_refl n)
        have : 0 < (e.at_ n).pcs.countP PC.storing := by omega
        obtain ⟨i, x, hx, hp⟩ := exists_of_countP_pos _ this
        have hx' : (e.at_ n).pcs[i]? = some (.inc true) := by
          cases x with
          | inc p =>
            cases p with
            | true => exact hx
            | false => cases hp
          | _ => cases hp
        obtain ⟨m, hm, hx', hr⟩ := active_runs e hf i (.inc true) rfl nofun nofun n hx'
        refine ⟨m + 1, by omega, ?_⟩
        have hi : (e.at_ (m + 1)).incs = (e.at_ m).incs + 1 := by
          generalize e.at_ (m + 1) = s' at hr
          cases hr with
          | inc p => exact (increment_same _).2.2.1
        have h4 := value_eq (hR (m + 1)) (hb (m + 1))
        have h5 := hgr (m + 1) (by omega)
        have h6 := (mono_exec e hm).2.2
        omega
    obtain ⟨m1, hm1, hv1⟩ := hval
    have hval : ∀ m, m1 ≤ m → 0 < (e.at_ m).value := by
      intro m hm
      have h1 := value_eq (hR m1) (hb m1)
      have h2 := value_eq (hR m) (hb m)
      have h3 := hgr m1 hm1
      have h4 := hgr m (Nat.le_trans hm1 hm)
      have h5 := (mono_exec e hm).2.2
      omega
    have hgrant : ∀ m, n ≤ m → (e.at_ (m + 1)).grants ≠ (e.at_ m).grants + 1 := by
      intro m hm h
      rw [hgr m hm, hgr (m + 1) (by omega)] at h
      omega
    obtain ⟨k, hk, j, x, hx, hcx⟩ := hc m1 hm1
    have hgt : ∀ m, m1 ≤ m → (e.at_ m).value > (e.at_ m).threshold := by
      intro m hm
      rw [hthr m]
      exact hval m hm
    cases x with
    | enter c t =>
      obtain ⟨m, hm, hx, hr⟩ := active_runs e hf j (.enter c t) rfl nofun nofun k hx
      have h1 := he m
      have h2 := hgt m (Nat.le_trans hk hm)
      refine hgrant m (Nat.le_trans hm1 (Nat.le_trans hk hm)) ?_
      generalize e.at_ (m + 1) = s' at hr
      cases hr with
      | enterDisabled c t he' => rw [h1] at he'; cases he'
      | enterGrant c t he' hv => exact (decrease_same _).2.2.2
      | enterSleep c t he' hv => exact absurd h2 hv
    | ready c t l =>
      obtain ⟨m, hm, hx, hr⟩ := active_runs e hf j (.ready c t l) rfl nofun nofun k hx
      have h1 := he m
      have h2 := hgt m (Nat.le_trans hk hm)
      refine hgrant m (Nat.le_trans hm1 (Nat.le_trans hk hm)) ?_
      generalize e.at_ (m + 1) = s' at hr
      cases hr with
      | readyDisabled c t l he' => rw [h1] at he'; cases he'
      | readyGrant c t l he' hv => exact (decrease_same _).2.2.2
      | readyTimeout c t he' hv => exact absurd h2 hv
      | readySleep c t he' hv => exact absurd h2 hv
    | asleep c t =>
      obtain ⟨m, hm, h⟩ := surplus_granted e (fun m => sl_reachable (hR m)) (fun m => st_reachable (hR m)) hf
        _ k j c t (he k) (hgt k hk) hx rfl
      rcases h with h | h | h
      · rw [hgr m (by omega), hgr k (by omega)] at h
        omega
      · rw [he m] at h
        cases h
      · exact h (hgt m (Nat.le_trans hk hm))
    | popLock => cases hno k (Nat.le_trans hm1 hk) j _ hx
    | popSwap => cases hno k (Nat.le_trans hm1 hk) j _ hx
    | popTake => cases hno k (Nat.le_trans hm1 hk) j _ hx
    | _ => cases hcx

end Verif.Counter
