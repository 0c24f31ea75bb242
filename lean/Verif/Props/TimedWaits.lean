import Verif.Lemmas.CounterTimed
import Verif.Props.SlotThreadPoolLive
/-!
C159: waits with a timeout of `CounterWaitHandler`, `DBQueueWaitHandler` and `SlotThreadPool` end.
-/
namespace Verif.Counter
open Verif.Threads
open Verif.WaitHandler (Reason)

variable {T : Type}

theorem expires_of {e : (system T).Execution}
    (hto : ∀ i n, (∀ m, n ≤ m → ∃ k, m ≤ k ∧ ((system T).step (e.at_ k) (.timeout i)).isSome) →
      ∃ m, n ≤ m ∧ e.label m = some (.timeout i)) : Expires e := by
  intro i n h
  obtain ⟨m, hm, hl⟩ := hto i n h
  refine ⟨m, hm, ?_⟩
  have := e.ok m
  rw [hl] at this
  exact this

theorem start_entry {e : (system T).Execution} {m i : Nat} {op : Op T} (h : e.label m = some (.start i op)) :
    (e.at_ (m + 1)).pcs[i]? = some (entry op) := by
  have hs := e.ok m
  rw [h] at hs
  have hs : step (e.at_ m) (.start i op) = some (e.at_ (m + 1)) := hs
  have hs := step_stepped hs
  generalize e.at_ (m + 1) = s' at hs
  cases hs with
  | start k r op hz => exact get_set_self hz

/-- C159: `wait_and_decrement` and `wait_threshold_reached` (and with it `wait_all_consumed`), called with a timeout,
return, whatever the other threads do, in every fair execution in which timeouts that are possible again and again
occur. -/
theorem C159_wait_ends (e : (system T).Execution) (hf : e.Fair)
    (hto : ∀ i n, (∀ m, n ≤ m → ∃ k, m ≤ k ∧ ((system T).step (e.at_ k) (.timeout i)).isSome) →
      ∃ m, n ≤ m ∧ e.label m = some (.timeout i))
    (i a : Nat) (op : Op T) (hop : op = .waitDec true ∨ op = .waitThreshold true)
    (hstart : e.label a = some (.start i op)) :
    ∃ m r, a < m ∧ (e.at_ m).pcs[i]? = some (.idle (some (.reason r))) := by
  have hx := start_entry hstart
  rcases hop with rfl | rfl
  · obtain ⟨m, r, hm, h⟩ := wait_ends e hf (expires_of hto) i (a + 1) _ (some false) hx (.enter false)
    exact ⟨m, r, hm, by rw [h]; cases r <;> rfl⟩
  · obtain ⟨m, r, hm, h⟩ := wait_ends e hf (expires_of hto) i (a + 1) _ none hx .thEnter
    exact ⟨m, r, hm, h⟩

/-- C159: `consume` of a `DBQueueWaitHandler`, called with a timeout, returns or throws. -/
theorem C159_consume_ends (thr : Nat) (b : Bool) (picks : Nat → Nat) (N : Nat) (e : (system T).Execution) (hf : e.Fair)
    (hto : ∀ i n, (∀ m, n ≤ m → ∃ k, m ≤ k ∧ ((system T).step (e.at_ k) (.timeout i)).isSome) →
      ∃ m, n ≤ m ∧ e.label m = some (.timeout i))
    (h0 : e.at_ 0 = init thr 0 b picks N)
    (hl : ∀ n l, e.label n = some l → l.Allowed fun op => op ≠ .inc ∧ ∀ t, op ≠ .waitDec t)
    (i a : Nat) (hstart : e.label a = some (.start i (.consume true))) :
    ∃ m r, a < m ∧ (e.at_ m).pcs[i]? = some (.idle (some r)) := by
  have hR : ∀ n, (system T).ReachableBy Consumer (init thr 0 b picks N) (e.at_ n) := by
    intro n
    induction n with
    | zero => rw [h0]; exact .init
    | succ n ih =>
      rcases e.next n with ⟨-, h⟩ | ⟨l, h1, h⟩
      · rw [h]; exact ih
      · refine .step ih ?_ h
        have := hl n l h1
        cases l with
        | start i op =>
          cases op with
          | inc => exact this.1 rfl
          | waitDec t => exact this.2 t rfl
          | _ => trivial
        | _ => trivial
  have take : ∀ n, a < n → (e.at_ n).pcs[i]? = some .popTake →
      ∃ m r, a < m ∧ (e.at_ m).pcs[i]? = some (.idle (some r)) := by
    intro n hn hx
    obtain ⟨m, hm, hx, hr⟩ := active_runs e hf i .popTake rfl nofun nofun n hx
    have key : ∃ r, (e.at_ (m + 1)).pcs[i]? = some (.idle (some r)) := by
      generalize e.at_ (m + 1) = s' at hr
      cases hr with
      | popFail hq => exact ⟨_, get_set_self hx⟩
      | popTake v l hq => exact ⟨_, get_set_self hx⟩
    obtain ⟨r, hr⟩ := key
    exact ⟨m + 1, r, by omega, hr⟩
  obtain ⟨m, r, hm, h⟩ := wait_ends e hf (expires_of hto) i (a + 1) _ (some true) (start_entry hstart) (.enter true)
  cases r with
  | disabled => exact ⟨m, _, hm, h⟩
  | timeout => exact ⟨m, _, hm, h⟩
  | conditionMet =>
    obtain ⟨k, hk, h | h⟩ := lock_runs e hR hf i m h
    · obtain ⟨k', hk', h⟩ := swap_runs e hf i k h
      exact take k' (by omega) h
    · exact take k (by omega) h

/-- One thread consumes with a timeout and times out, another one waits on the threshold, which it finds reached. -/
def expired : List (Label (Op Nat)) :=
  [.start 0 (.consume true), .run 0, .spurious 0, .run 0, .timeout 0, .run 0, .start 1 (.waitThreshold true), .run 1]

/-- Non-trivial case for the theorems on C159: a fair execution that meets their hypotheses, in which a call of
`consume` sleeps, is woken without reason, sleeps again and times out. -/
example : ∃ e : (system Nat).Execution, e.Fair ∧ e.at_ 0 = init 0 0 true (fun _ => 0) 2 ∧
    (∀ i n, (∀ m, n ≤ m → ∃ k, m ≤ k ∧ ((system Nat).step (e.at_ k) (.timeout i)).isSome) →
      ∃ m, n ≤ m ∧ e.label m = some (.timeout i)) ∧
    (∀ n l, e.label n = some l → l.Allowed fun op => op ≠ .inc ∧ ∀ t, op ≠ .waitDec t) ∧
    e.label 0 = some (.start 0 (.consume true)) ∧ e.label 6 = some (.start 1 (.waitThreshold true)) ∧
    (e.at_ 4).pcs[0]? = some (.asleep true true) ∧ (e.at_ 6).pcs[0]? = some (.idle (some (.threw .timeout))) := by
  obtain ⟨s1, h1⟩ : ∃ s1, (system Nat).exec (init 0 0 true (fun _ => 0) 2) expired = some s1 := ⟨_, rfl⟩
  have hend : ∀ i, (system Nat).step s1 (.run i) = none := by
    cases h1
    intro i
    match i with
    | 0 => rfl
    | 1 => rfl
    | _ + 2 => rfl
  have hend' : ∀ i, (system Nat).step s1 (.timeout i) = none := by
    cases h1
    intro i
    match i with
    | 0 => rfl
    | 1 => rfl
    | _ + 2 => rfl
  obtain ⟨e, hf, e0, hst, hlab⟩ := (system Nat).finite_fair' (init 0 0 true (fun _ => 0) 2) s1 expired h1 hend
  refine ⟨e, hf, e0, ?_, ?_, hlab 0, hlab 6, ?_, ?_⟩
  · intro i n h
    obtain ⟨k, hk, h⟩ := h (n + 8) (by omega)
    obtain ⟨s', hs', he'⟩ := hst k
    have ht : expired.take k = expired := List.take_of_length_le (show 8 ≤ k by omega)
    have : some s1 = some s' := h1.symm.trans ((congrArg _ ht).symm.trans hs')
    rw [he', ← Option.some.inj this, hend'] at h
    cases h
  · intro n l hl
    have key : ∀ l : Label (Op Nat), l ∈ expired → l.Allowed fun op => op ≠ .inc ∧ ∀ t, op ≠ .waitDec t := by
      intro l hl
      simp only [expired, List.mem_cons, List.not_mem_nil, or_false] at hl
      rcases hl with rfl | rfl | rfl | rfl | rfl | rfl | rfl | rfl <;> first | trivial | exact ⟨nofun, nofun⟩
    exact key l (List.mem_of_getElem? ((hlab n).symm.trans hl))
  · obtain ⟨s, hs, he⟩ := hst 4
    rw [he]
    cases hs
    rfl
  · obtain ⟨s, hs, he⟩ := hst 6
    rw [he]
    cases hs
    rfl

end Verif.Counter

namespace Verif.SlotThreadPool
open Verif.Threads

variable {T : Type}

/-- C159: `wait_all_consumed` of a `SlotThreadPool`, called with a timeout, returns, whatever tasks and other threads
do. -/
theorem C159_pool_ends (n c d : Nat) (picks : Nat → Nat) (ends : Nat → Ending) (e : (system T).Execution) (hf : e.Fair)
    (h0 : e.at_ 0 = init n c d picks ends)
    (hto : ∀ i n, (∀ m, n ≤ m → ∃ k, m ≤ k ∧ ((system T).step (e.at_ k) (.timeout i)).isSome) →
      ∃ m, n ≤ m ∧ e.label m = some (.timeout i))
    (i a : Nat) (hstart : e.label a = some (.start i (.waitAll true))) :
    ∃ m r, a < m ∧ (e.at_ m).pcs[i]? = some (.idle (some (.reason r))) := by
  have hR : ∀ k, (system T).Reachable (init n c d picks ends) (e.at_ k) :=
    e.reachable (by rw [h0]; exact .init)
  have hI := fun k => inv_reachable (hR k)
  have hQf := queue_fair e hI hf
  have hQto : Counter.Expires (queueExec e) := by
    intro i n h
    obtain ⟨m, hm, hl⟩ := hto i n (fun m hm => by
      obtain ⟨k, hk, h⟩ := h m hm
      refine ⟨k, hk, ?_⟩
      have h : (Counter.step (e.at_ k).q (.timeout i)).isSome := h
      show (step (e.at_ k) (.timeout i)).isSome
      simp only [step, Option.isSome_map, h])
    refine ⟨m, hm, ?_⟩
    have hs := e.ok m
    rw [hl] at hs
    have hs : step (e.at_ m) (.timeout i) = some (e.at_ (m + 1)) := hs
    have hs : (Counter.step (e.at_ m).q (.timeout i)).map (fun q => { (e.at_ m) with q := q }) =
      some (e.at_ (m + 1)) := hs
    obtain ⟨q, hq, hs⟩ := Option.map_eq_some_iff.1 hs
    show Counter.step (e.at_ m).q (.timeout i) = some (e.at_ (m + 1)).q
    rw [hq, ← hs]
  -- the call
  have hx : (e.at_ (a + 1)).pcs[i]? = some (.waitEnter true) := by
    have hs := e.ok a
    rw [hstart] at hs
    have hs : step (e.at_ a) (.start i (.waitAll true)) = some (e.at_ (a + 1)) := hs
    have hs := step_stepped hs
    generalize e.at_ (a + 1) = s' at hs
    cases hs with
    | start k r op hz => exact get_set_self hz
  obtain ⟨b, hb, hxb, hr⟩ := pool_runs e hf i (.waitEnter true) rfl (a + 1) hx (fun m _ hx => by
    obtain ⟨y, hy, hk⟩ := (hI m).queue_pc hx
    obtain ⟨r, rfl⟩ := kind_none hk
    refine ⟨m, Nat.le_refl m, ?_⟩
    unfold run
    rw [hx]
    simp only [call, Counter.start, hy]
    rfl)
  have hin0 : (e.at_ (b + 1)).pcs[i]? = some .waitCall ∧
      ∃ y, (e.at_ (b + 1)).q.pcs[i]? = some y ∧ Counter.InWait none y := by
    generalize e.at_ (b + 1) = s' at hr
    cases hr with
    | stay x q hc hq hn => cases hc
    | waitStart timed r hq => exact ⟨get_set_self hxb, _, get_set_self hq, .thEnter⟩
  refine Classical.byContradiction fun hno => ?_
  have hno : ∀ m r, a < m → (e.at_ m).pcs[i]? ≠ some (.idle (some (.reason r))) :=
    fun m r hm h => hno ⟨m, r, hm, h⟩
  have hin : ∀ m, b + 1 ≤ m → (e.at_ m).pcs[i]? = some .waitCall ∧
      ∃ y, (e.at_ m).q.pcs[i]? = some y ∧ Counter.InWait none y := by
    intro m hm
    induction hm with
    | refl => exact hin0
    | step hm ih =>
      rename_i m
      have hm : b + 1 ≤ m := hm
      obtain ⟨hxm, y, hy, hwy⟩ := ih
      rcases e.next m with ⟨-, h⟩ | ⟨l, -, h⟩
      · rw [h]; exact ⟨hxm, y, hy, hwy⟩
      · have hs := step_stepped h
        have hq : (∃ y, (e.at_ (m + 1)).q.pcs[i]? = some y ∧ Counter.InWait none y) ∨
            ∃ r, (e.at_ (m + 1)).q.pcs[i]? = some (Counter.endOf none r) := by
          rcases step_queue hs with h | ⟨l', h, -⟩
          · rw [h]; exact Or.inl ⟨y, hy, hwy⟩
          · exact Counter.wait_frame (Counter.step_stepped h) hy hwy
        have hpc : (e.at_ (m + 1)).pcs[i]? = some .waitCall ∨
            ∃ r, (e.at_ (m + 1)).q.pcs[i]? = some (.idle r) ∧ (e.at_ (m + 1)).pcs[i]? = some (.idle (waited r)) := by
          by_cases hl : l = .run i
          · subst hl
            generalize e.at_ (m + 1) = s' at hs
            cases hs with
            | run k z s' hz hr =>
              rw [hxm] at hz
              cases hz
              cases hr with
              | stay x q hc hq hn => exact Or.inl hxm
              | waitRet q r hq hr => exact Or.inr ⟨r, hr, get_set_self hxm⟩
          · exact Or.inl (frame_own hs hxm rfl hl)
        rcases hpc with hpc | ⟨r, hr, hpc⟩
        · refine ⟨hpc, ?_⟩
          rcases hq with hq | ⟨r, hq⟩
          · exact hq
          · obtain ⟨y', hy', hk⟩ := (hI (m + 1)).queue_pc hpc
            rw [hq] at hy'
            cases hy'
            cases hk
        · rcases hq with ⟨y', hy', hw'⟩ | ⟨r', hq⟩
          · rw [hr] at hy'
            cases hy'
            cases hw'
          · rw [hr] at hq
            cases hq
            exact absurd hpc (hno (m + 1) r' (by omega))
  obtain ⟨-, y, hy, hwy⟩ := hin (b + 1) (Nat.le_refl _)
  obtain ⟨m, r, hm, h⟩ := Counter.wait_ends (queueExec e) hQf hQto i (b + 1) y none hy hwy
  obtain ⟨-, y', hy', hw'⟩ := hin m hm
  have h : (e.at_ m).q.pcs[i]? = some (Counter.endOf none r) := h
  rw [h] at hy'
  cases hy'
  exact Counter.not_wait_end hw'

/-- A client emits to a pool that has not been enabled, and waits with a timeout. -/
def waitsInVain : List (Label (Op Nat)) :=
  [.start 0 (.slot 1 7), .run 0, .start 0 (.emit 1), .run 0, .run 0, .run 0, .start 0 (.waitAll true), .run 0, .run 0,
   .timeout 0, .run 0]

/-- Non-trivial case for `C159_pool_ends`: the task is never consumed, the wait ends by its timeout. -/
example : ∃ e : (system Nat).Execution, e.Fair ∧ e.at_ 0 = init 1 1 1 (fun _ => 0) ∧
    (∀ i n, (∀ m, n ≤ m → ∃ k, m ≤ k ∧ ((system Nat).step (e.at_ k) (.timeout i)).isSome) →
      ∃ m, n ≤ m ∧ e.label m = some (.timeout i)) ∧
    e.label 6 = some (.start 0 (.waitAll true)) ∧ (e.at_ 9).pcs = [.waitCall, .dormant] ∧
    (e.at_ 11).pcs = [.idle (some (.reason .timeout)), .dormant] ∧ (e.at_ 11).emitted = [1] := by
  obtain ⟨s1, h1⟩ : ∃ s1, (system Nat).exec (init 1 1 1 (fun _ => 0)) waitsInVain = some s1 := ⟨_, rfl⟩
  have hend : ∀ i, (system Nat).step s1 (.run i) = none := by
    cases h1
    intro i
    match i with
    | 0 => rfl
    | 1 => rfl
    | _ + 2 => rfl
  have hend' : ∀ i, (system Nat).step s1 (.timeout i) = none := by
    cases h1
    intro i
    match i with
    | 0 => rfl
    | 1 => rfl
    | _ + 2 => rfl
  obtain ⟨e, hf, e0, hst, hlab⟩ := (system Nat).finite_fair' (init 1 1 1 (fun _ => 0)) s1 waitsInVain h1 hend
  refine ⟨e, hf, e0, ?_, hlab 6, ?_, ?_, ?_⟩
  · intro i n h
    obtain ⟨k, hk, h⟩ := h (n + 11) (by omega)
    obtain ⟨s', hs', he'⟩ := hst k
    have ht : waitsInVain.take k = waitsInVain := List.take_of_length_le (show 11 ≤ k by omega)
    have : some s1 = some s' := h1.symm.trans ((congrArg _ ht).symm.trans hs')
    rw [he', ← Option.some.inj this, hend'] at h
    cases h
  · obtain ⟨s, hs, he⟩ := hst 9
    rw [he]
    cases hs
    rfl
  · obtain ⟨s, hs, he⟩ := hst 11
    rw [he]
    cases hs
    rfl
  · obtain ⟨s, hs, he⟩ := hst 11
    rw [he]
    cases hs
    rfl

end Verif.SlotThreadPool
