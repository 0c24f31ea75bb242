import Verif.Lemmas.SlotThreadPoolDisable
/-!
The threads of a `SlotThreadPool` that nobody disables and whose tasks may end with an exception.
-/
namespace Verif.SlotThreadPool
open Verif.Threads

variable {T : Type}

/-- A thread of the pool that has ended. -/
def PC.isEnded : PC T → Bool
  | .ended => true
  | _ => false

/-- Of the first `k` executions to end, those that ended with `DisabledException`. -/
def stopped (ends : Nat → Ending) (k : Nat) : Nat := (List.range k).countP fun i => ends i = .throwsDisabled

theorem stopped_succ (ends : Nat → Ending) (k : Nat) :
    stopped ends (k + 1) = stopped ends k + if ends k = .throwsDisabled then 1 else 0 := by
  simp only [stopped, List.range_succ, List.countP_append, List.countP_singleton, decide_eq_true_eq]

/-- Nobody has called `disable`. -/
structure NoDis (s : State T) : Prop where
  pcs : ∀ (j : Nat) (x : PC T), s.pcs[j]? = some x → x ≠ .disableTest ∧ x ≠ .disableCall
  enabled : s.q.enabled = true
  few : s.pcs.countP PC.isEnded ≤ stopped s.ends s.finished.length

theorem noDis_enabled {s s' : State T} {l : Label (Op T)} (h : Inv s) (hN : NoDis s)
    (hs : Stepped s l s') : s'.q.enabled = true := by
  rcases step_queue hs with e | ⟨l', hl, -⟩
  · rw [e]; exact hN.enabled
  · have hl := Counter.step_stepped hl
    revert hl
    generalize s'.q = q'
    intro hl
    cases hl with
    | run i x q' hx hr =>
      obtain ⟨z, hz, hk⟩ := h.pool_pc hx
      cases hr with
      | disableStore o he' =>
        exfalso
        cases o <;> cases z <;> first | (cases hk; done) | exact (hN.pcs i _ hz).2 rfl
      | enterGrant c t he' hv =>
        rw [(Counter.decrease_same _).1.enabled]; exact hN.enabled
      | readyGrant c t l he' hv =>
        rw [(Counter.decrease_same _).1.enabled]; exact hN.enabled
      | enableTest o => rfl
      | inc p =>
        rw [(Counter.increment_same _).1.enabled]; exact hN.enabled
      | _ => exact hN.enabled
    | _ => exact hN.enabled

theorem noDis_pcs {s s' : State T} {l : Label (Op T)} (hN : NoDis s) (hl : l.Allowed (· ≠ .disable))
    (hs : Stepped s l s') (j : Nat) (z : PC T) (hz : s'.pcs[j]? = some z) :
    z ≠ .disableTest ∧ z ≠ .disableCall := by
  have hset : ∀ (k : Nat) (y : PC T), s'.pcs = s.pcs.set k y → y ≠ .disableTest ∧ y ≠ .disableCall →
      z ≠ .disableTest ∧ z ≠ .disableCall := by
    intro k y e hy
    rw [e] at hz
    rcases set_get hz with ⟨-, e, -⟩ | ⟨-, hz⟩
    · rw [e]; exact hy
    · exact hN.pcs j z hz
  cases hs with
  | run k x s' hx hr =>
    cases hr with
    | stay x q hc hq hn => exact hN.pcs j z hz
    | spawnOne n m hm =>
      rcases set_get hz with ⟨-, e, -⟩ | ⟨-, hz⟩
      · rw [e]; exact ⟨nofun, nofun⟩
      · rcases set_get hz with ⟨-, e, -⟩ | ⟨-, hz⟩
        · rw [e]; exact ⟨nofun, nofun⟩
        · exact hN.pcs j z hz
    | disableStore r he hq => exact absurd rfl (hN.pcs k _ hx).1
    | consumeRet q r hq hret =>
      refine hset k (consumed r) rfl ?_
      unfold consumed
      split <;> exact ⟨nofun, nofun⟩
    | inside id t =>
      refine hset k (s.ends s.finished.length).goes rfl ?_
      cases s.ends s.finished.length <;> exact ⟨nofun, nofun⟩
    | _ =>
      refine hset k _ rfl ?_
      exact ⟨nofun, nofun⟩
  | start k r op hx =>
    refine hset k _ rfl ?_
    have hl : op ≠ .disable := hl
    cases op with
    | disable => exact absurd rfl hl
    | _ => exact ⟨nofun, nofun⟩
  | spurious k q hq => exact hN.pcs j z hz
  | timeout k q hq => exact hN.pcs j z hz

theorem noDis_few {s s' : State T} {l : Label (Op T)} (h : Inv s) (h' : Inv s') (hN : NoDis s)
    (ho : ∀ k, s.ends k ≠ .throwsOther) (hs : Stepped s l s') :
    s'.pcs.countP PC.isEnded ≤ stopped s'.ends s'.finished.length := by
  have h0 := hN.few
  have hset : ∀ (i : Nat) (x y : PC T), s.pcs[i]? = some x → y.isEnded = false →
      (s.pcs.set i y).countP PC.isEnded ≤ s.pcs.countP PC.isEnded := by
    intro i x y hx hy
    have := countP_set PC.isEnded y hx
    rw [hy] at this
    simp only [Bool.false_eq_true, if_false] at this
    omega
  cases hs with
  | run i x s' hx hr =>
    cases hr with
    | stay x q hc hq hn => exact h0
    | spawnOne k d hd =>
      have hne : i ≠ d := by rintro rfl; rw [hx] at hd; cases hd
      have h1 := countP_set PC.isEnded (.spawn k) (l := s.pcs.set d .next) (i := i) (x := .spawn (k + 1))
        (by rw [get_set_ne hne]; exact hx)
      have h2 := hset d _ .next hd rfl
      simp only [PC.isEnded, Bool.false_eq_true, if_false] at h1
      show ((s.pcs.set d .next).set i (.spawn k)).countP _ ≤ stopped s.ends s.finished.length
      omega
    | consumeRet q r hq hret =>
      refine Nat.le_trans (hset i _ (consumed r) hx ?_) h0
      rcases live_step h h' hN.enabled ho (.run i _ _ hx (.consumeRet q r hq hret)) hx rfl with
        ⟨x', hx', hlive⟩ | ⟨-, -, -, hlen⟩
      · have hx' : (goto { s with q := q } i (consumed r)).pcs[i]? = some x' := hx'
        rw [show (goto { s with q := q } i (consumed r)).pcs[i]? = some (consumed r) from get_set_self hx] at hx'
        cases hx'
        revert hlive
        generalize (consumed r : PC T) = y
        cases y <;> first | exact fun _ => rfl | nofun
      · have hlen : s.finished.length = s.finished.length + 1 := hlen
        omega
    | inside id t =>
      have := countP_set PC.isEnded (s.ends s.finished.length).goes hx
      show (s.pcs.set i (s.ends s.finished.length).goes).countP _ ≤
        stopped s.ends (s.finished ++ [(id, t)]).length
      rw [List.length_append, List.length_singleton, stopped_succ]
      cases he : s.ends s.finished.length <;> rw [he] at this <;>
        simp only [Ending.goes, PC.isEnded, Bool.false_eq_true, if_false, if_true, reduceCtorEq] at this ⊢ <;>
        omega
    | _ => exact Nat.le_trans (hset i _ _ hx rfl) h0
  | start i r op hx => exact Nat.le_trans (hset i _ _ hx (by cases op <;> rfl)) h0
  | spurious i q hq => exact h0
  | timeout i q hq => exact h0

theorem noDis_step {s s' : State T} {l : Label (Op T)} (h : Inv s) (h' : Inv s') (hN : NoDis s)
    (ho : ∀ k, s.ends k ≠ .throwsOther) (hl : l.Allowed (· ≠ .disable)) (hs : Stepped s l s') : NoDis s' :=
  ⟨noDis_pcs hN hl hs, noDis_enabled h hN hs, noDis_few h h' hN ho hs⟩

/-- No thread is created twice. -/
theorem nodup_reachable {n c d : Nat} {picks : Nat → Nat} {ends : Nat → Ending} {s : State T}
    (hr : (system T).Reachable (init n c d picks ends) s) : s.threads.Nodup := by
  have : (system T).Reachable (init n c d picks ends) s ∧ s.threads.Nodup := by
    refine System.Reachable.invariant (S := system T)
      (fun s : State T => (system T).Reachable (init n c d picks ends) s ∧ s.threads.Nodup) ⟨.init, .nil⟩ ?_ hr
    rintro s l s' ⟨hr, ih⟩ hs
    refine ⟨.step hr (Label.allowed_true l) hs, ?_⟩
    have ih : s.threads.Nodup := ih
    show (s' : State T).threads.Nodup
    cases step_stepped hs with
    | run i x s' hx hran =>
      cases hran with
      | spawnOne k j hj =>
        show (s.threads ++ [j]).Nodup
        rw [List.nodup_append]
        refine ⟨ih, by simp, ?_⟩
        intro a ha b hb e
        rw [List.mem_singleton] at hb
        subst hb; subst e
        obtain ⟨x, hx, hw⟩ := (wk_reachable hr).threads a ha
        rw [hj] at hx
        cases hx
        rcases hw with hw | hw | hw <;> cases hw
      | joinEnd => exact .nil
      | _ => exact ih
    | _ => exact ih
  exact this.2

/-- Distinct threads that have ended are counted. -/
theorem ended_count : ∀ (l : List Nat) (pcs : List (PC T)), l.Nodup →
    (∀ j, j ∈ l → pcs[j]? = some .ended) → l.length ≤ pcs.countP PC.isEnded
  | [], _, _, _ => Nat.zero_le _
  | j :: l, pcs, hn, h => by
    have hj := h j (List.mem_cons_self ..)
    have := countP_set PC.isEnded .dormant hj
    have ih := ended_count l (pcs.set j .dormant) (List.nodup_cons.1 hn).2 (by
      intro k hk
      have hne : k ≠ j := by
        rintro rfl
        exact (List.nodup_cons.1 hn).1 hk
      rw [get_set_ne hne]
      exact h k (List.mem_cons_of_mem _ hk))
    simp only [PC.isEnded, Bool.false_eq_true, if_false, if_true] at this
    rw [List.length_cons]
    omega

section
variable (e : (system T).Execution) {n c d : Nat} {picks : Nat → Nat} {ends : Nat → Ending}
  (hR : ∀ m, (system T).Reachable (init n c d picks ends) (e.at_ m))

theorem worker_forever {m j : Nat} (hx : ∃ x, (e.at_ m).pcs[j]? = some x ∧ x.worker) (k : Nat) (hk : m ≤ k) :
    ∃ x, (e.at_ k).pcs[j]? = some x ∧ x.worker := by
  induction hk with
  | refl => exact hx
  | step hk ih =>
    rename_i k
    rcases e.next k with ⟨-, h2⟩ | ⟨l, -, h2⟩
    · rw [h2]; exact ih
    · exact worker_step (step_stepped h2) ih

include hR in
/-- When fewer executions throw than there are threads, one thread never ends. -/
theorem one_lives (hN : ∀ k, NoDis (e.at_ k)) (ho : ∀ k, ends k ≠ .throwsOther) (m : Nat)
    (hs : ∀ k, stopped ends k < (e.at_ m).threads.length) :
    ∃ j : Nat, ∀ k, m ≤ k → ∃ x : PC T, (e.at_ k).pcs[j]? = some x ∧ x.live = true := by
  apply Classical.byContradiction
  intro hno
  have hend : ∀ j, j ∈ (e.at_ m).threads → ∃ k, m ≤ k ∧ (e.at_ k).pcs[j]? = some .ended := by
    intro j hj
    apply Classical.byContradiction
    intro hne
    refine hno ⟨j, fun k hk => ?_⟩
    obtain ⟨x, hx, hw⟩ := worker_forever e ((wk_reachable (hR m)).threads j hj) k hk
    rcases hw with hw | rfl | rfl
    · exact ⟨x, hx, hw⟩
    · exact absurd ⟨k, hk, hx⟩ hne
    · exact absurd hx ((inv_reachable (hR k)).alive (by rw [ends_reachable (hR k)]; exact ho) j)
  have hall : ∀ l : List Nat, (∀ j, j ∈ l → ∃ k, m ≤ k ∧ (e.at_ k).pcs[j]? = some .ended) →
      ∃ K, ∀ j, j ∈ l → (e.at_ K).pcs[j]? = some .ended := by
    intro l
    induction l with
    | nil => exact fun _ => ⟨m, nofun⟩
    | cons a l ih =>
      intro h
      obtain ⟨K, hK⟩ := ih fun j hj => h j (List.mem_cons_of_mem _ hj)
      obtain ⟨k, -, hk⟩ := h a (List.mem_cons_self ..)
      refine ⟨max K k, ?_⟩
      intro j hj
      rcases List.mem_cons.1 hj with rfl | hj
      · exact ended_forever e hk _ (by omega)
      · exact ended_forever e (hK j hj) _ (by omega)
  obtain ⟨K, hK⟩ := hall _ hend
  have h1 := ended_count _ _ (nodup_reachable (hR m)) hK
  have h2 := (hN K).few
  rw [ends_reachable (hR K)] at h2
  have := hs (e.at_ K).finished.length
  omega

end

end Verif.SlotThreadPool
