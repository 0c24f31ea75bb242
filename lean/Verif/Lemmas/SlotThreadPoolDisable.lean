import Verif.Lemmas.SlotThreadPoolLive
import Verif.Props.SlotThreadPool
/-!
`SlotThreadPool::disable` returns.
-/
namespace Verif.SlotThreadPool
open Verif.Threads
open Verif.WaitHandler (StatusOp)

variable {T : Type}

/-- A thread of the pool, running or at its end. -/
def PC.worker (x : PC T) : Prop := x.live = true ∨ x = .ended ∨ x = .terminated

structure Wk (s : State T) : Prop where
  threads : ∀ j, j ∈ s.threads → ∃ x, s.pcs[j]? = some x ∧ x.worker
  joining : ∀ (i : Nat) (l : List Nat), s.pcs[i]? = some (.joining l) → ∀ j, j ∈ l →
    ∃ x, s.pcs[j]? = some x ∧ x.worker

theorem worker_step {s s' : State T} {l : Label (Op T)} (hs : Stepped s l s') {j : Nat}
    (hx : ∃ x, s.pcs[j]? = some x ∧ x.worker) : ∃ x, s'.pcs[j]? = some x ∧ x.worker := by
  obtain ⟨x, hx, hw⟩ := hx
  by_cases hlj : l = .run j
  · subst hlj
    cases hs with
    | run j x' s' hx' hr =>
      rw [hx] at hx'
      cases hx'
      rcases hw with hl | rfl | rfl
      · cases hr with
        | stay x q hc hq hn => exact ⟨x, hx, Or.inl hl⟩
        | next r hq => exact ⟨_, get_set_self hx, Or.inl rfl⟩
        | consumeRet q r hq hret =>
          refine ⟨_, get_set_self hx, ?_⟩
          unfold consumed
          split
          · exact Or.inl rfl
          · exact Or.inr (Or.inl rfl)
          · exact Or.inr (Or.inr rfl)
        | lookNone id hm hg => exact ⟨_, get_set_self hx, Or.inr (Or.inr rfl)⟩
        | lookSome id t hm hg => exact ⟨_, get_set_self hx, Or.inl rfl⟩
        | exec id t => exact ⟨_, get_set_self hx, Or.inl rfl⟩
        | inside id t =>
          refine ⟨_, get_set_self hx, ?_⟩
          cases s.ends s.finished.length
          · exact Or.inl rfl
          · exact Or.inr (Or.inl rfl)
          · exact Or.inr (Or.inr rfl)
        | _ => cases hl
      · cases hr with
        | stay x q hc hq hn => cases hc
      · cases hr with
        | stay x q hc hq hn => cases hc
  · refine ⟨x, frame_own hs hx ?_ hlj, hw⟩
    rcases hw with hl | rfl | rfl
    · cases x <;> first | rfl | (cases hl; done)
    · rfl
    · rfl

theorem wk_step {s s' : State T} {l : Label (Op T)} (h : Wk s) (hs : Stepped s l s') :
    Wk s' := by
  have hw : ∀ j : Nat, (∃ x, s.pcs[j]? = some x ∧ x.worker) → ∃ x, s'.pcs[j]? = some x ∧ x.worker :=
    fun j => worker_step hs
  constructor
  · have same : s'.threads = s.threads →
        ∀ j, j ∈ s'.threads → ∃ x, s'.pcs[j]? = some x ∧ x.worker :=
      fun e j hj => hw j (h.threads j (e ▸ hj))
    cases hs with
    | run i x s' hx hr =>
      cases hr with
      | spawnOne k j hj =>
        intro m hm
        rcases List.mem_append.1 hm with hm | hm
        · exact hw m (h.threads m hm)
        · rw [List.mem_singleton.1 hm]
          have hne : j ≠ i := by
            rintro rfl
            rw [hx] at hj
            cases hj
          refine ⟨.next, ?_, Or.inl rfl⟩
          show ((s.pcs.set j .next).set i (.spawn k))[j]? = _
          rw [get_set_ne hne]
          exact get_set_self hj
      | joinEnd => intro j hj; cases hj
      | _ => exact same rfl
    | _ => exact same rfl
  · intro i l hi j hj
    have hold : ∀ (k : Nat) (y : PC T), s'.pcs = s.pcs.set k y → (∀ l, y ≠ .joining l) →
        ∃ x, s'.pcs[j]? = some x ∧ x.worker := by
      intro k y e hy
      rw [e] at hi
      rcases set_get hi with ⟨-, e', -⟩ | ⟨-, hi⟩
      · exact absurd e'.symm (hy l)
      · exact hw j (h.joining i l hi j hj)
    cases hs with
    | run k x s' hx hr =>
      cases hr with
      | stay x q hc hq hn => exact hw j (h.joining i l hi j hj)
      | spawnOne n m hm =>
        rcases set_get hi with ⟨-, e, -⟩ | ⟨-, hi⟩
        · cases e
        · rcases set_get hi with ⟨-, e, -⟩ | ⟨-, hi⟩
          · cases e
          · exact hw j (h.joining i l hi j hj)
      | disableRet q r hq hret =>
        rcases set_get hi with ⟨-, e, -⟩ | ⟨-, hi⟩
        · cases e
          exact hw j (h.threads j hj)
        · exact hw j (h.joining i l hi j hj)
      | joinOne m l' hm =>
        rcases set_get hi with ⟨-, e, -⟩ | ⟨-, hi⟩
        · cases e
          exact hw j (h.joining k _ hx j (List.mem_cons_of_mem _ hj))
        · exact hw j (h.joining i l hi j hj)
      | consumeRet q r hq hret => exact hold k (consumed r) rfl (by intro l; unfold consumed; split <;> nofun)
      | inside id t =>
        exact hold k (s.ends s.finished.length).goes rfl (by intro l; cases s.ends s.finished.length <;> nofun)
      | _ =>
        refine hold k _ rfl ?_
        nofun
    | start k r op hx => exact hold k _ rfl (by cases op <;> nofun)
    | spurious k q hq => exact hw j (h.joining i l hi j hj)
    | timeout k q hq => exact hw j (h.joining i l hi j hj)

theorem wk_reachable {n c d : Nat} {picks : Nat → Nat} {ends : Nat → Ending} {s : State T}
    (hr : (system T).Reachable (init n c d picks ends) s) : Wk s := by
  have : (system T).Reachable (init n c d picks ends) s ∧ Wk s := by
    refine System.Reachable.invariant (S := system T)
      (fun s => (system T).Reachable (init n c d picks ends) s ∧ Wk s) ⟨.init, ?_, ?_⟩ ?_ hr
    · intro j hj
      cases hj
    · intro i l hi
      rcases List.mem_append.1 (List.mem_of_getElem? hi) with h | h
      · cases List.eq_of_mem_replicate h
      · cases List.eq_of_mem_replicate h
    · rintro s l s' ⟨hr, ih⟩ hs
      have hr' : (system T).Reachable (init n c d picks ends) s' := .step hr (Label.allowed_true l) hs
      exact ⟨hr', wk_step ih (step_stepped hs)⟩
  exact this.2

section
variable (e : (system T).Execution) {n c d : Nat} {picks : Nat → Nat} {ends : Nat → Ending}
  (hR : ∀ m, (system T).Reachable (init n c d picks ends) (e.at_ m))

theorem ended_forever {j m : Nat} (h : (e.at_ m).pcs[j]? = some .ended) (k : Nat) (hk : m ≤ k) :
    (e.at_ k).pcs[j]? = some .ended := by
  induction hk with
  | refl => exact h
  | step hk ih =>
    rename_i k
    rcases e.next k with ⟨-, h2⟩ | ⟨l, -, h2⟩
    · rw [h2]; exact ih
    · refine frame_own (step_stepped h2) ih rfl ?_
      rintro rfl
      have hs : step (e.at_ k) (.run j) = some (e.at_ (k + 1)) := h2
      simp only [step, run, ih] at hs
      cases hs

theorem consume_pc_cases {y : Counter.PC Nat} (h : kind y = .consume) :
    y = .enter true false ∨ y = .asleep true false ∨ y = .ready true false false ∨ y.popping = true := by
  revert h
  unfold kind
  split <;> first
    | exact fun _ => Or.inl rfl
    | exact fun _ => Or.inr (Or.inl rfl)
    | exact fun _ => Or.inr (Or.inr (Or.inl rfl))
    | exact fun _ => Or.inr (Or.inr (Or.inr rfl))
    | nofun

/-- A worker within `consume` leaves it with an element or at its end, or is still in it. -/
theorem consuming_until {m j : Nat} (hx : (e.at_ m).pcs[j]? = some .consuming)
    (hA : ∀ k, Inv (e.at_ k)) (ho : ∀ i k, (e.at_ i).ends k ≠ .throwsOther) (k : Nat) (hk : m ≤ k) : (e.at_ k).pcs[j]? = some .consuming ∨
      ∃ i, m ≤ i ∧ ((∃ id, (e.at_ i).pcs[j]? = some (.look id)) ∨ (e.at_ i).pcs[j]? = some .ended) := by
  induction hk with
  | refl => exact Or.inl hx
  | step hk ih =>
    rename_i k
    rcases ih with ih | ih
    · rcases e.next k with ⟨-, h2⟩ | ⟨l, -, h2⟩
      · rw [h2]; exact Or.inl ih
      · by_cases hl : l = .run j
        · subst hl
          have h2 : step (e.at_ k) (.run j) = some (e.at_ (k + 1)) := h2
          have hs := step_stepped h2
          have hal := (hA (k + 1)).alive (ho (k + 1)) j
          have key : ∀ s', s' = e.at_ (k + 1) → s'.pcs[j]? = some .consuming ∨
              (∃ id, s'.pcs[j]? = some (.look id)) ∨ s'.pcs[j]? = some .ended := by
            intro s' es
            rw [← es] at hs hal
            cases hs with
            | run j x s' hx hr =>
              rw [ih] at hx
              cases hx
              cases hr with
              | stay x q hc hq hn => exact Or.inl ih
              | consumeRet q r hq hret =>
                have e : (goto { e.at_ k with q := q } j (consumed r)).pcs[j]? = some (consumed r) :=
                  get_set_self ih
                rw [e] at hal ⊢
                revert hal
                unfold consumed
                split
                · exact fun _ => Or.inr (Or.inl ⟨_, rfl⟩)
                · exact fun _ => Or.inr (Or.inr rfl)
                · exact fun h => absurd rfl h
          rcases key _ rfl with h | h
          · exact Or.inl h
          · exact Or.inr ⟨k + 1, Nat.le_succ_of_le hk, h⟩
        · exact Or.inl (frame_own (step_stepped h2) ih rfl hl)
    · exact Or.inr ih

include hR in
/-- A worker waiting in a queue that is disabled for good ends, one with an element returns with it. -/
theorem consuming_leaves (ho : ∀ k, ends k ≠ .throwsOther) (hf : e.Fair) (m j : Nat) (hd : ∀ k, m ≤ k → (e.at_ k).q.enabled = false)
    (hx : (e.at_ m).pcs[j]? = some .consuming) :
    ∃ i, m ≤ i ∧ ((∃ id, (e.at_ i).pcs[j]? = some (.look id)) ∨ (e.at_ i).pcs[j]? = some .ended) := by
  have hI := fun k => inv_reachable (hR k)
  have hQf := queue_fair e hI hf
  have hQR := fun k => queue_reachable (hR k)
  by_cases hq : ∃ i, m ≤ i ∧ ((∃ id, (e.at_ i).pcs[j]? = some (.look id)) ∨ (e.at_ i).pcs[j]? = some .ended)
  · exact hq
  · exfalso
    have hst : ∀ k, m ≤ k → (e.at_ k).pcs[j]? = some .consuming := by
      intro k hk
      rcases consuming_until e hx hI (fun i => by rw [ends_reachable (hR i)]; exact ho) k hk with h | h
      · exact h
      · exact absurd h hq
    have hidle : ∀ k, m ≤ k → ∀ r, (e.at_ k).q.pcs[j]? ≠ some (.idle r) := by
      intro k hk r hr
      have := (hI k).sync j _ _ (hst k hk) hr
      cases this
    have henter : ∀ k, m ≤ k → (e.at_ k).q.pcs[j]? ≠ some (.enter true false) := by
      intro k hk h
      obtain ⟨i, hi, h, hr⟩ := Counter.active_runs (queueExec e) hQf j (.enter true false) rfl nofun nofun k h
      have hr : Counter.Ran (e.at_ i).q j (.enter true false) (e.at_ (i + 1)).q := hr
      have hdi := hd i (Nat.le_trans hk hi)
      refine hidle (i + 1) (by omega) (some (.threw .disabled)) ?_
      generalize (e.at_ (i + 1)).q = q at hr
      cases hr with
      | enterDisabled c t he => exact get_set_self h
      | enterGrant c t he hv => rw [hdi] at he; cases he
      | enterSleep c t he hv => rw [hdi] at he; cases he
    have hready : ∀ k, m ≤ k → ∀ l, (e.at_ k).q.pcs[j]? ≠ some (.ready true false l) := by
      intro k hk l h
      obtain ⟨i, hi, h, hr⟩ := Counter.active_runs (queueExec e) hQf j (.ready true false l) rfl nofun nofun k h
      have hr : Counter.Ran (e.at_ i).q j (.ready true false l) (e.at_ (i + 1)).q := hr
      have hdi := hd i (Nat.le_trans hk hi)
      refine hidle (i + 1) (by omega) (some (.threw .disabled)) ?_
      generalize (e.at_ (i + 1)).q = q at hr
      cases hr with
      | readyDisabled c t l he => exact get_set_self h
      | readyGrant c t l he hv => rw [hdi] at he; cases he
      | readyTimeout c t he hv => rw [hdi] at he; cases he
      | readySleep c t he hv => rw [hdi] at he; cases he
    have hasleep : ∀ k, m ≤ k → (e.at_ k).q.pcs[j]? ≠ some (.asleep true false) := by
      intro k hk h
      obtain ⟨i, hi, l, h⟩ := Counter.disabled_wakes (queueExec e) (fun k => Counter.sl_reachable (hQR k)) hQf
        k j true false (hd k hk) h
      exact hready i (Nat.le_trans hk hi) l h
    have htake : ∀ k, m ≤ k → (e.at_ k).q.pcs[j]? ≠ some .popTake := by
      intro k hk h
      obtain ⟨i, hi, h, hr⟩ := Counter.active_runs (queueExec e) hQf j .popTake rfl nofun nofun k h
      have hr : Counter.Ran (e.at_ i).q j .popTake (e.at_ (i + 1)).q := hr
      have : ∃ r, (e.at_ (i + 1)).q.pcs[j]? = some (.idle r) := by
        generalize (e.at_ (i + 1)).q = q at hr
        cases hr with
        | popFail hq => exact ⟨_, get_set_self h⟩
        | popTake v l hq => exact ⟨_, get_set_self h⟩
      obtain ⟨r, hr⟩ := this
      exact hidle (i + 1) (by omega) r hr
    have hswap : ∀ k, m ≤ k → (e.at_ k).q.pcs[j]? ≠ some .popSwap := by
      intro k hk h
      obtain ⟨i, hi, h⟩ := Counter.swap_runs (queueExec e) hQf j k h
      exact htake i (Nat.le_trans hk hi) h
    have hlock : ∀ k, m ≤ k → (e.at_ k).q.pcs[j]? ≠ some .popLock := by
      intro k hk h
      obtain ⟨i, hi, h | h⟩ := Counter.lock_runs (queueExec e) hQR hQf j k h
      · exact hswap i (Nat.le_trans hk hi) h
      · exact htake i (Nat.le_trans hk hi) h
    obtain ⟨y, hy, hk⟩ := (hI m).queue_pc hx
    rcases consume_pc_cases hk with rfl | rfl | rfl | hp
    · exact henter m (Nat.le_refl m) hy
    · exact hasleep m (Nat.le_refl m) hy
    · exact hready m (Nat.le_refl m) false hy
    · cases y with
      | popLock => exact hlock m (Nat.le_refl m) hy
      | popSwap => exact hswap m (Nat.le_refl m) hy
      | popTake => exact htake m (Nat.le_refl m) hy
      | _ => cases hp

include hR in
/-- A worker of a queue that is disabled for good ends. -/
theorem worker_ends (ho : ∀ k, ends k ≠ .throwsOther) (hf : e.Fair) (m j : Nat) (hd : ∀ k, m ≤ k → (e.at_ k).q.enabled = false) (x : PC T)
    (hx : (e.at_ m).pcs[j]? = some x) (hl : x.live = true) :
    ∃ i, m ≤ i ∧ (e.at_ i).pcs[j]? = some .ended := by
  have henter : ∀ k, m ≤ k → (e.at_ k).pcs[j]? = some .consuming →
      (e.at_ k).q.pcs[j]? = some (.enter true false) → ∃ i, m ≤ i ∧ (e.at_ i).pcs[j]? = some .ended := by
    intro k hk h hq
    obtain ⟨i, hi, ⟨h, hq⟩, -, hs⟩ := e.runs_at hf j
      (fun s => s.pcs[j]? = some .consuming ∧ s.q.pcs[j]? = some (.enter true false))
      (fun s l s' h hl hs => ⟨frame_own (step_stepped hs) h.1 rfl hl,
        queue_frame (step_stepped hs) h.2 rfl hl⟩) k ⟨h, hq⟩
      (fun k' _ h => ⟨k', Nat.le_refl k', by
        show (run (e.at_ k') j).isSome
        rw [run_within h.1 rfl]
        exact Counter.able h.2 rfl nofun nofun⟩)
    refine ⟨i + 1, by omega, ?_⟩
    have hs : step (e.at_ i) (.run j) = some (e.at_ (i + 1)) := hs
    have hs := step_stepped hs
    have hdi := hd i (Nat.le_trans hk hi)
    have key : ∀ q, Counter.run (e.at_ i).q j = some q → q.pcs[j]? = some (.idle (some (.threw .disabled))) := by
      intro q hrq
      obtain ⟨y, hy, hran⟩ := Counter.run_ran hrq
      rw [hq] at hy
      cases hy
      cases hran with
      | enterDisabled c t he => exact get_set_self hq
      | enterGrant c t he hv => rw [hdi] at he; cases he
      | enterSleep c t he hv => rw [hdi] at he; cases he
    generalize e.at_ (i + 1) = s' at hs
    cases hs with
    | run j x s' hx hr =>
      rw [h] at hx
      cases hx
      cases hr with
      | stay x q hc hq hn => exact absurd (key q hq) (hn _)
      | consumeRet q r hq hret =>
        rw [key q hq] at hret
        cases hret
        exact get_set_self h
  have hnext : ∀ k, m ≤ k → (e.at_ k).pcs[j]? = some .next → ∃ i, m ≤ i ∧ (e.at_ i).pcs[j]? = some .ended := by
    intro k hk hx
    obtain ⟨i, hi, hx, hr⟩ := pool_runs e hf j .next rfl k hx (fun k _ hx => ⟨k, Nat.le_refl k, by
      obtain ⟨y, hy, hk⟩ := (inv_reachable (hR k)).queue_pc hx
      obtain ⟨r, rfl⟩ := kind_none hk
      unfold run
      rw [hx]
      simp only [call, Counter.start, hy]
      rfl⟩)
    have : (e.at_ (i + 1)).pcs[j]? = some .consuming ∧
        (e.at_ (i + 1)).q.pcs[j]? = some (.enter true false) := by
      generalize e.at_ (i + 1) = s' at hr
      cases hr with
      | stay x q hc hq hn => cases hc
      | next r hq => exact ⟨get_set_self hx, get_set_self hq⟩
    exact henter (i + 1) (by omega) this.1 this.2
  have hinside : ∀ k id t, m ≤ k → (e.at_ k).pcs[j]? = some (.inside id t) →
      ∃ i, m ≤ i ∧ (e.at_ i).pcs[j]? = some .ended := by
    intro k id t hk h
    obtain ⟨i, hi, h, -⟩ := inside_runs e hf j id k t h
    have ho := ho (e.at_ i).finished.length
    rw [← ends_reachable (hR i)] at ho
    cases he : (e.at_ i).ends (e.at_ i).finished.length with
    | returns => rw [he] at h; exact hnext (i + 1) (by omega) h
    | throwsDisabled => rw [he] at h; exact ⟨i + 1, by omega, h⟩
    | throwsOther => exact absurd he ho
  have hexec : ∀ k id t, m ≤ k → (e.at_ k).pcs[j]? = some (.exec id t) →
      ∃ i, m ≤ i ∧ (e.at_ i).pcs[j]? = some .ended := by
    intro k id t hk h
    obtain ⟨i, hi, h⟩ := exec_runs e hf j id k t h
    exact hinside i id t (by omega) h
  have hlook : ∀ k id, m ≤ k → (e.at_ k).pcs[j]? = some (.look id) →
      ∃ i, m ≤ i ∧ (e.at_ i).pcs[j]? = some .ended := by
    intro k id hk h
    obtain ⟨i, t, hi, h⟩ := look_runs e hR hf j id k h
    exact hexec i id t (by omega) h
  cases x with
  | consuming =>
    obtain ⟨i, hi, ⟨id, h⟩ | h⟩ := consuming_leaves e hR ho hf m j hd hx
    · exact hlook i id hi h
    · exact ⟨i, hi, h⟩
  | next => exact hnext m (Nat.le_refl m) hx
  | inside id t => exact hinside m id t (Nat.le_refl m) hx
  | exec id t => exact hexec m id t (Nat.le_refl m) hx
  | look id => exact hlook m id (Nat.le_refl m) hx
  | _ => cases hl

include hR in
/-- The status mutex of the queue is free again and again. -/
theorem status_free (hf : e.Fair) (m : Nat) : ∃ k, m ≤ k ∧ (e.at_ k).q.status = none := by
  have hI := fun k => inv_reachable (hR k)
  have hQf := queue_fair e hI hf
  have hrel : ∀ j k : Nat, m ≤ k → (e.at_ k).q.pcs[j]? = some (.release .disable) →
      ∃ k, m ≤ k ∧ (e.at_ k).q.status = none := by
    intro j k hk h
    obtain ⟨i, hi, h, hr⟩ := Counter.active_runs (queueExec e) hQf j (.release .disable) rfl nofun nofun k h
    have hr : Counter.Ran (e.at_ i).q j (.release .disable) (e.at_ (i + 1)).q := hr
    refine ⟨i + 1, by omega, ?_⟩
    generalize (e.at_ (i + 1)).q = q at hr
    cases hr with
    | release o => rfl
  have hnot : ∀ j k : Nat, m ≤ k → (e.at_ k).q.pcs[j]? = some (.disableNotify .disable) →
      ∃ k, m ≤ k ∧ (e.at_ k).q.status = none := by
    intro j k hk h
    obtain ⟨i, hi, h, hr⟩ := Counter.active_runs (queueExec e) hQf j (.disableNotify .disable) rfl nofun nofun k h
    have hr : Counter.Ran (e.at_ i).q j (.disableNotify .disable) (e.at_ (i + 1)).q := hr
    refine hrel j (i + 1) (by omega) ?_
    generalize (e.at_ (i + 1)).q = q at hr
    cases hr with
    | disableNotify o => exact get_set_self (by
        show ((e.at_ i).q.pcs.map Counter.wake)[j]? = some (Counter.wake (.disableNotify .disable))
        rw [List.getElem?_map]
        have h : (e.at_ i).q.pcs[j]? = some (.disableNotify .disable) := h
        rw [h]
        rfl)
  have htest : ∀ j k : Nat, m ≤ k → (e.at_ k).q.pcs[j]? = some (.disableTest .disable) →
      ∃ k, m ≤ k ∧ (e.at_ k).q.status = none := by
    intro j k hk h
    obtain ⟨i, hi, h, hr⟩ := Counter.active_runs (queueExec e) hQf j (.disableTest .disable) rfl nofun nofun k h
    have hr : Counter.Ran (e.at_ i).q j (.disableTest .disable) (e.at_ (i + 1)).q := hr
    have : (e.at_ (i + 1)).q.pcs[j]? = some (.disableNotify .disable) ∨
        (e.at_ (i + 1)).q.pcs[j]? = some (.release .disable) := by
      generalize (e.at_ (i + 1)).q = q at hr
      cases hr with
      | disableStore o he => exact Or.inl (get_set_self h)
      | disableSkip o he => exact Or.inr (get_set_self h)
    rcases this with h | h
    · exact hnot j (i + 1) (by omega) h
    · exact hrel j (i + 1) (by omega) h
  cases hs : (e.at_ m).q.status with
  | none => exact ⟨m, Nat.le_refl m, hs⟩
  | some j =>
    have hS := Counter.st_reachable (queue_reachable (hR m))
    obtain ⟨y, hy⟩ : ∃ y, (e.at_ m).q.pcs[j]? = some y := ⟨_, List.getElem?_eq_getElem (hS.mem j hs)⟩
    have hh := (hS.holds j y hy).2 hs
    obtain ⟨x, hx, hk⟩ := (hI m).pool_pc hy
    cases y with
    | disableTest o => cases o <;> first | exact htest j m (Nat.le_refl m) hy | (cases x <;> cases hk; done)
    | disableNotify o => cases o <;> first | exact hnot j m (Nat.le_refl m) hy | (cases x <;> cases hk; done)
    | release o => cases o <;> first | exact hrel j m (Nat.le_refl m) hy | (cases x <;> cases hk; done)
    | enableTest o => cases x <;> cases hk
    | drainTest o => cases x <;> cases hk
    | drainNotify o => cases x <;> cases hk
    | stopTest o => cases x <;> cases hk
    | _ => cases hh

/-- A thread within `disable` is in its call of the queue until it waits for its threads. -/
theorem disable_until {m i : Nat} (hx : (e.at_ m).pcs[i]? = some .disableCall) (k : Nat) (hk : m ≤ k) :
    (e.at_ k).pcs[i]? = some .disableCall ∨ ∃ k l, m ≤ k ∧ (e.at_ k).pcs[i]? = some (.joining l) := by
  induction hk with
  | refl => exact Or.inl hx
  | step hk ih =>
    rename_i k
    rcases ih with ih | ih
    · rcases e.next k with ⟨-, h2⟩ | ⟨l, -, h2⟩
      · rw [h2]; exact Or.inl ih
      · by_cases hl : l = .run i
        · subst hl
          have h2 : step (e.at_ k) (.run i) = some (e.at_ (k + 1)) := h2
          have hs := step_stepped h2
          have key : ∀ s', s' = e.at_ (k + 1) → s'.pcs[i]? = some .disableCall ∨
              ∃ l, s'.pcs[i]? = some (.joining l) := by
            intro s' es
            rw [← es] at hs
            cases hs with
            | run j x s' hx hr =>
              rw [ih] at hx
              cases hx
              cases hr with
              | stay x q hc hq hn => exact Or.inl ih
              | disableRet q r hq hret => exact Or.inr ⟨_, get_set_self ih⟩
          rcases key _ rfl with h | ⟨l, h⟩
          · exact Or.inl h
          · exact Or.inr ⟨k + 1, l, Nat.le_succ_of_le hk, h⟩
        · exact Or.inl (frame_own (step_stepped h2) ih rfl hl)
    · exact Or.inr ih

include hR in
theorem disable_call_returns (hf : e.Fair) (m i : Nat) (hx : (e.at_ m).pcs[i]? = some .disableCall) :
    ∃ k l, m ≤ k ∧ (e.at_ k).pcs[i]? = some (.joining l) := by
  have hI := fun k => inv_reachable (hR k)
  have hQf := queue_fair e hI hf
  by_cases hq : ∃ k l, m ≤ k ∧ (e.at_ k).pcs[i]? = some (.joining l)
  · exact hq
  · exfalso
    have hst : ∀ k, m ≤ k → (e.at_ k).pcs[i]? = some .disableCall := by
      intro k hk
      rcases disable_until e hx k hk with h | h
      · exact h
      · exact absurd h hq
    have hidle : ∀ k, m ≤ k → ∀ r, (e.at_ k).q.pcs[i]? ≠ some (.idle r) := by
      intro k hk r hr
      have := (hI k).sync i _ _ (hst k hk) hr
      cases this
    have hrel : ∀ k, m ≤ k → (e.at_ k).q.pcs[i]? ≠ some (.release .disable) := by
      intro k hk h
      obtain ⟨n, hn, h, hr⟩ := Counter.active_runs (queueExec e) hQf i (.release .disable) rfl nofun nofun k h
      have hr : Counter.Ran (e.at_ n).q i (.release .disable) (e.at_ (n + 1)).q := hr
      refine hidle (n + 1) (by omega) none ?_
      generalize (e.at_ (n + 1)).q = q at hr
      cases hr with
      | release o => exact get_set_self h
    have hnot : ∀ k, m ≤ k → (e.at_ k).q.pcs[i]? ≠ some (.disableNotify .disable) := by
      intro k hk h
      obtain ⟨n, hn, h, hr⟩ := Counter.active_runs (queueExec e) hQf i (.disableNotify .disable) rfl nofun nofun k h
      have hr : Counter.Ran (e.at_ n).q i (.disableNotify .disable) (e.at_ (n + 1)).q := hr
      refine hrel (n + 1) (by omega) ?_
      generalize (e.at_ (n + 1)).q = q at hr
      cases hr with
      | disableNotify o => exact get_set_self (by
          show ((e.at_ n).q.pcs.map Counter.wake)[i]? = some (Counter.wake (.disableNotify .disable))
          rw [List.getElem?_map]
          have h : (e.at_ n).q.pcs[i]? = some (.disableNotify .disable) := h
          rw [h]
          rfl)
    have htest : ∀ k, m ≤ k → (e.at_ k).q.pcs[i]? ≠ some (.disableTest .disable) := by
      intro k hk h
      obtain ⟨n, hn, h, hr⟩ := Counter.active_runs (queueExec e) hQf i (.disableTest .disable) rfl nofun nofun k h
      have hr : Counter.Ran (e.at_ n).q i (.disableTest .disable) (e.at_ (n + 1)).q := hr
      have : (e.at_ (n + 1)).q.pcs[i]? = some (.disableNotify .disable) ∨
          (e.at_ (n + 1)).q.pcs[i]? = some (.release .disable) := by
        generalize (e.at_ (n + 1)).q = q at hr
        cases hr with
        | disableStore o he => exact Or.inl (get_set_self h)
        | disableSkip o he => exact Or.inr (get_set_self h)
      rcases this with h | h
      · exact hnot (n + 1) (by omega) h
      · exact hrel (n + 1) (by omega) h
    have hacq : ∀ k, m ≤ k → (e.at_ k).q.pcs[i]? ≠ some (.acquire .disable) := by
      intro k hk h
      obtain ⟨n, hn, h, -, hs⟩ := System.Execution.runs_when (queueExec e) hQf i
        (fun q => q.pcs[i]? = some (.acquire .disable)) (fun q => q.status = none)
        (fun s l s' h hl hs => Counter.frame_active (Counter.step_stepped hs) h rfl hl) k h
        (fun n _ => status_free e hR hf n)
        (fun s h hs => by
          show (Counter.run s i).isSome
          simp [Counter.run, h, hs])
      have hs : Counter.step (e.at_ n).q (.run i) = some (e.at_ (n + 1)).q := hs
      have h : (e.at_ n).q.pcs[i]? = some (.acquire .disable) := h
      have hs := Counter.step_stepped hs
      refine htest (n + 1) (by omega) ?_
      generalize (e.at_ (n + 1)).q = q at hs
      cases hs with
      | run j x q hx hr =>
        rw [h] at hx
        cases hx
        cases hr with
        | acquire o hm => exact get_set_self h
    obtain ⟨y, hy, hk⟩ := (hI m).queue_pc hx
    have hk : kind y = .disable := hk
    revert hk
    unfold kind
    split <;> first
      | exact fun _ => hacq m (Nat.le_refl m) hy
      | exact fun _ => htest m (Nat.le_refl m) hy
      | exact fun _ => hnot m (Nat.le_refl m) hy
      | exact fun _ => hrel m (Nat.le_refl m) hy
      | nofun

include hR in
/-- Waiting for the threads ends. -/
theorem join_returns (ho : ∀ k, ends k ≠ .throwsOther) (hf : e.Fair) (i : Nat) : ∀ (l : List Nat) (m : Nat),
    (e.at_ m).pcs[i]? = some (.joining l) → ∃ k, m ≤ k ∧ (e.at_ k).pcs[i]? = some (.idle (some .done))
  | [], m, hx => by
    obtain ⟨k, hk, hx, hr⟩ := pool_runs e hf i (.joining []) rfl m hx (fun k _ hx => ⟨k, Nat.le_refl k, by
      unfold run
      rw [hx]
      rfl⟩)
    refine ⟨k + 1, by omega, ?_⟩
    generalize e.at_ (k + 1) = s' at hr
    cases hr with
    | stay x q hc hq hn => cases hc
    | joinEnd => exact get_set_self hx
  | j :: l, m, hx => by
    have h0 := hR 0
    have hd : ∀ k, m ≤ k → (e.at_ k).q.enabled = false :=
      C61_queue_stays_disabled n c d picks ends e h0 m i _ hx
    obtain ⟨x, hj, hw⟩ := (wk_reachable (hR m)).joining i _ hx j (List.mem_cons_self ..)
    obtain ⟨a, ha, hend⟩ : ∃ a, m ≤ a ∧ (e.at_ a).pcs[j]? = some .ended := by
      rcases hw with hl | rfl | rfl
      · exact worker_ends e hR ho hf m j hd x hj hl
      · exact ⟨m, Nat.le_refl m, hj⟩
      · exact absurd hj ((inv_reachable (hR m)).alive (by rw [ends_reachable (hR m)]; exact ho) j)
    obtain ⟨k, hk, hx, -, hs⟩ := System.Execution.runs_when e hf i
      (fun s => s.pcs[i]? = some (.joining (j :: l))) (fun s => s.pcs[j]? = some .ended)
      (fun s l s' h hl hs => frame_own (step_stepped hs) h rfl hl) m hx
      (fun k hk => ⟨max k a, by omega, ended_forever e hend _ (by omega)⟩)
      (fun s h hs => by
        show (run s i).isSome
        simp [run, h, hs])
    have hs : step (e.at_ k) (.run i) = some (e.at_ (k + 1)) := hs
    have hs := step_stepped hs
    have : (e.at_ (k + 1)).pcs[i]? = some (.joining l) := by
      generalize e.at_ (k + 1) = s' at hs
      cases hs with
      | run i' x s' hx' hr =>
        rw [hx] at hx'
        cases hx'
        cases hr with
        | stay x q hc hq hn => cases hc
        | joinOne j l hj => exact get_set_self hx
    obtain ⟨b, hb, h⟩ := join_returns ho hf i l (k + 1) this
    exact ⟨b, by omega, h⟩

include hR in
theorem disable_returns (ho : ∀ k, ends k ≠ .throwsOther) (hf : e.Fair) (m i : Nat) (hx : (e.at_ m).pcs[i]? = some .disableTest) :
    ∃ k, m ≤ k ∧ (e.at_ k).pcs[i]? = some (.idle (some .done)) := by
  obtain ⟨k, hk, hx, hr⟩ := pool_runs e hf i .disableTest rfl m hx (fun k _ hx => ⟨k, Nat.le_refl k, by
    obtain ⟨y, hy, hk⟩ := (inv_reachable (hR k)).queue_pc hx
    obtain ⟨r, rfl⟩ := kind_none hk
    unfold run
    rw [hx]
    cases (e.at_ k).enabled
    · rfl
    · simp only [call, Counter.start, hy]
      rfl⟩)
  have : (e.at_ (k + 1)).pcs[i]? = some .disableCall ∨ (e.at_ (k + 1)).pcs[i]? = some (.idle (some .done)) := by
    generalize e.at_ (k + 1) = s' at hr
    cases hr with
    | stay x q hc hq hn => cases hc
    | disableStore r he hq => exact Or.inl (get_set_self hx)
    | disableSkip he => exact Or.inr (get_set_self hx)
  rcases this with h | h
  · obtain ⟨a, l, ha, h⟩ := disable_call_returns e hR hf (k + 1) i h
    obtain ⟨b, hb, h⟩ := join_returns e hR ho hf i l a h
    exact ⟨b, by omega, h⟩
  · exact ⟨k + 1, by omega, h⟩

end

end Verif.SlotThreadPool
