import Verif.Lemmas.SlotThreadPoolInv
import Verif.Lemmas.SlotThreadPoolCtl
import Verif.Lemmas.CounterPop
/-!
Liveness of the `SlotThreadPool` program: its executions are executions of its queue.
-/
namespace Verif.SlotThreadPool
open Verif.Threads

variable {T : Type}

/-- Threads whose place only they can change. -/
def PC.own : PC T → Bool
  | .idle _ => false
  | .dormant => false
  | _ => true

theorem frame_own {s s' : State T} {l : Label (Op T)} (hs : Stepped s l s') {i : Nat} {x : PC T}
    (hx : s.pcs[i]? = some x) (ho : x.own = true) (hl : l ≠ .run i) : s'.pcs[i]? = some x := by
  have hset : ∀ (k : Nat) (y : PC T), k ≠ i → (s.pcs.set k y)[i]? = some x := by
    intro k y hk
    rw [get_set_ne (fun e => hk e.symm)]
    exact hx
  cases hs with
  | run k z s' hz hr =>
    have hk : k ≠ i := by rintro rfl; exact hl rfl
    cases hr with
    | stay x q hc hq hn => exact hx
    | spawnOne n j hj =>
      have hji : j ≠ i := by
        rintro rfl
        rw [hx] at hj
        cases hj
        cases ho
      show ((s.pcs.set j .next).set k (.spawn n))[i]? = some x
      rw [get_set_ne (fun e => hk e.symm)]
      exact hset j _ hji
    | _ => exact hset k _ hk
  | start k r op hz =>
    refine hset k _ ?_
    rintro rfl
    rw [hx] at hz
    cases hz
    cases ho
  | spurious k q hq => exact hx
  | timeout k q hq => exact hx

theorem calling_own {x : PC T} (h : x.calling = true) : x.own = true := by
  cases x <;> first | rfl | (cases h; done)

theorem run_within {s : State T} {i : Nat} {x : PC T} (hx : s.pcs[i]? = some x) (hc : x.calling = true) :
    (run s i).isSome = (Counter.run s.q i).isSome := by
  unfold run
  rw [hx]
  cases x <;> first | exact Option.isSome_map | (cases hc; done)

theorem calling_step {s s' : State T} {i : Nat} {x : PC T} (hx : s.pcs[i]? = some x)
    (hc : x.calling = true) (hs : Stepped s (.run i) s') : Counter.step s.q (.run i) = some s'.q := by
  cases hs with
  | run i x' s' hx' hr =>
    rw [hx] at hx'
    cases hx'
    cases hr with
    | stay x q hc hq hn => exact hq
    | disableRet q r hq hr => exact hq
    | emitRet id q r hq hr => exact hq
    | waitRet q r hq hr => exact hq
    | consumeRet q r hq hr => exact hq
    | _ => cases hc

theorem need_none {x : PC T} (h : x.calling = false) : need x = .none := by
  cases x <;> first | rfl | (cases h; done)

section
variable (e : (system T).Execution)

/-- The label of the queue at each moment. -/
theorem exists_qlabel (n : Nat) : ∃ o : Option (Label (Counter.Op Nat)),
    (match o with
      | none => (e.at_ (n + 1)).q = (e.at_ n).q
      | some l => Counter.step (e.at_ n).q l = some (e.at_ (n + 1)).q) ∧
    ∀ (i : Nat) (x : PC T), e.label n = some (.run i) → (e.at_ n).pcs[i]? = some x → x.calling = true →
      o = some (.run i) := by
  rcases e.next n with ⟨h1, h2⟩ | ⟨l, h1, h2⟩
  · refine ⟨none, by rw [h2], ?_⟩
    intro i x h
    rw [h1] at h
    cases h
  · have h2 : step (e.at_ n) l = some (e.at_ (n + 1)) := h2
    have hs := step_stepped h2
    by_cases hc : ∃ (i : Nat) (x : PC T), l = .run i ∧ (e.at_ n).pcs[i]? = some x ∧ x.calling = true
    · obtain ⟨i, x, rfl, hx, hc⟩ := hc
      refine ⟨some (.run i), calling_step hx hc hs, ?_⟩
      intro j y h _ _
      rw [h1] at h
      cases h
      rfl
    · rcases step_queue hs with h | ⟨l', h, -⟩
      · refine ⟨none, h, ?_⟩
        intro i x h hx hcx
        rw [h1] at h
        cases h
        exact absurd ⟨i, x, rfl, hx, hcx⟩ hc
      · refine ⟨some l', h, ?_⟩
        intro i x h hx hcx
        rw [h1] at h
        cases h
        exact absurd ⟨i, x, rfl, hx, hcx⟩ hc

/-- The execution of the queue. -/
noncomputable def queueExec : (Counter.system Nat).Execution where
  at_ n := (e.at_ n).q
  label n := (exists_qlabel e n).choose
  ok n := by
    have := (exists_qlabel e n).choose_spec.1
    generalize (exists_qlabel e n).choose = o at this
    cases o with
    | none => exact this
    | some l => exact this

theorem first_run {i : Nat} : ∀ (d k : Nat) (x : PC T), e.label (k + d) = some (.run i) →
    (e.at_ k).pcs[i]? = some x → x.calling = true →
    ∃ m, k ≤ m ∧ e.label m = some (.run i) ∧ (e.at_ m).pcs[i]? = some x
  | 0, k, x, h, hx, _ => ⟨k, Nat.le_refl k, h, hx⟩
  | d + 1, k, x, h, hx, hc => by
    by_cases hk : e.label k = some (.run i)
    · exact ⟨k, Nat.le_refl k, hk, hx⟩
    · have hx' : (e.at_ (k + 1)).pcs[i]? = some x := by
        rcases e.next k with ⟨-, h2⟩ | ⟨l, h1, h2⟩
        · rw [h2]; exact hx
        · refine frame_own (step_stepped h2) hx (calling_own hc) ?_
          rintro rfl
          exact hk h1
      obtain ⟨m, hm, h1, h2⟩ := first_run d (k + 1) x
        (by rw [show k + 1 + d = k + (d + 1) by omega]; exact h) hx' hc
      exact ⟨m, by omega, h1, h2⟩

theorem calling_of_run {s : State T} (h : Inv s) {i : Nat} (hr : (Counter.run s.q i).isSome) :
    ∃ x, s.pcs[i]? = some x ∧ x.calling = true := by
  obtain ⟨q, hq⟩ := Option.isSome_iff_exists.1 hr
  obtain ⟨y, hy, hran⟩ := Counter.run_ran hq
  obtain ⟨x, hx, hk⟩ := h.pool_pc hy
  refine ⟨x, hx, ?_⟩
  cases hc : x.calling with
  | true => rfl
  | false =>
    rw [need_none hc] at hk
    obtain ⟨r, rfl⟩ := kind_none hk
    cases hran

theorem queue_fair (hI : ∀ n, Inv (e.at_ n)) (hf : e.Fair) : (queueExec e).Fair := by
  intro i n h
  obtain ⟨k, hk, hr⟩ := h n (Nat.le_refl n)
  obtain ⟨x, hx, hc⟩ := calling_of_run (hI k) hr
  obtain ⟨m, hm, hl⟩ := hf i k (fun m hm => by
    obtain ⟨k', hk', hr'⟩ := h m (Nat.le_trans hk hm)
    refine ⟨k', hk', ?_⟩
    obtain ⟨x', hx', hc'⟩ := calling_of_run (hI k') hr'
    show (run (e.at_ k') i).isSome
    rw [run_within hx' hc']
    exact hr')
  obtain ⟨d, rfl⟩ := Nat.exists_eq_add_of_le hm
  obtain ⟨m', hm', hl', hx'⟩ := first_run e d k x hl hx hc
  exact ⟨m', Nat.le_trans hk hm', (exists_qlabel e m').choose_spec.2 i x hl' hx' hc⟩

/-- A thread whose place only it can change, and that can run again and again, runs. -/
theorem pool_runs (hf : e.Fair) (i : Nat) (x : PC T) (ho : x.own = true) (n : Nat)
    (hx : (e.at_ n).pcs[i]? = some x)
    (able : ∀ m, n ≤ m → (e.at_ m).pcs[i]? = some x → ∃ k, m ≤ k ∧ (run (e.at_ k) i).isSome) :
    ∃ m, n ≤ m ∧ (e.at_ m).pcs[i]? = some x ∧ Ran (e.at_ m) i x (e.at_ (m + 1)) := by
  obtain ⟨m, hm, hx, -, hs⟩ := e.runs_at hf i (fun s => s.pcs[i]? = some x)
    (fun s l s' hx hl hs => frame_own (step_stepped hs) hx ho hl) n hx able
  refine ⟨m, hm, hx, ?_⟩
  have hs : step (e.at_ m) (.run i) = some (e.at_ (m + 1)) := hs
  cases step_stepped hs with
  | run i y s' hy hr =>
    rw [hx] at hy
    cases hy
    exact hr

/-- Fair to all threads but those that are within a task. -/
def Outside : Prop := ∀ i n, (∀ m, n ≤ m → ∃ k, m ≤ k ∧ (run (e.at_ k) i).isSome ∧
    ∀ id t, (e.at_ k).pcs[i]? ≠ some (.inside id t)) → ∃ m, n ≤ m ∧ e.label m = some (.run i)

theorem outside (hf : e.Fair) : Outside e := by
  intro i n h
  refine hf i n fun m hm => ?_
  obtain ⟨k, hk, hr, -⟩ := h m hm
  exact ⟨k, hk, hr⟩

theorem out_runs_at (hf : Outside e) (i : Nat) (P : State T → Prop)
    (keep : ∀ s l s', P s → l ≠ .run i → step s l = some s' → P s')
    (out : ∀ s, P s → ∀ id t, s.pcs[i]? ≠ some (.inside id t)) (n : Nat) (h : P (e.at_ n))
    (able : ∀ m, n ≤ m → P (e.at_ m) → ∃ k, m ≤ k ∧ (run (e.at_ k) i).isSome) :
    ∃ m, n ≤ m ∧ P (e.at_ m) ∧ step (e.at_ m) (.run i) = some (e.at_ (m + 1)) := by
  by_cases hq : ∃ m, n ≤ m ∧ P (e.at_ m) ∧ e.label m = some (.run i)
  · obtain ⟨m, hm, hp, hl⟩ := hq
    refine ⟨m, hm, hp, ?_⟩
    have := e.ok m
    rw [hl] at this
    exact this
  · exfalso
    have hP : ∀ m, n ≤ m → P (e.at_ m) := by
      intro m hm
      induction hm with
      | refl => exact h
      | step hm ih =>
        rename_i m
        rcases e.next m with ⟨-, h2⟩ | ⟨l, h1, h2⟩
        · rw [h2]; exact ih
        · refine keep _ _ _ ih ?_ h2
          rintro rfl
          exact hq ⟨m, hm, ih, h1⟩
    obtain ⟨m, hm, hl⟩ := hf i n (fun m hm => by
      obtain ⟨k, hk, hr⟩ := able m hm (hP m hm)
      exact ⟨k, hk, hr, out _ (hP k (Nat.le_trans hm hk))⟩)
    exact hq ⟨m, hm, hP m hm, hl⟩

/-- `pool_runs` for a thread that is not within a task. -/
theorem out_runs (hf : Outside e) (i : Nat) (x : PC T) (ho : x.own = true) (hout : ∀ id t, x ≠ .inside id t)
    (n : Nat) (hx : (e.at_ n).pcs[i]? = some x)
    (able : ∀ m, n ≤ m → (e.at_ m).pcs[i]? = some x → ∃ k, m ≤ k ∧ (run (e.at_ k) i).isSome) :
    ∃ m, n ≤ m ∧ (e.at_ m).pcs[i]? = some x ∧ Ran (e.at_ m) i x (e.at_ (m + 1)) := by
  obtain ⟨m, hm, hx, hs⟩ := out_runs_at e hf i (fun s => s.pcs[i]? = some x)
    (fun s l s' hx hl hs => frame_own (step_stepped hs) hx ho hl)
    (fun s hx id t h => hout id t (Option.some.inj (hx.symm.trans h))) n hx able
  refine ⟨m, hm, hx, ?_⟩
  cases step_stepped hs with
  | run i y s' hy hr =>
    rw [hx] at hy
    cases hy
    exact hr

theorem queue_frame {s s' : State T} {l : Label (Op T)} (hs : Stepped s l s') {i : Nat}
    {y : Counter.PC Nat} (hy : s.q.pcs[i]? = some y) (ha : y.active = true) (hl : l ≠ .run i) :
    s'.q.pcs[i]? = some y := by
  cases hs with
  | spurious k q hq => exact Counter.frame_active (Counter.step_stepped hq) hy ha nofun
  | timeout k q hq => exact Counter.frame_active (Counter.step_stepped hq) hy ha nofun
  | start k r op hx => exact hy
  | run k x s' hx hr =>
    have hk : k ≠ i := by rintro rfl; exact hl rfl
    rcases step_queue (.run k x s' hx hr) with h | ⟨l', h, -, -, h2, -⟩
    · rw [h]; exact hy
    · refine Counter.frame_active (Counter.step_stepped h) hy ha ?_
      rcases h2 k rfl with e | ⟨op, e⟩ <;> rw [e]
      · intro e
        cases e
        exact hk rfl
      · nofun

theorem slotsMutex_reachable {n c d : Nat} {picks : Nat → Nat} {ends : Nat → Ending} {s : State T}
    (hr : (system T).Reachable (init n c d picks ends) s) :
    ∀ j : Nat, s.slotsMutex = some j → j < s.pcs.length := by
  refine System.Reachable.invariant (S := system T)
    (fun (s : State T) => ∀ j : Nat, s.slotsMutex = some j → j < s.pcs.length) (fun j h => by cases h) ?_ hr
  intro s l s' h hs j hj
  have hs := step_stepped hs
  rw [length_kept hs]
  cases hs with
  | run i x s' hx hran =>
    cases hran with
    | emitKnown id t r hm hg hq =>
      cases hj
      exact (List.getElem?_eq_some_iff.1 hx).1
    | emitRet id q r hq hr => cases hj
    | _ => exact h j hj
  | _ => exact h j hj

section
variable {n c d : Nat} {picks : Nat → Nat} {ends : Nat → Ending} (hR : ∀ m, (system T).Reachable (init n c d picks ends) (e.at_ m))

theorem produce_pc {y : Counter.PC Nat} (h : kind y = .produce) : (∃ v, y = .push v) ∨ y = .inc true := by
  revert h
  unfold kind
  split <;> first | exact fun _ => Or.inl ⟨_, rfl⟩ | exact fun _ => Or.inr rfl | nofun

include hR in
/-- `produce` returns, and with it `emit`, which releases `slots_mutex_`. -/
theorem emit_call_returns (hf : Outside e) (j id m : Nat) (hx : (e.at_ m).pcs[j]? = some (.emitCall id)) :
    ∃ k, m ≤ k ∧ (e.at_ k).pcs[j]? = some (.idle (some .done)) ∧ (e.at_ k).slotsMutex = none := by
  have hI := fun k => inv_reachable (hR k)
  have hable : ∀ k, (e.at_ k).pcs[j]? = some (.emitCall id) → (run (e.at_ k) j).isSome := by
    intro k hx
    rw [run_within hx rfl]
    obtain ⟨y, hy, hk⟩ := (hI k).queue_pc hx
    rcases produce_pc hk with ⟨v, rfl⟩ | rfl
    · exact Counter.able hy rfl nofun nofun
    · exact Counter.able hy rfl nofun nofun
  obtain ⟨k, hk, hxk, hr⟩ := out_runs e hf j (.emitCall id) rfl nofun m hx
    (fun k _ hx => ⟨k, Nat.le_refl k, hable k hx⟩)
  have hxk' : ∀ s', s' = e.at_ (k + 1) → (s'.pcs[j]? = some (.idle (some .done)) ∧ s'.slotsMutex = none) ∨
      (s'.pcs[j]? = some (.emitCall id) ∧ s'.q.pcs[j]? = some (.inc true)) := by
    intro s' es
    rw [← es] at hr
    cases hr with
    | emitRet id q r hq hr => exact Or.inl ⟨get_set_self hxk, rfl⟩
    | stay x q hc hq hnr =>
      refine Or.inr ⟨hxk, ?_⟩
      obtain ⟨y, y', hy, hky, hy', hw⟩ := (hI k).went hxk hq
      cases hw with
      | on h0 h1 h2 h3 h4 =>
        rcases produce_pc (h0.trans hky) with ⟨v, rfl⟩ | rfl
        · exact absurd rfl (h4 v)
        · exact hy'
      | push id e1 e2 h1 h2 => rw [e2] at hy'; exact hy'
      | ret r e1 h1 h2 h3 h4 => rw [e1] at hy'; exact absurd hy' (hnr r)
      | value v h0 e1 h1 h2 => rw [e1] at hy'; exact absurd hy' (hnr _)
  rcases hxk' _ rfl with ⟨h, h'⟩ | ⟨h1, h2⟩
  · exact ⟨k + 1, by omega, h, h'⟩
  · obtain ⟨k', hk', ⟨hx', hq'⟩, hs⟩ := out_runs_at e hf j
      (fun s => s.pcs[j]? = some (.emitCall id) ∧ s.q.pcs[j]? = some (.inc true))
      (fun s l s' h hl hs => ⟨frame_own (step_stepped hs) h.1 rfl hl,
        queue_frame (step_stepped hs) h.2 rfl hl⟩)
      (fun s h id t h' => by rw [h.1] at h'; cases h') (k + 1) ⟨h1, h2⟩
      (fun k' _ h => ⟨k', Nat.le_refl k', hable k' h.1⟩)
    refine ⟨k' + 1, by omega, ?_⟩
    have hs := step_stepped hs
    generalize e.at_ (k' + 1) = s' at hs
    cases hs with
    | run j x s' hx hr =>
      rw [hx'] at hx
      cases hx
      cases hr with
      | emitRet id q r hq hr => exact ⟨get_set_self hx', rfl⟩
      | stay x q hc hq hnr =>
        exfalso
        obtain ⟨y, hy, hran⟩ := Counter.run_ran hq
        rw [hq'] at hy
        cases hy
        cases hran with
        | inc p =>
          obtain ⟨e, -⟩ := Counter.increment_same (Counter.goto (e.at_ k').q j (.idle none))
          exact hnr none (woken_still e.woken (get_set_self hq') rfl rfl)

include hR in
/-- `slots_mutex_` is released again and again. -/
theorem slots_free (hf : Outside e) (m : Nat) : ∃ k, m ≤ k ∧ (e.at_ k).slotsMutex = none := by
  cases hm : (e.at_ m).slotsMutex with
  | none => exact ⟨m, Nat.le_refl m, hm⟩
  | some j =>
    have hj := slotsMutex_reachable (hR m) j hm
    have hx : (e.at_ m).pcs[j]? = some (e.at_ m).pcs[j] := List.getElem?_eq_getElem hj
    have hn := ((inv_reachable (hR m)).mutex j _ hx).2 hm
    obtain ⟨id, hx⟩ : ∃ id, (e.at_ m).pcs[j]? = some (.emitCall id) := by
      rw [hx]
      generalize (e.at_ m).pcs[j] = x at hn
      cases x <;> first | exact ⟨_, rfl⟩ | (cases hn; done)
    obtain ⟨k, hk, -, h⟩ := emit_call_returns e hR hf j id m hx
    exact ⟨k, hk, h⟩

include hR in
/-- A thread that only needs `slots_mutex_` executes its next step. -/
theorem slots_taken (hf : Outside e) (j m : Nat) (x : PC T) (ho : x.own = true)
    (hout : ∀ id t, x ≠ .inside id t)
    (hable : ∀ k, (e.at_ k).pcs[j]? = some x → (e.at_ k).slotsMutex = none → (run (e.at_ k) j).isSome)
    (hx : (e.at_ m).pcs[j]? = some x) :
    ∃ k, m ≤ k ∧ (e.at_ k).pcs[j]? = some x ∧ Ran (e.at_ k) j x (e.at_ (k + 1)) :=
  out_runs e hf j x ho hout m hx (fun k hk hx => by
    -- the place is kept until it runs; at the next moment the mutex is free it can
    obtain ⟨k', hk', hfree⟩ := slots_free e hR hf k
    by_cases h : ∃ k'', k ≤ k'' ∧ (run (e.at_ k'') j).isSome
    · exact h
    · exfalso
      have hst : ∀ i, k ≤ i → (e.at_ i).pcs[j]? = some x := by
        intro i hi
        induction hi with
        | refl => exact hx
        | step hi ih =>
          rename_i i
          rcases e.next i with ⟨-, h2⟩ | ⟨l, -, h2⟩
          · rw [h2]; exact ih
          · refine frame_own (step_stepped h2) ih ho ?_
            rintro rfl
            exact h ⟨i, hi, by
              have h2 : run (e.at_ i) j = some (e.at_ (i + 1)) := h2
              rw [h2]
              rfl⟩
      exact h ⟨k', hk', hable k' (hst k' hk') hfree⟩)

include hR in
/-- `emit` returns. -/
theorem emit_returns (hf : Outside e) (j id m : Nat) (hx : (e.at_ m).pcs[j]? = some (.emitLock id)) :
    ∃ k r, m ≤ k ∧ (e.at_ k).pcs[j]? = some (.idle (some r)) := by
  obtain ⟨k, hk, hx, hr⟩ := slots_taken e hR hf j m (.emitLock id) rfl nofun (fun k hx hm => by
    obtain ⟨y, hy, hk⟩ := (inv_reachable (hR k)).queue_pc hx
    obtain ⟨r, rfl⟩ := kind_none hk
    unfold run
    rw [hx]
    simp only [hm, Option.isSome_none, Bool.false_eq_true, if_false]
    split
    · rfl
    · simp only [call, Counter.start, hy]
      rfl) hx
  have h : ∀ s', s' = e.at_ (k + 1) → s'.pcs[j]? = some (.idle (some (.threw .valueNotAllowed))) ∨
      s'.pcs[j]? = some (.emitCall id) := by
    intro s' es
    rw [← es] at hr
    cases hr with
    | stay x q hc hq hn => cases hc
    | emitUnknown id hm hg => exact Or.inl (get_set_self hx)
    | emitKnown id t r hm hg hq => exact Or.inr (get_set_self hx)
  rcases h _ rfl with h | h
  · exact ⟨k + 1, _, by omega, h⟩
  · obtain ⟨k', hk', h, -⟩ := emit_call_returns e hR hf j id (k + 1) h
    exact ⟨k', _, by omega, h⟩

include hR in
/-- `slot` returns. -/
theorem slot_returns (hf : Outside e) (j id m : Nat) (t : T) (hx : (e.at_ m).pcs[j]? = some (.slotLock id t)) :
    ∃ k r, m ≤ k ∧ (e.at_ k).pcs[j]? = some (.idle (some r)) := by
  obtain ⟨k, hk, hx, hr⟩ := slots_taken e hR hf j m (.slotLock id t) rfl nofun (fun k hx hm => by
    unfold run
    rw [hx]
    simp only [hm, Option.isSome_none, Bool.false_eq_true, if_false]
    split <;> rfl) hx
  refine ⟨k + 1, ?_⟩
  generalize e.at_ (k + 1) = s' at hr
  cases hr with
  | stay x q hc hq hn => cases hc
  | slotKnown id t t' hm hg => exact ⟨_, by omega, get_set_self hx⟩
  | slotNew id t hm hg => exact ⟨_, by omega, get_set_self hx⟩

theorem run_look {s : State T} {j id : Nat} (hx : s.pcs[j]? = some (.look id)) (hm : s.slotsMutex = none) :
    (run s j).isSome := by
  unfold run
  rw [hx]
  simp only [hm, Option.isSome_none, Bool.false_eq_true, if_false]
  split <;> rfl

include hR in
theorem look_runs (hf : e.Fair) (j id m : Nat) (hx : (e.at_ m).pcs[j]? = some (.look id)) :
    ∃ k t, m ≤ k ∧ (e.at_ k).pcs[j]? = some (.exec id t) := by
  obtain ⟨k, hk, hx, hr⟩ := slots_taken e hR (outside e hf) j m (.look id) rfl nofun
    (fun k hx hm => run_look hx hm) hx
  have hl := (inv_reachable (hR k)).look j id hx
  refine ⟨k + 1, ?_⟩
  generalize e.at_ (k + 1) = s' at hr
  cases hr with
  | stay x q hc hq hn => cases hc
  | lookNone id hm hg =>
    obtain ⟨t, ht⟩ := hl
    rw [hg] at ht
    cases ht
  | lookSome id t hm hg => exact ⟨t, by omega, get_set_self hx⟩

theorem exec_runs (hf : e.Fair) (j id m : Nat) (t : T) (hx : (e.at_ m).pcs[j]? = some (.exec id t)) :
    ∃ k, m ≤ k ∧ (e.at_ k).pcs[j]? = some (.inside id t) := by
  obtain ⟨k, hk, hx, hr⟩ := pool_runs e hf j (.exec id t) rfl m hx (fun k _ hx => ⟨k, Nat.le_refl k, by
    unfold run
    rw [hx]
    rfl⟩)
  refine ⟨k + 1, by omega, ?_⟩
  generalize e.at_ (k + 1) = s' at hr
  cases hr with
  | stay x q hc hq hn => cases hc
  | exec id t => exact get_set_self hx

theorem inside_runs (hf : e.Fair) (j id m : Nat) (t : T) (hx : (e.at_ m).pcs[j]? = some (.inside id t)) :
    ∃ k, m ≤ k ∧ (e.at_ (k + 1)).pcs[j]? = some ((e.at_ k).ends (e.at_ k).finished.length).goes ∧
      (e.at_ (k + 1)).finished = (e.at_ k).finished ++ [(id, t)] := by
  obtain ⟨k, hk, hx, hr⟩ := pool_runs e hf j (.inside id t) rfl m hx (fun k _ hx => ⟨k, Nat.le_refl k, by
    unfold run
    rw [hx]
    rfl⟩)
  refine ⟨k, hk, ?_⟩
  generalize e.at_ (k + 1) = s' at hr
  cases hr with
  | stay x q hc hq hn => cases hc
  | inside id t => exact ⟨get_set_self hx, rfl⟩

include hR in
theorem next_runs (hf : e.Fair) (j m : Nat) (hx : (e.at_ m).pcs[j]? = some .next) :
    ∃ k, m ≤ k ∧ (e.at_ k).pcs[j]? = some .consuming := by
  obtain ⟨k, hk, hx, hr⟩ := pool_runs e hf j .next rfl m hx (fun k _ hx => ⟨k, Nat.le_refl k, by
    obtain ⟨y, hy, hk⟩ := (inv_reachable (hR k)).queue_pc hx
    obtain ⟨r, rfl⟩ := kind_none hk
    unfold run
    rw [hx]
    simp only [call, Counter.start, hy]
    rfl⟩)
  refine ⟨k + 1, by omega, ?_⟩
  generalize e.at_ (k + 1) = s' at hr
  cases hr with
  | stay x q hc hq hn => cases hc
  | next r hq => exact get_set_self hx

include hR in
/-- A worker calls `consume` again. -/
theorem worker_consumes (hf : e.Fair) (j m : Nat)
    (hlv : ∀ k, m ≤ k → ∃ x, (e.at_ k).pcs[j]? = some x ∧ x.live = true) :
    ∃ k, m ≤ k ∧ (e.at_ k).pcs[j]? = some .consuming := by
  obtain ⟨x, hx, hl⟩ := hlv m (Nat.le_refl m)
  have hnext : ∀ k, m ≤ k → (e.at_ k).pcs[j]? = some .next →
      ∃ k, m ≤ k ∧ (e.at_ k).pcs[j]? = some .consuming := by
    intro k hk h
    obtain ⟨i, hi, h⟩ := next_runs e hR hf j k h
    exact ⟨i, Nat.le_trans hk hi, h⟩
  have hinside : ∀ k id t, m ≤ k → (e.at_ k).pcs[j]? = some (.inside id t) →
      ∃ k, m ≤ k ∧ (e.at_ k).pcs[j]? = some .consuming := by
    intro k id t hk h
    obtain ⟨i, hi, h, -⟩ := inside_runs e hf j id k t h
    obtain ⟨x', hx', hl'⟩ := hlv (i + 1) (by omega)
    rw [h] at hx'
    cases hx'
    cases he : (e.at_ i).ends (e.at_ i).finished.length with
    | returns => rw [he] at h; exact hnext (i + 1) (by omega) h
    | throwsDisabled => rw [he] at hl'; cases hl'
    | throwsOther => rw [he] at hl'; cases hl'
  have hexec : ∀ k id t, m ≤ k → (e.at_ k).pcs[j]? = some (.exec id t) →
      ∃ k, m ≤ k ∧ (e.at_ k).pcs[j]? = some .consuming := by
    intro k id t hk h
    obtain ⟨i, hi, h⟩ := exec_runs e hf j id k t h
    exact hinside i id t (by omega) h
  cases x with
  | consuming => exact ⟨m, Nat.le_refl m, hx⟩
  | next => exact hnext m (Nat.le_refl m) hx
  | inside id t => exact hinside m id t (Nat.le_refl m) hx
  | exec id t => exact hexec m id t (Nat.le_refl m) hx
  | look id =>
    obtain ⟨k, t, hk, h⟩ := look_runs e hR hf j id m hx
    exact hexec k id t hk h
  | _ => cases hl

/-- While the queue is enabled a worker remains one, unless its task throws. -/
theorem live_step {s s' : State T} {l : Label (Op T)} (h : Inv s) (h' : Inv s')
    (he : s.q.enabled = true) (ho : ∀ k, s.ends k ≠ .throwsOther) (hs : Stepped s l s') {j : Nat} {x : PC T}
    (hx : s.pcs[j]? = some x) (hl : x.live = true) :
    (∃ x', s'.pcs[j]? = some x' ∧ x'.live = true) ∨
    (s'.pcs[j]? = some .ended ∧ s.ends s.finished.length = .throwsDisabled ∧ l = .run j ∧
      s'.finished.length = s.finished.length + 1) := by
  have ho' : ∀ k, s'.ends k ≠ .throwsOther := fun k => by rw [ends_step hs]; exact ho k
  by_cases hlj : l = .run j
  · subst hlj
    cases hs with
    | run j x' s' hx' hr =>
      rw [hx] at hx'
      cases hx'
      cases hr with
      | stay x q hc hq hn => exact Or.inl ⟨x, hx, hl⟩
      | next r hq => exact Or.inl ⟨_, get_set_self hx, rfl⟩
      | consumeRet q r hq hret =>
        refine Or.inl ⟨_, get_set_self hx, ?_⟩
        obtain ⟨y, y', hy, hky, hy', hw⟩ := h.went hx hq
        rw [hret] at hy'
        cases hy'
        cases hw with
        | on h0 h1 h2 h3 h4 => rw [hky] at h0; cases h0
        | push id e1 e2 h1 h2 => cases e2
        | ret r e1 h1 h2 h3 h4 =>
          cases e1
          rcases h4 hky with ⟨-, h5⟩ | rfl
          · rw [he] at h5; cases h5
          · exact absurd (get_set_self hx) (h'.alive ho' j)
        | value v h0 e1 h1 h2 => cases e1; rfl
      | lookNone id hm hg => exact absurd (get_set_self hx) (h'.alive ho' j)
      | lookSome id t hm hg => exact Or.inl ⟨_, get_set_self hx, rfl⟩
      | exec id t => exact Or.inl ⟨_, get_set_self hx, rfl⟩
      | inside id t =>
        cases hend : s.ends s.finished.length with
        | returns => exact Or.inl ⟨_, get_set_self hx, rfl⟩
        | throwsDisabled =>
          refine Or.inr ⟨get_set_self hx, rfl, rfl, ?_⟩
          show (s.finished ++ [(id, t)]).length = _
          rw [List.length_append, List.length_singleton]
        | throwsOther => exact absurd hend (ho _)
      | _ => cases hl
  · refine Or.inl ⟨x, frame_own hs hx ?_ hlj, hl⟩
    cases x <;> first | rfl | (cases hl; done)

theorem consume_pc {y : Counter.PC Nat} (h : kind y = .consume) : y.consuming = true := by
  revert h
  unfold kind
  split <;> first | exact fun _ => rfl | nofun

include hR in
/-- Everything that is in the queue is taken. -/
theorem all_popped (hf : e.Fair) (he : ∀ m, (e.at_ m).q.enabled = true)
    (hb : ∀ m, (e.at_ m).q.queue.fg.length + (e.at_ m).q.queue.bg.length < 2 ^ 32) (m j : Nat)
    (hlv : ∀ k, m ≤ k → ∃ x, (e.at_ k).pcs[j]? = some x ∧ x.live = true) :
    ∃ k, m ≤ k ∧ (e.at_ m).q.pushed.length ≤ (e.at_ k).q.popped.length := by
  have key : ∀ g k, m ≤ k → (e.at_ m).q.pushed.length - (e.at_ k).q.popped.length = g →
      ∃ k', m ≤ k' ∧ (e.at_ m).q.pushed.length ≤ (e.at_ k').q.popped.length := by
    intro g
    induction g using Nat.strongRecOn with
    | ind g ih =>
      intro k hk hg
      by_cases hle : (e.at_ m).q.pushed.length ≤ (e.at_ k).q.popped.length
      · exact ⟨k, hk, hle⟩
      · have hpush : (e.at_ m).q.pushed.length ≤ (e.at_ k).q.pushed.length :=
          (Counter.mono_exec (queueExec e) hk).2.1.length_le
        obtain ⟨k', hk', h⟩ := Counter.queue_progress (queueExec e)
          (fun i => queue_reachable (hR i)) (queue_fair e (fun i => inv_reachable (hR i)) hf) he hb k
          (show (e.at_ k).q.popped.length < (e.at_ k).q.pushed.length by omega)
          (fun i hi => by
            obtain ⟨i', hi', h⟩ := worker_consumes e hR hf j i fun k' hk' => hlv k' (by omega)
            obtain ⟨y, hy, hky⟩ := (inv_reachable (hR i')).queue_pc h
            exact ⟨i', hi', j, y, hy, consume_pc hky⟩)
        have h : (e.at_ k).q.popped.length < (e.at_ k').q.popped.length := h
        exact ih _ (show (e.at_ m).q.pushed.length - (e.at_ k').q.popped.length < g by omega) k'
          (Nat.le_trans hk hk') rfl
  exact key _ m (Nat.le_refl m) rfl

theorem finished_mono {m k : Nat} (h : m ≤ k) : (e.at_ m).finished <+: (e.at_ k).finished := by
  induction h with
  | refl => exact List.prefix_refl _
  | step h ih =>
    rename_i k
    rcases e.next k with ⟨-, h2⟩ | ⟨l, -, h2⟩
    · rw [h2]; exact ih
    · refine ih.trans ?_
      have hs := step_stepped h2
      generalize e.at_ (k + 1) = s' at hs
      cases hs with
      | run i x s' hx hr =>
        cases hr with
        | inside id t => exact List.prefix_append _ _
        | _ => exact List.prefix_refl _
      | _ => exact List.prefix_refl _

include hR in
/-- A worker with task `id` finishes it. -/
theorem finishes (hf : e.Fair) (j m id : Nat) (x : PC T) (hx : (e.at_ m).pcs[j]? = some x)
    (hl : x.flying id = true ∨ x.within id = true) :
    ∃ k, m ≤ k ∧ (e.at_ m).finished.countP (fun p => p.1 == id) + 1 ≤
      (e.at_ k).finished.countP (fun p => p.1 == id) := by
  have hinside : ∀ k t, m ≤ k → (e.at_ k).pcs[j]? = some (.inside id t) →
      ∃ k, m ≤ k ∧ (e.at_ m).finished.countP (fun p => p.1 == id) + 1 ≤
        (e.at_ k).finished.countP (fun p => p.1 == id) := by
    intro k t hk h
    obtain ⟨i, hi, -, h⟩ := inside_runs e hf j id k t h
    refine ⟨i + 1, by omega, ?_⟩
    have h1 := (finished_mono e (Nat.le_trans hk hi)).sublist.countP_le (p := fun p => p.1 == id)
    rw [h, List.countP_append]
    simp only [List.countP_singleton, beq_self_eq_true, if_true]
    omega
  have hexec : ∀ k t, m ≤ k → (e.at_ k).pcs[j]? = some (.exec id t) →
      ∃ k, m ≤ k ∧ (e.at_ m).finished.countP (fun p => p.1 == id) + 1 ≤
        (e.at_ k).finished.countP (fun p => p.1 == id) := by
    intro k t hk h
    obtain ⟨i, hi, h⟩ := exec_runs e hf j id k t h
    exact hinside i t (by omega) h
  cases x with
  | look k =>
    have hk : k = id := by simpa [PC.flying, PC.within] using hl
    subst hk
    obtain ⟨i, t, hi, h⟩ := look_runs e hR hf j k m hx
    exact hexec i t hi h
  | exec k t =>
    have hk : k = id := by simpa [PC.flying, PC.within] using hl
    subst hk
    exact hexec m t (Nat.le_refl m) hx
  | inside k t =>
    have hk : k = id := by simpa [PC.flying, PC.within] using hl
    subst hk
    exact hinside m t (Nat.le_refl m) hx
  | _ => rcases hl with hl | hl <;> cases hl

include hR in
/-- Everything that was taken is finished. -/
theorem all_finished (hf : e.Fair) (m id : Nat) :
    ∃ k, m ≤ k ∧ (e.at_ m).q.popped.count id ≤ (e.at_ k).finished.countP (fun p => p.1 == id) := by
  have key : ∀ g k, m ≤ k →
      (e.at_ m).q.popped.count id - (e.at_ k).finished.countP (fun p => p.1 == id) = g →
      ∃ k', m ≤ k' ∧ (e.at_ m).q.popped.count id ≤ (e.at_ k').finished.countP (fun p => p.1 == id) := by
    intro g
    induction g using Nat.strongRecOn with
    | ind g ih =>
      intro k hk hg
      by_cases hle : (e.at_ m).q.popped.count id ≤ (e.at_ k).finished.countP (fun p => p.1 == id)
      · exact ⟨k, hk, hle⟩
      · have hpop : (e.at_ m).q.popped.count id ≤ (e.at_ k).q.popped.count id :=
          (Counter.mono_exec (queueExec e) hk).1.sublist.count_le id
        have h1 := (inv_reachable (hR k)).taken id
        have h2 := (inv_reachable (hR k)).running id
        have hsome : ∃ (j : Nat) (x : PC T), (e.at_ k).pcs[j]? = some x ∧
            (x.flying id = true ∨ x.within id = true) := by
          by_cases hfl : 0 < (e.at_ k).pcs.countP (PC.flying id)
          · obtain ⟨j, x, hx, h⟩ := exists_of_countP_pos _ hfl
            exact ⟨j, x, hx, Or.inl h⟩
          · have : 0 < (e.at_ k).pcs.countP (PC.within id) := by omega
            obtain ⟨j, x, hx, h⟩ := exists_of_countP_pos _ this
            exact ⟨j, x, hx, Or.inr h⟩
        obtain ⟨j, x, hx, h⟩ := hsome
        obtain ⟨k', hk', h⟩ := finishes e hR hf j k id x hx h
        exact ih _ (show _ < g by omega) k' (Nat.le_trans hk hk') rfl
  exact key _ m (Nat.le_refl m) rfl

include hR in
/-- An accepted emit is stored. -/
theorem all_pushed (hf : e.Fair) (m id : Nat) :
    ∃ k, m ≤ k ∧ (e.at_ m).emitted.count id ≤ (e.at_ k).q.pushed.count id := by
  rcases (inv_reachable (hR m)).emitted with ⟨h, -⟩ | ⟨j, v, hj, h⟩
  · exact ⟨m, Nat.le_refl m, by rw [h]; exact Nat.le_refl _⟩
  · obtain ⟨k, hk, hj, hr⟩ := Counter.active_runs (queueExec e)
      (queue_fair e (fun i => inv_reachable (hR i)) hf) j (.push v) rfl nofun nofun m hj
    refine ⟨k + 1, by omega, ?_⟩
    have hp : (e.at_ (k + 1)).q.pushed = (e.at_ k).q.pushed ++ [v] := by
      have hr : Counter.Ran (e.at_ k).q j (.push v) (e.at_ (k + 1)).q := hr
      generalize (e.at_ (k + 1)).q = q at hr
      cases hr with
      | push v => rfl
    have hle : (e.at_ m).q.pushed.count id ≤ (e.at_ k).q.pushed.count id :=
      (Counter.mono_exec (queueExec e) hk).2.1.sublist.count_le id
    rw [h, hp, List.count_append, List.count_append]
    omega

end

end

end Verif.SlotThreadPool
