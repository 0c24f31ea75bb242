import Verif.Lemmas.Periodic
/-!
C75, C96: `PeriodicEventHandler`.
-/
namespace Verif.Periodic
open Verif.Threads

abbrev C := Conf (prog .plain)

/-! ### Construction -/

/-- C75: a period of 0 is rejected with `InitializationException`, any other is accepted. -/
theorem C75_construct (p : Nat) :
    (p = 0 → construct p = .throw .initialization) ∧ (p ≠ 0 → construct p = .ok p) := by
  unfold construct
  constructor
  · rintro rfl; rfl
  · intro h; rw [if_neg (by omega)]

example : construct 0 = .throw .initialization ∧ construct 50 = .ok 50 := by decide

/-! ### Safety -/

/-- C96: the callback is called only while it is set. -/
theorem C96_only_set {n : Nat} {s s' : C} (h : (prog .plain).system.Reachable (init .plain n) s) {l : Label Op}
    (hs : (prog .plain).system.step s l = some s') (hc : s'.sh.calls ≠ s.sh.calls) :
    s.sh.set = true ∧ s'.sh.calls = s.sh.calls + 1 := by
  have hi := inv h
  rcases Prog.stepped_sh (Prog.step_stepped hs) with h | ⟨i, x, y, b, -, hx, hr⟩
  · rw [h] at hc; exact absurd rfl hc
  · have hr := run_ran (i := i) (x := x) hr
    have hl := hi.loc i x hx
    generalize s'.sh = sh' at hr hc
    cases hr <;> first | exact absurd rfl hc | exact ⟨hl.ifact, rfl⟩

/-- The places of `set_callback`. -/
def PC.sets : PC → Bool
  | .setLock | .setInternal | .setFlag | .setRel _ | .setStart | .setSpawn | .setOut => true
  | _ => false

/-- C75: while no callback is set and nobody sets one, none is called. -/
theorem C75_silent {n : Nat} {s s' : C} (h : (prog .plain).system.Reachable (init .plain n) s)
    (hset : s.sh.set = false) (hno : ∀ (i : Nat) (x : PC), s.pcs[i]? = some x → x.sets = false)
    {ls : List (Label Op)} (hls : ∀ l ∈ ls, ∀ i, l ≠ .start i .set)
    (he : (prog .plain).system.exec s ls = some s') : s'.sh.calls = s.sh.calls ∧ s'.sh.set = false := by
  induction ls generalizing s with
  | nil => cases he; exact ⟨rfl, hset⟩
  | cons l ls ih =>
    obtain ⟨s1, h1, h2⟩ := System.exec_cons (S := (prog .plain).system) he
    have hs := Prog.step_stepped h1
    have hset1 : s1.sh.set = false := by
      rcases Prog.stepped_sh hs with h | ⟨i, x, y, b, -, hx, hr⟩
      · rw [h]; exact hset
      · have hr := run_ran (i := i) (x := x) hr
        have := hno i x hx
        generalize s1.sh = sh' at hr
        cases hr <;> first | exact hset | rfl | (cases this; done)
    have hno1 : ∀ (i : Nat) (x : PC), s1.pcs[i]? = some x → x.sets = false := by
      intro i y hy
      have hlt : i < s.pcs.length := by
        rw [← Prog.stepped_length hs]; exact (List.getElem?_eq_some_iff.1 hy).1
      obtain ⟨x, hx⟩ : ∃ x, s.pcs[i]? = some x := ⟨_, List.getElem?_eq_getElem hlt⟩
      obtain ⟨y', hy', ht⟩ := Prog.track hs hx
      rw [hy] at hy'
      cases hy'
      have hx0 := hno i x hx
      rcases ht with ⟨op, el, hst, -⟩ | ⟨-, b, hr⟩ | ⟨-, hk, -⟩
      · cases op with
        | set => exact absurd el (hls l (by simp) i)
        | unset => cases x <;> cases hst; rfl
        | event => cases x <;> cases hst; rfl
      · have hr := run_ran (i := i) (x := x) hr
        generalize s1.sh = sh' at hr
        cases hr <;> first | rfl | (cases hx0; done)
      · rcases hk with rfl | hk | hk
        · exact hx0
        · cases x <;> cases hk; rfl
        · cases x <;> cases hk; rfl
    obtain ⟨g1, g2⟩ := ih (h.step (Label.allowed_true _) h1) hset1 hno1 (fun l hl => hls l (by simp [hl])) h2
    refine ⟨?_, g2⟩
    rw [g1]
    by_cases hc : s1.sh.calls = s.sh.calls
    · exact hc
    · have := (C96_only_set h h1 hc).1
      rw [hset] at this
      cases this

/-- C75: when `unset_callback` returns, no callback is set, the timer thread has been joined and no thread is inside a
callback; that the handler can be destroyed then is `unset_callback` being what the destructor calls. -/
theorem C75_stopped {n : Nat} {s s' : C} (h : (prog .plain).system.Reachable (init .plain n) s) {i : Nat}
    (hx : s.pcs[i]? = some .unsetOut) (hs : (prog .plain).system.step s (.run i) = some s') :
    s'.pcs[i]? = some .idle ∧ s'.sh.set = false ∧ s'.sh.active = false ∧ s'.sh.thread = .none ∧
      s'.pcs[0]? = some .off ∧ ∀ j : Nat, s'.pcs[j]? ≠ some .timerCall ∧ s'.pcs[j]? ≠ some .eventCall := by
  have hi := inv h
  have hi' := inv (h.step (Label.allowed_true _) hs)
  have hl := (hi.loc i _ hx).efact
  obtain ⟨sh, y, b, hr, e1, hy⟩ := Prog.stepped_run (Prog.step_stepped hs) hx
  have hr := run_ran (i := i) (x := .unsetOut) hr
  obtain ⟨⟨-, hc⟩, hset⟩ := hl
  have h2 := hc hset
  cases hr
  have f1 : s'.sh.set = false := by rw [e1]; exact hset
  have f2 : s'.sh.thread = .none := by rw [e1]; exact h2.2
  refine ⟨hy, f1, by rw [e1]; exact h2.1, f2, ?_, fun j => ⟨fun hj => ?_, fun hj => ?_⟩⟩
  · have hlt : 0 < s'.pcs.length := Nat.lt_of_le_of_lt (Nat.zero_le i) (List.getElem?_eq_some_iff.1 hy).1
    obtain ⟨x, hx⟩ : ∃ x, s'.pcs[0]? = some x := ⟨_, List.getElem?_eq_getElem hlt⟩
    have hl := hi'.loc 0 x hx
    have ht := hl.timer.2 rfl
    have hf := hl.tfact
    rw [hx]
    cases x <;> first | rfl | (cases ht; done) | (simp only [PC.tfact, f2] at hf; simp at hf)
  · have := (hi'.loc j _ hj).ifact
    rw [show s'.sh.set = true from this] at f1
    cases f1
  · have := (hi'.loc j _ hj).ifact
    rw [show s'.sh.set = true from this] at f1
    cases f1

/-- C75: when `set_callback` returns, the callback is set and the timer thread exists. -/
theorem C75_started {n : Nat} {s s' : C} (h : (prog .plain).system.Reachable (init .plain n) s) {i : Nat}
    (hx : s.pcs[i]? = some .setOut) (hs : (prog .plain).system.step s (.run i) = some s') :
    s'.pcs[i]? = some .idle ∧ s'.sh.set = true ∧ s'.sh.active = true ∧
      (s'.sh.thread = .spawned ∨ s'.sh.thread = .running) := by
  have hi := inv h
  have hl := (hi.loc i _ hx).efact
  obtain ⟨sh, y, b, hr, e1, hy⟩ := Prog.stepped_run (Prog.step_stepped hs) hx
  have hr := run_ran (i := i) (x := .setOut) hr
  obtain ⟨⟨hc, -⟩, hset⟩ := hl
  have h2 := hc hset
  cases hr
  exact ⟨hy, by rw [e1]; exact hset, by rw [e1]; exact h2.1, by rw [e1]; exact h2.2⟩

/-- C75: `set_callback` after `unset_callback` is possible again and again: a thread is never assigned to a
`std::thread` that is still joinable (which would end the process). -/
theorem C75_one_thread {n : Nat} {s : C} (h : (prog .plain).system.Reachable (init .plain n) s) :
    s.sh.crashed = false := (inv h).glob.crashed

/-- C96: at most one callback is running, whether called by the timer thread or by `simulate_event_occurred`. -/
theorem C96_serial {n : Nat} {s : C} (h : (prog .plain).system.Reachable (init .plain n) s) {i j : Nat}
    (hi : s.pcs[i]? = some .timerCall ∨ s.pcs[i]? = some .eventCall)
    (hj : s.pcs[j]? = some .timerCall ∨ s.pcs[j]? = some .eventCall) : i = j := by
  have hI := inv h
  have own : ∀ k, (s.pcs[k]? = some .timerCall ∨ s.pcs[k]? = some .eventCall) → s.sh.internal = some k := by
    rintro k (hk | hk)
    · exact (hI.loc k _ hk).internal.1 rfl
    · exact (hI.loc k _ hk).internal.1 rfl
  exact Option.some.inj ((own i hi).symm.trans (own j hj))

/-- The timer thread has not waited for a period yet. -/
def Unripe (s : C) (x : PC) : Prop :=
  x = .timerRel ∨ x = .unlock ∨ x = .loop ∨ x = .lock ∨ x = .test ∨ x = .asleep ∨ x = .again ∨ x = .off ∨ x = .finish ∨
    (x = .check ∧ s.sh.active = false)

/-- C96: between two calls of the callback by the timer thread a period passes. -/
theorem C96_spacing {n : Nat} {s0 s1 s2 s3 : C} (h : (prog .plain).system.Reachable (init .plain n) s0)
    (h1 : (prog .plain).system.step s0 (.run 0) = some s1) (hc1 : s1.sh.calls = s0.sh.calls + 1)
    {ls : List (Label Op)} (h2 : (prog .plain).system.exec s1 ls = some s2)
    (h3 : (prog .plain).system.step s2 (.run 0) = some s3) (hc3 : s3.sh.calls = s2.sh.calls + 1) :
    .timeout 0 ∈ ls := by
  refine Classical.byContradiction fun hno => ?_
  have call : ∀ s s' : C, (prog .plain).system.Reachable (init .plain n) s →
      (prog .plain).system.step s (.run 0) = some s' → s'.sh.calls = s.sh.calls + 1 →
      s.pcs[0]? = some .timerCall ∧ s'.pcs[0]? = some .timerRel := by
    intro s s' hR hs hc
    obtain ⟨x, hx⟩ := Prog.stepped_at (Prog.step_stepped hs)
    obtain ⟨sh, y, b, hr, e1, hy⟩ := Prog.stepped_run (Prog.step_stepped hs) hx
    have hr := run_ran (i := 0) (x := x) hr
    have ht := ((inv hR).loc 0 x hx).timer.2 rfl
    rw [e1] at hc
    cases hr with
    | timerCall => exact ⟨hx, hy⟩
    | eventCall => cases ht
    | _ => exact absurd hc (by simp)
  obtain ⟨-, hx1⟩ := call s0 s1 h h1 hc1
  have hR1 : (prog .plain).system.Reachable (init .plain n) s1 := h.step (Label.allowed_true _) h1
  have key : ∀ (ls : List (Label Op)) (s : C), (prog .plain).system.Reachable (init .plain n) s → .timeout 0 ∉ ls →
      (prog .plain).system.exec s ls = some s2 → (∃ x, s.pcs[0]? = some x ∧ Unripe s x) →
      (prog .plain).system.Reachable (init .plain n) s2 ∧ ∃ x, s2.pcs[0]? = some x ∧ Unripe s2 x := by
    intro ls
    induction ls with
    | nil => intro s hR _ he hx; cases he; exact ⟨hR, hx⟩
    | cons l ls ih =>
      intro s hR hno he ⟨x, hx, hu⟩
      obtain ⟨t, g1, g2⟩ := System.exec_cons (S := (prog .plain).system) he
      have hRt : (prog .plain).system.Reachable (init .plain n) t := hR.step (Label.allowed_true _) g1
      refine ih t hRt (fun hm => hno (by simp [hm])) g2 ?_
      have hs := Prog.step_stepped g1
      have hi := inv hR
      obtain ⟨y, hy, ht⟩ := Prog.track hs hx
      refine ⟨y, hy, ?_⟩
      rcases ht with ⟨op, -, hst, -⟩ | ⟨-, b, hr⟩ | ⟨hl, hk, hsh⟩
      · unfold Unripe at hu
        rcases hu with rfl | rfl | rfl | rfl | rfl | rfl | rfl | rfl | rfl | ⟨rfl, -⟩ <;> cases op <;> cases hst
      · have hr := run_ran (i := 0) (x := x) hr
        unfold Unripe at hu ⊢
        generalize hsh : t.sh = sh' at hr ⊢
        cases hr <;> simp at hu ⊢ <;> first
          | assumption
          | (rename_i h; rw [h] at hu; cases hu; done)
          | skip
      · rcases hk with rfl | hk | hk
        · unfold Unripe at hu ⊢
          rcases hu with h | h | h | h | h | h | h | h | h | ⟨h, ha⟩
          · exact Or.inl h
          · exact Or.inr (Or.inl h)
          · exact Or.inr (Or.inr (Or.inl h))
          · exact Or.inr (Or.inr (Or.inr (Or.inl h)))
          · exact Or.inr (Or.inr (Or.inr (Or.inr (Or.inl h))))
          · exact Or.inr (Or.inr (Or.inr (Or.inr (Or.inr (Or.inl h)))))
          · exact Or.inr (Or.inr (Or.inr (Or.inr (Or.inr (Or.inr (Or.inl h))))))
          · exact Or.inr (Or.inr (Or.inr (Or.inr (Or.inr (Or.inr (Or.inr (Or.inl h)))))))
          · exact Or.inr (Or.inr (Or.inr (Or.inr (Or.inr (Or.inr (Or.inr (Or.inr (Or.inl h))))))))
          · subst h
            refine Or.inr (Or.inr (Or.inr (Or.inr (Or.inr (Or.inr (Or.inr (Or.inr (Or.inr ⟨rfl, ?_⟩))))))))
            rcases hsh with e | ⟨k, w, z, b, -, -, hw, hr⟩
            · rw [e]; exact ha
            · have hr := run_ran (i := k) (x := w) hr
              have hth : s.sh.thread = .running := (hi.loc 0 _ hx).tfact
              have hl := (hi.loc k w hw).efact
              generalize t.sh = sh' at hr ⊢
              cases hr with
              | setStart _ =>
                have := hl.2.2
                rw [hth] at this
                cases this
              | unsetStop _ => rfl
              | _ => exact ha
        · unfold Unripe
          cases x <;> cases hk
          simp
        · cases x <;> cases hk
          rcases Prog.late_timeout hs hx hy hl (fun op => by cases op <;> rfl) with h | h | ⟨h, -⟩
          · cases h
          · cases h
          · exact absurd (by simp [h]) hno
  obtain ⟨hR2, x, hx, hu⟩ := key ls s1 hR1 hno h2 ⟨_, hx1, Or.inl rfl⟩
  obtain ⟨hx2, -⟩ := call s2 s3 hR2 h3 hc3
  rw [hx] at hx2
  cases hx2
  unfold Unripe at hu
  simp at hu

/-! ### Liveness -/

/-- The owners of the mutexes are threads. -/
def Owned (s : C) : Prop :=
  (∀ j, s.sh.event = some j → j < s.pcs.length) ∧ (∀ j, s.sh.internal = some j → j < s.pcs.length) ∧
  (∀ j, s.sh.periodic = some j → j < s.pcs.length) ∧ 0 < s.pcs.length

theorem owned {n : Nat} {s : C} (h : (prog .plain).system.Reachable (init .plain n) s) : Owned s := by
  suffices (prog .plain).Inv Glob Loc s ∧ Owned s from this.2
  refine System.ReachableBy.invariant (S := (prog .plain).system)
    (fun s => (prog .plain).Inv Glob Loc s ∧ Owned s) ?_ ?_ h
  · exact ⟨inv .init, nofun, nofun, nofun, Nat.succ_pos _⟩
  · intro s l s' ⟨hi, ho⟩ hA hs
    have hst := Prog.step_stepped hs
    refine ⟨local_.step hi hA hst, ?_⟩
    have hlen := Prog.stepped_length hst
    unfold Owned
    rw [hlen]
    rcases Prog.stepped_sh hst with h | ⟨i, x, y, b, -, hx, hr⟩
    · rw [h]; exact ho
    · have hlt : i < s.pcs.length := (List.getElem?_eq_some_iff.1 hx).1
      have hr := run_ran (i := i) (x := x) hr
      have hl := hi.loc i x hx
      have key : ∀ o o' : Option Nat, (∀ j, o = some j → j < s.pcs.length) →
          (o' = o ∨ (o = none ∧ o' = some i) ∨ (o = some i ∧ o' = none)) → ∀ j, o' = some j → j < s.pcs.length := by
        rintro o o' h (rfl | ⟨-, rfl⟩ | ⟨-, rfl⟩) j hj
        · exact h j hj
        · cases hj; exact hlt
        · cases hj
      exact ⟨key _ _ ho.1 (ran_event_other hl hr), key _ _ ho.2.1 (ran_internal_other hl hr),
        key _ _ ho.2.2.1 (ran_periodic_other hl hr), ho.2.2.2⟩

/-- Everything that always holds. -/
structure All (s : C) : Prop where
  inv : (prog .plain).Inv Glob Loc s
  sleep : Sleep s
  owned : Owned s

/-- Only the timer thread keeps `periodic_wait_mutex_`. -/
theorem All.periodic {s : C} (h : All s) {j : Nat} (hj : s.sh.periodic = some j) : j = 0 := by
  have hlt := h.owned.2.2.1 j hj
  have hx : s.pcs[j]? = some _ := List.getElem?_eq_getElem hlt
  have hl := h.inv.loc j _ hx
  refine hl.timer.1 ?_
  have := hl.periodic.2 hj
  generalize s.pcs[j] = x at this
  cases x <;> first | rfl | cases this

/-- The timer thread is never blocked by `periodic_wait_mutex_`. -/
theorem All.periodic_free {s : C} (h : All s) {x : PC} (hx : s.pcs[0]? = some x) (hp : x.hasPeriodic = false) :
    s.sh.periodic = none := by
  cases hs : s.sh.periodic with
  | none => rfl
  | some j =>
    have := h.periodic hs
    subst this
    rw [(h.inv.loc 0 x hx).periodic.2 hs] at hp
    cases hp

/-- While a callback is set and the thread exists, the timer is active. -/
theorem All.active {s : C} (h : All s) (hs : s.sh.set = true) (ht : s.sh.thread ≠ .none) : s.sh.active = true := by
  cases he : s.sh.event with
  | none => exact ((h.inv.glob.cons he).1 hs).1
  | some j =>
    have hx : s.pcs[j]? = some _ := List.getElem?_eq_getElem (h.owned.1 j he)
    have hl := h.inv.loc j _ hx
    have h1 := hl.event.2 he
    have h2 := hl.efact
    generalize s.pcs[j]'(h.owned.1 j he) = x at h1 h2
    cases x <;> first
      | (cases h1; done)
      | exact (h2.1 hs).1
      | exact (h2.1.1 hs).1
      | exact h2.2.1
      | exact absurd h2.2.2 ht
      | (exfalso; have h3 := h2.1; rw [hs] at h3; cases h3; done)
      | (exfalso; have h3 := h2.2; rw [hs] at h3; cases h3; done)
      | skip
    case setRel was =>
      cases was with
      | true => exact (h2.1.1 hs).1
      | false => exact absurd h2.2.2 ht

/-- While the timer is active the thread has not ended. -/
theorem All.not_ended {s : C} (h : All s) (hs : s.sh.set = true) : s.sh.thread ≠ .ended := by
  intro ht
  cases he : s.sh.event with
  | none =>
    have := ((h.inv.glob.cons he).1 hs).2
    rw [ht] at this
    simp at this
  | some j =>
    have hx : s.pcs[j]? = some _ := List.getElem?_eq_getElem (h.owned.1 j he)
    have hl := h.inv.loc j _ hx
    have h1 := hl.event.2 he
    have h2 := hl.efact
    generalize s.pcs[j]'(h.owned.1 j he) = x at h1 h2
    cases x <;> first
      | (cases h1; done)
      | (simp only [PC.efact, Cons, hs, ht] at h2; simp at h2; done)
      | skip
    case setRel was => cases was <;> (simp only [PC.efact, Cons, hs, ht] at h2; simp at h2)

/-- The thread is neither outside calls nor asleep. -/
def PC.active : PC → Bool
  | .idle | .asleep => false
  | _ => true

theorem active {x : PC} (h : x.active = true) : (prog .plain).Active x := by
  refine ⟨?_, ?_, ?_⟩
  · intro op
    cases x <;> first | rfl | cases h
  · cases x <;> first | rfl | cases h
  · cases x <;> first | rfl | cases h

section
variable {n : Nat} (e : (prog .plain).system.Execution) (hf : e.Fair) (h0 : e.at_ 0 = init .plain n)
include h0

theorem all (m : Nat) : All (e.at_ m) := by
  have hR : (prog .plain).system.Reachable (init .plain n) (e.at_ m) := e.reachable (by rw [h0]; exact .init) m
  exact ⟨inv hR, sleep hR, owned hR⟩

include hf

/-- A step that nothing can block. -/
theorem moves (i : Nat) (x : PC) (hact : x.active = true) (Q : C → Prop)
    (hable : ∀ s : C, All s → s.pcs[i]? = some x → (run .plain i s.sh x).isSome)
    (hdone : ∀ (s : C) (sh : Sh) (y : PC) (b : Bool), All s → s.pcs[i]? = some x → Ran i s.sh x sh y b →
      ∀ s' : C, All s' → s'.sh = sh → s'.pcs[i]? = some y → Q s') :
    e.LeadsTo (fun s => s.pcs[i]? = some x) Q := by
  refine Prog.free_step e hf All (all e h0) i x (active hact) Q hable ?_
  intro s s' hi hi' hx hs
  obtain ⟨sh, y, b, h1, h2, h3⟩ := Prog.stepped_run hs hx
  exact hdone s sh y b hi hx (run_ran h1) s' hi' h2 h3

/-- A step that needs a mutex. -/
theorem takes (free : Sh → Prop) (hfree : e.LeadsTo (fun _ => True) (fun s => free s.sh))
    (i : Nat) (x : PC) (hact : x.active = true) (Q : C → Prop)
    (hable : ∀ s : C, All s → s.pcs[i]? = some x → free s.sh → (run .plain i s.sh x).isSome)
    (hdone : ∀ (s : C) (sh : Sh) (y : PC) (b : Bool), All s → s.pcs[i]? = some x → Ran i s.sh x sh y b →
      ∀ s' : C, All s' → s'.sh = sh → s'.pcs[i]? = some y → Q s') :
    e.LeadsTo (fun s => s.pcs[i]? = some x) Q := by
  refine Prog.acquire e hf All (all e h0) i x (active hact) (fun _ => True) free Q (fun _ _ _ => trivial)
    (fun m _ => hfree m trivial) hable ?_
  intro s s' hi hi' hx hs
  obtain ⟨sh, y, b, h1, h2, h3⟩ := Prog.stepped_run hs hx
  exact hdone s sh y b hi hx (run_ran h1) s' hi' h2 h3

/-- `internal_callback_mutex_` is released again and again. -/
theorem internal_frees : e.LeadsTo (fun _ => True) (fun s => s.sh.internal = none) := by
  have last : ∀ (i : Nat) (x : PC), x = .setRel true ∨ x = .setRel false ∨ x = .unsetRel ∨ x = .eventRel ∨ x = .timerRel →
      e.LeadsTo (fun s => s.pcs[i]? = some x) (fun s => s.sh.internal = none) := by
    intro i x hx
    refine moves e hf h0 i x (by rcases hx with rfl | rfl | rfl | rfl | rfl <;> rfl) _ ?_ ?_
    · intro s _ _
      rcases hx with rfl | rfl | rfl | rfl | rfl <;> rfl
    · intro s sh y b _ _ hr s' _ h2 _
      rw [h2]
      rcases hx with rfl | rfl | rfl | rfl | rfl <;> cases hr <;> rfl
  have mid : ∀ (i : Nat) (x : PC), x = .setFlag ∨ x = .unsetFlag ∨ x = .eventCall ∨ x = .timerCall →
      e.LeadsTo (fun s => s.pcs[i]? = some x) (fun s => s.sh.internal = none) := by
    intro i x hx
    have h1 : e.LeadsTo (fun s => s.pcs[i]? = some x) (fun s => ∃ y, s.pcs[i]? = some y ∧
        (y = .setRel true ∨ y = .setRel false ∨ y = .unsetRel ∨ y = .eventRel ∨ y = .timerRel)) := by
      refine moves e hf h0 i x (by rcases hx with rfl | rfl | rfl | rfl <;> rfl) _ ?_ ?_
      · intro s _ _
        rcases hx with rfl | rfl | rfl | rfl <;> rfl
      · intro s sh y b _ _ hr s' _ _ h3
        refine ⟨y, h3, ?_⟩
        rcases hx with rfl | rfl | rfl | rfl <;> cases hr
        · cases s.sh.set <;> simp
        · simp
        · simp
        · simp
    refine h1.trans fun m ⟨y, hy, hc⟩ => last i y hc m hy
  have first : ∀ (i : Nat) (x : PC), x = .eventTest ∨ x = .timerTest →
      e.LeadsTo (fun s => s.pcs[i]? = some x) (fun s => s.sh.internal = none) := by
    intro i x hx
    have h1 : e.LeadsTo (fun s => s.pcs[i]? = some x) (fun s => ∃ y, s.pcs[i]? = some y ∧
        (y = .eventCall ∨ y = .timerCall ∨ y = .eventRel ∨ y = .timerRel)) := by
      refine moves e hf h0 i x (by rcases hx with rfl | rfl <;> rfl) _ ?_ ?_
      · intro s _ _
        rcases hx with rfl | rfl <;> rfl
      · intro s sh y b _ _ hr s' _ _ h3
        refine ⟨y, h3, ?_⟩
        rcases hx with rfl | rfl <;> cases hr <;> simp
    refine h1.trans fun m ⟨y, hy, hc⟩ => ?_
    rcases hc with rfl | rfl | rfl | rfl
    · exact mid i _ (by simp) m hy
    · exact mid i _ (by simp) m hy
    · exact last i _ (by simp) m hy
    · exact last i _ (by simp) m hy
  intro m _
  cases hs : (e.at_ m).sh.internal with
  | none => exact ⟨m, Nat.le_refl m, hs⟩
  | some j =>
    have hA := all e h0 m
    have hx : (e.at_ m).pcs[j]? = some _ := List.getElem?_eq_getElem (hA.owned.2.1 j hs)
    have hh := (hA.inv.loc j _ hx).internal.2 hs
    generalize (e.at_ m).pcs[j]'(hA.owned.2.1 j hs) = x at hx hh
    cases x with
    | setRel was => cases was <;> exact last j _ (by simp) m hx
    | setFlag => exact mid j _ (by simp) m hx
    | unsetFlag => exact mid j _ (by simp) m hx
    | unsetRel => exact last j _ (by simp) m hx
    | eventTest => exact first j _ (by simp) m hx
    | eventCall => exact mid j _ (by simp) m hx
    | eventRel => exact last j _ (by simp) m hx
    | timerTest => exact first j _ (by simp) m hx
    | timerCall => exact mid j _ (by simp) m hx
    | timerRel => exact last j _ (by simp) m hx
    | _ => cases hh

/-- From one place of the timer thread to the next. -/
theorem next (i : Nat) (x : PC) (hact : x.active = true) (Q : C → Prop) (P : PC → Prop)
    (hable : ∀ s : C, All s → s.pcs[i]? = some x → (run .plain i s.sh x).isSome)
    (hy : ∀ (s : C) (sh : Sh) (y : PC) (b : Bool), All s → s.pcs[i]? = some x → Ran i s.sh x sh y b → P y)
    (hP : ∀ y, P y → e.LeadsTo (fun s => s.pcs[i]? = some y) Q) :
    e.LeadsTo (fun s => s.pcs[i]? = some x) Q := by
  have h1 : e.LeadsTo (fun s => s.pcs[i]? = some x) (fun s => ∃ y, s.pcs[i]? = some y ∧ P y) := by
    refine moves e hf h0 i x hact _ hable ?_
    intro s sh y b hA hx hr s' _ _ h3
    exact ⟨y, h3, hy s sh y b hA hx hr⟩
  exact h1.trans fun m ⟨y, hy, hc⟩ => hP y hc m hy

/-- The same for a step that needs `internal_callback_mutex_`. -/
theorem next_internal (i : Nat) (x : PC) (hact : x.active = true) (Q : C → Prop) (P : PC → Prop)
    (hable : ∀ s : C, All s → s.pcs[i]? = some x → s.sh.internal = none → (run .plain i s.sh x).isSome)
    (hy : ∀ (s : C) (sh : Sh) (y : PC) (b : Bool), All s → s.pcs[i]? = some x → Ran i s.sh x sh y b → P y)
    (hP : ∀ y, P y → e.LeadsTo (fun s => s.pcs[i]? = some y) Q) :
    e.LeadsTo (fun s => s.pcs[i]? = some x) Q := by
  have h1 : e.LeadsTo (fun s => s.pcs[i]? = some x) (fun s => ∃ y, s.pcs[i]? = some y ∧ P y) := by
    refine takes e hf h0 (fun s => s.internal = none) (internal_frees e hf h0) i x hact _ hable ?_
    intro s sh y b hA hx hr s' _ _ h3
    exact ⟨y, h3, hy s sh y b hA hx hr⟩
  exact h1.trans fun m ⟨y, hy, hc⟩ => hP y hc m hy

/-- A thread that has begun to process an event finishes that. -/
theorem timer_event (x : PC) (hx : x = .timerLock ∨ x = .timerTest ∨ x = .timerCall ∨ x = .timerRel ∨ x = .unlock) :
    e.LeadsTo (fun s => s.pcs[0]? = some x) (fun s => s.pcs[0]? = some .loop) := by
  have h5 : e.LeadsTo (fun s => s.pcs[0]? = some .unlock) (fun s => s.pcs[0]? = some .loop) := by
    refine moves e hf h0 0 _ rfl _ (fun _ _ _ => rfl) ?_
    intro s sh y b _ _ hr s' _ _ h3
    cases hr
    exact h3
  have h4 := next e hf h0 0 .timerRel rfl _ (fun y => y = .unlock) (fun _ _ _ => rfl)
    (fun _ _ _ _ _ _ hr => by cases hr; rfl) (fun y hy => by subst hy; exact h5)
  have h3 := next e hf h0 0 .timerCall rfl _ (fun y => y = .timerRel) (fun _ _ _ => rfl)
    (fun _ _ _ _ _ _ hr => by cases hr; rfl) (fun y hy => by subst hy; exact h4)
  have h2 := next e hf h0 0 .timerTest rfl _ (fun y => y = .timerCall ∨ y = .timerRel) (fun _ _ _ => rfl)
    (fun _ _ _ _ _ _ hr => by cases hr <;> simp) (fun y hy => by rcases hy with rfl | rfl; exact h3; exact h4)
  have h1 := next_internal e hf h0 0 .timerLock rfl _ (fun y => y = .timerTest)
    (fun s _ _ hi => by simp only [run, hi]; rfl)
    (fun _ _ _ _ _ _ hr => by cases hr; rfl) (fun y hy => by subst hy; exact h2)
  rcases hx with rfl | rfl | rfl | rfl | rfl
  · exact h1
  · exact h2
  · exact h3
  · exact h4
  · exact h5

/-- `periodic_wait_mutex_` is released again and again. -/
theorem periodic_frees : e.LeadsTo (fun _ => True) (fun s => s.sh.periodic = none) := by
  have ev : ∀ x, (x = .timerLock ∨ x = .timerTest ∨ x = .timerCall ∨ x = .timerRel ∨ x = .unlock) →
      e.LeadsTo (fun s => s.pcs[0]? = some x) (fun s => s.sh.periodic = none) := by
    intro x hx m hm
    obtain ⟨k, hk, h⟩ := timer_event e hf h0 x hx m hm
    exact ⟨k, hk, (all e h0 k).periodic_free h rfl⟩
  have check : e.LeadsTo (fun s => s.pcs[0]? = some .check) (fun s => s.sh.periodic = none) := by
    have h1 : e.LeadsTo (fun s => s.pcs[0]? = some .check)
        (fun s => s.pcs[0]? = some .timerLock ∨ s.sh.periodic = none) := by
      refine moves e hf h0 0 _ rfl _ (fun s _ _ => by simp only [run]; split <;> rfl) ?_
      intro s sh y b _ _ hr s' _ h2 h3
      cases hr
      · exact Or.inl h3
      · exact Or.inr (by rw [h2])
    exact h1.trans ((ev _ (by simp)).or (.refl e fun _ h => h))
  have test : e.LeadsTo (fun s => s.pcs[0]? = some .test) (fun s => s.sh.periodic = none) := by
    have h1 : e.LeadsTo (fun s => s.pcs[0]? = some .test)
        (fun s => s.pcs[0]? = some .check ∨ s.sh.periodic = none) := by
      refine moves e hf h0 0 _ rfl _ (fun s _ _ => by simp only [run]; split <;> rfl) ?_
      intro s sh y b _ _ hr s' _ h2 h3
      cases hr
      · exact Or.inr (by rw [h2])
      · exact Or.inl h3
    exact h1.trans (check.or (.refl e fun _ h => h))
  intro m _
  cases hs : (e.at_ m).sh.periodic with
  | none => exact ⟨m, Nat.le_refl m, hs⟩
  | some j =>
    have hA := all e h0 m
    have := hA.periodic hs
    subst this
    have hx : (e.at_ m).pcs[0]? = some _ := List.getElem?_eq_getElem (hA.owned.2.2.1 0 hs)
    have hh := (hA.inv.loc 0 _ hx).periodic.2 hs
    generalize (e.at_ m).pcs[0]'(hA.owned.2.2.1 0 hs) = x at hx hh
    cases x with
    | test => exact test m hx
    | check => exact check m hx
    | timerLock => exact ev _ (by simp) m hx
    | timerTest => exact ev _ (by simp) m hx
    | timerCall => exact ev _ (by simp) m hx
    | timerRel => exact ev _ (by simp) m hx
    | unlock => exact ev _ (by simp) m hx
    | _ => cases hh

/-- The timer thread ends when it is joined. -/
theorem timer_ends (i : Nat) :
    e.LeadsTo (fun s => s.pcs[i]? = some .unsetJoin ∧ ¬ s.sh.thread = .ended) (fun s => s.sh.thread = .ended) := by
  -- the thread that joins stays where it is
  have stay : ∀ m, (e.at_ m).pcs[i]? = some .unsetJoin → ∀ k, m ≤ k →
      (e.at_ k).pcs[i]? = some .unsetJoin ∨ ∃ k', m ≤ k' ∧ (e.at_ k').sh.thread = .ended := by
    intro m hm k hk
    induction hk with
    | refl => exact Or.inl hm
    | step hk ih =>
      rename_i k
      rcases ih with ih | ih
      · rcases e.next k with ⟨-, h⟩ | ⟨l, -, h⟩
        · rw [h]; exact Or.inl ih
        · by_cases hl : l = .run i
          · subst hl
            obtain ⟨sh, y, b, h1, h2, h3⟩ := Prog.stepped_run (Prog.step_stepped h) ih
            have hr := run_ran (i := i) (x := .unsetJoin) h1
            cases hr with
            | unsetJoin ht => exact Or.inr ⟨k, hk, ht⟩
          · exact Or.inl (Prog.frame_active (Prog.step_stepped h) ih (active rfl) hl)
      · exact Or.inr ih
  have step : ∀ (x : PC) (Q : C → Prop), e.LeadsTo (fun s => s.pcs[0]? = some x) Q →
      (∀ k, Q (e.at_ k) → (e.at_ k).pcs[i]? = some .unsetJoin → ∃ k', k ≤ k' ∧ (e.at_ k').sh.thread = .ended) →
      ∀ m, (e.at_ m).pcs[i]? = some .unsetJoin → (e.at_ m).pcs[0]? = some x →
        ∃ k', m ≤ k' ∧ (e.at_ k').sh.thread = .ended := by
    intro x Q h1 h2 m hm hx
    obtain ⟨k, hk, hq⟩ := h1 m hx
    rcases stay m hm k hk with h | h
    · obtain ⟨k', hk', h⟩ := h2 k hq h
      exact ⟨k', Nat.le_trans hk hk', h⟩
    · exact h
  have fin : ∀ m, (e.at_ m).pcs[i]? = some .unsetJoin → (e.at_ m).pcs[0]? = some .finish →
      ∃ k', m ≤ k' ∧ (e.at_ k').sh.thread = .ended := by
    refine step .finish (fun s => s.sh.thread = .ended) ?_ (fun k h _ => ⟨k, Nat.le_refl k, h⟩)
    refine moves e hf h0 0 _ rfl _ (fun _ _ _ => rfl) ?_
    intro s sh y b _ _ hr s' _ h2 _
    cases hr
    rw [h2]
  have inact : ∀ m, (e.at_ m).pcs[i]? = some .unsetJoin → (e.at_ m).sh.active = false :=
    fun m hm => ((all e h0 m).inv.loc i _ hm).efact.2.1
  -- at an unblocked place with an inactive timer
  have via : ∀ (x : PC) (P : PC → Prop), x.active = true →
      (∀ s : C, All s → s.pcs[0]? = some x → s.sh.active = false → (run .plain 0 s.sh x).isSome) →
      (∀ (s : C) (sh : Sh) (y : PC) (b : Bool), s.sh.active = false → Ran 0 s.sh x sh y b → P y) →
      (∀ y, P y → ∀ m, (e.at_ m).pcs[i]? = some .unsetJoin → (e.at_ m).pcs[0]? = some y →
        ∃ k', m ≤ k' ∧ (e.at_ k').sh.thread = .ended) →
      ∀ m, (e.at_ m).pcs[i]? = some .unsetJoin → (e.at_ m).pcs[0]? = some x →
        ∃ k', m ≤ k' ∧ (e.at_ k').sh.thread = .ended := by
    intro x P hact hable hy hP m hm hx
    have h1 : e.LeadsTo (fun s => s.pcs[0]? = some x ∧ s.pcs[i]? = some .unsetJoin)
        (fun s => s.sh.thread = .ended ∨ (s.pcs[i]? = some .unsetJoin ∧ ∃ y, s.pcs[0]? = some y ∧ P y)) := by
      refine Prog.runs' e hf All (all e h0) 0 x (active hact) (fun s => s.pcs[i]? = some .unsetJoin) _ ?_ ?_ ?_
      · intro s l s' hA hA' hx hj hs hl
        by_cases hli : l = .run i
        · subst hli
          obtain ⟨sh, y, b, g1, g2, g3⟩ := Prog.stepped_run hs hj
          have hr := run_ran (i := i) (x := .unsetJoin) g1
          cases hr with
          | unsetJoin ht =>
            exfalso
            have hn := (hA.inv.loc 0 x hx).tfact
            have hl0 := (hA.inv.loc 0 x hx).timer.2 rfl
            have := hable s hA hx (hA.inv.loc i _ hj).efact.2.1
            cases x <;> first
              | (cases hl0; done)
              | (simp only [PC.tfact, ht] at hn; simp at hn; done)
              | (simp only [run, ht] at this; simp at this; done)
        · exact Or.inl (Prog.frame_active hs hj (active rfl) hli)
      · intro s hA hx hj
        exact hable s hA hx (hA.inv.loc i _ hj).efact.2.1
      · intro s s' hA hA' hx hj hs
        obtain ⟨sh, y, b, g1, g2, g3⟩ := Prog.stepped_run hs hx
        have hi0 : i ≠ 0 := by
          rintro rfl
          rw [hx] at hj
          cases hj
          have := (hA.inv.loc 0 _ hx).timer.2 rfl
          cases this
        refine Or.inr ⟨Prog.frame_active hs hj (active rfl) (fun h => by cases h; exact hi0 rfl), y, g3, ?_⟩
        exact hy s sh y b (hA.inv.loc i _ hj).efact.2.1 (run_ran (i := 0) (x := x) g1)
    obtain ⟨k, hk, h⟩ := h1 m ⟨hx, hm⟩
    rcases h with h | ⟨g1, y, g2, g3⟩
    · exact ⟨k, hk, h⟩
    · obtain ⟨k', hk', h⟩ := hP y g3 k g1 g2
      exact ⟨k', Nat.le_trans hk hk', h⟩
  have loop := via .loop (fun y => y = .finish) rfl (fun _ _ _ _ => rfl)
    (fun s sh y b ha hr => by cases hr with | loopYes h => (rw [ha] at h; cases h) | loopNo h => rfl)
    (fun y hy => by subst hy; exact fin)
  have check := via .check (fun y => y = .finish) rfl
    (fun s _ _ ha => by simp only [run, ha]; rfl)
    (fun s sh y b ha hr => by cases hr with | checkYes h => (rw [ha] at h; cases h) | checkNo h => rfl)
    (fun y hy => by subst hy; exact fin)
  have test := via .test (fun y => y = .check) rfl
    (fun s _ _ ha => by simp only [run, ha]; rfl)
    (fun s sh y b ha hr => by cases hr with | sleep h => (rw [ha] at h; cases h) | stay h => rfl)
    (fun y hy => by subst hy; exact check)
  have lock := via .lock (fun y => y = .test) rfl
    (fun s hA hx _ => by simp only [run, hA.periodic_free hx rfl]; rfl)
    (fun s sh y b ha hr => by cases hr; rfl) (fun y hy => by subst hy; exact test)
  have again := via .again (fun y => y = .test) rfl
    (fun s hA hx _ => by simp only [run, hA.periodic_free hx rfl]; rfl)
    (fun s sh y b ha hr => by cases hr; rfl) (fun y hy => by subst hy; exact test)
  have late := via .late (fun y => y = .check) rfl
    (fun s hA hx _ => by simp only [run, hA.periodic_free hx rfl]; rfl)
    (fun s sh y b ha hr => by cases hr; rfl) (fun y hy => by subst hy; exact check)
  have ev : ∀ x, (x = .timerLock ∨ x = .timerTest ∨ x = .timerCall ∨ x = .timerRel ∨ x = .unlock) →
      ∀ m, (e.at_ m).pcs[i]? = some .unsetJoin → (e.at_ m).pcs[0]? = some x →
        ∃ k', m ≤ k' ∧ (e.at_ k').sh.thread = .ended :=
    fun x hx => step x _ (timer_event e hf h0 x hx) (fun k h1 h2 => loop k h2 h1)
  rintro m ⟨hm, hne⟩
  have hA := all e h0 m
  have hx : (e.at_ m).pcs[0]? = some _ := List.getElem?_eq_getElem hA.owned.2.2.2
  have hl := hA.inv.loc 0 _ hx
  have ht := hl.timer.2 rfl
  have htf := hl.tfact
  have hnn : (e.at_ m).sh.thread ≠ .none := (hA.inv.loc i _ hm).efact.2.2
  generalize (e.at_ m).pcs[0]'(hA.owned.2.2.2) = x at hx ht htf
  cases x with
  | off =>
    -- the thread has been created and not run yet
    have hsp : (e.at_ m).sh.thread = .spawned := by
      cases h : (e.at_ m).sh.thread with
      | none => exact absurd h hnn
      | spawned => rfl
      | running => exact absurd h htf
      | ended => exact absurd h hne
    have h1 : e.LeadsTo (fun s => s.pcs[0]? = some .off ∧ (s.pcs[i]? = some .unsetJoin ∧ s.sh.thread = .spawned))
        (fun s => s.pcs[i]? = some .unsetJoin ∧ s.pcs[0]? = some .loop) := by
      refine Prog.runs' e hf All (all e h0) 0 .off (active rfl)
        (fun s => s.pcs[i]? = some .unsetJoin ∧ s.sh.thread = .spawned) _ ?_ ?_ ?_
      · rintro s l s' hA hA' hx ⟨hj, hsp⟩ hs hl
        have hli : l ≠ .run i := by
          rintro rfl
          obtain ⟨sh, y, b, g1, g2, g3⟩ := Prog.stepped_run hs hj
          have hr := run_ran (i := i) (x := .unsetJoin) g1
          cases hr with
          | unsetJoin ht => rw [hsp] at ht; cases ht
        refine Or.inl ⟨Prog.frame_active hs hj (active rfl) hli, ?_⟩
        rcases Prog.stepped_sh hs with h | ⟨k, w, y, b, el, hw, hr⟩
        · rw [h]; exact hsp
        · have hr := run_ran (i := k) (x := w) hr
          have hlw := hA.inv.loc k w hw
          have hki : k ≠ i := fun h => hli (by rw [el, h])
          have hk0 : k ≠ 0 := fun h => hl (by rw [el, h])
          have hwt : w.timer = false := by
            cases h : w.timer with
            | false => rfl
            | true => exact absurd (hlw.timer.1 h) hk0
          have hwe : w.hasEvent = false := by
            cases h : w.hasEvent with
            | false => rfl
            | true =>
              exact absurd (Option.some.inj ((hlw.event.1 h).symm.trans ((hA.inv.loc i _ hj).event.1 rfl))) hki
          rcases ran_flags hr hwe with ⟨-, -, h⟩ | rfl | rfl
          · rw [h]; exact hsp
          · cases hwt
          · cases hwt
      · rintro s hA hx ⟨hj, hsp⟩
        show (run .plain 0 s.sh .off).isSome
        simp only [run, hsp]
        rfl
      · rintro s s' hA hA' hx ⟨hj, hsp⟩ hs
        obtain ⟨sh, y, b, g1, g2, g3⟩ := Prog.stepped_run hs hx
        have hr := run_ran (i := 0) (x := .off) g1
        cases hr
        have hi0 : i ≠ 0 := by
          rintro rfl
          rw [hx] at hj
          cases hj
        exact ⟨Prog.frame_active hs hj (active rfl) (fun h => by cases h; exact hi0 rfl), g3⟩
    obtain ⟨k, hk, g1, g2⟩ := h1 m ⟨hx, hm, hsp⟩
    obtain ⟨k', hk', h⟩ := loop k g1 g2
    exact ⟨k', Nat.le_trans hk hk', h⟩
  | loop => exact loop m hm hx
  | lock => exact lock m hm hx
  | test => exact test m hm hx
  | asleep =>
    exfalso
    rcases hA.sleep 0 .asleep hx rfl with h | ⟨k, w, hw, rfl⟩
    · rw [inact m hm] at h; cases h
    · have h1 := (hA.inv.loc k _ hw).event.1 rfl
      have h2 := (hA.inv.loc i _ hm).event.1 rfl
      rw [h1] at h2
      cases h2
      rw [hm] at hw
      cases hw
  | again => exact again m hm hx
  | late => exact late m hm hx
  | check => exact check m hm hx
  | timerLock => exact ev _ (by simp) m hm hx
  | timerTest => exact ev _ (by simp) m hm hx
  | timerCall => exact ev _ (by simp) m hm hx
  | timerRel => exact ev _ (by simp) m hm hx
  | unlock => exact ev _ (by simp) m hm hx
  | finish => exact fin m hm hx
  | _ => cases ht

/-- A thread with `event_mutex_` returns from its call. -/
theorem event_returns (i : Nat) (x : PC) (hx : x.hasEvent = true) :
    e.LeadsTo (fun s => s.pcs[i]? = some x) (fun s => s.pcs[i]? = some .idle ∧ s.sh.event = none) := by
  have out : ∀ x, (x = .setOut ∨ x = .unsetOut) →
      e.LeadsTo (fun s => s.pcs[i]? = some x) (fun s => s.pcs[i]? = some .idle ∧ s.sh.event = none) := by
    intro x hx
    refine moves e hf h0 i x (by rcases hx with rfl | rfl <;> rfl) _
      (fun _ _ _ => by rcases hx with rfl | rfl <;> rfl) ?_
    intro s sh y b _ _ hr s' _ h2 h3
    rcases hx with rfl | rfl <;> cases hr <;> exact ⟨h3, by rw [h2]⟩
  have spawn := next e hf h0 i .setSpawn rfl _ (fun y => y = .setOut) (fun _ _ _ => rfl)
    (fun _ _ _ _ _ _ hr => by cases hr; rfl) (fun y hy => by subst hy; exact out _ (Or.inl rfl))
  have start : e.LeadsTo (fun s => s.pcs[i]? = some .setStart)
      (fun s => s.pcs[i]? = some .idle ∧ s.sh.event = none) := by
    refine System.Execution.LeadsTo.trans ?_ spawn
    refine takes e hf h0 (fun s => s.periodic = none) (periodic_frees e hf h0) i _ rfl _
      (fun s _ _ h => by simp only [run, h]; rfl) ?_
    intro s sh y b _ _ hr s' _ _ h3
    cases hr
    exact h3
  have rel := fun was => next e hf h0 i (.setRel was) rfl _ (fun y => y = .setOut ∨ y = .setStart) (fun _ _ _ => rfl)
    (fun _ _ _ _ _ _ hr => by cases hr <;> simp)
    (fun y hy => by rcases hy with rfl | rfl; exact out _ (Or.inl rfl); exact start)
  have flag := next e hf h0 i .setFlag rfl _ (fun y => ∃ was, y = .setRel was) (fun _ _ _ => rfl)
    (fun _ _ _ _ _ _ hr => by cases hr; exact ⟨_, rfl⟩) (fun y hy => by obtain ⟨was, rfl⟩ := hy; exact rel was)
  have int := next_internal e hf h0 i .setInternal rfl _ (fun y => y = .setFlag)
    (fun s _ _ h => by simp only [run, h]; rfl)
    (fun _ _ _ _ _ _ hr => by cases hr; rfl) (fun y hy => by subst hy; exact flag)
  have join : e.LeadsTo (fun s => s.pcs[i]? = some .unsetJoin)
      (fun s => s.pcs[i]? = some .idle ∧ s.sh.event = none) := by
    refine System.Execution.LeadsTo.trans ?_ (out .unsetOut (Or.inr rfl))
    refine Prog.acquire e hf All (all e h0) i .unsetJoin (active rfl) (fun s => s.pcs[i]? = some .unsetJoin)
      (fun s => s.thread = .ended) _ (fun _ _ h => h) (timer_ends e hf h0 i) ?_ ?_
    · intro s _ _ h
      show (run .plain i s.sh .unsetJoin).isSome
      simp only [run, h]
      rfl
    · intro s s' _ _ hx hs
      obtain ⟨sh, y, b, h1, h2, h3⟩ := Prog.stepped_run hs hx
      have hr := run_ran (i := i) (x := .unsetJoin) h1
      cases hr
      exact h3
  have notify := next e hf h0 i .unsetNotify rfl _ (fun y => y = .unsetJoin) (fun _ _ _ => rfl)
    (fun _ _ _ _ _ _ hr => by cases hr; rfl) (fun y hy => by subst hy; exact join)
  have stop : e.LeadsTo (fun s => s.pcs[i]? = some .unsetStop)
      (fun s => s.pcs[i]? = some .idle ∧ s.sh.event = none) := by
    refine System.Execution.LeadsTo.trans ?_ notify
    refine takes e hf h0 (fun s => s.periodic = none) (periodic_frees e hf h0) i _ rfl _
      (fun s _ _ h => by simp only [run, h]; rfl) ?_
    intro s sh y b _ _ hr s' _ _ h3
    cases hr
    exact h3
  have urel := next e hf h0 i .unsetRel rfl _ (fun y => y = .unsetStop) (fun _ _ _ => rfl)
    (fun _ _ _ _ _ _ hr => by cases hr; rfl) (fun y hy => by subst hy; exact stop)
  have uflag := next e hf h0 i .unsetFlag rfl _ (fun y => y = .unsetRel) (fun _ _ _ => rfl)
    (fun _ _ _ _ _ _ hr => by cases hr; rfl) (fun y hy => by subst hy; exact urel)
  have uint := next_internal e hf h0 i .unsetInternal rfl _ (fun y => y = .unsetFlag)
    (fun s _ _ h => by simp only [run, h]; rfl)
    (fun _ _ _ _ _ _ hr => by cases hr; rfl) (fun y hy => by subst hy; exact uflag)
  have utest := next e hf h0 i .unsetTest rfl _ (fun y => y = .unsetInternal ∨ y = .unsetOut) (fun _ _ _ => rfl)
    (fun _ _ _ _ _ _ hr => by cases hr <;> simp)
    (fun y hy => by rcases hy with rfl | rfl; exact uint; exact out _ (Or.inr rfl))
  cases x with
  | setInternal => exact int
  | setFlag => exact flag
  | setRel was => exact rel was
  | setStart => exact start
  | setSpawn => exact spawn
  | setOut => exact out _ (Or.inl rfl)
  | unsetTest => exact utest
  | unsetInternal => exact uint
  | unsetFlag => exact uflag
  | unsetRel => exact urel
  | unsetStop => exact stop
  | unsetNotify => exact notify
  | unsetJoin => exact join
  | unsetOut => exact out _ (Or.inr rfl)
  | _ => cases hx

theorem event_frees : e.LeadsTo (fun _ => True) (fun s => s.sh.event = none) := by
  intro m _
  cases hs : (e.at_ m).sh.event with
  | none => exact ⟨m, Nat.le_refl m, hs⟩
  | some j =>
    have hA := all e h0 m
    have hx : (e.at_ m).pcs[j]? = some _ := List.getElem?_eq_getElem (hA.owned.1 j hs)
    obtain ⟨k, hk, h⟩ := event_returns e hf h0 j _ ((hA.inv.loc j _ hx).event.2 hs) m hx
    exact ⟨k, hk, h.2⟩

/-- C75: under fair scheduling every call of `set_callback`, `unset_callback` (and so the destructor) and
`simulate_event_occurred` returns: whatever a client is doing, it is outside any call some time later. -/
theorem C75_returns (i : Nat) (hi : i ≠ 0) :
    e.LeadsTo (fun s => i < s.pcs.length) (fun s => s.pcs[i]? = some .idle) := by
  have ev : ∀ x, x.hasEvent = true → e.LeadsTo (fun s => s.pcs[i]? = some x) (fun s => s.pcs[i]? = some .idle) :=
    fun x hx => (event_returns e hf h0 i x hx).mono (fun _ h => h) (fun _ h => h.1)
  have acq : ∀ x y, x.active = true → (∀ s : Sh, s.event = none → (run .plain i s x).isSome) →
      (∀ (s sh : Sh) z b, Ran i s x sh z b → z = y) → y.hasEvent = true →
      e.LeadsTo (fun s => s.pcs[i]? = some x) (fun s => s.pcs[i]? = some .idle) := by
    intro x y hact hable hdone hy
    refine System.Execution.LeadsTo.trans ?_ (ev y hy)
    refine takes e hf h0 (fun s => s.event = none) (event_frees e hf h0) i x hact _ (fun s _ _ h => hable _ h) ?_
    intro s sh z b _ _ hr s' _ _ h3
    rw [h3, hdone _ _ _ _ hr]
  have set := acq .setLock .setInternal rfl (fun s h => by simp only [run, h]; rfl)
    (fun s sh z b hr => by cases hr; rfl) rfl
  have unset := acq .unsetLock .unsetTest rfl (fun s h => by simp only [run, h]; rfl)
    (fun s sh z b hr => by cases hr; rfl) rfl
  have erel : e.LeadsTo (fun s => s.pcs[i]? = some .eventRel) (fun s => s.pcs[i]? = some .idle) := by
    refine moves e hf h0 i _ rfl _ (fun _ _ _ => rfl) ?_
    intro s sh y b _ _ hr s' _ _ h3
    cases hr
    exact h3
  have ecall := next e hf h0 i .eventCall rfl _ (fun y => y = .eventRel) (fun _ _ _ => rfl)
    (fun _ _ _ _ _ _ hr => by cases hr; rfl) (fun y hy => by subst hy; exact erel)
  have etest := next e hf h0 i .eventTest rfl _ (fun y => y = .eventCall ∨ y = .eventRel) (fun _ _ _ => rfl)
    (fun _ _ _ _ _ _ hr => by cases hr <;> simp) (fun y hy => by rcases hy with rfl | rfl; exact ecall; exact erel)
  have elock := next_internal e hf h0 i .eventLock rfl _ (fun y => y = .eventTest)
    (fun s _ _ h => by simp only [run, h]; rfl)
    (fun _ _ _ _ _ _ hr => by cases hr; rfl) (fun y hy => by subst hy; exact etest)
  intro m hm
  have hA := all e h0 m
  have hx : (e.at_ m).pcs[i]? = some _ := List.getElem?_eq_getElem hm
  have hl := hA.inv.loc i _ hx
  have ht : ¬ ((e.at_ m).pcs[i]).timer = true := fun h => hi (hl.timer.1 h)
  have hef := hl.efact
  generalize (e.at_ m).pcs[i] = x at hx ht hef
  cases x with
  | idle => exact ⟨m, Nat.le_refl m, hx⟩
  | setLock => exact set m hx
  | unsetLock => exact unset m hx
  | eventLock => exact elock m hx
  | eventTest => exact etest m hx
  | eventCall => exact ecall m hx
  | eventRel => exact erel m hx
  | _ => first | exact ev _ rfl m hx | exact absurd rfl ht | exact hef.elim

/-- C96: under fair scheduling, and if a thread asleep in `wait_for` does not sleep longer than the period, a callback
that is set is called again, unless it is unset before. -/
theorem C96_ticks
    (hexp : ∀ m, (e.at_ m).pcs[0]? = some .asleep →
      ∃ k, m ≤ k ∧ (e.label k = some (.timeout 0) ∨ (e.at_ k).sh.set = false)) (c : Nat) :
    e.LeadsTo (fun s => s.sh.set = true ∧ s.sh.calls = c) (fun s => s.sh.calls > c ∨ s.sh.set = false) := by
  let K : C → Prop := fun s => s.sh.set = true ∧ s.sh.calls = c
  let Q : C → Prop := fun s => s.sh.calls > c ∨ s.sh.set = false
  have keep : ∀ s l s', All s → All s' → K s → (prog .plain).Stepped s l s' → K s' ∨ Q s' := by
    rintro s l s' _ _ ⟨h1, h2⟩ hs
    have hc : s'.sh.calls = s.sh.calls ∨ s'.sh.calls = s.sh.calls + 1 := by
      rcases Prog.stepped_sh hs with h | ⟨i, x, y, b, -, hx, hr⟩
      · rw [h]; exact Or.inl rfl
      · have hr := run_ran (i := i) (x := x) hr
        generalize s'.sh = sh' at hr
        cases hr <;> first | exact Or.inl rfl | exact Or.inr rfl
    cases hb : s'.sh.set with
    | false => exact Or.inr (Or.inr hb)
    | true =>
      rcases hc with h | h
      · exact Or.inl ⟨hb, h.trans h2⟩
      · exact Or.inr (Or.inl (by omega))
  -- until then `K` holds
  have still : ∀ m, K (e.at_ m) → ∀ k, m ≤ k → K (e.at_ k) ∨ ∃ k', m ≤ k' ∧ Q (e.at_ k') := by
    intro m hm k hk
    induction hk with
    | refl => exact Or.inl hm
    | step hk ih =>
      rename_i k
      rcases ih with ih | ih
      · rcases e.next k with ⟨-, h⟩ | ⟨l, -, h⟩
        · rw [h]; exact Or.inl ih
        · rcases keep _ _ _ (all e h0 k) (all e h0 (k + 1)) ih (Prog.step_stepped h) with h | h
          · exact Or.inl h
          · exact Or.inr ⟨k + 1, Nat.le_succ_of_le hk, h⟩
      · exact Or.inr ih
  have act : ∀ (s : C) (x : PC), All s → s.pcs[0]? = some x → x ≠ .off → K s → s.sh.active = true := by
    intro s x hA hx hne hk
    refine hA.active hk.1 fun hn => ?_
    have hl := hA.inv.loc 0 x hx
    have h1 := hl.timer.2 rfl
    have h2 := hl.tfact
    cases x <;> first
      | exact absurd rfl hne
      | (cases h1; done)
      | (simp only [PC.tfact, hn] at h2; simp at h2; done)
  -- from one place of the timer thread to the next
  have via : ∀ (x y : PC), x.active = true →
      (∀ s : C, All s → K s → s.pcs[0]? = some x → (run .plain 0 s.sh x).isSome) →
      (∀ (s : C) (sh : Sh) (z : PC) (b : Bool), All s → K s → s.pcs[0]? = some x → Ran 0 s.sh x sh z b →
        z = y ∨ sh.calls > c) →
      e.LeadsTo (fun s => s.pcs[0]? = some y ∧ K s) Q → e.LeadsTo (fun s => s.pcs[0]? = some x ∧ K s) Q := by
    intro x y hact hable hdone hy
    have h1 : e.LeadsTo (fun s => s.pcs[0]? = some x ∧ K s) (fun s => Q s ∨ (s.pcs[0]? = some y ∧ K s)) := by
      refine Prog.move e hf All (all e h0) 0 x (active hact) K _ ?_ hable ?_
      · intro s l s' h1 h2 h3 h4
        rcases keep s l s' h1 h2 h3 h4 with h | h
        · exact Or.inl h
        · exact Or.inr (Or.inl h)
      · intro s s' z b hA _ hk hx hr hz hk'
        rcases hdone s s'.sh z b hA hk hx (run_ran (i := 0) (x := x) hr) with rfl | h
        · exact Or.inr ⟨hz, hk'⟩
        · exact Or.inl (Or.inl h)
    exact h1.trans (System.Execution.LeadsTo.or (.refl e fun _ h => h) hy)
  have call : e.LeadsTo (fun s => s.pcs[0]? = some .timerCall ∧ K s) Q := by
    refine Prog.move e hf All (all e h0) 0 .timerCall (active rfl) K _ keep (fun _ _ _ _ => rfl) ?_
    intro s s' z b hA _ hk hx hr hz hk'
    have hr := run_ran (i := 0) (x := .timerCall) hr
    have h1 := hk.2
    have h2 := hk'.2
    generalize s'.sh = sh' at hr h2
    cases hr
    exfalso
    have h2 : s.sh.calls + 1 = c := h2
    omega
  have test := via .timerTest .timerCall rfl (fun _ _ _ _ => rfl)
    (fun s sh z b _ hk _ hr => by
      cases hr with
      | timerYes _ => exact Or.inl rfl
      | timerNo h => rw [hk.1] at h; cases h) call
  have lock : e.LeadsTo (fun s => s.pcs[0]? = some .timerLock ∧ K s) Q := by
    rintro m ⟨hx, hk⟩
    obtain ⟨k, hk1, h⟩ := takes e hf h0 (fun s => s.internal = none) (internal_frees e hf h0) 0 .timerLock rfl
      (fun s => s.pcs[0]? = some .timerTest) (fun s _ _ h => by simp only [run, h]; rfl)
      (fun s sh y b _ _ hr s' _ _ h3 => by cases hr; exact h3) m hx
    rcases still m hk k hk1 with h' | h'
    · obtain ⟨k', hk', h⟩ := test k ⟨h, h'⟩
      exact ⟨k', Nat.le_trans hk1 hk', h⟩
    · exact h'
  have check := via .check .timerLock rfl
    (fun s hA hk hx => by simp only [run, act s _ hA hx nofun hk]; rfl)
    (fun s sh z b hA hk hx hr => by
      cases hr with
      | checkYes _ => exact Or.inl rfl
      | checkNo h => rw [act s _ hA hx nofun hk] at h; cases h) lock
  have late := via .late .check rfl (fun s hA _ hx => by simp only [run, hA.periodic_free hx rfl]; rfl)
    (fun s sh z b _ _ _ hr => by cases hr; exact Or.inl rfl) check
  have asleep : e.LeadsTo (fun s => s.pcs[0]? = some .asleep ∧ K s) Q := by
    rintro m ⟨hx, hk⟩
    obtain ⟨k, hk1, h⟩ := hexp m hx
    rcases h with h | h
    · rcases still m hk (k + 1) (Nat.le_succ_of_le hk1) with h' | h'
      · have hl : (e.at_ (k + 1)).pcs[0]? = some .late := by
          rcases e.next k with ⟨h1, -⟩ | ⟨l, h1, h2⟩
          · rw [h1] at h; cases h
          · rw [h1] at h
            cases h
            obtain ⟨w, y, -, hy, -, h⟩ := Prog.stepped_timeout (Prog.step_stepped h2)
            cases w <;> cases hy
            exact h
        obtain ⟨k', hk', h⟩ := late (k + 1) ⟨hl, h'⟩
        exact ⟨k', by omega, h⟩
      · exact h'
    · exact ⟨k, hk1, Or.inr h⟩
  have wait := via .test .asleep rfl
    (fun s hA hk hx => by simp only [run, act s _ hA hx nofun hk]; rfl)
    (fun s sh z b hA hk hx hr => by
      cases hr with
      | sleep _ => exact Or.inl rfl
      | stay h => rw [act s _ hA hx nofun hk] at h; cases h) asleep
  have plock := via .lock .test rfl (fun s hA _ hx => by simp only [run, hA.periodic_free hx rfl]; rfl)
    (fun s sh z b _ _ _ hr => by cases hr; exact Or.inl rfl) wait
  have again := via .again .test rfl (fun s hA _ hx => by simp only [run, hA.periodic_free hx rfl]; rfl)
    (fun s sh z b _ _ _ hr => by cases hr; exact Or.inl rfl) wait
  have loop := via .loop .lock rfl (fun _ _ _ _ => rfl)
    (fun s sh z b hA hk hx hr => by
      cases hr with
      | loopYes _ => exact Or.inl rfl
      | loopNo h => rw [act s _ hA hx nofun hk] at h; cases h) plock
  have unlock := via .unlock .loop rfl (fun _ _ _ _ => rfl)
    (fun s sh z b _ _ _ hr => by cases hr; exact Or.inl rfl) loop
  have rel := via .timerRel .unlock rfl (fun _ _ _ _ => rfl)
    (fun s sh z b _ _ _ hr => by cases hr; exact Or.inl rfl) unlock
  have off : e.LeadsTo (fun s => s.pcs[0]? = some .off ∧ (K s ∧ s.sh.thread = .spawned)) Q := by
    have h1 : e.LeadsTo (fun s => s.pcs[0]? = some .off ∧ (K s ∧ s.sh.thread = .spawned))
        (fun s => Q s ∨ (s.pcs[0]? = some .loop ∧ K s)) := by
      refine Prog.runs' e hf All (all e h0) 0 .off (active rfl) (fun s => K s ∧ s.sh.thread = .spawned) _ ?_ ?_ ?_
      · rintro s l s' hA hA' hx ⟨hk, ht⟩ hs hl
        rcases keep s l s' hA hA' hk hs with h | h
        · refine Or.inl ⟨h, ?_⟩
          rcases Prog.stepped_sh hs with h | ⟨i, x, y, b, el, hx, hr⟩
          · rw [h]; exact ht
          · have hr := run_ran (i := i) (x := x) hr
            have hlx := hA.inv.loc i x hx
            have hti : x.timer = false := by
              cases h : x.timer with
              | false => rfl
              | true => exact absurd (by rw [el, hlx.timer.1 h]) hl
            have hef := hlx.efact
            generalize s'.sh = sh' at hr
            cases hr <;> first
              | exact ht
              | rfl
              | (cases hti; done)
              | (rename_i h; rw [ht] at h; cases h; done)
        · exact Or.inr (Or.inl h)
      · rintro s hA hx ⟨hk, ht⟩
        show (run .plain 0 s.sh .off).isSome
        simp only [run, ht]
        rfl
      · rintro s s' hA hA' hx ⟨hk, ht⟩ hs
        rcases keep s _ s' hA hA' hk hs with h | h
        · obtain ⟨sh, y, b, g1, g2, g3⟩ := Prog.stepped_run hs hx
          have hr := run_ran (i := 0) (x := .off) g1
          cases hr
          exact Or.inr ⟨g3, h⟩
        · exact Or.inl h
    exact h1.trans (System.Execution.LeadsTo.or (.refl e fun _ h => h) loop)
  intro m hk
  obtain ⟨k, hmk, hev⟩ := event_frees e hf h0 m trivial
  rcases still m hk k hmk with hk | h
  · suffices ∃ k', k ≤ k' ∧ Q (e.at_ k') by
      obtain ⟨k', h1, h2⟩ := this
      exact ⟨k', Nat.le_trans hmk h1, h2⟩
    have hA := all e h0 k
    have hc := ((hA.inv.glob.cons hev).1 hk.1)
    have hx : (e.at_ k).pcs[0]? = some _ := List.getElem?_eq_getElem hA.owned.2.2.2
    have hl := hA.inv.loc 0 _ hx
    have ht := hl.timer.2 rfl
    have htf := hl.tfact
    generalize (e.at_ k).pcs[0]'(hA.owned.2.2.2) = x at hx ht htf
    cases x with
    | off => exact off k ⟨hx, hk, hc.2.resolve_right htf⟩
    | loop => exact loop k ⟨hx, hk⟩
    | lock => exact plock k ⟨hx, hk⟩
    | test => exact wait k ⟨hx, hk⟩
    | asleep => exact asleep k ⟨hx, hk⟩
    | again => exact again k ⟨hx, hk⟩
    | late => exact late k ⟨hx, hk⟩
    | check => exact check k ⟨hx, hk⟩
    | timerLock => exact lock k ⟨hx, hk⟩
    | timerTest => exact test k ⟨hx, hk⟩
    | timerCall => exact call k ⟨hx, hk⟩
    | timerRel => exact rel k ⟨hx, hk⟩
    | unlock => exact unlock k ⟨hx, hk⟩
    | finish =>
      have h1 : (e.at_ k).sh.active = false := htf.2
      rw [hc.1] at h1
      cases h1
    | _ => cases ht
  · exact h

end

/-- Labels: client 1 sets a callback, the timer thread goes to sleep, the period passes, the callback is called. -/
def tick : List (Label Op) :=
  [.start 1 .set, .run 1, .run 1, .run 1, .run 1, .run 1, .run 1, .run 1, .run 0, .run 0, .run 0, .run 0, .timeout 0,
    .run 0, .run 0, .run 0, .run 0, .run 0]

/-- Labels: the second period. -/
def tock : List (Label Op) :=
  [.run 0, .run 0, .run 0, .run 0, .run 0, .timeout 0, .run 0, .run 0, .run 0, .run 0, .run 0]

/-- Labels: client 1 unsets the callback while the timer thread sleeps. -/
def tack : List (Label Op) :=
  [.run 0, .run 0, .run 0, .run 0, .run 0, .start 1 .unset, .run 1, .run 1, .run 1, .run 1, .run 1, .run 1, .run 1,
    .run 0, .run 0, .run 0, .run 0, .run 1, .run 1]

example : ((prog .plain).system.exec (init .plain 1) tick).map (fun s => (s.sh.calls, s.pcs)) =
    some (1, [.timerRel, .idle]) := by decide
example : ((prog .plain).system.exec (init .plain 1) (tick ++ tock)).map (fun s => (s.sh.calls, s.pcs)) =
    some (2, [.timerRel, .idle]) := by decide
example : ((prog .plain).system.exec (init .plain 1) (tick ++ tack)).map
    (fun s => (s.sh.calls, s.sh.set, s.pcs, s.sh.thread)) = some (1, false, [.off, .idle], .none) := by decide

/-- The hypotheses of `C96_spacing` are met. -/
example : ∃ s0 s1 s2 s3 : C, (prog .plain).system.Reachable (init .plain 1) s0 ∧
    (prog .plain).system.step s0 (.run 0) = some s1 ∧ s1.sh.calls = s0.sh.calls + 1 ∧
    (prog .plain).system.exec s1 tock.dropLast = some s2 ∧
    (prog .plain).system.step s2 (.run 0) = some s3 ∧ s3.sh.calls = s2.sh.calls + 1 :=
  ⟨_, _, _, _, (prog .plain).system.exec_reachable' tick.dropLast rfl, rfl, rfl, rfl, rfl, rfl⟩

/-- The hypotheses of `C75_returns` and `C96_ticks` are met: an execution in which a callback is set, called once and
unset. -/
example : ∃ e : (prog .plain).system.Execution, e.Fair ∧ e.at_ 0 = init .plain 1 ∧
    (∀ m, (e.at_ m).pcs[0]? = some .asleep →
      ∃ k, m ≤ k ∧ (e.label k = some (.timeout 0) ∨ (e.at_ k).sh.set = false)) ∧
    ∃ m, (e.at_ m).sh.set = true := by
  obtain ⟨s1, h1⟩ : ∃ s1, (prog .plain).system.exec (init .plain 1) (tick ++ tack) = some s1 := ⟨_, rfl⟩
  obtain ⟨e, hf, h0, hat, hlab⟩ := (prog .plain).system.finite_fair' (init .plain 1) s1 (tick ++ tack) h1 (by
    cases h1
    intro i
    match i with
    | 0 => rfl
    | 1 => rfl
    | i + 2 => rfl)
  have hend : ∀ m, 37 ≤ m → (e.at_ m).sh.set = false := by
    intro m hm
    obtain ⟨s, h2, h3⟩ := hat m
    rw [List.take_of_length_le (show (tick ++ tack).length ≤ m from hm)] at h2
    rw [h3]
    cases h2
    rfl
  refine ⟨e, hf, h0, fun m _ => ⟨m + 37, Nat.le_add_right _ _, Or.inr (hend _ (Nat.le_add_left _ _))⟩, 10, ?_⟩
  obtain ⟨s, h2, h3⟩ := hat 10
  rw [h3]
  cases h2
  rfl

end Verif.Periodic
