import Verif.Lemmas.SignalEvent
/-!
C107, C108, C109: `SignalEventHandler`.
-/
namespace Verif.SignalEvent
open Verif.Threads

abbrev C := Conf (prog .plain)

theorem inv_mem {c : Callback} {s : Conf (prog c)} (hi : (prog c).Inv Glob (Loc c) s) {k h : Nat} (hm : (k, h) ∈ s.sh.callbacks) :
    E s.sh h ∧ (s.sh.hs h).id = k := by
  have h1 := StdMap.get_of_mem hi.glob.sorted hm
  have h2 := hi.glob.entry k h h1
  exact ⟨by unfold E; rw [h2]; exact h1, h2⟩

/-! ### C107 -/

/-- C107: while no thread is setting or unsetting the callback of a handler, the manager has exactly one callback for the
handler if its callback is set (with fewer than 2^32 registrations), and none if it is not set.  The callbacks may set or
unset their own handler. -/
theorem C107_registered {c : Callback} {n : Nat} {s : Conf (prog c)} (h : (prog c).system.Reachable (init c n) s) (g : Nat)
    (hfree : (s.sh.hs g).event = none) :
    ((s.sh.hs g).set = true → s.sh.regs < 2 ^ 32 →
      ∃ k, (k, g) ∈ s.sh.callbacks ∧ ∀ k', (k', g) ∈ s.sh.callbacks → k' = k) ∧
    ((s.sh.hs g).set = false → ∀ k, (k, g) ∉ s.sh.callbacks) := by
  have hi := inv h
  obtain ⟨-, h1, h2⟩ := hi.glob.cons g hfree
  refine ⟨fun hs hr => ?_, fun hs k hk => h1 hs (inv_mem hi hk).1⟩
  have he := h2 hs hr
  refine ⟨(s.sh.hs g).id, StdMap.get_some_mem he, fun k' hk' => (inv_mem hi hk').2.symm⟩

/-- C107: unregistering never throws (which would end the process, since the caller is `noexcept`), with fewer than 2^32
registrations. -/
theorem C107_no_terminate {c : Callback} {n : Nat} {s : Conf (prog c)} (h : (prog c).system.Reachable (init c n) s)
    (hr : s.sh.regs < 2 ^ 32) : s.sh.dead = false := (inv h).glob.dead hr

/-- The manager's thread uses the handler, or will do so in this round. -/
def PC.uses (g : Nat) : PC → Prop
  | .hCall rest => ∃ k, (k, g) ∈ rest
  | .evLock h (some rest) | .evTest h (some rest) | .evCall h (some rest) | .evRel h (some rest)
  | .cbLock h (some rest) | .cbFlag h (some rest) | .cbMgr h (some rest) | .cbReg h (some rest)
  | .cbOut h (some rest) =>
    h = g ∨ ∃ k, (k, g) ∈ rest
  | _ => False

/-- The thread is inside a call that is about to set the callback of the handler, or to unset it after it has found it
set. -/
def PC.working (g : Nat) : PC → Prop
  | .setLock h | .setInternal h | .setFlag h | .setRel h _ | .setMgr h | .setReg h | .setOut h | .unsetInternal h
  | .unsetFlag h | .unsetRel h | .unsetMgr h | .unsetReg h => h = g
  | _ => False

/-- The thread is inside the callback of the handler, which uses the handler. -/
def PC.within (g : Nat) : PC → Prop
  | .cbLock h _ | .cbFlag h _ | .cbMgr h _ | .cbReg h _ | .cbOut h _ => h = g
  | _ => False

theorem unused {c : Callback} {s : Conf (prog c)} (hi : (prog c).Inv Glob (Loc c) s) {g : Nat} (hE : ¬ E s.sh g) {x : PC} {i : Nat}
    (hx : s.pcs[i]? = some x) : ¬ x.uses g := by
  intro hu
  have hr := (hi.loc i x hx).rfact
  have key : ∀ k, (k, g) ∉ s.sh.callbacks := fun k hk => hE (inv_mem hi hk).1
  cases x with
  | hCall rest => obtain ⟨k, hk⟩ := hu; exact key k (hr _ hk)
  | evLock h k | evTest h k | evCall h k | evRel h k | cbLock h k | cbFlag h k | cbMgr h k | cbReg h k | cbOut h k =>
    cases k with
    | none => exact hu
    | some rest =>
      rcases hu with rfl | ⟨k, hk⟩
      · obtain ⟨k, hk⟩ := hr.1; exact key k hk
      · exact key k (hr.2 _ hk)
  | _ => exact hu

/-- Nobody sets the handler. -/
structure Quiet {c : Callback} (s : Conf (prog c)) (g : Nat) : Prop where
  set : (s.sh.hs g).set = false
  unreg : ¬ E s.sh g
  out : ∀ (i : Nat) (x : PC), s.pcs[i]? = some x → ¬ x.working g
  cbs : ∀ (i : Nat) (x : PC), s.pcs[i]? = some x → ¬ x.within g

theorem quiet_step {c : Callback} {s s' : Conf (prog c)} {l : Label Op} {g : Nat} (hi : (prog c).Inv Glob (Loc c) s) (hq : Quiet s g)
    (hs : (prog c).Stepped s l s') (hl : ∀ i, l ≠ .start i (.set g)) :
    Quiet s' g ∧ (s'.sh.hs g).calls = (s.sh.hs g).calls := by
  have hsh : (s'.sh.hs g).set = false ∧ ¬ E s'.sh g ∧ (s'.sh.hs g).calls = (s.sh.hs g).calls := by
    rcases Prog.stepped_sh hs with e | ⟨i, x, y, b, -, hx, hr⟩
    · rw [e]; exact ⟨hq.set, hq.unreg, rfl⟩
    · have hr := run_ran (c := c) (i := i) (x := x) hr
      have hw := hq.out i x hx
      have hv := hq.cbs i x hx
      have hl := hi.loc i x hx
      have hcalls : ∀ (j : Nat) (z : H), z.calls = (s.sh.hs j).calls →
          ((s.sh.put j z).hs g).calls = (s.sh.hs g).calls := by
        intro j z e
        by_cases hj : g = j
        · subst hj; rw [put_same, e]
        · rw [put_ne _ _ hj]
      have hc : (s'.sh.hs g).calls = (s.sh.hs g).calls := by
        have hif := hl.ifact
        generalize s'.sh = t at hr
        cases hr with
        | evCall h k =>
          have : g ≠ h := by
            rintro rfl
            have h1 : (s.sh.hs g).set = true := hif
            rw [hq.set] at h1
            cases h1
          rw [put_ne _ _ this]
        | setReg h => exact hcalls _ _ rfl
        | unsetReg h | cbReg h k => rw [unregister_hs]
        | cbOutU h k | cbOutC h k => rw [put_ne _ _ fun e : g = h => hv e.symm]
        | _ => first | rfl | exact hcalls _ _ rfl
      by_cases he : x.ev = some g
      · have hne : ∀ z : Sh, z.callbacks = s.sh.callbacks → (z.hs g).id = (s.sh.hs g).id → ¬ E z g :=
          fun z e1 e2 h => hq.unreg ((e_of e1 e2).1 h)
        generalize s'.sh = t at hr hc ⊢
        cases hr <;> cases he <;> first
          | exact ⟨hq.set, hq.unreg, hc⟩
          | exact absurd rfl hw
          | exact absurd rfl hv
          | exact ⟨by rw [put_same]; exact hq.set, hne _ rfl (by rw [put_same]), hc⟩
      · have h1 := ran_flags hr g he
        have h2 := ran_E hi.glob hl.efact hr g he
        exact ⟨h1.1.trans hq.set, fun h => hq.unreg (h2.1 h), hc⟩
  suffices H : ∀ (i : Nat) (y : PC), s'.pcs[i]? = some y → ¬ y.working g ∧ ¬ y.within g from
    ⟨⟨hsh.1, hsh.2.1, fun i y hy => (H i y hy).1, fun i y hy => (H i y hy).2⟩, hsh.2.2⟩
  intro i y hy
  have hlt : i < s.pcs.length := by rw [← Prog.stepped_length hs]; exact (List.getElem?_eq_some_iff.1 hy).1
  obtain ⟨x, hx⟩ : ∃ x, s.pcs[i]? = some x := ⟨_, List.getElem?_eq_getElem hlt⟩
  obtain ⟨y', hy', ht⟩ := Prog.track hs hx
  rw [hy] at hy'
  cases hy'
  have hw := hq.out i x hx
  have hv := hq.cbs i x hx
  have hif := (hi.loc i x hx).ifact
  rcases ht with ⟨op, el, hst, -⟩ | ⟨-, b, hr⟩ | ⟨-, hk, -⟩
  · cases op with
    | set h =>
      cases x <;> cases hst
      refine ⟨?_, id⟩
      rintro rfl
      exact hl i el
    | _ => cases x <;> cases hst <;> exact ⟨id, id⟩
  · have hr := run_ran (c := c) (i := i) (x := x) hr
    generalize s'.sh = t at hr
    cases hr <;> first
      | exact ⟨id, id⟩
      | exact ⟨hw, id⟩
      | exact ⟨hw, hv⟩
      | exact ⟨id, hv⟩
      | (refine ⟨?_, id⟩; rintro rfl; rename_i hset; rw [hq.set] at hset; cases hset; done)
      | (refine ⟨id, ?_⟩
         rintro rfl
         have hset := hif
         simp only [PC.ifact] at hset
         rw [hq.set] at hset
         cases hset)
  · rcases hk with rfl | hk | hk
    · exact ⟨hw, hv⟩
    · cases x <;> cases hk; exact ⟨id, id⟩
    · cases hk

/-- C107: after `unset_callback` (or the destructor, which calls it) of a handler has returned, and while nobody calls
`set_callback` of the handler, the manager's thread does not use the handler, whatever signals arrive and whatever the
threads do with other handlers, and the callback is not called.  The callbacks may set or unset their own handler. -/
theorem C107_unused {c : Callback} {n : Nat} {s s' s'' : Conf (prog c)} (h : (prog c).system.Reachable (init c n) s)
    {i g : Nat} (hx : s.pcs[i]? = some (.unsetOut g)) (hs : (prog c).system.step s (.run i) = some s')
    (hno : ∀ (j : Nat) (x : PC), s'.pcs[j]? = some x → ¬ x.working g)
    {ls : List (Label Op)} (hls : ∀ l ∈ ls, ∀ j, l ≠ .start j (.set g))
    (he : (prog c).system.exec s' ls = some s'') :
    s'.pcs[i]? = some .idle ∧ (∀ (j : Nat) (x : PC), s''.pcs[j]? = some x → ¬ x.uses g) ∧
      (∀ k, (k, g) ∉ s''.sh.callbacks) ∧ (s''.sh.hs g).calls = (s.sh.hs g).calls := by
  have hi := inv h
  have hf := (hi.loc i _ hx).efact
  obtain ⟨sh, y, b, hr, e1, hy⟩ := Prog.stepped_run (Prog.step_stepped hs) hx
  have hr := run_ran (c := c) (i := i) (x := .unsetOut g) hr
  have hR' : (prog c).system.Reachable (init c n) s' := h.step (Label.allowed_true _) hs
  have hq : Quiet s' g ∧ (s'.sh.hs g).calls = (s.sh.hs g).calls ∧ s'.pcs[i]? = some .idle := by
    cases hr
    have hset : (s'.sh.hs g).set = false := by rw [e1, put_same]; exact hf.2
    have hev : (s'.sh.hs g).event = none := by rw [e1, put_same]
    refine ⟨⟨hset, ?_, hno, ?_⟩, by rw [e1, put_same], hy⟩
    · intro hE
      rw [e1] at hE
      exact hf.1.2.1 hf.2 ((e_put s.sh g { s.sh.hs g with event := none } g rfl).1 hE)
    · intro j x hj hw
      have hl := (inv hR').loc j x hj
      have hh := hl.event g
      have hi := hl.ifact
      rw [hev] at hh
      cases x <;> first | (exact hw.elim; done) | skip
      all_goals cases hw
      all_goals first
        | (simp only [PC.ifact] at hi; rw [hset] at hi; cases hi; done)
        | exact absurd (hh.1 rfl) nofun
  have key : ∀ (ls : List (Label Op)) (t : Conf (prog c)), (prog c).system.Reachable (init c n) t → Quiet t g →
      (∀ l ∈ ls, ∀ j, l ≠ .start j (.set g)) → (prog c).system.exec t ls = some s'' →
      (prog c).system.Reachable (init c n) s'' ∧ Quiet s'' g ∧ (s''.sh.hs g).calls = (t.sh.hs g).calls := by
    intro ls
    induction ls with
    | nil => intro t hR hq _ he; cases he; exact ⟨hR, hq, rfl⟩
    | cons l ls ih =>
      intro t hR hq hls he
      obtain ⟨t1, g1, g2⟩ := System.exec_cons (S := (prog c).system) he
      obtain ⟨h1, h2⟩ := quiet_step (inv hR) hq (Prog.step_stepped g1) (hls l (by simp))
      obtain ⟨h3, h4, h5⟩ := ih t1 (hR.step (Label.allowed_true _) g1) h1 (fun l hl => hls l (by simp [hl])) g2
      exact ⟨h3, h4, h5.trans h2⟩
  obtain ⟨h1, h2, h3⟩ := key ls s' hR' hq.1 hls he
  exact ⟨hq.2.2, fun j x hj => unused (inv h1) h2.unreg hj, fun k hk => h2.unreg (inv_mem (inv h1) hk).1,
    h3.trans hq.2.1⟩

/-! ### C109 -/

/-- Calls of the callback of handler `g` that the manager's thread has still to make in its round. -/
def PC.todo (g : Nat) : PC → Nat
  | .hCall rest => rest.countP fun p => p.2 = g
  | .evLock h (some rest) | .evTest h (some rest) | .evCall h (some rest) =>
    (if h = g then 1 else 0) + rest.countP fun p => p.2 = g
  | .evRel _ (some rest) => rest.countP fun p => p.2 = g
  | _ => 0

/-- The thread is inside `simulate_event_occurred` or `unset_callback` of the handler. -/
def PC.disturbs (g : Nat) : PC → Prop
  | .evLock h none | .evTest h none | .evCall h none | .evRel h none => h = g
  | .unsetLock h | .unsetTest h | .unsetInternal h | .unsetFlag h | .unsetRel h | .unsetMgr h | .unsetReg h | .unsetOut h =>
    h = g
  | _ => False

/-- The handler is set and stays so, and nobody simulates an event. -/
structure Steady (s : C) (g : Nat) : Prop where
  set : (s.sh.hs g).set = true
  out : ∀ (i : Nat) (x : PC), s.pcs[i]? = some x → ¬ x.disturbs g

theorem steady_step {s s' : C} {l : Label Op} {g : Nat} (hi : (prog .plain).Inv Glob (Loc .plain) s) (hq : Steady s g)
    (hs : (prog .plain).Stepped s l s') (hl : ∀ i, l ≠ .start i (.unset g) ∧ l ≠ .start i (.event g)) :
    Steady s' g := by
  refine ⟨?_, ?_⟩
  · rcases Prog.stepped_sh hs with e | ⟨i, x, y, b, -, hx, hr⟩
    · rw [e]; exact hq.set
    · have hr := run_ran (c := .plain) (i := i) (x := x) hr
      have hw := hq.out i x hx
      by_cases he : x.ev = some g
      · generalize s'.sh = t at hr ⊢
        cases hr <;> cases he <;> first
          | exact hq.set
          | exact absurd rfl hw
          | (rw [put_same]; exact hq.set)
          | (rw [put_same]; done)
          | (rw [register_same]; exact hq.set)
      · rw [(ran_flags hr g he).1]; exact hq.set
  · intro i y hy
    have hlt : i < s.pcs.length := by rw [← Prog.stepped_length hs]; exact (List.getElem?_eq_some_iff.1 hy).1
    obtain ⟨x, hx⟩ : ∃ x, s.pcs[i]? = some x := ⟨_, List.getElem?_eq_getElem hlt⟩
    obtain ⟨y', hy', ht⟩ := Prog.track hs hx
    rw [hy] at hy'
    cases hy'
    have hw := hq.out i x hx
    rcases ht with ⟨op, el, hst, -⟩ | ⟨-, b, hr⟩ | ⟨-, hk, -⟩
    · cases op with
      | unset h =>
        cases x <;> cases hst
        rintro rfl
        exact (hl i).1 el
      | event h =>
        cases x <;> cases hst
        rintro rfl
        exact (hl i).2 el
      | _ => cases x <;> cases hst <;> exact id
    · have hr := run_ran (c := .plain) (i := i) (x := x) hr
      generalize s'.sh = t at hr
      cases hr with
      | evLock h k | evYes h k | evNo h k | evCall h k =>
        cases k with
        | none => exact hw
        | some rest => exact id
      | _ => first | exact id | exact hw
    · rcases hk with rfl | hk | hk
      · exact hw
      · cases x <;> cases hk; exact id
      · cases hk

/-- A step of a round: the call of `g` is made or still to be made. -/
theorem todo_step {s s' : C} {l : Label Op} {g : Nat} (hi : (prog .plain).Inv Glob (Loc .plain) s) (hq : Steady s g)
    (hs : (prog .plain).Stepped s l s') {x : PC} (hx : s.pcs[0]? = some x) (hc : x.hasCb = true) :
    ∃ y, s'.pcs[0]? = some y ∧ (s'.sh.hs g).calls + y.todo g = (s.sh.hs g).calls + x.todo g ∧
      (y.hasCb = true ∨ (y = .hTest ∧ x = .hCall [])) := by
  have hcalls : ∀ (j : Nat) (z : H), z.calls = (s.sh.hs j).calls →
      ((s.sh.put j z).hs g).calls = (s.sh.hs g).calls := by
    intro j z e
    by_cases hj : g = j
    · subst hj; rw [put_same, e]
    · rw [put_ne _ _ hj]
  have other : ∀ (k : Nat) (w z : PC) (t : Sh) (b : Bool), k ≠ 0 → s.pcs[k]? = some w → Ran k s.sh .plain w t z b →
      (t.hs g).calls = (s.sh.hs g).calls := by
    intro k w z t b hk hw hr
    have hd := hq.out k w hw
    have hm := (hi.loc k w hw).mgr
    cases hr with
    | evCall h r =>
      cases r with
      | none =>
        have : g ≠ h := fun e => hd e.symm
        rw [put_ne _ _ this]
      | some rest => exact absurd (hm.1 rfl) hk
    | setReg h => exact hcalls _ _ rfl
    | unsetReg h => rw [unregister_hs]
    | _ => first | rfl | exact hcalls _ _ rfl
  obtain ⟨y, hy, ht⟩ := Prog.track hs hx
  refine ⟨y, hy, ?_⟩
  rcases ht with ⟨op, el, hst, -⟩ | ⟨-, b, hr⟩ | ⟨-, hk, hsh⟩
  · cases x <;> first | (cases hc; done) | (cases op <;> cases hst; done)
  · have hr := run_ran (c := .plain) (i := 0) (x := x) hr
    generalize s'.sh = t at hr
    cases hr with
    | evLock h k =>
      cases k with
      | none => cases hc
      | some rest => exact ⟨congrArg (· + _) (hcalls _ _ rfl), Or.inl rfl⟩
    | evYes h k hset =>
      cases k with
      | none => cases hc
      | some rest => exact ⟨rfl, Or.inl rfl⟩
    | evNo h k hset =>
      cases k with
      | none => cases hc
      | some rest =>
        have : h ≠ g := by
          rintro rfl
          rw [hq.set] at hset
          cases hset
        refine ⟨?_, Or.inl rfl⟩
        simp [PC.todo, this]
    | evCall h k =>
      cases k with
      | none => cases hc
      | some rest =>
        refine ⟨?_, Or.inl rfl⟩
        by_cases e : h = g
        · subst e
          rw [put_same]
          simp only [PC.todo, if_pos]
          omega
        · rw [put_ne _ _ (Ne.symm e)]
          simp [PC.todo, e]
    | evNext h rest => exact ⟨congrArg (· + _) (hcalls _ _ rfl), Or.inl rfl⟩
    | hEnd => exact ⟨rfl, Or.inr ⟨rfl, rfl⟩⟩
    | hNext p rest =>
      refine ⟨?_, Or.inl rfl⟩
      simp only [PC.todo, List.countP_cons]
      by_cases e : p.2 = g
      · simp [e]; omega
      · simp [e]
    | _ => cases hc
  · have hyx : y = x := by
      rcases hk with rfl | hk | hk
      · rfl
      · cases x <;> first | (cases hc; done) | (cases hk; done)
      · cases hk
    subst hyx
    refine ⟨?_, Or.inl hc⟩
    rcases hsh with e | ⟨k, w, z, b, hk0, -, hw, hr⟩
    · rw [e]
    · rw [other k w z _ b hk0 hw (run_ran (c := .plain) (i := k) (x := w) hr)]

/-- C109: one round of the manager's thread calls the callback of each handler that is set exactly once, however the other
threads are scheduled, if nobody unsets it or simulates an event of it meanwhile.  The round goes from the step in which
the thread takes `active_callbacks_mutex_` to that in which it releases the mutex.  (Fewer than 2^32 registrations.) -/
theorem C109_round {n : Nat} {s s1 s2 s3 : C} (h : (prog .plain).system.Reachable (init .plain n) s) (g : Nat)
    (hok : s.sh.regs < 2 ^ 32) (hset : (s.sh.hs g).set = true) (hfree : (s.sh.hs g).event = none)
    (hout : ∀ (i : Nat) (x : PC), s.pcs[i]? = some x → ¬ x.disturbs g)
    (hx : s.pcs[0]? = some .hCb) (h1 : (prog .plain).system.step s (.run 0) = some s1)
    {ls : List (Label Op)} (hls : ∀ l ∈ ls, ∀ i, l ≠ .start i (.unset g) ∧ l ≠ .start i (.event g))
    (h2 : (prog .plain).system.exec s1 ls = some s2)
    (hround : ∀ ls1 t, ls1 <+: ls → (prog .plain).system.exec s1 ls1 = some t → t.sh.cb = some 0)
    (h3 : (prog .plain).system.step s2 (.run 0) = some s3) (hend : s3.sh.cb = none) :
    (s3.sh.hs g).calls = (s.sh.hs g).calls + 1 := by
  have hi := inv h
  obtain ⟨sh, y, b, hr, e1, hy⟩ := Prog.stepped_run (Prog.step_stepped h1) hx
  have hr := run_ran (c := .plain) (i := 0) (x := .hCb) hr
  have hone : s.sh.callbacks.countP (fun p => p.2 = g) = 1 := by
    obtain ⟨k, hk, hu⟩ := (C107_registered h g hfree).1 hset hok
    have hs := hi.glob.sorted
    generalize s.sh.callbacks = m at hk hu hs
    clear h1 e1 hr
    induction m with
    | nil => cases hk
    | cons p m ih =>
      obtain ⟨g1, g2⟩ := List.pairwise_cons.1 hs
      rw [List.countP_cons]
      rcases List.mem_cons.1 hk with rfl | hk'
      · have : m.countP (fun p => decide (p.2 = g)) = 0 := by
          rw [List.countP_eq_zero]
          rintro ⟨a, c⟩ hq
          simp only [decide_eq_true_eq]
          rintro rfl
          have := hu a (List.mem_cons_of_mem _ hq)
          have := g1 _ hq
          simp only at this
          omega
        rw [this]
        simp
      · have hp : p.2 ≠ g := by
          intro e
          have e2 := hu p.1 (by rw [← e]; exact List.mem_cons_self ..)
          have := g1 _ hk'
          simp only at this
          omega
        rw [ih hk' (fun k' h' => hu k' (List.mem_cons_of_mem _ h')) g2]
        simp [hp]
  have hst : Steady s1 g := steady_step hi ⟨hset, hout⟩ (Prog.step_stepped h1) (fun i => ⟨nofun, nofun⟩)
  have hR1 : (prog .plain).system.Reachable (init .plain n) s1 := h.step (Label.allowed_true _) h1
  have h0 : ∃ x, s1.pcs[0]? = some x ∧ x.hasCb = true ∧
      (s1.sh.hs g).calls + x.todo g = (s.sh.hs g).calls + 1 := by
    cases hr
    refine ⟨_, hy, rfl, ?_⟩
    rw [e1]
    show (s.sh.hs g).calls + s.sh.callbacks.countP (fun p => p.2 = g) = _
    rw [hone]
  have key : ∀ (ls : List (Label Op)) (t : C), (prog .plain).system.Reachable (init .plain n) t → Steady t g →
      (∀ l ∈ ls, ∀ i, l ≠ .start i (.unset g) ∧ l ≠ .start i (.event g)) →
      (prog .plain).system.exec t ls = some s2 →
      (∀ ls1 t1, ls1 <+: ls → (prog .plain).system.exec t ls1 = some t1 → t1.sh.cb = some 0) →
      (∃ x, t.pcs[0]? = some x ∧ x.hasCb = true ∧ (t.sh.hs g).calls + x.todo g = (s.sh.hs g).calls + 1) →
      (prog .plain).system.Reachable (init .plain n) s2 ∧ Steady s2 g ∧
        ∃ x, s2.pcs[0]? = some x ∧ x.hasCb = true ∧ (s2.sh.hs g).calls + x.todo g = (s.sh.hs g).calls + 1 := by
    intro ls
    induction ls with
    | nil => intro t hR hq _ he _ hx; cases he; exact ⟨hR, hq, hx⟩
    | cons l ls ih =>
      intro t hR hq hls he hround ⟨x, hx, hc, hsum⟩
      obtain ⟨t1, g1, g2⟩ := System.exec_cons (S := (prog .plain).system) he
      have hst1 := steady_step (inv hR) hq (Prog.step_stepped g1) (hls l (by simp))
      have hR1 : (prog .plain).system.Reachable (init .plain n) t1 := hR.step (Label.allowed_true _) g1
      obtain ⟨y, hy, hsum', hcb⟩ := todo_step (inv hR) hq (Prog.step_stepped g1) hx hc
      have hcb1 : t1.sh.cb = some 0 := hround [l] t1 ⟨ls, rfl⟩ (by
        show ((prog .plain).system.step t l).bind _ = _
        rw [g1]
        rfl)
      refine ih t1 hR1 hst1 (fun l hl => hls l (by simp [hl])) g2 ?_ ⟨y, hy, ?_, hsum'.trans hsum⟩
      · intro ls1 t2 hp he2
        refine hround (l :: ls1) t2 ?_ ?_
        · obtain ⟨r, rfl⟩ := hp; exact ⟨r, rfl⟩
        · show ((prog .plain).system.step t l).bind _ = _
          rw [g1]
          exact he2
      · exact ((inv hR1).loc 0 y hy).cb.2 hcb1
  obtain ⟨hR2, hst2, x, hx2, hc2, hsum2⟩ := key ls s1 hR1 hst hls h2 hround h0
  obtain ⟨y, hy, hsum3, hcb⟩ := todo_step (inv hR2) hst2 (Prog.step_stepped h3) hx2 hc2
  rcases hcb with hcb | ⟨rfl, rfl⟩
  · have hR3 : (prog .plain).system.Reachable (init .plain n) s3 := hR2.step (Label.allowed_true _) h3
    have := ((inv hR3).loc 0 y hy).cb.1 hcb
    rw [hend] at this
    cases this
  · have : (s3.sh.hs g).calls + 0 = (s2.sh.hs g).calls + 0 := hsum3
    have h5 : (s2.sh.hs g).calls + 0 = (s.sh.hs g).calls + 1 := hsum2
    omega

/-! ### C108 -/

/-- The owners of the mutexes are threads. -/
def Owned (s : C) : Prop :=
  (∀ h j, (s.sh.hs h).event = some j → j < s.pcs.length) ∧ (∀ h j, (s.sh.hs h).internal = some j → j < s.pcs.length) ∧
  (∀ j, s.sh.cb = some j → j < s.pcs.length) ∧ 0 < s.pcs.length

theorem owned {n : Nat} {s : C} (h : (prog .plain).system.Reachable (init .plain n) s) : Owned s := by
  suffices (prog .plain).Inv Glob (Loc .plain) s ∧ Owned s from this.2
  refine System.ReachableBy.invariant (S := (prog .plain).system)
    (fun s => (prog .plain).Inv Glob (Loc .plain) s ∧ Owned s) ?_ ?_ h
  · exact ⟨inv .init, fun _ _ e => (by cases e), fun _ _ e => (by cases e), fun _ e => (by cases e), Nat.succ_pos _⟩
  · intro s l s' ⟨hi, ho⟩ hA hs
    have hst := Prog.step_stepped hs
    refine ⟨(local_ .plain).step hi hA hst, ?_⟩
    have hlen := Prog.stepped_length hst
    unfold Owned
    rw [hlen]
    rcases Prog.stepped_sh hst with h | ⟨i, x, y, b, -, hx, hr⟩
    · rw [h]; exact ho
    · have hlt : i < s.pcs.length := (List.getElem?_eq_some_iff.1 hx).1
      have hr := run_ran (c := .plain) (i := i) (x := x) hr
      have hl := hi.loc i x hx
      have key : ∀ (o o' : Nat → Option Nat) (a b : Option Nat), Owners o o' i a b →
          (∀ h j, o h = some j → j < s.pcs.length) → ∀ h j, o' h = some j → j < s.pcs.length := by
        rintro o o' a b (⟨rfl, -⟩ | ⟨g, -, -, -, rfl⟩ | ⟨g, -, -, rfl⟩) h0 h j hj
        · exact h0 h j hj
        · simp only at hj
          split at hj
          · cases hj; exact hlt
          · exact h0 h j hj
        · simp only at hj
          split at hj
          · cases hj
          · exact h0 h j hj
      refine ⟨key _ _ _ _ (ran_event hr) ho.1, key _ _ _ _ (ran_internal hr) ho.2.1, ?_, ho.2.2.2⟩
      intro j hj
      rcases ran_cb hl.cb hr with ⟨e, -⟩ | ⟨-, e, -⟩ | ⟨-, e, -⟩
      · rw [e] at hj; exact ho.2.2.1 j hj
      · rw [e] at hj; cases hj; exact hlt
      · rw [e] at hj; cases hj

/-- Everything that always holds. -/
structure All (s : C) : Prop where
  inv : (prog .plain).Inv Glob (Loc .plain) s
  owned : Owned s

/-- The thread is neither outside calls nor asleep. -/
def PC.active : PC → Bool
  | .idle | .asleep => false
  | _ => true

theorem active {x : PC} (h : x.active = true) : (prog .plain).Active x := by
  refine ⟨?_, ?_, rfl⟩
  · intro op
    cases x <;> first | rfl | cases h
  · cases x <;> first | rfl | cases h

section
variable {n : Nat} (e : (prog .plain).system.Execution) (hf : e.Fair) (h0 : e.at_ 0 = init .plain n)
include h0

theorem all (m : Nat) : All (e.at_ m) := by
  have hR : (prog .plain).system.Reachable (init .plain n) (e.at_ m) := e.reachable (by rw [h0]; exact .init) m
  exact ⟨inv hR, owned hR⟩

include hf

/-- A step that nothing can block. -/
theorem moves (i : Nat) (x : PC) (hact : x.active = true) (Q : C → Prop)
    (hable : ∀ s : Sh, (run .plain i s x).isSome)
    (hdone : ∀ (s : C) (sh : Sh) (y : PC) (b : Bool), All s → s.pcs[i]? = some x → Ran i s.sh .plain x sh y b →
      ∀ s' : C, s'.sh = sh → s'.pcs[i]? = some y → Q s') :
    e.LeadsTo (fun s => s.pcs[i]? = some x) Q := by
  refine Prog.free_step e hf All (all e h0) i x (active hact) Q (fun s _ _ => hable s.sh) ?_
  intro s s' hi hi' hx hs
  obtain ⟨sh, y, b, h1, h2, h3⟩ := Prog.stepped_run hs hx
  exact hdone s sh y b hi hx (run_ran h1) s' h2 h3

/-- A step that needs a mutex. -/
theorem takes (free : Sh → Prop) (hfree : e.LeadsTo (fun _ => True) (fun s => free s.sh))
    (i : Nat) (x : PC) (hact : x.active = true) (Q : C → Prop)
    (hable : ∀ s : Sh, free s → (run .plain i s x).isSome)
    (hdone : ∀ (s : C) (sh : Sh) (y : PC) (b : Bool), All s → s.pcs[i]? = some x → Ran i s.sh .plain x sh y b →
      ∀ s' : C, s'.sh = sh → s'.pcs[i]? = some y → Q s') :
    e.LeadsTo (fun s => s.pcs[i]? = some x) Q := by
  refine Prog.acquire e hf All (all e h0) i x (active hact) (fun _ => True) free Q (fun _ _ _ => trivial)
    (fun m _ => hfree m trivial) (fun s _ _ h => hable s.sh h) ?_
  intro s s' hi hi' hx hs
  obtain ⟨sh, y, b, h1, h2, h3⟩ := Prog.stepped_run hs hx
  exact hdone s sh y b hi hx (run_ran h1) s' h2 h3

/-- From one place to the next. -/
theorem next (i : Nat) (x : PC) (hact : x.active = true) (Q : C → Prop) (P : PC → Prop)
    (hable : ∀ s : Sh, (run .plain i s x).isSome)
    (hy : ∀ (s sh : Sh) (y : PC) (b : Bool), Ran i s .plain x sh y b → P y)
    (hP : ∀ y, P y → e.LeadsTo (fun s => s.pcs[i]? = some y) Q) :
    e.LeadsTo (fun s => s.pcs[i]? = some x) Q := by
  have h1 : e.LeadsTo (fun s => s.pcs[i]? = some x) (fun s => ∃ y, s.pcs[i]? = some y ∧ P y) :=
    moves e hf h0 i x hact _ hable fun s sh y b _ _ hr s' _ h3 => ⟨y, h3, hy s.sh sh y b hr⟩
  exact h1.trans fun m ⟨y, hy, hc⟩ => hP y hc m hy

/-- The same for a step that needs a mutex. -/
theorem next_takes (free : Sh → Prop) (hfree : e.LeadsTo (fun _ => True) (fun s => free s.sh))
    (i : Nat) (x : PC) (hact : x.active = true) (Q : C → Prop) (P : PC → Prop)
    (hable : ∀ s : Sh, free s → (run .plain i s x).isSome)
    (hy : ∀ (s sh : Sh) (y : PC) (b : Bool), Ran i s .plain x sh y b → P y)
    (hP : ∀ y, P y → e.LeadsTo (fun s => s.pcs[i]? = some y) Q) :
    e.LeadsTo (fun s => s.pcs[i]? = some x) Q := by
  have h1 : e.LeadsTo (fun s => s.pcs[i]? = some x) (fun s => ∃ y, s.pcs[i]? = some y ∧ P y) :=
    takes e hf h0 free hfree i x hact _ hable fun s sh y b _ _ hr s' _ h3 => ⟨y, h3, hy s.sh sh y b hr⟩
  exact h1.trans fun m ⟨y, hy, hc⟩ => hP y hc m hy

/-- `internal_callback_mutex_` is released again and again. -/
theorem internal_frees (h : Nat) : e.LeadsTo (fun _ => True) (fun s => (s.sh.hs h).internal = none) := by
  have last : ∀ (i : Nat) (x : PC), (∃ was, x = .setRel h was) ∨ x = .unsetRel h ∨ (∃ k, x = .evRel h k) →
      e.LeadsTo (fun s => s.pcs[i]? = some x) (fun s => (s.sh.hs h).internal = none) := by
    intro i x hx
    refine moves e hf h0 i x (by rcases hx with ⟨_, rfl⟩ | rfl | ⟨_, rfl⟩ <;> rfl) _
      (fun s => by rcases hx with ⟨_, rfl⟩ | rfl | ⟨_, rfl⟩ <;> rfl) ?_
    intro s sh y b _ _ hr s' h2 _
    rw [h2]
    rcases hx with ⟨_, rfl⟩ | rfl | ⟨_, rfl⟩ <;> cases hr <;> rw [put_same]
  have flag := fun i => next e hf h0 i (.setFlag h) rfl _ (fun y => ∃ was, y = .setRel h was) (fun _ => rfl)
    (fun _ _ _ _ hr => by cases hr; exact ⟨_, rfl⟩) (fun y hy => last i y (Or.inl hy))
  have uflag := fun i => next e hf h0 i (.unsetFlag h) rfl _ (fun y => y = .unsetRel h) (fun _ => rfl)
    (fun _ _ _ _ hr => by cases hr; rfl) (fun y hy => last i y (Or.inr (Or.inl hy)))
  have call := fun i k => next e hf h0 i (.evCall h k) rfl _ (fun y => ∃ k, y = .evRel h k) (fun _ => rfl)
    (fun _ _ _ _ hr => by cases hr; exact ⟨_, rfl⟩) (fun y hy => last i y (Or.inr (Or.inr hy)))
  have test := fun i k => next e hf h0 i (.evTest h k) rfl _ (fun y => y = .evCall h k ∨ y = .evRel h k) (fun _ => rfl)
    (fun _ _ _ _ hr => by cases hr <;> simp)
    (fun y hy => by rcases hy with rfl | rfl; exact call i k; exact last i _ (Or.inr (Or.inr ⟨k, rfl⟩)))
  intro m _
  cases hs : ((e.at_ m).sh.hs h).internal with
  | none => exact ⟨m, Nat.le_refl m, hs⟩
  | some j =>
    have hA := all e h0 m
    have hx : (e.at_ m).pcs[j]? = some _ := List.getElem?_eq_getElem (hA.owned.2.1 h j hs)
    have hh := ((hA.inv.loc j _ hx).internal h).2 hs
    have hc := (hA.inv.loc j _ hx).inCb rfl
    generalize (e.at_ m).pcs[j]'(hA.owned.2.1 h j hs) = x at hx hh hc
    cases x <;> first | (cases hc; done) | cases hh
    · exact flag j m hx
    · exact last j _ (Or.inl ⟨_, rfl⟩) m hx
    · exact uflag j m hx
    · exact last j _ (Or.inr (Or.inl rfl)) m hx
    · exact test j _ m hx
    · exact call j _ m hx
    · exact last j _ (Or.inr (Or.inr ⟨_, rfl⟩)) m hx

/-- A round ends. -/
theorem round_ends (x : PC) (hx : x.hasCb = true) (hc : x.inCb = false) :
    e.LeadsTo (fun s => s.pcs[0]? = some x) (fun s => s.sh.cb = none) := by
  have rel : ∀ h rest, e.LeadsTo (fun s => s.pcs[0]? = some (.hCall rest)) (fun s => s.sh.cb = none) →
      e.LeadsTo (fun s => s.pcs[0]? = some (.evRel h (some rest))) (fun s => s.sh.cb = none) := fun h rest ih =>
    next e hf h0 0 _ rfl _ (fun y => y = .hCall rest) (fun _ => rfl) (fun _ _ _ _ hr => by cases hr; rfl)
      (fun y hy => by subst hy; exact ih)
  have call : ∀ h rest, e.LeadsTo (fun s => s.pcs[0]? = some (.hCall rest)) (fun s => s.sh.cb = none) →
      e.LeadsTo (fun s => s.pcs[0]? = some (.evCall h (some rest))) (fun s => s.sh.cb = none) := fun h rest ih =>
    next e hf h0 0 _ rfl _ (fun y => y = .evRel h (some rest)) (fun _ => rfl) (fun _ _ _ _ hr => by cases hr; rfl)
      (fun y hy => by subst hy; exact rel h rest ih)
  have test : ∀ h rest, e.LeadsTo (fun s => s.pcs[0]? = some (.hCall rest)) (fun s => s.sh.cb = none) →
      e.LeadsTo (fun s => s.pcs[0]? = some (.evTest h (some rest))) (fun s => s.sh.cb = none) := fun h rest ih =>
    next e hf h0 0 _ rfl _ (fun y => y = .evCall h (some rest) ∨ y = .evRel h (some rest)) (fun _ => rfl)
      (fun _ _ _ _ hr => by cases hr <;> simp)
      (fun y hy => by rcases hy with rfl | rfl; exact call h rest ih; exact rel h rest ih)
  have lock : ∀ h rest, e.LeadsTo (fun s => s.pcs[0]? = some (.hCall rest)) (fun s => s.sh.cb = none) →
      e.LeadsTo (fun s => s.pcs[0]? = some (.evLock h (some rest))) (fun s => s.sh.cb = none) := fun h rest ih =>
    next_takes e hf h0 (fun s => (s.hs h).internal = none) (internal_frees e hf h0 h) 0 _ rfl _
      (fun y => y = .evTest h (some rest)) (fun s hs => by simp only [run, hs]; rfl)
      (fun _ _ _ _ hr => by cases hr; rfl) (fun y hy => by subst hy; exact test h rest ih)
  have all_ : ∀ rest, e.LeadsTo (fun s => s.pcs[0]? = some (.hCall rest)) (fun s => s.sh.cb = none) := by
    intro rest
    induction rest with
    | nil =>
      refine moves e hf h0 0 _ rfl _ (fun _ => rfl) ?_
      intro s sh y b _ _ hr s' h2 _
      cases hr
      rw [h2]
    | cons p rest ih =>
      exact next e hf h0 0 _ rfl _ (fun y => y = .evLock p.2 (some rest)) (fun _ => rfl)
        (fun _ _ _ _ hr => by cases hr; rfl) (fun y hy => by subst hy; exact lock p.2 rest ih)
  cases x with
  | hCall rest => exact all_ rest
  | evLock h k | evTest h k | evCall h k | evRel h k =>
    cases k with
    | none => cases hx
    | some rest =>
      have ih := all_ rest
      first | exact lock h rest ih | exact test h rest ih | exact call h rest ih | exact rel h rest ih
  | _ => first | (cases hc; done) | cases hx

/-- `active_callbacks_mutex_` is released again and again. -/
theorem cb_frees : e.LeadsTo (fun _ => True) (fun s => s.sh.cb = none) := by
  intro m _
  cases hs : (e.at_ m).sh.cb with
  | none => exact ⟨m, Nat.le_refl m, hs⟩
  | some j =>
    have hA := all e h0 m
    have hx : (e.at_ m).pcs[j]? = some _ := List.getElem?_eq_getElem (hA.owned.2.2.1 j hs)
    have hl := hA.inv.loc j _ hx
    have hh := hl.cb.2 hs
    have hj : j = 0 := by
      refine hl.mgr.1 ?_
      have hc := hl.inCb rfl
      generalize (e.at_ m).pcs[j]'(hA.owned.2.2.1 j hs) = x at hh hc
      cases x with
      | hCall rest => rfl
      | evLock h k | evTest h k | evCall h k | evRel h k =>
        cases k with
        | none => cases hh
        | some rest => rfl
      | _ => first | (cases hc; done) | cases hh
    subst hj
    exact round_ends e hf h0 _ hh (hl.inCb rfl) m hx

/-- A thread with `event_mutex_` returns from its call. -/
theorem event_returns (i : Nat) (x : PC) (h : Nat) (hx : x.ev = some h) (hc : x.inCb = false) :
    e.LeadsTo (fun s => s.pcs[i]? = some x) (fun s => s.pcs[i]? = some .idle ∧ (s.sh.hs h).event = none) := by
  have intf := internal_frees e hf h0 h
  have out : ∀ x, (x = .setOut h ∨ x = .unsetOut h) →
      e.LeadsTo (fun s => s.pcs[i]? = some x) (fun s => s.pcs[i]? = some .idle ∧ (s.sh.hs h).event = none) := by
    intro x hx
    refine moves e hf h0 i x (by rcases hx with rfl | rfl <;> rfl) _
      (fun _ => by rcases hx with rfl | rfl <;> rfl) ?_
    intro s sh y b _ _ hr s' h2 h3
    rcases hx with rfl | rfl <;> cases hr <;> exact ⟨h3, by rw [h2, put_same]⟩
  have reg := next_takes e hf h0 (fun s => s.cb = none) (cb_frees e hf h0) i (.setReg h) rfl _ (fun y => y = .setOut h)
    (fun s hs => by simp only [run, hs]; rfl) (fun _ _ _ _ hr => by cases hr; rfl)
    (fun y hy => out y (Or.inl hy))
  have mgr := next e hf h0 i (.setMgr h) rfl _ (fun y => y = .setOut h ∨ y = .setReg h) (fun _ => rfl)
    (fun _ _ _ _ hr => by cases hr <;> simp)
    (fun y hy => by rcases hy with rfl | rfl; exact out _ (Or.inl rfl); exact reg)
  have rel := fun was => next e hf h0 i (.setRel h was) rfl _ (fun y => y = .setOut h ∨ y = .setMgr h) (fun _ => rfl)
    (fun _ _ _ _ hr => by cases hr <;> simp)
    (fun y hy => by rcases hy with rfl | rfl; exact out _ (Or.inl rfl); exact mgr)
  have flag := next e hf h0 i (.setFlag h) rfl _ (fun y => ∃ was, y = .setRel h was) (fun _ => rfl)
    (fun _ _ _ _ hr => by cases hr; exact ⟨_, rfl⟩) (fun y hy => by obtain ⟨was, rfl⟩ := hy; exact rel was)
  have int := next_takes e hf h0 (fun s => (s.hs h).internal = none) intf i (.setInternal h) rfl _
    (fun y => y = .setFlag h) (fun s hs => by simp only [run, hs]; rfl)
    (fun _ _ _ _ hr => by cases hr; rfl) (fun y hy => by subst hy; exact flag)
  have ureg := next_takes e hf h0 (fun s => s.cb = none) (cb_frees e hf h0) i (.unsetReg h) rfl _
    (fun y => y = .unsetOut h) (fun s hs => by simp only [run, hs]; rfl) (fun _ _ _ _ hr => by cases hr; rfl)
    (fun y hy => out y (Or.inr hy))
  have umgr := next e hf h0 i (.unsetMgr h) rfl _ (fun y => y = .unsetOut h ∨ y = .unsetReg h) (fun _ => rfl)
    (fun _ _ _ _ hr => by cases hr <;> simp)
    (fun y hy => by rcases hy with rfl | rfl; exact out _ (Or.inr rfl); exact ureg)
  have urel := next e hf h0 i (.unsetRel h) rfl _ (fun y => y = .unsetMgr h) (fun _ => rfl)
    (fun _ _ _ _ hr => by cases hr; rfl) (fun y hy => by subst hy; exact umgr)
  have uflag := next e hf h0 i (.unsetFlag h) rfl _ (fun y => y = .unsetRel h) (fun _ => rfl)
    (fun _ _ _ _ hr => by cases hr; rfl) (fun y hy => by subst hy; exact urel)
  have uint := next_takes e hf h0 (fun s => (s.hs h).internal = none) intf i (.unsetInternal h) rfl _
    (fun y => y = .unsetFlag h) (fun s hs => by simp only [run, hs]; rfl)
    (fun _ _ _ _ hr => by cases hr; rfl) (fun y hy => by subst hy; exact uflag)
  have utest := next e hf h0 i (.unsetTest h) rfl _ (fun y => y = .unsetInternal h ∨ y = .unsetOut h) (fun _ => rfl)
    (fun _ _ _ _ hr => by cases hr <;> simp)
    (fun y hy => by rcases hy with rfl | rfl; exact uint; exact out _ (Or.inr rfl))
  cases x <;> first | (cases hc; done) | cases hx
  · exact int
  · exact flag
  · exact rel _
  · exact mgr
  · exact reg
  · exact out _ (Or.inl rfl)
  · exact utest
  · exact uint
  · exact uflag
  · exact urel
  · exact umgr
  · exact ureg
  · exact out _ (Or.inr rfl)

theorem event_frees (h : Nat) : e.LeadsTo (fun _ => True) (fun s => (s.sh.hs h).event = none) := by
  intro m _
  cases hs : ((e.at_ m).sh.hs h).event with
  | none => exact ⟨m, Nat.le_refl m, hs⟩
  | some j =>
    have hA := all e h0 m
    have hx : (e.at_ m).pcs[j]? = some _ := List.getElem?_eq_getElem (hA.owned.1 h j hs)
    obtain ⟨k, hk, h⟩ := event_returns e hf h0 j _ h (((hA.inv.loc j _ hx).event h).2 hs)
      ((hA.inv.loc j _ hx).inCb rfl) m hx
    exact ⟨k, hk, h.2⟩

/-- C108: under fair scheduling every call of `set_callback`, `unset_callback` (and so the destructor) and
`simulate_event_occurred` of any handler returns, however many signals arrive: whatever a client is doing, it is outside
any call some time later.  What is missing: callbacks that use their own handler, see `C108_negation_unset` and
`C108_negation_change`. -/
theorem C108_returns_partial (i : Nat) (hi : i ≠ 0) :
    e.LeadsTo (fun s => i < s.pcs.length) (fun s => s.pcs[i]? = some .idle) := by
  have ev : ∀ x h, x.ev = some h → x.inCb = false →
      e.LeadsTo (fun s => s.pcs[i]? = some x) (fun s => s.pcs[i]? = some .idle) :=
    fun x h hx hc => (event_returns e hf h0 i x h hx hc).mono (fun _ h => h) (fun _ h => h.1)
  have set := fun h => next_takes e hf h0 (fun s => (s.hs h).event = none) (event_frees e hf h0 h) i (.setLock h) rfl _
    (fun y => y = .setInternal h) (fun s hs => by simp only [run, hs]; rfl)
    (fun _ _ _ _ hr => by cases hr; rfl) (fun y hy => by subst hy; exact ev _ h rfl rfl)
  have unset := fun h => next_takes e hf h0 (fun s => (s.hs h).event = none) (event_frees e hf h0 h) i (.unsetLock h) rfl _
    (fun y => y = .unsetTest h) (fun s hs => by simp only [run, hs]; rfl)
    (fun _ _ _ _ hr => by cases hr; rfl) (fun y hy => by subst hy; exact ev _ h rfl rfl)
  have done : ∀ x, (x = .sigNotify ∨ ∃ h, x = .evRel h none) →
      e.LeadsTo (fun s => s.pcs[i]? = some x) (fun s => s.pcs[i]? = some .idle) := by
    intro x hx
    refine moves e hf h0 i x (by rcases hx with rfl | ⟨_, rfl⟩ <;> rfl) _
      (fun _ => by rcases hx with rfl | ⟨_, rfl⟩ <;> rfl) ?_
    intro s sh y b _ _ hr s' h2 h3
    rcases hx with rfl | ⟨_, rfl⟩ <;> cases hr <;> exact h3
  have sig := next e hf h0 i .sigInc rfl _ (fun y => y = .sigNotify) (fun _ => rfl)
    (fun _ _ _ _ hr => by cases hr; rfl) (fun y hy => done y (Or.inl hy))
  have ecall := fun h => next e hf h0 i (.evCall h none) rfl _ (fun y => y = .evRel h none) (fun _ => rfl)
    (fun _ _ _ _ hr => by cases hr; rfl) (fun y hy => done y (Or.inr ⟨h, hy⟩))
  have etest := fun h => next e hf h0 i (.evTest h none) rfl _ (fun y => y = .evCall h none ∨ y = .evRel h none)
    (fun _ => rfl) (fun _ _ _ _ hr => by cases hr <;> simp)
    (fun y hy => by rcases hy with rfl | rfl; exact ecall h; exact done _ (Or.inr ⟨h, rfl⟩))
  have elock := fun h => next_takes e hf h0 (fun s => (s.hs h).internal = none) (internal_frees e hf h0 h) i
    (.evLock h none) rfl _ (fun y => y = .evTest h none) (fun s hs => by simp only [run, hs]; rfl)
    (fun _ _ _ _ hr => by cases hr; rfl) (fun y hy => by subst hy; exact etest h)
  intro m hm
  have hA := all e h0 m
  have hx : (e.at_ m).pcs[i]? = some _ := List.getElem?_eq_getElem hm
  have hl := hA.inv.loc i _ hx
  have ht : ¬ ((e.at_ m).pcs[i]).mgr = true := fun h => hi (hl.mgr.1 h)
  have hc := hl.inCb rfl
  generalize (e.at_ m).pcs[i] = x at hx ht hc
  cases x with
  | idle => exact ⟨m, Nat.le_refl m, hx⟩
  | sigInc => exact sig m hx
  | sigNotify => exact done _ (Or.inl rfl) m hx
  | setLock h => exact set h m hx
  | unsetLock h => exact unset h m hx
  | evLock h k | evTest h k | evCall h k | evRel h k =>
    cases k with
    | none => first | exact elock h m hx | exact etest h m hx | exact ecall h m hx | exact done _ (Or.inr ⟨h, rfl⟩) m hx
    | some rest => exact absurd rfl ht
  | _ => first | (cases hc; done) | exact ev _ _ rfl rfl m hx | exact absurd rfl ht

end

/-- Labels: client 1 sets the callback of handler 0. -/
def sets : List (Label Op) := .start 1 (.set 0) :: List.replicate 7 (.run 1)

/-- Labels: a signal arrives in client 1, and the manager's thread starts a round. -/
def signals : List (Label Op) := [.start 1 .signal, .run 1, .run 1, .run 0, .run 0]

/-- A result with a property that can be evaluated. -/
theorem some_of {α : Type} {o : Option α} (q : α → Bool) (h : o.any q = true) : ∃ s, o = some s ∧ q s = true := by
  cases o with
  | none => cases h
  | some s => exact ⟨s, rfl, h⟩

/-- Nothing happens when two threads are inside calls and cannot go on. -/
theorem stuck {c : Callback} {s : Conf (prog c)} {x y : PC} (hs : s.pcs = [x, y]) (hx : x.active = true)
    (hy : y.active = true) (h0 : run c 0 s.sh x = none) (h1 : run c 1 s.sh y = none) (l : Label Op) :
    (prog c).system.step s l = none := by
  have hst : ∀ (z : PC), z.active = true → (∀ op, start z op = none) ∧ woken z = none := by
    intro z hz
    refine ⟨fun op => ?_, ?_⟩ <;> cases z <;> first | rfl | cases hz
  have key : ∀ (i : Nat) {α : Type} (f : PC → Option α), f x = none → f y = none → (s.pcs[i]?.bind f) = none := by
    intro i α f fx fy
    rw [hs]
    match i with
    | 0 => exact fx
    | 1 => exact fy
    | i + 2 => rfl
  cases l with
  | start i op =>
    show Option.map _ _ = _
    rw [key i (fun x => start x op) ((hst x hx).1 op) ((hst y hy).1 op)]
    rfl
  | run i =>
    show Option.map _ _ = _
    match i with
    | 0 => rw [hs]; show Option.map _ (run c 0 s.sh x) = _; rw [h0]; rfl
    | 1 => rw [hs]; show Option.map _ (run c 1 s.sh y) = _; rw [h1]; rfl
    | i + 2 => rw [hs]; rfl
  | spurious i =>
    show Option.map _ _ = _
    rw [key i woken (hst x hx).2 (hst y hy).2]
    rfl
  | timeout i =>
    show Option.map _ _ = _
    rw [key i (fun _ => none) rfl rfl]
    rfl

/-- C108, negation: a callback that unsets itself, called for a signal, waits forever for `active_callbacks_mutex_`, which
the manager's thread itself holds, and with it everyone who sets or unsets the callback, so the destructor: nobody takes
any step any more. -/
theorem C108_negation_unset : ∃ s : Conf (prog .unset), (prog .unset).system.Reachable (init .unset 1) s ∧
    s.sh.cb = some 0 ∧ s.pcs = [.cbReg 0 (some []), .unsetLock 0] ∧ ∀ l, (prog .unset).system.step s l = none := by
  obtain ⟨s, hs, hq⟩ := some_of (o := (prog .unset).system.exec (init .unset 1)
    (sets ++ signals ++ List.replicate 8 (.run 0) ++ [.start 1 (.unset 0)]))
    (fun s => decide (s.sh.cb = some 0 ∧ (s.sh.hs 0).event.isSome ∧ s.pcs = [.cbReg 0 (some []), .unsetLock 0]))
    (by decide +kernel)
  obtain ⟨h1, h2, h3⟩ := of_decide_eq_true hq
  exact ⟨s, (prog .unset).system.exec_reachable' _ hs, h1, h3,
    stuck h3 rfl rfl (by simp [run, h1]) (by simp [run, h2])⟩

/-- C108, negation: a callback that calls `set_callback`, called for a signal, deadlocks with a client that calls
`unset_callback` (or the destructor) at that moment: each holds a mutex the other one needs. -/
theorem C108_negation_change : ∃ s : Conf (prog .change), (prog .change).system.Reachable (init .change 1) s ∧
    (s.sh.hs 0).internal = some 0 ∧ (s.sh.hs 0).event = some 1 ∧ s.pcs = [.cbLock 0 (some []), .unsetInternal 0] ∧
    ∀ l, (prog .change).system.step s l = none := by
  obtain ⟨s, hs, hq⟩ := some_of (o := (prog .change).system.exec (init .change 1)
    (sets ++ signals ++ List.replicate 5 (.run 0) ++ [.start 1 (.unset 0), .run 1, .run 1]))
    (fun s => decide ((s.sh.hs 0).internal = some 0 ∧ (s.sh.hs 0).event = some 1 ∧
      s.pcs = [.cbLock 0 (some []), .unsetInternal 0]))
    (by decide +kernel)
  obtain ⟨h1, h2, h3⟩ := of_decide_eq_true hq
  exact ⟨s, (prog .change).system.exec_reachable' _ hs, h1, h2, h3,
    stuck h3 rfl rfl (by simp [run, h2]) (by simp [run, h1])⟩

/-- Labels: the rest of a round with one callback, up to its last step. -/
def serves : List (Label Op) := List.replicate 5 (.run 0)

/-- Labels: client 1 unsets the callback of handler 0, up to the last step. -/
def unsets : List (Label Op) := .start 1 (.unset 0) :: List.replicate 7 (.run 1)

/-- The hypotheses of `C107_registered` are met with a set callback, and `C109_round` has a round to speak about. -/
example : ∃ s s1 s2 s3 : C, (prog .plain).system.Reachable (init .plain 1) s ∧ s.sh.regs < 2 ^ 32 ∧
    (s.sh.hs 0).set = true ∧ (s.sh.hs 0).event = none ∧
    (∀ (i : Nat) (x : PC), s.pcs[i]? = some x → ¬ x.disturbs 0) ∧ s.pcs[0]? = some .hCb ∧
    (prog .plain).system.step s (.run 0) = some s1 ∧ (prog .plain).system.exec s1 serves = some s2 ∧
    (∀ ls1 t, ls1 <+: serves → (prog .plain).system.exec s1 ls1 = some t → t.sh.cb = some 0) ∧
    (prog .plain).system.step s2 (.run 0) = some s3 ∧ s3.sh.cb = none ∧ (s3.sh.hs 0).calls = 1 := by
  obtain ⟨s, hs, hq⟩ := some_of (o := (prog .plain).system.exec (init .plain 1) (sets ++ signals))
    (fun (s : C) => decide (s.sh.regs < 2 ^ 32 ∧ (s.sh.hs 0).set = true ∧ (s.sh.hs 0).event = none ∧
      s.pcs = [.hCb, .idle]) && ((prog .plain).system.step s (.run 0)).any fun (s1 : C) =>
        ((List.range 6).all fun k =>
          ((prog .plain).system.exec s1 (serves.take k)).any fun (t : C) => decide (t.sh.cb = some 0)) &&
        ((prog .plain).system.exec s1 serves).any fun (s2 : C) =>
        ((prog .plain).system.step s2 (.run 0)).any fun (s3 : C) => decide (s3.sh.cb = none ∧ (s3.sh.hs 0).calls = 1))
    (by decide +kernel)
  rw [Bool.and_eq_true] at hq
  obtain ⟨h1, h2, h3, h4⟩ := of_decide_eq_true hq.1
  obtain ⟨s1, hs1, hq1⟩ := some_of _ hq.2
  rw [Bool.and_eq_true] at hq1
  obtain ⟨s2, hs2, hq2⟩ := some_of _ hq1.2
  obtain ⟨s3, hs3, hq3⟩ := some_of _ hq2
  obtain ⟨h5, h6⟩ := of_decide_eq_true hq3
  refine ⟨s, s1, s2, s3, (prog .plain).system.exec_reachable' _ hs, h1, h2, h3, ?_, by rw [h4]; rfl, hs1, hs2, ?_, hs3,
    h5, h6⟩
  · intro i x hx
    rw [h4] at hx
    match i with
    | 0 => cases hx; exact id
    | 1 => cases hx; exact id
    | i + 2 => cases hx
  · intro ls1 t hp he
    obtain ⟨t', ht, hc⟩ := some_of _ (List.all_eq_true.1 hq1.1 ls1.length
      (List.mem_range.2 (Nat.lt_succ_of_le hp.length_le)))
    rw [← List.prefix_iff_eq_take.1 hp, he] at ht
    cases ht
    exact of_decide_eq_true hc

/-- The hypotheses of `C107_unused` are met. -/
example : ∃ s s' s'' : C, (prog .plain).system.Reachable (init .plain 1) s ∧ s.pcs[1]? = some (.unsetOut 0) ∧
    (prog .plain).system.step s (.run 1) = some s' ∧
    (∀ (j : Nat) (x : PC), s'.pcs[j]? = some x → ¬ x.working 0) ∧
    (prog .plain).system.exec s' signals = some s'' ∧ (s''.sh.hs 0).calls = 0 := by
  obtain ⟨s, hs, hq⟩ := some_of (o := (prog .plain).system.exec (init .plain 1) (sets ++ unsets))
    (fun (s : C) => decide (s.pcs[1]? = some (PC.unsetOut 0)) && ((prog .plain).system.step s (.run 1)).any fun (s' : C) =>
      decide (s'.pcs = [.hTest, .idle]) && ((prog .plain).system.exec s' signals).any fun (s'' : C) =>
        decide ((s''.sh.hs 0).calls = 0))
    (by decide +kernel)
  rw [Bool.and_eq_true] at hq
  obtain ⟨s1, hs1, hq1⟩ := some_of _ hq.2
  rw [Bool.and_eq_true] at hq1
  obtain ⟨s2, hs2, hq2⟩ := some_of _ hq1.2
  refine ⟨s, s1, s2, (prog .plain).system.exec_reachable' _ hs, of_decide_eq_true hq.1, hs1, ?_, hs2,
    of_decide_eq_true hq2⟩
  intro i x hx
  rw [of_decide_eq_true hq1.1] at hx
  match i with
  | 0 => cases hx; exact id
  | 1 => cases hx; exact id
  | i + 2 => cases hx

/-- Labels: all of it. -/
def whole : List (Label Op) := sets ++ signals ++ .run 0 :: serves ++ .run 0 :: unsets ++ [.run 1, .run 0, .run 0]

/-- The hypotheses of `C108_returns_partial` are met: an execution in which a callback is set, called for a signal and
unset. -/
example : ∃ e : (prog .plain).system.Execution, e.Fair ∧ e.at_ 0 = init .plain 1 ∧ 1 < (e.at_ 0).pcs.length ∧
    ∃ m, ((e.at_ m).sh.hs 0).calls = 1 := by
  obtain ⟨s1, h1, hq⟩ := some_of (o := (prog .plain).system.exec (init .plain 1) whole)
    (fun (s : C) => decide (s.pcs = [.asleep, .idle])) (by decide +kernel)
  have hpcs := of_decide_eq_true hq
  obtain ⟨e, hf, h0, hat, hlab⟩ := (prog .plain).system.finite_fair' (init .plain 1) s1 _ h1 (by
    intro i
    show Option.map _ _ = _
    rw [hpcs]
    match i with
    | 0 => rfl
    | 1 => rfl
    | i + 2 => rfl)
  refine ⟨e, hf, h0, by rw [h0]; decide, 19, ?_⟩
  obtain ⟨s, h2, h3⟩ := hat 19
  obtain ⟨s', h4, h5⟩ := some_of (o := (prog .plain).system.exec (init .plain 1) (whole.take 19))
    (fun (s : C) => decide ((s.sh.hs 0).calls = 1)) (by decide +kernel)
  rw [h2] at h4
  cases h4
  rw [h3]
  exact of_decide_eq_true h5

/-- Non-trivial case for `C107_registered` with callbacks that unset their own handler: client 1 simulates an event, whose
callback does so, and sets the callback again. -/
example : ∃ s s' : Conf (prog .unset), (prog .unset).system.Reachable (init .unset 1) s ∧
    (prog .unset).system.Reachable s s' ∧
    s.pcs = [.hTest, .idle] ∧ (s.sh.hs 0).event = none ∧ (s.sh.hs 0).set = false ∧ s.sh.callbacks = [] ∧
    (s.sh.hs 0).calls = 1 ∧
    s'.pcs = [.hTest, .idle] ∧ (s'.sh.hs 0).event = none ∧ (s'.sh.hs 0).set = true ∧ s'.sh.callbacks = [(2, 0)] :=
  ⟨_, _, (prog .unset).system.exec_reachable' (sets ++ .start 1 (.event 0) :: List.replicate 9 (.run 1)) rfl,
    (prog .unset).system.exec_reachable' sets rfl, rfl, rfl, rfl, rfl, rfl, rfl, rfl, rfl, rfl⟩

end Verif.SignalEvent
