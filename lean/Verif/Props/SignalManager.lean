import Verif.Lemmas.SignalManagerLive
/-!
C49, C50, C80: `SignalManager`.
-/
namespace Verif.SignalManager
open Verif.Threads

variable {C : Type}

/-! ### C49 -/

/-- C49: there are never more rounds of callbacks than signals, and with fewer than 2^32 signals none is
dropped: each has had its round, is counted, or has been taken by the handler thread for the round that
comes next. -/
theorem C49_rounds (n : Nat) (s : Conf (prog C)) (hr : (prog C).system.Reachable (init C n) s) :
    s.sh.rounds.length ≤ s.sh.delivered ∧
    (s.sh.delivered < 2 ^ 32 →
      (s.pcs[0]? ≠ some .hCb → s.sh.delivered = s.sh.rounds.length + s.sh.received) ∧
      (s.pcs[0]? = some .hCb → s.sh.delivered = s.sh.rounds.length + s.sh.received + 1)) := by
  obtain ⟨x, hx⟩ := handler_exists hr
  obtain ⟨h1, h2⟩ := ((inv_reachable hr).loc 0 x hx).count rfl
  refine ⟨by omega, ?_⟩
  intro hlt
  have ht : (s.pcs[0]? ≠ some .hCb → x.taken = 0) ∧ (s.pcs[0]? = some .hCb → x.taken = 1) := by
    rw [hx]
    constructor
    · intro h
      cases x <;> first | rfl | exact absurd rfl h
    · intro h
      cases h
      rfl
  have e : (s.sh.delivered - s.sh.rounds.length - x.taken) % 4294967296 =
      s.sh.delivered - s.sh.rounds.length - x.taken := Nat.mod_eq_of_lt (by
        have : (2 : Nat) ^ 32 = 4294967296 := rfl
        omega)
  constructor
  · intro h
    have := ht.1 h
    omega
  · intro h
    have := ht.2 h
    omega

/-- C49: a round calls every callback that is registered once, in the order of the ids: what is still to be
called together with what was called is what is registered, at any moment of the round. -/
theorem C49_round (n : Nat) (s : Conf (prog C)) (hr : (prog C).system.Reachable (init C n) s)
    (rest : List (Nat × C)) (h : s.pcs[0]? = some (.hCall rest)) :
    (∃ old called, s.sh.rounds = old ++ [called] ∧ called ++ rest = s.sh.callbacks) ∧
    s.sh.callbacks.Pairwise (fun p q => p.1 < q.1) := by
  have hI := inv_reachable hr
  exact ⟨(hI.loc 0 _ h).round rest rfl, hI.glob.sorted⟩

/-- C49: the rounds of the past do not change, and a step adds a round or a call of the current round, or
nothing. -/
theorem C49_log (n : Nat) (s s' : Conf (prog C)) (l : Label (Op C))
    (hr : (prog C).system.Reachable (init C n) s) (hs : (prog C).system.step s l = some s') :
    s'.sh.rounds = s.sh.rounds ∨ s'.sh.rounds = s.sh.rounds ++ [[]] ∨
    ∃ old called p rest, s.pcs[0]? = some (.hCall (p :: rest)) ∧ s.sh.rounds = old ++ [called] ∧
      s'.sh.rounds = old ++ [called ++ [p]] ∧ s'.pcs[0]? = some (.hCall rest) := by
  have hI := inv_reachable hr
  have hst := Prog.step_stepped hs
  rcases Prog.stepped_sh hst with e | ⟨i, x, y, b, hl, hx, hrun⟩
  · exact Or.inl (by rw [e])
  · have hrun : run i s.sh x = some (s'.sh, y, b) := hrun
    have hlo := hI.loc i x hx
    cases hh : x.handler with
    | false =>
      left
      have hc := (client_run hh hrun).1
      generalize s'.sh = t at hc
      cases hc <;> rfl
    | true =>
      have := eq_zero hlo hh
      subst this
      cases x with
      | hCall rest =>
        cases rest with
        | nil =>
          left
          generalize s'.sh = t at hrun
          cases hrun
          rfl
        | cons p rest =>
          right; right
          obtain ⟨old, cur, e1, e2⟩ := hlo.round _ rfl
          subst hl
          obtain ⟨sh, z, c, hr', e3, hz⟩ := Prog.stepped_run hst hx
          change run 0 s.sh (.hCall (p :: rest)) = _ at hr'
          cases hr'
          refine ⟨old, cur, p, rest, hx, e1, ?_, hz⟩
          rw [e3]
          show logCall p s.sh.rounds = _
          rw [e1, logCall_append]
      | hCb =>
        right; left
        generalize s'.sh = t at hrun
        simp only [run] at hrun
        split at hrun <;> cases hrun
        rfl
      | _ =>
        left
        generalize s'.sh = t at hrun
        simp only [run] at hrun
        (repeat' split at hrun) <;> simp only [Option.some.injEq, Prod.mk.injEq, reduceCtorEq] at hrun <;>
          (obtain ⟨rfl, -⟩ := hrun; rfl)

/-- Signals are waiting, the `k` rounds are those so far, the manager lives. -/
def Pending (k : Nat) (s : Conf (prog C)) : Prop :=
  s.sh.rounds.length = k ∧ 0 < s.sh.received ∧ s.sh.stop = false ∧ s.sh.delivered < 2 ^ 32

/-- There was a further round, or the manager does not live any more, or the counter may have wrapped. -/
def Over (k : Nat) (s : Conf (prog C)) : Prop :=
  k < s.sh.rounds.length ∨ s.sh.stop = true ∨ 2 ^ 32 ≤ s.sh.delivered

theorem pending_client {k : Nat} {s : Conf (prog C)} {t : Sh C} (hF : Full s) (hc : Client s.sh t)
    (h : s.sh.rounds.length = k ∧ s.sh.stop = false ∧ s.sh.delivered < 2 ^ 32) :
    (t.rounds.length = k ∧ t.stop = false ∧ t.delivered < 2 ^ 32 ∧ (0 < s.sh.received → 0 < t.received)) ∨
    (t.stop = true ∨ 2 ^ 32 ≤ t.delivered) := by
  obtain ⟨h1, h2, h3⟩ := h
  cases hc with
  | same => exact Or.inl ⟨h1, h2, h3, id⟩
  | signal =>
    by_cases hd : s.sh.delivered + 1 < 2 ^ 32
    · refine Or.inl ⟨h1, h2, hd, fun _ => ?_⟩
      obtain ⟨x, hx⟩ := hF.handler
      have hco := ((hF.inv.loc 0 x hx).count rfl).2
      show 0 < bump s.sh.received
      have : (2 : Nat) ^ 32 = 4294967296 := rfl
      rw [this] at hd
      have : s.sh.received ≤ s.sh.delivered := by
        rw [hco]
        exact Nat.le_trans (Nat.mod_le _ _) (by omega)
      unfold bump
      rw [Nat.mod_eq_of_lt (by omega)]
      omega
    · exact Or.inr (Or.inr (Nat.le_of_not_lt hd))
  | register c _ => exact Or.inl ⟨h1, h2, h3, id⟩
  | unregister id _ => exact Or.inl ⟨h1, h2, h3, fun h => h⟩
  | stop _ => exact Or.inr (Or.inl rfl)

theorem pending_keep {k : Nat} {s s' : Conf (prog C)} {l : Label (Op C)} (hF : Full s)
    (h : s.sh.rounds.length = k ∧ s.sh.stop = false ∧ s.sh.delivered < 2 ^ 32)
    (hs : (prog C).Stepped s l s') (hl : l ≠ .run 0) :
    (s'.sh.rounds.length = k ∧ s'.sh.stop = false ∧ s'.sh.delivered < 2 ^ 32 ∧
      (0 < s.sh.received → 0 < s'.sh.received)) ∨ Over k s' := by
  rcases Prog.stepped_sh hs with e | ⟨i, x, y, b, e, hx, hr⟩
  · rw [e]; exact Or.inl ⟨h.1, h.2.1, h.2.2, id⟩
  · have hr : run i s.sh x = some (s'.sh, y, b) := hr
    have hlo := hF.inv.loc i x hx
    cases hh : x.handler with
    | true =>
      have := eq_zero hlo hh
      subst this
      exact absurd e hl
    | false =>
      rcases pending_client hF (client_run hh hr).1 h with h | h | h
      · exact Or.inl h
      · exact Or.inr (Or.inr (Or.inl h))
      · exact Or.inr (Or.inr (Or.inr h))

/-- C49: under fair scheduling and while the manager lives, signals that are counted get a further round of
callbacks, when the handler thread is not between its last look at the counter and its sleep, and also when
it sleeps and the notification of a signal is to come.  What is missing: a signal that arrives in that
window is not handled (before another one arrives), see `C49_negation`. -/
theorem C49_handled_partial (n : Nat) (e : (prog C).system.Execution) (hf : e.Fair)
    (h0 : (prog C).system.Reachable (init C n) (e.at_ 0)) (k : Nat) :
    e.LeadsTo
      (fun s => s.sh.rounds.length = k ∧ 0 < s.sh.received ∧
        ((s.pcs[0]? ≠ some .hTest2 ∧ s.pcs[0]? ≠ some .hSleep ∧ s.pcs[0]? ≠ some .asleep) ∨
          (s.pcs[0]? = some .asleep ∧ ∃ j : Nat, s.pcs[j]? = some .sigNotify)))
      (fun s => k < s.sh.rounds.length ∨ s.sh.stop = true ∨ 2 ^ 32 ≤ s.sh.delivered) := by
  have hF : ∀ m, Full (e.at_ m) := fun m => full_reachable (e.reachable h0 m)
  have keep : ∀ (s : Conf (prog C)) (l : Label (Op C)) (s' : Conf (prog C)),
      Full s → Full s' → Pending k s → (prog C).Stepped s l s' → l ≠ .run 0 → Pending k s' ∨ Over k s' := by
    intro s l s' h1 _ h3 h4 h5
    rcases pending_keep h1 ⟨h3.1, h3.2.2.1, h3.2.2.2⟩ h4 h5 with ⟨a, b, c, d⟩ | h
    · exact Or.inl ⟨a, d h3.2.1, b, c⟩
    · exact Or.inr h
  have cb : e.LeadsTo (fun s => s.pcs[0]? = some .hCb ∧
      (s.sh.rounds.length = k ∧ s.sh.stop = false ∧ s.sh.delivered < 2 ^ 32)) (Over k) := by
    refine hstep e hf hF .hCb rfl rfl nofun _ _ ?_ ?_
    · intro s l s' h1 _ h3 h4 h5
      rcases pending_keep h1 h3 h4 h5 with ⟨a, b, c, d⟩ | h
      · exact Or.inl ⟨a, b, c⟩
      · exact Or.inr h
    · intro s s' y b _ _ hK hr _
      left
      generalize s'.sh = t at hr
      simp only [run] at hr
      split at hr <;> cases hr
      show k < (s.sh.rounds ++ [[]]).length
      simp [hK.1]
  have go : ∀ x : PC C, x.act = true → x.handler = true → x ≠ .hEnd →
      (∀ (s : Conf (prog C)) (t : Sh C) y c, Full s → s.pcs[0]? = some x → Pending k s →
        run 0 s.sh x = some (t, y, c) →
        (t.rounds.length = k ∧ t.stop = false ∧ t.delivered < 2 ^ 32) ∧
        ((0 < t.received ∧ e.LeadsTo (fun s => s.pcs[0]? = some y ∧ Pending k s) (Over k)) ∨ y = .hCb)) →
      e.LeadsTo (fun s => s.pcs[0]? = some x ∧ Pending k s) (Over k) := by
    intro x h1 h2 h3 h4
    refine (Prog.runs' e hf Full hF 0 x (active h1) (Pending k) (fun s => Over k s ∨
      ∃ y, s.pcs[0]? = some y ∧ (s.sh.rounds.length = k ∧ s.sh.stop = false ∧ s.sh.delivered < 2 ^ 32) ∧
        ((0 < s.sh.received ∧ e.LeadsTo (fun s => s.pcs[0]? = some y ∧ Pending k s) (Over k)) ∨ y = .hCb))
      ?_ ?_ ?_).trans ?_
    · intro s l s' h1 h2 _ h4 h5 h6
      rcases keep s l s' h1 h2 h4 h5 h6 with h | h
      · exact Or.inl h
      · exact Or.inr (Or.inl h)
    · intro s a b _
      exact handler_able a b h2 (by rintro rfl; cases h1) h3
    · intro s s' a b hx hK hs
      obtain ⟨sh, z, c, hr, e1, hz⟩ := Prog.stepped_run hs hx
      obtain ⟨h5, h6⟩ := h4 s sh z c a hx hK hr
      exact Or.inr ⟨z, hz, by rw [e1]; exact h5, by rw [e1]; exact h6⟩
    · rintro m (h | ⟨y, hy, h5, h6 | rfl⟩)
      · exact ⟨m, Nat.le_refl m, h⟩
      · exact h6.2 m ⟨hy, h5.1, h6.1, h5.2⟩
      · exact cb m ⟨hy, h5⟩
  have dec := go .hDec rfl rfl nofun (by
    intro s t y c _ _ hp hr
    simp only [run, Option.some.injEq, Prod.mk.injEq] at hr
    obtain ⟨rfl, rfl, -⟩ := hr
    exact ⟨⟨hp.1, hp.2.2⟩, Or.inr rfl⟩)
  have more := go .hMore rfl rfl nofun (by
    intro s t y c _ _ hp hr
    simp only [run, if_pos hp.2.1] at hr
    cases hr
    exact ⟨⟨hp.1, hp.2.2⟩, Or.inl ⟨hp.2.1, dec⟩⟩)
  have stop := go .hStop rfl rfl nofun (by
    intro s t y c _ _ hp hr
    simp only [run, hp.2.2.1] at hr
    cases hr
    exact ⟨⟨hp.1, hp.2.2⟩, Or.inl ⟨hp.2.1, more⟩⟩)
  have test := go .hTest rfl rfl nofun (by
    intro s t y c _ _ hp hr
    simp only [run, if_pos hp.2.1] at hr
    cases hr
    exact ⟨⟨hp.1, hp.2.2⟩, Or.inl ⟨hp.2.1, stop⟩⟩)
  have lock := go .hLock rfl rfl nofun (by
    intro s t y c _ _ hp hr
    simp only [run] at hr
    split at hr <;> cases hr
    exact ⟨⟨hp.1, hp.2.2⟩, Or.inl ⟨hp.2.1, test⟩⟩)
  have ready := go .hReady rfl rfl nofun (by
    intro s t y c _ _ hp hr
    simp only [run] at hr
    split at hr <;> cases hr
    exact ⟨⟨hp.1, hp.2.2⟩, Or.inl ⟨hp.2.1, test⟩⟩)
  have loop := go .hLoop rfl rfl nofun (by
    intro s t y c _ _ hp hr
    simp only [run, hp.2.2.1] at hr
    cases hr
    exact ⟨⟨hp.1, hp.2.2⟩, Or.inl ⟨hp.2.1, lock⟩⟩)
  have unlock := go .hUnlock rfl rfl nofun (by
    intro s t y c _ _ hp hr
    cases hr
    exact ⟨⟨hp.1, hp.2.2⟩, Or.inl ⟨hp.2.1, loop⟩⟩)
  have call : ∀ rest : List (Nat × C),
      e.LeadsTo (fun s => s.pcs[0]? = some (.hCall rest) ∧ Pending k s) (Over k) := by
    intro rest
    induction rest with
    | nil =>
      refine go (.hCall []) rfl rfl nofun ?_
      intro s t y c _ _ hp hr
      cases hr
      exact ⟨⟨hp.1, hp.2.2⟩, Or.inl ⟨hp.2.1, unlock⟩⟩
    | cons p rest ih =>
      refine go (.hCall (p :: rest)) rfl rfl nofun ?_
      intro s t y c hFs hx hp hr
      obtain ⟨old, cur, e1, -⟩ := (hFs.inv.loc 0 _ hx).round _ rfl
      cases hr
      have : (logCall p s.sh.rounds).length = s.sh.rounds.length := by rw [e1, logCall_append]; simp
      exact ⟨⟨this.trans hp.1, hp.2.2⟩, Or.inl ⟨hp.2.1, ih⟩⟩
  have asleep : ∀ j : Nat, e.LeadsTo (fun s => s.pcs[j]? = some .sigNotify ∧
      (s.pcs[0]? = some .asleep ∧ Pending k s)) (Over k) := by
    intro j
    refine (Prog.runs' e hf Full hF j .sigNotify (active rfl) _ (fun s => (s.pcs[0]? = some .hReady ∧ Pending k s) ∨
      Over k s) ?_ (fun _ _ _ _ => rfl) ?_).trans (.or ready (.refl e fun _ h => h))
    · intro s l s' h1 h2 _ h4 h5 _
      have hl : l ≠ .run 0 := by
        rintro rfl
        obtain ⟨sh, y, b, hr, -⟩ := Prog.stepped_run h5 h4.1
        cases hr
      rcases keep s l s' h1 h2 h4.2 h5 hl with h6 | h6
      · rcases Prog.frame_sleep h5 h4.1 (y := .hReady) rfl (fun op => by cases op <;> rfl) (fun _ => rfl) with
          h | h | ⟨z, h, -⟩
        · exact Or.inl ⟨h, h6⟩
        · exact Or.inr (Or.inl ⟨h, h6⟩)
        · cases h
      · exact Or.inr (Or.inr h6)
    · intro s s' h1 h2 h3 h4 h5
      have hj : 0 ≠ j := by
        rintro rfl
        rw [h4.1] at h3
        cases h3
      have hl : (Label.run j : Label (Op C)) ≠ .run 0 := by
        intro e
        cases e
        exact hj rfl
      rcases keep s _ s' h1 h2 h4.2 h5 hl with h6 | h6
      · obtain ⟨z, hz⟩ := h2.handler
        obtain ⟨w, hw, rfl⟩ := Prog.stepped_notify h5 h3 (y := .idle .void) (sh := s.sh) rfl hj hz
        rw [h4.1] at hw
        cases hw
        exact Or.inl ⟨hz, h6⟩
      · exact Or.inr h6
  intro m hm
  obtain ⟨h1, h2, h3⟩ := hm
  by_cases hstop : (e.at_ m).sh.stop = true
  · exact ⟨m, Nat.le_refl m, Or.inr (Or.inl hstop)⟩
  by_cases hd : 2 ^ 32 ≤ (e.at_ m).sh.delivered
  · exact ⟨m, Nat.le_refl m, Or.inr (Or.inr hd)⟩
  have hp : Pending k (e.at_ m) := ⟨h1, h2, by simpa using hstop, Nat.lt_of_not_le hd⟩
  obtain ⟨x, hx⟩ := (hF m).handler
  have hl := (hF m).inv.loc 0 x hx
  rcases h3 with ⟨h3, h4, h5⟩ | ⟨h3, j, hj⟩
  · cases x with
    | hLoop => exact loop m ⟨hx, hp⟩
    | hLock => exact lock m ⟨hx, hp⟩
    | hTest => exact test m ⟨hx, hp⟩
    | hTest2 => exact absurd hx h3
    | hSleep => exact absurd hx h4
    | asleep => exact absurd hx h5
    | hReady => exact ready m ⟨hx, hp⟩
    | hStop => exact stop m ⟨hx, hp⟩
    | hMore => exact more m ⟨hx, hp⟩
    | hDec => exact dec m ⟨hx, hp⟩
    | hCb => exact cb m ⟨hx, hp.1, hp.2.2⟩
    | hCall rest => exact call rest m ⟨hx, hp⟩
    | hUnlock => exact unlock m ⟨hx, hp⟩
    | hBreak => exact absurd (hl.stop rfl) hstop
    | hEnd => exact absurd (hl.stop rfl) hstop
    | _ => have := hl.role; cases this
  · exact asleep j m ⟨hj, h3, hp⟩

/-- C49 fails: a signal that arrives after the handler thread has seen that there is none and before it
sleeps is not handled: there is a fair execution in which a callback is registered, one signal is delivered,
the manager lives, and no round ever starts. -/
theorem C49_negation : ∃ e : (prog Nat).system.Execution, e.Fair ∧ e.at_ 0 = init Nat 1 ∧
    (∃ m, ∀ k, m ≤ k → (e.at_ k).sh.delivered = 1 ∧ (e.at_ k).sh.callbacks = [(1, 7)]) ∧
    ∀ k, (e.at_ k).sh.rounds = [] ∧ (e.at_ k).sh.stop = false := by
  obtain ⟨e, h1, h2, h3, -⟩ := (prog Nat).system.finite_fair (init Nat 1) _
    [.start 1 (.register 7), .run 1, .run 0, .run 0, .run 0, .run 0, .start 1 .signal, .run 1, .run 1, .run 0] rfl (by
      intro i
      match i with
      | 0 => rfl
      | 1 => rfl
      | i + 2 => rfl)
  refine ⟨e, h1, h2, ⟨10, ?_⟩, ?_⟩
  · intro k hk
    obtain ⟨s, hs, he⟩ := h3 k
    rw [he]
    rw [List.take_of_length_le (by exact hk)] at hs
    cases hs
    exact ⟨rfl, rfl⟩
  · intro k
    obtain ⟨s, hs, he⟩ := h3 k
    rw [he]
    clear he
    match k with
    | 0 | 1 | 2 | 3 | 4 | 5 | 6 | 7 | 8 | 9 => cases hs; exact ⟨rfl, rfl⟩
    | k + 10 =>
      rw [List.take_of_length_le (by simp)] at hs
      cases hs
      exact ⟨rfl, rfl⟩

/-- Non-trivial case: two callbacks, three signals, of which two have been handled. -/
example : ∃ s : Conf (prog Nat), (prog Nat).system.Reachable (init Nat 2) s ∧
    s.sh.delivered = 3 ∧ s.sh.received = 1 ∧ s.sh.rounds = [[(1, 7)], [(1, 7), (2, 8)]] ∧
    s.pcs[0]? = some (.hCall []) :=
  ⟨_, (prog Nat).system.exec_reachable'
    [.start 1 (.register 7), .run 1, .run 0, .run 0, .run 0, .run 0, .run 0, .start 1 .signal, .run 1, .run 1,
      .run 0, .run 0, .run 0, .run 0, .run 0, .run 0, .start 1 .signal, .run 1, .run 0, .start 2 (.register 8),
      .run 0, .run 2, .run 0, .run 0, .run 0, .run 0, .run 0, .run 0, .run 0, .run 0, .run 1, .start 1 .signal,
      .run 1, .run 0, .run 0] rfl, rfl, rfl, rfl, rfl⟩

/-- Non-trivial case for `C49_handled_partial`: a fair execution that starts with a signal for the sleeping
handler thread. -/
example : ∃ e : (prog Nat).system.Execution, e.Fair ∧ (prog Nat).system.Reachable (init Nat 1) (e.at_ 0) ∧
    (e.at_ 7).sh.rounds.length = 0 ∧ 0 < (e.at_ 7).sh.received ∧ (e.at_ 7).pcs[0]? = some .asleep ∧
    (e.at_ 7).pcs[1]? = some .sigNotify := by
  obtain ⟨e, h1, h2, h3, -⟩ := (prog Nat).system.finite_fair (init Nat 1) _
    [.run 0, .run 0, .run 0, .run 0, .run 0, .start 1 .signal, .run 1, .run 1, .run 0, .run 0, .run 0,
      .run 0, .run 0, .run 0, .run 0, .run 0, .run 0, .run 0, .run 0, .run 0, .run 0] rfl (by
      intro i
      match i with
      | 0 => rfl
      | 1 => rfl
      | i + 2 => rfl)
  refine ⟨e, h1, by rw [h2]; exact .init, ?_⟩
  obtain ⟨s, hs, he⟩ := h3 7
  rw [he]
  cases hs
  exact ⟨rfl, Nat.one_pos, rfl, rfl⟩

/-! ### C50 -/

/-- C50: as long as fewer than 2^32 callbacks have been registered, an id that `register_callback` returns
was not in use, and it denotes the callback afterwards, next to the others. -/
theorem C50_register (n : Nat) (s s' : Conf (prog C)) (hr : (prog C).system.Reachable (init C n) s)
    (i : Nat) (c : C) (hi : s.pcs[i]? = some (.register c)) (hs : (prog C).system.step s (.run i) = some s')
    (hlt : s.sh.registered + 1 < 2 ^ 32) :
    ∃ id, s'.pcs[i]? = some (.idle (.id id)) ∧ (∀ d, (id, d) ∉ s.sh.callbacks) ∧
      (∀ p, p ∈ s'.sh.callbacks ↔ p = (id, c) ∨ p ∈ s.sh.callbacks) := by
  have hg := (inv_reachable hr).glob
  have hl : s.sh.lastId = s.sh.registered := by
    rw [hg.last]
    exact Nat.mod_eq_of_lt (by
      have : (2 : Nat) ^ 32 = 4294967296 := rfl
      omega)
  have hb : bump s.sh.lastId = s.sh.registered + 1 := by
    unfold bump
    rw [hl]
    exact Nat.mod_eq_of_lt hlt
  obtain ⟨sh, y, b, hrun, e1, hy⟩ := Prog.stepped_run (Prog.step_stepped hs) hi
  change run i s.sh (.register c) = _ at hrun
  simp only [run] at hrun
  split at hrun
  · cases hrun
  · simp only [Option.some.injEq, Prod.mk.injEq] at hrun
    obtain ⟨rfl, rfl, -⟩ := hrun
    refine ⟨_, hy, ?_, ?_⟩
    · intro d hd
      have := hg.keys _ hd
      rw [hb] at this
      exact absurd this (Nat.not_succ_le_self _)
    · rintro ⟨k, d⟩
      rw [e1]
      show (k, d) ∈ StdMap.put (bump s.sh.lastId) c s.sh.callbacks ↔ _
      constructor
      · exact StdMap.mem_put
      · intro h
        have hsort : StdMap.Sorted (StdMap.put (bump s.sh.lastId) c s.sh.callbacks) := StdMap.sorted_put hg.sorted
        refine StdMap.get_some_mem ?_
        rw [StdMap.get_put]
        rcases h with h | h
        · cases h
          rw [if_pos rfl]
        · have hk := hg.keys _ h
          have : k ≠ bump s.sh.lastId := by
            rw [hb]
            have : k ≤ s.sh.registered := hk
            omega
          rw [if_neg this]
          exact StdMap.get_of_mem hg.sorted h

/-- C50: `unregister_callback(id)` throws exactly when no callback has that id, and otherwise removes
exactly that one. -/
theorem C50_unregister (n : Nat) (s s' : Conf (prog C)) (hr : (prog C).system.Reachable (init C n) s)
    (i id : Nat) (hi : s.pcs[i]? = some (.unregister id)) (hs : (prog C).system.step s (.run i) = some s') :
    (s'.pcs[i]? = some (.idle .void) ∨ s'.pcs[i]? = some (.idle .threw)) ∧
    (s'.pcs[i]? = some (.idle .threw) ↔ ∀ c, (id, c) ∉ s.sh.callbacks) ∧
    (∀ p, p ∈ s'.sh.callbacks ↔ p ∈ s.sh.callbacks ∧ p.1 ≠ id) := by
  obtain ⟨sh, y, b, hrun, e1, hy⟩ := Prog.stepped_run (Prog.step_stepped hs) hi
  change run i s.sh (.unregister id) = _ at hrun
  simp only [run] at hrun
  split at hrun
  · cases hrun
  · split at hrun
    · rename_i h
      simp only [Option.some.injEq, Prod.mk.injEq] at hrun
      obtain ⟨rfl, rfl, -⟩ := hrun
      obtain ⟨v, hv⟩ := Option.isSome_iff_exists.1 h
      refine ⟨Or.inl hy, ⟨?_, ?_⟩, ?_⟩
      · intro h'
        rw [hy] at h'
        cases h'
      · intro h'
        exact absurd (StdMap.get_some_mem hv) (h' v)
      · intro p
        rw [e1]
        exact StdMap.mem_del
    · rename_i h
      simp only [Option.some.injEq, Prod.mk.injEq] at hrun
      obtain ⟨rfl, rfl, -⟩ := hrun
      have hn : StdMap.get id s.sh.callbacks = none := by
        cases hg : StdMap.get id s.sh.callbacks with
        | none => rfl
        | some v => rw [hg] at h; exact absurd rfl h
      refine ⟨Or.inr hy, ⟨fun _ => StdMap.get_none.1 hn, fun _ => hy⟩, ?_⟩
      rintro ⟨k, v⟩
      rw [e1]
      constructor
      · intro hp
        refine ⟨hp, ?_⟩
        rintro rfl
        exact StdMap.get_none.1 hn v hp
      · exact fun h => h.1

/-- C50: only these calls change what is registered, and a callback that is called is registered at that
moment; so none is called any more once `unregister_callback` has returned. -/
theorem C50_called (n : Nat) (s s' : Conf (prog C)) (l : Label (Op C))
    (hr : (prog C).system.Reachable (init C n) s) (hs : (prog C).system.step s l = some s') :
    (s'.sh.callbacks = s.sh.callbacks ∨
      ∃ i, l = .run i ∧ ((∃ c, s.pcs[i]? = some (.register c)) ∨ ∃ id, s.pcs[i]? = some (.unregister id))) ∧
    (∀ p rest, s.pcs[0]? = some (.hCall (p :: rest)) → p ∈ s.sh.callbacks) := by
  have hI := inv_reachable hr
  constructor
  · rcases Prog.stepped_sh (Prog.step_stepped hs) with e | ⟨i, x, y, b, hl, hx, hrun⟩
    · exact Or.inl (by rw [e])
    · have hrun : run i s.sh x = some (s'.sh, y, b) := hrun
      have hlo := hI.loc i x hx
      cases hh : x.handler with
      | true =>
        have := eq_zero hlo hh
        subst this
        exact Or.inl (handler_run hh hlo hrun).2.2.1
      | false =>
        cases x with
        | register c => exact Or.inr ⟨i, hl, Or.inl ⟨c, hx⟩⟩
        | unregister id => exact Or.inr ⟨i, hl, Or.inr ⟨id, hx⟩⟩
        | idle r => cases hrun
        | sigInc =>
          left
          generalize s'.sh = t at hrun
          simp only [run, Option.some.injEq, Prod.mk.injEq] at hrun
          obtain ⟨rfl, -⟩ := hrun
          rfl
        | sigNotify => left; generalize s'.sh = t at hrun; cases hrun; rfl
        | dNotify => left; generalize s'.sh = t at hrun; cases hrun; rfl
        | dStore =>
          left
          generalize s'.sh = t at hrun
          simp only [run] at hrun
          split at hrun <;> cases hrun
          rfl
        | dJoin =>
          left
          generalize s'.sh = t at hrun
          simp only [run] at hrun
          split at hrun <;> cases hrun
          rfl
        | _ => cases hh
  · intro p rest h
    obtain ⟨old, cur, -, e⟩ := (hI.loc 0 _ h).round _ rfl
    rw [← e]
    simp

/-- C50: after 2^32 registrations the ids start again, and a callback that is still registered under the id
is silently replaced (the hypothesis on the number of registrations is needed). -/
theorem C50_wrap : ∃ s s' : Conf (prog Nat), s.sh.lastId = s.sh.registered % 2 ^ 32 ∧
    s.sh.registered = 2 ^ 32 ∧ s.sh.callbacks = [(1, 7)] ∧
    (prog Nat).system.step s (.run 0) = some s' ∧ s'.pcs[0]? = some (.idle (.id 1)) ∧
    s'.sh.callbacks = [(1, 9)] :=
  ⟨⟨⟨0, false, false, false, [(1, 7)], 0, 4294967296, 0, [], false⟩, [.register 9]⟩, _, rfl, rfl, rfl, rfl,
    rfl, rfl⟩

/-- Non-trivial case for `C50_register`. -/
example : ∃ s s' : Conf (prog Nat), (prog Nat).system.Reachable (init Nat 1) s ∧
    s.pcs[1]? = some (.register 8) ∧ (prog Nat).system.step s (.run 1) = some s' ∧
    s'.sh.callbacks = [(1, 7), (2, 8)] ∧ s.sh.registered + 1 < 2 ^ 32 :=
  ⟨_, _, (prog Nat).system.exec_reachable' [.start 1 (.register 7), .run 1, .start 1 (.register 8)] rfl,
    rfl, rfl, rfl, by decide⟩

/-- Non-trivial cases for `C50_unregister`: an id in use, and one that is not. -/
example : (∃ s s' : Conf (prog Nat), (prog Nat).system.Reachable (init Nat 1) s ∧
    s.pcs[1]? = some (.unregister 1) ∧ (prog Nat).system.step s (.run 1) = some s' ∧
    s'.sh.callbacks = [(2, 8)]) ∧
    (∃ s s' : Conf (prog Nat), (prog Nat).system.Reachable (init Nat 1) s ∧
    s.pcs[1]? = some (.unregister 5) ∧ (prog Nat).system.step s (.run 1) = some s' ∧
    s'.pcs[1]? = some (.idle .threw)) :=
  ⟨⟨_, _, (prog Nat).system.exec_reachable'
    [.start 1 (.register 7), .run 1, .start 1 (.register 8), .run 1, .start 1 (.unregister 1)] rfl, rfl, rfl, rfl⟩,
   ⟨_, _, (prog Nat).system.exec_reachable' [.start 1 (.register 7), .run 1, .start 1 (.unregister 5)] rfl,
    rfl, rfl, rfl⟩⟩

/-! ### C80 -/

/-- C80: the destructor returns, under fair scheduling: its notification is never lost. -/
theorem C80_returns (n : Nat) (e : (prog C).system.Execution) (hf : e.Fair)
    (h0 : (prog C).system.Reachable (init C n) (e.at_ 0)) (i : Nat) :
    e.LeadsTo (fun s => s.pcs[i]? = some .dStore) (fun s => s.pcs[i]? = some (.idle .void)) := by
  have hF : ∀ m, Full (e.at_ m) := fun m => full_reachable (e.reachable h0 m)
  have h1 : e.LeadsTo (fun s => s.pcs[i]? = some .dStore) (fun s => s.pcs[i]? = some .dNotify) := by
    refine Prog.acquire e hf Full hF i .dStore (active rfl) (fun _ => True) (fun s => s.mutex = false) _
      (fun _ _ _ => trivial) ?_ ?_ ?_
    · exact (mutex_released e hf hF).mono (fun s h => by simpa using h.2) (fun _ h => h)
    · intro s _ _ h
      show (run i s.sh .dStore).isSome
      simp only [run, h]
      rfl
    · intro s s' _ _ hx hs
      obtain ⟨sh, y, b, hr, -, hy⟩ := Prog.stepped_run hs hx
      change run i s.sh .dStore = _ at hr
      simp only [run] at hr
      split at hr <;> cases hr
      exact hy
  have h2 : e.LeadsTo (fun s => s.pcs[i]? = some .dNotify) (fun s => s.pcs[i]? = some .dJoin) :=
    Prog.goto e hf Full hF i .dNotify .dJoin (active rfl) (fun s _ _ => ⟨_, _, rfl⟩)
  have h3 : e.LeadsTo (fun s => s.pcs[i]? = some .dJoin) (fun s => s.pcs[i]? = some (.idle .void)) := by
    refine Prog.acquire e hf Full hF i .dJoin (active rfl) (fun s => s.sh.stop = true) (fun s => s.ended = true) _
      (fun s h hx => (h.inv.loc i _ hx).stop rfl) ?_ ?_ ?_
    · exact (thread_ends e hf hF).mono (fun s h => h.1) (fun _ h => h)
    · intro s _ _ h
      show (run i s.sh .dJoin).isSome
      simp only [run, h]
      rfl
    · intro s s' _ _ hx hs
      obtain ⟨sh, y, b, hr, -, hy⟩ := Prog.stepped_run hs hx
      change run i s.sh .dJoin = _ at hr
      simp only [run] at hr
      split at hr <;> cases hr
      exact hy
  exact (h1.trans h2).trans h3

/-- C80: when the destructor returns the thread has finished, and then no callback is ever called again. -/
theorem C80_silent (n : Nat) (s s' : Conf (prog C)) (hr : (prog C).system.Reachable (init C n) s) :
    (∀ i, s.pcs[i]? = some .dJoin → (prog C).system.step s (.run i) = some s' → s.sh.ended = true) ∧
    (∀ l, s.sh.ended = true → (prog C).system.step s l = some s' →
      s'.sh.ended = true ∧ s'.sh.rounds = s.sh.rounds) := by
  constructor
  · intro i hi hs
    obtain ⟨sh, y, b, hrun, -, hy⟩ := Prog.stepped_run (Prog.step_stepped hs) hi
    change run i s.sh .dJoin = _ at hrun
    simp only [run] at hrun
    split at hrun
    · assumption
    · cases hrun
  · intro l he hs
    have hI := inv_reachable hr
    rcases Prog.stepped_sh (Prog.step_stepped hs) with e | ⟨i, x, y, b, hl, hx, hrun⟩
    · rw [e]; exact ⟨he, rfl⟩
    · have hrun : run i s.sh x = some (s'.sh, y, b) := hrun
      have hlo := hI.loc i x hx
      cases hh : x.handler with
      | true =>
        have := eq_zero hlo hh
        subst this
        have := hlo.ended rfl
        rw [he] at this
        cases x <;> first | (cases this; done) | (cases hrun; done)
      | false =>
        have hc := (client_run hh hrun).1
        generalize s'.sh = t at hc
        cases hc <;> exact ⟨he, rfl⟩

/-- Non-trivial case for `C80_returns`: a fair execution in which the destructor is called while the thread
sleeps. -/
example : ∃ e : (prog Nat).system.Execution, e.Fair ∧ (prog Nat).system.Reachable (init Nat 1) (e.at_ 0) ∧
    (e.at_ 6).pcs[1]? = some .dStore ∧ (e.at_ 6).pcs[0]? = some .asleep := by
  obtain ⟨e, h1, h2, h3, -⟩ := (prog Nat).system.finite_fair (init Nat 1) _
    [.run 0, .run 0, .run 0, .run 0, .run 0, .start 1 .destroy, .run 1, .run 1, .run 0, .run 0, .run 0,
      .run 0, .run 0, .run 1] rfl (by
      intro i
      match i with
      | 0 => rfl
      | 1 => rfl
      | i + 2 => rfl)
  refine ⟨e, h1, by rw [h2]; exact .init, ?_⟩
  obtain ⟨s, hs, he⟩ := h3 6
  rw [he]
  cases hs
  exact ⟨rfl, rfl⟩

/-- Non-trivial case for `C80_silent`. -/
example : ∃ s s' : Conf (prog Nat), (prog Nat).system.Reachable (init Nat 1) s ∧ s.pcs[1]? = some .dJoin ∧
    (prog Nat).system.step s (.run 1) = some s' :=
  ⟨_, _, (prog Nat).system.exec_reachable' [.run 0, .run 0, .run 0, .run 0, .run 0, .start 1 .destroy, .run 1,
    .run 1, .run 0, .run 0, .run 0, .run 0, .run 0] rfl, rfl, rfl⟩

end Verif.SignalManager
