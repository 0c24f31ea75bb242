import Verif.Model.OwnerThrow
/-!
C188: an `OwnerPtr` whose deleter throws.
-/
namespace Verif.OwnerThrow

/-- A deleter threw and its exception left `reset`. -/
def Stuck (s : State) : Prop := s.owned = true ∧ s.alive = true ∧ s.writer ≠ none ∧ s.guards = 0

theorem reset_thrown {t : Nat} {b : Bool} {s s' : State} (h : reset t b s = (s', .thrown)) :
    Stuck s' ∧ s'.deleted = s.deleted + 1 ∧ s'.writer = some t := by
  unfold reset at h
  by_cases h1 : ownerValid s = false
  · rw [if_pos h1] at h; cases h
  · by_cases h2 : s.writer = some t
    · rw [if_neg h1, if_pos h2] at h; cases h
    · by_cases h3 : s.writer ≠ none ∨ s.guards ≠ 0
      · rw [if_neg h1, if_neg h2, if_pos h3] at h; cases h
      · rw [if_neg h1, if_neg h2, if_neg h3] at h
        cases b
        · cases h
        · cases h
          have hv : s.owned = true ∧ s.alive = true := by simpa [ownerValid] using h1
          exact ⟨⟨hv.1, hv.2, nofun, by simp at h3; exact h3.2⟩, rfl, rfl⟩

/-- What a call does when the mutex is never unlocked. -/
theorem stuck_call {s : State} (h : Stuck s) (t : Nat) (c : Call) :
    (call t c s).1 = s ∧
    ((call t c s).2 = .blocked ∨ (call t c s).2 = .ub ∨ (c = .valid ∧ (call t c s).2 = .bool true) ∨
      (c = .ownerValid ∧ (call t c s).2 = .bool true)) := by
  obtain ⟨h1, h2, h3, h4⟩ := h
  have hv : ownerValid s = true := by simp [ownerValid, h1, h2]
  have hr : ∀ b, reset t b s = (s, .ub) ∨ reset t b s = (s, .blocked) := by
    intro b
    unfold reset
    by_cases hw : s.writer = some t
    · left; simp [hv, hw]
    · right; simp [hv, hw, h3]
  cases c with
  | reset b =>
    rcases hr b with h | h <;> simp [call, h]
  | destroy b =>
    rcases hr b with h | h <;> simp [call, h]
  | ownerValid => simp [call, hv]
  | lock =>
    by_cases hw : s.writer = some t
    · simp [call, hw]
    · simp [call, hw, h3]
  | unguard => simp [call, h4]
  | valid => simp [call, h2]

theorem stuck_run (l : List (Nat × Call)) : ∀ {s : State}, Stuck s → run s l = s := by
  induction l with
  | nil => intro s _; rfl
  | cons a l ih =>
    intro s h
    obtain ⟨t, c⟩ := a
    show run (call t c s).1 l = s
    rw [(stuck_call h t c).1]
    exact ih h

/-- C188 is false: when the deleter throws in `reset()` the datum is never released: whatever is called afterwards by whatever
threads, `reset()`, the destructor of the owner and a move assignment to it, and `lock()` of a lessee never return (in the
thread that called `reset()` they are undefined), while the owner and the lessees still report a valid datum, whose deleter
has been called. -/
theorem C188_negation {t : Nat} {s s' : State} (h : call t (.reset true) s = (s', .thrown)) (l : List (Nat × Call))
    (t' : Nat) :
    (∀ c, c = .lock ∨ (∃ b, c = .reset b ∨ c = .destroy b) →
      (call t' c (run s' l)).2 = if t' = t then .ub else .blocked) ∧
    (call t' .valid (run s' l)).2 = .bool true ∧ (call t' .ownerValid (run s' l)).2 = .bool true ∧
    (run s' l).deleted = s.deleted + 1 := by
  obtain ⟨hs, hd, hw⟩ := reset_thrown h
  rw [stuck_run l hs]
  obtain ⟨h1, h2, h3, h4⟩ := hs
  have hv : ownerValid s' = true := by simp [ownerValid, h1, h2]
  refine ⟨?_, by simp [call, h2], by simp [call, hv], hd⟩
  have hr : ∀ b, reset t' b s' = (s', if t' = t then .ub else .blocked) := by
    intro b
    unfold reset
    by_cases ht : t' = t
    · simp [hv, hw, ht]
    · simp [hv, hw, ht, Ne.symm ht]
  rintro c (rfl | ⟨b, rfl | rfl⟩)
  · by_cases ht : t' = t
    · simp [call, hw, ht]
    · simp [call, hw, ht, Ne.symm ht]
  · simp [call, hr]
  · simp only [call]
    rw [hr]
    by_cases ht : t' = t <;> simp [ht]

/-- C188 is false: an exception of the deleter in the destructor of the owner or in a move assignment ends the program; it
cannot be caught. -/
theorem C188_negation_noexcept (t : Nat) (s : State) (ho : s.owned = true) (ha : s.alive = true) (hw : s.writer = none)
    (hg : s.guards = 0) : (call t (.destroy true) s).2 = .terminate := by
  simp [call, reset, ownerValid, ho, ha, hw, hg]

/-- C188, as far as it holds: a deleter that does not throw is called once, the owner is empty afterwards, the mutex is free
and lessees get an invalid guard, whichever thread asks.  Missing: deleters that throw. -/
theorem C188_reset_partial (t t' : Nat) (s : State) (ho : s.owned = true) (ha : s.alive = true) (hw : s.writer = none)
    (hg : s.guards = 0) (c : Call) (hc : c = .reset false ∨ c = .destroy false) :
    ∃ s', call t c s = (s', .done) ∧ s'.deleted = s.deleted + 1 ∧ (call t' .ownerValid s').2 = .bool false ∧
      (call t' .lock s').2 = .guard false := by
  rcases hc with rfl | rfl
  · exact ⟨{ s with owned := false, alive := false, deleted := s.deleted + 1 },
      by simp [call, reset, ownerValid, ho, ha, hw, hg], rfl, rfl, by simp [call, hw]⟩
  · exact ⟨{ s with owned := false, alive := false, deleted := s.deleted + 1 },
      by simp [call, reset, ownerValid, ho, ha, hw, hg], rfl, rfl, by simp [call, hw]⟩

/-- C188: a valid guard keeps the datum: whatever is called until a guard is destroyed, with deleters that throw or not, the
deleter is not called and lessees report the datum. -/
theorem C188_guard {t : Nat} {s s' : State} (h : call t .lock s = (s', .guard true)) (l : List (Nat × Call))
    (hl : ∀ x ∈ l, x.2 ≠ .unguard) (t' : Nat) :
    (run s' l).deleted = s.deleted ∧ (call t' .valid (run s' l)).2 = .bool true := by
  have h0 : s'.guards ≠ 0 ∧ s'.writer = none ∧ s'.alive = true ∧ s'.deleted = s.deleted := by
    simp only [call] at h
    by_cases h1 : s.writer = some t
    · rw [if_pos h1] at h; cases h
    · by_cases h2 : s.writer ≠ none
      · rw [if_neg h1, if_pos h2] at h; cases h
      · rw [if_neg h1, if_neg h2] at h
        have ha : s.alive = true := by
          have := congrArg Prod.snd h
          simpa using this
        cases (congrArg Prod.fst h)
        exact ⟨by simp, by simpa using h2, ha, rfl⟩
  suffices hs : ∀ (l : List (Nat × Call)) (u : State), (∀ x ∈ l, x.2 ≠ .unguard) →
      (u.guards ≠ 0 ∧ u.writer = none ∧ u.alive = true ∧ u.deleted = s.deleted) →
      (run u l).alive = true ∧ (run u l).deleted = s.deleted by
    have := hs l s' hl h0
    exact ⟨this.2, by simp [call, this.1]⟩
  intro l
  induction l with
  | nil => intro u _ hu; exact hu.2.2
  | cons x l ih =>
    intro u hx hu
    obtain ⟨k, c⟩ := x
    refine ih _ (fun y hy => hx y (List.mem_cons_of_mem _ hy)) ?_
    have hr : ∀ b, (reset k b u).1 = u := by
      intro b
      unfold reset
      by_cases ho : ownerValid u = false <;> simp [ho, hu.2.1, hu.1]
    have hn := hx (k, c) (by simp)
    cases c with
    | reset b => rw [show (call k (.reset b) u).1 = u from hr b]; exact hu
    | destroy b =>
      have := hr b
      simp only [call]
      rcases hq : reset k b u with ⟨v, o⟩
      rw [hq] at this
      cases this
      cases o <;> exact hu
    | ownerValid => exact hu
    | lock => simp [call, hu.2.1, hu.2.2.1, hu.2.2.2]
    | unguard => exact absurd rfl hn
    | valid => exact hu

example : (run (call 1 .lock {}).1 [(0, .reset true), (2, .lock), (0, .destroy false)]).deleted = 0 :=
  (C188_guard (t := 1) (s := {}) rfl [(0, .reset true), (2, .lock), (0, .destroy false)] (by decide) 0).1

structure Inv (s : State) : Prop where
  once : s.deleted ≤ 1
  first : s.alive = true → s.writer = none → s.deleted = 0

/-- C188: the deleter is called at most once, also when it throws. -/
theorem C188_once (l : List (Nat × Call)) : (run {} l).deleted ≤ 1 := by
  have hr : ∀ (t : Nat) (b : Bool) (s : State), Inv s → Inv (reset t b s).1 := by
    intro t b s hi
    unfold reset
    by_cases h1 : ownerValid s = false
    · rw [if_pos h1]; exact hi
    · by_cases h2 : s.writer = some t
      · rw [if_neg h1, if_pos h2]; exact hi
      · by_cases h3 : s.writer ≠ none ∨ s.guards ≠ 0
        · rw [if_neg h1, if_neg h2, if_pos h3]; exact hi
        · rw [if_neg h1, if_neg h2, if_neg h3]
          have hv : s.owned = true ∧ s.alive = true := by simpa [ownerValid] using h1
          have hw : s.writer = none := by
            simp at h3; exact h3.1
          have h0 := hi.first hv.2 hw
          cases b
          · exact ⟨by show s.deleted + 1 ≤ 1; omega, fun h => by cases h⟩
          · exact ⟨by show s.deleted + 1 ≤ 1; omega, fun _ h => by cases h⟩
  have hstep : ∀ (t : Nat) (c : Call) (s : State), Inv s → Inv (call t c s).1 := by
    intro t c s hi
    cases c with
    | reset b => exact hr t b s hi
    | destroy b =>
      have := hr t b s hi
      simp only [call]
      generalize reset t b s = r at this ⊢
      obtain ⟨s', o⟩ := r
      cases o <;> first | exact this | exact ⟨this.once, this.first⟩
    | ownerValid => exact hi
    | lock =>
      unfold call
      simp only
      split
      · exact hi
      · split
        · exact hi
        · exact ⟨hi.once, hi.first⟩
    | unguard =>
      unfold call
      simp only
      split
      · exact hi
      · exact ⟨hi.once, hi.first⟩
    | valid => exact hi
  have : ∀ (l : List (Nat × Call)) (s : State), Inv s → Inv (run s l) := by
    intro l
    induction l with
    | nil => intro s h; exact h
    | cons a l ih => intro s h; exact ih _ (hstep a.1 a.2 s h)
  exact (this l {} ⟨Nat.zero_le _, fun _ _ => rfl⟩).once

/-- A deleter that throws after a guard was there; a later call of another thread waits, and one of the same thread is
undefined. -/
example : ∃ s', call 1 (.reset true) (run {} [(2, .lock), (2, .unguard)]) = (s', .thrown) ∧
    (call 2 .lock s').2 = .blocked ∧ (call 1 (.destroy false) s').2 = .ub :=
  ⟨_, rfl, rfl, rfl⟩

/-- The hypotheses of `C188_reset_partial` and `C188_negation_noexcept` hold after guards came and went. -/
example : let s := run {} [(2, .lock), (3, .lock), (2, .unguard), (3, .unguard)]
    s.owned = true ∧ s.alive = true ∧ s.writer = none ∧ s.guards = 0 := by decide

end Verif.OwnerThrow
