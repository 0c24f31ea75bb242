import Verif.Model.InitSingleton
/-!
C184: the object of an `InitializableSingleton`.
-/
namespace Verif.InitSingleton

theorem run_append (s : State) (a b : List Op) : run s (a ++ b) = run (run s a) b := by
  simp [run, List.foldl_append]

/-- Without `initialize` the pointer stays. -/
theorem ptr_stays (s : State) (ops : List Op) (h : .build ∉ ops) :
    (run s ops).ptr = s.ptr ∧ (run s ops).built = s.built := by
  induction ops generalizing s with
  | nil => exact ⟨rfl, rfl⟩
  | cons op ops ih =>
    have h1 : (step s op).1.ptr = s.ptr ∧ (step s op).1.built = s.built := by
      cases op with
      | build => exact absurd (by simp) h
      | get => exact ⟨rfl, rfl⟩
      | share =>
        simp only [step]
        split <;> exact ⟨rfl, rfl⟩
      | drop o => exact ⟨rfl, rfl⟩
    have h2 := ih (step s op).1 (fun hh => h (List.mem_cons_of_mem _ hh))
    exact ⟨h2.1.trans h1.1, h2.2.trans h1.2⟩

theorem built_count (s : State) (ops : List Op) : (run s ops).built = s.built + ops.count .build := by
  induction ops generalizing s with
  | nil => rfl
  | cons op ops ih =>
    have h2 := ih (step s op).1
    change (run (step s op).1 ops).built = _
    rw [h2]
    cases op with
    | build => simp only [step, List.count_cons_self]; omega
    | get => simp [step]
    | share =>
      have : (step s .share).1.built = s.built := by
        simp only [step]
        cases s.ptr <;> rfl
      rw [this]
      simp
    | drop o => simp [step]

/-- C184: `get_instance` gives null before the first `initialize`, and then the object built by the last one, which is
always a new one and is reported with `true`. -/
theorem C184_last (before after : List Op) (h : .build ∉ after) :
    (.build ∉ before → (step (run init before) .get).2 = .object none) ∧
    (step (run init before) .build).2 = .done true ∧
    (step (run init (before ++ .build :: after)) .get).2 = .object (some (before.count .build)) := by
  refine ⟨fun hb => ?_, rfl, ?_⟩
  · have := (ptr_stays init before hb).1
    simp only [step, this]; rfl
  · rw [run_append]
    have h1 := (ptr_stays (step (run init before) .build).1 after h).1
    have h2 : (run (run init before) (.build :: after)).ptr = some (run init before).built := h1
    simp only [step, h2, built_count]
    simp [init]

/-- C184, what holds: a pointer got from `get_instance` or `get_shared_instance` is valid as long as `initialize` is not
called again, whatever else is done.  Missing: `C184_negation_again`. -/
theorem C184_valid_partial (before after : List Op) (o : Nat) (h : .build ∉ after)
    (hg : (step (run init before) .get).2 = .object (some o)) : (run init (before ++ after)).alive o := by
  have h1 : (run init before).ptr = some o := by
    simp only [step, Ret.object.injEq] at hg; exact hg
  left
  rw [run_append, (ptr_stays _ after h).1, h1]

/-- How many shared pointers to `o` there are. -/
theorem held_count (s : State) (o : Nat) (ops : List Op) :
    s.held.count o ≤ (run s ops).held.count o + ops.count (.drop o) := by
  induction ops generalizing s with
  | nil => simp [run]
  | cons op ops ih =>
    have h2 := ih (step s op).1
    change _ ≤ (run (step s op).1 ops).held.count o + _
    cases op with
    | build => simp only [step] at h2 ⊢; simpa using h2
    | get => simp only [step] at h2 ⊢; simpa using h2
    | share =>
      have : s.held.count o ≤ (step s .share).1.held.count o := by
        simp only [step]
        cases s.ptr with
        | none => exact Nat.le_refl _
        | some p => exact List.count_le_count_cons
      simp only [List.count_cons, beq_iff_eq, reduceCtorEq, if_false]
      omega
    | drop p =>
      simp only [step] at h2 ⊢
      by_cases hp : p = o
      · subst hp
        rw [List.count_erase_self] at h2
        simp only [List.count_cons_self]
        omega
      · rw [List.count_erase_of_ne (fun e => hp e.symm)] at h2
        have : ¬ (Op.drop p = Op.drop o) := fun e => hp (by cases e; rfl)
        simp only [List.count_cons, beq_iff_eq, this, if_false]
        omega

/-- C184: an object is kept by the shared pointers given out by `get_shared_instance`, also when `initialize` replaces it:
it exists as long as one of them does. -/
theorem C184_shared (before after : List Op) (o : Nat)
    (hg : (step (run init before) .share).2 = .object (some o))
    (hd : after.count (.drop o) ≤ (run init before).held.count o) :
    (run init (before ++ .share :: after)).alive o := by
  right
  rw [run_append]
  have h1 : (run init before).ptr = some o := by
    simp only [step] at hg
    cases hp : (run init before).ptr with
    | none => rw [hp] at hg; cases hg
    | some p => rw [hp] at hg; cases hg; rfl
  have h2 : (step (run init before) .share).1.held.count o = (run init before).held.count o + 1 := by
    simp only [step, h1, List.count_cons_self]
  have h3 := held_count (step (run init before) .share).1 o after
  change o ∈ (run (step (run init before) .share).1 after).held
  exact List.count_pos_iff.1 (by omega)

/-- Objects that are referred to have been built. -/
theorem known (s : State) (h : (∀ p, s.ptr = some p → p < s.built) ∧ ∀ p ∈ s.held, p < s.built) (ops : List Op) :
    (∀ p, (run s ops).ptr = some p → p < (run s ops).built) ∧ ∀ p ∈ (run s ops).held, p < (run s ops).built := by
  induction ops generalizing s with
  | nil => exact h
  | cons op ops ih =>
    refine ih (step s op).1 ?_
    cases op with
    | build =>
      refine ⟨fun p hp => ?_, fun p hp => Nat.lt_succ_of_lt (h.2 p hp)⟩
      simp only [step, Option.some.injEq] at hp
      subst hp
      exact Nat.lt_succ_self _
    | get => exact h
    | share =>
      simp only [step]
      split
      · rename_i q hp
        refine ⟨h.1, fun p hq => ?_⟩
        rcases List.mem_cons.1 hq with rfl | hq
        · exact h.1 p hp
        · exact h.2 p hq
      · exact h
    | drop o => exact ⟨h.1, fun p hp => h.2 p (List.mem_of_mem_erase hp)⟩

/-- Once destroyed, an object does not come back. -/
theorem dead (s : State) (o : Nat) (ho : o < s.built) (hd : ¬ s.alive o) (ops : List Op) : ¬ (run s ops).alive o := by
  induction ops generalizing s with
  | nil => exact hd
  | cons op ops ih =>
    cases op with
    | build =>
      refine ih (step s .build).1 (Nat.lt_succ_of_lt ho) ?_
      rintro (h | h)
      · simp only [step, Option.some.injEq] at h; omega
      · exact hd (.inr h)
    | get => exact ih s ho hd
    | share =>
      cases hp : s.ptr with
      | none =>
        have : (step s .share).1 = s := by simp only [step, hp]
        change ¬ (run (step s .share).1 ops).alive o
        rw [this]; exact ih s ho hd
      | some q =>
        have e : (step s .share).1 = { s with held := q :: s.held } := by simp only [step, hp]
        change ¬ (run (step s .share).1 ops).alive o
        rw [e]
        refine ih _ ho ?_
        rintro (h | h)
        · exact hd (.inl h)
        · rcases List.mem_cons.1 h with rfl | h
          · exact hd (.inl hp)
          · exact hd (.inr h)
    | drop p =>
      refine ih (step s (.drop p)).1 ho ?_
      rintro (h | h)
      · exact hd (.inl h)
      · exact hd (.inr (List.mem_of_mem_erase h))

/-- C184 fails when `initialize` is called again: whatever was done before, if nobody shares the object then it is
destroyed, for ever, and the pointers that `get_instance` gave dangle; `initialize` says `true` all the same. -/
theorem C184_negation_again (before after : List Op) (o : Nat)
    (hg : (step (run init before) .get).2 = .object (some o)) (hs : o ∉ (run init before).held) :
    ¬ (run init (before ++ .build :: after)).alive o ∧
    (step (run init before) .build).2 = .done true := by
  refine ⟨?_, rfl⟩
  have h1 : (run init before).ptr = some o := by
    simp only [step, Ret.object.injEq] at hg; exact hg
  have hk := known init ⟨nofun, nofun⟩ before
  have ho : o < (run init before).built := hk.1 o h1
  rw [run_append]
  change ¬ (run (step (run init before) .build).1 after).alive o
  refine dead _ o (Nat.lt_succ_of_lt ho) ?_ after
  rintro (h | h)
  · simp only [step, Option.some.injEq] at h; omega
  · exact hs h

/-- Non-trivial cases: an object is built, shared, and replaced. -/
example : (step (run init [.build, .share]) .get).2 = .object (some 0) ∧
    (step (run init [.build, .share, .build]) .get).2 = .object (some 1) ∧
    (run init [.build, .share, .build]).held = [0] ∧
    (run init [.build, .share, .build, .drop 0]).held = [] ∧ (run init [.build]).held = [] := by
  decide

end Verif.InitSingleton
