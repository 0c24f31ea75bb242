import Verif.Model.LogConfig
/-!
C30, C31: log configuration and consumers.
-/
namespace Verif.LogConfig
open Verif.Fuzzy

/-- Specification: `r` is the most recent among the entries of `l` that have the highest level. -/
def LatestHighest {T : Type} (l : List (Fuzzy T)) (r : Fuzzy T) : Prop :=
  ∃ pre post, l = pre ++ r :: post ∧ (∀ x ∈ pre, x.level ≤ r.level) ∧ (∀ x ∈ post, x.level < r.level)

/-- Keep the new value when its level is not lower. -/
def keep {T : Type} (a b : Fuzzy T) : Fuzzy T := if a.level ≤ b.level then b else a

theorem latest_fold {T : Type} (d : Fuzzy T) (l : List (Fuzzy T)) :
    LatestHighest (d :: l) (l.foldl keep d) := by
  suffices H : ∀ (l : List (Fuzzy T)) (pre0 : List (Fuzzy T)) (r : Fuzzy T), LatestHighest pre0 r →
      LatestHighest (pre0 ++ l) (l.foldl keep r) by
    exact H l [d] d ⟨[], [], rfl, by simp, by simp⟩
  intro l
  induction l with
  | nil => intro p r h; simpa using h
  | cons x l ih =>
    intro p r ⟨a, b, h1, h2, h3⟩
    have : LatestHighest (p ++ [x]) (keep r x) := by
      unfold keep
      by_cases h : r.level ≤ x.level
      · rw [if_pos h]
        refine ⟨p, [], by simp, ?_, by simp⟩
        intro y hy
        rw [h1] at hy
        rcases List.mem_append.1 hy with hy | hy
        · have := h2 y hy; omega
        · rcases List.mem_cons.1 hy with rfl | hy
          · exact h
          · have := h3 y hy; omega
      · rw [if_neg h]
        refine ⟨a, b ++ [x], by simp [h1], h2, ?_⟩
        intro y hy
        rcases List.mem_append.1 hy with hy | hy
        · exact h3 y hy
        · simp at hy; subst hy; omega
    have := ih _ _ this
    simpa using this

/-- Specification: the verbosities given by a history. -/
def verbosities (calls : List Call) : List (Fuzzy Kind) :=
  calls.filterMap fun | .verbosity v => some v | .filter _ => none

/-- Specification: the filters given for a kind by a history; a filter map missing a kind counts only
for the kinds before the missing one, in the order error, warning, info. -/
def filters (k : Kind) (calls : List Call) : List (Fuzzy Str) :=
  calls.filterMap fun
    | .verbosity _ => none
    | .filter f => match k with
      | .error => f .error
      | .warning => if (f .error).isSome then f .warning else none
      | .info => if (f .error).isSome ∧ (f .warning).isSome then f .info else none

theorem setOne_filter (c : Config) (k j : Kind) (v : Fuzzy Str) :
    (c.setOne k v).filter j = (if j = k then keep (c.filter k) v else c.filter j) ∧
    (c.setOne k v).verbosity = c.verbosity := by
  unfold Config.setOne keep
  by_cases h : (c.filter k).level ≤ v.level
  · rw [if_pos h]; simp [h]
  · rw [if_neg h]
    refine ⟨?_, rfl⟩
    by_cases hj : j = k
    · subst hj; simp [h]
    · simp [hj]

theorem call_verbosity (c : Config) (x : Call) :
    (c.call x).verbosity = (verbosities [x]).foldl keep c.verbosity := by
  cases x with
  | verbosity v =>
    simp only [Config.call, Config.setVerbosity, verbosities, List.filterMap_cons, List.filterMap_nil,
      List.foldl_cons, List.foldl_nil, keep]
    split <;> rfl
  | filter f =>
    simp only [Config.call, Config.setFilter, verbosities, List.filterMap_cons, List.filterMap_nil,
      List.foldl_nil]
    cases f .error <;> simp only
    cases f .warning <;> simp only [(setOne_filter _ _ .error _).2]
    cases f .info <;> simp only [(setOne_filter _ _ .error _).2]

theorem call_filter (c : Config) (x : Call) (k : Kind) :
    (c.call x).filter k = (filters k [x]).foldl keep (c.filter k) := by
  cases x with
  | verbosity v =>
    simp only [Config.call, Config.setVerbosity, filters, List.filterMap_cons, List.filterMap_nil,
      List.foldl_nil]
    split <;> rfl
  | filter f =>
    simp only [Config.call, Config.setFilter, filters]
    cases he : f .error <;> cases hw : f .warning <;> cases hi : f .info <;> cases k <;>
      simp [he, hw, hi, (setOne_filter _ _ _ _).1]

/-- C30: after any history the verbosity is the most recent one among those of the highest level,
the default (Warning, level 0) included. -/
theorem C30_verbosity (calls : List Call) :
    LatestHighest (⟨.warning, 0⟩ :: verbosities calls) (run calls).verbosity := by
  have H : ∀ (calls : List Call) (c : Config),
      (calls.foldl Config.call c).verbosity = (verbosities calls).foldl keep c.verbosity := by
    intro calls
    induction calls with
    | nil => intro c; rfl
    | cons x calls ih =>
      intro c
      rw [List.foldl_cons, ih, call_verbosity]
      have : verbosities (x :: calls) = verbosities [x] ++ verbosities calls := by
        simp only [verbosities, ← List.filterMap_append, List.singleton_append]
      rw [this, List.foldl_append]
  have := latest_fold (⟨.warning, 0⟩ : Fuzzy Kind) (verbosities calls)
  rw [show (run calls).verbosity = _ from H calls Config.default]
  exact this

/-- C30: the same for the filter of each kind, independently of the other kinds. -/
theorem C30_filter (calls : List Call) (k : Kind) :
    LatestHighest (⟨[], 0⟩ :: filters k calls) ((run calls).filter k) := by
  have H : ∀ (calls : List Call) (c : Config),
      (calls.foldl Config.call c).filter k = (filters k calls).foldl keep (c.filter k) := by
    intro calls
    induction calls with
    | nil => intro c; rfl
    | cons x calls ih =>
      intro c
      rw [List.foldl_cons, ih, call_filter]
      have : filters k (x :: calls) = filters k [x] ++ filters k calls := by
        simp only [filters, ← List.filterMap_append, List.singleton_append]
      rw [this, List.foldl_append]
  have := latest_fold (⟨[], 0⟩ : Fuzzy Str) (filters k calls)
  rw [show (run calls).filter k = _ from H calls Config.default]
  exact this

/-- C30: no call lowers a level. -/
theorem C30_monotone (c : Config) (x : Call) :
    c.verbosity.level ≤ (c.call x).verbosity.level ∧
    ∀ k, (c.filter k).level ≤ ((c.call x).filter k).level := by
  have H : ∀ {T : Type} (l : List (Fuzzy T)) (d : Fuzzy T), d.level ≤ (l.foldl keep d).level := by
    intro T l
    induction l with
    | nil => intro d; exact Int.le_refl _
    | cons y l ih =>
      intro d
      refine Int.le_trans ?_ (ih _)
      unfold keep
      split
      · assumption
      · exact Int.le_refl _
  refine ⟨by rw [call_verbosity]; exact H _ _, fun k => by rw [call_filter]; exact H _ _⟩

/-- C30: `set(filter)` succeeds exactly when the three kinds are given. -/
theorem C30_filter_throws (c : Config) (f : Kind → Option (Fuzzy Str)) :
    (c.setFilter f).2 = .ok () ↔ ∀ k, (f k).isSome := by
  unfold Config.setFilter
  constructor
  · intro h k
    cases he : f .error <;> rw [he] at h <;> simp only [reduceCtorEq] at h
    cases hw : f .warning <;> rw [hw] at h <;> simp only [reduceCtorEq] at h
    cases hi : f .info <;> rw [hi] at h <;> simp only [reduceCtorEq] at h
    cases k <;> simp [he, hw, hi]
  · intro h
    obtain ⟨e, he⟩ := Option.isSome_iff_exists.1 (h .error)
    obtain ⟨w, hw⟩ := Option.isSome_iff_exists.1 (h .warning)
    obtain ⟨i, hi⟩ := Option.isSome_iff_exists.1 (h .info)
    simp [he, hw, hi]

example : (run [.verbosity ⟨.info, 40⟩, .verbosity ⟨.error, 20⟩, .verbosity ⟨.error, 40⟩]).verbosity =
    ⟨.error, 40⟩ := by decide

/-! ### consumers -/

/-- Specification: the kinds from the most to the least severe. -/
def bySeverity : List Kind := [.error, .warning, .info]

/-- Specification: `a` is at least as severe as `b`. -/
def AtLeastAsSevere (a b : Kind) : Prop := a = b ∨ [a, b].Sublist bySeverity

theorem severe_iff (a b : Kind) : a.toNat ≤ b.toNat ↔ AtLeastAsSevere a b := by
  cases a <;> cases b <;> simp [AtLeastAsSevere, Kind.toNat, bySeverity] <;> decide

/-- C31: an entry is printed exactly when its kind is at least as severe as the verbosity and its
category or its message matches the filter of its kind; errors and warnings go to the error
stream, the rest to the output stream. -/
theorem C31_consume (search : Str → Str → Bool) (filter : Kind → Fuzzy Str) (verbosity : Kind) (e : Entry)
    (s : Stream) :
    consume search filter verbosity e = some s ↔
      AtLeastAsSevere e.kind verbosity ∧
      (search (filter e.kind).value e.category = true ∨ search (filter e.kind).value e.message = true) ∧
      (s = .cerr ↔ e.kind = .error ∨ e.kind = .warning) := by
  have hs : getStream e.kind = s ↔ (s = .cerr ↔ e.kind = .error ∨ e.kind = .warning) := by
    cases s <;> cases e.kind <;> simp [getStream]
  unfold consume accept
  rw [← severe_iff, ← hs]
  by_cases h1 : e.kind.toNat ≤ verbosity.toNat <;>
    cases h2 : search (filter e.kind).value e.category <;>
    cases h3 : search (filter e.kind).value e.message <;> simp [h1, h2, h3]

/-- C31: a less severe verbosity threshold never hides an entry. -/
theorem C31_monotone (search : Str → Str → Bool) (filter : Kind → Fuzzy Str) (v w : Kind) (e : Entry)
    (hvw : AtLeastAsSevere v w) (s : Stream) (h : consume search filter v e = some s) :
    consume search filter w e = some s := by
  rw [C31_consume] at h ⊢
  refine ⟨?_, h.2⟩
  rw [← severe_iff] at *
  have := h.1
  omega

example : consume (fun _ _ => true) (fun _ => ⟨[], 0⟩) .warning ⟨.error, c!"c", c!"m"⟩ = some .cerr ∧
    consume (fun _ _ => true) (fun _ => ⟨[], 0⟩) .warning ⟨.info, c!"c", c!"m"⟩ = none := by decide

end Verif.LogConfig
