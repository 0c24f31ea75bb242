import Verif.Model.CMakeProject

/-! Facts about the variables of CMake. -/
namespace Verif.CMake

theorem get_put (e : Env) (x : Str) (v : Option Str) (y : Str) :
    (e.put x v).get y =
      if y = x then (match v with | some w => some w | none => (e.cache x).map Entry.value)
      else e.get y := by
  unfold Env.get Env.put
  by_cases h : y = x
  · subst h; cases v <;> simp
  · simp [h]

theorem put_cache (e : Env) (x : Str) (v : Option Str) : (e.put x v).cache = e.cache := rfl

theorem set_cache (e : Env) (x : Str) (l : List Str) : (e.set x l).cache = e.cache := by
  cases l <;> rfl

theorem get_put_self (e : Env) (x v : Str) : (e.put x (some v)).get x = some v := by
  simp [get_put]

theorem get_put_ne (e : Env) {x y : Str} (v : Option Str) (h : y ≠ x) :
    (e.put x v).get y = e.get y := by
  simp [get_put, h]

theorem get_set_ne (e : Env) {x y : Str} (l : List Str) (h : y ≠ x) :
    (e.set x l).get y = e.get y := by
  cases l <;> simp [Env.set, get_put, h]

theorem get_set_self (e : Env) (x : Str) (l : List Str) (h : l ≠ []) :
    (e.set x l).get x = some (joined l) := by
  cases l with
  | nil => exact absurd rfl h
  | cons a l => simp [Env.set, get_put]

theorem cache_none_of_get (e : Env) (x : Str) (h : e.get x = none) :
    (e.cache x) = none := by
  unfold Env.get at h
  cases hv : e.vars x with
  | some v => simp [hv] at h
  | none => simpa [hv] using h

theorem get_set_none (e : Env) (x : Str) (h : e.get x = none) : (e.set x []).get x = none := by
  simp [Env.set, get_put, cache_none_of_get e x h]

theorem get_orSet_ne (e : Env) {x y : Str} (l : List Str) (h : y ≠ x) :
    (e.orSet x l).get y = e.get y := by
  unfold Env.orSet
  split
  · rfl
  · exact get_set_ne e l h

theorem get_orSet_some (e : Env) {x v : Str} (l : List Str) (h : e.get x = some v) :
    e.orSet x l = e := by
  simp [Env.orSet, h]

theorem get_orSet_none (e : Env) {x : Str} {l : List Str} (h : e.get x = none) (hl : l ≠ []) :
    (e.orSet x l).get x = some (joined l) := by
  simp [Env.orSet, h, get_set_self e x l hl]

theorem get_orSet_keeps (e : Env) {x : Str} (l : List Str) {y v : Str} (h : e.get y = some v) :
    (e.orSet x l).get y = some v := by
  by_cases hy : y = x
  · subst hy; rw [get_orSet_some e l h, h]
  · rw [get_orSet_ne e l hy, h]

theorem orSet_cache (e : Env) (x : Str) (l : List Str) : (e.orSet x l).cache = e.cache := by
  unfold Env.orSet
  split
  · rfl
  · exact set_cache e x l

/-! ### Lists -/

theorem elements_single {v : Str} (h0 : v ≠ []) (h : ';' ∉ v) : elements v = [v] := by
  unfold elements
  rw [List.splitOn_eq_singleton h]
  cases v with
  | nil => exact absurd rfl h0
  | cons a v => simp

theorem elements_nil : elements [] = [] := by simp [elements]

theorem elements_cons {w v : Str} (h0 : w ≠ []) (h : ';' ∉ w) :
    elements (w ++ ';' :: v) = w :: elements v := by
  unfold elements
  rw [List.splitOn_append_cons_self_of_not_mem h]
  cases w with
  | nil => exact absurd rfl h0
  | cons a w => simp

/-- A list of non-empty words without `;` is read as it was written. -/
theorem elements_joined : ∀ {l : List Str}, (∀ w ∈ l, w ≠ [] ∧ ';' ∉ w) → elements (joined l) = l
  | [], _ => by simp [joined, elements]
  | [v], h => elements_single (h v (by simp)).1 (h v (by simp)).2
  | v :: w :: l, h => by
    have hv := h v (by simp)
    rw [show joined (v :: w :: l) = v ++ ';' :: joined (w :: l) from rfl, elements_cons hv.1 hv.2,
      elements_joined (fun u hu => h u (by simp [hu]))]

theorem elements_words (v : Str) : ∀ w ∈ elements v, w ≠ [] := by
  intro w hw
  simp only [elements, List.mem_filter] at hw
  intro h
  simp [h] at hw

/-! ### Conditions on plain names -/

/-- A text that is neither a constant nor a number: in `if` it names a variable. -/
def IsName (x : Str) : Prop := isOn x = false ∧ isOff x = false ∧ number x = none

instance (x : Str) : Decidable (IsName x) := by unfold IsName; infer_instance

theorem truth_name (e : Env) {x : Str} (h : IsName x) :
    truth e x = (match e.get x with | some v => !isOff v | none => false) := by
  obtain ⟨h1, h2, h3⟩ := h
  unfold truth
  rw [h1, h2, h3]
  rfl

theorem truth_congr {e e' : Env} {x : Str} (h : e.get x = e'.get x) : truth e x = truth e' x := by
  unfold truth
  rw [h]

theorem get_fallback_ne (e : Env) {x y : Str} (l : List Str) (h : y ≠ x) :
    (e.fallback x l).get y = e.get y := by
  unfold Env.fallback
  split
  · rfl
  · exact get_set_ne e l h

theorem fallback_true (e : Env) {x : Str} (l : List Str) (h : truth e x = true) :
    e.fallback x l = e := by
  simp [Env.fallback, h]

theorem fallback_false (e : Env) {x : Str} (l : List Str) (h : truth e x = false) :
    e.fallback x l = e.set x l := by
  simp [Env.fallback, h]

theorem fallback_cache (e : Env) (x : Str) (l : List Str) : (e.fallback x l).cache = e.cache := by
  unfold Env.fallback
  split
  · rfl
  · exact set_cache e x l

theorem put_same (e : Env) {x : Str} {v : Option Str} (h : e.vars x = v) : e.put x v = e := by
  subst h
  unfold Env.put
  cases e with
  | mk vars cache =>
    simp only [Env.mk.injEq, and_true]
    funext y
    split
    · rename_i h; rw [h]
    · rfl

theorem vars_put_ne (e : Env) {x y : Str} (v : Option Str) (h : y ≠ x) :
    (e.put x v).vars y = e.vars y := by
  simp [Env.put, h]

theorem vars_set_ne (e : Env) {x y : Str} (l : List Str) (h : y ≠ x) :
    (e.set x l).vars y = e.vars y := by
  cases l <;> simp [Env.set, Env.put, h]

theorem vars_set_self (e : Env) (x : Str) (l : List Str) :
    (e.set x l).vars x = if l = [] then none else some (joined l) := by
  cases l <;> simp [Env.set, Env.put]

theorem set_same (e : Env) {x : Str} {l : List Str}
    (h : e.vars x = if l = [] then none else some (joined l)) : e.set x l = e := by
  cases l with
  | nil => exact put_same e h
  | cons a l => exact put_same e (by simpa using h)

theorem vars_fallback_ne (e : Env) {x y : Str} (l : List Str) (h : y ≠ x) :
    (e.fallback x l).vars y = e.vars y := by
  unfold Env.fallback
  split
  · rfl
  · exact vars_set_ne e l h

/-- After a fallback the variable is true or has the default. -/
theorem fallback_fix (e : Env) (x : Str) (l : List Str) (e' : Env)
    (hv : e'.vars x = (e.fallback x l).vars x) (hc : e'.cache = e.cache) :
    e'.fallback x l = e' := by
  have hg : e'.get x = (e.fallback x l).get x := by
    unfold Env.get
    rw [hv, hc, fallback_cache]
  by_cases h : truth e x = true
  · rw [fallback_true e l h] at hg
    exact fallback_true e' l (by rw [truth_congr hg, h])
  · rw [Bool.not_eq_true] at h
    rw [fallback_false e l h, vars_set_self] at hv
    unfold Env.fallback
    split
    · rfl
    · exact set_same e' hv

end Verif.CMake
