import Verif.Model.Pool
/-!
C65, C66, C88, C89: `UnboundedPool`.
-/
namespace Verif.Pool

/-- The pools a client can have that returns only what it holds (`held`, latest first), `peak` being the
greatest number of elements it ever held at the same time. -/
inductive Honest (c : Config) : Pool → List Nat → Nat → Prop
  | make {p} : make c = .ok p → Honest c p [] 0
  | loan {p held peak e p'} : Honest c p held peak → loan p = .ok (e, p') →
      Honest c p' (e :: held) (max peak (held.length + 1))
  | return {p held peak e p'} : Honest c p held peak → e ∈ held → returnLoan e p = .ok p' →
      Honest c p' (held.erase e) peak

/-- The invariant. -/
structure Inv (c : Config) (p : Pool) (held : List Nat) (peak : Nat) : Prop where
  nodup : (p.free ++ held).Nodup
  mem : ∀ e, e ∈ p.free ++ held ↔ e < p.allocated
  reserved : p.reserved = p.allocated % 2 ^ 32
  batch : p.batch = c.batch ∧ 1 ≤ c.batch
  peak : held.length ≤ peak ∧ (p.allocated = c.initial ∨ p.allocated + 1 ≤ peak + c.batch)

theorem length_of {l : List Nat} {n : Nat} (h1 : l.Nodup) (h2 : ∀ e, e ∈ l ↔ e < n) : l.length = n := by
  have hp : l.Perm (List.range n) := by
    rw [List.perm_ext_iff_of_nodup h1 List.nodup_range]
    intro a
    rw [h2, List.mem_range]
  rw [hp.length_eq, List.length_range]

theorem Inv.count {c : Config} {p : Pool} {held : List Nat} {peak : Nat} (h : Inv c p held peak) :
    p.allocated = p.free.length + held.length := by
  rw [← List.length_append]
  exact (length_of h.nodup h.mem).symm

theorem augment_inv {c : Config} {p : Pool} {held : List Nat} {n : Nat}
    (hn : (p.free ++ held).Nodup) (hm : ∀ e, e ∈ p.free ++ held ↔ e < p.allocated)
    (hr : p.reserved = p.allocated % 2 ^ 32) :
    ((augment n p).free ++ held).Nodup ∧
    (∀ e, e ∈ (augment n p).free ++ held ↔ e < (augment n p).allocated) ∧
    (augment n p).reserved = (augment n p).allocated % 2 ^ 32 := by
  have hp : ((augment n p).free ++ held).Perm ((p.free ++ held) ++ List.range' p.allocated n) := by
    show (p.free ++ List.range' p.allocated n ++ held).Perm _
    rw [List.append_assoc, List.append_assoc]
    exact List.Perm.append_left _ List.perm_append_comm
  refine ⟨?_, ?_, ?_⟩
  · refine hp.nodup_iff.2 (List.nodup_append.2 ⟨hn, List.nodup_range', ?_⟩)
    intro a ha b hb e
    have := (hm a).1 ha
    have := List.mem_range'_1.1 hb
    omega
  · intro e
    rw [hp.mem_iff, List.mem_append, hm, List.mem_range'_1]
    show _ ↔ e < p.allocated + n
    omega
  · show (p.reserved + n) % 2 ^ 32 = (p.allocated + n) % 2 ^ 32
    omega

theorem split_last {l : List Nat} {e : Nat} (h : l.getLast? = some e) : l = l.dropLast ++ [e] := by
  obtain ⟨l', rfl⟩ := List.getLast?_eq_some_iff.1 h
  rw [List.dropLast_concat]

/-- What `loan` does. -/
theorem loan_spec {p : Pool} {e : Nat} {p' : Pool} (h : loan p = .ok (e, p')) :
    (p.free = [] ∧ (augment p.batch p).free = p'.free ++ [e] ∧ p' = { augment p.batch p with free := p'.free }) ∨
    (p.free ≠ [] ∧ p.free = p'.free ++ [e] ∧ p' = { p with free := p'.free }) := by
  unfold loan at h
  by_cases hf : p.free.length = 0
  · rw [if_pos hf] at h
    simp only at h
    split at h
    · rename_i e' he
      cases h
      exact Or.inl ⟨List.length_eq_zero_iff.1 hf, split_last he, rfl⟩
    · cases h
  · rw [if_neg hf] at h
    simp only at h
    split at h
    · rename_i e' he
      cases h
      exact Or.inr ⟨fun e => hf (by rw [e]; rfl), split_last he, rfl⟩
    · cases h

theorem inv {c : Config} {p : Pool} {held : List Nat} {peak : Nat} (h : Honest c p held peak) :
    Inv c p held peak := by
  induction h with
  | make h =>
    unfold make at h
    split at h
    · cases h
    · cases h
      obtain ⟨h1, h2, h3⟩ := augment_inv (c := c) (p := ⟨[], 0, 0, c.batch⟩) (held := []) (n := c.initial)
        List.nodup_nil (by simp) (by simp)
      refine ⟨h1, h2, h3, ⟨rfl, by omega⟩, Nat.le_refl 0, Or.inl ?_⟩
      show 0 + c.initial = c.initial
      omega
  | @loan p held peak e p' _ h ih =>
    have hc := ih.count
    have move : ∀ {l : List Nat}, (l ++ [e] ++ held).Perm (l ++ e :: held) := by
      intro l
      rw [List.append_assoc]
      exact List.Perm.refl _
    rcases loan_spec h with ⟨h0, h1, h2⟩ | ⟨h0, h1, h2⟩
    · obtain ⟨a1, a2, a3⟩ := augment_inv (c := c) (n := p.batch) ih.nodup ih.mem ih.reserved
      rw [h1] at a1 a2
      have ha : p'.allocated = p.allocated + p.batch := by rw [h2]; rfl
      refine ⟨move.nodup_iff.1 a1, ?_, ?_, ?_, ?_, ?_⟩
      · intro x
        rw [← move.mem_iff, a2, h2]
      · rw [h2]
        exact a3
      · rw [h2]
        exact ih.batch
      · simp only [List.length_cons]
        omega
      · right
        rw [h0] at hc
        have := ih.batch
        simp only [List.length_nil] at hc
        have := Nat.le_max_right peak (held.length + 1)
        omega
    · have b1 := ih.nodup
      have b2 := ih.mem
      rw [h1] at b1 b2
      have ha : p'.allocated = p.allocated := by rw [h2]
      refine ⟨move.nodup_iff.1 b1, ?_, ?_, ?_, ?_, ?_⟩
      · intro x
        rw [← move.mem_iff, b2, h2]
      · rw [h2]
        exact ih.reserved
      · rw [h2]
        exact ih.batch
      · simp only [List.length_cons]
        omega
      · rcases ih.peak.2 with hp | hp
        · exact Or.inl (ha.trans hp)
        · right
          have := Nat.le_max_left peak (held.length + 1)
          omega
  | @«return» p held peak e p' _ he h ih =>
    unfold returnLoan at h
    split at h
    · cases h
    · cases h
      have move : (p.free ++ [e] ++ held.erase e).Perm (p.free ++ held) := by
        rw [List.append_assoc]
        exact List.Perm.append_left _ (List.perm_cons_erase he).symm
      refine ⟨move.nodup_iff.2 ih.nodup, ?_, ih.reserved, ih.batch, ?_, ih.peak.2⟩
      · intro x
        exact move.mem_iff.trans (ih.mem x)
      · have := List.length_erase_of_mem he
        have := ih.peak.1
        omega

/-! ### C65 -/

/-- C65: loan succeeds, and what it lends is not on loan; it is an element that is free already if there is
one, and only otherwise is anything allocated. -/
theorem C65_loan {c : Config} {p : Pool} {held : List Nat} {peak : Nat} (h : Honest c p held peak) :
    ∃ e p', loan p = .ok (e, p') ∧ e ∉ held ∧
      (p.free ≠ [] → e ∈ p.free ∧ p'.allocated = p.allocated) := by
  have hi := inv h
  have hb := hi.batch
  have hex : ∃ e p', loan p = .ok (e, p') := by
    unfold loan
    simp only
    generalize hq : (if p.free.length = 0 then augment p.batch p else p) = q
    split
    · rename_i e he
      exact ⟨e, _, rfl⟩
    · rename_i hn
      exfalso
      rw [List.getLast?_eq_none_iff] at hn
      subst hq
      split at hn
      · have := congrArg List.length hn
        simp only [augment, List.length_append, List.length_range', List.length_nil] at this
        omega
      · rename_i hne
        exact hne (by rw [hn]; rfl)
  obtain ⟨e, p', he⟩ := hex
  have hn := (inv (Honest.loan h he)).nodup
  refine ⟨e, p', he, ?_, ?_⟩
  · have := (List.nodup_append.1 hn).2.1
    exact (List.nodup_cons.1 this).1
  · intro hf
    rcases loan_spec he with ⟨h0, -⟩ | ⟨-, h1, h2⟩
    · exact absurd h0 hf
    · exact ⟨by rw [h1]; exact List.mem_append_right _ (List.mem_singleton.2 rfl), by rw [h2]⟩

/-- C65: every allocated element is either free or on loan, once. -/
theorem C65_accounting {c : Config} {p : Pool} {held : List Nat} {peak : Nat} (h : Honest c p held peak) :
    p.allocated = p.free.length + held.length ∧ (p.free ++ held).Nodup :=
  ⟨(inv h).count, (inv h).nodup⟩

/-- C65: a client that returns what it holds is not refused (as long as fewer than 2^32 elements are
allocated). -/
theorem C65_return {c : Config} {p : Pool} {held : List Nat} {peak e : Nat} (h : Honest c p held peak)
    (he : e ∈ held) (hw : p.allocated < 2 ^ 32) :
    ∃ p', returnLoan e p = .ok p' ∧ e ∈ p'.free := by
  have hi := inv h
  have hc := hi.count
  have hl := List.length_pos_of_mem he
  refine ⟨_, if_neg ?_, List.mem_append_right _ (List.mem_singleton.2 rfl)⟩
  rw [hi.reserved, Nat.mod_eq_of_lt hw]
  omega

/-! ### C66: any client -/

/-- The pools any client can have, whatever pointers it returns; `out` is the number of loans that were not
returned. -/
inductive Any (c : Config) : Pool → Nat → Prop
  | make {p} : make c = .ok p → Any c p 0
  | loan {p out e p'} : Any c p out → loan p = .ok (e, p') → Any c p' (out + 1)
  | return {p out e p'} : Any c p out → returnLoan e p = .ok p' → Any c p' (out - 1)

theorem any_inv {c : Config} {p : Pool} {out : Nat} (h : Any c p out) (hw : p.allocated < 2 ^ 32) :
    p.reserved = p.free.length + out ∧ p.reserved = p.allocated := by
  induction h with
  | make h =>
    unfold make at h
    split at h
    · cases h
    · cases h
      simp only [augment] at hw ⊢
      rw [List.length_append, List.length_range', List.length_nil]
      omega
  | @loan p out e p' _ h ih =>
    rcases loan_spec h with ⟨h0, h1, h2⟩ | ⟨h0, h1, h2⟩
    · have ha : p'.allocated = p.allocated + p.batch := by rw [h2]; rfl
      have hr : p'.reserved = (p.reserved + p.batch) % 2 ^ 32 := by rw [h2]; rfl
      have hl := congrArg List.length h1
      simp only [augment, List.length_append, List.length_range', List.length_cons, List.length_nil] at hl
      have := ih (by omega)
      omega
    · have ha : p'.allocated = p.allocated := by rw [h2]
      have hr : p'.reserved = p.reserved := by rw [h2]
      have hl := congrArg List.length h1
      simp only [List.length_append, List.length_cons, List.length_nil] at hl
      have := ih (by omega)
      omega
  | @«return» p out e p' _ h ih =>
    unfold returnLoan at h
    split at h
    · cases h
    · rename_i hne
      cases h
      have := ih hw
      simp only [List.length_append, List.length_cons, List.length_nil]
      omega

/-- C66: whatever was returned before and whatever is returned now, `return_loan` throws exactly when as
many elements were returned as lent (as long as fewer than 2^32 elements are allocated). -/
theorem C66_excess {c : Config} {p : Pool} {out : Nat} (h : Any c p out) (hw : p.allocated < 2 ^ 32) (e : Nat) :
    (returnLoan e p = .throw .inconsistency ↔ out = 0) ∧ (out ≠ 0 → ∃ p', returnLoan e p = .ok p') := by
  have hi := any_inv h hw
  unfold returnLoan
  constructor
  · constructor
    · intro h
      split at h
      · omega
      · cases h
    · intro h
      rw [if_pos (by omega)]
  · intro h
    rw [if_neg (by omega)]
    exact ⟨_, rfl⟩

/-- C66, the bound is needed: when 2^32 elements are allocated and all are on loan, the counter has wrapped
around to 0 and a correct return is refused. -/
theorem C66_wrap {c : Config} {p : Pool} {held : List Nat} {peak : Nat} (h : Honest c p held peak)
    (ha : p.allocated = 2 ^ 32) (hf : p.free = []) (e : Nat) : returnLoan e p = .throw .inconsistency := by
  unfold returnLoan
  rw [if_pos]
  rw [(inv h).reserved, ha, hf]
  rfl

/-- C66 is false of clients that return an element twice: while something else is on loan this is not
detected, the element is lent to two clients, and the destructor deletes it twice. -/
theorem C66_negation : ∃ (p : Pool) (out : Nat), Any ⟨0, 2⟩ p out ∧
    ((destroy false p).map Prod.fst) = [0, 0] := by
  refine ⟨⟨[0, 0], 2, 2, 2⟩, 0, ?_, rfl⟩
  have h0 : Any ⟨0, 2⟩ ⟨[], 0, 0, 2⟩ 0 := .make rfl
  have h1 : Any ⟨0, 2⟩ ⟨[0], 2, 2, 2⟩ 1 := .loan (e := 1) h0 rfl
  have h2 : Any ⟨0, 2⟩ ⟨[], 2, 2, 2⟩ 2 := .loan (e := 0) h1 rfl
  have h3 : Any ⟨0, 2⟩ ⟨[0], 2, 2, 2⟩ 1 := .return (e := 0) h2 rfl
  exact .return (e := 0) h3 rfl

/-- C66, what holds: if clients return only what they hold the destructor deletes every element that is not
on loan exactly once, and none that is on loan.  Missing: clients that return an element twice. -/
theorem C66_destroy_partial {c : Config} {p : Pool} {held : List Nat} {peak : Nat} (h : Honest c p held peak)
    (o : Bool) : ((destroy o p).map Prod.fst).Nodup ∧
      ∀ e, e ∈ (destroy o p).map Prod.fst ↔ e < p.allocated ∧ e ∉ held := by
  have hi := inv h
  have e : (destroy o p).map Prod.fst = p.free := by
    simp [destroy, List.map_map, Function.comp_def]
  rw [e]
  obtain ⟨h1, h2, h3⟩ := List.nodup_append.1 hi.nodup
  refine ⟨h1, ?_⟩
  intro x
  have := hi.mem x
  rw [List.mem_append] at this
  constructor
  · intro hx
    exact ⟨this.1 (Or.inl hx), fun hh => h3 x hx x hh rfl⟩
  · rintro ⟨ha, hn⟩
    rcases this.2 ha with h | h
    · exact h
    · exact absurd h hn

/-! ### C88 -/

/-- C88: a pool allocates its initial elements, and beyond them at most one batch more than its clients ever
used at once (less one element). -/
theorem C88_allocated {c : Config} {p : Pool} {held : List Nat} {peak : Nat} (h : Honest c p held peak) :
    p.allocated ≤ max c.initial (peak + c.batch - 1) := by
  have hi := inv h
  have := Nat.le_max_left c.initial (peak + c.batch - 1)
  have := Nat.le_max_right c.initial (peak + c.batch - 1)
  rcases hi.peak.2 with h | h <;> omega

/-- C88: a batch size of 0 is refused, every other configuration accepted. -/
theorem C88_config (c : Config) : (make c = .throw .initialization ↔ c.batch = 0) ∧
    (c.batch ≠ 0 → ∃ p, make c = .ok p ∧ p.allocated = c.initial) := by
  unfold make
  constructor
  · constructor
    · intro h
      split at h
      · omega
      · cases h
    · intro h
      rw [if_pos (by omega)]
  · intro h
    rw [if_neg (by omega)]
    exact ⟨_, rfl, Nat.zero_add _⟩

/-! ### C89 -/

/-- C89 is false: the elements of a derived pool that overrides `delete_element_` are deleted with the
default version. -/
theorem C89_negation : ∃ (p : Pool) (held : List Nat) (peak e : Nat), Honest ⟨1, 1⟩ p held peak ∧
    (e, Version.base) ∈ destroy true p :=
  ⟨⟨[0], 1, 1, 1⟩, [], 0, 0, .make rfl, List.mem_singleton.2 rfl⟩

/-- C89, what holds: a pool that does not override `delete_element_`. -/
theorem C89_default_partial (p : Pool) : ∀ t ∈ destroy false p, t.2 = .base := by
  intro t ht
  obtain ⟨e, -, rfl⟩ := List.mem_map.1 ht
  rfl

/-! ### Cases -/

/-- Non-trivial case for the theorems about honest clients: three loans from a pool with two elements
initially and batches of three, one return. -/
example : Honest ⟨2, 3⟩ ⟨[2, 3, 0], 5, 5, 3⟩ [4, 1] 3 := by
  have h0 : Honest ⟨2, 3⟩ ⟨[0, 1], 2, 2, 3⟩ [] 0 := .make rfl
  have h1 : Honest ⟨2, 3⟩ ⟨[0], 2, 2, 3⟩ [1] 1 := .loan h0 rfl
  have h2 : Honest ⟨2, 3⟩ ⟨[], 2, 2, 3⟩ [0, 1] 2 := .loan h1 rfl
  have h3 : Honest ⟨2, 3⟩ ⟨[2, 3], 5, 5, 3⟩ [4, 0, 1] 3 := .loan h2 rfl
  exact .return (e := 0) h3 (by decide) rfl

/-- Non-trivial case for `C66_excess`: one loan, two returns; the second is refused. -/
example : Any ⟨0, 1⟩ ⟨[7], 1, 1, 1⟩ 0 ∧ returnLoan 7 ⟨[7], 1, 1, 1⟩ = .throw .inconsistency := by
  have h0 : Any ⟨0, 1⟩ ⟨[], 0, 0, 1⟩ 0 := .make rfl
  have h1 : Any ⟨0, 1⟩ ⟨[], 1, 1, 1⟩ 1 := .loan (e := 0) h0 rfl
  exact ⟨.return (e := 7) h1 rfl, rfl⟩

/-- A client that takes `k` of the `n` elements the pool was made with. -/
theorem taken (n : Nat) (k : Nat) (hk : k ≤ n) :
    ∃ held, Honest ⟨n, 1⟩ ⟨List.range (n - k), n % 2 ^ 32, n, 1⟩ held k ∧ held.length = k := by
  induction k with
  | zero =>
    refine ⟨[], .make ?_, rfl⟩
    simp [make, augment, List.range_eq_range']
  | succ k ih =>
    obtain ⟨held, h, hl⟩ := ih (by omega)
    obtain ⟨m, hm⟩ : ∃ m, n - k = m + 1 := ⟨n - k - 1, by omega⟩
    have hm' : n - (k + 1) = m := by omega
    rw [hm] at h
    rw [hm']
    refine ⟨m :: held, ?_, by simp [hl]⟩
    have := Honest.loan (e := m) (p' := ⟨List.range m, n % 2 ^ 32, n, 1⟩) h
      (by simp [loan, List.range_succ])
    rw [hl, Nat.max_eq_right (Nat.le_succ k)] at this
    exact this

/-- Non-trivial case for `C66_wrap`: all of 2^32 elements are on loan, and none can be returned. -/
example : ∃ (p : Pool) (held : List Nat), Honest ⟨2 ^ 32, 1⟩ p held (2 ^ 32) ∧ p.allocated = 2 ^ 32 ∧
    p.free = [] ∧ ∀ e, returnLoan e p = .throw .inconsistency := by
  obtain ⟨held, h, _⟩ := taken (2 ^ 32) (2 ^ 32) (Nat.le_refl _)
  rw [Nat.sub_self] at h
  exact ⟨_, held, h, rfl, rfl, C66_wrap h rfl rfl⟩

end Verif.Pool
