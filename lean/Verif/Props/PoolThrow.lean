import Verif.Model.PoolThrow
import Verif.Props.Pool
/-!
C186: `UnboundedPool` after an exception of `new_element_` or `reset_element_`.
-/
namespace Verif.PoolThrow
open Verif.Pool (Pool Config)

/-- The pools a client can have that returns only what it holds (`held`, latest first), whichever calls of `new_element_` and
`reset_element_` threw; `left` is the number of elements that were built before another one failed in the same call. -/
inductive Client (c : Config) : Pool → List Nat → Nat → Prop
  | make {p} : Pool.make c = .ok p → Client c p [] 0
  | loan {p held left fail e p'} : Client c p held left → loan fail p = (p', .lent e) → Client c p' (e :: held) left
  | loanThrown {p held left fail p'} : Client c p held left → loan fail p = (p', .thrown) →
      Client c p' held (left + (p'.allocated - p.allocated))
  | return {p held left e p'} : Client c p held left → e ∈ held → returnLoan false e p = (p', .returned) →
      Client c p' (held.erase e) left
  | returnThrown {p held left e p'} : Client c p held left → e ∈ held → returnLoan true e p = (p', .thrown) →
      Client c p' held left

structure Inv (c : Config) (p : Pool) (held : List Nat) (left : Nat) : Prop where
  nodup : (p.free ++ held).Nodup
  mem : ∀ e, e ∈ p.free ++ held ↔ e < p.allocated
  reserved : ∃ r, p.reserved = r % 2 ^ 32 ∧ p.allocated = r + left
  batch : p.batch = c.batch ∧ 1 ≤ c.batch

theorem Inv.count {c : Config} {p : Pool} {held : List Nat} {left : Nat} (h : Inv c p held left) :
    p.allocated = p.free.length + held.length := by
  rw [← List.length_append]
  exact (Pool.length_of h.nodup h.mem).symm

/-- More elements. -/
theorem more {free held : List Nat} {a : Nat} (n : Nat) (hn : (free ++ held).Nodup)
    (hm : ∀ e, e ∈ free ++ held ↔ e < a) :
    (free ++ List.range' a n ++ held).Nodup ∧ ∀ e, e ∈ free ++ List.range' a n ++ held ↔ e < a + n := by
  have := Pool.augment_inv (c := ⟨0, 1⟩) (p := ⟨free, a % 2 ^ 32, a, 1⟩) (held := held) (n := n) hn hm rfl
  exact ⟨this.1, this.2.1⟩

theorem loan_cases {fail : Option Nat} {p p' : Pool} {o : Out} (h : loan fail p = (p', o)) :
    (p.free ≠ [] ∧ ∃ e, o = .lent e ∧ p.free = p'.free ++ [e] ∧ p' = { p with free := p'.free }) ∨
    (p.free = [] ∧ ∃ k, fail = some k ∧ k < p.batch ∧ o = .thrown ∧
      p' = { p with free := List.range' p.allocated k, allocated := p.allocated + k }) ∨
    (p.free = [] ∧ (∀ k, fail = some k → p.batch ≤ k) ∧
      ((p.batch = 0 ∧ o = .ub) ∨ ∃ e, o = .lent e ∧ List.range' p.allocated p.batch = p'.free ++ [e] ∧
      p' = { Pool.augment p.batch p with free := p'.free })) := by
  unfold loan at h
  by_cases h0 : p.free = []
  · have hl : p.free.length = 0 := by rw [h0]; rfl
    simp only [hl, if_true] at h
    have good : augment p.batch fail p = (Pool.augment p.batch p, false) → (∀ k, fail = some k → p.batch ≤ k) →
        (p.free = [] ∧ (∀ k, fail = some k → p.batch ≤ k) ∧
          ((p.batch = 0 ∧ o = .ub) ∨ ∃ e, o = .lent e ∧ List.range' p.allocated p.batch = p'.free ++ [e] ∧
          p' = { Pool.augment p.batch p with free := p'.free })) := by
      intro ha hk
      rw [ha] at h
      simp only [Bool.false_eq_true, if_false] at h
      have hfree : (Pool.augment p.batch p).free = List.range' p.allocated p.batch := by
        show p.free ++ _ = _
        rw [h0]; rfl
      rw [hfree] at h
      split at h
      · rename_i e he
        cases h
        exact ⟨h0, hk, .inr ⟨e, rfl, Pool.split_last he, rfl⟩⟩
      · rename_i he
        cases h
        rw [List.getLast?_eq_none_iff] at he
        refine ⟨h0, hk, .inl ⟨?_, rfl⟩⟩
        have := congrArg List.length he
        simpa using this
    cases fail with
    | none => exact .inr (.inr (good rfl (by intro k hk; cases hk)))
    | some k =>
      by_cases hk : k < p.batch
      · right; left
        simp only [augment, hk, if_true] at h
        cases h
        refine ⟨h0, k, rfl, hk, rfl, ?_⟩
        rw [h0]; rfl
      · exact .inr (.inr (good (by simp only [augment, hk, if_false]) (by intro j hj; cases hj; omega)))
  · left
    have hl : p.free.length ≠ 0 := fun e => h0 (List.length_eq_zero_iff.1 e)
    simp only [hl, if_false, Bool.false_eq_true] at h
    split at h
    · rename_i e he
      cases h
      exact ⟨h0, e, rfl, Pool.split_last he, rfl⟩
    · rename_i he
      rw [List.getLast?_eq_none_iff] at he
      exact absurd he h0

theorem inv {c : Config} {p : Pool} {held : List Nat} {left : Nat} (h : Client c p held left) : Inv c p held left := by
  have take : ∀ {free free' held : List Nat} {e a : Nat}, free = free' ++ [e] → (free ++ held).Nodup →
      (∀ x, x ∈ free ++ held ↔ x < a) → (free' ++ e :: held).Nodup ∧ ∀ x, x ∈ free' ++ e :: held ↔ x < a := by
    intro free free' held e a h1 h2 h3
    subst h1
    rw [List.append_assoc] at h2 h3
    exact ⟨h2, h3⟩
  induction h with
  | make h =>
    unfold Pool.make at h
    split at h
    · cases h
    · rename_i hb
      cases h
      have := more (free := []) (held := []) (a := 0) c.initial List.nodup_nil (by simp)
      refine ⟨this.1, by simpa [Pool.augment] using this.2, ⟨c.initial, ?_, ?_⟩, rfl, by omega⟩
      · simp [Pool.augment]
      · simp [Pool.augment]
  | @loan p held left fail e p' _ h ih =>
    rcases loan_cases h with ⟨-, e', he, h1, h2⟩ | ⟨-, k, -, -, he, -⟩ | ⟨h0, -, ⟨-, he⟩ | ⟨e', he, h1, h2⟩⟩
    · cases he
      have := take h1 ih.nodup ih.mem
      rw [h2]
      exact ⟨this.1, this.2, ih.reserved, ih.batch⟩
    · cases he
    · cases he
    · cases he
      have hm := more p.batch ih.nodup ih.mem
      rw [h0, List.nil_append] at hm
      have := take h1 hm.1 hm.2
      obtain ⟨r, hr, ha⟩ := ih.reserved
      rw [h2]
      refine ⟨this.1, this.2, ⟨r + p.batch, ?_, ?_⟩, ih.batch⟩
      · show (p.reserved + p.batch) % 2 ^ 32 = _
        omega
      · show p.allocated + p.batch = _
        omega
  | @loanThrown p held left fail p' _ h ih =>
    rcases loan_cases h with ⟨-, e', he, -, -⟩ | ⟨h0, k, -, -, -, h2⟩ | ⟨h0, -, ⟨-, he⟩ | ⟨e', he, -, -⟩⟩
    · cases he
    · have hm := more k ih.nodup ih.mem
      rw [h0, List.nil_append] at hm
      obtain ⟨r, hr, ha⟩ := ih.reserved
      rw [h2]
      refine ⟨hm.1, hm.2, ⟨r, hr, ?_⟩, ih.batch⟩
      show p.allocated + k = r + (left + (p.allocated + k - p.allocated))
      omega
    · cases he
    · cases he
  | @«return» p held left e p' _ he h ih =>
    unfold returnLoan at h
    split at h
    · cases h
    · cases h
      have move : (p.free ++ [e] ++ held.erase e).Perm (p.free ++ held) := by
        rw [List.append_assoc]
        exact List.Perm.append_left _ (List.perm_cons_erase he).symm
      exact ⟨move.nodup_iff.2 ih.nodup, fun x => move.mem_iff.trans (ih.mem x), ih.reserved, ih.batch⟩
  | @returnThrown p held left e p' _ he h ih =>
    unfold returnLoan at h
    split at h
    · cases h
    · cases h
      exact ih

/-- C186: whatever threw before, every element that was built is in the pool or on loan, once; the elements that were built
before one failed are not lost. -/
theorem C186_accounting {c : Config} {p : Pool} {held : List Nat} {left : Nat} (h : Client c p held left) :
    p.allocated = p.free.length + held.length ∧ (p.free ++ held).Nodup ∧ ∀ e, e ∈ p.free ++ held ↔ e < p.allocated :=
  ⟨(inv h).count, (inv h).nodup, (inv h).mem⟩

/-- C186: `loan` lends an element that is not on loan, or throws because `new_element_` threw; in a pool that has a free
element, or when `new_element_` does not throw, it does not throw. -/
theorem C186_loan {c : Config} {p : Pool} {held : List Nat} {left : Nat} (h : Client c p held left) (fail : Option Nat) :
    (∃ e, (loan fail p).2 = .lent e ∧ e ∉ held) ∨
    ((loan fail p).2 = .thrown ∧ p.free = [] ∧ ∃ k, fail = some k ∧ (loan fail p).1.free.length = k) := by
  have hb := (inv h).batch
  generalize hl : loan fail p = r
  obtain ⟨p', o⟩ := r
  rcases loan_cases hl with ⟨-, e', rfl, h1, h2⟩ | ⟨h0, k, hk, -, rfl, h2⟩ | ⟨h0, -, ⟨h1, -⟩ | ⟨e', rfl, h1, h2⟩⟩
  · left
    have := (inv (Client.loan h hl)).nodup
    exact ⟨e', rfl, (List.nodup_cons.1 (List.nodup_append.1 this).2.1).1⟩
  · right
    refine ⟨rfl, h0, k, hk, ?_⟩
    show p'.free.length = k
    rw [h2]
    simp
  · omega
  · left
    have := (inv (Client.loan h hl)).nodup
    exact ⟨e', rfl, (List.nodup_cons.1 (List.nodup_append.1 this).2.1).1⟩

/-- C186: `return_loan` refuses what a client holds exactly when it holds as many elements as were built in calls of `loan`
that threw (with less than 2^32 elements). -/
theorem C186_refused {c : Config} {p : Pool} {held : List Nat} {left e : Nat} (h : Client c p held left)
    (hw : p.allocated < 2 ^ 32) (fails : Bool) :
    (returnLoan fails e p).2 = .refused ↔ held.length = left := by
  have hc := (inv h).count
  obtain ⟨r, hr, ha⟩ := (inv h).reserved
  rw [Nat.mod_eq_of_lt (by omega)] at hr
  unfold returnLoan
  constructor
  · intro h
    split at h
    · omega
    · split at h <;> cases h
  · intro h
    rw [if_pos (by omega)]

/-- C186, as far as it holds: if no element was built before another failed in the same call, in particular with a batch size
of 1 (below), then what a client holds is taken back.  Missing: see `C186_negation`. -/
theorem C186_returns_partial {c : Config} {p : Pool} {held : List Nat} {e : Nat} (h : Client c p held 0)
    (hw : p.allocated < 2 ^ 32) (he : e ∈ held) :
    ∃ p', returnLoan false e p = (p', .returned) ∧ e ∈ p'.free := by
  have hn : (returnLoan false e p).2 ≠ .refused := by
    rw [Ne, C186_refused h hw]
    have := List.length_pos_of_mem he
    omega
  unfold returnLoan at hn ⊢
  split
  · rename_i h
    rw [if_pos h] at hn
    exact absurd rfl hn
  · exact ⟨_, rfl, List.mem_append_right _ (List.mem_singleton.2 rfl)⟩

/-- C186: with a batch size of 1 nothing is ever left over. -/
theorem C186_single {c : Config} {p : Pool} {held : List Nat} {left : Nat} (hb : c.batch = 1) (h : Client c p held left) :
    left = 0 := by
  induction h with
  | make h => rfl
  | loan _ _ ih => exact ih
  | @loanThrown p held left fail p' hc h ih =>
    rcases loan_cases h with ⟨-, e', he, -, -⟩ | ⟨-, k, -, hk, -, h2⟩ | ⟨-, -, ⟨-, he⟩ | ⟨e', he, -, -⟩⟩
    · cases he
    · have := (inv hc).batch.1
      rw [h2]
      show left + (p.allocated + k - p.allocated) = 0
      omega
    · cases he
    · cases he
  | «return» _ _ _ ih => exact ih
  | returnThrown _ _ _ ih => exact ih

/-- C186: when `reset_element_` throws, nothing is lent or free that was not before, and the client can return the element
again. -/
theorem C186_reset (e : Nat) (p p' : Pool) (h : returnLoan true e p = (p', .thrown)) :
    p'.free = p.free ∧ ∃ p'', returnLoan false e p' = (p'', .returned) ∧ p''.free = p.free ++ [e] := by
  unfold returnLoan at h
  split at h
  · cases h
  · rename_i hr
    cases h
    exact ⟨rfl, { p with free := p.free ++ [e] }, by unfold returnLoan; rw [if_neg hr]; rfl, rfl⟩

/-- C186 is false: in a pool of any batch size above 1 that starts empty, if the second element of the first batch cannot be
built, then the next `loan` lends the first, and `return_loan` of it throws: the element never gets back, and is not deleted
with the pool. -/
theorem C186_negation (n : Nat) : ∃ p : Pool, Client ⟨0, n + 2⟩ p [0] 1 ∧
    (∀ fails, returnLoan fails 0 p = (p, .refused)) ∧ (Pool.destroy false p).map Prod.fst = [] := by
  refine ⟨⟨[], 0, 1, n + 2⟩, ?_, fun fails => rfl, rfl⟩
  have h0 : Client ⟨0, n + 2⟩ ⟨[], 0, 0, n + 2⟩ [] 0 := .make (by simp [Pool.make, Pool.augment])
  have h1 : Client ⟨0, n + 2⟩ ⟨[0], 0, 1, n + 2⟩ [] (0 + (1 - 0)) :=
    .loanThrown (fail := some 1) h0 (by simp [loan, augment, List.range'])
  exact .loan (fail := none) h1 rfl

/-- C186: and a return that is one too many is accepted: nothing is on loan, and the pool, which has one element, then has it
twice. -/
theorem C186_negation_excess (n : Nat) : ∃ p p' : Pool, Client ⟨0, n + 2⟩ p [] 1 ∧ p.allocated = 1 ∧
    returnLoan false 0 p = (p', .returned) ∧ p'.free = [0, 0] := by
  refine ⟨⟨[0], 0, 1, n + 2⟩, ⟨[0, 0], 0, 1, n + 2⟩, ?_, rfl, rfl, rfl⟩
  have h0 : Client ⟨0, n + 2⟩ ⟨[], 0, 0, n + 2⟩ [] 0 := .make (by simp [Pool.make, Pool.augment])
  exact .loanThrown (fail := some 1) h0 (by simp [loan, augment, List.range'])

/-- C186: the message of the destructor: it is about what is on loan only if nothing was left over. -/
theorem C186_message {c : Config} {p : Pool} {held : List Nat} {left : Nat} (h : Client c p held left)
    (hw : p.allocated < 2 ^ 32) : complains p = true ↔ held.length ≠ left := by
  have hc := (inv h).count
  obtain ⟨r, hr, ha⟩ := (inv h).reserved
  rw [Nat.mod_eq_of_lt (by omega)] at hr
  unfold complains
  rw [decide_eq_true_eq]
  omega

/-- A pool in which something failed and something is on loan: batches of 2, the second element of the second batch fails. -/
example : ∃ (p : Pool) (held : List Nat), Client ⟨1, 2⟩ p held 1 ∧ held = [1, 0] ∧ p.allocated < 2 ^ 32 :=
  ⟨⟨[], 1, 2, 2⟩, [1, 0], .loan (fail := none) (.loanThrown (fail := some 1) (.loan (fail := none)
    (.make (p := ⟨[0], 1, 1, 2⟩) rfl) (p' := ⟨[], 1, 1, 2⟩) (e := 0) rfl) (p' := ⟨[1], 1, 2, 2⟩) rfl) rfl, rfl, by decide⟩

/-- For `C186_reset`. -/
example : returnLoan true 0 ⟨[1], 2, 2, 2⟩ = (⟨[1], 2, 2, 2⟩, .thrown) := rfl

/-- For `C186_returns_partial`: the first element of the second batch fails. -/
example : ∃ (p : Pool) (held : List Nat), Client ⟨1, 2⟩ p held 0 ∧ held = [2, 0] ∧ p.allocated < 2 ^ 32 :=
  ⟨⟨[1], 3, 3, 2⟩, [2, 0], .loan (fail := none) (.loanThrown (fail := some 0) (.loan (fail := none)
    (.make (p := ⟨[0], 1, 1, 2⟩) rfl) (p' := ⟨[], 1, 1, 2⟩) (e := 0) rfl) (p' := ⟨[], 1, 1, 2⟩) rfl) rfl, rfl, by decide⟩

end Verif.PoolThrow
