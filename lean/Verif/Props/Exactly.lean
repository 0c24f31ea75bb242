import Verif.Props.NumFormat
import Verif.Props.History
import Verif.Props.TimeFormat
import Verif.Props.Counter
import Verif.Props.CommandReader
/-!
C12, C41, C45, C58, C100: for which arguments these properties fail, beyond the examples in the negations.
-/

namespace Verif.NumFormat

/-- C12: the call without permission for longer texts divides by zero exactly from 32 characters on. -/
theorem C12_ub_iff (v : Int) (n : Nat) : numberTrailingZerosFormat v n false = .ub ↔ 32 ≤ n := by
  have hp : (Math.fastExponential 10#32 n).toNat = 10 ^ n % 2 ^ 32 := Math.C03_fastExponential 10#32 n
  have hz : Math.fastExponential 10#32 n = 0#32 ↔ 32 ≤ n := by
    rw [← BitVec.toNat_inj, hp]
    show 10 ^ n % 2 ^ 32 = 0 ↔ _
    rw [← Nat.dvd_iff_mod_eq_zero]
    constructor
    · intro h
      refine Decidable.byContradiction fun hlt => ?_
      have h2 : 2 ^ 32 ∣ 2 ^ n * 5 ^ n := by rw [← Nat.mul_pow]; exact h
      have h3 : Nat.Coprime (2 ^ 32) (5 ^ n) := Nat.Coprime.pow _ _ (by decide)
      have h4 := Nat.le_of_dvd (Nat.pow_pos (by decide)) (h3.dvd_of_dvd_mul_right h2)
      exact hlt ((Nat.pow_le_pow_iff_right (by decide)).1 h4)
    · intro h
      rw [show (10 : Nat) = 2 * 5 from rfl, Nat.mul_pow]
      exact Nat.dvd_mul_right_of_dvd (Nat.pow_dvd_pow 2 h) _
  unfold numberTrailingZerosFormat
  simp only [if_true]
  rw [← hz]
  split
  · simp_all
  · split <;> simp_all

/-- C12, negation: every negative `int` is refused for up to 9 characters, however short its text. -/
theorem C12_negation_negative (v : Int) (n : Nat) (hv : v < 0) (hv' : -2 ^ 31 ≤ v) (hn : n ≤ 9) :
    numberTrailingZerosFormat v n false = .throw .preconditionNotMet := by
  have hpow : 10 ^ n ≤ 10 ^ 9 := Nat.pow_le_pow_right (by decide) hn
  have hp : (Math.fastExponential 10#32 n).toNat = 10 ^ n :=
    Math.C03_fastExponential_exact 10#32 n (show 10 ^ n < 2 ^ 32 by omega)
  have hpos : 0 < 10 ^ n := Nat.pow_pos (by decide)
  have hp0 : Math.fastExponential 10#32 n ≠ 0#32 := by
    intro h; rw [h] at hp; simp at hp; omega
  have hg : BitVec.ofInt 32 v / Math.fastExponential 10#32 n > 0#32 := by
    rw [gt_iff_lt, BitVec.lt_def, BitVec.toNat_udiv, hp, BitVec.toNat_ofInt]
    show 0 < _
    rw [Nat.div_pos_iff]
    omega
  unfold numberTrailingZerosFormat
  simp only [if_true, hp0, if_false, hg]

example : numberTrailingZerosFormat (-2147483648) 9 false = .throw .preconditionNotMet ∧
    numberTrailingZerosFormat 5 31 false ≠ .ub := by decide +kernel

end Verif.NumFormat

namespace Verif.History

/-- C41: the calls up to the first non-empty command leave the history (undefined behaviour) exactly if
`get_next_command` is called twice among them, and then whatever follows. -/
theorem C41_ub_iff (pre : List Op) (hpre : ∀ o ∈ pre, idle o) :
    (run init pre = .ub ↔ 2 ≤ pre.count .next) ∧
    (2 ≤ pre.count .next → ∀ post, run init (pre ++ post) = .ub) := by
  have hz : ∀ (pre : List Op), (∀ o ∈ pre, idle o) →
      (pre.count .next = 0 → ∃ r, run ⟨[], 0⟩ pre = .ok r) ∧
      (1 ≤ pre.count .next → ∀ post, run ⟨[], 0⟩ (pre ++ post) = .ub) := by
    intro pre
    induction pre with
    | nil => intro _; exact ⟨fun _ => ⟨_, rfl⟩, fun h => absurd h (by simp)⟩
    | cons o pre ih =>
      intro hid
      obtain ⟨h1, h2⟩ := ih fun x hx => hid x (by simp [hx])
      have skip : step ⟨[], 0⟩ o = .ok (⟨[], 0⟩, []) → o ≠ .next →
          ((o :: pre).count .next = 0 → ∃ r, run ⟨[], 0⟩ (o :: pre) = .ok r) ∧
          (1 ≤ (o :: pre).count .next → ∀ post, run ⟨[], 0⟩ (o :: pre ++ post) = .ub) := by
        intro hs hne
        have hc : (o :: pre).count .next = pre.count .next := by
          rw [List.count_cons]; simp [hne]
        rw [hc]
        refine ⟨fun h => ?_, fun h post => ?_⟩
        · obtain ⟨⟨a, b⟩, e⟩ := h1 h
          exact ⟨(a, [] :: b), by simp only [run, hs, e]⟩
        · rw [List.cons_append]
          simp only [run, hs, h2 h post]
      rcases hid o (by simp) with rfl | rfl | rfl
      · exact skip (by simp [step, prev]) (by simp)
      · refine ⟨fun h => absurd h (by simp), fun _ post => ?_⟩
        have hs : step ⟨[], 0⟩ .next = .ub := by decide
        rw [List.cons_append]
        simp only [run, hs]
      · exact skip (by simp [step, add]) (by simp)
  have hm : ∀ (pre : List Op), (∀ o ∈ pre, idle o) →
      (pre.count .next ≤ 1 → ∃ r, run init pre = .ok r) ∧
      (2 ≤ pre.count .next → ∀ post, run init (pre ++ post) = .ub) := by
    intro pre
    induction pre with
    | nil => intro _; exact ⟨fun _ => ⟨_, rfl⟩, fun h => absurd h (by simp)⟩
    | cons o pre ih =>
      intro hid
      have hrest : ∀ x ∈ pre, idle x := fun x hx => hid x (by simp [hx])
      obtain ⟨h1, h2⟩ := ih hrest
      have skip : step init o = .ok (init, []) → o ≠ .next →
          ((o :: pre).count .next ≤ 1 → ∃ r, run init (o :: pre) = .ok r) ∧
          (2 ≤ (o :: pre).count .next → ∀ post, run init (o :: pre ++ post) = .ub) := by
        intro hs hne
        have hc : (o :: pre).count .next = pre.count .next := by
          rw [List.count_cons]; simp [hne]
        rw [hc]
        refine ⟨fun h => ?_, fun h post => ?_⟩
        · obtain ⟨⟨a, b⟩, e⟩ := h1 h
          exact ⟨(a, [] :: b), by simp only [run, hs, e]⟩
        · rw [List.cons_append]
          simp only [run, hs, h2 h post]
      rcases hid o (by simp) with rfl | rfl | rfl
      · exact skip (by simp [step, prev, init]) (by simp)
      · have hs : step init .next = .ok (⟨[], 0⟩, []) := by decide
        refine ⟨fun h => ?_, fun h post => ?_⟩
        · obtain ⟨⟨a, b⟩, e⟩ := (hz pre hrest).1 (by simp only [List.count_cons_self] at h; omega)
          exact ⟨(a, [] :: b), by simp only [run, hs, e]⟩
        · have e := (hz pre hrest).2 (by simp only [List.count_cons_self] at h; omega) post
          rw [List.cons_append]
          simp only [run, hs, e]
      · exact skip (by simp [step, add]) (by simp)
  obtain ⟨h1, h2⟩ := hm pre hpre
  refine ⟨⟨fun h => ?_, fun h => ?_⟩, h2⟩
  · refine Decidable.byContradiction fun hc => ?_
    obtain ⟨r, e⟩ := h1 (by omega)
    rw [e] at h
    cases h
  · have := h2 h []
    rwa [List.append_nil] at this

example : (∀ o ∈ [Op.prev, .next, .add [], .prev, .next], idle o) ∧
    [Op.prev, .next, .add [], .prev, .next].count .next = 2 := by
  refine ⟨by simp [idle], by decide⟩

end Verif.History

namespace Verif.TimeUtils

/-- C100, negation: every timestamp before 1970 with a fraction of a second is shown as the next second, in
every format. -/
theorem C100_negation_all (ns : Int) (fmt : List Item) (h : ns < 0) :
    timestampToString ns fmt = timestampToString (-((-ns) / 1000000000) * 1000000000) fmt ∧
    (¬ (1000000000 : Int) ∣ ns → ns < -((-ns) / 1000000000) * 1000000000) := by
  have e : toTimeT ns = toTimeT (-((-ns) / 1000000000) * 1000000000) := by
    unfold toTimeT
    have h1 : ns.tdiv (10 ^ 9) = -((-ns) / 1000000000) := by
      rw [show ns.tdiv (10 ^ 9) = (- -ns).tdiv (10 ^ 9) by rw [Int.neg_neg], Int.neg_tdiv, Int.tdiv_eq_ediv_of_nonneg (by omega)]
      rfl
    rw [h1]
    exact (Int.mul_tdiv_cancel _ (by decide)).symm
  refine ⟨?_, fun hd => ?_⟩
  · unfold timestampToString
    rw [e]
  · omega

example : (-1500000000 : Int) < 0 ∧ ¬ (1000000000 : Int) ∣ -1500000000 ∧
    -((-(-1500000000 : Int)) / 1000000000) * 1000000000 = -1000000000 := by decide

end Verif.TimeUtils

namespace Verif.Counter
open Verif.Threads

/-- C58, negation: for every initial value but 0, `consume` on a new consumer throws the exception for an inconsistent
state (the threshold is 0, ConsumerWaitHandler.ipp:28-35). -/
theorem C58_negation_all (T : Type) (k : Nat) (hk : 0 < k) (picks : Nat → Nat) : ∃ s : State T,
    (system T).ReachableBy (fun op => op ≠ .inc ∧ ∀ t, op ≠ .waitDec t) (init 0 k true picks 1) s ∧
    s.pcs = [.idle (some (.threw .inconsistency))] := by
  obtain ⟨k, rfl⟩ : ∃ j, k = j + 1 := ⟨k - 1, by omega⟩
  have hx : ∃ s, (system T).exec (init 0 (k + 1) true picks 1)
      [.start 0 (.consume false), .run 0, .run 0, .run 0, .run 0] = some s ∧
      s.pcs = [.idle (some (.threw .inconsistency))] := ?x
  case x => cases k <;> exact ⟨_, rfl, rfl⟩
  obtain ⟨s, hs, hp⟩ := hx
  refine ⟨s, (system T).exec_reachable (s := init 0 (k + 1) true picks 1) _ ?_ .init hs, hp⟩
  intro l hl
  simp only [List.mem_cons, List.not_mem_nil, or_false] at hl
  rcases hl with rfl | rfl | rfl | rfl | rfl <;> first | trivial | exact ⟨nofun, nofun⟩

end Verif.Counter

namespace Verif.CommandReader
open Verif.Strings

/-- No word starts with the quote at the end. -/
theorem words_quoted (q : Str) (hq : '"' ∉ q) (hne : q ≠ []) (hl : q.getLast? ≠ some ' ') :
    ∀ w ∈ words (q ++ ['"']), w.head? ≠ some '"' := by
  induction q with
  | nil => exact absurd rfl hne
  | cons c q ih =>
    have hc : c ≠ '"' := fun h => hq (by simp [h])
    by_cases hq0 : q = []
    · subst hq0
      have hcs : c ≠ ' ' := fun h => hl (by simp [h])
      have e : words ([c] ++ ['"']) = [[c, '"']] := by simp [words, hcs]
      rw [e]
      intro w hw
      rw [List.mem_singleton.1 hw]
      simpa using hc
    · have ih := ih (fun h => hq (by simp [h])) hq0 (by rwa [List.getLast?_cons_of_ne_nil hq0] at hl)
      intro w hw
      rw [List.cons_append, words] at hw
      split at hw
      · rcases List.mem_cons.1 hw with rfl | hw
        · simp
        · exact ih w hw
      · split at hw
        · rw [List.mem_singleton.1 hw]
          simpa using hc
        · rename_i v vs e
          rcases List.mem_cons.1 hw with rfl | hw
          · simpa using hc
          · exact ih w (by rw [e]; exact List.mem_cons_of_mem _ hw)

/-- C45, negation: every quoted phrase that starts with a space and does not end with one is taken for an empty
argument followed by its words, the last one with the closing quote. -/
theorem C45_negation_all (q : Str) (hq : '"' ∉ q) (hne : q ≠ []) (hl : q.getLast? ≠ some ' ') :
    ∃ ws, SplitReturns (q ++ ['"']) [' '] ws ∧ arguments ('"' :: ' ' :: (q ++ ['"'])) = some ([] :: ws) := by
  refine ⟨words (q ++ ['"']), ?_, ?_⟩
  · obtain ⟨ps, h1, h2⟩ := split_spec (s := q ++ ['"']) (d := [' ']) (by simp)
    rw [leftmostCut_unique h2 (words_cut _)] at h1
    exact (splitReturns_iff_split (by simp)).2 h1
  · rw [arguments_eq]
    have e : words ('"' :: ' ' :: (q ++ ['"'])) = ['"'] :: words (q ++ ['"']) :=
      words_append ['"'] (q ++ ['"'])
    have e0 : emit ['"'] = [] := by decide
    rw [e]
    have h1 : joinLoop none (['"'] :: words (q ++ ['"'])) = emit ['"'] :: joinLoop none (words (q ++ ['"'])) := by
      simp [joinLoop]
    rw [h1, e0]
    congr 2
    have hh := words_quoted q hq hne hl
    generalize words (q ++ ['"']) = ws at hh
    induction ws with
    | nil => rfl
    | cons w ws ih =>
      simp only [joinLoop, hh w (by simp), if_false]
      rw [ih (fun x hx => hh x (by simp [hx]))]

example : '"' ∉ c!"a b" ∧ c!"a b".getLast? ≠ some ' ' ∧
    arguments c!"\" a b\"" = some [[], c!"a", c!"b\""] := by decide

end Verif.CommandReader
