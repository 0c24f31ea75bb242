import Verif.Model.OptParse
/-!
The loop of the option parser over the argument vector, without positions.
-/
namespace Verif.OptParse

theorem swap_adj (d r : List Str) (x a : Str) :
    swap (d ++ x :: a :: r) (d.length + 1) (d.length + 1 - 1) = d ++ a :: x :: r := by
  have h1 : (d ++ x :: a :: r)[d.length + 1]? = some a := by simp
  have h2 : (d ++ x :: a :: r)[d.length + 1 - 1]? = some x := by simp
  unfold swap
  rw [h1, h2]
  simp [List.set_append]

theorem shift_spec (n d r : List Str) (a : Str) :
    shift (d ++ n ++ a :: r) (d.length + n.length) n.length = d ++ a :: n ++ r := by
  induction hk : n.length generalizing n r with
  | zero => have := List.length_eq_zero_iff.1 hk; subst this; simp [shift]
  | succ k ih =>
    obtain ⟨m, x, rfl⟩ : ∃ m x, n = m ++ [x] := ⟨n.dropLast, n.getLast (by rintro rfl; cases hk), by rw [List.dropLast_concat_getLast]⟩
    simp only [List.length_append, List.length_cons, List.length_nil] at hk
    have hm : m.length = k := by omega
    have e : d ++ (m ++ [x]) ++ a :: r = (d ++ m) ++ x :: a :: r := by simp
    have hl : d.length + (k + 1) = (d ++ m).length + 1 := by simp; omega
    unfold shift
    rw [e, hl, swap_adj, Nat.add_sub_cancel]
    have h := ih m (x :: r) hm
    rw [show (d ++ m).length = d.length + k by simp [hm]]
    rw [h]
    simp

/-- An argument that is not an option. -/
def NonOption (p : Str) : Prop := p.head? ≠ some '-' ∨ p.length = 1
instance (p : Str) : Decidable (NonOption p) := inferInstanceAs (Decidable (_ ∨ _))

/-- What the parser makes of a list of arguments: options, failure, the arguments used, and those left. -/
structure Walk where
  opts : List Opt
  err : Bool
  used : List Str
  left : List Str
deriving DecidableEq

def walk (c : Cfg) : List Str → Walk
  | [] => ⟨[], false, [], []⟩
  | p :: r =>
    if NonOption p then
      if c.gnu then ⟨(walk c r).opts, (walk c r).err, (walk c r).used, p :: (walk c r).left⟩ else ⟨[], false, [], p :: r⟩
    else if p = c!"--" then ⟨[], false, [p], r⟩
    else
      match one c p r.head? with
      | (o, .illegal) => ⟨o, true, [], p :: r⟩
      | (o, .plain) => ⟨o ++ (walk c r).opts, (walk c r).err, p :: (walk c r).used, (walk c r).left⟩
      | (o, .took) =>
        match r with
        | [] => ⟨o, false, [p], []⟩
        | a :: r' => ⟨o ++ (walk c r').opts, (walk c r').err, p :: a :: (walk c r').used, (walk c r').left⟩

/-- The result of the loop for what is seen from outside. -/
def Out.left (r : Out) : List Str := (r.vec.drop r.start).take r.count

theorem handle_name {usage : List Desc} {i : Nat} {name : Str} {a : Potential} {o : Opt} {b : Bool}
    (h : handle usage i name a = some (o, b)) : o.desc = i ∧ o.name = name ∧ (b = true → o.arg = a.text) ∧ (b = false → o.arg = none) := by
  unfold handle at h
  split at h
  · cases h
  · split at h <;> simp at h <;> obtain ⟨rfl, rfl⟩ := h <;> simp

theorem fate_took {a : Potential} (h : a.fate = .took) : ∃ s, a = .detached s := by
  cases a <;> simp [Potential.fate] at h ⊢

theorem detach_took {n : Option Str} {s : Str} (h : detach n = .detached s) : n = some s := by
  cases n <;> simp [detach] at h ⊢; exact h

theorem longArg_took {name : Str} {n : Option Str} {s : Str} (h : longArg name n = .detached s) : n = some s := by
  unfold longArg at h
  split at h
  · exact detach_took h
  · cases h

theorem shorts_took {usage : List Desc} {n : Option Str} {s : Str} (h : (shorts usage n s).2 = .took) : n.isSome := by
  induction s with
  | nil => simp [shorts] at h
  | cons c r ih =>
    unfold shorts at h
    simp only at h
    split at h
    · exact ih h
    · split at h
      · simp at h
      · obtain ⟨s, hs⟩ := fate_took h
        split at hs
        · rw [detach_took hs]; rfl
        · cases hs
      · exact ih h

theorem longs_took {usage : List Desc} {n : Option Str} {p name : Str} {i : Option Nat}
    (h : (longs usage n p name i).2 = .took) : n.isSome := by
  unfold longs at h
  split at h
  · cases h
  · split at h
    · simp at h
    · obtain ⟨s, hs⟩ := fate_took h
      rw [longArg_took hs]; rfl
    · cases h

theorem one_took {c : Cfg} {p : Str} {n : Option Str} (h : (one c p n).2 = .took) : n.isSome := by
  unfold one at h
  split at h
  · exact longs_took h
  · split at h
    · exact longs_took h
    · exact shorts_took h

theorem work_walk (c : Cfg) (tl : List Str) (k : Nat) : ∀ (args don non : List Str) (acc : List Opt), args.length ≤ k →
    let r := work c k ⟨don ++ non ++ args ++ tl, don.length + non.length, non.length, args.length⟩ acc
    let w := walk c args
    r.opts = acc ++ w.opts ∧ r.err = w.err ∧
      (w.err = false → r.vec = don ++ w.used ++ (non ++ w.left) ++ tl ∧ r.start = don.length + w.used.length ∧
        r.count = non.length + w.left.length) ∧
      (w.err = true → r.vec = don ++ w.used ++ (non ++ w.left) ++ tl) := by
  have fin : ∀ (args don non : List Str) (acc : List Opt),
      finish ⟨don ++ non ++ args ++ tl, don.length + non.length, non.length, args.length⟩ acc
        = ⟨acc, false, don ++ non ++ args ++ tl, args.length + non.length, don.length⟩ := by
    intro args don non acc
    unfold finish
    simp only
    congr 1
    · congr 1
      split
      · rename_i h
        have := List.getElem?_eq_none_iff.1 h
        simp at this
        omega
      · rfl
    · omega
  have nil : ∀ (k : Nat) (s : St) (acc : List Opt), s.numargs = 0 → work c k s acc = finish s acc := by
    intro k s acc h
    cases k with
    | zero => rfl
    | succ k => unfold work; rw [if_pos h]
  have adv : ∀ (don non r : List Str) (p : Str),
      St.advance ⟨don ++ non ++ (p :: r) ++ tl, don.length + non.length, non.length, (p :: r).length⟩
        = ⟨(don ++ [p]) ++ non ++ r ++ tl, (don ++ [p]).length + non.length, non.length, r.length⟩ := by
    intro don non r p
    unfold St.advance
    simp only
    rw [show don ++ non ++ (p :: r) ++ tl = don ++ non ++ p :: (r ++ tl) by simp, shift_spec]
    simp; omega
  induction k with
  | zero =>
    intro args don non acc hk
    have := List.length_eq_zero_iff.1 (Nat.le_zero.1 hk)
    subst this
    simp only [List.length_nil]
    rw [nil _ _ _ rfl, show (0 : Nat) = ([] : List Str).length from rfl, fin]
    simp [walk]
  | succ k ih =>
    intro args don non acc hk
    cases args with
    | nil =>
      simp only [List.length_nil]
      rw [nil _ _ _ rfl, show (0 : Nat) = ([] : List Str).length from rfl, fin]
      simp [walk]
    | cons p r =>
      simp only [List.length_cons, Nat.add_le_add_iff_right] at hk
      have hg : (don ++ non ++ (p :: r) ++ tl)[don.length + non.length]? = some p := by
        rw [List.append_assoc, List.getElem?_append_right (by simp)]; simp
      have hg1 : (if (p :: r).length > 1 then (don ++ non ++ (p :: r) ++ tl)[don.length + non.length + 1]? else none) = r.head? := by
        cases r with
        | nil => simp
        | cons a r =>
          rw [if_pos (by simp), List.append_assoc, List.getElem?_append_right (by simp)]
          simp [show don.length + non.length + 1 - (don.length + non.length) = 1 by omega]
      simp only
      unfold work walk
      simp only
      rw [if_neg (by simp), hg]
      simp only
      by_cases hn : NonOption p
      · rw [if_pos (show p.head? ≠ some '-' ∨ p.length = 1 from hn), if_pos hn]
        by_cases hgnu : c.gnu = true
        · rw [if_pos hgnu, if_pos hgnu]
          have e : (⟨don ++ non ++ (p :: r) ++ tl, don.length + non.length + 1, non.length + 1, (p :: r).length - 1⟩ : St)
              = ⟨don ++ (non ++ [p]) ++ r ++ tl, don.length + (non ++ [p]).length, (non ++ [p]).length, r.length⟩ := by
            simp; omega
          rw [e]
          have h := ih r don (non ++ [p]) acc hk
          simp only at h ⊢
          obtain ⟨h1, h2, h3, h4⟩ := h
          refine ⟨h1, h2, fun he => ?_, fun he => ?_⟩
          · obtain ⟨a, b, d⟩ := h3 he
            refine ⟨by rw [a]; simp, b, by rw [d]; simp; omega⟩
          · rw [h4 he]; simp
        · rw [if_neg hgnu, if_neg hgnu, fin]
          simp; omega
      · rw [if_neg (show ¬ (p.head? ≠ some '-' ∨ p.length = 1) from hn), if_neg hn]
        by_cases hd : p = c!"--"
        · rw [if_pos hd, if_pos hd, adv, fin]
          simp; omega
        · rw [if_neg hd, if_neg hd, hg1]
          have ht := one_took (c := c) (p := p) (n := r.head?)
          generalize one c p r.head? = q at ht ⊢
          obtain ⟨o, f⟩ := q
          cases f with
          | illegal => simp
          | plain =>
            simp only
            rw [adv]
            have h := ih r (don ++ [p]) non (acc ++ o) hk
            simp only at h
            obtain ⟨h1, h2, h3, h4⟩ := h
            refine ⟨by rw [h1]; simp, h2, fun he => ?_, fun he => ?_⟩
            · obtain ⟨a, b, d⟩ := h3 he
              refine ⟨by rw [a]; simp, by rw [b]; simp; omega, d⟩
            · rw [h4 he]; simp
          | took =>
            cases r with
            | nil => simp at ht
            | cons a r =>
              simp only
              rw [adv, adv]
              have h := ih r (don ++ [p] ++ [a]) non (acc ++ o) (by simp at hk; omega)
              simp only at h
              obtain ⟨h1, h2, h3, h4⟩ := h
              refine ⟨by rw [h1]; simp, h2, fun he => ?_, fun he => ?_⟩
              · obtain ⟨x, b, d⟩ := h3 he
                refine ⟨by rw [x]; simp, by rw [b]; simp; omega, d⟩
              · rw [h4 he]; simp

/-- The parser in terms of `walk`. -/
theorem workhorse_walk (c : Cfg) (argc : Option Nat) (argv : List Str) (h : argc.getD argv.length ≤ argv.length) :
    let r := workhorse c argc argv
    let w := walk c (argv.take (argc.getD argv.length))
    r.opts = w.opts ∧ r.err = w.err ∧ r.vec = w.used ++ w.left ++ argv.drop (argc.getD argv.length) ∧
      (w.err = false → r.left = w.left ∧ r.count = w.left.length) := by
  have key := work_walk c (argv.drop (argc.getD argv.length)) (argc.getD argv.length) (argv.take (argc.getD argv.length)) [] []
    [] (by rw [List.length_take]; exact Nat.min_le_left _ _)
  simp only [List.nil_append, List.length_nil, Nat.zero_add, List.take_append_drop, List.length_take, Nat.min_eq_left h] at key
  obtain ⟨h1, h2, h3, h4⟩ := key
  unfold workhorse
  refine ⟨h1, h2, ?_, fun he => ?_⟩
  · cases he : (walk c (argv.take (argc.getD argv.length))).err with
    | false => exact (h3 he).1
    | true => exact h4 he
  · obtain ⟨a, b, d⟩ := h3 he
    refine ⟨?_, d⟩
    unfold Out.left
    rw [a, b, d]
    simp

end Verif.OptParse
