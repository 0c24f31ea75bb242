import Verif.Model.Timed
import Verif.Lemmas.Threads
import Verif.Lemmas.Prog
/-!
Programs next to clocks: what a timeout implies about the clock, for any program whose threads go through the phases
below.
-/
namespace Verif.Timed
open Verif.Threads

variable {S : System} {C : Clocked S}

/-- Phases of a thread: outside any wait (or sure not to report a timeout), before its deadline is computed, waiting with a
deadline, woken by the timeout, timeout reported. -/
inductive Phase
  | out
  | begun
  | armed
  | late
  | done
deriving DecidableEq

/-- Phases change as they should. -/
structure Good (C : Clocked S) (I : S.State → Prop) (ph : S.State → Nat → Phase) : Prop where
  inv : ∀ s l s', I s → S.step s l = some s' → I s'
  toArmed : ∀ s l s' i, I s → S.step s l = some s' → ph s' i = .armed →
    (ph s i = .armed ∧ ¬ (l = .run i ∧ C.arms s i s' = true)) ∨ (l = .run i ∧ C.arms s i s' = true)
  toLate : ∀ s l s' i, I s → S.step s l = some s' → ph s' i = .late →
    ph s i = .late ∨ (ph s i = .armed ∧ l = .timeout i)
  toDone : ∀ s l s' i, I s → S.step s l = some s' → ph s' i = .done → ph s i = .late ∨ ph s i = .done

/-- How the phase of a thread changes from `x` to `y`; `arms`: the step computes its deadline, `timeout`: it is its
timeout. -/
inductive Move (arms timeout : Prop) : Phase → Phase → Prop
  | same {x : Phase} (h : x = .armed → ¬ arms) : Move arms timeout x x
  | out {x : Phase} : Move arms timeout x .out
  | begun {x : Phase} : Move arms timeout x .begun
  | arm {x : Phase} (h : arms) : Move arms timeout x .armed
  | late (h : timeout) : Move arms timeout .armed .late
  | done : Move arms timeout .late .done

theorem Good.of_move {I : S.State → Prop} {ph : S.State → Nat → Phase}
    (hI : ∀ s l s', I s → S.step s l = some s' → I s')
    (h : ∀ s l s' i, I s → S.step s l = some s' →
      Move (l = .run i ∧ C.arms s i s' = true) (l = .timeout i) (ph s i) (ph s' i)) : Good C I ph where
  inv := hI
  toArmed s l s' i hi hs hp := by
    have := h s l s' i hi hs
    generalize ph s i = x at this ⊢
    rw [hp] at this
    cases this with
    | same h => exact Or.inl ⟨rfl, h rfl⟩
    | arm h => exact Or.inr h
  toLate s l s' i hi hs hp := by
    have := h s l s' i hi hs
    generalize ph s i = x at this ⊢
    rw [hp] at this
    cases this with
    | same h => exact Or.inl rfl
    | late h => exact Or.inr ⟨rfl, h⟩
  toDone s l s' i hi hs hp := by
    have := h s l s' i hi hs
    generalize ph s i = x at this ⊢
    rw [hp] at this
    cases this with
    | same h => exact Or.inr rfl
    | done => exact Or.inl rfl

theorem Run.next (e : Run C) (n : Nat) :
    (e.label n = none ∧ e.at_ (n + 1) = e.at_ n) ∨
    ∃ l, e.label n = some l ∧ step (e.at_ n) l = some (e.at_ (n + 1)) := by
  have := e.ok n
  cases h : e.label n with
  | none => rw [h] at this; exact Or.inl ⟨rfl, this⟩
  | some l => rw [h] at this; exact Or.inr ⟨l, rfl, this⟩

/-- The program's part of a label. -/
def TLabel.base : TLabel C → Option (Label S.Op)
  | .start i op _ => some (.start i op)
  | .run i => some (.run i)
  | .spurious i => some (.spurious i)
  | .timeout i => some (.timeout i)
  | .time _ _ => none

theorem step_base {s s' : State C} {l : TLabel C} (h : step s l = some s') :
    match l.base with
    | none => s'.base = s.base
    | some b => S.step s.base b = some s'.base := by
  cases l with
  | start i op a =>
    simp only [step] at h
    split at h
    · obtain ⟨b, hb, rfl⟩ := Option.map_eq_some_iff.1 h
      exact hb
    · cases h
  | run i =>
    obtain ⟨b, hb, rfl⟩ := Option.map_eq_some_iff.1 h
    exact hb
  | spurious i =>
    obtain ⟨b, hb, rfl⟩ := Option.map_eq_some_iff.1 h
    exact hb
  | timeout i =>
    simp only [step] at h
    split at h
    · obtain ⟨b, hb, rfl⟩ := Option.map_eq_some_iff.1 h
      exact hb
    · cases h
  | time m w =>
    simp only [step] at h
    split at h
    · cases h; rfl
    · cases h

/-- The program alone. -/
def Run.base (e : Run C) : S.Execution where
  at_ n := (e.at_ n).base
  label n := (e.label n).bind TLabel.base
  ok n := by
    rcases e.next n with ⟨h1, h2⟩ | ⟨l, h1, h2⟩
    · rw [h1, h2]; exact rfl
    · have := step_base h2
      rw [h1]
      cases hl : l.base with
      | none => rw [hl] at this; simp only [Option.bind_some, hl]; exact this
      | some b => rw [hl] at this; simp only [Option.bind_some, hl]; exact this

/-- A step that does not touch thread `i`'s deadline. -/
theorem dl_step {s s' : State C} {l : TLabel C} (h : step s l = some s') (i : Nat) :
    s'.dl i = s.dl i ∨
      (l = .run i ∧ C.arms s.base i s'.base = true ∧ s'.dl i = C.deadline s.clock (s.arg i)) := by
  cases l with
  | start j op a =>
    simp only [step] at h
    split at h
    · obtain ⟨b, hb, rfl⟩ := Option.map_eq_some_iff.1 h
      exact Or.inl rfl
    · cases h
  | run j =>
    obtain ⟨b, hb, rfl⟩ := Option.map_eq_some_iff.1 h
    dsimp only
    by_cases ha : C.arms s.base j b = true
    · rw [if_pos ha]
      by_cases hij : i = j
      · subst hij
        exact Or.inr ⟨rfl, ha, by simp [upd]⟩
      · exact Or.inl (by simp [upd, hij])
    · rw [if_neg ha]; exact Or.inl rfl
  | spurious j =>
    obtain ⟨b, hb, rfl⟩ := Option.map_eq_some_iff.1 h
    exact Or.inl rfl
  | timeout j =>
    simp only [step] at h
    split at h
    · obtain ⟨b, hb, rfl⟩ := Option.map_eq_some_iff.1 h
      exact Or.inl rfl
    · cases h
  | time m w =>
    simp only [step] at h
    split at h
    · cases h; exact Or.inl rfl
    · cases h

theorem dl_arm {s s' : State C} {i : Nat} (h : step s (.run i) = some s')
    (ha : C.arms s.base i s'.base = true) : s'.dl i = C.deadline s.clock (s.arg i) := by
  obtain ⟨b, hb, rfl⟩ := Option.map_eq_some_iff.1 h
  have ha : C.arms s.base i b = true := ha
  simp [ha, upd]

theorem timeout_clock {s s' : State C} {i : Nat} (h : step s (.timeout i) = some s') : s.dl i ≤ s.clock := by
  simp only [step] at h
  split at h
  · assumption
  · cases h

/-- Only time passing moves the clocks. -/
theorem mono_le {s s' : State C} {l : TLabel C} (h : step s l = some s') : s.mono ≤ s'.mono := by
  cases l with
  | start j op a =>
    simp only [step] at h
    split at h
    · obtain ⟨b, hb, rfl⟩ := Option.map_eq_some_iff.1 h
      exact Int.le_refl _
    · cases h
  | run j => obtain ⟨b, hb, rfl⟩ := Option.map_eq_some_iff.1 h; exact Int.le_refl _
  | spurious j => obtain ⟨b, hb, rfl⟩ := Option.map_eq_some_iff.1 h; exact Int.le_refl _
  | timeout j =>
    simp only [step] at h
    split at h
    · obtain ⟨b, hb, rfl⟩ := Option.map_eq_some_iff.1 h
      exact Int.le_refl _
    · cases h
  | time m w =>
    simp only [step] at h
    split at h
    · cases h; assumption
    · cases h

theorem Run.mono_le (e : Run C) {n m : Nat} (h : n ≤ m) : (e.at_ n).mono ≤ (e.at_ m).mono := by
  induction h with
  | refl => exact Int.le_refl _
  | step _ ih =>
    refine Int.le_trans ih ?_
    rcases e.next _ with ⟨-, h2⟩ | ⟨l, -, h2⟩
    · rw [h2]; exact Int.le_refl _
    · exact Timed.mono_le h2

/-- The argument of thread `i`'s call changes only with the next call. -/
theorem arg_step {s s' : State C} {l : TLabel C} (h : step s l = some s') (i : Nat) :
    s'.arg i = s.arg i ∨ ∃ op a, l = .start i op a ∧ s'.arg i = a := by
  cases l with
  | start j op a =>
    simp only [step] at h
    split at h
    · obtain ⟨b, hb, rfl⟩ := Option.map_eq_some_iff.1 h
      by_cases hij : i = j
      · subst hij
        exact Or.inr ⟨op, a, rfl, by simp [upd]⟩
      · exact Or.inl (by simp [upd, hij])
    · cases h
  | run j => obtain ⟨b, hb, rfl⟩ := Option.map_eq_some_iff.1 h; exact Or.inl rfl
  | spurious j => obtain ⟨b, hb, rfl⟩ := Option.map_eq_some_iff.1 h; exact Or.inl rfl
  | timeout j =>
    simp only [step] at h
    split at h
    · obtain ⟨b, hb, rfl⟩ := Option.map_eq_some_iff.1 h
      exact Or.inl rfl
    · cases h
  | time m w =>
    simp only [step] at h
    split at h
    · cases h; exact Or.inl rfl
    · cases h

theorem Run.inv (e : Run C) {I : S.State → Prop} {ph : S.State → Nat → Phase} (g : Good C I ph)
    (h0 : I (e.at_ 0).base) (n : Nat) : I (e.at_ n).base :=
  e.base.stable I (fun s l s' h hs => g.inv s l s' h hs) 0 h0 n (Nat.zero_le n)

/-- The deadline of thread `i` was computed at moment `j`, from `a` on and before `m`. -/
def Run.ArmedAt (e : Run C) (i a j m : Nat) : Prop :=
  a ≤ j ∧ j < m ∧ e.label j = some (.run i) ∧ C.arms (e.at_ j).base i (e.at_ (j + 1)).base = true

/-- A timeout is reported only after the clock has reached the deadline computed meanwhile. -/
theorem Run.timed_out (e : Run C) {I : S.State → Prop} {ph : S.State → Nat → Phase} (g : Good C I ph)
    (h0 : I (e.at_ 0).base) {i a b : Nat} (hab : a ≤ b)
    (ha : ph (e.at_ a).base i = .out ∨ ph (e.at_ a).base i = .begun)
    (hb : ph (e.at_ b).base i = .done) :
    ∃ j k, e.ArmedAt i a j k ∧ k < b ∧ e.label k = some (.timeout i) ∧
      C.deadline (e.at_ j).clock ((e.at_ j).arg i) ≤ (e.at_ k).clock := by
  have key : ∀ m, a ≤ m →
      (ph (e.at_ m).base i = .armed → ∃ j, e.ArmedAt i a j m ∧
        (e.at_ m).dl i = C.deadline (e.at_ j).clock ((e.at_ j).arg i)) ∧
      (ph (e.at_ m).base i = .late ∨ ph (e.at_ m).base i = .done →
        ∃ j k, e.ArmedAt i a j k ∧ k < m ∧ e.label k = some (.timeout i) ∧
          C.deadline (e.at_ j).clock ((e.at_ j).arg i) ≤ (e.at_ k).clock) := by
    intro m hm
    induction hm with
    | refl =>
      constructor
      · intro h; rcases ha with ha | ha <;> rw [ha] at h <;> cases h
      · intro h; rcases ha with ha | ha <;> rw [ha] at h <;> rcases h with h | h <;> cases h
    | step hm ih =>
      rename_i m
      have hm : a ≤ m := hm
      obtain ⟨ih1, ih2⟩ := ih
      have up : (∃ j k, e.ArmedAt i a j k ∧ k < m ∧ e.label k = some (.timeout i) ∧
          C.deadline (e.at_ j).clock ((e.at_ j).arg i) ≤ (e.at_ k).clock) →
          ∃ j k, e.ArmedAt i a j k ∧ k < m + 1 ∧ e.label k = some (.timeout i) ∧
          C.deadline (e.at_ j).clock ((e.at_ j).arg i) ≤ (e.at_ k).clock := by
        rintro ⟨j, k, h1, h2, h3⟩; exact ⟨j, k, h1, by omega, h3⟩
      have up1 : ∀ j, e.ArmedAt i a j m → e.ArmedAt i a j (m + 1) := by
        rintro j ⟨h1, h2, h3⟩; exact ⟨h1, by omega, h3⟩
      rcases e.next m with ⟨-, h2⟩ | ⟨l, h1, h2⟩
      · rw [h2]
        refine ⟨fun h => ?_, fun h => up (ih2 h)⟩
        obtain ⟨j, h3, h4⟩ := ih1 h
        exact ⟨j, up1 j h3, h4⟩
      · have hI := e.inv g h0 m
        have hsb := step_base h2
        cases hl : l.base with
        | none =>
          rw [hl] at hsb
          have hdl : (e.at_ (m + 1)).dl i = (e.at_ m).dl i := by
            rcases dl_step h2 i with h | ⟨h, -⟩
            · exact h
            · subst h; cases hl
          have hsb : (e.at_ (m + 1)).base = (e.at_ m).base := hsb
          rw [hsb, hdl]
          refine ⟨fun h => ?_, fun h => up (ih2 h)⟩
          obtain ⟨j, h3, h4⟩ := ih1 h
          exact ⟨j, up1 j h3, h4⟩
        | some bl =>
          rw [hl] at hsb
          constructor
          · intro h
            rcases g.toArmed _ _ _ i hI hsb h with ⟨h3, h4⟩ | ⟨h3, h4⟩
            · obtain ⟨j, h5, h6⟩ := ih1 h3
              refine ⟨j, up1 j h5, ?_⟩
              rcases dl_step h2 i with h | ⟨h, h', -⟩
              · rw [h]; exact h6
              · subst h; cases hl; exact absurd ⟨rfl, h'⟩ h4
            · have : l = .run i := by
                subst h3
                cases l <;> cases hl
                rfl
              subst this
              exact ⟨m, ⟨hm, Nat.lt_succ_self m, h1, h4⟩, dl_arm h2 h4⟩
          · intro h
            have hlate : ph (e.at_ (m + 1)).base i = .late → ∃ j k, e.ArmedAt i a j k ∧ k < m + 1 ∧
                e.label k = some (.timeout i) ∧
                C.deadline (e.at_ j).clock ((e.at_ j).arg i) ≤ (e.at_ k).clock := by
              intro h
              rcases g.toLate _ _ _ i hI hsb h with h3 | ⟨h3, h4⟩
              · exact up (ih2 (Or.inl h3))
              · obtain ⟨j, h5, h6⟩ := ih1 h3
                have : l = .timeout i := by
                  subst h4
                  cases l <;> cases hl
                  rfl
                subst this
                refine ⟨j, m, h5, Nat.lt_succ_self m, h1, ?_⟩
                rw [← h6]
                exact timeout_clock h2
            rcases h with h | h
            · exact hlate h
            · exact up (ih2 (g.toDone _ _ _ i hI hsb h))
  exact (key b hab).2 (Or.inr hb)

/-- Between two moments between which thread `i` starts no call, its argument is the same. -/
theorem Run.arg_eq (e : Run C) {i a b : Nat} (hab : a ≤ b)
    (hno : ∀ k, a ≤ k → k < b → ∀ op x, e.label k ≠ some (.start i op x)) :
    (e.at_ b).arg i = (e.at_ a).arg i := by
  induction hab with
  | refl => rfl
  | step hm ih =>
    rename_i m
    have hm : a ≤ m := hm
    rw [← ih (fun k h1 h2 => hno k h1 (Nat.lt_succ_of_lt h2))]
    rcases e.next m with ⟨-, h2⟩ | ⟨l, h1, h2⟩
    · rw [h2]
    · rcases arg_step h2 i with h | ⟨op, x, rfl, -⟩
      · exact h
      · exact absurd h1 (hno m hm (Nat.lt_succ_self m) op x)

/-- While nobody sets the system clock forward it gains no more than the time that passes. -/
theorem Run.wall_le (e : Run C) {a b : Nat} (hab : a ≤ b)
    (h : ∀ k, a ≤ k → k < b → (e.at_ (k + 1)).wall - (e.at_ k).wall ≤ (e.at_ (k + 1)).mono - (e.at_ k).mono) :
    (e.at_ b).wall - (e.at_ a).wall ≤ (e.at_ b).mono - (e.at_ a).mono := by
  induction hab with
  | refl => omega
  | step hm ih =>
    rename_i m
    have hm : a ≤ m := hm
    have h1 := ih (fun k h1 h2 => h k h1 (Nat.lt_succ_of_lt h2))
    have h2 := h m hm (Nat.lt_succ_self m)
    change (e.at_ (m + 1)).wall - (e.at_ a).wall ≤ (e.at_ (m + 1)).mono - (e.at_ a).mono
    omega

/-- A list of transitions, and afterwards only clocks that tick. -/
theorem Run.ofExec (s0 s1 : State C) (ls : List (TLabel C)) (h : exec s0 ls = some s1) :
    ∃ e : Run C, (∀ n s, n ≤ ls.length → exec s0 (ls.take n) = some s → e.at_ n = s) ∧
      (∀ n, n < ls.length → e.label n = ls[n]?) ∧
      ∀ n, e.at_ (ls.length + n) = { s1 with mono := s1.mono + n, wall := s1.wall + n } := by
  have app : ∀ (s : State C) (as bs : List (TLabel C)), exec s (as ++ bs) = (exec s as).bind fun s' => exec s' bs := by
    intro s as
    induction as generalizing s with
    | nil => intro bs; rfl
    | cons a as ih =>
      intro bs
      simp only [List.cons_append, exec]
      cases step s a with
      | none => rfl
      | some t => exact ih t bs
  have pre : ∀ n, ∃ s, exec s0 (ls.take n) = some s := by
    intro n
    have := app s0 (ls.take n) (ls.drop n)
    rw [List.take_append_drop, h] at this
    cases he : exec s0 (ls.take n) with
    | none => rw [he] at this; cases this
    | some s => exact ⟨s, rfl⟩
  let tick (n : Nat) : State C := { s1 with mono := s1.mono + n, wall := s1.wall + n }
  refine ⟨⟨fun n => if n ≤ ls.length then (exec s0 (ls.take n)).getD s0 else tick (n - ls.length),
    fun n => if n < ls.length then ls[n]? else
      some (.time (s1.mono + (n - ls.length : Nat) + 1) (s1.wall + (n - ls.length : Nat) + 1)), ?_⟩, ?_, ?_, ?_⟩
  · intro n
    by_cases hn : n < ls.length
    · obtain ⟨s, hs⟩ := pre n
      obtain ⟨t, ht⟩ := pre (n + 1)
      rw [if_pos hn, if_pos (Nat.le_of_lt hn), if_pos (show n + 1 ≤ ls.length from hn), hs, ht]
      cases hl : ls[n]? with
      | none => have := List.getElem?_eq_none_iff.1 hl; omega
      | some l =>
        rw [List.take_add_one, hl, app, hs] at ht
        simp only [Option.toList_some, Option.bind_some, exec] at ht
        cases hst : step s l with
        | none => rw [hst] at ht; cases ht
        | some u => rw [hst] at ht; simpa [hst] using ht
    · have e1 : (if n ≤ ls.length then (exec s0 (ls.take n)).getD s0 else tick (n - ls.length)) =
          tick (n - ls.length) := by
        by_cases hn2 : n ≤ ls.length
        · rw [if_pos hn2]
          have : n = ls.length := by omega
          subst this
          rw [List.take_length, h, Nat.sub_self]
          simp [tick]
        · rw [if_neg hn2]
      rw [if_neg hn, e1, if_neg (by omega)]
      have e2 : n + 1 - ls.length = n - ls.length + 1 := by omega
      rw [e2]
      simp only [step, tick]
      rw [if_pos (by omega)]
      simp only [Int.natCast_add, Int.add_assoc]
      rfl
  · intro n s hn hs
    show (if n ≤ ls.length then (exec s0 (ls.take n)).getD s0 else tick (n - ls.length)) = s
    rw [if_pos hn, hs]
    rfl
  · intro n hn
    exact if_pos hn
  · intro n
    show (if ls.length + n ≤ ls.length then (exec s0 (ls.take (ls.length + n))).getD s0
      else tick (ls.length + n - ls.length)) = tick n
    by_cases hn : n = 0
    · subst hn
      rw [if_pos (by omega), Nat.add_zero, List.take_length, h]
      simp [tick]
    · rw [if_neg (by omega), Nat.add_sub_cancel_left]

/-- What is seen of the states of such an execution. -/
theorem Run.ofExec_seen (s0 : State C) (ls : List (TLabel C)) (h : (exec s0 ls).isSome = true) :
    ∃ e : Run C, (∀ {α : Type} (f : State C → α) n x, n ≤ ls.length → (exec s0 (ls.take n)).map f = some x → f (e.at_ n) = x) ∧
      (∀ n, n < ls.length → e.label n = ls[n]?) ∧
      ∀ n, (e.at_ (ls.length + n)).base = (e.at_ ls.length).base ∧ (e.at_ (ls.length + n)).wall = (e.at_ ls.length).wall + n := by
  obtain ⟨s1, h⟩ := Option.isSome_iff_exists.1 h
  obtain ⟨e, h1, h2, h3⟩ := Run.ofExec s0 s1 ls h
  refine ⟨e, ?_, h2, ?_⟩
  · intro α f n x hn hf
    obtain ⟨s, hs, rfl⟩ := Option.map_eq_some_iff.1 hf
    rw [h1 n s hn hs]
  · intro n
    rw [h3 n, h1 ls.length s1 (Nat.le_refl _) (by rw [List.take_length]; exact h)]
    exact ⟨rfl, rfl⟩

end Verif.Timed
