import Verif.Model.TimeShared
import Verif.Lemmas.Prog
/-!
C178: times converted by several threads.
-/
namespace Verif.TimeShared
open Verif.Threads Verif.TimeUtils
open Verif.LocalTime (Zone)

/-- What a call gives in a program with one thread. -/
def alone (z : Zone) : Op → Result
  | .text ns fmt true => .text (LocalTime.timestampToString z ns fmt)
  | .text ns fmt false => .text (TimeUtils.timestampToString ns fmt)
  | .today now h m s => .stamp (timeToTimestamp now h m s)

theorem finish_converted (z : Zone) (op : Op) : finish op (converted z op) = alone z op := by
  cases op with
  | text ns fmt l =>
    cases l with
    | true =>
      unfold converted alone LocalTime.timestampToString
      dsimp only
      generalize LocalTime.localtime z (normalize .linux (toTimeT ns)) = o
      cases o <;> rfl
    | false =>
      unfold converted alone TimeUtils.timestampToString
      dsimp only
      generalize gmtime (normalize .linux (toTimeT ns)) = o
      cases o <;> rfl
  | today now h m s =>
    unfold converted alone timeToTimestamp
    dsimp only
    generalize gmtime (normalize .linux (toTimeT now)) = o
    cases o <;> rfl

/-- Facts about one thread of a program with a mutex. -/
def Loc (z : Zone) (s : Sh) (i : Nat) : PC → Prop
  | .filled op => s.lock = some i ∧ converted z op = some s.tm
  | _ => True

/-- All results so far are those of a single thread. -/
def Right (z : Zone) (s : Sh) : Prop := ∀ x ∈ s.log, x.2.2 = alone z x.2.1

theorem guarded_local (z : Zone) : (prog z true).Local (fun _ => True) (Right z) (Loc z) where
  start sh i x op y _ _ _ hy := by
    cases x with
    | idle => cases hy; trivial
    | called o => cases hy
    | filled o => cases hy
  shared sh i x sh' y b hg hl hr := by
    have hr : run z true i sh x = some (sh', y, b) := hr
    have hl : Loc z sh i x := hl
    have hg : Right z sh := hg
    cases x with
    | idle => cases hr
    | called op =>
      simp only [run] at hr
      split at hr
      · cases hr
      · cases hc : converted z op with
        | none =>
          rw [hc] at hr
          cases hr
          intro x hx
          rcases List.mem_append.1 hx with hx | hx
          · exact hg x hx
          · rw [List.mem_singleton.1 hx]
            show finish op none = alone z op
            rw [← hc]
            exact finish_converted z op
        | some tm =>
          rw [hc] at hr
          cases hr
          exact hg
    | filled op =>
      cases hr
      intro x hx
      rcases List.mem_append.1 hx with hx | hx
      · exact hg x hx
      · rw [List.mem_singleton.1 hx]
        show finish op (some sh.tm) = alone z op
        rw [← hl.2]
        exact finish_converted z op
  run sh i x sh' y b hg hl hr := by
    have hr : run z true i sh x = some (sh', y, b) := hr
    cases x with
    | idle => cases hr
    | called op =>
      simp only [run] at hr
      split at hr
      · cases hr
      · cases hc : converted z op with
        | none => rw [hc] at hr; cases hr; trivial
        | some tm => rw [hc] at hr; cases hr; exact ⟨rfl, hc⟩
    | filled op => cases hr; trivial
  other sh i x sh' y b j w hg hl hr hne hw := by
    have hr : run z true i sh x = some (sh', y, b) := hr
    have hl : Loc z sh i x := hl
    have hw : Loc z sh j w := hw
    show Loc z sh' j w
    cases w with
    | idle => trivial
    | called o => trivial
    | filled o =>
      cases x with
      | idle => cases hr
      | called op =>
        simp only [run, Bool.true_and] at hr
        rw [hw.1] at hr
        simp at hr
      | filled op =>
        have := hl.1.symm.trans hw.1
        exact absurd (Option.some.inj this).symm hne
  woken _ _ _ _ _ h := nomatch h
  late _ _ _ _ _ h := nomatch h

/-- C178: if users hold a mutex of their own during every call, each call gives what it gives in a program with one
thread, whatever the time zone, the times and the formats, and while a thread is going to read the object of the
library no other thread is, and none can write it.  (Missing: calls without such a mutex, see `C178_negation`.) -/
theorem C178_guarded_partial (z : Zone) (tm : Tm) (n : Nat) (s : Conf (prog z true))
    (hr : (prog z true).system.Reachable (init z true tm n) s) :
    (∀ (i : Nat) (op : Op) (r : Result), (i, op, r) ∈ Sh.log s.sh → r = alone z op) ∧
    ∀ (i : Nat) (a : Op), s.pcs[i]? = some (PC.filled a) →
      (∀ (j : Nat) (b : Op), s.pcs[j]? = some (PC.filled b) → i = j) ∧
      ∀ (j : Nat) (b : Op), run z true j s.sh (.called b) = none := by
  have h0 : (prog z true).Inv (Right z) (Loc z) (init z true tm n) := by
    refine ⟨fun x hx => (by cases hx), fun j x hx => ?_⟩
    rw [Prog.init_get hx]
    trivial
  have hi := (guarded_local z).reachable h0 hr
  refine ⟨fun i op r h => hi.glob _ h, fun i a ha => ?_⟩
  have h1 : Loc z s.sh i (.filled a) := hi.loc i _ ha
  refine ⟨fun j b hb => ?_, fun j b => ?_⟩
  · have h2 : Loc z s.sh j (.filled b) := hi.loc j _ hb
    exact Option.some.inj (h1.1.symm.trans h2.1)
  · have h2 : (Sh.lock s.sh) = some i := h1.1
    simp only [run]
    rw [h2]
    rfl

/-- Without a mutex: results are made of times that were asked for. -/
def Asked (z : Zone) (s : Sh) : Prop :=
  ∀ x ∈ s.log, x.2.2 = alone z x.2.1 ∨ ∃ op' ∈ s.wrote, ∃ tm, converted z op' = some tm ∧ x.2.2 = finish x.2.1 (some tm)

/-- The object has a time that some call asked for, while a call is going to read it. -/
def Known (z : Zone) (s : Sh) (_ : Nat) : PC → Prop
  | .filled _ => ∃ op' ∈ s.wrote, converted z op' = some s.tm
  | _ => True

theorem free_local (z : Zone) : (prog z false).Local (fun _ => True) (Asked z) (Known z) where
  start sh i x op y _ _ _ hy := by
    cases x with
    | idle => cases hy; trivial
    | called o => cases hy
    | filled o => cases hy
  shared sh i x sh' y b hg hl hr := by
    have hr : run z false i sh x = some (sh', y, b) := hr
    have hl : Known z sh i x := hl
    have hg : Asked z sh := hg
    cases x with
    | idle => cases hr
    | called op =>
      simp only [run, Bool.false_and, Bool.false_eq_true, if_false] at hr
      cases hc : converted z op with
      | none =>
        rw [hc] at hr
        cases hr
        intro x hx
        rcases List.mem_append.1 hx with hx | hx
        · exact hg x hx
        · rw [List.mem_singleton.1 hx]
          refine .inl ?_
          show finish op none = alone z op
          rw [← hc]
          exact finish_converted z op
      | some tm =>
        rw [hc] at hr
        cases hr
        intro x hx
        rcases hg x hx with h | ⟨op', hm, h⟩
        · exact .inl h
        · exact .inr ⟨op', List.mem_append_left _ hm, h⟩
    | filled op =>
      cases hr
      intro x hx
      rcases List.mem_append.1 hx with hx | hx
      · exact hg x hx
      · rw [List.mem_singleton.1 hx]
        obtain ⟨op', hm, h⟩ := hl
        exact .inr ⟨op', hm, sh.tm, h, rfl⟩
  run sh i x sh' y b hg hl hr := by
    have hr : run z false i sh x = some (sh', y, b) := hr
    cases x with
    | idle => cases hr
    | called op =>
      simp only [run, Bool.false_and, Bool.false_eq_true, if_false] at hr
      cases hc : converted z op with
      | none => rw [hc] at hr; cases hr; trivial
      | some tm => rw [hc] at hr; cases hr; exact ⟨op, List.mem_append_right _ (List.mem_singleton_self _), hc⟩
    | filled op => cases hr; trivial
  other sh i x sh' y b j w hg hl hr hne hw := by
    have hr : run z false i sh x = some (sh', y, b) := hr
    have hw : Known z sh j w := hw
    show Known z sh' j w
    cases w with
    | idle => trivial
    | called o => trivial
    | filled o =>
      cases x with
      | idle => cases hr
      | called op =>
        simp only [run, Bool.false_and, Bool.false_eq_true, if_false] at hr
        cases hc : converted z op with
        | none => rw [hc] at hr; cases hr; exact hw
        | some tm => rw [hc] at hr; cases hr; exact ⟨op, List.mem_append_right _ (List.mem_singleton_self _), hc⟩
      | filled op => cases hr; exact hw
  woken _ _ _ _ _ h := nomatch h
  late _ _ _ _ _ h := nomatch h

/-- C178: without a mutex a call gives its own result or what it makes of the time that another call of the same
execution asked for (as long
as the object is written and read as a whole); a failure of the conversion is reported to the call it belongs
to.  (Missing: that it is its own time.) -/
theorem C178_some_partial (z : Zone) (tm : Tm) (n : Nat) (s : Conf (prog z false))
    (hr : (prog z false).system.Reachable (init z false tm n) s) (i : Nat) (op : Op) (r : Result)
    (h : (i, op, r) ∈ Sh.log s.sh) :
    r = alone z op ∨ ∃ op' ∈ Sh.wrote s.sh, ∃ tm, converted z op' = some tm ∧ r = finish op (some tm) := by
  have h0 : (prog z false).Inv (Asked z) (Known z) (init z false tm n) := by
    refine ⟨fun x hx => (by cases hx), fun j x hx => ?_⟩
    rw [Prog.init_get hx]
    trivial
  exact ((free_local z).reachable h0 hr).glob _ h

/-- C178, negation: two threads that convert two times in UTC.  Whatever the times, and whatever the formats, the text
that the first thread gets may be that of the time of the second, and on the way there is a data race. -/
theorem C178_negation (z : Zone) (tm ta tb : Tm) (a b : Int) (fa fb : List Item)
    (ha : gmtime (normalize .linux (toTimeT a)) = some ta) (hb : gmtime (normalize .linux (toTimeT b)) = some tb) :
    ∃ s s' : Conf (prog z false), (prog z false).system.Reachable (init z false tm 2) s ∧ Racing s.pcs ∧
      (prog z false).system.Reachable s s' ∧
      (0, Op.text a fa false, Result.text (TimeUtils.timestampToString b fa)) ∈ Sh.log s'.sh := by
  have hb' : TimeUtils.timestampToString b fa = .ok (putTime tb fa) := by
    unfold TimeUtils.timestampToString
    simp only [hb]
  have r1 : (prog z false).system.Reachable (init z false tm 2)
      ⟨(⟨tm, none, [], []⟩ : Sh), [PC.called (.text a fa false), PC.idle]⟩ :=
    .step (l := .start 0 (Op.text a fa false)) .init (Label.allowed_true _)
      (Prog.stepped_step (P := prog z false) (.start 0 _ PC.idle _ rfl rfl))
  have r2 : (prog z false).system.Reachable (init z false tm 2)
      ⟨(⟨tm, none, [], []⟩ : Sh), [PC.called (.text a fa false), PC.called (.text b fb false)]⟩ :=
    .step (l := .start 1 (Op.text b fb false)) r1 (Label.allowed_true _)
      (Prog.stepped_step (P := prog z false) (.start 1 _ PC.idle _ rfl rfl))
  have e3 : run z false 0 (⟨tm, none, [], []⟩ : Sh) (.called (.text a fa false)) =
      some (⟨ta, none, [], [.text a fa false]⟩, .filled (.text a fa false), false) := by
    simp only [run, converted, ha, Bool.false_and, Bool.false_eq_true, if_false, List.nil_append]
  have r3 : (prog z false).system.Reachable (init z false tm 2)
      ⟨(⟨ta, none, [], [.text a fa false]⟩ : Sh), [PC.filled (.text a fa false), PC.called (.text b fb false)]⟩ :=
    .step (l := .run 0) r2 (Label.allowed_true _)
      (by
        have h := Prog.stepped_step (P := prog z false) (Prog.Stepped.run (P := prog z false) (s := ⟨_, [PC.called (Op.text a fa false), PC.called (Op.text b fb false)]⟩) 0
          (PC.called (Op.text a fa false)) (PC.filled (Op.text a fa false)) (⟨ta, none, [], [.text a fa false]⟩ : Sh) rfl e3)
        exact h)
  have e4 : run z false 1 (⟨ta, none, [], [.text a fa false]⟩ : Sh) (.called (.text b fb false)) =
      some (⟨tb, none, [], [.text a fa false, .text b fb false]⟩, .filled (.text b fb false), false) := by
    simp only [run, converted, hb, Bool.false_and, Bool.false_eq_true, if_false, List.cons_append, List.nil_append]
  have r4 : (prog z false).system.Reachable
      ⟨(⟨ta, none, [], [.text a fa false]⟩ : Sh), [PC.filled (.text a fa false), PC.called (.text b fb false)]⟩
      ⟨(⟨tb, none, [], [.text a fa false, .text b fb false]⟩ : Sh), [PC.filled (.text a fa false), PC.filled (.text b fb false)]⟩ :=
    .step (l := .run 1) .init (Label.allowed_true _)
      (by
        have h := Prog.stepped_step (P := prog z false) (Prog.Stepped.run (P := prog z false) (s := ⟨_, [PC.filled (Op.text a fa false), PC.called (Op.text b fb false)]⟩) 1
          (PC.called (Op.text b fb false)) (PC.filled (Op.text b fb false)) (⟨tb, none, [], [.text a fa false, .text b fb false]⟩ : Sh) rfl e4)
        exact h)
  have r5 : (prog z false).system.Reachable
      ⟨(⟨ta, none, [], [.text a fa false]⟩ : Sh), [PC.filled (.text a fa false), PC.called (.text b fb false)]⟩
      ⟨(⟨tb, none, [(0, .text a fa false, .text (.ok (putTime tb fa)))], [.text a fa false, .text b fb false]⟩ : Sh), [PC.idle, PC.filled (.text b fb false)]⟩ :=
    .step (l := .run 0) r4 (Label.allowed_true _)
      (Prog.stepped_step (P := prog z false) (.run 0 (PC.filled _) _ _ rfl rfl))
  refine ⟨_, _, r3, ⟨1, 0, _, _, by decide, rfl, rfl⟩, r5, ?_⟩
  rw [hb']
  exact List.mem_singleton_self _

/-- Two times with different texts. -/
example : (gmtime (normalize .linux (toTimeT 0))).isSome = true ∧
    (gmtime (normalize .linux (toTimeT 86400000000000))).isSome = true ∧
    TimeUtils.timestampToString 0 [.conv .d] ≠ TimeUtils.timestampToString 86400000000000 [.conv .d] := by
  decide +kernel

/-- The hypothesis of `C178_guarded_partial` is met by calls that wait for each other. -/
example : ((prog ⟨fun _ => 3600, fun t => t⟩ true).system.exec (init ⟨fun _ => 3600, fun t => t⟩ true (tmOf 5) 2)
    [.start 0 (Op.text 0 [.conv .H] false), .start 1 (Op.text 0 [.conv .H] true), .run 0, .run 0, .run 1, .run 1]).map
    (fun s => Sh.log s.sh) = some [(0, .text 0 [.conv .H] false, .text (.ok c!"00")),
      (1, .text 0 [.conv .H] true, .text (.ok c!"01"))] := by
  decide +kernel

end Verif.TimeShared
