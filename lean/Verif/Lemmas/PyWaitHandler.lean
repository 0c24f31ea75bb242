import Verif.Model.PyWaitHandler
import Verif.Lemmas.Prog
/-!
Invariants of the Python `WaitHandler`.
-/
namespace Verif.PyWaitHandler
open Verif.Threads

variable {T : Type}

/-- The branches of `run`. -/
inductive Ran (i : Nat) (s : Sh T) : PC T → Sh T → PC T → Bool → Prop
  | acq (op) (hl : s.lock = none) : Ran i s (.acq op) { s with lock := some i } (.body op) false
  | getValue : Ran i s (.body .getValue) s (.rel (.value s.value)) false
  | update (f) : Ran i s (.body (.update f)) { s with value := f s.value } .notify false
  | enable : Ran i s (.body .enable) { s with enabled := true } (.rel .done) false
  | disable : Ran i s (.body .disable) { s with enabled := false } .notify false
  | blockingDisable : Ran i s (.body .blockingDisable) { s with enabled := false } .drainTest false
  | enabled : Ran i s (.body .enabled) s (.rel (.bool s.enabled)) false
  | wait (p t) : Ran i s (.body (.wait p t)) { s with waiting := s.waiting + 1 } (.test p t false) false
  | testRaise (p t l) (ha : awake s p = none) :
      Ran i s (.test p t l) { s with raised := s.raised + 1 } (.rel .raised) false
  | testMet (p t l) (ha : awake s p = some true) : Ran i s (.test p t l) s (.leave p t true) false
  | testLate (p t) (ha : awake s p = some false) : Ran i s (.test p t true) s (.leave p t false) false
  | testSleep (p t) (ha : awake s p = some false) :
      Ran i s (.test p t false) { s with lock := none } (.asleep p t) false
  | again (p t l) (hl : s.lock = none) : Ran i s (.again p t l) { s with lock := some i } (.test p t l) false
  | leave (p t m) : Ran i s (.leave p t m) { s with waiting := s.waiting - 1 } (.ret p t m) false
  | ret (p t m) : Ran i s (.ret p t m) { s with lock := none } (.idle (some (.reason (reason s m)))) false
  | notify : Ran i s .notify s (.rel .done) true
  | drained (hw : s.waiting = 0) : Ran i s .drainTest s (.rel .done) false
  | drain (hw : s.waiting ≠ 0) : Ran i s .drainTest s .drainNotify false
  | drainNotify : Ran i s .drainNotify s .drainTest true
  | rel (r) : Ran i s (.rel r) { s with lock := none } (.idle (some r)) false

theorem not_isSome {α : Type} {o : Option α} (h : ¬ o.isSome = true) : o = none := by
  cases o with
  | none => rfl
  | some a => exact absurd rfl h

theorem run_ran {i : Nat} {s s' : Sh T} {x y : PC T} {b : Bool} (h : run i s x = some (s', y, b)) :
    Ran i s x s' y b := by
  cases x with
  | idle r => cases h
  | asleep p t => cases h
  | acq op =>
    simp only [run] at h
    split at h
    · cases h
    · rename_i hl
      cases h
      exact .acq op (not_isSome hl)
  | body op =>
    cases op with
    | getValue => cases h; exact .getValue
    | update f => cases h; exact .update f
    | enable => cases h; exact .enable
    | disable => cases h; exact .disable
    | blockingDisable => cases h; exact .blockingDisable
    | enabled => cases h; exact .enabled
    | wait p t => cases h; exact .wait p t
  | test p t l =>
    simp only [run] at h
    split at h
    · rename_i ha; cases h; exact .testRaise p t l ha
    · rename_i ha; cases h; exact .testMet p t l ha
    · rename_i ha
      cases l with
      | true => cases h; exact .testLate p t ha
      | false => cases h; exact .testSleep p t ha
  | again p t l =>
    simp only [run] at h
    split at h
    · cases h
    · rename_i hl
      cases h
      exact .again p t l (not_isSome hl)
  | leave p t m => cases h; exact .leave p t m
  | ret p t m => cases h; exact .ret p t m
  | notify => cases h; exact .notify
  | drainTest =>
    simp only [run] at h
    split at h
    · rename_i hw; cases h; exact .drained hw
    · rename_i hw; cases h; exact .drain hw
  | drainNotify => cases h; exact .drainNotify
  | rel r => cases h; exact .rel r

/-- The thread has the lock. -/
def PC.holds : PC T → Bool
  | .body _ | .test _ _ _ | .leave _ _ _ | .ret _ _ _ | .notify | .drainTest | .drainNotify | .rel _ => true
  | _ => false

/-- The thread is counted in `_n_waiting_threads`. -/
def PC.inWait : PC T → Bool
  | .test _ _ _ | .asleep _ _ | .again _ _ _ | .leave _ _ _ => true
  | _ => false

/-- The thread is going to notify. -/
def PC.pending : PC T → Bool
  | .notify | .drainTest | .drainNotify => true
  | _ => false

/-- Facts about one thread. -/
def PC.fact (s : Sh T) : PC T → Prop
  | .test _ t l => l = true → t = true
  | .again _ t l => l = true → t = true
  | .leave p t m => awake s p = some m ∧ (m = false → t = true)
  | .ret p t m => awake s p = some m ∧ (m = false → t = true)
  | .drainTest => s.enabled = false
  | .drainNotify => s.enabled = false
  | _ => True

/-- Local invariant. -/
def Loc (s : Sh T) (i : Nat) (x : PC T) : Prop := (x.holds = true ↔ s.lock = some i) ∧ x.fact s

theorem fact_free {s s' : Sh T} {x : PC T} (h : x.holds = false) (hx : x.fact s) : x.fact s' := by
  cases x <;> first | exact hx | (cases h; done)

/-- A thread that takes a step had the lock, or nobody had it. -/
theorem ran_lock {i : Nat} {s s' : Sh T} {x y : PC T} {b : Bool} (hx : Loc s i x) (hr : Ran i s x s' y b) :
    s.lock = some i ∨ s.lock = none := by
  cases hr <;> first | exact Or.inr (by assumption) | exact Or.inl (hx.1.1 rfl)

theorem ran_lock' {i : Nat} {s s' : Sh T} {x y : PC T} {b : Bool} (hx : Loc s i x) (hr : Ran i s x s' y b) :
    s'.lock = (if y.holds then some i else none) := by
  cases hr <;> first | rfl | exact hx.1.1 rfl

theorem local_ : (prog T).Local (fun _ => True) (fun _ => True) Loc where
  start := by
    intro sh i x op y _ _ hx hy
    cases x with
    | idle r => cases hy; exact ⟨hx.1, trivial⟩
    | _ => cases hy
  shared := fun _ _ _ _ _ _ _ _ _ => trivial
  run := by
    intro sh i x sh' y b _ hx hr
    have hr := run_ran hr
    have hl := ran_lock' hx hr
    refine ⟨?_, ?_⟩
    · rw [hl]
      cases y.holds <;> simp
    · cases hr with
      | wait p t => exact nofun
      | testMet p t l ha => exact ⟨ha, nofun⟩
      | testLate p t ha => exact ⟨ha, fun _ => hx.2 rfl⟩
      | again p t l hl => exact hx.2
      | leave p t m => exact hx.2
      | blockingDisable => exact (rfl : false = false)
      | drain hw => exact hx.2
      | drainNotify => exact hx.2
      | _ => exact trivial
  other := by
    intro sh i x sh' y b j z _ hx hr hj hz
    have hr := run_ran hr
    have hl := ran_lock' hx hr
    cases hh : z.holds with
    | false =>
      refine ⟨?_, fact_free hh hz.2⟩
      rw [hh, hl]
      cases y.holds with
      | true => simp; exact fun e => hj e.symm
      | false => simp
    | true =>
      have h1 := hz.1.1 hh
      rcases ran_lock hx hr with h2 | h2
      · rw [h1] at h2; cases h2; exact absurd rfl hj
      · rw [h1] at h2; cases h2
  woken := by
    intro sh i x y hx hy
    cases x with
    | asleep p t => cases hy; exact ⟨hx.1, nofun⟩
    | _ => cases hy
  late := by
    intro sh i x y hx hy
    cases x with
    | asleep p t =>
      cases t with
      | true => cases hy; exact ⟨hx.1, fun _ => rfl⟩
      | false => cases hy
    | _ => cases hy

/-- Invariant. -/
structure Inv (s : Conf (prog T)) : Prop where
  loc : ∀ (j : Nat) (x : PC T), s.pcs[j]? = some x → Loc s.sh j x
  at_ : ∀ j : Nat, s.sh.lock = some j → ∃ x, s.pcs[j]? = some x
  raised : s.sh.raised ≤ s.sh.waiting
  count : s.sh.waiting - s.sh.raised = s.pcs.countP PC.inWait
  sleep : ∀ (j : Nat) (z : PC T), s.pcs[j]? = some z → (woken z).isSome →
    (∀ p t, z = .asleep p t → awake s.sh p = some false) ∨ ∃ (k : Nat) (w : PC T), s.pcs[k]? = some w ∧ w.pending = true

theorem ran_count {i : Nat} {s s' : Sh T} {x y : PC T} {b : Bool} (hr : Ran i s x s' y b)
    (h : s.raised ≤ s.waiting) (hc : x.inWait = true → 0 < s.waiting - s.raised) :
    s'.raised ≤ s'.waiting ∧
    s'.waiting - s'.raised + (if x.inWait then 1 else 0) = s.waiting - s.raised + (if y.inWait then 1 else 0) := by
  cases hr with
  | wait p t => simp only [PC.inWait]; constructor <;> (try simp) <;> omega
  | testRaise p t l ha => have := hc rfl; simp only [PC.inWait]; constructor <;> (try simp) <;> omega
  | leave p t m => have := hc rfl; simp only [PC.inWait]; constructor <;> (try simp) <;> omega
  | _ => exact ⟨h, rfl⟩

theorem inv_init (v : T) (b : Bool) (n : Nat) : Inv (init v b n) := by
  refine ⟨fun j x h => ?_, nofun, Nat.le_refl _, ?_, fun j z h hw => ?_⟩
  · cases (Prog.init_get h : x = .idle none)
    exact ⟨⟨nofun, nofun⟩, trivial⟩
  · symm
    show List.countP _ _ = 0
    rw [List.countP_eq_zero]
    intro x hx
    rw [(List.mem_replicate.1 hx).2]
    nofun
  · cases (Prog.init_get h : z = .idle none)
    cases hw

theorem inv_step {s s' : Conf (prog T)} {l : Label (Op T)} (hi : Inv s) (hs : (prog T).Stepped s l s') : Inv s' := by
  have hl : (prog T).Inv (fun _ => True) Loc s' :=
    local_.step (P := prog T) ⟨trivial, hi.loc⟩ (Label.allowed_true l) hs
  have hpos : ∀ (i : Nat) (x : PC T), s.pcs[i]? = some x → x.inWait = true → 0 < s.sh.waiting - s.sh.raised := by
    intro i x hx h
    rw [hi.count]
    exact countP_pos_of_get PC.inWait hx h
  refine ⟨hl.loc, ?_, ?_, ?_, ?_⟩
  · intro j hj
    have hlen := Prog.stepped_length hs
    have key : j < s.pcs.length := by
      rcases Prog.stepped_sh hs with h | ⟨i, w, z, b, h1, h2, h3⟩
      · rw [h] at hj
        obtain ⟨x, hx⟩ := hi.at_ j hj
        exact (List.getElem?_eq_some_iff.1 hx).1
      · have h4 := ran_lock' (hi.loc _ _ h2) (run_ran h3)
        rw [h4] at hj
        cases hh : z.holds with
        | true =>
          rw [hh] at hj
          cases hj
          exact (List.getElem?_eq_some_iff.1 h2).1
        | false =>
          rw [hh] at hj
          cases hj
    exact ⟨_, List.getElem?_eq_getElem (by rw [hlen]; exact key)⟩
  · rcases Prog.stepped_sh hs with h | ⟨i, w, z, b, h1, h2, h3⟩
    · rw [h]; exact hi.raised
    · exact (ran_count (run_ran h3) hi.raised (hpos i w h2)).1
  · refine Prog.count_step (P := prog T) PC.inWait (fun sh => sh.waiting - sh.raised) ?_ ?_ ?_ ?_ hi.count hs
    · intro x op y hy
      cases x with
      | idle r => cases hy; rfl
      | _ => cases hy
    · intro i x sh y b hx hr
      exact (ran_count (run_ran hr) hi.raised (hpos i x hx)).2
    · intro x y hy
      cases x with
      | asleep p t => cases hy; rfl
      | _ => cases hy
    · intro x y hy
      cases x with
      | asleep p t =>
        cases t with
        | true => cases hy; rfl
        | false => cases hy
      | _ => cases hy
  · have key : ∀ pend : PC T → Prop, (∀ w, pend w → w.pending = true) → (∀ r, ¬ pend (.idle r)) →
        (∀ (i : Nat) (x : PC T) (sh : Sh T) (y : PC T), s.pcs[i]? = some x →
          Ran i s.sh x sh y false → pend x → pend y) →
        (∀ (i : Nat) (x : PC T) (sh : Sh T) (y : PC T) (j : Nat) (z : PC T), s.pcs[i]? = some x →
          Ran i s.sh x sh y false → s.pcs[j]? = some z → (woken z).isSome →
          (∀ p t, z = .asleep p t → awake s.sh p = some false) →
          (∀ p t, z = .asleep p t → awake sh p = some false) ∨ pend y) →
        (∀ (j : Nat) (z : PC T), s.pcs[j]? = some z → (woken z).isSome →
          (∀ p t, z = .asleep p t → awake s.sh p = some false) ∨ ∃ (k : Nat) (w : PC T), s.pcs[k]? = some w ∧ pend w) →
        ∀ (j : Nat) (z : PC T), s'.pcs[j]? = some z → (woken z).isSome →
          (∀ p t, z = .asleep p t → awake s'.sh p = some false) ∨
            ∃ (k : Nat) (w : PC T), s'.pcs[k]? = some w ∧ pend w := by
      intro pend hp hidle h1 h2 h3
      refine Prog.sleep_step (P := prog T) (fun sh z => ∀ p t, z = .asleep p t → awake sh p = some false)
        pend ?_ ?_ ?_ ?_ (fun i x sh y hx hr => h1 i x sh y hx (run_ran hr))
        (fun i x sh y j z hx hr _ hz hw hok => h2 i x sh y j z hx (run_ran hr) hz hw hok) h3 hs
      · intro x op y hy
        cases x with
        | idle r => cases hy; exact ⟨rfl, hidle r⟩
        | _ => cases hy
      · intro x y hy
        cases x with
        | asleep p t => cases hy; exact ⟨rfl, fun h => by cases hp _ h⟩
        | _ => cases hy
      · intro x y hy
        cases x with
        | asleep p t =>
          cases t with
          | true => cases hy; exact ⟨rfl, fun h => by cases hp _ h⟩
          | false => cases hy
        | _ => cases hy
      · intro i x sh y b hx hr hw p t e
        subst e
        cases run_ran hr with
        | testSleep _ _ ha => exact ha
    by_cases hw : s.sh.waiting = 0
    · have none_ : ∀ (j : Nat) (z : PC T), s.pcs[j]? = some z → ¬ (woken z).isSome := by
        intro j z hz h
        have := hpos j z hz (by
          cases z with
          | asleep p t => rfl
          | _ => cases h)
        omega
      intro j z hz hz'
      rcases key (fun _ => False) nofun nofun (fun _ _ _ _ _ _ h => h.elim)
        (fun i x sh y j z _ _ hz hw _ => absurd hw (none_ j z hz))
        (fun j z hz hw => absurd hw (none_ j z hz)) j z hz hz' with h | ⟨_, _, _, h⟩
      · exact Or.inl h
      · exact h.elim
    · refine key (fun w => w.pending = true) (fun _ h => h) nofun ?_ ?_ hi.sleep
      · intro i x sh y hx hr hp
        cases hr with
        | drained h => exact absurd h hw
        | drain hw => rfl
        | _ => cases hp
      · intro i x sh y j z hx hr hz hw hok
        cases hr with
        | update f => exact Or.inr rfl
        | disable => exact Or.inr rfl
        | blockingDisable => exact Or.inr rfl
        | enable =>
          refine Or.inl fun p t e => ?_
          have := hok p t e
          unfold awake at this ⊢
          split at this
          · exact this
          · cases this
        | _ => exact Or.inl hok

theorem inv {A : Op T → Prop} {v : T} {b : Bool} {n : Nat} {s : Conf (prog T)}
    (h : (prog T).system.ReachableBy A (init v b n) s) : Inv s :=
  System.ReachableBy.invariant (S := (prog T).system) Inv (inv_init v b n)
    (fun _ _ _ hi _ hs => inv_step hi (Prog.step_stepped hs)) h

end Verif.PyWaitHandler
