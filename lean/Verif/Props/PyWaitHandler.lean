import Verif.Lemmas.PyWaitHandler
/-!
C71, C72, C91, C92: the Python `WaitHandler`.
-/
namespace Verif.PyWaitHandler
open Verif.Threads

variable {T : Type}

/-! ### C72: reasons -/

/-- Places of a call `wait(p, timeout)`. -/
inductive Waits (p : T → Option Bool) (t : Bool) : PC T → Prop
  | acq : Waits p t (.acq (.wait p t))
  | body : Waits p t (.body (.wait p t))
  | test (l) : Waits p t (.test p t l)
  | asleep : Waits p t (.asleep p t)
  | again (l) : Waits p t (.again p t l)
  | leave (m) : Waits p t (.leave p t m)
  | ret (m) : Waits p t (.ret p t m)

/-- A thread inside a call of `wait` stays there until it returns. -/
theorem waits_step {p : T → Option Bool} {t : Bool} {i : Nat} {x : PC T} {s s' : Conf (prog T)} {l : Label (Op T)}
    (hw : Waits p t x) (hx : s.pcs[i]? = some x) (hs : (prog T).Stepped s l s') :
    ∃ y, s'.pcs[i]? = some y ∧ (Waits p t y ∨ y = .rel .raised ∨ ∃ r, y = .idle (some (.reason r))) := by
  obtain ⟨y, hy, h⟩ := Prog.track hs hx
  refine ⟨y, hy, ?_⟩
  rcases h with ⟨op, -, h, -⟩ | ⟨-, b, h⟩ | ⟨-, h, -⟩
  · cases hw <;> cases h
  · have h := run_ran (x := x) h
    generalize s'.sh = sh' at h
    cases hw with
    | acq => cases h; exact Or.inl .body
    | body => cases h; exact Or.inl (.test _)
    | test l =>
      cases h with
      | testRaise _ _ _ _ => exact Or.inr (Or.inl rfl)
      | testMet _ _ _ _ => exact Or.inl (.leave _)
      | testLate _ _ _ => exact Or.inl (.leave _)
      | testSleep _ _ _ => exact Or.inl .asleep
    | asleep => cases h
    | again l => cases h; exact Or.inl (.test _)
    | leave m => cases h; exact Or.inl (.ret _)
    | ret m => cases h; exact Or.inr (Or.inr ⟨_, rfl⟩)
  · rcases h with rfl | h | h
    · exact Or.inl hw
    · cases hw <;> cases h
      exact Or.inl (.again _)
    · cases hw <;> cases t <;> cases h
      exact Or.inl (.again _)

/-- C72: a call `wait(p, timeout)` that returns gives the true reason, for the value at that moment: disabled
exactly when the handler is disabled, condition met exactly when it is enabled and `p` true, timeout exactly when
it is enabled and `p` false; the last only if a timeout was given. -/
theorem C72_reason {v : T} {b : Bool} {n : Nat} {s0 s1 s s' : Conf (prog T)}
    (h : (prog T).system.Reachable (init v b n) s0) {i : Nat} {p : T → Option Bool} {t : Bool}
    (h1 : (prog T).system.step s0 (.start i (.wait p t)) = some s1)
    {ls : List (Label (Op T))} (hls : ∀ l ∈ ls, ∀ op, l ≠ .start i op)
    (h2 : (prog T).system.exec s1 ls = some s) (h3 : (prog T).system.step s (.run i) = some s') {r : Reason}
    (hr : s'.pcs[i]? = some (.idle (some (.reason r)))) :
    (r = .disabled ↔ s'.sh.enabled = false) ∧
    (r = .conditionMet ↔ s'.sh.enabled = true ∧ p s'.sh.value = some true) ∧
    (r = .timeout ↔ s'.sh.enabled = true ∧ p s'.sh.value = some false) ∧ (r = .timeout → t = true) := by
  have hr1 : (prog T).system.Reachable (init v b n) s1 := .step h (Label.allowed_true _) h1
  have hrs : (prog T).system.Reachable (init v b n) s :=
    (prog T).system.exec_reachable ls (fun l _ => Label.allowed_true l) hr1 h2
  have hi := inv hrs
  have hx1 : s1.pcs[i]? = some (.acq (.wait p t)) := by
    obtain ⟨x, y, -, hy, -, h⟩ := Prog.stepped_start (Prog.step_stepped h1)
    cases x with
    | idle r => cases hy; exact h
    | _ => cases hy
  obtain ⟨x, hx, hR⟩ := Prog.exec_keep (P := prog T)
    (fun _ x => Waits p t x ∨ x = .rel .raised ∨ ∃ r, x = .idle r) i
    (by
      intro s l s' x hs hl hx hR
      rcases hR with hR | rfl | ⟨r, rfl⟩
      · obtain ⟨y, hy, h⟩ := waits_step hR hx hs
        refine ⟨y, hy, ?_⟩
        rcases h with h | h | ⟨r, h⟩
        · exact Or.inl h
        · exact Or.inr (Or.inl h)
        · exact Or.inr (Or.inr ⟨_, h⟩)
      · obtain ⟨y, hy, h⟩ := Prog.track hs hx
        refine ⟨y, hy, ?_⟩
        rcases h with ⟨op, -, h, -⟩ | ⟨-, b, h⟩ | ⟨-, h, -⟩
        · cases h
        · have h := run_ran (i := i) (x := .rel .raised) h
          generalize s'.sh = sh' at h
          cases h
          exact Or.inr (Or.inr ⟨_, rfl⟩)
        · rcases h with rfl | h | h
          · exact Or.inr (Or.inl rfl)
          · cases h
          · cases h
      · obtain ⟨y, hy, h⟩ := Prog.track hs hx
        refine ⟨y, hy, ?_⟩
        rcases h with ⟨op, e, -, -⟩ | ⟨-, b, h⟩ | ⟨-, h, -⟩
        · exact absurd e (hl op)
        · cases h
        · rcases h with rfl | h | h
          · exact Or.inr (Or.inr ⟨_, rfl⟩)
          · cases h
          · cases h)
    ls hls h2 hx1 (Or.inl .acq)
  obtain ⟨sh, y, b', hrun, hsh, hy⟩ := Prog.stepped_run (Prog.step_stepped h3) hx
  rw [hr] at hy
  cases hy
  have hran := run_ran (x := x) hrun
  rcases hR with hR | rfl | ⟨r', rfl⟩
  · cases hR with
    | ret m =>
      obtain ⟨ha, hm⟩ := (hi.loc i _ hx).2
      cases hrun
      rw [hsh]
      show (reason s.sh m = _ ↔ s.sh.enabled = _) ∧ (_ ↔ s.sh.enabled = _ ∧ p s.sh.value = _) ∧
        (_ ↔ s.sh.enabled = _ ∧ p s.sh.value = _) ∧ _
      unfold awake at ha
      unfold reason
      cases he : s.sh.enabled with
      | false => simp
      | true =>
        rw [he, if_pos rfl] at ha
        rw [ha]
        cases m with
        | false => simpa using hm
        | true => simp
    | _ => cases hran
  · cases hran
  · cases hran

/-! ### C71: the loop of `blocking_disable` -/

/-- While a thread has the lock, nothing else changes the handler. -/
theorem other_stuck {s s' : Conf (prog T)} {l : Label (Op T)} {j : Nat} (hi : Inv s) (hl : s.sh.lock = some j)
    (hne : l ≠ .run j) (hs : (prog T).Stepped s l s') : s'.sh = s.sh := by
  rcases Prog.stepped_sh hs with h | ⟨i, x, y, b, rfl, hx, h⟩
  · exact h
  · rcases ran_lock (hi.loc i x hx) (run_ran h) with h | h
    · rw [hl] at h
      cases h
      exact absurd rfl hne
    · rw [hl] at h
      cases h

/-- Places of `blocking_disable` once it has the lock. -/
inductive Disabling : PC T → Prop
  | body : Disabling (.body .blockingDisable)
  | drainTest : Disabling .drainTest
  | drainNotify : Disabling .drainNotify

/-- C71, negation in general: if a thread is waiting when `blocking_disable` has got the lock, then
`blocking_disable` never returns, whatever happens: it keeps the lock, and no other thread ever gets it. -/
theorem C71_negation_spin {v : T} {b : Bool} {n : Nat} {s s' : Conf (prog T)}
    (h : (prog T).system.Reachable (init v b n) s) {j : Nat} {x : PC T} (hx : s.pcs[j]? = some x) (hd : Disabling x)
    (hw : 0 < s.sh.waiting) {ls : List (Label (Op T))} (he : (prog T).system.exec s ls = some s') :
    (∃ y, s'.pcs[j]? = some y ∧ Disabling y) ∧ s'.sh.lock = some j ∧ s'.sh.waiting = s.sh.waiting := by
  induction ls generalizing s x with
  | nil =>
    cases he
    exact ⟨⟨x, hx, hd⟩, ((inv h).loc j x hx).1.1 (by cases hd <;> rfl), rfl⟩
  | cons l ls ih =>
    obtain ⟨s1, h1, h2⟩ := System.exec_cons he
    have hi := inv h
    have hs := Prog.step_stepped h1
    have hl := (hi.loc j x hx).1.1 (by cases hd <;> rfl)
    have key : (∃ y, s1.pcs[j]? = some y ∧ Disabling y) ∧ s1.sh.waiting = s.sh.waiting := by
      obtain ⟨y, hy, h⟩ := Prog.track hs hx
      rcases h with ⟨op, -, h, -⟩ | ⟨-, b, h⟩ | ⟨hne, h, -⟩
      · cases hd <;> cases h
      · have h := run_ran (x := x) h
        generalize s1.sh = sh' at h ⊢
        cases hd with
        | body => cases h; exact ⟨⟨_, hy, .drainTest⟩, rfl⟩
        | drainTest =>
          cases h with
          | drained h0 => omega
          | drain _ => exact ⟨⟨_, hy, .drainNotify⟩, rfl⟩
        | drainNotify => cases h; exact ⟨⟨_, hy, .drainTest⟩, rfl⟩
      · refine ⟨⟨y, hy, ?_⟩, by rw [other_stuck hi hl hne hs]⟩
        rcases h with rfl | h | h
        · exact hd
        · cases hd <;> cases h
        · cases hd <;> cases h
    obtain ⟨⟨y, hy, hdy⟩, hw1⟩ := key
    have := ih (h.step (Label.allowed_true _) h1) hy hdy (by omega) h2
    exact ⟨this.1, this.2.1, this.2.2.trans hw1⟩

/-- C71: when `blocking_disable` leaves its loop, the handler is disabled and no thread is inside a wait. -/
theorem C71_drained {v : T} {b : Bool} {n : Nat} {s s' : Conf (prog T)}
    (h : (prog T).system.Reachable (init v b n) s) {j : Nat} (hx : s.pcs[j]? = some .drainTest)
    (hs : (prog T).system.step s (.run j) = some s') (hy : s'.pcs[j]? = some (.rel .done)) :
    s'.sh.enabled = false ∧ ∀ (i : Nat) (p : T → Option Bool) (t l : Bool), s'.pcs[i]? ≠ some (.test p t l) ∧
      s'.pcs[i]? ≠ some (.asleep p t) ∧ s'.pcs[i]? ≠ some (.again p t l) ∧ s'.pcs[i]? ≠ some (.leave p t l) := by
  have hi := inv h
  have hi' := inv (h.step (Label.allowed_true _) hs)
  obtain ⟨sh, y, b, h1, h2, h3⟩ := Prog.stepped_run (Prog.step_stepped hs) hx
  rw [hy] at h3
  cases h3
  have h1 := run_ran (i := j) (x := .drainTest) h1
  cases h1 with
  | drained hw =>
    refine ⟨by rw [h2]; exact (hi.loc j _ hx).2, ?_⟩
    have hc := hi'.count
    rw [h2, hw] at hc
    have none : ∀ (i : Nat) (x : PC T), x.inWait = true → s'.pcs[i]? ≠ some x := by
      intro i x hin hx
      have := countP_pos_of_get PC.inWait hx hin
      omega
    exact fun i p t l => ⟨none i _ rfl, none i _ rfl, none i _ rfl, none i _ rfl⟩

/-! ### C72: wake-ups -/

/-- C72: a thread sleeps in a wait only while the handler is enabled and its predicate false, except while another
thread, which holds the lock, is about to notify. -/
theorem C72_no_lost_wakeup {v : T} {b : Bool} {n : Nat} {s : Conf (prog T)}
    (h : (prog T).system.Reachable (init v b n) s) {i : Nat} {p : T → Option Bool} {t : Bool}
    (hx : s.pcs[i]? = some (.asleep p t)) :
    (s.sh.enabled = true ∧ p s.sh.value = some false) ∨
    ∃ k, s.sh.lock = some k ∧ (s.pcs[k]? = some .notify ∨ s.pcs[k]? = some .drainTest ∨
      s.pcs[k]? = some .drainNotify) := by
  have hi := inv h
  rcases hi.sleep i _ hx rfl with h | ⟨k, w, hk, hw⟩
  · refine Or.inl ?_
    have := h p t rfl
    unfold awake at this
    split at this
    · rename_i he
      exact ⟨he, this⟩
    · cases this
  · refine Or.inr ⟨k, (hi.loc k w hk).1.1 (by cases w <;> first | rfl | cases hw), ?_⟩
    cases w with
    | notify => exact Or.inl hk
    | drainTest => exact Or.inr (Or.inl hk)
    | drainNotify => exact Or.inr (Or.inr hk)
    | _ => cases hw

/-- The states of an execution. -/
theorem at_reachable {v : T} {b : Bool} {n : Nat} (e : (prog T).system.Execution) (h0 : e.at_ 0 = init v b n)
    (m : Nat) : (prog T).system.Reachable (init v b n) (e.at_ m) := by
  refine e.reachable ?_ m
  rw [h0]
  exact .init

/-- Whenever a thread enters `blocking_disable` (has the lock), no thread is waiting. -/
def Drains (e : (prog T).system.Execution) : Prop :=
  ∀ (m j : Nat), (e.at_ m).pcs[j]? = some (.body .blockingDisable) → (e.at_ m).sh.waiting = 0

/-- The loop of `blocking_disable` is not entered. -/
def Empty (s : Conf (prog T)) : Prop :=
  ∀ j : Nat, (s.pcs[j]? = some .drainTest → s.sh.waiting = 0) ∧ s.pcs[j]? ≠ some .drainNotify

theorem empty_step {s s' : Conf (prog T)} {l : Label (Op T)} (hi : Inv s) (hq : Empty s)
    (hd : ∀ j : Nat, s.pcs[j]? = some (.body .blockingDisable) → s.sh.waiting = 0)
    (hs : (prog T).Stepped s l s') : Empty s' := by
  intro j
  have back : ∀ y, s'.pcs[j]? = some y → ∃ x, s.pcs[j]? = some x := fun y hy =>
    ⟨_, List.getElem?_eq_getElem (by
      rw [← Prog.stepped_length hs]
      exact (List.getElem?_eq_some_iff.1 hy).1)⟩
  constructor
  · intro hy
    obtain ⟨x, hx⟩ := back _ hy
    obtain ⟨y, hy', h⟩ := Prog.track hs hx
    rw [hy] at hy'
    cases hy'
    rcases h with ⟨op, -, h, -⟩ | ⟨-, b, h⟩ | ⟨hne, h, -⟩
    · cases x <;> cases h
    · have h := run_ran (x := x) h
      generalize s'.sh = sh' at h ⊢
      cases h with
      | blockingDisable => exact hd j hx
      | drainNotify => exact absurd hx (hq j).2
    · rcases h with rfl | h | h
      · -- it has the lock, so that nobody else can change anything
        have hl := (hi.loc j _ hx).1.1 rfl
        rw [other_stuck hi hl hne hs]
        exact (hq j).1 hx
      · cases x <;> cases h
      · cases x with
        | asleep p t => cases t <;> cases h
        | _ => cases h
  · intro hy
    obtain ⟨x, hx⟩ := back _ hy
    obtain ⟨y, hy', h⟩ := Prog.track hs hx
    rw [hy] at hy'
    cases hy'
    rcases h with ⟨op, -, h, -⟩ | ⟨-, b, h⟩ | ⟨hne, h, -⟩
    · cases x <;> cases h
    · have h := run_ran (x := x) h
      generalize s'.sh = sh' at h
      cases h with
      | drain hw => exact hw ((hq j).1 hx)
    · rcases h with rfl | h | h
      · exact (hq j).2 hx
      · cases x <;> cases h
      · cases x with
        | asleep p t => cases t <;> cases h
        | _ => cases h

theorem empty_at {v : T} {b : Bool} {n : Nat} (e : (prog T).system.Execution) (h0 : e.at_ 0 = init v b n)
    (hd : Drains e) (m : Nat) : Empty (e.at_ m) := by
  induction m with
  | zero =>
    intro j
    rw [h0]
    constructor
    · intro hx
      cases (Prog.init_get hx : PC.drainTest = .idle none)
    · intro hx
      cases (Prog.init_get hx : PC.drainNotify = .idle none)
  | succ m ih =>
    rcases e.next m with ⟨-, h⟩ | ⟨l, -, h⟩
    · rw [h]; exact ih
    · exact empty_step (inv (at_reachable e h0 m)) ih (hd m) (Prog.step_stepped h)

/-- The thread is neither outside calls nor asleep. -/
def PC.active : PC T → Bool
  | .idle _ | .asleep _ _ => false
  | _ => true

theorem active {x : PC T} (h : x.active = true) : (prog T).Active x := by
  refine ⟨?_, ?_, ?_⟩
  · intro op
    cases x <;> first | rfl | cases h
  · cases x <;> first | rfl | cases h
  · cases x <;> first | rfl | cases h

theorem holds_active {x : PC T} (h : x.holds = true) : x.active = true := by
  cases x <;> first | rfl | cases h

/-- A thread with the lock can always go on. -/
theorem holds_able {x : PC T} (h : x.holds = true) (i : Nat) (s : Sh T) : (run i s x).isSome := by
  cases x with
  | body op => cases op <;> rfl
  | test p t l =>
    simp only [run]
    split
    · rfl
    · rfl
    · split <;> rfl
  | drainTest =>
    simp only [run]
    split <;> rfl
  | _ => first | rfl | cases h

/-- Steps until the lock is released, when the loop of `blocking_disable` is not entered. -/
def PC.rank : PC T → Nat
  | .body _ => 4
  | .test _ _ _ => 3
  | .leave _ _ _ | .notify | .drainTest => 2
  | _ => 1

section
variable (e : (prog T).system.Execution) (hf : e.Fair)
include hf

/-- A thread with the lock takes its step. -/
theorem holder_moves (I : Conf (prog T) → Prop) (hI : ∀ m, I (e.at_ m)) (i : Nat) (x : PC T) (hx : x.holds = true)
    (Q : Conf (prog T) → Prop)
    (hdone : ∀ (s : Conf (prog T)) (sh : Sh T) (y : PC T) (b : Bool), I s → s.pcs[i]? = some x →
      Ran i s.sh x sh y b → ∀ s' : Conf (prog T), s'.sh = sh → s'.pcs[i]? = some y → Q s') :
    e.LeadsTo (fun s => s.pcs[i]? = some x) Q := by
  refine Prog.free_step e hf I hI i x (active (holds_active hx)) Q
    (fun s _ _ => holds_able hx i s.sh) ?_
  intro s s' hi _ hx hs
  obtain ⟨sh, y, b, h1, h2, h3⟩ := Prog.stepped_run hs hx
  exact hdone s sh y b hi hx (run_ran h1) s' h2 h3

/-- The lock is released, again and again. -/
theorem lock_frees {v : T} {b : Bool} {n : Nat} (h0 : e.at_ 0 = init v b n) (hd : Drains e) :
    e.LeadsTo (fun _ => True) (fun s => s.sh.lock = none) := by
  have key : ∀ (k i : Nat) (x : PC T), x.holds = true → x.rank = k →
      ∀ m, (e.at_ m).pcs[i]? = some x → ∃ m', m ≤ m' ∧ (e.at_ m').sh.lock = none := by
    intro k
    induction k using Nat.strongRecOn with
    | _ k ih =>
      intro i x hhold hk m hm
      obtain ⟨m1, hm1, h⟩ := holder_moves e hf Empty (empty_at e h0 hd) i x hhold
        (fun s => s.sh.lock = none ∨ ∃ y, s.pcs[i]? = some y ∧ y.holds = true ∧ y.rank < k) (by
          intro s sh y b hq hx hr s' hsh hy
          subst hk
          cases hr with
          | acq op _ => exact absurd hhold (by simp [PC.holds])
          | again p t l _ => exact absurd hhold (by simp [PC.holds])
          | drain hw => exact absurd ((hq i).1 hx) hw
          | drainNotify => exact absurd hx (hq i).2
          | testSleep p t _ => exact Or.inl (by rw [hsh])
          | ret p t m => exact Or.inl (by rw [hsh])
          | rel r => exact Or.inl (by rw [hsh])
          | _ => exact Or.inr ⟨_, hy, rfl, by simp [PC.rank]⟩) m hm
      rcases h with h | ⟨y, hy, g1, g2⟩
      · exact ⟨m1, hm1, h⟩
      · obtain ⟨m2, hm2, h⟩ := ih y.rank g2 i y g1 rfl m1 hy
        exact ⟨m2, Nat.le_trans hm1 hm2, h⟩
  intro m _
  have hi := inv (at_reachable e h0 m)
  cases hl : (e.at_ m).sh.lock with
  | none => exact ⟨m, Nat.le_refl m, hl⟩
  | some j =>
    obtain ⟨x, hx⟩ := hi.at_ j hl
    exact key _ j x ((hi.loc j x hx).1.2 hl) rfl m hx

/-- A thread that needs the lock can go on at some moment. -/
theorem gets_able {v : T} {b : Bool} {n : Nat} (h0 : e.at_ 0 = init v b n) (hd : Drains e) (i : Nat) (x : PC T)
    (hact : x.active = true) (hable : ∀ s : Sh T, s.lock = none → (run i s x).isSome) :
    e.LeadsTo (fun s => s.pcs[i]? = some x) (fun s => s.pcs[i]? = some x ∧ (run i s.sh x).isSome) := by
  intro m hm
  obtain ⟨m', hm', hl⟩ := lock_frees e hf h0 hd m trivial
  by_cases hstay : (e.at_ m').pcs[i]? = some x
  · exact ⟨m', hm', hstay, hable _ hl⟩
  · -- it has moved: at the moment before it was able to
    have : ∀ d, (e.at_ (m + d)).pcs[i]? = some x ∨ ∃ k, m ≤ k ∧ (e.at_ k).pcs[i]? = some x ∧
        (run i (e.at_ k).sh x).isSome := by
      intro d
      induction d with
      | zero => exact Or.inl hm
      | succ d ih =>
        rcases ih with ih | ih
        · rcases e.next (m + d) with ⟨-, h⟩ | ⟨l, -, h⟩
          · left
            show (e.at_ (m + d + 1)).pcs[i]? = _
            rw [h]
            exact ih
          · by_cases hl : l = .run i
            · subst hl
              obtain ⟨sh, y, b, g1, -, -⟩ := Prog.stepped_run (Prog.step_stepped h) ih
              refine Or.inr ⟨m + d, Nat.le_add_right _ _, ih, ?_⟩
              have g1 : run i (e.at_ (m + d)).sh x = _ := g1
              rw [g1]
              rfl
            · exact Or.inl (Prog.frame_active (Prog.step_stepped h) ih (active hact) hl)
        · exact Or.inr ih
    rcases this (m' - m) with h | ⟨k, hk, h1, h2⟩
    · rw [Nat.add_sub_cancel' hm'] at h
      exact absurd h hstay
    · exact ⟨k, hk, h1, h2⟩

/-- C71, what holds: under fair scheduling, if no thread is waiting at the moments when `blocking_disable` gets the
lock, every call other than `wait` returns, `blocking_disable` included.  Missing: `blocking_disable` while a thread
waits, see `C71_negation_spin`. -/
theorem C71_returns_partial {v : T} {b : Bool} {n : Nat} (h0 : e.at_ 0 = init v b n) (hd : Drains e) (i : Nat)
    (op : Op T) (hop : ∀ p t, op ≠ .wait p t) :
    e.LeadsTo (fun s => s.pcs[i]? = some (.acq op)) (fun s => ∃ r, s.pcs[i]? = some (.idle (some r))) := by
  have hem := empty_at e h0 hd
  have rel : ∀ r, e.LeadsTo (fun s => s.pcs[i]? = some (.rel r)) (fun s => ∃ r, s.pcs[i]? = some (.idle (some r))) := by
    intro r
    refine holder_moves e hf Empty hem i _ rfl _ ?_
    intro s sh y b _ _ hr s' _ hy
    cases hr
    exact ⟨_, hy⟩
  have notify : e.LeadsTo (fun s => s.pcs[i]? = some .notify) (fun s => ∃ r, s.pcs[i]? = some (.idle (some r))) := by
    refine (holder_moves e hf Empty hem i _ rfl (fun s => s.pcs[i]? = some (.rel .done)) ?_).trans (rel _)
    intro s sh y b _ _ hr s' _ hy
    cases hr
    exact hy
  have drain : e.LeadsTo (fun s => s.pcs[i]? = some .drainTest) (fun s => ∃ r, s.pcs[i]? = some (.idle (some r))) := by
    refine (holder_moves e hf Empty hem i _ rfl (fun s => s.pcs[i]? = some (.rel .done)) ?_).trans (rel _)
    intro s sh y b hq hx hr s' _ hy
    cases hr with
    | drained _ => exact hy
    | drain hw => exact absurd ((hq i).1 hx) hw
  have body : e.LeadsTo (fun s => s.pcs[i]? = some (.body op)) (fun s => ∃ r, s.pcs[i]? = some (.idle (some r))) := by
    have h1 : e.LeadsTo (fun s => s.pcs[i]? = some (.body op))
        (fun s => s.pcs[i]? = some .notify ∨ s.pcs[i]? = some .drainTest ∨ ∃ r, s.pcs[i]? = some (.rel r)) := by
      refine holder_moves e hf Empty hem i _ rfl _ ?_
      intro s sh y b _ _ hr s' _ hy
      cases hr with
      | wait p t => exact absurd rfl (hop p t)
      | update f => exact Or.inl hy
      | disable => exact Or.inl hy
      | blockingDisable => exact Or.inr (Or.inl hy)
      | _ => exact Or.inr (Or.inr ⟨_, hy⟩)
    refine h1.trans ?_
    rintro m (h | h | ⟨r, h⟩)
    · exact notify m h
    · exact drain m h
    · exact rel r m h
  refine System.Execution.LeadsTo.trans ?_ body
  refine (Prog.runs e hf (fun _ => True) (fun _ => trivial) i (.acq op) (active rfl) (fun _ => True) _
    (fun _ _ _ _ _ _ _ _ _ => Or.inl trivial)
    (((gets_able e hf h0 hd i (.acq op) rfl (fun s hl => by simp only [run, hl]; rfl)).mono (fun _ h => h.1)
      (fun s h => Or.inl h))) ?_).mono (fun _ h => ⟨h, trivial⟩) (fun _ h => h)
  intro s s' _ _ hx _ hs
  obtain ⟨sh, y, b, g1, g2, g3⟩ := Prog.stepped_run hs hx
  have := run_ran (i := i) (x := .acq op) g1
  cases this
  exact g3

/-- C72, liveness: under fair scheduling a thread inside a wait, at a moment when its predicate holds or the handler
is disabled, returns, unless the predicate becomes false (and the handler enabled) again.  Missing: executions in
which `blocking_disable` is called while threads wait, see `C72_negation`. -/
theorem C72_wakes_partial {v : T} {b : Bool} {n : Nat} (h0 : e.at_ 0 = init v b n) (hd : Drains e)
    (i : Nat) (p : T → Option Bool) (t : Bool) :
    e.LeadsTo
      (fun s => (∃ x, s.pcs[i]? = some x ∧ Waits p t x) ∧ (s.sh.enabled = false ∨ p s.sh.value = some true))
      (fun s => (∃ r, s.pcs[i]? = some (.idle (some (.reason r)))) ∨
        ¬ (s.sh.enabled = false ∨ p s.sh.value = some true)) := by
  classical
  have haw : ∀ s : Sh T, (s.enabled = false ∨ p s.value = some true) → awake s p = some true := by
    intro s h
    unfold awake
    split
    · rename_i he
      rcases h with h | h
      · rw [he] at h; cases h
      · exact h
    · rfl
  let W : Conf (prog T) → Prop := fun s => s.sh.enabled = false ∨ p s.sh.value = some true
  let Q : Conf (prog T) → Prop := fun s => (∃ r, s.pcs[i]? = some (.idle (some (.reason r)))) ∨ ¬ W s
  show e.LeadsTo (fun s => (∃ x, s.pcs[i]? = some x ∧ Waits p t x) ∧ W s) Q
  have ret : ∀ m, e.LeadsTo (fun s => s.pcs[i]? = some (.ret p t m)) Q := by
    intro m
    refine holder_moves e hf (fun _ => True) (fun _ => trivial) i _ rfl _ ?_
    intro s sh y b _ hx hr s' hsh hy
    cases hr
    exact Or.inl ⟨_, hy⟩
  have leave : ∀ m, e.LeadsTo (fun s => s.pcs[i]? = some (.leave p t m)) Q := by
    intro m
    refine (holder_moves e hf (fun _ => True) (fun _ => trivial) i _ rfl
      (fun s => s.pcs[i]? = some (.ret p t m)) ?_).trans (ret m)
    intro s sh y b _ hx hr s' hsh hy
    cases hr
    exact hy
  -- one step of the thread, while the condition holds
  have go : ∀ x : PC T, x.active = true →
      e.LeadsTo (fun s => s.pcs[i]? = some x ∧ W s) (fun s => (s.pcs[i]? = some x ∧ (run i s.sh x).isSome) ∨ ¬ W s) →
      ∀ R : Conf (prog T) → Prop,
      (∀ (s : Conf (prog T)) (sh : Sh T) (y : PC T) (b : Bool), W s → Ran i s.sh x sh y b →
        ∀ s' : Conf (prog T), s'.sh = sh → s'.pcs[i]? = some y → W s' → R s') →
      e.LeadsTo R Q → e.LeadsTo (fun s => s.pcs[i]? = some x ∧ W s) Q := by
    intro x hact hable R hdone hR
    have h1 : e.LeadsTo (fun s => s.pcs[i]? = some x ∧ W s) (fun s => R s ∨ ¬ W s) := by
      refine Prog.runs e hf (fun _ => True) (fun _ => trivial) i x (active hact) W _ ?_
        (hable.mono (fun _ h => h) (fun s h => h.imp id Or.inr)) ?_
      · intro s l s' _ _ _ _ _ _
        by_cases h : W s'
        · exact Or.inl h
        · exact Or.inr (Or.inr h)
      · intro s s' _ _ hx hw hs
        by_cases h : W s'
        · obtain ⟨sh, y, b, g1, g2, g3⟩ := Prog.stepped_run hs hx
          exact Or.inl (hdone s sh y b hw (run_ran g1) s' g2 g3 h)
        · exact Or.inr h
    exact h1.trans (hR.or (.refl e fun s h => Or.inr h))
  have free : ∀ x : PC T, x.active = true → (∀ s : Sh T, s.lock = none → (run i s x).isSome) →
      e.LeadsTo (fun s => s.pcs[i]? = some x ∧ W s)
        (fun s => (s.pcs[i]? = some x ∧ (run i s.sh x).isSome) ∨ ¬ W s) := by
    intro x hact hable
    exact (gets_able e hf h0 hd i x hact hable).mono (fun _ h => h.1) (fun _ h => Or.inl h)
  have able : ∀ x : PC T, x.holds = true → e.LeadsTo (fun s => s.pcs[i]? = some x ∧ W s)
      (fun s => (s.pcs[i]? = some x ∧ (run i s.sh x).isSome) ∨ ¬ W s) :=
    fun x hx => .refl e fun s h => Or.inl ⟨h.1, holds_able hx i s.sh⟩
  have test : ∀ l, e.LeadsTo (fun s => s.pcs[i]? = some (.test p t l) ∧ W s) Q := by
    intro l
    refine go _ rfl (able _ rfl) (fun s => s.pcs[i]? = some (.leave p t true)) ?_ (leave true)
    intro s sh y b hw hr s' hsh hy _
    have := haw s.sh hw
    cases hr with
    | testMet _ _ _ _ => exact hy
    | testRaise _ _ _ ha => rw [this] at ha; cases ha
    | testLate _ _ ha => rw [this] at ha; cases ha
    | testSleep _ _ ha => rw [this] at ha; cases ha
  have again : ∀ l, e.LeadsTo (fun s => s.pcs[i]? = some (.again p t l) ∧ W s) Q := by
    intro l
    refine go _ rfl (free _ rfl ?_) (fun s => s.pcs[i]? = some (.test p t l) ∧ W s) ?_ (test l)
    · intro s hl
      simp only [run, hl]
      rfl
    · intro s sh y b hw hr s' hsh hy hw'
      cases hr
      exact ⟨hy, hw'⟩
  have body : e.LeadsTo (fun s => s.pcs[i]? = some (.body (.wait p t)) ∧ W s) Q := by
    refine go _ rfl (able _ rfl) (fun s => s.pcs[i]? = some (.test p t false) ∧ W s) ?_ (test false)
    intro s sh y b hw hr s' hsh hy hw'
    cases hr
    exact ⟨hy, hw'⟩
  have acq : e.LeadsTo (fun s => s.pcs[i]? = some (.acq (.wait p t)) ∧ W s) Q := by
    refine go _ rfl (free _ rfl ?_) (fun s => s.pcs[i]? = some (.body (.wait p t)) ∧ W s) ?_ body
    · intro s hl
      simp only [run, hl]
      rfl
    · intro s sh y b hw hr s' hsh hy hw'
      cases hr
      exact ⟨hy, hw'⟩
  have asleep : ∀ m, (e.at_ m).pcs[i]? = some (.asleep p t) → W (e.at_ m) → ∃ m', m ≤ m' ∧ Q (e.at_ m') := by
    intro m hx hw
    have hr := at_reachable e h0 m
    rcases C72_no_lost_wakeup hr hx with ⟨h1, h2⟩ | ⟨k, -, hk⟩
    · rcases hw with hw | hw
      · rw [h1] at hw; cases hw
      · rw [h2] at hw; cases hw
    · have hq := empty_at e h0 hd m
      have hk : (e.at_ m).pcs[k]? = some .notify := by
        rcases hk with hk | hk | hk
        · exact hk
        · have h1 := (hq k).1 hk
          have h2 := (inv hr).count
          have h3 := countP_pos_of_get PC.inWait hx rfl
          omega
        · exact absurd hk (hq k).2
      have hne : ∀ s : Conf (prog T), s.pcs[k]? = some .notify → s.pcs[i]? = some (.asleep p t) → i ≠ k := by
        rintro s h1 h2 rfl
        rw [h1] at h2
        cases h2
      have hn : e.LeadsTo (fun s => s.pcs[k]? = some .notify ∧ s.pcs[i]? = some (.asleep p t))
          (fun s => ∃ l, s.pcs[i]? = some (.again p t l)) := by
        refine Prog.runs' e hf (fun _ => True) (fun _ => trivial) k _ (active rfl)
          (fun s => s.pcs[i]? = some (.asleep p t)) _ ?_ (fun s _ _ _ => rfl) ?_
        · intro s l s' _ _ _ hx hs _
          rcases Prog.frame_sleep hs hx (y := .again p t false) rfl (fun _ => rfl) (fun _ => rfl) with h | h | ⟨z, hz, h⟩
          · exact Or.inl h
          · exact Or.inr ⟨_, h⟩
          · cases t with
            | true => cases hz; exact Or.inr ⟨_, h⟩
            | false => cases hz
        · intro s s' _ _ hk hx hs
          obtain ⟨y, hy, -⟩ := Prog.track hs hx
          obtain ⟨w, hw, e⟩ := Prog.stepped_notify hs hk (sh := s.sh) (y := .rel .done) rfl (hne s hk hx) hy
          rw [hx] at hw
          cases hw
          exact ⟨false, by rw [hy, e]; rfl⟩
      obtain ⟨m1, hm1, l, hl⟩ := hn m ⟨hk, hx⟩
      by_cases hw1 : W (e.at_ m1)
      · obtain ⟨m2, hm2, h⟩ := again l m1 ⟨hl, hw1⟩
        exact ⟨m2, Nat.le_trans hm1 hm2, h⟩
      · exact ⟨m1, hm1, Or.inr hw1⟩
  rintro m ⟨⟨x, hx, hin⟩, hw⟩
  cases hin with
  | acq => exact acq m ⟨hx, hw⟩
  | body => exact body m ⟨hx, hw⟩
  | test l => exact test l m ⟨hx, hw⟩
  | asleep => exact asleep m hx hw
  | again l => exact again l m ⟨hx, hw⟩
  | leave b => exact leave b m hx
  | ret b => exact ret b m hx

/-- C91, what holds: under fair scheduling `disable` (without later `enable`) releases every thread that is waiting.
Missing: `disable` followed by `enable`, see `C91_negation`, and executions in which `blocking_disable` is called
while threads wait. -/
theorem C91_released_partial {v : T} {b : Bool} {n : Nat} (h0 : e.at_ 0 = init v b n) (hd : Drains e)
    (i : Nat) (p : T → Option Bool) (t : Bool) :
    e.LeadsTo (fun s => (∃ x, s.pcs[i]? = some x ∧ Waits p t x) ∧ s.sh.enabled = false)
      (fun s => (∃ r, s.pcs[i]? = some (.idle (some (.reason r)))) ∨ s.sh.enabled = true) := by
  refine (C72_wakes_partial e hf h0 hd i p t).mono (fun s h => ⟨h.1, Or.inl h.2⟩) ?_
  rintro s (h | h)
  · exact Or.inl h
  · right
    cases he : s.sh.enabled with
    | true => rfl
    | false => exact absurd (Or.inl he) h

end

/-! ### C72: the derived handlers -/

/-- C72: `wait_greater_equal(k, timeout)` of `IntWaitHandler` gives the true reason. -/
theorem C72_greater_equal {v : Int} {b : Bool} {n : Nat} {s0 s1 s s' : Conf (prog Int)}
    (h : (prog Int).system.Reachable (init v b n) s0) {i : Nat} {k : Int} {t : Bool}
    (h1 : (prog Int).system.step s0 (.start i (waitGreaterEqual k t)) = some s1)
    {ls : List (Label (Op Int))} (hls : ∀ l ∈ ls, ∀ op, l ≠ .start i op)
    (h2 : (prog Int).system.exec s1 ls = some s) (h3 : (prog Int).system.step s (.run i) = some s') {r : Reason}
    (hr : s'.pcs[i]? = some (.idle (some (.reason r)))) :
    (r = .disabled ↔ s'.sh.enabled = false) ∧ (r = .conditionMet ↔ s'.sh.enabled = true ∧ k ≤ s'.sh.value) ∧
      (r = .timeout ↔ s'.sh.enabled = true ∧ s'.sh.value < k) ∧ (r = .timeout → t = true) := by
  simpa using C72_reason h h1 hls h2 h3 hr

/-- C72: `wait_greater(k, timeout)` of `IntWaitHandler` gives the true reason. -/
theorem C72_greater {v : Int} {b : Bool} {n : Nat} {s0 s1 s s' : Conf (prog Int)}
    (h : (prog Int).system.Reachable (init v b n) s0) {i : Nat} {k : Int} {t : Bool}
    (h1 : (prog Int).system.step s0 (.start i (waitGreater k t)) = some s1)
    {ls : List (Label (Op Int))} (hls : ∀ l ∈ ls, ∀ op, l ≠ .start i op)
    (h2 : (prog Int).system.exec s1 ls = some s) (h3 : (prog Int).system.step s (.run i) = some s') {r : Reason}
    (hr : s'.pcs[i]? = some (.idle (some (.reason r)))) :
    (r = .disabled ↔ s'.sh.enabled = false) ∧ (r = .conditionMet ↔ s'.sh.enabled = true ∧ k < s'.sh.value) ∧
      (r = .timeout ↔ s'.sh.enabled = true ∧ s'.sh.value ≤ k) ∧ (r = .timeout → t = true) := by
  simpa using C72_reason h h1 hls h2 h3 hr

/-- C72: `wait_equal(k, timeout)` of `IntWaitHandler` gives the true reason. -/
theorem C72_equal {v : Int} {b : Bool} {n : Nat} {s0 s1 s s' : Conf (prog Int)}
    (h : (prog Int).system.Reachable (init v b n) s0) {i : Nat} {k : Int} {t : Bool}
    (h1 : (prog Int).system.step s0 (.start i (waitEqual k t)) = some s1)
    {ls : List (Label (Op Int))} (hls : ∀ l ∈ ls, ∀ op, l ≠ .start i op)
    (h2 : (prog Int).system.exec s1 ls = some s) (h3 : (prog Int).system.step s (.run i) = some s') {r : Reason}
    (hr : s'.pcs[i]? = some (.idle (some (.reason r)))) :
    (r = .disabled ↔ s'.sh.enabled = false) ∧ (r = .conditionMet ↔ s'.sh.enabled = true ∧ k = s'.sh.value) ∧
      (r = .timeout ↔ s'.sh.enabled = true ∧ ¬ k = s'.sh.value) ∧ (r = .timeout → t = true) := by
  simpa using C72_reason h h1 hls h2 h3 hr

/-- C72: `wait(timeout)` of `BooleanWaitHandler` gives the true reason. -/
theorem C72_open {v : Bool} {b : Bool} {n : Nat} {s0 s1 s s' : Conf (prog Bool)}
    (h : (prog Bool).system.Reachable (init v b n) s0) {i : Nat} {t : Bool}
    (h1 : (prog Bool).system.step s0 (.start i (waitOpen t)) = some s1)
    {ls : List (Label (Op Bool))} (hls : ∀ l ∈ ls, ∀ op, l ≠ .start i op)
    (h2 : (prog Bool).system.exec s1 ls = some s) (h3 : (prog Bool).system.step s (.run i) = some s') {r : Reason}
    (hr : s'.pcs[i]? = some (.idle (some (.reason r)))) :
    (r = .disabled ↔ s'.sh.enabled = false) ∧ (r = .conditionMet ↔ s'.sh.enabled = true ∧ s'.sh.value = true) ∧
      (r = .timeout ↔ s'.sh.enabled = true ∧ s'.sh.value = false) ∧ (r = .timeout → t = true) := by
  simpa using C72_reason h h1 hls h2 h3 hr

/-- What the body of a call other than `wait` does to the handler, and what the call returns. -/
theorem body_effect {T : Type} {i : Nat} {op : Op T} {s s' : Conf (prog T)} (hx : s.pcs[i]? = some (.body op))
    (h : (prog T).system.step s (.run i) = some s') : ∃ sh y b, Ran i s.sh (.body op) sh y b ∧ s'.sh = sh ∧
      s'.pcs[i]? = some y := by
  obtain ⟨sh, y, b, g1, g2, g3⟩ := Prog.stepped_run (Prog.step_stepped h) hx
  exact ⟨sh, y, b, run_ran g1, g2, g3⟩

/-- C72: the calls of `IntWaitHandler` change the value as their names say. -/
theorem C72_int_effects {i : Nat} {k : Int} {s s' : Conf (prog Int)}
    (h : (prog Int).system.step s (.run i) = some s') :
    (s.pcs[i]? = some (.body (increase k)) → s'.sh.value = s.sh.value + k) ∧
    (s.pcs[i]? = some (.body (decrease k)) → s'.sh.value = s.sh.value - k) ∧
    (s.pcs[i]? = some (.body (setValue k)) → s'.sh.value = k) := by
  refine ⟨fun hx => ?_, fun hx => ?_, fun hx => ?_⟩
  all_goals
    obtain ⟨sh, y, b, g1, g2, g3⟩ := body_effect hx h
    cases g1
    rw [g2]

/-- C72: the calls of `BooleanWaitHandler` change the value as their names say. -/
theorem C72_bool_effects {i : Nat} {s s' : Conf (prog Bool)} (h : (prog Bool).system.step s (.run i) = some s') :
    (s.pcs[i]? = some (.body «open») → s'.sh.value = true) ∧
    (s.pcs[i]? = some (.body close) → s'.sh.value = false) := by
  refine ⟨fun hx => ?_, fun hx => ?_⟩
  all_goals
    obtain ⟨sh, y, b, g1, g2, g3⟩ := body_effect hx h
    cases g1
    rw [g2]

/-- C72: `enabled` and `get_value` report the handler and change nothing; `enable` and `disable` change its state
and not its value. -/
theorem C72_status {i : Nat} {s s' : Conf (prog T)} (h : (prog T).system.step s (.run i) = some s') :
    (s.pcs[i]? = some (.body .enabled) → s'.sh = s.sh ∧ s'.pcs[i]? = some (.rel (.bool s.sh.enabled))) ∧
    (s.pcs[i]? = some (.body .getValue) → s'.sh = s.sh ∧ s'.pcs[i]? = some (.rel (.value s.sh.value))) ∧
    (s.pcs[i]? = some (.body .enable) → s'.sh.enabled = true ∧ s'.sh.value = s.sh.value) ∧
    (s.pcs[i]? = some (.body .disable) → s'.sh.enabled = false ∧ s'.sh.value = s.sh.value) ∧
    (∀ r, s.pcs[i]? = some (.rel r) → s'.pcs[i]? = some (.idle (some r))) := by
  refine ⟨fun hx => ?_, fun hx => ?_, fun hx => ?_, fun hx => ?_, fun r hx => ?_⟩
  · obtain ⟨sh, y, b, g1, g2, g3⟩ := body_effect hx h
    cases g1
    exact ⟨g2, g3⟩
  · obtain ⟨sh, y, b, g1, g2, g3⟩ := body_effect hx h
    cases g1
    exact ⟨g2, g3⟩
  · obtain ⟨sh, y, b, g1, g2, g3⟩ := body_effect hx h
    cases g1
    rw [g2]
    exact ⟨rfl, rfl⟩
  · obtain ⟨sh, y, b, g1, g2, g3⟩ := body_effect hx h
    cases g1
    rw [g2]
    exact ⟨rfl, rfl⟩
  · obtain ⟨sh, y, b, g1, g2, g3⟩ := Prog.stepped_run (Prog.step_stepped h) hx
    have g1 := run_ran (i := i) (x := .rel r) g1
    cases g1
    exact g3

/-! ### What goes wrong -/

/-- Thread 0 waits for 5, thread 1 calls `blocking_disable`. -/
def spinning : List (Label (Op Int)) := [.start 0 (waitEqual 5 false), .run 0, .run 0, .run 0,
  .start 1 .blockingDisable, .run 1, .run 1, .run 1, .run 1]

/-- C71 and C72, negations: thread 0 is inside `wait_equal(5)` when thread 1 calls `blocking_disable`.  In a fair
execution the handler stays disabled, thread 0 does not return and thread 1 does not return. -/
theorem C72_negation : ∃ e : (prog Int).system.Execution, e.Fair ∧
    (prog Int).system.Reachable (init 0 true 2) (e.at_ 0) ∧
    ∀ n, (e.at_ n).sh.enabled = false ∧
      (∃ x, (e.at_ n).pcs[0]? = some x ∧ Waits (fun x => some (decide ((5 : Int) = x))) false x) ∧
      ∃ y, (e.at_ n).pcs[1]? = some y ∧ Disabling y := by
  let p : Int → Option Bool := fun x => some (decide ((5 : Int) = x))
  let s0 : Conf (prog Int) := ⟨⟨0, false, 1, some 1, 0⟩, [.again p false false, .drainTest]⟩
  have hr : (prog Int).system.Reachable (init 0 true 2) s0 := (prog Int).system.exec_reachable' spinning rfl
  have hidle : ∀ i, i ≠ 1 → ∀ n s, (prog Int).system.exec s0 ([.run 1, .run 1].take n) = some s →
      (prog Int).system.step s (.run i) = none := by
    intro i hi n s h
    match n, i with
    | _, 1 => exact absurd rfl hi
    | 0, 0 => cases h; rfl
    | 0, i + 2 => cases h; rfl
    | 1, 0 => cases h; rfl
    | 1, i + 2 => cases h; rfl
    | n + 2, 0 =>
      simp only [List.take_succ_cons, List.take_nil] at h
      cases h; rfl
    | n + 2, i + 2 =>
      simp only [List.take_succ_cons, List.take_nil] at h
      cases h; rfl
  obtain ⟨e, hf, h0, hst, -⟩ := (prog Int).system.cycle_fair s0 [.run 1, .run 1] (by decide) rfl (by
    intro i
    by_cases hi : i = 1
    · exact Or.inl (by rw [hi]; exact List.mem_cons_self)
    · exact Or.inr (hidle i hi))
  refine ⟨e, hf, by rw [h0]; exact hr, ?_⟩
  intro n
  obtain ⟨k, hk, h⟩ := hst n
  generalize e.at_ n = s at h ⊢
  match k, hk with
  | 0, _ => cases h; exact ⟨rfl, ⟨_, rfl, .again _⟩, _, rfl, .drainTest⟩
  | 1, _ => cases h; exact ⟨rfl, ⟨_, rfl, .again _⟩, _, rfl, .drainNotify⟩

/-- C71, negation: the caller of `blocking_disable` and the waiting thread block each other for ever: such a state is
reached with one waiting thread, and no continuation leaves it (`C71_negation_spin`). -/
theorem C71_negation : ∃ s : Conf (prog Int), (prog Int).system.Reachable (init 0 true 2) s ∧
    s.sh.enabled = false ∧ ∀ ls s', (prog Int).system.exec s ls = some s' →
      ∃ y, s'.pcs[1]? = some y ∧ Disabling y := by
  have hr : ∃ s, (prog Int).system.Reachable (init 0 true 2) s ∧ s.sh.enabled = false ∧
      s.pcs[1]? = some .drainTest ∧ 0 < s.sh.waiting :=
    ⟨_, (prog Int).system.exec_reachable' spinning rfl, rfl, rfl, by decide⟩
  obtain ⟨s, hr, he, hx, hw⟩ := hr
  exact ⟨s, hr, he, fun ls s' h => (C71_negation_spin hr hx .drainTest hw h).1⟩

/-- Thread 0 waits for 5, thread 1 calls `disable` and then `enable` before thread 0 has got the lock. -/
def toggled : List (Label (Op Int)) := [.start 0 (waitEqual 5 false), .run 0, .run 0, .run 0,
  .start 1 .disable, .run 1, .run 1, .run 1, .run 1, .start 1 .enable, .run 1, .run 1, .run 1, .run 0, .run 0]

/-- C91, negation: thread 0 waits; thread 1 calls `disable`, which returns, and `enable`.  Thread 0 does not return
from its wait, in a fair execution. -/
theorem C91_negation : ∃ e : (prog Int).system.Execution, e.Fair ∧ e.at_ 0 = init 0 true 2 ∧
    (e.at_ 4).pcs[0]? = some (.asleep (fun x => some (decide ((5 : Int) = x))) false) ∧
    (e.at_ 9).sh.enabled = false ∧ (e.at_ 9).pcs[1]? = some (.idle (some .done)) ∧
    (∀ n, 4 ≤ n → ∃ x, (e.at_ n).pcs[0]? = some x ∧ Waits (fun x => some (decide ((5 : Int) = x))) false x) := by
  have : ∃ s, (prog Int).system.exec (init 0 true 2) toggled = some s ∧
      s.pcs = [.asleep (fun x => some (decide ((5 : Int) = x))) false, .idle (some .done)] := ⟨_, rfl, rfl⟩
  obtain ⟨s, h1, hp⟩ := this
  obtain ⟨e, hf, e0, hst, hlab⟩ := (prog Int).system.finite_fair' _ s toggled h1 (by
    intro i
    show (prog Int).step s (.run i) = none
    simp only [Prog.step, hp]
    match i with
    | 0 => rfl
    | 1 => rfl
    | i + 2 => rfl)
  have at4 : (e.at_ 4).pcs[0]? = some (.asleep (fun x => some (decide ((5 : Int) = x))) false) := by
    obtain ⟨s, hs, he⟩ := hst 4
    rw [he]
    cases hs
    rfl
  refine ⟨e, hf, e0, at4, ?_, ?_, ?_⟩
  · obtain ⟨s, hs, he⟩ := hst 9
    rw [he]
    cases hs
    rfl
  · obtain ⟨s, hs, he⟩ := hst 9
    rw [he]
    cases hs
    rfl
  · intro n hn
    obtain ⟨s', hs, he⟩ := hst n
    rw [he]
    by_cases hbig : 15 ≤ n
    · have ht : toggled.take n = toggled := List.take_of_length_le hbig
      have := h1.symm.trans ((congrArg _ ht).symm.trans hs)
      rw [← Option.some.inj this, hp]
      exact ⟨_, rfl, .asleep⟩
    · match n, hn, hbig with
      | 4, _, _ => cases hs; exact ⟨_, rfl, .asleep⟩
      | 5, _, _ => cases hs; exact ⟨_, rfl, .asleep⟩
      | 6, _, _ => cases hs; exact ⟨_, rfl, .asleep⟩
      | 7, _, _ => cases hs; exact ⟨_, rfl, .asleep⟩
      | 8, _, _ => cases hs; exact ⟨_, rfl, .again _⟩
      | 9, _, _ => cases hs; exact ⟨_, rfl, .again _⟩
      | 10, _, _ => cases hs; exact ⟨_, rfl, .again _⟩
      | 11, _, _ => cases hs; exact ⟨_, rfl, .again _⟩
      | 12, _, _ => cases hs; exact ⟨_, rfl, .again _⟩
      | 13, _, _ => cases hs; exact ⟨_, rfl, .again _⟩
      | 14, _, _ => cases hs; exact ⟨_, rfl, .test _⟩
      | n + 15, _, h => exact absurd (Nat.le_add_left 15 n) h

/-- Thread 0 calls `wait` with a predicate that raises an exception; then thread 1 calls `blocking_disable`. -/
def raising : List (Label (Op Int)) := [.start 0 (.wait (fun _ => none) false), .run 0, .run 0, .run 0, .run 0,
  .start 1 .blockingDisable, .run 1, .run 1]

/-- C92, negation: after one wait whose predicate raised an exception no thread is inside a call, but
`blocking_disable` never returns. -/
theorem C92_negation : ∃ s0 s : Conf (prog Int), (prog Int).system.Reachable (init 0 true 2) s0 ∧
    s0.pcs = [.idle (some .raised), .idle none] ∧
    (prog Int).system.exec s0 [.start 1 .blockingDisable, .run 1, .run 1] = some s ∧
    ∀ ls s', (prog Int).system.exec s ls = some s' → ∃ y, s'.pcs[1]? = some y ∧ Disabling y := by
  have hr : ∃ s0 s : Conf (prog Int), (prog Int).system.Reachable (init 0 true 2) s0 ∧
      s0.pcs = [.idle (some .raised), .idle none] ∧
      (prog Int).system.exec s0 [.start 1 .blockingDisable, .run 1, .run 1] = some s ∧
      (prog Int).system.Reachable (init 0 true 2) s ∧ s.pcs[1]? = some .drainTest ∧ 0 < s.sh.waiting :=
    ⟨_, _, (prog Int).system.exec_reachable' (raising.take 5) rfl, rfl, rfl,
      (prog Int).system.exec_reachable' raising rfl, rfl, by decide⟩
  obtain ⟨s0, s, h1, h2, h3, hr, hx, hw⟩ := hr
  exact ⟨s0, s, h1, h2, h3, fun ls s' h => (C71_negation_spin hr hx .drainTest hw h).1⟩

/-- C92, what holds: the counter of waiting threads is the number of threads inside a wait (having counted
themselves and not yet left) plus the number of waits that ended with an exception.  Missing: the latter should not be
counted, see `C92_negation`. -/
theorem C92_count_partial {v : T} {b : Bool} {n : Nat} {s : Conf (prog T)}
    (h : (prog T).system.Reachable (init v b n) s) : s.sh.waiting = s.pcs.countP PC.inWait + s.sh.raised := by
  have := (inv h).count
  have := (inv h).raised
  omega

/-- C92: a predicate that raises leaves the value and the state of the handler as they are, and the lock is
released. -/
theorem C92_raise {i : Nat} {s s1 s2 : Conf (prog T)} {p : T → Option Bool} {t l : Bool}
    (hx : s.pcs[i]? = some (.test p t l)) (he : s.sh.enabled = true) (hp : p s.sh.value = none)
    (h1 : (prog T).system.step s (.run i) = some s1) (h2 : (prog T).system.step s1 (.run i) = some s2) :
    s2.pcs[i]? = some (.idle (some .raised)) ∧ s2.sh.lock = none ∧ s2.sh.value = s.sh.value ∧
      s2.sh.enabled = s.sh.enabled := by
  have ha : awake s.sh p = none := by
    unfold awake
    rw [if_pos he]
    exact hp
  obtain ⟨sh, y, b, g1, g2, g3⟩ := Prog.stepped_run (Prog.step_stepped h1) hx
  have g1 := run_ran (i := i) (x := .test p t l) g1
  cases g1 with
  | testRaise _ _ _ _ =>
    obtain ⟨sh', y', b', k1, k2, k3⟩ := Prog.stepped_run (Prog.step_stepped h2) g3
    have k1 := run_ran (i := i) (x := .rel .raised) k1
    generalize s1.sh = sh1 at *
    cases k1
    subst g2
    exact ⟨k3, by rw [k2], by rw [k2], by rw [k2]⟩
  | testMet _ _ _ h => rw [ha] at h; cases h
  | testLate _ _ h => rw [ha] at h; cases h
  | testSleep _ _ h => rw [ha] at h; cases h

/-! ### Cases -/

/-- Thread 0 waits until the value is at least 3, thread 1 increases it by 4, thread 0 returns. -/
def counted : List (Label (Op Int)) := [.run 0, .run 0, .run 0, .start 1 (increase 4), .run 1, .run 1, .run 1, .run 1,
  .run 0, .run 0, .run 0]

/-- C72_greater_equal (and C72_reason): thread 0 returns because the condition is met. -/
example : ∃ s1 s s' : Conf (prog Int), (prog Int).system.step (init 0 true 2) (.start 0 (waitGreaterEqual 3 true)) =
    some s1 ∧ (prog Int).system.exec s1 counted = some s ∧ (∀ l ∈ counted, ∀ op, l ≠ .start 0 op) ∧
    (prog Int).system.step s (.run 0) = some s' ∧ s'.pcs[0]? = some (.idle (some (.reason .conditionMet))) := by
  refine ⟨_, _, _, rfl, rfl, ?_, rfl, rfl⟩
  simp [counted]

/-- C72_int_effects: thread 1 is about to increase the value. -/
example : ∃ s s' : Conf (prog Int), (prog Int).system.Reachable (init 0 true 2) s ∧
    s.pcs[1]? = some (.body (increase 4)) ∧ (prog Int).system.step s (.run 1) = some s' ∧ s'.sh.value = 4 :=
  ⟨_, _, (prog Int).system.exec_reachable' [.start 1 (increase 4), .run 1] rfl, rfl, rfl, rfl⟩

/-- C72_bool_effects and C72_status: thread 0 has closed, thread 1 is about to open. -/
example : ∃ s s' : Conf (prog Bool), (prog Bool).system.Reachable (init true true 2) s ∧ s.sh.value = false ∧
    s.pcs[1]? = some (.body «open») ∧ (prog Bool).system.step s (.run 1) = some s' ∧ s'.sh.value = true :=
  ⟨_, _, (prog Bool).system.exec_reachable' [.start 0 close, .run 0, .run 0, .run 0, .run 0, .start 1 «open», .run 1]
    rfl, rfl, rfl, rfl, rfl⟩

/-- C72_open: the time is over. -/
example : ∃ s1 s s' : Conf (prog Bool), (prog Bool).system.step (init false true 1) (.start 0 (waitOpen true)) =
    some s1 ∧ (prog Bool).system.exec s1 [.run 0, .run 0, .run 0, .timeout 0, .run 0, .run 0, .run 0] = some s ∧
    (prog Bool).system.step s (.run 0) = some s' ∧ s'.pcs[0]? = some (.idle (some (.reason .timeout))) :=
  ⟨_, _, _, rfl, rfl, rfl, rfl⟩

/-- C72_no_lost_wakeup: a thread asleep while another one is about to notify. -/
example : ∃ s : Conf (prog Int), (prog Int).system.Reachable (init 0 true 2) s ∧
    s.pcs = [.asleep (fun x => some (decide ((5 : Int) = x))) false, .notify] ∧ s.sh.enabled = false :=
  ⟨_, (prog Int).system.exec_reachable' (toggled.take 7) rfl, rfl, rfl⟩

/-- C71_drained: `blocking_disable` after the wait has returned. -/
example : ∃ s s' : Conf (prog Int), (prog Int).system.Reachable (init 0 true 2) s ∧ s.pcs[1]? = some .drainTest ∧
    (prog Int).system.step s (.run 1) = some s' ∧ s'.pcs[1]? = some (.rel .done) ∧
    s.pcs[0]? = some (.idle (some (.reason .conditionMet))) :=
  ⟨_, _, (prog Int).system.exec_reachable' ([.start 0 (waitGreaterEqual 3 true)] ++ counted ++
    [.run 0, .start 1 .blockingDisable, .run 1, .run 1]) rfl, rfl, rfl, rfl, rfl⟩

/-- All of a history with a wait, `disable` and `blocking_disable`. -/
def drained : List (Label (Op Int)) := [.start 0 (waitEqual 5 false), .run 0, .run 0, .run 0,
  .start 1 .disable, .run 1, .run 1, .run 1, .run 1, .run 0, .run 0, .run 0, .run 0,
  .start 1 .blockingDisable, .run 1, .run 1, .run 1, .run 1]

/-- C71_returns_partial, C72_wakes_partial and C91_released_partial: a fair execution with a thread waiting when
the handler is disabled, and a call of `blocking_disable`. -/
example : ∃ e : (prog Int).system.Execution, e.Fair ∧ e.at_ 0 = init 0 true 2 ∧ Drains e ∧
    ((e.at_ 7).pcs[0]? = some (.asleep (fun x => some (decide ((5 : Int) = x))) false) ∧
      (e.at_ 7).sh.enabled = false) ∧ (e.at_ 14).pcs[1]? = some (.acq .blockingDisable) := by
  have : ∃ s, (prog Int).system.exec (init 0 true 2) drained = some s ∧
      s.pcs = [.idle (some (.reason .disabled)), .idle (some .done)] := ⟨_, rfl, rfl⟩
  obtain ⟨s, h1, hp⟩ := this
  obtain ⟨e, hf, e0, hst, hlab⟩ := (prog Int).system.finite_fair' _ s drained h1 (by
    intro i
    show (prog Int).step s (.run i) = none
    simp only [Prog.step, hp]
    match i with
    | 0 => rfl
    | 1 => rfl
    | i + 2 => rfl)
  refine ⟨e, hf, e0, ?_, ?_, ?_⟩
  · intro m j hj
    obtain ⟨s', hs, he⟩ := hst m
    rw [he] at hj ⊢
    by_cases hbig : 18 ≤ m
    · have ht : drained.take m = drained := List.take_of_length_le hbig
      have := h1.symm.trans ((congrArg _ ht).symm.trans hs)
      rw [← Option.some.inj this, hp] at hj
      match j, hj with
      | 0, h => cases h
      | 1, h => cases h
    · have hlt : m < 18 := by omega
      have key : ∀ m, m < 18 → ∃ s, (prog Int).system.exec (init 0 true 2) (drained.take m) = some s ∧
          (s.sh.waiting = 0 ∨ ∃ x y, s.pcs = [x, y] ∧ x ≠ .body .blockingDisable ∧ y ≠ .body .blockingDisable) := by
        intro m hm
        match m, hm with
        | 0, _ => exact ⟨_, rfl, Or.inl rfl⟩
        | 1, _ => exact ⟨_, rfl, Or.inl rfl⟩
        | 2, _ => exact ⟨_, rfl, Or.inl rfl⟩
        | 3, _ => exact ⟨_, rfl, Or.inr ⟨_, _, rfl, nofun, nofun⟩⟩
        | 4, _ => exact ⟨_, rfl, Or.inr ⟨_, _, rfl, nofun, nofun⟩⟩
        | 5, _ => exact ⟨_, rfl, Or.inr ⟨_, _, rfl, nofun, nofun⟩⟩
        | 6, _ => exact ⟨_, rfl, Or.inr ⟨_, _, rfl, nofun, nofun⟩⟩
        | 7, _ => exact ⟨_, rfl, Or.inr ⟨_, _, rfl, nofun, nofun⟩⟩
        | 8, _ => exact ⟨_, rfl, Or.inr ⟨_, _, rfl, nofun, nofun⟩⟩
        | 9, _ => exact ⟨_, rfl, Or.inr ⟨_, _, rfl, nofun, nofun⟩⟩
        | 10, _ => exact ⟨_, rfl, Or.inr ⟨_, _, rfl, nofun, nofun⟩⟩
        | 11, _ => exact ⟨_, rfl, Or.inr ⟨_, _, rfl, nofun, nofun⟩⟩
        | 12, _ => exact ⟨_, rfl, Or.inl rfl⟩
        | 13, _ => exact ⟨_, rfl, Or.inl rfl⟩
        | 14, _ => exact ⟨_, rfl, Or.inl rfl⟩
        | 15, _ => exact ⟨_, rfl, Or.inl rfl⟩
        | 16, _ => exact ⟨_, rfl, Or.inl rfl⟩
        | 17, _ => exact ⟨_, rfl, Or.inl rfl⟩
        | n + 18, h => exact absurd h (by omega)
      obtain ⟨s1, g1, g2⟩ := key m hlt
      have : s1 = s' := Option.some.inj (g1.symm.trans hs)
      subst this
      rcases g2 with h | ⟨x, y, hxy, hx, hy⟩
      · exact h
      · rw [hxy] at hj
        match j, hj with
        | 0, h => exact absurd (Option.some.inj h) hx
        | 1, h => exact absurd (Option.some.inj h) hy
  · obtain ⟨s, hs, he⟩ := hst 7
    rw [he]
    cases hs
    exact ⟨rfl, rfl⟩
  · obtain ⟨s, hs, he⟩ := hst 14
    rw [he]
    cases hs
    rfl

/-- C92_raise and C92_count_partial: a predicate that raises for the current value. -/
example : ∃ s s1 s2 : Conf (prog Int), (prog Int).system.Reachable (init 0 true 2) s ∧
    s.pcs[0]? = some (.test (fun _ => none) false false) ∧ (prog Int).system.step s (.run 0) = some s1 ∧
    (prog Int).system.step s1 (.run 0) = some s2 ∧ s2.sh.raised = 1 :=
  ⟨_, _, _, (prog Int).system.exec_reachable' (raising.take 3) rfl, rfl, rfl, rfl, rfl⟩

end Verif.PyWaitHandler
