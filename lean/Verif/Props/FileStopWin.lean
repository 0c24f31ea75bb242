import Verif.Model.FileStopWin
import Verif.Lemmas.Progress

/-!
C195: on Windows the destructor of `filewatch::FileWatch` returns, the callback is called once for every change, and not after the
destructor has returned.
-/
namespace Verif.FileStopWin
open Verif.Threads

/-- The steps there are. -/
theorem step_cases {s s' : St} {l : Label Op} (h : step s l = some s') :
    (l = .run 0 ∧ stepW s = some s') ∨ (l = .run 1 ∧ stepC s = some s') ∨
    (∃ k d, l = .run (k + 2) ∧ s.clients[k]? = some d ∧ stepD s k d = some s') ∨
    (∃ k op, l = .start (k + 2) op ∧ s.clients[k]? = some .idle ∧
      s' = { s with clients := s.clients.set k (begin_ op) }) ∨
    (l = .spurious 1 ∧ s.c = .asleep ∧ s' = { s with c := .woken }) := by
  unfold step at h
  split at h
  · exact .inl ⟨rfl, h⟩
  · exact .inr (.inl ⟨rfl, h⟩)
  · rename_i k
    obtain ⟨d, hd, h⟩ := Option.bind_eq_some_iff.1 h
    exact .inr (.inr (.inl ⟨k, d, rfl, hd, h⟩))
  · rename_i k op
    split at h
    · rename_i hd
      cases h
      exact .inr (.inr (.inr (.inl ⟨k, op, rfl, hd, rfl⟩)))
    · cases h
  · split at h
    · rename_i hc
      cases h
      exact .inr (.inr (.inr (.inr ⟨rfl, hc, rfl⟩)))
    · cases h
  · cases h

/-- The changes that `_watch_thread` has read and not yet handed over. -/
def inW : W → Nat
  | .push n => n
  | _ => 0

/-- The calls that `_callback_thread` still has to make. -/
def inC : C → Nat
  | .calls n => n
  | _ => 0

/-- `_callback_thread` holds the mutex. -/
def Holds (c : C) : Prop := c = .look ∨ c = .pred ∨ c = .prep ∨ c = .swap

/-- What holds in every state. -/
structure Inv (s : St) : Prop where
  held : s.held = true ↔ Holds s.c
  watch : s.broken = false → s.w = .cancel ∨ s.w = .ended → s.destroyed = true
  call : s.c = .ended → s.destroyed = true
  closed : s.closed = true → s.destroyed = true
  count : s.made = s.pending + inW s.w + s.info + inC s.c + s.called
  prep : s.c = .prep → s.info = 0
  asleep : s.c = .asleep → s.info = 0 ∨ s.w = .notify
  setEvent : ∀ k : Nat, s.clients[k]? = some .setEvent → s.destroyed = true
  join : ∀ k : Nat, s.clients[k]? = some .joinC → s.w = .ended
  done : ∀ k : Nat, s.clients[k]? = some .done → s.w = .ended ∧ s.c = .ended

theorem get_set {l : List D} {k j : Nat} {x y : D} (h : (l.set k x)[j]? = some y) : (j = k ∧ y = x) ∨ l[j]? = some y := by
  rw [List.getElem?_set] at h
  split at h
  · rename_i hk
    split at h
    · cases h
      exact .inl ⟨hk.symm, rfl⟩
    · cases h
  · exact .inr h

theorem inv_init (n : Nat) : Inv (init n) := by
  have hd : ∀ (k : Nat) (d : D), (init n).clients[k]? = some d → d = .idle := by
    intro k d h
    have := List.mem_of_getElem? h
    exact (List.mem_replicate.1 this).2
  refine ⟨by simp [init, Holds], by simp [init], by simp [init], by simp [init], rfl, by simp [init], by simp [init], ?_, ?_, ?_⟩ <;>
    intro k h <;> cases hd k _ h

theorem inv_w {s s' : St} (i : Inv s) (h : stepW s = some s') : Inv s' := by
  obtain ⟨ih, iw, ic, icl, ico, ip, ia, is, ij, id⟩ := i
  have nd : s.w ≠ .ended → ∀ k : Nat, s.clients[k]? ≠ some .joinC ∧ s.clients[k]? ≠ some .done :=
    fun hw k => ⟨fun hk => hw (ij k hk), fun hk => hw (id k hk).1⟩
  unfold stepW at h
  split at h
  · rename_i hw
    cases h
    refine ⟨ih, by simp, ic, icl, ?_, ip, ?_, is, ?_, ?_⟩
    · simpa [hw, inW] using ico
    · intro hc
      simpa [hw] using ia hc
    · exact fun k hk => absurd hk (nd (by simp [hw]) k).1
    · exact fun k hk => absurd hk (nd (by simp [hw]) k).2
  · rename_i hw
    have n1 (k : Nat) (hk : s.clients[k]? = some .joinC) : False := (nd (by simp [hw]) k).1 hk
    have n2 (k : Nat) (hk : s.clients[k]? = some .done) : False := (nd (by simp [hw]) k).2 hk
    have ia' : s.c = .asleep → s.info = 0 := fun hc => by simpa [hw] using ia hc
    split at h
    · rename_i hb
      cases h
      exact ⟨ih, by simp [hb], ic, icl, by simpa [hw, inW] using ico, ip, fun hc => .inl (ia' hc), is, fun k hk => (n1 k hk).elim, fun k hk => (n2 k hk).elim⟩
    · split at h
      · cases h
        refine ⟨ih, by simp, ic, icl, ?_, ip, fun hc => .inl (ia' hc), is, fun k hk => (n1 k hk).elim, fun k hk => (n2 k hk).elim⟩
        simp [hw, inW] at ico ⊢
        omega
      · split at h
        · cases h
          exact ⟨ih, by simp, ic, icl, by simpa [hw, inW] using ico, ip, fun hc => .inl (ia' hc), is, fun k hk => (n1 k hk).elim, fun k hk => (n2 k hk).elim⟩
        · cases h
  · rename_i n hw
    have n1 (k : Nat) (hk : s.clients[k]? = some .joinC) : False := (nd (by simp [hw]) k).1 hk
    have n2 (k : Nat) (hk : s.clients[k]? = some .done) : False := (nd (by simp [hw]) k).2 hk
    split at h
    · cases h
    · rename_i hh
      cases h
      refine ⟨ih, by simp, ic, icl, ?_, ?_, fun _ => .inr rfl, is, fun k hk => (n1 k hk).elim, fun k hk => (n2 k hk).elim⟩
      · simp [hw, inW] at ico ⊢
        omega
      · intro hc
        exact absurd (ih.2 (.inr (.inr (.inl hc)))) hh
  · rename_i hw
    have n1 (k : Nat) (hk : s.clients[k]? = some .joinC) : False := (nd (by simp [hw]) k).1 hk
    have n2 (k : Nat) (hk : s.clients[k]? = some .done) : False := (nd (by simp [hw]) k).2 hk
    cases h
    unfold St.wake
    by_cases hc : s.c = .asleep
    · rw [if_pos hc]
      refine ⟨?_, by simp, by simp, icl, ?_, by simp, by simp, is, fun k hk => (n1 k hk).elim, fun k hk => (n2 k hk).elim⟩
      · simpa [hc, Holds] using ih
      · simpa [hw, hc, inW, inC] using ico
    · rw [if_neg hc]
      refine ⟨ih, by simp, ic, icl, ?_, ip, fun h => absurd h hc, is, fun k hk => (n1 k hk).elim, fun k hk => (n2 k hk).elim⟩
      simpa [hw, inW] using ico
  · rename_i hw
    have n1 (k : Nat) (hk : s.clients[k]? = some .joinC) : False := (nd (by simp [hw]) k).1 hk
    have n2 (k : Nat) (hk : s.clients[k]? = some .done) : False := (nd (by simp [hw]) k).2 hk
    cases h
    have ia' : s.c = .asleep → s.info = 0 := fun hc => by simpa [hw] using ia hc
    refine ⟨ih, ?_, ic, icl, ?_, ip, fun hc => .inl (ia' hc), is, fun k hk => (n1 k hk).elim, fun k hk => (n2 k hk).elim⟩
    · intro _ h
      simp only at h
      split at h
      · assumption
      · simp at h
    · simp only
      split <;> simpa [hw, inW] using ico
  · rename_i hw
    have n1 (k : Nat) (hk : s.clients[k]? = some .joinC) : False := (nd (by simp [hw]) k).1 hk
    have n2 (k : Nat) (hk : s.clients[k]? = some .done) : False := (nd (by simp [hw]) k).2 hk
    cases h
    have ia' : s.c = .asleep → s.info = 0 := fun hc => by simpa [hw] using ia hc
    exact ⟨ih, fun hb _ => iw hb (.inl hw), ic, icl, by simpa [hw, inW] using ico, ip, fun hc => .inl (ia' hc), is, fun k hk => (n1 k hk).elim, fun k hk => (n2 k hk).elim⟩
  · cases h

theorem inv_c {s s' : St} (i : Inv s) (h : stepC s = some s') : Inv s' := by
  obtain ⟨ih, iw, ic, icl, ico, ip, ia, is, ij, id⟩ := i
  have nd : s.c ≠ .ended → ∀ k : Nat, s.clients[k]? ≠ some .done := fun hc k hk => hc (id k hk).2
  unfold stepC at h
  split at h
  · rename_i hc
    cases h
    have n2 (k : Nat) (hk : s.clients[k]? = some .done) : False := nd (by simp [hc]) k hk
    refine ⟨?_, iw, ?_, icl, ?_, ?_, ?_, is, ij, fun k hk => (n2 k hk).elim⟩
    · simp only
      split <;> simpa [hc, Holds] using ih
    · intro h
      simp only at h
      split at h
      · assumption
      · cases h
    · simp only
      split <;> simpa [hc, inC] using ico
    · intro h
      simp only at h
      split at h <;> cases h
    · intro h
      simp only at h
      split at h <;> cases h
  · rename_i hc
    have n2 (k : Nat) (hk : s.clients[k]? = some .done) : False := nd (by simp [hc]) k hk
    split at h
    · cases h
    · cases h
      exact ⟨by simp [Holds], iw, by simp, icl, by simpa [hc, inC] using ico, by simp, by simp, is, ij, fun k hk => (n2 k hk).elim⟩
  · rename_i hc
    have n2 (k : Nat) (hk : s.clients[k]? = some .done) : False := nd (by simp [hc]) k hk
    cases h
    have hh : s.held = true := ih.2 (.inl hc)
    refine ⟨?_, iw, ?_, icl, ?_, ?_, ?_, is, ij, fun k hk => (n2 k hk).elim⟩
    · simp only
      split <;> simp [hh, Holds]
    · intro h
      simp only at h
      split at h <;> cases h
    · simp only
      split <;> simpa [hc, inC] using ico
    · intro h
      simp only at h
      split at h <;> cases h
    · intro h
      simp only at h
      split at h <;> cases h
  · rename_i hc
    have n2 (k : Nat) (hk : s.clients[k]? = some .done) : False := nd (by simp [hc]) k hk
    cases h
    have hh : s.held = true := ih.2 (.inr (.inl hc))
    refine ⟨?_, iw, ?_, icl, ?_, ?_, ?_, is, ij, fun k hk => (n2 k hk).elim⟩
    · simp only
      split <;> simp [hh, Holds]
    · intro h
      simp only at h
      split at h <;> cases h
    · simp only
      split <;> simpa [hc, inC] using ico
    · intro h
      simp only at h ⊢
      split at h
      · cases h
      · rename_i hn
        omega
    · intro h
      simp only at h
      split at h <;> cases h
  · rename_i hc
    have n2 (k : Nat) (hk : s.clients[k]? = some .done) : False := nd (by simp [hc]) k hk
    cases h
    exact ⟨by simp [Holds], iw, by simp, icl, by simpa [hc, inC] using ico, by simp, fun _ => .inl (ip hc), is, ij, fun k hk => (n2 k hk).elim⟩
  · cases h
  · rename_i hc
    have n2 (k : Nat) (hk : s.clients[k]? = some .done) : False := nd (by simp [hc]) k hk
    split at h
    · cases h
    · cases h
      exact ⟨by simp [Holds], iw, by simp, icl, by simpa [hc, inC] using ico, by simp, by simp, is, ij, fun k hk => (n2 k hk).elim⟩
  · rename_i hc
    have n2 (k : Nat) (hk : s.clients[k]? = some .done) : False := nd (by simp [hc]) k hk
    cases h
    refine ⟨by simp [Holds], iw, by simp, icl, ?_, by simp, by simp, is, ij, fun k hk => (n2 k hk).elim⟩
    simp [hc, inC] at ico ⊢
    omega
  · rename_i hc
    have n2 (k : Nat) (hk : s.clients[k]? = some .done) : False := nd (by simp [hc]) k hk
    cases h
    exact ⟨by simpa [hc, Holds] using ih, iw, by simp, icl, by simpa [hc, inC] using ico, by simp, by simp, is, ij, fun k hk => (n2 k hk).elim⟩
  · rename_i n hc
    have n2 (k : Nat) (hk : s.clients[k]? = some .done) : False := nd (by simp [hc]) k hk
    cases h
    refine ⟨by simpa [hc, Holds] using ih, iw, by simp, icl, ?_, by simp, by simp, is, ij, fun k hk => (n2 k hk).elim⟩
    simp [hc, inC] at ico ⊢
    omega
  · cases h

theorem inv_d {s s' : St} {k : Nat} {d : D} (i : Inv s) (hk : s.clients[k]? = some d) (h : stepD s k d = some s') : Inv s' := by
  obtain ⟨ih, iw, ic, icl, ico, ip, ia, is, ij, id⟩ := i
  cases d with
  | idle => cases h
  | flag =>
    simp only [stepD] at h
    split at h
    · cases h
    · cases h
      refine ⟨ih, fun _ _ => rfl, fun _ => rfl, fun _ => rfl, ico, ip, ia, fun _ _ => rfl, ?_, ?_⟩ <;> intro j hj <;>
        rcases get_set hj with ⟨_, hx⟩ | hj
      · cases hx
      · exact ij j hj
      · cases hx
      · exact id j hj
  | setEvent =>
    cases h
    have := is k hk
    refine ⟨ih, iw, ic, fun _ => this, ico, ip, ia, fun _ _ => this, ?_, ?_⟩ <;> intro j hj <;>
      rcases get_set hj with ⟨_, hx⟩ | hj
    · cases hx
    · exact ij j hj
    · cases hx
    · exact id j hj
  | notify =>
    cases h
    unfold St.wake
    by_cases hc : s.c = .asleep
    · rw [if_pos hc]
      refine ⟨by simpa [hc, Holds] using ih, iw, by simp, icl, by simpa [hc, inC] using ico, by simp, by simp, ?_, ?_, ?_⟩ <;>
        intro j hj <;> rcases get_set hj with ⟨_, hx⟩ | hj
      · cases hx
      · exact is j hj
      · cases hx
      · exact ij j hj
      · cases hx
      · rw [hc] at id
        cases (id j hj).2
    · rw [if_neg hc]
      refine ⟨ih, iw, ic, icl, ico, ip, ia, ?_, ?_, ?_⟩ <;>
        intro j hj <;> rcases get_set hj with ⟨_, hx⟩ | hj
      · cases hx
      · exact is j hj
      · cases hx
      · exact ij j hj
      · cases hx
      · exact id j hj
  | joinW =>
    simp only [stepD] at h
    split at h
    · rename_i hw
      cases h
      refine ⟨ih, iw, ic, icl, ico, ip, ia, ?_, fun _ _ => hw, ?_⟩ <;>
        intro j hj <;> rcases get_set hj with ⟨_, hx⟩ | hj
      · cases hx
      · exact is j hj
      · cases hx
      · exact id j hj
    · cases h
  | joinC =>
    simp only [stepD] at h
    split at h
    · rename_i hc
      cases h
      refine ⟨ih, iw, ic, icl, ico, ip, ia, ?_, fun _ _ => ij k hk, fun _ _ => ⟨ij k hk, hc⟩⟩
      intro j hj
      rcases get_set hj with ⟨_, hx⟩ | hj
      · cases hx
      · exact is j hj
    · cases h
  | done => cases h
  | change =>
    cases h
    refine ⟨ih, iw, ic, icl, by simp only; omega, ip, ia, ?_, ?_, ?_⟩ <;>
      intro j hj <;> rcases get_set hj with ⟨_, hx⟩ | hj
    · cases hx
    · exact is j hj
    · cases hx
    · exact ij j hj
    · cases hx
    · exact id j hj
  | fail =>
    cases h
    refine ⟨ih, by simp, ic, icl, ico, ip, ia, ?_, ?_, ?_⟩ <;>
      intro j hj <;> rcases get_set hj with ⟨_, hx⟩ | hj
    · cases hx
    · exact is j hj
    · cases hx
    · exact ij j hj
    · cases hx
    · exact id j hj

theorem inv_step {s s' : St} {l : Label Op} (i : Inv s) (h : step s l = some s') : Inv s' := by
  rcases step_cases h with ⟨_, h⟩ | ⟨_, h⟩ | ⟨k, d, _, hk, h⟩ | ⟨k, op, _, hk, rfl⟩ | ⟨_, hc, rfl⟩
  · exact inv_w i h
  · exact inv_c i h
  · exact inv_d i hk h
  · obtain ⟨ih, iw, ic, icl, ico, ip, ia, is, ij, id⟩ := i
    refine ⟨ih, iw, ic, icl, ico, ip, ia, ?_, ?_, ?_⟩ <;>
      intro j hj <;> rcases get_set hj with ⟨_, hx⟩ | hj
    · cases op <;> cases hx
    · exact is j hj
    · cases op <;> cases hx
    · exact ij j hj
    · cases op <;> cases hx
    · exact id j hj
  · obtain ⟨ih, iw, ic, icl, ico, ip, ia, is, ij, id⟩ := i
    refine ⟨by simpa [hc, Holds] using ih, iw, by simp, icl, by simpa [hc, inC] using ico, by simp, by simp, is, ij, ?_⟩
    intro j hj
    rw [hc] at id
    cases (id j hj).2

theorem inv_reachable {n : Nat} {s : St} (h : system.Reachable (init n) s) : Inv s := by
  have key : ∀ t, system.ReachableBy (fun _ => True) (init n) t → Inv t := by
    intro t ht
    induction ht with
    | init => exact inv_init n
    | step _ _ hs ih => exact inv_step ih hs
  exact key s h

/-! ### Calls of the callback -/

/-- C195: there are never more calls of the callback than changes of the file. -/
theorem C195_calls (n : Nat) (s : St) (h : system.Reachable (init n) s) : s.called ≤ s.made := by
  have := (inv_reachable h).count
  omega

/-- C195: when the threads of the object have nothing left to do, the object is not being destroyed and the directory can be watched,
then the callback has been called once for every change. -/
theorem C195_delivered (n : Nat) (s : St) (h : system.Reachable (init n) s) (hb : s.broken = false) (hd : s.destroyed = false)
    (h0 : system.step s (.run 0) = none) (h1 : system.step s (.run 1) = none) : s.called = s.made := by
  obtain ⟨ih, iw, ic, icl, ico, ip, ia, -, -, -⟩ := inv_reachable h
  replace h0 : stepW s = none := h0
  replace h1 : stepC s = none := h1
  have hc : s.c = .asleep := by
    unfold stepC at h1
    split at h1 <;> try (cases h1; done)
    · rename_i hc
      split at h1
      · rename_i hh
        have := ih.1 hh
        simp [hc, Holds] at this
      · cases h1
    · assumption
    · rename_i hc
      split at h1
      · rename_i hh
        have := ih.1 hh
        simp [hc, Holds] at this
      · cases h1
    · rename_i hc
      rw [ic hc] at hd
      cases hd
  have hh : s.held = false := by
    cases hx : s.held with
    | false => rfl
    | true => simpa [hc, Holds] using ih.1 hx
  have hw : s.w = .wait ∧ s.pending = 0 := by
    unfold stepW at h0
    split at h0 <;> try (cases h0; done)
    · rename_i hw
      rw [hb] at h0
      refine ⟨hw, Nat.eq_zero_of_not_pos fun hp => ?_⟩
      rw [if_neg (by simp), if_pos hp] at h0
      cases h0
    · simp [hh] at h0
    · rename_i hw
      rw [iw hb (.inr hw)] at hd
      cases hd
  rw [hw.1, hw.2, hc] at ico
  have := ia hc
  rw [hw.1] at this
  simp [inW, inC] at ico this
  omega

/-! ### Every change is reported -/

/-- The changes that are with `_callback_thread`. -/
def handed (s : St) : Nat := s.info + inC s.c + s.called

/-- The object is in use: it is not being destroyed, and the directory can be watched. -/
def Used (s : St) : Prop := Inv s ∧ s.broken = false ∧ s.destroyed = false ∧ ∀ n, s.w = .push n → 0 < n

theorem used_push {s s' : St} {l : Label Op} (u : Used s) (h : step s l = some s') : ∀ n, s'.w = .push n → 0 < n := by
  have hcl : s.closed = false := by
    cases hx : s.closed with
    | false => rfl
    | true =>
      have := u.1.closed hx
      rw [u.2.2.1] at this
      cases this
  rcases step_cases h with ⟨-, h⟩ | ⟨-, h⟩ | ⟨k, d, -, hk, h⟩ | ⟨k, op, -, hk, rfl⟩ | ⟨-, -, rfl⟩
  · unfold stepW at h
    split at h
    · cases h
      simp
    · split at h
      · cases h
        simp
      · split at h
        · cases h
          rename_i hp
          intro n hn
          cases hn
          exact hp
        · rw [hcl] at h
          cases h
    · split at h <;> cases h
      simp
    · cases h
      simp
    · cases h
      intro n hn
      simp only at hn
      split at hn <;> cases hn
    · cases h
      simp
    · cases h
  · unfold stepC at h
    (repeat' split at h) <;> cases h <;> exact u.2.2.2
  · cases d <;> simp only [stepD, St.wake] at h <;> (repeat' split at h) <;> cases h <;> exact u.2.2.2
  · exact u.2.2.2
  · exact u.2.2.2

/-- How far `_callback_thread` is from a call when there is something to report. -/
def toCall : C → Nat
  | .calls 0 => 9
  | .test => 8
  | .asleep => 7
  | .lock | .woken => 6
  | .look | .pred => 5
  | .swap => 4
  | .calls (_ + 1) => 3
  | .prep | .ended => 0

/-- What has been handed over is never lost. -/
theorem handed_step {s s' : St} {l : Label Op} (h : step s l = some s') : handed s ≤ handed s' ∧ s.called ≤ s'.called := by
  unfold handed
  rcases step_cases h with ⟨-, h⟩ | ⟨-, h⟩ | ⟨k, d, -, hk, h⟩ | ⟨k, op, -, hk, rfl⟩ | ⟨-, hc, rfl⟩
  · unfold stepW at h
    (repeat' split at h) <;> cases h <;> simp only [St.wake] <;> (repeat' split) <;> simp_all [inC] <;> (try omega)
  · unfold stepC at h
    (repeat' split at h) <;> cases h <;> (try simp only) <;> (repeat' split) <;> simp_all [inC] <;> (try omega)
  · cases d <;> simp only [stepD, St.wake] at h <;> (repeat' split at h) <;> cases h <;> simp_all [inC]
  · exact ⟨Nat.le_refl _, Nat.le_refl _⟩
  · simp [hc, inC]

theorem call_down {s s' : St} {k : Nat} (u : Used s) (hk : k ≤ handed s) (hc : s.called < k) (h : stepC s = some s') :
    k ≤ s'.called ∨ 10 * (k - s'.called) + toCall s'.c < 10 * (k - s.called) + toCall s.c := by
  have hd := u.2.2.1
  unfold handed at hk
  unfold stepC at h
  split at h
  · rename_i hx
    cases h
    simp [hx, hd, toCall]
  · rename_i hx
    split at h <;> cases h
    simp [hx, toCall]
  · rename_i hx
    cases h
    rw [hx] at hk
    have : s.info ≠ 0 := by
      simp [inC] at hk
      omega
    simp [hx, this, toCall]
  · rename_i hx
    cases h
    rw [hx] at hk
    have : 0 < s.info := by
      simp [inC] at hk
      omega
    simp [hx, this, toCall]
  · rename_i hx
    have := u.1.prep hx
    rw [hx, this] at hk
    simp [inC] at hk
    omega
  · cases h
  · rename_i hx
    split at h <;> cases h
    simp [hx, toCall]
  · rename_i hx
    cases h
    rw [hx] at hk
    have : 0 < s.info := by
      simp [inC] at hk
      omega
    obtain ⟨m, hm⟩ : ∃ m, s.info = m + 1 := ⟨s.info - 1, by omega⟩
    simp [hx, hm, toCall]
  · rename_i hx
    cases h
    simp [hx, toCall]
  · rename_i m hx
    cases h
    right
    have : toCall (.calls m) ≤ 9 := by cases m <;> simp [toCall]
    simp only
    omega
  · cases h

/-- A step of somebody else does not take `_callback_thread` further from its call. -/
theorem call_same {s s' : St} {l : Label Op} (h : step s l = some s') (hl : l ≠ .run 1) :
    s'.called = s.called ∧ (s'.c = s.c ∨ (s.c = .asleep ∧ s'.c = .woken)) := by
  rcases step_cases h with ⟨-, h⟩ | ⟨rfl, -⟩ | ⟨k, d, -, hk, h⟩ | ⟨k, op, -, hk, rfl⟩ | ⟨-, hc, rfl⟩
  · unfold stepW at h
    (repeat' split at h) <;> cases h <;> simp only [St.wake] <;> (repeat' split) <;> simp_all
  · exact absurd rfl hl
  · cases d <;> simp only [stepD, St.wake] at h <;> (repeat' split at h) <;> cases h <;> simp_all
  · exact ⟨rfl, .inl rfl⟩
  · exact ⟨rfl, .inr ⟨hc, rfl⟩⟩

theorem handed_called {e : system.Execution} (hf : e.Fair) (k : Nat) (hI : ∀ n, Used (e.at_ n)) :
    e.LeadsTo (fun s => k ≤ handed s) (fun s => k ≤ s.called) := by
  refine e.progress hf Used _ _ (fun s => 10 * (k - s.called) + toCall s.c)
    (fun t s => (s.c = .asleep ∧ t = 0) ∨ (s.c ≠ .asleep ∧ t = 1)) hI
    (fun s l s' _ _ j h => Nat.le_trans j (handed_step h).1) ?_ ?_ ?_ ?_
  · intro s _ _ _
    by_cases hc : s.c = .asleep
    · exact ⟨0, .inl ⟨hc, rfl⟩⟩
    · exact ⟨1, .inr ⟨hc, rfl⟩⟩
  · rintro s t u j hq (⟨hc, rfl⟩ | ⟨hc, rfl⟩)
    · show (stepW s).isSome
      have hw : s.w = .notify := by
        rcases u.1.asleep hc with h | h
        · simp only [handed, hc, h, inC] at j
          exact absurd (by omega) hq
        · exact h
      simp [stepW, hw]
    · show (stepC s).isSome
      have hheld := u.1.held
      cases hx : s.c with
      | asleep => exact absurd hx hc
      | ended =>
        have := u.1.call hx
        rw [u.2.2.1] at this
        cases this
      | lock =>
        simp only [stepC, hx]
        rw [hx] at hheld
        rw [if_neg (fun hh => by simpa [Holds] using hheld.1 hh)]
        rfl
      | woken =>
        simp only [stepC, hx]
        rw [hx] at hheld
        rw [if_neg (fun hh => by simpa [Holds] using hheld.1 hh)]
        rfl
      | calls n => cases n <;> simp [stepC, hx]
      | _ => simp [stepC, hx]
  · rintro s t s' u j hq (⟨hc, rfl⟩ | ⟨hc, rfl⟩) h
    · right
      replace h : stepW s = some s' := h
      have hw : s.w = .notify := by
        rcases u.1.asleep hc with h | h
        · simp only [handed, hc, h, inC] at j
          exact absurd (by omega) hq
        · exact h
      simp only [stepW, hw, St.wake, hc, if_true] at h
      cases h
      simp [hc, toCall]
    · exact call_down u j (by omega) h
  · rintro s t l s' u u' j hq ht h hne
    by_cases hl : l = .run 1
    · subst hl
      rcases call_down u j (by omega) h with h1 | h1
      · exact .inl h1
      · exact .inr (.inl h1)
    · right
      obtain ⟨h1, h2 | ⟨h2, h3⟩⟩ := call_same h hl
      · right
        rw [h1, h2]
        exact ⟨Nat.le_refl _, ht⟩
      · left
        rw [h1, h2, h3]
        simp [toCall]

/-- The mutex is released again and again. -/
theorem released {e : system.Execution} (hf : e.Fair) (hI : ∀ n, Used (e.at_ n)) :
    e.LeadsTo (fun _ => True) (fun s => s.held = false) := by
  refine e.progress hf Used _ _ (fun s => toCall s.c + (if s.c = .pred then 7 else 0) + (if s.c = .look then 8 else 0) +
      (if s.c = .prep then 8 else 0))
    (fun t _ => t = 1) hI (fun _ _ _ _ _ _ _ => trivial) (fun _ _ _ _ => ⟨1, rfl⟩) ?_ ?_ ?_
  · rintro s t u - hq rfl
    show (stepC s).isSome
    rcases u.1.held.1 (by simpa using hq) with hc | hc | hc | hc <;> simp [stepC, hc]
  · rintro s t s' u - hq rfl h
    replace h : stepC s = some s' := h
    rcases u.1.held.1 (by simpa using hq) with hc | hc | hc | hc <;> simp only [stepC, hc] at h <;> cases h
    · right
      simp only [hc]
      split <;> simp [toCall]
    · right
      simp only [hc]
      split <;> simp [toCall]
    · exact .inl rfl
    · exact .inl rfl
  · rintro s t l s' u u' - hq rfl h hne
    right
    right
    refine ⟨?_, rfl⟩
    obtain ⟨-, h2 | ⟨h2, -⟩⟩ := call_same h hne
    · rw [h2]
      exact Nat.le_refl _
    · rcases u.1.held.1 (by simpa using hq) with hc | hc | hc | hc <;> rw [hc] at h2 <;> cases h2

/-- How far `_watch_thread` is from handing over changes. -/
def toPush : W → Nat
  | .notify => 4
  | .test => 3
  | .ask => 2
  | .wait => 1
  | _ => 0

theorem watch_down {s s' : St} {k : Nat} (u : Used s) (hh : handed s < k) (h : stepW s = some s') :
    k ≤ handed s' ∨ 5 * (k - handed s') + toPush s'.w < 5 * (k - handed s) + toPush s.w := by
  unfold stepW at h
  split at h
  · rename_i hw
    cases h
    simp [handed, hw, toPush]
  · rename_i hw
    rw [u.2.1] at h
    simp only [Bool.false_eq_true, if_false] at h
    split at h
    · cases h
      simp [handed, hw, toPush]
    · split at h <;> cases h
      simp [handed, hw, toPush]
  · rename_i n hw
    have hn := u.2.2.2 n hw
    split at h <;> cases h
    unfold handed at hh ⊢
    simp only [hw, toPush]
    omega
  · rename_i hw
    cases h
    unfold St.wake
    by_cases hc : s.c = .asleep
    · rw [if_pos hc]
      simp [handed, hw, hc, toPush, inC]
    · rw [if_neg hc]
      simp [handed, hw, toPush]
  · rename_i hw
    cases h
    simp [handed, hw, toPush, u.2.2.1]
  · rename_i hw
    have := u.1.watch u.2.1 (.inl hw)
    rw [u.2.2.1] at this
    cases this
  · cases h

theorem watch_same {s s' : St} {l : Label Op} (h : step s l = some s') (hl : l ≠ .run 0) :
    s'.w = s.w ∧ handed s' = handed s := by
  unfold handed
  rcases step_cases h with ⟨rfl, -⟩ | ⟨-, h⟩ | ⟨k, d, -, hk, h⟩ | ⟨k, op, -, hk, rfl⟩ | ⟨-, hc, rfl⟩
  · exact absurd rfl hl
  · unfold stepC at h
    (repeat' split at h) <;> cases h <;> (try simp only) <;> (repeat' split) <;> simp_all [inC] <;> (try omega)
  · cases d <;> simp only [stepD, St.wake] at h <;> (repeat' split at h) <;> cases h <;> simp_all [inC]
  · exact ⟨rfl, rfl⟩
  · simp [hc, inC]

theorem made_step {s s' : St} {l : Label Op} (h : step s l = some s') : s.made ≤ s'.made := by
  rcases step_cases h with ⟨-, h⟩ | ⟨-, h⟩ | ⟨k, d, -, hk, h⟩ | ⟨k, op, -, hk, rfl⟩ | ⟨-, hc, rfl⟩
  · unfold stepW at h
    (repeat' split at h) <;> cases h <;> simp only [St.wake] <;> (repeat' split) <;> exact Nat.le_refl _
  · unfold stepC at h
    (repeat' split at h) <;> cases h <;> exact Nat.le_refl _
  · cases d <;> simp only [stepD, St.wake] at h <;> (repeat' split at h) <;> cases h <;> simp
  · exact Nat.le_refl _
  · exact Nat.le_refl _

theorem made_handed {e : system.Execution} (hf : e.Fair) (k : Nat) (hI : ∀ n, Used (e.at_ n)) :
    e.LeadsTo (fun s => k ≤ s.made) (fun s => k ≤ handed s) := by
  have key : ∀ b n, k ≤ (e.at_ n).made → 5 * (k - handed (e.at_ n)) + toPush (e.at_ n).w ≤ b →
      ∃ m, n ≤ m ∧ k ≤ handed (e.at_ m) := by
    intro b
    induction b using Nat.strongRecOn with
    | _ b ih =>
      intro n hn hb
      by_cases hq : k ≤ handed (e.at_ n)
      · exact ⟨n, Nat.le_refl n, hq⟩
      -- as long as `_watch_thread` does not run, nothing changes for it
      have hstay : ∀ m, n ≤ m → (∀ j, n ≤ j → j < m → e.label j ≠ some (.run 0)) →
          (e.at_ m).w = (e.at_ n).w ∧ handed (e.at_ m) = handed (e.at_ n) ∧ k ≤ (e.at_ m).made := by
        intro m hm
        induction hm with
        | refl => exact fun _ => ⟨rfl, rfl, hn⟩
        | step hm ihm =>
          rename_i m
          intro hj
          obtain ⟨h1, h2, h3⟩ := ihm (fun j hj1 hj2 => hj j hj1 (by omega))
          rcases e.next m with ⟨-, hs⟩ | ⟨l, hl, hs⟩
          · rw [hs]
            exact ⟨h1, h2, h3⟩
          · have hne : l ≠ .run 0 := fun hx => hj m hm (Nat.lt_succ_self m) (hx ▸ hl)
            obtain ⟨a1, a2⟩ := watch_same hs hne
            exact ⟨a1.trans h1, a2.trans h2, Nat.le_trans h3 (made_step hs)⟩
      -- it runs
      have hrun : ∃ m, n ≤ m ∧ e.label m = some (.run 0) := by
        by_cases hex : ∃ m, n ≤ m ∧ e.label m = some (.run 0)
        · exact hex
        · have hno : ∀ j, n ≤ j → e.label j ≠ some (.run 0) := fun j hj h => hex ⟨j, hj, h⟩
          refine hf 0 n (fun m hm => ?_)
          obtain ⟨r, hr, hheld⟩ := released hf hI m trivial
          obtain ⟨h1, h2, h3⟩ := hstay r (by omega) (fun j hj _ => hno j hj)
          refine ⟨r, hr, ?_⟩
          show (stepW (e.at_ r)).isSome
          have u := hI r
          have hcount := u.1.count
          cases hx : (e.at_ r).w with
          | wait =>
            simp only [stepW, hx]
            rw [u.2.1]
            have : 0 < (e.at_ r).pending := by
              unfold handed at h2 hq
              rw [hx] at hcount
              simp only [inW] at hcount
              omega
            simp [this]
          | push n =>
            simp only [stepW, hx]
            rw [if_neg (by rw [hheld]; simp)]
            rfl
          | ended =>
            have := u.1.watch u.2.1 (.inr hx)
            rw [u.2.2.1] at this
            cases this
          | _ => simp [stepW, hx]
      -- the first time it runs
      have hfirst : ∃ m, n ≤ m ∧ e.label m = some (.run 0) ∧ ∀ j, n ≤ j → j < m → e.label j ≠ some (.run 0) := by
        obtain ⟨m, hm, hl⟩ := hrun
        induction m using Nat.strongRecOn with
        | _ m ihm =>
          by_cases hex : ∃ j, n ≤ j ∧ j < m ∧ e.label j = some (.run 0)
          · obtain ⟨j, h1, h2, h3⟩ := hex
            exact ihm j h2 h1 h3
          · exact ⟨m, hm, hl, fun j h1 h2 h3 => hex ⟨j, h1, h2, h3⟩⟩
      obtain ⟨m, hm, hl, hj⟩ := hfirst
      obtain ⟨h1, h2, h3⟩ := hstay m hm hj
      have hs := e.ok m
      rw [hl] at hs
      replace hs : step (e.at_ m) (.run 0) = some (e.at_ (m + 1)) := hs
      rcases watch_down (hI m) (k := k) (by omega) hs with hd | hd
      · exact ⟨m + 1, by omega, hd⟩
      · rw [h1, h2] at hd
        obtain ⟨r, hr, hrq⟩ := ih _ (by omega) (m + 1) (Nat.le_trans h3 (made_step hs)) (Nat.le_refl _)
        exact ⟨r, by omega, hrq⟩
  intro n hn
  exact key _ n hn (Nat.le_refl _)

/-- C195: as long as the object is not destroyed and the directory can be watched, every change is reported: after `k` changes there
will be `k` calls of the callback, however the condition variable and the other clients behave. -/
theorem C195_reported (n : Nat) (e : system.Execution) (hf : e.Fair) (h0 : e.at_ 0 = init n)
    (hu : ∀ m, (e.at_ m).broken = false ∧ (e.at_ m).destroyed = false) (m : Nat) :
    ∃ r, m ≤ r ∧ (e.at_ m).made ≤ (e.at_ r).called := by
  have hI : ∀ k, Used (e.at_ k) := by
    intro k
    induction k with
    | zero =>
      rw [h0]
      exact ⟨inv_init n, rfl, rfl, by simp [init]⟩
    | succ k ih =>
      rcases e.next k with ⟨-, hs⟩ | ⟨l, -, hs⟩
      · rw [hs]
        exact ih
      · exact ⟨inv_step ih.1 hs, (hu _).1, (hu _).2, used_push ih hs⟩
  obtain ⟨a, ha, hqa⟩ := made_handed hf (e.at_ m).made hI m (Nat.le_refl _)
  obtain ⟨r, hr, hqr⟩ := handed_called hf (e.at_ m).made hI a hqa
  exact ⟨r, by omega, hqr⟩

theorem ended_step {s s' : St} {l : Label Op} (hc : s.c = .ended) (h : step s l = some s') :
    s'.c = .ended ∧ s'.called = s.called := by
  rcases step_cases h with ⟨_, h⟩ | ⟨_, h⟩ | ⟨k, d, _, hk, h⟩ | ⟨k, op, _, hk, rfl⟩ | ⟨_, hc', rfl⟩
  · unfold stepW at h
    (repeat' split at h) <;> cases h <;> simp [St.wake, hc]
  · simp [stepC, hc] at h
  · cases d <;> simp only [stepD] at h <;> (repeat' split at h) <;> cases h <;> simp [St.wake, hc]
  · exact ⟨hc, rfl⟩
  · rw [hc] at hc'
    cases hc'

/-- C195: once the destructor has returned the callback is not called any more, whatever happens to the file. -/
theorem C195_quiet (n : Nat) (e : system.Execution) (h0 : e.at_ 0 = init n) (i m : Nat)
    (hd : (e.at_ m).clients[i]? = some .done) (k : Nat) (hk : m ≤ k) : (e.at_ k).called = (e.at_ m).called := by
  have hi : Inv (e.at_ m) :=
    e.stable Inv (fun _ _ _ hi h => inv_step hi h) 0 (by rw [h0]; exact inv_init n) m (Nat.zero_le m)
  have := e.stable (fun s : St => s.c = .ended ∧ s.called = (e.at_ m).called)
    (fun s l s' hs h => ⟨(ended_step hs.1 h).1, (ended_step hs.1 h).2.trans hs.2⟩) m ⟨(hi.done i hd).2, rfl⟩ k hk
  exact this.2

/-! ### The destructor returns -/

/-- How far the threads are from their ends. -/
def rw_ : W → Nat
  | .ask => 6
  | .wait => 5
  | .push _ => 4
  | .notify => 3
  | .test => 2
  | .cancel => 1
  | .ended => 0

def rc_ : C → Nat
  | .prep => 7
  | .asleep => 6
  | .woken | .lock => 5
  | .look | .pred => 4
  | .swap => 3
  | .calls _ => 2
  | .test => 1
  | .ended => 0

def rd_ : Option D → Nat
  | some .setEvent => 4
  | some .notify => 3
  | some .joinW => 2
  | some .joinC => 1
  | _ => 0

/-- Client `i` is in the destructor and has set the flag, and everybody will be woken; `N` says that the directory can be watched. -/
structure Late (N : Prop) (i : Nat) (s : St) : Prop where
  destroyed : s.destroyed = true
  client : s.clients[i]? = some .setEvent ∨ s.clients[i]? = some .notify ∨ s.clients[i]? = some .joinW ∨
    s.clients[i]? = some .joinC ∨ s.clients[i]? = some .done
  closed : s.clients[i]? ≠ some .setEvent → s.closed = true
  prep : s.c = .prep → 4 ≤ rw_ s.w ∧ N
  asleep : s.c = .asleep → (3 ≤ rw_ s.w ∧ N) ∨ s.clients[i]? = some .setEvent ∨ s.clients[i]? = some .notify

/-- A step of somebody else. -/
structure Other (i : Nat) (s s' : St) : Prop where
  w : s'.w = s.w
  c : s'.c = s.c ∨ (s.c = .asleep ∧ s'.c = .woken)
  closed : s.closed = true → s'.closed = true
  destroyed : s'.destroyed = s.destroyed
  held : s'.held = s.held
  info : s'.info = s.info
  client : s'.clients[i]? = s.clients[i]?

theorem late_cases {N : Prop} {i : Nat} {s s' : St} {l : Label Op} (j : Late N i s) (h : step s l = some s') :
    (l = .run 0 ∧ stepW s = some s') ∨ (l = .run 1 ∧ stepC s = some s') ∨
    (∃ d, l = .run (i + 2) ∧ s.clients[i]? = some d ∧ stepD s i d = some s') ∨
    (l ≠ .run 0 ∧ l ≠ .run 1 ∧ l ≠ .run (i + 2) ∧ Other i s s') := by
  rcases step_cases h with h | h | ⟨k, d, rfl, hk, h⟩ | ⟨k, op, rfl, hk, rfl⟩ | ⟨rfl, hc, rfl⟩
  · exact .inl h
  · exact .inr (.inl h)
  · by_cases hki : k = i
    · subst hki
      exact .inr (.inr (.inl ⟨d, rfl, hk, h⟩))
    · refine .inr (.inr (.inr ⟨by simp, by simp, by simp [hki], ?_⟩))
      have hget (x : D) : (s.clients.set k x)[i]? = s.clients[i]? := List.getElem?_set_ne hki
      cases d with
      | idle => cases h
      | flag => simp [stepD, j.destroyed] at h
      | setEvent =>
        cases h
        exact ⟨rfl, .inl rfl, fun _ => rfl, rfl, rfl, rfl, hget _⟩
      | notify =>
        cases h
        unfold St.wake
        by_cases hc : s.c = .asleep
        · rw [if_pos hc]
          exact ⟨rfl, .inr ⟨hc, rfl⟩, _root_.id, rfl, rfl, rfl, hget _⟩
        · rw [if_neg hc]
          exact ⟨rfl, .inl rfl, _root_.id, rfl, rfl, rfl, hget _⟩
      | joinW =>
        simp only [stepD] at h
        split at h <;> cases h
        exact ⟨rfl, .inl rfl, _root_.id, rfl, rfl, rfl, hget _⟩
      | joinC =>
        simp only [stepD] at h
        split at h <;> cases h
        exact ⟨rfl, .inl rfl, _root_.id, rfl, rfl, rfl, hget _⟩
      | done => cases h
      | change =>
        cases h
        exact ⟨rfl, .inl rfl, _root_.id, rfl, rfl, rfl, hget _⟩
      | fail =>
        cases h
        exact ⟨rfl, .inl rfl, _root_.id, rfl, rfl, rfl, hget _⟩
  · have hki : k ≠ i := by
      rintro rfl
      have := j.client
      rw [hk] at this
      simp at this
    exact .inr (.inr (.inr ⟨by simp, by simp, by simp, rfl, .inl rfl, _root_.id, rfl, rfl, rfl, List.getElem?_set_ne hki⟩))
  · exact .inr (.inr (.inr ⟨by simp, by simp, by simp, rfl, .inr ⟨hc, rfl⟩, _root_.id, rfl, rfl, rfl, rfl⟩))

/-- A step of `_watch_thread` when the flag is set. -/
theorem watch_step {s s' : St} (hd : s.destroyed = true) (h : stepW s = some s') :
    rw_ s'.w < rw_ s.w ∧ (s'.c = s.c ∨ (s.c = .asleep ∧ s'.c = .woken)) ∧ (s.w = .notify → s'.c ≠ .asleep) ∧
      s'.closed = s.closed ∧ s'.destroyed = true ∧ s'.held = s.held ∧ s'.clients = s.clients ∧
      (∀ n, s.w = .push n → s.held = false) ∧ (s.broken = false → rw_ s'.w + 1 = rw_ s.w) := by
  unfold stepW at h
  split at h
  · rename_i hw
    cases h
    simp [hw, rw_, hd]
  · rename_i hw
    split at h
    · rename_i hb
      cases h
      simp [hw, rw_, hd, hb]
    · split at h
      · cases h
        simp [hw, rw_, hd]
      · split at h <;> cases h
        simp [hw, rw_, hd]
  · rename_i n hw
    split at h <;> cases h
    rename_i hh
    simp [hw, rw_, hd] at hh ⊢
    exact hh
  · rename_i hw
    cases h
    unfold St.wake
    by_cases hc : s.c = .asleep
    · rw [if_pos hc]
      simp [hw, rw_, hd, hc]
    · rw [if_neg hc]
      simp [hw, rw_, hd, hc]
  · rename_i hw
    cases h
    simp [hw, rw_, hd]
  · rename_i hw
    cases h
    simp [hw, rw_, hd]
  · cases h

/-- A step of `_callback_thread` when the flag is set. -/
theorem call_step {s s' : St} (hd : s.destroyed = true) (h : stepC s = some s') :
    (rc_ s'.c < rc_ s.c ∨ ∃ n, s.c = .calls (n + 1) ∧ s'.c = .calls n ∧ s'.held = s.held ∧ s'.info = s.info) ∧
      (s'.c = .asleep → s.c = .prep) ∧ s'.c ≠ .prep ∧
      (s'.info = s.info ∨ (s.c = .swap ∧ s'.c = .calls s.info)) ∧
      s'.w = s.w ∧ s'.closed = s.closed ∧ s'.destroyed = true ∧ s'.clients = s.clients := by
  unfold stepC at h
  split at h
  · rename_i hc
    cases h
    simp [hc, rc_, hd]
  · rename_i hc
    split at h <;> cases h
    simp [hc, rc_, hd]
  · rename_i hc
    cases h
    simp [hc, rc_, hd]
  · rename_i hc
    cases h
    simp [hc, rc_, hd]
  · rename_i hc
    cases h
    simp [hc, rc_, hd]
  · cases h
  · rename_i hc
    split at h <;> cases h
    simp [hc, rc_, hd]
  · rename_i hc
    cases h
    simp [hc, rc_, hd]
  · rename_i hc
    cases h
    simp [hc, rc_, hd]
  · rename_i hc
    cases h
    simp [hc, rc_, hd]
  · cases h

/-- A step of the destructor after the flag is set. -/
theorem client_step {N : Prop} {i : Nat} {s s' : St} {d : D} (j : Late N i s) (hk : s.clients[i]? = some d) (h : stepD s i d = some s') :
    rd_ s'.clients[i]? < rd_ s.clients[i]? ∧ (s'.c = s.c ∨ (s.c = .asleep ∧ s'.c = .woken)) ∧
      (d = .notify → s'.c ≠ .asleep) ∧
      (s'.clients[i]? = some .notify ∨ s'.clients[i]? = some .joinW ∨ s'.clients[i]? = some .joinC ∨ s'.clients[i]? = some .done) ∧
      (d = .setEvent → s'.clients[i]? = some .notify) ∧
      s'.closed = true ∧ s'.destroyed = true ∧ s'.held = s.held ∧ s'.info = s.info ∧ s'.w = s.w := by
  have hget (x : D) : (s.clients.set i x)[i]? = some x := by
    rw [List.getElem?_set_self (List.getElem?_eq_some_iff.1 hk).1]
  have hcl := j.closed
  have hd := j.destroyed
  have hcli := j.client
  rw [hk] at hcl hcli
  cases d with
  | idle => cases h
  | flag => simp at hcli
  | setEvent =>
    cases h
    simp [hget, hk, rd_, hd]
  | notify =>
    have := hcl (by simp)
    cases h
    unfold St.wake
    by_cases hc : s.c = .asleep
    · rw [if_pos hc]
      simp [hget, hk, rd_, hd, hc, this]
    · rw [if_neg hc]
      simp [hget, hk, rd_, hd, hc, this]
  | joinW =>
    have := hcl (by simp)
    simp only [stepD] at h
    split at h <;> cases h
    simp [hget, hk, rd_, hd, this]
  | joinC =>
    have := hcl (by simp)
    simp only [stepD] at h
    split at h <;> cases h
    simp [hget, hk, rd_, hd, this]
  | done => cases h
  | change => simp at hcli
  | fail => simp at hcli

theorem late_step {N : Prop} {i : Nat} {s s' : St} {l : Label Op} (v : Inv s) (hb : N → s.broken = false) (j : Late N i s) (h : step s l = some s') : Late N i s' := by
  rcases late_cases j h with ⟨-, h⟩ | ⟨-, h⟩ | ⟨d, -, hk, h⟩ | ⟨-, -, -, o⟩
  · obtain ⟨hr, hc, hn, hcl, hd, hh, hcs, hp, hb'⟩ := watch_step j.destroyed h
    refine ⟨hd, by rw [hcs]; exact j.client, by rw [hcs, hcl]; exact j.closed, ?_, ?_⟩
    · intro hx
      rcases hc with hc | ⟨-, hc⟩
      · rw [hc] at hx
        obtain ⟨h4, hN⟩ := j.prep hx
        have h1 := hb' (hb hN)
        refine ⟨?_, hN⟩
        have hheld := v.held.2 (.inr (.inr (.inl hx)))
        cases hw : s.w with
        | push n =>
          rw [hp n hw] at hheld
          cases hheld
        | _ =>
          rw [hw] at h4 h1
          revert h4 h1
          generalize rw_ s'.w = z
          simp only [rw_]
          omega
      · rw [hc] at hx
        cases hx
    · intro hx
      rcases hc with hc | ⟨-, hc⟩
      · rw [hcs]
        rcases j.asleep (hc ▸ hx) with ⟨h3, hN⟩ | h3
        · have h1 := hb' (hb hN)
          refine .inl ⟨?_, hN⟩
          cases hw : s.w with
          | notify => exact absurd hx (hn hw)
          | _ =>
          rw [hw] at h3 h1
          revert h3 h1
          generalize rw_ s'.w = z
          simp only [rw_]
          omega
        · exact .inr h3
      · rw [hc] at hx
        cases hx
  · obtain ⟨hr, ha, hp, hi, hw, hcl, hd, hcs⟩ := call_step j.destroyed h
    refine ⟨hd, by rw [hcs]; exact j.client, by rw [hcs, hcl]; exact j.closed, fun hx => absurd hx hp, ?_⟩
    intro hx
    rw [hw]
    obtain ⟨h4, hN⟩ := j.prep (ha hx)
    exact .inl ⟨by omega, hN⟩
  · obtain ⟨hr, hc, hn, hcl, hse, hclo, hd, hh, hi, hw⟩ := client_step j hk h
    refine ⟨hd, .inr hcl, fun _ => hclo, ?_, ?_⟩
    · intro hx
      rw [hw]
      rcases hc with hc | ⟨-, hc⟩
      · exact j.prep (hc ▸ hx)
      · rw [hc] at hx
        cases hx
    · intro hx
      rw [hw]
      rcases hc with hc | ⟨-, hc⟩
      · rcases j.asleep (hc ▸ hx) with h1 | h1 | h1
        · exact .inl h1
        · rw [hk] at h1
          cases h1
          exact .inr (.inr (hse rfl))
        · rw [hk] at h1
          cases h1
          exact absurd hx (hn rfl)
      · rw [hc] at hx
        cases hx
  · refine ⟨o.destroyed.trans j.destroyed, by rw [o.client]; exact j.client, ?_, ?_, ?_⟩
    · intro hx
      rw [o.client] at hx
      exact o.closed (j.closed hx)
    · intro hx
      rw [o.w]
      rcases o.c with hc | ⟨-, hc⟩
      · exact j.prep (hc ▸ hx)
      · rw [hc] at hx
        cases hx
    · intro hx
      rw [o.w, o.client]
      rcases o.c with hc | ⟨-, hc⟩
      · exact j.asleep (hc ▸ hx)
      · rw [hc] at hx
        cases hx

/-- The invariant of executions in which the directory can be watched if `N`. -/
def Ok (N : Prop) (s : St) : Prop := Inv s ∧ (N → s.broken = false)

/-- `_watch_thread` ends. -/
theorem watch_ends {N : Prop} {e : system.Execution} (hf : e.Fair) (i : Nat) (hI : ∀ n, Ok N (e.at_ n)) :
    e.LeadsTo (Late N i) (fun s => s.w = .ended) := by
  refine e.progress hf (Ok N) (Late N i) _ (fun s => rw_ s.w + rc_ s.c + rd_ s.clients[i]?)
    (fun t s => (s.clients[i]? = some .setEvent ∧ t = i + 2) ∨
      (s.clients[i]? ≠ some .setEvent ∧ ((∃ n, s.w = .push n) ∧ s.held = true) ∧ t = 1) ∨
      (s.clients[i]? ≠ some .setEvent ∧ ¬ ((∃ n, s.w = .push n) ∧ s.held = true) ∧ t = 0)) hI
    (fun s l s' v _ j h => late_step v.1 v.2 j h) ?_ ?_ ?_ ?_
  · intro s v j _
    by_cases h1 : s.clients[i]? = some .setEvent
    · exact ⟨i + 2, .inl ⟨h1, rfl⟩⟩
    · by_cases h2 : (∃ n, s.w = .push n) ∧ s.held = true
      · exact ⟨1, .inr (.inl ⟨h1, h2, rfl⟩)⟩
      · exact ⟨0, .inr (.inr ⟨h1, h2, rfl⟩)⟩
  · rintro s t v j hq (⟨h1, rfl⟩ | ⟨h1, h2, rfl⟩ | ⟨h1, h2, rfl⟩)
    · show (s.clients[i]?.bind (stepD s i)).isSome
      rw [h1]
      rfl
    · show (stepC s).isSome
      rcases v.1.held.1 h2.2 with hc | hc | hc | hc <;> simp [stepC, hc]
    · show (stepW s).isSome
      have hcl := j.closed h1
      cases hw : s.w with
      | wait =>
        simp only [stepW, hw]
        by_cases hb : s.broken = true
        · rw [if_pos hb]
          rfl
        · rw [if_neg hb]
          by_cases hp : 0 < s.pending
          · rw [if_pos hp]
            rfl
          · rw [if_neg hp, if_pos hcl]
            rfl
      | push n =>
        simp only [stepW, hw]
        rw [if_neg (fun hh => h2 ⟨⟨n, hw⟩, hh⟩)]
        rfl
      | ended => exact absurd hw hq
      | _ => simp [stepW, hw]
  · rintro s t s' v j hq ht h
    right
    rcases late_cases j h with ⟨hl, h⟩ | ⟨hl, h⟩ | ⟨d, hl, hk, h⟩ | ⟨h0, h1, h2, o⟩
    · obtain ⟨hr, hc, -, -, -, -, hcs, -, -⟩ := watch_step j.destroyed h
      have : rc_ s'.c ≤ rc_ s.c := by
        rcases hc with hc | ⟨hc, hc'⟩
        · rw [hc]
          exact Nat.le_refl _
        · rw [hc, hc']
          decide
      simp only [hcs]
      omega
    · obtain ⟨hr, -, -, -, hw, -, -, hcs⟩ := call_step j.destroyed h
      have : rc_ s'.c < rc_ s.c := by
        rcases hr with hr | ⟨n, hn, -⟩
        · exact hr
        · exfalso
          cases hl
          rcases ht with ⟨-, ht⟩ | ⟨-, ht, -⟩ | ⟨-, -, ht⟩
          · omega
          · have := v.1.held.1 ht.2
            simp [hn, Holds] at this
          · cases ht
      simp only [hcs, hw]
      omega
    · obtain ⟨hr, hc, -, -, -, -, -, -, -, hw⟩ := client_step j hk h
      have : rc_ s'.c ≤ rc_ s.c := by
        rcases hc with hc | ⟨hc, hc'⟩
        · rw [hc]
          exact Nat.le_refl _
        · rw [hc, hc']
          decide
      simp only [hw]
      omega
    · rcases ht with ⟨-, rfl⟩ | ⟨-, -, rfl⟩ | ⟨-, -, rfl⟩
      · exact absurd rfl h2
      · exact absurd rfl h1
      · exact absurd rfl h0
  · rintro s t l s' v v' j hq ht h hne
    right
    rcases late_cases j h with ⟨hl, h⟩ | ⟨hl, h⟩ | ⟨d, hl, hk, h⟩ | ⟨h0, h1, h2, o⟩
    · obtain ⟨hr, hc, -, -, -, -, hcs, -, -⟩ := watch_step j.destroyed h
      have : rc_ s'.c ≤ rc_ s.c := by
        rcases hc with hc | ⟨hc, hc'⟩
        · rw [hc]
          exact Nat.le_refl _
        · rw [hc, hc']
          decide
      left
      simp only [hcs]
      omega
    · obtain ⟨hr, -, -, -, hw, -, -, hcs⟩ := call_step j.destroyed h
      rcases hr with hr | ⟨n, hn, hn', hh, -⟩
      · left
        simp only [hcs, hw]
        omega
      · right
        simp only [hcs, hw, hh]
        refine ⟨?_, ht⟩
        rw [hn, hn']
        exact Nat.le_refl _
    · obtain ⟨hr, hc, -, -, -, -, -, -, -, hw⟩ := client_step j hk h
      have : rc_ s'.c ≤ rc_ s.c := by
        rcases hc with hc | ⟨hc, hc'⟩
        · rw [hc]
          exact Nat.le_refl _
        · rw [hc, hc']
          decide
      left
      simp only [hw]
      omega
    · right
      simp only [o.w, o.client, o.held]
      refine ⟨?_, ht⟩
      rcases o.c with hc | ⟨hc, hc'⟩
      · rw [hc]
        exact Nat.le_refl _
      · rw [hc, hc']
        simp only [rc_]
        omega

/-- How far `_callback_thread` is from its end when `_watch_thread` has ended. -/
def rest (s : St) : Nat :=
  match s.c with
  | .prep => s.info + 8
  | .asleep => s.info + 7
  | .woken | .lock => s.info + 6
  | .look | .pred => s.info + 5
  | .swap => s.info + 4
  | .calls n => n + 2
  | .test => 1
  | .ended => 0

theorem rest_step {s s' : St} (hd : s.destroyed = true) (h : stepC s = some s') : rest s' < rest s := by
  unfold stepC at h
  split at h
  · rename_i hc
    cases h
    simp [rest, hc, hd]
  · rename_i hc
    split at h <;> cases h
    simp [rest, hc]
  · rename_i hc
    cases h
    simp [rest, hc, hd]
  · rename_i hc
    cases h
    simp [rest, hc, hd]
  · rename_i hc
    cases h
    simp [rest, hc]
  · cases h
  · rename_i hc
    split at h <;> cases h
    simp [rest, hc]
  · rename_i hc
    cases h
    simp [rest, hc]
  · rename_i hc
    cases h
    simp [rest, hc]
  · rename_i hc
    cases h
    simp [rest, hc]
  · cases h

theorem rest_wake {s s' : St} (hc : s'.c = s.c ∨ (s.c = .asleep ∧ s'.c = .woken)) (hi : s'.info = s.info) : rest s' ≤ rest s := by
  rcases hc with hc | ⟨hc, hc'⟩
  · unfold rest
    rw [hc, hi]
    exact Nat.le_refl _
  · unfold rest
    rw [hc, hc', hi]
    simp only
    omega

/-- `Late`, and `_watch_thread` has ended. -/
def Later (N : Prop) (i : Nat) (s : St) : Prop := Late N i s ∧ s.w = .ended

theorem later_step {N : Prop} {i : Nat} {s s' : St} {l : Label Op} (v : Ok N s) (j : Later N i s) (h : step s l = some s') : Later N i s' := by
  refine ⟨late_step v.1 v.2 j.1 h, ?_⟩
  rcases late_cases j.1 h with ⟨-, h⟩ | ⟨-, h⟩ | ⟨d, -, hk, h⟩ | ⟨-, -, -, o⟩
  · simp [stepW, j.2] at h
  · exact (call_step j.1.destroyed h).2.2.2.2.1.trans j.2
  · exact (client_step j.1 hk h).2.2.2.2.2.2.2.2.2.trans j.2
  · exact o.w.trans j.2

/-- `_callback_thread` ends. -/
theorem call_ends {N : Prop} {e : system.Execution} (hf : e.Fair) (i : Nat) (hI : ∀ n, Ok N (e.at_ n)) :
    e.LeadsTo (Later N i) (fun s => s.c = .ended) := by
  refine e.progress hf (Ok N) (Later N i) _ (fun s => rest s + rd_ s.clients[i]?)
    (fun t s => ((s.clients[i]? = some .setEvent ∨ s.clients[i]? = some .notify) ∧ t = i + 2) ∨
      (¬ (s.clients[i]? = some .setEvent ∨ s.clients[i]? = some .notify) ∧ t = 1)) hI
    (fun s l s' v _ j h => later_step v j h) ?_ ?_ ?_ ?_
  · intro s v j _
    by_cases h1 : s.clients[i]? = some .setEvent ∨ s.clients[i]? = some .notify
    · exact ⟨i + 2, .inl ⟨h1, rfl⟩⟩
    · exact ⟨1, .inr ⟨h1, rfl⟩⟩
  · rintro s t v j hq (⟨h1, rfl⟩ | ⟨h1, rfl⟩)
    · show (s.clients[i]?.bind (stepD s i)).isSome
      rcases h1 with h1 | h1 <;> rw [h1] <;> rfl
    · show (stepC s).isSome
      have hheld := v.1.held
      cases hc : s.c with
      | asleep =>
        rcases j.1.asleep hc with h3 | h3
        · rw [j.2] at h3
          simp [rw_] at h3
        · exact absurd h3 h1
      | ended => exact absurd hc hq
      | lock =>
        simp only [stepC, hc]
        rw [hc] at hheld
        rw [if_neg (fun hh => by simpa [Holds] using hheld.1 hh)]
        rfl
      | woken =>
        simp only [stepC, hc]
        rw [hc] at hheld
        rw [if_neg (fun hh => by simpa [Holds] using hheld.1 hh)]
        rfl
      | calls n => cases n <;> simp [stepC, hc]
      | _ => simp [stepC, hc]
  · rintro s t s' v j hq ht h
    right
    rcases late_cases j.1 h with ⟨-, h⟩ | ⟨-, h⟩ | ⟨d, -, hk, h⟩ | ⟨h0, h1, h2, o⟩
    · simp [stepW, j.2] at h
    · have h1 := rest_step j.1.destroyed h
      have hcs := (call_step j.1.destroyed h).2.2.2.2.2.2.2
      simp only [hcs]
      omega
    · obtain ⟨hr, hc, -, -, -, -, -, -, hi, hw⟩ := client_step j.1 hk h
      have := rest_wake hc hi
      omega
    · rcases ht with ⟨-, rfl⟩ | ⟨-, rfl⟩
      · exact absurd rfl h2
      · exact absurd rfl h1
  · rintro s t l s' v v' j hq ht h hne
    right
    rcases late_cases j.1 h with ⟨-, h⟩ | ⟨-, h⟩ | ⟨d, -, hk, h⟩ | ⟨h0, h1, h2, o⟩
    · simp [stepW, j.2] at h
    · left
      have h1 := rest_step j.1.destroyed h
      have hcs := (call_step j.1.destroyed h).2.2.2.2.2.2.2
      simp only [hcs]
      omega
    · left
      obtain ⟨hr, hc, -, -, -, -, -, -, hi, hw⟩ := client_step j.1 hk h
      have := rest_wake hc hi
      omega
    · right
      have := rest_wake o.c o.info
      simp only [o.client]
      exact ⟨by omega, ht⟩

/-- Both threads have ended. -/
def Last (N : Prop) (i : Nat) (s : St) : Prop := Later N i s ∧ s.c = .ended

theorem destructor_ends {N : Prop} {e : system.Execution} (hf : e.Fair) (i : Nat) (hI : ∀ n, Ok N (e.at_ n)) :
    e.LeadsTo (Last N i) (fun s => s.clients[i]? = some .done) := by
  refine e.progress hf (Ok N) (Last N i) _ (fun s => rd_ s.clients[i]?) (fun t _ => t = i + 2) hI
    (fun s l s' v _ j h => ⟨later_step v j.1 h, (ended_step j.2 h).1⟩) ?_ ?_ ?_ ?_
  · exact fun s _ _ _ => ⟨i + 2, rfl⟩
  · rintro s t v j hq rfl
    show (s.clients[i]?.bind (stepD s i)).isSome
    rcases j.1.1.client with h | h | h | h | h
    · rw [h]
      rfl
    · rw [h]
      rfl
    · rw [h]
      simp [stepD, j.1.2]
    · rw [h]
      simp [stepD, j.2]
    · exact absurd h hq
  · rintro s t s' v j hq rfl h
    right
    rcases late_cases (l := .run (i + 2)) j.1.1 h with ⟨hl, h⟩ | ⟨hl, h⟩ | ⟨d, -, hk, h⟩ | ⟨h0, h1, h2, o⟩
    · cases hl
    · cases hl
    · exact (client_step j.1.1 hk h).1
    · exact absurd rfl h2
  · rintro s t l s' v v' j hq rfl h hne
    right
    right
    refine ⟨?_, rfl⟩
    rcases late_cases j.1.1 h with ⟨-, h⟩ | ⟨-, h⟩ | ⟨d, rfl, hk, h⟩ | ⟨h0, h1, h2, o⟩
    · simp [stepW, j.1.2] at h
    · simp [stepC, j.2] at h
    · exact absurd rfl hne
    · simp only [o.client]
      exact Nat.le_refl _

/-- C195, partial: the destructor returns, even if the directory can no longer be watched, provided that `_callback_thread` is not
just between finding nothing to do and waiting when the destructor sets `_destory`; and if it is, provided that `_watch_thread` is not
between handing over changes and asking for more, and the directory can be watched. -/
theorem C195_returns_partial (n : Nat) (e : system.Execution) (hf : e.Fair) (h0 : e.at_ 0 = init n)
    (i m : Nat) (hi : (e.at_ m).clients[i]? = some .flag) (hl : e.label m = some (.run (i + 2)))
    (hrace : (e.at_ m).c ≠ .prep ∨
      (((e.at_ m).w = .ask ∨ (e.at_ m).w = .wait ∨ ∃ k, (e.at_ m).w = .push k) ∧ ∀ k, (e.at_ k).broken = false)) :
    ∃ k, m ≤ k ∧ (e.at_ k).clients[i]? = some .done := by
  have hI : ∀ k, Ok (∀ k, (e.at_ k).broken = false) (e.at_ k) := fun k =>
    ⟨e.stable Inv (fun _ _ _ hi h => inv_step hi h) 0 (by rw [h0]; exact inv_init n) k (Nat.zero_le k), fun h => h k⟩
  have hlate : Late (∀ k, (e.at_ k).broken = false) i (e.at_ (m + 1)) := by
    have hs := e.ok m
    rw [hl] at hs
    replace hs : (e.at_ m).clients[i]?.bind (stepD (e.at_ m) i) = some (e.at_ (m + 1)) := hs
    rw [hi] at hs
    simp only [Option.bind_some, stepD] at hs
    split at hs
    · cases hs
    · rename_i hd
      have hget : ((e.at_ m).clients.set i .setEvent)[i]? = some .setEvent := by
        rw [List.getElem?_set_self (List.getElem?_eq_some_iff.1 hi).1]
      have hs := Option.some.inj hs
      rw [← hs]
      refine ⟨rfl, .inl hget, fun h => absurd hget h, ?_, fun _ => .inr (.inl hget)⟩
      intro hc
      rcases hrace with hr | ⟨hr, hb⟩
      · exact absurd hc hr
      · refine ⟨?_, hb⟩
        show 4 ≤ rw_ (e.at_ m).w
        rcases hr with hr | hr | ⟨k, hr⟩ <;> rw [hr] <;> simp [rw_]
  obtain ⟨a, ha, hwa⟩ := watch_ends hf i hI (m + 1) hlate
  have hst : ∀ k, m + 1 ≤ k → Late (∀ k, (e.at_ k).broken = false) i (e.at_ k) := by
    intro k hk
    induction hk with
    | refl => exact hlate
    | step _ ih =>
      rename_i k _
      rcases e.next k with ⟨-, h2⟩ | ⟨l, -, h2⟩
      · rw [h2]
        exact ih
      · exact late_step (hI k).1 (hI k).2 ih h2
  obtain ⟨b, hab, hcb⟩ := call_ends hf i hI a ⟨hst a ha, hwa⟩
  have hst' : ∀ k, a ≤ k → Later (∀ k, (e.at_ k).broken = false) i (e.at_ k) := by
    intro k hk
    induction hk with
    | refl => exact ⟨hst a ha, hwa⟩
    | step _ ih =>
      rename_i k _
      rcases e.next k with ⟨-, h2⟩ | ⟨l, -, h2⟩
      · rw [h2]
        exact ih
      · exact later_step (hI k) ih h2
  obtain ⟨k, hbk, hk⟩ := destructor_ends hf i hI b ⟨hst' b hab, hcb⟩
  exact ⟨k, by omega, hk⟩

/-! ### Where the destructor does not return, and that the hypotheses are met -/

theorem some_of {α : Type} {o : Option α} (q : α → Bool) (h : o.any q = true) : ∃ s, o = some s ∧ q s = true := by
  cases o with
  | none => cases h
  | some s => exact ⟨s, rfl, h⟩

/-- A state with two clients in which no thread can go on. -/
def stuck (s : St) : Bool :=
  decide (s.clients.length = 2) && (List.range 4).all fun i => (step s (.run i)).isNone

theorem stuck_run {s : St} (h : stuck s = true) (i : Nat) : system.step s (.run i) = none := by
  unfold stuck at h
  rw [Bool.and_eq_true] at h
  by_cases hi : i < 4
  · exact Option.isNone_iff_eq_none.1 (List.all_eq_true.1 h.2 i (List.mem_range.2 hi))
  · obtain ⟨k, rfl⟩ : ∃ k, i = k + 2 := ⟨i - 2, by omega⟩
    show s.clients[k]?.bind (stepD s k) = none
    rw [List.getElem?_eq_none (by rw [of_decide_eq_true h.1]; omega)]
    rfl

/-- A run that ends in such a state, as a fair execution. -/
theorem stuck_fair (ls : List (Label Op)) (q : St → Bool)
    (h : (system.exec (init 2) ls).any (fun s : St => stuck s && q s) = true) :
    ∃ e : system.Execution, e.Fair ∧ e.at_ 0 = init 2 ∧ (∀ n, e.label n = ls[n]?) ∧
      (∀ n, ∃ s, system.exec (init 2) (ls.take n) = some s ∧ e.at_ n = s) ∧ ∀ m, ls.length ≤ m → q (e.at_ m) = true := by
  obtain ⟨s, hs, hq⟩ := some_of _ h
  rw [Bool.and_eq_true] at hq
  obtain ⟨e, hf, h0, hat, hlab⟩ := system.finite_fair' (init 2) s ls hs (stuck_run hq.1)
  refine ⟨e, hf, h0, hlab, hat, ?_⟩
  intro m hm
  obtain ⟨t, ht, he⟩ := hat m
  rw [List.take_of_length_le hm, hs] at ht
  cases ht
  rw [he]
  exact hq.2

/-- The steps of a run do not break the directory. -/
def fine (ls : List (Label Op)) : Bool :=
  (List.range (ls.length + 1)).all fun n => (system.exec (init 2) (ls.take n)).any fun s : St => !s.broken

theorem fine_all {ls : List (Label Op)} (h : fine ls = true) {e : system.Execution}
    (hat : ∀ n, ∃ s, system.exec (init 2) (ls.take n) = some s ∧ e.at_ n = s) (m : Nat) : (e.at_ m).broken = false := by
  obtain ⟨s, hs, he⟩ := hat m
  have hm : ls.take m = ls.take (min m ls.length) := by
    by_cases h' : m ≤ ls.length
    · rw [Nat.min_eq_left h']
    · rw [Nat.min_eq_right (by omega), List.take_of_length_le (by omega), List.take_of_length_le (Nat.le_refl _)]
  rw [hm] at hs
  have := List.all_eq_true.1 h (min m ls.length) (List.mem_range.2 (by omega))
  rw [hs] at this
  rw [he]
  simpa using this

theorem done_step {i : Nat} {s s' : St} {l : Label Op} (hd : s.clients[i]? = some .done) (h : step s l = some s') :
    s'.clients[i]? = some .done := by
  rcases step_cases h with ⟨-, h⟩ | ⟨-, h⟩ | ⟨k, d, -, hk, h⟩ | ⟨k, op, -, hk, rfl⟩ | ⟨-, -, rfl⟩
  · unfold stepW at h
    (repeat' split at h) <;> cases h <;> simp only [St.wake] <;> (repeat' split) <;> exact hd
  · unfold stepC at h
    (repeat' split at h) <;> cases h <;> exact hd
  · by_cases hk1 : k = i
    · subst hk1
      rw [hd] at hk
      cases hk
      cases h
    · have hget (x : D) : (s.clients.set k x)[i]? = some .done := (List.getElem?_set_ne hk1).trans hd
      cases d <;> simp only [stepD, St.wake] at h <;> (repeat' split at h) <;> cases h <;> exact hget _
  · have hk1 : k ≠ i := by
      rintro rfl
      rw [hd] at hk
      cases hk
    exact (List.getElem?_set_ne hk1).trans hd
  · exact hd

/-- A client that is not done at the end never was. -/
theorem not_done {e : system.Execution} {i n : Nat} (h : ∀ m, n ≤ m → (e.at_ m).clients[i]? ≠ some .done) (k : Nat) :
    (e.at_ k).clients[i]? ≠ some .done := fun hk =>
  h (max k n) (Nat.le_max_right _ _)
    (e.stable (fun s : St => s.clients[i]? = some .done) (fun _ _ _ hd h => done_step hd h) k hk (max k n) (Nat.le_max_left _ _))

/-- What holds after so many steps of a run. -/
theorem at_of {ls : List (Label Op)} {e : system.Execution}
    (hat : ∀ n, ∃ s, system.exec (init 2) (ls.take n) = some s ∧ e.at_ n = s) (n : Nat) (q : St → Bool)
    (h : (system.exec (init 2) (ls.take n)).any q = true) : q (e.at_ n) = true := by
  obtain ⟨s, hs, he⟩ := hat n
  rw [hs] at h
  rw [he]
  exact h

/-- One change; when both threads are about to wait, client 1 destroys the object. -/
def lost : List (Label Op) :=
  [.run 0, .start 2 .change, .run 2, .run 0, .run 0, .run 1, .run 1, .run 1, .run 1, .run 1, .run 1, .run 1, .run 1, .run 1, .run 1,
    .run 0, .start 3 .destroy, .run 3, .run 3, .run 3, .run 1, .run 0, .run 0, .run 3]

/-- C195 is not so: although the directory can be watched and every thread runs whenever it can, the destructor may not return: the
notification comes after the callback thread has looked at `_destory` and before it waits, and there is no other. -/
theorem C195_negation_lost : ∃ e : system.Execution, e.Fair ∧ e.at_ 0 = init 2 ∧ (∀ m, (e.at_ m).broken = false) ∧
    (∃ m, (e.at_ m).clients[1]? = some .flag ∧ e.label m = some (.run 3)) ∧
    ∀ k, (e.at_ k).clients[1]? ≠ some .done := by
  obtain ⟨e, hf, h0, hlab, hat, hend⟩ := stuck_fair lost (fun s => decide (s.clients[1]? = some D.joinC)) (by decide)
  refine ⟨e, hf, h0, fine_all (by decide) hat, ⟨17, ?_, hlab 17⟩, not_done (n := lost.length) ?_⟩
  · exact of_decide_eq_true (at_of hat 17 (fun s => decide (s.clients[1]? = some D.flag)) (by decide))
  · intro m hm hk
    have := of_decide_eq_true (hend m hm)
    rw [hk] at this
    cases this

/-- The directory is lost; the callback thread is about to wait when client 1 destroys the object. -/
def failed : List (Label Op) :=
  [.run 0, .start 2 .fail, .run 2, .run 0, .run 1, .run 1, .run 1, .run 1, .start 3 .destroy, .run 3, .run 3, .run 3, .run 1, .run 3]

/-- C195 is not so: when the directory can no longer be watched, the destructor may not return though nothing in the file changed. -/
theorem C195_negation_failed : ∃ e : system.Execution, e.Fair ∧ e.at_ 0 = init 2 ∧ (∀ m, (e.at_ m).made = 0) ∧
    (∃ m, (e.at_ m).clients[1]? = some .flag ∧ e.label m = some (.run 3)) ∧
    ∀ k, (e.at_ k).clients[1]? ≠ some .done := by
  obtain ⟨e, hf, h0, hlab, hat, hend⟩ := stuck_fair failed (fun s => decide (s.clients[1]? = some D.joinC ∧ s.made = 0)) (by decide)
  refine ⟨e, hf, h0, ?_, ⟨9, ?_, hlab 9⟩, not_done (n := failed.length) ?_⟩
  · intro m
    by_cases hm : failed.length ≤ m
    · exact (of_decide_eq_true (hend m hm)).2
    · have hall : (List.range failed.length).all (fun n => (system.exec (init 2) (failed.take n)).any
        fun s : St => decide (s.made = 0)) = true := by decide
      exact of_decide_eq_true (at_of hat m (fun s => decide (s.made = 0))
        (List.all_eq_true.1 hall m (List.mem_range.2 (by omega))))
  · exact of_decide_eq_true (at_of hat 9 (fun s => decide (s.clients[1]? = some D.flag)) (by decide))
  · intro m hm hk
    have := (of_decide_eq_true (hend m hm)).1
    rw [hk] at this
    cases this

/-- The directory is lost, then the file changes. -/
def silent : List (Label Op) :=
  [.run 0, .start 2 .fail, .run 2, .run 0, .run 1, .run 1, .run 1, .run 1, .run 1, .start 2 .change, .run 2]

/-- C195 is not so: once the directory could not be watched for a moment, changes are not reported any more, and nothing says so. -/
theorem C195_negation_silent : ∃ s, system.Reachable (init 2) s ∧ (∀ i, system.step s (.run i) = none) ∧ s.destroyed = false ∧
    s.called < s.made := by
  obtain ⟨s, hs, hq⟩ := some_of (o := system.exec (init 2) silent)
    (fun s : St => stuck s && decide (s.destroyed = false ∧ s.called < s.made)) (by decide)
  rw [Bool.and_eq_true] at hq
  exact ⟨s, system.exec_reachable' silent hs, stuck_run hq.1, of_decide_eq_true hq.2⟩

/-- Two changes are reported, then the object is destroyed. -/
def orderly : List (Label Op) :=
  [.run 0, .start 2 .change, .run 2, .start 2 .change, .run 2, .run 0, .run 0, .run 0, .run 0, .run 0, .run 1, .run 1, .run 1, .run 1,
    .run 1, .run 1, .run 1, .run 1, .run 1, .run 1, .run 1, .run 1, .start 3 .destroy, .run 3, .run 3, .run 0, .run 0, .run 0, .run 0,
    .run 0, .run 3, .run 3, .run 1, .run 1, .run 1, .run 1, .run 1, .run 3]

/-- The hypotheses of `C195_delivered` are met after two changes. -/
example : ∃ s, system.Reachable (init 2) s ∧ s.broken = false ∧ s.destroyed = false ∧ system.step s (.run 0) = none ∧
    system.step s (.run 1) = none ∧ s.made = 2 := by
  obtain ⟨s, hs, hq⟩ := some_of (o := system.exec (init 2) (orderly.take 22))
    (fun s : St => stuck s && decide (s.broken = false ∧ s.destroyed = false ∧ s.made = 2)) (by decide)
  rw [Bool.and_eq_true] at hq
  have h := of_decide_eq_true hq.2
  exact ⟨s, system.exec_reachable' _ hs, h.1, h.2.1, stuck_run hq.1 0, stuck_run hq.1 1, h.2.2⟩

/-- The hypotheses of `C195_reported` are met, with two changes. -/
example : ∃ e : system.Execution, e.Fair ∧ e.at_ 0 = init 2 ∧ (∀ m, (e.at_ m).broken = false ∧ (e.at_ m).destroyed = false) ∧
    (e.at_ 5).made = 2 ∧ (e.at_ 5).called = 0 := by
  obtain ⟨e, hf, h0, hlab, hat, hend⟩ := stuck_fair (orderly.take 22)
    (fun s => decide (s.broken = false ∧ s.destroyed = false)) (by decide)
  refine ⟨e, hf, h0, ?_, of_decide_eq_true (at_of hat 5 (fun s => decide (s.made = 2 ∧ s.called = 0)) (by decide))⟩
  intro m
  by_cases hm : (orderly.take 22).length ≤ m
  · exact of_decide_eq_true (hend m hm)
  · have hall : (List.range (orderly.take 22).length).all (fun n => (system.exec (init 2) ((orderly.take 22).take n)).any
      fun s : St => decide (s.broken = false ∧ s.destroyed = false)) = true := by decide
    exact of_decide_eq_true (at_of hat m (fun s => decide (s.broken = false ∧ s.destroyed = false))
      (List.all_eq_true.1 hall m (List.mem_range.2 (by omega))))

/-- The hypotheses of `C195_returns_partial` and of `C195_quiet` are met. -/
example : ∃ e : system.Execution, e.Fair ∧ e.at_ 0 = init 2 ∧ (e.at_ 23).clients[1]? = some .flag ∧
    e.label 23 = some (.run 3) ∧ (e.at_ 23).c ≠ .prep ∧ (e.at_ 39).clients[1]? = some .done ∧ (e.at_ 39).called = 2 := by
  obtain ⟨e, hf, h0, hlab, hat, hend⟩ := stuck_fair orderly
    (fun s => decide (s.clients[1]? = some D.done ∧ s.called = 2)) (by decide)
  have h1 := of_decide_eq_true (at_of hat 23 (fun s => decide (s.clients[1]? = some D.flag ∧ s.c ≠ C.prep)) (by decide))
  have h2 := of_decide_eq_true (hend 39 (by decide))
  exact ⟨e, hf, h0, h1.1, hlab 23, h1.2, h2⟩

/-- A destructor that begins while the callback thread is about to wait and the watching thread waits for changes. -/
def close : List (Label Op) :=
  [.run 0, .run 1, .run 1, .run 1, .run 1, .start 3 .destroy, .run 3, .run 3, .run 3, .run 1, .run 0, .run 0, .run 0, .run 0, .run 0,
    .run 3, .run 1, .run 1, .run 1, .run 1, .run 1, .run 3]

/-- The other hypothesis of `C195_returns_partial` is met too. -/
example : ∃ e : system.Execution, e.Fair ∧ e.at_ 0 = init 2 ∧ (e.at_ 6).clients[1]? = some .flag ∧
    e.label 6 = some (.run 3) ∧ (e.at_ 6).c = .prep ∧ (e.at_ 6).w = .wait ∧ (∀ k, (e.at_ k).broken = false) := by
  obtain ⟨e, hf, h0, hlab, hat, -⟩ := stuck_fair close (fun s => decide (s.clients[1]? = some D.done)) (by decide)
  have h1 := of_decide_eq_true (at_of hat 6
    (fun s => decide (s.clients[1]? = some D.flag ∧ s.c = C.prep ∧ s.w = W.wait)) (by decide))
  exact ⟨e, hf, h0, h1.1, hlab 6, h1.2.1, h1.2.2, fine_all (by decide) hat⟩

end Verif.FileStopWin
