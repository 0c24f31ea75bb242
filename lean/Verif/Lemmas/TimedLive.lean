import Verif.Lemmas.TimedWait
import Verif.Lemmas.WaitHandlerLive
/-!
Waits of `WaitHandler` with a timeout end when the system clock goes on.
-/
namespace Verif.WaitHandler
open Verif.Threads Verif.Timed

variable {T : Type}

/-- Inside a wait with a timeout. -/
def PC.timedWait : PC T → Bool
  | .enter _ t | .asleep _ t | .ready _ t _ | .leaving _ t _ => t
  | _ => false

/-- A wait that has computed its deadline. -/
def PC.isEnter : PC T → Bool
  | .enter _ _ => true
  | _ => false

/-- The next step of a thread inside a wait. -/
theorem wait_run {s s' : State T} {i : Nat} {x : PC T} (hx : s.pcs[i]? = some x) (ht : x.timedWait = true)
    (h : run s i = some s') :
    (∃ p f, (x.isEnter = true ∨ ∃ l, x = .ready p true l) ∧ s'.pcs[i]? = some (.leaving p true f)) ∨
    (∃ p, (x.isEnter = true ∨ x = .ready p true false) ∧ s'.pcs[i]? = some (.asleep p true)) ∨
    (∃ p f r, x = .leaving p true f ∧ s'.pcs[i]? = some (.idle (some r))) := by
  unfold run at h
  rw [hx] at h
  cases x with
  | enter p t =>
    cases ht
    simp only at h
    (repeat' split at h) <;> first
      | (cases h; done)
      | (cases h; exact Or.inl ⟨p, _, Or.inl rfl, get_set_self hx⟩)
      | (cases h; exact Or.inr (Or.inl ⟨p, Or.inl rfl, get_set_self hx⟩))
  | ready p t l =>
    cases ht
    simp only at h
    cases l <;> (repeat' split at h) <;> first
      | (cases h; done)
      | (cases h; exact Or.inl ⟨p, _, Or.inr ⟨_, rfl⟩, get_set_self hx⟩)
      | (cases h; exact Or.inr (Or.inl ⟨p, Or.inr rfl, get_set_self hx⟩))
      | (rename_i c; exact absurd rfl c)
      | (rename_i c; cases c; done)
  | leaving p t f =>
    cases ht
    simp only at h
    cases h
    exact Or.inr (Or.inr ⟨p, f, _, rfl, get_set_self hx⟩)
  | asleep p t => cases h
  | _ => cases ht

/-- A thread inside a wait stays inside until it returns, and computes its deadline only once. -/
theorem wait_step {s s' : State T} {l : Label (Op T)} (h : step s l = some s') {i : Nat} {x : PC T}
    (hx : s.pcs[i]? = some x) (ht : x.timedWait = true) :
    (∃ r, s'.pcs[i]? = some (.idle (some r))) ∨
      ∃ y, s'.pcs[i]? = some y ∧ y.timedWait = true ∧ (x.isEnter = false → y.isEnter = false) := by
  by_cases hl : l = .run i
  · subst hl
    rcases wait_run hx ht h with ⟨p, f, -, h⟩ | ⟨p, -, h⟩ | ⟨p, f, r, -, h⟩
    · exact Or.inr ⟨_, h, rfl, fun _ => rfl⟩
    · exact Or.inr ⟨_, h, rfl, fun _ => rfl⟩
    · exact Or.inl ⟨r, h⟩
  · right
    cases ha : x.active with
    | true => exact ⟨x, frame_active h hx ha hl, ht, fun h => h⟩
    | false =>
      cases x with
      | asleep p t =>
        by_cases hi : i = tid l
        · subst hi
          change step s l = some s' at h
          cases l with
          | run k => exact absurd rfl hl
          | start k op => simp only [step, start, tid] at h hx; rw [hx] at h; cases h
          | spurious k =>
            simp only [step, tid] at h hx ⊢
            rw [hx] at h
            cases h
            exact ⟨_, get_set_self hx, ht, fun _ => rfl⟩
          | timeout k =>
            simp only [step, tid] at h hx ⊢
            rw [hx] at h
            cases ht
            cases h
            exact ⟨_, get_set_self hx, rfl, fun _ => rfl⟩
        · rcases frame_ne h hi hx with h' | h'
          · exact ⟨_, h', ht, fun _ => rfl⟩
          · exact ⟨_, h', ht, fun _ => rfl⟩
      | idle r => cases ht
      | _ => cases ha

theorem leaving_idle {s s' : State T} {i : Nat} {p : T → Bool} {f : Option Bool}
    (h1 : s.pcs[i]? = some (.leaving p true f)) (h2 : run s i = some s') :
    s'.pcs[i]? = some (.idle (some (reason s f))) := by
  rw [leaving_run h1 h2]; exact get_set_self h1

theorem timeout_able {s : State T} {i : Nat} {p : T → Bool} (h : s.pcs[i]? = some (.asleep p true)) :
    (step s (.timeout i)).isSome = true := by simp [step, h]

section
variable (e : Run (waitHandler T)) (hf : e.base.Fair) (hI : ∀ n, Inv (e.at_ n).base) (i : Nat)

include hf hI in
/-- A thread at a place of a wait that is not asleep takes its next step. -/
theorem goes {n : Nat} {x : PC T} (hx : (e.at_ n).base.pcs[i]? = some x) (ha : x.active = true)
    (hn : ∀ o, x ≠ .acquire o) :
    ∃ m, n ≤ m ∧ ∃ s, s.pcs[i]? = some x ∧ run s i = some (e.at_ m).base := by
  obtain ⟨m, hm, s, -, h2, -, h4⟩ := runs e.base hf i x ha hn (fun _ => True) (fun _ _ _ _ _ _ _ _ => trivial) n
    ⟨hI n, hx, trivial⟩
  exact ⟨m, hm, s, h2, h4⟩

include hf hI in
theorem leaves {n : Nat} {p : T → Bool} {f : Option Bool}
    (hx : (e.at_ n).base.pcs[i]? = some (.leaving p true f)) :
    ∃ m, n ≤ m ∧ ∃ r, (e.at_ m).base.pcs[i]? = some (.idle (some r)) := by
  obtain ⟨m, hm, s, h1, h2⟩ := goes e hf hI i hx rfl (fun _ => nofun)
  exact ⟨m, hm, _, leaving_idle h1 h2⟩

include hf hI in
/-- Inside a wait: it returns, or sleeps later. -/
theorem sleeps {n : Nat} {x : PC T} (hx : (e.at_ n).base.pcs[i]? = some x) (ht : x.timedWait = true) :
    (∃ m, n ≤ m ∧ ∃ r, (e.at_ m).base.pcs[i]? = some (.idle (some r))) ∨
    ∃ m, n ≤ m ∧ ∃ p, (e.at_ m).base.pcs[i]? = some (.asleep p true) := by
  cases ha : x.active with
  | false =>
    cases x with
    | asleep p t => cases ht; exact Or.inr ⟨n, Nat.le_refl n, p, hx⟩
    | idle r => cases ht
    | _ => cases ha
  | true =>
    obtain ⟨m, hm, s, h1, h2⟩ := goes e hf hI i hx ha (fun o c => by subst c; cases ht)
    rcases wait_run h1 ht h2 with ⟨p, f, -, h⟩ | ⟨p, -, h⟩ | ⟨p, f, r, -, h⟩
    · obtain ⟨k, hk, r, hr⟩ := leaves e hf hI i h
      exact Or.inl ⟨k, Nat.le_trans hm hk, r, hr⟩
    · exact Or.inr ⟨m, hm, p, h⟩
    · exact Or.inl ⟨m, hm, r, h⟩

include hf hI in
theorem returns (hto : e.Timely) (hclock : ∀ x : Int, ∃ n, ∀ m, n ≤ m → x ≤ (e.at_ m).wall) {n : Nat} {x : PC T}
    (hx : (e.at_ n).base.pcs[i]? = some x) (ht : x.timedWait = true) :
    ∃ m, n ≤ m ∧ ∃ r, (e.at_ m).base.pcs[i]? = some (.idle (some r)) := by
  refine Classical.byContradiction fun hno => ?_
  have hno : ∀ m, n ≤ m → ∀ r, (e.at_ m).base.pcs[i]? ≠ some (.idle (some r)) :=
    fun m hm r h => hno ⟨m, hm, r, h⟩
  -- it stays inside
  have inside : ∀ k, n ≤ k → ∀ x, (e.at_ k).base.pcs[i]? = some x → x.timedWait = true →
      ∀ m, k ≤ m → ∃ y, (e.at_ m).base.pcs[i]? = some y ∧ y.timedWait = true ∧
        (x.isEnter = false → y.isEnter = false) := by
    intro k hk x hx ht m hm
    induction hm with
    | refl => exact ⟨x, hx, ht, fun h => h⟩
    | step hm ih =>
      rename_i m
      have hm : k ≤ m := hm
      obtain ⟨y, hy, hyt, hye⟩ := ih
      rcases e.base.next m with ⟨-, h2⟩ | ⟨l, -, h2⟩
      · have h2 : (e.at_ (m + 1)).base = (e.at_ m).base := h2
        exact ⟨y, by rw [h2]; exact hy, hyt, hye⟩
      · rcases wait_step h2 hy hyt with ⟨r, hr⟩ | ⟨z, hz, hzt, hze⟩
        · exact absurd hr (hno (m + 1) (by omega) r)
        · exact ⟨z, hz, hzt, fun h => hze (hye h)⟩
  have asleep : ∀ m, n ≤ m → ∃ k, m ≤ k ∧ ∃ p, (e.at_ k).base.pcs[i]? = some (.asleep p true) := by
    intro m hm
    obtain ⟨y, hy, hyt, -⟩ := inside n (Nat.le_refl n) x hx ht m hm
    rcases sleeps e hf hI i hy hyt with ⟨k, hk, r, hr⟩ | h
    · exact absurd hr (hno k (Nat.le_trans hm hk) r)
    · exact h
  obtain ⟨n0, hn0, p0, hp0⟩ := asleep n (Nat.le_refl n)
  -- the deadline stays what it is
  have dl : ∀ m, n0 ≤ m → (e.at_ m).dl i = (e.at_ n0).dl i := by
    intro m hm
    induction hm with
    | refl => rfl
    | step hm ih =>
      rename_i m
      have hm : n0 ≤ m := hm
      rw [← ih]
      rcases e.next m with ⟨-, h2⟩ | ⟨l, -, h2⟩
      · rw [h2]
      · rcases dl_step h2 i with h | ⟨-, ha, -⟩
        · exact h
        · obtain ⟨p, t, hpt⟩ := arms_iff.1 ha
          obtain ⟨y, hy, -, hye⟩ := inside n0 hn0 _ hp0 rfl m hm
          rw [hpt] at hy
          cases hy
          cases hye rfl
  obtain ⟨n1, hn1⟩ := hclock ((e.at_ n0).dl i)
  obtain ⟨m, hm, hl⟩ := hto i (max n0 n1) (by
    intro m hm
    obtain ⟨k, hk, p, hp⟩ := asleep m (by omega)
    refine ⟨k, hk, ?_⟩
    have hc : (e.at_ k).dl i ≤ (e.at_ k).clock := by
      rw [dl k (by omega)]
      exact hn1 k (by omega)
    simp only [Timed.step, if_pos hc, Option.isSome_map]
    exact timeout_able hp)
  rcases e.next m with ⟨h', -⟩ | ⟨l, h1, h2⟩
  · rw [hl] at h'; cases h'
  · rw [hl] at h1
    cases h1
    have hb : WaitHandler.step (e.at_ m).base (.timeout i) = some (e.at_ (m + 1)).base := step_base h2
    simp only [WaitHandler.step] at hb
    split at hb
    · rename_i p hp
      have hr : (e.at_ (m + 1)).base.pcs[i]? = some (.ready p true true) := by
        rw [← Option.some.inj hb]; exact get_set_self hp
      obtain ⟨k, hk, s, g1, g2⟩ := goes e hf hI i hr rfl (fun _ => nofun)
      rcases wait_run g1 rfl g2 with ⟨q, f, -, h⟩ | ⟨q, h, -⟩ | ⟨q, f, r, h, -⟩
      · obtain ⟨k', hk', r, hr⟩ := leaves e hf hI i h
        exact hno k' (by omega) r hr
      · rcases h with h | h <;> cases h
      · cases h
    · cases hb

end

end Verif.WaitHandler
