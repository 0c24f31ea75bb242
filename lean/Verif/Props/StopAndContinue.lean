import Verif.Lemmas.WaitHandlerSleep
import Verif.Lemmas.CounterLive
/-!
C181: `blocking_disable` and `stop_and_continue` release every thread that waits.
-/
namespace Verif.Threads

/-- A call that goes through a part `A` in which the flag `en` keeps its value, and a part `B` in which it is false and
which it leaves only in a state with `F`. -/
theorem phases {S : System} (e : S.Execution) (en : S.State → Bool) (A B F : S.State → Prop) (n : Nat)
    (hA : A (e.at_ (n + 1))) (hen : en (e.at_ (n + 1)) = en (e.at_ n))
    (sA : ∀ (x : Nat) (l : Label S.Op), e.label x = some l → A (e.at_ x) →
      (A (e.at_ (x + 1)) ∧ en (e.at_ (x + 1)) = en (e.at_ x)) ∨ (B (e.at_ (x + 1)) ∧ en (e.at_ (x + 1)) = false))
    (sB : ∀ (x : Nat) (l : Label S.Op), e.label x = some l → B (e.at_ x) → B (e.at_ (x + 1)) ∨ F (e.at_ x))
    (oB : ∀ x : Nat, B (e.at_ x) → en (e.at_ x) = false) (x : Nat) :
    (A (e.at_ (n + 1 + x)) ∧ ∀ y : Nat, n ≤ y → y ≤ n + 1 + x → en (e.at_ y) = en (e.at_ n)) ∨
    (∃ d : Nat, n ≤ d ∧ d ≤ n + 1 + x ∧ (∀ y : Nat, n ≤ y → y < d → en (e.at_ y) = true) ∧
      (∀ y : Nat, d ≤ y → y ≤ n + 1 + x → en (e.at_ y) = false) ∧ B (e.at_ (n + 1 + x))) ∨
    (∃ d k : Nat, n ≤ d ∧ d ≤ k ∧ k ≤ n + 1 + x ∧ (∀ y : Nat, n ≤ y → y < d → en (e.at_ y) = true) ∧
      (∀ y : Nat, d ≤ y → y ≤ k → en (e.at_ y) = false) ∧ F (e.at_ k)) := by
  induction x with
  | zero =>
    left
    refine ⟨hA, fun y h1 h2 => ?_⟩
    rcases Nat.lt_or_ge n y with h | h
    · rw [show y = n + 1 by omega]; exact hen
    · rw [show y = n by omega]
  | succ x ih =>
    rw [show n + 1 + (x + 1) = n + 1 + x + 1 by omega]
    cases hl : e.label (n + 1 + x) with
    | none =>
      have hs : e.at_ (n + 1 + x + 1) = e.at_ (n + 1 + x) := by
        have := e.ok (n + 1 + x); rw [hl] at this; exact this
      have ext : ∀ (P : S.State → Prop) (d : Nat), d ≤ n + 1 + x →
          (∀ y : Nat, d ≤ y → y ≤ n + 1 + x → P (e.at_ y)) → ∀ y : Nat, d ≤ y → y ≤ n + 1 + x + 1 → P (e.at_ y) := by
        intro P d hd h y h1 h2
        rcases Nat.lt_or_ge (n + 1 + x) y with c | c
        · rw [show y = n + 1 + x + 1 by omega, hs]; exact h _ hd (Nat.le_refl _)
        · exact h y h1 c
      rcases ih with ⟨h, hc⟩ | ⟨d, h1, h2, h3, h4, h5⟩ | ⟨d, k, h1, h2, h3, h4, h5, h6⟩
      · exact Or.inl ⟨by rw [hs]; exact h, ext (fun s => en s = en (e.at_ n)) n (by omega) hc⟩
      · exact Or.inr (Or.inl ⟨d, h1, by omega, h3, ext (fun s => en s = false) d h2 h4, by rw [hs]; exact h5⟩)
      · exact Or.inr (Or.inr ⟨d, k, h1, h2, by omega, h4, h5, h6⟩)
    | some l =>
      rcases ih with ⟨h, hc⟩ | ⟨d, h1, h2, h3, h4, h5⟩ | ⟨d, k, h1, h2, h3, h4, h5, h6⟩
      · rcases sA _ l hl h with ⟨h', he⟩ | ⟨h', he⟩
        · refine Or.inl ⟨h', fun y h1 h2 => ?_⟩
          rcases Nat.lt_or_ge (n + 1 + x) y with c | c
          · rw [show y = n + 1 + x + 1 by omega, he]; exact hc _ (by omega) (Nat.le_refl _)
          · exact hc y h1 c
        · right; left
          cases hn : en (e.at_ n) with
          | true =>
            refine ⟨n + 1 + x + 1, by omega, Nat.le_refl _, fun y h1 h2 => ?_, fun y h1 h2 => ?_, h'⟩
            · rw [hc y h1 (by omega), hn]
            · rw [show y = n + 1 + x + 1 by omega]; exact he
          | false =>
            refine ⟨n, Nat.le_refl _, by omega, fun y h1 h2 => by omega, fun y h1 h2 => ?_, h'⟩
            rcases Nat.lt_or_ge (n + 1 + x) y with c | c
            · rw [show y = n + 1 + x + 1 by omega]; exact he
            · rw [hc y h1 c, hn]
      · rcases sB _ l hl h5 with h | h
        · refine Or.inr (Or.inl ⟨d, h1, by omega, h3, fun y h1 h2 => ?_, h⟩)
          rcases Nat.lt_or_ge (n + 1 + x) y with c | c
          · rw [show y = n + 1 + x + 1 by omega]; exact oB _ h
          · exact h4 y h1 c
        · exact Or.inr (Or.inr ⟨d, n + 1 + x, h1, h2, by omega, h3, h4, h⟩)
      · exact Or.inr (Or.inr ⟨d, k, h1, h2, by omega, h4, h5, h6⟩)

end Verif.Threads

namespace Verif.Counter
open Verif.Threads
open Verif.WaitHandler (Reason StatusOp)

variable {T : Type}

/-- C181, counters and queues: when `blocking_disable`, or `stop_and_continue` of an enabled handler, has taken
`status_mutex_` (step `n`) and has returned (time `m`), there was a time `d` before which the handler was enabled, and
a time `k` up to which it was disabled, at which no thread was waiting, be it asleep or about to look at its condition
again. -/
theorem C181_counter (thr v0 : Nat) (b : Bool) (picks : Nat → Nat) (N : Nat) (e : (system T).Execution)
    (h0 : (system T).Reachable (init thr v0 b picks N) (e.at_ 0)) (i n m : Nat) (o : StatusOp)
    (hn : (e.at_ n).pcs[i]? = some (.acquire o)) (hl : e.label n = some (.run i))
    (ho : o = .blockingDisable ∨ o = .stopAndContinue ∧ (e.at_ n).enabled = true)
    (hnm : n < m) (r : Option (Ret T)) (hm : (e.at_ m).pcs[i]? = some (.idle r)) :
    ∃ d k : Nat, n ≤ d ∧ d ≤ k ∧ k ≤ m ∧ (∀ y : Nat, n ≤ y → y < d → (e.at_ y).enabled = true) ∧
      (∀ y : Nat, d ≤ y → y ≤ k → (e.at_ y).enabled = false) ∧
      ∀ (j : Nat) (c t l : Bool), (e.at_ k).pcs[j]? ≠ some (.asleep c t) ∧
        (e.at_ k).pcs[j]? ≠ some (.ready c t l) ∧ (e.at_ k).pcs[j]? ≠ some (.thAsleep t) ∧
        (e.at_ k).pcs[j]? ≠ some (.thReady t l) := by
  have hS : ∀ x, St (e.at_ x) := fun x => st_reachable (e.reachable h0 x)
  have hstep : ∀ (x : Nat) (l : Label (Op T)), e.label x = some l → Stepped (e.at_ x) l (e.at_ (x + 1)) := by
    intro x l hx
    have := e.ok x
    rw [hx] at this
    exact step_stepped this
  have hk := phases e (fun s => s.enabled)
    (fun s => (s.pcs[i]? = some (.stopTest o) ∧ s.enabled = true) ∨ s.pcs[i]? = some (.disableTest o))
    (fun s => s.pcs[i]? = some (.disableNotify o) ∨ Draining i o s)
    (fun s => ∀ (j : Nat) (c t l : Bool), s.pcs[j]? ≠ some (.asleep c t) ∧
        s.pcs[j]? ≠ some (.ready c t l) ∧ s.pcs[j]? ≠ some (.thAsleep t) ∧
        s.pcs[j]? ≠ some (.thReady t l)) n ?_ ?_ ?_ ?_ ?_ (m - n - 1)
  · rw [show n + 1 + (m - n - 1) = m by omega] at hk
    rcases hk with ⟨h, -⟩ | ⟨d, -, -, -, -, h⟩ | h
    · rcases h with ⟨h, -⟩ | h <;> rw [hm] at h <;> cases h
    · rcases h with h | h | h <;> rw [hm] at h <;> cases h
    · exact h
  · have h := hstep n _ hl
    generalize e.at_ (n + 1) = s' at h ⊢
    cases h with
    | run _ y s' hy hr =>
      rw [hn] at hy
      cases hy
      cases hr with
      | acquire _ hm =>
        rcases ho with rfl | ⟨rfl, he⟩
        · exact Or.inr (get_set_self hn)
        · exact Or.inl ⟨get_set_self hn, he⟩
  · have h := hstep n _ hl
    generalize e.at_ (n + 1) = s' at h ⊢
    cases h with
    | run _ y s' hy hr =>
      rw [hn] at hy
      cases hy
      cases hr with
      | acquire _ hm => rfl
  · intro x l hx hA
    have h := hstep x l hx
    have hI := hS x
    generalize e.at_ (x + 1) = s' at h ⊢
    generalize e.at_ x = s at h hA hI ⊢
    by_cases hli : l = .run i
    · subst hli
      cases h with
      | run _ y s' hy hr =>
        rcases hA with ⟨hA, he⟩ | hA
        · rw [hA] at hy
          cases hy
          cases hr with
          | stopOn _ he => exact Or.inl ⟨Or.inr (get_set_self hA), rfl⟩
          | stopOff _ he' => rw [he] at he'; cases he'
        · rw [hA] at hy
          cases hy
          have hd : ∀ s1 : State T, s1.pcs[i]? = some (afterDisable o) → Draining i o s1 := by
            intro s1 h1
            rcases ho with rfl | ⟨rfl, -⟩ <;> exact Or.inl h1
          cases hr with
          | disableStore _ he => exact Or.inr ⟨Or.inl (get_set_self hA), rfl⟩
          | disableSkip _ he => exact Or.inr ⟨Or.inr (hd _ (get_set_self hA)), he⟩
    · left
      rcases hA with ⟨hA, he⟩ | hA
      · have := enabled_step hI hA rfl h hli
        exact ⟨Or.inl ⟨frame_active h hA rfl hli, this.trans he⟩, this⟩
      · exact ⟨Or.inr (frame_active h hA rfl hli), enabled_step hI hA rfl h hli⟩
  · intro x l hx hB
    have h := hstep x l hx
    have hI := hS x
    generalize e.at_ (x + 1) = s' at h ⊢
    generalize e.at_ x = s at h hB hI ⊢
    by_cases hli : l = .run i
    · subst hli
      cases h with
      | run _ y s' hy hr =>
        rcases hB with hB | hB | hB
        · rw [hB] at hy
          cases hy
          cases hr with
          | disableNotify _ =>
            left
            have h1 : ((s.pcs.map wake).set i (afterDisable o))[i]? = some (afterDisable o) :=
              get_set_self (x := .disableNotify o) (by rw [List.getElem?_map, hB]; rfl)
            rcases ho with rfl | ⟨rfl, -⟩ <;> exact Or.inr (Or.inl h1)
        · rw [hB] at hy
          cases hy
          cases hr with
          | drainMore _ hw => exact Or.inl (Or.inr (Or.inr (get_set_self hB)))
          | drainEnd _ hw =>
            right
            have hc := hI.count
            rw [hw] at hc
            have hno : ∀ (j : Nat) (pc : PC T), s.pcs[j]? = some pc → pc.counted ≠ true := by
              intro j pc hj hp
              have := countP_pos_of_get PC.counted hj hp
              omega
            intro j c t l
            exact ⟨fun h => hno j _ h rfl, fun h => hno j _ h rfl, fun h => hno j _ h rfl, fun h => hno j _ h rfl⟩
        · rw [hB] at hy
          cases hy
          cases hr with
          | drainNotify _ =>
            left; right; left
            have h1 : ((s.pcs.map wake).set i (.drainTest o))[i]? = some (.drainTest o) :=
              get_set_self (x := .drainNotify o) (by rw [List.getElem?_map, hB]; rfl)
            exact h1
    · left
      rcases hB with hB | hB | hB
      · exact Or.inl (frame_active h hB rfl hli)
      · exact Or.inr (Or.inl (frame_active h hB rfl hli))
      · exact Or.inr (Or.inr (frame_active h hB rfl hli))
  · intro x hB
    rcases hB with hB | hB | hB
    · exact (hS x).off i _ hB rfl
    · exact (hS x).off i _ hB rfl
    · exact (hS x).off i _ hB rfl

/-- The call fits the place, and the handler is as the call leaves it. -/
def PC.fits (en : Bool) : PC T → Prop
  | .enableTest o => o = .enable ∨ o = .stopAndContinue
  | .disableTest o | .disableNotify o => o ≠ .enable
  | .drainTest o | .drainNotify o => o = .blockingDisable ∨ o = .stopAndContinue
  | .stopTest o => o = .stopAndContinue
  | .release o => en = (match o with | .enable | .stopAndContinue => true | _ => false)
  | _ => True

theorem fits_wake {en : Bool} {a a' : PC T} (h : a.fits en) (e : a' = a ∨ a' = wake a ∨ a' = wakeTh a) : a'.fits en := by
  rcases e with rfl | rfl | rfl
  · exact h
  · cases a <;> first | exact h | trivial
  · cases a <;> first | exact h | trivial

theorem fits_other {en en' : Bool} {a : PC T} (h : a.fits en) (hn : a.holds = false ∨ en' = en) : a.fits en' := by
  rcases hn with hn | rfl
  · cases a <;> first | trivial | cases hn
  · exact h

/-- C181: `enable` and `stop_and_continue` of counters and queues return with the handler enabled, `disable` and
`blocking_disable` with it disabled: so it is when they are about to release `status_mutex_`. -/
theorem C181_status (thr v0 : Nat) (b : Bool) (picks : Nat → Nat) (N : Nat) (s : State T)
    (hr : (system T).Reachable (init thr v0 b picks N) s) (i : Nat) (o : StatusOp)
    (hi : s.pcs[i]? = some (.release o)) :
    s.enabled = (match o with | .enable | .stopAndContinue => true | _ => false) := by
  have key : St s ∧ ∀ (j : Nat) (pc : PC T), s.pcs[j]? = some pc → pc.fits s.enabled := by
    refine System.ReachableBy.invariant
      (fun s : State T => St s ∧ ∀ (j : Nat) (pc : PC T), s.pcs[j]? = some pc → pc.fits s.enabled)
      ⟨st_reachable (.init : (system T).Reachable (init thr v0 b picks N) _), fun j pc hj => by
        cases init_pcs hj; trivial⟩ ?_ hr
    · rintro s l s' ⟨hI, hF⟩ - hs
      have hs := step_stepped hs
      refine ⟨st_step hI hs, ?_⟩
      intro j pc hj
      have other : ∀ (k : Nat) (y : PC T), j ≠ k → Woken (s.pcs.set k y) s'.pcs → (s'.enabled = s.enabled ∨
          ∃ x : PC T, s.pcs[k]? = some x ∧ x.holds = true) → pc.fits s'.enabled := by
        intro k y hjk hw he
        obtain ⟨a, ha, e⟩ := hw.get' hj
        rw [get_set_ne hjk] at ha
        refine fits_wake (fits_other (hF j a ha) ?_) e
        rcases he with he | ⟨x, hx, hh⟩
        · exact Or.inr he
        · left
          cases hah : a.holds with
          | false => rfl
          | true =>
            have h1 := (hI.holds j a ha).1 hah
            rw [(hI.holds k x hx).1 hh] at h1
            exact absurd (Option.some.inj h1).symm hjk
      have self : ∀ (k : Nat) (x y : PC T), s.pcs[k]? = some x → Woken (s.pcs.set k y) s'.pcs → j = k →
          y.fits s'.enabled → pc.fits s'.enabled := by
        rintro k x y hx hw rfl hy
        obtain ⟨a, ha, e⟩ := hw.get' hj
        rw [get_set_self hx] at ha
        cases ha
        exact fits_wake hy e
      cases hs with
      | run k x s' hx hrn =>
        have hxf := hF k x hx
        by_cases hjk : j = k
        · have aw : ∀ (c : Bool) (r : Reason) (en : Bool), (afterWait c r : PC T).fits en := by
            intro c r en
            cases c <;> cases r <;> trivial
          have hoff : x.isOff = true → s.enabled = false := hI.off k x hx
          have hdis : ∀ o : StatusOp, o ≠ .enable → (afterDisable o : PC T).fits false := by
            intro o ho
            cases o
            · exact absurd rfl ho
            · rfl
            · exact Or.inl rfl
            · exact Or.inr rfl
          cases hrn with
          | enterGrant c t he hv =>
            have e := (decrease_same (goto s k (afterWait c .conditionMet))).1.woken
            exact self k _ (afterWait c .conditionMet) hx e hjk (aw _ _ _)
          | readyGrant c t l he hv =>
            have e := (decrease_same (goto { s with waiting := s.waiting - 1 } k (afterWait c .conditionMet))).1.woken
            exact self k _ (afterWait c .conditionMet) hx e hjk (aw _ _ _)
          | inc p =>
            have e := (increment_same (goto s k (.idle none))).1.woken
            exact self k _ (.idle none) hx e hjk trivial
          | enterDisabled c t he => exact self k _ _ hx (.refl _) hjk (aw _ _ _)
          | readyDisabled c t l he => exact self k _ _ hx (.refl _) hjk (aw _ _ _)
          | readyTimeout c t he hv => exact self k _ _ hx (.refl _) hjk (aw _ _ _)
          | acquire o hm =>
            refine self k _ _ hx (.refl _) hjk ?_
            cases o
            · exact Or.inl rfl
            · nofun
            · nofun
            · rfl
          | enableTest o =>
            refine self k _ _ hx (.refl _) hjk ?_
            rcases hxf with rfl | rfl <;> rfl
          | disableStore o he => exact self k _ _ hx (.refl _) hjk hxf
          | disableSkip o he =>
            refine self k _ _ hx (.refl _) hjk ?_
            have := hdis o hxf
            rw [← he] at this
            exact this
          | disableNotify o =>
            refine self k _ (afterDisable o) hx ?_ hjk ?_
            · have h1 := Woken.map_wake (s.pcs.set k (afterDisable o))
              have h2 : (s.pcs.set k (afterDisable o)).map wake = (s.pcs.map wake).set k (afterDisable o) :=
                (map_wake_set (by cases o <;> rfl)).symm
              rw [h2] at h1
              exact h1
            · have := hdis o hxf
              rw [← hoff rfl] at this
              exact this
          | drainNotify o =>
            refine self k _ (.drainTest o) hx ?_ hjk hxf
            have h1 := Woken.map_wake (s.pcs.set k (.drainTest o))
            have h2 : (s.pcs.set k (.drainTest o)).map wake = (s.pcs.map wake).set k (.drainTest o) :=
              (map_wake_set rfl).symm
            rw [h2] at h1
            exact h1
          | drainMore o hw => exact self k _ _ hx (.refl _) hjk hxf
          | drainEnd o hw =>
            refine self k _ _ hx (.refl _) hjk ?_
            have h1 := hoff rfl
            rcases hxf with rfl | rfl
            · exact h1
            · exact Or.inr rfl
          | stopOn o he =>
            refine self k _ _ hx (.refl _) hjk ?_
            have hxf : o = .stopAndContinue := hxf
            subst hxf
            nofun
          | stopOff o he => exact self k _ _ hx (.refl _) hjk (Or.inr hxf)
          | _ => exact self k _ _ hx (.refl _) hjk trivial
        · obtain ⟨y, hw⟩ := ran_woken hrn
          refine other k y hjk hw ?_
          cases hrn with
          | enterGrant c t he hv => exact Or.inl (decrease_same _).1.enabled
          | readyGrant c t l he hv => exact Or.inl (decrease_same _).1.enabled
          | inc p => exact Or.inl (increment_same _).1.enabled
          | enableTest o => exact Or.inr ⟨_, hx, rfl⟩
          | disableStore o he => exact Or.inr ⟨_, hx, rfl⟩
          | _ => exact Or.inl rfl
      | start k r op hx =>
        by_cases hjk : j = k
        · exact self k _ _ hx (.refl _) hjk (by cases op <;> trivial)
        · exact other k _ hjk (.refl _) (Or.inl rfl)
      | spurious k c t hx =>
        by_cases hjk : j = k
        · exact self k _ _ hx (.refl _) hjk trivial
        · exact other k _ hjk (.refl _) (Or.inl rfl)
      | spuriousTh k t hx =>
        by_cases hjk : j = k
        · exact self k _ _ hx (.refl _) hjk trivial
        · exact other k _ hjk (.refl _) (Or.inl rfl)
      | timeout k c hx =>
        by_cases hjk : j = k
        · exact self k _ _ hx (.refl _) hjk trivial
        · exact other k _ hjk (.refl _) (Or.inl rfl)
      | timeoutTh k hx =>
        by_cases hjk : j = k
        · exact self k _ _ hx (.refl _) hjk trivial
        · exact other k _ hjk (.refl _) (Or.inl rfl)
  have h := key.2 i _ hi
  cases o <;> exact h

/-- Non-trivial case for `C181_counter` and `C181_status`: thread 1 sleeps in `wait_and_decrement` while thread 0 calls
`stop_and_continue`. -/
example : ∃ e : (system Nat).Execution, (system Nat).Reachable (init 0 0 true (fun _ => 0) 2) (e.at_ 0) ∧
    (e.at_ 3).pcs[0]? = some (.acquire .stopAndContinue) ∧ e.label 3 = some (.run 0) ∧ (e.at_ 3).enabled = true ∧
    (e.at_ 3).pcs[1]? = some (.asleep false false) ∧ (e.at_ 10).pcs[0]? = some (.release .stopAndContinue) ∧
    (e.at_ 11).pcs[0]? = some (.idle none) := by
  obtain ⟨e, h1, h2, h3, h4⟩ := (system Nat).finite_fair' (init 0 0 true (fun _ => 0) 2) _
    [.start 1 (.waitDec false), .run 1, .start 0 (.status .stopAndContinue), .run 0, .run 0, .run 0, .run 0, .run 1,
      .run 0, .run 0, .run 0] rfl (by
      intro i
      match i with
      | 0 => rfl
      | 1 => rfl
      | i + 2 => rfl)
  have at3 : ∃ s, (system Nat).exec (init 0 0 true (fun _ => 0) 2) _ = some s ∧ e.at_ 3 = s := h3 3
  have at10 : ∃ s, (system Nat).exec (init 0 0 true (fun _ => 0) 2) _ = some s ∧ e.at_ 10 = s := h3 10
  have at11 : ∃ s, (system Nat).exec (init 0 0 true (fun _ => 0) 2) _ = some s ∧ e.at_ 11 = s := h3 11
  obtain ⟨s3, a3, b3⟩ := at3
  obtain ⟨s10, a10, b10⟩ := at10
  obtain ⟨s11, a11, b11⟩ := at11
  refine ⟨e, by rw [h2]; exact .init, ?_, h4 3, ?_, ?_, ?_, ?_⟩
  · rw [b3]; cases a3; rfl
  · rw [b3]; cases a3; rfl
  · rw [b3]; cases a3; rfl
  · rw [b10]; cases a10; rfl
  · rw [b11]; cases a11; rfl

end Verif.Counter

namespace Verif.WaitHandler
open Verif.Threads

variable {T : Type}

/-- C181, values: when `blocking_disable`, or `stop_and_continue` of an enabled handler, has taken `status_mutex_`
(step `n`) and has returned (time `m`), there was a time `d` before which the handler was enabled, and a time `k` up to
which it was disabled, at which no thread was waiting, be it asleep or about to look at its predicate again.  (A thread
may be on its way out then, `C53_negation`.) -/
theorem C181_value (v : T) (b : Bool) (N : Nat) (e : (system T).Execution)
    (h0 : (system T).Reachable (init v b N) (e.at_ 0)) (i n m : Nat) (o : StatusOp)
    (hn : (e.at_ n).pcs[i]? = some (.acquire o)) (hl : e.label n = some (.run i))
    (ho : o = .blockingDisable ∨ o = .stopAndContinue ∧ (e.at_ n).enabled = true)
    (hnm : n < m) (r : Option Reason) (hm : (e.at_ m).pcs[i]? = some (.idle r)) :
    ∃ d k : Nat, n ≤ d ∧ d ≤ k ∧ k ≤ m ∧ (∀ y : Nat, n ≤ y → y < d → (e.at_ y).enabled = true) ∧
      (∀ y : Nat, d ≤ y → y ≤ k → (e.at_ y).enabled = false) ∧
      ∀ (j : Nat) (p : T → Bool) (t l : Bool), (e.at_ k).pcs[j]? ≠ some (.asleep p t) ∧
        (e.at_ k).pcs[j]? ≠ some (.ready p t l) := by
  have hS : ∀ x, Inv (e.at_ x) := fun x => inv_reachable (e.reachable h0 x)
  have hstep : ∀ (x : Nat) (l : Label (Op T)), e.label x = some l → step (e.at_ x) l = some (e.at_ (x + 1)) := by
    intro x l hx
    have := e.ok x
    rw [hx] at this
    exact this
  have hk := phases e (fun s => s.enabled)
    (fun s => (s.pcs[i]? = some (.stopTest o) ∧ s.enabled = true) ∨ s.pcs[i]? = some (.disableTest o) ∨
      s.pcs[i]? = some (.disableStore o))
    (fun s => s.pcs[i]? = some (.disableNotify o) ∨ Draining i o s)
    (fun s => ∀ (j : Nat) (p : T → Bool) (t l : Bool), s.pcs[j]? ≠ some (.asleep p t) ∧
        s.pcs[j]? ≠ some (.ready p t l)) n ?_ ?_ ?_ ?_ ?_ (m - n - 1)
  · rw [show n + 1 + (m - n - 1) = m by omega] at hk
    rcases hk with ⟨h, -⟩ | ⟨d, -, -, -, -, h⟩ | h
    · rcases h with ⟨h, -⟩ | h | h <;> rw [hm] at h <;> cases h
    · rcases h with h | h | h | h <;> rw [hm] at h <;> cases h
    · exact h
  · have h := hstep n _ hl
    simp only [step, run, hn] at h
    split at h
    · cases h
    · generalize e.at_ (n + 1) = s' at h ⊢
      cases h
      rcases ho with rfl | ⟨rfl, he⟩
      · exact Or.inr (Or.inl (get_set_self hn))
      · exact Or.inl ⟨get_set_self hn, he⟩
  · have h := hstep n _ hl
    simp only [step, run, hn] at h
    split at h
    · cases h
    · generalize e.at_ (n + 1) = s' at h ⊢
      cases h
      rfl
  · intro x l hx hA
    have h := hstep x l hx
    have hI := hS x
    generalize e.at_ (x + 1) = s' at h ⊢
    generalize e.at_ x = s at h hA hI ⊢
    by_cases hli : l = .run i
    · subst hli
      rcases hA with ⟨hA, he⟩ | hA | hA
      · simp only [step, run, hA, he, if_true] at h
        cases h
        exact Or.inl ⟨Or.inr (Or.inl (get_set_self hA)), rfl⟩
      · simp only [step, run, hA] at h
        cases h
        cases he : s.enabled with
        | true => exact Or.inl ⟨Or.inr (Or.inr (get_set_self hA)), he⟩
        | false =>
          right
          have h1 : (s.pcs.set i (afterDisable o))[i]? = some (afterDisable o) := get_set_self hA
          refine ⟨Or.inr ?_, he⟩
          rcases ho with rfl | ⟨rfl, -⟩ <;> exact Or.inl h1
      · simp only [step, run, hA] at h
        split at h
        · cases h
        · cases h
          exact Or.inr ⟨Or.inl (get_set_self hA), rfl⟩
    · left
      rcases hA with ⟨hA, he⟩ | hA | hA
      · have := enabled_step hI hA rfl h hli
        exact ⟨Or.inl ⟨frame_active h hA rfl hli, this.trans he⟩, this⟩
      · exact ⟨Or.inr (Or.inl (frame_active h hA rfl hli)), enabled_step hI hA rfl h hli⟩
      · exact ⟨Or.inr (Or.inr (frame_active h hA rfl hli)), enabled_step hI hA rfl h hli⟩
  · intro x l hx hB
    have h := hstep x l hx
    have hI := hS x
    generalize e.at_ (x + 1) = s' at h ⊢
    generalize e.at_ x = s at h hB hI ⊢
    rcases hB with hB | hB
    · left
      by_cases hli : l = .run i
      · subst hli
        simp only [step, run, hB] at h
        cases h
        have h1 : ((s.pcs.map wake).set i (afterDisable o))[i]? = some (afterDisable o) :=
          get_set_self (x := .disableNotify o) (by rw [List.getElem?_map, hB]; rfl)
        rcases ho with rfl | ⟨rfl, -⟩ <;> exact Or.inr (Or.inl h1)
      · exact Or.inl (frame_active h hB rfl hli)
    · by_cases hw : s.waiting = 0
      · right
        have hc := hI.count
        rw [hw] at hc
        have hno : ∀ (j : Nat) (pc : PC T), s.pcs[j]? = some pc → pc.inWait ≠ true := by
          intro j pc hj hp
          have := countP_pos_of_get PC.inWait hj hp
          omega
        intro j p t l
        exact ⟨fun h => hno j _ h rfl, fun h => hno j _ h rfl⟩
      · left; right
        rcases hB with hB | hB
        · by_cases hli : l = .run i
          · subst hli
            simp only [step, run, hB] at h
            rw [if_pos (by omega)] at h
            cases h
            exact Or.inr (Or.inl (get_set_self hB))
          · exact Or.inl (frame_active h hB rfl hli)
        · rcases draining_step (Or.inr hB) h with h' | h'
          · exact h'
          · exfalso
            by_cases hli : l = .run i
            · subst hli
              rcases hB with hB | hB
              · simp only [step, run, hB] at h
                split at h
                · cases h
                · cases h
                  have h1 : (s.pcs.set i (.drainNotify o))[i]? = some (.drainNotify o) := get_set_self hB
                  have h2 := h1.symm.trans h'
                  cases o <;> cases h2
              · simp only [step, run, hB] at h
                cases h
                have h1 : ((s.pcs.map wake).set i (.drainTest o))[i]? = some (.drainTest o) :=
                  get_set_self (x := .drainNotify o) (by rw [List.getElem?_map, hB]; rfl)
                have h2 := h1.symm.trans h'
                cases o <;> cases h2
            · rcases hB with hB | hB
              · rw [frame_active h hB rfl hli] at h'
                cases o <;> cases h'
              · rw [frame_active h hB rfl hli] at h'
                cases o <;> cases h'
  · intro x hB
    rcases hB with hB | hB
    · exact ((hS x).loc i _ hB).off rfl
    · exact draining_off (hS x) hB

/-- Non-trivial case for `C181_value`: thread 1 sleeps while thread 0 calls `stop_and_continue`. -/
example : ∃ e : (system Nat).Execution, (system Nat).Reachable (init 0 true 2) (e.at_ 0) ∧
    (e.at_ 3).pcs[0]? = some (.acquire .stopAndContinue) ∧ e.label 3 = some (.run 0) ∧ (e.at_ 3).enabled = true ∧
    (∃ p t, (e.at_ 3).pcs[1]? = some (.asleep p t)) ∧ (e.at_ 14).pcs[0]? = some (.idle none) := by
  obtain ⟨e, h1, h2, h3, h4⟩ := (system Nat).finite_fair' (init 0 true 2) _
    [.start 1 (.wait (fun v => v == 3) false), .run 1, .start 0 (.status .stopAndContinue), .run 0, .run 0, .run 0,
      .run 0, .run 0, .run 1, .run 1, .run 0, .run 0, .run 0, .run 0] rfl (by
      intro i
      match i with
      | 0 => rfl
      | 1 => rfl
      | i + 2 => rfl)
  obtain ⟨s3, a3, b3⟩ := h3 3
  obtain ⟨s14, a14, b14⟩ := h3 14
  refine ⟨e, by rw [h2]; exact .init, ?_, h4 3, ?_, ?_, ?_⟩
  · rw [b3]; cases a3; rfl
  · rw [b3]; cases a3; rfl
  · rw [b3]; cases a3; exact ⟨_, _, rfl⟩
  · rw [b14]; cases a14; rfl

end Verif.WaitHandler
