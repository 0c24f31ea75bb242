import Verif.Model.WaitHandler
import Verif.Lemmas.Threads
/-!
Invariants of the `WaitHandler` program.
-/
namespace Verif.WaitHandler
open Verif.Threads

variable {T : Type}

/-- Registered in `threads_waiting_`. -/
def PC.inWait : PC T → Bool
  | .asleep _ _ => true
  | .ready _ _ _ => true
  | _ => false

/-- Leaving a wait. -/
def PC.isLeaving : PC T → Bool
  | .leaving _ _ _ => true
  | _ => false

/-- Holding `status_mutex_`. -/
def PC.holds : PC T → Bool
  | .enableTest _ | .enableStore _ | .disableTest _ | .disableStore _ | .disableNotify _
  | .drainTest _ | .drainLock _ | .drainNotify _ | .stopTest _ | .release _ => true
  | _ => false

/-- In a part of the code where the handler is disabled. -/
def PC.off : PC T → Bool
  | .disableNotify _ | .drainTest _ | .drainLock _ | .drainNotify _ => true
  | .release .disable | .release .blockingDisable => true
  | _ => false

/-- In a part of the code where the handler is enabled. -/
def PC.on : PC T → Bool
  | .release .enable | .release .stopAndContinue => true
  | _ => false

/-- The call fits the place. -/
def PC.wf : PC T → Bool
  | .enableTest o | .enableStore o => o = .enable || o = .stopAndContinue
  | .disableTest o | .disableStore o | .disableNotify o => o ≠ .enable
  | .drainTest o | .drainLock o | .drainNotify o => o = .blockingDisable || o = .stopAndContinue
  | .stopTest o => o = .stopAndContinue
  | _ => true

/-- What the thread knows when it leaves. -/
def PC.leaveOk (s : State T) : PC T → Prop
  | .leaving _ _ none => s.enabled = false
  | .leaving p timed (some b) => b = awake s p ∧ (b = false → timed = true)
  | .ready _ timed late => late = true → timed = true
  | _ => True

/-- End of `blocking_disable`. -/
def PC.drained : PC T → Bool
  | .release .blockingDisable => true
  | _ => false

/-- What holds of one thread. -/
structure Loc (s : State T) (j : Nat) (pc : PC T) : Prop where
  wf : pc.wf = true
  holds : pc.holds = true ↔ s.status = some j
  leaving : pc.isLeaving = true ↔ s.mutex = some j
  off : pc.off = true → s.enabled = false
  on : pc.on = true → s.enabled = true
  drained : pc.drained = true → s.waiting = 0
  leave : pc.leaveOk s

/-- Invariant of the program. -/
structure Inv (s : State T) : Prop where
  loc : ∀ (j : Nat) (pc : PC T), s.pcs[j]? = some pc → Loc s j pc
  count : s.waiting = s.pcs.countP PC.inWait
  status : ∀ j, s.status = some j → j < s.pcs.length
  mutex : ∀ j, s.mutex = some j → j < s.pcs.length

theorem inv_init (v : T) (b : Bool) (n : Nat) : Inv (init v b n) := by
  constructor
  · intro j pc h
    have : pc = .idle none := by
      have := List.mem_of_getElem? h
      exact (List.mem_replicate.1 this).2
    subst this
    constructor <;> simp [PC.wf, PC.holds, PC.isLeaving, PC.off, PC.on, PC.drained, PC.leaveOk, init]
  · simp [init, List.countP_replicate, PC.inWait]
  · simp [init]
  · simp [init]

theorem wake_inWait (pc : PC T) : (wake pc).inWait = pc.inWait := by cases pc <;> rfl

theorem loc_wake {s : State T} {j : Nat} {pc : PC T} (h : Loc s j pc) : Loc s j (wake pc) := by
  cases pc
  case asleep p timed =>
    exact ⟨rfl, h.holds, h.leaving, h.off, h.on, h.drained, fun e => (by cases e)⟩
  all_goals exact h

theorem off_holds {pc : PC T} (h : pc.off = true) : pc.holds = true := by
  cases pc <;> first | rfl | cases h

theorem on_holds {pc : PC T} (h : pc.on = true) : pc.holds = true := by
  cases pc <;> first | rfl | cases h

/-- A thread that does not move. -/
theorem loc_other {s s' : State T} {j : Nat} {pc : PC T} (h : Loc s j pc)
    (hs : s'.status = some j ↔ s.status = some j) (hm : s'.mutex = some j ↔ s.mutex = some j)
    (he : pc.holds = true → s'.enabled = s.enabled)
    (hd : pc.drained = true → s'.waiting = s.waiting)
    (hl : pc.isLeaving = true → s'.enabled = s.enabled ∧ s'.value = s.value) : Loc s' j pc := by
  refine ⟨h.wf, h.holds.trans hs.symm, h.leaving.trans hm.symm, ?_, ?_, ?_, ?_⟩
  · intro e; rw [he (off_holds e)]; exact h.off e
  · intro e; rw [he (on_holds e)]; exact h.on e
  · intro e; rw [hd e]; exact h.drained e
  · have h7 := h.leave
    cases pc with
    | leaving p timed f =>
      obtain ⟨e1, e2⟩ := hl rfl
      cases f with
      | none => show s'.enabled = false; rw [e1]; exact h7
      | some b =>
        show b = awake s' p ∧ _
        simp only [awake, e1, e2]
        exact h7
    | _ => exact h7

/-- One thread moves from `x` to `y`, the others are changed by `f` (`id` or `wake`). -/
theorem inv_goto {s s' : State T} {i : Nat} {x y : PC T} (f : PC T → PC T) (hI : Inv s)
    (hx : s.pcs[i]? = some x) (hp : s'.pcs = (s.pcs.map f).set i y)
    (hf : ∀ pc, (f pc).inWait = pc.inWait) (hl : ∀ j pc, Loc s' j pc → Loc s' j (f pc))
    (hxf : f x = x)
    (hcount : s'.waiting + (if x.inWait then 1 else 0) = s.waiting + (if y.inWait then 1 else 0))
    (hs : ∀ j, j ≠ i → (s'.status = some j ↔ s.status = some j))
    (hm : ∀ j, j ≠ i → (s'.mutex = some j ↔ s.mutex = some j))
    (hi : Loc s' i y)
    (he : ∀ (j : Nat) (pc : PC T), j ≠ i → Loc s j pc → pc.holds = true → s'.enabled = s.enabled)
    (hd : ∀ (j : Nat) (pc : PC T), j ≠ i → Loc s j pc → pc.drained = true → s'.waiting = s.waiting)
    (hv : ∀ (j : Nat) (pc : PC T), j ≠ i → Loc s j pc → pc.isLeaving = true →
      s'.enabled = s.enabled ∧ s'.value = s.value) : Inv s' := by
  have hlt : i < s.pcs.length := (List.getElem?_eq_some_iff.1 hx).1
  constructor
  · intro j pc hj
    rw [hp] at hj
    rcases set_get hj with ⟨rfl, rfl, _⟩ | ⟨hne, hj⟩
    · exact hi
    · obtain ⟨a, ha, rfl⟩ := map_get hj
      have h := hI.loc j a ha
      exact hl j a (loc_other h (hs j hne) (hm j hne) (he j a hne h) (hd j a hne h) (hv j a hne h))
  · have h1 : (s.pcs.map f)[i]? = some x := by rw [List.getElem?_map, hx, Option.map_some, hxf]
    have h2 := countP_set PC.inWait y h1
    rw [countP_map_of _ _ _ hf, ← hI.count] at h2
    rw [hp]
    omega
  · intro j hj
    rw [hp, List.length_set, List.length_map]
    by_cases h : j = i
    · subst h; exact hlt
    · exact hI.status j ((hs j h).1 hj)
  · intro j hj
    rw [hp, List.length_set, List.length_map]
    by_cases h : j = i
    · subst h; exact hlt
    · exact hI.mutex j ((hm j h).1 hj)

/-- A holder of `status_mutex_` is the only one. -/
theorem holds_unique {s : State T} {i j : Nat} {x pc : PC T} (hx : Loc s i x) (h : Loc s j pc)
    (e1 : x.holds = true) (e2 : pc.holds = true) : j = i := by
  have h1 := hx.holds.1 e1
  have h2 := h.holds.1 e2
  rw [h1] at h2
  exact (Option.some.inj h2).symm

theorem drained_holds {pc : PC T} (h : pc.drained = true) : pc.holds = true := by
  cases pc <;> first | rfl | cases h

theorem drained_off {pc : PC T} (h : pc.drained = true) : pc.off = true := by
  cases pc <;> first | (cases h; done) | skip
  case release o => cases o <;> first | rfl | cases h

/-- Steps that change nothing but the place of thread `i`. -/
theorem inv_move {s : State T} {i : Nat} {x y : PC T} (hI : Inv s)
    (hx : s.pcs[i]? = some x) (hw : x.inWait = y.inWait) (hi : Loc s i y) : Inv (goto s i y) := by
  refine inv_goto (x := x) (y := y) (i := i) id hI hx (by simp [goto]) (fun _ => rfl)
    (fun _ _ h => h) rfl (by rw [hw]; rfl) (fun _ _ => Iff.rfl) (fun _ _ => Iff.rfl)
    ⟨hi.wf, hi.holds, hi.leaving, hi.off, hi.on, hi.drained, ?_⟩ (fun _ _ _ _ _ => rfl)
    (fun _ _ _ _ _ => rfl) (fun _ _ _ _ _ => ⟨rfl, rfl⟩)
  have := hi.leave
  cases y with
  | leaving p t f => cases f <;> exact this
  | _ => exact this

/-- `notify_all` by thread `i`. -/
theorem inv_notify {s : State T} {i : Nat} {x y : PC T} (hI : Inv s)
    (hx : s.pcs[i]? = some x) (hxw : x.inWait = false) (hw : y.inWait = false) (hi : Loc s i y) :
    Inv (goto (notifyAll s) i y) := by
  refine inv_goto (x := x) (y := y) (i := i) wake hI hx (by simp [goto, notifyAll]) wake_inWait
    (fun _ _ h => loc_wake h) (by cases x <;> first | rfl | cases hxw) (by rw [hw, hxw]; rfl)
    (fun _ _ => Iff.rfl) (fun _ _ => Iff.rfl)
    ⟨hi.wf, hi.holds, hi.leaving, hi.off, hi.on, hi.drained, ?_⟩ (fun _ _ _ _ _ => rfl)
    (fun _ _ _ _ _ => rfl) (fun _ _ _ _ _ => ⟨rfl, rfl⟩)
  have := hi.leave
  cases y with
  | leaving p t f => cases f <;> exact this
  | _ => exact this

theorem not_leaving_of_free {s : State T} {j : Nat} {pc : PC T} (h : Loc s j pc)
    (hm : s.mutex.isSome = false) (e : pc.isLeaving = true) : False := by
  rw [h.leaving.1 e] at hm
  cases hm

theorem inv_run {s s' : State T} {i : Nat} (hI : Inv s) (h : run s i = some s') : Inv s' := by
  unfold run at h
  cases hx : s.pcs[i]? with
  | none => rw [hx] at h; cases h
  | some x =>
    rw [hx] at h
    have hL := hI.loc i x hx
    have hlv : x.isLeaving = false → s.mutex ≠ some i := by
      intro e c
      rw [hL.leaving.2 c] at e
      cases e
    have hst : x.holds = false → s.status ≠ some i := by
      intro e c
      rw [hL.holds.2 c] at e
      cases e
    cases x with
    | idle r => cases h
    | asleep p t => cases h
    | enter p timed =>
      replace hst := hst rfl
      replace hlv := hlv rfl
      simp only at h
      split at h
      · cases h
      · rename_i hm
        have hm : s.mutex.isSome = false := by simpa using hm
        split at h
        · rename_i he
          have he : s.enabled = false := by simpa using he
          cases h
          refine inv_goto (i := i) (y := .leaving p timed none) id hI hx (by simp [goto]) (fun _ => rfl)
            (fun _ _ h => h) rfl rfl (fun _ _ => Iff.rfl) ?_ ?_ (fun _ _ _ _ _ => rfl)
            (fun _ _ _ _ _ => rfl) (fun _ _ _ _ _ => ⟨rfl, rfl⟩)
          · intro j hj
            have : s.mutex = none := by cases hh : s.mutex <;> simp_all
            simp [goto, this, Ne.symm hj]
          · constructor <;> simp [PC.wf, PC.holds, PC.isLeaving, PC.off, PC.on, PC.drained, PC.leaveOk, goto, he, hst]
        · rename_i he
          have he : s.enabled = true := by simpa using he
          have hmn : s.mutex = none := by cases hh : s.mutex <;> simp_all
          split at h
          · rename_i ha
            cases h
            refine inv_goto (i := i) (y := .leaving p timed (some true)) id hI hx
              (by simp [goto, endWait]) (fun _ => rfl)
              (fun _ _ h => h) rfl rfl (fun _ _ => Iff.rfl) ?_ ?_ (fun _ _ _ _ _ => rfl)
              (fun _ _ _ _ _ => rfl) (fun _ _ _ _ _ => ⟨rfl, rfl⟩)
            · intro j hj
              simp [goto, endWait, hmn, Ne.symm hj]
            · have ha : awake s p = true := ha
              constructor <;> simp [PC.wf, PC.holds, PC.isLeaving, PC.off, PC.on, PC.drained, PC.leaveOk, goto, endWait, hst]
              exact ha
          · cases h
            refine inv_goto (i := i) (y := .asleep p timed) id hI hx
              (by simp [goto]) (fun _ => rfl)
              (fun _ _ h => h) rfl rfl (fun _ _ => Iff.rfl) (fun _ _ => Iff.rfl) ?_
              (fun _ _ _ _ _ => rfl) ?_ (fun _ _ _ _ _ => ⟨rfl, rfl⟩)
            · constructor <;> simp [PC.wf, PC.holds, PC.isLeaving, PC.off, PC.on, PC.drained, PC.leaveOk, goto, hst, hlv]
            · intro j pc hj hl hd
              have := hl.off (drained_off hd)
              rw [he] at this
              cases this
    | ready p timed late =>
      replace hst := hst rfl
      replace hlv := hlv rfl
      have hpos : 0 < s.waiting := by
        rw [hI.count]; exact countP_pos_of_get _ hx rfl
      have hdr : ∀ (j : Nat) (pc : PC T), j ≠ i → Loc s j pc → pc.drained = true →
          s.waiting - 1 = s.waiting := by
        intro j pc hj hl hd
        have := hl.drained hd
        omega
      simp only at h
      split at h
      · cases h
      · rename_i hm
        have hm : s.mutex.isSome = false := by simpa using hm
        have hmn : s.mutex = none := by cases hh : s.mutex <;> simp_all
        have hmut : ∀ j, j ≠ i → (some i = some j ↔ s.mutex = some j) := by
          intro j hj
          simp [hmn, Ne.symm hj]
        split at h
        · rename_i ha
          cases h
          refine inv_goto (i := i) (y := .leaving p timed (some true)) id hI hx
            (by simp [goto, endWait]) (fun _ => rfl)
            (fun _ _ h => h) rfl ?_ (fun _ _ => Iff.rfl) hmut ?_ (fun _ _ _ _ _ => rfl)
            hdr (fun _ _ _ _ _ => ⟨rfl, rfl⟩)
          · show s.waiting - 1 + 1 = s.waiting + 0; omega
          · have ha : awake s p = true := ha
            constructor <;> simp [PC.wf, PC.holds, PC.isLeaving, PC.off, PC.on, PC.drained, PC.leaveOk, goto, endWait, hst]
            exact ha
        · rename_i ha
          have ha : awake s p = false := by simpa using ha
          split at h
          · rename_i hlate
            cases h
            refine inv_goto (i := i) (y := .leaving p timed (some false)) id hI hx
              (by simp [goto, endWait]) (fun _ => rfl)
              (fun _ _ h => h) rfl ?_ (fun _ _ => Iff.rfl) hmut ?_ (fun _ _ _ _ _ => rfl)
              hdr (fun _ _ _ _ _ => ⟨rfl, rfl⟩)
            · show s.waiting - 1 + 1 = s.waiting + 0; omega
            · have hti := hL.leave hlate
              constructor <;> simp [PC.wf, PC.holds, PC.isLeaving, PC.off, PC.on, PC.drained, PC.leaveOk, goto, endWait, hst, hti]
              exact ha
          · cases h
            refine inv_move hI hx rfl ?_
            constructor <;> simp [PC.wf, PC.holds, PC.isLeaving, PC.off, PC.on, PC.drained, PC.leaveOk, hst, hlv]
    | leaving p timed f =>
      replace hst := hst rfl
      have hmi := hL.leaving.1 rfl
      cases h
      refine inv_goto (i := i) (y := .idle (some (reason s f))) id hI hx
        (by simp [goto]) (fun _ => rfl) (fun _ _ h => h) rfl rfl (fun _ _ => Iff.rfl) ?_ ?_
        (fun _ _ _ _ _ => rfl) (fun _ _ _ _ _ => rfl) (fun _ _ _ _ _ => ⟨rfl, rfl⟩)
      · intro j hj
        simp [goto, hmi, Ne.symm hj]
      · constructor <;> simp [PC.wf, PC.holds, PC.isLeaving, PC.off, PC.on, PC.drained, PC.leaveOk, goto, hst]
    | set f notify =>
      replace hst := hst rfl
      replace hlv := hlv rfl
      simp only at h
      split at h
      · cases h
      · rename_i hm
        have hm : s.mutex.isSome = false := by simpa using hm
        cases h
        refine inv_goto (i := i) (y := if notify then .setNotify else .idle none) id hI hx
          (by simp [goto]) (fun _ => rfl) (fun _ _ h => h) rfl (by cases notify <;> rfl)
          (fun _ _ => Iff.rfl) (fun _ _ => Iff.rfl) ?_ (fun _ _ _ _ _ => rfl)
          (fun _ _ _ _ _ => rfl) (fun j pc _ hl e => (not_leaving_of_free hl hm e).elim)
        cases notify <;> constructor <;>
          simp [PC.wf, PC.holds, PC.isLeaving, PC.off, PC.on, PC.drained, PC.leaveOk, goto, hst, hlv]
    | setNotify =>
      replace hst := hst rfl
      replace hlv := hlv rfl
      cases h
      refine inv_notify hI hx rfl rfl ?_
      constructor <;> simp [PC.wf, PC.holds, PC.isLeaving, PC.off, PC.on, PC.drained, PC.leaveOk, hst, hlv]
    | acquire o =>
      replace hst := hst rfl
      replace hlv := hlv rfl
      simp only at h
      split at h
      · cases h
      · rename_i hm
        have hmn : s.status = none := by cases hh : s.status <;> simp_all
        cases h
        refine inv_goto (i := i) (y := first o) id hI hx
          (by simp [goto]) (fun _ => rfl) (fun _ _ h => h) rfl (by cases o <;> rfl)
          ?_ (fun _ _ => Iff.rfl) ?_ (fun _ _ _ _ _ => rfl)
          (fun _ _ _ _ _ => rfl) (fun _ _ _ _ _ => ⟨rfl, rfl⟩)
        · intro j hj
          simp [goto, hmn, Ne.symm hj]
        · cases o <;> constructor <;>
            simp [first, PC.wf, PC.holds, PC.isLeaving, PC.off, PC.on, PC.drained, PC.leaveOk, goto, hlv]
    | enableTest o =>
      have hsi := hL.holds.1 rfl
      replace hlv := hlv rfl
      have hw := hL.wf
      cases h
      cases he : s.enabled
      · refine inv_move hI hx rfl ?_
        cases o <;> constructor <;>
          simp_all [PC.wf, PC.holds, PC.isLeaving, PC.off, PC.on, PC.drained, PC.leaveOk]
      · refine inv_move hI hx rfl ?_
        cases o <;> constructor <;>
          simp_all [PC.wf, PC.holds, PC.isLeaving, PC.off, PC.on, PC.drained, PC.leaveOk]
    | enableStore o =>
      have hsi := hL.holds.1 rfl
      replace hlv := hlv rfl
      have hw := hL.wf
      simp only at h
      split at h
      · cases h
      · rename_i hm
        have hm : s.mutex.isSome = false := by simpa using hm
        cases h
        refine inv_goto (i := i) (y := .release o) id hI hx
          (by simp [goto]) (fun _ => rfl) (fun _ _ h => h) rfl rfl
          (fun _ _ => Iff.rfl) (fun _ _ => Iff.rfl) ?_ ?_
          (fun _ _ _ _ _ => rfl) (fun j pc _ hl e => (not_leaving_of_free hl hm e).elim)
        · cases o <;> constructor <;>
            simp_all [PC.wf, PC.holds, PC.isLeaving, PC.off, PC.on, PC.drained, PC.leaveOk, goto]
        · intro j pc hj hl e
          exact absurd (holds_unique hL hl rfl e) hj
    | disableTest o =>
      have hsi := hL.holds.1 rfl
      replace hlv := hlv rfl
      have hw := hL.wf
      cases h
      cases he : s.enabled
      · refine inv_move hI hx (by cases o <;> rfl) ?_
        cases o <;> constructor <;>
          simp_all [PC.wf, PC.holds, PC.isLeaving, PC.off, PC.on, PC.drained, PC.leaveOk, afterDisable]
      · refine inv_move hI hx rfl ?_
        cases o <;> constructor <;>
          simp_all [PC.wf, PC.holds, PC.isLeaving, PC.off, PC.on, PC.drained, PC.leaveOk]
    | disableStore o =>
      have hsi := hL.holds.1 rfl
      replace hlv := hlv rfl
      have hw := hL.wf
      simp only at h
      split at h
      · cases h
      · rename_i hm
        have hm : s.mutex.isSome = false := by simpa using hm
        cases h
        refine inv_goto (i := i) (y := .disableNotify o) id hI hx
          (by simp [goto]) (fun _ => rfl) (fun _ _ h => h) rfl rfl
          (fun _ _ => Iff.rfl) (fun _ _ => Iff.rfl) ?_ ?_
          (fun _ _ _ _ _ => rfl) (fun j pc _ hl e => (not_leaving_of_free hl hm e).elim)
        · cases o <;> constructor <;>
            simp_all [PC.wf, PC.holds, PC.isLeaving, PC.off, PC.on, PC.drained, PC.leaveOk, goto]
        · intro j pc hj hl e
          exact absurd (holds_unique hL hl rfl e) hj
    | disableNotify o =>
      have hsi := hL.holds.1 rfl
      replace hlv := hlv rfl
      have hw := hL.wf
      have he := hL.off rfl
      cases h
      refine inv_notify hI hx rfl (by cases o <;> rfl) ?_
      cases o <;> constructor <;>
        simp_all [PC.wf, PC.holds, PC.isLeaving, PC.off, PC.on, PC.drained, PC.leaveOk, afterDisable]
    | drainTest o =>
      have hsi := hL.holds.1 rfl
      replace hlv := hlv rfl
      have hw := hL.wf
      have he := hL.off rfl
      cases h
      by_cases hz : 0 < s.waiting
      · rw [if_pos hz]
        refine inv_move hI hx rfl ?_
        cases o <;> constructor <;>
          simp_all [PC.wf, PC.holds, PC.isLeaving, PC.off, PC.on, PC.drained, PC.leaveOk]
      · rw [if_neg hz]
        have hz : s.waiting = 0 := by omega
        refine inv_move hI hx (by cases o <;> rfl) ?_
        cases o <;> constructor <;>
          simp_all [PC.wf, PC.holds, PC.isLeaving, PC.off, PC.on, PC.drained, PC.leaveOk, afterDrain]
    | drainLock o =>
      have hsi := hL.holds.1 rfl
      replace hlv := hlv rfl
      have hw := hL.wf
      have he := hL.off rfl
      simp only at h
      split at h
      · cases h
      · cases h
        refine inv_move hI hx rfl ?_
        cases o <;> constructor <;>
          simp_all [PC.wf, PC.holds, PC.isLeaving, PC.off, PC.on, PC.drained, PC.leaveOk]
    | drainNotify o =>
      have hsi := hL.holds.1 rfl
      replace hlv := hlv rfl
      have hw := hL.wf
      have he := hL.off rfl
      cases h
      refine inv_notify hI hx rfl rfl ?_
      cases o <;> constructor <;>
        simp_all [PC.wf, PC.holds, PC.isLeaving, PC.off, PC.on, PC.drained, PC.leaveOk]
    | stopTest o =>
      have hsi := hL.holds.1 rfl
      replace hlv := hlv rfl
      have hw := hL.wf
      cases h
      cases he : s.enabled
      · refine inv_move hI hx rfl ?_
        cases o <;> constructor <;>
          simp_all [PC.wf, PC.holds, PC.isLeaving, PC.off, PC.on, PC.drained, PC.leaveOk]
      · refine inv_move hI hx rfl ?_
        cases o <;> constructor <;>
          simp_all [PC.wf, PC.holds, PC.isLeaving, PC.off, PC.on, PC.drained, PC.leaveOk]
    | release o =>
      have hsi := hL.holds.1 rfl
      replace hlv := hlv rfl
      cases h
      refine inv_goto (i := i) (y := .idle none) id hI hx
        (by simp [goto]) (fun _ => rfl) (fun _ _ h => h) rfl rfl ?_ (fun _ _ => Iff.rfl) ?_
        (fun _ _ _ _ _ => rfl) (fun _ _ _ _ _ => rfl) (fun _ _ _ _ _ => ⟨rfl, rfl⟩)
      · intro j hj
        simp [goto, hsi, Ne.symm hj]
      · constructor <;> simp [PC.wf, PC.holds, PC.isLeaving, PC.off, PC.on, PC.drained, PC.leaveOk, goto, hlv]

theorem inv_step {s s' : State T} {l : Label (Op T)} (hI : Inv s) (h : step s l = some s') :
    Inv s' := by
  cases l with
  | run i => exact inv_run hI h
  | start i op =>
    simp only [step, start] at h
    split at h
    · rename_i r hx
      have hL := hI.loc i _ hx
      have h1 : s.status ≠ some i := fun c => (by have := hL.holds.2 c; cases this)
      have h2 : s.mutex ≠ some i := fun c => (by have := hL.leaving.2 c; cases this)
      cases h
      cases op <;> refine inv_move hI hx rfl ?_ <;> constructor <;>
        simp [PC.wf, PC.holds, PC.isLeaving, PC.off, PC.on, PC.drained, PC.leaveOk, h1, h2]
    · cases h
  | spurious i =>
    simp only [step] at h
    split at h
    · rename_i p timed hx
      have hL := hI.loc i _ hx
      have h1 : s.status ≠ some i := fun c => (by have := hL.holds.2 c; cases this)
      have h2 : s.mutex ≠ some i := fun c => (by have := hL.leaving.2 c; cases this)
      cases h
      refine inv_move hI hx rfl ?_
      constructor <;> simp [PC.wf, PC.holds, PC.isLeaving, PC.off, PC.on, PC.drained, PC.leaveOk, h1, h2]
    · cases h
  | timeout i =>
    simp only [step] at h
    split at h
    · rename_i p hx
      have hL := hI.loc i _ hx
      have h1 : s.status ≠ some i := fun c => (by have := hL.holds.2 c; cases this)
      have h2 : s.mutex ≠ some i := fun c => (by have := hL.leaving.2 c; cases this)
      cases h
      refine inv_move hI hx rfl ?_
      constructor <;> simp [PC.wf, PC.holds, PC.isLeaving, PC.off, PC.on, PC.drained, PC.leaveOk, h1, h2]
    · cases h

theorem inv_reachable {v : T} {b : Bool} {n : Nat} {s : State T}
    (h : (system T).Reachable (init v b n) s) : Inv s :=
  System.Reachable.invariant Inv (inv_init v b n) (fun _ _ _ hI hs => inv_step hI hs) h

/-- Every step moves one thread, possibly waking the sleeping ones. -/
theorem run_shape {s s' : State T} {i : Nat} (h : run s i = some s') :
    ∃ x y, s.pcs[i]? = some x ∧
      (s'.pcs = s.pcs.set i y ∨ s'.pcs = (s.pcs.map wake).set i y) := by
  unfold run at h
  cases hx : s.pcs[i]? with
  | none => rw [hx] at h; cases h
  | some x =>
    rw [hx] at h
    cases x <;> simp only at h <;> (repeat' split at h) <;> first
      | cases h; done
      | (cases h; exact ⟨_, _, rfl, Or.inl rfl⟩)
      | (cases h; exact ⟨_, _, rfl, Or.inr rfl⟩)

/-- Thread of a label. -/
def tid {Op : Type} : Label Op → Nat
  | .start i _ => i
  | .run i => i
  | .spurious i => i
  | .timeout i => i

theorem step_shape {s s' : State T} {l : Label (Op T)} (h : step s l = some s') :
    ∃ x y, s.pcs[tid l]? = some x ∧
      (s'.pcs = s.pcs.set (tid l) y ∨ s'.pcs = (s.pcs.map wake).set (tid l) y) := by
  cases l with
  | run i => exact run_shape h
  | start i op =>
    simp only [step, start] at h
    split at h
    · rename_i r hx
      cases h
      exact ⟨_, _, hx, Or.inl rfl⟩
    · cases h
  | spurious i =>
    simp only [step] at h
    split at h
    · rename_i p timed hx
      cases h
      exact ⟨_, _, hx, Or.inl rfl⟩
    · cases h
  | timeout i =>
    simp only [step] at h
    split at h
    · rename_i p hx
      cases h
      exact ⟨_, _, hx, Or.inl rfl⟩
    · cases h

/-- A step of another thread leaves thread `j` where it is, or wakes it. -/
theorem frame_ne {s s' : State T} {l : Label (Op T)} (h : step s l = some s') {j : Nat} (hj : j ≠ tid l)
    {x : PC T} (hx : s.pcs[j]? = some x) : s'.pcs[j]? = some x ∨ s'.pcs[j]? = some (wake x) := by
  obtain ⟨_, y, _, h | h⟩ := step_shape h
  · left; rw [h, get_set_ne hj, hx]
  · right; rw [h, get_set_ne hj, List.getElem?_map, hx]; rfl

/-- Backwards. -/
theorem frame_ne' {s s' : State T} {l : Label (Op T)} (h : step s l = some s') {j : Nat}
    (hj : j ≠ tid l) {x : PC T} (hx : s'.pcs[j]? = some x) :
    ∃ x0, s.pcs[j]? = some x0 ∧ (x = x0 ∨ x = wake x0) := by
  obtain ⟨_, y, _, h | h⟩ := step_shape h
  · rw [h, get_set_ne hj] at hx; exact ⟨x, hx, Or.inl rfl⟩
  · rw [h, get_set_ne hj] at hx
    obtain ⟨a, ha, rfl⟩ := map_get hx
    exact ⟨a, ha, Or.inr rfl⟩

/-- Neither idle nor asleep: the thread has a next step. -/
def PC.active : PC T → Bool
  | .idle _ => false
  | .asleep _ _ => false
  | _ => true

/-- A thread with a next step stays there until it runs. -/
theorem frame_active {s s' : State T} {l : Label (Op T)} (h : step s l = some s') {j : Nat}
    {x : PC T} (hx : s.pcs[j]? = some x) (ha : x.active = true) (hl : l ≠ .run j) :
    s'.pcs[j]? = some x := by
  by_cases hj : j = tid l
  · exfalso
    cases l with
    | run i => exact hl (by rw [hj]; rfl)
    | start i op =>
      subst hj
      simp only [step, start, tid] at h hx
      rw [hx] at h
      cases x <;> first | cases ha; done | cases h
    | spurious i =>
      subst hj
      simp only [step, tid] at h hx
      rw [hx] at h
      cases x <;> first | cases ha; done | cases h
    | timeout i =>
      subst hj
      simp only [step, tid] at h hx
      rw [hx] at h
      cases x <;> first | cases ha; done | cases h
  · rcases frame_ne h hj hx with h | h
    · exact h
    · rw [h]
      cases x <;> first | rfl | cases ha

/-- An active thread that waits for no mutex or a free one can run. -/
theorem able {s : State T} {i : Nat} {x : PC T} (hx : s.pcs[i]? = some x) (ha : x.active = true)
    (hm : s.mutex = none) (hs : s.status = none ∨ ∀ o, x ≠ .acquire o) : (run s i).isSome := by
  unfold run
  rw [hx]
  cases x <;> simp only [hm] <;> first | (cases ha; done) | skip
  all_goals try (repeat' split) <;> first | rfl | (simp_all; done)

end Verif.WaitHandler
