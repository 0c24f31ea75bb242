import Verif.Model.OwnerPtr
import Verif.Lemmas.Prog
/-!
Invariants of the `OwnerPtr` program.
-/
namespace Verif.OwnerPtr
open Verif.Threads

theorem upd_same {α : Type} (f : Nat → α) (a : Nat) (b : α) : upd f a b a = b := if_pos rfl

theorem upd_ne {α : Type} {f : Nat → α} {a x : Nat} {b : α} (h : x ≠ a) : upd f a b x = f x := if_neg h

/-- The branches of `run`. -/
inductive Ran (i : Nat) (s : Sh) : PC → Sh → PC → Prop
  | skip (o k) (ho : ∀ d, s.owners o = some d → s.alive d = false) : Ran i s (.oTest o k) s (.oNext o k)
  | take (o d k) (ho : s.owners o = some d) (ha : s.alive d = true) :
      Ran i s (.oTest o k) { s with owners := upd s.owners o none } (.rAcq o d k)
  | rAcq (o d k) (hw : s.writer d = none) (hr : s.readers d = 0) :
      Ran i s (.rAcq o d k) { s with writer := upd s.writer d (some i) } (.rDel o d k)
  | rDel (o d k) (ha : s.alive d = true) :
      Ran i s (.rDel o d k) { s with deleted := s.deleted ++ [d] } (.rNull o d k)
  | rSkip (o d k) (ha : s.alive d = false) : Ran i s (.rDel o d k) s (.rUnl o d k)
  | rNull (o d k) : Ran i s (.rNull o d k) { s with alive := upd s.alive d false } (.rUnl o d k)
  | rUnl (o d k) : Ran i s (.rUnl o d k) { s with writer := upd s.writer d none } (.oNext o k)
  | stop (o) : Ran i s (.oNext o .stop) s (.idle (some .done))
  | null (o) : Ran i s (.oNext o .null) s (.idle (some .initialization))
  | giveBad (o) (ho : (s.owners o).isSome = true) : Ran i s (.oNext o .give) s (.idle none)
  | give (o) (ho : s.owners o = none) : Ran i s (.oNext o .give)
      { s with owners := upd s.owners o (some s.next), alive := upd s.alive s.next true, next := s.next + 1 }
      (.idle (some .done))
  | moveBad (o o') (ho : (s.owners o).isSome = true) : Ran i s (.oNext o (.move o')) s (.idle none)
  | move (o o') (ho : s.owners o = none) : Ran i s (.oNext o (.move o'))
      { s with owners := upd (upd s.owners o' none) o (s.owners o') } (.idle (some .done))
  | lease (o l) : Ran i s (.lease o l) { s with lessees := upd s.lessees l (s.owners o) } (.idle (some .done))
  | copyLessee (l l') : Ran i s (.copyLessee l l') { s with lessees := upd s.lessees l (s.lessees l') }
      (.idle (some .done))
  | dropLessee (l) : Ran i s (.dropLessee l) { s with lessees := upd s.lessees l none } (.idle (some .done))
  | vNone (l) (hl : s.lessees l = none) : Ran i s (.vTest l) s (.idle (some (.bool false)))
  | vSome (l d) (hl : s.lessees l = some d) : Ran i s (.vTest l) s (.vRead d)
  | vRead (d) : Ran i s (.vRead d) s (.idle (some (.bool (s.alive d))))
  | gNone (l) (hl : s.lessees l = none) : Ran i s (.gTest l .plain) (newGuard s none)
      (.idle (some (.guard s.guards.length)))
  | gThrow (l m) (hl : s.lessees l = none) (hm : m ≠ .plain) : Ran i s (.gTest l m) s (.idle (some .valueAccess))
  | gSome (l m d) (hl : s.lessees l = some d) : Ran i s (.gTest l m) s (.gAcq d m)
  | gLock (d) (hw : s.writer d = none) : Ran i s (.gAcq d .plain)
      (newGuard { s with readers := upd s.readers d (s.readers d + 1) } (some d))
      (.idle (some (.guard s.guards.length)))
  | gAcq (d m) (hw : s.writer d = none) (hm : m ≠ .plain) : Ran i s (.gAcq d m)
      { s with readers := upd s.readers d (s.readers d + 1) } (.gChk d m)
  | gAccess (d) (ha : s.alive d = true) : Ran i s (.gChk d .access) s (.aUnl d)
  | gOk (d m) (ha : s.alive d = true) (hm : m ≠ .access) : Ran i s (.gChk d m) (newGuard s (some d))
      (.idle (some (.guard s.guards.length)))
  | gBad (d m) (ha : s.alive d = false) : Ran i s (.gChk d m) s (.gFail d)
  | gFail (d) : Ran i s (.gFail d) (unlockShared s d) (.idle (some .valueAccess))
  | aUnl (d) : Ran i s (.aUnl d) (unlockShared s d) (.aUse d)
  | aUse (d) : Ran i s (.aUse d) s (.idle (some (.used (decide (d ∉ s.deleted)))))
  | mgBad (g) (hg : ∀ c, s.guards[g]? ≠ some (some c)) : Ran i s (.moveGuard g) s (.idle none)
  | mg (g c) (hg : s.guards[g]? = some (some c)) : Ran i s (.moveGuard g)
      { s with guards := s.guards.set g (some none) ++ [some c] } (.idle (some (.guard s.guards.length)))
  | agBad (g g') : Ran i s (.assignGuard g g') s (.idle none)
  | agSelf (g c) (hg : s.guards[g]? = some (some c)) : Ran i s (.assignGuard g g) s (.idle (some .done))
  | ag (g g' c c') (hg : s.guards[g]? = some (some c)) (hg' : s.guards[g']? = some (some c')) (hne : g ≠ g') :
      Ran i s (.assignGuard g g') { s with guards := (s.guards.set g (some c')).set g' (some none) }
        (.idle (some .done))
  | dgBad (g) (hg : ∀ c, s.guards[g]? ≠ some (some c)) : Ran i s (.destroyGuard g) s (.idle none)
  | dgNone (g) (hg : s.guards[g]? = some (some none)) : Ran i s (.destroyGuard g)
      { s with guards := s.guards.set g none } (.idle (some .done))
  | dg (g d) (hg : s.guards[g]? = some (some (some d))) : Ran i s (.destroyGuard g)
      (unlockShared { s with guards := s.guards.set g none } d) (.idle (some .done))
  | ugBad (g) (hg : ∀ c, s.guards[g]? ≠ some (some c)) : Ran i s (.useGuard g) s (.idle none)
  | ugNone (g) (hg : s.guards[g]? = some (some none)) : Ran i s (.useGuard g) s (.idle (some .null))
  | ugNull (g d) (hg : s.guards[g]? = some (some (some d))) (ha : s.alive d = false) :
      Ran i s (.useGuard g) s (.idle (some .null))
  | ug (g d) (hg : s.guards[g]? = some (some (some d))) (ha : s.alive d = true) :
      Ran i s (.useGuard g) s (.idle (some (.used (decide (d ∉ s.deleted)))))

theorem isSome_none {α : Type} {o : Option α} (h : ¬ o.isSome = true) : o = none := by
  cases o with
  | none => rfl
  | some a => exact absurd rfl h

theorem run_ran {i : Nat} {s s' : Sh} {x y : PC} {b : Bool} (h : run i s x = some (s', y, b)) :
    Ran i s x s' y ∧ b = false := by
  cases x with
  | idle r => cases h
  | oTest o k =>
    simp only [run] at h
    split at h
    · rename_i ho
      cases h
      exact ⟨.skip o k (fun d h => by rw [ho] at h; cases h), rfl⟩
    · rename_i d ho
      split at h
      · rename_i ha
        cases h
        exact ⟨.take o d k ho ha, rfl⟩
      · rename_i ha
        cases h
        refine ⟨.skip o k (fun d' h => ?_), rfl⟩
        rw [ho] at h
        cases h
        simpa using ha
  | rAcq o d k =>
    simp only [run] at h
    split at h
    · rename_i hw
      cases h
      exact ⟨.rAcq o d k hw.1 hw.2, rfl⟩
    · cases h
  | rDel o d k =>
    simp only [run] at h
    split at h
    · rename_i ha
      cases h
      exact ⟨.rDel o d k ha, rfl⟩
    · rename_i ha
      cases h
      exact ⟨.rSkip o d k (by simpa using ha), rfl⟩
  | rNull o d k => cases h; exact ⟨.rNull o d k, rfl⟩
  | rUnl o d k => cases h; exact ⟨.rUnl o d k, rfl⟩
  | oNext o k =>
    cases k with
    | stop => cases h; exact ⟨.stop o, rfl⟩
    | null => cases h; exact ⟨.null o, rfl⟩
    | give =>
      simp only [run] at h
      split at h
      · rename_i ho
        cases h
        exact ⟨.giveBad o ho, rfl⟩
      · rename_i ho
        cases h
        exact ⟨.give o (isSome_none ho), rfl⟩
    | move o' =>
      simp only [run] at h
      split at h
      · rename_i ho
        cases h
        exact ⟨.moveBad o o' ho, rfl⟩
      · rename_i ho
        cases h
        exact ⟨.move o o' (isSome_none ho), rfl⟩
  | lease o l => cases h; exact ⟨.lease o l, rfl⟩
  | copyLessee l l' => cases h; exact ⟨.copyLessee l l', rfl⟩
  | dropLessee l => cases h; exact ⟨.dropLessee l, rfl⟩
  | vTest l =>
    simp only [run] at h
    split at h
    · rename_i hl
      cases h
      exact ⟨.vNone l hl, rfl⟩
    · rename_i d hl
      cases h
      exact ⟨.vSome l d hl, rfl⟩
  | vRead d => cases h; exact ⟨.vRead d, rfl⟩
  | gTest l m =>
    simp only [run] at h
    split at h
    · rename_i hl
      split at h
      · rename_i hm
        subst hm
        cases h
        exact ⟨.gNone l hl, rfl⟩
      · rename_i hm
        cases h
        exact ⟨.gThrow l m hl hm, rfl⟩
    · rename_i d hl
      cases h
      exact ⟨.gSome l m d hl, rfl⟩
  | gAcq d m =>
    simp only [run] at h
    split at h
    · cases h
    · rename_i hw
      split at h
      · rename_i hm
        subst hm
        cases h
        exact ⟨.gLock d (isSome_none hw), rfl⟩
      · rename_i hm
        cases h
        exact ⟨.gAcq d m (isSome_none hw) hm, rfl⟩
  | gChk d m =>
    simp only [run] at h
    split at h
    · rename_i ha
      split at h
      · rename_i hm
        subst hm
        cases h
        exact ⟨.gAccess d ha, rfl⟩
      · rename_i hm
        cases h
        exact ⟨.gOk d m ha hm, rfl⟩
    · rename_i ha
      cases h
      exact ⟨.gBad d m (by simpa using ha), rfl⟩
  | gFail d => cases h; exact ⟨.gFail d, rfl⟩
  | aUnl d => cases h; exact ⟨.aUnl d, rfl⟩
  | aUse d => cases h; exact ⟨.aUse d, rfl⟩
  | moveGuard g =>
    simp only [run] at h
    split at h
    · rename_i c hg
      cases h
      exact ⟨.mg g c hg, rfl⟩
    · rename_i hg
      cases h
      exact ⟨.mgBad g hg, rfl⟩
  | assignGuard g g' =>
    simp only [run] at h
    split at h
    · rename_i c c' hg hg'
      split at h
      · rename_i e
        subst e
        cases h
        exact ⟨.agSelf g c hg, rfl⟩
      · rename_i e
        cases h
        exact ⟨.ag g g' c c' hg hg' e, rfl⟩
    · cases h
      exact ⟨.agBad g g', rfl⟩
  | destroyGuard g =>
    simp only [run] at h
    split at h
    · rename_i d hg
      cases h
      exact ⟨.dg g d hg, rfl⟩
    · rename_i hg
      cases h
      exact ⟨.dgNone g hg, rfl⟩
    · rename_i h1 h2
      cases h
      refine ⟨.dgBad g ?_, rfl⟩
      intro c hc
      cases c with
      | none => exact h2 hc
      | some d => exact h1 d hc
  | useGuard g =>
    simp only [run] at h
    split at h
    · rename_i d hg
      split at h
      · rename_i ha
        cases h
        exact ⟨.ug g d hg ha, rfl⟩
      · rename_i ha
        cases h
        exact ⟨.ugNull g d hg (by simpa using ha), rfl⟩
    · rename_i hg
      cases h
      exact ⟨.ugNone g hg, rfl⟩
    · rename_i h1 h2
      cases h
      refine ⟨.ugBad g ?_, rfl⟩
      intro c hc
      cases c with
      | none => exact h2 hc
      | some d => exact h1 d hc

/-- The kinds of steps. -/
inductive Stepped (s : Conf prog) : Label Op → Conf prog → Prop
  | start (i : Nat) (r : Option Ret) (op : Op) (hx : s.pcs[i]? = some (.idle r)) :
      Stepped s (.start i op) ⟨s.sh, s.pcs.set i (entry op)⟩
  | run (i : Nat) (x y : PC) (sh : Sh) (hx : s.pcs[i]? = some x) (hr : Ran i s.sh x sh y) :
      Stepped s (.run i) ⟨sh, s.pcs.set i y⟩

theorem step_stepped {s s' : Conf prog} {l : Label Op} (h : prog.system.step s l = some s') : Stepped s l s' := by
  change prog.step s l = some s' at h
  cases l with
  | start i op =>
    simp only [Prog.step, Option.map_eq_some_iff, Option.bind_eq_some_iff] at h
    obtain ⟨y, ⟨x, hx, hy⟩, rfl⟩ := h
    cases x with
    | idle r => cases hy; exact .start i r op hx
    | _ => cases hy
  | run i =>
    simp only [Prog.step, Option.map_eq_some_iff, Option.bind_eq_some_iff] at h
    obtain ⟨⟨sh, y, b⟩, ⟨x, hx, hy⟩, rfl⟩ := h
    obtain ⟨hr, rfl⟩ := run_ran hy
    exact .run i x y sh hx hr
  | spurious i =>
    simp only [Prog.step, Option.map_eq_some_iff, Option.bind_eq_some_iff] at h
    obtain ⟨y, ⟨x, hx, hy⟩, -⟩ := h
    cases hy
  | timeout i =>
    simp only [Prog.step, Option.map_eq_some_iff, Option.bind_eq_some_iff] at h
    obtain ⟨y, ⟨x, hx, hy⟩, -⟩ := h
    cases hy

/-- The datum that is being released. -/
def PC.rel : PC → Option Nat
  | .rAcq _ d _ | .rDel _ d _ | .rNull _ d _ | .rUnl _ d _ => some d
  | _ => none

/-- The datum whose mutex is held exclusively. -/
def PC.excl : PC → Option Nat
  | .rDel _ d _ | .rNull _ d _ | .rUnl _ d _ => some d
  | _ => none

/-- The datum whose mutex is held shared, besides that of guards. -/
def PC.shared : PC → Option Nat
  | .gChk d _ | .gFail d | .aUnl d => some d
  | _ => none

/-- Guards of a datum. -/
def guardsOf (d : Nat) (s : Sh) : Nat := s.guards.countP (fun c => c == some (some d))

/-- Threads that hold the mutex of a datum shared, besides guards. -/
def holders (d : Nat) (pcs : List PC) : Nat := pcs.countP (fun x => x.shared == some d)

/-- `c` shared locks of `d` will never be released. -/
def Leaked (c d : Nat) (s : Conf prog) : Prop := guardsOf d s.sh + holders d s.pcs + c ≤ s.sh.readers d

theorem entry_pc (op : Op) : (entry op).rel = none ∧ (entry op).excl = none ∧ (entry op).shared = none := by
  cases op <;> exact ⟨rfl, rfl, rfl⟩

theorem guards_append (d : Nat) (s : Sh) (c : Option Nat) :
    guardsOf d (newGuard s c) = guardsOf d s + (if c = some d then 1 else 0) := by
  unfold guardsOf newGuard
  rw [List.countP_append, List.countP_singleton]
  simp

theorem guards_set {d g : Nat} {l : List (Option (Option Nat))} {c c' : Option (Option Nat)} (h : l[g]? = some c) :
    (l.set g c').countP (fun c => c == some (some d)) + (if c = some (some d) then 1 else 0) =
      l.countP (fun c => c == some (some d)) + (if c' = some (some d) then 1 else 0) := by
  have := countP_set (fun c => c == some (some d)) c' h
  simpa using this

/-- 1 if the thread holds the mutex of `d` shared. -/
def ind (d : Nat) (x : PC) : Nat := if x.shared = some d then 1 else 0

theorem holders_set {pcs : List PC} {i d : Nat} {x : PC} (y : PC) (hx : pcs[i]? = some x) :
    holders d (pcs.set i y) + ind d x = holders d pcs + ind d y := by
  have := countP_set (fun x : PC => x.shared == some d) y hx
  simpa [holders, ind] using this

theorem ind_none {d : Nat} {x : PC} (h : x.shared = none) : ind d x = 0 := by
  unfold ind
  rw [h]
  rfl

theorem ind_some {d d' : Nat} {x : PC} (h : x.shared = some d') : ind d x = if d' = d then 1 else 0 := by
  unfold ind
  rw [h]
  simp

/-- Shared locks are released by those who hold them; assigning to a guard can lose one. -/
theorem count_ran {i d : Nat} {s sh : Sh} {x y : PC} (hr : Ran i s x sh y)
    (h : guardsOf d s + ind d x ≤ s.readers d) :
    guardsOf d sh + ind d y + s.readers d ≤ guardsOf d s + ind d x + sh.readers d ∧
    ((∀ g g', x ≠ .assignGuard g g') →
      guardsOf d sh + ind d y + s.readers d = guardsOf d s + ind d x + sh.readers d) := by
  have eq : ∀ {a b : Nat} {P : Prop}, a = b → a ≤ b ∧ (P → a = b) := fun h => ⟨Nat.le_of_eq h, fun _ => h⟩
  cases hr with
  | gNone l hl =>
    have := guards_append d s none
    simp only [reduceCtorEq, if_false] at this
    rw [ind_none rfl, ind_none rfl, this]
    exact eq rfl
  | gLock d' hw =>
    refine eq ?_
    rw [ind_none rfl, ind_none rfl, guards_append d { s with readers := upd s.readers d' (s.readers d' + 1) } (some d')]
    show guardsOf d s + _ + 0 + _ = _ + 0 + upd s.readers d' (s.readers d' + 1) d
    unfold upd
    by_cases hd : d = d'
    · subst hd
      simp only [if_true]
      omega
    · rw [if_neg hd, if_neg (by intro e; cases e; exact hd rfl)]
  | gAcq d' m hw hm =>
    refine eq ?_
    rw [ind_some rfl, ind_none rfl]
    show guardsOf d s + _ + _ = _ + 0 + upd s.readers d' (s.readers d' + 1) d
    unfold upd
    by_cases hd : d = d'
    · subst hd
      simp only [if_true]
      omega
    · rw [if_neg hd, if_neg (fun e => hd e.symm)]
  | gAccess d' ha =>
    rw [ind_some rfl, ind_some rfl]
    exact eq rfl
  | gOk d' m ha hm =>
    refine eq ?_
    rw [ind_none rfl, ind_some rfl, guards_append]
    by_cases hd : d' = d
    · subst hd
      simp only [if_true]
      show _ + 1 + 0 + s.readers d' = _ + 1 + s.readers d'
      omega
    · rw [if_neg hd, if_neg (by intro e; cases e; exact hd rfl)]
      rfl
  | gBad d' m ha =>
    rw [ind_some rfl, ind_some rfl]
    exact eq rfl
  | gFail d' =>
    refine eq ?_
    rw [ind_some rfl] at h
    rw [ind_none rfl, ind_some rfl]
    show guardsOf d s + 0 + _ = guardsOf d s + _ + upd s.readers d' (s.readers d' - 1) d
    unfold upd
    by_cases hd : d = d'
    · subst hd
      simp only [if_true] at h ⊢
      omega
    · rw [if_neg hd, if_neg (fun e => hd e.symm)]
  | aUnl d' =>
    refine eq ?_
    rw [ind_some rfl] at h
    rw [ind_none rfl, ind_some rfl]
    show guardsOf d s + 0 + _ = guardsOf d s + _ + upd s.readers d' (s.readers d' - 1) d
    unfold upd
    by_cases hd : d = d'
    · subst hd
      simp only [if_true] at h ⊢
      omega
    · rw [if_neg hd, if_neg (fun e => hd e.symm)]
  | mg g k hg =>
    refine eq ?_
    have h1 := guards_set (d := d) (c' := some none) hg
    have h2 : guardsOf d { s with guards := s.guards.set g (some none) ++ [some k] } =
        (s.guards.set g (some none)).countP (fun c => c == some (some d)) + (if some k = some (some d) then 1 else 0) := by
      unfold guardsOf
      rw [List.countP_append, List.countP_singleton]
      simp
    rw [ind_none rfl, ind_none rfl, h2, h1]
    show _ + _ + _ + s.readers d = guardsOf d s + 0 + s.readers d
    rw [if_neg (show ¬ (some none : Option (Option Nat)) = some (some d) by simp)]
    rfl
  | agBad g g' =>
    rw [ind_none rfl, ind_none rfl]
    exact eq rfl
  | agSelf g k hg =>
    rw [ind_none rfl, ind_none rfl]
    exact eq rfl
  | ag g g' k k' hg hg' hne =>
    have h1 := guards_set (d := d) (c' := some k') hg
    have hg2 : (s.guards.set g (some k'))[g']? = some (some k') := by
      rw [get_set_ne (fun e => hne e.symm)]
      exact hg'
    have h2 := guards_set (d := d) (c' := some none) hg2
    rw [if_neg (show ¬ (some none : Option (Option Nat)) = some (some d) by simp)] at h2
    refine ⟨?_, fun hc => absurd rfl (hc g g')⟩
    rw [ind_none rfl, ind_none rfl]
    show ((s.guards.set g (some k')).set g' (some none)).countP _ + 0 + s.readers d ≤ s.guards.countP _ + 0 + s.readers d
    omega
  | dgNone g hg =>
    refine eq ?_
    have h1 := guards_set (d := d) (c' := none) hg
    rw [if_neg (show ¬ (some none : Option (Option Nat)) = some (some d) by simp),
      if_neg (show ¬ (none : Option (Option Nat)) = some (some d) by simp)] at h1
    rw [ind_none rfl, ind_none rfl]
    show (s.guards.set g none).countP _ + 0 + s.readers d = s.guards.countP _ + 0 + s.readers d
    omega
  | dg g d' hg =>
    refine eq ?_
    have h1 := guards_set (d := d) (c' := none) hg
    rw [if_neg (show ¬ (none : Option (Option Nat)) = some (some d) by simp)] at h1
    rw [ind_none rfl] at h
    rw [ind_none rfl, ind_none rfl]
    show (s.guards.set g none).countP _ + 0 + s.readers d = s.guards.countP _ + 0 + upd s.readers d' (s.readers d' - 1) d
    unfold upd
    unfold guardsOf at h
    by_cases hd : d = d'
    · subst hd
      simp only [if_true] at h1 ⊢
      omega
    · rw [if_neg hd]
      rw [if_neg (by intro e; cases e; exact hd rfl)] at h1
      omega
  | _ =>
    rw [ind_none rfl, ind_none rfl]
    exact eq rfl

theorem leaked_step {s s' : Conf prog} {l : Label Op} {c d : Nat} (h : Leaked c d s) (hs : Stepped s l s') :
    Leaked c d s' := by
  unfold Leaked at *
  cases hs with
  | start i r op hx =>
    have hc := holders_set (d := d) (entry op) hx
    rw [ind_none (entry_pc op).2.2, ind_none rfl] at hc
    show guardsOf d s.sh + holders d (s.pcs.set i (entry op)) + c ≤ s.sh.readers d
    omega
  | run i x y sh hx hr =>
    have hc := holders_set (d := d) y hx
    have hle : ind d x ≤ holders d s.pcs := by
      unfold ind
      split
      · rename_i e
        exact countP_pos_of_get (p := fun x : PC => x.shared == some d) hx (by simp [e])
      · exact Nat.zero_le _
    have := (count_ran (d := d) hr (by omega)).1
    show guardsOf d sh + holders d (s.pcs.set i y) + c ≤ sh.readers d
    omega

/-- What is known at the places of `release_reference_`. -/
def Loc (s : Sh) : PC → Prop
  | .rAcq _ d _ | .rDel _ d _ => s.alive d = true ∧ d ∉ s.deleted
  | .rNull _ d _ => s.alive d = true ∧ d ∈ s.deleted
  | .rUnl _ d _ => s.alive d = false ∧ d ∈ s.deleted
  | _ => True

/-- The invariant. -/
structure Inv (s : Conf prog) : Prop where
  owned : ∀ o d, s.sh.owners o = some d → s.sh.alive d = true ∧ d ∉ s.sh.deleted ∧
    ∀ (j : Nat) (x : PC), s.pcs[j]? = some x → x.rel ≠ some d
  uniq : ∀ o o' d, s.sh.owners o = some d → s.sh.owners o' = some d → o = o'
  relUniq : ∀ (i j : Nat) (x y : PC) (d : Nat), s.pcs[i]? = some x → s.pcs[j]? = some y → x.rel = some d →
    y.rel = some d → i = j
  loc : ∀ (j : Nat) (x : PC), s.pcs[j]? = some x → Loc s.sh x
  writer : ∀ (j : Nat) (x : PC) (d : Nat), s.pcs[j]? = some x → (x.excl = some d ↔ s.sh.writer d = some j)
  at_ : ∀ d j, s.sh.writer d = some j → ∃ x : PC, s.pcs[j]? = some x
  excl : ∀ d, s.sh.writer d ≠ none → s.sh.readers d = 0
  leaked : ∀ d, Leaked 0 d s
  alive : ∀ d, s.sh.alive d = true → d < s.sh.next
  status : ∀ d, d < s.sh.next → (∃ o, s.sh.owners o = some d) ∨
    (∃ (j : Nat) (x : PC), s.pcs[j]? = some x ∧ x.rel = some d) ∨ (d ∈ s.sh.deleted ∧ s.sh.alive d = false)
  deleted : s.sh.deleted.Nodup ∧ ∀ d ∈ s.sh.deleted, d < s.sh.next

theorem excl_rel {x : PC} {d : Nat} (h : x.excl = some d) : x.rel = some d := by
  cases x <;> first | exact h | (cases h; done)

/-- Changes that do not concern ownership. -/
theorem inv_frame {s : Conf prog} {i : Nat} {x y : PC} {sh : Sh} (hi : Inv s) (hx : s.pcs[i]? = some x)
    (hrel : y.rel = none ∧ x.rel = none)
    (h1 : sh.alive = s.sh.alive) (h2 : sh.owners = s.sh.owners) (h3 : sh.writer = s.sh.writer)
    (h4 : sh.next = s.sh.next) (h5 : sh.deleted = s.sh.deleted)
    (h6 : ∀ d, s.sh.writer d ≠ none → sh.readers d = 0)
    (h7 : ∀ d, Leaked 0 d ⟨sh, s.pcs.set i y⟩) : Inv ⟨sh, s.pcs.set i y⟩ := by
  have hny : ∀ d, y.rel ≠ some d := fun d => by rw [hrel.1]; nofun
  have hnx : ∀ d, x.rel ≠ some d := fun d => by rw [hrel.2]; nofun
  have hloc : ∀ {z : PC}, Loc s.sh z → Loc sh z := by
    intro z hz
    cases z <;> first | (simp only [Loc, h1, h5] at hz ⊢; exact hz) | trivial
  refine ⟨?_, ?_, ?_, ?_, ?_, ?_, ?_, h7, ?_, ?_, ?_⟩
  · intro o d ho
    simp only [h1, h2, h5] at ho ⊢
    obtain ⟨a, b, c⟩ := hi.owned o d ho
    refine ⟨a, b, ?_⟩
    intro j z hz
    rcases set_get hz with ⟨rfl, rfl, -⟩ | ⟨-, hz⟩
    · exact hny d
    · exact c j z hz
  · simp only [h2]
    exact hi.uniq
  · intro a b z w d hz hw h h'
    rcases set_get hz with ⟨rfl, rfl, -⟩ | ⟨-, hz⟩
    · exact absurd h (hny d)
    · rcases set_get hw with ⟨rfl, rfl, -⟩ | ⟨-, hw⟩
      · exact absurd h' (hny d)
      · exact hi.relUniq a b z w d hz hw h h'
  · intro j z hz
    rcases set_get hz with ⟨rfl, rfl, -⟩ | ⟨-, hz⟩
    · have := hrel.1
      cases z <;> first | trivial | (cases this; done)
    · exact hloc (hi.loc j z hz)
  · intro j z d hz
    simp only [h3]
    rcases set_get hz with ⟨rfl, rfl, -⟩ | ⟨-, hz⟩
    · constructor
      · intro h
        exact absurd (excl_rel h) (hny d)
      · intro h
        exact absurd (excl_rel ((hi.writer j x d hx).2 h)) (hnx d)
    · exact hi.writer j z d hz
  · intro d j h
    simp only [h3] at h
    obtain ⟨z, hz⟩ := hi.at_ d j h
    by_cases e : j = i
    · subst e
      exact ⟨y, get_set_self hx⟩
    · exact ⟨z, (get_set_ne e).trans hz⟩
  · simp only [h3]
    exact h6
  · simp only [h1, h4]
    exact hi.alive
  · intro d hd
    simp only [h1, h2, h4, h5] at hd ⊢
    rcases hi.status d hd with h | ⟨j, z, hz, h⟩ | h
    · exact Or.inl h
    · refine Or.inr (Or.inl ⟨j, z, ?_, h⟩)
      have : j ≠ i := by
        rintro rfl
        rw [hx] at hz
        cases hz
        exact hnx d h
      exact (get_set_ne this).trans hz
    · exact Or.inr (Or.inr h)
  · simp only [h4, h5]
    exact hi.deleted

theorem inv_run {s : Conf prog} {i : Nat} {x y : PC} {sh : Sh} (hi : Inv s) (hx : s.pcs[i]? = some x)
    (hr : Ran i s.sh x sh y) : Inv ⟨sh, s.pcs.set i y⟩ := by
  have hl : ∀ d, Leaked 0 d ⟨sh, s.pcs.set i y⟩ := fun d => leaked_step (hi.leaked d) (.run i x y sh hx hr)
  have up : ∀ d' d n, s.sh.writer d' ≠ none → (d = d' → n = 0) → upd s.sh.readers d n d' = 0 := by
    intro d' d n hw hn
    unfold upd
    split
    · rename_i e
      exact hn e.symm
    · exact hi.excl d' hw
  have lx := hi.loc i x hx
  have wx := fun d => hi.writer i x d hx
  have other : ∀ {j : Nat} {z : PC} {d : Nat}, x.rel = some d → j ≠ i → s.pcs[j]? = some z → z.rel ≠ some d :=
    fun hd hj hz h => hj (hi.relUniq _ _ _ _ _ hz hx h hd)
  cases hr with
  | take o d k ho ha =>
    obtain ⟨a, b, c⟩ := hi.owned o d ho
    have ow : ∀ {o' d'}, upd s.sh.owners o none o' = some d' → o' ≠ o ∧ s.sh.owners o' = some d' := by
      intro o' d' h
      unfold upd at h
      split at h
      · cases h
      · rename_i e
        exact ⟨e, h⟩
    refine ⟨?_, ?_, ?_, ?_, ?_, ?_, hi.excl, hl, hi.alive, ?_, hi.deleted⟩
    · intro o' d' h
      obtain ⟨e, h0⟩ := ow h
      obtain ⟨a', b', c'⟩ := hi.owned o' d' h0
      refine ⟨a', b', ?_⟩
      intro j z hz
      rcases set_get hz with ⟨rfl, rfl, -⟩ | ⟨-, hz⟩
      · intro e'
        cases e'
        exact e (hi.uniq _ _ _ h0 ho)
      · exact c' j z hz
    · intro o1 o2 d' h1 h2
      exact hi.uniq _ _ _ (ow h1).2 (ow h2).2
    · intro j j' z w d' hz hw h h'
      rcases set_get hz with ⟨rfl, rfl, -⟩ | ⟨-, hz1⟩
      · cases h
        rcases set_get hw with ⟨rfl, rfl, -⟩ | ⟨-, hw⟩
        · rfl
        · exact absurd h' (c j' w hw)
      · rcases set_get hw with ⟨rfl, rfl, -⟩ | ⟨-, hw⟩
        · cases h'
          exact absurd h (c j z hz1)
        · exact hi.relUniq _ _ _ _ _ hz1 hw h h'
    · intro j z hz
      rcases set_get hz with ⟨rfl, rfl, -⟩ | ⟨-, hz⟩
      · exact ⟨a, b⟩
      · exact hi.loc j z hz
    · intro j z d' hz
      rcases set_get hz with ⟨rfl, rfl, -⟩ | ⟨-, hz⟩
      · exact wx d'
      · exact hi.writer j z d' hz
    · intro d' j h
      obtain ⟨z, hz⟩ := hi.at_ d' j h
      by_cases e : j = i
      · subst e
        exact ⟨_, get_set_self hx⟩
      · exact ⟨z, (get_set_ne e).trans hz⟩
    · intro d' hd
      rcases hi.status d' hd with ⟨o', h⟩ | ⟨j, z, hz, h⟩ | h
      · by_cases e : o' = o
        · subst e
          rw [ho] at h
          cases h
          exact Or.inr (Or.inl ⟨i, _, get_set_self hx, rfl⟩)
        · exact Or.inl ⟨o', (upd_ne e).trans h⟩
      · refine Or.inr (Or.inl ⟨j, z, ?_, h⟩)
        have : j ≠ i := by
          rintro rfl
          rw [hx] at hz
          cases hz
          cases h
        exact (get_set_ne this).trans hz
      · exact Or.inr (Or.inr h)
  | rAcq o d k hw hr =>
    have keep : ∀ {j : Nat} {z : PC}, (s.pcs.set i (.rDel o d k))[j]? = some z →
        ∃ w : PC, s.pcs[j]? = some w ∧ w.rel = z.rel ∧ (j = i ∨ z = w) := by
      intro j z hz
      rcases set_get hz with ⟨rfl, rfl, -⟩ | ⟨-, hz⟩
      · exact ⟨_, hx, rfl, Or.inl rfl⟩
      · exact ⟨z, hz, rfl, Or.inr rfl⟩
    refine ⟨?_, hi.uniq, ?_, ?_, ?_, ?_, ?_, hl, hi.alive, ?_, hi.deleted⟩
    · intro o' d' h
      obtain ⟨a', b', c'⟩ := hi.owned o' d' h
      refine ⟨a', b', ?_⟩
      intro j z hz
      obtain ⟨w, hw, e, -⟩ := keep hz
      rw [← e]
      exact c' j w hw
    · intro j j' z w d' hz hw h h'
      obtain ⟨z', hz, e, -⟩ := keep hz
      obtain ⟨w', hw, e', -⟩ := keep hw
      exact hi.relUniq _ _ _ _ _ hz hw (e.trans h) (e'.trans h')
    · intro j z hz
      rcases set_get hz with ⟨rfl, rfl, -⟩ | ⟨-, hz⟩
      · exact lx
      · exact hi.loc j z hz
    · intro j z d' hz
      show _ ↔ upd s.sh.writer d (some i) d' = some j
      by_cases hd : d' = d
      · subst hd
        rw [upd_same]
        rcases set_get hz with ⟨rfl, rfl, -⟩ | ⟨hj, hz⟩
        · exact ⟨fun _ => rfl, fun _ => rfl⟩
        · constructor
          · intro h
            exact absurd (excl_rel h) (other rfl hj hz)
          · intro h
            cases h
            exact absurd rfl hj
      · rw [upd_ne hd]
        rcases set_get hz with ⟨rfl, rfl, -⟩ | ⟨hj, hz⟩
        · rw [← wx d']
          constructor
          · intro h
            cases h
            exact absurd rfl hd
          · intro h
            cases h
        · exact hi.writer j z d' hz
    · intro d' j h
      by_cases e : j = i
      · subst e
        exact ⟨_, get_set_self hx⟩
      · have hd : d' ≠ d := by
          rintro rfl
          simp only [upd_same] at h
          cases h
          exact e rfl
        simp only [upd_ne hd] at h
        obtain ⟨z, hz⟩ := hi.at_ d' j h
        exact ⟨z, (get_set_ne e).trans hz⟩
    · intro d' h
      by_cases hd : d' = d
      · subst hd
        exact hr
      · simp only [upd_ne hd] at h
        exact hi.excl d' h
    · intro d' hd
      rcases hi.status d' hd with h | ⟨j, z, hz, h⟩ | h
      · exact Or.inl h
      · by_cases e : j = i
        · subst e
          rw [hx] at hz
          cases hz
          exact Or.inr (Or.inl ⟨j, _, get_set_self hx, h⟩)
        · exact Or.inr (Or.inl ⟨j, z, (get_set_ne e).trans hz, h⟩)
      · exact Or.inr (Or.inr h)
  | rDel o d k ha =>
    refine ⟨?_, hi.uniq, ?_, ?_, ?_, ?_, hi.excl, hl, hi.alive, ?_, ?_⟩
    · intro o' d' h
      obtain ⟨a', b', c'⟩ := hi.owned o' d' h
      have hd : d' ≠ d := by
        rintro rfl
        exact c' i _ hx rfl
      refine ⟨a', ?_, ?_⟩
      · simp only [List.mem_append, List.mem_singleton]
        exact fun h => h.elim b' hd
      · intro j z hz
        rcases set_get hz with ⟨rfl, rfl, -⟩ | ⟨-, hz⟩
        · exact c' j (.rDel o d k) hx
        · exact c' j z hz
    · intro j j' z w d' hz hw h h'
      rcases set_get hz with ⟨rfl, rfl, -⟩ | ⟨-, hz1⟩
      · rcases set_get hw with ⟨rfl, rfl, -⟩ | ⟨-, hw⟩
        · rfl
        · exact hi.relUniq _ _ _ _ _ hx hw h h'
      · rcases set_get hw with ⟨rfl, rfl, -⟩ | ⟨-, hw⟩
        · exact hi.relUniq _ _ _ _ _ hz1 hx h h'
        · exact hi.relUniq _ _ _ _ _ hz1 hw h h'
    · intro j z hz
      rcases set_get hz with ⟨rfl, rfl, -⟩ | ⟨hj, hz⟩
      · exact ⟨lx.1, List.mem_append_right _ (List.mem_singleton.2 rfl)⟩
      · have hne := other (d := d) rfl hj hz
        have := hi.loc j z hz
        have up : ∀ d' : Nat, d' ≠ d → (d' ∈ s.sh.deleted ++ [d] ↔ d' ∈ s.sh.deleted) := by
          intro d' hd
          simp [hd]
        cases z with
        | rAcq _ d' _ =>
          exact ⟨this.1, fun h => this.2 ((up d' (fun e => hne (by rw [e]; rfl))).1 h)⟩
        | rDel _ d' _ =>
          exact ⟨this.1, fun h => this.2 ((up d' (fun e => hne (by rw [e]; rfl))).1 h)⟩
        | rNull _ d' _ => exact ⟨this.1, List.mem_append_left _ this.2⟩
        | rUnl _ d' _ => exact ⟨this.1, List.mem_append_left _ this.2⟩
        | _ => trivial
    · intro j z d' hz
      rcases set_get hz with ⟨rfl, rfl, -⟩ | ⟨-, hz⟩
      · exact wx d'
      · exact hi.writer j z d' hz
    · intro d' j h
      obtain ⟨z, hz⟩ := hi.at_ d' j h
      by_cases e : j = i
      · subst e
        exact ⟨_, get_set_self hx⟩
      · exact ⟨z, (get_set_ne e).trans hz⟩
    · intro d' hd
      rcases hi.status d' hd with h | ⟨j, z, hz, h⟩ | h
      · exact Or.inl h
      · by_cases e : j = i
        · subst e
          rw [hx] at hz
          cases hz
          exact Or.inr (Or.inl ⟨j, _, get_set_self hx, h⟩)
        · exact Or.inr (Or.inl ⟨j, z, (get_set_ne e).trans hz, h⟩)
      · exact Or.inr (Or.inr ⟨List.mem_append_left _ h.1, h.2⟩)
    · refine ⟨?_, ?_⟩
      · refine List.nodup_append.2 ⟨hi.deleted.1, List.nodup_cons.2 ⟨List.not_mem_nil, List.nodup_nil⟩, ?_⟩
        intro a h b hb e
        rw [List.mem_singleton] at hb
        subst e
        subst hb
        exact lx.2 h
      · intro d' hd
        rcases List.mem_append.1 hd with h | h
        · exact hi.deleted.2 d' h
        · rw [List.mem_singleton] at h
          subst h
          exact hi.alive d' ha
  | rSkip o d k ha =>
    have := lx.1
    rw [ha] at this
    cases this
  | rNull o d k =>
    refine ⟨?_, hi.uniq, ?_, ?_, ?_, ?_, hi.excl, hl, ?_, ?_, hi.deleted⟩
    · intro o' d' h
      obtain ⟨a', b', c'⟩ := hi.owned o' d' h
      have hd : d' ≠ d := by
        rintro rfl
        exact c' i _ hx rfl
      refine ⟨(upd_ne hd).trans a', b', ?_⟩
      intro j z hz
      rcases set_get hz with ⟨rfl, rfl, -⟩ | ⟨-, hz⟩
      · exact c' j (.rNull o d k) hx
      · exact c' j z hz
    · intro j j' z w d' hz hw h h'
      rcases set_get hz with ⟨rfl, rfl, -⟩ | ⟨-, hz1⟩
      · rcases set_get hw with ⟨rfl, rfl, -⟩ | ⟨-, hw⟩
        · rfl
        · exact hi.relUniq _ _ _ _ _ hx hw h h'
      · rcases set_get hw with ⟨rfl, rfl, -⟩ | ⟨-, hw⟩
        · exact hi.relUniq _ _ _ _ _ hz1 hx h h'
        · exact hi.relUniq _ _ _ _ _ hz1 hw h h'
    · intro j z hz
      rcases set_get hz with ⟨rfl, rfl, -⟩ | ⟨hj, hz⟩
      · exact ⟨upd_same _ _ _, lx.2⟩
      · have hne := other (d := d) rfl hj hz
        have := hi.loc j z hz
        have up : ∀ d' : Nat, d' ≠ d → upd s.sh.alive d false d' = s.sh.alive d' := fun d' h => upd_ne h
        cases z with
        | rAcq _ d' _ => exact ⟨(up d' (fun e => hne (by rw [e]; rfl))).trans this.1, this.2⟩
        | rDel _ d' _ => exact ⟨(up d' (fun e => hne (by rw [e]; rfl))).trans this.1, this.2⟩
        | rNull _ d' _ => exact ⟨(up d' (fun e => hne (by rw [e]; rfl))).trans this.1, this.2⟩
        | rUnl _ d' _ => exact ⟨(up d' (fun e => hne (by rw [e]; rfl))).trans this.1, this.2⟩
        | _ => trivial
    · intro j z d' hz
      rcases set_get hz with ⟨rfl, rfl, -⟩ | ⟨-, hz⟩
      · exact wx d'
      · exact hi.writer j z d' hz
    · intro d' j h
      obtain ⟨z, hz⟩ := hi.at_ d' j h
      by_cases e : j = i
      · subst e
        exact ⟨_, get_set_self hx⟩
      · exact ⟨z, (get_set_ne e).trans hz⟩
    · intro d' h
      by_cases hd : d' = d
      · subst hd
        exact hi.alive d' lx.1
      · simp only [upd_ne hd] at h
        exact hi.alive d' h
    · intro d' hd
      rcases hi.status d' hd with h | ⟨j, z, hz, h⟩ | h
      · exact Or.inl h
      · by_cases e : j = i
        · subst e
          rw [hx] at hz
          cases hz
          exact Or.inr (Or.inl ⟨j, _, get_set_self hx, h⟩)
        · exact Or.inr (Or.inl ⟨j, z, (get_set_ne e).trans hz, h⟩)
      · refine Or.inr (Or.inr ⟨h.1, ?_⟩)
        show upd s.sh.alive d false d' = false
        unfold upd
        split
        · rfl
        · exact h.2
  | rUnl o d k =>
    refine ⟨?_, hi.uniq, ?_, ?_, ?_, ?_, ?_, hl, hi.alive, ?_, hi.deleted⟩
    · intro o' d' h
      obtain ⟨a', b', c'⟩ := hi.owned o' d' h
      refine ⟨a', b', ?_⟩
      intro j z hz
      rcases set_get hz with ⟨rfl, rfl, -⟩ | ⟨-, hz⟩
      · nofun
      · exact c' j z hz
    · intro j j' z w d' hz hw h h'
      rcases set_get hz with ⟨rfl, rfl, -⟩ | ⟨-, hz⟩
      · cases h
      · rcases set_get hw with ⟨rfl, rfl, -⟩ | ⟨-, hw⟩
        · cases h'
        · exact hi.relUniq _ _ _ _ _ hz hw h h'
    · intro j z hz
      rcases set_get hz with ⟨rfl, rfl, -⟩ | ⟨-, hz⟩
      · trivial
      · exact hi.loc j z hz
    · intro j z d' hz
      show _ ↔ upd s.sh.writer d none d' = some j
      by_cases hd : d' = d
      · subst hd
        rw [upd_same]
        rcases set_get hz with ⟨rfl, rfl, -⟩ | ⟨hj, hz⟩
        · exact ⟨nofun, nofun⟩
        · constructor
          · intro h
            exact absurd (excl_rel h) (other rfl hj hz)
          · nofun
      · rw [upd_ne hd]
        rcases set_get hz with ⟨rfl, rfl, -⟩ | ⟨hj, hz⟩
        · rw [← wx d']
          constructor
          · nofun
          · intro h
            cases h
            exact absurd rfl hd
        · exact hi.writer j z d' hz
    · intro d' j h
      have hd : d' ≠ d := by
        rintro rfl
        simp only [upd_same] at h
        cases h
      simp only [upd_ne hd] at h
      obtain ⟨z, hz⟩ := hi.at_ d' j h
      by_cases e : j = i
      · subst e
        exact ⟨_, get_set_self hx⟩
      · exact ⟨z, (get_set_ne e).trans hz⟩
    · intro d' h
      have hd : d' ≠ d := by
        rintro rfl
        exact h (upd_same _ _ _)
      simp only [upd_ne hd] at h
      exact hi.excl d' h
    · intro d' hd
      rcases hi.status d' hd with h | ⟨j, z, hz, h⟩ | h
      · exact Or.inl h
      · by_cases e : j = i
        · subst e
          rw [hx] at hz
          cases hz
          cases h
          exact Or.inr (Or.inr ⟨lx.2, lx.1⟩)
        · exact Or.inr (Or.inl ⟨j, z, (get_set_ne e).trans hz, h⟩)
      · exact Or.inr (Or.inr h)
  | give o ho =>
    have fresh : ∀ {d}, d ∈ s.sh.deleted ∨ s.sh.alive d = true → d ≠ s.sh.next := by
      rintro d (h | h) rfl
      · exact Nat.lt_irrefl _ (hi.deleted.2 _ h)
      · exact Nat.lt_irrefl _ (hi.alive _ h)
    have relFresh : ∀ {j : Nat} {z : PC} {d : Nat}, s.pcs[j]? = some z → z.rel = some d → d ≠ s.sh.next := by
      intro j z d hz h
      have := hi.loc j z hz
      cases z with
      | rAcq _ d' _ => cases h; exact fresh (Or.inr this.1)
      | rDel _ d' _ => cases h; exact fresh (Or.inr this.1)
      | rNull _ d' _ => cases h; exact fresh (Or.inr this.1)
      | rUnl _ d' _ => cases h; exact fresh (Or.inl this.2)
      | _ => cases h
    have notNext : ∀ {o' : Nat}, s.sh.owners o' ≠ some s.sh.next := fun h => fresh (Or.inr (hi.owned _ _ h).1) rfl
    have oldRel : ∀ {j : Nat} {z : PC} {d : Nat}, (s.pcs.set i (.idle (some .done)))[j]? = some z → z.rel = some d →
        s.pcs[j]? = some z := by
      intro j z d hz h
      rcases set_get hz with ⟨rfl, rfl, -⟩ | ⟨-, hz⟩
      · cases h
      · exact hz
    refine ⟨?_, ?_, ?_, ?_, ?_, ?_, hi.excl, hl, ?_, ?_, ?_⟩
    · intro o' d' h
      show upd s.sh.alive s.sh.next true d' = true ∧ _
      by_cases e : o' = o
      · subst e
        simp only [upd_same] at h
        cases h
        refine ⟨upd_same _ _ _, fun h => fresh (Or.inl h) rfl, ?_⟩
        intro j z hz h
        exact relFresh (oldRel hz h) h rfl
      · simp only [upd_ne e] at h
        obtain ⟨a', b', c'⟩ := hi.owned o' d' h
        refine ⟨(upd_ne (fresh (Or.inr a'))).trans a', b', ?_⟩
        intro j z hz h
        exact c' j z (oldRel hz h) h
    · intro o1 o2 d' h1 h2
      by_cases e1 : o1 = o
      · by_cases e2 : o2 = o
        · exact e1.trans e2.symm
        · subst e1
          simp only [upd_same] at h1
          cases h1
          simp only [upd_ne e2] at h2
          exact absurd h2 notNext
      · simp only [upd_ne e1] at h1
        by_cases e2 : o2 = o
        · subst e2
          simp only [upd_same] at h2
          cases h2
          exact absurd h1 notNext
        · simp only [upd_ne e2] at h2
          exact hi.uniq _ _ _ h1 h2
    · intro j j' z w d' hz hw h h'
      exact hi.relUniq _ _ _ _ _ (oldRel hz h) (oldRel hw h') h h'
    · intro j z hz
      rcases set_get hz with ⟨rfl, rfl, -⟩ | ⟨-, hz⟩
      · trivial
      · have := hi.loc j z hz
        have hf : ∀ d, z.rel = some d → upd s.sh.alive s.sh.next true d = s.sh.alive d := fun d h =>
          upd_ne (relFresh hz h)
        cases z with
        | rAcq _ d' _ => exact ⟨(hf d' rfl).trans this.1, this.2⟩
        | rDel _ d' _ => exact ⟨(hf d' rfl).trans this.1, this.2⟩
        | rNull _ d' _ => exact ⟨(hf d' rfl).trans this.1, this.2⟩
        | rUnl _ d' _ => exact ⟨(hf d' rfl).trans this.1, this.2⟩
        | _ => trivial
    · intro j z d' hz
      rcases set_get hz with ⟨rfl, rfl, -⟩ | ⟨-, hz⟩
      · exact wx d'
      · exact hi.writer j z d' hz
    · intro d' j h
      obtain ⟨z, hz⟩ := hi.at_ d' j h
      by_cases e : j = i
      · subst e
        exact ⟨_, get_set_self hx⟩
      · exact ⟨z, (get_set_ne e).trans hz⟩
    · intro d' h
      show d' < s.sh.next + 1
      by_cases hd : d' = s.sh.next
      · omega
      · simp only [upd_ne hd] at h
        have := hi.alive d' h
        omega
    · intro d' hd
      show (∃ o', upd s.sh.owners o (some s.sh.next) o' = some d') ∨ _ ∨ _ ∧ upd s.sh.alive s.sh.next true d' = false
      by_cases e : d' = s.sh.next
      · subst e
        exact Or.inl ⟨o, upd_same _ _ _⟩
      · have hd' : d' < s.sh.next := by
          have : d' < s.sh.next + 1 := hd
          omega
        rcases hi.status d' hd' with ⟨o', h⟩ | ⟨j, z, hz, h⟩ | h
        · have : o' ≠ o := by
            rintro rfl
            rw [ho] at h
            cases h
          exact Or.inl ⟨o', (upd_ne this).trans h⟩
        · have : j ≠ i := by
            rintro rfl
            rw [hx] at hz
            cases hz
            cases h
          exact Or.inr (Or.inl ⟨j, z, (get_set_ne this).trans hz, h⟩)
        · exact Or.inr (Or.inr ⟨h.1, (upd_ne e).trans h.2⟩)
    · refine ⟨hi.deleted.1, fun d' h => ?_⟩
      have := hi.deleted.2 d' h
      show d' < s.sh.next + 1
      omega
  | move o o' ho =>
    have ow : ∀ {p d}, upd (upd s.sh.owners o' none) o (s.sh.owners o') p = some d →
        (p = o ∧ s.sh.owners o' = some d) ∨ (p ≠ o ∧ p ≠ o' ∧ s.sh.owners p = some d) := by
      intro p d h
      by_cases e : p = o
      · subst e
        rw [upd_same] at h
        exact Or.inl ⟨rfl, h⟩
      · rw [upd_ne e] at h
        by_cases e' : p = o'
        · subst e'
          rw [upd_same] at h
          cases h
        · rw [upd_ne e'] at h
          exact Or.inr ⟨e, e', h⟩
    refine ⟨?_, ?_, ?_, ?_, ?_, ?_, hi.excl, hl, hi.alive, ?_, hi.deleted⟩
    · intro p d' h
      have hp : ∃ q, s.sh.owners q = some d' := by
        rcases ow h with ⟨-, h⟩ | ⟨-, -, h⟩
        · exact ⟨_, h⟩
        · exact ⟨_, h⟩
      obtain ⟨q, hq⟩ := hp
      obtain ⟨a', b', c'⟩ := hi.owned q d' hq
      refine ⟨a', b', ?_⟩
      intro j z hz
      rcases set_get hz with ⟨rfl, rfl, -⟩ | ⟨-, hz⟩
      · nofun
      · exact c' j z hz
    · intro p q d' h1 h2
      rcases ow h1 with ⟨e1, h1⟩ | ⟨e1, f1, h1⟩ <;> rcases ow h2 with ⟨e2, h2⟩ | ⟨e2, f2, h2⟩
      · exact e1.trans e2.symm
      · exact absurd (hi.uniq _ _ _ h1 h2).symm f2
      · exact absurd (hi.uniq _ _ _ h1 h2) f1
      · exact hi.uniq _ _ _ h1 h2
    · intro j j' z w d' hz hw h h'
      rcases set_get hz with ⟨rfl, rfl, -⟩ | ⟨-, hz⟩
      · cases h
      · rcases set_get hw with ⟨rfl, rfl, -⟩ | ⟨-, hw⟩
        · cases h'
        · exact hi.relUniq _ _ _ _ _ hz hw h h'
    · intro j z hz
      rcases set_get hz with ⟨rfl, rfl, -⟩ | ⟨-, hz⟩
      · trivial
      · exact hi.loc j z hz
    · intro j z d' hz
      rcases set_get hz with ⟨rfl, rfl, -⟩ | ⟨-, hz⟩
      · exact wx d'
      · exact hi.writer j z d' hz
    · intro d' j h
      obtain ⟨z, hz⟩ := hi.at_ d' j h
      by_cases e : j = i
      · subst e
        exact ⟨_, get_set_self hx⟩
      · exact ⟨z, (get_set_ne e).trans hz⟩
    · intro d' hd
      show (∃ p, upd (upd s.sh.owners o' none) o (s.sh.owners o') p = some d') ∨ _
      rcases hi.status d' hd with ⟨p, h⟩ | ⟨j, z, hz, h⟩ | h
      · have hpo : p ≠ o := by
          rintro rfl
          rw [ho] at h
          cases h
        by_cases e : p = o'
        · subst e
          exact Or.inl ⟨o, (upd_same _ _ _).trans h⟩
        · exact Or.inl ⟨p, ((upd_ne hpo).trans (upd_ne e)).trans h⟩
      · have : j ≠ i := by
          rintro rfl
          rw [hx] at hz
          cases hz
          cases h
        exact Or.inr (Or.inl ⟨j, z, (get_set_ne this).trans hz, h⟩)
      · exact Or.inr (Or.inr h)
  | gLock d hw =>
    refine inv_frame hi hx ⟨rfl, rfl⟩ rfl rfl rfl rfl rfl ?_ hl
    intro d' h
    exact up d' d _ h (fun e => by subst e; exact absurd hw h)
  | gAcq d m hw hm =>
    refine inv_frame hi hx ⟨rfl, rfl⟩ rfl rfl rfl rfl rfl ?_ hl
    intro d' h
    exact up d' d _ h (fun e => by subst e; exact absurd hw h)
  | gFail d =>
    refine inv_frame hi hx ⟨rfl, rfl⟩ rfl rfl rfl rfl rfl ?_ hl
    intro d' h
    exact up d' d _ h (fun e => by subst e; rw [hi.excl d h])
  | aUnl d =>
    refine inv_frame hi hx ⟨rfl, rfl⟩ rfl rfl rfl rfl rfl ?_ hl
    intro d' h
    exact up d' d _ h (fun e => by subst e; rw [hi.excl d h])
  | dg g d hg =>
    refine inv_frame hi hx ⟨rfl, rfl⟩ rfl rfl rfl rfl rfl ?_ hl
    intro d' h
    exact up d' d _ h (fun e => by subst e; rw [show s.sh.readers d = 0 from hi.excl d h])
  | _ => exact inv_frame hi hx ⟨rfl, rfl⟩ rfl rfl rfl rfl rfl hi.excl hl

theorem inv_step {s s' : Conf prog} {l : Label Op} (hi : Inv s) (hs : Stepped s l s') : Inv s' := by
  have hl : ∀ d, Leaked 0 d s' := fun d => leaked_step (hi.leaked d) hs
  cases hs with
  | start i r op hx => exact inv_frame hi hx ⟨(entry_pc op).1, rfl⟩ rfl rfl rfl rfl rfl hi.excl hl
  | run i x y sh hx hr => exact inv_run hi hx hr

theorem inv_init (n : Nat) : Inv (init n) := by
  have hp : ∀ {j : Nat} {x : PC}, (init n).pcs[j]? = some x → x = .idle none := fun h => Prog.init_get h
  refine ⟨nofun, nofun, ?_, ?_, ?_, nofun, fun _ h => absurd rfl h, ?_, nofun, nofun, List.nodup_nil, nofun⟩
  · intro i j x y d hx hy h
    rw [hp hx] at h
    cases h
  · intro j x hx
    rw [hp hx]
    trivial
  · intro j x d hx
    rw [hp hx]
    exact ⟨nofun, nofun⟩
  · intro d
    have : holders d (init n).pcs = 0 := by
      unfold holders
      rw [List.countP_eq_zero]
      intro x hx
      have : x = .idle none := (List.mem_replicate.1 hx).2
      rw [this]
      nofun
    unfold Leaked
    rw [this]
    exact Nat.le_refl 0

theorem inv {n : Nat} {s : Conf prog} (h : prog.system.Reachable (init n) s) : Inv s :=
  System.Reachable.invariant (S := prog.system) Inv (inv_init n) (fun _ _ _ hi hs => inv_step hi (step_stepped hs)) h

end Verif.OwnerPtr
