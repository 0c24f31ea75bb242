import Verif.Lemmas.MultipleShared
/-!
C173: a `MultipleEventHandler` whose handlers raise events in threads of their own, and its destruction meanwhile.
-/
namespace Verif.MultipleShared
open Verif.Threads

/-! ### Nobody uses a handler that is gone -/

/-- Number of handlers the destructor has destroyed, at each of its places. -/
def PC.done (kids : Nat) : PC → Option Nat
  | .dNext k | .dLock k | .dStop k | .dJoin k => some k
  | .uEvent true | .uTest true | .uInternal true | .uFlag true | .uRel true | .uOut true | .gone => some kids
  | _ => none

/-- What holds of a thread while thread `d` destroys the handler. -/
structure DLoc (d : Nat) (s : Sh) (j : Nat) (z : PC) : Prop where
  self : j = d → ∃ k, z.done s.kids = some k ∧ ∀ i, i < k → i < s.kids → (s.ch i).stopped = true ∧ (s.ch i).busy = 0
  rest : j ≠ d → z = .idle ∨ (∃ i, z = .cEnter i) ∨ z.within.isSome = true

theorem still_ran {t : Nat} {s s' : Sh} {x y : PC} (h : Ran t s x s' y) (i : Nat)
    (hi : (s.ch i).stopped = true ∧ (s.ch i).busy = 0) : (s'.ch i).stopped = true ∧ (s'.ch i).busy = 0 := by
  refine ⟨stopped_ran h i hi.1, ?_⟩
  have hb := hi.2
  cases h with
  | enter k _ hs =>
    by_cases e : i = k
    · subst e; rw [hi.1] at hs; cases hs
    · simp [e, hb]
  | cCount k | dLock k | dStop k | cLock k | cRel k =>
    by_cases e : i = k
    · subst e; simp [hb]
    · simp [e, hb]
  | _ => exact hb

theorem done_ran {t : Nat} {s s' : Sh} {x y : PC} (hl : Loc s t x) (h : Ran t s x s' y) {k : Nat}
    (hk : x.done s.kids = some k)
    (hd : ∀ i, i < k → i < s.kids → (s.ch i).stopped = true ∧ (s.ch i).busy = 0) :
    ∃ k', y.done s.kids = some k' ∧ ∀ i, i < k' → i < s.kids → (s.ch i).stopped = true ∧ (s.ch i).busy = 0 := by
  have hj := hl.join
  cases h with
  | dAll m hm =>
    cases hk
    exact ⟨_, rfl, fun i _ h => hd i (by omega) h⟩
  | dJoin m hm =>
    cases hk
    refine ⟨_, rfl, fun i h1 h2 => ?_⟩
    by_cases e : i = k
    · subst e; exact ⟨hj i rfl, hm⟩
    · exact hd i (by omega) h2
  | dMore | dLock | dStop => exact ⟨k, hk, hd⟩
  | uEvent d | uYes d | uNo d | uInternal d | uFlag d | uRel d =>
    cases d with
    | true => exact ⟨k, hk, hd⟩
    | false => cases hk
  | uGone => exact ⟨k, hk, hd⟩
  | _ => cases hk

theorem rest_ran {t : Nat} {s s' : Sh} {x y : PC} (h : Ran t s x s' y)
    (hx : x = .idle ∨ (∃ i, x = .cEnter i) ∨ x.within.isSome = true) :
    y = .idle ∨ (∃ i, y = .cEnter i) ∨ y.within.isSome = true := by
  cases h with
  | skip | cRel | pEnd | sOut | uOut => exact Or.inl rfl
  | enter | cLock | cYes | cNo | cCount | pRel => exact Or.inr (Or.inr rfl)
  | pLock k | pYes k | pNo k | pCall k =>
    rcases hx with h | ⟨i, h⟩ | h
    · cases h
    · cases h
    · exact Or.inr (Or.inr h)
  | _ =>
    rcases hx with h | ⟨i, h⟩ | h
    · cases h
    · cases h
    · cases h

theorem dloc_local (d : Nat) : prog.Local (fun op => ∃ i, op = .child i) (fun _ => True)
    (fun s j z => Loc s j z ∧ DLoc d s j z) where
  start := fun s i x op y ha hg hx h => by
    refine ⟨(loc_local fun _ => True).start s i x op y trivial hg hx.1 h, ?_, ?_⟩
    · intro e
      obtain ⟨rfl, -⟩ := start_spec h
      obtain ⟨k, hk, -⟩ := hx.2.self e
      cases hk
    · intro e
      obtain ⟨rfl, -⟩ := start_spec h
      obtain ⟨k, rfl⟩ := ha
      cases h
      exact Or.inr (Or.inl ⟨k, rfl⟩)
  shared := fun _ _ _ _ _ _ _ _ _ => trivial
  run := fun s i x s' y b hg hx h => by
    have hr : Ran i s x s' y := run_ran h
    refine ⟨loc_run hx.1 hr, ?_, fun e => rest_ran hr (hx.2.rest e)⟩
    intro e
    obtain ⟨k, hk, hd⟩ := hx.2.self e
    obtain ⟨k', hk', hd'⟩ := done_ran hx.1 hr hk hd
    rw [kids_ran hr]
    exact ⟨k', hk', fun i h1 h2 => still_ran hr i (hd' i h1 h2)⟩
  other := fun s i x s' y b j z hg hx h hne hz => by
    have hr : Ran i s x s' y := run_ran h
    refine ⟨loc_other hx.1 hr hne hz.1, ?_, hz.2.rest⟩
    intro e
    obtain ⟨k, hk, hd⟩ := hz.2.self e
    rw [kids_ran hr]
    exact ⟨k, hk, fun i h1 h2 => still_ran hr i (hd i h1 h2)⟩
  woken := fun _ _ _ _ _ h => by cases h
  late := fun _ _ _ _ _ h => by cases h

theorem full_from {A : Op → Prop} {s s' : Conf prog} (h : Full s) (hs : prog.system.ReachableBy A s s') : Full s' :=
  System.ReachableBy.invariant (S := prog.system) Full h (fun _ _ _ hf _ hs => full_step hf (Prog.step_stepped hs)) hs

theorem destroy_inv {kids n d : Nat} {s s' : Conf prog} (hr : prog.system.Reachable (init kids n) s)
    (hd : s.pcs[d]? = some (.dNext 0))
    (ho : ∀ (j : Nat) (x : PC), j ≠ d → s.pcs[j]? = some x →
      x = .idle ∨ (∃ i, x = .cEnter i) ∨ x.within.isSome = true)
    (hs : prog.system.ReachableBy (fun op => ∃ i, op = .child i) s s') :
    Full s' ∧ prog.Inv (fun _ => True) (fun s j z => Loc s j z ∧ DLoc d s j z) s' := by
  have hF := full_reachable hr
  refine ⟨full_from hF hs, (dloc_local d).reachable ⟨trivial, ?_⟩ hs⟩
  intro j x hx
  refine ⟨hF.inv.loc j x hx, fun e => ?_, fun e => ho j x e hx⟩
  subst e
  rw [hd] at hx
  cases hx
  exact ⟨0, rfl, fun i h => absurd h (Nat.not_lt_zero i)⟩

/-- Nobody is within an event when the handler is gone. -/
theorem gone_out {d : Nat} {s : Conf prog} (hF : Full s)
    (hI : prog.Inv (fun _ => True) (fun s j z => Loc s j z ∧ DLoc d s j z) s) (hg : s.pcs[d]? = some .gone)
    (j : Nat) (x : PC) (hj : j ≠ d) (hx : s.pcs[j]? = some x) : x = .idle ∨ ∃ i, x = .cEnter i := by
  obtain ⟨hl, hr⟩ := hI.loc j x hx
  rcases hr.rest hj with h | h | h
  · exact Or.inl h
  · exact Or.inr h
  · exfalso
    obtain ⟨i, hi⟩ := Option.isSome_iff_exists.1 h
    obtain ⟨k, hk, hd⟩ := (hI.loc d _ hg).2.self rfl
    cases hk
    have hlt := hl.kid i hi
    have h0 := (hd i hlt hlt).2
    have := hF.busy i
    have hp : 0 < s.pcs.countP fun x => decide (PC.within x = some i) :=
      countP_pos_of_get (fun x => decide (PC.within x = some i)) hx (by simpa using hi)
    rw [← this, h0] at hp
    exact absurd hp (Nat.lt_irrefl 0)

/-- C173: a `MultipleEventHandler` may be destroyed while its handlers raise events, also new ones during the destruction:
if the other threads make no call of their own to it, then once the destructor has returned no thread is within an event:
each is idle, or a source about to find that it has been stopped. -/
theorem C173_safe (kids n : Nat) (s s' : Conf prog) (hr : prog.system.Reachable (init kids n) s) (d : Nat)
    (hd : s.pcs[d]? = some (.dNext 0))
    (hothers : ∀ (j : Nat) (x : PC), j ≠ d → s.pcs[j]? = some x → x = .idle ∨ ∃ i, x = .cEnter i ∨ x = .cLock i ∨
      x = .cTest i ∨ x = .pLock (some i) ∨ x = .pTest (some i) ∨ x = .pCall (some i) ∨ x = .pRel (some i) ∨
      x = .cCount i ∨ x = .cRel i)
    (hs : prog.system.ReachableBy (fun op => ∃ i, op = .child i) s s') (hgone : s'.pcs[d]? = some .gone)
    (j : Nat) (x : PC) (hj : j ≠ d) (hx : s'.pcs[j]? = some x) : x = .idle ∨ ∃ i, x = .cEnter i := by
  obtain ⟨hF, hI⟩ := destroy_inv hr hd (by
    intro j x hj hx
    rcases hothers j x hj hx with h | ⟨i, h | h | h | h | h | h | h | h | h⟩
    · exact Or.inl h
    · exact Or.inr (Or.inl ⟨i, h⟩)
    all_goals subst h; exact Or.inr (Or.inr rfl)) hs
  exact gone_out hF hI hgone j x hj hx

/-- C173: after that, whatever the sources do, the callback is not called and neither mutex is locked. -/
theorem C173_quiet (kids n : Nat) (s s' s'' : Conf prog) (hr : prog.system.Reachable (init kids n) s) (d : Nat)
    (hd : s.pcs[d]? = some (.dNext 0))
    (hothers : ∀ (j : Nat) (x : PC), j ≠ d → s.pcs[j]? = some x → x = .idle ∨ ∃ i, x = .cEnter i ∨ x = .cLock i ∨
      x = .cTest i ∨ x = .pLock (some i) ∨ x = .pTest (some i) ∨ x = .pCall (some i) ∨ x = .pRel (some i) ∨
      x = .cCount i ∨ x = .cRel i)
    (hs : prog.system.ReachableBy (fun op => ∃ i, op = .child i) s s') (hgone : s'.pcs[d]? = some .gone)
    (hs' : prog.system.ReachableBy (fun op => ∃ i, op = .child i) s' s'') :
    s''.sh.calls = s'.sh.calls ∧ s''.sh.count = s'.sh.count ∧ s''.sh.event = none ∧ s''.sh.internal = none := by
  have ho : ∀ (j : Nat) (x : PC), j ≠ d → s.pcs[j]? = some x →
      x = .idle ∨ (∃ i, x = .cEnter i) ∨ x.within.isSome = true := by
    intro j x hj hx
    rcases hothers j x hj hx with h | ⟨i, h | h | h | h | h | h | h | h | h⟩
    · exact Or.inl h
    · exact Or.inr (Or.inl ⟨i, h⟩)
    all_goals subst h; exact Or.inr (Or.inr rfl)
  have key : ∀ u : Conf prog, Full u → prog.Inv (fun _ => True) (fun s j z => Loc s j z ∧ DLoc d s j z) u →
      u.pcs[d]? = some .gone → ∀ (j : Nat) (x : PC), u.pcs[j]? = some x → x = .gone ∨ x = .idle ∨ ∃ i, x = .cEnter i := by
    intro u hF hI hg j x hx
    by_cases hj : j = d
    · subst hj; rw [hg] at hx; cases hx; exact Or.inl rfl
    · exact Or.inr (gone_out hF hI hg j x hj hx)
  obtain ⟨hF, hI⟩ := destroy_inv hr hd ho hs
  have hend : Full s'' ∧ prog.Inv (fun _ => True) (fun s j z => Loc s j z ∧ DLoc d s j z) s'' ∧
      s''.pcs[d]? = some .gone ∧ s''.sh.calls = s'.sh.calls ∧ s''.sh.count = s'.sh.count := by
    refine System.ReachableBy.invariant (S := prog.system) (fun u : Conf prog => Full u ∧
      prog.Inv (fun _ => True) (fun s j z => Loc s j z ∧ DLoc d s j z) u ∧ u.pcs[d]? = some .gone ∧
      u.sh.calls = s'.sh.calls ∧ u.sh.count = s'.sh.count) ⟨hF, hI, hgone, rfl, rfl⟩ ?_ hs'
    rintro u l u' ⟨h1, h2, h3, h4, h5⟩ hl hst
    have hst := Prog.step_stepped hst
    have hg : u'.pcs[d]? = some .gone := by
      obtain ⟨y, hy, h⟩ := Prog.track hst h3
      rcases h with ⟨op, -, h, -⟩ | ⟨-, b, h⟩ | ⟨-, h, -⟩
      · cases h
      · cases h
      · rcases h with rfl | h | h
        · exact hy
        · cases h
        · cases h
    refine ⟨full_step h1 hst, (dloc_local d).step h2 hl hst, hg, ?_⟩
    rcases Prog.stepped_sh hst with e | ⟨t, x, y, b, -, hx, hr⟩
    · rw [e]; exact ⟨h4, h5⟩
    · have hr : Ran t u.sh x u'.sh y := run_ran hr
      rcases key u h1 h2 h3 t x hx with rfl | rfl | ⟨i, rfl⟩
      · cases hr
      · cases hr
      · generalize u'.sh = v at hr
        cases hr <;> exact ⟨h4, h5⟩
  obtain ⟨h1, h2, h3, h4, h5⟩ := hend
  have none_ : ∀ o : Option Nat, (∀ j, o = some j → j < s''.pcs.length) →
      (∀ (j : Nat) (x : PC), s''.pcs[j]? = some x → o ≠ some j) → o = none := by
    intro o h6 h7
    cases o with
    | none => rfl
    | some j => exact absurd rfl (h7 j _ (List.getElem?_eq_getElem (h6 j rfl)))
  refine ⟨h4, h5, none_ _ h1.owned.event ?_, none_ _ h1.owned.internal ?_⟩
  · intro j x hx hj
    have := (h1.inv.loc j x hx).event.2 hj
    rcases key s'' h1 h2 h3 j x hx with rfl | rfl | ⟨i, rfl⟩ <;> cases this
  · intro j x hx hj
    have := (h1.inv.loc j x hx).internal.2 hj
    rcases key s'' h1 h2 h3 j x hx with rfl | rfl | ⟨i, rfl⟩ <;> cases this

/-- C173: events of different handlers do not call the callback at the same time. -/
theorem C173_exclusive (kids n : Nat) (s : Conf prog) (hr : prog.system.Reachable (init kids n) s) (i j : Nat)
    (k l : Option Nat) (hi : s.pcs[i]? = some (.pCall k)) (hj : s.pcs[j]? = some (.pCall l)) : i = j := by
  have hF := full_reachable hr
  have h1 := (hF.inv.loc i _ hi).internal.1 rfl
  have h2 := (hF.inv.loc j _ hj).internal.1 rfl
  rw [h1] at h2
  exact Option.some.inj h2

/-! ### Counting -/

/-- After the callback has been called, before the event has ended. -/
def PC.after : PC → Bool
  | .pRel _ | .cCount _ => true
  | _ => false

/-- Idle, or within an event. -/
def PC.eventual : PC → Bool
  | .idle | .cEnter _ | .cLock _ | .cTest _ | .cCount _ | .cRel _ | .pLock _ | .pTest _ | .pCall _ | .pRel _ => true
  | _ => false

/-- What holds when there are only events. -/
structure Counted (s : Conf prog) : Prop where
  set : s.sh.set = true
  kids : ∀ i, (s.sh.ch i).set = true
  less : s.sh.ended ≤ s.sh.calls
  after : s.sh.calls - s.sh.ended = s.pcs.countP PC.after
  count : s.sh.count = s.sh.calls % 4294967296
  only : ∀ (j : Nat) (x : PC), s.pcs[j]? = some x → x.eventual = true

theorem counted_step {s s' : Conf prog} {l : Label Op} (hc : Counted s)
    (hl : l.Allowed fun op => op = .event ∨ ∃ i, op = .child i) (h : prog.Stepped s l s') : Counted s' := by
  have hpos : ∀ (t : Nat) (x : PC), s.pcs[t]? = some x → x.after = true → 0 < s.sh.calls - s.sh.ended := by
    intro t x hx ha
    rw [hc.after]
    exact countP_pos_of_get PC.after hx ha
  have hsh : s'.sh.set = true ∧ (∀ i, (s'.sh.ch i).set = true) ∧ s'.sh.ended ≤ s'.sh.calls ∧
      s'.sh.count = s'.sh.calls % 4294967296 := by
    rcases Prog.stepped_sh h with e | ⟨t, x, y, b, -, hx, hr⟩
    · rw [e]; exact ⟨hc.set, hc.kids, hc.less, hc.count⟩
    · have hr : Ran t s.sh x s'.sh y := run_ran hr
      have ho := hc.only t x hx
      have hp := hpos t x hx
      obtain ⟨h1, h2, h3, -, h5, -⟩ := hc
      have put : ∀ (k : Nat) (c : Ch), c.set = true → ∀ i, ((s.sh.put k c).ch i).set = true := by
        intro k c hk i
        by_cases e : i = k
        · subst e; simpa using hk
        · simpa [e] using h2 i
      generalize s'.sh = v at hr
      cases hr with
      | enter k | cLock k | cRel k => exact ⟨h1, put _ _ (h2 k), h3, h5⟩
      | cCount k => exact ⟨h1, put _ _ (h2 k), by have := hp rfl; show s.sh.ended + 1 ≤ s.sh.calls; omega, h5⟩
      | pEnd => exact ⟨h1, h2, by have := hp rfl; show s.sh.ended + 1 ≤ s.sh.calls; omega, h5⟩
      | pCall k =>
        refine ⟨h1, h2, Nat.le_succ_of_le h3, ?_⟩
        show bump s.sh.count = (s.sh.calls + 1) % 4294967296
        rw [h5]
        unfold bump
        omega
      | skip | cYes | cNo | pLock | pYes | pNo | pRel => exact ⟨h1, h2, h3, h5⟩
      | _ => cases ho
  obtain ⟨h1, h2, h3, h4⟩ := hsh
  refine ⟨h1, h2, h3, ?_, h4, ?_⟩
  · refine Prog.count_step (P := prog) PC.after (fun s => Sh.calls s - Sh.ended s) ?_ ?_ ?_ ?_ hc.after h
    · intro x op y hy
      have hy : start x op = some y := hy
      show PC.after y = PC.after x
      cases x <;> cases op <;> simp only [start, reduceCtorEq] at hy <;> cases hy <;> rfl
    · intro t x sh y b hx hy
      have hr : Ran t s.sh x sh y := run_ran hy
      have hp := hpos t x hx
      have h3 := hc.less
      have hs := hc.set
      have hk := hc.kids
      show sh.calls - sh.ended + (if PC.after x then 1 else 0) = s.sh.calls - s.sh.ended + (if PC.after y then 1 else 0)
      cases hr with
      | cCount k => have := hp rfl; simp only [PC.after]; show s.sh.calls - (s.sh.ended + 1) + _ = _; simp; omega
      | pEnd => have := hp rfl; simp only [PC.after]; show s.sh.calls - (s.sh.ended + 1) + _ = _; simp; omega
      | pCall k => simp only [PC.after]; show s.sh.calls + 1 - s.sh.ended + _ = _; simp; omega
      | pNo k h => rw [hs] at h; cases h
      | _ => rfl
    · intro x y hy; cases hy
    · intro x y hy; cases hy
  · intro j x hx
    have keep : ∀ (t : Nat) (w y : PC) (sh : Sh), w.eventual = true → Ran t s.sh w sh y → y.eventual = true := by
      intro t w y sh hw hr
      cases hr <;> first | rfl | cases hw
    obtain ⟨w, hw⟩ : ∃ w : PC, s.pcs[j]? = some w := by
      have := (List.getElem?_eq_some_iff.1 hx).1
      rw [Prog.stepped_length h] at this
      exact ⟨_, List.getElem?_eq_getElem this⟩
    obtain ⟨y, hy, ht⟩ := Prog.track h hw
    rw [hx] at hy
    cases hy
    rcases ht with ⟨op, rfl, ht, -⟩ | ⟨-, b, ht⟩ | ⟨-, ht, -⟩
    · obtain ⟨rfl, -⟩ := start_spec ht
      rcases hl with rfl | ⟨i, rfl⟩ <;> cases ht
      · rfl
      · rfl
    · exact keep j w x _ (hc.only j w hw) (run_ran ht)
    · rcases ht with rfl | ht | ht
      · exact hc.only j x hw
      · cases ht
      · cases ht

theorem counted {kids n : Nat} {s : Conf prog}
    (hr : prog.system.ReachableBy (fun op => op = .event ∨ ∃ i, op = .child i) (init kids n) s) : Counted s := by
  refine System.ReachableBy.invariant (S := prog.system) Counted ?_
    (fun _ _ _ hc hl hs => counted_step hc hl (Prog.step_stepped hs)) hr
  refine ⟨rfl, fun _ => rfl, Nat.le_refl _, ?_, rfl, ?_⟩
  · show 0 = (List.replicate n PC.idle).countP PC.after
    simp [List.countP_replicate, PC.after]
  · intro j x hx
    cases Prog.init_get hx
    rfl

/-- C173: while there are only events, of the handlers inside or simulated, each calls the callback exactly once: when no
thread is within one, there have been as many calls as events, and the handler has counted them. -/
theorem C173_counts (kids n : Nat) (s : Conf prog)
    (hr : prog.system.ReachableBy (fun op => op = .event ∨ ∃ i, op = .child i) (init kids n) s)
    (hidle : ∀ (j : Nat) (x : PC), s.pcs[j]? = some x → x = .idle) :
    s.sh.calls = s.sh.ended ∧ s.sh.count = s.sh.calls % 4294967296 := by
  have hc := counted hr
  refine ⟨?_, hc.count⟩
  have h0 : s.pcs.countP PC.after = 0 := by
    refine Nat.eq_zero_of_not_pos fun h => ?_
    obtain ⟨i, x, hx, ha⟩ := exists_of_countP_pos PC.after h
    rw [hidle i x hx] at ha
    cases ha
  have h1 := hc.after
  have h2 := hc.less
  omega

theorem sum_range (f g : Nat → Nat) (k : Nat) (h : ∀ i, i ≠ k → g i = f i) (n : Nat) :
    ((List.range n).map g).sum + (if k < n then f k else 0) = ((List.range n).map f).sum + (if k < n then g k else 0) := by
  induction n with
  | zero => rfl
  | succ n ih =>
    simp only [List.range_succ, List.map_append, List.sum_append, List.map_cons, List.map_nil, List.sum_cons,
      List.sum_nil]
    by_cases e : n = k
    · subst e
      simp at ih ⊢
      omega
    · have := h n e
      by_cases hk : k < n
      · have hk' : k < n + 1 := by omega
        simp only [if_pos hk, if_pos hk'] at ih ⊢
        omega
      · have hk' : ¬ k < n + 1 := by omega
        simp only [if_neg hk, if_neg hk'] at ih ⊢
        omega

/-- Sum of what the handlers inside have counted. -/
def total (s : Sh) : Nat := ((List.range s.kids).map fun i => (s.ch i).count).sum

theorem total_same {t : Nat} {s s' : Sh} {x y : PC} (h : Ran t s x s' y) (hx : ∀ i, x ≠ .cCount i) :
    total s' = total s := by
  have : (fun i => (s'.ch i).count) = fun i => (s.ch i).count := by
    funext i
    cases h with
    | cCount k => exact absurd rfl (hx k)
    | enter k | dLock k | dStop k | cLock k | cRel k =>
      by_cases e : i = k
      · subst e; simp
      · simp [e]
    | _ => rfl
  unfold total
  rw [this, kids_ran h]

theorem total_count {s s' : Sh} {k : Nat} (hk : k < s.kids)
    (h : s' = { s.put k { s.ch k with count := bump (s.ch k).count } with ended := s.ended + 1 }) :
    total s' % 4294967296 = (total s + 1) % 4294967296 := by
  subst h
  have := sum_range (fun i => (s.ch i).count)
    (fun i => ((s.put k { s.ch k with count := bump (s.ch k).count }).ch i).count) k (by
      intro i hi; simp [hi]) s.kids
  simp only [if_pos hk] at this
  unfold total
  show ((List.range s.kids).map fun i => ((s.put k { s.ch k with count := bump (s.ch k).count }).ch i).count).sum % _ = _
  simp only [put_ch, if_pos] at this ⊢
  simp only [bump] at this ⊢
  omega

/-- C173: when no thread is within an event, the outer handler has counted as many events as the handlers inside together
(all counts are modulo 2^32). -/
theorem C173_sum (kids n : Nat) (s : Conf prog)
    (hr : prog.system.ReachableBy (fun op => ∃ i, op = .child i) (init kids n) s)
    (hidle : ∀ (j : Nat) (x : PC), s.pcs[j]? = some x → x = .idle) :
    s.sh.count = ((List.range kids).map fun i => (s.sh.ch i).count).sum % 4294967296 := by
  have hr' : prog.system.ReachableBy (fun op => op = .event ∨ ∃ i, op = .child i) (init kids n) s :=
    System.ReachableBy.mono (S := prog.system) (A := fun op : Op => ∃ i, op = .child i) (fun _ h => Or.inr h) hr
  obtain ⟨h1, h2⟩ := C173_counts kids n s hr' hidle
  have key : Full s ∧ s.sh.kids = kids ∧ total s.sh % 4294967296 = s.sh.ended % 4294967296 ∧
      ∀ (j : Nat) (x : PC), s.pcs[j]? = some x → x = .idle ∨ (∃ i, x = .cEnter i) ∨ x.within.isSome = true := by
    refine System.ReachableBy.invariant (S := prog.system) (fun u : Conf prog => Full u ∧ u.sh.kids = kids ∧
      total u.sh % 4294967296 = u.sh.ended % 4294967296 ∧
      ∀ (j : Nat) (x : PC), u.pcs[j]? = some x → x = .idle ∨ (∃ i, x = .cEnter i) ∨ x.within.isSome = true) ?_ ?_ hr
    · refine ⟨full_reachable (A := fun _ => True) .init, rfl, ?_, fun j x hx => Or.inl (Prog.init_get hx)⟩
      have : ∀ m : Nat, ((List.range m).map fun _ => 0).sum = 0 := by
        intro m
        induction m with
        | zero => rfl
        | succ m ih => rw [List.range_succ, List.map_append, List.sum_append, ih]; rfl
      show ((List.range kids).map fun _ => 0).sum % _ = 0 % _
      rw [this]
    · rintro u l u' ⟨a1, a2, a3, a4⟩ hl hst
      have hst := Prog.step_stepped hst
      refine ⟨full_step a1 hst, ?_, ?_, ?_⟩
      · rcases Prog.stepped_sh hst with e | ⟨t, x, y, b, -, hx, h⟩
        · rw [e]; exact a2
        · exact (kids_ran (run_ran h)).trans a2
      · rcases Prog.stepped_sh hst with e | ⟨t, x, y, b, -, hx, h⟩
        · rw [e]; exact a3
        · have h : Ran t u.sh x u'.sh y := run_ran h
          have hx4 := a4 t x hx
          have hkid := (a1.inv.loc t x hx).kid
          by_cases hc : ∃ i, x = .cCount i
          · obtain ⟨i, rfl⟩ := hc
            generalize u'.sh = v at h
            cases h
            rw [total_count (hkid i rfl) rfl]
            show _ = (u.sh.ended + 1) % 4294967296
            omega
          · rw [total_same h fun i e => hc ⟨i, e⟩, a3]
            generalize u'.sh = v at h
            cases h with
            | cCount i => exact absurd ⟨i, rfl⟩ hc
            | pEnd => rcases hx4 with h | ⟨i, h⟩ | h <;> cases h
            | _ => rfl
      · intro j x hx
        obtain ⟨w, hw⟩ : ∃ w : PC, u.pcs[j]? = some w := by
          have := (List.getElem?_eq_some_iff.1 hx).1
          rw [Prog.stepped_length hst] at this
          exact ⟨_, List.getElem?_eq_getElem this⟩
        obtain ⟨y, hy, ht⟩ := Prog.track hst hw
        rw [hx] at hy
        cases hy
        rcases ht with ⟨op, rfl, ht, -⟩ | ⟨-, b, ht⟩ | ⟨-, ht, -⟩
        · obtain ⟨rfl, -⟩ := start_spec ht
          obtain ⟨i, rfl⟩ := hl
          cases ht
          exact Or.inr (Or.inl ⟨i, rfl⟩)
        · exact rest_ran (run_ran ht) (a4 j w hw)
        · rcases ht with rfl | ht | ht
          · exact a4 j x hw
          · cases ht
          · cases ht
  obtain ⟨-, h3, h4, -⟩ := key
  rw [h2, h1, ← h4]
  unfold total
  rw [h3]

/-! ### The destructor ends -/

theorem active {x : PC} (h : x ≠ .idle) : prog.Active x := by
  refine ⟨fun op => ?_, rfl, rfl⟩
  show start x op = none
  cases hs : start x op with
  | none => rfl
  | some y => exact absurd (start_spec hs).1 h

section
variable {kids n : Nat} (e : prog.system.Execution) (hf : e.Fair)
  (h0 : prog.system.Reachable (init kids n) (e.at_ 0))

/-- Everything that always holds. -/
def All (kids : Nat) (s : Conf prog) : Prop := Full s ∧ s.sh.kids = kids

section
include h0

theorem all (m : Nat) : All kids (e.at_ m) := by
  have hR : prog.system.Reachable (init kids n) (e.at_ m) := e.reachable h0 m
  refine ⟨full_reachable hR, ?_⟩
  refine System.ReachableBy.invariant (S := prog.system) (fun s : Conf prog => s.sh.kids = kids) rfl ?_ hR
  intro s l s' hk _ hs
  rcases Prog.stepped_sh (Prog.step_stepped hs) with h | ⟨t, x, y, b, -, -, h⟩
  · rw [h]; exact hk
  · exact (kids_ran (run_ran h)).trans hk

include hf

/-- From one place to the next, when nothing can block the thread. -/
theorem next (i : Nat) (x : PC) (hact : x ≠ .idle) (Q : Conf prog → Prop) (P : PC → Prop)
    (hable : ∀ s : Sh, (run i s x).isSome) (hy : ∀ (s sh : Sh) (y : PC), s.kids = kids → Ran i s x sh y → P y)
    (hP : ∀ y, P y → e.LeadsTo (fun s => s.pcs[i]? = some y) Q) :
    e.LeadsTo (fun s => s.pcs[i]? = some x) Q := by
  have h1 : e.LeadsTo (fun s => s.pcs[i]? = some x) (fun s => ∃ y, s.pcs[i]? = some y ∧ P y) := by
    refine Prog.free_step e hf (All kids) (all e h0) i x (active hact) _ (fun s _ _ => hable s.sh) ?_
    intro s s' hi hi' hx hs
    obtain ⟨sh, y, b, h1, h2, h3⟩ := Prog.stepped_run hs hx
    exact ⟨y, h3, hy s.sh sh y hi.2 (run_ran h1)⟩
  exact h1.trans fun m ⟨y, hy, hc⟩ => hP y hc m hy

/-- The last step to something about the shared data. -/
theorem last (i : Nat) (x : PC) (hact : x ≠ .idle) (Q : Sh → Prop)
    (hable : ∀ s : Sh, (run i s x).isSome) (hy : ∀ (s sh : Sh) (y : PC), Ran i s x sh y → Q sh) :
    e.LeadsTo (fun s => s.pcs[i]? = some x) (fun s => Q s.sh) := by
  refine Prog.free_step e hf (All kids) (all e h0) i x (active hact) _ (fun s _ _ => hable s.sh) ?_
  intro s s' _ _ hx hs
  obtain ⟨sh, y, b, h1, h2, h3⟩ := Prog.stepped_run hs hx
  rw [h2]
  exact hy s.sh sh y (run_ran h1)

/-- From one place to the next, when the step needs something that is there again and again. -/
theorem takes (free : Sh → Prop) (hfree : e.LeadsTo (fun _ => True) (fun s => free s.sh)) (i : Nat) (x : PC)
    (hact : x ≠ .idle) (Q : Conf prog → Prop) (P : PC → Prop)
    (hable : ∀ s : Sh, free s → (run i s x).isSome) (hy : ∀ (s sh : Sh) (y : PC), Ran i s x sh y → P y)
    (hP : ∀ y, P y → e.LeadsTo (fun s => s.pcs[i]? = some y) Q) :
    e.LeadsTo (fun s => s.pcs[i]? = some x) Q := by
  have h1 : e.LeadsTo (fun s => s.pcs[i]? = some x) (fun s => ∃ y, s.pcs[i]? = some y ∧ P y) := by
    refine Prog.acquire e hf (All kids) (all e h0) i x (active hact) (fun _ => True) free _ (fun _ _ _ => trivial)
      (fun m _ => hfree m trivial) (fun s _ _ h => hable s.sh h) ?_
    intro s s' _ _ hx hs
    obtain ⟨sh, y, b, h1, h2, h3⟩ := Prog.stepped_run hs hx
    exact ⟨y, h3, hy s.sh sh y (run_ran h1)⟩
  exact h1.trans fun m ⟨y, hy, hc⟩ => hP y hc m hy

/-- `internal_callback_mutex_` of the outer handler is released again and again. -/
theorem internal_frees : e.LeadsTo (fun _ => True) (fun s => s.sh.internal = none) := by
  have pRel : ∀ (i : Nat) (k : Option Nat), e.LeadsTo (fun s => s.pcs[i]? = some (PC.pRel k)) (fun s => s.sh.internal = none) := by
    intro i k
    refine last e hf h0 i (.pRel k) nofun (fun s => s.internal = none) ?_ ?_
    · intro s; cases k <;> rfl
    · intro s sh y hr; cases hr <;> rfl
  have sRel := fun i => last e hf h0 i .sRel nofun (fun s => s.internal = none) (fun _ => rfl)
    (fun _ _ _ hr => by cases hr; rfl)
  have uRel := fun i d => last e hf h0 i (.uRel d) nofun (fun s => s.internal = none) (fun _ => rfl)
    (fun _ _ _ hr => by cases hr; rfl)
  have sFlag := fun i => next e hf h0 i .sFlag nofun (fun s => s.sh.internal = none) (fun y => y = .sRel)
    (fun _ => rfl) (fun _ _ _ _ hr => by cases hr; rfl) (fun y hy => by subst hy; exact sRel i)
  have uFlag := fun i d => next e hf h0 i (.uFlag d) nofun (fun s => s.sh.internal = none) (fun y => y = .uRel d)
    (fun _ => rfl) (fun _ _ _ _ hr => by cases hr; rfl) (fun y hy => by subst hy; exact uRel i d)
  have pCall := fun i k => next e hf h0 i (.pCall k) nofun (fun s => s.sh.internal = none) (fun y => y = .pRel k)
    (fun _ => rfl) (fun _ _ _ _ hr => by cases hr; rfl) (fun y hy => by subst hy; exact pRel i k)
  have pTest := fun i k => next e hf h0 i (.pTest k) nofun (fun s => s.sh.internal = none)
    (fun y => y = .pCall k ∨ y = .pRel k)
    (fun _ => rfl) (fun _ _ _ _ hr => by cases hr <;> simp)
    (fun y hy => by rcases hy with rfl | rfl; exact pCall i k; exact pRel i k)
  intro m _
  cases hs : (e.at_ m).sh.internal with
  | none => exact ⟨m, Nat.le_refl m, hs⟩
  | some j =>
    have hA := (all e h0 m).1
    have hx : (e.at_ m).pcs[j]? = some _ := List.getElem?_eq_getElem (hA.owned.internal j hs)
    have hh := (hA.inv.loc j _ hx).internal.2 hs
    generalize (e.at_ m).pcs[j]'(hA.owned.internal j hs) = x at hx hh
    cases x with
    | pTest k => exact pTest j k m hx
    | pCall k => exact pCall j k m hx
    | pRel k => exact pRel j k m hx
    | sFlag => exact sFlag j m hx
    | sRel => exact sRel j m hx
    | uFlag d => exact uFlag j d m hx
    | uRel d => exact uRel j d m hx
    | _ => cases hh

theorem lock_able {i : Nat} {k : Option Nat} (s : Sh) (h : s.internal = none) : (run i s (.pLock k)).isSome := by
  simp only [run, h]; rfl

/-- An event of handler `i` that has the mutex of the handler comes to its last step. -/
theorem event_last (j i : Nat) (x : PC) (hx : x.holdsC = some i) :
    e.LeadsTo (fun s => s.pcs[j]? = some x) (fun s => s.pcs[j]? = some (PC.cRel i)) := by
  have cRel : e.LeadsTo (fun s => s.pcs[j]? = some (PC.cRel i)) (fun s => s.pcs[j]? = some (PC.cRel i)) :=
    .refl e fun _ h => h
  have cCount := next e hf h0 j (.cCount i) nofun (fun s => s.pcs[j]? = some (PC.cRel i)) (fun y => y = .cRel i)
    (fun _ => rfl) (fun _ _ _ _ hr => by cases hr; rfl) (fun y hy => by subst hy; exact cRel)
  have pRel := next e hf h0 j (.pRel (some i)) nofun (fun s => s.pcs[j]? = some (PC.cRel i)) (fun y => y = .cCount i)
    (fun _ => rfl) (fun _ _ _ _ hr => by cases hr; rfl) (fun y hy => by subst hy; exact cCount)
  have pCall := next e hf h0 j (.pCall (some i)) nofun (fun s => s.pcs[j]? = some (PC.cRel i))
    (fun y => y = .pRel (some i))
    (fun _ => rfl) (fun _ _ _ _ hr => by cases hr; rfl) (fun y hy => by subst hy; exact pRel)
  have pTest := next e hf h0 j (.pTest (some i)) nofun (fun s => s.pcs[j]? = some (PC.cRel i))
    (fun y => y = .pCall (some i) ∨ y = .pRel (some i))
    (fun _ => rfl) (fun _ _ _ _ hr => by cases hr <;> simp)
    (fun y hy => by rcases hy with rfl | rfl; exact pCall; exact pRel)
  have pLock := takes e hf h0 (fun s => s.internal = none) (internal_frees e hf h0) j (.pLock (some i)) nofun
    (fun s => s.pcs[j]? = some (PC.cRel i)) (fun y => y = .pTest (some i)) (fun s h => by simp only [run, h]; rfl)
    (fun _ _ _ hr => by cases hr; rfl) (fun y hy => by subst hy; exact pTest)
  have cTest := next e hf h0 j (.cTest i) nofun (fun s => s.pcs[j]? = some (PC.cRel i))
    (fun y => y = .pLock (some i) ∨ y = .cRel i)
    (fun _ => rfl) (fun _ _ _ _ hr => by cases hr <;> simp)
    (fun y hy => by rcases hy with rfl | rfl; exact pLock; exact cRel)
  cases x with
  | cTest k => cases hx; exact cTest
  | cCount k => cases hx; exact cCount
  | cRel k => cases hx; exact cRel
  | pLock k => cases hx; exact pLock
  | pTest k => cases hx; exact pTest
  | pCall k => cases hx; exact pCall
  | pRel k => cases hx; exact pRel
  | _ => cases hx

/-- The mutex of a handler inside is released again and again. -/
theorem child_frees (i : Nat) : e.LeadsTo (fun _ => True) (fun s => (s.sh.ch i).internal = none) := by
  intro m _
  cases hs : ((e.at_ m).sh.ch i).internal with
  | none => exact ⟨m, Nat.le_refl m, hs⟩
  | some j =>
    have hA := (all e h0 m).1
    have hx : (e.at_ m).pcs[j]? = some _ := List.getElem?_eq_getElem (hA.owned.child i j hs)
    have hh := ((hA.inv.loc j _ hx).child i).2 hs
    refine System.Execution.LeadsTo.trans (R := fun s : Conf prog => (s.sh.ch i).internal = none)
      (event_last e hf h0 j i _ hh) ?_ m hx
    exact last e hf h0 j (.cRel i) nofun (fun s => (s.ch i).internal = none) (fun _ => rfl)
      (fun _ _ _ hr => by cases hr; simp)

/-- Once the source of a handler has been stopped, the events that are being processed end. -/
theorem busy_ends (i : Nat) :
    e.LeadsTo (fun s => (s.sh.ch i).stopped = true) (fun s => (s.sh.ch i).busy = 0) := by
  refine e.leadsTo_measure (fun s : Conf prog => (s.sh.ch i).stopped = true) _ (fun s => (s.sh.ch i).busy) ?_
  intro b
  -- neither is undone
  have keepR : ∀ (t : Nat) (s s' : Sh) (x y : PC), Ran t s x s' y → (s.ch i).stopped = true →
      (s'.ch i).busy ≤ (s.ch i).busy := by
    intro t s s' x y hr hs
    cases hr with
    | enter k _ hk =>
      by_cases h : i = k
      · subst h; rw [hs] at hk; cases hk
      · simp [h]
    | cCount k | dLock k | dStop k | cLock k | cRel k =>
      by_cases h : i = k
      · subst h; simp
      · simp [h]
    | _ => exact Nat.le_refl _
  let K : Conf prog → Prop := fun s => (s.sh.ch i).stopped = true ∧ (s.sh.ch i).busy ≤ b
  have keep : ∀ (s : Conf prog) (l : Label Op) (s' : Conf prog), K s → prog.Stepped s l s' → K s' := by
    intro s l s' hk hs
    rcases Prog.stepped_sh hs with h | ⟨t, x, y, b, -, -, h⟩
    · show _ ∧ _; rw [h]; exact hk
    · exact ⟨stopped_ran (run_ran h) i hk.1, Nat.le_trans (keepR _ _ _ _ _ (run_ran h) hk.1) hk.2⟩
  have cRel : ∀ j : Nat, e.LeadsTo (fun s => s.pcs[j]? = some (PC.cRel i) ∧ K s)
      (fun s => ((s.sh.ch i).stopped = true ∧ (s.sh.ch i).busy < b) ∨ (s.sh.ch i).busy = 0) := by
    intro j
    refine Prog.move e hf (All kids) (all e h0) j (.cRel i) (active nofun) K _
      (fun s l s' _ _ hk hs => Or.inl (keep s l s' hk hs)) (fun _ _ _ _ => rfl) ?_
    intro s s' y c hA _ hk hx hr hy hk'
    have hr : Ran j s.sh (.cRel i) s'.sh y := run_ran hr
    left
    refine ⟨hk'.1, ?_⟩
    have hpos : 0 < (s.sh.ch i).busy := by
      rw [hA.1.busy i]
      exact countP_pos_of_get (fun x => decide (PC.within x = some i)) hx (by simp [PC.within, PC.holdsC])
    have hle := hk.2
    have : (s'.sh.ch i).busy = (s.sh.ch i).busy - 1 := by
      generalize s'.sh = v at hr
      cases hr
      simp
    omega
  rintro m ⟨hs, hb⟩
  by_cases hz : ((e.at_ m).sh.ch i).busy = 0
  · exact ⟨m, Nat.le_refl m, Or.inr hz⟩
  · have hA := (all e h0 m).1
    have hpos : 0 < (e.at_ m).pcs.countP fun x => decide (PC.within x = some i) := by
      rw [← hA.busy i]; omega
    obtain ⟨j, x, hx, hw⟩ := exists_of_countP_pos _ hpos
    have hw : x.within = some i := by simpa using hw
    have hin : e.LeadsTo (fun s => s.pcs[j]? = some x) (fun s => s.pcs[j]? = some (PC.cRel i)) := by
      by_cases hc : x.holdsC = some i
      · exact event_last e hf h0 j i x hc
      · have : x = .cLock i := by
          cases x with
          | cLock k => cases hw; rfl
          | _ => exact absurd hw hc
        subst this
        exact takes e hf h0 (fun s => (s.ch i).internal = none) (child_frees e hf h0 i) j (.cLock i) nofun _
          (fun y => y = .cTest i) (fun s h => by simp only [run, h]; rfl)
          (fun _ _ _ hr => by cases hr; rfl) (fun y hy => by subst hy; exact event_last e hf h0 j i _ rfl)
    obtain ⟨m', hm, hx'⟩ := hin m hx
    have hK : K (e.at_ m') := e.stable K (fun s l s' hk h => keep s l s' hk (Prog.step_stepped h)) m
      ⟨hs, Nat.le_of_eq hb⟩ m' hm
    obtain ⟨m'', hm', h⟩ := cRel j m' ⟨hx', hK⟩
    exact ⟨m'', Nat.le_trans hm hm', h⟩

/-- `event_mutex_` of the outer handler is released again and again. -/
theorem event_frees : e.LeadsTo (fun _ => True) (fun s => s.sh.event = none) := by
  have sOut := fun i => last e hf h0 i .sOut nofun (fun s => s.event = none) (fun _ => rfl)
    (fun _ _ _ hr => by cases hr; rfl)
  have uOut := fun i d => last e hf h0 i (.uOut d) nofun (fun s => s.event = none) (fun _ => rfl)
    (fun _ _ _ hr => by cases hr <;> rfl)
  have sRel := fun i => next e hf h0 i .sRel nofun (fun s => s.sh.event = none) (fun y => y = .sOut)
    (fun _ => rfl) (fun _ _ _ _ hr => by cases hr; rfl) (fun y hy => by subst hy; exact sOut i)
  have uRel := fun i d => next e hf h0 i (.uRel d) nofun (fun s => s.sh.event = none) (fun y => y = .uOut d)
    (fun _ => rfl) (fun _ _ _ _ hr => by cases hr; rfl) (fun y hy => by subst hy; exact uOut i d)
  have sFlag := fun i => next e hf h0 i .sFlag nofun (fun s => s.sh.event = none) (fun y => y = .sRel)
    (fun _ => rfl) (fun _ _ _ _ hr => by cases hr; rfl) (fun y hy => by subst hy; exact sRel i)
  have uFlag := fun i d => next e hf h0 i (.uFlag d) nofun (fun s => s.sh.event = none) (fun y => y = .uRel d)
    (fun _ => rfl) (fun _ _ _ _ hr => by cases hr; rfl) (fun y hy => by subst hy; exact uRel i d)
  have sInternal := fun i => takes e hf h0 (fun s => s.internal = none) (internal_frees e hf h0) i .sInternal nofun
    (fun s => s.sh.event = none) (fun y => y = .sFlag) (fun s h => by simp only [run, h]; rfl)
    (fun _ _ _ hr => by cases hr; rfl) (fun y hy => by subst hy; exact sFlag i)
  have uInternal := fun i d => takes e hf h0 (fun s => s.internal = none) (internal_frees e hf h0) i (.uInternal d)
    nofun (fun s => s.sh.event = none) (fun y => y = .uFlag d) (fun s h => by simp only [run, h]; rfl)
    (fun _ _ _ hr => by cases hr; rfl) (fun y hy => by subst hy; exact uFlag i d)
  have uTest := fun i d => next e hf h0 i (.uTest d) nofun (fun s => s.sh.event = none)
    (fun y => y = .uInternal d ∨ y = .uOut d)
    (fun _ => rfl) (fun _ _ _ _ hr => by cases hr <;> simp)
    (fun y hy => by rcases hy with rfl | rfl; exact uInternal i d; exact uOut i d)
  intro m _
  cases hs : (e.at_ m).sh.event with
  | none => exact ⟨m, Nat.le_refl m, hs⟩
  | some j =>
    have hA := (all e h0 m).1
    have hx : (e.at_ m).pcs[j]? = some _ := List.getElem?_eq_getElem (hA.owned.event j hs)
    have hh := (hA.inv.loc j _ hx).event.2 hs
    generalize (e.at_ m).pcs[j]'(hA.owned.event j hs) = x at hx hh
    cases x with
    | sInternal => exact sInternal j m hx
    | sFlag => exact sFlag j m hx
    | sRel => exact sRel j m hx
    | sOut => exact sOut j m hx
    | uTest d => exact uTest j d m hx
    | uInternal d => exact uInternal j d m hx
    | uFlag d => exact uFlag j d m hx
    | uRel d => exact uRel j d m hx
    | uOut d => exact uOut j d m hx
    | _ => cases hh

/-- The end of the destructor. -/
theorem unset_ends (d : Nat) :
    e.LeadsTo (fun s => s.pcs[d]? = some (PC.uEvent true)) (fun s => s.pcs[d]? = some PC.gone) := by
  have uOut := next e hf h0 d (.uOut true) nofun (fun s => s.pcs[d]? = some PC.gone) (fun y => y = .gone)
    (fun _ => rfl) (fun _ _ _ _ hr => by cases hr; rfl) (fun y hy => by subst hy; exact .refl e fun _ h => h)
  have uRel := next e hf h0 d (.uRel true) nofun (fun s => s.pcs[d]? = some PC.gone) (fun y => y = .uOut true)
    (fun _ => rfl) (fun _ _ _ _ hr => by cases hr; rfl) (fun y hy => by subst hy; exact uOut)
  have uFlag := next e hf h0 d (.uFlag true) nofun (fun s => s.pcs[d]? = some PC.gone) (fun y => y = .uRel true)
    (fun _ => rfl) (fun _ _ _ _ hr => by cases hr; rfl) (fun y hy => by subst hy; exact uRel)
  have uInternal := takes e hf h0 (fun s => s.internal = none) (internal_frees e hf h0) d (.uInternal true)
    nofun (fun s => s.pcs[d]? = some PC.gone) (fun y => y = .uFlag true) (fun s h => by simp only [run, h]; rfl)
    (fun _ _ _ hr => by cases hr; rfl) (fun y hy => by subst hy; exact uFlag)
  have uTest := next e hf h0 d (.uTest true) nofun (fun s => s.pcs[d]? = some PC.gone)
    (fun y => y = .uInternal true ∨ y = .uOut true)
    (fun _ => rfl) (fun _ _ _ _ hr => by cases hr <;> simp)
    (fun y hy => by rcases hy with rfl | rfl; exact uInternal; exact uOut)
  exact takes e hf h0 (fun s => s.event = none) (event_frees e hf h0) d (.uEvent true) nofun _
    (fun y => y = .uTest true) (fun s h => by simp only [run, h]; rfl)
    (fun _ _ _ hr => by cases hr; rfl) (fun y hy => by subst hy; exact uTest)

theorem kids_end (d : Nat) (m k : Nat) (hk : kids = k + m) :
    e.LeadsTo (fun s => s.pcs[d]? = some (PC.dNext k)) (fun s => s.pcs[d]? = some (PC.uEvent true)) := by
  induction m generalizing k with
  | zero =>
    exact next e hf h0 d (.dNext k) nofun _ (fun y => y = .uEvent true) (fun _ => rfl)
      (fun s _ _ h hr => by
        cases hr with
        | dMore _ h' => omega
        | dAll => rfl) (fun y hy => by subst hy; exact .refl e fun _ h => h)
  | succ m ih =>
    have hnext := ih (k + 1) (by omega)
    have dJoin : e.LeadsTo (fun s => s.pcs[d]? = some (PC.dJoin k)) (fun s => s.pcs[d]? = some (PC.uEvent true)) := by
      have h1 : e.LeadsTo (fun s => s.pcs[d]? = some (PC.dJoin k)) (fun s => s.pcs[d]? = some (PC.dNext (k + 1))) := by
        refine Prog.acquire e hf (All kids) (all e h0) d (.dJoin k) (active nofun)
          (fun s => (s.sh.ch k).stopped = true) (fun s => (Sh.ch s k).busy = 0) _
          (fun s hA hx => (hA.1.inv.loc d _ hx).join k rfl) (fun m hm => busy_ends e hf h0 k m hm.1)
          (fun s _ _ h => ?_) ?_
        · show (run d s.sh (.dJoin k)).isSome
          simp only [run]
          rw [if_pos h]
          rfl
        · intro s s' _ _ hx hs
          obtain ⟨sh, y, b, h1, h2, h3⟩ := Prog.stepped_run hs hx
          have hr : Ran d s.sh (.dJoin k) sh y := run_ran h1
          cases hr
          exact h3
      exact h1.trans hnext
    have dStop := next e hf h0 d (.dStop k) nofun (fun s => s.pcs[d]? = some (PC.uEvent true)) (fun y => y = .dJoin k)
      (fun _ => rfl) (fun _ _ _ _ hr => by cases hr; rfl) (fun y hy => by subst hy; exact dJoin)
    have dLock := takes e hf h0 (fun s => (s.ch k).internal = none) (child_frees e hf h0 k) d (.dLock k) nofun
      (fun s => s.pcs[d]? = some (PC.uEvent true)) (fun y => y = .dStop k) (fun s h => by simp only [run, h]; rfl)
      (fun _ _ _ hr => by cases hr; rfl) (fun y hy => by subst hy; exact dStop)
    exact next e hf h0 d (.dNext k) nofun _ (fun y => y = .dLock k) (fun _ => rfl)
      (fun s _ _ h hr => by
        cases hr with
        | dMore => rfl
        | dAll _ h' => omega) (fun y hy => by subst hy; exact dLock)

end
end

/-- C173: the destructor returns, under fair scheduling, whatever the sources of the handlers and the other threads do. -/
theorem C173_ends (kids n : Nat) (e : prog.system.Execution) (hf : e.Fair)
    (h0 : prog.system.Reachable (init kids n) (e.at_ 0)) (d : Nat) :
    e.LeadsTo (fun s => s.pcs[d]? = some (PC.dNext 0)) (fun s => s.pcs[d]? = some PC.gone) :=
  (kids_end e hf h0 d kids 0 (by omega)).trans (unset_ends e hf h0 d)

/-- C173: an event ends, under fair scheduling, also while the handler is being destroyed. -/
theorem C173_event_ends (kids n : Nat) (e : prog.system.Execution) (hf : e.Fair)
    (h0 : prog.system.Reachable (init kids n) (e.at_ 0)) (j i : Nat) :
    e.LeadsTo (fun s => s.pcs[j]? = some (PC.cEnter i)) (fun s => s.pcs[j]? = some PC.idle) := by
  have cRel := next e hf h0 j (.cRel i) nofun (fun s => s.pcs[j]? = some PC.idle) (fun y => y = .idle)
    (fun _ => rfl) (fun _ _ _ _ hr => by cases hr; rfl) (fun y hy => by subst hy; exact .refl e fun _ h => h)
  have cLock := takes e hf h0 (fun s => (s.ch i).internal = none) (child_frees e hf h0 i) j (.cLock i) nofun
    (fun s => s.pcs[j]? = some PC.idle) (fun y => y = .cTest i) (fun s h => by simp only [run, h]; rfl)
    (fun _ _ _ hr => by cases hr; rfl) (fun y hy => by subst hy; exact (event_last e hf h0 j i _ rfl).trans cRel)
  exact next e hf h0 j (.cEnter i) nofun _ (fun y => y = .cLock i ∨ y = .idle)
    (fun s => by simp only [run]; split <;> rfl) (fun _ _ _ _ hr => by cases hr <;> simp)
    (fun y hy => by rcases hy with rfl | rfl; exact cLock; exact .refl e fun _ h => h)

/-! ### Cases -/

/-- No calls but events of handlers inside. -/
def onlyChild : Label Op → Bool
  | .start _ (.child _) => true
  | .start _ _ => false
  | _ => true

theorem by_child {s s' : Conf prog} (ls : List (Label Op)) (h : ls.all onlyChild = true)
    (he : prog.system.exec s ls = some s') : prog.system.ReachableBy (fun op => ∃ i, op = .child i) s s' := by
  refine prog.system.exec_reachable ls (fun l hl => ?_) .init he
  have := List.all_eq_true.1 h l hl
  cases l with
  | start i op =>
    cases op with
    | child k => exact ⟨k, rfl⟩
    | _ => cases this
  | _ => trivial

/-- Non-trivial case for `C173_safe`, `C173_quiet` and `C173_ends`: two handlers; the destruction starts while an event of
the second is within the callback and one of the first is about to take the mutex; both end, the source of the second
finds itself stopped afterwards. -/
example : ∃ s s' s'' : Conf prog, prog.system.Reachable (init 2 3) s ∧
    s.pcs = [.dNext 0, .cLock 0, .pCall (some 1)] ∧
    prog.system.ReachableBy (fun op => ∃ i, op = .child i) s s' ∧ s'.pcs = [.gone, .idle, .cEnter 1] ∧
    s'.sh.calls = 1 ∧ prog.system.ReachableBy (fun op => ∃ i, op = .child i) s' s'' ∧
    s''.pcs = [.gone, .idle, .idle] :=
  ⟨_, _, _, prog.system.exec_reachable'
    [.start 2 (.child 1), .run 2, .run 2, .run 2, .run 2, .run 2, .start 1 (.child 0), .run 1, .start 0 .destroy] rfl, rfl,
    by_child
      [.run 0, .run 0, .run 0, .run 1, .run 1, .run 1, .run 0, .run 0, .run 2, .run 2, .run 2, .run 2, .run 0, .run 0,
        .run 0, .run 0, .run 0, .run 0, .run 0, .run 0, .run 0, .start 2 (.child 1), .run 0]
      rfl rfl,
    rfl, rfl,
    by_child [.run 2] rfl rfl, rfl⟩

/-- Non-trivial case for `C173_counts` and `C173_sum`: two events of one handler and one of the other, which overlap. -/
example : ∃ s : Conf prog, prog.system.ReachableBy (fun op => ∃ i, op = .child i) (init 2 2) s ∧
    s.pcs = [.idle, .idle] ∧ s.sh.calls = 3 ∧ s.sh.count = 3 ∧ (s.sh.ch 0).count = 1 ∧ (s.sh.ch 1).count = 2 :=
  ⟨_, by_child
    [.start 0 (.child 0), .start 1 (.child 1), .run 0, .run 1, .run 0, .run 1, .run 0, .run 1, .run 1, .run 1, .run 1,
      .run 1, .run 0, .run 1, .run 1, .run 0, .run 0, .run 0, .run 0, .run 0, .start 1 (.child 1), .run 1, .run 1, .run 1,
      .run 1, .run 1, .run 1, .run 1, .run 1, .run 1]
    rfl rfl,
    rfl, rfl, rfl, rfl, rfl⟩

/-- Non-trivial case for `C173_exclusive` and `C173_event_ends`: an event within the callback, another one that waits. -/
example : ∃ s : Conf prog, prog.system.Reachable (init 2 3) s ∧
    s.pcs = [.pCall (some 0), .pLock (some 1), .cEnter 0] ∧ run 1 s.sh (.pLock (some 1)) = none :=
  ⟨_, prog.system.exec_reachable'
    [.start 0 (.child 0), .start 1 (.child 1), .run 0, .run 1, .run 0, .run 1, .run 0, .run 1, .run 0, .run 0,
      .start 2 (.child 0)] rfl, rfl, rfl⟩

end Verif.MultipleShared
