import Verif.Props.EventNested
/-!
C46 with callbacks that call their own handler: an event finds a callback when `is_callback_set_` says so.
-/
namespace Verif.EventNested
open Verif.Threads

variable {C A : Type}

/-- Between the flag and the function. -/
def Fr.stores : Fr C A → Bool
  | .setStore _ | .unsetStore => true
  | _ => false

/-- What the flag is there. -/
def Fr.flag (s : Sh C) : Fr C A → Prop
  | .setStore _ => s.set = true
  | .unsetStore => s.set = false
  | _ => True

theorem flag_other {s : Sh C} {f : Fr C A} (h : f.stores = false) : f.flag s := by
  cases f <;> first | trivial | cases h

theorem stores_holds {f : Fr C A} (h : f.stores = true) : f.holds = 1 := by
  cases f <;> first | rfl | cases h

theorem enter_stores (op : Op C A) : (enter op).stores = false := by cases op <;> rfl

/-- What a step does to flag and function. -/
theorem next_flag {body : C → A → List (Op C A)} {i : Nat} {s s' : Sh C} {f : Fr C A} {ys : List (Fr C A)} {b : Bool}
    (h : next body i s f = some (s', ys, b)) :
    (s'.set = s.set ∧ s'.callback = s.callback ∧ f.stores = false ∧ ∀ g ∈ ys, g.stores = false) ∨
      (∃ c, f = .setFlag c ∧ ys = [.setStore c] ∧ s'.set = true) ∨ (f = .unsetFlag ∧ ys = [.unsetStore] ∧ s'.set = false) ∨
      (∃ c, f = .setStore c ∧ ys = [.setHook] ∧ s'.set = s.set ∧ s'.callback = some c) ∨
      (f = .unsetStore ∧ ys = [.unsetNotify] ∧ s'.set = s.set ∧ s'.callback = none) := by
  cases f with
  | asleep n => cases h
  | waitTest n | unsetTest | unsetExit | evTest a =>
    cases h
    refine .inl ⟨rfl, rfl, rfl, ?_⟩
    split <;> (intro g hg; cases List.mem_singleton.1 hg; rfl)
  | waitLock n | ready n =>
    simp only [next] at h
    split at h <;> (cases h; exact .inl ⟨rfl, rfl, rfl, fun g hg => by cases List.mem_singleton.1 hg; rfl⟩)
  | setEvent c | setInternal c | unsetEvent | unsetInternal | evInternal a =>
    simp only [next, Option.map_eq_some_iff] at h
    obtain ⟨m, -, h⟩ := h
    cases h
    exact .inl ⟨rfl, rfl, rfl, fun g hg => by cases List.mem_singleton.1 hg; rfl⟩
  | setFlag c => cases h; exact .inr (.inl ⟨c, rfl, rfl, rfl⟩)
  | unsetFlag => cases h; exact .inr (.inr (.inl ⟨rfl, rfl, rfl⟩))
  | setStore c => cases h; exact .inr (.inr (.inr (.inl ⟨c, rfl, rfl, rfl, rfl⟩)))
  | unsetStore => cases h; exact .inr (.inr (.inr (.inr ⟨rfl, rfl, rfl, rfl⟩)))
  | evIn rest =>
    cases rest with
    | nil => cases h; exact .inl ⟨rfl, rfl, rfl, fun g hg => by cases List.mem_singleton.1 hg; rfl⟩
    | cons op rest =>
      cases h
      refine .inl ⟨rfl, rfl, rfl, fun g hg => ?_⟩
      rcases List.mem_cons.1 hg with rfl | hg
      · exact enter_stores op
      · cases List.mem_singleton.1 hg; rfl
  | unsetNotify | evCount | evNotify =>
    cases h
    exact .inl ⟨rfl, rfl, rfl, fun g hg => by cases List.mem_singleton.1 hg; rfl⟩
  | _ => cases h; exact .inl ⟨rfl, rfl, rfl, nofun⟩

/-- Facts about one thread. -/
structure LocF (s : Sh C) (j : Nat) (x : List (Fr C A)) : Prop where
  held : locked s.internal j = depth x
  tail : ∀ g ∈ x.tail, g.stores = false
  flag : ∀ f ∈ x.head?, f.flag s

theorem locF_local (body : C → A → List (Op C A)) : (prog body).Local (fun _ => True) (fun _ => True) LocF where
  start := by
    intro sh i x op y _ _ hl hs
    have h1 := (held_local body).start sh i x op y trivial trivial hl.held hs
    cases x with
    | nil =>
      cases hs
      exact ⟨h1, nofun, fun f hf => by cases hf; exact flag_other (enter_stores op)⟩
    | cons f fs => cases hs
  shared := fun _ _ _ _ _ _ _ _ _ => trivial
  run := by
    intro sh i x sh' y b _ hl hr
    have h1 := (held_local body).run sh i x sh' y b trivial hl.held hr
    obtain ⟨f, fs, ys, rfl, hn, rfl⟩ := run_next hr
    have hfs : ∀ g ∈ fs, g.stores = false := hl.tail
    have other : (∀ g ∈ ys, g.stores = false) → LocF sh' i (ys ++ fs) := by
      intro hy
      have hall : ∀ g ∈ ys ++ fs, g.stores = false := by
        intro g hg
        rcases List.mem_append.1 hg with h | h
        · exact hy g h
        · exact hfs g h
      exact ⟨h1, fun g hg => hall g (List.mem_of_mem_tail hg),
        fun g hg => flag_other (hall g (List.mem_of_mem_head? hg))⟩
    rcases next_flag hn with ⟨-, -, -, hy⟩ | ⟨c, rfl, rfl, hs⟩ | ⟨rfl, rfl, hs⟩ | ⟨c, rfl, rfl, -, -⟩ | ⟨rfl, rfl, -, -⟩
    · exact other hy
    · exact ⟨h1, hfs, fun g hg => by cases hg; exact hs⟩
    · exact ⟨h1, hfs, fun g hg => by cases hg; exact hs⟩
    · exact other fun g hg => by cases List.mem_singleton.1 hg; rfl
    · exact other fun g hg => by cases List.mem_singleton.1 hg; rfl
  other := by
    intro sh i x sh' y b j z _ hl hr hne hz
    have h1 := (held_local body).other sh i x sh' y b j z trivial hl.held hr hne hz.held
    refine ⟨h1, hz.tail, fun f hf => ?_⟩
    obtain ⟨g, fs, ys, rfl, hn, rfl⟩ := run_next hr
    cases hst : f.stores with
    | false => exact flag_other hst
    | true =>
      have hzd : 1 ≤ locked sh.internal j := by
        rw [hz.held]
        cases z with
        | nil => cases hf
        | cons z0 zs =>
          cases hf
          have := stores_holds hst
          simp only [depth]
          omega
      have lone : g.holds = 1 → False := by
        intro hg
        have : 1 ≤ locked sh.internal i := by
          rw [hl.held]
          simp only [depth]
          omega
        exact hne (locked_unique hzd this)
      have keep : sh'.set = sh.set → f.flag sh' := by
        intro e
        have := hz.flag f hf
        cases f <;> first | trivial | (simp only [Fr.flag, e] at this ⊢; exact this)
      rcases next_flag hn with ⟨h, -, -, -⟩ | ⟨c, rfl, -, -⟩ | ⟨rfl, -, -⟩ | ⟨c, rfl, -, -, -⟩ | ⟨rfl, -, -, -⟩
      · exact keep h
      · exact (lone rfl).elim
      · exact (lone rfl).elim
      · exact (lone rfl).elim
      · exact (lone rfl).elim
  woken := by
    intro sh i x y hl hw
    have h1 := (held_local body).woken sh i x y hl.held hw
    change woken x = some y at hw
    unfold woken at hw
    split at hw
    · cases hw
      exact ⟨h1, hl.tail, fun f hf => by cases hf; trivial⟩
    · cases hw
  late := nofun

/-- The thread is between the flag and the function. -/
def storing : List (Fr C A) → Bool
  | f :: _ => f.stores
  | [] => false

/-- Flag and function agree when no thread is between the two. -/
def Agree {body : C → A → List (Op C A)} (s : Conf (prog body)) : Prop :=
  (∀ (i : Nat) (x : List (Fr C A)), s.pcs[i]? = some x → storing x = false) → s.sh.set = s.sh.callback.isSome

theorem agree_step {body : C → A → List (Op C A)} {s s' : Conf (prog body)} {l : Label (Op C A)}
    (hi : (prog body).Inv (fun _ => True) LocF s) (hA : Agree s) (hs : (prog body).Stepped s l s') : Agree s' := by
  intro hno
  -- threads that do not run
  have rest : ∀ (j : Nat) (x : List (Fr C A)), l ≠ .run j → s.pcs[j]? = some x → storing x = false := by
    intro j x hl hx
    obtain ⟨y, hy, t⟩ := Prog.track hs hx
    have hy' := hno j y hy
    rcases t with ⟨op, -, hst, -⟩ | ⟨h, -⟩ | ⟨-, h | h | h, -⟩
    · cases x with
      | nil => rfl
      | cons f fs => cases hst
    · exact absurd h hl
    · rw [← h]; exact hy'
    · have h : woken x = some y := h
      unfold woken at h
      split at h
      · rfl
      · cases h
    · cases h
  by_cases hl : ∃ i, l = .run i
  case neg =>
    rcases Prog.stepped_sh hs with h | ⟨i, x, y, b, h, -, -⟩
    · rw [h]
      exact hA fun j x hx => rest j x (fun e => hl ⟨j, e⟩) hx
    · exact absurd ⟨i, h⟩ hl
  · obtain ⟨i, rfl⟩ := hl
    obtain ⟨x, hx⟩ := Prog.stepped_at hs
    obtain ⟨sh, y, b, hr, hsh, hy⟩ := Prog.stepped_run hs hx
    have hr : run body i s.sh x = some (sh, y, b) := hr
    rw [← hsh] at hr
    obtain ⟨f, fs, ys, rfl, hn, rfl⟩ := run_next hr
    have hy := hno i _ hy
    have hfl := (hi.loc i _ hx).flag f rfl
    rcases next_flag hn with ⟨h1, h2, h3, -⟩ | ⟨c, rfl, rfl, -⟩ | ⟨rfl, rfl, -⟩ | ⟨c, rfl, rfl, h1, h2⟩ |
      ⟨rfl, rfl, h1, h2⟩
    · rw [h1, h2]
      refine hA fun j z hz => ?_
      by_cases hj : j = i
      · subst hj
        rw [hx] at hz
        cases hz
        exact h3
      · exact rest j z (fun e => hj (by cases e; rfl)) hz
    · cases hy
    · cases hy
    · rw [h1, h2]; exact hfl
    · rw [h1, h2]; exact hfl

theorem agree_reachable {body : C → A → List (Op C A)} {n : Nat} {s : Conf (prog body)}
    (hr : (prog body).system.Reachable (init body n) s) : (prog body).Inv (fun _ => True) LocF s ∧ Agree s := by
  refine System.ReachableBy.invariant (S := (prog body).system)
    (fun s => (prog body).Inv (fun _ => True) LocF s ∧ Agree s) ?_ ?_ hr
  · refine ⟨⟨trivial, fun j x hx => ?_⟩, fun _ => rfl⟩
    have := Prog.init_get hx
    subst this
    exact ⟨rfl, nofun, nofun⟩
  · intro s l s' ⟨h1, h2⟩ hA hs
    exact ⟨(locF_local body).step h1 hA (Prog.step_stepped hs), agree_step h1 h2 (Prog.step_stepped hs)⟩

/-- C46 with any callbacks, also those that set and unset callbacks or raise events themselves, and any number of threads: an event
that finds the flag set finds a callback that was set; the default one, which ends the process, is never called. -/
theorem C46_nested (body : C → A → List (Op C A)) (n : Nat) (s : Conf (prog body))
    (hr : (prog body).system.Reachable (init body n) s) (i : Nat) (a : A) (fs : List (Fr C A))
    (hx : s.pcs[i]? = some (.evTest a :: fs)) : s.sh.set = s.sh.callback.isSome := by
  obtain ⟨hI, hA⟩ := agree_reachable hr
  refine hA fun j z hz => ?_
  cases z with
  | nil => rfl
  | cons g gs =>
    cases hst : storing (g :: gs) with
    | false => rfl
    | true =>
      have h1 : 1 ≤ locked s.sh.internal i := by
        rw [(hI.loc i _ hx).held]; simp only [depth, Fr.holds]; omega
      have h2 : 1 ≤ locked s.sh.internal j := by
        rw [(hI.loc j _ hz).held]
        have := stores_holds (f := g) hst
        simp only [depth]; omega
      have := locked_unique h1 h2
      subst this
      rw [hx] at hz
      cases hz
      cases hst

/-- The hypothesis is met by an event that a callback raises after it has unset itself. -/
example : ∃ s : Conf (prog (C := Unit) (A := Bool) (fun _ a => if a then [.unsetCallback, .event false] else [])),
    (prog (C := Unit) (A := Bool) (fun _ a => if a then [.unsetCallback, .event false] else [])).system.Reachable (init _ 1) s ∧
    s.pcs[0]? = some [.evTest false, .evIn []] ∧ s.sh.set = false :=
  ⟨_, (prog (C := Unit) (A := Bool) (fun _ a => if a then [.unsetCallback, .event false] else [])).system.exec_reachable'
    ([.start 0 (.setCallback ()), .run 0, .run 0, .run 0, .run 0, .run 0, .start 0 (.event true)] ++
      List.replicate 13 (.run 0)) rfl, rfl, rfl⟩

end Verif.EventNested
