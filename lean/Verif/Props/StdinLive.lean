import Verif.Props.Stdin
/-!
C166: lines that are asked for and typed are given to the callback; C167: calls return; C169: `CommandReader`.
-/
namespace Verif.Stdin
open Verif.Threads

theorem active {c : Callback} {x : PC} (h : x ≠ .idle) : (prog c).Active x := by
  refine ⟨fun op => ?_, rfl, rfl⟩
  show start x op = none
  cases hs : start x op with
  | none => rfl
  | some y => cases start_started hs <;> exact absurd rfl h

theorem call_able (c : Callback) (i : Nat) (s : Sh) (t : Str) : (run c i s (.evCall t)).isSome := by
  cases c <;> rfl

/-- The owners of the mutexes are threads. -/
def Owned {c : Callback} (s : Conf (prog c)) : Prop :=
  (∀ j, s.sh.event = some j → j < s.pcs.length) ∧ (∀ j, s.sh.internal = some j → j < s.pcs.length)

theorem owned {c : Callback} {k : Int} {n : Nat} {s : Conf (prog c)}
    (h : (prog c).system.Reachable (init c k n) s) : Owned s := by
  refine System.ReachableBy.invariant (S := (prog c).system) (fun s : Conf (prog c) => Owned s) ?_ ?_ h
  · exact ⟨fun j hj => (by cases hj), fun j hj => (by cases hj)⟩
  · intro s l s' ho hA hs
    unfold Owned
    rw [Prog.stepped_length (Prog.step_stepped hs)]
    rcases ran_of_step hs with e | ⟨i, x, y, -, hx, hr⟩
    · rw [e]; exact ho
    · have hlt : i < s.pcs.length := (List.getElem?_eq_some_iff.1 hx).1
      obtain ⟨h1, h2⟩ := ho
      generalize s'.sh = sh' at hr
      cases hr with
      | setLock | unsetLock | cbLock => exact ⟨fun j hj => (by cases hj; exact hlt), h2⟩
      | setOut | unsetOut | cbOut => exact ⟨fun j hj => (by cases hj), h2⟩
      | setInternal | unsetInternal | evLock => exact ⟨h1, fun j hj => by cases hj; exact hlt⟩
      | setChanged | setNew | unsetRel | evRel => exact ⟨h1, fun j hj => by cases hj⟩
      | _ => exact ⟨h1, h2⟩

/-- Everything that always holds. -/
structure All {c : Callback} (s : Conf (prog c)) : Prop where
  inv : (prog c).Inv Glob Loc s
  linv : (prog c).Inv LGlob LLoc s
  owned : Owned s
  at0 : ∃ x : PC, s.pcs[0]? = some x

/-- The thread with `event_mutex_`. -/
theorem All.event {c : Callback} {s : Conf (prog c)} (h : All s) {j : Nat} (he : s.sh.event = some j) :
    ∃ x : PC, s.pcs[j]? = some x ∧ x.hasEvent = true ∧ x.efact s.sh := by
  have hx : s.pcs[j]? = some _ := List.getElem?_eq_getElem (h.owned.1 j he)
  have hl := h.inv.loc j _ hx
  exact ⟨_, hx, hl.event.2 he, hl.efact⟩

/-- While a callback is set and the thread exists, it has not ended and is not told to. -/
theorem All.enabled {c : Callback} {s : Conf (prog c)} (h : All s) (hs : s.sh.set = true)
    (ht : s.sh.thread ≠ .none) : s.sh.enabled = true ∧ (s.sh.thread = .spawned ∨ s.sh.thread = .running) := by
  cases he : s.sh.event with
  | none => exact (h.inv.glob.cons he).1 hs
  | some j =>
    obtain ⟨x, -, h1, h2⟩ := h.event he
    have no : ∀ P : Prop, s.sh.set = false → P := fun P h => by rw [hs] at h; cases h
    cases x with
    | setInternal | setFlag | unsetTest => exact h2.1 hs
    | setOut | unsetInternal | unsetFlag => exact h2.1.1 hs
    | setRel was =>
      cases was with
      | true => exact h2.1.1 hs
      | false => exact absurd h2.2.2 ht
    | setStart | setSpawn => exact absurd h2.2.2 ht
    | unsetRel | unsetStop | unsetJoin => exact no _ h2.1
    | unsetOut => exact no _ h2.2
    | _ => cases h1

/-- If a callback is set and there is no thread, someone is about to start it. -/
theorem All.starting {c : Callback} {s : Conf (prog c)} (h : All s) (hs : s.sh.set = true)
    (ht : s.sh.thread = .none) :
    ∃ j : Nat, s.pcs[j]? = some (.setRel false) ∨ s.pcs[j]? = some .setStart ∨ s.pcs[j]? = some .setSpawn := by
  have no : ¬ Cons s.sh := by
    intro hc
    have := (hc.1 hs).2
    rw [ht] at this
    rcases this with h | h <;> cases h
  have no' : ∀ P : Prop, s.sh.set = false → P := fun P h => by rw [hs] at h; cases h
  cases he : s.sh.event with
  | none => exact absurd (h.inv.glob.cons he) no
  | some j =>
    obtain ⟨x, hx, h1, h2⟩ := h.event he
    cases x with
    | setInternal | setFlag | unsetTest => exact absurd h2 no
    | setOut | unsetInternal | unsetFlag => exact absurd h2.1 no
    | setRel was =>
      cases was with
      | true => exact absurd h2.1 no
      | false => exact ⟨j, Or.inl hx⟩
    | setStart => exact ⟨j, Or.inr (Or.inl hx)⟩
    | setSpawn => exact ⟨j, Or.inr (Or.inr hx)⟩
    | unsetRel | unsetStop | unsetJoin => exact no' _ h2.1
    | unsetOut => exact no' _ h2.2
    | _ => cases h1

section
variable {c : Callback} (ht : c.tame = true) {k : Int} {n : Nat} (e : (prog c).system.Execution) (hf : e.Fair)
  (h0 : e.at_ 0 = init c k n)

section
include ht h0

theorem all (m : Nat) : All (e.at_ m) := by
  have hR : (prog c).system.Reachable (init c k n) (e.at_ m) := e.reachable (by rw [h0]; exact .init) m
  exact ⟨inv ht hR, linv hR, owned hR, reader_at hR⟩

include hf

/-- A step that nothing can block. -/
theorem moves (i : Nat) (x : PC) (hact : x ≠ .idle) (Q : Conf (prog c) → Prop)
    (hable : ∀ s : Conf (prog c), All s → s.pcs[i]? = some x → (run c i s.sh x).isSome)
    (hdone : ∀ (s : Conf (prog c)) (sh : Sh) (y : PC), All s → s.pcs[i]? = some x → Ran c i s.sh x sh y →
      ∀ s' : Conf (prog c), All s' → s'.sh = sh → s'.pcs[i]? = some y → Q s') :
    e.LeadsTo (fun s => s.pcs[i]? = some x) Q := by
  refine Prog.free_step e hf All (all ht e h0) i x (active hact) Q hable ?_
  intro s s' hi hi' hx hs
  obtain ⟨sh, y, b, h1, h2, h3⟩ := Prog.stepped_run hs hx
  exact hdone s sh y hi hx (run_ran h1) s' hi' h2 h3

/-- A step that needs something. -/
theorem takes (K : Conf (prog c) → Prop) (free : Sh → Prop) (i : Nat) (x : PC) (hact : x ≠ .idle)
    (hK : ∀ s : Conf (prog c), s.pcs[i]? = some x → K s)
    (hfree : e.LeadsTo K (fun s => free s.sh)) (Q : Conf (prog c) → Prop)
    (hable : ∀ s : Conf (prog c), All s → s.pcs[i]? = some x → free s.sh → (run c i s.sh x).isSome)
    (hdone : ∀ (s : Conf (prog c)) (sh : Sh) (y : PC), All s → s.pcs[i]? = some x → Ran c i s.sh x sh y →
      ∀ s' : Conf (prog c), All s' → s'.sh = sh → s'.pcs[i]? = some y → Q s') :
    e.LeadsTo (fun s => s.pcs[i]? = some x) Q := by
  refine Prog.acquire e hf All (all ht e h0) i x (active hact) K free Q (fun s _ h => hK s h)
    (fun m hm => hfree m hm.1) hable ?_
  intro s s' hi hi' hx hs
  obtain ⟨sh, y, b, h1, h2, h3⟩ := Prog.stepped_run hs hx
  exact hdone s sh y hi hx (run_ran h1) s' hi' h2 h3

/-- From one place to the next. -/
theorem next (i : Nat) (x : PC) (hact : x ≠ .idle) (Q : Conf (prog c) → Prop) (P : PC → Prop)
    (hable : ∀ s : Conf (prog c), All s → s.pcs[i]? = some x → (run c i s.sh x).isSome)
    (hy : ∀ (s : Conf (prog c)) (sh : Sh) (y : PC), All s → s.pcs[i]? = some x → Ran c i s.sh x sh y → P y)
    (hP : ∀ y, P y → e.LeadsTo (fun s => s.pcs[i]? = some y) Q) :
    e.LeadsTo (fun s => s.pcs[i]? = some x) Q := by
  have h1 : e.LeadsTo (fun s => s.pcs[i]? = some x) (fun s => ∃ y, s.pcs[i]? = some y ∧ P y) := by
    refine moves ht e hf h0 i x hact _ hable ?_
    intro s sh y hA hx hr s' _ _ h3
    exact ⟨y, h3, hy s sh y hA hx hr⟩
  exact h1.trans fun m ⟨y, hy, hc⟩ => hP y hc m hy

/-- `internal_callback_mutex_` is released again and again. -/
theorem internal_frees : e.LeadsTo (fun _ => True) (fun s => s.sh.internal = none) := by
  have last : ∀ (i : Nat) (x : PC), x = .setRel true ∨ x = .setRel false ∨ x = .unsetRel ∨ x = .evRel →
      e.LeadsTo (fun s => s.pcs[i]? = some x) (fun s => s.sh.internal = none) := by
    intro i x hx
    refine moves ht e hf h0 i x (by rcases hx with rfl | rfl | rfl | rfl <;> nofun) _ ?_ ?_
    · intro s _ _
      rcases hx with rfl | rfl | rfl | rfl <;> rfl
    · intro s sh y _ _ hr s' _ h2 _
      rw [h2]
      rcases hx with rfl | rfl | rfl | rfl <;> cases hr <;> rfl
  have more := fun i => next ht e hf h0 i .cbMore nofun (fun s => s.sh.internal = none) (fun y => y = .evRel)
    (fun _ _ _ => rfl) (fun _ _ _ _ _ hr => by cases hr; rfl) (fun y hy => by subst hy; exact last i _ (by simp))
  have call := fun i t => next ht e hf h0 i (.evCall t) nofun (fun s => s.sh.internal = none)
    (fun y => y = .evRel ∨ y = .cbMore) (fun s _ _ => call_able c i s.sh t)
    (fun _ _ _ _ _ hr => by
      cases hr with
      | callBack _ hc => rcases hc with rfl | rfl <;> cases ht
      | callMore => exact Or.inr rfl
      | _ => exact Or.inl rfl)
    (fun y hy => by rcases hy with rfl | rfl; exact last i _ (by simp); exact more i)
  have test := fun i t => next ht e hf h0 i (.evTest t) nofun (fun s => s.sh.internal = none)
    (fun y => y = .evRel ∨ y = .evCall t) (fun s _ _ => by
      show (run c i s.sh (.evTest t)).isSome
      simp only [run]; split <;> rfl)
    (fun _ _ _ _ _ hr => by
      cases hr with
      | evYes => exact Or.inr rfl
      | evNo => exact Or.inl rfl)
    (fun y hy => by rcases hy with rfl | rfl; exact last i _ (by simp); exact call i t)
  have flag := fun i => next ht e hf h0 i .setFlag nofun (fun s => s.sh.internal = none)
    (fun y => y = .setRel true ∨ y = .setRel false) (fun _ _ _ => rfl)
    (fun s _ _ _ _ hr => by cases hr; cases s.sh.set <;> simp)
    (fun y hy => by rcases hy with rfl | rfl; exact last i _ (by simp); exact last i _ (by simp))
  have uflag := fun i => next ht e hf h0 i .unsetFlag nofun (fun s => s.sh.internal = none)
    (fun y => y = .unsetRel) (fun _ _ _ => rfl)
    (fun _ _ _ _ _ hr => by cases hr; rfl) (fun y hy => by subst hy; exact last i _ (by simp))
  intro m _
  cases hs : (e.at_ m).sh.internal with
  | none => exact ⟨m, Nat.le_refl m, hs⟩
  | some j =>
    have hA := all ht e h0 m
    have hx : (e.at_ m).pcs[j]? = some _ := List.getElem?_eq_getElem (hA.owned.2 j hs)
    have hh := (hA.inv.loc j _ hx).internal.2 hs
    generalize (e.at_ m).pcs[j]'(hA.owned.2 j hs) = x at hx hh
    cases x with
    | setRel was => cases was <;> exact last j _ (by simp) m hx
    | setFlag => exact flag j m hx
    | unsetFlag => exact uflag j m hx
    | unsetRel => exact last j _ (by simp) m hx
    | evTest t => exact test j t m hx
    | evCall t => exact call j t m hx
    | cbMore => exact more j m hx
    | evRel => exact last j _ (by simp) m hx
    | _ => cases hh

/-- The same as `next` for a step that needs `internal_callback_mutex_`. -/
theorem next_internal (i : Nat) (x : PC) (hact : x ≠ .idle) (Q : Conf (prog c) → Prop) (P : PC → Prop)
    (hable : ∀ s : Sh, s.internal = none → (run c i s x).isSome)
    (hy : ∀ (s sh : Sh) (y : PC), Ran c i s x sh y → P y)
    (hP : ∀ y, P y → e.LeadsTo (fun s => s.pcs[i]? = some y) Q) :
    e.LeadsTo (fun s => s.pcs[i]? = some x) Q := by
  have h1 : e.LeadsTo (fun s => s.pcs[i]? = some x) (fun s => ∃ y, s.pcs[i]? = some y ∧ P y) := by
    refine takes ht e hf h0 (fun _ => True) (fun s => s.internal = none) i x hact (fun _ _ => trivial)
      (internal_frees ht e hf h0) _ (fun s _ _ h => hable s.sh h) ?_
    intro s sh y hA hx hr s' _ _ h3
    exact ⟨y, h3, hy s.sh sh y hr⟩
  exact h1.trans fun m ⟨y, hy, hc⟩ => hP y hc m hy

/-! ### Delivery -/

/-- The next line is given to the callback. -/
theorem delivers_next (j : Nat) :
    e.LeadsTo (fun s => s.sh.set = true ∧ s.sh.log.length = j ∧ j < s.sh.typed.length ∧ (j : Int) < s.sh.lines + s.sh.asked)
      (fun s => (s.sh.log.length = j + 1 ∧ ∃ x : Str, s.sh.log[j]? = some (x, true)) ∨ s.sh.set = false) := by
  let K : Conf (prog c) → Prop := fun s =>
    s.sh.set = true ∧ s.sh.log.length = j ∧ j < s.sh.typed.length ∧ (j : Int) < s.sh.lines + s.sh.asked
  let Q : Conf (prog c) → Prop := fun s =>
    (s.sh.log.length = j + 1 ∧ ∃ x : Str, s.sh.log[j]? = some (x, true)) ∨ s.sh.set = false
  have keepR : ∀ (s : Conf (prog c)) (i : Nat) (x y : PC) (sh' : Sh), K s → Ran c i s.sh x sh' y →
      (sh'.set = true ∧ sh'.log.length = j ∧ j < sh'.typed.length ∧ (j : Int) < sh'.lines + sh'.asked) ∨
      ((sh'.log.length = j + 1 ∧ ∃ x : Str, sh'.log[j]? = some (x, true)) ∨ sh'.set = false) := by
    rintro s i x y sh' ⟨h1, h2, h3, h4⟩ hr
    have grow : ∀ t : Str, (s.sh.log ++ [(t, true)]).length = j + 1 ∧
        ∃ x : Str, (s.sh.log ++ [(t, true)])[j]? = some (x, true) := by
      intro t
      refine ⟨by simp [h2], t, ?_⟩
      rw [← h2]
      simp
    cases hr with
    | setFlag => exact Or.inl ⟨rfl, h2, h3, h4⟩
    | unsetFlag => exact Or.inr (Or.inr rfl)
    | cbUnset => exact Or.inr (Or.inr rfl)
    | more | nextMore | cbMore =>
      exact Or.inl ⟨h1, h2, h3, by show (j : Int) < s.sh.lines + ((s.sh.asked + 1 : Nat) : Int); omega⟩
    | typing t => exact Or.inl ⟨h1, h2, by show j < (s.sh.typed ++ [t]).length; simp; omega, h4⟩
    | evNo t h => exact absurd (h.symm.trans h1) nofun
    | callPlain t => exact Or.inr (Or.inl (grow t))
    | callMore t => exact Or.inr (Or.inl (grow t))
    | callProduce t => exact Or.inr (Or.inl (grow t))
    | callBack t => exact Or.inr (Or.inl (grow t))
    | _ => exact Or.inl ⟨h1, h2, h3, h4⟩
  have keep : ∀ s l s', All s → All s' → K s → (prog c).Stepped s l s' → K s' ∨ Q s' := by
    intro s l s' _ _ hk hs
    rcases Prog.stepped_sh hs with h | ⟨i, x, y, b, -, hx, hr⟩
    · exact Or.inl (by show _ ∧ _; rw [h]; exact hk)
    · exact keepR s i x y s'.sh hk (run_ran hr)
  have still : ∀ m, K (e.at_ m) → ∀ k, m ≤ k → K (e.at_ k) ∨ ∃ k', m ≤ k' ∧ Q (e.at_ k') := by
    intro m hm k hk
    induction hk with
    | refl => exact Or.inl hm
    | step hk ih =>
      rename_i k
      rcases ih with ih | ih
      · rcases e.next k with ⟨-, h⟩ | ⟨l, -, h⟩
        · rw [h]; exact Or.inl ih
        · rcases keep _ _ _ (all ht e h0 k) (all ht e h0 (k + 1)) ih (Prog.step_stepped h) with h | h
          · exact Or.inl h
          · exact Or.inr ⟨k + 1, Nat.le_succ_of_le hk, h⟩
      · exact Or.inr ih
  -- from one place of thread `i` to the next
  have via : ∀ (i : Nat) (x y : PC), x ≠ .idle →
      (∀ s : Conf (prog c), All s → K s → s.pcs[i]? = some x → (run c i s.sh x).isSome) →
      (∀ (s : Conf (prog c)) (sh : Sh) (z : PC), All s → K s → s.pcs[i]? = some x → Ran c i s.sh x sh z → z = y) →
      e.LeadsTo (fun s => s.pcs[i]? = some y ∧ K s) Q → e.LeadsTo (fun s => s.pcs[i]? = some x ∧ K s) Q := by
    intro i x y hact hable hdone hy
    have h1 : e.LeadsTo (fun s => s.pcs[i]? = some x ∧ K s) (fun s => Q s ∨ (s.pcs[i]? = some y ∧ K s)) := by
      refine Prog.move e hf All (all ht e h0) i x (active hact) K _ ?_ hable ?_
      · intro s l s' h1 h2 h3 h4
        rcases keep s l s' h1 h2 h3 h4 with h | h
        · exact Or.inl h
        · exact Or.inr (Or.inl h)
      · intro s s' z b hA _ hk hx hr hz hk'
        have := hdone s s'.sh z hA hk hx (run_ran hr)
        subst this
        exact Or.inr ⟨hz, hk'⟩
    exact h1.trans (System.Execution.LeadsTo.or (.refl e fun _ h => h) hy)
  -- the reading thread runs
  have run_ : ∀ (s : Conf (prog c)) (x : PC), All s → s.pcs[0]? = some x → x ≠ .off → s.sh.thread = .running := by
    intro s x hA hx hne
    have hl := hA.inv.loc 0 x hx
    have h1 := hl.reader.2 rfl
    have h2 := hl.tfact
    have h3 := hl.efact
    cases x with
    | off => exact absurd rfl hne
    | finish => exact h2.1
    | wait | read | evLock | evTest | evCall | cbMore | evRel => exact h2
    | cbLock | cbFlag | cbStop | cbJoin | cbOut | dead => exact h3.elim
    | _ => cases h1
  have en : ∀ (s : Conf (prog c)) (x : PC), All s → s.pcs[0]? = some x → x ≠ .off → K s → s.sh.enabled = true := by
    intro s x hA hx hne hk
    refine (hA.enabled hk.1 ?_).1
    rw [run_ s x hA hx hne]
    nofun
  have call : ∀ t, e.LeadsTo (fun s => s.pcs[0]? = some (.evCall t) ∧ K s) Q := by
    intro t
    refine Prog.move e hf All (all ht e h0) 0 (.evCall t) (active nofun) K _ keep
      (fun s _ _ _ => call_able c 0 s.sh t) ?_
    intro s s' z b hA _ hk hx hr hz hk'
    have hr : Ran c 0 s.sh (.evCall t) s'.sh z := run_ran hr
    exfalso
    have h1 := hk.2.1
    have h2 := hk'.2.1
    generalize s'.sh = sh' at hr h2
    cases hr <;> simp at h2 <;> omega
  have test := fun t => via 0 (.evTest t) (.evCall t) nofun (fun s _ _ _ => by
      show (run c 0 s.sh (.evTest t)).isSome
      simp only [run]; split <;> rfl)
    (fun s sh z _ hk _ hr => by
      cases hr with
      | evYes => rfl
      | evNo _ h => rw [hk.1] at h; cases h) (call t)
  have lock : ∀ t, e.LeadsTo (fun s => s.pcs[0]? = some (.evLock t) ∧ K s) Q := by
    rintro t m ⟨hx, hk⟩
    obtain ⟨k, hk1, h⟩ := takes ht e hf h0 (fun _ => True) (fun s => s.internal = none) 0 (.evLock t) nofun
      (fun _ _ => trivial) (internal_frees ht e hf h0)
      (fun s => s.pcs[0]? = some (.evTest t)) (fun s _ _ h => by simp only [run, h]; rfl)
      (fun s sh y _ _ hr s' _ _ h3 => by cases hr; exact h3) m hx
    rcases still m hk k hk1 with h' | h'
    · obtain ⟨k', hk', h⟩ := test t k ⟨h, h'⟩
      exact ⟨k', Nat.le_trans hk1 hk', h⟩
    · exact h'
  have read : e.LeadsTo (fun s => s.pcs[0]? = some .read ∧ K s) Q := by
    have h1 : e.LeadsTo (fun s => s.pcs[0]? = some .read ∧ K s)
        (fun s => Q s ∨ ∃ t : Str, s.pcs[0]? = some (.evLock t) ∧ K s) := by
      refine Prog.move e hf All (all ht e h0) 0 .read (active nofun) K _ ?_ ?_ ?_
      · intro s l s' h1 h2 h3 h4
        rcases keep s l s' h1 h2 h3 h4 with h | h
        · exact Or.inl h
        · exact Or.inr (Or.inl h)
      · intro s hA hk hx
        have h1 := (hA.linv.loc 0 _ hx).lines rfl
        have h2 := congrArg List.length h1
        simp only [PC.line, List.length_append, List.length_map, List.length_nil] at h2
        have h3 := hk.2.1
        have h4 := hk.2.2.1
        show (run c 0 s.sh .read).isSome
        cases hi : s.sh.input with
        | nil => rw [hi] at h2; simp at h2; omega
        | cons t rest => simp only [run, hi]; rfl
      · intro s s' z b hA _ hk hx hr hz hk'
        have hr : Ran c 0 s.sh .read s'.sh z := run_ran hr
        generalize s'.sh = sh' at hr
        cases hr with
        | read t => exact Or.inr ⟨t, hz, hk'⟩
    refine h1.trans (System.Execution.LeadsTo.or (.refl e fun _ h => h) ?_)
    rintro m ⟨t, h⟩
    exact lock t m h
  have wait := via 0 .wait .read nofun
    (fun s hA hk hx => by
      have h1 := (hA.linv.loc 0 _ hx).taken rfl
      have h2 := hA.linv.glob.count
      have h3 := hk.2.1
      have h4 := hk.2.2.2
      simp only [PC.pending] at h1
      have h5 : 0 < s.sh.count := by omega
      show (run c 0 s.sh .wait).isSome
      simp only [run, en s _ hA hx nofun hk, h5]
      rfl)
    (fun s sh z hA hk hx hr => by
      cases hr with
      | grant => rfl
      | stop h => rw [en s _ hA hx nofun hk] at h; cases h) read
  have rel := via 0 .evRel .wait nofun (fun _ _ _ _ => rfl) (fun s sh z _ _ _ hr => by cases hr; rfl) wait
  have more := via 0 .cbMore .evRel nofun (fun _ _ _ _ => rfl) (fun s sh z _ _ _ hr => by cases hr; rfl) rel
  have off : e.LeadsTo (fun s => s.pcs[0]? = some .off ∧ (K s ∧ s.sh.thread = .spawned)) Q := by
    have h1 : e.LeadsTo (fun s => s.pcs[0]? = some .off ∧ (K s ∧ s.sh.thread = .spawned))
        (fun s => Q s ∨ (s.pcs[0]? = some .wait ∧ K s)) := by
      refine Prog.runs' e hf All (all ht e h0) 0 .off (active nofun) (fun s => K s ∧ s.sh.thread = .spawned) _ ?_ ?_ ?_
      · rintro s l s' hA hA' hx ⟨hk, hth⟩ hs hl
        rcases keep s l s' hA hA' hk hs with h | h
        · refine Or.inl ⟨h, ?_⟩
          rcases Prog.stepped_sh hs with h | ⟨i, x, y, b, el, hx, hr⟩
          · rw [h]; exact hth
          · have hr : Ran c i s.sh x s'.sh y := run_ran hr
            have hlx := hA.inv.loc i x hx
            have hti : x.reader = false := by
              cases h : x.reader with
              | false => rfl
              | true => exact absurd (by rw [el, hlx.reader.1 h]) hl
            generalize s'.sh = sh' at hr
            cases hr with
            | setSpawn => rfl
            | unsetJoin h => rw [hth] at h; cases h
            | off => cases hti
            | finish => cases hti
            | _ => exact hth
        · exact Or.inr (Or.inl h)
      · rintro s hA hx ⟨hk, hth⟩
        show (run c 0 s.sh .off).isSome
        simp only [run, hth]
        rfl
      · rintro s s' hA hA' hx ⟨hk, hth⟩ hs
        rcases keep s _ s' hA hA' hk hs with h | h
        · obtain ⟨sh, y, b, g1, g2, g3⟩ := Prog.stepped_run hs hx
          have hr : Ran c 0 s.sh .off sh y := run_ran g1
          cases hr
          exact Or.inr ⟨g3, h⟩
        · exact Or.inl h
    exact h1.trans (System.Execution.LeadsTo.or (.refl e fun _ h => h) wait)
  -- when there is a thread
  have started : e.LeadsTo (fun s => K s ∧ s.sh.thread ≠ .none) Q := by
    rintro m ⟨hk, hne⟩
    have hA := all ht e h0 m
    obtain ⟨x, hx⟩ := hA.at0
    have hc := hA.enabled hk.1 hne
    have hl := hA.inv.loc 0 x hx
    have h1 := hl.reader.2 rfl
    have htf := hl.tfact
    have hef := hl.efact
    cases x with
    | off => exact off m ⟨hx, hk, hc.2.resolve_right htf⟩
    | wait => exact wait m ⟨hx, hk⟩
    | read => exact read m ⟨hx, hk⟩
    | evLock t => exact lock t m ⟨hx, hk⟩
    | evTest t => exact test t m ⟨hx, hk⟩
    | evCall t => exact call t m ⟨hx, hk⟩
    | cbMore => exact more m ⟨hx, hk⟩
    | evRel => exact rel m ⟨hx, hk⟩
    | finish =>
      have h1 : (e.at_ m).sh.enabled = false := htf.2
      rw [hc.1] at h1
      cases h1
    | cbLock | cbFlag | cbStop | cbJoin | cbOut | dead => exact hef.elim
    | _ => cases h1
  -- when it is being started
  have spawn : ∀ i : Nat, e.LeadsTo (fun s => s.pcs[i]? = some .setSpawn ∧ K s) Q := by
    intro i
    have h1 : e.LeadsTo (fun s => s.pcs[i]? = some .setSpawn ∧ K s) (fun s => Q s ∨ (K s ∧ s.sh.thread ≠ .none)) := by
      refine Prog.move e hf All (all ht e h0) i .setSpawn (active nofun) K _ ?_ (fun _ _ _ _ => rfl) ?_
      · intro s l s' h1 h2 h3 h4
        rcases keep s l s' h1 h2 h3 h4 with h | h
        · exact Or.inl h
        · exact Or.inr (Or.inl h)
      · intro s s' z b hA _ hk hx hr hz hk'
        have hr : Ran c i s.sh .setSpawn s'.sh z := run_ran hr
        refine Or.inr ⟨hk', ?_⟩
        generalize s'.sh = sh' at hr
        cases hr
        nofun
    exact h1.trans (System.Execution.LeadsTo.or (.refl e fun _ h => h) started)
  have start := fun i => via i .setStart .setSpawn nofun (fun _ _ _ _ => rfl)
    (fun s sh z _ _ _ hr => by cases hr; rfl) (spawn i)
  have srel := fun i => via i (.setRel false) .setStart nofun (fun _ _ _ _ => rfl)
    (fun s sh z _ _ _ hr => by cases hr; rfl) (start i)
  intro m hk
  by_cases hn : (e.at_ m).sh.thread = .none
  · obtain ⟨i, h | h | h⟩ := (all ht e h0 m).starting hk.1 hn
    · exact srel i m ⟨h, hk⟩
    · exact start i m ⟨h, hk⟩
    · exact spawn i m ⟨h, hk⟩
  · exact started m ⟨hk, hn⟩

/-- A line that is typed and asked for is given to the callback. -/
theorem delivers (t : Nat) :
    e.LeadsTo (fun s => s.sh.set = true ∧ s.sh.log.length ≤ t ∧ t < s.sh.typed.length ∧ (t : Int) < s.sh.lines + s.sh.asked)
      (fun s => (∃ x : Str, s.sh.log[t]? = some (x, true)) ∨ s.sh.set = false) := by
  have mono : ∀ m k, m ≤ k → (e.at_ m).sh.typed.length ≤ (e.at_ k).sh.typed.length ∧
      (e.at_ m).sh.lines + ((e.at_ m).sh.asked : Int) ≤ (e.at_ k).sh.lines + ((e.at_ k).sh.asked : Int) := by
    intro m k hk
    induction hk with
    | refl => exact ⟨Nat.le_refl _, Int.le_refl _⟩
    | step hk ih =>
      rename_i k
      have : (e.at_ k).sh.typed.length ≤ (e.at_ (k + 1)).sh.typed.length ∧
          (e.at_ k).sh.lines + ((e.at_ k).sh.asked : Int) ≤
            (e.at_ (k + 1)).sh.lines + ((e.at_ (k + 1)).sh.asked : Int) := by
        rcases e.next k with ⟨-, h⟩ | ⟨l, -, h⟩
        · rw [h]; exact ⟨Nat.le_refl _, Int.le_refl _⟩
        · rcases ran_of_step h with h | ⟨i, x, y, -, -, hr⟩
          · rw [h]; exact ⟨Nat.le_refl _, Int.le_refl _⟩
          · generalize (e.at_ (k + 1)).sh = sh' at hr
            cases hr with
            | typing t => exact ⟨by simp, Int.le_refl _⟩
            | more | nextMore | cbMore => exact ⟨Nat.le_refl _, by
                show (e.at_ k).sh.lines + ((e.at_ k).sh.asked : Int) ≤
                  (e.at_ k).sh.lines + (((e.at_ k).sh.asked + 1 : Nat) : Int)
                omega⟩
            | _ => exact ⟨Nat.le_refl _, Int.le_refl _⟩
      exact ⟨Nat.le_trans ih.1 this.1, Int.le_trans ih.2 this.2⟩
  suffices ∀ d m, (e.at_ m).sh.set = true → (e.at_ m).sh.log.length + d = t → t < (e.at_ m).sh.typed.length →
      (t : Int) < (e.at_ m).sh.lines + (e.at_ m).sh.asked →
      ∃ k, m ≤ k ∧ ((∃ x : Str, (e.at_ k).sh.log[t]? = some (x, true)) ∨ (e.at_ k).sh.set = false) by
    rintro m ⟨h1, h2, h3, h4⟩
    exact this (t - (e.at_ m).sh.log.length) m h1 (by omega) h3 h4
  intro d
  induction d with
  | zero =>
    intro m h1 h2 h3 h4
    obtain ⟨k, hk, h⟩ := delivers_next ht e hf h0 t m ⟨h1, h2, h3, h4⟩
    exact ⟨k, hk, h.imp (fun h => h.2) id⟩
  | succ d ih =>
    intro m h1 h2 h3 h4
    obtain ⟨k, hk, h⟩ := delivers_next ht e hf h0 (e.at_ m).sh.log.length m ⟨h1, rfl, by omega, by omega⟩
    have hm := mono m k hk
    cases hs : (e.at_ k).sh.set with
    | false => exact ⟨k, hk, Or.inr hs⟩
    | true =>
      rcases h with h | h
      · obtain ⟨k', hk', h'⟩ := ih k hs (by omega) (by omega) (by omega)
        exact ⟨k', Nat.le_trans hk hk', h'⟩
      · rw [hs] at h; cases h

end

include hf h0

/-- C166: under fair scheduling, line number `t` is given to the callback if it is typed and asked for, by
`lines_to_read` or by `read_one_more_line`, unless the callback is unset before. -/
theorem C166_delivers (hc : c = .plain ∨ c = .more ∨ c = .produce) (t : Nat) :
    e.LeadsTo (fun s => s.sh.set = true ∧ s.sh.log.length ≤ t ∧ t < s.sh.typed.length ∧ (t : Int) < k + s.sh.asked)
      (fun s => (∃ x : Str, s.sh.typed[t]? = some x ∧ s.sh.log[t]? = some (x, true)) ∨ s.sh.set = false) := by
  have ht : c.tame = true := by rcases hc with rfl | rfl | rfl <;> rfl
  rintro m ⟨h1, h2, h3, h4⟩
  have hR : ∀ m, (prog c).system.Reachable (init c k n) (e.at_ m) := e.reachable (by rw [h0]; exact .init)
  obtain ⟨j, hj, h⟩ := delivers ht e hf h0 t m ⟨h1, h2, h3, by rw [lines_const (hR m)]; exact h4⟩
  refine ⟨j, hj, ?_⟩
  rcases h with ⟨x, hx⟩ | h
  · refine Or.inl ⟨x, ?_, hx⟩
    obtain ⟨l, -, hl⟩ := C165_order (hR j)
    have hlt : t < (e.at_ j).sh.log.length := (List.getElem?_eq_some_iff.1 hx).1
    rw [hl, List.append_assoc, List.getElem?_append_left (by simpa using hlt), List.getElem?_map, hx]
    rfl
  · exact Or.inr h

/-! ### Calls return -/

section
variable (hin : e.LeadsTo (fun s => s.pcs[0]? = some .read) (fun s => s.sh.input ≠ []))
include ht hin

/-- The reading thread comes back to `wait`. -/
theorem loops (x : PC) (hx : x = .read ∨ (∃ t, x = .evLock t ∨ x = .evTest t ∨ x = .evCall t) ∨ x = .cbMore ∨
    x = .evRel) : e.LeadsTo (fun s => s.pcs[0]? = some x) (fun s => s.pcs[0]? = some .wait) := by
  have rel : e.LeadsTo (fun s => s.pcs[0]? = some .evRel) (fun s => s.pcs[0]? = some .wait) := by
    refine moves ht e hf h0 0 .evRel nofun _ (fun _ _ _ => rfl) ?_
    intro s sh y _ _ hr s' _ _ h3
    cases hr
    exact h3
  have more := next ht e hf h0 0 .cbMore nofun _ (fun y => y = .evRel)
    (fun _ _ _ => rfl) (fun _ _ _ _ _ hr => by cases hr; rfl) (fun y hy => by subst hy; exact rel)
  have call := fun t => next ht e hf h0 0 (.evCall t) nofun _
    (fun y => y = .evRel ∨ y = .cbMore) (fun s _ _ => call_able c 0 s.sh t)
    (fun _ _ _ _ _ hr => by
      cases hr with
      | callBack _ hc => rcases hc with rfl | rfl <;> cases ht
      | callMore => exact Or.inr rfl
      | _ => exact Or.inl rfl)
    (fun y hy => by rcases hy with rfl | rfl; exact rel; exact more)
  have test := fun t => next ht e hf h0 0 (.evTest t) nofun _
    (fun y => y = .evRel ∨ y = .evCall t) (fun s _ _ => by
      show (run c 0 s.sh (.evTest t)).isSome
      simp only [run]; split <;> rfl)
    (fun _ _ _ _ _ hr => by
      cases hr with
      | evYes => exact Or.inr rfl
      | evNo => exact Or.inl rfl)
    (fun y hy => by rcases hy with rfl | rfl; exact rel; exact call t)
  have lock := fun t => next_internal ht e hf h0 0 (.evLock t) nofun _ (fun y => y = .evTest t)
    (fun s h => by simp only [run, h]; rfl)
    (fun _ _ _ hr => by cases hr; rfl) (fun y hy => by subst hy; exact test t)
  have read : e.LeadsTo (fun s => s.pcs[0]? = some .read) (fun s => s.pcs[0]? = some .wait) := by
    have h1 : e.LeadsTo (fun s => s.pcs[0]? = some .read) (fun s => ∃ t : Str, s.pcs[0]? = some (.evLock t)) := by
      refine takes ht e hf h0 (fun s => s.pcs[0]? = some .read) (fun s => s.input ≠ []) 0 .read nofun
        (fun _ h => h) hin _ ?_ ?_
      · intro s _ _ h
        cases hi : s.sh.input with
        | nil => exact absurd hi h
        | cons t rest => simp only [run, hi]; rfl
      · intro s sh y _ _ hr s' _ _ h3
        cases hr with
        | read t => exact ⟨t, h3⟩
    exact h1.trans fun m ⟨t, h⟩ => lock t m h
  rcases hx with rfl | ⟨t, rfl | rfl | rfl⟩ | rfl | rfl
  · exact read
  · exact lock t
  · exact test t
  · exact call t
  · exact more
  · exact rel

/-- The reading thread ends when it is joined. -/
theorem thread_ends (i : Nat) :
    e.LeadsTo (fun s => s.pcs[i]? = some .unsetJoin) (fun s => s.sh.thread = .ended) := by
  have ne0 : ∀ s : Conf (prog c), All s → s.pcs[i]? = some .unsetJoin → i ≠ 0 := by
    rintro s hA hx rfl
    have := (hA.inv.loc 0 _ hx).reader.2 rfl
    cases this
  -- the thread that joins stays where it is
  have stay : ∀ m, (e.at_ m).pcs[i]? = some .unsetJoin → ∀ k, m ≤ k →
      (e.at_ k).pcs[i]? = some .unsetJoin ∨ ∃ k', m ≤ k' ∧ (e.at_ k').sh.thread = .ended := by
    intro m hm k hk
    induction hk with
    | refl => exact Or.inl hm
    | step hk ih =>
      rename_i k
      rcases ih with ih | ih
      · rcases e.next k with ⟨-, h⟩ | ⟨l, -, h⟩
        · rw [h]; exact Or.inl ih
        · by_cases hl : l = .run i
          · subst hl
            obtain ⟨sh, y, b, h1, h2, h3⟩ := Prog.stepped_run (Prog.step_stepped h) ih
            have hr : Ran c i (e.at_ k).sh .unsetJoin sh y := run_ran h1
            cases hr with
            | unsetJoin ht => exact Or.inr ⟨k, hk, ht⟩
          · exact Or.inl (Prog.frame_active (Prog.step_stepped h) ih (active nofun) hl)
      · exact Or.inr ih
  have fin : e.LeadsTo (fun s => s.pcs[0]? = some .finish) (fun s => s.sh.thread = .ended) := by
    refine moves ht e hf h0 0 .finish nofun _ (fun _ _ _ => rfl) ?_
    intro s sh y _ _ hr s' _ h2 _
    cases hr
    rw [h2]
  -- the reading thread sees that it shall end
  have wait : ∀ m, (e.at_ m).pcs[i]? = some .unsetJoin → (e.at_ m).pcs[0]? = some .wait →
      ∃ k', m ≤ k' ∧ (e.at_ k').sh.thread = .ended := by
    intro m hm hx
    have h1 : e.LeadsTo (fun s => s.pcs[0]? = some .wait ∧ s.pcs[i]? = some .unsetJoin)
        (fun s => s.sh.thread = .ended ∨ s.pcs[0]? = some .finish) := by
      refine Prog.runs' e hf All (all ht e h0) 0 .wait (active nofun) (fun s => s.pcs[i]? = some .unsetJoin) _ ?_ ?_ ?_
      · intro s l s' hA hA' hx hj hs hl
        by_cases hli : l = .run i
        · subst hli
          obtain ⟨sh, y, b, g1, g2, g3⟩ := Prog.stepped_run hs hj
          have hr : Ran c i s.sh .unsetJoin sh y := run_ran g1
          cases hr with
          | unsetJoin hth =>
            have h2 : s.sh.thread = .running := (hA.inv.loc 0 _ hx).tfact
            rw [hth] at h2
            cases h2
        · exact Or.inl (Prog.frame_active hs hj (active nofun) hli)
      · intro s hA hx hj
        have h2 : s.sh.enabled = false := (hA.inv.loc i _ hj).efact.2.1
        show (run c 0 s.sh .wait).isSome
        simp only [run, h2]
        rfl
      · intro s s' hA hA' hx hj hs
        have h2 : s.sh.enabled = false := (hA.inv.loc i _ hj).efact.2.1
        obtain ⟨sh, y, b, g1, g2, g3⟩ := Prog.stepped_run hs hx
        have hr : Ran c 0 s.sh .wait sh y := run_ran g1
        cases hr with
        | grant h => rw [h2] at h; cases h
        | stop => exact Or.inr g3
    exact h1.trans (System.Execution.LeadsTo.or (.refl e fun _ h => h) fin) m ⟨hx, hm⟩
  intro m hm
  have hA := all ht e h0 m
  obtain ⟨x, hx⟩ := hA.at0
  have hl := hA.inv.loc 0 x hx
  have h1 := hl.reader.2 rfl
  have htf := hl.tfact
  have hef := hl.efact
  have hnn : (e.at_ m).sh.thread ≠ .none := (hA.inv.loc i _ hm).efact.2.2
  have loop : ∀ y, (y = .read ∨ (∃ t, y = .evLock t ∨ y = .evTest t ∨ y = .evCall t) ∨ y = .cbMore ∨ y = .evRel) →
      (e.at_ m).pcs[0]? = some y → ∃ k', m ≤ k' ∧ (e.at_ k').sh.thread = .ended := by
    intro y hy hx
    obtain ⟨k, hk, h⟩ := loops ht e hf h0 hin y hy m hx
    rcases stay m hm k hk with h' | h'
    · obtain ⟨k', hk', h⟩ := wait k h' h
      exact ⟨k', Nat.le_trans hk hk', h⟩
    · exact h'
  by_cases hne : (e.at_ m).sh.thread = .ended
  · exact ⟨m, Nat.le_refl m, hne⟩
  cases x with
  | off =>
    -- the thread has been created and not run yet
    have hsp : (e.at_ m).sh.thread = .spawned := by
      cases h : (e.at_ m).sh.thread with
      | none => exact absurd h hnn
      | spawned => rfl
      | running => exact absurd h htf
      | ended => exact absurd h hne
    have h1 : e.LeadsTo (fun s => s.pcs[0]? = some .off ∧ (s.pcs[i]? = some .unsetJoin ∧ s.sh.thread = .spawned))
        (fun s => s.pcs[i]? = some .unsetJoin ∧ s.pcs[0]? = some .wait) := by
      refine Prog.runs' e hf All (all ht e h0) 0 .off (active nofun)
        (fun s => s.pcs[i]? = some .unsetJoin ∧ s.sh.thread = .spawned) _ ?_ ?_ ?_
      · rintro s l s' hA hA' hx ⟨hj, hsp⟩ hs hl
        have hli : l ≠ .run i := by
          rintro rfl
          obtain ⟨sh, y, b, g1, g2, g3⟩ := Prog.stepped_run hs hj
          have hr : Ran c i s.sh .unsetJoin sh y := run_ran g1
          cases hr with
          | unsetJoin ht => rw [hsp] at ht; cases ht
        refine Or.inl ⟨Prog.frame_active hs hj (active nofun) hli, ?_⟩
        rcases Prog.stepped_sh hs with h | ⟨k, w, y, b, el, hw, hr⟩
        · rw [h]; exact hsp
        · have hr : Ran c k s.sh w s'.sh y := run_ran hr
          have hlw := hA.inv.loc k w hw
          have hk0 : k ≠ 0 := fun h => hl (by rw [el, h])
          have hwt : w.reader = false := by
            cases h : w.reader with
            | false => rfl
            | true => exact absurd (hlw.reader.1 h) hk0
          generalize s'.sh = sh' at hr
          cases hr with
          | setSpawn => rfl
          | unsetJoin h => rw [hsp] at h; cases h
          | off => cases hwt
          | finish => cases hwt
          | _ => exact hsp
      · rintro s hA hx ⟨hj, hsp⟩
        show (run c 0 s.sh .off).isSome
        simp only [run, hsp]
        rfl
      · rintro s s' hA hA' hx ⟨hj, hsp⟩ hs
        obtain ⟨sh, y, b, g1, g2, g3⟩ := Prog.stepped_run hs hx
        have hr : Ran c 0 s.sh .off sh y := run_ran g1
        cases hr
        exact ⟨Prog.frame_active hs hj (active nofun) (fun h => by cases h; exact ne0 s hA hj rfl), g3⟩
    obtain ⟨k, hk, g1, g2⟩ := h1 m ⟨hx, hm, hsp⟩
    obtain ⟨k', hk', h⟩ := wait k g1 g2
    exact ⟨k', Nat.le_trans hk hk', h⟩
  | wait => exact wait m hm hx
  | finish => exact fin m hx
  | read => exact loop _ (by simp) hx
  | evLock t => exact loop _ (by simp) hx
  | evTest t => exact loop _ (by simp) hx
  | evCall t => exact loop _ (by simp) hx
  | cbMore => exact loop _ (by simp) hx
  | evRel => exact loop _ (by simp) hx
  | cbLock | cbFlag | cbStop | cbJoin | cbOut | dead => exact hef.elim
  | _ => cases h1

/-- A thread with `event_mutex_` returns from its call. -/
theorem event_returns (i : Nat) (x : PC) (hx : x.hasEvent = true) :
    e.LeadsTo (fun s => s.pcs[i]? = some x) (fun s => s.pcs[i]? = some .idle ∧ s.sh.event = none) := by
  have out : ∀ x, (x = .setOut ∨ x = .unsetOut) →
      e.LeadsTo (fun s => s.pcs[i]? = some x) (fun s => s.pcs[i]? = some .idle ∧ s.sh.event = none) := by
    intro x hx
    refine moves ht e hf h0 i x (by rcases hx with rfl | rfl <;> nofun) _
      (fun _ _ _ => by rcases hx with rfl | rfl <;> rfl) ?_
    intro s sh y _ _ hr s' _ h2 h3
    rcases hx with rfl | rfl <;> cases hr <;> exact ⟨h3, by rw [h2]⟩
  have spawn := next ht e hf h0 i .setSpawn nofun _ (fun y => y = .setOut) (fun _ _ _ => rfl)
    (fun _ _ _ _ _ hr => by cases hr; rfl) (fun y hy => by subst hy; exact out _ (Or.inl rfl))
  have start := next ht e hf h0 i .setStart nofun _ (fun y => y = .setSpawn) (fun _ _ _ => rfl)
    (fun _ _ _ _ _ hr => by cases hr; rfl) (fun y hy => by subst hy; exact spawn)
  have rel := fun was => next ht e hf h0 i (.setRel was) nofun _ (fun y => y = .setOut ∨ y = .setStart)
    (fun _ _ _ => rfl) (fun _ _ _ _ _ hr => by cases hr <;> simp)
    (fun y hy => by rcases hy with rfl | rfl; exact out _ (Or.inl rfl); exact start)
  have flag := next ht e hf h0 i .setFlag nofun _ (fun y => ∃ was, y = .setRel was) (fun _ _ _ => rfl)
    (fun _ _ _ _ _ hr => by cases hr; exact ⟨_, rfl⟩) (fun y hy => by obtain ⟨was, rfl⟩ := hy; exact rel was)
  have int := next_internal ht e hf h0 i .setInternal nofun _ (fun y => y = .setFlag)
    (fun s h => by simp only [run, h]; rfl)
    (fun _ _ _ hr => by cases hr; rfl) (fun y hy => by subst hy; exact flag)
  have join : e.LeadsTo (fun s => s.pcs[i]? = some .unsetJoin)
      (fun s => s.pcs[i]? = some .idle ∧ s.sh.event = none) := by
    refine System.Execution.LeadsTo.trans ?_ (out .unsetOut (Or.inr rfl))
    refine takes ht e hf h0 (fun s => s.pcs[i]? = some .unsetJoin) (fun s => s.thread = .ended) i .unsetJoin nofun
      (fun _ h => h) (thread_ends ht e hf h0 hin i) _ ?_ ?_
    · intro s _ _ h
      simp only [run, h]
      rfl
    · intro s sh y _ _ hr s' _ _ h3
      cases hr
      exact h3
  have stop := next ht e hf h0 i .unsetStop nofun _ (fun y => y = .unsetJoin) (fun _ _ _ => rfl)
    (fun _ _ _ _ _ hr => by cases hr; rfl) (fun y hy => by subst hy; exact join)
  have urel := next ht e hf h0 i .unsetRel nofun _ (fun y => y = .unsetStop) (fun _ _ _ => rfl)
    (fun _ _ _ _ _ hr => by cases hr; rfl) (fun y hy => by subst hy; exact stop)
  have uflag := next ht e hf h0 i .unsetFlag nofun _ (fun y => y = .unsetRel) (fun _ _ _ => rfl)
    (fun _ _ _ _ _ hr => by cases hr; rfl) (fun y hy => by subst hy; exact urel)
  have uint := next_internal ht e hf h0 i .unsetInternal nofun _ (fun y => y = .unsetFlag)
    (fun s h => by simp only [run, h]; rfl)
    (fun _ _ _ hr => by cases hr; rfl) (fun y hy => by subst hy; exact uflag)
  have utest := next ht e hf h0 i .unsetTest nofun _ (fun y => y = .unsetInternal ∨ y = .unsetOut) (fun _ _ _ => rfl)
    (fun _ _ _ _ _ hr => by cases hr <;> simp)
    (fun y hy => by rcases hy with rfl | rfl; exact uint; exact out _ (Or.inr rfl))
  cases x with
  | setInternal => exact int
  | setFlag => exact flag
  | setRel was => exact rel was
  | setStart => exact start
  | setSpawn => exact spawn
  | setOut => exact out _ (Or.inl rfl)
  | unsetTest => exact utest
  | unsetInternal => exact uint
  | unsetFlag => exact uflag
  | unsetRel => exact urel
  | unsetStop => exact stop
  | unsetJoin => exact join
  | unsetOut => exact out _ (Or.inr rfl)
  | _ => cases hx

theorem event_frees : e.LeadsTo (fun _ => True) (fun s => s.sh.event = none) := by
  intro m _
  cases hs : (e.at_ m).sh.event with
  | none => exact ⟨m, Nat.le_refl m, hs⟩
  | some j =>
    obtain ⟨x, hx, h1, -⟩ := (all ht e h0 m).event hs
    obtain ⟨k, hk, h⟩ := event_returns ht e hf h0 hin j x h1 m hx
    exact ⟨k, hk, h.2⟩

end

/-- C167, the part that holds: under fair scheduling, if a line is typed whenever the reading thread waits for one, every
call of `set_callback`, `unset_callback` (and so the destructor) and `read_one_more_line` returns; the callback may ask
for lines, but not set or unset callbacks.  Missing: `unset_callback` when no line comes (`C167_negation_input`), and
callbacks that set or unset callbacks (`C167_negation_self`, `C167_negation_deadlock`). -/
theorem C167_returns_partial (hc : c = .plain ∨ c = .more ∨ c = .produce)
    (hin : e.LeadsTo (fun s => s.pcs[0]? = some .read) (fun s => s.sh.input ≠ [])) (i : Nat) (hi : i ≠ 0) (x : PC)
    (hx : x ≠ .nextMore ∧ x ≠ .nextTake) :
    e.LeadsTo (fun s => s.pcs[i]? = some x) (fun s => s.pcs[i]? = some .idle) := by
  have ht : c.tame = true := by rcases hc with rfl | rfl | rfl <;> rfl
  have ev : ∀ x, x.hasEvent = true → e.LeadsTo (fun s => s.pcs[i]? = some x) (fun s => s.pcs[i]? = some .idle) :=
    fun x hx => (event_returns ht e hf h0 hin i x hx).mono (fun _ h => h) (fun _ h => h.1)
  have acq : ∀ x y, x ≠ .idle → (∀ s : Sh, s.event = none → (run c i s x).isSome) →
      (∀ (s sh : Sh) z, Ran c i s x sh z → z = y) → y.hasEvent = true →
      e.LeadsTo (fun s => s.pcs[i]? = some x) (fun s => s.pcs[i]? = some .idle) := by
    intro x y hact hable hdone hy
    refine System.Execution.LeadsTo.trans ?_ (ev y hy)
    refine takes ht e hf h0 (fun _ => True) (fun s => s.event = none) i x hact (fun _ _ => trivial)
      (event_frees ht e hf h0 hin) _ (fun s _ _ h => hable _ h) ?_
    intro s sh z _ _ hr s' _ _ h3
    rw [h3, hdone _ _ _ hr]
  have one : ∀ x, x ≠ .idle → (∀ s : Sh, (run c i s x).isSome) → (∀ (s sh : Sh) z, Ran c i s x sh z → z = .idle) →
      e.LeadsTo (fun s => s.pcs[i]? = some x) (fun s => s.pcs[i]? = some .idle) := by
    intro x hact hable hdone
    refine moves ht e hf h0 i x hact _ (fun s _ _ => hable s.sh) ?_
    intro s sh z _ _ hr s' _ _ h3
    rw [h3, hdone _ _ _ hr]
  intro m hm
  have hl := (all ht e h0 m).inv.loc i x hm
  have hr : ¬ x.reader = true := fun h => hi (hl.reader.1 h)
  cases x with
  | idle => exact ⟨m, Nat.le_refl m, hm⟩
  | setLock =>
    exact acq .setLock .setInternal nofun (fun s h => by simp only [run, h]; rfl)
      (fun s sh z hr => by cases hr; rfl) rfl m hm
  | unsetLock =>
    exact acq .unsetLock .unsetTest nofun (fun s h => by simp only [run, h]; rfl)
      (fun s sh z hr => by cases hr; rfl) rfl m hm
  | more => exact one .more nofun (fun _ => rfl) (fun s sh z hr => by cases hr; rfl) m hm
  | typing t => exact one (.typing t) nofun (fun _ => rfl) (fun s sh z hr => by cases hr; rfl) m hm
  | nextMore => exact absurd rfl hx.1
  | nextTake => exact absurd rfl hx.2
  | _ => first | exact ev _ rfl m hm | exact absurd rfl hr

end

/-- Labels: a line is asked for, the callback is set, the line is typed, the callback is called and unset. -/
def session : List (Label Op) :=
  setup 1 ++ types 2 c!"a" ++ [.run 0, .run 0, .run 0, .run 0, .run 0, .run 0] ++
    [.start 1 .unset, .run 1, .run 1, .run 1, .run 1, .run 1, .run 1, .run 0, .run 0, .run 1, .run 1]

/-- The hypotheses of `C166_delivers` and `C167_returns_partial` are met. -/
example : ∃ e : (prog .plain).system.Execution, e.Fair ∧ e.at_ 0 = init .plain 1 2 ∧
    e.LeadsTo (fun s => s.pcs[0]? = some .read) (fun s => s.sh.input ≠ []) ∧
    (∃ m, (e.at_ m).sh.set = true ∧ (e.at_ m).sh.log.length ≤ 0 ∧ 0 < (e.at_ m).sh.typed.length ∧
      ((0 : Nat) : Int) < 1 + (e.at_ m).sh.asked) ∧ ∃ m, (e.at_ m).pcs[1]? = some .unsetJoin := by
  obtain ⟨s1, h1⟩ : ∃ s1, (prog .plain).system.exec (init .plain 1 2) session = some s1 := ⟨_, rfl⟩
  obtain ⟨e, hf, h0, hat, -⟩ := (prog .plain).system.finite_fair' (init .plain 1 2) s1 session h1 (by
    cases h1
    intro i
    match i with
    | 0 => rfl
    | 1 => rfl
    | 2 => rfl
    | i + 3 => rfl)
  refine ⟨e, hf, h0, fun m hm => ⟨m, Nat.le_refl m, ?_⟩, ⟨12, ?_⟩, 24, ?_⟩
  · obtain ⟨s, h2, h3⟩ := hat m
    rw [h3] at hm ⊢
    by_cases hl : m < session.length
    · have key : ∀ m, m < session.length → (((prog .plain).system.exec (init .plain 1 2) (session.take m)).map
          (fun s => decide (s.pcs[0]? = some .read → s.sh.input ≠ []))) = some true := by decide
      have := key m hl
      rw [h2] at this
      exact of_decide_eq_true (Option.some.inj this) hm
    · rw [List.take_of_length_le (Nat.le_of_not_lt hl), h1] at h2
      cases h2
      cases h1
      cases hm
  · obtain ⟨s, h2, h3⟩ := hat 12
    rw [h3]
    cases h2
    decide
  · obtain ⟨s, h2, h3⟩ := hat 24
    rw [h3]
    cases h2
    decide

end Verif.Stdin
