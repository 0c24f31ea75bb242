import Verif.Model.EventNested
import Verif.Lemmas.Prog
/-!
C180: callbacks that call their own handler while other threads use it.
-/
namespace Verif.EventNested
open Verif.Threads

variable {C A : Type}

/-! ### Who holds `internal_callback_mutex_` -/

/-- The frame has locked `internal_callback_mutex_`. -/
def Fr.holds : Fr C A → Nat
  | .setFlag _ | .setStore _ | .unsetFlag | .unsetStore | .evTest _ | .evIn _ | .evCount | .evNotify | .evRelease => 1
  | _ => 0

/-- How often the calls of a thread have locked it. -/
def depth : List (Fr C A) → Nat
  | [] => 0
  | f :: fs => f.holds + depth fs

theorem depth_append (a b : List (Fr C A)) : depth (a ++ b) = depth a + depth b := by
  induction a with
  | nil => simp [depth]
  | cons f fs ih => simp only [List.cons_append, depth, ih]; omega

/-- How often thread `j` has locked it. -/
def locked (m : Option (Nat × Nat)) (j : Nat) : Nat :=
  match m with
  | some (k, d) => if k = j then d else 0
  | none => 0

theorem enter_holds (op : Op C A) : (enter op).holds = 0 := by cases op <;> rfl

theorem take_locked {i : Nat} {m m' : Option (Nat × Nat)} (h : take i m = some m') :
    locked m' i = locked m i + 1 ∧ ∀ j, j ≠ i → locked m' j = locked m j := by
  unfold take at h
  split at h
  · cases h
    refine ⟨by simp [locked], fun j hj => ?_⟩
    have : ¬ i = j := fun e => hj e.symm
    simp [locked, this]
  · split at h
    · rename_i e
      cases h
      subst e
      refine ⟨by simp [locked], fun j hj => ?_⟩
      have : ¬ _ = j := fun e => hj e.symm
      simp [locked, this]
    · cases h

theorem release_locked {i : Nat} {m : Option (Nat × Nat)} (h : 1 ≤ locked m i) :
    locked (release m) i + 1 = locked m i ∧ ∀ j, j ≠ i → locked (release m) j = locked m j := by
  unfold locked at h
  split at h
  · rename_i k d
    split at h
    · rename_i e
      subst e
      by_cases hd : d ≤ 1
      · refine ⟨?_, fun j hj => ?_⟩
        · simp only [release, hd, if_true, locked]; omega
        · have : ¬ k = j := fun e => hj e.symm
          simp [release, hd, locked, this]
      · refine ⟨?_, fun j hj => ?_⟩
        · simp only [release, hd, if_false, locked, if_true]; omega
        · have : ¬ k = j := fun e => hj e.symm
          simp [release, hd, locked, this]
    · omega
  · omega

/-- One thread at most has locked it. -/
theorem locked_unique {m : Option (Nat × Nat)} {i j : Nat} (hi : 1 ≤ locked m i) (hj : 1 ≤ locked m j) : i = j := by
  unfold locked at hi hj
  split at hi
  · split at hi
    · simp only at hj
      split at hj
      · omega
      · omega
    · omega
  · omega

/-- What one step does to the mutex. -/
theorem next_internal {body : C → A → List (Op C A)} {i : Nat} {s s' : Sh C} {f : Fr C A} {ys : List (Fr C A)} {b : Bool}
    (h : next body i s f = some (s', ys, b)) (hf : f.holds ≤ locked s.internal i) :
    locked s'.internal i + f.holds = locked s.internal i + depth ys ∧
    ∀ j, j ≠ i → locked s'.internal j = locked s.internal j := by
  have rel : 1 ≤ locked s.internal i → s'.internal = release s.internal → depth ys = 0 → f.holds = 1 →
      locked s'.internal i + f.holds = locked s.internal i + depth ys ∧
      ∀ j, j ≠ i → locked s'.internal j = locked s.internal j := by
    intro h1 h2 h3 h4
    have := release_locked h1
    rw [h2, h3, h4]
    exact ⟨this.1, this.2⟩
  have tak : ∀ m, take i s.internal = some m → s'.internal = m → depth ys = 1 → f.holds = 0 →
      locked s'.internal i + f.holds = locked s.internal i + depth ys ∧
      ∀ j, j ≠ i → locked s'.internal j = locked s.internal j := by
    intro m h1 h2 h3 h4
    have := take_locked h1
    rw [h2, h3, h4]
    exact ⟨this.1, this.2⟩
  have same : s'.internal = s.internal → depth ys = f.holds →
      locked s'.internal i + f.holds = locked s.internal i + depth ys ∧
      ∀ j, j ≠ i → locked s'.internal j = locked s.internal j := by
    intro h1 h2
    rw [h1, h2]
    exact ⟨rfl, fun _ _ => rfl⟩
  cases f with
  | asleep n => cases h
  | waitTest n => cases h; exact same rfl (by split <;> rfl)
  | waitLock n => simp only [next] at h; split at h <;> (cases h; exact same rfl rfl)
  | ready n => simp only [next] at h; split at h <;> (cases h; exact same rfl rfl)
  | waitRet n => cases h; exact same rfl rfl
  | setEvent c =>
    simp only [next, Option.map_eq_some_iff] at h
    obtain ⟨m, -, h⟩ := h
    cases h; exact same rfl rfl
  | setInternal c =>
    simp only [next, Option.map_eq_some_iff] at h
    obtain ⟨m, hm, h⟩ := h
    cases h; exact tak _ hm rfl rfl rfl
  | setFlag c => cases h; exact same rfl rfl
  | setStore c => cases h; exact rel hf rfl rfl rfl
  | setHook => cases h; exact same rfl rfl
  | unsetEvent =>
    simp only [next, Option.map_eq_some_iff] at h
    obtain ⟨m, -, h⟩ := h
    cases h; exact same rfl rfl
  | unsetTest => cases h; exact same rfl (by split <;> rfl)
  | unsetInternal =>
    simp only [next, Option.map_eq_some_iff] at h
    obtain ⟨m, hm, h⟩ := h
    cases h; exact tak _ hm rfl rfl rfl
  | unsetFlag => cases h; exact same rfl rfl
  | unsetStore => cases h; exact rel hf rfl rfl rfl
  | unsetNotify => cases h; exact same rfl rfl
  | unsetExit => cases h; exact same rfl (by split <;> rfl)
  | unsetRelease => cases h; exact same rfl rfl
  | evInternal a =>
    simp only [next, Option.map_eq_some_iff] at h
    obtain ⟨m, hm, h⟩ := h
    cases h; exact tak _ hm rfl rfl rfl
  | evTest a => cases h; exact same rfl (by split <;> rfl)
  | evIn rest =>
    cases rest with
    | nil => cases h; exact same rfl rfl
    | cons op rest =>
      cases h
      exact same rfl (by simp only [depth, enter_holds]; rfl)
  | evCount => cases h; exact same rfl rfl
  | evNotify => cases h; exact same rfl rfl
  | evRelease => cases h; exact rel hf rfl rfl rfl
  | reset => cases h; exact same rfl rfl
  | decrement => cases h; exact same rfl rfl
  | readCount => cases h; exact same rfl rfl

/-- A step of a thread is one of its innermost call. -/
theorem run_next {body : C → A → List (Op C A)} {i : Nat} {s s' : Sh C} {x y : List (Fr C A)} {b : Bool}
    (h : run body i s x = some (s', y, b)) :
    ∃ f fs ys, x = f :: fs ∧ next body i s f = some (s', ys, b) ∧ y = ys ++ fs := by
  cases x with
  | nil => cases h
  | cons f fs =>
    simp only [run, Option.map_eq_some_iff] at h
    obtain ⟨⟨s1, ys, b1⟩, hn, h⟩ := h
    cases h
    exact ⟨f, fs, ys, rfl, hn, rfl⟩

/-- The mutex is locked as often as the calls of its owner say. -/
theorem held_local (body : C → A → List (Op C A)) :
    (prog body).Local (fun _ => True) (fun _ => True) (fun sh j x => locked sh.internal j = depth x) where
  start := by
    intro sh i x op y _ _ hl hs
    cases x with
    | nil => cases hs; rw [hl]; simp [depth, enter_holds]
    | cons f fs => cases hs
  shared := fun _ _ _ _ _ _ _ _ _ => trivial
  run := by
    intro sh i x sh' y b _ hl hr
    obtain ⟨f, fs, ys, rfl, hn, rfl⟩ := run_next hr
    simp only [depth] at hl
    have := (next_internal hn (by omega)).1
    rw [depth_append]
    omega
  other := by
    intro sh i x sh' y b j z _ hl hr hne hz
    obtain ⟨f, fs, ys, rfl, hn, rfl⟩ := run_next hr
    simp only [depth] at hl
    rw [(next_internal hn (by omega)).2 j hne, hz]
  woken := by
    intro sh i x y hl hw
    change woken x = some y at hw
    unfold woken at hw
    split at hw
    · cases hw; rw [hl]; simp [depth, Fr.holds]
    · cases hw
  late := nofun

/-- In every state that can be reached. -/
theorem held {body : C → A → List (Op C A)} {n : Nat} {s : Conf (prog body)}
    (hr : (prog body).system.Reachable (init body n) s) {j : Nat} {x : List (Fr C A)} (hx : s.pcs[j]? = some x) :
    locked s.sh.internal j = depth x := by
  have h0 : (prog body).Inv (fun _ => True) (fun sh j x => locked sh.internal j = depth x) (init body n) := by
    refine ⟨trivial, fun j x hx => ?_⟩
    have := Prog.init_get hx
    subst this
    rfl
  exact ((held_local body).reachable h0 hr).loc j x hx

/-! ### `wait_for_event` in a callback -/

/-- Within `wait_for_event(n)`, not about to return. -/
def Waits (n : Nat) (f : Fr C A) : Prop := f = .waitTest n ∨ f = .waitLock n ∨ f = .asleep n ∨ f = .ready n

/-- A step of another thread, while thread `i` holds the mutex. -/
theorem next_other {body : C → A → List (Op C A)} {i k : Nat} {s s' : Sh C} {f : Fr C A} {ys : List (Fr C A)} {b : Bool}
    (h : next body k s f = some (s', ys, b)) (hk : f.holds = 0) (hi : 1 ≤ locked s.internal i) (hne : k ≠ i)
    {n : Nat} (hset : s.set = true) (hc : s.count < n) : s'.set = true ∧ s'.count < n := by
  cases f with
  | asleep n => cases h
  | waitTest n => cases h; exact ⟨hset, hc⟩
  | waitLock n => simp only [next] at h; split at h <;> (cases h; exact ⟨hset, hc⟩)
  | ready n => simp only [next] at h; split at h <;> (cases h; exact ⟨hset, hc⟩)
  | setEvent c =>
    simp only [next, Option.map_eq_some_iff] at h
    obtain ⟨m, -, h⟩ := h
    cases h; exact ⟨hset, hc⟩
  | setInternal c =>
    simp only [next, Option.map_eq_some_iff] at h
    obtain ⟨m, -, h⟩ := h
    cases h; exact ⟨hset, hc⟩
  | unsetEvent =>
    simp only [next, Option.map_eq_some_iff] at h
    obtain ⟨m, -, h⟩ := h
    cases h; exact ⟨hset, hc⟩
  | unsetInternal =>
    simp only [next, Option.map_eq_some_iff] at h
    obtain ⟨m, -, h⟩ := h
    cases h; exact ⟨hset, hc⟩
  | evInternal a =>
    simp only [next, Option.map_eq_some_iff] at h
    obtain ⟨m, -, h⟩ := h
    cases h; exact ⟨hset, hc⟩
  | setFlag c => cases hk
  | setStore c => cases hk
  | unsetFlag => cases hk
  | unsetStore => cases hk
  | evTest a => cases hk
  | evIn rest => cases hk
  | evCount => cases hk
  | evNotify => cases hk
  | evRelease => cases hk
  | waitRet n => cases h; exact ⟨hset, hc⟩
  | setHook => cases h; exact ⟨hset, hc⟩
  | unsetTest => cases h; exact ⟨hset, hc⟩
  | unsetNotify => cases h; exact ⟨hset, hc⟩
  | unsetExit => cases h; exact ⟨hset, hc⟩
  | unsetRelease => cases h; exact ⟨hset, hc⟩
  | reset => cases h; exact ⟨hset, Nat.lt_of_le_of_lt (Nat.zero_le _) hc⟩
  | decrement => cases h; exact ⟨hset, by dsimp only; split <;> omega⟩
  | readCount => cases h; exact ⟨hset, hc⟩

/-- A thread that waits in a callback for more events than there have been goes on waiting. -/
theorem waits_step {body : C → A → List (Op C A)} {m : Nat} {s s' : Conf (prog body)} {l : Label (Op C A)}
    (hr : (prog body).system.Reachable (init body m) s) (hst : (prog body).Stepped s l s') {i n : Nat}
    {f : Fr C A} {fs : List (Fr C A)} (hx : s.pcs[i]? = some (f :: fs)) (hf : Waits n f) (hd : 1 ≤ depth fs)
    (hset : s.sh.set = true) (hc : s.sh.count < n) :
    ∃ f', s'.pcs[i]? = some (f' :: fs) ∧ Waits n f' ∧ s'.sh.set = true ∧ s'.sh.count < n := by
  have hl : 1 ≤ locked s.sh.internal i := by
    rw [held hr hx]
    simp only [depth]
    omega
  have haw : awake s.sh n = false := by
    simp only [awake, hset, Bool.not_true, Bool.or_false, decide_eq_false_iff_not]
    omega
  obtain ⟨y, hy, h⟩ := Prog.track hst hx
  rcases h with ⟨op, -, h, -⟩ | ⟨-, b, h⟩ | ⟨-, h1, h2⟩
  · cases h
  · change run body i s.sh (f :: fs) = some (s'.sh, y, b) at h
    obtain ⟨g, gs, ys, e, hn, rfl⟩ := run_next h
    cases e
    rcases hf with rfl | rfl | rfl | rfl
    · simp only [next, hset, if_true] at hn
      injection hn with hn
      injection hn with e1 e2
      injection e2 with e2 e3
      rw [← e1]
      rw [← e2] at hy
      exact ⟨_, hy, .inr (.inl rfl), hset, hc⟩
    · simp only [next, haw, Bool.false_eq_true, if_false] at hn
      injection hn with hn
      injection hn with e1 e2
      injection e2 with e2 e3
      rw [← e1]
      rw [← e2] at hy
      exact ⟨_, hy, .inr (.inr (.inl rfl)), hset, hc⟩
    · cases hn
    · simp only [next, haw, Bool.false_eq_true, if_false] at hn
      injection hn with hn
      injection hn with e1 e2
      injection e2 with e2 e3
      rw [← e1]
      rw [← e2] at hy
      exact ⟨_, hy, .inr (.inr (.inl rfl)), hset, hc⟩
  · have hpos : ∃ f', y = f' :: fs ∧ Waits n f' := by
      rcases h1 with rfl | h1 | h1
      · exact ⟨f, rfl, hf⟩
      · change woken (f :: fs) = some y at h1
        rcases hf with rfl | rfl | rfl | rfl
        · cases h1
        · cases h1
        · cases h1; exact ⟨_, rfl, .inr (.inr (.inr rfl))⟩
        · cases h1
      · cases h1
    obtain ⟨f', rfl, hf'⟩ := hpos
    refine ⟨f', hy, hf', ?_⟩
    rcases h2 with h2 | ⟨k, w, z, b, hk, -, hw, h2⟩
    · rw [h2]; exact ⟨hset, hc⟩
    · change run body k s.sh w = some (s'.sh, z, b) at h2
      obtain ⟨g, gs, ys, rfl, hn, -⟩ := run_next h2
      have hg : g.holds = 0 := by
        have h3 := held hr hw
        simp only [depth] at h3
        cases hg : g.holds with
        | zero => rfl
        | succ d => exact absurd (locked_unique (by omega) hl) hk
      exact next_other hn hg hl hk hset hc

/-- C180 does not hold for `wait_for_event`: called by a callback of the handler for more events than have been counted, it
never returns, whatever the other threads do; and since the callback keeps `internal_callback_mutex_`, no thread gets past
it in `unset_callback`, `set_callback` or an event of the handler. -/
theorem C180_negation_wait (body : C → A → List (Op C A)) (m : Nat) (s : Conf (prog body))
    (hr : (prog body).system.Reachable (init body m) s) (i n : Nat) (rest : List (Op C A)) (fs : List (Fr C A))
    (hx : s.pcs[i]? = some (.waitTest n :: .evIn rest :: fs)) (hset : s.sh.set = true) (hc : s.sh.count < n)
    (ls : List (Label (Op C A))) (s' : Conf (prog body)) (he : (prog body).system.exec s ls = some s') :
    (∃ f, s'.pcs[i]? = some (f :: .evIn rest :: fs) ∧
      (f = .waitTest n ∨ f = .waitLock n ∨ f = .asleep n ∨ f = .ready n)) ∧
    ∀ k, k ≠ i → ∀ gs : List (Fr C A), ∀ c a,
      run body k s'.sh (.unsetInternal :: gs) = none ∧ run body k s'.sh (.setInternal c :: gs) = none ∧
      run body k s'.sh (.evInternal a :: gs) = none := by
  have key : ∀ (ls : List (Label (Op C A))) (s : Conf (prog body)) (f : Fr C A),
      (prog body).system.Reachable (init body m) s → s.pcs[i]? = some (f :: .evIn rest :: fs) → Waits n f →
      s.sh.set = true → s.sh.count < n → (prog body).system.exec s ls = some s' →
      (prog body).system.Reachable (init body m) s' ∧ ∃ f, s'.pcs[i]? = some (f :: .evIn rest :: fs) ∧ Waits n f := by
    intro ls
    induction ls with
    | nil => intro s f hr hx hf _ _ he; cases he; exact ⟨hr, f, hx, hf⟩
    | cons l ls ih =>
      intro s f hr hx hf hset hc he
      obtain ⟨s1, h1, h2⟩ := System.exec_cons he
      obtain ⟨f', hx', hf', hset', hc'⟩ := waits_step hr (Prog.step_stepped h1) hx hf
        (by simp only [depth, Fr.holds]; omega) hset hc
      exact ih s1 f' (.step hr (Label.allowed_true _) h1) hx' hf' hset' hc' h2
  obtain ⟨hr', f, hx', hf⟩ := key ls s _ hr hx (.inl rfl) hset hc he
  refine ⟨⟨f, hx', hf⟩, ?_⟩
  have hl : 1 ≤ locked s'.sh.internal i := by
    rw [held hr' hx']
    simp only [depth, Fr.holds]
    omega
  intro k hk gs c a
  have ht : take k s'.sh.internal = none := by
    unfold locked at hl
    split at hl
    · rename_i j d e
      split at hl
      · rename_i hj
        subst hj
        rw [e]
        simp only [take]
        rw [if_neg (fun h => hk h.symm)]
      · omega
    · omega
  refine ⟨?_, ?_, ?_⟩ <;> simp [run, next, ht]

/-- A callback that waits for one event more than there are: its first call. -/
example : ∃ s : Conf (prog (C := Unit) (A := Unit) (fun _ _ => [.wait 1])),
    (prog (C := Unit) (A := Unit) (fun _ _ => [.wait 1])).system.exec (init _ 2)
      [.start 0 (.setCallback ()), .run 0, .run 0, .run 0, .run 0, .run 0, .start 0 (.event ()), .run 0, .run 0, .run 0]
      = some s ∧ s.pcs[0]? = some [.waitTest 1, .evIn []] ∧ s.sh.set = true ∧ s.sh.count < 1 :=
  ⟨_, rfl, rfl, rfl, by decide⟩

/-! ### The order of the mutexes -/

/-- C180 does not hold for `unset_callback` and `set_callback`: if a callback starts with one of them and another thread has
called `unset_callback`, each of the two threads may hold the mutex that the other one needs.  No step is possible any
more. -/
theorem C180_negation_order (body : C → A → List (Op C A)) (c : C) (a : A) (op : Op C A) (rest : List (Op C A))
    (hb : body c a = op :: rest) (hop : op = .unsetCallback ∨ ∃ d, op = .setCallback d) :
    ∃ s : Conf (prog body), (prog body).system.Reachable (init body 2) s ∧
      s.pcs = [[enter op, .evIn rest], [.unsetInternal]] ∧
      ∀ l, (prog body).system.step s l = none := by
  have he : ∃ s : Conf (prog body), (prog body).system.exec (init body 2)
      [.start 0 (.setCallback c), .run 0, .run 0, .run 0, .run 0, .run 0, .start 0 (.event a), .run 0, .run 0,
        .start 1 .unsetCallback, .run 1, .run 1, .run 0] = some s ∧
      s.pcs = [[enter op, .evIn rest], [.unsetInternal]] ∧ s.sh.event = some (1, 1) ∧ s.sh.internal = some (0, 1) := by
    refine ⟨⟨⟨true, some c, 0, 0, some (1, 1), some (0, 1)⟩, [[enter op, .evIn rest], [.unsetInternal]]⟩, ?_, rfl, rfl, rfl⟩
    simp [System.exec, Prog.step, init, Prog.init, start, enter, run, next, take, release, calls, hb]
  obtain ⟨s, he, h1, h2, h3⟩ := he
  refine ⟨s, System.exec_reachable' _ _ he, h1, ?_⟩
  have hpos : ∀ (j : Nat) (x : List (Fr C A)), s.pcs[j]? = some x →
      (j = 0 ∧ x = [enter op, .evIn rest]) ∨ (j = 1 ∧ x = [.unsetInternal]) := by
    intro j x hx
    rw [h1] at hx
    match j with
    | 0 => cases hx; exact .inl ⟨rfl, rfl⟩
    | 1 => cases hx; exact .inr ⟨rfl, rfl⟩
    | j + 2 => cases hx
  intro l
  cases hs : (prog body).system.step s l with
  | none => rfl
  | some s' =>
    exfalso
    change (prog body).step s l = some s' at hs
    cases l with
    | start i o =>
      simp only [Prog.step, Option.map_eq_some_iff, Option.bind_eq_some_iff] at hs
      obtain ⟨y, ⟨x, hx, hy⟩, -⟩ := hs
      rcases hpos i x hx with ⟨-, rfl⟩ | ⟨-, rfl⟩ <;> cases hy
    | run i =>
      simp only [Prog.step, Option.map_eq_some_iff, Option.bind_eq_some_iff] at hs
      obtain ⟨y, ⟨x, hx, hy⟩, -⟩ := hs
      rcases hpos i x hx with ⟨rfl, rfl⟩ | ⟨rfl, rfl⟩
      · rcases hop with rfl | ⟨d, rfl⟩ <;> simp [run, next, enter, h2, take] at hy
      · simp [run, next, h3, take] at hy
    | spurious i =>
      simp only [Prog.step, Option.map_eq_some_iff, Option.bind_eq_some_iff] at hs
      obtain ⟨y, ⟨x, hx, hy⟩, -⟩ := hs
      rcases hpos i x hx with ⟨rfl, rfl⟩ | ⟨rfl, rfl⟩
      · rcases hop with rfl | ⟨d, rfl⟩ <;> cases hy
      · cases hy
    | timeout i =>
      simp only [Prog.step, Option.map_eq_some_iff, Option.bind_eq_some_iff] at hs
      obtain ⟨y, ⟨x, hx, hy⟩, -⟩ := hs
      cases hy

end Verif.EventNested
