import Verif.Props.EventNestedLive
/-!
C180, what holds for the other calls: `set_callback` and `unset_callback` return when callbacks raise events of their own
handler and read or change its count, but do not set, unset or wait.
-/
namespace Verif.EventNested
open Verif.Threads

variable {C A : Type}

/-! ### Who holds `event_mutex_` -/

/-- The frame has locked `event_mutex_`. -/
def Fr.holdsE : Fr C A → Nat
  | .setInternal _ | .setFlag _ | .setStore _ | .setHook | .unsetTest | .unsetInternal | .unsetFlag | .unsetStore
  | .unsetNotify | .unsetExit | .unsetRelease => 1
  | _ => 0

/-- How often the calls of a thread have locked it. -/
def depthE : List (Fr C A) → Nat
  | [] => 0
  | f :: fs => f.holdsE + depthE fs

theorem depthE_append (a b : List (Fr C A)) : depthE (a ++ b) = depthE a + depthE b := by
  induction a with
  | nil => simp [depthE]
  | cons f fs ih => simp only [List.cons_append, depthE, ih]; omega

theorem enter_holdsE (op : Op C A) : (enter op).holdsE = 0 := by cases op <;> rfl

/-- What one step does to `event_mutex_`. -/
theorem next_event {body : C → A → List (Op C A)} {i : Nat} {s s' : Sh C} {f : Fr C A} {ys : List (Fr C A)} {b : Bool}
    (h : next body i s f = some (s', ys, b)) :
    (s'.event = s.event ∧ depthE ys = f.holdsE) ∨
    (take i s.event = some s'.event ∧ depthE ys = 1 ∧ f.holdsE = 0) ∨
    (s'.event = release s.event ∧ depthE ys = 0 ∧ f.holdsE = 1) := by
  cases f with
  | asleep n => cases h
  | waitTest n => cases h; exact .inl ⟨rfl, by split <;> rfl⟩
  | waitLock n => simp only [next] at h; split at h <;> (cases h; exact .inl ⟨rfl, rfl⟩)
  | ready n => simp only [next] at h; split at h <;> (cases h; exact .inl ⟨rfl, rfl⟩)
  | setEvent c =>
    simp only [next, Option.map_eq_some_iff] at h
    obtain ⟨m, hm, h⟩ := h
    cases h; exact .inr (.inl ⟨hm, rfl, rfl⟩)
  | setInternal c =>
    simp only [next, Option.map_eq_some_iff] at h
    obtain ⟨m, -, h⟩ := h
    cases h; exact .inl ⟨rfl, rfl⟩
  | setHook => cases h; exact .inr (.inr ⟨rfl, rfl, rfl⟩)
  | unsetEvent =>
    simp only [next, Option.map_eq_some_iff] at h
    obtain ⟨m, hm, h⟩ := h
    cases h; exact .inr (.inl ⟨hm, rfl, rfl⟩)
  | unsetTest => cases h; exact .inl ⟨rfl, by split <;> rfl⟩
  | unsetInternal =>
    simp only [next, Option.map_eq_some_iff] at h
    obtain ⟨m, -, h⟩ := h
    cases h; exact .inl ⟨rfl, rfl⟩
  | unsetExit => cases h; exact .inl ⟨rfl, by split <;> rfl⟩
  | unsetRelease => cases h; exact .inr (.inr ⟨rfl, rfl, rfl⟩)
  | evInternal a =>
    simp only [next, Option.map_eq_some_iff] at h
    obtain ⟨m, -, h⟩ := h
    cases h; exact .inl ⟨rfl, rfl⟩
  | evTest a => cases h; exact .inl ⟨rfl, by split <;> rfl⟩
  | evIn rest =>
    cases rest with
    | nil => cases h; exact .inl ⟨rfl, rfl⟩
    | cons op rest => cases h; exact .inl ⟨rfl, by simp only [depthE, enter_holdsE]; rfl⟩
  | _ => cases h; exact .inl ⟨rfl, rfl⟩

theorem next_lockedE {body : C → A → List (Op C A)} {i : Nat} {s s' : Sh C} {f : Fr C A} {ys : List (Fr C A)} {b : Bool}
    (h : next body i s f = some (s', ys, b)) (hf : f.holdsE ≤ locked s.event i) :
    locked s'.event i + f.holdsE = locked s.event i + depthE ys ∧
    ∀ j, j ≠ i → locked s'.event j = locked s.event j := by
  rcases next_event h with ⟨h1, h2⟩ | ⟨h1, h2, h3⟩ | ⟨h1, h2, h3⟩
  · rw [h1, h2]; exact ⟨rfl, fun _ _ => rfl⟩
  · have := take_locked h1
    rw [h2, h3]; exact ⟨this.1, this.2⟩
  · have := release_locked (m := s.event) (i := i) (by omega)
    rw [h1, h2, h3]; exact ⟨this.1, this.2⟩

/-! ### The flag -/

/-- In `unset_callback`, after the flag has been cleared. -/
def Fr.off : Fr C A → Bool
  | .unsetStore | .unsetNotify | .unsetExit => true
  | _ => false

theorem off_holdsE {f : Fr C A} (h : f.off = true) : f.holdsE = 1 := by
  cases f <;> first | rfl | cases h

/-- The innermost call is there. -/
def offTop : List (Fr C A) → Bool
  | f :: _ => f.off
  | [] => false

/-- Where the flag changes. -/
theorem next_set {body : C → A → List (Op C A)} {i : Nat} {s s' : Sh C} {f : Fr C A} {ys : List (Fr C A)} {b : Bool}
    (h : next body i s f = some (s', ys, b)) :
    (s'.set = false ∨ s'.set = s.set ∨ f.holdsE = 1) ∧ (offTop ys = true → f.off = true ∧ s'.set = s.set ∨ s'.set = false) := by
  cases f with
  | asleep n => cases h
  | waitTest n => cases h; exact ⟨.inr (.inl rfl), by split <;> (intro e; cases e)⟩
  | waitLock n => simp only [next] at h; split at h <;> (cases h; exact ⟨.inr (.inl rfl), by intro e; cases e⟩)
  | ready n => simp only [next] at h; split at h <;> (cases h; exact ⟨.inr (.inl rfl), by intro e; cases e⟩)
  | setEvent c =>
    simp only [next, Option.map_eq_some_iff] at h
    obtain ⟨m, hm, h⟩ := h
    cases h; exact ⟨.inr (.inl rfl), by intro e; cases e⟩
  | setInternal c =>
    simp only [next, Option.map_eq_some_iff] at h
    obtain ⟨m, -, h⟩ := h
    cases h; exact ⟨.inr (.inl rfl), by intro e; cases e⟩
  | setFlag c => cases h; exact ⟨.inr (.inr rfl), by intro e; cases e⟩
  | unsetEvent =>
    simp only [next, Option.map_eq_some_iff] at h
    obtain ⟨m, hm, h⟩ := h
    cases h; exact ⟨.inr (.inl rfl), by intro e; cases e⟩
  | unsetTest => cases h; exact ⟨.inr (.inl rfl), by split <;> (intro e; cases e)⟩
  | unsetInternal =>
    simp only [next, Option.map_eq_some_iff] at h
    obtain ⟨m, -, h⟩ := h
    cases h; exact ⟨.inr (.inl rfl), by intro e; cases e⟩
  | unsetFlag => cases h; exact ⟨.inl rfl, fun _ => .inr rfl⟩
  | unsetStore => cases h; exact ⟨.inr (.inl rfl), fun _ => .inl ⟨rfl, rfl⟩⟩
  | unsetNotify => cases h; exact ⟨.inr (.inl rfl), fun _ => .inl ⟨rfl, rfl⟩⟩
  | unsetExit => cases h; exact ⟨.inr (.inl rfl), fun _ => .inl ⟨rfl, rfl⟩⟩
  | evInternal a =>
    simp only [next, Option.map_eq_some_iff] at h
    obtain ⟨m, -, h⟩ := h
    cases h; exact ⟨.inr (.inl rfl), by intro e; cases e⟩
  | evTest a => cases h; exact ⟨.inr (.inl rfl), by split <;> (intro e; cases e)⟩
  | evIn rest =>
    cases rest with
    | nil => cases h; exact ⟨.inr (.inl rfl), by intro e; cases e⟩
    | cons op rest => cases h; exact ⟨.inr (.inl rfl), by cases op <;> (intro e; cases e)⟩
  | _ => cases h; exact ⟨.inr (.inl rfl), by intro e; cases e⟩

/-- What holds of each thread. -/
structure LocE (μ : A → Nat) (s : Sh C) (j : Nat) (x : List (Fr C A)) : Prop where
  nest : Nest μ x
  held : locked s.event j = depthE x
  off : offTop x = true → s.set = false

theorem nest_below {μ : A → Nat} {f : Fr C A} {fs : List (Fr C A)} (h : Nest μ (f :: fs)) :
    fs = [] ∨ ∃ rest gs, fs = .evIn rest :: gs := by
  cases fs with
  | nil => exact .inl rfl
  | cons g gs =>
    obtain ⟨rest, rfl⟩ := h.2.1
    exact .inr ⟨rest, gs, rfl⟩

theorem offTop_append {μ : A → Nat} {f : Fr C A} {ys fs : List (Fr C A)} (h : Nest μ (f :: fs))
    (ho : offTop (ys ++ fs) = true) : offTop ys = true := by
  cases ys with
  | cons y ys => exact ho
  | nil =>
    rcases nest_below h with rfl | ⟨rest, gs, rfl⟩
    · exact ho
    · cases ho

theorem locE_local {body : C → A → List (Op C A)} {μ : A → Nat} (hb : AllQuiet body μ) :
    (prog body).Local (fun _ => True) (fun _ => True) (LocE μ) where
  start := by
    intro sh i x op y ha hg hl hs
    have hn := (nest_local hb).start sh i x op y ha hg hl.nest hs
    cases x with
    | nil =>
      cases hs
      refine ⟨hn, ?_, ?_⟩
      · rw [hl.held]; simp [depthE, enter_holdsE]
      · cases op <;> (intro e; cases e)
    | cons f fs => cases hs
  shared := fun _ _ _ _ _ _ _ _ _ => trivial
  run := by
    intro sh i x sh' y b hg hl hr
    have hnest := (nest_local hb).run sh i x sh' y b hg hl.nest hr
    obtain ⟨f, fs, ys, rfl, hn, rfl⟩ := run_next hr
    have hh := hl.held
    simp only [depthE] at hh
    refine ⟨hnest, ?_, ?_⟩
    · have := (next_lockedE hn (by omega)).1
      rw [depthE_append]
      omega
    · intro ho
      rcases (next_set hn).2 (offTop_append hl.nest ho) with ⟨h1, h2⟩ | h
      · rw [h2]; exact hl.off h1
      · exact h
  other := by
    intro sh i x sh' y b j z hg hl hr hne hz
    obtain ⟨f, fs, ys, rfl, hn, rfl⟩ := run_next hr
    have hh := hl.held
    simp only [depthE] at hh
    refine ⟨hz.nest, ?_, ?_⟩
    · rw [(next_lockedE hn (by omega)).2 j hne, hz.held]
    · intro ho
      have h0 := hz.off ho
      rcases (next_set hn).1 with h | h | h
      · exact h
      · rw [h, h0]
      · exfalso
        refine hne (locked_unique (m := sh.event) (i := j) (j := i) ?_ (by omega))
        rw [hz.held]
        cases z with
        | nil => cases ho
        | cons g gs => simp only [depthE, off_holdsE (f := g) ho]; omega
  woken := by
    intro sh i x y hl hw
    have hn := (nest_local hb).woken sh i x y hl.nest hw
    change woken x = some y at hw
    unfold woken at hw
    split at hw
    · cases hw
      exact ⟨hn, by rw [hl.held]; simp [depthE, Fr.holdsE], by intro e; cases e⟩
    · cases hw
  late := nofun

/-! ### `threads_waiting_` -/

/-- In `wait`. -/
def inWait : List (Fr C A) → Bool
  | .asleep _ :: _ | .ready _ :: _ => true
  | _ => false

theorem inWait_append {μ : A → Nat} {f : Fr C A} {fs : List (Fr C A)} (h : Nest μ (f :: fs)) : inWait fs = false := by
  rcases nest_below h with rfl | ⟨rest, gs, rfl⟩
  · rfl
  · rfl

/-- A step changes the number of threads in `wait` as it changes `threads_waiting_`. -/
theorem next_waiting {body : C → A → List (Op C A)} {i : Nat} {s s' : Sh C} {f : Fr C A} {fs ys : List (Fr C A)} {b : Bool}
    (h : next body i s f = some (s', ys, b)) (hfs : inWait fs = false)
    (hpos : inWait (f :: fs) = true → 0 < s.waiting) :
    s'.waiting + (if inWait (f :: fs) then 1 else 0) = s.waiting + (if inWait (ys ++ fs) then 1 else 0) := by
  cases f with
  | asleep n => cases h
  | waitTest n => cases h; by_cases hs : s.set = true <;> simp [hs, inWait]
  | waitLock n => simp only [next] at h; split at h <;> (cases h; rfl)
  | ready n =>
    have := hpos rfl
    simp only [next] at h
    split at h
    · cases h
      simp only [List.nil_append, List.cons_append, inWait, if_true]
      simp
      omega
    · cases h; rfl
  | setEvent c =>
    simp only [next, Option.map_eq_some_iff] at h
    obtain ⟨m, hm, h⟩ := h
    cases h; rfl
  | setInternal c =>
    simp only [next, Option.map_eq_some_iff] at h
    obtain ⟨m, -, h⟩ := h
    cases h; rfl
  | unsetEvent =>
    simp only [next, Option.map_eq_some_iff] at h
    obtain ⟨m, hm, h⟩ := h
    cases h; rfl
  | unsetTest => cases h; by_cases hs : s.set = true <;> simp [hs, inWait]
  | unsetInternal =>
    simp only [next, Option.map_eq_some_iff] at h
    obtain ⟨m, -, h⟩ := h
    cases h; rfl
  | unsetExit => cases h; by_cases hs : s.waiting = 0 <;> simp [hs, inWait]
  | evInternal a =>
    simp only [next, Option.map_eq_some_iff] at h
    obtain ⟨m, -, h⟩ := h
    cases h; rfl
  | evTest a => cases h; by_cases hs : s.set = true <;> simp [hs, inWait]
  | evIn rest =>
    cases rest with
    | nil => cases h; rfl
    | cons op rest => cases h; cases op <;> rfl
  | _ =>
    cases h
    first
      | rfl
      | (simp only [List.nil_append, hfs]; rfl)

/-- The number grows only while a callback is set. -/
theorem next_grows {body : C → A → List (Op C A)} {i : Nat} {s s' : Sh C} {f : Fr C A} {ys : List (Fr C A)} {b : Bool}
    (h : next body i s f = some (s', ys, b)) : s.set = true ∨ s'.waiting ≤ s.waiting := by
  cases f with
  | asleep n => cases h
  | waitLock n =>
    simp only [next] at h
    split at h
    · cases h; exact .inr (Nat.le_refl _)
    · rename_i ha
      left
      simp only [awake, Bool.or_eq_true, not_or] at ha
      simpa using ha.2
  | ready n =>
    simp only [next] at h
    split at h
    · cases h; exact .inr (Nat.sub_le _ _)
    · cases h; exact .inr (Nat.le_refl _)
  | setEvent c =>
    simp only [next, Option.map_eq_some_iff] at h
    obtain ⟨m, hm, h⟩ := h
    cases h; exact .inr (Nat.le_refl _)
  | setInternal c =>
    simp only [next, Option.map_eq_some_iff] at h
    obtain ⟨m, -, h⟩ := h
    cases h; exact .inr (Nat.le_refl _)
  | unsetEvent =>
    simp only [next, Option.map_eq_some_iff] at h
    obtain ⟨m, hm, h⟩ := h
    cases h; exact .inr (Nat.le_refl _)
  | unsetInternal =>
    simp only [next, Option.map_eq_some_iff] at h
    obtain ⟨m, -, h⟩ := h
    cases h; exact .inr (Nat.le_refl _)
  | evInternal a =>
    simp only [next, Option.map_eq_some_iff] at h
    obtain ⟨m, -, h⟩ := h
    cases h; exact .inr (Nat.le_refl _)
  | evIn rest => cases rest <;> (cases h; exact .inr (Nat.le_refl _))
  | _ => cases h; exact .inr (Nat.le_refl _)

/-- What holds in every state that can be reached. -/
structure Full (body : C → A → List (Op C A)) (μ : A → Nat) (s : Conf (prog body)) : Prop where
  good : Good body μ s
  loc : ∀ (j : Nat) (x : List (Fr C A)), s.pcs[j]? = some x → LocE μ s.sh j x
  owner : ∀ j d, s.sh.event = some (j, d) → 1 ≤ d ∧ ∃ x, s.pcs[j]? = some x
  count : s.sh.waiting = s.pcs.countP inWait

/-- The owner of `event_mutex_` after a step is the thread, or the owner before. -/
theorem next_ownerE {body : C → A → List (Op C A)} {i : Nat} {s s' : Sh C} {f : Fr C A} {ys : List (Fr C A)} {b : Bool}
    (h : next body i s f = some (s', ys, b)) {j d : Nat} (hj : s'.event = some (j, d)) :
    1 ≤ d ∧ j = i ∨ (∃ d', s.event = some (j, d') ∧ (1 ≤ d' → 1 ≤ d)) := by
  rcases next_event h with ⟨h1, -⟩ | ⟨h1, -⟩ | ⟨h1, -⟩
  · exact .inr ⟨d, by rw [← h1]; exact hj, id⟩
  · rw [hj] at h1
    have := take_owner h1
    exact .inl ⟨this.2, this.1⟩
  · rw [hj] at h1
    unfold release at h1
    split at h1
    · rename_i k d' e'
      split at h1
      · cases h1
      · injection h1 with h1
        injection h1 with e1 e2
        subst e1
        exact .inr ⟨d', e', fun _ => by omega⟩
    · cases h1

theorem full_reachable {body : C → A → List (Op C A)} {μ : A → Nat} (hb : AllQuiet body μ) {n : Nat}
    {s : Conf (prog body)} (hr : (prog body).system.Reachable (init body n) s) : Full body μ s := by
  have hloc : ∀ {t : Conf (prog body)}, (prog body).system.Reachable (init body n) t →
      ∀ (j : Nat) (x : List (Fr C A)), t.pcs[j]? = some x → LocE μ t.sh j x := by
    intro t ht
    have h0 : (prog body).Inv (fun _ => True) (LocE μ) (init body n) := by
      refine ⟨trivial, fun j x hx => ?_⟩
      have := Prog.init_get hx
      subst this
      exact ⟨trivial, rfl, by intro e; cases e⟩
    exact ((locE_local hb).reachable h0 ht).loc
  have hcount : (prog body).system.Reachable (init body n) s ∧ s.sh.waiting = s.pcs.countP inWait := by
    have hinv : (prog body).Inv (fun _ => True) (LocE μ) s ∧ s.sh.waiting = s.pcs.countP inWait := by
      refine System.Reachable.invariant (S := (prog body).system)
        (fun s => (prog body).Inv (fun _ => True) (LocE μ) s ∧ s.sh.waiting = s.pcs.countP inWait) ?_ ?_ hr
      · refine ⟨⟨trivial, fun j x hx => ?_⟩, ?_⟩
        · have := Prog.init_get hx
          subst this
          exact ⟨trivial, rfl, by intro e; cases e⟩
        · show 0 = List.countP inWait (List.replicate n [])
          symm
          rw [List.countP_eq_zero]
          intro a ha
          rw [(List.mem_replicate.1 ha).2]
          nofun
      · intro s l s' ih hst
        have hst := Prog.step_stepped hst
        refine ⟨(locE_local hb).step ih.1 (Label.allowed_true l) hst, ?_⟩
        refine Prog.count_step (P := prog body) inWait (fun sh => sh.waiting) ?_ ?_ ?_ ?_ ih.2 hst
        · intro x op y h
          cases x with
          | nil => cases h; cases op <;> rfl
          | cons f fs => cases h
        · intro i x sh y b hx h
          obtain ⟨f, fs, ys, rfl, hn, rfl⟩ := run_next h
          refine next_waiting hn (inWait_append (ih.1.loc i _ hx).nest) ?_
          intro hw
          rw [ih.2]
          exact countP_pos_of_get inWait hx hw
        · intro x y h
          change woken x = some y at h
          unfold woken at h
          split at h
          · cases h; rfl
          · cases h
        · intro x y h
          cases h
    exact ⟨hr, hinv.2⟩
  refine ⟨good_reachable hb hr, hloc hr, ?_, hcount.2⟩
  refine System.Reachable.invariant (S := (prog body).system)
    (fun s => ∀ j d, s.sh.event = some (j, d) → 1 ≤ d ∧ ∃ x, s.pcs[j]? = some x) (by intro j d h; cases h) ?_ hr
  intro s l s' ih hst j d hj
  have hst := Prog.step_stepped hst
  have hlen := Prog.stepped_length hst
  have ex : (∃ x, s.pcs[j]? = some x) → ∃ x, s'.pcs[j]? = some x := by
    rintro ⟨x, hx⟩
    have : j < s.pcs.length := (List.getElem?_eq_some_iff.1 hx).1
    exact ⟨_, List.getElem?_eq_getElem (by omega)⟩
  rcases Prog.stepped_sh hst with e | ⟨i, x, y, b, -, hx, hy⟩
  · rw [e] at hj
    exact ⟨(ih j d hj).1, ex (ih j d hj).2⟩
  · change run body i s.sh x = some (s'.sh, y, b) at hy
    obtain ⟨f, fs, ys, rfl, hn, -⟩ := run_next hy
    rcases next_ownerE hn hj with ⟨h1, rfl⟩ | ⟨d', h1, h2⟩
    · exact ⟨h1, ex ⟨_, hx⟩⟩
    · exact ⟨h2 (ih j d' h1).1, ex (ih j d' h1).2⟩

/-! ### Liveness -/

/-- In the loop of `awake_all_waiting_threads_nts_`. -/
def InLoop {body : C → A → List (Op C A)} (i : Nat) (s : Conf (prog body)) : Prop :=
  s.pcs[i]? = some [.unsetNotify] ∨ s.pcs[i]? = some [.unsetExit]

theorem loop_off {body : C → A → List (Op C A)} {μ : A → Nat} {i : Nat} {s : Conf (prog body)} (hs : Full body μ s)
    (h : InLoop i s) : s.sh.set = false := by
  rcases h with h | h
  · exact (hs.loc i _ h).off rfl
  · exact (hs.loc i _ h).off rfl

/-- The loop goes on or ends; meanwhile the number of waiting threads does not grow. -/
theorem loop_keep {body : C → A → List (Op C A)} {μ : A → Nat} (i k : Nat) {s s' : Conf (prog body)}
    {l : Label (Op C A)} (hs : Full body μ s) (hst : (prog body).Stepped s l s') (hi : InLoop i s) (hw : s.sh.waiting ≤ k) :
    (InLoop i s' ∧ s'.sh.waiting ≤ k) ∨ s'.pcs[i]? = some [.unsetRelease] := by
  have hset := loop_off hs hi
  have hw' : s'.sh.waiting ≤ k := by
    rcases Prog.stepped_sh hst with h | ⟨j, x, y, b, -, -, hr⟩
    · rw [h]; exact hw
    · obtain ⟨f, fs, ys, rfl, hn, -⟩ := run_next hr
      rcases next_grows hn with h | h
      · rw [hset] at h; cases h
      · exact Nat.le_trans h hw
  by_cases hl : l = .run i
  · subst hl
    rcases hi with h | h
    · obtain ⟨sh, z, b, hr, -, hz⟩ := Prog.stepped_run hst h
      change run body i s.sh [.unsetNotify] = _ at hr
      cases hr
      exact Or.inl ⟨Or.inr hz, hw'⟩
    · obtain ⟨sh, z, b, hr, -, hz⟩ := Prog.stepped_run hst h
      change run body i s.sh [.unsetExit] = _ at hr
      simp only [run, next] at hr
      by_cases h0 : s.sh.waiting = 0
      · rw [if_pos h0] at hr; cases hr; exact Or.inr hz
      · rw [if_neg h0] at hr; cases hr; exact Or.inl ⟨Or.inl hz, hw'⟩
  · rcases hi with h | h
    · exact Or.inl ⟨Or.inl (Prog.frame_active hst h (active body [] (by intro _ h; cases h)) hl), hw'⟩
    · exact Or.inl ⟨Or.inr (Prog.frame_active hst h (active body [] (by intro _ h; cases h)) hl), hw'⟩

section
variable {body : C → A → List (Op C A)} {μ : A → Nat} (e : (prog body).system.Execution) (hf : e.Fair)
  (hF : ∀ n, Full body μ (e.at_ n))
include hf hF

/-- A woken thread leaves the wait while the loop runs. -/
theorem loop_ready (i j n k : Nat) (fs : List (Fr C A)) :
    e.LeadsTo (fun s => s.pcs[j]? = some (.ready n :: fs) ∧ InLoop i s ∧ s.sh.waiting ≤ k + 1)
      (fun s => (InLoop i s ∧ s.sh.waiting ≤ k) ∨ s.pcs[i]? = some [.unsetRelease]) := by
  refine Prog.runs' e hf (Full body μ) hF j (.ready n :: fs) (active body fs (by intro _ h; cases h))
    (fun s => InLoop i s ∧ s.sh.waiting ≤ k + 1) _ ?_ ?_ ?_
  · intro s l s' hs _ _ hk hst _
    rcases loop_keep i (k + 1) hs hst hk.1 hk.2 with h | h
    · exact Or.inl h
    · exact Or.inr (Or.inr h)
  · intro s _ _ _
    show (run body j s.sh (.ready n :: fs)).isSome
    simp only [run, next]
    split <;> rfl
  · intro s s' hs hs' hx hk hst
    have hset := loop_off hs hk.1
    rcases loop_keep i (k + 1) hs hst hk.1 hk.2 with h | h
    · left
      refine ⟨h.1, ?_⟩
      obtain ⟨sh, z, b, hr, e1, -⟩ := Prog.stepped_run hst hx
      change run body j s.sh (.ready n :: fs) = _ at hr
      simp only [run, next, awake, hset] at hr
      simp at hr
      rw [e1, ← hr.1]
      show s.sh.waiting - 1 ≤ k
      have := hk.2
      omega
    · exact Or.inr h

/-- The loop of `awake_all_waiting_threads_nts_` ends. -/
theorem loop_ends (i : Nat) : e.LeadsTo (InLoop i) (fun s => s.pcs[i]? = some [.unsetRelease]) := by
  have exit_ : ∀ k, e.LeadsTo (fun s => s.pcs[i]? = some [.unsetExit] ∧ s.sh.waiting ≤ k)
      (fun s => (s.pcs[i]? = some [.unsetNotify] ∧ s.sh.waiting ≤ k ∧ 0 < s.sh.waiting) ∨
        s.pcs[i]? = some [.unsetRelease]) := by
    intro k
    refine Prog.runs' e hf (Full body μ) hF i [.unsetExit] (active body [] (by intro _ h; cases h))
      (fun s => s.sh.waiting ≤ k) _ ?_ ?_ ?_
    · intro s l s' hs _ hx hk hst hl
      rcases loop_keep i k hs hst (Or.inr hx) hk with h | h
      · exact Or.inl h.2
      · exact Or.inr (Or.inr h)
    · intro s _ _ _; rfl
    · intro s s' hs hs' hx hk hst
      obtain ⟨sh, z, b, hr, e1, hz⟩ := Prog.stepped_run hst hx
      change run body i s.sh [.unsetExit] = _ at hr
      simp only [run, next] at hr
      by_cases h0 : s.sh.waiting = 0
      · rw [if_pos h0] at hr; cases hr; exact Or.inr hz
      · rw [if_neg h0] at hr
        cases hr
        refine Or.inl ⟨hz, ?_⟩
        rw [e1]
        exact ⟨hk, Nat.pos_of_ne_zero h0⟩
  have ntf : ∀ k, e.LeadsTo (fun s => s.pcs[i]? = some [.unsetNotify] ∧ s.sh.waiting ≤ k)
      (fun s => s.pcs[i]? = some [.unsetExit] ∧ s.sh.waiting ≤ k ∧
        ∀ (j n : Nat) (fs : List (Fr C A)), s.pcs[j]? ≠ some (.asleep n :: fs)) := by
    intro k
    refine Prog.runs' e hf (Full body μ) hF i [.unsetNotify] (active body [] (by intro _ h; cases h))
      (fun s => s.sh.waiting ≤ k) _ ?_ ?_ ?_
    · intro s l s' hs _ hx hk hst hl
      rcases loop_keep i k hs hst (Or.inl hx) hk with h | h
      · exact Or.inl h.2
      · have := Prog.frame_active hst hx (active body [] (by intro _ h; cases h)) hl
        rw [this] at h
        cases h
    · intro s _ _ _; rfl
    · intro s s' hs hs' hx hk hst
      cases hst with
      | run _ w y sh hw hy =>
        rw [hx] at hw
        cases hw
        cases hy
      | notify _ w y sh hw hy =>
        rw [hx] at hw
        cases hw
        cases hy
        have hx' : (s.pcs.map (prog body).wake)[i]? = some ((prog body).wake [.unsetNotify]) := by
          rw [List.getElem?_map, hx]; rfl
        refine ⟨get_set_self hx', hk, ?_⟩
        intro j n fs hj
        rcases set_get hj with ⟨-, h, -⟩ | ⟨-, hj⟩
        · cases h
        · obtain ⟨a, -, ha⟩ := map_get hj
          rcases (prog body).wake_cases a with ⟨h1, h2⟩ | ⟨y, h1, h2⟩
          · rw [h2] at ha
            subst ha
            cases h1
          · rw [h2] at ha
            subst ha
            change woken a = some _ at h1
            unfold woken at h1
            split at h1 <;> cases h1
  have round : ∀ k, e.LeadsTo (fun s => s.pcs[i]? = some [.unsetExit] ∧ s.sh.waiting ≤ k + 1 ∧
        ∀ (j n : Nat) (fs : List (Fr C A)), s.pcs[j]? ≠ some (.asleep n :: fs))
      (fun s => (InLoop i s ∧ s.sh.waiting ≤ k) ∨ s.pcs[i]? = some [.unsetRelease]) := by
    intro k m hm
    by_cases h0 : (e.at_ m).sh.waiting = 0
    · exact ⟨m, Nat.le_refl m, Or.inl ⟨Or.inr hm.1, by rw [h0]; exact Nat.zero_le k⟩⟩
    · have hc := (hF m).count
      obtain ⟨j, x, hj, hx⟩ := exists_of_countP_pos inWait (l := (e.at_ m).pcs)
        (Nat.pos_of_ne_zero (fun e => h0 (hc.trans e)))
      cases x with
      | nil => cases hx
      | cons f fs =>
        cases f with
        | asleep n => exact absurd hj (hm.2.2 j n fs)
        | ready n => exact loop_ready e hf hF i j n k fs m ⟨hj, Or.inr hm.1, hm.2.1⟩
        | _ => cases hx
  have main : ∀ k, e.LeadsTo (fun s => InLoop i s ∧ s.sh.waiting ≤ k)
      (fun s => s.pcs[i]? = some [.unsetRelease]) := by
    intro k
    induction k with
    | zero =>
      have h1 : e.LeadsTo (fun s => s.pcs[i]? = some [.unsetExit] ∧ s.sh.waiting ≤ 0)
          (fun s => s.pcs[i]? = some [.unsetRelease]) := by
        refine (exit_ 0).mono (fun _ h => h) ?_
        rintro s (⟨-, h1, h2⟩ | h)
        · omega
        · exact h
      have h2 : e.LeadsTo (fun s => s.pcs[i]? = some [.unsetNotify] ∧ s.sh.waiting ≤ 0)
          (fun s => s.pcs[i]? = some [.unsetRelease]) :=
        ((ntf 0).mono (fun _ h => h) (fun s h => ⟨h.1, h.2.1⟩)).trans h1
      refine (System.Execution.LeadsTo.or h2 h1).mono ?_ (fun _ h => h)
      rintro s ⟨h | h, hw⟩
      · exact Or.inl ⟨h, hw⟩
      · exact Or.inr ⟨h, hw⟩
    | succ k ih =>
      have h0 : e.LeadsTo (fun s => (InLoop i s ∧ s.sh.waiting ≤ k) ∨ s.pcs[i]? = some [.unsetRelease])
          (fun s => s.pcs[i]? = some [.unsetRelease]) := .or ih (.refl e fun _ h => h)
      have h2 : e.LeadsTo (fun s => s.pcs[i]? = some [.unsetNotify] ∧ s.sh.waiting ≤ k + 1)
          (fun s => s.pcs[i]? = some [.unsetRelease]) := ((ntf (k + 1)).trans (round k)).trans h0
      have h1 : e.LeadsTo (fun s => s.pcs[i]? = some [.unsetExit] ∧ s.sh.waiting ≤ k + 1)
          (fun s => s.pcs[i]? = some [.unsetRelease]) := by
        refine (exit_ (k + 1)).trans ?_
        refine (System.Execution.LeadsTo.or h2 (.refl e fun _ h => h)).mono ?_ (fun _ h => h)
        rintro s (⟨h1, h2, -⟩ | h)
        · exact Or.inl ⟨h1, h2⟩
        · exact Or.inr h
      refine (System.Execution.LeadsTo.or h2 h1).mono ?_ (fun _ h => h)
      rintro s ⟨h | h, hw⟩
      · exact Or.inl ⟨h, hw⟩
      · exact Or.inr ⟨h, hw⟩
  intro m hm
  exact main _ m ⟨hm, Nat.le_refl _⟩

/-- A client's call takes `internal_callback_mutex_`. -/
theorem internal_taken (hb : AllQuiet body μ) (i : Nat) (f g : Fr C A) (ha : ∀ n, f ≠ .asleep n)
    (h : ∀ s : Sh C, next body i s f = (take i s.internal).map fun m => ({ s with internal := m }, [g], false)) :
    e.LeadsTo (fun s => s.pcs[i]? = some [f]) (fun s => s.pcs[i]? = some [g]) := by
  have hG : ∀ k, Good body μ (e.at_ k) := fun k => (hF k).good
  refine Prog.acquire e hf (Good body μ) hG i [f] (active body [] ha) (fun _ => True)
    (fun sh => sh.internal = none) _ (fun _ _ _ => trivial) ?_ ?_ ?_
  · exact (freed e hf hG hb).mono (fun s h => h.2) (fun _ h => h)
  · intro s _ _ hfree
    change (run body i s.sh [f]).isSome
    change s.sh.internal = none at hfree
    simp [run, h, hfree, take]
  · intro s s' _ _ hx hst
    obtain ⟨sh, y, b, hy, -, hz⟩ := Prog.stepped_run hst hx
    change run body i s.sh [f] = some (sh, y, b) at hy
    simp only [run, h, Option.map_map, Option.map_eq_some_iff] at hy
    obtain ⟨m, -, hy⟩ := hy
    injection hy with _ hy
    injection hy with hy _
    rw [hz, ← hy]
    rfl

/-- `unset_callback` ends once it has `event_mutex_`. -/
theorem unset_ends (hb : AllQuiet body μ) (i : Nat) (f : Fr C A) (h : f = .unsetTest ∨ f = .unsetInternal ∨
      f = .unsetFlag ∨ f = .unsetStore ∨ f = .unsetNotify ∨ f = .unsetExit ∨ f = .unsetRelease) :
    e.LeadsTo (fun s => s.pcs[i]? = some [f]) (fun s => s.pcs[i]? = some [.unsetRelease]) := by
  have hG : ∀ k, Good body μ (e.at_ k) := fun k => (hF k).good
  have lp := loop_ends e hf hF i
  have l1 : e.LeadsTo (fun s => s.pcs[i]? = some [.unsetExit]) (fun s => s.pcs[i]? = some [.unsetRelease]) :=
    lp.mono (fun _ h => Or.inr h) (fun _ h => h)
  have l2 : e.LeadsTo (fun s => s.pcs[i]? = some [.unsetNotify]) (fun s => s.pcs[i]? = some [.unsetRelease]) :=
    lp.mono (fun _ h => Or.inl h) (fun _ h => h)
  have l3 := (go e hf hG i (f := .unsetStore) (fs := []) (ys := [.unsetNotify]) (by intro _ h; cases h)
    fun s _ _ => ⟨_, _, rfl⟩).trans l2
  have l4 := (go e hf hG i (f := .unsetFlag) (fs := []) (ys := [.unsetStore]) (by intro _ h; cases h)
    fun s _ _ => ⟨_, _, rfl⟩).trans l3
  have l5 := (internal_taken e hf hF hb i .unsetInternal .unsetFlag (by intro _ h; cases h) (fun s => rfl)).trans l4
  have l6 : e.LeadsTo (fun s => s.pcs[i]? = some [.unsetTest]) (fun s => s.pcs[i]? = some [.unsetRelease]) := by
    refine (Prog.free_step e hf (Full body μ) hF i [.unsetTest] (active body [] (by intro _ h; cases h))
      (fun s => s.pcs[i]? = some [.unsetInternal] ∨ s.pcs[i]? = some [.unsetRelease]) (fun _ _ _ => rfl) ?_).trans
      (.or l5 (.refl e fun _ h => h))
    intro s s' _ _ hx hs
    obtain ⟨sh, z, b, hr, -, hz⟩ := Prog.stepped_run hs hx
    change run body i s.sh [.unsetTest] = _ at hr
    simp only [run, next] at hr
    by_cases hset : s.sh.set = true
    · rw [if_pos hset] at hr; cases hr; exact Or.inl hz
    · rw [if_neg hset] at hr; cases hr; exact Or.inr hz
  rcases h with rfl | rfl | rfl | rfl | rfl | rfl | rfl
  · exact l6
  · exact l5
  · exact l4
  · exact l3
  · exact l2
  · exact l1
  · exact .refl e fun _ h => h

/-- `set_callback` ends once it has `event_mutex_`. -/
theorem set_ends (hb : AllQuiet body μ) (i : Nat) (f : Fr C A) (h : (∃ c, f = .setInternal c ∨ f = .setFlag c ∨
      f = .setStore c) ∨ f = .setHook) :
    e.LeadsTo (fun s => s.pcs[i]? = some [f]) (fun s => s.pcs[i]? = some [.setHook]) := by
  have hG : ∀ k, Good body μ (e.at_ k) := fun k => (hF k).good
  have l1 : ∀ c, e.LeadsTo (fun s => s.pcs[i]? = some [.setStore c]) (fun s => s.pcs[i]? = some [.setHook]) :=
    fun c => go e hf hG i (fs := []) (ys := [.setHook]) (by intro _ h; cases h) fun s _ _ => ⟨_, _, rfl⟩
  have l2 : ∀ c, e.LeadsTo (fun s => s.pcs[i]? = some [.setFlag c]) (fun s => s.pcs[i]? = some [.setHook]) :=
    fun c => (go e hf hG i (fs := []) (ys := [.setStore c]) (by intro _ h; cases h) fun s _ _ => ⟨_, _, rfl⟩).trans (l1 c)
  rcases h with ⟨c, rfl | rfl | rfl⟩ | rfl
  · exact (internal_taken e hf hF hb i (.setInternal c) (.setFlag c) (by intro _ h; cases h) (fun s => rfl)).trans (l2 c)
  · exact l2 c
  · exact l1 c
  · exact .refl e fun _ h => h

/-- The last release of `event_mutex_`. -/
theorem freeE_after (i : Nat) {f : Fr C A} (hh : f.holdsE = 1) (ha : ∀ n, f ≠ .asleep n)
    (h : ∀ s : Sh C, ∃ s' ys b, next body i s f = some (s', ys, b) ∧ s'.event = release s.event) :
    e.LeadsTo (fun s => s.pcs[i]? = some [f]) (fun s => s.sh.event = none) := by
  refine Prog.free_step e hf (Full body μ) hF i _ (active body [] ha) _ ?_ ?_
  · intro s _ _
    obtain ⟨s', ys, b, h, -⟩ := h s.sh
    change (run body i s.sh [f]).isSome
    simp [run, h]
  · intro s s' hs _ hx hst
    obtain ⟨sh, y, b, hy, hz, -⟩ := Prog.stepped_run hst hx
    obtain ⟨s1, ys, b1, h, h2⟩ := h s.sh
    change run body i s.sh [f] = some (sh, y, b) at hy
    simp only [run, h, Option.map_some] at hy
    injection hy with hy
    injection hy with hy _
    rw [hz, ← hy, h2]
    have hl := (hs.loc i _ hx).held
    simp only [depthE, hh] at hl
    unfold locked at hl
    split at hl
    · split at hl
      · rename_i e1 _
        rw [e1]
        simp only [release]
        rw [if_pos (by omega)]
      · omega
    · omega

/-- `event_mutex_` becomes free. -/
theorem freedE (hb : AllQuiet body μ) : e.LeadsTo (fun s => ¬ s.sh.event = none) (fun s => s.sh.event = none) := by
  intro n hn
  cases hm : (e.at_ n).sh.event with
  | none => exact absurd hm hn
  | some p =>
    obtain ⟨j, d⟩ := p
    obtain ⟨hd, x, hx⟩ := (hF n).owner j d hm
    have hl := ((hF n).loc j x hx).held
    rw [hm] at hl
    simp only [locked, if_true] at hl
    have hne := ((hF n).loc j x hx).nest
    have r1 : e.LeadsTo (fun s => s.pcs[j]? = some [.unsetRelease]) (fun s => s.sh.event = none) :=
      freeE_after e hf hF j rfl (by intro _ h; cases h) fun s => ⟨_, _, _, rfl, rfl⟩
    have r2 : e.LeadsTo (fun s => s.pcs[j]? = some [.setHook]) (fun s => s.sh.event = none) :=
      freeE_after e hf hF j rfl (by intro _ h; cases h) fun s => ⟨_, _, _, rfl, rfl⟩
    have inner : ∀ gs : List (Fr C A), Nest μ gs → (∃ f g fs, gs = f :: g :: fs) → depthE gs = 0 := by
      intro gs
      induction gs with
      | nil => intro _ h; obtain ⟨_, _, _, h⟩ := h; cases h
      | cons f gs ih =>
        rintro hn ⟨f', g, fs, he⟩
        cases he
        obtain ⟨h1, ⟨rest, rfl⟩, h3⟩ := hn
        have hz : f.holdsE = 0 := by cases f <;> first | rfl | exact h1.elim
        have ht : depthE (Fr.evIn rest :: fs) = 0 := by
          cases fs with
          | nil => rfl
          | cons k ks => exact ih h3 ⟨_, _, _, rfl⟩
        simp only [depthE, hz] at ht ⊢
        omega
    cases x with
    | nil => simp only [depthE] at hl; omega
    | cons f fs =>
      cases fs with
      | cons g gs => have := inner _ hne ⟨_, _, _, rfl⟩; omega
      | nil =>
        simp only [depthE] at hl
        cases f with
        | setInternal c => exact (set_ends e hf hF hb j _ (Or.inl ⟨c, Or.inl rfl⟩)).trans r2 n hx
        | setFlag c => exact (set_ends e hf hF hb j _ (Or.inl ⟨c, Or.inr (Or.inl rfl)⟩)).trans r2 n hx
        | setStore c => exact (set_ends e hf hF hb j _ (Or.inl ⟨c, Or.inr (Or.inr rfl)⟩)).trans r2 n hx
        | setHook => exact r2 n hx
        | unsetTest => exact (unset_ends e hf hF hb j _ (by simp)).trans r1 n hx
        | unsetInternal => exact (unset_ends e hf hF hb j _ (by simp)).trans r1 n hx
        | unsetFlag => exact (unset_ends e hf hF hb j _ (by simp)).trans r1 n hx
        | unsetStore => exact (unset_ends e hf hF hb j _ (by simp)).trans r1 n hx
        | unsetNotify => exact (unset_ends e hf hF hb j _ (by simp)).trans r1 n hx
        | unsetExit => exact (unset_ends e hf hF hb j _ (by simp)).trans r1 n hx
        | unsetRelease => exact r1 n hx
        | _ => simp only [Fr.holdsE] at hl; omega

/-- A client's call takes `event_mutex_`. -/
theorem event_taken (hb : AllQuiet body μ) (i : Nat) (f g : Fr C A) (ha : ∀ n, f ≠ .asleep n)
    (h : ∀ s : Sh C, next body i s f = (take i s.event).map fun m => ({ s with event := m }, [g], false)) :
    e.LeadsTo (fun s => s.pcs[i]? = some [f]) (fun s => s.pcs[i]? = some [g]) := by
  refine Prog.acquire e hf (Full body μ) hF i [f] (active body [] ha) (fun _ => True)
    (fun sh => sh.event = none) _ (fun _ _ _ => trivial) ?_ ?_ ?_
  · exact (freedE e hf hF hb).mono (fun s h => h.2) (fun _ h => h)
  · intro s _ _ hfree
    change (run body i s.sh [f]).isSome
    change s.sh.event = none at hfree
    simp [run, h, hfree, take]
  · intro s s' _ _ hx hst
    obtain ⟨sh, y, b, hy, -, hz⟩ := Prog.stepped_run hst hx
    change run body i s.sh [f] = some (sh, y, b) at hy
    simp only [run, h, Option.map_map, Option.map_eq_some_iff] at hy
    obtain ⟨m, -, hy⟩ := hy
    injection hy with _ hy
    injection hy with hy _
    rw [hz, ← hy]
    rfl

end

/-- C180, as far as it holds, for the other calls: with callbacks as in `C180_events_return_partial`, every call of
`set_callback`, `unset_callback`, `event_count`, `reset_event_count` and `decrement_event_count` by a client returns,
whatever the other threads do, which may raise events, set, unset and wait at any time.  Missing: callbacks that wait or
that set or unset, see the negations; for `wait_for_event` see `C180_wait_returns_partial`. -/
theorem C180_calls_return_partial (body : C → A → List (Op C A)) (μ : A → Nat)
    (hb : ∀ c a, ∀ op ∈ body c a,
      (∃ a', op = .event a' ∧ μ a' < μ a) ∨ op = .reset ∨ op = .decrement ∨ op = .eventCount)
    (n : Nat) (e : (prog body).system.Execution) (hf : e.Fair)
    (h0 : (prog body).system.Reachable (init body n) (e.at_ 0)) (i : Nat) (op : Op C A) (hop : ∀ k, op ≠ .wait k) :
    e.LeadsTo (fun s => s.pcs[i]? = some [enter op]) (fun s => s.pcs[i]? = some []) := by
  have hb' : AllQuiet body μ := by
    intro c a op hop
    rcases hb c a op hop with ⟨a', rfl, h⟩ | rfl | rfl | rfl
    · exact h
    · trivial
    · trivial
    · trivial
  have hF : ∀ k, Full body μ (e.at_ k) := fun k => full_reachable hb' (e.reachable h0 k)
  have hG : ∀ k, Good body μ (e.at_ k) := fun k => (hF k).good
  cases op with
  | event a => exact C180_events_return_partial body μ hb n e hf h0 i a
  | wait k => exact absurd rfl (hop k)
  | reset => exact go e hf hG i (f := .reset) (fs := []) (ys := []) (by intro _ h; cases h) fun s _ _ => ⟨_, _, rfl⟩
  | decrement => exact go e hf hG i (f := .decrement) (fs := []) (ys := []) (by intro _ h; cases h) fun s _ _ => ⟨_, _, rfl⟩
  | eventCount => exact go e hf hG i (f := .readCount) (fs := []) (ys := []) (by intro _ h; cases h) fun s _ _ => ⟨_, _, rfl⟩
  | setCallback c =>
    refine (event_taken e hf hF hb' i (.setEvent c) (.setInternal c) (by intro _ h; cases h) (fun s => rfl)).trans ?_
    refine (set_ends e hf hF hb' i _ (Or.inl ⟨c, Or.inl rfl⟩)).trans ?_
    exact go e hf hG i (f := .setHook) (fs := []) (ys := []) (by intro _ h; cases h) fun s _ _ => ⟨_, _, rfl⟩
  | unsetCallback =>
    refine (event_taken e hf hF hb' i .unsetEvent .unsetTest (by intro _ h; cases h) (fun s => rfl)).trans ?_
    refine (unset_ends e hf hF hb' i _ (Or.inl rfl)).trans ?_
    exact go e hf hG i (f := .unsetRelease) (fs := []) (ys := []) (by intro _ h; cases h) fun s _ _ => ⟨_, _, rfl⟩

/-! ### Waiting -/

/-- About to notify because of something that happened. -/
def pending : List (Fr C A) → Bool
  | .evNotify :: _ | .unsetStore :: _ | .unsetNotify :: _ => true
  | _ => false

/-- Sleepers have a reason, or will be notified. -/
def Sleep {body : C → A → List (Op C A)} (s : Conf (prog body)) : Prop :=
  ∀ (j : Nat) (z : List (Fr C A)), s.pcs[j]? = some z → (woken z).isSome →
    (∀ n fs, z = .asleep n :: fs → awake s.sh n = false) ∨
    ∃ (k : Nat) (w : List (Fr C A)), s.pcs[k]? = some w ∧ pending w = true

theorem isSome_woken {x : List (Fr C A)} (h : (woken x).isSome) : ∃ n fs, x = .asleep n :: fs := by
  unfold woken at h
  split at h
  · exact ⟨_, _, rfl⟩
  · cases h

/-- Who lets a sleeper's condition come to hold will notify. -/
theorem next_awake {body : C → A → List (Op C A)} {i : Nat} {s s' : Sh C} {f : Fr C A} {ys fs : List (Fr C A)} {b : Bool}
    (h : next body i s f = some (s', ys, b)) (n : Nat) (ha : awake s n = false) :
    awake s' n = false ∨ pending (ys ++ fs) = true := by
  have same : s'.count = s.count → s'.set = s.set → awake s' n = false := by
    intro h1 h2
    unfold awake at ha ⊢
    rw [h1, h2]
    exact ha
  cases f with
  | asleep n => cases h
  | evCount => cases h; exact .inr rfl
  | unsetFlag => cases h; exact .inr rfl
  | setFlag c =>
    cases h
    left
    simp only [awake, Bool.or_eq_false_iff, decide_eq_false_iff_not, Bool.not_eq_false'] at ha ⊢
    exact ⟨ha.1, trivial⟩
  | reset =>
    cases h
    left
    simp only [awake, Bool.or_eq_false_iff, decide_eq_false_iff_not, Bool.not_eq_false'] at ha ⊢
    exact ⟨by omega, ha.2⟩
  | decrement =>
    cases h
    left
    simp only [awake, Bool.or_eq_false_iff, decide_eq_false_iff_not, Bool.not_eq_false'] at ha ⊢
    refine ⟨?_, ha.2⟩
    split <;> omega
  | waitLock m => simp only [next] at h; split at h <;> (cases h; exact .inl (same rfl rfl))
  | ready m => simp only [next] at h; split at h <;> (cases h; exact .inl (same rfl rfl))
  | setEvent c =>
    simp only [next, Option.map_eq_some_iff] at h
    obtain ⟨m, -, h⟩ := h
    cases h; exact .inl (same rfl rfl)
  | setInternal c =>
    simp only [next, Option.map_eq_some_iff] at h
    obtain ⟨m, -, h⟩ := h
    cases h; exact .inl (same rfl rfl)
  | unsetEvent =>
    simp only [next, Option.map_eq_some_iff] at h
    obtain ⟨m, -, h⟩ := h
    cases h; exact .inl (same rfl rfl)
  | unsetInternal =>
    simp only [next, Option.map_eq_some_iff] at h
    obtain ⟨m, -, h⟩ := h
    cases h; exact .inl (same rfl rfl)
  | evInternal a =>
    simp only [next, Option.map_eq_some_iff] at h
    obtain ⟨m, -, h⟩ := h
    cases h; exact .inl (same rfl rfl)
  | evIn rest => cases rest <;> (cases h; exact .inl (same rfl rfl))
  | _ => cases h; exact .inl (same rfl rfl)

/-- No call lies below a sleeping one except callbacks. -/
def Calm : List (Fr C A) → Prop
  | [] => True
  | _ :: fs => ∀ g ∈ fs, ∃ rest, g = .evIn rest

theorem calm_local (body : C → A → List (Op C A)) :
    (prog body).Local (fun _ => True) (fun _ => True) (fun _ _ x => Calm x) where
  start := by
    intro sh i x op y _ _ _ hs
    cases x with
    | nil => cases hs; intro g hg; cases hg
    | cons f fs => cases hs
  shared := fun _ _ _ _ _ _ _ _ _ => trivial
  run := by
    intro sh i x sh' y b _ hl hr
    obtain ⟨f, fs, ys, rfl, hn, rfl⟩ := run_next hr
    have key : (∃ g, ys = [g]) ∨ ys = [] ∨ ∃ g rest, ys = [g, .evIn rest] := by
      cases f with
      | asleep n => cases hn
      | waitTest n => cases hn; left; split <;> exact ⟨_, rfl⟩
      | waitLock n => simp only [next] at hn; split at hn <;> (cases hn; exact .inl ⟨_, rfl⟩)
      | ready n => simp only [next] at hn; split at hn <;> (cases hn; exact .inl ⟨_, rfl⟩)
      | setEvent c =>
        simp only [next, Option.map_eq_some_iff] at hn
        obtain ⟨m, -, hn⟩ := hn
        cases hn; exact .inl ⟨_, rfl⟩
      | setInternal c =>
        simp only [next, Option.map_eq_some_iff] at hn
        obtain ⟨m, -, hn⟩ := hn
        cases hn; exact .inl ⟨_, rfl⟩
      | unsetEvent =>
        simp only [next, Option.map_eq_some_iff] at hn
        obtain ⟨m, -, hn⟩ := hn
        cases hn; exact .inl ⟨_, rfl⟩
      | unsetTest => cases hn; left; split <;> exact ⟨_, rfl⟩
      | unsetInternal =>
        simp only [next, Option.map_eq_some_iff] at hn
        obtain ⟨m, -, hn⟩ := hn
        cases hn; exact .inl ⟨_, rfl⟩
      | unsetExit => cases hn; left; split <;> exact ⟨_, rfl⟩
      | evInternal a =>
        simp only [next, Option.map_eq_some_iff] at hn
        obtain ⟨m, -, hn⟩ := hn
        cases hn; exact .inl ⟨_, rfl⟩
      | evTest a => cases hn; left; split <;> exact ⟨_, rfl⟩
      | evIn rest =>
        cases rest with
        | nil => cases hn; exact .inl ⟨_, rfl⟩
        | cons op rest => cases hn; exact .inr (.inr ⟨_, _, rfl⟩)
      | _ => cases hn; first | exact .inl ⟨_, rfl⟩ | exact .inr (.inl rfl)
    rcases key with ⟨g, rfl⟩ | rfl | ⟨g, rest, rfl⟩
    · exact hl
    · cases fs with
      | nil => trivial
      | cons g gs => exact fun k hk => hl k (List.mem_cons_of_mem _ hk)
    · intro k hk
      rcases List.mem_cons.1 hk with rfl | hk
      · exact ⟨rest, rfl⟩
      · exact hl k hk
  other := fun _ _ _ _ _ _ _ _ _ _ _ _ h => h
  woken := by
    intro sh i x y hl hw
    obtain ⟨n, fs, rfl⟩ := isSome_woken (x := x) (by change woken x = some y at hw; rw [hw]; rfl)
    cases hw
    exact hl
  late := nofun

theorem calm_woken {f : Fr C A} {fs : List (Fr C A)} (h : Calm (f :: fs)) : woken fs = none := by
  cases fs with
  | nil => rfl
  | cons g gs =>
    obtain ⟨rest, rfl⟩ := h g (List.mem_cons_self ..)
    rfl

theorem calm_reachable {body : C → A → List (Op C A)} {n : Nat} {s : Conf (prog body)}
    (hr : (prog body).system.Reachable (init body n) s) :
    (prog body).Inv (fun _ => True) (fun _ _ x => Calm x) s := by
  refine (calm_local body).reachable ⟨trivial, fun j x hx => ?_⟩ hr
  have := Prog.init_get hx
  subst this
  trivial

theorem sleep_reachable {body : C → A → List (Op C A)} {n : Nat} {s : Conf (prog body)}
    (hr : (prog body).system.Reachable (init body n) s) : Sleep s := by
  refine (System.Reachable.invariant (S := (prog body).system)
    (fun s => (prog body).Inv (fun _ => True) (fun _ _ x => Calm x) s ∧ Sleep s) ?_ ?_ hr).2
  · refine ⟨calm_reachable .init, fun j z hz h => ?_⟩
    have := Prog.init_get hz
    subst this
    cases h
  · intro s l s' ih hst
    have hst := Prog.step_stepped hst
    refine ⟨(calm_local body).step ih.1 (Label.allowed_true l) hst, ?_⟩
    refine Prog.sleep_step (P := prog body) (fun sh z => ∀ n fs, z = .asleep n :: fs → awake sh n = false)
      (fun w => pending w = true) ?_ ?_ ?_ ?_ ?_ ?_ ih.2 hst
    · intro x op y h
      cases x with
      | nil => cases h; exact ⟨by cases op <;> rfl, by intro h; cases h⟩
      | cons f fs => cases h
    · intro x y h
      obtain ⟨n, fs, rfl⟩ := isSome_woken (x := x) (by change woken x = some y at h; rw [h]; rfl)
      cases h
      exact ⟨rfl, by intro h; cases h⟩
    · intro x y h
      cases h
    · intro i x sh y b hx h hy m gs hm
      have hc : Calm x := ih.1.loc i x hx
      obtain ⟨f, fs, ys, rfl, hn, rfl⟩ := run_next h
      have hw := calm_woken hc
      cases f with
      | asleep n => cases hn
      | waitLock k =>
        simp only [next] at hn
        split at hn
        · cases hn; cases hm
        · rename_i ha
          cases hn
          cases hm
          simpa [awake] using ha
      | ready k =>
        simp only [next] at hn
        split at hn
        · cases hn; cases hm
        · rename_i ha
          cases hn
          cases hm
          simpa [awake] using ha
      | waitTest k => cases hn; by_cases hs : s.sh.set = true <;> simp [hs] at hm
      | unsetTest => cases hn; by_cases hs : s.sh.set = true <;> simp [hs] at hm
      | unsetExit => cases hn; by_cases hs : s.sh.waiting = 0 <;> simp [hs] at hm
      | evTest a => cases hn; by_cases hs : s.sh.set = true <;> simp [hs] at hm
      | setEvent c =>
        simp only [next, Option.map_eq_some_iff] at hn
        obtain ⟨m, -, hn⟩ := hn
        cases hn; cases hm
      | setInternal c =>
        simp only [next, Option.map_eq_some_iff] at hn
        obtain ⟨m, -, hn⟩ := hn
        cases hn; cases hm
      | unsetEvent =>
        simp only [next, Option.map_eq_some_iff] at hn
        obtain ⟨m, -, hn⟩ := hn
        cases hn; cases hm
      | unsetInternal =>
        simp only [next, Option.map_eq_some_iff] at hn
        obtain ⟨m, -, hn⟩ := hn
        cases hn; cases hm
      | evInternal a =>
        simp only [next, Option.map_eq_some_iff] at hn
        obtain ⟨m, -, hn⟩ := hn
        cases hn; cases hm
      | evIn rest =>
        cases rest with
        | nil => cases hn; cases hm
        | cons op rest => cases hn; cases op <;> cases hm
      | _ =>
        cases hn
        first
          | (cases hm; done)
          | (change fs = _ at hm; rw [hm] at hw; cases hw)
    · intro i x sh y _ h hp
      obtain ⟨f, fs, ys, rfl, hn, rfl⟩ := run_next h
      cases f with
      | evNotify => cases hn
      | unsetNotify => cases hn
      | unsetStore => cases hn; rfl
      | _ => cases hp
    · intro i x sh y j z _ h _ _ hz hok
      obtain ⟨f, fs, ys, rfl, hn, rfl⟩ := run_next h
      obtain ⟨n, gs, rfl⟩ := isSome_woken hz
      rcases next_awake hn n (hok n gs rfl) (fs := fs) with h | h
      · left
        intro m gs' hm
        cases hm
        exact h
      · exact .inr h

/-- C180, for waiting: whatever callbacks do, under fair scheduling a call of `wait_for_event(m)` returns (to the client, or
to the callback that called it) once `m` events are registered or the callback is unset, unless that ceases to hold before.
Missing: that this comes to hold, which it never does for a wait in a callback, see `C180_negation_wait`. -/
theorem C180_wait_returns_partial (body : C → A → List (Op C A)) (n : Nat) (e : (prog body).system.Execution) (hf : e.Fair)
    (h0 : (prog body).system.Reachable (init body n) (e.at_ 0)) (i m : Nat) (fs : List (Fr C A)) :
    e.LeadsTo
      (fun s => (s.pcs[i]? = some (enter (.wait m) :: fs) ∨ s.pcs[i]? = some (.asleep m :: fs)) ∧
        (m ≤ s.sh.count ∨ s.sh.set = false))
      (fun s => s.pcs[i]? = some fs ∨ ¬ (m ≤ s.sh.count ∨ s.sh.set = false)) := by
  have hF : ∀ k, Sleep (e.at_ k) := fun k => sleep_reachable (e.reachable h0 k)
  let K : Conf (prog body) → Prop := fun s => m ≤ s.sh.count ∨ s.sh.set = false
  let Q : Conf (prog body) → Prop := fun s => s.pcs[i]? = some fs ∨ ¬ K s
  have hK : ∀ s : Conf (prog body), K s → awake s.sh m = true := by
    intro s h
    simp only [awake, Bool.or_eq_true, decide_eq_true_eq, Bool.not_eq_true']
    exact h
  have kp : ∀ s : Conf (prog body), K s ∨ Q s := by
    intro s
    by_cases h : K s
    · exact Or.inl h
    · exact Or.inr (Or.inr h)
  have ret : e.LeadsTo (fun s => s.pcs[i]? = some (.waitRet m :: fs)) Q := by
    refine Prog.free_step e hf Sleep hF i _ (active body fs (by intro _ h; cases h)) Q (fun s _ _ => rfl) ?_
    intro s s' _ _ hx hs
    obtain ⟨sh, z, b, hr, -, hz⟩ := Prog.stepped_run hs hx
    change run body i s.sh (.waitRet m :: fs) = _ at hr
    cases hr
    exact Or.inl hz
  have goto : ∀ f : Fr C A, (∀ n, f ≠ .asleep n) →
      (∀ s : Sh C, awake s m = true → ∃ s', next body i s f = some (s', [.waitRet m], false)) →
      e.LeadsTo (fun s => s.pcs[i]? = some (f :: fs) ∧ K s) Q := by
    intro f hx h
    have hor : e.LeadsTo (fun s => s.pcs[i]? = some (.waitRet m :: fs) ∨ Q s) Q := .or ret (.refl e fun _ h => h)
    refine (Prog.runs' e hf Sleep hF i _ (active body fs hx) K
      (fun s => s.pcs[i]? = some (.waitRet m :: fs) ∨ Q s) ?_ ?_ ?_).trans hor
    · intro s l s' _ _ _ _ _ _
      rcases kp s' with h | h
      · exact Or.inl h
      · exact Or.inr (Or.inr h)
    · intro s _ _ hk
      obtain ⟨s', h⟩ := h s.sh (hK s hk)
      show (run body i s.sh (f :: fs)).isSome
      simp [run, h]
    · intro s s' _ _ hx hk hs
      obtain ⟨sh, z, b, hr, -, hz⟩ := Prog.stepped_run hs hx
      obtain ⟨s1, h⟩ := h s.sh (hK s hk)
      change run body i s.sh (f :: fs) = _ at hr
      simp only [run, h, Option.map_some] at hr
      cases hr
      exact Or.inl hz
  have rdy := goto (.ready m) (by intro _ h; cases h) (fun s h => ⟨_, by simp only [next, h]; rfl⟩)
  have lck := goto (.waitLock m) (by intro _ h; cases h) (fun s h => ⟨_, by simp only [next, h]; rfl⟩)
  have tst : e.LeadsTo (fun s => s.pcs[i]? = some (.waitTest m :: fs) ∧ K s) Q := by
    have hor : e.LeadsTo (fun s => (s.pcs[i]? = some (.waitLock m :: fs) ∧ K s) ∨
        (s.pcs[i]? = some (.waitRet m :: fs) ∨ Q s)) Q := .or lck (.or ret (.refl e fun _ h => h))
    refine (Prog.runs' e hf Sleep hF i _ (active body fs (by intro _ h; cases h)) K
      _ ?_ (fun s _ _ _ => rfl) ?_).trans hor
    · intro s l s' _ _ _ _ _ _
      rcases kp s' with h | h
      · exact Or.inl h
      · exact Or.inr (Or.inr (Or.inr h))
    · intro s s' _ _ hx hk hs
      obtain ⟨sh, z, b, hr, -, hz⟩ := Prog.stepped_run hs hx
      change run body i s.sh (.waitTest m :: fs) = _ at hr
      simp only [run, next] at hr
      by_cases hset : s.sh.set = true
      · rw [if_pos hset] at hr
        cases hr
        rcases kp s' with h | h
        · exact Or.inl ⟨hz, h⟩
        · exact Or.inr (Or.inr h)
      · rw [if_neg hset] at hr
        cases hr
        exact Or.inr (Or.inl hz)
  have slp : e.LeadsTo (fun s => s.pcs[i]? = some (.asleep m :: fs) ∧ K s) Q := by
    have hor : e.LeadsTo (fun s => (s.pcs[i]? = some (.ready m :: fs) ∧ K s) ∨ Q s) Q := .or rdy (.refl e fun _ h => h)
    have stay : ∀ (s s' : Conf (prog body)) (l : Label (Op C A)), (prog body).Stepped s l s' →
        s.pcs[i]? = some (.asleep m :: fs) →
        (s'.pcs[i]? = some (.asleep m :: fs) ∧ K s') ∨ ((s'.pcs[i]? = some (.ready m :: fs) ∧ K s') ∨ Q s') := by
      intro s s' l hs hx
      rcases kp s' with h | h
      · rcases Prog.frame_sleep hs hx (y := .ready m :: fs) rfl (fun op => rfl) (fun _ => rfl) with
          h1 | h1 | ⟨z, h1, -⟩
        · exact Or.inl ⟨h1, h⟩
        · exact Or.inr (Or.inl ⟨h1, h⟩)
        · cases h1
      · exact Or.inr (Or.inr h)
    have free : ∀ (k : Nat) (f : Fr C A) (gs : List (Fr C A)), (∀ n, f ≠ .asleep n) →
        (∀ s : Sh C, (next body k s f).isSome) → ∀ R : Conf (prog body) → Prop,
        (∀ s s' : Conf (prog body), s.pcs[k]? = some (f :: gs) → (prog body).Stepped s (.run k) s' →
          (s'.pcs[i]? = some (.asleep m :: fs) ∧ K s') → R s') →
        e.LeadsTo (fun s => s.pcs[k]? = some (f :: gs) ∧ (s.pcs[i]? = some (.asleep m :: fs) ∧ K s))
          (fun s => R s ∨ ((s.pcs[i]? = some (.ready m :: fs) ∧ K s) ∨ Q s)) := by
      intro k f gs hx hab R hR
      refine Prog.runs' e hf Sleep hF k _ (active body gs hx) _ _ ?_
        (fun s _ _ _ => by change (run body k s.sh (f :: gs)).isSome; simpa [run] using hab s.sh) ?_
      · intro s l s' _ _ _ hk hs _
        rcases stay s s' l hs hk.1 with h | h
        · exact Or.inl h
        · exact Or.inr (Or.inr h)
      · intro s s' _ _ hx hk hs
        rcases stay s s' _ hs hk.1 with h | h
        · exact Or.inl (hR s s' hx hs h)
        · exact Or.inr h
    have ntf : ∀ (k : Nat) (f g : Fr C A) (gs : List (Fr C A)), (∀ n, f ≠ .asleep n) → g ≠ .asleep m →
        (∀ s : Sh C, next body k s f = some (s, [g], true)) →
        e.LeadsTo (fun s => s.pcs[k]? = some (f :: gs) ∧ (s.pcs[i]? = some (.asleep m :: fs) ∧ K s)) Q := by
      intro k f g gs hx hg hr
      refine (free k f gs hx (fun s => by rw [hr]; rfl) (fun _ => False) ?_).trans (.or (.refl e fun _ h => h.elim) hor)
      intro s s' hk hs h
      have hr : run body k s.sh (f :: gs) = some (s.sh, g :: gs, true) := by simp [run, hr]
      have hki : i ≠ k := by
        rintro rfl
        obtain ⟨sh', z, b, hr', -, hz⟩ := Prog.stepped_run hs hk
        have := hr.symm.trans hr'
        cases this
        have := Option.some.inj (hz.symm.trans h.1)
        injection this with h1 _
        exact hg h1
      obtain ⟨w, -, hw⟩ := Prog.stepped_notify hs hk hr hki h.1
      rcases (prog body).wake_cases w with ⟨e1, e2⟩ | ⟨y, e1, e2⟩
      · rw [e2] at hw
        subst hw
        cases e1
      · rw [e2] at hw
        subst hw
        obtain ⟨n, fs', rfl⟩ := isSome_woken (x := w) (by change woken w = _ at e1; rw [e1]; rfl)
        cases e1
    intro k hk
    rcases hF k i _ hk.1 rfl with h | ⟨j, w, hj, hw⟩
    · exact absurd (hK _ hk.2) (by rw [h m fs rfl]; nofun)
    · unfold pending at hw
      split at hw
      · exact ntf j .evNotify .evRelease _ (by intro _ h; cases h) (by intro h; cases h) (fun s => rfl) k ⟨hj, hk⟩
      · rename_i gs
        refine ((free j .unsetStore gs (by intro _ h; cases h) (fun _ => rfl) (fun s => s.pcs[j]? = some (.unsetNotify :: gs) ∧
          (s.pcs[i]? = some (.asleep m :: fs) ∧ K s)) ?_).trans (.or
          (ntf j .unsetNotify .unsetExit gs (by intro _ h; cases h) (by intro h; cases h) (fun s => rfl)) hor)) k ⟨hj, hk⟩
        intro s s' hk hs h
        obtain ⟨sh, z, b, hr, -, hz⟩ := Prog.stepped_run hs hk
        change run body j s.sh (.unsetStore :: gs) = _ at hr
        cases hr
        exact ⟨hz, h⟩
      · exact ntf j .unsetNotify .unsetExit _ (by intro _ h; cases h) (by intro h; cases h) (fun s => rfl) k ⟨hj, hk⟩
      · cases hw
  refine (System.Execution.LeadsTo.or tst slp).mono ?_ (fun _ h => h)
  rintro s ⟨h | h, hk⟩
  · exact Or.inl ⟨h, hk⟩
  · exact Or.inr ⟨h, hk⟩

/-- Raises the event once more with each smaller number. -/
def again : Unit → Nat → List (Op Unit Nat)
  | _, 0 => []
  | _, a + 1 => [.event a]

/-- A fair execution for both: the callback raises the event once more; while a thread sleeps in `wait_for_event(2)`, another
raises an event, and then unsets the callback. -/
example : ∃ (body : Unit → Nat → List (Op Unit Nat)) (e : (prog body).system.Execution),
    (∀ c a, ∀ op ∈ body c a, (∃ a', op = .event a' ∧ a' < a) ∨ op = .reset ∨ op = .decrement ∨ op = .eventCount) ∧
    e.Fair ∧ e.at_ 0 = init body 2 ∧
    ((e.at_ 22).pcs[0]? = some [.asleep 2] ∧ 2 ≤ (e.at_ 22).sh.count ∧ (e.at_ 22).pcs[1]? = some [.evNotify]) ∧
    (e.at_ 25).pcs[1]? = some [enter .unsetCallback] := by
  obtain ⟨e, h1, h2, h3, -⟩ := (prog again).system.finite_fair (init again 2) ⟨⟨false, none, 2, 0, none, none⟩, [[], []]⟩
    ([.start 1 (.setCallback ()), .run 1, .run 1, .run 1, .run 1, .run 1, .start 0 (.wait 2), .run 0, .run 0,
      .start 1 (.event 1), .run 1, .run 1, .run 1, .run 1, .run 1, .run 1, .run 1, .run 1, .run 0, .run 1, .run 1, .run 1,
      .run 1, .run 1, .start 1 .unsetCallback, .run 1, .run 1, .run 1, .run 1, .run 1, .run 1, .run 0, .run 0, .run 1,
      .run 1] : List (Label (Op Unit Nat)))
    rfl (by
      intro i
      match i with
      | 0 => rfl
      | 1 => rfl
      | i + 2 => rfl)
  refine ⟨again, e, ?_, h1, h2, ?_, ?_⟩
  · intro c a op h
    cases a with
    | zero => cases h
    | succ a => exact .inl ⟨a, List.mem_singleton.1 h, Nat.lt_succ_self a⟩
  · obtain ⟨s, hs, he⟩ := h3 22
    rw [he]
    cases hs
    exact ⟨rfl, by decide, rfl⟩
  · obtain ⟨s, hs, he⟩ := h3 25
    rw [he]
    cases hs
    rfl

end Verif.EventNested
