import Verif.Model.Heritable
/-!
C76 and C94: `Heritable`.
-/
namespace Verif.Heritable

variable {V K : Type}

/-- Invariant: a Heritable refers to an object that exists, and an object exists as long as a Heritable refers to
it. -/
structure Inv (s : State V K) : Prop where
  bound : ∀ (h : Nat) (x : Handle K) (o : Nat), s.handles[h]? = some (some x) → x.target = some o → o < s.objs.length
  alive : ∀ (o : Nat) (x : Obj V K), s.objs[o]? = some x → (x.alive = true ↔ s.used o = true)

theorem used_iff (s : State V K) (o : Nat) :
    s.used o = true ↔ ∃ (h : Nat) (x : Handle K), s.handles[h]? = some (some x) ∧ x.target = some o := by
  unfold State.used
  rw [List.any_eq_true]
  constructor
  · rintro ⟨c, hc, h⟩
    obtain ⟨i, hi⟩ := List.mem_iff_getElem?.1 hc
    cases c with
    | none => cases h
    | some x => exact ⟨i, x, hi, by simpa using h⟩
  · rintro ⟨h, x, hx, ht⟩
    exact ⟨some x, List.mem_of_getElem? hx, by simpa using ht⟩

theorem collect_obj (s : State V K) (o : Nat) :
    s.collect.objs[o]? = s.objs[o]?.map fun x => { x with alive := x.alive && s.used o } := by
  simp [State.collect]

theorem inv_collect {s : State V K} (hb : ∀ (h : Nat) (x : Handle K) (o : Nat), s.handles[h]? = some (some x) →
    x.target = some o → o < s.objs.length)
    (ha : ∀ (o : Nat) (x : Obj V K), s.objs[o]? = some x → s.used o = true → x.alive = true) : Inv s.collect := by
  refine ⟨fun h x o hx ht => ?_, fun o x hx => ?_⟩
  · have := hb h x o hx ht
    simpa [State.collect] using this
  · rw [collect_obj] at hx
    obtain ⟨y, hy, rfl⟩ := Option.map_eq_some_iff.1 hx
    show (y.alive && s.used o) = true ↔ s.used o = true
    rw [Bool.and_eq_true]
    exact ⟨fun h => h.2, fun h => ⟨ha o y hy h, h⟩⟩

theorem used_of_targets {s s' : State V K} (h : ∀ o, (∃ (h : Nat) (x : Handle K), s'.handles[h]? = some (some x) ∧
    x.target = some o) ↔ ∃ (h : Nat) (x : Handle K), s.handles[h]? = some (some x) ∧ x.target = some o) (o : Nat) :
    s'.used o = s.used o := by
  rw [Bool.eq_iff_iff, used_iff, used_iff]
  exact h o

theorem inv_step {related : K → K → Bool} {s s' : State V K} {op : Op V K} (hi : Inv s)
    (hs : step related s op = some s') : Inv s' := by
  cases op with
  | make v d k =>
    simp only [step] at hs
    split at hs
    · cases hs
      have hb : ∀ (h : Nat) (x : Handle K) (o : Nat), (s.handles ++ [some ⟨k, some s.objs.length⟩])[h]? = some (some x) →
          x.target = some o → (s.handles[h]? = some (some x) ∧ o < s.objs.length) ∨ o = s.objs.length := by
        intro h x o hx ht
        rw [List.getElem?_append] at hx
        split at hx
        · exact Or.inl ⟨hx, hi.bound h x o hx ht⟩
        · right
          rw [List.getElem?_singleton] at hx
          split at hx
          · cases hx; cases ht; rfl
          · cases hx
      refine ⟨fun h x o hx ht => ?_, fun o x hx => ?_⟩
      · show o < (s.objs ++ [_]).length
        rw [List.length_append, List.length_singleton]
        rcases hb h x o hx ht with h | h
        · omega
        · omega
      · have hx : (s.objs ++ [⟨v, d, true⟩])[o]? = some x := hx
        rw [List.getElem?_append] at hx
        rw [used_iff]
        split at hx
        · rename_i ho
          rw [hi.alive o x hx, used_iff]
          constructor
          · rintro ⟨h, y, hy, ht⟩
            refine ⟨h, y, ?_, ht⟩
            show (s.handles ++ _)[h]? = _
            rw [List.getElem?_append_left (List.getElem?_eq_some_iff.1 hy).1]
            exact hy
          · rintro ⟨h, y, hy, ht⟩
            rcases hb h y o hy ht with ⟨h1, -⟩ | h1
            · exact ⟨h, y, h1, ht⟩
            · omega
        · rename_i ho
          rw [List.getElem?_singleton] at hx
          split at hx
          · rename_i h0
            cases hx
            refine ⟨fun _ => ⟨s.handles.length, ⟨k, some s.objs.length⟩, ?_, ?_⟩, fun _ => rfl⟩
            · show (s.handles ++ _)[_]? = _
              rw [List.getElem?_append_right (Nat.le_refl _)]
              simp
            · show some s.objs.length = some o
              congr 1
              omega
          · cases hx
    · cases hs
  | null k =>
    cases hs
    have hb : ∀ (g : Nat) (y : Handle K) (o : Nat), y.target = some o → ((s.handles ++ [some ⟨k, none⟩])[g]? =
        some (some y) ↔ s.handles[g]? = some (some y)) := by
      intro g y o ht
      rw [List.getElem?_append]
      split
      · rfl
      · rename_i hg
        rw [List.getElem?_singleton]
        constructor
        · intro hy
          split at hy
          · cases hy; cases ht
          · cases hy
        · intro hy
          exact absurd (List.getElem?_eq_some_iff.1 hy).1 hg
    refine ⟨fun g y o hy ht => hi.bound g y o ((hb g y o ht).1 hy) ht, fun o y hy => ?_⟩
    rw [hi.alive o y hy]
    refine Eq.to_iff (congrArg (· = true) (used_of_targets (fun o => ?_) o).symm)
    exact ⟨fun ⟨g, y, hy, ht⟩ => ⟨g, y, (hb g y o ht).1 hy, ht⟩, fun ⟨g, y, hy, ht⟩ => ⟨g, y, (hb g y o ht).2 hy, ht⟩⟩
  | copy h k =>
    simp only [step] at hs
    split at hs
    · rename_i x hx
      split at hs
      · cases hs
        have hb : ∀ (g : Nat) (y : Handle K), (s.handles ++ [some ⟨k, x.target⟩])[g]? = some (some y) →
            ∃ (g' : Nat) (y' : Handle K), s.handles[g']? = some (some y') ∧ y'.target = y.target := by
          intro g y hy
          rw [List.getElem?_append] at hy
          split at hy
          · exact ⟨g, y, hy, rfl⟩
          · rw [List.getElem?_singleton] at hy
            split at hy
            · cases hy
              exact ⟨h, x, hx, rfl⟩
            · cases hy
        refine ⟨fun g y o hy ht => ?_, fun o y hy => ?_⟩
        · obtain ⟨g', y', h1, h2⟩ := hb g y hy
          exact hi.bound g' y' o h1 (h2.trans ht)
        · rw [hi.alive o y hy]
          refine Eq.to_iff (congrArg (· = true) (used_of_targets (fun o => ?_) o).symm)
          constructor
          · rintro ⟨g, y, hy, ht⟩
            obtain ⟨g', y', h1, h2⟩ := hb g y hy
            exact ⟨g', y', h1, h2.trans ht⟩
          · rintro ⟨g, y, hy, ht⟩
            refine ⟨g, y, ?_, ht⟩
            show (s.handles ++ _)[g]? = _
            rw [List.getElem?_append_left (List.getElem?_eq_some_iff.1 hy).1]
            exact hy
      · cases hs
    · cases hs
  | move h k =>
    simp only [step] at hs
    split at hs
    · rename_i x hx
      split at hs
      · cases hs
        have hlen := (List.getElem?_eq_some_iff.1 hx).1
        have hb : ∀ (g : Nat) (y : Handle K), (s.handles.set h (some { x with target := none }) ++
            [some ⟨k, x.target⟩])[g]? = some (some y) → y.target = none ∨
            ∃ (g' : Nat) (y' : Handle K), s.handles[g']? = some (some y') ∧ y'.target = y.target := by
          intro g y hy
          rw [List.getElem?_append] at hy
          split at hy
          · by_cases hg : h = g
            · subst hg
              rw [List.getElem?_set_self hlen] at hy
              cases hy
              exact Or.inl rfl
            · rw [List.getElem?_set_ne hg] at hy
              exact Or.inr ⟨g, y, hy, rfl⟩
          · rw [List.getElem?_singleton] at hy
            split at hy
            · cases hy
              exact Or.inr ⟨h, x, hx, rfl⟩
            · cases hy
        refine ⟨fun g y o hy ht => ?_, fun o y hy => ?_⟩
        · rcases hb g y hy with h0 | ⟨g', y', h1, h2⟩
          · rw [ht] at h0; cases h0
          · exact hi.bound g' y' o h1 (h2.trans ht)
        · rw [hi.alive o y hy]
          refine Eq.to_iff (congrArg (· = true) (used_of_targets (fun o => ?_) o).symm)
          constructor
          · rintro ⟨g, y, hy, ht⟩
            rcases hb g y hy with h0 | ⟨g', y', h1, h2⟩
            · rw [ht] at h0; cases h0
            · exact ⟨g', y', h1, h2.trans ht⟩
          · rintro ⟨g, y, hy, ht⟩
            by_cases hg : h = g
            · subst hg
              rw [hx] at hy
              cases hy
              refine ⟨s.handles.length, ⟨k, x.target⟩, ?_, ht⟩
              show (s.handles.set h _ ++ _)[_]? = _
              rw [List.getElem?_append_right (by simp)]
              simp
            · refine ⟨g, y, ?_, ht⟩
              show (s.handles.set h _ ++ _)[_]? = _
              rw [List.getElem?_append_left (by simpa using (List.getElem?_eq_some_iff.1 hy).1),
                List.getElem?_set_ne hg]
              exact hy
      · cases hs
    · cases hs
  | assign h g =>
    simp only [step] at hs
    split at hs
    · rename_i x y hx hy
      split at hs
      · cases hs
        have hb : ∀ (j : Nat) (z : Handle K), (s.handles.set h (some { x with target := y.target }))[j]? = some (some z) →
            ∃ (g' : Nat) (y' : Handle K), s.handles[g']? = some (some y') ∧ y'.target = z.target := by
          intro j z hz
          rw [List.getElem?_set] at hz
          split at hz
          · split at hz
            · cases hz; exact ⟨g, y, hy, rfl⟩
            · cases hz
          · exact ⟨j, z, hz, rfl⟩
        refine inv_collect ?_ ?_
        · intro j z o hz ht
          obtain ⟨g', y', h1, h2⟩ := hb j z hz
          exact hi.bound g' y' o h1 (h2.trans ht)
        · intro o z hz hu
          obtain ⟨j, w, hw, ht⟩ := (used_iff _ _).1 hu
          obtain ⟨g', y', h1, h2⟩ := hb j w hw
          exact (hi.alive o z hz).2 ((used_iff _ _).2 ⟨g', y', h1, h2.trans ht⟩)
      · cases hs
    · cases hs
  | moveAssign h g =>
    simp only [step] at hs
    split at hs
    · rename_i x y hx hy
      split at hs
      · split at hs
        · cases hs; exact hi
        · cases hs
          have hb : ∀ (j : Nat) (z : Handle K), ((s.handles.set g (some { y with target := none })).set h
              (some { x with target := y.target }))[j]? = some (some z) → z.target = none ∨
              ∃ (g' : Nat) (y' : Handle K), s.handles[g']? = some (some y') ∧ y'.target = z.target := by
            intro j z hz
            rw [List.getElem?_set] at hz
            split at hz
            · split at hz
              · cases hz; exact Or.inr ⟨g, y, hy, rfl⟩
              · cases hz
            · rw [List.getElem?_set] at hz
              split at hz
              · split at hz
                · cases hz; exact Or.inl rfl
                · cases hz
              · exact Or.inr ⟨j, z, hz, rfl⟩
          refine inv_collect ?_ ?_
          · intro j z o hz ht
            rcases hb j z hz with h0 | ⟨g', y', h1, h2⟩
            · rw [ht] at h0; cases h0
            · exact hi.bound g' y' o h1 (h2.trans ht)
          · intro o z hz hu
            obtain ⟨j, w, hw, ht⟩ := (used_iff _ _).1 hu
            rcases hb j w hw with h0 | ⟨g', y', h1, h2⟩
            · rw [ht] at h0; cases h0
            · exact (hi.alive o z hz).2 ((used_iff _ _).2 ⟨g', y', h1, h2.trans ht⟩)
      · cases hs
    · cases hs
  | write h v =>
    simp only [step] at hs
    split at hs
    · rename_i o ho
      cases hs
      refine ⟨fun g y o' hy ht => ?_, fun o' y hy => ?_⟩
      · have := hi.bound g y o' hy ht
        simpa using this
      · have hy : (s.objs.modify o _)[o']? = some y := hy
        rw [List.getElem?_modify] at hy
        obtain ⟨z, hz, rfl⟩ := Option.map_eq_some_iff.1 hy
        have := hi.alive o' z hz
        show _ ↔ s.used o' = true
        rw [← this]
        split <;> rfl
    · cases hs
  | drop h =>
    simp only [step] at hs
    split at hs
    · cases hs
      have hb : ∀ (j : Nat) (z : Handle K), (s.handles.set h none)[j]? = some (some z) → s.handles[j]? = some (some z) := by
        intro j z hz
        rw [List.getElem?_set] at hz
        split at hz
        · split at hz <;> cases hz
        · exact hz
      refine inv_collect (fun j z o hz ht => hi.bound j z o (hb j z hz) ht) ?_
      intro o z hz hu
      obtain ⟨j, w, hw, ht⟩ := (used_iff _ _).1 hu
      exact (hi.alive o z hz).2 ((used_iff _ _).2 ⟨j, w, hb j w hw, ht⟩)
    · cases hs

theorem inv_run {related : K → K → Bool} (ops : List (Op V K)) {s s' : State V K} (hi : Inv s)
    (hr : run related s ops = some s') : Inv s' := by
  induction ops generalizing s with
  | nil => cases hr; exact hi
  | cons op ops ih =>
    obtain ⟨s1, h1, h2⟩ := Option.bind_eq_some_iff.1 hr
    exact ih (inv_step hi h1) h2

theorem inv_empty : Inv (empty V K) := ⟨nofun, nofun⟩

/-! ### What the Heritables read -/

/-- Specification: each Heritable belongs to a family (`none`: to none; outer `none`: it does not exist), each family
has a value.  Nothing is ever destroyed. -/
structure Families (V : Type) where
  member : List (Option (Option Nat))
  value : List V

/-- The family of a Heritable. -/
def Families.of (f : Families V) (h : Nat) : Option Nat := (f.member[h]?.getD none).getD none

/-- What each call means: creating starts a family, copying joins it, moving hands it over, writing changes the value of
the whole family. -/
def Families.step (f : Families V) : Op V K → Families V
  | .make v _ _ => ⟨f.member ++ [some (some f.value.length)], f.value ++ [v]⟩
  | .null _ => ⟨f.member ++ [some none], f.value⟩
  | .copy h _ => ⟨f.member ++ [some (f.of h)], f.value⟩
  | .move h _ => ⟨f.member.set h (some none) ++ [some (f.of h)], f.value⟩
  | .assign h g => ⟨f.member.set h (some (f.of g)), f.value⟩
  | .moveAssign h g =>
    if h = g then f else ⟨(f.member.set g (some none)).set h (some (f.of g)), f.value⟩
  | .write h v =>
    match f.of h with
    | some i => ⟨f.member, f.value.set i v⟩
    | none => f
  | .drop h => ⟨f.member.set h none, f.value⟩

/-- Value read through a Heritable according to the specification. -/
def Families.read (f : Families V) (h : Nat) : Option V := (f.of h).bind fun i => f.value[i]?

/-- The families of a state of the model. -/
def State.families (s : State V K) : Families V := ⟨s.handles.map (·.map Handle.target), s.objs.map Obj.value⟩

theorem families_of (s : State V K) (h : Nat) : s.families.of h = s.target h := by
  unfold Families.of State.families State.target
  rw [List.getElem?_map]
  rcases s.handles[h]? with _ | (_ | x) <;> rfl

theorem families_read (s : State V K) (h : Nat) : s.families.read h = s.read h := by
  unfold Families.read State.read
  rw [families_of]
  congr 1
  funext o
  exact List.getElem?_map ..

theorem families_collect (s : State V K) : s.collect.families = s.families := by
  unfold State.families State.collect
  simp only [Families.mk.injEq, true_and]
  apply List.ext_getElem?
  intro i
  simp [Option.map_map, Function.comp_def]

theorem families_step {related : K → K → Bool} {s s' : State V K} {op : Op V K} (hs : step related s op = some s') :
    s'.families = s.families.step op := by
  have target {h : Nat} {x : Handle K} (hx : s.handles[h]? = some (some x)) : s.families.of h = x.target := by
    rw [families_of, State.target, hx]
  cases op <;> simp only [step] at hs
  case null => cases hs; simp [State.families, Families.step]
  case make => split at hs <;> cases hs; simp [State.families, Families.step]
  case copy =>
    split at hs
    · rename_i x hx
      split at hs <;> cases hs
      simp only [Families.step, target hx]
      simp [State.families]
    · cases hs
  case move =>
    split at hs
    · rename_i x hx
      split at hs <;> cases hs
      simp only [Families.step, target hx]
      simp [State.families]
    · cases hs
  case assign =>
    split at hs
    · rename_i x y hx hy
      split at hs <;> cases hs
      simp only [Families.step, target hy, families_collect]
      simp [State.families]
    · cases hs
  case moveAssign =>
    split at hs
    · rename_i x y hx hy
      split at hs
      · split at hs
        · rename_i h
          cases hs
          simp only [Families.step, if_pos h]
        · rename_i h
          cases hs
          simp only [Families.step, if_neg h, target hy, families_collect]
          simp [State.families]
      · cases hs
    · cases hs
  case write =>
    split at hs
    · rename_i h v o ho
      cases hs
      simp only [Families.step, families_of, ho]
      simp only [State.families, Families.mk.injEq, true_and]
      apply List.ext_getElem?
      intro i
      simp only [List.getElem?_map, List.getElem?_modify, List.getElem?_set, List.length_map]
      by_cases h : o = i
      · subst h
        by_cases h' : o < s.objs.length
        · simp [h']
        · simp [h']
      · simp [h]
    · cases hs
  case drop =>
    split at hs
    · cases hs
      simp only [families_collect]
      simp [State.families, Families.step]
    · cases hs

theorem families_run {related : K → K → Bool} (ops : List (Op V K)) {s s' : State V K}
    (hr : run related s ops = some s') : s'.families = ops.foldl Families.step s.families := by
  induction ops generalizing s with
  | nil => cases hr; rfl
  | cons op ops ih =>
    obtain ⟨s1, h1, h2⟩ := Option.bind_eq_some_iff.1 hr
    rw [ih h2, families_step h1]
    rfl

/-- **C76.** After every history, reading through a Heritable gives the value of its family: what was last written
through any member of it.  Destroying objects as soon as nothing refers to them is never seen. -/
theorem C76_refines (related : K → K → Bool) (ops : List (Op V K)) (s : State V K)
    (hr : run related (empty V K) ops = some s) (h : Nat) :
    s.read h = (ops.foldl Families.step ⟨[], []⟩).read h := by
  rw [← families_read, families_run ops hr]
  rfl

/-- **C76.** A write through a Heritable is read through those that refer to the same object and through no other. -/
theorem C76_write (related : K → K → Bool) (ops : List (Op V K)) (s s' : State V K) (h g : Nat) (v : V)
    (hr : run related (empty V K) ops = some s) (hs : step related s (.write h v) = some s') :
    s'.read g = if s.target g = s.target h then some v else s.read g := by
  simp only [step] at hs
  split at hs
  · rename_i o ho
    cases hs
    have hb : ∀ o', s.target g = some o' → o' < s.objs.length := by
      intro o' ht
      unfold State.target at ht
      split at ht
      · rename_i x hx
        exact (inv_run ops inv_empty hr).bound g x o' hx ht
      · cases ht
    have ht : State.target { s with objs := s.objs.modify o fun x => { x with value := v } } g = s.target g := rfl
    unfold State.read
    rw [ht, ho]
    split
    · rename_i h1
      have := hb o h1
      rw [h1]
      simp [this]
    · rename_i h1
      rcases h2 : s.target g with _ | o'
      · rfl
      · have : o ≠ o' := fun h => h1 (by rw [h2, h])
        simp [List.getElem?_modify, this, Function.comp_def]
  · cases hs

/-- **C76.** A Heritable that refers to an object always finds it there, and an object is there exactly as long as a
Heritable refers to it: no dangling reference and no leak. -/
theorem C76_lifetime (related : K → K → Bool) (ops : List (Op V K)) (s : State V K)
    (hr : run related (empty V K) ops = some s) :
    (∀ h o, s.target h = some o → ∃ x, s.objs[o]? = some x ∧ x.alive = true ∧ s.read h = some x.value) ∧
      ∀ o x, s.objs[o]? = some x → x.alive = true → ∃ h, s.target h = some o := by
  have hi := inv_run ops inv_empty hr
  have hh : ∀ h o, s.target h = some o ↔ ∃ x, s.handles[h]? = some (some x) ∧ x.target = some o := by
    intro h o
    unfold State.target
    rcases s.handles[h]? with _ | (_ | x) <;> simp
  refine ⟨fun h o ht => ?_, fun o x hx ha => ?_⟩
  · obtain ⟨y, hy, hyt⟩ := (hh h o).1 ht
    have hl := hi.bound h y o hy hyt
    have hx := List.getElem?_eq_getElem hl
    refine ⟨s.objs[o], hx, (hi.alive o _ hx).2 ((used_iff _ _).2 ⟨h, y, hy, hyt⟩), ?_⟩
    simp [State.read, ht, hx]
  · obtain ⟨h, y, hy, ht⟩ := (used_iff _ _).1 ((hi.alive o x hx).1 ha)
    exact ⟨h, (hh h o).2 ⟨y, hy, ht⟩⟩

/-- **C76.** Comparing two Heritables compares what they hold, wherever it is stored: the answer is `f a b` exactly if
they hold `a` and `b`; there is an answer unless one of them is empty. -/
theorem C76_compare (related : K → K → Bool) (ops : List (Op V K)) (s : State V K)
    (hr : run related (empty V K) ops = some s) (f : V → V → Bool) (h g : Nat) :
    (∀ r, compare s f h g = some r ↔ ∃ a b, s.read h = some a ∧ s.read g = some b ∧ f a b = r) ∧
      (s.target h ≠ none → s.target g ≠ none → compare s f h g ≠ none) := by
  constructor
  · intro r
    unfold compare
    rcases s.read h with _ | a <;> rcases s.read g with _ | b <;> simp
  · intro h1 h2
    obtain ⟨o, ho⟩ := Option.ne_none_iff_exists'.1 h1
    obtain ⟨p, hp⟩ := Option.ne_none_iff_exists'.1 h2
    obtain ⟨x, -, -, hx⟩ := (C76_lifetime related ops s hr).1 h o ho
    obtain ⟨y, -, -, hy⟩ := (C76_lifetime related ops s hr).1 g p hp
    simp [compare, hx, hy]

/-- Two equal objects, a copy of the first, a write through the copy, then the first Heritable goes: the copy keeps the
object. -/
example : (run (K := Unit) (fun _ _ => true) (empty Nat Unit)
      [.make 5 () (), .make 5 () (), .copy 0 (), .write 2 7]).map (fun s =>
        ((s.read 0, s.read 1, s.read 2), compare s (· == ·) 0 1, compare s (· == ·) 0 2)) =
      some ((some 7, some 5, some 7), some false, some true) ∧
    (run (K := Unit) (fun _ _ => true) (empty Nat Unit)
      [.make 5 () (), .make 6 () (), .copy 0 (), .drop 0, .drop 1]).map (fun s =>
        (s.objs.map Obj.alive, s.read 2)) = some ([true, false], some 5) ∧
    (run (K := Unit) (fun _ _ => true) (empty Nat Unit)
      [.make 5 () (), .move 0 (), .write 0 6]).isNone = true := by
  decide

/-! ### Classes -/

/-- Invariant of classes when every conversion goes to a base class. -/
def Typed (sub : K → K → Bool) (s : State V K) : Prop :=
  ∀ (h : Nat) (x : Handle K) (o : Nat) (y : Obj V K), s.handles[h]? = some (some x) → x.target = some o →
    s.objs[o]? = some y → sub y.cls x.cls = true

theorem typed_mono {sub : K → K → Bool} {s s' : State V K} (hi : Inv s) (ht : Typed sub s)
    (trans : ∀ a b c, sub a b = true → sub b c = true → sub a c = true)
    (hh : ∀ (h : Nat) (x : Handle K) (o : Nat), s'.handles[h]? = some (some x) → x.target = some o →
      ∃ (g : Nat) (y : Handle K), s.handles[g]? = some (some y) ∧ y.target = some o ∧ (y.cls = x.cls ∨ sub y.cls x.cls = true))
    (ho : ∀ (o : Nat) (y : Obj V K), s'.objs[o]? = some y → o < s.objs.length →
      ∃ z : Obj V K, s.objs[o]? = some z ∧ z.cls = y.cls) : Typed sub s' := by
  intro h x o y hx hxt hy
  obtain ⟨g, w, hw, hwt, hc⟩ := hh h x o hx hxt
  obtain ⟨z, hz, hzc⟩ := ho o y hy (hi.bound g w o hw hwt)
  have := ht g w o z hw hwt hz
  rw [hzc] at this
  rcases hc with hc | hc
  · rwa [← hc]
  · exact trans _ _ _ this hc

theorem typed_step {sub : K → K → Bool} {s s' : State V K} {op : Op V K} (hi : Inv s) (ht : Typed sub s)
    (trans : ∀ a b c, sub a b = true → sub b c = true → sub a c = true)
    (hs : step sub s op = some s') : Typed sub s' := by
  have same : ∀ (o : Nat) (y : Obj V K), s.objs[o]? = some y → o < s.objs.length →
      ∃ z : Obj V K, s.objs[o]? = some z ∧ z.cls = y.cls := fun o y hy _ => ⟨y, hy, rfl⟩
  have coll : ∀ (hs : List (Option (Handle K))) (o : Nat) (y : Obj V K),
      (State.collect { s with handles := hs }).objs[o]? = some y → o < s.objs.length →
      ∃ z : Obj V K, s.objs[o]? = some z ∧ z.cls = y.cls := by
    intro hs o y hy _
    rw [collect_obj] at hy
    obtain ⟨z, hz, rfl⟩ := Option.map_eq_some_iff.1 hy
    exact ⟨z, hz, rfl⟩
  cases op <;> simp only [step] at hs
  case make v d k =>
    split at hs
    · rename_i hr
      cases hs
      intro h x o y hx hxt hy
      have hx : (s.handles ++ [some ⟨k, some s.objs.length⟩])[h]? = some (some x) := hx
      have hy : (s.objs ++ [⟨v, d, true⟩])[o]? = some y := hy
      rw [List.getElem?_append] at hx
      split at hx
      · have hl := hi.bound h x o hx hxt
        rw [List.getElem?_append_left hl] at hy
        exact ht h x o y hx hxt hy
      · rw [List.getElem?_singleton] at hx
        split at hx
        · cases hx
          cases hxt
          rw [List.getElem?_append_right (Nat.le_refl _)] at hy
          simp only [Nat.sub_self, List.getElem?_cons_zero] at hy
          cases hy
          exact hr
        · cases hx
    · cases hs
  case null k =>
    cases hs
    refine typed_mono hi ht trans ?_ same
    intro h x o hx hxt
    have hx : (s.handles ++ [some ⟨k, none⟩])[h]? = some (some x) := hx
    rw [List.getElem?_append] at hx
    split at hx
    · exact ⟨h, x, hx, hxt, Or.inl rfl⟩
    · rw [List.getElem?_singleton] at hx
      split at hx
      · cases hx; cases hxt
      · cases hx
  case copy h k =>
    split at hs
    · rename_i w hw
      split at hs
      · rename_i hr
        cases hs
        refine typed_mono hi ht trans ?_ same
        intro g x o hx hxt
        have hx : (s.handles ++ [some ⟨k, w.target⟩])[g]? = some (some x) := hx
        rw [List.getElem?_append] at hx
        split at hx
        · exact ⟨g, x, hx, hxt, Or.inl rfl⟩
        · rw [List.getElem?_singleton] at hx
          split at hx
          · cases hx; exact ⟨h, w, hw, hxt, Or.inr hr⟩
          · cases hx
      · cases hs
    · cases hs
  case move h k =>
    split at hs
    · rename_i w hw
      split at hs
      · rename_i hr
        cases hs
        refine typed_mono hi ht trans ?_ same
        intro g x o hx hxt
        have hx : (s.handles.set h (some { w with target := none }) ++ [some ⟨k, w.target⟩])[g]? = some (some x) := hx
        rw [List.getElem?_append] at hx
        split at hx
        · by_cases hg : h = g
          · subst hg
            rw [List.getElem?_set_self (List.getElem?_eq_some_iff.1 hw).1] at hx
            cases hx
            cases hxt
          · rw [List.getElem?_set_ne hg] at hx
            exact ⟨g, x, hx, hxt, Or.inl rfl⟩
        · rw [List.getElem?_singleton] at hx
          split at hx
          · cases hx; exact ⟨h, w, hw, hxt, Or.inr hr⟩
          · cases hx
      · cases hs
    · cases hs
  case assign h g =>
    split at hs
    · rename_i w z hw hz
      split at hs
      · rename_i hr
        cases hs
        refine typed_mono hi ht trans ?_ (coll _)
        intro j x o hx hxt
        have hx : (s.handles.set h (some { w with target := z.target }))[j]? = some (some x) := hx
        by_cases hj : h = j
        · subst hj
          rw [List.getElem?_set_self (List.getElem?_eq_some_iff.1 hw).1] at hx
          cases hx
          exact ⟨g, z, hz, hxt, Or.inr hr⟩
        · rw [List.getElem?_set_ne hj] at hx
          exact ⟨j, x, hx, hxt, Or.inl rfl⟩
      · cases hs
    · cases hs
  case moveAssign h g =>
    split at hs
    · rename_i w z hw hz
      split at hs
      · rename_i hr
        split at hs
        · cases hs; exact ht
        · cases hs
          refine typed_mono hi ht trans ?_ (coll _)
          intro j x o hx hxt
          have hx : ((s.handles.set g (some { z with target := none })).set h
            (some { w with target := z.target }))[j]? = some (some x) := hx
          by_cases hj : h = j
          · subst hj
            rw [List.getElem?_set_self (by simpa using (List.getElem?_eq_some_iff.1 hw).1)] at hx
            cases hx
            exact ⟨g, z, hz, hxt, Or.inr hr⟩
          · rw [List.getElem?_set_ne hj] at hx
            by_cases hj' : g = j
            · subst hj'
              rw [List.getElem?_set_self (List.getElem?_eq_some_iff.1 hz).1] at hx
              cases hx
              cases hxt
            · rw [List.getElem?_set_ne hj'] at hx
              exact ⟨j, x, hx, hxt, Or.inl rfl⟩
      · cases hs
    · cases hs
  case write h v =>
    split at hs
    · rename_i o ho
      cases hs
      refine typed_mono hi ht trans (fun g x o hx hxt => ⟨g, x, hx, hxt, Or.inl rfl⟩) ?_
      intro o' y hy _
      have hy : (s.objs.modify o _)[o']? = some y := hy
      rw [List.getElem?_modify] at hy
      obtain ⟨z, hz, rfl⟩ := Option.map_eq_some_iff.1 hy
      refine ⟨z, hz, ?_⟩
      split <;> rfl
    · cases hs
  case drop h =>
    split at hs
    · cases hs
      refine typed_mono hi ht trans ?_ (coll _)
      intro j x o hx hxt
      have hx : (s.handles.set h none)[j]? = some (some x) := hx
      rw [List.getElem?_set] at hx
      split at hx
      · split at hx <;> cases hx
      · exact ⟨j, x, hx, hxt, Or.inl rfl⟩
    · cases hs

theorem typed_run {sub : K → K → Bool} (trans : ∀ a b c, sub a b = true → sub b c = true → sub a c = true)
    (ops : List (Op V K)) {s s' : State V K} (hi : Inv s) (ht : Typed sub s) (hr : run sub s ops = some s') :
    Typed sub s' := by
  induction ops generalizing s with
  | nil => cases hr; exact ht
  | cons op ops ih =>
    obtain ⟨s1, h1, h2⟩ := Option.bind_eq_some_iff.1 hr
    exact ih (inv_step hi h1) (typed_step hi ht trans h1) h2

/-- **C94, partial.** As long as every conversion goes from a class to itself or a base of it, the object of a
`Heritable<T>` is a `T`, so casting it to `T` or a base of `T` succeeds.  Missing: the other conversions that
compile. -/
theorem C94_class_partial (sub : K → K → Bool)
    (trans : ∀ a b c, sub a b = true → sub b c = true → sub a c = true)
    (ops : List (Op V K)) (s : State V K) (hr : run sub (empty V K) ops = some s)
    (h : Nat) (x : Handle K) (o : Nat) (hx : s.handles[h]? = some (some x)) (hxt : x.target = some o) (k : K)
    (hk : sub x.cls k = true) : canCast sub s h k = some true := by
  have hl := (inv_run ops inv_empty hr).bound h x o hx hxt
  have hy := List.getElem?_eq_getElem hl
  have := typed_run trans ops inv_empty nofun hr h x o _ hx hxt hy
  have ht : s.target h = some o := by rw [State.target, hx]; exact hxt
  simp [canCast, ht, hy, trans _ _ _ this hk]

/-- A class and one derived from it (`true` derives from `false`). -/
def derives (a b : Bool) : Bool := a || !b

/-- `static_cast` goes both ways between them. -/
def castable (a b : Bool) : Bool := derives a b || derives b a

/-- **C94, negation.** A `Heritable<Base>` made with a `Base` can be copied to a `Heritable<Derived>`, and a
`Heritable<Derived>` can be made with a pointer to a `Base`: both compile (`static_pointer_cast` and `static_cast`), no
check is made, and the result refers to an object that is not a `Derived`. -/
theorem C94_negation :
    (∃ s : State Nat Bool, run castable (empty Nat Bool) [.make 5 false false, .copy 0 true] = some s ∧
      (s.handles[1]?.map (·.map Handle.cls)) = some (some true) ∧ canCast derives s 1 true = some false) ∧
    ∃ s : State Nat Bool, run castable (empty Nat Bool) [.make 5 false true] = some s ∧
      (s.handles[0]?.map (·.map Handle.cls)) = some (some true) ∧ canCast derives s 0 true = some false :=
  ⟨⟨_, rfl, rfl, rfl⟩, ⟨_, rfl, rfl, rfl⟩⟩

/-- A derived object seen through its base class. -/
example : (run derives (empty Nat Bool) [.make 5 true true, .copy 0 false]).map (fun s =>
    (canCast derives s 1 false, canCast derives s 1 true)) = some (some true, some true) := by decide

end Verif.Heritable
