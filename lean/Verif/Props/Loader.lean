import Verif.Model.Loader

/-!
C193: a project may ask for cmake_utils as often and wherever it wants.
-/
namespace Verif.Loader

/-- Both guards are set together. -/
def Frame.Even (f : Frame) : Prop := f.configIncluded = f.included

/-- An invariant of all scopes of a project. -/
def All (P : Frame → Prop) (s : Frame × List Frame) : Prop := P s.1 ∧ ∀ g ∈ s.2, P g

theorem All.step {P : Frame → Prop} {Q : Cmd → Prop} {data : Str}
    (hf : ∀ f, P f → Q .find → ∃ g, find data f = some g ∧ P g)
    (ha : ∀ f d, P f → Q (.append d) → P { f with modulePath := f.modulePath ++ [d] })
    (hs : ∀ f ds, P f → Q (.assign ds) → P { f with modulePath := ds })
    (hb : ∀ f b, P f → Q (.setFound b) → P { f with found := b })
    {s : Frame × List Frame} (h : All P s) (c : Cmd) (hc : Q c) :
    ∃ t, Loader.step data s c = some t ∧ All P t := by
  obtain ⟨f, up⟩ := s
  obtain ⟨h1, h2⟩ := h
  cases c with
  | find =>
    obtain ⟨g, hg, hp⟩ := hf f h1 hc
    exact ⟨(g, up), by simp [Loader.step, hg], hp, h2⟩
  | append d => exact ⟨_, rfl, ha f d h1 hc, h2⟩
  | assign ds => exact ⟨_, rfl, hs f ds h1 hc, h2⟩
  | setFound b => exact ⟨_, rfl, hb f b h1 hc, h2⟩
  | enter =>
    refine ⟨_, rfl, h1, ?_⟩
    intro g hg
    rcases List.mem_cons.1 hg with rfl | hg
    · exact h1
    · exact h2 g hg
  | leave =>
    cases up with
    | nil => exact ⟨_, rfl, h1, h2⟩
    | cons g up => exact ⟨_, rfl, h2 g (by simp), fun x hx => h2 x (by simp [hx])⟩

theorem All.run {P : Frame → Prop} {Q : Cmd → Prop} {data : Str}
    (hf : ∀ f, P f → Q .find → ∃ g, find data f = some g ∧ P g)
    (ha : ∀ f d, P f → Q (.append d) → P { f with modulePath := f.modulePath ++ [d] })
    (hs : ∀ f ds, P f → Q (.assign ds) → P { f with modulePath := ds })
    (hb : ∀ f b, P f → Q (.setFound b) → P { f with found := b })
    (cs : List Cmd) (hq : ∀ c ∈ cs, Q c) {s : Frame × List Frame} (h : All P s) :
    ∃ t, Loader.run data s cs = some t ∧ All P t := by
  induction cs generalizing s with
  | nil => exact ⟨s, rfl, h⟩
  | cons c cs ih =>
    obtain ⟨t, ht, hp⟩ := All.step hf ha hs hb h c (hq c (by simp))
    obtain ⟨u, hu, hpu⟩ := ih (fun c hc => hq c (by simp [hc])) hp
    exact ⟨u, by simp [Loader.run, ht, hu], hpu⟩

theorem run_append (data : Str) (s : Frame × List Frame) (cs ds : List Cmd) :
    run data s (cs ++ ds) = (run data s cs).bind fun t => run data t ds := by
  induction cs generalizing s with
  | nil => rfl
  | cons c cs ih =>
    simp only [List.cons_append, run]
    cases h : step data s c with
    | none => rfl
    | some t => exact ih t

/-- What a scope looks like after `find_package`, if the guards were even. -/
theorem find_even (data : Str) (f : Frame) (h : f.configIncluded = f.included) :
    ∃ g, find data f = some g ∧ g.configIncluded = true ∧ g.included = true ∧
      (f.included = true → g.modulePath = f.modulePath ∧ g.configTemplates = f.configTemplates ∧
        g.headerTemplates = f.headerTemplates ∧ g.found = some (decide (f.found = some true))) ∧
      (f.included = false → g.found = some true ∧ g.modulePath = f.modulePath ++ [data ++ c!"/cmake_utils/modules"] ∧
        g.configTemplates = some (data ++ c!"/cmake_utils/templates/cmake/packaging") ∧
        g.headerTemplates = some (data ++ c!"/cmake_utils/templates/cpp/library")) := by
  obtain ⟨a, b, fo, mp, ct, ht⟩ := f
  simp only at h
  subst h
  cases a <;> rcases fo with _ | _ | _ <;> simp [find, config, loadAll]

/-- C193: wherever a project asks for the package and however often, in functions and directories, it never stops with the error
"included multiple times". -/
theorem C193_never_stops (data : Str) (cs : List Cmd) : ∃ t, run data ({}, []) cs = some t := by
  obtain ⟨t, ht, _⟩ := All.run (P := Frame.Even) (Q := fun _ => True) (data := data)
    (fun f h _ => by
      obtain ⟨g, hg, h1, h2, _⟩ := find_even data f h
      exact ⟨g, hg, by simp [Frame.Even, h1, h2]⟩)
    (fun f d h _ => h) (fun f ds h _ => h) (fun f b h _ => h) cs (fun _ _ => trivial) (s := ({}, []))
    ⟨rfl, by simp⟩
  exact ⟨t, ht⟩

/-- Asked for in a function, again in it, in a directory and again outside: no error. -/
example : run c!"/usr/share" ({}, []) [.enter, .find, .find, .leave, .enter, .find, .enter, .find, .leave, .leave, .find, .find]
    ≠ none := by decide

/-- The guard of `load_all.cmake` alone would stop a project that asks twice. -/
example : (loadAll c!"/usr/share" {}).bind (loadAll c!"/usr/share") = none := by decide

/-- C193: after `find_package(cmake_utils)` the places of the templates, which `compile_library` and the generated headers need,
are set in that scope, whatever was done before. -/
theorem C193_templates (data : Str) (cs : List Cmd) :
    ∃ t, run data ({}, []) (cs ++ [.find]) = some t ∧
      t.1.configTemplates = some (data ++ c!"/cmake_utils/templates/cmake/packaging") ∧
      t.1.headerTemplates = some (data ++ c!"/cmake_utils/templates/cpp/library") := by
  let P : Frame → Prop := fun f => f.configIncluded = f.included ∧ (f.included = true →
    f.configTemplates = some (data ++ c!"/cmake_utils/templates/cmake/packaging") ∧
    f.headerTemplates = some (data ++ c!"/cmake_utils/templates/cpp/library"))
  have hfind : ∀ f, P f → ∃ g, find data f = some g ∧ P g ∧ g.included = true := by
    intro f h
    obtain ⟨g, hg, h1, h2, h3, h4⟩ := find_even data f h.1
    refine ⟨g, hg, ⟨by simp [h1, h2], fun _ => ?_⟩, h2⟩
    cases hi : f.included with
    | true =>
      obtain ⟨_, a, b, _⟩ := h3 hi
      obtain ⟨c, d⟩ := h.2 hi
      exact ⟨a.trans c, b.trans d⟩
    | false => exact ⟨(h4 hi).2.2.1, (h4 hi).2.2.2⟩
  obtain ⟨t, ht, hp⟩ := All.run (P := P) (Q := fun _ => True) (data := data)
    (fun f h _ => (hfind f h).imp fun g hg => ⟨hg.1, hg.2.1⟩)
    (fun f d h _ => h) (fun f ds h _ => h) (fun f b h _ => h) cs (fun _ _ => trivial) (s := ({}, []))
    ⟨⟨rfl, by simp⟩, by simp⟩
  obtain ⟨g, hg, hpg, hi⟩ := hfind t.1 hp.1
  refine ⟨(g, t.2), ?_, hpg.2 hi⟩
  rw [run_append, ht]
  simp [run, step, hg]

example : (run c!"/usr/share" ({}, []) [.enter, .find, .leave, .setFound none, .find]).map (fun t => t.1.configTemplates) =
    some (some c!"/usr/share/cmake_utils/templates/cmake/packaging") := by decide

/-- Every function and directory that is begun is ended as well, and no other. -/
inductive Closed : List Cmd → Prop
  | nil : Closed []
  | plain {c : Cmd} {cs : List Cmd} : c ≠ .enter → c ≠ .leave → Closed cs → Closed (c :: cs)
  | scope {cs ds : List Cmd} : Closed cs → Closed ds → Closed (.enter :: (cs ++ .leave :: ds))

theorem Closed.up {data : Str} {cs : List Cmd} (hcs : Closed cs) :
    ∀ {s u : Frame × List Frame}, run data s cs = some u → u.2 = s.2 := by
  induction hcs with
  | nil => intro s u h; simp [run] at h; rw [h]
  | @plain c cs h1 h2 _ ih =>
    intro s u h
    simp only [run] at h
    cases hstep : step data s c with
    | none => rw [hstep] at h; cases h
    | some v =>
      rw [hstep] at h
      rw [ih h]
      obtain ⟨f, up⟩ := s
      cases c with
      | find =>
        simp only [step, Option.map_eq_some_iff] at hstep
        obtain ⟨g, _, rfl⟩ := hstep; rfl
      | append d => simp only [step, Option.some.injEq] at hstep; rw [← hstep]
      | assign d => simp only [step, Option.some.injEq] at hstep; rw [← hstep]
      | setFound d => simp only [step, Option.some.injEq] at hstep; rw [← hstep]
      | enter => exact absurd rfl h1
      | leave => exact absurd rfl h2
  | @scope cs ds _ _ ih1 ih2 =>
    intro s u h
    obtain ⟨f, up⟩ := s
    simp only [run, step, run_append] at h
    cases hr : run data (f, f :: up) cs with
    | none => rw [hr] at h; cases h
    | some v =>
      have h2 := ih1 hr
      obtain ⟨v1, v2⟩ := v
      simp only at h2
      subst h2
      rw [hr] at h
      simp only [Option.bind_some, run, step] at h
      exact ih2 h

/-- C193: a scope that was left is as it was: what a function or a directory asked for is not seen outside. -/
theorem C193_scope (data : Str) (f : Frame) (up : List Frame) (cs : List Cmd) (hcs : Closed cs)
    (t : Frame × List Frame) (h : run data (f, up) ([.enter] ++ cs ++ [.leave]) = some t) : t = (f, up) := by
  rw [List.append_assoc, run_append] at h
  simp only [run, step, Option.bind_some] at h
  rw [run_append] at h
  cases hr : run data (f, f :: up) cs with
  | none => rw [hr] at h; cases h
  | some v =>
    rw [hr] at h
    have h2 := hcs.up hr
    obtain ⟨v1, v2⟩ := v
    simp only at h2
    subst h2
    simpa [run, step, eq_comm] using h

example : Closed [.find, .enter, .find, .leave, .append c!"x"] :=
  .plain (by decide) (by decide) (.scope (.plain (by decide) (by decide) .nil) (.plain (by decide) (by decide) .nil))

example : run c!"/usr/share" ({}, []) ([.enter] ++ [.find, .enter, .find, .leave, .append c!"x"] ++ [.leave]) =
    some ({}, []) := by decide

/-- C193, the result: the package is found each time and its directory of modules is in `CMAKE_MODULE_PATH` exactly once.
The full claim allows the project to assign `CMAKE_MODULE_PATH` and `cmake_utils_FOUND` in between, see the negations. -/
theorem C193_found_partial (data : Str) (cs : List Cmd)
    (ha : ∀ ds, Cmd.assign ds ∉ cs) (hb : ∀ b, Cmd.setFound b ∉ cs)
    (hd : Cmd.append (data ++ c!"/cmake_utils/modules") ∉ cs) :
    ∃ t, run data ({}, []) (cs ++ [.find]) = some t ∧ t.1.found = some true ∧
      t.1.modulePath.count (data ++ c!"/cmake_utils/modules") = 1 := by
  let P : Frame → Prop := fun f => f.configIncluded = f.included ∧
    (f.included = true → f.found = some true) ∧
    f.modulePath.count (data ++ c!"/cmake_utils/modules") = if f.included then 1 else 0
  have hfind : ∀ f, P f → ∃ g, find data f = some g ∧ P g ∧ g.included = true := by
    intro f h
    obtain ⟨g, hg, h1, h2, h3, h4⟩ := find_even data f h.1
    refine ⟨g, hg, ?_, h2⟩
    have hP : g.found = some true ∧ g.modulePath.count (data ++ c!"/cmake_utils/modules") = 1 := by
      cases hi : f.included with
      | true =>
        obtain ⟨a, _, _, b⟩ := h3 hi
        rw [a, b, h.2.1 hi, h.2.2, hi]
        simp
      | false =>
        obtain ⟨a, b, _⟩ := h4 hi
        rw [a, b, List.count_append, h.2.2, hi]
        simp
    exact ⟨by simp [h1, h2], fun _ => hP.1, by rw [hP.2, h2]; simp⟩
  let Q : Cmd → Prop := fun c => (∀ ds, c ≠ .assign ds) ∧ (∀ b, c ≠ .setFound b) ∧
    c ≠ .append (data ++ c!"/cmake_utils/modules")
  obtain ⟨t, ht, hp⟩ := All.run (P := P) (Q := Q) (data := data)
    (fun f h _ => (hfind f h).imp fun g hg => ⟨hg.1, hg.2.1⟩)
    (fun f d h hq => ⟨h.1, h.2.1, by
      have : d ≠ data ++ c!"/cmake_utils/modules" := fun e => hq.2.2 (by rw [e])
      show (f.modulePath ++ [d]).count _ = _
      rw [List.count_append, h.2.2, List.count_singleton]
      simp [this]⟩)
    (fun f ds h hq => absurd rfl (hq.1 ds))
    (fun f b h hq => absurd rfl (hq.2.1 b)) cs
    (fun c hc => ⟨fun ds e => ha ds (e ▸ hc), fun b e => hb b (e ▸ hc), fun e => hd (e ▸ hc)⟩) (s := ({}, []))
    ⟨⟨rfl, by simp, by simp⟩, by simp⟩
  obtain ⟨g, hg, hpg, hi⟩ := hfind t.1 hp.1
  refine ⟨(g, t.2), ?_, hpg.2.1 hi, ?_⟩
  · rw [run_append, ht]
    simp [run, step, hg]
  · have := hpg.2.2
    rw [hi] at this
    simpa using this

example : (run c!"/d" ({}, []) [.append c!"a", .find, .enter, .append c!"b", .find]).map (fun t => (t.1.found, t.1.modulePath)) =
    some (some true, [c!"a", c!"/d/cmake_utils/modules", c!"b"]) := by decide

/-- C193 is false, for every installation and every list that does not name the directory itself: once a scope has the package,
`set(CMAKE_MODULE_PATH …)` takes the modules away and asking again does not bring them back. -/
theorem C193_negation_path (data : Str) (dirs : List Str) (h : data ++ c!"/cmake_utils/modules" ∉ dirs) (n : Nat) :
    ∃ t, run data ({}, []) ([.find, .assign dirs] ++ List.replicate n .find) = some t ∧ t.1.found = some true ∧
      data ++ c!"/cmake_utils/modules" ∉ t.1.modulePath := by
  have again : ∀ (n : Nat) (f : Frame), f.configIncluded = true → f.found = some true →
      run data (f, []) (List.replicate n .find) = some (f, []) := by
    intro n
    induction n with
    | zero => intro f _ _; rfl
    | succ n ih =>
      intro f h1 h2
      have : find data f = some f := by
        obtain ⟨a, b, fo, mp, ct, ht⟩ := f
        simp only at h1 h2
        subst h1; subst h2
        simp [find, config]
      simp [List.replicate_succ, run, step, this, ih f h1 h2]
  rw [run_append]
  simp only [run, step, find, config, loadAll]
  simp only [Bool.false_eq_true, if_false, Option.map_some, Option.bind_some]
  rw [again n _ rfl (by simp)]
  exact ⟨_, rfl, by simp, h⟩

example : c!"/usr/share" ++ c!"/cmake_utils/modules" ∉ [c!"cmake"] := by decide

/-- C193 is false for `cmake_utils_FOUND` too: once the scope has the package, if the variable is unset or made false then
the package is not found again, although it is there and loaded. -/
theorem C193_negation_found (data : Str) (b : Option Bool) (hb : b ≠ some true) (n : Nat) :
    ∃ t, run data ({}, []) ([.find, .setFound b] ++ List.replicate (n + 1) .find) = some t ∧ t.1.found = some false ∧
      t.1.included = true := by
  have again : ∀ (n : Nat) (f : Frame), f.configIncluded = true → f.found ≠ some true →
      run data (f, []) (List.replicate (n + 1) .find) = some ({ f with found := some false }, []) := by
    intro n
    induction n with
    | zero =>
      intro f h1 h2
      obtain ⟨a, b, fo, mp, ct, ht⟩ := f
      simp only at h1 h2
      subst h1
      rcases fo with _ | _ | _ <;> simp_all [run, step, find, config]
    | succ n ih =>
      intro f h1 h2
      have : find data f = some { f with found := some false } := by
        obtain ⟨a, b, fo, mp, ct, ht⟩ := f
        simp only at h1 h2
        subst h1
        rcases fo with _ | _ | _ <;> simp_all [find, config]
      have h3 := ih { f with found := some false } h1 (by simp)
      rw [List.replicate_succ, run]
      simp only [step, this, Option.map_some]
      rw [h3]
  rw [run_append]
  simp only [run, step, find, config, loadAll]
  simp only [Bool.false_eq_true, if_false, Option.map_some, Option.bind_some]
  rw [again n _ rfl hb]
  exact ⟨_, rfl, rfl, rfl⟩

example : (none : Option Bool) ≠ some true := by decide

end Verif.Loader
