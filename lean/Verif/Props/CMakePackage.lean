import Verif.Model.CMakePackage
import Verif.Props.CMakeInstall
import Verif.Props.CMakeFind
/-!
C192: modules that are installed below one prefix keep their files apart, and a package has all of them.
-/
namespace Verif.CMake

/-- The settings of the README and of `set_installation_paths` on Linux, without resources; the version consists of digits and
points. -/
structure Usual (d : Delivery) : Prop where
  plain : '/' ∉ d.package.name
  named : d.package.name ≠ []
  headers : d.package.headersPath = d.package.name
  headersInstalled : parts d.package.headersInstallPath = [d.package.name]
  includeDir : parts d.package.includeDir = [c!"include"]
  libDir : parts d.libDir = [c!"lib"]
  licenseDir : parts d.licenseDir = [c!"share", d.package.name]
  resources : d.resources = none
  version : ∀ c ∈ d.version, c ∈ c!"0123456789."
  major : ∀ c ∈ d.major, c ∈ c!"0123456789."

private theorem delivered_cases {d : Delivery} (h : Usual d) {k : Str} {p : List Str} (hp : (k, p) ∈ deliveredFiles d) :
    (k = c!"headers" ∧ ∃ r, p = c!"include" :: d.package.name :: r) ∨
    (k = c!"Unspecified" ∧ ∃ f ∈ libraryFiles d, p = [c!"lib", f]) ∨
    (k = c!"cmake" ∧ ∃ x, p = [c!"lib", c!"cmake", d.package.name, x]) ∨
    (k = c!"licenses" ∧ p = [c!"share", d.package.name, d.license]) := by
  have hl : d.package.name.getLast? ≠ some '/' := fun e => h.plain (List.mem_of_getLast? e)
  simp only [deliveredFiles, List.mem_append, List.mem_map, List.mem_singleton, Prod.mk.injEq, resourceFiles, h.resources,
    List.not_mem_nil, false_and, exists_false, or_false] at hp
  rcases hp with (((⟨q, hq, rfl, rfl⟩ | ⟨q, hq, rfl, rfl⟩) | ⟨q, hq, rfl, rfl⟩) | ⟨q, hq, rfl, rfl⟩) | ⟨rfl, rfl⟩
  · left
    refine ⟨rfl, ?_⟩
    simp only [installedTree, List.mem_map] at hq
    obtain ⟨f, -, rfl⟩ := hq
    rw [h.headers, installedAt, if_neg hl, h.includeDir, parts_name h.plain h.named]
    exact ⟨_, rfl⟩
  · left
    refine ⟨rfl, ?_⟩
    simp only [installedConfig, List.mem_map] at hq
    obtain ⟨x, -, rfl⟩ := hq
    rw [h.includeDir, h.headersInstalled]
    exact ⟨_, rfl⟩
  · right; left
    exact ⟨rfl, q, hq, by rw [h.libDir]; rfl⟩
  · right; right; left
    refine ⟨rfl, ?_⟩
    simp only [packageFiles, List.mem_map] at hq
    obtain ⟨x, -, rfl⟩ := hq
    rw [h.libDir, parts_name h.plain h.named]
    exact ⟨_, rfl⟩
  · right; right; right
    exact ⟨rfl, by rw [h.licenseDir]; rfl⟩

private theorem last_o : ∀ (a b x y : Str), 'o' ∉ x → 'o' ∉ y → a ++ 'o' :: x = b ++ 'o' :: y → a = b
  | [], [], _, _, _, _, _ => rfl
  | [], c :: b, x, y, hx, _, h => by
    simp only [List.nil_append, List.cons_append, List.cons.injEq] at h
    exact absurd (by rw [h.2]; simp) hx
  | c :: a, [], x, y, _, hy, h => by
    simp only [List.nil_append, List.cons_append, List.cons.injEq] at h
    exact absurd (by rw [← h.2]; simp) hy
  | c :: a, d :: b, x, y, hx, hy, h => by
    simp only [List.cons_append, List.cons.injEq] at h
    rw [h.1, last_o a b x y hx hy h.2]

private theorem library_form {d : Delivery} (h : Usual d) {f : Str} (hf : f ∈ libraryFiles d) :
    ∃ x, 'o' ∉ x ∧ f = (c!"lib" ++ d.package.name ++ c!".s") ++ 'o' :: x := by
  simp only [libraryFiles, List.mem_cons, List.not_mem_nil, or_false] at hf
  rcases hf with rfl | rfl | rfl
  · exact ⟨[], by simp, by simp⟩
  · refine ⟨'.' :: d.major, ?_, by simp⟩
    intro hm
    rcases List.mem_cons.1 hm with hm | hm
    · exact absurd hm (by decide)
    · exact absurd (h.major _ hm) (by decide)
  · refine ⟨'.' :: d.version, ?_, by simp⟩
    intro hm
    rcases List.mem_cons.1 hm with hm | hm
    · exact absurd hm (by decide)
    · exact absurd (h.version _ hm) (by decide)

/-- C192, in part: with the usual settings, modules with different names have no installed file in common.  Missing: resources,
see `C192_negation_resources`, and the licence on Windows, see `C192_negation_license`. -/
theorem C192_apart_partial (d d' : Delivery) (h : Usual d) (h' : Usual d') (hn : d.package.name ≠ d'.package.name)
    (k k' : Str) (p : List Str) (hp : (k, p) ∈ deliveredFiles d) : (k', p) ∉ deliveredFiles d' := by
  intro hp'
  rcases delivered_cases h hp with ⟨-, r, rfl⟩ | ⟨-, f, hf, rfl⟩ | ⟨-, x, rfl⟩ | ⟨-, rfl⟩ <;>
    rcases delivered_cases h' hp' with ⟨-, r', e⟩ | ⟨-, f', hf', e⟩ | ⟨-, x', e⟩ | ⟨-, e⟩
  all_goals try (simp at e; done)
  · exact hn (by simp at e; exact e.1)
  · have e : f = f' := by simpa using e
    obtain ⟨x, hx, rfl⟩ := library_form h hf
    obtain ⟨y, hy, e'⟩ := library_form h' hf'
    have := last_o _ _ _ _ hx hy (e.trans e')
    exact hn (by simpa using this)
  · exact hn (by simp at e; exact e.1)
  · exact hn (by simp at e; exact e.1)

/-- Two modules with the usual settings. -/
private def exUtils : Delivery :=
  ⟨⟨c!"cpp_utils", c!"cpp_utils", c!"cpp_utils", c!"include/"⟩, c!"1.5.1", c!"1", c!"lib/", c!"share/", c!"share//cpp_utils",
    c!"LICENSE", [[c!"cpp_utils", c!"math.hpp"]], none, c!"release"⟩
private def exPipe : Delivery :=
  ⟨⟨c!"ddspipe", c!"ddspipe", c!"ddspipe", c!"include/"⟩, c!"0.4.1", c!"0", c!"lib/", c!"share/", c!"share//ddspipe",
    c!"LICENSE", [[c!"ddspipe", c!"math.hpp"]], none, c!"release"⟩
private theorem exUtils_usual : Usual exUtils :=
  ⟨by decide, by decide, rfl, by decide, by decide, by decide, by decide, rfl, by decide, by decide⟩
private theorem exPipe_usual : Usual exPipe :=
  ⟨by decide, by decide, rfl, by decide, by decide, by decide, by decide, rfl, by decide, by decide⟩

example : (c!"headers", [c!"include", c!"cpp_utils", c!"library", c!"config.h"]) ∉ deliveredFiles exPipe :=
  C192_apart_partial exUtils exPipe exUtils_usual exPipe_usual (by decide) c!"headers" c!"headers" _ (by decide)

/-- C192 is false for resources: modules that have a resource of the same name in their resources install it as the same file. -/
theorem C192_negation_resources (d d' : Delivery) (l l' : List (List Str)) (f : List Str) (h : d.resources = some l)
    (h' : d'.resources = some l') (hf : f ∈ l) (hf' : f ∈ l') (hd : d.dataDir = d'.dataDir) :
    ∃ p, (c!"Unspecified", p) ∈ deliveredFiles d ∧ (c!"Unspecified", p) ∈ deliveredFiles d' := by
  refine ⟨parts d.dataDir ++ [c!"resources"] ++ f, ?_, ?_⟩
  · simp only [deliveredFiles, List.mem_append, List.mem_map]
    exact Or.inr ⟨_, by rw [resourceFiles, h]; exact List.mem_map_of_mem hf, rfl⟩
  · simp only [deliveredFiles, List.mem_append, List.mem_map]
    exact Or.inr ⟨_, by rw [resourceFiles, h', hd]; exact List.mem_map_of_mem hf', rfl⟩

example : ∃ p, (c!"Unspecified", p) ∈ deliveredFiles { exUtils with resources := some [[c!"configurations", c!"default.yaml"]] } ∧
    (c!"Unspecified", p) ∈ deliveredFiles { exPipe with resources := some [[c!"configurations", c!"default.yaml"]] } :=
  C192_negation_resources _ _ _ _ [c!"configurations", c!"default.yaml"] rfl rfl (by simp) (by simp) rfl

/-- C192 is false for the licence on Windows, where the directory is the prefix itself for every module: with the directories of
`set_installation_paths`, two modules that both have the default `../LICENSE` install it as the same file. -/
theorem C192_negation_license (e e' : Env) (d d' : Delivery)
    (he : ∀ x ∈ [c!"MODULE_LICENSE_INSTALL_DIR", c!"MODULE_DATA_INSTALL_DIR"],
      Missing e x ∧ e.cache x = none ∧ Missing e' x ∧ e'.cache x = none)
    (hn : e.get c!"MODULE_NAME" = some d.package.name) (hn' : e'.get c!"MODULE_NAME" = some d'.package.name)
    (ho : OneWord d.package.name) (ho' : OneWord d'.package.name)
    (h : (installPaths true e).get c!"LICENSE_INSTALL_DIR" = some d.licenseDir)
    (h' : (installPaths true e').get c!"LICENSE_INSTALL_DIR" = some d'.licenseDir) (hl : d.license = d'.license) :
    ∃ p, (c!"licenses", p) ∈ deliveredFiles d ∧ (c!"licenses", p) ∈ deliveredFiles d' := by
  obtain ⟨m, c, m', c'⟩ := he c!"MODULE_LICENSE_INSTALL_DIR" (by simp)
  obtain ⟨md, cd, md', cd'⟩ := he c!"MODULE_DATA_INSTALL_DIR" (by simp)
  have hw : OneWord c!"share/" := by constructor <;> decide
  have g := (C133_directories_partial true e).2.2 m c _ _
    ((C133_directories_partial true e).2.1 _ _ c!"DATA_INSTALL_DIR" (by decide) md cd).1 hw hn ho
  have g' := (C133_directories_partial true e').2.2 m' c' _ _
    ((C133_directories_partial true e').2.1 _ _ c!"DATA_INSTALL_DIR" (by decide) md' cd').1 hw hn' ho'
  rw [g, if_pos rfl, Option.some.injEq] at h
  rw [g', if_pos rfl, Option.some.injEq] at h'
  refine ⟨parts c!"." ++ [d.license], ?_, ?_⟩
  · simp [deliveredFiles, ← h]
  · simp [deliveredFiles, ← h', ← hl]

example : ∃ p, (c!"licenses", p) ∈ deliveredFiles { exUtils with licenseDir := c!"." } ∧
    (c!"licenses", p) ∈ deliveredFiles { exPipe with licenseDir := c!"." } :=
  C192_negation_license (noEnv.put c!"MODULE_NAME" (some c!"cpp_utils")) (noEnv.put c!"MODULE_NAME" (some c!"ddspipe"))
    { exUtils with licenseDir := c!"." } { exPipe with licenseDir := c!"." }
    (fun x hx => by
      simp only [List.mem_cons, List.not_mem_nil, or_false] at hx
      rcases hx with rfl | rfl <;>
        exact ⟨fun v hv => absurd hv (by simp [Env.get, Env.put, noEnv]), by decide,
          fun v hv => absurd hv (by simp [Env.get, Env.put, noEnv]), by decide⟩)
    (by decide) (by decide) (by constructor <;> decide) (by constructor <;> decide) (by decide) (by decide) rfl

/-- C192 is false for packages made by components: whatever the architecture, neither the library nor the licence is in the
package. -/
theorem C192_negation_components (arch : Option Str) (d : Delivery) (h : Usual d) :
    (∀ f ∈ libraryFiles d, (c!"Unspecified", [c!"lib", f]) ∈ deliveredFiles d ∧ ∀ k, (k, [c!"lib", f]) ∉ packaged arch d) ∧
    ∀ k, (k, [c!"share", d.package.name, d.license]) ∉ packaged arch d := by
  have hk : ∀ k p, (k, p) ∈ packaged arch d → (k, p) ∈ deliveredFiles d ∧ k ≠ c!"Unspecified" ∧ k ≠ c!"licenses" := by
    intro k p hp
    obtain ⟨h1, h2⟩ := List.mem_filter.1 hp
    refine ⟨h1, ?_, ?_⟩ <;> rintro rfl <;> cases arch <;> simp [components] at h2
  refine ⟨fun f hf => ⟨?_, fun k hp => ?_⟩, fun k hp => ?_⟩
  · simp only [deliveredFiles, List.mem_append, List.mem_map]
    refine Or.inl (Or.inl (Or.inl (Or.inr ⟨f, hf, ?_⟩)))
    rw [h.libDir]; rfl
  · obtain ⟨h1, h2, h3⟩ := hk k _ hp
    rcases delivered_cases h h1 with ⟨-, r, e⟩ | ⟨rfl, -⟩ | ⟨-, x, e⟩ | ⟨rfl, -⟩
    · simp at e
    · exact h2 rfl
    · simp at e
    · exact h3 rfl
  · obtain ⟨h1, h2, h3⟩ := hk k _ hp
    rcases delivered_cases h h1 with ⟨-, r, e⟩ | ⟨rfl, -⟩ | ⟨-, x, e⟩ | ⟨rfl, -⟩
    · simp at e
    · exact h2 rfl
    · simp at e
    · exact h3 rfl

example : (c!"Unspecified", [c!"lib", c!"libcpp_utils.so.1.5.1"]) ∉ packaged (some c!"x64Win64VS2019") exUtils :=
  ((C192_negation_components _ exUtils exUtils_usual).1 _ (by decide)).2 _

/-- C192, in part: headers and the files for `find_package` are in the package. -/
theorem C192_packaged_partial (arch : Option Str) (d : Delivery) (k : Str) (p : List Str) (h : (k, p) ∈ deliveredFiles d)
    (hk : k = c!"headers" ∨ k = c!"cmake") : (k, p) ∈ packaged arch d := by
  refine List.mem_filter.2 ⟨h, ?_⟩
  rcases hk with rfl | rfl <;> cases arch <;> simp [components]

example : (c!"cmake", [c!"lib", c!"cmake", c!"cpp_utils", c!"cpp_utils-config.cmake"]) ∈ packaged none exUtils :=
  C192_packaged_partial none exUtils _ _ (by decide) (Or.inr rfl)

end Verif.CMake
