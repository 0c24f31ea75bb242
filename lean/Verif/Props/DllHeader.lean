import Verif.Model.DllHeader
/-!
C189: the header `library_dll.h` that every library gets exports and imports its symbols as the library was built, and asks
the linker for the file that was built.
-/
namespace Verif.DllHeader

/-- The names the header of `p` looks at, but for those of the compiler. -/
def looked (p : Module) : List Name :=
  [.guard p.mac, .configGuard p.mac, .dynLink p.mac, .staticLink p.mac, .noLib p.mac, .source p.mac, .userExport p.mac,
    .major p.mac, .minor p.mac, .allDyn, .allStatic, .allNoLib, .eprosimaDyn, .autoLinkGuard]

/-- A translation unit that begins under MSVC in the configuration `c`, in a target that uses the library `p` or in the library
itself (`own`): of the names the header looks at, exactly those are defined that CMake and the compiler define.  All other
macros are arbitrary. -/
structure Begins (p : Module) (c : Config) (own : Bool) (u : TU) : Prop where
  win32 : (u.macros .win32).isSome
  msc : (u.macros .msc).isSome
  dll : (u.macros .dll).isSome
  debug : (u.macros .debug).isSome ↔ c = .debug
  given : ∀ x ∈ looked p, ((u.macros x).isSome ↔ x ∈ definitions p own)

private theorem underscores_identifier (m : Str) (h : identifier m = true) : underscores m = m := by
  simp only [identifier, Bool.and_eq_true, List.all_eq_true] at h
  rw [underscores, List.map_congr_left (g := id)]
  · simp
  · intro c hc
    have := h.1 c hc
    by_cases hd : c = '-'
    · subst hd; simp at this
    · simp [hd]

private theorem begins_values (p : Module) (c : Config) (own : Bool) (u : TU) (hi : identifier p.mac = true)
    (h : Begins p c own u) :
    u.has .win32 = true ∧ u.has .msc = true ∧ u.has .dll = true ∧ u.has .debug = decide (c = .debug) ∧
    u.has (.guard p.mac) = false ∧ u.has (.configGuard p.mac) = false ∧ u.has (.dynLink p.mac) = p.shared ∧
    u.has (.staticLink p.mac) = false ∧ u.has (.noLib p.mac) = false ∧ u.has (.source p.mac) = own ∧
    u.has (.userExport p.mac) = false ∧ u.has (.major p.mac) = false ∧ u.has (.minor p.mac) = false ∧
    u.has .allDyn = false ∧ u.has .allStatic = false ∧ u.has .allNoLib = false ∧ u.has .eprosimaDyn = false ∧
    u.has .autoLinkGuard = false := by
  have g := h.given
  simp only [looked, List.forall_mem_cons, definitions, underscores_identifier _ hi] at g
  have hd := h.debug
  refine ⟨h.win32, h.msc, h.dll, ?_, ?_⟩
  · by_cases hc : c = .debug
    · simp [TU.has, hc, hd.2 hc]
    · have : ¬ (u.macros .debug).isSome := fun x => hc (hd.1 x)
      simp only [TU.has, hc, decide_false]; simpa using this
  · obtain ⟨g1, g2, g3, g4, g5, g6, g7, g8, g9, g10, g11, g12, g13, g14, -⟩ := g
    cases hs : p.shared <;> cases own <;>
      simp_all [TU.has]

private theorem has_define (u : TU) (x y : Name) (t : Str) : (u.define x t).has y = (decide (y = x) || u.has y) := by
  by_cases h : y = x <;> simp [TU.has, TU.define, h]

private theorem macros_define (u : TU) (x y : Name) (t : Str) :
    (u.define x t).macros y = if y = x then some t else u.macros y := rfl

private theorem libs_define (u : TU) (x : Name) (t : Str) : (u.define x t).libs = u.libs := rfl

private theorem has_undef (u : TU) (x y : Name) : (u.undef x).has y = (!decide (y = x) && u.has y) := by
  by_cases h : y = x <;> simp [TU.has, TU.undef, h]

private theorem macros_undef (u : TU) (x y : Name) :
    (u.undef x).macros y = if y = x then none else u.macros y := rfl

private theorem libs_undef (u : TU) (x : Name) : (u.undef x).libs = u.libs := rfl

private theorem has_libs (u : TU) (l : List Str) (y : Name) : (TU.mk u.macros l).has y = u.has y := rfl

/-- What is kept from one translation unit to a later one: the libraries asked for, and all definitions. -/
private def Kept (a b : TU) : Prop := b.libs = a.libs ∧ ∀ x, a.has x = true → b.has x = true

private theorem Kept.refl (a : TU) : Kept a a := ⟨rfl, fun _ h => h⟩

private theorem Kept.trans {a b c : TU} (h : Kept a b) (g : Kept b c) : Kept a c :=
  ⟨g.1.trans h.1, fun x hx => g.2 x (h.2 x hx)⟩

private theorem kept_define (a : TU) (x : Name) (t : Str) : Kept a (a.define x t) :=
  ⟨rfl, fun y h => by simp [has_define, h]⟩

private theorem kept_ite (a b c : TU) (p : Prop) [Decidable p] (h : Kept a b) (g : Kept a c) :
    Kept a (if p then b else c) := by
  split <;> assumption

private theorem kept_orDefine (a : TU) (x : Name) (t : Str) : Kept a (a.orDefine x t) :=
  kept_ite _ _ _ _ (Kept.refl _) (kept_define _ _ _)

private theorem kept_config (p : Module) (a : TU) : Kept a (config p a) :=
  kept_ite a _ _ _ (Kept.refl a) (((kept_define a (.configGuard p.mac) []).trans (kept_orDefine _ (.major p.mac) p.major)).trans
    (kept_orDefine _ (.minor p.mac) p.minor))

private theorem normalize_some (m : Str) (a b : TU) (h : normalize m a = some b) :
    b = fromAllNoLib m (fromAllDyn m (defaultStatic m a)) := by
  unfold normalize at h
  by_cases hc : ((fromAllDyn m (defaultStatic m a)).has (.dynLink m) && (fromAllDyn m (defaultStatic m a)).has (.staticLink m)) =
      true
  · rw [if_pos hc] at h; cases h
  · rw [if_neg hc] at h; exact (Option.some.inj h).symm

private theorem kept_normalize (m : Str) (a b : TU) (h : normalize m a = some b) : Kept a b := by
  rw [normalize_some m a b h]
  exact ((kept_ite a _ _ _ (kept_define _ _ _) (Kept.refl _)).trans
    (kept_ite _ _ _ _ (kept_define _ _ _) (Kept.refl _))).trans
    (kept_ite _ _ _ _ (kept_define _ _ _) (Kept.refl _))

private theorem kept_api (m : Str) (a : TU) : Kept a (api m a) := (kept_define _ _ _).trans (kept_define _ _ _)

/-- A header that is included for the first time, and does not stop the compilation, comes to its last part with everything
kept. -/
private theorem include_kept (p : Module) (u v : TU) (h : includeDll p u = some v) :
    (v = u ∧ u.has (.guard p.mac) = true) ∨
      ∃ w, Kept u w ∧ w.has (.guard p.mac) = true ∧ link p w = some v ∧
        ∀ x, (x = .msc ∨ x = .autoLinkGuard ∨ x = .dll ∨ x = .rtldll ∨ x = .source p.mac ∨ x = .allNoLib ∨
          x = .noLib p.mac ∧ u.has .allNoLib = false) → w.has x = u.has x := by
  unfold includeDll at h
  split at h
  · cases h
  · split at h
    · cases h; exact Or.inl ⟨rfl, by assumption⟩
    · right
      cases hb : normalize p.mac (config p (u.define (.guard p.mac) [])) with
      | none => rw [hb] at h; cases h
      | some b =>
        rw [hb] at h
        have k := (kept_config p (u.define (.guard p.mac) [])).trans ((kept_normalize _ _ _ hb).trans (kept_api p.mac b))
        refine ⟨_, (kept_define u _ _).trans k, k.2 _ (by simp [has_define]), h, ?_⟩
        intro x hx
        have h1 : (config p (u.define (.guard p.mac) [])).has x = u.has x := by
          unfold config TU.orDefine
          repeat' split
          all_goals rcases hx with rfl | rfl | rfl | rfl | rfl | rfl | ⟨rfl, -⟩ <;> simp [has_define]
        have h2 : b.has x = (config p (u.define (.guard p.mac) [])).has x := by
          have k : ∀ a y t, (y ≠ x) → (TU.define a y t).has x = a.has x := by
            intro a y t hy; simp [has_define, Ne.symm hy]
          rw [normalize_some _ _ _ hb]
          have e1 : ∀ a : TU, (defaultStatic p.mac a).has x = a.has x := by
            intro a; unfold defaultStatic; split
            · exact k _ _ _ (by rcases hx with rfl | rfl | rfl | rfl | rfl | rfl | ⟨rfl, -⟩ <;> simp)
            · rfl
          have e2 : ∀ a : TU, (fromAllDyn p.mac a).has x = a.has x := by
            intro a; unfold fromAllDyn; split
            · exact k _ _ _ (by rcases hx with rfl | rfl | rfl | rfl | rfl | rfl | ⟨rfl, -⟩ <;> simp)
            · rfl
          have e3 : ∀ a : TU, (x = .noLib p.mac → a.has .allNoLib = false) → (fromAllNoLib p.mac a).has x = a.has x := by
            intro a ha; unfold fromAllNoLib; split
            · rename_i hc
              refine k _ _ _ ?_
              rintro rfl
              rw [ha rfl] at hc; cases hc
            · rfl
          rw [e3, e2, e1]
          intro hx'
          have hx'' : u.has .allNoLib = false := by
            subst hx'
            rcases hx with h | h | h | h | h | h | ⟨-, h⟩
            all_goals first | exact h | cases h
          revert hx''
          unfold fromAllDyn defaultStatic config TU.orDefine
          repeat' split
          all_goals simp [has_define]
        rw [← h1, ← h2]
        rcases hx with rfl | rfl | rfl | rfl | rfl | rfl | ⟨rfl, -⟩ <;> simp [api, has_define]

/-- The translation unit after the header has set its own macros. -/
private def ready (p : Module) (own : Bool) (u : TU) : TU :=
  let u := (((u.define (.guard p.mac) []).define (.configGuard p.mac) []).define (.major p.mac) p.major).define (.minor p.mac)
    p.minor
  let u := if p.shared then u else u.define (.staticLink p.mac) []
  (u.define (.dllApi p.mac)
    (if p.shared then (if own then c!"__declspec( dllexport )" else c!"__declspec( dllimport )") else [])).define
    (.userDllExport p.mac) []

private theorem include_ready (p : Module) (c : Config) (own : Bool) (u : TU) (hi : identifier p.mac = true)
    (h : Begins p c own u) : includeDll p u = link p (ready p own u) := by
  obtain ⟨h1, h2, h3, h4, h5, h6, h7, h8, h9, h10, h11, h12, h13, h14, h15, h16, h17, h18⟩ := begins_values p c own u hi h
  have e1 : config p (u.define (.guard p.mac) []) =
      (((u.define (.guard p.mac) []).define (.configGuard p.mac) []).define (.major p.mac) p.major).define (.minor p.mac)
        p.minor := by
    simp [config, TU.orDefine, has_define, h6, h12, h13]
  have e2 : normalize p.mac (config p (u.define (.guard p.mac) [])) = some
      (if p.shared then config p (u.define (.guard p.mac) [])
        else (config p (u.define (.guard p.mac) [])).define (.staticLink p.mac) []) := by
    rw [e1]
    cases hs : p.shared <;> rw [hs] at h7 <;> simp [normalize, defaultStatic, fromAllDyn, fromAllNoLib, has_define, h7, h8, h14, h15, h16]
  rw [includeDll, hi, h5, e2, e1]
  cases hs : p.shared <;> rw [hs] at h7 <;> cases own <;>
    simp [api, ready, hs, has_define, h1, h7, h10, h11, h14]

private theorem link_ready (p : Module) (c : Config) (own : Bool) (u : TU) (hi : identifier p.mac = true)
    (h : Begins p c own u) :
    ∃ v, link p (ready p own u) = some v ∧ v.macros (.dllApi p.mac) = (ready p own u).macros (.dllApi p.mac) ∧
      v.macros (.userDllExport p.mac) = some [] ∧ v.has .autoLinkGuard = !own ∧
      v.libs = u.libs ++ (if own then [] else [(if p.shared then [] else c!"lib") ++ p.name ++
        (if c = .debug then c!"d" else []) ++ c!"-" ++ p.major ++ c!"." ++ p.minor ++ c!".lib"]) := by
  obtain ⟨h1, h2, h3, h4, h5, h6, h7, h8, h9, h10, h11, h12, h13, h14, h15, h16, h17, h18⟩ := begins_values p c own u hi h
  cases own
  · cases hs : p.shared <;> rw [hs] at h7 <;>
      simp [link, autoLink, libPrefix, ready, hs, has_define, macros_define, libs_define, h2, h3, h4, h7, h9, h10, h14, h16,
        h17, h18, has_undef, macros_undef, libs_undef, has_libs]
  · cases hs : p.shared <;> rw [hs] at h7 <;>
      simp [link, ready, hs, has_define, macros_define, libs_define, h10, h18]

/-- A shared and a static library, and a translation unit of a user of both in a configuration. -/
private def exCpp : Module := ⟨c!"cpp_utils", c!"CPP_UTILS", c!"1", c!"2", c!"1.2.0", true⟩
private def exDdsPipe : Module := ⟨c!"ddspipe", c!"DDSPIPE", c!"0", c!"4", c!"0.4.1", false⟩
private def exUser (c : Config) (own : Bool) : TU :=
  ⟨fun x => if x ∈ compiler c ++ definitions exCpp own ++ [.other c!"NDEBUG"] then some [] else none, []⟩

private theorem exBegins (c : Config) (own : Bool) : Begins exCpp c own (exUser c own) := by
  refine ⟨?_, ?_, ?_, ?_, ?_⟩ <;> cases c <;> cases own <;> decide

/-- C189: `DllAPI` exports in the library and imports in its users if the library is a shared one, and is nothing if it is a
static one; the header does not stop the compilation. -/
theorem C189_api (p : Module) (c : Config) (own : Bool) (u : TU) (hi : identifier p.mac = true) (h : Begins p c own u) :
    ∃ v, includeDll p u = some v ∧
      v.macros (.dllApi p.mac) = some
        (if p.shared then (if own then c!"__declspec( dllexport )" else c!"__declspec( dllimport )") else []) := by
  obtain ⟨v, hv, ha, -⟩ := link_ready p c own u hi h
  refine ⟨v, (include_ready p c own u hi h).trans hv, ha.trans ?_⟩
  simp [ready, macros_define]

example : ∃ v, includeDll exCpp (exUser .release false) = some v ∧
    v.macros (.dllApi c!"CPP_UTILS") = some c!"__declspec( dllimport )" :=
  C189_api exCpp .release false _ (by decide) (exBegins _ _)

example : ∃ v, includeDll exCpp (exUser .debug true) = some v ∧
    v.macros (.dllApi c!"CPP_UTILS") = some c!"__declspec( dllexport )" :=
  C189_api exCpp .debug true _ (by decide) (exBegins _ _)

/-- C189, in part: in the configurations Debug and Release a user of the library asks the linker for the file of the library
and for nothing else, and the library itself asks for nothing.  Missing: the other configurations, see
`C189_negation_config`, and a second library, see `C189_negation_two`. -/
theorem C189_link_partial (p : Module) (c : Config) (own : Bool) (u : TU) (hi : identifier p.mac = true)
    (h : Begins p c own u) (hc : c = .debug ∨ c = .release) :
    ∃ v, includeDll p u = some v ∧ v.libs = u.libs ++ (if own then [] else [file p c]) := by
  obtain ⟨v, hv, -, -, -, hl⟩ := link_ready p c own u hi h
  refine ⟨v, (include_ready p c own u hi h).trans hv, hl.trans ?_⟩
  rcases hc with rfl | rfl <;> cases own <;> cases hs : p.shared <;> simp [file, configPostfix, hs]

example : ∃ v, includeDll exCpp (exUser .debug false) = some v ∧ v.libs = [c!"cpp_utilsd-1.2.lib"] :=
  C189_link_partial exCpp .debug false _ (by decide) (exBegins _ _) (Or.inl rfl)

/-- C189 fails for the other configurations: a user of the library asks the linker for a file that is not the one of the library,
whatever the library and its version. -/
theorem C189_negation_config (p : Module) (c : Config) (u : TU) (hi : identifier p.mac = true)
    (h : Begins p c false u) (hc : c = .relWithDebInfo ∨ c = .minSizeRel) :
    ∃ v l, includeDll p u = some v ∧ v.libs = u.libs ++ [l] ∧ l ≠ file p c := by
  obtain ⟨v, hv, -, -, -, hl⟩ := link_ready p c false u hi h
  refine ⟨v, _, (include_ready p c false u hi h).trans hv, hl, ?_⟩
  rcases hc with rfl | rfl <;> cases hs : p.shared <;> simp [file, configPostfix, hs]

example : ∃ v l, includeDll exCpp (exUser .relWithDebInfo false) = some v ∧ v.libs = [] ++ [l] ∧ l ≠ c!"cpp_utilsrd-1.2.lib" :=
  C189_negation_config exCpp .relWithDebInfo _ (by decide) (exBegins _ _) (Or.inl rfl)

/-- C189 fails for a second library: once a header of a library has asked for its file, the header of no other library asks for
anything, because the guard of `eProsima_auto_link.h` has the same name in all of them. -/
theorem C189_negation_two (p q : Module) (c : Config) (u v w : TU) (hi : identifier p.mac = true)
    (h : Begins p c false u) (hv : includeDll p u = some v) (hw : includeDll q v = some w) :
    w.libs = v.libs := by
  obtain ⟨v', hv', -, -, hg, -⟩ := link_ready p c false u hi h
  rw [include_ready p c false u hi h, hv'] at hv
  cases hv
  rcases include_kept q _ w hw with ⟨rfl, -⟩ | ⟨a, k, -, hl, hx⟩
  · rfl
  · rw [← k.1]
    have ha : a.has .autoLinkGuard = true := by rw [hx _ (Or.inr (Or.inl rfl)), hg]; rfl
    unfold link autoLink at hl
    dsimp only at hl
    split at hl
    · rw [if_pos] at hl
      · cases hl; split <;> rfl
      · split <;> simp [has_define, ha]
    · cases hl; rfl

example : ∃ v w, includeDll exCpp (exUser .release false) = some v ∧ includeDll exDdsPipe v = some w ∧
    w.libs = [c!"cpp_utils-1.2.lib"] := by
  obtain ⟨v, hv, hl⟩ := C189_link_partial exCpp .release false _ (by decide) (exBegins _ _) (Or.inr rfl)
  have hs : ((includeDll exCpp (exUser .release false)).bind (includeDll exDdsPipe)).isSome = true := by decide
  rw [hv] at hs
  obtain ⟨w, hw⟩ := Option.isSome_iff_exists.1 hs
  exact ⟨v, w, hv, hw, (C189_negation_two exCpp exDdsPipe .release _ v w (by decide) (exBegins _ _) hv hw).trans hl⟩

/-- C189 fails for names with a dash: `compile_library` defines `…_DYN_LINK` with underscores for a shared library, but no
translation unit can include its header. -/
theorem C189_negation_dash (p : Module) (u : TU) (h : '-' ∈ p.mac) :
    includeDll p u = none ∧ (p.shared = true → .dynLink p.mac ∉ definitions p true) := by
  constructor
  · have : identifier p.mac = false := by
      rw [Bool.eq_false_iff]
      intro hi
      simp only [identifier, Bool.and_eq_true, List.all_eq_true] at hi
      have := hi.1 _ h
      simp at this
    simp [includeDll, this]
  · intro hs hm
    simp only [definitions, hs, if_true, List.mem_append, List.mem_cons, List.not_mem_nil, or_false, Name.dynLink.injEq,
      reduceCtorEq, false_or] at hm
    rw [hm] at h
    simp only [underscores, List.mem_map] at h
    obtain ⟨c, -, hc⟩ := h
    by_cases hd : c = '-'
    · simp [hd] at hc
    · simp [hd] at hc

example : includeDll { exCpp with mac := c!"CPP-UTILS" } (exUser .release false) = none :=
  (C189_negation_dash _ _ (by decide)).1

/-- C189 fails for `USERDllExport`: neither the library nor its users ever export with it, though `compile_library` defines a
macro for that. -/
theorem C189_negation_user_export (p : Module) (c : Config) (own : Bool) (u : TU) (hi : identifier p.mac = true)
    (h : Begins p c own u) :
    ∃ v, includeDll p u = some v ∧ v.macros (.userDllExport p.mac) = some [] := by
  obtain ⟨v, hv, -, hu, -⟩ := link_ready p c own u hi h
  exact ⟨v, (include_ready p c own u hi h).trans hv, hu⟩

example : ∃ v, includeDll exCpp (exUser .release true) = some v ∧ v.macros (.userDllExport c!"CPP_UTILS") = some [] :=
  C189_negation_user_export exCpp .release true _ (by decide) (exBegins _ _)

/-- C189: including the header again changes nothing. -/
theorem C189_again (p : Module) (u v : TU) (h : includeDll p u = some v) : includeDll p v = some v := by
  have hg : v.has (.guard p.mac) = true := by
    rcases include_kept p u v h with ⟨rfl, hg⟩ | ⟨a, -, ha, hl, -⟩
    · exact hg
    · unfold link autoLink at hl
      dsimp only at hl
      repeat' split at hl
      all_goals first
        | (cases hl; done)
        | (cases hl; simp [has_define, has_undef, has_libs, ha]; done)
  have hi : identifier p.mac = true := by
    unfold includeDll at h
    split at h
    · cases h
    · rename_i hn; simpa using hn
  simp [includeDll, hg, hi]

example : ∃ v, includeDll exCpp (exUser .release false) = some v ∧ includeDll exCpp v = some v := by
  obtain ⟨v, hv, -⟩ := C189_api exCpp .release false _ (by decide) (exBegins _ _)
  exact ⟨v, hv, C189_again _ _ _ hv⟩

/-- C189: with another compiler, or with `EPROSIMA_ALL_NO_LIB` or `…_NO_LIB`, the header asks the linker for nothing. -/
theorem C189_silent (p : Module) (u v : TU) (h : includeDll p u = some v)
    (hq : u.macros .msc = none ∨ (u.macros .allNoLib).isSome ∨ (u.macros (.noLib p.mac)).isSome) : v.libs = u.libs := by
  rcases include_kept p u v h with ⟨rfl, hg⟩ | ⟨a, k, -, hl, hx⟩
  · rfl
  · rw [← k.1]
    rcases hq with hq | hq | hq
    · have hm : a.has .msc = false := by rw [hx _ (Or.inl rfl)]; simp [TU.has, hq]
      unfold link autoLink at hl
      dsimp only at hl
      repeat' split at hl
      all_goals first
        | (cases hl; rfl)
        | (exfalso; simp [has_define, hm] at *; done)
    · have := k.2 _ hq
      simp only [link, this] at hl
      simp at hl; rw [hl]
    · have := k.2 _ hq
      simp only [link, this] at hl
      simp at hl; rw [hl]

example : ∃ v, includeDll exDdsPipe ⟨fun _ => none, []⟩ = some v ∧ v.libs = [] := by
  obtain ⟨v, hv⟩ := Option.isSome_iff_exists.1 (by decide : (includeDll exDdsPipe ⟨fun _ => none, []⟩).isSome = true)
  exact ⟨v, hv, C189_silent _ _ _ hv (Or.inl rfl)⟩

/-- C189: the header stops the compilation of a user or of the library if both kinds of linking are asked for. -/
theorem C189_both (p : Module) (u : TU) (hg : u.macros (.guard p.mac) = none)
    (hd : (u.macros .allDyn).isSome ∨ (u.macros (.dynLink p.mac)).isSome) (hs : (u.macros (.staticLink p.mac)).isSome) :
    includeDll p u = none := by
  have k := (kept_define u (.guard p.mac) []).trans (kept_config p _)
  have hs' := k.2 _ hs
  have : normalize p.mac (config p (u.define (.guard p.mac) [])) = none := by
    unfold normalize fromAllDyn defaultStatic
    dsimp only
    rcases hd with hd | hd
    · have hd' := k.2 _ hd
      by_cases hx : (config p (u.define (.guard p.mac) [])).has (.dynLink p.mac) = true <;>
        simp [hs', hd', hx, has_define]
    · have hd' := k.2 _ hd
      simp [hs', hd']
  simp [includeDll, TU.has, hg, this]

example : includeDll exCpp ((exUser .release false).define (.staticLink c!"CPP_UTILS") []) = none :=
  C189_both _ _ (by decide) (Or.inr (by decide)) (by decide)

/-- C189: the header stops the compilation of a user of a shared library that is compiled with the static run-time library of
MSVC. -/
theorem C189_runtime (p : Module) (u : TU) (hm : (u.macros .msc).isSome) (hd : u.macros .dll = none) (hr : u.macros .rtldll = none)
    (hg : u.macros (.guard p.mac) = none) (ha : u.macros .autoLinkGuard = none) (hs : u.macros (.source p.mac) = none)
    (hn : u.macros .allNoLib = none) (hl : u.macros (.noLib p.mac) = none) (hy : (u.macros (.dynLink p.mac)).isSome) :
    includeDll p u = none := by
  cases h : includeDll p u with
  | none => rfl
  | some v =>
    rcases include_kept p u v h with ⟨-, hg'⟩ | ⟨w, k, -, hlk, hx⟩
    · simp [TU.has, hg] at hg'
    · have f : ∀ x, u.macros x = none → u.has x = false := fun x h => by simp [TU.has, h]
      have n := f _ hn
      have w1 : w.has .msc = true := k.2 _ hm
      have w2 : w.has .dll = false := (hx _ (by simp)).trans (f _ hd)
      have w3 : w.has .rtldll = false := (hx _ (by simp)).trans (f _ hr)
      have w4 : w.has .autoLinkGuard = false := (hx _ (by simp)).trans (f _ ha)
      have w5 : w.has (.source p.mac) = false := (hx _ (by simp)).trans (f _ hs)
      have w6 : w.has .allNoLib = false := (hx _ (by simp)).trans n
      have w7 : w.has (.noLib p.mac) = false := (hx _ (by simp [n])).trans (f _ hl)
      have w8 : w.has (.dynLink p.mac) = true := k.2 _ hy
      simp [link, autoLink, libPrefix, has_define, w1, w2, w3, w4, w5, w6, w7, w8] at hlk

example : includeDll exCpp ((exUser .release false).undef .dll) = none :=
  C189_runtime _ _ (by decide) (by decide) (by decide) (by decide) (by decide) (by decide) (by decide) (by decide) (by decide)

private theorem link_api (p : Module) (a v : TU) (m : Str) (h : link p a = some v) :
    v.macros (.dllApi m) = a.macros (.dllApi m) ∧ v.macros (.userDllExport m) = a.macros (.userDllExport m) := by
  unfold link autoLink at h
  dsimp only at h
  repeat' split at h
  all_goals first
    | (cases h; done)
    | (cases h; simp [macros_define, macros_undef]; done)

private theorem has_ite (p : Prop) [Decidable p] (a b : TU) (x : Name) :
    (if p then a else b).has x = if p then a.has x else b.has x := by split <;> rfl

private theorem before_has (p : Module) (u : TU) (x : Name)
    (hx : x ∉ [.guard p.mac, .configGuard p.mac, .major p.mac, .minor p.mac, .staticLink p.mac, .dynLink p.mac, .noLib p.mac]) :
    (fromAllNoLib p.mac (fromAllDyn p.mac (defaultStatic p.mac (config p (u.define (.guard p.mac) []))))).has x = u.has x := by
  simp only [List.mem_cons, List.not_mem_nil, or_false, not_or] at hx
  simp [fromAllNoLib, fromAllDyn, defaultStatic, config, TU.orDefine, has_ite, has_define, hx]

/-- C189: on systems other than Windows nothing is exported or imported, whatever else is defined. -/
theorem C189_elsewhere (p : Module) (u v : TU) (hw : u.macros .win32 = none) (hg : u.macros (.guard p.mac) = none)
    (h : includeDll p u = some v) : v.macros (.dllApi p.mac) = some [] ∧ v.macros (.userDllExport p.mac) = some [] := by
  unfold includeDll at h
  split at h
  · cases h
  · rw [if_neg (by simp [TU.has, hg])] at h
    obtain ⟨a, ha, hl⟩ := Option.bind_eq_some_iff.1 h
    obtain ⟨n, hn, rfl⟩ := Option.map_eq_some_iff.1 ha
    have hw' : n.has .win32 = false := by
      rw [normalize_some _ _ _ hn, before_has _ _ _ (by simp)]; simp [TU.has, hw]
    obtain ⟨h1, h2⟩ := link_api p _ v p.mac hl
    rw [h1, h2]
    simp [api, macros_define, has_define, hw']

example (v : TU) (h : includeDll exCpp ((exUser .release false).undef .win32) = some v) :
    v.macros (.dllApi c!"CPP_UTILS") = some [] := (C189_elsewhere exCpp _ v (by decide) (by decide) h).1

/-- C189: with `EPROSIMA_ALL_DYN_LINK`, and nothing said about this library, users on Windows import the symbols and the library
itself exports them; here without asking the linker for files (`EPROSIMA_ALL_NO_LIB`). -/
theorem C189_all_dyn (p : Module) (u : TU) (hi : identifier p.mac = true) (hw : (u.macros .win32).isSome)
    (hd : (u.macros .allDyn).isSome) (hn : (u.macros .allNoLib).isSome) (hs : u.macros (.staticLink p.mac) = none)
    (hg : u.macros (.guard p.mac) = none) :
    ∃ v, includeDll p u = some v ∧ v.macros (.dllApi p.mac) =
      some (if (u.macros (.source p.mac)).isSome then c!"__declspec( dllexport )" else c!"__declspec( dllimport )") := by
  have k := kept_define u (.guard p.mac) [] |>.trans (kept_config p _)
  have d1 : (config p (u.define (.guard p.mac) [])).has .allDyn = true := k.2 _ hd
  have s1 : (config p (u.define (.guard p.mac) [])).has (.staticLink p.mac) = false := by
    have : u.has (.staticLink p.mac) = false := by simp [TU.has, hs]
    simp [config, TU.orDefine, has_ite, has_define, this]
  have hnz : normalize p.mac (config p (u.define (.guard p.mac) [])) =
      some (fromAllNoLib p.mac (fromAllDyn p.mac (defaultStatic p.mac (config p (u.define (.guard p.mac) []))))) := by
    unfold normalize
    dsimp only
    rw [if_neg]
    simp [fromAllDyn, defaultStatic, d1, s1, has_ite, has_define]
  have b := before_has p u
  generalize fromAllNoLib p.mac (fromAllDyn p.mac (defaultStatic p.mac (config p (u.define (.guard p.mac) [])))) = n at hnz b
  have b1 : n.has .win32 = true := (b _ (by simp)).trans hw
  have b2 : n.has .allDyn = true := (b _ (by simp)).trans hd
  have b3 : n.has .allNoLib = true := (b _ (by simp)).trans hn
  have b4 : n.has (.source p.mac) = u.has (.source p.mac) := b _ (by simp)
  refine ⟨api p.mac n, ?_, ?_⟩
  · rw [includeDll, if_neg (by simp [hi]), if_neg (by simp [TU.has, hg]), hnz]
    simp [link, api, has_define, b3]
  · simp [api, macros_define, b1, b2, b4]
    rfl

example : ∃ v, includeDll exCpp ((((exUser .release false).undef (.dynLink c!"CPP_UTILS")).define .allDyn []).define .allNoLib []) =
    some v ∧ v.macros (.dllApi c!"CPP_UTILS") = some c!"__declspec( dllimport )" :=
  C189_all_dyn exCpp _ (by decide) (by decide) (by decide) (by decide) (by decide) (by decide)

end Verif.DllHeader
