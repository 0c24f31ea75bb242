import Verif.Props.Mangling
import Verif.Props.PtrSet
import Verif.Props.Exactly
import Verif.Props.CMakeVersion
import Verif.Props.CMakeSettings
/-!
C12, C19, C24, C27, C129, C131: what the code does on every argument, and how much of the
domain the negations cover.
-/

namespace Verif.NumFormat

/-- C12, the guard on every `int` and every width: below 32 characters a value is refused
exactly if, read as an unsigned number, it is at least 10^n modulo 2^32. -/
theorem C12_refused_iff (v : Int) (n : Nat) (hn : n < 32) :
    numberTrailingZerosFormat v n false = .throw .preconditionNotMet ↔
      ((10 ^ n % 2 ^ 32 : Nat) : Int) ≤ v % 2 ^ 32 := by
  have hp : (Math.fastExponential 10#32 n).toNat = 10 ^ n % 2 ^ 32 := Math.C03_fastExponential 10#32 n
  have hub := C12_ub_iff v n
  have hp0 : Math.fastExponential 10#32 n ≠ 0#32 := by
    intro h
    have : numberTrailingZerosFormat v n false = .ub := by
      unfold numberTrailingZerosFormat
      simp [h]
    have := hub.1 this
    omega
  have hpos : 0 < 10 ^ n % 2 ^ 32 := by
    rw [← hp]
    have : (Math.fastExponential 10#32 n).toNat ≠ 0 := by
      intro h
      exact hp0 (BitVec.toNat_inj.1 h)
    omega
  have hg : BitVec.ofInt 32 v / Math.fastExponential 10#32 n > 0#32 ↔
      ((10 ^ n % 2 ^ 32 : Nat) : Int) ≤ v % 2 ^ 32 := by
    rw [gt_iff_lt, BitVec.lt_def, BitVec.toNat_udiv, hp, BitVec.toNat_ofInt]
    show 0 < _ ↔ _
    rw [Nat.div_pos_iff]
    generalize 10 ^ n % 2 ^ 32 = k at *
    omega
  unfold numberTrailingZerosFormat
  simp only [if_true, hp0, if_false]
  by_cases h : BitVec.ofInt 32 v / Math.fastExponential 10#32 n > 0#32
  · rw [if_pos h]
    exact iff_of_true rfl (hg.1 h)
  · rw [if_neg h]
    exact iff_of_false (by simp) (fun h' => h (hg.2 h'))

/-- C12: what is not refused below 32 characters is written, padded to `n` characters. -/
theorem C12_written (v : Int) (n : Nat) (hn : n < 32) (hv : 0 ≤ v)
    (h : v % 2 ^ 32 < ((10 ^ n % 2 ^ 32 : Nat) : Int)) :
    ∃ ds, IsDecimal ds v.toNat ∧
      numberTrailingZerosFormat v n false = .ok (List.replicate (n - ds.length) '0' ++ ds) := by
  obtain ⟨ds, h1, h2⟩ := C12_padding v n hv
  refine ⟨ds, h1, ?_⟩
  have hr := fun e => Int.not_le.2 h ((C12_refused_iff v n hn).1 e)
  have hu := fun e => Nat.not_le.2 hn ((C12_ub_iff v n).1 e)
  unfold numberTrailingZerosFormat at *
  simp only [if_true, Bool.true_eq_false, if_false] at *
  split
  · simp_all
  · split
    · simp_all
    · exact h2

/-- C12, negation: with ten characters, a value of ten digits is refused from 1410065408 on. -/
theorem C12_negation_ten (v : Int) (h1 : 1410065408 ≤ v) (h2 : v < 2 ^ 31) :
    numberTrailingZerosFormat v 10 false = .throw .preconditionNotMet :=
  (C12_refused_iff v 10 (by decide)).2 (by
    rw [show 10 ^ 10 % 2 ^ 32 = 1410065408 by decide]
    omega)

example : numberTrailingZerosFormat 1410065407 10 false = .ok c!"1410065407" ∧
    numberTrailingZerosFormat 1410065408 10 false = .throw .preconditionNotMet := by
  decide +kernel

end Verif.NumFormat

namespace Verif.PtrSet
variable {T : Type} [DecidableEq T]

/-- C19, on every two sets: `are_set_of_ptr_equal` compares the number of pointers and looks
for the values of the first set in the second. -/
theorem C19_exact (val : Ptr → T) (s1 s2 : List Ptr) :
    areEqual val s1 s2 = true ↔
      s1.length = s2.length ∧ ∀ p ∈ s1, ∃ q ∈ s2, den val q = den val p := by
  unfold areEqual
  by_cases hl : s1.length = s2.length
  · simp only [hl, ne_eq, not_true, if_false, List.all_eq_true, true_and]
    exact forall_congr' fun p => forall_congr' fun _ => C19_contains val s2 p
  · simp [hl]

/-- C19, negation: two sets with the same values but not the same number of pointers are
never equal. -/
theorem C19_negation_same (val : Ptr → T) (s1 s2 : List Ptr) (h : s1.length ≠ s2.length) :
    areEqual val s1 s2 = false :=
  Bool.eq_false_iff.2 fun he => h ((C19_exact val s1 s2).1 he).1

/-- C19, negation: `n + 1` pointers to one value are equal to every set of `n + 1` pointers
one of which points to that value. -/
theorem C19_negation_repeated (val : Ptr → T) (s1 s2 : List Ptr) (hl : s1.length = s2.length)
    (q : Ptr) (hq : q ∈ s2) (h1 : ∀ p ∈ s1, den val p = den val q) :
    areEqual val s1 s2 = true :=
  (C19_exact val s1 s2).2 ⟨hl, fun p hp => ⟨q, hq, (h1 p hp).symm⟩⟩

example : SameValues (fun _ => 7) [1, 2] [3] ∧ areEqual (fun _ => 7) [1, 2] [3] = false ∧
    areEqual (fun p => if p = 4 then 2 else 1) [1, 2] [3, 4] = true := by
  refine ⟨?_, C19_negation_same _ _ _ (by decide),
    C19_negation_repeated _ _ _ rfl 3 (by decide) (by decide)⟩
  intro v
  simp [den]

end Verif.PtrSet

namespace Verif.Mangling
open Verif.Strings Verif.Spec

/-- C24, negation: no service name round-trips but "/" followed by one segment; every name with
a namespace, and every name without the first slash, is lost. -/
theorem C24_negation_all (t : Str) (h0 : t ≠ []) (h : ¬ ∃ seg, '/' ∉ seg ∧ t = c!"/" ++ seg) :
    mangleRequest t = [] ∧ mangleReply t = [] ∧
    demangleRequest (mangleRequest t) ≠ t ∧ demangleReply (mangleReply t) ≠ t := by
  obtain ⟨h1, h2⟩ := (C24_mangle_exact t).2 h
  refine ⟨h1, h2, ?_, ?_⟩
  · rw [h1, show demangleRequest [] = [] by decide]
    exact fun e => h0 e.symm
  · rw [h2, show demangleReply [] = [] by decide]
    exact fun e => h0 e.symm

/-- C24: which service names round-trip, exactly. -/
theorem C24_roundtrip_iff (t : Str) (h0 : t ≠ []) :
    (demangleRequest (mangleRequest t) = t ∧ demangleReply (mangleReply t) = t) ↔
      ∃ seg, '/' ∉ seg ∧ t = c!"/" ++ seg := by
  constructor
  · intro h
    refine Classical.byContradiction fun hn => ?_
    exact (C24_negation_all t h0 hn).2.2.1 h.1
  · rintro ⟨seg, hs, rfl⟩
    exact C24_roundtrip_partial seg hs

example : demangleReply (mangleReply c!"/ns/add") ≠ c!"/ns/add" :=
  (C24_negation_all c!"/ns/add" (by decide) (by
    rintro ⟨seg, hs, he⟩
    have : seg = c!"ns/add" := by simpa using he.symm
    subst this
    exact absurd hs (by decide))).2.2.2

theorem suffixLoop_eq (s : Str) : suffixLoop s typeSuffixes (some 0) =
    if c!"_Response_" <:+ s then some (s.length - 10) else rfind c!"_Request_" s := by
  by_cases h : c!"_Response_" <:+ s
  · rw [if_pos h]
    obtain ⟨p, rfl⟩ := h
    rw [suffixLoop_response]
    simp
  · rw [if_neg h]
    have hlast : ∀ pos, suffixLoop s [c!"_Request_"] pos = rfind c!"_Request_" s := by
      intro pos
      unfold suffixLoop
      cases hr : rfind c!"_Request_" s with
      | none => rfl
      | some i => simp [suffixLoop]
    unfold typeSuffixes suffixLoop
    cases hr : rfind c!"_Response_" s with
    | none => exact hlast _
    | some i =>
      simp only
      rw [if_pos]
      · exact hlast _
      · intro h0
        exact h ⟨_, ((rfind_end hr).1 h0).symm⟩

theorem colonsToSlash_eq_nil {s : Str} : colonsToSlash s = [] ↔ s = [] := by
  match s with
  | [] => simp [colonsToSlash]
  | [c] => simp [colonsToSlash]
  | c :: d :: s =>
    unfold colonsToSlash
    split <;> simp

/-- C27, exactly: a type is accepted if it contains "dds_::" and ends in "_Response_" or has
"_Request_" anywhere, unless nothing stands before, between and (for a response) after these. -/
theorem C27_exact (s : Str) : demangleServiceType s ≠ [] ↔
    Contains c!"dds_::" s ∧ (c!"_Response_" <:+ s ∨ Contains c!"_Request_" s) ∧
    s ≠ c!"dds_::_Response_" ∧
    ¬ (c!"dds_::" <+: s ∧ ¬ c!"_Response_" <:+ s ∧ OccursAt c!"_Request_" s 6 ∧
      ∀ j, 6 < j → ¬ OccursAt c!"_Request_" s j) := by
  by_cases hacc : Contains c!"dds_::" s ∧ (c!"_Response_" <:+ s ∨ Contains c!"_Request_" s)
  case neg =>
    refine iff_of_false (fun h => hacc (C27_accepts s h)) (fun h => hacc ⟨h.1, h.2.1⟩)
  obtain ⟨hc, hr⟩ := hacc
  obtain ⟨nsPos, hns⟩ : ∃ i, find c!"dds_::" s = some i := by
    cases hf : find c!"dds_::" s with
    | none => exact absurd hc (find_none_iff.1 hf)
    | some i => exact ⟨i, rfl⟩
  obtain ⟨suf, hsuf⟩ : ∃ i, suffixLoop s typeSuffixes (some 0) = some i := by
    rw [suffixLoop_eq]
    by_cases h : c!"_Response_" <:+ s
    · exact ⟨_, if_pos h⟩
    · rw [if_neg h]
      cases hf : rfind c!"_Request_" s with
      | none => exact absurd (hr.resolve_left h) (rfind_none_iff.1 hf)
      | some i => exact ⟨i, rfl⟩
  have hval : demangleServiceType s =
      colonsToSlash (s.take nsPos) ++ slice s (nsPos + 6) suf := by
    unfold demangleServiceType
    rw [show ddsNs = c!"dds_::" from rfl, hns, hsuf]
    simp only
    rw [replaceAllC_colons]
    rfl
  rw [hval]
  obtain ⟨hocc, hfirst⟩ := find_some_iff.1 hns
  have hlen := occursAt_le hocc
  -- where the suffix begins there is a "_R"
  have hR : s[suf]? = some '_' ∧ s[suf + 1]? = some 'R' ∧ suf + 9 ≤ s.length := by
    rw [suffixLoop_eq] at hsuf
    by_cases h : c!"_Response_" <:+ s
    · rw [if_pos h] at hsuf
      obtain ⟨p, rfl⟩ := h
      have : p.length = suf := by simpa using hsuf
      have ho : OccursAt c!"_Response_" (p ++ c!"_Response_") suf := ⟨p, [], by simp, this⟩
      have hle := occursAt_le ho
      exact ⟨occursAt_getElem? ho 0 (by decide), occursAt_getElem? ho 1 (by decide),
        by simp at hle ⊢; omega⟩
    · rw [if_neg h] at hsuf
      have ho := (rfind_some_iff.1 hsuf).1
      have hle := occursAt_le ho
      exact ⟨occursAt_getElem? ho 0 (by decide), occursAt_getElem? ho 1 (by decide),
        by simp at hle ⊢; omega⟩
  obtain ⟨hR0, hR1, hRl⟩ := hR
  by_cases h0 : nsPos = 0
  case neg =>
    have hne : colonsToSlash (s.take nsPos) ≠ [] := by
      intro h
      have := congrArg List.length (colonsToSlash_eq_nil.1 h)
      rw [List.length_take, List.length_nil] at this
      omega
    refine iff_of_true (fun h => hne (List.append_eq_nil_iff.1 h).1) ⟨hc, hr, ?_, ?_⟩
    · rintro rfl
      exact hfirst 0 (by omega) ⟨[], c!"_Response_", rfl, rfl⟩
    · rintro ⟨hp, _⟩
      exact hfirst 0 (by omega) (occursAt_zero.2 hp)
  subst h0
  have hpre : c!"dds_::" <+: s := occursAt_zero.1 hocc
  have hsuf6 : 6 ≤ suf := by
    have d0 := occursAt_getElem? hocc 0 (by decide)
    have d1 := occursAt_getElem? hocc 1 (by decide)
    have d2 := occursAt_getElem? hocc 2 (by decide)
    have d3 := occursAt_getElem? hocc 3 (by decide)
    have d4 := occursAt_getElem? hocc 4 (by decide)
    have d5 := occursAt_getElem? hocc 5 (by decide)
    refine Nat.le_of_not_lt fun hlt => ?_
    have hcase : suf = 0 ∨ suf = 1 ∨ suf = 2 ∨ suf = 3 ∨ suf = 4 ∨ suf = 5 := by omega
    rcases hcase with h | h | h | h | h | h <;> subst h <;> simp_all
  have hempty : colonsToSlash (s.take 0) ++ slice s (0 + 6) suf = [] ↔ suf = 6 := by
    rw [List.take_zero, show colonsToSlash [] = [] from rfl, List.nil_append, Nat.zero_add]
    unfold slice
    rw [if_neg (by omega)]
    rw [List.take_eq_nil_iff, List.drop_eq_nil_iff]
    omega
  rw [Ne, hempty]
  rw [suffixLoop_eq] at hsuf
  by_cases hresp : c!"_Response_" <:+ s
  · rw [if_pos hresp] at hsuf
    have hs : s.length - 10 = suf := by simpa using hsuf
    constructor
    · intro h6
      refine ⟨hc, hr, ?_, fun h => h.2.1 hresp⟩
      rintro rfl
      exact h6 hs.symm
    · rintro ⟨_, _, h, _⟩ h6
      apply h
      obtain ⟨p, rfl⟩ := hresp
      have hp6 : p.length = 6 := by simp at hs; omega
      have hpp : c!"dds_::" = p := by
        obtain ⟨q, hq⟩ := hpre
        exact (List.append_inj hq (by simpa using hp6.symm)).1
      rw [← hpp]
      rfl
  · rw [if_neg hresp] at hsuf
    have hspec := rfind_some_iff.1 hsuf
    constructor
    · intro h6
      refine ⟨hc, hr, ?_, ?_⟩
      · rintro rfl
        exact hresp ⟨c!"dds_::", rfl⟩
      · rintro ⟨_, _, ho, hlast⟩
        have := rfind_some_iff.2 ⟨ho, hlast⟩
        rw [hsuf] at this
        exact h6 (Option.some.inj this)
    · rintro ⟨_, _, _, h⟩ h6
      subst h6
      exact h ⟨hpre, hresp, hspec⟩

/-- C27, negation: whatever follows "_Request_", a type with something before "dds_::" is
accepted. -/
theorem C27_negation_all (a b c : Str) (ha : a ≠ [])
    (hd : ¬ c!"dds_::" <+: a ++ (c!"dds_::" ++ b ++ c!"_Request_" ++ c)) :
    demangleServiceType (a ++ (c!"dds_::" ++ b ++ c!"_Request_" ++ c)) ≠ [] := by
  rw [C27_exact]
  refine ⟨⟨a.length, a, b ++ c!"_Request_" ++ c, by simp, rfl⟩,
    .inr ⟨(a ++ c!"dds_::" ++ b).length, a ++ c!"dds_::" ++ b, c, by simp, rfl⟩, ?_, fun h => hd h.1⟩
  intro h
  exact hd (h ▸ ⟨c!"_Response_", rfl⟩)

example : demangleServiceType c!"a::dds_::B_Request_C" ≠ [] :=
  C27_negation_all c!"a::" c!"B" c!"C" (by decide) (by decide)

/-- C27, negation: a type whose last "_Request_" stands before its "dds_::" is accepted as well, and
then everything behind "dds_::" is given back, with no suffix taken off. -/
theorem C27_negation_order (a b : Str) (q : Nat)
    (hd : ∀ j, j < a.length → ¬ OccursAt c!"dds_::" (a ++ c!"dds_::" ++ b) j)
    (hq : OccursAt c!"_Request_" (a ++ c!"dds_::" ++ b) q) (hqa : q < a.length)
    (hl : ∀ j, q < j → ¬ OccursAt c!"_Request_" (a ++ c!"dds_::" ++ b) j)
    (hr : ¬ c!"_Response_" <:+ a ++ c!"dds_::" ++ b) :
    ∃ x, x ≠ [] ∧ demangleServiceType (a ++ c!"dds_::" ++ b) = x ++ b := by
  have hf : find c!"dds_::" (a ++ c!"dds_::" ++ b) = some a.length :=
    find_some_iff.2 ⟨⟨a, b, rfl, rfl⟩, hd⟩
  have hs : suffixLoop (a ++ c!"dds_::" ++ b) typeSuffixes (some 0) = some q := by
    rw [suffixLoop_eq, if_neg hr]
    exact rfind_some_iff.2 ⟨hq, hl⟩
  refine ⟨colonsToSlash a, fun h => ?_, ?_⟩
  · rw [colonsToSlash_eq_nil.1 h] at hqa
    exact Nat.not_lt_zero _ hqa
  · unfold demangleServiceType
    rw [show ddsNs = c!"dds_::" from rfl, hf, hs]
    simp only
    rw [replaceAllC_colons]
    have h1 : (a ++ c!"dds_::" ++ b).take a.length = a := by
      rw [List.append_assoc, List.take_left]
    have h2 : (a ++ c!"dds_::" ++ b).drop (a.length + (c!"dds_::" : Str).length) = b := by
      rw [← List.length_append, List.drop_left]
    rw [h1]
    unfold slice
    rw [if_pos (by omega), h2]

example : demangleServiceType c!"x_Request_::dds_::B" = c!"x_Request_/B" := by decide

/-- The names without anything to return, though of the right form. -/
example : demangleServiceType c!"dds_::_Request_" = [] ∧ demangleServiceType c!"dds_::_Request_X" = [] ∧
    demangleServiceType c!"dds_::_Response_" = [] ∧
    demangleServiceType c!"dds_::_Response_X_Request_" = c!"_Response_X" := by
  decide

end Verif.Mangling

namespace Verif.CMake

/-- C129, negation: of a project that sets the numbers but not `MODULE_VERSION`, every number is
replaced by the one in the file; of a project that sets `MODULE_VERSION` but not all numbers,
the version stays and the numbers are those of the file, whatever they are. -/
theorem C129_negation_all (e : Env) (content a b c : Str) (hs : ';' ∉ content)
    (ha : Numeral a) (hb : Numeral b) (hc : Numeral c)
    (ga : Gives content c!"VERSION_MAJOR" a) (gb : Gives content c!"VERSION_MINOR" b)
    (gc : Gives content c!"VERSION_PATCH" c)
    (hm : ∃ x ∈ [c!"MODULE_VERSION_MAJOR", c!"MODULE_VERSION_MINOR", c!"MODULE_VERSION_PATCH",
      c!"MODULE_VERSION"], e.get x = none) :
    ∃ e', configureVersion e content = some e' ∧
      e'.get c!"MODULE_VERSION_MAJOR" = some a ∧ e'.get c!"MODULE_VERSION_MINOR" = some b ∧
      e'.get c!"MODULE_VERSION_PATCH" = some c ∧
      ∀ v, e.get c!"MODULE_VERSION" = some v → e'.get c!"MODULE_VERSION" = some v := by
  obtain ⟨e', h, h1, h2, h3, _, h5, _⟩ := C129_read e content a b c hs ha hb hc ga gb gc
  refine ⟨e', ?_, h1, h2, h3, h5⟩
  unfold configureVersion
  rw [if_neg, h]
  rintro ⟨k1, k2, k3, k4⟩
  obtain ⟨x, hx, hn⟩ := hm
  simp only [List.mem_cons, List.not_mem_nil, or_false] at hx
  rcases hx with rfl | rfl | rfl | rfl <;> simp_all

example : ∃ x ∈ [c!"MODULE_VERSION_MAJOR", c!"MODULE_VERSION_MINOR", c!"MODULE_VERSION_PATCH",
    c!"MODULE_VERSION"], threeNumbers.get x = none := by decide

/-- C131, negation: for every module and every large name the summary is the plain name; and a
large name that CMake reads as "no" or "not found" is replaced by the plain name. -/
theorem C131_negation_all (e : Env) (n : Str) (hn : e.get c!"MODULE_NAME" = some n)
    (hw : OneWord n) :
    ∃ e', loadSettings e = some e' ∧
      (∀ l, Given e c!"MODULE_NAME_LARGE" l → l ≠ n → Missing e c!"MODULE_SUMMARY" →
        e'.get c!"MODULE_NAME_LARGE" = some l ∧ e'.get c!"MODULE_SUMMARY" ≠ some l) ∧
      (∀ l, e.get c!"MODULE_NAME_LARGE" = some l → Denies l → l ≠ n →
        e'.get c!"MODULE_NAME_LARGE" ≠ some l) := by
  obtain ⟨e', h, h1, h2, _⟩ := C131_settings_partial e n hn hw
  refine ⟨e', h, ?_, ?_⟩
  · intro l hg hl hm
    refine ⟨h1 _ (by decide) l hg, ?_⟩
    rw [h2 _ (by decide) hm]
    simpa using Ne.symm hl
  · intro l hg hd hl
    rw [h2 _ (by decide) (fun v hv => by rw [hg] at hv; cases hv; exact hd)]
    simpa using Ne.symm hl

example : Given (cppUtils.put c!"MODULE_NAME_LARGE" (some c!"Utils for C++")) c!"MODULE_NAME_LARGE"
    c!"Utils for C++" ∧ Denies c!"not there-NOTFOUND" :=
  ⟨⟨by decide, by simp only [Denies, No]; decide⟩, .inr (.inr (.inr ⟨c!"not there", rfl⟩))⟩

end Verif.CMake
