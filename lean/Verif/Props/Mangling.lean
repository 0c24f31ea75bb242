import Verif.Lemmas.Mangling
/-!
C21-C27: ROS 2 name mangling.
-/
namespace Verif.Mangling
open Verif.Strings Verif.Spec

/-! ### C21: topics -/

/-- Specification: the name already carries one of the three ROS prefixes. -/
def AlreadyMangled (t : Str) : Prop :=
  c!"rt/" <+: t ∨ c!"rq/" <+: t ∨ c!"rr/" <+: t

theorem startsWith_iff {s p : Str} : startsWith s p = true ↔ p <+: s := List.isPrefixOf_iff_prefix

theorem demangle_not {t : Str} (h : ¬ AlreadyMangled t) : demangleIfRosTopic t = t := by
  simp only [AlreadyMangled, not_or] at h
  have h1 : ¬ startsWith t c!"rt/" = true := fun e => h.1 (startsWith_iff.1 e)
  have h2 : ¬ startsWith t c!"rq/" = true := fun e => h.2.1 (startsWith_iff.1 e)
  have h3 : ¬ startsWith t c!"rr/" = true := fun e => h.2.2 (startsWith_iff.1 e)
  simp [demangleIfRosTopic, removeRosPrefixIfExists, rosPrefixes, rtPrefix, rqPrefix, rrPrefix,
    List.find?_cons, h1, h2, h3]

theorem not_mangled_of_slash (r : Str) : ¬ AlreadyMangled ('/' :: r) := by
  simp [AlreadyMangled, List.cons_prefix_cons]

/-- C21: demangling inverts mangling on every name that is not already mangled. -/
theorem C21_roundtrip (t : Str) (h : ¬ AlreadyMangled t) :
    demangleIfRosTopic (mangleIfRosTopic t) = t := by
  unfold mangleIfRosTopic
  by_cases hs : startsWith t c!"/" = true
  · rw [if_pos hs]
    obtain ⟨r, rfl⟩ := startsWith_iff.1 hs
    have : startsWith (rtPrefix ++ (c!"/" ++ r)) c!"rt/" = true :=
      startsWith_iff.2 ⟨r, by simp [rtPrefix]⟩
    simp [demangleIfRosTopic, removeRosPrefixIfExists, rosPrefixes, List.find?_cons,
      startsWith, rtPrefix]
  · rw [if_neg hs]; exact demangle_not h

example : ¬ AlreadyMangled c!"/chatter" ∧ mangleIfRosTopic c!"/chatter" = c!"rt/chatter" := by
  constructor
  · simp [AlreadyMangled, List.cons_prefix_cons]
  · decide

/-- C21: the names changed are exactly those that start with "/", and they get the prefix "rt". -/
theorem C21_changes (t : Str) :
    (mangleIfRosTopic t ≠ t ↔ c!"/" <+: t) ∧
    (c!"/" <+: t → mangleIfRosTopic t = c!"rt" ++ t) := by
  unfold mangleIfRosTopic
  by_cases hs : startsWith t c!"/" = true
  · have := startsWith_iff.1 hs
    rw [if_pos hs]
    refine ⟨⟨fun _ => this, fun _ h => ?_⟩, fun _ => rfl⟩
    have := congrArg List.length h
    simp [rtPrefix] at this; omega
  · rw [if_neg hs]
    have hn : ¬ c!"/" <+: t := fun e => hs (startsWith_iff.2 e)
    exact ⟨⟨fun h => absurd rfl h, fun h => absurd h hn⟩, fun h => absurd h hn⟩

/-- C21: different ROS names stay different; so do any two names that are not already mangled. -/
theorem C21_injective (t u : Str) (ht : ¬ AlreadyMangled t) (hu : ¬ AlreadyMangled u)
    (h : mangleIfRosTopic t = mangleIfRosTopic u) : t = u := by
  rw [← C21_roundtrip t ht, ← C21_roundtrip u hu, h]

/-- C21: demangling removes exactly the two letters in front of the first slash of a mangled name,
keeps every other name, and the prefix reported is the one removed. -/
theorem C21_demangle (t : Str) :
    (∀ p ∈ [c!"rt", c!"rq", c!"rr"], ∀ r, t = p ++ c!"/" ++ r →
      demangleIfRosTopic t = c!"/" ++ r ∧ getRosPrefixIfExists t = p) ∧
    (¬ AlreadyMangled t → demangleIfRosTopic t = t ∧ getRosPrefixIfExists t = []) := by
  constructor
  · intro p hp r ht
    subst ht
    simp only [List.mem_cons, List.not_mem_nil, or_false] at hp
    rcases hp with rfl | rfl | rfl <;>
      simp [demangleIfRosTopic, removeRosPrefixIfExists, getRosPrefixIfExists, rosPrefixes,
        List.find?_cons, startsWith, rtPrefix, rqPrefix, rrPrefix]
  · intro h
    refine ⟨demangle_not h, ?_⟩
    simp only [AlreadyMangled, not_or] at h
    have h1 : ¬ startsWith t c!"rt/" = true := fun e => h.1 (startsWith_iff.1 e)
    have h2 : ¬ startsWith t c!"rq/" = true := fun e => h.2.1 (startsWith_iff.1 e)
    have h3 : ¬ startsWith t c!"rr/" = true := fun e => h.2.2 (startsWith_iff.1 e)
    simp [getRosPrefixIfExists, rosPrefixes, rtPrefix, rqPrefix, rrPrefix,
      List.find?_cons, h1, h2, h3]

example : demangleIfRosTopic c!"rq/add/x" = c!"/add/x" := by decide

/-! ### C22, C23: message types -/

/-- Specification: no text of `x` is confused with the separators the mangling introduces. -/
def NoClash (x : Str) : Prop := ¬ c!"::" <:+: x ∧ ¬ c!":/" <:+: x ∧ ¬ c!"dds_/" <:+: x

/-- The message type with the name `name` in the package `pkg`, cut at the first "/msg/". -/
theorem mangle_type (pkg name : Str) (hl : LeftmostAt c!"/msg/" (pkg ++ c!"/msg/" ++ name) pkg name)
    (hn : name ≠ []) :
    mangleIfRosType (pkg ++ c!"/msg/" ++ name) =
      slashToColons (pkg ++ c!"/msg/") ++ ddsNs ++ name ++ c!"_" := by
  unfold mangleIfRosType
  rw [show msgFormat = c!"/msg/" from rfl, leftmost_find hl]
  have e1 : (pkg ++ c!"/msg/" ++ name).take (pkg.length + 5) = pkg ++ c!"/msg/" :=
    List.take_left' (by simp)
  have e2 : (pkg ++ c!"/msg/" ++ name).drop (pkg.length + 5) = name :=
    List.drop_left' (by simp)
  have hlen : ¬ name.length = 0 := fun h => hn (List.length_eq_zero_iff.1 h)
  simp only [show (c!"/msg/" : Str).length = 5 from rfl, e1, e2, hlen, if_false, replaceAllC_slash]
  rfl

theorem demangle_type (x name : Str) (hx : NoClash x) (hlast : x.getLast? = some '/') :
    demangleIfRosType (slashToColons x ++ ddsNs ++ name ++ c!"_") = .ok (x ++ name) := by
  have hl := dds_leftmost x (name ++ c!"_") hx.1 hx.2.1 hx.2.2 (.inr hlast)
  rw [show slashToColons x ++ ddsNs ++ name ++ c!"_" = slashToColons x ++ ddsNs ++ (name ++ c!"_") by simp]
  unfold demangleIfRosType
  have hgl : (slashToColons x ++ ddsNs ++ (name ++ c!"_")).getLast? = some '_' := by
    rw [← List.append_assoc]; exact List.getLast?_concat
  rw [hgl, leftmost_find hl]
  simp only [ne_eq, not_true_eq_false, if_false]
  rw [List.append_assoc, List.take_left, replaceAllC_colons, colons_slash_colons x hx.1 hx.2.1]
  congr 2
  unfold slice
  rw [if_neg (by simp; omega)]
  rw [← List.append_assoc, List.drop_left' (by simp)]
  exact List.take_left' (by simp; omega)

/-- C22: demangling inverts mangling on every ROS message type whose package part has no "::",
":/" or "dds_/" in it.  (`pkg` and `name` are what precedes and follows the first "/msg/".) -/
theorem C22_roundtrip (pkg name : Str)
    (hl : LeftmostAt c!"/msg/" (pkg ++ c!"/msg/" ++ name) pkg name) (hn : name ≠ [])
    (hx : NoClash (pkg ++ c!"/msg/")) :
    demangleIfRosType (mangleIfRosType (pkg ++ c!"/msg/" ++ name)) = .ok (pkg ++ c!"/msg/" ++ name) := by
  rw [mangle_type pkg name hl hn]
  exact demangle_type _ _ hx (by simp [List.getLast?_append])

/-- For a package without slashes, the first "/msg/" is the one after the package. -/
theorem leftmost_of_plain (pkg name mid : Str) (h : '/' ∉ pkg) :
    LeftmostAt ('/' :: mid) (pkg ++ '/' :: mid ++ name) pkg name := by
  refine ⟨rfl, ?_⟩
  intro j hj hoc
  have := occursAt_getElem? hoc 0 (by simp)
  rw [Nat.add_zero, List.append_assoc, List.getElem?_append_left hj] at this
  exact h (List.mem_of_getElem? this)

theorem infix_append_sep {a b : Str} {x : Str} {c : Char} (h : x <:+: a ++ c :: b) (hc : c ∉ x) :
    x <:+: a ∨ x <:+: b := by
  obtain ⟨p, q, e⟩ := h
  have e' : p ++ (x ++ q) = a ++ c :: b := by simpa using e
  rcases List.append_eq_append_iff.1 e' with ⟨a', rfl, h2⟩ | ⟨c', hp, h2⟩
  · rcases List.append_eq_append_iff.1 h2 with ⟨a'', rfl, _⟩ | ⟨c'', rfl, h4⟩
    · left; exact ⟨p, a'', by simp⟩
    · cases c'' with
      | nil => left; exact ⟨p, [], by simp⟩
      | cons d c'' =>
        simp at h4
        exact absurd (by simp [h4.1]) hc
  · cases c' with
    | nil =>
      simp at h2
      cases x with
      | nil => left; exact ⟨[], a, by simp⟩
      | cons d x => simp at h2; exact absurd (by simp [h2.1]) hc
    | cons d c' =>
      simp at h2
      right; exact ⟨c', q, by simp [h2.2]⟩

/-- A package name without "/" or ":" that does not end in "dds_" does not clash. -/
theorem noClash_plain (pkg mid : Str) (h1 : '/' ∉ pkg) (h2 : ':' ∉ pkg) (h3 : ¬ c!"dds_" <:+ pkg)
    (h4 : ':' ∉ mid) (h5 : ¬ c!"dds_/" <:+: '/' :: mid) : NoClash (pkg ++ '/' :: mid) := by
  have hc : ':' ∉ pkg ++ '/' :: mid := by simp [h2, h4]
  refine ⟨fun h => hc (h.subset (by simp)), fun h => hc (h.subset (by simp)), ?_⟩
  rintro ⟨p, q, e⟩
  have e' : (p ++ c!"dds_") ++ ('/' :: q) = pkg ++ '/' :: mid := by simpa using e
  rcases List.append_eq_append_iff.1 e' with ⟨a', ha, h⟩ | ⟨c', hp, h⟩
  · cases a' with
    | nil => exact h3 ⟨p, by simpa using ha.symm⟩
    | cons d a' =>
      simp at h
      exact h1 (by rw [ha]; simp [← h.1])
  · -- the occurrence is inside the tail, or straddles the slash (impossible: no slash in "dds_")
    have hocc : c!"dds_/" <:+: pkg ++ '/' :: mid := ⟨p, q, e⟩
    rcases List.append_eq_append_iff.1 (show p ++ (c!"dds_" ++ '/' :: q) = pkg ++ '/' :: mid by simpa using e) with ⟨a', ha, h'⟩ | ⟨c'', hp', h'⟩
    · rcases List.append_eq_append_iff.1 h' with ⟨a'', ha'', h''⟩ | ⟨c3, hc3, h''⟩
      · cases a'' with
        | nil => exact h3 ⟨p, by rw [ha, ha'']; simp⟩
        | cons d a'' =>
          simp at h''
          exact h1 (by rw [ha, ha'']; simp [← h''.1])
      · cases c3 with
        | nil => exact h3 ⟨p, by rw [ha]; simp at hc3; simp [hc3]⟩
        | cons d c3 =>
          simp at h''
          have : '/' ∈ c!"dds_" := by rw [hc3]; simp [← h''.1]
          exact absurd this (by decide)
    · exact h5 ⟨c'', q, by rw [h']; simp⟩

/-- C22 for plain packages: `<package>/msg/<Name>` round-trips for every package name without "/" or
":" that does not end in "dds_", and every non-empty type name. -/
theorem C22_roundtrip_plain (pkg name : Str) (h1 : '/' ∉ pkg) (h2 : ':' ∉ pkg)
    (h3 : ¬ c!"dds_" <:+ pkg) (hn : name ≠ []) :
    demangleIfRosType (mangleIfRosType (pkg ++ c!"/msg/" ++ name)) = .ok (pkg ++ c!"/msg/" ++ name) := by
  refine C22_roundtrip pkg name (leftmost_of_plain _ _ _ h1) hn ?_
  refine noClash_plain pkg c!"msg/" h1 h2 h3 (by decide) ?_
  rw [← contains_iff_infix, ← find_none_iff]
  decide

example : mangleIfRosType c!"std_msgs/msg/String" = c!"std_msgs::msg::dds_::String_" := by decide
example : demangleIfRosType c!"std_msgs::msg::dds_::String_" = .ok c!"std_msgs/msg/String" := by decide
/-- The conditions on the package are needed. -/
example : demangleIfRosType (mangleIfRosType c!"a::b/msg/T") = .ok c!"a/b/msg/T" ∧
    demangleIfRosType (mangleIfRosType c!"dds_/msg/T") = .ok c!"msg::dds_::T" := by decide

/-- C22: names that are not ROS message types are returned unchanged. -/
theorem C22_unchanged (s : Str) :
    (mangleIfRosType s = s ↔
      ¬ ∃ pkg name, LeftmostAt c!"/msg/" s pkg name ∧ name ≠ []) ∧
    (s ≠ [] → (s.getLast? ≠ some '_' ∨ ¬ Contains c!"dds_::" s) → demangleIfRosType s = .ok s) := by
  constructor
  · constructor
    · rintro h ⟨pkg, name, hl, hn⟩
      have e := hl.1
      subst e
      rw [mangle_type pkg name hl hn] at h
      have h1 := congrArg List.length h
      have h2 : ∀ x : Str, x.length ≤ (slashToColons x).length := by
        intro x
        induction x with
        | nil => simp
        | cons c x ih =>
          rw [slashToColons_cons]
          split <;> simp <;> omega
      have := h2 (pkg ++ c!"/msg/")
      simp [ddsNs] at h1 this
      omega
    · intro h
      unfold mangleIfRosType
      cases hf : find msgFormat s with
      | none => rfl
      | some pos =>
        simp only
        by_cases hn : (s.drop (pos + msgFormat.length)).length = 0
        · rw [if_pos hn]
        · exact absurd ⟨_, _, find_leftmost hf, fun e => hn (congrArg List.length e)⟩ h
  · intro hne h
    unfold demangleIfRosType
    cases hg : s.getLast? with
    | none => exact absurd (List.getLast?_eq_none_iff.1 hg) hne
    | some c =>
      simp only
      by_cases hc : c = '_'
      · rw [if_neg (by simp [hc])]
        have : ¬ Contains c!"dds_::" s := by
          rcases h with h | h
          · rw [hg, hc] at h; exact absurd rfl h
          · exact h
        rw [show ddsNs = c!"dds_::" from rfl, find_none_iff.2 this]
      · rw [if_pos hc]

/-- C22: the names `demangle_if_ros_type` changes, exactly: those ending in "_" that contain
"dds_::" (and then the text after the first "dds_::" is kept without the final "_"). -/
theorem C22_demangle_exact (p q : Str) (hl : LeftmostAt c!"dds_::" (p ++ c!"dds_::" ++ q ++ c!"_") p (q ++ c!"_")) :
    ∃ n p', Replacements c!"::" c!"/" n p p' ∧ ¬ Contains c!"::" p' ∧
      demangleIfRosType (p ++ c!"dds_::" ++ q ++ c!"_") = .ok (p' ++ q) := by
  obtain ⟨n, _, h1, h2⟩ := replacements_colons p [] (by simp [Contains, OccursAt]) (by simp)
  refine ⟨n, _, by simpa using h1, by simpa using h2, ?_⟩
  unfold demangleIfRosType
  rw [List.getLast?_concat, show ddsNs = c!"dds_::" from rfl, leftmost_find hl]
  simp only [ne_eq, not_true_eq_false, if_false, List.nil_append]
  rw [List.append_assoc, List.append_assoc, List.take_left, replaceAllC_colons]
  congr 2
  unfold slice
  rw [if_neg (by simp), ← List.append_assoc, List.drop_left' (by simp)]
  exact List.take_left' (by simp; omega)

/-- C23 is false: the empty string makes `demangle_if_ros_type` read out of range. -/
theorem C23_negation : demangleIfRosType [] = .ub := rfl

/-- C23, what holds: every non-empty argument gives a result. -/
theorem C23_partial (s : Str) (h : s ≠ []) : ∃ r, demangleIfRosType s = .ok r := by
  unfold demangleIfRosType
  cases hg : s.getLast? with
  | none => exact absurd (List.getLast?_eq_none_iff.1 hg) h
  | some c =>
    simp only
    split
    · exact ⟨_, rfl⟩
    · split <;> exact ⟨_, rfl⟩

/-! ### C24, C25: service topics -/

theorem removePrefix_iff {name pre r : Str} : name = pre ++ c!"/" ++ r → removePrefix name pre = c!"/" ++ r := by
  rintro rfl
  unfold removePrefix
  rw [if_pos (startsWith_iff.2 ⟨r, rfl⟩), List.append_assoc, List.drop_left]

theorem removePrefix_not {name pre : Str} (h : ¬ (pre ++ c!"/") <+: name) : removePrefix name pre = [] := by
  unfold removePrefix
  rw [if_neg (fun e => h (startsWith_iff.1 e))]

/-- C185, what holds: `remove_prefix` gives something exactly for the names that begin with the prefix and "/", and then
what follows the prefix; `demangle_ros_topic_prefix_from_topic` does so with "rt".  Missing: the slash is not removed,
`C185_negation`. -/
theorem C185_remove_partial (name pre : Str) :
    (∀ r, name = pre ++ c!"/" ++ r → removePrefix name pre = c!"/" ++ r) ∧
    (removePrefix name pre ≠ [] → ∃ r, name = pre ++ c!"/" ++ r) ∧
    (∀ r, name = c!"rt/" ++ r → demangleRosTopicPrefixFromTopic name = c!"/" ++ r) ∧
    (demangleRosTopicPrefixFromTopic name ≠ [] → ∃ r, name = c!"rt/" ++ r) := by
  have h1 : ∀ p : Str, removePrefix name p ≠ [] → ∃ r, name = p ++ c!"/" ++ r := by
    intro p h
    by_cases hp : (p ++ c!"/") <+: name
    · obtain ⟨r, rfl⟩ := hp
      exact ⟨r, rfl⟩
    · exact absurd (removePrefix_not hp) h
  refine ⟨fun r h => removePrefix_iff h, h1 pre, fun r h => removePrefix_iff h, fun h => h1 _ h⟩

/-- C185: `remove_prefix` undoes `add_prefix` exactly for names that begin with "/"; other names are lost. -/
theorem C185_add (name pre : Str) :
    (removePrefix (addPrefix name pre) pre = if startsWith name c!"/" then name else []) := by
  unfold addPrefix
  by_cases h : startsWith name c!"/" = true
  · obtain ⟨r, rfl⟩ := startsWith_iff.1 h
    rw [if_pos h]
    exact removePrefix_iff (by simp)
  · rw [if_neg h]
    refine removePrefix_not ?_
    rintro ⟨r, hr⟩
    refine h (startsWith_iff.2 ⟨r, ?_⟩)
    rw [List.append_assoc] at hr
    exact (List.append_cancel_left hr)

/-- C185 is false: the slash after the prefix, which the documentation says is removed too, is in every result. -/
theorem C185_negation (r pre : Str) : removePrefix (pre ++ c!"/" ++ r) pre ≠ r ∧
    ∀ name : Str, removePrefix name pre ≠ [] → (removePrefix name pre).head? = some '/' := by
  constructor
  · rw [removePrefix_iff rfl]
    intro h
    have := congrArg List.length h
    simp at this
  · intro name h
    obtain ⟨r, hr⟩ := (C185_remove_partial name pre).2.1 h
    rw [removePrefix_iff hr]
    rfl

example : removePrefix c!"rt/chatter" c!"rt" = c!"/chatter" ∧ removePrefix c!"chatter" c!"rt" = [] ∧
    demangleRosTopicPrefixFromTopic c!"rt/chatter" = c!"/chatter" ∧
    removePrefix (addPrefix c!"chatter" c!"rt") c!"rt" = [] := by decide

/-- The exact behaviour of the demangling with a prefix and a suffix that does not start with a slash. -/
theorem demangleServiceWith_spec (pre suffix t : Str) (hs : suffix.head? ≠ some '/') :
    (∀ r, t = pre ++ c!"/" ++ r ++ suffix → demangleServiceWith pre t suffix = c!"/" ++ r) ∧
    (demangleServiceWith pre t suffix ≠ [] → ∃ r, t = pre ++ c!"/" ++ r ++ suffix) := by
  constructor
  · rintro r rfl
    unfold demangleServiceWith
    rw [removePrefix_iff (r := r ++ suffix) (by simp)]
    simp only [List.append_eq_nil_iff, List.cons_ne_nil, false_and, if_false]
    rw [← List.append_assoc, rfind_append]
    simp
  · intro h
    unfold demangleServiceWith at h
    by_cases hp : (pre ++ c!"/") <+: t
    · obtain ⟨r, rfl⟩ := hp
      rw [removePrefix_iff rfl] at h
      simp only [List.append_eq_nil_iff, List.cons_ne_nil, false_and, if_false] at h
      cases hr : rfind suffix (c!"/" ++ r) with
      | none => rw [hr] at h; exact absurd rfl h
      | some pos =>
        rw [hr] at h
        simp only [ne_eq] at h
        by_cases h0 : (c!"/" ++ r).length - pos - suffix.length = 0
        · have e := (rfind_end hr).1 h0
          cases pos with
          | zero =>
            exfalso
            simp only [List.take_zero, List.nil_append] at e
            exact hs (by rw [← e]; rfl)
          | succ pos =>
            refine ⟨r.take pos, ?_⟩
            have e2 : '/' :: r = '/' :: (r.take pos ++ suffix) := by simpa using e
            rw [List.append_assoc _ _ suffix, ← (List.cons.inj e2).2]
        · rw [if_pos h0] at h; exact absurd rfl h
    · rw [removePrefix_not hp] at h
      simp at h

/-- C25: the request demangling accepts exactly the topics `rq/<name>Request` and gives `/<name>`. -/
theorem C25_request (t : Str) :
    (demangleRequest t ≠ [] ↔ ∃ name, t = c!"rq/" ++ name ++ c!"Request") ∧
    (∀ name, demangleRequest (c!"rq/" ++ name ++ c!"Request") = c!"/" ++ name) := by
  have H := fun t => demangleServiceWith_spec rqPrefix c!"Request" t (by decide)
  have h2 : ∀ name, demangleRequest (c!"rq/" ++ name ++ c!"Request") = c!"/" ++ name :=
    fun name => (H _).1 name rfl
  refine ⟨⟨fun h => (H t).2 h, ?_⟩, h2⟩
  rintro ⟨name, rfl⟩
  rw [h2]; simp

/-- C25: the reply demangling accepts exactly the topics `rr/<name>Reply` and gives `/<name>`. -/
theorem C25_reply (t : Str) :
    (demangleReply t ≠ [] ↔ ∃ name, t = c!"rr/" ++ name ++ c!"Reply") ∧
    (∀ name, demangleReply (c!"rr/" ++ name ++ c!"Reply") = c!"/" ++ name) := by
  have H := fun t => demangleServiceWith_spec rrPrefix c!"Reply" t (by decide)
  have h2 : ∀ name, demangleReply (c!"rr/" ++ name ++ c!"Reply") = c!"/" ++ name :=
    fun name => (H _).1 name rfl
  refine ⟨⟨fun h => (H t).2 h, ?_⟩, h2⟩
  rintro ⟨name, rfl⟩
  rw [h2]; simp

/-- C25: no topic is accepted by both, and the generic variant agrees with the one that accepts. -/
theorem C25_generic (t : Str) :
    (demangleRequest t = [] ∨ demangleReply t = []) ∧
    (demangleRequest t ≠ [] → demangleService t = demangleRequest t) ∧
    (demangleReply t ≠ [] → demangleService t = demangleReply t) ∧
    (demangleRequest t = [] → demangleReply t = [] → demangleService t = []) := by
  have hd : demangleRequest t = [] ∨ demangleReply t = [] := by
    by_cases h1 : demangleRequest t = []
    · exact .inl h1
    · right
      by_cases h2 : demangleReply t = []
      · exact h2
      · obtain ⟨a, ha⟩ := (C25_request t).1.1 h1
        obtain ⟨b, hb⟩ := (C25_reply t).1.1 h2
        rw [ha] at hb
        simp at hb
  refine ⟨hd, ?_, ?_, ?_⟩
  · intro h
    have h2 : demangleReply t = [] := hd.resolve_left h
    simp [demangleService, h2]
  · intro h; simp [demangleService, h]
  · intro h1 h2; simp [demangleService, h1, h2]

example : demangleService c!"rq/a/bRequest" = c!"/a/b" ∧ demangleService c!"rr/a/bReply" = c!"/a/b" ∧
    demangleService c!"rq/a/bReply" = [] := by decide

/-- C24 is false: a service name with a namespace is mangled to the empty string, which does not
demangle to it. -/
theorem C24_negation : mangleRequest c!"/ns/add" = [] ∧ demangleRequest (mangleRequest c!"/ns/add") ≠ c!"/ns/add" := by
  decide

/-- C24, what the mangling does on every name: it succeeds exactly on "/" followed by a text
without slashes. -/
theorem C24_mangle_exact (t : Str) :
    (∀ seg, '/' ∉ seg → t = c!"/" ++ seg →
      mangleRequest t = c!"rq" ++ t ++ c!"Request" ∧ mangleReply t = c!"rr" ++ t ++ c!"Reply") ∧
    ((¬ ∃ seg, '/' ∉ seg ∧ t = c!"/" ++ seg) → mangleRequest t = [] ∧ mangleReply t = []) := by
  have key : rfind c!"/" t = some 0 ↔ ∃ seg, '/' ∉ seg ∧ t = c!"/" ++ seg := by
    rw [rfind_some_iff]
    constructor
    · rintro ⟨h1, h2⟩
      obtain ⟨seg, rfl⟩ := occursAt_zero.1 h1
      refine ⟨seg, ?_, rfl⟩
      intro hm
      obtain ⟨p, q, rfl⟩ := List.append_of_mem hm
      exact h2 (p.length + 1) (by omega) ⟨'/' :: p, q, by simp, by simp⟩
    · rintro ⟨seg, hs, rfl⟩
      refine ⟨occursAt_zero.2 ⟨seg, rfl⟩, ?_⟩
      intro j hj hoc
      obtain ⟨k, rfl⟩ : ∃ k, j = k + 1 := ⟨j - 1, by omega⟩
      have : OccursAt c!"/" seg k := occursAt_succ.1 hoc
      exact hs (contains_singleton.1 ⟨k, this⟩)
  constructor
  · intro seg hs ht
    have := key.2 ⟨seg, hs, ht⟩
    simp [mangleRequest, mangleReply, mangleServiceWith, this, rqPrefix, rrPrefix]
  · intro h
    have : rfind c!"/" t ≠ some 0 := fun e => h (key.1 e)
    simp [mangleRequest, mangleReply, mangleServiceWith, this]

/-- C24, what holds: services without a namespace round-trip.  (Missing: names with more than one
segment, see `C24_negation`.) -/
theorem C24_roundtrip_partial (seg : Str) (h : '/' ∉ seg) :
    demangleRequest (mangleRequest (c!"/" ++ seg)) = c!"/" ++ seg ∧
    demangleReply (mangleReply (c!"/" ++ seg)) = c!"/" ++ seg := by
  obtain ⟨h1, h2⟩ := (C24_mangle_exact (c!"/" ++ seg)).1 seg h rfl
  rw [h1, h2]
  exact ⟨(C25_request []).2 seg, (C25_reply []).2 seg⟩

example : mangleRequest c!"/add_two_ints" = c!"rq/add_two_intsRequest" := by decide

/-! ### C26, C27: service types -/

/-- The loop over the suffixes: the position when the text ends in one of them. -/
theorem suffixLoop_response (p : Str) : suffixLoop (p ++ c!"_Response_") typeSuffixes (some 0) = some p.length := by
  unfold typeSuffixes suffixLoop
  rw [rfind_append]
  simp

theorem suffixLoop_request (p : Str) : suffixLoop (p ++ c!"_Request_") typeSuffixes (some 0) = some p.length := by
  have hlast : ∀ pos, suffixLoop (p ++ c!"_Request_") [c!"_Request_"] pos = some p.length := by
    intro pos
    unfold suffixLoop
    rw [rfind_append]
    simp
  unfold typeSuffixes suffixLoop
  cases hr : rfind c!"_Response_" (p ++ c!"_Request_") with
  | none => exact hlast _
  | some i =>
    simp only
    rw [if_pos]
    · exact hlast _
    · intro h0
      have e := (rfind_end hr).1 h0
      have e' := congrArg (fun s : Str => s.reverse.take 9) e
      simp at e'

theorem demangleServiceType_of {x name suf : Str} (hx : NoClash x) (hlast : x.getLast? = some '/')
    (hsuf : suffixLoop ((slashToColons x ++ ddsNs ++ name) ++ suf) typeSuffixes (some 0) =
      some (slashToColons x ++ ddsNs ++ name).length) :
    demangleServiceType (slashToColons x ++ ddsNs ++ name ++ suf) = x ++ name := by
  have hl := dds_leftmost x (name ++ suf) hx.1 hx.2.1 hx.2.2 (.inr hlast)
  unfold demangleServiceType
  rw [hsuf, show slashToColons x ++ ddsNs ++ name ++ suf = slashToColons x ++ ddsNs ++ (name ++ suf) by simp,
    leftmost_find hl]
  simp only
  rw [List.append_assoc, List.take_left, replaceAllC_colons, colons_slash_colons x hx.1 hx.2.1]
  congr 1
  unfold slice
  rw [if_neg (by simp), ← List.append_assoc, List.drop_left' (by simp)]
  exact List.take_left' (by simp; omega)

/-- The first "/srv/" of `rq/<pkg>/srv/<name>` is the expected one unless the package is "srv". -/
theorem leftmost_srv (pre pkg name : Str) (hp : pre = c!"rq" ∨ pre = c!"rr") (h1 : '/' ∉ pkg) (h2 : pkg ≠ c!"srv") :
    LeftmostAt c!"/srv/" (pre ++ c!"/" ++ pkg ++ c!"/srv/" ++ name) (pre ++ c!"/" ++ pkg) name := by
  refine ⟨rfl, ?_⟩
  intro j hj hoc
  have hpl : pre.length = 2 := by rcases hp with rfl | rfl <;> rfl
  have h0 := occursAt_getElem? hoc 0 (by simp)
  have hj2 : j = 2 := by
    rcases Nat.lt_trichotomy j 2 with h | h | h
    · exfalso
      rcases hp with rfl | rfl <;>
      · have : j = 0 ∨ j = 1 := by omega
        rcases this with rfl | rfl <;> simp at h0
    · exact h
    · exfalso
      have e : (pre ++ c!"/" ++ pkg ++ c!"/srv/" ++ name)[j + 0]? = pkg[j - 3]? := by
        rw [List.append_assoc, List.append_assoc _ pkg, List.getElem?_append_right (by simp [hpl]; omega),
          List.getElem?_append_left (by simp [hpl] at hj ⊢; omega)]
        simp [hpl]
      rw [e] at h0
      exact h1 (List.mem_of_getElem? h0)
  subst hj2
  have hoc' : OccursAt c!"/srv/" (c!"/" ++ pkg ++ c!"/srv/" ++ name) 0 := by
    rw [← occursAt_append_left_iff (t := pre), hpl]
    simpa using hoc
  obtain ⟨q, hq⟩ := occursAt_zero.1 hoc'
  have hq' : c!"srv" ++ '/' :: q = pkg ++ '/' :: (c!"srv/" ++ name) := by simpa using hq
  have key : ∀ (a b : Str) (x y : Str), '/' ∉ a → '/' ∉ b → a ++ '/' :: x = b ++ '/' :: y → a = b := by
    intro a
    induction a with
    | nil =>
      intro b x y _ hb h
      cases b with
      | nil => rfl
      | cons d b => simp at h hb; exact absurd h.1 hb.1
    | cons c a ih =>
      intro b x y ha hb h
      cases b with
      | nil => simp at h ha; exact absurd h.1.symm ha.1
      | cons d b =>
        simp at h ha hb
        rw [h.1, ih b x y ha.2 hb.2 h.2]
  exact h2 (key _ _ _ _ (by decide) h1 hq').symm

theorem mangleServiceType_of (pre pkg name : Str) (hp : pre = c!"rq" ∨ pre = c!"rr")
    (h1 : '/' ∉ pkg) (h2 : pkg ≠ c!"srv") (h3 : '/' ∉ name) :
    mangleServiceType (pre ++ c!"/" ++ pkg ++ c!"/srv/" ++ name) =
      slashToColons (pre ++ c!"/" ++ pkg ++ c!"/srv/") ++ ddsNs ++ name ++
        (if pre = c!"rq" then c!"_Request_" else c!"_Response_") := by
  have hl := leftmost_srv pre pkg name hp h1 h2
  unfold mangleServiceType
  rw [show srvFormat = c!"/srv/" from rfl, leftmost_find hl]
  have e1 : (pre ++ c!"/" ++ pkg ++ c!"/srv/" ++ name).take ((pre ++ c!"/" ++ pkg).length + 5) =
      pre ++ c!"/" ++ pkg ++ c!"/srv/" := List.take_left' (by simp; omega)
  have e2 : (pre ++ c!"/" ++ pkg ++ c!"/srv/" ++ name).drop ((pre ++ c!"/" ++ pkg).length + 5) = name :=
    List.drop_left' (by simp; omega)
  simp only [show (c!"/srv/" : Str).length = 5 from rfl, e1, e2, replaceAllC_slash, slashToColons_append]
  have hn : slashToColons name = name := slashToColons_id h3
  rcases hp with rfl | rfl
  · have : find c!"rq/" (c!"rq" ++ c!"/" ++ pkg ++ c!"/srv/" ++ name) = some 0 :=
      find_some_iff.2 ⟨occursAt_zero.2 ⟨pkg ++ c!"/srv/" ++ name, by simp⟩, by simp⟩
    rw [if_pos this, hn]
    rfl
  · have h' : find c!"rq/" (c!"rr" ++ c!"/" ++ pkg ++ c!"/srv/" ++ name) ≠ some 0 := by
      intro h
      have := occursAt_zero.1 (find_some_iff.1 h).1
      simp [List.cons_prefix_cons] at this
    have : find c!"rr/" (c!"rr" ++ c!"/" ++ pkg ++ c!"/srv/" ++ name) = some 0 :=
      find_some_iff.2 ⟨occursAt_zero.2 ⟨pkg ++ c!"/srv/" ++ name, by simp⟩, by simp⟩
    rw [if_neg h', if_pos this, hn]
    rfl

/-- C26: demangling inverts mangling on `rq/<package>/srv/<Name>` and `rr/<package>/srv/<Name>` for
every package without "/" or ":" that is not "srv" and does not end in "dds_", and every name
without "/". -/
theorem C26_roundtrip (pre pkg name : Str) (hp : pre = c!"rq" ∨ pre = c!"rr")
    (h1 : '/' ∉ pkg) (h2 : ':' ∉ pkg) (h3 : ¬ c!"dds_" <:+ pkg) (h4 : pkg ≠ c!"srv") (h5 : '/' ∉ name) :
    demangleServiceType (mangleServiceType (pre ++ c!"/" ++ pkg ++ c!"/srv/" ++ name)) =
      pre ++ c!"/" ++ pkg ++ c!"/srv/" ++ name := by
  rw [mangleServiceType_of pre pkg name hp h1 h4 h5]
  have hx : NoClash (pre ++ c!"/" ++ pkg ++ c!"/srv/") := by
    have ha : NoClash (pkg ++ c!"/srv/") :=
      noClash_plain pkg c!"srv/" h1 h2 h3 (by decide)
        (by rw [← contains_iff_infix, ← find_none_iff]; decide)
    have hpre : ':' ∉ pre ++ c!"/" ++ pkg ++ c!"/srv/" := by
      rcases hp with rfl | rfl <;> simp [h2]
    refine ⟨fun h => hpre (h.subset (by simp)), fun h => hpre (h.subset (by simp)), ?_⟩
    intro h
    obtain ⟨i, hi⟩ := contains_iff_infix.2 h
    -- the occurrence cannot start in the three characters of the prefix
    have h0 := occursAt_getElem? hi 0 (by simp)
    have hpl : pre.length = 2 := by rcases hp with rfl | rfl <;> rfl
    have : 3 ≤ i := by
      refine Nat.le_of_not_lt fun hlt => ?_
      have : i = 0 ∨ i = 1 ∨ i = 2 := by omega
      rcases hp with rfl | rfl <;> rcases this with rfl | rfl | rfl <;> simp at h0
    rw [show pre ++ c!"/" ++ pkg ++ c!"/srv/" = (pre ++ c!"/") ++ (pkg ++ c!"/srv/") by simp,
      show i = (pre ++ c!"/").length + (i - 3) by simp [hpl]; omega, occursAt_append_left_iff] at hi
    exact ha.2.2 (contains_iff_infix.1 ⟨_, hi⟩)
  refine demangleServiceType_of hx (by rw [List.getLast?_append]; rfl) ?_
  rcases hp with rfl | rfl
  · exact suffixLoop_request _
  · exact suffixLoop_response _

example : mangleServiceType c!"rq/pkg/srv/Add" = c!"rq::pkg::srv::dds_::Add_Request_" := by decide
example : demangleServiceType c!"rr::pkg::srv::dds_::Add_Response_" = c!"rr/pkg/srv/Add" := by decide

/-- C26: mangling gives the empty string for everything that has no "/srv/" or does not start with
"rq/" or "rr/". -/
theorem C26_rejects (s : Str) (h : ¬ Contains c!"/srv/" s ∨ (¬ c!"rq/" <+: s ∧ ¬ c!"rr/" <+: s)) :
    mangleServiceType s = [] := by
  unfold mangleServiceType
  cases hf : find srvFormat s with
  | none => rfl
  | some pos =>
    rcases h with h | ⟨h1, h2⟩
    · rw [show srvFormat = c!"/srv/" from rfl, find_none_iff.2 h] at hf; simp at hf
    · have a : find c!"rq/" s ≠ some 0 := fun e => h1 (occursAt_zero.1 (find_some_iff.1 e).1)
      have b : find c!"rr/" s ≠ some 0 := fun e => h2 (occursAt_zero.1 (find_some_iff.1 e).1)
      simp [a, b]

/-- C26, why the package "srv" is excluded: it does not round-trip. -/
theorem C26_srv_package :
    demangleServiceType (mangleServiceType c!"rq/srv/srv/Add") = c!"rq/srv/srv::Add" := by decide

/-- C27 is false: a name with "_Request_" in the middle is accepted. -/
theorem C27_negation : demangleServiceType c!"a::dds_::B_Request_C" = c!"a/B" ∧
    ¬ c!"_Request_" <:+ c!"a::dds_::B_Request_C" ∧ ¬ c!"_Response_" <:+ c!"a::dds_::B_Request_C" := by
  decide

/-- The names accepted, in general. -/
theorem C27_accepts (s : Str) (h : demangleServiceType s ≠ []) :
    Contains c!"dds_::" s ∧ (c!"_Response_" <:+ s ∨ Contains c!"_Request_" s) := by
  unfold demangleServiceType at h
  cases hf : find ddsNs s with
  | none => rw [hf] at h; exact absurd rfl h
  | some pos =>
    refine ⟨⟨pos, (find_some_iff.1 hf).1⟩, ?_⟩
    rw [hf] at h
    simp only at h
    cases hr : rfind c!"_Request_" s with
    | some i => exact .inr ⟨i, (rfind_some_iff.1 hr).1⟩
    | none =>
      left
      unfold typeSuffixes suffixLoop at h
      cases hr2 : rfind c!"_Response_" s with
      | none => simp [hr2, suffixLoop, hr] at h
      | some i =>
        rw [hr2] at h
        simp only [ne_eq] at h
        by_cases h0 : s.length - i - (c!"_Response_" : Str).length = 0
        · exact ⟨_, ((rfind_end hr2).1 h0).symm⟩
        · rw [if_pos h0] at h; simp [suffixLoop, hr] at h

/-- C27, what holds: among the names where "_Request_" does not occur before the end, only names
that contain "dds_::" and end in "_Request_" or "_Response_" are accepted.  (Missing: names with
"_Request_" elsewhere, see `C27_negation`.) -/
theorem C27_partial (s : Str) (hs : ∀ p q, s = p ++ c!"_Request_" ++ q → q = [])
    (h : demangleServiceType s ≠ []) :
    Contains c!"dds_::" s ∧ (c!"_Response_" <:+ s ∨ c!"_Request_" <:+ s) := by
  obtain ⟨h1, h2⟩ := C27_accepts s h
  refine ⟨h1, h2.imp_right ?_⟩
  rintro ⟨i, p, q, e, _⟩
  have := hs p q e
  subst this
  exact ⟨p, by simp [e]⟩

end Verif.Mangling
