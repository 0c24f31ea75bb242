import Verif.Model.Containers
import Verif.Props.PtrSet
import Verif.Props.Strings
import Mathlib.Data.List.Nodup
/-!
C105, C106: helpers for containers.
-/
namespace Verif.Containers

open Spec Strings

/-! ### C105 -/

theorem loop_eq (list : List Str) (sep : Str) (fuel i : Nat) (os : Str) (hf : list.length ≤ fuel + i)
    (h0 : list ≠ []) :
    loop list sep list.length fuel i os ++ (list[list.length - 1]?.getD []) =
      if i < list.length then os ++ List.intercalate sep (list.drop i) else os ++ (list[list.length - 1]?.getD []) := by
  induction fuel generalizing i os with
  | zero =>
    rw [if_neg (by omega)]
    rfl
  | succ fuel ih =>
    have hl : list.length ≠ 0 := by simpa using h0
    unfold loop
    by_cases hi : i < list.length - 1
    · rw [if_pos ⟨hl, hi⟩, ih (i + 1) _ (by omega), if_pos (by omega), if_pos (by omega)]
      have h1 : i < list.length := by omega
      have h2 : i + 1 < list.length := by omega
      have e1 : List.drop i list = list[i] :: list[i + 1] :: List.drop (i + 1 + 1) list := by
        rw [List.drop_eq_getElem_cons h1, List.drop_eq_getElem_cons h2]
      have e2 : List.drop (i + 1) list = list[i + 1] :: List.drop (i + 1 + 1) list :=
        List.drop_eq_getElem_cons h2
      rw [e1, e2, List.getElem?_eq_getElem h1]
      generalize List.drop (i + 1 + 1) list = r
      simp [List.intercalate]
    · rw [if_neg (fun h => hi h.2)]
      by_cases hl' : i < list.length
      · have e : list.length - 1 = i := by omega
        have e1 : List.drop i list = [list[i]] := by
          rw [List.drop_eq_getElem_cons hl', List.drop_eq_nil_of_le (by omega)]
        rw [if_pos hl', e1, e, List.getElem?_eq_getElem hl']
        simp [List.intercalate]
      · rw [if_neg hl']

/-- C105: the text of a container is what was in the stream, then the elements between braces with
the separator between neighbours. -/
theorem C105_text (os : Str) (list : List Str) (sep : Str) :
    containerToStream os list sep = os ++ c!"{" ++ List.intercalate sep list ++ c!"}" := by
  unfold containerToStream
  by_cases h0 : list = []
  · subst h0
    simp [loop, List.intercalate]
  · have hl : 0 < list.length := List.length_pos_iff.2 h0
    have := loop_eq list sep list.length 0 (os ++ c!"{") (by omega) h0
    rw [if_pos hl, List.drop_zero] at this
    simp only [gt_iff_lt, hl, if_true]
    rw [this]

theorem cut_of_disjoint {sep : Str} (hs : sep ≠ []) (list : List Str) (h0 : list ≠ [])
    (hd : ∀ e ∈ list, ∀ c ∈ e, c ∉ sep) : LeftmostCut sep (List.intercalate sep list) list := by
  induction list with
  | nil => exact absurd rfl h0
  | cons e rest ih =>
    obtain ⟨a, sep', hsep⟩ := List.exists_cons_of_ne_nil hs
    cases rest with
    | nil =>
      have : List.intercalate sep [e] = e := by simp [List.intercalate]
      rw [this]
      refine .last ?_
      rintro ⟨i, p, q, hp, -⟩
      exact hd e (by simp) a (by rw [hp, hsep]; simp) (by rw [hsep]; simp)
    | cons f rest =>
      have hi := ih (by simp) fun x hx => hd x (by simp [hx])
      refine .cut (p := e) (q := List.intercalate sep (f :: rest)) ⟨by simp [List.intercalate], ?_⟩ hi
      rintro j hj ⟨p, q, hp, rfl⟩
      have e1 : (List.intercalate sep (e :: f :: rest))[p.length]? = some a := by
        rw [hp, hsep]; simp
      have e2 : (List.intercalate sep (e :: f :: rest))[p.length]? = e[p.length]? := by
        rw [show List.intercalate sep (e :: f :: rest) = e ++ (sep ++ List.intercalate sep (f :: rest)) by
          simp [List.intercalate], List.getElem?_append_left hj]
      rw [e2] at e1
      exact hd e (by simp) a (List.mem_of_getElem? e1) (by rw [hsep]; simp)

/-- C105: `split_string` gives the elements back when they share no character with the separator.
(Missing: other elements and the empty container, see `C105_negation`.) -/
theorem C105_read_back_partial (list : List Str) (sep : Str) (hs : sep ≠ []) (h0 : list ≠ [])
    (hd : ∀ e ∈ list, ∀ c ∈ e, c ∉ sep) :
    ∃ inner, containerToStream [] list sep = '{' :: (inner ++ ['}']) ∧
      ∀ ps, SplitReturns inner sep ps ↔ ps = list := by
  refine ⟨List.intercalate sep list, by rw [C105_text]; simp, fun ps => ?_⟩
  have hc := cut_of_disjoint hs list h0 hd
  obtain ⟨qs, h1, -⟩ := C05_split (List.intercalate sep list) sep hs
  constructor
  · intro h
    exact C05_unique _ _ hs _ _ h hc
  · rintro rfl
    rwa [C05_unique _ _ hs _ _ h1 hc] at h1

example : containerToStream c!"list " [c!"a", c!"b", c!"c"] c!"; " = c!"list {a; b; c}" := by decide

/-- C105, negation: different containers have the same text. -/
theorem C105_negation (sep : Str) : containerToStream [] [] sep = containerToStream [] [[]] sep ∧
    ∀ a b : Str, containerToStream [] [a, b] sep = containerToStream [] [a ++ sep ++ b] sep := by
  refine ⟨by simp [C105_text, List.intercalate], fun a b => by simp [C105_text, List.intercalate]⟩

/-! ### C106 -/

/-- C106: `get_keys` gives each key of the map, once, and nothing else. -/
theorem C106_keys {K V : Type} [DecidableEq K] (m : List (K × V)) :
    (getKeys m).Nodup ∧ ∀ k, k ∈ getKeys m ↔ ∃ v, (k, v) ∈ m := by
  have H : ∀ (m : List (K × V)) (acc : List K), acc.Nodup →
      (m.foldl (fun ret elem => if ret.contains elem.1 then ret else ret ++ [elem.1]) acc).Nodup ∧
      ∀ k, k ∈ m.foldl (fun ret elem => if ret.contains elem.1 then ret else ret ++ [elem.1]) acc ↔
        k ∈ acc ∨ ∃ v, (k, v) ∈ m := by
    intro m
    induction m with
    | nil => intro acc h; simp [h]
    | cons e m ih =>
      intro acc h
      obtain ⟨k, v⟩ := e
      rw [List.foldl_cons]
      by_cases hc : k ∈ acc
      · rw [if_pos (by simpa using hc)]
        refine ⟨(ih acc h).1, fun j => ((ih acc h).2 j).trans ?_⟩
        constructor
        · rintro (h | ⟨w, h⟩)
          · exact .inl h
          · exact .inr ⟨w, by simp [h]⟩
        · rintro (h | ⟨w, h⟩)
          · exact .inl h
          · rcases List.mem_cons.1 h with h | h
            · cases h; exact .inl hc
            · exact .inr ⟨w, h⟩
      · rw [if_neg (by simpa using hc)]
        have hn : (acc ++ [k]).Nodup := by
          rw [List.nodup_append]
          refine ⟨h, by simp, ?_⟩
          intro a ha b hb e
          rw [List.mem_singleton.1 hb] at e
          exact hc (e ▸ ha)
        refine ⟨(ih _ hn).1, fun j => ((ih _ hn).2 j).trans ?_⟩
        constructor
        · rintro (h | ⟨w, h⟩)
          · rcases List.mem_append.1 h with h | h
            · exact .inl h
            · exact .inr ⟨v, by simp [List.mem_singleton.1 h]⟩
          · exact .inr ⟨w, by simp [h]⟩
        · rintro (h | ⟨w, h⟩)
          · exact .inl (by simp [h])
          · rcases List.mem_cons.1 h with h | h
            · cases h; exact .inl (by simp)
            · exact .inr ⟨w, h⟩
  have := H m [] (by simp)
  refine ⟨this.1, fun k => (this.2 k).trans ?_⟩
  simp

example : getKeys [(2, 'a'), (1, 'b')] = [2, 1] := by decide

open PtrSet

/-- The allocator gives every object an address of its own. -/
def Fresh (alloc : Nat → Ptr) : Prop := (∀ i, alloc i ≠ 0) ∧ ∀ i j, alloc i = alloc j → i = j

theorem convertGo_spec {C P : Type} (parent : C → P) {alloc : Nat → Ptr} (hf : Fresh alloc) (set : List C) (k : Nat)
    (heap : Ptr → P) (result : List Ptr) (hr : ∀ p ∈ result, ∃ i, i < k ∧ p = alloc i) :
    ∃ heap', convertGo parent alloc set k heap result =
        (result ++ (List.range' k set.length).map alloc, k + set.length, heap') ∧
      (∀ i, i < k → heap' (alloc i) = heap (alloc i)) ∧
      ∀ j (h : j < set.length), heap' (alloc (k + j)) = parent set[j] := by
  induction set generalizing k heap result with
  | nil => exact ⟨heap, by simp [convertGo], fun _ _ => rfl, fun j h => absurd h (Nat.not_lt_zero _)⟩
  | cons e set ih =>
    have hnew : alloc k ∉ result := by
      intro hm
      obtain ⟨i, hi, he⟩ := hr _ hm
      exact Nat.lt_irrefl _ (hf.2 _ _ he ▸ hi)
    obtain ⟨heap', h1, h2, h3⟩ := ih (k + 1) (fun q => if q = alloc k then parent e else heap q)
      (result ++ [alloc k]) (by
        intro p hp
        rcases List.mem_append.1 hp with hp | hp
        · obtain ⟨i, hi, he⟩ := hr p hp
          exact ⟨i, by omega, he⟩
        · exact ⟨k, by omega, List.mem_singleton.1 hp⟩)
    refine ⟨heap', ?_, ?_, ?_⟩
    · rw [convertGo]
      simp only [List.contains_eq_mem, hnew, decide_false, Bool.false_eq_true, if_false]
      rw [h1]
      simp only [List.append_assoc, List.singleton_append, List.length_cons, List.range'_succ, List.map_cons]
      congr 2
      omega
    · intro i hi
      rw [h2 i (by omega), if_neg (fun e => by have := hf.2 _ _ e; omega)]
    · intro j hj
      cases j with
      | zero => rw [Nat.add_zero, h2 k (by omega), if_pos rfl]; rfl
      | succ j =>
        have := h3 j (by simpa using hj)
        rw [show k + (j + 1) = k + 1 + j by omega, this]
        rfl

/-- C106: `convert_set_to_shared` makes one object for each element, and these are equal to the
elements; it does not touch the objects made before. -/
theorem C106_convert {C P : Type} (parent : C → P) (alloc : Nat → Ptr) (hf : Fresh alloc) (set : List C) (k : Nat)
    (heap : Ptr → P) :
    ∃ ps k' heap', convert parent alloc set k heap = (ps, k', heap') ∧ ps.Nodup ∧ ps.length = set.length ∧
      ps.map (den heap') = set.map (fun e => some (parent e)) ∧
      ∀ i, i < k → heap' (alloc i) = heap (alloc i) ∧ alloc i ∉ ps := by
  obtain ⟨heap', h1, h2, h3⟩ := convertGo_spec parent hf set k heap [] (by simp)
  refine ⟨_, _, heap', h1, ?_, by simp, ?_, ?_⟩
  · rw [List.nil_append]
    exact List.Nodup.map (fun i j => hf.2 i j) (List.nodup_range')
  · refine List.ext_getElem (by simp) fun j hj1 hj2 => ?_
    simp only [List.nil_append, List.map_map, List.getElem_map, List.getElem_range', Function.comp_apply,
      Nat.one_mul, den, hf.1, if_false]
    rw [h3 j (by simpa using hj2)]
  · intro i hi
    refine ⟨h2 i hi, ?_⟩
    simp only [List.nil_append, List.mem_map, List.mem_range'_1, not_exists, not_and]
    intro j hj e
    have := hf.2 _ _ e
    omega

/-- C106: two sets of values are equal exactly when `are_set_of_ptr_equal` holds of what they are
converted to, if the parent class distinguishes their elements. -/
theorem C106_equal {C P : Type} [DecidableEq P] (parent : C → P) (hp : ∀ a b, parent a = parent b → a = b)
    (alloc : Nat → Ptr) (hf : Fresh alloc) (s t : List C) (hs : s.Nodup) (ht : t.Nodup) (k : Nat)
    (heap : Ptr → P) :
    ∃ ps k1 h1 qs k2 h2, convert parent alloc s k heap = (ps, k1, h1) ∧
      convert parent alloc t k1 h1 = (qs, k2, h2) ∧ (areEqual h2 ps qs = true ↔ ∀ x, x ∈ s ↔ x ∈ t) := by
  obtain ⟨h1, e1, -, v1⟩ := convertGo_spec parent hf s k heap [] (by simp)
  obtain ⟨h2, e2, o2, v2⟩ := convertGo_spec parent hf t (k + s.length) h1 [] (by simp)
  refine ⟨_, _, h1, _, _, h2, e1, e2, ?_⟩
  simp only [List.nil_append]
  have m1 : ((List.range' k s.length).map alloc).map (den h2) = s.map (fun e => some (parent e)) := by
    refine List.ext_getElem (by simp) fun j hj1 hj2 => ?_
    have hj : j < s.length := by simpa using hj2
    simp only [List.map_map, List.getElem_map, List.getElem_range', Function.comp_apply, Nat.one_mul, den,
      hf.1, if_false]
    rw [o2 _ (by omega), v1 j hj]
  have m2 : ((List.range' (k + s.length) t.length).map alloc).map (den h2) = t.map (fun e => some (parent e)) := by
    refine List.ext_getElem (by simp) fun j hj1 hj2 => ?_
    have hj : j < t.length := by simpa using hj2
    simp only [List.map_map, List.getElem_map, List.getElem_range', Function.comp_apply, Nat.one_mul, den,
      hf.1, if_false]
    rw [v2 j hj]
  have inj : Function.Injective (fun e => some (parent e)) := fun a b h => hp a b (Option.some.inj h)
  rw [C19_partial h2 _ _ (by rw [m1]; exact hs.map inj) (by rw [m2]; exact ht.map inj)]
  unfold SameValues
  simp only [← List.mem_map, m1, m2]
  constructor
  · intro h x
    have := h (some (parent x))
    simp only [List.mem_map, Option.some.injEq] at this
    constructor
    · intro hx
      obtain ⟨y, hy, e⟩ := this.1 ⟨x, hx, rfl⟩
      exact hp _ _ e ▸ hy
    · intro hx
      obtain ⟨y, hy, e⟩ := this.2 ⟨x, hx, rfl⟩
      exact hp _ _ e ▸ hy
  · intro h v
    simp only [List.mem_map]
    exact ⟨fun ⟨x, hx, e⟩ => ⟨x, (h x).1 hx, e⟩, fun ⟨x, hx, e⟩ => ⟨x, (h x).2 hx, e⟩⟩

example : Fresh (fun k => k + 1) ∧
    (convert (fun n : Nat => n) (fun k => k + 1) [7, 8] 0 (fun _ => 0)).1 = [1, 2] := by
  refine ⟨⟨fun i => Nat.succ_ne_zero i, fun i j h => Nat.succ.inj h⟩, by decide⟩

end Verif.Containers
