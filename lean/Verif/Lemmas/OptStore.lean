import Verif.Lemmas.OptParse
import Mathlib.Data.List.Induction
import Mathlib.Data.List.Nodup
/-!
The links between stored options: an invariant of `append` and `perform`.
-/
namespace Verif.OptParse

theorem get_set (h : Heap) (r q : Ref) (x : Cell) :
    (h.set r x).get q = if q = r then (h.get r).map fun _ => x else h.get q := by
  cases r with
  | option i =>
    cases q with
    | option j =>
      simp only [Heap.set, Heap.get, List.getElem?_set, Ref.option.injEq]
      by_cases e : j = i
      · subst e
        simp only [if_true]
        by_cases hl : j < h.options.length
        · rw [if_pos hl, List.getElem?_eq_getElem hl]; rfl
        · rw [if_neg hl, List.getElem?_eq_none (by omega)]; rfl
      · rw [if_neg (fun e' => e e'.symm), if_neg e]
    | buffer j => simp [Heap.set, Heap.get]
  | buffer i =>
    cases q with
    | buffer j =>
      simp only [Heap.set, Heap.get, List.getElem?_set, Ref.buffer.injEq]
      by_cases e : j = i
      · subst e
        simp only [if_true]
        by_cases hl : j < h.buffer.length
        · rw [if_pos hl, List.getElem?_eq_getElem hl]; rfl
        · rw [if_neg hl, List.getElem?_eq_none (by omega)]; rfl
      · rw [if_neg (fun e' => e e'.symm), if_neg e]
    | option j => simp [Heap.set, Heap.get]

theorem set_lens (h : Heap) (r : Ref) (x : Cell) :
    (h.set r x).options.length = h.options.length ∧ (h.set r x).buffer.length = h.buffer.length := by
  cases r <;> simp [Heap.set]

/-- The objects `r0`, `t` in this order are linked in a circle that begins with `r0`. -/
def Ring (h : Heap) (r0 : Ref) (t : List Ref) : Prop :=
  ∀ k r, (r0 :: t)[k]? = some r → ∃ x, h.get r = some x ∧
    x.next = (((r0 :: t)[k + 1]?).getD r0, decide (k = t.length)) ∧
    x.prev = (((r0 :: t)[if k = 0 then t.length else k - 1]?).getD r0, decide (k = 0))

theorem Ring.congr {h h' : Heap} {r0 : Ref} {t : List Ref} (hr : Ring h r0 t) (e : ∀ q ∈ r0 :: t, h'.get q = h.get q) :
    Ring h' r0 t := by
  intro k r hk
  rw [e r (List.mem_of_getElem? hk)]
  exact hr k r hk

theorem size_pos {h : Heap} {r : Ref} {x : Cell} (hx : h.get r = some x) : 0 < h.size := by
  unfold Heap.size
  cases r with
  | option i => have := (List.getElem?_eq_some_iff.1 hx).1; omega
  | buffer i => have := (List.getElem?_eq_some_iff.1 hx).1; omega

theorem ring_append {h : Heap} {r0 new : Ref} {t : List Ref} (hr : Ring h r0 t) (hd : (r0 :: t).Nodup) (hn : new ∉ r0 :: t)
    {xn : Cell} (hx : h.get new = some xn) :
    ∃ h', append h r0 new = some h' ∧ Ring h' r0 (t ++ [new]) ∧
      (∀ q, (h'.get q).map (·.val) = (h.get q).map (·.val)) ∧
      (∀ q, q ∉ r0 :: t → q ≠ new → h'.get q = h.get q) ∧
      h'.options.length = h.options.length ∧ h'.buffer.length = h.buffer.length := by
  obtain ⟨x0, hx0, -, hprev⟩ := hr 0 r0 rfl
  simp only [if_true, decide_true] at hprev
  obtain ⟨p, hp⟩ : ∃ p, (r0 :: t)[t.length]? = some p := by
    rw [List.getElem?_eq_getElem (by simp)]; exact ⟨_, rfl⟩
  rw [hp, Option.getD_some] at hprev
  obtain ⟨xp, hxp, -, -⟩ := hr t.length p hp
  have hpm : p ∈ r0 :: t := List.mem_of_getElem? hp
  have hnp : new ≠ p := fun e => hn (e ▸ hpm)
  have hn0 : new ≠ r0 := fun e => hn (e ▸ List.mem_cons_self)
  obtain ⟨s, hs⟩ : ∃ s, h.size = s + 1 := ⟨h.size - 1, by have := size_pos hx0; omega⟩
  have hf : first h h.size r0 = some r0 := by rw [hs]; simp [first, hx0, hprev]
  have hl : last h r0 = some p := by simp [last, hf, hx0, hprev]
  -- the four assignments
  let h1 := h.set p { xp with next := (new, false) }
  let h2 := h1.set new { xn with prev := (p, false) }
  let h3 := h2.set new ⟨xn.val, (r0, true), (p, false)⟩
  have g1 : ∀ q, h1.get q = if q = p then some { xp with next := (new, false) } else h.get q := by
    intro q; show (h.set p _).get q = _; rw [get_set, hxp]; rfl
  have g2 : ∀ q, h2.get q = if q = new then some { xn with prev := (p, false) } else h1.get q := by
    intro q; show (h1.set new _).get q = _; rw [get_set, g1 new, if_neg hnp, hx]; rfl
  have g3 : ∀ q, h3.get q = if q = new then some ⟨xn.val, (r0, true), (p, false)⟩ else h1.get q := by
    intro q; show (h2.set new _).get q = _
    rw [get_set, g2 new, if_pos rfl]
    by_cases e : q = new
    · rw [if_pos e, if_pos e]; rfl
    · rw [if_neg e, if_neg e, g2 q, if_neg e]
  obtain ⟨y, hy⟩ : ∃ y, h3.get r0 = some y := by
    rw [g3, if_neg (fun e => hn0 e.symm), g1]
    by_cases e : r0 = p
    · rw [if_pos e]; exact ⟨_, rfl⟩
    · rw [if_neg e]; exact ⟨_, hx0⟩
  let h4 := h3.set r0 { y with prev := (new, true) }
  have ha : append h r0 new = some h4 := by
    unfold append
    rw [hl, hf]
    show (setNext h p (new, false)).bind _ = _
    have e1 : setNext h p (new, false) = some h1 := by unfold setNext; rw [hxp]; rfl
    have e2 : setPrev h1 new (p, false) = some h2 := by unfold setPrev; rw [g1, if_neg hnp, hx]; rfl
    have e3 : setNext h2 new (r0, true) = some h3 := by unfold setNext; rw [g2, if_pos rfl]; rfl
    have e4 : setPrev h3 r0 (new, true) = some h4 := by unfold setPrev; rw [hy]; rfl
    rw [e1]
    show (setPrev h1 new (p, false)).bind _ = _
    rw [e2]
    show (setNext h2 new (r0, true)).bind _ = _
    rw [e3]
    exact e4
  have g4 : ∀ q, h4.get q = (h.get q).map fun x =>
      if q = new then ⟨x.val, (r0, true), (p, false)⟩
      else ⟨x.val, if q = p then (new, false) else x.next, if q = r0 then (new, true) else x.prev⟩ := by
    intro q
    show (h3.set r0 _).get q = _
    rw [get_set, hy]
    by_cases e0 : q = r0
    · subst e0
      rw [if_pos rfl, hx0]
      simp only [Option.map_some, if_neg hn0.symm, if_true]
      rw [g3, if_neg hn0.symm, g1] at hy
      by_cases e : q = p
      · subst e
        rw [if_pos rfl] at hy
        rw [hxp] at hx0
        cases hy; cases hx0
        simp
      · rw [if_neg e, hx0] at hy
        cases hy
        simp [e]
    · rw [if_neg e0, g3]
      by_cases en : q = new
      · subst en; simp [hx]
      · rw [if_neg en, g1]
        by_cases e : q = p
        · subst e; simp [hxp, en, e0]
        · simp [e, en, e0]
  refine ⟨h4, ha, ?_, ?_, ?_, ?_⟩
  · intro k r hk
    rw [← List.cons_append, List.getElem?_append] at hk
    have hlen : (r0 :: (t ++ [new])).length = t.length + 2 := by simp
    have hcons : ∀ j, (r0 :: (t ++ [new]))[j]? = if j < t.length + 1 then (r0 :: t)[j]? else if j = t.length + 1 then some new else none := by
      intro j
      rw [← List.cons_append, List.getElem?_append, List.length_cons]
      by_cases hj : j < t.length + 1
      · rw [if_pos hj, if_pos hj]
      · rw [if_neg hj, if_neg hj]
        by_cases hj' : j = t.length + 1
        · subst hj'; simp
        · rw [if_neg hj', List.getElem?_eq_none (by simp; omega)]
    by_cases hk1 : k < t.length + 1
    · rw [List.length_cons, if_pos hk1] at hk
      obtain ⟨x, hx, hnx, hpx⟩ := hr k r hk
      have hrn : r ≠ new := fun e => hn (e ▸ List.mem_of_getElem? hk)
      have hinj : ∀ {j q}, (r0 :: t)[j]? = some q → (r = q ↔ k = j) := by
        intro j q hj
        constructor
        · rintro rfl
          have h1 := List.getElem?_eq_some_iff.1 hk
          have h2 := List.getElem?_eq_some_iff.1 hj
          exact (List.Nodup.getElem_inj_iff hd).1 (h1.2.trans h2.2.symm)
        · rintro rfl
          rw [hk] at hj; exact Option.some.inj hj
      refine ⟨_, by rw [g4, hx]; rfl, ?_, ?_⟩
      · simp only [if_neg hrn, List.length_append, List.length_singleton]
        by_cases e : r = p
        · have := (hinj hp).1 e
          rw [if_pos e, hcons, this, if_neg (by omega), if_pos rfl]
          simp
        · have hne : k ≠ t.length := fun e' => e ((hinj hp).2 e')
          rw [if_neg e, hnx, hcons, if_pos (by omega)]
          simp [hne]
          omega
      · simp only [if_neg hrn, List.length_append, List.length_singleton]
        by_cases e : r = r0
        · have := (hinj (j := 0) (q := r0) rfl).1 e
          subst this
          rw [if_pos e, if_pos rfl, hcons, if_neg (by omega), if_pos rfl]
          simp
        · have hne : k ≠ 0 := fun e' => e ((hinj (j := 0) (q := r0) rfl).2 e')
          rw [if_neg e, hpx, if_neg hne, if_neg hne, hcons, if_pos (by omega)]
    · rw [List.length_cons, if_neg hk1] at hk
      have hk2 : k = t.length + 1 := by
        have := (List.getElem?_eq_some_iff.1 hk).1
        simp at this; omega
      subst hk2
      have : r = new := by simpa using hk.symm
      subst this
      refine ⟨_, by rw [g4, hx]; rfl, ?_, ?_⟩
      · simp only [if_true, List.length_append, List.length_singleton, decide_true]
        rw [hcons, if_neg (by omega), if_neg (by omega)]
        rfl
      · simp only [if_true]
        rw [if_neg (Nat.succ_ne_zero _), Nat.add_sub_cancel, hcons, if_pos (by omega), hp]
        simp
  · intro q
    rw [g4]
    cases h.get q with
    | none => rfl
    | some x =>
      simp only [Option.map_some]
      split <;> rfl
  · intro q hq hqn
    rw [g4]
    have h1 : q ≠ p := fun e => hq (e ▸ hpm)
    have h2 : q ≠ r0 := fun e => hq (e ▸ List.mem_cons_self)
    cases h.get q with
    | none => rfl
    | some x => simp [hqn, h1, h2]
  · have a := set_lens h p { xp with next := (new, false) }
    have b := set_lens h1 new { xn with prev := (p, false) }
    have c := set_lens h2 new ⟨xn.val, (r0, true), (p, false)⟩
    have d := set_lens h3 r0 { y with prev := (new, true) }
    exact ⟨d.1.trans (c.1.trans (b.1.trans a.1)), d.2.trans (c.2.trans (b.2.trans a.2))⟩

/-- The places of the options with an index. -/
def places (os : List (Opt × Nat)) (i : Nat) : List Nat :=
  (List.range os.length).filter fun j => os[j]?.map (·.2) = some i

theorem places_snoc (os : List (Opt × Nat)) (o : Opt) (i j : Nat) :
    places (os ++ [(o, i)]) j = places os j ++ if i = j then [os.length] else [] := by
  unfold places
  rw [List.length_append, List.length_singleton, List.range_succ, List.filter_append]
  congr 1
  · apply List.filter_congr
    intro k hk
    rw [List.getElem?_append_left (List.mem_range.1 hk)]
  · by_cases e : i = j <;> simp [e]

theorem places_lt {os : List (Opt × Nat)} {i j : Nat} (h : j ∈ places os i) : j < os.length := by
  unfold places at h
  exact List.mem_range.1 (List.mem_filter.1 h).1

theorem places_index {os : List (Opt × Nat)} {i j : Nat} (h : j ∈ places os i) : os[j]?.map (·.2) = some i := by
  unfold places at h
  simpa using (List.mem_filter.1 h).2

theorem places_nodup (os : List (Opt × Nat)) (i : Nat) : (places os i).Nodup := List.nodup_range.filter _

theorem places_filter (os : List (Opt × Nat)) (i : Nat) :
    (places os i).map (fun j => os[j]?.map (·.1)) = (os.filter fun x => x.2 = i).map fun x => some x.1 := by
  induction os using List.reverseRecOn with
  | nil => rfl
  | append_singleton os x ih =>
    obtain ⟨o, k⟩ := x
    rw [places_snoc, List.map_append, List.filter_append, List.map_append, ← ih]
    congr 1
    · apply List.map_congr_left
      intro j hj
      rw [List.getElem?_append_left (places_lt hj)]
    · by_cases e : k = i <;> simp [e]

/-- The options of a list but the first, which is a copy in `options`. -/
def others (os : List (Opt × Nat)) (i : Nat) : List Ref := ((places os i).drop 1).map .buffer

/-- The arrays hold these options, with their indexes, in this order. -/
structure Inv (h : Heap) (os : List (Opt × Nat)) : Prop where
  len : os.length ≤ h.buffer.length
  val : ∀ (j : Nat) (o : Opt) (i : Nat), os[j]? = some (o, i) → (h.get (.buffer j)).map (·.val) = some (some o)
  free : ∀ (j : Nat) (x : Cell), os.length ≤ j → h.get (.buffer j) = some x → x.val = none
  ring : ∀ i, i < h.options.length → Ring h (.option i) (others os i)
  head : ∀ (i : Nat) (x : Cell), h.get (.option i) = some x → x.val = ((os.filter fun y => y.2 = i).map (·.1)).head?

theorem ring_fresh {h : Heap} {r : Ref} {o : Option Opt} (hr : h.get r = some (fresh r o)) : Ring h r [] := by
  intro k q hk
  match k with
  | 0 =>
    have : q = r := by simpa using hk.symm
    subst this
    exact ⟨_, hr, rfl, rfl⟩
  | k + 1 => simp at hk

theorem new_get (n m : Nat) (r : Ref) (x : Cell) (h : (Heap.new n m).get r = some x) : x = fresh r none := by
  cases r with
  | option i =>
    simp only [Heap.get, Heap.new, List.getElem?_map, Option.map_eq_some_iff] at h
    obtain ⟨a, ha, rfl⟩ := h
    rw [List.getElem?_range (by have := (List.getElem?_eq_some_iff.1 ha).1; simpa using this)] at ha
    cases ha; rfl
  | buffer i =>
    simp only [Heap.get, Heap.new, List.getElem?_map, Option.map_eq_some_iff] at h
    obtain ⟨a, ha, rfl⟩ := h
    rw [List.getElem?_range (by have := (List.getElem?_eq_some_iff.1 ha).1; simpa using this)] at ha
    cases ha; rfl

theorem inv_new (n m : Nat) : Inv (Heap.new n m) [] where
  len := Nat.zero_le _
  val := nofun
  free j x _ hx := by rw [new_get _ _ _ _ hx]; rfl
  ring i hi := by
    obtain ⟨x, hx⟩ : ∃ x, (Heap.new n m).get (.option i) = some x := ⟨_, List.getElem?_eq_getElem hi⟩
    rw [new_get _ _ _ _ hx] at hx
    exact ring_fresh hx
  head i x hx := by rw [new_get _ _ _ _ hx]; rfl

theorem others_buffer {os : List (Opt × Nat)} {i : Nat} {q : Ref} (h : q ∈ others os i) :
    ∃ j, q = .buffer j ∧ j ∈ places os i := by
  unfold others at h
  obtain ⟨j, hj, rfl⟩ := List.mem_map.1 h
  exact ⟨j, rfl, List.mem_of_mem_drop hj⟩

theorem ring_nodup (os : List (Opt × Nat)) (i : Nat) : (Ref.option i :: others os i).Nodup := by
  rw [List.nodup_cons]
  constructor
  · intro h
    obtain ⟨j, h, -⟩ := others_buffer h
    cases h
  · unfold others
    apply List.Nodup.map (fun a b e => by injection e)
    exact (places_nodup os i).sublist (List.drop_sublist _ _)

theorem places_nil {os : List (Opt × Nat)} {i : Nat} : places os i = [] ↔ (os.filter fun x => x.2 = i) = [] := by
  have := congrArg List.length (places_filter os i)
  simp only [List.length_map] at this
  rw [← List.length_eq_zero_iff, this, List.length_eq_zero_iff]

/-- One option is stored. -/
theorem perform_inv {h : Heap} {os : List (Opt × Nat)} (hi : Inv h os) {usage : List Desc} {b : Option Nat} {o : Opt} {d : Desc}
    (hb : b.any (· ≤ os.length) = false) (hl : os.length < h.buffer.length) (hd : usage[o.desc]? = some d)
    (hx : d.index < h.options.length) :
    ∃ h', perform usage b (h, os.length) o = some (h', os.length + 1) ∧ Inv h' (os ++ [(o, d.index)]) ∧
      h'.options.length = h.options.length ∧ h'.buffer.length = h.buffer.length := by
  let n := os.length
  let h1 := h.set (.buffer n) (fresh (.buffer n) (some o))
  have g1 : ∀ q, h1.get q = if q = .buffer n then some (fresh (.buffer n) (some o)) else h.get q := by
    intro q
    show (h.set _ _).get q = _
    rw [get_set]
    have : h.get (.buffer n) = some h.buffer[n] := List.getElem?_eq_getElem hl
    rw [this]; rfl
  have l1 := set_lens h (.buffer n) (fresh (.buffer n) (some o))
  have hmem : ∀ i, Ref.buffer n ∉ Ref.option i :: others os i := by
    intro i hm
    rcases List.mem_cons.1 hm with h | h
    · cases h
    · obtain ⟨j, e, hj⟩ := others_buffer h
      have := places_lt hj
      injection e with e
      omega
  have hr1 : ∀ i, i < h.options.length → Ring h1 (.option i) (others os i) := by
    intro i hi'
    refine (hi.ring i hi').congr fun q hq => ?_
    rw [g1, if_neg (by rintro rfl; exact hmem i hq)]
  obtain ⟨x, hxx⟩ : ∃ x, h.get (.option d.index) = some x := ⟨_, List.getElem?_eq_getElem hx⟩
  have hx1 : h1.get (.option d.index) = some x := by rw [g1, if_neg nofun]; exact hxx
  have hv := hi.head _ _ hxx
  have hoth : ∀ i, i ≠ d.index → others (os ++ [(o, d.index)]) i = others os i := by
    intro i hne
    unfold others
    rw [places_snoc, if_neg (fun e => hne e.symm), List.append_nil]
  have hfil : ∀ i, i ≠ d.index → ((os ++ [(o, d.index)]).filter fun y => y.2 = i) = os.filter fun y => y.2 = i := by
    intro i hne
    rw [List.filter_append]
    simp [show ¬ d.index = i from fun e => hne e.symm]
  have hp : perform usage b (h, os.length) o = if x.val.isSome then (append h1 (.option d.index) (.buffer n)).map (·, n + 1)
      else some (h1.set (.option d.index) (fresh (.option d.index) (some o)), n + 1) := by
    unfold perform
    rw [if_neg (by simp [hb]), if_neg (Nat.not_le.2 hl), hd]
    show (match h1.get (.option d.index) with | none => none | some x => _) = _
    rw [hx1]
  rw [hp]
  by_cases hs : x.val.isSome
  · rw [if_pos hs]
    have hne : places os d.index ≠ [] := by
      intro e
      rw [places_nil] at e
      rw [hv, e] at hs
      cases hs
    obtain ⟨h', ha, hr, hval, hget, ho, hbf⟩ := ring_append (hr1 _ hx) (ring_nodup os d.index) (hmem _)
      (xn := fresh (.buffer n) (some o)) (by rw [g1, if_pos rfl])
    refine ⟨h', by rw [ha]; rfl, ?_, ho.trans l1.1, hbf.trans l1.2⟩
    refine ⟨?_, ?_, ?_, ?_, ?_⟩
    · rw [hbf, l1.2, List.length_append, List.length_singleton]; exact hl
    · intro j o' i hj
      rw [hval, g1]
      by_cases e : j = n
      · subst e
        rw [if_pos rfl]
        simp [n] at hj
        rw [hj.1]; rfl
      · rw [if_neg (fun e' => e (by injection e'))]
        rw [List.getElem?_append] at hj
        by_cases hlt : j < os.length
        · rw [if_pos hlt] at hj; exact hi.val j o' i hj
        · rw [if_neg hlt] at hj
          have := (List.getElem?_eq_some_iff.1 hj).1
          simp at this; omega
    · intro j y hj hy
      rw [List.length_append, List.length_singleton] at hj
      have := hval (.buffer j)
      rw [hy, g1, if_neg (fun e' => by injection e' with e'; omega)] at this
      cases hg : h.get (.buffer j) with
      | none => rw [hg] at this; cases this
      | some z =>
        rw [hg] at this
        simp only [Option.map_some, Option.some.injEq] at this
        rw [this]
        exact hi.free j z (by omega) hg
    · intro i hi'
      rw [ho, l1.1] at hi'
      by_cases e : i = d.index
      · subst e
        have : others (os ++ [(o, d.index)]) d.index = others os d.index ++ [.buffer n] := by
          unfold others
          rw [places_snoc, if_pos rfl, List.drop_append_of_le_length (by
            have := List.length_pos_iff.2 hne; omega), List.map_append]
          rfl
        rw [this]
        exact hr
      · rw [hoth i e]
        refine (hr1 i hi').congr fun q hq => hget q ?_ ?_
        · intro hm
          rcases List.mem_cons.1 hq with rfl | hq
          · rcases List.mem_cons.1 hm with hm | hm
            · injection hm with hm; exact e hm
            · obtain ⟨j, hj, -⟩ := others_buffer hm; cases hj
          · obtain ⟨j, rfl, hj⟩ := others_buffer hq
            rcases List.mem_cons.1 hm with hm | hm
            · cases hm
            · obtain ⟨k, hk, hj'⟩ := others_buffer hm
              injection hk with hk
              subst hk
              have a := places_index hj
              rw [places_index hj'] at a
              injection a with a
              exact e a.symm
        · intro e'
          exact hmem i (e' ▸ hq)
    · intro i y hy
      have := hval (.option i)
      rw [hy, g1, if_neg nofun] at this
      cases hg : h.get (.option i) with
      | none => rw [hg] at this; cases this
      | some z =>
        rw [hg] at this
        simp only [Option.map_some, Option.some.injEq] at this
        rw [this, hi.head i z hg, List.filter_append, List.map_append]
        by_cases e : i = d.index
        · subst e
          rw [hxx] at hg; cases hg
          rw [hv] at hs
          cases hh : (os.filter fun y => y.2 = d.index).map (·.1) with
          | nil => rw [hh] at hs; cases hs
          | cons a l => rfl
        · simp [show ¬ d.index = i from fun e' => e e'.symm]
  · rw [if_neg hs]
    have hnil : (os.filter fun y => y.2 = d.index) = [] := by
      cases hh : os.filter fun y => y.2 = d.index with
      | nil => rfl
      | cons a l => rw [hh] at hv; rw [hv] at hs; exact absurd rfl hs
    have hpn := places_nil.2 hnil
    let h2 := h1.set (.option d.index) (fresh (.option d.index) (some o))
    have g2 : ∀ q, h2.get q = if q = .option d.index then some (fresh (.option d.index) (some o)) else h1.get q := by
      intro q
      show (h1.set _ _).get q = _
      rw [get_set, hx1]; rfl
    have l2 := set_lens h1 (.option d.index) (fresh (.option d.index) (some o))
    refine ⟨h2, rfl, ?_, l2.1.trans l1.1, l2.2.trans l1.2⟩
    refine ⟨?_, ?_, ?_, ?_, ?_⟩
    · rw [l2.2, l1.2, List.length_append, List.length_singleton]; exact hl
    · intro j o' i hj
      rw [g2, if_neg nofun, g1]
      by_cases e : j = n
      · subst e
        rw [if_pos rfl]
        simp [n] at hj
        rw [hj.1]; rfl
      · rw [if_neg (fun e' => e (by injection e'))]
        rw [List.getElem?_append] at hj
        by_cases hlt : j < os.length
        · rw [if_pos hlt] at hj; exact hi.val j o' i hj
        · rw [if_neg hlt] at hj
          have := (List.getElem?_eq_some_iff.1 hj).1
          simp at this; omega
    · intro j y hj hy
      rw [List.length_append, List.length_singleton] at hj
      rw [g2, if_neg nofun, g1, if_neg (fun e' => by injection e' with e'; omega)] at hy
      exact hi.free j y (by omega) hy
    · intro i hi'
      rw [l2.1, l1.1] at hi'
      by_cases e : i = d.index
      · subst e
        have : others (os ++ [(o, d.index)]) d.index = [] := by
          unfold others
          rw [places_snoc, hpn, if_pos rfl]
          rfl
        rw [this]
        exact ring_fresh (by rw [g2, if_pos rfl])
      · rw [hoth i e]
        refine (hr1 i hi').congr fun q hq => ?_
        rw [g2, if_neg]
        rintro rfl
        rcases List.mem_cons.1 hq with hq | hq
        · injection hq with hq; exact e hq.symm
        · obtain ⟨j, hj, -⟩ := others_buffer hq; cases hj
    · intro i y hy
      rw [g2] at hy
      by_cases e : i = d.index
      · subst e
        rw [if_pos rfl] at hy
        cases hy
        rw [List.filter_append, hnil]
        simp [fresh]
      · rw [if_neg (fun e' => e (by injection e')), g1, if_neg nofun] at hy
        rw [hi.head i y hy, hfil i e]

end Verif.OptParse
