import Verif.Lemmas.OptStore
import Verif.Props.OptParse
/-!
C126, C127: the lists of options and the sizes of the arrays.
-/
namespace Verif.OptParse

/-! ### Valid descriptors -/

theorem handle_valid {usage : List Desc} {i : Nat} {name : Str} {a : Potential} {o : Opt} {b : Bool}
    (h : handle usage i name a = some (o, b)) : ∃ d ∈ usage, usage[o.desc]? = some d := by
  unfold handle at h
  split at h
  · cases h
  · next d hd =>
    split at h <;> cases h <;> exact ⟨d, List.mem_of_getElem? hd, hd⟩

theorem shorts_valid (usage : List Desc) (next : Option Str) (s : Str) :
    ∀ o ∈ (shorts usage next s).1, ∃ d ∈ usage, usage[o.desc]? = some d := by
  induction s with
  | nil => intro o ho; cases ho
  | cons c r ih =>
    intro o ho
    unfold shorts at ho
    simp only at ho
    split at ho
    · exact ih o ho
    · split at ho
      · cases ho
      · next h => rw [List.mem_singleton.1 ho]; exact handle_valid h
      · next h =>
        rcases List.mem_cons.1 ho with rfl | ho
        · exact handle_valid h
        · exact ih o ho

theorem longs_valid (usage : List Desc) (next : Option Str) (p s : Str) (i : Option Nat) :
    ∀ o ∈ (longs usage next p s i).1, ∃ d ∈ usage, usage[o.desc]? = some d := by
  intro o ho
  unfold longs at ho
  split at ho
  · cases ho
  · split at ho
    · cases ho
    · next h => rw [List.mem_singleton.1 ho]; exact handle_valid h
    · next h => rw [List.mem_singleton.1 ho]; exact handle_valid h

theorem one_valid (c : Cfg) (p : Str) (next : Option Str) : ∀ o ∈ (one c p next).1, ∃ d ∈ c.usage, c.usage[o.desc]? = some d := by
  intro o ho
  unfold one at ho
  split at ho
  · exact longs_valid _ _ _ _ _ o ho
  · split at ho
    · exact longs_valid _ _ _ _ _ o ho
    · exact shorts_valid _ _ _ o ho

theorem walk_valid (c : Cfg) (args : List Str) : ∀ o ∈ (walk c args).opts, ∃ d ∈ c.usage, c.usage[o.desc]? = some d := by
  fun_induction walk c args with
  | case1 => intro o ho; cases ho
  | case2 p r hn hg ih => exact ih
  | case3 => intro o ho; cases ho
  | case4 => intro o ho; cases ho
  | case5 p r hn hd o h => intro x hx; exact one_valid c p r.head? x (by rw [h]; exact hx)
  | case6 p r hn hd o h ih =>
    intro x hx
    rcases List.mem_append.1 hx with hx | hx
    · exact one_valid c p r.head? x (by rw [h]; exact hx)
    · exact ih x hx
  | case7 p hn hd o h => intro x hx; exact one_valid c p _ x (by rw [h]; exact hx)
  | case8 p hn hd o a r' h ih =>
    intro x hx
    rcases List.mem_append.1 hx with hx | hx
    · exact one_valid c p _ x (by rw [h]; exact hx)
    · exact ih x hx

/-! ### A program that parses several argument vectors -/

/-- The arguments of a call of `parse` or `add` but the arrays. -/
structure Call where
  c : Cfg
  argc : Option Nat
  argv : List Str

/-- The program says at most as many arguments as there are. -/
def Call.Fits (k : Call) : Prop := k.argc.getD k.argv.length ≤ k.argv.length

/-- Calls of `parse` with the same arrays, one after the other. -/
def parseAll (bufmax : Option Nat) : Parser → Heap → List Call → Option (Parser × Heap × List (List Str))
  | p, h, [] => some (p, h, [])
  | p, h, k :: ks =>
    match parse p h k.c k.argc k.argv bufmax with
    | none => none
    | some (p, h, v) =>
      match parseAll bufmax p h ks with
      | none => none
      | some (p, h, vs) => some (p, h, v :: vs)

/-- Calls of `Stats::add`, one after the other: the sizes, and the same calls with the argument vectors as they are now. -/
def statsAll : Stats → List Call → Stats × List Call
  | s, [] => (s, [])
  | s, k :: ks =>
    let r := s.add k.c k.argc k.argv
    let t := statsAll r.1 ks
    (t.1, ⟨k.c, k.argc, r.2⟩ :: t.2)

/-- The options of a call, with the index of their list. -/
def Call.opts (k : Call) : List (Opt × Nat) :=
  (workhorse k.c k.argc k.argv).opts.map fun o => (o, ((k.c.usage[o.desc]?).map (·.index)).getD 0)

theorem Call.valid (k : Call) (hf : k.Fits) : ∀ o ∈ (workhorse k.c k.argc k.argv).opts, ∃ d ∈ k.c.usage, k.c.usage[o.desc]? = some d := by
  rw [(workhorse_walk k.c k.argc k.argv hf).1]
  exact walk_valid _ _

theorem perform_conditions {usage : List Desc} {b : Option Nat} {h : Heap} {n : Nat} {o : Opt} {r : Heap × Nat}
    (hp : perform usage b (h, n) o = some r) (hb : b.any (· ≤ n) = false) :
    n < h.buffer.length ∧ ∃ d, usage[o.desc]? = some d ∧ d.index < h.options.length := by
  unfold perform at hp
  rw [if_neg (by simp [hb])] at hp
  split at hp
  · cases hp
  · next hl =>
    refine ⟨Nat.lt_of_not_le hl, ?_⟩
    simp only at hp
    split at hp
    · cases hp
    · next d hd =>
      refine ⟨d, hd, ?_⟩
      split at hp
      · cases hp
      · next x hx =>
        rw [get_set, if_neg nofun] at hx
        exact (List.getElem?_eq_some_iff.1 hx).1

/-- How many options there is room for. -/
def room (b : Option Nat) (l : List (Opt × Nat)) : List (Opt × Nat) := match b with | none => l | some m => l.take m

theorem room_room (b : Option Nat) (l m : List (Opt × Nat)) : room b (room b l ++ m) = room b (l ++ m) := by
  cases b with
  | none => rfl
  | some k =>
    simp only [room, List.take_append, List.take_take, Nat.min_self, List.length_take]
    by_cases h : k ≤ l.length
    · rw [Nat.min_eq_left h, Nat.sub_self, Nat.sub_eq_zero_of_le h]
    · rw [Nat.min_eq_right (by omega)]

theorem room_full {b : Option Nat} {l : List (Opt × Nat)} (hb : b.any (· ≤ (room b l).length) = true) (m : List (Opt × Nat)) :
    room b (l ++ m) = room b l := by
  cases b with
  | none => cases hb
  | some k =>
    simp only [Option.any_some, decide_eq_true_eq, room, List.length_take] at hb
    simp only [room]
    rw [List.take_append_of_le_length (by omega)]

theorem room_free {b : Option Nat} {l : List (Opt × Nat)} (hb : b.any (· ≤ (room b l).length) = false) : room b l = l ∧
    ∀ x, room b (l ++ [x]) = l ++ [x] := by
  cases b with
  | none => exact ⟨rfl, fun _ => rfl⟩
  | some k =>
    simp only [Option.any_some, decide_eq_false_iff_not, room, List.length_take, Nat.not_le] at hb
    simp only [room]
    refine ⟨List.take_of_length_le (by omega), fun x => List.take_of_length_le (by simp; omega)⟩

theorem performAll_inv {usage : List Desc} {b : Option Nat} (l : List Opt) {h h' : Heap} {os : List (Opt × Nat)} {n : Nat}
    (hi : Inv h (room b os)) (hp : performAll usage b (h, (room b os).length) l = some (h', n)) :
    Inv h' (room b (os ++ l.map fun o => (o, ((usage[o.desc]?).map (·.index)).getD 0))) ∧
    n = (room b (os ++ l.map fun o => (o, ((usage[o.desc]?).map (·.index)).getD 0))).length ∧
    h'.options.length = h.options.length ∧ h'.buffer.length = h.buffer.length := by
  induction l generalizing h os with
  | nil =>
    simp only [performAll, Option.some.injEq, Prod.mk.injEq] at hp
    obtain ⟨rfl, rfl⟩ := hp
    simpa using hi
  | cons o l ih =>
    unfold performAll at hp
    by_cases hb : b.any (· ≤ (room b os).length) = true
    · have : perform usage b (h, (room b os).length) o = some (h, (room b os).length) := by
        unfold perform; rw [if_pos hb]
      rw [this] at hp
      have := ih hi hp
      rw [room_full hb] at this ⊢
      exact this
    · have hb := Bool.eq_false_iff.2 hb
      cases hq : perform usage b (h, (room b os).length) o with
      | none => rw [hq] at hp; cases hp
      | some r =>
        obtain ⟨h1, d, hd, h2⟩ := perform_conditions hq hb
        obtain ⟨h'', e, hi', e1, e2⟩ := perform_inv hi hb h1 hd h2
        rw [hq] at e
        rw [hq] at hp
        injection e with e
        subst e
        obtain ⟨f1, f2⟩ := room_free hb
        simp only at hp
        have hlen : (room b os).length + 1 = (room b (os ++ [(o, d.index)])).length := by rw [f1, f2]; simp
        rw [hlen] at hp
        rw [f1, ← f2] at hi'
        have := ih hi' hp
        rw [List.map_cons, hd]
        simp only [Option.map_some, Option.getD_some]
        rw [List.append_assoc, e1, e2] at this
        exact this

theorem firstFree_inv {h : Heap} {b : Option Nat} {os : List (Opt × Nat)} {n : Nat} (hi : Inv h (room b os))
    (hf : firstFree h b = some n) : n = (room b os).length := by
  generalize ho : room b os = l at hi
  have hle : ∀ k, b = some k → l.length ≤ k := by
    rintro k rfl
    rw [← ho]
    exact Nat.le_trans (Nat.le_of_eq List.length_take) (Nat.min_le_left _ _)
  have ht : (h.buffer.takeWhile fun x => x.val.isSome).length = l.length := by
    have hsplit : h.buffer = h.buffer.take l.length ++ h.buffer.drop l.length := (List.take_append_drop _ _).symm
    rw [hsplit, List.takeWhile_append_of_pos]
    · have : (h.buffer.drop l.length).takeWhile (fun x => x.val.isSome) = [] := by
        cases hd : h.buffer.drop l.length with
        | nil => rfl
        | cons x r =>
          have : h.get (.buffer l.length) = some x := by
            have : (h.buffer.drop l.length)[0]? = some x := by rw [hd]; rfl
            rwa [List.getElem?_drop, Nat.add_zero] at this
          have := hi.free _ x (Nat.le_refl _) this
          simp [this]
      rw [this, List.append_nil, List.length_take, Nat.min_eq_left hi.len]
    · intro x hx
      obtain ⟨j, hj⟩ := List.getElem?_of_mem hx
      have hlt : j < l.length := by
        have := (List.getElem?_eq_some_iff.1 hj).1
        rw [List.length_take] at this
        omega
      rw [List.getElem?_take, if_pos hlt] at hj
      have hg : h.get (.buffer j) = some x := hj
      have := hi.val j l[j].1 l[j].2 (List.getElem?_eq_getElem hlt)
      rw [hg] at this
      simp only [Option.map_some, Option.some.injEq] at this
      rw [this]; rfl
  unfold firstFree at hf
  simp only [ht] at hf
  cases b with
  | none =>
    simp only at hf
    split at hf
    · cases hf; rfl
    · cases hf
  | some k =>
    have := hle k rfl
    simp only at hf
    split at hf
    · cases hf; omega
    · split at hf
      · cases hf; rfl
      · cases hf

theorem parse_inv {p p' : Parser} {h h' : Heap} {k : Call} {b : Option Nat} {v : List Str} {os : List (Opt × Nat)}
    (hi : Inv h (room b os)) (hp : parse p h k.c k.argc k.argv b = some (p', h', v)) :
    Inv h' (room b (os ++ k.opts)) ∧ p'.opCount = (room b (os ++ k.opts)).length ∧
      h'.options.length = h.options.length ∧ h'.buffer.length = h.buffer.length := by
  unfold parse at hp
  split at hp
  · cases hp
  · next n hf =>
    have hn := firstFree_inv hi hf
    subst hn
    simp only at hp
    split at hp
    · cases hp
    · next h'' n' hq =>
      have := performAll_inv _ hi hq
      cases hp
      exact this

theorem parseAll_inv {b : Option Nat} (ks : List Call) {p p' : Parser} {h h' : Heap} {vs : List (List Str)} {os : List (Opt × Nat)}
    (hi : Inv h (room b os)) (hc : p.opCount = (room b os).length) (hp : parseAll b p h ks = some (p', h', vs)) :
    Inv h' (room b (os ++ ks.flatMap Call.opts)) ∧ p'.opCount = (room b (os ++ ks.flatMap Call.opts)).length ∧
      h'.options.length = h.options.length ∧ h'.buffer.length = h.buffer.length := by
  induction ks generalizing p h os vs with
  | nil =>
    simp only [parseAll, Option.some.injEq, Prod.mk.injEq] at hp
    obtain ⟨rfl, rfl, -⟩ := hp
    simpa using ⟨hi, hc⟩
  | cons k ks ih =>
    unfold parseAll at hp
    split at hp
    · cases hp
    · next p1 h1 v hq =>
      split at hp
      · cases hp
      · next p2 h2 vs' hr =>
        cases hp
        obtain ⟨a1, a2, a3, a4⟩ := parse_inv hi hq
        have := ih a1 a2 hr
        rw [a3, a4, List.append_assoc] at this
        exact this

/-! ### C126 -/

/-- Specification: following `next` from an option until the null pointer visits these options. -/
inductive Follows (h : Heap) : Ref → List Opt → Prop
  | last {r : Ref} {x : Cell} {o : Opt} : h.get r = some x → x.val = some o → next h r = some none → Follows h r [o]
  | step {r q : Ref} {x : Cell} {o : Opt} {os : List Opt} : h.get r = some x → x.val = some o → next h r = some (some q) →
      Follows h q os → Follows h r (o :: os)

/-- Specification: following `prev` from an option until the null pointer visits these options. -/
inductive FollowsBack (h : Heap) : Ref → List Opt → Prop
  | last {r : Ref} {x : Cell} {o : Opt} : h.get r = some x → x.val = some o → prev h r = some none → FollowsBack h r [o]
  | step {r q : Ref} {x : Cell} {o : Opt} {os : List Opt} : h.get r = some x → x.val = some o → prev h r = some (some q) →
      FollowsBack h q os → FollowsBack h r (o :: os)

/-- Specification: the options that `next` leads to. -/
inductive Reaches (h : Heap) (r : Ref) : Ref → Prop
  | here : Reaches h r r
  | step {q q' : Ref} : Reaches h r q → next h q = some (some q') → Reaches h r q'

theorem ring_next {h : Heap} {r0 : Ref} {t : List Ref} (hr : Ring h r0 t) {k : Nat} {r : Ref} (hk : (r0 :: t)[k]? = some r) :
    next h r = some ((r0 :: t)[k + 1]?) := by
  obtain ⟨x, hx, hn, -⟩ := hr k r hk
  have hlt := (List.getElem?_eq_some_iff.1 hk).1
  unfold next
  rw [hx, Option.map_some, hn]
  by_cases e : k = t.length
  · simp [e]
  · have : k + 1 < (r0 :: t).length := by simp at hlt ⊢; omega
    rw [List.getElem?_eq_getElem this]
    simp [e]

theorem ring_prev {h : Heap} {r0 : Ref} {t : List Ref} (hr : Ring h r0 t) {k : Nat} {r : Ref} (hk : (r0 :: t)[k]? = some r) :
    prev h r = some (if k = 0 then none else (r0 :: t)[k - 1]?) := by
  obtain ⟨x, hx, -, hp⟩ := hr k r hk
  have hlt := (List.getElem?_eq_some_iff.1 hk).1
  unfold prev
  rw [hx, Option.map_some, hp]
  by_cases e : k = 0
  · simp [e]
  · have : k - 1 < (r0 :: t).length := by omega
    rw [if_neg e, if_neg e, List.getElem?_eq_getElem this]
    simp [e]

theorem ring_first {h : Heap} {r0 : Ref} {t : List Ref} (hr : Ring h r0 t) (k : Nat) (r : Ref) (hk : (r0 :: t)[k]? = some r)
    (f : Nat) (hf : k < f) : first h f r = some r0 := by
  induction k generalizing r f with
  | zero =>
    obtain ⟨x, hx, -, hp⟩ := hr 0 r hk
    obtain ⟨f, rfl⟩ : ∃ f', f = f' + 1 := ⟨f - 1, by omega⟩
    have : r = r0 := by simpa using hk.symm
    subst this
    simp [first, hx, hp]
  | succ k ih =>
    obtain ⟨x, hx, -, hp⟩ := hr (k + 1) r hk
    obtain ⟨f, rfl⟩ : ∃ f', f = f' + 1 := ⟨f - 1, by omega⟩
    have hlt := (List.getElem?_eq_some_iff.1 hk).1
    have hq : (r0 :: t)[k]? = some (r0 :: t)[k] := List.getElem?_eq_getElem (by omega)
    rw [if_neg (Nat.succ_ne_zero _), Nat.add_sub_cancel, hq, Option.getD_some] at hp
    simp only [first, hx, hp]
    exact ih _ hq f (by omega)

theorem ring_countFrom {h : Heap} {r0 : Ref} {t : List Ref} (hr : Ring h r0 t) (m k : Nat) (hm : k + m = t.length) (r : Ref)
    (hk : (r0 :: t)[k]? = some r) (f : Nat) (hf : m < f) : countFrom h f r = some m := by
  induction m generalizing k r f with
  | zero =>
    obtain ⟨x, hx, hn, -⟩ := hr k r hk
    obtain ⟨f, rfl⟩ : ∃ f', f = f' + 1 := ⟨f - 1, by omega⟩
    simp [countFrom, hx, hn, show k = t.length by omega]
  | succ m ih =>
    obtain ⟨x, hx, hn, -⟩ := hr k r hk
    obtain ⟨f, rfl⟩ : ∃ f', f = f' + 1 := ⟨f - 1, by omega⟩
    obtain ⟨q, hq⟩ : ∃ q, (r0 :: t)[k + 1]? = some q := ⟨_, List.getElem?_eq_getElem (by rw [List.length_cons]; omega)⟩
    rw [hq, Option.getD_some, decide_eq_false (by omega)] at hn
    simp only [countFrom, hx, hn]
    rw [if_neg (by simp), ih (k + 1) (by omega) _ hq f (by omega)]
    rfl

/-- What the links give for the list of an index. -/
theorem inv_list {h : Heap} {os : List (Opt × Nat)} (hi : Inv h os) {i : Nat} (hlt : i < h.options.length) :
    let mine := (os.filter fun y => y.2 = i).map (·.1)
    (mine = [] → (h.get (.option i)).map (·.val) = some none ∧ count h (.option i) = some 0) ∧
    (mine ≠ [] → Follows h (.option i) mine ∧ ∃ e, Reaches h (.option i) e ∧ FollowsBack h e mine.reverse ∧
      ∀ q, Reaches h (.option i) q → first h h.size q = some (.option i) ∧ last h q = some e ∧ count h q = some mine.length) := by
  intro mine
  have hr := hi.ring i hlt
  obtain ⟨x, hx⟩ : ∃ x, h.get (.option i) = some x := ⟨_, List.getElem?_eq_getElem hlt⟩
  have hv := hi.head i x hx
  have hsize : (others os i).length < h.size := by
    have h1 : (others os i).length ≤ os.length := by
      unfold others
      rw [List.length_map, List.length_drop]
      have : (places os i).length ≤ os.length := by
        unfold places
        exact Nat.le_trans (List.length_filter_le _ _) (by simp)
      omega
    have := hi.len
    unfold Heap.size
    omega
  constructor
  · intro hm
    have hnil : others os i = [] := by
      have : (os.filter fun y => y.2 = i) = [] := by simpa [mine] using hm
      unfold others
      rw [places_nil.2 this]; rfl
    have hval : x.val = none := by rw [hv]; show mine.head? = none; rw [hm]; rfl
    refine ⟨by rw [hx, Option.map_some, hval], ?_⟩
    rw [hnil] at hr hsize
    unfold count
    rw [hx, ring_first hr 0 _ rfl _ hsize]
    simp only
    rw [ring_countFrom hr 0 0 rfl _ rfl _ hsize, hval]
    rfl
  · intro hm
    have hlen : mine.length = (others os i).length + 1 := by
      have := congrArg List.length (places_filter os i)
      simp only [List.length_map] at this
      have hpos := List.length_pos_iff.2 hm
      simp only [mine, List.length_map] at hpos ⊢
      unfold others
      rw [List.length_map, List.length_drop]
      omega
    have hvals : ∀ (k : Nat) (r : Ref), (Ref.option i :: others os i)[k]? = some r → ∃ (x : Cell) (o : Opt), h.get r = some x ∧ x.val = some o ∧ mine[k]? = some o := by
      intro k r hk
      have hklt := (List.getElem?_eq_some_iff.1 hk).1
      have hkm : k < mine.length := by rw [List.length_cons] at hklt; omega
      have hmk : mine[k]? = some mine[k] := List.getElem?_eq_getElem hkm
      match k with
      | 0 =>
        have : r = .option i := by simpa using hk.symm
        subst this
        refine ⟨x, mine[0], hx, ?_, hmk⟩
        rw [hv, List.head?_eq_getElem?]
        exact hmk
      | k + 1 =>
        have hk' : (others os i)[k]? = some r := by simpa using hk
        unfold others at hk'
        rw [List.getElem?_map, List.getElem?_drop, Option.map_eq_some_iff] at hk'
        obtain ⟨j, hj, rfl⟩ := hk'
        have hf := congrArg (·[k + 1]?) (places_filter os i)
        simp only [List.getElem?_map] at hf
        rw [Nat.add_comm] at hj
        rw [hj, Option.map_some] at hf
        have hm2 : mine[k + 1]? = ((os.filter fun y => y.2 = i)[k + 1]?).map (·.1) := by
          simp only [mine, List.getElem?_map]
        cases hfil : (os.filter fun y => y.2 = i)[k + 1]? with
        | none => rw [hm2, hfil] at hmk; cases hmk
        | some y =>
          rw [hfil] at hf
          simp only [Option.map_some, Option.some.injEq] at hf
          cases hos : os[j]? with
          | none => rw [hos] at hf; cases hf
          | some z =>
            rw [hos] at hf
            simp only [Option.map_some, Option.some.injEq] at hf
            have := hi.val j z.1 z.2 hos
            cases hg : h.get (.buffer j) with
            | none => rw [hg] at this; cases this
            | some w =>
              rw [hg] at this
              simp only [Option.map_some, Option.some.injEq] at this
              exact ⟨w, z.1, rfl, this, by rw [hm2, hfil, Option.map_some, hf]⟩
    have fwd : ∀ (m k : Nat) (r : Ref), k + m = (others os i).length → (Ref.option i :: others os i)[k]? = some r → Follows h r (mine.drop k) := by
      intro m
      induction m with
      | zero =>
        intro k r hk hkr
        obtain ⟨y, o, hy, ho, hmk⟩ := hvals k r hkr
        have : mine.drop k = [o] := by
          obtain ⟨hk1, hk2⟩ := List.getElem?_eq_some_iff.1 hmk
          rw [List.drop_eq_getElem_cons hk1, hk2, List.drop_eq_nil_of_le (by omega)]
        rw [this]
        refine .last hy ho ?_
        rw [ring_next hr hkr, List.getElem?_eq_none (by simp; omega)]
      | succ m ih =>
        intro k r hk hkr
        obtain ⟨y, o, hy, ho, hmk⟩ := hvals k r hkr
        obtain ⟨hk1, hk2⟩ := List.getElem?_eq_some_iff.1 hmk
        rw [List.drop_eq_getElem_cons hk1, hk2]
        obtain ⟨q, hq⟩ : ∃ q, (Ref.option i :: others os i)[k + 1]? = some q :=
          ⟨_, List.getElem?_eq_getElem (by rw [List.length_cons]; omega)⟩
        exact .step hy ho (by rw [ring_next hr hkr, hq]) (ih (k + 1) _ (by omega) hq)
    have bwd : ∀ (k : Nat) (r : Ref), (Ref.option i :: others os i)[k]? = some r → FollowsBack h r (mine.take (k + 1)).reverse := by
      intro k
      induction k with
      | zero =>
        intro r hkr
        obtain ⟨y, o, hy, ho, hmk⟩ := hvals 0 r hkr
        obtain ⟨hk1, hk2⟩ := List.getElem?_eq_some_iff.1 hmk
        have : mine.take 1 = [o] := by
          rw [List.take_add_one, hmk]; rfl
        rw [this]
        exact .last hy ho (by rw [ring_prev hr hkr, if_pos rfl])
      | succ k ih =>
        intro r hkr
        obtain ⟨y, o, hy, ho, hmk⟩ := hvals (k + 1) r hkr
        have : (mine.take (k + 1 + 1)).reverse = o :: (mine.take (k + 1)).reverse := by
          rw [List.take_add_one (i := k + 1), hmk]; simp
        rw [this]
        have hlt' := (List.getElem?_eq_some_iff.1 hkr).1
        have hq : (Ref.option i :: others os i)[k]? = some (Ref.option i :: others os i)[k] :=
          List.getElem?_eq_getElem (by omega)
        exact .step hy ho (by rw [ring_prev hr hkr, if_neg (Nat.succ_ne_zero _), Nat.add_sub_cancel, hq]) (ih _ hq)
    have reach : ∀ q, Reaches h (.option i) q → ∃ k : Nat, (Ref.option i :: others os i)[k]? = some q := by
      intro q hq
      induction hq with
      | here => exact ⟨0, rfl⟩
      | step _ hn ih =>
        obtain ⟨k, hk⟩ := ih
        rw [ring_next hr hk] at hn
        exact ⟨k + 1, Option.some.inj hn⟩
    have reach' : ∀ (k : Nat) (q : Ref), (Ref.option i :: others os i)[k]? = some q → Reaches h (.option i) q := by
      intro k
      induction k with
      | zero =>
        intro q hq
        have : q = .option i := by simpa using hq.symm
        rw [this]; exact .here
      | succ k ih =>
        intro q hq
        have hlt' := (List.getElem?_eq_some_iff.1 hq).1
        have hk : (Ref.option i :: others os i)[k]? = some (Ref.option i :: others os i)[k] :=
          List.getElem?_eq_getElem (by omega)
        exact .step (ih _ hk) (by rw [ring_next hr hk, hq])
    obtain ⟨e, he⟩ : ∃ e, (Ref.option i :: others os i)[(others os i).length]? = some e :=
      ⟨_, List.getElem?_eq_getElem (by simp)⟩
    refine ⟨by simpa using fwd (others os i).length 0 _ (by omega) rfl, e, reach' _ _ he, ?_, fun q hq => ?_⟩
    · have := bwd _ _ he
      rwa [List.take_of_length_le (by omega)] at this
    · obtain ⟨k, hk⟩ := reach q hq
      have hklt : k < (others os i).length + 1 := by simpa using (List.getElem?_eq_some_iff.1 hk).1
      have hfirst := ring_first hr k q hk h.size (by omega)
      refine ⟨hfirst, ?_, ?_⟩
      · unfold last
        rw [hfirst]
        obtain ⟨x0, hx0, -, hp0⟩ := hr 0 _ rfl
        simp only
        rw [hx0, Option.map_some, hp0, if_pos rfl, he]
        rfl
      · obtain ⟨y, o, hy, ho, -⟩ := hvals k q hk
        unfold count
        rw [hy, hfirst]
        simp only
        rw [ring_countFrom hr (others os i).length 0 (by omega) _ rfl _ hsize, ho, hlen]
        rfl

/-- C126.  After parsing any number of argument vectors into the same arrays: `buffer` holds the options of all of them in this order (as many
as `bufmax` allows), and `optionsCount` is their number; for every index, `options` has the list of the options with this index, in this
order: `next` and `prev` visit exactly them, and `first`, `last` and `count` are right for each of them; `options` of an index that did not occur
is null and counts zero. -/
theorem C126_lists (n m : Nat) (bufmax : Option Nat) (calls : List Call) (p : Parser) (h : Heap) (vs : List (List Str))
    (hp : parseAll bufmax {} (Heap.new n m) calls = some (p, h, vs)) :
    let all := calls.flatMap Call.opts
    let os := match bufmax with | none => all | some b => all.take b
    p.opCount = os.length ∧ h.buffer.length = m ∧ h.options.length = n ∧
    (∀ j, j < m → (h.get (.buffer j)).map (·.val) = some (os[j]?.map (·.1))) ∧
    ∀ i, i < n →
      let mine := (os.filter fun y => y.2 = i).map (·.1)
      (mine = [] → (h.get (.option i)).map (·.val) = some none ∧ count h (.option i) = some 0) ∧
      (mine ≠ [] → Follows h (.option i) mine ∧ ∃ e, Reaches h (.option i) e ∧ FollowsBack h e mine.reverse ∧
        ∀ q, Reaches h (.option i) q → first h h.size q = some (.option i) ∧ last h q = some e ∧ count h q = some mine.length) := by
  intro all os
  have h0 : room bufmax [] = [] := by cases bufmax <;> simp [room]
  obtain ⟨hi, hc, ho, hb⟩ := parseAll_inv (os := []) calls (by rw [h0]; exact inv_new n m) (by rw [h0]; rfl) hp
  rw [List.nil_append] at hi hc
  have e : room bufmax all = os := rfl
  rw [e] at hi hc
  have hon : h.options.length = n := by rw [ho]; simp [Heap.new]
  have hbm : h.buffer.length = m := by rw [hb]; simp [Heap.new]
  refine ⟨hc, hbm, hon, fun j hj => ?_, fun i hlt => inv_list hi (by omega)⟩
  cases hos : os[j]? with
  | some y => exact hi.val j y.1 y.2 hos
  | none =>
    have hg : h.get (.buffer j) = some h.buffer[j] := List.getElem?_eq_getElem (by omega)
    rw [hg, Option.map_some, hi.free j _ (by simpa using hos) hg]
    rfl

/-! ### C127 -/

/-- Specification: the check of an option whose argument can be the next one either never takes it or needs one and takes any. -/
def Stable (d : Desc) : Prop :=
  ∀ name : Str, (name.length = 1 ∨ (name.head? = some '-' ∧ '=' ∉ name)) →
    (∃ s, s ≠ .ok ∧ ∀ a, d.check name a = s) ∨ ((∀ a, d.check name (some a) = .ok) ∧ d.check name none = .illegal)

theorem handle_stable {usage : List Desc} (hs : ∀ d ∈ usage, Stable d) {i : Nat} {name : Str}
    (hn : name.length = 1 ∨ (name.head? = some '-' ∧ '=' ∉ name)) (next next' : Option Str) :
    (∃ o, handle usage i name (detach next) = some (o, true) ∧ (detach next).fate = .took) ∨ handle usage i name (detach next) = none ∨
    ((∃ o, handle usage i name (detach next) = some (o, false)) ∧ handle usage i name (detach next') = handle usage i name (detach next)) := by
  unfold handle
  cases hd : usage[i]? with
  | none => exact .inr (.inl rfl)
  | some d =>
    simp only
    rcases hs d (List.mem_of_getElem? hd) name hn with ⟨s, hne, h⟩ | ⟨h1, h2⟩
    · rw [h, h]
      cases s with
      | ok => exact absurd rfl hne
      | none => exact .inr (.inr ⟨⟨_, rfl⟩, rfl⟩)
      | ignore => exact .inr (.inr ⟨⟨_, rfl⟩, rfl⟩)
      | illegal => exact .inr (.inl rfl)
    · cases next with
      | none => exact .inr (.inl (by simp [detach, Potential.text, h2]))
      | some a => exact .inl ⟨_, by simp only [detach, Potential.text, h1]; rfl, rfl⟩

theorem shorts_stable {usage : List Desc} (hs : ∀ d ∈ usage, Stable d) {next : Option Str} {s : Str} {o : List Opt}
    (h : shorts usage next s = (o, .plain)) (next' : Option Str) : shorts usage next' s = (o, .plain) := by
  induction s generalizing o with
  | nil => exact h
  | cons c r ih =>
    unfold shorts at h ⊢
    simp only at h ⊢
    cases hf : (findShort usage c).or (findDummy usage) with
    | none => rw [hf] at h; exact ih h
    | some i =>
      rw [hf] at h
      simp only at h ⊢
      by_cases hr : r = []
      · subst hr
        simp only [if_true] at h ⊢
        rcases handle_stable hs (i := i) (name := [c]) (.inl rfl) next next' with ⟨o', h1, h2⟩ | h1 | ⟨⟨o', h1⟩, h2⟩
        · rw [h1, h2] at h; cases h
        · rw [h1] at h; cases h
        · rw [h2]
          rw [h1] at h ⊢
          simpa [shorts] using h
      · rw [if_neg hr] at h ⊢
        split at h
        · cases h
        · exact h
        · next o' ho =>
          cases hsr : shorts usage next r with
          | mk o2 f2 =>
            rw [hsr] at h
            simp only [Prod.mk.injEq] at h
            obtain ⟨rfl, rfl⟩ := h
            rw [ih hsr]

theorem longs_stable {usage : List Desc} (hs : ∀ d ∈ usage, Stable d) {next : Option Str} {p name : Str} (hp : ∃ q, p = '-' :: q)
    (hpn : '=' ∉ name → '=' ∉ p) {i : Option Nat} {o : List Opt} (h : longs usage next p name i = (o, .plain)) (next' : Option Str) :
    longs usage next' p name i = (o, .plain) := by
  unfold longs at h ⊢
  cases i with
  | none => exact h
  | some i =>
    simp only at h ⊢
    unfold longArg at h ⊢
    cases hd : name.dropWhile (· ≠ '=') with
    | cons a s => rw [hd] at h; exact h
    | nil =>
      rw [hd] at h
      simp only at h ⊢
      have hno : '=' ∉ name := by
        intro hm
        have e := List.takeWhile_append_dropWhile (p := fun x => decide (x ≠ '=')) (l := name)
        rw [hd, List.append_nil] at e
        rw [← e] at hm
        have := List.all_takeWhile (p := fun x => decide (x ≠ '=')) (l := name)
        rw [List.all_eq_true] at this
        simpa using this _ hm
      obtain ⟨q, rfl⟩ := hp
      rcases handle_stable hs (i := i) (name := '-' :: q) (.inr ⟨rfl, hpn hno⟩) next next' with ⟨o', h1, h2⟩ | h1 | ⟨⟨o', h1⟩, h2⟩
      · rw [h1, h2] at h; cases h
      · rw [h1] at h; cases h
      · rw [h2]
        rw [h1] at h ⊢
        exact h

theorem one_stable {c : Cfg} (hs : ∀ d ∈ c.usage, Stable d) {p : Str} (hp : ¬ NonOption p) {next : Option Str} {o : List Opt}
    (h : one c p next = (o, .plain)) (next' : Option Str) : one c p next' = (o, .plain) := by
  obtain ⟨a, r, rfl⟩ := not_nonOption hp
  unfold one at h ⊢
  split
  · next h2 =>
    rw [if_pos h2] at h
    refine longs_stable hs ⟨_, rfl⟩ (fun hm => ?_) h next'
    have : a = '-' := by simpa using h2
    subst this
    simpa using hm
  · next h2 =>
    rw [if_neg h2] at h
    split at h
    · next i hi =>
      refine longs_stable hs ⟨_, rfl⟩ (fun hm => ?_) h next'
      simpa using hm
    · exact shorts_stable hs h next'

theorem walk_prefix (c : Cfg) (hg : c.gnu = true) (n : List Str) (hn : ∀ x ∈ n, NonOption x) (r : List Str) :
    walk c (n ++ r) = ⟨(walk c r).opts, (walk c r).err, (walk c r).used, n ++ (walk c r).left⟩ := by
  induction n with
  | nil => rfl
  | cons x n ih =>
    rw [List.cons_append, walk, if_pos (hn x (by simp)), if_pos hg, ih fun x hx => hn x (by simp [hx])]
    rfl

/-- A vector that was reordered is read like before. -/
theorem walk_again (c : Cfg) (hg : c.gnu = true) (hs : ∀ d ∈ c.usage, Stable d) (args : List Str) :
    ∀ n : List Str, (∀ x ∈ n, NonOption x) →
      walk c ((walk c args).used ++ n ++ (walk c args).left) =
        ⟨(walk c args).opts, (walk c args).err, (walk c args).used, n ++ (walk c args).left⟩ := by
  fun_induction walk c args with
  | case1 => intro n hn; simpa [walk] using walk_prefix c hg n hn []
  | case2 p r hno hg' ih =>
    intro n hn
    have := ih (n ++ [p]) (by
      intro x hx
      rcases List.mem_append.1 hx with hx | hx
      · exact hn x hx
      · rw [List.mem_singleton.1 hx]; exact hno)
    simpa using this
  | case3 p r hno hg' => exact absurd hg hg'
  | case4 r hno =>
    intro n hn
    show walk c (c!"--" :: (n ++ r)) = _
    rw [walk, if_neg hno, if_pos rfl]
  | case5 p r hno hd o h =>
    intro n hn
    show walk c (n ++ p :: r) = _
    rw [walk_prefix c hg n hn, walk, if_neg hno, if_neg hd, h]
  | case6 p r hno hd o h ih =>
    intro n hn
    show walk c (p :: ((walk c r).used ++ n ++ (walk c r).left)) = _
    rw [walk, if_neg hno, if_neg hd, one_stable hs hno h, ih n hn]
  | case7 p hno hd o h =>
    have := one_took (c := c) (p := p) (n := none) (by rw [List.head?_nil] at h; rw [h])
    cases this
  | case8 p hno hd o a r' h ih =>
    intro n hn
    show walk c (p :: a :: ((walk c r').used ++ n ++ (walk c r').left)) = _
    rw [walk, if_neg hno, if_neg hd]
    rw [List.head?_cons] at h ⊢
    rw [h]
    simp only
    rw [ih n hn]

theorem shuffle_length {a b l : List Str} (h : Shuffle a b l) : l.length = a.length + b.length := by
  induction h with
  | nil => rfl
  | left _ _ ih => simp [ih]; omega
  | right _ _ ih => simp [ih]; omega

/-- The vector after `workhorse` gives the same options again. -/
theorem workhorse_again (k : Call) (hf : k.Fits) (hs : k.c.gnu = false ∨ ∀ d ∈ k.c.usage, Stable d) :
    (workhorse k.c k.argc (workhorse k.c k.argc k.argv).vec).opts = (workhorse k.c k.argc k.argv).opts ∧
    (workhorse k.c k.argc (workhorse k.c k.argc k.argv).vec).err = (workhorse k.c k.argc k.argv).err ∧
    (workhorse k.c k.argc (workhorse k.c k.argc k.argv).vec).vec = (workhorse k.c k.argc k.argv).vec ∧
    (workhorse k.c k.argc k.argv).vec.length = k.argv.length := by
  obtain ⟨c, argc, argv⟩ := k
  simp only at hs ⊢
  have hf' : argc.getD argv.length ≤ argv.length := hf
  obtain ⟨h1, h2, h3, -⟩ := workhorse_walk c argc argv hf
  have f := walk_facts c (argv.take (argc.getD argv.length))
  have fl := shuffle_length f.1
  have hw : walk c ((walk c (argv.take (argc.getD argv.length))).used ++ (walk c (argv.take (argc.getD argv.length))).left) =
      walk c (argv.take (argc.getD argv.length)) := by
    cases hg : c.gnu with
    | false => rw [f.2.1 hg]
    | true =>
      have := walk_again c hg (hs.resolve_left (by simp [hg])) (argv.take (argc.getD argv.length)) [] (by simp)
      simpa using this
  generalize hW : walk c (argv.take (argc.getD argv.length)) = w at *
  have hlen : (w.used ++ w.left).length = argc.getD argv.length := by
    rw [List.length_append, ← fl, List.length_take]; omega
  have hvl : (workhorse c argc argv).vec.length = argv.length := by
    rw [h3, List.length_append, hlen, List.length_drop]; omega
  have e1 : (workhorse c argc argv).vec.take (argc.getD argv.length) = w.used ++ w.left := by
    rw [h3, ← hlen, List.take_left]
  have e2 : (workhorse c argc argv).vec.drop (argc.getD argv.length) = argv.drop (argc.getD argv.length) := by
    rw [h3]
    conv => lhs; rw [← hlen]
    rw [List.drop_left, hlen]
  obtain ⟨g1, g2, g3, -⟩ := workhorse_walk c argc (workhorse c argc argv).vec (by rw [hvl]; exact hf')
  rw [hvl, e1, hw] at g1 g2 g3
  refine ⟨g1.trans h1.symm, g2.trans h2.symm, ?_, hvl⟩
  rw [g3, e2, h3]

theorem performAll_some {usage : List Desc} (l : List Opt) {h : Heap} {os : List (Opt × Nat)} (hi : Inv h os)
    (hv : ∀ o ∈ l, ∃ d ∈ usage, usage[o.desc]? = some d) (hx : ∀ d ∈ usage, d.index < h.options.length)
    (hl : os.length + l.length ≤ h.buffer.length) : ∃ r, performAll usage none (h, os.length) l = some r := by
  induction l generalizing h os with
  | nil => exact ⟨_, rfl⟩
  | cons o l ih =>
    rw [List.length_cons] at hl
    obtain ⟨d, hd, hdo⟩ := hv o (by simp)
    obtain ⟨h', e, hi', e1, e2⟩ := perform_inv hi (b := none) rfl (by omega) hdo (hx d hd)
    unfold performAll
    rw [e]
    have : os.length + 1 = (os ++ [(o, d.index)]).length := by simp
    simp only
    rw [this]
    exact ih hi' (fun o ho => hv o (by simp [ho])) (fun d hd => by rw [e1]; exact hx d hd) (by rw [e2]; simp; omega)

theorem firstFree_some {h : Heap} {os : List (Opt × Nat)} (hi : Inv h os) (hl : os.length < h.buffer.length) :
    ∃ n, firstFree h none = some n := by
  have hn : (h.buffer.takeWhile fun x => x.val.isSome).length < h.buffer.length := by
    apply Nat.lt_of_le_of_ne (List.takeWhile_prefix _).length_le
    intro e
    have hp : h.buffer.takeWhile (fun x => x.val.isSome) = h.buffer :=
      (List.takeWhile_prefix (fun x : Cell => x.val.isSome)).eq_of_length e
    have hm : h.buffer[os.length] ∈ h.buffer.takeWhile (fun x => x.val.isSome) := by rw [hp]; exact List.getElem_mem hl
    have hall := List.all_takeWhile (p := fun x : Cell => x.val.isSome) (l := h.buffer)
    rw [List.all_eq_true] at hall
    have := hall _ hm
    rw [hi.free os.length _ (Nat.le_refl _) (List.getElem?_eq_getElem hl)] at this
    cases this
  unfold firstFree
  simp only [hn, if_true]
  exact ⟨_, rfl⟩

theorem parse_some {p : Parser} {h : Heap} {k : Call} {os : List (Opt × Nat)} (hi : Inv h os) (hf : k.Fits)
    (hx : ∀ d ∈ k.c.usage, d.index < h.options.length) (hl : os.length + k.opts.length < h.buffer.length) :
    ∃ p' h' v, parse p h k.c k.argc k.argv none = some (p', h', v) := by
  obtain ⟨n, hn⟩ := firstFree_some hi (by omega)
  have hn' := firstFree_inv (b := none) (os := os) hi hn
  have hlen : k.opts.length = (workhorse k.c k.argc k.argv).opts.length := by simp [Call.opts]
  obtain ⟨r, hr⟩ := performAll_some (workhorse k.c k.argc k.argv).opts hi (k.valid hf) hx (by omega)
  unfold parse
  rw [hn]
  have hn'' : n = os.length := hn'
  subst hn''
  simp only [hr]
  exact ⟨_, _, _, rfl⟩

theorem parseAll_some (ks : List Call) {p : Parser} {h : Heap} {os : List (Opt × Nat)} (hi : Inv h os) (hf : ∀ k ∈ ks, k.Fits)
    (hx : ∀ k ∈ ks, ∀ d ∈ k.c.usage, d.index < h.options.length)
    (hl : os.length + (ks.flatMap Call.opts).length < h.buffer.length) : ∃ p' h' v, parseAll none p h ks = some (p', h', v) := by
  induction ks generalizing p h os with
  | nil => exact ⟨_, _, _, rfl⟩
  | cons k ks ih =>
    rw [List.flatMap_cons, List.length_append] at hl
    obtain ⟨p1, h1, v, e⟩ := parse_some (p := p) hi (hf k (by simp)) (hx k (by simp)) (by omega)
    obtain ⟨a1, -, a3, a4⟩ := parse_inv (b := none) (os := os) hi e
    obtain ⟨p2, h2, vs, e'⟩ := ih (p := p1) a1 (fun k hk => hf k (by simp [hk])) (fun k hk => by rw [a3]; exact hx k (by simp [hk]))
      (by rw [a4]; simp [room] at *; omega)
    unfold parseAll
    rw [e]
    simp only [e']
    exact ⟨_, _, _, rfl⟩

theorem table_le (usage : List Desc) (m : Nat) : m ≤ Stats.table m usage ∧ ∀ d ∈ usage, d.index < Stats.table m usage := by
  unfold Stats.table
  induction usage generalizing m with
  | nil => exact ⟨Nat.le_refl _, by simp⟩
  | cons d us ih =>
    rw [List.foldl_cons]
    obtain ⟨h1, h2⟩ := ih (if d.index + 1 ≥ m then d.index + 1 + 1 else m)
    have : d.index < (if d.index + 1 ≥ m then d.index + 1 + 1 else m) ∧ m ≤ (if d.index + 1 ≥ m then d.index + 1 + 1 else m) := by
      split <;> omega
    refine ⟨by omega, fun e he => ?_⟩
    rcases List.mem_cons.1 he with rfl | he
    · omega
    · exact h2 e he

theorem statsAll_facts (ks : List Call) (s : Stats) :
    (statsAll s ks).1.bufferMax = s.bufferMax + (ks.flatMap Call.opts).length ∧ s.optionsMax ≤ (statsAll s ks).1.optionsMax ∧
    ∀ k ∈ ks, ∀ d ∈ k.c.usage, d.index < (statsAll s ks).1.optionsMax := by
  induction ks generalizing s with
  | nil => exact ⟨rfl, Nat.le_refl _, by simp⟩
  | cons k ks ih =>
    obtain ⟨h1, h2, h3⟩ := ih (s.add k.c k.argc k.argv).1
    obtain ⟨t1, t2⟩ := table_le k.c.usage s.optionsMax
    have e : (s.add k.c k.argc k.argv).1 = ⟨s.bufferMax + k.opts.length, Stats.table s.optionsMax k.c.usage⟩ := by
      simp [Stats.add, Call.opts]
    refine ⟨?_, ?_, ?_⟩
    · show (statsAll (s.add k.c k.argc k.argv).1 ks).1.bufferMax = _
      rw [h1, e, List.flatMap_cons, List.length_append]
      simp only
      omega
    · show _ ≤ (statsAll (s.add k.c k.argc k.argv).1 ks).1.optionsMax
      have : Stats.table s.optionsMax k.c.usage ≤ (statsAll (s.add k.c k.argc k.argv).1 ks).1.optionsMax := h2
      exact Nat.le_trans t1 this
    · intro k' hk d hd
      show d.index < (statsAll (s.add k.c k.argc k.argv).1 ks).1.optionsMax
      rcases List.mem_cons.1 hk with rfl | hk
      · have : Stats.table s.optionsMax k'.c.usage ≤ (statsAll (s.add k'.c k'.argc k'.argv).1 ks).1.optionsMax := h2
        exact Nat.lt_of_lt_of_le (t2 d hd) this
      · exact h3 k' hk d hd

theorem statsAll_calls (ks : List Call) (s : Stats) (hf : ∀ k ∈ ks, k.Fits)
    (hs : ∀ k ∈ ks, k.c.gnu = false ∨ ∀ d ∈ k.c.usage, Stable d) :
    (∀ k ∈ (statsAll s ks).2, k.Fits) ∧ (statsAll s ks).2.map Call.opts = ks.map Call.opts ∧
    (statsAll s ks).2.map (·.c) = ks.map (·.c) := by
  induction ks generalizing s with
  | nil => exact ⟨by simp [statsAll], rfl, rfl⟩
  | cons k ks ih =>
    obtain ⟨i1, i2, i3⟩ := ih (s.add k.c k.argc k.argv).1 (fun k hk => hf k (by simp [hk])) (fun k hk => hs k (by simp [hk]))
    obtain ⟨a1, -, -, a4⟩ := workhorse_again k (hf k (by simp)) (hs k (by simp))
    refine ⟨?_, ?_, ?_⟩
    · intro k' hk
      rcases List.mem_cons.1 hk with rfl | hk
      · show k.argc.getD (workhorse k.c k.argc k.argv).vec.length ≤ (workhorse k.c k.argc k.argv).vec.length
        rw [a4]; exact hf k (by simp)
      · exact i1 k' hk
    · show Call.opts ⟨k.c, k.argc, (workhorse k.c k.argc k.argv).vec⟩ :: (statsAll (s.add k.c k.argc k.argv).1 ks).2.map Call.opts = _
      rw [i2, List.map_cons]
      congr 1
      simp only [Call.opts]
      rw [a1]
    · show k.c :: (statsAll (s.add k.c k.argc k.argv).1 ks).2.map (·.c) = _
      rw [i3]
      rfl

/-- C127 for programs without `gnu`, or whose checks are `Stable` (missing: other checks with `gnu`, see `C127_negation`): arrays of the sizes that
`Stats` has computed are large enough for the same calls of `parse`, and these find the options that were counted, whether they
get the vectors in their original order or as `Stats` has left them. -/
theorem C127_sizes_partial (calls : List Call) (hf : ∀ k ∈ calls, k.Fits)
    (hs : ∀ k ∈ calls, k.c.gnu = false ∨ ∀ d ∈ k.c.usage, Stable d) :
    let st := statsAll {} calls
    (∃ p h vs, parseAll none {} (Heap.new st.1.optionsMax st.1.bufferMax) st.2 = some (p, h, vs) ∧
      p.opCount + 1 = st.1.bufferMax) ∧
    st.2.map Call.opts = calls.map Call.opts := by
  intro st
  obtain ⟨f1, -, f3⟩ := statsAll_facts calls {}
  obtain ⟨g1, g2, g3⟩ := statsAll_calls calls {} hf hs
  have hflat : st.2.flatMap Call.opts = calls.flatMap Call.opts := by
    rw [List.flatMap_def, List.flatMap_def, g2]
  have hx : ∀ k ∈ st.2, ∀ d ∈ k.c.usage, d.index < st.1.optionsMax := by
    intro k hk d hd
    have : k.c ∈ st.2.map (·.c) := List.mem_map_of_mem hk
    rw [g3] at this
    obtain ⟨k', hk', e⟩ := List.mem_map.1 this
    exact f3 k' hk' d (by rw [e]; exact hd)
  have hb : st.1.bufferMax = 1 + (calls.flatMap Call.opts).length := f1
  obtain ⟨p, h, vs, e⟩ := parseAll_some (p := {}) st.2 (inv_new st.1.optionsMax st.1.bufferMax) g1
    (fun k hk d hd => by simpa [Heap.new] using hx k hk d hd) (by rw [hflat]; simp [Heap.new, hb])
  refine ⟨⟨p, h, vs, e, ?_⟩, g2⟩
  have := (C126_lists _ _ none st.2 p h vs e).1
  simp only at this
  rw [this, hflat, hb]
  omega

/-- C127 without any condition on the checks, if the parser gets the vectors in their original order. -/
theorem C127_original_partial (calls : List Call) (hf : ∀ k ∈ calls, k.Fits) :
    let st := (statsAll {} calls).1
    ∃ p h vs, parseAll none {} (Heap.new st.optionsMax st.bufferMax) calls = some (p, h, vs) ∧ p.opCount + 1 = st.bufferMax := by
  intro st
  obtain ⟨f1, -, f3⟩ := statsAll_facts calls {}
  have hb : st.bufferMax = 1 + (calls.flatMap Call.opts).length := f1
  obtain ⟨p, h, vs, e⟩ := parseAll_some (p := {}) calls (inv_new st.optionsMax st.bufferMax) hf
    (fun k hk d hd => by simpa [Heap.new] using f3 k hk d hd) (by simp [Heap.new, hb])
  refine ⟨p, h, vs, e, ?_⟩
  have := (C126_lists _ _ none calls p h vs e).1
  simp only at this
  rw [this, hb]
  omega

/-- A check for an optional number. -/
def number : Str → Option Str → Status := fun _ a =>
  match a with
  | some ('-' :: d :: r) => if (d :: r).all Char.isDigit then .ok else .ignore
  | some (d :: r) => if (d :: r).all Char.isDigit then .ok else .ignore
  | _ => .ignore

/-- C127 is false: `-n file -5 -xyz`, where `-n` has an optional number and `-5` needs an argument.  `Stats` counts two options (`-n` and `-5 -xyz`)
and moves `file` to the end; then `-5` is the number, and the parser stores four options in a buffer of three. -/
theorem C127_negation : ∃ k : Call, k.Fits ∧ k.c.gnu = true ∧
    parseAll none {} (Heap.new (statsAll {} [k]).1.optionsMax (statsAll {} [k]).1.bufferMax) (statsAll {} [k]).2 = none := by
  refine ⟨⟨⟨true, [⟨0, c!"n", c!"number", number⟩, ⟨1, c!"5", c!"five", required⟩, ⟨2, c!"xyz", [], checkNone⟩], 0, false⟩, none,
    [c!"-n", c!"file", c!"-5", c!"-xyz"]⟩, Nat.le_refl _, rfl, ?_⟩
  decide

/-! ### Examples -/

theorem stable_none (i : Nat) (s : List Char) (l : Str) : Stable ⟨i, s, l, checkNone⟩ := fun _ _ => .inl ⟨.none, nofun, fun _ => rfl⟩
theorem stable_required (i : Nat) (s : List Char) (l : Str) : Stable ⟨i, s, l, required⟩ := fun _ _ => .inr ⟨fun _ => rfl, rfl⟩
theorem stable_optional (i : Nat) (s : List Char) (l : Str) : Stable ⟨i, s, l, checkOptional⟩ := by
  intro name hn
  refine .inl ⟨.ignore, nofun, fun a => ?_⟩
  have hd : name.drop (namelen name) = [] := by
    rw [List.drop_eq_nil_iff]
    unfold namelen
    rcases hn with h | ⟨h, hno⟩
    · split <;> omega
    · rw [if_pos h]
      cases name with
      | nil => cases h
      | cons a r =>
        have : r.takeWhile (· ≠ '=') = r := by
          have := takeWhile_name r [] (fun hm => hno (by simp [hm])) (.inl rfl)
          simpa using this.1
        rw [List.drop_one, List.tail_cons, this, List.length_cons]
        omega
  show (if a.isSome ∧ name.drop (namelen name) ≠ [] then Status.ok else Status.ignore) = .ignore
  rw [if_neg (fun h => h.2 hd)]

theorem table_stable : ∀ d ∈ table, Stable d := by
  intro d hd
  simp [table] at hd
  rcases hd with rfl | rfl | rfl | rfl | rfl
  · exact stable_none _ _ _
  · exact stable_none _ _ _
  · exact stable_required _ _ _
  · exact stable_optional _ _ _
  · exact stable_none _ _ _

/-- An environment variable, split in words, and a command line. -/
def two : List Call :=
  [⟨⟨true, table, 0, false⟩, none, [c!"-vo", c!"a"]⟩, ⟨⟨true, table, 0, false⟩, some 4, [c!"x", c!"-q", c!"-v", c!"--level=2", c!"ignored"]⟩]

example := C127_sizes_partial two (by simp [two, Call.Fits]) (by simp only [two]; intro k hk; simp at hk; rcases hk with rfl | rfl <;> exact .inr table_stable)

example : ((statsAll {} two).1.bufferMax, (statsAll {} two).1.optionsMax) = (6, 5) := by decide

/-- The options with index 1 are `-v` of the first and `-q`, `-v` of the second vector. -/
example : ∃ p h vs, parseAll none {} (Heap.new 5 6) two = some (p, h, vs) ∧
    Follows h (.option 1) [⟨1, c!"vo", none⟩, ⟨4, c!"q", none⟩, ⟨1, c!"v", none⟩] ∧ count h (.option 1) = some 3 := by
  obtain ⟨p, h, vs, e, -⟩ := C127_original_partial two (by simp [two, Call.Fits])
  have e' : parseAll none {} (Heap.new 5 6) two = some (p, h, vs) := e
  refine ⟨p, h, vs, e', ?_⟩
  obtain ⟨-, -, -, -, l⟩ := C126_lists 5 6 none two p h vs e'
  have hm : (((two.flatMap Call.opts).filter fun y => y.2 = 1).map (·.1)) = [⟨1, c!"vo", none⟩, ⟨4, c!"q", none⟩, ⟨1, c!"v", none⟩] := by
    decide
  have l1 := (l 1 (by decide)).2
  simp only [hm] at l1
  obtain ⟨a, _, _, _, b⟩ := l1 nofun
  exact ⟨a, (b _ .here).2.2⟩

end Verif.OptParse
