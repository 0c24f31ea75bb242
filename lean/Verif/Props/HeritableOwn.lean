import Verif.Model.HeritableOwn
/-!
C164: the object of a Heritable is deleted once, when the last Heritable goes, as what it is.
-/
namespace Verif.Heritable.Own

variable {K : Type}

structure Owns (s : State K) : Prop where
  bound : ∀ h b : Nat, s.handles[h]? = some (some (some b)) → b < s.blocks.length
  live : ∀ (b : Nat) (x : Block K), s.blocks[b]? = some x →
    (x.live = true ↔ ∃ h : Nat, s.handles[h]? = some (some (some b)))
  obj : ∀ (b : Nat) (x : Block K), s.blocks[b]? = some x → x.obj < s.objs.length
  gone : (s.blocks.map Block.obj).Nodup → ∀ (i : Nat) (o : Obj K), s.objs[i]? = some o →
    (∀ (b : Nat) (x : Block K), s.blocks[b]? = some x → x.obj = i → o.deletes = if x.live then [] else [x.cls]) ∧
    ((∀ (b : Nat) (x : Block K), s.blocks[b]? = some x → x.obj ≠ i) → o.deletes = [])

theorem used_iff (s : State K) (b : Nat) : s.used b = true ↔ ∃ h : Nat, s.handles[h]? = some (some (some b)) := by
  unfold State.used
  rw [List.any_eq_true]
  constructor
  · rintro ⟨x, hx, he⟩
    obtain ⟨h, hh⟩ := List.mem_iff_getElem?.1 hx
    rw [beq_iff_eq] at he
    exact ⟨h, by rw [hh, he]⟩
  · rintro ⟨h, hh⟩
    exact ⟨_, List.mem_of_getElem? hh, beq_self_eq_true _⟩

theorem distinct {s : State K} (hn : (s.blocks.map Block.obj).Nodup) {a b : Nat} {x y : Block K}
    (hx : s.blocks[a]? = some x) (hy : s.blocks[b]? = some y) (h : x.obj = y.obj) : a = b := by
  have ha : (s.blocks.map Block.obj)[a]? = some x.obj := by rw [List.getElem?_map, hx]; rfl
  have hb : (s.blocks.map Block.obj)[b]? = some x.obj := by rw [List.getElem?_map, hy, h]; rfl
  have hlt := (List.getElem?_eq_some_iff.1 ha).1
  exact (List.getElem?_inj hlt hn).1 (ha.trans hb.symm)

/-- Only Heritables change, so that the blocks in use are the same except perhaps `x`, of which one pointer has gone. -/
theorem owns_release {s : State K} (h : Owns s) (hs : List (Option (Option Nat))) (x : Option Nat)
    (hx : ∀ b, x = some b → ∃ i : Nat, s.handles[i]? = some (some (some b)))
    (hsub : ∀ b, (∃ i : Nat, hs[i]? = some (some (some b))) → ∃ i : Nat, s.handles[i]? = some (some (some b)))
    (hkeep : ∀ b, x ≠ some b → (∃ i : Nat, s.handles[i]? = some (some (some b))) →
      ∃ i : Nat, hs[i]? = some (some (some b))) :
    Owns (release { s with handles := hs } x) := by
  have same : ∀ (hall : ∀ b, (∃ i : Nat, s.handles[i]? = some (some (some b))) →
      ∃ i : Nat, hs[i]? = some (some (some b))), Owns ({ s with handles := hs } : State K) := by
    intro hall
    refine ⟨?_, ?_, h.obj, h.gone⟩
    · intro i b hb
      obtain ⟨j, hj⟩ := hsub b ⟨i, hb⟩
      exact h.bound j b hj
    · intro b y hy
      exact (h.live b y hy).trans ⟨hall b, hsub b⟩
  cases x with
  | none => exact same fun b hb => hkeep b nofun hb
  | some b =>
    obtain ⟨i, hi⟩ := hx b rfl
    have hlt := h.bound i b hi
    unfold release
    simp only
    by_cases hu : ({ s with handles := hs } : State K).used b = true
    · rw [if_pos hu]
      refine same fun c hc => ?_
      by_cases e : c = b
      · rw [e]; exact (used_iff _ b).1 hu
      · exact hkeep c (fun e' => e (Option.some.inj e').symm) hc
    · rw [if_neg hu]
      have hb : s.blocks[b]? = some s.blocks[b] := List.getElem?_eq_getElem hlt
      generalize s.blocks[b] = x at hb
      rw [hb]
      simp only
      have hlive : x.live = true := (h.live b x hb).2 ⟨i, hi⟩
      have hmap : (s.blocks.set b { x with live := false }).map Block.obj = s.blocks.map Block.obj := by
        apply List.ext_getElem?
        intro j
        rw [List.getElem?_map, List.getElem?_map]
        by_cases hj : j = b
        · subst hj
          rw [List.getElem?_set_self hlt, hb]
          rfl
        · rw [List.getElem?_set_ne (Ne.symm hj)]
      have hget : ∀ (c : Nat) (y : Block K), (s.blocks.set b { x with live := false })[c]? = some y →
          (c = b ∧ y = { x with live := false }) ∨ (c ≠ b ∧ s.blocks[c]? = some y) := by
        intro c y hy
        by_cases hc : c = b
        · subst hc
          rw [List.getElem?_set_self hlt] at hy
          exact Or.inl ⟨rfl, (Option.some.inj hy).symm⟩
        · rw [List.getElem?_set_ne (Ne.symm hc)] at hy
          exact Or.inr ⟨hc, hy⟩
      refine ⟨?_, ?_, ?_, ?_⟩
      · intro j c hc
        obtain ⟨k, hk⟩ := hsub c ⟨j, hc⟩
        show c < (s.blocks.set b _).length
        rw [List.length_set]
        exact h.bound k c hk
      · intro c y hy
        rcases hget c y hy with ⟨rfl, rfl⟩ | ⟨hc, hy⟩
        · refine ⟨nofun, fun hh => absurd ((used_iff _ c).2 hh) hu⟩
        · exact (h.live c y hy).trans
            ⟨hkeep c (fun e => hc (Option.some.inj e).symm), hsub c⟩
      · intro c y hy
        show y.obj < (s.objs.modify _ _).length
        rw [List.length_modify]
        rcases hget c y hy with ⟨rfl, rfl⟩ | ⟨hc, hy⟩
        · exact h.obj c x hb
        · exact h.obj c y hy
      · intro hn j o ho
        have hn : ((s.blocks.set b { x with live := false }).map Block.obj).Nodup := hn
        rw [hmap] at hn
        have ho : (s.objs.modify x.obj fun o => { o with deletes := o.deletes ++ [x.cls] })[j]? = some o := ho
        rw [List.getElem?_modify] at ho
        obtain ⟨o0, ho0, rfl⟩ := Option.map_eq_some_iff.1 ho
        obtain ⟨h1, h2⟩ := h.gone hn j o0 ho0
        by_cases hj : x.obj = j
        · rw [if_pos hj]
          have hd : o0.deletes = [] := by
            rw [h1 b x hb hj, if_pos hlive]
          constructor
          · intro c y hy hyj
            rcases hget c y hy with ⟨rfl, rfl⟩ | ⟨hc, hy⟩
            · show o0.deletes ++ [x.cls] = _
              rw [hd]
              rfl
            · exact absurd (distinct hn hy hb (hyj.trans hj.symm)) hc
          · intro hall
            exact absurd hj (hall b { x with live := false } (List.getElem?_set_self hlt))
        · rw [if_neg hj]
          constructor
          · intro c y hy hyj
            rcases hget c y hy with ⟨rfl, rfl⟩ | ⟨hc, hy⟩
            · exact absurd hyj hj
            · exact h1 c y hy hyj
          · intro hall
            refine h2 fun c y hy hyj => ?_
            by_cases hc : c = b
            · subst hc
              rw [hb] at hy
              cases hy
              exact hj hyj
            · exact hall c y (by show (s.blocks.set b _)[c]? = _; rw [List.getElem?_set_ne (Ne.symm hc)]; exact hy) hyj

theorem set_iff {l : List (Option (Option Nat))} {i : Nat} (hi : i < l.length) {a : Option (Option Nat)} (j : Nat)
    (y : Option (Option Nat)) : (l.set i a)[j]? = some y ↔ (j = i ∧ y = a) ∨ (j ≠ i ∧ l[j]? = some y) := by
  by_cases h : j = i
  · subst h
    rw [List.getElem?_set_self hi]
    constructor
    · intro e; exact Or.inl ⟨rfl, (Option.some.inj e).symm⟩
    · rintro (⟨-, rfl⟩ | ⟨h, -⟩)
      · rfl
      · exact absurd rfl h
  · rw [List.getElem?_set_ne (Ne.symm h)]
    constructor
    · intro e; exact Or.inr ⟨h, e⟩
    · rintro (⟨h', -⟩ | ⟨-, e⟩)
      · exact absurd h' h
      · exact e

theorem append_iff {α : Type} (l : List α) (a : α) (j : Nat) (y : α) :
    (l ++ [a])[j]? = some y ↔ l[j]? = some y ∨ (j = l.length ∧ y = a) := by
  rcases Nat.lt_trichotomy j l.length with h | h | h
  · rw [List.getElem?_append_left h]
    constructor
    · exact Or.inl
    · rintro (e | ⟨e, -⟩)
      · exact e
      · omega
  · subst h
    rw [List.getElem?_append_right (Nat.le_refl _), Nat.sub_self]
    constructor
    · intro e; exact Or.inr ⟨rfl, (Option.some.inj e).symm⟩
    · rintro (e | ⟨-, rfl⟩)
      · rw [List.getElem?_eq_none (Nat.le_refl _)] at e; cases e
      · rfl
  · rw [List.getElem?_eq_none (by simp; omega)]
    constructor
    · nofun
    · rintro (e | ⟨e, -⟩)
      · rw [List.getElem?_eq_none (by omega)] at e; cases e
      · omega

/-- Only Heritables change, and the same blocks are in use. -/
theorem owns_same {s : State K} (h : Owns s) (hs : List (Option (Option Nat)))
    (hiff : ∀ b, (∃ i : Nat, hs[i]? = some (some (some b))) ↔ ∃ i : Nat, s.handles[i]? = some (some (some b))) :
    Owns ({ s with handles := hs } : State K) :=
  owns_release h hs none (fun _ e => nomatch e) (fun b => (hiff b).1) fun b _ => (hiff b).2

theorem owns_step {s s' : State K} {op : Op K} (h : Owns s) (hs : step s op = some s') : Owns s' := by
  cases op with
  | new d =>
    cases hs
    refine ⟨h.bound, h.live, ?_, ?_⟩
    · intro b x hx
      show x.obj < (s.objs ++ [_]).length
      rw [List.length_append]
      exact Nat.lt_of_lt_of_le (h.obj b x hx) (Nat.le_add_right _ _)
    · intro hn i o ho
      rcases (append_iff _ _ _ _).1 ho with ho | ⟨hi, rfl⟩
      · exact h.gone hn i o ho
      · refine ⟨fun b x hx e => ?_, fun _ => rfl⟩
        have := h.obj b x hx
        omega
  | adopt o k =>
    simp only [step] at hs
    split at hs
    · rename_i ho
      cases hs
      refine ⟨?_, ?_, ?_, ?_⟩
      · intro i b hb
        show b < (s.blocks ++ [_]).length
        rw [List.length_append]
        rcases (append_iff _ _ _ _).1 hb with hb | ⟨-, hb⟩
        · exact Nat.lt_of_lt_of_le (h.bound i b hb) (Nat.le_add_right _ _)
        · cases hb; exact Nat.lt_succ_self _
      · intro b x hx
        rcases (append_iff _ _ _ _).1 hx with hx | ⟨rfl, rfl⟩
        · rw [h.live b x hx]
          constructor
          · rintro ⟨i, hi⟩
            exact ⟨i, (append_iff _ _ _ _).2 (Or.inl hi)⟩
          · rintro ⟨i, hi⟩
            rcases (append_iff _ _ _ _).1 hi with hi | ⟨-, hi⟩
            · exact ⟨i, hi⟩
            · cases hi
              rw [List.getElem?_eq_none (Nat.le_refl _)] at hx
              cases hx
        · exact ⟨fun _ => ⟨_, (append_iff _ _ _ _).2 (Or.inr ⟨rfl, rfl⟩)⟩, fun _ => rfl⟩
      · intro b x hx
        rcases (append_iff _ _ _ _).1 hx with hx | ⟨-, rfl⟩
        · exact h.obj b x hx
        · exact ho
      · intro hn i p hp
        have hn : ((s.blocks ++ [(⟨o, k, true⟩ : Block K)]).map Block.obj).Nodup := hn
        rw [List.map_append, List.nodup_append] at hn
        obtain ⟨hn, -, hne⟩ := hn
        obtain ⟨h1, h2⟩ := h.gone hn i p hp
        constructor
        · intro b x hx e
          rcases (append_iff _ _ _ _).1 hx with hx | ⟨-, rfl⟩
          · exact h1 b x hx e
          · have e : o = i := e
            subst e
            refine h2 fun b x hx e => ?_
            refine hne x.obj ?_ o ?_ e
            · exact List.mem_map.2 ⟨x, List.mem_of_getElem? hx, rfl⟩
            · exact List.mem_cons_self
        · intro hall
          exact h2 fun b x hx => hall b x ((append_iff _ _ _ _).2 (Or.inl hx))
    · cases hs
  | copy g =>
    simp only [step] at hs
    split at hs
    · rename_i x hg
      cases hs
      refine owns_same h _ fun b => ⟨?_, ?_⟩
      · rintro ⟨i, hi⟩
        rcases (append_iff _ _ _ _).1 hi with hi | ⟨-, hi⟩
        · exact ⟨i, hi⟩
        · exact ⟨g, by rw [hg, hi]⟩
      · rintro ⟨i, hi⟩
        exact ⟨i, (append_iff _ _ _ _).2 (Or.inl hi)⟩
    · cases hs
  | move g =>
    simp only [step] at hs
    split at hs
    · rename_i x hg
      cases hs
      have hlt := (List.getElem?_eq_some_iff.1 hg).1
      refine owns_same h _ fun b => ⟨?_, ?_⟩
      · rintro ⟨i, hi⟩
        rcases (append_iff _ _ _ _).1 hi with hi | ⟨-, hi⟩
        · rcases (set_iff hlt _ _).1 hi with ⟨-, hi⟩ | ⟨-, hi⟩
          · cases hi
          · exact ⟨i, hi⟩
        · exact ⟨g, by rw [hg, hi]⟩
      · rintro ⟨i, hi⟩
        by_cases e : i = g
        · subst e
          rw [hg] at hi
          cases hi
          exact ⟨_, (append_iff _ _ _ _).2 (Or.inr ⟨rfl, rfl⟩)⟩
        · exact ⟨i, (append_iff _ _ _ _).2 (Or.inl ((set_iff hlt _ _).2 (Or.inr ⟨e, hi⟩)))⟩
    · cases hs
  | assign a g =>
    simp only [step] at hs
    split at hs
    · rename_i x y ha hg
      cases hs
      have hlt := (List.getElem?_eq_some_iff.1 ha).1
      refine owns_release h _ x ?_ ?_ ?_
      · rintro b rfl
        exact ⟨a, ha⟩
      · rintro b ⟨i, hi⟩
        rcases (set_iff hlt _ _).1 hi with ⟨-, hi⟩ | ⟨-, hi⟩
        · exact ⟨g, by rw [hg, hi]⟩
        · exact ⟨i, hi⟩
      · rintro b hb ⟨i, hi⟩
        refine ⟨i, (set_iff hlt _ _).2 (Or.inr ⟨?_, hi⟩)⟩
        rintro rfl
        rw [ha] at hi
        cases hi
        exact hb rfl
    · cases hs
  | moveAssign a g =>
    simp only [step] at hs
    split at hs
    · rename_i x y ha hg
      split at hs
      · cases hs; exact h
      · rename_i hne
        cases hs
        have hlt := (List.getElem?_eq_some_iff.1 ha).1
        have hlt' := (List.getElem?_eq_some_iff.1 hg).1
        have hlt2 : a < (s.handles.set g (some none)).length := by rw [List.length_set]; exact hlt
        refine owns_release h _ x ?_ ?_ ?_
        · rintro b rfl
          exact ⟨a, ha⟩
        · rintro b ⟨i, hi⟩
          rcases (set_iff hlt2 _ _).1 hi with ⟨-, hi⟩ | ⟨-, hi⟩
          · exact ⟨g, by rw [hg, hi]⟩
          · rcases (set_iff hlt' _ _).1 hi with ⟨-, hi⟩ | ⟨-, hi⟩
            · cases hi
            · exact ⟨i, hi⟩
        · rintro b hb ⟨i, hi⟩
          by_cases e : i = g
          · subst e
            rw [hg] at hi
            cases hi
            exact ⟨a, (set_iff hlt2 _ _).2 (Or.inl ⟨rfl, rfl⟩)⟩
          · refine ⟨i, (set_iff hlt2 _ _).2 (Or.inr ⟨?_, (set_iff hlt' _ _).2 (Or.inr ⟨e, hi⟩)⟩)⟩
            rintro rfl
            rw [ha] at hi
            cases hi
            exact hb rfl
    · cases hs
  | drop a =>
    simp only [step] at hs
    split at hs
    · rename_i x ha
      cases hs
      have hlt := (List.getElem?_eq_some_iff.1 ha).1
      refine owns_release h _ x ?_ ?_ ?_
      · rintro b rfl
        exact ⟨a, ha⟩
      · rintro b ⟨i, hi⟩
        rcases (set_iff hlt _ _).1 hi with ⟨-, hi⟩ | ⟨-, hi⟩
        · cases hi
        · exact ⟨i, hi⟩
      · rintro b hb ⟨i, hi⟩
        refine ⟨i, (set_iff hlt _ _).2 (Or.inr ⟨?_, hi⟩)⟩
        rintro rfl
        rw [ha] at hi
        cases hi
        exact hb rfl
    · cases hs

theorem owns_run (ops : List (Op K)) {s s' : State K} (h : Owns s) (hs : run s ops = some s') : Owns s' := by
  induction ops generalizing s with
  | nil => cases hs; exact h
  | cons op ops ih =>
    obtain ⟨t, ht, hs⟩ := Option.bind_eq_some_iff.1 hs
    exact ih (owns_step h ht) hs

theorem owns_empty : Owns (empty K) := ⟨nofun, nofun, nofun, nofun⟩

/-- Object and class of a block. -/
def given (x : Block K) : Nat × K := (x.obj, x.cls)

theorem release_blocks (s : State K) (x : Option Nat) :
    (release s x).blocks.map given = s.blocks.map given ∧ (release s x).objs.map Obj.cls = s.objs.map Obj.cls := by
  unfold release
  split
  · exact ⟨rfl, rfl⟩
  · rename_i b
    split
    · exact ⟨rfl, rfl⟩
    · split
      · exact ⟨rfl, rfl⟩
      · rename_i x hx
        refine ⟨?_, ?_⟩
        · apply List.ext_getElem?
          intro j
          rw [List.getElem?_map, List.getElem?_map]
          by_cases hj : j = b
          · subst hj
            rw [List.getElem?_set_self (List.getElem?_eq_some_iff.1 hx).1, hx]
            rfl
          · rw [List.getElem?_set_ne (Ne.symm hj)]
        · apply List.ext_getElem?
          intro j
          rw [List.getElem?_map, List.getElem?_map, List.getElem?_modify]
          cases s.objs[j]? with
          | none => rfl
          | some o =>
            show some _ = some _
            split <;> rfl

/-- The objects made, in order. -/
def made : List (Op K) → List K
  | [] => []
  | .new d :: ops => d :: made ops
  | _ :: ops => made ops

theorem step_blocks {s s' : State K} {op : Op K} (hs : step s op = some s') :
    s'.blocks.map given = s.blocks.map given ++ adopted [op] ∧
    s'.objs.map Obj.cls = s.objs.map Obj.cls ++ made [op] := by
  have nil : s'.blocks.map given = s.blocks.map given → s'.objs.map Obj.cls = s.objs.map Obj.cls →
      s'.blocks.map given = s.blocks.map given ++ [] ∧ s'.objs.map Obj.cls = s.objs.map Obj.cls ++ [] :=
    fun a b => ⟨a.trans (List.append_nil _).symm, b.trans (List.append_nil _).symm⟩
  cases op with
  | adopt o k =>
    simp only [step] at hs
    split at hs
    · cases hs
      refine ⟨?_, (List.append_nil _).symm⟩
      show (s.blocks ++ [_]).map _ = _
      rw [List.map_append]
      rfl
    · cases hs
  | new d =>
    cases hs
    refine ⟨(List.append_nil _).symm, ?_⟩
    show (s.objs ++ [_]).map _ = _
    rw [List.map_append]
    rfl
  | copy h => simp only [step] at hs; split at hs <;> cases hs; exact nil rfl rfl
  | move h => simp only [step] at hs; split at hs <;> cases hs; exact nil rfl rfl
  | assign h g =>
    simp only [step] at hs
    split at hs <;> cases hs
    exact nil (release_blocks _ _).1 (release_blocks _ _).2
  | moveAssign h g =>
    simp only [step] at hs
    split at hs
    · split at hs <;> cases hs
      · exact nil rfl rfl
      · exact nil (release_blocks _ _).1 (release_blocks _ _).2
    · cases hs
  | drop h =>
    simp only [step] at hs
    split at hs <;> cases hs
    exact nil (release_blocks _ _).1 (release_blocks _ _).2

theorem run_blocks (ops : List (Op K)) {s s' : State K} (hs : run s ops = some s') :
    s'.blocks.map given = s.blocks.map given ++ adopted ops ∧
    s'.objs.map Obj.cls = s.objs.map Obj.cls ++ made ops := by
  induction ops generalizing s with
  | nil => cases hs; exact ⟨(List.append_nil _).symm, (List.append_nil _).symm⟩
  | cons op ops ih =>
    obtain ⟨t, ht, hs⟩ := Option.bind_eq_some_iff.1 hs
    obtain ⟨h1, h2⟩ := step_blocks ht
    obtain ⟨h3, h4⟩ := ih hs
    rw [h3, h4, h1, h2, List.append_assoc, List.append_assoc]
    constructor
    · congr 1
      cases op <;> rfl
    · congr 1
      cases op <;> rfl

/-- A Heritable that exists refers to the object. -/
def State.refers (s : State K) (h o : Nat) : Prop :=
  ∃ (b : Nat) (x : Block K), s.handles[h]? = some (some (some b)) ∧ s.blocks[b]? = some x ∧ x.obj = o

/-- C164: in every history in which no pointer is given to two constructors of Heritables, an object that was given to a
`Heritable<k>` exists as long as a Heritable refers to it, and has been deleted once, as an object of class `k`, when
none does, whatever copies, moves and assignments there were and to whatever classes; an object that was given to none
has not been deleted. -/
theorem C164_once_partial (ops : List (Op K)) (s : State K) (hs : run (empty K) ops = some s)
    (hn : ((adopted ops).map Prod.fst).Nodup) (i : Nat) (o : Obj K) (ho : s.objs[i]? = some o) :
    (∀ k, (i, k) ∈ adopted ops → ((∃ h, s.refers h i) → o.deletes = []) ∧
      ((¬ ∃ h, s.refers h i) → o.deletes = [k])) ∧
    ((∀ k, (i, k) ∉ adopted ops) → o.deletes = []) := by
  have h := owns_run ops owns_empty hs
  have hb : s.blocks.map given = adopted ops := (run_blocks ops hs).1
  have hb' : s.blocks.map Block.obj = (adopted ops).map Prod.fst := by rw [← hb, List.map_map]; rfl
  have hn' : (s.blocks.map Block.obj).Nodup := by rw [hb']; exact hn
  obtain ⟨h1, h2⟩ := h.gone hn' i o ho
  refine ⟨fun k hk => ?_, ?_⟩
  · rw [← hb] at hk
    obtain ⟨x, hx, hxi⟩ := List.mem_map.1 hk
    obtain ⟨b, hx⟩ := List.mem_iff_getElem?.1 hx
    obtain ⟨hxo, hxk⟩ : x.obj = i ∧ x.cls = k := Prod.mk.inj hxi
    constructor
    · rintro ⟨j, c, y, hj, hy, hyi⟩
      rw [h1 c y hy hyi, (h.live c y hy).2 ⟨j, hj⟩]
      rfl
    · intro hno
      have hl : x.live = false := by
        cases hl : x.live with
        | false => rfl
        | true =>
          obtain ⟨j, hj⟩ := (h.live b x hx).1 hl
          exact absurd ⟨j, b, x, hj, hx, hxo⟩ hno
      rw [h1 b x hx hxo, hl, hxk]
      rfl
  · intro hi
    refine h2 fun b x hx e => hi x.cls ?_
    rw [← hb]
    exact List.mem_map.2 ⟨x, List.mem_of_getElem? hx, by rw [← e]; rfl⟩

/-- Two classes: the second derives from the first. -/
inductive Cls
  | base
  | derived
deriving DecidableEq

/-- Hypotheses of `C164_once_partial`: an object in three Heritables, of which one is moved from and two go. -/
example : ∃ s, run (empty Cls) [.new .derived, .adopt 0 .base, .copy 0, .move 0, .drop 1, .new .base, .adopt 1 .base,
      .assign 2 3] = some s ∧ s.objs = [⟨.derived, [.base]⟩, ⟨.base, []⟩] := ⟨_, rfl, rfl⟩

/-- C164: the destructor of the object's own class runs (`expr.delete`: the class is the one the object was made with, or
its destructor is virtual), if every Heritable made from a pointer is of the class of the object or of one with a virtual
destructor.  What is missing is the rest, see `C164_negation_class`. -/
theorem C164_class_partial (virt : K → Bool) (ops : List (Op K)) (s : State K) (hs : run (empty K) ops = some s)
    (hn : ((adopted ops).map Prod.fst).Nodup)
    (hv : ∀ o k, (o, k) ∈ adopted ops → virt k = true ∨ (made ops)[o]? = some k)
    (i : Nat) (o : Obj K) (ho : s.objs[i]? = some o) :
    ∀ k ∈ o.deletes, virt k = true ∨ o.cls = k := by
  intro k hk
  obtain ⟨h1, h2⟩ := C164_once_partial ops s hs hn i o ho
  have hc : (made ops)[i]? = some o.cls := by
    have e : s.objs.map Obj.cls = made ops := (run_blocks ops hs).2
    rw [← e, List.getElem?_map, ho]
    rfl
  by_cases ha : ∃ k, (i, k) ∈ adopted ops
  · obtain ⟨k', ha⟩ := ha
    obtain ⟨h3, h4⟩ := h1 k' ha
    by_cases hr : ∃ h, s.refers h i
    · rw [h3 hr] at hk
      cases hk
    · rw [h4 hr] at hk
      obtain rfl := List.mem_singleton.1 hk
      exact (hv i k ha).imp id fun e => Option.some.inj (hc.symm.trans e)
  · rw [h2 fun k hk => ha ⟨k, hk⟩] at hk
    cases hk

/-- Hypotheses of `C164_class_partial`, with a base class whose destructor is virtual. -/
example : ∀ o k, (o, k) ∈ adopted [Op.new Cls.derived, .adopt 0 .base, .new .derived, .adopt 1 .derived, .drop 0] →
    (fun c => c == Cls.base) k = true ∨
      (made [Op.new Cls.derived, .adopt 0 .base, .new .derived, .adopt 1 .derived, .drop 0])[o]? = some k := by
  intro o k h
  rcases List.mem_cons.1 h with h | h
  · cases h; exact Or.inl rfl
  · rcases List.mem_cons.1 h with h | h
    · cases h; exact Or.inr rfl
    · cases h

/-- C164 fails: `Heritable<Base>(new Derived)` with a base class whose destructor is not virtual deletes the object as one
of the base class, which is undefined behaviour (a `std::shared_ptr<Base>(new Derived)` deletes it as a `Derived`). -/
theorem C164_negation_class : ∃ (ops : List (Op Cls)) (s : State Cls) (o : Obj Cls), run (empty Cls) ops = some s ∧
    ((adopted ops).map Prod.fst).Nodup ∧ s.objs[0]? = some o ∧ o.cls = .derived ∧ o.deletes = [.base] :=
  ⟨[.new .derived, .adopt 0 .base, .drop 0], _, _, rfl, by decide, rfl, rfl, rfl⟩

/-- C164 fails: one pointer given to two constructors is deleted twice, and the first time while the other Heritable
still refers to it. -/
theorem C164_negation_twice : ∃ (ops more : List (Op Cls)) (s t : State Cls), run (empty Cls) ops = some s ∧
    run s more = some t ∧ s.refers 1 0 ∧ s.objs[0]? = some ⟨.base, [.base]⟩ ∧
    t.objs[0]? = some ⟨.base, [.base, .base]⟩ :=
  ⟨[.new .base, .adopt 0 .base, .adopt 0 .base, .drop 0], [.drop 1], _, _, rfl, rfl, ⟨1, _, rfl, rfl, rfl⟩, rfl, rfl⟩

end Verif.Heritable.Own
