import Verif.Model.Tree
/-!
C32, C33: `TreeNode`.
-/
namespace Verif.Tree

variable {I : Type}

/-- Specification: the node reached by following branch numbers. -/
def subAt : Tree I → List Nat → Option (Tree I)
  | t, [] => some t
  | t, k :: p =>
    match t.branches[k]? with
    | none => none
    | some b => subAt b p

/-- Specification: `h` is the height of the tree: the length of the longest path. -/
def IsHeight (t : Tree I) (h : Nat) : Prop :=
  (∃ p, (subAt t p).isSome ∧ p.length = h) ∧ ∀ p, (subAt t p).isSome → p.length ≤ h

mutual
theorem depth_zero : ∀ t : Tree I, t.depth = 0
  | .node _ bs => by unfold Tree.depth; exact depthLoop_zero bs 0
theorem depthLoop_zero : ∀ (bs : List (Tree I)) (m : Nat), depthLoop bs m = m
  | [], m => rfl
  | b :: bs, m => by
    unfold depthLoop
    rw [depth_zero b, Nat.max_zero]
    exact depthLoop_zero bs m
end

/-- C32 is false: a tree with a branch has height 1 but depth 0. -/
theorem C32_negation : IsHeight (.node 0 [.node 1 []] : Tree Nat) 1 ∧
    (.node 0 [.node 1 []] : Tree Nat).depth = 0 := by
  refine ⟨⟨⟨[0], rfl, rfl⟩, ?_⟩, depth_zero _⟩
  intro p hp
  match p with
  | [] => simp
  | [_] => simp
  | 0 :: 0 :: p => simp [subAt, Tree.branches] at hp
  | 0 :: (k+1) :: p => simp [subAt, Tree.branches] at hp
  | (k+1) :: _ :: p => simp [subAt, Tree.branches] at hp

/-- C32: in fact `depth` is 0 for every tree. -/
theorem C32_always_zero (t : Tree I) : t.depth = 0 := depth_zero t

/-- C32, what holds: `depth` is the height of a leaf.  (Missing: every other tree.) -/
theorem C32_leaf_partial (t : Tree I) (h : t.leaf = true) : IsHeight t t.depth := by
  rw [depth_zero]
  refine ⟨⟨[], rfl, rfl⟩, ?_⟩
  intro p hp
  cases p with
  | nil => simp
  | cons k p =>
    have : t.branches = [] := by simpa [Tree.leaf] using h
    simp [subAt, this] at hp

mutual
/-- The paths of the nodes listed by `all_nodes`, in the same order. -/
def paths : Tree I → List (List Nat)
  | .node _ bs => pathsLoop bs 0 ((List.range bs.length).map fun k => [k])
/-- The loop, with the number of the next branch. -/
def pathsLoop : List (Tree I) → Nat → List (List Nat) → List (List Nat)
  | [], _, r => r
  | b :: bs, k, r => pathsLoop bs (k + 1) ((paths b).map (k :: ·) ++ r)
end

theorem subAt_node (i : I) (bs : List (Tree I)) (k : Nat) (p : List Nat) :
    subAt (.node i bs) (k :: p) = (bs[k]?).bind fun b => subAt b p := by
  simp only [subAt, Tree.branches]
  cases bs[k]? <;> rfl

mutual
theorem allNodes_paths : ∀ t : Tree I, t.allNodes.map some = (paths t).map (subAt t)
  | .node i bs => by
    unfold Tree.allNodes paths
    refine allNodesLoop_paths i bs bs 0 bs _ (by simp) ?_
    apply List.ext_getElem?
    intro k
    simp only [List.getElem?_map]
    by_cases h : k < bs.length
    · simp [h, subAt, Tree.branches]
    · simp [h, List.getElem?_eq_none (Nat.le_of_not_lt h)]
theorem allNodesLoop_paths : ∀ (i : I) (all bs : List (Tree I)) (k : Nat) (r : List (Tree I)) (pr : List (List Nat)),
    (bs = all.drop k) → r.map some = pr.map (subAt (.node i all)) →
    (allNodesLoop bs r).map some = (pathsLoop bs k pr).map (subAt (.node i all))
  | i, all, [], k, r, pr, _, h => by simpa [allNodesLoop, pathsLoop] using h
  | i, all, b :: bs, k, r, pr, hd, h => by
    unfold allNodesLoop pathsLoop
    have hk : all[k]? = some b := by
      have := congrArg List.head? hd
      rw [List.head?_drop] at this
      exact this.symm
    refine allNodesLoop_paths i all bs (k + 1) _ _ ?_ ?_
    · have := congrArg List.tail hd
      simpa [List.tail_drop] using this
    · rw [List.map_append, List.map_append, h, allNodes_paths b, List.map_map]
      congr 1
      apply List.map_congr_left
      intro p _
      simp [subAt_node, hk]
end

mutual
theorem mem_paths : ∀ (t : Tree I) (p : List Nat), p ∈ paths t ↔ p ≠ [] ∧ (subAt t p).isSome
  | .node i bs, p => by
    unfold paths
    rw [mem_pathsLoop i bs bs 0 _ p (by simp)]
    constructor
    · rintro (h | ⟨k, q, rfl, _, hk, h1, h2⟩)
      · simp only [List.mem_map, List.mem_range] at h
        obtain ⟨k, hk, rfl⟩ := h
        rw [subAt_node]; simp [hk, subAt]
      · exact ⟨by simp, h2⟩
    · rintro ⟨h1, h2⟩
      cases p with
      | nil => exact absurd rfl h1
      | cons k q =>
        have hk : k < bs.length := by
          refine Nat.lt_of_not_le fun hle => ?_
          rw [subAt_node, List.getElem?_eq_none hle] at h2
          simp at h2
        cases q with
        | nil => left; simp [hk]
        | cons a q => right; exact ⟨k, a :: q, rfl, by omega, hk, by simp, h2⟩
theorem mem_pathsLoop : ∀ (i : I) (all bs : List (Tree I)) (k : Nat) (r : List (List Nat)) (p : List Nat),
    bs = all.drop k → (p ∈ pathsLoop bs k r ↔
      p ∈ r ∨ ∃ j q, p = j :: q ∧ k ≤ j ∧ j < all.length ∧ q ≠ [] ∧ (subAt (.node i all) (j :: q)).isSome)
  | i, all, [], k, r, p, hd => by
    unfold pathsLoop
    constructor
    · exact .inl
    · rintro (h | ⟨j, q, _, h1, h2, _⟩)
      · exact h
      · have := congrArg List.length hd
        simp at this; omega
  | i, all, b :: bs, k, r, p, hd => by
    unfold pathsLoop
    have hk : all[k]? = some b := by
      have := congrArg List.head? hd
      rw [List.head?_drop] at this
      exact this.symm
    have hlt : k < all.length := by
      refine Nat.lt_of_not_le fun hle => ?_
      rw [List.getElem?_eq_none hle] at hk; simp at hk
    rw [mem_pathsLoop i all bs (k + 1) _ p (by
      have := congrArg List.tail hd
      simpa [List.tail_drop] using this)]
    simp only [List.mem_append, List.mem_map]
    constructor
    · rintro ((⟨q, hq, rfl⟩ | h) | ⟨j, q, h1, h2, h3⟩)
      · obtain ⟨h1, h2⟩ := (mem_paths b q).1 hq
        exact .inr ⟨k, q, rfl, by omega, hlt, h1, by simpa [subAt_node, hk] using h2⟩
      · exact .inl h
      · exact .inr ⟨j, q, h1, by omega, h3⟩
    · rintro (h | ⟨j, q, h1, h2, h3, h4, h5⟩)
      · exact .inl (.inr h)
      · by_cases hj : j = k
        · subst hj
          refine .inl (.inl ⟨q, (mem_paths b q).2 ⟨h4, by simpa [subAt_node, hk] using h5⟩, h1.symm⟩)
        · exact .inr ⟨j, q, h1, by omega, h3, h4, h5⟩
end

mutual
theorem nodup_paths : ∀ t : Tree I, (paths t).Nodup
  | .node i bs => by
    unfold paths
    refine nodup_pathsLoop bs 0 _ ?_ ?_
    · exact List.nodup_range.map _ (by intro a b h; simpa using h)
    · intro j q hq _
      simp only [List.mem_map, List.mem_range] at hq
      obtain ⟨a, _, h⟩ := hq
      simp at h
      exact h.2
theorem nodup_pathsLoop : ∀ (bs : List (Tree I)) (k : Nat) (r : List (List Nat)), r.Nodup →
    (∀ j q, j :: q ∈ r → k ≤ j → q = []) → (pathsLoop bs k r).Nodup
  | [], _, _, h, _ => h
  | b :: bs, k, r, h, hr => by
    unfold pathsLoop
    refine nodup_pathsLoop bs (k + 1) _ ?_ ?_
    · rw [List.nodup_append]
      refine ⟨?_, h, ?_⟩
      · exact (nodup_paths b).map _ (by intro a b h; simpa using h)
      · intro x hx y hy hxy
        subst hxy
        simp only [List.mem_map] at hx
        obtain ⟨q, hq, rfl⟩ := hx
        have := hr k q hy (Nat.le_refl _)
        exact ((mem_paths b q).1 hq).1 this
    · intro j q hq hj
      rcases List.mem_append.1 hq with hq | hq
      · simp only [List.mem_map] at hq
        obtain ⟨a, _, ha⟩ := hq
        simp at ha; omega
      · exact hr j q hq (by omega)
end

/-- C33: `all_nodes` lists the nodes found at the non-empty paths of the tree, each path once: every
proper descendant as many times as it occurs, and nothing else. -/
theorem C33_allNodes (t : Tree I) :
    ∃ ps : List (List Nat), ps.Nodup ∧ (∀ p, p ∈ ps ↔ p ≠ [] ∧ (subAt t p).isSome) ∧
      t.allNodes.map some = ps.map (subAt t) :=
  ⟨paths t, nodup_paths t, mem_paths t, allNodes_paths t⟩

/-- C33: a node is a leaf exactly when it has no proper descendant. -/
theorem C33_leaf (t : Tree I) : t.leaf = true ↔ t.allNodes = [] := by
  have h := allNodes_paths t
  constructor
  · intro hl
    have hb : t.branches = [] := by simpa [Tree.leaf] using hl
    cases t with
    | node i bs => simp only [Tree.branches] at hb; subst hb; simp [Tree.allNodes, allNodesLoop]
  · intro he
    rw [he] at h
    have hp : paths t = [] := by simpa using h.symm
    cases t with
    | node i bs =>
      cases bs with
      | nil => rfl
      | cons b bs =>
        have : [0] ∈ paths (.node i (b :: bs)) := (mem_paths _ _).2 ⟨by simp, by simp [subAt, Tree.branches]⟩
        rw [hp] at this; simp at this

/-- C33: `add_branch` appends one branch and changes nothing else. -/
theorem C33_addBranch (t n : Tree I) :
    (t.addBranch n).branches = t.branches ++ [n] ∧ (t.addBranch n).info = t.info := by
  cases t; exact ⟨rfl, rfl⟩

example : ((.node 0 [.node 1 [.node 2 []], .node 3 []] : Tree Nat).allNodes).map Tree.info = [2, 1, 3] := by
  decide

end Verif.Tree
