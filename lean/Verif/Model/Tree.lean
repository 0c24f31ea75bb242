import Verif.Model.Basic
/-!
`TreeNode`, `cpp_utils/include/cpp_utils/types/impl/Tree.ipp`.
-/
namespace Verif.Tree

/-- A node: its `info` and its list of branches (Tree.hpp). -/
inductive Tree (I : Type)
  | node (info : I) (branches : List (Tree I))

variable {I : Type}

/-- `branches`, Tree.ipp:103-107. -/
def Tree.branches : Tree I → List (Tree I)
  | .node _ bs => bs

/-- The information of the node. -/
def Tree.info : Tree I → I
  | .node i _ => i

/-- `add_branch(TreeNode)`, Tree.ipp:71-83. -/
def Tree.addBranch : Tree I → Tree I → Tree I
  | .node i bs, n => .node i (bs ++ [n])

/-- `leaf`, Tree.ipp:85-89. -/
def Tree.leaf (t : Tree I) : Bool := t.branches.isEmpty

mutual
/-- `depth`, Tree.ipp:91-101 (`unsigned int` as a natural number). -/
def Tree.depth : Tree I → Nat
  | .node _ bs => depthLoop bs 0
/-- The loop of `depth` with its running maximum. -/
def depthLoop : List (Tree I) → Nat → Nat
  | [], m => m
  | b :: bs, m => depthLoop bs (max m b.depth)
end

mutual
/-- `all_nodes`, Tree.ipp:109-119. -/
def Tree.allNodes : Tree I → List (Tree I)
  | .node _ bs => allNodesLoop bs bs
/-- The loop of `all_nodes`: the nodes of each branch are spliced in front of the result. -/
def allNodesLoop : List (Tree I) → List (Tree I) → List (Tree I)
  | [], result => result
  | b :: bs, result => allNodesLoop bs (b.allNodes ++ result)
end

end Verif.Tree
