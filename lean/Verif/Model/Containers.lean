import Verif.Model.PtrSet
import Verif.Model.StdMap
/-!
Helpers for containers of `cpp_utils/include/cpp_utils/impl/utils.ipp`.
-/
namespace Verif.Containers

/-- The loop of `container_to_stream`, utils.ipp:53-57, from index `i` on; `fuel` iterations are
left, `size` is `list.size()`.  An element is the text its `operator <<` writes (utils.ipp:26-41). -/
def loop (list : List Str) (separator : Str) (size : Nat) : Nat → Nat → Str → Str
  | 0, _, os => os
  | fuel + 1, i, os =>
    if size ≠ 0 ∧ i < size - 1 then
      loop list separator size fuel (i + 1) (os ++ (list[i]?.getD []) ++ separator)
    else os

/-- `container_to_stream(os, vector, separator)`, utils.ipp:43-67: the text after the call.  The
loop makes fewer than `size` iterations. -/
def containerToStream (os : Str) (list : List Str) (separator : Str) : Str :=
  let size := list.length
  let os := os ++ c!"{"
  let os := loop list separator size size 0 os
  let os := if size > 0 then os ++ (list[size - 1]?.getD []) else os
  os ++ c!"}"

/-- `get_keys`, utils.ipp:168-190: the elements of the map in the order of the iteration (of a
`std::map` or a `std::unordered_map`); `std::set::insert` ignores what is there already.  The
`std::set` is the list of its elements, without order. -/
def getKeys {K V : Type} [DecidableEq K] (m : List (K × V)) : List K :=
  m.foldl (fun ret elem => if ret.contains elem.1 then ret else ret ++ [elem.1]) []

open PtrSet (Ptr)

/-- `convert_set_to_shared`, utils.ipp:135-147: `alloc k` is the address of the `k`-th object made in
this program, `parent` what the `operator ==` of the parent class sees of an element. -/
def convertGo {C P : Type} (parent : C → P) (alloc : Nat → Ptr) :
    List C → Nat → (Ptr → P) → List Ptr → List Ptr × Nat × (Ptr → P)
  | [], k, heap, result => (result, k, heap)
  | element :: rest, k, heap, result =>
    convertGo parent alloc rest (k + 1) (fun q => if q = alloc k then parent element else heap q)
      (if result.contains (alloc k) then result else result ++ [alloc k])

/-- `convert_set_to_shared` with the objects made so far and the heap. -/
def convert {C P : Type} (parent : C → P) (alloc : Nat → Ptr) (set : List C) (k : Nat) (heap : Ptr → P) :
    List Ptr × Nat × (Ptr → P) := convertGo parent alloc set k heap []

end Verif.Containers
