import Verif.Model.Basic
/-!
Comparison of sets of shared pointers, `cpp_utils/include/cpp_utils/impl/utils.ipp:78-133`.
-/
namespace Verif.PtrSet

/-- A pointer is an address, 0 being `nullptr`. -/
abbrev Ptr := Nat

variable {T : Type} [DecidableEq T]

/-- `set_of_ptr_contains`, utils.ipp:78-111.  The `std::set<std::shared_ptr<T>>` is
ordered by address, here the list of its (distinct) addresses; `val` is the heap. -/
def contains (val : Ptr → T) (set : List Ptr) (element : Ptr) : Bool :=
  if set.contains element then true
  else if element = 0 then false
  else set.any fun p => p ≠ 0 && val p == val element

/-- `are_set_of_ptr_equal`, utils.ipp:113-133. -/
def areEqual (val : Ptr → T) (set1 set2 : List Ptr) : Bool :=
  if set1.length ≠ set2.length then false
  else set1.all fun p => contains val set2 p

end Verif.PtrSet
