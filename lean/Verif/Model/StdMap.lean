/-!
`std::map<K, V>` as the list of its pairs in the order of the keys.  Only the operations the library uses;
balancing and iterators are not modelled.
-/
namespace Verif.StdMap

variable {K V : Type} [LT K] [DecidableLT K] [DecidableEq K]

/-- `map[k] = v`. -/
def put (k : K) (v : V) : List (K × V) → List (K × V)
  | [] => [(k, v)]
  | p :: m => if k < p.1 then (k, v) :: p :: m else if k = p.1 then (k, v) :: m else p :: put k v m

/-- `map.find(k)`. -/
def get (k : K) : List (K × V) → Option V
  | [] => none
  | p :: m => if k = p.1 then some p.2 else get k m

/-- `map.erase(k)`. -/
def del (k : K) (m : List (K × V)) : List (K × V) := m.filter fun p => decide (p.1 ≠ k)

end Verif.StdMap
