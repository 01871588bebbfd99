/-!
# Standard library algorithms on strings

`std::string` is a list of bytes; `operator<` compares byte by byte as unsigned numbers.
-/

namespace Psi.Std

abbrev Bytes := List UInt8

/-- `operator<` of `std::string`. -/
def lt : Bytes → Bytes → Bool
  | [], [] => false
  | [], _ :: _ => true
  | _ :: _, [] => false
  | a :: x, b :: y => a < b || (a == b && lt x y)

/-- `std::sort` on a range of strings. -/
def sort (l : List Bytes) : List Bytes := l.mergeSort (fun a b => !lt b a)

/-- `std::lower_bound` (the halving loop): first position in `first … first + len` whose element is not
less than `x`. -/
def lowerBound (l : List Bytes) (x : Bytes) (first len : Nat) : Nat :=
  if len = 0 then first else
  let half := len / 2
  if lt (l.getD (first + half) []) x then lowerBound l x (first + half + 1) (len - half - 1)
  else lowerBound l x first half
termination_by len
decreasing_by all_goals omega

/-- `std::binary_search`. -/
def binarySearch (l : List Bytes) (x : Bytes) : Bool :=
  let i := lowerBound l x 0 l.length
  decide (i < l.length) && !lt x (l.getD i [])

/-- `std::set_intersection` of two ranges. -/
def setIntersection : List Bytes → List Bytes → List Bytes
  | [], _ => []
  | _ :: _, [] => []
  | a :: x, b :: y =>
    if lt a b then setIntersection x (b :: y)
    else if lt b a then setIntersection (a :: x) y
    else a :: setIntersection x y
termination_by x y => x.length + y.length

end Psi.Std
