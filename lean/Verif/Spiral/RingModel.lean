import Verif.Spiral.NttModel
import Mathlib.Data.Nat.Log

/-!
# Polynomial matrices and gadgets of Spiral PIR

Models `psi/algorithm/spiral/poly_matrix.{h,cc}`, `poly_matrix_utils.cc` and `gadget.cc`.  A matrix keeps its
dimensions and, in `data_` order, its polynomials; a polynomial is an array of words.  A raw polynomial has
`poly_len` words, a transformed one `crt_count * poly_len`.

Simplified: a loop that writes each word (or each polynomial) once is written as a function of the index.
`WEAK_ENFORCE` is left out (it is off in release builds); reading out of bounds reads an arbitrary word, and the
theorems never use such a word.
-/

namespace Psi.Spiral

/-- The part of `Params` the ring operations look at: `poly_len_ = 2 ^ L`, one table per modulus and, for two
moduli, the remaindering constants.  `avx` is the build. -/
structure Par where
  L : Nat
  avx : Bool
  tables : List Tables
  crt : Crt

namespace Par

def n (P : Par) : Nat := 2 ^ P.L

/-- `Moduli(c)`. -/
def mod (P : Par) (c : Nat) : Nat := ((P.tables[c]?).map Tables.modulus).getD 0

/-- `modulus`: `params.cc:51-54`. -/
def modulus (P : Par) : Nat := (P.tables.map Tables.modulus).foldl (fun a m => w64 (a * m)) 1

/-- `CrtCompose`: `params.cc:166-173`. -/
def compose (P : Par) (a : Words) (i : Nat) : Nat :=
  if P.tables.length = 1 then a i else P.crt.compose (a i) (a (i + P.n))

end Par

/-- `PolyMatrixRaw` and `PolyMatrixNtt`. -/
structure Mat where
  rows : Nat
  cols : Nat
  data : Nat → Words

namespace Mat

/-- `Poly(r, c)`: `poly_matrix.h:97-99`, `poly_matrix.cc:171-179`. -/
def poly (M : Mat) (r c : Nat) : Words := M.data (r * M.cols + c)

/-- A loop over all rows and columns that writes each polynomial. -/
def build (rows cols : Nat) (f : Nat → Nat → Words) : Mat := ⟨rows, cols, fun k => f (k / cols) (k % cols)⟩

/-- `Zero`: `poly_matrix.h:150-152`. -/
def zero (rows cols : Nat) : Mat := build rows cols fun _ _ _ => 0

/-- `CopyInto`: `poly_matrix.cc:102-119`, `poly_matrix.cc:243-261`. -/
def copyInto (M p : Mat) (row col : Nat) : Mat :=
  build M.rows M.cols fun r c =>
    if row ≤ r ∧ r < row + p.rows ∧ col ≤ c ∧ c < col + p.cols then p.poly (r - row) (c - col) else M.poly r c

/-- `SubMatrix`: `poly_matrix.cc:121-139`. -/
def subMatrix (M : Mat) (row col rows cols : Nat) : Mat :=
  build rows cols fun r c => M.poly (row + r) (col + c)

/-- `PadTop`: `poly_matrix.cc:283-288`. -/
def padTop (M : Mat) (pad : Nat) : Mat := (zero (M.rows + pad) M.cols).copyInto M pad 0

/-- `Stack`: `poly_matrix_utils.cc:213-219`. -/
def stack (a b : Mat) : Mat := ((zero (a.rows + b.rows) a.cols).copyInto a 0 0).copyInto b a.rows 0

/-- `SingleValue`: `poly_matrix.cc:220-224`. -/
def singleValue (value : Nat) : Mat := build 1 1 fun _ _ i => if i = 0 then value else 0

end Mat

/-! ### Polynomials -/

/-- `MultiplyPoly`: `poly_matrix_utils.cc:38-47`. -/
def multiplyPoly (P : Par) (a b : Words) : Words := fun idx => multiplyModular (P.mod (idx / P.n)) (a idx) (b idx)

/-- `ReducePoly`: `poly_matrix_utils.cc:154-162`. -/
def reducePoly (P : Par) (a : Words) : Words := fun idx => barrettCoeffU64 (P.mod (idx / P.n)) (a idx)

/-- `MultiplyAddPoly`: `poly_matrix_utils.cc:51-63` and, for AVX2, `poly_matrix_utils.cc:67-100`. -/
def multiplyAddPoly (P : Par) (res a b : Words) : Words :=
  if P.avx then reducePoly P fun idx => w64 (res idx + w32 (a idx) * w32 (b idx))
  else fun idx => multiplyAddModular (P.mod (idx / P.n)) (a idx) (b idx) (res idx)

/-- `AddPoly`, `AddPolyInto`: `poly_matrix_utils.cc:104-122`. -/
def addPoly (P : Par) (a b : Words) : Words := fun idx => addModular (P.mod (idx / P.n)) (a idx) (b idx)

/-- `InvertPoly`: `poly_matrix_utils.cc:124-129`. -/
def invertPoly (P : Par) (a : Words) : Words := fun i => sub64 P.modulus (a i)

/-- One round of `AutomotphPoly`: `poly_matrix_utils.cc:134-142`. -/
def automorphStep (P : Par) (a : Words) (t : Nat) (res : Words) (i : Nat) : Words :=
  let num := w64 (i * t) / P.n
  let rem := w64 (i * t) % P.n
  upd res rem (if num % 2 = 0 then a i else sub64 P.modulus (a i))

/-- `AutomotphPoly`: `poly_matrix_utils.cc:131-143`, writing to a fresh polynomial. -/
def automorphPoly (P : Par) (a : Words) (t : Nat) : Words :=
  (List.range P.n).foldl (automorphStep P a t) fun _ => 0

/-- `ReduceCopy`: `poly_matrix_utils.cc:145-152`. -/
def reduceCopy (P : Par) (a : Words) : Words := fun idx => barrettCoeffU64 (P.mod (idx / P.n)) (a (idx % P.n))

/-- One polynomial of `ToNtt`: `poly_matrix_utils.cc:378-387`. -/
def toNttPoly (P : Par) (a : Words) : Words := nttForwardAll P.avx P.tables P.L (reduceCopy P a)

/-- One polynomial of `ToNttNoReduce`: `poly_matrix_utils.cc:396-412`. -/
def toNttNoReducePoly (P : Par) (a : Words) : Words := nttForwardAll P.avx P.tables P.L fun idx => a (idx % P.n)

/-- One polynomial of `FromNtt`: `poly_matrix_utils.cc:357-367`. -/
def fromNttPoly (P : Par) (a : Words) : Words := P.compose (nttInverseAll P.avx P.tables P.L a)

/-! ### Matrices -/

/-- `ToNtt`. -/
def toNtt (P : Par) (M : Mat) : Mat := .build M.rows M.cols fun r c => toNttPoly P (M.poly r c)

/-- `ToNttNoReduce`. -/
def toNttNoReduce (P : Par) (M : Mat) : Mat := .build M.rows M.cols fun r c => toNttNoReducePoly P (M.poly r c)

/-- `FromNtt`: `poly_matrix_utils.cc:348-369`. -/
def fromNtt (P : Par) (M : Mat) : Mat := .build M.rows M.cols fun r c => fromNttPoly P (M.poly r c)

/-- `Multiply`: `poly_matrix_utils.cc:414-457`. -/
def multiply (P : Par) (a b : Mat) : Mat := .build a.rows b.cols fun i j =>
  (List.range a.cols).foldl (fun res k => multiplyAddPoly P res (a.poly i k) (b.poly k j)) fun _ => 0

/-- `Add`, `AddInto`: `poly_matrix_utils.cc:265-310`. -/
def add (P : Par) (a b : Mat) : Mat := .build a.rows a.cols fun i j => addPoly P (a.poly i j) (b.poly i j)

/-- `AddIntoAt`: `poly_matrix_utils.cc:312-321`. -/
def addIntoAt (P : Par) (res a : Mat) (row col : Nat) : Mat := .build res.rows res.cols fun r c =>
  if row ≤ r ∧ r < row + a.rows ∧ col ≤ c ∧ c < col + a.cols then
    addPoly P (a.poly (r - row) (c - col)) (res.poly r c) else res.poly r c

/-- `ScalarMultiply`: `poly_matrix_utils.cc:221-241`. -/
def scalarMultiply (P : Par) (a b : Mat) : Mat := .build b.rows b.cols fun i j =>
  multiplyPoly P (a.poly 0 0) (b.poly i j)

/-- `Invert`: `poly_matrix_utils.cc:323-346`. -/
def invert (P : Par) (a : Mat) : Mat := .build a.rows a.cols fun i j => invertPoly P (a.poly i j)

/-- `Automorphism`: `poly_matrix_utils.cc:243-256`. -/
def automorphism (P : Par) (a : Mat) (t : Nat) : Mat := .build a.rows a.cols fun i j =>
  automorphPoly P (a.poly i j) t

/-! ### Gadgets -/

/-- `Log2Ceil` of yacl, external: the least `k` with `x ≤ 2 ^ k`. -/
def log2Ceil (x : Nat) : Nat := Nat.clog 2 x

/-- `GetBitsPer`: `gadget.cc:26-32`. -/
def bitsPer (P : Par) (dim : Nat) : Nat :=
  if dim = log2Ceil P.modulus then 1 else log2Ceil P.modulus / dim + 1

/-- `BuildGadget`: `gadget.cc:34-53`.  The loop writes the constant coefficient of `(i, i + j * nx)`. -/
def buildGadget (P : Par) (rows cols : Nat) : Mat := .build rows cols fun r c z =>
  let j := c / rows
  if z = 0 ∧ c % rows = r ∧ j < cols / rows ∧ bitsPer P (cols / rows) * j < 64 then 2 ^ (bitsPer P (cols / rows) * j)
  else 0

/-- The piece `k` of a coefficient: `gadget.cc:70-78`. -/
def gadgetPiece (bits k val : Nat) : Nat :=
  let offs := min (k * bits) 64
  if offs ≥ 64 then 0 else val / 2 ^ offs % 2 ^ bits

/-- `GadgetInvertRdim` into a fresh `rows` by `in.Cols()` matrix: `gadget.cc:55-84`.  The loop writes
`out.Poly(j + k * rdim, i)` from `in.Poly(i, j)`; the indices of `in` are exchanged in the code. -/
def gadgetInvertRdim (P : Par) (rows : Nat) (M : Mat) (rdim : Nat) : Mat := .build rows M.cols fun r i z =>
  let j := r % rdim
  let k := r / rdim
  if k < rows / rdim then gadgetPiece (bitsPer P (rows / rdim)) k (M.poly i j z) else 0

/-- `GadgetInvert`: `gadget.h:32-35`. -/
def gadgetInvert (P : Par) (rows : Nat) (M : Mat) : Mat := gadgetInvertRdim P rows M M.rows

end Psi.Spiral
