import Mathlib.Data.List.Perm.Basic
import Verif.Spiral.RingModel

/-!
# The secret keys of Spiral PIR

Source: `psi/algorithm/spiral/poly_matrix_utils.cc` (`GenTernaryMatrix`), `spiral_client.cc:190-193`
(`GenSecretKeys`).

The generator `std::mt19937` and `std::shuffle` are parameters: a state is made from a 32-bit seed, and the shuffle maps
a list and a state to a list and a state.
-/

namespace Psi.Spiral

/-- `std::mt19937` and `std::shuffle`. -/
structure Shuffler (G : Type) where
  seed : Nat → G
  shuffle : G → List Nat → List Nat × G

/-- The constructor takes `std::mt19937::result_type`, 32 bits wide: the 128-bit `mt_seed` is converted
(`poly_matrix_utils.cc:176-179`). -/
def mtState {G : Type} (S : Shuffler G) (mtSeed : Nat) : G := S.seed (mtSeed % 2 ^ 32)

/-- The writes of one polynomial, in the order of the loop: `poly_matrix_utils.cc:184-187`. -/
def ternaryWrites (modulus hamming : Nat) (poly : List Nat) : List Nat :=
  (List.range hamming).foldl (fun p k => (p.set k 1).set (k + hamming) (modulus - 1)) poly

/-- The polynomials one after the other, the state of the generator threaded through:
`poly_matrix_utils.cc:181-191`. -/
def ternaryPolys {G : Type} (S : Shuffler G) (modulus hamming n : Nat) : Nat → G → List (List Nat)
  | 0, _ => []
  | k + 1, g =>
    let r := S.shuffle g (ternaryWrites modulus hamming (List.replicate n 0))
    r.1 :: ternaryPolys S modulus hamming n k r.2

/-- `GenTernaryMatrix`: `poly_matrix_utils.cc:172-192`.  A polynomial shorter than `2 * hamming` is written past its
end. -/
def genTernary {G : Type} (S : Shuffler G) (P : Par) (rows cols hamming mtSeed : Nat) : Res Mat :=
  if 2 * hamming ≤ P.n then
    let l := ternaryPolys S P.modulus hamming P.n (rows * cols) (mtState S mtSeed)
    .ok ⟨rows, cols, fun i z => (l.getD i []).getD z 0⟩
  else if rows * cols = 0 then .ok ⟨rows, cols, fun _ _ => 0⟩ else .undefined

/-- `GenSecretKeys`: `spiral_client.cc:190-196` with `kHammingWeight`. -/
def genSecretKeys {G : Type} (S : Shuffler G) (P : Par) (n hamming seedGsw seedReg : Nat) : Res (Mat × Mat) :=
  (genTernary S P n 1 hamming seedGsw).bind fun g => (genTernary S P 1 1 hamming seedReg).bind fun r => .ok (g, r)

end Psi.Spiral
