import Verif.Spiral.SchemeModel

/-!
# The error sampler of Spiral PIR

Source: `psi/algorithm/spiral/discrete_gaussian.cc`, `poly_matrix_utils.cc:164-170` (`Noise`).

The table of the distribution function is computed in floating point and is an argument `T`; `ws` are the words of the
generator, in the order in which they are drawn.
-/

namespace Psi.Spiral

/-- The loop of `Sample` from the last entry of the table to the first: `discrete_gaussian.cc:58-68`. -/
def gaussLoop (T : List Nat) (maxVal q w : Nat) : Nat → Nat → Res Nat
  | 0, out => .ok out
  | i + 1, out =>
    match T[i]? with
    | none => .undefined
    | some point => gaussLoop T maxVal q w i (if w ≤ point then noiseWord q ((i : ℤ) - maxVal) else out)

/-- `Sample`: `discrete_gaussian.cc:52-70`. -/
def gaussSample (T : List Nat) (maxVal q w : Nat) : Res Nat := gaussLoop T maxVal q w (2 * maxVal + 1) 0

/-- `Noise` with `SampleMatrix`: `discrete_gaussian.cc:71-84`, `poly_matrix_utils.cc:164-170`. -/
def gaussNoise (P : Par) (rows cols : Nat) (T : List Nat) (maxVal : Nat) (ws : Nat → Nat) : Res Mat :=
  (mapRes (fun k => gaussSample T maxVal P.modulus (ws k)) (List.range (rows * cols * P.n))).bind fun l =>
    .ok ⟨rows, cols, fun i z => l.getD (i * P.n + z) 0⟩

end Psi.Spiral
