import Verif.Spiral.PackModel
import Verif.Spiral.RingModel

/-!
# Database dimensions of Spiral PIR

Models `Params::UpdateByDatabaseInfo` (`psi/algorithm/spiral/params.cc`) and `Params::ValidCheck` (`params.h`).

`static_cast<size_t>(log2 * 0.6)` and `log2 * 0.4` are written as `3 * log2 / 5` and `2 * log2 / 5`; in double
precision both agree for all `log2 ≤ 64`.
-/

namespace Psi.Spiral

/-- `t_gsw_`, `db_dim1_` and `db_dim2_`. -/
structure Dims where
  tgsw : Nat
  v1 : Nat
  v2 : Nat
deriving DecidableEq

/-- `kMaxDbDim`: `params.h`. -/
def maxDbDim : Nat := 11

/-- `NumExpanded` and `G`: `params.h:223-241`. -/
def Dims.g (d : Dims) : Nat := log2Ceil (d.tgsw * d.v2 + 2 ^ d.v1)

/-- `StopRound`: `params.h:243-246`. -/
def Dims.stopRound (d : Dims) : Nat := log2Ceil (d.tgsw * d.v2)

/-- `ValidCheck`: `params.h:167-186`. -/
def validCheck (polyLog : Nat) (d : Dims) : Res Unit :=
  if maxDbDim < d.v1 then .throws
  else if maxDbDim < d.v2 then .throws
  else if polyLog < d.g then .throws
  else if 2 ^ (d.g - 1) < 2 ^ d.v1 then .throws
  else if 2 ^ (d.g - 1) < d.v2 * d.tgsw then .throws
  else .ok ()

/-- `static_cast<size_t>(1 << k)`, a shift of a 32-bit `int`: `params.cc:133`. -/
def intShift (k : Nat) : Res Nat :=
  if k < 31 then .ok (2 ^ k) else if k = 31 then .ok (2 ^ 64 - 2 ^ 31) else .undefined

/-- `while (1 << (v1 + v2) < plaintext_size) v2 += 1`: `params.cc:133-135`. -/
def growV2 (v1 size : Nat) : Nat → Nat → Res Nat
  | 0, _ => .undefined
  | fuel + 1, v2 => (intShift (v1 + v2)).bind fun c => if c < size then growV2 v1 size fuel (v2 + 1) else .ok v2

/-- The dimensions for a number of plaintexts: `params.cc:122-141`. -/
def updateDims (polyLog tgsw size : Nat) : Res Dims :=
  if size ≤ 4 then (validCheck polyLog ⟨4, 2, 1⟩).bind fun _ => .ok ⟨4, 2, 1⟩
  else
    let log2 := log2Ceil size
    let v1 := 3 * log2 / 5
    (growV2 v1 size 64 (2 * log2 / 5)).bind fun v2 => (validCheck polyLog ⟨tgsw, v1, v2⟩).bind fun _ => .ok ⟨tgsw, v1, v2⟩

/-- `UpdateByDatabaseInfo`: `params.cc:102-149`.  Returns the dimensions and `plaintext_size`. -/
def updateByDatabaseInfo (P : PackPar) (polyLog tgsw rows rowLen : Nat) : Res (Dims × Nat) :=
  let size := uintNum rows (P.elementSize (P.elementLen rowLen))
  (updateDims polyLog tgsw size).bind fun d => .ok (d, size)

end Psi.Spiral
