import Verif.Spiral.RingModel

/-!
# Modulus switching and decoding of Spiral PIR

Models the end of `SpiralServer::ProcessQuery` (`spiral_server.cc:746-752`), `PolyMatrixRaw::Rescale` and
`SpiralClient::DecodeResponseInternal` (`spiral_client.cc:389-460`), for one response matrix.
-/

namespace Psi.Spiral

/-- A loop over `k` words whose body can fail. -/
def resWords : Nat → (Nat → Res Nat) → Res Words
  | 0, _ => .ok fun _ => 0
  | k + 1, f => (resWords k f).bind fun w => (f k).bind fun x => .ok (upd w k x)

/-- A loop over the words of a matrix, in `data_` order, whose body can fail. -/
def resMat (n rows cols : Nat) (f : Nat → Nat → Nat → Res Nat) : Res Mat :=
  (resWords (rows * cols * n) fun i => f (i / n / cols) (i / n % cols) (i % n)).bind fun w =>
    .ok (.build rows cols fun r c z => w ((r * cols + c) * n + z))

/-- `PolyMatrixRaw::Rescale`: `poly_matrix.cc:181-195`. -/
def rescaleRows (P : Par) (M : Mat) (start stop inMod outMod : Nat) : Res Mat :=
  resMat P.n M.rows M.cols fun r c z =>
    if start ≤ r ∧ r < stop then rescale (M.poly r c z) inMod outMod else .ok (M.poly r c z)

/-- The modulus switch of `ProcessQuery`: `spiral_server.cc:746-752`. -/
def switchModulus (P : Par) (p q2 : Nat) (ct : Mat) : Res Mat :=
  (rescaleRows P ct 0 1 P.modulus q2).bind fun a => rescaleRows P a 1 a.rows P.modulus (w64 (4 * p))

/-- The loop body of `DecodeResponseInternal`: `spiral_client.cc:427-457`. -/
def decodeWord (p q2 first rest : Nat) : Res Nat := do
  let q1 := w64 (4 * p)
  let q1I := toI64 q1
  let q2I := toI64 q2
  let h2 ← quot q2I 2
  let vf ← (if toI64 first ≥ h2 then i64 (toI64 first - q2I) else .ok (toI64 first) : Res Int)
  let h1 ← quot q1I 2
  let vr ← (if toI64 rest ≥ h1 then i64 (toI64 rest - q1I) else .ok (toI64 rest) : Res Int)
  if p = 0 then .undefined
  else
    let den := toI64 (w64 (q2 * (q1 / p)))
    let r ← i64 (vf * q1I)
    let s ← i64 (vr * q2I)
    let r ← i64 (r + s)
    let sign : Int := if r ≥ 0 then 1 else -1
    let half ← quot den 2
    let sh ← i64 (sign * half)
    let tmp ← i64 (r + sh)
    let res ← quot tmp den
    let middle ← quot den p
    let right ← i128 (2 * p)
    let x ← i128 (res + middle)
    let x ← i128 (x + right)
    let x ← rem x p
    .ok (toU64 x)

/-- `DecodeResponseInternal`: `spiral_client.cc:389-460`.  `Q` is `q2_params_`, the ring with the one modulus
`q2`; `n` is `params_.N()`. -/
def decodeResponse (P Q : Par) (p q2 n : Nat) (sk resp : Mat) : Res Mat :=
  (resMat P.n n 1 fun r c z => recenter (sk.poly r c z) P.modulus q2).bind fun sk2 =>
    let first := resp.subMatrix 0 0 1 resp.cols
    let rest := resp.subMatrix 1 0 (resp.rows - 1) resp.cols
    let prod := fromNtt Q (multiply Q (toNtt Q sk2) (toNtt Q first))
    resMat P.n n n fun r c z => decodeWord p q2 (prod.poly r c z) (rest.poly r c z)

/-- `kQ2Values`: `common.h:101-137`. -/
def q2Values : List Nat :=
  [0, 0, 0, 0, 0, 0, 0, 0, 0, 0, 0, 0, 0, 0, 12289, 12289, 61441, 65537, 65537, 520193, 786433, 786433, 3604481,
    7340033, 16515073, 33292289, 67043329, 132120577, 268369921, 469762049, 1073479681, 2013265921, 4293918721,
    8588886017, 17175674881, 34359214081, 68718428161]

end Psi.Spiral
