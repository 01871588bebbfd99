import Verif.Spiral.DbModel
import Verif.Spiral.ParamModel

/-!
# Keys, query and answer of Spiral PIR

Models the client's encryption, key and query generation (`spiral_client.cc:121-353`) and the server's expansion,
conversion, folding and packing (`spiral_server.cc:464-971`).

Random polynomials and noise are arguments: a `Sample` is the pair of the public random polynomials, in the words
`RandomPrg` gives, and the drawn noise as integers.  `InvertUintMod` (SEAL) gives the arguments `invFirst` and `invRest`.
Simplified: `parallel_for` runs its range in order; the vectors the server fills are functions of the index; the
transmission of keys, query and answer is added by `WireModel`.
-/

namespace Psi.Spiral

/-- `params_`: `N()`, `PtModulus()`, `TConv()`, `TExpLeft()`, `TExpRight()`, `TGsw()`, `DbDim1()`, `DbDim2()`. -/
structure Scheme where
  n : Nat
  p : Nat
  tConv : Nat
  tLeft : Nat
  tRight : Nat
  dims : Dims

/-- What one encryption draws. -/
structure Sample where
  a : Mat
  e : Nat → Nat → Nat → ℤ

/-- The word of a drawn integer: `discrete_gaussian.cc:60-65`. -/
def noiseWord (q : Nat) (v : ℤ) : Nat := ((if v < 0 then v + q else v) % 2 ^ 64).toNat

/-- `Noise`: `poly_matrix_utils.cc:164-170`, `discrete_gaussian.cc:73-86`. -/
def noise (P : Par) (rows cols : Nat) (e : Nat → Nat → Nat → ℤ) : Mat :=
  .build rows cols fun r c z => noiseWord P.modulus (e r c z)

/-! ### Encryption -/

/-- Copying columns into a matrix, one after the other. -/
def copyCols (M : Mat) (l : List (Mat × Nat)) : Mat := l.foldl (fun M x => M.copyInto x.1 0 x.2) M

/-- `GetRegevSample`: `spiral_client.cc:139-157`. -/
def regevSample (P : Par) (sk : Mat) (s : Sample) : Mat :=
  let aNtt := toNtt P s.a
  let aInv := toNtt P (invert P s.a)
  let eNtt := toNtt P (noise P 1 1 s.e)
  let bp := multiply P (toNtt P sk) aNtt
  let b := add P eNtt bp
  ((Mat.zero 2 1).copyInto aInv 0 0).copyInto b 1 0

/-- `GetFreshRegevPublicKey`: `spiral_client.cc:159-167`. -/
def freshRegev (P : Par) (sk : Mat) (m : Nat) (s : Nat → Sample) : Mat :=
  copyCols (.zero 2 m) ((List.range m).map fun i => (regevSample P sk (s i), i))

/-- `EncryptMatrixRegev`: `spiral_client.cc:181-188`. -/
def encryptRegev (P : Par) (sk M : Mat) (s : Nat → Sample) : Mat := add P (freshRegev P sk M.cols s) (M.padTop 1)

/-- `GetFreshGswPublicKey`: `spiral_client.cc:122-138`. -/
def freshGsw (P : Par) (n : Nat) (sk : Mat) (m : Nat) (s : Sample) : Mat :=
  let b := add P (toNtt P (noise P n m s.e)) (multiply P (toNtt P sk) (toNtt P s.a))
  (invert P s.a).stack (fromNtt P b)

/-- `EncryptMatrixGsw`: `spiral_client.cc:169-179`. -/
def encryptGsw (P : Par) (n : Nat) (sk M : Mat) (s : Sample) : Mat :=
  add P (toNtt P (freshGsw P n sk M.cols s)) (M.padTop 1)

/-! ### Public keys -/

/-- The exponent of round `i`: `spiral_client.cc:206`, `spiral_server.cc:478`. -/
def autoExp (P : Par) (i : Nat) : Nat := P.n / 2 ^ i + 1

/-- One key of `GenExpansionParams`: `spiral_client.cc:198-215`. -/
def expansionKey (P : Par) (sk : Mat) (m i : Nat) (s : Nat → Sample) : Mat :=
  encryptRegev P sk (multiply P (toNtt P (automorphism P sk (autoExp P i))) (toNtt P (buildGadget P 1 m))) s

/-- `v_packing_[i]`: `spiral_client.cc:231-249`. -/
def packingKey (P : Par) (skReg skGsw : Mat) (n tConv i : Nat) (s : Sample) : Mat :=
  let scaled := scalarMultiply P (toNtt P skReg) (toNtt P (buildGadget P 1 tConv))
  encryptGsw P n skGsw ((Mat.zero n tConv).copyInto scaled i 0) s

/-- `sigma` of `GenPublicKeys`: `spiral_client.cc:265-277`. -/
def conversionSigma (P : Par) (sk : Mat) (tConv i : Nat) : Mat :=
  let g := buildGadget P 2 (2 * tConv)
  let skN := toNtt P sk
  if i % 2 = 0 then multiply P (multiply P skN skN) (toNtt P (.singleValue (g.poly 0 i 0)))
  else multiply P skN (toNtt P (.singleValue (g.poly 1 i 0)))

/-- `v_conversion_[0]`: `spiral_client.cc:257-281`. -/
def conversionKey (P : Par) (sk : Mat) (tConv : Nat) (s : Nat → Sample) : Mat :=
  copyCols (.zero 2 (2 * tConv))
    ((List.range (2 * tConv)).map fun i => (encryptRegev P sk (conversionSigma P sk tConv i) (fun _ => s i), i))

/-- The randomness of `GenPublicKeys`. -/
structure KeyCoins where
  pack : Nat → Sample
  left : Nat → Nat → Sample
  right : Nat → Nat → Sample
  conv : Nat → Sample

/-- `PublicKeys`: `public_keys.h`. -/
structure PublicKeys where
  packing : List Mat
  left : List Mat
  right : List Mat
  conversion : Mat

/-- `GenPublicKeys`: `spiral_client.cc:216-280`. -/
def genPublicKeys (P : Par) (D : Scheme) (skReg skGsw : Mat) (s : KeyCoins) : PublicKeys where
  packing := (List.range D.n).map fun i => packingKey P skReg skGsw D.n D.tConv i (s.pack i)
  left := (List.range D.dims.g).map fun i => expansionKey P skReg D.tLeft i (s.left i)
  right := (List.range (D.dims.stopRound + 1)).map fun i => expansionKey P skReg D.tRight i (s.right i)
  conversion := conversionKey P skReg D.tConv s.conv

/-- A key of a vector; reading behind its end gives an arbitrary matrix. -/
def keyAt (l : List Mat) (i : Nat) : Mat := l.getD i (.zero 0 0)

/-! ### Query -/

/-- The words of `sigma` before the multiplication, for `DbDim2() > 0`: `spiral_client.cc:328-343`. -/
def sigmaRaw (P : Par) (D : Scheme) (idx z : Nat) : Res Nat :=
  let idx0 := idx / 2 ^ D.dims.v2
  let further := idx % 2 ^ D.dims.v2
  if z % 2 = 0 then .ok (if z / 2 < 2 ^ D.dims.v1 ∧ z / 2 = idx0 then P.modulus / D.p else 0)
  else
    let l := z / 2 / D.dims.tgsw
    let k := z / 2 % D.dims.tgsw
    if l < D.dims.v2 ∧ further &&& 1 <<< l = 1 <<< l then
      if bitsPer P D.dims.tgsw * k < 64 then .ok (1 <<< (bitsPer P D.dims.tgsw * k)) else .undefined
    else .ok 0

/-- `sigma`: `spiral_client.cc:310-353`, writing behind its end being undefined.  `invFirst` and `invRest` are `inv_2_g_first` and `inv_2_g_rest`. -/
def querySigma (P : Par) (D : Scheme) (idx invFirst invRest : Nat) : Res Mat :=
  if (idx / 2 ^ D.dims.v2 < 2 ^ D.dims.v1 ∧ P.n ≤ 2 * (idx / 2 ^ D.dims.v2)) ∨ P.n < 2 * (D.dims.v2 * D.dims.tgsw) then .undefined
  else (resWords P.n fun z => (sigmaRaw P D idx z).bind fun v =>
    .ok (multiplyUintMod v (if z % 2 = 0 then invFirst else invRest) P.modulus (barrettCrs P.modulus).1
      (barrettCrs P.modulus).2)).bind fun w => .ok (.build 1 1 fun _ _ => w)

/-- `GenQueryInternal`, for `DbDim2() > 0`: `spiral_client.cc:287-361`. -/
def genQuery (P : Par) (D : Scheme) (skReg : Mat) (idx invFirst invRest : Nat) (s : Nat → Sample) : Res Mat :=
  (querySigma P D idx invFirst invRest).bind fun sigma =>
    .ok (fromNtt P (encryptRegev P skReg (toNtt P sigma) s))

/-! ### Expansion -/

/-- `v_neg1[j]`: `spiral_server.cc:959-971`. -/
def neg1 (P : Par) (j : Nat) : Mat :=
  toNtt P (invert P (.build 1 1 fun _ _ z => if z = P.n - 2 ^ j then 1 else 0))

/-- `action_expand` without the conditions: `spiral_server.cc:493-554`.  `w` is the key, `m` its number of columns. -/
def expandAct (P : Par) (w : Mat) (m t : Nat) (f : Mat) : Mat :=
  let ct := fromNtt P f
  let ctAuto := automorphism P ct t
  let gi := toNttNoReduce P (gadgetInvertRdim P m ctAuto 1)
  let ctAuto1 := toNtt P (ctAuto.subMatrix 1 0 1 1)
  let prod := multiply P w gi
  .build 2 1 fun r _ idx => barrettCoeffU64 (P.mod (idx / P.n))
    (w64 (w64 (f.poly r 0 idx + prod.poly r 0 idx) + r * ctAuto1.poly 0 0 idx))

/-- `cond1 || cond2`: `spiral_server.cc:484-489`. -/
def expandSkip (stop maxRight i j : Nat) : Bool :=
  decide (0 < stop ∧ stop < i ∧ j % 2 = 1) || decide (0 < stop ∧ i = stop ∧ j % 2 = 1 ∧ maxRight ≤ j / 2)

/-- `action_expand`: `spiral_server.cc:483-555`. -/
def expandStep (P : Par) (D : Scheme) (K : PublicKeys) (stop maxRight i j : Nat) (f : Mat) : Mat :=
  if expandSkip stop maxRight i j then f
  else if i ≠ 0 ∧ j % 2 = 0 then expandAct P (keyAt K.left i) D.tLeft (autoExp P i) f
  else expandAct P (keyAt K.right i) D.tRight (autoExp P i) f

/-- Round `i` of `CoefficientExpansion`: `spiral_server.cc:476-565`. -/
def expandRound (P : Par) (D : Scheme) (K : PublicKeys) (stop maxRight i : Nat) (v : Nat → Mat) (k : Nat) : Mat :=
  if k < 2 ^ i then expandStep P D K stop maxRight i k (v k)
  else if k < 2 ^ (i + 1) then
    expandStep P D K stop maxRight i (k - 2 ^ i) (scalarMultiply P (neg1 P i) (v (k - 2 ^ i)))
  else v k

/-- `CoefficientExpansion`: `spiral_server.cc:464-566`. -/
def expand (P : Par) (D : Scheme) (K : PublicKeys) (stop maxRight : Nat) (v : Nat → Mat) : Nat → Nat → Mat
  | 0 => v
  | g + 1 => expandRound P D K stop maxRight g (expand P D K stop maxRight v g)

/-! ### Conversion and folding -/

/-- `tmp_ct_ntt` of `RegevToGsw`: `spiral_server.cc:794-799`. -/
def convertCt (P : Par) (D : Scheme) (conv inp : Mat) : Mat :=
  multiply P conv (toNtt P (gadgetInvert P (2 * D.tConv) (fromNtt P inp)))

/-- `v_gsw[i]` of `RegevToGsw` with `idx_factor = 1`, `idx_offset = 0`: `spiral_server.cc:762-803`. -/
def regevToGsw (P : Par) (D : Scheme) (conv : Mat) (inp : Nat → Mat) (i : Nat) : Mat :=
  copyCols (.zero 2 (2 * D.dims.tgsw)) ((List.range D.dims.tgsw).flatMap fun j =>
    [(inp (i * D.dims.tgsw + j), 2 * j + 1), (convertCt P D conv (inp (i * D.dims.tgsw + j)), 2 * j)])

/-- `GetVFoldingNeg`: `spiral_server.cc:609-629`. -/
def foldingNeg (P : Par) (D : Scheme) (ct : Mat) : Mat :=
  add P (toNtt P (buildGadget P 2 (2 * D.dims.tgsw))) (toNtt P (invert P (fromNtt P ct)))

/-- The body of `FoldCiphertexts`: `spiral_server.cc:584-603`. -/
def foldPair (P : Par) (D : Scheme) (c cNeg x y : Mat) : Mat :=
  let prod := multiply P cNeg (toNtt P (gadgetInvert P (2 * D.dims.tgsw) x))
  let sum := multiply P c (toNtt P (gadgetInvert P (2 * D.dims.tgsw) y))
  fromNtt P (add P sum prod)

/-- `FoldCiphertexts` of `2 ^ v2` ciphertexts after `k` rounds: `spiral_server.cc:568-606`. -/
def foldCts (P : Par) (D : Scheme) (c cNeg : Nat → Mat) (v : Nat → Mat) : Nat → Nat → Mat
  | 0 => v
  | k + 1 => fun i =>
    let num := 2 ^ (D.dims.v2 - 1 - k)
    let prev := foldCts P D c cNeg v k
    if i < num then foldPair P D (c (D.dims.v2 - 1 - k)) (cNeg (D.dims.v2 - 1 - k)) (prev i) (prev (num + i)) else prev i

/-! ### Packing -/

/-- One round of the inner loop of `Pack`: `spiral_server.cc:658-676`. -/
def packStep (P : Par) (D : Scheme) (w : List Mat) (ct : Nat → Mat) (j : Nat) (vInt : Mat) (i : Nat) : Mat :=
  let c := ct (i * D.n + j)
  let ct1 := c.subMatrix 0 0 1 1
  let ct2 := c.subMatrix 1 0 1 1
  let prod := multiply P (keyAt w i) (toNtt P (gadgetInvert P D.tConv ct1))
  add P (addIntoAt P vInt (toNtt P ct2) (i + 1) 0) prod

/-- `Pack`: `spiral_server.cc:631-680`. -/
def packCts (P : Par) (D : Scheme) (w : List Mat) (ct : Nat → Mat) : Mat :=
  copyCols (.zero (D.n + 1) D.n) ((List.range D.n).map fun j =>
    ((List.range D.n).foldl (packStep P D w ct j) (.zero (D.n + 1) 1), j))

/-! ### The answer -/

/-- `v` before the expansion: `spiral_server.cc:817-833`. -/
def expandInit (P : Par) (query : Mat) : Nat → Mat := fun k =>
  if k = 0 then (Mat.zero 2 1).copyInto (toNtt P query) 0 0 else .zero 2 1

/-- The expanded ciphertexts: `spiral_server.cc:835-858`, for `DbDim2() > 0`. -/
def expandQuery (P : Par) (D : Scheme) (K : PublicKeys) (query : Mat) : Nat → Mat :=
  expand P D K D.dims.stopRound (D.dims.tgsw * D.dims.v2) (expandInit P query) D.dims.g

/-- The enforces of `ExpandQuery`: `spiral_server.cc:823-828`. -/
def expandOk (D : Scheme) : Bool := 2 ^ D.dims.v1 ≤ 2 ^ D.dims.g / 2 ∧ D.dims.tgsw * D.dims.v2 ≤ 2 ^ D.dims.g / 2

/-- `v_folding`. -/
def foldingOf (P : Par) (D : Scheme) (K : PublicKeys) (query : Mat) : Nat → Mat :=
  regevToGsw P D K.conversion fun i => expandQuery P D K query (2 * i + 1)

/-- The ciphertext of one plaintext polynomial of one partition: `spiral_server.cc:726-741`. -/
def answerCt (P : Par) (D : Scheme) (K : PublicKeys) (dbs : Words) (size : Nat) (query : Mat) (part trial : Nat) : Mat :=
  let dim0 := 2 ^ D.dims.v1
  let numPer := 2 ^ D.dims.v2
  let first := reorientReg P dim0 fun i => expandQuery P D K query (2 * i)
  let folding := foldingOf P D K query
  foldCts P D folding (fun i => foldingNeg P D (folding i))
    (fun i => fromNtt P (multiplyRegByDatabase P dbs first dim0 numPer (part * size + trial * (dim0 * numPer * P.n)) i))
    D.dims.v2 0

/-- `ProcessQuery`: `spiral_server.cc:682-760`.  `dbs` is `reoriented_dbs_`, `size` is `single_db_size_`. -/
def processQuery (P : Par) (D : Scheme) (q2 : Nat) (K : PublicKeys) (dbs : Words) (size parts : Nat) (query : Mat) :
    Res (List Mat) :=
  if expandOk D then
    mapRes (fun part => switchModulus P D.p q2 (fromNtt P (packCts P D K.packing (answerCt P D K dbs size query part))))
      (List.range parts)
  else .throws

/-- `decode_result.Data()`. -/
def matWords (P : Par) (M : Mat) : List Nat :=
  (List.range (M.rows * M.cols * P.n)).map fun i => M.data (i / P.n) (i % P.n)

/-- `DecodeResponse`: `spiral_client.cc:363-388`. -/
def decodeAnswer (P Q : Par) (D : Scheme) (q2 : Nat) (pk : PackPar) (skGsw : Mat) (rowLen idx : Nat) (resp : List Mat) :
    Res (List Nat) :=
  (mapRes (fun r => (decodeResponse P Q D.p q2 D.n skGsw r).bind fun M => .ok (matWords P M)) resp).bind
    (decodeRow pk rowLen idx)

end Psi.Spiral
