import Verif.SealPir.CodecModel
import Mathlib.Data.Nat.Log
import Mathlib.Data.Int.GCD

/-!
# SealPIR

Models `psi/algorithm/sealpir/seal_pir.cc`: the sizes, the database of plaintexts, the query, its expansion, the answer
over several dimensions, and the decoding.

The BFV scheme of Microsoft SEAL is a parameter, `Seal`: ciphertexts, their words, encryption, decryption, addition,
multiplication by a plaintext, Galois maps, modulus switching and batch encoding.  What the theorems assume of it is in
`Verif.SealPir.Spec`.  `floor(pow(n, 1.0 / d))` is a parameter too, as it is computed in floating point.

Simplified: the conversions between the transformed and the plain form of a plaintext or ciphertext are left out (they do
not change the value, and `multiply_plain` accepts a plaintext of either form); `parallel_for` runs its range in order;
sizes (`uint64_t`, `uint32_t`) are not wrapped except where written; `ceil` of a quotient or of a binary logarithm is
exact; serialisation of ciphertexts is the identity; `add` never refuses a transparent sum.  `logt` of the server is the one of
the options: `Batching(N, logt + 1)` gives a prime of `logt + 1` bits.  A seeded query is the query it expands to.
-/

namespace Psi.SealPir

open Psi.Spiral

/-! ### Sizes -/

/-- `ElementsPerPtxt`: `seal_pir.cc:35-44`. -/
def elementsPerPtxt (logt n eleSize : Nat) : Res Nat :=
  if logt * n / 8 < eleSize then .ok 1
  else
    let c := coefficientsPerElement logt eleSize
    if c = 0 then .undefined
    else if n / c = 0 then .throws
    else .ok (n / c)

/-- The loop of `GetDimensions`: `seal_pir.cc:78-85`. -/
def bumpDims (total : Nat) : List Nat → List Nat → List Nat
  | done, [] => done
  | done, x :: xs => if total < (done ++ x :: xs).prod then done ++ x :: xs else bumpDims total (done ++ [x + 1]) xs

/-- `GetDimensions`: `seal_pir.cc:68-92`.  `root` is `floor(pow(num_of_plaintexts, 1.0 / d))`. -/
def getDimensions (root total d : Nat) : Res (List Nat) :=
  if d = 0 ∨ total = 0 then .throws
  else
    let dims := bumpDims total [] (List.replicate d (max 2 root))
    if dims.prod < total then .throws else .ok dims

/-- `SealPirParams`: `seal_pir.h:53-66`. -/
structure Params where
  logt : Nat
  n : Nat
  eleNum : Nat
  eleSize : Nat
  perPt : Nat
  numPts : Nat
  partSize : Nat
  partNum : Nat
  dims : List Nat
  deriving DecidableEq

/-- The arguments of the constructor: `SealPirOptions`, `seal_pir.h:36-47`. -/
structure Options where
  n : Nat
  eleNum : Nat
  eleSize : Nat
  dimension : Nat
  logt : Nat

/-- The constructor: `SetSealContext` and `SetPirParams`, `seal_pir.cc:266-321`. -/
def setParams (root : Nat → Nat → Nat) (o : Options) : Res Params :=
  if o.n < 4096 then .throws
  else
    (elementsPerPtxt o.logt o.n o.eleSize).bind fun e =>
    let numPts := uintNum o.eleNum e
    let partSize := o.logt * o.n / 8
    if partSize = 0 then .undefined
    else
      (getDimensions (root numPts o.dimension) numPts o.dimension).bind fun dims =>
      .ok ⟨o.logt, o.n, o.eleNum, o.eleSize, e, numPts, partSize, (o.eleSize + partSize - 1) / partSize, dims⟩

/-! ### Plaintexts and ciphertexts -/

/-- The coefficients of a plaintext. -/
abbrev Plain := Nat → Nat

/-- The words of a ciphertext: polynomial, prime, coefficient. -/
abbrev CtWords := Nat → Nat → Nat → Nat

/-- Microsoft SEAL, for the polynomial degree `2 ^ L` and a plaintext modulus. -/
structure Seal where
  L : Nat
  t : Nat
  Ct : Type
  Coin : Type
  /-- The primes of a ciphertext, and of a ciphertext switched to the last level. -/
  qs : List Nat
  lastQs : List Nat
  /-- `SEAL_THROW_ON_TRANSPARENT_CIPHERTEXT`. -/
  throwOnTransparent : Bool
  size : Ct → Nat
  data : Ct → CtWords
  /-- A copy with other words. -/
  withData : Ct → CtWords → Ct
  /-- A ciphertext of the last level with a number of polynomials and words. -/
  lastCt : Nat → CtWords → Ct
  encrypt : Coin → Plain → Ct
  decrypt : Ct → Plain
  add : Ct → Ct → Ct
  galois : Ct → Nat → Ct
  mulPlain : Ct → Plain → Ct
  modSwitch : Ct → Ct
  encode : List Nat → Plain
  decode : Plain → List Nat

namespace Seal

def n (S : Seal) : Nat := 2 ^ S.L

end Seal

/-- `Evaluator::multiply_plain`: the product with 0 is transparent. -/
def multiplyPlain (S : Seal) (c : S.Ct) (p : Plain) : Res S.Ct :=
  if S.throwOnTransparent ∧ ∀ k < S.n, p k = 0 then .throws else .ok (S.mulPlain c p)

/-- `Evaluator::apply_galois`: without the key it throws. -/
def applyGalois (S : Seal) (keys : List Nat) (c : S.Ct) (g : Nat) : Res S.Ct :=
  if g ∈ keys then .ok (S.galois c g) else .throws

/-- `seal::util::negacyclic_shift_poly_coeffmod`. -/
def negShift (n q shift : Nat) (a : Words) : Words := fun k =>
  if shift ≤ k then a (k - shift)
  else if a (k + n - shift) = 0 then 0 else q - a (k + n - shift)

/-- `MultiplyPowerOfX`: `seal_pir.cc:1182-1212`. -/
def mulPowX (S : Seal) (c : S.Ct) (index : Nat) : S.Ct :=
  S.withData c fun p l =>
    let q := S.qs.getD l 0
    if S.n ≤ index then negShift S.n q (index % S.n) fun k => q - S.data c p l k
    else negShift S.n q (index % S.n) (S.data c p l)

/-! ### The query -/

/-- `accumulate` with an accumulator of type `int`, read as `uint64_t`: `seal_pir.cc:161-162`. -/
def signExtend (y : Nat) : Nat := if y % 2 ^ 32 < 2 ^ 31 then y % 2 ^ 32 else y % 2 ^ 32 + (2 ^ 64 - 2 ^ 32)

def intProd (dims : List Nat) : Nat := dims.foldl (fun a x => signExtend (w64 (a * x))) 1

/-- The loop of `ComputeIndices`: `seal_pir.cc:164-169`. -/
def indicesLoop : List Nat → Nat → Nat → Res (List Nat)
  | [], _, _ => .ok []
  | d :: ds, prod, j =>
    let prod := prod / d
    if prod = 0 then .undefined
    else (indicesLoop ds prod (j % prod)).bind fun r => .ok (j / prod :: r)

/-- `ComputeIndices`: `seal_pir.cc:156-172`. -/
def computeIndices (idx : Nat) (dims : List Nat) : Res (List Nat) := indicesLoop dims (intProd dims) idx

/-- `InvertMod`, with `try_invert_uint_mod`: `seal_pir.cc:248-253`. -/
def invertMod (m t : Nat) : Res Nat :=
  if Nat.gcd m t = 1 then .ok (Nat.gcdA m t % (t : Int)).toNat else .throws

/-- The number of coefficients ciphertext `j` of `count` stands for: `seal_pir.cc:1019-1027`, `1283-1290`. -/
def totalOf (n ni count j : Nat) : Nat := if j = count - 1 ∧ ni % n ≠ 0 then ni % n else n

/-- Plaintext `j` of the query for one dimension: `seal_pir.cc:1279-1293`. -/
def queryPlain (n t ni index count j : Nat) : Res Plain :=
  if j * n ≤ index ∧ index < (j + 1) * n then
    (invertMod (2 ^ Nat.clog 2 (totalOf n ni count j)) t).bind fun v =>
    .ok fun k => if k = index - j * n then v else 0
  else .ok fun _ => 0

/-- The ciphertexts for one dimension: `seal_pir.cc:1276-1302`. -/
def queryDim (S : Seal) (coin : Nat → S.Coin) (ni index : Nat) : Res (List S.Ct) :=
  let count := uintNum ni S.n
  mapRes (fun j => (queryPlain S.n S.t ni index count j).bind fun p => .ok (S.encrypt (coin j) p)) (List.range count)

/-- `GenerateQuery`, `GenerateSeededQuery`: `seal_pir.cc:1267-1343`. -/
def generateQuery (S : Seal) (coin : Nat → Nat → S.Coin) (dims : List Nat) (ptIdx : Nat) : Res (List (List S.Ct)) :=
  (computeIndices ptIdx dims).bind fun idx =>
  mapRes (fun i => queryDim S (coin i) (dims.getD i 0) (idx.getD i 0)) (List.range idx.length)

/-- `galelts`, both of the client and of the server: `seal_pir.cc:1127-1131`, `1423-1436`. -/
def galoisElts (S : Seal) : List Nat := (List.range S.L).map fun i => (S.n + 2 ^ i) / 2 ^ i

/-! ### Expansion -/

/-- One ciphertext in one round: `seal_pir.cc:1141-1150`.  `index_raw` and `index` of round `i`. -/
def expandOne (S : Seal) (keys : List Nat) (i : Nat) (c : S.Ct) : Res (S.Ct × S.Ct) :=
  let raw := 2 * S.n - 2 ^ i
  let index := (raw + S.n) % (2 * S.n)
  match (galoisElts S)[i]? with
  | none => .undefined
  | some g => (applyGalois S keys c g).bind fun r => .ok (S.add c r, S.add (mulPowX S c raw) (mulPowX S r index))

/-- One round: `seal_pir.cc:1139-1154`. -/
def expandRound (S : Seal) (keys : List Nat) (i : Nat) (tmp : List S.Ct) : Res (List S.Ct) :=
  (mapRes (expandOne S keys i) tmp).bind fun r => .ok (r.map Prod.fst ++ r.map Prod.snd)

def expandRounds (S : Seal) (keys : List Nat) : Nat → Nat → List S.Ct → Res (List S.Ct)
  | 0, _, tmp => .ok tmp
  | k + 1, i, tmp => (expandRound S keys i tmp).bind (expandRounds S keys k (i + 1))

/-- `Plaintext two("2")`: `seal_pir.cc:1160`. -/
def two : Plain := fun k => if k = 0 then 2 else 0

/-- The last round: `seal_pir.cc:1156-1179`.  The ciphertexts of the second half that are not written are not part of
the result. -/
def expandLast (S : Seal) (keys : List Nat) (m k : Nat) (tmp : List S.Ct) : Res (List S.Ct) :=
  let full := m - 2 ^ k
  (mapRes (expandOne S keys k) (tmp.take full)).bind fun r =>
  (mapRes (fun c => multiplyPlain S c two) (tmp.drop full)).bind fun d =>
  .ok ((r.map Prod.fst ++ d ++ r.map Prod.snd).take m)

/-- `ExpandQuery`: `seal_pir.cc:1113-1180`. -/
def expandQuery (S : Seal) (keys : List Nat) (c : S.Ct) (m : Nat) : Res (List S.Ct) :=
  let logm := Nat.clog 2 m
  if S.L < logm then .throws
  else if logm = 0 then .ok [c]
  else (expandRounds S keys (logm - 1) 0 [c]).bind (expandLast S keys m (logm - 1))

/-- The expansion of one ciphertext of the query for one dimension: `seal_pir.cc:1019-1030`. -/
def expandPart (S : Seal) (keys : List Nat) (ni : Nat) (q : List S.Ct) (j : Nat) : Res (List S.Ct) :=
  match q[j]? with
  | none => .undefined
  | some c => expandQuery S keys c (totalOf S.n ni q.length j)

/-- The expansion of the query for one dimension: `seal_pir.cc:1018-1037`. -/
def expandAll (S : Seal) (keys : List Nat) (ni : Nat) (q : List S.Ct) : Res (List S.Ct) :=
  (mapRes (expandPart S keys ni q) (List.range q.length)).bind fun parts =>
  if parts.flatten.length ≠ ni then .throws else .ok parts.flatten

/-! ### The answer -/

/-- `ceil(log2(q) / logt)`: `seal_pir.cc:58-59`, `187-189`. -/
def localRatio (logt q : Nat) : Nat := uintNum (Nat.clog 2 q) logt

/-- `ComputeExpansionRatio`: `seal_pir.cc:54-63`. -/
def expansionRatio (logt : Nat) (qs : List Nat) : Nat := (qs.map (localRatio logt)).sum

/-- The order of the plaintexts of a ciphertext: polynomial, prime, digit (`seal_pir.cc:184-204`). -/
def slots (logt : Nat) (qs : List Nat) (size : Nat) : List (Nat × Nat × Nat) :=
  (List.range size).flatMap fun p => (List.range qs.length).flatMap fun l =>
    (List.range (localRatio logt (qs.getD l 0))).map fun i => (p, l, i)

/-- `DecomposeToPlaintexts`: `seal_pir.cc:174-206`. -/
def decompose (S : Seal) (logt : Nat) (c : S.Ct) : List Plain :=
  (slots logt S.lastQs (S.size c)).map fun s k => (S.data c s.1 s.2.1 k >>> (s.2.2 * logt)) &&& (2 ^ logt - 1)

/-- One step of `ComposeToCiphertext`: `seal_pir.cc:225-232`. -/
def composeStep (logt : Nat) (d : CtWords) (s : (Nat × Nat × Nat) × Plain) : CtWords := fun p l k =>
  if p = s.1.1 ∧ l = s.1.2.1 then
    if s.1.2.2 = 0 then s.2 k else w64 (d p l k + w64 (s.2 k <<< (s.1.2.2 * logt)))
  else d p l k

/-- `ComposeToCiphertext`: `seal_pir.cc:208-239`. -/
def compose (S : Seal) (logt : Nat) (pts : List Plain) : S.Ct :=
  let size := pts.length / expansionRatio logt S.lastQs
  S.lastCt size (((slots logt S.lastQs size).zip pts).foldl (composeStep logt) fun _ _ _ => 0)

/-- One ciphertext of the answer: `seal_pir.cc:1061-1069`. -/
def dotFrom (S : Seal) (cur : List Plain) (ex : List S.Ct) (prod k : Nat) : Nat → Nat → S.Ct → Res S.Ct
  | 0, _, acc => .ok acc
  | m + 1, j, acc =>
    match ex[j]?, cur[j * prod + k]? with
    | some c, some p => (multiplyPlain S c p).bind fun tmp => dotFrom S cur ex prod k m (j + 1) (S.add acc tmp)
    | _, _ => .undefined

def dot (S : Seal) (cur : List Plain) (ex : List S.Ct) (ni prod k : Nat) : Res S.Ct :=
  match ex[0]?, cur[k]? with
  | some c, some p => (multiplyPlain S c p).bind fun acc => dotFrom S cur ex prod k (ni - 1) 1 acc
  | _, _ => .undefined

/-- The answer for one partition: `seal_pir.cc:1002-1108`. -/
def respond (S : Seal) (logt : Nat) (keys : List Nat) : List Nat → List (List S.Ct) → Nat → List Plain → Res (List S.Ct)
  | [], _, _, _ => .ok []
  | _ :: _, [], _, _ => .undefined
  | ni :: ns, q :: qs, prod, cur =>
    (expandAll S keys ni q).bind fun ex =>
    (mapRes (dot S cur ex ni (prod / ni)) (List.range (prod / ni))).bind fun cts =>
    match ns with
    | [] => .ok cts
    | _ :: _ =>
      let plains := cts.flatMap fun c => decompose S logt (S.modSwitch c)
      respond S logt keys ns qs plains.length plains

/-- The answer for partition `i`: `seal_pir.cc:1002-1008`. -/
def respondPart (S : Seal) (P : Params) (keys : List Nat) (dbs : List (List Plain)) (query : List (List S.Ct)) (i : Nat) :
    Res (List S.Ct) :=
  match dbs[i]? with
  | none => .undefined
  | some db => respond S P.logt keys P.dims query P.dims.prod db

/-- `GenerateResponse`: `seal_pir.cc:989-1111`. -/
def generateResponse (S : Seal) (P : Params) (keys : List Nat) (dbs : List (List Plain)) (query : List (List S.Ct)) :
    Res (List (List S.Ct)) :=
  mapRes (respondPart S P keys dbs query) (List.range P.partNum)

/-! ### The database -/

/-- The coefficients of plaintext `i`: `seal_pir.cc:779-814`.  The `while` loop takes `perPt` rows, or those that are
left. -/
def ptCoeffs (P : Params) (rows : List (List Nat)) (cpe i : Nat) : Res (List Nat) :=
  let offset := i * P.perPt
  let count := min P.perPt (P.eleNum - offset)
  if rows.length < offset + count then .throws
  else (mapRes (bytesToCoeffs P.logt) ((rows.drop offset).take count)).bind fun css =>
    .ok (css.flatten ++ List.replicate (P.perPt * cpe - css.flatten.length) 0 ++ List.replicate (P.n - P.perPt * cpe) 1)

/-- The plaintexts of a partition: `seal_pir.cc:763-833`. -/
def partPlains (S : Seal) (P : Params) (rows : List (List Nat)) : Res (List Plain) :=
  match rows with
  | [] => .throws
  | r :: _ =>
    let cpe := coefficientsPerElement P.logt r.length
    if P.n < P.perPt * cpe then .throws
    else (mapRes (ptCoeffs P rows cpe) (List.range P.numPts)).bind fun cs =>
      .ok (cs.map S.encode ++ List.replicate (P.dims.prod - P.numPts) fun k => if k < P.n then 1 else 0)

/-- `GenerateFromRawData`: `seal_pir.cc:741-836`. -/
def generateDb (S : Seal) (P : Params) (raw : List (List Nat)) (rowLen : Nat) : Res (List (List Plain)) :=
  let parts := partitionRows raw rowLen P.partSize
  if parts.length ≠ P.partNum then .throws
  else if P.dims.prod ≤ P.numPts then .throws
  else mapRes (partPlains S P) parts

/-! ### Decoding -/

/-- One round of `DecodeResponse`: `seal_pir.cc:1391-1416`, for at least two plaintexts to a ciphertext. -/
def decodeRound (S : Seal) (logt polys : Nat) (tmp : List S.Ct) : List S.Ct :=
  let r := expansionRatio logt S.lastQs * polys
  (List.range (tmp.length / r)).map fun i => compose S logt (((tmp.map S.decrypt).drop (i * r)).take r)

/-- `DecodeResponse` for one partition: `seal_pir.cc:1388-1417`. -/
def decodePlain (S : Seal) (logt polys : Nat) : Nat → List S.Ct → Res Plain
  | 0, _ => .undefined
  | 1, tmp =>
    match tmp with
    | [c] => .ok (S.decrypt c)
    | _ => .throws
  | d + 2, tmp => decodePlain S logt polys (d + 1) (decodeRound S logt polys tmp)

/-- `ExtractBytes`: `seal_pir.cc:1457-1470`. -/
def extractBytes (S : Seal) (P : Params) (pt : Plain) (offset loc : Nat) : Res (List Nat) :=
  (coeffsToBytes P.logt (S.decode pt) (P.perPt * P.eleSize) P.eleSize).bind fun bs =>
  if (offset + 1) * loc ≤ bs.length then .ok ((bs.drop (offset * loc)).take loc) else .undefined

/-- The bytes of partition `i`: `seal_pir.cc:1359-1367`, `1386-1389`. -/
def decodePart (S : Seal) (P : Params) (resp : List (List S.Ct)) (rawIdx i : Nat) : Res (List Nat) :=
  match resp[i]? with
  | none => .undefined
  | some [] => .undefined
  | some (c :: cs) =>
    (decodePlain S P.logt (S.size c) P.dims.length (c :: cs)).bind fun pt =>
    extractBytes S P pt (rawIdx % P.perPt) (if i = P.partNum - 1 then P.eleSize - i * P.partSize else P.partSize)

/-- `DecodeResponse` and `DecodeIndexResponse`: `seal_pir.cc:1345-1421`. -/
def decodeResponse (S : Seal) (P : Params) (resp : List (List S.Ct)) (rawIdx : Nat) : Res (List Nat) :=
  (mapRes (decodePart S P resp rawIdx) (List.range P.partNum)).bind fun parts => .ok parts.flatten

/-! ### Client and server -/

/-- A client asks a server: `GenerateIndexQuery`, `Response`, `DecodeIndexResponse`: `seal_pir.cc:954-972`,
`1254-1259`, `1345-1350`, with `GetPtIndex` and `GetPtOffset` (`1448-1455`). -/
def ask (S : Seal) (P : Params) (coin : Nat → Nat → S.Coin) (dbs : List (List Plain)) (rawIdx : Nat) : Res (List Nat) :=
  (generateQuery S coin P.dims (rawIdx / P.perPt)).bind fun q =>
  (generateResponse S P (galoisElts S) dbs q).bind fun r =>
  decodeResponse S P r rawIdx

/-- Client and server made from the same options, the database, and one query. -/
def run (S : Seal) (root : Nat → Nat → Nat) (o : Options) (coin : Nat → Nat → S.Coin) (raw : List (List Nat)) (rowLen : Nat)
    (rawIdx : Nat) : Res (List Nat) :=
  (setParams root o).bind fun P =>
  (generateDb S P raw rowLen).bind fun dbs =>
  ask S P coin dbs rawIdx

/-! ### Storage -/

/-- The members of `SealPirServerProto` used by `Load`: `seal_pir.cc:853-888`. -/
structure ServerProto where
  rows : Nat
  rowLen : Nat
  dim : Nat
  dimVec : List Nat
  n : Nat
  logt : Nat
  partNum : Nat
  ptNum : Nat
  dbs : List (List Plain)

/-- `SerializeToProto`: `seal_pir.cc:853-888`. -/
def dump (P : Params) (dbs : List (List Plain)) : ServerProto :=
  ⟨P.eleNum, P.eleSize, P.dims.length, P.dims, P.n, P.logt, P.partNum, P.numPts, dbs⟩

/-- `DeserializeFromProto`: `seal_pir.cc:890-927`.  Too few databases stop protobuf, too few stores are undefined. -/
def load (root : Nat → Nat → Nat) (p : ServerProto) : Res (Params × List (List Plain)) :=
  (setParams root ⟨p.n, p.rows, p.rowLen, p.dim, p.logt⟩).bind fun P =>
  if P.numPts ≠ p.ptNum ∨ P.partNum ≠ p.partNum ∨ p.dimVec.length ≠ p.dim ∨ p.dimVec ≠ P.dims then .throws
  else if p.dbs.length < p.partNum then .throws
  else .ok (P, p.dbs.take p.partNum)

end Psi.SealPir
