import Mathlib.Data.ZMod.Basic
import Verif.Okvs.Comb
import Mathlib.Algebra.BigOperators.Group.List.Basic
import Mathlib.Algebra.Module.Defs
import Mathlib.Logic.Function.Basic

/-!
# The key-value store of RR22 (`Paxos`)

Models `psi/algorithm/rr22/okvs/paxos.cc`, `dense_mtx.cc` and the parts of `paxos_utils.h` they use, for
encoding without a random generator (`prng == nullptr`, the only use in RR22).

A key is given by its row: the sparse columns and the 128-bit dense word (`PaxosHash`).  Values are elements
of `V`, a module over the ring `K` of the dense coefficients: `K` is GF(2^128) for `DenseType::GF128` and
GF(2) for `DenseType::Binary`; addition is xor in both.  The output is zero before the call (the callers
allocate it so; the clearing inside `Encode` is commented out): `P` is the sparse part, `p2` the dense part.
-/

namespace Psi.Okvs

/-- A key after hashing. -/
structure Row where
  cols : List Nat
  dense : Nat
deriving DecidableEq, Repr, Inhabited

def cols (rows : List Row) (i : Nat) : List Nat := (rows.getD i default).cols
def dns (rows : List Row) (i : Nat) : Nat := (rows.getD i default).dense

/-- Why no encoding is produced. -/
inductive Err
  /-- "Duplicate keys were detected": `paxos.cc:571-575`. -/
  | duplicate
  /-- `first == false`: `paxos.cc:585`. -/
  | noRow
  /-- `g <= dense_size`, `gg <= g`: `paxos.cc:995, 1320`. -/
  | tooManyGaps
  /-- The checks inside `GetFCInv`: `paxos.cc:1486, 1499`. -/
  | fcinv
  /-- No inverse: `paxos.cc:1046, 1523`. -/
  | singular
  /-- `dense_size <= 64`: `paxos.cc:1396`. -/
  | denseSize
  /-- Write behind the end of a buffer: undefined behaviour. -/
  | undefined
deriving DecidableEq, Repr

/-! ## Triangulation -/

/-- `cols_[c]`: the rows of a column, `RebuildColumns`, `paxos.cc:353-408`. -/
def colRows (rows : List Row) (c : Nat) : List Nat :=
  (List.range rows.length).flatMap (fun i => ((cols rows i).filter (· = c)).map (fun _ => i))

/-- Local variables of `Triangulate`: the weights of the columns, the rows already set, the main rows with
their columns, the gap rows with the main row of their column. -/
structure Tri where
  wt : Nat → Nat
  set : Nat → Bool
  main : List (Nat × Nat)
  gap : List (Nat × Nat)

/-- `paxos.cc:504-512`. -/
def Tri.init (rows : List Row) : Tri := ⟨fun c => (colRows rows c).length, fun _ => false, [], []⟩

/-- The weights of the columns of a row are decremented: `paxos.cc:534-558`. -/
def decs (cs : List Nat) (w : Nat → Nat) : Nat → Nat :=
  cs.foldl (fun w c => if w c ≠ 0 then Function.update w c (w c - 1) else w) w

/-- Body of the loop over the rows of column `c`; the flag is `first`: `paxos.cc:527-583`. -/
def visit (rows : List Row) (c : Nat) (s : Tri × Bool) (r : Nat) : Except Err (Tri × Bool) :=
  if s.1.set r then .ok s
  else
    let t := { s.1 with set := Function.update s.1.set r true, wt := decs (cols rows r) s.1.wt }
    if s.2 then .ok ({ t with main := t.main ++ [(r, c)] }, false)
    else
      let back := (t.main.getLastD (0, 0)).1
      if dns rows back = dns rows r then .error .duplicate
      else .ok ({ t with gap := t.gap ++ [(r, back)] }, false)

/-- One column: `paxos.cc:514-585`. -/
def colStep (rows : List Row) (t : Tri) (c : Nat) : Except Err Tri := do
  let s ← (colRows rows c).foldlM (visit rows c) ({ t with wt := Function.update t.wt c 0 }, true)
  if s.2 then .error .noRow else .ok s.1

/-- The loop of `Triangulate`: `paxos.cc:513-586`.  `pick` is `GetMinWeightNode`; what it returns is a
function of what has been done so far.  `fuel`: one column per iteration. -/
def triangulate (rows : List Row) (S : Nat) (pick : Tri → Nat) : Nat → Tri → Except Err Tri
  | 0, t => .ok t
  | fuel + 1, t =>
    if ∀ c < S, t.wt c = 0 then .ok t
    else do triangulate rows S pick fuel (← colStep rows t (pick t))

/-! ## Cancelling the sparse part of the gap rows -/

/-- Insert, or remove if present: `paxos.cc:1490-1495`. -/
def toggle (l : List Nat) (x : Nat) : List Nat := if x ∈ l then l.erase x else x :: l

/-- `col_mapping`: position of a column counted from the last main row.  `paxos.cc:1450-1455`. -/
def colIdx (rev : List (Nat × Nat)) (c : Nat) : Option Nat := (rev.map Prod.snd).idxOf? c

/-- Add row `h` of C to the current row of F: `paxos.cc:1480-1497`. -/
def addRow (rows : List Row) (rev : List (Nat × Nat)) (cc h : Nat) (row : List Nat) : Except Err (List Nat) :=
  (cols rows h).foldlM (fun row c =>
    match colIdx rev c with
    | none => .ok row
    | some k => if k ≤ cc then .ok (toggle row k) else .error .fcinv) row

/-- The `while` loop of `GetFCInv`: `paxos.cc:1467-1500`.  `row.begin()` is the largest element. -/
def fcLoop (rows : List Row) (rev : List (Nat × Nat)) : Nat → List Nat → List Nat → Except Err (List Nat)
  | 0, row, acc => if row = [] then .ok acc else .error .fcinv
  | fuel + 1, row, acc =>
    match row.max? with
    | none => .ok acc
    | some cc => do
      let h := (rev.getD cc (0, 0)).1
      let row' ← addRow rows rev cc h row
      if row'.max? = some cc then .error .fcinv else fcLoop rows rev fuel row' (acc ++ [h])

/-- The row of `FC^-1` of one gap row: `paxos.cc:1435-1501`. -/
def fcRow (rows : List Row) (rev : List (Nat × Nat)) (gap : Nat × Nat) : Except Err (List Nat) :=
  if cols rows gap.1 = cols rows gap.2 then .ok [gap.2]
  else fcLoop rows rev rev.length ((cols rows gap.1).filterMap (colIdx rev)) []

/-- `GetFCInv`: `paxos.cc:1421-1505`. -/
def fcInv (rows : List Row) (rev : List (Nat × Nat)) (gaps : List (Nat × Nat)) : Except Err (List (List Nat)) :=
  gaps.mapM (fcRow rows rev)

/-! ## Matrix inversion -/

section
variable {K : Type} [CommRing K] [DecidableEq K]

/-- The pivot row: `(i, i)` if it is not zero, else the first lower row with a one in column `i`.
`paxos.cc:46-58`, `dense_mtx.cc:105-112`. -/
def pivot (n : Nat) (M : Nat → Nat → K) (i : Nat) : Option Nat :=
  if M i i ≠ 0 then some i else (List.range' (i + 1) (n - (i + 1))).find? (fun j => M j i = 1)

/-- Rows `i` and `j` exchanged. -/
def swapRows (M : Nat → Nat → K) (i j : Nat) : Nat → Nat → K :=
  fun a => if a = i then M j else if a = j then M i else M a

/-- Row `i` divided by its diagonal entry: `paxos.cc:72-78` (in GF(2) there is nothing to do). -/
def scaleRow (s : K) (M : Nat → Nat → K) (i : Nat) : Nat → Nat → K :=
  fun a => if a = i then fun k => s * M i k else M a

/-- Row `i` times `f j` added to every other row `j`: `paxos.cc:83-95`, `dense_mtx.cc:119-127`. -/
def clear (f : Nat → K) (M : Nat → Nat → K) (i : Nat) : Nat → Nat → K :=
  fun j => if j = i then M i else fun k => M j k + f j * M i k

/-- One column of the elimination. -/
def gjStep (inv : K → K) (n : Nat) (s : (Nat → Nat → K) × (Nat → Nat → K)) (i : Nat) :
    Option ((Nat → Nat → K) × (Nat → Nat → K)) :=
  (pivot n s.1 i).map (fun j =>
    let M := swapRows s.1 i j
    let N := swapRows s.2 i j
    let c := inv (M i i)
    let M := scaleRow c M i
    let N := scaleRow c N i
    (clear (fun j => M j i) M i, clear (fun j => M j i) N i))

/-- Elimination with a full-size second matrix: `DenseMtx::Invert`, `dense_mtx.cc:97-129`, for `K` = GF(2),
and `MatrixGf128Inv`, `paxos.cc:36-99`, for GF(2^128).  `none`: the empty matrix. -/
def gaussJordan (inv : K → K) (n : Nat) (M : Nat → Nat → K) : Option (Nat → Nat → K) :=
  ((List.range n).foldlM (gjStep inv n) (M, fun i j => if i = j then 1 else 0)).map Prod.snd

/-- `MatrixGf128Inv`, `paxos.cc:29-99`: the second matrix is allocated with `n` instead of `n * n` elements
(`std::vector<uint128_t>(row_size, col_size)`); element `(i, i)` is at offset `i * n + i`. -/
def gfInverse (inv : K → K) (n : Nat) (M : Nat → Nat → K) : Except Err (Nat → Nat → K) :=
  if ∃ i < n, n ≤ i * n + i then .error .undefined
  else match gaussJordan inv n M with
    | none => .error .singular
    | some N => .ok N

end

/-! ## Back-substitution and decoding -/

section
variable {K V : Type} [CommRing K] [DecidableEq K] [AddCommGroup V] [Module K V]

def sparsePart (P : Nat → V) (cs : List Nat) : V := (cs.map P).sum

def densePart (coef : Nat → K) (p2 : Nat → V) (D : Nat) : V := ((List.range D).map (fun k => coef k • p2 k)).sum

/-- The main rows in reverse order; `d` is the dense part used for a row.
`paxos.cc:1063-1182, 1369-1418`. -/
def backfill (rows : List Row) (rev : List (Nat × Nat)) (X : Nat → V) (d : Nat → V) : Nat → V :=
  rev.foldl (fun P x => Function.update P x.2 (X x.1 + sparsePart P (cols rows x.1) + d x.1)) (fun _ => 0)

/-- `Decode1`: `paxos.cc:2257-2284`; `Decode1U64`: `paxos.cc:2225-2252`. -/
def decode (coef : Nat → Nat → K) (D : Nat) (P p2 : Nat → V) (row : Row) : V :=
  sparsePart P row.cols + densePart (coef row.dense) p2 D

/-- `EE` at `(i, k)`: `paxos.cc:1014-1034`, `1528-1541`, `1643-1666`. -/
def ee (rows : List Row) (coef : Nat → Nat → K) (gaps : List (Nat × Nat)) (fc : List (List Nat)) (i k : Nat) : K :=
  coef (dns rows (gaps.getD i (0, 0)).1) k + ((fc.getD i []).map (fun j => coef (dns rows j) k)).sum

/-- `xx` at `i`: `paxos.cc:1023-1025`, `1606-1614`; the same text for words of 64 bits: `paxos.cc:1550-1595`. -/
def xx (gaps : List (Nat × Nat)) (fc : List (List Nat)) (X : Nat → V) (i : Nat) : V :=
  X (gaps.getD i (0, 0)).1 + ((fc.getD i []).map X).sum

/-- Row `i` of `N * xx`. -/
def mulVec (n : Nat) (N : Nat → Nat → K) (x : Nat → V) (i : Nat) : V :=
  ((List.range n).map (fun j => N i j • x j)).sum

/-- `BackfillGf128`: `paxos.cc:983-1182`. -/
def backfillGf (rows : List Row) (coef : Nat → Nat → K) (inv : K → K) (D : Nat) (t : Tri) (X : Nat → V) :
    Except Err ((Nat → V) × (Nat → V)) := do
  let g := t.gap.length
  let rev := t.main.reverse
  if D < g then .error .tooManyGaps
  else if g = 0 then .ok (backfill rows rev X (fun _ => 0), fun _ => 0)
  else
    let fc ← fcInv rows rev t.gap
    let N ← gfInverse inv g (ee rows coef t.gap fc)
    let p2 := fun i => if i < g then mulVec g N (xx t.gap fc X) i else 0
    .ok (backfill rows rev X (fun r => densePart (coef (dns rows r)) p2 D), p2)

/-- `GetGapCols`: `paxos.cc:1507-1548`; `cands` are the column sets in the order in which they are tried. -/
def gapCols (rows : List Row) (coef : Nat → Nat → K) (cands : List (List Nat)) (gaps : List (Nat × Nat))
    (fc : List (List Nat)) : Option (List Nat) :=
  cands.find? (fun cs =>
    (gaussJordan id gaps.length (fun i j => ee rows coef gaps fc i (cs.getD j 0))).isSome)

/-- `BackfillBinary`: `paxos.cc:1302-1419`; `BackfillBinaryU64`, `paxos.cc:1184-1300`, is the same text with words of 64 bits.  `gMax` is the parameter `g`.
The check of the dense size is inside the loop over the main rows. -/
def backfillBin (rows : List Row) (coef : Nat → Nat → K) (D gMax : Nat) (t : Tri) (X : Nat → V) :
    Except Err ((Nat → V) × (Nat → V)) := do
  let g := t.gap.length
  let rev := t.main.reverse
  if gMax < g then .error .tooManyGaps
  else if g = 0 then
    if 64 < D ∧ rev ≠ [] then .error .denseSize else .ok (backfill rows rev X (fun _ => 0), fun _ => 0)
  else
    let fc ← fcInv rows rev t.gap
    match gapCols rows coef (combs D g) t.gap fc with
    | none => .error .singular
    | some gc =>
      match gaussJordan id g (fun i j => ee rows coef t.gap fc i (gc.getD j 0)) with
      | none => .error .singular
      | some N =>
        let p2 := (List.range g).foldl (fun p i =>
          Function.update p (gc.getD i 0) (p (gc.getD i 0) + mulVec g N (xx t.gap fc X) i)) (fun _ => 0)
        if 64 < D ∧ rev ≠ [] then .error .denseSize
        else .ok (backfill rows rev X (fun r =>
          ((List.range g).map (fun j => coef (dns rows r) (gc.getD j 0) • p2 (gc.getD j 0))).sum), p2)

/-- `Encode` with `DenseType::GF128`: `paxos.cc:456-496`. -/
def encodeGf (rows : List Row) (S D : Nat) (pick : Tri → Nat) (coef : Nat → Nat → K) (inv : K → K) (X : Nat → V) :
    Except Err ((Nat → V) × (Nat → V)) := do
  backfillGf rows coef inv D (← triangulate rows S pick S (Tri.init rows)) X

/-- `Encode` and `EncodeU64` with `DenseType::Binary`: `paxos.cc:410-496`. -/
def encodeBin (rows : List Row) (S D gMax : Nat) (pick : Tri → Nat) (coef : Nat → Nat → K) (X : Nat → V) :
    Except Err ((Nat → V) × (Nat → V)) := do
  backfillBin rows coef D gMax (← triangulate rows S pick S (Tri.init rows)) X

end

/-- Bit `k` of the dense word (`BitIterator`, `paxos.cc:2279`, `dense_masks`, `paxos.cc:1361, 1411`). -/
def bitCoef (d k : Nat) : ZMod 2 := if d.testBit k then 1 else 0

end Psi.Okvs
