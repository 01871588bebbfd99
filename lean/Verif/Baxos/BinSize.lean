import Mathlib.Analysis.SpecialFunctions.Log.Base
import Mathlib.Analysis.SpecialFunctions.Pow.Real
import Verif.Baxos.Model
import Verif.Baxos.BinTable

/-!
# The sizes of the bins (`SimpleIndex::GetBinSize`)

Models `psi/algorithm/rr22/okvs/simple_index.cc` and its callers in `baxos.h` and `baxos.cc`.  Real numbers stand for
doubles.  The estimate of the probability of an overflow (`GetBinOverflowProb`, a sum of binomial terms with a
tolerance) is a parameter `prob bins balls size`; the cases it begins with are modelled.
-/

namespace Psi.Baxos

/-- The choice of the table: `simple_index.cc:891-902`. -/
def binTable (stat : Nat) : List (List Nat) :=
  if stat ≤ 40 then tab40 else if stat ≤ 50 then tab50 else if stat ≤ 60 then tab60 else tab80

/-- An entry of a table. -/
noncomputable def entry (t : List (List Nat)) (i j : Nat) : ℝ := ((t.getD i []).getD j 0 : ℕ) / 10 ^ 9

/-- The size lies in the table: `simple_index.cc:919-920`. -/
def inTable (t : List (List Nat)) (bins balls : Nat) : Bool :=
  Nat.clog 2 bins < t.length && Nat.clog 2 balls < (t.getD (Nat.clog 2 bins) []).length

/-- The value read off the table, `b0`: `simple_index.cc:904-926`.  `Nat.log 2` and `Nat.clog 2` are the floor and the
ceiling of the logarithm. -/
noncomputable def interp (t : List (List Nat)) (bins balls : Nat) : ℝ :=
  let diffBin := Real.logb 2 bins - Nat.log 2 bins
  let diffBall := Real.logb 2 balls - Nat.log 2 balls
  let a0 := diffBin * entry t (Nat.log 2 bins) (Nat.log 2 balls) +
    (1 - diffBin) * entry t (Nat.log 2 bins) (Nat.clog 2 balls)
  let a1 := diffBin * entry t (Nat.clog 2 bins) (Nat.log 2 balls) +
    (1 - diffBin) * entry t (Nat.clog 2 bins) (Nat.clog 2 balls)
  diffBall * a0 + (1 - diffBall) * a1

/-- `simple_index.cc:928`. -/
noncomputable def tableSize (t : List (List Nat)) (bins balls : Nat) : Nat := ⌈(2 : ℝ) ^ interp t bins balls⌉₊

/-- The loop that looks for the size, `simple_index.cc:939-963`; `enough B` says that the probability at `B` is small
enough.  `none`: still running after `fuel` rounds. -/
def search (enough : Nat → Bool) : Nat → Nat → Nat → Bool → Option Nat
  | 0, _, _, _ => none
  | fuel + 1, B, step, doubling =>
    if enough B ∧ step ≤ 1 then some B
    else if ¬ enough B then
      let s := max 1 (if doubling then step * 2 else step / 2)
      search enough fuel (B + s) s doubling
    else
      let s := max 1 (step / 2)
      search enough fuel (B - s) s false

open Classical in
/-- `GetBinOverflowProb(num_bins, num_balls, B) >= stat_sec_param`: `simple_index.cc:31-33`, `62`, `943`, `946`. -/
noncomputable def enough (prob : Nat → Nat → Nat → ℝ) (stat bins balls B : Nat) : Bool :=
  decide (balls ≤ B ∨ (stat : ℝ) ≤ prob bins balls B)

/-- `GetBinSize`: `simple_index.cc:881-965`.  No balls: the logarithm is `-inf`, which is then used as an index.
More than `2^31 - 1` balls are refused by `GetBinOverflowProb` (`simple_index.cc:35-38`), unless they fit. -/
noncomputable def getBinSize (prob : Nat → Nat → Nat → ℝ) (fuel bins balls stat : Nat) (approx : Bool) : Except Err Nat :=
  if bins < 2 then .ok balls
  else if approx ∧ balls = 0 ∧ Nat.clog 2 bins < (binTable stat).length then .error .undefined
  else if approx ∧ inTable (binTable stat) bins balls then .ok (tableSize (binTable stat) bins balls)
  else if max 1 (balls / bins) < balls ∧ 2 ^ 31 - 1 < balls then .error .check
  else match search (enough prob stat bins balls) fuel (max 1 (balls / bins)) 1 true with
    | some B => .ok B
    | none => .error .unfinished

/-- `Baxos::Init` sets `num_bins_`: `baxos.h:54`. -/
def numBins (nItems binSize : Nat) : Nat := (nItems + binSize - 1) / binSize

/-- `per_thrd_max_bin_size`: `baxos.cc:29-32, 185-191`; the security parameter is `ssp_`. -/
noncomputable def threadSize (prob : Nat → Nat → Nat → ℝ) (fuel nItems nBins ssp threads : Nat) : Except Err Nat :=
  getBinSize prob fuel nBins ((nItems + threads - 1) / threads) ssp true

end Psi.Baxos
