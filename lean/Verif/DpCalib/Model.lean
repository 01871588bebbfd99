import Mathlib.Analysis.SpecialFunctions.Gaussian.GaussianIntegral
import Mathlib.MeasureTheory.Integral.IntervalIntegral.FundThmCalculus

/-!
# The numbers behind the differentially private PSI

Models `psi/legacy/dp_psi/dp_psi_utils.{h,cc}`: the noise of a Gaussian mechanism for a privacy budget
(`CalibrateAnalyticGaussianMechanism`, used for the mean of payloads), and the split of a budget between sampling
and randomised response (`ComputeEpsilon2`).

`double` is taken to be a real number, so rounding is not modelled; a `double` that is no number is kept apart where
the code can produce one (`Val`).  The loops of the code have no bound on their rounds.  A loop is a function of the
number of rounds it may still take, with `none` for "still running"; `Returns` and `Loops` say what the unbounded loop
does.
-/

namespace Psi.DpCalib

open Real

/-- The loop `f` (a function of the rounds it is given) ends with `r`. -/
def Returns {α : Type} (f : ℕ → Option α) (r : α) : Prop := ∃ N, ∀ n, N ≤ n → f n = some r

/-- The loop `f` never ends. -/
def Loops {α : Type} (f : ℕ → Option α) : Prop := ∀ n, f n = none

/-- `std::erf` (called in `psi/legacy/dp_psi/dp_psi_utils.cc:79`). -/
noncomputable def erf (x : ℝ) : ℝ := 2 / √π * ∫ t in (0 : ℝ)..x, exp (-t ^ 2)

/-- `Phi` (`psi/legacy/dp_psi/dp_psi_utils.cc:78-80`). -/
noncomputable def phi (t : ℝ) : ℝ := 0.5 * (1.0 + erf (t / √2.0))

/-- `caseA` (`psi/legacy/dp_psi/dp_psi_utils.cc:82-85`), for an `epsilon` and an `s` that are not negative. -/
noncomputable def caseA (epsilon s : ℝ) : ℝ :=
  phi √(epsilon * s) - exp epsilon * phi (-√(epsilon * (s + 2.0)))

/-- `caseB` (`psi/legacy/dp_psi/dp_psi_utils.cc:87-90`), for an `epsilon` and an `s` that are not negative. -/
noncomputable def caseB (epsilon s : ℝ) : ℝ :=
  phi (-√(epsilon * s)) - exp epsilon * phi (-√(epsilon * (s + 2.0)))

open Classical in
/-- `DoublingTrick` (`psi/legacy/dp_psi/dp_psi_utils.cc:92-100`). -/
noncomputable def doubling (stop : ℝ → Prop) : ℕ → ℝ → ℝ → Option (ℝ × ℝ)
  | 0, _, _ => none
  | k + 1, sInf, sSup => if stop sSup then some (sInf, sSup) else doubling stop k sSup (2.0 * sSup)

open Classical in
/-- `BinarySearch` (`psi/legacy/dp_psi/dp_psi_utils.cc:102-117`). -/
noncomputable def binarySearch (stop left : ℝ → Prop) : ℕ → ℝ → ℝ → Option ℝ
  | 0, _, _ => none
  | k + 1, sInf, sSup =>
    if stop (sInf + (sSup - sInf) / 2.0) then some (sInf + (sSup - sInf) / 2.0)
    else if left (sInf + (sSup - sInf) / 2.0) then binarySearch stop left k sInf (sInf + (sSup - sInf) / 2.0)
    else binarySearch stop left k (sInf + (sSup - sInf) / 2.0) sSup

/-- The two searches one after the other (`psi/legacy/dp_psi/dp_psi_utils.cc:156-166`).  `toDelta` is
`function_s_to_delta`, `stopDT` and `left` are `predicate_stop_DT` and `predicate_left_BS`. -/
noncomputable def search (fuel : ℕ) (toDelta : ℝ → ℝ) (stopDT left : ℝ → Prop) (delta tol : ℝ) : Option ℝ :=
  match doubling stopDT fuel 0.0 1.0 with
  | none => none
  | some (sInf, sSup) => binarySearch (fun s => |toDelta s - delta| ≤ tol) left fuel sInf sSup

open Classical in
/-- The number `alpha` of `CalibrateAnalyticGaussianMechanism`
(`psi/legacy/dp_psi/dp_psi_utils.cc:121-168`). -/
noncomputable def alpha (fuel : ℕ) (epsilon delta tol : ℝ) : Option ℝ :=
  if |delta - caseA epsilon 0.0| < 0.00001 then some 1.0
  else if delta > caseA epsilon 0.0 then
    (search fuel (caseA epsilon) (fun s => caseA epsilon s ≥ delta) (fun s => caseA epsilon s > delta) delta tol).map
      fun s => √(1.0 + s / 2.0) - √(s / 2.0)
  else
    (search fuel (caseB epsilon) (fun s => caseB epsilon s ≤ delta) (fun s => caseB epsilon s < delta) delta tol).map
      fun s => √(1.0 + s / 2.0) + √(s / 2.0)

/-- `CalibrateAnalyticGaussianMechanism` (`psi/legacy/dp_psi/dp_psi_utils.cc:119-173`): the standard deviation of the
noise. -/
noncomputable def calibrate (epsilon delta gs tol : ℝ) (fuel : ℕ) : Option ℝ :=
  (alpha fuel epsilon delta tol).map fun a => a * gs / √(2.0 * epsilon)

/-- `kErrorRate` (`psi/legacy/dp_psi/dp_psi_utils.h:24`). -/
noncomputable def errorRate : ℝ := 1e-12

/-- `kEpsilonPsi` (`psi/legacy/dp_psi/dp_psi_utils.h:23`). -/
noncomputable def epsilonPsi : ℝ := 4

/-- A `double` of `ComputeEpsilon1`: a number, infinity, or no number. -/
inductive Val where
  | num (x : ℝ)
  | inf
  | nan

/-- `ComputePSubKeep` (`psi/legacy/dp_psi/dp_psi_utils.h:30-33`), and the same fraction in `DpPsiOptions`
(`psi/legacy/dp_psi/dp_psi.h:32-36`). -/
noncomputable def pSubKeep (epsilon2 : ℝ) : ℝ := exp epsilon2 / (1 + exp epsilon2)

/-- `m` of `ComputeEpsilon1` (`psi/legacy/dp_psi/dp_psi_utils.cc:67-71`), with `ComputeDelta1`
(`psi/legacy/dp_psi/dp_psi_utils.cc:57-63`), for an `n` that is not zero. -/
noncomputable def sampled (n : ℕ) (epsilon2 : ℝ) : ℝ :=
  n * pSubKeep epsilon2 - √(2 * n * pSubKeep epsilon2 * log (2 / (1 / (10 * n : ℝ))))

open Classical in
/-- `ComputeEpsilon1` (`psi/legacy/dp_psi/dp_psi_utils.cc:65-76`).  With no items `0 * log (2 / (1 / 0))` is no
number; the root of a negative number is no number; a division by zero is infinity. -/
noncomputable def epsilon1 (n : ℕ) (epsilon2 : ℝ) : Val :=
  if n = 0 then .nan
  else if sampled n epsilon2 < 0 then .nan
  else if sampled n epsilon2 = 0 then .inf
  else .num (√(32 * log (4 / (1 / (10 * n : ℝ))) / sampled n epsilon2) *
    (1 - (n * pSubKeep epsilon2 - sampled n epsilon2) / n))

open Classical in
/-- The loop of `ComputeEpsilon2` (`psi/legacy/dp_psi/dp_psi_utils.cc:36-53`) with the bounds it has reached.  A
comparison with no number is false, so the loop breaks. -/
noncomputable def epsilon2Loop (e1 : ℝ → Val) (epsilon : ℝ) : ℕ → ℝ → ℝ → Option ℝ
  | 0, _, _ => none
  | k + 1, lo, hi =>
    match e1 (lo + (hi - lo) / 2) with
    | .nan => some (lo + (hi - lo) / 2)
    | .inf => epsilon2Loop e1 epsilon k lo (lo + (hi - lo) / 2)
    | .num x =>
      if |epsilon - x - (lo + (hi - lo) / 2)| > errorRate then
        if epsilon - x - (lo + (hi - lo) / 2) > 0 then epsilon2Loop e1 epsilon k (lo + (hi - lo) / 2) hi
        else epsilon2Loop e1 epsilon k lo (lo + (hi - lo) / 2)
      else some (lo + (hi - lo) / 2)

/-- `ComputeEpsilon2` (`psi/legacy/dp_psi/dp_psi_utils.cc:26-55`). -/
noncomputable def epsilon2 (n : ℕ) (epsilon : ℝ) (fuel : ℕ) : Option ℝ :=
  epsilon2Loop (epsilon1 n) epsilon fuel 2.5 epsilonPsi

end Psi.DpCalib
