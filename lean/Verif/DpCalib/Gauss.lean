import Verif.DpCalib.Model
import Mathlib.Probability.Distributions.Gaussian.Real
import Mathlib.MeasureTheory.Integral.IntegralEqImproper
import Mathlib.Analysis.Calculus.Deriv.MeanValue

/-! # The Gaussian distribution: `phi` is its distribution function -/

namespace Psi.DpCalib

open Real MeasureTheory ProbabilityTheory Filter Topology Set

theorem erf_hasDerivAt (x : ℝ) : HasDerivAt erf (2 / √π * exp (-x ^ 2)) x := by
  unfold erf
  refine HasDerivAt.const_mul _ ?_
  have hc : Continuous fun t : ℝ => exp (-t ^ 2) := by fun_prop
  exact intervalIntegral.integral_hasDerivAt_right (hc.intervalIntegrable _ _)
    (hc.stronglyMeasurableAtFilter _ _) hc.continuousAt

theorem erf_neg (x : ℝ) : erf (-x) = -erf x := by
  unfold erf
  have h := intervalIntegral.integral_comp_neg (a := 0) (b := x) (fun t : ℝ => exp (-t ^ 2))
  simp only [neg_zero, even_two, Even.neg_pow] at h
  rw [h, intervalIntegral.integral_symm]
  ring

theorem erf_top : Tendsto erf atTop (𝓝 1) := by
  have hi : IntegrableOn (fun x : ℝ => exp (-x ^ 2)) (Ioi 0) := by
    have := (integrable_exp_neg_mul_sq (b := 1) one_pos).integrableOn (s := Ioi 0)
    simpa using this
  have h := intervalIntegral_tendsto_integral_Ioi (0 : ℝ) hi tendsto_id
  have hv : ∫ x in Ioi (0 : ℝ), exp (-x ^ 2) = √π / 2 := by
    have := integral_gaussian_Ioi 1
    simpa using this
  rw [hv] at h
  have h2 := h.const_mul (2 / √π)
  have hp : (0 : ℝ) < √π := Real.sqrt_pos.mpr pi_pos
  have he : 2 / √π * (√π / 2) = 1 := by field_simp
  rw [he] at h2
  exact h2

theorem phi_eq (t : ℝ) : phi t = 1 / 2 * (1 + erf (t / √2)) := by
  unfold phi; norm_num

/-- The density of the standard normal distribution. -/
noncomputable def dens (t : ℝ) : ℝ := (√(2 * π))⁻¹ * exp (-t ^ 2 / 2)

theorem dens_pos (t : ℝ) : 0 < dens t := by
  unfold dens
  have : (0 : ℝ) < √(2 * π) := Real.sqrt_pos.mpr (by positivity)
  positivity

theorem phi_hasDerivAt (t : ℝ) : HasDerivAt phi (dens t) t := by
  have hf : phi = fun t => 1 / 2 * (1 + erf (t / √2)) := funext phi_eq
  rw [hf]
  have h1 : HasDerivAt (fun t : ℝ => t / √2) (1 / √2) t := (hasDerivAt_id t).div_const _
  have h2 := (((erf_hasDerivAt (t / √2)).comp t h1).const_add 1).const_mul (1 / 2)
  refine h2.congr_deriv ?_
  unfold dens
  have e1 : (t / √2) ^ 2 = t ^ 2 / 2 := by rw [div_pow, Real.sq_sqrt (by norm_num)]
  rw [e1, Real.sqrt_mul (by norm_num : (0:ℝ) ≤ 2), neg_div]
  have hp : (0 : ℝ) < √π := Real.sqrt_pos.mpr pi_pos
  have h2 : (0 : ℝ) < √2 := Real.sqrt_pos.mpr (by norm_num)
  field_simp

theorem phi_continuous : Continuous phi :=
  continuous_iff_continuousAt.mpr fun t => (phi_hasDerivAt t).continuousAt

theorem phi_strictMono : StrictMono phi :=
  strictMono_of_deriv_pos fun t => by rw [(phi_hasDerivAt t).deriv]; exact dens_pos t

theorem phi_neg (t : ℝ) : phi (-t) = 1 - phi t := by
  rw [phi_eq, phi_eq, neg_div, erf_neg]; ring

theorem phi_top : Tendsto phi atTop (𝓝 1) := by
  have hf : phi = fun t => 1 / 2 * (1 + erf (t / √2)) := funext phi_eq
  rw [hf]
  have h2 : (0 : ℝ) < √2 := Real.sqrt_pos.mpr (by norm_num)
  have h := ((erf_top.comp (tendsto_id.atTop_div_const h2)).const_add 1).const_mul (1 / 2)
  norm_num at h
  exact h.congr fun t => by simp

theorem phi_bot : Tendsto phi atBot (𝓝 0) := by
  have h := (phi_top.comp tendsto_neg_atBot_atTop).const_sub 1
  simp only [sub_self] at h
  refine h.congr fun t => ?_
  simp [phi_neg]

theorem phi_zero : phi 0 = 1 / 2 := by
  have h := phi_neg 0
  simp at h
  linarith

theorem phi_pos (t : ℝ) : 0 < phi t := by
  have h1 : 0 ≤ phi (t - 1) := phi_strictMono.monotone.le_of_tendsto phi_bot (t - 1)
  exact lt_of_le_of_lt h1 (phi_strictMono (by linarith))

theorem phi_lt_one (t : ℝ) : phi t < 1 := by
  have := phi_pos (-t)
  rw [phi_neg] at this
  linarith

/-- The variance of a standard deviation. -/
noncomputable def var (sigma : ℝ) : NNReal := Real.toNNReal (sigma ^ 2)

theorem var_ne_zero {sigma : ℝ} (h : 0 < sigma) : var sigma ≠ 0 := by
  unfold var
  simp [Real.toNNReal_eq_zero]
  positivity

theorem pdf_eq {sigma : ℝ} (h : 0 < sigma) (mu x : ℝ) :
    gaussianPDFReal mu (var sigma) x = dens ((x - mu) / sigma) * (1 / sigma) := by
  unfold gaussianPDFReal dens var
  rw [Real.coe_toNNReal _ (by positivity), Real.sqrt_mul (by positivity), Real.sqrt_sq h.le, div_pow]
  have hp : (0 : ℝ) < √(2 * π) := Real.sqrt_pos.mpr (by positivity)
  have : -(x - mu) ^ 2 / (2 * sigma ^ 2) = -((x - mu) ^ 2 / sigma ^ 2) / 2 := by field_simp
  rw [this]
  field_simp

theorem gauss_Iic {sigma : ℝ} (h : 0 < sigma) (mu c : ℝ) :
    (gaussianReal mu (var sigma)).real (Iic c) = phi ((c - mu) / sigma) := by
  have hv := var_ne_zero h
  have hint : ∫ x in Iic c, gaussianPDFReal mu (var sigma) x = phi ((c - mu) / sigma) - 0 := by
    refine integral_Iic_of_hasDerivAt_of_tendsto' (f := fun x => phi ((x - mu) / sigma)) (fun x _ => ?_)
      (integrable_gaussianPDFReal mu _).integrableOn ?_
    · rw [pdf_eq h]
      have h1 : HasDerivAt (fun x : ℝ => (x - mu) / sigma) (1 / sigma) x :=
        ((hasDerivAt_id x).sub_const mu).div_const _
      exact (phi_hasDerivAt _).comp x h1
    · refine phi_bot.comp ?_
      exact (tendsto_atBot_add_const_right _ (-mu) tendsto_id).atBot_div_const h
  rw [measureReal_def, gaussianReal_apply_eq_integral mu hv, hint, sub_zero,
    ENNReal.toReal_ofReal (phi_pos _).le]

theorem gauss_eq_integral {sigma : ℝ} (h : 0 < sigma) (mu : ℝ) (S : Set ℝ) :
    (gaussianReal mu (var sigma)).real S = ∫ x in S, gaussianPDFReal mu (var sigma) x := by
  rw [measureReal_def, gaussianReal_apply_eq_integral mu (var_ne_zero h), ENNReal.toReal_ofReal]
  exact integral_nonneg fun x => gaussianPDFReal_nonneg _ _ _

end Psi.DpCalib
