import Verif.DpCalib.Gauss

/-! # What noise of a given width hides -/

namespace Psi.DpCalib

open Real MeasureTheory ProbabilityTheory Filter Topology Set

/-- Normal noise of standard deviation `sigma` hides a change of at most `gs` with the budget `(epsilon, delta)`:
whatever set of outcomes is watched, it is hardly more likely with the value `mu` than with the value `mu'`. -/
def Private (epsilon delta gs sigma : ℝ) : Prop :=
  ∀ mu mu' : ℝ, |mu - mu'| ≤ gs → ∀ S : Set ℝ, MeasurableSet S →
    (gaussianReal mu (Real.toNNReal (sigma ^ 2))).real S
      ≤ exp epsilon * (gaussianReal mu' (Real.toNNReal (sigma ^ 2))).real S + delta

/-- The least `delta` of a shift by `d`. -/
noncomputable def loss (epsilon sigma d : ℝ) : ℝ :=
  phi (d / (2 * sigma) - epsilon * sigma / d) - exp epsilon * phi (-(d / (2 * sigma)) - epsilon * sigma / d)

theorem dens_shift {epsilon sigma d : ℝ} (hs : 0 < sigma) (hd : 0 < d) :
    dens (d / (2 * sigma) - epsilon * sigma / d)
      = exp epsilon * dens (-(d / (2 * sigma)) - epsilon * sigma / d) := by
  unfold dens
  have h : -(d / (2 * sigma) - epsilon * sigma / d) ^ 2 / 2
      = epsilon + -(-(d / (2 * sigma)) - epsilon * sigma / d) ^ 2 / 2 := by
    field_simp
    ring
  rw [h, exp_add]
  ring

theorem loss_hasDerivAt {epsilon sigma d : ℝ} (hs : 0 < sigma) (hd : 0 < d) :
    HasDerivAt (loss epsilon sigma) (dens (d / (2 * sigma) - epsilon * sigma / d) / sigma) d := by
  have h1 : HasDerivAt (fun d : ℝ => d / (2 * sigma)) (1 / (2 * sigma)) d := (hasDerivAt_id d).div_const _
  have h2 : HasDerivAt (fun d : ℝ => epsilon * sigma / d) (epsilon * sigma * (-(d ^ 2)⁻¹)) d := by
    have := (hasDerivAt_inv hd.ne').const_mul (epsilon * sigma)
    simpa [div_eq_mul_inv] using this
  have h3 := (phi_hasDerivAt _).comp d (h1.sub h2)
  have h4 := ((phi_hasDerivAt _).comp d (h1.neg.sub h2)).const_mul (exp epsilon)
  have h5 := h3.sub h4
  refine h5.congr_deriv ?_
  show dens (d / (2 * sigma) - epsilon * sigma / d) * _
    - exp epsilon * (dens (-(d / (2 * sigma)) - epsilon * sigma / d) * _) = _
  rw [← mul_assoc, ← dens_shift hs hd]
  field_simp
  ring

theorem loss_mono {epsilon sigma d d' : ℝ} (hs : 0 < sigma) (hd : 0 < d) (h : d ≤ d') :
    loss epsilon sigma d ≤ loss epsilon sigma d' := by
  have hm : MonotoneOn (loss epsilon sigma) (Ioi 0) := by
    refine monotoneOn_of_deriv_nonneg (convex_Ioi 0) ?_ ?_ ?_
    · exact fun x hx => (loss_hasDerivAt hs hx).continuousAt.continuousWithinAt
    · exact fun x hx => (loss_hasDerivAt hs (by simpa using hx)).differentiableAt.differentiableWithinAt
    · intro x hx
      rw [(loss_hasDerivAt hs (by simpa using hx)).deriv]
      exact div_nonneg (dens_pos _).le hs.le
  exact hm hd (lt_of_lt_of_le hd h) h

/-- Watching the half line up to `mu + d / 2 - epsilon * sigma ^ 2 / d` shows the most. -/
theorem half_line {epsilon sigma d : ℝ} (hs : 0 < sigma) (hd : 0 < d) (mu : ℝ) :
    (gaussianReal mu (var sigma)).real (Iic (mu + d / 2 - epsilon * sigma ^ 2 / d))
      - exp epsilon * (gaussianReal (mu + d) (var sigma)).real (Iic (mu + d / 2 - epsilon * sigma ^ 2 / d))
      = loss epsilon sigma d := by
  rw [gauss_Iic hs, gauss_Iic hs]
  unfold loss
  congr 2
  · congr 1; field_simp; ring
  · congr 1; field_simp; ring

theorem pdf_ratio {epsilon sigma d : ℝ} (hs : 0 < sigma) (hd : 0 < d) (mu x : ℝ) :
    0 ≤ gaussianPDFReal mu (var sigma) x - exp epsilon * gaussianPDFReal (mu + d) (var sigma) x
      ↔ x ≤ mu + d / 2 - epsilon * sigma ^ 2 / d := by
  rw [pdf_eq hs, pdf_eq hs, ← mul_assoc, ← sub_mul]
  have hs1 : 0 < 1 / sigma := by positivity
  rw [mul_nonneg_iff_of_pos_right hs1]
  unfold dens
  have hp : (0 : ℝ) < (√(2 * π))⁻¹ := inv_pos.mpr (Real.sqrt_pos.mpr (by positivity))
  have e : (√(2 * π))⁻¹ * exp (-((x - mu) / sigma) ^ 2 / 2)
        - exp epsilon * ((√(2 * π))⁻¹ * exp (-((x - (mu + d)) / sigma) ^ 2 / 2))
      = (√(2 * π))⁻¹ * (exp (-((x - mu) / sigma) ^ 2 / 2)
          - exp (epsilon + -((x - (mu + d)) / sigma) ^ 2 / 2)) := by
    rw [exp_add]; ring
  rw [e, mul_nonneg_iff_of_pos_left hp, sub_nonneg, exp_le_exp]
  have key : -((x - mu) / sigma) ^ 2 / 2 - (epsilon + -((x - (mu + d)) / sigma) ^ 2 / 2)
      = d / sigma ^ 2 * (mu + d / 2 - epsilon * sigma ^ 2 / d - x) := by
    field_simp
    ring
  have hk : 0 < d / sigma ^ 2 := by positivity
  rw [← sub_nonneg, key, mul_nonneg_iff_of_pos_left hk, sub_nonneg]

theorem shift_right {epsilon sigma d : ℝ} (hs : 0 < sigma) (hd : 0 < d) (mu : ℝ) {S : Set ℝ}
    (hS : MeasurableSet S) :
    (gaussianReal mu (var sigma)).real S
      ≤ exp epsilon * (gaussianReal (mu + d) (var sigma)).real S + loss epsilon sigma d := by
  have i1 : Integrable (gaussianPDFReal mu (var sigma)) := integrable_gaussianPDFReal _ _
  have i2 : Integrable fun x => exp epsilon * gaussianPDFReal (mu + d) (var sigma) x :=
    (integrable_gaussianPDFReal _ _).const_mul _
  have hset : {y | 0 ≤ gaussianPDFReal mu (var sigma) y
      - exp epsilon * gaussianPDFReal (mu + d) (var sigma) y}
      = Iic (mu + d / 2 - epsilon * sigma ^ 2 / d) := by
    ext x
    exact pdf_ratio hs hd mu x
  have h := setIntegral_le_nonneg (μ := volume) (s := S)
    (f := fun y => gaussianPDFReal mu (var sigma) y - exp epsilon * gaussianPDFReal (mu + d) (var sigma) y) hS
    ((stronglyMeasurable_gaussianPDFReal _ _).sub ((stronglyMeasurable_gaussianPDFReal _ _).const_mul _))
    (i1.sub i2)
  rw [hset, integral_sub i1.integrableOn i2.integrableOn, integral_sub i1.integrableOn i2.integrableOn,
    integral_const_mul, integral_const_mul, ← gauss_eq_integral hs, ← gauss_eq_integral hs,
    ← gauss_eq_integral hs, ← gauss_eq_integral hs, half_line hs hd] at h
  linarith

theorem reflect {sigma : ℝ} (mu : ℝ) {S : Set ℝ} (hS : MeasurableSet S) :
    (gaussianReal (-mu) (var sigma)).real S = (gaussianReal mu (var sigma)).real ((fun x => -x) ⁻¹' S) := by
  rw [← gaussianReal_map_neg, measureReal_def, measureReal_def, Measure.map_apply measurable_neg hS]

theorem private_of_loss {epsilon delta gs sigma : ℝ} (he : 0 ≤ epsilon) (hs : 0 < sigma)
    (hd : 0 ≤ delta) (h : loss epsilon sigma gs ≤ delta) : Private epsilon delta gs sigma := by
  intro mu mu' hmu S hS
  show (gaussianReal mu (var sigma)).real S ≤ exp epsilon * (gaussianReal mu' (var sigma)).real S + delta
  rcases lt_trichotomy mu mu' with hlt | heq | hgt
  · have h0 : 0 < mu' - mu := by linarith
    have h1 := shift_right (epsilon := epsilon) hs h0 mu hS
    have h2 : mu' - mu ≤ gs := by rw [abs_sub_comm, abs_of_pos h0] at hmu; exact hmu
    have h3 := loss_mono (epsilon := epsilon) hs h0 h2
    rw [show mu + (mu' - mu) = mu' by ring] at h1
    linarith
  · subst heq
    have h1 : (1 : ℝ) ≤ exp epsilon := Real.one_le_exp he
    have h2 : 0 ≤ (gaussianReal mu (var sigma)).real S := measureReal_nonneg
    nlinarith
  · have h0 : 0 < mu - mu' := by linarith
    have hS' : MeasurableSet ((fun x : ℝ => -x) ⁻¹' S) := measurable_neg hS
    have h1 := shift_right (epsilon := epsilon) hs h0 (-mu) hS'
    rw [show -mu + (mu - mu') = -mu' by ring, reflect mu hS', reflect mu' hS'] at h1
    have hpre : (fun x : ℝ => -x) ⁻¹' ((fun x : ℝ => -x) ⁻¹' S) = S := by
      ext x; simp
    rw [hpre] at h1
    have h2 : mu - mu' ≤ gs := by rw [abs_of_pos h0] at hmu; exact hmu
    have h3 := loss_mono (epsilon := epsilon) hs h0 h2
    linarith

theorem loss_of_private {epsilon delta gs sigma : ℝ} (hs : 0 < sigma) (hg : 0 < gs)
    (h : Private epsilon delta gs sigma) : loss epsilon sigma gs ≤ delta := by
  have h1 := h 0 (0 + gs) (by simp [abs_of_pos hg]) (Iic (0 + gs / 2 - epsilon * sigma ^ 2 / gs)) measurableSet_Iic
  have h2 := half_line (epsilon := epsilon) hs hg 0
  have h1' : (gaussianReal 0 (var sigma)).real (Iic (0 + gs / 2 - epsilon * sigma ^ 2 / gs))
    ≤ exp epsilon * (gaussianReal (0 + gs) (var sigma)).real (Iic (0 + gs / 2 - epsilon * sigma ^ 2 / gs)) + delta := h1
  linarith

end Psi.DpCalib
