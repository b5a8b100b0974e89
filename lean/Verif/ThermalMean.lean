import Verif.MjLaw
import Verif.LoadProps
import Mathlib.MeasureTheory.Integral.IntervalIntegral.FundThmCalculus
import Mathlib.Analysis.SpecialFunctions.Integrals.Basic

/-!
# C93: drift, isotropy and mean energy of the velocities that the plasma starts with

The three draws of the direction (`uniform2`, src/math/rand.cpp:22-26) are uniform on `[-1, 1]` and independent.
-/

namespace Verif

open MeasureTheory

/-! ## Specification -/

/-- the law of `uniform2` -/
noncomputable def unif2 : Measure ℝ := ENNReal.ofReal (1 / 2) • volume.restrict (Set.Icc (-1 : ℝ) 1)

/-- the law of the three draws -/
noncomputable def cubeLaw : Measure (ℝ × ℝ × ℝ) := unif2.prod (unif2.prod unif2)

/-- the velocity for three draws -/
noncomputable def drawnVelocity (mass energy : ℝ) (r : ℝ × ℝ × ℝ) : V3 := thermalVelocity mass energy ⟨r.1, r.2.1, r.2.2⟩

/-- the kinetic energy of a particle, in electronvolts -/
noncomputable def kineticEV (mass : ℝ) (v : V3) : ℝ := mass * (v.c0 ^ 2 + v.c1 ^ 2 + v.c2 ^ 2) / 2 / EL_CHARGE

/-! ## One draw -/

instance : IsProbabilityMeasure unif2 := ⟨by
  unfold unif2
  rw [Measure.smul_apply, Measure.restrict_apply_univ, Real.volume_Icc, smul_eq_mul, ← ENNReal.ofReal_mul (by norm_num)]
  norm_num⟩

instance : IsProbabilityMeasure cubeLaw := by unfold cubeLaw; infer_instance

theorem unif2_integral (f : ℝ → ℝ) : ∫ r, f r ∂unif2 = 1 / 2 * ∫ r in (-1 : ℝ)..1, f r := by
  unfold unif2
  rw [integral_smul_measure, ENNReal.toReal_ofReal (by norm_num), smul_eq_mul, integral_Icc_eq_integral_Ioc,
    ← intervalIntegral.integral_of_le (by norm_num)]

theorem unif2_odd {f : ℝ → ℝ} (h : ∀ r, f (-r) = -f r) : ∫ r, f r ∂unif2 = 0 := by
  rw [unif2_integral]
  have e := intervalIntegral.integral_comp_neg (a := -1) (b := 1) f
  rw [neg_neg] at e
  simp only [h, intervalIntegral.integral_neg] at e
  linarith

theorem unif2_sq : ∫ r, r ^ 2 ∂unif2 = 1 / 3 := by
  rw [unif2_integral, integral_pow]
  norm_num

theorem unif2_mem : ∀ᵐ r ∂unif2, r ∈ Set.Icc (-1 : ℝ) 1 := by
  unfold unif2
  exact Measure.ae_smul_measure (ae_restrict_mem measurableSet_Icc) _

theorem cube_fst : MeasurePreserving (fun r : ℝ × ℝ × ℝ => r.1) cubeLaw unif2 := measurePreserving_fst
theorem cube_snd : MeasurePreserving (fun r : ℝ × ℝ × ℝ => r.2.1) cubeLaw unif2 :=
  measurePreserving_fst.comp measurePreserving_snd
theorem cube_thd : MeasurePreserving (fun r : ℝ × ℝ × ℝ => r.2.2) cubeLaw unif2 :=
  measurePreserving_snd.comp measurePreserving_snd

theorem cube_comp {π : ℝ × ℝ × ℝ → ℝ} (hπ : MeasurePreserving π cubeLaw unif2) {f : ℝ → ℝ} (hf : Measurable f) :
    ∫ r, f (π r) ∂cubeLaw = ∫ r, f r ∂unif2 := by
  rw [← hπ.map_eq, integral_map hπ.measurable.aemeasurable hf.aestronglyMeasurable]

/-- the velocity along one axis -/
noncomputable def axisVelocity (mass energy r : ℝ) : ℝ :=
  r * (Real.sqrt (2 * EL_CHARGE * energy / mass) * 0.74) * getGammaInv (r * (Real.sqrt (2 * EL_CHARGE * energy / mass) * 0.74) *
    (r * (Real.sqrt (2 * EL_CHARGE * energy / mass) * 0.74)))

theorem getGammaInv_measurable : Measurable getGammaInv := by
  unfold getGammaInv
  fun_prop

theorem axisVelocity_measurable (mass energy : ℝ) : Measurable (axisVelocity mass energy) := by
  unfold axisVelocity
  have := getGammaInv_measurable
  fun_prop

theorem axisVelocity_odd (mass energy r : ℝ) : axisVelocity mass energy (-r) = -axisVelocity mass energy r := by
  unfold axisVelocity
  rw [show -r * (Real.sqrt (2 * EL_CHARGE * energy / mass) * 0.74) = -(r * (Real.sqrt (2 * EL_CHARGE * energy / mass) * 0.74)) by
    ring, neg_mul_neg]
  ring

theorem drawnVelocity_eq (mass energy : ℝ) (r : ℝ × ℝ × ℝ) :
    (drawnVelocity mass energy r).c0 = axisVelocity mass energy r.1 ∧
    (drawnVelocity mass energy r).c1 = axisVelocity mass energy r.2.1 ∧
    (drawnVelocity mass energy r).c2 = axisVelocity mass energy r.2.2 := by
  refine ⟨?_, ?_, ?_⟩ <;> simp only [drawnVelocity, thermalVelocity, axisVelocity, V3.smul] <;> ring_nf

/-- **C93** (no drift). The mean of every component of the velocity is zero. -/
theorem C93_no_drift (mass energy : ℝ) :
    ∫ r, (drawnVelocity mass energy r).c0 ∂cubeLaw = 0 ∧ ∫ r, (drawnVelocity mass energy r).c1 ∂cubeLaw = 0 ∧
    ∫ r, (drawnVelocity mass energy r).c2 ∂cubeLaw = 0 := by
  have hm := axisVelocity_measurable mass energy
  have h0 := unif2_odd (axisVelocity_odd mass energy)
  refine ⟨?_, ?_, ?_⟩
  · simp_rw [fun r => (drawnVelocity_eq mass energy r).1]
    rw [cube_comp cube_fst hm, h0]
  · simp_rw [fun r => (drawnVelocity_eq mass energy r).2.1]
    rw [cube_comp cube_snd hm, h0]
  · simp_rw [fun r => (drawnVelocity_eq mass energy r).2.2]
    rw [cube_comp cube_thd hm, h0]

/-! ## Mean energy for a sampled energy -/

theorem speed_sq {mass energy : ℝ} (hm : 0 < mass) (he : 0 ≤ energy) :
    (Real.sqrt (2 * EL_CHARGE * energy / mass) * 0.74) ^ 2 = 1.0952 * EL_CHARGE * energy / mass := by
  have := EL_CHARGE_pos
  rw [mul_pow, Real.sq_sqrt (by positivity)]
  ring

theorem axis_sq_le {mass energy r : ℝ} (hm : 0 < mass) (he : 0 ≤ energy) :
    axisVelocity mass energy r ^ 2 ≤ 1.0952 * EL_CHARGE * energy / mass * r ^ 2 := by
  unfold axisVelocity
  rw [gammaInv_comp, mul_pow, speed_sq hm he]
  have := EL_CHARGE_pos
  have hc : 0 < LIGHT_SPEED ^ 2 := pow_pos LIGHT_SPEED_pos 2
  have hx : 0 ≤ 1.0952 * EL_CHARGE * energy / mass := by positivity
  obtain ⟨x, hx'⟩ : ∃ x, x = 1.0952 * EL_CHARGE * energy / mass := ⟨_, rfl⟩
  rw [← hx'] at hx ⊢
  rw [div_le_iff₀ (by positivity)]
  have : 0 ≤ (x * r ^ 2) ^ 2 := sq_nonneg _
  nlinarith

theorem axis_sq_ge {mass energy r : ℝ} (hm : 0 < mass) (he : 0 ≤ energy) (hr : r ∈ Set.Icc (-1 : ℝ) 1) :
    1.0952 * EL_CHARGE * energy / mass * (1 - 1.0952 * EL_CHARGE * energy / mass / LIGHT_SPEED ^ 2) * r ^ 2
      ≤ axisVelocity mass energy r ^ 2 := by
  unfold axisVelocity
  rw [gammaInv_comp, mul_pow, speed_sq hm he]
  have := EL_CHARGE_pos
  have hc : 0 < LIGHT_SPEED ^ 2 := pow_pos LIGHT_SPEED_pos 2
  have hx : 0 ≤ 1.0952 * EL_CHARGE * energy / mass := by positivity
  obtain ⟨x, hx'⟩ : ∃ x, x = 1.0952 * EL_CHARGE * energy / mass := ⟨_, rfl⟩
  rw [← hx'] at hx ⊢
  generalize LIGHT_SPEED ^ 2 = C at *
  rw [le_div_iff₀ (by positivity)]
  have hr2 : r ^ 2 ≤ 1 := by nlinarith [hr.1, hr.2]
  have hr0 : 0 ≤ r ^ 2 := sq_nonneg r
  generalize r ^ 2 = q at *
  have e : C * (q * x) - x * (1 - x / C) * q * (C + q * x) = q * x ^ 2 * (1 - q) + q ^ 2 * x ^ 3 / C := by
    field_simp
    ring
  have : 0 ≤ q * x ^ 2 * (1 - q) + q ^ 2 * x ^ 3 / C := by
    have : 0 ≤ 1 - q := by linarith
    positivity
  linarith

theorem kinetic_mean (mass : ℝ) (energy : ℝ) (hm : 0 < mass) (he : 0 ≤ energy) :
    Integrable (fun r => kineticEV mass (drawnVelocity mass energy r)) cubeLaw ∧
    ∫ r, kineticEV mass (drawnVelocity mass energy r) ∂cubeLaw
      = mass * (3 * ∫ r, axisVelocity mass energy r ^ 2 ∂unif2) / 2 / EL_CHARGE := by
  have hmeas : Measurable fun r => axisVelocity mass energy r ^ 2 := (axisVelocity_measurable mass energy).pow_const 2
  have hI : Integrable (fun r => axisVelocity mass energy r ^ 2) unif2 := by
    refine Integrable.of_bound hmeas.aestronglyMeasurable (1.0952 * EL_CHARGE * energy / mass) ?_
    filter_upwards [unif2_mem] with r hr
    have := EL_CHARGE_pos
    rw [Real.norm_eq_abs, abs_of_nonneg (sq_nonneg _)]
    refine (axis_sq_le hm he).trans ?_
    have hx : 0 ≤ 1.0952 * EL_CHARGE * energy / mass := by positivity
    have hr2 : r ^ 2 ≤ 1 := by nlinarith [hr.1, hr.2]
    nlinarith
  have hi : ∀ {π : ℝ × ℝ × ℝ → ℝ}, MeasurePreserving π cubeLaw unif2 →
      Integrable (fun r => axisVelocity mass energy (π r) ^ 2) cubeLaw := fun hπ =>
    hπ.integrable_comp_of_integrable hI
  have e : ∀ r, kineticEV mass (drawnVelocity mass energy r) = mass * ((axisVelocity mass energy r.1 ^ 2 +
      axisVelocity mass energy r.2.1 ^ 2) + axisVelocity mass energy r.2.2 ^ 2) / 2 / EL_CHARGE := by
    intro r
    obtain ⟨a, b, c⟩ := drawnVelocity_eq mass energy r
    rw [kineticEV, a, b, c]
  constructor
  · simp_rw [e]
    exact (((((hi cube_fst).add (hi cube_snd)).add (hi cube_thd)).const_mul mass).div_const 2).div_const EL_CHARGE
  · simp_rw [e]
    have h12 : Integrable (fun r : ℝ × ℝ × ℝ => axisVelocity mass energy r.1 ^ 2 + axisVelocity mass energy r.2.1 ^ 2) cubeLaw :=
      (hi cube_fst).add (hi cube_snd)
    rw [integral_div, integral_div, integral_const_mul, integral_add h12 (hi cube_thd),
      integral_add (hi cube_fst) (hi cube_snd), cube_comp cube_fst hmeas, cube_comp cube_snd hmeas, cube_comp cube_thd hmeas]
    ring

/-- **C93** (part of the energy). A macroparticle gets, in the mean over the directions, 0.5476 of the sampled energy at most, and
not less but for a relativistic correction. -/
theorem C93_kinetic (mass energy : ℝ) (hm : 0 < mass) (he : 0 ≤ energy) :
    0.5476 * energy * (1 - 1.0952 * EL_CHARGE * energy / mass / LIGHT_SPEED ^ 2)
        ≤ ∫ r, kineticEV mass (drawnVelocity mass energy r) ∂cubeLaw ∧
    ∫ r, kineticEV mass (drawnVelocity mass energy r) ∂cubeLaw ≤ 0.5476 * energy := by
  have hE := EL_CHARGE_pos
  rw [(kinetic_mean mass energy hm he).2]
  have hsq : Integrable (fun r : ℝ => r ^ 2) unif2 := by
    refine Integrable.of_bound (by fun_prop) 1 ?_
    filter_upwards [unif2_mem] with r hr
    rw [Real.norm_eq_abs, abs_of_nonneg (sq_nonneg _)]
    nlinarith [hr.1, hr.2]
  have hmeas : Measurable fun r => axisVelocity mass energy r ^ 2 := (axisVelocity_measurable mass energy).pow_const 2
  have hI : Integrable (fun r => axisVelocity mass energy r ^ 2) unif2 := by
    refine Integrable.mono' (hsq.const_mul (1.0952 * EL_CHARGE * energy / mass)) hmeas.aestronglyMeasurable ?_
    filter_upwards with r
    rw [Real.norm_eq_abs, abs_of_nonneg (sq_nonneg _)]
    exact axis_sq_le hm he
  have up : ∫ r, axisVelocity mass energy r ^ 2 ∂unif2 ≤ 1.0952 * EL_CHARGE * energy / mass * (1 / 3) := by
    rw [← unif2_sq, ← integral_const_mul]
    exact integral_mono hI (hsq.const_mul _) fun r => axis_sq_le hm he
  have low : 1.0952 * EL_CHARGE * energy / mass * (1 - 1.0952 * EL_CHARGE * energy / mass / LIGHT_SPEED ^ 2) * (1 / 3)
      ≤ ∫ r, axisVelocity mass energy r ^ 2 ∂unif2 := by
    rw [← unif2_sq, ← integral_const_mul]
    refine integral_mono_ae (hsq.const_mul _) hI ?_
    filter_upwards [unif2_mem] with r hr
    exact axis_sq_ge hm he hr
  generalize (∫ r, axisVelocity mass energy r ^ 2 ∂unif2) = I at *
  generalize LIGHT_SPEED ^ 2 = C at *
  constructor
  · rw [le_div_iff₀ hE, le_div_iff₀ (by norm_num)]
    calc _ = mass * (3 * (1.0952 * EL_CHARGE * energy / mass * (1 - 1.0952 * EL_CHARGE * energy / mass / C) * (1 / 3))) := by
          field_simp; ring
      _ ≤ _ := by gcongr
  · rw [div_le_iff₀ hE, div_le_iff₀ (by norm_num)]
    calc _ ≤ mass * (3 * (1.0952 * EL_CHARGE * energy / mass * (1 / 3))) := by gcongr
      _ = _ := by field_simp; ring

/-- **C93** (violated). The velocities are not the same in all directions: along an axis no velocity is above 0.74 times the
speed of the sampled energy, along the diagonal of the three axes some are 1.4 times faster than that. -/
theorem C93_isotropy_violated (mass energy : ℝ) (hm : 0 < mass) (he : 0 < energy)
    (hsmall : EL_CHARGE * energy ≤ mass * LIGHT_SPEED ^ 2 / 100) :
    let s := Real.sqrt (2 * EL_CHARGE * energy / mass) * 0.74
    cubeLaw {r | s < (drawnVelocity mass energy r).c2} = 0 ∧
    0 < cubeLaw {r | 1.4 * s < ((drawnVelocity mass energy r).c0 + (drawnVelocity mass energy r).c1
      + (drawnVelocity mass energy r).c2) / Real.sqrt 3} := by
  intro s
  have hE := EL_CHARGE_pos
  have hs2 : s ^ 2 = 1.0952 * EL_CHARGE * energy / mass := speed_sq hm he.le
  have hs : 0 < s := by
    have : 0 < Real.sqrt (2 * EL_CHARGE * energy / mass) := Real.sqrt_pos.2 (by positivity)
    positivity
  have hc : 0 < LIGHT_SPEED ^ 2 := pow_pos LIGHT_SPEED_pos 2
  have hle : ∀ r ∈ Set.Icc (-1 : ℝ) 1, axisVelocity mass energy r ≤ s := by
    intro r hr
    have := axis_sq_le (r := r) hm he.le
    rw [← hs2] at this
    have hr2 : r ^ 2 ≤ 1 := by nlinarith [hr.1, hr.2]
    by_contra hc
    have hc := not_le.1 hc
    nlinarith
  have hge : ∀ r ∈ Set.Ioo (0.9 : ℝ) 1, 0.85 * s ≤ axisVelocity mass energy r := by
    intro r hr
    have h1 := axis_sq_ge (r := r) hm he.le ⟨by linarith [hr.1], hr.2.le⟩
    have hq : 1.0952 * EL_CHARGE * energy / mass / LIGHT_SPEED ^ 2 ≤ 0.011 := by
      rw [div_div, div_le_iff₀ (by positivity)]
      nlinarith
    rw [← hs2] at h1 hq
    have hr0 := hr.1
    have hr2 : 0.81 ≤ r ^ 2 := by norm_num at hr0 ⊢; nlinarith
    have hpos : 0 ≤ axisVelocity mass energy r := by
      unfold axisVelocity
      have h2 : 0 ≤ getGammaInv (r * s * (r * s)) := by
        unfold getGammaInv
        apply Real.rpow_nonneg
        have : 0 ≤ r * s * (r * s) := mul_self_nonneg _
        rw [LIGHT_SPEED_POW_2]
        positivity
      have : 0 ≤ r := by norm_num at hr0; linarith
      positivity
    by_contra hcc
    have hcc := not_le.1 hcc
    have h3 : axisVelocity mass energy r ^ 2 < (0.85 * s) ^ 2 := by gcongr
    have h4 : s ^ 2 * 0.989 * 0.81 ≤ s ^ 2 * (1 - s ^ 2 / LIGHT_SPEED ^ 2) * r ^ 2 := by
      have : (0.989 : ℝ) ≤ 1 - s ^ 2 / LIGHT_SPEED ^ 2 := by norm_num at hq ⊢; linarith
      gcongr
    have : 0 < s ^ 2 := by positivity
    norm_num at h3 h4
    nlinarith
  constructor
  · have : ∀ᵐ r ∂cubeLaw, ¬ s < (drawnVelocity mass energy r).c2 := by
      filter_upwards [cube_thd.quasiMeasurePreserving.ae unif2_mem] with r hr
      rw [(drawnVelocity_eq mass energy r).2.2, not_lt]
      exact hle _ hr
    simpa [ae_iff] using this
  · have hbox : Set.Ioo (0.9 : ℝ) 1 ×ˢ (Set.Ioo (0.9 : ℝ) 1 ×ˢ Set.Ioo (0.9 : ℝ) 1) ⊆ {r | 1.4 * s < ((drawnVelocity mass energy r).c0
        + (drawnVelocity mass energy r).c1 + (drawnVelocity mass energy r).c2) / Real.sqrt 3} := by
      rintro r ⟨h1, h2, h3⟩
      obtain ⟨a, b, c⟩ := drawnVelocity_eq mass energy r
      change 1.4 * s < _
      rw [a, b, c, lt_div_iff₀ (by positivity)]
      have := hge _ h1
      have := hge _ h2
      have := hge _ h3
      have h3 : Real.sqrt 3 ≤ 1.74 := by
        rw [Real.sqrt_le_left (by norm_num)]; norm_num
      have : 1.4 * s * Real.sqrt 3 ≤ 1.4 * s * 1.74 := by gcongr
      norm_num at *
      linarith
    refine lt_of_lt_of_le ?_ (measure_mono hbox)
    have hone : 0 < unif2 (Set.Ioo (0.9 : ℝ) 1) := by
      unfold unif2
      rw [Measure.smul_apply, Measure.restrict_apply measurableSet_Ioo, smul_eq_mul,
        Set.inter_eq_left.2 (show Set.Ioo (0.9 : ℝ) 1 ⊆ Set.Icc (-1) 1 from fun x hx =>
          ⟨by have := hx.1; norm_num at this; linarith, hx.2.le⟩), Real.volume_Ioo]
      apply ENNReal.mul_pos <;> norm_num
    unfold cubeLaw
    rw [Measure.prod_prod, Measure.prod_prod]
    exact ENNReal.mul_pos hone.ne' (ENNReal.mul_pos hone.ne' hone.ne').ne'

/-- Not vacuous: an electron with one electronvolt. -/
example : EL_CHARGE * 1 ≤ EL_MASS * LIGHT_SPEED ^ 2 / 100 := by
  unfold EL_CHARGE EL_MASS LIGHT_SPEED; norm_num

end Verif
