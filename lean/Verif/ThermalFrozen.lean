import Verif.ThermalCold
import Verif.ClassicLaw

/-!
# C93: the mean thermal energy below a tenth of an electronvolt
-/

namespace Verif

open MeasureTheory

/-! ## Specification -/

/-- `en` gives the energy that the sampler stores for the draw, for all draws but some of probability zero -/
def ClassicEnergy (T : ℝ) (μ : Measure ℝ) (en : ℝ → ℝ) : Prop := ∀ᵐ u ∂μ, ∃ v, Sample T [(u, v)] (some (en u))

/-- the mean kinetic energy of a macroparticle in electronvolts, for energies from one draw and uniform directions -/
noncomputable def meanKineticClassic (mass : ℝ) (μ : Measure ℝ) (en : ℝ → ℝ) : ENNReal :=
  ∫⁻ u, ENNReal.ofReal (∫ r, kineticEV mass (drawnVelocity mass (en u) r) ∂cubeLaw) ∂μ

/-! ## The tail -/

theorem maxwellTail_le {y : ℝ} (hy : 0 ≤ y) : maxwellTail y ≤ 0.5643 * (y + 2) * Real.exp (-y) := by
  obtain ⟨hp1, -⟩ := half_sqrt_pi
  have hC0 : 0 < Real.sqrt Real.pi / 2 := lt_of_lt_of_le (by norm_num) hp1
  have hint : IntegrableOn (fun s : ℝ => Real.sqrt s * Real.exp (-s)) (Set.Ioi 0) := by
    by_contra h
    have := integral_undef h
    rw [maxwell_norm] at this
    linarith
  obtain ⟨hi, hv⟩ := poly_tail (a := 0) (b := 1 / 2) (c := 1 / 2) y (fun g hg => by
    have hg : y < g := hg
    nlinarith)
  have hle : ∫ s in Set.Ioi y, Real.sqrt s * Real.exp (-s) ≤ (y / 2 + 1) * Real.exp (-y) := by
    refine (setIntegral_mono_on (hint.mono_set (Set.Ioi_subset_Ioi hy)) hi measurableSet_Ioi ?_).trans (le_of_eq ?_)
    · intro s hs
      have hs : y < s := hs
      have h1 := Real.sq_sqrt (show 0 ≤ s by linarith)
      gcongr
      nlinarith [sq_nonneg (Real.sqrt s - 1)]
    · rw [hv]; ring
  unfold maxwellTail
  rw [maxwell_norm, div_le_iff₀ hC0]
  refine hle.trans ?_
  have hq : 0 ≤ (y + 2) * Real.exp (-y) := by positivity
  norm_num at hp1 ⊢
  nlinarith

/-! ## The energy as a function of the draw -/

/-- the energy for a draw that does not fault -/
noncomputable def classicEnergyOf (T u : ℝ) : ℝ :=
  if u = 0 then T * (3 * Real.sqrt Real.pi / 4 * 0)
  else if 2 < lnln u then T * (3 * Real.sqrt Real.pi / 4 * u ^ ((2 : ℝ) / 3))
  else if lnln u < -19 then T * 1
  else T * Real.exp (interp lnInvF ((lnln u + 19) * (999 / (2 + 19))))

theorem lnln_measurable : Measurable lnln := by unfold lnln; fun_prop

theorem classicEnergyOf_measurable (T : ℝ) : Measurable (classicEnergyOf T) := by
  have hl := lnln_measurable
  have hi : Measurable fun u => interp lnInvF ((lnln u + 19) * (999 / (2 + 19))) :=
    (interp_measurable lnInvF).comp ((hl.add_const 19).mul_const _)
  unfold classicEnergyOf
  refine Measurable.ite (measurableSet_singleton 0) measurable_const ?_
  refine Measurable.ite (measurableSet_lt measurable_const hl) (by fun_prop) ?_
  exact Measurable.ite (measurableSet_lt hl measurable_const) measurable_const ((Real.measurable_exp.comp hi).const_mul T)

theorem classicEnergyOf_eq {T u e : ℝ} (hu : UniformDraw u) (h : sampleClassic T u = some e) : classicEnergyOf T u = e := by
  unfold classicEnergyOf
  by_cases h0 : u = 0
  · rw [if_pos h0]
    unfold sampleClassic at h
    rw [if_pos h0] at h
    exact Option.some.inj h
  rw [if_neg h0]
  have hu0 : 0 < u := lt_of_le_of_ne hu.1 (Ne.symm h0)
  by_cases h2 : 2 < lnln u
  · rw [if_pos h2]
    rw [sampleClassic_low hu0 h2] at h
    exact Option.some.inj h
  rw [if_neg h2]
  by_cases h19 : lnln u < -19
  · rw [if_pos h19]
    rw [sampleClassic_high hu0 h19] at h
    exact Option.some.inj h
  rw [if_neg h19]
  have hu1 : u < 1 := by have := hu.2; norm_num at this ⊢; linarith
  rcases (not_lt.1 h2).lt_or_eq with hlt | heq
  · rw [sampleClassic_mid hu0 (not_lt.1 h19) hlt] at h
    exact Option.some.inj h
  · exfalso
    have : u = lowDraw := by
      unfold lowDraw
      rw [← heq]
      unfold lnln
      rw [Real.exp_log (neg_log_pos hu0 hu1), neg_neg, Real.exp_log hu0]
    rw [this] at h
    unfold lowDraw at h
    rw [(C60_table_end_violated T).2.2] at h
    cases h

/-! ## The mean -/

theorem frozen_mean {T : ℝ} (h1 : 0 < T) (h2 : T < 0.1) {μ : Measure ℝ} [IsProbabilityMeasure μ] (hμ : ∀ᵐ u ∂μ, UniformDraw u)
    (hμ' : NearUniform μ) {en : ℝ → ℝ} (hen : ClassicEnergy T μ en) :
    ∫⁻ u, ENNReal.ofReal (max (en u) 0) ∂μ ≤ ENNReal.ofReal (1.735 * T) := by
  have hs : ∀ᵐ u ∂μ, UniformDraw u ∧ sampleClassic T u = some (en u) := by
    filter_upwards [hμ, hen] with u hu he
    obtain ⟨v, hv⟩ := he
    exact ⟨hu, (sample_classic h2 u v _).1 hv⟩
  have hae : AEMeasurable en μ := by
    refine ⟨classicEnergyOf T, classicEnergyOf_measurable T, ?_⟩
    filter_upwards [hs] with u hu
    exact (classicEnergyOf_eq hu.1 hu.2).symm
  rw [lintegral_eq_lintegral_meas_lt (f := fun u => max (en u) 0) _ (Filter.Eventually.of_forall fun u => le_max_right _ _)
    (hae.max aemeasurable_const)]
  have hfun : ∀ t ∈ Set.Ioi (0 : ℝ), μ {u | t < max (en u) 0} ≤
      ENNReal.ofReal ((Set.Ioc 0 (20.7 * T)).indicator (fun t => 0.5643 * (t / T + 2) * Real.exp (-(t / T)) + 0.002) t) := by
    intro t ht
    have ht : 0 < t := ht
    rcases le_or_gt t (20.7 * T) with h | h
    · rw [Set.indicator_of_mem (show t ∈ Set.Ioc 0 (20.7 * T) from ⟨ht, h⟩)]
      have hle : μ {u | t < max (en u) 0} ≤ μ {u | ∃ e v, Sample T [(u, v)] (some e) ∧ t < e} := by
        apply measure_mono_ae
        filter_upwards [hen] with u he hu
        obtain ⟨v, hv⟩ := he
        refine ⟨en u, v, hv, ?_⟩
        rcases lt_max_iff.1 (show t < max (en u) 0 from hu) with h | h
        · exact h
        · linarith
      refine hle.trans ?_
      rw [← ENNReal.ofReal_toReal (measure_ne_top μ _), ← measureReal_def]
      apply ENNReal.ofReal_le_ofReal
      have := (abs_le.1 (C92_classic_law T h1 h2 μ hμ hμ' t ht.le)).2
      have := maxwellTail_le (y := t / T) (by positivity)
      linarith
    · rw [Set.indicator_of_notMem (fun h' => absurd h'.2 (not_le.2 h)), ENNReal.ofReal_zero]
      refine le_of_eq ?_
      have hz : ∀ᵐ u ∂μ, ¬ t < max (en u) 0 := by
        filter_upwards [hs] with u hu
        have hu1 : u < 1 := by have := hu.1.2; norm_num at this ⊢; linarith
        have hne : u ≠ Real.exp (-Real.exp 2) := by
          intro he
          have := hu.2
          rw [he, (C60_table_end_violated T).2.2] at this
          cases this
        obtain ⟨e, he, -, hle⟩ := C60_classic_partial T u h1.le hu.1.1 hu1 hne
        rw [hu.2] at he
        rw [Option.some.inj he, not_lt]
        exact max_le (hle.trans h.le) ht.le
      rw [ae_iff] at hz
      simpa only [not_not] using hz
  refine (setLIntegral_mono' measurableSet_Ioi hfun).trans ?_
  have c1 : Continuous fun t : ℝ => 0.5643 * (t / T + 2) * Real.exp (-(t / T)) + 0.002 := by fun_prop
  have i1 : Integrable ((Set.Ioc (0 : ℝ) (20.7 * T)).indicator fun t => 0.5643 * (t / T + 2) * Real.exp (-(t / T)) + 0.002) volume :=
    (integrable_indicator_iff measurableSet_Ioc).2 (c1.continuousOn.integrableOn_Icc.mono_set Set.Ioc_subset_Icc_self)
  have hnn : ∀ t, 0 ≤ (Set.Ioc (0 : ℝ) (20.7 * T)).indicator (fun t => 0.5643 * (t / T + 2) * Real.exp (-(t / T)) + 0.002) t :=
    fun t => Set.indicator_nonneg (fun t ht => by have := ht.1; positivity) _
  rw [← ofReal_integral_eq_lintegral_ofReal i1.integrableOn (Filter.Eventually.of_forall hnn)]
  apply ENNReal.ofReal_le_ofReal
  refine (setIntegral_le_integral i1 (Filter.Eventually.of_forall hnn)).trans ?_
  rw [integral_indicator measurableSet_Ioc, ← intervalIntegral.integral_of_le (by positivity)]
  have v1 : ∫ t in (0 : ℝ)..(20.7 * T), (0.5643 * (t / T + 2) * Real.exp (-(t / T)) + 0.002)
      = (fun t : ℝ => -(0.5643 * T * ((t / T + 3) * Real.exp (-(t / T)))) + 0.002 * t) (20.7 * T)
        - (fun t : ℝ => -(0.5643 * T * ((t / T + 3) * Real.exp (-(t / T)))) + 0.002 * t) 0 := by
    refine intervalIntegral.integral_eq_sub_of_hasDerivAt
      (f := fun t : ℝ => -(0.5643 * T * ((t / T + 3) * Real.exp (-(t / T)))) + 0.002 * t) (fun t _ => ?_) (c1.intervalIntegrable _ _)
    have d0 : HasDerivAt (fun t : ℝ => t / T) (1 / T) t := (hasDerivAt_id t).div_const T
    refine ((((d0.add_const 3).mul d0.neg.exp).const_mul (0.5643 * T)).neg.add ((hasDerivAt_id t).const_mul 0.002)).congr_deriv ?_
    simp only [Pi.neg_apply]
    field_simp
    ring
  rw [v1]
  have p1 := Real.exp_pos (-(20.7 * T / T))
  have p2 : 0 ≤ 0.5643 * T * ((20.7 * T / T + 3) * Real.exp (-(20.7 * T / T))) := by positivity
  simp only [zero_div, neg_zero, Real.exp_zero]
  norm_num at p2 ⊢
  linarith

/-- **C93** (violated). Below a tenth of an electronvolt the plasma starts too cold: the mean kinetic energy of its particles is
less than the temperature and not one and a half of it. -/
theorem C93_frozen_violated (T mass : ℝ) (h1 : 0 < T) (h2 : T < 0.1) (hm : 0 < mass) (μ : Measure ℝ) [IsProbabilityMeasure μ]
    (hμ : ∀ᵐ u ∂μ, UniformDraw u) (hμ' : NearUniform μ) (en : ℝ → ℝ) (hen : ClassicEnergy T μ en) :
    meanKineticClassic mass μ en ≤ ENNReal.ofReal (0.96 * T) := by
  unfold meanKineticClassic
  have hpt : ∀ u, ENNReal.ofReal (∫ r, kineticEV mass (drawnVelocity mass (en u) r) ∂cubeLaw)
      ≤ ENNReal.ofReal 0.5476 * ENNReal.ofReal (max (en u) 0) := by
    intro u
    rw [← ENNReal.ofReal_mul (by norm_num)]
    apply ENNReal.ofReal_le_ofReal
    rcases le_or_gt (en u) 0 with h | h
    · rw [kinetic_neg hm h]
      positivity
    · rw [max_eq_left h.le]
      exact (C93_kinetic mass _ hm h.le).2
  refine (lintegral_mono hpt).trans ?_
  rw [lintegral_const_mul' _ _ ENNReal.ofReal_ne_top]
  refine (mul_le_mul_right (frozen_mean h1 h2 hμ hμ' hen) _).trans ?_
  rw [← ENNReal.ofReal_mul (by norm_num)]
  apply ENNReal.ofReal_le_ofReal
  norm_num
  linarith

/-- Not vacuous: protons at a twentieth of an electronvolt. -/
example : ∃ en, ClassicEnergy 0.05 unifDouble en ∧
    meanKineticClassic (1836 * EL_MASS) unifDouble en ≤ ENNReal.ofReal (0.96 * 0.05) := by
  have hen : ClassicEnergy 0.05 unifDouble (classicEnergyOf 0.05) := by
    have hne : ∀ᵐ u ∂unifDouble, u ≠ lowDraw := by
      refine (ae_map_iff (by fun_prop) ((measurableSet_singleton lowDraw).compl)).2 ?_
      refine ae_restrict_of_ae ?_
      rw [ae_iff]
      refine measure_mono_null (t := {lowDraw / (1 - 1 / 2 ^ 53)}) (fun u hu => ?_) (by simp)
      have hu : u * (1 - 1 / 2 ^ 53) = lowDraw := not_not.1 hu
      rw [Set.mem_singleton_iff, eq_div_iff (by norm_num), hu]
    filter_upwards [unifDouble_draw, hne] with u hu hn
    have hu1 : u < 1 := by have := hu.2; norm_num at this ⊢; linarith
    obtain ⟨e, he, -⟩ := C60_classic_partial 0.05 u (by norm_num) hu.1 hu1 hn
    refine ⟨0, (sample_classic (by norm_num) u 0 _).2 ?_⟩
    rw [classicEnergyOf_eq hu he]
    exact he
  exact ⟨_, hen, C93_frozen_violated 0.05 _ (by norm_num) (by norm_num) (by have := EL_MASS_pos; positivity) unifDouble
    unifDouble_draw unifDouble_near _ hen⟩

end Verif
