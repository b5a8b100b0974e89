import Verif.MjExact
import Mathlib.MeasureTheory.Integral.Layercake
import Mathlib.MeasureTheory.Integral.Prod
import Mathlib.Analysis.SpecialFunctions.Gaussian.GaussianIntegral
import Mathlib.Analysis.Real.Pi.Bounds

/-!
# C92: the energies follow the Maxwell-Jüttner distribution (the law)
-/

namespace Verif

open MeasureTheory

/-! ## Specification -/

/-- draws that are uniform on `[0, 1)` up to the distance of two doubles -/
structure NearUniform (μ : Measure ℝ) : Prop where
  low : ∀ c, 0 ≤ c → c ≤ 1 → μ.real (Set.Iic c) ≤ c + 1 / 2 ^ 52
  high : ∀ c, 0 ≤ c → c ≤ 1 → μ.real (Set.Ici c) ≤ 1 - c + 1 / 2 ^ 52

/-- the probability of an energy above `y` temperatures in a gas that is not relativistic (Maxwell) -/
noncomputable def maxwellTail (y : ℝ) : ℝ :=
  (∫ s in Set.Ioi y, Real.sqrt s * Real.exp (-s)) / ∫ s in Set.Ioi (0 : ℝ), Real.sqrt s * Real.exp (-s)

/-! ## Means of the velocity -/

/-- the velocity of a factor above `x` -/
noncomputable def aboveBeta (x g : ℝ) : ℝ := if x < g then Real.sqrt (1 - 1 / g ^ 2) else 0

theorem beta_nonneg_le (g : ℝ) : 0 ≤ Real.sqrt (1 - 1 / g ^ 2) ∧ Real.sqrt (1 - 1 / g ^ 2) ≤ 1 := by
  refine ⟨Real.sqrt_nonneg _, Real.sqrt_le_one.2 ?_⟩
  have : 0 ≤ 1 / g ^ 2 := by positivity
  linarith

theorem aboveBeta_nonneg (x g : ℝ) : 0 ≤ aboveBeta x g := by
  unfold aboveBeta
  split_ifs
  · exact (beta_nonneg_le g).1
  · exact le_rfl

theorem aboveBeta_le (x g : ℝ) : aboveBeta x g ≤ 1 := by
  unfold aboveBeta
  split_ifs
  · exact (beta_nonneg_le g).2
  · exact zero_le_one

theorem aboveBeta_measurable (x : ℝ) : Measurable (aboveBeta x) :=
  Measurable.ite measurableSet_Ioi (Real.continuous_sqrt.measurable.comp (((measurable_id.pow_const 2).const_div 1).const_sub 1))
    measurable_const

theorem aboveBeta_integrable (x : ℝ) (P : Measure ℝ) [IsFiniteMeasure P] : Integrable (aboveBeta x) P := by
  refine Integrable.of_bound (aboveBeta_measurable x).aestronglyMeasurable 1 (Filter.Eventually.of_forall fun g => ?_)
  rw [Real.norm_eq_abs, abs_of_nonneg (aboveBeta_nonneg x g)]
  exact aboveBeta_le x g

theorem aboveBeta_level {x t : ℝ} (hx : 1 ≤ x) (h0 : 0 ≤ t) (h1 : t < 1) :
    {g | t < aboveBeta x g} = Set.Ioi (max x (1 / Real.sqrt (1 - t ^ 2))) := by
  ext g
  have ht : 0 < 1 - t ^ 2 := by nlinarith
  have hs := Real.sqrt_pos.2 ht
  have hss := Real.sq_sqrt ht.le
  simp only [Set.mem_setOf_eq, Set.mem_Ioi, max_lt_iff]
  unfold aboveBeta
  split_ifs with hg
  · have hgp : 0 < g := by linarith
    rw [Real.lt_sqrt h0, div_lt_iff₀ hs]
    constructor
    · intro h
      refine ⟨hg, ?_⟩
      have : 1 / g ^ 2 < 1 - t ^ 2 := by linarith
      rw [div_lt_iff₀ (by positivity)] at this
      by_contra hc
      have hc := not_lt.1 hc
      have : (g * Real.sqrt (1 - t ^ 2)) ^ 2 ≤ 1 := by
        have : 0 ≤ g * Real.sqrt (1 - t ^ 2) := by positivity
        nlinarith
      rw [mul_pow, hss] at this
      linarith
    · rintro ⟨-, h⟩
      have : 1 < (g * Real.sqrt (1 - t ^ 2)) ^ 2 := by nlinarith
      rw [mul_pow, hss] at this
      have : 1 / g ^ 2 < 1 - t ^ 2 := by
        rw [div_lt_iff₀ (by positivity)]; linarith
      linarith
  · constructor
    · intro h; linarith
    · rintro ⟨h, -⟩; exact absurd h hg

theorem aboveBeta_cake {x : ℝ} (hx : 1 ≤ x) (P : Measure ℝ) [IsProbabilityMeasure P] :
    ∫ g, aboveBeta x g ∂P = ∫ t in Set.Ioo (0 : ℝ) 1, P.real (Set.Ioi (max x (1 / Real.sqrt (1 - t ^ 2)))) := by
  rw [(aboveBeta_integrable x P).integral_eq_integral_meas_lt (Filter.Eventually.of_forall (aboveBeta_nonneg x))]
  have h1 : ∫ t in Set.Ioo (0 : ℝ) 1, P.real (Set.Ioi (max x (1 / Real.sqrt (1 - t ^ 2))))
      = ∫ t in Set.Ioo (0 : ℝ) 1, P.real {g | t < aboveBeta x g} := by
    apply setIntegral_congr_fun measurableSet_Ioo
    intro t ht
    change P.real _ = P.real _
    rw [aboveBeta_level hx ht.1.le ht.2]
  rw [h1]
  apply setIntegral_eq_of_subset_of_forall_sdiff_eq_zero measurableSet_Ioi
  · intro t ht; exact ht.1
  · rintro t ⟨ht, ht'⟩
    have : 1 ≤ t := by
      by_contra hc
      exact ht' ⟨ht, not_le.1 hc⟩
    have e : {g | t < aboveBeta x g} = ∅ := by
      ext g
      simp only [Set.mem_setOf_eq, Set.mem_empty_iff_false, iff_false, not_lt]
      exact (aboveBeta_le x g).trans this
    rw [e, measureReal_empty]

theorem tail_integrable {x : ℝ} (P : Measure ℝ) [IsProbabilityMeasure P] :
    IntegrableOn (fun t => P.real (Set.Ioi (max x (1 / Real.sqrt (1 - t ^ 2))))) (Set.Ioo (0 : ℝ) 1) := by
  have hm : Measurable fun y => P.real (Set.Ioi y) := by
    refine Antitone.measurable fun a b h => ?_
    exact measureReal_mono (Set.Ioi_subset_Ioi h)
  have hm2 : Measurable fun t : ℝ => max x (1 / Real.sqrt (1 - t ^ 2)) :=
    measurable_const.max ((Real.continuous_sqrt.measurable.comp ((measurable_id.pow_const 2).const_sub 1)).const_div 1)
  refine Integrable.of_bound (hm.comp hm2).aestronglyMeasurable 1 (Filter.Eventually.of_forall fun t => ?_)
  rw [Real.norm_eq_abs, abs_of_nonneg measureReal_nonneg]
  exact measureReal_le_one

/-- two laws with close tails have close means of the velocity -/
theorem aboveBeta_near {x δ : ℝ} (hx : 1 ≤ x) (P Q : Measure ℝ) [IsProbabilityMeasure P] [IsProbabilityMeasure Q]
    (h : ∀ y, 1 ≤ y → |P.real (Set.Ioi y) - Q.real (Set.Ioi y)| ≤ δ) :
    |∫ g, aboveBeta x g ∂P - ∫ g, aboveBeta x g ∂Q| ≤ δ := by
  rw [aboveBeta_cake hx, aboveBeta_cake hx, ← integral_sub (tail_integrable P) (tail_integrable Q)]
  have := norm_setIntegral_le_of_norm_le_const (μ := volume) (s := Set.Ioo (0 : ℝ) 1) (C := δ)
    (f := fun t => P.real (Set.Ioi (max x (1 / Real.sqrt (1 - t ^ 2)))) - Q.real (Set.Ioi (max x (1 / Real.sqrt (1 - t ^ 2)))))
    (by rw [Real.volume_Ioo]; norm_num) (fun t _ => by
      rw [Real.norm_eq_abs]
      exact h _ (hx.trans (le_max_left _ _)))
  rw [Real.norm_eq_abs] at this
  refine this.trans ?_
  rw [measureReal_def, Real.volume_Ioo]
  norm_num

/-! ## The exact law of the guess -/

/-- the law with the density `γ² exp(-γ/T)` on `γ ≥ 1` -/
noncomputable def proposal (T : ℝ) : Measure ℝ :=
  (volume.restrict (Set.Ioi (1 : ℝ))).withDensity fun g =>
    ENNReal.ofReal (g ^ 2 * Real.exp (-g / T) / ∫ g in Set.Ioi (1 : ℝ), g ^ 2 * Real.exp (-g / T))

theorem proposal_norm_pos {T : ℝ} (hT : 0 < T) : 0 < ∫ g in Set.Ioi (1 : ℝ), g ^ 2 * Real.exp (-g / T) := by
  rw [proposal_integral hT zero_le_one]; positivity

theorem proposal_tail {T : ℝ} (hT : 0 < T) {x : ℝ} (hx : 1 ≤ x) :
    proposal T (Set.Ioi x) = ENNReal.ofReal (proposalTail T x) := by
  unfold proposal proposalTail
  rw [withDensity_apply _ measurableSet_Ioi, Measure.restrict_restrict measurableSet_Ioi,
    Set.inter_eq_left.2 (Set.Ioi_subset_Ioi hx), ← ofReal_integral_eq_lintegral_ofReal, integral_div]
  · exact (proposal_integrable hT x).div_const _
  · exact Filter.Eventually.of_forall fun g => div_nonneg (by positivity) (proposal_norm_pos hT).le

theorem proposal_prob {T : ℝ} (hT : 0 < T) : IsProbabilityMeasure (proposal T) := by
  constructor
  have h : proposal T Set.univ = proposal T (Set.Ioi 1) := by
    unfold proposal
    rw [withDensity_apply _ MeasurableSet.univ, withDensity_apply _ measurableSet_Ioi, Measure.restrict_univ,
      Measure.restrict_restrict measurableSet_Ioi, Set.inter_self]
  rw [h, proposal_tail hT le_rfl]
  unfold proposalTail
  rw [div_self (proposal_norm_pos hT).ne', ENNReal.ofReal_one]

theorem proposal_tail_real {T : ℝ} (hT : 0 < T) {x : ℝ} (hx : 1 ≤ x) : (proposal T).real (Set.Ioi x) = proposalTail T x := by
  rw [measureReal_def, proposal_tail hT hx, ENNReal.toReal_ofReal]
  unfold proposalTail
  exact div_nonneg (setIntegral_nonneg measurableSet_Ioi fun g _ => by positivity) (proposal_norm_pos hT).le

theorem proposal_beta {T : ℝ} (hT : 0 < T) {x : ℝ} (hx : 1 ≤ x) :
    ∫ g, aboveBeta x g ∂proposal T = (∫ g in Set.Ioi x, g ^ 2 * Real.sqrt (1 - 1 / g ^ 2) * Real.exp (-g / T)) /
      ∫ g in Set.Ioi (1 : ℝ), g ^ 2 * Real.exp (-g / T) := by
  unfold proposal
  rw [integral_withDensity_eq_integral_toReal_smul (by fun_prop) (Filter.Eventually.of_forall fun g => ENNReal.ofReal_lt_top),
    ← integral_div]
  have h2 : ∫ g in Set.Ioi x, g ^ 2 * Real.sqrt (1 - 1 / g ^ 2) * Real.exp (-g / T) /
        (∫ g in Set.Ioi (1 : ℝ), g ^ 2 * Real.exp (-g / T))
      = ∫ g in Set.Ioi x, (ENNReal.ofReal (g ^ 2 * Real.exp (-g / T) /
        ∫ g in Set.Ioi (1 : ℝ), g ^ 2 * Real.exp (-g / T))).toReal • aboveBeta x g := by
    apply setIntegral_congr_fun measurableSet_Ioi
    intro g hg
    have hg : x < g := hg
    simp only [aboveBeta, if_pos hg, smul_eq_mul]
    rw [ENNReal.toReal_ofReal (div_nonneg (by positivity) (proposal_norm_pos hT).le)]
    ring
  rw [h2]
  apply setIntegral_eq_of_subset_of_forall_sdiff_eq_zero measurableSet_Ioi (Set.Ioi_subset_Ioi hx)
  rintro g ⟨-, hg⟩
  have hg : ¬ x < g := hg
  simp only [aboveBeta, if_neg hg, smul_zero]

theorem proposalTail_anti {T : ℝ} (hT : 0 < T) {x y : ℝ} (hx : 0 ≤ x) (h : x ≤ y) : proposalTail T y ≤ proposalTail T x := by
  rw [proposalTail_eq hT hx, proposalTail_eq hT (hx.trans h)]
  apply Real.exp_le_exp.2
  have := mjG_mono (x := x / T) (y := y / T) (by positivity) (by gcongr)
  linarith

theorem proposalTail_le_one {T : ℝ} (hT : 0 < T) {x : ℝ} (hx : 1 ≤ x) : proposalTail T x ≤ 1 := by
  rw [proposalTail_eq hT (by linarith)]
  apply Real.exp_le_one_iff.2
  have := mjG_mono (x := 1 / T) (y := x / T) (by positivity) (by gcongr)
  linarith

theorem proposalTail_ge {T : ℝ} (h1 : 0.1 ≤ T) {x : ℝ} (hx : 1 ≤ x) : Real.exp (-(10 * (x - 1))) ≤ proposalTail T x := by
  have hT : 0 < T := by linarith
  rw [proposalTail_eq hT (by linarith)]
  apply Real.exp_le_exp.2
  unfold mjG
  have h2 : Real.log (1 + 1 / T + (1 / T) ^ 2 / 2) ≤ Real.log (1 + x / T + (x / T) ^ 2 / 2) := by
    apply Real.log_le_log (by positivity)
    gcongr
  have h3 : x / T - 1 / T ≤ 10 * (x - 1) := by
    rw [← sub_div, div_le_iff₀ hT]
    nlinarith
  linarith

/-! ## The law of the guess of the program -/

theorem guess_tail {T : ℝ} (h1 : 0.1 ≤ T) (h2 : T ≤ 3000) (μ : Measure ℝ) [IsProbabilityMeasure μ]
    (hμ : ∀ᵐ u ∂μ, UniformDraw u) (hn : NearUniform μ) {x : ℝ} (hx : 1 ≤ x) :
    |(μ.map (guessOf T)).real (Set.Ioi x) - proposalTail T x| ≤ 0.00127 := by
  have hT : 0 < T := by linarith
  have hm := guessOf_measurable T
  have hc0 : 0 ≤ proposalTail T x := by rw [proposalTail_eq hT (by linarith)]; positivity
  have hc1 := proposalTail_le_one hT hx
  obtain ⟨c, hc⟩ : ∃ c, c = proposalTail T x := ⟨_, rfl⟩
  rw [← hc] at hc0 hc1 ⊢
  have hpt : ∀ u, UniformDraw u → _ := fun u hu => C92_guess T h1 h2 u hu (guessOf T u) (gammaGuess_arg h1 h2 hu)
  rw [map_measureReal_apply hm measurableSet_Ioi]
  have hε : (1 / 2 ^ 52 : ℝ) ≤ 0.00001 := by norm_num
  have up : μ.real (guessOf T ⁻¹' Set.Ioi x) ≤ c + 0.00127 := by
    rcases le_or_gt 1 (c + 0.00126) with hb | hb
    · have : μ.real (guessOf T ⁻¹' Set.Ioi x) ≤ 1 := measureReal_le_one
      norm_num at hb ⊢; linarith
    · have hle : μ.real (guessOf T ⁻¹' Set.Ioi x) ≤ μ.real (Set.Ici (1 - c - 0.00126)) := by
        refine ENNReal.toReal_mono (measure_ne_top _ _) (measure_mono_ae ?_)
        filter_upwards [hμ] with u hu hg
        have hg : x < guessOf T u := hg
        have := (abs_le.1 ((hpt u hu).1 (by linarith))).1
        have h3 := proposalTail_anti hT (by linarith) hg.le
        rw [← hc] at h3
        change _ ≤ u
        linarith
      have := hn.high (1 - c - 0.00126) (by linarith) (by norm_num; linarith)
      norm_num at this hle hε ⊢
      linarith
  have down : μ.real (guessOf T ⁻¹' Set.Ioi x)ᶜ ≤ 1 - c + 0.00127 := by
    rcases le_or_gt 1 (1 - c + 0.00126) with hb | hb
    · have : μ.real (guessOf T ⁻¹' Set.Ioi x)ᶜ ≤ 1 := measureReal_le_one
      norm_num at hb ⊢; linarith
    · have hle : μ.real (guessOf T ⁻¹' Set.Ioi x)ᶜ ≤ μ.real (Set.Iic (1 - c + 0.00126)) := by
        refine ENNReal.toReal_mono (measure_ne_top _ _) (measure_mono_ae ?_)
        filter_upwards [hμ] with u hu hg
        have hg : ¬ x < guessOf T u := hg
        have hg := not_lt.1 hg
        change u ≤ _
        rcases le_or_gt 1 (guessOf T u) with h4 | h4
        · have := (abs_le.1 ((hpt u hu).1 h4)).2
          have h3 := proposalTail_anti hT (by linarith) hg
          rw [← hc] at h3
          linarith
        · have := (hpt u hu).2 h4
          norm_num at this ⊢
          linarith
      have := hn.low (1 - c + 0.00126) (by norm_num; linarith) hb.le
      norm_num at this hle hε ⊢
      linarith
  rw [probReal_compl_eq_one_sub (hm measurableSet_Ioi)] at down
  rw [abs_le]
  constructor <;> linarith

/-! ## The law of the energies -/

theorem near_lt {ν : Measure ℝ} [IsProbabilityMeasure ν] (hn : NearUniform ν) {b : ℝ} (h0 : 0 ≤ b) (h1 : b ≤ 1) :
    |ν.real {v | v < b} - b| ≤ 1 / 2 ^ 52 := by
  have a : ν.real {v | v < b} ≤ ν.real (Set.Iic b) := measureReal_mono fun v (hv : v < b) => Set.mem_Iic.2 hv.le
  have e : {v : ℝ | v < b} = (Set.Ici b)ᶜ := by ext v; simp
  have b' : ν.real {v | v < b} = 1 - ν.real (Set.Ici b) := by rw [e, probReal_compl_eq_one_sub measurableSet_Ici]
  have := hn.low b h0 h1
  have := hn.high b h0 h1
  rw [abs_le]
  constructor <;> linarith

theorem prod_real (μ ν : Measure ℝ) [IsProbabilityMeasure μ] [IsProbabilityMeasure ν] {s : Set (ℝ × ℝ)} (hs : MeasurableSet s) :
    Integrable (fun u => ν.real (Prod.mk u ⁻¹' s)) μ ∧ (μ.prod ν).real s = ∫ u, ν.real (Prod.mk u ⁻¹' s) ∂μ := by
  have hm := measurable_measure_prodMk_left (ν := ν) hs
  constructor
  · refine Integrable.of_bound hm.ennreal_toReal.aestronglyMeasurable 1 (Filter.Eventually.of_forall fun t => ?_)
    rw [Real.norm_eq_abs, abs_of_nonneg measureReal_nonneg]
    exact measureReal_le_one
  · rw [measureReal_def, Measure.prod_apply hs, ← integral_toReal hm.aemeasurable
      (Filter.Eventually.of_forall fun u => measure_lt_top _ _)]
    rfl

theorem accept_above {T x : ℝ} (hx : 1 ≤ x) (μ ν : Measure ℝ) [IsProbabilityMeasure μ]
    [IsProbabilityMeasure ν] (hμ : ∀ᵐ u ∂μ, UniformDraw u) (hn : NearUniform ν) :
    |(μ.prod ν).real (AcceptSet T (Set.Ioi (x - 1))) - ∫ g, aboveBeta x g ∂μ.map (guessOf T)| ≤ 1 / 2 ^ 52 := by
  have hm := guessOf_measurable T
  obtain ⟨hi, he⟩ := prod_real μ ν (acceptSet_measurable T (measurableSet_Ioi (a := x - 1)))
  have hf : Integrable (fun u => aboveBeta x (guessOf T u)) μ :=
    (integrable_map_measure (aboveBeta_measurable x).aestronglyMeasurable hm.aemeasurable).1
      (haveI := Measure.isProbabilityMeasure_map (μ := μ) hm.aemeasurable; aboveBeta_integrable x (μ.map (guessOf T)))
  rw [he, integral_map hm.aemeasurable (aboveBeta_measurable x).aestronglyMeasurable, ← integral_sub hi hf]
  have := norm_integral_le_of_norm_le_const (μ := μ) (C := 1 / 2 ^ 52)
    (f := fun u => ν.real (Prod.mk u ⁻¹' AcceptSet T (Set.Ioi (x - 1))) - aboveBeta x (guessOf T u)) (by
      filter_upwards [hμ] with u hu
      rw [Real.norm_eq_abs]
      unfold aboveBeta
      split_ifs with hg
      · have e : Prod.mk u ⁻¹' AcceptSet T (Set.Ioi (x - 1)) = {v | v < Real.sqrt (1 - 1 / guessOf T u ^ 2)} := by
          ext v
          constructor
          · rintro ⟨-, h, -⟩
            by_contra hc
            exact h ⟨one_le_pow₀ (by linarith), not_lt.1 hc⟩
          · intro h
            refine ⟨hu, fun h' => absurd h'.2 (not_le.2 h), ?_⟩
            change x - 1 < guessOf T u - 1
            linarith
        rw [e]
        exact near_lt hn (beta_nonneg_le _).1 (beta_nonneg_le _).2
      · have e : Prod.mk u ⁻¹' AcceptSet T (Set.Ioi (x - 1)) = ∅ := by
          ext v
          constructor
          · rintro ⟨-, -, h⟩
            have h : x - 1 < guessOf T u - 1 := h
            exact hg (by linarith)
          · intro h; cases h
        rw [e, measureReal_empty]
        norm_num)
  rw [Real.norm_eq_abs] at this
  refine this.trans ?_
  rw [probReal_univ, mul_one]

theorem beta_mean_ge {T : ℝ} (h1 : 0.1 ≤ T) : 0.26 ≤ ∫ g, aboveBeta 1 g ∂proposal T := by
  have hT : 0 < T := by linarith
  have := proposal_prob hT
  obtain ⟨Q, hQ⟩ : ∃ Q, Q = proposal T := ⟨_, rfl⟩
  have : IsProbabilityMeasure Q := hQ ▸ proposal_prob hT
  have hb : ∀ {x b g : ℝ}, 1 ≤ x → x < g → 0 ≤ b → b ^ 2 ≤ 1 - 1 / x ^ 2 → b ≤ Real.sqrt (1 - 1 / g ^ 2) := by
    intro x b g hx hg hb h
    apply Real.le_sqrt_of_sq_le
    refine h.trans ?_
    have : 1 / g ^ 2 ≤ 1 / x ^ 2 := by gcongr
    linarith
  have hle : ∀ g, (Set.Ioi (1.02 : ℝ)).indicator (fun _ => (0.197 : ℝ)) g + (Set.Ioi (1.05 : ℝ)).indicator (fun _ => (0.1078 : ℝ)) g
      + (Set.Ioi (1.1 : ℝ)).indicator (fun _ => (0.111 : ℝ)) g ≤ aboveBeta 1 g := by
    intro g
    rcases le_or_gt g 1.02 with h2 | h2
    · rw [Set.indicator_of_notMem (by exact not_lt.2 h2), Set.indicator_of_notMem (by simp only [Set.mem_Ioi]; linarith),
        Set.indicator_of_notMem (by simp only [Set.mem_Ioi]; linarith)]
      linarith [aboveBeta_nonneg 1 g]
    · have e : aboveBeta 1 g = Real.sqrt (1 - 1 / g ^ 2) := if_pos (by linarith)
      rw [Set.indicator_of_mem (by exact h2), e]
      rcases le_or_gt g 1.05 with h3 | h3
      · rw [Set.indicator_of_notMem (by exact not_lt.2 h3), Set.indicator_of_notMem (by simp only [Set.mem_Ioi]; linarith)]
        have := hb (b := 0.197) (by norm_num) h2 (by norm_num) (by norm_num)
        linarith
      · rw [Set.indicator_of_mem (by exact h3)]
        rcases le_or_gt g 1.1 with h4 | h4
        · rw [Set.indicator_of_notMem (by exact not_lt.2 h4)]
          have := hb (b := 0.3048) (by norm_num) h3 (by norm_num) (by norm_num)
          norm_num at this ⊢
          linarith
        · rw [Set.indicator_of_mem (by exact h4)]
          have := hb (b := 0.4158) (by norm_num) h4 (by norm_num) (by norm_num)
          norm_num at this ⊢
          linarith
  have hI : ∀ a c : ℝ, Integrable ((Set.Ioi a).indicator fun _ => c) Q := fun a c =>
    (integrable_const c).indicator measurableSet_Ioi
  have hmono := integral_mono (((hI 1.02 0.197).add (hI 1.05 0.1078)).add (hI 1.1 0.111)) (aboveBeta_integrable 1 Q) hle
  rw [integral_add' ((hI _ _).add (hI _ _)) (hI _ _), integral_add' (hI _ _) (hI _ _), integral_indicator_const _ measurableSet_Ioi,
    integral_indicator_const _ measurableSet_Ioi, integral_indicator_const _ measurableSet_Ioi] at hmono
  rw [hQ, proposal_tail_real hT (by norm_num), proposal_tail_real hT (by norm_num), proposal_tail_real hT (by norm_num)] at hmono
  simp only [smul_eq_mul] at hmono
  have he := Real.exp_one_lt_d9
  have k : ∀ {a b : ℝ} (n : ℕ), n ≠ 0 → 0 < b → n * a = 1 → 2.7182818286 ≤ b ^ n → 1 / b ≤ Real.exp (-a) := by
    intro a b n hn hb hna hbn
    rw [Real.exp_neg, ← one_div]
    apply one_div_le_one_div_of_le (Real.exp_pos a)
    apply le_of_pow_le_pow_left₀ hn hb.le
    rw [← Real.exp_nat_mul, hna]
    linarith
  have k1 := (k (a := 10 * (1.02 - 1)) (b := 1.2215) 5 (by norm_num) (by norm_num) (by norm_num) (by norm_num)).trans
    (proposalTail_ge h1 (x := 1.02) (by norm_num))
  have k2 := (k (a := 10 * (1.05 - 1)) (b := 1.65) 2 (by norm_num) (by norm_num) (by norm_num) (by norm_num)).trans
    (proposalTail_ge h1 (x := 1.05) (by norm_num))
  have k3 := (k (a := 10 * (1.1 - 1)) (b := 2.7183) 1 (by norm_num) (by norm_num) (by norm_num) (by norm_num)).trans
    (proposalTail_ge h1 (x := 1.1) (by norm_num))
  norm_num at k1 k2 k3 hmono ⊢
  linarith

theorem juttner_eq {T : ℝ} (hT : 0 < T) {x : ℝ} (hx : 1 ≤ x) :
    juttnerTail T x = (∫ g, aboveBeta x g ∂proposal T) / ∫ g, aboveBeta 1 g ∂proposal T := by
  rw [proposal_beta hT hx, proposal_beta hT le_rfl, div_div_div_cancel_right₀ (proposal_norm_pos hT).ne']
  rfl

theorem aboveBeta_mono {x : ℝ} (hx : 1 ≤ x) (P : Measure ℝ) [IsProbabilityMeasure P] :
    ∫ g, aboveBeta x g ∂P ≤ ∫ g, aboveBeta 1 g ∂P := by
  apply integral_mono (aboveBeta_integrable x P) (aboveBeta_integrable 1 P)
  intro g
  unfold aboveBeta
  split_ifs with a b
  · exact le_rfl
  · linarith
  · exact Real.sqrt_nonneg _
  · exact le_rfl

theorem accept_all {T : ℝ} (h1 : 0.1 ≤ T) (h2 : T ≤ 3000) (μ ν : Measure ℝ) [IsProbabilityMeasure μ]
    [IsProbabilityMeasure ν] (hμ : ∀ᵐ u ∂μ, UniformDraw u) (hnμ : NearUniform μ) (hn : NearUniform ν) :
    |(μ.prod ν).real (AcceptSet T Set.univ) - ∫ g, aboveBeta 1 g ∂proposal T| ≤ 0.00255 := by
  have hT : 0 < T := by linarith
  have := proposal_prob hT
  have hm := guessOf_measurable T
  have := Measure.isProbabilityMeasure_map (μ := μ) hm.aemeasurable
  have ha := accept_above (T := T) le_rfl μ ν hμ hn
  have hb := aboveBeta_near le_rfl (μ.map (guessOf T)) (proposal T) (δ := 0.00127) fun y hy => by
    rw [proposal_tail_real hT hy]
    exact guess_tail h1 h2 μ hμ hnμ hy
  have hlow : (μ.prod ν).real (AcceptSet T Set.univ) ≤ (μ.prod ν).real (AcceptSet T (Set.Ioi (1 - 1))) + 0.00127 := by
    have hsub : AcceptSet T Set.univ ⊆ AcceptSet T (Set.Ioi (1 - 1)) ∪ (guessOf T ⁻¹' Set.Iic 1) ×ˢ Set.univ := by
      rintro d ⟨a, b, -⟩
      rcases le_or_gt (guessOf T d.1) 1 with h | h
      · exact Or.inr ⟨h, trivial⟩
      · refine Or.inl ⟨a, b, ?_⟩
        change (1 : ℝ) - 1 < _
        linarith
    refine (measureReal_mono hsub).trans ((measureReal_union_le _ _).trans ?_)
    rw [measureReal_prod_prod, probReal_univ, mul_one]
    have := guess_tail h1 h2 μ hμ hnμ (x := 1) le_rfl
    rw [map_measureReal_apply hm measurableSet_Ioi] at this
    have e : guessOf T ⁻¹' Set.Iic 1 = (guessOf T ⁻¹' Set.Ioi 1)ᶜ := by ext u; simp
    rw [e, probReal_compl_eq_one_sub (hm measurableSet_Ioi)]
    have h3 : proposalTail T 1 = 1 := div_self (proposal_norm_pos hT).ne'
    rw [h3] at this
    linarith [(abs_le.1 this).1]
  have hup : (μ.prod ν).real (AcceptSet T (Set.Ioi (1 - 1))) ≤ (μ.prod ν).real (AcceptSet T Set.univ) :=
    measureReal_mono fun d hd => ⟨hd.1, hd.2.1, trivial⟩
  have hε : (1 / 2 ^ 52 : ℝ) ≤ 0.00001 := by norm_num
  have a1 := abs_le.1 ha
  have b1 := abs_le.1 hb
  rw [abs_le]
  norm_num at a1 b1 hε hlow hup ⊢
  constructor <;> linarith [a1.1, a1.2, b1.1, b1.2]

theorem quotient_near {N D n d a b : ℝ} (hd : 0.26 ≤ d) (hD : 0 < D) (hN : |N - n| ≤ a) (hDd : |D - d| ≤ b) (h0 : 0 ≤ N)
    (h1 : N ≤ D) : |N / D - n / d| ≤ (a + b) / 0.26 := by
  have hd' : 0 < d := by linarith
  have e : N / D - n / d = ((N - n) + N / D * (d - D)) / d := by field_simp; ring
  have hq0 : 0 ≤ N / D := by positivity
  have hq : N / D ≤ 1 := (div_le_one hD).2 h1
  rw [e, abs_div, abs_of_pos hd']
  have hnum : |(N - n) + N / D * (d - D)| ≤ a + b := by
    refine (abs_add_le _ _).trans (add_le_add hN ?_)
    rw [abs_mul, abs_of_nonneg hq0, abs_sub_comm]
    calc N / D * |D - d| ≤ 1 * |D - d| := mul_le_mul_of_nonneg_right hq (abs_nonneg _)
      _ ≤ b := by linarith
  have : 0 ≤ a + b := (abs_nonneg _).trans hnum
  gcongr

/-- **C92** (the loop ends). With draws that are uniform and independent, the loop ends with probability one. -/
theorem C92_ends (T : ℝ) (h1 : 0.1 ≤ T) (h2 : T ≤ 3000) (μ ν : Measure ℝ) [IsProbabilityMeasure μ] [IsProbabilityMeasure ν]
    (hμ : ∀ᵐ u ∂μ, UniformDraw u) (hμ' : NearUniform μ) (hν : NearUniform ν) :
    ∀ᵐ ω ∂Rounds (μ.prod ν), ∃ n e, SampleRel T (firstRounds ω n) (some e) := by
  have hd : ∀ᵐ d ∂μ.prod ν, UniformDraw d.1 :=
    (measurePreserving_fst (μ := μ) (ν := ν)).quasiMeasurePreserving.ae hμ
  apply C91_ends T h1 h2 _ hd
  have e3 : μ.prod ν {d | ∃ e, SampleRel T [d] (some e)} = μ.prod ν (AcceptSet T Set.univ) := by
    apply measure_congr
    filter_upwards [hd] with d hd
    have := round_one h1 h2 hd Set.univ
    simp only [Set.mem_univ, and_true] at this
    exact propext this
  rw [e3]
  intro h0
  have ha := accept_all h1 h2 μ ν hμ hμ' hν
  have hb := beta_mean_ge h1
  rw [measureReal_def, h0, ENNReal.toReal_zero] at ha
  have := (abs_le.1 ha).1
  norm_num at this hb
  linarith

/-- **C92** (the law). For every temperature from 0.1 to 3000 in units of the rest energy and every energy `E`, the probability that
the program draws an energy above `E` differs from that of the Maxwell-Jüttner distribution by at most 0.015. The draws are
independent and uniform up to the distance of two doubles. -/
theorem C92_law_partial (T : ℝ) (h1 : 0.1 ≤ T) (h2 : T ≤ 3000) (μ ν : Measure ℝ) [IsProbabilityMeasure μ]
    [IsProbabilityMeasure ν] (hμ : ∀ᵐ u ∂μ, UniformDraw u) (hμ' : NearUniform μ) (hν : NearUniform ν) (E : ℝ) (hE : 0 ≤ E) :
    |(Rounds (μ.prod ν)).real {ω | ∃ n e, SampleRel T (firstRounds ω n) (some e) ∧ E < e} - juttnerTail T (1 + E)| ≤ 0.015 := by
  have hT : 0 < T := by linarith
  have hx : 1 ≤ 1 + E := by linarith
  have := proposal_prob hT
  have hm := guessOf_measurable T
  have := Measure.isProbabilityMeasure_map (μ := μ) hm.aemeasurable
  have hd : ∀ᵐ d ∂μ.prod ν, UniformDraw d.1 :=
    (measurePreserving_fst (μ := μ) (ν := ν)).quasiMeasurePreserving.ae hμ
  have e1 : (Rounds (μ.prod ν)).real {ω | ∃ n e, SampleRel T (firstRounds ω n) (some e) ∧ E < e}
      = (μ.prod ν).real (AcceptSet T (Set.Ioi E)) / (μ.prod ν).real (AcceptSet T Set.univ) := by
    have h := C91_law T h1 h2 (μ.prod ν) hd (Set.Ioi E) measurableSet_Ioi
    have e2 : μ.prod ν {d | ∃ e, SampleRel T [d] (some e) ∧ e ∈ Set.Ioi E} = μ.prod ν (AcceptSet T (Set.Ioi E)) := by
      apply measure_congr
      filter_upwards [hd] with d hd
      exact propext (round_one h1 h2 hd _)
    have e3 : μ.prod ν {d | ∃ e, SampleRel T [d] (some e)} = μ.prod ν (AcceptSet T Set.univ) := by
      apply measure_congr
      filter_upwards [hd] with d hd
      have := round_one h1 h2 hd Set.univ
      simp only [Set.mem_univ, and_true] at this
      exact propext this
    rw [e2, e3] at h
    rw [measureReal_def, measureReal_def, measureReal_def, ← ENNReal.toReal_div, ← h]
    rfl
  rw [e1, juttner_eq hT hx]
  have ha := accept_above (T := T) hx μ ν hμ hν
  rw [add_sub_cancel_left] at ha
  have hb := aboveBeta_near hx (μ.map (guessOf T)) (proposal T) (δ := 0.00127) fun y hy => by
    rw [proposal_tail_real hT hy]
    exact guess_tail h1 h2 μ hμ hμ' hy
  have hD := accept_all h1 h2 μ ν hμ hμ' hν
  have hd26 := beta_mean_ge h1
  have hε : (1 / 2 ^ 52 : ℝ) ≤ 0.00001 := by norm_num
  have hN : |(μ.prod ν).real (AcceptSet T (Set.Ioi E)) - ∫ g, aboveBeta (1 + E) g ∂proposal T| ≤ 0.00128 := by
    have a1 := abs_le.1 ha
    have b1 := abs_le.1 hb
    rw [abs_le]
    norm_num at a1 b1 hε ⊢
    constructor <;> linarith [a1.1, a1.2, b1.1, b1.2]
  have hDpos : 0 < (μ.prod ν).real (AcceptSet T Set.univ) := by
    have := (abs_le.1 hD).1
    norm_num at this hd26
    linarith
  refine (quotient_near hd26 hDpos hN hD measureReal_nonneg (measureReal_mono fun d hd => ⟨hd.1, hd.2.1, trivial⟩)).trans ?_
  norm_num

/-! ## Uniform draws meet the hypotheses -/

theorem unif_near : NearUniform unif := by
  constructor
  · intro c h0 h1
    rw [measureReal_restrict_apply measurableSet_Iic]
    have : volume.real (Set.Iic c ∩ Set.Ico 0 1) ≤ volume.real (Set.Icc 0 c) :=
      measureReal_mono (fun v hv => ⟨hv.2.1, hv.1⟩) (by rw [Real.volume_Icc]; exact ENNReal.ofReal_ne_top)
    rw [Real.volume_real_Icc, sub_zero, max_eq_left h0] at this
    have : (0 : ℝ) ≤ 1 / 2 ^ 52 := by positivity
    linarith
  · intro c h0 h1
    rw [measureReal_restrict_apply measurableSet_Ici]
    have : volume.real (Set.Ici c ∩ Set.Ico 0 1) ≤ volume.real (Set.Icc c 1) :=
      measureReal_mono (fun v hv => ⟨hv.1, hv.2.2.le⟩) (by rw [Real.volume_Icc]; exact ENNReal.ofReal_ne_top)
    rw [Real.volume_real_Icc, max_eq_left (by linarith)] at this
    have : (0 : ℝ) ≤ 1 / 2 ^ 52 := by positivity
    linarith

theorem unifDouble_near : NearUniform unifDouble := by
  have hm : Measurable fun u : ℝ => u * (1 - 1 / 2 ^ 53) := by fun_prop
  constructor
  · intro c h0 h1
    rw [map_measureReal_apply hm measurableSet_Iic]
    rcases le_or_gt 1 (c + 1 / 2 ^ 53) with h | h
    · have h2 : unif.real ((fun u : ℝ => u * (1 - 1 / 2 ^ 53)) ⁻¹' Set.Iic c) ≤ 1 := measureReal_le_one
      norm_num at h h2 ⊢
      linarith
    · have h2 : unif.real ((fun u : ℝ => u * (1 - 1 / 2 ^ 53)) ⁻¹' Set.Iic c) ≤ unif.real (Set.Iic (c + 1 / 2 ^ 53)) := by
        refine ENNReal.toReal_mono (measure_ne_top _ _) (measure_mono_ae ?_)
        filter_upwards [ae_restrict_mem (μ := volume) (measurableSet_Ico (a := (0 : ℝ)) (b := 1))] with u hu hc
        have hc : u * (1 - 1 / 2 ^ 53) ≤ c := hc
        have := hu.2
        change u ≤ c + 1 / 2 ^ 53
        norm_num at hc ⊢
        linarith
      have h3 : unif.real (Set.Iic (c + 1 / 2 ^ 53)) ≤ c + 1 / 2 ^ 53 := by
        have h0' : 0 ≤ c + 1 / 2 ^ 53 := by positivity
        rw [measureReal_restrict_apply measurableSet_Iic]
        have : volume.real (Set.Iic (c + 1 / 2 ^ 53) ∩ Set.Ico 0 1) ≤ volume.real (Set.Icc 0 (c + 1 / 2 ^ 53)) :=
          measureReal_mono (fun v hv => ⟨hv.2.1, hv.1⟩) (by rw [Real.volume_Icc]; exact ENNReal.ofReal_ne_top)
        rwa [Real.volume_real_Icc, sub_zero, max_eq_left h0'] at this
      norm_num at h2 h3 ⊢
      linarith
  · intro c h0 h1
    rw [map_measureReal_apply hm measurableSet_Ici]
    have h2 : unif.real ((fun u : ℝ => u * (1 - 1 / 2 ^ 53)) ⁻¹' Set.Ici c) ≤ unif.real (Set.Ici c) := by
      refine ENNReal.toReal_mono (measure_ne_top _ _) (measure_mono_ae ?_)
      filter_upwards [ae_restrict_mem (μ := volume) (measurableSet_Ico (a := (0 : ℝ)) (b := 1))] with u hu hc
      have hc : c ≤ u * (1 - 1 / 2 ^ 53) := hc
      have := hu.1
      change c ≤ u
      norm_num at hc
      linarith
    exact h2.trans (unif_near.high c h0 h1)

/-- Not vacuous: at 30 times the rest energy, the median. -/
example : |(Rounds (unifDouble.prod unif)).real {ω | ∃ n e, SampleRel 30 (firstRounds ω n) (some e) ∧ 80 < e}
    - juttnerTail 30 (1 + 80)| ≤ 0.015 :=
  C92_law_partial 30 (by norm_num) (by norm_num) unifDouble unif unifDouble_draw unifDouble_near unif_near 80 (by norm_num)

/-! ## The unit of the temperature -/

theorem maxwell_norm : ∫ s in Set.Ioi (0 : ℝ), Real.sqrt s * Real.exp (-s) = Real.sqrt Real.pi / 2 := by
  have h := Real.Gamma_eq_integral (s := 3 / 2) (by norm_num)
  have e : Real.Gamma (3 / 2) = Real.sqrt Real.pi / 2 := by
    have := Real.Gamma_add_one (s := 1 / 2) (by norm_num)
    rw [Real.Gamma_one_half_eq] at this
    rw [show (3 / 2 : ℝ) = 1 / 2 + 1 by norm_num, this]
    ring
  rw [e] at h
  rw [h]
  apply setIntegral_congr_fun measurableSet_Ioi
  intro s _
  change Real.sqrt s * Real.exp (-s) = Real.exp (-s) * s ^ ((3 : ℝ) / 2 - 1)
  rw [show (3 / 2 : ℝ) - 1 = 1 / 2 by norm_num, ← Real.sqrt_eq_rpow]
  ring

theorem maxwell_three : maxwellTail 3 ≤ 0.14 := by
  unfold maxwellTail
  rw [maxwell_norm]
  have hd : ∀ s : ℝ, HasDerivAt (fun s => -((s + 1) * Real.exp (-s))) (s * Real.exp (-s)) s := by
    intro s
    refine (((hasDerivAt_id s).add_const 1).mul ((hasDerivAt_id s).neg.exp)).neg.congr_deriv ?_
    simp
    ring
  have ht : Filter.Tendsto (fun s : ℝ => -((s + 1) * Real.exp (-s))) Filter.atTop (nhds 0) := by
    have := ((Real.tendsto_pow_mul_exp_neg_atTop_nhds_zero 1).add (Real.tendsto_pow_mul_exp_neg_atTop_nhds_zero 0)).neg
    simp only [add_zero, neg_zero] at this
    refine this.congr fun s => ?_
    ring
  have hpos : ∀ s ∈ Set.Ioi (3 : ℝ), 0 ≤ s * Real.exp (-s) := fun s hs => by
    have hs : (3 : ℝ) < s := hs
    positivity
  have hint := integrableOn_Ioi_deriv_of_nonneg' (fun s _ => hd s) hpos ht
  have hval := integral_Ioi_of_hasDerivAt_of_nonneg' (fun s _ => hd s) hpos ht
  have hle : ∫ s in Set.Ioi (3 : ℝ), Real.sqrt s * Real.exp (-s) ≤ ∫ s in Set.Ioi (3 : ℝ), 0.6 * (s * Real.exp (-s)) := by
    apply integral_mono_of_nonneg
    · exact Filter.Eventually.of_forall fun s => by positivity
    · exact hint.const_mul 0.6
    · filter_upwards [ae_restrict_mem (μ := volume) (measurableSet_Ioi (a := (3 : ℝ)))] with s hs
      have hs : (3 : ℝ) < s := hs
      have : Real.sqrt s ≤ 0.6 * s := by
        rw [Real.sqrt_le_left (by positivity)]
        nlinarith
      calc Real.sqrt s * Real.exp (-s) ≤ 0.6 * s * Real.exp (-s) := by gcongr
        _ = _ := by ring
  rw [integral_const_mul, hval] at hle
  have he : Real.exp (-3) ≤ 0.0498 := by
    have h1 := Real.exp_one_gt_d9
    rw [Real.exp_neg, show (3 : ℝ) = (3 : ℕ) * 1 by norm_num, Real.exp_nat_mul]
    rw [inv_le_comm₀ (by positivity) (by norm_num)]
    refine le_trans ?_ (pow_le_pow_left₀ (by norm_num) h1.le 3)
    norm_num
  have hpi : 1.77 ≤ Real.sqrt Real.pi := by
    apply Real.le_sqrt_of_sq_le
    have := Real.pi_gt_d2
    norm_num at this ⊢
    linarith
  rw [div_le_iff₀ (by positivity)]
  norm_num at hle he hpi ⊢
  linarith

theorem juttner_three {T : ℝ} (h1 : 10 ≤ T) : 0.39 ≤ juttnerTail T (1 + 3 * T) := by
  have hT : 0 < T := by linarith
  have hx : 1 ≤ 1 + 3 * T := by linarith
  have := proposal_prob hT
  rw [juttner_eq hT hx]
  have hD1 : ∫ g, aboveBeta 1 g ∂proposal T ≤ 1 := by
    have := integral_mono (aboveBeta_integrable 1 (proposal T)) (integrable_const 1) (fun g => aboveBeta_le 1 g)
    simpa using this
  have hD0 : 0 < ∫ g, aboveBeta 1 g ∂proposal T := lt_of_lt_of_le (by norm_num) (beta_mean_ge (T := T) (by norm_num; linarith))
  have hN : 0.99 * proposalTail T (1 + 3 * T) ≤ ∫ g, aboveBeta (1 + 3 * T) g ∂proposal T := by
    rw [← proposal_tail_real hT hx, mul_comm, ← smul_eq_mul, ← integral_indicator_const (μ := proposal T) (0.99 : ℝ) measurableSet_Ioi]
    apply integral_mono ((integrable_const _).indicator measurableSet_Ioi) (aboveBeta_integrable _ _)
    intro g
    by_cases hg : 1 + 3 * T < g
    · rw [Set.indicator_of_mem (by exact hg)]
      unfold aboveBeta
      rw [if_pos hg]
      apply Real.le_sqrt_of_sq_le
      have : 1 / g ^ 2 ≤ 1 / 30 ^ 2 := by
        gcongr
        linarith
      norm_num at this ⊢
      linarith
    · rw [Set.indicator_of_notMem (by exact hg)]
      exact aboveBeta_nonneg _ _
  have hS : 0.397 ≤ proposalTail T (1 + 3 * T) := by
    rw [proposalTail_eq hT (by linarith), show (1 + 3 * T) / T = 1 / T + 3 by field_simp]
    obtain ⟨s, hs⟩ : ∃ s, s = 1 / T := ⟨_, rfl⟩
    have hs0 : 0 ≤ s := by rw [hs]; positivity
    have hs1 : s ≤ 0.1 := by rw [hs, div_le_iff₀ hT]; linarith
    rw [← hs]
    unfold mjG
    rw [show -(s + 3 - Real.log (1 + (s + 3) + (s + 3) ^ 2 / 2) - (s - Real.log (1 + s + s ^ 2 / 2)))
      = Real.log (1 + (s + 3) + (s + 3) ^ 2 / 2) - Real.log (1 + s + s ^ 2 / 2) + -3 by ring, Real.exp_add, Real.exp_sub,
      Real.exp_log (by positivity), Real.exp_log (by positivity)]
    have hq : 8 ≤ (1 + (s + 3) + (s + 3) ^ 2 / 2) / (1 + s + s ^ 2 / 2) := by
      rw [le_div_iff₀ (by positivity)]
      nlinarith
    have he : 0.0497 ≤ Real.exp (-3) := by
      have h1 := Real.exp_one_lt_d9
      rw [Real.exp_neg, show (3 : ℝ) = (3 : ℕ) * 1 by norm_num, Real.exp_nat_mul]
      rw [le_inv_comm₀ (by norm_num) (by positivity)]
      refine (pow_le_pow_left₀ (by positivity) h1.le 3).trans ?_
      norm_num
    calc (0.397 : ℝ) ≤ 8 * 0.0497 := by norm_num
      _ ≤ _ := mul_le_mul hq he (by norm_num) (by positivity)
  have h3 : 0.39 ≤ ∫ g, aboveBeta (1 + 3 * T) g ∂proposal T := by
    refine le_trans ?_ hN
    norm_num at hS ⊢
    linarith
  rw [le_div_iff₀ hD0]
  norm_num at h3 ⊢
  linarith

/-- **C92** (violated). The program calls the sampler with the temperature in electronvolts (src/particles.cpp:233) and takes what it
returns for electronvolts, but the sampler works in units of the rest energy. So at 10 to 3000 eV, where electrons and ions are
far from relativistic and Maxwell's distribution gives energies above three temperatures a probability below 0.14, the
program gives them a probability above 0.37. -/
theorem C92_temperature_violated (T : ℝ) (h1 : 10 ≤ T) (h2 : T ≤ 3000) (μ ν : Measure ℝ) [IsProbabilityMeasure μ]
    [IsProbabilityMeasure ν] (hμ : ∀ᵐ u ∂μ, UniformDraw u) (hμ' : NearUniform μ) (hν : NearUniform ν) :
    maxwellTail 3 ≤ 0.14 ∧
    0.37 ≤ (Rounds (μ.prod ν)).real {ω | ∃ n e, SampleRel T (firstRounds ω n) (some e) ∧ 3 * T < e} := by
  refine ⟨maxwell_three, ?_⟩
  have h := C92_law_partial T (by norm_num; linarith) h2 μ ν hμ hμ' hν (3 * T) (by linarith)
  have h3 := juttner_three h1
  have := (abs_le.1 h).1
  norm_num at this h3 ⊢
  linarith

/-- Not vacuous: a plasma at 100 eV. -/
example : 0.37 ≤ (Rounds (unifDouble.prod unif)).real {ω | ∃ n e, SampleRel 100 (firstRounds ω n) (some e) ∧ 3 * 100 < e} :=
  (C92_temperature_violated 100 (by norm_num) (by norm_num) unifDouble unif unifDouble_draw unifDouble_near unif_near).2

end Verif
