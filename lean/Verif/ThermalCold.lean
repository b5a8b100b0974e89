import Verif.ThermalTemp

/-!
# C93: the mean thermal energy at one electronvolt, the temperature of the electrons in the shipped settings
-/

namespace Verif

open MeasureTheory

/-! ## The exact law at the temperature one -/

theorem sqrt_le_half {z : ℝ} (h1 : z ≤ 1) : Real.sqrt (1 - z) ≤ 1 - z / 2 := by
  rw [Real.sqrt_le_left (by linarith)]
  nlinarith [sq_nonneg z]

theorem le_sqrt_quad {z : ℝ} (h0 : 0 ≤ z) (h1 : z ≤ 1) : 1 - z / 2 - z ^ 2 / 2 ≤ Real.sqrt (1 - z) := by
  apply Real.le_sqrt_of_sq_le
  have h2 : 0 ≤ z ^ 2 * (1 - z) * (3 + z) := by
    have : 0 ≤ 1 - z := by linarith
    positivity
  nlinarith

theorem poly_tail {a b c : ℝ} (x : ℝ) (hpos : ∀ g ∈ Set.Ioi x, 0 ≤ a * g ^ 2 + b * g + c) :
    IntegrableOn (fun g => (a * g ^ 2 + b * g + c) * Real.exp (-g)) (Set.Ioi x) ∧
    ∫ g in Set.Ioi x, (a * g ^ 2 + b * g + c) * Real.exp (-g)
      = (a * x ^ 2 + (2 * a + b) * x + (2 * a + b + c)) * Real.exp (-x) := by
  have hd : ∀ g : ℝ, HasDerivAt (fun g => -((a * g ^ 2 + (2 * a + b) * g + (2 * a + b + c)) * Real.exp (-g)))
      ((a * g ^ 2 + b * g + c) * Real.exp (-g)) g := by
    intro g
    have h1 : HasDerivAt (fun g : ℝ => a * g ^ 2 + (2 * a + b) * g + (2 * a + b + c)) (2 * a * g + (2 * a + b)) g := by
      refine (((((hasDerivAt_id g).pow 2).const_mul a).add ((hasDerivAt_id g).const_mul (2 * a + b))).add_const _).congr_deriv ?_
      simp
      ring
    refine (h1.mul ((hasDerivAt_id g).neg.exp)).neg.congr_deriv ?_
    simp
    ring
  have ht : Filter.Tendsto (fun g : ℝ => -((a * g ^ 2 + (2 * a + b) * g + (2 * a + b + c)) * Real.exp (-g))) Filter.atTop (nhds 0) := by
    have h := Real.tendsto_pow_mul_exp_neg_atTop_nhds_zero
    have := (((h 2).const_mul a).add (((h 1).const_mul (2 * a + b)).add ((h 0).const_mul (2 * a + b + c)))).neg
    simp only [mul_zero, add_zero, neg_zero] at this
    refine this.congr fun g => ?_
    ring
  have hp : ∀ g ∈ Set.Ioi x, 0 ≤ (a * g ^ 2 + b * g + c) * Real.exp (-g) := fun g hg =>
    mul_nonneg (hpos g hg) (Real.exp_pos _).le
  refine ⟨integrableOn_Ioi_deriv_of_nonneg' (fun g _ => hd g) hp ht, ?_⟩
  rw [integral_Ioi_of_hasDerivAt_of_nonneg' (fun g _ => hd g) hp ht]
  ring

theorem inv_sq_tail : IntegrableOn (fun g : ℝ => 1 / g ^ 2 * Real.exp (-g)) (Set.Ioi 1) ∧
    ∫ g in Set.Ioi (1 : ℝ), 1 / g ^ 2 * Real.exp (-g) ≤ Real.exp (-1) / 2 := by
  have hd : ∀ g ∈ Set.Ici (1 : ℝ), HasDerivAt (fun g : ℝ => -(1 / (g ^ 2 + g) * Real.exp (-g)))
      ((g ^ 2 + 3 * g + 1) / (g ^ 2 + g) ^ 2 * Real.exp (-g)) g := by
    intro g hg
    have hg : (1 : ℝ) ≤ g := hg
    have hq : g ^ 2 + g ≠ 0 := by positivity
    have h0 : HasDerivAt (fun g : ℝ => g ^ 2 + g) (2 * g + 1) g := by
      refine (((hasDerivAt_id g).pow 2).add (hasDerivAt_id g)).congr_deriv ?_
      simp
    have h1 : HasDerivAt (fun g : ℝ => 1 / (g ^ 2 + g)) (-(2 * g + 1) / (g ^ 2 + g) ^ 2) g := by
      simp only [one_div]
      exact h0.inv hq
    have h2 : HasDerivAt (fun g : ℝ => Real.exp (-g)) (-Real.exp (-g)) g := by
      refine ((hasDerivAt_id g).neg.exp).congr_deriv ?_
      simp
    refine (h1.mul h2).neg.congr_deriv ?_
    field_simp
    ring
  have ht : Filter.Tendsto (fun g : ℝ => -(1 / (g ^ 2 + g) * Real.exp (-g))) Filter.atTop (nhds 0) := by
    have h := (Real.tendsto_pow_mul_exp_neg_atTop_nhds_zero 0)
    rw [← neg_zero]
    refine Filter.Tendsto.neg ?_
    refine squeeze_zero' ?_ ?_ h
    · filter_upwards [Filter.eventually_ge_atTop 1] with g hg
      positivity
    · filter_upwards [Filter.eventually_ge_atTop 1] with g hg
      have : 1 / (g ^ 2 + g) ≤ 1 := by
        rw [div_le_one (by positivity)]; nlinarith
      simp only [pow_zero]
      gcongr
  have hp : ∀ g ∈ Set.Ioi (1 : ℝ), 0 ≤ (g ^ 2 + 3 * g + 1) / (g ^ 2 + g) ^ 2 * Real.exp (-g) := fun g hg => by
    have hg : (1 : ℝ) < g := hg
    positivity
  have hi := integrableOn_Ioi_deriv_of_nonneg' hd hp ht
  have hv := integral_Ioi_of_hasDerivAt_of_nonneg' hd hp ht
  have hle : ∀ g ∈ Set.Ioi (1 : ℝ), 1 / g ^ 2 * Real.exp (-g) ≤ (g ^ 2 + 3 * g + 1) / (g ^ 2 + g) ^ 2 * Real.exp (-g) := by
    intro g hg
    have hg : (1 : ℝ) < g := hg
    gcongr ?_ * _
    rw [div_le_div_iff₀ (by positivity) (by positivity)]
    have : 0 < g := by linarith
    nlinarith [pow_pos this 3]
  have hi2 : IntegrableOn (fun g : ℝ => 1 / g ^ 2 * Real.exp (-g)) (Set.Ioi 1) := by
    refine Integrable.mono' hi (by fun_prop) ?_
    filter_upwards [ae_restrict_mem (μ := volume) measurableSet_Ioi] with g hg
    rw [Real.norm_eq_abs, abs_of_nonneg (by positivity)]
    exact hle g hg
  refine ⟨hi2, ?_⟩
  refine (setIntegral_mono_on hi2 hi measurableSet_Ioi hle).trans ?_
  rw [hv]
  norm_num
  linarith

theorem juttner_one_le {t : ℝ} (ht : 0 ≤ t) : juttnerTail 1 (1 + t) ≤ (t ^ 2 + 4 * t + 4.5) * Real.exp (-t) / 4.25 := by
  have hint : ∀ x, 1 ≤ x → IntegrableOn (fun g : ℝ => g ^ 2 * Real.sqrt (1 - 1 / g ^ 2) * Real.exp (-g / 1)) (Set.Ioi x) := by
    intro x _
    have h := proposal_integrable (T := 1) one_pos x
    refine Integrable.mono' h ?_ ?_
    · apply Measurable.aestronglyMeasurable
      have : Measurable fun g : ℝ => Real.sqrt (1 - 1 / g ^ 2) :=
        Real.continuous_sqrt.measurable.comp (((measurable_id.pow_const 2).const_div 1).const_sub 1)
      fun_prop
    · filter_upwards with g
      rw [Real.norm_eq_abs, abs_of_nonneg (by positivity)]
      have := (beta_nonneg_le g).2
      calc g ^ 2 * Real.sqrt (1 - 1 / g ^ 2) * Real.exp (-g / 1) ≤ g ^ 2 * 1 * Real.exp (-g / 1) := by gcongr
        _ = _ := by ring
  have hz : ∀ g : ℝ, 1 < g → 0 ≤ 1 / g ^ 2 ∧ 1 / g ^ 2 ≤ 1 := by
    intro g hg
    refine ⟨by positivity, ?_⟩
    rw [div_le_one (by positivity)]
    nlinarith
  have hup : ∫ g in Set.Ioi (1 + t), g ^ 2 * Real.sqrt (1 - 1 / g ^ 2) * Real.exp (-g / 1)
      ≤ (t ^ 2 + 4 * t + 4.5) * Real.exp (-t) * Real.exp (-1) := by
    obtain ⟨hi, hv⟩ := poly_tail (a := 1) (b := 0) (c := -1 / 2) (1 + t) (fun g hg => by
      have hg : 1 + t < g := hg
      nlinarith)
    refine (setIntegral_mono_on (hint _ (by linarith)) hi measurableSet_Ioi ?_).trans ?_
    · intro g hg
      have hg : 1 + t < g := hg
      rw [div_one]
      have h1 := sqrt_le_half (hz g (by linarith)).2
      gcongr ?_ * _
      have : g ^ 2 * Real.sqrt (1 - 1 / g ^ 2) ≤ g ^ 2 * (1 - 1 / g ^ 2 / 2) := by gcongr
      refine this.trans (le_of_eq ?_)
      have : g ≠ 0 := by linarith
      field_simp
      ring
    · rw [hv, show -(1 + t) = -t + -1 by ring, Real.exp_add]
      apply le_of_eq
      ring
  have hlow : 4.25 * Real.exp (-1) ≤ ∫ g in Set.Ioi (1 : ℝ), g ^ 2 * Real.sqrt (1 - 1 / g ^ 2) * Real.exp (-g / 1) := by
    obtain ⟨hi, hv⟩ := poly_tail (a := 1) (b := 0) (c := -1 / 2) 1 (fun g hg => by
      have hg : 1 < g := hg
      nlinarith)
    obtain ⟨hi2, hv2⟩ := inv_sq_tail
    have hmono := setIntegral_mono_on (hi.sub (hi2.const_mul (1 / 2))) (hint 1 le_rfl) measurableSet_Ioi (by
      intro g hg
      have hg : 1 < g := hg
      have h1 := le_sqrt_quad (hz g hg).1 (hz g hg).2
      change (1 * g ^ 2 + 0 * g + -1 / 2) * Real.exp (-g) - 1 / 2 * (1 / g ^ 2 * Real.exp (-g)) ≤ _
      rw [div_one]
      calc (1 * g ^ 2 + 0 * g + -1 / 2) * Real.exp (-g) - 1 / 2 * (1 / g ^ 2 * Real.exp (-g))
          = g ^ 2 * (1 - 1 / g ^ 2 / 2 - (1 / g ^ 2) ^ 2 / 2) * Real.exp (-g) := by
            have : g ≠ 0 := by linarith
            field_simp
            ring
        _ ≤ _ := by gcongr)
    rw [integral_sub' hi (hi2.const_mul (1 / 2)), integral_const_mul, hv] at hmono
    refine le_trans ?_ hmono
    norm_num at hv2 ⊢
    linarith
  unfold juttnerTail
  have he := Real.exp_pos (-1)
  rw [div_le_div_iff₀ (lt_of_lt_of_le (by positivity) hlow) (by norm_num)]
  calc _ ≤ (t ^ 2 + 4 * t + 4.5) * Real.exp (-t) * Real.exp (-1) * 4.25 := by gcongr
    _ = (t ^ 2 + 4 * t + 4.5) * Real.exp (-t) * (4.25 * Real.exp (-1)) := by ring
    _ ≤ _ := by gcongr

/-! ## Large energies -/

theorem mjG_large {x : ℝ} (hx : 10 ≤ x) : 5.8 + 0.8 * (x - 10) ≤ mjG x := by
  have h10 : 5.8 ≤ mjG 10 := by
    unfold mjG
    have : Real.log (1 + 10 + 10 ^ 2 / 2) ≤ 4.2 := by
      rw [Real.log_le_iff_le_exp (by norm_num)]
      have h1 := Real.exp_one_gt_d9
      rw [show (4.2 : ℝ) = (4 : ℕ) * 1 + 0.2 by norm_num, Real.exp_add, Real.exp_nat_mul]
      have h2 := Real.add_one_le_exp (0.2 : ℝ)
      have h3 : (2.718 : ℝ) ^ 4 ≤ Real.exp 1 ^ 4 := pow_le_pow_left₀ (by norm_num) (by linarith) 4
      calc (1 + 10 + 10 ^ 2 / 2 : ℝ) ≤ 2.718 ^ 4 * (0.2 + 1) := by norm_num
        _ ≤ _ := by gcongr
    norm_num at this ⊢
    linarith
  have hm := mono_of_deriv (f := fun y => mjG (y + 10) - 0.8 * y) (f' := fun y => (y + 10) ^ 2 / (2 + 2 * (y + 10) + (y + 10) ^ 2) - 0.8)
    (fun y _ => by
      have h1 := (mjG_hasDeriv (y + 10)).comp y ((hasDerivAt_id y).add_const 10)
      refine (h1.sub ((hasDerivAt_id y).const_mul 0.8)).congr_deriv ?_
      simp) (fun y hy => by
      have hD := mjD_pos (y + 10)
      rw [sub_nonneg, le_div_iff₀ hD]
      nlinarith) (le_refl 0) (show (0 : ℝ) ≤ x - 10 by linarith)
  simp only [zero_add, mul_zero, sub_zero, sub_add_cancel] at hm
  linarith

theorem mjG_one' : mjG (1 / 1) ≤ 0.1 := by
  refine (mjG_le (by norm_num)).trans ?_
  norm_num

theorem guess_large {u x : ℝ} (hx : 10 ≤ x) (hu : UniformDraw u) (h : x < guessOf 1 u) :
    5.6 + 0.79 * (x - 10) ≤ -Real.log (1 - u) := by
  have hl := guess_log (T := 1) (by norm_num) (by norm_num) hu
  rw [div_one] at hl
  have h53 : (0 : ℝ) < 1 / 2 ^ 53 := by positivity
  have hu1 : 0 < 1 - u := by linarith [hu.2]
  have hlu : Real.log (1 - u) ≤ 0 := Real.log_nonpos hu1.le (by linarith [hu.1])
  have hG1 : 0 < mjG (1 / 1) := mjG_pos (by norm_num)
  have hG : 0 < mjG (guessOf 1 u) := mjG_pos (by linarith)
  have r := guess_ratio hG (by linarith : 0 < mjG (1 / 1) - Real.log (1 - u)) hl
  have h1 := mjG_large hx
  have h2 := mjG_mono (by linarith) h.le
  have h3 := mjG_one'
  obtain ⟨q, hq⟩ : ∃ q, q = mjG (1 / 1) := ⟨_, rfl⟩
  rw [← hq] at r h3
  norm_num at r h1 h3 ⊢
  nlinarith

theorem guess_bound {u : ℝ} (hu : UniformDraw u) : guessOf 1 u ≤ 101 := by
  by_contra hc
  have h := guess_large (x := 101) (by norm_num) hu (not_le.1 hc)
  have hu1 : (1 / 2 ^ 53 : ℝ) ≤ 1 - u := by linarith [hu.2]
  have h2 : Real.log (1 / 2 ^ 53) ≤ Real.log (1 - u) := Real.log_le_log (by positivity) hu1
  rw [one_div, Real.log_inv, Real.log_pow] at h2
  have := Real.log_two_lt_d9
  push_cast at h2
  norm_num at h this
  linarith

theorem guess_tail_large {μ : Measure ℝ} [IsProbabilityMeasure μ] (hμ : ∀ᵐ u ∂μ, UniformDraw u) (hn : NearUniform μ) {x : ℝ}
    (hx : 10 ≤ x) : μ.real (guessOf 1 ⁻¹' Set.Ioi x) ≤ Real.exp (-(5.6 + 0.79 * (x - 10))) + 1 / 2 ^ 52 := by
  have he0 := Real.exp_pos (-(5.6 + 0.79 * (x - 10)))
  have he1 : Real.exp (-(5.6 + 0.79 * (x - 10))) ≤ 1 := Real.exp_le_one_iff.2 (by norm_num; linarith)
  have hle : μ.real (guessOf 1 ⁻¹' Set.Ioi x) ≤ μ.real (Set.Ici (1 - Real.exp (-(5.6 + 0.79 * (x - 10))))) := by
    refine ENNReal.toReal_mono (measure_ne_top _ _) (measure_mono_ae ?_)
    filter_upwards [hμ] with u hu hg
    have h := guess_large hx hu hg
    have h53 : (0 : ℝ) < 1 / 2 ^ 53 := by positivity
    have hu1 : 0 < 1 - u := by linarith [hu.2]
    have : 1 - u ≤ Real.exp (-(5.6 + 0.79 * (x - 10))) := by
      rw [← Real.log_le_iff_le_exp hu1]
      linarith
    change _ ≤ u
    linarith
  have := hn.high _ (by linarith) (by linarith : 1 - Real.exp (-(5.6 + 0.79 * (x - 10))) ≤ 1)
  linarith

theorem energy_tail_large {μ ν : Measure ℝ} [IsProbabilityMeasure μ] [IsProbabilityMeasure ν] (hμ : ∀ᵐ u ∂μ, UniformDraw u)
    (hμ' : NearUniform μ) (hν : NearUniform ν) {t : ℝ} (ht : 9 ≤ t) :
    (Rounds (μ.prod ν)).real {ω | ∃ n e, SampleRel 1 (firstRounds ω n) (some e) ∧ t < e}
      ≤ (Real.exp (-(5.6 + 0.79 * (t - 9))) + 1 / 2 ^ 52) / 0.25 ∧
    (100 ≤ t → (Rounds (μ.prod ν)).real {ω | ∃ n e, SampleRel 1 (firstRounds ω n) (some e) ∧ t < e} = 0) := by
  rw [round_real (by norm_num) (by norm_num) μ ν hμ t]
  have hD := accept_all (T := 1) (by norm_num) (by norm_num) μ ν hμ hμ' hν
  have hb := beta_mean_ge (T := 1) (by norm_num)
  have hD' : 0.25 ≤ (μ.prod ν).real (AcceptSet 1 Set.univ) := by
    have := (abs_le.1 hD).1
    norm_num at this hb ⊢
    linarith
  have hsub : (μ.prod ν).real (AcceptSet 1 (Set.Ioi t)) ≤ μ.real (guessOf 1 ⁻¹' Set.Ioi (1 + t)) := by
    have h1 : AcceptSet 1 (Set.Ioi t) ⊆ (guessOf 1 ⁻¹' Set.Ioi (1 + t)) ×ˢ Set.univ := by
      rintro d ⟨-, -, h⟩
      have h : t < guessOf 1 d.1 - 1 := h
      refine ⟨?_, trivial⟩
      change 1 + t < guessOf 1 d.1
      linarith
    refine (measureReal_mono h1).trans ?_
    rw [measureReal_prod_prod, probReal_univ, mul_one]
  constructor
  · have := guess_tail_large hμ hμ' (x := 1 + t) (by linarith)
    rw [show 1 + t - 10 = t - 9 by ring] at this
    have hN := hsub.trans this
    have h0 : 0 ≤ Real.exp (-(5.6 + 0.79 * (t - 9))) + 1 / 2 ^ 52 := by positivity
    gcongr
  · intro ht'
    have : μ.real (guessOf 1 ⁻¹' Set.Ioi (1 + t)) = 0 := by
      rw [measureReal_def]
      have h0 : μ (guessOf 1 ⁻¹' Set.Ioi (1 + t)) = 0 := by
        have hae : ∀ᵐ u ∂μ, ¬ 1 + t < guessOf 1 u := by
          filter_upwards [hμ] with u hu
          have := guess_bound hu
          linarith
        rw [ae_iff] at hae
        simp only [not_not] at hae
        exact hae
      rw [h0, ENNReal.toReal_zero]
    rw [this] at hsub
    rw [le_antisymm hsub measureReal_nonneg, zero_div]

/-! ## The mean -/

theorem cold_mean {μ ν : Measure ℝ} [IsProbabilityMeasure μ] [IsProbabilityMeasure ν] (hμ : ∀ᵐ u ∂μ, UniformDraw u)
    (hμ' : NearUniform μ) (hν : NearUniform ν) {en : (ℕ → ℝ × ℝ) → ℝ} (hen : StoredEnergy 1 (μ.prod ν) en) :
    ∫⁻ ω, ENNReal.ofReal (max (en ω) 0) ∂Rounds (μ.prod ν) ≤ ENNReal.ofReal 2.64 := by
  have hd := prod_draw (ν := ν) hμ
  have hae := stored_aemeasurable (by norm_num) (by norm_num) hd hen
  rw [lintegral_eq_lintegral_meas_lt (f := fun ω => max (en ω) 0) _ (Filter.Eventually.of_forall fun ω => le_max_right _ _) (hae.max aemeasurable_const)]
  have hset : ∀ t, 0 < t → (Rounds (μ.prod ν)) {ω | t < max (en ω) 0}
      = ENNReal.ofReal ((Rounds (μ.prod ν)).real {ω | ∃ n e, SampleRel 1 (firstRounds ω n) (some e) ∧ t < e}) := by
    intro t ht
    have e : {ω | t < max (en ω) 0} = en ⁻¹' Set.Ioi t := by
      ext ω
      simp only [Set.mem_setOf_eq, lt_max_iff, Set.mem_preimage, Set.mem_Ioi]
      constructor
      · rintro (h | h)
        · exact h
        · linarith
      · intro h; exact Or.inl h
    rw [e, measure_congr (stored_iff (by norm_num) (by norm_num) hd hen _), measureReal_def, ENNReal.ofReal_toReal (measure_ne_top _ _)]
    rfl
  have hfun : ∀ t ∈ Set.Ioi (0 : ℝ), (Rounds (μ.prod ν)) {ω | t < max (en ω) 0} ≤
      ENNReal.ofReal ((Set.Ioc 0 9).indicator (fun t => (t ^ 2 + 4 * t + 4.5) * Real.exp (-t) / 4.25 + 0.015) t
        + (Set.Ioc 9 100).indicator (fun t => (Real.exp (-(5.6 + 0.79 * (t - 9))) + 1 / 2 ^ 52) / 0.25) t) := by
    intro t ht
    have ht : 0 < t := ht
    rw [hset t ht]
    apply ENNReal.ofReal_le_ofReal
    rcases le_or_gt t 9 with h9 | h9
    · rw [Set.indicator_of_mem (show t ∈ Set.Ioc 0 9 from ⟨ht, h9⟩), Set.indicator_of_notMem (by simp [h9]), add_zero]
      have h := C92_law_partial 1 (by norm_num) (by norm_num) μ ν hμ hμ' hν t ht.le
      have := (abs_le.1 h).2
      have := juttner_one_le ht.le
      linarith
    · rw [Set.indicator_of_notMem (fun h => absurd h.2 (not_le.2 h9)), zero_add]
      obtain ⟨a, b⟩ := energy_tail_large hμ hμ' hν h9.le
      rcases le_or_gt t 100 with h100 | h100
      · rw [Set.indicator_of_mem (show t ∈ Set.Ioc 9 100 from ⟨h9, h100⟩)]
        exact a
      · rw [b h100.le]
        exact Set.indicator_nonneg (fun t _ => by positivity) _
  refine (setLIntegral_mono' measurableSet_Ioi hfun).trans ?_
  have c1 : Continuous fun t : ℝ => (t ^ 2 + 4 * t + 4.5) * Real.exp (-t) / 4.25 + 0.015 := by fun_prop
  have c2 : Continuous fun t : ℝ => (Real.exp (-(5.6 + 0.79 * (t - 9))) + 1 / 2 ^ 52) / 0.25 := by fun_prop
  have i1 : Integrable ((Set.Ioc (0 : ℝ) 9).indicator fun t => (t ^ 2 + 4 * t + 4.5) * Real.exp (-t) / 4.25 + 0.015) volume :=
    (integrable_indicator_iff measurableSet_Ioc).2 (c1.continuousOn.integrableOn_Icc.mono_set Set.Ioc_subset_Icc_self)
  have i2 : Integrable ((Set.Ioc (9 : ℝ) 100).indicator fun t => (Real.exp (-(5.6 + 0.79 * (t - 9))) + 1 / 2 ^ 52) / 0.25) volume :=
    (integrable_indicator_iff measurableSet_Ioc).2 (c2.continuousOn.integrableOn_Icc.mono_set Set.Ioc_subset_Icc_self)
  have i12 : IntegrableOn (fun t => (Set.Ioc 0 9).indicator (fun t => (t ^ 2 + 4 * t + 4.5) * Real.exp (-t) / 4.25 + 0.015) t
      + (Set.Ioc 9 100).indicator (fun t => (Real.exp (-(5.6 + 0.79 * (t - 9))) + 1 / 2 ^ 52) / 0.25) t) (Set.Ioi 0) volume :=
    (i1.add i2).integrableOn
  rw [← ofReal_integral_eq_lintegral_ofReal i12]
  · apply ENNReal.ofReal_le_ofReal
    have hle : ∫ t in Set.Ioi (0 : ℝ), ((Set.Ioc 0 9).indicator (fun t => (t ^ 2 + 4 * t + 4.5) * Real.exp (-t) / 4.25 + 0.015) t
        + (Set.Ioc 9 100).indicator (fun t => (Real.exp (-(5.6 + 0.79 * (t - 9))) + 1 / 2 ^ 52) / 0.25) t)
        ≤ ∫ t, ((Set.Ioc 0 9).indicator (fun t => (t ^ 2 + 4 * t + 4.5) * Real.exp (-t) / 4.25 + 0.015) t
        + (Set.Ioc 9 100).indicator (fun t => (Real.exp (-(5.6 + 0.79 * (t - 9))) + 1 / 2 ^ 52) / 0.25) t) := by
      refine setIntegral_le_integral (i1.add i2) (Filter.Eventually.of_forall fun t => ?_)
      refine add_nonneg (Set.indicator_nonneg (fun t ht => ?_) _) (Set.indicator_nonneg (fun t _ => by positivity) _)
      have := ht.1
      positivity
    refine hle.trans ?_
    rw [integral_add i1 i2, integral_indicator measurableSet_Ioc, integral_indicator measurableSet_Ioc,
      ← intervalIntegral.integral_of_le (by norm_num), ← intervalIntegral.integral_of_le (by norm_num)]
    have v1 : ∫ t in (0 : ℝ)..9, ((t ^ 2 + 4 * t + 4.5) * Real.exp (-t) / 4.25 + 0.015)
        = (fun t : ℝ => -((t ^ 2 + 6 * t + 10.5) * Real.exp (-t)) / 4.25 + 0.015 * t) 9
          - (fun t : ℝ => -((t ^ 2 + 6 * t + 10.5) * Real.exp (-t)) / 4.25 + 0.015 * t) 0 := by
      refine intervalIntegral.integral_eq_sub_of_hasDerivAt
        (f := fun t : ℝ => -((t ^ 2 + 6 * t + 10.5) * Real.exp (-t)) / 4.25 + 0.015 * t) (fun t _ => ?_) (c1.intervalIntegrable _ _)
      have h1 : HasDerivAt (fun t : ℝ => t ^ 2 + 6 * t + 10.5) (2 * t + 6) t := by
        refine ((((hasDerivAt_id t).pow 2).add ((hasDerivAt_id t).const_mul 6)).add_const _).congr_deriv ?_
        simp
      refine (((h1.mul ((hasDerivAt_id t).neg.exp)).neg.div_const 4.25).add ((hasDerivAt_id t).const_mul 0.015)).congr_deriv ?_
      simp
      ring
    have v2 : ∫ t in (9 : ℝ)..100, ((Real.exp (-(5.6 + 0.79 * (t - 9))) + 1 / 2 ^ 52) / 0.25)
        = (fun t : ℝ => (-(Real.exp (-(5.6 + 0.79 * (t - 9))) / 0.79) + 1 / 2 ^ 52 * t) / 0.25) 100
          - (fun t : ℝ => (-(Real.exp (-(5.6 + 0.79 * (t - 9))) / 0.79) + 1 / 2 ^ 52 * t) / 0.25) 9 := by
      refine intervalIntegral.integral_eq_sub_of_hasDerivAt
        (f := fun t : ℝ => (-(Real.exp (-(5.6 + 0.79 * (t - 9))) / 0.79) + 1 / 2 ^ 52 * t) / 0.25) (fun t _ => ?_) (c2.intervalIntegrable _ _)
      have h1 : HasDerivAt (fun t : ℝ => -(5.6 + 0.79 * (t - 9))) (-0.79) t := by
        refine (((((hasDerivAt_id t).sub_const 9).const_mul 0.79).const_add 5.6).neg).congr_deriv ?_
        simp
      refine ((((h1.exp).div_const 0.79).neg.add ((hasDerivAt_id t).const_mul (1 / 2 ^ 52))).div_const 0.25).congr_deriv ?_
      field_simp
    rw [v1, v2]
    have p1 := Real.exp_pos (-9)
    have p2 := Real.exp_pos (-(5.6 + 0.79 * (100 - 9)))
    have p3 : Real.exp (-(5.6 + 0.79 * (9 - 9))) ≤ 0.0045 := by
      have h1 := Real.exp_one_gt_d9
      have e : (-(5.6 + 0.79 * (9 - 9)) : ℝ) = -((5 : ℕ) * 1 + 0.6) := by norm_num
      rw [e, Real.exp_neg, Real.exp_add, Real.exp_nat_mul, inv_le_comm₀ (by positivity) (by norm_num)]
      have h2 := Real.add_one_le_exp (0.6 : ℝ)
      have h3 : (2.718 : ℝ) ^ 5 ≤ Real.exp 1 ^ 5 := pow_le_pow_left₀ (by norm_num) (by linarith) 5
      calc ((0.0045 : ℝ))⁻¹ ≤ 2.718 ^ 5 * (0.6 + 1) := by norm_num
        _ ≤ _ := by gcongr
    norm_num at p1 p2 p3 ⊢
    linarith
  · refine Filter.Eventually.of_forall fun t => ?_
    refine add_nonneg (Set.indicator_nonneg (fun t ht => ?_) _) (Set.indicator_nonneg (fun t _ => by positivity) _)
    have := ht.1
    positivity

/-- **C93** (violated). At one electronvolt, the temperature of the electrons in the shipped settings, the plasma starts too cold:
the mean kinetic energy of its particles is below 1.45 eV and not 1.5 eV. -/
theorem C93_cold_violated (mass : ℝ) (hm : 0 < mass) (μ ν : Measure ℝ)
    [IsProbabilityMeasure μ] [IsProbabilityMeasure ν] (hμ : ∀ᵐ u ∂μ, UniformDraw u) (hμ' : NearUniform μ) (hν : NearUniform ν)
    (en : (ℕ → ℝ × ℝ) → ℝ) (hen : StoredEnergy 1 (μ.prod ν) en) :
    meanKinetic mass (μ.prod ν) en ≤ ENNReal.ofReal 1.45 := by
  unfold meanKinetic
  have hpt : ∀ ω, ENNReal.ofReal (∫ r, kineticEV mass (drawnVelocity mass (en ω) r) ∂cubeLaw)
      ≤ ENNReal.ofReal 0.5476 * ENNReal.ofReal (max (en ω) 0) := by
    intro ω
    rw [← ENNReal.ofReal_mul (by norm_num)]
    apply ENNReal.ofReal_le_ofReal
    rcases le_or_gt (en ω) 0 with h | h
    · rw [kinetic_neg hm h]
      positivity
    · rw [max_eq_left h.le]
      exact (C93_kinetic mass _ hm h.le).2
  refine (lintegral_mono hpt).trans ?_
  rw [lintegral_const_mul' _ _ ENNReal.ofReal_ne_top]
  refine (mul_le_mul_right (cold_mean hμ hμ' hν hen) _).trans ?_
  rw [← ENNReal.ofReal_mul (by norm_num)]
  apply ENNReal.ofReal_le_ofReal
  norm_num

/-- Not vacuous: electrons. -/
example : ∃ en, StoredEnergy 1 (unifDouble.prod unif) en ∧ meanKinetic EL_MASS (unifDouble.prod unif) en ≤ ENNReal.ofReal 1.45 := by
  obtain ⟨en, h⟩ := stored_exists 1 (by norm_num) (by norm_num) unifDouble unif unifDouble_draw unifDouble_near unif_near
  exact ⟨en, h, C93_cold_violated EL_MASS EL_MASS_pos unifDouble unif unifDouble_draw unifDouble_near unif_near en h⟩

end Verif
