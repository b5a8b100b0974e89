import Verif.ThermalCold

/-!
# C93: the mean thermal energy from a tenth of an electronvolt to one
-/

namespace Verif

open MeasureTheory

/-! ## Colder gases have smaller energies in units of the temperature -/

/-- the density of the energy in units of the temperature -/
noncomputable def juttnerDensity (T s : ℝ) : ℝ := (1 + T * s) ^ 2 * Real.sqrt (1 - 1 / (1 + T * s) ^ 2) * Real.exp (-s)

theorem juttnerDensity_nonneg (T s : ℝ) : 0 ≤ juttnerDensity T s := by unfold juttnerDensity; positivity

theorem juttnerDensity_eq {T s : ℝ} (hT : 0 < T) (hs : 0 ≤ s) :
    juttnerDensity T s = (1 + T * s) * Real.sqrt (2 + T * s) * (Real.sqrt (T * s) * Real.exp (-s)) := by
  have h1 : 0 < 1 + T * s := by positivity
  have e : (1 + T * s) ^ 2 * Real.sqrt (1 - 1 / (1 + T * s) ^ 2) = (1 + T * s) * Real.sqrt (2 + T * s) * Real.sqrt (T * s) := by
    rw [mul_assoc _ (Real.sqrt _) (Real.sqrt _), ← Real.sqrt_mul (by positivity),
      show (2 + T * s) * (T * s) = (1 + T * s) ^ 2 * (1 - 1 / (1 + T * s) ^ 2) by field_simp; ring,
      Real.sqrt_mul (by positivity), Real.sqrt_sq h1.le]
    ring
  unfold juttnerDensity
  rw [e]
  ring

theorem juttnerDensity_cross {T s t : ℝ} (hT : 0 < T) (h1 : T ≤ 1) (hs : 0 ≤ s) (hst : s ≤ t) :
    juttnerDensity 1 s * juttnerDensity T t ≤ juttnerDensity 1 t * juttnerDensity T s := by
  have ht : 0 ≤ t := hs.trans hst
  rw [juttnerDensity_eq one_pos hs, juttnerDensity_eq hT ht, juttnerDensity_eq one_pos ht, juttnerDensity_eq hT hs]
  have a : (1 + 1 * s) * (1 + T * t) ≤ (1 + 1 * t) * (1 + T * s) := by nlinarith
  have b : Real.sqrt (2 + 1 * s) * Real.sqrt (2 + T * t) ≤ Real.sqrt (2 + 1 * t) * Real.sqrt (2 + T * s) := by
    rw [← Real.sqrt_mul (by positivity), ← Real.sqrt_mul (by positivity)]
    apply Real.sqrt_le_sqrt
    nlinarith
  have c : Real.sqrt (1 * s) * Real.sqrt (T * t) = Real.sqrt (1 * t) * Real.sqrt (T * s) := by
    rw [← Real.sqrt_mul (by positivity), ← Real.sqrt_mul (by positivity)]
    congr 1
    ring
  have ab := mul_le_mul a b (by positivity) (by positivity)
  have := mul_le_mul_of_nonneg_right ab
    (show 0 ≤ Real.sqrt (1 * t) * Real.sqrt (T * s) * (Real.exp (-s) * Real.exp (-t)) by positivity)
  calc _ = (1 + 1 * s) * (1 + T * t) * (Real.sqrt (2 + 1 * s) * Real.sqrt (2 + T * t)) *
        (Real.sqrt (1 * s) * Real.sqrt (T * t) * (Real.exp (-s) * Real.exp (-t))) := by ring
    _ = (1 + 1 * s) * (1 + T * t) * (Real.sqrt (2 + 1 * s) * Real.sqrt (2 + T * t)) *
        (Real.sqrt (1 * t) * Real.sqrt (T * s) * (Real.exp (-s) * Real.exp (-t))) := by rw [c]
    _ ≤ _ := this
    _ = _ := by ring

theorem juttnerDensity_integrable {T : ℝ} (hT : 0 ≤ T) : IntegrableOn (juttnerDensity T) (Set.Ioi 0) := by
  obtain ⟨hi, -⟩ := poly_tail (a := T ^ 2) (b := 2 * T) (c := 1) 0 (fun g hg => by
    have hg : 0 < g := hg
    positivity)
  refine Integrable.mono' hi ?_ ?_
  · apply Measurable.aestronglyMeasurable
    have : Measurable fun s : ℝ => Real.sqrt (1 - 1 / (1 + T * s) ^ 2) :=
      Real.continuous_sqrt.measurable.comp (((((measurable_id.const_mul T).const_add 1).pow_const 2).const_div 1).const_sub 1)
    unfold juttnerDensity
    fun_prop
  · filter_upwards with s
    rw [Real.norm_eq_abs, abs_of_nonneg (juttnerDensity_nonneg T s)]
    have := (beta_nonneg_le (1 + T * s)).2
    unfold juttnerDensity
    calc (1 + T * s) ^ 2 * Real.sqrt (1 - 1 / (1 + T * s) ^ 2) * Real.exp (-s) ≤ (1 + T * s) ^ 2 * 1 * Real.exp (-s) := by gcongr
      _ = _ := by ring

theorem juttner_scale {T : ℝ} (hT : 0 < T) (y : ℝ) :
    ∫ g in Set.Ioi (1 + T * y), g ^ 2 * Real.sqrt (1 - 1 / g ^ 2) * Real.exp (-g / T)
      = T * Real.exp (-1 / T) * ∫ s in Set.Ioi y, juttnerDensity T s := by
  have h1 := (measurePreserving_add_right (volume : Measure ℝ) 1).setIntegral_preimage_emb (measurableEmbedding_addRight 1)
    (fun g : ℝ => g ^ 2 * Real.sqrt (1 - 1 / g ^ 2) * Real.exp (-g / T)) (Set.Ioi (1 + T * y))
  rw [← h1, Set.preimage_add_const_Ioi, add_sub_cancel_left]
  have h2 := integral_comp_mul_left_Ioi' (fun x : ℝ => (x + 1) ^ 2 * Real.sqrt (1 - 1 / (x + 1) ^ 2) * Real.exp (-(x + 1) / T)) y hT
  rw [← h2, smul_eq_mul, mul_assoc, ← integral_const_mul (Real.exp (-1 / T))]
  congr 1
  apply setIntegral_congr_fun measurableSet_Ioi
  intro s _
  change (T * s + 1) ^ 2 * Real.sqrt (1 - 1 / (T * s + 1) ^ 2) * Real.exp (-(T * s + 1) / T) = _
  unfold juttnerDensity
  rw [show -(T * s + 1) / T = -1 / T + -s by field_simp; ring, Real.exp_add, add_comm (T * s) 1]
  ring

theorem juttner_ratio {T : ℝ} (hT : 0 < T) (y : ℝ) :
    juttnerTail T (1 + T * y) = (∫ s in Set.Ioi y, juttnerDensity T s) / ∫ s in Set.Ioi (0 : ℝ), juttnerDensity T s := by
  unfold juttnerTail
  have h0 := juttner_scale hT 0
  rw [mul_zero, add_zero] at h0
  rw [juttner_scale hT y, h0, mul_div_mul_left _ _ (by positivity)]

/-- In units of the temperature, the energies of a gas below the temperature one are smaller than those at one. -/
theorem juttner_colder {T : ℝ} (hT : 0 < T) (h1 : T ≤ 1) {y : ℝ} (hy : 0 ≤ y) :
    juttnerTail T (1 + T * y) ≤ juttnerTail 1 (1 + y) := by
  have e1 := juttner_ratio one_pos y
  rw [one_mul] at e1
  rw [juttner_ratio hT y, e1]
  have i1 := juttnerDensity_integrable (T := 1) zero_le_one
  have iT := juttnerDensity_integrable hT.le
  have split : ∀ {S : ℝ}, IntegrableOn (juttnerDensity S) (Set.Ioi 0) → ∫ s in Set.Ioi (0 : ℝ), juttnerDensity S s
      = (∫ s in Set.Ioc 0 y, juttnerDensity S s) + ∫ s in Set.Ioi y, juttnerDensity S s := by
    intro S hS
    rw [← setIntegral_union (Set.Ioc_disjoint_Ioi le_rfl) measurableSet_Ioi (hS.mono_set Set.Ioc_subset_Ioi_self)
      (hS.mono_set (Set.Ioi_subset_Ioi hy)), Set.Ioc_union_Ioi_eq_Ioi hy]
  have pos : ∀ {S : ℝ}, 0 < S → IntegrableOn (juttnerDensity S) (Set.Ioi 0) → 0 < ∫ s in Set.Ioi (0 : ℝ), juttnerDensity S s := by
    intro S hS hi
    rw [setIntegral_pos_iff_support_of_nonneg_ae (Filter.Eventually.of_forall fun s => juttnerDensity_nonneg S s) hi]
    have : Set.Ioi (0 : ℝ) ⊆ Function.support (juttnerDensity S) ∩ Set.Ioi 0 := by
      intro s hs
      have hs' : 0 < s := hs
      refine ⟨?_, hs⟩
      rw [Function.mem_support, juttnerDensity_eq hS hs'.le]
      positivity
    exact lt_of_lt_of_le (by simp) (measure_mono this)
  have j1 := i1.mono_set (Set.Ioi_subset_Ioi hy)
  have jT := iT.mono_set (Set.Ioi_subset_Ioi hy)
  have k1 := i1.mono_set (Set.Ioc_subset_Ioi_self (a := y) (b := 0))
  have kT := iT.mono_set (Set.Ioc_subset_Ioi_self (a := y) (b := 0))
  have inner : ∀ s ∈ Set.Ioc 0 y, juttnerDensity 1 s * (∫ t in Set.Ioi y, juttnerDensity T t)
      ≤ (∫ t in Set.Ioi y, juttnerDensity 1 t) * juttnerDensity T s := by
    intro s hs
    rw [← integral_const_mul, ← integral_mul_const]
    exact setIntegral_mono_on (jT.const_mul _) (j1.mul_const _) measurableSet_Ioi fun t ht =>
      juttnerDensity_cross hT h1 hs.1.le (hs.2.trans (le_of_lt ht))
  have outer : (∫ s in Set.Ioc 0 y, juttnerDensity 1 s) * (∫ t in Set.Ioi y, juttnerDensity T t)
      ≤ (∫ t in Set.Ioi y, juttnerDensity 1 t) * ∫ s in Set.Ioc 0 y, juttnerDensity T s := by
    obtain ⟨A, hA⟩ : ∃ A, A = ∫ t in Set.Ioi y, juttnerDensity T t := ⟨_, rfl⟩
    obtain ⟨B, hB⟩ : ∃ B, B = ∫ t in Set.Ioi y, juttnerDensity 1 t := ⟨_, rfl⟩
    rw [← hA, ← hB] at inner ⊢
    rw [← integral_const_mul, ← integral_mul_const]
    exact setIntegral_mono_on (k1.mul_const _) (kT.const_mul _) measurableSet_Ioc inner
  rw [div_le_div_iff₀ (pos hT iT) (pos one_pos i1), split i1, split iT]
  linarith

/-! ## Large energies -/

theorem mjG_step {s y : ℝ} (hs : 1 ≤ s) (hy : 0 ≤ y) : mjG (1 + y) - mjG 1 ≤ mjG (s + y) - mjG s := by
  have hm := mono_of_deriv (f := fun x => mjG (x + y) - mjG x)
    (f' := fun x => (x + y) ^ 2 / (2 + 2 * (x + y) + (x + y) ^ 2) - x ^ 2 / (2 + 2 * x + x ^ 2))
    (fun x _ => by
      have h1 := (mjG_hasDeriv (x + y)).comp x ((hasDerivAt_id x).add_const y)
      refine (h1.sub (mjG_hasDeriv x)).congr_deriv ?_
      simp) (fun x hx => by
      rw [sub_nonneg, div_le_div_iff₀ (mjD_pos x) (mjD_pos (x + y))]
      have : 0 ≤ x * y * (x + y) := by positivity
      nlinarith [mul_nonneg hx hy, sq_nonneg y]) (zero_le_one) hs
  exact hm

theorem mjG_le_self {y : ℝ} (hy : 0 ≤ y) : mjG y ≤ y := by
  refine (mjG_le hy).trans ?_
  rw [div_le_iff₀ (by positivity)]
  nlinarith [mul_nonneg hy hy]

theorem cool_large {T u y : ℝ} (h1 : 0.1 ≤ T) (h2 : T ≤ 1) (hy : 9 ≤ y) (hu : UniformDraw u) (h : 1 + T * y < guessOf T u) :
    5.6 + 0.79 * (y - 9) ≤ -Real.log (1 - u) := by
  have hT : 0 < T := by linarith
  have hl := guess_log h1 (by linarith) hu
  have h53 : (0 : ℝ) < 1 / 2 ^ 53 := by positivity
  have hu1 : 0 < 1 - u := by linarith [hu.2]
  have hlu : Real.log (1 - u) ≤ 0 := Real.log_nonpos hu1.le (by linarith [hu.1])
  have hi1 : 1 ≤ 1 / T := by rw [le_div_iff₀ hT]; linarith
  have hi2 : 1 / T ≤ 10 := by rw [div_le_iff₀ hT]; linarith
  have hG1 : 0 < mjG (1 / T) := mjG_pos (by linarith)
  have hg : 1 / T + y < guessOf T u / T := by
    rw [lt_div_iff₀ hT]
    calc (1 / T + y) * T = 1 + T * y := by field_simp
      _ < _ := h
  have hG : 0 < mjG (guessOf T u / T) := mjG_pos (by linarith)
  have r := guess_ratio hG (by linarith : 0 < mjG (1 / T) - Real.log (1 - u)) hl
  have a1 := mjG_large (x := 1 + y) (by linarith)
  have a2 := mjG_mono (by linarith) hg.le
  have a3 := mjG_one'
  have a4 := mjG_step hi1 (by linarith : 0 ≤ y)
  have a5 := mjG_le_self (by linarith : 0 ≤ 1 / T)
  rw [div_one] at a3
  obtain ⟨q, hq⟩ : ∃ q, q = mjG (1 / T) := ⟨_, rfl⟩
  rw [← hq] at r a4 a5
  norm_num at r a1 a3 ⊢
  nlinarith

theorem cool_bound {T u : ℝ} (h1 : 0.1 ≤ T) (h2 : T ≤ 1) (hu : UniformDraw u) : guessOf T u ≤ 1 + T * 100 := by
  by_contra hc
  have h := cool_large (y := 100) h1 h2 (by norm_num) hu (not_le.1 hc)
  have hu1 : (1 / 2 ^ 53 : ℝ) ≤ 1 - u := by linarith [hu.2]
  have h2 : Real.log (1 / 2 ^ 53) ≤ Real.log (1 - u) := Real.log_le_log (by positivity) hu1
  rw [one_div, Real.log_inv, Real.log_pow] at h2
  have := Real.log_two_lt_d9
  push_cast at h2
  norm_num at h this
  linarith

theorem cool_tail {T : ℝ} (h1 : 0.1 ≤ T) (h2 : T ≤ 1) {μ : Measure ℝ} [IsProbabilityMeasure μ] (hμ : ∀ᵐ u ∂μ, UniformDraw u)
    (hn : NearUniform μ) {y : ℝ} (hy : 9 ≤ y) :
    μ.real (guessOf T ⁻¹' Set.Ioi (1 + T * y)) ≤ Real.exp (-(5.6 + 0.79 * (y - 9))) + 1 / 2 ^ 52 := by
  have he0 := Real.exp_pos (-(5.6 + 0.79 * (y - 9)))
  have he1 : Real.exp (-(5.6 + 0.79 * (y - 9))) ≤ 1 := Real.exp_le_one_iff.2 (by norm_num; linarith)
  have hle : μ.real (guessOf T ⁻¹' Set.Ioi (1 + T * y)) ≤ μ.real (Set.Ici (1 - Real.exp (-(5.6 + 0.79 * (y - 9))))) := by
    refine ENNReal.toReal_mono (measure_ne_top _ _) (measure_mono_ae ?_)
    filter_upwards [hμ] with u hu hg
    have h := cool_large h1 h2 hy hu hg
    have h53 : (0 : ℝ) < 1 / 2 ^ 53 := by positivity
    have hu1 : 0 < 1 - u := by linarith [hu.2]
    have : 1 - u ≤ Real.exp (-(5.6 + 0.79 * (y - 9))) := by
      rw [← Real.log_le_iff_le_exp hu1]
      linarith
    change _ ≤ u
    linarith
  have := hn.high _ (by linarith) (by linarith : 1 - Real.exp (-(5.6 + 0.79 * (y - 9))) ≤ 1)
  linarith

theorem cool_energy_tail {T : ℝ} (h1 : 0.1 ≤ T) (h2 : T ≤ 1) {μ ν : Measure ℝ} [IsProbabilityMeasure μ] [IsProbabilityMeasure ν]
    (hμ : ∀ᵐ u ∂μ, UniformDraw u) (hμ' : NearUniform μ) (hν : NearUniform ν) {y : ℝ} (hy : 9 ≤ y) :
    (Rounds (μ.prod ν)).real {ω | ∃ n e, SampleRel T (firstRounds ω n) (some e) ∧ T * y < e}
      ≤ (Real.exp (-(5.6 + 0.79 * (y - 9))) + 1 / 2 ^ 52) / 0.25 ∧
    (100 ≤ y → (Rounds (μ.prod ν)).real {ω | ∃ n e, SampleRel T (firstRounds ω n) (some e) ∧ T * y < e} = 0) := by
  have hT : 0 < T := by linarith
  rw [round_real h1 (by linarith) μ ν hμ (T * y)]
  have hD := accept_all h1 (by linarith) μ ν hμ hμ' hν
  have hb := beta_mean_ge h1
  have hD' : 0.25 ≤ (μ.prod ν).real (AcceptSet T Set.univ) := by
    have := (abs_le.1 hD).1
    norm_num at this hb ⊢
    linarith
  have hsub : (μ.prod ν).real (AcceptSet T (Set.Ioi (T * y))) ≤ μ.real (guessOf T ⁻¹' Set.Ioi (1 + T * y)) := by
    have h1 : AcceptSet T (Set.Ioi (T * y)) ⊆ (guessOf T ⁻¹' Set.Ioi (1 + T * y)) ×ˢ Set.univ := by
      rintro d ⟨-, -, h⟩
      have h : T * y < guessOf T d.1 - 1 := h
      refine ⟨?_, trivial⟩
      change 1 + T * y < guessOf T d.1
      linarith
    refine (measureReal_mono h1).trans ?_
    rw [measureReal_prod_prod, probReal_univ, mul_one]
  constructor
  · have hN := hsub.trans (cool_tail h1 h2 hμ hμ' hy)
    have h0 : 0 ≤ Real.exp (-(5.6 + 0.79 * (y - 9))) + 1 / 2 ^ 52 := by positivity
    gcongr
  · intro ht'
    have : μ.real (guessOf T ⁻¹' Set.Ioi (1 + T * y)) = 0 := by
      rw [measureReal_def]
      have h0 : μ (guessOf T ⁻¹' Set.Ioi (1 + T * y)) = 0 := by
        have hae : ∀ᵐ u ∂μ, ¬ 1 + T * y < guessOf T u := by
          filter_upwards [hμ] with u hu
          have := cool_bound h1 h2 hu
          have : T * 100 ≤ T * y := by gcongr
          linarith
        rw [ae_iff] at hae
        simp only [not_not] at hae
        exact hae
      rw [h0, ENNReal.toReal_zero]
    rw [this] at hsub
    rw [le_antisymm hsub measureReal_nonneg, zero_div]

/-! ## The mean -/

/-- the bound of the distribution of the energy in units of the temperature -/
noncomputable def coolBound (t : ℝ) : ℝ :=
  (Set.Ioc 0 9).indicator (fun t => (t ^ 2 + 4 * t + 4.5) * Real.exp (-t) / 4.25 + 0.015) t
    + (Set.Ioc 9 100).indicator (fun t => (Real.exp (-(5.6 + 0.79 * (t - 9))) + 1 / 2 ^ 52) / 0.25) t

theorem coolBound_nonneg (t : ℝ) : 0 ≤ coolBound t := by
  refine add_nonneg (Set.indicator_nonneg (fun t ht => ?_) _) (Set.indicator_nonneg (fun t _ => by positivity) _)
  have := ht.1
  positivity

theorem coolBound_integral : Integrable coolBound volume ∧ ∫ t, coolBound t ≤ 2.64 := by
  have c1 : Continuous fun t : ℝ => (t ^ 2 + 4 * t + 4.5) * Real.exp (-t) / 4.25 + 0.015 := by fun_prop
  have c2 : Continuous fun t : ℝ => (Real.exp (-(5.6 + 0.79 * (t - 9))) + 1 / 2 ^ 52) / 0.25 := by fun_prop
  have i1 : Integrable ((Set.Ioc (0 : ℝ) 9).indicator fun t => (t ^ 2 + 4 * t + 4.5) * Real.exp (-t) / 4.25 + 0.015) volume :=
    (integrable_indicator_iff measurableSet_Ioc).2 (c1.continuousOn.integrableOn_Icc.mono_set Set.Ioc_subset_Icc_self)
  have i2 : Integrable ((Set.Ioc (9 : ℝ) 100).indicator fun t => (Real.exp (-(5.6 + 0.79 * (t - 9))) + 1 / 2 ^ 52) / 0.25) volume :=
    (integrable_indicator_iff measurableSet_Ioc).2 (c2.continuousOn.integrableOn_Icc.mono_set Set.Ioc_subset_Icc_self)
  refine ⟨i1.add i2, ?_⟩
  unfold coolBound
  rw [integral_add i1 i2, integral_indicator measurableSet_Ioc, integral_indicator measurableSet_Ioc,
    ← intervalIntegral.integral_of_le (by norm_num), ← intervalIntegral.integral_of_le (by norm_num)]
  have v1 : ∫ t in (0 : ℝ)..9, ((t ^ 2 + 4 * t + 4.5) * Real.exp (-t) / 4.25 + 0.015)
      = (fun t : ℝ => -((t ^ 2 + 6 * t + 10.5) * Real.exp (-t)) / 4.25 + 0.015 * t) 9
        - (fun t : ℝ => -((t ^ 2 + 6 * t + 10.5) * Real.exp (-t)) / 4.25 + 0.015 * t) 0 := by
    refine intervalIntegral.integral_eq_sub_of_hasDerivAt
      (f := fun t : ℝ => -((t ^ 2 + 6 * t + 10.5) * Real.exp (-t)) / 4.25 + 0.015 * t) (fun t _ => ?_) (c1.intervalIntegrable _ _)
    have h1 : HasDerivAt (fun t : ℝ => t ^ 2 + 6 * t + 10.5) (2 * t + 6) t := by
      refine ((((hasDerivAt_id t).pow 2).add ((hasDerivAt_id t).const_mul 6)).add_const _).congr_deriv ?_
      simp
    refine (((h1.mul ((hasDerivAt_id t).neg.exp)).neg.div_const 4.25).add ((hasDerivAt_id t).const_mul 0.015)).congr_deriv ?_
    simp
    ring
  have v2 : ∫ t in (9 : ℝ)..100, ((Real.exp (-(5.6 + 0.79 * (t - 9))) + 1 / 2 ^ 52) / 0.25)
      = (fun t : ℝ => (-(Real.exp (-(5.6 + 0.79 * (t - 9))) / 0.79) + 1 / 2 ^ 52 * t) / 0.25) 100
        - (fun t : ℝ => (-(Real.exp (-(5.6 + 0.79 * (t - 9))) / 0.79) + 1 / 2 ^ 52 * t) / 0.25) 9 := by
    refine intervalIntegral.integral_eq_sub_of_hasDerivAt
      (f := fun t : ℝ => (-(Real.exp (-(5.6 + 0.79 * (t - 9))) / 0.79) + 1 / 2 ^ 52 * t) / 0.25) (fun t _ => ?_) (c2.intervalIntegrable _ _)
    have h1 : HasDerivAt (fun t : ℝ => -(5.6 + 0.79 * (t - 9))) (-0.79) t := by
      refine (((((hasDerivAt_id t).sub_const 9).const_mul 0.79).const_add 5.6).neg).congr_deriv ?_
      simp
    refine ((((h1.exp).div_const 0.79).neg.add ((hasDerivAt_id t).const_mul (1 / 2 ^ 52))).div_const 0.25).congr_deriv ?_
    field_simp
  rw [v1, v2]
  have p1 := Real.exp_pos (-9)
  have p2 := Real.exp_pos (-(5.6 + 0.79 * (100 - 9)))
  have p3 : Real.exp (-(5.6 + 0.79 * (9 - 9))) ≤ 0.0045 := by
    have h1 := Real.exp_one_gt_d9
    have e : (-(5.6 + 0.79 * (9 - 9)) : ℝ) = -((5 : ℕ) * 1 + 0.6) := by norm_num
    rw [e, Real.exp_neg, Real.exp_add, Real.exp_nat_mul, inv_le_comm₀ (by positivity) (by norm_num)]
    have h2 := Real.add_one_le_exp (0.6 : ℝ)
    have h3 : (2.718 : ℝ) ^ 5 ≤ Real.exp 1 ^ 5 := pow_le_pow_left₀ (by norm_num) (by linarith) 5
    calc ((0.0045 : ℝ))⁻¹ ≤ 2.718 ^ 5 * (0.6 + 1) := by norm_num
      _ ≤ _ := by gcongr
  norm_num at p1 p2 p3 ⊢
  linarith

theorem cool_mean {T : ℝ} (h1 : 0.1 ≤ T) (h2 : T ≤ 1) {μ ν : Measure ℝ} [IsProbabilityMeasure μ] [IsProbabilityMeasure ν]
    (hμ : ∀ᵐ u ∂μ, UniformDraw u) (hμ' : NearUniform μ) (hν : NearUniform ν) {en : (ℕ → ℝ × ℝ) → ℝ}
    (hen : StoredEnergy T (μ.prod ν) en) :
    ∫⁻ ω, ENNReal.ofReal (max (en ω) 0) ∂Rounds (μ.prod ν) ≤ ENNReal.ofReal (2.64 * T) := by
  have hT : 0 < T := by linarith
  have hd := prod_draw (ν := ν) hμ
  have hae := stored_aemeasurable h1 (by linarith) hd hen
  have hscale : ∀ ω, ENNReal.ofReal (max (en ω) 0) = ENNReal.ofReal T * ENNReal.ofReal (max (en ω / T) 0) := by
    intro ω
    rw [← ENNReal.ofReal_mul hT.le]
    congr 1
    rw [mul_max_of_nonneg _ _ hT.le, mul_zero, mul_div_cancel₀ _ hT.ne']
  simp only [hscale]
  rw [lintegral_const_mul' _ _ ENNReal.ofReal_ne_top, mul_comm 2.64 T, ENNReal.ofReal_mul hT.le]
  refine mul_le_mul_right ?_ _
  rw [lintegral_eq_lintegral_meas_lt (f := fun ω => max (en ω / T) 0) _ (Filter.Eventually.of_forall fun ω => le_max_right _ _)
    ((hae.div_const T).max aemeasurable_const)]
  have hset : ∀ t, 0 < t → (Rounds (μ.prod ν)) {ω | t < max (en ω / T) 0}
      = ENNReal.ofReal ((Rounds (μ.prod ν)).real {ω | ∃ n e, SampleRel T (firstRounds ω n) (some e) ∧ T * t < e}) := by
    intro t ht
    have e : {ω | t < max (en ω / T) 0} = en ⁻¹' Set.Ioi (T * t) := by
      ext ω
      change t < max (en ω / T) 0 ↔ T * t < en ω
      rw [lt_max_iff, lt_div_iff₀ hT, mul_comm t T]
      constructor
      · rintro (h | h)
        · exact h
        · linarith
      · intro h; exact Or.inl h
    rw [e, measure_congr (stored_iff h1 (by linarith) hd hen _), measureReal_def, ENNReal.ofReal_toReal (measure_ne_top _ _)]
    rfl
  have hfun : ∀ t ∈ Set.Ioi (0 : ℝ), (Rounds (μ.prod ν)) {ω | t < max (en ω / T) 0} ≤ ENNReal.ofReal (coolBound t) := by
    intro t ht
    have ht : 0 < t := ht
    rw [hset t ht]
    apply ENNReal.ofReal_le_ofReal
    unfold coolBound
    rcases le_or_gt t 9 with h9 | h9
    · rw [Set.indicator_of_mem (show t ∈ Set.Ioc 0 9 from ⟨ht, h9⟩), Set.indicator_of_notMem (by simp [h9]), add_zero]
      have h := C92_law_partial T h1 (by linarith) μ ν hμ hμ' hν (T * t) (by positivity)
      have := (abs_le.1 h).2
      have := juttner_colder hT h2 ht.le
      have := juttner_one_le ht.le
      linarith
    · rw [Set.indicator_of_notMem (fun h => absurd h.2 (not_le.2 h9)), zero_add]
      obtain ⟨a, b⟩ := cool_energy_tail h1 h2 hμ hμ' hν h9.le
      rcases le_or_gt t 100 with h100 | h100
      · rw [Set.indicator_of_mem (show t ∈ Set.Ioc 9 100 from ⟨h9, h100⟩)]
        exact a
      · rw [b h100.le]
        exact Set.indicator_nonneg (fun t _ => by positivity) _
  refine (setLIntegral_mono' measurableSet_Ioi hfun).trans ?_
  obtain ⟨hi, hv⟩ := coolBound_integral
  have hnn : 0 ≤ᵐ[volume] coolBound := Filter.Eventually.of_forall coolBound_nonneg
  refine (setLIntegral_le_lintegral _ _).trans ?_
  rw [← ofReal_integral_eq_lintegral_ofReal hi hnn]
  exact ENNReal.ofReal_le_ofReal hv

/-- **C93** (violated). From a tenth of an electronvolt to one the plasma starts too cold: the mean kinetic energy of its particles
is below 1.45 temperatures and not 1.5. -/
theorem C93_cool_violated (T mass : ℝ) (h1 : 0.1 ≤ T) (h2 : T ≤ 1) (hm : 0 < mass) (μ ν : Measure ℝ)
    [IsProbabilityMeasure μ] [IsProbabilityMeasure ν] (hμ : ∀ᵐ u ∂μ, UniformDraw u) (hμ' : NearUniform μ) (hν : NearUniform ν)
    (en : (ℕ → ℝ × ℝ) → ℝ) (hen : StoredEnergy T (μ.prod ν) en) :
    meanKinetic mass (μ.prod ν) en ≤ ENNReal.ofReal (1.45 * T) := by
  unfold meanKinetic
  have hpt : ∀ ω, ENNReal.ofReal (∫ r, kineticEV mass (drawnVelocity mass (en ω) r) ∂cubeLaw)
      ≤ ENNReal.ofReal 0.5476 * ENNReal.ofReal (max (en ω) 0) := by
    intro ω
    rw [← ENNReal.ofReal_mul (by norm_num)]
    apply ENNReal.ofReal_le_ofReal
    rcases le_or_gt (en ω) 0 with h | h
    · rw [kinetic_neg hm h]
      positivity
    · rw [max_eq_left h.le]
      exact (C93_kinetic mass _ hm h.le).2
  refine (lintegral_mono hpt).trans ?_
  rw [lintegral_const_mul' _ _ ENNReal.ofReal_ne_top]
  refine (mul_le_mul_right (cool_mean h1 h2 hμ hμ' hν hen) _).trans ?_
  rw [← ENNReal.ofReal_mul (by norm_num)]
  apply ENNReal.ofReal_le_ofReal
  norm_num
  linarith

/-- Not vacuous: electrons at half an electronvolt. -/
example : ∃ en, StoredEnergy 0.5 (unifDouble.prod unif) en ∧
    meanKinetic EL_MASS (unifDouble.prod unif) en ≤ ENNReal.ofReal (1.45 * 0.5) := by
  obtain ⟨en, h⟩ := stored_exists 0.5 (by norm_num) (by norm_num) unifDouble unif unifDouble_draw unifDouble_near unif_near
  exact ⟨en, h, C93_cool_violated 0.5 EL_MASS (by norm_num) (by norm_num) EL_MASS_pos unifDouble unif unifDouble_draw
    unifDouble_near unif_near en h⟩

end Verif
