import Verif.ThermalMean

/-!
# C93: the mean thermal energy

In equilibrium the mean kinetic energy is three halves of the temperature.
-/

namespace Verif

open MeasureTheory

/-! ## Specification -/

/-- `en` is the energy that the sampler stores for the rounds `ω` -/
def StoredEnergy (T : ℝ) (ρ : Measure (ℝ × ℝ)) [IsProbabilityMeasure ρ] (en : (ℕ → ℝ × ℝ) → ℝ) : Prop :=
  ∀ᵐ ω ∂Rounds ρ, ∃ n, SampleRel T (firstRounds ω n) (some (en ω))

/-- the mean of the kinetic energy of a particle at the start, over the rounds of the sampler and the directions,
in electronvolts -/
noncomputable def meanKinetic (mass : ℝ) (ρ : Measure (ℝ × ℝ)) [IsProbabilityMeasure ρ] (en : (ℕ → ℝ × ℝ) → ℝ) : ENNReal :=
  ∫⁻ ω, ENNReal.ofReal (∫ r, kineticEV mass (drawnVelocity mass (en ω) r) ∂cubeLaw) ∂Rounds ρ

/-! ## The stored energy as a random variable -/

theorem stored_unique {T : ℝ} (h1 : 0.1 ≤ T) (h2 : T ≤ 3000) {ω : ℕ → ℝ × ℝ} (hω : ∀ i, UniformDraw (ω i).1) {n n' : ℕ} {e e' : ℝ}
    (h : SampleRel T (firstRounds ω n) (some e)) (h' : SampleRel T (firstRounds ω n') (some e')) : e = e' := by
  obtain ⟨m, hm⟩ := Set.mem_iUnion.1 ((ends_iff h1 h2 {e} hω).1 ⟨n, e, h, rfl⟩)
  obtain ⟨m', hm'⟩ := Set.mem_iUnion.1 ((ends_iff h1 h2 {e'} hω).1 ⟨n', e', h', rfl⟩)
  obtain ⟨a, b⟩ := (endsAt_iff _ m ω).1 hm
  obtain ⟨a', b'⟩ := (endsAt_iff _ m' ω).1 hm'
  obtain rfl : m = m' := by
    rcases lt_trichotomy m m' with h | h | h
    · exact absurd (a' m h).2 b.2.1
    · exact h
    · exact absurd (a m' h).2 b'.2.1
  have e1 : guessOf T (ω m).1 - 1 = e := b.2.2
  have e2 : guessOf T (ω m).1 - 1 = e' := b'.2.2
  rw [← e1, ← e2]

theorem stored_iff {T : ℝ} (h1 : 0.1 ≤ T) (h2 : T ≤ 3000) {ρ : Measure (ℝ × ℝ)} [IsProbabilityMeasure ρ]
    (hρ : ∀ᵐ d ∂ρ, UniformDraw d.1) {en : (ℕ → ℝ × ℝ) → ℝ} (hen : StoredEnergy T ρ en) (A : Set ℝ) :
    (en ⁻¹' A : Set _) =ᵐ[Rounds ρ] {ω | ∃ n e, SampleRel T (firstRounds ω n) (some e) ∧ e ∈ A} := by
  filter_upwards [draws_ae hρ, hen] with ω hω hn
  obtain ⟨n, hn⟩ := hn
  apply propext
  constructor
  · intro h
    exact ⟨n, en ω, hn, h⟩
  · rintro ⟨n', e, h, hA⟩
    rw [stored_unique h1 h2 hω h hn] at hA
    exact hA

theorem stored_aemeasurable {T : ℝ} (h1 : 0.1 ≤ T) (h2 : T ≤ 3000) {ρ : Measure (ℝ × ℝ)} [IsProbabilityMeasure ρ]
    (hρ : ∀ᵐ d ∂ρ, UniformDraw d.1) {en : (ℕ → ℝ × ℝ) → ℝ} (hen : StoredEnergy T ρ en) : AEMeasurable en (Rounds ρ) := by
  apply NullMeasurable.aemeasurable
  intro A hA
  have h3 : {ω | ∃ n e, SampleRel T (firstRounds ω n) (some e) ∧ e ∈ A} =ᵐ[Rounds ρ] ⋃ m, EndsAt T A m := by
    filter_upwards [draws_ae hρ] with ω hω
    exact propext (ends_iff h1 h2 A hω)
  refine NullMeasurableSet.congr (MeasurableSet.nullMeasurableSet ?_) ((stored_iff h1 h2 hρ hen A).trans h3).symm
  refine MeasurableSet.iUnion fun m => MeasurableSet.pi (Finset.countable_toSet _) (fun i _ => ?_)
  split_ifs
  · exact rejectSet_measurable T
  · exact acceptSet_measurable T hA

/-- such a random variable exists -/
theorem stored_exists (T : ℝ) (h1 : 0.1 ≤ T) (h2 : T ≤ 3000) (μ ν : Measure ℝ) [IsProbabilityMeasure μ] [IsProbabilityMeasure ν]
    (hμ : ∀ᵐ u ∂μ, UniformDraw u) (hμ' : NearUniform μ) (hν : NearUniform ν) : ∃ en, StoredEnergy T (μ.prod ν) en := by
  classical
  refine ⟨fun ω => if h : ∃ e n, SampleRel T (firstRounds ω n) (some e) then h.choose else 0, ?_⟩
  filter_upwards [C92_ends T h1 h2 μ ν hμ hμ' hν] with ω hω
  obtain ⟨n, e, h⟩ := hω
  have hex : ∃ e n, SampleRel T (firstRounds ω n) (some e) := ⟨e, n, h⟩
  simp only [dif_pos hex]
  exact hex.choose_spec

theorem prod_draw {μ ν : Measure ℝ} [IsProbabilityMeasure μ] [IsProbabilityMeasure ν] (hμ : ∀ᵐ u ∂μ, UniformDraw u) :
    ∀ᵐ d ∂μ.prod ν, UniformDraw d.1 := (measurePreserving_fst (μ := μ) (ν := ν)).quasiMeasurePreserving.ae hμ

/-! ## Kinetic energy grows with the sampled energy -/

theorem kinetic_nonneg {mass : ℝ} (hm : 0 < mass) (energy : ℝ) :
    0 ≤ ∫ r, kineticEV mass (drawnVelocity mass energy r) ∂cubeLaw := by
  have := EL_CHARGE_pos
  apply integral_nonneg
  intro r
  unfold kineticEV
  positivity

theorem kinetic_grows {mass a b : ℝ} (hm : 0 < mass) (ha : 0 ≤ a) (hab : a ≤ b) :
    ∫ r, kineticEV mass (drawnVelocity mass a r) ∂cubeLaw ≤ ∫ r, kineticEV mass (drawnVelocity mass b r) ∂cubeLaw := by
  have hE := EL_CHARGE_pos
  apply integral_mono (kinetic_mean mass a hm ha).1 (kinetic_mean mass b hm (ha.trans hab)).1
  intro r
  have key : ∀ q, axisVelocity mass a q ^ 2 ≤ axisVelocity mass b q ^ 2 := by
    intro q
    unfold axisVelocity
    rw [gammaInv_comp, gammaInv_comp, mul_pow q, mul_pow q, speed_sq hm ha, speed_sq hm (ha.trans hab)]
    have hc : 0 < LIGHT_SPEED ^ 2 := pow_pos LIGHT_SPEED_pos 2
    have h0 : 0 ≤ q ^ 2 * (1.0952 * EL_CHARGE * a / mass) := by positivity
    have h1 : q ^ 2 * (1.0952 * EL_CHARGE * a / mass) ≤ q ^ 2 * (1.0952 * EL_CHARGE * b / mass) := by gcongr
    generalize LIGHT_SPEED ^ 2 = C at *
    generalize q ^ 2 * (1.0952 * EL_CHARGE * a / mass) = x at *
    generalize q ^ 2 * (1.0952 * EL_CHARGE * b / mass) = y at *
    rw [div_le_div_iff₀ (by linarith) (by linarith)]
    nlinarith [mul_pos hc hc]
  obtain ⟨a0, a1, a2⟩ := drawnVelocity_eq mass a r
  obtain ⟨b0, b1, b2⟩ := drawnVelocity_eq mass b r
  change kineticEV mass (drawnVelocity mass a r) ≤ kineticEV mass (drawnVelocity mass b r)
  unfold kineticEV
  rw [a0, a1, a2, b0, b1, b2]
  have := key r.1
  have := key r.2.1
  have := key r.2.2
  gcongr

theorem kinetic_neg {mass energy : ℝ} (hm : 0 < mass) (he : energy ≤ 0) :
    ∫ r, kineticEV mass (drawnVelocity mass energy r) ∂cubeLaw = 0 := by
  have hE := EL_CHARGE_pos
  have h0 : ∀ q, axisVelocity mass energy q = 0 := by
    intro q
    unfold axisVelocity
    rw [Real.sqrt_eq_zero_of_nonpos (div_nonpos_of_nonpos_of_nonneg (mul_nonpos_of_nonneg_of_nonpos (by positivity) he) hm.le)]
    simp
  have : ∀ r, kineticEV mass (drawnVelocity mass energy r) = 0 := by
    intro r
    obtain ⟨a0, a1, a2⟩ := drawnVelocity_eq mass energy r
    unfold kineticEV
    rw [a0, a1, a2, h0, h0, h0]
    simp
  simp [this]

/-! ## Hot plasmas -/

theorem juttner_ge {T x : ℝ} (hT : 0.1 ≤ T) (hx : 1 ≤ x) : proposalTail T x ≤ juttnerTail T x := by
  have hT0 : 0 < T := by linarith
  have := proposal_prob hT0
  rw [juttner_eq hT0 hx]
  have hD0 : 0 < ∫ g, aboveBeta 1 g ∂proposal T := lt_of_lt_of_le (by norm_num) (beta_mean_ge hT)
  obtain ⟨b, hb⟩ : ∃ b, b = Real.sqrt (1 - 1 / x ^ 2) := ⟨_, rfl⟩
  have hmono : ∀ {u v : ℝ}, 1 ≤ u → u ≤ v → Real.sqrt (1 - 1 / u ^ 2) ≤ Real.sqrt (1 - 1 / v ^ 2) := by
    intro u v hu huv
    apply Real.sqrt_le_sqrt
    have : 1 / v ^ 2 ≤ 1 / u ^ 2 := by gcongr
    linarith
  have hb0 : 0 ≤ b := by rw [hb]; positivity
  have hN : b * proposalTail T x ≤ ∫ g, aboveBeta x g ∂proposal T := by
    rw [← proposal_tail_real hT0 hx, mul_comm, ← smul_eq_mul, ← integral_indicator_const (μ := proposal T) b measurableSet_Ioi]
    apply integral_mono ((integrable_const _).indicator measurableSet_Ioi) (aboveBeta_integrable _ _)
    intro g
    by_cases hg : x < g
    · rw [Set.indicator_of_mem (by exact hg)]
      unfold aboveBeta
      rw [if_pos hg, hb]
      exact hmono hx hg.le
    · rw [Set.indicator_of_notMem (by exact hg)]
      exact aboveBeta_nonneg _ _
  have hM : ∫ g, aboveBeta 1 g ∂proposal T - ∫ g, aboveBeta x g ∂proposal T ≤ b * (1 - proposalTail T x) := by
    rw [← integral_sub (aboveBeta_integrable _ _) (aboveBeta_integrable _ _), ← proposal_tail_real hT0 hx,
      ← probReal_compl_eq_one_sub measurableSet_Ioi, mul_comm b, ← smul_eq_mul (b := b),
      ← integral_indicator_const (μ := proposal T) b measurableSet_Ioi.compl]
    apply integral_mono ((aboveBeta_integrable _ _).sub (aboveBeta_integrable _ _))
      ((integrable_const _).indicator measurableSet_Ioi.compl)
    intro g
    by_cases hg : x < g
    · rw [Set.indicator_of_notMem (by simpa using hg)]
      change aboveBeta 1 g - aboveBeta x g ≤ 0
      unfold aboveBeta
      rw [if_pos hg, if_pos (by linarith)]
      simp
    · rw [Set.indicator_of_mem (by simpa using hg)]
      change aboveBeta 1 g - aboveBeta x g ≤ b
      unfold aboveBeta
      rw [if_neg hg]
      split_ifs with h1
      · rw [hb, sub_zero]
        exact hmono h1.le (not_lt.1 hg)
      · simpa using hb0
  have hS0 : 0 ≤ proposalTail T x := by rw [proposalTail_eq hT0 (by linarith)]; positivity
  have hS1 := proposalTail_le_one hT0 hx
  rw [le_div_iff₀ hD0]
  generalize (∫ g, aboveBeta 1 g ∂proposal T) = D at *
  generalize (∫ g, aboveBeta x g ∂proposal T) = N at *
  generalize proposalTail T x = S at *
  nlinarith

theorem quotient_near' {N D n d a b d0 : ℝ} (h0d : 0 < d0) (hd : d0 ≤ d) (hD : 0 < D) (hN : |N - n| ≤ a) (hDd : |D - d| ≤ b)
    (h0 : 0 ≤ N) (h1 : N ≤ D) : |N / D - n / d| ≤ (a + b) / d0 := by
  have hd' : 0 < d := by linarith
  have e : N / D - n / d = ((N - n) + N / D * (d - D)) / d := by field_simp; ring
  have hq0 : 0 ≤ N / D := by positivity
  have hq : N / D ≤ 1 := (div_le_one hD).2 h1
  rw [e, abs_div, abs_of_pos hd']
  have hnum : |(N - n) + N / D * (d - D)| ≤ a + b := by
    refine (abs_add_le _ _).trans (add_le_add hN ?_)
    rw [abs_mul, abs_of_nonneg hq0, abs_sub_comm]
    calc N / D * |D - d| ≤ 1 * |D - d| := mul_le_mul_of_nonneg_right hq (abs_nonneg _)
      _ ≤ b := by linarith
  have : 0 ≤ a + b := (abs_nonneg _).trans hnum
  gcongr

theorem round_real {T : ℝ} (h1 : 0.1 ≤ T) (h2 : T ≤ 3000) (μ ν : Measure ℝ) [IsProbabilityMeasure μ]
    [IsProbabilityMeasure ν] (hμ : ∀ᵐ u ∂μ, UniformDraw u) (E : ℝ) :
    (Rounds (μ.prod ν)).real {ω | ∃ n e, SampleRel T (firstRounds ω n) (some e) ∧ E < e}
      = (μ.prod ν).real (AcceptSet T (Set.Ioi E)) / (μ.prod ν).real (AcceptSet T Set.univ) := by
  have hd := prod_draw (ν := ν) hμ
  have h := C91_law T h1 h2 (μ.prod ν) hd (Set.Ioi E) measurableSet_Ioi
  have e2 : μ.prod ν {d | ∃ e, SampleRel T [d] (some e) ∧ e ∈ Set.Ioi E} = μ.prod ν (AcceptSet T (Set.Ioi E)) := by
    apply measure_congr
    filter_upwards [hd] with d hd
    exact propext (round_one h1 h2 hd _)
  have e3 : μ.prod ν {d | ∃ e, SampleRel T [d] (some e)} = μ.prod ν (AcceptSet T Set.univ) := by
    apply measure_congr
    filter_upwards [hd] with d hd
    have := round_one h1 h2 hd Set.univ
    simp only [Set.mem_univ, and_true] at this
    exact propext this
  rw [e2, e3] at h
  rw [measureReal_def, measureReal_def, measureReal_def, ← ENNReal.toReal_div, ← h]
  rfl

theorem beta_mean_hot {T : ℝ} (h1 : 10 ≤ T) : 0.95 ≤ ∫ g, aboveBeta 1 g ∂proposal T := by
  have hT : 0 < T := by linarith
  have := proposal_prob hT
  have hN : 0.968 * proposalTail T 4 ≤ ∫ g, aboveBeta 1 g ∂proposal T := by
    rw [← proposal_tail_real hT (by norm_num), mul_comm, ← smul_eq_mul,
      ← integral_indicator_const (μ := proposal T) (0.968 : ℝ) measurableSet_Ioi]
    apply integral_mono ((integrable_const _).indicator measurableSet_Ioi) (aboveBeta_integrable _ _)
    intro g
    by_cases hg : 4 < g
    · rw [Set.indicator_of_mem (by exact hg)]
      unfold aboveBeta
      rw [if_pos (by linarith)]
      apply Real.le_sqrt_of_sq_le
      have : 1 / g ^ 2 ≤ 1 / 4 ^ 2 := by gcongr
      norm_num at this ⊢
      linarith
    · rw [Set.indicator_of_notMem (by exact hg)]
      exact aboveBeta_nonneg _ _
  have hS : 0.99 ≤ proposalTail T 4 := by
    rw [proposalTail_eq hT (by norm_num)]
    have a := mjG_le (y := 4 / T) (by positivity)
    have b := mjG_pos (y := 1 / T) (by positivity)
    have c : mjG (4 / T) ≤ 0.01 := by
      refine (mjG_mono (by positivity) (show 4 / T ≤ 0.4 by rw [div_le_iff₀ hT]; linarith)).trans ?_
      refine (mjG_le (by norm_num)).trans ?_
      norm_num
    have d := Real.add_one_le_exp (-(mjG (4 / T) - mjG (1 / T)))
    obtain ⟨q, hq⟩ : ∃ q, q = mjG (1 / T) := ⟨_, rfl⟩
    rw [← hq] at b d ⊢
    norm_num at c d ⊢
    linarith
  refine le_trans ?_ hN
  norm_num at hS ⊢
  linarith

theorem hot_law (T : ℝ) (h1 : 10 ≤ T) (h2 : T ≤ 3000) (μ ν : Measure ℝ) [IsProbabilityMeasure μ]
    [IsProbabilityMeasure ν] (hμ : ∀ᵐ u ∂μ, UniformDraw u) (hμ' : NearUniform μ) (hν : NearUniform ν) (E : ℝ) (hE : 0 ≤ E) :
    proposalTail T (1 + E) - 0.0041 ≤ (Rounds (μ.prod ν)).real {ω | ∃ n e, SampleRel T (firstRounds ω n) (some e) ∧ E < e} := by
  have hT : 0 < T := by linarith
  have h01 : (0.1 : ℝ) ≤ T := by norm_num; linarith
  have hx : 1 ≤ 1 + E := by linarith
  have := proposal_prob hT
  have hm := guessOf_measurable T
  have := Measure.isProbabilityMeasure_map (μ := μ) hm.aemeasurable
  rw [round_real h01 h2 μ ν hμ E]
  have ha := accept_above (T := T) hx μ ν hμ hν
  rw [add_sub_cancel_left] at ha
  have hb := aboveBeta_near hx (μ.map (guessOf T)) (proposal T) (δ := 0.00127) fun y hy => by
    rw [proposal_tail_real hT hy]
    exact guess_tail h01 h2 μ hμ hμ' hy
  have hD := accept_all h01 h2 μ ν hμ hμ' hν
  have hd26 := beta_mean_hot h1
  have hε : (1 / 2 ^ 52 : ℝ) ≤ 0.00001 := by norm_num
  have hN : |(μ.prod ν).real (AcceptSet T (Set.Ioi E)) - ∫ g, aboveBeta (1 + E) g ∂proposal T| ≤ 0.00128 := by
    have a1 := abs_le.1 ha
    have b1 := abs_le.1 hb
    rw [abs_le]
    norm_num at a1 b1 hε ⊢
    constructor <;> linarith [a1.1, a1.2, b1.1, b1.2]
  have hDpos : 0 < (μ.prod ν).real (AcceptSet T Set.univ) := by
    have := (abs_le.1 hD).1
    norm_num at this hd26
    linarith
  have hq := quotient_near' (by norm_num) hd26 hDpos hN hD measureReal_nonneg
    (measureReal_mono fun d hd => ⟨hd.1, hd.2.1, trivial⟩)
  rw [← juttner_eq hT hx] at hq
  have hj := juttner_ge h01 hx
  have := (abs_le.1 hq).1
  norm_num at this hj ⊢
  linarith

noncomputable def tailPrim (T t : ℝ) : ℝ :=
  -(Real.exp (-t / T) * (T * ((1 + t) ^ 2 / 2 + 2 * T * (1 + t) + 3 * T ^ 2))) / (T ^ 2 + T + 1 / 2)

theorem tail_formula {T t : ℝ} (hT : 0 < T) (ht : 0 ≤ t) :
    proposalTail T (1 + t) = Real.exp (-t / T) * (T ^ 2 + T * (1 + t) + (1 + t) ^ 2 / 2) / (T ^ 2 + T + 1 / 2) := by
  rw [proposalTail_eq hT (by linarith)]
  unfold mjG
  rw [show -((1 + t) / T - Real.log (1 + (1 + t) / T + ((1 + t) / T) ^ 2 / 2) - (1 / T - Real.log (1 + 1 / T + (1 / T) ^ 2 / 2)))
    = Real.log (1 + (1 + t) / T + ((1 + t) / T) ^ 2 / 2) - Real.log (1 + 1 / T + (1 / T) ^ 2 / 2) + -t / T by ring,
    Real.exp_add, Real.exp_sub, Real.exp_log (by positivity), Real.exp_log (by positivity)]
  field_simp

theorem tailPrim_hasDeriv {T : ℝ} (hT : 0 < T) (t : ℝ) :
    HasDerivAt (tailPrim T) (Real.exp (-t / T) * (T ^ 2 + T * (1 + t) + (1 + t) ^ 2 / 2) / (T ^ 2 + T + 1 / 2)) t := by
  have h1 : HasDerivAt (fun t : ℝ => T * ((1 + t) ^ 2 / 2 + 2 * T * (1 + t) + 3 * T ^ 2)) (T * ((1 + t) + 2 * T)) t := by
    have h0 : HasDerivAt (fun t : ℝ => 1 + t) 1 t := (hasDerivAt_id t).const_add 1
    refine ((((h0.pow 2).div_const 2).add (h0.const_mul (2 * T))).add_const _).const_mul T |>.congr_deriv ?_
    simp
  have h2 : HasDerivAt (fun t : ℝ => Real.exp (-t / T)) (Real.exp (-t / T) * (-1 / T)) t :=
    ((hasDerivAt_id t).neg.div_const T).exp
  refine ((h2.mul h1).neg.div_const _).congr_deriv ?_
  field_simp
  ring

theorem hot_mean {T : ℝ} (h1 : 20 ≤ T) (h2 : T ≤ 3000) (μ ν : Measure ℝ) [IsProbabilityMeasure μ]
    [IsProbabilityMeasure ν] (hμ : ∀ᵐ u ∂μ, UniformDraw u) (hμ' : NearUniform μ) (hν : NearUniform ν) {en : (ℕ → ℝ × ℝ) → ℝ}
    (hen : StoredEnergy T (μ.prod ν) en) :
    Integrable (fun ω => min (max (en ω) 0) (9 * T)) (Rounds (μ.prod ν)) ∧
    2.9 * T ≤ ∫ ω, min (max (en ω) 0) (9 * T) ∂Rounds (μ.prod ν) := by
  have hT : 0 < T := by linarith
  have h01 : (0.1 : ℝ) ≤ T := by norm_num; linarith
  have hd := prod_draw (ν := ν) hμ
  have hae := stored_aemeasurable h01 h2 hd hen
  have hI : Integrable (fun ω => min (max (en ω) 0) (9 * T)) (Rounds (μ.prod ν)) := by
    refine Integrable.of_bound ((hae.max aemeasurable_const).min aemeasurable_const).aestronglyMeasurable (9 * T)
      (Filter.Eventually.of_forall fun ω => ?_)
    rw [Real.norm_eq_abs, abs_of_nonneg (le_min (le_max_right _ _) (by positivity))]
    exact min_le_right _ _
  refine ⟨hI, ?_⟩
  rw [hI.integral_eq_integral_meas_lt (Filter.Eventually.of_forall fun ω => le_min (le_max_right _ _) (by positivity))]
  have hlow : ∀ t ∈ Set.Ioo 0 (9 * T), Real.exp (-t / T) * (T ^ 2 + T * (1 + t) + (1 + t) ^ 2 / 2) / (T ^ 2 + T + 1 / 2) - 0.0041
      ≤ (Rounds (μ.prod ν)).real {ω | t < min (max (en ω) 0) (9 * T)} := by
    intro t ht
    have e : {ω | t < min (max (en ω) 0) (9 * T)} = en ⁻¹' Set.Ioi t := by
      ext ω
      simp only [Set.mem_setOf_eq, lt_min_iff, lt_max_iff, Set.mem_preimage, Set.mem_Ioi]
      constructor
      · rintro ⟨h | h, -⟩
        · exact h
        · linarith [ht.1]
      · intro h; exact ⟨Or.inl h, ht.2⟩
    rw [e, measureReal_congr (stored_iff h01 h2 hd hen _), ← tail_formula hT ht.1.le]
    exact hot_law T (by linarith) h2 μ ν hμ hμ' hν t ht.1.le
  have hrest : ∀ t ∈ Set.Ioi (0 : ℝ) \ Set.Ioo 0 (9 * T), (Rounds (μ.prod ν)).real {ω | t < min (max (en ω) 0) (9 * T)} = 0 := by
    rintro t ⟨ht, ht'⟩
    have : 9 * T ≤ t := by
      by_contra hc
      exact ht' ⟨ht, not_le.1 hc⟩
    have e : {ω | t < min (max (en ω) 0) (9 * T)} = ∅ := by
      ext ω
      simp only [Set.mem_setOf_eq, Set.mem_empty_iff_false, iff_false, not_lt]
      exact (min_le_right _ _).trans this
    rw [e, measureReal_empty]
  rw [setIntegral_eq_of_subset_of_forall_sdiff_eq_zero measurableSet_Ioi (s := Set.Ioo 0 (9 * T)) (fun t ht => ht.1) hrest]
  have hcont : Continuous fun t : ℝ => Real.exp (-t / T) * (T ^ 2 + T * (1 + t) + (1 + t) ^ 2 / 2) / (T ^ 2 + T + 1 / 2) := by
    fun_prop
  have hint : ∫ t in Set.Ioo 0 (9 * T), (Real.exp (-t / T) * (T ^ 2 + T * (1 + t) + (1 + t) ^ 2 / 2) / (T ^ 2 + T + 1 / 2) - 0.0041)
      = tailPrim T (9 * T) - tailPrim T 0 - 0.0041 * (9 * T) := by
    rw [← integral_Ioc_eq_integral_Ioo, ← intervalIntegral.integral_of_le (by positivity),
      intervalIntegral.integral_sub (hcont.intervalIntegrable _ _) (by simp), 
      intervalIntegral.integral_eq_sub_of_hasDerivAt (fun t _ => tailPrim_hasDeriv hT t) (hcont.intervalIntegrable _ _)]
    simp
    ring
  have hval : 2.9 * T ≤ tailPrim T (9 * T) - tailPrim T 0 - 0.0041 * (9 * T) := by
    have he : Real.exp (-9) ≤ 0.000125 := by
      have h1 := Real.exp_one_gt_d9
      rw [Real.exp_neg, show (9 : ℝ) = (9 : ℕ) * 1 by norm_num, Real.exp_nat_mul]
      rw [inv_le_comm₀ (by positivity) (by norm_num)]
      refine le_trans ?_ (pow_le_pow_left₀ (by norm_num) h1.le 9)
      norm_num
    have e1 : tailPrim T (9 * T) = -(Real.exp (-9) * (T * ((1 + 9 * T) ^ 2 / 2 + 2 * T * (1 + 9 * T) + 3 * T ^ 2))) /
        (T ^ 2 + T + 1 / 2) := by
      unfold tailPrim
      rw [show -(9 * T) / T = -9 by field_simp]
    have e0 : tailPrim T 0 = -(T * (1 / 2 + 2 * T + 3 * T ^ 2)) / (T ^ 2 + T + 1 / 2) := by
      unfold tailPrim
      simp
    have hA : 0 < T ^ 2 + T + 1 / 2 := by positivity
    have hB : Real.exp (-9) * (T * ((1 + 9 * T) ^ 2 / 2 + 2 * T * (1 + 9 * T) + 3 * T ^ 2))
        ≤ 0.000125 * (T * ((1 + 9 * T) ^ 2 / 2 + 2 * T * (1 + 9 * T) + 3 * T ^ 2)) := by gcongr
    rw [e1, e0, ← sub_div]
    have : (2.9 + 0.0041 * 9) * T ≤ (-(Real.exp (-9) * (T * ((1 + 9 * T) ^ 2 / 2 + 2 * T * (1 + 9 * T) + 3 * T ^ 2))) -
        -(T * (1 / 2 + 2 * T + 3 * T ^ 2))) / (T ^ 2 + T + 1 / 2) := by
      rw [le_div_iff₀ hA]
      have hp : 0 ≤ T * ((1 / 2 + 2 * T + 3 * T ^ 2) - 0.000125 * ((1 + 9 * T) ^ 2 / 2 + 2 * T * (1 + 9 * T) + 3 * T ^ 2)
          - (2.9 + 0.0041 * 9) * (T ^ 2 + T + 1 / 2)) := by
        apply mul_nonneg hT.le
        nlinarith
      nlinarith
    linarith
  refine hval.trans (hint ▸ ?_)
  refine setIntegral_mono_on ?_ ?_ measurableSet_Ioo hlow
  · exact ((hcont.sub continuous_const).continuousOn.integrableOn_Icc).mono_set Set.Ioo_subset_Icc_self
  · have hm : Measurable fun t : ℝ => (Rounds (μ.prod ν)).real {ω | t < min (max (en ω) 0) (9 * T)} := by
      refine Antitone.measurable fun a b h => ?_
      exact measureReal_mono fun ω hω => lt_of_le_of_lt h hω
    have : IsFiniteMeasure (volume.restrict (Set.Ioo 0 (9 * T))) :=
      ⟨by rw [Measure.restrict_apply_univ, Real.volume_Ioo]; exact ENNReal.ofReal_lt_top⟩
    refine Integrable.of_bound hm.aestronglyMeasurable 1 (Filter.Eventually.of_forall fun t => ?_)
    rw [Real.norm_eq_abs, abs_of_nonneg measureReal_nonneg]
    exact measureReal_le_one

/-- **C93** (violated). A plasma of 20 to 300 eV starts too hot: the mean kinetic energy of its particles is above 1.57
temperatures and not 1.5. -/
theorem C93_hot_violated (T : ℝ) (h1 : 20 ≤ T) (h2 : T ≤ 300) (mass : ℝ) (hm : EL_MASS ≤ mass) (μ ν : Measure ℝ)
    [IsProbabilityMeasure μ] [IsProbabilityMeasure ν] (hμ : ∀ᵐ u ∂μ, UniformDraw u) (hμ' : NearUniform μ) (hν : NearUniform ν)
    (en : (ℕ → ℝ × ℝ) → ℝ) (hen : StoredEnergy T (μ.prod ν) en) :
    ENNReal.ofReal (1.57 * T) ≤ meanKinetic mass (μ.prod ν) en := by
  have hT : 0 < T := by linarith
  have hm0 : 0 < mass := lt_of_lt_of_le EL_MASS_pos hm
  obtain ⟨hI, hmean⟩ := hot_mean h1 (by linarith) μ ν hμ hμ' hν hen
  have hpt : ∀ ω, 0.5476 * 0.994 * min (max (en ω) 0) (9 * T) ≤ ∫ r, kineticEV mass (drawnVelocity mass (en ω) r) ∂cubeLaw := by
    intro ω
    rcases le_or_gt (en ω) 0 with h | h
    · rw [max_eq_right h, min_eq_left (by positivity), mul_zero]
      exact kinetic_nonneg hm0 _
    · rw [max_eq_left h.le]
      have ha0 : 0 ≤ min (en ω) (9 * T) := le_min h.le (by positivity)
      refine le_trans ?_ (kinetic_grows hm0 ha0 (min_le_left _ _))
      refine le_trans ?_ (C93_kinetic mass _ hm0 ha0).1
      have hq : 1.0952 * EL_CHARGE * min (en ω) (9 * T) / mass / LIGHT_SPEED ^ 2 ≤ 0.006 := by
        have hc : 0 < LIGHT_SPEED ^ 2 := pow_pos LIGHT_SPEED_pos 2
        have hE := EL_CHARGE_pos
        rw [div_div, div_le_iff₀ (by positivity)]
        calc 1.0952 * EL_CHARGE * min (en ω) (9 * T) ≤ 1.0952 * EL_CHARGE * (9 * 300) := by
              gcongr
              exact (min_le_right _ _).trans (by linarith)
          _ ≤ 0.006 * (EL_MASS * LIGHT_SPEED ^ 2) := by unfold EL_CHARGE EL_MASS LIGHT_SPEED; norm_num
          _ ≤ _ := by gcongr
      have : (0.994 : ℝ) ≤ 1 - 1.0952 * EL_CHARGE * min (en ω) (9 * T) / mass / LIGHT_SPEED ^ 2 := by
        norm_num at hq ⊢; linarith
      calc 0.5476 * 0.994 * min (en ω) (9 * T) = 0.5476 * min (en ω) (9 * T) * 0.994 := by ring
        _ ≤ _ := by gcongr
  unfold meanKinetic
  calc ENNReal.ofReal (1.57 * T) ≤ ENNReal.ofReal (∫ ω, 0.5476 * 0.994 * min (max (en ω) 0) (9 * T) ∂Rounds (μ.prod ν)) := by
        apply ENNReal.ofReal_le_ofReal
        rw [integral_const_mul]
        norm_num at hmean ⊢
        linarith
    _ = ∫⁻ ω, ENNReal.ofReal (0.5476 * 0.994 * min (max (en ω) 0) (9 * T)) ∂Rounds (μ.prod ν) := by
        refine ofReal_integral_eq_lintegral_ofReal (hI.const_mul _) (Filter.Eventually.of_forall fun ω => ?_)
        have : 0 ≤ min (max (en ω) 0) (9 * T) := le_min (le_max_right _ _) (by positivity)
        positivity
    _ ≤ _ := lintegral_mono fun ω => ENNReal.ofReal_le_ofReal (hpt ω)

/-- Not vacuous: electrons of 100 eV. -/
example : ∃ en, StoredEnergy 100 (unifDouble.prod unif) en ∧ ENNReal.ofReal (1.57 * 100) ≤ meanKinetic EL_MASS (unifDouble.prod unif) en := by
  obtain ⟨en, h⟩ := stored_exists 100 (by norm_num) (by norm_num) unifDouble unif unifDouble_draw unifDouble_near unif_near
  exact ⟨en, h, C93_hot_violated 100 (by norm_num) (by norm_num) EL_MASS le_rfl unifDouble unif unifDouble_draw unifDouble_near
    unif_near en h⟩

end Verif
