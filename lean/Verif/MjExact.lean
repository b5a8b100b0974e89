import Verif.MjGuess
import Verif.SamplerLaw
import Mathlib.MeasureTheory.Integral.IntegralEqImproper
import Mathlib.Analysis.SpecialFunctions.Pow.Asymptotics
import Mathlib.Analysis.SpecialFunctions.Exp

/-!
# C92: the energies follow the Maxwell-Jüttner distribution

Specification: with the temperature `T` in units of the rest energy, the factor `γ` of a gas in equilibrium has the density
`γ² β(γ) exp(-γ/T)` for `γ ≥ 1`, up to a constant, with `β(γ) = sqrt(1 - 1/γ²)` (Jüttner 1911).
-/

namespace Verif

open MeasureTheory

/-! ## Specification -/

/-- the probability of a factor above `x` for the density `γ² exp(-γ/T)` on `γ ≥ 1` -/
noncomputable def proposalTail (T x : ℝ) : ℝ :=
  (∫ g in Set.Ioi x, g ^ 2 * Real.exp (-g / T)) / ∫ g in Set.Ioi (1 : ℝ), g ^ 2 * Real.exp (-g / T)

/-- the probability of a factor above `x` for the Maxwell-Jüttner density -/
noncomputable def juttnerTail (T x : ℝ) : ℝ :=
  (∫ g in Set.Ioi x, g ^ 2 * Real.sqrt (1 - 1 / g ^ 2) * Real.exp (-g / T)) /
    ∫ g in Set.Ioi (1 : ℝ), g ^ 2 * Real.sqrt (1 - 1 / g ^ 2) * Real.exp (-g / T)

/-! ## Integrals -/

noncomputable def mjPrim (T g : ℝ) : ℝ := -((T * g ^ 2 + 2 * T ^ 2 * g + 2 * T ^ 3) * Real.exp (-g / T))

theorem mjPrim_hasDeriv {T : ℝ} (hT : 0 < T) (g : ℝ) : HasDerivAt (mjPrim T) (g ^ 2 * Real.exp (-g / T)) g := by
  have h1 : HasDerivAt (fun g : ℝ => T * g ^ 2 + 2 * T ^ 2 * g + 2 * T ^ 3) (2 * T * g + 2 * T ^ 2) g := by
    refine (((((hasDerivAt_id g).pow 2).const_mul T).add ((hasDerivAt_id g).const_mul (2 * T ^ 2))).add_const _).congr_deriv ?_
    simp
    ring
  have h2 : HasDerivAt (fun g : ℝ => Real.exp (-g / T)) (Real.exp (-g / T) * (-1 / T)) g := by
    exact ((hasDerivAt_id g).neg.div_const T).exp
  refine (h1.mul h2).neg.congr_deriv ?_
  field_simp
  ring

theorem mjPrim_tendsto {T : ℝ} (hT : 0 < T) : Filter.Tendsto (mjPrim T) Filter.atTop (nhds 0) := by
  have h : ∀ n : ℕ, Filter.Tendsto (fun g : ℝ => (g / T) ^ n * Real.exp (-(g / T))) Filter.atTop (nhds 0) := fun n =>
    (Real.tendsto_pow_mul_exp_neg_atTop_nhds_zero n).comp (Filter.tendsto_id.atTop_div_const hT)
  have := (((h 2).const_mul (T ^ 3)).add (((h 1).const_mul (2 * T ^ 3)).add ((h 0).const_mul (2 * T ^ 3)))).neg
  simp only [mul_zero, add_zero, neg_zero] at this
  refine this.congr fun g => ?_
  unfold mjPrim
  rw [neg_div]
  field_simp
  ring

theorem mjPrim_eq {T : ℝ} (hT : 0 < T) {x : ℝ} (hx : 0 ≤ x) : -mjPrim T x = 2 * T ^ 3 * Real.exp (-mjG (x / T)) := by
  unfold mjPrim mjG
  rw [show -(x / T - Real.log (1 + x / T + (x / T) ^ 2 / 2)) = Real.log (1 + x / T + (x / T) ^ 2 / 2) + -x / T by ring,
    Real.exp_add, Real.exp_log (mjL_pos (by positivity))]
  field_simp
  ring

theorem proposal_integrable {T : ℝ} (hT : 0 < T) (x : ℝ) :
    IntegrableOn (fun g => g ^ 2 * Real.exp (-g / T)) (Set.Ioi x) :=
  integrableOn_Ioi_deriv_of_nonneg' (fun g _ => mjPrim_hasDeriv hT g) (fun g _ => by positivity) (mjPrim_tendsto hT)

theorem proposal_integral {T : ℝ} (hT : 0 < T) {x : ℝ} (hx : 0 ≤ x) :
    ∫ g in Set.Ioi x, g ^ 2 * Real.exp (-g / T) = 2 * T ^ 3 * Real.exp (-mjG (x / T)) := by
  rw [integral_Ioi_of_hasDerivAt_of_nonneg' (fun g _ => mjPrim_hasDeriv hT g) (fun g _ => by positivity) (mjPrim_tendsto hT),
    zero_sub, mjPrim_eq hT hx]

theorem proposalTail_eq {T : ℝ} (hT : 0 < T) {x : ℝ} (hx : 0 ≤ x) :
    proposalTail T x = Real.exp (-(mjG (x / T) - mjG (1 / T))) := by
  unfold proposalTail
  rw [proposal_integral hT hx, proposal_integral hT zero_le_one, mul_div_mul_left _ _ (by positivity), ← Real.exp_sub]
  congr 1
  ring

/-! ## The guess -/

theorem mjH0_eq (T : ℝ) : -mjH0 T = mjG (1 / T) := by
  unfold mjH0 mjG
  rw [show 1 + 1 / T + 0.5 * (1 / T) * (1 / T) = 1 + 1 / T + (1 / T) ^ 2 / 2 by ring]
  ring

theorem mjG_ten : mjG 10 ≤ 5.9 := by
  unfold mjG
  have : (4.1 : ℝ) ≤ Real.log (1 + 10 + 10 ^ 2 / 2) := by
    rw [Real.le_log_iff_exp_le (by norm_num)]
    have h1 := Real.exp_one_lt_d9
    have h2 := Real.exp_bound' (x := 0.1) (by norm_num) (by norm_num) (n := 4) (by norm_num)
    rw [show (4.1 : ℝ) = (4 : ℕ) * 1 + 0.1 by norm_num, Real.exp_add, Real.exp_nat_mul]
    have h3 : Real.exp 1 ^ 4 ≤ 2.7182818286 ^ 4 := pow_le_pow_left₀ (Real.exp_pos 1).le h1.le 4
    have h4 : Real.exp 0.1 ≤ 1.106 := by
      refine h2.trans ?_
      norm_num [Finset.sum_range_succ, Nat.factorial]
    calc Real.exp 1 ^ 4 * Real.exp 0.1 ≤ 2.7182818286 ^ 4 * 1.106 := mul_le_mul h3 h4 (Real.exp_pos _).le (by positivity)
      _ ≤ _ := by norm_num
  linarith

theorem mjG_one_le {T : ℝ} (h1 : 0.1 ≤ T) : mjG (1 / T) ≤ 5.9 := by
  have hT : 0 < T := by linarith
  refine (mjG_mono (by positivity) ?_).trans mjG_ten
  rw [div_le_iff₀ hT]; linarith

theorem guess_log {T u : ℝ} (h1 : 0.1 ≤ T) (h2 : T ≤ 3000) (h : UniformDraw u) :
    |Real.log (mjG (guessOf T u / T)) - Real.log (mjG (1 / T) - Real.log (1 - u))| ≤ 1.9e-4 := by
  have hT : 0 < T := by linarith
  have hr := mj_range h1 h2 h.1 h.2
  have ha := mjArg_le h1 h
  have e : guessOf T u / T = Real.exp (interp lnInvH (mjArg T u)) := by unfold guessOf; field_simp
  have hi := interp_right (I := mjArg T u) (by unfold mjArg; norm_num; linarith [hr.1]) (by linarith)
  rw [e]
  unfold mjK at hi
  rw [← mjH0_eq, show -mjH0 T - Real.log (1 - u) = -Real.log (1 - u) - mjH0 T by ring]
  rw [show 42 * mjArg T u / 999 - 30 = Real.log (-Real.log (1 - u) - mjH0 T) by unfold mjArg; ring] at hi
  exact hi

theorem guess_ratio {a b : ℝ} (ha : 0 < a) (hb : 0 < b) (h : |Real.log a - Real.log b| ≤ 1.9e-4) : a - b ≤ 2e-4 * b := by
  have h1 := (abs_le.1 h).2
  rw [← Real.log_div ha.ne' hb.ne', Real.log_le_iff_le_exp (by positivity)] at h1
  have h2 := Real.exp_bound' (x := 1.9e-4) (by norm_num) (by norm_num) (n := 2) (by norm_num)
  have h3 : Real.exp 1.9e-4 ≤ 1 + 2e-4 := by
    refine h2.trans ?_
    norm_num [Finset.sum_range_succ, Nat.factorial]
  have := h1.trans h3
  rw [div_le_iff₀ hb] at this
  linarith

theorem mul_exp_neg_le (x : ℝ) : x * Real.exp (-x) ≤ 0.37 := by
  have h1 := Real.add_one_le_exp (x - 1)
  have h2 := Real.exp_one_gt_d9
  have e : Real.exp (-x) = (Real.exp (x - 1) * Real.exp 1)⁻¹ := by rw [← Real.exp_add, ← Real.exp_neg]; ring_nf
  rw [e]
  have hp := Real.exp_pos (x - 1)
  rw [← div_eq_mul_inv, div_le_iff₀ (by positivity)]
  nlinarith

/-- the difference of two exponentials -/
theorem exp_near {G1 a b : ℝ} (h1 : 0 ≤ G1) (ha : 0 ≤ a) (hab : a ≤ b) (h : b - a ≤ 2e-4 * (G1 + a)) :
    |Real.exp (-a) - Real.exp (-b)| ≤ 2e-4 * (G1 + 0.37) := by
  have k1 : Real.exp (-b) ≤ Real.exp (-a) := Real.exp_le_exp.2 (by linarith)
  rw [abs_of_nonneg (by linarith)]
  have k2 : Real.exp (-a) * (1 - (b - a)) ≤ Real.exp (-b) := by
    rw [show -b = -a + -(b - a) by ring, Real.exp_add]
    gcongr
    linarith [Real.add_one_le_exp (-(b - a))]
  have k3 := mul_exp_neg_le a
  have k4 : Real.exp (-a) ≤ 1 := Real.exp_le_one_iff.2 (by linarith)
  have k5 := Real.exp_pos (-a)
  have k6 : Real.exp (-a) * (b - a) ≤ Real.exp (-a) * (2e-4 * (G1 + a)) := mul_le_mul_of_nonneg_left h k5.le
  have k7 : Real.exp (-a) * G1 ≤ G1 := mul_le_of_le_one_left h1 k4
  nlinarith

/-- **C92** (the guess). For every temperature from 0.1 to 3000 and every draw `u`, the exact probability of a factor above the
guess is `1 - u` within 0.00126. A guess below one, which has no meaning, comes from draws below 0.00118 only. -/
theorem C92_guess (T : ℝ) (h1 : 0.1 ≤ T) (h2 : T ≤ 3000) (u : ℝ) (h : UniformDraw u) (g : ℝ)
    (hg : gammaGuess T u = some (some g)) :
    (1 ≤ g → |proposalTail T g - (1 - u)| ≤ 0.00126) ∧ (g < 1 → u ≤ 0.00118) := by
  have hT : 0 < T := by linarith
  obtain rfl : guessOf T u = g := by
    rw [gammaGuess_arg h1 h2 h] at hg
    exact Option.some.inj (Option.some.inj hg)
  have hl := guess_log h1 h2 h
  have hgp : 0 < guessOf T u := mul_pos hT (Real.exp_pos _)
  have h53 : (0 : ℝ) < 1 / 2 ^ 53 := by positivity
  have hu1 : 0 < 1 - u := by linarith [h.2]
  have hlu : Real.log (1 - u) ≤ 0 := Real.log_nonpos hu1.le (by linarith [h.1])
  have hG1 : 0 < mjG (1 / T) := mjG_pos (by positivity)
  have hG1' := mjG_one_le h1
  have hG : 0 < mjG (guessOf T u / T) := mjG_pos (by positivity)
  have hw : 0 < mjG (1 / T) - Real.log (1 - u) := by linarith
  have r1 := guess_ratio hG hw hl
  have r2 := guess_ratio hw hG (by rw [abs_sub_comm]; exact hl)
  constructor
  · intro hge
    have hmono : mjG (1 / T) ≤ mjG (guessOf T u / T) := mjG_mono (by positivity) (by gcongr)
    rw [proposalTail_eq hT hgp.le]
    obtain ⟨a, ha⟩ : ∃ a, a = mjG (guessOf T u / T) - mjG (1 / T) := ⟨_, rfl⟩
    have e : 1 - u = Real.exp (-(-Real.log (1 - u))) := by rw [neg_neg, Real.exp_log hu1]
    rw [← ha]
    rcases le_total a (-Real.log (1 - u)) with hc | hc
    · have := exp_near hG1.le (by linarith) hc (by rw [ha]; linarith)
      rw [← e] at this
      refine this.trans ?_
      norm_num at hG1' ⊢
      linarith
    · have := exp_near hG1.le (by linarith) hc (by rw [ha]; linarith)
      rw [← e, abs_sub_comm] at this
      refine this.trans ?_
      norm_num at hG1' ⊢
      linarith
  · intro hlt
    have hmono : mjG (guessOf T u / T) ≤ mjG (1 / T) := mjG_mono (by positivity) (by gcongr)
    have := Real.log_le_sub_one_of_pos hu1
    obtain ⟨q, hq⟩ : ∃ q, q = mjG (1 / T) := ⟨_, rfl⟩
    rw [← hq] at hG1' r2 hmono
    norm_num at hG1' r2 ⊢
    linarith

end Verif
