import Verif.MjTable
import Verif.PlasmaProps
import Mathlib.Analysis.Convex.Deriv
import Mathlib.Analysis.Calculus.MeanValue
import Mathlib.Analysis.SpecialFunctions.Log.Deriv
import Mathlib.Analysis.SpecialFunctions.ExpDeriv

/-!
# The function that the table `lnInvH` inverts
-/

namespace Verif

/-- minus the logarithm of `(1 + y + y²/2) exp(-y)` -/
noncomputable def mjG (y : ℝ) : ℝ := y - Real.log (1 + y + y ^ 2 / 2)

theorem mjL_pos {y : ℝ} (_ : 0 ≤ y) : 0 < 1 + y + y ^ 2 / 2 := by positivity

theorem mjD_pos (y : ℝ) : 0 < 2 + 2 * y + y ^ 2 := by nlinarith [sq_nonneg (y + 1)]

theorem mjG_zero : mjG 0 = 0 := by simp [mjG]

theorem mjG_hasDeriv (y : ℝ) : HasDerivAt mjG (y ^ 2 / (2 + 2 * y + y ^ 2)) y := by
  have hL : 1 + y + y ^ 2 / 2 ≠ 0 := by have := mjD_pos y; nlinarith
  have h1 : HasDerivAt (fun y : ℝ => 1 + y + y ^ 2 / 2) (1 + y) y := by
    have := ((hasDerivAt_id y).const_add 1).add (((hasDerivAt_id y).pow 2).div_const 2)
    refine (this.congr_deriv ?_)
    simp
  have h2 := (hasDerivAt_id y).sub (h1.log hL)
  refine h2.congr_deriv ?_
  have := (mjD_pos y).ne'
  rw [show 1 + y + y ^ 2 / 2 = (2 + 2 * y + y ^ 2) / 2 by ring]
  obtain ⟨D, hD⟩ : ∃ D, D = 2 + 2 * y + y ^ 2 := ⟨_, rfl⟩
  rw [← hD] at this ⊢
  field_simp
  rw [hD]
  ring

theorem mono_of_deriv {f f' : ℝ → ℝ} (hf : ∀ x, 0 ≤ x → HasDerivAt f (f' x) x) (h : ∀ x, 0 ≤ x → 0 ≤ f' x) {x y : ℝ}
    (hx : 0 ≤ x) (hxy : x ≤ y) : f x ≤ f y := by
  have : MonotoneOn f (Set.Ici 0) := by
    apply monotoneOn_of_deriv_nonneg (convex_Ici 0)
    · exact fun x hx => (hf x hx).continuousAt.continuousWithinAt
    · intro x hx
      rw [interior_Ici] at hx
      exact (hf x (le_of_lt hx)).differentiableAt.differentiableWithinAt
    · intro x hx
      rw [interior_Ici] at hx
      rw [(hf x (le_of_lt hx)).deriv]
      exact h x (le_of_lt hx)
  exact this hx (hx.trans hxy : (0 : ℝ) ≤ y) hxy

theorem mjG_mono {x y : ℝ} (hx : 0 ≤ x) (hxy : x ≤ y) : mjG x ≤ mjG y :=
  mono_of_deriv (fun x _ => mjG_hasDeriv x) (fun x _ => div_nonneg (sq_nonneg x) (mjD_pos x).le) hx hxy

theorem cube_hasDeriv (b c y : ℝ) (h : 6 + b * y + c * y ^ 2 ≠ 0) :
    HasDerivAt (fun y : ℝ => y ^ 3 / (6 + b * y + c * y ^ 2))
      (y ^ 2 * (18 + 2 * b * y + c * y ^ 2) / (6 + b * y + c * y ^ 2) ^ 2) y := by
  have h1 : HasDerivAt (fun y : ℝ => 6 + b * y + c * y ^ 2) (b + 2 * c * y) y := by
    have := (((hasDerivAt_id y).const_mul b).const_add 6).add (((hasDerivAt_id y).pow 2).const_mul c)
    refine this.congr_deriv ?_
    simp
    ring
  have h2 := ((hasDerivAt_id y).pow 3).div h1 h
  refine h2.congr_deriv ?_
  simp
  field_simp
  ring

theorem mjG_le {y : ℝ} (hy : 0 ≤ y) : mjG y ≤ y ^ 3 / (6 + 4 * y + 1 * y ^ 2) := by
  have h := mono_of_deriv (f := fun y => y ^ 3 / (6 + 4 * y + 1 * y ^ 2) - mjG y)
    (fun x hx => (cube_hasDeriv 4 1 x (by positivity)).sub (mjG_hasDeriv x)) (fun x hx => by
      rw [sub_nonneg, div_le_div_iff₀ (mjD_pos x) (by positivity)]
      have : 0 ≤ x ^ 2 * (4 * x + 8 * x ^ 2 + 2 * x ^ 3) := by positivity
      nlinarith) le_rfl hy
  simp only [mjG_zero] at h
  norm_num at h ⊢
  linarith

theorem le_mjG {y : ℝ} (hy : 0 ≤ y) : y ^ 3 / (6 + 5 * y + 1.3 * y ^ 2) ≤ mjG y := by
  have h := mono_of_deriv (f := fun y => mjG y - y ^ 3 / (6 + 5 * y + 1.3 * y ^ 2))
    (fun x hx => (mjG_hasDeriv x).sub (cube_hasDeriv 5 1.3 x (by positivity))) (fun x hx => by
      rw [sub_nonneg, div_le_div_iff₀ (by positivity) (mjD_pos x)]
      have : 0 ≤ x ^ 2 * (4 * x + 0 * x ^ 2 + 0.4 * x ^ 3 + 0.39 * x ^ 4) := by positivity
      nlinarith) le_rfl hy
  simp only [mjG_zero] at h
  norm_num at h ⊢
  linarith

theorem mjG_pos {y : ℝ} (hy : 0 < y) : 0 < mjG y := lt_of_lt_of_le (by positivity) (le_mjG hy.le)

/-! ## In logarithmic scales -/

noncomputable def mjK (t : ℝ) : ℝ := Real.log (mjG (Real.exp t))

/-- the derivative of `mjK` -/
noncomputable def mjK1 (t : ℝ) : ℝ :=
  Real.exp t ^ 3 / ((2 + 2 * Real.exp t + Real.exp t ^ 2) * mjG (Real.exp t))

theorem mjK_hasDeriv (t : ℝ) : HasDerivAt mjK (mjK1 t) t := by
  have hG := mjG_pos (Real.exp_pos t)
  have h := ((mjG_hasDeriv (Real.exp t)).comp t (Real.hasDerivAt_exp t)).log hG.ne'
  refine h.congr_deriv ?_
  unfold mjK1
  have := (mjD_pos (Real.exp t)).ne'
  have := hG.ne'
  simp only [Function.comp]
  field_simp

theorem mjK1_hasDeriv (t : ℝ) : HasDerivAt mjK1 (mjK1 t * (3
    - 2 * Real.exp t * (1 + Real.exp t) / (2 + 2 * Real.exp t + Real.exp t ^ 2) - mjK1 t)) t := by
  have hG := mjG_pos (Real.exp_pos t)
  have he := Real.hasDerivAt_exp t
  have h1 : HasDerivAt (fun t => 2 + 2 * Real.exp t + Real.exp t ^ 2) (2 * Real.exp t + 2 * Real.exp t ^ 2) t := by
    refine (((he.const_mul 2).const_add 2).add (he.pow 2)).congr_deriv ?_
    simp
    ring
  have h2 := (mjG_hasDeriv (Real.exp t)).comp t he
  have hD := (mjD_pos (Real.exp t)).ne'
  have h3 := (he.pow 3).div (h1.mul h2) (mul_ne_zero hD hG.ne')
  refine h3.congr_deriv ?_
  have := hG.ne'
  unfold mjK1
  simp only [Function.comp, Pi.mul_apply, Pi.pow_apply]
  push_cast
  generalize mjG (Real.exp t) = g at *
  clear h1 h2 h3 he
  generalize Real.exp t = y at *
  obtain ⟨D, hD'⟩ : ∃ D, D = 2 + 2 * y + y ^ 2 := ⟨_, rfl⟩
  rw [← hD'] at hD ⊢
  field_simp
  rw [hD']
  ring

theorem mjK1_ge (t : ℝ) : 3 - 2 * Real.exp t * (1 + Real.exp t) / (2 + 2 * Real.exp t + Real.exp t ^ 2) ≤ mjK1 t := by
  have hy := Real.exp_pos t
  unfold mjK1
  generalize Real.exp t = y at *
  have hG := mjG_pos hy
  have hD := mjD_pos y
  have h := mjG_le hy.le
  rw [le_div_iff₀ (by positivity)] at h
  rw [sub_le_iff_le_add, ← sub_le_iff_le_add', show 3 - y ^ 3 / ((2 + 2 * y + y ^ 2) * mjG y)
    = (3 * (2 + 2 * y + y ^ 2) - y ^ 3 / mjG y) / (2 + 2 * y + y ^ 2) by field_simp]
  gcongr
  have : 6 + 4 * y + 1 * y ^ 2 ≤ y ^ 3 / mjG y := by rw [le_div_iff₀ hG]; linarith
  linarith

theorem mjK1_le (t : ℝ) : mjK1 t ≤ (6 + 5 * Real.exp t + 1.3 * Real.exp t ^ 2) / (2 + 2 * Real.exp t + Real.exp t ^ 2) := by
  have hy := Real.exp_pos t
  unfold mjK1
  generalize Real.exp t = y at *
  have hG := mjG_pos hy
  have hD := mjD_pos y
  have h := le_mjG hy.le
  rw [div_le_iff₀ (by positivity)] at h
  rw [div_le_div_iff₀ (by positivity) hD]
  nlinarith

theorem mjK1_pos (t : ℝ) : 0 < mjK1 t := by
  have hG := mjG_pos (Real.exp_pos t)
  have hD := mjD_pos (Real.exp t)
  unfold mjK1
  positivity

theorem mjK_deriv : deriv mjK = mjK1 := funext fun t => (mjK_hasDeriv t).deriv

theorem mjK_concave : ConcaveOn ℝ Set.univ mjK := by
  apply concaveOn_univ_of_deriv2_nonpos
  · exact fun t => (mjK_hasDeriv t).differentiableAt
  · rw [mjK_deriv]; exact fun t => (mjK1_hasDeriv t).differentiableAt
  · intro t
    rw [show deriv^[2] mjK = deriv (deriv mjK) from rfl, mjK_deriv, (mjK1_hasDeriv t).deriv]
    exact mul_nonpos_of_nonneg_of_nonpos (mjK1_pos t).le (by linarith [mjK1_ge t])

theorem mjK_bend (t : ℝ) : -0.7 ≤ mjK1 t * (3
    - 2 * Real.exp t * (1 + Real.exp t) / (2 + 2 * Real.exp t + Real.exp t ^ 2) - mjK1 t) := by
  have h1 := mjK1_le t
  have h0 := (mjK1_pos t).le
  generalize mjK1 t = K at *
  have hy := Real.exp_pos t
  generalize Real.exp t = y at *
  have hD := mjD_pos y
  have h2 : K - (3 - 2 * y * (1 + y) / (2 + 2 * y + y ^ 2)) ≤ (y + 0.3 * y ^ 2) / (2 + 2 * y + y ^ 2) := by
    refine (sub_le_sub_right h1 _).trans (le_of_eq ?_)
    field_simp
    ring
  have h3 : K * (K - (3 - 2 * y * (1 + y) / (2 + 2 * y + y ^ 2)))
      ≤ (6 + 5 * y + 1.3 * y ^ 2) / (2 + 2 * y + y ^ 2) * ((y + 0.3 * y ^ 2) / (2 + 2 * y + y ^ 2)) :=
    (mul_le_mul_of_nonneg_left h2 h0).trans (mul_le_mul_of_nonneg_right h1 (by positivity))
  have h4 : (6 + 5 * y + 1.3 * y ^ 2) / (2 + 2 * y + y ^ 2) * ((y + 0.3 * y ^ 2) / (2 + 2 * y + y ^ 2)) ≤ 0.7 := by
    rw [div_mul_div_comm, div_le_iff₀ (by positivity)]
    nlinarith [sq_nonneg (y ^ 2 - 2), sq_nonneg (y - 1)]
  nlinarith

theorem mjK_semiconvex : ConvexOn ℝ Set.univ fun t => mjK t + 0.35 * t ^ 2 := by
  have hd : ∀ t, HasDerivAt (fun t => mjK t + 0.35 * t ^ 2) (mjK1 t + 0.7 * t) t := by
    intro t
    refine ((mjK_hasDeriv t).add (((hasDerivAt_id t).pow 2).const_mul 0.35)).congr_deriv ?_
    simp
    ring
  have hd2 : ∀ t, HasDerivAt (fun t => mjK1 t + 0.7 * t) (mjK1 t * (3
    - 2 * Real.exp t * (1 + Real.exp t) / (2 + 2 * Real.exp t + Real.exp t ^ 2) - mjK1 t) + 0.7) t := by
    intro t
    refine ((mjK1_hasDeriv t).add ((hasDerivAt_id t).const_mul 0.7)).congr_deriv ?_
    simp
  have e : deriv (fun t => mjK t + 0.35 * t ^ 2) = fun t => mjK1 t + 0.7 * t := funext fun t => (hd t).deriv
  apply convexOn_univ_of_deriv2_nonneg
  · exact fun t => (hd t).differentiableAt
  · rw [e]; exact fun t => (hd2 t).differentiableAt
  · intro t
    rw [show deriv^[2] (fun t => mjK t + 0.35 * t ^ 2) = deriv (deriv fun t => mjK t + 0.35 * t ^ 2) from rfl, e,
      (hd2 t).deriv]
    linarith [mjK_bend t]

/-- linear interpolation between two points -/
theorem mjK_chord {a b θ : ℝ} (h0 : 0 ≤ θ) (h1 : θ ≤ 1) :
    (1 - θ) * mjK a + θ * mjK b ≤ mjK (a + θ * (b - a)) ∧
    mjK (a + θ * (b - a)) ≤ (1 - θ) * mjK a + θ * mjK b + 0.0875 * (b - a) ^ 2 := by
  have e : (1 - θ) * a + θ * b = a + θ * (b - a) := by ring
  have k1 := mjK_concave.2 (Set.mem_univ a) (Set.mem_univ b) (sub_nonneg.2 h1) h0 (by ring)
  have k2 := mjK_semiconvex.2 (Set.mem_univ a) (Set.mem_univ b) (sub_nonneg.2 h1) h0 (by ring)
  simp only [smul_eq_mul] at k1 k2
  rw [e] at k1 k2
  refine ⟨k1, ?_⟩
  have : θ * (1 - θ) * (b - a) ^ 2 ≤ 1 / 4 * (b - a) ^ 2 :=
    mul_le_mul_of_nonneg_right (by nlinarith [sq_nonneg (θ - 1 / 2)]) (sq_nonneg _)
  nlinarith

end Verif
