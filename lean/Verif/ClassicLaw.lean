import Verif.ClassicFunc
import Verif.MjLaw

/-!
# C92: below a tenth the energies follow Maxwell's distribution
-/

namespace Verif

open MeasureTheory

/-! ## Linear interpolation -/

/-- The error of a chord of a function with second derivative between `-M` and `M`. -/
theorem chord_error {f f' f'' : ℝ → ℝ} {M : ℝ} (h1 : ∀ x, HasDerivAt f (f' x) x) (h2 : ∀ x, HasDerivAt f' (f'' x) x)
    (hM : ∀ x, |f'' x| ≤ M) {a b θ : ℝ} (hθ0 : 0 ≤ θ) (hθ1 : θ ≤ 1) :
    |f (a + θ * (b - a)) - ((1 - θ) * f a + θ * f b)| ≤ M / 8 * (b - a) ^ 2 := by
  have hconv : ∀ (g g' g'' : ℝ → ℝ), (∀ x, HasDerivAt g (g' x) x) → (∀ x, HasDerivAt g' (g'' x) x) → (∀ x, 0 ≤ g'' x) →
      ConvexOn ℝ Set.univ g := by
    intro g g' g'' hg hg' hp
    have e1 : deriv g = g' := funext fun x => (hg x).deriv
    have e2 : deriv^[2] g = g'' := by
      rw [Function.iterate_succ, Function.iterate_one, Function.comp, e1]
      exact funext fun x => (hg' x).deriv
    refine convexOn_univ_of_deriv2_nonneg (fun x => (hg x).differentiableAt) ?_ ?_
    · rw [e1]; exact fun x => (hg' x).differentiableAt
    · intro x; rw [e2]; exact hp x
  have hq : ∀ x : ℝ, HasDerivAt (fun x : ℝ => M / 2 * x ^ 2) (M * x) x := fun x => by
    refine ((hasDerivAt_pow 2 x).const_mul (M / 2)).congr_deriv ?_
    simp
    ring
  have hl : ∀ x : ℝ, HasDerivAt (fun x : ℝ => M * x) M x := fun x => by
    simpa using (hasDerivAt_id x).const_mul M
  have c1 := hconv (fun x => M / 2 * x ^ 2 + f x) _ _ (fun x => (hq x).add (h1 x)) (fun x => (hl x).add (h2 x))
    (fun x => by have := (abs_le.1 (hM x)).1; linarith)
  have c2 := hconv (fun x => M / 2 * x ^ 2 - f x) _ _ (fun x => (hq x).sub (h1 x)) (fun x => (hl x).sub (h2 x))
    (fun x => by have := (abs_le.1 (hM x)).2; linarith)
  have e : (1 - θ) * a + θ * b = a + θ * (b - a) := by ring
  have k1 := c1.2 (Set.mem_univ a) (Set.mem_univ b) (sub_nonneg.2 hθ1) hθ0 (by ring)
  have k2 := c2.2 (Set.mem_univ a) (Set.mem_univ b) (sub_nonneg.2 hθ1) hθ0 (by ring)
  simp only [smul_eq_mul] at k1 k2
  rw [e] at k1 k2
  have hM0 : 0 ≤ M := (abs_nonneg _).trans (hM 0)
  have k3 : θ * (1 - θ) * (M / 2 * (b - a) ^ 2) ≤ 1 / 4 * (M / 2 * (b - a) ^ 2) :=
    mul_le_mul_of_nonneg_right (by nlinarith [sq_nonneg (θ - 1 / 2)]) (by positivity)
  rw [abs_le]
  constructor <;> nlinarith

theorem exp_four {z : ℝ} (hz : 0 ≤ z) : z ^ 3 * (z - 3) ^ 2 ≤ 32 * Real.exp z := by
  have h := Real.sum_le_exp_of_nonneg hz 7
  simp only [Finset.sum_range_succ, Finset.sum_range_zero, Nat.factorial] at h
  norm_num at h
  have hq : 0 ≤ z ^ 4 * ((z - 33 / 4) ^ 2 + 1) := by positivity
  have : 0 ≤ z ^ 2 * (z - 11 / 6) ^ 2 := by positivity
  nlinarith [pow_nonneg hz 2, pow_nonneg hz 3, pow_nonneg hz 4]

/-- the probability as a function of the logarithm of the energy -/
theorem mbLog_deriv (t : ℝ) : HasDerivAt (fun t => mbI 0 (Real.exp t)) (Real.exp (t * (3 / 2)) * Real.exp (-Real.exp t)) t := by
  refine ((mbI_hasDeriv 0 (Real.exp t)).comp t (Real.hasDerivAt_exp t)).congr_deriv ?_
  rw [← pow_three_half]
  ring

theorem mbLog_deriv2 (t : ℝ) : HasDerivAt (fun t => Real.exp (t * (3 / 2)) * Real.exp (-Real.exp t))
    (Real.exp (t * (3 / 2)) * Real.exp (-Real.exp t) * (3 / 2 - Real.exp t)) t := by
  have h1 : HasDerivAt (fun t : ℝ => Real.exp (t * (3 / 2))) (Real.exp (t * (3 / 2)) * (3 / 2)) t := by
    simpa using ((hasDerivAt_id t).mul_const (3 / 2 : ℝ)).exp
  have h2 : HasDerivAt (fun t : ℝ => Real.exp (-Real.exp t)) (Real.exp (-Real.exp t) * -Real.exp t) t :=
    (Real.hasDerivAt_exp t).neg.exp
  refine (h1.mul h2).congr_deriv ?_
  ring

theorem mbLog_curve (t : ℝ) : |Real.exp (t * (3 / 2)) * Real.exp (-Real.exp t) * (3 / 2 - Real.exp t)| ≤ 1 := by
  rw [← abs_one, ← sq_le_sq, one_pow]
  obtain ⟨y, hy⟩ : ∃ y, y = Real.exp t := ⟨_, rfl⟩
  have hy0 : 0 < y := hy ▸ Real.exp_pos t
  have e1 : Real.exp (t * (3 / 2)) ^ 2 = y ^ 3 := by
    rw [hy, ← Real.exp_nat_mul, ← Real.exp_nat_mul]
    congr 1
    push_cast
    ring
  have e2 : Real.exp (-y) ^ 2 = (Real.exp (2 * y))⁻¹ := by
    rw [← Real.exp_nat_mul, ← Real.exp_neg]
    congr 1
    push_cast
    ring
  rw [← hy, mul_pow, mul_pow, e1, e2, mul_right_comm, ← div_eq_mul_inv, div_le_one (Real.exp_pos _)]
  have := exp_four (z := 2 * y) (by positivity)
  nlinarith

theorem double_exp_deriv (l : ℝ) : HasDerivAt (fun l => Real.exp (-Real.exp l)) (-(Real.exp l * Real.exp (-Real.exp l))) l := by
  refine ((Real.hasDerivAt_exp l).neg.exp).congr_deriv ?_
  simp only [Pi.neg_apply]
  ring

theorem double_exp_deriv2 (l : ℝ) : HasDerivAt (fun l => -(Real.exp l * Real.exp (-Real.exp l)))
    (Real.exp l * Real.exp (-Real.exp l) * (Real.exp l - 1)) l := by
  refine ((Real.hasDerivAt_exp l).mul ((Real.hasDerivAt_exp l).neg.exp)).neg.congr_deriv ?_
  simp only [Pi.neg_apply]
  ring

theorem double_exp_curve (l : ℝ) : |Real.exp l * Real.exp (-Real.exp l) * (Real.exp l - 1)| ≤ 1 := by
  obtain ⟨y, hy⟩ : ∃ y, y = Real.exp l := ⟨_, rfl⟩
  have hy0 : 0 < y := hy ▸ Real.exp_pos l
  rw [← hy, Real.exp_neg, mul_right_comm, ← div_eq_mul_inv, abs_div, abs_of_pos (Real.exp_pos y), div_le_one (Real.exp_pos y)]
  have h := Real.sum_le_exp_of_nonneg hy0.le 4
  simp only [Finset.sum_range_succ, Finset.sum_range_zero, Nat.factorial] at h
  norm_num at h
  rw [abs_le]
  constructor <;> nlinarith [sq_nonneg (y - 2), sq_nonneg y, mul_nonneg hy0.le (sq_nonneg (y - 2))]

theorem lnInvF_step : List.IsChain (fun a b => a - b ≤ 102851000000000000000) lnInvF := by decide +kernel

/-- The interpolated table inverts Maxwell's distribution within `1.6e-3`. -/
theorem interpF_right {I : ℝ} (h0 : 0 ≤ I) (h1 : I < 999) :
    |mbI 0 (Real.exp (interp lnInvF I)) - Real.sqrt Real.pi / 2 * Real.exp (-Real.exp (21 * I / 999 - 19))| ≤ 1.39e-3 := by
  have hl := lnInvF_length
  obtain ⟨i, hi⟩ : ∃ i, i = ⌊I⌋₊ := ⟨_, rfl⟩
  have a1 : i < 999 := by rw [hi]; exact (Nat.floor_lt h0).2 (by exact_mod_cast h1)
  have b0 : (i : ℝ) ≤ I := by rw [hi]; exact Nat.floor_le h0
  have b1 : I < i + 1 := by rw [hi]; exact Nat.lt_floor_add_one I
  unfold interp
  rw [← hi]
  have r0 := tableF_right (i := i) (by omega)
  have r1 := tableF_right (i := i + 1) (by omega)
  have hs : (lnInvF.getD i 0 : ℤ) - lnInvF.getD (i + 1) 0 ≤ 102851000000000000000 := by
    rw [getD_lt (by omega), getD_lt (by omega)]
    exact List.isChain_iff_getElem.1 lnInvF_step i (by omega)
  have hm := table_anti lnInvF_decreasing (show i ≤ i + 1 by omega) (by omega)
  have hs' : ((lnInvF.getD i 0 : ℤ) : ℝ) - (lnInvF.getD (i + 1) 0 : ℤ) ≤ 102851000000000000000 := by exact_mod_cast hs
  obtain ⟨a, ha⟩ : ∃ a : ℝ, a = ((lnInvF.getD i 0 : ℤ) : ℝ) / 10 ^ 21 := ⟨_, rfl⟩
  obtain ⟨b, hb⟩ : ∃ b : ℝ, b = ((lnInvF.getD (i + 1) 0 : ℤ) : ℝ) / 10 ^ 21 := ⟨_, rfl⟩
  rw [← ha, ← hb]
  rw [← ha] at r0 hm
  rw [← hb] at r1 hm
  have d0 : 0 ≤ a - b := by linarith
  have d1 : a - b ≤ 0.102851 := by
    rw [ha, hb, ← sub_div, div_le_iff₀ (by norm_num)]
    refine hs'.trans (by norm_num)
  have hθ0 : 0 ≤ I - i := by linarith
  have hθ1 : I - i ≤ 1 := by linarith
  have c0 := chord_error mbLog_deriv mbLog_deriv2 mbLog_curve (a := a) (b := b) hθ0 hθ1
  have c1 := chord_error double_exp_deriv double_exp_deriv2 double_exp_curve (a := mbNode i) (b := mbNode (i + 1)) hθ0 hθ1
  obtain ⟨θ, hθ⟩ : ∃ θ, θ = I - i := ⟨_, rfl⟩
  rw [← hθ] at hθ0 hθ1 c0 c1 ⊢
  have e : mbNode i + θ * (mbNode (i + 1) - mbNode i) = 21 * I / 999 - 19 := by
    unfold mbNode; rw [hθ]; push_cast; ring
  have e' : mbNode (i + 1) - mbNode i = 21 / 999 := by unfold mbNode; push_cast; ring
  rw [e, e'] at c1
  have hd2 : (b - a) ^ 2 ≤ 0.102851 ^ 2 := by
    rw [← neg_sub, neg_sq]; exact pow_le_pow_left₀ d0 d1 2
  obtain ⟨hp1, hp2⟩ := half_sqrt_pi
  obtain ⟨C, hC⟩ : ∃ C, C = Real.sqrt Real.pi / 2 := ⟨_, rfl⟩
  rw [← hC] at r0 r1 hp1 hp2 ⊢
  obtain ⟨g, hg⟩ : ∃ g, g = mbI 0 (Real.exp (a + θ * (b - a))) := ⟨_, rfl⟩
  obtain ⟨g0, hg0⟩ : ∃ g, g = mbI 0 (Real.exp a) := ⟨_, rfl⟩
  obtain ⟨g1, hg1⟩ : ∃ g, g = mbI 0 (Real.exp b) := ⟨_, rfl⟩
  obtain ⟨v, hv⟩ : ∃ v, v = Real.exp (-Real.exp (21 * I / 999 - 19)) := ⟨_, rfl⟩
  obtain ⟨v0, hv0⟩ : ∃ v, v = Real.exp (-Real.exp (mbNode i)) := ⟨_, rfl⟩
  obtain ⟨v1, hv1⟩ : ∃ v, v = Real.exp (-Real.exp (mbNode (i + 1))) := ⟨_, rfl⟩
  rw [← hg, ← hg0, ← hg1] at c0
  rw [← hv, ← hv0, ← hv1] at c1
  rw [← hg0, ← hv0] at r0
  rw [← hg1, ← hv1] at r1
  rw [← hg, ← hv]
  clear hg hg0 hg1 hv hv0 hv1 ha hb hC e e' hθ hs hs' b0 b1 hi
  have hC0 : 0 < C := lt_of_lt_of_le (by norm_num) hp1
  have t1 : |(1 - θ) * (g0 - C * v0)| ≤ (1 - θ) * 1e-6 := by
    rw [abs_mul, abs_of_nonneg (sub_nonneg.2 hθ1)]
    exact mul_le_mul_of_nonneg_left r0 (sub_nonneg.2 hθ1)
  have t2 : |θ * (g1 - C * v1)| ≤ θ * 1e-6 := by
    rw [abs_mul, abs_of_nonneg hθ0]
    exact mul_le_mul_of_nonneg_left r1 hθ0
  have t3 : |C * (v - ((1 - θ) * v0 + θ * v1))| ≤ C * (1 / 8 * (21 / 999) ^ 2) := by
    rw [abs_mul, abs_of_pos hC0]
    exact mul_le_mul_of_nonneg_left c1 hC0.le
  have t4 : C * (1 / 8 * (21 / 999) ^ 2) ≤ 5e-5 := by
    calc C * (1 / 8 * (21 / 999) ^ 2) ≤ 886226926 / 10 ^ 9 * (1 / 8 * (21 / 999) ^ 2) := by gcongr
      _ ≤ _ := by norm_num
  have t5 : 1 / 8 * (b - a) ^ 2 ≤ 1.323e-3 := by norm_num at hd2 ⊢; linarith
  have ident : g - C * v = (g - ((1 - θ) * g0 + θ * g1)) + (1 - θ) * (g0 - C * v0) + θ * (g1 - C * v1)
      - C * (v - ((1 - θ) * v0 + θ * v1)) := by ring
  rw [ident]
  rw [abs_le] at c0 t1 t2 t3 ⊢
  norm_num at c0 t1 t2 t3 t4 t5 ⊢
  constructor <;> linarith [c0.1, c0.2, t1.1, t1.2, t2.1, t2.2, t3.1, t3.2]

/-! ## The law -/

theorem maxwell_cdf {y : ℝ} (hy : 0 ≤ y) : maxwellTail y = 1 - mbI 0 y / (Real.sqrt Real.pi / 2) := by
  have hC : 0 < Real.sqrt Real.pi / 2 := by have := Real.pi_pos; positivity
  have hint : IntegrableOn (fun s : ℝ => Real.sqrt s * Real.exp (-s)) (Set.Ioi 0) := by
    by_contra h
    have := integral_undef h
    rw [maxwell_norm] at this
    linarith
  have hsplit : ∫ s in Set.Ioi (0 : ℝ), Real.sqrt s * Real.exp (-s)
      = mbI 0 y + ∫ s in Set.Ioi y, Real.sqrt s * Real.exp (-s) := by
    unfold mbI
    simp only [pow_zero, one_mul]
    rw [intervalIntegral.integral_of_le hy, ← setIntegral_union (Set.Ioc_disjoint_Ioi le_rfl) measurableSet_Ioi
      (hint.mono_set Set.Ioc_subset_Ioi_self) (hint.mono_set (Set.Ioi_subset_Ioi hy)), Set.Ioc_union_Ioi_eq_Ioi hy]
  unfold maxwellTail
  rw [maxwell_norm] at hsplit ⊢
  rw [eq_sub_iff_add_eq, ← add_div, div_eq_one_iff_eq hC.ne']
  linarith

theorem mbI_le {y : ℝ} (hy : 0 ≤ y) : mbI 0 y ≤ y * Real.sqrt y := by
  have h : mbI 0 y ≤ ∫ _ in (0 : ℝ)..y, Real.sqrt y := by
    unfold mbI
    apply intervalIntegral.integral_mono_on hy ((mb_continuous 0).intervalIntegrable _ _)
      (continuous_const.intervalIntegrable _ _)
    intro s hs
    have h1 := Real.sqrt_le_sqrt hs.2
    have h2 : Real.exp (-s) ≤ 1 := Real.exp_le_one_iff.2 (by have := hs.1; linarith)
    have := Real.sqrt_nonneg s
    have := Real.exp_pos (-s)
    rw [pow_zero, one_mul]
    nlinarith
  simpa using h

/-- the draws below which the table is not used, and above which it is not -/
noncomputable def lowDraw : ℝ := Real.exp (-Real.exp 2)
/-- see `lowDraw` -/
noncomputable def topDraw : ℝ := Real.exp (-Real.exp (-19))

theorem lowDraw_le : lowDraw ≤ 6.3e-4 := by
  unfold lowDraw
  have h1 : (7.38 : ℝ) ≤ Real.exp 2 := by
    have := Real.exp_one_gt_d9
    rw [show (2 : ℝ) = (2 : ℕ) * 1 by norm_num, Real.exp_nat_mul]
    refine le_trans ?_ (pow_le_pow_left₀ (by norm_num) this.le 2)
    norm_num
  have h2 : Real.exp (-Real.exp 2) ≤ Real.exp (-7.38) := Real.exp_le_exp.2 (by linarith)
  refine h2.trans ?_
  rw [Real.exp_neg, inv_le_comm₀ (Real.exp_pos _) (by norm_num)]
  have h3 : (1446 : ℝ) ≤ Real.exp 7 * 1.32 * 1 := by
    have := Real.exp_one_gt_d9
    rw [show (7 : ℝ) = (7 : ℕ) * 1 by norm_num, Real.exp_nat_mul]
    have h4 := pow_le_pow_left₀ (by norm_num) this.le 7
    norm_num at h4 ⊢
    linarith
  have h5 : Real.exp 7.38 = Real.exp 7 * Real.exp 0.38 := by rw [← Real.exp_add]; norm_num
  have h6 : (1.46 : ℝ) ≤ Real.exp 0.38 := by
    have := Real.sum_le_exp_of_nonneg (x := 0.38) (by norm_num) 4
    simp only [Finset.sum_range_succ, Finset.sum_range_zero, Nat.factorial] at this
    norm_num at this ⊢
    linarith
  rw [h5]
  have := Real.exp_pos 7
  norm_num at h3 h6 ⊢
  nlinarith

theorem lowDraw_pos : 0 < lowDraw := Real.exp_pos _

theorem topDraw_ge : 1 - 1e-7 ≤ topDraw := by
  unfold topDraw
  have h1 : Real.exp (-19) ≤ 1e-7 := by
    have := Real.exp_one_gt_d9
    rw [Real.exp_neg, show (19 : ℝ) = (19 : ℕ) * 1 by norm_num, Real.exp_nat_mul,
      inv_le_comm₀ (by positivity) (by norm_num)]
    refine le_trans ?_ (pow_le_pow_left₀ (by norm_num) this.le 19)
    norm_num
  have h2 := Real.add_one_le_exp (-Real.exp (-19))
  linarith

theorem topDraw_lt : topDraw < 1 := by
  unfold topDraw
  rw [Real.exp_lt_one_iff]
  have := Real.exp_pos (-19)
  linarith

theorem lnln_gt {u : ℝ} (h0 : 0 < u) (h : u < lowDraw) : 2 < lnln u := by
  unfold lowDraw at h
  rw [← Real.log_lt_iff_lt_exp h0] at h
  unfold lnln
  rw [Real.lt_log_iff_exp_lt (by have := Real.exp_pos 2; linarith)]
  linarith

theorem lnln_lt {u : ℝ} (h : lowDraw < u) (h1 : u < 1) : lnln u < 2 := by
  have h0 := lowDraw_pos.trans h
  unfold lowDraw at h
  rw [← Real.lt_log_iff_exp_lt h0] at h
  unfold lnln
  rw [Real.log_lt_iff_lt_exp (neg_log_pos h0 h1)]
  linarith

theorem lnln_ge {u : ℝ} (h0 : 0 < u) (h : u ≤ topDraw) : -19 ≤ lnln u := by
  unfold topDraw at h
  rw [← Real.log_le_iff_le_exp h0] at h
  unfold lnln
  rw [Real.le_log_iff_exp_le (by have := Real.exp_pos (-19); linarith)]
  linarith

/-- Below the top of the table a draw gives the energy that Maxwell's distribution has at it, up to `1.6e-3`. -/
theorem classic_near (T u : ℝ) (h0 : 0 ≤ u) (h1 : u ≤ topDraw) (hl : u ≠ lowDraw) :
    ∃ x, 0 ≤ x ∧ sampleClassic T u = some (T * x) ∧ |mbI 0 x / (Real.sqrt Real.pi / 2) - u| ≤ 1.6e-3 := by
  obtain ⟨hp1, hp2⟩ := half_sqrt_pi
  have hC0 : 0 < Real.sqrt Real.pi / 2 := lt_of_lt_of_le (by norm_num) hp1
  rcases h0.eq_or_lt with h | h0
  · refine ⟨0, le_rfl, ?_, ?_⟩
    · rw [← h]; simp [sampleClassic]
    · rw [← h]; simp [mbI]; norm_num
  rcases lt_or_gt_of_ne hl with h | h
  · refine ⟨_, by positivity, sampleClassic_low h0 (lnln_gt h0 h), ?_⟩
    obtain ⟨x, hx⟩ : ∃ x, x = 3 * Real.sqrt Real.pi / 4 * u ^ ((2 : ℝ) / 3) := ⟨_, rfl⟩
    rw [← hx]
    have hx0 : 0 ≤ x := by rw [hx]; positivity
    have hb := mbI_le hx0
    have hn := mbI_nonneg 0 hx0
    have hu : u ≤ 6.3e-4 := h.le.trans lowDraw_le
    have hxu : x * Real.sqrt x ≤ 1.6 * u := by
      have hr : (u ^ ((2 : ℝ) / 3)) ^ 3 = u ^ 2 := by
        rw [← Real.rpow_natCast (u ^ ((2 : ℝ) / 3)) 3, ← Real.rpow_mul h0.le, ← Real.rpow_natCast u 2]
        norm_num
      have hs : (x * Real.sqrt x) ^ 2 ≤ (1.6 * u) ^ 2 := by
        have e : (x * Real.sqrt x) ^ 2 = x ^ 3 := by rw [mul_pow, Real.sq_sqrt hx0]; ring
        rw [e, hx, mul_pow, hr]
        have : (3 * Real.sqrt Real.pi / 4) ^ 3 ≤ 1.33 ^ 3 :=
          pow_le_pow_left₀ (by positivity) (by norm_num at hp2 ⊢; linarith) 3
        have hu2 := sq_nonneg u
        norm_num at this ⊢
        nlinarith
      exact le_of_sq_le_sq hs (by positivity)
    have hq : mbI 0 x / (Real.sqrt Real.pi / 2) ≤ 1.3e-3 := by
      rw [div_le_iff₀ hC0]
      norm_num at hxu hu hp1 ⊢
      linarith
    have hq0 : 0 ≤ mbI 0 x / (Real.sqrt Real.pi / 2) := div_nonneg hn hC0.le
    rw [abs_le]
    norm_num at hq hu ⊢
    constructor <;> linarith
  · have hu1 : u < 1 := h1.trans_lt topDraw_lt
    have k1 := lnln_ge h0 h1
    have k2 := lnln_lt h hu1
    refine ⟨_, (Real.exp_pos _).le, sampleClassic_mid h0 k1 k2, ?_⟩
    have hr := interpF_right (I := (lnln u + 19) * (999 / (2 + 19))) (by apply mul_nonneg <;> [linarith; norm_num])
      (by norm_num; linarith)
    have e : 21 * ((lnln u + 19) * (999 / (2 + 19))) / 999 - 19 = lnln u := by ring
    have e2 : Real.exp (-Real.exp (lnln u)) = u := by
      unfold lnln
      rw [Real.exp_log (neg_log_pos h0 hu1), neg_neg, Real.exp_log h0]
    rw [e, e2] at hr
    obtain ⟨g, hg⟩ : ∃ g, g = mbI 0 (Real.exp (interp lnInvF ((lnln u + 19) * (999 / (2 + 19))))) := ⟨_, rfl⟩
    rw [← hg] at hr ⊢
    have e3 : g / (Real.sqrt Real.pi / 2) - u = (g - Real.sqrt Real.pi / 2 * u) / (Real.sqrt Real.pi / 2) := by
      field_simp
    rw [e3, abs_div, abs_of_pos hC0, div_le_iff₀ hC0]
    refine hr.trans ?_
    norm_num at hp1 ⊢
    linarith

theorem sample_classic {T : ℝ} (h : T < 0.1) (u v e : ℝ) : Sample T [(u, v)] (some e) ↔ sampleClassic T u = some e := by
  unfold Sample
  rw [if_pos h]
  constructor
  · rintro ⟨U, V, x, hd, hs, he⟩
    simp only [List.cons.injEq, Prod.mk.injEq, and_true] at hd
    rw [hd.1, hs, he]
  · intro hs
    exact ⟨u, v, e, rfl, hs, rfl⟩

/-- **C92** (the law below a tenth). For every temperature below 0.1 and every energy `E`, the probability that the program
draws an energy above `E` differs from that of Maxwell's distribution at this temperature by at most 0.002. -/
theorem C92_classic_law (T : ℝ) (h1 : 0 < T) (h2 : T < 0.1) (μ : Measure ℝ) [IsProbabilityMeasure μ]
    (hμ : ∀ᵐ u ∂μ, UniformDraw u) (hμ' : NearUniform μ) (E : ℝ) (hE : 0 ≤ E) :
    |μ.real {u | ∃ e v, Sample T [(u, v)] (some e) ∧ E < e} - maxwellTail (E / T)| ≤ 0.002 := by
  obtain ⟨F, hF⟩ : ∃ F, F = mbI 0 (E / T) / (Real.sqrt Real.pi / 2) := ⟨_, rfl⟩
  have hET : 0 ≤ E / T := by positivity
  have hC : 0 < Real.sqrt Real.pi / 2 := by have := Real.pi_pos; positivity
  rw [maxwell_cdf hET, ← hF]
  have hF0 : 0 ≤ F := by rw [hF]; exact div_nonneg (mbI_nonneg 0 hET) hC.le
  obtain ⟨A, hA⟩ : ∃ A, A = {u | ∃ e v, Sample T [(u, v)] (some e) ∧ E < e} := ⟨_, rfl⟩
  rw [← hA]
  have mem : ∀ u, u ∈ A ↔ ∃ e, sampleClassic T u = some e ∧ E < e := by
    intro u
    rw [hA]
    constructor
    · rintro ⟨e, v, hs, he⟩; exact ⟨e, (sample_classic h2 u v e).1 hs, he⟩
    · rintro ⟨e, hs, he⟩; exact ⟨e, 0, (sample_classic h2 u 0 e).2 hs, he⟩
  have hbad : μ.real {u | ¬ UniformDraw u} = 0 := by
    rw [measureReal_def]
    have : μ {u | ¬ UniformDraw u} = 0 := hμ
    rw [this, ENNReal.toReal_zero]
  have htop : μ.real (Set.Ici topDraw) ≤ 1e-6 := by
    have h := hμ'.high topDraw (by have := topDraw_ge; norm_num at this ⊢; linarith) topDraw_lt.le
    have := topDraw_ge
    norm_num at h this ⊢
    linarith
  have hpt : μ.real {lowDraw} ≤ 1e-6 := by
    have hl := lowDraw_le
    have a := hμ'.low lowDraw lowDraw_pos.le (by norm_num at hl ⊢; linarith)
    have b := hμ'.high lowDraw lowDraw_pos.le (by norm_num at hl ⊢; linarith)
    have hu : μ.real (Set.Iic lowDraw) + μ.real (Set.Ioi lowDraw) = 1 := by
      have := probReal_add_probReal_compl (μ := μ) (measurableSet_Iic (a := lowDraw))
      rwa [Set.compl_Iic] at this
    have hd : μ.real (Set.Ici lowDraw) = μ.real {lowDraw} + μ.real (Set.Ioi lowDraw) := by
      rw [← Set.Ioi_insert, Set.insert_eq, measureReal_union (by simp) measurableSet_Ioi]
    norm_num at a b ⊢
    linarith
  rw [abs_le]
  constructor
  · -- the complement
    have hsub : Aᶜ ⊆ (Set.Iic (F + 1.6e-3) ∪ Set.Ici topDraw) ∪ ({lowDraw} ∪ {u | ¬ UniformDraw u}) := by
      intro u hu
      by_cases hd : UniformDraw u
      swap
      · exact Or.inr (Or.inr hd)
      by_cases hl : u = lowDraw
      · exact Or.inr (Or.inl hl)
      rcases le_total topDraw u with ht | ht
      · exact Or.inl (Or.inr ht)
      obtain ⟨x, hx0, hx, hn⟩ := classic_near T u hd.1 ht hl
      have hle : T * x ≤ E := by
        by_contra hc
        exact hu ((mem u).2 ⟨_, hx, not_le.1 hc⟩)
      have hxE : x ≤ E / T := by rw [le_div_iff₀ h1]; linarith
      have hm : mbI 0 x / (Real.sqrt Real.pi / 2) ≤ F := by
        rw [hF]; exact div_le_div_of_nonneg_right (mbI_mono 0 hx0 hxE) hC.le
      refine Or.inl (Or.inl ?_)
      have := (abs_le.1 hn).1
      change u ≤ F + 1.6e-3
      linarith
    have h3 : μ.real Aᶜ ≤ μ.real (Set.Iic (F + 1.6e-3)) + 2e-6 := by
      refine (measureReal_mono hsub).trans ?_
      refine (measureReal_union_le _ _).trans ?_
      have q1 := measureReal_union_le (μ := μ) (Set.Iic (F + 1.6e-3)) (Set.Ici topDraw)
      have q2 := measureReal_union_le (μ := μ) ({lowDraw} : Set ℝ) {u | ¬ UniformDraw u}
      have hsum : (1e-6 : ℝ) + 1e-6 = 2e-6 := by norm_num
      linarith
    have h4 : μ.real (Set.Iic (F + 1.6e-3)) ≤ F + 1.6e-3 + 1 / 2 ^ 52 := by
      rcases le_total (F + 1.6e-3) 1 with h | h
      · exact hμ'.low _ (by positivity) h
      · have := measureReal_le_one (μ := μ) (s := Set.Iic (F + 1.6e-3))
        have : (0 : ℝ) ≤ 1 / 2 ^ 52 := by positivity
        linarith
    have h5 : 1 ≤ μ.real A + μ.real Aᶜ := by
      have := measureReal_union_le (μ := μ) A Aᶜ
      rw [Set.union_compl_self, probReal_univ] at this
      exact this
    norm_num at h3 h4 ⊢
    linarith
  · have hsub : A ⊆ (Set.Ici (F - 1.6e-3) ∪ Set.Ici topDraw) ∪ ({lowDraw} ∪ {u | ¬ UniformDraw u}) := by
      intro u hu
      by_cases hd : UniformDraw u
      swap
      · exact Or.inr (Or.inr hd)
      by_cases hl : u = lowDraw
      · exact Or.inr (Or.inl hl)
      rcases le_total topDraw u with ht | ht
      · exact Or.inl (Or.inr ht)
      obtain ⟨x, hx0, hx, hn⟩ := classic_near T u hd.1 ht hl
      obtain ⟨e, he, hEe⟩ := (mem u).1 hu
      rw [hx] at he
      rw [← Option.some.inj he] at hEe
      have hxE : E / T ≤ x := by rw [div_le_iff₀ h1]; linarith
      have hm : F ≤ mbI 0 x / (Real.sqrt Real.pi / 2) := by
        rw [hF]; exact div_le_div_of_nonneg_right (mbI_mono 0 hET hxE) hC.le
      refine Or.inl (Or.inl ?_)
      have := (abs_le.1 hn).2
      change F - 1.6e-3 ≤ u
      linarith
    have h3 : μ.real A ≤ μ.real (Set.Ici (F - 1.6e-3)) + 2e-6 := by
      refine (measureReal_mono hsub).trans ?_
      refine (measureReal_union_le _ _).trans ?_
      have q1 := measureReal_union_le (μ := μ) (Set.Ici (F - 1.6e-3)) (Set.Ici topDraw)
      have q2 := measureReal_union_le (μ := μ) ({lowDraw} : Set ℝ) {u | ¬ UniformDraw u}
      have hsum : (1e-6 : ℝ) + 1e-6 = 2e-6 := by norm_num
      linarith
    have hF1 : F ≤ 1 := by
      have : 0 ≤ maxwellTail (E / T) := by
        unfold maxwellTail
        rw [maxwell_norm]
        exact div_nonneg (setIntegral_nonneg measurableSet_Ioi fun s _ => by positivity) hC.le
      rw [maxwell_cdf hET, ← hF] at this
      linarith
    have h4 : μ.real (Set.Ici (F - 1.6e-3)) ≤ 1 - (F - 1.6e-3) + 1 / 2 ^ 52 := by
      rcases le_total 0 (F - 1.6e-3) with h | h
      · exact hμ'.high _ h (by norm_num; linarith)
      · have := measureReal_le_one (μ := μ) (s := Set.Ici (F - 1.6e-3))
        have : (0 : ℝ) ≤ 1 / 2 ^ 52 := by positivity
        linarith
    norm_num at h3 h4 ⊢
    linarith

/-- Not vacuous: at a twentieth of an electronvolt. -/
example : |unifDouble.real {u | ∃ e v, Sample 0.05 [(u, v)] (some e) ∧ 0.15 < e} - maxwellTail 3| ≤ 0.002 := by
  have := C92_classic_law 0.05 (by norm_num) (by norm_num) unifDouble unifDouble_draw unifDouble_near 0.15 (by norm_num)
  norm_num at this ⊢
  exact this

end Verif
