import Verif.RoundedPushProps

/-!
# Histories of a macroparticle with rounded pushes (C108)
-/

namespace Verif

namespace RoundedPush

/-! ## The speed as a function of the momentum -/

theorem spd_nonneg {y : ℝ} (h : 0 ≤ y) : 0 ≤ spd y := div_nonneg h (Real.sqrt_nonneg _)

theorem spd_sq (y : ℝ) : spd y ^ 2 = y ^ 2 / (1 + y ^ 2) := by
  unfold spd
  rw [div_pow, Real.sq_sqrt (by positivity)]

theorem spd_le_one (y : ℝ) : spd y ≤ 1 := by
  unfold spd
  rw [div_le_one (by positivity)]
  apply Real.le_sqrt_of_sq_le
  linarith

theorem spd_mono {x y : ℝ} (hx : 0 ≤ x) (h : x ≤ y) : spd x ≤ spd y := by
  have hy := hx.trans h
  apply le_of_sq_le_sq _ (spd_nonneg hy)
  rw [spd_sq, spd_sq, div_le_div_iff₀ (by positivity) (by positivity)]
  nlinarith [mul_self_le_mul_self hx h]

theorem spd_scale {l y : ℝ} (hl : 1 ≤ l) (hy : 0 ≤ y) : spd (l * y) ≤ l * spd y := by
  unfold spd
  rw [mul_div_assoc']
  have : √(1 + y ^ 2) ≤ √(1 + (l * y) ^ 2) := by
    apply Real.sqrt_le_sqrt
    have : y ^ 2 ≤ (l * y) ^ 2 := by
      gcongr
      nlinarith
    linarith
  have h0 : 0 < √(1 + y ^ 2) := by positivity
  gcongr

theorem spd_scale' {l y : ℝ} (hl : l ≤ 1) (hl0 : 0 ≤ l) (hy : 0 ≤ y) : l * spd y ≤ spd (l * y) := by
  unfold spd
  rw [mul_div_assoc']
  have : √(1 + (l * y) ^ 2) ≤ √(1 + y ^ 2) := by
    apply Real.sqrt_le_sqrt
    have : (l * y) ^ 2 ≤ y ^ 2 := by
      gcongr
      nlinarith
    linarith
  have h0 : 0 < √(1 + (l * y) ^ 2) := by positivity
  gcongr

theorem spd_add {x a : ℝ} (hx : 0 ≤ x) (ha : 0 ≤ a) : spd (x + a) ≤ spd x + a := by
  have h0 : 0 < √(1 + x ^ 2) := by positivity
  have h1 : √(1 + x ^ 2) ≤ √(1 + (x + a) ^ 2) := by
    apply Real.sqrt_le_sqrt
    nlinarith
  have h2 : 1 ≤ √(1 + (x + a) ^ 2) := by
    apply Real.le_sqrt_of_sq_le
    nlinarith [sq_nonneg (x + a)]
  unfold spd
  rw [add_div]
  apply add_le_add
  · gcongr
  · exact div_le_self ha h2

/-- Momentum of a speed `β` below one -/
noncomputable def mom (β : ℝ) : ℝ := β / √(1 - β ^ 2)

theorem mom_nonneg {β : ℝ} (h : 0 ≤ β) : 0 ≤ mom β := div_nonneg h (Real.sqrt_nonneg _)

theorem mom_sq {β : ℝ} (h0 : 0 ≤ β) (h : β < 1) : mom β ^ 2 = β ^ 2 / (1 - β ^ 2) := by
  unfold mom
  rw [div_pow, Real.sq_sqrt (by nlinarith)]

theorem mom_mono {a b : ℝ} (ha : 0 ≤ a) (h : a ≤ b) (hb : b < 1) : mom a ≤ mom b := by
  apply le_of_sq_le_sq _ (mom_nonneg (ha.trans h))
  have h2 := mul_self_le_mul_self ha h
  rw [mom_sq ha (by linarith), mom_sq (by linarith) hb, div_le_div_iff₀ (by nlinarith) (by nlinarith)]
  nlinarith

theorem one_add_mom {β : ℝ} (h0 : 0 ≤ β) (h : β < 1) : 1 - β ^ 2 = 1 / (1 + mom β ^ 2) := by
  have : 0 < 1 - β ^ 2 := by nlinarith
  rw [mom_sq h0 h]
  field_simp
  ring

/-- A speed a little above that of momentum `y` -/
theorem mom_bound {y β : ℝ} (hy : 0 ≤ y) (hβ : 0 ≤ β) (h : β ≤ spd y * (1 + 100 * EPS)) (hs : 300 * EPS * (1 + y ^ 2) ≤ 1 / 2) :
    β < 1 ∧ mom β ≤ y * (1 + 300 * EPS * (1 + y ^ 2)) := by
  have ep := eps_pos'
  obtain ⟨ε, hε⟩ : ∃ ε, ε = EPS := ⟨_, rfl⟩
  have e1 : ε ≤ 1 / 1000000 := by rw [hε, eps_val]; norm_num
  rw [← hε] at ep h hs ⊢
  obtain ⟨Y, hY⟩ : ∃ Y, Y = y ^ 2 := ⟨_, rfl⟩
  have hY0 : 0 ≤ Y := by rw [hY]; positivity
  have hb : β ^ 2 ≤ Y / (1 + Y) * (1 + 201 * ε) := by
    calc β ^ 2 ≤ (spd y * (1 + 100 * ε)) ^ 2 := by gcongr
      _ = Y / (1 + Y) * (1 + 100 * ε) ^ 2 := by rw [mul_pow, spd_sq, hY]
      _ ≤ Y / (1 + Y) * (1 + 201 * ε) := by
        gcongr
        nlinarith
  have hb' : β ^ 2 * (1 + Y) ≤ Y * (1 + 201 * ε) := by
    have := mul_le_mul_of_nonneg_right hb (by linarith : 0 ≤ 1 + Y)
    rwa [mul_right_comm, div_mul_cancel₀ _ (by positivity)] at this
  rw [← hY] at hs ⊢
  have hk : 201 * ε * Y ≤ 1 / 2 := by nlinarith
  have h1 : β ^ 2 < 1 := by
    by_contra hcon
    push Not at hcon
    nlinarith
  have hβ1 : β < 1 := by nlinarith
  refine ⟨hβ1, ?_⟩
  apply le_of_sq_le_sq _ (by positivity)
  rw [mom_sq hβ hβ1, div_le_iff₀ (by linarith), mul_pow, ← hY]
  obtain ⟨a, ha⟩ : ∃ a, a = 300 * ε * (1 + Y) := ⟨_, rfl⟩
  rw [← ha]
  have ha0 : 0 ≤ a := by rw [ha]; positivity
  -- (1 - β²)(1+Y) ≥ 1 - κ
  obtain ⟨k, hk'⟩ : ∃ k, k = 201 * ε * Y := ⟨_, rfl⟩
  have hk0 : 0 ≤ k := by rw [hk']; positivity
  have m1 : 1 - k ≤ (1 - β ^ 2) * (1 + Y) := by rw [hk']; nlinarith
  have m2 : 1 + 201 * ε ≤ (1 - k) * (1 + a) ^ 2 := by
    have : 1 + 201 * ε ≤ 1 + a - k := by rw [ha, hk']; nlinarith
    have n1 : a * k ≤ a * (1 / 2) := by gcongr; linarith
    have n2 : 0 ≤ (1 - k) * a ^ 2 := mul_nonneg (by linarith) (sq_nonneg a)
    have n3 : (1 - k) * (1 + a) ^ 2 = 1 + 2 * a - k - 2 * (a * k) + (1 - k) * a ^ 2 := by ring
    linarith
  have m3 : β ^ 2 * (1 + Y) ≤ Y * (1 + a) ^ 2 * (1 - β ^ 2) * (1 + Y) := by
    calc β ^ 2 * (1 + Y) ≤ Y * (1 + 201 * ε) := hb'
      _ ≤ Y * ((1 - k) * (1 + a) ^ 2) := by gcongr
      _ = Y * (1 + a) ^ 2 * (1 - k) := by ring
      _ ≤ Y * (1 + a) ^ 2 * ((1 - β ^ 2) * (1 + Y)) := by gcongr
      _ = _ := by ring
  exact le_of_mul_le_mul_right m3 (by linarith)

/-! ## One push -/

theorem snap_len (v : V3) : (snap v).len ≤ v.len ∧ v.len - (snap v).len ≤ 1 / 10 ^ 14 := by
  have s1 : ∀ x : ℝ, (snap1 x) * (snap1 x) ≤ x * x ∧ |snap1 x - x| ≤ 1 / 10 ^ 15 := by
    intro x
    unfold snap1
    have hm : MNZL = 1 / 10 ^ 15 := by norm_num [MNZL]
    split_ifs with h
    · rw [hm] at h
      refine ⟨by nlinarith [mul_self_nonneg x], ?_⟩
      rw [zero_sub, abs_neg]
      exact h.le
    · simp
  constructor
  · unfold V3.len V3.sq snap
    apply Real.sqrt_le_sqrt
    dsimp only
    have := (s1 v.c0).1
    have := (s1 v.c1).1
    have := (s1 v.c2).1
    linarith
  · have := abs_le.1 (len_near (x := v) (y := snap v) (s1 v.c0).2 (s1 v.c1).2 (s1 v.c2).2)
    norm_num at this ⊢
    linarith [this.1]

/-- Momentum and new speed of a push, from the difference `d` that the factor is computed from -/
theorem push_len {e b v u v' : V3} (h : PushR e b v u v') {q : ℝ} (hq : q = 1 - ((snap v).len / LIGHT_SPEED) ^ 2)
    (hq1 : 1 / 2 ^ 40 ≤ q) : ∃ d, 0 < d ∧ |d - q| ≤ 5 * EPS ∧
    u.len ≤ ((snap v).len / √d + 2 * e.len) * (1 + 64 * EPS) + 16 * ETA ∧
    (e = V3.zero → (snap v).len / √d * (1 - 64 * EPS) - 16 * ETA ≤ u.len) := by
  obtain ⟨g, u1, u2, g', b', u3, hg, h1, h2, -, -, h3, h4, -⟩ := h
  obtain ⟨d, g1, ho, hd, hdq, hg1⟩ := gamma_value hq hq1 hg
  rw [Option.some.injEq] at ho
  subst ho
  refine ⟨d, hd, hdq, ?_⟩
  have l1 := scaled_len h1
  have l2 := add_len h2
  have l3 := rotate_len h3
  have l4 := add_len h4
  have t2 := len_add u1 e
  have t4 := len_add u3 e
  obtain ⟨W, hW⟩ : ∃ W, W = (snap v).len := ⟨_, rfl⟩
  have hW0 : 0 ≤ W := hW ▸ len_nonneg _
  rw [← hW] at l1 ⊢
  have r := Real.sqrt_pos.2 hd
  obtain ⟨D, hD⟩ : ∃ D, D = W / √d := ⟨_, rfl⟩
  have hD0 : 0 ≤ D := by rw [hD]; positivity
  have ep := eps_pos'
  have e1 : EPS ≤ 1 / 1000 := by rw [eps_val]; norm_num
  have hg2 := abs_le.1 hg1
  have hi : 0 < 1 / √d := by positivity
  have gp : 0 ≤ g := by nlinarith
  rw [abs_of_nonneg gp] at l1
  have k1 : g * W ≤ (1 + EPS) * D := by
    have : g * W ≤ ((1 + EPS) * (1 / √d)) * W := by gcongr; linarith
    rw [hD]
    calc g * W ≤ ((1 + EPS) * (1 / √d)) * W := this
      _ = _ := by ring
  have k2 : (1 - EPS) * D ≤ g * W := by
    have : ((1 - EPS) * (1 / √d)) * W ≤ g * W := by gcongr; linarith
    rw [hD]
    calc _ = ((1 - EPS) * (1 / √d)) * W := by ring
      _ ≤ _ := this
  rw [← hD]
  have n1 := len_nonneg u1
  have n2 := len_nonneg u2
  have n3 := len_nonneg u3
  have ne := len_nonneg e
  have et := eta_pos'
  obtain ⟨B, hB⟩ : ∃ B, B = g * W := ⟨_, rfl⟩
  rw [← hB] at l1 k1 k2
  have l1' := abs_le.1 l1
  have l2' := abs_le.1 l2
  have l3' := abs_le.1 l3
  have l4' := abs_le.1 l4
  clear l1 l2 l3 l4 hg1 hg2 h1 h2 h3 h4 hg hdq hq hq1 ep e1
  rw [eps_val] at *
  norm_num at *
  constructor
  · linarith
  · intro hz
    have z0 : e.len = 0 := by rw [hz]; simp [V3.len, V3.sq, V3.zero]
    have z1 : (u1.add e).len = u1.len := by rw [hz, add_zero']
    have z2 : (u3.add e).len = u3.len := by rw [hz, add_zero']
    rw [z1, z0] at l2'
    rw [z2, z0] at l4'
    linarith

/-- Lorentz factors from computed differences -/
theorem mom_diff {β d : ℝ} (hβ : 0 ≤ β) (hβ1 : β < 1) (hq1 : 1 / 2 ^ 40 ≤ 1 - β ^ 2) (hd : |d - (1 - β ^ 2)| ≤ 5 * EPS) :
    0 < d ∧ β / √d ≤ mom β * (1 + 5 * EPS * (1 + mom β ^ 2)) := by
  have hq0 : 0 < 1 - β ^ 2 := by nlinarith
  have hm := one_add_mom hβ hβ1
  have hm' : 1 + mom β ^ 2 = 1 / (1 - β ^ 2) := by rw [hm]; simp
  obtain ⟨q, hq⟩ : ∃ q, q = 1 - β ^ 2 := ⟨_, rfl⟩
  rw [← hq] at hq1 hd hq0 hm'
  have hδ : |d - q| ≤ (5 * EPS * (1 / q)) * q := by
    rw [mul_assoc, one_div, inv_mul_cancel₀ hq0.ne', mul_one]
    exact hd
  have ep := eps_pos'
  have hδ1 : 5 * EPS * (1 / q) ≤ 1 / 4 := by
    rw [mul_one_div, div_le_iff₀ hq0, eps_val]
    norm_num at hq1 ⊢
    linarith
  obtain ⟨h0, h1⟩ := inv_sqrt_near hq0 (by positivity) hδ1 hδ
  refine ⟨h0, ?_⟩
  rw [hm']
  unfold mom
  rw [← hq]
  have h2 : 1 / √d ≤ 1 / √q + 5 * EPS * (1 / q) * (1 / √q) := by linarith [(abs_le.1 h1).2]
  calc β / √d = β * (1 / √d) := by ring
    _ ≤ β * (1 / √q + 5 * EPS * (1 / q) * (1 / √q)) := by gcongr
    _ = _ := by ring

/-- A number `d` near `1 - β²`: the speed of the momentum `β/√d` is near `β`. -/
theorem spd_diff {β d : ℝ} (hβ : 0 ≤ β) (hd0 : 0 < d) (hd : |d - (1 - β ^ 2)| ≤ 5 * EPS) :
    |spd (β / √d) - β| ≤ 5 * EPS * β := by
  have e : spd (β / √d) = β * (1 / √(1 + (d - (1 - β ^ 2)))) := by
    unfold spd
    rw [div_pow, Real.sq_sqrt hd0.le]
    have : 1 + (d - (1 - β ^ 2)) = d * (1 + β ^ 2 / d) := by field_simp; ring
    rw [this, Real.sqrt_mul hd0.le]
    field_simp
  have ep := eps_pos'
  have h := (inv_sqrt_near (P := 1 + (d - (1 - β ^ 2))) (P0 := 1) (δ := 5 * EPS) one_pos (by positivity)
    (by rw [eps_val]; norm_num) (by rw [add_sub_cancel_left, mul_one]; exact hd)).2
  rw [Real.sqrt_one, div_one, mul_one] at h
  rw [e, show β * (1 / √(1 + (d - (1 - β ^ 2)))) - β = β * (1 / √(1 + (d - (1 - β ^ 2))) - 1) by ring, abs_mul, abs_of_nonneg hβ,
    mul_comm (5 * EPS)]
  gcongr

/-- Without electric field a push changes the speed by rounding only. -/
theorem push_speed {b v u v' : V3} (h : PushR V3.zero b v u v') (hv : 1 / 2 ^ 40 ≤ 1 - (v.len / LIGHT_SPEED) ^ 2) :
    |v'.len - v.len| ≤ 90 * EPS * LIGHT_SPEED := by
  have hc := c_pos
  have hs := snap_len v
  have hW0 := len_nonneg (snap v)
  have hV0 := len_nonneg v
  obtain ⟨β, hβ⟩ : ∃ β, β = (snap v).len / LIGHT_SPEED := ⟨_, rfl⟩
  have hβ0 : 0 ≤ β := by rw [hβ]; positivity
  have hβv : β ^ 2 ≤ (v.len / LIGHT_SPEED) ^ 2 := by
    rw [hβ]
    gcongr
    exact hs.1
  have hq1 : 1 / 2 ^ 40 ≤ 1 - β ^ 2 := by linarith
  have hβ1 : β ≤ 1 := by
    norm_num at hq1
    nlinarith
  obtain ⟨d, hd, hdq, hu, hl⟩ := push_len h rfl (by rw [← hβ]; exact hq1)
  rw [← hβ] at hdq
  have hl := hl rfl
  obtain ⟨g, u1, u2, g', b', u3, hg, h1, h2, -, -, h3, h4, h5⟩ := h
  have hvl := velocity_len h5
  have hz : V3.zero.len = 0 := by simp [V3.len, V3.sq, V3.zero]
  rw [hz] at hu
  have hsd := spd_diff hβ0 hd hdq
  obtain ⟨c, hce⟩ : ∃ c, c = LIGHT_SPEED := ⟨_, rfl⟩
  have hc8 : c = 3 * 10 ^ 8 := by rw [hce, c_val]
  rw [← hce] at hc hvl hβ ⊢
  obtain ⟨D, hD⟩ : ∃ D, D = β / √d := ⟨_, rfl⟩
  have hDW : (snap v).len / √d = c * D := by rw [hD, hβ]; field_simp
  have hD0 : 0 ≤ D := by rw [hD]; positivity
  have hWc : (snap v).len = c * β := by rw [hβ]; field_simp
  rw [hDW] at hu hl
  rw [← hD] at hsd
  have ep := eps_pos'
  have et := eta_pos'
  obtain ⟨y, hy⟩ : ∃ y, y = u.len / c := ⟨_, rfl⟩
  have hy0 : 0 ≤ y := by rw [hy]; exact div_nonneg (len_nonneg _) hc.le
  have huy : u.len = c * y := by rw [hy]; field_simp
  rw [← hy] at hvl
  have hy1 : y ≤ (1 + 64 * EPS) * D + 16 * ETA := by
    have : c * y ≤ c * ((1 + 64 * EPS) * D + 16 * ETA) := by
      rw [← huy]
      have : 16 * ETA ≤ c * (16 * ETA) := by
        rw [hc8]
        linarith
      linarith
    exact le_of_mul_le_mul_left this hc
  have hy2 : (1 - 64 * EPS) * D ≤ y + 16 * ETA := by
    have : c * ((1 - 64 * EPS) * D) ≤ c * (y + 16 * ETA) := by
      rw [mul_add, ← huy]
      have : 16 * ETA ≤ c * (16 * ETA) := by
        rw [hc8]
        linarith
      linarith
    exact le_of_mul_le_mul_left this hc
  have e1 : EPS ≤ 1 / 1000 := by rw [eps_val]; norm_num
  have f1 : spd y ≤ (1 + 64 * EPS) * spd D + 16 * ETA := by
    have a1 := spd_mono hy0 hy1
    have a2 := spd_add (x := (1 + 64 * EPS) * D) (a := 16 * ETA) (by positivity) (by linarith only [et])
    have a3 := spd_scale (l := 1 + 64 * EPS) (by linarith) hD0
    linarith
  have f2 : (1 - 64 * EPS) * spd D ≤ spd y + 16 * ETA := by
    have hp : 0 ≤ 1 - 64 * EPS := by linarith
    have a1 := spd_mono (mul_nonneg hp hD0) hy2
    have a2 := spd_add (x := y) (a := 16 * ETA) hy0 (by linarith only [et])
    have a3 := spd_scale' (l := 1 - 64 * EPS) (by linarith) hp hD0
    linarith
  have et1 := eta_le
  have h6 := abs_le.1 hvl
  have h7 := abs_le.1 hsd
  have s0 := spd_nonneg hy0
  have s1 := spd_nonneg hD0
  have hvl' : |v'.len / c - spd y| ≤ 8 * EPS * spd y + 2 * ETA := by
    have : v'.len / c - spd y = (v'.len - c * spd y) / c := by field_simp
    rw [this, abs_div, abs_of_pos hc, div_le_iff₀ hc]
    refine hvl.trans ?_
    have : 2 * ETA ≤ 2 * ETA * c := by rw [hc8]; linarith
    linarith
  have h8 := abs_le.1 hvl'
  have hfin : |v'.len / c - β| ≤ 80 * EPS := by
    rw [abs_le]
    rw [eps_val] at *
    norm_num at *
    constructor <;> linarith
  have h9 : |v'.len - c * β| ≤ 80 * EPS * c := by
    have : v'.len - c * β = (v'.len / c - β) * c := by field_simp
    rw [this, abs_mul, abs_of_pos hc]
    gcongr
  have h10 := abs_le.1 h9
  rw [← hWc] at h10
  have h11 : (1 : ℝ) / 10 ^ 14 ≤ 10 * EPS * c := by rw [eps_val, hc8]; norm_num
  rw [abs_le]
  constructor <;> linarith [hs.1, hs.2]

end RoundedPush

end Verif
