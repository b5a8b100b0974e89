import Verif.MjFunc

/-!
# C92: the guess of the sampler has the exact distribution up to small errors
-/

namespace Verif

/-! ## The checked entries -/

theorem eLo_le {t : ℤ} (h : t.natAbs ≤ 128 * SC) : (eLo t : ℝ) ≤ SC * Real.exp ((t : ℝ) / SC) := by
  have hS := SC_pos
  unfold eLo
  split_ifs with h0
  · obtain ⟨n, rfl⟩ := Int.eq_ofNat_of_zero_le h0
    simpa using expLo_le n
  · obtain ⟨n, hn⟩ := Int.eq_ofNat_of_zero_le (show 0 ≤ -t by omega)
    obtain rfl : t = -n := by omega
    have hb := le_expHi n (by simpa using h)
    simp only [neg_neg, Int.toNat_natCast]
    refine (natdiv_le _ _).trans ?_
    have hp : (0 : ℝ) < expHi n := lt_of_lt_of_le (by positivity) hb
    rw [div_le_iff₀ hp]
    push_cast
    rw [neg_div, Real.exp_neg]
    have he := Real.exp_pos ((n : ℝ) / SC)
    calc (SC : ℝ) * SC = SC * (Real.exp (n / SC))⁻¹ * (SC * Real.exp (n / SC)) := by field_simp
      _ ≤ _ := by gcongr

theorem le_eHi {t : ℤ} (h : t.natAbs ≤ 128 * SC) (h' : expLo t.natAbs ≠ 0) :
    SC * Real.exp ((t : ℝ) / SC) ≤ (eHi t : ℝ) := by
  have hS := SC_pos
  unfold eHi
  split_ifs with h0
  · obtain ⟨n, rfl⟩ := Int.eq_ofNat_of_zero_le h0
    simpa using le_expHi n (by simpa using h)
  · obtain ⟨n, hn⟩ := Int.eq_ofNat_of_zero_le (show 0 ≤ -t by omega)
    obtain rfl : t = -n := by omega
    have hb := expLo_le n
    simp only [Int.natAbs_neg, Int.natAbs_natCast] at h'
    simp only [neg_neg, Int.toNat_natCast]
    have h2 := le_natdiv (SC * SC) (expLo n) (by omega)
    push_cast at h2 ⊢
    refine le_trans ?_ h2
    have hp : (0 : ℝ) < expLo n := by exact_mod_cast Nat.pos_of_ne_zero h'
    rw [le_div_iff₀ hp, neg_div, Real.exp_neg]
    have he := Real.exp_pos ((n : ℝ) / SC)
    calc SC * (Real.exp (n / SC))⁻¹ * expLo n ≤ SC * (Real.exp (n / SC))⁻¹ * (SC * Real.exp (n / SC)) := by gcongr
      _ = _ := by field_simp

/-- grid of the table: the logarithms at which the inverse is tabulated -/
noncomputable def mjNode (i : ℕ) : ℝ := 42 * i / 999 - 30

theorem L_mul {y : ℕ} : (2 * (SC * SC) + 2 * SC * y + y * y : ℝ)
    = 2 * (SC * SC) * (1 + y / SC + (y / SC : ℝ) ^ 2 / 2) := by
  have := SC_pos.ne'
  field_simp

theorem entry_right {i : ℕ} {t : ℤ} (h : entryOk i t = true) :
    |mjK ((t : ℝ) / 10 ^ 21) - mjNode i| ≤ 3e-5 := by
  have hS := SC_pos
  unfold entryOk at h
  simp only [Bool.and_eq_true, decide_eq_true_eq] at h
  obtain ⟨⟨⟨⟨⟨⟨⟨⟨c1, c2⟩, c3⟩, c4⟩, c5⟩, c6⟩, c7⟩, c8⟩, c9⟩ := h
  obtain ⟨u, hu⟩ : ∃ u : ℤ, u = 42 * i * SC / 999 - 30 * SC := ⟨_, rfl⟩
  obtain ⟨d, hd⟩ : ∃ d : ℤ, d = 3 * 10 ^ 25 := ⟨_, rfl⟩
  rw [← hu, ← hd] at c9 c8 c6 c5 c4 c2
  have hSv : (SC : ℝ) = 10 ^ 30 := by norm_num [SC]
  have hdv : (d : ℝ) / SC = 3e-5 := by rw [hd, hSv]; norm_num
  have u1 : (u : ℝ) / SC ≤ mjNode i := by
    have : u + 30 * SC ≤ 42 * i * SC / 999 := by omega
    rw [Int.le_ediv_iff_mul_le (by norm_num)] at this
    have : ((u : ℝ) + 30 * SC) * 999 ≤ 42 * i * SC := by exact_mod_cast this
    unfold mjNode
    rw [div_le_iff₀ hS]
    linarith
  have u2 : mjNode i ≤ ((u + 1 : ℤ) : ℝ) / SC := by
    have : 42 * i * SC / 999 < u + 1 + 30 * SC := by omega
    rw [Int.ediv_lt_iff_lt_mul (by norm_num)] at this
    have : (42 * i * SC : ℝ) < (u + 1 + 30 * SC) * 999 := by exact_mod_cast this
    unfold mjNode
    rw [le_div_iff₀ hS]
    push_cast
    linarith
  have ht : ((t * 10 ^ 9 : ℤ) : ℝ) / SC = (t : ℝ) / 10 ^ 21 := by
    rw [hSv]; push_cast; field_simp; ring
  have y1 := eLo_le c3
  have y2 := le_eHi c3 c1
  have g1 := le_eHi c4 c2
  have g2 := eLo_le c5
  rw [ht] at y1 y2
  have he := Real.exp_pos ((t : ℝ) / 10 ^ 21)
  have hG := mjG_pos he
  rw [abs_le]
  constructor
  · -- lower bound
    have a1 := le_expHi _ c6
    have a2 := expLo_le (eLo (t * 10 ^ 9))
    have c8' : (2 * (SC * SC) + 2 * SC * (eLo (t * 10 ^ 9) : ℕ) + (eLo (t * 10 ^ 9) : ℕ) * (eLo (t * 10 ^ 9) : ℕ) : ℝ)
        * expHi (eHi (u + 1 - d)) ≤ 2 * (SC * SC) * expLo (eLo (t * 10 ^ 9)) := by exact_mod_cast c8
    rw [L_mul] at c8'
    obtain ⟨y, hy⟩ : ∃ y : ℝ, y = (eLo (t * 10 ^ 9) : ℕ) / SC := ⟨_, rfl⟩
    obtain ⟨g, hg⟩ : ∃ g : ℝ, g = (eHi (u + 1 - d) : ℕ) / SC := ⟨_, rfl⟩
    rw [← hg] at a1
    rw [← hy] at a2 c8'
    have hy0 : 0 ≤ y := by rw [hy]; positivity
    have hL := mjL_pos hy0
    have k : (1 + y + y ^ 2 / 2) * Real.exp g ≤ Real.exp y := by
      have := calc (2 * (SC * SC) : ℝ) * SC * ((1 + y + y ^ 2 / 2) * Real.exp g)
          = 2 * (SC * SC) * (1 + y + y ^ 2 / 2) * (SC * Real.exp g) := by ring
        _ ≤ 2 * (SC * SC) * (1 + y + y ^ 2 / 2) * expHi (eHi (u + 1 - d)) := by gcongr
        _ ≤ _ := c8'
        _ ≤ 2 * (SC * SC) * (SC * Real.exp y) := by gcongr
        _ = 2 * (SC * SC) * SC * Real.exp y := by ring
      exact le_of_mul_le_mul_left this (by positivity)
    have k2 : g ≤ mjG y := by
      have := Real.log_le_log (by positivity) k
      rw [Real.log_mul hL.ne' (Real.exp_pos _).ne', Real.log_exp, Real.log_exp] at this
      unfold mjG
      linarith
    have k3 : mjG y ≤ mjG (Real.exp ((t : ℝ) / 10 ^ 21)) := by
      apply mjG_mono hy0
      rw [hy, div_le_iff₀ hS]
      linarith
    have k4 : Real.exp (mjNode i - 3e-5) ≤ g := by
      rw [hg, le_div_iff₀ hS]
      refine le_trans ?_ g1
      rw [mul_comm]
      gcongr
      push_cast at u2 ⊢
      rw [sub_div, hdv]
      linarith
    have := Real.log_le_log (Real.exp_pos _) (k4.trans (k2.trans k3))
    rw [Real.log_exp] at this
    unfold mjK
    linarith
  · have a1 := expLo_le (eLo (u + d))
    have a2 := le_expHi _ c7
    have c9' : (2 * (SC * SC) * expHi (eHi (t * 10 ^ 9)) : ℝ) ≤
        (2 * (SC * SC) + 2 * SC * (eHi (t * 10 ^ 9) : ℕ) + (eHi (t * 10 ^ 9) : ℕ) * (eHi (t * 10 ^ 9) : ℕ) : ℝ)
        * expLo (eLo (u + d)) := by exact_mod_cast c9
    rw [L_mul] at c9'
    obtain ⟨y, hy⟩ : ∃ y : ℝ, y = (eHi (t * 10 ^ 9) : ℕ) / SC := ⟨_, rfl⟩
    obtain ⟨g, hg⟩ : ∃ g : ℝ, g = (eLo (u + d) : ℕ) / SC := ⟨_, rfl⟩
    rw [← hg] at a1
    rw [← hy] at a2 c9'
    have hy0 : 0 ≤ y := by rw [hy]; positivity
    have hL := mjL_pos hy0
    have k : Real.exp y ≤ (1 + y + y ^ 2 / 2) * Real.exp g := by
      have := calc (2 * (SC * SC) : ℝ) * SC * Real.exp y = 2 * (SC * SC) * (SC * Real.exp y) := by ring
        _ ≤ 2 * (SC * SC) * expHi (eHi (t * 10 ^ 9)) := by gcongr
        _ ≤ _ := c9'
        _ ≤ 2 * (SC * SC) * (1 + y + y ^ 2 / 2) * (SC * Real.exp g) := by gcongr
        _ = (2 * (SC * SC) : ℝ) * SC * ((1 + y + y ^ 2 / 2) * Real.exp g) := by ring
      exact le_of_mul_le_mul_left this (by positivity)
    have k2 : mjG y ≤ g := by
      have := Real.log_le_log (by positivity) k
      rw [Real.log_mul hL.ne' (Real.exp_pos _).ne', Real.log_exp, Real.log_exp] at this
      unfold mjG
      linarith
    have k3 : mjG (Real.exp ((t : ℝ) / 10 ^ 21)) ≤ mjG y := by
      apply mjG_mono he.le
      rw [hy, le_div_iff₀ hS]
      linarith
    have k4 : g ≤ Real.exp (mjNode i + 3e-5) := by
      rw [hg, div_le_iff₀ hS]
      refine g2.trans ?_
      rw [mul_comm]
      gcongr
      push_cast
      rw [add_div, hdv]
      linarith
    have := Real.log_le_log hG (k3.trans (k2.trans k4))
    rw [Real.log_exp] at this
    unfold mjK
    linarith

theorem tableOk_get : ∀ (l : List ℤ) (i j : ℕ) (_ : tableOk i l = true) (hj : j < l.length), entryOk (i + j) l[j] = true := by
  intro l
  induction l with
  | nil => intro i j _ hj; simp at hj
  | cons t l ih =>
    intro i j h hj
    rw [tableOk, Bool.and_eq_true] at h
    cases j with
    | zero => exact h.1
    | succ j =>
      have := ih (i + 1) j h.2 (by simpa using hj)
      rw [show i + (j + 1) = i + 1 + j by ring]
      simpa using this

theorem table_right {i : ℕ} (h0 : 90 ≤ i) (h1 : i ≤ 807) :
    |mjK (((lnInvH.getD i 0 : ℤ) : ℝ) / 10 ^ 21) - mjNode i| ≤ 3e-5 := by
  have hl := lnInvH_length
  obtain ⟨j, rfl⟩ : ∃ j, i = 90 + j := ⟨i - 90, by omega⟩
  have h := tableOk_get _ 90 j table_checked (by simp; omega)
  have e : ((lnInvH.drop 90).take 718)[j]'(by simp; omega) = lnInvH.getD (90 + j) 0 := by
    rw [getD_lt (by omega)]
    simp
  rw [e] at h
  exact entry_right h

theorem lnInvH_step : List.IsChain (fun a b => b - a ≤ 42100000000000000000) lnInvH := by decide +kernel

/-- Between entries 90 and 807 the interpolated table inverts its function within `1.9e-4`. -/
theorem interp_right {I : ℝ} (h0 : 90 ≤ I) (h1 : I < 807) :
    |mjK (interp lnInvH I) - (42 * I / 999 - 30)| ≤ 1.9e-4 := by
  have hl := lnInvH_length
  have hI : 0 ≤ I := by linarith
  obtain ⟨i, hi⟩ : ∃ i, i = ⌊I⌋₊ := ⟨_, rfl⟩
  have a0 : 90 ≤ i := by rw [hi]; exact Nat.le_floor (by exact_mod_cast h0)
  have a1 : i < 807 := by rw [hi]; exact (Nat.floor_lt hI).2 (by exact_mod_cast h1)
  have b0 : (i : ℝ) ≤ I := by rw [hi]; exact Nat.floor_le hI
  have b1 : I < i + 1 := by rw [hi]; exact Nat.lt_floor_add_one I
  unfold interp
  rw [← hi]
  have r0 := abs_le.1 (table_right a0 (by omega))
  have r1 := abs_le.1 (table_right (i := i + 1) (by omega) (by omega))
  have hs : (lnInvH.getD (i + 1) 0 : ℤ) - lnInvH.getD i 0 ≤ 42100000000000000000 := by
    rw [getD_lt (by omega), getD_lt (by omega)]
    exact List.isChain_iff_getElem.1 lnInvH_step i (by omega)
  have hm := table_mono lnInvH_increasing (show i ≤ i + 1 by omega) (by omega)
  have hs' : ((lnInvH.getD (i + 1) 0 : ℤ) : ℝ) - (lnInvH.getD i 0 : ℤ) ≤ 42100000000000000000 := by exact_mod_cast hs
  obtain ⟨a, ha⟩ : ∃ a : ℝ, a = ((lnInvH.getD i 0 : ℤ) : ℝ) / 10 ^ 21 := ⟨_, rfl⟩
  obtain ⟨b, hb⟩ : ∃ b : ℝ, b = ((lnInvH.getD (i + 1) 0 : ℤ) : ℝ) / 10 ^ 21 := ⟨_, rfl⟩
  rw [← ha, ← hb]
  rw [← ha] at r0 hm
  rw [← hb] at r1 hm
  have d0 : 0 ≤ b - a := by linarith
  have d1 : b - a ≤ 0.0421 := by
    rw [ha, hb, ← sub_div, div_le_iff₀ (by norm_num)]
    refine hs'.trans (by norm_num)
  have hθ0 : 0 ≤ I - i := by linarith
  have hθ1 : I - i ≤ 1 := by linarith
  obtain ⟨c0, c1⟩ := mjK_chord (a := a) (b := b) hθ0 hθ1
  have hd2 : (b - a) ^ 2 ≤ 0.0421 ^ 2 := pow_le_pow_left₀ d0 d1 2
  unfold mjNode at r0 r1
  push_cast at r1
  obtain ⟨θ, hθ⟩ : ∃ θ, θ = I - i := ⟨_, rfl⟩
  have e : 42 * I / 999 - 30 = (1 - θ) * (42 * i / 999 - 30) + θ * (42 * (i + 1) / 999 - 30) := by rw [hθ]; ring
  rw [← hθ] at hθ0 hθ1 c0 c1 ⊢
  rw [e]
  have p0 := mul_le_mul_of_nonneg_left r0.1 (sub_nonneg.2 hθ1)
  have p1 := mul_le_mul_of_nonneg_left r0.2 (sub_nonneg.2 hθ1)
  have q0 := mul_le_mul_of_nonneg_left r1.1 hθ0
  have q1 := mul_le_mul_of_nonneg_left r1.2 hθ0
  rw [abs_le]
  norm_num at hd2 c1 p0 p1 q0 q1 ⊢
  constructor <;> linarith

end Verif
