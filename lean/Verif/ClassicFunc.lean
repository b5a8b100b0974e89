import Verif.ClassicTable
import Verif.MjGuess
import Mathlib.Analysis.Convex.Deriv
import Mathlib.Analysis.SpecialFunctions.ExpDeriv
import Mathlib.Analysis.SpecialFunctions.Sqrt
import Mathlib.MeasureTheory.Integral.IntervalIntegral.FundThmCalculus
import Mathlib.Analysis.SpecialFunctions.Integrals.Basic

/-!
# The function that the table `lnInvF` inverts: Maxwell's distribution of energies
-/

namespace Verif

open MeasureTheory intervalIntegral

/-! ## Incomplete integrals and their series -/

/-- `∫ s^k √s exp(-s)` from zero to `y` -/
noncomputable def mbI (k : ℕ) (y : ℝ) : ℝ := ∫ s in (0 : ℝ)..y, s ^ k * (Real.sqrt s * Real.exp (-s))

theorem mb_continuous (k : ℕ) : Continuous fun s : ℝ => s ^ k * (Real.sqrt s * Real.exp (-s)) := by fun_prop

theorem mbI_nonneg (k : ℕ) {y : ℝ} (h : 0 ≤ y) : 0 ≤ mbI k y :=
  integral_nonneg h fun s hs => by have := hs.1; positivity

theorem mbI_hasDeriv (k : ℕ) (y : ℝ) : HasDerivAt (mbI k) (y ^ k * (Real.sqrt y * Real.exp (-y))) y :=
  integral_hasDerivAt_right ((mb_continuous k).intervalIntegrable _ _)
    ((mb_continuous k).stronglyMeasurableAtFilter _ _) (mb_continuous k).continuousAt

theorem mbI_mono (k : ℕ) {x y : ℝ} (h0 : 0 ≤ x) (h : x ≤ y) : mbI k x ≤ mbI k y := by
  have e : mbI k y = mbI k x + ∫ s in x..y, s ^ k * (Real.sqrt s * Real.exp (-s)) :=
    (integral_add_adjacent_intervals ((mb_continuous k).intervalIntegrable _ _)
      ((mb_continuous k).intervalIntegrable _ _)).symm
  have : 0 ≤ ∫ s in x..y, s ^ k * (Real.sqrt s * Real.exp (-s)) :=
    integral_nonneg h fun s hs => by have := hs.1; have : 0 ≤ s := h0.trans this; positivity
  linarith

/-- by parts -/
theorem mbI_parts (k : ℕ) {y : ℝ} (hy : 0 ≤ y) :
    (k + 3 / 2 : ℝ) * mbI k y = y ^ (k + 1) * Real.sqrt y * Real.exp (-y) + mbI (k + 1) y := by
  have h := integral_eq_sub_of_hasDerivAt_of_le (a := 0) (b := y) hy
    (f := fun s : ℝ => s ^ (k + 1) * Real.sqrt s * Real.exp (-s))
    (f' := fun s : ℝ => (k + 3 / 2 : ℝ) * (s ^ k * (Real.sqrt s * Real.exp (-s))) - s ^ (k + 1) * (Real.sqrt s * Real.exp (-s)))
    (by fun_prop) (by
      intro s hs
      have hs0 : 0 < s := hs.1
      have h1 := ((hasDerivAt_pow (k + 1) s).mul (Real.hasDerivAt_sqrt hs0.ne')).mul ((hasDerivAt_id s).neg.exp)
      refine h1.congr_deriv ?_
      have hq := Real.sqrt_pos.2 hs0
      have hqq := Real.mul_self_sqrt hs0.le
      have e : s ^ (k + 1) * (1 / (2 * Real.sqrt s)) = s ^ k * Real.sqrt s / 2 := by
        rw [pow_succ]
        field_simp
        linarith
      have e0 : (-id : ℝ → ℝ) s = -s := rfl
      simp only [Pi.mul_apply, Nat.add_sub_cancel, e0]
      rw [e]
      push_cast
      ring)
    (((mb_continuous k).const_mul _).sub (mb_continuous (k + 1)) |>.intervalIntegrable _ _)
  rw [intervalIntegral.integral_sub (((mb_continuous k).const_mul _).intervalIntegrable _ _)
    ((mb_continuous (k + 1)).intervalIntegrable _ _), intervalIntegral.integral_const_mul] at h
  simp only [Real.sqrt_zero, mul_zero, zero_mul, sub_zero] at h
  unfold mbI
  linarith

theorem mbI_succ_le (k : ℕ) {y : ℝ} (hy : 0 ≤ y) : mbI (k + 1) y ≤ y * mbI k y := by
  unfold mbI
  rw [← intervalIntegral.integral_const_mul]
  apply integral_mono_on hy ((mb_continuous _).intervalIntegrable _ _) (((mb_continuous k).const_mul y).intervalIntegrable _ _)
  intro s hs
  have h0 := hs.1
  have h1 := hs.2
  rw [pow_succ]
  have : 0 ≤ s ^ k * (Real.sqrt s * Real.exp (-s)) := by positivity
  nlinarith

/-- a term of the series -/
noncomputable def mbTerm (y : ℝ) : ℕ → ℝ
  | 0 => 2 / 3
  | k + 1 => mbTerm y k * y / (k + 5 / 2)

theorem mbTerm_nonneg {y : ℝ} (hy : 0 ≤ y) (k : ℕ) : 0 ≤ mbTerm y k := by
  induction k with
  | zero => norm_num [mbTerm]
  | succ k ih => rw [mbTerm]; positivity

theorem mbTerm_mono {x y : ℝ} (hx : 0 ≤ x) (h : x ≤ y) (k : ℕ) : mbTerm x k ≤ mbTerm y k := by
  induction k with
  | zero => simp [mbTerm]
  | succ k ih =>
    rw [mbTerm, mbTerm]
    have := mbTerm_nonneg hx k
    have := mbTerm_nonneg (hx.trans h) k
    gcongr

/-- the part of the integral that the first terms leave -/
theorem mbI_series (n : ℕ) {y : ℝ} (hy : 0 ≤ y) : ∃ R, 0 ≤ R ∧
    (2 * y ≤ n → R ≤ y * Real.sqrt y * Real.exp (-y) * (2 * mbTerm y n)) ∧
    mbI 0 y = y * Real.sqrt y * Real.exp (-y) * ∑ k ∈ Finset.range n, mbTerm y k + R := by
  have key : ∀ n : ℕ, ∃ c, 0 ≤ c ∧ c * y ^ n = mbTerm y n * (n + 3 / 2) ∧
      mbI 0 y = y * Real.sqrt y * Real.exp (-y) * ∑ k ∈ Finset.range n, mbTerm y k + c * mbI n y := by
    intro n
    induction n with
    | zero => exact ⟨1, by norm_num, by norm_num [mbTerm], by simp⟩
    | succ n ih =>
      obtain ⟨c, h0, h1, h2⟩ := ih
      have hn : (0 : ℝ) < n + 3 / 2 := by positivity
      refine ⟨c / (n + 3 / 2), by positivity, ?_, ?_⟩
      · have e : c / (n + 3 / 2) * y ^ (n + 1) = c * y ^ n * y / (n + 3 / 2) := by rw [pow_succ]; ring
        rw [e, h1, mbTerm]
        push_cast
        field_simp
        ring
      · rw [h2, Finset.sum_range_succ]
        have hp := mbI_parts n hy
        have e2 : c * mbI n y = c / (n + 3 / 2) * ((n + 3 / 2) * mbI n y) := by field_simp
        rw [e2, hp]
        have e3 : c / (n + 3 / 2) * (y ^ (n + 1) * Real.sqrt y * Real.exp (-y)) = y * Real.sqrt y * Real.exp (-y) * mbTerm y n := by
          have : c / (n + 3 / 2) * (y ^ (n + 1) * Real.sqrt y * Real.exp (-y))
              = c * y ^ n / (n + 3 / 2) * (y * Real.sqrt y * Real.exp (-y)) := by rw [pow_succ]; ring
          rw [this, h1]
          field_simp
        rw [mul_add, e3]
        ring
  obtain ⟨c, h0, h1, h2⟩ := key n
  refine ⟨c * mbI n y, mul_nonneg h0 (mbI_nonneg n hy), ?_, h2⟩
  intro hn
  have hp := mbI_parts n hy
  have hs := mbI_succ_le n hy
  have hI := mbI_nonneg n hy
  have hnn : (0 : ℝ) ≤ n := Nat.cast_nonneg n
  have hq : mbI n y * (n + 3 / 2) ≤ 2 * (y ^ (n + 1) * Real.sqrt y * Real.exp (-y)) := by nlinarith
  have hn' : (0 : ℝ) < n + 3 / 2 := by positivity
  have : c * mbI n y * (n + 3 / 2) ≤ y * Real.sqrt y * Real.exp (-y) * (2 * mbTerm y n) * (n + 3 / 2) := by
    calc c * mbI n y * (n + 3 / 2) = c * (mbI n y * (n + 3 / 2)) := by ring
      _ ≤ c * (2 * (y ^ (n + 1) * Real.sqrt y * Real.exp (-y))) := by gcongr
      _ = 2 * (c * y ^ n) * (y * Real.sqrt y * Real.exp (-y)) := by rw [pow_succ]; ring
      _ = _ := by rw [h1]; ring
  exact le_of_mul_le_mul_right this hn'

/-! ## The series in whole numbers -/

theorem mbLo_le (y : ℕ) (n k term acc : ℕ) (h : (term : ℝ) ≤ SC * mbTerm (y / SC) k) :
    (mbLo y n k term acc : ℝ) ≤ acc + SC * ∑ j ∈ Finset.Ico k (k + n), mbTerm (y / SC) j := by
  induction n generalizing k term acc with
  | zero => simp [mbLo]
  | succ n ih =>
    have hS := SC_pos
    have h' : ((2 * term * y / (SC * (2 * k + 5)) : ℕ) : ℝ) ≤ SC * mbTerm (y / SC) (k + 1) := by
      refine (natdiv_le _ _).trans ?_
      push_cast
      have e : (SC : ℝ) * mbTerm (y / SC) (k + 1) = 2 * (SC * mbTerm (y / SC) k) * y / (SC * (2 * k + 5)) := by
        rw [mbTerm]
        field_simp
      rw [e]
      gcongr
    have := ih (k + 1) _ (acc + term) h'
    rw [mbLo]
    refine this.trans ?_
    rw [Finset.sum_eq_sum_Ico_succ_bot (show k < k + (n + 1) by omega), show k + 1 + n = k + (n + 1) by ring]
    push_cast
    linarith

theorem le_mbHi (y : ℕ) (n k term acc : ℕ) (h : SC * mbTerm (y / SC) k ≤ (term : ℝ)) :
    (acc : ℝ) + SC * ((∑ j ∈ Finset.Ico k (k + n), mbTerm (y / SC) j) + 2 * mbTerm (y / SC) (k + n))
      ≤ mbHi y n k term acc := by
  induction n generalizing k term acc with
  | zero =>
    simp only [mbHi, add_zero, Finset.Ico_self, Finset.sum_empty, zero_add]
    push_cast
    linarith
  | succ n ih =>
    have hS := SC_pos
    have h' : SC * mbTerm (y / SC) (k + 1) ≤ ((2 * term * y / (SC * (2 * k + 5)) + 1 : ℕ) : ℝ) := by
      have h2 := le_natdiv (2 * term * y) (SC * (2 * k + 5)) (by norm_num [SC])
      push_cast at h2 ⊢
      refine le_trans ?_ h2
      have e : (SC : ℝ) * mbTerm (y / SC) (k + 1) = 2 * (SC * mbTerm (y / SC) k) * y / (SC * (2 * k + 5)) := by
        rw [mbTerm]
        field_simp
      rw [e]
      gcongr
    have := ih (k + 1) _ (acc + term) h'
    rw [mbHi]
    refine le_trans ?_ this
    rw [Finset.sum_eq_sum_Ico_succ_bot (show k < k + (n + 1) by omega), show k + 1 + n = k + (n + 1) by ring]
    push_cast
    linarith

/-! ## The checked entries -/

/-- grid of the table: `log(-log U)` at which the inverse is tabulated -/
noncomputable def mbNode (i : ℕ) : ℝ := 21 * i / 999 - 19

theorem half_sqrt_pi : 886226925 / 10 ^ 9 ≤ Real.sqrt Real.pi / 2 ∧ Real.sqrt Real.pi / 2 ≤ 886226926 / 10 ^ 9 := by
  have h1 := Real.pi_gt_d20
  have h2 := Real.pi_lt_d20
  constructor
  · have : 2 * (886226925 / 10 ^ 9) ≤ Real.sqrt Real.pi := by
      apply Real.le_sqrt_of_sq_le
      norm_num at h1 ⊢
      linarith
    linarith
  · have : Real.sqrt Real.pi ≤ 2 * (886226926 / 10 ^ 9) := by
      rw [Real.sqrt_le_left (by norm_num)]
      norm_num at h2 ⊢
      linarith
    linarith

theorem pow_three_half (t : ℝ) : Real.exp t * Real.sqrt (Real.exp t) = Real.exp (t * (3 / 2)) := by
  rw [Real.sqrt_eq_rpow, ← Real.exp_mul, ← Real.exp_add]
  congr 1
  ring

theorem entry_core {K p q lo hi ea eb ev ew X S S' EY EW I c : ℝ} (hK : 0 < K) (hX : 0 < X) (hS : 0 ≤ S) (hS' : 0 < S')
    (hEY : 0 < EY) (hEW : 0 < EW) (p0 : 0 ≤ p) (lo0 : 0 ≤ lo) (s1 : p ≤ K * X) (s2 : K * X ≤ q) (m1 : lo ≤ K * S)
    (m2 : K * S' ≤ hi) (e1 : K * EY ≤ eb) (ea0 : 0 ≤ ea) (e2 : ea ≤ K * EY) (e3 : ev ≤ K * EW) (e4 : K * EW ≤ ew)
    (d11 : 886226926 * K * K * eb ≤ (p * lo * 10 ^ 9 + 886 * K * eb) * ev)
    (d12 : q * hi * 10 ^ 9 * ew ≤ (886226925 * K * K + 886 * K * ew) * ea)
    (hc1 : 886226925 / 10 ^ 9 ≤ c) (hc2 : c ≤ 886226926 / 10 ^ 9)
    (hlo : X * EY⁻¹ * S ≤ I) (hhi : I ≤ X * EY⁻¹ * S') : |I - c * EW⁻¹| ≤ 1e-6 := by
  have heb : 0 < eb := lt_of_lt_of_le (by positivity) e1
  have hew : 0 < ew := lt_of_lt_of_le (by positivity) e4
  have hI : 0 ≤ I := le_trans (by positivity) hlo
  rw [abs_le]
  constructor
  · have k1 : p * lo ≤ K * X * (K * S) := mul_le_mul s1 m1 lo0 (by positivity)
    have k2 : p * lo ≤ K * I * eb := by
      have h1 : X * S ≤ I * EY := by
        have := mul_le_mul_of_nonneg_right hlo hEY.le
        have e : X * EY⁻¹ * S * EY = X * S := by field_simp
        linarith
      calc p * lo ≤ K * X * (K * S) := k1
        _ = K * K * (X * S) := by ring
        _ ≤ K * K * (I * EY) := by gcongr
        _ = K * I * (K * EY) := by ring
        _ ≤ K * I * eb := by gcongr
    have k3 : 886226926 * K * K * eb ≤ (K * I * eb * 10 ^ 9 + 886 * K * eb) * (K * EW) := by
      refine d11.trans ?_
      calc (p * lo * 10 ^ 9 + 886 * K * eb) * ev ≤ (p * lo * 10 ^ 9 + 886 * K * eb) * (K * EW) := by gcongr
        _ ≤ _ := by gcongr
    have k4 : 886226926 ≤ (I * 10 ^ 9 + 886) * EW := by
      have e : (K * I * eb * 10 ^ 9 + 886 * K * eb) * (K * EW) = K * K * eb * ((I * 10 ^ 9 + 886) * EW) := by ring
      have e' : 886226926 * K * K * eb = K * K * eb * 886226926 := by ring
      rw [e, e'] at k3
      exact le_of_mul_le_mul_left k3 (by positivity)
    have k5 : c * EW⁻¹ ≤ I + 886 / 10 ^ 9 := by
      rw [← div_eq_mul_inv, div_le_iff₀ hEW]
      norm_num at k4 hc2 ⊢
      linarith
    norm_num at k5 ⊢
    linarith
  · have hea : 0 < ea := by
      rcases ea0.eq_or_lt with h | h
      · rw [← h, mul_zero] at d12
        have : 0 < q := lt_of_lt_of_le (by positivity) s2
        have : 0 < hi := lt_of_lt_of_le (by positivity) m2
        have : 0 < q * hi * 10 ^ 9 * ew := by positivity
        linarith
      · exact h
    have k2 : K * I * ea ≤ q * hi := by
      have h1 : I * EY ≤ X * S' := by
        have := mul_le_mul_of_nonneg_right hhi hEY.le
        have e : X * EY⁻¹ * S' * EY = X * S' := by field_simp
        linarith
      calc K * I * ea ≤ K * I * (K * EY) := by gcongr
        _ = K * K * (I * EY) := by ring
        _ ≤ K * K * (X * S') := by gcongr
        _ = K * X * (K * S') := by ring
        _ ≤ q * hi := mul_le_mul s2 m2 (by positivity) (le_trans (by positivity) s2)
    have k3 : K * ea * (I * 10 ^ 9 * ew) ≤ K * ea * (886226925 * K + 886 * ew) := by
      calc K * ea * (I * 10 ^ 9 * ew) = K * I * ea * 10 ^ 9 * ew := by ring
        _ ≤ q * hi * 10 ^ 9 * ew := by gcongr
        _ ≤ _ := d12
        _ = _ := by ring
    have k4 := le_of_mul_le_mul_left k3 (by positivity)
    have k5 : K * EW⁻¹ ≤ ew * EW⁻¹ * EW⁻¹ := by
      calc K * EW⁻¹ = K * EW * EW⁻¹ * EW⁻¹ := by field_simp
        _ ≤ _ := by gcongr
    have k6 : I * 10 ^ 9 ≤ 886226925 * EW⁻¹ + 886 := by
      have h1 : K ≤ ew * EW⁻¹ := by
        rw [← div_eq_mul_inv, le_div_iff₀ hEW]; linarith
      have h2 : ew * (I * 10 ^ 9) ≤ ew * (886226925 * EW⁻¹ + 886) := by linarith
      exact le_of_mul_le_mul_left h2 hew
    have k7 : 886226925 / 10 ^ 9 * EW⁻¹ ≤ c * EW⁻¹ := by gcongr
    norm_num at k6 k7 ⊢
    linarith

theorem entryF_right {i : ℕ} {t : ℤ} (h : entryOkF i t = true) :
    |mbI 0 (Real.exp ((t : ℝ) / 10 ^ 21)) - Real.sqrt Real.pi / 2 * Real.exp (-Real.exp (mbNode i))| ≤ 1e-6 := by
  have hS := SC_pos
  unfold entryOkF at h
  simp only [Bool.and_eq_true, decide_eq_true_eq] at h
  obtain ⟨⟨⟨⟨⟨⟨⟨⟨⟨⟨⟨c1, c2⟩, c3⟩, c4⟩, c5⟩, c6⟩, c7⟩, c8⟩, c9⟩, c10⟩, c11⟩, c12⟩ := h
  obtain ⟨u, hu⟩ : ∃ u : ℤ, u = 21 * i * SC / 999 - 19 * SC := ⟨_, rfl⟩
  rw [← hu] at c5 c6 c7 c8 c11 c12
  have hSv : (SC : ℝ) = 10 ^ 30 := by norm_num [SC]
  have u1 : (u : ℝ) / SC ≤ mbNode i := by
    have : u + 19 * SC ≤ 21 * i * SC / 999 := by omega
    rw [Int.le_ediv_iff_mul_le (by norm_num)] at this
    have : ((u : ℝ) + 19 * SC) * 999 ≤ 21 * i * SC := by exact_mod_cast this
    unfold mbNode
    rw [div_le_iff₀ hS]
    linarith
  have u2 : mbNode i ≤ ((u + 1 : ℤ) : ℝ) / SC := by
    have : 21 * i * SC / 999 < u + 1 + 19 * SC := by omega
    rw [Int.ediv_lt_iff_lt_mul (by norm_num)] at this
    have : (21 * i * SC : ℝ) < (u + 1 + 19 * SC) * 999 := by exact_mod_cast this
    unfold mbNode
    rw [le_div_iff₀ hS]
    push_cast
    linarith
  have ht : ((t * 10 ^ 9 : ℤ) : ℝ) / SC = (t : ℝ) / 10 ^ 21 := by
    rw [hSv]; push_cast; field_simp; ring
  have hs : ((t * 15 * 10 ^ 8 : ℤ) : ℝ) / SC = (t : ℝ) / 10 ^ 21 * (3 / 2) := by
    rw [hSv]; push_cast; field_simp; ring
  obtain ⟨Y, hY⟩ : ∃ Y, Y = Real.exp ((t : ℝ) / 10 ^ 21) := ⟨_, rfl⟩
  have hY0 : 0 < Y := hY ▸ Real.exp_pos _
  have hYs : Y * Real.sqrt Y = Real.exp ((t : ℝ) / 10 ^ 21 * (3 / 2)) := by rw [hY, pow_three_half]
  obtain ⟨W, hW⟩ : ∃ W, W = Real.exp (mbNode i) := ⟨_, rfl⟩
  have y1 := eLo_le c1
  have y2 := le_eHi c1 c2
  rw [ht, ← hY] at y1 y2
  have s1 := eLo_le c9
  have s2 := le_eHi c9 c10
  rw [hs, ← hYs] at s1 s2
  have w1 : (eLo u : ℝ) ≤ SC * W := by
    refine (eLo_le c5).trans ?_
    rw [hW]; exact mul_le_mul_of_nonneg_left (Real.exp_le_exp.2 (by assumption)) hS.le
  have w2 : SC * W ≤ (eHi (u + 1) : ℝ) := by
    refine le_trans ?_ (le_eHi c6 c7)
    rw [hW]; exact mul_le_mul_of_nonneg_left (Real.exp_le_exp.2 (by assumption)) hS.le
  obtain ⟨a, ha⟩ : ∃ a : ℕ, a = eLo (t * 10 ^ 9) := ⟨_, rfl⟩
  obtain ⟨b, hb⟩ : ∃ b : ℕ, b = eHi (t * 10 ^ 9) := ⟨_, rfl⟩
  obtain ⟨p, hp⟩ : ∃ p : ℕ, p = eLo (t * 15 * 10 ^ 8) := ⟨_, rfl⟩
  obtain ⟨q, hq⟩ : ∃ q : ℕ, q = eHi (t * 15 * 10 ^ 8) := ⟨_, rfl⟩
  obtain ⟨v, hv⟩ : ∃ v : ℕ, v = eLo u := ⟨_, rfl⟩
  obtain ⟨w, hw⟩ : ∃ w : ℕ, w = eHi (u + 1) := ⟨_, rfl⟩
  rw [← hb] at c3 c4
  rw [← ha, ← hb, ← hp, ← hv] at c11
  rw [← ha, ← hb, ← hq, ← hw] at c12
  rw [← hw] at c8 w2
  rw [← hv] at w1
  rw [← ha] at y1
  rw [← hb] at y2
  rw [← hp] at s1
  rw [← hq] at s2
  clear ha hb hp hq hv hw c1 c2 c5 c6 c7 c9 c10
  obtain ⟨n, hn⟩ : ∃ n, n = 16 + 2 * (b / SC) := ⟨_, rfl⟩
  rw [← hn] at c4 c11 c12
  have hyn : 2 * Y ≤ n := by
    have : (2 * b : ℝ) ≤ n * SC := by exact_mod_cast c4
    have h3 : SC * (2 * Y) ≤ SC * n := by linarith
    exact le_of_mul_le_mul_left h3 hS
  obtain ⟨R, hR0, hR1, hR⟩ := mbI_series n hY0.le
  have hR1 := hR1 hyn
  obtain ⟨X, hX⟩ : ∃ X, X = Y * Real.sqrt Y := ⟨_, rfl⟩
  have hX0 : 0 < X := by rw [hX]; positivity
  rw [← hX] at hR1 hR s1 s2
  have haY : (a : ℝ) / SC ≤ Y := by rw [div_le_iff₀ hS]; linarith
  have hbY : Y ≤ (b : ℝ) / SC := by rw [le_div_iff₀ hS]; linarith
  -- the two sums
  have l1 := mbLo_le a n 0 (2 * SC / 3) 0 (by
    rw [mbTerm]
    refine (natdiv_le _ _).trans ?_
    push_cast
    apply le_of_eq
    ring)
  have l2 := le_mbHi b n 0 (2 * SC / 3 + 1) 0 (by
    rw [mbTerm]
    have := le_natdiv (2 * SC) 3 (by norm_num)
    push_cast at this ⊢
    linarith)
  rw [Nat.cast_zero, zero_add, zero_add, ← Finset.range_eq_Ico] at l1 l2
  have m1 : (mbLo a n 0 (2 * SC / 3) 0 : ℝ) ≤ SC * ∑ k ∈ Finset.range n, mbTerm Y k :=
    l1.trans (mul_le_mul_of_nonneg_left (Finset.sum_le_sum fun k _ =>
      mbTerm_mono (div_nonneg (Nat.cast_nonneg a) hS.le) haY k) hS.le)
  have m2 : SC * (∑ k ∈ Finset.range n, mbTerm Y k + 2 * mbTerm Y n) ≤ (mbHi b n 0 (2 * SC / 3 + 1) 0 : ℝ) :=
    le_trans (mul_le_mul_of_nonneg_left (add_le_add (Finset.sum_le_sum fun k _ => mbTerm_mono hY0.le hbY k)
      (mul_le_mul_of_nonneg_left (mbTerm_mono hY0.le hbY n) zero_le_two)) hS.le) l2
  -- the exponentials
  have e1 : SC * Real.exp Y ≤ (expHi b : ℝ) :=
    le_trans (mul_le_mul_of_nonneg_left (Real.exp_le_exp.2 hbY) hS.le) (le_expHi b c3)
  have e2 : (expLo a : ℝ) ≤ SC * Real.exp Y :=
    (expLo_le a).trans (mul_le_mul_of_nonneg_left (Real.exp_le_exp.2 haY) hS.le)
  have e3 : (expLo v : ℝ) ≤ SC * Real.exp W := by
    have : (v : ℝ) / SC ≤ W := by rw [div_le_iff₀ hS]; linarith
    exact (expLo_le v).trans (mul_le_mul_of_nonneg_left (Real.exp_le_exp.2 this) hS.le)
  have e4 : SC * Real.exp W ≤ (expHi w : ℝ) := by
    have : W ≤ (w : ℝ) / SC := by rw [le_div_iff₀ hS]; linarith
    exact le_trans (mul_le_mul_of_nonneg_left (Real.exp_le_exp.2 this) hS.le) (le_expHi w c8)
  have hS0 : 0 ≤ ∑ k ∈ Finset.range n, mbTerm Y k := Finset.sum_nonneg fun k _ => mbTerm_nonneg hY0.le k
  have hT0 := mbTerm_nonneg hY0.le n
  have hS1 : 0 < ∑ k ∈ Finset.range n, mbTerm Y k + 2 * mbTerm Y n := by
    have : mbTerm Y 0 ≤ ∑ k ∈ Finset.range n, mbTerm Y k :=
      Finset.single_le_sum (f := mbTerm Y) (fun k _ => mbTerm_nonneg hY0.le k) (Finset.mem_range.2 (by omega))
    have h0 : mbTerm Y 0 = 2 / 3 := rfl
    rw [h0] at this
    linarith
  have d11 : (886226926 * SC * SC * expHi b : ℝ) ≤
      ((p : ℝ) * mbLo a n 0 (2 * SC / 3) 0 * 10 ^ 9 + 886 * SC * expHi b) * expLo v := by exact_mod_cast c11
  have d12 : ((q : ℝ) * mbHi b n 0 (2 * SC / 3 + 1) 0 * 10 ^ 9 * expHi w) ≤
      (886226925 * SC * SC + 886 * SC * expHi w) * expLo a := by exact_mod_cast c12
  rw [← hY, ← hW, Real.exp_neg]
  rw [Real.exp_neg] at hR1 hR
  obtain ⟨hc1, hc2⟩ := half_sqrt_pi
  exact entry_core hS hX0 hS0 hS1 (Real.exp_pos Y) (Real.exp_pos W) (Nat.cast_nonneg _) (Nat.cast_nonneg _) s1 s2 m1 m2 e1
    (Nat.cast_nonneg _) e2 e3 e4 d11 d12 hc1 hc2 (by linarith) (by linarith)

theorem tableOkF_get : ∀ (l : List ℤ) (i j : ℕ) (_ : tableOkF i l = true) (hj : j < l.length), entryOkF (i + j) l[j] = true := by
  intro l
  induction l with
  | nil => intro i j _ hj; simp at hj
  | cons t l ih =>
    intro i j h hj
    rw [tableOkF, Bool.and_eq_true] at h
    cases j with
    | zero => exact h.1
    | succ j =>
      have := ih (i + 1) j h.2 (by simpa using hj)
      rw [show i + (j + 1) = i + 1 + j by ring]
      simpa using this

theorem tableF_right {i : ℕ} (h : i < 1000) :
    |mbI 0 (Real.exp (((lnInvF.getD i 0 : ℤ) : ℝ) / 10 ^ 21)) - Real.sqrt Real.pi / 2 * Real.exp (-Real.exp (mbNode i))|
      ≤ 1e-6 := by
  have hl := lnInvF_length
  have h2 := tableOkF_get _ 0 i tableF_checked (by omega)
  rw [zero_add] at h2
  rw [getD_lt (by omega)]
  exact entryF_right h2

end Verif
