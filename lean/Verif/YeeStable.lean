import Verif.YeeProps
import Mathlib.Algebra.Order.Field.Basic

/-!
# Bound of the curl, for the stability of the field step (C51)
-/

namespace Verif

open Finset

/-- shift of one half of a sum over neighbours -/
theorem shiftZ {a b : ℤ} (hab : a + 1 ≤ b) (p q f : ℤ → ℝ) :
    ∑ i ∈ Ico a b, (p i * f (i + 1) + q i * f i) =
      q a * f a + ∑ i ∈ Ico (a + 1) b, (p (i - 1) + q i) * f i + p (b - 1) * f b := by
  induction b, hab using Int.leInduction with
  | base =>
    have : Ico a (a + 1) = {a} := by ext x; simp only [mem_Ico, mem_singleton]; omega
    rw [this, sum_singleton]
    simp only [Ico_self, sum_empty, add_sub_cancel_right]; ring
  | succ n hn ih =>
    rw [sum_Ico_succZ (by omega), sum_Ico_succZ hn, ih]
    have e : n + 1 - 1 = n := by ring
    rw [e]
    ring

theorem sumBox_le {a b c d : ℤ} {f g : ℤ → ℤ → ℝ} (h : ∀ i k, Box a b c d i k → f i k ≤ g i k) :
    sumBox a b c d f ≤ sumBox a b c d g := by
  apply sum_le_sum; intro i hi
  apply sum_le_sum; intro k hk
  rw [mem_Ico] at hi hk
  exact h i k ⟨hi.1, hi.2, hk.1, hk.2⟩

theorem ringVol_nonneg {G : Geom} (hG : G.Valid) {x : ℝ} (hx : 0 ≤ x) : 0 ≤ ringVol G x := by
  have := hG.dr_pos
  have := hG.dz_pos
  have := PI_pos
  unfold ringVol; positivity

/-- squared differences along one line whose ends vanish -/
theorem diff_sq_le {b : ℤ} (hb : 1 ≤ b) (f : ℤ → ℝ) (h0 : f 0 = 0) (h1 : f b = 0) :
    ∑ k ∈ Ico 0 b, (f (k + 1) - f k) ^ 2 ≤ 4 * ∑ k ∈ Ico 1 b, f k ^ 2 := by
  have h := shiftZ (a := 0) (b := b) (by omega) (fun _ => 2) (fun _ => 2) (fun k => f k ^ 2)
  simp only [h0, h1] at h
  calc ∑ k ∈ Ico 0 b, (f (k + 1) - f k) ^ 2
      ≤ ∑ k ∈ Ico 0 b, (2 * f (k + 1) ^ 2 + 2 * f k ^ 2) := by
        apply sum_le_sum; intro k _; nlinarith [sq_nonneg (f (k + 1) + f k)]
    _ = ∑ k ∈ Ico 1 b, (2 + 2) * f k ^ 2 := by rw [h]; ring_nf
    _ = 4 * ∑ k ∈ Ico 1 b, f k ^ 2 := by rw [mul_sum]; apply sum_congr rfl; intro k _; ring

/-- radial differences of `E_z` along one line, with the smaller volume on the axis -/
theorem axis_diff_sq_le {b : ℤ} (hb : 1 ≤ b) (f : ℤ → ℝ) (h1 : f b = 0) :
    ∑ i ∈ Ico 0 b, ((i : ℝ) + 1 / 2) * (f (i + 1) - f i) ^ 2 ≤
      16 / 3 * (1 / 8 * f 0 ^ 2 + ∑ i ∈ Ico 1 b, (i : ℝ) * f i ^ 2) := by
  let P : ℤ → ℝ := fun i => if i = 0 then 4 else 2
  let Q : ℤ → ℝ := fun i => if i = 0 then 4 / 3 else 2
  have h := shiftZ (a := 0) (b := b) (by omega) (fun i => ((i : ℝ) + 1 / 2) * P i)
    (fun i => ((i : ℝ) + 1 / 2) * Q i) (fun k => f k ^ 2)
  simp only [h1] at h
  calc ∑ i ∈ Ico 0 b, ((i : ℝ) + 1 / 2) * (f (i + 1) - f i) ^ 2
      ≤ ∑ i ∈ Ico 0 b, (((i : ℝ) + 1 / 2) * P i * f (i + 1) ^ 2 + ((i : ℝ) + 1 / 2) * Q i * f i ^ 2) := by
        apply sum_le_sum; intro i hi
        rw [mem_Ico] at hi
        have hi0 : (0:ℝ) ≤ (i : ℝ) + 1 / 2 := by
          have : (0:ℝ) ≤ (i:ℝ) := by exact_mod_cast hi.1
          linarith
        rw [mul_assoc, mul_assoc, ← mul_add]
        apply mul_le_mul_of_nonneg_left _ hi0
        simp only [P, Q]
        split_ifs
        · nlinarith [sq_nonneg (3 * f (i + 1) + f i)]
        · nlinarith [sq_nonneg (f (i + 1) + f i)]
    _ = 2 / 3 * f 0 ^ 2 + ∑ i ∈ Ico 1 b, ((((i - 1 : ℤ) : ℝ) + 1 / 2) * P (i - 1)
          + ((i : ℝ) + 1 / 2) * Q i) * f i ^ 2 := by
        rw [h]; simp only [Q, if_true]; push_cast; ring
    _ ≤ 2 / 3 * f 0 ^ 2 + ∑ i ∈ Ico 1 b, 16 / 3 * ((i : ℝ) * f i ^ 2) := by
        apply add_le_add_right
        apply sum_le_sum; intro i hi
        rw [mem_Ico] at hi
        have hi1 : (1:ℝ) ≤ (i:ℝ) := by exact_mod_cast hi.1
        rw [← mul_assoc]
        apply mul_le_mul_of_nonneg_right _ (sq_nonneg _)
        simp only [P, Q]
        rw [if_neg (by omega : ¬ i = 0)]
        split_ifs with h2
        · have : i = 1 := by omega
          subst this; push_cast; norm_num
        · push_cast; linarith
    _ = _ := by rw [← mul_sum]; ring

/-- the part of `E_phi` in the longitudinal magnetic update -/
theorem ring_diff_sq_le {b : ℤ} (hb : 1 ≤ b) (f : ℤ → ℝ) (h1 : f b = 0) :
    ∑ i ∈ Ico 0 b, (((i : ℝ) + 1) * f (i + 1) - (i : ℝ) * f i) ^ 2 / ((i : ℝ) + 1 / 2) ≤
      4 * ∑ i ∈ Ico 1 b, (i : ℝ) * f i ^ 2 := by
  have h := shiftZ (a := 0) (b := b) (by omega) (fun i => 2 * ((i : ℝ) + 1)) (fun i => 2 * (i : ℝ))
    (fun k => f k ^ 2)
  simp only [h1] at h
  calc ∑ i ∈ Ico 0 b, (((i : ℝ) + 1) * f (i + 1) - (i : ℝ) * f i) ^ 2 / ((i : ℝ) + 1 / 2)
      ≤ ∑ i ∈ Ico 0 b, (2 * ((i : ℝ) + 1) * f (i + 1) ^ 2 + 2 * (i : ℝ) * f i ^ 2) := by
        apply sum_le_sum; intro i hi
        rw [mem_Ico] at hi
        have hi0 : (0:ℝ) ≤ (i:ℝ) := by exact_mod_cast hi.1
        rw [div_le_iff₀ (by linarith)]
        nlinarith [mul_nonneg (mul_nonneg hi0 (by linarith : (0:ℝ) ≤ i + 1)) (sq_nonneg (f (i + 1) + f i))]
    _ = ∑ i ∈ Ico 1 b, (2 * (((i - 1 : ℤ) : ℝ) + 1) + 2 * (i : ℝ)) * f i ^ 2 := by
        rw [h]; push_cast; ring_nf
    _ = _ := by
        rw [mul_sum]; apply sum_congr rfl; intro i _; push_cast; ring

/-- Largest eigenvalue allowed for the curl of the curl: the sum of a radial and a longitudinal part. -/
noncomputable def curlBound (G : Geom) : ℝ := 16 / 3 / G.dr ^ 2 + 4 / G.dz ^ 2

/-- The curl of a field that meets the wall conditions is bounded by the field. -/
theorem curlE_le {G : Geom} (hG : G.Valid) (e : Fields) (hw : WallE G e) :
    sumH G (fun a i k => curlE G e a i k ^ 2) ≤ curlBound G * sumE G (fun a i k => e a i k ^ 2) := by
  have n1 := hG.nr_ge
  have n2 := hG.nz_ge
  have dr := hG.dr_pos
  have dz := hG.dz_pos
  have hp := PI_pos
  set Kr : ℝ := 16 / 3 / G.dr ^ 2 with hKr
  set Kz : ℝ := 4 / G.dz ^ 2 with hKz
  have Krp : 0 < Kr := by positivity
  have Kzp : 0 < Kz := by positivity
  set SP := sumBox 1 (G.nr - 1) 1 (G.nz - 1) (fun i k => ringVol G (i : ℝ) * e .ephi i k ^ 2) with hSP
  set SR := sumBox 0 (G.nr - 1) 1 (G.nz - 1) (fun i k => ringVol G ((i : ℝ) + 1 / 2) * e .er i k ^ 2) with hSR
  set SZ := sumBox 1 (G.nr - 1) 0 (G.nz - 1) (fun i k => ringVol G (i : ℝ) * e .ez i k ^ 2) with hSZ
  set SA := ∑ k ∈ Ico 0 ((G.nz : ℤ) - 1), axisVol G * e .ez 0 k ^ 2 with hSA
  have castn : ∀ i : ℤ, 0 ≤ i → (0:ℝ) ≤ (i:ℝ) := fun i hi => by exact_mod_cast hi
  have SPn : 0 ≤ SP := sumBox_nonneg fun i k hb =>
    mul_nonneg (ringVol_nonneg hG (castn i (by simp only [Box] at hb; omega))) (sq_nonneg _)
  -- H_r
  have B1 : sumBox 0 G.nr 0 (G.nz - 1) (fun i k => ringVol G (i : ℝ) * curlE G e .hr i k ^ 2) ≤ Kz * SP := by
    have step : sumBox 0 G.nr 0 (G.nz - 1) (fun i k => ringVol G (i : ℝ) * curlE G e .hr i k ^ 2) ≤
        Kz * sumBox 0 G.nr 1 (G.nz - 1) (fun i k => ringVol G (i : ℝ) * e .ephi i k ^ 2) := by
      unfold sumBox
      rw [mul_sum]
      apply sum_le_sum; intro i hi
      rw [mem_Ico] at hi
      have hv := ringVol_nonneg hG (castn i hi.1)
      have := diff_sq_le (b := G.nz - 1) (by omega) (e .ephi i) (hw.phi_left i hi.1 hi.2)
        (hw.phi_right i hi.1 hi.2)
      calc ∑ k ∈ Ico (0:ℤ) (G.nz - 1), ringVol G (i : ℝ) * curlE G e .hr i k ^ 2
          = ringVol G (i : ℝ) / G.dz ^ 2 * ∑ k ∈ Ico (0:ℤ) (G.nz - 1), (e .ephi i (k + 1) - e .ephi i k) ^ 2 := by
            rw [mul_sum]; apply sum_congr rfl; intro k _; unfold curlE; ring
        _ ≤ ringVol G (i : ℝ) / G.dz ^ 2 * (4 * ∑ k ∈ Ico (1:ℤ) (G.nz - 1), e .ephi i k ^ 2) :=
            mul_le_mul_of_nonneg_left this (by positivity)
        _ = Kz * ∑ k ∈ Ico (1:ℤ) (G.nz - 1), ringVol G (i : ℝ) * e .ephi i k ^ 2 := by
            rw [← mul_sum, hKz]; ring
    refine step.trans (le_of_eq ?_)
    congr 1
    rw [hSP]
    unfold sumBox
    rw [sum_Ico_headZ (a := 0) (b := G.nr) (by omega)]
    have : ((G.nr : ℤ)) = (G.nr - 1) + 1 := by ring
    conv_lhs => rw [this]
    rw [sum_Ico_succZ (by omega)]
    have z1 : ∑ k ∈ Ico (1:ℤ) (G.nz - 1), ringVol G (((0:ℤ)) : ℝ) * e .ephi 0 k ^ 2 = 0 := by
      apply sum_eq_zero; intro k _; unfold ringVol; push_cast; ring
    have z2 : ∑ k ∈ Ico (1:ℤ) (G.nz - 1), ringVol G (((G.nr - 1 : ℤ)) : ℝ) * e .ephi (G.nr - 1) k ^ 2 = 0 := by
      apply sum_eq_zero; intro k hk
      rw [mem_Ico] at hk
      rw [hw.phi_outer k (by omega) (by omega)]; ring
    rw [z1, z2, zero_add, add_zero, zero_add]
  -- H_z
  have B3 : sumBox 0 (G.nr - 1) 0 (G.nz - 1) (fun i k => ringVol G ((i : ℝ) + 1 / 2) *
      curlE G e .hz i k ^ 2) ≤ Kr * SP := by
    have step : sumBox 0 (G.nr - 1) 0 (G.nz - 1) (fun i k => ringVol G ((i : ℝ) + 1 / 2) *
        curlE G e .hz i k ^ 2) ≤
        4 / G.dr ^ 2 * sumBox 1 (G.nr - 1) 0 (G.nz - 1) (fun i k => ringVol G (i : ℝ) * e .ephi i k ^ 2) := by
      rw [sumBox_swap, sumBox_swap, mul_sum]
      apply sum_le_sum; intro k hk
      rw [mem_Ico] at hk
      have := ring_diff_sq_le (b := G.nr - 1) (by omega) (fun i => e .ephi i k)
        (hw.phi_outer k (by omega) (by omega))
      calc ∑ i ∈ Ico (0:ℤ) (G.nr - 1), ringVol G ((i : ℝ) + 1 / 2) * curlE G e .hz i k ^ 2
          = 2 * PI * G.dz * ∑ i ∈ Ico (0:ℤ) (G.nr - 1),
              (((i : ℝ) + 1) * e .ephi (i + 1) k - (i : ℝ) * e .ephi i k) ^ 2 / ((i : ℝ) + 1 / 2) := by
            rw [mul_sum]; apply sum_congr rfl; intro i hi
            rw [mem_Ico] at hi
            have hx0 : (i : ℝ) + 1 / 2 ≠ 0 := by have := castn i hi.1; linarith
            have hx1 : 2 * (i : ℝ) + 1 ≠ 0 := fun h => hx0 (by linarith)
            unfold ringVol curlE
            simp only
            field_simp
            ring
        _ ≤ 2 * PI * G.dz * (4 * ∑ i ∈ Ico (1:ℤ) (G.nr - 1), (i : ℝ) * e .ephi i k ^ 2) :=
            mul_le_mul_of_nonneg_left this (by positivity)
        _ = 4 / G.dr ^ 2 * ∑ i ∈ Ico (1:ℤ) (G.nr - 1), ringVol G (i : ℝ) * e .ephi i k ^ 2 := by
            rw [mul_sum, mul_sum, mul_sum]
            apply sum_congr rfl; intro i _; unfold ringVol; field_simp
    have drop : sumBox 1 (G.nr - 1) 0 (G.nz - 1) (fun i k => ringVol G (i : ℝ) * e .ephi i k ^ 2) = SP := by
      rw [hSP]
      apply sum_congr rfl
      intro i hi
      rw [mem_Ico] at hi
      rw [sum_Ico_headZ (a := 0) (by omega)]
      beta_reduce
      rw [hw.phi_left i (by omega) (by omega)]
      simp
    rw [drop] at step
    refine step.trans (mul_le_mul_of_nonneg_right ?_ SPn)
    rw [hKr]
    apply div_le_div_of_nonneg_right _ (by positivity)
    norm_num
  -- H_phi, part of E_z
  have B2a : sumBox 0 (G.nr - 1) 0 (G.nz - 1) (fun i k => ringVol G ((i : ℝ) + 1 / 2) *
      ((e .ez (i + 1) k - e .ez i k) / G.dr) ^ 2) ≤ Kr * (SZ + SA) := by
    rw [hSZ, hSA, sumBox_swap, sumBox_swap, ← sum_add_distrib, mul_sum]
    apply sum_le_sum; intro k hk
    rw [mem_Ico] at hk
    have := axis_diff_sq_le (b := G.nr - 1) (by omega) (fun i => e .ez i k) (hw.z_outer k hk.1 hk.2)
    calc ∑ i ∈ Ico (0:ℤ) (G.nr - 1), ringVol G ((i : ℝ) + 1 / 2) * ((e .ez (i + 1) k - e .ez i k) / G.dr) ^ 2
        = 2 * PI * G.dz * ∑ i ∈ Ico (0:ℤ) (G.nr - 1), ((i : ℝ) + 1 / 2) * (e .ez (i + 1) k - e .ez i k) ^ 2 := by
          rw [mul_sum]; apply sum_congr rfl; intro i _; unfold ringVol; field_simp
      _ ≤ 2 * PI * G.dz * (16 / 3 * (1 / 8 * e .ez 0 k ^ 2 + ∑ i ∈ Ico (1:ℤ) (G.nr - 1), (i : ℝ) * e .ez i k ^ 2)) :=
          mul_le_mul_of_nonneg_left this (by positivity)
      _ = Kr * (∑ i ∈ Ico (1:ℤ) (G.nr - 1), ringVol G (i : ℝ) * e .ez i k ^ 2 + axisVol G * e .ez 0 k ^ 2) := by
          have : ∑ i ∈ Ico (1:ℤ) (G.nr - 1), ringVol G (i : ℝ) * e .ez i k ^ 2 =
              2 * PI * G.dr ^ 2 * G.dz * ∑ i ∈ Ico (1:ℤ) (G.nr - 1), (i : ℝ) * e .ez i k ^ 2 := by
            rw [mul_sum]; apply sum_congr rfl; intro i _; unfold ringVol; ring
          rw [this, hKr]
          unfold axisVol
          field_simp
          ring
  -- H_phi, part of E_r
  have B2b : sumBox 0 (G.nr - 1) 0 (G.nz - 1) (fun i k => ringVol G ((i : ℝ) + 1 / 2) *
      ((e .er i (k + 1) - e .er i k) / G.dz) ^ 2) ≤ Kz * SR := by
    rw [hSR]
    unfold sumBox
    rw [mul_sum]
    apply sum_le_sum; intro i hi
    rw [mem_Ico] at hi
    have hv : 0 ≤ ringVol G ((i : ℝ) + 1 / 2) := ringVol_nonneg hG (by have := castn i hi.1; linarith)
    have := diff_sq_le (b := G.nz - 1) (by omega) (e .er i) (hw.r_left i hi.1 hi.2) (hw.r_right i hi.1 hi.2)
    calc ∑ k ∈ Ico (0:ℤ) (G.nz - 1), ringVol G ((i : ℝ) + 1 / 2) * ((e .er i (k + 1) - e .er i k) / G.dz) ^ 2
        = ringVol G ((i : ℝ) + 1 / 2) / G.dz ^ 2 * ∑ k ∈ Ico (0:ℤ) (G.nz - 1), (e .er i (k + 1) - e .er i k) ^ 2 := by
          rw [mul_sum]; apply sum_congr rfl; intro k _; ring
      _ ≤ ringVol G ((i : ℝ) + 1 / 2) / G.dz ^ 2 * (4 * ∑ k ∈ Ico (1:ℤ) (G.nz - 1), e .er i k ^ 2) :=
          mul_le_mul_of_nonneg_left this (by positivity)
      _ = Kz * ∑ k ∈ Ico (1:ℤ) (G.nz - 1), ringVol G ((i : ℝ) + 1 / 2) * e .er i k ^ 2 := by
          rw [← mul_sum, hKz]; ring
  have B2 : sumBox 0 (G.nr - 1) 0 (G.nz - 1) (fun i k => ringVol G ((i : ℝ) + 1 / 2) *
      curlE G e .hphi i k ^ 2) ≤ (Kr + Kz) * (SZ + SA + SR) := by
    calc sumBox 0 (G.nr - 1) 0 (G.nz - 1) (fun i k => ringVol G ((i : ℝ) + 1 / 2) * curlE G e .hphi i k ^ 2)
        ≤ sumBox 0 (G.nr - 1) 0 (G.nz - 1) (fun i k =>
            (Kr + Kz) / Kr * (ringVol G ((i : ℝ) + 1 / 2) * ((e .ez (i + 1) k - e .ez i k) / G.dr) ^ 2)
            + (Kr + Kz) / Kz * (ringVol G ((i : ℝ) + 1 / 2) * ((e .er i (k + 1) - e .er i k) / G.dz) ^ 2)) := by
          apply sumBox_le
          intro i k hb
          have hv : 0 ≤ ringVol G ((i : ℝ) + 1 / 2) := ringVol_nonneg hG (by have := castn i hb.1; linarith)
          unfold curlE
          simp only
          generalize (e .ez (i + 1) k - e .ez i k) / G.dr = x
          generalize (e .er i (k + 1) - e .er i k) / G.dz = y
          have key : (x - y) ^ 2 ≤ (Kr + Kz) / Kr * x ^ 2 + (Kr + Kz) / Kz * y ^ 2 := by
            have h0 : (Kr + Kz) / Kr * x ^ 2 + (Kr + Kz) / Kz * y ^ 2 - (x - y) ^ 2 =
                (Kz * x + Kr * y) ^ 2 / (Kr * Kz) := by
              field_simp
              ring
            have h1 : 0 ≤ (Kz * x + Kr * y) ^ 2 / (Kr * Kz) := by positivity
            linarith
          calc ringVol G ((i : ℝ) + 1 / 2) * (x - y) ^ 2
              ≤ ringVol G ((i : ℝ) + 1 / 2) * ((Kr + Kz) / Kr * x ^ 2 + (Kr + Kz) / Kz * y ^ 2) :=
                mul_le_mul_of_nonneg_left key hv
            _ = _ := by ring
      _ = (Kr + Kz) / Kr * sumBox 0 (G.nr - 1) 0 (G.nz - 1) (fun i k => ringVol G ((i : ℝ) + 1 / 2) *
            ((e .ez (i + 1) k - e .ez i k) / G.dr) ^ 2)
          + (Kr + Kz) / Kz * sumBox 0 (G.nr - 1) 0 (G.nz - 1) (fun i k => ringVol G ((i : ℝ) + 1 / 2) *
            ((e .er i (k + 1) - e .er i k) / G.dz) ^ 2) := by
          rw [← sumBox_add, sumBox_mul, sumBox_mul]
      _ ≤ (Kr + Kz) / Kr * (Kr * (SZ + SA)) + (Kr + Kz) / Kz * (Kz * SR) :=
          add_le_add (mul_le_mul_of_nonneg_left B2a (by positivity))
            (mul_le_mul_of_nonneg_left B2b (by positivity))
      _ = (Kr + Kz) * (SZ + SA + SR) := by field_simp
  have e1 : curlBound G = Kr + Kz := rfl
  have e2 : sumE G (fun a i k => e a i k ^ 2) = SR + SP + SZ + SA := rfl
  rw [e1, e2]
  unfold sumH
  nlinarith [B1, B2, B3]

end Verif
