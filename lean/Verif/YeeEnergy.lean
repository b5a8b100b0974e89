import Verif.YeePhysics

/-!
# Energy balance of the field step (C11)
-/

namespace Verif

open Finset

theorem sum_Ico_succZ {a b : ℤ} (h : a ≤ b) (f : ℤ → ℝ) :
    ∑ k ∈ Ico a (b + 1), f k = ∑ k ∈ Ico a b, f k + f b := by
  have : Ico a (b + 1) = insert b (Ico a b) := by
    ext x; simp only [mem_Ico, mem_insert]; omega
  rw [this, sum_insert (by simp), add_comm]

theorem sum_Ico_headZ {a b : ℤ} (h : a < b) (f : ℤ → ℝ) :
    ∑ k ∈ Ico a b, f k = f a + ∑ k ∈ Ico (a + 1) b, f k := by
  have : Ico a b = insert a (Ico (a + 1) b) := by
    ext x; simp only [mem_Ico, mem_insert]; omega
  rw [this, sum_insert (by simp)]

/-- summation by parts -/
theorem abelZ {a b : ℤ} (hab : a + 1 ≤ b) (f h : ℤ → ℝ) :
    ∑ k ∈ Ico a b, h k * (f (k + 1) - f k) + ∑ k ∈ Ico (a + 1) b, f k * (h k - h (k - 1))
      = h (b - 1) * f b - h a * f a := by
  induction b, hab using Int.leInduction with
  | base =>
    have : Ico a (a + 1) = {a} := by ext x; simp only [mem_Ico, mem_singleton]; omega
    rw [this, sum_singleton]
    simp only [Ico_self, sum_empty, add_sub_cancel_right]; ring
  | succ n hn ih =>
    rw [sum_Ico_succZ (by omega), sum_Ico_succZ hn]
    have e : n + 1 - 1 = n := by ring
    rw [e]
    linear_combination ih

theorem sumBox_add (a b c d : ℤ) (f g : ℤ → ℤ → ℝ) :
    sumBox a b c d f + sumBox a b c d g = sumBox a b c d (fun i k => f i k + g i k) := by
  simp only [sumBox, ← sum_add_distrib]

theorem sumBox_congr {a b c d : ℤ} {f g : ℤ → ℤ → ℝ} (h : ∀ i k, Box a b c d i k → f i k = g i k) :
    sumBox a b c d f = sumBox a b c d g := by
  apply sum_congr rfl; intro i hi
  apply sum_congr rfl; intro k hk
  rw [mem_Ico] at hi hk
  exact h i k ⟨hi.1, hi.2, hk.1, hk.2⟩

theorem sumBox_swap (a b c d : ℤ) (f : ℤ → ℤ → ℝ) :
    sumBox a b c d f = ∑ k ∈ Ico c d, ∑ i ∈ Ico a b, f i k := sum_comm

theorem sumBox_mul (a b c d : ℤ) (x : ℝ) (f : ℤ → ℤ → ℝ) :
    sumBox a b c d (fun i k => x * f i k) = x * sumBox a b c d f := by
  simp only [sumBox, mul_sum]

theorem sumBox_zero {a b c d : ℤ} {f : ℤ → ℤ → ℝ}
    (h : ∀ i, a ≤ i → i < b → ∑ k ∈ Ico c d, f i k = 0) : sumBox a b c d f = 0 := by
  apply sum_eq_zero; intro i hi; rw [mem_Ico] at hi; exact h i hi.1 hi.2

theorem sumBox_nonneg {a b c d : ℤ} {f : ℤ → ℤ → ℝ} (h : ∀ i k, Box a b c d i k → 0 ≤ f i k) :
    0 ≤ sumBox a b c d f := by
  apply sum_nonneg; intro i hi
  apply sum_nonneg; intro k hk
  rw [mem_Ico] at hi hk
  exact h i k ⟨hi.1, hi.2, hk.1, hk.2⟩

/-! ## The two curls -/

/-- curl of `H` at the nodes of `E`, as the electric update uses it -/
noncomputable def curlH (G : Geom) (F : Fields) : Arr → ℤ → ℤ → ℝ
  | .er, i, k => -((F .hphi i k - F .hphi i (k - 1)) / G.dz)
  | .ephi, i, k => (F .hr i k - F .hr i (k - 1)) / G.dz - (F .hz i k - F .hz (i - 1) k) / G.dr
  | .ez, i, k => if i = 0 then 4 / G.dr * F .hphi i k else
      (F .hphi i k - F .hphi (i - 1) k) / G.dr
        + (F .hphi i k + F .hphi (i - 1) k) / (2 * G.dr * (i : ℝ))
  | _, _, _ => 0

/-- minus curl of `E` at the nodes of `H`, as the magnetic update uses it -/
noncomputable def curlE (G : Geom) (e : Arr → ℤ → ℤ → ℝ) : Arr → ℤ → ℤ → ℝ
  | .hr, i, k => (e .ephi i (k + 1) - e .ephi i k) / G.dz
  | .hphi, i, k => (e .ez (i + 1) k - e .ez i k) / G.dr - (e .er i (k + 1) - e .er i k) / G.dz
  | .hz, i, k => -((e .ephi (i + 1) k + e .ephi i k) / (2 * G.dr * ((i : ℝ) + 1 / 2))
      + (e .ephi (i + 1) k - e .ephi i k) / G.dr)
  | _, _, _ => 0

/-- The two curls are adjoint for fields that meet the wall conditions. -/
theorem adjoint {G : Geom} (hG : G.Valid) (F e : Fields) (hw : WallE G e) :
    sumE G (fun a i k => e a i k * curlH G F a i k) +
      sumH G (fun a i k => F a i k * curlE G e a i k) = 0 := by
  have n1 := hG.nr_ge
  have n2 := hG.nz_ge
  have dr := hG.dr_pos
  have dz := hG.dz_pos
  -- E_r against H_phi
  have A1 : sumBox 0 (G.nr - 1) 1 (G.nz - 1) (fun i k => ringVol G ((i : ℝ) + 1 / 2) *
        (e .er i k * curlH G F .er i k)) +
      sumBox 0 (G.nr - 1) 0 (G.nz - 1) (fun i k => ringVol G ((i : ℝ) + 1 / 2) *
        (F .hphi i k * -((e .er i (k + 1) - e .er i k) / G.dz))) = 0 := by
    unfold sumBox
    rw [← sum_add_distrib]
    apply sum_eq_zero
    intro i hi
    rw [mem_Ico] at hi
    have := abelZ (a := 0) (b := G.nz - 1) (by omega) (e .er i) (F .hphi i)
    rw [hw.r_left i hi.1 hi.2, hw.r_right i hi.1 hi.2, mul_zero, mul_zero, sub_zero] at this
    have e1 : ∀ x ∈ Ico (1:ℤ) (G.nz - 1), ringVol G ((i : ℝ) + 1 / 2) *
        (e .er i x * curlH G F .er i x) = -(ringVol G ((i : ℝ) + 1 / 2) / G.dz) *
          (e .er i x * (F .hphi i x - F .hphi i (x - 1))) := by
      intro x _; unfold curlH; ring
    have e2 : ∀ x ∈ Ico (0:ℤ) (G.nz - 1), ringVol G ((i : ℝ) + 1 / 2) *
        (F .hphi i x * -((e .er i (x + 1) - e .er i x) / G.dz)) =
          -(ringVol G ((i : ℝ) + 1 / 2) / G.dz) *
          (F .hphi i x * (e .er i (x + 1) - e .er i x)) := by
      intro x _; ring
    rw [sum_congr rfl e1, sum_congr rfl e2, ← mul_sum, ← mul_sum, ← mul_add, add_comm, zero_add] at *
    rw [this, mul_zero]
  -- E_z against H_phi
  have A2 : sumBox 1 (G.nr - 1) 0 (G.nz - 1) (fun i k => ringVol G (i : ℝ) *
        (e .ez i k * curlH G F .ez i k)) +
      (∑ k ∈ Ico 0 ((G.nz : ℤ) - 1), axisVol G * (e .ez 0 k * curlH G F .ez 0 k)) +
      sumBox 0 (G.nr - 1) 0 (G.nz - 1) (fun i k => ringVol G ((i : ℝ) + 1 / 2) *
        (F .hphi i k * ((e .ez (i + 1) k - e .ez i k) / G.dr))) = 0 := by
    rw [sumBox_swap, sumBox_swap, ← sum_add_distrib, ← sum_add_distrib]
    apply sum_eq_zero
    intro k hk
    rw [mem_Ico] at hk
    have := abelZ (a := 0) (b := G.nr - 1) (by omega) (fun i => e .ez i k)
      (fun i => ((i : ℝ) + 1 / 2) * F .hphi i k)
    rw [hw.z_outer k hk.1 hk.2, mul_zero, zero_sub] at this
    have e1 : ∀ x ∈ Ico (1:ℤ) (G.nr - 1), ringVol G (x : ℝ) * (e .ez x k * curlH G F .ez x k) =
        (2 * PI * G.dr * G.dz) * (e .ez x k * (((x : ℝ) + 1 / 2) * F .hphi x k
          - (((x - 1 : ℤ) : ℝ) + 1 / 2) * F .hphi (x - 1) k)) := by
      intro x hx
      rw [mem_Ico] at hx
      have hx0 : (x : ℝ) ≠ 0 := by
        have : (1:ℝ) ≤ (x:ℝ) := by exact_mod_cast hx.1
        linarith
      unfold curlH ringVol
      simp only
      rw [if_neg (by omega)]
      push_cast
      field_simp
      ring
    have e2 : ∀ x ∈ Ico (0:ℤ) (G.nr - 1), ringVol G ((x : ℝ) + 1 / 2) *
        (F .hphi x k * ((e .ez (x + 1) k - e .ez x k) / G.dr)) =
        (2 * PI * G.dr * G.dz) * (((x : ℝ) + 1 / 2) * F .hphi x k * (e .ez (x + 1) k - e .ez x k)) := by
      intro x _; unfold ringVol; field_simp
    have e3 : axisVol G * (e .ez 0 k * curlH G F .ez 0 k) =
        (2 * PI * G.dr * G.dz) * (1 / 2 * F .hphi 0 k * e .ez 0 k) := by
      unfold curlH axisVol; simp only [if_true]; field_simp; ring
    rw [sum_congr rfl e1, sum_congr rfl e2, e3, ← mul_sum, ← mul_sum, ← mul_add, ← mul_add]
    apply mul_eq_zero_of_right
    simp only [Int.cast_zero, zero_add] at this
    linear_combination this
  -- E_phi against H_z
  have A3 : sumBox 1 (G.nr - 1) 1 (G.nz - 1) (fun i k => ringVol G (i : ℝ) *
        (e .ephi i k * -((F .hz i k - F .hz (i - 1) k) / G.dr))) +
      sumBox 0 (G.nr - 1) 0 (G.nz - 1) (fun i k => ringVol G ((i : ℝ) + 1 / 2) *
        (F .hz i k * curlE G e .hz i k)) = 0 := by
    have hext : sumBox 1 (G.nr - 1) 1 (G.nz - 1) (fun i k => ringVol G (i : ℝ) *
        (e .ephi i k * -((F .hz i k - F .hz (i - 1) k) / G.dr))) =
        sumBox 1 (G.nr - 1) 0 (G.nz - 1) (fun i k => ringVol G (i : ℝ) *
        (e .ephi i k * -((F .hz i k - F .hz (i - 1) k) / G.dr))) := by
      apply sum_congr rfl
      intro i hi
      rw [mem_Ico] at hi
      rw [sum_Ico_headZ (a := 0) (by omega)]
      beta_reduce
      rw [hw.phi_left i (by omega) (by omega)]
      simp
    rw [hext, sumBox_swap, sumBox_swap, ← sum_add_distrib]
    apply sum_eq_zero
    intro k hk
    rw [mem_Ico] at hk
    have := abelZ (a := 0) (b := G.nr - 1) (by omega) (fun i => (i : ℝ) * e .ephi i k)
      (fun i => F .hz i k)
    rw [hw.phi_outer k (by omega) (by omega), mul_zero, mul_zero, Int.cast_zero, zero_mul,
      mul_zero, sub_zero] at this
    have e1 : ∀ x ∈ Ico (1:ℤ) (G.nr - 1), ringVol G (x : ℝ) *
        (e .ephi x k * -((F .hz x k - F .hz (x - 1) k) / G.dr)) =
        -(2 * PI * G.dr * G.dz) * ((x : ℝ) * e .ephi x k * (F .hz x k - F .hz (x - 1) k)) := by
      intro x _; unfold ringVol; field_simp
    have e2 : ∀ x ∈ Ico (0:ℤ) (G.nr - 1), ringVol G ((x : ℝ) + 1 / 2) *
        (F .hz x k * curlE G e .hz x k) =
        -(2 * PI * G.dr * G.dz) * (F .hz x k * (((x + 1 : ℤ) : ℝ) * e .ephi (x + 1) k
          - (x : ℝ) * e .ephi x k)) := by
      intro x hx
      rw [mem_Ico] at hx
      have hx0 : (x : ℝ) + 1 / 2 ≠ 0 := by
        have : (0:ℝ) ≤ (x:ℝ) := by exact_mod_cast hx.1
        linarith
      have hx1 : 2 * (x : ℝ) + 1 ≠ 0 := fun h => hx0 (by linarith)
      unfold ringVol curlE
      simp only
      push_cast
      field_simp
      ring
    rw [sum_congr rfl e1, sum_congr rfl e2, ← mul_sum, ← mul_sum, ← mul_add]
    apply mul_eq_zero_of_right
    rw [add_comm]; exact this
  -- E_phi against H_r
  have A4 : sumBox 1 (G.nr - 1) 1 (G.nz - 1) (fun i k => ringVol G (i : ℝ) *
        (e .ephi i k * ((F .hr i k - F .hr i (k - 1)) / G.dz))) +
      sumBox 0 G.nr 0 (G.nz - 1) (fun i k => ringVol G (i : ℝ) *
        (F .hr i k * curlE G e .hr i k)) = 0 := by
    have hext : sumBox 1 (G.nr - 1) 1 (G.nz - 1) (fun i k => ringVol G (i : ℝ) *
        (e .ephi i k * ((F .hr i k - F .hr i (k - 1)) / G.dz))) =
        sumBox 0 G.nr 1 (G.nz - 1) (fun i k => ringVol G (i : ℝ) *
        (e .ephi i k * ((F .hr i k - F .hr i (k - 1)) / G.dz))) := by
      unfold sumBox
      rw [sum_Ico_headZ (a := 0) (b := G.nr) (by omega)]
      have : ((G.nr : ℤ)) = (G.nr - 1) + 1 := by ring
      conv_rhs => rw [this]
      rw [sum_Ico_succZ (by omega)]
      have z1 : ∑ k ∈ Ico (1:ℤ) (G.nz - 1), ringVol G (((0:ℤ)) : ℝ) *
          (e .ephi 0 k * ((F .hr 0 k - F .hr 0 (k - 1)) / G.dz)) = 0 := by
        apply sum_eq_zero; intro k _; unfold ringVol; push_cast; ring
      have z2 : ∑ k ∈ Ico (1:ℤ) (G.nz - 1), ringVol G (((G.nr - 1 : ℤ)) : ℝ) *
          (e .ephi (G.nr - 1) k * ((F .hr (G.nr - 1) k - F .hr (G.nr - 1) (k - 1)) / G.dz)) = 0 := by
        apply sum_eq_zero; intro k hk
        rw [mem_Ico] at hk
        rw [hw.phi_outer k (by omega) (by omega)]; ring
      rw [z1, z2, zero_add, add_zero]
      rfl
    rw [hext]
    unfold sumBox
    rw [← sum_add_distrib]
    apply sum_eq_zero
    intro i hi
    rw [mem_Ico] at hi
    have := abelZ (a := 0) (b := G.nz - 1) (by omega) (e .ephi i) (F .hr i)
    rw [hw.phi_left i hi.1 hi.2, hw.phi_right i hi.1 hi.2, mul_zero, mul_zero, sub_zero] at this
    have e1 : ∀ x ∈ Ico (1:ℤ) (G.nz - 1), ringVol G (i : ℝ) *
        (e .ephi i x * ((F .hr i x - F .hr i (x - 1)) / G.dz)) = (ringVol G (i : ℝ) / G.dz) *
          (e .ephi i x * (F .hr i x - F .hr i (x - 1))) := by
      intro x _; ring
    have e2 : ∀ x ∈ Ico (0:ℤ) (G.nz - 1), ringVol G (i : ℝ) *
        (F .hr i x * curlE G e .hr i x) = (ringVol G (i : ℝ) / G.dz) *
          (F .hr i x * (e .ephi i (x + 1) - e .ephi i x)) := by
      intro x _; unfold curlE; ring
    rw [sum_congr rfl e1, sum_congr rfl e2, ← mul_sum, ← mul_sum, ← mul_add, add_comm]
    apply mul_eq_zero_of_right
    exact this
  -- assemble
  have s1 : sumBox 1 (G.nr - 1) 1 (G.nz - 1) (fun i k => ringVol G (i : ℝ) *
      (e .ephi i k * curlH G F .ephi i k)) =
      sumBox 1 (G.nr - 1) 1 (G.nz - 1) (fun i k => ringVol G (i : ℝ) *
        (e .ephi i k * -((F .hz i k - F .hz (i - 1) k) / G.dr))) +
      sumBox 1 (G.nr - 1) 1 (G.nz - 1) (fun i k => ringVol G (i : ℝ) *
        (e .ephi i k * ((F .hr i k - F .hr i (k - 1)) / G.dz))) := by
    rw [sumBox_add]; apply sumBox_congr; intro i k _; unfold curlH; ring
  have s2 : sumBox 0 (G.nr - 1) 0 (G.nz - 1) (fun i k => ringVol G ((i : ℝ) + 1 / 2) *
      (F .hphi i k * curlE G e .hphi i k)) =
      sumBox 0 (G.nr - 1) 0 (G.nz - 1) (fun i k => ringVol G ((i : ℝ) + 1 / 2) *
        (F .hphi i k * -((e .er i (k + 1) - e .er i k) / G.dz))) +
      sumBox 0 (G.nr - 1) 0 (G.nz - 1) (fun i k => ringVol G ((i : ℝ) + 1 / 2) *
        (F .hphi i k * ((e .ez (i + 1) k - e .ez i k) / G.dr))) := by
    rw [sumBox_add]; apply sumBox_congr; intro i k _; unfold curlE; ring
  unfold sumE sumH
  simp only
  rw [s1, s2]
  linear_combination A1 + A2 + A3 + A4

/-! ## Balance -/

/-- `(a,i,k)` is an updated node of the electric field -/
def ENode (G : Geom) : Arr → ℤ → ℤ → Prop
  | .er, i, k => Box 0 (G.nr - 1) 1 (G.nz - 1) i k
  | .ephi, i, k => Box 1 (G.nr - 1) 1 (G.nz - 1) i k
  | .ez, i, k => Box 0 (G.nr - 1) 0 (G.nz - 1) i k
  | _, _, _ => False

/-- `(a,i,k)` is an updated node of the magnetic field -/
def HNode (G : Geom) : Arr → ℤ → ℤ → Prop
  | .hr, i, k => Box 0 G.nr 0 (G.nz - 1) i k
  | .hphi, i, k => Box 0 (G.nr - 1) 0 (G.nz - 1) i k
  | .hz, i, k => Box 0 (G.nr - 1) 0 (G.nz - 1) i k
  | _, _, _ => False

theorem sumE_congr {G : Geom} (hG : G.Valid) {f g : Arr → ℤ → ℤ → ℝ}
    (h : ∀ a i k, ENode G a i k → f a i k = g a i k) : sumE G f = sumE G g := by
  have n1 := hG.nr_ge
  unfold sumE
  congr 1
  · congr 1
    · congr 1
      · apply sumBox_congr; intro i k hb; rw [h .er i k hb]
      · apply sumBox_congr; intro i k hb; rw [h .ephi i k hb]
    · apply sumBox_congr; intro i k hb
      rw [h .ez i k (by simp only [ENode, Box] at *; omega)]
  · apply sum_congr rfl; intro k hk
    rw [mem_Ico] at hk
    rw [h .ez 0 k (by simp only [ENode, Box]; omega)]

theorem sumH_congr {G : Geom} {f g : Arr → ℤ → ℤ → ℝ}
    (h : ∀ a i k, HNode G a i k → f a i k = g a i k) : sumH G f = sumH G g := by
  unfold sumH
  congr 1
  · congr 1
    · apply sumBox_congr; intro i k hb; rw [h .hr i k hb]
    · apply sumBox_congr; intro i k hb; rw [h .hphi i k hb]
  · apply sumBox_congr; intro i k hb; rw [h .hz i k hb]

theorem sumE_lin (G : Geom) (x : ℝ) (f g : Arr → ℤ → ℤ → ℝ) :
    sumE G (fun a i k => x * f a i k + g a i k) = x * sumE G f + sumE G g := by
  unfold sumE sumBox
  simp only [mul_add, sum_add_distrib, mul_sum, mul_left_comm x]
  ring

theorem sumH_lin (G : Geom) (x : ℝ) (f g : Arr → ℤ → ℤ → ℝ) :
    sumH G (fun a i k => x * f a i k + g a i k) = x * sumH G f + sumH G g := by
  unfold sumH sumBox
  simp only [mul_add, sum_add_distrib, mul_sum, mul_left_comm x]
  ring

theorem sumE_nonneg {G : Geom} (hG : G.Valid) {f : Arr → ℤ → ℤ → ℝ}
    (h : ∀ a i k, ENode G a i k → 0 ≤ f a i k) : 0 ≤ sumE G f := by
  have n1 := hG.nr_ge
  have dr := hG.dr_pos
  have dz := hG.dz_pos
  have hp := PI_pos
  have rv : ∀ x : ℝ, 0 ≤ x → 0 ≤ ringVol G x := by intro x hx; unfold ringVol; positivity
  have cast : ∀ i : ℤ, 0 ≤ i → (0:ℝ) ≤ (i:ℝ) := fun i hi => by exact_mod_cast hi
  unfold sumE
  refine add_nonneg (add_nonneg (add_nonneg ?_ ?_) ?_) ?_
  · apply sumBox_nonneg; intro i k hb
    exact mul_nonneg (rv _ (by have := cast i hb.1; linarith)) (h .er i k hb)
  · apply sumBox_nonneg; intro i k hb
    exact mul_nonneg (rv _ (cast i (by simp only [Box] at hb; omega))) (h .ephi i k hb)
  · apply sumBox_nonneg; intro i k hb
    exact mul_nonneg (rv _ (cast i (by simp only [Box] at hb; omega)))
      (h .ez i k (by simp only [ENode, Box] at *; omega))
  · apply sum_nonneg; intro k hk
    rw [mem_Ico] at hk
    refine mul_nonneg ?_ (h .ez 0 k (by simp only [ENode, Box]; omega))
    unfold axisVol; positivity

/-- the current that drives a component of the electric field -/
def currentOf (F : Fields) : Arr → ℤ → ℤ → ℝ
  | .er => F .jr
  | .ephi => F .jphi
  | .ez => F .jz
  | _ => fun _ _ => 0

/-- the electric update in implicit form -/
theorem eStep_implicit {G : Geom} {dt : ℝ} (F : Fields) {a : Arr} {i k : ℤ}
    (hn : ENode G a i k) (hd : 2 * F .eps i k * EPSILON0 + F .sig i k * dt ≠ 0) :
    eStep G dt F a i k * (2 * F .eps i k * EPSILON0 + F .sig i k * dt) =
      F a i k * (2 * F .eps i k * EPSILON0 - F .sig i k * dt)
        - 2 * dt * (currentOf F a i k - curlH G F a i k) := by
  have kEd : kE dt F i k * (2 * F .eps i k * EPSILON0 + F .sig i k * dt) =
      2 * F .eps i k * EPSILON0 - F .sig i k * dt := by
    unfold kE koefE; exact div_mul_cancel₀ _ hd
  have kHd : kH dt F i k * (2 * F .eps i k * EPSILON0 + F .sig i k * dt) = 2 * dt := by
    unfold kH koefH; exact div_mul_cancel₀ _ hd
  generalize 2 * F .eps i k * EPSILON0 + F .sig i k * dt = d at *
  cases a <;> simp only [ENode] at hn
  · have : eStep G dt F .er i k = newEr G dt F i k := by simp only [eStep]; rw [if_pos hn]
    rw [this]; unfold newEr currentOf curlH
    linear_combination F .er i k * kEd - (F .jr i k + (F .hphi i k - F .hphi i (k - 1)) / G.dz) * kHd
  · have : eStep G dt F .ephi i k = newEphi G dt F i k := by simp only [eStep]; rw [if_pos hn]
    rw [this]; unfold newEphi currentOf curlH
    linear_combination F .ephi i k * kEd - (F .jphi i k - (F .hr i k - F .hr i (k - 1)) / G.dz
      + (F .hz i k - F .hz (i - 1) k) / G.dr) * kHd
  · by_cases hi : i = 0
    · subst hi
      have : eStep G dt F .ez 0 k = newEz0 G dt F 0 k := by
        simp only [eStep]; rw [if_pos (by simp only [Box] at *; omega)]
      rw [this]; unfold newEz0 currentOf curlH
      simp only [if_true]
      linear_combination F .ez 0 k * kEd - (F .jz 0 k - 4 / G.dr * F .hphi 0 k) * kHd
    · have : eStep G dt F .ez i k = newEz G dt F i k := by
        simp only [eStep]
        rw [if_neg (by simp only [Box] at *; omega), if_pos (by simp only [Box] at *; omega)]
      rw [this]; unfold newEz currentOf curlH
      simp only [if_neg hi]
      linear_combination F .ez i k * kEd - (F .jz i k - (F .hphi i k - F .hphi (i - 1) k) / G.dr
        - (F .hphi i k + F .hphi (i - 1) k) / (2 * G.dr * (i : ℝ))) * kHd

/-- the magnetic update in terms of the curl -/
theorem hStep_curl {G : Geom} {dt : ℝ} (F : Fields) {a : Arr} {i k : ℤ} (hn : HNode G a i k) :
    hStep G dt F a i k = F a i k + dt / MAGN_CONST * curlE G F a i k := by
  have e5 : (0.5 : ℝ) = 1 / 2 := by norm_num
  have := MAGN_CONST_pos
  cases a <;> simp only [HNode] at hn
  · simp only [hStep]; rw [if_pos hn]; unfold alphaR curlE
    simp only [div_eq_mul_inv, mul_inv]; ring
  · simp only [hStep]; rw [if_pos hn]; unfold alphaPhi curlE; ring
  · simp only [hStep]; rw [if_pos hn]; unfold alphaZ curlE; rw [e5]; ring

/-- Poynting balance of one step: the change of the field energy is minus the work done on the
currents and minus the Ohmic loss. -/
theorem energy_balance {G : Geom} (hG : G.Valid) {dt : ℝ} (F : Fields) (jr jphi jz : Grid)
    (hw : WallE G F)
    (hd : ∀ i k, Box 0 G.nr 0 G.nz i k → 2 * F .eps i k * EPSILON0 + F .sig i k * dt ≠ 0) :
    let F2 := fStep G dt jr jphi jz F
    energy G F2 (hStep G dt F2) = energy G F (hStep G dt F)
      - sumE G (fun a i k => dt * currentOf F2 a i k * ((F a i k + F2 a i k) / 2)
        + dt * F .sig i k * ((F a i k + F2 a i k) / 2) ^ 2) := by
  intro F2
  have n1 := hG.nr_ge
  have n2 := hG.nz_ge
  have hm := MAGN_CONST_pos
  set F1 := withJ (hStep G dt F) jr jphi jz with hF1
  have hF2 : F2 = eStep G dt F1 := rfl
  -- facts
  have fe : ∀ a i k, ENode G a i k → F1 a i k = F a i k := by
    intro a i k hn; cases a <;> simp only [ENode] at hn <;> rfl
  have fh : ∀ a i k, HNode G a i k → F2 a i k = F1 a i k := by
    intro a i k hn; cases a <;> simp only [HNode] at hn <;> rfl
  have fh1 : ∀ a i k, HNode G a i k → F1 a i k = hStep G dt F a i k := by
    intro a i k hn; cases a <;> simp only [HNode] at hn <;> rfl
  have fj : ∀ a i k, currentOf F2 a i k = currentOf F1 a i k := by
    intro a i k; cases a <;> rfl
  have fbox : ∀ a i k, ENode G a i k → Box 0 G.nr 0 G.nz i k := by
    intro a i k hn; cases a <;> simp only [ENode, Box] at * <;> omega
  -- the doubled mid-step electric field
  let e : Fields := fun a i k => F a i k + F2 a i k
  have hwe : WallE G e := by
    have w2 : WallE G F2 := hw.fStep hG dt jr jphi jz
    constructor
    · intro k p q; simp only [e, hw.1 k p q, w2.1 k p q, add_zero]
    · intro k p q; simp only [e, hw.2 k p q, w2.2 k p q, add_zero]
    · intro k p q; simp only [e, hw.3 k p q, w2.3 k p q, add_zero]
    · intro k p q; simp only [e, hw.4 k p q, w2.4 k p q, add_zero]
    · intro k p q; simp only [e, hw.5 k p q, w2.5 k p q, add_zero]
    · intro k p q; simp only [e, hw.6 k p q, w2.6 k p q, add_zero]
    · intro k p q; simp only [e, hw.7 k p q, w2.7 k p q, add_zero]
  have adj := adjoint hG F1 e hwe
  -- electric part
  have PE : sumE G (fun a i k => F2 .eps i k * EPSILON0 * F2 a i k ^ 2 / 2) =
      dt / 2 * sumE G (fun a i k => e a i k * curlH G F1 a i k) +
      ((-1) * sumE G (fun a i k => dt * currentOf F2 a i k * ((F a i k + F2 a i k) / 2)
        + dt * F .sig i k * ((F a i k + F2 a i k) / 2) ^ 2) +
      sumE G (fun a i k => F .eps i k * EPSILON0 * F a i k ^ 2 / 2)) := by
    rw [← sumE_lin, ← sumE_lin]
    apply sumE_congr hG
    intro a i k hn
    have h1 := eStep_implicit (G := G) (dt := dt) F1 hn (hd i k (fbox a i k hn))
    rw [← hF2, fe a i k hn] at h1
    have heps : F2 .eps i k = F .eps i k := rfl
    have heps1 : F1 .eps i k = F .eps i k := rfl
    have hsig1 : F1 .sig i k = F .sig i k := rfl
    rw [heps1, hsig1] at h1
    rw [heps, fj a i k]
    simp only [e]
    linear_combination (F a i k + F2 a i k) / 4 * h1
  -- magnetic part
  have PH : sumH G (fun a i k => MAGN_CONST * F2 a i k * hStep G dt F2 a i k / 2) =
      dt / 2 * sumH G (fun a i k => F1 a i k * curlE G e a i k) +
      sumH G (fun a i k => MAGN_CONST * F a i k * hStep G dt F a i k / 2) := by
    rw [← sumH_lin]
    apply sumH_congr
    intro a i k hn
    have h2 := hStep_curl (G := G) (dt := dt) F2 hn
    have h0 := hStep_curl (G := G) (dt := dt) F hn
    have hc : curlE G e a i k = curlE G F a i k + curlE G F2 a i k := by
      cases a <;> simp only [curlE, e] <;> ring
    rw [h2, fh a i k hn, hc]
    rw [← fh1 a i k hn] at h0 ⊢
    have h0' : F a i k = F1 a i k - dt / MAGN_CONST * curlE G F a i k := by linarith
    rw [h0']
    field_simp
    ring
  unfold energy
  rw [PE, PH]
  linear_combination dt / 2 * adj

end Verif
