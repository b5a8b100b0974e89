import Verif.Converge

/-!
# Convergence of the field solver (C96)

Specification: `Wave.Solves` (a smooth solution of Maxwell's equations in the cylinder), `Wave.at` (its value at a
node), `errorE` and `errorH` (the integral of the square of the error over the cylinder).
-/

namespace Verif

open Finset

/-! ## Specification -/

/-- square of the error of the electric field at time `t`, summed over the cylinder -/
noncomputable def errorE (G : Geom) (W : Wave) (t : ℝ) (m : Mem Loc) : ℝ :=
  sumE G (fun a i k => (fieldsOf m a i k - W.at G t a i k) ^ 2)

/-- square of the error of the magnetic field at time `t`, summed over the cylinder -/
noncomputable def errorH (G : Geom) (W : Wave) (t : ℝ) (m : Mem Loc) : ℝ :=
  sumH G (fun a i k => (fieldsOf m a i k - W.at G t a i k) ^ 2)

/-- The arrays hold the solution at the start up to `ζ`: `E` at time `0`, `H` half a step earlier; `E` meets the
wall conditions. -/
def StartsFrom (G : Geom) (dt : ℝ) (W : Wave) (ζ : ℝ) (m : Mem Loc) : Prop :=
  (∀ a i k, ENode G a i k → |fieldsOf m a i k - W.at G 0 a i k| ≤ ζ) ∧
  (∀ a i k, HNode G a i k → |fieldsOf m a i k - W.at G (-(dt / 2)) a i k| ≤ ζ) ∧
  WallE G (fieldsOf m)

/-- The tables of the medium hold the permittivity (at least `e`) and the conductivity (not negative) up to `η`, at
the nodes of each component of the electric field. -/
def MediumWithin (G : Geom) (W : Wave) (e η : ℝ) (m : Mem Loc) : Prop :=
  (∀ i k, Box 0 G.nr 0 G.nz i k → e ≤ fieldsOf m .eps i k ∧ 0 ≤ fieldsOf m .sig i k) ∧
  ∀ a i k, ENode G a i k → |fieldsOf m .eps i k - W.eps (arrR G a i) (arrZ G a k)| ≤ η ∧
    |fieldsOf m .sig i k - W.sig (arrR G a i) (arrZ G a k)| ≤ η

/-- The deposits of step `j` are the currents of the solution in the middle of the step, up to `δ`. -/
def CurrentsWithin (G : Geom) (dt : ℝ) (W : Wave) (δ : ℝ) (j : ℕ) (calls : List JCall) : Prop :=
  ∀ a i k, ENode G a i k → |callSum calls (jOf a) i k - W.at G (((j : ℝ) + 1 / 2) * dt) (jOf a) i k| ≤ δ

/-! ## Helpers -/

/-- total weight of the nodes -/
theorem sumE_one_le {G : Geom} {R Z : ℝ} (hF : GridOf G R Z) : sumE G (fun _ _ _ => 1) ≤ 16 * PI * R ^ 2 * Z := by
  have hG := hF.valid
  have n1 := hG.nr_ge
  have n2 := hG.nz_ge
  have dr := hG.dr_pos
  have dz := hG.dz_pos
  have hp := PI_pos
  have r2 : (2:ℝ) ≤ G.nr := by exact_mod_cast n1
  have z2 : (2:ℝ) ≤ G.nz := by exact_mod_cast n2
  have eR : R = ((G.nr : ℝ) - 1) * G.dr := by rw [← hF.r_size, hG.r_size_eq]; ring
  have eZ : Z = ((G.nz : ℝ) - 1) * G.dz := by rw [← hF.z_size, hG.z_size_eq]; ring
  have hR : G.dr ≤ R := by rw [eR]; nlinarith
  have hZ : 0 ≤ Z := by rw [eZ]; exact mul_nonneg (by linarith) dz.le
  have ring_le : ∀ x : ℝ, x ≤ (G.nr : ℝ) - 1 → ringVol G x ≤ 2 * PI * R * G.dr * G.dz := by
    intro x hx
    unfold ringVol
    have := hF.r_le hx
    gcongr
  have box : ∀ (a c : ℤ) (v : ℤ → ℝ), 0 ≤ a → a ≤ (G.nr : ℤ) - 1 → 0 ≤ c → c ≤ (G.nz : ℤ) - 1 →
      (∀ i : ℤ, i < (G.nr : ℤ) - 1 → v i ≤ (G.nr : ℝ) - 1) →
      sumBox a (G.nr - 1) c (G.nz - 1) (fun i _ => ringVol G (v i) * 1) ≤ 2 * PI * R ^ 2 * Z := by
    intro a c v ha ha' hc hc' hv
    have c1 : (((G.nr : ℤ) - 1 - a).toNat : ℝ) ≤ (G.nr : ℝ) - 1 := by
      have : ((((G.nr : ℤ) - 1 - a).toNat : ℤ) : ℝ) ≤ (((G.nr : ℤ) - 1 : ℤ) : ℝ) := by
        rw [Int.cast_le]; omega
      push_cast at this; exact_mod_cast this
    have c2 : (((G.nz : ℤ) - 1 - c).toNat : ℝ) ≤ (G.nz : ℝ) - 1 := by
      have : ((((G.nz : ℤ) - 1 - c).toNat : ℤ) : ℝ) ≤ (((G.nz : ℤ) - 1 : ℤ) : ℝ) := by
        rw [Int.cast_le]; omega
      push_cast at this; exact_mod_cast this
    calc sumBox a (G.nr - 1) c (G.nz - 1) (fun i _ => ringVol G (v i) * 1)
        ≤ sumBox a (G.nr - 1) c (G.nz - 1) (fun _ _ => 2 * PI * R * G.dr * G.dz) := by
          apply sumBox_le
          intro i k hb
          rw [mul_one]; exact ring_le _ (hv i (by simp only [Box] at hb; omega))
      _ = (((G.nr : ℤ) - 1 - a).toNat : ℝ) * ((((G.nz : ℤ) - 1 - c).toNat : ℝ) * (2 * PI * R * G.dr * G.dz)) := by
          simp [sumBox]
      _ ≤ ((G.nr : ℝ) - 1) * (((G.nz : ℝ) - 1) * (2 * PI * R * G.dr * G.dz)) := by
          have : 0 ≤ R := by linarith
          gcongr
          linarith
      _ = 2 * PI * R ^ 2 * Z := by
          have : R ^ 2 = R * (((G.nr : ℝ) - 1) * G.dr) := by rw [← eR]; ring
          rw [this, eZ]; ring
  have b1 := box 0 1 (fun i => (i:ℝ) + 1 / 2) (by omega) (by omega) (by omega) (by omega)
    (fun i hi => by have := cast_lt_nat hi; linarith)
  have b2 := box 1 1 (fun i => (i:ℝ)) (by omega) (by omega) (by omega) (by omega)
    (fun i hi => by have := cast_lt_nat hi; linarith)
  have b3 := box 1 0 (fun i => (i:ℝ)) (by omega) (by omega) (by omega) (by omega)
    (fun i hi => by have := cast_lt_nat hi; linarith)
  have b4 : ∑ _k ∈ Ico 0 ((G.nz : ℤ) - 1), axisVol G * 1 ≤ PI * R ^ 2 * Z := by
    have c2 : (((G.nz : ℤ) - 1).toNat : ℝ) = (G.nz : ℝ) - 1 := by
      have : ((((G.nz : ℤ) - 1).toNat : ℤ) : ℝ) = (((G.nz : ℤ) - 1 : ℤ) : ℝ) := by
        rw [Int.toNat_of_nonneg (by omega)]
      push_cast at this; exact_mod_cast this
    rw [sum_const, Int.card_Ico, sub_zero, nsmul_eq_mul, c2, mul_one]
    unfold axisVol
    have : G.dr / 2 * (G.dr / 2) ≤ R ^ 2 := by nlinarith
    calc ((G.nz : ℝ) - 1) * (PI * (G.dr / 2) * (G.dr / 2) * G.dz)
        = PI * (G.dr / 2 * (G.dr / 2)) * (((G.nz : ℝ) - 1) * G.dz) := by ring
      _ ≤ PI * R ^ 2 * (((G.nz : ℝ) - 1) * G.dz) := by
          rw [← eZ]; gcongr
      _ = _ := by rw [← eZ]
  unfold sumE
  have : 0 ≤ PI * R ^ 2 * Z := by positivity
  linarith

theorem sumH_one_le {G : Geom} {R Z : ℝ} (hF : GridOf G R Z) : sumH G (fun _ _ _ => 1) ≤ 16 * PI * R ^ 2 * Z := by
  have hG := hF.valid
  have n1 := hG.nr_ge
  have n2 := hG.nz_ge
  have dr := hG.dr_pos
  have dz := hG.dz_pos
  have hp := PI_pos
  have r2 : (2:ℝ) ≤ G.nr := by exact_mod_cast n1
  have z2 : (2:ℝ) ≤ G.nz := by exact_mod_cast n2
  have eR : R = ((G.nr : ℝ) - 1) * G.dr := by rw [← hF.r_size, hG.r_size_eq]; ring
  have eZ : Z = ((G.nz : ℝ) - 1) * G.dz := by rw [← hF.z_size, hG.z_size_eq]; ring
  have hR : G.dr ≤ R := by rw [eR]; nlinarith
  have hZ : 0 ≤ Z := by rw [eZ]; exact mul_nonneg (by linarith) dz.le
  have ring_le : ∀ x : ℝ, x ≤ (G.nr : ℝ) - 1 → ringVol G x ≤ 2 * PI * R * G.dr * G.dz := by
    intro x hx
    unfold ringVol
    have := hF.r_le hx
    gcongr
  have c2 : (((G.nz : ℤ) - 1).toNat : ℝ) = (G.nz : ℝ) - 1 := by
    have : ((((G.nz : ℤ) - 1).toNat : ℤ) : ℝ) = (((G.nz : ℤ) - 1 : ℤ) : ℝ) := by
      rw [Int.toNat_of_nonneg (by omega)]
    push_cast at this; exact_mod_cast this
  have box : ∀ (b : ℤ) (v : ℤ → ℝ), 0 ≤ b → b ≤ G.nr →
      (∀ i : ℤ, i < b → v i ≤ (G.nr : ℝ) - 1) →
      sumBox 0 b 0 (G.nz - 1) (fun i _ => ringVol G (v i) * 1) ≤ 4 * PI * R ^ 2 * Z := by
    intro b v hb hb' hv
    have c1 : (b.toNat : ℝ) ≤ 2 * ((G.nr : ℝ) - 1) := by
      have : ((b.toNat : ℤ) : ℝ) ≤ ((2 * ((G.nr : ℤ) - 1) : ℤ) : ℝ) := by
        rw [Int.cast_le]; omega
      rw [Int.cast_natCast] at this
      push_cast at this; exact this
    calc sumBox 0 b 0 (G.nz - 1) (fun i _ => ringVol G (v i) * 1)
        ≤ sumBox 0 b 0 (G.nz - 1) (fun _ _ => 2 * PI * R * G.dr * G.dz) := by
          apply sumBox_le
          intro i k hb
          rw [mul_one]; exact ring_le _ (hv i (by simp only [Box] at hb; omega))
      _ = (b.toNat : ℝ) * ((((G.nz : ℤ) - 1).toNat : ℝ) * (2 * PI * R * G.dr * G.dz)) := by
          simp [sumBox]
      _ ≤ (2 * ((G.nr : ℝ) - 1)) * (((G.nz : ℝ) - 1) * (2 * PI * R * G.dr * G.dz)) := by
          have : 0 ≤ R := by linarith
          rw [c2]
          have : 0 ≤ (G.nz : ℝ) - 1 := by linarith
          gcongr
      _ = 4 * PI * R ^ 2 * Z := by
          have : R ^ 2 = R * (((G.nr : ℝ) - 1) * G.dr) := by rw [← eR]; ring
          rw [this, eZ]; ring
  have b1 := box G.nr (fun i => (i:ℝ)) (by omega) (by omega) (fun i hi => cast_le_nat hi)
  have b2 := box (G.nr - 1) (fun i => (i:ℝ) + 1 / 2) (by omega) (by omega)
    (fun i hi => by have := cast_lt_nat hi; linarith)
  unfold sumH
  have : 0 ≤ PI * R ^ 2 * Z := by positivity
  linarith

/-- the solution as the arrays hold it after the electric update of time `t` -/
noncomputable def Wave.state (W : Wave) (G : Geom) (dt t : ℝ) : Fields
  | .hr => W.at G (t - dt / 2) .hr
  | .hphi => W.at G (t - dt / 2) .hphi
  | .hz => W.at G (t - dt / 2) .hz
  | a => W.at G t a

theorem state_E {G : Geom} {a : Arr} {i k : ℤ} (h : ENode G a i k) (W : Wave) (dt t : ℝ) :
    W.state G dt t a i k = W.at G t a i k := by
  cases a <;> simp only [ENode] at h <;> rfl

theorem state_H {G : Geom} {a : Arr} {i k : ℤ} (h : HNode G a i k) (W : Wave) (dt t : ℝ) :
    W.state G dt t a i k = W.at G (t - dt / 2) a i k := by
  cases a <;> simp only [HNode] at h <;> rfl

theorem state_curlE (G : Geom) (W : Wave) (dt t : ℝ) : curlE G (W.state G dt t) = curlE G (W.at G t) := by
  funext a i k; cases a <;> rfl

theorem state_curlH (G : Geom) (W : Wave) (dt t : ℝ) :
    curlH G (W.state G dt t) = curlH G (W.at G (t - dt / 2)) := by
  funext a i k; cases a <;> rfl

theorem ENode.field {G : Geom} {a : Arr} {i k : ℤ} (h : ENode G a i k) : isField a := by
  cases a <;> simp only [ENode] at h <;> trivial

theorem HNode.field {G : Geom} {a : Arr} {i k : ℤ} (h : HNode G a i k) : isField a := by
  cases a <;> simp only [HNode] at h <;> trivial

theorem ENode.inside {G : Geom} {R Z : ℝ} (hF : GridOf G R Z) {a : Arr} {i k : ℤ} (h : ENode G a i k) :
    0 ≤ arrR G a i ∧ arrR G a i ≤ R ∧ 0 ≤ arrZ G a k ∧ arrZ G a k ≤ Z := by
  have dr := hF.valid.dr_pos
  have dz := hF.valid.dz_pos
  cases a <;> simp only [ENode, Box] at h <;> obtain ⟨i0, i1, k0, k1⟩ := h <;>
    simp only [arrR, arrZ] <;>
    have x1 := cast_lt_nat i1 <;> have z1 := cast_lt_nat k1 <;>
    have x0 : (0:ℝ) ≤ (i:ℝ) := (by have : 0 ≤ i := by omega
                                   exact_mod_cast this) <;>
    have z0 : (0:ℝ) ≤ (k:ℝ) := (by have : 0 ≤ k := by omega
                                   exact_mod_cast this) <;>
    exact ⟨by positivity, hF.r_le (by linarith), by positivity, hF.z_le (by linarith)⟩

theorem HNode.inside {G : Geom} {R Z : ℝ} (hF : GridOf G R Z) {a : Arr} {i k : ℤ} (h : HNode G a i k) :
    0 ≤ arrR G a i ∧ arrR G a i ≤ R ∧ 0 ≤ arrZ G a k ∧ arrZ G a k ≤ Z := by
  have dr := hF.valid.dr_pos
  have dz := hF.valid.dz_pos
  cases a <;> simp only [HNode, Box] at h <;> obtain ⟨i0, i1, k0, k1⟩ := h <;>
    simp only [arrR, arrZ] <;>
    have z1 := cast_lt_nat k1 <;>
    have x0 : (0:ℝ) ≤ (i:ℝ) := (by exact_mod_cast i0) <;>
    have z0 : (0:ℝ) ≤ (k:ℝ) := (by exact_mod_cast k0)
  · exact ⟨by positivity, hF.r_le (cast_le_nat i1), by positivity, hF.z_le (by linarith)⟩
  · have x1 := cast_lt_nat i1
    exact ⟨by positivity, hF.r_le (by linarith), by positivity, hF.z_le (by linarith)⟩
  · have x1 := cast_lt_nat i1
    exact ⟨by positivity, hF.r_le (by linarith), by positivity, hF.z_le (by linarith)⟩

/-- the solution meets the wall conditions of the grid -/
theorem state_wall {W : Wave} {T R Z : ℝ} (hS : W.Solves T R Z) {G : Geom} (hF : GridOf G R Z) (dt : ℝ) {t : ℝ}
    (ht : 0 ≤ t) (ht' : t ≤ T) : WallE G (W.state G dt t) := by
  have hG := hF.valid
  have dr := hG.dr_pos
  have dz := hG.dz_pos
  have eR : (((G.nr : ℤ) - 1 : ℤ) : ℝ) * G.dr = R := by
    rw [← hF.r_size, hG.r_size_eq]; push_cast; ring
  have eZ : (((G.nz : ℤ) - 1 : ℤ) : ℝ) * G.dz = Z := by
    rw [← hF.z_size, hG.z_size_eq]; push_cast; ring
  have cast : ∀ i : ℤ, 0 ≤ i → (0:ℝ) ≤ (i:ℝ) := fun i hi => by exact_mod_cast hi
  constructor
  · intro k k0 k1
    change W.f .ephi (t, ((0:ℤ):ℝ) * G.dr, (k:ℝ) * G.dz) = 0
    rw [Int.cast_zero, zero_mul]
    have := hS.odd_e t 0 ((k:ℝ) * G.dz)
    rw [neg_zero] at this
    linarith
  · intro k k0 k1
    change W.f .ephi (t, (((G.nr : ℤ) - 1 : ℤ) : ℝ) * G.dr, (k:ℝ) * G.dz) = 0
    rw [eR]
    exact hS.outer_phi t _ ht ht' (mul_nonneg (cast k k0) dz.le) (hF.z_le (cast_le_nat k1))
  · intro i i0 i1
    change W.f .ephi (t, (i:ℝ) * G.dr, ((0:ℤ):ℝ) * G.dz) = 0
    rw [Int.cast_zero, zero_mul]
    exact (hS.wall_phi t _ ht ht' (mul_nonneg (cast i i0) dr.le) (hF.r_le (cast_le_nat i1))).1
  · intro i i0 i1
    change W.f .ephi (t, (i:ℝ) * G.dr, (((G.nz : ℤ) - 1 : ℤ) : ℝ) * G.dz) = 0
    rw [eZ]
    exact (hS.wall_phi t _ ht ht' (mul_nonneg (cast i i0) dr.le) (hF.r_le (cast_le_nat i1))).2
  · intro i i0 i1
    change W.f .er (t, ((i:ℝ) + 1 / 2) * G.dr, ((0:ℤ):ℝ) * G.dz) = 0
    rw [Int.cast_zero, zero_mul]
    exact (hS.wall_r t _ ht ht' (mul_nonneg (by have := cast i i0; linarith) dr.le)
      (hF.r_le (by have := cast_lt_nat i1; linarith))).1
  · intro i i0 i1
    change W.f .er (t, ((i:ℝ) + 1 / 2) * G.dr, (((G.nz : ℤ) - 1 : ℤ) : ℝ) * G.dz) = 0
    rw [eZ]
    exact (hS.wall_r t _ ht ht' (mul_nonneg (by have := cast i i0; linarith) dr.le)
      (hF.r_le (by have := cast_lt_nat i1; linarith))).2
  · intro k k0 k1
    change W.f .ez (t, (((G.nr : ℤ) - 1 : ℤ) : ℝ) * G.dr, ((k:ℝ) + 1 / 2) * G.dz) = 0
    rw [eR]
    exact hS.outer_z t _ ht ht' (mul_nonneg (by have := cast k k0; linarith) dz.le)
      (hF.z_le (by have := cast_lt_nat k1; linarith))

/-- what the solution leaves over in the magnetic update -/
theorem faraday_residual {W : Wave} {T R Z M : ℝ} (hS : W.Solves T R Z) (hB : ∀ a, isField a → Bd (W.f a) M T R Z)
    (hM : 0 ≤ M) {G : Geom} (hF : GridOf G R Z) {t dt : ℝ} (hdt : 0 ≤ dt) (ht : 0 ≤ t) (ht' : t + dt ≤ T) {a : Arr}
    {i k : ℤ} (hn : HNode G a i k) :
    |W.state G dt (t + dt) a i k - W.state G dt t a i k - dt / MAGN_CONST * curlE G (W.state G dt t) a i k| ≤
      dt * (M * (1 + 2 / MAGN_CONST) * (dt ^ 2 + G.dr ^ 2 + G.dz ^ 2)) := by
  have hm := MAGN_CONST_pos
  obtain ⟨r0, r1, z0, z1⟩ := hn.inside hF
  rw [state_curlE, state_H hn, state_H hn]
  have c := curlE_close hS hB hM hF ht (by linarith : t ≤ T) hn
  have d := (hB a hn.field).cT (t := t) (r := arrR G a i) (z := arrZ G a k) (s := dt / 2) (by linarith) (by linarith)
    (by linarith) (by linarith) r1 z0 z1
  rw [show t + dt - dt / 2 = t + dt / 2 by ring]
  unfold Wave.at at *
  obtain ⟨D, hD⟩ : ∃ D, D = dT (W.f a) t (arrR G a i) (arrZ G a k) := ⟨_, rfl⟩
  obtain ⟨Cu, hCu⟩ : ∃ Cu, Cu = curlE G (fun a i k => W.f a (t, arrR G a i, arrZ G a k)) a i k := ⟨_, rfl⟩
  rw [← hD] at c d
  have c' : |Cu - MAGN_CONST * D| ≤ 2 * M * (G.dr ^ 2 + G.dz ^ 2) := by rw [hCu]; exact c
  have goal : |W.f a (t + dt / 2, arrR G a i, arrZ G a k) - W.f a (t - dt / 2, arrR G a i, arrZ G a k) -
      dt / MAGN_CONST * Cu| ≤ dt * (M * (1 + 2 / MAGN_CONST) * (dt ^ 2 + G.dr ^ 2 + G.dz ^ 2)) := by
    have e : W.f a (t + dt / 2, arrR G a i, arrZ G a k) - W.f a (t - dt / 2, arrR G a i, arrZ G a k) -
        dt / MAGN_CONST * Cu =
        (W.f a (t + dt / 2, arrR G a i, arrZ G a k) - W.f a (t - dt / 2, arrR G a i, arrZ G a k) -
          2 * (dt / 2) * D) - dt / MAGN_CONST * (Cu - MAGN_CONST * D) := by
      field_simp; ring
    rw [e]
    refine (abs_sub _ _).trans ?_
    rw [abs_mul, abs_of_nonneg (by positivity : 0 ≤ dt / MAGN_CONST)]
    have s1 : dt / MAGN_CONST * |Cu - MAGN_CONST * D| ≤ dt / MAGN_CONST * (2 * M * (G.dr ^ 2 + G.dz ^ 2)) :=
      mul_le_mul_of_nonneg_left c' (by positivity)
    have e2 : dt * (M * (1 + 2 / MAGN_CONST) * (dt ^ 2 + G.dr ^ 2 + G.dz ^ 2)) =
        dt * M * (dt ^ 2 + G.dr ^ 2 + G.dz ^ 2) + dt / MAGN_CONST * (2 * M * (G.dr ^ 2 + G.dz ^ 2)) +
        dt / MAGN_CONST * (2 * M * dt ^ 2) := by ring
    have p1 : 0 ≤ dt / MAGN_CONST * (2 * M * dt ^ 2) := by positivity
    have p2 : 0 ≤ dt * M * (G.dr ^ 2 + G.dz ^ 2) := by positivity
    have p3 : M / 3 * (dt / 2) ^ 3 ≤ dt * M * dt ^ 2 := by
      have : 0 ≤ M * dt ^ 3 := by positivity
      nlinarith
    rw [e2]
    linarith
  rw [hCu] at goal
  exact goal

/-- what the solution leaves over in the electric update -/
theorem ampere_residual {W : Wave} {T R Z M A : ℝ} (hS : W.Solves T R Z) (hB : ∀ a, isField a → Bd (W.f a) M T R Z)
    (hM : 0 ≤ M) (hA : ∀ r z, 0 ≤ r → r ≤ R → 0 ≤ z → z ≤ Z → |W.eps r z| ≤ A ∧ |W.sig r z| ≤ A)
    {G : Geom} (hF : GridOf G R Z) {t dt η : ℝ} (hdt : 0 ≤ dt) (hη : 0 ≤ η) (ht : 0 ≤ t) (ht' : t + dt ≤ T) {a : Arr}
    {i k : ℤ} (hn : ENode G a i k) {ep sg : ℝ} (h1 : |ep - W.eps (arrR G a i) (arrZ G a k)| ≤ η)
    (h2 : |sg - W.sig (arrR G a i) (arrZ G a k)| ≤ η) :
    |W.state G dt (t + dt) a i k * (2 * ep * EPSILON0 + sg * dt) -
      W.state G dt t a i k * (2 * ep * EPSILON0 - sg * dt) -
      2 * dt * (curlH G (W.state G dt (t + dt)) a i k - W.at G (t + dt / 2) (jOf a) i k)| ≤
      2 * dt * (M * (2 + A + A * EPSILON0 + EPSILON0) * (dt ^ 2 + G.dr ^ 2 + G.dz ^ 2 + η)) := by
  have h0 := EPSILON0_pos
  obtain ⟨r0, r1, z0, z1⟩ := hn.inside hF
  obtain ⟨A1, A2⟩ := hA _ _ r0 r1 z0 z1
  rw [state_curlH, state_E hn, state_E hn, show t + dt - dt / 2 = t + dt / 2 by ring]
  have c := curlH_close hS hB hM hF (t := t + dt / 2) (by linarith) (by linarith) hn
  have b := hB a hn.field
  have d := b.cT (t := t + dt / 2) (r := arrR G a i) (z := arrZ G a k) (s := dt / 2) (by linarith) (by linarith)
    (by linarith) (by linarith) r1 z0 z1
  have d2 := b.aT (t := t + dt / 2) (r := arrR G a i) (z := arrZ G a k) (s := dt / 2) (by linarith) (by linarith)
    (by linarith) (by linarith) r1 z0 z1
  have d3 := b.lT (t := t + dt / 2) (r := arrR G a i) (z := arrZ G a k) (s := dt / 2) (by linarith) (by linarith)
    (by linarith) (by linarith) r1 z0 z1
  have v1 := b.b0 (t + dt, arrR G a i, arrZ G a k) (by
    simp only [Set.mem_prod, Set.mem_Icc]; refine ⟨⟨?_, ?_⟩, ⟨?_, ?_⟩, ?_, ?_⟩ <;> linarith)
  have v2 := b.b0 (t, arrR G a i, arrZ G a k) (by
    simp only [Set.mem_prod, Set.mem_Icc]; refine ⟨⟨?_, ?_⟩, ⟨?_, ?_⟩, ?_, ?_⟩ <;> linarith)
  rw [show t + dt / 2 + dt / 2 = t + dt by ring, show t + dt / 2 - dt / 2 = t by ring] at d d2 d3
  obtain ⟨Cu, hCu⟩ : ∃ Cu, Cu = curlH G (W.at G (t + dt / 2)) a i k - W.at G (t + dt / 2) (jOf a) i k := ⟨_, rfl⟩
  rw [← hCu] at c ⊢
  unfold Wave.at at c ⊢
  obtain ⟨D, hD⟩ : ∃ D, D = dT (W.f a) (t + dt / 2) (arrR G a i) (arrZ G a k) := ⟨_, rfl⟩
  rw [← hD] at c d
  obtain ⟨e, he⟩ : ∃ e, e = W.eps (arrR G a i) (arrZ G a k) := ⟨_, rfl⟩
  obtain ⟨σ, hσ⟩ : ∃ σ, σ = W.sig (arrR G a i) (arrZ G a k) := ⟨_, rfl⟩
  rw [← he] at c h1 A1
  rw [← hσ] at c h2 A2
  obtain ⟨P, hP⟩ : ∃ P, P = W.f a (t + dt, arrR G a i, arrZ G a k) := ⟨_, rfl⟩
  obtain ⟨Q, hQ⟩ : ∃ Q, Q = W.f a (t, arrR G a i, arrZ G a k) := ⟨_, rfl⟩
  obtain ⟨U, hU⟩ : ∃ U, U = W.f a (t + dt / 2, arrR G a i, arrZ G a k) := ⟨_, rfl⟩
  rw [← hP] at d d2 d3 v1 ⊢
  rw [← hQ] at d d2 d3 v2 ⊢
  rw [← hU] at c d2
  have A0 : 0 ≤ A := (abs_nonneg _).trans A1
  have eq : P * (2 * ep * EPSILON0 + sg * dt) - Q * (2 * ep * EPSILON0 - sg * dt) - 2 * dt * Cu =
      2 * EPSILON0 * e * (P - Q - 2 * (dt / 2) * D) + 2 * EPSILON0 * (ep - e) * (P - Q) +
        dt * σ * (P + Q - 2 * U) + dt * (sg - σ) * (P + Q) -
        2 * dt * (Cu - (e * EPSILON0 * D + σ * U)) := by ring
  rw [eq]
  have t1 : |2 * EPSILON0 * e * (P - Q - 2 * (dt / 2) * D)| ≤ 2 * EPSILON0 * A * (M * dt ^ 3) := by
    rw [abs_mul, abs_mul, abs_of_pos (by positivity : 0 < 2 * EPSILON0)]
    have : M / 3 * (dt / 2) ^ 3 ≤ M * dt ^ 3 := by
      have : 0 ≤ M * dt ^ 3 := by positivity
      nlinarith
    have := d.trans this
    gcongr
  have t2 : |2 * EPSILON0 * (ep - e) * (P - Q)| ≤ 2 * EPSILON0 * η * (M * dt) := by
    rw [abs_mul, abs_mul, abs_of_pos (by positivity : 0 < 2 * EPSILON0)]
    have : |P - Q| ≤ M * dt := d3.trans (by linarith)
    gcongr
  have t3 : |dt * σ * (P + Q - 2 * U)| ≤ dt * A * (M * dt ^ 2) := by
    rw [abs_mul, abs_mul, abs_of_nonneg hdt]
    have : M * (dt / 2) ^ 2 ≤ M * dt ^ 2 := by
      have : 0 ≤ M * dt ^ 2 := by positivity
      nlinarith
    have := d2.trans this
    gcongr
  have t4 : |dt * (sg - σ) * (P + Q)| ≤ dt * η * (2 * M) := by
    rw [abs_mul, abs_mul, abs_of_nonneg hdt]
    have : |P + Q| ≤ 2 * M := (abs_add_le _ _).trans (by linarith)
    gcongr
  have t5 : |2 * dt * (Cu - (e * EPSILON0 * D + σ * U))| ≤ 2 * dt * (2 * M * (G.dr ^ 2 + G.dz ^ 2)) := by
    rw [abs_mul, abs_of_nonneg (by positivity : 0 ≤ 2 * dt)]
    gcongr
  have s1 := abs_sub (2 * EPSILON0 * e * (P - Q - 2 * (dt / 2) * D) + 2 * EPSILON0 * (ep - e) * (P - Q) +
        dt * σ * (P + Q - 2 * U) + dt * (sg - σ) * (P + Q)) (2 * dt * (Cu - (e * EPSILON0 * D + σ * U)))
  have s2 := abs_add_le (2 * EPSILON0 * e * (P - Q - 2 * (dt / 2) * D) + 2 * EPSILON0 * (ep - e) * (P - Q) +
        dt * σ * (P + Q - 2 * U)) (dt * (sg - σ) * (P + Q))
  have s3 := abs_add_le (2 * EPSILON0 * e * (P - Q - 2 * (dt / 2) * D) + 2 * EPSILON0 * (ep - e) * (P - Q))
        (dt * σ * (P + Q - 2 * U))
  have s4 := abs_add_le (2 * EPSILON0 * e * (P - Q - 2 * (dt / 2) * D)) (2 * EPSILON0 * (ep - e) * (P - Q))
  refine (s1.trans (add_le_add_left (s2.trans (add_le_add_left (s3.trans (add_le_add_left s4 _)) _)) _)).trans ?_
  have final : 2 * EPSILON0 * A * (M * dt ^ 3) + 2 * EPSILON0 * η * (M * dt) + dt * A * (M * dt ^ 2) + dt * η * (2 * M) +
      2 * dt * (2 * M * (G.dr ^ 2 + G.dz ^ 2)) ≤
      2 * dt * (M * (2 + A + A * EPSILON0 + EPSILON0) * (dt ^ 2 + G.dr ^ 2 + G.dz ^ 2 + η)) := by
    have e : 2 * dt * (M * (2 + A + A * EPSILON0 + EPSILON0) * (dt ^ 2 + G.dr ^ 2 + G.dz ^ 2 + η)) -
        (2 * EPSILON0 * A * (M * dt ^ 3) + 2 * EPSILON0 * η * (M * dt) + dt * A * (M * dt ^ 2) + dt * η * (2 * M) +
          2 * dt * (2 * M * (G.dr ^ 2 + G.dz ^ 2))) =
        dt * M * (4 * dt ^ 2 + A * dt ^ 2 + 2 * EPSILON0 * dt ^ 2 +
          2 * (A + A * EPSILON0 + EPSILON0) * (G.dr ^ 2 + G.dz ^ 2) + 2 * (1 + A + A * EPSILON0) * η) := by ring
    have : 0 ≤ dt * M * (4 * dt ^ 2 + A * dt ^ 2 + 2 * EPSILON0 * dt ^ 2 +
          2 * (A + A * EPSILON0 + EPSILON0) * (G.dr ^ 2 + G.dz ^ 2) + 2 * (1 + A + A * EPSILON0) * η) := by positivity
    linarith
  linarith

/-- one step of the program, node by node -/
theorem step_nodes {G : Geom} (hG : G.Valid) {dt : ℝ} {calls : List JCall} (hc : ∀ c ∈ calls, c.Ok G)
    {m m' : Mem Loc} (hm : Initialised G m) (h : FieldStep G dt calls m m')
    (hd : ∀ i k, Box 0 G.nr 0 G.nz i k → 2 * fieldsOf m .eps i k * EPSILON0 + fieldsOf m .sig i k * dt ≠ 0) :
    (∀ a i k, HNode G a i k → fieldsOf m' a i k = fieldsOf m a i k + dt / MAGN_CONST * curlE G (fieldsOf m) a i k) ∧
    (∀ a i k, ENode G a i k →
      fieldsOf m' a i k * (2 * fieldsOf m .eps i k * EPSILON0 + fieldsOf m .sig i k * dt) =
      fieldsOf m a i k * (2 * fieldsOf m .eps i k * EPSILON0 - fieldsOf m .sig i k * dt) +
        2 * dt * (curlH G (fieldsOf m') a i k - callSum calls (jOf a) i k)) := by
  have n1 := hG.nr_ge
  obtain ⟨-, y, -, u2, r2, -⟩ := fieldStep_spec hG dt hc hm.rep
  rw [← u2 _ h] at r2
  have hH : ∀ a i k, HNode G a i k → fieldsOf m' a i k = hStep G dt (fieldsOf m) a i k := by
    intro a i k hn
    have : fieldsOf m' a i k = fStep G dt (callSum calls .jr) (callSum calls .jphi)
        (callSum calls .jz) (fieldsOf m) a i k := by
      apply agree_at r2.agree <;> cases a <;> simp only [HNode] at hn <;> rng
    rw [this]
    cases a <;> simp only [HNode] at hn <;> rfl
  constructor
  · intro a i k hn
    rw [hH a i k hn, hStep_curl _ hn]
  · intro a i k hn
    have e0 : fieldsOf m' a i k = fStep G dt (callSum calls .jr) (callSum calls .jphi)
        (callSum calls .jz) (fieldsOf m) a i k := by
      apply agree_at r2.agree <;> cases a <;> simp only [ENode] at hn <;> rng
    have h1 := eStep_implicit (G := G) (dt := dt) (withJ (hStep G dt (fieldsOf m)) (callSum calls .jr)
      (callSum calls .jphi) (callSum calls .jz)) hn (hd i k hn.box)
    have e1 : eStep G dt (withJ (hStep G dt (fieldsOf m)) (callSum calls .jr)
      (callSum calls .jphi) (callSum calls .jz)) a i k = fieldsOf m' a i k := e0.symm
    have e2 : (withJ (hStep G dt (fieldsOf m)) (callSum calls .jr)
      (callSum calls .jphi) (callSum calls .jz)) a i k = fieldsOf m a i k := by
      cases a <;> simp only [ENode] at hn <;> rfl
    have e3 : currentOf (withJ (hStep G dt (fieldsOf m)) (callSum calls .jr)
      (callSum calls .jphi) (callSum calls .jz)) a i k = callSum calls (jOf a) i k := by
      cases a <;> simp only [ENode] at hn <;> rfl
    have e4 : curlH G (withJ (hStep G dt (fieldsOf m)) (callSum calls .jr)
      (callSum calls .jphi) (callSum calls .jz)) a i k = curlH G (fieldsOf m') a i k := by
      apply curlH_congr _ hn
      intro a i k hn
      rw [hH a i k hn]
      cases a <;> simp only [HNode] at hn <;> rfl
    rw [e1, e2, e3, e4] at h1
    have h2 : fieldsOf m' a i k * (2 * fieldsOf m .eps i k * EPSILON0 + fieldsOf m .sig i k * dt) =
      fieldsOf m a i k * (2 * fieldsOf m .eps i k * EPSILON0 - fieldsOf m .sig i k * dt)
        - 2 * dt * (callSum calls (jOf a) i k - curlH G (fieldsOf m') a i k) := h1
    linarith

theorem curlH_sub (G : Geom) (x y : Fields) (a : Arr) (i k : ℤ) :
    curlH G (fun a i k => x a i k - y a i k) a i k = curlH G x a i k - curlH G y a i k := by
  cases a <;> simp only [curlH]
  · ring
  · ring
  · split_ifs <;> ring
  all_goals ring

theorem curlE_sub (G : Geom) (x y : Fields) (a : Arr) (i k : ℤ) :
    curlE G (fun a i k => x a i k - y a i k) a i k = curlE G x a i k - curlE G y a i k := by
  cases a <;> simp only [curlE] <;> ring

theorem WallE.sub {G : Geom} {x y : Fields} (hx : WallE G x) (hy : WallE G y) :
    WallE G (fun a i k => x a i k - y a i k) := by
  have := hy.lin hx (-1)
  have e : (fun a i k => x a i k - y a i k) = fun a i k => (-1) * y a i k + x a i k := by funext a i k; ring
  rw [e]; exact this

theorem sumE_null {G : Geom} (hG : G.Valid) {f : Arr → ℤ → ℤ → ℝ} (h : ∀ a i k, ENode G a i k → f a i k = 0) :
    sumE G f = 0 := by
  rw [sumE_congr hG (g := fun a i k => 0 * 1) (fun a i k hn => by rw [h a i k hn]; ring)]
  exact (sumE_mul G 0 (fun _ _ _ => 1)).trans (zero_mul _)

theorem sumH_null {G : Geom} {f : Arr → ℤ → ℤ → ℝ} (h : ∀ a i k, HNode G a i k → f a i k = 0) :
    sumH G f = 0 := by
  rw [sumH_congr (g := fun a i k => 0 * 1) (fun a i k hn => by rw [h a i k hn]; ring)]
  exact (sumH_mul G 0 (fun _ _ _ => 1)).trans (zero_mul _)

/-- constant of the growth of the error -/
noncomputable def growConst (M A e R Z : ℝ) : ℝ :=
  Real.sqrt (MAGN_CONST / 2 * (16 * PI * R ^ 2 * Z)) * (M * (1 + 2 / MAGN_CONST)) +
  Real.sqrt (1 / (2 * (e * EPSILON0)) * (16 * PI * R ^ 2 * Z)) * (M * (2 + A + A * EPSILON0 + EPSILON0) + 1)

/-- **Growth of the error over one step of the program** -/
theorem error_step {W : Wave} {T R Z M A : ℝ} (hS : W.Solves T R Z) (hB : ∀ a, isField a → Bd (W.f a) M T R Z)
    (hM : 0 ≤ M) (hA : ∀ r z, 0 ≤ r → r ≤ R → 0 ≤ z → z ≤ Z → |W.eps r z| ≤ A ∧ |W.sig r z| ≤ A)
    {G : Geom} (hF : GridOf G R Z) {dt e θ η δ : ℝ} (hdt : 0 ≤ dt) (hη : 0 ≤ η) (hδ : 0 ≤ δ)
    {ep sg : Grid} (hOk : FormOk G dt e θ ep) (hsg : ∀ i k, Box 0 G.nr 0 G.nz i k → 0 ≤ sg i k)
    (hmed : ∀ a i k, ENode G a i k → |ep i k - W.eps (arrR G a i) (arrZ G a k)| ≤ η ∧
      |sg i k - W.sig (arrR G a i) (arrZ G a k)| ≤ η)
    {calls : List JCall} (hc : ∀ c ∈ calls, c.Ok G) {n : ℕ} (hj : CurrentsWithin G dt W δ n calls)
    (hn : ((n : ℝ) + 1) * dt ≤ T)
    {m m' : Mem Loc} (hm : Initialised G m) (hwm : WallE G (fieldsOf m))
    (hem : ∀ i k, Box 0 G.nr 0 G.nz i k → fieldsOf m .eps i k = ep i k ∧ fieldsOf m .sig i k = sg i k)
    (h : FieldStep G dt calls m m') :
    Real.sqrt (eForm G dt ep (fun a i k => fieldsOf m' a i k - W.state G dt (((n + 1 : ℕ) : ℝ) * dt) a i k)
        (fun a i k => fieldsOf m' a i k - W.state G dt (((n + 1 : ℕ) : ℝ) * dt) a i k)) ≤
      Real.sqrt (eForm G dt ep (fun a i k => fieldsOf m a i k - W.state G dt ((n : ℝ) * dt) a i k)
        (fun a i k => fieldsOf m a i k - W.state G dt ((n : ℝ) * dt) a i k)) +
      dt * (growConst M A e R Z * (dt ^ 2 + G.dr ^ 2 + G.dz ^ 2 + δ + η)) := by
  have hG := hF.valid
  have h0 := EPSILON0_pos
  have hm0 := MAGN_CONST_pos
  have hp := PI_pos
  have he := hOk.e_pos
  have A0 : 0 ≤ A := by
    have r0 : (0:ℝ) ≤ R := by have := hF.r_le (x := 0) (by have := hG.nr_ge; have : (2:ℝ) ≤ G.nr := by exact_mod_cast this
                                                           linarith)
                              linarith
    have z0 : (0:ℝ) ≤ Z := by have := hF.z_le (x := 0) (by have := hG.nz_ge; have : (2:ℝ) ≤ G.nz := by exact_mod_cast this
                                                           linarith)
                              linarith
    exact (abs_nonneg _).trans (hA 0 0 le_rfl r0 le_rfl z0).1
  have dpos : ∀ i k, Box 0 G.nr 0 G.nz i k → 0 < 2 * ep i k * EPSILON0 + sg i k * dt := by
    intro i k hb
    have a1 := hOk.eps i k hb
    have a2 := hsg i k hb
    have : 0 < ep i k := by linarith
    positivity
  obtain ⟨t, ht⟩ : ∃ t, t = (n : ℝ) * dt := ⟨_, rfl⟩
  have e1 : ((n + 1 : ℕ) : ℝ) * dt = t + dt := by rw [ht]; push_cast; ring
  have t0 : 0 ≤ t := by rw [ht]; positivity
  have t1 : t + dt ≤ T := by rw [ht]; linarith
  rw [e1, ← ht]
  obtain ⟨sH, sE⟩ := step_nodes hG hc hm h (fun i k hb => by
    rw [(hem i k hb).1, (hem i k hb).2]; exact (dpos i k hb).ne')
  have hw' : WallE G (fieldsOf m') := (step_initialised hG hc hm h).2.1 hwm
  obtain ⟨D, hD⟩ : ∃ D, D = dt ^ 2 + G.dr ^ 2 + G.dz ^ 2 := ⟨_, rfl⟩
  have D0 : 0 ≤ D := by rw [hD]; positivity
  -- residuals
  let tH : Fields := fun a i k => -(W.state G dt (t + dt) a i k - W.state G dt t a i k -
    dt / MAGN_CONST * curlE G (W.state G dt t) a i k)
  let tE : Fields := fun a i k =>
    (-(W.state G dt (t + dt) a i k * (2 * ep i k * EPSILON0 + sg i k * dt) -
      W.state G dt t a i k * (2 * ep i k * EPSILON0 - sg i k * dt) -
      2 * dt * (curlH G (W.state G dt (t + dt)) a i k - W.at G (t + dt / 2) (jOf a) i k))) / (2 * dt) -
      (callSum calls (jOf a) i k - W.at G (t + dt / 2) (jOf a) i k)
  by_cases hdt0 : dt = 0
  · -- nothing moves
    subst hdt0
    have eH : ∀ a i k, HNode G a i k → fieldsOf m' a i k = fieldsOf m a i k := by
      intro a i k hn; rw [sH a i k hn]; ring
    have g := hOk.growth (sg := sg) (tH := fun _ _ _ => 0) (tE := fun _ _ _ => 0) hdt hsg
      (x := fun a i k => fieldsOf m a i k - W.state G 0 t a i k)
      (x' := fun a i k => fieldsOf m' a i k - W.state G 0 (t + 0) a i k)
      (hwm.sub (state_wall hS hF 0 t0 (by linarith))) (hw'.sub (state_wall hS hF 0 (by linarith) (by linarith)))
      (fun a i k hn => by simp only [add_zero]; rw [eH a i k hn]; ring)
      (fun a i k hn => by
        have := sE a i k hn
        rw [(hem i k hn.box).1, (hem i k hn.box).2] at this
        simp only [add_zero]
        linear_combination this)
    refine g.trans ?_
    have z1 : sumH G (fun a i k => MAGN_CONST * (0:ℝ) ^ 2 / 2) = 0 := by
      exact sumH_null fun _ _ _ _ => by ring
    have z2 : sumE G (fun a i k => ep i k * EPSILON0 * (2 * 0 * 0 / (2 * ep i k * EPSILON0 + sg i k * 0)) ^ 2 / 2) = 0 := by
      exact sumE_null hG fun _ _ _ _ => by simp
    rw [z1, z2]
    simp
  have dtp : 0 < dt := lt_of_le_of_ne hdt (Ne.symm hdt0)
  have g := hOk.growth (sg := sg) (tH := tH) (tE := tE) hdt hsg
      (x := fun a i k => fieldsOf m a i k - W.state G dt t a i k)
      (x' := fun a i k => fieldsOf m' a i k - W.state G dt (t + dt) a i k)
      (hwm.sub (state_wall hS hF dt t0 (by linarith))) (hw'.sub (state_wall hS hF dt (by linarith) (by linarith)))
      (fun a i k hn => by
        rw [curlE_sub, sH a i k hn]; simp only [tH]; ring)
      (fun a i k hn => by
        have := sE a i k hn
        rw [(hem i k hn.box).1, (hem i k hn.box).2] at this
        rw [curlH_sub]
        have e2 : 2 * dt * tE a i k = -(W.state G dt (t + dt) a i k * (2 * ep i k * EPSILON0 + sg i k * dt) -
            W.state G dt t a i k * (2 * ep i k * EPSILON0 - sg i k * dt) -
            2 * dt * (curlH G (W.state G dt (t + dt)) a i k - W.at G (t + dt / 2) (jOf a) i k)) -
            2 * dt * (callSum calls (jOf a) i k - W.at G (t + dt / 2) (jOf a) i k) := by
          simp only [tE]; field_simp
        linear_combination this - e2)
  refine g.trans ?_
  -- bounds of the residuals
  have bH : Real.sqrt (sumH G (fun a i k => MAGN_CONST * tH a i k ^ 2 / 2)) ≤
      Real.sqrt (MAGN_CONST / 2 * (16 * PI * R ^ 2 * Z)) * (dt * (M * (1 + 2 / MAGN_CONST) * D)) := by
    rw [Real.sqrt_le_left (by positivity), mul_pow]
    have z0 : (0:ℝ) ≤ 16 * PI * R ^ 2 * Z := (sumH_nonneg hG fun _ _ _ _ => zero_le_one).trans (sumH_one_le hF)
    rw [Real.sq_sqrt (by positivity)]
    calc sumH G (fun a i k => MAGN_CONST * tH a i k ^ 2 / 2)
        ≤ sumH G (fun a i k => MAGN_CONST / 2 * (dt * (M * (1 + 2 / MAGN_CONST) * D)) ^ 2 * 1) := by
          apply sumH_le hG
          intro a i k hn
          have := faraday_residual hS hB hM hF hdt t0 t1 hn
          rw [← hD] at this
          have e : |tH a i k| ≤ dt * (M * (1 + 2 / MAGN_CONST) * D) := by simp only [tH]; rw [abs_neg]; exact this
          have := sq_le_sq' (by have := abs_le.1 e; linarith) (abs_le.1 e).2
          have := mul_le_mul_of_nonneg_left this (by positivity : 0 ≤ MAGN_CONST / 2)
          linarith
      _ = MAGN_CONST / 2 * (dt * (M * (1 + 2 / MAGN_CONST) * D)) ^ 2 * sumH G (fun _ _ _ => 1) := sumH_mul _ _ _
      _ ≤ MAGN_CONST / 2 * (dt * (M * (1 + 2 / MAGN_CONST) * D)) ^ 2 * (16 * PI * R ^ 2 * Z) :=
          mul_le_mul_of_nonneg_left (sumH_one_le hF) (by positivity)
      _ = _ := by ring
  have bE : Real.sqrt (sumE G (fun a i k => ep i k * EPSILON0 *
        (2 * dt * tE a i k / (2 * ep i k * EPSILON0 + sg i k * dt)) ^ 2 / 2)) ≤
      Real.sqrt (1 / (2 * (e * EPSILON0)) * (16 * PI * R ^ 2 * Z)) *
        (dt * (M * (2 + A + A * EPSILON0 + EPSILON0) * (D + η) + δ)) := by
    obtain ⟨K, hK⟩ : ∃ K, K = M * (2 + A + A * EPSILON0 + EPSILON0) * (D + η) + δ := ⟨_, rfl⟩
    have K0 : 0 ≤ K := by rw [hK]; positivity
    rw [← hK, Real.sqrt_le_left (by positivity), mul_pow]
    have z0 : (0:ℝ) ≤ 16 * PI * R ^ 2 * Z := (sumE_nonneg hG fun _ _ _ _ => zero_le_one).trans (sumE_one_le hF)
    rw [Real.sq_sqrt (by positivity)]
    calc sumE G (fun a i k => ep i k * EPSILON0 *
          (2 * dt * tE a i k / (2 * ep i k * EPSILON0 + sg i k * dt)) ^ 2 / 2)
        ≤ sumE G (fun a i k => 1 / (2 * (e * EPSILON0)) * (dt * K) ^ 2 * 1) := by
          apply sumE_le hG
          intro a i k hn
          have r := ampere_residual hS hB hM hA hF hdt hη t0 t1 hn (hmed a i k hn).1 (hmed a i k hn).2
          rw [← hD] at r
          have c := hj a i k hn
          rw [show ((n:ℝ) + 1 / 2) * dt = t + dt / 2 by rw [ht]; ring] at c
          have e2 : |tE a i k| ≤ K := by
            simp only [tE]
            refine (abs_sub _ _).trans ?_
            rw [abs_div, abs_neg, abs_of_pos (by positivity : 0 < 2 * dt), hK]
            refine add_le_add ?_ c
            rw [div_le_iff₀ (by positivity)]
            linarith
          have q1 := hOk.eps i k hn.box
          have q2 := hsg i k hn.box
          have q3 : 0 < ep i k := by linarith
          have q4 := dpos i k hn.box
          have sq : tE a i k ^ 2 ≤ K ^ 2 := sq_le_sq' (by have := abs_le.1 e2; linarith) (abs_le.1 e2).2
          have den : (2 * ep i k * EPSILON0) ^ 2 ≤ (2 * ep i k * EPSILON0 + sg i k * dt) ^ 2 := by
            have : 0 ≤ sg i k * dt := by positivity
            gcongr
            linarith
          calc ep i k * EPSILON0 * (2 * dt * tE a i k / (2 * ep i k * EPSILON0 + sg i k * dt)) ^ 2 / 2
              = ep i k * EPSILON0 * (4 * dt ^ 2 * tE a i k ^ 2) / 2 / (2 * ep i k * EPSILON0 + sg i k * dt) ^ 2 := by
                rw [div_pow]; ring
            _ ≤ ep i k * EPSILON0 * (4 * dt ^ 2 * K ^ 2) / 2 / (2 * ep i k * EPSILON0) ^ 2 := by gcongr
            _ = 1 / (2 * (ep i k * EPSILON0)) * (dt * K) ^ 2 := by field_simp; ring
            _ ≤ 1 / (2 * (e * EPSILON0)) * (dt * K) ^ 2 * 1 := by rw [mul_one]; gcongr
      _ = 1 / (2 * (e * EPSILON0)) * (dt * K) ^ 2 * sumE G (fun _ _ _ => 1) := sumE_mul _ _ _
      _ ≤ 1 / (2 * (e * EPSILON0)) * (dt * K) ^ 2 * (16 * PI * R ^ 2 * Z) :=
          mul_le_mul_of_nonneg_left (sumE_one_le hF) (by positivity)
      _ = _ := by ring
  rw [← hD]
  unfold growConst
  obtain ⟨S1, hS1⟩ : ∃ S1, S1 = Real.sqrt (MAGN_CONST / 2 * (16 * PI * R ^ 2 * Z)) := ⟨_, rfl⟩
  obtain ⟨S2, hS2⟩ : ∃ S2, S2 = Real.sqrt (1 / (2 * (e * EPSILON0)) * (16 * PI * R ^ 2 * Z)) := ⟨_, rfl⟩
  rw [← hS1] at bH ⊢
  rw [← hS2] at bE ⊢
  have p1 : 0 ≤ S1 := by rw [hS1]; positivity
  have p2 : 0 ≤ S2 := by rw [hS2]; positivity
  obtain ⟨C1, hC1⟩ : ∃ C1, C1 = M * (1 + 2 / MAGN_CONST) := ⟨_, rfl⟩
  obtain ⟨C2, hC2⟩ : ∃ C2, C2 = M * (2 + A + A * EPSILON0 + EPSILON0) := ⟨_, rfl⟩
  rw [← hC1] at bH ⊢
  rw [← hC2] at bE ⊢
  have c1 : 0 ≤ C1 := by rw [hC1]; positivity
  have c2 : 0 ≤ C2 := by rw [hC2]; positivity
  have fin : S1 * (dt * (C1 * D)) + S2 * (dt * (C2 * (D + η) + δ)) ≤
      dt * ((S1 * C1 + S2 * (C2 + 1)) * (D + δ + η)) := by
    have e : dt * ((S1 * C1 + S2 * (C2 + 1)) * (D + δ + η)) - (S1 * (dt * (C1 * D)) + S2 * (dt * (C2 * (D + η) + δ))) =
        dt * (S1 * C1 * (δ + η) + S2 * C2 * δ + S2 * (D + η)) := by ring
    have : 0 ≤ dt * (S1 * C1 * (δ + η) + S2 * C2 * δ + S2 * (D + η)) := by positivity
    linarith
  linarith

/-- the two errors from the form of the error -/
theorem error_of_form {W : Wave} {G : Geom} (hG : G.Valid) {dt e θ t : ℝ} {ep : Grid} (hOk : FormOk G dt e θ ep)
    (hθ1 : θ < 1) {m' : Mem Loc} {x : Fields} (hx : x = fun a i k => fieldsOf m' a i k - W.state G dt t a i k)
    (wx : WallE G x) {B : ℝ} (bb : Real.sqrt (eForm G dt ep x x) ≤ B) :
    errorE G W t m' ≤ 2 / (e * EPSILON0 * (1 - θ)) * B ^ 2 ∧
    errorH G W (t - dt / 2) m' ≤ 4 / (MAGN_CONST * (1 - θ)) * B ^ 2 := by
  have h0 := EPSILON0_pos
  have hm0 := MAGN_CONST_pos
  have he := hOk.e_pos
  have hl := hOk.limit
  have hθ := hOk.theta
  have pθ : 0 < 1 - θ := by linarith
  have bq : eForm G dt ep x x ≤ B ^ 2 := by
    have := hOk.nonneg wx
    calc eForm G dt ep x x = Real.sqrt (eForm G dt ep x x) ^ 2 := (Real.sq_sqrt this).symm
      _ ≤ _ := pow_le_pow_left₀ (Real.sqrt_nonneg _) bb 2
  have low := eForm_lower hG hl hθ hOk.eps wx
  have el := hOk.elec_nonneg x
  have hl0 : 0 ≤ sumH G (fun a i k => MAGN_CONST * (x a i k + dt / (2 * MAGN_CONST) * curlE G x a i k) ^ 2 / 2) :=
    sumH_nonneg hG fun a i k _ => by positivity
  have cu := curl_le_elec hG hl (withMed ep ep x) (withMed_wall wx ep ep) hθ (fun i k hb => hOk.eps i k hb)
  rw [withMed_curlE] at cu
  have cu1 : sumE G (fun a i k => withMed ep ep x .eps i k * EPSILON0 * withMed ep ep x a i k ^ 2 / 2) =
      sumE G (fun a i k => ep i k * EPSILON0 * x a i k ^ 2 / 2) :=
    sumE_congr hG fun a i k hn => by rw [withMed_E hn]; rfl
  rw [cu1] at cu
  obtain ⟨EE, hEE⟩ : ∃ EE, EE = sumE G (fun a i k => ep i k * EPSILON0 * x a i k ^ 2 / 2) := ⟨_, rfl⟩
  obtain ⟨HH, hHH⟩ : ∃ HH, HH = sumH G (fun a i k => MAGN_CONST *
    (x a i k + dt / (2 * MAGN_CONST) * curlE G x a i k) ^ 2 / 2) := ⟨_, rfl⟩
  rw [← hEE] at low el cu
  rw [← hHH] at low hl0
  have q1 : EE ≤ B ^ 2 / (1 - θ) := by
    rw [le_div_iff₀ pθ]; linarith
  have fE : errorE G W (t) m' ≤ 2 / (e * EPSILON0 * (1 - θ)) * B ^ 2 := by
    have : e * EPSILON0 / 2 * errorE G W (t) m' ≤ EE := by
      unfold errorE
      rw [← sumE_mul, hEE]
      apply sumE_le hG
      intro a i k hn
      have p := hOk.eps i k hn.box
      have : x a i k = fieldsOf m' a i k - W.at G (t) a i k := by rw [hx]; simp only []; rw [state_E hn]
      rw [← this]
      have : 0 ≤ EPSILON0 * x a i k ^ 2 := by positivity
      nlinarith [mul_le_mul_of_nonneg_right p this]
    have : errorE G W (t) m' ≤ 2 / (e * EPSILON0) * EE := by
      rw [div_mul_eq_mul_div, le_div_iff₀ (by positivity)]
      linarith
    refine this.trans ?_
    calc 2 / (e * EPSILON0) * EE ≤ 2 / (e * EPSILON0) * (B ^ 2 / (1 - θ)) :=
          mul_le_mul_of_nonneg_left q1 (by positivity)
      _ = _ := by field_simp
  have fH : errorH G W (t - dt / 2) m' ≤ 4 / (MAGN_CONST * (1 - θ)) * B ^ 2 := by
    have s : MAGN_CONST / 2 * errorH G W (t - dt / 2) m' ≤ 2 * HH +
        2 * (dt ^ 2 / (8 * MAGN_CONST) * sumH G (fun a i k => curlE G x a i k ^ 2)) := by
      unfold errorH
      rw [← sumH_mul, hHH, ← mul_assoc, ← sumH_mul, ← sumH_mul]
      have add : ∀ f g : Arr → ℤ → ℤ → ℝ, sumH G f + sumH G g = sumH G (fun a i k => 1 * f a i k + g a i k) := by
        intro f g; rw [sumH_lin, one_mul]
      rw [add]
      apply sumH_le hG
      intro a i k hn
      have : x a i k = fieldsOf m' a i k - W.at G (t - dt / 2) a i k := by
        rw [hx]; simp only []; rw [state_H hn]
      rw [← this]
      have e : 1 * (2 * (MAGN_CONST * (x a i k + dt / (2 * MAGN_CONST) * curlE G x a i k) ^ 2 / 2)) +
          2 * (dt ^ 2 / (8 * MAGN_CONST)) * curlE G x a i k ^ 2 - MAGN_CONST / 2 * x a i k ^ 2 =
          MAGN_CONST / 2 * (x a i k + dt / MAGN_CONST * curlE G x a i k) ^ 2 := by field_simp; ring
      have : 0 ≤ MAGN_CONST / 2 * (x a i k + dt / MAGN_CONST * curlE G x a i k) ^ 2 := by positivity
      linarith
    have s2 : MAGN_CONST / 2 * errorH G W (t - dt / 2) m' ≤ 2 * (B ^ 2 / (1 - θ)) := by
      have : HH + θ * EE ≤ B ^ 2 / (1 - θ) := by
        rw [le_div_iff₀ pθ]
        have a1 : HH * (1 - θ) ≤ HH := by nlinarith
        have a2 : θ * EE * (1 - θ) ≤ EE * (1 - θ) := by nlinarith [mul_nonneg el pθ.le]
        nlinarith
      linarith
    calc errorH G W (t - dt / 2) m' = 2 / MAGN_CONST * (MAGN_CONST / 2 * errorH G W (t - dt / 2) m') := by
          field_simp
      _ ≤ 2 / MAGN_CONST * (2 * (B ^ 2 / (1 - θ))) := mul_le_mul_of_nonneg_left s2 (by positivity)
      _ = _ := by field_simp; ring
  exact ⟨fE, fH⟩

/-- an upper bound of the form -/
theorem FormOk.upper {G : Geom} {dt e θ : ℝ} {ep : Grid} (hOk : FormOk G dt e θ ep) {x : Fields} (wx : WallE G x) :
    eForm G dt ep x x ≤ (1 + 2 * θ) * sumE G (fun a i k => ep i k * EPSILON0 * x a i k ^ 2 / 2) +
      2 * sumH G (fun a i k => MAGN_CONST * x a i k ^ 2 / 2) := by
  have hG := hOk.valid
  have hm0 := MAGN_CONST_pos
  have cu := curl_le_elec hG hOk.limit (withMed ep ep x) (withMed_wall wx ep ep) hOk.theta
    (fun i k hb => hOk.eps i k hb)
  rw [withMed_curlE] at cu
  have cu1 : sumE G (fun a i k => withMed ep ep x .eps i k * EPSILON0 * withMed ep ep x a i k ^ 2 / 2) =
      sumE G (fun a i k => ep i k * EPSILON0 * x a i k ^ 2 / 2) :=
    sumE_congr hG fun a i k hn => by rw [withMed_E hn]; rfl
  rw [cu1] at cu
  have c0 : 0 ≤ dt ^ 2 / (8 * MAGN_CONST) * sumH G (fun a i k => curlE G x a i k ^ 2) :=
    mul_nonneg (by positivity) (sumH_nonneg hG fun a i k _ => by positivity)
  unfold eForm
  have e1 : sumE G (fun a i k => ep i k * EPSILON0 * (x a i k * x a i k) / 2) =
      sumE G (fun a i k => ep i k * EPSILON0 * x a i k ^ 2 / 2) := sumE_congr hG fun a i k _ => by ring
  have e2 : sumH G (fun a i k => curlE G x a i k * curlE G x a i k) = sumH G (fun a i k => curlE G x a i k ^ 2) :=
    sumH_congr fun a i k _ => by ring
  have add : ∀ f g : Arr → ℤ → ℤ → ℝ, sumH G f + sumH G g = sumH G (fun a i k => 1 * f a i k + g a i k) := by
    intro f g; rw [sumH_lin, one_mul]
  have e3 : sumH G (fun a i k => MAGN_CONST * ((x a i k + dt / (2 * MAGN_CONST) * curlE G x a i k) *
      (x a i k + dt / (2 * MAGN_CONST) * curlE G x a i k)) / 2) ≤
      2 * sumH G (fun a i k => MAGN_CONST * x a i k ^ 2 / 2) +
      2 * (dt ^ 2 / (8 * MAGN_CONST)) * sumH G (fun a i k => curlE G x a i k ^ 2) := by
    rw [← sumH_mul, ← sumH_mul, add]
    apply sumH_le hG
    intro a i k _
    have e : 1 * (2 * (MAGN_CONST * x a i k ^ 2 / 2)) + 2 * (dt ^ 2 / (8 * MAGN_CONST)) * curlE G x a i k ^ 2 -
        MAGN_CONST * ((x a i k + dt / (2 * MAGN_CONST) * curlE G x a i k) *
        (x a i k + dt / (2 * MAGN_CONST) * curlE G x a i k)) / 2 =
        MAGN_CONST / 2 * (x a i k - dt / (2 * MAGN_CONST) * curlE G x a i k) ^ 2 := by field_simp; ring
    have : 0 ≤ MAGN_CONST / 2 * (x a i k - dt / (2 * MAGN_CONST) * curlE G x a i k) ^ 2 := by positivity
    linarith
  rw [e1, e2]
  linarith

/-- the form of the error at the start -/
theorem error_start {W : Wave} {R Z A : ℝ}
    (hA : ∀ r z, 0 ≤ r → r ≤ R → 0 ≤ z → z ≤ Z → |W.eps r z| ≤ A ∧ |W.sig r z| ≤ A)
    {G : Geom} (hF : GridOf G R Z) {dt e θ η ζ : ℝ} {ep : Grid} (hOk : FormOk G dt e θ ep) (hη : η ≤ 1) (hζ : 0 ≤ ζ)
    (hmed : ∀ a i k, ENode G a i k → |ep i k - W.eps (arrR G a i) (arrZ G a k)| ≤ η)
    {x : Fields} (wx : WallE G x) (hE : ∀ a i k, ENode G a i k → |x a i k| ≤ ζ)
    (hH : ∀ a i k, HNode G a i k → |x a i k| ≤ ζ) :
    Real.sqrt (eForm G dt ep x x) ≤
      Real.sqrt ((3 * |A + 1| * EPSILON0 + 2 * MAGN_CONST) * (16 * PI * R ^ 2 * Z)) * ζ := by
  have hG := hF.valid
  have h0 := EPSILON0_pos
  have hm0 := MAGN_CONST_pos
  have sq : ∀ y : ℝ, |y| ≤ ζ → y ^ 2 ≤ ζ ^ 2 := fun y hy =>
    sq_le_sq' (by have := abs_le.1 hy; linarith) (abs_le.1 hy).2
  have z0 : (0:ℝ) ≤ 16 * PI * R ^ 2 * Z := (sumH_nonneg hG fun _ _ _ _ => zero_le_one).trans (sumH_one_le hF)
  have b1 : sumE G (fun a i k => ep i k * EPSILON0 * x a i k ^ 2 / 2) ≤
      |A + 1| * EPSILON0 * ζ ^ 2 / 2 * (16 * PI * R ^ 2 * Z) := by
    calc sumE G (fun a i k => ep i k * EPSILON0 * x a i k ^ 2 / 2)
        ≤ sumE G (fun a i k => |A + 1| * EPSILON0 * ζ ^ 2 / 2 * 1) := by
          apply sumE_le hG
          intro a i k hn
          obtain ⟨r0, r1, z0, z1⟩ := hn.inside hF
          have a1 := (abs_le.1 (hA _ _ r0 r1 z0 z1).1).2
          have a2 := (abs_le.1 (hmed a i k hn)).2
          have a3 := le_abs_self (A + 1)
          have a4 : ep i k ≤ |A + 1| := by linarith
          have a5 := sq _ (hE a i k hn)
          rw [mul_one]
          gcongr
      _ = |A + 1| * EPSILON0 * ζ ^ 2 / 2 * sumE G (fun _ _ _ => 1) := sumE_mul _ _ _
      _ ≤ _ := mul_le_mul_of_nonneg_left (sumE_one_le hF) (by positivity)
  have b2 : sumH G (fun a i k => MAGN_CONST * x a i k ^ 2 / 2) ≤ MAGN_CONST * ζ ^ 2 / 2 * (16 * PI * R ^ 2 * Z) := by
    calc sumH G (fun a i k => MAGN_CONST * x a i k ^ 2 / 2)
        ≤ sumH G (fun a i k => MAGN_CONST * ζ ^ 2 / 2 * 1) := by
          apply sumH_le hG
          intro a i k hn
          have a5 := sq _ (hH a i k hn)
          rw [mul_one]
          gcongr
      _ = MAGN_CONST * ζ ^ 2 / 2 * sumH G (fun _ _ _ => 1) := sumH_mul _ _ _
      _ ≤ _ := mul_le_mul_of_nonneg_left (sumH_one_le hF) (by positivity)
  rw [Real.sqrt_le_left (by positivity), mul_pow, Real.sq_sqrt (by positivity)]
  refine (hOk.upper wx).trans ?_
  have el := hOk.elec_nonneg x
  have t1 := hOk.theta1
  have t2 := mul_le_mul_of_nonneg_right (by linarith : 1 + 2 * θ ≤ 3) el
  have : 0 ≤ |A + 1| * EPSILON0 * ζ ^ 2 * (16 * PI * R ^ 2 * Z) := by positivity
  have : 0 ≤ MAGN_CONST * ζ ^ 2 * (16 * PI * R ^ 2 * Z) := by positivity
  calc _ ≤ 3 * (|A + 1| * EPSILON0 * ζ ^ 2 / 2 * (16 * PI * R ^ 2 * Z)) +
        2 * (MAGN_CONST * ζ ^ 2 / 2 * (16 * PI * R ^ 2 * Z)) := by linarith
    _ ≤ _ := by nlinarith

/-! ## C96: convergence -/

/-- **C96**. A smooth solution of Maxwell's equations and a time `T` are given. There is one number `C` such that
for every grid of the cylinder, every time step within the stability limit, every number of steps up to time `T` and
every interleaving of the threads: if the arrays start from the solution up to `ζ`, the deposits are its currents up to
`δ` and the tables hold the medium up to `η`, the error of both fields, as a root mean square over the cylinder, is at most
`C (dt² + dr² + dz² + δ + η + ζ)`. -/
theorem C96_convergence (W : Wave) (T R Z A e θ : ℝ) (hS : W.Solves T R Z)
    (hA : ∀ r z, 0 ≤ r → r ≤ R → 0 ≤ z → z ≤ Z → |W.eps r z| ≤ A ∧ |W.sig r z| ≤ A)
    (he : 0 < e) (hθ : 0 ≤ θ) (hθ1 : θ < 1) :
    ∃ C : ℝ, ∀ (G : Geom) (dt η δ ζ : ℝ) (calls : ℕ → List JCall) (n : ℕ) (m m' : Mem Loc),
      G.Valid → G.r_size = R → G.z_size = Z → 0 ≤ dt → StepLimit G dt e θ → 0 ≤ η → η ≤ 1 → 0 ≤ δ → 0 ≤ ζ → (n : ℝ) * dt ≤ T →
      Initialised G m → StartsFrom G dt W ζ m → MediumWithin G W e η m →
      (∀ j, j < n → (∀ c ∈ calls j, c.Ok G) ∧ CurrentsWithin G dt W δ j (calls j)) →
      FieldRun G dt calls n m m' →
      errorE G W (n * dt) m' ≤ (C * (dt ^ 2 + G.dr ^ 2 + G.dz ^ 2 + δ + η + ζ)) ^ 2 ∧
      errorH G W (n * dt - dt / 2) m' ≤ (C * (dt ^ 2 + G.dr ^ 2 + G.dz ^ 2 + δ + η + ζ)) ^ 2 := by
  have h0 := EPSILON0_pos
  have hm0 := MAGN_CONST_pos
  have hp := PI_pos
  have pθ : 0 < 1 - θ := by linarith
  -- one bound for all derivatives
  have hB : ∃ M, 0 ≤ M ∧ ∀ a, isField a → Bd (W.f a) M T R Z := by
    obtain ⟨m1, p1, b1⟩ := Bd.exists (hS.smooth .er trivial) T R Z
    obtain ⟨m2, p2, b2⟩ := Bd.exists (hS.smooth .ephi trivial) T R Z
    obtain ⟨m3, p3, b3⟩ := Bd.exists (hS.smooth .ez trivial) T R Z
    obtain ⟨m4, p4, b4⟩ := Bd.exists (hS.smooth .hr trivial) T R Z
    obtain ⟨m5, p5, b5⟩ := Bd.exists (hS.smooth .hphi trivial) T R Z
    obtain ⟨m6, p6, b6⟩ := Bd.exists (hS.smooth .hz trivial) T R Z
    refine ⟨m1 + m2 + m3 + m4 + m5 + m6, by positivity, ?_⟩
    intro a ha
    cases a <;> simp only [isField] at ha
    · exact b1.mono (by linarith)
    · exact b2.mono (by linarith)
    · exact b3.mono (by linarith)
    · exact b4.mono (by linarith)
    · exact b5.mono (by linarith)
    · exact b6.mono (by linarith)
  obtain ⟨M, hM, hB⟩ := hB
  obtain ⟨K, hK⟩ : ∃ K, K = Real.sqrt ((3 * |A + 1| * EPSILON0 + 2 * MAGN_CONST) * (16 * PI * R ^ 2 * Z)) +
      |T| * |growConst M A e R Z| := ⟨_, rfl⟩
  have K0 : 0 ≤ K := by rw [hK]; positivity
  refine ⟨K * (Real.sqrt (2 / (e * EPSILON0 * (1 - θ))) + Real.sqrt (4 / (MAGN_CONST * (1 - θ)))), ?_⟩
  intro G dt η δ ζ calls n m m' hG hr hz hdt hl hη hη1 hδ hζ hnT hm hst hmed hcalls hrun
  have hF : GridOf G R Z := ⟨hG, hr, hz⟩
  obtain ⟨sE, sH, sW⟩ := hst
  obtain ⟨med1, med2⟩ := hmed
  obtain ⟨ep, hep⟩ : ∃ ep : Grid, ep = fieldsOf m .eps := ⟨_, rfl⟩
  obtain ⟨sg, hsg⟩ : ∃ sg : Grid, sg = fieldsOf m .sig := ⟨_, rfl⟩
  rw [← hep, ← hsg] at med1 med2
  have hOk : FormOk G dt e θ ep := ⟨hG, he, hθ, hθ1.le, hl, fun i k hb => (med1 i k hb).1⟩
  obtain ⟨Δ, hΔ⟩ : ∃ Δ, Δ = dt ^ 2 + G.dr ^ 2 + G.dz ^ 2 + δ + η := ⟨_, rfl⟩
  have Δ0 : 0 ≤ Δ := by rw [hΔ]; positivity
  obtain ⟨S0, hS0⟩ : ∃ S0, S0 = Real.sqrt ((3 * |A + 1| * EPSILON0 + 2 * MAGN_CONST) * (16 * PI * R ^ 2 * Z)) :=
    ⟨_, rfl⟩
  have S00 : 0 ≤ S0 := by rw [hS0]; positivity
  rw [← hS0] at hK
  rw [← hΔ]
  -- induction over the steps
  have key : ∀ (n : ℕ) (m' : Mem Loc), (n : ℝ) * dt ≤ T →
      (∀ j, j < n → (∀ c ∈ calls j, c.Ok G) ∧ CurrentsWithin G dt W δ j (calls j)) → FieldRun G dt calls n m m' →
      (Initialised G m' ∧ WallE G (fieldsOf m') ∧
        ∀ i k, Box 0 G.nr 0 G.nz i k → fieldsOf m' .eps i k = ep i k ∧ fieldsOf m' .sig i k = sg i k) ∧
      Real.sqrt (eForm G dt ep (fun a i k => fieldsOf m' a i k - W.state G dt ((n : ℝ) * dt) a i k)
        (fun a i k => fieldsOf m' a i k - W.state G dt ((n : ℝ) * dt) a i k)) ≤
        S0 * ζ + (n : ℝ) * dt * (growConst M A e R Z * Δ) := by
    intro n
    induction n with
    | zero =>
      intro m' hnT0 _ hrun
      cases hrun
      refine ⟨⟨hm, sW, fun i k _ => ⟨by rw [hep], by rw [hsg]⟩⟩, ?_⟩
      have := error_start (dt := dt) (x := fun a i k => fieldsOf m a i k - W.state G dt (((0:ℕ) : ℝ) * dt) a i k) hA hF hOk hη1 hζ
        (fun a i k hn => (med2 a i k hn).1) (sW.sub (state_wall hS hF dt (by simp) (by simpa using hnT0)))
        (fun a i k hn => by rw [state_E hn]; simpa using sE a i k hn)
        (fun a i k hn => by rw [state_H hn]; simpa using sH a i k hn)
      rw [← hS0] at this
      refine this.trans ?_
      simp
    | succ n ih =>
      intro m2 hT hcs hrun
      cases hrun with
      | succ _ _ m1 _ hx hs =>
        have hT' : ((n:ℝ) + 1) * dt ≤ T := by push_cast at hT; exact hT
        obtain ⟨⟨i1, w1, e1⟩, b1⟩ := ih m1 (by nlinarith) (fun j hj => hcs j (by omega)) hx
        obtain ⟨c1, c2⟩ := hcs n (by omega)
        obtain ⟨i2, w2, e2⟩ := step_initialised hG c1 i1 hs
        refine ⟨⟨i2, w2 w1, fun i k hb => ⟨(e2 i k hb).1.trans (e1 i k hb).1, (e2 i k hb).2.trans (e1 i k hb).2⟩⟩, ?_⟩
        have g := error_step hS hB hM hA hF hdt hη hδ hOk (fun i k hb => (med1 i k hb).2) med2 c1 c2 hT' i1 w1 e1 hs
        rw [← hΔ] at g
        refine g.trans ?_
        push_cast
        linarith
  obtain ⟨⟨i1, w1, e1⟩, b⟩ := key n m' hnT hcalls hrun
  obtain ⟨x, hx⟩ : ∃ x : Fields, x = fun a i k => fieldsOf m' a i k - W.state G dt ((n : ℝ) * dt) a i k := ⟨_, rfl⟩
  rw [← hx] at b
  have t0 : 0 ≤ (n:ℝ) * dt := by positivity
  have wx : WallE G x := by rw [hx]; exact w1.sub (state_wall hS hF dt t0 hnT)
  have bb : Real.sqrt (eForm G dt ep x x) ≤ K * (Δ + ζ) := by
    refine b.trans ?_
    rw [hK]
    have s1 : S0 * ζ ≤ S0 * (Δ + ζ) := by gcongr; linarith
    have s2 : |T| * |growConst M A e R Z| * Δ ≤ |T| * |growConst M A e R Z| * (Δ + ζ) := by gcongr; linarith
    have s3 : (n:ℝ) * dt * (growConst M A e R Z * Δ) ≤ |T| * |growConst M A e R Z| * Δ := ?_
    · linarith
    have : (n:ℝ) * dt ≤ |T| := hnT.trans (le_abs_self T)
    calc (n:ℝ) * dt * (growConst M A e R Z * Δ) ≤ (n:ℝ) * dt * (|growConst M A e R Z| * Δ) := by
          gcongr; exact le_abs_self _
      _ ≤ |T| * (|growConst M A e R Z| * Δ) := by gcongr
      _ = _ := by ring
  obtain ⟨fE, fH⟩ := error_of_form hG hOk hθ1 hx wx bb
  obtain ⟨u, hu⟩ : ∃ u, u = Real.sqrt (2 / (e * EPSILON0 * (1 - θ))) := ⟨_, rfl⟩
  obtain ⟨v, hv⟩ : ∃ v, v = Real.sqrt (4 / (MAGN_CONST * (1 - θ))) := ⟨_, rfl⟩
  have u2 : u ^ 2 = 2 / (e * EPSILON0 * (1 - θ)) := by rw [hu]; exact Real.sq_sqrt (by positivity)
  have v2 : v ^ 2 = 4 / (MAGN_CONST * (1 - θ)) := by rw [hv]; exact Real.sq_sqrt (by positivity)
  have u0 : 0 ≤ u := by rw [hu]; positivity
  have v0 : 0 ≤ v := by rw [hv]; positivity
  rw [← u2] at fE
  rw [← v2] at fH
  rw [← hu, ← hv]
  have uv : 0 ≤ u * v := mul_nonneg u0 v0
  have sq : (K * (u + v) * (Δ + ζ)) ^ 2 = (u + v) ^ 2 * (K * (Δ + ζ)) ^ 2 := by ring
  rw [sq]
  constructor
  · refine fE.trans (mul_le_mul_of_nonneg_right (by nlinarith only [uv, sq_nonneg u, sq_nonneg v]) (sq_nonneg _))
  · refine fH.trans (mul_le_mul_of_nonneg_right (by nlinarith only [uv, sq_nonneg u, sq_nonneg v]) (sq_nonneg _))

end Verif
