import Verif.YeeStep
import Verif.Continuity
import Mathlib.Algebra.BigOperators.Intervals
import Mathlib.Algebra.BigOperators.Ring.Finset
import Mathlib.Algebra.Order.BigOperators.Group.Finset
import Mathlib.Order.Interval.Finset.Defs
import Mathlib.Data.Int.Interval

/-!
# Conservation laws of the field step: specification and pure proofs (C08-C11)
-/

namespace Verif

/-! ## Specification -/

/-- Discrete divergence of the magnetic field in the cell with corners `(i,k)` and `(i+1,k+1)`:
`H_r[i][k]` lives at radius `i*dr`, `H_z[i][k]` at radius `(i+1/2)dr` and height `k*dz`. -/
noncomputable def divH (G : Geom) (F : Fields) (i k : ℤ) : ℝ :=
  (((i : ℝ) + 1) * G.dr * F .hr (i + 1) k - (i : ℝ) * G.dr * F .hr i k)
      / (((i : ℝ) + 1 / 2) * G.dr * G.dr)
    + (F .hz i (k + 1) - F .hz i k) / G.dz

/-- Tangential electric field vanishes on the conducting walls. -/
structure WallE (G : Geom) (F : Fields) : Prop where
  phi_axis : ∀ k : ℤ, 0 ≤ k → k < G.nz → F .ephi 0 k = 0
  phi_outer : ∀ k : ℤ, 0 ≤ k → k < G.nz → F .ephi (G.nr - 1) k = 0
  phi_left : ∀ i : ℤ, 0 ≤ i → i < G.nr → F .ephi i 0 = 0
  phi_right : ∀ i : ℤ, 0 ≤ i → i < G.nr → F .ephi i (G.nz - 1) = 0
  r_left : ∀ i : ℤ, 0 ≤ i → i < G.nr - 1 → F .er i 0 = 0
  r_right : ∀ i : ℤ, 0 ≤ i → i < G.nr - 1 → F .er i (G.nz - 1) = 0
  z_outer : ∀ k : ℤ, 0 ≤ k → k < G.nz - 1 → F .ez (G.nr - 1) k = 0

/-- Defect of Gauss's law for the control volume of node `(a,b)`: electric flux through its faces
minus the enclosed charge.  `e` is the permittivity relative to vacuum. -/
noncomputable def gaussDefect (G : Geom) (e : ℝ) (F : Fields) (rho : Grid) (a b : ℤ) : ℝ :=
  e * EPSILON0 * netOutflow G (F .er) (F .ez) a b - rho a b * nodeVolume G a

/-- sum over `a ≤ i < b`, `c ≤ k < d` -/
noncomputable def sumBox (a b c d : ℤ) (f : ℤ → ℤ → ℝ) : ℝ :=
  ∑ i ∈ Finset.Ico a b, ∑ k ∈ Finset.Ico c d, f i k

/-- Volume of the ring of radius `x*dr` around which a field component lives. -/
noncomputable def ringVol (G : Geom) (x : ℝ) : ℝ := 2 * PI * (x * G.dr) * G.dr * G.dz

/-- Volume of the control cylinder of `E_z` on the axis. -/
noncomputable def axisVol (G : Geom) : ℝ := PI * (G.dr / 2) * (G.dr / 2) * G.dz

/-- Sum of `f` over all updated nodes of the electric field (component by component), weighted by
volume. The nodes on conducting walls carry no tangential field. -/
noncomputable def sumE (G : Geom) (f : Arr → ℤ → ℤ → ℝ) : ℝ :=
  sumBox 0 (G.nr - 1) 1 (G.nz - 1) (fun i k => ringVol G ((i : ℝ) + 1 / 2) * f .er i k)
  + sumBox 1 (G.nr - 1) 1 (G.nz - 1) (fun i k => ringVol G (i : ℝ) * f .ephi i k)
  + sumBox 1 (G.nr - 1) 0 (G.nz - 1) (fun i k => ringVol G (i : ℝ) * f .ez i k)
  + ∑ k ∈ Finset.Ico 0 ((G.nz : ℤ) - 1), axisVol G * f .ez 0 k

/-- Sum of `f` over all updated nodes of the magnetic field, weighted by volume. -/
noncomputable def sumH (G : Geom) (f : Arr → ℤ → ℤ → ℝ) : ℝ :=
  sumBox 0 G.nr 0 (G.nz - 1) (fun i k => ringVol G (i : ℝ) * f .hr i k)
  + sumBox 0 (G.nr - 1) 0 (G.nz - 1) (fun i k => ringVol G ((i : ℝ) + 1 / 2) * f .hphi i k)
  + sumBox 0 (G.nr - 1) 0 (G.nz - 1) (fun i k => ringVol G ((i : ℝ) + 1 / 2) * f .hz i k)

/-- Staggered-time field energy: `1/2 eps E(t)^2 + 1/2 mu H(t-dt/2) H(t+dt/2)`. `F` holds `E(t)` and
`H(t-dt/2)`, `F'` holds `H(t+dt/2)`. -/
noncomputable def energy (G : Geom) (F F' : Fields) : ℝ :=
  sumE G (fun a i k => F .eps i k * EPSILON0 * F a i k ^ 2 / 2)
  + sumH G (fun a i k => MAGN_CONST * F a i k * F' a i k / 2)

/-! ## Divergence of H -/

theorem divH_hStep {G : Geom} (hG : G.Valid) (dt : ℝ) (F : Fields)
    (hw : ∀ i : ℤ, 0 ≤ i → i < G.nr → F .ephi i (G.nz - 1) = 0) {i k : ℤ}
    (hi : 0 ≤ i) (hi' : i < G.nr - 1) (hk : 0 ≤ k) (hk' : k < G.nz - 1) :
    divH G (hStep G dt F) i k = divH G F i k := by
  have dr := hG.dr_pos
  have dz := hG.dz_pos
  have hm := MAGN_CONST_pos
  have hih : (0:ℝ) < (i : ℝ) + 1 / 2 := by
    have : (0:ℝ) ≤ i := by exact_mod_cast hi
    linarith
  have hih' : (0:ℝ) < (i : ℝ) + 0.5 := by norm_num; linarith
  have h1 : hStep G dt F .hr (i + 1) k = F .hr (i + 1) k + alphaR G dt F (i + 1) k := by
    simp only [hStep]; rw [if_pos (by simp only [Box]; omega)]
  have h2 : hStep G dt F .hr i k = F .hr i k + alphaR G dt F i k := by
    simp only [hStep]; rw [if_pos (by simp only [Box]; omega)]
  have h3 : hStep G dt F .hz i k = F .hz i k - alphaZ G dt F i k := by
    simp only [hStep]; rw [if_pos (by simp only [Box]; omega)]
  have h4 : hStep G dt F .hz i (k + 1) = F .hz i (k + 1) - alphaZ G dt F i (k + 1) := by
    by_cases e : k + 1 < G.nz - 1
    · simp only [hStep]; rw [if_pos (by simp only [Box]; omega)]
    · have ek : k + 1 = G.nz - 1 := by omega
      simp only [hStep]
      rw [if_neg (by simp only [Box]; omega), alphaZ, ek, hw i hi (by omega),
        hw (i + 1) (by omega) (by omega)]
      simp
  unfold divH
  rw [h1, h2, h3, h4]
  unfold alphaR alphaZ
  have e5 : (0.5 : ℝ) = 1 / 2 := by norm_num
  rw [e5]
  field_simp
  ring

/-! ## Walls -/

theorem WallE.hStep {G : Geom} {F : Fields} (h : WallE G F) (dt : ℝ) : WallE G (hStep G dt F) :=
  ⟨h.1, h.2, h.3, h.4, h.5, h.6, h.7⟩

theorem WallE.withJ {G : Geom} {F : Fields} (h : WallE G F) (a b c : Grid) :
    WallE G (withJ F a b c) := ⟨h.1, h.2, h.3, h.4, h.5, h.6, h.7⟩

theorem WallE.eStep {G : Geom} (hG : G.Valid) {F : Fields} (h : WallE G F) (dt : ℝ) :
    WallE G (eStep G dt F) := by
  have n1 := hG.nr_ge
  have n2 := hG.nz_ge
  constructor
  · intro k a b; simp only [Verif.eStep]; rw [if_neg (by simp only [Box]; omega)]; exact h.1 k a b
  · intro k a b; simp only [Verif.eStep]; rw [if_neg (by simp only [Box]; omega)]; exact h.2 k a b
  · intro i a b; simp only [Verif.eStep]; rw [if_neg (by simp only [Box]; omega)]; exact h.3 i a b
  · intro i a b; simp only [Verif.eStep]; rw [if_neg (by simp only [Box]; omega)]; exact h.4 i a b
  · intro i a b; simp only [Verif.eStep]; rw [if_neg (by simp only [Box]; omega)]; exact h.5 i a b
  · intro i a b; simp only [Verif.eStep]; rw [if_neg (by simp only [Box]; omega)]; exact h.6 i a b
  · intro k a b
    simp only [Verif.eStep]
    rw [if_neg (by simp only [Box]; omega), if_neg (by simp only [Box]; omega)]; exact h.7 k a b

theorem WallE.fStep {G : Geom} (hG : G.Valid) {F : Fields} (h : WallE G F) (dt : ℝ)
    (a b c : Grid) : WallE G (fStep G dt a b c F) := ((h.hStep dt).withJ a b c).eStep hG dt

theorem WallE.setup (G : Geom) (sig : Grid) : WallE G (setupFields sig) := by
  constructor <;> intros <;> rfl

theorem WallE.run {G : Geom} (hG : G.Valid) {F : Fields} (h : WallE G F) (dt : ℝ)
    (calls : ℕ → List JCall) (n : ℕ) : WallE G (fRun G dt calls F n) := by
  induction n with
  | zero => exact h
  | succ n ih => exact ih.fStep hG dt _ _ _

/-! ## Gauss's law -/

theorem koefE_lossless {e dt : ℝ} (he : 0 < e) : koefE e 0 dt = 1 := by
  have := EPSILON0_pos
  unfold koefE; rw [zero_mul, sub_zero, add_zero]
  exact div_self (by positivity)

theorem koefH_lossless {e dt : ℝ} (he : 0 < e) : koefH e 0 dt = dt / (e * EPSILON0) := by
  have := EPSILON0_pos
  unfold koefH; rw [zero_mul, add_zero]; field_simp

theorem gauss_eStep {G : Geom} (hG : G.Valid) (dt : ℝ) {e : ℝ} (he : 0 < e) (F : Fields)
    (rho rho' : Grid) {a b : ℤ} (ha : 0 ≤ a) (ha' : a < G.nr - 1) (hb : 1 ≤ b)
    (hb' : b < G.nz - 1) (heps : ∀ i k, Box 0 G.nr 0 G.nz i k → F .eps i k = e)
    (hsig : ∀ i k, Box 0 G.nr 0 G.nz i k → F .sig i k = 0)
    (hc : (rho' a b - rho a b) * nodeVolume G a + dt * netOutflow G (F .jr) (F .jz) a b = 0) :
    gaussDefect G e (eStep G dt F) rho' a b = gaussDefect G e F rho a b := by
  have dr := hG.dr_pos
  have dz := hG.dz_pos
  have h0 := EPSILON0_pos
  have hpi := PI_pos
  have kE1 : ∀ i k, Box 0 G.nr 0 G.nz i k → kE dt F i k = 1 := fun i k h => by
    rw [kE, heps i k h, hsig i k h, koefE_lossless he]
  have kH1 : ∀ i k, Box 0 G.nr 0 G.nz i k → kH dt F i k = dt / (e * EPSILON0) := fun i k h => by
    rw [kH, heps i k h, hsig i k h, koefH_lossless he]
  have r1 : eStep G dt F .er a b = newEr G dt F a b := by
    simp only [eStep]; rw [if_pos (by simp only [Box]; omega)]
  unfold gaussDefect
  unfold netOutflow at hc ⊢
  rw [r1]
  unfold newEr
  rw [kE1 a b (by simp only [Box]; omega), kH1 a b (by simp only [Box]; omega)]
  rcases eq_or_lt_of_le ha with h | h
  · subst h
    have z1 : eStep G dt F .ez 0 b = newEz0 G dt F 0 b := by
      simp only [eStep]; rw [if_pos (by simp only [Box]; omega)]
    have z2 : eStep G dt F .ez 0 (b - 1) = newEz0 G dt F 0 (b - 1) := by
      simp only [eStep]; rw [if_pos (by simp only [Box]; omega)]
    rw [z1, z2]
    unfold newEz0
    rw [kE1 0 b (by simp only [Box]; omega), kH1 0 b (by simp only [Box]; omega),
      kE1 0 (b - 1) (by simp only [Box]; omega), kH1 0 (b - 1) (by simp only [Box]; omega)]
    rw [nodeVolume_zero G hG] at hc ⊢
    unfold CYL_VOL at hc ⊢
    have m1 : max 0 ((((0:ℤ) : ℝ) - 1 / 2) * G.dr) = 0 := by
      apply max_eq_left; push_cast; nlinarith
    have m2 : max 0 ((((0:ℤ) : ℝ) + 1 / 2) * G.dr) = 1 / 2 * G.dr := by
      rw [max_eq_right] <;> push_cast <;> [ring; positivity]
    rw [m1, m2] at hc ⊢
    field_simp at hc ⊢
    simp only [mul_zero] at hc
    linear_combination (-1) * (mul_eq_zero.1 hc).resolve_left hpi.ne'
  · have r2 : eStep G dt F .er (a - 1) b = newEr G dt F (a - 1) b := by
      simp only [eStep]; rw [if_pos (by simp only [Box]; omega)]
    have z1 : eStep G dt F .ez a b = newEz G dt F a b := by
      simp only [eStep]
      rw [if_neg (by simp only [Box]; omega), if_pos (by simp only [Box]; omega)]
    have z2 : eStep G dt F .ez a (b - 1) = newEz G dt F a (b - 1) := by
      simp only [eStep]
      rw [if_neg (by simp only [Box]; omega), if_pos (by simp only [Box]; omega)]
    rw [z1, z2, r2]
    unfold newEz newEr
    rw [kE1 a b (by simp only [Box]; omega), kH1 a b (by simp only [Box]; omega),
      kE1 a (b - 1) (by simp only [Box]; omega), kH1 a (b - 1) (by simp only [Box]; omega),
      kE1 (a - 1) b (by simp only [Box]; omega), kH1 (a - 1) b (by simp only [Box]; omega)]
    have hA : (1:ℝ) ≤ (a : ℝ) := by exact_mod_cast h
    have hA0 : (a : ℝ) ≠ 0 := by linarith
    rw [nodeVolume_pos_idx G hG h] at hc ⊢
    unfold CELL_VOLUME at hc ⊢
    rw [max_eq_right (by nlinarith), max_eq_right (by nlinarith)] at hc ⊢
    field_simp at hc ⊢
    linear_combination (-1) * (mul_eq_zero.1 hc).resolve_left (mul_pos hpi dr).ne'

end Verif
