import Verif.FieldRounded
import Verif.ConvergeProps
import Mathlib.Analysis.Complex.ExponentialBounds

/-!
# Rounding errors of the fields (C102)
-/

namespace Verif

open Finset

/-! ## Specification -/

/-- Energy of the fields `x` in a medium of relative permittivity `ep` -/
noncomputable def storedEnergy (G : Geom) (ep : Grid) (x : Fields) : ℝ :=
  sumE G (fun a i k => ep i k * EPSILON0 * x a i k ^ 2 / 2) + sumH G (fun a i k => MAGN_CONST * x a i k ^ 2 / 2)

/-- Energy of unit fields -/
noncomputable def unitEnergy (G : Geom) (ep : Grid) : ℝ := storedEnergy G ep (fun _ _ _ => 1)

/-- Energy of the electric field that the currents `j` add in one step -/
noncomputable def currentEnergy (G : Geom) (dt : ℝ) (ep sg : Grid) (j : Arr → ℤ → ℤ → ℝ) : ℝ :=
  sumE G (fun a i k => ep i k * EPSILON0 * (koefH (ep i k) (sg i k) dt * j a i k) ^ 2 / 2)

/-! ## Sizes and curls -/

/-- sign that alternates between neighbours -/
noncomputable def alt (i k : ℤ) : ℝ := if Even (i + k) then 1 else -1

theorem alt_sq (i k : ℤ) : alt i k ^ 2 = 1 := by unfold alt; split_ifs <;> norm_num

theorem alt_i (i k : ℤ) : alt (i + 1) k = -alt i k := by
  have : Even (i + 1 + k) ↔ ¬ Even (i + k) := by
    rw [show i + 1 + k = i + k + 1 by ring, Int.even_add_one]
  unfold alt
  by_cases h : Even (i + k)
  · rw [if_pos h, if_neg (by rw [this]; exact not_not.2 h)]
  · rw [if_neg h, if_pos (this.2 h)]; norm_num

theorem alt_k (i k : ℤ) : alt i (k + 1) = -alt i k := by
  have : Even (i + (k + 1)) ↔ ¬ Even (i + k) := by
    rw [show i + (k + 1) = i + k + 1 by ring, Int.even_add_one]
  unfold alt
  by_cases h : Even (i + k)
  · rw [if_pos h, if_neg (by rw [this]; exact not_not.2 h)]
  · rw [if_neg h, if_pos (this.2 h)]; norm_num

theorem alt_i' (i k : ℤ) : alt (i - 1) k = -alt i k := by
  have := alt_i (i - 1) k
  rw [sub_add_cancel] at this; linarith

theorem alt_k' (i k : ℤ) : alt i (k - 1) = -alt i k := by
  have := alt_k i (k - 1)
  rw [sub_add_cancel] at this; linarith

/-- fields of the same absolute values whose terms do not cancel -/
noncomputable def altF (x : Fields) : Fields
  | .er, i, k => -(alt i k * |x .er i k|)
  | .hz, i, k => -(alt i k * |x .hz i k|)
  | a, i, k => alt i k * |x a i k|

theorem altF_sq (x : Fields) (a : Arr) (i k : ℤ) : altF x a i k ^ 2 = x a i k ^ 2 := by
  have e := alt_sq i k
  cases a <;> simp only [altF, neg_sq, mul_pow, e, sq_abs, one_mul]

theorem altF_wall {G : Geom} {x : Fields} (h : WallE G x) : WallE G (altF x) := by
  constructor
  · intro k p q; simp only [altF, h.1 k p q]; simp
  · intro k p q; simp only [altF, h.2 k p q]; simp
  · intro k p q; simp only [altF, h.3 k p q]; simp
  · intro k p q; simp only [altF, h.4 k p q]; simp
  · intro k p q; simp only [altF, h.5 k p q]; simp
  · intro k p q; simp only [altF, h.6 k p q]; simp
  · intro k p q; simp only [altF, h.7 k p q]; simp

theorem sizeE_le {G : Geom} (hG : G.Valid) {x : Fields} (hw : WallE G x) {a : Arr} {i k : ℤ} (hn : HNode G a i k) :
    sizeE G x a i k ^ 2 ≤ 4 * curlE G (altF x) a i k ^ 2 := by
  have dr := hG.dr_pos
  have dz := hG.dz_pos
  have e := alt_sq i k
  cases a <;> simp only [HNode, Box] at hn
  · simp only [sizeE, curlE, altF, alt_k]
    have : (-alt i k * |x .ephi i (k + 1)| - alt i k * |x .ephi i k|) / G.dz =
        alt i k * (-((|x .ephi i (k + 1)| + |x .ephi i k|) / G.dz)) := by ring
    rw [this, mul_pow, e, neg_sq, one_mul]
    have := sq_nonneg ((|x .ephi i (k + 1)| + |x .ephi i k|) / G.dz)
    linarith
  · simp only [sizeE, curlE, altF, alt_k, alt_i]
    have : (-alt i k * |x .ez (i + 1) k| - alt i k * |x .ez i k|) / G.dr -
        (-(-alt i k * |x .er i (k + 1)|) - -(alt i k * |x .er i k|)) / G.dz =
        alt i k * (-((|x .ez (i + 1) k| + |x .ez i k|) / G.dr + (|x .er i (k + 1)| + |x .er i k|) / G.dz)) := by ring
    rw [this, mul_pow, e, neg_sq, one_mul]
    have := sq_nonneg ((|x .ez (i + 1) k| + |x .ez i k|) / G.dr + (|x .er i (k + 1)| + |x .er i k|) / G.dz)
    linarith
  · simp only [sizeE, curlE, altF, alt_i]
    have e5 : (0.5 : ℝ) = 1 / 2 := by norm_num
    rw [e5]
    have i0 : (0:ℝ) ≤ (i:ℝ) := by exact_mod_cast hn.1
    obtain ⟨p, hp⟩ : ∃ p, p = |x .ephi (i + 1) k| := ⟨_, rfl⟩
    obtain ⟨q, hq⟩ : ∃ q, q = |x .ephi i k| := ⟨_, rfl⟩
    rw [← hp, ← hq]
    have p0 : 0 ≤ p := by rw [hp]; exact abs_nonneg _
    have q0 : 0 ≤ q := by rw [hq]; exact abs_nonneg _
    have s1 : (p + q) / (2 * G.dr * ((i:ℝ) + 1 / 2)) + (p + q) / G.dr =
        (p + q) * ((i:ℝ) + 1) / (G.dr * ((i:ℝ) + 1 / 2)) := by field_simp; ring
    have s2 : -((-alt i k * p + alt i k * q) / (2 * G.dr * ((i:ℝ) + 1 / 2)) + (-alt i k * p - alt i k * q) / G.dr) =
        alt i k * ((((i:ℝ) + 1) * p + i * q) / (G.dr * ((i:ℝ) + 1 / 2))) := by field_simp; ring
    rw [s1, s2, mul_pow, e, one_mul]
    have key : (p + q) * ((i:ℝ) + 1) ≤ 2 * (((i:ℝ) + 1) * p + i * q) := by
      rcases eq_or_lt_of_le hn.1 with h0 | h0
      · have : q = 0 := by rw [hq, ← h0, hw.1 k (by omega) (by omega), abs_zero]
        rw [this]; nlinarith [mul_nonneg p0 i0]
      · have : (1:ℝ) ≤ (i:ℝ) := by exact_mod_cast h0
        nlinarith [mul_nonneg p0 i0, mul_nonneg q0 i0]
    rw [div_pow, div_pow, mul_div_assoc', div_le_div_iff_of_pos_right (by positivity)]
    have : 0 ≤ (p + q) * ((i:ℝ) + 1) := by positivity
    nlinarith

theorem sizeH_le {G : Geom} (hG : G.Valid) (x : Fields) {a : Arr} {i k : ℤ} (hn : ENode G a i k) :
    sizeH G x a i k ^ 2 ≤ 9 * curlH G (altF x) a i k ^ 2 := by
  have dr := hG.dr_pos
  have dz := hG.dz_pos
  have e := alt_sq i k
  cases a <;> simp only [ENode, Box] at hn
  · simp only [sizeH, curlH, altF, alt_k']
    have : -((alt i k * |x .hphi i k| - -alt i k * |x .hphi i (k - 1)|) / G.dz) =
        alt i k * (-((|x .hphi i k| + |x .hphi i (k - 1)|) / G.dz)) := by ring
    rw [this, mul_pow, e, neg_sq, one_mul]
    have := sq_nonneg ((|x .hphi i k| + |x .hphi i (k - 1)|) / G.dz)
    linarith
  · simp only [sizeH, curlH, altF, alt_k', alt_i']
    have : (alt i k * |x .hr i k| - -alt i k * |x .hr i (k - 1)|) / G.dz -
        (-(alt i k * |x .hz i k|) - -(-alt i k * |x .hz (i - 1) k|)) / G.dr =
        alt i k * ((|x .hr i k| + |x .hr i (k - 1)|) / G.dz + (|x .hz i k| + |x .hz (i - 1) k|) / G.dr) := by ring
    rw [this, mul_pow, e, one_mul]
    have := sq_nonneg ((|x .hr i k| + |x .hr i (k - 1)|) / G.dz + (|x .hz i k| + |x .hz (i - 1) k|) / G.dr)
    linarith
  · simp only [sizeH, curlH, altF, alt_i']
    split_ifs with h0
    · have : 4 / G.dr * (alt i k * |x .hphi i k|) = alt i k * (4 / G.dr * |x .hphi i k|) := by ring
      rw [this, mul_pow (alt i k), e, one_mul]
      have := sq_nonneg (4 / G.dr * |x .hphi i k|)
      linarith
    · have i1 : (1:ℝ) ≤ (i:ℝ) := by
        have : 1 ≤ i := by omega
        exact_mod_cast this
      obtain ⟨p, hp⟩ : ∃ p, p = |x .hphi i k| := ⟨_, rfl⟩
      obtain ⟨q, hq⟩ : ∃ q, q = |x .hphi (i - 1) k| := ⟨_, rfl⟩
      rw [← hp, ← hq]
      have p0 : 0 ≤ p := by rw [hp]; exact abs_nonneg _
      have q0 : 0 ≤ q := by rw [hq]; exact abs_nonneg _
      have s1 : (p + q) / G.dr + (p + q) / (2 * G.dr * (i:ℝ)) = (p + q) * (2 * i + 1) / (2 * G.dr * (i:ℝ)) := by
        field_simp
      have s2 : (alt i k * p - -alt i k * q) / G.dr + (alt i k * p + -alt i k * q) / (2 * G.dr * (i:ℝ)) =
          alt i k * (((2 * i + 1) * p + (2 * i - 1) * q) / (2 * G.dr * (i:ℝ))) := by field_simp; ring
      rw [s1, s2, mul_pow (alt i k), e, one_mul]
      have key : (p + q) * (2 * (i:ℝ) + 1) ≤ 3 * ((2 * (i:ℝ) + 1) * p + (2 * (i:ℝ) - 1) * q) := by
        nlinarith [mul_nonneg p0 (by linarith : (0:ℝ) ≤ (i:ℝ) - 1), mul_nonneg q0 (by linarith : (0:ℝ) ≤ (i:ℝ) - 1)]
      rw [div_pow, div_pow, mul_div_assoc', div_le_div_iff_of_pos_right (by positivity)]
      have : 0 ≤ (p + q) * (2 * (i:ℝ) + 1) := by positivity
      nlinarith

/-- the curl of the magnetic field is bounded like that of the electric field, its adjoint -/
theorem curlH_le {G : Geom} (hG : G.Valid) (x : Fields) :
    sumE G (fun a i k => curlH G x a i k ^ 2) ≤ curlBound G * sumH G (fun a i k => x a i k ^ 2) := by
  classical
  have dr := hG.dr_pos
  have dz := hG.dz_pos
  have n1 := hG.nr_ge
  have n2 := hG.nz_ge
  have hB : 0 < curlBound G := by unfold curlBound; positivity
  let e : Fields := fun a i k => if ENode G a i k then curlH G x a i k else 0
  have off : ∀ a i k, ¬ ENode G a i k → e a i k = 0 := fun a i k h => if_neg h
  have we : WallE G e := by
    constructor <;> intro k p q <;> apply off <;> simp only [ENode, Box] <;> omega
  have A := adjoint hG x e we
  have on : sumE G (fun a i k => e a i k * curlH G x a i k) = sumE G (fun a i k => curlH G x a i k ^ 2) :=
    sumE_congr hG fun a i k hn => by simp only [e, if_pos hn]; ring
  have on2 : sumE G (fun a i k => e a i k ^ 2) = sumE G (fun a i k => curlH G x a i k ^ 2) :=
    sumE_congr hG fun a i k hn => by simp only [e, if_pos hn]
  have B := curlE_le hG e we
  rw [on] at A
  rw [on2] at B
  obtain ⟨T, hT⟩ : ∃ T, T = sumE G (fun a i k => curlH G x a i k ^ 2) := ⟨_, rfl⟩
  rw [← hT] at A B ⊢
  -- `- F·c ≤ (B F² + c²/B)/2`
  have C : -sumH G (fun a i k => x a i k * curlE G e a i k) ≤
      curlBound G / 2 * sumH G (fun a i k => x a i k ^ 2) +
        1 / (2 * curlBound G) * sumH G (fun a i k => curlE G e a i k ^ 2) := by
    have h : 0 ≤ sumH G (fun a i k => 1 * (x a i k * curlE G e a i k) +
        (curlBound G / 2 * x a i k ^ 2 + 1 / (2 * curlBound G) * curlE G e a i k ^ 2)) := by
      apply sumH_nonneg hG
      intro a i k _
      have : 1 * (x a i k * curlE G e a i k) + (curlBound G / 2 * x a i k ^ 2 + 1 / (2 * curlBound G) * curlE G e a i k ^ 2) =
          1 / (2 * curlBound G) * (curlBound G * x a i k + curlE G e a i k) ^ 2 := by field_simp; ring
      rw [this]; positivity
    rw [sumH_lin, sumH_lin, sumH_mul] at h
    linarith
  have D : 1 / (2 * curlBound G) * sumH G (fun a i k => curlE G e a i k ^ 2) ≤ T / 2 := by
    calc _ ≤ 1 / (2 * curlBound G) * (curlBound G * T) := mul_le_mul_of_nonneg_left B (by positivity)
      _ = T / 2 := by field_simp
  linarith

/-! ## Residuals of one step -/

theorem sumH_add3 (G : Geom) (p q r : ℝ) (f g h : Arr → ℤ → ℤ → ℝ) :
    sumH G (fun a i k => p * f a i k + (q * g a i k + r * h a i k)) = p * sumH G f + (q * sumH G g + r * sumH G h) := by
  rw [sumH_lin, sumH_lin, sumH_mul]

theorem sumE_add3 (G : Geom) (p q r : ℝ) (f g h : Arr → ℤ → ℤ → ℝ) :
    sumE G (fun a i k => p * f a i k + (q * g a i k + r * h a i k)) = p * sumE G f + (q * sumE G g + r * sumE G h) := by
  rw [sumE_lin, sumE_lin, sumE_mul]

theorem sumE_add5 (G : Geom) (p q r s t : ℝ) (f g h u v : Arr → ℤ → ℤ → ℝ) :
    sumE G (fun a i k => p * f a i k + (q * g a i k + (r * h a i k + (s * u a i k + t * v a i k)))) =
      p * sumE G f + (q * sumE G g + (r * sumE G h + (s * sumE G u + t * sumE G v))) := by
  rw [sumE_lin, sumE_lin, sumE_lin, sumE_lin, sumE_mul]

theorem FormOk.dt_curl {G : Geom} {dt e θ : ℝ} {ep : Grid} (h : FormOk G dt e θ ep) :
    dt ^ 2 * curlBound G ≤ 4 * (e * EPSILON0 * MAGN_CONST) := by
  have l : dt ^ 2 * (4 / 3 / G.dr ^ 2 + 1 / G.dz ^ 2) ≤ θ * (e * EPSILON0 * MAGN_CONST) := h.limit
  have h0 := EPSILON0_pos
  have hm := MAGN_CONST_pos
  have he := h.e_pos
  have : θ * (e * EPSILON0 * MAGN_CONST) ≤ 1 * (e * EPSILON0 * MAGN_CONST) :=
    mul_le_mul_of_nonneg_right h.theta1 (by positivity)
  have e1 : curlBound G = 4 * (4 / 3 / G.dr ^ 2 + 1 / G.dz ^ 2) := by unfold curlBound; ring
  rw [e1]; linarith

theorem FormOk.sum_sq {G : Geom} {dt e θ : ℝ} {ep : Grid} (h : FormOk G dt e θ ep) (x : Fields) :
    e * EPSILON0 / 2 * sumE G (fun a i k => x a i k ^ 2) ≤ sumE G (fun a i k => ep i k * EPSILON0 * x a i k ^ 2 / 2) := by
  have h0 := EPSILON0_pos
  rw [← sumE_mul]
  apply sumE_le h.valid
  intro a i k hn
  have p := h.eps i k hn.box
  have : 0 ≤ EPSILON0 * x a i k ^ 2 := by positivity
  nlinarith [mul_le_mul_of_nonneg_right p this]

/-- the curl of the electric field times the step, in terms of its energy -/
theorem FormOk.curl_energy {G : Geom} {dt e θ : ℝ} {ep : Grid} (h : FormOk G dt e θ ep) {x : Fields} (wx : WallE G x) :
    sumH G (fun a i k => MAGN_CONST * (dt / MAGN_CONST * curlE G x a i k) ^ 2 / 2) ≤
      4 * sumE G (fun a i k => ep i k * EPSILON0 * x a i k ^ 2 / 2) := by
  have hm := MAGN_CONST_pos
  have h0 := EPSILON0_pos
  have he := h.e_pos
  have e1 : sumH G (fun a i k => MAGN_CONST * (dt / MAGN_CONST * curlE G x a i k) ^ 2 / 2) =
      dt ^ 2 / (2 * MAGN_CONST) * sumH G (fun a i k => curlE G x a i k ^ 2) := by
    rw [← sumH_mul]; exact sumH_congr fun a i k _ => by field_simp
  rw [e1]
  have n0 : 0 ≤ sumE G (fun a i k => x a i k ^ 2) := sumE_nonneg h.valid fun a i k _ => sq_nonneg _
  calc _ ≤ dt ^ 2 / (2 * MAGN_CONST) * (curlBound G * sumE G (fun a i k => x a i k ^ 2)) :=
        mul_le_mul_of_nonneg_left (curlE_le h.valid x wx) (by positivity)
    _ = dt ^ 2 * curlBound G / (2 * MAGN_CONST) * sumE G (fun a i k => x a i k ^ 2) := by ring
    _ ≤ 4 * (e * EPSILON0 * MAGN_CONST) / (2 * MAGN_CONST) * sumE G (fun a i k => x a i k ^ 2) := by
        have := h.dt_curl
        gcongr
    _ = 4 * (e * EPSILON0 / 2 * sumE G (fun a i k => x a i k ^ 2)) := by field_simp
    _ ≤ _ := by have := h.sum_sq x; linarith

/-- the size of the terms of the magnetic update -/
theorem FormOk.sizeE_energy {G : Geom} {dt e θ : ℝ} {ep : Grid} (h : FormOk G dt e θ ep) {x : Fields} (wx : WallE G x) :
    sumH G (fun a i k => MAGN_CONST * (dt / MAGN_CONST * sizeE G x a i k) ^ 2 / 2) ≤
      16 * sumE G (fun a i k => ep i k * EPSILON0 * x a i k ^ 2 / 2) := by
  have hm := MAGN_CONST_pos
  have A := h.curl_energy (altF_wall wx)
  have e1 : sumE G (fun a i k => ep i k * EPSILON0 * altF x a i k ^ 2 / 2) =
      sumE G (fun a i k => ep i k * EPSILON0 * x a i k ^ 2 / 2) := sumE_congr h.valid fun a i k _ => by rw [altF_sq]
  rw [e1] at A
  have : sumH G (fun a i k => MAGN_CONST * (dt / MAGN_CONST * sizeE G x a i k) ^ 2 / 2) ≤
      sumH G (fun a i k => 4 * (MAGN_CONST * (dt / MAGN_CONST * curlE G (altF x) a i k) ^ 2 / 2)) := by
    apply sumH_le h.valid
    intro a i k hn
    have := sizeE_le h.valid wx hn
    rw [mul_pow, mul_pow]
    have c : 0 ≤ MAGN_CONST * (dt / MAGN_CONST) ^ 2 / 2 := by positivity
    have := mul_le_mul_of_nonneg_left this c
    linarith
  rw [sumH_mul] at this
  linarith

/-- the size of the terms of the electric update -/
theorem FormOk.sizeH_energy {G : Geom} {dt e θ : ℝ} {ep sg : Grid} (h : FormOk G dt e θ ep) (hdt : 0 ≤ dt)
    (hsg : ∀ i k, Box 0 G.nr 0 G.nz i k → 0 ≤ sg i k) (x : Fields) :
    sumE G (fun a i k => ep i k * EPSILON0 * (koefH (ep i k) (sg i k) dt * sizeH G x a i k) ^ 2 / 2) ≤
      36 * sumH G (fun a i k => MAGN_CONST * x a i k ^ 2 / 2) := by
  have hm := MAGN_CONST_pos
  have h0 := EPSILON0_pos
  have he := h.e_pos
  have e1 : sumH G (fun a i k => MAGN_CONST * x a i k ^ 2 / 2) = MAGN_CONST / 2 * sumH G (fun a i k => altF x a i k ^ 2) := by
    rw [← sumH_mul]; exact sumH_congr fun a i k _ => by rw [altF_sq]; ring
  have n0 : 0 ≤ sumH G (fun a i k => altF x a i k ^ 2) := sumH_nonneg h.valid fun a i k _ => sq_nonneg _
  calc _ ≤ sumE G (fun a i k => 9 * dt ^ 2 / (2 * (e * EPSILON0)) * curlH G (altF x) a i k ^ 2) := by
        apply sumE_le h.valid
        intro a i k hn
        have a1 := h.eps i k hn.box
        have a2 := hsg i k hn.box
        have a3 : 0 < ep i k := by linarith
        have a4 := sizeH_le h.valid x hn
        have kh : koefH (ep i k) (sg i k) dt ≤ dt / (ep i k * EPSILON0) := by
          unfold koefH
          rw [div_le_div_iff₀ (by positivity) (by positivity)]
          nlinarith [mul_nonneg (mul_nonneg hdt hdt) a2]
        have kh0 : 0 ≤ koefH (ep i k) (sg i k) dt := by unfold koefH; positivity
        have kq : koefH (ep i k) (sg i k) dt ^ 2 ≤ (dt / (ep i k * EPSILON0)) ^ 2 := pow_le_pow_left₀ kh0 kh 2
        calc ep i k * EPSILON0 * (koefH (ep i k) (sg i k) dt * sizeH G x a i k) ^ 2 / 2
            = ep i k * EPSILON0 * koefH (ep i k) (sg i k) dt ^ 2 * sizeH G x a i k ^ 2 / 2 := by ring
          _ ≤ ep i k * EPSILON0 * (dt / (ep i k * EPSILON0)) ^ 2 * (9 * curlH G (altF x) a i k ^ 2) / 2 := by gcongr
          _ = 9 * dt ^ 2 / (2 * (ep i k * EPSILON0)) * curlH G (altF x) a i k ^ 2 := by field_simp
          _ ≤ _ := by gcongr
    _ = 9 * dt ^ 2 / (2 * (e * EPSILON0)) * sumE G (fun a i k => curlH G (altF x) a i k ^ 2) := sumE_mul _ _ _
    _ ≤ 9 * dt ^ 2 / (2 * (e * EPSILON0)) * (curlBound G * sumH G (fun a i k => altF x a i k ^ 2)) :=
        mul_le_mul_of_nonneg_left (curlH_le h.valid _) (by positivity)
    _ = 9 * (dt ^ 2 * curlBound G) / (2 * (e * EPSILON0)) * sumH G (fun a i k => altF x a i k ^ 2) := by ring
    _ ≤ 9 * (4 * (e * EPSILON0 * MAGN_CONST)) / (2 * (e * EPSILON0)) * sumH G (fun a i k => altF x a i k ^ 2) := by
        have := h.dt_curl
        gcongr
    _ = _ := by rw [e1]; field_simp; ring

theorem sq_add3 (a b c : ℝ) : (a + b + c) ^ 2 ≤ 3 * (a ^ 2 + b ^ 2 + c ^ 2) := by
  nlinarith [sq_nonneg (a - b), sq_nonneg (b - c), sq_nonneg (a - c)]

theorem sq_add5 (a b c d f : ℝ) : (a + b + c + d + f) ^ 2 ≤ 5 * (a ^ 2 + b ^ 2 + c ^ 2 + d ^ 2 + f ^ 2) := by
  nlinarith [sq_nonneg (a - b), sq_nonneg (b - c), sq_nonneg (a - c), sq_nonneg (a - d), sq_nonneg (b - d), sq_nonneg (c - d),
    sq_nonneg (a - f), sq_nonneg (b - f), sq_nonneg (c - f), sq_nonneg (d - f)]

theorem EPS_pos : 0 < EPS := by unfold EPS; positivity
theorem ETA_pos : 0 < ETA := by unfold ETA; positivity

theorem unit_parts {G : Geom} {dt e θ : ℝ} {ep : Grid} (h : FormOk G dt e θ ep) :
    sumH G (fun _ _ _ => MAGN_CONST / 2) ≤ unitEnergy G ep ∧ sumE G (fun _ i k => ep i k * EPSILON0 / 2) ≤ unitEnergy G ep := by
  have hm := MAGN_CONST_pos
  have a := h.elec_nonneg (fun _ _ _ => 1)
  have b : 0 ≤ sumH G (fun _ _ _ => MAGN_CONST * (1:ℝ) ^ 2 / 2) := sumH_nonneg h.valid fun _ _ _ _ => by positivity
  have e1 : unitEnergy G ep = sumE G (fun _ i k => ep i k * EPSILON0 * (1:ℝ) ^ 2 / 2) +
    sumH G (fun _ _ _ => MAGN_CONST * (1:ℝ) ^ 2 / 2) := rfl
  rw [e1]
  simp only [one_pow, mul_one] at a b ⊢
  constructor <;> linarith

theorem FormOk.mag_residual {G : Geom} {dt e θ : ℝ} {ep : Grid} (h : FormOk G dt e θ ep) {x t : Fields}
    (wx : WallE G x) (ht : ∀ a i k, HNode G a i k → |t a i k| ≤ EPS * (|x a i k| + dt / MAGN_CONST * sizeE G x a i k) + ETA) :
    sumH G (fun a i k => MAGN_CONST * t a i k ^ 2 / 2) ≤ 51 * EPS ^ 2 * storedEnergy G ep x + 3 * ETA ^ 2 * unitEnergy G ep := by
  have hm := MAGN_CONST_pos
  have A := h.sizeE_energy wx
  have B := (unit_parts h).1
  have b0 : 0 ≤ sumH G (fun a i k => MAGN_CONST * x a i k ^ 2 / 2) := sumH_nonneg h.valid fun a i k _ => by positivity
  have C : sumH G (fun a i k => MAGN_CONST * t a i k ^ 2 / 2) ≤
      sumH G (fun a i k => 3 * EPS ^ 2 * (MAGN_CONST * x a i k ^ 2 / 2) +
        (3 * EPS ^ 2 * (MAGN_CONST * (dt / MAGN_CONST * sizeE G x a i k) ^ 2 / 2) + 3 * ETA ^ 2 * (MAGN_CONST / 2))) := by
    apply sumH_le h.valid
    intro a i k hn
    have h1 := ht a i k hn
    have h2 : t a i k ^ 2 ≤ (EPS * |x a i k| + EPS * (dt / MAGN_CONST * sizeE G x a i k) + ETA) ^ 2 := by
      rw [← sq_abs]
      apply pow_le_pow_left₀ (abs_nonneg _)
      linarith
    have h3 := h2.trans (sq_add3 _ _ _)
    rw [mul_pow, mul_pow, sq_abs] at h3
    have := mul_le_mul_of_nonneg_left h3 (by positivity : 0 ≤ MAGN_CONST / 2)
    linarith
  rw [sumH_add3] at C
  have e1 : storedEnergy G ep x = sumE G (fun a i k => ep i k * EPSILON0 * x a i k ^ 2 / 2) +
    sumH G (fun a i k => MAGN_CONST * x a i k ^ 2 / 2) := rfl
  rw [e1]
  have k1 := mul_le_mul_of_nonneg_left A (by positivity : 0 ≤ 3 * EPS ^ 2)
  have k2 := mul_le_mul_of_nonneg_left B (by positivity : 0 ≤ 3 * ETA ^ 2)
  have k3 := mul_nonneg (by positivity : 0 ≤ 48 * EPS ^ 2) b0
  have k4 := mul_nonneg (by positivity : 0 ≤ 3 * EPS ^ 2) (h.elec_nonneg x)
  linarith

theorem FormOk.mag_new {G : Geom} {dt e θ : ℝ} {ep : Grid} (h : FormOk G dt e θ ep) {x x' t : Fields}
    (wx : WallE G x) (ht : ∀ a i k, HNode G a i k → |t a i k| ≤ EPS * (|x a i k| + dt / MAGN_CONST * sizeE G x a i k) + ETA)
    (hx : ∀ a i k, HNode G a i k → x' a i k = x a i k + dt / MAGN_CONST * curlE G x a i k + t a i k) :
    sumH G (fun a i k => MAGN_CONST * x' a i k ^ 2 / 2) ≤ 13 * storedEnergy G ep x + 9 * ETA ^ 2 * unitEnergy G ep := by
  have hm := MAGN_CONST_pos
  have A := h.curl_energy wx
  have B := h.mag_residual wx ht
  have b0 : 0 ≤ sumH G (fun a i k => MAGN_CONST * x a i k ^ 2 / 2) := sumH_nonneg h.valid fun a i k _ => by positivity
  have C : sumH G (fun a i k => MAGN_CONST * x' a i k ^ 2 / 2) ≤
      sumH G (fun a i k => 3 * (MAGN_CONST * x a i k ^ 2 / 2) +
        (3 * (MAGN_CONST * (dt / MAGN_CONST * curlE G x a i k) ^ 2 / 2) + 3 * (MAGN_CONST * t a i k ^ 2 / 2))) := by
    apply sumH_le h.valid
    intro a i k hn
    rw [hx a i k hn]
    have := mul_le_mul_of_nonneg_left (sq_add3 (x a i k) (dt / MAGN_CONST * curlE G x a i k) (t a i k))
      (by positivity : 0 ≤ MAGN_CONST / 2)
    linarith
  rw [sumH_add3] at C
  have e1 : storedEnergy G ep x = sumE G (fun a i k => ep i k * EPSILON0 * x a i k ^ 2 / 2) +
    sumH G (fun a i k => MAGN_CONST * x a i k ^ 2 / 2) := rfl
  have w0 : 0 ≤ storedEnergy G ep x := by rw [e1]; have := h.elec_nonneg x; linarith
  have k1 : EPS ^ 2 * storedEnergy G ep x ≤ 1 / 153 * storedEnergy G ep x := by
    apply mul_le_mul_of_nonneg_right _ w0
    unfold EPS; norm_num
  have := h.elec_nonneg x
  linarith

theorem FormOk.elec_residual {G : Geom} {dt e θ : ℝ} {ep sg : Grid} (h : FormOk G dt e θ ep) (hdt : 0 ≤ dt)
    (hsg : ∀ i k, Box 0 G.nr 0 G.nz i k → 0 ≤ sg i k) {x x' t tH : Fields} {j d : Arr → ℤ → ℤ → ℝ}
    (wx : WallE G x) (htH : ∀ a i k, HNode G a i k → |tH a i k| ≤ EPS * (|x a i k| + dt / MAGN_CONST * sizeE G x a i k) + ETA)
    (hx : ∀ a i k, HNode G a i k → x' a i k = x a i k + dt / MAGN_CONST * curlE G x a i k + tH a i k)
    (ht : ∀ a i k, ENode G a i k → |t a i k - koefH (ep i k) (sg i k) dt * d a i k| ≤
      EPS * (|x a i k| + koefH (ep i k) (sg i k) dt * (|j a i k| + sizeH G x' a i k)) + ETA) :
    sumE G (fun a i k => ep i k * EPSILON0 * t a i k ^ 2 / 2) ≤ 2345 * EPS ^ 2 * storedEnergy G ep x +
      5 * EPS ^ 2 * currentEnergy G dt ep sg j + 6 * ETA ^ 2 * unitEnergy G ep + 5 * currentEnergy G dt ep sg d := by
  have hm := MAGN_CONST_pos
  have h0 := EPSILON0_pos
  have he := h.e_pos
  have A := h.sizeH_energy hdt hsg x'
  have B := h.mag_new wx htH hx
  have U := (unit_parts h).2
  have b0 : 0 ≤ sumH G (fun a i k => MAGN_CONST * x a i k ^ 2 / 2) := sumH_nonneg h.valid fun a i k _ => by positivity
  have u0 : 0 ≤ sumE G (fun _ i k => ep i k * EPSILON0 / 2) := sumE_nonneg h.valid fun a i k hn => by
    have := h.eps i k hn.box
    have : 0 < ep i k := by linarith
    positivity
  have C : sumE G (fun a i k => ep i k * EPSILON0 * t a i k ^ 2 / 2) ≤
      sumE G (fun a i k => 5 * EPS ^ 2 * (ep i k * EPSILON0 * x a i k ^ 2 / 2) +
        (5 * EPS ^ 2 * (ep i k * EPSILON0 * (koefH (ep i k) (sg i k) dt * j a i k) ^ 2 / 2) +
        (5 * EPS ^ 2 * (ep i k * EPSILON0 * (koefH (ep i k) (sg i k) dt * sizeH G x' a i k) ^ 2 / 2) +
        (5 * ETA ^ 2 * (ep i k * EPSILON0 / 2) +
        5 * (ep i k * EPSILON0 * (koefH (ep i k) (sg i k) dt * d a i k) ^ 2 / 2))))) := by
    apply sumE_le h.valid
    intro a i k hn
    have a1 := h.eps i k hn.box
    have a2 : 0 < ep i k := by linarith
    have a3 := hsg i k hn.box
    have kh0 : 0 ≤ koefH (ep i k) (sg i k) dt := by unfold koefH; positivity
    have h1 := ht a i k hn
    have h2 : t a i k ^ 2 ≤ (EPS * |x a i k| + EPS * (koefH (ep i k) (sg i k) dt * |j a i k|) +
        EPS * (koefH (ep i k) (sg i k) dt * sizeH G x' a i k) + ETA + koefH (ep i k) (sg i k) dt * |d a i k|) ^ 2 := by
      rw [← sq_abs (t a i k)]
      apply pow_le_pow_left₀ (abs_nonneg _)
      have e2 : t a i k = (t a i k - koefH (ep i k) (sg i k) dt * d a i k) + koefH (ep i k) (sg i k) dt * d a i k := by ring
      have := abs_add_le (t a i k - koefH (ep i k) (sg i k) dt * d a i k) (koefH (ep i k) (sg i k) dt * d a i k)
      rw [← e2, abs_mul (koefH (ep i k) (sg i k) dt), abs_of_nonneg kh0] at this
      linarith
    have h3 := h2.trans (sq_add5 _ _ _ _ _)
    have e3 : ∀ y : ℝ, (koefH (ep i k) (sg i k) dt * |y|) ^ 2 = (koefH (ep i k) (sg i k) dt * y) ^ 2 := by
      intro y; rw [mul_pow, mul_pow, sq_abs]
    rw [mul_pow EPS, mul_pow EPS, mul_pow EPS, sq_abs, e3, e3] at h3
    have := mul_le_mul_of_nonneg_left h3 (by positivity : 0 ≤ ep i k * EPSILON0 / 2)
    linarith
  rw [sumE_add5] at C
  have e1 : storedEnergy G ep x = sumE G (fun a i k => ep i k * EPSILON0 * x a i k ^ 2 / 2) +
    sumH G (fun a i k => MAGN_CONST * x a i k ^ 2 / 2) := rfl
  have w0 : sumE G (fun a i k => ep i k * EPSILON0 * x a i k ^ 2 / 2) ≤ storedEnergy G ep x := by rw [e1]; linarith
  have k0 := mul_le_mul_of_nonneg_left w0 (by positivity : 0 ≤ 5 * EPS ^ 2)
  have k1 := mul_le_mul_of_nonneg_left A (by positivity : 0 ≤ 5 * EPS ^ 2)
  have k2 := mul_le_mul_of_nonneg_left B (by positivity : 0 ≤ 180 * EPS ^ 2)
  have k3 := mul_le_mul_of_nonneg_left U (by positivity : 0 ≤ 5 * ETA ^ 2)
  have k4 : 1620 * EPS ^ 2 * (ETA ^ 2 * unitEnergy G ep) ≤ 1 * (ETA ^ 2 * unitEnergy G ep) := by
    apply mul_le_mul_of_nonneg_right
    · unfold EPS; norm_num
    · exact mul_nonneg (sq_nonneg _) (u0.trans U)
  unfold currentEnergy
  linarith

/-! ## One step -/

theorem FieldStepR.walls {G : Geom} {dt : ℝ} {j x x' : Fields} (h : FieldStepR G dt j x x') (hw : WallE G x) : WallE G x' := by
  constructor
  · intro k p q; rw [h.wall .ephi _ _ (by simp) (by simp only [ENode, Box]; omega)]; exact hw.1 k p q
  · intro k p q; rw [h.wall .ephi _ _ (by simp) (by simp only [ENode, Box]; omega)]; exact hw.2 k p q
  · intro k p q; rw [h.wall .ephi _ _ (by simp) (by simp only [ENode, Box]; omega)]; exact hw.3 k p q
  · intro k p q; rw [h.wall .ephi _ _ (by simp) (by simp only [ENode, Box]; omega)]; exact hw.4 k p q
  · intro k p q; rw [h.wall .er _ _ (by simp) (by simp only [ENode, Box]; omega)]; exact hw.5 k p q
  · intro k p q; rw [h.wall .er _ _ (by simp) (by simp only [ENode, Box]; omega)]; exact hw.6 k p q
  · intro k p q; rw [h.wall .ez _ _ (by simp) (by simp only [ENode, Box]; omega)]; exact hw.7 k p q

theorem storedEnergy_nonneg {G : Geom} {dt e θ : ℝ} {ep : Grid} (h : FormOk G dt e θ ep) (x : Fields) :
    0 ≤ storedEnergy G ep x :=
  add_nonneg (h.elec_nonneg x) (sumH_nonneg h.valid fun a i k _ => by have := MAGN_CONST_pos; positivity)

theorem currentEnergy_nonneg {G : Geom} {dt e θ : ℝ} {ep : Grid} (h : FormOk G dt e θ ep) (sg : Grid) (j : Fields) :
    0 ≤ currentEnergy G dt ep sg j :=
  h.elec_nonneg (fun a i k => koefH (ep i k) (sg i k) dt * j a i k)

theorem sqrt_two {ε η w u : ℝ} (hε : 0 ≤ ε) (hη : 0 ≤ η) (hw : 0 ≤ w) (hu : 0 ≤ u) :
    √(51 * ε ^ 2 * w ^ 2 + 3 * η ^ 2 * u ^ 2) ≤ 8 * (ε * w) + 2 * (η * u) := by
  rw [Real.sqrt_le_left (by positivity)]
  have a1 : 0 ≤ ε * w := by positivity
  have a2 : 0 ≤ η * u := by positivity
  nlinarith [mul_nonneg a1 a2, sq_nonneg (ε * w), sq_nonneg (η * u)]

theorem sqrt_four {ε η w q u d : ℝ} (hε : 0 ≤ ε) (hη : 0 ≤ η) (hw : 0 ≤ w) (hq : 0 ≤ q) (hu : 0 ≤ u) (hd : 0 ≤ d) :
    √(2345 * ε ^ 2 * w ^ 2 + 5 * ε ^ 2 * q ^ 2 + 6 * η ^ 2 * u ^ 2 + 5 * d ^ 2) ≤
      49 * (ε * w) + 3 * (ε * q) + 3 * (η * u) + 3 * d := by
  rw [Real.sqrt_le_left (by positivity)]
  obtain ⟨a, ha⟩ : ∃ a, a = ε * w := ⟨_, rfl⟩
  obtain ⟨b, hb⟩ : ∃ b, b = ε * q := ⟨_, rfl⟩
  obtain ⟨f, hf⟩ : ∃ f, f = η * u := ⟨_, rfl⟩
  have a0 : 0 ≤ a := by rw [ha]; positivity
  have b0 : 0 ≤ b := by rw [hb]; positivity
  have f0 : 0 ≤ f := by rw [hf]; positivity
  have e6 : 2345 * ε ^ 2 * w ^ 2 + 5 * ε ^ 2 * q ^ 2 + 6 * η ^ 2 * u ^ 2 + 5 * d ^ 2 =
      2345 * a ^ 2 + 5 * b ^ 2 + 6 * f ^ 2 + 5 * d ^ 2 := by rw [ha, hb, hf]; ring
  rw [e6, ← ha, ← hb, ← hf]
  have e7 : (49 * a + 3 * b + 3 * f + 3 * d) ^ 2 - (2345 * a ^ 2 + 5 * b ^ 2 + 6 * f ^ 2 + 5 * d ^ 2) =
      56 * a ^ 2 + 4 * b ^ 2 + 3 * f ^ 2 + 4 * d ^ 2 + 294 * (a * b) + 294 * (a * f) + 294 * (a * d) +
        18 * (b * f) + 18 * (b * d) + 18 * (f * d) := by ring
  have : 0 ≤ 56 * a ^ 2 + 4 * b ^ 2 + 3 * f ^ 2 + 4 * d ^ 2 + 294 * (a * b) + 294 * (a * f) + 294 * (a * d) +
        18 * (b * f) + 18 * (b * d) + 18 * (f * d) := by positivity
  linarith

/-- the error after one step -/
theorem round_step {G : Geom} {dt e θ : ℝ} {ep sg : Grid} (h : FormOk G dt e θ ep) (hdt : 0 < dt)
    (hsg : ∀ i k, Box 0 G.nr 0 G.nz i k → 0 ≤ sg i k) {X X' Y Y' j c : Fields} (wX : WallE G X) (wY : WallE G Y)
    (wY' : WallE G Y') (he : X .eps = ep) (hs : X .sig = sg) (hR : FieldStepR G dt j X X')
    (yH : ∀ a i k, HNode G a i k → Y' a i k = Y a i k + dt / MAGN_CONST * curlE G Y a i k)
    (yE : ∀ a i k, ENode G a i k → Y' a i k * (2 * ep i k * EPSILON0 + sg i k * dt) =
      Y a i k * (2 * ep i k * EPSILON0 - sg i k * dt) + 2 * dt * (curlH G Y' a i k - c a i k)) :
    √(eForm G dt ep (fun a i k => X' a i k - Y' a i k) (fun a i k => X' a i k - Y' a i k)) ≤
      √(eForm G dt ep (fun a i k => X a i k - Y a i k) (fun a i k => X a i k - Y a i k)) +
      57 * EPS * √(storedEnergy G ep X) + 3 * EPS * √(currentEnergy G dt ep sg (currentOf j)) + 5 * ETA * √(unitEnergy G ep) +
      3 * √(currentEnergy G dt ep sg (fun a i k => c a i k - currentOf j a i k)) := by
  have hG := h.valid
  have h0 := EPSILON0_pos
  have hm := MAGN_CONST_pos
  have dpos : ∀ i k, Box 0 G.nr 0 G.nz i k → 0 < 2 * ep i k * EPSILON0 + sg i k * dt := by
    intro i k hb
    have a1 := h.eps i k hb
    have a2 := hsg i k hb
    have := h.e_pos
    have : 0 < ep i k := by linarith
    positivity
  obtain ⟨tH, htH⟩ : ∃ t : Fields, t = fun a i k => X' a i k - (X a i k + dt / MAGN_CONST * curlE G X a i k) := ⟨_, rfl⟩
  have bH : ∀ a i k, HNode G a i k → |tH a i k| ≤ EPS * (|X a i k| + dt / MAGN_CONST * sizeE G X a i k) + ETA := by
    intro a i k hn
    have := hR.mag a i k hn
    rw [hStep_curl X hn] at this
    rw [htH]; exact this
  have xH : ∀ a i k, HNode G a i k → X' a i k = X a i k + dt / MAGN_CONST * curlE G X a i k + tH a i k := by
    intro a i k _; rw [htH]; ring
  obtain ⟨r, hr⟩ : ∃ r : Fields, r = fun a i k => X' a i k - eStep G dt (midR j X X') a i k := ⟨_, rfl⟩
  have bE : ∀ a i k, ENode G a i k →
      |r a i k| ≤ EPS * (|X a i k| + koefH (ep i k) (sg i k) dt * (|currentOf j a i k| + sizeH G X' a i k)) + ETA := by
    intro a i k hn
    have := hR.elec a i k hn
    rw [he, hs] at this
    rw [hr]; exact this
  have xE : ∀ a i k, ENode G a i k → X' a i k * (2 * ep i k * EPSILON0 + sg i k * dt) =
      X a i k * (2 * ep i k * EPSILON0 - sg i k * dt) + 2 * dt * (curlH G X' a i k - currentOf j a i k) +
        r a i k * (2 * ep i k * EPSILON0 + sg i k * dt) := by
    intro a i k hn
    have m1 : (midR j X X') .eps = ep := he
    have m2 : (midR j X X') .sig = sg := hs
    have := eStep_implicit (G := G) (dt := dt) (midR j X X') hn (by rw [m1, m2]; exact (dpos i k hn.box).ne')
    rw [m1, m2] at this
    have e1 : midR j X X' a i k = X a i k := by cases a <;> simp only [ENode] at hn <;> rfl
    have e2 : currentOf (midR j X X') a i k = currentOf j a i k := by cases a <;> simp only [ENode] at hn <;> rfl
    have e3 : curlH G (midR j X X') a i k = curlH G X' a i k := by
      apply curlH_congr _ hn
      intro a i k hn
      cases a <;> simp only [HNode] at hn <;> rfl
    rw [e1, e2, e3] at this
    rw [hr]
    simp only []
    linarith
  have wX' := hR.walls wX
  -- residual of the electric update, with the difference of the currents
  obtain ⟨t, ht⟩ : ∃ t : Fields, t = fun a i k => r a i k + koefH (ep i k) (sg i k) dt * (c a i k - currentOf j a i k) :=
    ⟨_, rfl⟩
  have g := h.growth hdt.le hsg (x := fun a i k => X a i k - Y a i k) (x' := fun a i k => X' a i k - Y' a i k) (tH := tH)
    (tE := fun a i k => t a i k * (2 * ep i k * EPSILON0 + sg i k * dt) / (2 * dt)) (wX.sub wY) (wX'.sub wY')
    (fun a i k hn => by
      rw [xH a i k hn, yH a i k hn, curlE_sub]; ring)
    (fun a i k hn => by
      have p := dpos i k hn.box
      have k1 : koefH (ep i k) (sg i k) dt * (2 * ep i k * EPSILON0 + sg i k * dt) = 2 * dt := by
        unfold koefH; exact div_mul_cancel₀ _ p.ne'
      have k2 : 2 * dt * (t a i k * (2 * ep i k * EPSILON0 + sg i k * dt) / (2 * dt)) =
          r a i k * (2 * ep i k * EPSILON0 + sg i k * dt) + 2 * dt * (c a i k - currentOf j a i k) := by
        rw [mul_div_cancel₀ _ (by positivity : 2 * dt ≠ 0), ht, ← k1]; ring
      rw [curlH_sub]
      linear_combination xE a i k hn - yE a i k hn - k2)
  have g1 := h.mag_residual wX bH
  have g2 := h.elec_residual hdt.le hsg (d := fun a i k => c a i k - currentOf j a i k) (t := t) wX bH xH
    (fun a i k hn => by
      have := bE a i k hn
      rw [ht]
      simp only [add_sub_cancel_right]
      exact this)
  have e5 : sumE G (fun a i k => ep i k * EPSILON0 * (2 * dt * (t a i k * (2 * ep i k * EPSILON0 + sg i k * dt) / (2 * dt)) /
      (2 * ep i k * EPSILON0 + sg i k * dt)) ^ 2 / 2) = sumE G (fun a i k => ep i k * EPSILON0 * t a i k ^ 2 / 2) := by
    apply sumE_congr hG
    intro a i k hn
    rw [mul_div_cancel₀ _ (by positivity : 2 * dt ≠ 0), mul_div_cancel_right₀ _ (dpos i k hn.box).ne']
  rw [e5] at g
  have w0 := storedEnergy_nonneg h X
  have u0 : 0 ≤ unitEnergy G ep := storedEnergy_nonneg h _
  have j0 := currentEnergy_nonneg h sg (currentOf j)
  have d0 := currentEnergy_nonneg h sg (fun a i k => c a i k - currentOf j a i k)
  have W2 := Real.sq_sqrt w0
  have U2 := Real.sq_sqrt u0
  have J2 := Real.sq_sqrt j0
  have D2 := Real.sq_sqrt d0
  have W0 := Real.sqrt_nonneg (storedEnergy G ep X)
  have U0 := Real.sqrt_nonneg (unitEnergy G ep)
  have J0 := Real.sqrt_nonneg (currentEnergy G dt ep sg (currentOf j))
  have D0 := Real.sqrt_nonneg (currentEnergy G dt ep sg (fun a i k => c a i k - currentOf j a i k))
  rw [← W2, ← U2] at g1
  rw [← W2, ← U2, ← J2, ← D2] at g2
  obtain ⟨w, hw⟩ : ∃ w, w = √(storedEnergy G ep X) := ⟨_, rfl⟩
  obtain ⟨u, hu⟩ : ∃ u, u = √(unitEnergy G ep) := ⟨_, rfl⟩
  obtain ⟨q, hq⟩ : ∃ q, q = √(currentEnergy G dt ep sg (currentOf j)) := ⟨_, rfl⟩
  obtain ⟨d, hd⟩ : ∃ d, d = √(currentEnergy G dt ep sg (fun a i k => c a i k - currentOf j a i k)) := ⟨_, rfl⟩
  rw [← hw, ← hu] at g1
  rw [← hw, ← hu, ← hq, ← hd] at g2
  rw [← hw] at W0
  rw [← hu] at U0
  rw [← hq] at J0
  rw [← hd] at D0
  rw [← hw, ← hu, ← hq, ← hd]
  have E0 := EPS_pos
  have T0 := ETA_pos
  have r1 : √(sumH G (fun a i k => MAGN_CONST * tH a i k ^ 2 / 2)) ≤ 8 * (EPS * w) + 2 * (ETA * u) :=
    (Real.sqrt_le_sqrt g1).trans (sqrt_two E0.le T0.le W0 U0)
  have r2 : √(sumE G (fun a i k => ep i k * EPSILON0 * t a i k ^ 2 / 2)) ≤
      49 * (EPS * w) + 3 * (EPS * q) + 3 * (ETA * u) + 3 * d :=
    (Real.sqrt_le_sqrt g2).trans (sqrt_four E0.le T0.le W0 J0 U0 D0)
  linarith

/-! ## The whole run -/

/-- The energy of a field is bounded by its form. -/
theorem FormOk.stored_le {G : Geom} {dt e θ : ℝ} {ep : Grid} (h : FormOk G dt e θ ep) (hθ1 : θ < 1) {x : Fields}
    (wx : WallE G x) : storedEnergy G ep x ≤ 3 / (1 - θ) * eForm G dt ep x x := by
  have hG := h.valid
  have hm0 := MAGN_CONST_pos
  have hθ := h.theta
  have pθ : 0 < 1 - θ := by linarith
  have low := eForm_lower hG h.limit hθ h.eps wx
  have el := h.elec_nonneg x
  have hl0 : 0 ≤ sumH G (fun a i k => MAGN_CONST * (x a i k + dt / (2 * MAGN_CONST) * curlE G x a i k) ^ 2 / 2) :=
    sumH_nonneg hG fun a i k _ => by positivity
  have cu := curl_le_elec hG h.limit (withMed ep ep x) (withMed_wall wx ep ep) hθ (fun i k hb => h.eps i k hb)
  rw [withMed_curlE] at cu
  have cu1 : sumE G (fun a i k => withMed ep ep x .eps i k * EPSILON0 * withMed ep ep x a i k ^ 2 / 2) =
      sumE G (fun a i k => ep i k * EPSILON0 * x a i k ^ 2 / 2) :=
    sumE_congr hG fun a i k hn => by rw [withMed_E hn]; rfl
  rw [cu1] at cu
  have s : sumH G (fun a i k => MAGN_CONST * x a i k ^ 2 / 2) ≤
      2 * sumH G (fun a i k => MAGN_CONST * (x a i k + dt / (2 * MAGN_CONST) * curlE G x a i k) ^ 2 / 2) +
      2 * (dt ^ 2 / (8 * MAGN_CONST)) * sumH G (fun a i k => curlE G x a i k ^ 2) := by
    rw [← sumH_mul, ← sumH_mul]
    have add : ∀ f g : Arr → ℤ → ℤ → ℝ, sumH G f + sumH G g = sumH G (fun a i k => 1 * f a i k + g a i k) := by
      intro f g; rw [sumH_lin, one_mul]
    rw [add]
    apply sumH_le hG
    intro a i k hn
    have e : 1 * (2 * (MAGN_CONST * (x a i k + dt / (2 * MAGN_CONST) * curlE G x a i k) ^ 2 / 2)) +
        2 * (dt ^ 2 / (8 * MAGN_CONST)) * curlE G x a i k ^ 2 - MAGN_CONST * x a i k ^ 2 / 2 =
        MAGN_CONST / 2 * (x a i k + dt / MAGN_CONST * curlE G x a i k) ^ 2 := by field_simp; ring
    have : 0 ≤ MAGN_CONST / 2 * (x a i k + dt / MAGN_CONST * curlE G x a i k) ^ 2 := by positivity
    linarith
  unfold storedEnergy
  obtain ⟨EE, hEE⟩ : ∃ EE, EE = sumE G (fun a i k => ep i k * EPSILON0 * x a i k ^ 2 / 2) := ⟨_, rfl⟩
  obtain ⟨HH, hHH⟩ : ∃ HH, HH = sumH G (fun a i k => MAGN_CONST *
    (x a i k + dt / (2 * MAGN_CONST) * curlE G x a i k) ^ 2 / 2) := ⟨_, rfl⟩
  rw [← hEE] at low el cu ⊢
  rw [← hHH] at low hl0 s
  rw [div_mul_eq_mul_div, le_div_iff₀ pθ]
  have a1 : HH * (1 - θ) ≤ HH := by nlinarith
  have a2 : θ * (EE * (1 - θ)) ≤ 1 * (EE * (1 - θ)) := mul_le_mul_of_nonneg_right hθ1.le (mul_nonneg el pθ.le)
  have a3 := mul_le_mul_of_nonneg_right s pθ.le
  have a4 := mul_le_mul_of_nonneg_right cu pθ.le
  linarith

theorem stored_add {G : Geom} {dt e θ : ℝ} {ep : Grid} (h : FormOk G dt e θ ep) (x y : Fields) :
    storedEnergy G ep x ≤ 2 * storedEnergy G ep y + 2 * storedEnergy G ep (fun a i k => x a i k - y a i k) := by
  have hm := MAGN_CONST_pos
  have h0 := EPSILON0_pos
  unfold storedEnergy
  have sq : ∀ a b : ℝ, a ^ 2 ≤ 2 * b ^ 2 + 2 * (a - b) ^ 2 := fun a b => by nlinarith [sq_nonneg (a - 2 * b)]
  have A : sumE G (fun a i k => ep i k * EPSILON0 * x a i k ^ 2 / 2) ≤
      sumE G (fun a i k => 2 * (ep i k * EPSILON0 * y a i k ^ 2 / 2) +
        (2 * (ep i k * EPSILON0 * (x a i k - y a i k) ^ 2 / 2) + 0 * 0)) := by
    apply sumE_le h.valid
    intro a i k hn
    have := h.eps i k hn.box
    have := h.e_pos
    have e0 : 0 < ep i k := by linarith
    have := mul_le_mul_of_nonneg_left (sq (x a i k) (y a i k)) (by positivity : 0 ≤ ep i k * EPSILON0 / 2)
    linarith
  have B : sumH G (fun a i k => MAGN_CONST * x a i k ^ 2 / 2) ≤
      sumH G (fun a i k => 2 * (MAGN_CONST * y a i k ^ 2 / 2) +
        (2 * (MAGN_CONST * (x a i k - y a i k) ^ 2 / 2) + 0 * 0)) := by
    apply sumH_le h.valid
    intro a i k hn
    have := mul_le_mul_of_nonneg_left (sq (x a i k) (y a i k)) (by positivity : 0 ≤ MAGN_CONST / 2)
    linarith
  rw [sumE_add3 G 2 2 0 _ _ (fun _ _ _ => 0)] at A
  rw [sumH_add3 G 2 2 0 _ _ (fun _ _ _ => 0)] at B
  linarith

/-- growth by a constant factor and a constant summand -/
theorem geom_growth {D : ℕ → ℝ} {q b : ℝ} {N : ℕ} (hq : 0 ≤ q) (hb : 0 ≤ b) (hN : N * q ≤ 1) (h0 : D 0 = 0)
    (hs : ∀ n, n < N → D (n + 1) ≤ (1 + q) * D n + b) : ∀ n, n ≤ N → D n ≤ 3 * (n * b) := by
  have key : ∀ n, n ≤ N → D n ≤ (1 + q) ^ n * (n * b) := by
    intro n
    induction n with
    | zero => intro _; rw [h0]; simp
    | succ n ih =>
      intro hn
      have h1 := hs n (by omega)
      have h2 := mul_le_mul_of_nonneg_left (ih (by omega)) (by linarith : 0 ≤ 1 + q)
      have h3 : (1:ℝ) ≤ (1 + q) ^ (n + 1) := one_le_pow₀ (by linarith)
      have h4 := mul_le_mul_of_nonneg_right h3 hb
      calc D (n + 1) ≤ (1 + q) * ((1 + q) ^ n * (n * b)) + 1 * b := by linarith
        _ ≤ (1 + q) * ((1 + q) ^ n * (n * b)) + (1 + q) ^ (n + 1) * b := by linarith
        _ = _ := by push_cast; ring
  intro n hn
  refine (key n hn).trans ?_
  have nb : 0 ≤ (n:ℝ) * b := by positivity
  apply mul_le_mul_of_nonneg_right _ nb
  have e1 : (1 + q) ^ n ≤ Real.exp (n * q) := by
    rw [Real.exp_nat_mul]
    exact pow_le_pow_left₀ (by linarith) (by have := Real.add_one_le_exp q; linarith) n
  have e2 : (n:ℝ) * q ≤ 1 := by
    have : (n:ℝ) ≤ N := by exact_mod_cast hn
    nlinarith
  have e3 : Real.exp (n * q) ≤ Real.exp 1 := Real.exp_le_exp.2 e2
  have := Real.exp_one_lt_d9
  linarith

/-- **C102**: rounding errors of the fields grow no faster than the number of steps.  `Y n` are the arrays after `n` steps of the
program with exact arithmetic, `X n` the fields after `n` steps with the arithmetic of the machine.  Both start from the same
fields.  The machine reads the currents `j n`, whose difference from those deposited adds at most the energy `δ²` in one step.  `S²`
bounds the energy of the exact fields and that which the currents add in one step.  Then the energy of the difference of
the fields is at most the square of a number proportional to the number of steps. -/
theorem C102_growth {G : Geom} (hG : G.Valid) {dt e θ S δ : ℝ} (hdt : 0 < dt) (he : 0 < e) (hθ : 0 ≤ θ) (hθ1 : θ < 1)
    (hl : StepLimit G dt e θ) {calls : ℕ → List JCall} {N : ℕ} (hN : (N : ℝ) ≤ 2 ^ 40 * √(1 - θ)) {Y : ℕ → Mem Loc}
    (hm : Initialised G (Y 0)) (hw : WallE G (fieldsOf (Y 0)))
    (hmed : ∀ i k, Box 0 G.nr 0 G.nz i k → e ≤ fieldsOf (Y 0) .eps i k ∧ 0 ≤ fieldsOf (Y 0) .sig i k)
    (hc : ∀ n, n < N → ∀ c ∈ calls n, c.Ok G) (hY : ∀ n, n < N → FieldStep G dt (calls n) (Y n) (Y (n + 1)))
    {X j : ℕ → Fields} (hX0 : X 0 = fieldsOf (Y 0)) (hX : ∀ n, n < N → FieldStepR G dt (j n) (X n) (X (n + 1)))
    (hS0 : 0 ≤ S) (hS : ∀ n, n < N → storedEnergy G (X 0 .eps) (fieldsOf (Y n)) ≤ S ^ 2 ∧
      currentEnergy G dt (X 0 .eps) (X 0 .sig) (currentOf (j n)) ≤ S ^ 2)
    (hδ0 : 0 ≤ δ) (hδ : ∀ n, n < N → currentEnergy G dt (X 0 .eps) (X 0 .sig)
      (fun a i k => callSum (calls n) (jOf a) i k - currentOf (j n) a i k) ≤ δ ^ 2) :
    √(storedEnergy G (X 0 .eps) (fun a i k => X N a i k - fieldsOf (Y N) a i k)) ≤
      1000 * N / √(1 - θ) * (EPS * S + ETA * √(unitEnergy G (X 0 .eps)) + δ) := by
  obtain ⟨ep, hep⟩ : ∃ ep : Grid, ep = X 0 .eps := ⟨_, rfl⟩
  obtain ⟨sg, hsg⟩ : ∃ sg : Grid, sg = X 0 .sig := ⟨_, rfl⟩
  have hep' : ep = fieldsOf (Y 0) .eps := by rw [hep, hX0]
  have hsg' : sg = fieldsOf (Y 0) .sig := by rw [hsg, hX0]
  rw [← hep', ← hsg'] at hmed
  rw [← hep] at hS hδ ⊢
  rw [← hsg] at hS hδ
  have h : FormOk G dt e θ ep := ⟨hG, he, hθ, hθ1.le, hl, fun i k hb => (hmed i k hb).1⟩
  have pθ : 0 < 1 - θ := by linarith
  have r0 : 0 < √(1 - θ) := Real.sqrt_pos.2 pθ
  obtain ⟨ρ, hρ⟩ : ∃ ρ, ρ = 1 / √(1 - θ) := ⟨_, rfl⟩
  have ρ0 : 0 < ρ := by rw [hρ]; positivity
  have ρ2 : 3 / (1 - θ) = 3 * ρ ^ 2 := by
    rw [hρ, div_pow, Real.sq_sqrt pθ.le]; ring
  have dpos : ∀ i k, Box 0 G.nr 0 G.nz i k → 0 < 2 * ep i k * EPSILON0 + sg i k * dt := by
    intro i k hb
    obtain ⟨a1, a2⟩ := hmed i k hb
    have := EPSILON0_pos
    have : 0 < ep i k := by linarith
    positivity
  -- what stays
  have inv : ∀ n, n ≤ N → (Initialised G (Y n) ∧ WallE G (fieldsOf (Y n)) ∧
      ∀ i k, Box 0 G.nr 0 G.nz i k → fieldsOf (Y n) .eps i k = ep i k ∧ fieldsOf (Y n) .sig i k = sg i k) ∧
      WallE G (X n) ∧ X n .eps = ep ∧ X n .sig = sg := by
    intro n
    induction n with
    | zero =>
      intro _
      exact ⟨⟨hm, hw, fun i k _ => ⟨by rw [hep'], by rw [hsg']⟩⟩, by rw [hX0]; exact hw, hep.symm, hsg.symm⟩
    | succ n ih =>
      intro hn
      obtain ⟨⟨i1, w1, e1⟩, w2, e2, e3⟩ := ih (by omega)
      obtain ⟨i2, w3, e4⟩ := step_initialised hG (hc n (by omega)) i1 (hY n (by omega))
      have st := hX n (by omega)
      exact ⟨⟨i2, w3 w1, fun i k hb => ⟨(e4 i k hb).1.trans (e1 i k hb).1, (e4 i k hb).2.trans (e1 i k hb).2⟩⟩,
        st.walls w2, st.medium.1.trans e2, st.medium.2.trans e3⟩
  obtain ⟨D, hD⟩ : ∃ D : ℕ → ℝ, D = fun n => √(eForm G dt ep (fun a i k => X n a i k - fieldsOf (Y n) a i k)
    (fun a i k => X n a i k - fieldsOf (Y n) a i k)) := ⟨_, rfl⟩
  have D0 : ∀ n, 0 ≤ D n := by intro n; rw [hD]; exact Real.sqrt_nonneg _
  have E0 := EPS_pos
  have T0 := ETA_pos
  obtain ⟨u, hu⟩ : ∃ u, u = √(unitEnergy G ep) := ⟨_, rfl⟩
  have u0 : 0 ≤ u := by rw [hu]; exact Real.sqrt_nonneg _
  rw [← hu]
  -- the energy of the difference
  have dif : ∀ n, n ≤ N → storedEnergy G ep (fun a i k => X n a i k - fieldsOf (Y n) a i k) ≤ 3 * (ρ * D n) ^ 2 := by
    intro n hn
    obtain ⟨⟨-, w1, -⟩, w2, -, -⟩ := inv n hn
    have := h.stored_le hθ1 (w2.sub w1)
    rw [ρ2] at this
    rw [hD]
    simp only []
    rw [mul_pow, Real.sq_sqrt (h.nonneg (w2.sub w1)), ← mul_assoc]
    exact this
  -- one step
  have step : ∀ n, n < N → D (n + 1) ≤ (1 + 171 * ρ * EPS) * D n + (117 * EPS * S + 5 * ETA * u + 3 * δ) := by
    intro n hn
    obtain ⟨⟨i1, w1, e1⟩, w2, e2, e3⟩ := inv n hn.le
    obtain ⟨⟨i1', w1', e1'⟩, w2', e2', e3'⟩ := inv (n + 1) hn
    obtain ⟨sH, sE⟩ := step_nodes hG (hc n hn) i1 (hY n hn) (fun i k hb => by
      rw [(e1 i k hb).1, (e1 i k hb).2]; exact (dpos i k hb).ne')
    have g := round_step h hdt (fun i k hb => (hmed i k hb).2) (c := fun a => callSum (calls n) (jOf a)) w2 w1 w1' e2 e3 (hX n hn) sH
      (fun a i k hnE => by
        have := sE a i k hnE
        rwa [(e1 i k hnE.box).1, (e1 i k hnE.box).2] at this)
    have g1 : √(storedEnergy G ep (X n)) ≤ 2 * S + 3 * (ρ * D n) := by
      have a0 : 0 ≤ ρ * D n := mul_nonneg ρ0.le (D0 n)
      rw [Real.sqrt_le_left (by positivity)]
      refine (stored_add h (X n) (fieldsOf (Y n))).trans ?_
      have b1 := (hS n hn).1
      have b2 := dif n hn.le
      nlinarith [mul_nonneg hS0 a0, sq_nonneg S, sq_nonneg (ρ * D n)]
    have g2 : √(currentEnergy G dt ep sg (currentOf (j n))) ≤ S := by
      rw [Real.sqrt_le_left hS0]; exact (hS n hn).2
    have g3 : √(currentEnergy G dt ep sg (fun a i k => callSum (calls n) (jOf a) i k - currentOf (j n) a i k)) ≤ δ := by
      rw [Real.sqrt_le_left hδ0]; exact hδ n hn
    have k1 := mul_le_mul_of_nonneg_left g1 (by linarith : 0 ≤ 57 * EPS)
    have k2 := mul_le_mul_of_nonneg_left g2 (by linarith : 0 ≤ 3 * EPS)
    rw [← hu] at g
    have d1 : D (n + 1) = √(eForm G dt ep (fun a i k => X (n + 1) a i k - fieldsOf (Y (n + 1)) a i k)
      (fun a i k => X (n + 1) a i k - fieldsOf (Y (n + 1)) a i k)) := by rw [hD]
    have d2 : D n = √(eForm G dt ep (fun a i k => X n a i k - fieldsOf (Y n) a i k)
      (fun a i k => X n a i k - fieldsOf (Y n) a i k)) := by rw [hD]
    rw [← d1, ← d2] at g
    linarith
  have st : D 0 = 0 := by
    rw [hD]
    simp only []
    have z : (fun a i k => X 0 a i k - fieldsOf (Y 0) a i k) = fun _ _ _ => (0:ℝ) := by
      funext a i k; rw [hX0, sub_self]
    rw [z]
    have wz : WallE G (fun _ _ _ => (0:ℝ)) := by constructor <;> intros <;> rfl
    have b := h.upper (x := fun _ _ _ => (0:ℝ)) wz
    rw [sumE_null hG (f := fun a i k => ep i k * EPSILON0 * (0:ℝ) ^ 2 / 2) (fun a i k _ => by ring),
      sumH_null (f := fun a i k => MAGN_CONST * (0:ℝ) ^ 2 / 2) (fun a i k _ => by ring)] at b
    rw [Real.sqrt_eq_zero']
    linarith
  have hNq : (N:ℝ) * (171 * ρ * EPS) ≤ 1 := by
    have : (N:ℝ) * ρ ≤ 2 ^ 40 := by
      rw [hρ, mul_one_div, div_le_iff₀ r0]; exact hN
    have := mul_le_mul_of_nonneg_right this (by linarith : 0 ≤ 171 * EPS)
    have e : 2 ^ 40 * (171 * EPS) ≤ 1 := by unfold EPS; norm_num
    linarith
  have fin := geom_growth (D := D) (q := 171 * ρ * EPS) (b := 117 * EPS * S + 5 * ETA * u + 3 * δ)
    (mul_nonneg (mul_nonneg (by norm_num) ρ0.le) E0.le)
    (add_nonneg (add_nonneg (mul_nonneg (mul_nonneg (by norm_num) E0.le) hS0) (mul_nonneg (mul_nonneg (by norm_num) T0.le) u0))
      (mul_nonneg (by norm_num) hδ0)) hNq st step N le_rfl
  have e9 : 1000 * N / √(1 - θ) * (EPS * S + ETA * u + δ) = 1000 * (ρ * (N * (EPS * S + ETA * u + δ))) := by rw [hρ]; ring
  rw [e9]
  have p1 := mul_nonneg E0.le hS0
  have p2 := mul_nonneg T0.le u0
  have n0 : (0:ℝ) ≤ N := by positivity
  rw [Real.sqrt_le_left (mul_nonneg (by norm_num) (mul_nonneg ρ0.le (mul_nonneg n0 (by linarith))))]
  refine (dif N le_rfl).trans ?_
  have q1 : ρ * D N ≤ 351 * (ρ * (N * (EPS * S + ETA * u + δ))) := by
    have f2 : D N ≤ 351 * (N * (EPS * S + ETA * u + δ)) := by
      refine fin.trans ?_
      have := mul_le_mul_of_nonneg_left (by linarith : 3 * (117 * EPS * S + 5 * ETA * u + 3 * δ) ≤
        351 * (EPS * S + ETA * u + δ)) n0
      linarith
    have := mul_le_mul_of_nonneg_left f2 ρ0.le
    linarith
  have q0 : 0 ≤ ρ * D N := mul_nonneg ρ0.le (D0 N)
  have q2 := pow_le_pow_left₀ q0 q1 2
  have q3 := sq_nonneg (ρ * (N * (EPS * S + ETA * u + δ)))
  rw [mul_pow] at q2 ⊢
  linarith

/-- **C102** without currents: the error relative to the fields at the start is proportional to the number of steps. -/
theorem C102_free {G : Geom} (hG : G.Valid) {dt e θ : ℝ} (hdt : 0 < dt) (he : 0 < e) (hθ : 0 ≤ θ) (hθ1 : θ < 1)
    (hl : StepLimit G dt e θ) {N : ℕ} (hN : (N : ℝ) ≤ 2 ^ 40 * √(1 - θ)) {Y : ℕ → Mem Loc}
    (hm : Initialised G (Y 0)) (hw : WallE G (fieldsOf (Y 0)))
    (hmed : ∀ i k, Box 0 G.nr 0 G.nz i k → e ≤ fieldsOf (Y 0) .eps i k ∧ 0 ≤ fieldsOf (Y 0) .sig i k)
    (hY : ∀ n, n < N → FieldStep G dt [] (Y n) (Y (n + 1)))
    {X : ℕ → Fields} (hX0 : X 0 = fieldsOf (Y 0)) (hX : ∀ n, n < N → FieldStepR G dt (fun _ _ _ => 0) (X n) (X (n + 1))) :
    √(storedEnergy G (X 0 .eps) (fun a i k => X N a i k - fieldsOf (Y N) a i k)) ≤
      3000 * N / (1 - θ) * (EPS * √(storedEnergy G (X 0 .eps) (X 0)) + ETA * √(unitEnergy G (X 0 .eps))) := by
  have pθ : 0 < 1 - θ := by linarith
  have r0 : 0 < √(1 - θ) := Real.sqrt_pos.2 pθ
  have r1 : √(1 - θ) ≤ 1 := by rw [Real.sqrt_le_left zero_le_one]; linarith
  have r2 : √(1 - θ) ^ 2 = 1 - θ := Real.sq_sqrt pθ.le
  obtain ⟨ep, hep⟩ : ∃ ep : Grid, ep = X 0 .eps := ⟨_, rfl⟩
  obtain ⟨sg, hsg⟩ : ∃ sg : Grid, sg = X 0 .sig := ⟨_, rfl⟩
  have hep' : ep = fieldsOf (Y 0) .eps := by rw [hep, hX0]
  have hsg' : sg = fieldsOf (Y 0) .sig := by rw [hsg, hX0]
  have hmed' := hmed
  rw [← hep', ← hsg'] at hmed'
  have h : FormOk G dt e θ ep := ⟨hG, he, hθ, hθ1.le, hl, fun i k hb => (hmed' i k hb).1⟩
  have dpos : ∀ i k, Box 0 G.nr 0 G.nz i k → 0 < 2 * ep i k * EPSILON0 + sg i k * dt := by
    intro i k hb
    obtain ⟨a1, a2⟩ := hmed' i k hb
    have := EPSILON0_pos
    have : 0 < ep i k := by linarith
    positivity
  -- the exact fields do not grow
  have inv : ∀ n, n ≤ N → (Initialised G (Y n) ∧ WallE G (fieldsOf (Y n)) ∧
      ∀ i k, Box 0 G.nr 0 G.nz i k → fieldsOf (Y n) .eps i k = ep i k ∧ fieldsOf (Y n) .sig i k = sg i k) ∧
      √(eForm G dt ep (fieldsOf (Y n)) (fieldsOf (Y n))) ≤ √(eForm G dt ep (fieldsOf (Y 0)) (fieldsOf (Y 0))) := by
    intro n
    induction n with
    | zero =>
      intro _
      exact ⟨⟨hm, hw, fun i k _ => ⟨by rw [hep'], by rw [hsg']⟩⟩, le_rfl⟩
    | succ n ih =>
      intro hn
      obtain ⟨⟨i1, w1, e1⟩, g1⟩ := ih (by omega)
      obtain ⟨i2, w3, e4⟩ := step_initialised hG (by simp) i1 (hY n (by omega))
      refine ⟨⟨i2, w3 w1, fun i k hb => ⟨(e4 i k hb).1.trans (e1 i k hb).1, (e4 i k hb).2.trans (e1 i k hb).2⟩⟩, ?_⟩
      obtain ⟨sH, sE⟩ := step_nodes hG (by simp) i1 (hY n (by omega)) (fun i k hb => by
        rw [(e1 i k hb).1, (e1 i k hb).2]; exact (dpos i k hb).ne')
      have g := h.growth hdt.le (fun i k hb => (hmed' i k hb).2) (tH := fun _ _ _ => 0) (tE := fun _ _ _ => 0) w1 (w3 w1)
        (fun a i k hn => by rw [sH a i k hn]; ring)
        (fun a i k hnE => by
          have := sE a i k hnE
          rw [(e1 i k hnE.box).1, (e1 i k hnE.box).2, callSum_nil] at this
          linarith)
      rw [sumH_null (f := fun a i k => MAGN_CONST * (0:ℝ) ^ 2 / 2) (fun a i k _ => by ring),
        sumE_null hG (f := fun a i k => ep i k * EPSILON0 * (2 * dt * 0 / (2 * ep i k * EPSILON0 + sg i k * dt)) ^ 2 / 2)
          (fun a i k _ => by ring), Real.sqrt_zero] at g
      linarith
  obtain ⟨w, hw0⟩ : ∃ w, w = √(storedEnergy G ep (X 0)) := ⟨_, rfl⟩
  have w0 : 0 ≤ w := by rw [hw0]; exact Real.sqrt_nonneg _
  have w2 : w ^ 2 = storedEnergy G ep (X 0) := by rw [hw0]; exact Real.sq_sqrt (storedEnergy_nonneg h _)
  have bound : ∀ n, n < N → storedEnergy G ep (fieldsOf (Y n)) ≤ (3 * w / √(1 - θ)) ^ 2 := by
    intro n hn
    obtain ⟨⟨-, w1, -⟩, g1⟩ := inv n hn.le
    have a1 := h.stored_le hθ1 w1
    have a2 : eForm G dt ep (fieldsOf (Y n)) (fieldsOf (Y n)) ≤ eForm G dt ep (fieldsOf (Y 0)) (fieldsOf (Y 0)) :=
      (Real.sqrt_le_sqrt_iff (h.nonneg hw)).1 g1
    have a3 := h.upper hw
    have a4 : eForm G dt ep (fieldsOf (Y 0)) (fieldsOf (Y 0)) ≤ 3 * w ^ 2 := by
      refine a3.trans ?_
      rw [w2, hX0]
      unfold storedEnergy
      have b1 := h.elec_nonneg (fieldsOf (Y 0))
      have b2 : 0 ≤ sumH G (fun a i k => MAGN_CONST * fieldsOf (Y 0) a i k ^ 2 / 2) :=
        sumH_nonneg hG fun a i k _ => by have := MAGN_CONST_pos; positivity
      have b3 := mul_le_mul_of_nonneg_right (by linarith : 1 + 2 * θ ≤ 3) b1
      linarith
    rw [div_pow, r2, mul_pow]
    refine a1.trans ?_
    rw [div_mul_eq_mul_div, div_le_div_iff_of_pos_right pθ]
    linarith
  have cz : ∀ a i k, currentOf (fun _ _ _ => (0:ℝ)) a i k = 0 := by intro a i k; cases a <;> rfl
  have c0 : currentEnergy G dt ep sg (currentOf (fun _ _ _ => 0)) = 0 :=
    sumE_null hG fun a i k _ => by rw [cz]; ring
  have c1 : currentEnergy G dt ep sg (fun a i k => callSum [] (jOf a) i k - currentOf (fun _ _ _ => 0) a i k) = 0 :=
    sumE_null hG fun a i k _ => by simp only [callSum_nil, cz]; ring
  have main := C102_growth hG hdt he hθ hθ1 hl (calls := fun _ => []) hN hm hw hmed (by simp) hY (X := X) (j := fun _ _ _ _ => 0) hX0 hX
    (S := 3 * w / √(1 - θ)) (δ := 0) (by positivity)
    (fun n hn => ⟨by rw [← hep]; exact bound n hn, by rw [← hep, ← hsg, c0]; positivity⟩) le_rfl
    (fun n hn => by rw [← hep, ← hsg, c1]; norm_num)
  rw [← hep] at main ⊢
  rw [← hw0]
  refine main.trans ?_
  obtain ⟨u, hu⟩ : ∃ u, u = ETA * √(unitEnergy G ep) := ⟨_, rfl⟩
  have u0 : 0 ≤ u := by rw [hu]; exact mul_nonneg ETA_pos.le (Real.sqrt_nonneg _)
  rw [← hu, add_zero]
  have n0 : (0:ℝ) ≤ N := by positivity
  obtain ⟨q, hq⟩ : ∃ q, q = √(1 - θ) := ⟨_, rfl⟩
  rw [← hq] at r0 r1 r2 ⊢
  rw [← r2]
  obtain ⟨v, hv⟩ : ∃ v, v = EPS * w := ⟨_, rfl⟩
  have e1 : 1000 * N / q * (EPS * (3 * w / q) + u) = 1000 * N / q ^ 2 * (3 * v + u * q) := by
    rw [hv]; field_simp
  have e2 : 3000 * N / q ^ 2 * (EPS * w + u) = 1000 * N / q ^ 2 * (3 * v + 3 * u) := by rw [hv]; ring
  rw [e1, e2]
  apply mul_le_mul_of_nonneg_left _ (by positivity)
  nlinarith

end Verif
