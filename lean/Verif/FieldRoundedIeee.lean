import Verif.FieldRoundedProps
import Verif.RoundedIeee

/-!
# The field solver in IEEE 754 arithmetic (C102)

The updates of the fields in the order of the source, every operation rounded to binary64 (`fl`, Double.lean): the arithmetic of a
build without `-ffast-math` and without contraction to fused products.  They are a case of FieldRounded.lean.
-/

namespace Verif

/-! ## The program -/

/-- `HField::calc_field`, src/hField.cpp:93-158, without the arrays at half a step -/
noncomputable def hStepF (G : Geom) (dt : ℝ) (x : Fields) : Fields
  | .hr, i, k => if Box 0 G.nr 0 (G.nz - 1) i k then
      fl (x .hr i k + fl (fl (dt * fl (x .ephi i (k + 1) - x .ephi i k)) / fl (G.dz * fl MAGN_CONST))) else x .hr i k
  | .hphi, i, k => if Box 0 (G.nr - 1) 0 (G.nz - 1) i k then
      fl (x .hphi i k + fl (fl (dt * fl (fl (fl (x .ez (i + 1) k - x .ez i k) / G.dr) -
        fl (fl (x .er i (k + 1) - x .er i k) / G.dz))) / fl MAGN_CONST)) else x .hphi i k
  | .hz, i, k => if Box 0 (G.nr - 1) 0 (G.nz - 1) i k then
      fl (x .hz i k - fl (fl (dt * fl (fl (fl (x .ephi (i + 1) k + x .ephi i k) / fl (fl (2 * G.dr) * fl ((i : ℝ) + 0.5))) +
        fl (fl (x .ephi (i + 1) k - x .ephi i k) / G.dr))) / fl MAGN_CONST)) else x .hz i k
  | a, i, k => x a i k

/-- `epsilonx2 + sigma_t`, src/eField.cpp:105-110 -/
noncomputable def denF (dt : ℝ) (x : Fields) (i k : ℤ) : ℝ :=
  fl (fl (fl (2 * x .eps i k) * fl EPSILON0) + fl (x .sig i k * dt))

/-- `koef_e`, src/eField.cpp:108 -/
noncomputable def koefEF (dt : ℝ) (x : Fields) (i k : ℤ) : ℝ :=
  fl (fl (fl (fl (2 * x .eps i k) * fl EPSILON0) - fl (x .sig i k * dt)) / denF dt x i k)

/-- `koef_h`, src/eField.cpp:110 -/
noncomputable def koefHF (dt : ℝ) (x : Fields) (i k : ℤ) : ℝ := fl (fl (2 * dt) / denF dt x i k)

/-- `EField::calc_field`, src/eField.cpp:85-170 -/
noncomputable def eStepF (G : Geom) (dt : ℝ) (x : Fields) : Fields
  | .er, i, k => if Box 0 (G.nr - 1) 1 (G.nz - 1) i k then
      fl (fl (x .er i k * koefEF dt x i k) -
        fl (fl (x .jr i k + fl (fl (x .hphi i k - x .hphi i (k - 1)) / G.dz)) * koefHF dt x i k)) else x .er i k
  | .ephi, i, k => if Box 1 (G.nr - 1) 1 (G.nz - 1) i k then
      fl (fl (x .ephi i k * koefEF dt x i k) -
        fl (fl (fl (x .jphi i k - fl (fl (x .hr i k - x .hr i (k - 1)) / G.dz)) +
          fl (fl (x .hz i k - x .hz (i - 1) k) / G.dr)) * koefHF dt x i k)) else x .ephi i k
  | .ez, i, k =>
    if Box 0 1 0 (G.nz - 1) i k then
      fl (fl (x .ez i k * koefEF dt x i k) -
        fl (fl (x .jz i k - fl (fl (4 / G.dr) * x .hphi i k)) * koefHF dt x i k))
    else if Box 1 (G.nr - 1) 0 (G.nz - 1) i k then
      fl (fl (x .ez i k * koefEF dt x i k) -
        fl (fl (fl (x .jz i k - fl (fl (x .hphi i k - x .hphi (i - 1) k) / G.dr)) -
          fl (fl (x .hphi i k + x .hphi (i - 1) k) / fl (fl (2 * G.dr) * (i : ℝ)))) * koefHF dt x i k))
    else x .ez i k
  | a, i, k => x a i k

/-- One step of the fields with the currents `j`: the magnetic, then the electric update -/
noncomputable def fStepF (G : Geom) (dt : ℝ) (j x : Fields) : Fields := eStepF G dt (midR j x (hStepF G dt x))

/-- Fields after `n` steps -/
noncomputable def fieldsF (G : Geom) (dt : ℝ) (j : ℕ → Fields) (x : Fields) : ℕ → Fields
  | 0 => x
  | n + 1 => fStepF G dt (j n) (fieldsF G dt j x n)

/-- Numbers of the configuration that keep the coefficients within the range of `double` -/
structure Moderate (G : Geom) (dt : ℝ) (ep sg : Grid) : Prop where
  dr : 1 / 2 ^ 60 ≤ G.dr ∧ G.dr ≤ 2 ^ 60
  dz : 1 / 2 ^ 60 ≤ G.dz ∧ G.dz ≤ 2 ^ 60
  dt : 1 / 2 ^ 60 ≤ dt ∧ dt ≤ 2 ^ 60
  eps : ∀ i k, Box 0 G.nr 0 G.nz i k → 1 / 2 ^ 60 ≤ ep i k ∧ ep i k ≤ 2 ^ 60
  sig : ∀ i k, Box 0 G.nr 0 G.nz i k → 0 ≤ sg i k ∧ sg i k ≤ 2 ^ 60

/-! ## Propagation of errors -/

/-- unit of the relative error -/
noncomputable def UU : ℝ := 1 / 2 ^ 53

/-- error of underflow -/
noncomputable def TT : ℝ := 1 / 2 ^ 1075

theorem UU_pos : 0 < UU := by unfold UU; positivity
theorem TT_pos : 0 < TT := by unfold TT; positivity
theorem UU_small : 100000000 * UU ≤ 1 := by unfold UU; norm_num

/-- `y` is a computed value of `x`: `x` has terms of size `m` together, the error is `k` units and `t`. -/
structure Apx (k m t x y : ℝ) : Prop where
  size : |x| ≤ m
  err : |y - x| ≤ k * UU * m + t

theorem Apx.size_nonneg {k m t x y : ℝ} (h : Apx k m t x y) : 0 ≤ m := (abs_nonneg _).trans h.size

theorem Apx.self (x : ℝ) : Apx 0 |x| 0 x x := ⟨le_rfl, by rw [sub_self, abs_zero]; simp⟩

theorem Apx.mono {k m t x y k' t' : ℝ} (h : Apx k m t x y) (hk : k ≤ k') (ht : t ≤ t') : Apx k' m t' x y := by
  refine ⟨h.size, h.err.trans ?_⟩
  have := mul_le_mul_of_nonneg_right hk (mul_nonneg UU_pos.le h.size_nonneg)
  linarith

theorem Apx.fl {k m t x y : ℝ} (h : Apx k m t x y) (hk : k ≤ 100) (ht : 0 ≤ t) :
    Apx (k + 101 / 100) m (2 * t + TT) x (fl y) := by
  refine ⟨h.size, ?_⟩
  have m0 := h.size_nonneg
  have u0 := UU_pos
  have us := UU_small
  have e1 : |Verif.fl y - y| ≤ UU * |y| + TT := fl_near y
  have e2 : |y| ≤ m + (k * UU * m + t) := by
    have := abs_add_le x (y - x)
    rw [add_sub_cancel] at this
    have := h.size
    have := h.err
    linarith
  have e3 : |Verif.fl y - x| ≤ |Verif.fl y - y| + |y - x| := abs_sub_le _ _ _
  have e4 := mul_le_mul_of_nonneg_left e2 u0.le
  have e5 : UU * (k * UU * m) ≤ 1 / 100 * (UU * m) := by
    have : k * UU ≤ 1 / 100 := by nlinarith
    have := mul_le_mul_of_nonneg_right this (mul_nonneg u0.le m0)
    linarith
  have e6 : UU * t ≤ 1 * t := mul_le_mul_of_nonneg_right (by linarith) ht
  have := h.err
  linarith

theorem Apx.add {k m t x y m' t' x' y' : ℝ} (h : Apx k m t x y) (h' : Apx k m' t' x' y') :
    Apx k (m + m') (t + t') (x + x') (y + y') := by
  constructor
  · have := abs_add_le x x'
    have := h.size
    have := h'.size
    linarith
  · have e : y + y' - (x + x') = (y - x) + (y' - x') := by ring
    rw [e]
    have := abs_add_le (y - x) (y' - x')
    have := h.err
    have := h'.err
    linarith

theorem Apx.neg {k m t x y : ℝ} (h : Apx k m t x y) : Apx k m t (-x) (-y) := by
  constructor
  · rw [abs_neg]; exact h.size
  · rw [show -y - -x = -(y - x) by ring, abs_neg]; exact h.err

theorem Apx.sub {k m t x y m' t' x' y' : ℝ} (h : Apx k m t x y) (h' : Apx k m' t' x' y') :
    Apx k (m + m') (t + t') (x - x') (y - y') := by
  have := h.add h'.neg
  rwa [← sub_eq_add_neg, ← sub_eq_add_neg] at this

/-- product with a coefficient, whose error is relative -/
theorem Apx.mul {k m t x y k' m' c c' : ℝ} (h : Apx k m t x y) (h' : Apx k' m' 0 c c') (hk : k ≤ 100) (hk0 : 0 ≤ k) (hk' : k' ≤ 100)
    (ht : 0 ≤ t) : Apx (k + k' + 1 / 100) (m * m') (2 * m' * t) (x * c) (y * c') := by
  have m0 := h.size_nonneg
  have m0' := h'.size_nonneg
  have u0 := UU_pos
  have us := UU_small
  have s1 := h.size
  have s2 := h'.size
  have e1 := h.err
  have e2 := h'.err
  rw [add_zero] at e2
  refine ⟨by rw [abs_mul]; exact mul_le_mul s1 s2 (abs_nonneg _) m0, ?_⟩
  have e3 : y * c' - x * c = (y - x) * c' + x * (c' - c) := by ring
  have e4 : |c'| ≤ m' + k' * UU * m' := by
    have := abs_add_le c (c' - c)
    rw [add_sub_cancel] at this
    linarith
  have q : k' * UU ≤ 1 / 100000 := by nlinarith
  have e5 : |y * c' - x * c| ≤ (k * UU * m + t) * (m' + k' * UU * m') + m * (k' * UU * m') := by
    rw [e3]
    refine (abs_add_le _ _).trans ?_
    rw [abs_mul, abs_mul]
    have p1 : 0 ≤ k * UU * m + t := (abs_nonneg _).trans e1
    have a := mul_le_mul e1 e4 (abs_nonneg _) p1
    have b := mul_le_mul s1 e2 (abs_nonneg _) m0
    linarith
  refine e5.trans ?_
  have w1 : k * UU * m * (k' * UU * m') ≤ 1 / 100 * UU * (m * m') := by
    have : k * (k' * UU) ≤ 1 / 100 := by nlinarith
    have := mul_le_mul_of_nonneg_right this (mul_nonneg u0.le (mul_nonneg m0 m0'))
    linarith
  have w2 : t * (k' * UU * m') ≤ t * (1 * m') := by
    apply mul_le_mul_of_nonneg_left _ ht
    exact mul_le_mul_of_nonneg_right (by linarith) m0'
  linarith

/-- an absolute error that is small against the size -/
theorem Apx.absorb {k m t x y : ℝ} (h : Apx k m t x y) (ht : t ≤ 1 / 100 * UU * m) : Apx (k + 1 / 100) m 0 x y :=
  ⟨h.size, by have := h.err; linarith⟩

/-- the reciprocal of a coefficient -/
theorem Apx.inv {k c c' : ℝ} (h : Apx k c 0 c c') (hc : 0 < c) (hk : k ≤ 100) (hk0 : 0 ≤ k) :
    Apx (k + 1 / 100) (1 / c) 0 (1 / c) (1 / c') := by
  have u0 := UU_pos
  have us := UU_small
  have e := h.err
  rw [add_zero] at e
  have q : k * UU ≤ 1 / 1000000 := by nlinarith
  have lo : c * (1 - k * UU) ≤ c' := by have := (abs_le.1 e).1; linarith
  have lo0 : 0 < c * (1 - k * UU) := mul_pos hc (by linarith)
  have c0 : 0 < c' := by linarith
  refine ⟨by rw [abs_of_pos (by positivity)], ?_⟩
  rw [add_zero, div_sub_div _ _ c0.ne' hc.ne', abs_div, abs_of_pos (mul_pos c0 hc), div_le_iff₀ (mul_pos c0 hc)]
  have e1 : |1 * c - c' * 1| ≤ k * UU * c := by
    rw [one_mul, mul_one, abs_sub_comm]; exact e
  refine e1.trans ?_
  have e2 : (k + 1 / 100) * UU * (1 / c) * (c' * c) = (k + 1 / 100) * UU * c' := by field_simp
  rw [e2]
  have e3 : k ≤ (k + 1 / 100) * (1 - k * UU) := by
    have := mul_le_mul_of_nonneg_left q (by linarith : 0 ≤ k + 1 / 100)
    nlinarith
  calc k * UU * c ≤ ((k + 1 / 100) * (1 - k * UU)) * UU * c := by gcongr
    _ = (k + 1 / 100) * UU * (c * (1 - k * UU)) := by ring
    _ ≤ _ := by
      apply mul_le_mul_of_nonneg_left lo
      positivity

/-- a coefficient after rounding -/
theorem Apx.flc {k m x y : ℝ} (h : Apx k m 0 x y) (hk : k ≤ 100) (hm : 1 / 2 ^ 200 ≤ m) :
    Apx (k + 102 / 100) m 0 x (Verif.fl y) := by
  have := (h.fl hk le_rfl).absorb (by
    rw [mul_zero, zero_add]
    have : TT ≤ 1 / 100 * UU * (1 / 2 ^ 200) := by
      have e : TT = 1 / 2 ^ 875 * (1 / 2 ^ 200) := by
        unfold TT
        rw [div_mul_div_comm, one_mul, ← pow_add]
      rw [e]
      apply mul_le_mul_of_nonneg_right _ (by positivity)
      have : (1:ℝ) / 2 ^ 875 ≤ 1 / 2 ^ 75 := one_div_le_one_div_of_le (by positivity) (pow_le_pow_right₀ (by norm_num) (by norm_num))
      refine this.trans ?_
      unfold UU
      norm_num
    have u0 := UU_pos
    have := mul_le_mul_of_nonneg_left hm (by linarith : 0 ≤ 1 / 100 * UU)
    linarith)
  have e : k + 101 / 100 + 1 / 100 = k + 102 / 100 := by ring
  rwa [e] at this

/-- at the end -/
theorem Apx.rounds {k m t x y : ℝ} (h : Apx k m t x y) (hk : k ≤ 32) (ht : t ≤ ETA) : RoundsTo m x y := by
  have m0 := h.size_nonneg
  unfold RoundsTo
  refine h.err.trans ?_
  have : k * UU ≤ EPS := by
    have : k * UU ≤ 32 * UU := mul_le_mul_of_nonneg_right hk UU_pos.le
    have e : 32 * UU = EPS := by unfold UU EPS; norm_num
    linarith
  have := mul_le_mul_of_nonneg_right this m0
  linarith

/-! The same with whole numbers: `K` hundredths of a unit, underflow `2^n TT` -/

/-- a field -/
def ApxF (K : ℕ) (m : ℝ) (n : ℕ) (x y : ℝ) : Prop := Apx ((K : ℝ) / 100) m (2 ^ n * TT) x y

/-- a coefficient -/
def ApxC (K : ℕ) (m x y : ℝ) : Prop := Apx ((K : ℝ) / 100) m 0 x y

theorem cast_small {K : ℕ} (h : K ≤ 10000) : (K : ℝ) / 100 ≤ 100 := by
  have : (K : ℝ) ≤ 10000 := by exact_mod_cast h
  linarith

theorem ApxF.self (x : ℝ) : ApxF 0 |x| 0 x x :=
  (Apx.self x).mono (by simp) (by have := TT_pos; rw [pow_zero, one_mul]; exact this.le)

theorem ApxF.fl {K n : ℕ} {m x y : ℝ} (h : ApxF K m n x y) (hK : K ≤ 10000 := by norm_num) : ApxF (K + 101) m (n + 2) x (fl y) := by
  have t0 := TT_pos
  refine (Apx.fl h (cast_small hK) (by positivity)).mono (by push_cast; linarith) ?_
  have : (1:ℝ) ≤ 2 ^ n := one_le_pow₀ (by norm_num)
  rw [pow_add]
  nlinarith [mul_le_mul_of_nonneg_right this t0.le]

theorem ApxF.mono {K n K' n' : ℕ} {m x y : ℝ} (h : ApxF K m n x y) (hK : K ≤ K') (hn : n ≤ n') : ApxF K' m n' x y := by
  have t0 := TT_pos
  have a : (K : ℝ) ≤ K' := by exact_mod_cast hK
  have b : (2:ℝ) ^ n ≤ 2 ^ n' := pow_le_pow_right₀ (by norm_num) hn
  exact Apx.mono h (by linarith) (mul_le_mul_of_nonneg_right b t0.le)

theorem ApxF.add {K n K' n' : ℕ} {m x y m' x' y' : ℝ} (h : ApxF K m n x y) (h' : ApxF K' m' n' x' y') :
    ApxF (max K K') (m + m') (max n n' + 1) (x + x') (y + y') := by
  have a := h.mono (le_max_left K K') (le_max_left n n')
  have b := h'.mono (le_max_right K K') (le_max_right n n')
  refine (Apx.add a b).mono le_rfl (le_of_eq ?_)
  rw [pow_succ]; ring

theorem ApxF.sub {K n K' n' : ℕ} {m x y m' x' y' : ℝ} (h : ApxF K m n x y) (h' : ApxF K' m' n' x' y') :
    ApxF (max K K') (m + m') (max n n' + 1) (x - x') (y - y') := by
  have a := h.mono (le_max_left K K') (le_max_left n n')
  have b := h'.mono (le_max_right K K') (le_max_right n n')
  refine (Apx.sub a b).mono le_rfl (le_of_eq ?_)
  rw [pow_succ]; ring

theorem ApxF.mul {K n K' p : ℕ} {m x y m' c c' : ℝ} (h : ApxF K m n x y) (h' : ApxC K' m' c c') (hp : m' ≤ 2 ^ p)
    (hK : K ≤ 10000 := by norm_num) (hK' : K' ≤ 10000 := by norm_num) :
    ApxF (K + K' + 1) (m * m') (n + p + 1) (x * c) (y * c') := by
  have t0 := TT_pos
  refine (Apx.mul h h' (cast_small hK) (by positivity) (cast_small hK') (by positivity)).mono (by push_cast; linarith) ?_
  have := mul_le_mul_of_nonneg_right hp (by positivity : (0:ℝ) ≤ 2 * (2 ^ n * TT))
  rw [pow_succ, pow_add]
  linarith

theorem ApxF.mulL {K n K' p : ℕ} {m x y m' c c' : ℝ} (h : ApxF K m n x y) (h' : ApxC K' m' c c') (hp : m' ≤ 2 ^ p)
    (hK : K ≤ 10000 := by norm_num) (hK' : K' ≤ 10000 := by norm_num) :
    ApxF (K + K' + 1) (m * m') (n + p + 1) (c * x) (c' * y) := by
  have := h.mul h' hp hK hK'
  rwa [mul_comm x, mul_comm y] at this

theorem ApxC.lit {c : ℝ} (hc : 0 < c) : ApxC 0 c c c := by
  have := Apx.self c
  rw [abs_of_pos hc] at this
  exact this.mono (by simp) le_rfl

theorem ApxC.fl {K : ℕ} {m x y : ℝ} (h : ApxC K m x y) (hm : 1 / 2 ^ 200 ≤ m) (hK : K ≤ 10000 := by norm_num) :
    ApxC (K + 102) m x (fl y) :=
  (Apx.flc h (cast_small hK) hm).mono (by push_cast; linarith) le_rfl

theorem ApxC.mono {K K' : ℕ} {m x y : ℝ} (h : ApxC K m x y) (hK : K ≤ K') : ApxC K' m x y := by
  have a : (K : ℝ) ≤ K' := by exact_mod_cast hK
  exact Apx.mono h (by linarith) le_rfl

theorem ApxC.mul {K K' : ℕ} {m x y m' c c' : ℝ} (h : ApxC K m x y) (h' : ApxC K' m' c c')
    (hK : K ≤ 10000 := by norm_num) (hK' : K' ≤ 10000 := by norm_num) : ApxC (K + K' + 1) (m * m') (x * c) (y * c') :=
  (Apx.mul h h' (cast_small hK) (by positivity) (cast_small hK') le_rfl).mono (by push_cast; linarith) (by simp)

theorem ApxC.add {K K' : ℕ} {m x y m' x' y' : ℝ} (h : ApxC K m x y) (h' : ApxC K' m' x' y') :
    ApxC (max K K') (m + m') (x + x') (y + y') :=
  (Apx.add (h.mono (le_max_left K K')) (h'.mono (le_max_right K K'))).mono le_rfl (by simp)

theorem ApxC.sub {K K' : ℕ} {m x y m' x' y' : ℝ} (h : ApxC K m x y) (h' : ApxC K' m' x' y') :
    ApxC (max K K') (m + m') (x - x') (y - y') :=
  (Apx.sub (h.mono (le_max_left K K')) (h'.mono (le_max_right K K'))).mono le_rfl (by simp)

theorem ApxC.inv {K : ℕ} {c c' : ℝ} (h : ApxC K c c c') (hc : 0 < c) (hK : K ≤ 10000 := by norm_num) :
    ApxC (K + 1) (1 / c) (1 / c) (1 / c') :=
  (Apx.inv h hc (cast_small hK) (by positivity)).mono (by push_cast; linarith) le_rfl

theorem ApxF.div {K n K' p : ℕ} {m x y c c' : ℝ} (h : ApxF K m n x y) (h' : ApxC K' c c c') (hc : 0 < c) (hp : 1 / c ≤ 2 ^ p)
    (hK : K ≤ 10000 := by norm_num) (hK' : K' + 1 ≤ 10000 := by norm_num) :
    ApxF (K + (K' + 1) + 1) (m / c) (n + p + 1) (x / c) (y / c') := by
  have := h.mul (h'.inv hc (by omega)) hp hK hK'
  rwa [mul_one_div, mul_one_div, mul_one_div] at this

theorem ApxF.rounds {K n : ℕ} {m m' x x' y : ℝ} (h : ApxF K m n x y) (hm : m = m') (hx : x = x') (hK : K ≤ 3200 := by norm_num)
    (hn : n ≤ 500 := by norm_num) : RoundsTo m' x' y := by
  subst hm; subst hx
  refine Apx.rounds h ?_ ?_
  · have : (K : ℝ) ≤ 3200 := by exact_mod_cast hK
    linarith
  · have t0 := TT_pos
    have b : (2:ℝ) ^ n ≤ 2 ^ 500 := pow_le_pow_right₀ (by norm_num) hn
    refine (mul_le_mul_of_nonneg_right b t0.le).trans ?_
    have e1 : TT = 1 / 2 ^ 575 * ETA := by
      unfold TT ETA
      rw [div_mul_div_comm, one_mul, ← pow_add]
    rw [e1, ← mul_assoc]
    have e0 : 0 < ETA := ETA_pos
    have : (2:ℝ) ^ 500 * (1 / 2 ^ 575) ≤ 1 := by
      rw [mul_one_div, div_le_one (by positivity)]
      exact pow_le_pow_right₀ (by norm_num) (by norm_num)
    have := mul_le_mul_of_nonneg_right this e0.le
    linarith

/-! ## The updates -/

theorem magn_range : 1 / 2 ^ 20 ≤ MAGN_CONST ∧ MAGN_CONST ≤ 1 := by unfold MAGN_CONST; norm_num

theorem eps0_range : 1 / 2 ^ 40 ≤ EPSILON0 ∧ EPSILON0 ≤ 1 := by unfold EPSILON0; norm_num

theorem hStepF_rounds {G : Geom} {dt : ℝ} {ep sg : Grid} (hM : Moderate G dt ep sg) (x : Fields) {a : Arr} {i k : ℤ}
    (hn : HNode G a i k) :
    RoundsTo (|x a i k| + dt / MAGN_CONST * sizeE G x a i k) (hStep G dt x a i k) (hStepF G dt x a i k) := by
  obtain ⟨r1, r2⟩ := hM.dr
  obtain ⟨z1, z2⟩ := hM.dz
  obtain ⟨t1, t2⟩ := hM.dt
  obtain ⟨g1, g2⟩ := magn_range
  have p : (0:ℝ) < 1 / 2 ^ 60 := by positivity
  have pr : 0 < G.dr := by linarith
  have pz : 0 < G.dz := by linarith
  have pt : 0 < dt := by linarith
  have pm := MAGN_CONST_pos
  have cm : ApxC 102 MAGN_CONST MAGN_CONST (fl MAGN_CONST) := (ApxC.lit pm).fl (by refine le_trans ?_ g1; norm_num)
  have ct := ApxC.lit pt
  have im : 1 / MAGN_CONST ≤ 2 ^ 20 := by
    rw [div_le_iff₀ pm]
    have := mul_le_mul_of_nonneg_left g1 (by norm_num : (0:ℝ) ≤ 2 ^ 20)
    norm_num at this ⊢; linarith
  have inv60 : ∀ c : ℝ, 1 / 2 ^ 60 ≤ c → 1 / c ≤ 2 ^ 60 := by
    intro c hc
    have : 0 < c := by linarith
    rw [div_le_iff₀ this]
    have := mul_le_mul_of_nonneg_left hc (by norm_num : (0:ℝ) ≤ 2 ^ 60)
    norm_num at this ⊢; linarith
  have ir := inv60 _ r1
  have iz := inv60 _ z1
  cases a <;> simp only [HNode] at hn
  · simp only [hStepF, hStep]
    rw [if_pos hn, if_pos hn]
    have cd : ApxC 205 (G.dz * MAGN_CONST) (G.dz * MAGN_CONST) (fl (G.dz * fl MAGN_CONST)) :=
      ((ApxC.lit pz).mul cm).fl (by
        have := mul_le_mul z1 g1 (by norm_num) pz.le
        refine le_trans ?_ this; norm_num)
    have idz : 1 / (G.dz * MAGN_CONST) ≤ 2 ^ 80 := by
      have e : 1 / (G.dz * MAGN_CONST) = 1 / G.dz * (1 / MAGN_CONST) := by rw [div_mul_div_comm, one_mul]
      rw [e]
      calc 1 / G.dz * (1 / MAGN_CONST) ≤ 2 ^ 60 * 2 ^ 20 := by gcongr
        _ = _ := by norm_num
    have d := ((ApxF.self (x .ephi i (k + 1))).sub (ApxF.self (x .ephi i k))).fl
    have d2 := (d.mulL ct t2).fl
    have f := ((ApxF.self (x .hr i k)).add (d2.div cd (by positivity) idz).fl).fl
    refine f.rounds ?_ ?_
    · simp only [sizeE]; field_simp
    · unfold alphaR; rfl
  · simp only [hStepF, hStep]
    rw [if_pos hn, if_pos hn]
    have d1 := (((ApxF.self (x .ez (i + 1) k)).sub (ApxF.self (x .ez i k))).fl.div (ApxC.lit pr) pr ir).fl
    have d2 := (((ApxF.self (x .er i (k + 1))).sub (ApxF.self (x .er i k))).fl.div (ApxC.lit pz) pz iz).fl
    have d3 := ((d1.sub d2).fl.mulL ct t2).fl
    have f := ((ApxF.self (x .hphi i k)).add (d3.div cm pm im).fl).fl
    refine f.rounds ?_ ?_
    · simp only [sizeE]; field_simp
    · unfold alphaPhi; rfl
  · simp only [hStepF, hStep]
    rw [if_pos hn, if_pos hn]
    have i0 : (0:ℝ) ≤ (i:ℝ) := by exact_mod_cast hn.1
    have ci : ApxC 102 ((i:ℝ) + 0.5) ((i:ℝ) + 0.5) (fl ((i:ℝ) + 0.5)) := (ApxC.lit (by positivity)).fl (by
      have : (1:ℝ) / 2 ^ 200 ≤ 0.5 := by norm_num
      linarith)
    have c2 : ApxC 102 (2 * G.dr) (2 * G.dr) (fl (2 * G.dr)) := (ApxC.lit (by positivity)).fl (by
      have : (1:ℝ) / 2 ^ 200 ≤ 1 / 2 ^ 60 := by norm_num
      linarith)
    have lo : 1 / 2 ^ 60 ≤ 2 * G.dr * ((i:ℝ) + 0.5) := by
      have : 2 * G.dr * 0.5 ≤ 2 * G.dr * ((i:ℝ) + 0.5) := mul_le_mul_of_nonneg_left (by linarith) (by positivity)
      norm_num at this ⊢
      norm_num at r1
      linarith
    have cd := (c2.mul ci).fl (by
      have : (1:ℝ) / 2 ^ 200 ≤ 1 / 2 ^ 60 := by norm_num
      linarith)
    have d1 := (((ApxF.self (x .ephi (i + 1) k)).add (ApxF.self (x .ephi i k))).fl.div cd (by positivity) (inv60 _ lo)).fl
    have d2 := (((ApxF.self (x .ephi (i + 1) k)).sub (ApxF.self (x .ephi i k))).fl.div (ApxC.lit pr) pr ir).fl
    have d3 := ((d1.add d2).fl.mulL ct t2).fl
    have f := ((ApxF.self (x .hz i k)).sub (d3.div cm pm im).fl).fl
    refine f.rounds ?_ ?_
    · simp only [sizeE]; field_simp
    · unfold alphaZ; rfl

/-- the coefficients of the electric update -/
theorem koefF_apx {G : Geom} {dt : ℝ} {ep sg : Grid} (hM : Moderate G dt ep sg) {x : Fields} {i k : ℤ}
    (hb : Box 0 G.nr 0 G.nz i k) (he : x .eps = ep) (hs : x .sig = sg) :
    ApxC 1000 1 (koefE (ep i k) (sg i k) dt) (koefEF dt x i k) ∧
    ApxC 700 (koefH (ep i k) (sg i k) dt) (koefH (ep i k) (sg i k) dt) (koefHF dt x i k) ∧
    koefH (ep i k) (sg i k) dt ≤ 2 ^ 160 := by
  obtain ⟨t1, t2⟩ := hM.dt
  obtain ⟨e1, e2⟩ := hM.eps i k hb
  obtain ⟨s1, s2⟩ := hM.sig i k hb
  obtain ⟨g1, g2⟩ := eps0_range
  have p : (0:ℝ) < 1 / 2 ^ 60 := by positivity
  have pe : 0 < ep i k := by linarith
  have pt : 0 < dt := by linarith
  have p0 := EPSILON0_pos
  have c0 : ApxC 102 EPSILON0 EPSILON0 (fl EPSILON0) := (ApxC.lit p0).fl (by refine le_trans ?_ g1; norm_num)
  have c2 : ApxC 102 (2 * ep i k) (2 * ep i k) (fl (2 * ep i k)) := (ApxC.lit (by positivity)).fl (by
    have : (1:ℝ) / 2 ^ 200 ≤ 1 / 2 ^ 60 := by norm_num
    linarith)
  have lo : 1 / 2 ^ 99 ≤ 2 * ep i k * EPSILON0 := by
    calc (1:ℝ) / 2 ^ 99 = 2 * (1 / 2 ^ 60) * (1 / 2 ^ 40) := by norm_num
      _ ≤ _ := by gcongr
  have cx := (c2.mul c0).fl (by refine le_trans ?_ lo; norm_num)
  have st0 : 0 ≤ sg i k * dt := by positivity
  -- the term of the conductivity may be small
  have cs : Apx 1 (sg i k * dt) TT (sg i k * dt) (fl (sg i k * dt)) := by
    refine ⟨by rw [abs_of_nonneg st0], ?_⟩
    have := fl_near (sg i k * dt)
    rw [abs_of_nonneg st0] at this
    rw [one_mul]; exact this
  have tiny : TT ≤ 1 / 100 * UU * (2 * ep i k * EPSILON0 + sg i k * dt) := by
    have u0 := UU_pos
    have h1 : TT ≤ 1 / 100 * UU * (1 / 2 ^ 99) := by
      have e : TT = 1 / 2 ^ 976 * (1 / 2 ^ 99) := by
        unfold TT
        rw [div_mul_div_comm, one_mul, ← pow_add]
      rw [e]
      apply mul_le_mul_of_nonneg_right _ (by positivity)
      have : (1:ℝ) / 2 ^ 976 ≤ 1 / 2 ^ 75 := one_div_le_one_div_of_le (by positivity) (pow_le_pow_right₀ (by norm_num) (by norm_num))
      refine this.trans ?_
      unfold UU
      norm_num
    refine h1.trans (mul_le_mul_of_nonneg_left (by linarith) (by linarith))
  have cx' : Apx (307 / 100) (2 * ep i k * EPSILON0) 0 (2 * ep i k * EPSILON0) (fl (fl (2 * ep i k) * fl EPSILON0)) :=
    Apx.mono cx (by push_cast; norm_num) le_rfl
  have cs' := cs.mono (by norm_num : (1:ℝ) ≤ 307 / 100) le_rfl
  have plus : ApxC 308 (2 * ep i k * EPSILON0 + sg i k * dt) (2 * ep i k * EPSILON0 + sg i k * dt)
      (fl (fl (2 * ep i k) * fl EPSILON0) + fl (sg i k * dt)) :=
    ((cx'.add cs').absorb (by rw [zero_add]; exact tiny)).mono (by norm_num) le_rfl
  have minus : ApxC 308 (2 * ep i k * EPSILON0 + sg i k * dt) (2 * ep i k * EPSILON0 - sg i k * dt)
      (fl (fl (2 * ep i k) * fl EPSILON0) - fl (sg i k * dt)) :=
    ((cx'.sub cs').absorb (by rw [zero_add]; exact tiny)).mono (by norm_num) le_rfl
  obtain ⟨D, hD⟩ : ∃ D, D = 2 * ep i k * EPSILON0 + sg i k * dt := ⟨_, rfl⟩
  have Dlo : 1 / 2 ^ 99 ≤ D := by rw [hD]; linarith
  have pD : 0 < D := by
    have : (0:ℝ) < 1 / 2 ^ 99 := by positivity
    linarith
  have Dhi : D ≤ 2 ^ 121 := by
    rw [hD]
    calc 2 * ep i k * EPSILON0 + sg i k * dt ≤ 2 * 2 ^ 60 * 1 + 2 ^ 60 * 2 ^ 60 := by gcongr
      _ ≤ _ := by norm_num
  rw [← hD] at plus minus
  have sm : (1:ℝ) / 2 ^ 200 ≤ D := by refine le_trans ?_ Dlo; norm_num
  have den : ApxC 410 D D (denF dt x i k) := by
    unfold denF
    rw [he, hs]
    exact plus.fl sm
  have iden := den.inv pD
  have lo1 : (1:ℝ) / 2 ^ 121 ≤ 1 / D := one_div_le_one_div_of_le pD Dhi
  have e9 : koefH (ep i k) (sg i k) dt = 2 * dt * (1 / D) := by unfold koefH; rw [hD, mul_one_div]
  have e10 : koefE (ep i k) (sg i k) dt = (2 * ep i k * EPSILON0 - sg i k * dt) * (1 / D) := by
    unfold koefE; rw [hD, mul_one_div]
  refine ⟨?_, ?_, ?_⟩
  · have num := minus.fl sm
    have q := (num.mul iden).fl (by rw [mul_one_div, div_self pD.ne']; norm_num)
    rw [mul_one_div D, div_self pD.ne', ← e10, mul_one_div] at q
    have q' := q.mono (show _ ≤ 1000 by norm_num)
    unfold koefEF
    rw [he, hs]
    exact q'
  · have n2 : ApxC 102 (2 * dt) (2 * dt) (fl (2 * dt)) := (ApxC.lit (by positivity)).fl (by
      have : (1:ℝ) / 2 ^ 200 ≤ 1 / 2 ^ 60 := by norm_num
      linarith)
    have q := (n2.mul iden).fl (by
      calc (1:ℝ) / 2 ^ 200 ≤ 2 * (1 / 2 ^ 60) * (1 / 2 ^ 121) := by norm_num
        _ ≤ _ := by gcongr)
    rw [← e9, mul_one_div (fl (2 * dt))] at q
    exact q.mono (show _ ≤ 700 by norm_num)
  · rw [e9]
    have : 1 / D ≤ 2 ^ 99 := by
      have := one_div_le_one_div_of_le (by positivity) Dlo
      rwa [one_div_one_div] at this
    calc 2 * dt * (1 / D) ≤ 2 * 2 ^ 60 * 2 ^ 99 := by gcongr
      _ ≤ _ := by norm_num

theorem eStepF_rounds {G : Geom} {dt : ℝ} {ep sg : Grid} (hM : Moderate G dt ep sg) {x : Fields} (he : x .eps = ep)
    (hs : x .sig = sg) {a : Arr} {i k : ℤ} (hn : ENode G a i k) :
    RoundsTo (|x a i k| + koefH (ep i k) (sg i k) dt * (|currentOf x a i k| + sizeH G x a i k))
      (eStep G dt x a i k) (eStepF G dt x a i k) := by
  obtain ⟨r1, r2⟩ := hM.dr
  obtain ⟨z1, z2⟩ := hM.dz
  have p : (0:ℝ) < 1 / 2 ^ 60 := by positivity
  have pr : 0 < G.dr := by linarith
  have pz : 0 < G.dz := by linarith
  have inv60 : ∀ c : ℝ, 1 / 2 ^ 60 ≤ c → 1 / c ≤ 2 ^ 60 := by
    intro c hc
    have : 0 < c := by linarith
    rw [div_le_iff₀ this]
    have := mul_le_mul_of_nonneg_left hc (by norm_num : (0:ℝ) ≤ 2 ^ 60)
    norm_num at this ⊢; linarith
  have ir := inv60 _ r1
  have iz := inv60 _ z1
  obtain ⟨ke, kh, khb⟩ := koefF_apx hM hn.box he hs
  have one : (1:ℝ) ≤ 2 ^ 0 := by norm_num
  have eE : kE dt x i k = koefE (ep i k) (sg i k) dt := by unfold kE; rw [he, hs]
  have eH : kH dt x i k = koefH (ep i k) (sg i k) dt := by unfold kH; rw [he, hs]
  have fin : ∀ (f j c cF m : ℝ) (K n : ℕ), ApxF K (|j| + m) n (j - c) cF → K ≤ 1000 → n ≤ 200 →
      RoundsTo (|f| + koefH (ep i k) (sg i k) dt * (|j| + m)) (f * koefE (ep i k) (sg i k) dt - (j - c) * koefH (ep i k) (sg i k) dt)
        (fl (fl (f * koefEF dt x i k) - fl (cF * koefHF dt x i k))) := by
    intro f j c cF m K n h hK hn
    have h' := h.mono hK hn
    have q := (((ApxF.self f).mul ke one).fl.sub (h'.mul kh khb).fl).fl
    exact q.rounds (by ring) rfl
  cases a <;> simp only [ENode] at hn
  · simp only [eStepF, eStep]
    rw [if_pos hn, if_pos hn]
    have d := (((ApxF.self (x .hphi i k)).sub (ApxF.self (x .hphi i (k - 1)))).fl.div (ApxC.lit pz) pz iz).fl
    have q := ((ApxF.self (x .jr i k)).add d).fl
    have e : x .jr i k + (x .hphi i k - x .hphi i (k - 1)) / G.dz =
        x .jr i k - -((x .hphi i k - x .hphi i (k - 1)) / G.dz) := by ring
    rw [e] at q
    have := fin (x .er i k) _ _ _ _ _ _ q (by norm_num) (by norm_num)
    unfold newEr
    rw [eE, eH, e]
    exact this
  · simp only [eStepF, eStep]
    rw [if_pos hn, if_pos hn]
    have d1 := (((ApxF.self (x .hr i k)).sub (ApxF.self (x .hr i (k - 1)))).fl.div (ApxC.lit pz) pz iz).fl
    have d2 := (((ApxF.self (x .hz i k)).sub (ApxF.self (x .hz (i - 1) k))).fl.div (ApxC.lit pr) pr ir).fl
    have q := (((ApxF.self (x .jphi i k)).sub d1).fl.add d2).fl
    have e : x .jphi i k - (x .hr i k - x .hr i (k - 1)) / G.dz + (x .hz i k - x .hz (i - 1) k) / G.dr =
        x .jphi i k - ((x .hr i k - x .hr i (k - 1)) / G.dz - (x .hz i k - x .hz (i - 1) k) / G.dr) := by ring
    rw [e, add_assoc |x .jphi i k|] at q
    have := fin (x .ephi i k) _ _ _ _ _ _ q (by norm_num) (by norm_num)
    unfold newEphi
    rw [eE, eH, e]
    exact this
  · simp only [eStepF, eStep]
    by_cases h0 : i = 0
    · have hb : Box 0 1 0 (G.nz - 1) i k := by simp only [Box] at hn ⊢; omega
      rw [if_pos hb, if_pos hb]
      have p4 : (1:ℝ) / 2 ^ 200 ≤ 4 / G.dr := by
        rw [div_le_div_iff₀ (by positivity) pr]
        have : (2:ℝ) ^ 60 ≤ 4 * 2 ^ 200 := by norm_num
        linarith
      have c4 : ApxC 102 (4 / G.dr) (4 / G.dr) (fl (4 / G.dr)) := (ApxC.lit (by positivity)).fl p4
      have b4 : 4 / G.dr ≤ 2 ^ 62 := by
        rw [div_eq_mul_one_div]
        have := mul_le_mul_of_nonneg_left ir (by norm_num : (0:ℝ) ≤ 4)
        norm_num at this ⊢; linarith
      have q := ((ApxF.self (x .jz i k)).sub ((ApxF.self (x .hphi i k)).mulL c4 b4).fl).fl
      have := fin (x .ez i k) _ _ _ _ _ _ q (by norm_num) (by norm_num)
      unfold newEz0
      rw [eE, eH]
      simp only [sizeH]
      rw [if_pos h0, mul_comm (4 / G.dr) |x .hphi i k|]
      exact this
    · have hb : ¬ Box 0 1 0 (G.nz - 1) i k := by simp only [Box] at hn ⊢; omega
      have hb' : Box 1 (G.nr - 1) 0 (G.nz - 1) i k := by simp only [Box] at hn ⊢; omega
      rw [if_neg hb, if_neg hb, if_pos hb', if_pos hb']
      have i1 : (1:ℝ) ≤ (i:ℝ) := by
        have : 1 ≤ i := hb'.1
        exact_mod_cast this
      have c2 : ApxC 102 (2 * G.dr) (2 * G.dr) (fl (2 * G.dr)) := (ApxC.lit (by positivity)).fl (by
        have : (1:ℝ) / 2 ^ 200 ≤ 1 / 2 ^ 60 := by norm_num
        linarith)
      have lo : 1 / 2 ^ 60 ≤ 2 * G.dr * (i:ℝ) := by nlinarith
      have cd := (c2.mul (ApxC.lit (by linarith : (0:ℝ) < (i:ℝ)))).fl (by
        have : (1:ℝ) / 2 ^ 200 ≤ 1 / 2 ^ 60 := by norm_num
        linarith)
      have d1 := (((ApxF.self (x .hphi i k)).sub (ApxF.self (x .hphi (i - 1) k))).fl.div (ApxC.lit pr) pr ir).fl
      have d2 := (((ApxF.self (x .hphi i k)).add (ApxF.self (x .hphi (i - 1) k))).fl.div cd (by positivity) (inv60 _ lo)).fl
      have q := (((ApxF.self (x .jz i k)).sub d1).fl.sub d2).fl
      have e : x .jz i k - (x .hphi i k - x .hphi (i - 1) k) / G.dr - (x .hphi i k + x .hphi (i - 1) k) / (2 * G.dr * (i:ℝ)) =
          x .jz i k - ((x .hphi i k - x .hphi (i - 1) k) / G.dr + (x .hphi i k + x .hphi (i - 1) k) / (2 * G.dr * (i:ℝ))) := by ring
      rw [e, add_assoc |x .jz i k|] at q
      have := fin (x .ez i k) _ _ _ _ _ _ q (by norm_num) (by norm_num)
      unfold newEz
      rw [eE, eH, e]
      simp only [sizeH]
      rw [if_neg h0]
      exact this

theorem hStepF_keeps (G : Geom) (dt : ℝ) (x : Fields) {a : Arr} (h : ¬ (a = .hr ∨ a = .hphi ∨ a = .hz)) :
    hStepF G dt x a = x a := by
  cases a <;> first | (exfalso; apply h; simp; done) | rfl

theorem eStepF_keeps (G : Geom) (dt : ℝ) (x : Fields) {a : Arr} (h : ¬ (a = .er ∨ a = .ephi ∨ a = .ez)) :
    eStepF G dt x a = x a := by
  cases a <;> first | (exfalso; apply h; simp; done) | rfl

theorem eStepF_wall {G : Geom} (hG : G.Valid) (dt : ℝ) (x : Fields) {a : Arr} {i k : ℤ} (hn : ¬ ENode G a i k) :
    eStepF G dt x a i k = x a i k := by
  cases a <;> simp only [ENode] at hn <;> simp only [eStepF]
  · rw [if_neg hn]
  · rw [if_neg hn]
  · rw [if_neg, if_neg]
    · intro h; apply hn; simp only [Box] at h ⊢; omega
    · intro h; apply hn; have := hG.nr_ge; simp only [Box] at h ⊢; omega

/-- A step in IEEE arithmetic is a rounded step. -/
theorem fStepF_rounded {G : Geom} (hG : G.Valid) {dt : ℝ} {j x : Fields} (hM : Moderate G dt (x .eps) (x .sig)) :
    FieldStepR G dt j x (fStepF G dt j x) := by
  have hH : ∀ a, a = .hr ∨ a = .hphi ∨ a = .hz → fStepF G dt j x a = hStepF G dt x a := by
    intro a ha
    unfold fStepF
    rcases ha with rfl | rfl | rfl <;> rfl
  refine ⟨?_, ?_, ?_, ?_, ?_, ?_⟩
  · intro a i k hn
    have ha : a = .hr ∨ a = .hphi ∨ a = .hz := by cases a <;> simp [HNode] at hn ⊢
    rw [hH a ha]
    exact hStepF_rounds hM x hn
  · intro a i k hn
    have e : midR j x (fStepF G dt j x) = midR j x (hStepF G dt x) := by
      funext b
      cases b <;> rfl
    rw [e]
    have q := eStepF_rounds (x := midR j x (hStepF G dt x)) hM rfl rfl hn
    have e1 : midR j x (hStepF G dt x) a i k = x a i k := by cases a <;> simp [ENode] at hn <;> rfl
    have e2 : currentOf (midR j x (hStepF G dt x)) a i k = currentOf j a i k := by cases a <;> simp [ENode] at hn <;> rfl
    have e3 : sizeH G (midR j x (hStepF G dt x)) a i k = sizeH G (fStepF G dt j x) a i k := by
      cases a <;> simp [ENode] at hn <;> rfl
    rw [e1, e2, e3] at q
    exact q
  · intro a i k ha hn
    unfold fStepF
    rw [eStepF_wall hG dt _ hn]
    rcases ha with rfl | rfl | rfl <;> rfl
  · intro a i k ha hn
    rw [hH a ha]
    rcases ha with rfl | rfl | rfl <;> simp only [HNode] at hn <;> simp only [hStepF] <;> rw [if_neg hn]
  · rfl
  · rfl

theorem fieldsF_medium (G : Geom) (dt : ℝ) (j : ℕ → Fields) (x : Fields) (n : ℕ) :
    fieldsF G dt j x n .eps = x .eps ∧ fieldsF G dt j x n .sig = x .sig := by
  induction n with
  | zero => exact ⟨rfl, rfl⟩
  | succ n ih => exact ih

/-- **C102.**  `C102_growth` of the program in IEEE arithmetic -/
theorem C102_ieee {G : Geom} (hG : G.Valid) {dt e θ S δ : ℝ} (he : 0 < e) (hθ : 0 ≤ θ) (hθ1 : θ < 1)
    (hl : StepLimit G dt e θ) {calls : ℕ → List JCall} {N : ℕ} (hN : (N : ℝ) ≤ 2 ^ 40 * √(1 - θ)) {Y : ℕ → Mem Loc}
    (hm : Initialised G (Y 0)) (hw : WallE G (fieldsOf (Y 0)))
    (hM : Moderate G dt (fieldsOf (Y 0) .eps) (fieldsOf (Y 0) .sig))
    (hmed : ∀ i k, Box 0 G.nr 0 G.nz i k → e ≤ fieldsOf (Y 0) .eps i k)
    (hc : ∀ n, n < N → ∀ c ∈ calls n, c.Ok G) (hY : ∀ n, n < N → FieldStep G dt (calls n) (Y n) (Y (n + 1)))
    {j : ℕ → Fields} (hS0 : 0 ≤ S) (hS : ∀ n, n < N → storedEnergy G (fieldsOf (Y 0) .eps) (fieldsOf (Y n)) ≤ S ^ 2 ∧
      currentEnergy G dt (fieldsOf (Y 0) .eps) (fieldsOf (Y 0) .sig) (currentOf (j n)) ≤ S ^ 2)
    (hδ0 : 0 ≤ δ) (hδ : ∀ n, n < N → currentEnergy G dt (fieldsOf (Y 0) .eps) (fieldsOf (Y 0) .sig)
      (fun a i k => callSum (calls n) (jOf a) i k - currentOf (j n) a i k) ≤ δ ^ 2) :
    √(storedEnergy G (fieldsOf (Y 0) .eps) (fun a i k => fieldsF G dt j (fieldsOf (Y 0)) N a i k - fieldsOf (Y N) a i k)) ≤
      1000 * N / √(1 - θ) * (EPS * S + ETA * √(unitEnergy G (fieldsOf (Y 0) .eps)) + δ) := by
  have hdt : 0 < dt := by
    have h := hM.dt.1
    have : (0:ℝ) < 1 / 2 ^ 60 := by positivity
    linarith
  refine C102_growth hG hdt he hθ hθ1 hl hN hm hw (fun i k hb => ⟨hmed i k hb, (hM.sig i k hb).1⟩) hc hY
    (X := fieldsF G dt j (fieldsOf (Y 0))) (j := j) rfl ?_ hS0 hS hδ0 hδ
  intro n _
  obtain ⟨h1, h2⟩ := fieldsF_medium G dt j (fieldsOf (Y 0)) n
  refine fStepF_rounded hG ?_
  rw [h1, h2]
  exact hM

/-- **C102.**  `C102_free` of the program in IEEE arithmetic -/
theorem C102_ieee_free {G : Geom} (hG : G.Valid) {dt e θ : ℝ} (he : 0 < e) (hθ : 0 ≤ θ) (hθ1 : θ < 1)
    (hl : StepLimit G dt e θ) {N : ℕ} (hN : (N : ℝ) ≤ 2 ^ 40 * √(1 - θ)) {Y : ℕ → Mem Loc}
    (hm : Initialised G (Y 0)) (hw : WallE G (fieldsOf (Y 0)))
    (hM : Moderate G dt (fieldsOf (Y 0) .eps) (fieldsOf (Y 0) .sig))
    (hmed : ∀ i k, Box 0 G.nr 0 G.nz i k → e ≤ fieldsOf (Y 0) .eps i k)
    (hY : ∀ n, n < N → FieldStep G dt [] (Y n) (Y (n + 1))) :
    √(storedEnergy G (fieldsOf (Y 0) .eps)
        (fun a i k => fieldsF G dt (fun _ _ _ _ => 0) (fieldsOf (Y 0)) N a i k - fieldsOf (Y N) a i k)) ≤
      3000 * N / (1 - θ) * (EPS * √(storedEnergy G (fieldsOf (Y 0) .eps) (fieldsOf (Y 0))) +
        ETA * √(unitEnergy G (fieldsOf (Y 0) .eps))) := by
  have hdt : 0 < dt := by
    have h := hM.dt.1
    have : (0:ℝ) < 1 / 2 ^ 60 := by positivity
    linarith
  refine C102_free hG hdt he hθ hθ1 hl hN hm hw (fun i k hb => ⟨hmed i k hb, (hM.sig i k hb).1⟩) hY
    (X := fieldsF G dt (fun _ _ _ _ => 0) (fieldsOf (Y 0))) rfl ?_
  intro n _
  obtain ⟨h1, h2⟩ := fieldsF_medium G dt (fun _ _ _ _ => 0) (fieldsOf (Y 0)) n
  refine fStepF_rounded hG ?_
  rw [h1, h2]
  exact hM

end Verif
