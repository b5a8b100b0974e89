import Verif.RoundedProps
import Verif.DoubleProps

/-!
# The motion of a macroparticle in IEEE 754 arithmetic (C101)

The expressions of Rounded.lean evaluated in the order of the source, every operation rounded to binary64 (`fl`, Double.lean): the
arithmetic of a build without `-ffast-math` and without contraction to fused products.  The only library function is `pow`, of which
an error of two units in the last place is allowed.
-/

namespace Verif

/-! ## The program -/

/-- `tv_squared_sum`, lib/tinyvec3d/tinyvec3d.cpp:55-62, 121-124; the sum begins with zero, which adds no error -/
noncomputable def sqF (u : V3) : ℝ := fl (fl (fl (u.c0 * u.c0) + fl (u.c1 * u.c1)) + fl (u.c2 * u.c2))

/-- Division by the relativistic factor, src/particles.cpp:1134-1142, 1243-1248, src/lib.cpp:72-80; `pw` is `pow(·, -0.5)`. -/
noncomputable def velocityF (pw : ℝ → ℝ) (u : V3) : V3 :=
  let g := pw (fl (1 + fl (sqF u / LIGHT_SPEED ^ 2)))
  ⟨fl (u.c0 * g), fl (u.c1 * g), fl (u.c2 * g)⟩

/-- `half_step_pos_single`, src/particles.cpp:1270-1284 -/
noncomputable def halfStepF (dt : ℝ) (v p : V3) : V3 :=
  let h := fl (dt / 2)
  ⟨fl (p.c0 + fl (v.c0 * h)), fl (p.c1 + fl (v.c1 * h)), fl (p.c2 + fl (v.c2 * h))⟩

/-- `back_position_to_rz_single`, src/particles.cpp:1286-1294 -/
noncomputable def backF (p : V3) : V3 := ⟨fl √(fl (fl (p.c0 * p.c0) + fl (p.c1 * p.c1))), 0, p.c2⟩

/-- The walls of one coordinate, `reflection_single`, src/particles.cpp:1318-1353 -/
noncomputable def wallsF (g : GridR) (x : ℝ) : ℝ :=
  let w := fl (g.size - fl (g.d / 2))
  let y := if w < x then fl (fl (w * 2) - x) else x
  if y < fl (g.d / 2) then fl (g.d - y) else y

/-- One cycle of a macroparticle of a species, src/particles.cpp:1296-1316, 1355-1373: position between the halves and after it -/
noncomputable def movedF (pw : ℝ → ℝ) (gr gz : GridR) (dt : ℝ) (u p : V3) : V3 × V3 :=
  let v := velocityF pw u
  let m := backF (halfStepF dt v p)
  let b := halfStepF dt v m
  (m, backF ⟨wallsF gr b.c0, b.c1, wallsF gz b.c2⟩)

/-- Position before cycle `n`, when the pusher makes the momenta `u` -/
noncomputable def posF (pw : ℝ → ℝ) (gr gz : GridR) (dt : ℝ) (u : ℕ → V3) (p0 : V3) : ℕ → V3
  | 0 => p0
  | n + 1 => (movedF pw gr gz dt (u n) (posF pw gr gz dt u p0 n)).2

/-- `CELL_NUMBER(x, dx)`, include/geometry.h:44 -/
noncomputable def cellF (g : GridR) (x : ℝ) : ℤ := ⌈fl (x / g.d)⌉ - 1

/-- `CELL_NUMBER(x - 0.5 * dx, dx)` and the replacement of negative numbers, src/eField.cpp:225-230, 252-257,
src/hField.cpp:180-185, 207-212, 239-244 -/
noncomputable def shiftedCellF (g : GridR) (x : ℝ) : ℤ := max 0 (⌈fl (fl (x - fl (0.5 * g.d)) / g.d)⌉ - 1)

/-- `Geometry`, src/geometry.cpp:45-53 -/
noncomputable def makeGridF (n : ℕ) (size : ℝ) : GridR := ⟨n, size, fl (size / ((n : ℝ) - 1))⟩

/-- The accuracy required of `pow(·, -0.5)` -/
def PowOk (pw : ℝ → ℝ) : Prop := ∀ q, 0 < q → |pw q - 1 / √q| ≤ 1 / 2 ^ 51 * (1 / √q)

/-! ## It is a case of the rounded motion -/

/-- The error of one operation -/
theorem fl_near (x : ℝ) : |fl x - x| ≤ 1 / 2 ^ 53 * |x| + 1 / 2 ^ 1075 := by
  rcases eq_or_ne x 0 with rfl | hx0
  · rw [fl_zero, sub_zero, abs_zero]
    positivity
  refine (fl_err x).trans ?_
  unfold ulpExp
  rcases le_total (Int.log 2 |x| - 52) (-1074) with h | h
  · rw [max_eq_right h]
    have e : (2 : ℝ) ^ (-1074 : ℤ) / 2 = 1 / 2 ^ 1075 := by
      rw [zpow_neg, show ((1074 : ℤ)) = ((1074 : ℕ) : ℤ) from rfl, zpow_natCast, pow_succ 2 1074]
      field_simp
    rw [e]
    have : 0 ≤ 1 / 2 ^ 53 * |x| := by positivity
    linarith
  · rw [max_eq_left h]
    have hx : 0 < |x| := abs_pos.2 hx0
    have h1 := Int.zpow_log_le_self (b := 2) (by norm_num) hx
    have e : (2 : ℝ) ^ (Int.log 2 |x| - 52) / 2 = 1 / 2 ^ 53 * 2 ^ (Int.log 2 |x|) := by
      rw [zpow_sub₀ (by norm_num)]
      norm_num
      ring
    rw [e]
    have h2 : (2 : ℝ) ^ Int.log 2 |x| ≤ |x| := by exact_mod_cast h1
    have : (0 : ℝ) ≤ 1 / 2 ^ 1075 := by positivity
    have : 1 / 2 ^ 53 * (2 : ℝ) ^ Int.log 2 |x| ≤ 1 / 2 ^ 53 * |x| := by gcongr
    linarith

/-- `TINY` stands for the error by underflow of a few operations. -/
theorem tiny_small : (100 : ℝ) * (1 / 2 ^ 1075) ≤ ETA ∧ √(100 * (1 / 2 ^ 1075) : ℝ) + 1 / 2 ^ 1075 ≤ ETA := by
  have e : (1 : ℝ) / 2 ^ 1075 = 1 / 2 ^ 500 * (1 / 2 ^ 500) * (1 / 2 ^ 75) := by
    rw [div_mul_div_comm, div_mul_div_comm, ← pow_add, ← pow_add]
    norm_num
  have he0 : (0 : ℝ) < 1 / 2 ^ 500 := by positivity
  have he1 : (1 : ℝ) / 2 ^ 500 ≤ 1 := by
    rw [div_le_one (by positivity)]
    exact one_le_pow₀ (by norm_num)
  unfold ETA
  obtain ⟨t, ht⟩ : ∃ t : ℝ, t = 1 / 2 ^ 500 := ⟨_, rfl⟩
  rw [← ht] at e he0 he1
  rw [e, ← ht]
  constructor
  · norm_num
    nlinarith
  · have h1 : √(100 * (t * t * (1 / 2 ^ 75))) ≤ t * (1 / 2) := by
      rw [Real.sqrt_le_left (by positivity)]
      norm_num
      nlinarith [mul_pos he0 he0]
    have h2 : t * t * (1 / 2 ^ 75) ≤ t * (1 / 2) := by
      norm_num
      nlinarith
    linarith

theorem eps_pos : 0 < EPS := by unfold EPS; positivity

theorem fl_rounds (x : ℝ) : RoundsTo |x| x (fl x) := by
  unfold RoundsTo
  refine (fl_near x).trans ?_
  have h1 := tiny_small.1
  have h0 : (0 : ℝ) < 1 / 2 ^ 1075 := by positivity
  have h2 : (1 : ℝ) / 2 ^ 53 * |x| ≤ EPS * |x| := by
    unfold EPS
    gcongr <;> norm_num
  linarith

/-- Rounded product, rounded sum -/
theorem fl_fma (x a : ℝ) : RoundsTo (|x| + |a|) (x + a) (fl (x + fl a)) := by
  unfold RoundsTo
  have h1 := tiny_small.1
  have h0 : (0 : ℝ) < 1 / 2 ^ 1075 := by positivity
  obtain ⟨t, ht⟩ : ∃ t : ℝ, t = 1 / 2 ^ 1075 := ⟨_, rfl⟩
  have e1 := fl_near a
  have e2 := fl_near (x + fl a)
  rw [← ht] at h1 h0 e1 e2
  have e3 : |x + fl a| ≤ |x| + |a| + |fl a - a| := by
    have : x + fl a = x + a + (fl a - a) := by ring
    rw [this]
    exact (abs_add_le _ _).trans (by gcongr; exact abs_add_le _ _)
  have e4 : |fl (x + fl a) - (x + a)| ≤ |fl (x + fl a) - (x + fl a)| + |fl a - a| := by
    have : fl (x + fl a) - (x + a) = (fl (x + fl a) - (x + fl a)) + (fl a - a) := by ring
    rw [this]
    exact abs_add_le _ _
  have n1 := abs_nonneg x
  have n2 := abs_nonneg a
  unfold EPS
  norm_num at e1 e2 ⊢
  linarith only [e1, e2, e3, e4, n1, n2, h0, h1]

/-- Sums of squares -/
theorem fl_sum_sq (a b : ℝ) : |fl (fl (a * a) + fl (b * b)) - (a * a + b * b)| ≤ 1 / 2 ^ 51 * (a * a + b * b) + 10 * (1 / 2 ^ 1075) := by
  obtain ⟨t, ht⟩ : ∃ t : ℝ, t = 1 / 2 ^ 1075 := ⟨_, rfl⟩
  have h0 : 0 < t := by rw [ht]; positivity
  have ha : 0 ≤ a * a := mul_self_nonneg a
  have hb : 0 ≤ b * b := mul_self_nonneg b
  have e1 := fl_near (a * a)
  have e2 := fl_near (b * b)
  have e3 := fl_near (fl (a * a) + fl (b * b))
  rw [abs_of_nonneg (add_nonneg (fl_nonneg ha) (fl_nonneg hb))] at e3
  rw [abs_of_nonneg ha] at e1
  rw [abs_of_nonneg hb] at e2
  rw [← ht] at e1 e2 e3 ⊢
  rw [abs_le] at e1 e2 e3 ⊢
  norm_num at *
  constructor <;> linarith

theorem sqF_rounds (u : V3) : RoundsTo u.sq u.sq (sqF u) ∧ 0 ≤ sqF u := by
  have n0 : 0 ≤ u.c0 * u.c0 := mul_self_nonneg _
  have n1 : 0 ≤ u.c1 * u.c1 := mul_self_nonneg _
  have n2 : 0 ≤ u.c2 * u.c2 := mul_self_nonneg _
  have e1 := fl_sum_sq u.c0 u.c1
  have p1 := fl_nonneg (add_nonneg (fl_nonneg n0) (fl_nonneg n1))
  have p2 := fl_nonneg n2
  refine ⟨?_, fl_nonneg (add_nonneg p1 p2)⟩
  have e2 := fl_near (u.c2 * u.c2)
  rw [abs_of_nonneg n2] at e2
  have e3 := fl_near (fl (fl (u.c0 * u.c0) + fl (u.c1 * u.c1)) + fl (u.c2 * u.c2))
  rw [abs_of_nonneg (add_nonneg p1 p2)] at e3
  have h1 := tiny_small.1
  obtain ⟨t, ht⟩ : ∃ t : ℝ, t = 1 / 2 ^ 1075 := ⟨_, rfl⟩
  have h0 : 0 < t := by rw [ht]; positivity
  unfold RoundsTo sqF
  rw [← ht] at e1 e2 e3 h1
  have hs : u.sq = u.c0 * u.c0 + u.c1 * u.c1 + u.c2 * u.c2 := by unfold V3.sq; ring
  rw [hs]
  unfold EPS
  rw [abs_le] at e1 e2 e3 ⊢
  norm_num at *
  constructor <;> linarith

/-- Square roots halve the error; here it is enough that they do not increase it. -/
theorem sqrt_roundsTo {s S a t : ℝ} (hS : 0 ≤ S) (ha : 0 ≤ a) (ha1 : a ≤ 1) (ht : 0 ≤ t) (h : |s - S| ≤ a * S + t) :
    |√s - √S| ≤ a * √S + √t := by
  have h' := abs_le.1 h
  have hr := Real.sqrt_nonneg S
  have hrt := Real.sqrt_nonneg t
  have rS := Real.sq_sqrt hS
  have rt := Real.sq_sqrt ht
  rw [abs_le]
  constructor
  · -- √S ≤ √s + a √S + √t
    rcases le_total s 0 with hs0 | hs0
    · rw [Real.sqrt_eq_zero_of_nonpos hs0]
      have : ((1 - a) * √S) ^ 2 ≤ √t ^ 2 := by
        have : (1 - a) * ((1 - a) * S) ≤ 1 * ((1 - a) * S) := by
          apply mul_le_mul_of_nonneg_right (by linarith)
          exact mul_nonneg (by linarith) hS
        rw [mul_pow, rS, rt]
        nlinarith [h'.1]
      have := abs_le_of_sq_le_sq this hrt
      linarith [le_abs_self ((1 - a) * √S)]
    · have rs := Real.sq_sqrt hs0
      have hrs := Real.sqrt_nonneg s
      have : ((1 - a) * √S) ^ 2 ≤ (√s + √t) ^ 2 := by
        have : (1 - a) * ((1 - a) * S) ≤ 1 * ((1 - a) * S) := by
          apply mul_le_mul_of_nonneg_right (by linarith)
          exact mul_nonneg (by linarith) hS
        rw [mul_pow, rS, add_sq, rs, rt]
        nlinarith [h'.1, mul_nonneg hrs hrt]
      have := abs_le_of_sq_le_sq this (by positivity)
      linarith [le_abs_self ((1 - a) * √S)]
  · have : √s ≤ (1 + a) * √S + √t := by
      rw [Real.sqrt_le_left (by positivity)]
      have : ((1 + a) * √S + √t) ^ 2 = (1 + a) ^ 2 * S + t + 2 * ((1 + a) * √S * √t) := by
        rw [add_sq, mul_pow, rS, rt]
        ring
      rw [this]
      have h3 : 0 ≤ (1 + a) * √S * √t := by positivity
      have h4 : 0 ≤ a * S := by positivity
      have h5 : 0 ≤ a * (a * S) := by positivity
      nlinarith [h'.2]
    linarith

theorem backF_back (p : V3) : BackR p (backF p) := by
  refine ⟨?_, rfl, rfl⟩
  have h1 := tiny_small.2
  obtain ⟨t, ht⟩ : ∃ t : ℝ, t = 1 / 2 ^ 1075 := ⟨_, rfl⟩
  have h0 : 0 < t := by rw [ht]; positivity
  have e1 := fl_sum_sq p.c0 p.c1
  rw [← ht] at e1 h1
  have n : 0 ≤ p.c0 * p.c0 + p.c1 * p.c1 := add_nonneg (mul_self_nonneg _) (mul_self_nonneg _)
  have e2 := sqrt_roundsTo n (by positivity) (by norm_num) (by positivity) e1
  have hm : √(10 * t) ≤ √(100 * t) / 2 := by
    rw [Real.sqrt_le_left (by positivity), div_pow, Real.sq_sqrt (by positivity)]
    linarith
  unfold RoundsTo backF
  obtain ⟨R, hR⟩ : ∃ R, R = √(p.c0 * p.c0 + p.c1 * p.c1) := ⟨_, rfl⟩
  have hR0 : 0 ≤ R := by rw [hR]; positivity
  rw [← hR] at e2 ⊢
  obtain ⟨r, hr⟩ : ∃ r, r = √(fl (fl (p.c0 * p.c0) + fl (p.c1 * p.c1))) := ⟨_, rfl⟩
  have hr0 : 0 ≤ r := by rw [hr]; positivity
  rw [← hr] at e2
  simp only [← hr]
  have e3 := fl_near r
  rw [abs_of_nonneg hr0, ← ht] at e3
  have hq : 0 ≤ √(100 * t) := by positivity
  unfold EPS
  rw [abs_le] at e2 e3 ⊢
  norm_num at *
  constructor <;> linarith

theorem halfStepF_half (dt : ℝ) (v p : V3) : HalfStepR dt v p (halfStepF dt v p) :=
  ⟨fl (dt / 2), fl_rounds _, fl_fma _ _, fl_fma _ _, fl_fma _ _⟩

theorem inv_factor {pw : ℝ → ℝ} (hp : PowOk pw) {B : ℝ} (hB0 : 0 ≤ B) :
    |pw (fl (1 + fl B)) - 1 / √(1 + B)| ≤ EPS * (1 / √(1 + B)) := by
  have e1 := fl_near B
  have e2 := fl_near (1 + fl B)
  have hf0 := fl_nonneg hB0
  rw [abs_of_nonneg hB0] at e1
  rw [abs_of_nonneg (by linarith : 0 ≤ 1 + fl B)] at e2
  have ht : (1 : ℝ) / 2 ^ 1075 ≤ 1 / 2 ^ 60 :=
    one_div_le_one_div_of_le (by positivity) (pow_le_pow_right₀ (by norm_num) (by norm_num))
  obtain ⟨t, ht'⟩ : ∃ t : ℝ, t = 1 / 2 ^ 1075 := ⟨_, rfl⟩
  rw [← ht'] at e1 e2 ht
  obtain ⟨q, hq⟩ : ∃ q, q = fl (1 + fl B) := ⟨_, rfl⟩
  rw [← hq] at e2 ⊢
  have hqQ : |q - (1 + B)| ≤ 1 / 2 ^ 51 * (1 + B) + 0 := by
    rw [abs_le] at e1 e2 ⊢
    norm_num at *
    constructor <;> linarith
  have e3 := sqrt_roundsTo (by linarith) (by positivity) (by norm_num) le_rfl hqQ
  rw [Real.sqrt_zero, add_zero] at e3
  have hq0 : 0 < q := by
    rw [abs_le] at hqQ
    norm_num at hqQ
    linarith
  have e4 := hp q hq0
  obtain ⟨R, hR⟩ : ∃ R, R = √(1 + B) := ⟨_, rfl⟩
  obtain ⟨r, hr⟩ : ∃ r, r = √q := ⟨_, rfl⟩
  have hR0 : 0 < R := by rw [hR]; exact Real.sqrt_pos.2 (by linarith)
  have hr0 : 0 < r := by rw [hr]; exact Real.sqrt_pos.2 hq0
  rw [← hR, ← hr] at e3
  rw [← hr] at e4
  rw [← hR]
  have e3' := abs_le.1 e3
  -- the reciprocals
  have i1 : 1 / r ≤ (1 + 1 / 2 ^ 50) * (1 / R) := by
    rw [mul_one_div, div_le_div_iff₀ hr0 hR0]
    norm_num at e3' ⊢
    linarith [e3'.1]
  have i2 : (1 - 1 / 2 ^ 50) * (1 / R) ≤ 1 / r := by
    rw [mul_one_div, div_le_div_iff₀ hR0 hr0]
    norm_num at e3' ⊢
    linarith [e3'.2]
  have hR1 : 0 < 1 / R := by positivity
  have e4' := abs_le.1 e4
  unfold EPS
  obtain ⟨I, hI⟩ : ∃ I, I = 1 / R := ⟨_, rfl⟩
  obtain ⟨J, hJ⟩ : ∃ J, J = 1 / r := ⟨_, rfl⟩
  rw [← hI] at i1 i2 hR1 ⊢
  rw [← hJ] at i1 i2 e4'
  rw [abs_le]
  norm_num at *
  constructor <;> linarith

theorem velocityF_velocity {pw : ℝ → ℝ} (hp : PowOk pw) (u : V3) : VelocityR u (velocityF pw u) := by
  obtain ⟨hs, hs0⟩ := sqF_rounds u
  exact ⟨sqF u, pw (fl (1 + fl (sqF u / LIGHT_SPEED ^ 2))), hs,
    inv_factor hp (div_nonneg hs0 (by unfold LIGHT_SPEED; positivity)), fl_rounds _, fl_rounds _, fl_rounds _⟩

/-- The walls of one coordinate -/
theorem wallsF_walls {g : GridR} (hs : 0 < g.size) (hd : 0 < g.d) (x : ℝ) :
    ∃ y, FarWallR false g x y True ∧ NearWallR g y (wallsF g x) := by
  have h1 := tiny_small.1
  have h0 : (0 : ℝ) < 1 / 2 ^ 1075 := by positivity
  have hh := fl_near (g.d / 2)
  rw [abs_of_pos (by linarith : 0 < g.d / 2)] at hh
  have hfh := fl_nonneg (by linarith : 0 ≤ g.d / 2)
  have hw : RoundsTo (g.size + g.d) (g.size - g.d / 2) (fl (g.size - fl (g.d / 2))) := by
    have e := fl_near (g.size - fl (g.d / 2))
    have e' : |g.size - fl (g.d / 2)| ≤ g.size + fl (g.d / 2) := by
      rw [abs_le]
      constructor <;> linarith
    unfold RoundsTo EPS
    obtain ⟨t, ht⟩ : ∃ t : ℝ, t = 1 / 2 ^ 1075 := ⟨_, rfl⟩
    rw [← ht] at h0 h1 hh e
    rw [abs_le] at hh e ⊢
    norm_num at *
    constructor <;> linarith
  have hn : RoundsTo g.d (g.d / 2) (fl (g.d / 2)) := by
    unfold RoundsTo EPS
    obtain ⟨t, ht⟩ : ∃ t : ℝ, t = 1 / 2 ^ 1075 := ⟨_, rfl⟩
    rw [← ht] at h0 h1 hh
    refine hh.trans ?_
    norm_num
    linarith
  refine ⟨if fl (g.size - fl (g.d / 2)) < x then fl (fl (fl (g.size - fl (g.d / 2)) * 2) - x) else x, ⟨_, hw, ?_⟩, ⟨_, hn, ?_⟩⟩
  · by_cases h : fl (g.size - fl (g.d / 2)) < x
    · left
      rw [if_pos h]
      simp only [Bool.false_eq_true, if_false, and_true]
      refine ⟨h, ?_⟩
      have := fl_fma (-x) (fl (g.size - fl (g.d / 2)) * 2)
      rw [abs_neg, abs_mul, abs_two] at this
      convert this using 1
      · ring
      · ring
      · congr 1
        ring
    · right
      rw [if_neg h]
      exact ⟨h, rfl, trivial⟩
  · unfold wallsF
    simp only
    obtain ⟨y, hy⟩ : ∃ y, y = if fl (g.size - fl (g.d / 2)) < x then fl (fl (fl (g.size - fl (g.d / 2)) * 2) - x) else x := ⟨_, rfl⟩
    rw [← hy]
    by_cases h : y < fl (g.d / 2)
    · left
      rw [if_pos h]
      refine ⟨h, ?_⟩
      have e := fl_near (g.d - y)
      have e' : |g.d - y| ≤ g.d + |y| := (abs_sub _ _).trans (by rw [abs_of_pos hd])
      unfold RoundsTo EPS
      have n := abs_nonneg y
      refine e.trans ?_
      obtain ⟨t, ht⟩ : ∃ t : ℝ, t = 1 / 2 ^ 1075 := ⟨_, rfl⟩
      rw [← ht] at h0 h1 ⊢
      norm_num
      linarith only [e', n, h0, h1, hd]
    · right
      rw [if_neg h]
      exact ⟨h, rfl⟩

theorem movedF_moved {pw : ℝ → ℝ} (hp : PowOk pw) {gr gz : GridR} (hgr : gr.Ok) (hgz : gz.Ok) (dt : ℝ) (u p : V3) :
    MovedR false gr gz dt p (movedF pw gr gz dt u p).1 (movedF pw gr gz dt u p).2 True := by
  refine ⟨u, velocityF pw u, halfStepF dt (velocityF pw u) p, halfStepF dt (velocityF pw u) (movedF pw gr gz dt u p).1, _,
    velocityF_velocity hp u, halfStepF_half _ _ _, backF_back _, halfStepF_half _ _ _, ?_, backF_back _⟩
  obtain ⟨y, hy, hy'⟩ := wallsF_walls hgr.size_pos hgr.d_pos (halfStepF dt (velocityF pw u) (movedF pw gr gz dt u p).1).c0
  obtain ⟨z, hz, hz'⟩ := wallsF_walls hgz.size_pos hgz.d_pos (halfStepF dt (velocityF pw u) (movedF pw gr gz dt u p).1).c2
  exact ⟨y, z, True, True, hy, hz, hy', hz', rfl, by simp⟩

theorem cellF_cell {g : GridR} (hd : 0 < g.d) (x : ℝ) : CellR g x (cellF g x) := by
  refine ⟨_, ?_, rfl⟩
  have := fl_rounds (x / g.d)
  rwa [abs_div, abs_of_pos hd] at this

theorem posF_reaches {pw : ℝ → ℝ} (hp : PowOk pw) {gr gz : GridR} (hgr : gr.Ok) (hgz : gz.Ok) (dt : ℝ) (u : ℕ → V3) (p0 : V3) (n : ℕ) :
    ReachesR false gr gz dt p0 n (posF pw gr gz dt u p0 n) := by
  induction n with
  | zero => exact .start
  | succ n ih => exact .step _ _ _ _ True ih (movedF_moved hp hgr hgz dt (u n) _) trivial

theorem shiftedCellF_cell {g : GridR} (hg : g.Ok) (x : ℝ) : ShiftedCellR g x (shiftedCellF g x) := by
  refine ⟨_, ?_, rfl⟩
  have hd := hg.d_pos
  obtain ⟨t, ht⟩ : ∃ t : ℝ, t = 1 / 2 ^ 1075 := ⟨_, rfl⟩
  have ht0 : 0 < t := by rw [ht]; positivity
  have htd : t / g.d ≤ ETA / 100 := by
    have h1 : t ≤ ETA / 100 * (1 / 2 ^ 400) := by
      have e : t = 1 / 2 ^ 500 * (1 / 2 ^ 400) * (1 / 2 ^ 175) := by
        rw [ht, div_mul_div_comm, div_mul_div_comm, ← pow_add, ← pow_add]
        norm_num
      have h0 : (0 : ℝ) < 1 / 2 ^ 500 * (1 / 2 ^ 400) := by positivity
      rw [e, ETA]
      have : (1 : ℝ) / 2 ^ 500 / 100 * (1 / 2 ^ 400) = 1 / 2 ^ 500 * (1 / 2 ^ 400) * (1 / 100) := by ring
      rw [this]
      apply mul_le_mul_of_nonneg_left _ h0.le
      norm_num
    rw [div_le_iff₀ hd]
    refine h1.trans ?_
    exact mul_le_mul_of_nonneg_left hg.d_ge (by unfold ETA; positivity)
  have e1 := fl_near (0.5 * g.d)
  have e2 := fl_near (x - fl (0.5 * g.d))
  have e3 := fl_near (fl (x - fl (0.5 * g.d)) / g.d)
  have h1 := tiny_small.1
  rw [← ht] at e1 e2 e3 h1
  rw [abs_of_pos (by linarith : 0 < 0.5 * g.d)] at e1
  obtain ⟨h, hh⟩ : ∃ h, h = fl (0.5 * g.d) := ⟨_, rfl⟩
  rw [← hh] at e1 e2 e3 ⊢
  obtain ⟨y, hy⟩ : ∃ y, y = fl (x - h) := ⟨_, rfl⟩
  rw [← hy] at e2 e3 ⊢
  obtain ⟨q, hq⟩ : ∃ q, q = fl (y / g.d) := ⟨_, rfl⟩
  rw [← hq] at e3 ⊢
  have hx := abs_nonneg x
  have a1 : |x - h| ≤ |x| + g.d + t := by
    have := abs_le.1 e1
    have := le_abs_self x
    have := neg_abs_le x
    rw [abs_le]
    norm_num at *
    constructor <;> linarith
  have a2 : |y - (x - g.d / 2)| ≤ 1 / 2 ^ 51 * (|x| + g.d) + 3 * t := by
    have b1 := abs_le.1 e1
    have b2 := abs_le.1 e2
    rw [abs_le]
    norm_num at b1 b2 a1 ⊢
    constructor <;> linarith
  have a3 : |y / g.d - (x - g.d / 2) / g.d| ≤ 1 / 2 ^ 51 * ((|x| + g.d) / g.d) + 3 * (t / g.d) := by
    rw [← sub_div, abs_div, abs_of_pos hd, div_le_iff₀ hd]
    refine a2.trans (le_of_eq ?_)
    field_simp
  have a4 : |y / g.d| ≤ 2 * ((|x| + g.d) / g.d) + 3 * (t / g.d) := by
    have b1 : |(x - g.d / 2) / g.d| ≤ (|x| + g.d) / g.d := by
      rw [abs_div, abs_of_pos hd]
      gcongr
      refine (abs_sub _ _).trans ?_
      rw [abs_of_pos (by linarith : 0 < g.d / 2)]
      linarith
    have b2 : 0 ≤ (|x| + g.d) / g.d := by positivity
    have b3 := abs_sub_abs_le_abs_sub (y / g.d) ((x - g.d / 2) / g.d)
    norm_num at a3 ⊢
    linarith
  have b2 : 0 ≤ (|x| + g.d) / g.d := by positivity
  have a5 : |q - (x - g.d / 2) / g.d| ≤ |q - y / g.d| + |y / g.d - (x - g.d / 2) / g.d| := abs_sub_le _ _ _
  have td0 : 0 < t / g.d := by positivity
  unfold RoundsTo EPS
  norm_num at e3 a3 a4 ⊢
  linarith

/-! ## C101 -/

/-- A grid of the program is one that Rounded.lean is about. -/
theorem makeGridF_ok {n : ℕ} {size : ℝ} (h3 : 3 ≤ n) (hn : n < 2 ^ 31) (hs : (n : ℝ) / 2 ^ 399 ≤ size) : (makeGridF n size).Ok := by
  have hn' : (3 : ℝ) ≤ n := by exact_mod_cast h3
  have hs0 : 0 < size := lt_of_lt_of_le (by positivity) hs
  have hn1 : (0 : ℝ) < (n : ℝ) - 1 := by linarith
  have hq : 1 / 2 ^ 399 ≤ size / ((n : ℝ) - 1) := by
    rw [le_div_iff₀ hn1]
    refine le_trans ?_ hs
    rw [div_mul_eq_mul_div, one_mul]
    gcongr
    linarith
  have hq0 : 0 < size / ((n : ℝ) - 1) := div_pos hs0 hn1
  have hr := fl_rounds (size / ((n : ℝ) - 1))
  rw [abs_of_pos hq0] at hr
  refine ⟨h3, hn, hs0, ?_, hr⟩
  have h := fl_near (size / ((n : ℝ) - 1))
  rw [abs_of_pos hq0] at h
  have ht : (1 : ℝ) / 2 ^ 1075 ≤ 1 / 2 ^ 399 * (1 / 8) := by
    rw [show (1075 : ℕ) = 399 + 676 from rfl, pow_add, ← div_div, div_eq_mul_one_div]
    apply mul_le_mul_of_nonneg_left _ (by positivity)
    exact (one_div_le_one_div_of_le (by norm_num : (0 : ℝ) < 2 ^ 3) (pow_le_pow_right₀ (by norm_num) (by norm_num))).trans
      (by norm_num)
  have e : (1 : ℝ) / 2 ^ 400 = 1 / 2 ^ 399 * (1 / 2) := by rw [show (400 : ℕ) = 399 + 1 from rfl, pow_succ]; ring
  change 1 / 2 ^ 400 ≤ fl (size / ((n : ℝ) - 1))
  rw [e]
  have := (abs_le.1 h).1
  obtain ⟨T, hT⟩ : ∃ T : ℝ, T = 1 / 2 ^ 1075 := ⟨_, rfl⟩
  obtain ⟨U, hU⟩ : ∃ U : ℝ, U = 1 / 2 ^ 399 := ⟨_, rfl⟩
  rw [← hT] at this ht
  rw [← hU] at ht hq ⊢
  norm_num at this
  linarith

/-- C101, IEEE 754: in every build that rounds each operation, for every sequence of momenta, the macroparticle is inside the chamber
before every cycle and between its halves, and its cells are cells of the grid; from one cycle to the next they are the same or
neighbours.

Partial: as `C101_history_partial`. -/
theorem C101_ieee_partial {pw : ℝ → ℝ} (hp : PowOk pw) {nr nz : ℕ} {rsize zsize : ℝ} (hnr : 3 ≤ nr ∧ nr < 2 ^ 31)
    (hnz : 3 ≤ nz ∧ nz < 2 ^ 31) (hrs : (nr : ℝ) / 2 ^ 399 ≤ rsize) (hzs : (nz : ℝ) / 2 ^ 399 ≤ zsize) {gr gz : GridR}
    (hgr : gr = makeGridF nr rsize) (hgz : gz = makeGridF nz zsize) {dt : ℝ} (hdt : 0 < dt)
    (hcr : LIGHT_SPEED * dt ≤ 3 / 4 * gr.d) (hcz : LIGHT_SPEED * dt ≤ 3 / 4 * gz.d) {p0 : V3} (hr : StartR gr p0.c0)
    (h1 : p0.c1 = 0) (hz : StartR gz p0.c2) (u : ℕ → V3) (n : ℕ) {p m p' : V3} (hp' : p = posF pw gr gz dt u p0 n)
    (hm : m = (movedF pw gr gz dt (u n) p).1) (hq : p' = posF pw gr gz dt u p0 (n + 1)) :
    InsideR gr gz p ∧ InsideR gr gz m ∧ gr.Cell (cellF gr p.c0) ∧ gz.Cell (cellF gz p.c2) ∧ gr.Cell (shiftedCellF gr p.c0) ∧
    gz.Cell (shiftedCellF gz p.c2) ∧ gr.Cell (cellF gr m.c0) ∧ gz.Cell (cellF gz m.c2) ∧
    |cellF gr p'.c0 - cellF gr p.c0| ≤ 1 ∧ |cellF gz p'.c2 - cellF gz p.c2| ≤ 1 ∧
    (p.c0 ≤ gr.size - 0.501 * gr.d → shiftedCellF gr p.c0 + 1 < (gr.n : ℤ) - 1) ∧
    (p.c2 ≤ gz.size - 0.501 * gz.d → shiftedCellF gz p.c2 + 1 < (gz.n : ℤ) - 1) := by
  have okr : gr.Ok := hgr ▸ makeGridF_ok hnr.1 hnr.2 hrs
  have okz : gz.Ok := hgz ▸ makeGridF_ok hnz.1 hnz.2 hzs
  have hre := posF_reaches hp okr okz dt u p0 n
  rw [← hp'] at hre
  obtain ⟨a, b, c, d, e, f⟩ := C101_history_partial okr okz hdt hcr hcz hr h1 hz hre
  have hmo := movedF_moved hp okr okz dt (u n) p
  have hq' : p' = (movedF pw gr gz dt (u n) p).2 := by rw [hq, hp']; rfl
  rw [← hm, ← hq'] at hmo
  obtain ⟨f1, f2, f3, f4⟩ := f _ _ _ hmo
  obtain ⟨-, f5, f6⟩ := f4 trivial
  have cr := fun x => cellF_cell okr.d_pos x
  have cz := fun x => cellF_cell okz.d_pos x
  have sr := shiftedCellF_cell okr p.c0
  have sz := shiftedCellF_cell okz p.c2
  exact ⟨a, f1, b _ (cr _), c _ (cz _), (d _ sr).1, (e _ sz).1, f2 _ (cr _), f3 _ (cz _), f5 _ _ (cr _) (cr _), f6 _ _ (cz _) (cz _),
    (d _ sr).2, (e _ sz).2⟩

/-! ## The outer wall -/

/-- A chamber of 0.1 m, as the program reads it, with ten nodes -/
noncomputable def wallGrid : GridR := makeGridF 10 (3602879701896397 * 2 ^ (-55 : ℤ))

theorem wallGrid_d : wallGrid.d = 6405119470038039 * 2 ^ (-59 : ℤ) := by
  unfold wallGrid makeGridF
  simp only
  have := fl_eq (x := 3602879701896397 * 2 ^ (-55 : ℤ) / (((10 : ℕ) : ℝ) - 1)) (e := -59) (m := 6405119470038039) (by norm_num)
    (by norm_num) (by norm_num) (by rw [abs_lt]; norm_num)
  exact_mod_cast this

/-- The wall of the program, `radius_wall`, src/particles.cpp:1322 -/
noncomputable def wallPos : ℝ := 6805439436915417 * 2 ^ (-56 : ℤ)

theorem wallPos_half : fl (wallGrid.d / 2) = 6405119470038039 * 2 ^ (-60 : ℤ) := by
  have := fl_eq (x := wallGrid.d / 2) (e := -60) (m := 6405119470038039) (by norm_num)
    (by rw [wallGrid_d]; norm_num) (by rw [wallGrid_d]; norm_num) (by rw [wallGrid_d, abs_lt]; norm_num)
  exact_mod_cast this

theorem wallPos_eq : fl (wallGrid.size - fl (wallGrid.d / 2)) = wallPos := by
  rw [wallPos_half]
  unfold wallGrid makeGridF wallPos
  simp only
  have := fl_eq (x := 3602879701896397 * 2 ^ (-55 : ℤ) - 6405119470038039 * 2 ^ (-60 : ℤ)) (e := -56) (m := 6805439436915417)
    (by norm_num) (by norm_num) (by norm_num) (by rw [abs_lt]; norm_num)
  exact_mod_cast this

theorem wallPos_fl : fl wallPos = wallPos := by
  have := fl_natMul (n := 6805439436915417) (e := -56) (by norm_num) (by norm_num)
  unfold wallPos
  exact_mod_cast this

theorem wallPos_back : fl √(fl (fl (wallPos * wallPos) + fl (0 * 0))) = wallPos := by
  obtain ⟨S, hS⟩ : ∃ S, S = fl (fl (wallPos * wallPos) + fl (0 * 0)) := ⟨_, rfl⟩
  rw [← hS]
  have hw : wallPos = 6805439436915417 / 2 ^ 56 := by unfold wallPos; norm_num
  have e1 : fl (wallPos * wallPos) = 5141887574558316 * 2 ^ (-59 : ℤ) := by
    have := fl_eq (x := wallPos * wallPos) (e := -59) (m := 5141887574558316) (by norm_num)
      (by rw [hw]; norm_num) (by rw [hw]; norm_num) (by rw [hw, abs_lt]; norm_num)
    exact_mod_cast this
  have e2 : S = 5141887574558316 * 2 ^ (-59 : ℤ) := by
    rw [hS, mul_zero, fl_zero, add_zero, e1]
    have := fl_natMul (n := 5141887574558316) (e := -59) (by norm_num) (by norm_num)
    exact_mod_cast this
  have lo : wallPos - 1 / 2 ^ 58 < √S := by
    rw [hw]
    apply Real.lt_sqrt_of_sq_lt
    rw [e2]
    norm_num
  have hi : √S < wallPos + 1 / 2 ^ 58 := by
    rw [hw, Real.sqrt_lt' (by norm_num), e2]
    norm_num
  rw [hw] at lo hi
  have := fl_eq (x := √S) (e := -56) (m := 6805439436915417) (by norm_num)
    (by norm_num at lo ⊢; linarith) (by norm_num at hi ⊢; linarith)
    (by rw [abs_lt]; norm_num at lo hi ⊢; constructor <;> linarith)
  unfold wallPos
  exact_mod_cast this

/-- At rest nothing moves. -/
theorem rest_half (pw : ℝ → ℝ) (dt : ℝ) {p : V3} (h0 : fl p.c0 = p.c0) (h1 : p.c1 = 0) (h2 : fl p.c2 = p.c2) :
    halfStepF dt (velocityF pw ⟨0, 0, 0⟩) p = p := by
  obtain ⟨x, y, z⟩ := p
  simp only at h0 h1 h2
  simp [halfStepF, velocityF, fl_zero, h0, h1, h2]

/-- C101: in the arithmetic of the machine the claim fails for the arrays with a row less, where in
exact arithmetic a position at the wall gets row `n - 3` (the example below).  A macroparticle at rest at the outer wall, which the reflection does not move, is assigned row `n - 2` between the
nodes for ever, so that row `n - 1` is read of arrays with `n - 1` rows (`field_phi_half_time` and `field_z_half_time`,
src/hField.cpp:9-10, 194-203, 253-262). -/
theorem C101_wall_violated : ∃ (gr gz : GridR) (dt : ℝ) (p0 : V3), gr = makeGridF 10 (fl (1 / 10)) ∧ gz = makeGridF 10 (fl (1 / 10)) ∧
    0 < dt ∧ LIGHT_SPEED * dt ≤ 3 / 4 * gr.d ∧ LIGHT_SPEED * dt ≤ 3 / 4 * gz.d ∧ StartR gr p0.c0 ∧ p0.c1 = 0 ∧ StartR gz p0.c2 ∧
    p0.c0 ≤ fl (gr.size - fl (gr.d / 2)) ∧
    ∀ pw n, posF pw gr gz dt (fun _ => ⟨0, 0, 0⟩) p0 n = p0 ∧
      ¬ (shiftedCellF gr (posF pw gr gz dt (fun _ => ⟨0, 0, 0⟩) p0 n).c0 + 1 < (gr.n : ℤ) - 1) := by
  have hR : fl (1 / 10 : ℝ) = 3602879701896397 * 2 ^ (-55 : ℤ) := by
    have := fl_eq (x := 1 / 10) (e := -56) (m := 7205759403792794) (by norm_num) (by norm_num) (by norm_num) (by rw [abs_lt]; norm_num)
    rw [this]
    norm_num
  have hd : wallGrid.d = 6405119470038039 / 2 ^ 59 := by rw [wallGrid_d]; norm_num
  have hs : wallGrid.size = 3602879701896397 / 2 ^ 55 := by unfold wallGrid makeGridF; norm_num
  have hw : wallPos = 6805439436915417 / 2 ^ 56 := by unfold wallPos; norm_num
  have hz : fl (1 / 16 : ℝ) = 1 / 16 := by
    have := fl_natMul (n := 1) (e := -4) (by norm_num) (by norm_num)
    norm_num at this ⊢
    exact this
  have hcell : shiftedCellF wallGrid wallPos = 8 := by
    have h5 : fl (0.5 * wallGrid.d) = 6405119470038039 * 2 ^ (-60 : ℤ) := by
      rw [← wallPos_half]
      congr 1
      ring
    have e1 : fl (wallPos - 6405119470038039 * 2 ^ (-60 : ℤ)) = 6405119470038040 * 2 ^ (-56 : ℤ) := by
      have := fl_eq (x := wallPos - 6405119470038039 * 2 ^ (-60 : ℤ)) (e := -56) (m := 6405119470038040) (by norm_num)
        (by rw [hw]; norm_num) (by rw [hw]; norm_num) (by rw [hw, abs_lt]; norm_num)
      exact_mod_cast this
    have e2 : fl (6405119470038040 * 2 ^ (-56 : ℤ) / wallGrid.d) = 4503599627370497 * 2 ^ (-49 : ℤ) := by
      have := fl_eq (x := 6405119470038040 * 2 ^ (-56 : ℤ) / wallGrid.d) (e := -49) (m := 4503599627370497) (by norm_num)
        (by rw [hd]; norm_num) (by rw [hd]; norm_num) (by rw [hd, abs_lt]; norm_num)
      exact_mod_cast this
    unfold shiftedCellF
    rw [h5, e1, e2]
    have : ⌈(4503599627370497 * 2 ^ (-49 : ℤ) : ℝ)⌉ = 9 := by
      rw [Int.ceil_eq_iff]
      norm_num
    rw [this]
    norm_num
  refine ⟨wallGrid, wallGrid, 1 / 2 ^ 36, ⟨wallPos, 0, 1 / 16⟩, by rw [hR]; rfl, by rw [hR]; rfl, by norm_num, ?_, ?_, ?_, rfl, ?_,
    wallPos_eq.ge, ?_⟩
  · rw [hd, LIGHT_SPEED]; norm_num
  · rw [hd, LIGHT_SPEED]; norm_num
  · unfold StartR
    simp only
    rw [hd, hs, hw]
    norm_num
  · unfold StartR
    simp only
    rw [hd, hs]
    norm_num
  · intro pw n
    have stay : posF pw wallGrid wallGrid (1 / 2 ^ 36) (fun _ => ⟨0, 0, 0⟩) ⟨wallPos, 0, 1 / 16⟩ n = ⟨wallPos, 0, 1 / 16⟩ := by
      induction n with
      | zero => rfl
      | succ n ih =>
        have hb : backF ⟨wallPos, 0, 1 / 16⟩ = ⟨wallPos, 0, 1 / 16⟩ := by
          simp only [backF]
          rw [wallPos_back]
        have hh := rest_half pw (1 / 2 ^ 36) (p := ⟨wallPos, 0, 1 / 16⟩) wallPos_fl rfl hz
        have w1 : wallsF wallGrid wallPos = wallPos := by
          unfold wallsF
          simp only
          rw [wallPos_eq, if_neg (lt_irrefl _), wallPos_half, if_neg]
          rw [hw]
          norm_num
        have w2 : wallsF wallGrid (1 / 16) = 1 / 16 := by
          unfold wallsF
          simp only
          have n1 : ¬ wallPos < 1 / 16 := by rw [hw]; norm_num
          have n2 : ¬ (1 / 16 : ℝ) < 6405119470038039 * 2 ^ (-60 : ℤ) := by norm_num
          rw [wallPos_eq, if_neg n1, wallPos_half, if_neg n2]
        simp only [posF]
        rw [ih]
        simp only [movedF]
        rw [hh, hb, hh]
        simp only
        rw [w1, w2, hb]
    refine ⟨stay, ?_⟩
    rw [stay]
    simp only
    rw [hcell]
    unfold wallGrid makeGridF
    norm_num

/-- At the wall in exact arithmetic -/
example (n : ℕ) (d : ℝ) (hd : 0 < d) : ⌈(((n : ℝ) - 1) * d - d / 2 - d / 2) / d⌉ - 1 = (n : ℤ) - 3 := by
  have : (((n : ℝ) - 1) * d - d / 2 - d / 2) / d = (((n : ℤ) - 2 : ℤ) : ℝ) := by
    push_cast
    field_simp
    ring
  rw [this, Int.ceil_intCast]
  ring

theorem powOk_exact : PowOk fun q => 1 / √q := by
  intro q _
  simp only [sub_self, abs_zero]
  positivity

/-- The hypotheses of `C101_ieee_partial` and with them those of `C101_history_partial` are met: by every macroparticle that starts
at (0.05, 0.05) in the grid of the violation, whatever the momenta. -/
example (u : ℕ → V3) (n : ℕ) : InsideR wallGrid wallGrid
      (posF (fun q => 1 / √q) wallGrid wallGrid (1 / 2 ^ 36) u ⟨1 / 20, 0, 1 / 20⟩ n) := by
  have hd : wallGrid.d = 6405119470038039 / 2 ^ 59 := by rw [wallGrid_d]; norm_num
  have hs : wallGrid.size = 3602879701896397 / 2 ^ 55 := by unfold wallGrid makeGridF; norm_num
  have hc : LIGHT_SPEED * (1 / 2 ^ 36) ≤ 3 / 4 * wallGrid.d := by rw [hd, LIGHT_SPEED]; norm_num
  have hst : StartR wallGrid (1 / 20) := by
    unfold StartR
    rw [hd, hs]
    norm_num
  have hsz : ((10 : ℕ) : ℝ) / 2 ^ 399 ≤ 3602879701896397 * 2 ^ (-55 : ℤ) := by
    have : (1 : ℝ) / 2 ^ 399 ≤ 1 / 2 ^ 100 :=
      one_div_le_one_div_of_le (by positivity) (pow_le_pow_right₀ (by norm_num) (by norm_num))
    rw [div_eq_mul_one_div]
    norm_num at this ⊢
    linarith
  exact (C101_ieee_partial (gr := wallGrid) (gz := wallGrid) (p0 := ⟨1 / 20, 0, 1 / 20⟩) powOk_exact ⟨by norm_num, by norm_num⟩ ⟨by norm_num, by norm_num⟩ hsz hsz rfl rfl (by norm_num) hc hc hst
    rfl hst u n rfl rfl rfl).1

end Verif
