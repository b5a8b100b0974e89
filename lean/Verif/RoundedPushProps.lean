import Verif.RoundedPush
import Verif.RoundedProps
import Verif.PusherProps
import Mathlib.Analysis.InnerProductSpace.PiL2

/-!
# Rounding of the relativistic push (C108)
-/

namespace Verif

namespace RoundedPush

/-! ## Lengths -/

/-- A vector as an element of the Euclidean space of Mathlib -/
noncomputable def toE (v : V3) : EuclideanSpace ℝ (Fin 3) := !₂[v.c0, v.c1, v.c2]

theorem norm_toE (v : V3) : ‖toE v‖ = v.len := by
  rw [EuclideanSpace.norm_eq, V3.len, V3.sq, Fin.sum_univ_three]
  congr 1
  simp [toE, pow_two]

theorem len_nonneg (v : V3) : 0 ≤ v.len := Real.sqrt_nonneg _

theorem sq_nonneg' (v : V3) : 0 ≤ v.sq := by
  unfold V3.sq
  nlinarith [sq_nonneg v.c0, sq_nonneg v.c1, sq_nonneg v.c2]

theorem len_sq (v : V3) : v.len ^ 2 = v.sq := Real.sq_sqrt (sq_nonneg' v)

theorem comp_le (v : V3) : |v.c0| ≤ v.len ∧ |v.c1| ≤ v.len ∧ |v.c2| ≤ v.len := by
  refine ⟨?_, ?_, ?_⟩ <;>
  · rw [← Real.sqrt_sq_eq_abs]
    apply Real.sqrt_le_sqrt
    unfold V3.sq
    nlinarith [sq_nonneg v.c0, sq_nonneg v.c1, sq_nonneg v.c2]

theorem len_add (u v : V3) : (u.add v).len ≤ u.len + v.len := by
  rw [← norm_toE, ← norm_toE, ← norm_toE]
  have : toE (u.add v) = toE u + toE v := by
    ext i
    fin_cases i <;> simp [toE, V3.add]
  rw [this]
  exact norm_add_le _ _

theorem len_smul (x : ℝ) (v : V3) : (v.smul x).len = |x| * v.len := by
  have : (v.smul x).sq = x ^ 2 * v.sq := by
    unfold V3.smul V3.sq
    ring
  rw [V3.len, this, Real.sqrt_mul (sq_nonneg x), Real.sqrt_sq_eq_abs]
  rfl

/-- Near vectors have near lengths. -/
theorem len_near {x y : V3} {δ : ℝ} (h0 : |y.c0 - x.c0| ≤ δ) (h1 : |y.c1 - x.c1| ≤ δ) (h2 : |y.c2 - x.c2| ≤ δ) :
    |y.len - x.len| ≤ 2 * δ := by
  have hδ : 0 ≤ δ := (abs_nonneg _).trans h0
  rw [← norm_toE, ← norm_toE]
  refine (abs_norm_sub_norm_le _ _).trans ?_
  rw [EuclideanSpace.norm_eq, Fin.sum_univ_three, Real.sqrt_le_left (by positivity)]
  simp only [Real.norm_eq_abs, sq_abs, PiLp.sub_apply]
  have e0 : (toE y) 0 - (toE x) 0 = y.c0 - x.c0 := by simp [toE]
  have e1 : (toE y) 1 - (toE x) 1 = y.c1 - x.c1 := by simp [toE]
  have e2 : (toE y) 2 - (toE x) 2 = y.c2 - x.c2 := by simp [toE]
  rw [e0, e1, e2]
  have k : ∀ {a : ℝ}, |a| ≤ δ → a ^ 2 ≤ δ ^ 2 := fun h => by
    rw [← sq_abs]
    gcongr
  have := k h0
  have := k h1
  have := k h2
  nlinarith

/-! ## The constants -/

theorem eps_val : EPS = 1 / 2 ^ 48 := rfl
theorem eps_pos' : 0 < EPS := by unfold EPS; positivity
theorem eta_pos' : 0 < ETA := by unfold ETA; positivity
theorem eta_le : ETA ≤ 1 / 2 ^ 150 := by
  unfold ETA
  exact one_div_le_one_div_of_le (by positivity) (pow_le_pow_right₀ (by norm_num) (by norm_num))
theorem c_val : LIGHT_SPEED = 3 * 10 ^ 8 := by norm_num [LIGHT_SPEED]
theorem c_pos : 0 < LIGHT_SPEED := by rw [c_val]; norm_num

/-! ## Single steps -/

theorem scaled_len {g : ℝ} {v v' : V3} (h : ScaledR g v v') : |v'.len - |g| * v.len| ≤ 2 * (EPS * (|g| * v.len) + ETA) := by
  obtain ⟨h0, h1, h2⟩ := h
  have k := comp_le v
  have ep := eps_pos'
  rw [← len_smul]
  have b : ∀ {a w : ℝ}, |a| ≤ v.len → |w - a * g| ≤ EPS * |a * g| + ETA → |w - a * g| ≤ EPS * (v.smul g).len + ETA := by
    intro a w ha hw
    refine hw.trans ?_
    rw [len_smul, abs_mul, mul_comm |a|]
    gcongr
  exact len_near (b k.1 h0) (b k.2.1 h1) (b k.2.2 h2)

theorem add_len {v e v' : V3} (h : AddR v e v') : |v'.len - (v.add e).len| ≤ 2 * (EPS * (v.len + e.len) + ETA) := by
  obtain ⟨h0, h1, h2⟩ := h
  have k := comp_le v
  have l := comp_le e
  have ep := eps_pos'
  have b : ∀ {a d w : ℝ}, |a| ≤ v.len → |d| ≤ e.len → |w - (a + d)| ≤ EPS * (|a| + |d|) + ETA →
      |w - (a + d)| ≤ EPS * (v.len + e.len) + ETA := by
    intro a d w ha hd hw
    refine hw.trans ?_
    gcongr
  exact len_near (b k.1 l.1 h0) (b k.2.1 l.2.1 h1) (b k.2.2 l.2.2 h2)

/-- Bound of one row of the rotation -/
theorem row_bound {V B x1 x2 x3 x4 x5 x6 b1 b2 : ℝ} (hB : 0 ≤ B) (h1 : |x1| ≤ V) (h2 : |x2| ≤ V * B) (h3 : |x3| ≤ V * B)
    (h4 : |x4| ≤ V) (h5 : |x5| ≤ V * B) (h6 : |x6| ≤ V * B) (k1 : |b1| ≤ B) (k2 : |b2| ≤ B) :
    (|x1| + |x2| + |x3|) * |b1| + (|x4| + |x5| + |x6|) * |b2| ≤ 2 * V * (B + 2 * B ^ 2) := by
  have hV : 0 ≤ V := (abs_nonneg _).trans h1
  have hVB := mul_nonneg hV hB
  have a1 : |x1| + |x2| + |x3| ≤ V + 2 * (V * B) := by linarith
  have a2 : |x4| + |x5| + |x6| ≤ V + 2 * (V * B) := by linarith
  have n1 := abs_nonneg b1
  have n2 := abs_nonneg b2
  calc (|x1| + |x2| + |x3|) * |b1| + (|x4| + |x5| + |x6|) * |b2|
      ≤ (V + 2 * (V * B)) * B + (V + 2 * (V * B)) * B := by gcongr
    _ = 2 * V * (B + 2 * B ^ 2) := by ring

theorem rotate_len {v b v' : V3} (h : RotateR v b v') : |v'.len - v.len| ≤ 40 * EPS * v.len + 2 * ETA := by
  obtain ⟨q, hq, h0, h1, h2⟩ := h
  obtain ⟨V, hV⟩ : ∃ V, V = v.len := ⟨_, rfl⟩
  obtain ⟨B, hB⟩ : ∃ B, B = b.len := ⟨_, rfl⟩
  have hV0 : 0 ≤ V := hV ▸ len_nonneg v
  have hB0 : 0 ≤ B := hB ▸ len_nonneg b
  have ep := eps_pos'
  have kv := comp_le v
  have kb := comp_le b
  rw [← hV] at kv ⊢
  rw [← hB] at kb
  have hBs : b.sq = B ^ 2 := by rw [hB, len_sq]
  rw [hBs] at hq
  obtain ⟨Q, hQ⟩ : ∃ Q, Q = 2 / (1 + B ^ 2) := ⟨_, rfl⟩
  rw [← hQ] at hq
  have hQ0 : 0 < Q := by rw [hQ]; positivity
  have e1 : EPS ≤ 1 / 1000 := by rw [eps_val]; norm_num
  have hq' := abs_le.1 hq
  have hqn : 0 ≤ q := by nlinarith
  have hqQ : q ≤ 1.001 * Q := by nlinarith
  have hQB : Q * (B + 2 * B ^ 2) ≤ 4.25 := by
    rw [hQ, div_mul_eq_mul_div, div_le_iff₀ (by positivity)]
    nlinarith [sq_nonneg (B - 4)]
  have mulc : ∀ {x y : ℝ}, |x| ≤ V → |y| ≤ B → |x * y| ≤ V * B := by
    intro x y hx hy
    rw [abs_mul]
    gcongr
  have size : ∀ {x0 r : ℝ}, |x0| ≤ V → r ≤ 2 * V * (B + 2 * B ^ 2) → |x0| + q * r ≤ 10 * V := by
    intro x0 r hx hr
    have a1 : q * r ≤ q * (2 * V * (B + 2 * B ^ 2)) := by gcongr
    have a2 : q * (2 * V * (B + 2 * B ^ 2)) ≤ 1.001 * Q * (2 * V * (B + 2 * B ^ 2)) := by gcongr
    have a3 : 1.001 * Q * (2 * V * (B + 2 * B ^ 2)) = 2.002 * V * (Q * (B + 2 * B ^ 2)) := by ring
    have a4 : 2.002 * V * (Q * (B + 2 * B ^ 2)) ≤ 2.002 * V * 4.25 := by gcongr
    linarith
  -- the exact rotation with the exact factor
  have near : ∀ {x0 r m x y : ℝ}, |x0| ≤ V → |r| ≤ m → m ≤ 2 * V * (B + 2 * B ^ 2) → x = x0 + q * r →
      |y - x| ≤ EPS * (|x0| + q * m) + ETA → |y - (x0 + Q * r)| ≤ 20 * EPS * V + ETA := by
    intro x0 r m x y hx hr hm hxe hy
    have a1 := size hx hm
    have a2 : |(q - Q) * r| ≤ EPS * (9 * V) := by
      rw [abs_mul]
      calc |q - Q| * |r| ≤ (EPS * Q) * (2 * V * (B + 2 * B ^ 2)) := by gcongr; exact hr.trans hm
        _ = EPS * (2 * V * (Q * (B + 2 * B ^ 2))) := by ring
        _ ≤ EPS * (2 * V * 4.25) := by gcongr
        _ ≤ EPS * (9 * V) := mul_le_mul_of_nonneg_left (by linarith) ep.le
    have a3 : y - (x0 + Q * r) = (y - x) + (q - Q) * r := by rw [hxe]; ring
    rw [a3]
    refine (abs_add_le _ _).trans ?_
    have a4 : EPS * (|x0| + q * m) ≤ EPS * (10 * V) := by gcongr
    nlinarith
  have R : (borisRotate v b).len = V := by
    have := borisRotate_dot v b
    rw [hV, V3.len, V3.len]
    congr 1
  have hd : V3.dot b b = B ^ 2 := by rw [← hBs]; rfl
  rw [← R]
  have c0 : |v'.c0 - (borisRotate v b).c0| ≤ 20 * EPS * V + ETA := by
    refine near (x0 := v.c0) (r := (v.c1 - v.c0 * b.c2 + v.c2 * b.c0) * b.c2 - (v.c2 + v.c0 * b.c1 - v.c1 * b.c0) * b.c1)
      kv.1 ?_ (row_bound hB0 kv.2.1 (mulc kv.1 kb.2.2) (mulc kv.2.2 kb.1) kv.2.2 (mulc kv.1 kb.2.1) (mulc kv.2.1 kb.1) kb.2.2
        kb.2.1) rfl h0 |>.trans_eq' ?_
    · have t1 : |(v.c1 - v.c0 * b.c2 + v.c2 * b.c0) * b.c2| ≤ (|v.c1| + |v.c0 * b.c2| + |v.c2 * b.c0|) * |b.c2| := by
        rw [abs_mul]; gcongr
        have := abs_add_three v.c1 (-(v.c0 * b.c2)) (v.c2 * b.c0)
        rwa [abs_neg, ← sub_eq_add_neg] at this
      have t2 : |(v.c2 + v.c0 * b.c1 - v.c1 * b.c0) * b.c1| ≤ (|v.c2| + |v.c0 * b.c1| + |v.c1 * b.c0|) * |b.c1| := by
        rw [abs_mul]; gcongr
        have := abs_add_three v.c2 (v.c0 * b.c1) (-(v.c1 * b.c0))
        rwa [abs_neg, ← sub_eq_add_neg] at this
      exact (abs_sub _ _).trans (by linarith)
    · unfold borisRotate
      rw [hd, ← hQ]
  have c1 : |v'.c1 - (borisRotate v b).c1| ≤ 20 * EPS * V + ETA := by
    refine near (x0 := v.c1) (r := -(v.c0 + v.c1 * b.c2 - v.c2 * b.c1) * b.c2 + (v.c2 + v.c0 * b.c1 - v.c1 * b.c0) * b.c0)
      kv.2.1 ?_ (row_bound hB0 kv.1 (mulc kv.2.1 kb.2.2) (mulc kv.2.2 kb.2.1) kv.2.2 (mulc kv.1 kb.2.1) (mulc kv.2.1 kb.1) kb.2.2
        kb.1) rfl h1 |>.trans_eq' ?_
    · have t1 : |-(v.c0 + v.c1 * b.c2 - v.c2 * b.c1) * b.c2| ≤ (|v.c0| + |v.c1 * b.c2| + |v.c2 * b.c1|) * |b.c2| := by
        rw [abs_mul, abs_neg]; gcongr
        have := abs_add_three v.c0 (v.c1 * b.c2) (-(v.c2 * b.c1))
        rwa [abs_neg, ← sub_eq_add_neg] at this
      have t2 : |(v.c2 + v.c0 * b.c1 - v.c1 * b.c0) * b.c0| ≤ (|v.c2| + |v.c0 * b.c1| + |v.c1 * b.c0|) * |b.c0| := by
        rw [abs_mul]; gcongr
        have := abs_add_three v.c2 (v.c0 * b.c1) (-(v.c1 * b.c0))
        rwa [abs_neg, ← sub_eq_add_neg] at this
      exact (abs_add_le _ _).trans (by linarith)
    · unfold borisRotate
      rw [hd, ← hQ]
  have c2 : |v'.c2 - (borisRotate v b).c2| ≤ 20 * EPS * V + ETA := by
    refine near (x0 := v.c2) (r := (v.c0 + v.c1 * b.c2 - v.c2 * b.c1) * b.c1 - (v.c1 - v.c0 * b.c2 + v.c2 * b.c0) * b.c0)
      kv.2.2 ?_ (row_bound hB0 kv.1 (mulc kv.2.1 kb.2.2) (mulc kv.2.2 kb.2.1) kv.2.1 (mulc kv.1 kb.2.2) (mulc kv.2.2 kb.1) kb.2.1
        kb.1) rfl h2 |>.trans_eq' ?_
    · have t1 : |(v.c0 + v.c1 * b.c2 - v.c2 * b.c1) * b.c1| ≤ (|v.c0| + |v.c1 * b.c2| + |v.c2 * b.c1|) * |b.c1| := by
        rw [abs_mul]; gcongr
        have := abs_add_three v.c0 (v.c1 * b.c2) (-(v.c2 * b.c1))
        rwa [abs_neg, ← sub_eq_add_neg] at this
      have t2 : |(v.c1 - v.c0 * b.c2 + v.c2 * b.c0) * b.c0| ≤ (|v.c1| + |v.c0 * b.c2| + |v.c2 * b.c0|) * |b.c0| := by
        rw [abs_mul]; gcongr
        have := abs_add_three v.c1 (-(v.c0 * b.c2)) (v.c2 * b.c0)
        rwa [abs_neg, ← sub_eq_add_neg] at this
      exact (abs_sub _ _).trans (by linarith)
    · unfold borisRotate
      rw [hd, ← hQ]
  refine (len_near c0 c1 c2).trans ?_
  rw [R]
  linarith

/-- Inverse square roots of near numbers are near. -/
theorem inv_sqrt_near {P P0 δ : ℝ} (h0 : 0 < P0) (hδ : 0 ≤ δ) (hδ1 : δ ≤ 1 / 4) (h : |P - P0| ≤ δ * P0) :
    0 < P ∧ |1 / √P - 1 / √P0| ≤ δ * (1 / √P0) := by
  have h' := abs_le.1 h
  have hP : 0 < P := by nlinarith
  refine ⟨hP, ?_⟩
  have r := Real.sqrt_pos.2 hP
  have r0 := Real.sqrt_pos.2 h0
  have e := Real.sq_sqrt hP.le
  have e0 := Real.sq_sqrt h0.le
  have up : √P0 ≤ (1 + δ) * √P := by
    apply Real.sqrt_le_iff.2 ⟨by positivity, ?_⟩
    rw [mul_pow, e]
    have : (1 - δ) * P0 ≤ P := by linarith
    have : (1 + δ) ^ 2 * ((1 - δ) * P0) ≤ (1 + δ) ^ 2 * P := by gcongr
    have : 0 ≤ δ * (1 - δ - δ ^ 2) := mul_nonneg hδ (by nlinarith)
    nlinarith
  have lo : (1 - δ) * √P ≤ √P0 := by
    apply Real.le_sqrt_of_sq_le
    rw [mul_pow, e]
    have : P ≤ (1 + δ) * P0 := by linarith
    have : (1 - δ) ^ 2 * P ≤ (1 - δ) ^ 2 * ((1 + δ) * P0) := by gcongr
    have : 0 ≤ δ * (1 + δ - δ ^ 2) := mul_nonneg hδ (by nlinarith)
    nlinarith
  rw [abs_le]
  constructor
  · rw [neg_le_sub_iff_le_add, div_le_iff₀ r0, add_mul, mul_assoc, div_mul_cancel₀ _ r0.ne', mul_one, div_mul_eq_mul_div, one_mul,
      ← sub_le_iff_le_add, le_div_iff₀ r]
    exact lo
  · rw [sub_le_iff_le_add, div_le_iff₀ r, add_mul, mul_assoc, div_mul_eq_mul_div, one_mul, ← add_one_mul, ← mul_div_assoc,
      le_div_iff₀ r0, one_mul, add_comm]
    exact up

/-- Speed of a momentum per mass `y`, both in units of the speed of light -/
noncomputable def spd (y : ℝ) : ℝ := y / √(1 + y ^ 2)

theorem velocity_len {u v : V3} (h : VelocityR u v) :
    |v.len - LIGHT_SPEED * spd (u.len / LIGHT_SPEED)| ≤ 8 * EPS * (LIGHT_SPEED * spd (u.len / LIGHT_SPEED)) + 2 * ETA := by
  obtain ⟨s, γ, hs, hγ, hv⟩ := h
  have hsc := scaled_len (g := γ) (v := u) (v' := v) hv
  obtain ⟨c, hc⟩ : ∃ c, c = LIGHT_SPEED := ⟨_, rfl⟩
  have hc8 : c = 3 * 10 ^ 8 := by rw [hc, c_val]
  have hc0 : 0 < c := by rw [hc, ]; exact c_pos
  obtain ⟨U, hU⟩ : ∃ U, U = u.len := ⟨_, rfl⟩
  have hU0 : 0 ≤ U := hU ▸ len_nonneg u
  rw [← hU] at hsc
  rw [← len_sq, ← hU] at hs
  rw [← hc] at hγ
  rw [← hc, ← hU]
  have ep := eps_pos'
  have et := eta_pos'
  have et1 := eta_le
  have e1 : EPS ≤ 1 / 1000000 := by rw [eps_val]; norm_num
  have et2 : ETA ≤ EPS := by rw [eps_val]; norm_num at et1 ⊢; linarith
  obtain ⟨P0, hP0⟩ : ∃ P0, P0 = 1 + (U / c) ^ 2 := ⟨_, rfl⟩
  have hP0p : 1 ≤ P0 := by rw [hP0]; linarith [sq_nonneg (U / c)]
  have hPP : |1 + s / c ^ 2 - P0| ≤ 2 * EPS * P0 := by
    have a1 : 1 + s / c ^ 2 - P0 = (s - U ^ 2) / c ^ 2 := by rw [hP0]; field_simp; ring
    rw [a1, abs_div, abs_of_pos (by positivity : 0 < c ^ 2), div_le_iff₀ (by positivity)]
    have a2 : P0 * c ^ 2 = c ^ 2 + U ^ 2 := by rw [hP0]; field_simp
    have a3 : 1 ≤ c ^ 2 := by rw [hc8]; norm_num
    have a4 : ETA ≤ EPS * c ^ 2 := by nlinarith
    have a5 : 0 ≤ EPS * U ^ 2 := by positivity
    rw [mul_assoc, a2]
    refine hs.trans ?_
    nlinarith
  obtain ⟨hP, hf⟩ := inv_sqrt_near (by linarith) (by positivity) (by linarith) hPP
  obtain ⟨f, hfe⟩ : ∃ f, f = 1 / √(1 + s / c ^ 2) := ⟨_, rfl⟩
  obtain ⟨f0, hf0⟩ : ∃ f0, f0 = 1 / √P0 := ⟨_, rfl⟩
  rw [← hfe] at hγ hf
  rw [← hf0] at hf
  have hf0p : 0 < f0 := by rw [hf0]; positivity
  have g1 : |γ - f0| ≤ 4 * EPS * f0 := by
    have a1 := abs_le.1 hγ
    have a2 := abs_le.1 hf
    rw [abs_le]
    constructor <;> nlinarith
  have hF : c * spd (U / c) = f0 * U := by
    unfold spd
    rw [← hP0, hf0]
    field_simp
  rw [hF]
  have gp : 0 ≤ γ := by nlinarith [(abs_le.1 g1).1]
  rw [abs_of_nonneg gp] at hsc
  have g2 := abs_le.1 g1
  have k1 : γ * U ≤ (1 + 4 * EPS) * (f0 * U) := by nlinarith
  have k2 : (1 - 4 * EPS) * (f0 * U) ≤ γ * U := by nlinarith
  have hfU : 0 ≤ f0 * U := by positivity
  have h3 := abs_le.1 hsc
  obtain ⟨A, hA⟩ : ∃ A, A = f0 * U := ⟨_, rfl⟩
  obtain ⟨B, hB⟩ : ∃ B, B = γ * U := ⟨_, rfl⟩
  rw [← hA, ← hB] at k1 k2
  rw [← hA] at hfU ⊢
  rw [← hB] at h3
  rw [abs_le]
  rw [eps_val] at k1 k2 h3 ⊢
  norm_num at k1 k2 h3 ⊢
  constructor <;> linarith

/-- The factor of a velocity that is well below that of light -/
theorem gamma_value {v : V3} {q : ℝ} (hq : q = 1 - ((snap v).len / LIGHT_SPEED) ^ 2) (hq1 : 1 / 2 ^ 40 ≤ q) {out : Option ℝ}
    (h : VelocityGammaR v out) : ∃ d g, out = some g ∧ 0 < d ∧ |d - q| ≤ 5 * EPS ∧ |g - 1 / √d| ≤ EPS * (1 / √d) := by
  obtain ⟨s, hs, β, hβ, h⟩ := h
  obtain ⟨c, hc⟩ : ∃ c, c = LIGHT_SPEED := ⟨_, rfl⟩
  have hc8 : c = 3 * 10 ^ 8 := by rw [hc, c_val]
  obtain ⟨W, hW⟩ : ∃ W, W = (snap v).len := ⟨_, rfl⟩
  rw [← hc] at hβ
  rw [← hc, ← hW] at hq
  rw [← len_sq, ← hW] at hs
  have ep := eps_pos'
  have et := eta_pos'
  have et1 := eta_le
  have et2 : ETA ≤ EPS / 1000 := by rw [eps_val]; norm_num at et1 ⊢; linarith
  have hc1 : (1 : ℝ) ≤ c ^ 2 := by rw [hc8]; norm_num
  obtain ⟨t, ht⟩ : ∃ t, t = s / c ^ 2 := ⟨_, rfl⟩
  rw [← ht] at hβ
  have hw : W ^ 2 = (1 - q) * c ^ 2 := by rw [hq]; field_simp; ring
  have hw1 : 1 - q ≤ 1 := by norm_num at hq1; linarith
  have hw0 : 0 ≤ 1 - q := by rw [hq]; linarith [sq_nonneg (W / c)]
  have htq : |t - (1 - q)| ≤ 1.001 * EPS := by
    have a1 : t - (1 - q) = (s - W ^ 2) / c ^ 2 := by rw [ht, hw]; field_simp
    rw [a1, abs_div, abs_of_pos (by positivity : 0 < c ^ 2), div_le_iff₀ (by positivity)]
    refine hs.trans ?_
    rw [hw]
    have : EPS * ((1 - q) * c ^ 2) ≤ EPS * (1 * c ^ 2) := by gcongr
    nlinarith
  have htq' := abs_le.1 htq
  have ht1 : |t| ≤ 1.01 := by
    rw [abs_le]
    rw [eps_val] at htq'
    norm_num at htq' ⊢
    constructor <;> linarith
  have hβq : |β - (1 - q)| ≤ 3 * EPS := by
    have a1 : |β - t| ≤ EPS * 1.01 + ETA := hβ.trans (by gcongr)
    have a2 : β - (1 - q) = (β - t) + (t - (1 - q)) := by ring
    rw [a2]
    refine (abs_add_le _ _).trans ?_
    linarith
  have hβ' := abs_le.1 hβq
  rcases h with ⟨h1, -⟩ | ⟨-, d, hd, h⟩
  · exfalso
    rw [eps_val] at hβ'
    norm_num at hβ' hq1
    linarith
  · have hdq : |d - q| ≤ 5 * EPS := by
      have a2 : d - q = (d - (1 - β)) + -(β - (1 - q)) := by ring
      rw [a2]
      refine (abs_add_le _ _).trans ?_
      rw [abs_neg]
      linarith
    have hd0 : 0 < d := by
      have := (abs_le.1 hdq).1
      rw [eps_val] at this
      norm_num at this hq1
      linarith
    rcases h with ⟨h, -⟩ | ⟨h, -⟩ | ⟨-, g, hg, ho⟩
    · linarith
    · linarith
    · exact ⟨d, g, ho, hd0, hdq, hg⟩

end RoundedPush

end Verif
