import Verif.RoundedIeee
import Verif.RoundedPushHistory

/-!
# The relativistic push in IEEE 754 arithmetic (C108)

The expressions of RoundedPush.lean evaluated in the order of the source, every operation rounded to binary64, as in RoundedIeee.lean.
-/

namespace Verif

/-! ## The program -/

/-- `lib::get_gamma`, src/lib.cpp:45-70; `none` is `exit(1)`.  Beyond `beta` of one the difference is not negative, and the quotient
is infinite only for zero. -/
noncomputable def gammaF (s : ℝ) : Option ℝ :=
  let beta := fl (s / LIGHT_SPEED ^ 2)
  if 1 < beta then none
  else if fl (1 - beta) = 0 then some 1e100 else some (fl (1 / fl √(fl (1 - beta))))

/-- `tv_product`, lib/tinyvec3d/tinyvec3d.cpp:92-96 -/
noncomputable def scaledF (g : ℝ) (v : V3) : V3 := ⟨fl (v.c0 * g), fl (v.c1 * g), fl (v.c2 * g)⟩

/-- `tv_add`, lib/tinyvec3d/tinyvec3d.cpp:64-68 -/
noncomputable def addF (v e : V3) : V3 := ⟨fl (v.c0 + e.c0), fl (v.c1 + e.c1), fl (v.c2 + e.c2)⟩

/-- The magnetic rotation, src/particles.cpp:1108-1128; a product of a negated factor is the negated product. -/
noncomputable def rotateF (v b : V3) : V3 :=
  let q := fl (2 / fl (1 + sqF b))
  let a0 := fl (fl (v.c0 + fl (v.c1 * b.c2)) - fl (v.c2 * b.c1))
  let a1 := fl (fl (v.c1 - fl (v.c0 * b.c2)) + fl (v.c2 * b.c0))
  let a2 := fl (fl (v.c2 + fl (v.c0 * b.c1)) - fl (v.c1 * b.c0))
  ⟨fl (v.c0 + fl (q * fl (fl (a1 * b.c2) - fl (a2 * b.c1)))), fl (v.c1 + fl (q * fl (fl (-a0 * b.c2) + fl (a2 * b.c0)))),
    fl (v.c2 + fl (q * fl (fl (a0 * b.c1) - fl (a1 * b.c0))))⟩

/-- `boris_pusher_single` of the relativistic mode, src/particles.cpp:1025-1150, with scaled fields `e` and `b`; `none` is `exit(1)`. -/
noncomputable def pushF (pw : ℝ → ℝ) (e b v : V3) : Option V3 := (gammaF (sqF (snap v))).map fun g =>
  let u := addF (scaledF g (snap v)) e
  let b' := scaledF (pw (fl (1 + fl (sqF u / LIGHT_SPEED ^ 2)))) b
  velocityF pw (addF (rotateF u b') e)

/-- `back_velocity_to_rz_single`, src/particles.cpp:1005-1016, with the sine of line 1291 -/
noncomputable def backVelocityF (c : V3) (r : ℝ) (v : V3) : V3 :=
  let s := fl (c.c1 / r)
  let k := fl √(fl (1 - fl (s * s)))
  ⟨fl (fl (k * v.c0) - fl (s * v.c1)), fl (fl (s * v.c0) + fl (k * v.c1)), v.c2⟩

/-- The sign of one component of the velocity in `reflection_single`, src/particles.cpp:1326-1352; compare `wallsF`. -/
noncomputable def signF (g : GridR) (x w : ℝ) : ℝ :=
  let f := fl (g.size - fl (g.d / 2))
  let y := if f < x then fl (fl (f * 2) - x) else x
  let w' := if f < x then -w else w
  if y < fl (g.d / 2) then -w' else w'

/-- One cycle of a macroparticle of a species, src/particles.cpp:1296-1373 -/
noncomputable def cycleF (pw : ℝ → ℝ) (gr gz : GridR) (dt : ℝ) (e b : V3) (x : V3 × V3) : Option (V3 × V3) :=
  (pushF pw e b x.2).map fun v =>
    let h := halfStepF dt v (backF (halfStepF dt v x.1))
    let c : V3 := ⟨wallsF gr h.c0, h.c1, wallsF gz h.c2⟩
    (backF c, backVelocityF c (backF c).c0 ⟨signF gr h.c0 v.c0, v.c1, signF gz h.c2 v.c2⟩)

/-- Position and velocity before cycle `n`, when the scaled fields of cycle `k` are `e k` and `b k`; `none` when the program has
stopped -/
noncomputable def runF (pw : ℝ → ℝ) (gr gz : GridR) (dt : ℝ) (e b : ℕ → V3) (p0 v0 : V3) : ℕ → Option (V3 × V3)
  | 0 => some (p0, v0)
  | n + 1 => (runF pw gr gz dt e b p0 v0 n).bind (cycleF pw gr gz dt (e n) (b n))

/-! ## It is a case of the rounded push -/

namespace RoundedPush

/-- A computed value `y` of `x`, of size at most `m` -/
def Err (k m t x y : ℝ) : Prop := |x| ≤ m ∧ |y - x| ≤ k * (1 / 2 ^ 53) * m + t

theorem Err.mono {k m t x y k' t' : ℝ} (h : Err k m t x y) (hk : k ≤ k') (ht : t ≤ t') : Err k' m t' x y := by
  have hm : 0 ≤ m := (abs_nonneg x).trans h.1
  refine ⟨h.1, h.2.trans ?_⟩
  have : k * (1 / 2 ^ 53) * m ≤ k' * (1 / 2 ^ 53) * m := by gcongr
  linarith

theorem Err.exact (x : ℝ) : Err 0 |x| 0 x x := ⟨le_rfl, by simp⟩

theorem Err.add {k m t x y m' t' x' y' : ℝ} (h : Err k m t x y) (h' : Err k m' t' x' y') :
    Err k (m + m') (t + t') (x + x') (y + y') := by
  refine ⟨(abs_add_le _ _).trans (add_le_add h.1 h'.1), ?_⟩
  have e : y + y' - (x + x') = (y - x) + (y' - x') := by ring
  rw [e]
  refine (abs_add_le _ _).trans ?_
  linarith [h.2, h'.2]

theorem Err.neg {k m t x y : ℝ} (h : Err k m t x y) : Err k m t (-x) (-y) := by
  refine ⟨by rw [abs_neg]; exact h.1, ?_⟩
  have e : -y - -x = -(y - x) := by ring
  rw [e, abs_neg]
  exact h.2

theorem Err.sub {k m t x y m' t' x' y' : ℝ} (h : Err k m t x y) (h' : Err k m' t' x' y') :
    Err k (m + m') (t + t') (x - x') (y - y') := by
  rw [sub_eq_add_neg x, sub_eq_add_neg y]
  exact h.add h'.neg

theorem Err.mul {k m t x y : ℝ} (h : Err k m t x y) (b : ℝ) : Err k (m * |b|) (t * |b|) (x * b) (y * b) := by
  refine ⟨by rw [abs_mul]; exact mul_le_mul_of_nonneg_right h.1 (abs_nonneg b), ?_⟩
  rw [← sub_mul, abs_mul]
  calc |y - x| * |b| ≤ (k * (1 / 2 ^ 53) * m + t) * |b| := mul_le_mul_of_nonneg_right h.2 (abs_nonneg b)
    _ = _ := by ring

/-- Smallest positive number of the machine, halved -/
noncomputable def tiny : ℝ := 1 / 2 ^ 1075

theorem tiny_pos : 0 < tiny := by unfold tiny; positivity

theorem tiny_eta : 1000 * tiny ≤ ETA := by
  unfold tiny ETA
  have : (2 : ℝ) ^ 1075 = 2 ^ 500 * 2 ^ 575 := by rw [← pow_add]
  rw [this, mul_one_div, div_le_div_iff₀ (by positivity) (by positivity)]
  have h : (1000 : ℝ) ≤ 2 ^ 575 := by
    calc (1000 : ℝ) ≤ 2 ^ 10 := by norm_num
      _ ≤ 2 ^ 575 := pow_le_pow_right₀ (by norm_num) (by norm_num)
  have h5 : (0 : ℝ) < 2 ^ 500 := by positivity
  calc (1000 : ℝ) * 2 ^ 500 ≤ 2 ^ 575 * 2 ^ 500 := by gcongr
    _ = 1 * (2 ^ 500 * 2 ^ 575) := by ring

theorem Err.fl {k m t x y : ℝ} (h : Err k m t x y) (hk : k ≤ 1000) (ht : 0 ≤ t) : Err (k + 2) m (2 * t + tiny) x (fl y) := by
  have hm : 0 ≤ m := (abs_nonneg x).trans h.1
  refine ⟨h.1, ?_⟩
  have e := fl_near y
  have e' : Verif.fl y - x = (Verif.fl y - y) + (y - x) := by ring
  rw [e']
  refine (abs_add_le _ _).trans ?_
  have hy : |y| ≤ m + (k * (1 / 2 ^ 53) * m + t) := by
    have : y = x + (y - x) := by ring
    rw [this]
    exact (abs_add_le _ _).trans (add_le_add h.1 h.2)
  have hkm : k * m ≤ 1000 * m := by gcongr
  have h2 := h.2
  unfold tiny
  obtain ⟨τ, hτ⟩ : ∃ τ : ℝ, τ = 1 / 2 ^ 1075 := ⟨_, rfl⟩
  rw [← hτ] at e ⊢
  obtain ⟨K, hK⟩ : ∃ K, K = k * m := ⟨_, rfl⟩
  have r1 : k * (1 / 2 ^ 53) * m = 1 / 2 ^ 53 * K := by rw [hK]; ring
  have r2 : (k + 2) * (1 / 2 ^ 53) * m = 1 / 2 ^ 53 * K + 2 / 2 ^ 53 * m := by rw [hK]; ring
  rw [r1] at hy h2
  rw [r2]
  rw [← hK] at hkm
  norm_num at *
  linarith

theorem Err.rounds {k m t x y : ℝ} (h : Err k m t x y) (hk : k ≤ 32) (ht : t ≤ 1000 * tiny) : RoundsTo m x y := by
  have hm : 0 ≤ m := (abs_nonneg x).trans h.1
  have := tiny_eta
  have e : k * (1 / 2 ^ 53) * m ≤ 32 * (1 / 2 ^ 53) * m := by gcongr
  have e' : 32 * (1 / 2 ^ 53) * m = EPS * m := by rw [eps_val]; norm_num
  unfold RoundsTo
  linarith [h.2]

/-- One of the brackets of the rotation -/
theorem bracket {p x y x' y' : ℝ} (hx : Err 2 |x| tiny x x') (hy : Err 2 |y| tiny y y') :
    Err 6 (|p| + |x| + |y|) (9 * tiny) (p + x + y) (fl (fl (p + x') + y')) := by
  have ht := tiny_pos
  have a := ((Err.exact p).mono (k' := 2) (t' := 0) (by norm_num) le_rfl).add hx
  have b := (a.fl (by norm_num) (by linarith)).add (hy.mono (k' := 2 + 2) (by norm_num) le_rfl)
  exact (b.fl (by norm_num) (by linarith)).mono (by norm_num) (by linarith)

theorem prod_err (x y : ℝ) : Err 2 |x * y| tiny (x * y) (fl (x * y)) := by
  have := (Err.exact (x * y)).fl (by norm_num) le_rfl
  simpa using this

theorem bracket_mul {A mA a : ℝ} (hA : Err 6 mA (9 * tiny) A a) (c : ℝ) :
    Err 8 (mA * |c|) (18 * (tiny * |c|) + tiny) (A * c) (fl (a * c)) := by
  have ht := tiny_pos
  have tc := mul_nonneg ht.le (abs_nonneg c)
  exact ((hA.mul c).fl (by norm_num) (by linarith)).mono (by norm_num) (by linarith)

/-- One component of the rotation -/
theorem turned {v q X Y m1 m2 P Q c d : ℝ} (hP : Err 8 m1 (18 * (tiny * |c|) + tiny) X P)
    (hQ : Err 8 m2 (18 * (tiny * |d|) + tiny) Y Q) (hq : 0 ≤ q) (hq1 : q ≤ 2.1) (hqc : q * |c| ≤ 1.1) (hqd : q * |d| ≤ 1.1) :
    RoundsTo (|v| + q * (m1 + m2)) (v + q * (X + Y)) (fl (v + fl (q * fl (P + Q)))) := by
  have ht := tiny_pos
  have tc := mul_nonneg ht.le (abs_nonneg c)
  have td := mul_nonneg ht.le (abs_nonneg d)
  have h3 := (hP.add hQ).fl (by norm_num) (by positivity)
  have h4 := h3.mul q
  rw [abs_of_nonneg hq] at h4
  have bound : (2 * (18 * (tiny * |c|) + tiny + (18 * (tiny * |d|) + tiny)) + tiny) * q ≤ 91 * tiny := by
    have e : (2 * (18 * (tiny * |c|) + tiny + (18 * (tiny * |d|) + tiny)) + tiny) * q =
        36 * (tiny * (q * |c|)) + 36 * (tiny * (q * |d|)) + 5 * (tiny * q) := by ring
    rw [e]
    have a1 : tiny * (q * |c|) ≤ tiny * 1.1 := by gcongr
    have a2 : tiny * (q * |d|) ≤ tiny * 1.1 := by gcongr
    have a3 : tiny * q ≤ tiny * 2.1 := by gcongr
    linarith
  have h5 := (h4.mono le_rfl bound).fl (by norm_num) (by positivity)
  have h6 := (((Err.exact v).mono (k' := 8 + 2 + 2) (t' := 0) (by norm_num) le_rfl).add h5).fl (by norm_num) (by positivity)
  have := h6.rounds (by norm_num) (by linarith)
  rwa [mul_comm _ q, mul_comm _ q, mul_comm _ q] at this

/-- The factor of the rotation -/
theorem turn_factor {S s : ℝ} (hS : 0 ≤ S) (hs : 0 ≤ s) (h : |s - S| ≤ 1 / 2 ^ 50 * S + 100 * tiny) (hS1 : S ≤ 2 ^ 1003) :
    |fl (2 / fl (1 + s)) - 2 / (1 + S)| ≤ EPS * (2 / (1 + S)) := by
  have ht := tiny_pos
  have t60 : tiny ≤ 1 / 2 ^ 60 := by
    unfold tiny
    exact one_div_le_one_div_of_le (by positivity) (pow_le_pow_right₀ (by norm_num) (by norm_num))
  have e1 := fl_near (1 + s)
  rw [abs_of_nonneg (by linarith : 0 ≤ 1 + s)] at e1
  have hfold : (1 : ℝ) / 2 ^ 1075 = tiny := rfl
  rw [hfold] at e1
  obtain ⟨q, hq⟩ : ∃ q, q = fl (1 + s) := ⟨_, rfl⟩
  rw [← hq] at e1 ⊢
  have hqS : |q - (1 + S)| ≤ 1 / 2 ^ 49 * (1 + S) := by
    rw [abs_le] at e1 h ⊢
    norm_num at *
    constructor <;> linarith
  have hq0 : 0 < q := by
    have := (abs_le.1 hqS).1
    norm_num at this
    linarith
  have hI : 1 / 2 ^ 1003 ≤ 2 / (1 + S) := by
    rw [div_le_div_iff₀ (by positivity) (by linarith)]
    have h1 : (1 : ℝ) ≤ 2 ^ 1003 := one_le_pow₀ (by norm_num)
    obtain ⟨T, hT⟩ : ∃ T : ℝ, T = 2 ^ 1003 := ⟨_, rfl⟩
    rw [← hT] at h1 hS1 ⊢
    linarith only [h1, hS1]
  have ht2 : tiny ≤ 1 / 2 ^ 60 * (2 / (1 + S)) := by
    refine le_trans ?_ (mul_le_mul_of_nonneg_left hI (by positivity))
    unfold tiny
    rw [one_div_mul_one_div]
    apply one_div_le_one_div_of_le (by positivity)
    rw [← pow_add]
    exact pow_le_pow_right₀ (by norm_num) (by norm_num)
  obtain ⟨I, hIe⟩ : ∃ I, I = 2 / (1 + S) := ⟨_, rfl⟩
  obtain ⟨J, hJe⟩ : ∃ J, J = 2 / q := ⟨_, rfl⟩
  have hI0 : 0 < I := by rw [hIe]; positivity
  have hJ0 : 0 < J := by rw [hJe]; positivity
  have hq' := abs_le.1 hqS
  have j1 : J ≤ (1 + 17 / 2 ^ 53) * I := by
    rw [hIe, hJe, mul_div_assoc', div_le_div_iff₀ hq0 (by linarith)]
    norm_num at hq' ⊢
    nlinarith
  have j2 : (1 - 17 / 2 ^ 53) * I ≤ J := by
    rw [hIe, hJe, mul_div_assoc', div_le_div_iff₀ (by linarith) hq0]
    norm_num at hq' ⊢
    nlinarith
  have e2 := fl_near J
  rw [abs_of_pos hJ0, hfold] at e2
  rw [← hIe] at ht2 ⊢
  rw [← hJe]
  rw [eps_val]
  rw [abs_le] at e2 ⊢
  norm_num at *
  constructor <;> linarith

theorem sqF_err (u : V3) : Err 6 u.sq (13 * tiny) u.sq (sqF u) := by
  have ht := tiny_pos
  have p : ∀ x : ℝ, Err 2 (x * x) tiny (x * x) (fl (x * x)) := fun x => by
    have := prod_err x x
    rwa [abs_of_nonneg (mul_self_nonneg x)] at this
  have a := ((p u.c0).add (p u.c1)).fl (by norm_num) (by linarith)
  have b := (a.add ((p u.c2).mono (k' := 2 + 2) (by norm_num) le_rfl)).fl (by norm_num) (by linarith)
  have e : u.c0 * u.c0 + u.c1 * u.c1 + u.c2 * u.c2 = u.sq := by unfold V3.sq; ring
  rw [e] at b
  exact b.mono (by norm_num) (by linarith)

theorem rotateF_rotate {v b : V3} (hb : b.sq ≤ 2 ^ 1003) : RotateR v b (rotateF v b) := by
  have ht := tiny_pos
  have hS0 : 0 ≤ b.sq := by unfold V3.sq; nlinarith [mul_self_nonneg b.c0, mul_self_nonneg b.c1, mul_self_nonneg b.c2]
  have hf := turn_factor hS0 (sqF_rounds b).2 (by
    have := (sqF_err b).2
    norm_num at this ⊢
    linarith) hb
  obtain ⟨q, hq⟩ : ∃ q, q = fl (2 / fl (1 + sqF b)) := ⟨_, rfl⟩
  have hq0 : 0 ≤ q := by rw [hq]; exact fl_nonneg (div_nonneg (by norm_num) (fl_nonneg (by linarith [(sqF_rounds b).2])))
  rw [← hq] at hf
  have ep := eps_pos'
  have es := e_small
  have hI0 : 0 < 2 / (1 + b.sq) := div_pos (by norm_num) (by linarith)
  have hqI : q ≤ 1.000001 * (2 / (1 + b.sq)) := by
    have := (abs_le.1 hf).2
    have k : EPS * (2 / (1 + b.sq)) ≤ 1 / 1000000 * (2 / (1 + b.sq)) := by gcongr
    norm_num at *
    linarith
  have hI2 : 2 / (1 + b.sq) ≤ 2 := by
    rw [div_le_iff₀ (by linarith)]
    linarith
  have hq2 : q ≤ 2.1 := by linarith
  have hqb : ∀ x : ℝ, x ^ 2 ≤ b.sq → q * |x| ≤ 1.1 := by
    intro x hx
    have h2 : 2 / (1 + b.sq) * |x| ≤ 1 := by
      rw [div_mul_eq_mul_div, div_le_one (by linarith)]
      nlinarith [sq_nonneg (|x| - 1), sq_abs x]
    have : q * |x| ≤ 1.000001 * (2 / (1 + b.sq)) * |x| := by gcongr
    linarith
  have q0 := hqb b.c0 (by unfold V3.sq; nlinarith [sq_nonneg b.c1, sq_nonneg b.c2])
  have q1 := hqb b.c1 (by unfold V3.sq; nlinarith [sq_nonneg b.c0, sq_nonneg b.c2])
  have q2 := hqb b.c2 (by unfold V3.sq; nlinarith [sq_nonneg b.c0, sq_nonneg b.c1])
  -- the brackets
  have n : ∀ x y : ℝ, Err 2 |-(x * y)| tiny (-(x * y)) (-fl (x * y)) := fun x y => by
    rw [abs_neg]
    exact (prod_err x y).neg
  have A0 := bracket (p := v.c0) (prod_err v.c1 b.c2) (n v.c2 b.c1)
  have A1 := bracket (p := v.c1) (n v.c0 b.c2) (prod_err v.c2 b.c0)
  have A2 := bracket (p := v.c2) (prod_err v.c0 b.c1) (n v.c1 b.c0)
  rw [abs_neg, ← sub_eq_add_neg, ← sub_eq_add_neg] at A0 A1 A2
  refine ⟨q, hf, ?_, ?_, ?_⟩
  · have := turned (v := v.c0) (bracket_mul A1 b.c2) (bracket_mul A2 b.c1).neg hq0 hq2 q2 q1
    unfold rotateF
    simp only [← hq]
    rw [← sub_eq_add_neg, ← sub_eq_add_neg] at this
    exact this
  · have := turned (v := v.c1) (bracket_mul A0.neg b.c2) (bracket_mul A2 b.c0) hq0 hq2 q2 q0
    unfold rotateF
    simp only [← hq]
    exact this
  · have := turned (v := v.c2) (bracket_mul A0 b.c1) (bracket_mul A1 b.c0).neg hq0 hq2 q1 q0
    unfold rotateF
    simp only [← hq]
    rw [← sub_eq_add_neg, ← sub_eq_add_neg] at this
    exact this

/-- The smallest positive number -/
theorem fl_least {x : ℝ} (h : 0 < fl x) : 2 * tiny ≤ fl x := by
  have e : 2 * tiny = 2 ^ (-1074 : ℤ) := by
    unfold tiny
    have h : ∀ k : ℕ, 2 * (1 / (2 : ℝ) ^ (k + 1)) = 2 ^ (-(k : ℤ)) := fun k => by
      rw [zpow_neg, zpow_natCast, pow_succ]
      field_simp
    exact h 1074
  rw [e]
  unfold fl at h ⊢
  have h1 : (2 : ℝ) ^ (-1074 : ℤ) ≤ 2 ^ ulpExp x := zpow_le_zpow_right₀ (by norm_num) (le_max_right _ _)
  have h2 : (0 : ℝ) < 2 ^ ulpExp x := by positivity
  have h3 : (0 : ℝ) < (rne (x / 2 ^ ulpExp x) : ℝ) := (mul_pos_iff_of_pos_right h2).1 h
  have h4 : (1 : ℝ) ≤ (rne (x / 2 ^ ulpExp x) : ℝ) := by
    have h5 : 0 < rne (x / 2 ^ ulpExp x) := by exact_mod_cast h3
    exact_mod_cast (by omega : 1 ≤ rne (x / 2 ^ ulpExp x))
  calc (2 : ℝ) ^ (-1074 : ℤ) ≤ 1 * 2 ^ ulpExp x := by rw [one_mul]; exact h1
    _ ≤ _ := by gcongr

/-- Rounded reciprocal of a rounded root -/
theorem recip_root {d : ℝ} (hd : 2 * tiny ≤ d) (hd1 : d ≤ 2) : |fl (1 / fl √d) - 1 / √d| ≤ EPS * (1 / √d) := by
  have ht := tiny_pos
  have hd0 : 0 < d := by linarith
  have hr0 : 0 < √d := Real.sqrt_pos.2 hd0
  have ht1 : tiny ≤ 1 / 2 ^ 60 * √d := by
    have e : (1 / 2 ^ 60 * √d) = √(1 / 2 ^ 120 * d) := by
      rw [Real.sqrt_mul (by positivity)]
      congr 1
      rw [show (1 : ℝ) / 2 ^ 120 = (1 / 2 ^ 60) ^ 2 by norm_num, Real.sqrt_sq (by positivity)]
    rw [e]
    apply Real.le_sqrt_of_sq_le
    have h1 : tiny ≤ 1 / 2 ^ 120 := by
      unfold tiny
      exact one_div_le_one_div_of_le (by positivity) (pow_le_pow_right₀ (by norm_num) (by norm_num))
    calc tiny ^ 2 = tiny * tiny := by ring
      _ ≤ 1 / 2 ^ 120 * d := by
        apply mul_le_mul h1 _ ht.le (by positivity)
        linarith
  have hr2 : √d ≤ 2 := by
    rw [Real.sqrt_le_left (by norm_num)]
    linarith
  have t60 : tiny ≤ 1 / 2 ^ 60 := by
    unfold tiny
    exact one_div_le_one_div_of_le (by positivity) (pow_le_pow_right₀ (by norm_num) (by norm_num))
  have hfold : (1 : ℝ) / 2 ^ 1075 = tiny := rfl
  have e1 := fl_near √d
  rw [abs_of_pos hr0, hfold] at e1
  obtain ⟨R, hR⟩ : ∃ R, R = √d := ⟨_, rfl⟩
  obtain ⟨r, hr⟩ : ∃ r, r = fl √d := ⟨_, rfl⟩
  rw [← hr, ← hR] at e1
  rw [← hr, ← hR]
  rw [← hR] at ht1 hr0 hr2
  have e1' := abs_le.1 e1
  have hrr : 0 < r := by
    norm_num at *
    linarith
  have j1 : 1 / r ≤ (1 + 1 / 2 ^ 51) * (1 / R) := by
    rw [mul_one_div, div_le_div_iff₀ hrr hr0]
    norm_num at e1' ht1 ⊢
    linarith
  have j2 : (1 - 1 / 2 ^ 51) * (1 / R) ≤ 1 / r := by
    rw [mul_one_div, div_le_div_iff₀ hr0 hrr]
    norm_num at e1' ht1 ⊢
    linarith
  have hRi : 1 / 2 ≤ 1 / R := one_div_le_one_div_of_le hr0 hr2
  have e2 := fl_near (1 / r)
  rw [abs_of_pos (one_div_pos.2 hrr), hfold] at e2
  obtain ⟨I, hI⟩ : ∃ I, I = 1 / R := ⟨_, rfl⟩
  obtain ⟨J, hJ⟩ : ∃ J, J = 1 / r := ⟨_, rfl⟩
  rw [← hI] at j1 j2 hRi ⊢
  rw [← hJ] at j1 j2 e2 ⊢
  rw [eps_val]
  rw [abs_le] at e2 ⊢
  norm_num at *
  constructor <;> linarith

theorem gammaF_gamma {s : ℝ} (hs : 0 ≤ s) : GammaR s (gammaF s) := by
  have ht := tiny_pos
  have hb := fl_rounds (s / LIGHT_SPEED ^ 2)
  have hb0 : 0 ≤ fl (s / LIGHT_SPEED ^ 2) := fl_nonneg (div_nonneg hs (by unfold LIGHT_SPEED; positivity))
  unfold gammaF
  obtain ⟨β, hβ⟩ : ∃ β, β = fl (s / LIGHT_SPEED ^ 2) := ⟨_, rfl⟩
  rw [← hβ] at hb hb0
  simp only [← hβ]
  refine ⟨β, hb, ?_⟩
  by_cases h : 1 < β
  · rw [if_pos h]
    exact Or.inl ⟨h, rfl⟩
  rw [if_neg h]
  have h1 : β ≤ 1 := not_lt.1 h
  refine Or.inr ⟨h1, fl (1 - β), ?_, Or.inr ?_⟩
  · have e := fl_near (1 - β)
    rw [abs_of_nonneg (by linarith : 0 ≤ 1 - β)] at e
    refine e.trans ?_
    have t60 : (1 : ℝ) / 2 ^ 1075 ≤ 1 / 2 ^ 60 :=
      one_div_le_one_div_of_le (by positivity) (pow_le_pow_right₀ (by norm_num) (by norm_num))
    rw [eps_val]
    obtain ⟨τ, hτ⟩ : ∃ τ : ℝ, τ = 1 / 2 ^ 1075 := ⟨_, rfl⟩
    rw [← hτ] at t60 ⊢
    clear e hτ
    norm_num at *
    linarith
  · have hd0 : 0 ≤ fl (1 - β) := fl_nonneg (by linarith)
    by_cases hz : fl (1 - β) = 0
    · rw [if_pos hz]
      exact Or.inl ⟨hz, rfl⟩
    · rw [if_neg hz]
      have hp : 0 < fl (1 - β) := lt_of_le_of_ne hd0 (Ne.symm hz)
      have h2 : fl (1 - β) ≤ 2 := by
        have := fl_mono (by linarith) (by linarith : 1 - β ≤ 1)
        have e := fl_nat (n := 1) (by norm_num)
        norm_num at e
        linarith
      exact Or.inr ⟨hp, _, recip_root (fl_least hp) h2, rfl⟩

theorem addF_add (v e : V3) : AddR v e (addF v e) := by
  have h : ∀ x y : ℝ, RoundsTo (|x| + |y|) (x + y) (fl (x + y)) := fun x y => by
    have ht := tiny_pos
    have := ((Err.exact x).add (Err.exact y)).fl (by norm_num) (by norm_num)
    exact this.rounds (by norm_num) (by linarith)
  exact ⟨h _ _, h _ _, h _ _⟩

theorem pushF_push {pw : ℝ → ℝ} (hp : PowOk pw) {e b v : V3} (hb : b.sq ≤ 2 ^ 1000) {v' : V3} (h : pushF pw e b v = some v') :
    ∃ u, PushR e b v u v' := by
  unfold pushF at h
  rw [Option.map_eq_some_iff] at h
  obtain ⟨g, hg, rfl⟩ := h
  have hG := gammaF_gamma (sqF_rounds (snap v)).2
  rw [hg] at hG
  obtain ⟨u, hu⟩ : ∃ u, u = addF (scaledF g (snap v)) e := ⟨_, rfl⟩
  obtain ⟨b', hb'⟩ : ∃ b', b' = scaledF (pw (fl (1 + fl (sqF u / LIGHT_SPEED ^ 2)))) b := ⟨_, rfl⟩
  have hi := inv_factor hp (B := sqF u / LIGHT_SPEED ^ 2) (div_nonneg (sqF_rounds u).2 (by unfold LIGHT_SPEED; positivity))
  have hsc : ScaledR (pw (fl (1 + fl (sqF u / LIGHT_SPEED ^ 2)))) b b' := by rw [hb']; exact ⟨fl_rounds _, fl_rounds _, fl_rounds _⟩
  have hb2 : b'.sq ≤ 2 ^ 1003 := by
    have hl := scaled_len hsc
    have hB : b.len ≤ 2 ^ 500 := by
      unfold V3.len
      rw [Real.sqrt_le_left (by positivity)]
      refine hb.trans (le_of_eq ?_)
      rw [← pow_mul]
    have hg1 : |pw (fl (1 + fl (sqF u / LIGHT_SPEED ^ 2)))| ≤ 1.1 := by
      have hs0 : 0 ≤ sqF u / LIGHT_SPEED ^ 2 := div_nonneg (sqF_rounds u).2 (by unfold LIGHT_SPEED; positivity)
      have hI : 1 / √(1 + sqF u / LIGHT_SPEED ^ 2) ≤ 1 := by
        rw [div_le_one (Real.sqrt_pos.2 (by linarith))]
        exact Real.one_le_sqrt.2 (by linarith)
      have hI0 : 0 ≤ 1 / √(1 + sqF u / LIGHT_SPEED ^ 2) := by positivity
      have es := e_small
      have ep := eps_pos'
      have k : EPS * (1 / √(1 + sqF u / LIGHT_SPEED ^ 2)) ≤ 1 / 1000000 * 1 := by gcongr
      have := abs_le.1 hi
      obtain ⟨I, hIe⟩ : ∃ I, I = 1 / √(1 + sqF u / LIGHT_SPEED ^ 2) := ⟨_, rfl⟩
      rw [← hIe] at this hI hI0 k
      rw [abs_le]
      constructor <;> linarith only [this.1, this.2, hI, hI0, k]
    have h1 : (1 : ℝ) ≤ 2 ^ 500 := one_le_pow₀ (by norm_num)
    have es := e_small
    have ep := eps_pos'
    have et := eta_le
    have hb0 := len_nonneg b
    obtain ⟨T, hT⟩ : ∃ T : ℝ, T = 2 ^ 500 := ⟨_, rfl⟩
    have hL : b'.len ≤ 2 * T := by
      rw [← hT] at hB h1
      have k1 : |pw (fl (1 + fl (sqF u / LIGHT_SPEED ^ 2)))| * b.len ≤ 1.1 * T := by gcongr
      have k0 : 0 ≤ |pw (fl (1 + fl (sqF u / LIGHT_SPEED ^ 2)))| * b.len := by positivity
      have k2 : EPS * (|pw (fl (1 + fl (sqF u / LIGHT_SPEED ^ 2)))| * b.len) ≤ 1 / 1000000 * (1.1 * T) := by gcongr
      have k3 := (abs_le.1 hl).2
      norm_num at et
      linarith only [k3, k2, k1, et, h1]
    have e : (2 : ℝ) ^ 1003 = 8 * T ^ 2 := by
      rw [hT, ← pow_mul, show (8 : ℝ) = 2 ^ 3 by norm_num, ← pow_add]
    rw [e, ← len_sq]
    have k4 := len_nonneg b'
    have k5 : b'.len ^ 2 ≤ (2 * T) ^ 2 := by gcongr
    have k6 : (2 * T) ^ 2 = 4 * T ^ 2 := by ring
    have k7 : 0 ≤ T ^ 2 := sq_nonneg T
    linarith only [k5, k6, k7]
  refine ⟨addF (rotateF u b') e, g, scaledF g (snap v), u, _, b', rotateF u b', ⟨_, (sqF_rounds _).1, hG⟩,
    ⟨fl_rounds _, fl_rounds _, fl_rounds _⟩, ?_, ⟨_, (sqF_rounds u).1, hi⟩, hsc, rotateF_rotate hb2, addF_add _ _, ?_⟩
  · rw [hu]
    exact addF_add _ _
  · simp only [← hu, ← hb']
    exact velocityF_velocity hp _

theorem backVelocityF_back (c : V3) (r : ℝ) (v : V3) : BackVelocityR c r v (backVelocityF c r v) := by
  have ht := tiny_pos
  obtain ⟨s, hs⟩ : ∃ s, s = fl (c.c1 / r) := ⟨_, rfl⟩
  obtain ⟨k, hk⟩ : ∃ k, k = fl √(fl (1 - fl (s * s))) := ⟨_, rfl⟩
  refine ⟨s, k, by rw [hs]; exact fl_rounds _, fun hs2 => ?_, ?_, ?_, rfl⟩
  · have e1 := ((Err.exact (1 : ℝ)).mono (k' := 2) (t' := 0) (by norm_num) le_rfl).sub (prod_err s s)
    have e2 := (e1.fl (by norm_num) (by linarith)).2
    have hq : s * s ≤ 3 / 4 := by nlinarith
    have hq0 : 0 ≤ s * s := mul_self_nonneg s
    rw [abs_one, abs_of_nonneg hq0] at e2
    have t60 : tiny ≤ 1 / 2 ^ 60 := by
      unfold tiny
      exact one_div_le_one_div_of_le (by positivity) (pow_le_pow_right₀ (by norm_num) (by norm_num))
    have hfold : (1 : ℝ) / 2 ^ 1075 = tiny := rfl
    have e3 : |fl (1 - fl (s * s)) - (1 - s * s)| ≤ 30 / 2 ^ 53 * (1 - s * s) + 0 := by
      refine e2.trans ?_
      norm_num at *
      linarith
    have e4 := sqrt_roundsTo (by linarith) (by positivity) (by norm_num) le_rfl e3
    rw [Real.sqrt_zero, add_zero] at e4
    have hR : 1 / 2 ≤ √(1 - s * s) := by
      apply Real.le_sqrt_of_sq_le
      linarith
    have e5 := fl_near √(fl (1 - fl (s * s)))
    rw [abs_of_nonneg (Real.sqrt_nonneg _), hfold, ← hk] at e5
    obtain ⟨R, hRe⟩ : ∃ R, R = √(1 - s * s) := ⟨_, rfl⟩
    obtain ⟨q, hqe⟩ : ∃ q, q = √(fl (1 - fl (s * s))) := ⟨_, rfl⟩
    rw [← hRe] at e4 hR ⊢
    rw [← hqe] at e4 e5
    rw [eps_val]
    rw [abs_le] at e4 e5 ⊢
    clear e1 e2 e3 hfold
    norm_num at *
    constructor <;> linarith
  · have := (((prod_err k v.c0).sub (prod_err s v.c1)).fl (by norm_num) (by linarith)).rounds (by norm_num) (by linarith)
    unfold backVelocityF
    simp only [← hs, ← hk]
    exact this
  · have := (((prod_err s v.c0).add (prod_err k v.c1)).fl (by norm_num) (by linarith)).rounds (by norm_num) (by linarith)
    unfold backVelocityF
    simp only [← hs, ← hk]
    exact this

theorem signF_sign (g : GridR) (x w : ℝ) : signF g x w = w ∨ signF g x w = -w := by
  unfold signF
  simp only
  split_ifs <;> simp

theorem cycleF_cycle {pw : ℝ → ℝ} (hp : PowOk pw) {gr gz : GridR} (hgr : gr.Ok) (hgz : gz.Ok) {dt : ℝ} {e b p v p' v' : V3}
    (hb : b.sq ≤ 2 ^ 1000) (h : cycleF pw gr gz dt e b (p, v) = some (p', v')) : CycleR false gr gz dt e b p v p' v' True := by
  unfold cycleF at h
  rw [Option.map_eq_some_iff] at h
  obtain ⟨v1, h1, h2⟩ := h
  obtain ⟨u, hu⟩ := pushF_push hp hb h1
  simp only [Prod.mk.injEq] at h2
  obtain ⟨rfl, rfl⟩ := h2
  refine ⟨u, v1, _, _, _, _, _, hu, halfStepF_half _ _ _, backF_back _, halfStepF_half _ _ _, ?_, backF_back _, ?_, backVelocityF_back _ _ _⟩
  · obtain ⟨y, hy, hy'⟩ := wallsF_walls hgr.size_pos hgr.d_pos (halfStepF dt v1 (backF (halfStepF dt v1 p))).c0
    obtain ⟨z, hz, hz'⟩ := wallsF_walls hgz.size_pos hgz.d_pos (halfStepF dt v1 (backF (halfStepF dt v1 p))).c2
    exact ⟨y, z, True, True, hy, hz, hy', hz', rfl, by simp⟩
  · exact ⟨signF_sign _ _ _, rfl, signF_sign _ _ _⟩

theorem runF_runs {pw : ℝ → ℝ} (hp : PowOk pw) {gr gz : GridR} (hgr : gr.Ok) (hgz : gz.Ok) {dt : ℝ} {e b : ℕ → V3}
    (hb : ∀ n, (b n).sq ≤ 2 ^ 1000) {p0 v0 : V3} {n : ℕ} {p v : V3} (h : runF pw gr gz dt e b p0 v0 n = some (p, v)) :
    RunsR false gr gz dt e b p0 v0 n p v := by
  induction n generalizing p v with
  | zero =>
    simp only [runF, Option.some.injEq, Prod.mk.injEq] at h
    obtain ⟨rfl, rfl⟩ := h
    exact .start
  | succ n ih =>
    simp only [runF] at h
    rw [Option.bind_eq_some_iff] at h
    obtain ⟨⟨p1, v1⟩, h1, h2⟩ := h
    exact .step n p1 v1 p v True (ih h1) (cycleF_cycle hp hgr hgz (hb n) h2) trivial

end RoundedPush

open RoundedPush

/-- **C108**, IEEE 754: in every build that rounds each operation, `get_gamma` does not stop the program in the cycles considered, and
all of the momenta and factors are as in `C108_history_partial`.

Partial: as `C108_history_partial`; overflow is not modelled. -/
theorem C108_ieee_partial {pw : ℝ → ℝ} (hpw : PowOk pw) {gr gz : GridR} (hgr : gr.Ok) (hgz : gz.Ok) {dt : ℝ} (hdt : 0 < dt)
    (hcr : LIGHT_SPEED * dt ≤ 3 / 4 * gr.d) (hcz : LIGHT_SPEED * dt ≤ 3 / 4 * gz.d) {e b : ℕ → V3} (hb : ∀ n, (b n).sq ≤ 2 ^ 1000)
    {p0 v0 : V3} (hr : StartR gr p0.c0) (hp : p0.c1 = 0) (hz : StartR gz p0.c2) {G : ℝ} (hG : 1 ≤ G) {N : ℕ}
    (hN : ((N : ℝ) + 1) * G ^ 2 ≤ 2 ^ 34) (hv : v0.len < LIGHT_SPEED)
    (hE : momentumOf v0 + ∑ k ∈ Finset.range N, 2 * ((e k).len / LIGHT_SPEED) ≤ G) {n : ℕ} (hn : n ≤ N) :
    ∃ p v g, runF pw gr gz dt e b p0 v0 n = some (p, v) ∧ v.len < LIGHT_SPEED ∧ momentumOf v ≤ 2 * G ∧
      gammaF (sqF (snap v)) = some g ∧ |g - lorentzOf v| ≤ 8 * EPS * lorentzOf v ^ 2 * lorentzOf v := by
  have key : ∀ {n p v}, n ≤ N → runF pw gr gz dt e b p0 v0 n = some (p, v) → ∃ g, v.len < LIGHT_SPEED ∧ momentumOf v ≤ 2 * G ∧
      gammaF (sqF (snap v)) = some g ∧ |g - lorentzOf v| ≤ 8 * EPS * lorentzOf v ^ 2 * lorentzOf v := by
    intro n p v hn h
    obtain ⟨h1, h2, h3⟩ := C108_history_partial hgr hgz hdt hcr hcz hr hp hz hG hN hv hE hn (runF_runs hpw hgr hgz hb h)
    obtain ⟨g, hg, hg'⟩ := h3 _ ⟨_, (sqF_rounds _).1, gammaF_gamma (sqF_rounds (snap v)).2⟩
    exact ⟨g, h1, h2, hg, hg'⟩
  induction n with
  | zero =>
    obtain ⟨g, hg⟩ := key (n := 0) (p := p0) (v := v0) (by omega) rfl
    exact ⟨p0, v0, g, rfl, hg⟩
  | succ n ih =>
    obtain ⟨p, v, g, h1, -, -, h2, -⟩ := ih (by omega)
    obtain ⟨x, hx⟩ : ∃ x, runF pw gr gz dt e b p0 v0 (n + 1) = some x := by
      simp only [runF, h1, Option.bind_some, cycleF, pushF, h2, Option.map_some]
      exact ⟨_, rfl⟩
    obtain ⟨g', hg'⟩ := key (p := x.1) (v := x.2) hn hx
    exact ⟨x.1, x.2, g', hx, hg'⟩

/-! ## Beyond the limits -/

namespace RoundedPush

theorem fl_int {n k : ℕ} (hn : n ≤ 2 ^ 53) : fl ((n : ℝ) * 2 ^ k) = n * 2 ^ k := by
  have := fl_natMul (n := n) (e := k) (by omega) hn
  rwa [zpow_natCast] at this

theorem light_fl (k : ℕ) : fl (LIGHT_SPEED * 2 ^ k) = LIGHT_SPEED * 2 ^ k := by
  have := fl_int (n := 300000000) (k := k) (by norm_num)
  rw [c_val]
  push_cast at this
  norm_num at this ⊢
  exact this

theorem light_sq_fl (k : ℕ) : fl (LIGHT_SPEED ^ 2 * 2 ^ k) = LIGHT_SPEED ^ 2 * 2 ^ k := by
  have := fl_int (n := 1373291015625) (k := k + 16) (by norm_num)
  have e : (1373291015625 : ℝ) * 2 ^ (k + 16) = LIGHT_SPEED ^ 2 * 2 ^ k := by
    rw [c_val, pow_add]
    ring
  push_cast at this
  rwa [e] at this

theorem fl_pow (k : ℕ) : fl ((2 : ℝ) ^ k) = 2 ^ k := by
  have := fl_int (n := 1) (k := k) (by norm_num)
  push_cast at this
  rwa [one_mul] at this

theorem fl_one' : fl 1 = 1 := by simpa using fl_pow 0

theorem fl_two' : fl 2 = 2 := by simpa using fl_pow 1

theorem sqF_axis {x s : ℝ} (h : fl (x * x) = s) (hs : fl s = s) : sqF ⟨x, 0, 0⟩ = s := by
  unfold sqF
  simp only [mul_zero, fl_zero, add_zero, h, hs]

theorem fl_swallow : fl (1 + 2 ^ 60) = 2 ^ 60 := by
  have := fl_eq (x := 1 + 2 ^ 60) (e := 8) (m := 2 ^ 52) (by norm_num) (by norm_num) (by norm_num) (by norm_num)
  rw [this]
  norm_num

end RoundedPush

/-- C108: the limits are needed.  A macroparticle at rest that an electric force gives the momentum `2^30 c` gets the computed velocity
`c`, and the factor of the next cycle is `1e100` instead of `2^30`. -/
theorem C108_fast_violated {pw : ℝ → ℝ} (hpw : pw (2 ^ 60) = 1 / 2 ^ 30) : ∃ e v : V3, e = ⟨LIGHT_SPEED * 2 ^ 29, 0, 0⟩ ∧
    pushF pw e V3.zero V3.zero = some v ∧ v = ⟨LIGHT_SPEED, 0, 0⟩ ∧ gammaF (sqF (snap v)) = some 1e100 ∧
    √(1 + (2 * e.c0 / LIGHT_SPEED) ^ 2) ≤ 2 ^ 31 := by
  have hc := c_pos
  have s0 : snap V3.zero = V3.zero := by simp [snap, snap1, V3.zero]
  have q0 : sqF V3.zero = 0 := by simp [sqF, V3.zero, fl_zero]
  have g0 : gammaF 0 = some 1 := by simp [gammaF, fl_zero, fl_one']
  have l0 := light_fl 0
  have l29 := light_fl 29
  have l30 := light_fl 30
  have l2 := light_sq_fl 0
  have l60 := light_sq_fl 60
  rw [pow_zero, mul_one] at l0 l2
  refine ⟨_, ⟨LIGHT_SPEED, 0, 0⟩, rfl, ?_, rfl, ?_, ?_⟩
  · unfold pushF
    rw [s0, q0, g0, Option.map_some]
    have a1 : addF (scaledF 1 V3.zero) ⟨LIGHT_SPEED * 2 ^ 29, 0, 0⟩ = ⟨LIGHT_SPEED * 2 ^ 29, 0, 0⟩ := by
      simp only [addF, scaledF, V3.zero, zero_mul, fl_zero, zero_add, l29]
    have a2 : ∀ x, scaledF x V3.zero = V3.zero := fun x => by simp only [scaledF, V3.zero, zero_mul, fl_zero]
    have a3 : rotateF ⟨LIGHT_SPEED * 2 ^ 29, 0, 0⟩ V3.zero = ⟨LIGHT_SPEED * 2 ^ 29, 0, 0⟩ := by
      simp only [rotateF, q0]
      simp only [V3.zero, mul_zero, fl_zero, add_zero, sub_zero, l29]
    have a4 : addF ⟨LIGHT_SPEED * 2 ^ 29, 0, 0⟩ ⟨LIGHT_SPEED * 2 ^ 29, 0, 0⟩ = ⟨LIGHT_SPEED * 2 ^ 30, 0, 0⟩ := by
      have : LIGHT_SPEED * 2 ^ 29 + LIGHT_SPEED * 2 ^ 29 = LIGHT_SPEED * 2 ^ 30 := by ring
      simp only [addF, add_zero, fl_zero, this, l30]
    have a5 : velocityF pw ⟨LIGHT_SPEED * 2 ^ 30, 0, 0⟩ = ⟨LIGHT_SPEED, 0, 0⟩ := by
      have e1 : LIGHT_SPEED * 2 ^ 30 * (LIGHT_SPEED * 2 ^ 30) = LIGHT_SPEED ^ 2 * 2 ^ 60 := by ring
      have e2 : sqF ⟨LIGHT_SPEED * 2 ^ 30, 0, 0⟩ = LIGHT_SPEED ^ 2 * 2 ^ 60 := sqF_axis (by rw [e1, l60]) l60
      have e3 : LIGHT_SPEED ^ 2 * 2 ^ 60 / LIGHT_SPEED ^ 2 = 2 ^ 60 := by field_simp
      have e4 : LIGHT_SPEED * 2 ^ 30 * (1 / 2 ^ 30) = LIGHT_SPEED := by field_simp
      simp only [velocityF, e2, e3, fl_pow, fl_swallow, hpw, e4, zero_mul, fl_zero, l0]
    simp only [a1, a3, a4, a5, a2 (pw _)]
  · have s1 : snap ⟨LIGHT_SPEED, 0, 0⟩ = ⟨LIGHT_SPEED, 0, 0⟩ := by
      have : ¬ |LIGHT_SPEED| < MNZL := by
        rw [c_val, MNZL]
        norm_num
      simp [snap, snap1, this]
    have e2 : sqF ⟨LIGHT_SPEED, 0, 0⟩ = LIGHT_SPEED ^ 2 := sqF_axis (by rw [← sq, l2]) l2
    have e3 : LIGHT_SPEED ^ 2 / LIGHT_SPEED ^ 2 = 1 := by field_simp
    simp only [s1, e2, gammaF, e3, fl_one', lt_irrefl, if_false, sub_self, fl_zero, if_true]
  · have e : 2 * (LIGHT_SPEED * 2 ^ 29) / LIGHT_SPEED = 2 ^ 30 := by
      field_simp
    simp only [e]
    rw [Real.sqrt_le_left (by positivity)]
    norm_num

/-- The hypothesis of `C108_fast_violated` is met by the exact power. -/
example : (fun q : ℝ => 1 / √q) (2 ^ 60) = 1 / 2 ^ 30 := by
  simp only
  rw [show (2 : ℝ) ^ 60 = (2 ^ 30) ^ 2 by norm_num, Real.sqrt_sq (by positivity)]

/-- **C108**, IEEE 754, without electric field: compare `C108_speed_partial`. -/
theorem C108_ieee_speed_partial {pw : ℝ → ℝ} (hpw : PowOk pw) {gr gz : GridR} (hgr : gr.Ok) (hgz : gz.Ok) {dt : ℝ} (hdt : 0 < dt)
    (hcr : LIGHT_SPEED * dt ≤ 3 / 4 * gr.d) (hcz : LIGHT_SPEED * dt ≤ 3 / 4 * gz.d) {b : ℕ → V3} (hb : ∀ n, (b n).sq ≤ 2 ^ 1000)
    {p0 v0 : V3} (hr : StartR gr p0.c0) (hp : p0.c1 = 0) (hz : StartR gz p0.c2) {N : ℕ}
    (hN : ((N : ℝ) + 1) / 2 ^ 33 ≤ 1 - (v0.len / LIGHT_SPEED) ^ 2) {n : ℕ} (hn : n ≤ N) :
    ∃ p v, runF pw gr gz dt (fun _ => V3.zero) b p0 v0 n = some (p, v) ∧ |v.len - v0.len| ≤ n / 2 ^ 41 * LIGHT_SPEED := by
  have hc := c_pos
  have hV0 := len_nonneg v0
  have hN0 : (0 : ℝ) ≤ N := Nat.cast_nonneg N
  have hN1 : 0 < ((N : ℝ) + 1) / 2 ^ 33 := by positivity
  obtain ⟨β, hβ⟩ : ∃ β, β = v0.len / LIGHT_SPEED := ⟨_, rfl⟩
  have hβ0 : 0 ≤ β := by rw [hβ]; positivity
  have hβ1 : β < 1 := by
    rw [← hβ] at hN
    nlinarith
  obtain ⟨q, hq⟩ : ∃ q, q = 1 - β ^ 2 := ⟨_, rfl⟩
  rw [← hβ, ← hq] at hN
  have hq0 : 0 < q := lt_of_lt_of_le hN1 hN
  have hq1 : q ≤ 1 := by rw [hq]; nlinarith
  have hG2 : (1 / √q) ^ 2 = 1 / q := by rw [div_pow, Real.sq_sqrt hq0.le, one_pow]
  obtain ⟨p, v, g, h1, -⟩ := C108_ieee_partial (G := 1 / √q) hpw hgr hgz hdt hcr hcz (e := fun _ => V3.zero) hb hr hp hz
    (by
      rw [le_div_iff₀ (Real.sqrt_pos.2 hq0), one_mul]
      exact Real.sqrt_le_one.2 hq1)
    (N := N)
    (by
      rw [hG2, mul_one_div, div_le_iff₀ hq0]
      rw [div_le_iff₀ (by positivity)] at hN
      norm_num at hN ⊢
      linarith)
    (by rwa [hβ, div_lt_one hc] at hβ1)
    (by
      have z : V3.zero.len = 0 := by simp [V3.len, V3.sq, V3.zero]
      unfold momentumOf
      simp only [z, zero_div, mul_zero, Finset.sum_const_zero, add_zero]
      rw [← hβ, ← hq]
      gcongr)
    hn
  refine ⟨p, v, h1, C108_speed_partial hgr hgz hdt hcr hcz hr hp hz (N := N) ?_ hn (runF_runs hpw hgr hgz hb h1)⟩
  rw [← hβ, ← hq]
  refine le_trans ?_ hN
  gcongr <;> norm_num

theorem wall_facts : wallGrid.Ok ∧ LIGHT_SPEED * (1 / 2 ^ 36) ≤ 3 / 4 * wallGrid.d ∧ StartR wallGrid (1 / 20) := by
  have hd : wallGrid.d = 6405119470038039 / 2 ^ 59 := by rw [wallGrid_d]; norm_num
  have hs : wallGrid.size = 3602879701896397 / 2 ^ 55 := by unfold wallGrid makeGridF; norm_num
  have hc : LIGHT_SPEED * (1 / 2 ^ 36) ≤ 3 / 4 * wallGrid.d := by rw [hd, LIGHT_SPEED]; norm_num
  have hst : StartR wallGrid (1 / 20) := by
    unfold StartR
    rw [hd, hs]
    norm_num
  have hsz : ((10 : ℕ) : ℝ) / 2 ^ 399 ≤ 3602879701896397 * 2 ^ (-55 : ℤ) := by
    have : (1 : ℝ) / 2 ^ 399 ≤ 1 / 2 ^ 100 :=
      one_div_le_one_div_of_le (by positivity) (pow_le_pow_right₀ (by norm_num) (by norm_num))
    rw [div_eq_mul_one_div]
    norm_num at this ⊢
    linarith
  exact ⟨makeGridF_ok (by norm_num) (by norm_num) hsz, hc, hst⟩

/-- The hypotheses of `C108_ieee_partial`, and with them those of `C108_history_partial`, are met: ten million cycles of a
macroparticle with sixty per cent of the speed of light, in fields that would double its momentum. -/
example : ∃ p v g, runF (fun q => 1 / √q) wallGrid wallGrid (1 / 2 ^ 36) (fun _ => ⟨0, 0, 10⟩) (fun _ => ⟨1, 2, 3⟩) ⟨1 / 20, 0, 1 / 20⟩
    ⟨108000000, 144000000, 0⟩ 10000000 = some (p, v) ∧ v.len < LIGHT_SPEED ∧ momentumOf v ≤ 2 * 2 ∧
      gammaF (sqF (snap v)) = some g ∧ |g - lorentzOf v| ≤ 8 * EPS * lorentzOf v ^ 2 * lorentzOf v := by
  obtain ⟨ok, hc, hst⟩ := wall_facts
  have hl : V3.len ⟨108000000, 144000000, 0⟩ = 180000000 := by
    simp only [V3.len, V3.sq]
    rw [show ((108000000 : ℝ) * 108000000 + 144000000 * 144000000 + 0 * 0) = 180000000 ^ 2 by norm_num, Real.sqrt_sq (by norm_num)]
  have he : V3.len ⟨0, 0, 10⟩ = 10 := by
    simp only [V3.len, V3.sq]
    rw [show ((0 : ℝ) * 0 + 0 * 0 + 10 * 10) = 10 ^ 2 by norm_num, Real.sqrt_sq (by norm_num)]
  refine C108_ieee_partial (N := 10000000) powOk_exact ok ok (by norm_num) hc hc (fun _ => ?_) hst rfl hst (by norm_num) (by norm_num) ?_ ?_ le_rfl
  · have : (14 : ℝ) ≤ 2 ^ 1000 := le_trans (by norm_num) (pow_le_pow_right₀ (by norm_num) (by norm_num : 10 ≤ 1000))
    refine le_trans (le_of_eq ?_) this
    unfold V3.sq
    norm_num
  · rw [hl, c_val]
    norm_num
  · unfold momentumOf
    simp only [hl, he, Finset.sum_const, Finset.card_range, nsmul_eq_mul]
    rw [c_val, show (1 : ℝ) - (180000000 / (3 * 10 ^ 8)) ^ 2 = (4 / 5) ^ 2 by norm_num, Real.sqrt_sq (by norm_num)]
    norm_num

/-- Those of `C108_ieee_speed_partial`, and with them those of `C108_speed_partial`, are met by the same macroparticle: after ten
million cycles in a magnetic field that turns it by a large angle in each of them, its speed is the same up to 1400 m/s. -/
example : ∃ p v, runF (fun q => 1 / √q) wallGrid wallGrid (1 / 2 ^ 36) (fun _ => V3.zero) (fun _ => ⟨1, 2, 3⟩) ⟨1 / 20, 0, 1 / 20⟩
    ⟨108000000, 144000000, 0⟩ 10000000 = some (p, v) ∧ |v.len - 180000000| ≤ 1400 := by
  obtain ⟨ok, hc, hst⟩ := wall_facts
  have hl : V3.len ⟨108000000, 144000000, 0⟩ = 180000000 := by
    simp only [V3.len, V3.sq]
    rw [show ((108000000 : ℝ) * 108000000 + 144000000 * 144000000 + 0 * 0) = 180000000 ^ 2 by norm_num, Real.sqrt_sq (by norm_num)]
  obtain ⟨p, v, h1, h2⟩ := C108_ieee_speed_partial (N := 10000000) (b := fun _ => ⟨1, 2, 3⟩) (p0 := ⟨1 / 20, 0, 1 / 20⟩)
    (v0 := ⟨108000000, 144000000, 0⟩) powOk_exact ok ok (by norm_num : (0 : ℝ) < 1 / 2 ^ 36) hc hc (fun _ => by
      have : (14 : ℝ) ≤ 2 ^ 1000 := le_trans (by norm_num) (pow_le_pow_right₀ (by norm_num) (by norm_num : 10 ≤ 1000))
      refine le_trans (le_of_eq ?_) this
      unfold V3.sq
      norm_num) hst rfl hst (by
      rw [hl, c_val]
      norm_num) le_rfl
  refine ⟨p, v, h1, ?_⟩
  rw [hl, c_val] at h2
  refine h2.trans ?_
  norm_num

end Verif
