import Verif.PusherLaw
import Verif.RoundedPushProps
import Verif.Taylor
import Mathlib.Analysis.Calculus.ContDiff.Deriv

/-!
# Convergence of the velocity push to the equation of motion (C112)

C57 says which equation one push solves.  Here the whole motion in given fields is compared with the solution of the differential
equation of Lorentz.
-/

namespace Verif

/-! ## Specification -/

/-- Lorentz factor of a particle with momentum `u` per mass (1 without relativity) -/
noncomputable def lorentzFactor (rel : Bool) (u : V3) : ℝ := if rel then √(1 + speedSq u / LIGHT_SPEED ^ 2) else 1

/-- Velocity of a particle with momentum `u` per mass -/
noncomputable def velocityAt (rel : Bool) (u : V3) : V3 := u.smul (1 / lorentzFactor rel u)

/-- Distance of two vectors -/
noncomputable def gap (u w : V3) : ℝ := (u.add (w.smul (-1))).len

/-- `U t` is the momentum per mass of a particle of charge `q` and mass `m` that moves for the times from `0` to `T` under the force
`q (E + v × B)` of the fields `e t` and `h t` at its place, `B = μ0 H`. Its components have three continuous derivatives. -/
structure LorentzMotion (rel : Bool) (q m T : ℝ) (e h U : ℝ → V3) : Prop where
  smooth : ContDiff ℝ 3 (fun t => (U t).c0) ∧ ContDiff ℝ 3 (fun t => (U t).c1) ∧ ContDiff ℝ 3 (fun t => (U t).c2)
  force : ∀ t, 0 ≤ t → t ≤ T →
    (⟨deriv (fun t => (U t).c0) t, deriv (fun t => (U t).c1) t, deriv (fun t => (U t).c2) t⟩ : V3).smul m =
      ((e t).add ((velocityAt rel (U t)).cross ((h t).smul MAGN_CONST))).smul q

/-- Sizes of a motion for the times from `0` to `T`: `M0` bounds the momentum per mass, `M2` and `M3` the second and third derivatives of
its components. -/
structure MotionSize (T M0 M2 M3 : ℝ) (U : ℝ → V3) : Prop where
  size : ∀ t, 0 ≤ t → t ≤ T → (U t).len ≤ M0
  second : ∀ t, 0 ≤ t → t ≤ T → |deriv (deriv fun t => (U t).c0) t| ≤ M2 ∧ |deriv (deriv fun t => (U t).c1) t| ≤ M2 ∧
    |deriv (deriv fun t => (U t).c2) t| ≤ M2
  third : ∀ t, 0 ≤ t → t ≤ T → |deriv (deriv (deriv fun t => (U t).c0)) t| ≤ M3 ∧ |deriv (deriv (deriv fun t => (U t).c1)) t| ≤ M3 ∧
    |deriv (deriv (deriv fun t => (U t).c2)) t| ≤ M3

/-- Growth of an error per second in a field `B` -/
noncomputable def growthRate (q m B M0 : ℝ) : ℝ := 2 * (|q / m| * (MAGN_CONST * B)) * (1 + M0 / LIGHT_SPEED)

/-- Factor of `dt²` in the error made per second -/
noncomputable def stepError (dt q m B M0 M2 M3 : ℝ) : ℝ :=
  (M3 + 2 * |q / m| * (MAGN_CONST * B) * (3 * M2 + (|q / m| * M0 * (MAGN_CONST * B) + M2 * (dt / 2)) ^ 2 / LIGHT_SPEED)) / 4

namespace PushConverge

open RoundedPush

/-! ## Vectors -/

theorem gap_nonneg (u w : V3) : 0 ≤ gap u w := len_nonneg _

theorem len_cross (a b : V3) : (a.cross b).len ≤ a.len * b.len := by
  rw [← Real.sqrt_sq (mul_nonneg (len_nonneg a) (len_nonneg b)), mul_pow, len_sq, len_sq]
  apply Real.sqrt_le_sqrt
  unfold V3.cross V3.sq
  dsimp only
  nlinarith [sq_nonneg (a.c0 * b.c0 + a.c1 * b.c1 + a.c2 * b.c2)]

theorem len_comp {v : V3} {δ : ℝ} (h0 : |v.c0| ≤ δ) (h1 : |v.c1| ≤ δ) (h2 : |v.c2| ≤ δ) : v.len ≤ 2 * δ := by
  have := len_near (x := V3.zero) (y := v) (δ := δ) (by simpa [V3.zero] using h0) (by simpa [V3.zero] using h1)
    (by simpa [V3.zero] using h2)
  have z : V3.zero.len = 0 := by simp [V3.len, V3.sq, V3.zero]
  rw [z, sub_zero] at this
  exact (le_abs_self _).trans this

theorem dot_le (a b : V3) : |V3.dot a b| ≤ a.len * b.len := by
  rw [← Real.sqrt_sq_eq_abs, ← Real.sqrt_sq (mul_nonneg (len_nonneg a) (len_nonneg b)), mul_pow, len_sq, len_sq]
  apply Real.sqrt_le_sqrt
  have := lagrange a b
  unfold V3.dot at this ⊢
  unfold V3.sq
  nlinarith

theorem speedSq_len (v : V3) : speedSq v = v.len ^ 2 := by rw [len_sq]; unfold speedSq V3.sq; ring

/-! ## The Lorentz factor -/

theorem factor_ge (rel : Bool) (u : V3) : 1 ≤ lorentzFactor rel u := by
  unfold lorentzFactor
  cases rel
  · simp
  · have := c_pos
    simp only [if_true]
    rw [Real.one_le_sqrt, speedSq_len]
    have : 0 ≤ u.len ^ 2 / LIGHT_SPEED ^ 2 := by positivity
    linarith

theorem factor_sq (u : V3) : lorentzFactor true u ^ 2 = 1 + u.len ^ 2 / LIGHT_SPEED ^ 2 := by
  have := c_pos
  unfold lorentzFactor
  rw [if_pos rfl, speedSq_len, Real.sq_sqrt (by positivity)]

theorem len_le_factor (u : V3) : u.len ≤ LIGHT_SPEED * lorentzFactor true u := by
  have c := c_pos
  have g := factor_ge true u
  have h := factor_sq u
  have l := len_nonneg u
  apply le_of_sq_le_sq _ (by positivity)
  rw [mul_pow, h]
  have : LIGHT_SPEED ^ 2 * (1 + u.len ^ 2 / LIGHT_SPEED ^ 2) = LIGHT_SPEED ^ 2 + u.len ^ 2 := by field_simp
  rw [this]
  nlinarith

theorem gap_len (u w : V3) : |u.len - w.len| ≤ gap u w := by
  have h1 : u.len ≤ gap u w + w.len := by
    have := len_add (u.add (w.smul (-1))) w
    have e : (u.add (w.smul (-1))).add w = u := by unfold V3.add V3.smul; ext <;> dsimp only <;> ring
    rw [e] at this
    exact this
  have h2 : w.len ≤ gap u w + u.len := by
    have := len_add ((u.add (w.smul (-1))).smul (-1)) u
    have e : ((u.add (w.smul (-1))).smul (-1)).add u = w := by unfold V3.add V3.smul; ext <;> dsimp only <;> ring
    rw [e, len_smul] at this
    simpa [gap] using this
  rw [abs_le]
  constructor <;> linarith

theorem factor_lip (rel : Bool) (u w : V3) : |lorentzFactor rel u - lorentzFactor rel w| ≤ gap u w / LIGHT_SPEED := by
  have c := c_pos
  cases rel
  · simp only [lorentzFactor]
    simpa using div_nonneg (gap_nonneg u w) c.le
  · have g1 := factor_ge true u
    have g2 := factor_ge true w
    have s1 := factor_sq u
    have s2 := factor_sq w
    have l1 := len_le_factor u
    have l2 := len_le_factor w
    have n1 := len_nonneg u
    have n2 := len_nonneg w
    generalize lorentzFactor true u = a at *
    generalize lorentzFactor true w = b at *
    have e : (a - b) * (a + b) = (u.len - w.len) * (u.len + w.len) / LIGHT_SPEED ^ 2 := by
      have : (u.len - w.len) * (u.len + w.len) / LIGHT_SPEED ^ 2 = u.len ^ 2 / LIGHT_SPEED ^ 2 - w.len ^ 2 / LIGHT_SPEED ^ 2 := by ring
      rw [this]
      linear_combination s1 - s2
    have q : |a - b| * (a + b) ≤ gap u w / LIGHT_SPEED * (a + b) := by
      have : |a - b| * (a + b) = |u.len - w.len| * (u.len + w.len) / LIGHT_SPEED ^ 2 := by
        have := congrArg abs e
        rw [abs_mul, abs_of_nonneg (by linarith : 0 ≤ a + b), abs_div, abs_mul, abs_of_nonneg (by linarith : 0 ≤ u.len + w.len),
          abs_of_nonneg (by positivity : 0 ≤ LIGHT_SPEED ^ 2)] at this
        exact this
      rw [this, div_le_iff₀ (by positivity)]
      have e2 : gap u w / LIGHT_SPEED * (a + b) * LIGHT_SPEED ^ 2 = gap u w * (LIGHT_SPEED * (a + b)) := by field_simp
      rw [e2]
      exact mul_le_mul (gap_len u w) (by linarith) (by linarith) (gap_nonneg u w)
    exact le_of_mul_le_mul_right q (by linarith)

/-- the Lorentz factor changes little when the momentum changes across itself -/
theorem factor_mid (rel : Bool) {w k r : V3} (hk : V3.dot w k = 0) :
    w.len * |1 / lorentzFactor rel ((w.add k).add r) - 1 / lorentzFactor rel w| ≤
      2 * r.len + (k.len + r.len) ^ 2 / LIGHT_SPEED := by
  have c := c_pos
  have n1 := len_nonneg w
  have n2 := len_nonneg k
  have n3 := len_nonneg r
  cases rel
  · have : 1 / lorentzFactor false ((w.add k).add r) - 1 / lorentzFactor false w = 0 := by simp [lorentzFactor]
    rw [this, abs_zero, mul_zero]
    positivity
  · have g1 := factor_ge true ((w.add k).add r)
    have g0 := factor_ge true w
    have s1 := factor_sq ((w.add k).add r)
    have s0 := factor_sq w
    have l0 := len_le_factor w
    generalize lorentzFactor true ((w.add k).add r) = a at *
    generalize lorentzFactor true w = b at *
    obtain ⟨S, hS⟩ : ∃ S, S = (k.add r).len := ⟨_, rfl⟩
    have S0 : 0 ≤ S := by rw [hS]; exact len_nonneg _
    have S1 : S ≤ k.len + r.len := by rw [hS]; exact len_add _ _
    have e1 : ((w.add k).add r).len ^ 2 - w.len ^ 2 = 2 * V3.dot w r + S ^ 2 := by
      rw [hS, len_sq, len_sq, len_sq]
      unfold V3.dot at hk ⊢
      unfold V3.sq V3.add
      dsimp only
      linear_combination 2 * hk
    have e2 : |((w.add k).add r).len ^ 2 - w.len ^ 2| ≤ 2 * (w.len * r.len) + S ^ 2 := by
      rw [e1]
      refine (abs_add_le _ _).trans ?_
      rw [abs_mul, abs_two, abs_of_nonneg (sq_nonneg S)]
      have := dot_le w r
      linarith
    have e3 : |1 / a - 1 / b| * (a * b * (a + b)) * LIGHT_SPEED ^ 2 = |((w.add k).add r).len ^ 2 - w.len ^ 2| := by
      have p : 0 ≤ a * b * (a + b) := by positivity
      have q : 0 ≤ LIGHT_SPEED ^ 2 := by positivity
      rw [← abs_of_nonneg p, ← abs_of_nonneg q, ← abs_mul, ← abs_mul, ← abs_neg]
      congr 1
      have a0 : a ≠ 0 := by linarith
      have b0 : b ≠ 0 := by linarith
      have t1 : (1 / a - 1 / b) * (a * b * (a + b)) = b ^ 2 - a ^ 2 := by field_simp; ring
      rw [t1, s1, s0]
      field_simp
      ring
    obtain ⟨d, hd⟩ : ∃ d, d = |1 / a - 1 / b| := ⟨_, rfl⟩
    have d0 : 0 ≤ d := by rw [hd]; exact abs_nonneg _
    rw [← hd] at e3 ⊢
    have e4 : d * b ^ 2 * LIGHT_SPEED ^ 2 ≤ 2 * (w.len * r.len) + S ^ 2 := by
      refine le_trans ?_ (e3.le.trans e2)
      have : b ^ 2 ≤ a * b * (a + b) := by nlinarith [mul_nonneg (by linarith : (0:ℝ) ≤ a - 1) (by linarith : (0:ℝ) ≤ b)]
      exact mul_le_mul_of_nonneg_right (mul_le_mul_of_nonneg_left this d0) (by positivity)
    -- multiply by |w| and divide
    have e5 : w.len * d * (b ^ 2 * LIGHT_SPEED ^ 2) ≤ (2 * r.len + (k.len + r.len) ^ 2 / LIGHT_SPEED) * (b ^ 2 * LIGHT_SPEED ^ 2) := by
      have f1 := mul_le_mul_of_nonneg_left e4 n1
      have f2 : w.len * (2 * (w.len * r.len)) ≤ 2 * r.len * (b ^ 2 * LIGHT_SPEED ^ 2) := by
        have := pow_le_pow_left₀ n1 l0 2
        have := mul_le_mul_of_nonneg_left this n3
        nlinarith
      have f3 : w.len * S ^ 2 ≤ (k.len + r.len) ^ 2 / LIGHT_SPEED * (b ^ 2 * LIGHT_SPEED ^ 2) := by
        have t : (k.len + r.len) ^ 2 / LIGHT_SPEED * (b ^ 2 * LIGHT_SPEED ^ 2) = (LIGHT_SPEED * b) * (k.len + r.len) ^ 2 * b := by field_simp
        rw [t]
        have u1 := mul_le_mul l0 (pow_le_pow_left₀ S0 S1 2) (sq_nonneg _) (by positivity)
        have u2 : 0 ≤ LIGHT_SPEED * b * (k.len + r.len) ^ 2 := by positivity
        nlinarith
      nlinarith
    exact le_of_mul_le_mul_right e5 (by positivity)

/-- the velocity depends on the momentum without amplification -/
theorem velocity_lip (rel : Bool) (u w : V3) : gap (velocityAt rel u) (velocityAt rel w) ≤ 2 * gap u w := by
  have c := c_pos
  have g1 := factor_ge rel u
  have g2 := factor_ge rel w
  have lip := factor_lip rel u w
  have d0 := gap_nonneg u w
  obtain ⟨a, ha⟩ : ∃ a, a = lorentzFactor rel u := ⟨_, rfl⟩
  obtain ⟨b, hb⟩ : ∃ b, b = lorentzFactor rel w := ⟨_, rfl⟩
  have e : (velocityAt rel u).add ((velocityAt rel w).smul (-1)) =
      ((u.add (w.smul (-1))).smul (1 / a)).add (w.smul (1 / a - 1 / b)) := by
    unfold velocityAt
    rw [← ha, ← hb]
    unfold V3.add V3.smul
    ext <;> dsimp only <;> ring
  rw [gap, e]
  refine (len_add _ _).trans ?_
  rw [len_smul, len_smul]
  rw [← ha] at g1 lip
  rw [← hb] at g2 lip
  have t1 : |1 / a| * (u.add (w.smul (-1))).len ≤ gap u w := by
    rw [abs_of_nonneg (by positivity)]
    have : 1 / a ≤ 1 := by rw [div_le_one (by linarith)]; exact g1
    have := mul_le_mul_of_nonneg_right this d0
    rw [one_mul] at this
    exact this
  have t2 : |1 / a - 1 / b| * w.len ≤ gap u w := by
    cases rel
    · have : a = 1 ∧ b = 1 := by rw [ha, hb]; simp [lorentzFactor]
      rw [this.1, this.2]
      simpa using d0
    · have l := len_le_factor w
      rw [← hb] at l
      have a0 : a ≠ 0 := by linarith
      have b0 : b ≠ 0 := by linarith
      have e2 : 1 / a - 1 / b = (b - a) / (a * b) := by field_simp
      rw [e2, abs_div, abs_of_nonneg (by positivity : 0 ≤ a * b), abs_sub_comm, div_mul_eq_mul_div, div_le_iff₀ (by positivity)]
      have m := mul_le_mul lip l (len_nonneg w) (by positivity)
      have e3 : gap u w / LIGHT_SPEED * (LIGHT_SPEED * b) = gap u w * b := by field_simp
      rw [e3] at m
      refine m.trans ?_
      have := mul_nonneg d0 (by linarith : 0 ≤ b)
      nlinarith
  linarith

/-! ## Stability of one push -/

theorem push_stab {α β L M : ℝ} {e b u u' p p' τ : V3} {g g' : ℝ} (hg : 1 ≤ g) (hg' : 1 ≤ g')
    (hu : u' = u.add ((e.add (((u.add u').smul (1 / (2 * g))).cross b)).smul α))
    (hp : p' = (p.add ((e.add (((p.add p').smul (1 / (2 * g'))).cross b)).smul α)).add τ)
    (hL : |g - g'| ≤ L * gap u p) (hM : (p.add p').len ≤ 2 * M) (hβ : |α| * b.len ≤ β) (hβ1 : β ≤ 1) (hL0 : 0 ≤ L) (hM0 : 0 ≤ M) :
    gap u' p' ≤ (1 + 2 * β * (1 + M * L)) * gap u p + 2 * τ.len := by
  have d0 := gap_nonneg u p
  have d1 := gap_nonneg u' p'
  have t0 := len_nonneg τ
  have β0 : 0 ≤ β := (mul_nonneg (abs_nonneg α) (len_nonneg b)).trans hβ
  obtain ⟨X, hX⟩ : ∃ X : V3, X = (((u.add (p.smul (-1))).add (u'.add (p'.smul (-1)))).smul (1 / (2 * g))).add
    ((p.add p').smul (1 / (2 * g) - 1 / (2 * g'))) := ⟨_, rfl⟩
  have e1 : u'.add (p'.smul (-1)) = ((u.add (p.smul (-1))).add ((X.cross b).smul α)).add (τ.smul (-1)) := by
    rw [hX]
    have a0 := congrArg V3.c0 hu
    have a1 := congrArg V3.c1 hu
    have a2 := congrArg V3.c2 hu
    have b0 := congrArg V3.c0 hp
    have b1 := congrArg V3.c1 hp
    have b2 := congrArg V3.c2 hp
    simp only [V3.add, V3.smul, V3.cross] at a0 a1 a2 b0 b1 b2 ⊢
    ext <;> dsimp only
    · linear_combination a0 - b0
    · linear_combination a1 - b1
    · linear_combination a2 - b2
  have x1 : X.len ≤ (gap u p + gap u' p') / 2 + M * L * gap u p := by
    rw [hX]
    refine (len_add _ _).trans ?_
    rw [len_smul, len_smul]
    have y1 : |1 / (2 * g)| ≤ 1 / 2 := by
      rw [abs_of_nonneg (by positivity)]
      exact one_div_le_one_div_of_le (by norm_num) (by linarith)
    have y2 : |1 / (2 * g) - 1 / (2 * g')| ≤ L * gap u p / 2 := by
      have g0 : g ≠ 0 := by linarith
      have g0' : g' ≠ 0 := by linarith
      have e2 : 1 / (2 * g) - 1 / (2 * g') = (g' - g) / (2 * (g * g')) := by field_simp
      rw [e2, abs_div, abs_of_nonneg (by positivity : 0 ≤ 2 * (g * g')), abs_sub_comm, div_le_iff₀ (by positivity)]
      refine hL.trans ?_
      have : 0 ≤ L * gap u p := by positivity
      have : 1 ≤ g * g' := by nlinarith
      nlinarith
    have z1 := mul_le_mul y1 (len_add (u.add (p.smul (-1))) (u'.add (p'.smul (-1)))) (len_nonneg _) (by norm_num)
    have z2 := mul_le_mul y2 hM (len_nonneg _) (by positivity)
    have e3 : (u.add (p.smul (-1))).len = gap u p := rfl
    have e4 : (u'.add (p'.smul (-1))).len = gap u' p' := rfl
    rw [e3, e4] at z1
    linarith
  have x2 : gap u' p' ≤ gap u p + β * ((gap u p + gap u' p') / 2 + M * L * gap u p) + τ.len := by
    have f1 : gap u' p' ≤ gap u p + |α| * (X.len * b.len) + τ.len := by
      unfold gap
      rw [e1]
      refine (len_add _ _).trans ?_
      refine (add_le_add (len_add _ _) le_rfl).trans ?_
      rw [len_smul, len_smul]
      have := mul_le_mul_of_nonneg_left (len_cross X b) (abs_nonneg α)
      simp only [abs_neg, abs_one, one_mul]
      linarith
    have f2 := mul_le_mul hβ x1 (len_nonneg X) β0
    nlinarith
  have p0 : 0 ≤ M * L := by positivity
  have q0 : 0 ≤ β * gap u p := by positivity
  have q1 : 0 ≤ β * (M * L * gap u p) := by positivity
  generalize gap u p = a at *
  generalize gap u' p' = d at *
  generalize M * L = y at *
  have k : d * (1 - β / 2) ≤ a * (1 + β / 2 + β * y) + τ.len := by nlinarith
  have k2 : (a * (1 + β / 2 + β * y) + τ.len) ≤ ((1 + 2 * β * (1 + y)) * a + 2 * τ.len) * (1 - β / 2) := by
    have h1 : 0 ≤ τ.len * (1 - β) := mul_nonneg t0 (by linarith)
    have h2 : 0 ≤ a * (β * (1 + y) * (1 - β)) := by
      have : 0 ≤ 1 - β := by linarith
      positivity
    nlinarith
  exact le_of_mul_le_mul_right (k.trans k2) (by linarith)

/-! ## Smooth motions -/

theorem dirD_fst {f : ℝ → ℝ} (hf : Differentiable ℝ f) :
    dirD (fun p : E3 => f p.1) (1, 0, 0) = fun p => deriv f p.1 := by
  funext p
  unfold dirD
  have h1 : HasFDerivAt (fun p : E3 => p.1) (ContinuousLinearMap.fst ℝ ℝ (ℝ × ℝ)) p := hasFDerivAt_fst
  have h2 := (hf p.1).hasDerivAt.comp_hasFDerivAt p h1
  have h3 : fderiv ℝ (fun p : E3 => f p.1) p = deriv f p.1 • ContinuousLinearMap.fst ℝ ℝ (ℝ × ℝ) := h2.fderiv
  rw [h3]
  simp

theorem smooth_deriv {f : ℝ → ℝ} (hf : ContDiff ℝ 3 f) : ContDiff ℝ 2 (deriv f) ∧ ContDiff ℝ 1 (deriv (deriv f)) ∧
    Continuous (deriv (deriv (deriv f))) := by
  have c1 : ContDiff ℝ 2 (deriv f) := by
    have := (contDiff_succ_iff_deriv (n := 2) (f := f)).1 (by exact_mod_cast hf)
    exact this.2.2
  have c2 : ContDiff ℝ 1 (deriv (deriv f)) := by
    have := (contDiff_succ_iff_deriv (n := 1) (f := deriv f)).1 (by exact_mod_cast c1)
    exact this.2.2
  exact ⟨c1, c2, c2.continuous_deriv le_rfl⟩

theorem taylor1 {f : ℝ → ℝ} (hf : ContDiff ℝ 3 f) {T M2 M3 : ℝ} (b2 : ∀ t, 0 ≤ t → t ≤ T → |deriv (deriv f) t| ≤ M2)
    (b3 : ∀ t, 0 ≤ t → t ≤ T → |deriv (deriv (deriv f)) t| ≤ M3) :
    ∀ t s, 0 ≤ s → 0 ≤ t - s → t + s ≤ T → |f (t + s) - f (t - s) - 2 * s * deriv f t| ≤ M3 / 3 * s ^ 3 ∧
      |(f (t + s) + f (t - s)) / 2 - f t| ≤ M2 / 2 * s ^ 2 ∧ |f (t - s) - f t + s * deriv f t| ≤ M2 / 2 * s ^ 2 := by
  obtain ⟨c1, c2, c3⟩ := smooth_deriv hf
  have d0 := hf.differentiable (by norm_num)
  have d1 := c1.differentiable (by norm_num)
  have d2 := c2.differentiable (by norm_num)
  have D1 := dirD_fst d0
  have D2 : dirD (dirD (fun p : E3 => f p.1) (1, 0, 0)) (1, 0, 0) = fun p => deriv (deriv f) p.1 := by rw [D1, dirD_fst d1]
  have D3 : dirD (dirD (dirD (fun p : E3 => f p.1) (1, 0, 0)) (1, 0, 0)) (1, 0, 0) = fun p => deriv (deriv (deriv f)) p.1 := by
    rw [D2, dirD_fst d2]
  have hf' : ContDiff ℝ (3 : ℕ) (fun p : E3 => f p.1) := by exact_mod_cast hf.comp contDiff_fst
  have hf2 : ContDiff ℝ (2 : ℕ) (fun p : E3 => f p.1) := hf'.of_le (by norm_cast)
  refine fun t s hs h1 h2 => ⟨?_, ?_, ?_⟩
  · have := central (u := fun p : E3 => f p.1) (M := M3) hf' (t, 0, 0) (1, 0, 0) hs (by
      intro x hx
      rw [D3]
      have := abs_le.1 hx
      simpa using b3 (t + x) (by linarith) (by linarith))
    rw [D1] at this
    simpa only [Prod.smul_mk, smul_eq_mul, mul_one, mul_zero, Prod.mk_add_mk, Prod.mk_sub_mk] using this
  · have := average (u := fun p : E3 => f p.1) (M := M2) hf2 (t, 0, 0) (1, 0, 0) hs (by
      intro x hx
      rw [D2]
      have := abs_le.1 hx
      simpa using b2 (t + x) (by linarith) (by linarith))
    simp only [Prod.smul_mk, smul_eq_mul, mul_one, mul_zero, Prod.mk_add_mk, Prod.mk_sub_mk] at this
    have e : (f (t + s) + f (t - s)) / 2 - f t = (f (t + s) + f (t - s) - 2 * f t) / 2 := by ring
    rw [e, abs_div, abs_two]
    linarith
  · have inner : ∀ x : ℝ, HasDerivAt (fun x => t - x) (-1) x := fun x => by simpa using (hasDerivAt_id x).const_sub t
    have g1 : ∀ x, 0 ≤ x → x ≤ s → |deriv f t - deriv f (t - x)| ≤ M2 * x := by
      have := grow (f := fun x => deriv f t - deriv f (t - x)) (f' := fun x => deriv (deriv f) (t - x)) (C := M2) (h := s) 0
        (fun x => by
          have := ((d1 (t - x)).hasDerivAt.comp x (inner x)).const_sub (deriv f t)
          refine this.congr_deriv ?_
          ring) (by simp) (fun x hx hx' => by
          rw [pow_zero, mul_one]
          exact b2 (t - x) (by linarith) (by linarith))
      simpa using this
    have := grow (f := fun x => f (t - x) - f t + x * deriv f t) (f' := fun x => deriv f t - deriv f (t - x)) (C := M2) (h := s) 1
      (fun x => by
        have := (((d0 (t - x)).hasDerivAt.comp x (inner x)).sub_const (f t)).add ((hasDerivAt_id x).mul_const (deriv f t))
        refine this.congr_deriv ?_
        ring) (by simp) (fun x hx hx' => by simpa using g1 x hx hx')
    have := this s hs le_rfl
    norm_num at this
    exact this

/-- derivative of a motion -/
noncomputable def rate (U : ℝ → V3) (t : ℝ) : V3 :=
  ⟨deriv (fun t => (U t).c0) t, deriv (fun t => (U t).c1) t, deriv (fun t => (U t).c2) t⟩

theorem taylor3 {U : ℝ → V3} (h0 : ContDiff ℝ 3 (fun t => (U t).c0)) (h1 : ContDiff ℝ 3 (fun t => (U t).c1))
    (h2 : ContDiff ℝ 3 (fun t => (U t).c2)) {T M0 M2 M3 : ℝ} (hS : MotionSize T M0 M2 M3 U) :
    ∀ t s, 0 ≤ s → 0 ≤ t - s → t + s ≤ T →
      (((U (t + s)).add ((U (t - s)).smul (-1))).add ((rate U t).smul (-(2 * s)))).len ≤ M3 * s ^ 3 ∧
      ((((U (t + s)).add (U (t - s))).smul (1 / 2)).add ((U t).smul (-1))).len ≤ M2 * s ^ 2 ∧
      (((U (t - s)).add ((U t).smul (-1))).add ((rate U t).smul s)).len ≤ M2 * s ^ 2 := by
  have b0 := taylor1 h0 (fun t a b => (hS.second t a b).1) (fun t a b => (hS.third t a b).1)
  have b1 := taylor1 h1 (fun t a b => (hS.second t a b).2.1) (fun t a b => (hS.third t a b).2.1)
  have b2 := taylor1 h2 (fun t a b => (hS.second t a b).2.2) (fun t a b => (hS.third t a b).2.2)
  intro t s hs ht ht'
  have t0 : 0 ≤ t := by linarith
  have tT : t ≤ T := by linarith
  have p2 : 0 ≤ M2 := (abs_nonneg _).trans (hS.second t t0 tT).1
  have p3 : 0 ≤ M3 := (abs_nonneg _).trans (hS.third t t0 tT).1
  obtain ⟨x0, y0, z0⟩ := b0 t s hs ht ht'
  obtain ⟨x1, y1, z1⟩ := b1 t s hs ht ht'
  obtain ⟨x2, y2, z2⟩ := b2 t s hs ht ht'
  have e1 : ∀ x y z : ℝ, x + y * -1 + z * -(2 * s) = x - y - 2 * s * z := fun _ _ _ => by ring
  have e2 : ∀ x y z : ℝ, (x + y) * (1 / 2) + z * -1 = (x + y) / 2 - z := fun _ _ _ => by ring
  have e3 : ∀ x y z : ℝ, x + y * -1 + z * s = x - y + s * z := fun _ _ _ => by ring
  refine ⟨?_, ?_, ?_⟩
  · refine (len_comp (δ := M3 / 3 * s ^ 3) ?_ ?_ ?_).trans ?_
    · simpa only [V3.add, V3.smul, rate, e1] using x0
    · simpa only [V3.add, V3.smul, rate, e1] using x1
    · simpa only [V3.add, V3.smul, rate, e1] using x2
    · have : 0 ≤ M3 * s ^ 3 := by positivity
      linarith
  · refine (len_comp (δ := M2 / 2 * s ^ 2) ?_ ?_ ?_).trans (le_of_eq (by ring))
    · simpa only [V3.add, V3.smul, rate, e2] using y0
    · simpa only [V3.add, V3.smul, rate, e2] using y1
    · simpa only [V3.add, V3.smul, rate, e2] using y2
  · refine (len_comp (δ := M2 / 2 * s ^ 2) ?_ ?_ ?_).trans (le_of_eq (by ring))
    · simpa only [V3.add, V3.smul, rate, e3] using z0
    · simpa only [V3.add, V3.smul, rate, e3] using z1
    · simpa only [V3.add, V3.smul, rate, e3] using z2

/-- a smooth motion has sizes -/
theorem motion_size {U : ℝ → V3} (h0 : ContDiff ℝ 3 (fun t => (U t).c0)) (h1 : ContDiff ℝ 3 (fun t => (U t).c1))
    (h2 : ContDiff ℝ 3 (fun t => (U t).c2)) (T : ℝ) : ∃ M, 0 ≤ M ∧ MotionSize T M M M U := by
  have bd : ∀ g : ℝ → ℝ, Continuous g → ∃ M, 0 ≤ M ∧ ∀ t, 0 ≤ t → t ≤ T → |g t| ≤ M := by
    intro g hg
    obtain ⟨M, hM⟩ := (isCompact_Icc (a := (0 : ℝ)) (b := T)).exists_bound_of_continuousOn hg.continuousOn
    exact ⟨max M 0, le_max_right _ _, fun t h1 h2 => (hM t ⟨h1, h2⟩).trans (le_max_left _ _)⟩
  have all : ∀ f : ℝ → ℝ, ContDiff ℝ 3 f → ∃ M, 0 ≤ M ∧ ∀ t, 0 ≤ t → t ≤ T → |f t| ≤ M ∧ |deriv (deriv f) t| ≤ M ∧
      |deriv (deriv (deriv f)) t| ≤ M := by
    intro f hf
    obtain ⟨c1, c2, c3⟩ := smooth_deriv hf
    obtain ⟨M0, p0, b0⟩ := bd f hf.continuous
    obtain ⟨M2, p2, b2⟩ := bd _ c2.continuous
    obtain ⟨M3, p3, b3⟩ := bd _ c3
    exact ⟨M0 + M2 + M3, by positivity, fun t a b => ⟨(b0 t a b).trans (by linarith), (b2 t a b).trans (by linarith),
      (b3 t a b).trans (by linarith)⟩⟩
  obtain ⟨A, pA, bA⟩ := all _ h0
  obtain ⟨B, pB, bB⟩ := all _ h1
  obtain ⟨C, pC, bC⟩ := all _ h2
  refine ⟨2 * (A + B + C), by positivity, ?_, ?_, ?_⟩
  · intro t a b
    exact len_comp ((bA t a b).1.trans (by linarith)) ((bB t a b).1.trans (by linarith)) ((bC t a b).1.trans (by linarith))
  · intro t a b
    exact ⟨(bA t a b).2.1.trans (by linarith), (bB t a b).2.1.trans (by linarith), (bC t a b).2.1.trans (by linarith)⟩
  · intro t a b
    exact ⟨(bA t a b).2.2.trans (by linarith), (bB t a b).2.2.trans (by linarith), (bC t a b).2.2.trans (by linarith)⟩

/-! ## The true motion in the equation of the push -/

/-- what is missing when the true motion is put into the equation of one push -/
theorem residual (rel : Bool) {κ s M0 M2 M3 B : ℝ} {e b p p' w D : V3} (hs : 0 ≤ s) (hM0 : 0 ≤ M0) (hM2 : 0 ≤ M2)
    (hD : D = (e.add ((velocityAt rel w).cross b)).smul κ) (hb : b.len ≤ B) (hw : w.len ≤ M0)
    (h1 : ((p'.add (p.smul (-1))).add (D.smul (-(2 * s)))).len ≤ M3 * s ^ 3)
    (h2 : (((p'.add p).smul (1 / 2)).add (w.smul (-1))).len ≤ M2 * s ^ 2)
    (h3 : ((p.add (w.smul (-1))).add (D.smul s)).len ≤ M2 * s ^ 2) :
    ∃ τ : V3, p' = (p.add ((e.add (((p.add p').smul (1 / (2 * lorentzFactor rel (p.add (e.smul (s * κ)))))).cross b)).smul (2 * s * κ))).add τ ∧
      τ.len ≤ s ^ 3 * (M3 + 2 * |κ| * B * (3 * M2 + (|κ| * M0 * B + M2 * s) ^ 2 / LIGHT_SPEED)) := by
  have c := c_pos
  have B0 : 0 ≤ B := (len_nonneg b).trans hb
  obtain ⟨r1, hr1⟩ : ∃ r1, r1 = (p'.add (p.smul (-1))).add (D.smul (-(2 * s))) := ⟨_, rfl⟩
  obtain ⟨r2, hr2⟩ : ∃ r2, r2 = ((p'.add p).smul (1 / 2)).add (w.smul (-1)) := ⟨_, rfl⟩
  rw [← hr1] at h1
  rw [← hr2] at h2
  obtain ⟨r, hr⟩ : ∃ r, r = (p.add (w.smul (-1))).add (D.smul s) := ⟨_, rfl⟩
  rw [← hr] at h3
  obtain ⟨k, hk⟩ : ∃ k, k = ((velocityAt rel w).cross b).smul (-(s * κ)) := ⟨_, rfl⟩
  have em : p.add (e.smul (s * κ)) = (w.add k).add r := by
    rw [hr, hk, hD]
    simp only [V3.add, V3.smul]
    ext <;> dsimp only <;> ring
  have hvel : (velocityAt rel w).len ≤ M0 := by
    have g := factor_ge rel w
    unfold velocityAt
    rw [len_smul, abs_of_nonneg (by positivity)]
    have : 1 / lorentzFactor rel w ≤ 1 := by rw [div_le_one (by linarith)]; exact g
    have := len_nonneg w
    nlinarith
  have hk' : k.len ≤ s * (|κ| * M0 * B) := by
    rw [hk, len_smul, abs_neg, abs_mul, abs_of_nonneg hs]
    have := (len_cross (velocityAt rel w) b).trans (mul_le_mul hvel hb (len_nonneg b) hM0)
    have := mul_le_mul_of_nonneg_left this (by positivity : 0 ≤ s * |κ|)
    linarith
  have hdot : V3.dot w k = 0 := by
    rw [hk]
    simp only [V3.dot, V3.smul, V3.cross, velocityAt]
    ring
  have mid := factor_mid rel (w := w) (k := k) (r := r) hdot
  rw [← em] at mid
  have g1 := factor_ge rel (p.add (e.smul (s * κ)))
  generalize lorentzFactor rel (p.add (e.smul (s * κ))) = g at *
  obtain ⟨X, hX⟩ : ∃ X, X = (r2.smul (1 / g)).add (w.smul (1 / g - 1 / lorentzFactor rel w)) := ⟨_, rfl⟩
  have hX' : X.len ≤ s ^ 2 * (3 * M2 + (|κ| * M0 * B + M2 * s) ^ 2 / LIGHT_SPEED) := by
    rw [hX]
    refine (len_add _ _).trans ?_
    rw [len_smul, len_smul, abs_of_nonneg (by positivity : 0 ≤ 1 / g)]
    have t1 : 1 / g * r2.len ≤ M2 * s ^ 2 := by
      have : 1 / g ≤ 1 := by rw [div_le_one (by linarith)]; exact g1
      have := len_nonneg r2
      nlinarith
    have t2 : (k.len + r.len) ^ 2 / LIGHT_SPEED ≤ s ^ 2 * ((|κ| * M0 * B + M2 * s) ^ 2 / LIGHT_SPEED) := by
      rw [← mul_div_assoc]
      apply div_le_div_of_nonneg_right _ c.le
      rw [← mul_pow]
      apply pow_le_pow_left₀ (add_nonneg (len_nonneg k) (len_nonneg r))
      linarith
    rw [mul_comm (w.len)] at mid
    linarith
  refine ⟨r1.add ((X.cross b).smul (-(2 * s * κ))), ?_, ?_⟩
  · rw [hX, hr1, hr2, hD]
    simp only [V3.add, V3.smul, V3.cross, velocityAt]
    have g0 : g ≠ 0 := by linarith
    have e2 : 1 / (2 * g) = 1 / 2 * (1 / g) := by field_simp
    rw [e2]
    ext <;> dsimp only <;> ring
  · refine (len_add _ _).trans ?_
    rw [len_smul, abs_neg]
    have a1 : |2 * s * κ| = 2 * s * |κ| := by rw [abs_mul, abs_of_nonneg (by positivity : 0 ≤ 2 * s)]
    rw [a1]
    have a2 := (len_cross X b).trans (mul_le_mul hX' hb (len_nonneg b) (by positivity))
    have a3 := mul_le_mul_of_nonneg_left a2 (by positivity : 0 ≤ 2 * s * |κ|)
    refine (add_le_add h1 a3).trans (le_of_eq ?_)
    ring

/-- Grönwall -/
theorem gronwall {d : ℕ → ℝ} {K ε : ℝ} {N : ℕ} (hK : 0 ≤ K) (hε : 0 ≤ ε) (h : ∀ n < N, d (n + 1) ≤ (1 + K) * d n + ε) :
    d N ≤ (1 + K) ^ N * (d 0 + N * ε) := by
  induction N with
  | zero => simp
  | succ N ih =>
    have := ih (fun n hn => h n (by omega))
    refine (h N (by omega)).trans ?_
    have p1 : (1 : ℝ) ≤ (1 + K) ^ (N + 1) := one_le_pow₀ (by linarith)
    have := mul_le_mul_of_nonneg_left this (by linarith : 0 ≤ 1 + K)
    push_cast
    rw [pow_succ] at *
    nlinarith

theorem factor_momentum {v : V3} (hv : speedSq v < LIGHT_SPEED ^ 2) :
    lorentzFactor true (momentum true v) = 1 / √(1 - speedSq v / LIGHT_SPEED ^ 2) := by
  have c := c_pos
  unfold lorentzFactor momentum
  rw [if_pos rfl, if_pos rfl]
  have p : 0 < 1 - speedSq v / LIGHT_SPEED ^ 2 := by rw [sub_pos, div_lt_one (by positivity)]; exact hv
  have sq : √(1 - speedSq v / LIGHT_SPEED ^ 2) ^ 2 = 1 - speedSq v / LIGHT_SPEED ^ 2 := Real.sq_sqrt p.le
  have sp : 0 < √(1 - speedSq v / LIGHT_SPEED ^ 2) := Real.sqrt_pos.2 p
  generalize √(1 - speedSq v / LIGHT_SPEED ^ 2) = a at *
  have e1 : speedSq (v.smul (1 / a)) = speedSq v / a ^ 2 := by unfold speedSq V3.smul; dsimp only; field_simp
  have e2 : 1 + speedSq v / a ^ 2 / LIGHT_SPEED ^ 2 = (1 / a) ^ 2 := by
    have : speedSq v / a ^ 2 / LIGHT_SPEED ^ 2 = (speedSq v / LIGHT_SPEED ^ 2) / a ^ 2 := by ring
    rw [this]
    have : speedSq v / LIGHT_SPEED ^ 2 = 1 - a ^ 2 := by linarith
    rw [this]
    field_simp
    ring
  rw [e1, e2, Real.sqrt_sq (by positivity)]

theorem momentum_eq (rel : Bool) {v : V3} (hv : rel = true → speedSq v < LIGHT_SPEED ^ 2) :
    momentum rel v = v.smul (lorentzFactor rel (momentum rel v)) := by
  cases rel
  · simp [momentum, lorentzFactor, V3.smul]
  · rw [factor_momentum (hv rfl)]
    simp [momentum]

theorem velocity_momentum (rel : Bool) {v : V3} (hv : rel = true → speedSq v < LIGHT_SPEED ^ 2) :
    velocityAt rel (momentum rel v) = v := by
  have g := factor_ge rel (momentum rel v)
  have e := momentum_eq rel hv
  unfold velocityAt
  generalize lorentzFactor rel (momentum rel v) = x at *
  rw [e]
  have : x ≠ 0 := by linarith
  unfold V3.smul
  ext <;> dsimp only <;> field_simp

/-! ## The threshold -/

theorem snap_above (v : V3) : AboveThreshold (snap v) := by
  have k : ∀ x : ℝ, snap1 x = 0 ∨ MNZL ≤ |snap1 x| := by
    intro x
    unfold snap1
    split_ifs with h
    · exact Or.inl rfl
    · exact Or.inr (not_lt.1 h)
  exact ⟨k _, k _, k _⟩

theorem push_snap (mode : PusherMode) (g : Bool) (dt q m : ℝ) (e h v : V3) :
    push mode g dt q m e h v = push mode g dt q m e h (snap v) := by
  have i := snap_eq (snap_above v)
  have b : ∀ r, borisCore r dt q m e h v = borisCore r dt q m e h (snap v) := by
    intro r
    simp only [borisCore, i]
  cases mode with
  | vay => simp only [push, vayCore, i]
  | borisClassic => exact b _
  | borisRelativistic => exact b _
  | borisAdaptive =>
    have u : useRel g v = useRel g (snap v) := by unfold useRel; rw [i]
    simp only [push]
    rw [u]
    exact b _

theorem relativistic_snap (mode : PusherMode) (g : Bool) (v : V3) : isRelativistic mode g (snap v) = isRelativistic mode g v := by
  have := snap_eq (snap_above v)
  cases mode <;> simp only [isRelativistic, useRel, this]

theorem speed_snap (v : V3) : speedSq (snap v) ≤ speedSq v := by
  rw [speedSq_eq, speedSq_eq]; exact snap_le v

theorem mnzl_pos : 0 < MNZL := by unfold MNZL; norm_num

theorem gap_snap (v : V3) : gap (snap v) v ≤ 2 * MNZL := by
  have k : ∀ x : ℝ, |snap1 x + x * -1| ≤ MNZL := by
    intro x
    unfold snap1
    split_ifs with h
    · rw [zero_add, mul_neg_one, abs_neg]; exact h.le
    · simpa using mnzl_pos.le
  exact len_comp (k _) (k _) (k _)

theorem momentum_snap_len (rel : Bool) {v : V3} (hv : rel = true → speedSq v < LIGHT_SPEED ^ 2) :
    (momentum rel (snap v)).len ≤ (momentum rel v).len := by
  have c := c_pos
  have s := speed_snap v
  have l : (snap v).len ≤ v.len := by
    rw [speedSq_len, speedSq_len] at s
    exact le_of_sq_le_sq s (len_nonneg v)
  cases rel
  · simpa [momentum] using l
  · have h := hv rfl
    unfold momentum
    rw [if_pos rfl, if_pos rfl, len_smul, len_smul]
    have p : 0 < 1 - speedSq v / LIGHT_SPEED ^ 2 := by rw [sub_pos, div_lt_one (by positivity)]; exact h
    have q : 1 - speedSq v / LIGHT_SPEED ^ 2 ≤ 1 - speedSq (snap v) / LIGHT_SPEED ^ 2 := by
      have := div_le_div_of_nonneg_right s (by positivity : 0 ≤ LIGHT_SPEED ^ 2)
      linarith
    have sp : 0 < √(1 - speedSq v / LIGHT_SPEED ^ 2) := Real.sqrt_pos.2 p
    have sq := Real.sqrt_le_sqrt q
    rw [abs_of_nonneg (by positivity), abs_of_nonneg (by positivity)]
    exact mul_le_mul (one_div_le_one_div_of_le sp sq) l (len_nonneg _) (by positivity)

theorem gap_comm (u w : V3) : gap u w = gap w u := by
  have e : w.add (u.smul (-1)) = (u.add (w.smul (-1))).smul (-1) := by
    unfold V3.add V3.smul; ext <;> dsimp only <;> ring
  unfold gap
  rw [e, len_smul]
  simp

theorem gap_triangle (u v w : V3) : gap u w ≤ gap u v + gap v w := by
  have e : u.add (w.smul (-1)) = (u.add (v.smul (-1))).add (v.add (w.smul (-1))) := by
    unfold V3.add V3.smul; ext <;> dsimp only <;> ring
  unfold gap
  rw [e]
  exact len_add _ _

/-- what the threshold does to the momentum -/
theorem momentum_snap_gap (rel : Bool) {v : V3} (hv : rel = true → speedSq v < LIGHT_SPEED ^ 2) :
    gap (momentum rel (snap v)) (momentum rel v) ≤ 4 * lorentzFactor rel (momentum rel v) ^ 3 * MNZL := by
  have c := c_pos
  have g := factor_ge rel (momentum rel v)
  have z := gap_snap v
  have mp := mnzl_pos
  cases rel
  · have e : lorentzFactor false (momentum false v) = 1 := by simp [lorentzFactor]
    rw [e]
    simp only [momentum, Bool.false_eq_true, if_false]
    linarith
  · have h := hv rfl
    have h' : speedSq (snap v) < LIGHT_SPEED ^ 2 := (speed_snap v).trans_lt h
    have eu := momentum_eq true hv
    have ew := momentum_eq true (fun _ => h')
    have lip := factor_lip true (momentum true (snap v)) (momentum true v)
    have lu : v.len * lorentzFactor true (momentum true v) = (momentum true v).len := by
      have := congrArg V3.len eu
      rw [len_smul, abs_of_nonneg (by linarith)] at this
      linarith
    have fs := factor_sq (momentum true v)
    rw [← lu] at fs
    have ls : (snap v).len ≤ v.len := by
      have := speed_snap v
      rw [speedSq_len, speedSq_len] at this
      exact le_of_sq_le_sq this (len_nonneg v)
    have d0 := gap_nonneg (momentum true (snap v)) (momentum true v)
    have key : gap (momentum true (snap v)) (momentum true v) ≤ lorentzFactor true (momentum true v) * (2 * MNZL) +
        v.len * (gap (momentum true (snap v)) (momentum true v) / LIGHT_SPEED) := by
      have e : (momentum true (snap v)).add ((momentum true v).smul (-1)) =
          (((snap v).add (v.smul (-1))).smul (lorentzFactor true (momentum true v))).add
            ((snap v).smul (lorentzFactor true (momentum true (snap v)) - lorentzFactor true (momentum true v))) := by
        have a0 := congrArg V3.c0 eu
        have a1 := congrArg V3.c1 eu
        have a2 := congrArg V3.c2 eu
        have b0 := congrArg V3.c0 ew
        have b1 := congrArg V3.c1 ew
        have b2 := congrArg V3.c2 ew
        generalize lorentzFactor true (momentum true (snap v)) = x at *
        generalize lorentzFactor true (momentum true v) = y at *
        simp only [V3.add, V3.smul] at *
        ext <;> dsimp only
        · linear_combination b0 - a0
        · linear_combination b1 - a1
        · linear_combination b2 - a2
      have e2 : gap (momentum true (snap v)) (momentum true v) ≤
          |lorentzFactor true (momentum true v)| * gap (snap v) v +
            |lorentzFactor true (momentum true (snap v)) - lorentzFactor true (momentum true v)| * (snap v).len := by
        rw [gap, e]
        refine (len_add _ _).trans ?_
        rw [len_smul, len_smul]
        rfl
      rw [abs_of_nonneg (by linarith)] at e2
      have t1 := mul_le_mul_of_nonneg_left z (by linarith : 0 ≤ lorentzFactor true (momentum true v))
      have t2 := mul_le_mul lip ls (len_nonneg _) (by positivity)
      linarith
    have lc : v.len ≤ LIGHT_SPEED := by
      rw [speedSq_len] at h
      exact (lt_of_pow_lt_pow_left₀ 2 c.le h).le
    have v0 := len_nonneg v
    generalize gap (momentum true (snap v)) (momentum true v) = d at *
    generalize lorentzFactor true (momentum true v) = y at *
    have eβ : v.len * (d / LIGHT_SPEED) = v.len / LIGHT_SPEED * d := by ring
    have eβ2 : (v.len * y) ^ 2 / LIGHT_SPEED ^ 2 = (v.len / LIGHT_SPEED) ^ 2 * y ^ 2 := by ring
    rw [eβ] at key
    rw [eβ2] at fs
    have β1 : v.len / LIGHT_SPEED ≤ 1 := by rw [div_le_one c]; exact lc
    have β0 : 0 ≤ v.len / LIGHT_SPEED := by positivity
    generalize v.len / LIGHT_SPEED = β at *
    have k1 : 1 ≤ (1 - β) * (2 * y ^ 2) := by nlinarith [mul_nonneg (mul_nonneg (sub_nonneg.2 β1) (sub_nonneg.2 β1)) (sq_nonneg y)]
    have k2 : d * (1 - β) ≤ y * (2 * MNZL) := by linarith
    have k3 := mul_le_mul_of_nonneg_right k2 (by positivity : 0 ≤ 2 * y ^ 2)
    have k4 := mul_le_mul_of_nonneg_left k1 d0
    nlinarith

/-- the momentum grows by the electric kicks only -/
theorem boris_len {α k : ℝ} {e b u u' : V3} (hu : u' = u.add ((e.add (((u.add u').smul k).cross b)).smul α)) :
    u'.len ≤ u.len + |α| * e.len := by
  obtain ⟨a, ha⟩ : ∃ a, a = u.add (e.smul (α / 2)) := ⟨_, rfl⟩
  obtain ⟨a', ha'⟩ : ∃ a', a' = u'.add (e.smul (-(α / 2))) := ⟨_, rfl⟩
  have h : a'.len = a.len := by
    have : a'.len ^ 2 = a.len ^ 2 := by
      rw [len_sq, len_sq, ha, ha']
      have p0 := congrArg V3.c0 hu
      have p1 := congrArg V3.c1 hu
      have p2 := congrArg V3.c2 hu
      simp only [V3.sq, V3.add, V3.smul, V3.cross] at *
      linear_combination (u'.c0 + u.c0) * p0 + (u'.c1 + u.c1) * p1 + (u'.c2 + u.c2) * p2
    exact (pow_left_inj₀ (len_nonneg _) (len_nonneg _) two_ne_zero).1 this
  have h1 : u'.len ≤ a'.len + |α / 2| * e.len := by
    have : u' = a'.add (e.smul (α / 2)) := by rw [ha']; unfold V3.add V3.smul; ext <;> dsimp only <;> ring
    rw [← len_smul]
    calc u'.len = (a'.add (e.smul (α / 2))).len := by rw [← this]
      _ ≤ _ := len_add _ _
  have h2 : a.len ≤ u.len + |α / 2| * e.len := by
    rw [ha, ← len_smul]
    exact len_add _ _
  have e2 : |α / 2| = |α| / 2 := by rw [abs_div, abs_two]
  rw [e2] at h1 h2
  linarith

theorem factor_le (rel : Bool) {u : V3} {P : ℝ} (h : u.len ≤ P) : lorentzFactor rel u ≤ 1 + P / LIGHT_SPEED := by
  have c := c_pos
  have l := len_nonneg u
  have q := div_le_div_of_nonneg_right h c.le
  have q0 : 0 ≤ u.len / LIGHT_SPEED := by positivity
  cases rel
  · simp only [lorentzFactor, Bool.false_eq_true, if_false]; linarith
  · have s := factor_sq u
    have : u.len ^ 2 / LIGHT_SPEED ^ 2 = (u.len / LIGHT_SPEED) ^ 2 := by ring
    rw [this] at s
    refine le_trans ?_ (by linarith : 1 + u.len / LIGHT_SPEED ≤ 1 + P / LIGHT_SPEED)
    apply le_of_sq_le_sq _ (by linarith)
    nlinarith

/-! ## Runs -/

/-- `N` pushes with the fields `e`, `h` at the middle of each step -/
structure PushRun (mode : PusherMode) (rel : Bool) (dt q m : ℝ) (e h : ℝ → V3) (N : ℕ) (v : ℕ → V3) (garbage : ℕ → Bool) : Prop where
  slow : rel = true → speedSq (v 0) < LIGHT_SPEED ^ 2
  same : ∀ n < N, isRelativistic mode (garbage n) (v n) = rel
  step : ∀ n < N, push mode (garbage n) dt q m (e ((n + 1 / 2) * dt)) (h ((n + 1 / 2) * dt)) (v n) = some (v (n + 1))

section run
variable {mode : PusherMode} {rel : Bool} {dt q m T E B : ℝ} {e h U : ℝ → V3} {N : ℕ} {v : ℕ → V3} {garbage : ℕ → Bool}

theorem PushRun.speed (hr : PushRun mode rel dt q m e h N v garbage) (hm : m ≠ 0) :
    ∀ n ≤ N, rel = true → speedSq (v n) < LIGHT_SPEED ^ 2 := by
  intro n
  induction n with
  | zero => exact fun _ => hr.slow
  | succ n ih =>
    intro hn hR
    have h2 := hr.same n (by omega)
    have h3 := hr.step n (by omega)
    have hrel : RelativisticPush mode (garbage n) (v n) := by
      unfold RelativisticPush
      rw [hR] at h2
      cases mode <;> simp_all [isRelativistic]
    obtain ⟨w, w1, w2⟩ := C19_push_subluminal mode (garbage n) dt q m hm (e ((n + 1 / 2) * dt)) (h ((n + 1 / 2) * dt)) (v n) hrel
      (ih (by omega) hR).le
    rw [h3] at w1
    obtain rfl : v (n + 1) = w := by simpa using w1
    exact w2

/-- the equation of one push -/
theorem PushRun.equation (hr : PushRun mode rel dt q m e h N v garbage) (hmode : mode ≠ .vay) (hm : m ≠ 0) {n : ℕ} (hn : n < N) :
    momentum rel (v (n + 1)) = (momentum rel (snap (v n))).add (((e ((n + 1 / 2) * dt)).add
      ((((momentum rel (snap (v n))).add (momentum rel (v (n + 1)))).smul
        (1 / (2 * lorentzFactor rel ((momentum rel (snap (v n))).add ((e ((n + 1 / 2) * dt)).smul (dt / 2 * (q / m))))))).cross
          ((h ((n + 1 / 2) * dt)).smul MAGN_CONST))).smul (dt * (q / m))) := by
  have h2 := hr.same n hn
  have h3 := hr.step n hn
  rw [push_snap] at h3
  rw [← relativistic_snap] at h2
  obtain ⟨v', a1, a2, -⟩ := C57_boris_lorentz mode (garbage n) hmode dt q m hm (e ((n + 1 / 2) * dt)) (h ((n + 1 / 2) * dt))
    (snap (v n)) (fun hR => (speed_snap _).trans_lt (hr.speed hm n hn.le (by rw [← h2]; exact hR))) (snap_above _)
  rw [h3] at a1
  obtain rfl : v (n + 1) = v' := by simpa using a1
  rw [h2] at a2
  generalize e ((n + 1 / 2) * dt) = et at *
  generalize h ((n + 1 / 2) * dt) = ht at *
  have em : midGamma rel dt q m et (momentum rel (snap (v n))) =
      lorentzFactor rel ((momentum rel (snap (v n))).add (et.smul (dt / 2 * (q / m)))) := by
    unfold midGamma lorentzFactor
    have : q * dt / (2 * m) = dt / 2 * (q / m) := by field_simp
    rw [this]
  rw [em] at a2
  unfold LorentzStep at a2
  have f0 := congrArg V3.c0 a2
  have f1 := congrArg V3.c1 a2
  have f2 := congrArg V3.c2 a2
  have es : ∀ x y z : ℝ, x * m = y * m + z * (q * dt) → x = y + z * (dt * (q / m)) := by
    intro x y z hx
    field_simp
    linear_combination hx
  apply V3.ext
  · exact es _ _ _ f0
  · exact es _ _ _ f1
  · exact es _ _ _ f2

theorem inTime (hdt : 0 < dt) (hN : N * dt ≤ T) {n : ℕ} (hn : n < N) : 0 ≤ ((n : ℝ) + 1 / 2) * dt ∧ ((n : ℝ) + 1) * dt ≤ T := by
  refine ⟨by positivity, le_trans (mul_le_mul_of_nonneg_right ?_ hdt.le) hN⟩
  exact_mod_cast hn

/-- the momenta are bounded -/
theorem PushRun.size (hr : PushRun mode rel dt q m e h N v garbage) (hmode : mode ≠ .vay) (hm : m ≠ 0) (hdt : 0 < dt) (hN : N * dt ≤ T)
    (hE : ∀ t, 0 ≤ t → t ≤ T → (e t).len ≤ E) :
    ∀ n ≤ N, (momentum rel (v n)).len ≤ (momentum rel (v 0)).len + n * dt * (|q / m| * E) := by
  intro n
  induction n with
  | zero =>
    intro _
    simp
  | succ n ih =>
    intro hn
    have h1 := boris_len (hr.equation hmode hm (n := n) (by omega))
    have h2 := momentum_snap_len rel (hr.speed hm n (by omega))
    have h3 := ih (by omega)
    have it := inTime hdt hN (n := n) (by omega)
    have h4 := hE ((n + 1 / 2) * dt) it.1 (by have := it.2; nlinarith)
    rw [abs_mul, abs_of_nonneg hdt.le] at h1
    have h5 := mul_le_mul_of_nonneg_left h4 (by positivity : 0 ≤ dt * |q / m|)
    push_cast
    linarith

/-- one step of the error, with what the threshold takes away -/
theorem PushRun.error_step (hr : PushRun mode rel dt q m e h N v garbage) (hmode : mode ≠ .vay) (hm : m ≠ 0) (hdt : 0 < dt)
    (hN : N * dt ≤ T) (hU : LorentzMotion rel q m T e h U) {M0 M2 M3 : ℝ} (hS : MotionSize T M0 M2 M3 U)
    (hB : ∀ t, 0 ≤ t → t ≤ T → (h t).len ≤ B) (hβ : dt * (|q / m| * (MAGN_CONST * B)) ≤ 1) {n : ℕ} (hn : n < N) :
    gap (momentum rel (v (n + 1))) (U ((n + 1 : ℕ) * dt)) ≤
      (1 + dt * growthRate q m B M0) * gap (momentum rel (snap (v n))) (U (n * dt)) + dt ^ 3 * stepError dt q m B M0 M2 M3 := by
  have c := c_pos
  have mu := MAGN_CONST_pos
  obtain ⟨-, nN⟩ := inTime hdt hN hn
  have eu := hr.equation hmode hm hn
  have nd : 0 ≤ (n : ℝ) * dt := by positivity
  obtain ⟨t, ht⟩ : ∃ t, t = ((n : ℝ) + 1 / 2) * dt := ⟨_, rfl⟩
  have tm : t - dt / 2 = n * dt := by rw [ht]; ring
  have tp : t + dt / 2 = (n + 1) * dt := by rw [ht]; ring
  rw [← ht] at eu
  have tay' := taylor3 hU.smooth.1 hU.smooth.2.1 hU.smooth.2.2 hS t (dt / 2) (by linarith) (by rw [tm]; exact nd) (by rw [tp]; exact nN)
  rw [tm, tp] at tay'
  have t0 : 0 ≤ t := by rw [ht]; positivity
  have tT : t ≤ T := by linarith
  have p0 : 0 ≤ M0 := (len_nonneg _).trans (hS.size t t0 tT)
  have p2 : 0 ≤ M2 := (abs_nonneg _).trans (hS.second t t0 tT).1
  have force := hU.force t t0 tT
  have hrate : rate U t = ((e t).add ((velocityAt rel (U t)).cross ((h t).smul MAGN_CONST))).smul (q / m) := by
    have f0 := congrArg V3.c0 force
    have f1 := congrArg V3.c1 force
    have f2 := congrArg V3.c2 force
    simp only [V3.smul] at f0 f1 f2
    unfold rate
    simp only [V3.smul]
    ext
    · dsimp only; rw [mul_div_assoc', eq_div_iff hm]; exact f0
    · dsimp only; rw [mul_div_assoc', eq_div_iff hm]; exact f1
    · dsimp only; rw [mul_div_assoc', eq_div_iff hm]; exact f2
  have hb : ((h t).smul MAGN_CONST).len ≤ MAGN_CONST * B := by
    rw [len_smul, abs_of_nonneg mu.le]
    exact mul_le_mul_of_nonneg_left (hB t t0 tT) mu.le
  unfold growthRate stepError
  generalize q / m = κ at *
  generalize MAGN_CONST * B = B' at *
  have B0' : 0 ≤ B' := (len_nonneg _).trans hb
  obtain ⟨τ, τ1, τ2⟩ := residual rel (κ := κ) (s := dt / 2) (e := e t) (b := (h t).smul MAGN_CONST) (p := U (n * dt))
    (p' := U ((n + 1) * dt)) (w := U t) (by linarith) p0 p2 hrate hb (hS.size t t0 tT) tay'.1 tay'.2.1 tay'.2.2
  have ek : 2 * (dt / 2) * κ = dt * κ := by ring
  rw [ek] at τ1
  have lip := factor_lip rel ((momentum rel (snap (v n))).add ((e t).smul (dt / 2 * κ))) ((U (n * dt)).add ((e t).smul (dt / 2 * κ)))
  have eg : gap ((momentum rel (snap (v n))).add ((e t).smul (dt / 2 * κ))) ((U (n * dt)).add ((e t).smul (dt / 2 * κ))) =
      gap (momentum rel (snap (v n))) (U (n * dt)) := by
    unfold gap
    congr 1
    simp only [V3.add, V3.smul]
    ext <;> dsimp only <;> ring
  rw [eg, show gap (momentum rel (snap (v n))) (U (n * dt)) / LIGHT_SPEED =
    1 / LIGHT_SPEED * gap (momentum rel (snap (v n))) (U (n * dt)) by ring] at lip
  have key := push_stab (β := dt * (|κ| * B')) (M := M0) (factor_ge rel _) (factor_ge rel _) eu τ1 lip (by
      refine (len_add _ _).trans ?_
      have := hS.size (n * dt) nd (by linarith)
      have := hS.size ((n + 1) * dt) (by positivity) nN
      linarith) (by
      rw [abs_mul, abs_of_nonneg hdt.le]
      have := mul_le_mul_of_nonneg_left hb (by positivity : 0 ≤ dt * |κ|)
      linarith) hβ (by positivity) p0
  push_cast
  refine key.trans ?_
  have e1 : 2 * (dt * (|κ| * B')) * (1 + M0 * (1 / LIGHT_SPEED)) = dt * (2 * (|κ| * B') * (1 + M0 / LIGHT_SPEED)) := by ring
  rw [e1]
  have l1 := mul_le_mul_of_nonneg_left τ2 (by norm_num : (0:ℝ) ≤ 2)
  refine (add_le_add le_rfl l1).trans (le_of_eq ?_)
  ring

/-- the error after all steps; `σ` bounds what the threshold takes away in one step -/
theorem PushRun.error (hr : PushRun mode rel dt q m e h N v garbage) (hmode : mode ≠ .vay) (hm : m ≠ 0) (hdt : 0 < dt)
    (hT : 0 ≤ T) (hN : N * dt ≤ T) (hU : LorentzMotion rel q m T e h U) {M0 M2 M3 : ℝ} (hS : MotionSize T M0 M2 M3 U)
    (hB : ∀ t, 0 ≤ t → t ≤ T → (h t).len ≤ B) (hβ : dt * (|q / m| * (MAGN_CONST * B)) ≤ 1) {σ : ℝ} (hσ0 : 0 ≤ σ)
    (hσ : ∀ n < N, gap (momentum rel (snap (v n))) (momentum rel (v n)) ≤ σ) :
    gap (momentum rel (v N)) (U (N * dt)) ≤ Real.exp (T * growthRate q m B M0) *
      (gap (momentum rel (v 0)) (U 0) + T * (stepError dt q m B M0 M2 M3 * dt ^ 2 + (1 + dt * growthRate q m B M0) * (σ / dt))) := by
  have c := c_pos
  have mu := MAGN_CONST_pos
  have B0 : 0 ≤ B := (len_nonneg _).trans (hB 0 le_rfl hT)
  have p0 : 0 ≤ M0 := (len_nonneg _).trans (hS.size 0 le_rfl hT)
  have p2 : 0 ≤ M2 := (abs_nonneg _).trans (hS.second 0 le_rfl hT).1
  have p3 : 0 ≤ M3 := (abs_nonneg _).trans (hS.third 0 le_rfl hT).1
  have K0 : 0 ≤ growthRate q m B M0 := by unfold growthRate; positivity
  have A0 : 0 ≤ stepError dt q m B M0 M2 M3 := by unfold stepError; positivity
  have step : ∀ n < N, gap (momentum rel (v (n + 1))) (U ((n + 1 : ℕ) * dt)) ≤
      (1 + dt * growthRate q m B M0) * gap (momentum rel (v n)) (U (n * dt)) +
        (dt ^ 3 * stepError dt q m B M0 M2 M3 + (1 + dt * growthRate q m B M0) * σ) := by
    intro n hn
    have l1 := hr.error_step hmode hm hdt hN hU hS hB hβ hn
    have l2 := (gap_triangle (momentum rel (snap (v n))) (momentum rel (v n)) (U (n * dt))).trans (add_le_add (hσ n hn) le_rfl)
    have l3 := mul_le_mul_of_nonneg_left l2 (by positivity : 0 ≤ 1 + dt * growthRate q m B M0)
    linarith
  have g0 := gap_nonneg (momentum rel (v 0)) (U 0)
  generalize growthRate q m B M0 = K at *
  generalize stepError dt q m B M0 M2 M3 = A at *
  have gr := gronwall (d := fun n => gap (momentum rel (v n)) (U (n * dt))) (K := dt * K) (ε := dt ^ 3 * A + (1 + dt * K) * σ)
    (by positivity) (by positivity) step
  simp only [Nat.cast_zero, zero_mul] at gr
  refine gr.trans ?_
  have w1 : (1 + dt * K) ^ N ≤ Real.exp (T * K) := by
    have := pow_le_pow_left₀ (by positivity) (Real.add_one_le_exp (dt * K)) N
    rw [← Real.exp_nat_mul, add_comm] at this
    refine this.trans (Real.exp_le_exp.2 ?_)
    have := mul_le_mul_of_nonneg_right hN K0
    linarith
  have w2 : (N : ℝ) * (dt ^ 3 * A + (1 + dt * K) * σ) ≤ T * (A * dt ^ 2 + (1 + dt * K) * (σ / dt)) := by
    have := mul_le_mul_of_nonneg_right hN (by positivity : 0 ≤ A * dt ^ 2 + (1 + dt * K) * (σ / dt))
    refine le_trans (le_of_eq ?_) this
    field_simp
  exact mul_le_mul w1 (add_le_add le_rfl w2) (by positivity) (Real.exp_pos _).le

end run

end PushConverge

open PushConverge RoundedPush

/-- **C112**, error of the Boris pushers. `v 0, …, v N` are computed by pushes with the fields of the times `(n + 1/2) dt`; `rel` tells
whether they use relativistic formulas.  `U` is the motion under the Lorentz force.  The error of the momentum per mass at the time `N dt`
is at most the first error plus, per second, a term of second order in the time step and a term from the threshold below which velocities
are set to zero, multiplied by an exponential that does not depend on the time step.  The error of the velocity is at most twice that.

`P` bounds the first momentum, `E` and `B` the fields. -/
theorem C112_boris_error (mode : PusherMode) (hmode : mode ≠ .vay) (rel : Bool) (dt q m T E B P M0 M2 M3 : ℝ) (hm : m ≠ 0) (hT : 0 ≤ T)
    (hdt : 0 < dt) (e h U : ℝ → V3) (hU : LorentzMotion rel q m T e h U) (hS : MotionSize T M0 M2 M3 U)
    (hE : ∀ t, 0 ≤ t → t ≤ T → (e t).len ≤ E) (hB : ∀ t, 0 ≤ t → t ≤ T → (h t).len ≤ B)
    (hβ : dt * (|q / m| * (MAGN_CONST * B)) ≤ 1) (N : ℕ) (hN : N * dt ≤ T) (v : ℕ → V3) (garbage : ℕ → Bool)
    (hv : rel = true → speedSq (v 0) < LIGHT_SPEED ^ 2) (hP : (momentum rel (v 0)).len ≤ P)
    (hrel : ∀ n < N, isRelativistic mode (garbage n) (v n) = rel)
    (hpush : ∀ n < N, push mode (garbage n) dt q m (e ((n + 1 / 2) * dt)) (h ((n + 1 / 2) * dt)) (v n) = some (v (n + 1))) :
    let bound := Real.exp (T * growthRate q m B M0) * (gap (momentum rel (v 0)) (U 0) +
      T * (stepError dt q m B M0 M2 M3 * dt ^ 2 +
        (1 + dt * growthRate q m B M0) * (4 * (1 + (P + T * (|q / m| * E)) / LIGHT_SPEED) ^ 3 * 1e-15 / dt)))
    gap (momentum rel (v N)) (U (N * dt)) ≤ bound ∧ gap (v N) (velocityAt rel (U (N * dt))) ≤ 2 * bound := by
  have c := c_pos
  have mp := mnzl_pos
  have hr : PushRun mode rel dt q m e h N v garbage := ⟨hv, hrel, hpush⟩
  have E0 : 0 ≤ E := (len_nonneg _).trans (hE 0 le_rfl hT)
  have P0 : 0 ≤ P := (len_nonneg _).trans hP
  have emn : (1e-15 : ℝ) = MNZL := rfl
  rw [emn]
  intro bound
  have first : gap (momentum rel (v N)) (U (N * dt)) ≤ bound := by
    refine hr.error hmode hm hdt hT hN hU hS hB hβ (by positivity) ?_
    intro n hn
    refine (momentum_snap_gap rel (hr.speed hm n hn.le)).trans ?_
    have s1 : (momentum rel (v n)).len ≤ P + T * (|q / m| * E) := by
      refine (hr.size hmode hm hdt hN hE n hn.le).trans ?_
      have : (n : ℝ) * dt ≤ T := le_trans (mul_le_mul_of_nonneg_right (by exact_mod_cast hn.le) hdt.le) hN
      have := mul_le_mul_of_nonneg_right this (by positivity : 0 ≤ |q / m| * E)
      linarith
    have s2 := factor_le rel s1
    have s3 := pow_le_pow_left₀ (by linarith [factor_ge rel (momentum rel (v n))]) s2 3
    exact mul_le_mul_of_nonneg_right (by linarith) mp.le
  refine ⟨first, ?_⟩
  have := velocity_lip rel (momentum rel (v N)) (U (N * dt))
  rw [velocity_momentum rel (hr.speed hm N le_rfl)] at this
  linarith

/-- **C112** In given fields the Boris pushers converge to the motion under the Lorentz force with second order in the time step: for every
motion in a bounded magnetic field there is a constant such that, for every small time step and every number of steps within the time of
the motion, the errors of momentum and velocity are at most that constant times the first error plus `dt²`.  Missing: the velocities must
not fall below the threshold under which they are set to zero (`C112_threshold_violated`); see `C112_boris_error` for all velocities. -/
theorem C112_boris_converges_partial (mode : PusherMode) (hmode : mode ≠ .vay) (rel : Bool) (q m T B : ℝ) (hm : m ≠ 0) (hT : 0 ≤ T)
    (e h U : ℝ → V3) (hU : LorentzMotion rel q m T e h U) (hB : ∀ t, 0 ≤ t → t ≤ T → (h t).len ≤ B) :
    ∃ C d : ℝ, 0 < C ∧ 0 < d ∧ ∀ (dt : ℝ) (N : ℕ) (v : ℕ → V3) (garbage : ℕ → Bool), 0 < dt → dt ≤ d → N * dt ≤ T →
      (rel = true → speedSq (v 0) < LIGHT_SPEED ^ 2) →
      (∀ n < N, AboveThreshold (v n) ∧ isRelativistic mode (garbage n) (v n) = rel ∧
        push mode (garbage n) dt q m (e ((n + 1 / 2) * dt)) (h ((n + 1 / 2) * dt)) (v n) = some (v (n + 1))) →
      gap (momentum rel (v N)) (U (N * dt)) ≤ C * (gap (momentum rel (v 0)) (U 0) + dt ^ 2) ∧
      gap (v N) (velocityAt rel (U (N * dt))) ≤ C * (gap (momentum rel (v 0)) (U 0) + dt ^ 2) := by
  have c := c_pos
  have mu := MAGN_CONST_pos
  obtain ⟨M, hM, hS⟩ := motion_size hU.smooth.1 hU.smooth.2.1 hU.smooth.2.2 T
  have B0 : 0 ≤ B := (len_nonneg _).trans (hB 0 le_rfl hT)
  have K0 : 0 ≤ growthRate q m B M := by unfold growthRate; positivity
  obtain ⟨A, hA⟩ : ∃ A, A = stepError 1 q m B M M M := ⟨_, rfl⟩
  have A0 : 0 ≤ A := by rw [hA]; unfold stepError; positivity
  obtain ⟨C, hC⟩ : ∃ C, C = Real.exp (T * growthRate q m B M) * (1 + T * A) := ⟨_, rfl⟩
  have C0 : 0 < C := by rw [hC]; positivity
  refine ⟨2 * C, min 1 (1 / (|q / m| * (MAGN_CONST * B) + 1)), by positivity, by positivity, ?_⟩
  intro dt N v garbage hdt hd hN hv hp
  have hd1 : dt ≤ 1 := hd.trans (min_le_left _ _)
  have hβ : dt * (|q / m| * (MAGN_CONST * B)) ≤ 1 := by
    have := hd.trans (min_le_right _ _)
    rw [le_div_iff₀ (by positivity)] at this
    nlinarith
  have hr : PushRun mode rel dt q m e h N v garbage := ⟨hv, fun n hn => (hp n hn).2.1, fun n hn => (hp n hn).2.2⟩
  have g0 := gap_nonneg (momentum rel (v 0)) (U 0)
  have first : gap (momentum rel (v N)) (U (N * dt)) ≤ C * (gap (momentum rel (v 0)) (U 0) + dt ^ 2) := by
    have := hr.error hmode hm hdt hT hN hU hS hB hβ (σ := 0) le_rfl (by
      intro n hn
      rw [snap_eq (hp n hn).1]
      have : gap (momentum rel (v n)) (momentum rel (v n)) = 0 := by
        unfold gap V3.len V3.sq V3.add V3.smul
        simp
      exact this.le)
    refine this.trans ?_
    rw [zero_div, mul_zero, add_zero, hC, mul_assoc (Real.exp _)]
    apply mul_le_mul_of_nonneg_left _ (Real.exp_pos _).le
    have hA' : stepError dt q m B M M M ≤ A := by
      rw [hA]
      unfold stepError
      gcongr
    have h1 : T * (stepError dt q m B M M M * dt ^ 2) ≤ T * A * dt ^ 2 := by
      rw [mul_assoc]
      exact mul_le_mul_of_nonneg_left (mul_le_mul_of_nonneg_right hA' (by positivity)) hT
    have h2 : 0 ≤ T * A * gap (momentum rel (v 0)) (U 0) := by positivity
    have h3 : 0 ≤ dt ^ 2 := by positivity
    linarith
  have C1 : 0 ≤ C * (gap (momentum rel (v 0)) (U 0) + dt ^ 2) := by positivity
  refine ⟨by linarith, ?_⟩
  have := velocity_lip rel (momentum rel (v N)) (U (N * dt))
  rw [velocity_momentum rel (hr.speed hm N le_rfl)] at this
  linarith

end Verif
