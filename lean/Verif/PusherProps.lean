import Verif.Pusher
import Mathlib.Tactic.Positivity

/-!
# Properties of the velocity pushers (C18-C21)
-/

namespace Verif

/-! ## Helpers -/

theorem c2_pos : 0 < LIGHT_SPEED_POW_2 := by
  unfold LIGHT_SPEED_POW_2; have := LIGHT_SPEED_pos; positivity

theorem dot_self_nonneg (a : V3) : 0 ≤ V3.dot a a := by
  unfold V3.dot; nlinarith [sq_nonneg a.c0, sq_nonneg a.c1, sq_nonneg a.c2]

theorem dot_smul (x : ℝ) (a : V3) : V3.dot (a.smul x) (a.smul x) = x ^ 2 * V3.dot a a := by
  unfold V3.dot V3.smul; ring

theorem getGammaInv_eq {s : ℝ} (hs : 0 ≤ s) :
    getGammaInv s = 1 / Real.sqrt (1 + s / LIGHT_SPEED_POW_2) := by
  have : 0 ≤ s / LIGHT_SPEED_POW_2 := div_nonneg hs c2_pos.le
  have h : 0 ≤ 1 + s / LIGHT_SPEED_POW_2 := by linarith
  unfold getGammaInv
  rw [Real.rpow_neg h, ← Real.sqrt_eq_rpow, one_div]

theorem getGammaInv_pos {s : ℝ} (hs : 0 ≤ s) : 0 < getGammaInv s := by
  rw [getGammaInv_eq hs]
  have : 0 ≤ s / LIGHT_SPEED_POW_2 := div_nonneg hs c2_pos.le
  have h : 0 < Real.sqrt (1 + s / LIGHT_SPEED_POW_2) := Real.sqrt_pos.2 (by linarith)
  positivity

theorem getGammaInv_sq {s : ℝ} (hs : 0 ≤ s) :
    getGammaInv s ^ 2 = LIGHT_SPEED_POW_2 / (LIGHT_SPEED_POW_2 + s) := by
  have c := c2_pos
  have : 0 ≤ s / LIGHT_SPEED_POW_2 := div_nonneg hs c.le
  rw [getGammaInv_eq hs, div_pow, one_pow, Real.sq_sqrt (by linarith)]
  have : LIGHT_SPEED_POW_2 + s ≠ 0 := by linarith
  field_simp

/-- multiplying a vector by its inverse Lorentz factor gives a speed below `c` -/
theorem sub_luminal (u : V3) :
    V3.dot (u.smul (getGammaInv (V3.dot u u))) (u.smul (getGammaInv (V3.dot u u)))
      < LIGHT_SPEED_POW_2 := by
  have c := c2_pos
  have h := dot_self_nonneg u
  rw [dot_smul, getGammaInv_sq h, div_mul_eq_mul_div, div_lt_iff₀ (by linarith)]
  nlinarith

theorem getGamma_some {s : ℝ} (h : s < LIGHT_SPEED_POW_2) :
    getGamma s = some (1 / Real.sqrt (1 - s / LIGHT_SPEED_POW_2)) := by
  have c := c2_pos
  have : s / LIGHT_SPEED_POW_2 < 1 := by rw [div_lt_one c]; exact h
  unfold getGamma
  dsimp only
  rw [if_neg (by linarith), if_neg (by linarith)]

theorem gamma_sq {s g : ℝ} (h : s < LIGHT_SPEED_POW_2) (hg : getGamma s = some g) :
    0 < g ∧ g ^ 2 = LIGHT_SPEED_POW_2 / (LIGHT_SPEED_POW_2 - s) := by
  have c := c2_pos
  have h1 : s / LIGHT_SPEED_POW_2 < 1 := by rw [div_lt_one c]; exact h
  rw [getGamma_some h, Option.some.injEq] at hg
  subst hg
  have hp : 0 < Real.sqrt (1 - s / LIGHT_SPEED_POW_2) := Real.sqrt_pos.2 (by linarith)
  refine ⟨by positivity, ?_⟩
  rw [div_pow, one_pow, Real.sq_sqrt (by linarith)]
  have : LIGHT_SPEED_POW_2 - s ≠ 0 := by linarith
  have h3 : 1 - s / LIGHT_SPEED_POW_2 ≠ 0 := by linarith
  field_simp

/-- the Lorentz factor recomputed from the momentum -/
theorem gammaInv_of_gamma {s g : ℝ} (h0 : 0 ≤ s) (h : s < LIGHT_SPEED_POW_2)
    (hg : getGamma s = some g) : getGammaInv (g ^ 2 * s) = 1 / g := by
  have c := c2_pos
  obtain ⟨gp, g2⟩ := gamma_sq h hg
  have hs : 0 ≤ g ^ 2 * s := by positivity
  have e : getGammaInv (g ^ 2 * s) ^ 2 = (1 / g) ^ 2 := by
    rw [getGammaInv_sq hs, div_pow, one_pow, g2]
    have : LIGHT_SPEED_POW_2 - s ≠ 0 := by linarith
    have c' := c.ne'
    have e1 : LIGHT_SPEED_POW_2 + LIGHT_SPEED_POW_2 / (LIGHT_SPEED_POW_2 - s) * s
        = LIGHT_SPEED_POW_2 ^ 2 / (LIGHT_SPEED_POW_2 - s) := by
      rw [eq_div_iff this, add_mul]
      have : LIGHT_SPEED_POW_2 / (LIGHT_SPEED_POW_2 - s) * s * (LIGHT_SPEED_POW_2 - s)
          = LIGHT_SPEED_POW_2 * s := by field_simp
      rw [this]; ring
    rw [e1]
    field_simp
  have p1 := getGammaInv_pos hs
  have p2 : 0 < 1 / g := by positivity
  nlinarith [pow_left_injective₀ e p1 p2]
where
  pow_left_injective₀ {x y : ℝ} (e : x ^ 2 = y ^ 2) (hx : 0 < x) (hy : 0 < y) : x = y := by
    have : (x - y) * (x + y) = 0 := by ring_nf; linarith
    rcases mul_eq_zero.1 this with h | h
    · linarith
    · linarith

/-- the rotation preserves length -/
theorem borisRotate_dot (v b : V3) :
    V3.dot (borisRotate v b) (borisRotate v b) = V3.dot v v := by
  have h : 1 + (b.c0 * b.c0 + b.c1 * b.c1 + b.c2 * b.c2) ≠ 0 := by
    nlinarith [sq_nonneg b.c0, sq_nonneg b.c1, sq_nonneg b.c2]
  unfold borisRotate V3.dot
  dsimp only
  field_simp
  ring

theorem borisRotate_zero (v : V3) : borisRotate v V3.zero = v := by
  unfold borisRotate V3.zero V3.dot
  ext <;> simp

theorem add_zero' (v : V3) : v.add V3.zero = v := by unfold V3.add V3.zero; ext <;> simp
theorem smul_zero' (x : ℝ) : V3.zero.smul x = V3.zero := by unfold V3.smul V3.zero; ext <;> simp
theorem smul_smul' (x y : ℝ) (v : V3) : (v.smul x).smul y = v.smul (x * y) := by
  unfold V3.smul; ext <;> simp <;> ring
theorem smul_one' (v : V3) : v.smul 1 = v := by unfold V3.smul; ext <;> simp

theorem snap_le (v : V3) : V3.dot (snap v) (snap v) ≤ V3.dot v v := by
  have h : ∀ x : ℝ, snap1 x * snap1 x ≤ x * x := by
    intro x; unfold snap1; split_ifs
    · nlinarith [sq_nonneg x]
    · exact le_rfl
  unfold V3.dot snap
  have := h v.c0; have := h v.c1; have := h v.c2
  dsimp only; linarith

theorem snap_close (v : V3) : V3.dot v v ≤ V3.dot (snap v) (snap v) + 3 * MNZL ^ 2 := by
  have h : ∀ x : ℝ, x * x ≤ snap1 x * snap1 x + MNZL ^ 2 := by
    intro x; unfold snap1; split_ifs with hx
    · have := abs_nonneg x
      nlinarith [sq_abs x]
    · nlinarith [sq_nonneg MNZL]
  unfold V3.dot snap
  have := h v.c0; have := h v.c1; have := h v.c2
  dsimp only; linarith

/-! ## Specification -/

/-- speed squared -/
def speedSq (v : V3) : ℝ := v.c0 ^ 2 + v.c1 ^ 2 + v.c2 ^ 2

theorem speedSq_eq (v : V3) : speedSq v = V3.dot v v := by unfold speedSq V3.dot; ring

/-- No component is so small that the code rounds it to zero (unless it is zero). -/
def AboveThreshold (v : V3) : Prop :=
  (v.c0 = 0 ∨ MNZL ≤ |v.c0|) ∧ (v.c1 = 0 ∨ MNZL ≤ |v.c1|) ∧ (v.c2 = 0 ∨ MNZL ≤ |v.c2|)

theorem snap_eq {v : V3} (h : AboveThreshold v) : snap v = v := by
  have k : ∀ x : ℝ, x = 0 ∨ MNZL ≤ |x| → snap1 x = x := by
    rintro x (rfl | h)
    · unfold snap1; split_ifs <;> rfl
    · unfold snap1; rw [if_neg (by linarith)]
  obtain ⟨h1, h2, h3⟩ := h
  unfold snap
  rw [k _ h1, k _ h2, k _ h3]

/-! ## C21: Lorentz factors -/

/-- **C21**. -/
theorem C21_lorentz_factor (v2 : ℝ) (h0 : 0 ≤ v2) :
    -- terminated exactly on superluminal input
    (getGamma v2 = none ↔ LIGHT_SPEED ^ 2 < v2) ∧
    -- below c: the Lorentz factor, at least 1
    (v2 < LIGHT_SPEED ^ 2 → ∃ g, getGamma v2 = some g ∧
      g = 1 / Real.sqrt (1 - v2 / LIGHT_SPEED ^ 2) ∧ 1 ≤ g ∧
      -- recomputed from the squared momentum g^2 v^2 it is the inverse
      getGammaInv (g ^ 2 * v2) = 1 / g) ∧
    -- at c: finite
    (v2 = LIGHT_SPEED ^ 2 → getGamma v2 = some 1e100) := by
  have c := c2_pos
  have e : LIGHT_SPEED ^ 2 = LIGHT_SPEED_POW_2 := rfl
  rw [e]
  refine ⟨?_, ?_, ?_⟩
  · constructor
    · intro h
      by_contra hcon
      push Not at hcon
      have : v2 / LIGHT_SPEED_POW_2 ≤ 1 := by rw [div_le_one c]; exact hcon
      unfold getGamma at h
      dsimp only at h
      rw [if_neg (by linarith)] at h
      split_ifs at h
    · intro h
      have : 1 < v2 / LIGHT_SPEED_POW_2 := by rw [one_lt_div c]; exact h
      unfold getGamma
      dsimp only
      rw [if_pos this]
  · intro h
    refine ⟨_, getGamma_some h, rfl, ?_, gammaInv_of_gamma h0 h (getGamma_some h)⟩
    have h1 : v2 / LIGHT_SPEED_POW_2 < 1 := by rw [div_lt_one c]; exact h
    have h2 : 0 ≤ v2 / LIGHT_SPEED_POW_2 := div_nonneg h0 c.le
    have hp : 0 < Real.sqrt (1 - v2 / LIGHT_SPEED_POW_2) := Real.sqrt_pos.2 (by linarith)
    rw [le_div_iff₀ hp, one_mul, Real.sqrt_le_left (by norm_num)]
    linarith
  · intro h
    unfold getGamma
    dsimp only
    rw [h, div_self c.ne', if_neg (by norm_num), if_pos (by norm_num)]

/-- **C21** the Lorentz factor is strictly increasing with speed. -/
theorem C21_gamma_monotone (s t g g' : ℝ) (hst : s < t) (ht : t < LIGHT_SPEED ^ 2)
    (h1 : getGamma s = some g) (h2 : getGamma t = some g') : g < g' := by
  have c := c2_pos
  have e : LIGHT_SPEED ^ 2 = LIGHT_SPEED_POW_2 := rfl
  rw [e] at ht
  obtain ⟨p1, q1⟩ := gamma_sq (by linarith) h1
  obtain ⟨p2, q2⟩ := gamma_sq ht h2
  have : g ^ 2 < g' ^ 2 := by
    rw [q1, q2]
    exact div_lt_div_of_pos_left c (by linarith) (by linarith)
  nlinarith

/-! ## C19: below light speed -/

/-- modes that compute relativistically for this velocity -/
def RelativisticPush (mode : PusherMode) (garbage : Bool) (v : V3) : Prop :=
  mode = .borisRelativistic ∨ mode = .vay ∨ (mode = .borisAdaptive ∧ useRel garbage v = true)

/-- **C19**. Whatever the fields, charge, mass and time step, a relativistic push that returns gives
a speed strictly below `c`; it returns for every input speed up to `c`. -/
theorem C19_push_subluminal (mode : PusherMode) (garbage : Bool) (dt q m : ℝ) (hm : m ≠ 0)
    (e h v : V3) (hrel : RelativisticPush mode garbage v) (hv : speedSq v ≤ LIGHT_SPEED ^ 2) :
    ∃ v', push mode garbage dt q m e h v = some v' ∧ speedSq v' < LIGHT_SPEED ^ 2 := by
  have c := c2_pos
  have ec : LIGHT_SPEED ^ 2 = LIGHT_SPEED_POW_2 := rfl
  rw [ec] at hv ⊢
  have hm2 : ¬ (2 * m = 0) := by simpa using hm
  have hs : V3.dot (snap v) (snap v) ≤ LIGHT_SPEED_POW_2 := by
    rw [speedSq_eq] at hv; exact (snap_le v).trans hv
  have hg : ∃ g, getGamma (V3.dot (snap v) (snap v)) = some g := by
    have h1 : V3.dot (snap v) (snap v) / LIGHT_SPEED_POW_2 ≤ 1 := by rw [div_le_one c]; exact hs
    unfold getGamma
    dsimp only
    rw [if_neg (by linarith)]
    split_ifs
    · exact ⟨_, rfl⟩
    · exact ⟨_, rfl⟩
  obtain ⟨g, hg⟩ := hg
  have boris : ∃ v', borisCore true dt q m e h v = some v' ∧ speedSq v' < LIGHT_SPEED_POW_2 := by
    unfold borisCore
    simp only [if_neg hm2, if_true, hg, Option.map_some]
    refine ⟨_, rfl, ?_⟩
    rw [speedSq_eq]
    exact sub_luminal _
  rcases hrel with rfl | rfl | ⟨rfl, hu⟩
  · exact boris
  · unfold push vayCore
    simp only [if_neg hm2, hg, Option.map_some]
    refine ⟨_, rfl, ?_⟩
    rw [speedSq_eq]
    exact sub_luminal _
  · unfold push
    simp only [hu]
    exact boris

/-- a superluminal velocity is never pushed: the run stops -/
theorem C19_superluminal_stops (mode : PusherMode) (garbage : Bool) (dt q m : ℝ) (e h v : V3)
    (hrel : RelativisticPush mode garbage v) (ht : AboveThreshold v)
    (hv : LIGHT_SPEED ^ 2 < speedSq v) : push mode garbage dt q m e h v = none := by
  have hg : getGamma (V3.dot (snap v) (snap v)) = none := by
    rw [snap_eq ht, ← speedSq_eq]
    exact (C21_lorentz_factor (speedSq v) (by rw [speedSq_eq]; exact dot_self_nonneg v)).1.2 hv
  have boris : borisCore true dt q m e h v = none := by
    unfold borisCore
    simp only [if_true, hg, Option.map_none]
    split_ifs <;> rfl
  rcases hrel with rfl | rfl | ⟨rfl, hu⟩
  · exact boris
  · unfold push vayCore
    simp only [hg, Option.map_none]
    split_ifs <;> rfl
  · unfold push
    simp only [hu]
    exact boris

/-- **C19 is violated by the default (adaptive) pusher** when the uninitialised flag happens to be
`false`: a particle at rest in a strong field is pushed beyond the speed of light. -/
theorem C19_adaptive_violated : ∃ (dt q m : ℝ) (e h v v' : V3), 0 < dt ∧ 0 < m ∧
    speedSq v < LIGHT_SPEED ^ 2 ∧ push .borisAdaptive false dt q m e h v = some v' ∧
    LIGHT_SPEED ^ 2 < speedSq v' := by
  refine ⟨1, 1, 1, ⟨1e9, 0, 0⟩, V3.zero, V3.zero, ⟨1e9, 0, 0⟩, one_pos, one_pos, ?_, ?_, ?_⟩
  · unfold speedSq V3.zero LIGHT_SPEED; norm_num
  · have hs : snap V3.zero = V3.zero := snap_eq ⟨Or.inl rfl, Or.inl rfl, Or.inl rfl⟩
    have hu : useRel false V3.zero = false := by
      unfold useRel
      rw [hs, if_neg]
      unfold V3.zero REL_LIMIT_POW_2; norm_num
    unfold push
    simp only [hu]
    unfold borisCore
    rw [if_neg (by norm_num), hs]
    simp only [smul_zero', Bool.false_eq_true, if_false, Option.map_some, borisRotate_zero]
    unfold V3.add V3.zero V3.smul
    norm_num
  · unfold speedSq LIGHT_SPEED; norm_num

/-! ## C18: magnetic field does no work -/

/-- **C18**, Boris pushers. With zero electric field the speed after the push equals the speed
before, except that components below the rounding threshold are first replaced by zero. -/
theorem C18_boris_no_work (mode : PusherMode) (garbage : Bool) (hmode : mode ≠ .vay)
    (dt q m : ℝ) (hm : m ≠ 0) (h v : V3) (hv : speedSq v < LIGHT_SPEED ^ 2) :
    ∃ v', push mode garbage dt q m V3.zero h v = some v' ∧
      speedSq v' ≤ speedSq v ∧ speedSq v ≤ speedSq v' + 3 * MNZL ^ 2 ∧
      (AboveThreshold v → speedSq v' = speedSq v) := by
  have c := c2_pos
  have ec : LIGHT_SPEED ^ 2 = LIGHT_SPEED_POW_2 := rfl
  rw [ec] at hv
  have hm2 : ¬ (2 * m = 0) := by simpa using hm
  have hs : V3.dot (snap v) (snap v) < LIGHT_SPEED_POW_2 := by
    rw [speedSq_eq] at hv; exact (snap_le v).trans_lt hv
  have core : ∀ rel, ∃ v', borisCore rel dt q m V3.zero h v = some v' ∧
      V3.dot v' v' = V3.dot (snap v) (snap v) := by
    intro rel
    unfold borisCore
    rw [if_neg hm2]
    cases rel
    · refine ⟨_, rfl, ?_⟩
      simp only [smul_zero', add_zero', Bool.false_eq_true, if_false, borisRotate_dot]
    · have hg := getGamma_some hs
      generalize 1 / Real.sqrt (1 - V3.dot (snap v) (snap v) / LIGHT_SPEED_POW_2) = g at hg
      simp only [if_true, hg, Option.map_some, smul_zero', add_zero']
      refine ⟨_, rfl, ?_⟩
      rw [dot_smul, borisRotate_dot, dot_smul,
        gammaInv_of_gamma (dot_self_nonneg _) hs hg]
      have := (gamma_sq hs hg).1.ne'
      field_simp
  have fin : ∀ v', V3.dot v' v' = V3.dot (snap v) (snap v) →
      speedSq v' ≤ speedSq v ∧ speedSq v ≤ speedSq v' + 3 * MNZL ^ 2 ∧
      (AboveThreshold v → speedSq v' = speedSq v) := by
    intro v' h
    rw [speedSq_eq, speedSq_eq, h]
    refine ⟨snap_le v, snap_close v, ?_⟩
    intro ht; rw [snap_eq ht]
  cases mode with
  | vay => exact absurd rfl hmode
  | borisClassic => obtain ⟨v', a, b⟩ := core false; exact ⟨v', a, fin v' b⟩
  | borisRelativistic => obtain ⟨v', a, b⟩ := core true; exact ⟨v', a, fin v' b⟩
  | borisAdaptive => obtain ⟨v', a, b⟩ := core (useRel garbage v); exact ⟨v', a, fin v' b⟩

/-! ## C18 for the Vay pusher -/

/-- momentum after a Vay push without electric field (`u` old momentum, `b` scaled field) -/
noncomputable def vayMom (u b : V3) : V3 :=
  let gamma := getGammaInv (V3.dot u u)
  let velocity : V3 :=
    ⟨u.c0 + gamma * (u.c1 * b.c2 - u.c2 * b.c1),
     u.c1 + gamma * (u.c2 * b.c0 - u.c0 * b.c2),
     u.c2 + gamma * (u.c0 * b.c1 - u.c1 * b.c0)⟩
  let gamma := getGammaInv (V3.dot velocity velocity)
  let alpha := 1 / gamma / gamma
  let B2 := V3.dot b b
  let s := alpha - B2
  let us2 := (V3.dot velocity b) ^ 2
  let alpha := 1 / Real.sqrt (1 / 2 * (s + Real.sqrt (s * s + 4 * (B2 + us2))))
  let b := b.smul alpha
  let s := 1 / (1 + V3.dot b b)
  let alpha := V3.dot velocity b
  ⟨s * (velocity.c0 + alpha * b.c0 + b.c2 * velocity.c1 - b.c1 * velocity.c2),
   s * (velocity.c1 + alpha * b.c1 + b.c0 * velocity.c2 - b.c2 * velocity.c0),
   s * (velocity.c2 + alpha * b.c2 + b.c1 * velocity.c0 - b.c0 * velocity.c1)⟩

theorem vay_zeroE (dt q m : ℝ) (hm2 : ¬ (2 * m = 0)) (h v : V3) :
    vayCore dt q m V3.zero h v = (getGamma (V3.dot (snap v) (snap v))).map fun g =>
      let w := vayMom ((snap v).smul g)
        (h.smul (MAGN_CONST * (q * dt / (2 * m)) * (2 * (q * dt / (2 * m))) * (q * dt / (2 * m))))
      w.smul (getGammaInv (V3.dot w w)) := by
  unfold vayCore
  rw [if_neg hm2]
  simp only [vayMom, smul_zero', add_zero', smul_smul']

/-- `X = γ²` of the new momentum as the code computes it -/
noncomputable def vayX (u b : V3) : ℝ :=
  let C := LIGHT_SPEED_POW_2
  let w2 := V3.dot u u * V3.dot b b - V3.dot u b ^ 2
  let s := 1 + (V3.dot u u + w2 * (C / (C + V3.dot u u))) / C - V3.dot b b
  1 / 2 * (s + Real.sqrt (s * s + 4 * (V3.dot b b + V3.dot u b ^ 2)))

theorem lagrange (u b : V3) : 0 ≤ V3.dot u u * V3.dot b b - V3.dot u b ^ 2 := by
  have : V3.dot u u * V3.dot b b - V3.dot u b ^ 2 =
      (u.c1 * b.c2 - u.c2 * b.c1) ^ 2 + (u.c2 * b.c0 - u.c0 * b.c2) ^ 2
      + (u.c0 * b.c1 - u.c1 * b.c0) ^ 2 := by unfold V3.dot; ring
  rw [this]; positivity

theorem vayX_pos (u b : V3) : 0 < vayX u b := by
  have c := c2_pos
  have hu := dot_self_nonneg u
  have hb := dot_self_nonneg b
  have hl := lagrange u b
  unfold vayX
  dsimp only
  generalize V3.dot u u * V3.dot b b - V3.dot u b ^ 2 = w2 at *
  have h1 : 0 ≤ (V3.dot u u + w2 * (LIGHT_SPEED_POW_2 / (LIGHT_SPEED_POW_2 + V3.dot u u)))
      / LIGHT_SPEED_POW_2 := by positivity
  generalize (V3.dot u u + w2 * (LIGHT_SPEED_POW_2 / (LIGHT_SPEED_POW_2 + V3.dot u u)))
      / LIGHT_SPEED_POW_2 = y at *
  have h2 := sq_nonneg (V3.dot u b)
  generalize V3.dot b b = B at *
  generalize V3.dot u b ^ 2 = W at *
  have h3 : |1 + y - B| ≤ Real.sqrt ((1 + y - B) * (1 + y - B) + 4 * (B + W)) := by
    apply Real.abs_le_sqrt; nlinarith
  rcases lt_or_ge 0 (1 + y - B) with h | h
  · have := Real.sqrt_nonneg ((1 + y - B) * (1 + y - B) + 4 * (B + W))
    linarith
  · have hB : 0 < B := by linarith
    have h4 : |1 + y - B| < Real.sqrt ((1 + y - B) * (1 + y - B) + 4 * (B + W)) := by
      apply Real.lt_sqrt_of_sq_lt
      rw [sq_abs]; nlinarith
    have := neg_abs_le (1 + y - B)
    linarith

/-- the final rotation -/
theorem vay_rotation (p t : V3) :
    V3.dot ⟨1 / (1 + V3.dot t t) * (p.c0 + V3.dot p t * t.c0 + t.c2 * p.c1 - t.c1 * p.c2),
        1 / (1 + V3.dot t t) * (p.c1 + V3.dot p t * t.c1 + t.c0 * p.c2 - t.c2 * p.c0),
        1 / (1 + V3.dot t t) * (p.c2 + V3.dot p t * t.c2 + t.c1 * p.c0 - t.c0 * p.c1)⟩
      ⟨1 / (1 + V3.dot t t) * (p.c0 + V3.dot p t * t.c0 + t.c2 * p.c1 - t.c1 * p.c2),
        1 / (1 + V3.dot t t) * (p.c1 + V3.dot p t * t.c1 + t.c0 * p.c2 - t.c2 * p.c0),
        1 / (1 + V3.dot t t) * (p.c2 + V3.dot p t * t.c2 + t.c1 * p.c0 - t.c0 * p.c1)⟩
      * (1 + V3.dot t t) = V3.dot p p + V3.dot p t ^ 2 := by
  have hb := dot_self_nonneg t
  have hne : 1 + V3.dot t t ≠ 0 := by linarith
  have e : ∀ s a b c : ℝ, V3.dot ⟨s * a, s * b, s * c⟩ ⟨s * a, s * b, s * c⟩
      = s ^ 2 * (a * a + b * b + c * c) := by intros; unfold V3.dot; ring
  rw [e, div_pow, one_pow]
  have e2 : (p.c0 + V3.dot p t * t.c0 + t.c2 * p.c1 - t.c1 * p.c2)
      * (p.c0 + V3.dot p t * t.c0 + t.c2 * p.c1 - t.c1 * p.c2)
      + (p.c1 + V3.dot p t * t.c1 + t.c0 * p.c2 - t.c2 * p.c0)
      * (p.c1 + V3.dot p t * t.c1 + t.c0 * p.c2 - t.c2 * p.c0)
      + (p.c2 + V3.dot p t * t.c2 + t.c1 * p.c0 - t.c0 * p.c1)
      * (p.c2 + V3.dot p t * t.c2 + t.c1 * p.c0 - t.c0 * p.c1)
      = (1 + V3.dot t t) * (V3.dot p p + V3.dot p t ^ 2) := by unfold V3.dot; ring
  rw [e2]
  field_simp

/-- squared momentum after the push -/
theorem vayMom_dot (u b : V3) :
    V3.dot (vayMom u b) (vayMom u b) * (1 + V3.dot b b / vayX u b) =
      V3.dot u u + (V3.dot u u * V3.dot b b - V3.dot u b ^ 2)
        * (LIGHT_SPEED_POW_2 / (LIGHT_SPEED_POW_2 + V3.dot u u)) + V3.dot u b ^ 2 / vayX u b := by
  have c := c2_pos
  have hu := dot_self_nonneg u
  have hX := vayX_pos u b
  have hg := getGammaInv_sq hu
  unfold vayMom
  dsimp only
  generalize hga : getGammaInv (V3.dot u u) = ga at *
  -- the intermediate momentum
  obtain ⟨p, hp⟩ : ∃ p : V3, p = ⟨u.c0 + ga * (u.c1 * b.c2 - u.c2 * b.c1),
     u.c1 + ga * (u.c2 * b.c0 - u.c0 * b.c2), u.c2 + ga * (u.c0 * b.c1 - u.c1 * b.c0)⟩ := ⟨_, rfl⟩
  have pp : V3.dot p p = V3.dot u u + (V3.dot u u * V3.dot b b - V3.dot u b ^ 2)
        * (LIGHT_SPEED_POW_2 / (LIGHT_SPEED_POW_2 + V3.dot u u)) := by
    rw [← hg, hp]; unfold V3.dot; dsimp only; ring
  have pb : V3.dot p b = V3.dot u b := by rw [hp]; unfold V3.dot; dsimp only; ring
  rw [← hp]
  have ppos := dot_self_nonneg p
  have hal : 1 / getGammaInv (V3.dot p p) / getGammaInv (V3.dot p p)
      = 1 + V3.dot p p / LIGHT_SPEED_POW_2 := by
    have h := getGammaInv_sq ppos
    have h0 := (getGammaInv_pos ppos).ne'
    rw [div_div, ← pow_two, h]
    have : LIGHT_SPEED_POW_2 + V3.dot p p ≠ 0 := by linarith
    field_simp
  rw [hal, pb, pp]
  have hXe : 1 / 2 * (1 + (V3.dot u u + (V3.dot u u * V3.dot b b - V3.dot u b ^ 2)
        * (LIGHT_SPEED_POW_2 / (LIGHT_SPEED_POW_2 + V3.dot u u))) / LIGHT_SPEED_POW_2 - V3.dot b b
      + Real.sqrt ((1 + (V3.dot u u + (V3.dot u u * V3.dot b b - V3.dot u b ^ 2)
        * (LIGHT_SPEED_POW_2 / (LIGHT_SPEED_POW_2 + V3.dot u u))) / LIGHT_SPEED_POW_2 - V3.dot b b)
        * (1 + (V3.dot u u + (V3.dot u u * V3.dot b b - V3.dot u b ^ 2)
        * (LIGHT_SPEED_POW_2 / (LIGHT_SPEED_POW_2 + V3.dot u u))) / LIGHT_SPEED_POW_2 - V3.dot b b)
        + 4 * (V3.dot b b + V3.dot u b ^ 2))) = vayX u b := rfl
  rw [hXe]
  have hs2 : (1 / Real.sqrt (vayX u b)) ^ 2 = 1 / vayX u b := by
    rw [div_pow, one_pow, Real.sq_sqrt hX.le]
  generalize 1 / Real.sqrt (vayX u b) = a at *
  have e1 : V3.dot p (b.smul a) = a * V3.dot p b := by unfold V3.dot V3.smul; ring
  have e2 : V3.dot b b / vayX u b = V3.dot (b.smul a) (b.smul a) := by rw [dot_smul, hs2]; ring
  have e3 : V3.dot u b ^ 2 / vayX u b = V3.dot p (b.smul a) ^ 2 := by
    rw [e1, pb, mul_pow, hs2]; ring
  rw [e2, e3, ← pp]
  have p0 : u.c0 + ga * (u.c1 * b.c2 - u.c2 * b.c1) = p.c0 := by rw [hp]
  have p1 : u.c1 + ga * (u.c2 * b.c0 - u.c0 * b.c2) = p.c1 := by rw [hp]
  have p2 : u.c2 + ga * (u.c0 * b.c1 - u.c1 * b.c0) = p.c2 := by rw [hp]
  rw [p0, p1, p2]
  exact vay_rotation p (b.smul a)

/-- the rapidity map is injective -/
theorem slow_inj {x y : ℝ} (hx : 0 ≤ x) (hy : 0 ≤ y)
    (h : getGammaInv x ^ 2 * x = getGammaInv y ^ 2 * y) : x = y := by
  have c := c2_pos
  rw [getGammaInv_sq hx, getGammaInv_sq hy, div_mul_eq_mul_div, div_mul_eq_mul_div,
    div_eq_div_iff (by linarith) (by linarith)] at h
  have : LIGHT_SPEED_POW_2 ^ 2 * (x - y) = 0 := by linarith [h, (by ring :
    LIGHT_SPEED_POW_2 ^ 2 * (x - y) = LIGHT_SPEED_POW_2 * x * (LIGHT_SPEED_POW_2 + y)
      - LIGHT_SPEED_POW_2 * y * (LIGHT_SPEED_POW_2 + x))]
  rcases mul_eq_zero.1 this with h | h
  · exact absurd h (by positivity)
  · linarith

/-- speed after the push in terms of momenta -/
theorem vay_speed {v : V3} {g : ℝ} (hs : V3.dot v v < LIGHT_SPEED_POW_2)
    (hg : getGamma (V3.dot v v) = some g) (w : V3) :
    V3.dot (w.smul (getGammaInv (V3.dot w w))) (w.smul (getGammaInv (V3.dot w w))) = V3.dot v v ↔
      V3.dot w w = V3.dot (v.smul g) (v.smul g) := by
  have gp := (gamma_sq hs hg).1
  have hv : V3.dot v v = getGammaInv (V3.dot (v.smul g) (v.smul g)) ^ 2
      * V3.dot (v.smul g) (v.smul g) := by
    rw [dot_smul, gammaInv_of_gamma (dot_self_nonneg _) hs hg]
    field_simp
  rw [dot_smul]
  constructor
  · intro h
    apply slow_inj (dot_self_nonneg _) (dot_self_nonneg _)
    rw [h]; exact hv
  · intro h; rw [h]; exact hv.symm

theorem vayX_eq_of_perp {u b : V3} (hub : V3.dot u b = 0) :
    vayX u b = (LIGHT_SPEED_POW_2 + V3.dot u u) / LIGHT_SPEED_POW_2 := by
  have c := c2_pos
  have hu := dot_self_nonneg u
  have hb := dot_self_nonneg b
  unfold vayX
  dsimp only
  rw [hub]
  have hC : LIGHT_SPEED_POW_2 + V3.dot u u ≠ 0 := by linarith
  have hC0 := c.ne'
  have e : (1 + (V3.dot u u + (V3.dot u u * V3.dot b b - 0 ^ 2)
      * (LIGHT_SPEED_POW_2 / (LIGHT_SPEED_POW_2 + V3.dot u u))) / LIGHT_SPEED_POW_2 - V3.dot b b)
      = (LIGHT_SPEED_POW_2 + V3.dot u u) / LIGHT_SPEED_POW_2
        - V3.dot b b * (LIGHT_SPEED_POW_2 / (LIGHT_SPEED_POW_2 + V3.dot u u)) := by
    field_simp; ring
  rw [e]
  have hk : (LIGHT_SPEED_POW_2 + V3.dot u u) / LIGHT_SPEED_POW_2
      * (LIGHT_SPEED_POW_2 / (LIGHT_SPEED_POW_2 + V3.dot u u)) = 1 := by field_simp
  have kp : 0 < (LIGHT_SPEED_POW_2 + V3.dot u u) / LIGHT_SPEED_POW_2 := by positivity
  have jp : 0 < LIGHT_SPEED_POW_2 / (LIGHT_SPEED_POW_2 + V3.dot u u) := by positivity
  generalize (LIGHT_SPEED_POW_2 + V3.dot u u) / LIGHT_SPEED_POW_2 = K at *
  generalize LIGHT_SPEED_POW_2 / (LIGHT_SPEED_POW_2 + V3.dot u u) = J at *
  have e2 : (K - V3.dot b b * J) * (K - V3.dot b b * J) + 4 * (V3.dot b b + 0 ^ 2)
      = (K + V3.dot b b * J) ^ 2 := by
    have : V3.dot b b = V3.dot b b * (K * J) := by rw [hk, mul_one]
    nlinarith
  rw [e2, Real.sqrt_sq (by positivity)]
  ring

/-- **C18**, Vay pusher, fields perpendicular to the velocity: the speed is unchanged. -/
theorem C18_vay_perp_partial (dt q m : ℝ) (hm : m ≠ 0) (h v : V3)
    (hv : speedSq v < LIGHT_SPEED ^ 2) (ht : AboveThreshold v) (hperp : V3.dot v h = 0) :
    ∃ v', push .vay false dt q m V3.zero h v = some v' ∧ speedSq v' = speedSq v := by
  have hm2 : ¬ (2 * m = 0) := by simpa using hm
  have ec : LIGHT_SPEED ^ 2 = LIGHT_SPEED_POW_2 := rfl
  rw [ec, speedSq_eq] at hv
  have c := c2_pos
  have hg := getGamma_some hv
  generalize 1 / Real.sqrt (1 - V3.dot v v / LIGHT_SPEED_POW_2) = g at hg
  refine ⟨_, by
    show vayCore dt q m V3.zero h v = _
    rw [vay_zeroE dt q m hm2, snap_eq ht, hg, Option.map_some], ?_⟩
  dsimp only
  generalize MAGN_CONST * (q * dt / (2 * m)) * (2 * (q * dt / (2 * m))) * (q * dt / (2 * m)) = β
  rw [speedSq_eq, speedSq_eq, vay_speed hv hg]
  have hub : V3.dot (v.smul g) (h.smul β) = 0 := by
    have : V3.dot (v.smul g) (h.smul β) = g * β * V3.dot v h := by unfold V3.dot V3.smul; ring
    rw [this, hperp, mul_zero]
  have key := vayMom_dot (v.smul g) (h.smul β)
  rw [vayX_eq_of_perp hub, hub] at key
  have hu := dot_self_nonneg (v.smul g)
  have hb := dot_self_nonneg (h.smul β)
  generalize v.smul g = u at *
  generalize h.smul β = b at *
  generalize V3.dot (vayMom u b) (vayMom u b) = W at *
  have hC : LIGHT_SPEED_POW_2 + V3.dot u u ≠ 0 := by linarith
  have hne : 1 + V3.dot b b / ((LIGHT_SPEED_POW_2 + V3.dot u u) / LIGHT_SPEED_POW_2) ≠ 0 := by
    have : 0 ≤ V3.dot b b / ((LIGHT_SPEED_POW_2 + V3.dot u u) / LIGHT_SPEED_POW_2) := by positivity
    linarith
  apply mul_right_cancel₀ hne
  rw [key]
  have hC0 := c.ne'
  field_simp
  ring

/-- **C18 is violated by the Vay pusher** for every velocity that is neither perpendicular nor
parallel to the magnetic field: the term `us2` of the code lacks a division by `c²`. -/
theorem C18_vay_violated (dt q m : ℝ) (hm : m ≠ 0) (hq : q ≠ 0) (hdt : dt ≠ 0) (h v v' : V3)
    (hv : speedSq v < LIGHT_SPEED ^ 2) (ht : AboveThreshold v)
    (h1 : V3.dot v h ≠ 0) (h2 : V3.cross v h ≠ V3.zero)
    (hp : push .vay false dt q m V3.zero h v = some v') : speedSq v' ≠ speedSq v := by
  have hm2 : ¬ (2 * m = 0) := by simpa using hm
  have ec : LIGHT_SPEED ^ 2 = LIGHT_SPEED_POW_2 := rfl
  rw [ec, speedSq_eq] at hv
  have c := c2_pos
  have hg := getGamma_some hv
  generalize 1 / Real.sqrt (1 - V3.dot v v / LIGHT_SPEED_POW_2) = g at hg
  have gp := (gamma_sq hv hg).1
  have hp' : vayCore dt q m V3.zero h v = some v' := hp
  rw [vay_zeroE dt q m hm2, snap_eq ht, hg, Option.map_some, Option.some.injEq] at hp'
  dsimp only at hp'
  have hβ : MAGN_CONST * (q * dt / (2 * m)) * (2 * (q * dt / (2 * m))) * (q * dt / (2 * m)) ≠ 0 := by
    have : MAGN_CONST ≠ 0 := MAGN_CONST_pos.ne'
    have : q * dt / (2 * m) ≠ 0 := div_ne_zero (mul_ne_zero hq hdt) hm2
    positivity
  generalize MAGN_CONST * (q * dt / (2 * m)) * (2 * (q * dt / (2 * m))) * (q * dt / (2 * m)) = β
    at *
  rw [← hp', speedSq_eq, speedSq_eq, Ne, vay_speed hv hg]
  have hub : V3.dot (v.smul g) (h.smul β) ≠ 0 := by
    have : V3.dot (v.smul g) (h.smul β) = g * β * V3.dot v h := by unfold V3.dot V3.smul; ring
    rw [this]; exact mul_ne_zero (mul_ne_zero gp.ne' hβ) h1
  have hcr : V3.dot (v.smul g) (v.smul g) * V3.dot (h.smul β) (h.smul β)
      - V3.dot (v.smul g) (h.smul β) ^ 2 ≠ 0 := by
    have e : V3.dot (v.smul g) (v.smul g) * V3.dot (h.smul β) (h.smul β)
      - V3.dot (v.smul g) (h.smul β) ^ 2 = (g * β) ^ 2 * V3.dot (V3.cross v h) (V3.cross v h) := by
      unfold V3.dot V3.smul V3.cross; ring
    rw [e]
    refine mul_ne_zero (pow_ne_zero 2 (mul_ne_zero gp.ne' hβ)) ?_
    intro h0
    apply h2
    generalize V3.cross v h = x at *
    unfold V3.dot at h0
    have a0 : x.c0 = 0 := by nlinarith [sq_nonneg x.c0, sq_nonneg x.c1, sq_nonneg x.c2]
    have a1 : x.c1 = 0 := by nlinarith [sq_nonneg x.c0, sq_nonneg x.c1, sq_nonneg x.c2]
    have a2 : x.c2 = 0 := by nlinarith [sq_nonneg x.c0, sq_nonneg x.c1, sq_nonneg x.c2]
    ext
    · exact a0
    · exact a1
    · exact a2
  intro hcon
  have key := vayMom_dot (v.smul g) (h.smul β)
  rw [hcon] at key
  have hu := dot_self_nonneg (v.smul g)
  have hb := dot_self_nonneg (h.smul β)
  have hX := vayX_pos (v.smul g) (h.smul β)
  have hXd : vayX (v.smul g) (h.smul β) = vayX (v.smul g) (h.smul β) := rfl
  conv_rhs at hXd => unfold vayX
  dsimp only at hXd
  generalize v.smul g = u at *
  generalize h.smul β = b at *
  generalize vayX u b = X at *
  have hw := sq_nonneg (V3.dot u b)
  have hlag := lagrange u b
  have hw0 : V3.dot u b ^ 2 ≠ 0 := pow_ne_zero 2 hub
  generalize V3.dot u u = U at *
  generalize V3.dot b b = B at *
  generalize V3.dot u b ^ 2 = W at *
  have hC0 := c.ne'
  have hc1 : LIGHT_SPEED_POW_2 ≠ 1 := by unfold LIGHT_SPEED_POW_2 LIGHT_SPEED; norm_num
  generalize LIGHT_SPEED_POW_2 = C at *
  have hCU : C + U ≠ 0 := by linarith
  -- X = (C + U) / C
  have hXv : X * C = C + U := by
    have e : (U * B - W) * (C / (C + U)) = (U * B - W) / X := by
      have : U + (U * B - W) * (C / (C + U)) + W / X = U * (1 + B / X) := key.symm
      have h3 : (U * B - W) / X = U * (B / X) - W / X := by ring
      rw [h3]; linarith
    have e2 : C / (C + U) = 1 / X := by
      apply mul_left_cancel₀ hcr
      rw [e]; ring
    rw [div_eq_div_iff hCU hX.ne'] at e2
    linarith
  obtain ⟨s, hsd⟩ : ∃ s, s = 1 + (U + (U * B - W) * (C / (C + U))) / C - B := ⟨_, rfl⟩
  rw [← hsd] at hXd
  have hroot : Real.sqrt (s * s + 4 * (B + W)) = 2 * X - s := by linarith
  have hsq := Real.sq_sqrt (show 0 ≤ s * s + 4 * (B + W) by nlinarith)
  rw [hroot] at hsq
  -- X² - sX = B + W
  have hq2 : X ^ 2 - s * X = B + W := by linarith [hsq, (by ring : (2 * X - s) ^ 2
    = 4 * (X ^ 2 - s * X) + s * s)]
  have hXe : X = (C + U) / C := by rw [eq_div_iff hC0]; exact hXv
  have hsX : s * X = X ^ 2 + (U * B - W) / C - B * X := by
    have : s = X + (U * B - W) / (C + U) - B := by
      rw [hsd, hXe]; field_simp; ring
    rw [this, hXe]; field_simp
  have : W = W / C := by
    have h4 : B * X - (U * B - W) / C = B + W := by linarith
    rw [hXe] at h4
    have h5 : B * ((C + U) / C) - (U * B - W) / C = B + W / C := by field_simp; ring
    linarith
  rw [eq_div_iff hC0] at this
  have : W * (C - 1) = 0 := by linarith
  rcases mul_eq_zero.1 this with h | h
  · exact hw0 h
  · exact hc1 (by linarith)

/-- the hypotheses of the two Vay theorems are met -/
example : V3.dot ⟨1e8, 0, 1e8⟩ ⟨0, 0, 3⟩ ≠ 0 ∧ V3.cross ⟨1e8, 0, 1e8⟩ ⟨0, 0, 3⟩ ≠ V3.zero ∧
    V3.dot ⟨1e8, 0, 0⟩ ⟨0, 0, 3⟩ = 0 := by
  refine ⟨by unfold V3.dot; norm_num, ?_, by unfold V3.dot; norm_num⟩
  intro h
  have := congrArg V3.c1 h
  unfold V3.cross V3.zero at this
  norm_num at this

/-! ## C20: free streaming -/

theorem vay_free (dt q m : ℝ) (hm2 : ¬ (2 * m = 0)) (v : V3)
    (hs : V3.dot (snap v) (snap v) < LIGHT_SPEED_POW_2) :
    vayCore dt q m V3.zero V3.zero v = some (snap v) := by
  have hg := getGamma_some hs
  generalize 1 / Real.sqrt (1 - V3.dot (snap v) (snap v) / LIGHT_SPEED_POW_2) = g at hg
  have gp := (gamma_sq hs hg).1
  unfold vayCore
  rw [if_neg hm2]
  simp only [hg, Option.map_some, smul_zero', add_zero']
  have z0 : V3.zero.c0 = 0 := rfl
  have z1 : V3.zero.c1 = 0 := rfl
  have z2 : V3.zero.c2 = 0 := rfl
  have zz : V3.dot V3.zero V3.zero = 0 := by unfold V3.dot V3.zero; ring
  simp only [z0, z1, z2, zz, mul_zero, zero_mul, sub_zero, add_zero, div_one, one_mul]
  have := gammaInv_of_gamma (dot_self_nonneg _) hs hg
  have e : (⟨((snap v).smul g).c0, ((snap v).smul g).c1, ((snap v).smul g).c2⟩ : V3)
      = (snap v).smul g := rfl
  rw [e, dot_smul, this, smul_smul', mul_one_div, div_self gp.ne', smul_one']

/-- **C20**. Without fields no pusher changes the velocity (components above the rounding
threshold). -/
theorem C20_free_streaming (mode : PusherMode) (garbage : Bool) (dt q m : ℝ) (hm : m ≠ 0) (v : V3)
    (hv : speedSq v < LIGHT_SPEED ^ 2) (ht : AboveThreshold v) :
    push mode garbage dt q m V3.zero V3.zero v = some v := by
  have ec : LIGHT_SPEED ^ 2 = LIGHT_SPEED_POW_2 := rfl
  rw [ec, speedSq_eq] at hv
  have hm2 : ¬ (2 * m = 0) := by simpa using hm
  have core : ∀ rel, borisCore rel dt q m V3.zero V3.zero v = some v := by
    intro rel
    unfold borisCore
    rw [if_neg hm2, snap_eq ht]
    cases rel
    · simp only [smul_zero', add_zero', Bool.false_eq_true, if_false, borisRotate_zero,
        Option.map_some]
    · have hg := getGamma_some hv
      generalize 1 / Real.sqrt (1 - V3.dot v v / LIGHT_SPEED_POW_2) = g at hg
      have gp := (gamma_sq hv hg).1
      simp only [if_true, hg, Option.map_some, smul_zero', add_zero', borisRotate_zero]
      rw [dot_smul, gammaInv_of_gamma (dot_self_nonneg _) hv hg, smul_smul', mul_one_div,
        div_self gp.ne', smul_one']
  cases mode with
  | vay =>
    have hs : V3.dot (snap v) (snap v) < LIGHT_SPEED_POW_2 := by rw [snap_eq ht]; exact hv
    show vayCore dt q m V3.zero V3.zero v = some v
    rw [vay_free dt q m hm2 v hs, snap_eq ht]
  | borisClassic => exact core false
  | borisRelativistic => exact core true
  | borisAdaptive => exact core (useRel garbage v)

/-! ## Concrete cases -/

/-- a velocity of half the light speed that meets all hypotheses -/
example : speedSq ⟨0, 9e7, -12e7⟩ < LIGHT_SPEED ^ 2 ∧ AboveThreshold ⟨0, 9e7, -12e7⟩ ∧
    RelativisticPush .borisAdaptive false ⟨0, 9e7, -12e7⟩ := by
  refine ⟨by unfold speedSq LIGHT_SPEED; norm_num, ⟨Or.inl rfl, Or.inr ?_, Or.inr ?_⟩,
    Or.inr (Or.inr ⟨rfl, ?_⟩)⟩
  · unfold MNZL; rw [abs_of_nonneg] <;> norm_num
  · unfold MNZL; rw [abs_of_nonpos] <;> norm_num
  · unfold useRel
    rw [snap_eq, if_pos]
    · unfold REL_LIMIT_POW_2; norm_num
    · refine ⟨Or.inl rfl, Or.inr ?_, Or.inr ?_⟩
      · unfold MNZL; rw [abs_of_nonneg] <;> norm_num
      · unfold MNZL; rw [abs_of_nonpos] <;> norm_num

end Verif
