import Verif.PusherProps

/-!
# The equation of motion solved by the velocity push (C57, C58)

Specification: `LorentzStep`: the Lorentz force with the mean of the old and the new momentum.
-/

namespace Verif

/-! ## Specification -/

/-- Momentum per mass of a particle with velocity `v` -/
noncomputable def momentum (relativistic : Bool) (v : V3) : V3 :=
  if relativistic then v.smul (1 / Real.sqrt (1 - speedSq v / LIGHT_SPEED ^ 2)) else v

/-- `m (u' - u) = q dt (E + w × B)`, where `u`, `u'` are the momenta per mass before and after the step, `w` the
velocity the magnetic force is taken at, `B = μ0 H`. -/
def LorentzStep (dt q m : ℝ) (e h u u' w : V3) : Prop :=
  u'.smul m = (u.smul m).add ((e.add (w.cross (h.smul MAGN_CONST))).smul (q * dt))

/-- The Lorentz factor after half of the electric kick (1 without relativity) -/
noncomputable def midGamma (relativistic : Bool) (dt q m : ℝ) (e u : V3) : ℝ :=
  if relativistic then Real.sqrt (1 + speedSq (u.add (e.smul (q * dt / (2 * m)))) / LIGHT_SPEED ^ 2) else 1

/-! ## Helpers -/

/-- the rotation solves its implicit equation -/
theorem borisRotate_eq (v b : V3) : borisRotate v b = v.add ((v.add (borisRotate v b)).cross b) := by
  have h : 1 + (b.c0 * b.c0 + b.c1 * b.c1 + b.c2 * b.c2) ≠ 0 := by
    nlinarith [sq_nonneg b.c0, sq_nonneg b.c1, sq_nonneg b.c2]
  unfold borisRotate V3.add V3.cross V3.dot
  ext <;> dsimp only <;> field_simp <;> ring

/-- the velocity of momentum `u` has momentum `u` -/
theorem momentum_of_velocity (u : V3) : momentum true (u.smul (getGammaInv (V3.dot u u))) = u := by
  have c := c2_pos
  have ec : LIGHT_SPEED ^ 2 = LIGHT_SPEED_POW_2 := rfl
  have hu := dot_self_nonneg u
  have hg := getGammaInv_pos hu
  have h2 := getGammaInv_sq hu
  unfold momentum
  rw [if_pos rfl, smul_smul', speedSq_eq, dot_smul, ec]
  have e : 1 - getGammaInv (V3.dot u u) ^ 2 * V3.dot u u / LIGHT_SPEED_POW_2 = getGammaInv (V3.dot u u) ^ 2 := by
    rw [h2]
    have : LIGHT_SPEED_POW_2 + V3.dot u u ≠ 0 := by linarith
    have := c.ne'
    field_simp
    ring
  rw [e, Real.sqrt_sq hg.le, mul_one_div, div_self hg.ne', smul_one']

/-! ## C57 -/

/-- which formulas a mode uses -/
noncomputable def isRelativistic (mode : PusherMode) (garbage : Bool) (v : V3) : Bool := match mode with
  | .borisClassic => false
  | .borisRelativistic => true
  | .borisAdaptive => useRel garbage v
  | .vay => true

/-- **C57**, Boris pushers. The momentum after the push is the solution of the Lorentz force equation in which the
magnetic force is taken at the mean of the old and the new momentum over the Lorentz factor in the middle of the step.
The equation determines the new momentum. Only the relativistic formulas need a speed below that of light. -/
theorem C57_boris_lorentz (mode : PusherMode) (garbage : Bool) (hmode : mode ≠ .vay) (dt q m : ℝ) (hm : m ≠ 0)
    (e h v : V3) (hv : isRelativistic mode garbage v = true → speedSq v < LIGHT_SPEED ^ 2) (ht : AboveThreshold v) :
    let rel := isRelativistic mode garbage v
    let u := momentum rel v
    ∃ v', push mode garbage dt q m e h v = some v' ∧
      LorentzStep dt q m e h u (momentum rel v')
        ((u.add (momentum rel v')).smul (1 / (2 * midGamma rel dt q m e u))) ∧
      ∀ u', LorentzStep dt q m e h u u' ((u.add u').smul (1 / (2 * midGamma rel dt q m e u))) →
        u' = momentum rel v' := by
  have ec : LIGHT_SPEED ^ 2 = LIGHT_SPEED_POW_2 := rfl
  have hm2 : ¬ (2 * m = 0) := by simpa using hm
  -- the step in terms of momenta
  have core : ∀ rel, (rel = true → speedSq v < LIGHT_SPEED ^ 2) → ∃ v', borisCore rel dt q m e h v = some v' ∧
      momentum rel v' = (borisRotate ((momentum rel v).add (e.smul (q * dt / (2 * m))))
        (h.smul (MAGN_CONST * (q * dt / (2 * m)) / midGamma rel dt q m e (momentum rel v)))).add
          (e.smul (q * dt / (2 * m))) := by
    intro rel hv'
    unfold borisCore
    rw [if_neg hm2, snap_eq ht]
    cases rel
    · refine ⟨_, by simp only [Bool.false_eq_true, if_false, Option.map_some]; rfl, ?_⟩
      simp [momentum, midGamma]
    · have hg := hv' rfl
      rw [ec, speedSq_eq] at hg
      have hg := getGamma_some hg
      simp only [if_true, hg, Option.map_some]
      refine ⟨_, rfl, ?_⟩
      rw [momentum_of_velocity]
      have e1 : momentum true v = v.smul (1 / Real.sqrt (1 - V3.dot v v / LIGHT_SPEED_POW_2)) := by
        unfold momentum; rw [if_pos rfl, speedSq_eq, ec]
      rw [← e1]
      generalize momentum true v = u
      have hu := dot_self_nonneg (u.add (e.smul (q * dt / (2 * m))))
      have e2 : getGammaInv (V3.dot (u.add (e.smul (q * dt / (2 * m)))) (u.add (e.smul (q * dt / (2 * m))))) =
          1 / midGamma true dt q m e u := by
        rw [getGammaInv_eq hu]; unfold midGamma; rw [if_pos rfl, speedSq_eq, ec]
      rw [e2, smul_smul', mul_one_div]
  -- the algebra
  have alg : ∀ (g : ℝ), g ≠ 0 → ∀ u u' : V3,
      u' = (borisRotate (u.add (e.smul (q * dt / (2 * m)))) (h.smul (MAGN_CONST * (q * dt / (2 * m)) / g))).add
        (e.smul (q * dt / (2 * m))) → LorentzStep dt q m e h u u' ((u.add u').smul (1 / (2 * g))) := by
    intro g hg u u' hu'
    have hr := borisRotate_eq (u.add (e.smul (q * dt / (2 * m)))) (h.smul (MAGN_CONST * (q * dt / (2 * m)) / g))
    generalize borisRotate (u.add (e.smul (q * dt / (2 * m)))) (h.smul (MAGN_CONST * (q * dt / (2 * m)) / g)) = w at *
    have p0 := congrArg V3.c0 hr
    have p1 := congrArg V3.c1 hr
    have p2 := congrArg V3.c2 hr
    subst hu'
    unfold LorentzStep
    simp only [V3.add, V3.smul, V3.cross] at *
    have k : q * dt / (2 * m) * m = q * dt / 2 := by field_simp
    ext <;> dsimp only
    · linear_combination m * p0 + (e.c0 - e.c0 + 2 * e.c0) * k + (((u.c1 + e.c1 * (q * dt / (2 * m)) + w.c1) * (h.c2 * (MAGN_CONST / g)) - (u.c2 + e.c2 * (q * dt / (2 * m)) + w.c2) * (h.c1 * (MAGN_CONST / g)))) * k
    · linear_combination m * p1 + (2 * e.c1) * k + (((u.c2 + e.c2 * (q * dt / (2 * m)) + w.c2) * (h.c0 * (MAGN_CONST / g)) - (u.c0 + e.c0 * (q * dt / (2 * m)) + w.c0) * (h.c2 * (MAGN_CONST / g)))) * k
    · linear_combination m * p2 + (2 * e.c2) * k + (((u.c0 + e.c0 * (q * dt / (2 * m)) + w.c0) * (h.c1 * (MAGN_CONST / g)) - (u.c1 + e.c1 * (q * dt / (2 * m)) + w.c1) * (h.c0 * (MAGN_CONST / g)))) * k
  have uniq : ∀ (g : ℝ), g ≠ 0 → ∀ u u' u'' : V3, LorentzStep dt q m e h u u' ((u.add u').smul (1 / (2 * g))) →
      LorentzStep dt q m e h u u'' ((u.add u'').smul (1 / (2 * g))) → u'' = u' := by
    intro g hg u u' u'' h1 h2
    unfold LorentzStep at h1 h2
    simp only [V3.add, V3.smul, V3.cross, V3.mk.injEq] at h1 h2
    obtain ⟨a0, a1, a2⟩ := h1
    obtain ⟨b0, b1, b2⟩ := h2
    -- the difference `d` satisfies `m d = k d × h`, so `m |d|² = 0`
    have d0 := sub_eq_sub_iff_add_eq_add.2 (congrArg₂ (· + ·) b0 a0.symm)
    have key : m * ((u''.c0 - u'.c0) ^ 2 + (u''.c1 - u'.c1) ^ 2 + (u''.c2 - u'.c2) ^ 2) = 0 := by
      linear_combination (u''.c0 - u'.c0) * (b0 - a0) + (u''.c1 - u'.c1) * (b1 - a1) + (u''.c2 - u'.c2) * (b2 - a2)
    have key2 := (mul_eq_zero.1 key).resolve_left hm
    have s0 := sq_nonneg (u''.c0 - u'.c0)
    have s1 := sq_nonneg (u''.c1 - u'.c1)
    have s2 := sq_nonneg (u''.c2 - u'.c2)
    ext
    · have : (u''.c0 - u'.c0) ^ 2 = 0 := by linarith
      have := pow_eq_zero_iff (two_ne_zero) |>.1 this
      linarith
    · have : (u''.c1 - u'.c1) ^ 2 = 0 := by linarith
      have := pow_eq_zero_iff (two_ne_zero) |>.1 this
      linarith
    · have : (u''.c2 - u'.c2) ^ 2 = 0 := by linarith
      have := pow_eq_zero_iff (two_ne_zero) |>.1 this
      linarith
  have gne : ∀ rel u, midGamma rel dt q m e u ≠ 0 := by
    intro rel u
    unfold midGamma
    cases rel
    · simp
    · rw [if_pos rfl]
      have c := c2_pos
      have hu := dot_self_nonneg (u.add (e.smul (q * dt / (2 * m))))
      have : 0 ≤ speedSq (u.add (e.smul (q * dt / (2 * m)))) / LIGHT_SPEED ^ 2 := by
        rw [speedSq_eq, ec]; positivity
      exact (Real.sqrt_pos.2 (by linarith)).ne'
  have fin : ∀ rel, (rel = true → speedSq v < LIGHT_SPEED ^ 2) → ∃ v', borisCore rel dt q m e h v = some v' ∧
      LorentzStep dt q m e h (momentum rel v) (momentum rel v')
        (((momentum rel v).add (momentum rel v')).smul (1 / (2 * midGamma rel dt q m e (momentum rel v)))) ∧
      ∀ u', LorentzStep dt q m e h (momentum rel v) u' (((momentum rel v).add u').smul
        (1 / (2 * midGamma rel dt q m e (momentum rel v)))) → u' = momentum rel v' := by
    intro rel hr
    obtain ⟨v', a, b⟩ := core rel hr
    have l := alg _ (gne rel _) _ _ b
    exact ⟨v', a, l, fun u' hu' => uniq _ (gne rel _) _ _ _ l hu'⟩
  cases mode with
  | vay => exact absurd rfl hmode
  | borisClassic => exact fin false hv
  | borisRelativistic => exact fin true hv
  | borisAdaptive => exact fin (useRel garbage v) hv

/-- **C57**, electric field only: every pusher, the Vay pusher included, changes the momentum by `q E dt / m`. -/
theorem C57_electric_kick (mode : PusherMode) (garbage : Bool) (dt q m : ℝ) (hm : m ≠ 0)
    (e v : V3) (hv : speedSq v < LIGHT_SPEED ^ 2) (ht : AboveThreshold v) :
    ∃ v', push mode garbage dt q m e V3.zero v = some v' ∧
      momentum (isRelativistic mode garbage v) v' =
        (momentum (isRelativistic mode garbage v) v).add (e.smul (q * dt / m)) := by
  by_cases hmode : mode = .vay
  · subst hmode
    have ec : LIGHT_SPEED ^ 2 = LIGHT_SPEED_POW_2 := rfl
    have hm2 : ¬ (2 * m = 0) := by simpa using hm
    have hv' := hv
    rw [ec, speedSq_eq] at hv'
    have hg := getGamma_some hv'
    have e1 : momentum true v = v.smul (1 / Real.sqrt (1 - V3.dot v v / LIGHT_SPEED_POW_2)) := by
      unfold momentum; rw [if_pos rfl, speedSq_eq, ec]
    unfold push vayCore
    rw [if_neg hm2, snap_eq ht]
    simp only [hg, Option.map_some, smul_zero']
    refine ⟨_, rfl, ?_⟩
    have z0 : V3.zero.c0 = 0 := rfl
    have z1 : V3.zero.c1 = 0 := rfl
    have z2 : V3.zero.c2 = 0 := rfl
    have zz : V3.dot V3.zero V3.zero = 0 := by unfold V3.dot V3.zero; ring
    simp only [z0, z1, z2, zz, mul_zero, zero_mul, sub_zero, add_zero, div_one, one_mul, isRelativistic]
    rw [momentum_of_velocity, ← e1]
    have : 2 * (q * dt / (2 * m)) = q * dt / m := by field_simp
    rw [this]
  · obtain ⟨v', a, b, -⟩ := C57_boris_lorentz mode garbage hmode dt q m hm e V3.zero v (fun _ => hv) ht
    refine ⟨v', a, ?_⟩
    unfold LorentzStep at b
    simp only [V3.add, V3.smul, V3.cross, V3.zero, V3.mk.injEq] at b
    obtain ⟨b0, b1, b2⟩ := b
    unfold V3.add V3.smul
    ext <;> dsimp only
    · apply mul_right_cancel₀ hm; rw [b0]; field_simp; ring
    · apply mul_right_cancel₀ hm; rw [b1]; field_simp; ring
    · apply mul_right_cancel₀ hm; rw [b2]; field_simp; ring

/-- **C57 is violated by the Vay pusher**: the magnetic field is multiplied by `q dt / (2 m)` three times. A particle
with unit charge, mass and time step at 3/5 of the speed of light across a magnetic field is turned by the wrong
angle. -/
theorem C57_vay_violated : ∃ (h v v' : V3), speedSq v < LIGHT_SPEED ^ 2 ∧ AboveThreshold v ∧
    push .vay false 1 1 1 V3.zero h v = some v' ∧
    ¬ LorentzStep 1 1 1 V3.zero h (momentum true v) (momentum true v') ((v.add v').smul (1 / 2)) := by
  have hmu := MAGN_CONST_pos.ne'
  let v : V3 := ⟨180000000, 0, 0⟩
  let h : V3 := ⟨0, 0, 1 / MAGN_CONST⟩
  have hc : LIGHT_SPEED_POW_2 = 90000000000000000 := by unfold LIGHT_SPEED_POW_2 LIGHT_SPEED; norm_num
  have ec : LIGHT_SPEED ^ 2 = LIGHT_SPEED_POW_2 := rfl
  have hdot : V3.dot v v = 32400000000000000 := by simp only [V3.dot, v]; norm_num
  have hv : speedSq v < LIGHT_SPEED ^ 2 := by rw [speedSq_eq, hdot, ec, hc]; norm_num
  have ht : AboveThreshold v := by
    refine ⟨Or.inr ?_, Or.inl rfl, Or.inl rfl⟩
    simp only [v]; unfold MNZL; norm_num
  have hs : Real.sqrt (1 - V3.dot v v / LIGHT_SPEED_POW_2) = 4 / 5 := by
    rw [hdot, hc, show (1 - 32400000000000000 / 90000000000000000 : ℝ) = (4 / 5) ^ 2 by norm_num]
    exact Real.sqrt_sq (by norm_num)
  have hg : getGamma (V3.dot v v) = some (5 / 4) := by
    rw [getGamma_some (by rw [← ec, ← speedSq_eq]; exact hv), hs]; norm_num
  have hu : v.smul (5 / 4) = ⟨225000000, 0, 0⟩ := by simp only [V3.smul, v]; ext <;> norm_num
  have mom : vayMom ⟨225000000, 0, 0⟩ ⟨0, 0, 1 / 4⟩ = ⟨2700000000 / 13, -(1125000000 / 13), 0⟩ := by
    have hX := vayX_eq_of_perp (u := ⟨225000000, 0, 0⟩) (b := ⟨0, 0, 1 / 4⟩) (by simp [V3.dot])
    have gi : getGammaInv (V3.dot ⟨225000000, 0, 0⟩ ⟨225000000, 0, 0⟩) = 4 / 5 := by
      have := gammaInv_of_gamma (dot_self_nonneg v) (by rw [← ec, ← speedSq_eq]; exact hv) hg
      rw [← hu, dot_smul, this]; norm_num
    unfold vayMom
    dsimp only
    rw [gi]
    have gi2 : 1 / getGammaInv (V3.dot ⟨225000000 + 4 / 5 * (0 * (1 / 4) - 0 * 0), 0 + 4 / 5 * (0 * 0 - 225000000 * (1 / 4)),
          0 + 4 / 5 * (225000000 * 0 - 0 * 0)⟩
        ⟨225000000 + 4 / 5 * (0 * (1 / 4) - 0 * 0), 0 + 4 / 5 * (0 * 0 - 225000000 * (1 / 4)),
          0 + 4 / 5 * (225000000 * 0 - 0 * 0)⟩) / getGammaInv (V3.dot ⟨225000000 + 4 / 5 * (0 * (1 / 4) - 0 * 0), 0 + 4 / 5 * (0 * 0 - 225000000 * (1 / 4)),
          0 + 4 / 5 * (225000000 * 0 - 0 * 0)⟩
        ⟨225000000 + 4 / 5 * (0 * (1 / 4) - 0 * 0), 0 + 4 / 5 * (0 * 0 - 225000000 * (1 / 4)),
          0 + 4 / 5 * (225000000 * 0 - 0 * 0)⟩) = 317 / 200 := by
      have hd : V3.dot ⟨225000000 + 4 / 5 * (0 * (1 / 4) - 0 * 0), 0 + 4 / 5 * (0 * 0 - 225000000 * (1 / 4)),
          0 + 4 / 5 * (225000000 * 0 - 0 * 0)⟩
        ⟨225000000 + 4 / 5 * (0 * (1 / 4) - 0 * 0), 0 + 4 / 5 * (0 * 0 - 225000000 * (1 / 4)),
          0 + 4 / 5 * (225000000 * 0 - 0 * 0)⟩ = (52650000000000000 : ℝ) := by unfold V3.dot; norm_num
      rw [hd, div_div, ← sq, getGammaInv_sq (by norm_num), hc]; norm_num
    rw [gi2]
    have r1 : (317 / 200 - V3.dot (⟨0, 0, 1 / 4⟩ : V3) ⟨0, 0, 1 / 4⟩ : ℝ) = 609 / 400 := by unfold V3.dot; norm_num
    have r2 : (V3.dot ⟨225000000 + 4 / 5 * (0 * (1 / 4) - 0 * 0), 0 + 4 / 5 * (0 * 0 - 225000000 * (1 / 4)),
          0 + 4 / 5 * (225000000 * 0 - 0 * 0)⟩ (⟨0, 0, 1 / 4⟩ : V3)) = 0 := by unfold V3.dot; norm_num
    have r3 : V3.dot (⟨0, 0, 1 / 4⟩ : V3) ⟨0, 0, 1 / 4⟩ = 1 / 16 := by unfold V3.dot; norm_num
    have r4 : Real.sqrt (609 / 400 * (609 / 400) + 4 * (1 / 16 + (0:ℝ) ^ 2)) = 641 / 400 := by
      rw [show (609 / 400 * (609 / 400) + 4 * (1 / 16 + (0:ℝ) ^ 2)) = (641 / 400) ^ 2 by norm_num]
      exact Real.sqrt_sq (by norm_num)
    have r5 : Real.sqrt (1 / 2 * (609 / 400 + 641 / 400) : ℝ) = 5 / 4 := by
      rw [show (1 / 2 * (609 / 400 + 641 / 400) : ℝ) = (5 / 4) ^ 2 by norm_num]
      exact Real.sqrt_sq (by norm_num)
    rw [r1, r2, r3, r4, r5]
    unfold V3.smul V3.dot
    ext <;> norm_num
  have hp : push .vay false 1 1 1 V3.zero h v = some (V3.smul
      (getGammaInv (V3.dot ⟨2700000000 / 13, -(1125000000 / 13), 0⟩ ⟨2700000000 / 13, -(1125000000 / 13), 0⟩))
      ⟨2700000000 / 13, -(1125000000 / 13), 0⟩) := by
    show vayCore 1 1 1 V3.zero h v = _
    rw [vay_zeroE 1 1 1 (by norm_num), snap_eq ht, hg, Option.map_some, hu]
    have hb : h.smul (MAGN_CONST * (1 * 1 / (2 * 1)) * (2 * (1 * 1 / (2 * 1))) * (1 * 1 / (2 * 1))) = ⟨0, 0, 1 / 4⟩ := by
      simp only [V3.smul, h]
      ext
      · dsimp only; ring
      · dsimp only; ring
      · dsimp only; field_simp; norm_num
    rw [hb]
    dsimp only
    rw [mom]
  refine ⟨h, v, _, hv, ht, hp, ?_⟩
  rw [momentum_of_velocity]
  have m1 : momentum true v = ⟨225000000, 0, 0⟩ := by
    unfold momentum; rw [if_pos rfl, speedSq_eq, ec, hs, ← hu]; norm_num
  have gi3 : getGammaInv (V3.dot ⟨2700000000 / 13, -(1125000000 / 13), 0⟩ ⟨2700000000 / 13, -(1125000000 / 13), 0⟩) = 4 / 5 := by
    have : V3.dot ⟨2700000000 / 13, -(1125000000 / 13), 0⟩ ⟨2700000000 / 13, -(1125000000 / 13), 0⟩ = (5 / 4) ^ 2 * V3.dot v v := by
      rw [hdot]; unfold V3.dot; norm_num
    rw [this, gammaInv_of_gamma (dot_self_nonneg v) (by rw [← ec, ← speedSq_eq]; exact hv) hg]; norm_num
  rw [m1, gi3]
  intro hl
  unfold LorentzStep at hl
  have := congrArg V3.c0 hl
  simp only [V3.add, V3.smul, V3.cross, V3.zero, h, v] at this
  rw [div_mul_cancel₀ _ hmu] at this
  norm_num at this

/-! ## C58 -/

/-- **C58**, partial: except for the adaptive mode below its relativistic limit, the result of the push is a function
of the time step, the particle and the fields. -/
theorem C58_push_deterministic_partial (mode : PusherMode) (dt q m : ℝ) (e h v : V3) (ht : AboveThreshold v)
    (hmode : mode ≠ .borisAdaptive ∨ 50000000 ^ 2 < speedSq v) (garbage garbage' : Bool) :
    push mode garbage dt q m e h v = push mode garbage' dt q m e h v := by
  cases mode with
  | vay => rfl
  | borisClassic => rfl
  | borisRelativistic => rfl
  | borisAdaptive =>
    have hs : 50000000 ^ 2 < speedSq v := hmode.resolve_left (by simp)
    have hu : ∀ g, useRel g v = true := by
      intro g
      unfold useRel
      rw [snap_eq ht, if_pos]
      unfold speedSq at hs
      unfold REL_LIMIT_POW_2
      norm_num at hs ⊢
      linarith
    unfold push
    rw [hu, hu]

/-- **C58 is violated by the adaptive mode**: the flag that selects the formulas is not initialised. For the same
particle and fields the result is `1e9 m/s` (three times the speed of light) or a velocity below the speed of light. -/
theorem C58_adaptive_violated : ∃ (dt q m : ℝ) (e h v v1 v2 : V3), 0 < dt ∧ 0 < m ∧ AboveThreshold v ∧
    push .borisAdaptive false dt q m e h v = some v1 ∧ push .borisAdaptive true dt q m e h v = some v2 ∧
    speedSq v2 < LIGHT_SPEED ^ 2 ∧ LIGHT_SPEED ^ 2 < speedSq v1 := by
  have hs : snap V3.zero = V3.zero := snap_eq ⟨Or.inl rfl, Or.inl rfl, Or.inl rfl⟩
  have hu : ∀ g, useRel g V3.zero = g := by
    intro g
    unfold useRel
    rw [hs, if_neg]
    unfold V3.zero REL_LIMIT_POW_2; norm_num
  have ht : AboveThreshold V3.zero := ⟨Or.inl rfl, Or.inl rfl, Or.inl rfl⟩
  have hv : speedSq V3.zero < LIGHT_SPEED ^ 2 := by unfold speedSq V3.zero LIGHT_SPEED; norm_num
  obtain ⟨v1, a1, b1⟩ := C57_electric_kick .borisAdaptive false 1 1 1 one_ne_zero ⟨1000000000, 0, 0⟩ V3.zero hv ht
  obtain ⟨v2, a2, b2⟩ := C19_push_subluminal .borisAdaptive true 1 1 1 one_ne_zero ⟨1000000000, 0, 0⟩ V3.zero V3.zero
    (Or.inr (Or.inr ⟨rfl, hu true⟩)) hv.le
  refine ⟨1, 1, 1, ⟨1000000000, 0, 0⟩, V3.zero, V3.zero, v1, v2, one_pos, one_pos, ht, a1, a2, b2, ?_⟩
  simp only [isRelativistic, hu, momentum, Bool.false_eq_true, if_false] at b1
  rw [b1]
  unfold speedSq V3.add V3.zero V3.smul LIGHT_SPEED; norm_num

/-! ## Concrete cases -/

/-- C57: half the speed of light, the bound of the hypotheses is met with room. -/
example : speedSq ⟨0, 90000000, -120000000⟩ < LIGHT_SPEED ^ 2 ∧ AboveThreshold ⟨0, 90000000, -120000000⟩ ∧
    50000000 ^ 2 < speedSq ⟨0, 90000000, -120000000⟩ := by
  refine ⟨by unfold speedSq LIGHT_SPEED; norm_num, ⟨Or.inl rfl, Or.inr ?_, Or.inr ?_⟩, by unfold speedSq; norm_num⟩
  · unfold MNZL; rw [abs_of_nonneg] <;> norm_num
  · unfold MNZL; rw [abs_of_nonpos] <;> norm_num

end Verif
