import Verif.PushConverge
import Mathlib.Analysis.SpecialFunctions.Trigonometric.Deriv

/-!
# Motions the pushers follow and motions they do not follow (C112)
-/

namespace Verif

open PushConverge RoundedPush

namespace PushConverge

/-! ## Motions -/

/-- a circle in a magnetic field: momentum `2c (cos t + sin t, cos t - sin t, 0)`, Lorentz factor 3 -/
noncomputable def turning (t : ℝ) : V3 :=
  ⟨2 * LIGHT_SPEED * (Real.cos t + Real.sin t), 2 * LIGHT_SPEED * (Real.cos t - Real.sin t), 0⟩

/-- the magnetic field of `turning` -/
noncomputable def turningField : V3 := ⟨0, 0, 3 / MAGN_CONST⟩

theorem turning_factor (t : ℝ) : lorentzFactor true (turning t) = 3 := by
  have c := c_pos
  unfold lorentzFactor
  rw [if_pos rfl]
  have : 1 + speedSq (turning t) / LIGHT_SPEED ^ 2 = 3 ^ 2 := by
    unfold speedSq turning
    dsimp only
    have := Real.sin_sq_add_cos_sq t
    field_simp
    nlinarith [this]
  rw [this, Real.sqrt_sq (by norm_num)]

theorem turning_motion (T : ℝ) : LorentzMotion true 1 1 T (fun _ => V3.zero) (fun _ => turningField) turning := by
  have mu := MAGN_CONST_pos.ne'
  refine ⟨⟨?_, ?_, ?_⟩, ?_⟩
  · exact contDiff_const.mul (Real.contDiff_cos.add Real.contDiff_sin)
  · exact contDiff_const.mul (Real.contDiff_cos.sub Real.contDiff_sin)
  · exact contDiff_const
  · intro t _ _
    have d0 : deriv (fun t => (turning t).c0) t = 2 * LIGHT_SPEED * (-Real.sin t + Real.cos t) :=
      (((Real.hasDerivAt_cos t).add (Real.hasDerivAt_sin t)).const_mul (2 * LIGHT_SPEED)).deriv
    have d1 : deriv (fun t => (turning t).c1) t = 2 * LIGHT_SPEED * (-Real.sin t - Real.cos t) :=
      (((Real.hasDerivAt_cos t).sub (Real.hasDerivAt_sin t)).const_mul (2 * LIGHT_SPEED)).deriv
    have d2 : deriv (fun t => (turning t).c2) t = 0 := by
      show deriv (fun _ => (0:ℝ)) t = 0
      simp
    rw [d0, d1, d2]
    unfold velocityAt
    rw [turning_factor]
    simp only [V3.smul, V3.add, V3.cross, V3.zero, turning, turningField]
    ext <;> dsimp only <;> field_simp <;> ring

/-- a particle speeding up along a line -/
noncomputable def speeding (p a t : ℝ) : V3 := ⟨p + a * t, 0, 0⟩

theorem speeding_motion (rel : Bool) (p a T : ℝ) :
    LorentzMotion rel 1 1 T (fun _ => ⟨a, 0, 0⟩) (fun _ => V3.zero) (speeding p a) := by
  refine ⟨⟨?_, ?_, ?_⟩, ?_⟩
  · exact contDiff_const.add (contDiff_const.mul contDiff_id)
  · exact contDiff_const
  · exact contDiff_const
  · intro t _ _
    have d0 : deriv (fun t => (speeding p a t).c0) t = a := by
      have := (((hasDerivAt_id t).const_mul a).const_add p).deriv
      rw [mul_one] at this
      exact this
    have d1 : deriv (fun t => (speeding p a t).c1) t = 0 := by
      show deriv (fun _ => (0:ℝ)) t = 0
      simp
    have d2 : deriv (fun t => (speeding p a t).c2) t = 0 := by
      show deriv (fun _ => (0:ℝ)) t = 0
      simp
    rw [d0, d1, d2]
    simp [V3.smul, V3.add, V3.cross, V3.zero]

/-- the relativistic push can be repeated -/
theorem run_exists {dt q m : ℝ} (hm : m ≠ 0) (e h : ℝ → V3) {v0 : V3} (h0 : speedSq v0 < LIGHT_SPEED ^ 2) :
    ∃ v : ℕ → V3, v 0 = v0 ∧ ∀ n : ℕ, push .borisRelativistic false dt q m (e ((n + 1 / 2) * dt)) (h ((n + 1 / 2) * dt)) (v n) =
      some (v (n + 1)) := by
  have st : ∀ (n : ℕ) (x : {x : V3 // speedSq x < LIGHT_SPEED ^ 2}), ∃ y : {x : V3 // speedSq x < LIGHT_SPEED ^ 2},
      push .borisRelativistic false dt q m (e ((n + 1 / 2) * dt)) (h ((n + 1 / 2) * dt)) x.1 = some y.1 := by
    intro n x
    obtain ⟨w, w1, w2⟩ := C19_push_subluminal .borisRelativistic false dt q m hm (e ((n + 1 / 2) * dt)) (h ((n + 1 / 2) * dt)) x.1
      (Or.inl rfl) x.2.le
    exact ⟨⟨w, w2⟩, w1⟩
  choose f hf using st
  let s : ℕ → {x : V3 // speedSq x < LIGHT_SPEED ^ 2} := fun n => Nat.rec ⟨v0, h0⟩ (fun n x => f n x) n
  exact ⟨fun n => (s n).1, rfl, fun n => hf n (s n)⟩

end PushConverge

/-- The circle meets the hypotheses of `C112_boris_error` for every time step up to a third of a second and every number of steps. -/
example (dt : ℝ) (h0 : 0 < dt) (h1 : dt ≤ 1 / 3) (N : ℕ) : ∃ v : ℕ → V3, v 0 = ⟨2 * LIGHT_SPEED / 3, 2 * LIGHT_SPEED / 3, 0⟩ ∧
    gap (momentum true (v N)) (turning (N * dt)) ≤ Real.exp (N * dt * growthRate 1 1 (3 / MAGN_CONST) (4 * LIGHT_SPEED)) *
      (gap (momentum true (v 0)) (turning 0) + N * dt * (stepError dt 1 1 (3 / MAGN_CONST) (4 * LIGHT_SPEED) (4 * LIGHT_SPEED)
        (4 * LIGHT_SPEED) * dt ^ 2 + (1 + dt * growthRate 1 1 (3 / MAGN_CONST) (4 * LIGHT_SPEED)) *
          (4 * (1 + ((momentum true (v 0)).len + N * dt * (|1 / 1| * 0)) / LIGHT_SPEED) ^ 3 * 1e-15 / dt))) := by
  have c := c_pos
  have mu := MAGN_CONST_pos
  have hs : speedSq (⟨2 * LIGHT_SPEED / 3, 2 * LIGHT_SPEED / 3, 0⟩ : V3) < LIGHT_SPEED ^ 2 := by unfold speedSq LIGHT_SPEED; norm_num
  obtain ⟨v, v0, hv⟩ := run_exists (dt := dt) (q := 1) (m := 1) one_ne_zero (fun _ => V3.zero) (fun _ => turningField) hs
  have sin1 := fun t => Real.abs_sin_le_one t
  have cos1 := fun t => Real.abs_cos_le_one t
  have comb : ∀ x y : ℝ, |x| ≤ 1 → |y| ≤ 1 → |2 * LIGHT_SPEED * (x + y)| ≤ 4 * LIGHT_SPEED := by
    intro x y hx hy
    rw [abs_mul, abs_of_nonneg (by positivity)]
    have := (abs_add_le x y).trans (add_le_add hx hy)
    nlinarith
  have hneg : ∀ x : ℝ, |x| ≤ 1 → |-x| ≤ 1 := fun x hx => by rwa [abs_neg]
  have dc : ∀ a b : ℝ, (deriv fun t => 2 * LIGHT_SPEED * (a * Real.cos t + b * Real.sin t)) =
      fun t => 2 * LIGHT_SPEED * (b * Real.cos t + (-a) * Real.sin t) := by
    intro a b
    funext t
    have := ((((Real.hasDerivAt_cos t).const_mul a).add ((Real.hasDerivAt_sin t).const_mul b)).const_mul (2 * LIGHT_SPEED)).deriv
    refine this.trans ?_
    ring
  have f0 : (fun t => (turning t).c0) = fun t => 2 * LIGHT_SPEED * (1 * Real.cos t + 1 * Real.sin t) := by funext t; simp [turning]
  have f1 : (fun t => (turning t).c1) = fun t => 2 * LIGHT_SPEED * (1 * Real.cos t + (-1) * Real.sin t) := by
    funext t; simp [turning, sub_eq_add_neg]
  have f2 : (fun t => (turning t).c2) = fun _ => 0 := rfl
  have z1 : deriv (fun _ : ℝ => (0:ℝ)) = fun _ => 0 := by funext t; simp
  have key := C112_boris_error .borisRelativistic (by simp) true dt 1 1 (N * dt) 0 (3 / MAGN_CONST) _ (4 * LIGHT_SPEED) (4 * LIGHT_SPEED)
    (4 * LIGHT_SPEED) one_ne_zero (by positivity) h0 (fun _ => V3.zero) (fun _ => turningField) turning (turning_motion _) ⟨?_, ?_, ?_⟩
    (fun t _ _ => by simp [V3.len, V3.sq, V3.zero])
    (fun t _ _ => by
      have : turningField.sq = (3 / MAGN_CONST) ^ 2 := by unfold V3.sq turningField; dsimp only; ring
      rw [V3.len, this, Real.sqrt_sq (by positivity)])
    (by
      have : MAGN_CONST * (3 / MAGN_CONST) = 3 := by field_simp
      rw [this]
      norm_num
      linarith) N le_rfl v (fun _ => false) (fun _ => by rw [v0]; exact hs) le_rfl (fun _ _ => rfl) (fun n _ => hv n)
  · exact ⟨v, v0, key.1⟩
  · intro t _ _
    have : (turning t).sq = 8 * LIGHT_SPEED ^ 2 := by
      unfold V3.sq turning
      dsimp only
      linear_combination 8 * LIGHT_SPEED ^ 2 * Real.sin_sq_add_cos_sq t
    rw [V3.len, this]
    apply Real.sqrt_le_iff.2
    constructor
    · positivity
    · nlinarith
  · intro t _ _
    rw [f0, f1, f2]
    simp only [dc, z1]
    refine ⟨comb _ _ ?_ ?_, comb _ _ ?_ ?_, ?_⟩
    · simpa using cos1 t
    · simpa using sin1 t
    · simpa using cos1 t
    · simpa using sin1 t
    · simp only [abs_zero]; positivity
  · intro t _ _
    rw [f0, f1, f2]
    simp only [dc, z1]
    refine ⟨comb _ _ ?_ ?_, comb _ _ ?_ ?_, ?_⟩
    · simpa using cos1 t
    · simpa using sin1 t
    · simpa using cos1 t
    · simpa using sin1 t
    · simp only [abs_zero]; positivity

/-- A run with the relativistic pusher along parallel electric and magnetic fields stays above the threshold, as
`C112_boris_converges_partial` asks, for all time steps and numbers of steps. -/
example (dt : ℝ) (h0 : 0 < dt) : ∃ v : ℕ → V3, v 0 = ⟨LIGHT_SPEED / 2, 0, 0⟩ ∧ ∀ n, AboveThreshold (v n) ∧
    isRelativistic .borisRelativistic false (v n) = true ∧
    push .borisRelativistic false dt 1 1 ⟨5, 0, 0⟩ ⟨7, 0, 0⟩ (v n) = some (v (n + 1)) := by
  have c := c_pos
  have ec : LIGHT_SPEED ^ 2 = LIGHT_SPEED_POW_2 := rfl
  have st : ∀ x : {x : ℝ // 1 ≤ x ∧ x < LIGHT_SPEED}, ∃ y : {x : ℝ // 1 ≤ x ∧ x < LIGHT_SPEED}, AboveThreshold ⟨x.1, 0, 0⟩ ∧
      push .borisRelativistic false dt 1 1 ⟨5, 0, 0⟩ ⟨7, 0, 0⟩ ⟨x.1, 0, 0⟩ = some ⟨y.1, 0, 0⟩ := by
    rintro ⟨x, x1, x2⟩
    have ht : AboveThreshold ⟨x, 0, 0⟩ := ⟨Or.inr (by
      refine le_trans ?_ (le_abs_self x)
      unfold MNZL; norm_num; linarith), Or.inl rfl, Or.inl rfl⟩
    have hs : speedSq ⟨x, 0, 0⟩ < LIGHT_SPEED ^ 2 := by unfold speedSq; dsimp only; nlinarith
    obtain ⟨v', a1, a2, a3⟩ := C57_boris_lorentz .borisRelativistic false (by simp) dt 1 1 one_ne_zero ⟨5, 0, 0⟩ ⟨7, 0, 0⟩ ⟨x, 0, 0⟩
      (fun _ => hs) ht
    obtain ⟨w, w1, w2⟩ := C19_push_subluminal .borisRelativistic false dt 1 1 one_ne_zero ⟨5, 0, 0⟩ ⟨7, 0, 0⟩ ⟨x, 0, 0⟩ (Or.inl rfl) hs.le
    rw [a1, Option.some.injEq] at w1
    subst w1
    have er : isRelativistic .borisRelativistic false ⟨x, 0, 0⟩ = true := rfl
    rw [er] at a3
    obtain ⟨g, hg⟩ : ∃ g, g = 1 / √(1 - speedSq ⟨x, 0, 0⟩ / LIGHT_SPEED ^ 2) := ⟨_, rfl⟩
    have em : momentum true ⟨x, 0, 0⟩ = ⟨x * g, 0, 0⟩ := by
      unfold momentum
      rw [if_pos rfl, ← hg]
      simp [V3.smul]
    have g1 : 1 ≤ g := by
      rw [hg, ← factor_momentum hs]
      exact factor_ge _ _
    have k := a3 ⟨x * g + 5 * dt, 0, 0⟩ (by
      rw [em]
      unfold LorentzStep
      simp only [V3.add, V3.smul, V3.cross]
      ext <;> dsimp only <;> ring)
    have vel := velocity_momentum true (fun _ => w2)
    rw [← k] at vel
    have fg := factor_ge true ⟨x * g + 5 * dt, 0, 0⟩
    have fs := factor_sq ⟨x * g + 5 * dt, 0, 0⟩
    rw [len_sq] at fs
    unfold velocityAt at vel
    obtain ⟨f, hf⟩ : ∃ f, f = lorentzFactor true ⟨x * g + 5 * dt, 0, 0⟩ := ⟨_, rfl⟩
    rw [← hf] at vel fg fs
    have pu : 1 ≤ x * g + 5 * dt := by nlinarith
    simp only [V3.smul, zero_mul] at vel
    refine ⟨⟨(x * g + 5 * dt) * (1 / f), ?_, ?_⟩, ht, ?_⟩
    · rw [mul_one_div, le_div_iff₀ (by linarith), one_mul]
      have gs : g ^ 2 = 1 + x ^ 2 * g ^ 2 / LIGHT_SPEED ^ 2 := by
        have := factor_sq (momentum true ⟨x, 0, 0⟩)
        rw [factor_momentum hs, ← hg, em, len_sq] at this
        refine this.trans ?_
        unfold V3.sq
        dsimp only
        ring
      have q : 0 < 1 - x ^ 2 / LIGHT_SPEED ^ 2 := by
        rw [sub_pos, div_lt_one (by positivity)]
        nlinarith
      have hu : (x * g) ^ 2 ≤ (x * g + 5 * dt) ^ 2 := pow_le_pow_left₀ (by positivity) (by linarith) 2
      generalize x * g + 5 * dt = u at *
      have k1 := mul_le_mul_of_nonneg_right hu q.le
      have k2 : (x * g) ^ 2 * (1 - x ^ 2 / LIGHT_SPEED ^ 2) = x ^ 2 := by
        have : (x * g) ^ 2 * (1 - x ^ 2 / LIGHT_SPEED ^ 2) = x ^ 2 * (g ^ 2 - x ^ 2 * g ^ 2 / LIGHT_SPEED ^ 2) := by ring
        rw [this]
        have : g ^ 2 - x ^ 2 * g ^ 2 / LIGHT_SPEED ^ 2 = 1 := by linarith
        rw [this, mul_one]
      rw [k2] at k1
      have fx : f * x ≤ u := by
        apply le_of_sq_le_sq _ (by linarith)
        rw [mul_pow, fs]
        unfold V3.sq
        dsimp only
        have e : (1 + (u * u + 0 * 0 + 0 * 0) / LIGHT_SPEED ^ 2) * x ^ 2 = x ^ 2 + u ^ 2 * (x ^ 2 / LIGHT_SPEED ^ 2) := by ring
        rw [e]
        linarith
      nlinarith
    · rw [mul_one_div, div_lt_iff₀ (by linarith)]
      apply lt_of_pow_lt_pow_left₀ 2 (by positivity)
      rw [mul_pow, fs]
      unfold V3.sq
      dsimp only
      field_simp
      nlinarith
    · rw [a1, ← vel]
  choose f hf using st
  let s : ℕ → {x : ℝ // 1 ≤ x ∧ x < LIGHT_SPEED} := fun n => Nat.rec ⟨LIGHT_SPEED / 2, by unfold LIGHT_SPEED; norm_num, by linarith⟩
    (fun _ x => f x) n
  exact ⟨fun n => ⟨(s n).1, 0, 0⟩, rfl, fun n => ⟨(hf (s n)).1, rfl, (hf (s n)).2⟩⟩

/-! ## Particles the threshold holds back -/

/-- **C112 is violated below the threshold**: as long as the electric field changes the velocity by less than `1e-15` per step, a particle
that starts from rest does not get faster than that, in any number of steps and whatever the fields. -/
theorem C112_threshold_violated (mode : PusherMode) (hmode : mode ≠ .vay) (dt q m : ℝ) (hm : m ≠ 0) (e h : ℕ → V3) (v : ℕ → V3)
    (garbage : ℕ → Bool) (he : ∀ n, |q * dt / m| * (e n).len < 1e-15) (h0 : v 0 = V3.zero)
    (hpush : ∀ n, push mode (garbage n) dt q m (e n) (h n) (v n) = some (v (n + 1))) :
    ∀ N, (v N).len < 1e-15 := by
  have c := c_pos
  have emn : (1e-15 : ℝ) = MNZL := rfl
  rw [emn] at *
  have z : V3.zero.len = 0 := by simp [V3.len, V3.sq, V3.zero]
  intro N
  induction N with
  | zero => rw [h0, z]; exact mnzl_pos
  | succ n ih =>
    have s : snap (v n) = V3.zero := by
      obtain ⟨a, b, d⟩ := comp_le (v n)
      unfold snap snap1 V3.zero
      rw [if_pos (a.trans_lt ih), if_pos (b.trans_lt ih), if_pos (d.trans_lt ih)]
    have h3 := hpush n
    rw [push_snap, s] at h3
    have hv0 : speedSq V3.zero < LIGHT_SPEED ^ 2 := by unfold speedSq V3.zero; dsimp only; nlinarith
    obtain ⟨v', a1, a2, -⟩ := C57_boris_lorentz mode (garbage n) hmode dt q m hm (e n) (h n) V3.zero (fun _ => hv0)
      ⟨Or.inl rfl, Or.inl rfl, Or.inl rfl⟩
    rw [h3] at a1
    obtain rfl : v (n + 1) = v' := by simpa using a1
    have hsp : isRelativistic mode (garbage n) V3.zero = true → speedSq (v (n + 1)) < LIGHT_SPEED ^ 2 := by
      intro hR
      have hrel : RelativisticPush mode (garbage n) V3.zero := by
        unfold RelativisticPush
        cases mode <;> simp_all [isRelativistic]
      obtain ⟨w, w1, w2⟩ := C19_push_subluminal mode (garbage n) dt q m hm (e n) (h n) V3.zero hrel hv0.le
      rw [h3] at w1
      obtain rfl : v (n + 1) = w := by simpa using w1
      exact w2
    generalize isRelativistic mode (garbage n) V3.zero = rel at a2 hsp
    have hz : momentum rel V3.zero = V3.zero := by unfold momentum; cases rel <;> simp [V3.zero, V3.smul]
    rw [hz] at a2
    have eu : momentum rel (v (n + 1)) = V3.zero.add (((e n).add (((V3.zero.add (momentum rel (v (n + 1)))).smul
        (1 / (2 * midGamma rel dt q m (e n) V3.zero))).cross ((h n).smul MAGN_CONST))).smul (q * dt / m)) := by
      unfold LorentzStep at a2
      have f0 := congrArg V3.c0 a2
      have f1 := congrArg V3.c1 a2
      have f2 := congrArg V3.c2 a2
      have es : ∀ x y z : ℝ, x * m = y * m + z * (q * dt) → x = y + z * (q * dt / m) := by
        intro x y z hx
        field_simp
        linear_combination hx
      apply V3.ext
      · exact es _ _ _ f0
      · exact es _ _ _ f1
      · exact es _ _ _ f2
    have l := boris_len eu
    rw [z, zero_add] at l
    have l2 : (v (n + 1)).len ≤ (momentum rel (v (n + 1))).len := by
      have g := factor_ge rel (momentum rel (v (n + 1)))
      conv_lhs => rw [← velocity_momentum rel hsp]
      unfold velocityAt
      rw [len_smul, abs_of_nonneg (by positivity)]
      have : 1 / lorentzFactor rel (momentum rel (v (n + 1))) ≤ 1 := by rw [div_le_one (by linarith)]; exact g
      have := len_nonneg (momentum rel (v (n + 1)))
      nlinarith
    exact (l2.trans l).trans_lt (he n)

/-- With time steps below `1e-15` such a particle stays at rest in a field in which the true one reaches a momentum of 1 in a second. -/
example (dt : ℝ) (h0 : 0 < dt) (h1 : dt < 1e-15) (N : ℕ) (hN : N * dt = 1) :
    LorentzMotion true 1 1 1 (fun _ => ⟨1, 0, 0⟩) (fun _ => V3.zero) (speeding 0 1) ∧ (speeding 0 1 (N * dt)).len = 1 ∧
    ∃ v : ℕ → V3, v 0 = V3.zero ∧ (∀ n, push .borisRelativistic false dt 1 1 ⟨1, 0, 0⟩ V3.zero (v n) = some (v (n + 1))) ∧
      (v N).len < 1e-15 := by
  have c := c_pos
  have hv0 : speedSq V3.zero < LIGHT_SPEED ^ 2 := by unfold speedSq V3.zero; dsimp only; nlinarith
  obtain ⟨v, v0, hv⟩ := run_exists (dt := dt) (q := 1) (m := 1) one_ne_zero (fun _ => ⟨1, 0, 0⟩) (fun _ => V3.zero) hv0
  refine ⟨speeding_motion _ _ _ _, ?_, v, v0, hv, ?_⟩
  · rw [hN]
    simp [speeding, V3.len, V3.sq]
  · refine C112_threshold_violated .borisRelativistic (by simp) dt 1 1 one_ne_zero (fun _ => ⟨1, 0, 0⟩) (fun _ => V3.zero) v (fun _ => false)
      (fun n => ?_) v0 hv N
    have : (⟨1, 0, 0⟩ : V3).len = 1 := by simp [V3.len, V3.sq]
    rw [this, one_mul, div_one, mul_one, abs_of_pos h0]
    exact h1

/-! ## The adaptive pusher -/

/-- **C112 is violated by the adaptive pusher** when the flag it does not initialise happens to be `false`: below `5e7` m/s it then moves
particles without relativity, and the error does not vanish with the time step. -/
theorem C112_adaptive_violated : ∃ (e h U : ℝ → V3) (v0 : V3), LorentzMotion true 1 1 1 e h U ∧ momentum true v0 = U 0 ∧
    ∀ C d : ℝ, 0 < d → ∃ (dt : ℝ) (N : ℕ) (v : ℕ → V3), 0 < dt ∧ dt ≤ d ∧ N * dt ≤ 1 ∧ v 0 = v0 ∧
      (∀ n < N, AboveThreshold (v n) ∧
        push .borisAdaptive false dt 1 1 (e ((n + 1 / 2) * dt)) (h ((n + 1 / 2) * dt)) (v n) = some (v (n + 1))) ∧
      C * dt ^ 2 < gap (v N) (velocityAt true (U (N * dt))) := by
  obtain ⟨p, hp⟩ : ∃ p : ℝ, p = 1e7 * (1 / √(1 - 1e7 ^ 2 / LIGHT_SPEED ^ 2)) := ⟨_, rfl⟩
  have s1 : √(1 - 1e7 ^ 2 / LIGHT_SPEED ^ 2) ≤ 1 := by
    rw [Real.sqrt_le_left (by norm_num)]
    unfold LIGHT_SPEED
    norm_num
  have s2 : (999 / 1000 : ℝ) ≤ √(1 - 1e7 ^ 2 / LIGHT_SPEED ^ 2) := by
    apply Real.le_sqrt_of_sq_le
    unfold LIGHT_SPEED
    norm_num
  have p1 : 10000000 ≤ p := by
    rw [hp]
    have : 1 ≤ 1 / √(1 - 1e7 ^ 2 / LIGHT_SPEED ^ 2) := by rw [le_div_iff₀ (by linarith)]; linarith
    nlinarith
  have p2 : p ≤ 10021000 := by
    rw [hp]
    have : 1 / √(1 - 1e7 ^ 2 / LIGHT_SPEED ^ 2) ≤ 1001 / 999 := by
      rw [div_le_iff₀ (by linarith)]; nlinarith
    nlinarith
  refine ⟨fun _ => ⟨3e7, 0, 0⟩, fun _ => V3.zero, speeding p 3e7, ⟨1e7, 0, 0⟩, speeding_motion _ _ _ _, ?_, ?_⟩
  · have : speedSq ⟨1e7, 0, 0⟩ = 1e7 ^ 2 := by unfold speedSq; dsimp only; norm_num
    unfold momentum
    rw [if_pos rfl, this]
    simp only [V3.smul, speeding, hp]
    ext <;> dsimp only <;> ring
  intro C d hd
  obtain ⟨k, hk⟩ := exists_nat_gt (1 / d + |C|)
  have hd' : 0 < 1 / d := by positivity
  have hC := abs_nonneg C
  have kp : (0 : ℝ) < k := by linarith
  have k1 : (1 : ℝ) ≤ k := by exact_mod_cast (Nat.cast_pos.1 kp)
  refine ⟨1 / k, k, fun n => ⟨1e7 + 3e7 * (n * (1 / k)), 0, 0⟩, by positivity, ?_, ?_, ?_, ?_, ?_⟩
  · rw [div_le_iff₀ kp]
    have : 1 / d < k := by linarith
    rw [div_lt_iff₀ hd] at this
    linarith
  · rw [mul_one_div, div_self kp.ne']
  · simp
  · intro n hn
    have x0 : 0 ≤ (n : ℝ) * (1 / k) := by positivity
    have x1 : (n : ℝ) * (1 / k) ≤ 1 := by
      rw [mul_one_div, div_le_one kp]
      exact_mod_cast hn.le
    have ht : AboveThreshold ⟨1e7 + 3e7 * (n * (1 / k)), 0, 0⟩ := by
      refine ⟨Or.inr ?_, Or.inl rfl, Or.inl rfl⟩
      refine le_trans ?_ (le_abs_self _)
      unfold MNZL
      norm_num at x0 ⊢
      linarith
    have hv : speedSq ⟨1e7 + 3e7 * (n * (1 / k)), 0, 0⟩ < LIGHT_SPEED ^ 2 := by
      unfold speedSq LIGHT_SPEED
      dsimp only
      nlinarith
    obtain ⟨v', b1, b2⟩ := C57_electric_kick .borisAdaptive false (1 / k) 1 1 one_ne_zero ⟨3e7, 0, 0⟩ ⟨1e7 + 3e7 * (n * (1 / k)), 0, 0⟩ hv ht
    have hr : isRelativistic .borisAdaptive false ⟨1e7 + 3e7 * (n * (1 / k)), 0, 0⟩ = false := by
      unfold isRelativistic useRel
      rw [snap_eq ht, if_neg]
      unfold REL_LIMIT_POW_2
      dsimp only
      nlinarith
    rw [hr] at b2
    refine ⟨ht, ?_⟩
    rw [b1]
    congr 1
    simp only [momentum, Bool.false_eq_true, if_false] at b2
    rw [b2]
    simp only [V3.add, V3.smul]
    push_cast
    ext <;> dsimp only <;> ring
  · have e1 : (k : ℝ) * (1 / k) = 1 := by rw [mul_one_div, div_self kp.ne']
    show C * (1 / (k : ℝ)) ^ 2 < gap ⟨1e7 + 3e7 * (k * (1 / k)), 0, 0⟩ _
    rw [e1]
    have hsm : C * (1 / (k : ℝ)) ^ 2 ≤ 1 := by
      rw [div_pow, one_pow, mul_one_div, div_le_one (by positivity)]
      have := le_abs_self C
      nlinarith
    have l := (comp_le ((⟨1e7 + 3e7 * 1, 0, 0⟩ : V3).add ((velocityAt true (speeding p 3e7 1)).smul (-1)))).1
    refine lt_of_le_of_lt hsm (lt_of_lt_of_le ?_ (le_trans (le_abs_self _) l))
    have g : (1005 / 1000 : ℝ) ≤ lorentzFactor true (speeding p 3e7 1) := by
      unfold lorentzFactor
      rw [if_pos rfl]
      apply Real.le_sqrt_of_sq_le
      have : (4e7 : ℝ) ^ 2 / LIGHT_SPEED ^ 2 ≤ speedSq (speeding p 3e7 1) / LIGHT_SPEED ^ 2 := by
        apply div_le_div_of_nonneg_right _ (by positivity)
        unfold speedSq speeding
        dsimp only
        nlinarith
      refine le_trans ?_ (add_le_add le_rfl this)
      unfold LIGHT_SPEED
      norm_num
    have : (velocityAt true (speeding p 3e7 1)).c0 ≤ 39900000 := by
      unfold velocityAt
      simp only [V3.smul, speeding] at g ⊢
      rw [mul_one_div, div_le_iff₀ (by linarith)]
      nlinarith
    simp only [V3.add, V3.smul]
    norm_num
    linarith

/-! ## The Vay pusher -/

namespace PushConverge

theorem vayMom_plane {x y β : ℝ} (hg : getGammaInv (V3.dot ⟨x, y, 0⟩ ⟨x, y, 0⟩) = 1 / 3) (hX : vayX ⟨x, y, 0⟩ ⟨0, 0, β⟩ = 9) :
    (vayMom ⟨x, y, 0⟩ ⟨0, 0, β⟩).c0 = (x + 2 * (β / 3) * y - (β / 3) ^ 2 * x) / (1 + (β / 3) ^ 2) ∧
    (vayMom ⟨x, y, 0⟩ ⟨0, 0, β⟩).c1 = (y - 2 * (β / 3) * x - (β / 3) ^ 2 * y) / (1 + (β / 3) ^ 2) ∧
    (vayMom ⟨x, y, 0⟩ ⟨0, 0, β⟩).c2 = 0 := by
  have c := c2_pos
  have hu := dot_self_nonneg ⟨x, y, 0⟩
  have hgs := getGammaInv_sq hu
  unfold vayMom
  dsimp only
  rw [hg] at hgs ⊢
  obtain ⟨p, hp⟩ : ∃ p : V3, p = ⟨x + 1 / 3 * (y * β - 0 * 0), y + 1 / 3 * (0 * 0 - x * β), 0 + 1 / 3 * (x * 0 - y * 0)⟩ := ⟨_, rfl⟩
  rw [← hp]
  have pp : V3.dot p p = V3.dot ⟨x, y, 0⟩ ⟨x, y, 0⟩ + (V3.dot ⟨x, y, 0⟩ ⟨x, y, 0⟩ * V3.dot ⟨0, 0, β⟩ ⟨0, 0, β⟩ -
      V3.dot ⟨x, y, 0⟩ ⟨0, 0, β⟩ ^ 2) * (LIGHT_SPEED_POW_2 / (LIGHT_SPEED_POW_2 + V3.dot ⟨x, y, 0⟩ ⟨x, y, 0⟩)) := by
    rw [← hgs, hp]; unfold V3.dot; dsimp only; ring
  have pb : V3.dot p ⟨0, 0, β⟩ = V3.dot ⟨x, y, 0⟩ ⟨0, 0, β⟩ := by rw [hp]; unfold V3.dot; dsimp only; ring
  have ppos := dot_self_nonneg p
  have hal : 1 / getGammaInv (V3.dot p p) / getGammaInv (V3.dot p p) = 1 + V3.dot p p / LIGHT_SPEED_POW_2 := by
    have h := getGammaInv_sq ppos
    have h0 := (getGammaInv_pos ppos).ne'
    rw [div_div, ← pow_two, h]
    have : LIGHT_SPEED_POW_2 + V3.dot p p ≠ 0 := by linarith
    field_simp
  have hXe : 1 / 2 * (1 / getGammaInv (V3.dot p p) / getGammaInv (V3.dot p p) - V3.dot ⟨0, 0, β⟩ ⟨0, 0, β⟩ +
      √((1 / getGammaInv (V3.dot p p) / getGammaInv (V3.dot p p) - V3.dot ⟨0, 0, β⟩ ⟨0, 0, β⟩) *
        (1 / getGammaInv (V3.dot p p) / getGammaInv (V3.dot p p) - V3.dot ⟨0, 0, β⟩ ⟨0, 0, β⟩) +
        4 * (V3.dot ⟨0, 0, β⟩ ⟨0, 0, β⟩ + V3.dot p ⟨0, 0, β⟩ ^ 2))) = 3 ^ 2 := by
    rw [hal, pb, pp]
    refine Eq.trans ?_ (hX.trans (by norm_num))
    rfl
  have h9 : (1:ℝ) / √(3 ^ 2) = 1 / 3 := by rw [Real.sqrt_sq (by norm_num)]
  rw [hXe, h9, hp]
  have ne : 1 + (β / 3) ^ 2 ≠ 0 := by positivity
  simp only [V3.dot, V3.smul]
  have e1 : 1 + (0 * (1 / 3) * (0 * (1 / 3)) + 0 * (1 / 3) * (0 * (1 / 3)) + β * (1 / 3) * (β * (1 / 3))) = 1 + (β / 3) ^ 2 := by ring
  rw [e1]
  refine ⟨?_, ?_, ?_⟩
  · field_simp; ring
  · field_simp; ring
  · ring

/-- a Vay push in the field of `turning` hardly turns the velocity -/
theorem vay_turn {dt : ℝ} (h0 : 0 < dt) (h1 : dt ≤ 1) {v : V3} (hz : v.c2 = 0) (ht : AboveThreshold v)
    (hs : speedSq v = 8 / 9 * LIGHT_SPEED ^ 2) :
    ∃ v', push .vay false dt 1 1 V3.zero turningField v = some v' ∧ v'.c2 = 0 ∧ speedSq v' = 8 / 9 * LIGHT_SPEED ^ 2 ∧
      |v'.c0 - v.c0| ≤ 3 * LIGHT_SPEED * dt ^ 3 ∧ |v'.c1 - v.c1| ≤ 3 * LIGHT_SPEED * dt ^ 3 := by
  have c := c_pos
  have ec : LIGHT_SPEED ^ 2 = LIGHT_SPEED_POW_2 := rfl
  have mu := MAGN_CONST_pos
  have hv : speedSq v < LIGHT_SPEED ^ 2 := by rw [hs]; nlinarith
  have hperp : V3.dot v turningField = 0 := by unfold V3.dot turningField; dsimp only; rw [hz]; ring
  obtain ⟨v', a1, a2⟩ := C18_vay_perp_partial dt 1 1 one_ne_zero turningField v hv ht hperp
  have hv' : V3.dot v v < LIGHT_SPEED_POW_2 := by rw [← speedSq_eq, ← ec]; exact hv
  have hg := getGamma_some hv'
  have e3 : 1 / √(1 - V3.dot v v / LIGHT_SPEED_POW_2) = 3 := by
    rw [← speedSq_eq, hs, ← ec]
    have : 1 - 8 / 9 * LIGHT_SPEED ^ 2 / LIGHT_SPEED ^ 2 = (1 / 3) ^ 2 := by field_simp; norm_num
    rw [this, Real.sqrt_sq (by norm_num)]
    norm_num
  rw [e3] at hg
  have b1 : vayCore dt 1 1 V3.zero turningField v = some v' := a1
  rw [vay_zeroE dt 1 1 (by norm_num), snap_eq ht, hg, Option.map_some, Option.some.injEq] at b1
  dsimp only at b1
  obtain ⟨β, hβ⟩ : ∃ β, β = 3 / 4 * dt ^ 3 := ⟨_, rfl⟩
  have eb : turningField.smul (MAGN_CONST * (1 * dt / (2 * 1)) * (2 * (1 * dt / (2 * 1))) * (1 * dt / (2 * 1))) = ⟨0, 0, β⟩ := by
    rw [hβ]
    unfold turningField V3.smul
    ext <;> dsimp only <;> field_simp <;> ring
  rw [eb] at b1
  have sp := vay_speed hv' hg (vayMom (v.smul 3) ⟨0, 0, β⟩)
  rw [b1, ← speedSq_eq, ← speedSq_eq, a2] at sp
  have ww := sp.1 rfl
  have gi : getGammaInv (V3.dot (v.smul 3) (v.smul 3)) = 1 / 3 := by
    have := gammaInv_of_gamma (dot_self_nonneg v) hv' hg
    rw [dot_smul]
    exact this
  rw [ww, gi] at b1
  have hX := vayX_eq_of_perp (u := v.smul 3) (b := ⟨0, 0, β⟩) (by unfold V3.dot V3.smul; dsimp only; rw [hz]; ring)
  have X9 : vayX (v.smul 3) ⟨0, 0, β⟩ = 9 := by
    rw [hX, dot_smul, ← speedSq_eq, hs, ← ec]
    field_simp
    norm_num
  obtain ⟨x, y, z⟩ := v
  have z0 : z = 0 := hz
  subst z0
  have e33 : (⟨x, y, 0⟩ : V3).smul 3 = ⟨x * 3, y * 3, 0⟩ := by unfold V3.smul; simp
  rw [e33] at b1 gi X9
  obtain ⟨m0, m1, m2⟩ := vayMom_plane gi X9
  have l : |x| ≤ LIGHT_SPEED ∧ |y| ≤ LIGHT_SPEED := by
    have hs' : x ^ 2 + y ^ 2 ≤ LIGHT_SPEED ^ 2 := by
      have : speedSq ⟨x, y, 0⟩ = x ^ 2 + y ^ 2 := by unfold speedSq; dsimp only; ring
      rw [← this]; exact hv.le
    exact ⟨abs_le_of_sq_le_sq (by nlinarith) c.le, abs_le_of_sq_le_sq (by nlinarith) c.le⟩
  have t0 : 0 < dt ^ 3 := by positivity
  have t1 : dt ^ 3 ≤ 1 := pow_le_one₀ h0.le h1
  have est : ∀ (x y σ : ℝ), |σ| = 1 → |x| ≤ LIGHT_SPEED → |y| ≤ LIGHT_SPEED →
      |(x * 3 + σ * (2 * (β / 3) * (y * 3)) - (β / 3) ^ 2 * (x * 3)) / (1 + (β / 3) ^ 2) * (1 / 3) - x| ≤ 3 * LIGHT_SPEED * dt ^ 3 := by
    intro x y σ hσ hx hy
    obtain ⟨τ, hτ⟩ : ∃ τ, τ = β / 3 := ⟨_, rfl⟩
    have τe : τ = dt ^ 3 / 4 := by rw [hτ, hβ]; ring
    rw [← hτ]
    have ne : 1 + τ ^ 2 ≠ 0 := by positivity
    have e : (x * 3 + σ * (2 * τ * (y * 3)) - τ ^ 2 * (x * 3)) / (1 + τ ^ 2) * (1 / 3) - x =
        (σ * (2 * τ * y) - 2 * τ ^ 2 * x) / (1 + τ ^ 2) := by field_simp; ring
    have τ0 : 0 ≤ τ := by rw [τe]; positivity
    rw [e, abs_div, abs_of_nonneg (by positivity : 0 ≤ 1 + τ ^ 2), div_le_iff₀ (by positivity)]
    have b : |σ * (2 * τ * y) - 2 * τ ^ 2 * x| ≤ 2 * τ * LIGHT_SPEED + 2 * τ ^ 2 * LIGHT_SPEED := by
      refine (abs_sub _ _).trans ?_
      rw [abs_mul σ, hσ, one_mul, abs_mul (2 * τ), abs_mul (2 * τ ^ 2), abs_of_nonneg (by positivity : 0 ≤ 2 * τ),
        abs_of_nonneg (by positivity : 0 ≤ 2 * τ ^ 2)]
      exact add_le_add (mul_le_mul_of_nonneg_left hy (by positivity)) (mul_le_mul_of_nonneg_left hx (by positivity))
    refine b.trans ?_
    have q1 : τ ^ 2 ≤ τ := by rw [τe]; nlinarith
    have q2 : 0 ≤ 3 * LIGHT_SPEED * dt ^ 3 * τ ^ 2 := by positivity
    have q3 := mul_le_mul_of_nonneg_right q1 c.le
    have q4 : τ * LIGHT_SPEED = LIGHT_SPEED * dt ^ 3 / 4 := by rw [τe]; ring
    have q5 : 0 ≤ LIGHT_SPEED * dt ^ 3 := by positivity
    linarith
  refine ⟨v', a1, ?_, by rw [a2, hs], ?_, ?_⟩
  · rw [← b1]
    simp only [V3.smul, m2, zero_mul]
  · rw [← b1]
    simp only [V3.smul, m0]
    have := est x y 1 (by simp) l.1 l.2
    rwa [one_mul] at this
  · rw [← b1]
    simp only [V3.smul, m1]
    have := est y x (-1) (by simp) l.2 l.1
    rwa [neg_one_mul, ← sub_eq_add_neg] at this

end PushConverge

/-- **C112 is violated by the Vay pusher**: the code multiplies the magnetic field by `(q dt / 2 m)³`, so the smaller the time step the less
it turns a particle: a particle that should make half a turn goes straight on, and the error does not vanish with the time step. -/
theorem C112_vay_violated : ∃ (e h U : ℝ → V3) (v0 : V3), LorentzMotion true 1 1 Real.pi e h U ∧ momentum true v0 = U 0 ∧
    ∀ C d : ℝ, 0 < d → ∃ (dt : ℝ) (N : ℕ) (v : ℕ → V3), 0 < dt ∧ dt ≤ d ∧ N * dt ≤ Real.pi ∧ v 0 = v0 ∧
      (∀ n < N, AboveThreshold (v n) ∧
        push .vay false dt 1 1 (e ((n + 1 / 2) * dt)) (h ((n + 1 / 2) * dt)) (v n) = some (v (n + 1))) ∧
      C * dt ^ 2 < gap (v N) (velocityAt true (U (N * dt))) := by
  have c := c_pos
  have pi0 := Real.pi_pos
  have pi4 := Real.pi_le_four
  have hsp : speedSq ⟨2 * LIGHT_SPEED / 3, 2 * LIGHT_SPEED / 3, 0⟩ = 8 / 9 * LIGHT_SPEED ^ 2 := by unfold speedSq; dsimp only; ring
  refine ⟨fun _ => V3.zero, fun _ => turningField, turning, ⟨2 * LIGHT_SPEED / 3, 2 * LIGHT_SPEED / 3, 0⟩, turning_motion _, ?_, ?_⟩
  · unfold momentum
    rw [if_pos rfl, hsp]
    have : 1 - 8 / 9 * LIGHT_SPEED ^ 2 / LIGHT_SPEED ^ 2 = (1 / 3) ^ 2 := by field_simp; norm_num
    rw [this, Real.sqrt_sq (by norm_num)]
    simp only [V3.smul, turning, Real.cos_zero, Real.sin_zero]
    ext <;> dsimp only <;> ring
  intro C d hd
  obtain ⟨k, hk⟩ := exists_nat_gt (4 / d + 4 * |C| + 40)
  have hd' : 0 < 4 / d := by positivity
  have hC := abs_nonneg C
  have kp : (0 : ℝ) < k := by linarith
  obtain ⟨dt, hdt⟩ : ∃ dt, dt = Real.pi / k := ⟨_, rfl⟩
  have dt0 : 0 < dt := by rw [hdt]; positivity
  have dtk : k * dt = Real.pi := by rw [hdt]; field_simp
  have dt1 : dt ≤ 1 / 10 := by rw [hdt, div_le_iff₀ kp]; linarith
  -- the run
  have run : ∀ n ≤ k, ∃ v : ℕ → V3, v 0 = ⟨2 * LIGHT_SPEED / 3, 2 * LIGHT_SPEED / 3, 0⟩ ∧
      (∀ j < n, AboveThreshold (v j) ∧ push .vay false dt 1 1 V3.zero turningField (v j) = some (v (j + 1))) ∧
      (v n).c2 = 0 ∧ speedSq (v n) = 8 / 9 * LIGHT_SPEED ^ 2 ∧
      |(v n).c0 - 2 * LIGHT_SPEED / 3| ≤ n * (3 * LIGHT_SPEED * dt ^ 3) ∧ |(v n).c1 - 2 * LIGHT_SPEED / 3| ≤ n * (3 * LIGHT_SPEED * dt ^ 3) := by
    intro n
    induction n with
    | zero =>
      intro _
      exact ⟨fun _ => ⟨2 * LIGHT_SPEED / 3, 2 * LIGHT_SPEED / 3, 0⟩, rfl, fun j hj => absurd hj (by omega), rfl, hsp, by simp, by simp⟩
    | succ n ih =>
      intro hn
      obtain ⟨v, v0, vs, z, s, b0, b1⟩ := ih (by omega)
      have small : (n : ℝ) * (3 * LIGHT_SPEED * dt ^ 3) ≤ LIGHT_SPEED / 3 := by
        have n1 : (n : ℝ) * dt ≤ 4 := by
          have : (n : ℝ) ≤ k := by exact_mod_cast (by omega : n ≤ k)
          nlinarith
        have e : (n : ℝ) * (3 * LIGHT_SPEED * dt ^ 3) = (n * dt) * (3 * LIGHT_SPEED * dt ^ 2) := by ring
        rw [e]
        have d2 : dt ^ 2 ≤ 1 / 100 := by nlinarith
        have := mul_le_mul n1 (mul_le_mul_of_nonneg_left d2 (by positivity : 0 ≤ 3 * LIGHT_SPEED)) (by positivity) (by norm_num)
        linarith
      have mn : MNZL ≤ LIGHT_SPEED / 3 := by unfold MNZL LIGHT_SPEED; norm_num
      have ht : AboveThreshold (v n) := by
        refine ⟨Or.inr ?_, Or.inr ?_, Or.inl z⟩
        · have := (abs_le.1 b0).1
          exact le_trans (by linarith) (le_abs_self _)
        · have := (abs_le.1 b1).1
          exact le_trans (by linarith) (le_abs_self _)
      obtain ⟨w, w1, w2, w3, w4, w5⟩ := vay_turn dt0 (by linarith) z ht s
      refine ⟨fun j => if j ≤ n then v j else w, by simp [v0], ?_, ?_, ?_, ?_, ?_⟩
      · intro j hj
        rcases Nat.lt_or_ge j n with h | h
        · have := vs j h
          simpa [h.le, Nat.succ_le_of_lt h] using this
        · obtain rfl : j = n := by omega
          simpa using ⟨ht, w1⟩
      · simpa using w2
      · simpa using w3
      · simp only [Nat.not_succ_le_self, if_false]
        have := abs_add_le (w.c0 - (v n).c0) ((v n).c0 - 2 * LIGHT_SPEED / 3)
        rw [sub_add_sub_cancel] at this
        push_cast
        linarith
      · simp only [Nat.not_succ_le_self, if_false]
        have := abs_add_le (w.c1 - (v n).c1) ((v n).c1 - 2 * LIGHT_SPEED / 3)
        rw [sub_add_sub_cancel] at this
        push_cast
        linarith
  obtain ⟨v, v0, vs, -, -, b0, -⟩ := run k le_rfl
  refine ⟨dt, k, v, dt0, ?_, dtk.le, v0, vs, ?_⟩
  · rw [hdt, div_le_iff₀ kp]
    have : 4 / d < k := by linarith
    rw [div_lt_iff₀ hd] at this
    linarith
  · rw [dtk]
    have hsm : C * dt ^ 2 ≤ 1 := by
      have : |C| * dt ≤ 1 := by
        have : |C| ≤ k / 4 := by linarith
        nlinarith
      have h1 := mul_le_mul_of_nonneg_right (le_abs_self C) (by positivity : 0 ≤ dt ^ 2)
      nlinarith
    have small : (k : ℝ) * (3 * LIGHT_SPEED * dt ^ 3) ≤ LIGHT_SPEED / 3 := by
      have e : (k : ℝ) * (3 * LIGHT_SPEED * dt ^ 3) = (k * dt) * (3 * LIGHT_SPEED * dt ^ 2) := by ring
      rw [e, dtk]
      have d2 : dt ^ 2 ≤ 1 / 100 := by nlinarith
      have := mul_le_mul pi4 (mul_le_mul_of_nonneg_left d2 (by positivity : 0 ≤ 3 * LIGHT_SPEED)) (by positivity) (by norm_num)
      linarith
    have l := (comp_le ((v k).add ((velocityAt true (turning Real.pi)).smul (-1)))).1
    refine lt_of_le_of_lt hsm (lt_of_lt_of_le ?_ (le_trans (le_abs_self _) l))
    unfold velocityAt
    rw [turning_factor]
    simp only [V3.add, V3.smul, turning, Real.cos_pi, Real.sin_pi]
    have := (abs_le.1 b0).1
    have : (4 : ℝ) ≤ LIGHT_SPEED := by unfold LIGHT_SPEED; norm_num
    linarith

end Verif
