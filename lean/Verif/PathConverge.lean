import Verif.PushConverge
import Verif.Planar

/-!
# Convergence of the paths of macroparticles (C113)

C112 compares the velocities with the solution of the equation of motion in fields that are given as functions of the time.  Here the fields
are interpolated from the grid to the place of the macroparticle, and its whole cycle (push, two half steps, walls, turn of the velocity) is
compared with the path of a charge.
-/

namespace Verif

/-! ## Specification -/

/-- A charge `q` of mass `m` that moves in the r-z half plane for the times from `0` to `T`: it is at the radius `r t` and height `z t` and has the
momentum `U t` per mass.  `e t r z` and `h t r z` are the fields. -/
structure LorentzPath (rel : Bool) (q m T : ℝ) (e h : ℝ → ℝ → ℝ → V3) (r z : ℝ → ℝ) (U : ℝ → V3) : Prop where
  smooth : ContDiff ℝ 3 r ∧ ContDiff ℝ 3 z
  plane : ∀ t, 0 ≤ t → t ≤ T → (U t).c1 = 0
  velocity : ∀ t, 0 ≤ t → t ≤ T → deriv r t = (velocityAt rel (U t)).c0 ∧ deriv z t = (velocityAt rel (U t)).c2
  force : LorentzMotion rel q m T (fun t => e t (r t) (z t)) (fun t => h t (r t) (z t)) U

/-- The fields of a chamber of radius `R` and length `Z`: bounded magnetic field, and change with the place at a bounded rate `L` -/
structure SmoothFields (T R Z B L : ℝ) (e h : ℝ → ℝ → ℝ → V3) : Prop where
  bound : ∀ t r z, 0 ≤ t → t ≤ T → 0 ≤ r → r ≤ R → 0 ≤ z → z ≤ Z → (h t r z).len ≤ B
  electric : ∀ t r z r' z', 0 ≤ t → t ≤ T → 0 ≤ r → r ≤ R → 0 ≤ z → z ≤ Z → 0 ≤ r' → r' ≤ R → 0 ≤ z' → z' ≤ Z →
    gap (e t r z) (e t r' z') ≤ L * (|r - r'| + |z - z'|)
  magnetic : ∀ t r z r' z', 0 ≤ t → t ≤ T → 0 ≤ r → r ≤ R → 0 ≤ z → z ≤ Z → 0 ≤ r' → r' ≤ R → 0 ≤ z' → z' ≤ Z →
    gap (h t r z) (h t r' z') ≤ L * (|r - r'| + |z - z'|)

/-- The field `F` of the grid, interpolated to any place that is not farther than `δ` from `x`, `y`, is the field `e`, `h` up to `η`, and has no
components that lead out of the half plane. -/
def GridField (G : Geom) (F : Fields) (x y δ η : ℝ) (e h : ℝ → ℝ → V3) : Prop :=
  ∀ r z, |r - x| ≤ δ → |z - y| ≤ δ → gap (valE G F r z) (e r z) ≤ η ∧ gap (valH G F r z) (h r z) ≤ η ∧
    (valE G F r z).c1 = 0 ∧ (valH G F r z).c0 = 0 ∧ (valH G F r z).c2 = 0

namespace PathConverge

open RoundedPush PushConverge

/-! ## One cycle in the half plane -/

theorem backPosition_plane {p : Particle} (h1 : p.pos.c1 = 0) (h0 : 0 < p.pos.c0) :
    backPosition p = some { p with sinTheta := 0 } := by
  unfold backPosition
  dsimp only
  rw [h1, mul_zero, add_zero, Real.sqrt_mul_self h0.le, if_neg h0.ne']
  congr 1
  cases p with
  | mk a pos b c d e f g =>
    cases pos
    simp only at h1
    subst h1
    simp

theorem reflection_inside {bunch : Bool} {G : Geom} {p : Particle} (h : InRegion G p.pos.c0 p.pos.c2) : reflectionOf bunch G p = p := by
  obtain ⟨a, b, c, d⟩ := h
  have e1 : reflectLow G p = p := by
    unfold reflectLow
    dsimp only
    rw [if_neg (not_lt.2 a), if_neg (not_lt.2 c)]
  unfold reflectionOf
  cases bunch
  · simp only [Bool.false_eq_true, if_false]
    unfold reflection
    dsimp only
    rw [if_neg (not_lt.2 b), if_neg (not_lt.2 d), e1]
  · simp only [if_true]
    unfold bunchReflection
    dsimp only
    rw [if_neg (not_lt.2 b), if_neg (not_lt.2 d), e1]

theorem cycle_plane {bunch : Bool} {G : Geom} {F : Fields} {mode : PusherMode} {g : Bool} {dt : ℝ} {p : Particle} {v : V3} (hdr : 0 < G.dr)
    (ha : p.alive = true) (h1 : p.pos.c1 = 0) (hv : p.vel.c1 = 0) (h0 : 0 < p.pos.c0)
    (hE : (valE G F p.pos.c0 p.pos.c2).c1 = 0) (hH : (valH G F p.pos.c0 p.pos.c2).c0 = 0) (hH2 : (valH G F p.pos.c0 p.pos.c2).c2 = 0)
    (hp : push mode g dt p.charge p.mass (valE G F p.pos.c0 p.pos.c2) (valH G F p.pos.c0 p.pos.c2) p.vel = some v)
    (hR : InRegion G (p.pos.c0 + v.c0 * dt) (p.pos.c2 + v.c2 * dt)) :
    ∃ p', particleCycle bunch G F mode g dt p = some p' ∧ p'.alive = true ∧ p'.charge = p.charge ∧ p'.mass = p.mass ∧ p'.vel = v ∧
      p'.pos = ⟨p.pos.c0 + v.c0 * dt, 0, p.pos.c2 + v.c2 * dt⟩ := by
  have hv1 : v.c1 = 0 := push_planar hE hH hH2 hv hp
  have hR0 := hR.1
  have e1 : stepVSingle G F mode g dt p = some { halfStep dt (dumpOld { p with vel := v }) with sinTheta := 0 } := by
    unfold stepVSingle
    rw [if_pos ha, hp, Option.bind_some]
    apply backPosition_plane
    · simp [halfStep, dumpOld, h1, hv1]
    · simp only [halfStep, dumpOld]
      linarith
  have e2 : moveHalfReflectSingle bunch G dt { halfStep dt (dumpOld { p with vel := v }) with sinTheta := 0 } =
      some { halfStep dt { halfStep dt (dumpOld { p with vel := v }) with sinTheta := 0 } with sinTheta := 0 } := by
    have er : (halfStep dt { halfStep dt (dumpOld { p with vel := v }) with sinTheta := 0 }).pos = ⟨p.pos.c0 + v.c0 * dt, 0, p.pos.c2 + v.c2 * dt⟩ := by
      simp only [halfStep, dumpOld, h1, hv1]
      ext <;> dsimp only <;> ring
    unfold moveHalfReflectSingle
    rw [if_pos (by simpa [halfStep, dumpOld] using ha), reflection_inside (by rw [er]; exact hR)]
    apply backPosition_plane
    · rw [er]
    · rw [er]; dsimp only; linarith
  refine ⟨_, by unfold particleCycle; rw [e1, Option.bind_some, e2, Option.map_some], ?_⟩
  simp only [backVelocitySingle, halfStep, dumpOld, ha, if_true, backVelocity, h1, hv1]
  refine ⟨trivial, trivial, trivial, ?_, ?_⟩
  · ext <;> simp [hv1]
  · ext <;> dsimp only <;> ring

/-! ## Other fields than those of the path -/

/-- The motion nearly solves the equation of a push with other fields. -/
theorem residual_fields (rel : Bool) {dt κ M B δ μδ : ℝ} {e b e1 b1 p p' τ : V3} (hdt : 0 ≤ dt)
    (hp : p' = (p.add ((e.add (((p.add p').smul (1 / (2 * lorentzFactor rel (p.add (e.smul (dt / 2 * κ)))))).cross b)).smul (dt * κ))).add τ)
    (hM : (p.add p').len ≤ 2 * M) (hM0 : 0 ≤ M) (he : gap e1 e ≤ δ) (hb : gap b1 b ≤ μδ) (hB : b1.len ≤ B) :
    ∃ τ' : V3, p' = (p.add ((e1.add (((p.add p').smul (1 / (2 * lorentzFactor rel (p.add (e1.smul (dt / 2 * κ)))))).cross b1)).smul (dt * κ))).add τ' ∧
      τ'.len ≤ τ.len + dt * |κ| * (δ + M * μδ + M * B * (dt / 2 * |κ| * δ / LIGHT_SPEED)) := by
  have c := c_pos
  have g1 := factor_ge rel (p.add (e.smul (dt / 2 * κ)))
  have g2 := factor_ge rel (p.add (e1.smul (dt / 2 * κ)))
  have lip := factor_lip rel (p.add (e.smul (dt / 2 * κ))) (p.add (e1.smul (dt / 2 * κ)))
  have eg : gap (p.add (e.smul (dt / 2 * κ))) (p.add (e1.smul (dt / 2 * κ))) = dt / 2 * |κ| * gap e e1 := by
    unfold gap
    rw [show (p.add (e.smul (dt / 2 * κ))).add ((p.add (e1.smul (dt / 2 * κ))).smul (-1)) = (e.add (e1.smul (-1))).smul (dt / 2 * κ) by
      simp only [V3.add, V3.smul]; ext <;> dsimp only <;> ring, len_smul, abs_mul, abs_of_nonneg (by linarith : 0 ≤ dt / 2)]
  rw [eg, gap_comm e e1] at lip
  have he0 := gap_nonneg e1 e
  have hb0 := gap_nonneg b1 b
  have n1 := len_nonneg b1
  have nq := len_nonneg (p.add p')
  have lip' : |lorentzFactor rel (p.add (e.smul (dt / 2 * κ))) - lorentzFactor rel (p.add (e1.smul (dt / 2 * κ)))| ≤ dt / 2 * |κ| * δ / LIGHT_SPEED := by
    refine lip.trans (div_le_div_of_nonneg_right (mul_le_mul_of_nonneg_left he (by positivity)) c.le)
  generalize lorentzFactor rel (p.add (e.smul (dt / 2 * κ))) = x at *
  generalize lorentzFactor rel (p.add (e1.smul (dt / 2 * κ))) = y at *
  generalize dt / 2 * |κ| * δ / LIGHT_SPEED = l at *
  have hxy : |1 / (2 * x) - 1 / (2 * y)| ≤ l / 2 := by
    have : 1 / (2 * x) - 1 / (2 * y) = (y - x) / (2 * (x * y)) := by field_simp
    rw [this, abs_div, abs_of_pos (by positivity : 0 < 2 * (x * y)), div_le_iff₀ (by positivity), abs_sub_comm]
    have h1 : 1 ≤ x * y := by nlinarith
    have l0 := (abs_nonneg _).trans lip'
    nlinarith
  obtain ⟨q, hq⟩ : ∃ q, q = p.add p' := ⟨_, rfl⟩
  rw [← hq] at hM nq
  obtain ⟨A, hA⟩ : ∃ A : V3, A = (e.add (e1.smul (-1))).add (((q.smul (1 / (2 * x))).cross (b.add (b1.smul (-1)))).add
    ((q.smul (1 / (2 * x) - 1 / (2 * y))).cross b1)) := ⟨_, rfl⟩
  refine ⟨τ.add (A.smul (dt * κ)), ?_, ?_⟩
  · rw [← hq] at hp ⊢
    have p0 := congrArg V3.c0 hp
    have p1 := congrArg V3.c1 hp
    have p2 := congrArg V3.c2 hp
    rw [hA]
    simp only [V3.add, V3.smul, V3.cross] at p0 p1 p2 ⊢
    ext <;> dsimp only
    · linear_combination p0
    · linear_combination p1
    · linear_combination p2
  · refine (len_add _ _).trans (add_le_add le_rfl ?_)
    rw [len_smul, abs_mul, abs_of_nonneg hdt]
    refine mul_le_mul_of_nonneg_left ?_ (by positivity)
    rw [hA]
    refine (len_add _ _).trans ?_
    have l1 : (e.add (e1.smul (-1))).len ≤ δ := by
      have := gap_comm e1 e; unfold gap at this he; linarith
    have l2 : ((q.smul (1 / (2 * x))).cross (b.add (b1.smul (-1)))).len ≤ M * μδ := by
      refine (len_cross _ _).trans ?_
      rw [len_smul, abs_of_pos (by positivity)]
      have hb' : (b.add (b1.smul (-1))).len ≤ μδ := by
        have := gap_comm b1 b; unfold gap at this hb; linarith
      have hx1 : 1 / (2 * x) ≤ 1 / 2 := by
        apply one_div_le_one_div_of_le <;> linarith
      have : 1 / (2 * x) * q.len ≤ M := by
        have := mul_le_mul hx1 hM nq (by norm_num)
        linarith
      exact mul_le_mul this hb' (len_nonneg _) hM0
    have l3 : ((q.smul (1 / (2 * x) - 1 / (2 * y))).cross b1).len ≤ M * B * l := by
      refine (len_cross _ _).trans ?_
      rw [len_smul]
      have l0 := (abs_nonneg _).trans hxy
      have := mul_le_mul hxy hM nq l0
      have := mul_le_mul this hB n1 (by positivity)
      linarith
    have := len_add ((q.smul (1 / (2 * x))).cross (b.add (b1.smul (-1)))) ((q.smul (1 / (2 * x) - 1 / (2 * y))).cross b1)
    linarith

/-- the equation of one push -/
theorem push_equation {mode : PusherMode} {rel g : Bool} {dt q m : ℝ} {e h v v' : V3} (hmode : mode ≠ .vay) (hm : m ≠ 0) (ht : AboveThreshold v)
    (hs : rel = true → speedSq v < LIGHT_SPEED ^ 2) (hr : isRelativistic mode g v = rel) (hp : push mode g dt q m e h v = some v') :
    (rel = true → speedSq v' < LIGHT_SPEED ^ 2) ∧
    momentum rel v' = (momentum rel v).add ((e.add ((((momentum rel v).add (momentum rel v')).smul
      (1 / (2 * lorentzFactor rel ((momentum rel v).add (e.smul (dt / 2 * (q / m))))))).cross (h.smul MAGN_CONST))).smul (dt * (q / m))) := by
  have run : PushRun mode rel dt q m (fun _ => e) (fun _ => h) 1 (fun n => if n = 0 then v else v') (fun _ => g) := by
    refine ⟨fun hR => by simpa using hs hR, ?_, ?_⟩
    · intro n hn
      obtain rfl : n = 0 := by omega
      simpa using hr
    · intro n hn
      obtain rfl : n = 0 := by omega
      simpa using hp
  have h1 := run.speed hm 1 le_rfl
  have h2 := run.equation hmode hm (n := 0) (by norm_num)
  simp only [zero_add, one_ne_zero, if_false, if_true, snap_eq ht] at h1 h2
  exact ⟨h1, h2⟩

/-- one step of the error of the momentum, with other fields -/
theorem error_fields {rel : Bool} {dt q m T B δ M0 M2 M3 : ℝ} {e h U : ℝ → V3} {e1 h1 u u' : V3} (hm : m ≠ 0) (hdt : 0 < dt)
    (hU : LorentzMotion rel q m T e h U) (hS : MotionSize T M0 M2 M3 U) (hβ : dt * (|q / m| * (MAGN_CONST * B)) ≤ 1) {n : ℕ} {t : ℝ}
    (ht : t = (n + 1 / 2) * dt) (nN : ((n : ℝ) + 1) * dt ≤ T) (hB : (h t).len ≤ B) (hB1 : h1.len ≤ B) (he : gap e1 (e t) ≤ δ) (hh : gap h1 (h t) ≤ δ)
    (eu : u' = u.add ((e1.add (((u.add u').smul (1 / (2 * lorentzFactor rel (u.add (e1.smul (dt / 2 * (q / m))))))).cross
      (h1.smul MAGN_CONST))).smul (dt * (q / m)))) :
    gap u' (U ((n + 1) * dt)) ≤ (1 + dt * growthRate q m B M0) * gap u (U (n * dt)) + dt ^ 3 * stepError dt q m B M0 M2 M3 +
      2 * (dt * |q / m| * (δ + M0 * (MAGN_CONST * δ) + M0 * (MAGN_CONST * B) * (dt / 2 * |q / m| * δ / LIGHT_SPEED))) := by
  have c := c_pos
  have mu := MAGN_CONST_pos
  have nd : 0 ≤ (n : ℝ) * dt := by positivity
  have tm : t - dt / 2 = n * dt := by rw [ht]; ring
  have tp : t + dt / 2 = (n + 1) * dt := by rw [ht]; ring
  have tay' := taylor3 hU.smooth.1 hU.smooth.2.1 hU.smooth.2.2 hS t (dt / 2) (by linarith) (by rw [tm]; exact nd) (by rw [tp]; exact nN)
  rw [tm, tp] at tay'
  have t0 : 0 ≤ t := by rw [ht]; positivity
  have tT : t ≤ T := by linarith
  have p0 : 0 ≤ M0 := (len_nonneg _).trans (hS.size t t0 tT)
  have p2 : 0 ≤ M2 := (abs_nonneg _).trans (hS.second t t0 tT).1
  have force := hU.force t t0 tT
  have hrate : rate U t = ((e t).add ((velocityAt rel (U t)).cross ((h t).smul MAGN_CONST))).smul (q / m) := by
    have f0 := congrArg V3.c0 force
    have f1 := congrArg V3.c1 force
    have f2 := congrArg V3.c2 force
    simp only [V3.smul] at f0 f1 f2
    unfold rate
    simp only [V3.smul]
    ext
    · dsimp only; rw [mul_div_assoc', eq_div_iff hm]; exact f0
    · dsimp only; rw [mul_div_assoc', eq_div_iff hm]; exact f1
    · dsimp only; rw [mul_div_assoc', eq_div_iff hm]; exact f2
  have hb : ((h t).smul MAGN_CONST).len ≤ MAGN_CONST * B := by
    rw [len_smul, abs_of_nonneg mu.le]
    exact mul_le_mul_of_nonneg_left hB mu.le
  have hb1 : (h1.smul MAGN_CONST).len ≤ MAGN_CONST * B := by
    rw [len_smul, abs_of_nonneg mu.le]
    exact mul_le_mul_of_nonneg_left hB1 mu.le
  have hg : gap (h1.smul MAGN_CONST) ((h t).smul MAGN_CONST) ≤ MAGN_CONST * δ := by
    have : (h1.smul MAGN_CONST).add (((h t).smul MAGN_CONST).smul (-1)) = (h1.add ((h t).smul (-1))).smul MAGN_CONST := by
      simp only [V3.add, V3.smul]; ext <;> dsimp only <;> ring
    unfold gap
    rw [this, len_smul, abs_of_nonneg mu.le]
    exact mul_le_mul_of_nonneg_left hh mu.le
  unfold growthRate stepError
  generalize q / m = κ at *
  generalize MAGN_CONST * B = B' at *
  have B0' : 0 ≤ B' := (len_nonneg _).trans hb
  obtain ⟨τ, τ1, τ2⟩ := residual rel (κ := κ) (s := dt / 2) (e := e t) (b := (h t).smul MAGN_CONST) (p := U (n * dt))
    (p' := U ((n + 1) * dt)) (w := U t) (by linarith) p0 p2 hrate hb (hS.size t t0 tT) tay'.1 tay'.2.1 tay'.2.2
  have ek : 2 * (dt / 2) * κ = dt * κ := by ring
  rw [ek] at τ1
  have hM : ((U (n * dt)).add (U ((n + 1) * dt))).len ≤ 2 * M0 := by
    refine (len_add _ _).trans ?_
    have := hS.size (n * dt) nd (by linarith)
    have := hS.size ((n + 1) * dt) (by positivity) nN
    linarith
  obtain ⟨τ', σ1, σ2⟩ := residual_fields rel hdt.le τ1 hM p0 he hg hb1
  have lip := factor_lip rel (u.add (e1.smul (dt / 2 * κ))) ((U (n * dt)).add (e1.smul (dt / 2 * κ)))
  have eg : gap (u.add (e1.smul (dt / 2 * κ))) ((U (n * dt)).add (e1.smul (dt / 2 * κ))) = gap u (U (n * dt)) := by
    unfold gap
    congr 1
    simp only [V3.add, V3.smul]
    ext <;> dsimp only <;> ring
  rw [eg, show gap u (U (n * dt)) / LIGHT_SPEED = 1 / LIGHT_SPEED * gap u (U (n * dt)) by ring] at lip
  have key := push_stab (β := dt * (|κ| * B')) (M := M0) (factor_ge rel _) (factor_ge rel _) eu σ1 lip hM (by
      rw [abs_mul, abs_of_nonneg hdt.le]
      have := mul_le_mul_of_nonneg_left hb1 (by positivity : 0 ≤ dt * |κ|)
      linarith) hβ (by positivity) p0
  refine key.trans ?_
  have e1 : 2 * (dt * (|κ| * B')) * (1 + M0 * (1 / LIGHT_SPEED)) = dt * (2 * (|κ| * B') * (1 + M0 / LIGHT_SPEED)) := by ring
  rw [e1]
  have l1 := mul_le_mul_of_nonneg_left (σ2.trans (add_le_add τ2 le_rfl)) (by norm_num : (0:ℝ) ≤ 2)
  rw [add_assoc]
  refine (add_le_add le_rfl l1).trans (le_of_eq ?_)
  ring

/-- one step of the error of the place -/
theorem error_place {r : ℝ → ℝ} (hr : ContDiff ℝ 3 r) {T M2 M3 dt x v : ℝ} (b2 : ∀ t, 0 ≤ t → t ≤ T → |deriv (deriv r) t| ≤ M2)
    (b3 : ∀ t, 0 ≤ t → t ≤ T → |deriv (deriv (deriv r)) t| ≤ M3) (hdt : 0 < dt) {n : ℕ} (nN : ((n : ℝ) + 3 / 2) * dt ≤ T) :
    |x + v * dt - r ((n + 3 / 2) * dt)| ≤ |x - r ((n + 1 / 2) * dt)| + dt * |v - deriv r ((n + 1) * dt)| + dt ^ 3 * M3 := by
  have nd : 0 ≤ (n : ℝ) * dt := by positivity
  obtain ⟨a, -, -⟩ := taylor1 hr b2 b3 ((n + 1) * dt) (dt / 2) (by linarith) (by nlinarith) (by nlinarith)
  rw [show ((n : ℝ) + 1) * dt + dt / 2 = (n + 3 / 2) * dt by ring, show ((n : ℝ) + 1) * dt - dt / 2 = (n + 1 / 2) * dt by ring] at a
  have m3 : 0 ≤ M3 := (abs_nonneg _).trans (b3 0 le_rfl (le_trans (by positivity) nN))
  have e : x + v * dt - r ((n + 3 / 2) * dt) = (x - r ((n + 1 / 2) * dt)) + dt * (v - deriv r ((n + 1) * dt)) -
      (r ((n + 3 / 2) * dt) - r ((n + 1 / 2) * dt) - 2 * (dt / 2) * deriv r ((n + 1) * dt)) := by ring
  rw [e]
  refine (abs_sub _ _).trans ?_
  have := abs_add_le (x - r ((n + 1 / 2) * dt)) (dt * (v - deriv r ((n + 1) * dt)))
  rw [abs_mul, abs_of_pos hdt] at this
  have : M3 / 3 * (dt / 2) ^ 3 ≤ dt ^ 3 * M3 := by
    have : 0 ≤ dt ^ 3 * M3 := by positivity
    linarith
  linarith

theorem combine {a a' b b' dt K S Q L η Mx : ℝ} (a0 : 0 ≤ a) (b0 : 0 ≤ b) (dt0 : 0 < dt) (dt1 : dt ≤ 1) (K0 : 0 ≤ K) (S0 : 0 ≤ S) (Q0 : 0 ≤ Q)
    (L0 : 0 ≤ L) (η0 : 0 ≤ η) (M0 : 0 ≤ Mx) (ha : a' ≤ (1 + dt * K) * a + dt ^ 3 * S + 2 * (dt * (Q * (η + L * b))))
    (hb : b' ≤ b + dt * (4 * a') + dt ^ 3 * Mx) :
    a' + b' ≤ (1 + dt * (4 + 5 * K + 10 * (Q * L))) * (a + b) + dt * ((5 * S + 10 * Q + Mx) * (dt ^ 2 + η)) := by
  have h1 := mul_le_mul_of_nonneg_left ha (by positivity : 0 ≤ 1 + 4 * dt)
  have w : ∀ x : ℝ, 0 ≤ x → (1 + 4 * dt) * x ≤ 5 * x := fun x hx => mul_le_mul_of_nonneg_right (by linarith) hx
  have k1 := w (dt * K * a) (by positivity)
  have k2 := w (dt ^ 3 * S + 2 * (dt * (Q * (η + L * b)))) (by positivity)
  have k3 : 0 ≤ dt * (5 * K + 10 * (Q * L)) * b + 0 := by positivity
  have k4 : 0 ≤ dt * (10 * (Q * L)) * a := by positivity
  have k5 : 0 ≤ dt * (4 + 5 * K) * b := by positivity
  have k6 : 0 ≤ dt * ((5 * S + Mx) * η) := by positivity
  have k7 : 0 ≤ dt * (10 * Q * dt ^ 2) := by positivity
  have e1 : (1 + 4 * dt) * ((1 + dt * K) * a + dt ^ 3 * S + 2 * (dt * (Q * (η + L * b)))) =
      (1 + 4 * dt) * a + (1 + 4 * dt) * (dt * K * a) + (1 + 4 * dt) * (dt ^ 3 * S + 2 * (dt * (Q * (η + L * b)))) := by ring
  rw [e1] at h1
  have e2 : (1 + dt * (4 + 5 * K + 10 * (Q * L))) * (a + b) + dt * ((5 * S + 10 * Q + Mx) * (dt ^ 2 + η)) =
      (1 + 4 * dt) * a + 5 * (dt * K * a) + 5 * (dt ^ 3 * S + 2 * (dt * (Q * (η + L * b)))) + b + dt ^ 3 * Mx +
        dt * (10 * (Q * L)) * a + dt * (4 + 5 * K) * b + dt * ((5 * S + Mx) * η) + dt * (10 * Q * dt ^ 2) := by ring
  rw [e2]
  linarith

theorem comp_gap (u w : V3) : |u.c0 - w.c0| ≤ gap u w ∧ |u.c2 - w.c2| ≤ gap u w := by
  obtain ⟨a, -, b⟩ := comp_le (u.add (w.smul (-1)))
  simp only [V3.add, V3.smul] at a b
  refine ⟨?_, ?_⟩
  · rw [show u.c0 - w.c0 = u.c0 + w.c0 * -1 by ring]; exact a
  · rw [show u.c2 - w.c2 = u.c2 + w.c2 * -1 by ring]; exact b

end PathConverge

open PathConverge PushConverge RoundedPush

set_option maxHeartbeats 2000000 in
/-- **C113**, second order in the time step for macroparticles that move in the r-z half plane.  `r`, `z`, `U` is the path of a charge in the fields `e`, `h`
of a chamber of radius `R` and length `Z`, and `p` a macroparticle of this charge and mass.  The fields of the grid, interpolated to places near the
path, are off by at most `η`.  After `N` cycles its velocity is that of the path at the time `N dt` and its place that of the path at `(N + 1/2) dt`, up to a
constant times the error of the start, `dt ^ 2` and `η`.  The constant does not depend on the grid, the time step or the number of steps.  The path is at
least `δ` away from the walls of the grid.

The full statement has no condition on the direction of the motion (violated, `C113_azimuth_violated`), starts with the place and the velocity at one time
(violated, `C113_start_violated`) and holds for every pusher and all velocities (violated, see C112). -/
theorem C113_path_partial (mode : PusherMode) (hmode : mode ≠ .vay) (rel : Bool) (q m T R Z B L : ℝ) (hm : m ≠ 0) (hT : 0 ≤ T) (hL : 0 ≤ L)
    (hR : 0 ≤ R) (hZ : 0 ≤ Z) (e h : ℝ → ℝ → ℝ → V3) (r z : ℝ → ℝ) (U : ℝ → V3) (hP : LorentzPath rel q m T e h r z U)
    (hF : SmoothFields T R Z B L e h) :
    ∃ C d : ℝ, 0 < C ∧ 0 < d ∧ ∀ (bunch : Bool) (G : Geom) (dt δ η : ℝ) (N : ℕ) (F : ℕ → Fields) (g : ℕ → Bool) (p : Particle),
      G.Valid → G.r_size = R → G.z_size = Z → 0 < dt → dt ≤ d → (N + 1 / 2) * dt ≤ T → 0 ≤ η → η ≤ 1 →
      (∀ n < N, GridField G (F n) (r ((n + 1 / 2) * dt)) (z ((n + 1 / 2) * dt)) δ η (e ((n + 1 / 2) * dt)) (h ((n + 1 / 2) * dt))) →
      (∀ t, 0 ≤ t → t ≤ T → G.dr / 2 + δ ≤ r t ∧ r t ≤ R - G.dr / 2 - δ ∧ G.dz / 2 + δ ≤ z t ∧ z t ≤ Z - G.dz / 2 - δ) →
      p.alive = true → p.charge = q → p.mass = m → p.pos.c1 = 0 → p.vel.c1 = 0 → (rel = true → speedSq p.vel < LIGHT_SPEED ^ 2) →
      (∀ n < N, ∀ p', cycles bunch G mode dt F g n p = some p' → AboveThreshold p'.vel ∧ isRelativistic mode (g n) p'.vel = rel) →
      let error := C * (gap (momentum rel p.vel) (U 0) + (|p.pos.c0 - r (dt / 2)| + |p.pos.c2 - z (dt / 2)|) + dt ^ 2 + η)
      error ≤ δ →
      ∃ p', cycles bunch G mode dt F g N p = some p' ∧ InRegion G p'.pos.c0 p'.pos.c2 ∧ gap p'.vel (velocityAt rel (U (N * dt))) ≤ error ∧
        |p'.pos.c0 - r ((N + 1 / 2) * dt)| ≤ error ∧ |p'.pos.c2 - z ((N + 1 / 2) * dt)| ≤ error := by
  have c := c_pos
  have mu := MAGN_CONST_pos
  obtain ⟨MU, hMU, hS⟩ := motion_size hP.force.smooth.1 hP.force.smooth.2.1 hP.force.smooth.2.2 T
  obtain ⟨MX, hMX, hX⟩ := motion_size (U := fun t => ⟨r t, 0, z t⟩) hP.smooth.1 contDiff_const hP.smooth.2 T
  have B0 : 0 ≤ B := (len_nonneg _).trans (hF.bound 0 0 0 le_rfl hT le_rfl hR le_rfl hZ)
  obtain ⟨B', hB'⟩ : ∃ B', B' = B + 1 := ⟨_, rfl⟩
  have B0' : 0 ≤ B' := by linarith
  obtain ⟨K, hK⟩ : ∃ K, K = growthRate q m B' MU := ⟨_, rfl⟩
  have K0 : 0 ≤ K := by rw [hK]; unfold growthRate; positivity
  obtain ⟨S, hSt⟩ : ∃ S, S = stepError 1 q m B' MU MU MU := ⟨_, rfl⟩
  have S0 : 0 ≤ S := by rw [hSt]; unfold stepError; positivity
  obtain ⟨Q, hQ⟩ : ∃ Q, Q = |q / m| * (1 + MU * MAGN_CONST + MU * (MAGN_CONST * B') * (|q / m| / LIGHT_SPEED)) := ⟨_, rfl⟩
  have Q0 : 0 ≤ Q := by rw [hQ]; positivity
  obtain ⟨K', hK'⟩ : ∃ K', K' = 4 + 5 * K + 10 * (Q * L) := ⟨_, rfl⟩
  have K0' : 0 ≤ K' := by rw [hK']; positivity
  obtain ⟨A, hA⟩ : ∃ A, A = 5 * S + 10 * Q + 2 * MX := ⟨_, rfl⟩
  have A0 : 0 ≤ A := by rw [hA]; positivity
  obtain ⟨C, hC⟩ : ∃ C, C = Real.exp (T * K') * (1 + T * A) := ⟨_, rfl⟩
  have C0 : 0 < C := by rw [hC]; positivity
  refine ⟨2 * C, min 1 (1 / (|q / m| * (MAGN_CONST * B') + 1)), by positivity, by positivity, ?_⟩
  intro bunch G dt δ η N F g p hG hGR hGZ dt0 hd hN η0 η1 hGF hpath ha hq hmass hp1 hv1 hs hthr error herr
  have hd1 : dt ≤ 1 := hd.trans (min_le_left _ _)
  have hβ : dt * (|q / m| * (MAGN_CONST * B')) ≤ 1 := by
    have := hd.trans (min_le_right _ _)
    rw [le_div_iff₀ (by positivity)] at this
    nlinarith
  have hSd : stepError dt q m B' MU MU MU ≤ S := by
    rw [hSt]
    unfold stepError
    gcongr
  obtain ⟨D0, hD0⟩ : ∃ D0, D0 = gap (momentum rel p.vel) (U 0) + (|p.pos.c0 - r (dt / 2)| + |p.pos.c2 - z (dt / 2)|) := ⟨_, rfl⟩
  have D00 : 0 ≤ D0 := by
    have := gap_nonneg (momentum rel p.vel) (U 0)
    rw [hD0]; positivity
  have eerr : error = 2 * (C * (D0 + dt ^ 2 + η)) := by rw [hD0]; ring
  have err0 : 0 ≤ C * (D0 + dt ^ 2 + η) := by positivity
  -- the bound of the induction
  have total : ∀ n ≤ N, (1 + dt * K') ^ n * (D0 + n * (dt * (A * (dt ^ 2 + η)))) ≤ C * (D0 + dt ^ 2 + η) := by
    intro n hn
    have nT : (n : ℝ) * dt ≤ T := by
      have := mul_le_mul_of_nonneg_right (by exact_mod_cast hn : (n : ℝ) ≤ N) dt0.le
      linarith only [this, hN, dt0]
    have w1 : (1 + dt * K') ^ n ≤ Real.exp (T * K') := by
      have := pow_le_pow_left₀ (by positivity) (Real.add_one_le_exp (dt * K')) n
      rw [← Real.exp_nat_mul, add_comm] at this
      refine this.trans (Real.exp_le_exp.2 ?_)
      have := mul_le_mul_of_nonneg_right nT K0'
      linarith
    have w2 : (n : ℝ) * (dt * (A * (dt ^ 2 + η))) ≤ T * A * (dt ^ 2 + η) := by
      have := mul_le_mul_of_nonneg_right nT (by positivity : 0 ≤ A * (dt ^ 2 + η))
      linarith
    rw [hC, mul_assoc]
    refine mul_le_mul w1 ?_ (by positivity) (Real.exp_pos _).le
    have : 0 ≤ T * A * D0 := by positivity
    have : 0 ≤ dt ^ 2 + η := by positivity
    linarith
  have inv : ∀ n ≤ N, ∃ p', cycles bunch G mode dt F g n p = some p' ∧ p'.alive = true ∧ p'.charge = q ∧ p'.mass = m ∧ p'.pos.c1 = 0 ∧
      p'.vel.c1 = 0 ∧ (rel = true → speedSq p'.vel < LIGHT_SPEED ^ 2) ∧ InRegion G p'.pos.c0 p'.pos.c2 ∧
      gap (momentum rel p'.vel) (U (n * dt)) + (|p'.pos.c0 - r ((n + 1 / 2) * dt)| + |p'.pos.c2 - z ((n + 1 / 2) * dt)|) ≤
        (1 + dt * K') ^ n * (D0 + n * (dt * (A * (dt ^ 2 + η)))) := by
    have near : ∀ n ≤ N, ∀ x y a : ℝ, 0 ≤ a → a + (|x - r ((n + 1 / 2) * dt)| + |y - z ((n + 1 / 2) * dt)|) ≤
        (1 + dt * K') ^ n * (D0 + n * (dt * (A * (dt ^ 2 + η)))) →
        InRegion G x y ∧ |x - r ((n + 1 / 2) * dt)| ≤ δ ∧ |y - z ((n + 1 / 2) * dt)| ≤ δ := by
      intro n hn x y a a0 hx
      have t1 := total n hn
      have nT : ((n : ℝ) + 1 / 2) * dt ≤ T := by
        have := mul_le_mul_of_nonneg_right (by exact_mod_cast hn : (n : ℝ) ≤ N) dt0.le
        linarith only [this, hN]
      obtain ⟨w1, w2, w3, w4⟩ := hpath ((n + 1 / 2) * dt) (by positivity) nT
      have y1' : |x - r ((n + 1 / 2) * dt)| ≤ δ := by
        have := abs_nonneg (y - z ((n + 1 / 2) * dt)); linarith only [this, a0, hx, t1, err0, eerr, herr]
      have y2' : |y - z ((n + 1 / 2) * dt)| ≤ δ := by
        have := abs_nonneg (x - r ((n + 1 / 2) * dt)); linarith only [this, a0, hx, t1, err0, eerr, herr]
      have y1 := abs_le.1 y1'
      have y2 := abs_le.1 y2'
      refine ⟨?_, y1', y2'⟩
      unfold InRegion
      rw [hGR, hGZ]
      refine ⟨?_, ?_, ?_, ?_⟩ <;> linarith only [y1.1, y1.2, y2.1, y2.2, w1, w2, w3, w4]
    intro n
    induction n with
    | zero =>
      intro h0
      have : gap (momentum rel p.vel) (U ((0 : ℕ) * dt)) + (|p.pos.c0 - r (((0 : ℕ) + 1 / 2) * dt)| + |p.pos.c2 - z (((0 : ℕ) + 1 / 2) * dt)|) ≤
          (1 + dt * K') ^ 0 * (D0 + (0 : ℕ) * (dt * (A * (dt ^ 2 + η)))) := by
        rw [hD0, show (((0 : ℕ) : ℝ) + 1 / 2) * dt = dt / 2 by push_cast; ring]
        simp
      exact ⟨p, rfl, ha, hq, hmass, hp1, hv1, hs, (near 0 h0 _ _ _ (gap_nonneg _ _) this).1, this⟩
    | succ n ih =>
      intro hn
      obtain ⟨p', i1, i2, i3, i4, i5, i6, i7, i8, i9⟩ := ih (by omega)
      obtain ⟨j1, j2⟩ := hthr n (by omega) p' i1
      obtain ⟨k1, k2, k3, k4, k5⟩ := hGF n (by omega) _ _ (near n (by omega) _ _ _ (gap_nonneg _ _) i9).2.1 (near n (by omega) _ _ _ (gap_nonneg _ _) i9).2.2
      have nN : ((n : ℝ) + 1) ≤ N := by exact_mod_cast hn
      have nNd := mul_le_mul_of_nonneg_right nN dt0.le
      have nT1 : ((n : ℝ) + 1) * dt ≤ T := by linarith only [nNd, hN, dt0]
      have nT3 : ((n : ℝ) + 3 / 2) * dt ≤ T := by linarith only [nNd, hN, dt0]
      obtain ⟨t, ht⟩ : ∃ t, t = ((n : ℝ) + 1 / 2) * dt := ⟨_, rfl⟩
      have t0 : 0 ≤ t := by rw [ht]; positivity
      have tT : t ≤ T := by linarith only [ht, nT1, dt0]
      obtain ⟨i81, i82, i83, i84⟩ := i8
      have dr0 := hG.dr_pos
      have dz0 := hG.dz_pos
      rw [hGR] at i82
      rw [hGZ] at i84
      obtain ⟨w1, w2, w3, w4⟩ := hpath t t0 tT
      have δ0 : 0 ≤ δ := by linarith only [err0, eerr, herr]
      have q1 : 0 ≤ p'.pos.c0 := by linarith only [i81, dr0]
      have q2 : p'.pos.c0 ≤ R := by linarith only [i82, dr0]
      have q3 : 0 ≤ p'.pos.c2 := by linarith only [i83, dz0]
      have q4 : p'.pos.c2 ≤ Z := by linarith only [i84, dz0]
      have q5 : 0 ≤ r t := by linarith only [w1, dr0, δ0]
      have q6 : r t ≤ R := by linarith only [w2, dr0, δ0]
      have q7 : 0 ≤ z t := by linarith only [w3, dz0, δ0]
      have q8 : z t ≤ Z := by linarith only [w4, dz0, δ0]
      have l1 := hF.electric t p'.pos.c0 p'.pos.c2 (r t) (z t) t0 tT q1 q2 q3 q4 q5 q6 q7 q8
      have l2 := hF.magnetic t p'.pos.c0 p'.pos.c2 (r t) (z t) t0 tT q1 q2 q3 q4 q5 q6 q7 q8
      have l3 := hF.bound t p'.pos.c0 p'.pos.c2 t0 tT q1 q2 q3 q4
      have l4 := hF.bound t (r t) (z t) t0 tT q5 q6 q7 q8
      rw [← ht] at k1 k2 i9
      have hrel : isRelativistic mode (g n) p'.vel = true → speedSq p'.vel < LIGHT_SPEED ^ 2 := by rw [j2]; exact i7
      obtain ⟨v, a1, -⟩ := C57_boris_lorentz mode (g n) hmode dt q m hm (valE G (F n) p'.pos.c0 p'.pos.c2) (valH G (F n) p'.pos.c0 p'.pos.c2)
        p'.vel hrel j1
      obtain ⟨sv, ev⟩ := push_equation hmode hm j1 i7 j2 a1
      obtain ⟨b, hb⟩ : ∃ b, b = |p'.pos.c0 - r t| + |p'.pos.c2 - z t| := ⟨_, rfl⟩
      have b0 : 0 ≤ b := by rw [hb]; positivity
      rw [← hb] at l1 l2 i9
      have fe : gap (valE G (F n) p'.pos.c0 p'.pos.c2) (e t (r t) (z t)) ≤ η + L * b := (gap_triangle _ _ _).trans (add_le_add k1 l1)
      have fh : gap (valH G (F n) p'.pos.c0 p'.pos.c2) (h t (r t) (z t)) ≤ η + L * b := (gap_triangle _ _ _).trans (add_le_add k2 l2)
      have hb1 : (valH G (F n) p'.pos.c0 p'.pos.c2).len ≤ B' := by
        have := abs_le.1 (gap_len (valH G (F n) p'.pos.c0 p'.pos.c2) (h t p'.pos.c0 p'.pos.c2))
        linarith only [this.2, l3, k2, η1, hB']
      have st := error_fields hm dt0 hP.force hS hβ ht nT1 (by linarith only [l4, hB']) hb1 fe fh ev
      obtain ⟨a, hae⟩ : ∃ a, a = gap (momentum rel p'.vel) (U (n * dt)) := ⟨_, rfl⟩
      obtain ⟨a', hae'⟩ : ∃ a', a' = gap (momentum rel v) (U ((n + 1) * dt)) := ⟨_, rfl⟩
      have a0 : 0 ≤ a := by rw [hae]; exact gap_nonneg _ _
      have a0' : 0 ≤ a' := by rw [hae']; exact gap_nonneg _ _
      rw [← hae, ← hae', ← hK] at st
      rw [← hae] at i9
      have st' : a' ≤ (1 + dt * K) * a + dt ^ 3 * S + 2 * (dt * (Q * (η + L * b))) := by
        refine st.trans ?_
        have x1 := mul_le_mul_of_nonneg_left hSd (by positivity : 0 ≤ dt ^ 3)
        have x0 : 0 ≤ η + L * b := by positivity
        generalize η + L * b = ω at *
        have x2 : dt * |q / m| * (ω + MU * (MAGN_CONST * ω) + MU * (MAGN_CONST * B') * (dt / 2 * |q / m| * ω / LIGHT_SPEED)) ≤ dt * (Q * ω) := by
          rw [mul_assoc]
          refine mul_le_mul_of_nonneg_left ?_ dt0.le
          have x3 : MU * (MAGN_CONST * B') * (dt / 2 * |q / m| * ω / LIGHT_SPEED) ≤ MU * (MAGN_CONST * B') * (1 * |q / m| * ω / LIGHT_SPEED) := by
            gcongr
            linarith
          have x4 := mul_le_mul_of_nonneg_left x3 (abs_nonneg (q / m))
          rw [hQ]
          refine (le_of_eq (mul_add _ _ _)).trans ((add_le_add le_rfl x4).trans (le_of_eq ?_))
          ring
        linarith only [x1, x2]
      have vl := velocity_lip rel (momentum rel v) (U ((n + 1) * dt))
      rw [velocity_momentum rel sv, ← hae'] at vl
      obtain ⟨c0, c2⟩ := comp_gap v (velocityAt rel (U ((n + 1) * dt)))
      obtain ⟨d0, d2⟩ := hP.velocity ((n + 1) * dt) (by positivity) nT1
      have e0 := error_place hP.smooth.1 (x := p'.pos.c0) (v := v.c0) (fun t u w => (hX.second t u w).1) (fun t u w => (hX.third t u w).1) dt0 nT3
      have e2 := error_place hP.smooth.2 (x := p'.pos.c2) (v := v.c2) (fun t u w => (hX.second t u w).2.2) (fun t u w => (hX.third t u w).2.2) dt0 nT3
      rw [← ht, d0] at e0
      rw [← ht, d2] at e2
      have f0 := mul_le_mul_of_nonneg_left (c0.trans vl) dt0.le
      have f2 := mul_le_mul_of_nonneg_left (c2.trans vl) dt0.le
      have comb := combine (b' := |p'.pos.c0 + v.c0 * dt - r ((n + 3 / 2) * dt)| + |p'.pos.c2 + v.c2 * dt - z ((n + 3 / 2) * dt)|) (Mx := 2 * MX)
        a0 b0 dt0 hd1 K0 S0 Q0 hL η0 (by positivity) st' (by linarith only [e0, e2, f0, f2, hb])
      rw [← hK', ← hA] at comb
      have D1 : a' + (|p'.pos.c0 + v.c0 * dt - r (((n + 1 : ℕ) + 1 / 2) * dt)| + |p'.pos.c2 + v.c2 * dt - z (((n + 1 : ℕ) + 1 / 2) * dt)|) ≤
          (1 + dt * K') ^ (n + 1) * (D0 + (n + 1 : ℕ) * (dt * (A * (dt ^ 2 + η)))) := by
        rw [show (((n + 1 : ℕ) : ℝ) + 1 / 2) * dt = (n + 3 / 2) * dt by push_cast; ring]
        refine comb.trans ?_
        have g1 := mul_le_mul_of_nonneg_left i9 (by positivity : 0 ≤ 1 + dt * K')
        have g2 : (1 : ℝ) ≤ (1 + dt * K') ^ (n + 1) := one_le_pow₀ (by linarith only [mul_nonneg dt0.le K0'])
        have g3 := mul_le_mul_of_nonneg_right g2 (by positivity : 0 ≤ dt * (A * (dt ^ 2 + η)))
        have g4 : (1 + dt * K') ^ (n + 1) * (D0 + (n + 1 : ℕ) * (dt * (A * (dt ^ 2 + η)))) =
            (1 + dt * K') * ((1 + dt * K') ^ n * (D0 + n * (dt * (A * (dt ^ 2 + η))))) + (1 + dt * K') ^ (n + 1) * (dt * (A * (dt ^ 2 + η))) := by
          push_cast
          ring
        rw [g4]
        linarith only [g1, g3]
      have reg := (near (n + 1) hn _ _ _ a0' D1).1
      obtain ⟨p2, m1, m2, m3, m4, m5, m6⟩ := cycle_plane (bunch := bunch) (p := p') (v := v) (F := F n) (g := g n) (mode := mode) dr0 i2 i5 i6
        (by linarith only [i81, dr0]) k3 k4 k5 (by rw [i3, i4]; exact a1) reg
      refine ⟨p2, by rw [cycles, i1, Option.bind_some, m1], m2, by rw [m3, i3], by rw [m4, i4], by rw [m6], ?_, ?_, ?_, ?_⟩
      · rw [m5]; exact push_planar k3 k4 k5 i6 a1
      · rw [m5]; exact sv
      · rw [m6]; exact reg
      · rw [m5, m6]
        dsimp only
        rw [show U (((n + 1 : ℕ) : ℝ) * dt) = U ((n + 1) * dt) by push_cast; rfl, ← hae']
        exact D1
  obtain ⟨p', i1, i2, i3, i4, i5, i6, i7, i8, i9⟩ := inv N le_rfl
  have t1 := total N le_rfl
  have g0 := gap_nonneg (momentum rel p'.vel) (U (N * dt))
  have g1 := abs_nonneg (p'.pos.c0 - r ((N + 1 / 2) * dt))
  have g2 := abs_nonneg (p'.pos.c2 - z ((N + 1 / 2) * dt))
  have vl := velocity_lip rel (momentum rel p'.vel) (U (N * dt))
  rw [velocity_momentum rel i7] at vl
  refine ⟨p', i1, i8, ?_, ?_, ?_⟩ <;> rw [eerr] <;> linarith only [i9, t1, g0, g1, g2, vl, err0]

end Verif
