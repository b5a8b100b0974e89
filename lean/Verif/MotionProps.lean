import Verif.MotionRep
import Verif.PusherProps
import Verif.DepositProps
import Verif.Current

/-!
# Properties of particle motion (C22, C23, C24, C50, C52)
-/

namespace Verif

/-! ## C22: reflecting walls -/

/-- a coordinate after two mirrors -/
noncomputable def mirrorX (lo hi x : ℝ) : ℝ :=
  let x := if x > hi then hi * 2 - x else x
  if x < lo then lo * 2 - x else x

/-- a velocity after two mirrors -/
noncomputable def mirrorV (lo hi x v : ℝ) : ℝ :=
  let v' := if x > hi then -v else v
  let x' := if x > hi then hi * 2 - x else x
  if x' < lo then -v' else v'

theorem reflection_fields (G : Geom) (p : Particle) :
    (reflection G p).pos = ⟨mirrorX (G.dr / 2) (G.r_size - G.dr / 2) p.pos.c0, p.pos.c1,
      mirrorX (G.dz / 2) (G.z_size - G.dz / 2) p.pos.c2⟩ ∧
    (reflection G p).vel = ⟨mirrorV (G.dr / 2) (G.r_size - G.dr / 2) p.pos.c0 p.vel.c0, p.vel.c1,
      mirrorV (G.dz / 2) (G.z_size - G.dz / 2) p.pos.c2 p.vel.c2⟩ ∧
    (reflection G p).alive = p.alive ∧ (reflection G p).posOld = p.posOld ∧
    (reflection G p).charge = p.charge ∧ (reflection G p).mass = p.mass := by
  have er : G.dr / 2 * 2 = G.dr := by ring
  have ez : G.dz / 2 * 2 = G.dz := by ring
  have stage0 : ∀ (c : Prop) [Decidable c] (q : Particle) (a : ℝ),
      (if c then { q with pos := ⟨a, q.pos.c1, q.pos.c2⟩,
                          vel := ⟨-q.vel.c0, q.vel.c1, q.vel.c2⟩ } else q)
        = { q with pos := ⟨if c then a else q.pos.c0, q.pos.c1, q.pos.c2⟩,
                   vel := ⟨if c then -q.vel.c0 else q.vel.c0, q.vel.c1, q.vel.c2⟩ } := by
    intro c _ q a; split_ifs <;> rfl
  have stage2 : ∀ (c : Prop) [Decidable c] (q : Particle) (a : ℝ),
      (if c then { q with pos := ⟨q.pos.c0, q.pos.c1, a⟩,
                          vel := ⟨q.vel.c0, q.vel.c1, -q.vel.c2⟩ } else q)
        = { q with pos := ⟨q.pos.c0, q.pos.c1, if c then a else q.pos.c2⟩,
                   vel := ⟨q.vel.c0, q.vel.c1, if c then -q.vel.c2 else q.vel.c2⟩ } := by
    intro c _ q a; split_ifs <;> rfl
  unfold reflection reflectLow mirrorX mirrorV
  dsimp only
  rw [er, ez]
  rw [stage0, stage2, stage0, stage2]
  exact ⟨rfl, rfl, rfl, rfl, rfl, rfl⟩

theorem mirrorX_eq {a b x0 x : ℝ} (h0 : a ≤ x0) (h1 : x0 ≤ b) (hd : |x - x0| ≤ b - a) :
    a ≤ mirrorX a b x ∧ mirrorX a b x ≤ b ∧ (a ≤ x → x ≤ b → mirrorX a b x = x) ∧
    ∀ v, mirrorV a b x v = if a ≤ x ∧ x ≤ b then v else -v := by
  rw [abs_le] at hd
  unfold mirrorX mirrorV
  dsimp only
  by_cases h : x > b
  · have n1 : ¬ (b * 2 - x < a) := by linarith
    have n2 : ¬ (x ≤ b) := by linarith
    simp only [h, n1, n2, if_true, if_false, and_false]
    exact ⟨by linarith, by linarith, fun _ h => h.elim, fun _ => trivial⟩
  · by_cases h' : x < a
    · have n2 : ¬ (a ≤ x) := by linarith
      simp only [h, h', n2, if_true, if_false, false_and]
      exact ⟨by linarith, by linarith, fun h => h.elim, fun _ => trivial⟩
    · have n1 : a ≤ x := by linarith
      have n2 : x ≤ b := by linarith
      simp only [h, h', n1, n2, if_true, if_false, and_self]
      exact ⟨trivial, trivial, fun _ _ => trivial, fun _ => trivial⟩

/-- What the reflecting walls do to one coordinate and its velocity. -/
theorem reflection_coord {G : Geom} (p : Particle) {r0 z0 : ℝ} (hin : InRegion G r0 z0)
    (hr : |p.pos.c0 - r0| ≤ G.r_size - G.dr) (hz : |p.pos.c2 - z0| ≤ G.z_size - G.dz) :
    let q := reflection G p
    InRegion G q.pos.c0 q.pos.c2 ∧
    q.vel.c0 = (if G.dr / 2 ≤ p.pos.c0 ∧ p.pos.c0 ≤ G.r_size - G.dr / 2 then p.vel.c0
      else -p.vel.c0) ∧
    q.vel.c2 = (if G.dz / 2 ≤ p.pos.c2 ∧ p.pos.c2 ≤ G.z_size - G.dz / 2 then p.vel.c2
      else -p.vel.c2) ∧
    q.vel.c1 = p.vel.c1 ∧ q.pos.c1 = p.pos.c1 ∧ q.alive = p.alive ∧
    (G.dr / 2 ≤ p.pos.c0 → p.pos.c0 ≤ G.r_size - G.dr / 2 → q.pos.c0 = p.pos.c0) ∧
    (G.dz / 2 ≤ p.pos.c2 → p.pos.c2 ≤ G.z_size - G.dz / 2 → q.pos.c2 = p.pos.c2) := by
  obtain ⟨h1, h2, h3, h4⟩ := hin
  obtain ⟨r1, r2, r3, r4⟩ := mirrorX_eq (x := p.pos.c0) h1 h2 (by linarith)
  obtain ⟨z1, z2, z3, z4⟩ := mirrorX_eq (x := p.pos.c2) h3 h4 (by linarith)
  obtain ⟨e1, e2, e3, -⟩ := reflection_fields G p
  dsimp only
  rw [e1, e2, e3]
  exact ⟨⟨r1, r2, z1, z2⟩, r4 _, z4 _, rfl, rfl, rfl, r3, z3⟩

/-- **C22**. A particle that was in the region `(r0,z0)` and has moved by at most the width of the
region is put back into the region; exactly the velocity components normal to crossed walls change
sign, and a particle that crossed no wall is not moved. -/
theorem C22_reflection_confines (G : Geom) (p : Particle) (r0 z0 : ℝ) (hin : InRegion G r0 z0)
    (hr : |p.pos.c0 - r0| ≤ G.r_size - G.dr) (hz : |p.pos.c2 - z0| ≤ G.z_size - G.dz) :
    let q := reflection G p
    InRegion G q.pos.c0 q.pos.c2 ∧
    |q.vel.c0| = |p.vel.c0| ∧ q.vel.c1 = p.vel.c1 ∧ |q.vel.c2| = |p.vel.c2| ∧
    (q.vel.c0 = p.vel.c0 ∨ ¬ (G.dr / 2 ≤ p.pos.c0 ∧ p.pos.c0 ≤ G.r_size - G.dr / 2)) ∧
    (¬ (G.dr / 2 ≤ p.pos.c0 ∧ p.pos.c0 ≤ G.r_size - G.dr / 2) → q.vel.c0 = -p.vel.c0) ∧
    (q.vel.c2 = p.vel.c2 ∨ ¬ (G.dz / 2 ≤ p.pos.c2 ∧ p.pos.c2 ≤ G.z_size - G.dz / 2)) ∧
    (¬ (G.dz / 2 ≤ p.pos.c2 ∧ p.pos.c2 ≤ G.z_size - G.dz / 2) → q.vel.c2 = -p.vel.c2) ∧
    (InRegion G p.pos.c0 p.pos.c2 → q.pos = p.pos) := by
  obtain ⟨h1, h2, h3, h4, h5, -, h6, h7⟩ := reflection_coord p hin hr hz
  refine ⟨h1, ?_, h4, ?_, ?_, ?_, ?_, ?_, ?_⟩
  · rw [h2]; split_ifs
    · rfl
    · rw [abs_neg]
  · rw [h3]; split_ifs
    · rfl
    · rw [abs_neg]
  · rw [h2]; split_ifs with h
    · exact Or.inl rfl
    · exact Or.inr h
  · intro h; rw [h2, if_neg h]
  · rw [h3]; split_ifs with h
    · exact Or.inl rfl
    · exact Or.inr h
  · intro h; rw [h3, if_neg h]
  · rintro ⟨a, b, c, d⟩
    ext
    · exact h6 a b
    · exact h5
    · exact h7 c d

/-- Position after the two half steps of one cycle, with reflection in the second one
(src/particles.cpp:1310-1313 and 1355-1365). -/
noncomputable def twoHalfSteps (G : Geom) (dt : ℝ) (p : Particle) : Option Particle :=
  (backPosition (halfStep dt p)).bind fun p1 =>
    backPosition (reflection G (halfStep dt p1))

theorem sqrt_two_bounds (x y : ℝ) :
    |x| ≤ Real.sqrt (x * x + y * y) ∧ Real.sqrt (x * x + y * y) ≤ |x| + |y| := by
  constructor
  · apply Real.abs_le_sqrt; nlinarith [sq_nonneg y]
  · rw [Real.sqrt_le_left (by positivity)]
    nlinarith [mul_nonneg (abs_nonneg x) (abs_nonneg y), sq_abs x, sq_abs y]

/-- **C22** (whole cycle, partial: the radius can exceed the wall by what the azimuthal displacement
adds after the reflection). A particle in the region whose radial, half of its azimuthal and axial
displacements fit the region ends with `z` in the region, `r` at least half a cell from the axis,
and `r² ≤ (R-dr/2)² + (v_phi dt/2)²`. -/
theorem C22_cycle_partial (G : Geom) (hG : G.Valid) (dt : ℝ) (hdt : 0 ≤ dt) (p : Particle)
    (hin : InRegion G p.pos.c0 p.pos.c2) (h0 : p.pos.c1 = 0)
    (hr : (|p.vel.c0| + |p.vel.c1| / 2) * dt ≤ G.r_size - G.dr)
    (hr' : |p.vel.c0| * dt < p.pos.c0)
    (hz : |p.vel.c2| * dt ≤ G.z_size - G.dz) :
    ∃ p', twoHalfSteps G dt p = some p' ∧ p'.pos.c1 = 0 ∧
      G.dz / 2 ≤ p'.pos.c2 ∧ p'.pos.c2 ≤ G.z_size - G.dz / 2 ∧ G.dr / 2 ≤ p'.pos.c0 ∧
      p'.pos.c0 ^ 2 ≤ (G.r_size - G.dr / 2) ^ 2 + (p.vel.c1 * (dt / 2)) ^ 2 ∧
      |p'.vel.c0| = |p.vel.c0| ∧ p'.vel.c1 = p.vel.c1 ∧ |p'.vel.c2| = |p.vel.c2| := by
  have dr := hG.dr_pos
  have hin' := hin
  obtain ⟨i1, i2, i3, i4⟩ := hin
  -- first half
  obtain ⟨x, hx⟩ : ∃ x, x = p.pos.c0 + p.vel.c0 * (dt / 2) := ⟨_, rfl⟩
  obtain ⟨y, hy⟩ : ∃ y, y = p.vel.c1 * (dt / 2) := ⟨_, rfl⟩
  obtain ⟨b1, b2⟩ := sqrt_two_bounds x y
  have hv0 : |p.vel.c0 * (dt / 2)| = |p.vel.c0| * dt / 2 := by
    rw [abs_mul, abs_of_nonneg (by linarith : 0 ≤ dt / 2)]; ring
  have hv1 : |y| = |p.vel.c1| * dt / 2 := by
    rw [hy, abs_mul, abs_of_nonneg (by linarith : 0 ≤ dt / 2)]; ring
  have hv2 : |p.vel.c2 * dt| = |p.vel.c2| * dt := by rw [abs_mul, abs_of_nonneg hdt]
  have nn := mul_nonneg (abs_nonneg p.vel.c0) hdt
  have w1 := neg_abs_le (p.vel.c0 * (dt / 2))
  have w2 := le_abs_self (p.vel.c0 * (dt / 2))
  have xpos : 0 < x := by rw [hx]; linarith
  have hax : |x| = x := abs_of_pos xpos
  rw [hax] at b1 b2
  have r1pos : 0 < Real.sqrt (x * x + y * y) := by linarith
  have e1 : backPosition (halfStep dt p) = some { p with
      pos := ⟨Real.sqrt (x * x + y * y), 0, p.pos.c2 + p.vel.c2 * (dt / 2)⟩
      sinTheta := y / Real.sqrt (x * x + y * y) } := by
    unfold backPosition halfStep
    simp only [h0, zero_add, ← hx, ← hy]
    rw [if_neg r1pos.ne']
  generalize hr1 : Real.sqrt (x * x + y * y) = r1 at *
  -- second half before reflection
  let p2 : Particle := { p with
      pos := ⟨r1 + p.vel.c0 * (dt / 2), y, p.pos.c2 + p.vel.c2 * (dt / 2) + p.vel.c2 * (dt / 2)⟩
      sinTheta := y / r1 }
  have e2 : halfStep dt { p with
      pos := ⟨r1, 0, p.pos.c2 + p.vel.c2 * (dt / 2)⟩, sinTheta := y / r1 } = p2 := by
    unfold halfStep
    simp only [zero_add, ← hy]
    rfl
  have c0 : p2.pos.c0 = r1 + p.vel.c0 * (dt / 2) := rfl
  have c2 : p2.pos.c2 = p.pos.c2 + p.vel.c2 * (dt / 2) + p.vel.c2 * (dt / 2) := rfl
  have hR : |p2.pos.c0 - p.pos.c0| ≤ G.r_size - G.dr := by
    rw [c0, abs_le]
    constructor <;> linarith [abs_nonneg p.vel.c1, abs_nonneg y]
  have hZ : |p2.pos.c2 - p.pos.c2| ≤ G.z_size - G.dz := by
    have : p2.pos.c2 - p.pos.c2 = p.vel.c2 * dt := by rw [c2]; ring
    rw [this, hv2]; exact hz
  obtain ⟨g1, g2, g3, g4, g5, -⟩ := reflection_coord p2 hin' hR hZ
  obtain ⟨k1, k2, k3, k4⟩ := g1
  have qpos : 0 < (reflection G p2).pos.c0 := by linarith
  have hq1 : (reflection G p2).pos.c1 = y := g5
  obtain ⟨d1, d2⟩ := sqrt_two_bounds (reflection G p2).pos.c0 (reflection G p2).pos.c1
  rw [abs_of_pos qpos] at d1
  have rne : Real.sqrt ((reflection G p2).pos.c0 * (reflection G p2).pos.c0
      + (reflection G p2).pos.c1 * (reflection G p2).pos.c1) ≠ 0 := by linarith
  have e3 : twoHalfSteps G dt p = backPosition (reflection G p2) := by
    unfold twoHalfSteps
    rw [e1, Option.bind_some, e2]
  have e4 : backPosition (reflection G p2) = some { reflection G p2 with
      sinTheta := (reflection G p2).pos.c1 / Real.sqrt ((reflection G p2).pos.c0
        * (reflection G p2).pos.c0 + (reflection G p2).pos.c1 * (reflection G p2).pos.c1)
      pos := ⟨Real.sqrt ((reflection G p2).pos.c0
        * (reflection G p2).pos.c0 + (reflection G p2).pos.c1 * (reflection G p2).pos.c1), 0,
        (reflection G p2).pos.c2⟩ } := by
    unfold backPosition
    dsimp only
    rw [if_neg rne]
  refine ⟨_, e3.trans e4, rfl, k3, k4, k1.trans d1, ?_, ?_, g4, ?_⟩
  · have hsum : 0 ≤ (reflection G p2).pos.c0 * (reflection G p2).pos.c0
        + (reflection G p2).pos.c1 * (reflection G p2).pos.c1 :=
      add_nonneg (mul_self_nonneg _) (mul_self_nonneg _)
    dsimp only
    rw [Real.sq_sqrt hsum, hq1, ← hy]
    nlinarith
  · dsimp only
    rw [g2]; split_ifs
    · rfl
    · rw [abs_neg]
  · dsimp only
    rw [g3]; split_ifs
    · rfl
    · rw [abs_neg]

/-- **C22** without azimuthal velocity: over any number of cycles, with any (bounded) change of the
velocity between cycles, the particle stays in the region. `ps k` is the particle at the start of
cycle `k`, `vs k` the velocity the push gave it. -/
theorem C22_confined_forever_partial (G : Geom) (hG : G.Valid) (dt : ℝ) (hdt : 0 ≤ dt)
    (ps : ℕ → Particle) (vs : ℕ → V3) (h0 : InRegion G (ps 0).pos.c0 (ps 0).pos.c2)
    (h1 : (ps 0).pos.c1 = 0) (hphi : ∀ k, (vs k).c1 = 0)
    (hr : ∀ k, |(vs k).c0| * dt < G.dr / 2) (hbig : 3 / 2 * G.dr ≤ G.r_size)
    (hz : ∀ k, |(vs k).c2| * dt ≤ G.z_size - G.dz)
    (hstep : ∀ k, twoHalfSteps G dt { ps k with vel := vs k } = some (ps (k + 1))) :
    ∀ k, InRegion G (ps k).pos.c0 (ps k).pos.c2 := by
  have dr := hG.dr_pos
  suffices h : ∀ k, InRegion G (ps k).pos.c0 (ps k).pos.c2 ∧ (ps k).pos.c1 = 0 from
    fun k => (h k).1
  intro k
  induction k with
  | zero => exact ⟨h0, h1⟩
  | succ k ih =>
    obtain ⟨hin, hc1⟩ := ih
    have i1 := hin.1
    have i2 := hin.2.1
    obtain ⟨p', e, a1, a2, a3, a4, a5, -⟩ := C22_cycle_partial G hG dt hdt
      { ps k with vel := vs k } hin hc1 (by
        dsimp only; rw [hphi k, abs_zero, zero_div, add_zero]; have := hr k; linarith)
      (by dsimp only; have := hr k; linarith) (hz k)
    rw [hstep k, Option.some.injEq] at e
    subst e
    dsimp only at a5
    rw [hphi k, zero_mul] at a5
    refine ⟨⟨a4, ?_, a2, a3⟩, a1⟩
    have : 0 ≤ G.r_size - G.dr / 2 := by linarith
    nlinarith

/-- **C22 is violated** when the particle has azimuthal velocity: the return to the r-z plane
after the reflection moves it out of the region again. -/
theorem C22_azimuthal_violated : ∃ (p p' : Particle), InRegion demoGeom p.pos.c0 p.pos.c2 ∧
    p.pos.c1 = 0 ∧ (|p.vel.c0| + |p.vel.c1| / 2) * 1 ≤ demoGeom.r_size - demoGeom.dr ∧
    |p.vel.c2| * 1 ≤ demoGeom.z_size - demoGeom.dz ∧
    twoHalfSteps demoGeom 1 p = some p' ∧ ¬ InRegion demoGeom p'.pos.c0 p'.pos.c2 := by
  let p : Particle := ⟨true, ⟨3/2, 0, 1⟩, ⟨0, 0, 0⟩, ⟨0, 2, 0⟩, 1, 1, 0, 0⟩
  have hin : InRegion demoGeom p.pos.c0 p.pos.c2 := by
    unfold InRegion
    refine ⟨?_, ?_, ?_, ?_⟩ <;> norm_num [p, demoGeom]
  obtain ⟨p', e, -⟩ := C22_cycle_partial demoGeom demoGeom_valid 1 (by norm_num) p hin rfl
    (by norm_num [p, demoGeom]) (by norm_num [p]) (by norm_num [p, demoGeom])
  refine ⟨p, p', hin, rfl, by norm_num [p, demoGeom], by norm_num [p, demoGeom], e, ?_⟩
  rintro ⟨-, h, -⟩
  -- after the first half step r = sqrt(3.25) > 3/2; reflected to 3 - sqrt(3.25); then 1 is added
  have s1 : Real.sqrt (3/2 * (3/2) + 1 * 1) * Real.sqrt (3/2 * (3/2) + 1 * 1) = 13/4 := by
    rw [Real.mul_self_sqrt (by norm_num)]; norm_num
  have s0 := Real.sqrt_nonneg (3/2 * (3/2) + 1 * 1 : ℝ)
  have e1 : twoHalfSteps demoGeom 1 p = backPosition (reflection demoGeom (halfStep 1
      { p with pos := ⟨Real.sqrt (3/2 * (3/2) + 1 * 1), 0, 1⟩,
               sinTheta := 1 / Real.sqrt (3/2 * (3/2) + 1 * 1) })) := by
    unfold twoHalfSteps
    have : backPosition (halfStep 1 p) = some { p with
        pos := ⟨Real.sqrt (3/2 * (3/2) + 1 * 1), 0, 1⟩,
        sinTheta := 1 / Real.sqrt (3/2 * (3/2) + 1 * 1) } := by
      unfold backPosition halfStep
      simp only [p]
      norm_num
    rw [this, Option.bind_some]
  rw [e1] at e
  generalize Real.sqrt (3/2 * (3/2) + 1 * 1) = t at *
  have t1 : 18/10 < t := by nlinarith
  have t2 : t < 185/100 := by nlinarith
  have e2 : (reflection demoGeom (halfStep 1 { p with pos := ⟨t, 0, 1⟩, sinTheta := 1 / t })).pos
      = ⟨3 - t, 1, 1⟩ := by
    unfold reflection reflectLow halfStep
    simp only [p, demoGeom]
    have c1 : t + 0 * (1 / 2) > (2:ℝ) - 1 / 2 := by linarith
    have c2 : ¬ ((1:ℝ) + 0 * (1/2) > 3 - 1 / 2) := by norm_num
    have c3 : ¬ (((2:ℝ) - 1 / 2) * 2 - (t + 0 * (1 / 2)) < 1/2) := by linarith
    have c4 : ¬ ((1:ℝ) + 0 * (1/2) < 1/2) := by norm_num
    simp only [c1, c2, c3, c4, if_true, if_false]
    ext <;> norm_num
  unfold backPosition at e
  dsimp only at e
  rw [e2] at e
  dsimp only at e
  have u1 : Real.sqrt ((3 - t) * (3 - t) + 1 * 1) * Real.sqrt ((3 - t) * (3 - t) + 1 * 1)
      = (3 - t) * (3 - t) + 1 * 1 := by
    rw [Real.mul_self_sqrt]; nlinarith
  have u0 := Real.sqrt_nonneg ((3 - t) * (3 - t) + 1 * 1)
  split_ifs at e with hz
  rw [Option.some.injEq] at e
  rw [← e] at h
  simp only [demoGeom] at h
  generalize Real.sqrt ((3 - t) * (3 - t) + 1 * 1) = w at *
  have w2 : w * w ≤ 9/4 := by nlinarith
  nlinarith

/-! ## C23: return to the r-z half plane -/

/-- **C23** (positions and speed). -/
theorem C23_rotation_keeps_distance_and_speed (p : Particle) (h : p.pos.c0 ≠ 0 ∨ p.pos.c1 ≠ 0) :
    ∃ p', backPosition p = some p' ∧
      p'.pos.c0 = Real.sqrt (p.pos.c0 ^ 2 + p.pos.c1 ^ 2) ∧ p'.pos.c1 = 0 ∧
      p'.pos.c2 = p.pos.c2 ∧ p'.vel = p.vel ∧
      speedSq (backVelocity p').vel = speedSq p.vel ∧ (backVelocity p').vel.c2 = p.vel.c2 ∧
      (backVelocity p').pos = p'.pos := by
  have hp : 0 < p.pos.c0 * p.pos.c0 + p.pos.c1 * p.pos.c1 := by
    rcases h with h | h
    · have := mul_self_pos.2 h; nlinarith [mul_self_nonneg p.pos.c1]
    · have := mul_self_pos.2 h; nlinarith [mul_self_nonneg p.pos.c0]
  have hs := Real.sqrt_pos.2 hp
  have eb : backPosition p = some { p with
      sinTheta := p.pos.c1 / Real.sqrt (p.pos.c0 * p.pos.c0 + p.pos.c1 * p.pos.c1)
      pos := ⟨Real.sqrt (p.pos.c0 * p.pos.c0 + p.pos.c1 * p.pos.c1), 0, p.pos.c2⟩ } := by
    unfold backPosition; dsimp only; rw [if_neg hs.ne']
  refine ⟨_, eb, ?_, rfl, rfl, rfl, ?_, rfl, rfl⟩
  · dsimp only; rw [pow_two, pow_two]
  · unfold backVelocity speedSq
    dsimp only
    have h1 : p.pos.c1 / Real.sqrt (p.pos.c0 * p.pos.c0 + p.pos.c1 * p.pos.c1)
        * (p.pos.c1 / Real.sqrt (p.pos.c0 * p.pos.c0 + p.pos.c1 * p.pos.c1)) ≤ 1 := by
      rw [div_mul_div_comm, Real.mul_self_sqrt hp.le, div_le_one hp]
      nlinarith [mul_self_nonneg p.pos.c0]
    generalize p.pos.c1 / Real.sqrt (p.pos.c0 * p.pos.c0 + p.pos.c1 * p.pos.c1) = s at *
    have h2 := Real.mul_self_sqrt (show 0 ≤ 1 - s * s by linarith)
    generalize Real.sqrt (1 - s * s) = c at *
    linear_combination (p.vel.c0 ^ 2 + p.vel.c1 ^ 2) * h2

/-- **C23** (components): with `x > 0` the rotated components are the true cylindrical components
exactly when the azimuthal coordinate or both in-plane velocities vanish - the code rotates in the
wrong direction. -/
theorem C23_components_iff (p p' : Particle) (hx : 0 < p.pos.c0) (hb : backPosition p = some p') :
    let r := Real.sqrt (p.pos.c0 ^ 2 + p.pos.c1 ^ 2)
    ((backVelocity p').vel.c0 = (p.pos.c0 * p.vel.c0 + p.pos.c1 * p.vel.c1) / r ∧
      (backVelocity p').vel.c1 = (p.pos.c0 * p.vel.c1 - p.pos.c1 * p.vel.c0) / r) ↔
      (p.pos.c1 = 0 ∨ (p.vel.c0 = 0 ∧ p.vel.c1 = 0)) := by
  have hp : 0 < p.pos.c0 * p.pos.c0 + p.pos.c1 * p.pos.c1 := by
    have := mul_self_pos.2 hx.ne'; nlinarith [mul_self_nonneg p.pos.c1]
  have hs := Real.sqrt_pos.2 hp
  unfold backPosition at hb
  dsimp only at hb
  rw [if_neg hs.ne', Option.some.injEq] at hb
  subst hb
  unfold backVelocity
  dsimp only
  have e : p.pos.c0 ^ 2 + p.pos.c1 ^ 2 = p.pos.c0 * p.pos.c0 + p.pos.c1 * p.pos.c1 := by ring
  rw [e]
  have hc : Real.sqrt (1 - p.pos.c1 / Real.sqrt (p.pos.c0 * p.pos.c0 + p.pos.c1 * p.pos.c1)
      * (p.pos.c1 / Real.sqrt (p.pos.c0 * p.pos.c0 + p.pos.c1 * p.pos.c1)))
      = p.pos.c0 / Real.sqrt (p.pos.c0 * p.pos.c0 + p.pos.c1 * p.pos.c1) := by
    rw [Real.sqrt_eq_iff_mul_self_eq_of_pos (by positivity), div_mul_div_comm, div_mul_div_comm,
      Real.mul_self_sqrt hp.le]
    field_simp
    ring
  rw [hc]
  generalize Real.sqrt (p.pos.c0 * p.pos.c0 + p.pos.c1 * p.pos.c1) = r at *
  have hr := hs.ne'
  constructor
  · rintro ⟨h1, h2⟩
    have k1 : p.pos.c1 * p.vel.c1 = 0 := by
      field_simp at h1; linarith
    have k2 : p.pos.c1 * p.vel.c0 = 0 := by
      field_simp at h2; linarith
    by_cases h : p.pos.c1 = 0
    · exact Or.inl h
    · right
      exact ⟨(mul_eq_zero.1 k2).resolve_left h, (mul_eq_zero.1 k1).resolve_left h⟩
  · rintro (h | ⟨h1, h2⟩)
    · rw [h]; constructor <;> field_simp <;> ring
    · rw [h1, h2]; constructor <;> field_simp <;> ring

/-- **C23 is violated**: the rotated velocity components are not the cylindrical components. -/
theorem C23_components_violated : ∃ p p' : Particle, backPosition p = some p' ∧
    (backVelocity p').vel.c0 ≠ (p.pos.c0 * p.vel.c0 + p.pos.c1 * p.vel.c1)
      / Real.sqrt (p.pos.c0 ^ 2 + p.pos.c1 ^ 2) := by
  let p : Particle := ⟨true, ⟨3, 4, 1⟩, ⟨0, 0, 0⟩, ⟨0, 1, 0⟩, 1, 1, 0, 0⟩
  obtain ⟨p', hp', -⟩ := C23_rotation_keeps_distance_and_speed p (Or.inl (by norm_num [p]))
  refine ⟨p, p', hp', ?_⟩
  have s5 : Real.sqrt 25 = 5 := by
    rw [show (25:ℝ) = 5 ^ 2 by norm_num]; exact Real.sqrt_sq (by norm_num)
  unfold backPosition at hp'
  dsimp only at hp'
  split_ifs at hp'
  rw [Option.some.injEq] at hp'
  rw [← hp']
  unfold backVelocity
  simp only [p]
  norm_num [s5]

/-! ## C24: absorbed bunch particles -/

/-- One cycle of one particle: `step_v`, `move_half_reflect`, `back_velocity_to_rz`. -/
noncomputable def particleCycle (bunch : Bool) (G : Geom) (F : Fields) (mode : PusherMode) (g : Bool)
    (dt : ℝ) (p : Particle) : Option Particle :=
  ((stepVSingle G F mode g dt p).bind (moveHalfReflectSingle bunch G dt)).map backVelocitySingle

/-- `N` cycles under a history of fields and of flag values -/
noncomputable def cycles (bunch : Bool) (G : Geom) (mode : PusherMode) (dt : ℝ)
    (F : ℕ → Fields) (g : ℕ → Bool) : ℕ → Particle → Option Particle
  | 0, p => some p
  | N + 1, p => (cycles bunch G mode dt F g N p).bind (particleCycle bunch G (F N) mode (g N) dt)

/-- **C24**. A particle that is not alive is not changed by any number of cycles, whatever the
fields; it adds nothing to charge, azimuthal current or current, wherever it is in the list. -/
theorem C24_absorbed_inert (bunch : Bool) (G : Geom) (mode : PusherMode) (dt : ℝ)
    (F : ℕ → Fields) (g : ℕ → Bool) (N : ℕ) (p : Particle) (hd : p.alive = false)
    (before after : List Particle) :
    cycles bunch G mode dt F g N p = some p ∧
    (∀ rho, chargeWeighting G (before ++ p :: after) rho
      = chargeWeighting G (before ++ after) rho) ∧
    (∀ j, azimuthalCurrent G (before ++ p :: after) j = azimuthalCurrent G (before ++ after) j) ∧
    (∀ j, currentDistribution G dt (before ++ p :: after) j
      = currentDistribution G dt (before ++ after) j) := by
  refine ⟨?_, ?_, ?_, ?_⟩
  · induction N with
    | zero => rfl
    | succ N ih =>
      simp [cycles, ih, particleCycle, stepVSingle, moveHalfReflectSingle, backVelocitySingle, hd]
  · intro rho
    rw [C03_dead_contribute_nothing, C03_dead_contribute_nothing G (before ++ after)]
    simp [hd]
  · intro j
    simp only [azimuthalCurrent, List.foldlM_append, List.foldlM_cons, hd]
    rfl
  · intro j
    simp only [currentDistribution, List.foldlM_append, List.foldlM_cons, hd]
    rfl

/-- **C24**. A live bunch particle survives the walls exactly when it is not beyond the outer or
far wall. -/
theorem C24_absorbed_iff (G : Geom) (p : Particle) :
    (bunchReflection G p).alive = true ↔
      p.alive = true ∧ p.pos.c0 ≤ G.r_size - G.dr / 2 ∧ p.pos.c2 ≤ G.z_size - G.dz / 2 := by
  have low : ∀ q : Particle, (reflectLow G q).alive = q.alive := by
    intro q; unfold reflectLow; dsimp only; split_ifs <;> rfl
  unfold bunchReflection
  dsimp only
  rw [low]
  by_cases h1 : p.pos.c0 > G.r_size - G.dr / 2
  · have : ¬ (p.pos.c0 ≤ G.r_size - G.dr / 2) := by linarith
    rw [if_pos h1]
    split_ifs <;> simp [this]
  · rw [if_neg h1]
    have k1 : p.pos.c0 ≤ G.r_size - G.dr / 2 := by linarith
    by_cases h2 : p.pos.c2 > G.z_size - G.dz / 2
    · have : ¬ (p.pos.c2 ≤ G.z_size - G.dz / 2) := by linarith
      rw [if_pos h2]; simp [this]
    · have k2 : p.pos.c2 ≤ G.z_size - G.dz / 2 := by linarith
      rw [if_neg h2]; simp [k1, k2]

/-! ## C50: schedule independence of the particle loops -/

/-- **C50**. In any memory that holds fields and particles, if every live particle is in the region
and its own push succeeds, then under every interleaving of the loop over the particles nothing
faults, the loop can finish, and every finished execution leaves the same memory: each particle
advanced by its own push, fields and other species untouched.  For all pushers except the adaptive
one this holds whatever the uninitialised flags are. -/
theorem C50_push_schedule_independent (G : Geom) (hG : G.Valid) (hnr : 3 ≤ G.nr) (hnz : 3 ≤ G.nz)
    (num : ℕ → ℕ) (F : Fields) (m : Mem PLoc) (hF : PRep G F m) (s : ℕ) (ps ps' : ℕ → Particle)
    (mode : PusherMode) (g : ℕ → Bool) (dt : ℝ) (hrep : SpeciesRep m s (num s) ps)
    (hin : ∀ n, n < num s → (ps n).alive = true → InRegion G (ps n).pos.c0 (ps n).pos.c2)
    (hp : ∀ n, n < num s → stepVSingle G F mode (g n) dt (ps n) = some (ps' n)) :
    ¬ RegionFault (PAlloc G num) [stepVLoop G mode g dt s (num s)] m ∧
    ∃ m', RegionRun (PAlloc G num) [stepVLoop G mode g dt s (num s)] m m' ∧
      (∀ g' m'', (mode = .borisAdaptive → g' = g) →
        RegionRun (PAlloc G num) [stepVLoop G mode g' dt s (num s)] m m'' → m'' = m') ∧
      SpeciesRep m' s (num s) ps' ∧ (∀ l, (∀ n c, l ≠ .part s n c) → m' l = m l) := by
  obtain ⟨m', h⟩ := stepV_loop hG hnr hnz hF mode g dt hrep hin hp
  obtain ⟨a, b, c⟩ := (RegionSpec.cons h.spec (RegionSpec.nil m')).sound
  refine ⟨a, m', b, ?_, h.rep, h.other⟩
  intro g' m'' hg hr
  have e : stepVLoop G mode g' dt s (num s) = stepVLoop G mode g dt s (num s) := by
    cases mode
    · rfl
    · rfl
    · rw [hg rfl]
    · rfl
  rw [e] at hr
  exact c m'' hr

/-- **C50** for the second half of the motion (`move_half_reflect`) of plasma and bunch species. -/
theorem C50_move_schedule_independent (G : Geom) (num : ℕ → ℕ) (m : Mem PLoc) (s : ℕ)
    (ps ps' : ℕ → Particle) (bunch : Bool) (dt : ℝ) (hrep : SpeciesRep m s (num s) ps)
    (hfull : SpeciesFull m s (num s) ps)
    (hp : ∀ n, n < num s → moveHalfReflectSingle bunch G dt (ps n) = some (ps' n)) :
    ¬ RegionFault (PAlloc G num) [moveHalfReflectLoop bunch G dt s (num s)] m ∧
    ∃ m', RegionRun (PAlloc G num) [moveHalfReflectLoop bunch G dt s (num s)] m m' ∧
      (∀ m'', RegionRun (PAlloc G num) [moveHalfReflectLoop bunch G dt s (num s)] m m'' →
        m'' = m') ∧
      SpeciesRep m' s (num s) ps' ∧ (∀ l, (∀ n c, l ≠ .part s n c) → m' l = m l) := by
  obtain ⟨m', h⟩ := move_loop bunch dt hrep hfull hp
  obtain ⟨a, b, c⟩ := (RegionSpec.cons h.spec (RegionSpec.nil m')).sound
  exact ⟨a, m', b, c, h.rep, h.other⟩

/-- **C50** for the velocity rotation. -/
theorem C50_rotation_schedule_independent (G : Geom) (num : ℕ → ℕ) (m : Mem PLoc) (s : ℕ)
    (ps : ℕ → Particle) (hrep : SpeciesRep m s (num s) ps) (hfull : SpeciesFull m s (num s) ps) :
    ¬ RegionFault (PAlloc G num) [backVelocityLoop s (num s)] m ∧
    ∃ m', RegionRun (PAlloc G num) [backVelocityLoop s (num s)] m m' ∧
      (∀ m'', RegionRun (PAlloc G num) [backVelocityLoop s (num s)] m m'' → m'' = m') ∧
      SpeciesRep m' s (num s) (fun n => backVelocitySingle (ps n)) ∧
      (∀ l, (∀ n c, l ≠ .part s n c) → m' l = m l) := by
  obtain ⟨m', h⟩ := backV_loop (G := G) (num := num) hrep hfull
  obtain ⟨a, b, c⟩ := (RegionSpec.cons h.spec (RegionSpec.nil m')).sound
  exact ⟨a, m', b, c, h.rep, h.other⟩

/-- **C50 is violated by the adaptive pusher**: what the stack held decides the result. -/
theorem C50_adaptive_violated : ∃ (dt q m : ℝ) (e h v a b : V3), 0 < dt ∧ 0 < m ∧
    push .borisAdaptive true dt q m e h v = some a ∧
    push .borisAdaptive false dt q m e h v = some b ∧ a ≠ b := by
  obtain ⟨dt, q, m, e, h, v, b, hdt, hm, hv, hb, hs⟩ := C19_adaptive_violated
  obtain ⟨a, ha, hs'⟩ := C19_push_subluminal .borisAdaptive true dt q m hm.ne' e h v
    (Or.inr (Or.inr ⟨rfl, by unfold useRel; split_ifs <;> rfl⟩)) hv.le
  refine ⟨dt, q, m, e, h, v, a, b, hdt, hm, ha, hb, ?_⟩
  rintro rfl
  exact lt_asymm hs hs'

/-! ## C52: free flight -/

/-- **C52**. Without azimuthal velocity the two half steps move the particle along a straight
line. -/
theorem C52_free_flight_partial (dt : ℝ) (p : Particle) (h0 : p.pos.c1 = 0) (hphi : p.vel.c1 = 0)
    (h1 : 0 < p.pos.c0 + p.vel.c0 * (dt / 2)) (h2 : 0 < p.pos.c0 + p.vel.c0 * dt) :
    ∃ p1 p2, backPosition (halfStep dt p) = some p1 ∧ backPosition (halfStep dt p1) = some p2 ∧
      p2.pos = ⟨p.pos.c0 + p.vel.c0 * dt, 0, p.pos.c2 + p.vel.c2 * dt⟩ ∧ p2.vel = p.vel := by
  have key : ∀ q : Particle, q.pos.c1 = 0 → q.vel.c1 = 0 → 0 < q.pos.c0 + q.vel.c0 * (dt / 2) →
      backPosition (halfStep dt q) = some { q with
        pos := ⟨q.pos.c0 + q.vel.c0 * (dt / 2), 0, q.pos.c2 + q.vel.c2 * (dt / 2)⟩,
        sinTheta := 0 } := by
    intro q a b c
    unfold backPosition halfStep
    simp only [a, b, zero_mul, mul_zero, add_zero, zero_div]
    rw [Real.sqrt_mul_self c.le, if_neg c.ne']
  have e1 := key p h0 hphi h1
  refine ⟨_, _, e1, key _ rfl hphi ?_, ?_, rfl⟩
  · dsimp only; linarith
  · ext <;> dsimp only <;> ring

/-- **C52 is violated** with azimuthal velocity: a free particle at `r = 1` with velocity 1 in the
azimuthal direction is at distance `sqrt 2` after unit time; the code gives `sqrt (3/2)`. -/
theorem C52_free_flight_violated : ∃ p p1 p2 : Particle,
    backPosition (halfStep 1 p) = some p1 ∧ backPosition (halfStep 1 p1) = some p2 ∧
    p2.pos.c0 ≠ Real.sqrt ((p.pos.c0 + p.vel.c0 * 1) ^ 2 + (p.vel.c1 * 1) ^ 2) := by
  let p : Particle := ⟨true, ⟨1, 0, 1⟩, ⟨0, 0, 0⟩, ⟨0, 1, 0⟩, 1, 1, 0, 0⟩
  obtain ⟨p1, e1, a1, a2, a3, a4, -⟩ := C23_rotation_keeps_distance_and_speed (halfStep 1 p)
    (Or.inl (by norm_num [p, halfStep]))
  have r1 : p1.pos.c0 = Real.sqrt (5/4) := by
    rw [a1]; congr 1; simp only [p, halfStep]; norm_num
  have hs : 0 < Real.sqrt (5/4) := Real.sqrt_pos.2 (by norm_num)
  have v1 : p1.vel = ⟨0, 1, 0⟩ := a4
  obtain ⟨p2, e2, b1, -⟩ := C23_rotation_keeps_distance_and_speed (halfStep 1 p1)
    (Or.inl (by simp only [halfStep, v1, r1]; norm_num))
  refine ⟨p, p1, p2, e1, e2, ?_⟩
  rw [b1]
  have hx : (halfStep 1 p1).pos.c0 ^ 2 + (halfStep 1 p1).pos.c1 ^ 2 = 3/2 := by
    simp only [halfStep, v1, r1, a2]
    have := Real.sq_sqrt (show (0:ℝ) ≤ 5/4 by norm_num)
    nlinarith
  rw [hx]
  simp only [p]
  intro h
  have := (Real.sqrt_inj (by norm_num) (by norm_num)).1 h
  norm_num at this

/-! ## Concrete cases -/

/-- a live particle in the middle of `demoGeom` moving along z -/
noncomputable def runner : Particle :=
  ⟨true, ⟨1, 0, 1⟩, ⟨0, 0, 0⟩, ⟨0, 0, 1e8⟩, 1, 1, 0, 0⟩

theorem runner_region : InRegion demoGeom runner.pos.c0 runner.pos.c2 := by
  unfold InRegion
  refine ⟨?_, ?_, ?_, ?_⟩ <;> norm_num [runner, demoGeom]

/-- hypotheses of `C22_cycle_partial` -/
example : ∃ p', twoHalfSteps demoGeom 1e-9 runner = some p' := by
  obtain ⟨p', h, -⟩ := C22_cycle_partial demoGeom demoGeom_valid 1e-9 (by norm_num) runner
    runner_region rfl (by norm_num [runner, demoGeom]) (by norm_num [runner])
    (by simp only [runner, demoGeom]; rw [abs_of_pos (by norm_num)]; norm_num)
  exact ⟨p', h⟩

/-- memory: all fields zero, one species with one particle -/
noncomputable def runnerMem : Mem PLoc
  | .fld _ => some 0
  | .part 0 0 .pos0 => some 1
  | .part 0 0 .pos1 => some 0
  | .part 0 0 .pos2 => some 1
  | .part 0 0 .vel0 => some 0
  | .part 0 0 .vel1 => some 0
  | .part 0 0 .vel2 => some 1e8
  | .part 0 0 .charge => some 1
  | .part 0 0 .mass => some 1
  | .part 0 0 .alive => some 1
  | _ => none

theorem runner_push (g : Bool) :
    ∃ p', stepVSingle demoGeom (fun _ _ _ => 0) .borisRelativistic g 1e-9 runner = some p' := by
  have hE : valE demoGeom (fun _ _ _ => 0) runner.pos.c0 runner.pos.c2 = V3.zero := by
    unfold valE valHalf valInt val4 V3.zero; simp
  have hH : valH demoGeom (fun _ _ _ => 0) runner.pos.c0 runner.pos.c2 = V3.zero := by
    unfold valH valHalf valInt val4 V3.zero; simp
  unfold stepVSingle
  rw [hE, hH, if_pos (show runner.alive = true from rfl), C20_free_streaming]
  · rw [Option.bind_some]
    have h1 : (halfStep 1e-9 (dumpOld { runner with vel := runner.vel })).pos.c0 ≠ 0 := by
      simp [halfStep, dumpOld, runner]
    obtain ⟨p', h, -⟩ := C23_rotation_keeps_distance_and_speed _ (Or.inl h1)
    exact ⟨p', h⟩
  · norm_num [runner]
  · unfold speedSq LIGHT_SPEED; norm_num [runner]
  · refine ⟨Or.inl rfl, Or.inl rfl, Or.inr ?_⟩
    unfold MNZL runner; rw [abs_of_nonneg] <;> norm_num

/-- hypotheses of `C50_push_schedule_independent` -/
example : ∃ m', RegionRun (PAlloc demoGeom (fun _ => 1))
    [stepVLoop demoGeom .borisRelativistic (fun _ => true) 1e-9 0 1] runnerMem m' := by
  obtain ⟨p', hp'⟩ := runner_push true
  obtain ⟨-, m', h, -⟩ := C50_push_schedule_independent demoGeom demoGeom_valid (by norm_num [demoGeom])
    (by norm_num [demoGeom]) (fun _ => 1) (fun _ _ _ => 0) runnerMem (fun l _ => rfl) 0
    (fun _ => runner) (fun _ => p') .borisRelativistic (fun _ => true) 1e-9
    (by
      intro n hn
      obtain rfl : n = 0 := by omega
      refine ⟨rfl, rfl, rfl, rfl, rfl, rfl, rfl, rfl, 1, rfl, by simp [runner]⟩)
    (fun _ _ _ => runner_region) (fun _ _ => hp')
  exact ⟨m', h⟩

end Verif
