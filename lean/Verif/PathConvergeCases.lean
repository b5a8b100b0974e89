import Verif.PathConverge
import Verif.GatherProps

/-!
# Cases for the paths of macroparticles (C113)
-/

namespace Verif

open PathConverge PushConverge RoundedPush

namespace PathConverge

/-! ## A uniform electric field along the axis -/

/-- fields of the grid: `E_z = c` -/
noncomputable def axialField (c : ℝ) : Fields
  | .ez, _, _ => c
  | _, _, _ => 0

theorem axial_val {G : Geom} (hG : G.Valid) (c r z : ℝ) :
    valE G (axialField c) r z = ⟨0, 0, c * weightInt G r⟩ ∧ valH G (axialField c) r z = V3.zero := by
  have e : axialField c .ez = fun _ _ => c := rfl
  refine ⟨?_, ?_⟩
  · unfold valE
    rw [e, valInt_uniform hG]
    simp [valHalf, valInt, val4, axialField]
  · simp [valH, valHalf, valInt, val4, axialField, V3.zero]

/-- a macroparticle with unit charge and mass that moves along z with unit velocity -/
noncomputable def axialParticle (z : ℝ) : Particle := ⟨true, ⟨1, 0, z⟩, ⟨1, 0, z⟩, ⟨0, 0, 1⟩, 1, 1, 0, 1⟩

/-- chamber of radius 2 and length 4 with `5 k + 1` nodes in both directions -/
noncomputable def fineGeom (k : ℕ) : Geom := ⟨2, 4, 5 * k + 1, 5 * k + 1, 2 / (5 * k), 4 / (5 * k)⟩

theorem fineGeom_valid {k : ℕ} (hk : 1 ≤ k) : (fineGeom k).Valid := by
  have : (1 : ℝ) ≤ k := by exact_mod_cast hk
  constructor
  · show 2 ≤ 5 * k + 1; omega
  · show 2 ≤ 5 * k + 1; omega
  · show (0 : ℝ) < 2 / (5 * k); positivity
  · show (0 : ℝ) < 4 / (5 * k); positivity
  · show (2 : ℝ) = 2 / (5 * k) * (((5 * k + 1 : ℕ) : ℝ) - 1)
    push_cast; field_simp; ring
  · show (4 : ℝ) = 4 / (5 * k) * (((5 * k + 1 : ℕ) : ℝ) - 1)
    push_cast; field_simp; ring

theorem fineGeom_size {k : ℕ} (hk : 1 ≤ k) : (fineGeom k).dr ≤ 2 / 5 ∧ (fineGeom k).dz ≤ 4 / 5 := by
  have : (1 : ℝ) ≤ k := by exact_mod_cast hk
  refine ⟨?_, ?_⟩
  · show (2 : ℝ) / (5 * k) ≤ 2 / 5
    apply div_le_div_of_nonneg_left <;> linarith
  · show (4 : ℝ) / (5 * k) ≤ 4 / 5
    apply div_le_div_of_nonneg_left <;> linarith

theorem axial_run {k : ℕ} (hk : 1 ≤ k) {c dt z a : ℝ} (hz1 : 1 ≤ z) (hz2 : z ≤ 3 / 2) (dt0 : 0 < dt) (dt1 : dt ≤ 1 / 2)
    (ha : a = c * weightInt (fineGeom k) 1) (a0 : 0 ≤ a) (a2 : a ≤ 2) (bunch : Bool) (g : ℕ → Bool) :
    ∀ n : ℕ, n * dt ≤ 1 / 2 → ∃ p, cycles bunch (fineGeom k) .borisClassic dt (fun _ => axialField c) g n (axialParticle z) = some p ∧
      p.alive = true ∧ p.charge = 1 ∧ p.mass = 1 ∧ p.vel = ⟨0, 0, 1 + n * dt * a⟩ ∧
      p.pos = ⟨1, 0, z + n * dt + a * dt ^ 2 * (n * (n + 1)) / 2⟩ := by
  have hG := fineGeom_valid hk
  obtain ⟨s1, s2⟩ := fineGeom_size hk
  have mn : MNZL ≤ 1 := by unfold MNZL; norm_num
  intro n
  induction n with
  | zero =>
    intro _
    refine ⟨axialParticle z, rfl, rfl, rfl, rfl, ?_, ?_⟩ <;> simp [axialParticle]
  | succ n ih =>
    intro hn
    push_cast at hn
    have nd : 0 ≤ (n : ℝ) * dt := by positivity
    obtain ⟨p, i1, i2, i3, i4, i5, i6⟩ := ih (by linarith)
    obtain ⟨v1, v2⟩ := axial_val hG c p.pos.c0 p.pos.c2
    have hv : AboveThreshold p.vel := by
      rw [i5]
      refine ⟨Or.inl rfl, Or.inl rfl, Or.inr ?_⟩
      dsimp only
      have : 0 ≤ n * dt * a := by positivity
      rw [abs_of_nonneg (by linarith)]
      linarith
    have p0 : p.pos.c0 = 1 := by rw [i6]
    have hp : push .borisClassic (g n) dt p.charge p.mass (valE (fineGeom k) (axialField c) p.pos.c0 p.pos.c2)
        (valH (fineGeom k) (axialField c) p.pos.c0 p.pos.c2) p.vel = some ⟨0, 0, 1 + (n + 1) * dt * a⟩ := by
      rw [v1, v2, i3, i4, p0, ← ha]
      obtain ⟨w, w1, w2, -⟩ := C57_boris_lorentz .borisClassic (g n) (by simp) dt 1 1 one_ne_zero ⟨0, 0, a⟩ V3.zero p.vel
        (by simp [isRelativistic]) hv
      rw [w1]
      simp only [isRelativistic, LorentzStep, momentum, Bool.false_eq_true, if_false, V3.cross, V3.smul, V3.add, V3.zero] at w2
      rw [i5] at w2
      simp only [V3.mk.injEq] at w2
      obtain ⟨q0, q1, q2⟩ := w2
      congr 1
      ext <;> dsimp only
      · linarith
      · linarith
      · linarith
    have reg : InRegion (fineGeom k) (p.pos.c0 + (0 : ℝ) * dt) (p.pos.c2 + (1 + (n + 1) * dt * a) * dt) := by
      rw [i6]
      unfold InRegion
      rw [show (fineGeom k).r_size = 2 from rfl, show (fineGeom k).z_size = 4 from rfl]
      dsimp only
      have m1 : (n : ℝ) * dt * dt ≤ 1 / 2 * dt := by nlinarith
      have m2 : ((n : ℝ) + 1) * dt * (n * dt) ≤ 1 / 2 * (1 / 2) := by
        apply mul_le_mul <;> linarith
      have m3 : a * (((n : ℝ) + 1) * dt * (n * dt)) ≤ 2 * (1 / 4) := by
        apply mul_le_mul a2 _ (by positivity) (by norm_num)
        linarith
      have m4 : a * (((n : ℝ) + 1) * dt * dt) ≤ 2 * (1 / 4) := by
        apply mul_le_mul a2 _ (by positivity) (by norm_num)
        nlinarith
      have m5 : 0 ≤ a * (((n : ℝ) + 1) * dt * (n * dt)) := by positivity
      have m6 : 0 ≤ a * (((n : ℝ) + 1) * dt * dt) := by positivity
      refine ⟨by linarith, by linarith, by linarith, by linarith⟩
    obtain ⟨p', k1, k2, k3, k4, k5, k6⟩ := cycle_plane (bunch := bunch) hG.dr_pos i2 (by rw [i6]) (by rw [i5]) (by rw [i6]; norm_num)
      (by rw [v1]) (by rw [v2]; rfl) (by rw [v2]; rfl) hp reg
    refine ⟨p', by rw [cycles, i1, Option.bind_some, k1], k2, by rw [k3, i3], by rw [k4, i4], ?_, ?_⟩
    · rw [k5]; push_cast; rfl
    · rw [k6, i6]
      push_cast
      ext <;> dsimp only <;> ring

/-- the path of the charge in the field `E_z = 1` -/
theorem axial_path : LorentzPath false 1 1 1 (fun _ _ _ => ⟨0, 0, 1⟩) (fun _ _ _ => V3.zero) (fun _ => 1) (fun t => 1 + t + t ^ 2 / 2)
    (fun t => ⟨0, 0, 1 + t⟩) := by
  have d1 : ∀ t : ℝ, deriv (fun t : ℝ => 1 + t + t ^ 2 / 2) t = 1 + t := by
    intro t
    have : HasDerivAt (fun t : ℝ => 1 + t + t ^ 2 / 2) (0 + 1 + (2 * t ^ 1 * 1) / 2) t :=
      (((hasDerivAt_const t 1).add (hasDerivAt_id t))).add (((hasDerivAt_id t).pow 2).div_const 2)
    rw [this.deriv]; ring
  have d2 : ∀ t : ℝ, deriv (fun t : ℝ => 1 + t) t = 1 := by
    intro t
    have : HasDerivAt (fun t : ℝ => 1 + t) (0 + 1) t := (hasDerivAt_const t 1).add (hasDerivAt_id t)
    rw [this.deriv]; ring
  refine ⟨⟨contDiff_const, by fun_prop⟩, fun _ _ _ => rfl, fun t _ _ => ⟨?_, ?_⟩, ⟨?_, ?_⟩⟩
  · simp [velocityAt, V3.smul]
  · rw [d1]; simp [velocityAt, lorentzFactor, V3.smul]
  · exact ⟨contDiff_const, contDiff_const, by fun_prop⟩
  · intro t _ _
    dsimp only
    rw [d2]
    simp [V3.smul, V3.add, V3.cross, V3.zero]

theorem weight_near {k : ℕ} (hk : 1 ≤ k) {r : ℝ} (hr : 3 / 4 ≤ r) : |weightInt (fineGeom k) r - 1| ≤ 4 / 3 / k := by
  have k1 : (1 : ℝ) ≤ k := by exact_mod_cast hk
  obtain ⟨s1, s2⟩ := fineGeom_size hk
  refine (weightInt_bound (fineGeom_valid hk) (by linarith)).trans ?_
  rw [show (fineGeom k).dr = 2 / (5 * k) from rfl]
  have : 2 / (5 * (k : ℝ)) / r ≤ 2 / (5 * k) / (3 / 4) := div_le_div_of_nonneg_left (by positivity) (by norm_num) hr
  refine (mul_le_mul_of_nonneg_left this (by norm_num : (0 : ℝ) ≤ 5 / 2)).trans (le_of_eq ?_)
  field_simp

end PathConverge

/-- Case for `C113_path_partial`: a charge in a uniform field along the axis, on a grid that is fine enough, for whatever constants.  The run lasts half a
second. -/
example (C d : ℝ) (hC : 0 < C) (hd : 0 < d) : LorentzPath false 1 1 1 (fun _ _ _ => ⟨0, 0, 1⟩) (fun _ _ _ => V3.zero) (fun _ => 1)
      (fun t => 1 + t + t ^ 2 / 2) (fun t => ⟨0, 0, 1 + t⟩) ∧ SmoothFields 1 2 4 0 0 (fun _ _ _ => ⟨0, 0, 1⟩) (fun _ _ _ => V3.zero) ∧
    ∃ (G : Geom) (dt δ η : ℝ) (N : ℕ) (F : ℕ → Fields) (g : ℕ → Bool) (p : Particle), N * dt = 1 / 2 ∧
      G.Valid ∧ G.r_size = 2 ∧ G.z_size = 4 ∧ 0 < dt ∧ dt ≤ d ∧ (N + 1 / 2) * dt ≤ 1 ∧ 0 ≤ η ∧ η ≤ 1 ∧
      (∀ n < N, GridField G (F n) 1 (1 + (n + 1 / 2) * dt + ((n + 1 / 2) * dt) ^ 2 / 2) δ η (fun _ _ => ⟨0, 0, 1⟩) (fun _ _ => V3.zero)) ∧
      (∀ t : ℝ, 0 ≤ t → t ≤ 1 → G.dr / 2 + δ ≤ 1 ∧ 1 ≤ 2 - G.dr / 2 - δ ∧ G.dz / 2 + δ ≤ 1 + t + t ^ 2 / 2 ∧ 1 + t + t ^ 2 / 2 ≤ 4 - G.dz / 2 - δ) ∧
      p.alive = true ∧ p.charge = 1 ∧ p.mass = 1 ∧ p.pos.c1 = 0 ∧ p.vel.c1 = 0 ∧
      (∀ n < N, ∀ p', cycles false G .borisClassic dt F g n p = some p' → AboveThreshold p'.vel ∧ isRelativistic .borisClassic (g n) p'.vel = false) ∧
      C * (gap (momentum false p.vel) ⟨0, 0, 1 + 0⟩ + (|p.pos.c0 - 1| + |p.pos.c2 - (1 + dt / 2 + (dt / 2) ^ 2 / 2)|) + dt ^ 2 + η) ≤ δ := by
  have zz : ∀ v : V3, gap v v = 0 := by
    intro v; unfold gap V3.len V3.sq V3.add V3.smul; simp
  refine ⟨axial_path, ⟨?_, ?_, ?_⟩, ?_⟩
  · intros; simp [V3.len, V3.sq, V3.zero]
  · intros; rw [zz]; simp
  · intros; rw [zz]; simp
  obtain ⟨k, hk⟩ := exists_nat_gt (16 * C + 1 / d + 4)
  have hd' : 0 < 1 / d := by positivity
  have k4 : (4 : ℝ) < k := by linarith
  have k0 : (0 : ℝ) < k := by linarith
  have k1 : 1 ≤ k := by exact_mod_cast (by linarith : (1 : ℝ) ≤ k)
  have hG := fineGeom_valid k1
  obtain ⟨s1, s2⟩ := fineGeom_size k1
  obtain ⟨dt, hdt⟩ : ∃ dt : ℝ, dt = 1 / (2 * k) := ⟨_, rfl⟩
  have dt0 : 0 < dt := by rw [hdt]; positivity
  have dtk : dt * k = 1 / 2 := by rw [hdt]; field_simp
  have dt8 : dt ≤ 1 / 8 := by nlinarith
  have dtd : dt ≤ d := by
    have : 1 / d < k := by linarith
    rw [div_lt_iff₀ hd] at this
    nlinarith
  have w := weight_near k1 (r := 1) (by norm_num)
  have wk : 4 / 3 / (k : ℝ) ≤ 1 / 3 := by rw [div_le_iff₀ k0]; linarith
  have w' := abs_le.1 w
  have run := fun n hn => axial_run k1 (c := 1) (dt := dt) (z := 1 + dt / 2 + (dt / 2) ^ 2 / 2) (a := weightInt (fineGeom k) 1) (by nlinarith)
    (by nlinarith) dt0 (by linarith) (by ring) (by linarith [w'.1]) (by linarith [w'.2]) false (fun _ => false) n hn
  refine ⟨fineGeom k, dt, 1 / 4, 4 / 3 / k, k, fun _ => axialField 1, fun _ => false, axialParticle (1 + dt / 2 + (dt / 2) ^ 2 / 2), by linarith,
    hG, rfl, rfl, dt0, dtd, by linarith, by positivity, by linarith, ?_, ?_, rfl, rfl, rfl, rfl, rfl, ?_, ?_⟩
  · intro n _ r z hr _
    obtain ⟨v1, v2⟩ := axial_val hG 1 r z
    have hr' := abs_le.1 hr
    rw [v1, v2, zz]
    refine ⟨?_, by positivity, rfl, rfl, rfl⟩
    have := weight_near k1 (r := r) (by linarith [hr'.1])
    unfold gap V3.add V3.smul V3.len V3.sq
    dsimp only
    rw [show (0 + 0 * -1) * (0 + 0 * -1) + (0 + 0 * -1) * (0 + 0 * -1) + (1 * weightInt (fineGeom k) r + 1 * -1) * (1 * weightInt (fineGeom k) r + 1 * -1) =
      (weightInt (fineGeom k) r - 1) ^ 2 by ring, Real.sqrt_sq_eq_abs]
    exact this
  · intro t t0 t1
    refine ⟨by linarith, by linarith, by nlinarith, by nlinarith⟩
  · intro n hn p' hp'
    have : (n : ℝ) * dt ≤ 1 / 2 := by
      have : (n : ℝ) ≤ k := by exact_mod_cast hn.le
      nlinarith
    obtain ⟨p, i1, -, -, -, i5, -⟩ := run n this
    rw [i1] at hp'
    obtain rfl : p = p' := by simpa using hp'
    refine ⟨?_, rfl⟩
    rw [i5]
    refine ⟨Or.inl rfl, Or.inl rfl, Or.inr ?_⟩
    dsimp only
    have : 0 ≤ n * dt * weightInt (fineGeom k) 1 := by
      have := w'.1
      have : 0 ≤ weightInt (fineGeom k) 1 := by linarith
      positivity
    rw [abs_of_nonneg (by linarith)]
    have : MNZL ≤ 1 := by unfold MNZL; norm_num
    linarith
  · have e1 : momentum false (axialParticle (1 + dt / 2 + (dt / 2) ^ 2 / 2)).vel = ⟨0, 0, 1 + 0⟩ := by simp [momentum, axialParticle]
    rw [e1, zz]
    simp only [axialParticle, sub_self, abs_zero, add_zero, zero_add]
    have c1 : C * dt ^ 2 ≤ 1 / 8 := by
      have : C * dt ≤ 1 := by nlinarith
      nlinarith
    have c2 : C * (4 / 3 / k) ≤ 1 / 8 := by
      rw [show C * (4 / 3 / (k : ℝ)) = C * (4 / 3) / k by ring, div_le_iff₀ k0]
      linarith
    linarith

/-- **C113 is violated by the start**: macroparticles start with place and velocity at one time, but the cycle advances them as if the place were that of half a
step later.  In a uniform field, where the interpolated field at the macroparticle is right and so is the computed velocity, the place is off by a term of
first order in the time step. -/
theorem C113_start_violated : ∃ (G : Geom) (F : Fields) (r z : ℝ → ℝ) (U : ℝ → V3) (p : Particle), G.Valid ∧
    LorentzPath false p.charge p.mass 1 (fun _ _ _ => ⟨0, 0, 1⟩) (fun _ _ _ => V3.zero) r z U ∧
    p.pos = ⟨r 0, 0, z 0⟩ ∧ p.vel = U 0 ∧ (∀ t z, valE G F (r t) z = ⟨0, 0, 1⟩ ∧ valH G F (r t) z = V3.zero) ∧
    ∀ C d : ℝ, 0 < d → ∃ (dt : ℝ) (N : ℕ), 0 < dt ∧ dt ≤ d ∧ N * dt ≤ 1 ∧ ∀ (bunch : Bool) (g : ℕ → Bool), ∃ p',
      cycles bunch G .borisClassic dt (fun _ => F) g N p = some p' ∧ p'.vel = U (N * dt) ∧ C * dt ^ 2 < |p'.pos.c2 - z (N * dt)| := by
  have hG := fineGeom_valid (k := 4) (by norm_num)
  have w := abs_le.1 (weight_near (k := 4) (by norm_num) (r := 1) (by norm_num))
  have w0 : 0 < weightInt (fineGeom 4) 1 := by have := w.1; norm_num at this; linarith
  refine ⟨fineGeom 4, axialField (1 / weightInt (fineGeom 4) 1), fun _ => 1, fun t => 1 + t + t ^ 2 / 2, fun t => ⟨0, 0, 1 + t⟩, axialParticle 1, hG,
    axial_path, by simp [axialParticle], by simp [axialParticle], ?_, ?_⟩
  · intro _ z
    obtain ⟨v1, v2⟩ := axial_val hG (1 / weightInt (fineGeom 4) 1) 1 z
    rw [v1, v2]
    refine ⟨?_, rfl⟩
    rw [one_div_mul_cancel w0.ne']
  intro C d hd
  obtain ⟨k, hk⟩ := exists_nat_gt (4 * |C| + 1 / d + 4)
  have hd' : 0 < 1 / d := by positivity
  have hC := abs_nonneg C
  have k4 : (4 : ℝ) < k := by linarith
  have k0 : (0 : ℝ) < k := by linarith
  obtain ⟨dt, hdt⟩ : ∃ dt : ℝ, dt = 1 / (2 * k) := ⟨_, rfl⟩
  have dt0 : 0 < dt := by rw [hdt]; positivity
  have dtk : (k : ℝ) * dt = 1 / 2 := by rw [hdt]; field_simp
  refine ⟨dt, k, dt0, ?_, by linarith, ?_⟩
  · have : 1 / d < k := by linarith
    rw [div_lt_iff₀ hd] at this
    nlinarith
  intro bunch g
  obtain ⟨p, i1, -, -, -, i5, i6⟩ := axial_run (k := 4) (by norm_num) (c := 1 / weightInt (fineGeom 4) 1) (dt := dt) (z := 1) (a := 1) le_rfl (by norm_num)
    dt0 (by nlinarith) (by rw [one_div_mul_cancel w0.ne']) (by norm_num) (by norm_num) bunch g k (by linarith)
  refine ⟨p, i1, by rw [i5, mul_one], ?_⟩
  rw [i6]
  dsimp only
  have e : 1 + k * dt + 1 * dt ^ 2 * (k * (k + 1)) / 2 - (1 + k * dt + (k * dt) ^ 2 / 2) = dt / 4 := by
    have : 1 + k * dt + 1 * dt ^ 2 * (k * (k + 1)) / 2 - (1 + k * dt + (k * dt) ^ 2 / 2) = (k * dt) * dt / 2 := by ring
    rw [this, dtk]; ring
  rw [e, abs_of_pos (by positivity)]
  have c1 : C ≤ |C| := le_abs_self C
  have c2 : 4 * |C| * dt < 1 := by nlinarith
  nlinarith

/-! ## Motion around the axis -/

namespace PathConverge

/-- chamber of radius 2 and length 3 -/
noncomputable def roundGeom : Geom := ⟨2, 3, 3, 4, 1, 1⟩

theorem roundGeom_valid : roundGeom.Valid := by constructor <;> simp [roundGeom] <;> norm_num

/-- a macroparticle that moves outwards and around the axis with the same velocity -/
noncomputable def roundParticle : Particle := ⟨true, ⟨1, 0, 1⟩, ⟨1, 0, 1⟩, ⟨1, 1, 0⟩, 1, 1, 0, 1⟩

theorem hyp_le {x y : ℝ} (hx : 1 ≤ x) : x ≤ √(x * x + y * y) ∧ √(x * x + y * y) ≤ x + y ^ 2 / 2 := by
  refine ⟨Real.le_sqrt_of_sq_le (by nlinarith [sq_nonneg y]), ?_⟩
  apply Real.sqrt_le_iff.2 ⟨by positivity, ?_⟩
  nlinarith [sq_nonneg y, mul_nonneg (sq_nonneg y) (by linarith : 0 ≤ x - 1), sq_nonneg (y ^ 2)]

theorem free_cycle {bunch : Bool} {mode : PusherMode} {g : Bool} {dt t : ℝ} {p : Particle} (dt0 : 0 < dt) (dt1 : dt ≤ 1 / 100) (t0 : 0 ≤ t) (t1 : t ≤ 1 / 4)
    (ha : p.alive = true) (hm : p.mass ≠ 0) (hp1 : p.pos.c1 = 0) (hp2 : p.pos.c2 = 1) (hv2 : p.vel.c2 = 0) (r1 : 1 ≤ p.pos.c0)
    (r2 : p.pos.c0 ≤ 1 + t * (1 + dt)) (a1 : p.vel.c0 ≤ 1) (a2 : 1 - 2 * t ≤ p.vel.c0) (b1 : 1 ≤ p.vel.c1) (hs : p.vel.c0 ^ 2 + p.vel.c1 ^ 2 = 2) :
    ∃ p', particleCycle bunch roundGeom (fun _ _ _ => 0) mode g dt p = some p' ∧ p'.alive = true ∧ p'.mass = p.mass ∧ p'.pos.c1 = 0 ∧ p'.pos.c2 = 1 ∧
      p'.vel.c2 = 0 ∧ 1 ≤ p'.pos.c0 ∧ p'.pos.c0 ≤ 1 + (t + dt) * (1 + dt) ∧ p'.vel.c0 ≤ 1 ∧ 1 - 2 * (t + dt) ≤ p'.vel.c0 ∧ 1 ≤ p'.vel.c1 ∧
      p'.vel.c0 ^ 2 + p'.vel.c1 ^ 2 = 2 := by
  obtain ⟨al, ⟨r, y, z⟩, old, ⟨u, w, x⟩, q, m, sn, cs⟩ := p
  dsimp only at *
  subst ha hp1 hp2 hv2
  have u0 : 1 / 2 ≤ u := by linarith
  have w2 : w ≤ 3 / 2 := by nlinarith
  obtain ⟨h, hh⟩ : ∃ h, h = dt / 2 := ⟨_, rfl⟩
  have h0 : 0 < h := by linarith
  have vE : valE roundGeom (fun _ _ _ => 0) r 1 = V3.zero := by simp [valE, valHalf, valInt, val4, V3.zero]
  have vH : valH roundGeom (fun _ _ _ => 0) r 1 = V3.zero := by simp [valH, valHalf, valInt, val4, V3.zero]
  have mn : MNZL ≤ 1 / 2 := by unfold MNZL; norm_num
  have hpush : push mode g dt q m V3.zero V3.zero ⟨u, w, 0⟩ = some ⟨u, w, 0⟩ := by
    apply C20_free_streaming mode g dt q m hm
    · unfold speedSq LIGHT_SPEED
      dsimp only
      nlinarith
    · refine ⟨Or.inr ?_, Or.inr ?_, Or.inl rfl⟩
      · dsimp only; rw [abs_of_nonneg (by linarith)]; linarith
      · dsimp only; rw [abs_of_nonneg (by linarith)]; linarith
  have uh0 : 0 ≤ u * h := by positivity
  have uh1 : u * h ≤ h := by nlinarith
  have wh0 : 0 ≤ w * h := by positivity
  have wh1 : w * h ≤ 3 / 4 * dt := by nlinarith
  have whs : (w * h) ^ 2 ≤ dt ^ 2 := by nlinarith
  obtain ⟨A, hA⟩ : ∃ A, A = √((r + u * h) * (r + u * h) + (w * h) * (w * h)) := ⟨_, rfl⟩
  obtain ⟨A1, A2⟩ := hyp_le (x := r + u * h) (y := w * h) (by linarith)
  rw [← hA] at A1 A2
  obtain ⟨D, hD⟩ : ∃ D, D = √((A + u * h) * (A + u * h) + (w * h) * (w * h)) := ⟨_, rfl⟩
  obtain ⟨D1, D2⟩ := hyp_le (x := A + u * h) (y := w * h) (by linarith)
  rw [← hD] at D1 D2
  have A0 : 1 ≤ A := by linarith
  have D0 : 1 ≤ D := by linarith
  have e1 : stepVSingle roundGeom (fun _ _ _ => 0) mode g dt ⟨true, ⟨r, 0, 1⟩, old, ⟨u, w, 0⟩, q, m, sn, cs⟩ =
      some ⟨true, ⟨A, 0, 1⟩, ⟨r, old.c1, 1⟩, ⟨u, w, 0⟩, q, m, w * h / A, cs⟩ := by
    unfold stepVSingle
    dsimp only
    rw [if_pos rfl, vE, vH, hpush, Option.bind_some]
    unfold backPosition halfStep dumpOld
    dsimp only
    rw [← hh, zero_add, zero_mul, add_zero, ← hA, if_neg (by linarith)]
  have e2 : moveHalfReflectSingle bunch roundGeom dt ⟨true, ⟨A, 0, 1⟩, ⟨r, old.c1, 1⟩, ⟨u, w, 0⟩, q, m, w * h / A, cs⟩ =
      some ⟨true, ⟨D, 0, 1⟩, ⟨r, old.c1, 1⟩, ⟨u, w, 0⟩, q, m, w * h / D, cs⟩ := by
    unfold moveHalfReflectSingle
    rw [if_pos rfl, reflection_inside]
    · unfold backPosition halfStep
      dsimp only
      rw [← hh, zero_add, zero_mul, add_zero, ← hD, if_neg (by linarith)]
    · unfold InRegion halfStep roundGeom
      dsimp only
      rw [← hh]
      refine ⟨by linarith only [A0, uh0], ?_, by norm_num, by norm_num⟩
      have k1 : t * dt ≤ 1 / 4 * (1 / 100) := mul_le_mul t1 dt1 dt0.le (by norm_num)
      have k2 : dt ^ 2 ≤ 1 / 100 := by nlinarith only [dt0, dt1]
      linarith only [k1, k2, A2, uh1, whs, r2, hh, dt1, t1]
  obtain ⟨s, hsd⟩ : ∃ s, s = w * h / D := ⟨_, rfl⟩
  have s0 : 0 ≤ s := by rw [hsd]; positivity
  have s1 : s ≤ 3 / 4 * dt := by
    rw [hsd, div_le_iff₀ (by linarith only [D0])]
    have := mul_le_mul_of_nonneg_left D0 (by linarith only [dt0] : 0 ≤ 3 / 4 * dt)
    linarith only [this, wh1]
  obtain ⟨c, hc⟩ : ∃ c, c = √(1 - s * s) := ⟨_, rfl⟩
  have s2 : s ≤ 1 / 100 := by linarith only [s1, dt1]
  have ss : s * s ≤ 1 / 100 * s := mul_le_mul_of_nonneg_right s2 s0
  have cp : 0 ≤ 1 - s * s := by linarith only [ss, s2]
  have cs' : c ^ 2 = 1 - s * s := by rw [hc]; exact Real.sq_sqrt cp
  have c0 : 0 ≤ c := by rw [hc]; positivity
  have c1 : c ≤ 1 := by nlinarith only [c0, cs', mul_self_nonneg s]
  have c2 : 1 - s * s ≤ c := by nlinarith only [c0, c1, cs']
  refine ⟨⟨true, ⟨D, 0, 1⟩, ⟨r, old.c1, 1⟩, ⟨c * u - s * w, s * u + c * w, 0⟩, q, m, s, c⟩, ?_, rfl, rfl, rfl, rfl, rfl, D0, ?_, ?_, ?_, ?_, ?_⟩
  · unfold particleCycle
    rw [e1, Option.bind_some, e2, Option.map_some]
    unfold backVelocitySingle backVelocity
    dsimp only
    rw [if_pos rfl, ← hsd, ← hc]
  · dsimp only
    have : 0 ≤ t * dt := by positivity
    linarith only [D2, A2, uh1, whs, r2, hh]
  · dsimp only
    have k1 := mul_nonneg s0 (by linarith only [b1] : 0 ≤ w)
    have k2 : c * u ≤ 1 * u := mul_le_mul_of_nonneg_right c1 (by linarith only [u0])
    linarith only [k1, k2, a1]
  · dsimp only
    have k1 : s * w ≤ 3 / 4 * dt * (3 / 2) := mul_le_mul s1 w2 (by linarith only [b1]) (by linarith only [dt0])
    have k2 : (1 - s * s) * u ≤ c * u := mul_le_mul_of_nonneg_right c2 (by linarith only [u0, b1])
    have k3 : s * s ≤ 1 / 100 * dt := by linarith only [ss, s1, dt0]
    have k4 : s * s * u ≤ s * s * 1 := mul_le_mul_of_nonneg_left a1 (mul_self_nonneg s)
    linarith only [k1, k2, k3, k4, a2, dt0]
  · dsimp only
    have k1 : s * w ≤ 1 / 100 * (3 / 2) := mul_le_mul s2 w2 (by linarith only [b1]) (by norm_num)
    have k2 : (1 - s * s) * w ≤ c * w := mul_le_mul_of_nonneg_right c2 (by linarith only [u0, b1])
    have k3 : 0 ≤ s * (u - s * w) := mul_nonneg s0 (by linarith only [k1, u0])
    linarith only [k2, k3, b1]
  · dsimp only
    linear_combination hs + (u ^ 2 + w ^ 2) * cs'

end PathConverge

/-- **C113 is violated by motion around the axis**, however small the time step: a free macroparticle that starts at the radius 1 and moves outwards and around
the axis with the velocity 1 is after 1/5 to 1/4 s nearer to the axis than a body that goes straight on, by more than 1 cm.  The return to the half plane turns
the velocity the wrong way (C23), so the centrifugal force has the wrong sign. -/
theorem C113_azimuth_violated : ∃ (G : Geom) (p : Particle), G.Valid ∧ InRegion G p.pos.c0 p.pos.c2 ∧ p.alive = true ∧ p.pos.c1 = 0 ∧
    ∀ (bunch : Bool) (mode : PusherMode) (g : ℕ → Bool) (dt : ℝ) (N : ℕ), 0 < dt → dt ≤ 1 / 100 → 1 / 5 ≤ N * dt → N * dt ≤ 1 / 4 →
      ∃ p', cycles bunch G mode dt (fun _ _ _ _ => 0) g N p = some p' ∧
        p'.pos.c0 + 1 / 100 ≤ √((p.pos.c0 + p.vel.c0 * (N * dt)) ^ 2 + (p.vel.c1 * (N * dt)) ^ 2) := by
  refine ⟨roundGeom, roundParticle, roundGeom_valid, ?_, rfl, rfl, ?_⟩
  · unfold InRegion roundGeom roundParticle; norm_num
  intro bunch mode g dt N dt0 dt1 hN1 hN2
  have inv : ∀ n : ℕ, n * dt ≤ 1 / 4 → ∃ p, cycles bunch roundGeom mode dt (fun _ _ _ _ => 0) g n roundParticle = some p ∧ p.alive = true ∧ p.mass = 1 ∧
      p.pos.c1 = 0 ∧ p.pos.c2 = 1 ∧ p.vel.c2 = 0 ∧ 1 ≤ p.pos.c0 ∧ p.pos.c0 ≤ 1 + n * dt * (1 + dt) ∧ p.vel.c0 ≤ 1 ∧ 1 - 2 * (n * dt) ≤ p.vel.c0 ∧
      1 ≤ p.vel.c1 ∧ p.vel.c0 ^ 2 + p.vel.c1 ^ 2 = 2 := by
    intro n
    induction n with
    | zero =>
      intro _
      refine ⟨roundParticle, rfl, rfl, rfl, rfl, rfl, rfl, ?_⟩
      norm_num [roundParticle]
    | succ n ih =>
      intro hn
      push_cast at hn
      obtain ⟨p, i0, i1, i2, i3, i4, i5, i6, i7, i8, i9, i10, i11⟩ := ih (by linarith)
      obtain ⟨p', j0, j1, j2, j3, j4, j5, j6, j7, j8, j9, j10, j11⟩ := free_cycle (bunch := bunch) (mode := mode) (g := g n) dt0 dt1 (by positivity)
        (by linarith) i1 (by rw [i2]; norm_num) i3 i4 i5 i6 i7 i8 i9 i10 i11
      refine ⟨p', by rw [cycles, i0, Option.bind_some, j0], j1, by rw [j2, i2], j3, j4, j5, j6, ?_, j8, ?_, j10, j11⟩
      · push_cast; linarith
      · push_cast; linarith
  obtain ⟨p, i0, -, -, -, -, -, i6, i7, -⟩ := inv N hN2
  refine ⟨p, i0, ?_⟩
  apply Real.le_sqrt_of_sq_le
  simp only [roundParticle]
  generalize (N : ℝ) * dt = t at *
  have k : p.pos.c0 + 1 / 100 ≤ 1 + t + 1 / 80 := by nlinarith
  have := pow_le_pow_left₀ (by linarith) k 2
  nlinarith

end Verif
