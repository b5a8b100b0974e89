import Verif.PusherLaw

/-!
# Symmetries of the velocity push (C80, C81)

Specification: `V3.neg`, `mirrorZ`, `mirrorPhi` act on polar vectors (electric field, velocity); the magnetic field is an
axial vector, so a mirror acts on it with the opposite sign.
-/

namespace Verif

/-! ## Specification -/

/-- opposite vector -/
def V3.neg (a : V3) : V3 := ⟨-a.c0, -a.c1, -a.c2⟩
/-- mirror image in the plane `z = 0` of a polar vector -/
def mirrorZ (a : V3) : V3 := ⟨a.c0, a.c1, -a.c2⟩
/-- mirror image in the `r`-`z` plane of a polar vector -/
def mirrorPhi (a : V3) : V3 := ⟨a.c0, -a.c1, a.c2⟩

/-! ## Helpers -/

theorem snap1_neg (x : ℝ) : snap1 (-x) = -snap1 x := by
  unfold snap1; rw [abs_neg]; split_ifs <;> simp

theorem snap_neg (v : V3) : snap v.neg = (snap v).neg := by
  unfold snap V3.neg; simp only [snap1_neg]

theorem snap_mirrorZ (v : V3) : snap (mirrorZ v) = mirrorZ (snap v) := by
  unfold snap mirrorZ; simp only [snap1_neg]

theorem snap_mirrorPhi (v : V3) : snap (mirrorPhi v) = mirrorPhi (snap v) := by
  unfold snap mirrorPhi; simp only [snap1_neg]

/-- A transformation of polar and axial vectors by signs; `Signs p a` leaves scalar products, and takes cross products
of polar and axial vectors to polar ones. -/
structure Signs where
  (p0 p1 p2 a0 a1 a2 : ℝ)
  h0 : p0 * p0 = 1
  h1 : p1 * p1 = 1
  h2 : p2 * p2 = 1
  k0 : a0 * a0 = 1
  k1 : a1 * a1 = 1
  k2 : a2 * a2 = 1
  x01 : p0 * a1 = p2
  x02 : p0 * a2 = p1
  x10 : p1 * a0 = p2
  x12 : p1 * a2 = p0
  x20 : p2 * a0 = p1
  x21 : p2 * a1 = p0

/-- action on polar vectors -/
def Signs.pol (s : Signs) (v : V3) : V3 := ⟨s.p0 * v.c0, s.p1 * v.c1, s.p2 * v.c2⟩
/-- action on axial vectors -/
def Signs.ax (s : Signs) (v : V3) : V3 := ⟨s.a0 * v.c0, s.a1 * v.c1, s.a2 * v.c2⟩

namespace Signs
variable (s : Signs)

theorem pol_dot (u v : V3) : V3.dot (s.pol u) (s.pol v) = V3.dot u v := by
  unfold V3.dot pol; dsimp only
  linear_combination u.c0 * v.c0 * s.h0 + u.c1 * v.c1 * s.h1 + u.c2 * v.c2 * s.h2

theorem ax_dot (u v : V3) : V3.dot (s.ax u) (s.ax v) = V3.dot u v := by
  unfold V3.dot ax; dsimp only
  linear_combination u.c0 * v.c0 * s.k0 + u.c1 * v.c1 * s.k1 + u.c2 * v.c2 * s.k2

/-- the product of a polar and an axial vector changes sign or not as a whole -/
theorem mix : ∃ d : ℝ, d * d = 1 ∧ s.p0 * s.a0 = d ∧ s.p1 * s.a1 = d ∧ s.p2 * s.a2 = d := by
  refine ⟨s.p0 * s.a0, by linear_combination s.a0 * s.a0 * s.h0 + s.k0, rfl, ?_, ?_⟩
  · linear_combination (-s.a1) * s.x20 + s.a0 * s.x21
  · linear_combination (-s.a2) * s.x10 + s.a0 * s.x12

theorem pol_smul (x : ℝ) (v : V3) : s.pol (v.smul x) = (s.pol v).smul x := by
  unfold pol V3.smul; ext <;> dsimp only <;> ring

theorem ax_smul (x : ℝ) (v : V3) : s.ax (v.smul x) = (s.ax v).smul x := by
  unfold ax V3.smul; ext <;> dsimp only <;> ring

theorem pol_add (u v : V3) : s.pol (u.add v) = (s.pol u).add (s.pol v) := by
  unfold pol V3.add; ext <;> dsimp only <;> ring

theorem pol_cross (u b : V3) : (s.pol u).cross (s.ax b) = s.pol (u.cross b) := by
  unfold pol ax V3.cross; ext <;> dsimp only
  · linear_combination u.c1 * b.c2 * s.x12 - u.c2 * b.c1 * s.x21
  · linear_combination u.c2 * b.c0 * s.x20 - u.c0 * b.c2 * s.x02
  · linear_combination u.c0 * b.c1 * s.x01 - u.c1 * b.c0 * s.x10

theorem snap_pol (v : V3) : snap (s.pol v) = s.pol (snap v) := by
  have k : ∀ p : ℝ, p * p = 1 → ∀ x, snap1 (p * x) = p * snap1 x := by
    intro p hp x
    rcases (mul_self_eq_one_iff.1 hp) with rfl | rfl
    · simp
    · rw [neg_one_mul, snap1_neg, neg_one_mul]
  unfold snap pol
  dsimp only
  rw [k _ s.h0, k _ s.h1, k _ s.h2]

end Signs

/-- the rotation as cross products -/
theorem borisRotate_cross (v b : V3) :
    borisRotate v b = v.add (((v.add (v.cross b)).cross b).smul (2 / (1 + V3.dot b b))) := by
  unfold borisRotate V3.add V3.cross V3.smul
  ext <;> dsimp only <;> ring

theorem Signs.rotate (s : Signs) (v b : V3) : borisRotate (s.pol v) (s.ax b) = s.pol (borisRotate v b) := by
  rw [borisRotate_cross, borisRotate_cross, s.ax_dot, s.pol_cross, ← s.pol_add, s.pol_cross, ← s.pol_smul, ← s.pol_add]

/-- the final step of the Vay pusher as vectors -/
theorem vay_last (p t : V3) (s al : ℝ) :
    (⟨s * (p.c0 + al * t.c0 + t.c2 * p.c1 - t.c1 * p.c2), s * (p.c1 + al * t.c1 + t.c0 * p.c2 - t.c2 * p.c0),
      s * (p.c2 + al * t.c2 + t.c1 * p.c0 - t.c0 * p.c1)⟩ : V3)
      = ((p.add (t.smul al)).add (p.cross t)).smul s := by
  unfold V3.smul V3.add V3.cross; ext <;> dsimp only <;> ring

/-- the first step of the Vay pusher as vectors -/
theorem vay_first (p u b : V3) (ga : ℝ) :
    (⟨p.c0 + ga * (u.c1 * b.c2 - u.c2 * b.c1), p.c1 + ga * (u.c2 * b.c0 - u.c0 * b.c2),
      p.c2 + ga * (u.c0 * b.c1 - u.c1 * b.c0)⟩ : V3) = p.add ((u.cross b).smul ga) := by
  unfold V3.smul V3.add V3.cross; ext <;> dsimp only <;> ring

/-- the Vay pusher after the scaling of the fields: `u` old momentum, `e`, `b` scaled fields -/
noncomputable def vayStep (u e b : V3) : V3 :=
  let p := (u.add e).add ((u.cross b).smul (getGammaInv (V3.dot u u)))
  let x := 1 / getGammaInv (V3.dot p p) / getGammaInv (V3.dot p p) - V3.dot b b
  let a := 1 / Real.sqrt (1 / 2 * (x + Real.sqrt (x * x + 4 * (V3.dot b b + V3.dot p b ^ 2))))
  let t := b.smul a
  ((p.add (t.smul (V3.dot p t))).add (p.cross t)).smul (1 / (1 + V3.dot t t))

/-- velocity of a momentum -/
noncomputable def velocityOf (rel : Bool) (u : V3) : V3 :=
  if rel then u.smul (getGammaInv (V3.dot u u)) else u

/-- the second part of `vay_pusher_single` as the code has it, src/particles.cpp:1225-1245 -/
noncomputable def vayRaw (velocity b : V3) : V3 :=
  let gamma := getGammaInv (V3.dot velocity velocity)
  let alpha := 1 / gamma / gamma
  let B2 := V3.dot b b
  let s := alpha - B2
  let us2 := (V3.dot velocity b) ^ 2
  let alpha := 1 / Real.sqrt (1 / 2 * (s + Real.sqrt (s * s + 4 * (B2 + us2))))
  let b := b.smul alpha
  let s := 1 / (1 + V3.dot b b)
  let alpha := V3.dot velocity b
  ⟨s * (velocity.c0 + alpha * b.c0 + b.c2 * velocity.c1 - b.c1 * velocity.c2),
   s * (velocity.c1 + alpha * b.c1 + b.c0 * velocity.c2 - b.c2 * velocity.c0),
   s * (velocity.c2 + alpha * b.c2 + b.c1 * velocity.c0 - b.c0 * velocity.c1)⟩

theorem vayRaw_eq (u e b : V3) :
    vayRaw ⟨(u.add e).c0 + getGammaInv (V3.dot u u) * (u.c1 * b.c2 - u.c2 * b.c1),
      (u.add e).c1 + getGammaInv (V3.dot u u) * (u.c2 * b.c0 - u.c0 * b.c2),
      (u.add e).c2 + getGammaInv (V3.dot u u) * (u.c0 * b.c1 - u.c1 * b.c0)⟩ b = vayStep u e b := by
  rw [vay_first]
  unfold vayRaw vayStep
  exact vay_last _ _ _ _

theorem vayCore_eq (dt q m : ℝ) (e h v : V3) :
    vayCore dt q m e h v = if 2 * m = 0 then none else
      (getGamma (V3.dot (snap v) (snap v))).map fun g => velocityOf true (vayStep ((snap v).smul g)
        (e.smul (2 * (q * dt / (2 * m))))
        (h.smul (2 * MAGN_CONST * (q * dt / (2 * m)) ^ 3))) := by
  unfold vayCore
  split_ifs
  · rfl
  · have : h.smul (2 * MAGN_CONST * (q * dt / (2 * m)) ^ 3) = ((h.smul (MAGN_CONST * (q * dt / (2 * m)))).smul
        (2 * (q * dt / (2 * m)))).smul (q * dt / (2 * m)) := by
      rw [smul_smul', smul_smul']; congr 1; ring
    simp only [this, ← vayRaw_eq, velocityOf, if_true]
    rfl

theorem Signs.velocityOf (s : Signs) (rel : Bool) (u : V3) : velocityOf rel (s.pol u) = s.pol (velocityOf rel u) := by
  unfold Verif.velocityOf; split_ifs
  · rw [s.pol_dot, s.pol_smul]
  · rfl

theorem Signs.vayStep (s : Signs) (u e b : V3) :
    vayStep (s.pol u) (s.pol e) (s.ax b) = s.pol (vayStep u e b) := by
  obtain ⟨d, hd, d0, d1, d2⟩ := s.mix
  have pa : ∀ p t : V3, V3.dot (s.pol p) (s.ax t) = d * V3.dot p t := by
    intro p t; unfold V3.dot pol ax; dsimp only
    linear_combination p.c0 * t.c0 * d0 + p.c1 * t.c1 * d1 + p.c2 * t.c2 * d2
  have ap : ∀ (t : V3) (x : ℝ), s.ax (t.smul (d * x)) = s.pol (t.smul x) := by
    intro t x; unfold V3.smul pol ax; ext <;> dsimp only
    · rw [← d0]; linear_combination t.c0 * x * s.p0 * s.k0
    · rw [← d1]; linear_combination t.c1 * x * s.p1 * s.k1
    · rw [← d2]; linear_combination t.c2 * x * s.p2 * s.k2
  have dsq : ∀ x : ℝ, (d * x) ^ 2 = x ^ 2 := by intro x; linear_combination x ^ 2 * hd
  unfold Verif.vayStep
  simp only [s.pol_cross, ← s.pol_add, ← s.pol_smul, s.pol_dot, s.ax_dot, pa, dsq, ← s.ax_smul, ap]

/-- the Boris pusher after the scaling of the fields -/
noncomputable def borisStep (rel : Bool) (u e b : V3) : V3 :=
  let w := u.add e
  (borisRotate w (if rel then b.smul (getGammaInv (V3.dot w w)) else b)).add e

theorem borisCore_eq (rel : Bool) (dt q m : ℝ) (e h v : V3) :
    borisCore rel dt q m e h v = if 2 * m = 0 then none else
      (if rel then (getGamma (V3.dot (snap v) (snap v))).map (fun g => (snap v).smul g) else some (snap v)).map fun u =>
        velocityOf rel (borisStep rel u (e.smul (q * dt / (2 * m))) (h.smul (MAGN_CONST * (q * dt / (2 * m))))) := by
  unfold borisCore velocityOf borisStep
  rfl

theorem Signs.borisStep (s : Signs) (rel : Bool) (u e b : V3) :
    borisStep rel (s.pol u) (s.pol e) (s.ax b) = s.pol (borisStep rel u e b) := by
  unfold Verif.borisStep
  dsimp only
  cases rel
  · simp only [Bool.false_eq_true, if_false, ← s.pol_add, s.rotate]
  · simp only [if_true, ← s.pol_add, s.pol_dot, ← s.ax_smul, s.rotate]

/-- Sign transformations commute with every push; the constants of the scaled fields may differ. -/
theorem Signs.push (s : Signs) (mode : PusherMode) (garbage : Bool) (dt dt' q q' m m' : ℝ) (e e' h h' v : V3)
    (hm : 2 * m = 0 ↔ 2 * m' = 0)
    (he : e'.smul (q' * dt' / (2 * m')) = s.pol (e.smul (q * dt / (2 * m))))
    (hh : h'.smul (MAGN_CONST * (q' * dt' / (2 * m'))) = s.ax (h.smul (MAGN_CONST * (q * dt / (2 * m)))))
    (hk : mode = .vay → (q' * dt' / (2 * m')) ^ 2 = (q * dt / (2 * m)) ^ 2) :
    Verif.push mode garbage dt' q' m' e' h' (s.pol v) = (Verif.push mode garbage dt q m e h v).map s.pol := by
  have hu : useRel garbage (s.pol v) = useRel garbage v := by
    have h0 := s.h0
    have h1 := s.h1
    have h2 := s.h2
    unfold useRel
    rw [s.snap_pol]
    have : (s.pol (snap v)).c0 ^ 2 + (s.pol (snap v)).c1 ^ 2 + (s.pol (snap v)).c2 ^ 2
        = (snap v).c0 ^ 2 + (snap v).c1 ^ 2 + (snap v).c2 ^ 2 := by
      have := s.pol_dot (snap v) (snap v)
      unfold V3.dot at this
      linarith
    rw [this]
  have hb : ∀ rel, borisCore rel dt' q' m' e' h' (s.pol v) = (borisCore rel dt q m e h v).map s.pol := by
    intro rel
    rw [borisCore_eq, borisCore_eq, he, hh]
    by_cases h2 : 2 * m = 0
    · rw [if_pos h2, if_pos (hm.1 h2)]; rfl
    · rw [if_neg h2, if_neg (fun h => h2 (hm.2 h)), s.snap_pol, s.pol_dot]
      cases rel
      · simp only [Bool.false_eq_true, if_false, Option.map_some, s.borisStep, s.velocityOf]
      · simp only [if_true, Option.map_map]
        congr 1
        funext g
        simp only [Function.comp, ← s.pol_smul, s.borisStep, s.velocityOf]
  have hv : mode = .vay → vayCore dt' q' m' e' h' (s.pol v) = (vayCore dt q m e h v).map s.pol := by
    intro hmode
    have hk := hk hmode
    have e2 : e'.smul (2 * (q' * dt' / (2 * m'))) = s.pol (e.smul (2 * (q * dt / (2 * m)))) := by
      rw [mul_comm 2 (q' * dt' / (2 * m')), ← smul_smul', he, mul_comm 2 (q * dt / (2 * m)), ← smul_smul', s.pol_smul 2]
    have h3 : h'.smul (2 * MAGN_CONST * (q' * dt' / (2 * m')) ^ 3) =
        s.ax (h.smul (2 * MAGN_CONST * (q * dt / (2 * m)) ^ 3)) := by
      have a1 : 2 * MAGN_CONST * (q' * dt' / (2 * m')) ^ 3
        = (MAGN_CONST * (q' * dt' / (2 * m'))) * (2 * (q' * dt' / (2 * m')) ^ 2) := by ring
      have a2 : 2 * MAGN_CONST * (q * dt / (2 * m)) ^ 3
        = (MAGN_CONST * (q * dt / (2 * m))) * (2 * (q * dt / (2 * m)) ^ 2) := by ring
      rw [a1, a2, ← smul_smul' (MAGN_CONST * _), hh, hk, ← smul_smul' (MAGN_CONST * _), s.ax_smul (2 * _)]
    rw [vayCore_eq, vayCore_eq, e2, h3]
    by_cases h2 : 2 * m = 0
    · rw [if_pos h2, if_pos (hm.1 h2)]; rfl
    · rw [if_neg h2, if_neg (fun h => h2 (hm.2 h)), s.snap_pol, s.pol_dot]
      simp only [Option.map_map]
      congr 1
      funext g
      simp only [Function.comp, ← s.pol_smul, s.vayStep, s.velocityOf]
  cases mode
  · exact hb false
  · exact hb true
  · show borisCore (useRel garbage (s.pol v)) dt' q' m' e' h' (s.pol v) = _
    rw [hu]; exact hb _
  · exact hv rfl

/-- identity -/
def Signs.one : Signs := by
  refine ⟨1, 1, 1, 1, 1, 1, ?_, ?_, ?_, ?_, ?_, ?_, ?_, ?_, ?_, ?_, ?_, ?_⟩ <;> norm_num
/-- reversal of polar vectors; axial vectors stay -/
def Signs.minus : Signs := by
  refine ⟨-1, -1, -1, 1, 1, 1, ?_, ?_, ?_, ?_, ?_, ?_, ?_, ?_, ?_, ?_, ?_, ?_⟩ <;> norm_num
/-- mirror in `z` -/
def Signs.z : Signs := by
  refine ⟨1, 1, -1, -1, -1, 1, ?_, ?_, ?_, ?_, ?_, ?_, ?_, ?_, ?_, ?_, ?_, ?_⟩ <;> norm_num
/-- mirror in `phi` -/
def Signs.phi : Signs := by
  refine ⟨1, -1, 1, -1, 1, -1, ?_, ?_, ?_, ?_, ?_, ?_, ?_, ?_, ?_, ?_, ?_, ?_⟩ <;> norm_num

theorem Signs.one_pol : Signs.one.pol = id := by funext v; unfold Signs.pol Signs.one; ext <;> simp
theorem Signs.one_ax (v : V3) : Signs.one.ax v = v := by unfold Signs.ax Signs.one; ext <;> simp
theorem Signs.minus_pol : Signs.minus.pol = V3.neg := by funext v; unfold Signs.pol Signs.minus V3.neg; ext <;> simp
theorem Signs.minus_ax (v : V3) : Signs.minus.ax v = v := by unfold Signs.ax Signs.minus; ext <;> simp
theorem Signs.z_pol : Signs.z.pol = mirrorZ := by funext v; unfold Signs.pol Signs.z mirrorZ; ext <;> simp
theorem Signs.z_ax (v : V3) : Signs.z.ax v = (mirrorZ v).neg := by
  unfold Signs.ax Signs.z mirrorZ V3.neg; ext <;> simp
theorem Signs.phi_pol : Signs.phi.pol = mirrorPhi := by funext v; unfold Signs.pol Signs.phi mirrorPhi; ext <;> simp
theorem Signs.phi_ax (v : V3) : Signs.phi.ax v = (mirrorPhi v).neg := by
  unfold Signs.ax Signs.phi mirrorPhi V3.neg; ext <;> simp

/-! ## C81 -/

/-- **C81**, weight: a macroparticle that stands for `w` particles moves like one of them. -/
theorem C81_weight (mode : PusherMode) (garbage : Bool) (dt q m w : ℝ) (hw : w ≠ 0) (e h v : V3) :
    push mode garbage dt (w * q) (w * m) e h v = push mode garbage dt q m e h v := by
  have k : w * q * dt / (2 * (w * m)) = q * dt / (2 * m) := by
    rw [mul_assoc w q dt, mul_left_comm 2 w m, mul_div_mul_left _ _ hw]
  have := Signs.one.push mode garbage dt dt q (w * q) m (w * m) e e h h v
    (by simp [hw]) (by rw [k, Signs.one_pol]; rfl) (by rw [k, Signs.one_ax]) (fun _ => by rw [k])
  rw [Signs.one_pol] at this
  simpa using this

/-- **C81**, charge: opposite charges in opposite fields move alike. -/
theorem C81_charge (mode : PusherMode) (garbage : Bool) (dt q m : ℝ) (e h v : V3) :
    push mode garbage dt (-q) m e.neg h.neg v = push mode garbage dt q m e h v := by
  have k : -q * dt / (2 * m) = -(q * dt / (2 * m)) := by ring
  have := Signs.one.push mode garbage dt dt q (-q) m m e e.neg h h.neg v
    Iff.rfl (by rw [k, Signs.one_pol]; unfold V3.smul V3.neg; simp)
    (by rw [k, Signs.one_ax]; unfold V3.smul V3.neg; simp) (fun _ => by rw [k]; ring)
  rw [Signs.one_pol] at this
  simpa using this

/-- **C81**, mirrors: the mirror image of a push is the push of the mirror image. -/
theorem C81_mirror (mode : PusherMode) (garbage : Bool) (dt q m : ℝ) (e h v : V3) :
    push mode garbage dt q m (mirrorZ e) (mirrorZ h).neg (mirrorZ v) = (push mode garbage dt q m e h v).map mirrorZ ∧
    push mode garbage dt q m (mirrorPhi e) (mirrorPhi h).neg (mirrorPhi v) =
      (push mode garbage dt q m e h v).map mirrorPhi := by
  have a := Signs.z.push mode garbage dt dt q q m m e (mirrorZ e) h (mirrorZ h).neg v Iff.rfl
    (by rw [Signs.z.pol_smul, Signs.z_pol]) (by rw [Signs.z.ax_smul, Signs.z_ax]) (fun _ => rfl)
  have b := Signs.phi.push mode garbage dt dt q q m m e (mirrorPhi e) h (mirrorPhi h).neg v Iff.rfl
    (by rw [Signs.phi.pol_smul, Signs.phi_pol]) (by rw [Signs.phi.ax_smul, Signs.phi_ax]) (fun _ => rfl)
  rw [Signs.z_pol] at a
  rw [Signs.phi_pol] at b
  exact ⟨a, b⟩

/-- **C81**, direction of time: reversing velocity and magnetic field is the same as reversing the time step. -/
theorem C81_time (mode : PusherMode) (garbage : Bool) (dt q m : ℝ) (e h v : V3) :
    push mode garbage dt q m e h.neg v.neg = (push mode garbage (-dt) q m e h v).map V3.neg := by
  have k : q * -dt / (2 * m) = -(q * dt / (2 * m)) := by ring
  have a := Signs.minus.push mode garbage (-dt) dt q q m m e e h h.neg v Iff.rfl
    (by rw [k, Signs.minus_pol]; unfold V3.smul V3.neg; simp)
    (by rw [k, Signs.minus_ax]; unfold V3.smul V3.neg; simp) (fun _ => by rw [k]; ring)
  rwa [Signs.minus_pol] at a

/-! ## C80: Boris pushers -/

/-- the opposite rotation -/
theorem rotate_back (v b : V3) : borisRotate (borisRotate v b) b.neg = v := by
  have h : 1 + (b.c0 * b.c0 + b.c1 * b.c1 + b.c2 * b.c2) ≠ 0 := by
    nlinarith [sq_nonneg b.c0, sq_nonneg b.c1, sq_nonneg b.c2]
  have h' : 1 + (-b.c0 * -b.c0 + -b.c1 * -b.c1 + -b.c2 * -b.c2) = 1 + (b.c0 * b.c0 + b.c1 * b.c1 + b.c2 * b.c2) := by
    ring
  unfold borisRotate V3.neg V3.dot
  dsimp only
  rw [h']
  generalize hd : 1 + (b.c0 * b.c0 + b.c1 * b.c1 + b.c2 * b.c2) = d at *
  ext <;> dsimp only
  · field_simp
    rw [← hd]; ring
  · field_simp
    rw [← hd]; ring
  · field_simp
    rw [← hd]; ring

theorem neg_smul' (x : ℝ) (v : V3) : v.smul (-x) = (v.smul x).neg := by
  unfold V3.smul V3.neg; ext <;> dsimp only <;> ring

theorem smul_neg' (x : ℝ) (v : V3) : v.neg.smul x = (v.smul x).neg := by
  unfold V3.smul V3.neg; ext <;> dsimp only <;> ring

theorem add_neg' (u v : V3) : (u.add v).add v.neg = u := by
  unfold V3.add V3.neg; ext <;> dsimp only <;> ring

theorem borisStep_back (rel : Bool) (u e b : V3) : borisStep rel (borisStep rel u e b) e.neg b.neg = u := by
  unfold borisStep
  dsimp only
  rw [add_neg']
  cases rel
  · simp only [Bool.false_eq_true, if_false, rotate_back, add_neg']
  · simp only [if_true, borisRotate_dot, smul_neg', rotate_back, add_neg']

theorem momentum_velocityOf (rel : Bool) (u : V3) : momentum rel (velocityOf rel u) = u := by
  cases rel
  · rfl
  · exact momentum_of_velocity u

theorem velocityOf_momentum (rel : Bool) (v : V3) (hv : rel = true → speedSq v < LIGHT_SPEED ^ 2) :
    velocityOf rel (momentum rel v) = v := by
  cases rel
  · rfl
  · have hv := hv rfl
    have ec : LIGHT_SPEED ^ 2 = LIGHT_SPEED_POW_2 := rfl
    rw [speedSq_eq, ec] at hv
    have hg := getGamma_some hv
    unfold velocityOf momentum
    rw [if_pos rfl, if_pos rfl, speedSq_eq, ec]
    generalize 1 / Real.sqrt (1 - V3.dot v v / LIGHT_SPEED_POW_2) = g at *
    have gp := (gamma_sq hv hg).1
    rw [dot_smul, gammaInv_of_gamma (dot_self_nonneg _) hv hg, smul_smul', mul_one_div, div_self gp.ne', smul_one']

theorem velocityOf_slow (u : V3) : speedSq (velocityOf true u) < LIGHT_SPEED ^ 2 := by
  rw [speedSq_eq]; exact sub_luminal u

theorem gamma_momentum {v : V3} (hv : speedSq v < LIGHT_SPEED ^ 2) (ht : AboveThreshold v) :
    (getGamma (V3.dot (snap v) (snap v))).map (fun g => (snap v).smul g) = some (momentum true v) := by
  have ec : LIGHT_SPEED ^ 2 = LIGHT_SPEED_POW_2 := rfl
  rw [speedSq_eq, ec] at hv
  rw [snap_eq ht, getGamma_some hv, Option.map_some]
  unfold momentum
  rw [if_pos rfl, speedSq_eq, ec]

theorem borisCore_step (rel : Bool) (dt q m : ℝ) (hm : m ≠ 0) (e h v : V3)
    (hv : rel = true → speedSq v < LIGHT_SPEED ^ 2) (ht : AboveThreshold v) :
    borisCore rel dt q m e h v = some (velocityOf rel (borisStep rel (momentum rel v) (e.smul (q * dt / (2 * m)))
      (h.smul (MAGN_CONST * (q * dt / (2 * m)))))) := by
  have hm2 : ¬ (2 * m = 0) := by simpa using hm
  rw [borisCore_eq, if_neg hm2]
  cases rel
  · simp only [Bool.false_eq_true, if_false, Option.map_some, snap_eq ht]
    rfl
  · simp only [if_true, gamma_momentum (hv rfl) ht, Option.map_some]

theorem borisCore_back (rel : Bool) (dt q m : ℝ) (hm : m ≠ 0) (e h v v' : V3)
    (hv : rel = true → speedSq v < LIGHT_SPEED ^ 2) (ht : AboveThreshold v) (ht' : AboveThreshold v')
    (hp : borisCore rel dt q m e h v = some v') : borisCore rel (-dt) q m e h v' = some v := by
  rw [borisCore_step rel dt q m hm e h v hv ht, Option.some.injEq] at hp
  have k : q * -dt / (2 * m) = -(q * dt / (2 * m)) := by ring
  rw [borisCore_step rel (-dt) q m hm e h v' (by rintro rfl; rw [← hp]; exact velocityOf_slow _) ht', k,
    mul_neg, neg_smul', neg_smul', ← hp, momentum_velocityOf, borisStep_back, velocityOf_momentum rel v hv]

/-- **C80**, partial (Boris pushers that use the same formulas both ways). A push with the opposite time step takes the
new velocity back to the old one, and so does a push with the velocity and the magnetic field reversed. -/
theorem C80_boris_partial (mode : PusherMode) (hmode : mode ≠ .vay) (garbage garbage' : Bool) (dt q m : ℝ) (hm : m ≠ 0)
    (e h v v' : V3) (hv : speedSq v < LIGHT_SPEED ^ 2) (ht : AboveThreshold v) (ht' : AboveThreshold v')
    (hrel : isRelativistic mode garbage v = isRelativistic mode garbage' v')
    (hp : push mode garbage dt q m e h v = some v') :
    push mode garbage' (-dt) q m e h v' = some v ∧
      push mode garbage' dt q m e h.neg v'.neg = some v.neg := by
  have a : push mode garbage' (-dt) q m e h v' = some v := by
    cases mode with
    | vay => exact absurd rfl hmode
    | borisClassic => exact borisCore_back false dt q m hm e h v v' (fun h => hv) ht ht' hp
    | borisRelativistic => exact borisCore_back true dt q m hm e h v v' (fun h => hv) ht ht' hp
    | borisAdaptive =>
      have hrel : useRel garbage v = useRel garbage' v' := hrel
      show borisCore (useRel garbage' v') (-dt) q m e h v' = some v
      rw [← hrel]
      exact borisCore_back _ dt q m hm e h v v' (fun h => hv) ht ht' hp
  refine ⟨a, ?_⟩
  rw [C81_time, a]; rfl

/-- **C80 is violated by the adaptive mode**, whatever the uninitialised flag is the second time: a particle at rest is
accelerated with the classical formulas and slowed down with the relativistic ones. -/
theorem C80_adaptive_violated : ∃ (dt q m : ℝ) (e h v v' : V3), 0 < dt ∧ 0 < m ∧ speedSq v < LIGHT_SPEED ^ 2 ∧
    AboveThreshold v ∧ AboveThreshold v' ∧ push .borisAdaptive false dt q m e h v = some v' ∧
    ∀ garbage, push .borisAdaptive garbage (-dt) q m e h v' ≠ some v := by
  have ht : AboveThreshold V3.zero := ⟨Or.inl rfl, Or.inl rfl, Or.inl rfl⟩
  have hv : speedSq V3.zero < LIGHT_SPEED ^ 2 := by unfold speedSq V3.zero LIGHT_SPEED; norm_num
  have hu : useRel false V3.zero = false := by
    unfold useRel
    rw [snap_eq ht, if_neg]
    unfold V3.zero REL_LIMIT_POW_2; norm_num
  obtain ⟨v', a, b⟩ := C57_electric_kick .borisAdaptive false 1 1 1 one_ne_zero ⟨180000000, 0, 0⟩ V3.zero hv ht
  have hv' : v' = ⟨180000000, 0, 0⟩ := by
    simp only [isRelativistic, hu, momentum, Bool.false_eq_true, if_false] at b
    rw [b]; unfold V3.add V3.zero V3.smul; ext <;> norm_num
  have ht' : AboveThreshold v' := by
    rw [hv']
    refine ⟨Or.inr ?_, Or.inl rfl, Or.inl rfl⟩
    unfold MNZL; rw [abs_of_nonneg] <;> norm_num
  have hs' : speedSq v' < LIGHT_SPEED ^ 2 := by rw [hv']; unfold speedSq LIGHT_SPEED; norm_num
  refine ⟨1, 1, 1, ⟨180000000, 0, 0⟩, V3.zero, V3.zero, v', one_pos, one_pos, hv, ht, ht', a, ?_⟩
  intro g hcon
  have hu' : useRel g v' = true := by
    unfold useRel
    rw [snap_eq ht', hv', if_pos]
    unfold REL_LIMIT_POW_2; norm_num
  obtain ⟨w, c, d⟩ := C57_electric_kick .borisAdaptive g (-1) 1 1 one_ne_zero ⟨180000000, 0, 0⟩ v' hs' ht'
  rw [hcon, Option.some.injEq] at c
  subst c
  simp only [isRelativistic, hu'] at d
  have := congrArg V3.c0 d
  rw [hv'] at this
  have hs : Real.sqrt (1 - speedSq ⟨180000000, 0, 0⟩ / LIGHT_SPEED ^ 2) = 4 / 5 := by
    rw [show (1 - speedSq ⟨180000000, 0, 0⟩ / LIGHT_SPEED ^ 2 : ℝ) = (4 / 5) ^ 2 by
      unfold speedSq LIGHT_SPEED; norm_num]
    exact Real.sqrt_sq (by norm_num)
  simp only [momentum, if_true, hs, V3.add, V3.smul, V3.zero] at this
  norm_num at this

/-! ## C80: Vay pusher -/

/-- Fields in the plane of motion: the Vay step solves the equation with the mean of the two velocities. -/
theorem vayStep_perp {u e b : V3} (hu : V3.dot u b = 0) (he : V3.dot e b = 0) :
    V3.dot (vayStep u e b) b = 0 ∧
    vayStep u e b = ((u.add e).add ((u.cross b).smul (getGammaInv (V3.dot u u)))).add
      (((vayStep u e b).cross b).smul (getGammaInv (V3.dot (vayStep u e b) (vayStep u e b)))) := by
  have c := c2_pos
  obtain ⟨p, hpd⟩ : ∃ p, p = (u.add e).add ((u.cross b).smul (getGammaInv (V3.dot u u))) := ⟨_, rfl⟩
  have pb : V3.dot p b = 0 := by
    rw [hpd]
    unfold V3.dot V3.add V3.smul V3.cross at *
    dsimp only
    linear_combination hu + he
  have pp := dot_self_nonneg p
  have hb := dot_self_nonneg b
  have hal : 1 / getGammaInv (V3.dot p p) / getGammaInv (V3.dot p p) = 1 + V3.dot p p / LIGHT_SPEED_POW_2 := by
    have h := getGammaInv_sq pp
    have h0 := (getGammaInv_pos pp).ne'
    rw [div_div, ← pow_two, h]
    have : LIGHT_SPEED_POW_2 + V3.dot p p ≠ 0 := by linarith
    field_simp
  unfold vayStep
  dsimp only
  rw [← hpd, hal, pb]
  obtain ⟨x, hx⟩ : ∃ x, x = 1 + V3.dot p p / LIGHT_SPEED_POW_2 - V3.dot b b := ⟨_, rfl⟩
  rw [← hx]
  obtain ⟨X, hX⟩ : ∃ X, X = 1 / 2 * (x + Real.sqrt (x * x + 4 * (V3.dot b b + 0 ^ 2))) := ⟨_, rfl⟩
  rw [← hX]
  have hroot : Real.sqrt (x * x + 4 * (V3.dot b b + 0 ^ 2)) = 2 * X - x := by rw [hX]; ring
  have hsq := Real.sq_sqrt (show 0 ≤ x * x + 4 * (V3.dot b b + 0 ^ 2) by nlinarith)
  rw [hroot] at hsq
  have hq : X ^ 2 - x * X = V3.dot b b := by nlinarith
  have hy : 0 ≤ V3.dot p p / LIGHT_SPEED_POW_2 := by positivity
  have hXp : 0 < X := by
    rcases lt_or_ge 0 x with h | h
    · have := Real.sqrt_nonneg (x * x + 4 * (V3.dot b b + 0 ^ 2))
      linarith
    · have hB : 0 < V3.dot b b := by linarith
      have : |x| < Real.sqrt (x * x + 4 * (V3.dot b b + 0 ^ 2)) := by
        apply Real.lt_sqrt_of_sq_lt
        rw [sq_abs]; nlinarith
      have := neg_abs_le x
      linarith
  have hs2 : (1 / Real.sqrt X) ^ 2 = 1 / X := by rw [div_pow, one_pow, Real.sq_sqrt hXp.le]
  have hap : 0 < 1 / Real.sqrt X := by have := Real.sqrt_pos.2 hXp; positivity
  generalize 1 / Real.sqrt X = a at *
  have pt : V3.dot p (b.smul a) = 0 := by
    have : V3.dot p (b.smul a) = a * V3.dot p b := by unfold V3.dot V3.smul; ring
    rw [this, pb, mul_zero]
  have tt : V3.dot (b.smul a) (b.smul a) = V3.dot b b / X := by rw [dot_smul, hs2]; ring
  have tn : 0 ≤ V3.dot b b / X := by positivity
  have hne : 1 + V3.dot (b.smul a) (b.smul a) ≠ 0 := by rw [tt]; linarith
  obtain ⟨w, hw⟩ : ∃ w, w = ((p.add ((b.smul a).smul (V3.dot p (b.smul a)))).add (p.cross (b.smul a))).smul
    (1 / (1 + V3.dot (b.smul a) (b.smul a))) := ⟨_, rfl⟩
  have rot := vay_rotation p (b.smul a)
  rw [vay_last, ← hw, pt] at rot
  rw [← hw]
  rw [pt] at hw
  have ww : V3.dot w w * (1 + V3.dot b b / X) = V3.dot p p := by rw [← tt]; linarith
  have wX : 1 + V3.dot w w / LIGHT_SPEED_POW_2 = X := by
    have hC := c.ne'
    have e1 : V3.dot w w * (X + V3.dot b b) = V3.dot p p * X := by
      have : V3.dot w w * (X + V3.dot b b) = V3.dot w w * (1 + V3.dot b b / X) * X := by field_simp
      rw [this, ww]
    have e2 : V3.dot p p = (x - 1 + V3.dot b b) * LIGHT_SPEED_POW_2 := by rw [hx]; field_simp; ring
    rw [e2] at e1
    have hXB : X + V3.dot b b ≠ 0 := by linarith
    have e3 : V3.dot w w / LIGHT_SPEED_POW_2 * (X + V3.dot b b) = (x - 1 + V3.dot b b) * X := by
      rw [div_mul_eq_mul_div, e1]; field_simp
    apply mul_right_cancel₀ hXB
    linear_combination e3 - hq
  have ga : getGammaInv (V3.dot w w) = a := by
    have h1 := getGammaInv_sq (dot_self_nonneg w)
    have h2 := getGammaInv_pos (dot_self_nonneg w)
    have : getGammaInv (V3.dot w w) ^ 2 = a ^ 2 := by
      rw [h1, hs2, ← wX]
      have := dot_self_nonneg w
      have : LIGHT_SPEED_POW_2 + V3.dot w w ≠ 0 := by linarith
      field_simp
    exact (pow_left_inj₀ h2.le hap.le two_ne_zero).1 this
  rw [ga]
  have d2 : (1 + V3.dot (b.smul a) (b.smul a)) * (1 / (1 + V3.dot (b.smul a) (b.smul a))) = 1 := by field_simp
  generalize 1 / (1 + V3.dot (b.smul a) (b.smul a)) = s at *
  unfold V3.dot V3.smul V3.cross V3.add at *
  dsimp only at *
  rw [hw]
  constructor
  · dsimp only
    linear_combination s * pb
  · have pb' : p.c0 * (b.c0 * a) + p.c1 * (b.c1 * a) + p.c2 * (b.c2 * a) = 0 := by linear_combination a * pb
    ext <;> dsimp only
    · linear_combination p.c0 * d2 - s * b.c0 * a * pb'
    · linear_combination p.c1 * d2 - s * b.c1 * a * pb'
    · linear_combination p.c2 * d2 - s * b.c2 * a * pb'

/-- a momentum across the field is determined by its magnetic half step -/
theorem half_step_inj {u w b : V3} (hu : V3.dot u b = 0) (hw : V3.dot w b = 0)
    (h : w.add ((w.cross b).smul (getGammaInv (V3.dot w w))) = u.add ((u.cross b).smul (getGammaInv (V3.dot u u)))) :
    w = u := by
  have c := c2_pos
  have hb := dot_self_nonneg b
  have n : ∀ x : V3, V3.dot x b = 0 → V3.dot (x.add ((x.cross b).smul (getGammaInv (V3.dot x x))))
      (x.add ((x.cross b).smul (getGammaInv (V3.dot x x)))) =
        V3.dot x x + V3.dot x x * V3.dot b b * (LIGHT_SPEED_POW_2 / (LIGHT_SPEED_POW_2 + V3.dot x x)) := by
    intro x hx
    rw [← getGammaInv_sq (dot_self_nonneg x)]
    generalize getGammaInv (V3.dot x x) = g
    unfold V3.dot V3.add V3.smul V3.cross at *
    dsimp only
    linear_combination (-(g ^ 2)) * (x.c0 * b.c0 + x.c1 * b.c1 + x.c2 * b.c2) * hx
  have nw := n w hw
  rw [h, n u hu] at nw
  have uu := dot_self_nonneg u
  have ww := dot_self_nonneg w
  have huw : V3.dot u u = V3.dot w w := by
    have e : ∀ x : ℝ, 0 ≤ x → x + x * V3.dot b b * (LIGHT_SPEED_POW_2 / (LIGHT_SPEED_POW_2 + x))
        = x + LIGHT_SPEED_POW_2 * V3.dot b b * (1 - LIGHT_SPEED_POW_2 / (LIGHT_SPEED_POW_2 + x)) := by
      intro x hx
      have : LIGHT_SPEED_POW_2 + x ≠ 0 := by linarith
      field_simp
      ring
    rw [e _ uu, e _ ww] at nw
    have mono : ∀ x y : ℝ, 0 ≤ x → x < y → x + LIGHT_SPEED_POW_2 * V3.dot b b
        * (1 - LIGHT_SPEED_POW_2 / (LIGHT_SPEED_POW_2 + x)) < y + LIGHT_SPEED_POW_2 * V3.dot b b
        * (1 - LIGHT_SPEED_POW_2 / (LIGHT_SPEED_POW_2 + y)) := by
      intro x y hx hxy
      have : LIGHT_SPEED_POW_2 / (LIGHT_SPEED_POW_2 + y) ≤ LIGHT_SPEED_POW_2 / (LIGHT_SPEED_POW_2 + x) :=
        div_le_div_of_nonneg_left c.le (by linarith) (by linarith)
      have h2 : 0 ≤ LIGHT_SPEED_POW_2 * V3.dot b b := by positivity
      nlinarith
    rcases lt_trichotomy (V3.dot u u) (V3.dot w w) with h1 | h1 | h1
    · exact absurd nw (mono _ _ uu h1).ne
    · exact h1
    · exact absurd nw.symm (mono _ _ ww h1).ne
  rw [huw] at h
  generalize getGammaInv (V3.dot w w) = g at *
  unfold V3.add V3.smul V3.cross at h
  simp only [V3.mk.injEq] at h
  obtain ⟨a0, a1, a2⟩ := h
  have key : (w.c0 - u.c0) ^ 2 + (w.c1 - u.c1) ^ 2 + (w.c2 - u.c2) ^ 2 = 0 := by
    linear_combination (w.c0 - u.c0) * a0 + (w.c1 - u.c1) * a1 + (w.c2 - u.c2) * a2
  have s0 := sq_nonneg (w.c0 - u.c0)
  have s1 := sq_nonneg (w.c1 - u.c1)
  have s2 := sq_nonneg (w.c2 - u.c2)
  ext
  · have := pow_eq_zero_iff (two_ne_zero) |>.1 (show (w.c0 - u.c0) ^ 2 = 0 by linarith); linarith
  · have := pow_eq_zero_iff (two_ne_zero) |>.1 (show (w.c1 - u.c1) ^ 2 = 0 by linarith); linarith
  · have := pow_eq_zero_iff (two_ne_zero) |>.1 (show (w.c2 - u.c2) ^ 2 = 0 by linarith); linarith

theorem vayStep_back {u e b : V3} (hu : V3.dot u b = 0) (he : V3.dot e b = 0) :
    vayStep (vayStep u e b) e.neg b.neg = u := by
  obtain ⟨w0, w1⟩ := vayStep_perp hu he
  generalize vayStep u e b = w at *
  have nb : ∀ x : V3, V3.dot x b.neg = -V3.dot x b := by intro x; unfold V3.dot V3.neg; ring
  have ne : V3.dot e.neg b.neg = V3.dot e b := by unfold V3.dot V3.neg; ring
  obtain ⟨z0, z1⟩ := vayStep_perp (u := w) (e := e.neg) (b := b.neg) (by rw [nb, w0, neg_zero]) (by rw [ne, he])
  generalize vayStep w e.neg b.neg = z at *
  rw [nb, neg_eq_zero] at z0
  apply half_step_inj hu z0
  unfold V3.add V3.smul V3.cross V3.neg at *
  rw [V3.ext_iff] at w1 z1
  dsimp only at *
  obtain ⟨a0, a1, a2⟩ := w1
  obtain ⟨b0, b1, b2⟩ := z1
  ext <;> dsimp only
  · linear_combination a0 + b0
  · linear_combination a1 + b1
  · linear_combination a2 + b2

theorem vayCore_step (dt q m : ℝ) (hm : m ≠ 0) (e h v : V3) (hv : speedSq v < LIGHT_SPEED ^ 2)
    (ht : AboveThreshold v) :
    vayCore dt q m e h v = some (velocityOf true (vayStep (momentum true v) (e.smul (2 * (q * dt / (2 * m))))
      (h.smul (2 * MAGN_CONST * (q * dt / (2 * m)) ^ 3)))) := by
  have hm2 : ¬ (2 * m = 0) := by simpa using hm
  have := gamma_momentum hv ht
  rw [Option.map_eq_some_iff] at this
  obtain ⟨g, hg, hg'⟩ := this
  rw [vayCore_eq, if_neg hm2, hg, Option.map_some, hg']

/-- **C80**, partial (Vay pusher, velocity and electric field across the magnetic field). -/
theorem C80_vay_perp_partial (garbage : Bool) (dt q m : ℝ) (hm : m ≠ 0) (e h v v' : V3)
    (hv : speedSq v < LIGHT_SPEED ^ 2) (ht : AboveThreshold v) (ht' : AboveThreshold v')
    (hvh : V3.dot v h = 0) (heh : V3.dot e h = 0) (hp : push .vay garbage dt q m e h v = some v') :
    push .vay garbage (-dt) q m e h v' = some v ∧ push .vay garbage dt q m e h.neg v'.neg = some v.neg := by
  have a : push .vay garbage (-dt) q m e h v' = some v := by
    have hp : vayCore dt q m e h v = some v' := hp
    rw [vayCore_step dt q m hm e h v hv ht, Option.some.injEq] at hp
    have k : q * -dt / (2 * m) = -(q * dt / (2 * m)) := by ring
    show vayCore (-dt) q m e h v' = some v
    rw [vayCore_step (-dt) q m hm e h v' (by rw [← hp]; exact velocityOf_slow _) ht', k]
    have k2 : 2 * -(q * dt / (2 * m)) = -(2 * (q * dt / (2 * m))) := by ring
    have k3 : 2 * MAGN_CONST * (-(q * dt / (2 * m))) ^ 3 = -(2 * MAGN_CONST * (q * dt / (2 * m)) ^ 3) := by ring
    rw [k2, k3, neg_smul', neg_smul', ← hp, momentum_velocityOf, vayStep_back, velocityOf_momentum true v fun _ => hv]
    · unfold momentum
      rw [if_pos rfl]
      unfold V3.dot V3.smul at *
      dsimp only
      linear_combination (1 / Real.sqrt (1 - speedSq v / LIGHT_SPEED ^ 2)) *
        (2 * MAGN_CONST * (q * dt / (2 * m)) ^ 3) * hvh
    · unfold V3.dot V3.smul at *
      dsimp only
      linear_combination (2 * (q * dt / (2 * m))) * (2 * MAGN_CONST * (q * dt / (2 * m)) ^ 3) * heh
  refine ⟨a, ?_⟩
  rw [C81_time, a]; rfl

/-- Without an electric field a Vay step keeps the momentum along the magnetic field, and raises the speed unless the
momentum is across or along it. -/
theorem vay_gain {u b : V3} (hub : V3.dot u b ≠ 0) (hcr : 0 < V3.dot u u * V3.dot b b - V3.dot u b ^ 2) :
    V3.dot u u < V3.dot (vayMom u b) (vayMom u b) := by
  have c := c2_pos
  have key := vayMom_dot u b
  have hu := dot_self_nonneg u
  have hb := dot_self_nonneg b
  have hX := vayX_pos u b
  have hXd : vayX u b = vayX u b := rfl
  conv_rhs at hXd => unfold vayX
  dsimp only at hXd
  generalize vayX u b = X at *
  generalize V3.dot (vayMom u b) (vayMom u b) = N at *
  have hw : 0 < V3.dot u b ^ 2 := by positivity
  generalize V3.dot u u = U at *
  generalize V3.dot b b = B at *
  generalize V3.dot u b ^ 2 = W at *
  have hc1 : 1 < LIGHT_SPEED_POW_2 := by unfold LIGHT_SPEED_POW_2 LIGHT_SPEED; norm_num
  generalize LIGHT_SPEED_POW_2 = C at *
  have hCU : 0 < C + U := by linarith
  have hB : 0 < B := by
    rcases hb.eq_or_lt with h | h
    · rw [← h] at hcr; nlinarith
    · exact h
  obtain ⟨s, hsd⟩ : ∃ s, s = 1 + (U + (U * B - W) * (C / (C + U))) / C - B := ⟨_, rfl⟩
  rw [← hsd] at hXd
  have hroot : Real.sqrt (s * s + 4 * (B + W)) = 2 * X - s := by linarith
  have hsq := Real.sq_sqrt (show 0 ≤ s * s + 4 * (B + W) by nlinarith)
  rw [hroot] at hsq
  have hq2 : X ^ 2 - s * X = B + W := by linarith [hsq, (by ring : (2 * X - s) ^ 2 = 4 * (X ^ 2 - s * X) + s * s)]
  obtain ⟨X0, hX0⟩ : ∃ X0, X0 = (C + U) / C := ⟨_, rfl⟩
  have hX0p : 0 < X0 := by rw [hX0]; positivity
  have hX0C : X0 * C = C + U := by rw [hX0]; field_simp
  have hJ : C / (C + U) * X0 = 1 := by rw [hX0]; field_simp
  have hs0 : X0 ^ 2 - s * X0 - (B + W) = W / C - W := by
    have e1 : s = X0 + (U * B - W) / (C + U) - B := by rw [hsd, hX0]; field_simp; ring
    rw [e1, hX0]; field_simp; ring
  have hXX : X0 < X := by
    by_contra hle
    push Not at hle
    have h1 : W / C < W := by rw [div_lt_iff₀ (by linarith)]; nlinarith
    have h2 : X0 ^ 2 - s * X0 < X ^ 2 - s * X := by linarith
    -- the parabola is increasing to the right of its positive root
    have h3 : 0 ≤ (X0 - X) * (X0 + X - s) := by
      apply mul_nonneg (by linarith)
      have : 0 ≤ 2 * X - s := by rw [← hroot]; exact Real.sqrt_nonneg _
      linarith
    nlinarith
  -- N (X + B) = P X + W
  have hP : N * (X + B) = (U + (U * B - W) * (C / (C + U))) * X + W := by
    have e1 : N * (1 + B / X) * X = N * (X + B) := by field_simp
    rw [← e1, key, add_mul]
    congr 1
    field_simp
  have hgt : U * (X + B) < N * (X + B) := by
    rw [hP]
    have : (U * B - W) < (U * B - W) * (C / (C + U) * X) := by
      have hj : 0 < C / (C + U) := by positivity
      have : 1 < C / (C + U) * X := by rw [← hJ]; exact mul_lt_mul_of_pos_left hXX hj
      nlinarith
    nlinarith
  exact lt_of_mul_lt_mul_right hgt (by linarith)

theorem vayMom_along (u b : V3) : V3.dot (vayMom u b) b = V3.dot u b := by
  unfold vayMom
  dsimp only
  generalize 1 / Real.sqrt _ = a
  have hb := dot_self_nonneg (b.smul a)
  have hne : 1 + V3.dot (b.smul a) (b.smul a) ≠ 0 := by linarith
  have d2 : (1 + V3.dot (b.smul a) (b.smul a)) * (1 / (1 + V3.dot (b.smul a) (b.smul a))) = 1 := by field_simp
  generalize 1 / (1 + V3.dot (b.smul a) (b.smul a)) = s at *
  unfold V3.dot V3.smul at *
  dsimp only
  linear_combination (u.c0 * b.c0 + u.c1 * b.c1 + u.c2 * b.c2) * d2

theorem speed_lt_of_momentum {u w : V3} (h : V3.dot u u < V3.dot w w) :
    speedSq (velocityOf true u) < speedSq (velocityOf true w) := by
  have c := c2_pos
  have hu := dot_self_nonneg u
  have hw := dot_self_nonneg w
  unfold velocityOf
  rw [if_pos rfl, if_pos rfl, speedSq_eq, speedSq_eq, dot_smul, dot_smul, getGammaInv_sq hu, getGammaInv_sq hw,
    div_mul_eq_mul_div, div_mul_eq_mul_div, div_lt_div_iff₀ (by linarith) (by linarith)]
  nlinarith [mul_lt_mul_of_pos_left h (mul_pos c c)]

/-- **C80 is violated by the Vay pusher**: in a magnetic field alone, for every velocity neither across nor along the
field, the push raises the speed, and the push back raises it again instead of returning to the old velocity. -/
theorem C80_vay_violated (garbage : Bool) (dt q m : ℝ) (hm : m ≠ 0) (hq : q ≠ 0) (hdt : dt ≠ 0) (h v v' v'' : V3)
    (hv : speedSq v < LIGHT_SPEED ^ 2) (ht : AboveThreshold v) (ht' : AboveThreshold v')
    (h1 : V3.dot v h ≠ 0) (h2 : V3.cross v h ≠ V3.zero)
    (hp : push .vay garbage dt q m V3.zero h v = some v')
    (hp' : push .vay garbage (-dt) q m V3.zero h v' = some v'') :
    speedSq v < speedSq v' ∧ speedSq v' < speedSq v'' := by
  have hm2 : ¬ (2 * m = 0) := by simpa using hm
  have step : ∀ (t : ℝ) (x y : V3), speedSq x < LIGHT_SPEED ^ 2 → AboveThreshold x →
      vayCore t q m V3.zero h x = some y → y = velocityOf true (vayMom (momentum true x)
        (h.smul (2 * MAGN_CONST * (q * t / (2 * m)) ^ 3))) := by
    intro t x y hx hxt hxy
    have := gamma_momentum hx hxt
    rw [Option.map_eq_some_iff] at this
    obtain ⟨g, hg, hg'⟩ := this
    have k : MAGN_CONST * (q * t / (2 * m)) * (2 * (q * t / (2 * m))) * (q * t / (2 * m))
      = 2 * MAGN_CONST * (q * t / (2 * m)) ^ 3 := by ring
    rw [vay_zeroE t q m hm2, hg, Option.map_some, Option.some.injEq, hg', k] at hxy
    rw [← hxy]; rfl
  have s1 := step dt v v' hv ht hp
  have hv' : speedSq v' < LIGHT_SPEED ^ 2 := by rw [s1]; exact velocityOf_slow _
  have s2 := step (-dt) v' v'' hv' ht' hp'
  have hβ : 2 * MAGN_CONST * (q * dt / (2 * m)) ^ 3 ≠ 0 := by
    have : MAGN_CONST ≠ 0 := MAGN_CONST_pos.ne'
    have : q * dt / (2 * m) ≠ 0 := div_ne_zero (mul_ne_zero hq hdt) hm2
    positivity
  have hβ' : 2 * MAGN_CONST * (q * -dt / (2 * m)) ^ 3 = -(2 * MAGN_CONST * (q * dt / (2 * m)) ^ 3) := by ring
  rw [hβ', neg_smul'] at s2
  generalize 2 * MAGN_CONST * (q * dt / (2 * m)) ^ 3 = β at *
  -- momenta
  obtain ⟨g, hgp, hg⟩ : ∃ g, 0 < g ∧ momentum true v = v.smul g := by
    refine ⟨1 / Real.sqrt (1 - speedSq v / LIGHT_SPEED ^ 2), ?_, by unfold momentum; rw [if_pos rfl]⟩
    have : 0 < LIGHT_SPEED ^ 2 := c2_pos
    have : speedSq v / LIGHT_SPEED ^ 2 < 1 := by rw [div_lt_one this]; exact hv
    have := Real.sqrt_pos.2 (show 0 < 1 - speedSq v / LIGHT_SPEED ^ 2 by linarith)
    positivity
  have hub : V3.dot (momentum true v) (h.smul β) ≠ 0 := by
    have : V3.dot (v.smul g) (h.smul β) = g * β * V3.dot v h := by unfold V3.dot V3.smul; ring
    rw [hg, this]; exact mul_ne_zero (mul_ne_zero hgp.ne' hβ) h1
  have hcr : 0 < V3.dot (momentum true v) (momentum true v) * V3.dot (h.smul β) (h.smul β)
      - V3.dot (momentum true v) (h.smul β) ^ 2 := by
    have e : V3.dot (v.smul g) (v.smul g) * V3.dot (h.smul β) (h.smul β)
      - V3.dot (v.smul g) (h.smul β) ^ 2 = (g * β) ^ 2 * V3.dot (V3.cross v h) (V3.cross v h) := by
      unfold V3.dot V3.smul V3.cross; ring
    rw [hg, e]
    apply mul_pos (by positivity)
    rcases (dot_self_nonneg (V3.cross v h)).eq_or_lt with h0 | h0
    · exfalso
      apply h2
      generalize V3.cross v h = x at *
      unfold V3.dot at h0
      have a0 : x.c0 = 0 := by nlinarith [sq_nonneg x.c0, sq_nonneg x.c1, sq_nonneg x.c2]
      have a1 : x.c1 = 0 := by nlinarith [sq_nonneg x.c0, sq_nonneg x.c1, sq_nonneg x.c2]
      have a2 : x.c2 = 0 := by nlinarith [sq_nonneg x.c0, sq_nonneg x.c1, sq_nonneg x.c2]
      ext
      · exact a0
      · exact a1
      · exact a2
    · exact h0
  have g1 := vay_gain hub hcr
  have al := vayMom_along (momentum true v) (h.smul β)
  have m1 : momentum true v' = vayMom (momentum true v) (h.smul β) := by rw [s1, momentum_velocityOf]
  rw [← m1] at g1 al
  have nb : V3.dot (momentum true v') (h.smul β).neg = -V3.dot (momentum true v') (h.smul β) := by
    unfold V3.dot V3.neg; ring
  have nn : V3.dot (h.smul β).neg (h.smul β).neg = V3.dot (h.smul β) (h.smul β) := by unfold V3.dot V3.neg; ring
  have g2 : V3.dot (momentum true v') (momentum true v') < V3.dot (vayMom (momentum true v') (h.smul β).neg)
      (vayMom (momentum true v') (h.smul β).neg) := by
    apply vay_gain
    · rw [nb, al]; exact neg_ne_zero.2 hub
    · rw [nb, nn, al, neg_sq]
      have := dot_self_nonneg (h.smul β)
      nlinarith
  constructor
  · have := speed_lt_of_momentum g1
    rwa [velocityOf_momentum true v fun _ => hv, velocityOf_momentum true v' fun _ => hv'] at this
  · rw [s2]
    have := speed_lt_of_momentum g2
    rwa [velocityOf_momentum true v' fun _ => hv'] at this

/-! ## Concrete cases -/

/-- C80, C81: the hypotheses of the theorems are met by a particle at half the speed of light in crossed fields. -/
example : speedSq ⟨0, 90000000, -120000000⟩ < LIGHT_SPEED ^ 2 ∧ AboveThreshold ⟨0, 90000000, -120000000⟩ ∧
    V3.dot ⟨0, 90000000, -120000000⟩ ⟨2, 0, 0⟩ = 0 ∧ V3.dot ⟨0, 5, 7⟩ ⟨2, 0, 0⟩ = 0 ∧
    isRelativistic .borisAdaptive true ⟨0, 90000000, -120000000⟩ =
      isRelativistic .borisAdaptive false ⟨0, 90000000, -120000000⟩ := by
  have ht : AboveThreshold ⟨0, 90000000, -120000000⟩ := by
    refine ⟨Or.inl rfl, Or.inr ?_, Or.inr ?_⟩
    · unfold MNZL; rw [abs_of_nonneg] <;> norm_num
    · unfold MNZL; rw [abs_of_nonpos] <;> norm_num
  refine ⟨by unfold speedSq LIGHT_SPEED; norm_num, ht, by unfold V3.dot; norm_num, by unfold V3.dot; norm_num, ?_⟩
  unfold isRelativistic useRel
  rw [snap_eq ht, if_pos (by unfold REL_LIMIT_POW_2; norm_num), if_pos (by unfold REL_LIMIT_POW_2; norm_num)]

end Verif
