import Verif.Rounded
import Verif.Pusher

/-!
# The relativistic push with the arithmetic of the machine (C108)

The pusher of Boris with its conversions between velocity and momentum, and a whole cycle of one macroparticle, when every computed
value may differ from the exact one as in Rounded.lean.  The scaled fields that the pusher adds and rotates by are arbitrary.
-/

namespace Verif

/-- Length of a vector (spec side) -/
noncomputable def V3.len (v : V3) : ℝ := √v.sq

/-- `lib::get_gamma`, src/lib.cpp:45-70, of a computed square; `none` is `exit(1)` or, for a negative difference, NaN.  The
difference of numbers up to one has an error of `EPS`. -/
def GammaR (s : ℝ) (out : Option ℝ) : Prop := ∃ β, RoundsTo |s / LIGHT_SPEED ^ 2| (s / LIGHT_SPEED ^ 2) β ∧
  ((1 < β ∧ out = none) ∨ (β ≤ 1 ∧ ∃ d, |d - (1 - β)| ≤ EPS ∧ ((d < 0 ∧ out = none) ∨ (d = 0 ∧ out = some 1e100) ∨
    (0 < d ∧ ∃ g, |g - 1 / √d| ≤ EPS * (1 / √d) ∧ out = some g))))

/-- `get_gamma` of a velocity, src/particles.cpp:1066-1068, 1085-1086 -/
def VelocityGammaR (v : V3) (out : Option ℝ) : Prop := ∃ s, RoundsTo (snap v).sq (snap v).sq s ∧ GammaR s out

/-- `tv_product`, lib/tinyvec3d/tinyvec3d.cpp:92-96 -/
def ScaledR (g : ℝ) (v v' : V3) : Prop := RoundsTo |v.c0 * g| (v.c0 * g) v'.c0 ∧ RoundsTo |v.c1 * g| (v.c1 * g) v'.c1 ∧
  RoundsTo |v.c2 * g| (v.c2 * g) v'.c2

/-- `tv_add`, lib/tinyvec3d/tinyvec3d.cpp:64-68 -/
def AddR (v e v' : V3) : Prop := RoundsTo (|v.c0| + |e.c0|) (v.c0 + e.c0) v'.c0 ∧ RoundsTo (|v.c1| + |e.c1|) (v.c1 + e.c1) v'.c1 ∧
  RoundsTo (|v.c2| + |e.c2|) (v.c2 + e.c2) v'.c2

/-- The magnetic rotation, src/particles.cpp:1108-1128; the factor is not subnormal for squares in the range of `double`. -/
def RotateR (v b v' : V3) : Prop := ∃ q, |q - 2 / (1 + b.sq)| ≤ EPS * (2 / (1 + b.sq)) ∧
  RoundsTo (|v.c0| + q * ((|v.c1| + |v.c0 * b.c2| + |v.c2 * b.c0|) * |b.c2| + (|v.c2| + |v.c0 * b.c1| + |v.c1 * b.c0|) * |b.c1|))
    (v.c0 + q * ((v.c1 - v.c0 * b.c2 + v.c2 * b.c0) * b.c2 - (v.c2 + v.c0 * b.c1 - v.c1 * b.c0) * b.c1)) v'.c0 ∧
  RoundsTo (|v.c1| + q * ((|v.c0| + |v.c1 * b.c2| + |v.c2 * b.c1|) * |b.c2| + (|v.c2| + |v.c0 * b.c1| + |v.c1 * b.c0|) * |b.c0|))
    (v.c1 + q * (-(v.c0 + v.c1 * b.c2 - v.c2 * b.c1) * b.c2 + (v.c2 + v.c0 * b.c1 - v.c1 * b.c0) * b.c0)) v'.c1 ∧
  RoundsTo (|v.c2| + q * ((|v.c0| + |v.c1 * b.c2| + |v.c2 * b.c1|) * |b.c1| + (|v.c1| + |v.c0 * b.c2| + |v.c2 * b.c0|) * |b.c0|))
    (v.c2 + q * ((v.c0 + v.c1 * b.c2 - v.c2 * b.c1) * b.c1 - (v.c1 - v.c0 * b.c2 + v.c2 * b.c0) * b.c0)) v'.c2

/-- The factor that divides the magnetic field, `get_gamma_inv`, src/particles.cpp:1100-1103, src/lib.cpp:72-80 -/
def GammaInvR (u : V3) (g : ℝ) : Prop := ∃ s, RoundsTo u.sq u.sq s ∧
  |g - 1 / √(1 + s / LIGHT_SPEED ^ 2)| ≤ EPS * (1 / √(1 + s / LIGHT_SPEED ^ 2))

/-- `boris_pusher_single` of the relativistic mode, src/particles.cpp:1025-1150, with scaled fields `e` and `b` (lines 1062-1063): the
momentum `u` before the division by the relativistic factor and the new velocity `v'` -/
def PushR (e b v u v' : V3) : Prop := ∃ g u1 u2 g' b' u3, VelocityGammaR v (some g) ∧ ScaledR g (snap v) u1 ∧ AddR u1 e u2 ∧
  GammaInvR u2 g' ∧ ScaledR g' b b' ∧ RotateR u2 b' u3 ∧ AddR u3 e u ∧ VelocityR u v'

/-- `back_velocity_to_rz_single`, src/particles.cpp:1005-1016, with the sine of `back_position_to_rz_single` (line 1291) from the
position `c` and its computed radius `r`; nothing is required of the cosine of large angles, where the difference loses digits -/
def BackVelocityR (c : V3) (r : ℝ) (v v' : V3) : Prop := ∃ s k, RoundsTo |c.c1 / r| (c.c1 / r) s ∧
  (s ^ 2 ≤ 3 / 4 → |k - √(1 - s * s)| ≤ EPS * √(1 - s * s)) ∧
  RoundsTo (|k * v.c0| + |s * v.c1|) (k * v.c0 - s * v.c1) v'.c0 ∧ RoundsTo (|s * v.c0| + |k * v.c1|) (s * v.c0 + k * v.c1) v'.c1 ∧
  v'.c2 = v.c2

/-- The signs of the velocity in `reflection_single`, src/particles.cpp:1326-1352: any of them may change. -/
def SignsR (v v' : V3) : Prop := (v'.c0 = v.c0 ∨ v'.c0 = -v.c0) ∧ v'.c1 = v.c1 ∧ (v'.c2 = v.c2 ∨ v'.c2 = -v.c2)

/-- One cycle of a live macroparticle with position and velocity: `step_v`, `move_half_reflect` and `back_velocity_to_rz`,
src/particles.cpp:1296-1373; compare `MovedR`. -/
def CycleR (bunch : Bool) (gr gz : GridR) (dt : ℝ) (e b p v p' v' : V3) (lives : Prop) : Prop := ∃ u v1 v2 a m h c,
  PushR e b v u v1 ∧ HalfStepR dt v1 p a ∧ BackR a m ∧ HalfStepR dt v1 m h ∧ ReflectR bunch gr gz h c lives ∧ BackR c p' ∧
  SignsR v1 v2 ∧ BackVelocityR c p'.c0 v2 v'

/-- Any number of cycles that a macroparticle survives; the scaled fields of cycle `n` are `e n` and `b n`. -/
inductive RunsR (bunch : Bool) (gr gz : GridR) (dt : ℝ) (e b : ℕ → V3) (p0 v0 : V3) : ℕ → V3 → V3 → Prop
  | start : RunsR bunch gr gz dt e b p0 v0 0 p0 v0
  | step (n p v p' v' lives) : RunsR bunch gr gz dt e b p0 v0 n p v → CycleR bunch gr gz dt (e n) (b n) p v p' v' lives → lives →
      RunsR bunch gr gz dt e b p0 v0 (n + 1) p' v'

end Verif
