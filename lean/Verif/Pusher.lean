import Verif.Particle
import Mathlib.Analysis.SpecialFunctions.Pow.Real
import Mathlib.Analysis.SpecialFunctions.Sqrt

/-!
# Velocity pushers

Models `lib::get_gamma`, `lib::get_gamma_inv` (src/lib.cpp:46-79),
`Particles::boris_pusher_single` (src/particles.cpp:1025-1150) in its three compile-time modes and
`Particles::vay_pusher_single` (src/particles.cpp:1152-1254), after the fields have been
interpolated.  The `isnan`/`isinf` guards never fire on reals.
-/

namespace Verif

namespace V3
/-- `tv_add`, lib/tinyvec3d/tinyvec3d.cpp:64-68 -/
def add (a b : V3) : V3 := ⟨a.c0 + b.c0, a.c1 + b.c1, a.c2 + b.c2⟩
/-- `tv_product`, lib/tinyvec3d/tinyvec3d.cpp:92-96 -/
def smul (x : ℝ) (a : V3) : V3 := ⟨a.c0 * x, a.c1 * x, a.c2 * x⟩
/-- `tv_dot`, lib/tinyvec3d/tinyvec3d.cpp:55-62 -/
def dot (a b : V3) : ℝ := a.c0 * b.c0 + a.c1 * b.c1 + a.c2 * b.c2
/-- the zero vector -/
def zero : V3 := ⟨0, 0, 0⟩
/-- cross product (spec side) -/
def cross (a b : V3) : V3 :=
  ⟨a.c1 * b.c2 - a.c2 * b.c1, a.c2 * b.c0 - a.c0 * b.c2, a.c0 * b.c1 - a.c1 * b.c0⟩
end V3

/-- `LIGHT_SPEED_POW_2`, src/lib.cpp:8, src/particles.cpp:16 -/
noncomputable def LIGHT_SPEED_POW_2 : ℝ := LIGHT_SPEED ^ 2

/-- `REL_LIMIT_POW_2`, src/particles.cpp:10-13 -/
noncomputable def REL_LIMIT_POW_2 : ℝ := (5e7 : ℝ) ^ 2

/-- `lib::get_gamma`, src/lib.cpp:46-70. `none` is `exit(1)`; the division by zero at the speed of
light gives infinity, which the code replaces by `1e100`. -/
noncomputable def getGamma (sq_velocity : ℝ) : Option ℝ :=
  let beta := sq_velocity / LIGHT_SPEED_POW_2
  if beta > 1 then none
  else if 1 - beta = 0 then some 1e100
  else some (1 / Real.sqrt (1 - beta))

/-- `lib::get_gamma_inv`, src/lib.cpp:72-80: `pow(1 + v²/c², -0.5)`. -/
noncomputable def getGammaInv (sq_velocity : ℝ) : ℝ :=
  (1 + sq_velocity / LIGHT_SPEED_POW_2) ^ (-(1 / 2) : ℝ)

/-- rounding of very small velocity components, src/particles.cpp:1066-1068 -/
noncomputable def snap1 (x : ℝ) : ℝ := if |x| < MNZL then 0 else x

/-- src/particles.cpp:1066-1068, 1186-1188 -/
noncomputable def snap (v : V3) : V3 := ⟨snap1 v.c0, snap1 v.c1, snap1 v.c2⟩

/-- The magnetic rotation, src/particles.cpp:1108-1128. -/
noncomputable def borisRotate (vtmp b : V3) : V3 :=
  let const2 := 2 / (1 + V3.dot b b)
  ⟨vtmp.c0 + const2 * ((vtmp.c1 - vtmp.c0 * b.c2 + vtmp.c2 * b.c0) * b.c2
      - (vtmp.c2 + vtmp.c0 * b.c1 - vtmp.c1 * b.c0) * b.c1),
   vtmp.c1 + const2 * (-(vtmp.c0 + vtmp.c1 * b.c2 - vtmp.c2 * b.c1) * b.c2
      + (vtmp.c2 + vtmp.c0 * b.c1 - vtmp.c1 * b.c0) * b.c0),
   vtmp.c2 + const2 * ((vtmp.c0 + vtmp.c1 * b.c2 - vtmp.c2 * b.c1) * b.c1
      - (vtmp.c1 - vtmp.c0 * b.c2 + vtmp.c2 * b.c0) * b.c0)⟩

/-- `boris_pusher_single` with `use_rel` given, src/particles.cpp:1055-1146.  `e`, `h` are the
interpolated fields.  A zero mass makes `const1` non-finite. -/
noncomputable def borisCore (use_rel : Bool) (dt charge mass : ℝ) (e h vel : V3) : Option V3 :=
  if 2 * mass = 0 then none else
  let const1 := charge * dt / (2 * mass)
  let e := e.smul const1
  let b := h.smul (MAGN_CONST * const1)
  let velocity := snap vel
  (if use_rel then (getGamma (V3.dot velocity velocity)).map (fun g => velocity.smul g)
    else some velocity).map fun velocity =>
  let velocity := velocity.add e
  let b := if use_rel then b.smul (getGammaInv (V3.dot velocity velocity)) else b
  let velocity := borisRotate velocity b
  let velocity := velocity.add e
  if use_rel then velocity.smul (getGammaInv (V3.dot velocity velocity)) else velocity

/-- The pushers that can be configured, configure.ac:143-155. -/
inductive PusherMode
  | borisClassic | borisRelativistic | borisAdaptive | vay

/-- `use_rel` of the adaptive mode, src/particles.cpp:1074-1076: it is set to `true` for fast
particles and otherwise never written, so its value is whatever the stack held (`garbage`). -/
noncomputable def useRel (garbage : Bool) (vel : V3) : Bool :=
  if (snap vel).c0 ^ 2 + (snap vel).c1 ^ 2 + (snap vel).c2 ^ 2 > REL_LIMIT_POW_2 then true
  else garbage

/-- `vay_pusher_single`, src/particles.cpp:1178-1249. -/
noncomputable def vayCore (dt charge mass : ℝ) (e h vel : V3) : Option V3 :=
  if 2 * mass = 0 then none else
  let const1 := charge * dt / (2 * mass)
  let e := e.smul (2 * const1)
  let b := h.smul (MAGN_CONST * const1)
  let velocity := snap vel
  (getGamma (V3.dot velocity velocity)).map fun gamma =>
  let velocity := velocity.smul gamma
  -- part I
  let vtmp := velocity
  let b := b.smul (2 * const1)
  let velocity := velocity.add e
  let b := b.smul const1
  let gamma := getGammaInv (V3.dot vtmp vtmp)
  let velocity : V3 :=
    ⟨velocity.c0 + gamma * (vtmp.c1 * b.c2 - vtmp.c2 * b.c1),
     velocity.c1 + gamma * (vtmp.c2 * b.c0 - vtmp.c0 * b.c2),
     velocity.c2 + gamma * (vtmp.c0 * b.c1 - vtmp.c1 * b.c0)⟩
  let gamma := getGammaInv (V3.dot velocity velocity)
  let alpha := 1 / gamma / gamma
  let B2 := V3.dot b b
  -- part II
  let s := alpha - B2
  let us2 := (V3.dot velocity b) ^ 2
  let alpha := 1 / Real.sqrt (1 / 2 * (s + Real.sqrt (s * s + 4 * (B2 + us2))))
  let b := b.smul alpha
  let s := 1 / (1 + V3.dot b b)
  let alpha := V3.dot velocity b
  let vtmp : V3 :=
    ⟨s * (velocity.c0 + alpha * b.c0 + b.c2 * velocity.c1 - b.c1 * velocity.c2),
     s * (velocity.c1 + alpha * b.c1 + b.c0 * velocity.c2 - b.c2 * velocity.c0),
     s * (velocity.c2 + alpha * b.c2 + b.c1 * velocity.c0 - b.c0 * velocity.c1)⟩
  vtmp.smul (getGammaInv (V3.dot vtmp vtmp))

/-- The velocity push `step_v` calls, src/particles.cpp:1303-1307. -/
noncomputable def push (mode : PusherMode) (garbage : Bool) (dt charge mass : ℝ) (e h vel : V3) :
    Option V3 :=
  match mode with
  | .borisClassic => borisCore false dt charge mass e h vel
  | .borisRelativistic => borisCore true dt charge mass e h vel
  | .borisAdaptive => borisCore (useRel garbage vel) dt charge mass e h vel
  | .vay => vayCore dt charge mass e h vel

end Verif
