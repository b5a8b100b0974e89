import Verif.Grid

/-!
# Macroparticle state

The per-particle slices of the arrays of class `Particles` (include/particles.h).
-/

namespace Verif

/-- A `double[3]`.  For positions the components are (r, azimuthal displacement, z); for
velocities (v_r, v_phi, v_z).  lib/tinyvec3d. -/
@[ext] structure V3 where
  c0 : ℝ
  c1 : ℝ
  c2 : ℝ

namespace V3
/-- squared Euclidean length (`tinyvec3d::tv_squared_sum` and the inlined sums). -/
def sq (v : V3) : ℝ := v.c0 * v.c0 + v.c1 * v.c1 + v.c2 * v.c2
end V3

/-- Slice `i` of the arrays `pos`, `pos_old`, `vel`, `charge_array`, `mass_array`, `is_alive`,
`sin_theta_r`, `cos_theta_r` of class `Particles` (include/particles.h, src/particles.cpp:35-54). -/
structure Particle where
  alive : Bool
  pos : V3
  posOld : V3
  vel : V3
  charge : ℝ
  mass : ℝ
  sinTheta : ℝ
  cosTheta : ℝ

end Verif
