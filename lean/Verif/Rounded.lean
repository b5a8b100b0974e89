import Verif.Particle
import Mathlib.Analysis.SpecialFunctions.Pow.Real

/-!
# The motion of a macroparticle with the arithmetic of the machine

The other modules take `double` as exact real numbers.  Here every computed value may differ from the exact one by `EPS` times the
size of the terms it is computed from, and by `ETA` for underflow.  The default build has `-ffast-math -O3 -march=native`
(configure.ac:98), so that the compiler may fuse, reorder and replace divisions by products with reciprocals, and the rounded
results are not determined by the source; the bound allows for all of it within one of the expressions below.  RoundedIeee.lean
shows that IEEE 754 arithmetic in the order of the source is a special case.  Overflow and NaN are not modelled.

The momentum of the pushers is arbitrary here, so that nothing is assumed of fields, charges and earlier velocities.
-/

namespace Verif

/-- Relative error of a computed value; that of a single operation in binary64 is `2^-53`. -/
noncomputable def EPS : ℝ := 1 / 2 ^ 48

/-- Absolute error by underflow; that of a single operation in binary64 is `2^-1075`, a square root makes it `2^-537`. -/
noncomputable def ETA : ℝ := 1 / 2 ^ 500

/-- `y` is a computed value of `x`, which is computed from terms of size `m` together. -/
def RoundsTo (m x y : ℝ) : Prop := |y - x| ≤ EPS * m + ETA

/-- One direction of the grid: number of nodes, length and computed distance of nodes -/
structure GridR where
  n : ℕ
  size : ℝ
  d : ℝ

/-- `get_dr`, `get_dz`, src/geometry.cpp:45-53 -/
def GridR.Made (g : GridR) : Prop := RoundsTo (g.size / ((g.n : ℝ) - 1)) (g.size / ((g.n : ℝ) - 1)) g.d

/-- Division by the relativistic factor at the end of the relativistic pushers, src/particles.cpp:1134-1147, 1243-1248, with
`get_gamma_inv`, src/lib.cpp:72-80: the velocity from a momentum per mass.  The factor is not subnormal for sums of squares in the
range of `double`. -/
def VelocityR (u v : V3) : Prop := ∃ s γ, RoundsTo u.sq u.sq s ∧
  |γ - 1 / √(1 + s / LIGHT_SPEED ^ 2)| ≤ EPS * (1 / √(1 + s / LIGHT_SPEED ^ 2)) ∧
  RoundsTo |u.c0 * γ| (u.c0 * γ) v.c0 ∧ RoundsTo |u.c1 * γ| (u.c1 * γ) v.c1 ∧ RoundsTo |u.c2 * γ| (u.c2 * γ) v.c2

/-- `half_step_pos_single`, src/particles.cpp:1270-1284 -/
def HalfStepR (dt : ℝ) (v p p' : V3) : Prop := ∃ h, RoundsTo |dt / 2| (dt / 2) h ∧
  RoundsTo (|p.c0| + |v.c0 * h|) (p.c0 + v.c0 * h) p'.c0 ∧ RoundsTo (|p.c1| + |v.c1 * h|) (p.c1 + v.c1 * h) p'.c1 ∧
  RoundsTo (|p.c2| + |v.c2 * h|) (p.c2 + v.c2 * h) p'.c2

/-- `back_position_to_rz_single`, src/particles.cpp:1286-1294 -/
def BackR (p p' : V3) : Prop :=
  RoundsTo √(p.c0 * p.c0 + p.c1 * p.c1) √(p.c0 * p.c0 + p.c1 * p.c1) p'.c0 ∧ p'.c1 = 0 ∧ p'.c2 = p.c2

/-- A far wall, src/particles.cpp:1322-1323, 1326-1340 (reflection), src/bunch.cpp:130-139 (absorption): one coordinate and
whether the macroparticle stays alive -/
def FarWallR (bunch : Bool) (g : GridR) (x x' : ℝ) (lives : Prop) : Prop := ∃ w, RoundsTo (g.size + g.d) (g.size - g.d / 2) w ∧
  ((w < x ∧ (if bunch then x' = x ∧ ¬ lives else RoundsTo (2 * |w| + |x|) (w * 2 - x) x' ∧ lives)) ∨ (¬ w < x ∧ x' = x ∧ lives))

/-- A near wall, src/particles.cpp:1324-1325, 1342-1352, src/bunch.cpp:132-133, 141-152 -/
def NearWallR (g : GridR) (x x' : ℝ) : Prop := ∃ h, RoundsTo g.d (g.d / 2) h ∧
  ((x < h ∧ RoundsTo (g.d + |x|) (g.d - x) x') ∨ (¬ x < h ∧ x' = x))

/-- `reflection_single`, src/particles.cpp:1318-1353, src/bunch.cpp:126-153: the tests of the two coordinates do not depend on each
other. -/
def ReflectR (bunch : Bool) (gr gz : GridR) (p p' : V3) (lives : Prop) : Prop := ∃ x z l1 l2,
  FarWallR bunch gr p.c0 x l1 ∧ FarWallR bunch gz p.c2 z l2 ∧ NearWallR gr x p'.c0 ∧ NearWallR gz z p'.c2 ∧ p'.c1 = p.c1 ∧
  (lives ↔ l1 ∧ l2)

/-- One cycle of a live macroparticle, src/particles.cpp:1296-1316 (`step_v`), 1355-1373 (`move_half_reflect` and
`full_current_distribution`): `p` before it, `m` between the two halves, `p'` after it -/
def MovedR (bunch : Bool) (gr gz : GridR) (dt : ℝ) (p m p' : V3) (lives : Prop) : Prop := ∃ u v a b c,
  VelocityR u v ∧ HalfStepR dt v p a ∧ BackR a m ∧ HalfStepR dt v m b ∧ ReflectR bunch gr gz b c lives ∧ BackR c p'

/-- Any number of cycles that a macroparticle survives -/
inductive ReachesR (bunch : Bool) (gr gz : GridR) (dt : ℝ) (p0 : V3) : ℕ → V3 → Prop
  | start : ReachesR bunch gr gz dt p0 0 p0
  | step (n p m p' lives) : ReachesR bunch gr gz dt p0 n p → MovedR bunch gr gz dt p m p' lives → lives →
      ReachesR bunch gr gz dt p0 (n + 1) p'

/-- `CELL_NUMBER(x, dx)`, include/geometry.h:44: `(int)ceil(x / dx) - 1`, computed -/
def CellR (g : GridR) (x : ℝ) (i : ℤ) : Prop := ∃ q, RoundsTo (|x| / g.d) (x / g.d) q ∧ i = ⌈q⌉ - 1

/-- `CELL_NUMBER(x - 0.5 * dx, dx)` and the replacement of negative numbers, src/eField.cpp:225-230, 252-257, src/hField.cpp:180-185,
207-212, 239-244 -/
def ShiftedCellR (g : GridR) (x : ℝ) (i : ℤ) : Prop := ∃ q, RoundsTo ((|x| + g.d) / g.d) ((x - g.d / 2) / g.d) q ∧
  i = max 0 (⌈q⌉ - 1)

end Verif
