import Verif.Rounded
import Verif.YeeEnergy

/-!
# The field solver with the arithmetic of the machine

As in Rounded.lean, every stored value may differ from the exact value of its expression by `EPS` times the size of the terms of
the expression, and by `ETA` for underflow.  This covers fused and reordered operations and products with reciprocals, which the
build with `-ffast-math -O3 -march=native` (configure.ac:98) permits.  FieldRoundedIeee.lean shows that IEEE 754 arithmetic in the
order of the source is a special case.  Overflow and NaN are not modelled.

The steps of the grid, of the time and the tables of the medium are the stored `double`s.  The currents are those the electric
update reads; their own rounding is a parameter of the theorem.  The updates within one array do not read each other's results, so
the order of the threads is not modelled again here (C01 to C04 do it).
-/

namespace Verif

/-- Size of the terms of the magnetic update, src/hField.cpp:111-112, 123-124, 135-138, 149-152: every difference is bounded by the
sum of the absolute values -/
noncomputable def sizeE (G : Geom) (e : Fields) : Arr → ℤ → ℤ → ℝ
  | .hr, i, k => (|e .ephi i (k + 1)| + |e .ephi i k|) / G.dz
  | .hphi, i, k => (|e .ez (i + 1) k| + |e .ez i k|) / G.dr + (|e .er i (k + 1)| + |e .er i k|) / G.dz
  | .hz, i, k => (|e .ephi (i + 1) k| + |e .ephi i k|) / (2 * G.dr * ((i : ℝ) + 0.5))
      + (|e .ephi (i + 1) k| + |e .ephi i k|) / G.dr
  | _, _, _ => 0

/-- Size of the terms of the electric update without the current, src/eField.cpp:112-113, 128-129, 141-151, 164-167 -/
noncomputable def sizeH (G : Geom) (F : Fields) : Arr → ℤ → ℤ → ℝ
  | .er, i, k => (|F .hphi i k| + |F .hphi i (k - 1)|) / G.dz
  | .ephi, i, k => (|F .hr i k| + |F .hr i (k - 1)|) / G.dz + (|F .hz i k| + |F .hz (i - 1) k|) / G.dr
  | .ez, i, k => if i = 0 then 4 / G.dr * |F .hphi i k| else
      (|F .hphi i k| + |F .hphi (i - 1) k|) / G.dr + (|F .hphi i k| + |F .hphi (i - 1) k|) / (2 * G.dr * (i : ℝ))
  | _, _, _ => 0

/-- What the electric update reads: the new magnetic field, the old electric field and the currents `j` of the step -/
def midR (j : Fields) (x x' : Fields) : Fields
  | .hr => x' .hr
  | .hphi => x' .hphi
  | .hz => x' .hz
  | .jr => j .jr
  | .jphi => j .jphi
  | .jz => j .jz
  | a => x a

/-- One step of the fields with rounding, src/hField.cpp:93-158 and src/eField.cpp:85-170: every updated node of the magnetic field,
then of the electric field, is a computed value of the expression of the source (`hStep` and `eStep`, YeeStep.lean).  The first
coefficient of the electric update is at most 1, so that its error is bounded by `EPS` without a factor. The nodes of the electric
field at the walls, the magnetic nodes outside the loops and the tables of the medium are not written. -/
structure FieldStepR (G : Geom) (dt : ℝ) (j x x' : Fields) : Prop where
  mag : ∀ a i k, HNode G a i k →
    RoundsTo (|x a i k| + dt / MAGN_CONST * sizeE G x a i k) (hStep G dt x a i k) (x' a i k)
  elec : ∀ a i k, ENode G a i k →
    RoundsTo (|x a i k| + koefH (x .eps i k) (x .sig i k) dt * (|currentOf j a i k| + sizeH G x' a i k))
      (eStep G dt (midR j x x') a i k) (x' a i k)
  wall : ∀ a i k, a = .er ∨ a = .ephi ∨ a = .ez → ¬ ENode G a i k → x' a i k = x a i k
  still : ∀ a i k, a = .hr ∨ a = .hphi ∨ a = .hz → ¬ HNode G a i k → x' a i k = x a i k
  medium : x' .eps = x .eps ∧ x' .sig = x .sig

end Verif
