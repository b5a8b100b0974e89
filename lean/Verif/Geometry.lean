import Mathlib.Data.Real.Basic
import Mathlib.Algebra.Order.Floor.Ring
import Mathlib.Algebra.Order.Archimedean.Real.Basic
import Mathlib.Tactic.Linarith
import Mathlib.Tactic.Ring
import Mathlib.Tactic.FieldSimp
import Mathlib.Tactic.Positivity
import Mathlib.Tactic.NormNum

/-!
# Geometry: grid, constants and the geometry macros

Models `include/geometry.h`, `include/constant.h` and the constructor in `src/geometry.cpp`.
-/

namespace Verif

/-- `constant::PI`, include/constant.h:10 (the decimal literal, not the mathematical π). -/
noncomputable def PI : ℝ := 3.1415926535897932

/-- `constant::EPSILON0`, include/constant.h:12. -/
noncomputable def EPSILON0 : ℝ := 8.85e-12

/-- `constant::EL_MASS`, include/constant.h:14. -/
noncomputable def EL_MASS : ℝ := 9.1e-31

/-- `constant::EL_CHARGE`, include/constant.h:16. -/
noncomputable def EL_CHARGE : ℝ := 1.6e-19

/-- `constant::LIGHT_SPEED`, include/constant.h:18. -/
noncomputable def LIGHT_SPEED : ℝ := 3.0e8

/-- `constant::MAGN_CONST`, include/constant.h:20. -/
noncomputable def MAGN_CONST : ℝ := 1.26e-6

/-- `constant::MNZL`, include/constant.h:25. -/
noncomputable def MNZL : ℝ := 1e-15

theorem PI_pos : 0 < PI := by unfold PI; norm_num
theorem PI_ne : PI ≠ 0 := PI_pos.ne'
theorem EPSILON0_pos : 0 < EPSILON0 := by unfold EPSILON0; norm_num
theorem EL_MASS_pos : 0 < EL_MASS := by unfold EL_MASS; norm_num
theorem EL_CHARGE_pos : 0 < EL_CHARGE := by unfold EL_CHARGE; norm_num
theorem LIGHT_SPEED_pos : 0 < LIGHT_SPEED := by unfold LIGHT_SPEED; norm_num
theorem MAGN_CONST_pos : 0 < MAGN_CONST := by unfold MAGN_CONST; norm_num
theorem MNZL_pos : 0 < MNZL := by unfold MNZL; norm_num

/-- The grid part of class `Geometry`, include/geometry.h:5-14.  `epsilon` and `sigma`
are modelled with the field arrays. -/
structure Geom where
  r_size : ℝ
  z_size : ℝ
  nr : ℕ
  nz : ℕ
  dr : ℝ
  dz : ℝ

/-- `Geometry::Geometry(rs, zs, ngr, ngz)`, src/geometry.cpp:8-15 with
`get_dr`/`get_dz` (45-53): `dr = r_size/(n_grid_r-1)`.  With one grid node the C++ divides by
zero; that is `none` here. -/
noncomputable def mkGeom (rs zs : ℝ) (ngr ngz : ℕ) : Option Geom :=
  if (ngr : ℝ) - 1 = 0 ∨ (ngz : ℝ) - 1 = 0 then none
  else some { r_size := rs, z_size := zs, nr := ngr, nz := ngz,
              dr := rs / ((ngr : ℝ) - 1), dz := zs / ((ngz : ℝ) - 1) }

/-- Macro `CELL_VOLUME(i, dr, dz)`, include/geometry.h:33. -/
noncomputable def CELL_VOLUME (i dr dz : ℝ) : ℝ := PI * dz * dr * dr * 2 * i

/-- Macro `CYL_RNG_VOL(z, r1, r2)`, include/geometry.h:36. -/
noncomputable def CYL_RNG_VOL (z r1 r2 : ℝ) : ℝ := PI * z * (r2 * r2 - r1 * r1)

/-- Macro `CYL_VOL(z, r)`, include/geometry.h:39. -/
noncomputable def CYL_VOL (z r : ℝ) : ℝ := PI * z * r * r / 4

/-- Macro `CELL_NUMBER(position, dx)`, include/geometry.h:44: `(int)ceil(position/dx) - 1`.
Every use in /repo is the whole right-hand side of an assignment, so the missing
parentheses of the macro do not matter. -/
noncomputable def CELL_NUMBER (position dx : ℝ) : ℤ := ⌈position / dx⌉ - 1

/-- The "TODO: workaround" that follows every `CELL_NUMBER`, e.g. src/particles.cpp:134-135. -/
def clamp0 (i : ℤ) : ℤ := if i < 0 then 0 else i

/-- Spec-side well-formedness of a grid: what the constructor yields for positive sizes and at
least two nodes per direction. -/
structure Geom.Valid (G : Geom) : Prop where
  nr_ge : 2 ≤ G.nr
  nz_ge : 2 ≤ G.nz
  dr_pos : 0 < G.dr
  dz_pos : 0 < G.dz
  r_size_eq : G.r_size = G.dr * ((G.nr : ℝ) - 1)
  z_size_eq : G.z_size = G.dz * ((G.nz : ℝ) - 1)

/-- The constructor establishes well-formedness. -/
theorem mkGeom_valid {rs zs : ℝ} {ngr ngz : ℕ} (hr : 0 < rs) (hz : 0 < zs)
    (hnr : 2 ≤ ngr) (hnz : 2 ≤ ngz) :
    ∃ G, mkGeom rs zs ngr ngz = some G ∧ G.Valid ∧ G.r_size = rs ∧ G.z_size = zs ∧
      G.nr = ngr ∧ G.nz = ngz := by
  have h1 : (2 : ℝ) ≤ ngr := by exact_mod_cast hnr
  have h2 : (2 : ℝ) ≤ ngz := by exact_mod_cast hnz
  have h1' : (0 : ℝ) < (ngr : ℝ) - 1 := by linarith
  have h2' : (0 : ℝ) < (ngz : ℝ) - 1 := by linarith
  refine ⟨_, if_neg (by push Not; exact ⟨h1'.ne', h2'.ne'⟩), ?_, rfl, rfl, rfl, rfl⟩
  exact ⟨hnr, hnz, div_pos hr h1', div_pos hz h2', by field_simp, by field_simp⟩

/-- Cell numbering: `CELL_NUMBER` is the unique `i` with `i*dx < x ≤ (i+1)*dx`. -/
theorem CELL_NUMBER_spec {x dx : ℝ} (hdx : 0 < dx) :
    (CELL_NUMBER x dx : ℝ) * dx < x ∧ x ≤ ((CELL_NUMBER x dx : ℝ) + 1) * dx := by
  unfold CELL_NUMBER
  have h1 := Int.ceil_lt_add_one (x / dx)
  have h2 := Int.le_ceil (x / dx)
  push_cast
  constructor
  · have : ((⌈x / dx⌉ : ℝ) - 1) < x / dx := by linarith
    calc ((⌈x / dx⌉ : ℝ) - 1) * dx < x / dx * dx := by nlinarith
      _ = x := by field_simp
  · calc x = x / dx * dx := by field_simp
      _ ≤ ((⌈x / dx⌉ : ℝ) - 1 + 1) * dx := by nlinarith

theorem CELL_NUMBER_unique {x dx : ℝ} (hdx : 0 < dx) (i : ℤ)
    (h1 : (i : ℝ) * dx < x) (h2 : x ≤ ((i : ℝ) + 1) * dx) : CELL_NUMBER x dx = i := by
  unfold CELL_NUMBER
  have : ⌈x / dx⌉ = i + 1 := by
    rw [Int.ceil_eq_iff]
    push_cast
    constructor
    · rw [lt_div_iff₀ hdx]; linarith
    · rw [div_le_iff₀ hdx]; exact h2
  omega

end Verif
