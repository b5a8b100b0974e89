import Verif.Geometry

/-!
# Absorbing layer

Models `Geometry::set_pml` (src/geometry.cpp:56-107) and the zero initialisation of `sigma`
(src/geometry.cpp:27-30).
-/

namespace Verif

/-- Arguments of `set_pml`: relative widths of the layers at the left, right and outer wall, and the two
conductivities. -/
structure PmlCfg where
  l1 : ℝ
  l2 : ℝ
  l3 : ℝ
  s1 : ℝ
  s2 : ℝ

/-- `lenght_sigma_left`, src/geometry.cpp:60 -/
noncomputable def lenLeft (G : Geom) (c : PmlCfg) : ℝ := G.dz * (⌊(G.nz : ℝ) * c.l1⌋ : ℝ)

/-- `lenght_sigma_right`, src/geometry.cpp:63 -/
noncomputable def lenRight (G : Geom) (c : PmlCfg) : ℝ := G.dz * (⌊(G.nz : ℝ) * c.l2⌋ : ℝ)

/-- `lenght_sigma_extern`, src/geometry.cpp:66 -/
noncomputable def lenExt (G : Geom) (c : PmlCfg) : ℝ := G.dr * (⌊(G.nr : ℝ) * c.l3⌋ : ℝ)

/-- `sigma1 + (sigma2 - sigma1) / pow(L, 2) * pow(x, 2)`, e.g. src/geometry.cpp:74-75; with `L = 0` the
value is infinite or not a number: `none`. -/
noncomputable def pmlProfile (c : PmlCfg) (L x : ℝ) : Option ℝ :=
  if L = 0 then none else some (c.s1 + (c.s2 - c.s1) / L ^ 2 * x ^ 2)

/-- First condition of the inner test, src/geometry.cpp:100:
`r_size - dr*(i+1) < lenght_sigma_extern*dz*k/lenght_sigma_left`.  For a zero divisor the quotient is
infinite (true) unless it is `0/0` (false). -/
noncomputable def pmlCond1 (G : Geom) (c : PmlCfg) (i k : ℕ) : Prop :=
  if lenLeft G c = 0 then 0 < lenExt G c * G.dz * k
  else G.r_size - G.dr * (i + 1) < lenExt G c * G.dz * k / lenLeft G c

/-- Second condition, src/geometry.cpp:101:
`r_size - dr*i <= lenght_sigma_extern/lenght_sigma_right*(z_size - dz*k)`.  For a zero divisor the product
is infinite if both factors are positive (true), and not a number or negative otherwise (false). -/
noncomputable def pmlCond2 (G : Geom) (c : PmlCfg) (i k : ℕ) : Prop :=
  if lenRight G c = 0 then 0 < lenExt G c ∧ 0 < G.z_size - G.dz * k
  else G.r_size - G.dr * i ≤ lenExt G c / lenRight G c * (G.z_size - G.dz * k)

open Classical in
/-- First block of `set_pml`, src/geometry.cpp:69-90, on the zero array: element `[i][k]` -/
noncomputable def pmlFirst (G : Geom) (c : PmlCfg) (i k : ℕ) : Option ℝ :=
  if c.l1 = 0 ∧ c.l2 = 0 ∧ c.l3 ≠ 0 then
    if G.r_size - G.dr * i ≤ lenExt G c then
      pmlProfile c (lenExt G c) (G.dr * (i + 1) - G.r_size + lenExt G c)
    else some 0
  else
    if G.z_size - G.dz * k < lenRight G c then
      pmlProfile c (lenRight G c) (G.dz * (k + 1) - G.z_size + lenRight G c)
    else if G.dz * k < lenLeft G c then
      pmlProfile c (lenLeft G c) (lenLeft G c - G.dz * k)
    else some 0

open Classical in
/-- `Geometry::set_pml`, src/geometry.cpp:56-107: element `[i][k]` of `sigma` afterwards. Every element is
assigned independently of the others, so the order of the loops does not matter. -/
noncomputable def setPml (G : Geom) (c : PmlCfg) (i k : ℕ) : Option ℝ :=
  if c.l3 ≠ 0 ∧ G.r_size - G.dr * i ≤ lenExt G c ∧ pmlCond1 G c i k ∧ pmlCond2 G c i k then
    pmlProfile c (lenExt G c) (G.dr * (i + 1) - G.r_size + lenExt G c)
  else pmlFirst G c i k

end Verif
