import Verif.Geometry
import Verif.ParMem

/-!
# The field arrays and the programs that work on them

Models the constructors and update loops of `src/field.cpp`, `src/eField.cpp`, `src/hField.cpp`,
`src/current.cpp` and the material tables of `src/geometry.cpp` as parallel regions of
load/store programs (`Verif/ParMem.lean`).

Simplifications:
* A two-dimensional loop `for i … for k …` under `omp for` distributes rows over threads and runs
  each row in order; here every `(i,k)` is a separate iteration, which allows more interleavings.
* Division by zero is not a fault of these programs (doubles give inf/nan); theorems that depend
  on a quotient assume `Geom.Valid`, positive permittivity and non-negative conductivity.
* `double**` row pointers are not modelled, an array is a rectangular allocation.
-/

namespace Verif

/-- The two-dimensional arrays of the field solver: `field_r/phi/z` of the electric field
(include/field.h), of the magnetic field, the magnetic `field_*_half_time` (include/hField.h), the
currents (include/current.h) and `Geometry::epsilon`, `Geometry::sigma` (include/geometry.h). -/
inductive Arr
  | er | ephi | ez | hr | hphi | hz | hrh | hphih | hzh | jr | jphi | jz | eps | sig
  deriving DecidableEq

/-- The element `arr[i][k]`. -/
structure Loc where
  arr : Arr
  i : ℤ
  k : ℤ
  deriving DecidableEq

/-- number of rows: src/field.cpp:13-15, src/hField.cpp:9-11, src/current.cpp:9-18,
src/geometry.cpp:17,22 -/
def Arr.rows (G : Geom) : Arr → ℤ
  | .hphih | .hzh => G.nr - 1
  | _ => G.nr

/-- row length: src/field.cpp:19-24, src/hField.cpp:16-25, src/current.cpp:20-32,
src/geometry.cpp:19-25 -/
def Arr.cols (G : Geom) : Arr → ℤ
  | .hrh | .hphih => G.nz - 1
  | _ => G.nz

/-- The element is inside its allocation. -/
def Alloc (G : Geom) (l : Loc) : Prop :=
  0 ≤ l.i ∧ l.i < l.arr.rows G ∧ 0 ≤ l.k ∧ l.k < l.arr.cols G

instance (G : Geom) : DecidablePred (Alloc G) := fun l => by unfold Alloc; infer_instance

/-- iterations of a loop nest -/
abbrev YeeLoop := ℤ × ℤ → Task Loc

/-- `for (i = ilo; i < ihi; i++) for (k = klo; k < khi; k++) body(i,k)` under `omp for`. -/
def par2 (ilo ihi klo khi : ℤ) (body : ℤ → ℤ → Prog Loc Unit) : YeeLoop := fun t =>
  if ilo ≤ t.1 ∧ t.1 < ihi ∧ klo ≤ t.2 ∧ t.2 < khi then body t.1 t.2 else .ret ()

/-- `for (i = lo; i < hi; i++) body(i)` under `omp for` -/
def parI (lo hi : ℤ) (body : ℤ → Prog Loc Unit) : YeeLoop := fun t =>
  if lo ≤ t.1 ∧ t.1 < hi ∧ t.2 = 0 then body t.1 else .ret ()

/-- `for (k = lo; k < hi; k++) body(k)` under `omp for` -/
def parK (lo hi : ℤ) (body : ℤ → Prog Loc Unit) : YeeLoop := fun t =>
  if t.1 = 0 ∧ lo ≤ t.2 ∧ t.2 < hi then body t.2 else .ret ()

open Prog (rd wr)

/-! ## Magnetic field update -/

/-- body of the two `H_r` loops, src/hField.cpp:110-116 and 123-127 -/
noncomputable def hrBody (G : Geom) (dt : ℝ) (i k : ℤ) : Prog Loc Unit := do
  let a ← rd ⟨.ephi, i, k + 1⟩
  let b ← rd ⟨.ephi, i, k⟩
  let alpha_t := dt * (a - b) / (G.dz * MAGN_CONST)
  let h ← rd ⟨.hr, i, k⟩
  wr ⟨.hrh, i, k⟩ (h + alpha_t / 2)
  let h' ← rd ⟨.hr, i, k⟩
  wr ⟨.hr, i, k⟩ (h' + alpha_t)

/-- src/hField.cpp:134-140 -/
noncomputable def hphiBody (G : Geom) (dt : ℝ) (i k : ℤ) : Prog Loc Unit := do
  let z1 ← rd ⟨.ez, i + 1, k⟩
  let z0 ← rd ⟨.ez, i, k⟩
  let r1 ← rd ⟨.er, i, k + 1⟩
  let r0 ← rd ⟨.er, i, k⟩
  let alpha_t := dt * ((z1 - z0) / G.dr - (r1 - r0) / G.dz) / MAGN_CONST
  let h ← rd ⟨.hphi, i, k⟩
  wr ⟨.hphih, i, k⟩ (h + alpha_t / 2)
  let h' ← rd ⟨.hphi, i, k⟩
  wr ⟨.hphi, i, k⟩ (h' + alpha_t)

/-- src/hField.cpp:147-154 -/
noncomputable def hzBody (G : Geom) (dt : ℝ) (i k : ℤ) : Prog Loc Unit := do
  let p1 ← rd ⟨.ephi, i + 1, k⟩
  let p0 ← rd ⟨.ephi, i, k⟩
  let alpha_t := dt * ((p1 + p0) / (2 * G.dr * ((i : ℝ) + 0.5)) + (p1 - p0) / G.dr) / MAGN_CONST
  let h ← rd ⟨.hz, i, k⟩
  wr ⟨.hzh, i, k⟩ (h - alpha_t / 2)
  let h' ← rd ⟨.hz, i, k⟩
  wr ⟨.hz, i, k⟩ (h' - alpha_t)

/-- `HField::calc_field`, src/hField.cpp:93-157. -/
noncomputable def hRegion (G : Geom) (dt : ℝ) : Region Loc (ℤ × ℤ) :=
  [ parK 0 (G.nz - 1) (fun k => hrBody G dt (G.nr - 1) k),
    par2 0 (G.nr - 1) 0 (G.nz - 1) (hrBody G dt),
    par2 0 (G.nr - 1) 0 (G.nz - 1) (hphiBody G dt),
    par2 0 (G.nr - 1) 0 (G.nz - 1) (hzBody G dt) ]

/-! ## Electric field update -/

/-- `koef_e`, src/eField.cpp:105-108 (and 121-124, 135-138, 158-161): arguments are
`epsilon[i][k]`, `sigma[i][k]`, `delta_t`. -/
noncomputable def koefE (eps sig dt : ℝ) : ℝ :=
  (2 * eps * EPSILON0 - sig * dt) / (2 * eps * EPSILON0 + sig * dt)

/-- `koef_h`, src/eField.cpp:110 (and 125, 139, 162) -/
noncomputable def koefH (eps sig dt : ℝ) : ℝ :=
  2 * dt / (2 * eps * EPSILON0 + sig * dt)

/-- the `E_r` assignment, src/eField.cpp:112-113 and 141-142 -/
noncomputable def erStore (G : Geom) (i k : ℤ) (ke kh : ℝ) : Prog Loc Unit := do
  let e ← rd ⟨.er, i, k⟩
  let j ← rd ⟨.jr, i, k⟩
  let h1 ← rd ⟨.hphi, i, k⟩
  let h0 ← rd ⟨.hphi, i, k - 1⟩
  wr ⟨.er, i, k⟩ (e * ke - (j + (h1 - h0) / G.dz) * kh)

/-- the `E_phi` assignment, src/eField.cpp:144-146 -/
noncomputable def ephiStore (G : Geom) (i k : ℤ) (ke kh : ℝ) : Prog Loc Unit := do
  let e ← rd ⟨.ephi, i, k⟩
  let j ← rd ⟨.jphi, i, k⟩
  let r1 ← rd ⟨.hr, i, k⟩
  let r0 ← rd ⟨.hr, i, k - 1⟩
  let z1 ← rd ⟨.hz, i, k⟩
  let z0 ← rd ⟨.hz, i - 1, k⟩
  wr ⟨.ephi, i, k⟩ (e * ke - (j - (r1 - r0) / G.dz + (z1 - z0) / G.dr) * kh)

/-- the `E_z` assignment off axis, src/eField.cpp:148-151 and 164-167 (the code loads
`h_phi[i][k]` and `h_phi[i-1][k]` twice; once here) -/
noncomputable def ezStore (G : Geom) (i k : ℤ) (ke kh : ℝ) : Prog Loc Unit := do
  let e ← rd ⟨.ez, i, k⟩
  let j ← rd ⟨.jz, i, k⟩
  let h1 ← rd ⟨.hphi, i, k⟩
  let h0 ← rd ⟨.hphi, i - 1, k⟩
  wr ⟨.ez, i, k⟩ (e * ke - (j - (h1 - h0) / G.dr - (h1 + h0) / (2 * G.dr * (i : ℝ))) * kh)

/-- loop `E_r` at `i = 0`, src/eField.cpp:104-113 -/
noncomputable def erAxisBody (G : Geom) (dt : ℝ) (k : ℤ) : Prog Loc Unit := do
  let ep ← rd ⟨.eps, 0, k⟩
  let sg ← rd ⟨.sig, 0, k⟩
  erStore G 0 k (koefE ep sg dt) (koefH ep sg dt)

/-- loop `E_z` on the axis, src/eField.cpp:120-128 -/
noncomputable def ezAxisBody (G : Geom) (dt : ℝ) (k : ℤ) : Prog Loc Unit := do
  let ep ← rd ⟨.eps, 0, k⟩
  let sg ← rd ⟨.sig, 0, k⟩
  let e ← rd ⟨.ez, 0, k⟩
  let j ← rd ⟨.jz, 0, k⟩
  let h ← rd ⟨.hphi, 0, k⟩
  wr ⟨.ez, 0, k⟩ (e * koefE ep sg dt - (j - 4 / G.dr * h) * koefH ep sg dt)

/-- inner loop, src/eField.cpp:135-151 -/
noncomputable def eInnerBody (G : Geom) (dt : ℝ) (i k : ℤ) : Prog Loc Unit := do
  let ep ← rd ⟨.eps, i, k⟩
  let sg ← rd ⟨.sig, i, k⟩
  erStore G i k (koefE ep sg dt) (koefH ep sg dt)
  ephiStore G i k (koefE ep sg dt) (koefH ep sg dt)
  ezStore G i k (koefE ep sg dt) (koefH ep sg dt)

/-- loop `E_z` at `k = 0`, src/eField.cpp:157-167 -/
noncomputable def ezWallBody (G : Geom) (dt : ℝ) (i : ℤ) : Prog Loc Unit := do
  let ep ← rd ⟨.eps, i, 0⟩
  let sg ← rd ⟨.sig, i, 0⟩
  ezStore G i 0 (koefE ep sg dt) (koefH ep sg dt)

/-- `EField::calc_field`, src/eField.cpp:85-170. -/
noncomputable def eRegion (G : Geom) (dt : ℝ) : Region Loc (ℤ × ℤ) :=
  [ parK 1 (G.nz - 1) (erAxisBody G dt),
    parK 0 (G.nz - 1) (ezAxisBody G dt),
    par2 1 (G.nr - 1) 1 (G.nz - 1) (eInnerBody G dt),
    parI 1 (G.nr - 1) (ezWallBody G dt) ]

/-! ## Current reset -/

/-- `Current::reset_j`, src/current.cpp:125-135. -/
noncomputable def resetJRegion (G : Geom) : Region Loc (ℤ × ℤ) :=
  [ par2 0 G.nr 0 G.nz (fun i k => do
      wr ⟨.jr, i, k⟩ 0
      wr ⟨.jphi, i, k⟩ 0
      wr ⟨.jz, i, k⟩ 0) ]

/-! ## Constructors and initialisers -/

/-- `Geometry::Geometry`, src/geometry.cpp:27-30: `sigma` is zeroed. -/
noncomputable def sigmaRegion (G : Geom) : Region Loc (ℤ × ℤ) :=
  [ par2 0 G.nr 0 G.nz (fun i k => wr ⟨.sig, i, k⟩ 0) ]

/-- `Geometry::set_epsilon`, src/geometry.cpp:33-39. -/
noncomputable def epsilonRegion (G : Geom) : Region Loc (ℤ × ℤ) :=
  [ par2 0 G.nr 0 G.nz (fun i k => wr ⟨.eps, i, k⟩ 1) ]

/-- `HField::HField`, src/hField.cpp:27-44. -/
noncomputable def hCtorRegion (G : Geom) : Region Loc (ℤ × ℤ) :=
  [ par2 0 (G.nr - 1) 0 (G.nz - 1) (fun i k => do
      wr ⟨.hr, i, k⟩ 0
      wr ⟨.hphi, i, k⟩ 0
      wr ⟨.hz, i, k⟩ 0
      wr ⟨.hrh, i, k⟩ 0
      wr ⟨.hphih, i, k⟩ 0
      wr ⟨.hzh, i, k⟩ 0),
    parK 0 (G.nz - 1) (fun k => do
      wr ⟨.hr, G.nr - 1, k⟩ 0
      wr ⟨.hrh, G.nr - 1, k⟩ 0) ]

/-- `EField::boundary_conditions`, src/eField.cpp:46-82. -/
noncomputable def boundaryRegion (G : Geom) : Region Loc (ℤ × ℤ) :=
  [ parI 0 (G.nr - 1) (fun i => do
      wr ⟨.er, i, 0⟩ 0
      wr ⟨.er, i, G.nz - 1⟩ 0),
    parK 0 G.nz (fun k => do
      wr ⟨.ephi, 0, k⟩ 0
      wr ⟨.ephi, G.nr - 1, k⟩ 0),
    parI 0 G.nr (fun i => do
      wr ⟨.ephi, i, 0⟩ 0
      wr ⟨.ephi, i, G.nz - 1⟩ 0),
    parK 0 (G.nz - 1) (fun k => do
      wr ⟨.ez, 0, k⟩ 0
      wr ⟨.ez, G.nr - 1, k⟩ 0) ]

/-- `EField::set_homogeneous_efield`, src/eField.cpp:34-44. -/
noncomputable def homogeneousERegion (G : Geom) (er ephi ez : ℝ) : Region Loc (ℤ × ℤ) :=
  [ par2 0 (G.nr - 1) 0 (G.nz - 1) (fun i k => do
      wr ⟨.er, i, k⟩ er
      wr ⟨.ephi, i, k⟩ ephi
      wr ⟨.ez, i, k⟩ ez) ]

/-- `HField::set_homogeneous_h`, src/hField.cpp:64-90. -/
noncomputable def homogeneousHRegion (G : Geom) (hr hphi hz : ℝ) : Region Loc (ℤ × ℤ) :=
  [ par2 0 G.nr 0 (G.nz - 1) (fun i k => do
      wr ⟨.hr, i, k⟩ hr
      wr ⟨.hrh, i, k⟩ hr),
    par2 0 (G.nr - 1) 0 (G.nz - 1) (fun i k => do
      wr ⟨.hphi, i, k⟩ hphi
      wr ⟨.hphih, i, k⟩ hphi),
    par2 0 (G.nr - 1) 0 G.nz (fun i k => do
      wr ⟨.hz, i, k⟩ hz
      wr ⟨.hzh, i, k⟩ hz) ]

/-- `Current::Current`, src/current.cpp:36-62. -/
noncomputable def currentCtorRegion (G : Geom) : Region Loc (ℤ × ℤ) :=
  [ par2 0 (G.nr - 1) 0 (G.nz - 1) (fun i k => do
      wr ⟨.jr, i, k⟩ 0
      wr ⟨.jphi, i, k⟩ 0
      wr ⟨.jz, i, k⟩ 0),
    parI 0 (G.nr - 1) (fun i => wr ⟨.jr, i, G.nz - 1⟩ 0),
    parK 0 G.nz (fun k => wr ⟨.jphi, G.nr - 1, k⟩ 0),
    parI 0 G.nr (fun i => wr ⟨.jphi, i, G.nz - 1⟩ 0),
    parK 0 (G.nz - 1) (fun k => wr ⟨.jz, G.nr - 1, k⟩ 0) ]

/-- Everything the set-up of a run does to the field arrays, in program order:
`Parameters::init_geometry` (src/parameters.cpp:212-245: Geometry constructor, `set_epsilon`),
`LoadInitParam::init_fields` (src/loadInitParam.cpp:250-259: EField and HField constructors,
`boundary_conditions`, `set_homogeneous_efield(0,0,0)`, `set_homogeneous_h(0,0,0)`) and the Current
constructor.  `set_pml` is the separate `pmlRegion`. -/
noncomputable def setupRegion (G : Geom) : Region Loc (ℤ × ℤ) :=
  sigmaRegion G ++ epsilonRegion G ++ hCtorRegion G ++ boundaryRegion G ++
    homogeneousERegion G 0 0 0 ++ homogeneousHRegion G 0 0 0 ++ currentCtorRegion G

/-- An assignment of conductivities to some nodes.  `Geometry::set_pml` (src/geometry.cpp:56-107)
is modelled in `Verif/Pml.lean` as such a table; its loops are sequential. -/
noncomputable def pmlRegion (G : Geom) (tbl : ℤ → ℤ → Option ℝ) : Region Loc (ℤ × ℤ) :=
  [ par2 0 G.nr 0 G.nz (fun i k => match tbl i k with
      | some v => wr ⟨.sig, i, k⟩ v
      | none => .ret ()) ]

/-! ## Current deposition as seen by the field arrays -/

/-- one call `inc_j_r` / `inc_j_phi` / `inc_j_z` (src/current.cpp:107-123): `arr[i][k] += v` -/
structure JCall where
  arr : Arr
  i : ℤ
  k : ℤ
  v : ℝ

/-- The increment on memory; the `omp critical` section makes it atomic, and it faults outside
the allocation or on an element that was never written. -/
noncomputable def incMem (G : Geom) (m : Mem Loc) (c : JCall) : Option (Mem Loc) :=
  if Alloc G ⟨c.arr, c.i, c.k⟩ then
    (m ⟨c.arr, c.i, c.k⟩).map (fun x => Function.update m ⟨c.arr, c.i, c.k⟩ (some (x + c.v)))
  else none

/-- A sequence of increments. -/
noncomputable def incsMem (G : Geom) (l : List JCall) (m : Mem Loc) : Option (Mem Loc) :=
  l.foldlM (incMem G) m

/-- the call is one of the three that exist -/
def JCall.Ok (G : Geom) (c : JCall) : Prop :=
  (c.arr = .jr ∨ c.arr = .jphi ∨ c.arr = .jz) ∧ 0 ≤ c.i ∧ c.i < G.nr ∧ 0 ≤ c.k ∧ c.k < G.nz

/-- One time step as the field arrays see it, src/loadInitParam.cpp:473-540: magnetic update,
`reset_j`, the increments made by the particles in some order, electric update.  Particles read the
fields but do not write them. -/
def FieldStep (G : Geom) (dt : ℝ) (calls : List JCall) (m0 m4 : Mem Loc) : Prop :=
  ∃ m1 m2 m3, RegionRun (Alloc G) (hRegion G dt) m0 m1 ∧
    RegionRun (Alloc G) (resetJRegion G) m1 m2 ∧
    (∃ l : List JCall, l.Perm calls ∧ incsMem G l m2 = some m3) ∧
    RegionRun (Alloc G) (eRegion G dt) m3 m4

/-- Some part of the step can fault from `m0`. -/
def FieldStepFault (G : Geom) (dt : ℝ) (calls : List JCall) (m0 : Mem Loc) : Prop :=
  RegionFault (Alloc G) (hRegion G dt) m0 ∨
  ∃ m1, RegionRun (Alloc G) (hRegion G dt) m0 m1 ∧
    (RegionFault (Alloc G) (resetJRegion G) m1 ∨
     ∃ m2, RegionRun (Alloc G) (resetJRegion G) m1 m2 ∧
      ((∃ l : List JCall, l.Perm calls ∧ incsMem G l m2 = none) ∨
       ∃ m3, (∃ l : List JCall, l.Perm calls ∧ incsMem G l m2 = some m3) ∧
        RegionFault (Alloc G) (eRegion G dt) m3))

/-- A run of the field solver: `calls n` are the increments of step `n`. -/
inductive FieldRun (G : Geom) (dt : ℝ) (calls : ℕ → List JCall) : ℕ → Mem Loc → Mem Loc → Prop
  | zero (m) : FieldRun G dt calls 0 m m
  | succ (n : ℕ) (m0 m1 m2 : Mem Loc) (h : FieldRun G dt calls n m0 m1)
      (hs : FieldStep G dt (calls n) m1 m2) : FieldRun G dt calls (n + 1) m0 m2

end Verif
