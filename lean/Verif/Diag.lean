import Verif.Deposit
import Verif.Pusher

/-!
# Density and temperature diagnostics

Models `ParticlesDensity` (src/particlesDensity.cpp), `Temperature` (src/temperature.cpp),
`TemperatureClassic` (src/temperatureClassic.cpp) and `lib::bilinear_interpolation` (src/lib.cpp:222-247).
-/

namespace Verif

/-- Conversion of an `int` to `unsigned int` (32 bits) and unsigned arithmetic, src/particlesDensity.cpp:72-73 -/
def u32 (x : ℤ) : ℤ := x % 2 ^ 32

/-! ## Memory -/

/-- A `double**` whose pointer array has `ptrs` entries and whose rows have `cols` doubles, src/particlesDensity.cpp:6, 18
-/
structure ArrSize where
  ptrs : ℕ
  cols : ℕ

/-- Constructor, src/particlesDensity.cpp:4-26: `n_grid_r - 1` pointers are allocated and `n_grid_r` of them are
assigned. `none` if an assignment is out of bounds. -/
def newDensity (G : Geom) : Option ArrSize :=
  let ptrs := G.nr - 1
  if G.nr ≤ ptrs then some ⟨ptrs, G.nz - 1⟩ else none

/-- `reset`, src/particlesDensity.cpp:28-42: zeroes `n_grid_r x n_grid_z` elements -/
noncomputable def resetGrid (G : Geom) (A : ArrSize) : Option Grid :=
  if G.nr ≤ A.ptrs ∧ G.nz ≤ A.cols then some (fun _ _ => 0) else none

/-! ## Weighting -/

/-- The four increments of one particle: `inc_count` in src/particlesDensity.cpp:71-235 with
`Q = mass_array[i] / EL_MASS`; the same expressions with `Q = mass_array[i] * vel`, `mass_array[i] * vel_r`, …,
`mass_array[i] / mass` in src/temperature.cpp:81-240. Unlike the charge deposition the cell numbers are unsigned
and are not clamped. -/
noncomputable def shapeIncs (G : Geom) (Q r z : ℝ) : List Inc :=
  let dr := G.dr
  let dz := G.dz
  let r_i := u32 (CELL_NUMBER r dr)
  let z_k := u32 (CELL_NUMBER z dz)
  if r > dr then
    -- src/particlesDensity.cpp:84-130
    let r1 := r - 0.5 * dr
    let r2 := ((r_i : ℝ) + 0.5) * dr
    let r3 := r + 0.5 * dr
    let v_0 := 2 * PI * dz * dr * r
    let ro_p := Q / v_0
    let v_1 := CELL_VOLUME r_i dr dz
    let v_2 := CELL_VOLUME (u32 (r_i + 1)) dr dz
    let dz1 := ((z_k : ℝ) + 0.5) * dz - (z - 0.5 * dz)
    let dz2 := (z + 0.5 * dz) - ((z_k : ℝ) + 0.5) * dz
    [⟨r_i, z_k, ro_p * (CYL_RNG_VOL dz1 r1 r2 / v_1)⟩,
     ⟨u32 (r_i + 1), z_k, ro_p * (CYL_RNG_VOL dz1 r2 r3 / v_2)⟩,
     ⟨r_i, u32 (z_k + 1), ro_p * (CYL_RNG_VOL dz2 r1 r2 / v_1)⟩,
     ⟨u32 (r_i + 1), u32 (z_k + 1), ro_p * (CYL_RNG_VOL dz2 r2 r3 / v_2)⟩]
  else if r ≤ dr / 2 then
    -- src/particlesDensity.cpp:134-182
    let r_i : ℤ := 0
    let r2 := ((r_i : ℝ) + 0.5) * dr
    let r3 := r + 0.5 * dr
    let dz1 := ((z_k : ℝ) + 0.5) * dz - (z - 0.5 * dz)
    let dz2 := (z + 0.5 * dz) - ((z_k : ℝ) + 0.5) * dz
    let v_0 := PI * dz * (2 * r * r + dr * dr / 2)
    let ro_p := Q / v_0
    let v_1 := CYL_VOL dz dr
    let v_2 := CELL_VOLUME (u32 (r_i + 1)) dr dz
    [⟨r_i, z_k, ro_p * (PI * dz1 * (dr * dr / 2 - r * dr + r * r) / v_1)⟩,
     ⟨u32 (r_i + 1), z_k, ro_p * (CYL_RNG_VOL dz1 r2 r3 / v_2)⟩,
     ⟨r_i, u32 (z_k + 1), ro_p * (PI * dz2 * (dr * dr / 2 - r * dr + r * r) / v_1)⟩,
     ⟨u32 (r_i + 1), u32 (z_k + 1), ro_p * (CYL_RNG_VOL dz2 r2 r3 / v_2)⟩]
  else
    -- src/particlesDensity.cpp:187-234
    let r1 := r - 0.5 * dr
    let r2 := ((r_i : ℝ) + 0.5) * dr
    let r3 := r + 0.5 * dr
    let dz1 := ((z_k : ℝ) + 0.5) * dz - (z - 0.5 * dz)
    let dz2 := (z + 0.5 * dz) - ((z_k : ℝ) + 0.5) * dz
    let v_0 := 2 * PI * dz * dr * r
    let ro_p := Q / v_0
    let v_1 := CYL_VOL dz dr
    let v_2 := CELL_VOLUME (u32 (r_i + 1)) dr dz
    [⟨r_i, z_k, ro_p * (CYL_RNG_VOL dz1 r1 r2 / v_1)⟩,
     ⟨u32 (r_i + 1), z_k, ro_p * (CYL_RNG_VOL dz1 r2 r3 / v_2)⟩,
     ⟨r_i, u32 (z_k + 1), ro_p * (CYL_RNG_VOL dz2 r1 r2 / v_1)⟩,
     ⟨u32 (r_i + 1), u32 (z_k + 1), ro_p * (CYL_RNG_VOL dz2 r2 r3 / v_2)⟩]

/-- `calc_density`, src/particlesDensity.cpp:44-237: all particles, dead or alive -/
noncomputable def calcDensity (G : Geom) (A : ArrSize) (ps : List Particle) : Option Grid :=
  (resetGrid G A).bind fun g =>
  ps.foldlM (fun g p => applyIncs A.ptrs A.cols (shapeIncs G (p.mass / EL_MASS) p.pos.c0 p.pos.c2) g) g

/-! ## Temperature -/

/-- The accumulators `t_sum`, `t_vec_r`, `t_vec_phi`, `t_vec_z`, `count_sum`, include/temperature.h -/
structure TempAcc where
  tsum : Grid
  vr : Grid
  vphi : Grid
  vz : Grid
  count : Grid

/-- Constructor, src/temperatureClassic.cpp:14-38 (src/temperature.cpp:14-38 is the same): the pointer arrays of `t`
and `t_src` are one entry too short; the accumulators are not. -/
def newTemperature (G : Geom) : Option ArrSize :=
  let ptrs := G.nr - 1
  if G.nr ≤ ptrs then some ⟨ptrs, G.nz - 1⟩ else none

/-- One accumulation of the five quantities with the same increments pattern `f` -/
noncomputable def TempAcc.inc (G : Geom) (f : ℝ → List Inc) (s : TempAcc) (a b c d e : ℝ) : Option TempAcc := do
  let t ← applyIncs G.nr G.nz (f a) s.tsum
  let r ← applyIncs G.nr G.nz (f b) s.vr
  let p ← applyIncs G.nr G.nz (f c) s.vphi
  let z ← applyIncs G.nr G.nz (f d) s.vz
  let n ← applyIncs G.nr G.nz (f e) s.count
  pure ⟨t, r, p, z, n⟩

/-- `reset`, src/temperatureClassic.cpp:40-55 for the accumulators (`t`, `t_src`: see `newTemperature`) -/
noncomputable def TempAcc.zero : TempAcc :=
  ⟨fun _ _ => 0, fun _ _ => 0, fun _ _ => 0, fun _ _ => 0, fun _ _ => 0⟩

/-- `TemperatureClassic::calc_t`, src/temperatureClassic.cpp:57-101 -/
noncomputable def calcTClassic (G : Geom) (ps : List Particle) : Option TempAcc :=
  ps.foldlM (fun s p =>
    let r_i := u32 (CELL_NUMBER p.pos.c0 G.dr)
    let z_k := u32 (CELL_NUMBER p.pos.c2 G.dz)
    let vel := Real.sqrt (p.vel.c0 * p.vel.c0 + p.vel.c1 * p.vel.c1 + p.vel.c2 * p.vel.c2)
    s.inc G (fun v => [⟨r_i, z_k, v⟩]) vel p.vel.c0 p.vel.c1 p.vel.c2 1) TempAcc.zero

/-- One node of `TemperatureClassic::normalize`, src/temperatureClassic.cpp:133-148. `mass`, `charge` are those of the
species. `none` is NaN (no particles) or `exit`. `abs` is taken to be the one for doubles. -/
noncomputable def classicT (mass charge : ℝ) (s : TempAcc) (r z : ℤ) : Option ℝ :=
  let v_vec_sum_2 := s.vr r z * s.vr r z + s.vphi r z * s.vphi r z + s.vz r z * s.vz r z
  if s.count r z * s.count r z = 0 ∨ charge = 0 then none
  else
    let v_sc_sum_2 := (s.tsum r z * s.tsum r z - v_vec_sum_2) / (s.count r z * s.count r z)
    if v_sc_sum_2 < REL_LIMIT_POW_2 then some (mass * v_sc_sum_2 / 2 / |charge|)
    else (getGamma v_sc_sum_2).map fun gamma => mass * LIGHT_SPEED_POW_2 * (gamma - 1) / |charge|

/-- `Temperature::calc_t`, src/temperature.cpp:57-250; `mass` is that of the species -/
noncomputable def calcTWeighted (G : Geom) (mass : ℝ) (ps : List Particle) : Option TempAcc :=
  ps.foldlM (fun s p =>
    let vel := Real.sqrt (p.vel.c0 * p.vel.c0 + p.vel.c1 * p.vel.c1 + p.vel.c2 * p.vel.c2)
    s.inc G (fun Q => shapeIncs G Q p.pos.c0 p.pos.c2) (p.mass * vel) (p.mass * p.vel.c0) (p.mass * p.vel.c1)
      (p.mass * p.vel.c2) (p.mass / mass)) TempAcc.zero

/-- One node of `Temperature::normalize`, src/temperature.cpp:281-296. `none` is NaN. -/
noncomputable def weightedT (mass charge : ℝ) (s : TempAcc) (r z : ℤ) : Option ℝ :=
  let p_sum_2 := s.vr r z * s.vr r z + s.vphi r z * s.vphi r z + s.vz r z * s.vz r z
  if s.count r z * s.count r z = 0 ∨ charge = 0 then none
  else if p_sum_2 < 5e7 * 5e7 * mass * mass then
    some ((s.tsum r z * s.tsum r z - p_sum_2) / (2 * mass * s.count r z * s.count r z) / |charge|)
  else
    let mc_2 := mass * LIGHT_SPEED_POW_2
    some ((Real.sqrt ((s.tsum r z * s.tsum r z - p_sum_2) * LIGHT_SPEED_POW_2 / (s.count r z * s.count r z)
      + mc_2 * mc_2) - mc_2) / |charge|)

/-! ## Bilinear smoothing -/

/-- One element assigned by `lib::bilinear_interpolation`, src/lib.cpp:222-247; `none` where `b` is not assigned. The
loops write disjoint elements of `b` and read only `a`, so the schedule of the parallel loops is irrelevant; every
thread writes the same four corners. -/
noncomputable def bilinearAt (x y : ℕ) (a : Grid) (i j : ℤ) : Option ℝ :=
  -- lines 242-245
  if (i = 0 ∨ i = x - 1) ∧ (j = 0 ∨ j = y - 1) then some (a i j)
  -- lines 238-239
  else if i = 0 ∧ 1 ≤ j ∧ j < y - 1 then some ((a 0 (j - 1) + a 0 j) / 2)
  -- lines 234-235
  else if j = 0 ∧ 1 ≤ i ∧ i < x - 1 then some ((a (i - 1) 0 + a i 0) / 2)
  -- lines 228-230
  else if 1 ≤ i ∧ i < x ∧ 1 ≤ j ∧ j < y - 1 then
    some ((a (i - 1) (j - 1) + a i (j - 1) + a (i - 1) j + a i j) / 4)
  else none

/-- `lib::bilinear_interpolation`, src/lib.cpp:222-247, on arrays allocated as `A`, with `2 ≤ x`, `2 ≤ y`: the largest
indices used are `x-1` and `y-1` (corners). `none` is an access out of bounds. -/
noncomputable def bilinear (A : ArrSize) (x y : ℕ) (a b : Grid) : Option Grid :=
  if x ≤ A.ptrs ∧ y ≤ A.cols then some fun i j => (bilinearAt x y a i j).getD (b i j) else none

end Verif
