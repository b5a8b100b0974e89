import Verif.Particle

/-!
# Charge and azimuthal current deposition

Models `Particles::charge_weighting` (src/particles.cpp:101-226) and
`Particles::azimuthal_current_distribution` (src/particles.cpp:688-784).
-/

namespace Verif

/-- The `inc_rho` calls of one macroparticle, src/particles.cpp:129-224.
`r = pos[i][0]`, `z = pos[i][2]`, `q = charge_array[i]`. -/
noncomputable def chargeIncs (G : Geom) (q r z : ℝ) : List Inc :=
  let dr := G.dr
  let dz := G.dz
  let r_i := clamp0 (CELL_NUMBER r dr)
  let z_k := clamp0 (CELL_NUMBER z dz)
  if r > dr then
    -- lines 140-163
    let r1 := r - 0.5 * dr
    let r2 := ((r_i : ℝ) + 0.5) * dr
    let r3 := r + 0.5 * dr
    let ro_v := q / (2 * PI * dz * dr * r)
    let v_1 := CELL_VOLUME r_i dr dz
    let v_2 := CELL_VOLUME ((r_i : ℝ) + 1) dr dz
    let dz1 := ((z_k : ℝ) + 0.5) * dz - (z - 0.5 * dz)
    let dz2 := (z + 0.5 * dz) - ((z_k : ℝ) + 0.5) * dz
    [⟨r_i, z_k, ro_v * CYL_RNG_VOL dz1 r1 r2 / v_1⟩,
     ⟨r_i + 1, z_k, ro_v * CYL_RNG_VOL dz1 r2 r3 / v_2⟩,
     ⟨r_i, z_k + 1, ro_v * CYL_RNG_VOL dz2 r1 r2 / v_1⟩,
     ⟨r_i + 1, z_k + 1, ro_v * CYL_RNG_VOL dz2 r2 r3 / v_2⟩]
  else if r ≤ dr / 2 then
    -- lines 168-193
    let r_i : ℤ := 0
    let r2 := ((r_i : ℝ) + 0.5) * dr
    let r3 := r + 0.5 * dr
    let dz1 := ((z_k : ℝ) + 0.5) * dz - (z - 0.5 * dz)
    let dz2 := (z + 0.5 * dz) - ((z_k : ℝ) + 0.5) * dz
    let ro_v := q / (PI * dz * (2 * r * r + dr * dr / 2))
    let v_1 := CYL_VOL dz dr
    let v_2 := CELL_VOLUME ((r_i : ℝ) + 1) dr dz
    [⟨r_i, z_k, ro_v * PI * dz1 * (dr * dr / 2 - r * dr + r * r) / v_1⟩,
     ⟨r_i + 1, z_k, ro_v * CYL_RNG_VOL dz1 r2 r3 / v_2⟩,
     ⟨r_i, z_k + 1, ro_v * PI * dz2 * (dr * dr / 2 - r * dr + r * r) / v_1⟩,
     ⟨r_i + 1, z_k + 1, ro_v * CYL_RNG_VOL dz2 r2 r3 / v_2⟩]
  else
    -- lines 199-223
    let r1 := r - 0.5 * dr
    let r2 := ((r_i : ℝ) + 0.5) * dr
    let r3 := r + 0.5 * dr
    let dz1 := ((z_k : ℝ) + 0.5) * dz - (z - 0.5 * dz)
    let dz2 := (z + 0.5 * dz) - ((z_k : ℝ) + 0.5) * dz
    let ro_v := q / (2 * PI * dz * dr * r)
    let v_1 := CYL_VOL dz dr
    let v_2 := CELL_VOLUME ((r_i : ℝ) + 1) dr dz
    [⟨r_i, z_k, ro_v * CYL_RNG_VOL dz1 r1 r2 / v_1⟩,
     ⟨r_i + 1, z_k, ro_v * CYL_RNG_VOL dz1 r2 r3 / v_2⟩,
     ⟨r_i, z_k + 1, ro_v * CYL_RNG_VOL dz2 r1 r2 / v_1⟩,
     ⟨r_i + 1, z_k + 1, ro_v * CYL_RNG_VOL dz2 r2 r3 / v_2⟩]

/-- `Particles::charge_weighting`, src/particles.cpp:119-226: the loop over particles,
skipping dead ones.  Result `none` if some increment is outside the array.  The NaN/inf check
of lines 123-127 is vacuous over the reals. -/
noncomputable def chargeWeighting (G : Geom) (ps : List Particle) (rho : Grid) : Option Grid :=
  ps.foldlM (fun g p =>
    if p.alive then applyIncs G.nr G.nz (chargeIncs G p.charge p.pos.c0 p.pos.c2) g
    else some g) rho

/-- `ParticlesList::charge_weighting`, src/particlesList.cpp:14-18: one species after another. -/
noncomputable def chargeWeightingList (G : Geom) (species : List (List Particle)) (rho : Grid) :
    Option Grid :=
  species.foldlM (fun g ps => chargeWeighting G ps g) rho

/-- The `inc_j_phi` calls of one macroparticle, src/particles.cpp:711-782. `none` when
the density divides by the radius and the radius is zero (lines 725, 759). -/
noncomputable def azimuthalIncs (G : Geom) (q vphi r z : ℝ) : Option (List Inc) :=
  let dr := G.dr
  let dz := G.dz
  let r_i := clamp0 (CELL_NUMBER r dr)
  let z_k := clamp0 (CELL_NUMBER z dz)
  if r = 0 then none else
  some <|
  if r > dr then
    -- lines 722-749
    let r1 := r - 0.5 * dr
    let r2 := ((r_i : ℝ) + 0.5) * dr
    let r3 := r + 0.5 * dr
    let ro_v := q / (2 * PI * dz * dr * r)
    let v_1 := CELL_VOLUME r_i dr dz
    let v_2 := CELL_VOLUME ((r_i : ℝ) + 1) dr dz
    let dz1 := ((z_k : ℝ) + 0.5) * dz - (z - 0.5 * dz)
    let dz2 := (z + 0.5 * dz) - ((z_k : ℝ) + 0.5) * dz
    [⟨r_i, z_k, ro_v * CYL_RNG_VOL dz1 r1 r2 / v_1 * vphi⟩,
     ⟨r_i + 1, z_k, ro_v * CYL_RNG_VOL dz1 r2 r3 / v_2 * vphi⟩,
     ⟨r_i, z_k + 1, ro_v * CYL_RNG_VOL dz2 r1 r2 / v_1 * vphi⟩,
     ⟨r_i + 1, z_k + 1, ro_v * CYL_RNG_VOL dz2 r2 r3 / v_2 * vphi⟩]
  else
    -- lines 754-781
    let r1 := r - 0.5 * dr
    let r2 := ((r_i : ℝ) + 0.5) * dr
    let r3 := r + 0.5 * dr
    let dz1 := ((z_k : ℝ) + 0.5) * dz - (z - 0.5 * dz)
    let dz2 := (z + 0.5 * dz) - ((z_k : ℝ) + 0.5) * dz
    let ro_v := q / (2 * PI * dz * dr * r)
    let v_1 := CYL_VOL dz dr
    let v_2 := CELL_VOLUME ((r_i : ℝ) + 1) dr dz
    [⟨r_i, z_k, ro_v * CYL_RNG_VOL dz1 r1 r2 / v_1 * vphi⟩,
     ⟨r_i + 1, z_k, ro_v * CYL_RNG_VOL dz1 r2 r3 / v_2 * vphi⟩,
     ⟨r_i, z_k + 1, ro_v * CYL_RNG_VOL dz2 r1 r2 / v_1 * vphi⟩,
     ⟨r_i + 1, z_k + 1, ro_v * CYL_RNG_VOL dz2 r2 r3 / v_2 * vphi⟩]

/-- `Particles::azimuthal_current_distribution`, src/particles.cpp:688-784. -/
noncomputable def azimuthalCurrent (G : Geom) (ps : List Particle) (jphi : Grid) : Option Grid :=
  ps.foldlM (fun g p =>
    if p.alive then
      (azimuthalIncs G p.charge p.vel.c1 p.pos.c0 p.pos.c2).bind
        (fun l => applyIncs G.nr G.nz l g)
    else some g) jphi

end Verif
