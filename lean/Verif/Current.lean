import Verif.Deposit
import Mathlib.Analysis.SpecialFunctions.Log.Basic

/-!
# Radial and axial current deposition

Models `Particles::simple_current_distribution` (src/particles.cpp:333-474),
`Particles::current_distribution` (476-686) and `Particles::strict_motion_weighting` (786-988).
Each routine is modelled by the list of `inc_j_r` / `inc_j_z` calls it makes.
-/

namespace Verif

/-- The `inc_j_r` and `inc_j_z` calls of one routine. -/
structure JIncs where
  jr : List Inc
  jz : List Inc

namespace JIncs
/-- no calls -/
def empty : JIncs := ⟨[], []⟩
/-- calls of one routine followed by calls of another -/
def append (a b : JIncs) : JIncs := ⟨a.jr ++ b.jr, a.jz ++ b.jz⟩
end JIncs

/-- Sequencing of two routines; a non-finite result in either is a fault. -/
def seqJ (a b : Option JIncs) : Option JIncs :=
  a.bind (fun x => b.map (fun y => x.append y))

/-- Macro `SOME_SHIT_DENSITY_STRICT`, include/particles.h:169-170. -/
noncomputable def DENSITY_STRICT (q r dr dz delta_t : ℝ) : ℝ :=
  q / (PI * 4 * r * dz * dz * dr * delta_t)

/-- Macro `SOME_SHIT_DENSITY_R`, include/particles.h:172-174. -/
noncomputable def DENSITY_R (q r dr dz delta_t : ℝ) : ℝ :=
  q / (2 * PI * r * dr * dz * delta_t * 2 * dr)

/-- Macro `SOME_SHIT_DENSITY_Z`, include/particles.h:176-178. -/
noncomputable def DENSITY_Z (q r dr dz delta_t : ℝ) : ℝ :=
  q / (2 * PI * r * dr * dz * delta_t * dz)

/-- `Particles::simple_current_distribution`, src/particles.cpp:333-474.
`none` stands for a non-finite result: one of the radii is zero (division at lines 369, 398) or
they have opposite signs (logarithm of a negative number). -/
noncomputable def simpleCurrent (G : Geom) (delta_t q rN zN rO zO : ℝ) (i_n k_n : ℤ) :
    Option JIncs :=
  let dr := G.dr
  let dz := G.dz
  let delta_r := rN - rO
  let delta_z := zN - zO
  -- line 354
  if |delta_r| < MNZL ∨ |delta_z| < MNZL then some JIncs.empty
  else if rO * rN ≤ 0 then none
  else
    -- lines 386-412 and 444-472 (identical text in both branches)
    let kr := -delta_z / delta_r
    let r0 := ((i_n : ℝ) + 0.5) * dr
    let r1 := rO
    let b1 := ((k_n : ℝ) + 1) * dz - zO
    let b2 := zO - (k_n : ℝ) * dz
    let dens := DENSITY_Z q r0 dr dz delta_t
    let jr1 := dens * (r0 * kr * delta_r + kr / 2 * delta_r * (rO + delta_r / 2)
         + 0.5 * delta_r * (b1 - kr * (2 * r0 + r1))
         + delta_r * (b1 - kr * r1) * (4 * r0 * r0 - dr * dr)
         / (8 * rO * (rO + delta_r))
         + (kr * (r0 * r0 / 2 - dr * dr / 8))
         * Real.log ((rO + delta_r) / rO))
    let jr2 := dens * (-r0 * kr * delta_r - kr / 2 * delta_r * (rO + delta_r / 2)
         + 0.5 * delta_r * (b2 + kr * (2 * r0 + r1))
         + delta_r * (b2 + kr * r1) * (4 * r0 * r0 - dr * dr)
         / (8 * rO * (rO + delta_r))
         - (kr * (r0 * r0 / 2 - dr * dr / 8))
         * Real.log ((rO + delta_r) / rO))
    let kz := delta_r / delta_z
    let b := rO
    if i_n ≥ 1 then
      -- lines 361-380
      let jz1 := DENSITY_R q ((i_n : ℝ) * dr) dr dz delta_t
        * (dr * delta_z - kz * delta_z * delta_z / 2 - delta_z * b + dr * dr / kz
           * (((i_n : ℝ) + 0.5) * ((i_n : ℝ) + 0.5) - 0.25) * Real.log ((kz * delta_z + b) / b))
      let jz2 := DENSITY_R q (((i_n : ℝ) + 1) * dr) dr dz delta_t
        * (kz * delta_z * delta_z / 2 + delta_z * b + delta_z * dr + dr * dr / kz *
           (0.25 - ((i_n : ℝ) + 0.5) * ((i_n : ℝ) + 0.5)) * Real.log ((kz * delta_z + b) / b))
      some ⟨[⟨i_n, k_n, jr1⟩, ⟨i_n, k_n + 1, jr2⟩], [⟨i_n, k_n, jz1⟩, ⟨i_n + 1, k_n, jz2⟩]⟩
    else
      -- lines 419-438
      let jz1 := q / (2 * PI * dr / 4 * dr * dz * delta_t * dr)
        * (dr * delta_z - kz * delta_z * delta_z / 2 - delta_z * b)
      let jz2 := DENSITY_R q dr dr dz delta_t
        * (kz * delta_z * delta_z / 2 + delta_z * dr + delta_z * b)
      some ⟨[⟨i_n, k_n, jr1⟩, ⟨i_n, k_n + 1, jr2⟩], [⟨i_n, k_n, jz1⟩, ⟨i_n + 1, k_n, jz2⟩]⟩

/-- `Particles::strict_motion_weighting`, src/particles.cpp:786-988.  `none` stands for a
non-finite result (division by a zero radius at lines 827-834 or 904-908). -/
noncomputable def strictMotion (G : Geom) (delta_t q rN zN rO zO : ℝ) : Option JIncs :=
  let dr := G.dr
  let dz := G.dz
  let i_n := clamp0 (CELL_NUMBER rN dr)
  let k_n := clamp0 (CELL_NUMBER zN dz)
  let i_o := clamp0 (CELL_NUMBER rO dr)
  let k_o := clamp0 (CELL_NUMBER zO dz)
  -- lines 809-811
  if |rN - rO| < MNZL ∧ |zN - zO| < MNZL then some JIncs.empty
  -- strict axial motion, lines 814-884
  else if |rN - rO| < MNZL then
    if rN = 0 then none else
    let value_part := 2 * PI * rN * dr * dz
    let r1 := rN - 0.5 * dr
    let r2 := ((i_n : ℝ) + 0.5) * dr
    let r3 := rN + 0.5 * dr
    let wj_lower := if i_n = 0 then
        q / (delta_t * PI * dr * dr / 4) * PI * (r2 * r2 - r1 * r1) / value_part
      else
        q / (delta_t * 2 * PI * (i_n : ℝ) * dr * dr) * PI * (r2 * r2 - r1 * r1) / value_part
    let wj_upper := q / (delta_t * 2 * PI * ((i_n : ℝ) + 1) * dr * dr)
        * PI * (r3 * r3 - r2 * r2) / value_part
    -- lines 836-837
    let zeros : List Inc := [⟨i_n, k_n, 0⟩, ⟨i_n, k_n + 1, 0⟩]
    let res_k := k_n - k_o
    if res_k = 0 then
      let delta_z := zN - zO
      some ⟨zeros, [⟨i_n, k_n, wj_lower * delta_z⟩, ⟨i_n + 1, k_n, wj_upper * delta_z⟩]⟩
    else if res_k = 1 then
      let delta_z := (k_n : ℝ) * dz - zO
      let delta_z' := zN - (k_n : ℝ) * dz
      some ⟨zeros,
        [⟨i_n, k_n - 1, wj_lower * delta_z⟩, ⟨i_n + 1, k_n - 1, wj_upper * delta_z⟩,
         ⟨i_n, k_n, wj_lower * delta_z'⟩, ⟨i_n + 1, k_n, wj_upper * delta_z'⟩]⟩
    else if res_k = -1 then
      let delta_z := ((k_n : ℝ) + 1) * dz - zO
      let delta_z' := zN - ((k_n : ℝ) + 1) * dz
      some ⟨zeros,
        [⟨i_n, k_n + 1, wj_lower * delta_z⟩, ⟨i_n + 1, k_n + 1, wj_upper * delta_z⟩,
         ⟨i_n, k_n, wj_lower * delta_z'⟩, ⟨i_n + 1, k_n, wj_upper * delta_z'⟩]⟩
    else some ⟨zeros, []⟩
  -- strict radial motion, lines 887-987
  else if |zN - zO| < MNZL then
    if rO = 0 ∨ rN = 0 then none else
    let res_i := i_n - i_o
    let left_delta_z := ((k_n : ℝ) + 1) * dz - zN
    let right_delta_z := zN - (k_n : ℝ) * dz
    if res_i = 0 then
      -- lines 897-913
      let delta_r := rN - rO
      let r0 := ((i_n : ℝ) + 0.5) * dr
      let wj := DENSITY_STRICT q r0 dr dz delta_t
        * (delta_r - r0 * r0 / (rO + delta_r) + r0 * r0 / rO
           + dr * dr / (4 * (rO + delta_r)) - dr * dr / (4 * rO))
      some ⟨[⟨i_n, k_n, wj * left_delta_z⟩, ⟨i_n, k_n + 1, wj * right_delta_z⟩], []⟩
    else if res_i = 1 then
      -- lines 918-948
      let delta_r := (i_n : ℝ) * dr - rO
      let r0 := ((i_n : ℝ) - 0.5) * dr
      let wj := DENSITY_STRICT q r0 dr dz delta_t
        * (delta_r - r0 * r0 / (rO + delta_r) + r0 * r0 / rO
           + dr * dr / (4 * (rO + delta_r)) - dr * dr / (4 * rO))
      let delta_r' := rN - (i_n : ℝ) * dr
      let r0' := ((i_n : ℝ) + 0.5) * dr
      let wj' := DENSITY_STRICT q r0' dr dz delta_t
        * (delta_r' - r0' * r0' / ((i_n : ℝ) * dr + delta_r')
           + r0' * r0' / (i_n : ℝ) * dr
           + dr * dr / (4 * ((i_n : ℝ) * dr + delta_r')) - dr * dr / (4 * (i_n : ℝ) * dr))
      some ⟨[⟨i_n - 1, k_n, wj * left_delta_z⟩, ⟨i_n - 1, k_n + 1, wj * right_delta_z⟩,
             ⟨i_n, k_n, wj' * left_delta_z⟩, ⟨i_n, k_n + 1, wj' * right_delta_z⟩], []⟩
    else if res_i = -1 then
      -- lines 953-983
      let delta_r := ((i_n : ℝ) + 1) * dr - rO
      let r0 := ((i_n : ℝ) + 1.5) * dr
      let wj := DENSITY_STRICT q r0 dr dz delta_t
        * (delta_r - r0 * r0 / (rO + delta_r) + r0 * r0 / rO
           + dr * dr / (4 * (rO + delta_r)) - dr * dr / (4 * rO))
      let delta_r' := rN - ((i_n : ℝ) + 1) * dr
      let r0' := ((i_n : ℝ) + 0.5) * dr
      let wj' := DENSITY_STRICT q r0' dr dz delta_t
        * (delta_r' - r0' * r0' / (((i_n : ℝ) + 1) * dr + delta_r')
           + r0' * r0' / ((i_n : ℝ) + 1) * dr
           + dr * dr / (4 * (((i_n : ℝ) + 1) * dr + delta_r'))
           - dr * dr / (4 * ((i_n : ℝ) + 1) * dr))
      some ⟨[⟨i_n + 1, k_n, wj * left_delta_z⟩, ⟨i_n + 1, k_n + 1, wj * right_delta_z⟩,
             ⟨i_n, k_n, wj' * left_delta_z⟩, ⟨i_n, k_n + 1, wj' * right_delta_z⟩], []⟩
    else some JIncs.empty
  else some JIncs.empty

/-- The body of the loop of `Particles::current_distribution` for one live particle,
src/particles.cpp:484-684.  `(rO, zO)` is `pos_old`, `(rN, zN)` is `pos`. -/
noncomputable def currentOfMove (G : Geom) (delta_t q rN zN rO zO : ℝ) : Option JIncs :=
  let dr := G.dr
  let dz := G.dz
  -- lines 485-494
  let i_n := clamp0 (CELL_NUMBER rN dr)
  let k_n := clamp0 (CELL_NUMBER zN dz)
  let i_o := clamp0 (CELL_NUMBER rO dr)
  let k_o := clamp0 (CELL_NUMBER zO dz)
  -- lines 496-499 (in this order, each using the already updated values)
  let i_o := if rO = ((i_o : ℝ) + 1) * dr then i_n else i_o
  let k_o := if zO = ((k_o : ℝ) + 1) * dz then k_n else k_o
  let i_n := if rN = ((i_n : ℝ) + 1) * dr then i_o else i_n
  let k_n := if zN = ((k_n : ℝ) + 1) * dz then k_o else k_n
  let simple := simpleCurrent G delta_t q
  -- line 501
  let res_cell := |i_n - i_o| + |k_n - k_o|
  if |rN - rO| < MNZL ∨ |zN - zO| < MNZL then
    strictMotion G delta_t q rN zN rO zO
  else if res_cell = 0 then
    simple rN zN rO zO i_n k_n
  else if res_cell = 1 then
    -- lines 518-569
    if i_n ≠ i_o ∧ k_n = k_o then
      if rO > ((i_n : ℝ) + 1) * dr then
        let a := (rO - rN) / (zO - zN)
        let r_boundary := ((i_n : ℝ) + 1) * dr
        let delta_r := r_boundary - rN
        let z_boundary := zN + delta_r / a
        seqJ (simple r_boundary z_boundary rO zO (i_n + 1) k_n)
          (simple rN zN r_boundary z_boundary i_n k_n)
      else
        let a := (rN - rO) / (zN - zO)
        let r_boundary := (i_n : ℝ) * dr
        let delta_r := r_boundary - rO
        let z_boundary := zO + delta_r / a
        seqJ (simple r_boundary z_boundary rO zO (i_n - 1) k_n)
          (simple rN zN r_boundary z_boundary i_n k_n)
    else if i_n = i_o ∧ k_n ≠ k_o then
      if zO < (k_n : ℝ) * dz then
        let z_boundary := (k_n : ℝ) * dz
        let delta_z := z_boundary - zO
        let a := (rN - rO) / (zN - zO)
        let r_boundary := rO + a * delta_z
        seqJ (simple r_boundary z_boundary rO zO i_n (k_n - 1))
          (simple rN zN r_boundary z_boundary i_n k_n)
      else
        let z_boundary := ((k_n : ℝ) + 1) * dz
        let delta_z := z_boundary - zN
        let a := (rO - rN) / (zO - zN)
        let r_boundary := rN + a * delta_z
        seqJ (simple r_boundary z_boundary rO zO i_n (k_n + 1))
          (simple rN zN r_boundary z_boundary i_n k_n)
    else some JIncs.empty
  else if res_cell = 2 then
    -- lines 576-680
    if i_o < i_n then
      if k_o < k_n then
        let a := (rN - rO) / (zN - zO)
        let r1 := (i_n : ℝ) * dr
        let z1 := zO + (r1 - rO) / a
        let z2 := (k_n : ℝ) * dz
        let r2 := rO + (z2 - zO) * a
        if z1 < (k_n : ℝ) * dz then
          seqJ (simple r1 z1 rO zO (i_n - 1) (k_n - 1))
            (seqJ (simple r2 z2 r1 z1 i_n (k_n - 1)) (simple rN zN r2 z2 i_n k_n))
        else if z1 > (k_n : ℝ) * dz then
          seqJ (simple r2 z2 rO zO (i_n - 1) (k_n - 1))
            (seqJ (simple r1 z1 r2 z2 (i_n - 1) k_n) (simple rN zN r1 z1 i_n k_n))
        else some JIncs.empty
      else
        let a := (rN - rO) / (zN - zO)
        let r1 := (i_n : ℝ) * dr
        let z1 := zO + (r1 - rO) / a
        let z2 := ((k_n : ℝ) + 1) * dz
        let r2 := rO + -(zO - z2) * a
        if z1 > ((k_n : ℝ) + 1) * dz then
          seqJ (simple r1 z1 rO zO (i_n - 1) (k_n + 1))
            (seqJ (simple r2 z2 r1 z1 i_n (k_n + 1)) (simple rN zN r2 z2 i_n k_n))
        else if z1 < ((k_n : ℝ) + 1) * dz then
          seqJ (simple r2 z2 rO zO (i_n - 1) (k_n + 1))
            (seqJ (simple r1 z1 r2 z2 (i_n - 1) k_n) (simple rN zN r1 z1 i_n k_n))
        else some JIncs.empty
    else if i_o > i_n then
      if k_o < k_n then
        let a := (rN - rO) / (zN - zO)
        let r1 := ((i_n : ℝ) + 1) * dr
        let z1 := zO + -(rO - r1) / a
        let z2 := (k_n : ℝ) * dz
        let r2 := rO - -(z2 - zO) * a
        if z1 < (k_n : ℝ) * dz then
          seqJ (simple r1 z1 rO zO (i_n + 1) (k_n - 1))
            (seqJ (simple r2 z2 r1 z1 i_n (k_n - 1)) (simple rN zN r2 z2 i_n k_n))
        else if z1 > (k_n : ℝ) * dz then
          seqJ (simple r2 z2 rO zO (i_n + 1) (k_n - 1))
            (seqJ (simple r1 z1 r2 z2 (i_n + 1) k_n) (simple rN zN r1 z1 i_n k_n))
        else some JIncs.empty
      else if k_o > k_n then
        let a := (rO - rN) / (zO - zN)
        let r1 := ((i_n : ℝ) + 1) * dr
        let z1 := zN + (r1 - rN) / a
        let z2 := ((k_n : ℝ) + 1) * dz
        let r2 := rN + (z2 - zN) * a
        if z1 > ((k_n : ℝ) + 1) * dz then
          seqJ (simple r1 z1 rO zO (i_n + 1) (k_n + 1))
            (seqJ (simple r2 z2 r1 z1 i_n (k_n + 1)) (simple rN zN r2 z2 i_n k_n))
        else if z1 < ((k_n : ℝ) + 1) * dz then
          seqJ (simple r2 z2 rO zO (i_n + 1) (k_n + 1))
            (seqJ (simple r1 z1 r2 z2 (i_n + 1) k_n) (simple rN zN r1 z1 i_n k_n))
        else some JIncs.empty
      else some JIncs.empty
    else some JIncs.empty
  else some JIncs.empty

/-- Execute the recorded calls on the two current arrays. -/
noncomputable def applyJ (G : Geom) (J : JIncs) (j : Grid × Grid) : Option (Grid × Grid) :=
  (applyIncs G.nr G.nz J.jr j.1).bind fun a =>
    (applyIncs G.nr G.nz J.jz j.2).map fun b => (a, b)

/-- `Particles::current_distribution`, src/particles.cpp:476-686, on the pair `(j_r, j_z)`. -/
noncomputable def currentDistribution (G : Geom) (delta_t : ℝ) (ps : List Particle)
    (j : Grid × Grid) : Option (Grid × Grid) :=
  ps.foldlM (fun j p =>
    if p.alive then
      (currentOfMove G delta_t p.charge p.pos.c0 p.pos.c2 p.posOld.c0 p.posOld.c2).bind
        (fun J => applyJ G J j)
    else some j) j

end Verif
