import Verif.Geometry
import Verif.Particle
import Verif.Pusher

/-!
# Random numbers and loading of particles

Models `random_reverse` (src/math/rand.cpp:37-53, the same text in src/math/maxwellJuttner.cpp:401-417),
`Particles::load_cylindrical_spatial_distribution` (src/particles.cpp:278-331),
the last part of `Particles::velocity_distribution` (src/particles.cpp:228-276) and the constructor
of `Bunch` (src/bunch.cpp:6-80).
-/

namespace Verif

/-! ## `random_reverse` -/

/-- Executions of the `while` loop of `random_reverse`, src/math/rand.cpp:43-51, from variables
`int_vel`, `r`, `order` to the returned value.  `%` and `/` are C++'s (truncating); a zero base has
no execution.  `(int_vel - ost) / power` is computed in double in the code; it is an exact integer. -/
inductive RRLoop (power : ℤ) : ℤ → ℝ → ℕ → ℝ → Prop
  | done (int_vel : ℤ) (r : ℝ) (order : ℕ) (h : ¬ (int_vel ≥ 1)) : RRLoop power int_vel r order r
  | step (int_vel : ℤ) (r : ℝ) (order : ℕ) (res : ℝ) (h : int_vel ≥ 1) (hp : power ≠ 0)
      (t : RRLoop power ((int_vel - int_vel.tmod power).tdiv power)
        (r + (int_vel.tmod power : ℤ) * ((power : ℝ) ^ order)⁻¹) (order + 1) res) :
      RRLoop power int_vel r order res

/-- `random_reverse(vel, power) = res`, src/math/rand.cpp:37-53 -/
def RandomReverse (vel : ℝ) (power : ℤ) (res : ℝ) : Prop := RRLoop power ⌊vel⌋ 0 1 res

/-! ## Loading of a plasma species -/

/-- position of a loaded macroparticle, src/particles.cpp:295-304, from the two draws; the angle
coordinate is 0.  `sq_rt` is the square root. -/
noncomputable def loadPos (G : Geom) (n1 n2 left : ℝ) (rand_r rand_z : ℝ) : V3 :=
  let dn := n2 - n1
  ⟨(G.r_size - G.dr) * rand_r + G.dr / 2, 0,
    if dn = 0 then rand_z * (G.z_size - G.dz) + left + G.dz / 2
    else (G.z_size - left - G.dz) / dn
        * (Real.sqrt (n1 ^ 2 + rand_z * (2 * n1 * dn + dn ^ 2)) - n1) + left + G.dz / 2⟩

/-- `norm`, src/particles.cpp:319-322 and src/bunch.cpp:62-65 -/
noncomputable def macroNorm (G : Geom) (v_avg r : ℝ) : ℝ :=
  if r > G.dr / 2 then 2 * PI * r * G.dr * G.dz / v_avg
  else PI * (r * r + r * G.dr + G.dr * G.dr / 4) * G.dz / v_avg

/-- what loading sets of a macroparticle -/
structure Loaded where
  pos : V3
  charge : ℝ
  mass : ℝ

/-- `load_cylindrical_spatial_distribution`, src/particles.cpp:278-331. `charge` and `mass` are those
of a physical particle. The draws are a parameter; the code takes `random_reverse(n, 13)` and
`random_reverse(number - 1 - n, 11)`. -/
noncomputable def loadCylindrical (G : Geom) (charge mass n1 n2 left : ℝ) (draws : List (ℝ × ℝ)) :
    List Loaded :=
  let number := (draws.length : ℝ)
  let pos := draws.map fun u => loadPos G n1 n2 left u.1 u.2
  let v_sum := (pos.map fun p => 2 * PI * p.c0 * G.dr * G.dz).sum
  let v_avg := v_sum / number
  let N_total := (n1 + n2) / 2 * PI * G.r_size * G.r_size * G.z_size
  let n_per_macro_avg := N_total / number
  pos.map fun p =>
    let n_per_macro := n_per_macro_avg * macroNorm G v_avg p.c0
    ⟨p, charge * n_per_macro, mass * n_per_macro⟩

/-- The velocity set by `velocity_distribution`, src/particles.cpp:235-274, from the sampled energy
(in eV) and the three draws of `uniform2`. -/
noncomputable def thermalVelocity (mass energy : ℝ) (rnd : V3) : V3 :=
  let therm_vel_el := Real.sqrt (2 * EL_CHARGE * energy / mass) * 0.74
  let v := rnd.smul therm_vel_el
  ⟨v.c0 * getGammaInv (v.c0 * v.c0), v.c1 * getGammaInv (v.c1 * v.c1),
    v.c2 * getGammaInv (v.c2 * v.c2)⟩

/-! ## Bunches -/

/-- Constructor of `Bunch`, src/bunch.cpp:18-76: macroparticles from the draws of the radius. -/
noncomputable def newBunch (G : Geom) (charge mass duration radius density velocity : ℝ)
    (draws : List ℝ) : List Loaded :=
  let number := (draws.length : ℝ)
  let b_lenght := duration * velocity
  let N_total := PI * radius ^ 2 * b_lenght * density
  let pos := draws.map fun u => (radius - G.dr) * u + G.dr / 2
  let v_total := (pos.map fun r =>
    if r > G.dr then 2 * PI * r * G.dr * G.dz else PI * r * r * G.dz).sum
  let v_avg := v_total / number
  let n_per_macro_avg := N_total / number
  pos.map fun r =>
    let n_per_macro := n_per_macro_avg * macroNorm G v_avg r
    ⟨⟨r, 0, 0⟩, charge * n_per_macro, mass * n_per_macro⟩

end Verif
