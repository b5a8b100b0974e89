import Verif.Config
import Verif.LoadProps
import Verif.Sampler
import Verif.System

/-!
# The plasma that the program starts with

Models `LoadInitParam::init_particles` (src/loadInitParam.cpp:138-166) with the loading of positions and
velocities of a species (src/particles.cpp:228-331).
-/

namespace Verif

/-- A draw of `uniform`, src/math/rand.cpp:10-14: from 0 to the last double before 1 -/
def UniformDraw (u : ℝ) : Prop := 0 ≤ u ∧ u ≤ 1 - 1 / 2 ^ 53

/-- A draw of `uniform2`, src/math/rand.cpp:22-26 -/
def Uniform2Draw (v : V3) : Prop := |v.c0| ≤ 1 ∧ |v.c1| ≤ 1 ∧ |v.c2| ≤ 1

/-- For some draw the sampler reads outside of its tables, src/math/maxwellJuttner.cpp:340-343, 376-379. -/
def SampleFault (T : ℝ) : Prop :=
  ∃ U, UniformDraw U ∧ if T < 0.1 then sampleClassic T U = none else gammaGuess T U = none

/-- Number of macroparticles of a species: `int p_number` of the constructor from the double
`number_macro`, src/loadInitParam.cpp:159, include/parameters.h:34 -/
noncomputable def SpecieSettings.number (sp : SpecieSettings) : ℕ := ⌊sp.number_macro⌋₊

/-- One macroparticle after `load_cylindrical_spatial_distribution` and `velocity_distribution`,
src/loadInitParam.cpp:163-164; alive by src/particles.cpp:49.  The old position and the angle are not
set, and so are not mentioned. -/
def LoadedParticle (sp : SpecieSettings) (l : Loaded) (p : Particle) : Prop :=
  ∃ us e rnd, (∀ d ∈ us, UniformDraw d.1 ∧ UniformDraw d.2) ∧ Sample sp.temperature us (some e) ∧ 0 ≤ e ∧
    Uniform2Draw rnd ∧ p.alive = true ∧ p.pos = l.pos ∧ p.vel = thermalVelocity (sp.mass * EL_MASS) e rnd ∧
    p.charge = l.charge ∧ p.mass = l.mass

/-- A species: `new Particles`, positions, velocities, src/loadInitParam.cpp:152-165.  The outcome is
`none` if the sampler leaves its tables or a velocity is not a number (the energy is undefined or
negative, or the mass is zero). -/
inductive InitSpecies (G : Geom) (sp : SpecieSettings) : Option (List Particle) → Prop
  | tables (hn : 0 < sp.number) (h : SampleFault sp.temperature) : InitSpecies G sp none
  | nan (hn : 0 < sp.number) (us : List (ℝ × ℝ)) (hu : ∀ d ∈ us, UniformDraw d.1 ∧ UniformDraw d.2)
      (e : Option ℝ) (h : Sample sp.temperature us e) (he : (∀ x, e = some x → x < 0) ∨ sp.mass = 0) :
      InitSpecies G sp none
  | ok (draws : List (ℝ × ℝ)) (hd : CodeDraws sp.number draws) (ps : List Particle)
      (h : List.Forall₂ (LoadedParticle sp) (loadCylindrical G (sp.charge * EL_CHARGE) (sp.mass * EL_MASS)
        sp.left_density sp.right_density 0 draws) ps) : InitSpecies G sp (some ps)

/-- All species in the order of the configuration, src/loadInitParam.cpp:152-165 -/
def InitPlasma (G : Geom) (sps : List SpecieSettings) (r : Option (List Species)) : Prop :=
  (r = none ∧ ∃ sp ∈ sps, InitSpecies G sp none) ∨
    ∃ S, r = some S ∧ List.Forall₂ (fun sp s => s.bunch = false ∧ InitSpecies G sp (some s.ps)) sps S

end Verif
