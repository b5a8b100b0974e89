import Verif.Bunch
import Verif.Config
import Verif.Load
import Verif.RunSafe

/-!
# The program as a whole

Puts together the set-up of the fields, the plasma, the beam (`LoadInitParam::init_beam`) and the
cycles of the main loop (`LoadInitParam::run`).
-/

namespace Verif

/-- The settings of the beam: `params->beam_*`, `params->bunch_*`, include/parameters.h, with the two
durations as computed in src/loadInitParam.cpp:173-174. -/
structure BeamSetup extends BeamCfg where
  charge : ℝ
  mass : ℝ
  radius : ℝ
  density : ℝ

/-- The geometry of the run, src/parameters.cpp:229 (`new Geometry`); the numbers of nodes are taken to be
non-negative. -/
noncomputable def Config.geometry (c : Config) : Option Geom :=
  mkGeom c.geom.r_size c.geom.z_size c.geom.n_grid_r.toNat c.geom.n_grid_z.toNat

/-- The beam of the run: the durations of src/loadInitParam.cpp:173-174, charge and mass of
src/particles.cpp:30-32. -/
noncomputable def Config.beamSetup (c : Config) : BeamSetup where
  duration := c.beam.length / c.beam.initial_velocity
  hole_duration := c.beam.bunches_distance / c.beam.initial_velocity
  velocity := c.beam.initial_velocity
  number := c.beam.number_macro.toNat
  number_bunches := c.beam.number_bunches.toNat
  charge := c.beam.charge * EL_CHARGE
  mass := c.beam.mass * EL_MASS
  radius := c.beam.radius
  density := c.beam.density

/-- What `new Bunch(…)` makes, src/bunch.cpp:6-80: dead macroparticles at rest at the radii drawn.  Old
positions and angles are not set, and so are not mentioned. -/
def FreshBunch (G : Geom) (P : BeamSetup) (ps : ℕ → Particle) : Prop :=
  (∀ i, (ps i).alive = false) ∧
  ∃ draws : List ℝ, draws.length = P.number ∧ (∀ u ∈ draws, 0 ≤ u ∧ u < 1) ∧
    ∀ i l, (newBunch G P.charge P.mass P.duration P.radius P.density P.velocity draws)[i]? = some l →
      (ps i).pos = l.pos ∧ (ps i).vel = ⟨0, 0, 0⟩ ∧ (ps i).charge = l.charge ∧ (ps i).mass = l.mass

/-- `init_beam`, src/loadInitParam.cpp:168-248, with the constructor of the bunches. -/
inductive BeamStep (G : Geom) (P : BeamSetup) (t dt : ℝ) (s : BeamState) : Option BeamState → Prop
  | cleanupFail (h : CleanupAll G P.toBeamCfg t s none) : BeamStep G P t dt s none
  | injectFail (fresh) (hf : FreshBunch G P fresh) (h : CleanupAll G P.toBeamCfg t s (some ()))
      (hi : InjectAll G P.toBunchCfg t dt (create P.toBeamCfg t fresh s).bunches none) :
      BeamStep G P t dt s none
  | ok (fresh bs) (hf : FreshBunch G P fresh) (h : CleanupAll G P.toBeamCfg t s (some ()))
      (hi : InjectAll G P.toBunchCfg t dt (create P.toBeamCfg t fresh s).bunches (some bs)) :
      BeamStep G P t dt s (some ⟨(create P.toBeamCfg t fresh s).current, bs⟩)

/-- A bunch is an object of class `Bunch` in `part_list`; its arrays have `number` elements,
include/bunch.h, src/particles.cpp:13-55. -/
def BunchObj.species (number : ℕ) (b : BunchObj) : Species := ⟨true, (List.range number).map b.ps⟩

/-- What the program works on: the field arrays, the plasma species and the beam. -/
structure ProgState where
  mem : Mem Loc
  plasma : List Species
  beam : BeamState

/-- `part_list`: the plasma species, then the bunches in the order of their creation,
src/loadInitParam.cpp:160,238. -/
def partList (number : ℕ) (plasma : List Species) (b : BeamState) : List Species :=
  plasma ++ b.bunches.map (BunchObj.species number)

/-- One iteration of the main loop at time `t`, src/loadInitParam.cpp:471-588: `init_beam` and the
cycle.  The particles of the objects are in the arrays, so the state afterwards is described by what
is in them. The output (C31, C61) changes nothing here. -/
def ProgStep (G : Geom) (mode : PusherMode) (P : BeamSetup) (t dt : ℝ) (s s' : ProgState) : Prop :=
  ∃ b, BeamStep G P t dt s.beam (some b) ∧
    Cycle G mode dt s.mem (partList P.number s.plasma b) s'.mem (partList P.number s'.plasma s'.beam) ∧
    s'.plasma.length = s.plasma.length ∧ s'.beam.current = b.current ∧
    s'.beam.bunches.map BunchObj.bunch_number = b.bunches.map BunchObj.bunch_number

/-- The iteration at time `t` can go wrong. -/
def ProgFault (G : Geom) (mode : PusherMode) (P : BeamSetup) (t dt : ℝ) (s : ProgState) : Prop :=
  BeamStep G P t dt s.beam none ∨
    ∃ b, BeamStep G P t dt s.beam (some b) ∧ CycleFault G mode dt s.mem (partList P.number s.plasma b)

/-- The states of the program before iteration `n`: set-up of the fields (src/loadInitParam.cpp:250-259
and `pmlRegion`), the given plasma, no bunch; then iterations. -/
inductive ProgRun (G : Geom) (mode : PusherMode) (P : BeamSetup) (tbl : ℤ → ℤ → Option ℝ) (t0 dt : ℝ)
    (plasma : List Species) : ℕ → ProgState → Prop
  | start (m1 m0 : Mem Loc) (h1 : RegionRun (Alloc G) (setupRegion G) (fun _ => none) m1)
      (h0 : RegionRun (Alloc G) (pmlRegion G tbl) m1 m0) :
      ProgRun G mode P tbl t0 dt plasma 0 ⟨m0, plasma, ⟨0, []⟩⟩
  | step (n : ℕ) (s s' : ProgState) (h : ProgRun G mode P tbl t0 dt plasma n s)
      (hs : ProgStep G mode P (t0 + n * dt) dt s s') : ProgRun G mode P tbl t0 dt plasma (n + 1) s'

end Verif
