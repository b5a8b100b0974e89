import Verif.Motion
import Verif.Current
import Verif.YeeProps

/-!
# The whole particle-field cycle

Models one iteration of the loop of `LoadInitParam::run` after the injection of bunches
(src/loadInitParam.cpp:482-540): magnetic update, reset of the currents, `ParticlesList::step_v`,
`ParticlesList::full_current_distribution`, electric update.

Field arrays are memory with arbitrary interleavings (`RegionRun`).  The particle loops are taken as
maps over the particles: `C50` proves that under every interleaving they are.
-/

namespace Verif

/-- An object of class `Particles` or (`bunch`) `Bunch` with its arrays. -/
structure Species where
  bunch : Bool
  ps : List Particle

/-- `JCall`s of a list of increments of one array -/
def callsOf (a : Arr) (l : List Inc) : List JCall := l.map fun d => ⟨a, d.i, d.k, d.v⟩

/-- The increments of one particle in `azimuthal_current_distribution`, src/particles.cpp:688-784 -/
noncomputable def azimuthalCalls (G : Geom) (p : Particle) : Option (List JCall) :=
  if p.alive then
    (azimuthalIncs G p.charge p.vel.c1 p.pos.c0 p.pos.c2).map (callsOf .jphi)
  else some []

/-- The increments of one particle in `current_distribution`, src/particles.cpp:476-686.  The code
mixes increments of `j_r` and of `j_z`; they are different arrays, so here those of `j_r` come
first. -/
noncomputable def moveCalls (G : Geom) (dt : ℝ) (p : Particle) : Option (List JCall) :=
  if p.alive then
    (currentOfMove G dt p.charge p.pos.c0 p.pos.c2 p.posOld.c0 p.posOld.c2).map fun J =>
      callsOf .jr J.jr ++ callsOf .jz J.jz
  else some []

/-- calls of the particles one after another -/
def seqCalls : List (Option (List JCall)) → Option (List JCall)
  | [] => some []
  | o :: os => o.bind fun l => (seqCalls os).map fun l' => l ++ l'

/-- One particle in `step_v`, src/particles.cpp:1296-1316, with the fields of memory `F`. Live
particles have to be where `get_field` reads valid nodes (`C16`). The flag of the adaptive pusher is
whatever the stack held. -/
def StepVRel (G : Geom) (F : Fields) (mode : PusherMode) (dt : ℝ) (p p1 : Particle) : Prop :=
  (p.alive = true → InRegion G p.pos.c0 p.pos.c2) ∧
    ∃ g, stepVSingle G F mode g dt p = some p1

/-- `ParticlesList::step_v`, src/particlesList.cpp:20-24 -/
def StepVAll (G : Geom) (F : Fields) (mode : PusherMode) (dt : ℝ) (S S1 : List Species) : Prop :=
  List.Forall₂ (fun s s1 => s1.bunch = s.bunch ∧
    List.Forall₂ (StepVRel G F mode dt) s.ps s1.ps) S S1

/-- `Particles::full_current_distribution`, src/particles.cpp:1367-1373 -/
def FullCurrent (G : Geom) (dt : ℝ) (s : Species) (m : Mem Loc) (s' : Species) (m' : Mem Loc) :
    Prop :=
  ∃ (la lc : List JCall) (ma : Mem Loc) (moved : List Particle),
    seqCalls (s.ps.map (azimuthalCalls G)) = some la ∧ incsMem G la m = some ma ∧
    List.Forall₂ (fun p q => moveHalfReflectSingle s.bunch G dt p = some q) s.ps moved ∧
    seqCalls (moved.map (moveCalls G dt)) = some lc ∧ incsMem G lc ma = some m' ∧
    s' = ⟨s.bunch, moved.map backVelocitySingle⟩

/-- `ParticlesList::full_current_distribution`, src/particlesList.cpp:50-54 -/
inductive FullCurrentAll (G : Geom) (dt : ℝ) :
    List Species → Mem Loc → List Species → Mem Loc → Prop
  | nil (m) : FullCurrentAll G dt [] m [] m
  | cons {s s' : Species} {S S' : List Species} {m m1 m' : Mem Loc}
      (h : FullCurrent G dt s m s' m1) (t : FullCurrentAll G dt S m1 S' m') :
      FullCurrentAll G dt (s :: S) m (s' :: S') m'

/-- One iteration of the main loop after `init_beam`, src/loadInitParam.cpp:482-540. -/
def Cycle (G : Geom) (mode : PusherMode) (dt : ℝ) (m : Mem Loc) (S : List Species) (m' : Mem Loc)
    (S' : List Species) : Prop :=
  ∃ m1 m2 m3 S1, RegionRun (Alloc G) (hRegion G dt) m m1 ∧
    RegionRun (Alloc G) (resetJRegion G) m1 m2 ∧
    StepVAll G (fieldsOf m2) mode dt S S1 ∧
    FullCurrentAll G dt S1 m2 S' m3 ∧
    RegionRun (Alloc G) (eRegion G dt) m3 m'

end Verif
