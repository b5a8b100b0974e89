import Verif.Program
import Verif.Plasma

/-!
# The program built for tests

With `--enable-testmode` the program says that it uses "reproducible random numbers to compare result"
(src/main.cpp:64-66).  Models what differs in such a build: the draws of the thermal energies
(src/math/maxwellJuttner.cpp:328-387), of the directions (src/particles.cpp:245-266), of the radii of the bunches
(src/bunch.cpp:36-40) and of the places of injection (src/bunch.cpp:105-109).  The rest is the program of Program.lean and
Plasma.lean.
-/

namespace Verif

/-! ## The plasma -/

/-- The draws for the energy of macroparticle `i` of `number`, src/math/maxwellJuttner.cpp:328-329, 363-364, 384-385; the
classical branch makes one draw, the pair of `Sample` has a second component that is not used.  Rounds in which the
unsigned difference `npoints + i - k` would be negative have no execution. -/
def TestEnergyDraws (T : ℝ) (number i : ℕ) (us : List (ℝ × ℝ)) : Prop :=
  if T < 0.1 then ∃ d, us = [d] ∧ RandomReverse ((number : ℝ) - i) (9 + i) d.1
  else ∀ k d, us[k]? = some d → k ≤ number + i ∧ RandomReverse ((number : ℝ) + i - k) 13 d.1 ∧
    RandomReverse ((number : ℝ) - i + k) 15 d.2

/-- The direction of macroparticle `p`, src/particles.cpp:248-260 -/
def TestDirection (p : ℕ) (rnd : V3) : Prop :=
  ∃ r0 r1 r2 k0 k1 k2 : ℝ, RandomReverse p 3 r0 ∧ RandomReverse p 5 r1 ∧ RandomReverse p 7 r2 ∧
    RandomReverse p 4 k0 ∧ RandomReverse p 6 k1 ∧ RandomReverse p 8 k2 ∧
    rnd = ⟨if k0 > 0.5 then -r0 else r0, if k1 > 0.5 then -r1 else r1, if k2 > 0.5 then -r2 else r2⟩

/-- Macroparticle `i` of a species after loading, src/loadInitParam.cpp:163-164.  Its old position and angle are not set. -/
def TestLoaded (sp : SpecieSettings) (i : ℕ) (l : Loaded) (p : Particle) : Prop :=
  ∃ us e rnd, TestEnergyDraws sp.temperature sp.number i us ∧ Sample sp.temperature us (some e) ∧
    TestDirection i rnd ∧ p.alive = true ∧ p.pos = l.pos ∧ p.vel = thermalVelocity (sp.mass * EL_MASS) e rnd ∧
    p.charge = l.charge ∧ p.mass = l.mass

/-- A species, src/loadInitParam.cpp:152-165 -/
def TestSpecies (G : Geom) (sp : SpecieSettings) (ps : List Particle) : Prop :=
  ∃ draws, CodeDraws sp.number draws ∧ ps.length = sp.number ∧
    ∀ i l p, (loadCylindrical G (sp.charge * EL_CHARGE) (sp.mass * EL_MASS) sp.left_density sp.right_density 0
      draws)[i]? = some l → ps[i]? = some p → TestLoaded sp i l p

/-- All species, src/loadInitParam.cpp:152-165 -/
def TestPlasma (G : Geom) (sps : List SpecieSettings) (S : List Species) : Prop :=
  List.Forall₂ (fun sp s => s.bunch = false ∧ TestSpecies G sp s.ps) sps S

/-! ## The beam -/

/-- What `new Bunch(…)` makes, src/bunch.cpp:6-80 with the draws of line 37 -/
def TestFresh (G : Geom) (P : BeamSetup) (ps : ℕ → Particle) : Prop :=
  (∀ i, (ps i).alive = false) ∧
  ∃ draws : List ℝ, draws.length = P.number ∧ (∀ (i : ℕ) u, draws[i]? = some u → RandomReverse i 9 u) ∧
    ∀ i l, (newBunch G P.charge P.mass P.duration P.radius P.density P.velocity draws)[i]? = some l →
      (ps i).pos = l.pos ∧ (ps i).vel = ⟨0, 0, 0⟩ ∧ (ps i).charge = l.charge ∧ (ps i).mass = l.mass

/-- `bunch_inject`, src/bunch.cpp:87-124 with the draws of line 106, for calls that do not fault; the iterations are done
in any order. -/
inductive TestInject (G : Geom) (B : BunchCfg) (bunch_number : ℕ) (t dt : ℝ) :
    (ℕ → Particle) → (ℕ → Particle) → Prop
  | skip (ps) (h : ⌈B.duration / dt⌉ ≠ 0)
      (hw : ¬ (t ≥ B.begin bunch_number ∧ t < B.finish bunch_number)) :
      TestInject G B bunch_number t dt ps ps
  | run (ps) (rand : ℕ → ℝ) (order : List ℕ) (start : ℤ) (h : ⌈B.duration / dt⌉ ≠ 0)
      (hw : t ≥ B.begin bunch_number ∧ t < B.finish bunch_number)
      (hstart : start = truncZ ((t - B.begin bunch_number) / dt * (B.number / ⌈B.duration / dt⌉.toNat : ℕ)))
      (hrand : ∀ i : ℕ, RandomReverse ((start + i : ℤ) : ℝ) 11 (rand i))
      (horder : List.Perm order (List.range (B.number / ⌈B.duration / dt⌉.toNat))) :
      TestInject G B bunch_number t dt ps (order.foldl (injectIter G B dt rand start) ps)

/-- `init_beam`, src/loadInitParam.cpp:168-248, for calls that do not fault -/
inductive TestBeamStep (G : Geom) (P : BeamSetup) (t dt : ℝ) (s : BeamState) : BeamState → Prop
  | ok (fresh bs) (hf : TestFresh G P fresh) (h : CleanupAll G P.toBeamCfg t s (some ()))
      (hi : List.Forall₂ (fun b b' : BunchObj => b'.bunch_number = b.bunch_number ∧
        TestInject G P.toBunchCfg b.bunch_number t dt b.ps b'.ps) (create P.toBeamCfg t fresh s).bunches bs) :
      TestBeamStep G P t dt s ⟨(create P.toBeamCfg t fresh s).current, bs⟩

/-! ## The run -/

/-- One iteration of the main loop, src/loadInitParam.cpp:471-588 -/
def TestStep (G : Geom) (mode : PusherMode) (P : BeamSetup) (t dt : ℝ) (s s' : ProgState) : Prop :=
  ∃ b, TestBeamStep G P t dt s.beam b ∧
    Cycle G mode dt s.mem (partList P.number s.plasma b) s'.mem (partList P.number s'.plasma s'.beam) ∧
    s'.plasma.length = s.plasma.length ∧ s'.beam.current = b.current ∧
    s'.beam.bunches.map BunchObj.bunch_number = b.bunches.map BunchObj.bunch_number

/-- The states of the program before iteration `n`, as in `ProgRun`, with the plasma of `TestPlasma` -/
inductive TestRun (G : Geom) (mode : PusherMode) (sps : List SpecieSettings) (P : BeamSetup) (tbl : ℤ → ℤ → Option ℝ)
    (t0 dt : ℝ) : ℕ → ProgState → Prop
  | start (m1 m0 : Mem Loc) (plasma : List Species) (h1 : RegionRun (Alloc G) (setupRegion G) (fun _ => none) m1)
      (h0 : RegionRun (Alloc G) (pmlRegion G tbl) m1 m0) (hp : TestPlasma G sps plasma) :
      TestRun G mode sps P tbl t0 dt 0 ⟨m0, plasma, ⟨0, []⟩⟩
  | step (n : ℕ) (s s' : ProgState) (h : TestRun G mode sps P tbl t0 dt n s)
      (hs : TestStep G mode P (t0 + n * dt) dt s s') : TestRun G mode sps P tbl t0 dt (n + 1) s'

end Verif
