import Verif.Geometry
import Mathlib.Analysis.Real.Sqrt

/-!
# Checks of the configuration

Models `LimitationsChecker` (src/limitationsChecker.cpp) and its use in the constructor of
`LoadInitParam` (src/loadInitParam.cpp:121-125).  `exit(1)` is `none`.
-/

namespace Verif

/-- The species parameters that are used, include/parameters.h `particle_specie` -/
structure SpecieCfg where
  name : String
  number_macro : ℝ
  left_density : ℝ
  right_density : ℝ
  temperature : ℝ

/-- State of the checker, include/limitationsChecker.h:48-52; `none` is NaN, the root of a negative number -/
structure Checker where
  plasma_freq : Option ℝ
  debye_length : Option ℝ
  number_macro : ℝ

/-- `strcmp` tests for the electrons, src/limitationsChecker.cpp:17-19 -/
def SpecieCfg.isElectrons (s : SpecieCfg) : Bool :=
  s.name = "Electrons" || s.name = "electrons" || s.name = "electron"

/-- The loop over the species, src/limitationsChecker.cpp:13-24: (number_macro, electron_density,
electron_temperature) -/
noncomputable def checkerLoop : List SpecieCfg → ℝ × ℝ × ℝ → ℝ × ℝ × ℝ
  | [], s => s
  | sp :: sps, (m, d, t) =>
    checkerLoop sps (if sp.isElectrons then
      (m + sp.number_macro, (sp.left_density + sp.right_density) / 2, sp.temperature)
      else (m + sp.number_macro, d, t))

open Classical in
/-- `sqrt` of <cmath>: NaN for a negative argument (used in src/limitationsChecker.cpp:32-34) -/
noncomputable def sqrtNan (x : ℝ) : Option ℝ := if x < 0 then none else some (Real.sqrt x)

/-- `x > y` and `x < y` where `y` may be NaN: comparisons with NaN are false -/
def gtNan (x : ℝ) (y : Option ℝ) : Prop := ∃ v, y = some v ∧ x > v

/-- See `gtNan`. -/
def ltNan (x : ℝ) (y : Option ℝ) : Prop := ∃ v, y = some v ∧ x < v

/-- `std::min(a, b)` is `b < a ? b : a`: `a` if `b` is NaN -/
noncomputable def minNan (a : ℝ) (b : Option ℝ) : ℝ := match b with
  | some v => min a v
  | none => a

/-- Constructor, src/limitationsChecker.cpp:5-35. `mem` is what the memory of `number_macro` holds before: the
constructor adds to it without initialising it. -/
noncomputable def mkChecker (mem : ℝ) (species : List SpecieCfg) : Option Checker :=
  let (m, d, t) := checkerLoop species (mem, 0, 0)
  if d = 0 ∨ t = 0 then none
  else some ⟨sqrtNan (d * EL_CHARGE * EL_CHARGE / (EL_MASS * EPSILON0)), (sqrtNan (t / d)).map (7400 * ·), m⟩

open Classical in
/-- `check_velocity_time_step`, src/limitationsChecker.cpp:37-61 -/
noncomputable def checkTimeStep (G : Geom) (dt : ℝ) (c : Checker) : Option Bool :=
  let max_time_c := min (G.dr / LIGHT_SPEED) (G.dz / LIGHT_SPEED)
  let max_time_wp := c.plasma_freq.map fun w => 2 / w / 100
  let max_time := minNan max_time_c max_time_wp
  if gtNan dt (some max_time) then none else some true

open Classical in
/-- `check_grid_size`, src/limitationsChecker.cpp:63-83; both tests are of `dr` -/
noncomputable def checkGridSize (G : Geom) (c : Checker) : Option Bool :=
  if gtNan G.dr (c.debye_length.map (· * 50)) ∨ gtNan G.dr (c.debye_length.map (· * 50)) then none else some true

open Classical in
/-- `check_system_size`, src/limitationsChecker.cpp:85-117 -/
noncomputable def checkSystemSize (G : Geom) (c : Checker) : Option Bool :=
  if ltNan G.r_size (c.debye_length.map (· * 100)) ∨ ltNan G.z_size (c.debye_length.map (· * 100)) then none
  else if gtNan G.r_size (c.debye_length.map (· * c.number_macro * 100)) ∨
      gtNan G.z_size (c.debye_length.map (· * c.number_macro * 100)) then none
  else some true

open Classical in
/-- `check_macro_number`, src/limitationsChecker.cpp:119-136; only warns -/
noncomputable def checkMacroNumber (G : Geom) (c : Checker) : Option Bool :=
  if G.r_size * G.r_size * 10 > c.number_macro then some false else some true

/-- The sequence of checks, src/loadInitParam.cpp:121-125: `some` when the run goes on -/
noncomputable def checkConfig (mem : ℝ) (G : Geom) (species : List SpecieCfg) (dt : ℝ) : Option Unit :=
  (mkChecker mem species).bind fun c =>
  (checkTimeStep G dt c).bind fun _ =>
  (checkGridSize G c).bind fun _ =>
  (checkSystemSize G c).bind fun _ =>
  (checkMacroNumber G c).map fun _ => ()

end Verif
