import Verif.PyParams
import Mathlib.Analysis.Real.Pi.Bounds

/-!
# The quick calculator

Models tools/quick_parameters_calculator.py on the settings that `Parameters` of tools/lib/parameters.py has read.  Doubles
are exact, `math.pi` is π, and the rounding of the printed numbers to two or four digits is left out.  Lines that were
printed before an exception are left out too.
-/

namespace Verif

/-- `str.lower` of ASCII text -/
def pyLower (s : List Char) : List Char := s.map Char.toLower

open Classical in
/-- `math.sqrt`: a negative argument raises `ValueError`. -/
noncomputable def mathSqrt (x : ℝ) : Option ℝ := if x < 0 then none else some (Real.sqrt x)

open Classical in
/-- Division of floats: zero raises `ZeroDivisionError`. -/
noncomputable def floatDiv (x y : ℝ) : Option ℝ := if y = 0 then none else some (x / y)

/-- `langmur_freq`, tools/quick_parameters_calculator.py:18-25 -/
noncomputable def langmurFreq (density : ℝ) : Option ℝ := do
  let q ← floatDiv (density * (-1.6e-19) ^ 2) (9.1e-31 * 8.8e-12)
  mathSqrt q

/-- `debye_length`, tools/quick_parameters_calculator.py:27-35 -/
noncomputable def calcDebye (density temperature : ℝ) : Option ℝ := do
  let q ← floatDiv (8.8e-12 * 1.38e-23 * temperature) (4 * Real.pi * density * (-1.6e-19) ^ 2)
  mathSqrt q

/-- `eV2kelvin`, tools/quick_parameters_calculator.py:37-39 -/
noncomputable def eV2kelvin (ev : ℝ) : ℝ := ev * 1.16045221e4

/-- `wake_length`, tools/quick_parameters_calculator.py:41-44 -/
noncomputable def wakeLength (density beam_velocity : ℝ) : Option ℝ := do
  let w_p ← langmurFreq density
  floatDiv (2 * Real.pi * beam_velocity) w_p

/-- The loop over the species, tools/quick_parameters_calculator.py:55-58: density and temperature, `none` while the
two variables are not set -/
noncomputable def calcElectrons : List PySpecie → Option (ℝ × ℝ) → Option (ℝ × ℝ)
  | [], s => s
  | i :: is, s =>
    calcElectrons is (if pyLower i.name = "electrons".toList then
      some ((i.left_density + i.right_density) / 2, i.temperature) else s)

/-- The lines that are printed for more than one bunch, tools/quick_parameters_calculator.py:83-91 -/
structure CalcBunch where
  duration : ℝ
  length : ℝ
  radius : ℝ
  distance : ℝ
  number : ℝ
  particles : ℝ

/-- The numbers printed, tools/quick_parameters_calculator.py:73-92 -/
structure CalcReport where
  frequency : ℝ
  wake : ℝ
  debye : ℝ
  passage : ℝ
  steps : ℝ
  velocity : ℝ
  beam_duration : ℝ
  beam_length : ℝ
  radius : ℝ
  bunch : Option CalcBunch
  particles : ℝ

/-- What comes out: an exception, the message that the section of the electrons is missing, or the numbers -/
inductive CalcOut
  | raised
  | message
  | report (r : CalcReport)

/-- The `else` branch, tools/quick_parameters_calculator.py:62-93; `none` is an exception -/
noncomputable def calcReport (config : PyParams) (el_density el_temperature : ℝ) : Option CalcReport := do
  let bunch_duration ← floatDiv config.bunch_length config.beam_initial_velocity
  let _interval ← floatDiv config.bunches_distance config.beam_initial_velocity
  let beam_length := config.bunch_length * config.number_bunches + config.bunches_distance * (config.number_bunches - 1)
  let beam_duration ← floatDiv beam_length config.beam_initial_velocity
  let w_p ← langmurFreq el_density
  let wake_len ← wakeLength el_density config.beam_initial_velocity
  let debye ← calcDebye el_density (eV2kelvin el_temperature)
  let bunch_part_number := Real.pi * config.bunch_radius ^ 2 * bunch_duration * config.beam_initial_velocity
    * config.bunch_density
  let frequency ← floatDiv w_p (2 * Real.pi)
  let transit ← floatDiv config.z_size config.beam_initial_velocity
  let steps ← floatDiv (config.end_time - config.start_time) config.step_interval
  return {
    frequency := frequency
    wake := wake_len
    debye := debye
    passage := transit + beam_duration
    steps := steps
    velocity := config.beam_initial_velocity
    beam_duration := beam_duration
    beam_length := beam_length
    radius := config.bunch_radius
    bunch := open Classical in if config.number_bunches > 1 then
        some ⟨bunch_duration, config.bunch_length, config.bunch_radius, config.bunches_distance + config.bunch_length,
          config.number_bunches, bunch_part_number⟩
      else none
    particles := bunch_part_number * config.number_bunches }

open Classical in
/-- `main`, tools/quick_parameters_calculator.py:46-93: reading a variable that was never set raises
`UnboundLocalError`. -/
noncomputable def calculate (config : PyParams) : CalcOut :=
  match calcElectrons config.particles none with
  | none => .raised
  | some (el_density, el_temperature) =>
    if el_density = 0 then .message
    else match calcReport config el_density el_temperature with
      | none => .raised
      | some r => .report r

end Verif
