import Verif.MjTables
import Verif.Load
import Mathlib.Analysis.SpecialFunctions.Log.Basic
import Mathlib.Analysis.SpecialFunctions.Pow.Real
import Mathlib.Analysis.Real.Pi.Bounds

/-!
# Sampling of thermal energies

Models `maxwellJuttner` (src/math/maxwellJuttner.cpp:314-399).  The draws of `uniform` are parameters.
An access outside a table is a fault (outer `none`); a NaN is `none` of the value.
-/

namespace Verif

/-- `exp(t[index] + remainder*(t[index+1]-t[index]))` with `index = (unsigned int)I`,
src/math/maxwellJuttner.cpp:340-343 and 376-379 -/
noncomputable def tableExp (t : List ℤ) (I : ℝ) : Option ℝ :=
  t[⌊I⌋₊]?.bind fun a => t[⌊I⌋₊ + 1]?.map fun b =>
    Real.exp ((a : ℝ) / 10 ^ 21 + (I - ⌊I⌋₊) * ((b : ℝ) / 10 ^ 21 - (a : ℝ) / 10 ^ 21))

/-- An energy of the classical branch, src/math/maxwellJuttner.cpp:333-346, from the draw `U`.
`log(-log(0))` is infinite in the code and takes the first case. `M_PI` is taken as π. -/
noncomputable def sampleClassic (T U : ℝ) : Option ℝ :=
  if U = 0 then some (T * (3 * Real.sqrt Real.pi / 4 * 0))
  else
    let lnlnU := Real.log (-Real.log U)
    if lnlnU > 2 then some (T * (3 * Real.sqrt Real.pi / 4 * U ^ ((2 : ℝ) / 3)))
    else if lnlnU < -19 then some (T * 1)
    else (tableExp lnInvF ((lnlnU + 19) * (999 / (2 + 19)))).map fun invF => T * invF

/-- `H0`, src/math/maxwellJuttner.cpp:354-355 -/
noncomputable def mjH0 (T : ℝ) : ℝ := -(1 / T) + Real.log (1 + 1 / T + 0.5 * (1 / T) * (1 / T))

/-- The guess of `gamma`, src/math/maxwellJuttner.cpp:368-382, from the draw `U`.  `pow` of a negative
base with the exponents `1/3` and `0.06` is NaN, of (minus) zero it is zero. -/
noncomputable def gammaGuess (T U : ℝ) : Option (Option ℝ) :=
  let lnU := Real.log (-Real.log (1 - U) - mjH0 T)
  if lnU < -26 then some (if U = 0 then some (T * 0) else none)
  else if lnU > 12 then some (if U = 0 then some (T * 0) else none)
  else (tableExp lnInvH ((lnU + 30) * (999 / (12 + 30)))).map fun invH => some (T * invH)

/-- `U >= sqrt(1. - 1./(gamma*gamma))`, src/math/maxwellJuttner.cpp:392: false when the right side is
NaN. -/
def Rejected (gamma : Option ℝ) (U : ℝ) : Prop :=
  ∃ g, gamma = some g ∧ 1 ≤ g ^ 2 ∧ U ≥ Real.sqrt (1 - 1 / g ^ 2)

/-- Executions of the rejection loop, src/math/maxwellJuttner.cpp:360-394: draws (two in every round)
and the stored energy. -/
inductive SampleRel (T : ℝ) : List (ℝ × ℝ) → Option ℝ → Prop
  | accept (U V : ℝ) (gamma : Option ℝ) (h : gammaGuess T U = some gamma) (hV : ¬ Rejected gamma V) :
      SampleRel T [(U, V)] (gamma.map fun g => g - 1)
  | again (U V : ℝ) (gamma : Option ℝ) (h : gammaGuess T U = some gamma) (hV : Rejected gamma V)
      (l : List (ℝ × ℝ)) (e : Option ℝ) (t : SampleRel T l e) : SampleRel T ((U, V) :: l) e

/-- One energy of `maxwellJuttner(npoints, temperature)`, src/math/maxwellJuttner.cpp:319-396 -/
def Sample (T : ℝ) (draws : List (ℝ × ℝ)) (e : Option ℝ) : Prop :=
  if T < 0.1 then ∃ U V x, draws = [(U, V)] ∧ sampleClassic T U = some x ∧ e = some x
  else SampleRel T draws e

end Verif
