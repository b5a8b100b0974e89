import Verif.Probe

/-!
# Step counting in double precision

The other modules take `double` as exact real numbers.  Here sums and quotients of the time loop are
rounded to IEEE 754 binary64 (nearest, ties to even, gradual underflow), the arithmetic of the compiled
program.  Overflow is not modelled: the results stay far below `2 ^ 1024`.

Models `params->time->current_time` in `LoadInitParam::run` (src/loadInitParam.cpp:472, 585), the test
`(int)(current_time / delta_t) % schedule` in `dump_data` (src/loadInitParam.cpp:325) and the reading of
the decimal numbers of the configuration by `atof` (src/parameters.cpp:254-258).
-/

namespace Verif

/-- The nearest integer, ties to even -/
noncomputable def rne (x : ℝ) : ℤ :=
  if x - ⌊x⌋ < 1 / 2 then ⌊x⌋
  else if 1 / 2 < x - ⌊x⌋ then ⌊x⌋ + 1
  else if Even ⌊x⌋ then ⌊x⌋ else ⌊x⌋ + 1

/-- Exponent of the last binary digit of a binary64 number of the size of `x` -/
noncomputable def ulpExp (x : ℝ) : ℤ := max (Int.log 2 |x| - 52) (-1074)

/-- Rounding of a real number to binary64 -/
noncomputable def fl (x : ℝ) : ℝ := (rne (x / 2 ^ ulpExp x) : ℝ) * 2 ^ ulpExp x

/-- `current_time` after `j` iterations, src/loadInitParam.cpp:585 -/
noncomputable def timeF (t0 dt : ℝ) : ℕ → ℝ
  | 0 => t0
  | j + 1 => fl (timeF t0 dt j + dt)

/-- The time loop, src/loadInitParam.cpp:472-586, with the rounded sum; compare `TimeLoop`. -/
inductive TimeLoopF (end_time dt : ℝ) : ℝ → ℕ → ℝ → Prop
  | exit (t) (h : ¬ t < end_time) : TimeLoopF end_time dt t 0 t
  | iter (t n t') (h : t < end_time) (hr : TimeLoopF end_time dt (fl (t + dt)) n t') :
      TimeLoopF end_time dt t (n + 1) t'

/-- `(int)(current_time / delta_t)`, src/loadInitParam.cpp:325 -/
noncomputable def stepIndexF (t dt : ℝ) : ℤ := truncZ (fl (t / dt))

/-- `dump_data` for one probe, src/loadInitParam.cpp:322-357, 410, with the rounded quotient; compare
`probeStep`. -/
noncomputable def probeStepF (nr nz fpf : ℕ) (p : ProbeCfg) (t dt : ℝ) (A : Grid) (s : ProbeState) :
    Option ProbeState :=
  if p.schedule = 0 then none
  else if (stepIndexF t dt).tmod p.schedule = 0 then
    if fpf = 0 then none
    else (readCells nr nz A p.cells).map fun l =>
      ⟨s.step_number + 1, s.dir.append (s.step_number / fpf) (l.map fmt6)⟩
  else some s

/-- `N` steps of the loop from time `t0`; compare `probeRun`. -/
noncomputable def probeRunF (nr nz fpf : ℕ) (p : ProbeCfg) (t0 dt : ℝ) (A : ℕ → Grid)
    (s0 : ProbeState) : ℕ → Option ProbeState
  | 0 => some s0
  | N + 1 => (probeRunF nr nz fpf p t0 dt A s0 N).bind fun s =>
      probeStepF nr nz fpf p (timeF t0 dt N) dt (A N) s

end Verif
