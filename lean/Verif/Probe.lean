import Verif.Bunch
import Verif.Deposit
import Mathlib.Data.Int.Log
import Mathlib.Algebra.Order.Round

/-!
# The run loop and the probes that write results

Models the control of `LoadInitParam::run` and `LoadInitParam::dump_data`
(src/loadInitParam.cpp:315-357, 455-589) and `ProbePlain` (src/probePlain.cpp).
-/

namespace Verif

/-! ## The time loop -/

/-- `while (current_time < end_time) { ...; current_time += delta_t; }`, src/loadInitParam.cpp:472-587:
`TimeLoop end dt t n t'`: started at `t` the loop does `n` iterations and leaves the time at `t'`. -/
inductive TimeLoop (end_time dt : ℝ) : ℝ → ℕ → ℝ → Prop
  | exit (t) (h : ¬ t < end_time) : TimeLoop end_time dt t 0 t
  | iter (t n t') (h : t < end_time) (hr : TimeLoop end_time dt (t + dt) n t') :
      TimeLoop end_time dt t (n + 1) t'

/-! ## Probes -/

/-- Probe types 0-3, src/parameters.cpp:124-156 -/
inductive ProbeKind
  | frame | col | row | dot

/-- A probe: fields of class `Probe`, include/probe.h:29-48 -/
structure ProbeCfg where
  kind : ProbeKind
  start_r : ℤ
  start_z : ℤ
  end_r : ℤ
  end_z : ℤ
  schedule : ℤ

/-- values of a loop variable: `for (int i = a; i < b; i++)` -/
def intRange (a b : ℤ) : List ℤ := (List.range (b - a).toNat).map fun (n : ℕ) => a + n

/-- The array elements a probe writes, in order: `write_frame`, `write_col`, `write_row`, `write_dot`,
src/probePlain.cpp:76-153 -/
def ProbeCfg.cells (p : ProbeCfg) : List (ℤ × ℤ) :=
  match p.kind with
  | .frame => (intRange p.start_r p.end_r).flatMap fun i =>
      (intRange p.start_z p.end_z).map fun k => (i, k)
  | .col => (intRange p.start_r p.end_r).map fun k => (k, p.start_z)
  | .row => (intRange p.start_z p.end_z).map fun k => (p.start_r, k)
  | .dot => [(p.start_r, p.start_z)]

/-- Reading the elements; an element outside the allocation is a fault. -/
def readCells (nr nz : ℕ) (A : Grid) (cells : List (ℤ × ℤ)) : Option (List ℝ) :=
  cells.mapM fun c => if InGrid nr nz c.1 c.2 then some (A c.1 c.2) else none

/-- `out_file << x << " "` with the default stream precision of six significant digits (read back
exactly by numpy).  Ties are rounded up here and to even by the library. -/
noncomputable def fmt6 (x : ℝ) : ℝ :=
  if x = 0 then 0
  else (round (x / (10 : ℝ) ^ (Int.log 10 |x| - 5)) : ℝ) * (10 : ℝ) ^ (Int.log 10 |x| - 5)

/-- Directory of a probe: the numbers in file `<n>.dat`, if it exists -/
abbrev Dir := ℕ → Option (List ℝ)

/-- Opening with `ios::app` and writing: creates the file or appends to it. -/
def Dir.append (d : Dir) (f : ℕ) (l : List ℝ) : Dir :=
  Function.update d f (some ((d f).getD [] ++ l))

/-- Run-time state of a probe -/
structure ProbeState where
  step_number : ℕ
  dir : Dir

/-- `dump_data` for one probe of a field component, src/loadInitParam.cpp:322-357, 410:
`fpf` is `dump_frames_per_file`. `none`: modulo or division by zero, or an out of bounds read. -/
noncomputable def probeStep (nr nz fpf : ℕ) (p : ProbeCfg) (t dt : ℝ) (A : Grid) (s : ProbeState) :
    Option ProbeState :=
  if p.schedule = 0 then none
  else if (truncZ (t / dt)).tmod p.schedule = 0 then
    if fpf = 0 then none
    else (readCells nr nz A p.cells).map fun l =>
      ⟨s.step_number + 1, s.dir.append (s.step_number / fpf) (l.map fmt6)⟩
  else some s

/-- `N` steps of the loop from time `t0`, the component having the value `A j` at step `j`. -/
noncomputable def probeRun (nr nz fpf : ℕ) (p : ProbeCfg) (t0 dt : ℝ) (A : ℕ → Grid) (s0 : ProbeState) :
    ℕ → Option ProbeState
  | 0 => some s0
  | N + 1 => (probeRun nr nz fpf p t0 dt A s0 N).bind fun s =>
      probeStep nr nz fpf p (t0 + N * dt) dt (A N) s

/-! ## The beam density output -/

/-- The arrays written by the `n` beam density probes that fire in one step, src/loadInitParam.cpp:493,
578-583 and 372-377: the density is reset, deposited once in `run`, and once more for every probe
before it is written. Result: the written arrays, in order. -/
noncomputable def rhoBeamOutputs (G : Geom) (bunches : List (List Particle)) :
    ℕ → Option (Grid × List Grid)
  | 0 => (chargeWeightingList G bunches (fun _ _ => 0)).map fun rho => (rho, [])
  | n + 1 => (rhoBeamOutputs G bunches n).bind fun (rho, out) =>
      (chargeWeightingList G bunches rho).map fun rho' => (rho', out ++ [rho'])

/-- The array written in a `LEGACY` build, src/loadInitParam.cpp:493, 445-447: there the deposit of
lines 579-580 is compiled out. -/
def rhoBeamLegacy : Grid := fun _ _ => 0

end Verif
