import Verif.TimeSeries

/-!
# The notebooks that compare temperatures of simulations

tools/view_2_temperature_t_dot.ipynb and tools/view_4_temperature_t_dot.ipynb show the temperature in a point over time for two and for four simulations.  The line numbers are those of the
notebook files.  An exception is `none`.  The readers are arguments: one for each simulation, made from its own configuration (tools/view_2_temperature_t_dot.ipynb:82-93).  Everything
else is taken from the configuration of the first one.
-/

namespace Verif

/-- The data of all simulations, e. g. tools/view_2_temperature_t_dot.ipynb:180-181, tools/view_4_temperature_t_dot.ipynb:136-139.  If the first simulation uses HDF5, there is no `reader2`
(lines 94-96, 110-112): `NameError`. -/
def compareRead (cfg : PyParams) (rds : List SeriesReader) (read : SeriesReader → Option (List ℝ)) : Option (List (List ℝ)) :=
  if cfg.use_hdf5.truth = true ∧ 1 < rds.length then none else rds.mapM read

/-- `'T/{}'.format(probe.specie)` -/
def compareName (p : PyProbe) : List Char := "T/".toList ++ p.specie

/-- `[:, row, col]` -/
def npPoint (frames : List (List (List ℝ))) (row col : ℤ) : Option (List ℝ) := frames.mapM fun f => (pyGet f row).bind fun r => pyGet r col

/-- The loop over the probes of the point, tools/view_2_temperature_t_dot.ipynb:175-181, tools/view_4_temperature_t_dot.ipynb:131-139 -/
noncomputable def compareDots (rds : List SeriesReader) (cfg : PyParams) (t : ℝ × ℝ) (specie : List Char) (row col : ℤ) : List PyProbe → List (List ℝ) → Option (List (List ℝ))
  | [], st => some st
  | p :: ps, st =>
    if p.type = "dot".toList ∧ p.specie = specie ∧ p.r_start = row ∧ p.z_start = col then
      (seriesFrames cfg t p).bind fun f =>
      (if p.component = "T".toList then compareRead cfg rds fun rd => rd.dot (compareName p) row col f.1 f.2 else some st).bind fun st =>
        compareDots rds cfg t specie row col ps st
    else compareDots rds cfg t specie row col ps st

/-- The loop over columns, rows and windows, tools/view_2_temperature_t_dot.ipynb:184-205, tools/view_4_temperature_t_dot.ipynb:142-169.  A column or a row ends it, whatever its component; a
window does not. -/
noncomputable def compareAreas (rds : List SeriesReader) (cfg : PyParams) (t : ℝ × ℝ) (specie : List Char) (row col : ℤ) : List PyProbe → List (List ℝ) → Option (List (List ℝ))
  | [], st => some st
  | p :: ps, st =>
    if p.type = "col".toList ∧ p.specie = specie ∧ p.z_start = col then
      (seriesFrames cfg t p).bind fun f =>
      if p.component = "T".toList then compareRead cfg rds fun rd => (rd.col (compareName p) col f.1 f.2).bind fun fs => npColumn fs row else some st
    else if p.type = "row".toList ∧ p.specie = specie ∧ p.r_start = row then
      (seriesFrames cfg t p).bind fun f =>
      if p.component = "T".toList then compareRead cfg rds fun rd => (rd.row (compareName p) row f.1 f.2).bind fun fs => npColumn fs col else some st
    else if p.type = "frame".toList ∧ p.specie = specie ∧ p.r_start ≤ row ∧ p.z_start ≤ col ∧ row ≤ p.r_end ∧ col ≤ p.z_end then
      (seriesFrames cfg t p).bind fun f =>
      (if p.component = "T".toList then
        compareRead cfg rds fun rd => (rd.frame (compareName p) (p.r_start, p.z_start, p.r_end, p.z_end) f.1 f.2).bind fun fs => npPoint fs (row - p.r_start) (col - p.z_start)
       else some st).bind fun st => compareAreas rds cfg t specie row col ps st
    else compareAreas rds cfg t specie row col ps st

/-- The data, tools/view_2_temperature_t_dot.ipynb:172-207, tools/view_4_temperature_t_dot.ipynb:129-173.  `np.nan_to_num` does nothing to numbers. -/
noncomputable def compareData (rds : List SeriesReader) (cfg : PyParams) (t : ℝ × ℝ) (specie : List Char) (row col : ℤ) (autoselect : Bool) : Option (List (List ℝ)) :=
  (compareDots rds cfg t specie row col cfg.probes (rds.map fun _ => [])).bind fun st =>
    if (st.headD []).length = 0 ∧ autoselect = true then compareAreas rds cfg t specie row col cfg.probes st else some st

/-- A curve, tools/view_2_temperature_t_dot.ipynb:218, 250-251, tools/view_4_temperature_t_dot.ipynb:184, 216-219.  The times are those of the first simulation; different lengths raise. -/
noncomputable def compareCurve (t : ℝ × ℝ) (first data : List ℝ) : Option (List (ℝ × ℝ)) :=
  (linspace t.1 t.2 first.length).bind fun times => if times.length = data.length then some (times.zip data) else none

/-- The curves of the simulations for a cell -/
noncomputable def compareCurves (rds : List SeriesReader) (cfg : PyParams) (t : ℝ × ℝ) (specie : List Char) (row col : ℤ) (autoselect : Bool) : Option (List (List (ℝ × ℝ))) :=
  (compareData rds cfg t specie row col autoselect).bind fun st => st.mapM fun l => compareCurve t (st.headD []) l

/-- tools/view_2_temperature_t_dot.ipynb: the cell is found by its place (lines 169-170).  Division by zero raises. -/
noncomputable def compareTwo (rds : List SeriesReader) (cfg : PyParams) (t : ℝ × ℝ) (specie : List Char) (radius longitude : ℝ) (autoselect : Bool) : Option (List (List (ℝ × ℝ))) :=
  open Classical in
  if cfg.r_size = 0 ∨ cfg.z_size = 0 then none
  else compareCurves rds cfg t specie (rowByRadius cfg radius) (colByLongitude cfg longitude) autoselect

/-- tools/view_4_temperature_t_dot.ipynb: the cell is always the same (lines 126-127); the radius and the longitude (lines 60-61) are not used -/
noncomputable def compareFour (rds : List SeriesReader) (cfg : PyParams) (t : ℝ × ℝ) (specie : List Char) (_radius _longitude : ℝ) (autoselect : Bool) :
    Option (List (List (ℝ × ℝ))) :=
  compareCurves rds cfg t specie 100 100 autoselect

end Verif
