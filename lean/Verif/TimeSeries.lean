import Verif.PyParams
import Verif.Plot
import Verif.Reader

/-!
# The notebooks of the dependency on time

tools/view_2_E_t.ipynb and tools/view_1_temperature_t_dot.ipynb show components in a point over time.  The line numbers are those of the notebook files.  An
exception is `none`.  tools/view_1_Hphi_t.ipynb has the same loops but raises before them: lines 97-98 call `get_frame_number_by_timestamp` without the
schedule.
-/

namespace Verif

/-- The four readers of ranges of frames, of `PlainReader` (tools/lib/plain_reader.py:464-616) or `H5Reader`: component, place, first frame, frame after the
last.  Their properties are those of C34. -/
structure SeriesReader where
  dot : List Char → ℤ → ℤ → ℤ → ℤ → Option (List ℝ)
  col : List Char → ℤ → ℤ → ℤ → Option (List (List ℝ))
  row : List Char → ℤ → ℤ → ℤ → Option (List (List ℝ))
  frame : List Char → ℤ × ℤ × ℤ × ℤ → ℤ → ℤ → Option (List (List (List ℝ)))

/-- What differs between the notebooks: the components (`E_r`, `E_z` or `T`), the species that is compared with that of the probe
(tools/view_1_temperature_t_dot.ipynb:108, 115, 120, 125), and whether indices into a window are relative to its corner
(tools/view_1_temperature_t_dot.ipynb:131, but not tools/view_2_E_t.ipynb:137-139) -/
structure SeriesNotebook where
  wanted : List (List Char)
  specie : Option (List Char)
  relative : Bool

/-- tools/view_2_E_t.ipynb:101-139 -/
def fieldNotebook : SeriesNotebook := ⟨["E_r".toList, "E_z".toList], none, false⟩

/-- tools/view_1_temperature_t_dot.ipynb:99-131 -/
def temperatureNotebook (specie : List Char) : SeriesNotebook := ⟨["T".toList], some specie, true⟩

/-- `probe.specie == specie`, in the temperature notebook only -/
def SeriesNotebook.ofSpecie (nb : SeriesNotebook) (p : PyProbe) : Prop := nb.specie = none ∨ nb.specie = some p.specie

instance (nb : SeriesNotebook) (p : PyProbe) : Decidable (nb.ofSpecie p) := by
  unfold SeriesNotebook.ofSpecie
  infer_instance

/-- The name for the reader: `'E_r'` (tools/view_2_E_t.ipynb:114) or `'T/{}'.format(probe.specie)` (tools/view_1_temperature_t_dot.ipynb:111) -/
def SeriesNotebook.path (nb : SeriesNotebook) (p : PyProbe) : List Char :=
  match nb.specie with
  | none => p.component
  | some _ => p.component ++ ['/'] ++ p.specie

/-- `data` of the notebook: a list of Python at first, an array of numpy after `data = reader...` -/
inductive SeriesData
  | list (l : List ℝ)
  | array (l : List ℝ)

/-- the values -/
def SeriesData.values : SeriesData → List ℝ
  | .list l => l
  | .array l => l

/-- `data[a:b] = src`: a list is cut and joined and may change its length, an array keeps its length -/
def SeriesData.assign (d : SeriesData) (a b : ℤ) (src : List ℝ) : Option SeriesData :=
  match d with
  | .list l => some (.list (l.take (pyIndex l.length a) ++ src ++ l.drop (max (pyIndex l.length a) (pyIndex l.length b))))
  | .array l => (npAssign l a b src).map .array

/-- `l[j]`: a negative index counts from the end, others raise -/
def pyGet {α : Type} (l : List α) (j : ℤ) : Option α :=
  if 0 ≤ j then l[j.toNat]? else if 0 ≤ j + l.length then l[(j + l.length).toNat]? else none

/-- `frames[:, j]`.  Without frames the index is not checked here. -/
def npColumn {α : Type} (frames : List (List α)) (j : ℤ) : Option (List α) := frames.mapM fun f => pyGet f j

/-- `range(a, b, s)`; a step of zero raises -/
def pyRangeStep (a b s : ℤ) : Option (List ℤ) :=
  if s = 0 then none
  else if 0 < s then some ((List.range ((b - a + s - 1) / s).toNat).map fun (i : ℕ) => a + i * s)
  else some ((List.range ((a - b - s - 1) / -s).toNat).map fun (i : ℕ) => a + i * s)

/-- `start_frame` and `end_frame`, tools/view_2_E_t.ipynb:112-113 and the same in the other branches; division by zero raises -/
noncomputable def seriesFrames (cfg : PyParams) (t : ℝ × ℝ) (p : PyProbe) : Option (ℤ × ℤ) :=
  open Classical in
  if cfg.step_interval = 0 ∨ p.schedule = 0 then none
  else some (frameByTime cfg t.1 p.schedule, frameByTime cfg t.2 p.schedule)

/-- `data_r` and `data_z`, or `data`, by component -/
abbrev SeriesState := List Char → SeriesData

/-- `data = ...` for the component of the probe, if it is one of the notebook -/
def SeriesNotebook.store (nb : SeriesNotebook) (st : SeriesState) (p : PyProbe) (l : Option (List ℝ)) : Option SeriesState :=
  if p.component ∈ nb.wanted then l.map fun l => Function.update st p.component (.array l) else some st

/-- The loop over the probes of a point, tools/view_2_E_t.ipynb:110-115, tools/view_1_temperature_t_dot.ipynb:107-111 -/
noncomputable def seriesDots (nb : SeriesNotebook) (rd : SeriesReader) (cfg : PyParams) (t : ℝ × ℝ) (row col : ℤ) :
    List PyProbe → SeriesState → Option SeriesState
  | [], st => some st
  | p :: ps, st =>
    if p.type = "dot".toList ∧ nb.ofSpecie p ∧ p.r_start = row ∧ p.z_start = col then
      (seriesFrames cfg t p).bind fun f =>
      (nb.store st p (rd.dot (nb.path p) row col f.1 f.2)).bind fun st => seriesDots nb rd cfg t row col ps st
    else seriesDots nb rd cfg t row col ps st

/-- The pieces of a window, tools/view_2_E_t.ipynb:135-139, tools/view_1_temperature_t_dot.ipynb:130-131 -/
def seriesPieces (nb : SeriesNotebook) (rd : SeriesReader) (fpf row col : ℤ) (p : PyProbe) (start : ℤ) :
    List ℤ → SeriesData → Option SeriesData
  | [], d => some d
  | piece :: rest, d =>
    (rd.frame (nb.path p) (p.r_start, p.z_start, p.r_end, p.z_end) piece (piece + fpf)).bind fun frames =>
    (frames.mapM fun f => (pyGet f (if nb.relative then row - p.r_start else row)).bind fun r =>
      pyGet r (if nb.relative then col - p.z_start else col)).bind fun l =>
    (d.assign (piece - start) (piece - start + fpf - 1) l).bind fun d => seriesPieces nb rd fpf row col p start rest d

/-- The loop over columns, rows and windows, tools/view_2_E_t.ipynb:118-139, tools/view_1_temperature_t_dot.ipynb:114-131.  A column or a row ends it, whatever
its component; a window does not. -/
noncomputable def seriesAreas (nb : SeriesNotebook) (rd : SeriesReader) (cfg : PyParams) (t : ℝ × ℝ) (row col : ℤ) :
    List PyProbe → SeriesState → Option SeriesState
  | [], st => some st
  | p :: ps, st =>
    if p.type = "col".toList ∧ nb.ofSpecie p ∧ p.z_start = col then
      (seriesFrames cfg t p).bind fun f => nb.store st p ((rd.col (nb.path p) col f.1 f.2).bind fun fs => npColumn fs row)
    else if p.type = "row".toList ∧ nb.ofSpecie p ∧ p.r_start = row then
      (seriesFrames cfg t p).bind fun f => nb.store st p ((rd.row (nb.path p) row f.1 f.2).bind fun fs => npColumn fs col)
    else if p.type = "frame".toList ∧ nb.ofSpecie p ∧ p.r_start ≤ row ∧ p.z_start ≤ col ∧ row ≤ p.r_end ∧ col ≤ p.z_end then
      (seriesFrames cfg t p).bind fun f =>
      (if p.component ∈ nb.wanted then
        (pyRangeStep f.1 f.2 cfg.frames_per_file).bind fun pieces =>
        (seriesPieces nb rd cfg.frames_per_file row col p f.1 pieces (st p.component)).map fun d => Function.update st p.component d
       else if nb.specie = none ∧ cfg.frames_per_file = 0 then none else some st).bind fun st => seriesAreas nb rd cfg t row col ps st
    else seriesAreas nb rd cfg t row col ps st

/-- The data of the components, tools/view_2_E_t.ipynb:107-139, tools/view_1_temperature_t_dot.ipynb:105-131.  `np.nan_to_num` (line 132 of the second)
does nothing to numbers. -/
noncomputable def seriesData (nb : SeriesNotebook) (rd : SeriesReader) (cfg : PyParams) (t : ℝ × ℝ) (row col : ℤ) (autoselect : Bool) :
    Option SeriesState :=
  (seriesDots nb rd cfg t row col cfg.probes fun _ => .list []).bind fun st =>
    if (∃ c ∈ nb.wanted, (st c).values.length = 0) ∧ autoselect = true then seriesAreas nb rd cfg t row col cfg.probes st else some st

/-- `np.linspace(time_range[0], time_range[1], len(data))` and `plot(data_timeline, data)`, tools/view_2_E_t.ipynb:150, 186-187,
tools/view_1_temperature_t_dot.ipynb:143, 175: the points of a curve.  `first` is the component that gives the number of times.  Different lengths raise. -/
noncomputable def seriesCurve (t : ℝ × ℝ) (st : SeriesState) (first c : List Char) : Option (List (ℝ × ℝ)) :=
  (linspace t.1 t.2 (st first).values.length).bind fun times =>
    if times.length = (st c).values.length then some (times.zip (st c).values) else none

/-- The notebook: a curve for every component, in their order -/
noncomputable def seriesCurves (nb : SeriesNotebook) (rd : SeriesReader) (cfg : PyParams) (t : ℝ × ℝ) (row col : ℤ) (autoselect : Bool) :
    Option (List (List (ℝ × ℝ))) :=
  (seriesData nb rd cfg t row col autoselect).bind fun st => nb.wanted.mapM fun c => seriesCurve t st (nb.wanted.headD []) c

end Verif
