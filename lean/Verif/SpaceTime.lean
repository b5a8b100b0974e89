import Verif.TimeSeries

/-!
# The notebooks of a line over time

tools/view_1_Hphi_r_t.ipynb, tools/view_2_E_r_t.ipynb (a column, at a longitude), tools/view_1_Hphi_z_t.ipynb and tools/view_2_E_z_t.ipynb (a row, at a radius) show
components along a line over time as an image.  The line numbers are those of the notebook files.  An exception is `none`.
-/

namespace Verif

/-- What differs between the notebooks: the components, whether the line is a column, and whether the range of frames is kept from one probe to the next -/
structure LineNotebook where
  wanted : List (List Char)
  radial : Bool
  keep : Bool

/-- tools/view_1_Hphi_r_t.ipynb:103-122 -/
def hphiColumn : LineNotebook := ⟨["H_phi".toList], true, true⟩

/-- tools/view_1_Hphi_z_t.ipynb:97-119 -/
def hphiRow : LineNotebook := ⟨["H_phi".toList], false, true⟩

/-- tools/view_2_E_r_t.ipynb:104-127 -/
def fieldColumn : LineNotebook := ⟨["E_r".toList, "E_z".toList], true, false⟩

/-- tools/view_2_E_z_t.ipynb:104-127 -/
def fieldRow : LineNotebook := ⟨["E_r".toList, "E_z".toList], false, false⟩

/-- The condition of the first loop: a probe of the line, tools/view_1_Hphi_r_t.ipynb:109, tools/view_1_Hphi_z_t.ipynb:106 -/
def LineNotebook.OnLine (nb : LineNotebook) (line : ℤ) (p : PyProbe) : Prop :=
  if nb.radial = true then p.type = "col".toList ∧ p.z_start = line else p.type = "row".toList ∧ p.r_start = line

instance (nb : LineNotebook) (line : ℤ) (p : PyProbe) : Decidable (nb.OnLine line p) := by
  unfold LineNotebook.OnLine
  infer_instance

/-- The condition of the second loop: a window across the whole chamber with the line in it, tools/view_1_Hphi_r_t.ipynb:116, tools/view_1_Hphi_z_t.ipynb:113 -/
def LineNotebook.Across (nb : LineNotebook) (cfg : PyParams) (line : ℤ) (p : PyProbe) : Prop :=
  p.type = "frame".toList ∧
  if nb.radial = true then p.z_start ≤ line ∧ p.r_start = 0 ∧ line ≤ p.z_end ∧ p.r_end = cfg.number_r_grid
  else p.r_start ≤ line ∧ p.z_start = 0 ∧ line ≤ p.r_end ∧ p.z_end = cfg.number_z_grid

instance (nb : LineNotebook) (cfg : PyParams) (line : ℤ) (p : PyProbe) : Decidable (nb.Across cfg line p) := by
  unfold LineNotebook.Across
  infer_instance

/-- `data`: a list of rows at first, an array of numpy after `data = reader...` -/
inductive LineData
  | list (l : List (List ℝ))
  | array (l : List (List ℝ))

/-- the rows -/
def LineData.rows : LineData → List (List ℝ)
  | .list l => l
  | .array l => l

/-- A row for an array with `w` columns: a single number is repeated, another length raises -/
def npFit (w : ℕ) (r : List ℝ) : Option (List ℝ) :=
  if r.length = w then some r
  else match r with
    | [x] => some (List.replicate w x)
    | _ => none

/-- `data[a:b] = src`: a list is cut and joined and may change its length, an array keeps its shape -/
def LineData.assign (d : LineData) (a b : ℤ) (src : List (List ℝ)) : Option LineData :=
  match d with
  | .list l => some (.list (l.take (pyIndex l.length a) ++ src ++ l.drop (max (pyIndex l.length a) (pyIndex l.length b))))
  | .array l => (src.mapM (npFit (l.headD []).length)).bind fun src => (npAssign l a b src).map .array

/-- `old or new`: `None` and zero are false, and `new` is evaluated only then -/
def pyOrInt (old new : Option ℤ) : Option ℤ :=
  match old with
  | some n => if n = 0 then new else some n
  | none => new

/-- The data by component, and `start_frame`, `end_frame` (`None` at first) -/
structure LineState where
  data : List Char → LineData
  start : Option ℤ
  stop : Option ℤ

/-- `cfg.get_frame_number_by_timestamp(t, probe.schedule)`; division by zero raises -/
noncomputable def lineFrame (cfg : PyParams) (t : ℝ) (p : PyProbe) : Option ℤ :=
  open Classical in
  if cfg.step_interval = 0 ∨ p.schedule = 0 then none else some (frameByTime cfg t p.schedule)

/-- `start_frame` and `end_frame` for a probe: kept if set and not zero (tools/view_1_Hphi_r_t.ipynb:110-111, 118-119), or always those of the probe
(tools/view_2_E_r_t.ipynb:112-113, 121-122) -/
noncomputable def lineFrames (nb : LineNotebook) (cfg : PyParams) (t : ℝ × ℝ) (p : PyProbe) (st : LineState) : Option (ℤ × ℤ) :=
  (if nb.keep = true then pyOrInt st.start (lineFrame cfg t.1 p) else lineFrame cfg t.1 p).bind fun a =>
  (if nb.keep = true then pyOrInt st.stop (lineFrame cfg t.2 p) else lineFrame cfg t.2 p).map fun b => (a, b)

/-- The loop over the probes of the line, tools/view_1_Hphi_r_t.ipynb:108-112, tools/view_1_Hphi_z_t.ipynb:105-109, tools/view_2_E_r_t.ipynb:110-115,
tools/view_2_E_z_t.ipynb:110-115.  The range is set by probes of every component. -/
noncomputable def lineProbes (nb : LineNotebook) (rd : SeriesReader) (cfg : PyParams) (t : ℝ × ℝ) (line : ℤ) : List PyProbe → LineState → Option LineState
  | [], st => some st
  | p :: ps, st =>
    if nb.OnLine line p then
      (lineFrames nb cfg t p st).bind fun f =>
      (if p.component ∈ nb.wanted then
        ((if nb.radial = true then rd.col else rd.row) p.component line f.1 f.2).map fun l => Function.update st.data p.component (.array l)
       else some st.data).bind fun data => lineProbes nb rd cfg t line ps ⟨data, some f.1, some f.2⟩
    else lineProbes nb rd cfg t line ps st

/-- What is taken from the frames of a piece: `[:, row_number]`, the row of every frame (tools/view_1_Hphi_z_t.ipynb:119, tools/view_2_E_z_t.ipynb:125, 127), or
`[col_number]`, a whole frame (tools/view_1_Hphi_r_t.ipynb:122, tools/view_2_E_r_t.ipynb:125, 127) -/
def LineNotebook.pick (nb : LineNotebook) (line : ℤ) (frames : List (List (List ℝ))) : Option (List (List ℝ)) :=
  if nb.radial = true then pyGet frames line else npColumn frames line

/-- The pieces of a window, tools/view_1_Hphi_r_t.ipynb:121-122, tools/view_1_Hphi_z_t.ipynb:118-119, tools/view_2_E_r_t.ipynb:123-127,
tools/view_2_E_z_t.ipynb:123-127 -/
def linePieces (nb : LineNotebook) (rd : SeriesReader) (fpf line : ℤ) (p : PyProbe) (start : ℤ) : List ℤ → LineData → Option LineData
  | [], d => some d
  | piece :: rest, d =>
    ((rd.frame p.component (p.r_start, p.z_start, p.r_end, p.z_end) piece (piece + fpf)).bind (nb.pick line)).bind fun l =>
    (d.assign (piece - start) (piece - start + fpf - 1) l).bind fun d => linePieces nb rd fpf line p start rest d

/-- The loop over the windows, tools/view_1_Hphi_r_t.ipynb:115-122, tools/view_1_Hphi_z_t.ipynb:112-119, tools/view_2_E_r_t.ipynb:118-127,
tools/view_2_E_z_t.ipynb:118-127 -/
noncomputable def lineWindows (nb : LineNotebook) (rd : SeriesReader) (cfg : PyParams) (t : ℝ × ℝ) (line : ℤ) : List PyProbe → LineState → Option LineState
  | [], st => some st
  | p :: ps, st =>
    if nb.Across cfg line p then
      (lineFrames nb cfg t p st).bind fun f =>
      (if p.component ∈ nb.wanted then
        (pyRangeStep f.1 f.2 cfg.frames_per_file).bind fun pieces =>
        (linePieces nb rd cfg.frames_per_file line p f.1 pieces (st.data p.component)).map fun d => Function.update st.data p.component d
       else if nb.keep = false ∧ cfg.frames_per_file = 0 then none else some st.data).bind fun data =>
      lineWindows nb rd cfg t line ps ⟨data, some f.1, some f.2⟩
    else lineWindows nb rd cfg t line ps st

/-- The data, tools/view_1_Hphi_r_t.ipynb:105-122, tools/view_1_Hphi_z_t.ipynb:98-119, tools/view_2_E_r_t.ipynb:107-127, tools/view_2_E_z_t.ipynb:107-127 -/
noncomputable def lineData (nb : LineNotebook) (rd : SeriesReader) (cfg : PyParams) (t : ℝ × ℝ) (line : ℤ) (autoselect : Bool) : Option LineState :=
  (lineProbes nb rd cfg t line cfg.probes ⟨fun _ => .list [], none, none⟩).bind fun st =>
    if (∃ c ∈ nb.wanted, (st.data c).rows.length = 0) ∧ autoselect = true then lineWindows nb rd cfg t line cfg.probes st else some st

/-- The images, tools/view_1_Hphi_r_t.ipynb:161, tools/view_1_Hphi_z_t.ipynb:158, tools/view_2_E_r_t.ipynb:165-166, tools/view_2_E_z_t.ipynb:165-166: one for every
component.  Without data and with rows of different lengths `imshow` raises. -/
noncomputable def lineImages (nb : LineNotebook) (rd : SeriesReader) (cfg : PyParams) (t : ℝ × ℝ) (line : ℤ) (autoselect : Bool) :
    Option (List (List (List ℝ))) :=
  (lineData nb rd cfg t line autoselect).bind fun st => nb.wanted.mapM fun c =>
    if (st.data c).rows.length = 0 ∨ ∃ r ∈ (st.data c).rows, r.length ≠ ((st.data c).rows.headD []).length then none else some (st.data c).rows

/-- The ticks of both axes, tools/view_2_E_r_t.ipynb:139-155, tools/view_2_E_z_t.ipynb:139-155: `PlotBuilder(cfg.number_r_grid, len(data_r), guess_number_ticks=10,
x_ticklabel_end=1e-9, y_ticklabel_end=1e-9)` with `number_z_grid` in the second; tools/view_1_Hphi_r_t.ipynb:136-151, tools/view_1_Hphi_z_t.ipynb:133-148:
`PlotBuilder(0, 0, guess_number_ticks=20, ...)`.  `rows` is the number of rows of the first image. -/
noncomputable def lineAxes (nb : LineNotebook) (cfg : PyParams) (rows : ℕ) : Option (Option (List (ℝ × Option ℝ)) × Option (List (ℝ × Option ℝ))) := do
  let x : ℤ := if nb.keep = true then 0 else if nb.radial = true then cfg.number_r_grid else cfg.number_z_grid
  let y : ℤ := if nb.keep = true then 0 else rows
  let guess : ℤ := if nb.keep = true then 20 else 10
  let ticks ← if 0 < x ∧ 0 < y then (guessTickSize (1 / 10 ^ 9) (1 / 10 ^ 9) 0 guess).map fun tick => npRound (1 / 10 ^ 9 / tick) else some guess
  let xs ← subplotAxis x ticks 0 (1 / 10 ^ 9)
  let ys ← subplotAxis y ticks 0 (1 / 10 ^ 9)
  return (xs, ys)

end Verif
