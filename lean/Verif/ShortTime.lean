import Verif.TimeSeries
import Mathlib.Analysis.SpecialFunctions.Complex.Circle

/-!
# The notebook of short-time spectra

tools/view_2_E_stft.ipynb shows how the spectra of the two components of the electric field in a point change with time.  The line numbers are those of the notebook file.  An exception
is `none`.
-/

namespace Verif

/-- `data_r` and `data_z`: both are one empty list at first (line 141), `shared`, until one of them is replaced by an array, `own`.  `interval` is `data_r_dump_interval` and
`data_z_dump_interval` (line 143). -/
structure ShortState where
  shared : List ℝ
  own : List Char → Option (List ℝ)
  interval : List Char → Option ℤ

/-- The data of a component -/
def ShortState.data (st : ShortState) (c : List Char) : SeriesData :=
  match st.own c with
  | some l => .array l
  | none => .list st.shared

/-- The data of a component are changed in place, lines 184, 188, and the interval is set, lines 185, 189 -/
def ShortState.change (st : ShortState) (c : List Char) (s : ℤ) : SeriesData → ShortState
  | .list l => ⟨l, st.own, Function.update st.interval c (some s)⟩
  | .array l => ⟨st.shared, Function.update st.own c (some l), Function.update st.interval c (some s)⟩

/-- The data of a component are replaced, lines 149-154, 161-166, 170-176 -/
def ShortState.store (st : ShortState) (p : PyProbe) (l : Option (List ℝ)) : Option ShortState :=
  if p.component ∈ fieldNotebook.wanted then
    l.map fun l => ⟨st.shared, Function.update st.own p.component (some l), Function.update st.interval p.component (some p.schedule)⟩
  else some st

/-- The loop over the probes of the point, lines 145-154 -/
noncomputable def shortDots (rd : SeriesReader) (cfg : PyParams) (t : ℝ × ℝ) (row col : ℤ) : List PyProbe → ShortState → Option ShortState
  | [], st => some st
  | p :: ps, st =>
    if p.type = "dot".toList ∧ p.r_start = row ∧ p.z_start = col then
      (seriesFrames cfg t p).bind fun f => (st.store p (rd.dot p.component row col f.1 f.2)).bind fun st => shortDots rd cfg t row col ps st
    else shortDots rd cfg t row col ps st

/-- The loop over columns, rows and windows, lines 157-189.  A column or a row ends it. -/
noncomputable def shortAreas (rd : SeriesReader) (cfg : PyParams) (t : ℝ × ℝ) (row col : ℤ) : List PyProbe → ShortState → Option ShortState
  | [], st => some st
  | p :: ps, st =>
    if p.type = "col".toList ∧ p.z_start = col then
      (seriesFrames cfg t p).bind fun f => st.store p ((rd.col p.component col f.1 f.2).bind fun fs => npColumn fs row)
    else if p.type = "row".toList ∧ p.r_start = row then
      (seriesFrames cfg t p).bind fun f => st.store p ((rd.row p.component row f.1 f.2).bind fun fs => npColumn fs col)
    else if p.type = "frame".toList ∧ p.r_start ≤ row ∧ p.z_start ≤ col ∧ row ≤ p.r_end ∧ col ≤ p.z_end then
      (seriesFrames cfg t p).bind fun f =>
      (if p.component ∈ fieldNotebook.wanted then
        (pyRangeStep f.1 f.2 cfg.frames_per_file).bind fun pieces =>
        (seriesPieces fieldNotebook rd cfg.frames_per_file row col p f.1 pieces (st.data p.component)).map (st.change p.component p.schedule)
       else some st).bind fun st => shortAreas rd cfg t row col ps st
    else shortAreas rd cfg t row col ps st

/-- The data, lines 141-189 -/
noncomputable def shortData (rd : SeriesReader) (cfg : PyParams) (t : ℝ × ℝ) (row col : ℤ) (autoselect : Bool) : Option ShortState :=
  (shortDots rd cfg t row col cfg.probes ⟨[], fun _ => none, fun _ => none⟩).bind fun st =>
    if (∃ c ∈ fieldNotebook.wanted, (st.data c).values.length = 0) ∧ autoselect = true then shortAreas rd cfg t row col cfg.probes st else some st

/-- The values and the sampling frequency of a component, lines 206-207; arithmetic with `None` and division by zero raise -/
noncomputable def shortSignal (cfg : PyParams) (st : ShortState) (c : List Char) : Option (List ℝ × ℝ) :=
  open Classical in
  (st.interval c).bind fun s => if cfg.step_interval * s = 0 then none else some ((st.data c).values, 1 / (cfg.step_interval * s))

/-- The window of `scipy.signal.stft`: `get_window('hann', n)`, by the formula of its documentation -/
noncomputable def hannWindow (n j : ℕ) : ℝ := if n = 1 then 1 else 1 / 2 - 1 / 2 * Real.cos (2 * Real.pi * j / n)

/-- The signal of `scipy.signal.stft` with the zeros of `boundary='zeros'` and `padded=True`, both by default -/
def stftPadded (n : ℕ) (x : List ℝ) : List ℝ :=
  List.replicate (n / 2) 0 ++ x ++ List.replicate (n / 2) 0 ++
    List.replicate ((-((x.length : ℤ) + 2 * (n / 2 : ℕ) - n) % ((n - n / 2 : ℕ) : ℤ)) % n).toNat 0

/-- A value of `scipy.signal.stft`, by the formula of its documentation, with the scale `1 / sum(window)` -/
noncomputable def stftAt (n : ℕ) (x : List ℝ) (k m : ℕ) : ℂ :=
  (∑ j ∈ Finset.range n, ((hannWindow n j * (stftPadded n x).getD (m * (n - n / 2) + j) 0 : ℝ) : ℂ) *
      Complex.exp (-(2 * Real.pi * Complex.I * ((j * k : ℕ) : ℂ) / n))) / ((∑ j ∈ Finset.range n, hannWindow n j : ℝ) : ℂ)

/-- An image: frequencies of the rows, times of the columns, values by row -/
structure ShortImage where
  freqs : List ℝ
  times : List ℝ
  amps : List (List ℝ)

/-- `stft(data, fs, nperseg=254)` and the absolute values, lines 209-210, 262.  A signal shorter than a segment is taken as one segment; half of a segment is common with the next.  Without
data `pcolormesh` raises.  How `pcolormesh` draws the cells is not modelled. -/
noncomputable def shortImage (x : List ℝ) (fs : ℝ) : Option ShortImage :=
  if x.length = 0 then none
  else
    let n := min 254 x.length
    let segments := ((stftPadded n x).length - n / 2) / (n - n / 2)
    some ⟨(List.range (n / 2 + 1)).map fun k : ℕ => (k : ℝ) / (n * (1 / fs)),
      (List.range segments).map fun m : ℕ => ((n : ℝ) / 2 + m * ((n - n / 2 : ℕ) : ℝ)) / fs - (n : ℝ) / 2 / fs,
      (List.range (n / 2 + 1)).map fun k => (List.range segments).map fun m => ‖stftAt n x k m‖⟩

/-- The range of the colours of an image: the limits, or the smallest and the greatest value, lines 261-266, 272-277 -/
noncomputable def colourRange (clim : ℝ × ℝ) (im : ShortImage) : ℝ × ℝ :=
  open Classical in
  if clim = (0, 0) then (im.amps.flatten.foldr min (im.amps.flatten.headD 0), im.amps.flatten.foldr max (im.amps.flatten.headD 0)) else clim

/-- An image, the range of its colours, and the range of the bar of colours beside it -/
structure ShortPlot where
  image : ShortImage
  colours : ℝ × ℝ
  bar : ℝ × ℝ

/-- The notebook, lines 141-281.  Both bars are made for `im0` (lines 270, 281). -/
noncomputable def shortPlots (rd : SeriesReader) (cfg : PyParams) (t : ℝ × ℝ) (row col : ℤ) (autoselect : Bool) (clim_r clim_z : ℝ × ℝ) :
    Option (ShortPlot × ShortPlot) :=
  (shortData rd cfg t row col autoselect).bind fun st =>
  (shortSignal cfg st "E_r".toList).bind fun r =>
  (shortSignal cfg st "E_z".toList).bind fun z =>
  (shortImage r.1 r.2).bind fun im0 =>
  (shortImage z.1 z.2).map fun im1 => (⟨im0, colourRange clim_r im0, colourRange clim_r im0⟩, ⟨im1, colourRange clim_z im1, colourRange clim_r im0⟩)

end Verif
