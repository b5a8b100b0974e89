import Verif.PyParams
import Verif.Plot
import Mathlib.Analysis.SpecialFunctions.Complex.Circle

/-!
# The spectrum notebook

tools/view_1_fft.ipynb shows the spectrum of a component of the fields in a point.  The line numbers are those of the
notebook file.
-/

namespace Verif

/-- What the notebook asks the reader for: the kind of probe, the component, the first frame, the frame after the last
one, and the schedule with which it computes the frequencies -/
structure SpectrumRequest where
  kind : String
  component : String
  start : ℤ
  stop : ℤ
  schedule : ℤ
deriving DecidableEq

/-- `a or b` of Python for frame numbers: `False` and `0` are both false, and both are `0` here -/
def pyOr (a b : ℤ) : ℤ := if a = 0 then b else a

/-- `start_frame` and `end_frame` of the notebook: `False` (here `0`) at first, tools/view_1_fft.ipynb:100-101 -/
structure FrameRange where
  start : ℤ
  stop : ℤ
deriving DecidableEq

/-- The frames of a probe: kept if they are set already, tools/view_1_fft.ipynb:152-153 (and 163-164, 171-172, 178-179) -/
noncomputable def setRange (cfg : PyParams) (t : ℝ × ℝ) (r : FrameRange) (p : PyProbe) : FrameRange :=
  ⟨pyOr r.start (frameByTime cfg t.1 p.schedule), pyOr r.stop (frameByTime cfg t.2 p.schedule)⟩

/-- What a probe gives: the new frames and the request -/
noncomputable def takeProbe (cfg : PyParams) (t : ℝ × ℝ) (ds kind : String) (r : FrameRange) (p : PyProbe) :
    FrameRange × Option SpectrumRequest :=
  (setRange cfg t r p, some ⟨kind, ds, (setRange cfg t r p).start, (setRange cfg t r p).stop, p.schedule⟩)

/-- The loop over the probes of a point, tools/view_1_fft.ipynb:148-155.  Every match replaces the data of the one before. -/
noncomputable def dotLoop (cfg : PyParams) (t : ℝ × ℝ) (row col : ℤ) (ds : String) :
    List PyProbe → FrameRange × Option SpectrumRequest → FrameRange × Option SpectrumRequest
  | [], acc => acc
  | p :: ps, acc =>
    if p.type = "dot".toList ∧ p.r_start = row ∧ p.z_start = col ∧ p.component = ds.toList then
      dotLoop cfg t row col ds ps (takeProbe cfg t ds "dot" acc.1 p)
    else dotLoop cfg t row col ds ps acc

/-- The loop over columns, rows and windows, tools/view_1_fft.ipynb:159-182.  A column or a row ends the loop, whether it is
of the asked component or not.  A window does not end it.  The pieces of the window (lines 180-181) are taken as one
request; that the last piece reads past the end is left out. -/
noncomputable def areaLoop (cfg : PyParams) (t : ℝ × ℝ) (row col : ℤ) (ds : String) :
    List PyProbe → FrameRange × Option SpectrumRequest → FrameRange × Option SpectrumRequest
  | [], acc => acc
  | p :: ps, acc =>
    if p.type = "col".toList ∧ p.z_start = col then
      if p.component = ds.toList then takeProbe cfg t ds "col" acc.1 p else acc
    else if p.type = "row".toList ∧ p.r_start = row then
      if p.component = ds.toList then takeProbe cfg t ds "row" acc.1 p else acc
    else if p.type = "frame".toList ∧ p.r_start ≤ row ∧ p.z_start ≤ col ∧ row ≤ p.r_end ∧ col ≤ p.z_end then
      if p.component = ds.toList then areaLoop cfg t row col ds ps (takeProbe cfg t ds "frame" acc.1 p)
      else areaLoop cfg t row col ds ps acc
    else areaLoop cfg t row col ds ps acc

/-- The data of one component, tools/view_1_fft.ipynb:145-182.  Data of a range with no frame is empty, and then the second
loop runs too; here the second loop runs if no probe of the point was found. -/
noncomputable def gather (cfg : PyParams) (t : ℝ × ℝ) (row col : ℤ) (autoselect : Bool) (r : FrameRange) (ds : String) :
    FrameRange × Option SpectrumRequest :=
  let a := dotLoop cfg t row col ds cfg.probes (r, none)
  if a.2 = none ∧ autoselect = true then areaLoop cfg t row col ds cfg.probes a else a

/-- The requests for all components in turn, tools/view_1_fft.ipynb:145-182.  The range of frames is that left by the
component before. -/
noncomputable def gatherAll (cfg : PyParams) (t : ℝ × ℝ) (row col : ℤ) (autoselect : Bool) :
    FrameRange → List String → List (Option SpectrumRequest)
  | _, [] => []
  | r, ds :: rest =>
    (gather cfg t row col autoselect r ds).2 :: gatherAll cfg t row col autoselect (gather cfg t row col autoselect r ds).1 rest

/-- The requests of the notebook: it starts without a range, tools/view_1_fft.ipynb:100-101 -/
noncomputable def spectrumRequests (cfg : PyParams) (t : ℝ × ℝ) (row col : ℤ) (autoselect : Bool) (data_sets : List String) :
    List (Option SpectrumRequest) :=
  gatherAll cfg t row col autoselect ⟨0, 0⟩ data_sets

/-- `fft(data)[k]` of scipy: the sum `Σ data[n] exp(-2πi k n / N)` of its documentation -/
noncomputable def scipyFft (data : List ℝ) (k : ℕ) : ℂ :=
  ∑ n ∈ Finset.range data.length,
    ((data.getD n 0 : ℝ) : ℂ) * Complex.exp (-(2 * Real.pi * Complex.I * ((n * k : ℕ) : ℂ) / data.length))

/-- The shown curve as a list of frequencies and amplitudes, tools/view_1_fft.ipynb:184-202.  `none`: a division by
zero, as there is no data. -/
noncomputable def spectrumCurve (cfg : PyParams) (component : String) (schedule : ℤ) (data : List ℝ) : Option (List (ℝ × ℝ)) := do
  let N := data.length
  if N = 0 then none
  let sampling_rate : ℝ := 1 / (cfg.step_interval * schedule)
  let T : ℝ := 1 / sampling_rate
  let x_f ← linspace 0 (1 / (2 * T)) ((N / 2 : ℕ) : ℤ)
  let y_f := (List.range (N / 2)).map fun k =>
    if component = "H_phi" then 2 / (N : ℝ) * ‖scipyFft data k‖ * 100 else 2 / (N : ℝ) * ‖scipyFft data k‖
  some (x_f.zip y_f)

end Verif
