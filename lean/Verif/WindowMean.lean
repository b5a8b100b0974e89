import Verif.TimeSeries
import Verif.Still

/-!
# The notebook of the mean temperature of a window over time

tools/view_1_temperature_t_frame.ipynb.  The line numbers are those of the notebook file.  An exception is `none`; a value that is not a number (a cell without
particles) is `none` in a frame.  tools/view_2_temperature_t_frame.ipynb, the same for two simulations, cannot be run: its lines 186-187 are one line of Python
(`data2.append(...)data = ...`), which is rejected.
-/

namespace Verif

/-- A frame of the temperature -/
abbrev GapFrame := List (List (Option ℝ))

/-- `reader.get_frame_range`, tools/lib/plain_reader.py:464-495: data set, window, first frame, frame after the last -/
abbrev GapReader := List Char → ℤ × ℤ × ℤ × ℤ → ℤ → ℤ → Option (List GapFrame)

/-- `data_collector`: a list of Python at first, an array of numpy after `data_collector = reader...` -/
inductive FrameData
  | list (l : List GapFrame)
  | array (l : List GapFrame)

/-- the frames -/
def FrameData.frames : FrameData → List GapFrame
  | .list l => l
  | .array l => l

/-- `data_collector[a:b] = src`: a list is cut and joined and may change its length, an array keeps its length.  Simplification: the sizes of the frames of an array
are not compared. -/
def FrameData.assign (d : FrameData) (a b : ℤ) (src : List GapFrame) : Option FrameData :=
  match d with
  | .list l => some (.list (l.take (pyIndex l.length a) ++ src ++ l.drop (max (pyIndex l.length a) (pyIndex l.length b))))
  | .array l => (npAssign l a b src).map .array

/-- `flatten`, `np.delete` of the values that are not numbers, `np.sum(b) / len(b)`, and `np.nan_to_num`: without any number the quotient is not a number and becomes
zero, lines 96-99, 113-117 -/
noncomputable def frameMean (f : GapFrame) : ℝ :=
  if f.flatten.reduceOption.length = 0 then 0 else f.flatten.reduceOption.sum / f.flatten.reduceOption.length

/-- `[shape[0]:shape[2], shape[1]:shape[3]]` of a frame, line 110 -/
def cropFrame (w : ℤ × ℤ × ℤ × ℤ) (f : GapFrame) : GapFrame := (pySlice f w.1 w.2.2.1).map fun r => pySlice r w.2.1 w.2.2.2

/-- `'T/{}'.format(probe.specie)`, lines 94, 110 -/
def meanName (p : PyProbe) : List Char := "T/".toList ++ p.specie

/-- The condition of the first loop, line 93 -/
def PyProbe.MeanExact (specie : List Char) (w : ℤ × ℤ × ℤ × ℤ) (p : PyProbe) : Prop :=
  p.type = "frame".toList ∧ p.specie = specie ∧ p.window = w ∧ p.component = "T".toList

instance (specie : List Char) (w : ℤ × ℤ × ℤ × ℤ) (p : PyProbe) : Decidable (p.MeanExact specie w) := by
  unfold PyProbe.MeanExact
  infer_instance

/-- The condition of the second loop, line 108 -/
def PyProbe.MeanBigger (specie : List Char) (w : ℤ × ℤ × ℤ × ℤ) (p : PyProbe) : Prop :=
  p.type = "frame".toList ∧ p.specie = specie ∧ p.Contains w ∧ p.component = "T".toList

instance (specie : List Char) (w : ℤ × ℤ × ℤ × ℤ) (p : PyProbe) : Decidable (p.MeanBigger specie w) := by
  unfold PyProbe.MeanBigger
  infer_instance

/-- The first loop, lines 90-99: `data_collector` is replaced, `data` is appended to -/
noncomputable def meanExact (rd : GapReader) (cfg : PyParams) (t : ℝ × ℝ) (w : ℤ × ℤ × ℤ × ℤ) (specie : List Char) :
    List PyProbe → FrameData × List ℝ → Option (FrameData × List ℝ)
  | [], st => some st
  | p :: ps, st =>
    (seriesFrames cfg t p).bind fun f =>
    if p.MeanExact specie w then
      (rd (meanName p) w f.1 f.2).bind fun l => meanExact rd cfg t w specie ps (.array l, st.2 ++ l.map frameMean)
    else meanExact rd cfg t w specie ps st

/-- The pieces of a window, lines 109-110 -/
def meanPieces (rd : GapReader) (fpf : ℤ) (w : ℤ × ℤ × ℤ × ℤ) (p : PyProbe) (start : ℤ) : List ℤ → FrameData → Option FrameData
  | [], d => some d
  | piece :: rest, d =>
    (rd (meanName p) p.window piece (piece + fpf)).bind fun l =>
    (d.assign (piece - start) (piece - start + fpf - 1) (l.map (cropFrame w))).bind fun d => meanPieces rd fpf w p start rest d

/-- The second loop, lines 104-116: `data_collector` is kept from one probe to the next, `data` is appended to -/
noncomputable def meanBigger (rd : GapReader) (cfg : PyParams) (t : ℝ × ℝ) (w : ℤ × ℤ × ℤ × ℤ) (specie : List Char) :
    List PyProbe → FrameData × List ℝ → Option (FrameData × List ℝ)
  | [], st => some st
  | p :: ps, st =>
    (seriesFrames cfg t p).bind fun f =>
    if p.MeanBigger specie w then
      (pyRangeStep f.1 f.2 cfg.frames_per_file).bind fun pieces =>
      (meanPieces rd cfg.frames_per_file w p f.1 pieces st.1).bind fun d => meanBigger rd cfg t w specie ps (d, st.2 ++ d.frames.map frameMean)
    else meanBigger rd cfg t w specie ps st

/-- The data, lines 87-117 -/
noncomputable def meanData (rd : GapReader) (cfg : PyParams) (t : ℝ × ℝ) (w : ℤ × ℤ × ℤ × ℤ) (specie : List Char) (autoselect : Bool) : Option (List ℝ) :=
  (meanExact rd cfg t w specie cfg.probes (.list [], [])).bind fun st =>
    if st.2.length = 0 ∧ autoselect = true then (meanBigger rd cfg t w specie cfg.probes st).map Prod.snd else some st.2

/-- The points of the curve: `np.linspace(time_range[0], time_range[1], len(data))` and `plot(data_timeline, data)`, lines 126, 157 -/
noncomputable def meanCurve (rd : GapReader) (cfg : PyParams) (t : ℝ × ℝ) (w : ℤ × ℤ × ℤ × ℤ) (specie : List Char) (autoselect : Bool) : Option (List (ℝ × ℝ)) :=
  (meanData rd cfg t w specie autoselect).bind fun data => (linspace t.1 t.2 data.length).map fun times => times.zip data

end Verif
