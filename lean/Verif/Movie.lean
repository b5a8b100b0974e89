import Verif.PyParams
import Verif.Probe
import Verif.Reader

/-!
# The movie scripts and the converter of the tools

Models `run` of tools/movie_3_E_RHObeam_r_z_map.py, tools/movie_1_density_map.py and tools/movie_1_temperature_map.py,
as far as it decides which frames are shown with which time, and the beginning of `run` of tools/plain2hdf5.py.  A raised
exception is `none`; the part of a video written before it is left out.  Figures, colours and the encoder are left out.
Frame numbers are whole numbers: `round` in tools/lib/parameters.py:202 is the builtin with numpy before version 2.
-/

namespace Verif

/-- The `dirty hack`, tools/movie_3_E_RHObeam_r_z_map.py:88-92, tools/movie_1_density_map.py:76-80,
tools/movie_1_temperature_map.py:71-75: schedule of the first probe of one of the components, whatever its type.
Without one the variable stays unbound and its first use raises. -/
def movieInterval (p : PyParams) (components : List (List Char)) : Option ℤ :=
  (p.probes.find? fun q => q.component ∈ components).map PyProbe.schedule

/-- First and end frame, tools/movie_3_E_RHObeam_r_z_map.py:94-102, tools/movie_1_density_map.py:82-90,
tools/movie_1_temperature_map.py:77-85; division by zero raises -/
noncomputable def movieFrames (p : PyParams) (d : ℤ) (time_range : Option (ℝ × ℝ)) : Option (ℤ × ℤ) :=
  open Classical in
  if p.step_interval = 0 ∨ d = 0 then none
  else match time_range with
    | none => some (frameByTime p p.start_time d, frameByTime p p.end_time d)
    | some (a, b) => if a > b then none else if b > p.end_time then none
      else some (frameByTime p a d, frameByTime p b d)

/-- One data set, tools/movie_3_E_RHObeam_r_z_map.py:144-167, tools/movie_1_density_map.py:128-147,
tools/movie_1_temperature_map.py:123-142: the frames grabbed, with the time in the title.  `fs` are the frames (of three
components: zipped).  A remainder by zero raises. -/
noncomputable def movieDataset {α : Type} (p : PyParams) (d step i : ℤ) (fs : List α) : Option (List (ℝ × α)) :=
  open Classical in
  if step = 0 ∧ fs ≠ [] then none
  else some (fs.zipIdx.filterMap fun x => if step ∣ x.2 + i * p.frames_per_file then
    if step ∣ i then some (timeByFrame p (x.2 + i * p.frames_per_file) d, x.1) else none else none)

/-- The loop for text files, tools/movie_3_E_RHObeam_r_z_map.py:107-108, 122-167, and the same in the other two.  `ds` is
`get_all_frames_in_ds` with the shape of the whole grid. -/
noncomputable def moviePlain {α : Type} (p : PyParams) (components : List (List Char)) (ds : ℤ → Option (List α))
    (time_range : Option (ℝ × ℝ)) (step : ℤ) : Option (List (ℝ × α)) := do
  let d ← movieInterval p components
  let se ← movieFrames p d time_range
  if p.frames_per_file = 0 then none
  else
    let shown ← (intRange (se.1.fdiv p.frames_per_file) (se.2.fdiv p.frames_per_file)).mapM fun i =>
      (ds i).bind (movieDataset p d step i)
    return shown.flatten

/-- The loop for HDF5, tools/movie_3_E_RHObeam_r_z_map.py:104-105, 122-142, and the same in the other two.  `get` is
`get_frame`. -/
noncomputable def movieHdf5 {α : Type} (p : PyParams) (components : List (List Char)) (get : ℤ → Option α)
    (time_range : Option (ℝ × ℝ)) (step : ℤ) : Option (List (ℝ × α)) := do
  let d ← movieInterval p components
  let se ← movieFrames p d time_range
  let shown ← (intRange se.1 se.2).mapM fun i => (get i).bind fun x =>
    open Classical in
    if step = 0 then none else some (if step ∣ i then [(timeByFrame p i d, x)] else [])
  return shown.flatten

/-- `get_all_frames_in_ds` with a number that may be negative, tools/lib/plain_reader.py:123-127, 231-256 -/
noncomputable def framesInDs (dir : Dir) (fpds s0 s1 : ℕ) (number : ℤ) : Option (List (List (List ℝ))) :=
  if number < 0 then none else allFramesInDs dir fpds s0 s1 number.toNat

/-! ## The converter -/

/-- The attributes an object of class `Parameters` has, tools/lib/parameters.py:42-243: those set by the constructor and
the methods -/
def parametersAttributes : List String :=
  ["config_path", "dom_root", "use_hdf5", "number_r_grid", "number_z_grid", "r_size", "z_size", "probes", "data_root",
    "data_path", "frames_per_file", "bunch_density", "bunch_radius", "bunch_length", "number_bunches",
    "bunches_distance", "beam_initial_velocity", "particles", "start_time", "end_time", "step_interval",
    "figure_color", "figure_width", "figure_height", "figure_dpi", "figure_font_name", "figure_font_family",
    "figure_font_size", "video_codec", "video_fps", "video_bitrate", "get_frame_number_by_timestamp",
    "get_timestamp_by_frame_number", "get_clim_estimation", "get_row_by_radius", "get_col_by_longitude",
    "get_radius_by_row", "get_longitude_by_col"]

/-- Reading an attribute of an object of class `Parameters`; another name raises -/
def readAttribute (name : String) : Option Unit := if name ∈ parametersAttributes then some () else none

/-- `run` of tools/plain2hdf5.py:12-59: the configuration, the attributes for the reader (20-22), and then `rest`, which
stands for everything after it (23-59), with the frames it writes to the new file as the result -/
noncomputable def plain2hdf5 {β : Type} (file : List Char) (root : Xml) (rest : PyParams → Option β) : Option β := do
  let cfg ← pyParams file root
  let _ ← readAttribute "data_path"
  let _ ← readAttribute "system_state_path"
  let _ ← readAttribute "number_r_grid"
  let _ ← readAttribute "number_z_grid"
  let _ ← readAttribute "frames_per_file"
  rest cfg

end Verif
