import Verif.Config
import Verif.Lib

/-!
# The configuration as the analysis tools read it

Models `Parameters` of tools/lib/parameters.py on the same tree of elements as Config.lean, and the parts of Python's
`os.path` that it uses.  A raised exception is `none`.  Doubles are exact.
-/

namespace Verif

/-! ## Library functions -/

mutual
/-- An element and everything inside it, in the order of the file -/
def Xml.subs : Xml → List Xml
  | .elem n as t cs => .elem n as t cs :: Xml.subsL cs
/-- The same for a list of elements -/
def Xml.subsL : List Xml → List Xml
  | [] => []
  | c :: cs => Xml.subs c ++ Xml.subsL cs
end

/-- `getElementsByTagName` of an element: everything inside it with this name, in the order of the file -/
def byTag (e : Xml) (name : String) : List Xml := (Xml.subsL e.children).filter fun x => x.name = name

/-- `getElementsByTagName` of the document, where the outermost element counts too -/
def docByTag (root : Xml) (name : String) : List Xml := root.subs.filter fun x => x.name = name

/-- `str.strip` (white space of the C locale) -/
def pyStrip (s : List Char) : List Char := ((s.dropWhile isSpaceC).reverse.dropWhile isSpaceC).reverse

/-- `int(text)`: white space around, a sign, digits and nothing else.  Underscores between digits and digits of other
alphabets, which Python also takes, are left out. -/
def pyInt (s : List Char) : Option ℤ :=
  let p := splitSign (pyStrip s)
  if p.2 ≠ [] ∧ p.2.all Char.isDigit then some (if p.1 then -(digitsVal p.2 : ℤ) else digitsVal p.2) else none

/-- What may follow the digits of a number: nothing, or an exponent with at least one digit -/
def pyExponentOk : List Char → Bool
  | [] => true
  | c :: t => (c = 'e' ∨ c = 'E') ∧ (splitSign t).2 ≠ [] ∧ (splitSign t).2.all Char.isDigit

/-- `float(text)`; infinities, NaN and underscores are left out, and so is rounding. -/
noncomputable def pyFloat (s : List Char) : Option ℝ :=
  let p := splitSign (pyStrip s)
  let ip := p.2.takeWhile Char.isDigit
  let q := splitFrac (p.2.dropWhile Char.isDigit)
  if (ip = [] ∧ q.1 = []) ∨ pyExponentOk q.2 = false then none
  else
    let v : ℝ := digitsVal (ip ++ q.1) * (10 : ℝ) ^ (exponent q.2 - q.1.length)
    some (if p.1 then -v else v)

/-- Values of `json.loads`; fractions, texts, lists and objects are left out. -/
inductive Json
  | bool (b : Bool)
  | null
  | int (n : ℤ)
  deriving DecidableEq

/-- white space of JSON -/
def isSpaceJson (c : Char) : Bool := c ∈ [' ', '\t', '\n', '\r']

/-- whole numbers of JSON: no plus sign and no leading zeros -/
def jsonInt (s : List Char) : Option ℤ :=
  let p : Bool × List Char := match s with
    | '-' :: t => (true, t)
    | t => (false, t)
  if p.2 ≠ [] ∧ p.2.all Char.isDigit ∧ (p.2.head? = some '0' → p.2.length = 1) then
    some (if p.1 then -(digitsVal p.2 : ℤ) else digitsVal p.2)
  else none

/-- `json.loads` -/
def jsonLoads (s : List Char) : Option Json :=
  let t := ((s.dropWhile isSpaceJson).reverse.dropWhile isSpaceJson).reverse
  if t = ['t', 'r', 'u', 'e'] then some (.bool true)
  else if t = ['f', 'a', 'l', 's', 'e'] then some (.bool false)
  else if t = ['n', 'u', 'l', 'l'] then some .null
  else (jsonInt t).map .int

/-- Truth of a Python value -/
def Json.truth : Json → Bool
  | .bool b => b
  | .null => false
  | .int n => n ≠ 0

/-- `round` of a float in tools/lib/parameters.py: to the nearest whole number, halves to the even one.  Whether line 3
imports numpy's `round` over the builtin one depends on the version of numpy; the value is the same, but numpy's is not an
integer in Python, which is left out. -/
noncomputable def npRound (x : ℝ) : ℤ :=
  open Classical in
  if x - ⌊x⌋ < 1 / 2 then ⌊x⌋ else if 1 / 2 < x - ⌊x⌋ then ⌊x⌋ + 1 else if Even ⌊x⌋ then ⌊x⌋ else ⌊x⌋ + 1

/-! ### Paths -/

/-- `'/'.join(list)` -/
def joinSlash : List (List Char) → List Char
  | [] => []
  | [w] => w
  | w :: ws => w ++ '/' :: joinSlash ws

/-- The loop of `posixpath.normpath`; `acc` is `new_comps` in reverse -/
def normComps (absolute : Bool) (acc : List (List Char)) : List (List Char) → List (List Char)
  | [] => acc.reverse
  | w :: ws =>
    if w = [] ∨ w = ['.'] then normComps absolute acc ws
    else if w ≠ ['.', '.'] ∨ (absolute = false ∧ acc = []) ∨ acc.head? = some ['.', '.'] then
      normComps absolute (w :: acc) ws
    else normComps absolute acc.tail ws

/-- the number of slashes `posixpath.normpath` keeps at the beginning -/
def initialSlashes : List Char → ℕ
  | '/' :: '/' :: '/' :: _ => 1
  | '/' :: '/' :: _ => 2
  | '/' :: _ => 1
  | _ => 0

/-- `posixpath.normpath` -/
def normpath (p : List Char) : List Char :=
  let q := List.replicate (initialSlashes p) '/' ++ joinSlash (normComps (0 < initialSlashes p) [] (splitSlash p))
  if q = [] then ['.'] else q

/-- `posixpath.join(a, b)` -/
def pathJoin (a b : List Char) : List Char :=
  if b.head? = some '/' then b
  else if a = [] ∨ a.getLast? = some '/' then a ++ b
  else a ++ '/' :: b

/-- `posixpath.dirname` -/
def dirname (p : List Char) : List Char :=
  let head := (p.reverse.dropWhile fun c => c ≠ '/').reverse
  if head.all (· = '/') then head else (head.reverse.dropWhile fun c => c = '/').reverse

/-! ## The class -/

/-- `Probe`, tools/lib/parameters.py:9-20 -/
structure PyProbe where
  type : List Char
  component : List Char
  schedule : ℤ
  r_start : ℤ
  z_start : ℤ
  r_end : ℤ
  z_end : ℤ
  specie : List Char

/-- `ParticlesSpecie`, tools/lib/parameters.py:23-33 -/
structure PySpecie where
  name : List Char
  charge : ℤ
  mass : ℤ
  number_macro : ℝ
  left_density : ℝ
  right_density : ℝ
  temperature : ℝ

/-- The fields of `Parameters`, tools/lib/parameters.py:36-198, without those of the plots -/
structure PyParams where
  use_hdf5 : Json
  number_r_grid : ℤ
  number_z_grid : ℤ
  r_size : ℝ
  z_size : ℝ
  probes : List PyProbe
  data_root : List Char
  data_path : List Char
  frames_per_file : ℤ
  bunch_density : ℝ
  bunch_radius : ℝ
  bunch_length : ℝ
  number_bunches : ℝ
  bunches_distance : ℝ
  beam_initial_velocity : ℝ
  particles : List PySpecie
  start_time : ℝ
  end_time : ℝ
  step_interval : ℝ

/-- `e.getElementsByTagName(name)[0].firstChild.data` -/
def pyText (e : Xml) (name : String) : Option (List Char) := (byTag e name).head?.bind Xml.text?

/-- `e.getAttribute(name)`: empty if there is none -/
def pyAttr (e : Xml) (name : String) : List Char := (e.attr? name).getD []

/-- One round of the loop over probes, tools/lib/parameters.py:74-124 -/
def pyProbe (e : Xml) : Option PyProbe := do
  let type := pyAttr e "type"
  let component := pyAttr e "component"
  let specie := pyAttr e "specie"
  let schedule ← pyInt (pyAttr e "schedule")
  if type = "frame".toList ∨ type = "mpframe".toList then
    let a ← pyInt (pyAttr e "r_start")
    let b ← pyInt (pyAttr e "r_end")
    let c ← pyInt (pyAttr e "z_start")
    let d ← pyInt (pyAttr e "z_end")
    return ⟨type, component, schedule, a, c, b, d, specie⟩
  else if type = "col".toList then
    let c ← pyInt (pyAttr e "z")
    return ⟨type, component, schedule, -1, c, -1, -1, specie⟩
  else if type = "row".toList then
    let a ← pyInt (pyAttr e "r")
    return ⟨type, component, schedule, a, -1, -1, -1, specie⟩
  else if type = "dot".toList then
    let a ← pyInt (pyAttr e "r")
    let c ← pyInt (pyAttr e "z")
    return ⟨type, component, schedule, a, c, -1, -1, specie⟩
  else none

/-- One round of the loop over species, tools/lib/parameters.py:157-170.  The number of macroparticles is the one of the
normal mode in both modes. -/
noncomputable def pySpecie (e : Xml) : Option PySpecie := do
  let charge ← (pyText e "charge").bind pyInt
  let mass ← (pyText e "mass").bind pyInt
  let temperature ← (pyText e "temperature").bind pyFloat
  let macros ← (pyText e "number_macro").bind pyFloat
  let l ← (pyText e "left_density").bind pyFloat
  let r ← (pyText e "right_density").bind pyFloat
  return ⟨pyAttr e "name", charge, mass, macros, l, r, temperature⟩

/-- The plot settings, tools/lib/parameters.py:179-198: only whether they can be read -/
noncomputable def pyPlot (root : Xml) : Option Unit := do
  let plot ← (docByTag root "plot").head?
  let figure ← (byTag plot "figure").head?
  let _ ← pyText figure "color"
  let _ ← (pyText figure "width").bind pyFloat
  let _ ← (pyText figure "height").bind pyFloat
  let _ ← (pyText figure "dpi").bind pyInt
  let font ← (byTag figure "font").head?
  let _ ← pyText font "name"
  let _ ← pyText font "family"
  let _ ← (pyText font "size").bind pyInt
  let video ← (byTag plot "video").head?
  let _ ← pyText video "codec"
  let _ ← (pyText video "fps").bind pyInt
  let _ ← (pyText video "bitrate").bind pyInt
  return ()

/-- `data_path`, tools/lib/parameters.py:42, 132-139 -/
def pyDataPath (file result_path : List Char) : List Char :=
  if result_path.head? = some '/' then result_path
  else normpath (pathJoin (normpath (dirname file)) result_path)

/-- `Parameters.__init__`, tools/lib/parameters.py:37-198; `file` is the path of the file as given -/
noncomputable def pyParams (file : List Char) (root : Xml) : Option PyParams := do
  let debug ← ((docByTag root "debug").head?.bind Xml.text?).bind fun t => jsonLoads (t.map Char.toLower)
  let hdf5 ← ((docByTag root "use_hdf5").head?.bind Xml.text?).bind fun t => jsonLoads (t.map Char.toLower)
  let geometry ← (docByTag root "geometry").head?
  let nr ← (pyText geometry (if debug.truth then "debug_n_grid_r" else "n_grid_r")).bind pyInt
  let nz ← (pyText geometry (if debug.truth then "debug_n_grid_z" else "n_grid_z")).bind pyInt
  let r_size ← (pyText geometry "r_size").bind pyFloat
  let z_size ← (pyText geometry "z_size").bind pyFloat
  let save ← (docByTag root "file_save_parameters").head?
  let probes_e ← (byTag save "probes").head?
  let probes ← (byTag probes_e "probe").mapM pyProbe
  let data_root ← pyText save (if debug.truth then "debug_data_root" else "data_root")
  let result_path ← pyText save "result_path"
  let fpf ← (pyText save "frames_per_file").bind pyInt
  let beam ← (docByTag root "particle_beam").head?
  let bunch_density ← (pyText beam "bunch_density").bind pyFloat
  let bunch_radius ← (pyText beam "bunch_radius").bind pyFloat
  let bunch_length ← (pyText beam "bunch_length").bind pyFloat
  let number_bunches ← (pyText beam "number_bunches").bind pyFloat
  let bunches_distance ← (pyText beam "bunches_distance").bind pyFloat
  let velocity ← (pyText beam "initial_velocity").bind pyFloat
  let particles_e ← (docByTag root "particles").head?
  let particles ← (byTag particles_e "particle_specie").mapM pySpecie
  let time ← (docByTag root "time").head?
  let start_time ← (pyText time "start_time").bind pyFloat
  let end_time ← (pyText time "end_time").bind pyFloat
  let step_interval ← (pyText time "step_interval").bind pyFloat
  let _ ← pyPlot root
  return ⟨hdf5, nr, nz, r_size, z_size, probes, data_root, pyDataPath file result_path, fpf, bunch_density, bunch_radius,
    bunch_length, number_bunches, bunches_distance, velocity, particles, start_time, end_time, step_interval⟩

/-- `__data_path__` of the reader that the tools make, tools/lib/plain_reader.py:24, tools/movie_1_density_map.py:43-47 -/
def pyReaderRoot (p : PyParams) : List Char := normpath (pathJoin p.data_path p.data_root)

/-- `get_frame_number_by_timestamp`, tools/lib/parameters.py:201-203 -/
noncomputable def frameByTime (p : PyParams) (timestamp : ℝ) (dump_interval : ℤ) : ℤ :=
  npRound (timestamp / p.step_interval / dump_interval)

/-- `get_timestamp_by_frame_number`, tools/lib/parameters.py:206-208 -/
noncomputable def timeByFrame (p : PyParams) (frame dump_interval : ℤ) : ℝ := frame * p.step_interval * dump_interval

/-- `get_row_by_radius`, tools/lib/parameters.py:229-230 -/
noncomputable def rowByRadius (p : PyParams) (radius : ℝ) : ℤ := npRound (radius * p.number_r_grid / p.r_size)

/-- `get_col_by_longitude`, tools/lib/parameters.py:233-234 -/
noncomputable def colByLongitude (p : PyParams) (longitude : ℝ) : ℤ := npRound (longitude * p.number_z_grid / p.z_size)

/-- `get_radius_by_row`, tools/lib/parameters.py:237-239 -/
noncomputable def radiusByRow (p : PyParams) (row : ℤ) : ℝ := row * p.r_size / p.number_r_grid

/-- `get_longitude_by_col`, tools/lib/parameters.py:242-243 -/
noncomputable def longitudeByCol (p : PyParams) (col : ℤ) : ℝ := col * p.z_size / p.number_z_grid

/-- `get_clim_estimation`, tools/lib/parameters.py:211-226 -/
noncomputable def climEstimation (p : PyParams) : ℝ :=
  (p.particles.map fun s => 1 / 100000 * (if s.left_density > s.right_density then s.left_density else s.right_density)
    * s.temperature * Real.sqrt p.step_interval).sum

end Verif
