import Verif.ConfigNum

/-!
# Specification of the configuration file

What a configuration describes, and the file that describes it, with the layout of parameters.xml.in.
-/

namespace Verif

def leafE (name : String) (text : List Char) : Xml := .elem name [] (some text) []
def nodeE (name : String) (children : List Xml) : Xml := .elem name [] none children
def boolText (b : Bool) : List Char := if b then "true".toList else "false".toList

/-- A species of the file -/
structure SpecieDesc where
  name : List Char
  charge : ℤ
  mass : ℕ
  number_macro : Lit
  debug_number_macro : Lit
  left_density : Lit
  right_density : Lit
  temperature : Lit

/-- parameters.xml.in:46-65 -/
def SpecieDesc.xml (d : SpecieDesc) : Xml :=
  .elem "particle_specie" [("name", d.name)] none
    [leafE "charge" (fmtInt d.charge), leafE "mass" (fmtInt d.mass), leafE "number_macro" d.number_macro.text,
     leafE "debug_number_macro" d.debug_number_macro.text, leafE "left_density" d.left_density.text,
     leafE "right_density" d.right_density.text, leafE "temperature" d.temperature.text]

noncomputable def SpecieDesc.meaning (debug : Bool) (d : SpecieDesc) : SpecieSettings :=
  ⟨d.name, d.charge, d.mass, (if debug then d.debug_number_macro else d.number_macro).value, d.left_density.value,
   d.right_density.value, d.temperature.value⟩

/-- A probe of the file, with its optional species -/
inductive Window
  | frame (r_start z_start r_end z_end : ℤ)
  | col (z : ℤ)
  | row (r : ℤ)
  | dot (r z : ℤ)
  | mpframe (r_start z_start r_end z_end : ℤ)

structure ProbeDesc where
  component : List Char
  specie : Option (List Char)
  window : Window
  schedule : ℤ

def Window.attrs : Window → List (String × List Char)
  | .frame a c b d => [("type", "frame".toList), ("r_start", fmtInt a), ("z_start", fmtInt c), ("r_end", fmtInt b),
      ("z_end", fmtInt d)]
  | .col z => [("type", "col".toList), ("z", fmtInt z)]
  | .row r => [("type", "row".toList), ("r", fmtInt r)]
  | .dot r z => [("type", "dot".toList), ("r", fmtInt r), ("z", fmtInt z)]
  | .mpframe a c b d => [("type", "mpframe".toList), ("r_start", fmtInt a), ("z_start", fmtInt c), ("r_end", fmtInt b),
      ("z_end", fmtInt d)]

/-- parameters.xml.in:98-105 -/
def ProbeDesc.xml (d : ProbeDesc) : Xml :=
  .elem "probe" (d.window.attrs ++ [("schedule", fmtInt d.schedule), ("component", d.component)]
    ++ (match d.specie with
        | none => []
        | some s => [("specie", s)])) none []

/-- A column has all rows of the grid and a row all columns; a dot has no end. -/
def ProbeDesc.meaning (nr nz : ℤ) (d : ProbeDesc) : ProbeDecl :=
  match d.window with
  | .frame a c b e => ⟨.frame, d.component, d.specie.getD noneText, a, c, b, e, d.schedule⟩
  | .col z => ⟨.col, d.component, d.specie.getD noneText, 0, z, nr, -1, d.schedule⟩
  | .row r => ⟨.row, d.component, d.specie.getD noneText, r, 0, -1, nz, d.schedule⟩
  | .dot r z => ⟨.dot, d.component, d.specie.getD noneText, r, z, -1, -1, d.schedule⟩
  | .mpframe a c b e => ⟨.mpframe, d.component, d.specie.getD noneText, a, c, b, e, d.schedule⟩

/-- A configuration -/
structure Desc where
  debug : Bool
  use_hdf5 : Bool
  r_size : Lit
  z_size : Lit
  n_grid_r : ℤ
  n_grid_z : ℤ
  debug_n_grid_r : ℤ
  debug_n_grid_z : ℤ
  l_1 : Lit
  l_2 : Lit
  l_3 : Lit
  sigma_1 : Lit
  sigma_2 : Lit
  start_time : Lit
  relaxation_time : Lit
  current_time : Lit
  end_time : Lit
  step_interval : Lit
  species : List SpecieDesc
  /-- the name may be missing -/
  beam_name : Option (List Char)
  beam_charge : ℤ
  beam_mass : ℕ
  initial_velocity : Lit
  number_bunches : ℕ
  bunches_distance : Lit
  bunch_number_macro : Lit
  debug_bunch_number_macro : Lit
  bunch_length : Lit
  bunch_radius : Lit
  bunch_density : Lit
  /-- these three may be empty elements -/
  result_path : Option (List Char)
  data_root : Option (List Char)
  debug_data_root : Option (List Char)
  frames_per_file : ℕ
  compress : Bool
  compress_level : ℤ
  probes : List ProbeDesc

/-- The file, parameters.xml.in (without the parts that the simulator does not read) -/
def Desc.xml (d : Desc) : Xml :=
  nodeE "initial_parameters"
    [leafE "debug" (boolText d.debug), leafE "use_hdf5" (boolText d.use_hdf5),
     nodeE "geometry" [leafE "r_size" d.r_size.text, leafE "z_size" d.z_size.text, leafE "n_grid_r" (fmtInt d.n_grid_r),
       leafE "n_grid_z" (fmtInt d.n_grid_z), leafE "debug_n_grid_r" (fmtInt d.debug_n_grid_r),
       leafE "debug_n_grid_z" (fmtInt d.debug_n_grid_z)],
     nodeE "pml" [leafE "comparative_l_1" d.l_1.text, leafE "comparative_l_2" d.l_2.text,
       leafE "comparative_l_3" d.l_3.text, leafE "sigma_1" d.sigma_1.text, leafE "sigma_2" d.sigma_2.text],
     nodeE "time" [leafE "start_time" d.start_time.text, leafE "relaxation_time" d.relaxation_time.text,
       leafE "current_time" d.current_time.text, leafE "end_time" d.end_time.text,
       leafE "step_interval" d.step_interval.text],
     nodeE "particles" (d.species.map SpecieDesc.xml),
     .elem "particle_beam" (d.beam_name.toList.map fun s => ("name", s)) none [leafE "charge" (fmtInt d.beam_charge),
       leafE "mass" (fmtInt d.beam_mass), leafE "initial_velocity" d.initial_velocity.text,
       leafE "number_bunches" (fmtInt d.number_bunches), leafE "bunches_distance" d.bunches_distance.text,
       leafE "bunch_number_macro" d.bunch_number_macro.text,
       leafE "debug_bunch_number_macro" d.debug_bunch_number_macro.text, leafE "bunch_length" d.bunch_length.text,
       leafE "bunch_radius" d.bunch_radius.text, leafE "bunch_density" d.bunch_density.text],
     nodeE "file_save_parameters" [.elem "result_path" [] d.result_path [], .elem "data_root" [] d.data_root [],
       .elem "debug_data_root" [] d.debug_data_root [], leafE "frames_per_file" (fmtInt d.frames_per_file),
       leafE "compress" (boolText d.compress), leafE "compress_level" (fmtInt d.compress_level),
       nodeE "probes" (d.probes.map ProbeDesc.xml)]]

def Desc.nr (d : Desc) : ℤ := if d.debug then d.debug_n_grid_r else d.n_grid_r
def Desc.nz (d : Desc) : ℤ := if d.debug then d.debug_n_grid_z else d.n_grid_z

/-- What the file means -/
noncomputable def Desc.meaning (d : Desc) : Config :=
  { debug := d.debug
    use_hdf5 := d.use_hdf5
    geom := ⟨d.r_size.value, d.z_size.value, d.nr, d.nz⟩
    pml := ⟨d.l_1.value, d.l_2.value, d.l_3.value, d.sigma_1.value, d.sigma_2.value⟩
    time := ⟨d.current_time.value, d.start_time.value, d.relaxation_time.value, d.end_time.value, d.step_interval.value⟩
    species := d.species.map (SpecieDesc.meaning d.debug)
    beam :=
      { name := d.beam_name
        charge := d.beam_charge
        mass := d.beam_mass
        number_bunches := d.number_bunches
        bunches_distance := d.bunches_distance.value
        initial_velocity := d.initial_velocity.value
        number_macro := ⌊(if d.debug then d.debug_bunch_number_macro else d.bunch_number_macro).value⌋
        length := d.bunch_length.value
        radius := d.bunch_radius.value
        density := d.bunch_density.value }
    dump := ⟨d.result_path, if d.debug then d.debug_data_root else d.data_root, d.frames_per_file, d.compress,
      d.compress_level⟩
    probes := d.probes.map (ProbeDesc.meaning d.nr d.nz) }

/-- An `int` -/
def Int32 (n : ℤ) : Prop := -2 ^ 31 ≤ n ∧ n < 2 ^ 31

def Window.Fits32 : Window → Prop
  | .frame a b c d => Int32 a ∧ Int32 b ∧ Int32 c ∧ Int32 d
  | .col z => Int32 z
  | .row r => Int32 r
  | .dot r z => Int32 r ∧ Int32 z
  | .mpframe a b c d => Int32 a ∧ Int32 b ∧ Int32 c ∧ Int32 d

/-- The whole numbers fit an `int`, the number of particles of a bunch an `unsigned int`, and there is at least one
species and one probe. -/
structure Desc.Ok (d : Desc) : Prop where
  nr : Int32 d.nr
  nz : Int32 d.nz
  species : ∀ s ∈ d.species, Int32 s.charge ∧ Int32 s.mass
  species_ne : d.species ≠ []
  beam : Int32 d.beam_charge ∧ Int32 d.beam_mass ∧ Int32 d.number_bunches
  macros : 0 ≤ (if d.debug then d.debug_bunch_number_macro else d.bunch_number_macro).value ∧
    (if d.debug then d.debug_bunch_number_macro else d.bunch_number_macro).value < 2 ^ 32
  fpf : Int32 d.frames_per_file
  level : Int32 d.compress_level
  probes : ∀ p ∈ d.probes, p.window.Fits32 ∧ Int32 p.schedule
  probes_ne : d.probes ≠ []

end Verif
