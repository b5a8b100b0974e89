import Verif.Output

/-!
# Reading the configuration file

Models `Parameters` (src/parameters.cpp, include/parameters.h; the build without LEGACY) on the tree of elements
that tinyxml2 makes of the file.  tinyxml2 itself is not in the source and is trusted.  Doubles are exact.
-/

namespace Verif

/-- An element of the parsed file: name, attributes, what `GetText` returns (`none` is the null pointer, for an
empty element), and the child elements in the order of the file -/
inductive Xml where
  | elem (name : String) (attrs : List (String × List Char)) (text : Option (List Char)) (children : List Xml)

/-- `Name` -/
def Xml.name : Xml → String
  | .elem n _ _ _ => n

/-- `Attribute`; `none` is the null pointer -/
def Xml.attr? : Xml → String → Option (List Char)
  | .elem _ as _ _, a => (as.find? fun x => x.1 = a).map Prod.snd

/-- `GetText` -/
def Xml.text? : Xml → Option (List Char)
  | .elem _ _ t _ => t

def Xml.children : Xml → List Xml
  | .elem _ _ _ l => l

/-- The child elements of a name: `FirstChildElement` gives the first, `NextSiblingElement` the following -/
def Xml.named (e : Xml) (name : String) : List Xml := e.children.filter fun x => x.name = name

/-- How reading ends otherwise than with a configuration: `abort()`, `exit(n)`, or undefined behaviour -/
inductive LoadErr
  | abort
  | exit (code : ℕ)
  | ub
  deriving DecidableEq

abbrev Load := Except LoadErr

/-- `try_first_child`, src/parameters.cpp:44-58 -/
def tryFirstChild (e : Xml) (name : String) : Load Xml :=
  match e.named name with
  | [] => .error .abort
  | x :: _ => .ok x

/-- `try_atribute`, src/parameters.cpp:60-74 -/
def tryAttribute (e : Xml) (name : String) : Load (List Char) :=
  match e.attr? name with
  | none => .error .abort
  | some v => .ok v

/-! ## Numbers -/

/-- `isspace` in the C locale -/
def isSpaceC (c : Char) : Bool := c ∈ [' ', '\t', '\n', '\x0b', '\x0c', '\r']

/-- An optional sign -/
def splitSign : List Char → Bool × List Char
  | '-' :: t => (true, t)
  | '+' :: t => (false, t)
  | t => (false, t)

/-- The value of decimal digits -/
def digitsVal (l : List Char) : ℕ := l.foldl (fun a c => a * 10 + (c.toNat - 48)) 0

/-- C `atoi`: white space, a sign, digits; the rest is ignored.  Without digits it is 0. -/
def atoi (s : List Char) : ℤ :=
  let p := splitSign (s.dropWhile isSpaceC)
  let v : ℤ := digitsVal (p.2.takeWhile Char.isDigit)
  if p.1 then -v else v

/-- The digits after a point, and the rest -/
def splitFrac : List Char → List Char × List Char
  | '.' :: t => (t.takeWhile Char.isDigit, t.dropWhile Char.isDigit)
  | t => ([], t)

/-- The exponent: a letter e, a sign and at least one digit, or else there is none -/
def exponent : List Char → ℤ
  | c :: t =>
    if c = 'e' ∨ c = 'E' then
      let p := splitSign t
      let v : ℤ := digitsVal (p.2.takeWhile Char.isDigit)
      if p.1 then -v else v
    else 0
  | [] => 0

/-- C `atof`: white space, a sign, digits with a point, an exponent; the rest is ignored; without digits it is
0.  Hexadecimal numbers, infinities and NaN are left out, and so is rounding. -/
noncomputable def atof (s : List Char) : ℝ :=
  let p := splitSign (s.dropWhile isSpaceC)
  let ip := p.2.takeWhile Char.isDigit
  let q := splitFrac (p.2.dropWhile Char.isDigit)
  if ip = [] ∧ q.1 = [] then 0
  else
    let v : ℝ := digitsVal (ip ++ q.1) * (10 : ℝ) ^ (exponent q.2 - q.1.length)
    if p.1 then -v else v

/-- `lib::to_bool`, src/lib.cpp:36-43: reading a bool with `boolalpha` takes `true` or `false` after white space and
does not look further; anything else gives `false` (C++11). -/
def toBool (s : List Char) : Bool :=
  ['t', 'r', 'u', 'e'].isPrefixOf ((s.map Char.toLower).dropWhile isSpaceC)

/-- Conversion of a null pointer to text is undefined. -/
def textOf (e : Xml) : Load (List Char) :=
  match e.text? with
  | none => .error .ub
  | some t => .ok t

/-- `atoi(...)` where the value has to fit an `int` (C leaves the rest undefined) -/
def intText (s : List Char) : Load ℤ :=
  if -2 ^ 31 ≤ atoi s ∧ atoi s < 2 ^ 31 then .ok (atoi s) else .error .ub

/-- `atoi(try_first_child(e, name)->GetText())` -/
def intChild (e : Xml) (name : String) : Load ℤ := do intText (← textOf (← tryFirstChild e name))

/-- the same assigned to an `unsigned int` -/
def uintChild (e : Xml) (name : String) : Load ℤ := do return u32 (← intChild e name)

/-- `atof(try_first_child(e, name)->GetText())` -/
noncomputable def realChild (e : Xml) (name : String) : Load ℝ := do return atof (← textOf (← tryFirstChild e name))

/-- `lib::to_bool(try_first_child(e, name)->GetText())` -/
def boolChild (e : Xml) (name : String) : Load Bool := do return toBool (← textOf (← tryFirstChild e name))

/-- `atoi(try_atribute(e, name))` -/
def intAttr (e : Xml) (name : String) : Load ℤ := do intText (← tryAttribute e name)

/-- Conversion of a double to `unsigned int`: the fraction is dropped, and what does not fit is undefined. -/
noncomputable def toUnsigned (x : ℝ) : Load ℤ :=
  open Classical in if -1 < x ∧ x < 2 ^ 32 then .ok (max 0 ⌊x⌋) else .error .ub

/-! ## Parameters -/

/-- `particle_specie`, include/parameters.h:31-39 -/
structure SpecieSettings where
  name : List Char
  charge : ℤ
  mass : ℤ
  number_macro : ℝ
  left_density : ℝ
  right_density : ℝ
  temperature : ℝ

/-- The beam, include/parameters.h:83-106; the name may be the null pointer -/
structure BeamParams where
  name : Option (List Char)
  charge : ℤ
  mass : ℤ
  number_bunches : ℤ
  bunches_distance : ℝ
  initial_velocity : ℝ
  number_macro : ℤ
  length : ℝ
  radius : ℝ
  density : ℝ

/-- Arguments of the geometry, src/parameters.cpp:215-227 -/
structure GeomCfg where
  r_size : ℝ
  z_size : ℝ
  n_grid_r : ℤ
  n_grid_z : ℤ

/-- Absorbing layer, include/parameters.h:63-68 -/
structure PmlSettings where
  l_1 : ℝ
  l_2 : ℝ
  l_3 : ℝ
  sigma_1 : ℝ
  sigma_2 : ℝ

/-- `Time`, include/pdp3Time.h:3-16 -/
structure TimeCfg where
  current_time : ℝ
  start_time : ℝ
  relaxation_time : ℝ
  end_time : ℝ
  delta_t : ℝ

/-- Output, include/parameters.h:113-119; texts may be null pointers -/
structure DumpCfg where
  result_path : Option (List Char)
  data_root : Option (List Char)
  frames_per_file : ℤ
  compress : Bool
  compress_level : ℤ

/-- `Parameters`, include/parameters.h:41-141 -/
structure Config where
  debug : Bool
  use_hdf5 : Bool
  geom : GeomCfg
  pml : PmlSettings
  time : TimeCfg
  species : List SpecieSettings
  beam : BeamParams
  dump : DumpCfg
  probes : List ProbeDecl

/-- `init_geometry`, src/parameters.cpp:210-231 -/
noncomputable def loadGeometry (debug : Bool) (root : Xml) : Load GeomCfg := do
  let e ← tryFirstChild root "geometry"
  let r ← realChild e "r_size"
  let z ← realChild e "z_size"
  let nr ← intChild e (if debug then "debug_n_grid_r" else "n_grid_r")
  let nz ← intChild e (if debug then "debug_n_grid_z" else "n_grid_z")
  return ⟨r, z, nr, nz⟩

/-- `init_pml`, src/parameters.cpp:233-253 (the layer itself is in YeeModel.lean) -/
noncomputable def loadPml (root : Xml) : Load PmlSettings := do
  let e ← tryFirstChild root "pml"
  let l1 ← realChild e "comparative_l_1"
  let l2 ← realChild e "comparative_l_2"
  let l3 ← realChild e "comparative_l_3"
  let s1 ← realChild e "sigma_1"
  let s2 ← realChild e "sigma_2"
  return ⟨l1, l2, l3, s1, s2⟩

/-- `init_time`, src/parameters.cpp:255-268, with the constructor of src/pdp3Time.cpp:11-18 -/
noncomputable def loadTime (root : Xml) : Load TimeCfg := do
  let e ← tryFirstChild root "time"
  let st ← realChild e "start_time"
  let rt ← realChild e "relaxation_time"
  let ct ← realChild e "current_time"
  let et ← realChild e "end_time"
  let dt ← realChild e "step_interval"
  return ⟨ct, st, rt, et, dt⟩

/-- One round of the loop of `init_particles`, src/parameters.cpp:84-97 -/
noncomputable def loadSpecie (debug : Bool) (e : Xml) : Load SpecieSettings := do
  let name ← tryAttribute e "name"
  let charge ← intChild e "charge"
  let mass ← uintChild e "mass"
  let macros ← realChild e (if debug then "debug_number_macro" else "number_macro")
  let l ← realChild e "left_density"
  let r ← realChild e "right_density"
  let t ← realChild e "temperature"
  return ⟨name, charge, mass, macros, l, r, t⟩

/-- `init_particles`, src/parameters.cpp:76-101 -/
noncomputable def loadParticles (debug : Bool) (root : Xml) : Load (List SpecieSettings) := do
  let e ← tryFirstChild root "particles"
  let _ ← tryFirstChild e "particle_specie"
  (e.named "particle_specie").mapM (loadSpecie debug)

/-- `init_beam`, src/parameters.cpp:177-200: the name is taken with `Attribute`, without a check -/
noncomputable def loadBeam (debug : Bool) (root : Xml) : Load BeamParams := do
  let e ← tryFirstChild root "particle_beam"
  let charge ← intChild e "charge"
  let mass ← uintChild e "mass"
  let bunches ← uintChild e "number_bunches"
  let distance ← realChild e "bunches_distance"
  let velocity ← realChild e "initial_velocity"
  let macros ← toUnsigned (← realChild e (if debug then "debug_bunch_number_macro" else "bunch_number_macro"))
  let length ← realChild e "bunch_length"
  let radius ← realChild e "bunch_radius"
  let density ← realChild e "bunch_density"
  return ⟨e.attr? "name", charge, mass, bunches, distance, velocity, macros, length, radius, density⟩

/-- `init_data_dump_parameters`, src/parameters.cpp:270-301; the two texts are stored as they are -/
noncomputable def loadDump (debug : Bool) (root : Xml) : Load DumpCfg := do
  let e ← tryFirstChild root "file_save_parameters"
  let path ← tryFirstChild e "result_path"
  let data ← tryFirstChild e (if debug then "debug_data_root" else "data_root")
  let fpf ← uintChild e "frames_per_file"
  let c ← boolChild e "compress"
  let cl ← intChild e "compress_level"
  return ⟨path.text?, data.text?, fpf, c, cl⟩

/-- One round of the loop of `init_probes`, src/parameters.cpp:116-173.  The numbers go through `unsigned int` and
back to `int` (src/loadInitParam.cpp:76-80), which changes nothing. -/
noncomputable def loadProbe (g : GeomCfg) (e : Xml) : Load ProbeDecl := do
  let component ← tryAttribute e "component"
  let specie := (e.attr? "specie").getD noneText
  let type ← tryAttribute e "type"
  if type = "frame".toList then
    let a ← intAttr e "r_start"
    let b ← intAttr e "r_end"
    let c ← intAttr e "z_start"
    let d ← intAttr e "z_end"
    let s ← intAttr e "schedule"
    return ⟨.frame, component, specie, a, c, b, d, s⟩
  else if type = "col".toList then
    let c ← intAttr e "z"
    let s ← intAttr e "schedule"
    return ⟨.col, component, specie, 0, c, g.n_grid_r, -1, s⟩
  else if type = "row".toList then
    let a ← intAttr e "r"
    let s ← intAttr e "schedule"
    return ⟨.row, component, specie, a, 0, -1, g.n_grid_z, s⟩
  else if type = "dot".toList then
    let a ← intAttr e "r"
    let c ← intAttr e "z"
    let s ← intAttr e "schedule"
    return ⟨.dot, component, specie, a, c, -1, -1, s⟩
  else if type = "mpframe".toList then
    let a ← intAttr e "r_start"
    let b ← intAttr e "r_end"
    let c ← intAttr e "z_start"
    let d ← intAttr e "z_end"
    let s ← intAttr e "schedule"
    return ⟨.mpframe, component, specie, a, c, b, d, s⟩
  else throw (.exit 1)

/-- `init_probes`, src/parameters.cpp:103-175 -/
noncomputable def loadProbes (g : GeomCfg) (root : Xml) : Load (List ProbeDecl) := do
  let e ← tryFirstChild (← tryFirstChild root "file_save_parameters") "probes"
  let _ ← tryFirstChild e "probe"
  (e.named "probe").mapM (loadProbe g)

/-- `Parameters::Parameters`, src/parameters.cpp:6-42.  `none` is a file that cannot be read or parsed.  If the
outermost element has another name, `xml_data` is the null pointer and is used. -/
noncomputable def loadConfig (doc : Option Xml) : Load Config :=
  match doc with
  | none => throw (.exit 78)
  | some root =>
    if root.name ≠ "initial_parameters" then throw .ub
    else do
      let debug ← boolChild root "debug"
      let hdf5 ← boolChild root "use_hdf5"
      let g ← loadGeometry debug root
      let pml ← loadPml root
      let time ← loadTime root
      let species ← loadParticles debug root
      let beam ← loadBeam debug root
      let dump ← loadDump debug root
      let probes ← loadProbes g root
      return ⟨debug, hdf5, g, pml, time, species, beam, dump, probes⟩

/-! ## First uses of the texts -/

/-- The name of a bunch, src/loadInitParam.cpp:176-182, made at every step; the buffer has 100 characters (with the zero
at the end).  `none`: copying from the null pointer, or beyond the buffer. -/
def bunchName (name : Option (List Char)) (n : ℕ) : Option (List Char) :=
  name.bind fun b => if Fits (b ++ '#' :: dec n) 100 then some (b ++ '#' :: dec n) else none

/-- What the constructor of `LoadInitParam` does with the output settings, src/loadInitParam.cpp:49-86 (build without
HDF5 and LEGACY): exit, or construction of all probes.  `%s` of a null pointer is undefined. -/
def startOutput (c : Config) : Load (List (List Char)) :=
  if c.use_hdf5 then .error (.exit 1)
  else c.probes.mapM fun p =>
    match c.dump.result_path, c.dump.data_root with
    | some a, some b =>
      match newProbe a b p with
      | some root => .ok root
      | none => .error .ub
    | _, _ => .error .ub

end Verif
