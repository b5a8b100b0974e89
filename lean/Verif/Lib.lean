import Mathlib.Data.List.Basic
import Mathlib.Data.Int.Notation
import Mathlib.Logic.Function.Basic

/-!
# Command line, elapsed time and directory creation

Models src/main.cpp and parts of src/lib.cpp.
-/

namespace Verif

/-! ## Command line -/

/-- `std::find(begin, end, option)` as the rest of the argument vector from the match on; `[]` is `end` -/
def findArg (option : String) : List String → List String
  | [] => []
  | a :: as => if a = option then a :: as else findArg option as

/-- `lib::cmd_option_exists`, src/lib.cpp:192-195 -/
def cmdOptionExists (argv : List String) (option : String) : Bool :=
  match findArg option argv with
  | [] => false
  | _ => true

/-- `lib::get_cmd_option`, src/lib.cpp:184-190; `none` is the null pointer -/
def getCmdOption (argv : List String) (option : String) : Option String :=
  match findArg option argv with
  | [] => none
  | [_] => none
  | _ :: v :: _ => some v

/-- What the program does: prints and exits with a code, or runs with a configuration file. -/
inductive CliAction
  | usage (code : ℕ)
  | version (code : ℕ)
  | missingPath (code : ℕ)
  | run (config : String)
  deriving DecidableEq

/-- `main`, src/main.cpp:6-73. `argv` includes the program name, which is searched like the other
arguments. -/
def cliMain (argv : List String) : CliAction :=
  if cmdOptionExists argv "-h" then .usage 1
  else if cmdOptionExists argv "--version" then .version 0
  else if cmdOptionExists argv "-f" then
    match getCmdOption argv "-f" with
    | none => .missingPath 1
    | some f => .run f
  else .run "parameters.xml"

/-! ## Elapsed time -/

/-- `lib::get_simulation_duration`, src/lib.cpp:82-120: the numbers and units that are printed. The
difference of two `time` values is a whole number; `(int)` of a quotient of non-negative numbers is
integer division. -/
def durationParts (t : ℤ) : List (ℤ × Char) :=
  if t > 60 ∧ t < 3600 then
    let m := t / 60
    [(m, 'm'), (t - m * 60, 's')]
  else if t > 3600 ∧ t < 86400 then
    let h := t / 3600
    let m := (t - h * 3600) / 60
    [(h, 'h'), (m, 'm'), (t - h * 3600 - m * 60, 's')]
  else if t > 86400 then
    let d := t / 86400
    let h := (t - d * 86400) / 3600
    let m := (t - d * 86400 - h * 3600) / 60
    [(d, 'd'), (h, 'h'), (m, 'm'), (t - d * 86400 - h * 3600 - m * 60, 's')]
  else [(t, 's')]

/-- The characters `sprintf` produces for the parts, src/lib.cpp:99, 106, 114, 117 -/
def durationText (t : ℤ) : List Char :=
  [' '].intercalate ((durationParts t).map fun p => (toString p.1).toList ++ [p.2])

/-- Size of the buffer: `char* the_time = new char;`, src/lib.cpp:89 -/
def durationBuffer : ℕ := 1

/-! ## Directories -/

/-- What a name in the file system is -/
inductive Kind
  | dir | file
  deriving DecidableEq

/-- A resolved name: the components from the root -/
abbrev Name := List (List Char)

/-- File system: directories and other files, no links -/
abbrev FS := Name → Option Kind

/-- Components of a path text between the slashes, with empty ones -/
def splitSlash : List Char → List (List Char)
  | [] => [[]]
  | c :: cs =>
    if c = '/' then [] :: splitSlash cs
    else match splitSlash cs with
      | [] => [[c]]
      | w :: ws => (c :: w) :: ws

/-- Components that matter: empty ones and `.` are skipped; `..` is not modelled -/
def comps (p : List Char) : Name := (splitSlash p).filter fun w => w ≠ [] ∧ w ≠ ['.']

/-- Resolution of a path text -/
def resolve (cwd : Name) (p : List Char) : Name :=
  if p.head? = some '/' then comps p else cwd ++ comps p

inductive MkErr
  | enoent | eexist | other
  deriving DecidableEq

/-- First component on the way that is not a directory: missing gives `ENOENT`, a file `ENOTDIR`. -/
def wayError (fs : FS) : Name → Name → Option MkErr
  | pre, [] => match fs pre with
    | some .dir => none
    | some .file => some .other
    | none => some .enoent
  | pre, w :: ws => match fs pre with
    | some .dir => wayError fs (pre ++ [w]) ws
    | some .file => some .other
    | none => some .enoent

/-- POSIX `mkdir`. `fails` are names for which it fails for another reason (permissions, quota). -/
def mkdir (cwd : Name) (fails : Name → Bool) (fs : FS) (p : List Char) : FS × Option MkErr :=
  if p = [] then (fs, some .enoent)
  else
    let q := resolve cwd p
    if q = [] then (fs, some .eexist)
    else match wayError fs [] q.dropLast with
      | some e => (fs, some e)
      | none =>
        if fs q ≠ none then (fs, some .eexist)
        else if fails q then (fs, some .other)
        else (Function.update fs q (some .dir), none)

/-- `lib::directory_exists`, src/lib.cpp:123-136 -/
def directoryExists (cwd : Name) (fs : FS) (p : List Char) : Bool :=
  decide (fs (resolve cwd p) = some .dir)

/-- `path.substr(0, path.find_last_of('/'))`, src/lib.cpp:159-166; `none` if there is no slash -/
def beforeLastSlash (p : List Char) : Option (List Char) :=
  match p.reverse.dropWhile (· ≠ '/') with
  | [] => none
  | _ :: r => some r.reverse

theorem beforeLastSlash_lt {p r : List Char} (h : beforeLastSlash p = some r) : r.length < p.length := by
  unfold beforeLastSlash at h
  split at h
  · cases h
  · rename_i c r' hr
    cases h
    have := (List.dropWhile_suffix (l := p.reverse) (fun c => decide (c ≠ '/'))).length_le
    rw [hr] at this
    simp at this ⊢
    omega

/-- `lib::make_directory`, src/lib.cpp:138-182: new file system and result -/
def makeDirectory (cwd : Name) (fails : Name → Bool) (fs : FS) (p : List Char) : FS × Bool :=
  match mkdir cwd fails fs p with
  | (fs1, none) => (fs1, true)
  | (fs1, some .enoent) =>
    match _h : beforeLastSlash p with
    | none => (fs1, false)
    | some parent =>
      match makeDirectory cwd fails fs1 parent with
      | (fs2, false) => (fs2, false)
      | (fs2, true) =>
        match mkdir cwd fails fs2 p with
        | (fs3, none) => (fs3, true)
        | (fs3, some _) => (fs3, false)
  | (fs1, some .eexist) => (fs1, directoryExists cwd fs1 p)
  | (fs1, some .other) => (fs1, false)
termination_by p.length
decreasing_by exact beforeLastSlash_lt _h

end Verif
