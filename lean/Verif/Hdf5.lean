import Verif.Reader
import Verif.Diag

/-!
# The HDF5 back end

Models `IOHDF5` (src/ioHDF5.cpp), the dumps of a run built with `--enable-legacy --enable-hdf5`
(src/loadInitParam.cpp) and `H5Reader` (tools/lib/h5_reader.py) without its cache.

The HDF5 library itself is not modelled: a file is the list of its two-dimensional data sets, each with the group it
is in and its name there. Its calls are taken to succeed.
-/

namespace Verif

/-- The data sets of a file: group, name in the group, rows. -/
abbrev H5File := List ((List Char × List Char) × List (List ℝ))

/-- a data set -/
def H5File.get (f : H5File) (k : List Char × List Char) : Option (List (List ℝ)) := f.lookup k

/-- overwriting a data set in its place -/
def H5File.put (f : H5File) (k : List Char × List Char) (t : List (List ℝ)) : H5File :=
  f.map fun e => if e.1 = k then (e.1, t) else e

/-- number of links in a group -/
def H5File.members (f : H5File) (g : List Char) : ℕ := (f.filter fun e => e.1.1 = g).length

/-! ## Writing -/

/-- The file after construction, src/ioHDF5.cpp:8-42: `H5F_ACC_TRUNC` drops what was there. -/
def h5Create : H5File := []

/-- the name of the file, src/ioHDF5.cpp:17-26; `none`: the buffer of 100 bytes overflows -/
def h5Name (path_result : List Char) : Option (List Char) :=
  let name := path_result ++ ['d', 'a', 't', 'a', '.', 'h', '5']
  if name.length < 100 then some name else none

/-- `result_group_name` followed by a slash, src/ioHDF5.cpp:28-30 -/
def h5Result : List Char := ['/', 'p', 'd', 'p', '3', '/', 'r', 'e', 's', 'u', 'l', 't', '/']

/-- The copy of the array, src/ioHDF5.cpp:96-99: `dv` on the stack of `stack` bytes, elements of `out_value` in range
of the allocated array. `none` is undefined behaviour (an array of size 0 or an overflow of the stack included). -/
noncomputable def h5Copy (stack : ℕ) (A : ArrSize) (a : Grid) (r z : ℕ) : Option (List (List ℝ)) :=
  if 0 < r ∧ 0 < z ∧ 8 * (r * z) ≤ stack ∧ r ≤ A.ptrs ∧ z ≤ A.cols then
    some ((List.range r).map fun i : ℕ => (List.range z).map fun j : ℕ => a i j)
  else none

/-- `dump_h5_dataset`, src/ioHDF5.cpp:84-145: the data set is created, or, if it exists, written with its own
dimensions (`H5S_ALL`): as many numbers as it holds are taken from `dv`, in order. `none` if that is more than there
are or the name does not fit its 200 bytes. -/
noncomputable def dumpDataset (stack : ℕ) (A : ArrSize) (f : H5File) (group name : List Char) (a : Grid) (r z : ℕ) :
    Option H5File :=
  if group.length + 1 + (group.length + 1 + name.length) < 200 then
    (h5Copy stack A a r z).bind fun t =>
      match f.get (group, name) with
      | none => some (f ++ [((group, name), t)])
      | some old =>
        let w := (old.map List.length).headD 0
        if old.length * w ≤ r * z then some (f.put (group, name) (chunk old.length w t.flatten)) else none
  else none

/-- `out_data`, src/ioHDF5.cpp:197-211 -/
noncomputable def h5OutData (stack : ℕ) (A : ArrSize) (f : H5File) (comp : List Char) (a : Grid) (step r z : ℕ) :
    Option H5File :=
  dumpDataset stack A f (h5Result ++ comp) (dec step) a r z

/-- The components that a run can dump, with the name of each, src/loadInitParam.cpp:404-452 -/
inductive LegacyComp
  | er | ephi | ez | hr | hphi | hz | jr | jphi | jz | rho
  deriving DecidableEq

/-- the names, src/loadInitParam.cpp:404-452 -/
def LegacyComp.name : LegacyComp → List Char
  | .er => ['E', '_', 'r']
  | .ephi => ['E', '_', 'p', 'h', 'i']
  | .ez => ['E', '_', 'z']
  | .hr => ['H', '_', 'r']
  | .hphi => ['H', '_', 'p', 'h', 'i']
  | .hz => ['H', '_', 'z']
  | .jr => ['J', '_', 'r']
  | .jphi => ['J', '_', 'p', 'h', 'i']
  | .jz => ['J', '_', 'z']
  | .rho => ['r', 'h', 'o', '_', 'b', 'e', 'a', 'm']

/-- the order of the dumps, src/loadInitParam.cpp:404-452 -/
def LegacyComp.all : List LegacyComp := [.er, .ephi, .ez, .hr, .hphi, .hz, .jr, .jphi, .jz, .rho]

/-- `dump_data` of a `LEGACY` build, src/loadInitParam.cpp:403-454: the components chosen by `flags`, each with the
`out_data` of the back end -/
def legacyDump {σ} (out : LegacyComp → Grid → ℕ → σ → Option σ) (flags : LegacyComp → Bool)
    (vals : LegacyComp → Grid) (step : ℕ) : List LegacyComp → σ → Option σ
  | [], f => some f
  | c :: cs, f =>
    if flags c then (out c (vals c) step f).bind (legacyDump out flags vals step cs)
    else legacyDump out flags vals step cs f

/-- The dumps of a run, src/loadInitParam.cpp:540-579: iteration `k` (`(int)(current_time / delta_t)`, in exact
arithmetic and from time 0) is dumped when the interval divides it, and `step_number` counts the dumps. `vals k` are
the arrays in iteration `k`. `n` iterations are left. -/
def legacyRun {σ} (out : LegacyComp → Grid → ℕ → σ → Option σ) (flags : LegacyComp → Bool) (interval : ℕ)
    (vals : ℕ → LegacyComp → Grid) : (n k step : ℕ) → σ → Option σ
  | 0, _, _, f => some f
  | n + 1, k, step, f =>
    if k % interval = 0 then
      (legacyDump out flags (vals k) step LegacyComp.all f).bind (legacyRun out flags interval vals n (k + 1) (step + 1))
    else legacyRun out flags interval vals n (k + 1) step f

/-- `out_data` of the HDF5 back end as it is called, src/loadInitParam.cpp:404-452: without the last row and column. All
arrays have `n_grid_r` rows of `n_grid_z` numbers (src/field.cpp:10-25, src/current.cpp:7-33,
src/chargeDensity.cpp:8-17). -/
noncomputable def h5Out (stack : ℕ) (G : Geom) (c : LegacyComp) (a : Grid) (step : ℕ) (f : H5File) : Option H5File :=
  h5OutData stack ⟨G.nr, G.nz⟩ f c.name a step (G.nr - 1) (G.nz - 1)

/-- the dumps of a run with HDF5 -/
noncomputable def h5Run (stack : ℕ) (G : Geom) (flags : LegacyComp → Bool) (interval : ℕ) (vals : ℕ → LegacyComp → Grid) :
    (n k step : ℕ) → H5File → Option H5File :=
  legacyRun (h5Out stack G) flags interval vals

/-! ## Reading -/

/-- How a request can fail: by the reader's own checks, or by an exception of h5py or numpy. -/
inductive H5Err
  | range | key | index
  deriving DecidableEq

/-- a lookup in the file: `self.file[path]`; `KeyError` if there is no such object -/
def h5Open (f : H5File) (space : List Char) (n : ℤ) : Except H5Err (List (List ℝ)) :=
  if n < 0 then .error .key
  else match f.get (h5Result ++ space, dec n.toNat) with
    | some t => .ok t
    | none => .error .key

/-- `len(self.file[path])` of the group of a component; `KeyError` if there is none (groups exist from the first data
set on, src/ioHDF5.cpp:103) -/
def h5Count (f : H5File) (space : List Char) : Except H5Err ℕ :=
  if f.members (h5Result ++ space) = 0 then .error .key else .ok (f.members (h5Result ++ space))

/-- `t[i]` for an index that is not negative -/
def h5Index {α} (t : List α) (i : ℤ) : Except H5Err α :=
  match t[i.toNat]? with
  | some x => .ok x
  | none => .error .index

/-- `__check_frame__`, tools/lib/h5_reader.py:42-51 -/
def checkFrame (f : H5File) (space : List Char) (frame : ℤ) : Except H5Err Unit :=
  if frame < 0 then .error .range
  else h5Count f space >>= fun n => if (n : ℤ) < frame then .error .range else .ok ()

/-- `__check_row__`, tools/lib/h5_reader.py:54-63 -/
def checkRow (f : H5File) (space : List Char) (row : ℤ) : Except H5Err Unit :=
  if row < 0 then .error .range
  else h5Open f space 0 >>= fun t => if (t.length : ℤ) < row then .error .range else .ok ()

/-- `__check_col__`, tools/lib/h5_reader.py:66-75 -/
def checkCol (f : H5File) (space : List Char) (col : ℤ) : Except H5Err Unit :=
  if col < 0 then .error .range
  else h5Open f space 0 >>= fun t => h5Index t 0 >>= fun r =>
    if (r.length : ℤ) < col then .error .range else .ok ()

/-- `__check_frame_range__`, tools/lib/h5_reader.py:78-84 -/
def checkFrameRange (f : H5File) (space : List Char) (a b : ℤ) : Except H5Err Unit :=
  if b < a then .error .range else if a < 0 then .error .range else checkFrame f space b

/-- `get_frame`, tools/lib/h5_reader.py:108-123, without the cache -/
def h5Frame (f : H5File) (space : List Char) (number : ℤ) : Except H5Err (List (List ℝ)) :=
  checkFrame f space number >>= fun _ => h5Open f space number

/-- `get_row`, tools/lib/h5_reader.py:126-130 -/
def h5Row (f : H5File) (space : List Char) (number row : ℤ) : Except H5Err (List ℝ) :=
  checkFrame f space number >>= fun _ => checkRow f space row >>= fun _ =>
  h5Open f space number >>= fun t => h5Index t row

/-- `self.file[path][:, col]` -/
def h5ColOf (t : List (List ℝ)) (col : ℤ) : Except H5Err (List ℝ) := t.mapM fun r => h5Index r col

/-- `get_col`, tools/lib/h5_reader.py:133-137 -/
def h5Col (f : H5File) (space : List Char) (number col : ℤ) : Except H5Err (List ℝ) :=
  checkFrame f space number >>= fun _ => checkCol f space col >>= fun _ =>
  h5Open f space number >>= fun t => h5ColOf t col

/-- `get_point`, tools/lib/h5_reader.py:140-144 -/
def h5Point (f : H5File) (space : List Char) (number row col : ℤ) : Except H5Err ℝ :=
  checkFrame f space number >>= fun _ => checkRow f space row >>= fun _ => checkCol f space col >>= fun _ =>
  h5Open f space number >>= fun t => h5Index t row >>= fun r => h5Index r col

/-- `range(a, b + 1)` -/
def pyRange (a b : ℤ) : List ℤ := (List.range (b + 1 - a).toNat).map fun k : ℕ => a + k

/-- `if not to_frame`: both `None` and 0 are replaced by the default. -/
def orDefault (to_frame : Option ℤ) (d : ℤ) : ℤ :=
  match to_frame with
  | some t => if t = 0 then d else t
  | none => d

/-- the assignment `frames[i] = self.file[path]` to a frame of `r` by `z` numbers, tools/lib/h5_reader.py:164;
simplification: data sets with one row or column, which numpy would repeat, count as wrong shape. -/
def h5Fit (r z : ℕ) (t : List (List ℝ)) : Except H5Err (List (List ℝ)) :=
  if t.length = r ∧ ∀ x ∈ t, x.length = z then .ok t else .error .index

/-- `get_frame_range`, tools/lib/h5_reader.py:149-165 -/
def h5FrameRange (f : H5File) (space : List Char) (from_frame : ℤ) (to_frame : Option ℤ) :
    Except H5Err (List (List (List ℝ))) :=
  h5Open f space 0 >>= fun t0 => h5Index t0 0 >>= fun r0 => h5Count f space >>= fun n =>
    let b := orDefault to_frame ((n : ℤ) - 1)
    checkFrameRange f space from_frame b >>= fun _ =>
      (pyRange from_frame b).mapM fun i => h5Open f space i >>= h5Fit t0.length r0.length

/-- `get_frame_range_row` (tools/lib/h5_reader.py:168-194), `get_frame_range_col` (197-222) and `get_frame_range_dot`
(225-247) without the cache: the check of the arguments, the text from the default of `to_frame` on, and `pick` for what
is taken out of a data set. The default is the number of rows of the first frame. -/
def h5Range {α} (f : H5File) (space : List Char) (check : Except H5Err Unit)
    (pick : List (List ℝ) → Except H5Err α) (from_frame : ℤ) (to_frame : Option ℤ) : Except H5Err (List α) :=
  h5Open f space 0 >>= fun t0 =>
    let b := orDefault to_frame ((t0.length : ℤ) - 1)
    checkFrameRange f space from_frame b >>= fun _ => check >>= fun _ =>
      (pyRange from_frame b).mapM fun i => h5Open f space i >>= pick

/-- `get_frame_range_row`, tools/lib/h5_reader.py:168-194 -/
def h5RangeRow (f : H5File) (space : List Char) (row from_frame : ℤ) (to_frame : Option ℤ) :
    Except H5Err (List (List ℝ)) :=
  h5Range f space (checkRow f space row) (fun t => h5Index t row) from_frame to_frame

/-- `get_frame_range_col`, tools/lib/h5_reader.py:197-222 -/
def h5RangeCol (f : H5File) (space : List Char) (col from_frame : ℤ) (to_frame : Option ℤ) :
    Except H5Err (List (List ℝ)) :=
  h5Range f space (checkCol f space col) (fun t => h5ColOf t col) from_frame to_frame

/-- `get_frame_range_dot`, tools/lib/h5_reader.py:225-247 -/
def h5RangeDot (f : H5File) (space : List Char) (row col from_frame : ℤ) (to_frame : Option ℤ) :
    Except H5Err (List ℝ) :=
  h5Range f space (checkRow f space row >>= fun _ => checkCol f space col)
    (fun t => h5Index t row >>= fun r => h5Index r col) from_frame to_frame

end Verif
