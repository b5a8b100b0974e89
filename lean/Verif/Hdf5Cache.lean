import Verif.Hdf5
import Verif.Reader

/-!
# The reader of HDF5 files with its cache

Models the parts of `H5Reader` (tools/lib/h5_reader.py) that use `TinyCache`.  The cache is the one of Reader.lean.  Names of
components have no slash, and all data sets of a component have the same shape (otherwise the array that goes to the
cache could not be made).
-/

namespace Verif

/-- Requests that go through the cache -/
inductive H5Req
  /-- `get_frame`, tools/lib/h5_reader.py:108 -/
  | frame (space : List Char) (number : ℤ)
  /-- `get_frame_range_row`, tools/lib/h5_reader.py:168 -/
  | row (space : List Char) (row from_frame : ℤ) (to_frame : Option ℤ)
  /-- `get_frame_range_col`, tools/lib/h5_reader.py:197 -/
  | col (space : List Char) (col from_frame : ℤ) (to_frame : Option ℤ)
  /-- `get_frame_range_dot`, tools/lib/h5_reader.py:225 -/
  | dot (space : List Char) (row col from_frame : ℤ) (to_frame : Option ℤ)

/-- A request that has passed the checks, with the last frame filled in: no number is negative. -/
inductive H5Final
  | frame (space : List Char) (number : ℕ)
  | row (space : List Char) (row a b : ℕ)
  | col (space : List Char) (col a b : ℕ)
  | dot (space : List Char) (row col a b : ℕ)

/-- The checks and the default of the last frame, before the cache is looked at: tools/lib/h5_reader.py:109, 169-177,
198-202, 226-231 -/
def h5Check (f : H5File) : H5Req → Except H5Err H5Final
  | .frame s n => checkFrame f s n >>= fun _ => .ok (.frame s n.toNat)
  | .row s r a last => h5Open f s 0 >>= fun t0 => checkFrameRange f s a (orDefault last ((t0.length : ℤ) - 1)) >>= fun _ =>
      checkRow f s r >>= fun _ => .ok (.row s r.toNat a.toNat (orDefault last ((t0.length : ℤ) - 1)).toNat)
  | .col s c a last => h5Open f s 0 >>= fun t0 => checkFrameRange f s a (orDefault last ((t0.length : ℤ) - 1)) >>= fun _ =>
      checkCol f s c >>= fun _ => .ok (.col s c.toNat a.toNat (orDefault last ((t0.length : ℤ) - 1)).toNat)
  | .dot s r c a last => h5Open f s 0 >>= fun t0 =>
      checkFrameRange f s a (orDefault last ((t0.length : ℤ) - 1)) >>= fun _ =>
      (checkRow f s r >>= fun _ => checkCol f s c) >>= fun _ =>
        .ok (.dot s r.toNat c.toNat a.toNat (orDefault last ((t0.length : ℤ) - 1)).toNat)

/-! Fixed texts of the keys, tools/lib/h5_reader.py:110, 178, 204, 232 -/

/-- `_space:`, tools/lib/h5_reader.py:110-232 -/
def Txt.space : List Char := ['_', 's', 'p', 'a', 'c', 'e', ':']

/-- `cache_file_name`, tools/lib/h5_reader.py:110, 178-179, 204-205, 232-233 -/
def H5Final.key : H5Final → List Char
  | .frame s n => ['f', 'r', 'a', 'm', 'e'] ++ Txt.space ++ s ++ Txt.number ++ dec n
  | .row s r a b => ['r', 'o', 'w'] ++ Txt.space ++ s ++ Txt.from_ ++ dec a ++ Txt.to_ ++ dec b ++ Txt.number ++ dec r
  | .col s c a b => ['c', 'o', 'l'] ++ Txt.space ++ s ++ Txt.from_ ++ dec a ++ Txt.to_ ++ dec b ++ Txt.number ++ dec c
  | .dot s r c a b => ['d', 'o', 't'] ++ Txt.space ++ s ++ Txt.from_ ++ dec a ++ Txt.to_ ++ dec b ++ Txt.rowSep ++ dec r
      ++ Txt.colSep ++ dec c

/-- The shape that a cached value is given, tools/lib/h5_reader.py:115, 184, 212; none for dots.  `shape` is
`__shape__` (line 14). -/
def H5Final.dims (shape : ℕ × ℕ) : H5Final → Option (ℕ × ℕ)
  | .frame _ _ => some shape
  | .row _ _ a b => some (b - a + 1, shape.2)
  | .col _ _ a b => some (b - a + 1, shape.1)
  | .dot .. => none

/-- Reading of the file, tools/lib/h5_reader.py:117-118, 186-189, 214-217, 239-242; a list of dots is one row. -/
def h5Fetch (f : H5File) : H5Final → Except H5Err (List (List ℝ))
  | .frame s n => h5Open f s n
  | .row s r a b => (pyRange a b).mapM fun i => h5Open f s i >>= fun t => h5Index t (r : ℤ)
  | .col s c a b => (pyRange a b).mapM fun i => h5Open f s i >>= fun t => h5ColOf t (c : ℤ)
  | .dot s r c a b => ((pyRange a b).mapM fun i => h5Open f s i >>= fun t => h5Index t (r : ℤ) >>= fun x =>
      h5Index x (c : ℤ)) >>= fun l => .ok [l]

/-- A request with the cache on, tools/lib/h5_reader.py:108-123, 168-194, 197-222, 225-247: what is returned, row by row,
and the cache afterwards -/
def h5Cached (shape : ℕ × ℕ) (f : H5File) (q : H5Req) (c : Cache) : Except H5Err (List (List ℝ)) × Cache :=
  match h5Check f q with
  | .error e => (.error e, c)
  | .ok p =>
    if (c p.key).getD [] ≠ [] then
      match p.dims shape with
      | some (a, b) =>
        match reshape a b ((c p.key).getD []) with
        | some t => (.ok t, c)
        | none => (.error .index, c)
      | none => (.ok [(c p.key).getD []], c)
    else
      match h5Fetch f p with
      | .error e => (.error e, c)
      | .ok t => (.ok t, Function.update c p.key (some t.flatten))

/-- The cache after a history of requests -/
def h5CacheAfter (shape : ℕ × ℕ) (f : H5File) : List H5Req → Cache → Cache
  | [], c => c
  | q :: qs, c => h5CacheAfter shape f qs (h5Cached shape f q c).2

end Verif
