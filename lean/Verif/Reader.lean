import Verif.Probe
import Mathlib.Data.Set.Card

/-!
# Reading results back

Models `PlainReader` (tools/lib/plain_reader.py) and `TinyCache` (tools/lib/tinycache.py).
A raised exception is `none`.  Numbers passed by the user are non-negative.
-/

namespace Verif

/-! ## numpy -/

/-- row-major split into `a` pieces of `b` elements -/
def chunk {α} (a b : ℕ) (l : List α) : List (List α) :=
  (List.range a).map fun i => (l.drop (i * b)).take b

/-- `np.reshape(l, [a, b])` raises unless the sizes agree. -/
def reshape {α} (a b : ℕ) (l : List α) : Option (List (List α)) :=
  if l.length = a * b then some (chunk a b l) else none

/-- A Python slice bound for a sequence of length `len`: negative counts from the end, then clamped. -/
def pyIndex (len : ℕ) (a : ℤ) : ℕ := (min (max (if a < 0 then a + len else a) 0) len).toNat

/-- `l[a:b]` -/
def pySlice {α} (l : List α) (a b : ℤ) : List α :=
  (l.drop (pyIndex l.length a)).take (pyIndex l.length b - pyIndex l.length a)

/-- `buf[a:b] = src` for numpy arrays along the first axis: the lengths must agree, or `src` has length 1
and is broadcast. -/
def npAssign {α} (buf : List α) (a b : ℤ) (src : List α) : Option (List α) :=
  let s := pyIndex buf.length a
  let n := pyIndex buf.length b - s
  if src.length = n then some (buf.take s ++ src ++ buf.drop (s + n))
  else match src with
    | [x] => some (buf.take s ++ List.replicate n x ++ buf.drop (s + n))
    | _ => none

/-! ## Reading datasets -/

/-- `__get_file_range__`, tools/lib/plain_reader.py:104-109: the number of data files.  The memo of
`__get_ds_range__` (111-119) is left out: the files do not change while they are read. -/
noncomputable def drange (d : Dir) : ℕ := Set.ncard {f | d f ≠ none}

/-- `get_all_cols_in_ds`, `get_all_rows_in_ds` (tools/lib/plain_reader.py:259-313) and the reading part of
`get_all_frames_in_ds` (231-256): `size` numbers per record. `np.fromfile(count=n)` reads at most `n`
numbers. -/
noncomputable def allInDs (d : Dir) (fpds size number : ℕ) : Option (List (List ℝ)) :=
  if drange d < number then none
  else (d number).bind fun data => reshape fpds size (data.take (size * fpds))

/-- `get_all_frames_in_ds`, tools/lib/plain_reader.py:231-256; a frame is its list of rows -/
noncomputable def allFramesInDs (d : Dir) (fpds s0 s1 number : ℕ) : Option (List (List (List ℝ))) :=
  (allInDs d fpds (s0 * s1) number).bind fun fs => fs.mapM (reshape s0 s1)

/-- `get_all_dots_in_ds`, tools/lib/plain_reader.py:317-339: the count is the product of the two
coordinates of the dot and `fpds` -/
noncomputable def allDotsInDs (d : Dir) (fpds c r number : ℕ) : Option (List ℝ) :=
  if drange d < number then none
  else (d number).map fun data => data.take (c * r * fpds)

/-- `get_frame` without cache, tools/lib/plain_reader.py:342-364, with the checks of 123-146 -/
noncomputable def getFrame (d : Dir) (fpds s0 s1 number : ℕ) : Option (List (List ℝ)) :=
  if drange d * fpds ≤ number then none
  else if drange d < number / fpds then none
  else (allFramesInDs d fpds s0 s1 (number / fpds)).bind fun fs => fs[number % fpds]?

/-! ## Reading ranges -/

/-- The middle part of all range readers, e.g. tools/lib/plain_reader.py:484-489 (also 525-530, 567-572, 607-611):
`for i in range(from_ds + 1, to_ds): frames[shifted + k : shifted + k_1] = ds_i[0:fpds]` -/
def midLoop {α} (ds : ℕ → Option (List α)) (fpds from_ds shifted : ℕ) :
    List ℕ → List α → Option (List α)
  | [], buf => some buf
  | i :: is, buf => (ds i).bind fun l =>
      (npAssign buf ((shifted + (i - from_ds - 1) * fpds : ℕ) : ℤ)
        ((shifted + (i - from_ds - 1 + 1) * fpds : ℕ) : ℤ) (pySlice l 0 fpds)).bind
        (midLoop ds fpds from_ds shifted is)

/-- `get_frame_range_col`, `get_frame_range_row`, `get_frame_range_dot` without cache
(tools/lib/plain_reader.py:496-535, 538-577, 580-616; the three have the same text up to the dataset
reader `ds`). `garbage` is what `np.empty` contains. The default `to_frame=None` and `to_frame=0` raise
(`space` is not defined, lines 502, 544, 586). -/
def getRange {α} (ds : ℕ → Option (List α)) (fpds : ℕ) (garbage : ℕ → α) (from_frame to_frame : ℕ) :
    Option (List α) :=
  if to_frame < from_frame then none
  else if to_frame = 0 then none
  else
    let frame_range := to_frame - from_frame
    let from_ds := from_frame / fpds
    let a := from_frame % fpds
    let to_ds := to_frame / fpds
    let b := to_frame % fpds
    let frames := (List.range frame_range).map garbage
    (ds from_ds).bind fun l1 =>
    (npAssign frames 0 ((fpds : ℤ) - a) (pySlice l1 a fpds)).bind fun frames =>
    (ds to_ds).bind fun l2 =>
    (npAssign frames ((frame_range : ℤ) - b) frame_range (pySlice l2 0 b)).bind fun frames =>
    midLoop ds fpds from_ds (fpds - a) (List.range' (from_ds + 1) (to_ds - (from_ds + 1))) frames

/-- `get_frame_range`, tools/lib/plain_reader.py:464-493. Here `drange·fpds` is the limit of
`__validate_frame__`. -/
def getFrameRange {α} (ds : ℕ → Option (List α)) (fpds total : ℕ) (garbage : ℕ → α)
    (from_frame to_frame : ℕ) : Option (List α) :=
  if to_frame < from_frame then none
  else if total ≤ to_frame then none
  else if to_frame = 0 then none
  else
    let frame_range := to_frame - from_frame
    let from_ds := from_frame / fpds
    let a := from_frame % fpds
    let to_ds := to_frame / fpds
    let b := to_frame % fpds
    let frames := (List.range frame_range).map garbage
    if frame_range ≥ fpds then
      (ds from_ds).bind fun l1 =>
      (npAssign frames 0 ((fpds : ℤ) - a) (pySlice l1 a l1.length)).bind fun frames =>
      (if b > 0 then (ds to_ds).bind fun l2 =>
        npAssign frames ((frame_range : ℤ) - b - 1) ((frame_range : ℤ) - 1) (pySlice l2 0 b)
        else some frames).bind fun frames =>
      midLoop ds fpds from_ds (fpds - a) (List.range' (from_ds + 1) (to_ds - (from_ds + 1))) frames
    else
      (ds from_ds).bind fun l1 => npAssign frames 0 b (pySlice l1 a b)

/-! ## Cache -/

/-- Requests that go through the cache -/
inductive Req
  | frame (component : List Char) (s0 s1 s2 s3 number : ℕ)
  | mpframe (component : List Char) (s0 s1 s2 s3 mp_component number : ℕ)
  | colRange (component : List Char) (number from_frame to_frame : ℕ)
  | rowRange (component : List Char) (number from_frame to_frame : ℕ)
  | dotRange (component : List Char) (row_number col_number from_frame to_frame : ℕ)

/-- `str(n)` -/
def dec (n : ℕ) : List Char := Nat.toDigits 10 n

/-! Fixed texts of the cache keys: the formats in tools/lib/plain_reader.py:348, 380, 504, 546, 588 with the
type filled in -/

/-- `frame_component:`, tools/lib/plain_reader.py:348-589 -/
def Txt.frame : List Char := ['f', 'r', 'a', 'm', 'e', '_', 'c', 'o', 'm', 'p', 'o', 'n', 'e', 'n', 't', ':']

/-- `mpframe_component:`, tools/lib/plain_reader.py:348-589 -/
def Txt.mpframe : List Char := ['m', 'p', 'f', 'r', 'a', 'm', 'e', '_', 'c', 'o', 'm', 'p', 'o', 'n', 'e', 'n', 't', ':']

/-- `col_component:`, tools/lib/plain_reader.py:348-589 -/
def Txt.col : List Char := ['c', 'o', 'l', '_', 'c', 'o', 'm', 'p', 'o', 'n', 'e', 'n', 't', ':']

/-- `row_component:`, tools/lib/plain_reader.py:348-589 -/
def Txt.row : List Char := ['r', 'o', 'w', '_', 'c', 'o', 'm', 'p', 'o', 'n', 'e', 'n', 't', ':']

/-- `dot_component:`, tools/lib/plain_reader.py:348-589 -/
def Txt.dot : List Char := ['d', 'o', 't', '_', 'c', 'o', 'm', 'p', 'o', 'n', 'e', 'n', 't', ':']

/-- `_shape:`, tools/lib/plain_reader.py:348-589 -/
def Txt.shape : List Char := ['_', 's', 'h', 'a', 'p', 'e', ':']

/-- `_number:`, tools/lib/plain_reader.py:348-589 -/
def Txt.number : List Char := ['_', 'n', 'u', 'm', 'b', 'e', 'r', ':']

/-- `_from:`, tools/lib/plain_reader.py:348-589 -/
def Txt.from_ : List Char := ['_', 'f', 'r', 'o', 'm', ':']

/-- `_to:`, tools/lib/plain_reader.py:348-589 -/
def Txt.to_ : List Char := ['_', 't', 'o', ':']

/-- `_row:`, tools/lib/plain_reader.py:348-589 -/
def Txt.rowSep : List Char := ['_', 'r', 'o', 'w', ':']

/-- `_col:`, tools/lib/plain_reader.py:348-589 -/
def Txt.colSep : List Char := ['_', 'c', 'o', 'l', ':']

/-- `cache_file_name`: tools/lib/plain_reader.py:348-349, 380-381, 504-505, 546-547, 588-589.  In the last
the format has six places for seven arguments, so the arguments after the component are shifted by
one and the last (`col_number`) is dropped. -/
def Req.key : Req → List Char
  | .frame c s0 s1 s2 s3 n => Txt.frame ++ c ++ Txt.shape ++ dec s0 ++ ['-'] ++ dec s1
      ++ ['-'] ++ dec s2 ++ ['-'] ++ dec s3 ++ Txt.number ++ dec n
  | .mpframe c s0 s1 s2 s3 _ n => Txt.mpframe ++ c ++ Txt.shape ++ dec s0 ++ ['-'] ++ dec s1
      ++ ['-'] ++ dec s2 ++ ['-'] ++ dec s3 ++ Txt.number ++ dec n
  | .colRange c n f t => Txt.col ++ c ++ Txt.from_ ++ dec f ++ Txt.to_ ++ dec t ++ Txt.number ++ dec n
  | .rowRange c n f t => Txt.row ++ c ++ Txt.from_ ++ dec f ++ Txt.to_ ++ dec t ++ Txt.number ++ dec n
  | .dotRange c r _ f t => Txt.dot ++ c ++ Txt.from_ ++ ['d', 'o', 't'] ++ Txt.to_ ++ dec f
      ++ Txt.rowSep ++ dec t ++ Txt.colSep ++ dec r

/-- The number of values the reshape of a cached value demands, if there is one:
tools/lib/plain_reader.py:354-355, 511-512 (one frame too many), 553-554.  `nr`, `nz`: size of the
full frame. -/
def Req.cachedSize (nr nz : ℕ) : Req → Option ℕ
  | .frame _ s0 s1 s2 s3 _ => some ((s2 - s0) * (s3 - s1))
  | .mpframe .. => none
  | .colRange _ _ f t => some ((t - f + 1) * nr)
  | .rowRange _ _ f t => some ((t - f) * nz)
  | .dotRange .. => none

/-- Contents of the cache: values in memory or in the cache directory (`update_cache` always writes both,
tools/lib/tinycache.py:41-45) -/
abbrev Cache := List Char → Option (List ℝ)

/-- A read through the cache: the value (flattened) and the new cache.  `raw` is the read without cache.
An empty cached value counts as missing. -/
def cachedRead (nr nz : ℕ) (raw : Req → Option (List ℝ)) (q : Req) (c : Cache) :
    Option (List ℝ) × Cache :=
  let v := (c q.key).getD []
  if v ≠ [] then
    match q.cachedSize nr nz with
    | some n => if v.length = n then (some v, c) else (none, c)
    | none => (some v, c)
  else
    match raw q with
    | none => (none, c)
    | some w => (some w, Function.update c q.key (some w))

/-- A history of reads. -/
def cacheAfter (nr nz : ℕ) (raw : Req → Option (List ℝ)) : List Req → Cache → Cache
  | [], c => c
  | q :: qs, c => cacheAfter nr nz raw qs (cachedRead nr nz raw q c).2

end Verif
