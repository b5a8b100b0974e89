import Verif.Output

/-!
# The reader on the files of a run

Models the parts of tools/lib/plain_reader.py that look for files: paths, counting of data files, and the
functions `get_frame`, `get_mpframe`, `get_col`, `get_row` and `get_dot` on the file system of Output.lean.
A raised exception is `none`.  Numbers given by the user are non-negative.
-/

namespace Verif

/-- `__get_path__`, tools/lib/plain_reader.py:64-76, for each type; `root` is `__data_path__` (line 24), the
normalised text of the directory that the simulator calls `dump_data_root`.  For `col` and `row` the number is
`shape[0]`; for `dot` the text is `shape[1]`, then `shape[0]`. -/
def readerPath (root component : List Char) (kind : OKind) (shape : List ℕ) : Option (List Char) :=
  let pre := root ++ '/' :: (component ++ ['/'])
  match kind, shape with
  | .frame, s0 :: s1 :: s2 :: s3 :: _ => some (pre ++ ['f', 'r', 'a', 'm', 'e', '_'] ++ dec s0 ++ [':'] ++ dec s1
      ++ ['_'] ++ dec s2 ++ [':'] ++ dec s3)
  | .mpframe, s0 :: s1 :: s2 :: s3 :: _ => some (pre ++ ['m', 'p', 'f', 'r', 'a', 'm', 'e', '_'] ++ dec s0 ++ [':']
      ++ dec s1 ++ ['_'] ++ dec s2 ++ [':'] ++ dec s3)
  | .col, s0 :: _ => some (pre ++ ['c', 'o', 'l', '_'] ++ dec s0)
  | .row, s0 :: _ => some (pre ++ ['r', 'o', 'w', '_'] ++ dec s0)
  | .dot, s0 :: s1 :: _ => some (pre ++ ['d', 'o', 't', '_'] ++ dec s1 ++ ['_'] ++ dec s0)
  | _, _ => none

/-- `fnmatch(name, '[0-9]*.dat')`, tools/lib/plain_reader.py:106 -/
def dataName (name : List Char) : Prop :=
  (∃ c t, name = c :: t ∧ c.isDigit = true ∧ ['.', 'd', 'a', 't'] <:+ t)

/-- `__get_file_range__`, tools/lib/plain_reader.py:104-109 (`os.listdir` gives the names in the directory) -/
noncomputable def fileRange (fs : OutFS) (dir : List Char) : ℕ :=
  Set.ncard {name | '/' ∉ name ∧ dataName name ∧ fs (dir ++ '/' :: name) ≠ none}

/-- The names of `__get_mpframe_files_path__`, tools/lib/plain_reader.py:85-94 -/
def mpSuffix : ℕ → Option (List Char)
  | 0 => some ['_', 'p', 'o', 's', '_', 'r']
  | 1 => some ['_', 'p', 'o', 's', '_', 'p', 'h', 'i']
  | 2 => some ['_', 'p', 'o', 's', '_', 'z']
  | 3 => some ['_', 'v', 'e', 'l', '_', 'r']
  | 4 => some ['_', 'v', 'e', 'l', '_', 'p', 'h', 'i']
  | 5 => some ['_', 'v', 'e', 'l', '_', 'z']
  | _ => none

/-- `get_mpframe` without cache, tools/lib/plain_reader.py:367-398, with the checks of 123-134, 149-159.  The
shape is given by the user with `s0 ≤ s2`, `s1 ≤ s3`. -/
noncomputable def getMpframe (fs : OutFS) (root component : List Char) (fpds s0 s1 s2 s3 mp_component number : ℕ) :
    Option (List ℝ) :=
  (readerPath root component .mpframe [s0, s1, s2, s3]).bind fun dir =>
  if fileRange fs dir * fpds ≤ number then none
  else if fileRange fs dir < number / fpds then none
  else (mpSuffix mp_component).bind fun suf =>
    (fs (dir ++ '/' :: (dec number ++ suf ++ ['.', 'd', 'a', 't']))).map fun data =>
      data.take ((s2 - s0) * (s3 - s1) * fpds)

/-- `get_all_*_in_ds` on the file system, tools/lib/plain_reader.py:231-313: `size` numbers a record -/
noncomputable def fsAllInDs (fs : OutFS) (dir : List Char) (fpds size number : ℕ) : Option (List (List ℝ)) :=
  if fileRange fs dir < number then none
  else (fs (dir ++ '/' :: (dec number ++ ['.', 'd', 'a', 't']))).bind fun data =>
    reshape fpds size (data.take (size * fpds))

/-- `get_frame` without cache, tools/lib/plain_reader.py:342-364 -/
noncomputable def fsGetFrame (fs : OutFS) (root component : List Char) (fpds s0 s1 s2 s3 number : ℕ) :
    Option (List (List ℝ)) :=
  (readerPath root component .frame [s0, s1, s2, s3]).bind fun dir =>
  if fileRange fs dir * fpds ≤ number then none
  else if fileRange fs dir < number / fpds then none
  else ((fsAllInDs fs dir fpds ((s2 - s0) * (s3 - s1)) (number / fpds)).bind fun l =>
    l.mapM (reshape (s2 - s0) (s3 - s1))).bind fun l => l[number % fpds]?

/-- `get_col` without cache, tools/lib/plain_reader.py:401-422: `__frame_size__(shape)` raises for a shape of
less than four numbers; the column is `shape[0]`.  `nr` is `__fullframe__[0]`. -/
noncomputable def fsGetCol (fs : OutFS) (root component : List Char) (nr fpds : ℕ) (shape : List ℕ) (number : ℕ) :
    Option (List ℝ) :=
  if shape.length < 4 then none
  else (readerPath root component .col shape).bind fun dir =>
    if fileRange fs dir < number / fpds then none
    else (fsAllInDs fs dir fpds nr (number / fpds)).bind fun l => l[number % fpds]?

/-- The number of places `{}` of a format -/
def places : List Char → ℕ
  | '{' :: '}' :: t => places t + 1
  | _ :: t => places t
  | [] => 0

/-- `str.format` with `k` arguments raises when there are more places than arguments. -/
def formatRaises (fmt : List Char) (k : ℕ) : Prop := k < places fmt

/-- `get_row`, tools/lib/plain_reader.py:425-446.  The name for the cache is formatted first, at line 431, with
four arguments: `{}_component:{}_type:{}_shape:{}_number:{}`. -/
noncomputable def fsGetRow (fs : OutFS) (root component : List Char) (nz fpds : ℕ) (shape : List ℕ) (number : ℕ) :
    Option (List ℝ) :=
  open Classical in
  if shape.length < 4 then none
  else if formatRaises "{}_component:{}_type:{}_shape:{}_number:{}".toList 4 then none
  else (readerPath root component .row shape).bind fun dir =>
    if fileRange fs dir < number / fpds then none
    else (fsAllInDs fs dir fpds nz (number / fpds)).bind fun l => l[number % fpds]?

/-- `get_dot`, tools/lib/plain_reader.py:449-458, with `get_all_dots_in_ds` (317-339) -/
noncomputable def fsGetDot (fs : OutFS) (root component : List Char) (fpds s0 s1 number : ℕ) : Option ℝ :=
  (readerPath root component .dot [s0, s1]).bind fun dir =>
  if fileRange fs dir < number / fpds then none
  else (fs (dir ++ '/' :: (dec (number / fpds) ++ ['.', 'd', 'a', 't']))).bind fun data =>
    (data.take (s0 * s1 * fpds))[number % fpds]?

end Verif
