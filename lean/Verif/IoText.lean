import Verif.Hdf5

/-!
# The old text back end

Models `IOText` (src/ioText.cpp), the back end of a build with `--enable-legacy`, as far as a run uses it (`out_data`).
-/

namespace Verif

/-- The files by their names, each with the numbers in it. -/
abbrev TextFiles := List Char → Option (List ℝ)

/-- `get_data_path`, src/ioText.cpp:26-43, for a number that is not negative: the buffers have 100 bytes; the name of the
result path, of the component and the number follow each other. -/
def textPath (path_result comp : List Char) (number : ℕ) : Option (List Char) :=
  let st_name := comp ++ dec number
  if st_name.length < 100 ∧ (path_result ++ st_name).length < 100 then some (path_result ++ st_name) else none

/-- `dump_data` without rewriting, src/ioText.cpp:56-77: the numbers are appended to the file, row by row, with six
digits. `none`: a read outside of the array. -/
noncomputable def textDump (A : ArrSize) (path : List Char) (a : Grid) (r z : ℕ) (fs : TextFiles) : Option TextFiles :=
  if r ≤ A.ptrs ∧ (0 < r → z ≤ A.cols) then
    some (Function.update fs path (some ((fs path).getD [] ++
      (List.range r).flatMap fun i : ℕ => (List.range z).map fun j : ℕ => fmt6 (a i j))))
  else none

/-- `out_data`, src/ioText.cpp:100-111: the files are numbered by `step_number / number`, a division of integers. -/
noncomputable def textOutData (A : ArrSize) (path_result comp : List Char) (a : Grid) (step number r z : ℕ)
    (fs : TextFiles) : Option TextFiles :=
  if number = 0 then none
  else (textPath path_result comp (step / number)).bind fun path => textDump A path a r z fs

/-- `out_data` as it is called, src/loadInitParam.cpp:404-452 -/
noncomputable def textOut (G : Geom) (path_result : List Char) (fpf : ℕ) (c : LegacyComp) (a : Grid) (step : ℕ)
    (fs : TextFiles) : Option TextFiles :=
  textOutData ⟨G.nr, G.nz⟩ path_result c.name a step fpf (G.nr - 1) (G.nz - 1) fs

/-- the dumps of a run with text files, src/loadInitParam.cpp:540-579 -/
noncomputable def textRun (G : Geom) (path_result : List Char) (fpf : ℕ) (flags : LegacyComp → Bool) (interval : ℕ)
    (vals : ℕ → LegacyComp → Grid) : (n k step : ℕ) → TextFiles → Option TextFiles :=
  legacyRun (textOut G path_result fpf) flags interval vals

end Verif
