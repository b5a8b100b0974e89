import Mathlib.Data.Real.Basic
import Mathlib.Data.List.ReduceOption

/-!
# The functional test (C107)

Models `compare`, `test_example` and the main part of test/functional/test.py.  Building and running the program is not modelled: the
numbers in its files are inputs.
-/

namespace Verif

namespace FuncTest

/-- The numbers in a file; `none` is NaN. -/
abbrev Data := List (Option ℝ)

/-- A set of files: by component and number; `none` if the file does not exist -/
abbrev Files := String → ℕ → Option Data

/-- The pairs that numpy compares for two arrays with one axis: an array with one element is repeated; other lengths that differ
raise an exception. -/
def broadcast (a b : List ℝ) : Option (List (ℝ × ℝ)) :=
  if a.length = b.length then some (a.zip b)
  else if a.length = 1 then some (b.map fun y => (a.headD 0, y))
  else if b.length = 1 then some (a.map fun x => (x, b.headD 0))
  else none

open Classical in
/-- `np.allclose(test_data, true_data, rtol, atol)`, test/functional/test.py:169 -/
noncomputable def allclose (a b : List ℝ) (rtol atol : ℝ) : Option Bool :=
  (broadcast a b).map fun l => l.all fun x => decide (|x.1 - x.2| ≤ atol + rtol * |x.2|)

/-- `compare`, test/functional/test.py:152-184: NaNs are deleted from both arrays (lines 164-167); the loop over the differences
(lines 178-182) leaves the array of the run if it is shorter. -/
noncomputable def compareFiles (true_files test_files : Files) (rtol atol : ℝ) (verbose : Bool) (component : String) (number : ℕ) :
    Option Bool :=
  (true_files component number).bind fun t =>
  (test_files component number).bind fun s =>
  (allclose s.reduceOption t.reduceOption rtol atol).bind fun isc =>
  if !isc && verbose && decide (s.reduceOption.length < t.reduceOption.length) then none else some isc

/-- The components, test/functional/test.py:222 -/
def components : List String :=
  ["E_r", "E_phi", "E_z", "H_r", "H_phi", "H_z", "J_r", "J_phi", "J_z", "rho_beam", "T/Electrons", "T/Ions"]

/-- `test_example`, test/functional/test.py:187-235: the loop of lines 223-225, with the absolute tolerance of line 200 -/
noncomputable def testExample (true_files test_files : Files) (number : ℕ) (rtol : ℝ) (verbose : Bool) : Option Bool :=
  components.foldlM (fun status c =>
    (compareFiles true_files test_files rtol 1 verbose c number).map fun s => if status then s else status) true

/-- `--type`, test/functional/test.py:467, 479-503; `regression` compares no numbers and is not modelled, other words raise an exception -/
inductive TestKind
  | smoke | ext

/-- What the caller sees: the message of lines 505-508 and the exit status -/
structure Outcome where
  passed : Bool
  exit : ℕ

/-- The main part, test/functional/test.py:465-508; `passed` is the message, an exception ends with status 1 and no message (here:
not passed) -/
noncomputable def functionalTest (kind : TestKind) (fastmath verbose : Bool) (true_files test_files : Files) : Outcome :=
  let status := match kind with
    | .smoke => testExample true_files test_files 4 (if fastmath then 0.1 else 0.001) verbose
    | .ext => testExample true_files test_files 11 (if fastmath then 0.25 else 0.001) verbose
  match status with
  | none => ⟨false, 1⟩
  | some s => ⟨s, 0⟩

/-! ## Specification -/

/-- The twelve components: three of each field and of the current, the density of the beam, temperatures of two species -/
def compared : List String :=
  (["E", "H", "J"].flatMap fun f => ["_r", "_phi", "_z"].map fun x => f ++ x) ++ ["rho_beam", "T/Electrons", "T/Ions"]

/-- The number of the file that a kind of test compares -/
def TestKind.number : TestKind → ℕ
  | .smoke => 4
  | .ext => 11

/-- The relative tolerance -/
noncomputable def TestKind.rtol : TestKind → Bool → ℝ
  | _, false => 1 / 1000
  | .smoke, true => 1 / 10
  | .ext, true => 1 / 4

/-- A number of the run is near that of the reference; NaN is near NaN only. -/
def Near (rtol : ℝ) : Option ℝ → Option ℝ → Prop
  | some x, some y => |x - y| ≤ 1 + rtol * |y|
  | none, none => True
  | _, _ => False

/-- The run has numbers near those of the reference, one by one. -/
def Agrees (rtol : ℝ) (run ref : Option Data) : Prop := ∃ s t, run = some s ∧ ref = some t ∧ List.Forall₂ (Near rtol) s t

end FuncTest

end Verif
