import Verif.ParMem
import Verif.Diag

/-!
# Bicubic smoothing

Models `lib::bicubic_interpolation` (src/lib.cpp:249-311), the post processing of the temperature that is chosen with
`TEMPERATURE_POSTPROC_BICUBIC` (src/temperature.cpp:300-301, src/temperatureClassic.cpp:153-154). The sixteen weights
are declared outside of the parallel loop, so all threads store and load the same sixteen variables. The model runs the
iterations of the loop interleaved, load by load and store by store.
-/

namespace Verif

/-- Variables of `lib::bicubic_interpolation`: elements of `a` and `b`, and `b1` to `b16`. -/
inductive BicubicLoc
  | src (i j : ℤ)
  | dst (i j : ℤ)
  | weight (k : ℕ)
  deriving DecidableEq

/-- Allocated variables: `a` and `b` have `A.ptrs` rows of `A.cols` elements. -/
def BicubicLoc.Allocated (A : ArrSize) : BicubicLoc → Prop
  | .src i j => (0 ≤ i ∧ i < A.ptrs) ∧ 0 ≤ j ∧ j < A.cols
  | .dst i j => (0 ≤ i ∧ i < A.ptrs) ∧ 0 ≤ j ∧ j < A.cols
  | .weight k => 1 ≤ k ∧ k ≤ 16

instance (A : ArrSize) : DecidablePred (BicubicLoc.Allocated A) := fun l => by
  cases l <;> unfold BicubicLoc.Allocated <;> infer_instance

/-- `int x = 0.5`, `int y = 0.5`, src/lib.cpp:253-254: the conversion to an integer cuts off the fraction. -/
noncomputable def halfInt : ℤ := ⌊(0.5 : ℝ)⌋

/-- `b1` to `b16`, src/lib.cpp:260-275: products of integers and integer division. -/
def bicubicWeight (x y : ℤ) : ℕ → ℤ
  | 1 => ((x - 1) * (x - 2) * (x + 1) * (y - 1) * (y - 2) * (y + 1)).tdiv 4
  | 2 => (-x * (x + 1) * (x - 2) * (y - 1) * (y - 2) * (y + 1)).tdiv 4
  | 3 => (-(x - 1) * (x - 2) * (x + 1) * y * (y - 2) * (y + 1)).tdiv 4
  | 4 => (x * (x - 2) * (x + 1) * y * (y - 2) * (y + 1)).tdiv 4
  | 5 => (-x * (x - 1) * (x - 2) * (y - 1) * (y - 2) * (y + 1)).tdiv 12
  | 6 => (-(x - 1) * (x - 2) * (x + 1) * y * (y - 2) * (y - 1)).tdiv 12
  | 7 => (x * (x - 2) * (x - 1) * y * (y - 2) * (y + 1)).tdiv 12
  | 8 => (x * (x - 2) * (x + 1) * y * (y - 2) * (y - 1)).tdiv 12
  | 9 => (x * (x - 1) * (x + 1) * (y - 1) * (y - 2) * (y + 1)).tdiv 12
  | 10 => ((x - 1) * (x - 2) * (x + 1) * y * (y - 1) * (y + 1)).tdiv 12
  | 11 => (x * (x - 2) * (x - 1) * y * (y - 2) * (y - 1)).tdiv 36
  | 12 => (-x * (x - 1) * (x + 1) * y * (y - 2) * (y + 1)).tdiv 12
  | 13 => (-x * (x - 2) * (x + 1) * y * (y - 1) * (y + 1)).tdiv 12
  | 14 => (-x * (x - 1) * (x + 1) * y * (y - 2) * (y - 1)).tdiv 36
  | 15 => (-x * (x - 2) * (x - 1) * y * (y - 1) * (y + 1)).tdiv 36
  | 16 => (x * (x - 1) * (x + 1) * y * (y - 1) * (y + 1)).tdiv 36
  | _ => 0

/-- the terms of the sum, src/lib.cpp:277-292: weight and offset of the element it multiplies -/
def bicubicTerms : List (ℕ × ℤ × ℤ) :=
  [(1, 0, 0), (2, 0, 1), (3, 1, 0), (4, 1, 1), (5, 0, -1), (6, -1, 0), (7, 1, -1), (8, -1, 1), (9, 0, 2), (10, 2, 0),
    (11, -1, -1), (12, 1, 2), (13, 2, 1), (14, -1, 2), (15, 2, -1), (16, 2, 2)]

/-- the assignments to `b1` … `b16`, src/lib.cpp:260-275 -/
noncomputable def storeWeights : List ℕ → Task BicubicLoc → Task BicubicLoc
  | [], p => p
  | k :: ks, p => .store (.weight k) (bicubicWeight halfInt halfInt k) (storeWeights ks p)

/-- the sum over the terms, src/lib.cpp:277-292 -/
noncomputable def sumTerms (i j : ℤ) : List (ℕ × ℤ × ℤ) → ℝ → (ℝ → Task BicubicLoc) → Task BicubicLoc
  | [], acc, f => f acc
  | (k, di, dj) :: ts, acc, f =>
    .load (.weight k) fun w => .load (.src (i + di) (j + dj)) fun a => sumTerms i j ts (acc + w * a) f

/-- the body of the inner loop, src/lib.cpp:259-293 -/
noncomputable def bicubicBody (i j : ℤ) (p : Task BicubicLoc) : Task BicubicLoc :=
  storeWeights [1, 2, 3, 4, 5, 6, 7, 8, 9, 10, 11, 12, 13, 14, 15, 16]
    (sumTerms i j bicubicTerms 0 fun s => .store (.dst i j) s p)

/-- the inner loop, src/lib.cpp:258 -/
noncomputable def bicubicRow (i : ℤ) : List ℤ → Task BicubicLoc
  | [] => .ret ()
  | j :: js => bicubicBody i j (bicubicRow i js)

/-- `2, …, n - 3`: the indices of `for (i = 2; i < n - 2; i++)` for `2 ≤ n`, src/lib.cpp:257-258 -/
def innerIndices (n : ℕ) : List ℤ := (List.range (n - 4)).map fun k : ℕ => (k : ℤ) + 2

/-- the iterations of the parallel loop, src/lib.cpp:256-293 -/
noncomputable def bicubicLoop (x y : ℕ) : ℤ → Task BicubicLoc := fun i =>
  if 2 ≤ i ∧ i < x - 2 then bicubicRow i (innerIndices y) else .ret ()

/-- stores of zeros in order -/
def storeZeros : List BicubicLoc → Task BicubicLoc
  | [] => .ret ()
  | l :: ls => .store l 0 (storeZeros ls)

/-- the elements set to zero, src/lib.cpp:295-310 -/
def bicubicBorder (x y : ℕ) : List BicubicLoc :=
  ((List.range y).flatMap fun j : ℕ => [.dst 0 j, .dst 1 j, .dst ((x : ℤ) - 1) j, .dst ((x : ℤ) - 2) j]) ++
  ((List.range x).flatMap fun i : ℕ => [.dst i 0, .dst i 1, .dst i ((y : ℤ) - 1), .dst i ((y : ℤ) - 2)])

/-- `lib::bicubic_interpolation`, src/lib.cpp:249-311, for `2 ≤ x_size`, `2 ≤ y_size` (smaller sizes wrap around): the
parallel loop, then the border by one thread. -/
noncomputable def bicubicRegion (x y : ℕ) : Region BicubicLoc ℤ :=
  [bicubicLoop x y, fun i => if i = 0 then storeZeros (bicubicBorder x y) else .ret ()]

end Verif
