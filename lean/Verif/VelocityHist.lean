import Verif.Plot
import Mathlib.Analysis.SpecialFunctions.Sqrt

/-!
# The notebook of the velocity distribution

tools/view_1_velocity_distribution.ipynb: the subtraction of the directed velocity and the histogram of the speeds.  The line
numbers are those of the notebook file.
-/

namespace Verif

/-- What the notebook reads of a macroparticle, tools/view_1_velocity_distribution.ipynb:141-146 -/
structure MpRow where
  pos_r : ℝ
  pos_z : ℝ
  v_r : ℝ
  v_phi : ℝ
  v_z : ℝ

/-- The speed, tools/view_1_velocity_distribution.ipynb:148 and 200 -/
noncomputable def MpRow.speed (p : MpRow) : ℝ := √(p.v_r ^ 2 + p.v_phi ^ 2 + p.v_z ^ 2)

/-- The window and the cells, tools/view_1_velocity_distribution.ipynb:159-160, 168-171.  Of the `shape[2] - shape[0]` rows
half are kept. -/
structure FilterGrid where
  r_grid_amount : ℕ
  z_grid_amount : ℕ
  dr : ℝ
  dz : ℝ
  r_shift : ℝ
  z_shift : ℝ

/-- tools/view_1_velocity_distribution.ipynb:159-160, 168-171, for a window with `shape[0] ≤ shape[2]`, `shape[1] ≤ shape[3]` -/
noncomputable def filterGrid (s₀ s₁ s₂ s₃ : ℕ) (r_size z_size : ℝ) (number_r_grid number_z_grid : ℕ) : FilterGrid :=
  ⟨(s₂ - s₀) / 2, (s₃ - s₁) / 2, r_size / number_r_grid, z_size / number_z_grid, s₀ * (r_size / number_r_grid), s₁ * (z_size / number_z_grid)⟩

/-- The condition with which a macroparticle is added to cell `(i, j)`, tools/view_1_velocity_distribution.ipynb:176 -/
def inFilterCell (g : FilterGrid) (i j : ℕ) (p : MpRow) : Prop :=
  g.r_shift + i * g.dr < p.pos_r ∧ p.pos_r ≤ g.r_shift + (i + 1) * g.dr ∧
    g.z_shift + j * g.dz < p.pos_z ∧ p.pos_z ≤ g.z_shift + (j + 1) * g.dz

/-- The subtrahend of a cell for the component `f` of the velocity, tools/view_1_velocity_distribution.ipynb:162-184: the
count starts with one. -/
noncomputable def subtrahend (g : FilterGrid) (f : MpRow → ℝ) (ps : List MpRow) (i j : ℕ) : ℝ :=
  open Classical in
  ((ps.filter fun p => inFilterCell g i j p).map f).sum / (1 + (ps.filter fun p => inFilterCell g i j p).length)

/-- The number of the cell from which the subtrahend is taken, tools/view_1_velocity_distribution.ipynb:192-195 -/
noncomputable def filterCell (amount : ℕ) (x shift d : ℝ) : ℤ :=
  if ⌊(x - shift) / d - 1⌋ > (amount : ℤ) - 1 then (amount : ℤ) - 1 else ⌊(x - shift) / d - 1⌋

/-- `a[n]` of a numpy array of `len` entries: a negative number counts from the end, others raise `IndexError` -/
def npPlace (len : ℕ) (n : ℤ) : Option ℕ :=
  if 0 ≤ n ∧ n < len then some n.toNat else if n < 0 ∧ -(len : ℤ) ≤ n then some (n + len).toNat else none

/-- The subtraction for one macroparticle, tools/view_1_velocity_distribution.ipynb:190-198.  The subtrahends of `ps` are
computed before. -/
noncomputable def filterOne (g : FilterGrid) (ps : List MpRow) (p : MpRow) : Option MpRow := do
  let i ← npPlace g.r_grid_amount (filterCell g.r_grid_amount p.pos_r g.r_shift g.dr)
  let j ← npPlace g.z_grid_amount (filterCell g.z_grid_amount p.pos_z g.z_shift g.dz)
  some { p with
    v_r := p.v_r - subtrahend g MpRow.v_r ps i j
    v_phi := p.v_phi - subtrahend g MpRow.v_phi ps i j
    v_z := p.v_z - subtrahend g MpRow.v_z ps i j }

/-- All macroparticles, tools/view_1_velocity_distribution.ipynb:189-200 -/
noncomputable def filterAll (g : FilterGrid) (ps : List MpRow) : Option (List MpRow) := ps.mapM (filterOne g ps)

/-- `np.max`; an empty array raises -/
noncomputable def npMaxL : List ℝ → Option ℝ
  | [] => none
  | x :: xs => some (xs.foldl max x)

/-- `np.min`; an empty array raises -/
noncomputable def npMinL : List ℝ → Option ℝ
  | [] => none
  | x :: xs => some (xs.foldl min x)

/-- The rounds of the inner loop for one speed, tools/view_1_velocity_distribution.ipynb:217-219 -/
noncomputable def countOne (slices : List ℝ) (stat : List ℕ) (v : ℝ) : List ℕ :=
  (List.range (slices.length - 1)).foldl (fun stat j =>
    if slices.getD j 0 < v ∧ v ≤ slices.getD (j + 1) 0 then stat.set j (stat.getD j 0 + 1) else stat) stat

/-- The histogram as the shown points, tools/view_1_velocity_distribution.ipynb:209-219 and 289, 291.  `none`: an exception. -/
noncomputable def velocityHistogram (segments : ℕ) (data : List ℝ) : Option (List (ℝ × ℕ)) := do
  let velocity_max ← npMaxL data
  let velocity_min ← npMinL data
  let slices ← linspace velocity_min velocity_max segments
  let stat := data.foldl (countOne slices) (List.replicate segments 0)
  some (slices.zip stat)

end Verif
