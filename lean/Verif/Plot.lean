import Verif.PyParams
import Mathlib.Data.Int.Log
import Mathlib.Algebra.Order.Round

/-!
# The axes of the maps that the tools draw

Models `PlotBuilder` of tools/lib/plot_builder.py as far as it decides where the ticks of the axes are and what is written
at them, for the arguments that the movie scripts give.  Element `[i][j]` of an image is drawn at the place `(j, i)` of the
axes (`imshow` of matplotlib with `origin='lower'`).  A raised exception is `none`.  Fonts, colours, titles and the colour bar
are left out.
-/

namespace Verif

/-- `a or b` of numbers in Python: `None` and zero are false -/
noncomputable def pyOrNum (a : Option ℝ) (b : ℝ) : ℝ :=
  open Classical in
  match a with
  | some x => if x = 0 then b else x
  | none => b

/-- `np.linspace(a, b, num)`; a negative number raises -/
noncomputable def linspace (a b : ℝ) (num : ℤ) : Option (List ℝ) :=
  if num < 0 then none
  else if num = 1 then some [a]
  else some ((List.range num.toNat).map fun i : ℕ => a + (i : ℝ) * ((b - a) / ((num : ℝ) - 1)))

/-- `float("{:.2e}".format(a))`, tools/lib/plot_builder.py:161-162: three significant digits.  Ties are rounded up here and by the
binary expansion in Python. -/
noncomputable def fmt3 (x : ℝ) : ℝ :=
  open Classical in
  if x = 0 then 0
  else (round (x / (10 : ℝ) ^ (Int.log 10 |x| - 2)) : ℝ) * (10 : ℝ) ^ (Int.log 10 |x| - 2)

/-- `__guess_tick_size__`, tools/lib/plot_builder.py:82-92.  Without a positive size the logarithm is not a number and `int`
raises; a division by zero raises. -/
noncomputable def guessTickSize (sx sy sz : ℝ) (guess : ℤ) : Option ℝ :=
  open Classical in
  if max (max sx sy) sz ≤ 0 ∨ guess = 0 then none
  else some ((⌊max (max sx sy) sz / (10 : ℝ) ^ Int.log 10 (max (max sx sy) sz)⌋ : ℝ) / guess *
    (10 : ℝ) ^ Int.log 10 (max (max sx sy) sz))

/-- What the constructor of a `PlotBuilder` keeps of the axes, tools/lib/plot_builder.py:30-51 -/
structure PlotAxes where
  x_plot_size : ℤ
  y_plot_size : ℤ
  x_ticklabel_start : ℝ
  y_ticklabel_start : ℝ
  x_ticklabel_end : ℝ
  y_ticklabel_end : ℝ
  number_x_ticks : ℤ
  number_y_ticks : ℤ

/-- `PlotBuilder.__init__`, tools/lib/plot_builder.py:10-18, 30-51, with the defaults that the movie scripts leave: labels start at zero,
there is no third axis (its size and its end are zero), the numbers of ticks are guessed from 40. -/
noncomputable def plotBuilder (x_plot_size y_plot_size : ℤ) (x_end y_end : Option ℝ) : Option PlotAxes :=
  let xe := pyOrNum x_end x_plot_size
  let ye := pyOrNum y_end y_plot_size
  if 0 < x_plot_size ∧ 0 < y_plot_size then
    (guessTickSize (xe - 0) (ye - 0) (0 - 0) 40).map fun tick =>
      ⟨x_plot_size, y_plot_size, 0, 0, xe, ye, npRound ((xe - 0) / tick), npRound ((ye - 0) / tick)⟩
  else some ⟨x_plot_size, y_plot_size, 0, 0, xe, ye, 40, 40⟩

/-- One axis of `__add_subplot_common__`, tools/lib/plot_builder.py:136-177: places of the ticks and what is written at them;
every second label is hidden.  `some none`: the ticks are left to matplotlib. -/
noncomputable def subplotAxis (size ticks : ℤ) (start stop : ℝ) : Option (Option (List (ℝ × Option ℝ))) := do
  let grid ← linspace 0 size (ticks + 1)
  let range ← linspace start stop (ticks + 1)
  if 0 < size then
    return some ((grid.zip (range.map fmt3)).zipIdx.map fun t => (t.1.1, if t.2 % 2 ≠ 0 then none else some t.1.2))
  else return none

/-- The horizontal and the vertical axis of every map of the movie scripts: the constructor and `add_subplot_cartesian_2d`,
tools/movie_3_E_RHObeam_r_z_map.py:58-72, tools/movie_1_density_map.py:54-66, tools/movie_1_temperature_map.py:49-61,
tools/lib/plot_builder.py:182-209 -/
noncomputable def movieAxes (p : PyParams) : Option (Option (List (ℝ × Option ℝ)) × Option (List (ℝ × Option ℝ))) := do
  let b ← plotBuilder p.number_z_grid p.number_r_grid (some p.z_size) (some p.r_size)
  let x ← subplotAxis b.x_plot_size b.number_x_ticks b.x_ticklabel_start b.x_ticklabel_end
  let y ← subplotAxis b.y_plot_size b.number_y_ticks b.y_ticklabel_start b.y_ticklabel_end
  return (x, y)

end Verif
