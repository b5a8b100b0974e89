import Verif.StillProps

/-!
# Profiles of one time (C116)
-/

namespace Verif

/-! ## Specification -/

/-- The curve shows the values `v` of the nodes from `lo` up to `hi`, in order, the node `j` within `tol` of the coordinate `j * step`. -/
def ShowsProfile (step tol : ℝ) (lo hi : ℤ) (v : ℤ → ℝ) (curve : List (ℝ × ℝ)) : Prop :=
  (curve.length : ℤ) = hi - lo ∧ ∀ (i : ℕ) x y, curve[i]? = some (x, y) → y = v (lo + i) ∧ |x - ((lo + i : ℤ) : ℝ) * step| ≤ tol

namespace Still

open TimeSeries

theorem column_window (v : ℤ → ℤ → ℝ) {w : ℤ × ℤ × ℤ × ℤ} {j : ℤ} (h0 : 0 ≤ j) (h1 : j < w.2.2.2 - w.2.1) :
    npColumn (windowOf v w) j = some ((intRange w.1 w.2.2.1).map fun i => v i (w.2.1 + j)) := by
  unfold npColumn windowOf
  rw [List.mapM_map]
  apply TimeSeries.mapM_some
  intro i _
  show pyGet ((intRange w.2.1 w.2.2.2).map fun k => v i k) j = _
  unfold pyGet
  rw [if_pos h0, getElem_range, if_pos (by omega), show w.2.1 + (j.toNat : ℤ) = w.2.1 + j by omega]

theorem row_window (v : ℤ → ℤ → ℝ) {w : ℤ × ℤ × ℤ × ℤ} {j : ℤ} (h0 : 0 ≤ j) (h1 : j < w.2.2.1 - w.1) :
    pyGet (windowOf v w) j = some ((intRange w.2.1 w.2.2.2).map fun k => v (w.1 + j) k) := by
  unfold windowOf pyGet
  rw [if_pos h0, getElem_range, if_pos (by omega)]
  rw [show w.1 + (j.toNat : ℤ) = w.1 + j by omega]

theorem curve_points (a b : ℝ) {lo hi : ℤ} (h : lo < hi) (v : ℤ → ℝ) {n : ℕ} (hn : n = (hi - lo).toNat) :
    ∃ curve, stillCurve a b n ((intRange lo hi).map v) = some curve ∧ (curve.length : ℤ) = hi - lo ∧
      ∀ i : ℕ, (i : ℤ) < hi - lo → ∃ θ : ℝ, 0 ≤ θ ∧ θ ≤ 1 ∧ θ * (((hi - lo : ℤ) : ℝ) - 1) = i ∧ curve[i]? = some (a + θ * (b - a), v (lo + i)) := by
  have hN : 1 ≤ (hi - lo).toNat := by omega
  obtain ⟨l, l1, l2, l3⟩ := linspace_get (a := a) (b := b) hN
  have l4 : ((intRange lo hi).map v).length = (hi - lo).toNat := by rw [List.length_map, intRange_length]
  subst hn
  refine ⟨l.zip ((intRange lo hi).map v), ?_, ?_, ?_⟩
  · unfold stillCurve
    rw [l1, Option.bind_some, l2, l4, if_pos rfl]
  · rw [List.length_zip, l2, l4]; omega
  · intro i hi'
    obtain ⟨θ, x0, x1, x2, x3⟩ := l3 i (by omega)
    refine ⟨θ, x0, x1, ?_, ?_⟩
    · rw [← x3]
      have : (((hi - lo).toNat : ℕ) : ℝ) = ((hi - lo : ℤ) : ℝ) := by
        have : (((hi - lo).toNat : ℕ) : ℤ) = hi - lo := by omega
        exact_mod_cast this
      rw [this]
    · exact (List.getElem?_zip_eq_some (z := (a + θ * (b - a), v (lo + i)))).2 ⟨x2, by rw [getElem_range, if_pos (by omega)]⟩

/-- The points of a curve, as a property -/
theorem profile_shows (a b step tol : ℝ) {lo hi : ℤ} (h : lo < hi) (v : ℤ → ℝ) {n : ℕ} (hn : n = (hi - lo).toNat)
    (close : ∀ θ : ℝ, 0 ≤ θ → θ ≤ 1 → |a + θ * (b - a) - (lo + θ * (((hi - lo : ℤ) : ℝ) - 1)) * step| ≤ tol) :
    ∃ curve, stillCurve a b n ((intRange lo hi).map v) = some curve ∧ ShowsProfile step tol lo hi v curve := by
  obtain ⟨curve, e, l, k⟩ := curve_points a b h v hn
  refine ⟨curve, e, l, ?_⟩
  intro i x y hxy
  have hi' : (i : ℤ) < hi - lo := by
    have := (List.getElem?_eq_some_iff.1 hxy).1
    omega
  obtain ⟨θ, t0, t1, t2, t3⟩ := k i hi'
  rw [t3] at hxy
  obtain ⟨rfl, rfl⟩ := Prod.mk.inj (Option.some.inj hxy)
  refine ⟨rfl, ?_⟩
  have := close θ t0 t1
  rw [t2] at this
  push_cast
  exact this

/-- Where a coordinate is on a grid whose nodes the tools take for one more than they are -/
theorem round_place {L size d : ℝ} {n : ℤ} (hn : 2 ≤ n) (hd : 0 < d) (hs : size = d * (n - 1)) (h0 : 0 ≤ L) (h1 : L ≤ size) :
    |npRound (L * n / size) * d - L| ≤ 3 / 2 * d := by
  have hn' : (2 : ℝ) ≤ n := by exact_mod_cast hn
  have hn1 : (0 : ℝ) < n - 1 := by linarith
  have k := npRound_near (L * n / size)
  have e : L * n / size = L / d + L / size := by
    rw [hs]
    field_simp
    ring
  have hsz : 0 < size := by rw [hs]; positivity
  have q0 : 0 ≤ L / size := by positivity
  have q1 : L / size ≤ 1 := by rwa [div_le_one hsz]
  rw [e, abs_le] at k
  have m : (L / d) * d = L := by field_simp
  rw [e, abs_le]
  have a1 := mul_le_mul_of_nonneg_right k.1 hd.le
  have a2 := mul_le_mul_of_nonneg_right k.2 hd.le
  have b1 := mul_le_mul_of_nonneg_right q1 hd.le
  have b0 := mul_nonneg q0 hd.le
  constructor <;> nlinarith only [a1, a2, b1, b0, m]

variable {rd : ℕ → StillReader} {D : ℕ → List Char → ℤ → ℤ → ℤ → ℝ} {cfg : PyParams} {t : ℝ} {w : ℤ × ℤ × ℤ × ℤ} {items : List StillItem}

theorem column_data (hc : Counted cfg) (hr : FaithfulFrames rd D cfg t w items) (hw : GridWindow w) {j : ℤ} (h0 : 0 ≤ j) (h1 : j < w.2.2.2 - w.2.1) (autoselect : Bool)
    (saved : SavedExactly cfg w items ∨ autoselect = true ∧ SavedAround cfg w items) :
    ∃ ds, stillData rd cfg t w (fun f => npColumn f j) autoselect items = some ds ∧
      List.Forall₂ (fun it d => ∃ n, FrameOf cfg t w it n ∧ d = (intRange w.1 w.2.2.1).map fun i => D it.run it.name n i (w.2.1 + j)) items ds := by
  refine data_all (val := fun v => (intRange w.1 w.2.2.1).map fun i => v i (w.2.1 + j)) hc hr (fun v => column_window v h0 h1) ?_ hw autoselect saved
  intro v
  rw [List.length_map, intRange_length]
  have := hw.2.1
  omega

theorem row_data (hc : Counted cfg) (hr : FaithfulFrames rd D cfg t w items) (hw : GridWindow w) {j : ℤ} (h0 : 0 ≤ j) (h1 : j < w.2.2.1 - w.1) (autoselect : Bool)
    (saved : SavedExactly cfg w items ∨ autoselect = true ∧ SavedAround cfg w items) :
    ∃ ds, stillData rd cfg t w (fun f => pyGet f j) autoselect items = some ds ∧
      List.Forall₂ (fun it d => ∃ n, FrameOf cfg t w it n ∧ d = (intRange w.2.1 w.2.2.2).map fun k => D it.run it.name n (w.1 + j) k) items ds := by
  refine data_all (val := fun v => (intRange w.2.1 w.2.2.2).map fun k => v (w.1 + j) k) hc hr (fun v => row_window v h0 h1) ?_ hw autoselect saved
  intro v
  rw [List.length_map, intRange_length]
  have := hw.2.2.2
  omega

/-- The radii of the temperature profile -/
theorem radius_close {G : Geom} (hG : G.Valid) (grid : OfGrid cfg G) {lo hi : ℤ} (h0 : 0 ≤ lo) (h2 : hi ≤ G.nr) (θ : ℝ) (t0 : 0 ≤ θ) (t1 : θ ≤ 1) :
    |radiusByRow cfg lo + θ * (radiusByRow cfg hi - radiusByRow cfg lo) - (lo + θ * (((hi - lo : ℤ) : ℝ) - 1)) * G.dr| ≤ max (lo : ℝ) (G.nr - hi) / G.nr * G.dr := by
  obtain ⟨g1, -, g3, -⟩ := grid
  have hn : (2 : ℝ) ≤ G.nr := by exact_mod_cast hG.nr_ge
  have hn0 : (0 : ℝ) < G.nr := by linarith
  have hd := hG.dr_pos
  have e : radiusByRow cfg lo + θ * (radiusByRow cfg hi - radiusByRow cfg lo) - (lo + θ * (((hi - lo : ℤ) : ℝ) - 1)) * G.dr =
      ((1 - θ) * -(lo : ℝ) + θ * (G.nr - hi)) / G.nr * G.dr := by
    unfold radiusByRow
    rw [g1, g3, hG.r_size_eq]
    push_cast
    field_simp
    ring
  have l0 : (0 : ℝ) ≤ lo := by exact_mod_cast h0
  have l2 : (hi : ℝ) ≤ G.nr := by exact_mod_cast h2
  have m1 : (lo : ℝ) ≤ max (lo : ℝ) (G.nr - hi) := le_max_left _ _
  have m2 : (G.nr : ℝ) - hi ≤ max (lo : ℝ) (G.nr - hi) := le_max_right _ _
  rw [e, abs_mul, abs_div, abs_of_pos hn0, abs_of_pos hd]
  refine mul_le_mul_of_nonneg_right (div_le_div_of_nonneg_right ?_ hn0.le) hd.le
  rw [abs_le]
  constructor <;> nlinarith

theorem column_nonneg {G : Geom} (hG : G.Valid) (grid : OfGrid cfg G) {z : ℝ} (hz : 0 ≤ z) : 0 ≤ colByLongitude cfg z := by
  have hn : (2 : ℝ) ≤ G.nz := by exact_mod_cast hG.nz_ge
  have hs : 0 < G.z_size := by rw [hG.z_size_eq]; exact mul_pos hG.dz_pos (by linarith)
  have q : 0 ≤ z * cfg.number_z_grid / cfg.z_size := by
    rw [grid.2.1, grid.2.2.2]
    push_cast
    positivity
  have k := npRound_near (z * cfg.number_z_grid / cfg.z_size)
  rw [abs_le] at k
  unfold colByLongitude
  have : (-1 : ℝ) < npRound (z * cfg.number_z_grid / cfg.z_size) := by linarith [k.2]
  have : (-1 : ℤ) < npRound (z * cfg.number_z_grid / cfg.z_size) := by exact_mod_cast this
  omega

theorem row_nonneg {G : Geom} (hG : G.Valid) (grid : OfGrid cfg G) {r : ℝ} (hr : 0 ≤ r) : 0 ≤ rowByRadius cfg r := by
  have hn : (2 : ℝ) ≤ G.nr := by exact_mod_cast hG.nr_ge
  have hs : 0 < G.r_size := by rw [hG.r_size_eq]; exact mul_pos hG.dr_pos (by linarith)
  have q : 0 ≤ r * cfg.number_r_grid / cfg.r_size := by
    rw [grid.1, grid.2.2.1]
    push_cast
    positivity
  have k := npRound_near (r * cfg.number_r_grid / cfg.r_size)
  rw [abs_le] at k
  unfold rowByRadius
  have : (-1 : ℝ) < npRound (r * cfg.number_r_grid / cfg.r_size) := by linarith [k.2]
  have : (-1 : ℤ) < npRound (r * cfg.number_r_grid / cfg.r_size) := by exact_mod_cast this
  omega

theorem column_place {G : Geom} (hG : G.Valid) (grid : OfGrid cfg G) {z : ℝ} (place : 0 ≤ z ∧ z ≤ G.z_size) :
    |(colByLongitude cfg z : ℝ) * G.dz - z| ≤ 3 / 2 * G.dz := by
  unfold colByLongitude
  rw [grid.2.1, grid.2.2.2]
  have := round_place (n := G.nz) (by exact_mod_cast hG.nz_ge) hG.dz_pos (by rw [hG.z_size_eq]; push_cast; ring) place.1 place.2
  push_cast at this ⊢
  exact this

theorem row_place {G : Geom} (hG : G.Valid) (grid : OfGrid cfg G) {r : ℝ} (place : 0 ≤ r ∧ r ≤ G.r_size) :
    |(rowByRadius cfg r : ℝ) * G.dr - r| ≤ 3 / 2 * G.dr := by
  unfold rowByRadius
  rw [grid.1, grid.2.2.1]
  have := round_place (n := G.nr) (by exact_mod_cast hG.nr_ge) hG.dr_pos (by rw [hG.r_size_eq]; push_cast; ring) place.1 place.2
  push_cast at this ⊢
  exact this

theorem intRange_cons {a b : ℤ} (h : a < b) : intRange a b = a :: intRange (a + 1) b := by
  rw [← intRange_append (show a ≤ a + 1 by omega) (show a + 1 ≤ b by omega)]
  have : intRange a (a + 1) = [a] := by
    unfold intRange
    rw [show (a + 1 - a).toNat = 1 by omega]
    simp
  rw [this]
  rfl

/-- Curves of all data sets -/
theorem curves_all {a b step tol : ℝ} {lo hi : ℤ} {n : ℕ} (h : lo < hi) (hn : n = (hi - lo).toNat) {its : List StillItem} {V : StillItem → ℤ → ℤ → ℝ} {F : StillItem → ℤ → Prop}
    (close : ∀ θ : ℝ, 0 ≤ θ → θ ≤ 1 → |a + θ * (b - a) - (lo + θ * (((hi - lo : ℤ) : ℝ) - 1)) * step| ≤ tol) {ds : List (List ℝ)}
    (hds : List.Forall₂ (fun it d => ∃ m, F it m ∧ d = (intRange lo hi).map (V it m)) its ds) :
    ∃ curves, (ds.mapM fun d => stillCurve a b n d) = some curves ∧ List.Forall₂ (fun it c => ∃ m, F it m ∧ ShowsProfile step tol lo hi (V it m) c) its curves := by
  induction hds with
  | nil => exact ⟨[], rfl, .nil⟩
  | @cons it d its ds hd _ ih =>
    obtain ⟨m, hm, rfl⟩ := hd
    obtain ⟨cs, e, hc⟩ := ih
    obtain ⟨c, c1, c2⟩ := profile_shows a b step tol h (V it m) hn close
    refine ⟨c :: cs, ?_, .cons ⟨m, hm, c2⟩ hc⟩
    rw [List.mapM_cons, c1, e]
    rfl

theorem head_length {lo hi : ℤ} {it : StillItem} {its : List StillItem} {V : StillItem → ℤ → ℤ → ℝ} {F : StillItem → ℤ → Prop} {ds : List (List ℝ)}
    (hds : List.Forall₂ (fun it d => ∃ m, F it m ∧ d = (intRange lo hi).map (V it m)) (it :: its) ds) : (ds.headD []).length = (hi - lo).toNat := by
  cases hds with
  | cons a _ =>
    obtain ⟨m, -, rfl⟩ := a
    rw [List.headD_cons, List.length_map, intRange_length]

end Still

namespace Still

open TimeSeries

/-- The grid of the examples: ten by ten nodes, one metre by one metre -/
noncomputable def seriesGrid : Geom := ⟨1, 1, 10, 10, 1 / 9, 1 / 9⟩

theorem seriesGrid_valid : seriesGrid.Valid := ⟨by norm_num [seriesGrid], by norm_num [seriesGrid], by norm_num [seriesGrid], by norm_num [seriesGrid],
  by norm_num [seriesGrid], by norm_num [seriesGrid]⟩

theorem seriesGrid_of (fpf : ℤ) (ps : List PyProbe) : OfGrid (seriesCfg fpf ps) seriesGrid := ⟨rfl, rfl, by simp [seriesCfg, seriesGrid], by simp [seriesCfg, seriesGrid]⟩

theorem half_column (fpf : ℤ) (ps : List PyProbe) : colByLongitude (seriesCfg fpf ps) (1 / 2) = 5 := by
  unfold colByLongitude
  rw [show (1 / 2 : ℝ) * (seriesCfg fpf ps).number_z_grid / (seriesCfg fpf ps).z_size = ((5 : ℤ) : ℝ) by norm_num [seriesCfg], npRound_int]

theorem half_row (fpf : ℤ) (ps : List PyProbe) : rowByRadius (seriesCfg fpf ps) (1 / 2) = 5 := by
  unfold rowByRadius
  rw [show (1 / 2 : ℝ) * (seriesCfg fpf ps).number_r_grid / (seriesCfg fpf ps).r_size = ((5 : ℤ) : ℝ) by norm_num [seriesCfg], npRound_int]

theorem whole_density : SavedExactly (seriesCfg 1 wholeProbes) (0, 0, 10, 10) (densityItems "electrons".toList) := by
  simp [SavedExactly, densityItems, seriesCfg, wholeProbes, PyProbe.window, StillItem.SavedBy, StillItem.Wants]

theorem whole_temperature : SavedExactly (seriesCfg 1 wholeProbes) (0, 0, 10, 10) (twoTemperatures "electrons".toList) := by
  simp [SavedExactly, twoTemperatures, seriesCfg, wholeProbes, PyProbe.window, StillItem.SavedBy, StillItem.Wants]

end Still

open Still TimeSeries

/-- **C116**, radial profiles of the temperature: if the data sets can be found (as for maps) in a window with all columns from the first on, the curves show the values along
the radius, in a column within one and a half cells of the asked place, in the frame of the asked time.  The radii are right up to a part of a cell, the part of the rows that
is not in the window; with all rows they are exact.

The full statement is for all windows and probes (violated, see the maps and `C116_place_violated`), and for the time asked for in both simulations (violated,
`C116_second_violated`). -/
theorem C116_temperature_partial (rd : ℕ → StillReader) (D : ℕ → List Char → ℤ → ℤ → ℤ → ℝ) (cfg : PyParams) (G : Geom) (hG : G.Valid) (grid : OfGrid cfg G) (t z : ℝ)
    (w : ℤ × ℤ × ℤ × ℤ) (autoselect : Bool) (specie : List Char) (window : GridWindow w) (rows : w.2.2.1 ≤ G.nr) (columns : w.2.1 = 0) (counted : Counted cfg)
    (reader : FaithfulFrames rd D cfg t w (twoTemperatures specie)) (place : 0 ≤ z ∧ z ≤ G.z_size) (inside : colByLongitude cfg z < w.2.2.2)
    (saved : SavedExactly cfg w (twoTemperatures specie) ∨ autoselect = true ∧ SavedAround cfg w (twoTemperatures specie)) :
    ∃ curves, ∃ col : ℤ, temperatureProfiles rd cfg t z w autoselect specie = some curves ∧ curves.length = 2 ∧ |(col : ℝ) * G.dz - z| ≤ 3 / 2 * G.dz ∧
      ∀ (i : ℕ) it curve, (twoTemperatures specie)[i]? = some it → curves[i]? = some curve → ∃ n, FrameOf cfg t w it n ∧
        ShowsProfile G.dr (max (w.1 : ℝ) (G.nr - w.2.2.1) / G.nr * G.dr) w.1 w.2.2.1 (fun i => D it.run it.name n i col) curve := by
  obtain ⟨ds, e, h⟩ := column_data counted reader window (column_nonneg hG grid place.1) (by rw [columns]; omega) autoselect saved
  obtain ⟨curves, c1, c2⟩ := curves_all (F := fun it m => FrameOf cfg t w it m) (V := fun it m i => D it.run it.name m i (w.2.1 + colByLongitude cfg z))
    window.2.1 (head_length h) (fun θ t0 t1 => radius_close hG grid window.1 rows θ t0 t1) h
  obtain ⟨l, g⟩ := forall₂_get c2
  refine ⟨curves, w.2.1 + colByLongitude cfg z, ?_, l.symm, ?_, g⟩
  · unfold temperatureProfiles
    rw [e, Option.bind_some, c1]
  · rw [columns, zero_add]
    exact column_place hG grid place

/-- The temperature in the middle of the chamber -/
example (D : ℕ → List Char → ℤ → ℤ → ℤ → ℝ) : ∃ curves, ∃ col : ℤ,
    temperatureProfiles (allFrames D) (seriesCfg 1 wholeProbes) 100 (1 / 2) (0, 0, 10, 10) true "electrons".toList = some curves ∧ curves.length = 2 ∧
      |(col : ℝ) * seriesGrid.dz - 1 / 2| ≤ 3 / 2 * seriesGrid.dz ∧ ∀ (i : ℕ) it curve, (twoTemperatures "electrons".toList)[i]? = some it → curves[i]? = some curve →
        ∃ n, FrameOf (seriesCfg 1 wholeProbes) 100 (0, 0, 10, 10) it n ∧
          ShowsProfile seriesGrid.dr (max ((0 : ℤ) : ℝ) (seriesGrid.nr - (10 : ℤ)) / seriesGrid.nr * seriesGrid.dr) 0 10 (fun i => D it.run it.name n i col) curve :=
  C116_temperature_partial _ D _ seriesGrid seriesGrid_valid (seriesGrid_of _ _) 100 (1 / 2) (0, 0, 10, 10) true _ (by norm_num [GridWindow]) (by norm_num [seriesGrid]) rfl
    whole_counted (allFrames_faithful D _ _ _ _) (by norm_num [seriesGrid]) (by rw [half_column]; norm_num) (Or.inl whole_temperature)

/-- **C116**, radial profile of the density: as for the temperature, but the coordinate is the number of the row, right up to one row. -/
theorem C116_density_partial (rd : ℕ → StillReader) (D : ℕ → List Char → ℤ → ℤ → ℤ → ℝ) (cfg : PyParams) (G : Geom) (hG : G.Valid) (grid : OfGrid cfg G) (t z : ℝ)
    (w : ℤ × ℤ × ℤ × ℤ) (autoselect : Bool) (specie : List Char) (window : GridWindow w) (columns : w.2.1 = 0) (counted : Counted cfg)
    (reader : FaithfulFrames rd D cfg t w (densityItems specie)) (place : 0 ≤ z ∧ z ≤ G.z_size) (inside : colByLongitude cfg z < w.2.2.2)
    (saved : SavedExactly cfg w (densityItems specie) ∨ autoselect = true ∧ SavedAround cfg w (densityItems specie)) :
    ∃ curve, ∃ col n : ℤ, densityProfile rd cfg t z w autoselect specie = some curve ∧ |(col : ℝ) * G.dz - z| ≤ 3 / 2 * G.dz ∧
      FrameOf cfg t w ⟨"density".toList, some specie, false, 0⟩ n ∧
      ShowsProfile 1 1 w.1 w.2.2.1 (fun i => D 0 ("density/".toList ++ specie) n i col) curve := by
  obtain ⟨ds, e, h⟩ := column_data counted reader window (column_nonneg hG grid place.1) (by rw [columns]; omega) autoselect saved
  have hl := head_length h
  cases h with
  | @cons _ d _ ds' a _ =>
    obtain ⟨n, hn, rfl⟩ := a
    obtain ⟨curve, c1, c2⟩ := profile_shows (w.1 : ℝ) w.2.2.1 1 1 window.2.1 (fun i => D 0 ("density/".toList ++ specie) n i (w.2.1 + colByLongitude cfg z)) hl (by
      intro θ t0 t1
      push_cast
      rw [show (w.1 : ℝ) + θ * (w.2.2.1 - w.1) - (w.1 + θ * (w.2.2.1 - w.1 - 1)) * 1 = θ by ring, abs_of_nonneg t0]
      exact t1)
    refine ⟨curve, w.2.1 + colByLongitude cfg z, n, ?_, ?_, hn, c2⟩
    · unfold densityProfile
      rw [e, Option.bind_some]
      exact c1
    · rw [columns, zero_add]
      exact column_place hG grid place

/-- The density in the middle of the chamber -/
example (D : ℕ → List Char → ℤ → ℤ → ℤ → ℝ) : ∃ curve, ∃ col n : ℤ,
    densityProfile (allFrames D) (seriesCfg 1 wholeProbes) 100 (1 / 2) (0, 0, 10, 10) true "electrons".toList = some curve ∧
      |(col : ℝ) * seriesGrid.dz - 1 / 2| ≤ 3 / 2 * seriesGrid.dz ∧ FrameOf (seriesCfg 1 wholeProbes) 100 (0, 0, 10, 10) ⟨"density".toList, some "electrons".toList, false, 0⟩ n ∧
      ShowsProfile 1 1 0 10 (fun i => D 0 ("density/".toList ++ "electrons".toList) n i col) curve :=
  C116_density_partial _ D _ seriesGrid seriesGrid_valid (seriesGrid_of _ _) 100 (1 / 2) (0, 0, 10, 10) true _ (by norm_num [GridWindow]) rfl
    whole_counted (allFrames_faithful D _ _ _ _) (by norm_num [seriesGrid]) (by rw [half_column]; norm_num) (Or.inl whole_density)

/-- **C116 is violated by the axis of the profile of the density**: it is labelled in metres and shows the number of the row.  With cells below one metre no point but that on the
axis is drawn at its radius. -/
theorem C116_metres_violated (rd : ℕ → StillReader) (D : ℕ → List Char → ℤ → ℤ → ℤ → ℝ) (cfg : PyParams) (G : Geom) (hG : G.Valid) (grid : OfGrid cfg G) (small : G.dr < 1)
    (t z : ℝ) (w : ℤ × ℤ × ℤ × ℤ) (autoselect : Bool) (specie : List Char) (window : GridWindow w) (columns : w.2.1 = 0) (counted : Counted cfg)
    (reader : FaithfulFrames rd D cfg t w (densityItems specie)) (place : 0 ≤ z ∧ z ≤ G.z_size) (inside : colByLongitude cfg z < w.2.2.2)
    (saved : SavedExactly cfg w (densityItems specie) ∨ autoselect = true ∧ SavedAround cfg w (densityItems specie)) :
    ∃ curve, densityProfile rd cfg t z w autoselect specie = some curve ∧
      ∀ (i : ℕ) x y, curve[i]? = some (x, y) → 0 < w.1 + i → ((w.1 + i : ℤ) : ℝ) * G.dr < x := by
  obtain ⟨ds, e, h⟩ := column_data counted reader window (column_nonneg hG grid place.1) (by rw [columns]; omega) autoselect saved
  have hl := head_length h
  cases h with
  | @cons _ d _ ds' a _ =>
    obtain ⟨n, hn, rfl⟩ := a
    obtain ⟨curve, c1, c2, c3⟩ := curve_points (w.1 : ℝ) w.2.2.1 window.2.1 (fun i => D 0 ("density/".toList ++ specie) n i (w.2.1 + colByLongitude cfg z)) hl
    refine ⟨curve, ?_, ?_⟩
    · unfold densityProfile
      rw [e, Option.bind_some]
      exact c1
    · intro i x y hxy hi
      obtain ⟨θ, t0, -, t2, t3⟩ := c3 i (by have := (List.getElem?_eq_some_iff.1 hxy).1; omega)
      rw [t3] at hxy
      obtain ⟨rfl, -⟩ := Prod.mk.inj (Option.some.inj hxy)
      have hi' : (0 : ℝ) < w.1 + i := by exact_mod_cast hi
      push_cast at t2 ⊢
      nlinarith

/-- A chamber of one metre -/
example (D : ℕ → List Char → ℤ → ℤ → ℤ → ℝ) : ∃ curve,
    densityProfile (allFrames D) (seriesCfg 1 wholeProbes) 100 (1 / 2) (0, 0, 10, 10) true "electrons".toList = some curve ∧
      ∀ (i : ℕ) x y, curve[i]? = some (x, y) → 0 < (0 : ℤ) + i → (((0 : ℤ) + i : ℤ) : ℝ) * seriesGrid.dr < x :=
  C116_metres_violated _ D _ seriesGrid seriesGrid_valid (seriesGrid_of _ _) (by norm_num [seriesGrid]) 100 (1 / 2) (0, 0, 10, 10) true _ (by norm_num [GridWindow]) rfl
    whole_counted (allFrames_faithful D _ _ _ _) (by norm_num [seriesGrid]) (by rw [half_column]; norm_num) (Or.inl whole_density)

/-- **C116 is violated by windows that do not begin at the first column**: the number of the column in the chamber is taken for that in the window, and the profile shows a place
as far behind the asked one as the window is from the beginning of the chamber. -/
theorem C116_place_violated (rd : ℕ → StillReader) (D : ℕ → List Char → ℤ → ℤ → ℤ → ℝ) (cfg : PyParams) (G : Geom) (hG : G.Valid) (grid : OfGrid cfg G) (t z : ℝ)
    (w : ℤ × ℤ × ℤ × ℤ) (autoselect : Bool) (specie : List Char) (window : GridWindow w) (counted : Counted cfg)
    (reader : FaithfulFrames rd D cfg t w (densityItems specie)) (place : 0 ≤ z ∧ z ≤ G.z_size) (inside : colByLongitude cfg z < w.2.2.2 - w.2.1)
    (saved : SavedExactly cfg w (densityItems specie) ∨ autoselect = true ∧ SavedAround cfg w (densityItems specie)) :
    ∃ curve, ∃ col n : ℤ, densityProfile rd cfg t z w autoselect specie = some curve ∧ |(col : ℝ) * G.dz - (z + w.2.1 * G.dz)| ≤ 3 / 2 * G.dz ∧
      ShowsProfile 1 1 w.1 w.2.2.1 (fun i => D 0 ("density/".toList ++ specie) n i col) curve := by
  obtain ⟨ds, e, h⟩ := column_data counted reader window (column_nonneg hG grid place.1) inside autoselect saved
  have hl := head_length h
  cases h with
  | @cons _ d _ ds' a _ =>
    obtain ⟨n, hn, rfl⟩ := a
    obtain ⟨curve, c1, c2⟩ := profile_shows (w.1 : ℝ) w.2.2.1 1 1 window.2.1 (fun i => D 0 ("density/".toList ++ specie) n i (w.2.1 + colByLongitude cfg z)) hl (by
      intro θ t0 t1
      push_cast
      rw [show (w.1 : ℝ) + θ * (w.2.2.1 - w.1) - (w.1 + θ * (w.2.2.1 - w.1 - 1)) * 1 = θ by ring, abs_of_nonneg t0]
      exact t1)
    refine ⟨curve, w.2.1 + colByLongitude cfg z, n, ?_, ?_, c2⟩
    · unfold densityProfile
      rw [e, Option.bind_some]
      exact c1
    · have := column_place hG grid place
      push_cast
      rwa [show ((w.2.1 : ℝ) + colByLongitude cfg z) * G.dz - (z + w.2.1 * G.dz) = colByLongitude cfg z * G.dz - z by ring]

/-- The middle of the chamber, asked for in a window that begins at the third column: the profile is that of a place three cells further -/
example (D : ℕ → List Char → ℤ → ℤ → ℤ → ℝ) : ∃ curve, ∃ col n : ℤ,
    densityProfile (allFrames D) (seriesCfg 1 wholeProbes) 100 (1 / 2) (0, 3, 10, 10) true "electrons".toList = some curve ∧
      |(col : ℝ) * seriesGrid.dz - (1 / 2 + (3 : ℤ) * seriesGrid.dz)| ≤ 3 / 2 * seriesGrid.dz ∧
      ShowsProfile 1 1 0 10 (fun i => D 0 ("density/".toList ++ "electrons".toList) n i col) curve := by
  refine C116_place_violated _ D _ seriesGrid seriesGrid_valid (seriesGrid_of _ _) 100 (1 / 2) (0, 3, 10, 10) true _ (by norm_num [GridWindow])
    whole_counted (allFrames_faithful D _ _ _ _) (by norm_num [seriesGrid]) (by rw [half_column]; norm_num) (Or.inr ⟨rfl, ?_, ?_, ?_⟩)
  · simp [densityItems, seriesCfg, wholeProbes, PyProbe.window]
  · simp [densityItems]
  · simp [densityItems, seriesCfg, wholeProbes, PyProbe.window, StillItem.SavedBy, StillItem.Wants, PyProbe.Contains]

/-- **C116 is violated at the end of the chamber**: the profile at the last place of the chamber raises. -/
theorem C116_end_violated (rd : ℕ → StillReader) (D : ℕ → List Char → ℤ → ℤ → ℤ → ℝ) (cfg : PyParams) (G : Geom) (hG : G.Valid) (grid : OfGrid cfg G) (t : ℝ)
    (w : ℤ × ℤ × ℤ × ℤ) (autoselect : Bool) (specie : List Char) (window : GridWindow w) (columns : w.2.2.2 - w.2.1 ≤ G.nz) (counted : Counted cfg)
    (reader : FaithfulFrames rd D cfg t w (densityItems specie)) (saved : SavedExactly cfg w (densityItems specie)) :
    densityProfile rd cfg t G.z_size w autoselect specie = none := by
  obtain ⟨p, p1, p2, p3⟩ := saved ⟨"density".toList, some specie, false, 0⟩ (by simp [densityItems])
  have r := reader ⟨"density".toList, some specie, false, 0⟩ (by simp [densityItems]) p p1 p2 (contains_self p3)
  have col : ∀ v, npColumn (windowOf v w) G.nz = none := by
    intro v
    unfold npColumn
    refine mapM_none (x := (intRange w.2.1 w.2.2.2).map fun k => v w.1 k) ?_ ?_
    · unfold windowOf
      rw [intRange_cons window.2.1, List.map_cons]
      exact List.mem_cons_self
    · unfold pyGet
      rw [if_pos (by positivity), getElem_range, if_neg (by omega)]
  unfold densityProfile stillData
  rw [(C73_last_row_violated cfg G hG grid).2,
    mapM_none (x := (⟨"density".toList, some specie, false, 0⟩ : StillItem)) (by simp [densityItems])
      (exact_none counted cfg.probes [] (fun _ h => h) ⟨p, p1, p2, p3, by rw [← p3, r, p3, Option.bind_some, col]⟩), Option.bind_none, Option.bind_none]

/-- A chamber of one metre -/
example (D : ℕ → List Char → ℤ → ℤ → ℤ → ℝ) : densityProfile (allFrames D) (seriesCfg 1 wholeProbes) 100 seriesGrid.z_size (0, 0, 10, 10) true "electrons".toList = none :=
  C116_end_violated _ D _ seriesGrid seriesGrid_valid (seriesGrid_of _ _) 100 (0, 0, 10, 10) true _ (by norm_num [GridWindow]) (by norm_num [seriesGrid])
    whole_counted (allFrames_faithful D _ _ _ _) whole_density

/-- **C116 is violated by simulations of different steps**: the frame of the second simulation is numbered with the step of the first.  If the second one has twice the step, its
curve shows a frame that is further from the asked time than half the interval between two frames. -/
theorem C116_second_violated (rd : ℕ → StillReader) (D : ℕ → List Char → ℤ → ℤ → ℤ → ℝ) (cfg cfg2 : PyParams) (G : Geom) (hG : G.Valid) (grid : OfGrid cfg G) (t z : ℝ)
    (w : ℤ × ℤ × ℤ × ℤ) (autoselect : Bool) (specie : List Char) (s : ℤ) (window : GridWindow w) (columns : w.2.1 = 0) (counted : Counted cfg)
    (reader : FaithfulFrames rd D cfg t w (twoTemperatures specie)) (place : 0 ≤ z ∧ z ≤ G.z_size) (inside : colByLongitude cfg z < w.2.2.2)
    (saved : SavedExactly cfg w (twoTemperatures specie) ∨ autoselect = true ∧ SavedAround cfg w (twoTemperatures specie))
    (schedule : ∀ p ∈ cfg.probes, p.component = "T".toList → p.schedule = s) (step : cfg2.step_interval = 2 * cfg.step_interval)
    (late : 2 * (cfg.step_interval * s) < t) :
    ∃ curves, temperatureProfiles rd cfg t z w autoselect specie = some curves ∧ ∃ curve, curves[1]? = some curve ∧ ∃ n,
      curve.map Prod.snd = (intRange w.1 w.2.2.1).map (fun i => D 1 ("T/".toList ++ specie) n i (colByLongitude cfg z)) ∧
      1 / 2 * (cfg2.step_interval * s) < |t - timeByFrame cfg2 n s| := by
  obtain ⟨ds, e, h⟩ := column_data counted reader window (column_nonneg hG grid place.1) (by rw [columns]; omega) autoselect saved
  have hl := head_length h
  cases h with
  | @cons _ d0 _ _ a h =>
    cases h with
    | @cons _ d1 _ _ b h =>
      cases h
      rw [columns] at a b
      obtain ⟨n0, -, rfl⟩ := a
      obtain ⟨n, ⟨p, p1, p2, -, p4⟩, rfl⟩ := b
      obtain ⟨c0, e0, -, -⟩ := curve_points (radiusByRow cfg w.1) (radiusByRow cfg w.2.2.1) window.2.1
        (fun i => D 0 ("T/".toList ++ specie) n0 i (0 + colByLongitude cfg z)) hl
      obtain ⟨c1, e1, l1, k1⟩ := curve_points (radiusByRow cfg w.1) (radiusByRow cfg w.2.2.1) window.2.1
        (fun i => D 1 ("T/".toList ++ specie) n i (0 + colByLongitude cfg z)) hl
      refine ⟨[c0, c1], ?_, c1, rfl, n, ?_, ?_⟩
      · unfold temperatureProfiles
        rw [e, Option.bind_some, List.mapM_cons]
        erw [e0, List.mapM_cons, e1]
        rfl
      · apply List.ext_getElem?
        intro i
        rw [getElem_range, List.getElem?_map]
        split_ifs with hi
        · obtain ⟨θ, -, -, -, k⟩ := k1 i (by omega)
          rw [k, zero_add]
          rfl
        · rw [List.getElem?_eq_none (by omega)]
          rfl
      · rw [schedule p p1 p2.2.1] at p4
        unfold timeByFrame at p4 ⊢
        rw [abs_le] at p4
        rw [step, lt_abs]
        right
        nlinarith [p4.1, p4.2]

/-- A second simulation with a step of two seconds -/
example (D : ℕ → List Char → ℤ → ℤ → ℤ → ℝ) (cfg2 : PyParams) (h : cfg2.step_interval = 2) : ∃ curves,
    temperatureProfiles (allFrames D) (seriesCfg 1 wholeProbes) 100 (1 / 2) (0, 0, 10, 10) true "electrons".toList = some curves ∧ ∃ curve, curves[1]? = some curve ∧ ∃ n,
      curve.map Prod.snd = (intRange 0 10).map (fun i => D 1 ("T/".toList ++ "electrons".toList) n i (colByLongitude (seriesCfg 1 wholeProbes) (1 / 2))) ∧
      1 / 2 * (cfg2.step_interval * (5 : ℤ)) < |100 - timeByFrame cfg2 n 5| :=
  C116_second_violated _ D _ cfg2 seriesGrid seriesGrid_valid (seriesGrid_of _ _) 100 (1 / 2) (0, 0, 10, 10) true _ 5 (by norm_num [GridWindow]) rfl
    whole_counted (allFrames_faithful D _ _ _ _) (by norm_num [seriesGrid]) (by rw [half_column]; norm_num) (Or.inl whole_temperature)
    (by simp [seriesCfg, wholeProbes]) (by rw [h]; norm_num [seriesCfg]) (by norm_num [seriesCfg])

/-- **C116**, profile of the density along the axis: without limits, in a window with all rows from the first on, the curve shows the values along the axis in order, in a row
within one and a half cells of the asked radius, in the frame of the asked time.

The full statement is with the places of the values (violated, `C116_axis_violated`) and with limits (violated, `C116_deleted_violated`). -/
theorem C116_longitudinal_partial (rd : ℕ → StillReader) (D : ℕ → List Char → ℤ → ℤ → ℤ → ℝ) (cfg : PyParams) (G : Geom) (hG : G.Valid) (grid : OfGrid cfg G) (t r : ℝ)
    (w : ℤ × ℤ × ℤ × ℤ) (autoselect : Bool) (specie : List Char) (window : GridWindow w) (rows : w.1 = 0) (counted : Counted cfg)
    (reader : FaithfulFrames rd D cfg t w (densityItems specie)) (place : 0 ≤ r ∧ r ≤ G.r_size) (inside : rowByRadius cfg r < w.2.2.1)
    (saved : SavedExactly cfg w (densityItems specie) ∨ autoselect = true ∧ SavedAround cfg w (densityItems specie)) :
    ∃ curve, ∃ row n : ℤ, longitudinalProfile rd cfg t r w autoselect specie none = some curve ∧ |(row : ℝ) * G.dr - r| ≤ 3 / 2 * G.dr ∧
      FrameOf cfg t w ⟨"density".toList, some specie, false, 0⟩ n ∧
      curve.map Prod.snd = (intRange w.2.1 w.2.2.2).map (fun k => D 0 ("density/".toList ++ specie) n row k) := by
  obtain ⟨ds, e, h⟩ := row_data counted reader window (row_nonneg hG grid place.1) (by rw [rows]; omega) autoselect saved
  have hl := head_length h
  cases h with
  | @cons _ d _ ds' a _ =>
    rw [rows] at a
    obtain ⟨n, hn, rfl⟩ := a
    obtain ⟨curve, c1, c2, c3⟩ := curve_points (w.1 : ℝ) w.2.2.1 window.2.2.2 (fun k => D 0 ("density/".toList ++ specie) n (0 + rowByRadius cfg r) k) hl
    refine ⟨curve, rowByRadius cfg r, n, ?_, row_place hG grid place, hn, ?_⟩
    · unfold longitudinalProfile
      rw [e, Option.bind_some]
      exact c1
    · apply List.ext_getElem?
      intro i
      rw [getElem_range, List.getElem?_map]
      split_ifs with hi
      · obtain ⟨θ, -, -, -, k⟩ := c3 i (by omega)
        rw [k, zero_add]
        rfl
      · rw [List.getElem?_eq_none (by omega)]
        rfl

/-- Half way to the wall -/
example (D : ℕ → List Char → ℤ → ℤ → ℤ → ℝ) : ∃ curve, ∃ row n : ℤ,
    longitudinalProfile (allFrames D) (seriesCfg 1 wholeProbes) 100 (1 / 2) (0, 0, 10, 10) true "electrons".toList none = some curve ∧
      |(row : ℝ) * seriesGrid.dr - 1 / 2| ≤ 3 / 2 * seriesGrid.dr ∧ FrameOf (seriesCfg 1 wholeProbes) 100 (0, 0, 10, 10) ⟨"density".toList, some "electrons".toList, false, 0⟩ n ∧
      curve.map Prod.snd = (intRange 0 10).map (fun k => D 0 ("density/".toList ++ "electrons".toList) n row k) :=
  C116_longitudinal_partial _ D _ seriesGrid seriesGrid_valid (seriesGrid_of _ _) 100 (1 / 2) (0, 0, 10, 10) true _ (by norm_num [GridWindow]) rfl
    whole_counted (allFrames_faithful D _ _ _ _) (by norm_num [seriesGrid]) (by rw [half_row]; norm_num) (Or.inl whole_density)

/-- **C116 is violated by the places along the axis**: the coordinates of the profile along the axis are taken from the rows of the window.  The value of the last column is drawn at the
number of rows. -/
theorem C116_axis_violated (rd : ℕ → StillReader) (D : ℕ → List Char → ℤ → ℤ → ℤ → ℝ) (cfg : PyParams) (G : Geom) (hG : G.Valid) (grid : OfGrid cfg G) (t r : ℝ)
    (w : ℤ × ℤ × ℤ × ℤ) (autoselect : Bool) (specie : List Char) (window : GridWindow w) (two : w.2.1 + 1 < w.2.2.2) (rows : w.1 = 0) (counted : Counted cfg)
    (reader : FaithfulFrames rd D cfg t w (densityItems specie)) (place : 0 ≤ r ∧ r ≤ G.r_size) (inside : rowByRadius cfg r < w.2.2.1)
    (saved : SavedExactly cfg w (densityItems specie) ∨ autoselect = true ∧ SavedAround cfg w (densityItems specie)) :
    ∃ curve, ∃ n : ℤ, longitudinalProfile rd cfg t r w autoselect specie none = some curve ∧
      curve[(w.2.2.2 - w.2.1 - 1).toNat]? = some ((w.2.2.1 : ℝ), D 0 ("density/".toList ++ specie) n (rowByRadius cfg r) (w.2.2.2 - 1)) := by
  obtain ⟨ds, e, h⟩ := row_data counted reader window (row_nonneg hG grid place.1) (by rw [rows]; omega) autoselect saved
  have hl := head_length h
  cases h with
  | @cons _ d _ ds' a _ =>
    rw [rows] at a
    obtain ⟨n, hn, rfl⟩ := a
    obtain ⟨curve, c1, c2, c3⟩ := curve_points (w.1 : ℝ) w.2.2.1 window.2.2.2 (fun k => D 0 ("density/".toList ++ specie) n (0 + rowByRadius cfg r) k) hl
    refine ⟨curve, n, ?_, ?_⟩
    · unfold longitudinalProfile
      rw [e, Option.bind_some]
      exact c1
    · obtain ⟨θ, -, -, k2, k⟩ := c3 (w.2.2.2 - w.2.1 - 1).toNat (by omega)
      have q : (((w.2.2.2 - w.2.1 - 1).toNat : ℕ) : ℤ) = w.2.2.2 - w.2.1 - 1 := by omega
      have q' : (((w.2.2.2 - w.2.1 - 1).toNat : ℕ) : ℝ) = (w.2.2.2 : ℝ) - w.2.1 - 1 := by exact_mod_cast q
      have pos : (0 : ℝ) < (w.2.2.2 : ℝ) - w.2.1 - 1 := by
        have : ((w.2.1 + 1 : ℤ) : ℝ) < w.2.2.2 := by exact_mod_cast two
        push_cast at this
        linarith
      have one : θ = 1 := by
        rw [q'] at k2
        push_cast at k2
        exact mul_right_cancel₀ pos.ne' (by rw [k2, one_mul])
      rw [k, one, q, zero_add, show w.2.1 + (w.2.2.2 - w.2.1 - 1) = w.2.2.2 - 1 by ring]
      congr 2
      ring

/-- In a window of ten rows and four columns the fourth column is drawn at ten -/
example (D : ℕ → List Char → ℤ → ℤ → ℤ → ℝ) : ∃ curve, ∃ n : ℤ,
    longitudinalProfile (allFrames D) (seriesCfg 1 wholeProbes) 100 (1 / 2) (0, 0, 10, 4) true "electrons".toList none = some curve ∧
      curve[((4 : ℤ) - 0 - 1).toNat]? = some (((10 : ℤ) : ℝ), D 0 ("density/".toList ++ "electrons".toList) n (rowByRadius (seriesCfg 1 wholeProbes) (1 / 2)) (4 - 1)) := by
  refine C116_axis_violated _ D _ seriesGrid seriesGrid_valid (seriesGrid_of _ _) 100 (1 / 2) (0, 0, 10, 4) true _ (by norm_num [GridWindow]) (by norm_num) rfl
    whole_counted (allFrames_faithful D _ _ _ _) (by norm_num [seriesGrid]) (by rw [half_row]; norm_num) (Or.inr ⟨rfl, ?_, ?_, ?_⟩)
  · simp [densityItems, seriesCfg, wholeProbes, PyProbe.window]
  · simp [densityItems]
  · simp [densityItems, seriesCfg, wholeProbes, PyProbe.window, StillItem.SavedBy, StillItem.Wants, PyProbe.Contains]

/-- **C116 is violated by limits**: values outside of the limits are deleted together with their places, and the others move.  If only the first value is outside, the curve begins
with the value of the second column, at the place of the first. -/
theorem C116_deleted_violated (rd : ℕ → StillReader) (D : ℕ → List Char → ℤ → ℤ → ℤ → ℝ) (cfg : PyParams) (G : Geom) (hG : G.Valid) (grid : OfGrid cfg G) (t r : ℝ)
    (w : ℤ × ℤ × ℤ × ℤ) (autoselect : Bool) (specie : List Char) (limits : ℝ × ℝ) (window : GridWindow w) (three : w.2.1 + 2 < w.2.2.2) (rows : w.1 = 0) (counted : Counted cfg)
    (reader : FaithfulFrames rd D cfg t w (densityItems specie)) (place : 0 ≤ r ∧ r ≤ G.r_size) (inside : rowByRadius cfg r < w.2.2.1)
    (saved : SavedExactly cfg w (densityItems specie) ∨ autoselect = true ∧ SavedAround cfg w (densityItems specie))
    (first : ∀ n, limits.2 < D 0 ("density/".toList ++ specie) n (rowByRadius cfg r) w.2.1)
    (others : ∀ n k, w.2.1 < k → limits.1 ≤ D 0 ("density/".toList ++ specie) n (rowByRadius cfg r) k ∧ D 0 ("density/".toList ++ specie) n (rowByRadius cfg r) k ≤ limits.2) :
    ∃ curve, ∃ n : ℤ, longitudinalProfile rd cfg t r w autoselect specie (some limits) = some curve ∧ (curve.length : ℤ) = w.2.2.2 - w.2.1 - 1 ∧
      curve[0]? = some ((w.1 : ℝ), D 0 ("density/".toList ++ specie) n (rowByRadius cfg r) (w.2.1 + 1)) := by
  classical
  obtain ⟨ds, e, h⟩ := row_data counted reader window (row_nonneg hG grid place.1) (by rw [rows]; omega) autoselect saved
  have hl := head_length h
  cases h with
  | @cons _ d _ ds' a _ =>
    rw [rows, zero_add] at a
    obtain ⟨n, hn, rfl⟩ := a
    obtain ⟨v, hv⟩ : ∃ v : ℤ → ℝ, v = fun k => D 0 ("density/".toList ++ specie) n (rowByRadius cfg r) k := ⟨_, rfl⟩
    have f0 : limits.2 < v w.2.1 := by rw [hv]; exact first n
    have f1 : ∀ k, w.2.1 < k → limits.1 ≤ v k ∧ v k ≤ limits.2 := by rw [hv]; exact others n
    have key : ((intRange w.2.1 w.2.2.2).map v).filter (fun x => decide (limits.1 ≤ x ∧ x ≤ limits.2)) = (intRange (w.2.1 + 1) w.2.2.2).map v := by
      rw [intRange_cons window.2.2.2, List.map_cons, List.filter_cons_of_neg (by simp [f0]), List.filter_eq_self]
      intro x hx
      obtain ⟨k, hk, rfl⟩ := List.mem_map.1 hx
      obtain ⟨m, -, rfl⟩ := List.mem_map.1 hk
      exact decide_eq_true (f1 _ (by omega))
    obtain ⟨curve, c1, c2, c3⟩ := curve_points (w.1 : ℝ) w.2.2.1 (show w.2.1 + 1 < w.2.2.2 by omega) v (n := ((intRange (w.2.1 + 1) w.2.2.2).map v).length) (by rw [List.length_map, intRange_length])
    refine ⟨curve, n, ?_, by omega, ?_⟩
    · unfold longitudinalProfile
      rw [e, Option.bind_some]
      show (if _ then _ else _) = _
      rw [if_neg (by rw [hl]; have := window.2.2.2; omega)]
      subst hv
      rw [← c1, ← key]
      rfl
    · obtain ⟨θ, -, -, k2, k⟩ := c3 0 (by omega)
      have pos : (0 : ℝ) < (w.2.2.2 : ℝ) - (w.2.1 + 1) - 1 := by
        have : ((w.2.1 + 2 : ℤ) : ℝ) < w.2.2.2 := by exact_mod_cast three
        push_cast at this
        linarith
      have zero : θ = 0 := by
        push_cast at k2
        exact (mul_eq_zero.1 k2).resolve_right pos.ne'
      rw [k, zero, zero_mul, add_zero, hv]
      simp

/-- A density of two on the left wall and of one elsewhere, with limits of zero and one -/
example : ∃ curve, ∃ n : ℤ,
    longitudinalProfile (allFrames fun _ _ _ _ k => if k = 0 then 2 else 1) (seriesCfg 1 wholeProbes) 100 (1 / 2) (0, 0, 10, 10) true "electrons".toList (some (0, 1)) =
      some curve ∧ (curve.length : ℤ) = 10 - 0 - 1 ∧
      curve[0]? = some (((0 : ℤ) : ℝ), (fun (_ : ℕ) (_ : List Char) (_ _ k : ℤ) => if k = 0 then (2 : ℝ) else 1) 0 ("density/".toList ++ "electrons".toList) n
        (rowByRadius (seriesCfg 1 wholeProbes) (1 / 2)) (0 + 1)) :=
  C116_deleted_violated _ (fun _ _ _ _ k => if k = 0 then 2 else 1) _ seriesGrid seriesGrid_valid (seriesGrid_of _ _) 100 (1 / 2) (0, 0, 10, 10) true _ (0, 1)
    (by norm_num [GridWindow]) (by norm_num) rfl whole_counted (allFrames_faithful _ _ _ _ _) (by norm_num [seriesGrid]) (by rw [half_row]; norm_num) (Or.inl whole_density)
    (by intro n; norm_num) (by intro n k hk; have hk : (0 : ℤ) < k := hk; simp [hk.ne'])

end Verif
