import Verif.Compare
import Verif.TimeSeriesProps
import Verif.PlainSeries

/-!
# Temperatures of several simulations (C122)
-/

namespace Verif

/-! ## Specification -/

/-- A simulation: its configuration, its temperature in the frame `n` and the cell `(i, k)`, the number of steps from one frame to the next, and the reader of its files -/
structure Compared where
  cfg : PyParams
  temp : ℤ → ℤ → ℤ → ℝ
  every : ℤ
  rd : SeriesReader

/-- A probe of the temperature with the cell `(row, col)` in it -/
def PyProbe.SavesTemp (specie : List Char) (row col : ℤ) (p : PyProbe) : Prop :=
  p.component = "T".toList ∧ p.specie = specie ∧
  (p.type = "dot".toList ∧ p.r_start = row ∧ p.z_start = col ∨ p.type = "col".toList ∧ p.z_start = col ∨ p.type = "row".toList ∧ p.r_start = row ∨
   p.type = "frame".toList ∧ p.r_start ≤ row ∧ row < p.r_end ∧ p.z_start ≤ col ∧ col < p.z_end)

/-- A column or a row through the cell of the same specie but not of its temperature -/
def PyProbe.Other (specie : List Char) (row col : ℤ) (p : PyProbe) : Prop :=
  p.component ≠ "T".toList ∧ p.specie = specie ∧ (p.type = "col".toList ∧ p.z_start = col ∨ p.type = "row".toList ∧ p.r_start = row)

/-- A window of the temperature that ends at the cell -/
def PyProbe.EndsAt (specie : List Char) (row col : ℤ) (p : PyProbe) : Prop :=
  p.component = "T".toList ∧ p.specie = specie ∧ p.type = "frame".toList ∧ (p.r_end = row ∨ p.z_end = col)

/-- The directory of the temperatures of a specie among the saved data, `T/` and its name -/
def PyProbe.tempDir (p : PyProbe) : List Char := 'T' :: '/' :: p.specie

/-- The reader gives the frames of all windows among the probes `P` at once (`C122_plain_frames`) -/
def FaithfulWindows (rd : SeriesReader) (D : List Char → ℤ → ℤ → ℤ → ℝ) (P : PyProbe → Prop) (nm : PyProbe → List Char) (lo hi : ℤ) : Prop :=
  ∀ p, P p → p.type = "frame".toList → rd.frame (nm p) (p.r_start, p.z_start, p.r_end, p.z_end) lo hi =
    some ((intRange lo hi).map fun n => (intRange p.r_start p.r_end).map fun i => (intRange p.z_start p.z_end).map fun k => D (nm p) n i k)

/-- The files of the simulation are read as they were saved, for the probes of the configuration `cfg` with the cell in them -/
structure Compared.Reads (x : Compared) (cfg : PyParams) (specie : List Char) (row col lo hi : ℤ) : Prop where
  lines : FaithfulReader x.rd (fun _ => x.temp) (fun p => p ∈ cfg.probes ∧ p.SavesTemp specie row col) PyProbe.tempDir lo hi x.cfg.number_r_grid x.cfg.number_z_grid
  frames : FaithfulWindows x.rd (fun _ => x.temp) (fun p => p ∈ cfg.probes ∧ p.SavesTemp specie row col) PyProbe.tempDir lo hi
  inside : 0 ≤ row ∧ row < x.cfg.number_r_grid ∧ 0 ≤ col ∧ col < x.cfg.number_z_grid

/-- The probes of the first simulation save the temperature in the cell every `s` steps, and nothing is in the way: no column or row of another quantity of the same specie through the cell,
and no window that ends at the cell -/
structure SavesCell (cfg : PyParams) (specie : List Char) (row col s : ℤ) : Prop where
  plain : cfg.use_hdf5 = .bool false
  step : 0 < cfg.step_interval
  positive : 0 < s
  nonzero : ∀ p ∈ cfg.probes, p.schedule ≠ 0
  schedule : ∀ p ∈ cfg.probes, p.SavesTemp specie row col → p.schedule = s
  saved : ∃ p ∈ cfg.probes, p.SavesTemp specie row col
  clear : ∀ p ∈ cfg.probes, ¬p.Other specie row col
  window : ∀ p ∈ cfg.probes, ¬p.EndsAt specie row col

namespace Compare

open TimeSeries

variable {sims : List Compared} {cfg : PyParams} {t : ℝ × ℝ} {specie : List Char} {row col s : ℤ}

theorem name_eq (p : PyProbe) : compareName p = p.tempDir := rfl

/-- what is to be read -/
noncomputable def goal (cfg : PyParams) (t : ℝ × ℝ) (row col s : ℤ) (x : Compared) : List ℝ := (intRange (frameByTime cfg t.1 s) (frameByTime cfg t.2 s)).map fun n => x.temp n row col

theorem frames_some (h : SavesCell cfg specie row col s) {p : PyProbe} (hp : p.schedule ≠ 0) :
    seriesFrames cfg t p = some (frameByTime cfg t.1 p.schedule, frameByTime cfg t.2 p.schedule) := by
  unfold seriesFrames
  rw [if_neg]
  rintro (h1 | h1)
  · exact h.step.ne' h1
  · exact hp h1

theorem read_some (h : SavesCell cfg specie row col s) {read : SeriesReader → Option (List ℝ)} (hr : ∀ x ∈ sims, read x.rd = some (goal cfg t row col s x)) :
    compareRead cfg (sims.map Compared.rd) read = some (sims.map (goal cfg t row col s)) := by
  unfold compareRead
  rw [if_neg (by rw [h.plain]; simp [Json.truth]), List.mapM_map]
  exact TimeSeries.mapM_some _ _ _ hr

theorem dots_read (h : SavesCell cfg specie row col s) (hx : ∀ x ∈ sims, x.Reads cfg specie row col (frameByTime cfg t.1 s) (frameByTime cfg t.2 s)) :
    ∀ (ps : List PyProbe) (st : List (List ℝ)), (∀ p ∈ ps, p ∈ cfg.probes) →
      ∃ st', compareDots (sims.map Compared.rd) cfg t specie row col ps st = some st' ∧
        (st' = sims.map (goal cfg t row col s) ∨ st' = st ∧ ∀ p ∈ ps, p.SavesTemp specie row col → p.type ≠ "dot".toList)
  | [], st, _ => ⟨st, rfl, Or.inr ⟨rfl, by simp⟩⟩
  | p :: ps, st, hm => by
    have ih := fun st => dots_read h hx ps st fun q hq => hm q (by simp [hq])
    have hp := hm p (by simp)
    rw [compareDots]
    by_cases hd : p.type = "dot".toList ∧ p.specie = specie ∧ p.r_start = row ∧ p.z_start = col
    · rw [if_pos hd, frames_some h (h.nonzero p hp), Option.bind_some]
      by_cases hc : p.component = "T".toList
      · have sv : p.SavesTemp specie row col := ⟨hc, hd.2.1, Or.inl ⟨hd.1, hd.2.2⟩⟩
        have hs := h.schedule p hp sv
        rw [if_pos hc, hs, read_some h (t := t) fun x x1 => by
          have := (hx x x1).lines.dot p ⟨hp, sv⟩ hd.1
          rw [hd.2.2.1, hd.2.2.2] at this
          exact this, Option.bind_some]
        obtain ⟨st', k1, k2⟩ := ih (sims.map (goal cfg t row col s))
        refine ⟨st', k1, Or.inl ?_⟩
        rcases k2 with k2 | k2
        · exact k2
        · exact k2.1
      · rw [if_neg hc, Option.bind_some]
        obtain ⟨st', k1, k2⟩ := ih st
        refine ⟨st', k1, k2.imp_right fun k2 => ⟨k2.1, ?_⟩⟩
        intro q hq sv
        rcases List.mem_cons.1 hq with rfl | hq
        · exact absurd sv.1 hc
        · exact k2.2 q hq sv
    · rw [if_neg hd]
      obtain ⟨st', k1, k2⟩ := ih st
      refine ⟨st', k1, k2.imp_right fun k2 => ⟨k2.1, ?_⟩⟩
      intro q hq sv
      rcases List.mem_cons.1 hq with rfl | hq
      · intro ty
        rcases sv with ⟨-, v1, ⟨-, v2⟩ | ⟨v2, -⟩ | ⟨v2, -⟩ | ⟨v2, -⟩⟩
        · exact hd ⟨ty, v1, v2⟩
        all_goals
          rw [ty] at v2
          exact absurd v2 (by decide)
      · exact k2.2 q hq sv

theorem column_read {lo hi nr row : ℤ} (f : ℤ → ℤ → ℝ) (h0 : 0 ≤ row) (h1 : row < nr) :
    npColumn ((intRange lo hi).map fun n => (intRange 0 nr).map fun i => f n i) row = some ((intRange lo hi).map fun n => f n row) := by
  unfold npColumn
  rw [List.mapM_map]
  refine TimeSeries.mapM_some _ _ _ fun n _ => ?_
  show pyGet ((intRange 0 nr).map fun i => f n i) row = _
  rw [pyGet_range _ h0 (by omega), zero_add]

theorem point_read {lo hi r0 r1 z0 z1 row col : ℤ} (f : ℤ → ℤ → ℤ → ℝ) (h0 : r0 ≤ row) (h1 : row < r1) (h2 : z0 ≤ col) (h3 : col < z1) :
    npPoint ((intRange lo hi).map fun n => (intRange r0 r1).map fun i => (intRange z0 z1).map fun k => f n i k) (row - r0) (col - z0) =
      some ((intRange lo hi).map fun n => f n row col) := by
  unfold npPoint
  rw [List.mapM_map]
  refine TimeSeries.mapM_some _ _ _ fun n _ => ?_
  show (pyGet ((intRange r0 r1).map fun i => (intRange z0 z1).map fun k => f n i k) (row - r0)).bind (fun r => pyGet r (col - z0)) = _
  rw [pyGet_range _ (by omega) (by omega), Option.bind_some, pyGet_range _ (by omega) (by omega)]
  congr 2 <;> ring

theorem areas_read (h : SavesCell cfg specie row col s) (hx : ∀ x ∈ sims, x.Reads cfg specie row col (frameByTime cfg t.1 s) (frameByTime cfg t.2 s)) :
    ∀ (ps : List PyProbe) (st : List (List ℝ)), (∀ p ∈ ps, p ∈ cfg.probes) →
      ∃ st', compareAreas (sims.map Compared.rd) cfg t specie row col ps st = some st' ∧
        (st' = sims.map (goal cfg t row col s) ∨ st' = st ∧ ∀ p ∈ ps, p.SavesTemp specie row col → p.type = "dot".toList)
  | [], st, _ => ⟨st, rfl, Or.inr ⟨rfl, by simp⟩⟩
  | p :: ps, st, hm => by
    have ih := fun st => areas_read h hx ps st fun q hq => hm q (by simp [hq])
    have hp := hm p (by simp)
    rw [compareAreas]
    by_cases hc : p.type = "col".toList ∧ p.specie = specie ∧ p.z_start = col
    · have ht : p.component = "T".toList := by
        by_contra ht
        exact h.clear p hp ⟨ht, hc.2.1, Or.inl ⟨hc.1, hc.2.2⟩⟩
      have sv : p.SavesTemp specie row col := ⟨ht, hc.2.1, Or.inr (Or.inl ⟨hc.1, hc.2.2⟩)⟩
      refine ⟨_, ?_, Or.inl rfl⟩
      rw [if_pos hc, frames_some h (h.nonzero p hp), Option.bind_some, if_pos ht, h.schedule p hp sv]
      refine read_some h fun x x1 => ?_
      have k := (hx x x1).lines.col p ⟨hp, sv⟩ hc.1
      rw [hc.2.2] at k
      dsimp only
      rw [name_eq, k, Option.bind_some]
      exact column_read (fun n i => x.temp n i col) (hx x x1).inside.1 (hx x x1).inside.2.1
    rw [if_neg hc]
    by_cases hr : p.type = "row".toList ∧ p.specie = specie ∧ p.r_start = row
    · have ht : p.component = "T".toList := by
        by_contra ht
        exact h.clear p hp ⟨ht, hr.2.1, Or.inr ⟨hr.1, hr.2.2⟩⟩
      have sv : p.SavesTemp specie row col := ⟨ht, hr.2.1, Or.inr (Or.inr (Or.inl ⟨hr.1, hr.2.2⟩))⟩
      refine ⟨_, ?_, Or.inl rfl⟩
      rw [if_pos hr, frames_some h (h.nonzero p hp), Option.bind_some, if_pos ht, h.schedule p hp sv]
      refine read_some h fun x x1 => ?_
      have k := (hx x x1).lines.row p ⟨hp, sv⟩ hr.1
      rw [hr.2.2] at k
      dsimp only
      rw [name_eq, k, Option.bind_some]
      exact column_read (fun n k => x.temp n row k) (hx x x1).inside.2.2.1 (hx x x1).inside.2.2.2
    rw [if_neg hr]
    by_cases hf : p.type = "frame".toList ∧ p.specie = specie ∧ p.r_start ≤ row ∧ p.z_start ≤ col ∧ row ≤ p.r_end ∧ col ≤ p.z_end
    · obtain ⟨f1, f2, f3, f4, f5, f6⟩ := hf
      rw [if_pos ⟨f1, f2, f3, f4, f5, f6⟩, frames_some h (h.nonzero p hp), Option.bind_some]
      by_cases ht : p.component = "T".toList
      · have ne : ¬(p.r_end = row ∨ p.z_end = col) := fun e => h.window p hp ⟨ht, f2, f1, e⟩
        have sv : p.SavesTemp specie row col := ⟨ht, f2, Or.inr (Or.inr (Or.inr ⟨f1, f3, by omega, f4, by omega⟩))⟩
        rw [if_pos ht, h.schedule p hp sv, read_some h (t := t) fun x x1 => by
          have k := (hx x x1).frames p ⟨hp, sv⟩ f1
          dsimp only
          rw [name_eq, k, Option.bind_some]
          exact point_read x.temp f3 (by omega) f4 (by omega), Option.bind_some]
        obtain ⟨st', k1, k2⟩ := ih (sims.map (goal cfg t row col s))
        refine ⟨st', k1, Or.inl ?_⟩
        rcases k2 with k2 | k2
        · exact k2
        · exact k2.1
      · rw [if_neg ht, Option.bind_some]
        obtain ⟨st', k1, k2⟩ := ih st
        refine ⟨st', k1, k2.imp_right fun k2 => ⟨k2.1, ?_⟩⟩
        intro q hq sv
        rcases List.mem_cons.1 hq with rfl | hq
        · exact absurd sv.1 ht
        · exact k2.2 q hq sv
    · rw [if_neg hf]
      obtain ⟨st', k1, k2⟩ := ih st
      refine ⟨st', k1, k2.imp_right fun k2 => ⟨k2.1, ?_⟩⟩
      intro q hq sv
      rcases List.mem_cons.1 hq with rfl | hq
      · rcases sv with ⟨-, v1, ⟨v2, -⟩ | ⟨v2, v3⟩ | ⟨v2, v3⟩ | ⟨v2, v3, v4, v5, v6⟩⟩
        · exact v2
        · exact absurd ⟨v2, v1, v3⟩ hc
        · exact absurd ⟨v2, v1, v3⟩ hr
        · exact absurd ⟨v2, v1, v3, v5, v4.le, v6.le⟩ hf
      · exact k2.2 q hq sv

theorem data_read (h : SavesCell cfg specie row col s) (hx : ∀ x ∈ sims, x.Reads cfg specie row col (frameByTime cfg t.1 s) (frameByTime cfg t.2 s)) (order : frameByTime cfg t.1 s < frameByTime cfg t.2 s) (some_sims : sims ≠ []) :
    compareData (sims.map Compared.rd) cfg t specie row col true = some (sims.map (goal cfg t row col s)) := by
  unfold compareData
  obtain ⟨st, k1, k2⟩ := dots_read h hx cfg.probes ((sims.map Compared.rd).map fun _ => []) fun _ h => h
  rw [k1, Option.bind_some]
  have len : ((sims.map (goal cfg t row col s)).headD []).length ≠ 0 := by
    obtain ⟨x, l, rfl⟩ := List.exists_cons_of_ne_nil some_sims
    rw [List.map_cons, List.headD_cons]
    unfold goal
    rw [List.length_map, TimeSeries.intRange_length]
    omega
  rcases k2 with rfl | ⟨rfl, k2⟩
  · rw [if_neg (by rintro ⟨e, -⟩; exact len e)]
  · rw [if_pos]
    · obtain ⟨st, j1, j2⟩ := areas_read h hx cfg.probes ((sims.map Compared.rd).map fun _ => []) fun _ h => h
      rw [j1]
      rcases j2 with rfl | ⟨-, j2⟩
      · rfl
      · obtain ⟨p, p1, p2⟩ := h.saved
        exact absurd (j2 p p1 p2) (k2 p p1 p2)
    · obtain ⟨x, l, rfl⟩ := List.exists_cons_of_ne_nil some_sims
      exact ⟨rfl, rfl⟩

theorem curves_shown (h : SavesCell cfg specie row col s) (hx : ∀ x ∈ sims, x.Reads cfg specie row col (frameByTime cfg t.1 s) (frameByTime cfg t.2 s)) (order : frameByTime cfg t.1 s < frameByTime cfg t.2 s) (some_sims : sims ≠ []) :
    ∃ curves, compareCurves (sims.map Compared.rd) cfg t specie row col true = some curves ∧ curves.length = sims.length ∧
      ∀ (i : ℕ) (x : Compared) (curve : List (ℝ × ℝ)), sims[i]? = some x → curves[i]? = some curve → ShowsSeries cfg t s (fun n => x.temp n row col) curve := by
  unfold compareCurves
  rw [data_read h hx order some_sims, Option.bind_some, List.mapM_map]
  refine mapM_all (P := fun (x : Compared) curve => ShowsSeries cfg t s (fun n => x.temp n row col) curve) fun x _ => ?_
  obtain ⟨curve, c1, c2⟩ := curve_shows (t := t) (st := fun c => .list (if c = [] then (sims.map (goal cfg t row col s)).headD [] else goal cfg t row col s x)) (first := []) (c := ['x'])
    (v := fun n => x.temp n row col) h.step h.positive order (by
      obtain ⟨y, l, rfl⟩ := List.exists_cons_of_ne_nil some_sims
      rw [if_pos rfl, List.map_cons, List.headD_cons]
      show (goal cfg t row col s y).length = _
      unfold goal
      rw [List.length_map, TimeSeries.intRange_length]) (by rw [if_neg (by simp)]; rfl)
  refine ⟨curve, ?_, c2⟩
  rw [← c1]
  rfl

theorem shows_same {cfg' : PyParams} {v : ℤ → ℝ} {curve : List (ℝ × ℝ)} (h : cfg'.step_interval = cfg.step_interval) (hs : ShowsSeries cfg t s v curve) : ShowsSeries cfg' t s v curve := by
  have e1 : ∀ x, frameByTime cfg' x s = frameByTime cfg x s := fun x => by
    unfold frameByTime
    rw [h]
  have e2 : ∀ n, timeByFrame cfg' n s = timeByFrame cfg n s := fun n => by
    unfold timeByFrame
    rw [h]
  unfold ShowsSeries
  rw [e1, e1, h]
  simp only [e2]
  exact hs

theorem row_near {cfg : PyParams} (h1 : 0 < cfg.r_size) (h2 : 0 < cfg.number_r_grid) (radius : ℝ) :
    |radiusByRow cfg (rowByRadius cfg radius) - radius| ≤ 1 / 2 * (cfg.r_size / cfg.number_r_grid) := by
  have h2' : (0 : ℝ) < cfg.number_r_grid := by exact_mod_cast h2
  have k := npRound_near (radius * cfg.number_r_grid / cfg.r_size)
  have p : 0 < cfg.r_size / cfg.number_r_grid := by positivity
  have e : radiusByRow cfg (rowByRadius cfg radius) - radius =
      (npRound (radius * cfg.number_r_grid / cfg.r_size) - radius * cfg.number_r_grid / cfg.r_size) * (cfg.r_size / cfg.number_r_grid) := by
    unfold radiusByRow rowByRadius
    field_simp
  rw [e, abs_mul, abs_of_pos p, abs_sub_comm]
  exact mul_le_mul_of_nonneg_right k p.le

/-- a configuration for examples: windows of the temperature and of the density, of a grid with `nr` rows and the radius `size`, with the step `step` -/
noncomputable def compareCfg (hdf5 : Bool) (nr : ℤ) (size step : ℝ) : PyParams :=
  ⟨.bool hdf5, nr, 10, size, 1, [⟨"frame".toList, "density".toList, 5, 0, 0, 10, 10, "electrons".toList⟩, ⟨"frame".toList, "T".toList, 5, 1, 2, 10, 10, "electrons".toList⟩], [], [], 7, 1, 1, 1, 1,
    1, 1, [], 0, 1000, step⟩

theorem compareCfg_saves : SavesCell (compareCfg false 10 1 1) "electrons".toList 3 4 5 where
  plain := rfl
  step := by norm_num [compareCfg]
  positive := by norm_num
  nonzero := by simp [compareCfg]
  schedule := by simp [compareCfg]
  saved := ⟨⟨"frame".toList, "T".toList, 5, 1, 2, 10, 10, "electrons".toList⟩, by simp [compareCfg], rfl, rfl, Or.inr (Or.inr (Or.inr ⟨rfl, by norm_num⟩))⟩
  clear := by simp [compareCfg, PyProbe.Other]
  window := by simp [compareCfg, PyProbe.EndsAt]

theorem compareCfg_from (nr : ℤ) (size : ℝ) : frameByTime (compareCfg false nr size 1) 0 5 = 0 := by
  unfold frameByTime
  rw [show (0 : ℝ) / (compareCfg false nr size 1).step_interval / (5 : ℤ) = ((0 : ℤ) : ℝ) by norm_num, npRound_int]

theorem compareCfg_to (nr : ℤ) (size : ℝ) : frameByTime (compareCfg false nr size 1) 100 5 = 20 := by
  unfold frameByTime
  rw [show (100 : ℝ) / (compareCfg false nr size 1).step_interval / (5 : ℤ) = ((20 : ℤ) : ℝ) by norm_num [compareCfg], npRound_int]

theorem compareCfg_row (size : ℝ) (n : ℤ) (h : size ≠ 0) : rowByRadius (compareCfg false 10 size 1) (n * size / 10) = n := by
  unfold rowByRadius
  rw [show (n * size / 10 : ℝ) * (compareCfg false 10 size 1).number_r_grid / (compareCfg false 10 size 1).r_size = (n : ℝ) by
    simp only [compareCfg]
    push_cast
    field_simp, npRound_int]

theorem compareCfg_col (size step : ℝ) (n : ℤ) : colByLongitude (compareCfg false 10 size step) (n / 10) = n := by
  unfold colByLongitude
  rw [show (n / 10 : ℝ) * (compareCfg false 10 size step).number_z_grid / (compareCfg false 10 size step).z_size = (n : ℝ) by
    simp only [compareCfg]
    push_cast
    field_simp, npRound_int]

theorem maps_reads (x : PyParams) (T : ℤ → ℤ → ℤ → ℝ) (every : ℤ) (cfg : PyParams) (specie : List Char) (row col lo hi : ℤ)
    (h : 0 ≤ row ∧ row < x.number_r_grid ∧ 0 ≤ col ∧ col < x.number_z_grid) :
    Compared.Reads ⟨x, T, every, mapsReader (fun _ => T) x.number_r_grid x.number_z_grid⟩ cfg specie row col lo hi :=
  ⟨⟨fun _ _ _ => rfl, fun _ _ _ => rfl, fun _ _ _ => rfl⟩, fun _ _ _ => rfl, h⟩

end Compare

open TimeSeries Compare PlainSeries

/-- **C122, simulations alike**: if the simulations have the time step and the interval of dumps of the first one, and the place is in the same cell of their grids, then each curve shows the
temperature of its simulation in this cell, however the cell is saved.

The full statement is for simulations with other steps, intervals and grids too (violated, `C122_interval_violated`, `C122_place_violated`), for HDF5 (violated, `C122_hdf5_violated`) and for
four simulations (violated, `C122_four_violated`). -/
theorem C122_alike_partial (first : Compared) (rest : List Compared) (t : ℝ × ℝ) (specie : List Char) (radius longitude : ℝ) (size : first.cfg.r_size ≠ 0 ∧ first.cfg.z_size ≠ 0)
    (saves : SavesCell first.cfg specie (rowByRadius first.cfg radius) (colByLongitude first.cfg longitude) first.every)
    (order : frameByTime first.cfg t.1 first.every < frameByTime first.cfg t.2 first.every)
    (reads : ∀ x ∈ first :: rest, x.Reads first.cfg specie (rowByRadius first.cfg radius) (colByLongitude first.cfg longitude)
      (frameByTime first.cfg t.1 first.every) (frameByTime first.cfg t.2 first.every))
    (alike : ∀ x ∈ rest, x.cfg.step_interval = first.cfg.step_interval ∧ x.every = first.every ∧ rowByRadius x.cfg radius = rowByRadius first.cfg radius ∧
      colByLongitude x.cfg longitude = colByLongitude first.cfg longitude) :
    ∃ curves, compareTwo ((first :: rest).map Compared.rd) first.cfg t specie radius longitude true = some curves ∧ curves.length = (first :: rest).length ∧
      ∀ (i : ℕ) (x : Compared) (curve : List (ℝ × ℝ)), (first :: rest)[i]? = some x → curves[i]? = some curve →
        ShowsSeries x.cfg t x.every (fun n => x.temp n (rowByRadius x.cfg radius) (colByLongitude x.cfg longitude)) curve := by
  obtain ⟨curves, c1, c2, c3⟩ := curves_shown saves reads order (by simp)
  refine ⟨curves, ?_, c2, ?_⟩
  · unfold compareTwo
    rw [if_neg (by tauto), c1]
  · intro i x curve hx hc
    have k := c3 i x curve hx hc
    rcases List.mem_cons.1 (List.mem_of_getElem? hx) with rfl | hm
    · exact k
    · obtain ⟨e1, e2, e3, e4⟩ := alike x hm
      rw [e2, e3, e4]
      exact shows_same e1 k

/-- Two simulations with windows that begin at `(1, 2)` -/
example (T T' : ℤ → ℤ → ℤ → ℝ) : ∃ curves, compareTwo [mapsReader (fun _ => T) 10 10, mapsReader (fun _ => T') 10 10] (compareCfg false 10 1 1) (0, 100) "electrons".toList (3 / 10) (4 / 10) true =
    some curves ∧ curves.length = 2 ∧ (∀ curve, curves[0]? = some curve → ShowsSeries (compareCfg false 10 1 1) (0, 100) 5 (fun n => T n 3 4) curve) ∧
      ∀ curve, curves[1]? = some curve → ShowsSeries (compareCfg false 10 1 1) (0, 100) 5 (fun n => T' n 3 4) curve := by
  have r3 : rowByRadius (compareCfg false 10 1 1) (3 / 10) = 3 := by simpa using compareCfg_row 1 3 one_ne_zero
  have c4 : colByLongitude (compareCfg false 10 1 1) (4 / 10) = 4 := by simpa using compareCfg_col 1 1 4
  obtain ⟨curves, h1, h2, h3⟩ := C122_alike_partial ⟨compareCfg false 10 1 1, T, 5, mapsReader (fun _ => T) 10 10⟩ [⟨compareCfg false 10 1 1, T', 5, mapsReader (fun _ => T') 10 10⟩] (0, 100)
    "electrons".toList (3 / 10) (4 / 10) (by norm_num [compareCfg]) (by dsimp only; rw [r3, c4]; exact compareCfg_saves)
    (by dsimp only; rw [compareCfg_from, compareCfg_to]; norm_num)
    (by
      intro x hx
      dsimp only
      rw [r3, c4]
      simp only [List.mem_cons, List.not_mem_nil, or_false] at hx
      rcases hx with rfl | rfl <;> exact maps_reads _ _ _ _ _ _ _ _ _ (by norm_num [compareCfg])) (by simp)
  refine ⟨curves, h1, h2, fun curve hc => ?_, fun curve hc => ?_⟩
  · simpa only [r3, c4] using h3 0 _ curve rfl hc
  · simpa only [r3, c4] using h3 1 _ curve rfl hc

/-- **C122 is violated by other intervals**: if the dumps of a simulation are `q` times as far apart as those of the first one, the value that its curve shows at the time `τ` was dumped at about
`q τ`. -/
theorem C122_interval_violated (first : Compared) (rest : List Compared) (t : ℝ × ℝ) (specie : List Char) (radius longitude : ℝ) (size : first.cfg.r_size ≠ 0 ∧ first.cfg.z_size ≠ 0)
    (saves : SavesCell first.cfg specie (rowByRadius first.cfg radius) (colByLongitude first.cfg longitude) first.every)
    (order : frameByTime first.cfg t.1 first.every < frameByTime first.cfg t.2 first.every)
    (reads : ∀ x ∈ first :: rest, x.Reads first.cfg specie (rowByRadius first.cfg radius) (colByLongitude first.cfg longitude)
      (frameByTime first.cfg t.1 first.every) (frameByTime first.cfg t.2 first.every)) :
    ∃ curves, compareTwo ((first :: rest).map Compared.rd) first.cfg t specie radius longitude true = some curves ∧ curves.length = (first :: rest).length ∧
      ∀ (i : ℕ) (x : Compared) (curve : List (ℝ × ℝ)) (q : ℝ), (first :: rest)[i]? = some x → curves[i]? = some curve → 0 < q →
        x.cfg.step_interval * x.every = q * (first.cfg.step_interval * first.every) →
        ∀ (k : ℕ) (τ v : ℝ), curve[k]? = some (τ, v) → ∃ n : ℤ, v = x.temp n (rowByRadius first.cfg radius) (colByLongitude first.cfg longitude) ∧
          |q * τ - timeByFrame x.cfg n x.every| ≤ 3 / 2 * (x.cfg.step_interval * x.every) := by
  obtain ⟨curves, c1, c2, c3⟩ := curves_shown saves reads order (by simp)
  refine ⟨curves, ?_, c2, ?_⟩
  · unfold compareTwo
    rw [if_neg (by tauto), c1]
  · intro i x curve q hx hc hq e k τ v hk
    obtain ⟨k1, k2⟩ := (c3 i x curve hx hc).2 k τ v hk
    refine ⟨_, k1, ?_⟩
    have e' : timeByFrame x.cfg (frameByTime first.cfg t.1 first.every + k) x.every = q * timeByFrame first.cfg (frameByTime first.cfg t.1 first.every + k) first.every := by
      unfold timeByFrame
      rw [mul_assoc, e]
      ring
    rw [e', e, ← mul_sub, abs_mul, abs_of_pos hq]
    calc q * _ ≤ q * (3 / 2 * (first.cfg.step_interval * first.every)) := mul_le_mul_of_nonneg_left k2 hq.le
      _ = _ := by ring

/-- The second simulation has twice the time step: what is shown at `τ` is from `2 τ`. -/
example (T T' : ℤ → ℤ → ℤ → ℝ) : ∃ curves, compareTwo [mapsReader (fun _ => T) 10 10, mapsReader (fun _ => T') 10 10] (compareCfg false 10 1 1) (0, 100) "electrons".toList (3 / 10) (4 / 10) true =
    some curves ∧ ∃ curve, curves[1]? = some curve ∧ curve.length = 20 ∧ ∀ (k : ℕ) (τ v : ℝ), curve[k]? = some (τ, v) → ∃ n : ℤ, v = T' n 3 4 ∧
      |2 * τ - timeByFrame (compareCfg false 10 1 2) n 5| ≤ 15 := by
  have r3 : rowByRadius (compareCfg false 10 1 1) (3 / 10) = 3 := by simpa using compareCfg_row 1 3 one_ne_zero
  have c4 : colByLongitude (compareCfg false 10 1 1) (4 / 10) = 4 := by simpa using compareCfg_col 1 1 4
  have rr : ∀ x ∈ [(⟨compareCfg false 10 1 1, T, 5, mapsReader (fun _ => T) 10 10⟩ : Compared), ⟨compareCfg false 10 1 2, T', 5, mapsReader (fun _ => T') 10 10⟩],
      x.Reads (compareCfg false 10 1 1) "electrons".toList 3 4 (frameByTime (compareCfg false 10 1 1) 0 5) (frameByTime (compareCfg false 10 1 1) 100 5) := by
    intro x hx
    simp only [List.mem_cons, List.not_mem_nil, or_false] at hx
    rcases hx with rfl | rfl <;> exact maps_reads _ _ _ _ _ _ _ _ _ (by norm_num [compareCfg])
  have or : frameByTime (compareCfg false 10 1 1) 0 5 < frameByTime (compareCfg false 10 1 1) 100 5 := by rw [compareCfg_from, compareCfg_to]; norm_num
  obtain ⟨curves, h1, h2, h3⟩ := C122_interval_violated ⟨compareCfg false 10 1 1, T, 5, mapsReader (fun _ => T) 10 10⟩ [⟨compareCfg false 10 1 2, T', 5, mapsReader (fun _ => T') 10 10⟩] (0, 100)
    "electrons".toList (3 / 10) (4 / 10) (by norm_num [compareCfg]) (by dsimp only; rw [r3, c4]; exact compareCfg_saves) or (by dsimp only; rw [r3, c4]; exact rr)
  obtain ⟨curves', g1, -, g3⟩ := curves_shown (t := (0, 100)) compareCfg_saves rr or (by simp)
  have same : curves = curves' := by
    have e : compareTwo [mapsReader (fun _ => T) 10 10, mapsReader (fun _ => T') 10 10] (compareCfg false 10 1 1) (0, 100) "electrons".toList (3 / 10) (4 / 10) true = some curves' := by
      unfold compareTwo
      rw [if_neg (by norm_num [compareCfg]), r3, c4]
      exact g1
    exact Option.some.inj (h1.symm.trans e)
  subst same
  have l : curves[1]? = some (curves[1]'(by rw [h2]; simp)) := List.getElem?_eq_getElem _
  have len := (g3 1 _ _ rfl l).1
  rw [compareCfg_from, compareCfg_to] at len
  refine ⟨curves, h1, _, l, by omega, fun k τ v hk => ?_⟩
  have := h3 1 _ _ 2 rfl l (by norm_num) (by norm_num [compareCfg]) k τ v hk
  simp only [r3, c4] at this
  obtain ⟨n, n1, n2⟩ := this
  refine ⟨n, n1, n2.trans ?_⟩
  norm_num [compareCfg]

/-- **C122 is violated by other grids**: if the chamber of a simulation is `q` times as wide as that of the first one, with as many rows, its curve shows the temperature at `q` times the radius
asked for, within half of a cell. -/
theorem C122_place_violated (first : Compared) (rest : List Compared) (t : ℝ × ℝ) (specie : List Char) (radius longitude : ℝ) (size : 0 < first.cfg.r_size ∧ first.cfg.z_size ≠ 0)
    (rows : 0 < first.cfg.number_r_grid)
    (saves : SavesCell first.cfg specie (rowByRadius first.cfg radius) (colByLongitude first.cfg longitude) first.every)
    (order : frameByTime first.cfg t.1 first.every < frameByTime first.cfg t.2 first.every)
    (reads : ∀ x ∈ first :: rest, x.Reads first.cfg specie (rowByRadius first.cfg radius) (colByLongitude first.cfg longitude)
      (frameByTime first.cfg t.1 first.every) (frameByTime first.cfg t.2 first.every)) :
    ∃ curves, compareTwo ((first :: rest).map Compared.rd) first.cfg t specie radius longitude true = some curves ∧ curves.length = (first :: rest).length ∧
      ∀ (i : ℕ) (x : Compared) (curve : List (ℝ × ℝ)) (q : ℝ), (first :: rest)[i]? = some x → curves[i]? = some curve → 0 < q → x.cfg.r_size = q * first.cfg.r_size →
        x.cfg.number_r_grid = first.cfg.number_r_grid →
        ∃ row : ℤ, |radiusByRow x.cfg row - q * radius| ≤ 1 / 2 * (x.cfg.r_size / x.cfg.number_r_grid) ∧
          ShowsSeries first.cfg t first.every (fun n => x.temp n row (colByLongitude first.cfg longitude)) curve := by
  obtain ⟨curves, c1, c2, c3⟩ := curves_shown saves reads order (by simp)
  refine ⟨curves, ?_, c2, ?_⟩
  · unfold compareTwo
    rw [if_neg (by rintro (e | e); exacts [size.1.ne' e, size.2 e]), c1]
  · intro i x curve q hx hc hq e1 e2
    refine ⟨_, ?_, c3 i x curve hx hc⟩
    have k := row_near size.1 rows radius
    have e : radiusByRow x.cfg (rowByRadius first.cfg radius) = q * radiusByRow first.cfg (rowByRadius first.cfg radius) := by
      unfold radiusByRow
      rw [e1, e2]
      ring
    rw [e, e1, e2, ← mul_sub, abs_mul, abs_of_pos hq]
    calc q * _ ≤ q * (1 / 2 * (first.cfg.r_size / first.cfg.number_r_grid)) := mul_le_mul_of_nonneg_left k hq.le
      _ = _ := by ring

/-- The second chamber is twice as wide: asked for the radius 0.3, its curve is that of the row 3, at the radius 0.6. -/
example (T T' : ℤ → ℤ → ℤ → ℝ) : ∃ curves, compareTwo [mapsReader (fun _ => T) 10 10, mapsReader (fun _ => T') 10 10] (compareCfg false 10 1 1) (0, 100) "electrons".toList (3 / 10) (4 / 10) true =
    some curves ∧ ∃ curve, curves[1]? = some curve ∧ ∃ row, |radiusByRow (compareCfg false 10 2 1) row - 6 / 10| ≤ 1 / 10 ∧
      ShowsSeries (compareCfg false 10 1 1) (0, 100) 5 (fun n => T' n row 4) curve := by
  have r3 : rowByRadius (compareCfg false 10 1 1) (3 / 10) = 3 := by simpa using compareCfg_row 1 3 one_ne_zero
  have c4 : colByLongitude (compareCfg false 10 1 1) (4 / 10) = 4 := by simpa using compareCfg_col 1 1 4
  obtain ⟨curves, h1, h2, h3⟩ := C122_place_violated ⟨compareCfg false 10 1 1, T, 5, mapsReader (fun _ => T) 10 10⟩ [⟨compareCfg false 10 2 1, T', 5, mapsReader (fun _ => T') 10 10⟩] (0, 100)
    "electrons".toList (3 / 10) (4 / 10) (by norm_num [compareCfg]) (by norm_num [compareCfg]) (by dsimp only; rw [r3, c4]; exact compareCfg_saves)
    (by dsimp only; rw [compareCfg_from, compareCfg_to]; norm_num)
    (by
      intro x hx
      dsimp only
      rw [r3, c4]
      simp only [List.mem_cons, List.not_mem_nil, or_false] at hx
      rcases hx with rfl | rfl <;> exact maps_reads _ _ _ _ _ _ _ _ _ (by norm_num [compareCfg]))
  have l : curves[1]? = some (curves[1]'(by rw [h2]; simp)) := List.getElem?_eq_getElem _
  obtain ⟨row, k1, k2⟩ := h3 1 _ _ 2 rfl l (by norm_num) (by norm_num [compareCfg]) rfl
  refine ⟨curves, h1, _, l, row, ?_, by simpa only [c4] using k2⟩
  dsimp only at k1
  rw [show (2 : ℝ) * (3 / 10) = 6 / 10 by norm_num] at k1
  refine k1.trans ?_
  norm_num [compareCfg]

/-- **C122 is violated for four simulations**: whatever place is asked for, the curves are those of the cell `(100, 100)`. -/
theorem C122_four_violated (first : Compared) (rest : List Compared) (t : ℝ × ℝ) (specie : List Char) (radius longitude : ℝ) (saves : SavesCell first.cfg specie 100 100 first.every)
    (order : frameByTime first.cfg t.1 first.every < frameByTime first.cfg t.2 first.every)
    (reads : ∀ x ∈ first :: rest, x.Reads first.cfg specie 100 100 (frameByTime first.cfg t.1 first.every) (frameByTime first.cfg t.2 first.every)) :
    ∃ curves, compareFour ((first :: rest).map Compared.rd) first.cfg t specie radius longitude true = some curves ∧ curves.length = (first :: rest).length ∧
      ∀ (i : ℕ) (x : Compared) (curve : List (ℝ × ℝ)), (first :: rest)[i]? = some x → curves[i]? = some curve →
        ShowsSeries first.cfg t first.every (fun n => x.temp n 100 100) curve :=
  curves_shown saves reads order (by simp)

/-- Four simulations with a window of 150 rows and columns, asked for two different places -/
example (T : ℕ → ℤ → ℤ → ℤ → ℝ) (radius longitude : ℝ) (cfg : PyParams)
    (hcfg : cfg = { seriesCfg 7 [⟨"frame".toList, "T".toList, 5, 0, 0, 150, 150, "electrons".toList⟩] with number_r_grid := 200, number_z_grid := 200 }) :
    ∃ curves, compareFour ((List.range 4).map fun j => mapsReader (fun _ => T j) 200 200) cfg (0, 100) "electrons".toList radius longitude true = some curves ∧ curves.length = 4 ∧
      ∀ (j : ℕ) (curve : List (ℝ × ℝ)), j < 4 → curves[j]? = some curve → ShowsSeries cfg (0, 100) 5 (fun n => T j n 100 100) curve := by
  have sv : SavesCell cfg "electrons".toList 100 100 5 := by
    subst hcfg
    exact ⟨rfl, by norm_num [seriesCfg], by norm_num, by simp [seriesCfg], by simp [seriesCfg], ⟨_, List.mem_cons_self, rfl, rfl, Or.inr (Or.inr (Or.inr ⟨rfl, by norm_num⟩))⟩, by simp [seriesCfg, PyProbe.Other],
      by simp [seriesCfg, PyProbe.EndsAt]⟩
  have f0 : frameByTime cfg 0 5 = 0 := by
    subst hcfg
    exact seriesCfg_from 7 []
  have f1 : frameByTime cfg 100 5 = 20 := by
    subst hcfg
    exact seriesCfg_to 7 []
  have g : 100 < cfg.number_r_grid ∧ 100 < cfg.number_z_grid := by
    subst hcfg
    norm_num
  have e200 : cfg.number_r_grid = 200 ∧ cfg.number_z_grid = 200 := by
    subst hcfg
    exact ⟨rfl, rfl⟩
  obtain ⟨curves, h1, h2, h3⟩ := C122_four_violated ⟨cfg, T 0, 5, mapsReader (fun _ => T 0) 200 200⟩
    ([1, 2, 3].map fun j => ⟨cfg, T j, 5, mapsReader (fun _ => T j) 200 200⟩) (0, 100) "electrons".toList radius longitude sv (by dsimp only; omega) (by
      intro x hx
      have : ∃ j, x = ⟨cfg, T j, 5, mapsReader (fun _ => T j) 200 200⟩ := by
        rcases List.mem_cons.1 hx with rfl | hx
        · exact ⟨0, rfl⟩
        · obtain ⟨j, -, rfl⟩ := List.mem_map.1 hx
          exact ⟨j, rfl⟩
      obtain ⟨j, rfl⟩ := this
      have := maps_reads cfg (T j) 5 cfg "electrons".toList 100 100 (frameByTime cfg 0 5) (frameByTime cfg 100 5) (by omega)
      rwa [e200.1, e200.2] at this)
  refine ⟨curves, h1, h2, fun j curve hj hc => ?_⟩
  refine h3 j ⟨cfg, T j, 5, mapsReader (fun _ => T j) 200 200⟩ curve ?_ hc
  match j, hj with
  | 0, _ => rfl
  | 1, _ => rfl
  | 2, _ => rfl
  | 3, _ => rfl

/-- **C122 is violated by other quantities**: if a column or a row of another quantity of the specie through the cell comes first among the probes, all curves are empty, although the
temperature may be saved. -/
theorem C122_hidden_violated (rds : List SeriesReader) (cfg : PyParams) (t : ℝ × ℝ) (specie : List Char) (radius longitude : ℝ) (size : cfg.r_size ≠ 0 ∧ cfg.z_size ≠ 0)
    (p : PyProbe) (ps : List PyProbe) (probes : cfg.probes = p :: ps) (step : 0 < cfg.step_interval) (schedule : 0 < p.schedule)
    (other : p.Other specie (rowByRadius cfg radius) (colByLongitude cfg longitude)) (dots : ∀ q ∈ p :: ps, q.type ≠ "dot".toList) :
    compareTwo rds cfg t specie radius longitude true = some (rds.map fun _ => []) := by
  have nodots : ∀ (l : List PyProbe) (st : List (List ℝ)), (∀ q ∈ l, q.type ≠ "dot".toList) →
      compareDots rds cfg t specie (rowByRadius cfg radius) (colByLongitude cfg longitude) l st = some st := by
    intro l
    induction l with
    | nil => exact fun _ _ => rfl
    | cons q l ih =>
      intro st h
      rw [compareDots, if_neg (fun e => h q (by simp) e.1)]
      exact ih st fun q hq => h q (by simp [hq])
  have fr : seriesFrames cfg t p = some (frameByTime cfg t.1 p.schedule, frameByTime cfg t.2 p.schedule) := by
    unfold seriesFrames
    rw [if_neg]
    rintro (h1 | h1)
    · exact step.ne' h1
    · exact schedule.ne' h1
  obtain ⟨o1, o2, o3⟩ := other
  have data : compareData rds cfg t specie (rowByRadius cfg radius) (colByLongitude cfg longitude) true = some (rds.map fun _ => []) := by
    unfold compareData
    rw [probes, nodots _ _ dots, Option.bind_some, if_pos ⟨by cases rds <;> rfl, rfl⟩, compareAreas]
    by_cases hc : p.type = "col".toList ∧ p.specie = specie ∧ p.z_start = colByLongitude cfg longitude
    · rw [if_pos hc, fr, Option.bind_some, if_neg o1]
    · rw [if_neg hc, if_pos (by tauto), fr, Option.bind_some, if_neg o1]
  unfold compareTwo compareCurves
  rw [if_neg (by tauto), data, Option.bind_some, List.mapM_map]
  have h0 : ((rds.map fun _ => ([] : List ℝ)).headD []) = [] := by cases rds <;> rfl
  rw [h0]
  refine TimeSeries.mapM_some _ _ _ fun x _ => ?_
  simp [compareCurve, linspace]

/-- A row of the density through the cell, before a window of the temperature -/
example (a b : SeriesReader) : compareTwo [a, b] (seriesCfg 7 [⟨"row".toList, "density".toList, 5, 3, -1, -1, -1, "electrons".toList⟩,
    ⟨"frame".toList, "T".toList, 5, 0, 0, 10, 10, "electrons".toList⟩]) (0, 100) "electrons".toList (3 / 10) (4 / 10) true = some [[], []] := by
  refine C122_hidden_violated _ _ _ _ _ _ (by norm_num [seriesCfg]) _ _ rfl (by norm_num [seriesCfg]) (by norm_num) ⟨by decide, rfl, Or.inr ⟨rfl, ?_⟩⟩ (by simp)
  simpa [rowByRadius, compareCfg, seriesCfg] using (compareCfg_row 1 3 one_ne_zero).symm

/-- **C122 is violated by HDF5**: if the first of several simulations uses HDF5 and the temperature is saved in the point, there are no curves. -/
theorem C122_hdf5_violated (rds : List SeriesReader) (cfg : PyParams) (t : ℝ × ℝ) (specie : List Char) (radius longitude : ℝ) (autoselect : Bool) (several : 1 < rds.length)
    (hdf5 : cfg.use_hdf5 = .bool true)
    (saved : ∃ p ∈ cfg.probes, p.component = "T".toList ∧ p.specie = specie ∧ p.type = "dot".toList ∧ p.r_start = rowByRadius cfg radius ∧ p.z_start = colByLongitude cfg longitude) :
    compareTwo rds cfg t specie radius longitude autoselect = none := by
  have key : ∀ (ps : List PyProbe) (st : List (List ℝ)),
      (∃ p ∈ ps, p.component = "T".toList ∧ p.specie = specie ∧ p.type = "dot".toList ∧ p.r_start = rowByRadius cfg radius ∧ p.z_start = colByLongitude cfg longitude) →
      compareDots rds cfg t specie (rowByRadius cfg radius) (colByLongitude cfg longitude) ps st = none := by
    intro ps
    induction ps with
    | nil => simp
    | cons q ps ih =>
      rintro st ⟨p, p1, p2, p3, p4, p5⟩
      rw [compareDots]
      rcases List.mem_cons.1 p1 with rfl | p1
      · rw [if_pos ⟨p4, p3, p5⟩]
        have : ∀ read, compareRead cfg rds read = none := by
          intro read
          unfold compareRead
          rw [if_pos ⟨by rw [hdf5]; rfl, several⟩]
        simp only [if_pos p2, this, Option.bind_none, Option.bind_fun_none]
      · have := fun st => ih st ⟨p, p1, p2, p3, p4, p5⟩
        simp only [this, Option.bind_fun_none, ite_self]
  unfold compareTwo compareCurves compareData
  rw [key _ _ saved, Option.bind_none, Option.bind_none, ite_self]

/-- A probe of the point `(3, 4)` -/
example (a b : SeriesReader) : compareTwo [a, b] { seriesCfg 7 [⟨"dot".toList, "T".toList, 5, 3, 4, 0, 0, "electrons".toList⟩] with use_hdf5 := .bool true } (0, 100) "electrons".toList
    (3 / 10) (4 / 10) true = none := by
  refine C122_hdf5_violated _ _ _ _ _ _ _ (by simp) rfl ⟨_, List.mem_cons_self, rfl, rfl, rfl, ?_, ?_⟩
  · simpa [rowByRadius, compareCfg, seriesCfg] using (compareCfg_row 1 3 one_ne_zero).symm
  · simpa [colByLongitude, compareCfg, seriesCfg] using (compareCfg_col 1 1 4).symm

/-- **C122, the reader of the plain files**: it gives the frames of the windows from `lo` to `hi`, if `hi` begins a file, the range has as many frames as a file, and the frame `hi` is saved. -/
theorem C122_plain_frames (ds : PlainDirs) (D : List Char → ℤ → ℤ → ℤ → ℝ) (P : PyProbe → Prop) (nm : PyProbe → List Char) (fpf nr nz N : ℕ) (lo hi : ℕ) (g1 : ℕ → ℝ) (g2 : ℕ → List ℝ)
    (g3 : ℕ → List (List ℝ)) (files : 0 < fpf) (saved : SavedBy ds D P nm fpf nr nz N) (aligned : fpf ∣ hi) (enough : lo + fpf ≤ hi) (last : hi < N) :
    FaithfulWindows (plainSeries ds fpf nr nz g1 g2 g3) D P nm lo hi := by
  intro p hp ty
  have hs := saved.frame p hp ty
  obtain ⟨s0, s1⟩ := shape (fun n i k => D (nm p) n i k) p.r_start p.z_start p.r_end p.z_end
  unfold plainSeries
  dsimp only
  rw [if_neg (by omega), Int.toNat_natCast, Int.toNat_natCast,
    C34_frame_range_partial _ fpf files (fun n : ℕ => (intRange p.r_start p.r_end).map fun i => (intRange p.z_start p.z_end).map fun k => D (nm p) n i k) g3 _ lo hi
      (by omega) ?_ (Or.inl ⟨Nat.mod_eq_zero_of_dvd aligned, by omega, ?_⟩)]
  · rw [nat_range fun n => (intRange p.r_start p.r_end).map fun i => (intRange p.z_start p.z_end).map fun k => D (nm p) n i k]
  · rw [hs]
    unfold drange
    rw [files_count _ files]
    exact lt_of_lt_of_le last (files_total files)
  · refine frames_datasets files hs s0 s1 ?_
    rw [Nat.sub_add_cancel (Nat.div_pos (by omega) files), Nat.div_mul_cancel aligned]
    omega

/-- Files of seven frames with the frames 0 to 27, and the frames from 3 to 21 -/
example (D : List Char → ℤ → ℤ → ℤ → ℝ) (g1 : ℕ → ℝ) (g2 : ℕ → List ℝ) (g3 : ℕ → List (List ℝ)) :
    FaithfulWindows (plainSeries (allDirs D 7 10 10 28) 7 10 10 g1 g2 g3) D (fun p => p.type = "frame".toList) PyProbe.tempDir 3 21 :=
  C122_plain_frames _ D _ _ 7 10 10 28 3 21 g1 g2 g3 (by norm_num)
    ⟨fun p h1 h2 => absurd (h1.symm.trans h2) (by decide), fun _ _ _ => rfl, fun _ _ _ => rfl, fun _ _ _ => rfl⟩ (by norm_num) (by norm_num) (by norm_num)

end Verif
