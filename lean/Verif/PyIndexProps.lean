import Verif.PyParamsDesc
import Verif.ReaderProps

/-!
# Indices of frames, rows and columns that the tools compute (C73)
-/

namespace Verif

/-! ## Rounding -/

theorem npRound_near (x : ℝ) : |x - npRound x| ≤ 1 / 2 := by
  have h1 := Int.floor_le x
  have h2 := Int.lt_floor_add_one x
  unfold npRound
  rw [abs_le]
  split_ifs with h3 h4 h5
  · exact ⟨by linarith, by linarith⟩
  · push_cast
    exact ⟨by linarith, by linarith⟩
  · exact ⟨by linarith, by linarith⟩
  · push_cast
    exact ⟨by linarith, by linarith⟩

theorem npRound_eq {x : ℝ} {m : ℤ} (h : |x - m| < 1 / 2) : npRound x = m := by
  have h1 := npRound_near x
  have h2 : |((npRound x - m : ℤ) : ℝ)| < 1 := by
    push_cast
    have : (npRound x : ℝ) - m = (x - m) - (x - npRound x) := by ring
    rw [this]
    calc _ ≤ |x - m| + |x - npRound x| := abs_sub _ _
      _ < 1 := by linarith
  rw [← Int.cast_abs] at h2
  have h3 : |npRound x - m| < 1 := by exact_mod_cast h2
  have := Int.abs_lt_one_iff.1 h3
  omega

theorem npRound_int (m : ℤ) : npRound (m : ℝ) = m := npRound_eq (by simp)

/-- No other whole number is nearer. -/
theorem npRound_best (x : ℝ) (m : ℤ) : |x - npRound x| ≤ |x - m| := by
  by_cases h : |x - m| < 1 / 2
  · rw [npRound_eq h]
  · exact (npRound_near x).trans (not_lt.1 h)

/-! ## Frames -/

/-- Record `n` of a run from time zero is made at step `n·schedule`. -/
theorem firing_zero (p : ProbeCfg) (hs : 0 < p.schedule) (dt : ℝ) (N n j : ℕ) (h : (firingSteps p 0 dt N)[n]? = some j) :
    (j : ℤ) = n * p.schedule := by
  obtain ⟨s, hs'⟩ := Int.eq_ofNat_of_zero_le hs.le
  have hs0 : 0 < s := by omega
  have e : firingSteps p 0 dt N = (List.range ((N + s - 1) / s)).map (· * s) := by
    rw [← filter_dvd_range s hs0]
    unfold firingSteps
    apply List.filter_congr
    intro j _
    have : p.schedule ∣ ⌊(0 : ℝ) / dt⌋ + j ↔ s ∣ j := by
      rw [zero_div, Int.floor_zero, zero_add, hs']
      exact Int.natCast_dvd_natCast
    simp only [this]
  rw [e, List.getElem?_map, Option.map_eq_some_iff] at h
  obtain ⟨a, h1, rfl⟩ := h
  obtain ⟨_, rfl⟩ := List.getElem?_eq_some_iff.1 h1
  rw [hs', List.getElem_range]
  push_cast
  rfl

/-- **C73 (partial)** In a run from time zero: the time the tools compute for a record is the time of the simulator when it
made the record, the record that the tools look up for that time is the same one, and the record they look up for any
time is not farther from it than any other.  With another start time it is not so: `C73_start_violated`. -/
theorem C73_frame_partial (c : Config) (q : PyParams) (file : List Char) (hq : SameSettings file c q) (hstart : c.time.start_time = 0)
    (hdt : 0 < c.time.delta_t) (p : ProbeCfg) (hs : 0 < p.schedule) (N n j : ℕ)
    (hj : (firingSteps p c.time.start_time c.time.delta_t N)[n]? = some j) :
    timeByFrame q n p.schedule = c.time.start_time + j * c.time.delta_t ∧
      frameByTime q (c.time.start_time + j * c.time.delta_t) p.schedule = n ∧
      ∀ t, |t - timeByFrame q (frameByTime q t p.schedule) p.schedule| ≤ |t - timeByFrame q n p.schedule| := by
  rw [hstart] at hj
  have h := firing_zero p hs _ N n j hj
  have hR : (j : ℝ) = n * p.schedule := by exact_mod_cast h
  have hsR : (0 : ℝ) < p.schedule := by exact_mod_cast hs
  refine ⟨?_, ?_, ?_⟩
  · rw [timeByFrame, hstart, hR, hq.step]
    push_cast
    ring
  · rw [frameByTime, hstart, hR, hq.step]
    have : (0 + (n : ℝ) * p.schedule * c.time.delta_t) / c.time.delta_t / p.schedule = ((n : ℤ) : ℝ) := by
      field_simp
      push_cast
      ring
    rw [this, npRound_int]
  · intro t
    have key : ∀ m : ℤ, |t - timeByFrame q m p.schedule| = |t / q.step_interval / p.schedule - m| * (p.schedule * c.time.delta_t) := by
      intro m
      rw [timeByFrame, hq.step]
      rw [← abs_of_pos (show (0 : ℝ) < p.schedule * c.time.delta_t by positivity), ← abs_mul]
      congr 1
      field_simp
    rw [key, key]
    exact mul_le_mul_of_nonneg_right (npRound_best _ n) (by positivity)

/-- Not vacuous: the shipped file, record 3 of a probe with schedule 5 -/
example : ∃ q c, SameSettings "parameters.xml".toList c q ∧ c.time.start_time = 0 ∧ 0 < c.time.delta_t ∧
    (firingSteps ⟨.dot, 0, 0, 0, 0, 5⟩ c.time.start_time c.time.delta_t 20)[3]? = some 15 := by
  obtain ⟨q, _, _, h3, _⟩ := C71_documented_partial "parameters.xml".toList (shipped false) (shipped_ok false) shippedPlot
    ['.'] "pdp3_result".toList rfl rfl
  have h4 : (shipped false).meaning.time.start_time = 0 := by
    norm_num [Desc.meaning, shipped, litI, litE, litF, Lit.value, fracValue]
  refine ⟨q, _, h3, h4, by norm_num [Desc.meaning, shipped, litI, litE, litF, Lit.value, fracValue], ?_⟩
  rw [h4]
  have : firingSteps ⟨.dot, 0, 0, 0, 0, 5⟩ 0 (shipped false).meaning.time.delta_t 20 = (List.range 20).filter fun j => (5 : ℕ) ∣ j := by
    unfold firingSteps
    apply List.filter_congr
    intro j _
    rw [zero_div, Int.floor_zero, zero_add]
    simp only [decide_eq_decide]
    exact Int.natCast_dvd_natCast (m := 5)
  rw [this]
  decide

/-- **C73 (violated)** In a run that starts at step ten, the first record is made at a time for which the tools look up
the record ten. -/
theorem C73_start_violated (q : PyParams) (hdt : 0 < q.step_interval) (p : ProbeCfg) (hs : p.schedule = 1) (N : ℕ) (hN : 0 < N) :
    (firingSteps p (10 * q.step_interval) q.step_interval N)[0]? = some 0 ∧
      frameByTime q (10 * q.step_interval) p.schedule = 10 := by
  constructor
  · obtain ⟨N, rfl⟩ := Nat.exists_eq_succ_of_ne_zero hN.ne'
    unfold firingSteps
    rw [hs, List.range_succ_eq_map, List.filter_cons_of_pos (by simp)]
    rfl
  · rw [frameByTime, hs]
    have : 10 * q.step_interval / q.step_interval / ((1 : ℤ) : ℝ) = ((10 : ℤ) : ℝ) := by
      field_simp
      push_cast
      ring
    rw [this, npRound_int]

/-! ## Rows and columns -/

/-- The tools have the sizes and the numbers of nodes of the grid. -/
def OfGrid (q : PyParams) (G : Geom) : Prop :=
  q.r_size = G.r_size ∧ q.z_size = G.z_size ∧ q.number_r_grid = G.nr ∧ q.number_z_grid = G.nz

/-- Not vacuous: a grid of five by five nodes -/
example : ∃ q G, G.Valid ∧ OfGrid q G ∧ rowByRadius q (1 * G.dr) = 1 ∧ rowByRadius q (3 * G.dr) = 4 := by
  obtain ⟨q, hq⟩ : ∃ q : PyParams, q = ⟨.bool false, 5, 5, 4, 4, [], [], [], 1, 0, 0, 0, 0, 0, 0, [], 0, 0, 0⟩ := ⟨_, rfl⟩
  refine ⟨q, ⟨4, 4, 5, 5, 1, 1⟩, ⟨by norm_num, by norm_num, by norm_num, by norm_num, by norm_num, by norm_num⟩, ?_, ?_, ?_⟩
  · rw [hq]
    exact ⟨rfl, rfl, rfl, rfl⟩
  · rw [hq]
    exact npRound_eq (by norm_num [abs_lt])
  · rw [hq]
    exact npRound_eq (by norm_num [abs_lt])

/-- **C73** The number of the row that the tools compute from the radius they compute from the number of a row is that
number; for columns it is the same. -/
theorem C73_inverse (q : PyParams) (hr : 0 < q.r_size) (hz : 0 < q.z_size) (hnr : 0 < q.number_r_grid) (hnz : 0 < q.number_z_grid) (i : ℤ) :
    rowByRadius q (radiusByRow q i) = i ∧ colByLongitude q (longitudeByCol q i) = i := by
  have h1 : (0 : ℝ) < q.number_r_grid := by exact_mod_cast hnr
  have h2 : (0 : ℝ) < q.number_z_grid := by exact_mod_cast hnz
  constructor
  · rw [rowByRadius, radiusByRow]
    have : (i : ℝ) * q.r_size / q.number_r_grid * q.number_r_grid / q.r_size = (i : ℝ) := by field_simp
    rw [this, npRound_int]
  · rw [colByLongitude, longitudeByCol]
    have : (i : ℝ) * q.z_size / q.number_z_grid * q.number_z_grid / q.z_size = (i : ℝ) := by field_simp
    rw [this, npRound_int]

theorem round_node {n : ℕ} (hn : 2 ≤ n) {R d : ℝ} (hd : 0 < d) (hR : R = d * ((n : ℝ) - 1)) (i : ℕ) :
    (i : ℝ) * d * ((n : ℤ) : ℝ) / R = i + i / ((n : ℝ) - 1) := by
  have h : (0 : ℝ) < (n : ℝ) - 1 := by
    have : (2 : ℝ) ≤ n := by exact_mod_cast hn
    linarith
  rw [hR]
  push_cast
  field_simp
  ring

theorem round_inner {n i : ℕ} (hi : 2 * i + 1 < n) : npRound ((i : ℝ) + i / ((n : ℝ) - 1)) = i := by
  have h1 : (2 : ℝ) * i + 1 < n := by exact_mod_cast hi
  have h0 : (0 : ℝ) ≤ i := by positivity
  have h : (0 : ℝ) < (n : ℝ) - 1 := by linarith
  apply npRound_eq
  push_cast
  rw [add_sub_cancel_left, abs_of_nonneg (by positivity), div_lt_iff₀ h]
  linarith

theorem round_outer {n i : ℕ} (hi : n < 2 * i + 1) (hin : i < n) : npRound ((i : ℝ) + i / ((n : ℝ) - 1)) = i + 1 := by
  have h1 : (n : ℝ) < 2 * i + 1 := by exact_mod_cast hi
  have h2 : (i : ℝ) + 1 ≤ n := by exact_mod_cast hin
  have h3 : 1 ≤ i := by omega
  have h4 : (1 : ℝ) ≤ i := by exact_mod_cast h3
  have h : (0 : ℝ) < (n : ℝ) - 1 := by linarith
  have h5 : (i : ℝ) / ((n : ℝ) - 1) ≤ 1 := by rw [div_le_one h]; linarith
  have h6 : 1 / 2 < (i : ℝ) / ((n : ℝ) - 1) := by rw [lt_div_iff₀ h]; linarith
  apply npRound_eq
  push_cast
  rw [abs_lt]
  constructor <;> linarith

/-- **C73 (partial)** In the inner half of the grid the tools find the row of a radius and the column of a coordinate.
In the outer half they do not: `C73_row_violated`. -/
theorem C73_row_partial (q : PyParams) (G : Geom) (hG : G.Valid) (hq : OfGrid q G) (i k : ℕ) (hi : 2 * i + 1 < G.nr) (hk : 2 * k + 1 < G.nz) :
    rowByRadius q (i * G.dr) = i ∧ colByLongitude q (k * G.dz) = k := by
  obtain ⟨h1, h2, h3, h4⟩ := hq
  constructor
  · rw [rowByRadius, h1, h3, round_node hG.nr_ge hG.dr_pos hG.r_size_eq, round_inner hi]
  · rw [colByLongitude, h2, h4, round_node hG.nz_ge hG.dz_pos hG.z_size_eq, round_inner hk]

/-- **C73 (violated)** In the outer half of the grid the tools take the next row and the next column. -/
theorem C73_row_violated (q : PyParams) (G : Geom) (hG : G.Valid) (hq : OfGrid q G) (i k : ℕ) (hi : G.nr < 2 * i + 1) (hk : G.nz < 2 * k + 1)
    (hin : i < G.nr) (hkn : k < G.nz) : rowByRadius q (i * G.dr) = i + 1 ∧ colByLongitude q (k * G.dz) = k + 1 := by
  obtain ⟨h1, h2, h3, h4⟩ := hq
  constructor
  · rw [rowByRadius, h1, h3, round_node hG.nr_ge hG.dr_pos hG.r_size_eq, round_outer hi hin]
  · rw [colByLongitude, h2, h4, round_node hG.nz_ge hG.dz_pos hG.z_size_eq, round_outer hk hkn]

/-- **C73 (violated)** The row of the outermost radius is outside of the array. -/
theorem C73_last_row_violated (q : PyParams) (G : Geom) (hG : G.Valid) (hq : OfGrid q G) :
    rowByRadius q G.r_size = G.nr ∧ colByLongitude q G.z_size = G.nz := by
  obtain ⟨h1, h2, h3, h4⟩ := hq
  have hr : 0 < G.r_size := by
    rw [hG.r_size_eq]
    have : (2 : ℝ) ≤ G.nr := by exact_mod_cast hG.nr_ge
    exact mul_pos hG.dr_pos (by linarith)
  have hz : 0 < G.z_size := by
    rw [hG.z_size_eq]
    have : (2 : ℝ) ≤ G.nz := by exact_mod_cast hG.nz_ge
    exact mul_pos hG.dz_pos (by linarith)
  constructor
  · rw [rowByRadius, h1, h3, mul_div_cancel_left₀ _ hr.ne', npRound_int]
  · rw [colByLongitude, h2, h4, mul_div_cancel_left₀ _ hz.ne', npRound_int]

/-- **C73 (partial)** The radius that the tools give for a row is less than one cell smaller than the radius of the row. -/
theorem C73_radius_partial (q : PyParams) (G : Geom) (hG : G.Valid) (hq : OfGrid q G) (i : ℕ) (hi : i < G.nr) :
    radiusByRow q i ≤ i * G.dr ∧ i * G.dr < radiusByRow q i + G.dr := by
  obtain ⟨h1, h2, h3, h4⟩ := hq
  have hn : (2 : ℝ) ≤ G.nr := by exact_mod_cast hG.nr_ge
  have hd := hG.dr_pos
  have hi' : (i : ℝ) < G.nr := by exact_mod_cast hi
  have e : radiusByRow q i = i * G.dr - i * G.dr / G.nr := by
    rw [radiusByRow, h1, h3, hG.r_size_eq]
    push_cast
    field_simp
  have h5 : (i : ℝ) * G.dr / G.nr < G.dr := by
    rw [div_lt_iff₀ (by linarith), mul_comm]
    exact mul_lt_mul_of_pos_left hi' hd
  have h6 : 0 ≤ (i : ℝ) * G.dr / G.nr := by positivity
  rw [e]
  constructor <;> linarith

end Verif
