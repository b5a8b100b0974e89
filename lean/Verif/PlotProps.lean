import Verif.Plot
import Verif.PyIndexProps

/-!
# The axes of the maps (C100)

The claim: at every place of a map the axes read the coordinates of the node of the grid whose value is drawn there.
-/

namespace Verif

/-! ## Rounding to three digits -/

theorem fmt3_near {x : ℝ} (hx : 0 < x) : |fmt3 x - x| ≤ (10 : ℝ) ^ (Int.log 10 x - 2) / 2 := by
  obtain ⟨u, hu⟩ : ∃ u, u = (10 : ℝ) ^ (Int.log 10 x - 2) := ⟨_, rfl⟩
  have hu0 : 0 < u := by rw [hu]; positivity
  unfold fmt3
  rw [if_neg hx.ne', abs_of_pos hx, ← hu]
  have h := abs_sub_round (x / u)
  have e : (round (x / u) : ℝ) * u - x = -((x / u - round (x / u)) * u) := by
    field_simp
    ring
  rw [e, abs_neg, abs_mul, abs_of_pos hu0]
  nlinarith

theorem log_ten_le {x : ℝ} (hx : 0 < x) : (10 : ℝ) ^ Int.log 10 x ≤ x := by
  have := Int.zpow_log_le_self (b := 10) (by norm_num) hx
  exact_mod_cast this

theorem lt_log_ten {x : ℝ} : x < (10 : ℝ) ^ (Int.log 10 x + 1) := by
  have := Int.lt_zpow_succ_log_self (b := 10) (by norm_num) x
  exact_mod_cast this

/-- Three digits are within half a percent. -/
theorem fmt3_rel {x : ℝ} (hx : 0 ≤ x) : |fmt3 x - x| ≤ x / 200 := by
  rcases hx.eq_or_lt with h | h
  · rw [← h]
    simp [fmt3]
  · refine (fmt3_near h).trans ?_
    have h1 := log_ten_le h
    rw [zpow_sub₀ (by norm_num)]
    norm_num
    linarith

/-- Numbers up to a power of ten times ten that are farther apart than a hundredth of the power have different labels. -/
theorem fmt3_lt {x y : ℝ} {e : ℤ} (hx : 0 ≤ x) (hy : y < (10 : ℝ) ^ (e + 1)) (h : x + (10 : ℝ) ^ (e - 2) < y) :
    fmt3 x < fmt3 y := by
  have p : (0 : ℝ) < (10 : ℝ) ^ (e - 2) := by positivity
  have near : ∀ {v : ℝ}, 0 ≤ v → v < (10 : ℝ) ^ (e + 1) → |fmt3 v - v| ≤ (10 : ℝ) ^ (e - 2) / 2 := by
    intro v hv hlt
    rcases hv.eq_or_lt with h0 | h0
    · rw [← h0]
      simp only [fmt3, if_true, sub_self, abs_zero]
      linarith
    · refine (fmt3_near h0).trans ?_
      have h1 := (log_ten_le h0).trans_lt hlt
      have h2 : Int.log 10 v < e + 1 := (zpow_lt_zpow_iff_right₀ (by norm_num)).1 h1
      have h3 : (10 : ℝ) ^ (Int.log 10 v - 2) ≤ (10 : ℝ) ^ (e - 2) := zpow_le_zpow_right₀ (by norm_num) (by omega)
      linarith
  have h1 := abs_le.1 (near hx (by linarith))
  have h2 := abs_le.1 (near (by linarith) hy)
  linarith [h1.1, h1.2, h2.1, h2.2]

/-! ## One axis -/

theorem linspace_zero (b : ℝ) (n : ℕ) : linspace 0 b ((n : ℤ) + 1) = some ((List.range (n + 1)).map fun i : ℕ => (i : ℝ) * (b / n)) := by
  unfold linspace
  rw [if_neg (by omega)]
  split_ifs with h
  · have : n = 0 := by omega
    subst this
    simp
  · congr 1
    rw [show ((n : ℤ) + 1).toNat = n + 1 by omega]
    apply List.map_congr_left
    intro i _
    push_cast
    ring_nf

/-- Ticks and labels of an axis -/
theorem subplotAxis_eq {size : ℤ} (hs : 0 < size) (n : ℕ) (E : ℝ) : subplotAxis size n 0 E =
    some (some ((List.range (n + 1)).map fun i : ℕ => ((i : ℝ) * (size / n), if i % 2 ≠ 0 then none else some (fmt3 (i * (E / n)))))) := by
  unfold subplotAxis
  rw [linspace_zero, linspace_zero]
  simp only [Option.bind_eq_bind, Option.bind_some, if_pos hs]
  congr 2
  apply List.ext_getElem
  · simp
  · intro i h1 h2
    simp

/-- The ticks of an axis of a map with `n` columns that are `d` apart, as read: the places, and what is written at them if
anything -/
structure AxisReads (l : List (ℝ × Option ℝ)) (n : ℕ) (d : ℝ) : Prop where
  /-- the ticks are in order, evenly spaced between the ends of the map -/
  places : ∃ s, 0 < s ∧ ∀ i (h : i < l.length), l[i].1 = i * s ∧ l[i].1 ≤ n
  /-- every second one has a label -/
  labelled : ∀ i (h : i < l.length), l[i].2.isSome ↔ Even i
  /-- the origin is labelled zero -/
  origin : (0, some 0) ∈ l
  /-- a label is the coordinate of its place up to a cell and half a percent -/
  near : ∀ p v, (p, some v) ∈ l → |v - p * d| ≤ p * d / 200 + d
  /-- labels increase from left to right -/
  increase : ∀ p v p' v', (p, some v) ∈ l → (p', some v') ∈ l → p < p' → v < v'

theorem axis_reads {n m : ℕ} {d E : ℝ} {e : ℤ} (hn : 2 ≤ n) (hd : 0 < d) (hE : E = d * ((n : ℝ) - 1)) (he : E < (10 : ℝ) ^ (e + 1))
    (hm : m ≠ 0 → (10 : ℝ) ^ (e - 2) < E / m) :
    AxisReads ((List.range (m + 1)).map fun i : ℕ => ((i : ℝ) * (((n : ℤ) : ℝ) / m), if i % 2 ≠ 0 then none else some (fmt3 (i * (E / m)))))
      n d := by
  have hn' : (2 : ℝ) ≤ n := by exact_mod_cast hn
  have hE0 : 0 < E := by rw [hE]; exact mul_pos hd (by linarith)
  have mem : ∀ {p v : ℝ}, (p, some v) ∈ ((List.range (m + 1)).map fun i : ℕ => ((i : ℝ) * (((n : ℤ) : ℝ) / m),
      if i % 2 ≠ 0 then none else some (fmt3 (i * (E / m))))) →
      ∃ i : ℕ, i ≤ m ∧ p = (i : ℝ) * ((n : ℝ) / m) ∧ v = fmt3 (i * (E / m)) := by
    intro p v h
    obtain ⟨i, h1, h2⟩ := List.mem_map.1 h
    have h3 := (Prod.mk.injEq ..).mp h2
    refine ⟨i, by have := List.mem_range.1 h1; omega, by rw [← h3.1]; push_cast; ring, ?_⟩
    have h4 := h3.2
    split_ifs at h4
    exact (Option.some.inj h4).symm
  have frac : ∀ i : ℕ, i ≤ m → (i : ℝ) / m ≤ 1 := by
    intro i hi
    exact div_le_one_of_le₀ (by exact_mod_cast hi) (by positivity)
  refine ⟨?_, ?_, ?_, ?_, ?_⟩
  · rcases Nat.eq_zero_or_pos m with rfl | hm0
    · refine ⟨1, one_pos, fun i h => ?_⟩
      simp only [List.length_map, List.length_range, zero_add, Nat.lt_one_iff] at h
      subst h
      simp
    have hm' : (0 : ℝ) < m := by exact_mod_cast hm0
    refine ⟨(n : ℝ) / m, by positivity, ?_⟩
    intro i h
    simp only [List.length_map, List.length_range] at h
    simp only [List.getElem_map, List.getElem_range, Int.cast_natCast]
    refine ⟨trivial, ?_⟩
    have := frac i (by omega)
    calc (i : ℝ) * (n / m) = n * (i / m) := by ring
      _ ≤ n * 1 := by gcongr
      _ = n := mul_one _
  · intro i h
    simp only [List.getElem_map, List.getElem_range]
    by_cases h2 : i % 2 = 0
    · simp [h2, Nat.even_iff]
    · simp [h2, Nat.even_iff]
  · refine List.mem_map.2 ⟨0, by simp, ?_⟩
    simp [fmt3]
  · intro p v h
    obtain ⟨i, hi, rfl, rfl⟩ := mem h
    have hf := frac i hi
    have hf0 : (0 : ℝ) ≤ (i : ℝ) / m := by positivity
    have h1 := fmt3_rel (x := (i : ℝ) * (E / m)) (by positivity)
    obtain ⟨f, hfe⟩ : ∃ f, f = (i : ℝ) / m := ⟨_, rfl⟩
    have e1 : (i : ℝ) * (E / m) = f * (d * (n - 1)) := by rw [hE, hfe]; ring
    have e2 : (i : ℝ) * ((n : ℝ) / m) * d = f * (d * n) := by rw [hfe]; ring
    rw [e1] at h1 ⊢
    rw [e2]
    rw [← hfe] at hf hf0
    have hfd : 0 ≤ f * d := by positivity
    have hfd1 : f * d ≤ d := by nlinarith
    have a := abs_le.1 h1
    rw [abs_le]
    constructor
    · nlinarith [a.1]
    · nlinarith [a.2]
  · intro p v p' v' h h' hlt
    obtain ⟨i, hi, rfl, rfl⟩ := mem h
    obtain ⟨j, hj, rfl, rfl⟩ := mem h'
    have hm0 : m ≠ 0 := by
      rintro rfl
      simp at hlt
    have hm' : (0 : ℝ) < m := by exact_mod_cast Nat.pos_of_ne_zero hm0
    have hij : (i : ℝ) < j := by
      by_contra hc
      have : (j : ℝ) * ((n : ℝ) / m) ≤ (i : ℝ) * ((n : ℝ) / m) := by
        have := not_lt.1 hc
        gcongr
      linarith
    have hij' : (i : ℝ) + 1 ≤ j := by exact_mod_cast hij
    have hs := hm hm0
    have hs0 : 0 < E / m := by positivity
    apply fmt3_lt (e := e) (by positivity)
    · refine lt_of_le_of_lt ?_ he
      have := frac j hj
      calc (j : ℝ) * (E / m) = E * (j / m) := by ring
        _ ≤ E * 1 := by gcongr
        _ = E := mul_one _
    · nlinarith

/-! ## The number of ticks -/

/-- The size of a tick of a map whose longer side is `M` -/
theorem tick_size {M t : ℝ} (hM : 0 < M) (ht : t = (⌊M / (10 : ℝ) ^ Int.log 10 M⌋ : ℝ) / (40 : ℤ) * (10 : ℝ) ^ Int.log 10 M) :
    40 * t ≤ M ∧ M < 80 * t ∧ (10 : ℝ) ^ Int.log 10 M ≤ 40 * t := by
  obtain ⟨u, hu⟩ : ∃ u, u = (10 : ℝ) ^ Int.log 10 M := ⟨_, rfl⟩
  have hu0 : 0 < u := by rw [hu]; positivity
  have h1 : u ≤ M := by rw [hu]; exact log_ten_le hM
  rw [← hu] at ht ⊢
  have h2 : (1 : ℤ) ≤ ⌊M / u⌋ := Int.le_floor.2 (by rw [Int.cast_one, le_div_iff₀ hu0]; linarith)
  have h3 : (1 : ℝ) ≤ (⌊M / u⌋ : ℝ) := by exact_mod_cast h2
  have h4 := Int.floor_le (M / u)
  have h5 := Int.lt_floor_add_one (M / u)
  rw [le_div_iff₀ hu0] at h4
  rw [div_lt_iff₀ hu0] at h5
  have h6 : 40 * t = (⌊M / u⌋ : ℝ) * u := by rw [ht]; push_cast; ring
  refine ⟨by linarith, ?_, by nlinarith⟩
  have : 80 * t = 2 * ((⌊M / u⌋ : ℝ) * u) := by linarith
  nlinarith

/-- The ticks of a side of length `S` -/
theorem tick_number {M t S : ℝ} (hM : 0 < M) (ht : t = (⌊M / (10 : ℝ) ^ Int.log 10 M⌋ : ℝ) / (40 : ℤ) * (10 : ℝ) ^ Int.log 10 M)
    (hS : 0 < S) : ∃ m : ℕ, npRound (S / t) = m ∧ (m ≠ 0 → (10 : ℝ) ^ (Int.log 10 M - 2) < S / m) ∧ (M ≤ 40 * S → m ≠ 0) ∧
      (S = M → 40 ≤ m ∧ m ≤ 80) := by
  obtain ⟨h1, h2, h3⟩ := tick_size hM ht
  have hu : (0 : ℝ) < (10 : ℝ) ^ Int.log 10 M := by positivity
  have ht0 : 0 < t := by linarith
  have hn := abs_le.1 (npRound_near (S / t))
  have hq : 0 < S / t := by positivity
  have h0 : 0 ≤ npRound (S / t) := by
    have : (-1 : ℝ) < npRound (S / t) := by linarith [hn.1, hn.2]
    have : (-1 : ℤ) < npRound (S / t) := by exact_mod_cast this
    omega
  obtain ⟨m, hm⟩ := Int.eq_ofNat_of_zero_le h0
  rw [hm] at hn
  have hn1 : (m : ℝ) ≤ S / t + 1 / 2 := by have := hn.1; push_cast at this; linarith
  have hn2 : S / t - 1 / 2 ≤ (m : ℝ) := by have := hn.2; push_cast at this; linarith
  refine ⟨m, hm, ?_, ?_, ?_⟩
  · intro hm0
    have hm1 : (1 : ℝ) ≤ m := by exact_mod_cast Nat.one_le_iff_ne_zero.2 hm0
    have h4 : (m : ℝ) / 2 ≤ S / t := by linarith
    rw [le_div_iff₀ ht0] at h4
    have h5 : t / 2 ≤ S / m := by
      rw [le_div_iff₀ (by linarith)]
      linarith
    rw [zpow_sub₀ (by norm_num)]
    norm_num
    linarith
  · rintro h rfl
    have h4 : 1 ≤ S / t := by rw [le_div_iff₀ ht0]; linarith
    norm_num at hn2
    linarith
  · intro h
    rw [h] at hn1 hn2
    have h4 : 40 ≤ M / t := by rw [le_div_iff₀ ht0]; linarith
    have h5 : M / t < 80 := by rw [div_lt_iff₀ ht0]; linarith
    have h6 : (39 : ℝ) < m := by linarith
    have h7 : (m : ℝ) < 81 := by linarith
    have h8 : 39 < m := by exact_mod_cast h6
    have h9 : m < 81 := by exact_mod_cast h7
    omega

/-- The axes of the maps, for every chamber and grid -/
theorem movieAxes_eq {q : PyParams} {G : Geom} (hG : G.Valid) (hq : OfGrid q G) : ∃ (t : ℝ) (mx my : ℕ),
    t = (⌊max G.z_size G.r_size / (10 : ℝ) ^ Int.log 10 (max G.z_size G.r_size)⌋ : ℝ) / (40 : ℤ) *
      (10 : ℝ) ^ Int.log 10 (max G.z_size G.r_size) ∧
    npRound (G.z_size / t) = mx ∧ npRound (G.r_size / t) = my ∧
    movieAxes q = some (
      some ((List.range (mx + 1)).map fun i : ℕ => ((i : ℝ) * (((G.nz : ℤ) : ℝ) / mx), if i % 2 ≠ 0 then none else some (fmt3 (i * (G.z_size / mx))))),
      some ((List.range (my + 1)).map fun i : ℕ => ((i : ℝ) * (((G.nr : ℤ) : ℝ) / my), if i % 2 ≠ 0 then none else some (fmt3 (i * (G.r_size / my)))))) := by
  obtain ⟨e1, e2, e3, e4⟩ := hq
  have hnr : (2 : ℝ) ≤ G.nr := by exact_mod_cast hG.nr_ge
  have hnz : (2 : ℝ) ≤ G.nz := by exact_mod_cast hG.nz_ge
  have hr : 0 < G.r_size := by rw [hG.r_size_eq]; exact mul_pos hG.dr_pos (by linarith)
  have hz : 0 < G.z_size := by rw [hG.z_size_eq]; exact mul_pos hG.dz_pos (by linarith)
  have hM : 0 < max G.z_size G.r_size := lt_max_of_lt_left hz
  obtain ⟨t, ht⟩ : ∃ t, t = (⌊max G.z_size G.r_size / (10 : ℝ) ^ Int.log 10 (max G.z_size G.r_size)⌋ : ℝ) / (40 : ℤ) *
      (10 : ℝ) ^ Int.log 10 (max G.z_size G.r_size) := ⟨_, rfl⟩
  obtain ⟨mx, hx, -, -, -⟩ := tick_number hM ht hz
  obtain ⟨my, hy, -, -, -⟩ := tick_number hM ht hr
  refine ⟨t, mx, my, ht, hx, hy, ?_⟩
  have g : guessTickSize (G.z_size - 0) (G.r_size - 0) (0 - 0) 40 = some t := by
    unfold guessTickSize
    rw [sub_zero, sub_zero, sub_zero, max_eq_left hM.le, if_neg (by push Not; exact ⟨hM, by norm_num⟩), ht]
  have hnr' : (0 : ℤ) < G.nr := by have := hG.nr_ge; omega
  have hnz' : (0 : ℤ) < G.nz := by have := hG.nz_ge; omega
  unfold movieAxes plotBuilder
  rw [e1, e2, e3, e4]
  simp only [pyOrNum, if_neg hr.ne', if_neg hz.ne']
  rw [if_pos ⟨hnz', hnr'⟩, g]
  simp only [Option.map_some, Option.bind_eq_bind, Option.bind_some, sub_zero, hx, hy]
  rw [subplotAxis_eq hnz', subplotAxis_eq hnr']
  rfl

/-- **C100** The axes of every map, for every chamber and grid: the ticks are evenly spaced, the labels increase, and each is the coordinate of
its place up to a cell and half a percent.  The longer side has 41 to 81 ticks, and a side of at least a fortieth of it has one at
its end, after the last column. -/
theorem C100_axes_partial (q : PyParams) (G : Geom) (hG : G.Valid) (hq : OfGrid q G) : ∃ x y, movieAxes q = some (some x, some y) ∧
    AxisReads x G.nz G.dz ∧ AxisReads y G.nr G.dr ∧
    (G.r_size ≤ G.z_size → 41 ≤ x.length ∧ x.length ≤ 81) ∧ (G.z_size ≤ G.r_size → 41 ≤ y.length ∧ y.length ≤ 81) ∧
    (G.r_size ≤ 40 * G.z_size → ∃ v, ((G.nz : ℝ), v) ∈ x) ∧ (G.z_size ≤ 40 * G.r_size → ∃ v, ((G.nr : ℝ), v) ∈ y) := by
  obtain ⟨t, mx, my, ht, hx, hy, he⟩ := movieAxes_eq hG hq
  have hnr : (2 : ℝ) ≤ G.nr := by exact_mod_cast hG.nr_ge
  have hnz : (2 : ℝ) ≤ G.nz := by exact_mod_cast hG.nz_ge
  have hr : 0 < G.r_size := by rw [hG.r_size_eq]; exact mul_pos hG.dr_pos (by linarith)
  have hz : 0 < G.z_size := by rw [hG.z_size_eq]; exact mul_pos hG.dz_pos (by linarith)
  have hM : 0 < max G.z_size G.r_size := lt_max_of_lt_left hz
  have hlt := lt_log_ten (x := max G.z_size G.r_size)
  obtain ⟨m1, a1, a2, a3, a4⟩ := tick_number hM ht hz
  obtain ⟨m2, b1, b2, b3, b4⟩ := tick_number hM ht hr
  obtain rfl : mx = m1 := by have := hx.symm.trans a1; exact_mod_cast this
  obtain rfl : my = m2 := by have := hy.symm.trans b1; exact_mod_cast this
  have last : ∀ (m n : ℕ) (E : ℝ), m ≠ 0 → ∃ v, ((n : ℝ), v) ∈ (List.range (m + 1)).map fun i : ℕ => ((i : ℝ) * (((n : ℤ) : ℝ) / m),
      if i % 2 ≠ 0 then none else some (fmt3 (i * (E / m)))) := by
    intro m n E hm
    refine ⟨if m % 2 ≠ 0 then none else some (fmt3 (m * (E / m))), List.mem_map.2 ⟨m, by simp, ?_⟩⟩
    have : (m : ℝ) ≠ 0 := by exact_mod_cast hm
    rw [Prod.mk.injEq]
    exact ⟨by push_cast; field_simp, rfl⟩
  refine ⟨_, _, he, axis_reads hG.nz_ge hG.dz_pos hG.z_size_eq ((le_max_left _ _).trans_lt hlt) a2,
    axis_reads hG.nr_ge hG.dr_pos hG.r_size_eq ((le_max_right _ _).trans_lt hlt) b2, ?_, ?_, ?_, ?_⟩
  · intro h
    have := a4 (max_eq_left h).symm
    simp only [List.length_map, List.length_range]
    omega
  · intro h
    have := b4 (max_eq_right h).symm
    simp only [List.length_map, List.length_range]
    omega
  · intro h
    exact last _ _ _ (a3 (max_le (by linarith) h))
  · intro h
    exact last _ _ _ (b3 (max_le h (by linarith)))

/-! ## Where the axes are wrong -/

theorem log_ten_eq {x : ℝ} {k : ℤ} (h1 : (10 : ℝ) ^ k ≤ x) (h2 : x < (10 : ℝ) ^ (k + 1)) : Int.log 10 x = k := by
  have hx : 0 < x := lt_of_lt_of_le (by positivity) h1
  have h3 : (10 : ℝ) ^ k < (10 : ℝ) ^ (Int.log 10 x + 1) := h1.trans_lt lt_log_ten
  have h4 : (10 : ℝ) ^ Int.log 10 x < (10 : ℝ) ^ (k + 1) := (log_ten_le hx).trans_lt h2
  have h5 := (zpow_lt_zpow_iff_right₀ (by norm_num)).1 h3
  have h6 := (zpow_lt_zpow_iff_right₀ (by norm_num)).1 h4
  omega

/-- Configuration of a chamber for the tools -/
noncomputable def plotParams (r z : ℝ) (nr nz : ℕ) : PyParams :=
  ⟨.bool false, nr, nz, r, z, [], [], [], 1, 0, 0, 0, 0, 0, 0, [], 0, 0, 0⟩

/-- Its grid -/
noncomputable def plotGeom (r z : ℝ) (nr nz : ℕ) : Geom := ⟨r, z, nr, nz, r / ((nr : ℝ) - 1), z / ((nz : ℝ) - 1)⟩

theorem plotGeom_ok {r z : ℝ} {nr nz : ℕ} (hr : 0 < r) (hz : 0 < z) (hnr : 2 ≤ nr) (hnz : 2 ≤ nz) :
    (plotGeom r z nr nz).Valid ∧ OfGrid (plotParams r z nr nz) (plotGeom r z nr nz) := by
  have h1 : (2 : ℝ) ≤ nr := by exact_mod_cast hnr
  have h2 : (2 : ℝ) ≤ nz := by exact_mod_cast hnz
  have h3 : (0 : ℝ) < (nr : ℝ) - 1 := by linarith
  have h4 : (0 : ℝ) < (nz : ℝ) - 1 := by linarith
  refine ⟨⟨hnr, hnz, div_pos hr h3, div_pos hz h4, ?_, ?_⟩, rfl, rfl, rfl, rfl⟩
  · simp only [plotGeom]
    field_simp
  · simp only [plotGeom]
    field_simp

/-- Not vacuous: the shipped chamber, 0.25 by 2 with 255 by 2047 nodes -/
example : ∃ x y, movieAxes (plotParams (1 / 4) 2 255 2047) = some (some x, some y) ∧ AxisReads x 2047 (2 / 2046) ∧
    AxisReads y 255 ((1 / 4) / 254) := by
  obtain ⟨h1, h2⟩ := plotGeom_ok (r := 1 / 4) (z := 2) (nr := 255) (nz := 2047) (by norm_num) (by norm_num) (by norm_num) (by norm_num)
  obtain ⟨x, y, e, hx, hy, -⟩ := C100_axes_partial _ _ h1 h2
  have e1 : (plotGeom (1 / 4) 2 255 2047).dz = 2 / 2046 := by norm_num [plotGeom]
  have e2 : (plotGeom (1 / 4) 2 255 2047).dr = (1 / 4) / 254 := by norm_num [plotGeom]
  rw [e1] at hx
  rw [e2] at hy
  exact ⟨x, y, e, hx, hy⟩

/-- The last tick of the horizontal axis of a chamber longer than wide whose length has one digit before the point -/
theorem last_tick {q : PyParams} {G : Geom} (hG : G.Valid) (hq : OfGrid q G) (hrz : G.r_size ≤ G.z_size) (h1 : 1 ≤ G.z_size)
    (h2 : G.z_size < 10) {m : ℕ} (hm : |40 * G.z_size / ⌊G.z_size⌋ - m| < 1 / 2) (hm0 : m ≠ 0) (hmod : m % 2 = 0) :
    ∃ x y, movieAxes q = some (some x, some y) ∧ ((G.nz : ℝ), some (fmt3 G.z_size)) ∈ x := by
  obtain ⟨t, mx, my, ht, hx, hy, he⟩ := movieAxes_eq hG hq
  refine ⟨_, _, he, ?_⟩
  have hl : Int.log 10 G.z_size = 0 := log_ten_eq (by simpa using h1) (by simpa using h2)
  rw [max_eq_left hrz, hl, zpow_zero, div_one, mul_one] at ht
  have hmx : mx = m := by
    have : npRound (G.z_size / t) = (m : ℤ) := by
      apply npRound_eq
      have : G.z_size / t = 40 * G.z_size / ⌊G.z_size⌋ := by
        rw [ht]
        push_cast
        rw [div_div_eq_mul_div, mul_comm]
      rw [this]
      exact_mod_cast hm
    exact_mod_cast hx.symm.trans this
  subst hmx
  refine List.mem_map.2 ⟨mx, by simp, ?_⟩
  have h0 : (mx : ℝ) ≠ 0 := by exact_mod_cast hm0
  rw [Prod.mk.injEq, if_neg (by omega)]
  refine ⟨by push_cast; field_simp, ?_⟩
  congr 2
  field_simp

theorem fmt3_digit {x : ℝ} {m : ℤ} (h1 : 1 ≤ x) (h2 : x < 10) (hm : |100 * x - m| < 1 / 2) : fmt3 x = m / 100 := by
  have hl : Int.log 10 x = 0 := log_ten_eq (by simpa using h1) (by simpa using h2)
  unfold fmt3
  rw [if_neg (by linarith), abs_of_pos (by linarith), hl]
  have e : x / (10 : ℝ) ^ ((0 : ℤ) - 2) = 100 * x := by
    norm_num
    ring
  have hr : round (100 * x) = m := by
    rw [round_eq, Int.floor_eq_iff]
    have := abs_lt.1 hm
    exact ⟨by linarith [this.1], by linarith [this.2]⟩
  rw [e, hr]
  norm_num
  ring

/-- **C100** violated: on the maps of the shipped configuration the label 2, the length of the chamber, stands one column after the
one whose coordinate it is, and no place of the map reads 2. -/
theorem C100_end_violated : ∃ x y, movieAxes (plotParams (1 / 4) 2 255 2047) = some (some x, some y) ∧
    (plotGeom (1 / 4) 2 255 2047).dz * 2046 = 2 ∧ ((2047 : ℝ), some 2) ∈ x ∧ ∀ p, p ≤ 2046 → (p, some 2) ∉ x := by
  obtain ⟨h1, h2⟩ := plotGeom_ok (r := 1 / 4) (z := 2) (nr := 255) (nz := 2047) (by norm_num) (by norm_num) (by norm_num) (by norm_num)
  obtain ⟨x, y, e, hx⟩ := last_tick h1 h2 (by norm_num [plotGeom]) (by norm_num [plotGeom]) (by norm_num [plotGeom]) (m := 40)
    (by norm_num [plotGeom]) (by norm_num) (by norm_num)
  obtain ⟨x', y', e', hr, -⟩ := C100_axes_partial _ _ h1 h2
  have hxx : x = x' ∧ y = y' := by
    have := e.symm.trans e'
    simpa using this
  have hf : fmt3 (2 : ℝ) = 2 := by
    rw [fmt3_digit (m := 200) (by norm_num) (by norm_num) (by norm_num)]
    norm_num
  have hx2 : ((2047 : ℝ), some 2) ∈ x := by
    have := hx
    simp only [plotGeom, hf] at this
    exact_mod_cast this
  refine ⟨x, y, e, by norm_num [plotGeom], hx2, ?_⟩
  intro p hp hin
  rw [hxx.1] at hx2 hin
  have := hr.increase _ _ _ _ hin hx2 (by linarith)
  linarith

/-- **C100** violated: labels have three digits.  At the end of a chamber of length 1.004 with the shipped number of columns the axis reads 1,
nine cells too little. -/
theorem C100_digits_violated : ∃ x y, movieAxes (plotParams (1 / 4) (1004 / 1000) 255 2047) = some (some x, some y) ∧
    ((2047 : ℝ), some 1) ∈ x ∧ 1 + 9 * (plotGeom (1 / 4) (1004 / 1000) 255 2047).dz < 2047 * (plotGeom (1 / 4) (1004 / 1000) 255 2047).dz := by
  obtain ⟨h1, h2⟩ := plotGeom_ok (r := 1 / 4) (z := 1004 / 1000) (nr := 255) (nz := 2047) (by norm_num) (by norm_num) (by norm_num) (by norm_num)
  obtain ⟨x, y, e, hx⟩ := last_tick h1 h2 (by norm_num [plotGeom]) (by norm_num [plotGeom]) (by norm_num [plotGeom]) (m := 40)
    (by
      have : ⌊(1004 / 1000 : ℝ)⌋ = 1 := by rw [Int.floor_eq_iff]; norm_num
      simp only [plotGeom, this]
      norm_num [abs_lt]) (by norm_num) (by norm_num)
  have hf : fmt3 (1004 / 1000 : ℝ) = 1 := by
    rw [fmt3_digit (m := 100) (by norm_num) (by norm_num) (by norm_num [abs_lt])]
    norm_num
  refine ⟨x, y, e, ?_, by norm_num [plotGeom]⟩
  have := hx
  simp only [plotGeom, hf] at this
  exact_mod_cast this

/-- **C100** violated: the radial axis of a chamber at least 160 times longer than wide has no scale: the only label is zero. -/
theorem C100_thin_violated (q : PyParams) (G : Geom) (hG : G.Valid) (hq : OfGrid q G) (h : 160 * G.r_size ≤ G.z_size) :
    ∃ x, movieAxes q = some (some x, some [(0, some 0)]) := by
  obtain ⟨t, mx, my, ht, hx, hy, he⟩ := movieAxes_eq hG hq
  have hnr : (2 : ℝ) ≤ G.nr := by exact_mod_cast hG.nr_ge
  have hr : 0 < G.r_size := by rw [hG.r_size_eq]; exact mul_pos hG.dr_pos (by linarith)
  have hM : max G.z_size G.r_size = G.z_size := max_eq_left (by linarith)
  rw [hM] at ht
  obtain ⟨h1, h2, h3⟩ := tick_size (by linarith) ht
  have ht0 : 0 < t := by linarith
  have hmy : my = 0 := by
    have : npRound (G.r_size / t) = 0 := by
      apply npRound_eq
      have h4 : 0 < G.r_size / t := by positivity
      have h5 : G.r_size / t < 1 / 2 := by rw [div_lt_iff₀ ht0]; linarith
      rw [Int.cast_zero, sub_zero, abs_of_pos h4]
      exact h5
    rw [hy] at this
    exact_mod_cast this
  subst hmy
  exact ⟨_, by rw [he]; simp [fmt3]; rfl⟩

/-- Not vacuous: a chamber of 0.0125 by 2 -/
example : ∃ x, movieAxes (plotParams (1 / 80) 2 255 2047) = some (some x, some [(0, some 0)]) := by
  obtain ⟨h1, h2⟩ := plotGeom_ok (r := 1 / 80) (z := 2) (nr := 255) (nz := 2047) (by norm_num) (by norm_num) (by norm_num) (by norm_num)
  exact C100_thin_violated _ _ h1 h2 (by norm_num [plotGeom])

end Verif
