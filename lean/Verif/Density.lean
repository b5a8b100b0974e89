import Verif.Halton
import Verif.PlasmaProps

/-!
# The density of the plasma at the start (C97)
-/

namespace Verif

open Finset

/-! ## Specification -/

/-- charge of the macroparticles of a list nearer to the axis than `r` and before `z` -/
noncomputable def chargeWithin (ps : List Particle) (r z : ℝ) : ℝ :=
  (ps.map fun p => if p.pos.c0 < r ∧ p.pos.c2 < z then p.charge else 0).sum

/-- number of physical particles that the settings of a species put nearer to the axis than `r` and before `z`: the
integral of the linear density over the part of this cylinder at least half a cell away from axis and near wall -/
noncomputable def configuredNumber (G : Geom) (n1 n2 r z : ℝ) : ℝ :=
  PI * (r ^ 2 - (G.dr / 2) ^ 2) * ∫ x in (G.dz / 2)..z, linearDensity (G.dz / 2) (G.z_size - G.dz / 2) n1 n2 x

/-- volume of the chamber by the volume in which macroparticles are placed -/
noncomputable def packing (G : Geom) : ℝ :=
  G.r_size / (G.r_size - G.dr) * (G.z_size / (G.z_size - G.dz))

/-! ## Integrals of steps -/

/-- the step from 0 to 1 at `α` -/
noncomputable def stepAt (α x : ℝ) : ℝ := if α ≤ x then 1 else 0

theorem stepAt_mono (α : ℝ) : Monotone (stepAt α) := by
  intro x y h
  unfold stepAt
  split_ifs with h1 h2
  · exact le_rfl
  · exact absurd (h1.trans h) h2
  · exact zero_le_one
  · exact le_rfl

theorem integral_stepAt {α : ℝ} (h0 : 0 ≤ α) (h1 : α ≤ 1) : ∫ x in (0:ℝ)..1, stepAt α x = 1 - α := by
  have i1 : IntervalIntegrable (stepAt α) MeasureTheory.volume 0 α := (stepAt_mono α).intervalIntegrable
  have i2 : IntervalIntegrable (stepAt α) MeasureTheory.volume α 1 := (stepAt_mono α).intervalIntegrable
  rw [← intervalIntegral.integral_add_adjacent_intervals i1 i2]
  have e1 : ∫ x in (0:ℝ)..α, stepAt α x = ∫ x in (0:ℝ)..α, (0:ℝ) := by
    apply intervalIntegral.integral_congr_Ioo_of_le h0
    intro x hx
    exact if_neg (not_le.2 hx.2)
  have e2 : ∫ x in α..1, stepAt α x = ∫ x in α..1, (1:ℝ) := by
    apply intervalIntegral.integral_congr_Ioo_of_le h1
    intro x hx
    exact if_pos hx.1.le
  rw [e1, e2]; simp

/-- a linear function cut at `α` -/
theorem integral_cut {α c d : ℝ} (h0 : 0 ≤ α) (h1 : α ≤ 1) (hc : 0 ≤ c) :
    ∫ x in (0:ℝ)..1, (c * min x α + d) = c * (α ^ 2 / 2 + α * (1 - α)) + d := by
  have m : Monotone fun x : ℝ => c * min x α + d := by
    intro x y h
    have : min x α ≤ min y α := min_le_min_right _ h
    dsimp only
    nlinarith
  have i1 : IntervalIntegrable (fun x : ℝ => c * min x α + d) MeasureTheory.volume 0 α := m.intervalIntegrable
  have i2 : IntervalIntegrable (fun x : ℝ => c * min x α + d) MeasureTheory.volume α 1 := m.intervalIntegrable
  rw [← intervalIntegral.integral_add_adjacent_intervals i1 i2]
  have e1 : ∫ x in (0:ℝ)..α, (c * min x α + d) = ∫ x in (0:ℝ)..α, (c * x + d) := by
    apply intervalIntegral.integral_congr_Ioo_of_le h0
    intro x hx
    dsimp only
    rw [min_eq_left hx.2.le]
  have e2 : ∫ x in α..1, (c * min x α + d) = ∫ x in α..1, (c * α + d) := by
    apply intervalIntegral.integral_congr_Ioo_of_le h1
    intro x hx
    dsimp only
    rw [min_eq_right hx.1.le]
  rw [e1, e2]
  rw [intervalIntegral.integral_add (by apply Continuous.intervalIntegrable; fun_prop) (by simp),
    intervalIntegral.integral_const_mul]
  simp
  ring

/-! ## Sums over the draws -/

/-- bound of the error of a mean over the pairs, for cells with `a` and `b` digits -/
noncomputable def meanError (N a b : ℕ) : ℝ :=
  1 / (13 : ℝ) ^ a + 1 / (11 : ℝ) ^ b + (13 : ℝ) ^ a * (11 : ℝ) ^ b / N

theorem box_mean {N : ℕ} (hN : 1 ≤ N) {u v : ℕ → ℝ} (hu : ∀ n, n < N → RandomReverse n 13 (u n))
    (hv : ∀ n, n < N → RandomReverse ((N - 1 - n : ℕ) : ℝ) 11 (v n)) {α β c d : ℝ} (a0 : 0 ≤ α) (a1 : α ≤ 1)
    (b0 : 0 ≤ β) (b1 : β ≤ 1) (hc : 0 ≤ c) (hd : 0 ≤ d) (hcd : c + d ≤ 1) (a b : ℕ) :
    |∑ n ∈ range N, (if u n < α ∧ v n < β then c * u n + d else 0) - N * ((c * α ^ 2 / 2 + d * α) * β)| ≤
      4 * (N * meanError N a b) := by
  have N0 : (0 : ℝ) < N := by exact_mod_cast hN
  have eE : N * meanError N a b = N * (1 / ((13:ℕ) : ℝ) ^ a + 1 / ((11:ℕ) : ℝ) ^ b) + ((13:ℕ) : ℝ) ^ a * ((11:ℕ) : ℝ) ^ b := by
    unfold meanError; push_cast; field_simp
  have H := fun (g h : ℝ → ℝ) (hg : Monotone g) (hg0 : 0 ≤ g 0) (hg1 : g 1 ≤ 1) (hh : Monotone h) (hh0 : 0 ≤ h 0)
    (hh1 : h 1 ≤ 1) => halton_monotone (p := 13) (q := 11) (by norm_num) (by norm_num) (by norm_num) hu hv hg hg0 hg1 hh
      hh0 hh1 a b
  simp only [← eE] at H
  obtain ⟨k, hk⟩ : ∃ k, k = c * α + d := ⟨_, rfl⟩
  have k0 : 0 ≤ k := by rw [hk]; positivity
  have k1 : k ≤ 1 := by rw [hk]; nlinarith
  have m1 : Monotone fun x : ℝ => c * min x α + d := by
    intro x y h
    have : min x α ≤ min y α := min_le_min_right _ h
    dsimp only
    nlinarith
  have m2 : Monotone fun x : ℝ => k * stepAt α x := fun x y h => mul_le_mul_of_nonneg_left (stepAt_mono α h) k0
  have m3 : Monotone fun _ : ℝ => (1:ℝ) := fun _ _ _ => le_rfl
  have s0 : ∀ α x, 0 ≤ stepAt α x := fun α x => by unfold stepAt; split_ifs <;> norm_num
  have s1 : ∀ α x, stepAt α x ≤ 1 := fun α x => by unfold stepAt; split_ifs <;> norm_num
  have p1 : 0 ≤ c * min 0 α + d := by rw [min_eq_left a0]; linarith
  have p2 : c * min 1 α + d ≤ 1 := by rw [min_eq_right a1]; nlinarith
  have q1 : 0 ≤ k * stepAt α 0 := mul_nonneg k0 (s0 _ _)
  have q2 : k * stepAt α 1 ≤ 1 := mul_le_one₀ k1 (s0 _ _) (s1 _ _)
  have h11 := H _ _ m1 p1 p2 m3 zero_le_one le_rfl
  have h12 := H _ _ m1 p1 p2 (stepAt_mono β) (s0 _ _) (s1 _ _)
  have h21 := H _ _ m2 q1 q2 m3 zero_le_one le_rfl
  have h22 := H _ _ m2 q1 q2 (stepAt_mono β) (s0 _ _) (s1 _ _)
  have i2 : ∫ x in (0:ℝ)..1, k * stepAt α x = k * (1 - α) := by
    rw [intervalIntegral.integral_const_mul, integral_stepAt a0 a1]
  have i3 : ∫ _x in (0:ℝ)..1, (1:ℝ) = 1 := by simp
  rw [integral_cut a0 a1 hc, i3] at h11
  rw [integral_cut a0 a1 hc, integral_stepAt b0 b1] at h12
  rw [i2, i3] at h21
  rw [i2, integral_stepAt b0 b1] at h22
  have e : ∑ n ∈ range N, (if u n < α ∧ v n < β then c * u n + d else 0) =
      ∑ n ∈ range N, (c * min (u n) α + d) * 1 - ∑ n ∈ range N, (c * min (u n) α + d) * stepAt β (v n)
      - ∑ n ∈ range N, k * stepAt α (u n) * 1 + ∑ n ∈ range N, k * stepAt α (u n) * stepAt β (v n) := by
    rw [← sum_sub_distrib, ← sum_sub_distrib, ← sum_add_distrib]
    apply sum_congr rfl
    intro n _
    unfold stepAt
    by_cases hα : u n < α <;> by_cases hβ : v n < β
    · rw [if_pos ⟨hα, hβ⟩, if_neg (not_le.2 hα), if_neg (not_le.2 hβ), min_eq_left hα.le]; ring
    · rw [if_neg (fun h => hβ h.2), if_neg (not_le.2 hα), if_pos (not_lt.1 hβ), min_eq_left hα.le]; ring
    · rw [if_neg (fun h => hα h.1), if_pos (not_lt.1 hα), if_neg (not_le.2 hβ), min_eq_right (not_lt.1 hα), hk]; ring
    · rw [if_neg (fun h => hα h.1), if_pos (not_lt.1 hα), if_pos (not_lt.1 hβ), min_eq_right (not_lt.1 hα), hk]; ring
  rw [e]
  have t : (c * α ^ 2 / 2 + d * α) * β = (c * (α ^ 2 / 2 + α * (1 - α)) + d) * 1 -
      (c * (α ^ 2 / 2 + α * (1 - α)) + d) * (1 - β) - k * (1 - α) * 1 + k * (1 - α) * (1 - β) := by rw [hk]; ring
  rw [t]
  have h11 := abs_le.1 h11
  have h12 := abs_le.1 h12
  have h21 := abs_le.1 h21
  have h22 := abs_le.1 h22
  rw [abs_le]
  constructor <;> linarith

/-! ## The charges of a species -/

/-- a list of draws as two sequences -/
theorem draws_seq {N : ℕ} {draws : List (ℝ × ℝ)} (h : CodeDraws N draws) :
    ∃ u v : ℕ → ℝ, draws = (List.range N).map (fun n => (u n, v n)) ∧ (∀ n, n < N → RandomReverse n 13 (u n)) ∧
      ∀ n, n < N → RandomReverse ((N - 1 - n : ℕ) : ℝ) 11 (v n) := by
  obtain ⟨hl, hd⟩ := h
  refine ⟨fun n => (draws.getD n (0, 0)).1, fun n => (draws.getD n (0, 0)).2, ?_, ?_, ?_⟩
  · apply List.ext_getElem
    · simp [hl]
    · intro n h1 h2
      simp [List.getD_eq_getElem?_getD, h1]
  · intro n hn
    exact (hd n _ (by rw [List.getD_eq_getElem?_getD, List.getElem?_eq_getElem (by omega)]; rfl)).1
  · intro n hn
    exact (hd n _ (by rw [List.getD_eq_getElem?_getD, List.getElem?_eq_getElem (by omega)]; rfl)).2

/-- charge of each macroparticle: its share by radius of the charge of the species -/
theorem loaded_charge (G : Geom) (hG : G.Valid) (charge mass n1 n2 : ℝ) {draws : List (ℝ × ℝ)}
    (hu : ∀ x ∈ draws, 0 ≤ x.1 ∧ x.1 < 1) :
    loadCylindrical G charge mass n1 n2 0 draws = draws.map fun x =>
      (⟨loadPos G n1 n2 0 x.1 x.2,
        charge * ((n1 + n2) / 2 * (PI * G.r_size ^ 2 * G.z_size) * (loadPos G n1 n2 0 x.1 x.2).c0 /
          (draws.map fun y => (loadPos G n1 n2 0 y.1 y.2).c0).sum),
        mass * ((n1 + n2) / 2 * (PI * G.r_size ^ 2 * G.z_size) * (loadPos G n1 n2 0 x.1 x.2).c0 /
          (draws.map fun y => (loadPos G n1 n2 0 y.1 y.2).c0).sum)⟩ : Loaded) := by
  by_cases hne : draws = []
  · subst hne; rfl
  have hdr := hG.dr_pos
  have hdz := hG.dz_pos
  have hpi := PI_pos'
  have hR : 0 ≤ G.r_size - G.dr := by
    have : (2 : ℝ) ≤ G.nr := by exact_mod_cast hG.nr_ge
    rw [hG.r_size_eq]; nlinarith
  have hpos : ∀ x ∈ draws, G.dr / 2 ≤ (loadPos G n1 n2 0 x.1 x.2).c0 := by
    intro x hx
    have := mul_nonneg hR (hu x hx).1
    simp only [loadPos]; linarith
  have hl0 : (0 : ℝ) < draws.length := by
    have := List.length_pos_of_ne_nil hne
    exact_mod_cast this
  obtain ⟨s, hs⟩ : ∃ s, s = (draws.map fun y => (loadPos G n1 n2 0 y.1 y.2).c0).sum := ⟨_, rfl⟩
  have s0 : 0 < s := by
    rw [hs]
    apply List.sum_pos
    · intro x hx
      obtain ⟨y, hy, rfl⟩ := List.mem_map.1 hx
      linarith [hpos y hy]
    · simpa using hne
  have vs : ((draws.map fun u => loadPos G n1 n2 0 u.1 u.2).map fun p => 2 * PI * p.c0 * G.dr * G.dz).sum =
      2 * PI * G.dr * G.dz * s := by
    rw [List.map_map, hs, ← List.sum_map_mul_left]
    congr 1
    apply List.map_congr_left
    intro y _
    simp only [Function.comp]; ring
  unfold loadCylindrical
  simp only []
  rw [vs, ← hs, List.map_map]
  apply List.map_congr_left
  intro x hx
  have hn : macroNorm G (2 * PI * G.dr * G.dz * s / draws.length) (loadPos G n1 n2 0 x.1 x.2).c0 =
      (loadPos G n1 n2 0 x.1 x.2).c0 * draws.length / s := by
    have hx := hpos x hx
    obtain ⟨ρ, hρ⟩ : ∃ ρ, ρ = (loadPos G n1 n2 0 x.1 x.2).c0 := ⟨_, rfl⟩
    rw [← hρ] at hx ⊢
    unfold macroNorm
    split_ifs with h
    · field_simp
    · have : ρ = G.dr / 2 := by linarith
      rw [this]; field_simp; ring
  simp only [Function.comp, Loaded.mk.injEq, true_and]
  rw [hn]
  constructor <;> field_simp

/-- the number of physical particles up to `z` grows with `z` -/
theorem integral_density_lt {a b n1 n2 x y : ℝ} (h1 : 0 < n1) (h2 : 0 < n2) (hx : a ≤ x) (hxy : x < y) (hy : y ≤ b) :
    ∫ t in a..x, linearDensity a b n1 n2 t < ∫ t in a..y, linearDensity a b n1 n2 t := by
  have hab : a ≠ b := by intro h; linarith
  have hba : 0 < b - a := by linarith
  rw [integral_linearDensity _ _ _ _ _ hab, integral_linearDensity _ _ _ _ _ hab]
  obtain ⟨s, hs⟩ : ∃ s, s = (y - a + (x - a)) / (2 * (b - a)) := ⟨_, rfl⟩
  have s0 : 0 ≤ s := by rw [hs]; apply div_nonneg <;> linarith
  have s1 : s ≤ 1 := by rw [hs, div_le_one (by linarith)]; linarith
  have e : n1 * (y - a) + (n2 - n1) * (y - a) ^ 2 / (2 * (b - a)) -
      (n1 * (x - a) + (n2 - n1) * (x - a) ^ 2 / (2 * (b - a))) = (y - x) * (n1 * (1 - s) + n2 * s) := by
    rw [hs]; field_simp; ring
  have p : 0 < n1 * (1 - s) + n2 * s := by
    rcases s0.eq_or_lt with h | h
    · rw [← h]; simpa using h1
    · have := mul_nonneg h1.le (sub_nonneg.2 s1); have := mul_pos h2 h; linarith
  have := mul_pos (sub_pos.2 hxy) p
  linarith

theorem ratio_close {X Y x y e : ℝ} (hX : 0 ≤ X) (hXY : X ≤ Y) (hY : 0 < Y) (hy : 0 < y) (h1 : |X - x| ≤ e)
    (h2 : |Y - y| ≤ e) : |X / Y - x / y| ≤ 2 * e / y := by
  have e1 : X / Y - x / y = ((X - x) + X / Y * (y - Y)) / y := by field_simp; ring
  rw [e1, abs_div, abs_of_pos hy]
  apply div_le_div_of_nonneg_right _ hy.le
  have q0 : 0 ≤ X / Y := div_nonneg hX hY.le
  have q1 : X / Y ≤ 1 := (div_le_one hY).2 hXY
  calc |X - x + X / Y * (y - Y)| ≤ |X - x| + |X / Y * (y - Y)| := abs_add_le _ _
    _ = |X - x| + X / Y * |Y - y| := by rw [abs_mul, abs_of_nonneg q0, abs_sub_comm y Y]
    _ ≤ e + 1 * e := add_le_add h1 (mul_le_mul q1 h2 (abs_nonneg _) zero_le_one)
    _ = 2 * e := by ring

theorem sum_list_range (N : ℕ) (f : ℕ → ℝ) : ((List.range N).map f).sum = ∑ n ∈ range N, f n := by
  induction N with
  | zero => rfl
  | succ N ih => rw [List.range_succ, List.map_append, List.sum_append, ih, sum_range_succ]; simp

theorem species_within {sp : SpecieSettings} {L : List Loaded} {ps : List Particle}
    (h : List.Forall₂ (LoadedParticle sp) L ps) (r z : ℝ) :
    chargeWithin ps r z = (L.map fun l => if l.pos.c0 < r ∧ l.pos.c2 < z then l.charge else 0).sum := by
  induction h with
  | nil => rfl
  | @cons l p L ps h _ ih =>
    obtain ⟨_, _, _, -, -, -, -, -, hp, -, hc, -⟩ := h
    unfold chargeWithin at ih ⊢
    rw [List.map_cons, List.sum_cons, List.map_cons, List.sum_cons, ih, hp, hc]

/-! ## C97 -/

/-- **C97** (part) The charge of a species between axis and radius `r` and between near wall and `z`, for every `r` and
`z` in the plasma: it is `packing G` times what the densities of the configuration say, up to a relative error that
is given for every number of macroparticles.  Missing for the full claim: the factor, see `C97_density_violated`. -/
theorem C97_density_partial {G : Geom} (hG : G.Valid) (hnr : 3 ≤ G.nr) (hnz : 3 ≤ G.nz) {sp : SpecieSettings}
    (h1 : 0 < sp.left_density) (h2 : 0 < sp.right_density) (hn : 1 ≤ sp.number) {ps : List Particle}
    (h : InitSpecies G sp (some ps)) {r z : ℝ} (hr0 : G.dr / 2 ≤ r) (hr1 : r ≤ G.r_size - G.dr / 2)
    (hz0 : G.dz / 2 ≤ z) (hz1 : z ≤ G.z_size - G.dz / 2) (a b : ℕ) :
    |chargeWithin ps r z -
      sp.charge * EL_CHARGE * (packing G * configuredNumber G sp.left_density sp.right_density r z)| ≤
      |sp.charge * EL_CHARGE| * ((sp.left_density + sp.right_density) / 2 * (PI * G.r_size ^ 2 * G.z_size)) *
        (16 * meanError sp.number a b) := by
  cases h with
  | ok draws hd ps hF =>
  obtain ⟨n1, hn1⟩ : ∃ n1, n1 = sp.left_density := ⟨_, rfl⟩
  obtain ⟨n2, hn2⟩ : ∃ n2, n2 = sp.right_density := ⟨_, rfl⟩
  obtain ⟨N, hN⟩ : ∃ N, N = sp.number := ⟨_, rfl⟩
  obtain ⟨q, hq⟩ : ∃ q : ℝ, q = sp.charge * EL_CHARGE := ⟨_, rfl⟩
  rw [species_within hF, ← hq]
  rw [← hn1] at h1
  rw [← hn2] at h2
  rw [← hN] at hn hd
  rw [← hn1, ← hn2, ← hN]
  rw [loaded_charge G hG _ _ _ _ (fun x hx => (codeDraws_range hd x hx).1), List.map_map]
  have hrange := codeDraws_range hd
  obtain ⟨u, v, hdr', hu, hv⟩ := draws_seq hd
  have u01 : ∀ n, n < N → (0 ≤ u n ∧ u n < 1) ∧ 0 ≤ v n ∧ v n < 1 := by
    intro n hn
    exact hrange (u n, v n) (by rw [hdr']; exact List.mem_map.2 ⟨n, List.mem_range.2 hn, rfl⟩)
  have hpi := PI_pos'
  have dr0 := hG.dr_pos
  have dz0 := hG.dz_pos
  have nr3 : (3 : ℝ) ≤ G.nr := by exact_mod_cast hnr
  have nz3 : (3 : ℝ) ≤ G.nz := by exact_mod_cast hnz
  have D0 : 0 < G.r_size - G.dr := by rw [hG.r_size_eq]; nlinarith only [nr3, dr0]
  have Z0 : 0 < G.z_size - G.dz := by rw [hG.z_size_eq]; nlinarith only [nz3, dz0]
  have R0 : 0 < G.r_size := by linarith
  have Zs0 : 0 < G.z_size := by linarith
  have N0 : (0 : ℝ) < N := by exact_mod_cast hn
  -- the part along z
  obtain ⟨I, hI⟩ : ∃ I : ℝ → ℝ, I = fun z => ∫ x in (G.dz / 2)..z, linearDensity (G.dz / 2) (G.z_size - G.dz / 2) n1 n2 x :=
    ⟨_, rfl⟩
  have Ilt : ∀ x y, G.dz / 2 ≤ x → x < y → y ≤ G.z_size - G.dz / 2 → I x < I y := by
    intro x y hx hxy hy; rw [hI]; exact integral_density_lt h1 h2 hx hxy hy
  have Ia : I (G.dz / 2) = 0 := by rw [hI]; simp
  have Ib : I (G.z_size - G.dz / 2) = (n1 + n2) / 2 * (G.z_size - G.dz) := by
    rw [hI]; dsimp only
    rw [integral_linearDensity _ _ _ _ _ (by intro h; linarith)]
    have : G.z_size - G.dz / 2 - G.dz / 2 = G.z_size - G.dz := by ring
    rw [this]; field_simp; ring
  have Ib0 : 0 < I (G.z_size - G.dz / 2) := by rw [Ib]; positivity
  have Imono : ∀ x y, G.dz / 2 ≤ x → x ≤ y → y ≤ G.z_size - G.dz / 2 → I x ≤ I y := by
    intro x y hx hxy hy
    rcases hxy.eq_or_lt with h | h
    · rw [h]
    · exact (Ilt x y hx h hy).le
  obtain ⟨β, hβ⟩ : ∃ β, β = I z / I (G.z_size - G.dz / 2) := ⟨_, rfl⟩
  have b0 : 0 ≤ β := by rw [hβ]; exact div_nonneg (by rw [← Ia]; exact Imono _ _ le_rfl hz0 hz1) Ib0.le
  have b1 : β ≤ 1 := by rw [hβ, div_le_one Ib0]; exact Imono _ _ hz0 hz1 le_rfl
  have zlt : ∀ n, n < N → ((loadPos G n1 n2 0 (u n) (v n)).c2 < z ↔ v n < β) := by
    intro n hn
    obtain ⟨-, ⟨p1, p2⟩, -, p4⟩ := C26_position G hG hnr hnz n1 n2 h1 h2 (u n) (v n) (u01 n hn).1 (u01 n hn).2
    have p5 : I (loadPos G n1 n2 0 (u n) (v n)).c2 = v n * I (G.z_size - G.dz / 2) := by rw [hI]; exact p4
    rw [hβ, lt_div_iff₀ Ib0, ← p5]
    constructor
    · intro h; exact Ilt _ _ p1 h hz1
    · intro h
      by_contra hc
      exact absurd (Imono _ _ hz0 (not_lt.1 hc) p2.le) (not_le.2 h)
  -- the part along r
  obtain ⟨α, hα⟩ : ∃ α, α = (r - G.dr / 2) / (G.r_size - G.dr) := ⟨_, rfl⟩
  have a0 : 0 ≤ α := by rw [hα]; exact div_nonneg (by linarith) D0.le
  have a1 : α ≤ 1 := by rw [hα, div_le_one D0]; linarith
  have rlt : ∀ n, ((loadPos G n1 n2 0 (u n) (v n)).c0 < r ↔ u n < α) := by
    intro n
    simp only [loadPos]
    rw [hα, lt_div_iff₀ D0]
    constructor <;> intro h <;> linarith
  obtain ⟨c, hc⟩ : ∃ c, c = (G.r_size - G.dr) / G.r_size := ⟨_, rfl⟩
  obtain ⟨d, hdd⟩ : ∃ d, d = G.dr / 2 / G.r_size := ⟨_, rfl⟩
  have c0 : 0 ≤ c := by rw [hc]; exact div_nonneg D0.le R0.le
  have d0 : 0 ≤ d := by rw [hdd]; positivity
  have cd : c + d ≤ 1 := by rw [hc, hdd, ← add_div, div_le_one R0]; linarith
  have ceq : ∀ n, (loadPos G n1 n2 0 (u n) (v n)).c0 = G.r_size * (c * u n + d) := by
    intro n; simp only [loadPos]; rw [hc, hdd]; field_simp
  have B := box_mean hn hu hv a0 a1 b0 b1 c0 d0 cd a b
  have B1 := box_mean hn hu hv zero_le_one le_rfl zero_le_one le_rfl c0 d0 cd a b
  obtain ⟨X, hX⟩ : ∃ X, X = ∑ n ∈ range N, (if u n < α ∧ v n < β then c * u n + d else 0) := ⟨_, rfl⟩
  obtain ⟨Y, hY⟩ : ∃ Y, Y = ∑ n ∈ range N, (c * u n + d) := ⟨_, rfl⟩
  have eY : ∑ n ∈ range N, (if u n < 1 ∧ v n < 1 then c * u n + d else 0) = Y := by
    rw [hY]
    apply sum_congr rfl
    intro n hn
    have := u01 n (mem_range.1 hn)
    rw [if_pos ⟨this.1.2, this.2.2⟩]
  have cu : ∀ n ∈ range N, d ≤ c * u n + d := by
    intro n hn
    have := mul_nonneg c0 (u01 n (mem_range.1 hn)).1.1
    linarith
  have dpos : 0 < d := by rw [hdd]; positivity
  have X0 : 0 ≤ X := by
    rw [hX]; apply sum_nonneg; intro n hn; split_ifs
    · linarith [cu n hn]
    · exact le_rfl
  have XY : X ≤ Y := by
    rw [hX, hY]; apply sum_le_sum; intro n hn; split_ifs
    · exact le_rfl
    · linarith [cu n hn]
  have Y0 : 0 < Y := by
    rw [hY]; apply sum_pos
    · intro n hn; linarith [cu n hn]
    · exact ⟨0, mem_range.2 hn⟩
  rw [← hX] at B
  rw [eY] at B1
  have half : c * 1 ^ 2 / 2 + d * 1 = 1 / 2 := by rw [hc, hdd]; field_simp; ring
  rw [half] at B1
  have main := ratio_close X0 XY Y0 (by positivity) B B1
  -- the sums of the program
  have eS : (draws.map fun y => (loadPos G n1 n2 0 y.1 y.2).c0).sum = G.r_size * Y := by
    rw [hdr', List.map_map, sum_list_range, hY, mul_sum]
    exact sum_congr rfl fun n _ => ceq n
  obtain ⟨T, hT⟩ : ∃ T, T = (n1 + n2) / 2 * (PI * G.r_size ^ 2 * G.z_size) := ⟨_, rfl⟩
  have T0 : 0 < T := by rw [hT]; positivity
  rw [eS, ← hT]
  have eX : (draws.map ((fun l : Loaded => if l.pos.c0 < r ∧ l.pos.c2 < z then l.charge else 0) ∘ fun x =>
      (⟨loadPos G n1 n2 0 x.1 x.2, q * (T * (loadPos G n1 n2 0 x.1 x.2).c0 / (G.r_size * Y)),
        sp.mass * EL_MASS * (T * (loadPos G n1 n2 0 x.1 x.2).c0 / (G.r_size * Y))⟩ : Loaded))).sum =
      q * T * (X / Y) := by
    rw [hdr', List.map_map, sum_list_range, hX, sum_div, mul_sum]
    apply sum_congr rfl
    intro n hn
    simp only [Function.comp]
    rw [ceq n]
    have e1 := rlt n
    have e2 := zlt n (mem_range.1 hn)
    rw [ceq n] at e1
    by_cases hb : u n < α ∧ v n < β
    · rw [if_pos hb, if_pos ⟨e1.2 hb.1, e2.2 hb.2⟩]; field_simp
    · rw [if_neg hb, if_neg (fun h => hb ⟨e1.1 h.1, e2.1 h.2⟩)]; simp
  rw [eX]
  have lim : packing G * configuredNumber G n1 n2 r z =
      T * (N * ((c * α ^ 2 / 2 + d * α) * β) / (N * (1 / 2 * 1))) := by
    have eI : configuredNumber G n1 n2 r z = PI * (r ^ 2 - (G.dr / 2) ^ 2) * I z := by rw [hI]; rfl
    have nn : 0 < n1 + n2 := by linarith
    rw [eI, hβ, Ib, hα, hc, hdd, hT]
    unfold packing
    field_simp
    ring
  rw [lim]
  have e3 : q * T * (X / Y) - q * (T * (N * ((c * α ^ 2 / 2 + d * α) * β) / (N * (1 / 2 * 1)))) =
      q * T * (X / Y - N * ((c * α ^ 2 / 2 + d * α) * β) / (N * (1 / 2 * 1))) := by ring
  rw [e3, abs_mul, abs_mul, abs_of_pos T0]
  apply mul_le_mul_of_nonneg_left _ (by positivity)
  refine main.trans (le_of_eq ?_)
  field_simp
  ring

theorem meanError_small {ε : ℝ} (hε : 0 < ε) : ∃ N0 a b : ℕ, 1 ≤ N0 ∧ ∀ N, N0 ≤ N → meanError N a b ≤ ε := by
  obtain ⟨a, ha⟩ := exists_pow_lt_of_lt_one (show 0 < ε / 3 by positivity) (show (1 / 13 : ℝ) < 1 by norm_num)
  obtain ⟨b, hb⟩ := exists_pow_lt_of_lt_one (show 0 < ε / 3 by positivity) (show (1 / 11 : ℝ) < 1 by norm_num)
  obtain ⟨K, hK⟩ := exists_nat_gt ((13 : ℝ) ^ a * (11 : ℝ) ^ b / (ε / 3))
  refine ⟨K + 1, a, b, by omega, fun N hN => ?_⟩
  have hN' : (K : ℝ) + 1 ≤ N := by exact_mod_cast hN
  have K0 : (0 : ℝ) ≤ K := Nat.cast_nonneg K
  have N0 : (0 : ℝ) < N := by linarith
  have h3 : (13 : ℝ) ^ a * (11 : ℝ) ^ b / N ≤ ε / 3 := by
    rw [div_le_iff₀ N0]
    rw [div_lt_iff₀ (by positivity)] at hK
    nlinarith only [hK, hN', hε]
  rw [one_div_pow] at ha hb
  unfold meanError
  linarith

/-- **C97** (part) With enough macroparticles the plasma is as near as wanted to `packing G` times the configured
density, in all cylinders at once; how many macroparticles that takes depends on nothing else. -/
theorem C97_limit_partial {ε : ℝ} (hε : 0 < ε) : ∃ N0 : ℕ, 1 ≤ N0 ∧ ∀ (G : Geom), G.Valid → 3 ≤ G.nr → 3 ≤ G.nz →
    ∀ (sps : List SpecieSettings) (S : List Species), InitPlasma G sps (some S) →
    (∀ sp ∈ sps, 0 < sp.left_density ∧ 0 < sp.right_density ∧ N0 ≤ sp.number) →
    List.Forall₂ (fun sp s => ∀ r z, G.dr / 2 ≤ r → r ≤ G.r_size - G.dr / 2 → G.dz / 2 ≤ z →
      z ≤ G.z_size - G.dz / 2 → |chargeWithin s.ps r z -
        sp.charge * EL_CHARGE * (packing G * configuredNumber G sp.left_density sp.right_density r z)| ≤
        ε * (|sp.charge * EL_CHARGE| *
          ((sp.left_density + sp.right_density) / 2 * (PI * G.r_size ^ 2 * G.z_size)))) sps S := by
  obtain ⟨N0, a, b, hN0, H⟩ := meanError_small (show 0 < ε / 16 by positivity)
  refine ⟨N0, hN0, fun G hG hnr hnz sps S h hs => ?_⟩
  rcases h with ⟨h, -⟩ | ⟨S', e, h⟩
  · cases h
  obtain rfl := Option.some.inj e
  clear e
  induction h with
  | nil => exact .nil
  | @cons sp s sps S h _ ih =>
    refine .cons ?_ (ih fun x hx => hs x (by simp [hx]))
    intro r z hr0 hr1 hz0 hz1
    obtain ⟨g1, g2, g3⟩ := hs sp (by simp)
    refine (C97_density_partial hG hnr hnz g1 g2 (hN0.trans g3) h.2 hr0 hr1 hz0 hz1 a b).trans ?_
    rw [mul_comm ε]
    apply mul_le_mul_of_nonneg_left
    · linarith [H _ g3]
    · have := PI_pos'
      have : 0 ≤ G.z_size := by linarith [hG.dz_pos]
      positivity

theorem packing_gt {G : Geom} (hG : G.Valid) (hnr : 3 ≤ G.nr) (hnz : 3 ≤ G.nz) : 1 < packing G := by
  have dr0 := hG.dr_pos
  have dz0 := hG.dz_pos
  have nr3 : (3 : ℝ) ≤ G.nr := by exact_mod_cast hnr
  have nz3 : (3 : ℝ) ≤ G.nz := by exact_mod_cast hnz
  have D0 : 0 < G.r_size - G.dr := by rw [hG.r_size_eq]; nlinarith only [nr3, dr0]
  have Z0 : 0 < G.z_size - G.dz := by rw [hG.z_size_eq]; nlinarith only [nz3, dz0]
  have h1 : 1 < G.r_size / (G.r_size - G.dr) := by rw [one_lt_div D0]; linarith
  have h2 : 1 < G.z_size / (G.z_size - G.dz) := by rw [one_lt_div Z0]; linarith
  exact one_lt_mul_of_lt_of_le h1 h2.le

/-- **C97** (violated) The plasma is denser than configured, everywhere in every chamber: in each cylinder of plasma
the charge exceeds what the densities of the configuration say by at least half of `packing G - 1`, for all
sufficiently large numbers of macroparticles.  More macroparticles do not help. -/
theorem C97_density_violated {G : Geom} (hG : G.Valid) (hnr : 3 ≤ G.nr) (hnz : 3 ≤ G.nz) {n1 n2 r z : ℝ} (h1 : 0 < n1)
    (h2 : 0 < n2) (hr0 : G.dr / 2 < r) (hr1 : r ≤ G.r_size - G.dr / 2) (hz0 : G.dz / 2 < z)
    (hz1 : z ≤ G.z_size - G.dz / 2) : 1 < packing G ∧ 0 < configuredNumber G n1 n2 r z ∧
    ∃ N0 : ℕ, ∀ (sp : SpecieSettings) (ps : List Particle), sp.left_density = n1 → sp.right_density = n2 →
      sp.charge ≠ 0 → N0 ≤ sp.number → InitSpecies G sp (some ps) →
      (1 + packing G) / 2 * (|sp.charge * EL_CHARGE| * configuredNumber G n1 n2 r z) ≤ |chargeWithin ps r z| := by
  have pk := packing_gt hG hnr hnz
  have hpi := PI_pos'
  have dr0 := hG.dr_pos
  have C0 : 0 < configuredNumber G n1 n2 r z := by
    unfold configuredNumber
    have := integral_density_lt h1 h2 le_rfl hz0 hz1
    rw [intervalIntegral.integral_same] at this
    have : 0 < r ^ 2 - (G.dr / 2) ^ 2 := by nlinarith only [hr0, dr0]
    positivity
  refine ⟨pk, C0, ?_⟩
  obtain ⟨T, hT⟩ : ∃ T, T = (n1 + n2) / 2 * (PI * G.r_size ^ 2 * G.z_size) := ⟨_, rfl⟩
  have T0 : 0 < T := by
    have : 0 < G.r_size := by linarith
    have : 0 < G.z_size := by linarith [hG.dz_pos]
    rw [hT]; positivity
  obtain ⟨N0, a, b, hN0, H⟩ := meanError_small
    (show 0 < (packing G - 1) / 2 * configuredNumber G n1 n2 r z / (16 * T) by
      have : 0 < packing G - 1 := by linarith
      positivity)
  refine ⟨N0, fun sp ps e1 e2 hq hn h => ?_⟩
  have M := C97_density_partial hG hnr hnz (e1 ▸ h1) (e2 ▸ h2) (hN0.trans hn) h hr0.le hr1 hz0.le hz1 a b
  rw [e1, e2, ← hT] at M
  obtain ⟨q, hq'⟩ : ∃ q : ℝ, q = sp.charge * EL_CHARGE := ⟨_, rfl⟩
  rw [← hq'] at M ⊢
  have E := H _ hn
  rw [le_div_iff₀ (by positivity)] at E
  have t := abs_sub_abs_le_abs_sub (q * (packing G * configuredNumber G n1 n2 r z)) (chargeWithin ps r z)
  rw [abs_sub_comm, abs_mul q, abs_of_pos (show 0 < packing G * configuredNumber G n1 n2 r z by positivity)] at t
  have E2 : |q| * T * (16 * meanError sp.number a b) ≤ |q| * ((packing G - 1) / 2 * configuredNumber G n1 n2 r z) := by
    have := mul_le_mul_of_nonneg_left E (abs_nonneg q)
    linarith
  linarith

/-- the hypotheses are met: a chamber of 4 by 4 cells, a species of every size, and a cylinder in it; the plasma is
denser than configured by 16/9 -/
example (n : ℕ) (hn : 1 ≤ n) : let G : Geom := ⟨4, 4, 5, 5, 1, 1⟩
    let sp : SpecieSettings := ⟨"electrons".toList, -1, 1, n, 1, 2, 1⟩
    (G.Valid ∧ 3 ≤ G.nr ∧ 3 ≤ G.nz) ∧ sp.number = n ∧ sp.charge ≠ 0 ∧ (∃ ps, InitSpecies G sp (some ps)) ∧
      packing G = 16 / 9 ∧ (G.dr / 2 < 2 ∧ 2 ≤ G.r_size - G.dr / 2) := by
  have n1 : (1 : ℝ) ≤ n := by exact_mod_cast hn
  refine ⟨⟨?_, by norm_num, by norm_num⟩, by simp [SpecieSettings.number], by norm_num,
    (species_total ⟨n1, by norm_num, by norm_num, by norm_num, by norm_num, by norm_num, good_one⟩).2,
    by norm_num [packing], by norm_num⟩
  constructor <;> norm_num

end Verif
