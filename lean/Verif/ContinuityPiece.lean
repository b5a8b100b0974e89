import Verif.Continuity

/-!
# Continuity of one straight piece inside a cell (support for C05, C06)
-/

namespace Verif

theorem max_face {G : Geom} (hG : G.Valid) {x : ℝ} (hx : 0 ≤ x) : max 0 (x * G.dr) = x * G.dr :=
  max_eq_right (mul_nonneg hx hG.dr_pos.le)

/-- Current contributions of a list of calls. -/
noncomputable def JIncs.rGrid (J : JIncs) : Grid := contrib J.jr
noncomputable def JIncs.zGrid (J : JIncs) : Grid := contrib J.jz

/-- The pieces: node-by-node flux balance from the four node identities. -/
theorem continuity_of_four {G : Geom} (hG : G.Valid) {dt : ℝ} {i k : ℤ} (hi : 0 ≤ i)
    {rhoO rhoN : Grid} {A B C D : ℝ}
    (hsupp : ∀ a b, ¬ ((a = i ∨ a = i + 1) ∧ (b = k ∨ b = k + 1)) → rhoN a b = rhoO a b)
    (h00 : (rhoN i k - rhoO i k) * nodeVolume G i +
      dt * (2 * PI * (((i : ℝ) + 1 / 2) * G.dr) * G.dz * A + nodeVolume G i / G.dz * C) = 0)
    (h10 : (rhoN (i + 1) k - rhoO (i + 1) k) * nodeVolume G (i + 1) +
      dt * (-(2 * PI * (((i : ℝ) + 1 / 2) * G.dr) * G.dz * A) + nodeVolume G (i + 1) / G.dz * D) = 0)
    (h01 : (rhoN i (k + 1) - rhoO i (k + 1)) * nodeVolume G i +
      dt * (2 * PI * (((i : ℝ) + 1 / 2) * G.dr) * G.dz * B - nodeVolume G i / G.dz * C) = 0)
    (h11 : (rhoN (i + 1) (k + 1) - rhoO (i + 1) (k + 1)) * nodeVolume G (i + 1) +
      dt * (-(2 * PI * (((i : ℝ) + 1 / 2) * G.dr) * G.dz * B) - nodeVolume G (i + 1) / G.dz * D) = 0) :
    Continuity G dt rhoO rhoN (contrib [⟨i, k, A⟩, ⟨i, k + 1, B⟩])
      (contrib [⟨i, k, C⟩, ⟨i + 1, k, D⟩]) := by
  have hi' : (0 : ℝ) ≤ i := by exact_mod_cast hi
  intro a b ha
  have fo : max 0 (((i : ℝ) + 1 / 2) * G.dr) = ((i : ℝ) + 1 / 2) * G.dr := max_face hG (by linarith)
  have fi : max 0 ((((i + 1 : ℤ) : ℝ) - 1 / 2) * G.dr) = ((i : ℝ) + 1 / 2) * G.dr := by
    rw [max_face hG (by push_cast; linarith)]; push_cast; ring
  unfold netOutflow
  simp only [contrib_cons, contrib_nil]
  have hA : a = i ∨ a = i + 1 ∨ (a ≠ i ∧ a ≠ i + 1) := by omega
  have hB : b = k ∨ b = k + 1 ∨ (b ≠ k ∧ b ≠ k + 1) := by omega
  rcases hA with rfl | rfl | ⟨ha1, ha2⟩
  · rcases hB with rfl | rfl | ⟨hb1, hb2⟩
    · simp; rw [← one_div, fo]; linear_combination h00
    · simp; rw [← one_div, fo]; linear_combination h01
    · have hb3 : b - 1 ≠ k := by omega
      rw [hsupp a b (by omega)]
      simp [hb1, hb2, hb3]
  · rcases hB with rfl | rfl | ⟨hb1, hb2⟩
    · simp only [fi]; simp; linear_combination h10
    · simp only [fi]; simp; linear_combination h11
    · have hb3 : b - 1 ≠ k := by omega
      rw [hsupp (i + 1) b (by omega)]
      simp [hb1, hb2, hb3]
  · rw [hsupp a b (by omega)]
    have ha3 : a - 1 ≠ i := by omega
    simp [ha1, ha2, ha3]

theorem cellRho_supp (G : Geom) (q : ℝ) (i k : ℤ) (r z : ℝ) (a b : ℤ)
    (h : ¬ ((a = i ∨ a = i + 1) ∧ (b = k ∨ b = k + 1))) : cellRho G q i k r z a b = 0 := by
  unfold cellRho
  by_cases h1 : a = i ∨ a = i + 1
  · have h2 : ¬ (b = k ∨ b = k + 1) := fun h2 => h ⟨h1, h2⟩
    have h3 : b ≠ k := fun e => h2 (Or.inl e)
    have h4 : b ≠ k + 1 := fun e => h2 (Or.inr e)
    rw [if_neg h3, if_neg h4]; ring
  · have h3 : a ≠ i := fun e => h1 (Or.inl e)
    have h4 : a ≠ i + 1 := fun e => h1 (Or.inr e)
    rw [if_neg h3, if_neg h4]; ring

/-- The four corner values of the cell weighting. -/
theorem cellRho_corners (G : Geom) (hG : G.Valid) (q : ℝ) (i k : ℤ) (hi : 0 ≤ i) (r z : ℝ) :
    cellRho G q i k r z i k * nodeVolume G i =
      ((((i : ℝ) + 1 / 2) * G.dr) ^ 2 - (r - G.dr / 2) ^ 2) / (2 * r * G.dr)
        * (((k : ℝ) + 1) - z / G.dz) * q ∧
    cellRho G q i k r z (i + 1) k * nodeVolume G (i + 1) =
      ((r + G.dr / 2) ^ 2 - (((i : ℝ) + 1 / 2) * G.dr) ^ 2) / (2 * r * G.dr)
        * (((k : ℝ) + 1) - z / G.dz) * q ∧
    cellRho G q i k r z i (k + 1) * nodeVolume G i =
      ((((i : ℝ) + 1 / 2) * G.dr) ^ 2 - (r - G.dr / 2) ^ 2) / (2 * r * G.dr)
        * (z / G.dz - k) * q ∧
    cellRho G q i k r z (i + 1) (k + 1) * nodeVolume G (i + 1) =
      ((r + G.dr / 2) ^ 2 - (((i : ℝ) + 1 / 2) * G.dr) ^ 2) / (2 * r * G.dr)
        * (z / G.dz - k) * q := by
  have v0 := (nodeVolume_pos G hG hi).ne'
  have v1 := (nodeVolume_pos G hG (by omega : 0 ≤ i + 1)).ne'
  unfold cellRho
  refine ⟨?_, ?_, ?_, ?_⟩ <;> simp <;> field_simp

/-- Continuity of `simple_current_distribution` relative to the weighting of its cell. -/
theorem simpleCurrent_continuity (G : Geom) (hG : G.Valid) {dt : ℝ} (hdt : dt ≠ 0) (q : ℝ)
    {rN zN rO zO : ℝ} {i k : ℤ} (hi : 0 ≤ i) (hrN : 0 < rN) (hrO : 0 < rO)
    (hmr : MNZL ≤ |rN - rO|) (hmz : MNZL ≤ |zN - zO|) :
    ∃ J, simpleCurrent G dt q rN zN rO zO i k = some J ∧
      Continuity G dt (cellRho G q i k rO zO) (cellRho G q i k rN zN) J.rGrid J.zGrid := by
  have hdr := hG.dr_pos.ne'
  have hdz := hG.dz_pos.ne'
  have hpi := PI_ne
  have hm := MNZL_pos
  have hi' : (0 : ℝ) ≤ i := by exact_mod_cast hi
  have hΔr : rN - rO ≠ 0 := fun h => by rw [h, abs_zero] at hmr; linarith
  have hΔz : zN - zO ≠ 0 := fun h => by rw [h, abs_zero] at hmz; linarith
  have hg1 : ¬ (|rN - rO| < MNZL ∨ |zN - zO| < MNZL) := by
    rintro (h | h) <;> linarith
  have hg2 : ¬ (rO * rN ≤ 0) := not_le.2 (mul_pos hrO hrN)
  have hlog : (rN - rO) / (zN - zO) * (zN - zO) + rO = rN := by
    rw [div_mul_cancel₀ _ hΔz]; ring
  have hadd : rO + (rN - rO) = rN := by ring
  have hrN' := hrN.ne'
  have hrO' := hrO.ne'
  have hhalf : (i : ℝ) + 0.5 ≠ 0 := by
    have : (0:ℝ) < (i : ℝ) + 0.5 := by positivity
    exact this.ne'
  have hhalf2 : 2 * (i : ℝ) + 1 ≠ 0 := by positivity
  obtain ⟨o00, o10, o01, o11⟩ := cellRho_corners G hG q i k hi rO zO
  obtain ⟨n00, n10, n01, n11⟩ := cellRho_corners G hG q i k hi rN zN
  unfold simpleCurrent
  simp only [hg1, hg2, if_false]
  by_cases h1 : i ≥ 1
  · simp only [h1, if_true]
    refine ⟨_, rfl, ?_⟩
    have hi1 : (1 : ℝ) ≤ i := by exact_mod_cast h1
    have hi0 : (i : ℝ) ≠ 0 := by linarith
    have hi2 : (i : ℝ) + 1 ≠ 0 := by linarith
    have v0 := nodeVolume_pos_idx G hG h1
    have v1 := nodeVolume_pos_idx G hG (by omega : 1 ≤ i + 1)
    push_cast at v1
    unfold JIncs.rGrid JIncs.zGrid
    simp only [hlog, hadd]
    generalize Real.log (rN / rO) = L
    apply continuity_of_four hG hi
    · intro a b hab; rw [cellRho_supp G q i k _ _ a b hab, cellRho_supp G q i k _ _ a b hab]
    · rw [sub_mul, o00, n00, v0]
      unfold CELL_VOLUME DENSITY_Z DENSITY_R
      field_simp
      ring
    · rw [sub_mul, o10, n10, v1]
      unfold CELL_VOLUME DENSITY_Z DENSITY_R
      field_simp
      ring
    · rw [sub_mul, o01, n01, v0]
      unfold CELL_VOLUME DENSITY_Z DENSITY_R
      field_simp
      ring
    · rw [sub_mul, o11, n11, v1]
      unfold CELL_VOLUME DENSITY_Z DENSITY_R
      field_simp
      ring
  · have h0 : i = 0 := by omega
    subst h0
    simp only [h1, if_false]
    refine ⟨_, rfl, ?_⟩
    have v0 := nodeVolume_zero G hG
    have v1 : nodeVolume G (0 + 1) = CELL_VOLUME ((0:ℝ) + 1) G.dr G.dz := by
      have := nodeVolume_pos_idx G hG (i := 1) (by omega)
      simpa using this
    unfold JIncs.rGrid JIncs.zGrid
    simp only [hadd]
    generalize Real.log (rN / rO) = L
    apply continuity_of_four hG (le_refl 0)
    · intro a b hab; rw [cellRho_supp G q 0 k _ _ a b hab, cellRho_supp G q 0 k _ _ a b hab]
    · rw [sub_mul, o00, n00, v0]
      unfold CYL_VOL DENSITY_Z
      simp only [Int.cast_zero]
      field_simp
      ring
    · rw [sub_mul, o10, n10, v1]
      unfold CELL_VOLUME DENSITY_Z DENSITY_R
      simp only [Int.cast_zero]
      field_simp
      ring
    · rw [sub_mul, o01, n01, v0]
      unfold CYL_VOL DENSITY_Z
      simp only [Int.cast_zero]
      field_simp
      ring
    · rw [sub_mul, o11, n11, v1]
      unfold CELL_VOLUME DENSITY_Z DENSITY_R
      simp only [Int.cast_zero]
      field_simp
      ring

end Verif
