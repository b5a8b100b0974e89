import Verif.DepositProps

/-!
# C55: every node receives the share of the particle that lies in its cell

A macroparticle is a ring of radial width `dr` and axial length `dz` around its position, filled
uniformly.  The cell of a node is the region nearer to it than to any other node.
-/

namespace Verif

/-! ## Specification -/

/-- Length of the common part of the intervals `[a,b]` and `[c,d]` -/
noncomputable def overlap (a b c d : ℝ) : ℝ := max 0 (min b d - max a c)

/-- Area of the common part of the rings with radii from `a` to `b` and from `c` to `d` (all
non-negative) -/
noncomputable def ringOverlap (a b c d : ℝ) : ℝ := PI * max 0 (min b d ^ 2 - max a c ^ 2)

/-- Volume of the part of the ring with radii from `r1` to `r2` and axial centre `z` that lies in the cell
of node `(i, k)` -/
noncomputable def partInCell (G : Geom) (r1 r2 z : ℝ) (i k : ℤ) : ℝ :=
  ringOverlap r1 r2 (max 0 (((i : ℝ) - 1 / 2) * G.dr)) (((i : ℝ) + 1 / 2) * G.dr)
    * overlap (z - G.dz / 2) (z + G.dz / 2) (((k : ℝ) - 1 / 2) * G.dz) (((k : ℝ) + 1 / 2) * G.dz)

/-- Volume of the ring -/
noncomputable def ringVolume (G : Geom) (r1 r2 : ℝ) : ℝ := PI * (r2 ^ 2 - r1 ^ 2) * G.dz

/-- The share of a particle in the cell of node `(i,k)`.  Nearer than half a cell to the axis the ring
reaches across the axis; the part beyond is folded back, so that it is a disc of radius `r + dr/2` and
another one of radius `dr/2 - r`. -/
noncomputable def share (G : Geom) (r z : ℝ) (i k : ℤ) : ℝ :=
  if G.dr / 2 ≤ r then
    partInCell G (r - G.dr / 2) (r + G.dr / 2) z i k / ringVolume G (r - G.dr / 2) (r + G.dr / 2)
  else
    (partInCell G 0 (r + G.dr / 2) z i k + partInCell G 0 (G.dr / 2 - r) z i k)
      / (ringVolume G 0 (r + G.dr / 2) + ringVolume G 0 (G.dr / 2 - r))

/-- The share used for the azimuthal current: near the axis the part of the ring beyond the axis is cut
out of the near part instead of being added to it. -/
noncomputable def shareAzim (G : Geom) (r z : ℝ) (i k : ℤ) : ℝ :=
  partInCell G |r - G.dr / 2| (r + G.dr / 2) z i k / ringVolume G |r - G.dr / 2| (r + G.dr / 2)

/-! ## Supporting facts -/

theorem overlap_low {G : Geom} (hG : G.Valid) {z : ℝ} {k : ℤ} (h1 : (k : ℝ) * G.dz ≤ z)
    (h2 : z ≤ ((k : ℝ) + 1) * G.dz) (b : ℤ) :
    overlap (z - G.dz / 2) (z + G.dz / 2) (((b : ℝ) - 1 / 2) * G.dz) (((b : ℝ) + 1 / 2) * G.dz) =
      if b = k then ((k : ℝ) + 1) * G.dz - z else if b = k + 1 then z - (k : ℝ) * G.dz else 0 := by
  have hz := hG.dz_pos
  unfold overlap
  split_ifs with e1 e2
  · subst e1
    rw [min_eq_right (by linarith),
      max_eq_left (show ((b : ℝ) - 1 / 2) * G.dz ≤ z - G.dz / 2 by linarith),
      max_eq_right (by linarith)]
    ring
  · subst e2
    push_cast
    rw [min_eq_left (by linarith),
      max_eq_right (show z - G.dz / 2 ≤ ((k : ℝ) + 1 - 1 / 2) * G.dz by linarith),
      max_eq_right (by linarith)]
    ring
  · apply max_eq_left
    rcases lt_or_gt_of_ne e1 with h | h
    · have hb : (b : ℝ) + 1 ≤ k := by exact_mod_cast h
      have : min (z + G.dz / 2) (((b : ℝ) + 1 / 2) * G.dz) ≤ ((b : ℝ) + 1 / 2) * G.dz := min_le_right _ _
      have : z - G.dz / 2 ≤ max (z - G.dz / 2) (((b : ℝ) - 1 / 2) * G.dz) := le_max_left _ _
      nlinarith
    · have hb : (k : ℝ) + 2 ≤ b := by
        have : k + 2 ≤ b := by omega
        exact_mod_cast this
      have : min (z + G.dz / 2) (((b : ℝ) + 1 / 2) * G.dz) ≤ z + G.dz / 2 := min_le_left _ _
      have : ((b : ℝ) - 1 / 2) * G.dz ≤ max (z - G.dz / 2) (((b : ℝ) - 1 / 2) * G.dz) := le_max_right _ _
      nlinarith

theorem sq_sub_nonpos {x y : ℝ} (hx : 0 ≤ x) (h : x ≤ y) : x ^ 2 - y ^ 2 ≤ 0 := by nlinarith

/-- the ring around `r` in the cells of radial nodes, `i` the cell of `r` -/
theorem ring_low {G : Geom} (hG : G.Valid) {r : ℝ} {i : ℤ} (hi : 0 ≤ i) (hr : 0 < r)
    (h1 : (i : ℝ) * G.dr ≤ r) (h2 : r ≤ ((i : ℝ) + 1) * G.dr) {a : ℤ} (ha : 0 ≤ a) :
    ringOverlap |r - G.dr / 2| (r + G.dr / 2) (max 0 (((a : ℝ) - 1 / 2) * G.dr))
        (((a : ℝ) + 1 / 2) * G.dr) =
      if a = i then PI * ((((i : ℝ) + 1 / 2) * G.dr) ^ 2 - (r - G.dr / 2) ^ 2)
      else if a = i + 1 then PI * ((r + G.dr / 2) ^ 2 - (((i : ℝ) + 1 / 2) * G.dr) ^ 2) else 0 := by
  have hd := hG.dr_pos
  have hi' : (0 : ℝ) ≤ i := by exact_mod_cast hi
  have ha' : (0 : ℝ) ≤ a := by exact_mod_cast ha
  unfold ringOverlap
  split_ifs with e1 e2
  · subst e1
    have hlo : max |r - G.dr / 2| (max 0 (((a : ℝ) - 1 / 2) * G.dr)) = |r - G.dr / 2| := by
      apply max_eq_left
      apply max_le (abs_nonneg _)
      exact le_trans (by linarith) (le_abs_self _)
    have habs : |r - G.dr / 2| ≤ ((a : ℝ) + 1 / 2) * G.dr := by
      rw [abs_le]; constructor <;> nlinarith
    rw [hlo, min_eq_right (by linarith), sq_abs, max_eq_right]
    have := sq_le_sq' (by linarith [abs_nonneg (r - G.dr / 2)]) habs
    rw [sq_abs] at this
    linarith
  · subst e2
    push_cast
    have hlo : max |r - G.dr / 2| (max 0 (((i : ℝ) + 1 - 1 / 2) * G.dr)) = ((i : ℝ) + 1 / 2) * G.dr := by
      have h0 : (0:ℝ) ≤ ((i : ℝ) + 1 - 1 / 2) * G.dr := by apply mul_nonneg <;> linarith
      rw [max_eq_right h0, max_eq_right]
      · ring
      · rw [abs_le]; constructor <;> nlinarith
    rw [hlo, min_eq_left (by linarith), max_eq_right]
    have h0 : (0:ℝ) ≤ ((i : ℝ) + 1 / 2) * G.dr := by apply mul_nonneg <;> linarith
    have := sq_sub_nonpos h0 (show ((i : ℝ) + 1 / 2) * G.dr ≤ r + G.dr / 2 by linarith)
    linarith
  · rw [max_eq_left, mul_zero]
    rcases lt_or_gt_of_ne e1 with h | h
    · have hb : (a : ℝ) + 1 ≤ i := by exact_mod_cast h
      apply sq_sub_nonpos
      · apply le_min <;> nlinarith
      · refine le_trans (min_le_right _ _) (le_trans ?_ (le_max_left _ _))
        refine le_trans ?_ (le_abs_self _)
        nlinarith
    · have hb : (i : ℝ) + 2 ≤ a := by
        have : i + 2 ≤ a := by omega
        exact_mod_cast this
      apply sq_sub_nonpos
      · apply le_min <;> nlinarith
      · refine le_trans (min_le_left _ _) (le_trans ?_ (le_max_right _ _))
        refine le_trans ?_ (le_max_right _ _)
        nlinarith

/-- a disc of radius `R` with `dr/2 ≤ R ≤ 3/2 dr` or `0 ≤ R ≤ dr/2` in the cells of radial nodes -/
theorem disc_big {G : Geom} (hG : G.Valid) {R : ℝ} (h1 : G.dr / 2 ≤ R) (h2 : R ≤ 3 / 2 * G.dr) {a : ℤ}
    (ha : 0 ≤ a) :
    ringOverlap 0 R (max 0 (((a : ℝ) - 1 / 2) * G.dr)) (((a : ℝ) + 1 / 2) * G.dr) =
      if a = 0 then PI * (G.dr / 2) ^ 2
      else if a = 0 + 1 then PI * (R ^ 2 - (G.dr / 2) ^ 2) else 0 := by
  have hd := hG.dr_pos
  have ha' : (0 : ℝ) ≤ a := by exact_mod_cast ha
  unfold ringOverlap
  split_ifs with e1 e2
  · subst e1
    push_cast
    rw [max_eq_left (show ((0:ℝ) - 1 / 2) * G.dr ≤ 0 by linarith), max_self,
      min_eq_right (by linarith), max_eq_right (by nlinarith)]
    ring
  · subst e2
    push_cast
    rw [max_eq_right (show (0:ℝ) ≤ ((1:ℝ) - 1 / 2) * G.dr by linarith),
      max_eq_right (show (0:ℝ) ≤ ((1:ℝ) - 1 / 2) * G.dr by linarith), min_eq_left (by linarith),
      max_eq_right (by nlinarith)]
    ring
  · rw [max_eq_left, mul_zero]
    have hb : (2 : ℝ) ≤ a := by
      have : 2 ≤ a := by omega
      exact_mod_cast this
    apply sq_sub_nonpos
    · apply le_min <;> nlinarith
    · refine le_trans (min_le_left _ _) (le_trans ?_ (le_max_right _ _))
      refine le_trans ?_ (le_max_right _ _)
      nlinarith

theorem disc_small {G : Geom} (hG : G.Valid) {R : ℝ} (h1 : 0 ≤ R) (h2 : R ≤ G.dr / 2) {a : ℤ}
    (ha : 0 ≤ a) :
    ringOverlap 0 R (max 0 (((a : ℝ) - 1 / 2) * G.dr)) (((a : ℝ) + 1 / 2) * G.dr) =
      if a = 0 then PI * R ^ 2 else 0 := by
  have hd := hG.dr_pos
  unfold ringOverlap
  split_ifs with e1
  · subst e1
    push_cast
    rw [max_eq_left (show ((0:ℝ) - 1 / 2) * G.dr ≤ 0 by linarith), max_self,
      min_eq_left (by linarith), max_eq_right (by nlinarith)]
    ring
  · rw [max_eq_left, mul_zero]
    have hb : (1 : ℝ) ≤ a := by
      have : 1 ≤ a := by omega
      exact_mod_cast this
    apply sq_sub_nonpos
    · apply le_min <;> nlinarith
    · refine le_trans (min_le_left _ _) (le_trans ?_ (le_max_right _ _))
      refine le_trans ?_ (le_max_right _ _)
      nlinarith

/-- four increments around a cell, as a function of the node -/
theorem contrib_four (i k : ℤ) (v00 v10 v01 v11 : ℝ) (a b : ℤ) :
    contrib [⟨i, k, v00⟩, ⟨i + 1, k, v10⟩, ⟨i, k + 1, v01⟩, ⟨i + 1, k + 1, v11⟩] a b =
      if a = i then (if b = k then v00 else if b = k + 1 then v01 else 0)
      else if a = i + 1 then (if b = k then v10 else if b = k + 1 then v11 else 0) else 0 := by
  simp only [contrib_cons, contrib_nil]
  by_cases e1 : a = i
  · subst e1
    by_cases e2 : b = k
    · subst e2; simp
    · simp [e2]
  · by_cases e2 : a = i + 1
    · subst e2
      by_cases e3 : b = k
      · subst e3; simp
      · simp [e3]
    · simp [e1, e2]

theorem nodeVolume_cell {G : Geom} (hG : G.Valid) {i : ℤ} (hi : 0 ≤ i) :
    nodeVolume G i = if i = 0 then CYL_VOL G.dz G.dr else CELL_VOLUME i G.dr G.dz := by
  split_ifs with h
  · rw [h]; exact nodeVolume_zero G hG
  · exact nodeVolume_pos_idx G hG (by omega)

/-- the charge put on a node by the increments of one particle -/
theorem chargeIncs_share {G : Geom} (hG : G.Valid) (q : ℝ) {r z : ℝ} (hr : 0 ≤ r) (hz : 0 ≤ z) {a : ℤ}
    (b : ℤ) (ha : 0 ≤ a) :
    contrib (chargeIncs G q r z) a b * nodeVolume G a = q * share G r z a b := by
  have hdr := hG.dr_pos
  have hdz := hG.dz_pos
  have hpi := PI_ne
  obtain ⟨z1, z2⟩ := cell_bounds hdz hz
  obtain ⟨r1, r2⟩ := cell_bounds hdr hr
  unfold share
  by_cases hfar : G.dr / 2 ≤ r
  · have hrp : 0 < r := by linarith
    have hi0 : 0 ≤ clamp0 (CELL_NUMBER r G.dr) := by unfold clamp0; split_ifs <;> omega
    have hring := ring_low hG hi0 hrp r1 r2 ha
    rw [abs_of_nonneg (by linarith)] at hring
    rw [if_pos hfar]
    unfold partInCell ringVolume
    rw [hring, overlap_low hG z1 z2 b]
    have hinc : ∃ v00 v10 v01 v11, chargeIncs G q r z =
        [⟨clamp0 (CELL_NUMBER r G.dr), clamp0 (CELL_NUMBER z G.dz), v00⟩,
         ⟨clamp0 (CELL_NUMBER r G.dr) + 1, clamp0 (CELL_NUMBER z G.dz), v10⟩,
         ⟨clamp0 (CELL_NUMBER r G.dr), clamp0 (CELL_NUMBER z G.dz) + 1, v01⟩,
         ⟨clamp0 (CELL_NUMBER r G.dr) + 1, clamp0 (CELL_NUMBER z G.dz) + 1, v11⟩] ∧
        ∃ V1 V2, V1 ≠ 0 ∧ V2 ≠ 0 ∧ nodeVolume G (clamp0 (CELL_NUMBER r G.dr)) = V1 ∧
          nodeVolume G (clamp0 (CELL_NUMBER r G.dr) + 1) = V2 ∧
          v00 = q / (2 * PI * G.dz * G.dr * r) * (PI *
            (((clamp0 (CELL_NUMBER z G.dz) : ℝ) + 1) * G.dz - z) *
            ((((clamp0 (CELL_NUMBER r G.dr) : ℝ) + 1 / 2) * G.dr) ^ 2 - (r - G.dr / 2) ^ 2)) / V1 ∧
          v10 = q / (2 * PI * G.dz * G.dr * r) * (PI *
            (((clamp0 (CELL_NUMBER z G.dz) : ℝ) + 1) * G.dz - z) *
            ((r + G.dr / 2) ^ 2 - (((clamp0 (CELL_NUMBER r G.dr) : ℝ) + 1 / 2) * G.dr) ^ 2)) / V2 ∧
          v01 = q / (2 * PI * G.dz * G.dr * r) * (PI *
            (z - (clamp0 (CELL_NUMBER z G.dz) : ℝ) * G.dz) *
            ((((clamp0 (CELL_NUMBER r G.dr) : ℝ) + 1 / 2) * G.dr) ^ 2 - (r - G.dr / 2) ^ 2)) / V1 ∧
          v11 = q / (2 * PI * G.dz * G.dr * r) * (PI *
            (z - (clamp0 (CELL_NUMBER z G.dz) : ℝ) * G.dz) *
            ((r + G.dr / 2) ^ 2 - (((clamp0 (CELL_NUMBER r G.dr) : ℝ) + 1 / 2) * G.dr) ^ 2)) / V2 := by
      by_cases h1 : r > G.dr
      · have hi := cell_ge_one hdr h1
        have hi' : (1 : ℝ) ≤ (clamp0 (CELL_NUMBER r G.dr) : ℝ) := by exact_mod_cast hi
        have e : chargeIncs G q r z = chargeIncs G q r z := rfl
        conv_rhs at e => unfold chargeIncs
        simp only [h1, if_true] at e
        refine ⟨_, _, _, _, e, _, _, ?_, ?_, nodeVolume_pos_idx G hG hi,
          nodeVolume_pos_idx G hG (by omega), ?_, ?_, ?_, ?_⟩
        · unfold CELL_VOLUME; have := PI_pos; positivity
        · unfold CELL_VOLUME; push_cast; have := PI_pos; positivity
        · unfold CYL_RNG_VOL; ring
        · unfold CYL_RNG_VOL; push_cast; ring
        · unfold CYL_RNG_VOL; ring
        · unfold CYL_RNG_VOL; push_cast; ring
      · have hi := cell_eq_zero hdr (not_lt.1 h1)
        have e1 : nodeVolume G (0 + 1) = CELL_VOLUME ((0:ℝ) + 1) G.dr G.dz := by
          have := nodeVolume_pos_idx G hG (i := 1) (by omega)
          simpa using this
        have e : chargeIncs G q r z = chargeIncs G q r z := rfl
        conv_rhs at e => unfold chargeIncs
        dsimp only at e
        rw [hi] at e ⊢
        have hP := PI_pos
        by_cases h2 : r ≤ G.dr / 2
        · have hrr : r = G.dr / 2 := le_antisymm h2 hfar
          simp only [h1, h2, if_true, if_false] at e
          refine ⟨_, _, _, _, e, _, _, ?_, ?_, nodeVolume_zero G hG, e1, ?_, ?_, ?_, ?_⟩
          · unfold CYL_VOL; positivity
          · unfold CELL_VOLUME; positivity
          all_goals
            simp only [CYL_VOL, CYL_RNG_VOL, CELL_VOLUME]
            push_cast
            rw [hrr]
            field_simp
            ring
        · simp only [h1, h2, if_false] at e
          refine ⟨_, _, _, _, e, _, _, ?_, ?_, nodeVolume_zero G hG, e1, ?_, ?_, ?_, ?_⟩
          · unfold CYL_VOL; positivity
          · unfold CELL_VOLUME; positivity
          all_goals
            unfold CYL_RNG_VOL
            push_cast
            ring
    obtain ⟨v00, v10, v01, v11, e, V1, V2, hV1, hV2, n1, n2, f1, f2, f3, f4⟩ := hinc
    rw [e, contrib_four]
    have hvol : (r + G.dr / 2) ^ 2 - (r - G.dr / 2) ^ 2 = 2 * r * G.dr := by ring
    rw [hvol]
    by_cases e1 : a = clamp0 (CELL_NUMBER r G.dr)
    · rw [if_pos e1, if_pos e1, e1, n1]
      split_ifs
      · rw [f1]; field_simp
      · rw [f3]; field_simp
      · simp
    · rw [if_neg e1, if_neg e1]
      by_cases e2 : a = clamp0 (CELL_NUMBER r G.dr) + 1
      · rw [if_pos e2, if_pos e2, e2, n2]
        split_ifs
        · rw [f2]; field_simp
        · rw [f4]; field_simp
        · simp
      · rw [if_neg e2, if_neg e2]; simp
  · have h2 : r < G.dr / 2 := not_le.1 hfar
    have h1 : ¬ r > G.dr := by intro h; linarith
    have hP := PI_pos
    rw [if_neg hfar]
    unfold partInCell ringVolume
    rw [overlap_low hG z1 z2 b, disc_big hG (by linarith) (by linarith) ha,
      disc_small hG (by linarith) (by linarith) ha]
    unfold chargeIncs
    simp only [h1, h2.le, if_true, if_false]
    rw [show (0 : ℤ) + 1 = 0 + 1 from rfl, contrib_four]
    have e1 : nodeVolume G (0 + 1) = CELL_VOLUME ((0:ℝ) + 1) G.dr G.dz := by
      have := nodeVolume_pos_idx G hG (i := 1) (by omega)
      simpa using this
    have hv : 2 * r * r + G.dr * G.dr / 2 ≠ 0 := by nlinarith [mul_pos hdr hdr, mul_self_nonneg r]
    have hv' : PI * ((r + G.dr / 2) ^ 2 - 0 ^ 2) * G.dz + PI * ((G.dr / 2 - r) ^ 2 - 0 ^ 2) * G.dz =
        PI * (2 * r * r + G.dr * G.dr / 2) * G.dz := by ring
    rw [hv']
    by_cases ea : a = 0
    · subst ea
      rw [if_pos rfl, if_pos rfl, if_pos rfl, nodeVolume_zero G hG]
      unfold CYL_VOL
      split_ifs
      · push_cast; field_simp; ring
      · push_cast; field_simp; ring
      · simp
    · rw [if_neg ea, if_neg ea, if_neg ea]
      by_cases ea1 : a = 0 + 1
      · rw [if_pos ea1, if_pos ea1, ea1, e1]
        unfold CELL_VOLUME CYL_RNG_VOL
        split_ifs
        · push_cast; field_simp; ring
        · push_cast; field_simp; ring
        · simp
      · rw [if_neg ea1, if_neg ea1]; simp

/-- Sum over the live particles of charge times share in the cell of node `(i,k)` -/
noncomputable def liveShare (G : Geom) (ps : List Particle) (i k : ℤ) : ℝ :=
  ((ps.filter (fun p => p.alive)).map fun p => p.charge * share G p.pos.c0 p.pos.c2 i k).sum

/-- **C55**. Depositing any list of particles of the closed chamber succeeds, and the charge on every node
(density times cell volume) grows by exactly the charge of the live particles times the fraction of their
volume that lies in the cell of the node. -/
theorem C55_volume_weighting (G : Geom) (hG : G.Valid) (ps : List Particle) (rho : Grid)
    (hin : ∀ p ∈ ps, p.alive = true → 0 ≤ p.pos.c0 ∧ p.pos.c0 ≤ G.r_size ∧ 0 ≤ p.pos.c2 ∧
      p.pos.c2 ≤ G.z_size) :
    ∃ rho', chargeWeighting G ps rho = some rho' ∧ ∀ i k : ℤ, InGrid G.nr G.nz i k →
      rho' i k * nodeVolume G i = rho i k * nodeVolume G i + liveShare G ps i k := by
  have hw : WithinFarWalls G ps := fun p hp ha => ⟨(hin p hp ha).2.1, (hin p hp ha).2.2.2⟩
  refine ⟨_, chargeWeighting_some G hG ps hw rho, ?_⟩
  intro i k hik
  rw [add_mul]
  congr 1
  unfold liveShare
  clear hw
  induction ps with
  | nil => simp
  | cons p ps ih =>
    rw [List.flatMap_cons, contrib_append, add_mul, ih (fun p' hp' => hin p' (by simp [hp']))]
    unfold particleIncs
    cases ha : p.alive
    · simp [ha]
    · obtain ⟨h1, -, h2, -⟩ := hin p (by simp) ha
      simp only [if_true]
      rw [chargeIncs_share hG p.charge h1 h2 k hik.1]
      simp [ha]

theorem azimuthalIncs_share {G : Geom} (hG : G.Valid) (q v : ℝ) {r z : ℝ} (hr : 0 < r) (hz : 0 ≤ z)
    {a : ℤ} (b : ℤ) (ha : 0 ≤ a) {l : List Inc} (hl : azimuthalIncs G q v r z = some l) :
    contrib l a b * nodeVolume G a = q * v * shareAzim G r z a b := by
  have hdr := hG.dr_pos
  have hdz := hG.dz_pos
  have hpi := PI_ne
  have hP := PI_pos
  obtain ⟨z1, z2⟩ := cell_bounds hdz hz
  obtain ⟨r1, r2⟩ := cell_bounds hdr hr.le
  have hi0 : 0 ≤ clamp0 (CELL_NUMBER r G.dr) := by unfold clamp0; split_ifs <;> omega
  unfold shareAzim partInCell ringVolume
  rw [ring_low hG hi0 hr r1 r2 ha, overlap_low hG z1 z2 b, sq_abs]
  have hvol : (r + G.dr / 2) ^ 2 - (r - G.dr / 2) ^ 2 = 2 * r * G.dr := by ring
  rw [hvol]
  have h0 : r ≠ 0 := hr.ne'
  unfold azimuthalIncs at hl
  by_cases h1 : r > G.dr
  · have hi := cell_ge_one hdr h1
    have hi' : (1 : ℝ) ≤ (clamp0 (CELL_NUMBER r G.dr) : ℝ) := by exact_mod_cast hi
    simp only [h0, h1, if_true, if_false, Option.some.injEq] at hl
    subst hl
    rw [contrib_four]
    have n1 := nodeVolume_pos_idx G hG hi
    have n2 := nodeVolume_pos_idx G hG (show 1 ≤ clamp0 (CELL_NUMBER r G.dr) + 1 by omega)
    push_cast at n2
    have p1 : (0:ℝ) < (clamp0 (CELL_NUMBER r G.dr) : ℝ) := by linarith
    by_cases e1 : a = clamp0 (CELL_NUMBER r G.dr)
    · rw [if_pos e1, if_pos e1, e1, n1]
      unfold CELL_VOLUME CYL_RNG_VOL
      generalize (clamp0 (CELL_NUMBER r G.dr) : ℝ) = x at *
      generalize (clamp0 (CELL_NUMBER z G.dz) : ℝ) = y at *
      split_ifs
      · field_simp; ring
      · field_simp; ring
      · simp
    · rw [if_neg e1, if_neg e1]
      by_cases e2 : a = clamp0 (CELL_NUMBER r G.dr) + 1
      · rw [if_pos e2, if_pos e2, e2, n2]
        unfold CELL_VOLUME CYL_RNG_VOL
        generalize (clamp0 (CELL_NUMBER r G.dr) : ℝ) = x at *
        generalize (clamp0 (CELL_NUMBER z G.dz) : ℝ) = y at *
        split_ifs
        · field_simp; ring
        · field_simp; ring
        · simp
      · rw [if_neg e2, if_neg e2]; simp
  · have hi := cell_eq_zero hdr (not_lt.1 h1)
    simp only [h0, h1, if_false, Option.some.injEq] at hl
    rw [hi] at hl ⊢
    subst hl
    rw [contrib_four]
    have e1' : nodeVolume G (0 + 1) = CELL_VOLUME ((0:ℝ) + 1) G.dr G.dz := by
      have := nodeVolume_pos_idx G hG (i := 1) (by omega)
      simpa using this
    by_cases e1 : a = 0
    · rw [if_pos e1, if_pos e1, e1, nodeVolume_zero G hG]
      unfold CYL_VOL CYL_RNG_VOL
      generalize (clamp0 (CELL_NUMBER z G.dz) : ℝ) = y at *
      push_cast
      split_ifs
      · field_simp; ring
      · field_simp; ring
      · simp
    · rw [if_neg e1, if_neg e1]
      by_cases e2 : a = 0 + 1
      · rw [if_pos e2, if_pos e2, e2, e1']
        unfold CELL_VOLUME CYL_RNG_VOL
        generalize (clamp0 (CELL_NUMBER z G.dz) : ℝ) = y at *
        push_cast
        split_ifs
        · field_simp; ring
        · field_simp; ring
        · simp
      · rw [if_neg e2, if_neg e2]; simp

/-- Sum over the live particles of charge, azimuthal velocity and share -/
noncomputable def liveShareAzim (G : Geom) (ps : List Particle) (i k : ℤ) : ℝ :=
  ((ps.filter (fun p => p.alive)).map fun p =>
    p.charge * p.vel.c1 * shareAzim G p.pos.c0 p.pos.c2 i k).sum

/-- **C55**. The same for the azimuthal current of particles off the axis. -/
theorem C55_azimuthal_volume_weighting (G : Geom) (hG : G.Valid) (ps : List Particle) (j : Grid)
    (hin : ∀ p ∈ ps, p.alive = true → 0 < p.pos.c0 ∧ p.pos.c0 ≤ G.r_size ∧ 0 ≤ p.pos.c2 ∧
      p.pos.c2 ≤ G.z_size) :
    ∃ j', azimuthalCurrent G ps j = some j' ∧ ∀ i k : ℤ, InGrid G.nr G.nz i k →
      j' i k * nodeVolume G i = j i k * nodeVolume G i + liveShareAzim G ps i k := by
  have hw : OffAxisWithinFarWalls G ps := fun p hp ha =>
    ⟨(hin p hp ha).1, (hin p hp ha).2.1, (hin p hp ha).2.2.2⟩
  refine ⟨_, (azimuthalCurrent_eq G ps hw j).trans (applyIncs_some (azimIncs_inGrid G hG ps hw) j), ?_⟩
  intro i k hik
  rw [add_mul]
  congr 1
  unfold liveShareAzim
  clear hw
  induction ps with
  | nil => simp
  | cons p ps ih =>
    rw [List.flatMap_cons, contrib_append, add_mul, ih (fun p' hp' => hin p' (by simp [hp']))]
    unfold azimIncsOf
    cases ha : p.alive
    · simp [ha]
    · obtain ⟨h1, -, h2, -⟩ := hin p (by simp) ha
      simp only [if_true]
      obtain ⟨l, hl⟩ : ∃ l, azimuthalIncs G p.charge p.vel.c1 p.pos.c0 p.pos.c2 = some l := by
        unfold azimuthalIncs; simp [h1.ne']
      rw [hl, Option.getD_some, azimuthalIncs_share hG _ _ h1 h2 k hik.1 hl]
      simp [ha]

/-- A concrete value: the particle at `r = 3/2`, `z = 1/4` of the 3x4 unit grid has 5/12 · 3/4 of its volume
in the cell of node `(1,0)`. -/
example : share demoGeom (3 / 2) (1 / 4) 1 0 = 5 / 16 := by
  have hpi := PI_ne
  have e1 := ring_low demoGeom_valid (r := 3 / 2) (i := 1) (by norm_num) (by norm_num)
    (by norm_num [demoGeom]) (by norm_num [demoGeom]) (a := 1) (by norm_num)
  have e2 := overlap_low demoGeom_valid (z := 1 / 4) (k := 0) (by norm_num [demoGeom])
    (by norm_num [demoGeom]) 0
  have h : demoGeom.dr / 2 ≤ (3 / 2 : ℝ) := by norm_num [demoGeom]
  rw [abs_of_nonneg (by linarith)] at e1
  unfold share partInCell ringVolume
  rw [if_pos h, e1, e2]
  norm_num [demoGeom]
  field_simp
  norm_num

end Verif
