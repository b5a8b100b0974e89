import Verif.Current
import Verif.DepositProps

/-!
# Discrete charge continuity: specification and the per-piece lemmas
-/

namespace Verif

/-! ## Specification -/

/-- Charge per unit time leaving the control volume of node `(a,b)` through its four faces:
`J_r[a][b]` lives on the outer cylindrical face (radius `(a+1/2)dr`), `J_r[a-1][b]` on the inner
one (no inner face on the axis), `J_z[a][b]`, `J_z[a][b-1]` on the two plane faces. -/
noncomputable def netOutflow (G : Geom) (jr jz : Grid) (a b : ℤ) : ℝ :=
  2 * PI * (max 0 (((a : ℝ) + 1 / 2) * G.dr)) * G.dz * jr a b
  - 2 * PI * (max 0 (((a : ℝ) - 1 / 2) * G.dr)) * G.dz * jr (a - 1) b
  + nodeVolume G a / G.dz * (jz a b - jz a (b - 1))

/-- The charge of every control volume changes exactly by what flows through its faces. -/
def Continuity (G : Geom) (dt : ℝ) (rhoOld rhoNew jr jz : Grid) : Prop :=
  ∀ a b : ℤ, 0 ≤ a →
    (rhoNew a b - rhoOld a b) * nodeVolume G a + dt * netOutflow G jr jz a b = 0

/-! ## Algebra of the continuity relation -/

theorem netOutflow_add (G : Geom) (jr jz jr' jz' : Grid) (a b : ℤ) :
    netOutflow G (fun i k => jr i k + jr' i k) (fun i k => jz i k + jz' i k) a b =
      netOutflow G jr jz a b + netOutflow G jr' jz' a b := by
  unfold netOutflow; ring

theorem netOutflow_zero (G : Geom) (a b : ℤ) :
    netOutflow G (fun _ _ => 0) (fun _ _ => 0) a b = 0 := by
  unfold netOutflow; ring

theorem Continuity.trans {G : Geom} {dt : ℝ} {A B C jr jz jr' jz' : Grid}
    (h1 : Continuity G dt A B jr jz) (h2 : Continuity G dt B C jr' jz') :
    Continuity G dt A C (fun i k => jr i k + jr' i k) (fun i k => jz i k + jz' i k) := by
  intro a b ha
  rw [netOutflow_add]
  linear_combination h1 a b ha + h2 a b ha

theorem Continuity.refl (G : Geom) (dt : ℝ) (A : Grid) :
    Continuity G dt A A (fun _ _ => 0) (fun _ _ => 0) := by
  intro a b ha
  rw [netOutflow_zero]; ring

theorem Continuity.add {G : Geom} {dt : ℝ} {A B A' B' jr jz jr' jz' : Grid}
    (h1 : Continuity G dt A B jr jz) (h2 : Continuity G dt A' B' jr' jz') :
    Continuity G dt (fun i k => A i k + A' i k) (fun i k => B i k + B' i k)
      (fun i k => jr i k + jr' i k) (fun i k => jz i k + jz' i k) := by
  intro a b ha
  rw [netOutflow_add]
  linear_combination h1 a b ha + h2 a b ha

/-! ## Weighting relative to a given cell -/

/-- Density that a charge `q` at `(r,z)` gives to the corners of cell `(i,k)`: axial weights
linear, radial weights the share of the particle ring `[r-dr/2, r+dr/2]` on either side of
`(i+1/2)dr`. -/
noncomputable def cellRho (G : Geom) (q : ℝ) (i k : ℤ) (r z : ℝ) : Grid := fun a b =>
  (if a = i then ((((i : ℝ) + 1 / 2) * G.dr) ^ 2 - (r - G.dr / 2) ^ 2) / (2 * r * G.dr)
    else if a = i + 1 then ((r + G.dr / 2) ^ 2 - (((i : ℝ) + 1 / 2) * G.dr) ^ 2) / (2 * r * G.dr)
    else 0)
  * (if b = k then ((k : ℝ) + 1) - z / G.dz else if b = k + 1 then z / G.dz - k else 0)
  * (q / nodeVolume G a)

theorem nodeVolume_pos (G : Geom) (hG : G.Valid) {a : ℤ} (ha : 0 ≤ a) : 0 < nodeVolume G a := by
  have h1 := hG.dr_pos
  have h2 := hG.dz_pos
  have h3 := PI_pos
  rcases ha.lt_or_eq with h | h
  · rw [nodeVolume_pos_idx G hG h]
    have : (0 : ℝ) < a := by exact_mod_cast h
    unfold CELL_VOLUME; positivity
  · rw [← h, nodeVolume_zero G hG]; unfold CYL_VOL; positivity

/-- Crossing a cylindrical face is seamless. -/
theorem cellRho_glue_r (G : Geom) (hG : G.Valid) (q : ℝ) (i k : ℤ) (hi : 0 ≤ i) (z : ℝ) :
    cellRho G q i k (((i : ℝ) + 1) * G.dr) z = cellRho G q (i + 1) k (((i : ℝ) + 1) * G.dr) z := by
  have h1 := hG.dr_pos
  have hi' : (0 : ℝ) ≤ i := by exact_mod_cast hi
  have hne : (i : ℝ) + 1 ≠ 0 := by linarith
  funext a b
  unfold cellRho
  congr 2
  push_cast
  by_cases e1 : a = i
  · subst e1
    rw [if_pos rfl, if_neg (by omega), if_neg (by omega)]
    field_simp; ring
  · by_cases e2 : a = i + 1
    · subst e2
      rw [if_neg (by omega), if_pos rfl, if_pos rfl]
      field_simp; ring
    · by_cases e3 : a = i + 1 + 1
      · subst e3
        rw [if_neg (by omega), if_neg (by omega), if_neg (by omega), if_pos rfl]
        field_simp; ring
      · rw [if_neg e1, if_neg e2, if_neg e2, if_neg e3]

/-- Crossing a plane face is seamless. -/
theorem cellRho_glue_z (G : Geom) (hG : G.Valid) (q : ℝ) (i k : ℤ) (r : ℝ) :
    cellRho G q i k r (((k : ℝ) + 1) * G.dz) = cellRho G q i (k + 1) r (((k : ℝ) + 1) * G.dz) := by
  have h1 := hG.dz_pos
  funext a b
  unfold cellRho
  congr 2
  push_cast
  by_cases e1 : b = k
  · subst e1
    rw [if_pos rfl, if_neg (by omega), if_neg (by omega)]
    field_simp; ring
  · by_cases e2 : b = k + 1
    · subst e2
      rw [if_neg (by omega), if_pos rfl, if_pos rfl]
      field_simp; ring
    · by_cases e3 : b = k + 1 + 1
      · subst e3
        rw [if_neg (by omega), if_neg (by omega), if_neg (by omega), if_pos rfl]
        field_simp; ring
      · rw [if_neg e1, if_neg e2, if_neg e2, if_neg e3]

/-- The code's charge deposit off the axial half cell is the cell weighting of its own cell. -/
theorem contrib_chargeIncs (G : Geom) (hG : G.Valid) (q r z : ℝ) (hr : G.dr / 2 ≤ r) :
    contrib (chargeIncs G q r z) =
      cellRho G q (clamp0 (CELL_NUMBER r G.dr)) (clamp0 (CELL_NUMBER z G.dz)) r z := by
  have hdr := hG.dr_pos
  have hdz := hG.dz_pos
  have hpi := PI_ne
  have hrp : r ≠ 0 := by linarith
  funext a b
  have e0 := nodeVolume_zero G hG
  have e1 : nodeVolume G 1 = CELL_VOLUME ((0:ℝ) + 1) G.dr G.dz := by
    have := nodeVolume_pos_idx G hG (i := 1) (by omega)
    simpa using this
  unfold chargeIncs cellRho
  by_cases h1 : r > G.dr
  · have hi := cell_ge_one hG.dr_pos h1
    simp only [h1, if_true, contrib_cons, contrib_nil]
    generalize clamp0 (CELL_NUMBER z G.dz) = k
    generalize clamp0 (CELL_NUMBER r G.dr) = i at *
    have hb : b = k ∨ b = k + 1 ∨ (b ≠ k ∧ b ≠ k + 1) := by omega
    have hi' : (1 : ℝ) ≤ i := by exact_mod_cast hi
    have hne : (i : ℝ) ≠ 0 := by linarith
    have hne1 : (i : ℝ) + 1 ≠ 0 := by linarith
    have v0 := nodeVolume_pos_idx G hG hi
    have v1 := nodeVolume_pos_idx G hG (by omega : 1 ≤ i + 1)
    have ha : a = i ∨ a = i + 1 ∨ (a ≠ i ∧ a ≠ i + 1) := by omega
    unfold CYL_RNG_VOL
    rcases ha with rfl | rfl | ⟨ha1, ha2⟩
    · rcases hb with rfl | rfl | ⟨hb1, hb2⟩
      · simp; rw [v0]; unfold CELL_VOLUME; field_simp; ring
      · simp; rw [v0]; unfold CELL_VOLUME; field_simp; ring
      · simp [hb1, hb2]
    · rcases hb with rfl | rfl | ⟨hb1, hb2⟩
      · simp; rw [v1]; unfold CELL_VOLUME; push_cast; field_simp; ring
      · simp; rw [v1]; unfold CELL_VOLUME; push_cast; field_simp; ring
      · simp [hb1, hb2]
    · simp [ha1, ha2]
  · have hi := cell_eq_zero hG.dr_pos (not_lt.1 h1)
    have ha : a = 0 ∨ a = 1 ∨ (a ≠ 0 ∧ a ≠ 1) := by omega
    by_cases h2 : r ≤ G.dr / 2
    · have hreq : r = G.dr / 2 := le_antisymm h2 hr
      simp only [h1, h2, hi, if_true, if_false, contrib_cons, contrib_nil]
      generalize clamp0 (CELL_NUMBER z G.dz) = k
      have hb : b = k ∨ b = k + 1 ∨ (b ≠ k ∧ b ≠ k + 1) := by omega
      unfold CYL_RNG_VOL
      rcases ha with rfl | rfl | ⟨ha1, ha2⟩
      · rcases hb with rfl | rfl | ⟨hb1, hb2⟩
        · simp; rw [e0, hreq]; unfold CYL_VOL; field_simp; ring
        · simp; rw [e0, hreq]; unfold CYL_VOL; field_simp; ring
        · simp [hb1, hb2]
      · rcases hb with rfl | rfl | ⟨hb1, hb2⟩
        · simp; rw [e1, hreq]; unfold CELL_VOLUME; field_simp; ring
        · simp; rw [e1, hreq]; unfold CELL_VOLUME; field_simp; ring
        · simp [hb1, hb2]
      · simp [ha1, ha2]
    · simp only [h1, h2, hi, if_false, contrib_cons, contrib_nil]
      generalize clamp0 (CELL_NUMBER z G.dz) = k
      have hb : b = k ∨ b = k + 1 ∨ (b ≠ k ∧ b ≠ k + 1) := by omega
      unfold CYL_RNG_VOL
      rcases ha with rfl | rfl | ⟨ha1, ha2⟩
      · rcases hb with rfl | rfl | ⟨hb1, hb2⟩
        · simp; rw [e0]; unfold CYL_VOL; field_simp; ring
        · simp; rw [e0]; unfold CYL_VOL; field_simp; ring
        · simp [hb1, hb2]
      · rcases hb with rfl | rfl | ⟨hb1, hb2⟩
        · simp; rw [e1]; unfold CELL_VOLUME; field_simp; ring
        · simp; rw [e1]; unfold CELL_VOLUME; field_simp; ring
        · simp [hb1, hb2]
      · simp [ha1, ha2]

end Verif
