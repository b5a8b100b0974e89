import Verif.GatherProps

/-!
# What the interpolation of the fields uses (C17, C56)

Specification: `nodeR`, `nodeZ`: position of the nodes of each field component on the staggered grid.
-/

namespace Verif

/-! ## Specification -/

/-- Radius of node `i` of a component: `E_r`, `H_phi`, `H_z` are on half-integer radii. -/
noncomputable def nodeR (G : Geom) (a : Arr) (i : ℤ) : ℝ := match a with
  | .er | .hphi | .hphih | .hz | .hzh => ((i : ℝ) + 1 / 2) * G.dr
  | _ => (i : ℝ) * G.dr

/-- Height of node `k` of a component: `E_z`, `H_r`, `H_phi` are on half-integer heights. -/
noncomputable def nodeZ (G : Geom) (a : Arr) (k : ℤ) : ℝ := match a with
  | .ez | .hr | .hrh | .hphi | .hphih => ((k : ℝ) + 1 / 2) * G.dz
  | _ => (k : ℝ) * G.dz

/-! ## Helpers -/

theorem valHalf_linear {G : Geom} (hG : G.Valid) (f : ℤ → ℤ → ℝ) (c b zs r z : ℝ)
    (hf : ∀ i k, f i k = c + b * (((k : ℝ) + zs) * G.dz)) :
    valHalf G f zs r z = weightHalf G r * (c + b * z) := by
  have h1 := hG.dr_pos.ne'
  have h2 := hG.dz_pos.ne'
  have h3 := PI_ne
  unfold valHalf weightHalf val4 CYL_RNG_VOL CELL_VOLUME
  simp only [hf]
  have hc : 0 ≤ clamp0 (CELL_NUMBER (r - 1 / 2 * G.dr) G.dr) := by unfold clamp0; split_ifs <;> omega
  have hc' : (0:ℝ) ≤ (clamp0 (CELL_NUMBER (r - 1 / 2 * G.dr) G.dr) : ℝ) := by exact_mod_cast hc
  push_cast
  generalize (clamp0 (CELL_NUMBER (r - 1 / 2 * G.dr) G.dr) : ℝ) = i at *
  generalize (clamp0 (CELL_NUMBER (z - zs * G.dz) G.dz) : ℝ) = k
  have h4 : i + 1 ≠ 0 := by linarith
  have h5 : i + 3 ≠ 0 := by linarith
  field_simp
  ring

theorem valInt_linear {G : Geom} (hG : G.Valid) (f : ℤ → ℤ → ℝ) (c b zs r z : ℝ)
    (hf : ∀ i k, f i k = c + b * (((k : ℝ) + zs) * G.dz)) :
    valInt G f zs r z = weightInt G r * (c + b * z) := by
  have h1 := hG.dr_pos.ne'
  have h2 := hG.dz_pos.ne'
  have h3 := PI_ne
  unfold valInt weightInt val4 CYL_RNG_VOL CELL_VOLUME CYL_VOL
  simp only [hf]
  have hc : 0 ≤ clamp0 (CELL_NUMBER r G.dr) := by unfold clamp0; split_ifs <;> omega
  have hc' : (0:ℝ) ≤ (clamp0 (CELL_NUMBER r G.dr) : ℝ) := by exact_mod_cast hc
  have hp := fun h => cell_pos_of_gt (x := r) hG.dr_pos h
  push_cast
  generalize (clamp0 (CELL_NUMBER r G.dr) : ℝ) = i at *
  generalize (clamp0 (CELL_NUMBER (z - zs * G.dz) G.dz) : ℝ) = k
  have h5 : i + 2 ≠ 0 := by linarith
  split_ifs with h
  · have h4 : i ≠ 0 := by have := hp h; linarith
    field_simp
    ring
  · field_simp
    ring

/-- the cell used at an integer multiple of the step -/
theorem cell_at_node {dx : ℝ} (hdx : 0 < dx) {n : ℤ} (hn : 1 ≤ n) : clamp0 (CELL_NUMBER ((n : ℝ) * dx) dx) = n - 1 := by
  have : CELL_NUMBER ((n : ℝ) * dx) dx = n - 1 := by
    apply CELL_NUMBER_unique hdx
    · push_cast; nlinarith
    · push_cast; nlinarith
  rw [this]; unfold clamp0; rw [if_neg (by omega)]

theorem cell_at_zero {dx : ℝ} (hdx : 0 < dx) : clamp0 (CELL_NUMBER 0 dx) = 0 := by
  have : CELL_NUMBER 0 dx = -1 := by
    apply CELL_NUMBER_unique hdx
    · push_cast; linarith
    · push_cast; linarith
  rw [this]; rfl

/-- four-node combination with all weight on one node -/
theorem val4_upper (f : ℤ → ℤ → ℝ) (i k : ℤ) (dz1 dz2 r1 r2 r3 v1 v2 : ℝ) :
    (dz1 = 0 → r1 = r2 → val4 f i k dz1 dz2 r1 r2 r3 v1 v2 = f (i + 1) (k + 1) * (CYL_RNG_VOL dz2 r2 r3 / v2)) ∧
    (dz2 = 0 → r1 = r2 → val4 f i k dz1 dz2 r1 r2 r3 v1 v2 = f (i + 1) k * (CYL_RNG_VOL dz1 r2 r3 / v2)) ∧
    (dz1 = 0 → r2 = r3 → val4 f i k dz1 dz2 r1 r2 r3 v1 v2 = f i (k + 1) * (CYL_RNG_VOL dz2 r1 r2 / v1)) ∧
    (dz2 = 0 → r2 = r3 → val4 f i k dz1 dz2 r1 r2 r3 v1 v2 = f i k * (CYL_RNG_VOL dz1 r1 r2 / v1)) := by
  refine ⟨?_, ?_, ?_, ?_⟩ <;> rintro rfl rfl <;> unfold val4 CYL_RNG_VOL <;> ring

theorem valHalf_node {G : Geom} (hG : G.Valid) (f : ℤ → ℤ → ℝ) (zs : ℝ) (i k : ℤ) (hi : 0 ≤ i) (hk : 0 ≤ k) :
    valHalf G f zs (((i : ℝ) + 1 / 2) * G.dr) (((k : ℝ) + zs) * G.dz) =
      weightHalf G (((i : ℝ) + 1 / 2) * G.dr) * f i k := by
  have hw := valHalf_linear hG (fun _ _ => 1) 1 0 zs (((i : ℝ) + 1 / 2) * G.dr) (((k : ℝ) + zs) * G.dz) (by simp)
  rw [zero_mul, add_zero, mul_one] at hw
  rw [← hw]
  unfold valHalf
  have e1 : ((i : ℝ) + 1 / 2) * G.dr - 1 / 2 * G.dr = (i : ℝ) * G.dr := by ring
  have e2 : ((k : ℝ) + zs) * G.dz - zs * G.dz = (k : ℝ) * G.dz := by ring
  dsimp only
  rw [e1, e2]
  rcases eq_or_lt_of_le hi with rfl | hi
  · rcases eq_or_lt_of_le hk with rfl | hk
    · rw [Int.cast_zero, zero_mul, zero_mul, cell_at_zero hG.dr_pos, cell_at_zero hG.dz_pos,
        (val4_upper f _ _ _ _ _ _ _ _ _).2.2.2 (by push_cast; ring) (by push_cast; ring),
        (val4_upper (fun _ _ => 1) _ _ _ _ _ _ _ _ _).2.2.2 (by push_cast; ring) (by push_cast; ring)]
      ring
    · rw [Int.cast_zero, zero_mul, cell_at_zero hG.dr_pos, cell_at_node hG.dz_pos hk,
        (val4_upper f _ _ _ _ _ _ _ _ _).2.2.1 (by push_cast; ring) (by push_cast; ring),
        (val4_upper (fun _ _ => 1) _ _ _ _ _ _ _ _ _).2.2.1 (by push_cast; ring) (by push_cast; ring)]
      rw [show k - 1 + 1 = k by ring]; ring
  · rcases eq_or_lt_of_le hk with rfl | hk
    · rw [Int.cast_zero, zero_mul, cell_at_node hG.dr_pos hi, cell_at_zero hG.dz_pos,
        (val4_upper f _ _ _ _ _ _ _ _ _).2.1 (by push_cast; ring) (by push_cast; ring),
        (val4_upper (fun _ _ => 1) _ _ _ _ _ _ _ _ _).2.1 (by push_cast; ring) (by push_cast; ring)]
      rw [show i - 1 + 1 = i by ring]; ring
    · rw [cell_at_node hG.dr_pos hi, cell_at_node hG.dz_pos hk,
        (val4_upper f _ _ _ _ _ _ _ _ _).1 (by push_cast; ring) (by push_cast; ring),
        (val4_upper (fun _ _ => 1) _ _ _ _ _ _ _ _ _).1 (by push_cast; ring) (by push_cast; ring)]
      rw [show k - 1 + 1 = k by ring, show i - 1 + 1 = i by ring]; ring

theorem valInt_node {G : Geom} (hG : G.Valid) (f : ℤ → ℤ → ℝ) (zs : ℝ) (i k : ℤ) (hi : 1 ≤ i) (hk : 0 ≤ k) :
    valInt G f zs ((i : ℝ) * G.dr) (((k : ℝ) + zs) * G.dz) = weightInt G ((i : ℝ) * G.dr) * f i k := by
  have hw := valInt_linear hG (fun _ _ => 1) 1 0 zs ((i : ℝ) * G.dr) (((k : ℝ) + zs) * G.dz) (by simp)
  rw [zero_mul, add_zero, mul_one] at hw
  rw [← hw]
  unfold valInt
  have e2 : ((k : ℝ) + zs) * G.dz - zs * G.dz = (k : ℝ) * G.dz := by ring
  dsimp only
  rw [e2, cell_at_node hG.dr_pos hi]
  rcases eq_or_lt_of_le hk with rfl | hk
  · rw [Int.cast_zero, zero_mul, cell_at_zero hG.dz_pos,
      (val4_upper f _ _ _ _ _ _ _ _ _).2.1 (by push_cast; ring) (by push_cast; ring),
      (val4_upper (fun _ _ => 1) _ _ _ _ _ _ _ _ _).2.1 (by push_cast; ring) (by push_cast; ring)]
    rw [show i - 1 + 1 = i by ring]; ring
  · rw [cell_at_node hG.dz_pos hk,
      (val4_upper f _ _ _ _ _ _ _ _ _).1 (by push_cast; ring) (by push_cast; ring),
      (val4_upper (fun _ _ => 1) _ _ _ _ _ _ _ _ _).1 (by push_cast; ring) (by push_cast; ring)]
    rw [show k - 1 + 1 = k by ring, show i - 1 + 1 = i by ring]; ring

theorem val4_congr {f g : ℤ → ℤ → ℝ} {i k : ℤ} (dz1 dz2 r1 r2 r3 v1 v2 : ℝ)
    (h : ∀ i' k', (i' = i ∨ i' = i + 1) → (k' = k ∨ k' = k + 1) → f i' k' = g i' k') :
    val4 f i k dz1 dz2 r1 r2 r3 v1 v2 = val4 g i k dz1 dz2 r1 r2 r3 v1 v2 := by
  unfold val4
  rw [h i k (by simp) (by simp), h (i + 1) k (by simp) (by simp), h i (k + 1) (by simp) (by simp),
    h (i + 1) (k + 1) (by simp) (by simp)]

theorem val4_nonneg {f : ℤ → ℤ → ℝ} {i k : ℤ} {dz1 dz2 r1 r2 r3 v1 v2 : ℝ}
    (h : ∀ i' k', (i' = i ∨ i' = i + 1) → (k' = k ∨ k' = k + 1) → 0 ≤ f i' k')
    (h1 : 0 ≤ dz1) (h2 : 0 ≤ dz2) (h3 : 0 ≤ r1) (h4 : r1 ≤ r2) (h5 : r2 ≤ r3) (h6 : 0 ≤ v1) (h7 : 0 ≤ v2) :
    0 ≤ val4 f i k dz1 dz2 r1 r2 r3 v1 v2 := by
  have := h i k (by simp) (by simp)
  have := h (i + 1) k (by simp) (by simp)
  have := h i (k + 1) (by simp) (by simp)
  have := h (i + 1) (k + 1) (by simp) (by simp)
  have hv : ∀ d a b : ℝ, 0 ≤ d → 0 ≤ a → a ≤ b → 0 ≤ CYL_RNG_VOL d a b := by
    intro d a b hd ha hb
    have := PI_pos
    unfold CYL_RNG_VOL
    apply mul_nonneg (by positivity)
    nlinarith
  have := hv dz1 r1 r2 h1 h3 h4
  have := hv dz1 r2 r3 h1 (h3.trans h4) h5
  have := hv dz2 r1 r2 h2 h3 h4
  have := hv dz2 r2 r3 h2 (h3.trans h4) h5
  unfold val4
  positivity

/-- nodes of the cell of a half-integer component are within a cell of the position -/
theorem near_of_cell {dx x s : ℝ} (hdx : 0 < dx) (hx : 0 ≤ x - s * dx) {n : ℤ}
    (hn : n = clamp0 (CELL_NUMBER (x - s * dx) dx) ∨ n = clamp0 (CELL_NUMBER (x - s * dx) dx) + 1) :
    |((n : ℝ) + s) * dx - x| ≤ dx := by
  obtain ⟨h1, h2⟩ := clampCell_spec hdx hx
  rw [abs_le]
  rcases hn with rfl | rfl
  · constructor <;> nlinarith
  · push_cast; constructor <;> nlinarith

theorem valHalf_congr {G : Geom} (hG : G.Valid) {f g : ℤ → ℤ → ℝ} {zs r z : ℝ} (hr : G.dr / 2 ≤ r)
    (hz : zs * G.dz ≤ z)
    (h : ∀ i k : ℤ, |((i : ℝ) + 1 / 2) * G.dr - r| ≤ G.dr → |((k : ℝ) + zs) * G.dz - z| ≤ G.dz → f i k = g i k) :
    valHalf G f zs r z = valHalf G g zs r z := by
  unfold valHalf
  apply val4_congr
  intro i k hi hk
  exact h i k (near_of_cell hG.dr_pos (by linarith) hi) (near_of_cell hG.dz_pos (by linarith) hk)

theorem valInt_congr {G : Geom} (hG : G.Valid) {f g : ℤ → ℤ → ℝ} {zs r z : ℝ} (hr : G.dr / 2 ≤ r)
    (hz : zs * G.dz ≤ z)
    (h : ∀ i k : ℤ, |(i : ℝ) * G.dr - r| ≤ G.dr → |((k : ℝ) + zs) * G.dz - z| ≤ G.dz → f i k = g i k) :
    valInt G f zs r z = valInt G g zs r z := by
  have dr := hG.dr_pos
  unfold valInt
  apply val4_congr
  intro i k hi hk
  refine h i k ?_ (near_of_cell hG.dz_pos (by linarith) hk)
  have := near_of_cell (x := r) (s := 0) (n := i) dr (by linarith) (by simpa using hi)
  simpa using this

theorem valHalf_nonneg {G : Geom} (hG : G.Valid) {f : ℤ → ℤ → ℝ} {zs r z : ℝ} (hr : G.dr / 2 ≤ r)
    (hz : zs * G.dz ≤ z)
    (h : ∀ i k : ℤ, |((i : ℝ) + 1 / 2) * G.dr - r| ≤ G.dr → |((k : ℝ) + zs) * G.dz - z| ≤ G.dz → 0 ≤ f i k) :
    0 ≤ valHalf G f zs r z := by
  have dr := hG.dr_pos
  have dz := hG.dz_pos
  have hp := PI_pos
  obtain ⟨a1, a2⟩ := clampCell_spec (x := r - 1 / 2 * G.dr) dr (by linarith)
  obtain ⟨b1, b2⟩ := clampCell_spec (x := z - zs * G.dz) dz (by linarith)
  have hc : 0 ≤ clamp0 (CELL_NUMBER (r - 1 / 2 * G.dr) G.dr) := by unfold clamp0; split_ifs <;> omega
  have hc' : (0:ℝ) ≤ (clamp0 (CELL_NUMBER (r - 1 / 2 * G.dr) G.dr) : ℝ) := by exact_mod_cast hc
  unfold valHalf
  apply val4_nonneg
  · intro i k hi hk
    exact h i k (near_of_cell dr (by linarith) hi) (near_of_cell dz (by linarith) hk)
  · linarith
  · linarith
  · linarith
  · linarith
  · linarith
  · unfold CELL_VOLUME; positivity
  · unfold CELL_VOLUME; positivity

theorem valInt_nonneg {G : Geom} (hG : G.Valid) {f : ℤ → ℤ → ℝ} {zs r z : ℝ} (hr : G.dr / 2 ≤ r)
    (hz : zs * G.dz ≤ z)
    (h : ∀ i k : ℤ, |(i : ℝ) * G.dr - r| ≤ G.dr → |((k : ℝ) + zs) * G.dz - z| ≤ G.dz → 0 ≤ f i k) :
    0 ≤ valInt G f zs r z := by
  have dr := hG.dr_pos
  have dz := hG.dz_pos
  have hp := PI_pos
  obtain ⟨a1, a2⟩ := clampCell_spec (x := r) dr (by linarith)
  obtain ⟨b1, b2⟩ := clampCell_spec (x := z - zs * G.dz) dz (by linarith)
  have hc : 0 ≤ clamp0 (CELL_NUMBER r G.dr) := by unfold clamp0; split_ifs <;> omega
  have hc' : (0:ℝ) ≤ (clamp0 (CELL_NUMBER r G.dr) : ℝ) := by exact_mod_cast hc
  unfold valInt
  apply val4_nonneg
  · intro i k hi hk
    refine h i k ?_ (near_of_cell dz (by linarith) hk)
    have := near_of_cell (x := r) (s := 0) (n := i) dr (by linarith) (by simpa using hi)
    simpa using this
  · linarith
  · linarith
  · linarith
  · linarith
  · linarith
  · split_ifs
    · unfold CELL_VOLUME; positivity
    · unfold CYL_VOL; positivity
  · unfold CELL_VOLUME; positivity

/-! ## C17, C56 -/

/-- **C17** for the interpolation functions (partial: the factors are close to 1 but not 1). Fields that are uniform
across the radius and vary linearly along the axis, each component with its own coefficients `c a + b a * z`: every
component of the result is the value of that component at the height of the particle, times a factor that depends on
the radius only and is 1 up to `5/2 * dr/r`. -/
theorem C17_get_field_partial (G : Geom) (hG : G.Valid) (hnr : 3 ≤ G.nr) (hnz : 3 ≤ G.nz) (r : ℝ)
    (hr : G.dr / 2 ≤ r) :
    ∃ er ephi ez hr hphi hz : ℝ, (∀ w ∈ [er, ephi, ez, hr, hphi, hz], |w - 1| ≤ 5 / 2 * (G.dr / r)) ∧
      ∀ (num : ℕ → ℕ) (z : ℝ), InRegion G r z → ∀ (c b : Arr → ℝ) (m : Mem PLoc),
        (∀ l : Loc, Init G l → m (.fld l) = some (c l.arr + b l.arr * nodeZ G l.arr l.k)) →
        (getE G r z).eval (PAlloc G num) m =
          some (⟨er * (c .er + b .er * z), ephi * (c .ephi + b .ephi * z), ez * (c .ez + b .ez * z)⟩, m) ∧
        (getH G r z).eval (PAlloc G num) m =
          some (⟨hr * (c .hrh + b .hrh * z), hphi * (c .hphih + b .hphih * z), hz * (c .hzh + b .hzh * z)⟩, m) := by
  refine ⟨weightHalf G r, weightInt G r, weightInt G r, weightInt G r, weightHalf G r, weightHalf G r, ?_, ?_⟩
  · intro w hw
    simp only [List.mem_cons, List.not_mem_nil, or_false] at hw
    rcases hw with rfl | rfl | rfl | rfl | rfl | rfl
    exacts [weightHalf_bound hG hr, weightInt_bound hG hr, weightInt_bound hG hr, weightInt_bound hG hr,
      weightHalf_bound hG hr, weightHalf_bound hG hr]
  · intro num z hp c b m hm
    have hR : PRep G (fun a i k => c a + b a * nodeZ G a k) m := fun l hl => hm l hl
    obtain ⟨h1, h2⟩ := gather_eval hG hnr hnz (num := num) hR hp
    rw [h1, h2]
    unfold valE valH
    rw [valHalf_linear hG _ (c .er) (b .er) 0 r z (by intros; simp [nodeZ]),
      valInt_linear hG _ (c .ephi) (b .ephi) 0 r z (by intros; simp [nodeZ]),
      valInt_linear hG _ (c .ez) (b .ez) (1 / 2) r z (by intros; simp [nodeZ]),
      valInt_linear hG _ (c .hrh) (b .hrh) (1 / 2) r z (by intros; simp [nodeZ]),
      valHalf_linear hG _ (c .hphih) (b .hphih) (1 / 2) r z (by intros; simp [nodeZ]),
      valHalf_linear hG _ (c .hzh) (b .hzh) 0 r z (by intros; simp [nodeZ])]
    exact ⟨rfl, rfl⟩

/-- **C17 is violated** for the functions themselves: all fields are 1 everywhere, yet a particle at radius 2 in a grid
of 6 x 6 nodes with unit steps sees 23/32 and 2/3. -/
theorem C17_get_field_violated (num : ℕ → ℕ) (z : ℝ) (hz : 1 / 2 ≤ z) (hz' : z ≤ 9 / 2) (m : Mem PLoc)
    (hm : ∀ l, m l = some 1) :
    (getE ⟨5, 5, 6, 6, 1, 1⟩ 2 z).eval (PAlloc ⟨5, 5, 6, 6, 1, 1⟩ num) m = some (⟨23 / 32, 2 / 3, 2 / 3⟩, m) ∧
    (getH ⟨5, 5, 6, 6, 1, 1⟩ 2 z).eval (PAlloc ⟨5, 5, 6, 6, 1, 1⟩ num) m = some (⟨2 / 3, 23 / 32, 23 / 32⟩, m) := by
  have hG : (⟨5, 5, 6, 6, 1, 1⟩ : Geom).Valid := by constructor <;> norm_num
  have hR : PRep ⟨5, 5, 6, 6, 1, 1⟩ (fun _ _ _ => 1) m := fun l _ => hm _
  obtain ⟨h1, h2⟩ := gather_eval hG (by norm_num) (by norm_num) (num := num) hR (r := 2) (z := z)
    (by unfold InRegion; norm_num at *; constructor <;> linarith)
  have c1 : CELL_NUMBER ((2:ℝ) - 1 / 2 * 1) 1 = 1 := CELL_NUMBER_unique one_pos 1 (by norm_num) (by norm_num)
  have c2 : CELL_NUMBER (2:ℝ) 1 = 1 := CELL_NUMBER_unique one_pos 1 (by norm_num) (by norm_num)
  have w1 : weightHalf ⟨5, 5, 6, 6, 1, 1⟩ 2 = 23 / 32 := by simp only [weightHalf, c1, clamp0]; norm_num
  have w2 : weightInt ⟨5, 5, 6, 6, 1, 1⟩ 2 = 2 / 3 := by simp only [weightInt, c2, clamp0]; norm_num
  rw [h1, h2]
  unfold valE valH
  simp only [valHalf_uniform hG, valInt_uniform hG, w1, w2, one_mul, and_self]

/-- **C56**, locality: the interpolated fields do not change when values at nodes further than one cell from the
particle change. -/
theorem C56_local (G : Geom) (hG : G.Valid) (hnr : 3 ≤ G.nr) (hnz : 3 ≤ G.nz) (num : ℕ → ℕ)
    (m m' : Mem PLoc) (hm : ∀ l : Loc, Init G l → (m (.fld l)).isSome ∧ (m' (.fld l)).isSome)
    (r z : ℝ) (hp : InRegion G r z)
    (near : ∀ l : Loc, |nodeR G l.arr l.i - r| ≤ G.dr → |nodeZ G l.arr l.k - z| ≤ G.dz → m (.fld l) = m' (.fld l)) :
    ∃ e h, (getE G r z).eval (PAlloc G num) m = some (e, m) ∧ (getE G r z).eval (PAlloc G num) m' = some (e, m') ∧
      (getH G r z).eval (PAlloc G num) m = some (h, m) ∧ (getH G r z).eval (PAlloc G num) m' = some (h, m') := by
  have rep : ∀ m : Mem PLoc, (∀ l : Loc, Init G l → (m (.fld l)).isSome) →
      PRep G (fun a i k => (m (.fld ⟨a, i, k⟩)).getD 0) m := by
    rintro m hm ⟨a, i, k⟩ hl
    obtain ⟨v, hv⟩ := Option.isSome_iff_exists.1 (hm _ hl)
    simp only [Fields.at, hv, Option.getD_some]
  obtain ⟨h1, h2⟩ := gather_eval hG hnr hnz (num := num) (rep m fun l hl => (hm l hl).1) hp
  obtain ⟨h3, h4⟩ := gather_eval hG hnr hnz (num := num) (rep m' fun l hl => (hm l hl).2) hp
  obtain ⟨p1, p2, p3, p4⟩ := hp
  have dz := hG.dz_pos
  have z0 : 0 * G.dz ≤ z := by linarith
  have z1 : 1 / 2 * G.dz ≤ z := by linarith
  have hE : valE G (fun a i k => (m (.fld ⟨a, i, k⟩)).getD 0) r z = valE G (fun a i k => (m' (.fld ⟨a, i, k⟩)).getD 0) r z := by
    unfold valE
    rw [valHalf_congr hG p1 z0 (g := fun i k => (m' (.fld ⟨.er, i, k⟩)).getD 0),
      valInt_congr hG p1 z0 (g := fun i k => (m' (.fld ⟨.ephi, i, k⟩)).getD 0),
      valInt_congr hG p1 z1 (g := fun i k => (m' (.fld ⟨.ez, i, k⟩)).getD 0)]
    · intro i k hi hk; beta_reduce; rw [near ⟨.ez, i, k⟩ (by simpa [nodeR] using hi) (by simpa [nodeZ] using hk)]
    · intro i k hi hk; beta_reduce; rw [near ⟨.ephi, i, k⟩ (by simpa [nodeR] using hi) (by simpa [nodeZ] using hk)]
    · intro i k hi hk; beta_reduce; rw [near ⟨.er, i, k⟩ (by simpa [nodeR] using hi) (by simpa [nodeZ] using hk)]
  have hH : valH G (fun a i k => (m (.fld ⟨a, i, k⟩)).getD 0) r z = valH G (fun a i k => (m' (.fld ⟨a, i, k⟩)).getD 0) r z := by
    unfold valH
    rw [valInt_congr hG p1 z1 (g := fun i k => (m' (.fld ⟨.hrh, i, k⟩)).getD 0),
      valHalf_congr hG p1 z1 (g := fun i k => (m' (.fld ⟨.hphih, i, k⟩)).getD 0),
      valHalf_congr hG p1 z0 (g := fun i k => (m' (.fld ⟨.hzh, i, k⟩)).getD 0)]
    · intro i k hi hk; beta_reduce; rw [near ⟨.hzh, i, k⟩ (by simpa [nodeR] using hi) (by simpa [nodeZ] using hk)]
    · intro i k hi hk; beta_reduce; rw [near ⟨.hphih, i, k⟩ (by simpa [nodeR] using hi) (by simpa [nodeZ] using hk)]
    · intro i k hi hk; beta_reduce; rw [near ⟨.hrh, i, k⟩ (by simpa [nodeR] using hi) (by simpa [nodeZ] using hk)]
  exact ⟨_, _, h1, by rw [h3, hE], h2, by rw [h4, hH]⟩

/-- The result component that belongs to an array -/
def compOf (e h : V3) : Arr → Option ℝ
  | .er => some e.c0
  | .ephi => some e.c1
  | .ez => some e.c2
  | .hrh => some h.c0
  | .hphih => some h.c1
  | .hzh => some h.c2
  | _ => none

/-- **C56**, nodes: a particle exactly at a node of a component sees the value of that node, times a factor that depends
on the radius only and is 1 up to `5/2 * dr/r`, whatever all other nodes hold. -/
theorem C56_node_value (G : Geom) (hG : G.Valid) (hnr : 3 ≤ G.nr) (hnz : 3 ≤ G.nz) (num : ℕ → ℕ)
    (m : Mem PLoc) (hm : ∀ l : Loc, Init G l → (m (.fld l)).isSome)
    (a : Arr) (ha : a ∈ [.er, .ephi, .ez, .hrh, .hphih, .hzh]) (i k : ℤ) (v : ℝ) (hv : m (.fld ⟨a, i, k⟩) = some v)
    (hp : InRegion G (nodeR G a i) (nodeZ G a k)) :
    ∃ e h w, (getE G (nodeR G a i) (nodeZ G a k)).eval (PAlloc G num) m = some (e, m) ∧
      (getH G (nodeR G a i) (nodeZ G a k)).eval (PAlloc G num) m = some (h, m) ∧
      compOf e h a = some (w * v) ∧ |w - 1| ≤ 5 / 2 * (G.dr / nodeR G a i) := by
  have hR : PRep G (fun a i k => (m (.fld ⟨a, i, k⟩)).getD 0) m := by
    rintro ⟨a, i, k⟩ hl
    obtain ⟨v, hv⟩ := Option.isSome_iff_exists.1 (hm _ hl)
    simp only [Fields.at, hv, Option.getD_some]
  obtain ⟨h1, h2⟩ := gather_eval hG hnr hnz (num := num) hR hp
  obtain ⟨p1, p2, p3, p4⟩ := hp
  have dr := hG.dr_pos
  have dz := hG.dz_pos
  have hi0 : ∀ s : ℝ, s < 1 → G.dr / 2 ≤ ((i : ℝ) + s) * G.dr → 0 ≤ i := by
    intro s hs h
    have : (-1 : ℝ) < i := by by_contra hc; push Not at hc; nlinarith
    have : (-1 : ℤ) < i := by exact_mod_cast this
    omega
  have hi1 : G.dr / 2 ≤ (i : ℝ) * G.dr → 1 ≤ i := by
    intro h
    have : (0 : ℝ) < i := by by_contra hc; push Not at hc; nlinarith
    have : (0 : ℤ) < i := by exact_mod_cast this
    omega
  have hk0 : ∀ s : ℝ, s < 1 → G.dz / 2 ≤ ((k : ℝ) + s) * G.dz → 0 ≤ k := by
    intro s hs h
    have : (-1 : ℝ) < k := by by_contra hc; push Not at hc; nlinarith
    have : (-1 : ℤ) < k := by exact_mod_cast this
    omega
  have hv' : ((m (.fld ⟨a, i, k⟩)).getD 0) = v := by rw [hv]; rfl
  have half : ∀ zs : ℝ, zs < 1 → nodeR G a i = ((i : ℝ) + 1 / 2) * G.dr → nodeZ G a k = ((k : ℝ) + zs) * G.dz →
      valHalf G (fun i k => (m (.fld ⟨a, i, k⟩)).getD 0) zs (nodeR G a i) (nodeZ G a k) =
        weightHalf G (nodeR G a i) * v := by
    intro zs hzs e1 e2
    rw [e1] at p1 ⊢
    rw [e2] at p3 ⊢
    rw [valHalf_node hG _ zs i k (hi0 _ (by norm_num) p1) (hk0 _ hzs p3), hv']
  have int : ∀ zs : ℝ, zs < 1 → nodeR G a i = (i : ℝ) * G.dr → nodeZ G a k = ((k : ℝ) + zs) * G.dz →
      valInt G (fun i k => (m (.fld ⟨a, i, k⟩)).getD 0) zs (nodeR G a i) (nodeZ G a k) =
        weightInt G (nodeR G a i) * v := by
    intro zs hzs e1 e2
    rw [e1] at p1 ⊢
    rw [e2] at p3 ⊢
    rw [valInt_node hG _ zs i k (hi1 p1) (hk0 _ hzs p3), hv']
  simp only [List.mem_cons, List.not_mem_nil, or_false] at ha
  rcases ha with rfl | rfl | rfl | rfl | rfl | rfl
  · refine ⟨_, _, weightHalf G _, h1, h2, ?_, weightHalf_bound hG p1⟩
    rw [← half 0 (by norm_num) rfl (by simp [nodeZ])]; rfl
  · refine ⟨_, _, weightInt G _, h1, h2, ?_, weightInt_bound hG p1⟩
    rw [← int 0 (by norm_num) rfl (by simp [nodeZ])]; rfl
  · refine ⟨_, _, weightInt G _, h1, h2, ?_, weightInt_bound hG p1⟩
    rw [← int (1 / 2) (by norm_num) rfl (by simp [nodeZ])]; rfl
  · refine ⟨_, _, weightInt G _, h1, h2, ?_, weightInt_bound hG p1⟩
    rw [← int (1 / 2) (by norm_num) rfl (by simp [nodeZ])]; rfl
  · refine ⟨_, _, weightHalf G _, h1, h2, ?_, weightHalf_bound hG p1⟩
    rw [← half (1 / 2) (by norm_num) rfl (by simp [nodeZ])]; rfl
  · refine ⟨_, _, weightHalf G _, h1, h2, ?_, weightHalf_bound hG p1⟩
    rw [← half 0 (by norm_num) rfl (by simp [nodeZ])]; rfl

/-- **C56**, sign: fields that are nowhere negative near the particle are not interpolated to negative values. -/
theorem C56_nonneg (G : Geom) (hG : G.Valid) (hnr : 3 ≤ G.nr) (hnz : 3 ≤ G.nz) (num : ℕ → ℕ)
    (m : Mem PLoc) (hm : ∀ l : Loc, Init G l → (m (.fld l)).isSome) (r z : ℝ) (hp : InRegion G r z)
    (pos : ∀ (l : Loc) v, |nodeR G l.arr l.i - r| ≤ G.dr → |nodeZ G l.arr l.k - z| ≤ G.dz →
      m (.fld l) = some v → 0 ≤ v) :
    ∃ e h, (getE G r z).eval (PAlloc G num) m = some (e, m) ∧ (getH G r z).eval (PAlloc G num) m = some (h, m) ∧
      0 ≤ e.c0 ∧ 0 ≤ e.c1 ∧ 0 ≤ e.c2 ∧ 0 ≤ h.c0 ∧ 0 ≤ h.c1 ∧ 0 ≤ h.c2 := by
  have hR : PRep G (fun a i k => (m (.fld ⟨a, i, k⟩)).getD 0) m := by
    rintro ⟨a, i, k⟩ hl
    obtain ⟨v, hv⟩ := Option.isSome_iff_exists.1 (hm _ hl)
    simp only [Fields.at, hv, Option.getD_some]
  obtain ⟨h1, h2⟩ := gather_eval hG hnr hnz (num := num) hR hp
  obtain ⟨p1, p2, p3, p4⟩ := hp
  have dz := hG.dz_pos
  have z0 : 0 * G.dz ≤ z := by linarith
  have z1 : 1 / 2 * G.dz ≤ z := by linarith
  have pos' : ∀ l : Loc, |nodeR G l.arr l.i - r| ≤ G.dr → |nodeZ G l.arr l.k - z| ≤ G.dz → 0 ≤ (m (.fld l)).getD 0 := by
    intro l hl hl'
    cases hv : m (.fld l) with
    | none => simp
    | some v => exact pos l v hl hl' hv
  have hh : ∀ (a : Arr) (zs : ℝ), zs * G.dz ≤ z → (∀ i, nodeR G a i = ((i : ℝ) + 1 / 2) * G.dr) →
      (∀ k, nodeZ G a k = ((k : ℝ) + zs) * G.dz) → 0 ≤ valHalf G (fun i k => (m (.fld ⟨a, i, k⟩)).getD 0) zs r z := by
    intro a zs hz e1 e2
    refine valHalf_nonneg hG p1 hz ?_
    intro i k hi hk
    exact pos' ⟨a, i, k⟩ (by rw [e1]; exact hi) (by rw [e2]; exact hk)
  have hi : ∀ (a : Arr) (zs : ℝ), zs * G.dz ≤ z → (∀ i, nodeR G a i = (i : ℝ) * G.dr) →
      (∀ k, nodeZ G a k = ((k : ℝ) + zs) * G.dz) → 0 ≤ valInt G (fun i k => (m (.fld ⟨a, i, k⟩)).getD 0) zs r z := by
    intro a zs hz e1 e2
    refine valInt_nonneg hG p1 hz ?_
    intro i k hi hk
    exact pos' ⟨a, i, k⟩ (by rw [e1]; exact hi) (by rw [e2]; exact hk)
  have a1 := hh .er 0 z0 (fun _ => rfl) (fun _ => by simp [nodeZ])
  have a2 := hi .ephi 0 z0 (fun _ => rfl) (fun _ => by simp [nodeZ])
  have a3 := hi .ez (1 / 2) z1 (fun _ => rfl) (fun _ => by simp [nodeZ])
  have a4 := hi .hrh (1 / 2) z1 (fun _ => rfl) (fun _ => by simp [nodeZ])
  have a5 := hh .hphih (1 / 2) z1 (fun _ => rfl) (fun _ => by simp [nodeZ])
  have a6 := hh .hzh 0 z0 (fun _ => rfl) (fun _ => by simp [nodeZ])
  exact ⟨_, _, h1, h2, a1, a2, a3, a4, a5, a6⟩

/-! ## Concrete cases -/

/-- C17: fields with a different slope in every component, at an inner point of a 3 x 4 grid. -/
example : InRegion demoGeom (3 / 2) (3 / 2) ∧ ∃ (c b : Arr → ℝ) (m : Mem PLoc),
    (∀ l : Loc, Init demoGeom l → m (.fld l) = some (c l.arr + b l.arr * nodeZ demoGeom l.arr l.k)) ∧
    b .er = 1 ∧ b .ez = -2 ∧ c .hzh = 7 :=
  ⟨by unfold InRegion demoGeom; norm_num, fun a => if a = .hzh then 7 else 3,
    fun a => if a = .er then 1 else -2, fun l => match l with
      | .fld l => some ((if l.arr = .hzh then 7 else 3) + (if l.arr = .er then 1 else -2) * nodeZ demoGeom l.arr l.k)
      | _ => none, by intro l _; rfl, by simp, by simp, by simp⟩

/-- C56: an inner node of `E_z` (radius 1, height 3/2) with distinct values everywhere. -/
example : InRegion demoGeom (nodeR demoGeom .ez 1) (nodeZ demoGeom .ez 1) ∧
    ∃ e : V3, ∃ w : ℝ, (getE demoGeom 1 (3 / 2)).eval (PAlloc demoGeom (fun _ => 1)) (fun l => match l with
        | .fld l => some ((l.i : ℝ) + 10 * l.k) | _ => none) = some (e, fun l => match l with
        | .fld l => some ((l.i : ℝ) + 10 * l.k) | _ => none) ∧ e.c2 = w * 11 := by
  have e1 : nodeR demoGeom .ez 1 = 1 := by simp [nodeR, demoGeom]
  have e2 : nodeZ demoGeom .ez 1 = 3 / 2 := by simp [nodeZ, demoGeom]; norm_num
  have hp : InRegion demoGeom (nodeR demoGeom .ez 1) (nodeZ demoGeom .ez 1) := by
    rw [e1, e2]; unfold InRegion demoGeom; norm_num
  refine ⟨hp, ?_⟩
  obtain ⟨e, h, w, h1, -, h3, -⟩ := C56_node_value demoGeom demoGeom_valid (by norm_num [demoGeom])
    (by norm_num [demoGeom]) (fun _ => 1) (fun l => match l with
        | .fld l => some ((l.i : ℝ) + 10 * l.k) | _ => none) (fun _ _ => rfl) .ez (by simp) 1 1 11
      (by norm_num) hp
  rw [e1, e2] at h1
  simp only [compOf, Option.some.injEq] at h3
  exact ⟨e, w, h1, h3⟩

end Verif
