import Verif.Gather
import Verif.DepositProps

/-!
# Properties of field interpolation (C16, C17)
-/

namespace Verif

/-! ## C16: valid reads -/

/-- **C16**. At every position at least half a cell away from all walls both interpolations run
without reading an element outside its array or one that was never written (and without dividing
by zero), whatever the field values are; the result is determined by the staggered nodes. The grid
must have at least 3 nodes per direction. -/
theorem C16_gather_reads_valid (G : Geom) (hG : G.Valid) (hnr : 3 ≤ G.nr) (hnz : 3 ≤ G.nz)
    (num : ℕ → ℕ) (m : Mem PLoc) (hm : ∀ l : Loc, Init G l → (m (.fld l)).isSome) (r z : ℝ)
    (hp : InRegion G r z) :
    (∃ e, (getE G r z).eval (PAlloc G num) m = some (e, m)) ∧
    ∃ h, (getH G r z).eval (PAlloc G num) m = some (h, m) := by
  have hR : PRep G (fun a i k => (m (.fld ⟨a, i, k⟩)).getD 0) m := by
    rintro ⟨a, i, k⟩ hl
    obtain ⟨v, hv⟩ := Option.isSome_iff_exists.1 (hm _ hl)
    simp only [Fields.at, hv, Option.getD_some]
  obtain ⟨h1, h2⟩ := gather_eval hG hnr hnz (num := num) hR hp
  exact ⟨⟨_, h1⟩, ⟨_, h2⟩⟩

theorem gather4_none {G : Geom} {num : ℕ → ℕ} {m : Mem PLoc}
    (a : Arr) (i k : ℤ) (dz1 dz2 r1 r2 r3 vol_1 vol_2 : ℝ) (h : ¬ Alloc G ⟨a, i + 1, k⟩) :
    (gather4 a i k dz1 dz2 r1 r2 r3 vol_1 vol_2).eval (PAlloc G num) m = none := by
  unfold gather4
  split_ifs
  · simp only [abort, Prog.rd, Prog.bind_eq, Prog.bind_load, Prog.bind_ret, Prog.pure_eq, Prog.eval]
    cases m .exit <;> simp [PAlloc]
  · simp only [Prog.rd, Prog.bind_eq, Prog.bind_load, Prog.bind_ret, Prog.eval]
    have : ¬ PAlloc G num (.fld ⟨a, i + 1, k⟩) := h
    cases m (.fld ⟨a, i, k⟩) with
    | none => rfl
    | some v =>
      dsimp only
      split_ifs
      · cases m (.fld ⟨a, i + 1, k⟩) with
        | none => rfl
        | some v => simp
      · rfl

/-- The bound is sharp: closer than half a cell to the outer wall the magnetic interpolation always
leaves the array, whatever memory holds. -/
theorem C16_gather_outside_faults (G : Geom) (hG : G.Valid) (num : ℕ → ℕ) (m : Mem PLoc) (r z : ℝ)
    (hr : G.r_size - G.dr / 2 < r) : (getH G r z).eval (PAlloc G num) m = none := by
  have key : (gatherHalf G .hzh 0 r z).eval (PAlloc G num) m = none := by
    unfold gatherHalf
    apply gather4_none
    have h := (CELL_NUMBER_spec (x := r - 1 / 2 * G.dr) hG.dr_pos).2
    rw [hG.r_size_eq] at hr
    have h1 : ((G.nr : ℤ) - 2 : ℝ) < (CELL_NUMBER (r - 1 / 2 * G.dr) G.dr : ℝ) + 1 := by
      by_contra hcon
      push Not at hcon
      have := hG.dr_pos
      push_cast at hcon
      nlinarith
    have h2 : (G.nr : ℤ) - 2 < CELL_NUMBER (r - 1 / 2 * G.dr) G.dr + 1 := by exact_mod_cast h1
    have n1 := hG.nr_ge
    unfold clamp0 Alloc
    simp only [Arr.rows]
    split_ifs <;> omega
  unfold getH
  rw [Prog.bind_eq, Prog.eval_bind, key]; rfl

/-! ## C17: uniform fields -/

/-- `C17` holds for a component at `(r,z)` if a uniform field is reproduced. -/
def Reproduces (gather : Geom → (ℤ → ℤ → ℝ) → ℝ → ℝ → ℝ → ℝ) (G : Geom) (zs r z : ℝ) : Prop :=
  ∀ c : ℝ, gather G (fun _ _ => c) zs r z = c

/-- total weight of the two radial neighbours, half-integer radii -/
noncomputable def weightHalf (G : Geom) (r : ℝ) : ℝ :=
  let i : ℝ := clamp0 (CELL_NUMBER (r - 1 / 2 * G.dr) G.dr)
  ((((i + 1) * G.dr) ^ 2 - (r - G.dr / 2) ^ 2) / (i + 1)
    + ((r + G.dr / 2) ^ 2 - ((i + 1) * G.dr) ^ 2) / (i + 3)) / (2 * G.dr ^ 2)

/-- total weight of the two radial neighbours, integer radii -/
noncomputable def weightInt (G : Geom) (r : ℝ) : ℝ :=
  let i : ℝ := clamp0 (CELL_NUMBER r G.dr)
  (if r > G.dr then (((i + 1 / 2) * G.dr) ^ 2 - (r - G.dr / 2) ^ 2) / (2 * G.dr ^ 2 * i)
    else 4 * (((i + 1 / 2) * G.dr) ^ 2 - (r - G.dr / 2) ^ 2) / G.dr ^ 2)
    + ((r + G.dr / 2) ^ 2 - ((i + 1 / 2) * G.dr) ^ 2) / (2 * G.dr ^ 2 * (i + 2))

theorem valHalf_uniform {G : Geom} (hG : G.Valid) (c zs r z : ℝ) :
    valHalf G (fun _ _ => c) zs r z = c * weightHalf G r := by
  have h1 := hG.dr_pos.ne'
  have h2 := hG.dz_pos.ne'
  have h3 := PI_ne
  unfold valHalf weightHalf val4 CYL_RNG_VOL CELL_VOLUME
  have hc : 0 ≤ clamp0 (CELL_NUMBER (r - 1 / 2 * G.dr) G.dr) := by unfold clamp0; split_ifs <;> omega
  have hc' : (0:ℝ) ≤ (clamp0 (CELL_NUMBER (r - 1 / 2 * G.dr) G.dr) : ℝ) := by exact_mod_cast hc
  dsimp only
  generalize (clamp0 (CELL_NUMBER (r - 1 / 2 * G.dr) G.dr) : ℝ) = i at *
  generalize (clamp0 (CELL_NUMBER (z - zs * G.dz) G.dz) : ℝ) = k
  have h4 : i + 1 ≠ 0 := by linarith
  have h5 : i + 3 ≠ 0 := by linarith
  field_simp
  ring

theorem cell_pos_of_gt {x dx : ℝ} (hdx : 0 < dx) (h : x > dx) :
    (1:ℝ) ≤ (clamp0 (CELL_NUMBER x dx) : ℝ) := by
  have h2 := (CELL_NUMBER_spec (x := x) hdx).2
  have h1 : (0:ℝ) < CELL_NUMBER x dx := by
    by_contra hcon
    push Not at hcon
    nlinarith
  have h3 : 0 < CELL_NUMBER x dx := by exact_mod_cast h1
  unfold clamp0
  rw [if_neg (by omega)]
  exact_mod_cast h3

theorem valInt_uniform {G : Geom} (hG : G.Valid) (c zs r z : ℝ) :
    valInt G (fun _ _ => c) zs r z = c * weightInt G r := by
  have h1 := hG.dr_pos.ne'
  have h2 := hG.dz_pos.ne'
  have h3 := PI_ne
  unfold valInt weightInt val4 CYL_RNG_VOL CELL_VOLUME CYL_VOL
  have hc : 0 ≤ clamp0 (CELL_NUMBER r G.dr) := by unfold clamp0; split_ifs <;> omega
  have hc' : (0:ℝ) ≤ (clamp0 (CELL_NUMBER r G.dr) : ℝ) := by exact_mod_cast hc
  have hp := fun h => cell_pos_of_gt (x := r) hG.dr_pos h
  dsimp only
  generalize (clamp0 (CELL_NUMBER r G.dr) : ℝ) = i at *
  generalize (clamp0 (CELL_NUMBER (z - zs * G.dz) G.dz) : ℝ) = k
  have h5 : i + 2 ≠ 0 := by linarith
  split_ifs with h
  · have h4 : i ≠ 0 := by have := hp h; linarith
    field_simp
    ring
  · field_simp
    ring

theorem weightHalf_bound {G : Geom} (hG : G.Valid) {r : ℝ} (hr : G.dr / 2 ≤ r) :
    |weightHalf G r - 1| ≤ 5 / 2 * (G.dr / r) := by
  have dr := hG.dr_pos
  have rp : 0 < r := by linarith
  obtain ⟨b1, b2⟩ := clampCell_spec (x := r - 1 / 2 * G.dr) dr (by linarith)
  have hc : 0 ≤ clamp0 (CELL_NUMBER (r - 1 / 2 * G.dr) G.dr) := by unfold clamp0; split_ifs <;> omega
  have hc' : (0:ℝ) ≤ (clamp0 (CELL_NUMBER (r - 1 / 2 * G.dr) G.dr) : ℝ) := by exact_mod_cast hc
  unfold weightHalf
  dsimp only
  generalize (clamp0 (CELL_NUMBER (r - 1 / 2 * G.dr) G.dr) : ℝ) = i at *
  obtain ⟨x, rfl⟩ : ∃ x, r = x * G.dr := ⟨r / G.dr, by field_simp⟩
  have xp : 0 < x := by
    by_contra h; push Not at h; nlinarith
  have c1 : i ≤ x - 1 / 2 := by
    by_contra h; push Not at h; nlinarith
  have c2 : x - 1 / 2 ≤ i + 1 := by
    by_contra h; push Not at h; nlinarith
  have e : ((((i + 1) * G.dr) ^ 2 - (x * G.dr - G.dr / 2) ^ 2) / (i + 1)
    + ((x * G.dr + G.dr / 2) ^ 2 - ((i + 1) * G.dr) ^ 2) / (i + 3)) / (2 * G.dr ^ 2) =
    (((i + 1) ^ 2 - (x - 1 / 2) ^ 2) / (i + 1) + ((x + 1 / 2) ^ 2 - (i + 1) ^ 2) / (i + 3)) / 2 := by
    have := dr.ne'
    field_simp
  have e2 : G.dr / (x * G.dr) = 1 / x := by have := dr.ne'; field_simp
  rw [e, e2]
  have p1 : 0 < i + 1 := by linarith
  have p3 : 0 < i + 3 := by linarith
  have q1 : 0 ≤ (i + 1) ^ 2 - (x - 1 / 2) ^ 2 := by nlinarith
  have q2 : 0 ≤ (x + 1 / 2) ^ 2 - (i + 1) ^ 2 := by nlinarith
  have up : (((i + 1) ^ 2 - (x - 1 / 2) ^ 2) / (i + 1) + ((x + 1 / 2) ^ 2 - (i + 1) ^ 2) / (i + 3)) / 2
      ≤ x / (i + 1) := by
    have : ((x + 1 / 2) ^ 2 - (i + 1) ^ 2) / (i + 3) ≤ ((x + 1 / 2) ^ 2 - (i + 1) ^ 2) / (i + 1) :=
      div_le_div_of_nonneg_left q2 p1 (by linarith)
    have h : ((i + 1) ^ 2 - (x - 1 / 2) ^ 2) / (i + 1) + ((x + 1 / 2) ^ 2 - (i + 1) ^ 2) / (i + 1)
        = 2 * (x / (i + 1)) := by field_simp; ring
    linarith
  have low : x / (i + 3) ≤
      (((i + 1) ^ 2 - (x - 1 / 2) ^ 2) / (i + 1) + ((x + 1 / 2) ^ 2 - (i + 1) ^ 2) / (i + 3)) / 2 := by
    have : ((i + 1) ^ 2 - (x - 1 / 2) ^ 2) / (i + 3) ≤ ((i + 1) ^ 2 - (x - 1 / 2) ^ 2) / (i + 1) :=
      div_le_div_of_nonneg_left q1 p1 (by linarith)
    have h : ((i + 1) ^ 2 - (x - 1 / 2) ^ 2) / (i + 3) + ((x + 1 / 2) ^ 2 - (i + 1) ^ 2) / (i + 3)
        = 2 * (x / (i + 3)) := by field_simp; ring
    linarith
  rw [abs_le]
  constructor
  · have : 1 - 5 / 2 * (1 / x) ≤ x / (i + 3) := by
      rw [le_div_iff₀ p3]
      have : (1 - 5 / 2 * (1 / x)) * (i + 3) = (i + 3) - 5 / 2 * (i + 3) / x := by ring
      rw [this]
      have h2 : i + 3 - x ≤ 5 / 2 * (i + 3) / x := by
        rw [le_div_iff₀ xp]; nlinarith
      linarith
    linarith
  · have : x / (i + 1) ≤ 1 + 5 / 2 * (1 / x) := by
      rw [div_le_iff₀ p1]
      have : (1 + 5 / 2 * (1 / x)) * (i + 1) = (i + 1) + 5 / 2 * (i + 1) / x := by ring
      rw [this]
      have h2 : x - i - 1 ≤ 5 / 2 * (i + 1) / x := by
        rw [le_div_iff₀ xp]; nlinarith
      linarith
    linarith

theorem weightInt_bound {G : Geom} (hG : G.Valid) {r : ℝ} (hr : G.dr / 2 ≤ r) :
    |weightInt G r - 1| ≤ 5 / 2 * (G.dr / r) := by
  have dr := hG.dr_pos
  have rp : 0 < r := by linarith
  obtain ⟨b1, b2⟩ := clampCell_spec (x := r) dr (by linarith)
  have hc : 0 ≤ clamp0 (CELL_NUMBER r G.dr) := by unfold clamp0; split_ifs <;> omega
  have hc' : (0:ℝ) ≤ (clamp0 (CELL_NUMBER r G.dr) : ℝ) := by exact_mod_cast hc
  have hp := fun h => cell_pos_of_gt (x := r) hG.dr_pos h
  have hz : ¬ r > G.dr → clamp0 (CELL_NUMBER r G.dr) = 0 := by
    intro h
    push Not at h
    have := (clampCell_bounds (x := r) dr (n := 1) le_rfl (by simpa using h)).2
    omega
  unfold weightInt
  dsimp only
  obtain ⟨x, rfl⟩ : ∃ x, r = x * G.dr := ⟨r / G.dr, by field_simp⟩
  have xh : 1 / 2 ≤ x := by
    by_contra h; push Not at h; nlinarith
  have xp : 0 < x := by linarith
  have e2 : G.dr / (x * G.dr) = 1 / x := by have := dr.ne'; field_simp
  rw [e2]
  split_ifs with h
  · have i1 := hp h
    generalize (clamp0 (CELL_NUMBER (x * G.dr) G.dr) : ℝ) = i at *
    have c1 : i ≤ x := by
      by_contra h; push Not at h; nlinarith
    have c2 : x ≤ i + 1 := by
      by_contra h; push Not at h; nlinarith
    have e : (((i + 1 / 2) * G.dr) ^ 2 - (x * G.dr - G.dr / 2) ^ 2) / (2 * G.dr ^ 2 * i)
      + ((x * G.dr + G.dr / 2) ^ 2 - ((i + 1 / 2) * G.dr) ^ 2) / (2 * G.dr ^ 2 * (i + 2)) =
      (((i + 1 / 2) ^ 2 - (x - 1 / 2) ^ 2) / i + ((x + 1 / 2) ^ 2 - (i + 1 / 2) ^ 2) / (i + 2)) / 2 := by
      have := dr.ne'
      have : i ≠ 0 := by linarith
      field_simp
    rw [e]
    have p1 : 0 < i := by linarith
    have p3 : 0 < i + 2 := by linarith
    have q1 : 0 ≤ (i + 1 / 2) ^ 2 - (x - 1 / 2) ^ 2 := by nlinarith
    have q2 : 0 ≤ (x + 1 / 2) ^ 2 - (i + 1 / 2) ^ 2 := by nlinarith
    have up : (((i + 1 / 2) ^ 2 - (x - 1 / 2) ^ 2) / i + ((x + 1 / 2) ^ 2 - (i + 1 / 2) ^ 2) / (i + 2)) / 2
        ≤ x / i := by
      have : ((x + 1 / 2) ^ 2 - (i + 1 / 2) ^ 2) / (i + 2) ≤ ((x + 1 / 2) ^ 2 - (i + 1 / 2) ^ 2) / i :=
        div_le_div_of_nonneg_left q2 p1 (by linarith)
      have h : ((i + 1 / 2) ^ 2 - (x - 1 / 2) ^ 2) / i + ((x + 1 / 2) ^ 2 - (i + 1 / 2) ^ 2) / i
          = 2 * (x / i) := by field_simp; ring
      linarith
    have low : x / (i + 2) ≤
        (((i + 1 / 2) ^ 2 - (x - 1 / 2) ^ 2) / i + ((x + 1 / 2) ^ 2 - (i + 1 / 2) ^ 2) / (i + 2)) / 2 := by
      have : ((i + 1 / 2) ^ 2 - (x - 1 / 2) ^ 2) / (i + 2) ≤ ((i + 1 / 2) ^ 2 - (x - 1 / 2) ^ 2) / i :=
        div_le_div_of_nonneg_left q1 p1 (by linarith)
      have h : ((i + 1 / 2) ^ 2 - (x - 1 / 2) ^ 2) / (i + 2) + ((x + 1 / 2) ^ 2 - (i + 1 / 2) ^ 2) / (i + 2)
          = 2 * (x / (i + 2)) := by field_simp; ring
      linarith
    rw [abs_le]
    constructor
    · have : 1 - 5 / 2 * (1 / x) ≤ x / (i + 2) := by
        rw [le_div_iff₀ p3]
        have : (1 - 5 / 2 * (1 / x)) * (i + 2) = (i + 2) - 5 / 2 * (i + 2) / x := by ring
        rw [this]
        have h2 : i + 2 - x ≤ 5 / 2 * (i + 2) / x := by
          rw [le_div_iff₀ xp]; nlinarith
        linarith
      linarith
    · have : x / i ≤ 1 + 5 / 2 * (1 / x) := by
        rw [div_le_iff₀ p1]
        have : (1 + 5 / 2 * (1 / x)) * i = i + 5 / 2 * i / x := by ring
        rw [this]
        have h2 : x - i ≤ 5 / 2 * i / x := by
          rw [le_div_iff₀ xp]; nlinarith
        linarith
      linarith
  · have h0 : (clamp0 (CELL_NUMBER (x * G.dr) G.dr) : ℝ) = 0 := by exact_mod_cast hz h
    rw [h0] at b2 ⊢
    have c2 : x ≤ 1 := by
      by_contra h; push Not at h; nlinarith
    have e : 4 * (((0 + 1 / 2) * G.dr) ^ 2 - (x * G.dr - G.dr / 2) ^ 2) / G.dr ^ 2
        + ((x * G.dr + G.dr / 2) ^ 2 - ((0 + 1 / 2) * G.dr) ^ 2) / (2 * G.dr ^ 2 * (0 + 2)) =
        4 * (x - x ^ 2) + (x ^ 2 + x) / 4 := by
      have := dr.ne'
      field_simp
      ring
    rw [e]
    have hx : (1:ℝ) ≤ 1 / x := by rw [le_div_iff₀ xp]; linarith
    rw [abs_le]
    constructor <;> nlinarith

/-- **C17** (partial: the interpolated value of a uniform field is the field times a factor that
depends on the radius only and tends to 1 away from the axis; it is not exactly 1, see
`C17_uniform_field_violated`). -/
theorem C17_uniform_field_partial (G : Geom) (hG : G.Valid) (c zs r z : ℝ) (hr : G.dr / 2 ≤ r) :
    |valHalf G (fun _ _ => c) zs r z - c| ≤ |c| * (5 / 2 * (G.dr / r)) ∧
    |valInt G (fun _ _ => c) zs r z - c| ≤ |c| * (5 / 2 * (G.dr / r)) ∧
    (∀ z', valHalf G (fun _ _ => c) zs r z' = valHalf G (fun _ _ => c) zs r z) ∧
    ∀ z', valInt G (fun _ _ => c) zs r z' = valInt G (fun _ _ => c) zs r z := by
  refine ⟨?_, ?_, ?_, ?_⟩
  · rw [valHalf_uniform hG, show c * weightHalf G r - c = c * (weightHalf G r - 1) by ring, abs_mul]
    exact mul_le_mul_of_nonneg_left (weightHalf_bound hG hr) (abs_nonneg c)
  · rw [valInt_uniform hG, show c * weightInt G r - c = c * (weightInt G r - 1) by ring, abs_mul]
    exact mul_le_mul_of_nonneg_left (weightInt_bound hG hr) (abs_nonneg c)
  · intro z'; rw [valHalf_uniform hG, valHalf_uniform hG]
  · intro z'; rw [valInt_uniform hG, valInt_uniform hG]

/-- **C17** for the interpolation functions themselves: linear in the field values, so the field of
two superposed sources is the sum of the interpolated fields. -/
theorem C17_linear (G : Geom) (f g : ℤ → ℤ → ℝ) (x y zs r z : ℝ) :
    valHalf G (fun i k => x * f i k + y * g i k) zs r z =
      x * valHalf G f zs r z + y * valHalf G g zs r z ∧
    valInt G (fun i k => x * f i k + y * g i k) zs r z =
      x * valInt G f zs r z + y * valInt G g zs r z := by
  constructor
  · unfold valHalf val4; ring
  · unfold valInt val4; ring

/-- **C17 is violated** for all six components: in the middle of a 6 x 6 grid of unit cells (radius
2, height 2, well inside the region) a uniform field 1 is interpolated as 23/32 (half-integer
radii) or 2/3 (integer radii). -/
theorem C17_uniform_field_violated : ∃ G : Geom, G.Valid ∧ InRegion G 2 2 ∧
    ∀ zs : ℝ, ¬ Reproduces valHalf G zs 2 2 ∧ ¬ Reproduces valInt G zs 2 2 := by
  refine ⟨⟨5, 5, 6, 6, 1, 1⟩, by constructor <;> norm_num, by unfold InRegion; norm_num, ?_⟩
  have hG : (⟨5, 5, 6, 6, 1, 1⟩ : Geom).Valid := by constructor <;> norm_num
  intro zs
  constructor
  · intro h
    have h1 := h 1
    rw [valHalf_uniform hG] at h1
    have c : CELL_NUMBER ((2:ℝ) - 1 / 2 * 1) 1 = 1 := CELL_NUMBER_unique one_pos 1 (by norm_num) (by norm_num)
    simp only [weightHalf, c, clamp0] at h1
    norm_num at h1
  · intro h
    have h1 := h 1
    rw [valInt_uniform hG] at h1
    have c : CELL_NUMBER (2:ℝ) 1 = 1 := CELL_NUMBER_unique one_pos 1 (by norm_num) (by norm_num)
    simp only [weightInt, c, clamp0] at h1
    norm_num at h1

/-! ## Concrete cases -/

/-- C16: a grid, a memory with distinct values and a position that meet the hypotheses. -/
example : (3 ≤ demoGeom.nr ∧ 3 ≤ demoGeom.nz) ∧ InRegion demoGeom 1.25 1.75 ∧
    ∃ m : Mem PLoc, (∀ l : Loc, Init demoGeom l → (m (.fld l)).isSome) ∧
      (∃ e, (getE demoGeom 1.25 1.75).eval (PAlloc demoGeom (fun _ => 1)) m = some (e, m)) := by
  have hp : InRegion demoGeom 1.25 1.75 := by unfold InRegion demoGeom; norm_num
  refine ⟨by norm_num [demoGeom], hp, fun l => match l with
    | .fld l => if Alloc demoGeom l then some (l.i + 10 * l.k) else none
    | _ => none, ?_, ?_⟩
  · intro l hl; simp [hl.alloc]
  · refine (C16_gather_reads_valid demoGeom demoGeom_valid (by norm_num [demoGeom])
      (by norm_num [demoGeom]) _ _ ?_ _ _ hp).1
    intro l hl; simp [hl.alloc]

end Verif
