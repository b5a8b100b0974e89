import Verif.ParEval
import Verif.YeeModel
import Verif.YeePure
import Verif.Particle
import Verif.Deposit

/-!
# Particle memory and field interpolation

Models `EField::get_field` (src/eField.cpp:204-316) and `HField::get_field`
(src/hField.cpp:159-267) as programs on a memory that holds the field arrays and the particle
arrays.
-/

namespace Verif

/-- The per-particle arrays of class `Particles`, include/particles.h:46-112.  `pos_old[i][1]` is
never read or written after construction and is left out.  `is_alive[i]` is a `bool`; it is kept as
a number, 0 for `false`. -/
inductive PComp
  | pos0 | pos1 | pos2 | old0 | old2 | vel0 | vel1 | vel2 | charge | mass | sin | cos | alive
  deriving DecidableEq

/-- Everything the particle loops touch: field arrays, and `array[n]` of species `s`.  `exit` is not
a memory cell: loading it stands for `exit(1)` and for a non-finite result. -/
inductive PLoc
  | fld (l : Loc)
  | part (s n : ℕ) (c : PComp)
  | exit
  deriving DecidableEq

/-- Allocated cells: the field arrays and, for each species, as many particles as it has. -/
def PAlloc (G : Geom) (num : ℕ → ℕ) : PLoc → Prop
  | .fld l => Alloc G l
  | .part s n _ => n < num s
  | .exit => False

instance (G : Geom) (num : ℕ → ℕ) : DecidablePred (PAlloc G num) := fun l => by
  cases l <;> unfold PAlloc <;> infer_instance

open Prog (rd wr)

/-- `exit(1)` -/
def abort {α : Type} (a : α) : Prog PLoc α := do
  let _ ← rd PLoc.exit
  return a

/-- The four weighted reads that both functions repeat, e.g. src/eField.cpp:239-248.  A zero volume
would make the result non-finite. -/
noncomputable def gather4 (a : Arr) (i k : ℤ) (dz1 dz2 r1 r2 r3 vol_1 vol_2 : ℝ) : Prog PLoc ℝ :=
  if vol_1 = 0 ∨ vol_2 = 0 then abort 0 else do
  let f00 ← rd (.fld ⟨a, i, k⟩)
  let f10 ← rd (.fld ⟨a, i + 1, k⟩)
  let f01 ← rd (.fld ⟨a, i, k + 1⟩)
  let f11 ← rd (.fld ⟨a, i + 1, k + 1⟩)
  return f00 * CYL_RNG_VOL dz1 r1 r2 / vol_1 + f10 * CYL_RNG_VOL dz1 r2 r3 / vol_2
    + f01 * CYL_RNG_VOL dz2 r1 r2 / vol_1 + f11 * CYL_RNG_VOL dz2 r2 r3 / vol_2

/-- Component on half-integer radii: `E_r` (src/eField.cpp:226-248) and `H_z`
(src/hField.cpp:183-208) at integer heights, `H_phi` (src/hField.cpp:238-263) at half-integer
heights.  `zs` is 0 or 1/2. -/
noncomputable def gatherHalf (G : Geom) (a : Arr) (zs r z : ℝ) : Prog PLoc ℝ :=
  let dr := G.dr
  let dz := G.dz
  let r1 := r - 1 / 2 * dr
  let r3 := r + 1 / 2 * dr
  let i_r := clamp0 (CELL_NUMBER (r - 1 / 2 * dr) dr)
  let k_z := clamp0 (CELL_NUMBER (z - zs * dz) dz)
  let vol_1 := CELL_VOLUME ((i_r : ℝ) + 1) dr dz
  let vol_2 := CELL_VOLUME ((i_r : ℝ) + 3) dr dz
  let dz1 := ((k_z : ℝ) + 1 + zs) * dz - z
  let dz2 := z - ((k_z : ℝ) + zs) * dz
  let r2 := ((i_r : ℝ) + 1) * dr
  gather4 a i_r k_z dz1 dz2 r1 r2 r3 vol_1 vol_2

/-- Component on integer radii: `E_phi` (src/eField.cpp:284-311) at integer heights, `E_z`
(src/eField.cpp:252-280) and `H_r` (src/hField.cpp:210-236) at half-integer heights. -/
noncomputable def gatherInt (G : Geom) (a : Arr) (zs r z : ℝ) : Prog PLoc ℝ :=
  let dr := G.dr
  let dz := G.dz
  let r1 := r - 1 / 2 * dr
  let r3 := r + 1 / 2 * dr
  let i_r := clamp0 (CELL_NUMBER r dr)
  let k_z := clamp0 (CELL_NUMBER (z - zs * dz) dz)
  let vol_1 := if r > dr then CELL_VOLUME (i_r : ℝ) dr dz else CYL_VOL dz dr
  let r2 := ((i_r : ℝ) + 1 / 2) * dr
  let vol_2 := CELL_VOLUME ((i_r : ℝ) + 2) dr dz
  let dz1 := ((k_z : ℝ) + 1 + zs) * dz - z
  let dz2 := z - ((k_z : ℝ) + zs) * dz
  gather4 a i_r k_z dz1 dz2 r1 r2 r3 vol_1 vol_2

/-- `EField::get_field`, src/eField.cpp:204-316. -/
noncomputable def getE (G : Geom) (r z : ℝ) : Prog PLoc V3 := do
  let er ← gatherHalf G .er 0 r z
  let ez ← gatherInt G .ez (1 / 2) r z
  let efi ← gatherInt G .ephi 0 r z
  return ⟨er, efi, ez⟩

/-- `HField::get_field`, src/hField.cpp:159-267; it reads the time-centred arrays. -/
noncomputable def getH (G : Geom) (r z : ℝ) : Prog PLoc V3 := do
  let hz ← gatherHalf G .hzh 0 r z
  let hr ← gatherInt G .hrh (1 / 2) r z
  let hfi ← gatherHalf G .hphih (1 / 2) r z
  return ⟨hr, hfi, hz⟩

/-! ## Values -/

/-- Values computed by `gather4`. -/
noncomputable def val4 (f : ℤ → ℤ → ℝ) (i k : ℤ) (dz1 dz2 r1 r2 r3 vol_1 vol_2 : ℝ) : ℝ :=
  f i k * CYL_RNG_VOL dz1 r1 r2 / vol_1 + f (i + 1) k * CYL_RNG_VOL dz1 r2 r3 / vol_2
    + f i (k + 1) * CYL_RNG_VOL dz2 r1 r2 / vol_1 + f (i + 1) (k + 1) * CYL_RNG_VOL dz2 r2 r3 / vol_2

/-- Value computed by `gatherHalf`. -/
noncomputable def valHalf (G : Geom) (f : ℤ → ℤ → ℝ) (zs r z : ℝ) : ℝ :=
  let i_r := clamp0 (CELL_NUMBER (r - 1 / 2 * G.dr) G.dr)
  let k_z := clamp0 (CELL_NUMBER (z - zs * G.dz) G.dz)
  val4 f i_r k_z (((k_z : ℝ) + 1 + zs) * G.dz - z) (z - ((k_z : ℝ) + zs) * G.dz)
    (r - 1 / 2 * G.dr) (((i_r : ℝ) + 1) * G.dr) (r + 1 / 2 * G.dr)
    (CELL_VOLUME ((i_r : ℝ) + 1) G.dr G.dz) (CELL_VOLUME ((i_r : ℝ) + 3) G.dr G.dz)

/-- Value computed by `gatherInt`. -/
noncomputable def valInt (G : Geom) (f : ℤ → ℤ → ℝ) (zs r z : ℝ) : ℝ :=
  let i_r := clamp0 (CELL_NUMBER r G.dr)
  let k_z := clamp0 (CELL_NUMBER (z - zs * G.dz) G.dz)
  val4 f i_r k_z (((k_z : ℝ) + 1 + zs) * G.dz - z) (z - ((k_z : ℝ) + zs) * G.dz)
    (r - 1 / 2 * G.dr) (((i_r : ℝ) + 1 / 2) * G.dr) (r + 1 / 2 * G.dr)
    (if r > G.dr then CELL_VOLUME (i_r : ℝ) G.dr G.dz else CYL_VOL G.dz G.dr)
    (CELL_VOLUME ((i_r : ℝ) + 2) G.dr G.dz)

/-- Value of `getE`. -/
noncomputable def valE (G : Geom) (F : Fields) (r z : ℝ) : V3 :=
  ⟨valHalf G (F .er) 0 r z, valInt G (F .ephi) 0 r z, valInt G (F .ez) (1 / 2) r z⟩

/-- Value of `getH`. -/
noncomputable def valH (G : Geom) (F : Fields) (r z : ℝ) : V3 :=
  ⟨valInt G (F .hrh) (1 / 2) r z, valHalf G (F .hphih) (1 / 2) r z, valHalf G (F .hzh) 0 r z⟩

/-- The memory holds `F` on all staggered nodes of the field arrays. -/
def PRep (G : Geom) (F : Fields) (m : Mem PLoc) : Prop :=
  ∀ l : Loc, Init G l → m (.fld l) = some (F.at l)

theorem CELL_VOLUME_ne {i dr dz : ℝ} (hr : 0 < dr) (hz : 0 < dz) (hi : 0 < i) :
    CELL_VOLUME i dr dz ≠ 0 := by
  have := PI_pos
  unfold CELL_VOLUME; positivity

theorem CYL_VOL_ne {dr dz : ℝ} (hr : 0 < dr) (hz : 0 < dz) : CYL_VOL dz dr ≠ 0 := by
  have := PI_pos
  unfold CYL_VOL; positivity

theorem Init.alloc {G : Geom} {l : Loc} (h : Init G l) : Alloc G l := by
  obtain ⟨a, i, k⟩ := l
  unfold Init at h
  unfold Alloc
  cases a <;> simp only [Arr.initRows, Arr.initCols, Arr.rows, Arr.cols] at * <;> omega

theorem gather4_eval {G : Geom} {num : ℕ → ℕ} {F : Fields} {m : Mem PLoc} (hm : PRep G F m)
    (a : Arr) (i k : ℤ) (dz1 dz2 r1 r2 r3 vol_1 vol_2 : ℝ) (h1 : vol_1 ≠ 0) (h2 : vol_2 ≠ 0)
    (hi : 0 ≤ i) (hi' : i + 1 < a.initRows G) (hk : 0 ≤ k) (hk' : k + 1 < a.initCols G) :
    (gather4 a i k dz1 dz2 r1 r2 r3 vol_1 vol_2).eval (PAlloc G num) m =
      some (val4 (F a) i k dz1 dz2 r1 r2 r3 vol_1 vol_2, m) := by
  have key : ∀ i' k' : ℤ, 0 ≤ i' → i' < a.initRows G → 0 ≤ k' → k' < a.initCols G →
      (rd (PLoc.fld ⟨a, i', k'⟩)).eval (PAlloc G num) m = some (F a i' k', m) := by
    intro i' k' p1 p2 p3 p4
    have hI : Init G ⟨a, i', k'⟩ := ⟨p1, p2, p3, p4⟩
    exact Prog.eval_rd (show PAlloc G num (.fld _) from hI.alloc) (hm _ hI)
  unfold gather4
  rw [if_neg (by push Not; exact ⟨h1, h2⟩),
    Prog.eval_bind_some (key i k hi (by omega) hk (by omega)),
    Prog.eval_bind_some (key (i + 1) k (by omega) (by omega) hk (by omega)),
    Prog.eval_bind_some (key i (k + 1) hi (by omega) (by omega) (by omega)),
    Prog.eval_bind_some (key (i + 1) (k + 1) (by omega) (by omega) (by omega) (by omega))]
  rfl

/-- `clamp0 (CELL_NUMBER x dx)` for `0 ≤ x ≤ n*dx`, `1 ≤ n` -/
theorem clampCell_bounds {x dx : ℝ} (hdx : 0 < dx) {n : ℤ} (hn : 1 ≤ n) (hx' : x ≤ (n : ℝ) * dx) :
    0 ≤ clamp0 (CELL_NUMBER x dx) ∧ clamp0 (CELL_NUMBER x dx) ≤ n - 1 := by
  have h1 := (CELL_NUMBER_spec (x := x) hdx).1
  have h2 : (CELL_NUMBER x dx : ℝ) < n := by
    by_contra hcon
    push Not at hcon
    nlinarith
  have h3 : CELL_NUMBER x dx < n := by exact_mod_cast h2
  unfold clamp0
  split_ifs <;> omega

/-- for `0 ≤ x` the clamped cell contains `x` -/
theorem clampCell_spec {x dx : ℝ} (hdx : 0 < dx) (hx : 0 ≤ x) :
    (clamp0 (CELL_NUMBER x dx) : ℝ) * dx ≤ x ∧ x ≤ ((clamp0 (CELL_NUMBER x dx) : ℝ) + 1) * dx := by
  obtain ⟨h1, h2⟩ := CELL_NUMBER_spec (x := x) hdx
  unfold clamp0
  split_ifs with h
  · have : (CELL_NUMBER x dx : ℝ) ≤ -1 := by exact_mod_cast (by omega : CELL_NUMBER x dx ≤ -1)
    constructor
    · simpa using hx
    · push_cast; nlinarith
  · exact ⟨h1.le, h2⟩

theorem gatherHalf_eval {G : Geom} (hG : G.Valid) {num : ℕ → ℕ} {F : Fields} {m : Mem PLoc}
    (hm : PRep G F m) (a : Arr) (zs r z : ℝ)
    (hr : r - 1 / 2 * G.dr ≤ ((a.initRows G - 1 : ℤ) : ℝ) * G.dr) (hn : 2 ≤ a.initRows G)
    (hz : z - zs * G.dz ≤ ((a.initCols G - 1 : ℤ) : ℝ) * G.dz) (hn' : 2 ≤ a.initCols G) :
    (gatherHalf G a zs r z).eval (PAlloc G num) m = some (valHalf G (F a) zs r z, m) := by
  obtain ⟨a1, a2⟩ := clampCell_bounds hG.dr_pos (by omega) hr
  obtain ⟨b1, b2⟩ := clampCell_bounds hG.dz_pos (by omega) hz
  have c1 : (0:ℝ) ≤ (clamp0 (CELL_NUMBER (r - 1 / 2 * G.dr) G.dr) : ℝ) := by exact_mod_cast a1
  exact gather4_eval hm a _ _ _ _ _ _ _ _ _
    (CELL_VOLUME_ne hG.dr_pos hG.dz_pos (by linarith))
    (CELL_VOLUME_ne hG.dr_pos hG.dz_pos (by linarith)) a1 (by omega) b1 (by omega)

theorem gatherInt_eval {G : Geom} (hG : G.Valid) {num : ℕ → ℕ} {F : Fields} {m : Mem PLoc}
    (hm : PRep G F m) (a : Arr) (zs r z : ℝ)
    (hr : r ≤ ((a.initRows G - 1 : ℤ) : ℝ) * G.dr) (hn : 2 ≤ a.initRows G)
    (hz : z - zs * G.dz ≤ ((a.initCols G - 1 : ℤ) : ℝ) * G.dz) (hn' : 2 ≤ a.initCols G) :
    (gatherInt G a zs r z).eval (PAlloc G num) m = some (valInt G (F a) zs r z, m) := by
  obtain ⟨a1, a2⟩ := clampCell_bounds hG.dr_pos (by omega) hr
  obtain ⟨b1, b2⟩ := clampCell_bounds hG.dz_pos (by omega) hz
  have c1 : (0:ℝ) ≤ (clamp0 (CELL_NUMBER r G.dr) : ℝ) := by exact_mod_cast a1
  refine gather4_eval hm a _ _ _ _ _ _ _ _ _ ?_
    (CELL_VOLUME_ne hG.dr_pos hG.dz_pos (by linarith)) a1 (by omega) b1 (by omega)
  split_ifs with h
  · apply CELL_VOLUME_ne hG.dr_pos hG.dz_pos
    have h2 := (CELL_NUMBER_spec (x := r) hG.dr_pos).2
    have : (0:ℝ) < CELL_NUMBER r G.dr := by
      by_contra hcon
      push Not at hcon
      nlinarith [hG.dr_pos]
    have h3 : 0 < CELL_NUMBER r G.dr := by exact_mod_cast this
    unfold clamp0
    rw [if_neg (by omega)]
    exact this
  · exact CYL_VOL_ne hG.dr_pos hG.dz_pos

/-- The region where particles live: half a cell away from every wall. -/
def InRegion (G : Geom) (r z : ℝ) : Prop :=
  G.dr / 2 ≤ r ∧ r ≤ G.r_size - G.dr / 2 ∧ G.dz / 2 ≤ z ∧ z ≤ G.z_size - G.dz / 2

theorem gather_eval {G : Geom} (hG : G.Valid) (hnr : 3 ≤ G.nr) (hnz : 3 ≤ G.nz) {num : ℕ → ℕ}
    {F : Fields} {m : Mem PLoc} (hm : PRep G F m) {r z : ℝ} (hp : InRegion G r z) :
    (getE G r z).eval (PAlloc G num) m = some (valE G F r z, m) ∧
    (getH G r z).eval (PAlloc G num) m = some (valH G F r z, m) := by
  obtain ⟨h1, h2, h3, h4⟩ := hp
  have dr := hG.dr_pos
  have dz := hG.dz_pos
  rw [hG.r_size_eq] at h2
  rw [hG.z_size_eq] at h4
  have e1 : r - 1 / 2 * G.dr ≤ (((G.nr : ℤ) - 1 - 1 : ℤ) : ℝ) * G.dr := by
    push_cast; linarith
  have e2 : r ≤ (((G.nr : ℤ) - 1 : ℤ) : ℝ) * G.dr := by push_cast; linarith
  have e3 : z - 0 * G.dz ≤ (((G.nz : ℤ) - 1 : ℤ) : ℝ) * G.dz := by push_cast; linarith
  have e4 : z - 1 / 2 * G.dz ≤ (((G.nz : ℤ) - 1 - 1 : ℤ) : ℝ) * G.dz := by push_cast; linarith
  constructor
  · unfold getE
    rw [Prog.eval_bind_some (gatherHalf_eval hG hm .er 0 r z e1 (by simp only [Arr.initRows]; omega)
        e3 (by simp only [Arr.initCols]; omega)),
      Prog.eval_bind_some (gatherInt_eval hG hm .ez (1/2) r z e2
        (by simp only [Arr.initRows]; omega) e4 (by simp only [Arr.initCols]; omega)),
      Prog.eval_bind_some (gatherInt_eval hG hm .ephi 0 r z e2 (by simp only [Arr.initRows]; omega)
        e3 (by simp only [Arr.initCols]; omega))]
    rfl
  · unfold getH
    rw [Prog.eval_bind_some (gatherHalf_eval hG hm .hzh 0 r z e1
        (by simp only [Arr.initRows]; omega) e3 (by simp only [Arr.initCols]; omega)),
      Prog.eval_bind_some (gatherInt_eval hG hm .hrh (1/2) r z e2
        (by simp only [Arr.initRows]; omega) e4 (by simp only [Arr.initCols]; omega)),
      Prog.eval_bind_some (gatherHalf_eval hG hm .hphih (1/2) r z e1
        (by simp only [Arr.initRows]; omega) e4 (by simp only [Arr.initCols]; omega))]
    rfl

end Verif
