import Verif.Mirror
import Verif.Translation

/-!
# Both directions along the axis (C117): macroparticles
-/

namespace Verif

/-! ## Specification -/

/-- The mirror image of a macroparticle, the mirror being in the middle of the chamber -/
noncomputable def Particle.mirror (G : Geom) (p : Particle) : Particle :=
  { p with pos := ⟨p.pos.c0, p.pos.c1, G.z_size - p.pos.c2⟩, posOld := ⟨p.posOld.c0, p.posOld.c1, G.z_size - p.posOld.c2⟩,
           vel := ⟨p.vel.c0, p.vel.c1, -p.vel.c2⟩ }

namespace Mirror

/-! ## Cells -/

theorem cell_is {x dx : ℝ} (hdx : 0 < dx) {k : ℤ} (hk : 0 ≤ k) (h1 : k * dx < x) (h2 : x ≤ (k + 1) * dx) : clamp0 (CELL_NUMBER x dx) = k := by
  rw [show CELL_NUMBER x dx = k from CELL_NUMBER_unique hdx k h1 h2]
  unfold clamp0
  rw [if_neg (by omega)]

/-! ## Interpolation -/

/-- the interpolation may use any cell that contains the place, with its border -/
theorem val4_cell {dx : ℝ} (hdx : 0 < dx) (f : ℤ → ℤ → ℝ) (zs z : ℝ) (i j : ℤ) (r1 r2 r3 v1 v2 : ℝ) (h : 0 ≤ z - zs * dx) (h0 : 0 ≤ j)
    (h1 : j * dx ≤ z - zs * dx) (h2 : z - zs * dx ≤ (j + 1) * dx) :
    val4 f i (clamp0 (CELL_NUMBER (z - zs * dx) dx)) (((clamp0 (CELL_NUMBER (z - zs * dx) dx) : ℤ) + 1 + zs) * dx - z)
      (z - ((clamp0 (CELL_NUMBER (z - zs * dx) dx) : ℤ) + zs) * dx) r1 r2 r3 v1 v2 =
    val4 f i j ((j + 1 + zs) * dx - z) (z - (j + zs) * dx) r1 r2 r3 v1 v2 := by
  obtain ⟨c1, c2⟩ := clampCell_spec hdx h
  rcases h1.lt_or_eq with h1 | h1
  · rw [cell_is hdx h0 h1 h2]
  · rcases h0.lt_or_eq with h0 | h0
    · have e : clamp0 (CELL_NUMBER (z - zs * dx) dx) = j - 1 := by
        refine cell_is hdx (by omega) ?_ ?_ <;> push_cast <;> nlinarith
      rw [e]
      unfold val4
      push_cast
      have e1 : ((j : ℝ) - 1 + 1 + zs) * dx - z = 0 := by linarith
      have e2 : z - ((j : ℝ) + zs) * dx = 0 := by linarith
      have e3 : z - ((j : ℝ) - 1 + zs) * dx = dx := by linarith
      have e4 : ((j : ℝ) + 1 + zs) * dx - z = dx := by linarith
      rw [e1, e2, e3, e4, show j - 1 + 1 = j by ring]
      simp only [CYL_RNG_VOL]
      ring
    · have : clamp0 (CELL_NUMBER (z - zs * dx) dx) = 0 := by
        rw [← h0] at h1
        have : z - zs * dx = 0 := by rw [← h1]; simp
        rw [this]
        simp [CELL_NUMBER, clamp0]
      rw [this, ← h0]

theorem val4_mirror (s : ℝ) (f : ℤ → ℤ → ℝ) (i j n : ℤ) (x y r1 r2 r3 v1 v2 : ℝ) :
    val4 (fun i k => s * f i (n - k)) i (n - 1 - j) x y r1 r2 r3 v1 v2 = s * val4 f i j y x r1 r2 r3 v1 v2 := by
  unfold val4
  dsimp only
  rw [show n - (n - 1 - j) = j + 1 by ring, show n - (n - 1 - j + 1) = j by ring]
  ring

theorem valHalf_mirror {G : Geom} (hG : G.Valid) (s : ℝ) (f : ℤ → ℤ → ℝ) {n : ℤ} {zs r z : ℝ} (hn : 1 ≤ n) (h1 : 0 ≤ z - zs * G.dz)
    (h2 : z - zs * G.dz ≤ n * G.dz) : valHalf G (fun i k => s * f i (n - k)) zs r ((n + 2 * zs) * G.dz - z) = s * valHalf G f zs r z := by
  have dz := hG.dz_pos
  obtain ⟨c1, c2⟩ := clampCell_spec dz h1
  obtain ⟨b1, b2⟩ := clampCell_bounds dz hn h2
  obtain ⟨j, hj⟩ : ∃ j, j = clamp0 (CELL_NUMBER (z - zs * G.dz) G.dz) := ⟨_, rfl⟩
  unfold valHalf
  dsimp only
  rw [← hj] at c1 c2 b1 b2 ⊢
  rw [val4_cell dz _ zs _ _ (n - 1 - j) _ _ _ _ _ (by linarith) (by omega) (by push_cast; linarith) (by push_cast; linarith), val4_mirror]
  push_cast
  congr 2 <;> ring

theorem valInt_mirror {G : Geom} (hG : G.Valid) (s : ℝ) (f : ℤ → ℤ → ℝ) {n : ℤ} {zs r z : ℝ} (hn : 1 ≤ n) (h1 : 0 ≤ z - zs * G.dz)
    (h2 : z - zs * G.dz ≤ n * G.dz) : valInt G (fun i k => s * f i (n - k)) zs r ((n + 2 * zs) * G.dz - z) = s * valInt G f zs r z := by
  have dz := hG.dz_pos
  obtain ⟨c1, c2⟩ := clampCell_spec dz h1
  obtain ⟨b1, b2⟩ := clampCell_bounds dz hn h2
  obtain ⟨j, hj⟩ : ∃ j, j = clamp0 (CELL_NUMBER (z - zs * G.dz) G.dz) := ⟨_, rfl⟩
  unfold valInt
  dsimp only
  rw [← hj] at c1 c2 b1 b2 ⊢
  rw [val4_cell dz _ zs _ _ (n - 1 - j) _ _ _ _ _ (by linarith) (by omega) (by push_cast; linarith) (by push_cast; linarith), val4_mirror]
  push_cast
  congr 2 <;> ring

/-- the mirrored fields -/
def image (G : Geom) (F : Fields) : Fields := fun a i k => a.mirrorSign * F a i (a.mirrorCol G k)

theorem val_mirror {G : Geom} (hG : G.Valid) (hnz : 3 ≤ G.nz) (F : Fields) {r z : ℝ} (h1 : G.dz / 2 ≤ z) (h2 : z ≤ G.z_size - G.dz / 2) :
    valE G (image G F) r (G.z_size - z) = ⟨(valE G F r z).c0, (valE G F r z).c1, -(valE G F r z).c2⟩ ∧
    valH G (image G F) r (G.z_size - z) = ⟨-(valH G F r z).c0, -(valH G F r z).c1, (valH G F r z).c2⟩ := by
  have dz := hG.dz_pos
  have zs := hG.z_size_eq
  rw [zs] at h2
  have e0 : G.z_size - z = (((G.nz : ℤ) - 1 : ℤ) + 2 * 0) * G.dz - z := by rw [zs]; push_cast; ring
  have e1 : G.z_size - z = (((G.nz : ℤ) - 2 : ℤ) + 2 * (1 / 2)) * G.dz - z := by rw [zs]; push_cast; ring
  have a1 : 0 ≤ z - 0 * G.dz := by linarith
  have a2 : z - 0 * G.dz ≤ ((G.nz : ℤ) - 1 : ℤ) * G.dz := by push_cast; linarith
  have b1 : 0 ≤ z - 1 / 2 * G.dz := by linarith
  have b2 : z - 1 / 2 * G.dz ≤ ((G.nz : ℤ) - 2 : ℤ) * G.dz := by push_cast; linarith
  have k0 : (1 : ℤ) ≤ (G.nz : ℤ) - 1 := by omega
  have k1 : (1 : ℤ) ≤ (G.nz : ℤ) - 2 := by omega
  unfold valE valH
  have i1 : image G F .er = fun i k => 1 * F .er i ((G.nz : ℤ) - 1 - k) := rfl
  have i2 : image G F .ephi = fun i k => 1 * F .ephi i ((G.nz : ℤ) - 1 - k) := rfl
  have i3 : image G F .hzh = fun i k => 1 * F .hzh i ((G.nz : ℤ) - 1 - k) := rfl
  have i4 : image G F .ez = fun i k => -1 * F .ez i ((G.nz : ℤ) - 2 - k) := rfl
  have i5 : image G F .hrh = fun i k => -1 * F .hrh i ((G.nz : ℤ) - 2 - k) := rfl
  have i6 : image G F .hphih = fun i k => -1 * F .hphih i ((G.nz : ℤ) - 2 - k) := rfl
  have p1 := valHalf_mirror hG 1 (F .er) (r := r) k0 a1 a2
  have p2 := valInt_mirror hG 1 (F .ephi) (r := r) k0 a1 a2
  have p3 := valHalf_mirror hG 1 (F .hzh) (r := r) k0 a1 a2
  have p4 := valInt_mirror hG (-1) (F .ez) (r := r) k1 b1 b2
  have p5 := valInt_mirror hG (-1) (F .hrh) (r := r) k1 b1 b2
  have p6 := valHalf_mirror hG (-1) (F .hphih) (r := r) k1 b1 b2
  rw [← e0, ← i1] at p1
  rw [← e0, ← i2] at p2
  rw [← e0, ← i3] at p3
  rw [← e1, ← i4] at p4
  rw [← e1, ← i5] at p5
  rw [← e1, ← i6] at p6
  rw [p1, p2, p3, p4, p5, p6]
  simp

/-! ## Deposition -/

/-- an increment of the radial current, mirrored -/
def incR (N : ℤ) (c : Inc) : Inc := ⟨c.i, N + 1 - c.k, c.v⟩

/-- an increment of the axial current, mirrored -/
def incZ (N : ℤ) (c : Inc) : Inc := ⟨c.i, N - c.k, -c.v⟩

/-- what increments add to a node -/
noncomputable def sumAt (l : List Inc) (i k : ℤ) : ℝ := (l.map fun c => if c.i = i ∧ c.k = k then c.v else 0).sum

theorem sumAt_append (l l' : List Inc) (i k : ℤ) : sumAt (l ++ l') i k = sumAt l i k + sumAt l' i k := by
  unfold sumAt
  rw [List.map_append, List.sum_append]

theorem sumR_mirror {N : ℤ} {l l' : List Inc} (h : List.Perm l' (l.map (incR N))) (i k : ℤ) : sumAt l' i k = sumAt l i (N + 1 - k) := by
  unfold sumAt
  rw [(h.map _).sum_eq, List.map_map]
  congr 1
  apply List.map_congr_left
  intro c _
  simp only [Function.comp, incR]
  congr 1
  rw [eq_iff_iff]
  constructor <;> rintro ⟨h1, h2⟩ <;> exact ⟨h1, by omega⟩

theorem sumZ_mirror {N : ℤ} {l l' : List Inc} (h : List.Perm l' (l.map (incZ N))) (i k : ℤ) : sumAt l' i k = -sumAt l i (N - k) := by
  unfold sumAt
  rw [(h.map _).sum_eq, List.map_map, ← neg_one_mul, ← List.sum_map_mul_left]
  congr 1
  apply List.map_congr_left
  intro c _
  show (if c.i = i ∧ N - c.k = k then -c.v else 0) = -1 * (if c.i = i ∧ c.k = N - k then c.v else 0)
  by_cases e : c.i = i ∧ c.k = N - k
  · rw [if_pos e, if_pos (show c.i = i ∧ N - c.k = k from ⟨e.1, by omega⟩)]
    ring
  · rw [if_neg e, if_neg (show ¬ (c.i = i ∧ N - c.k = k) by rintro ⟨h1, h2⟩; exact e ⟨h1, by omega⟩)]
    ring

/-- the increments add the same, mirrored -/
def MJ (N : ℤ) (J J' : JIncs) : Prop := ∀ i k, sumAt J'.jr i k = sumAt J.jr i (N + 1 - k) ∧ sumAt J'.jz i k = -sumAt J.jz i (N - k)

/-- the same for routines that may fail -/
def MO (N : ℤ) (a b : Option JIncs) : Prop := Option.Rel (MJ N) a b

/-- the increments add the same -/
def SJ (J J' : JIncs) : Prop := ∀ i k, sumAt J'.jr i k = sumAt J.jr i k ∧ sumAt J'.jz i k = sumAt J.jz i k

/-- the same for routines that may fail -/
def SO (a b : Option JIncs) : Prop := Option.Rel SJ a b

theorem MJ.of_perm {N : ℤ} {J J' : JIncs} (h1 : J'.jr.Perm (J.jr.map (incR N))) (h2 : J'.jz.Perm (J.jz.map (incZ N))) : MJ N J J' :=
  fun i k => ⟨sumR_mirror h1 i k, sumZ_mirror h2 i k⟩

theorem MJ.symm {N : ℤ} {J J' : JIncs} (h : MJ N J J') : MJ N J' J := by
  intro i k
  have h1 := (h i (N + 1 - k)).1
  have h2 := (h i (N - k)).2
  rw [show N + 1 - (N + 1 - k) = k by ring] at h1
  rw [show N - (N - k) = k by ring] at h2
  exact ⟨h1.symm, by rw [h2, neg_neg]⟩

theorem MO.symm {N : ℤ} {a b : Option JIncs} (h : MO N a b) : MO N b a := by
  cases h with
  | some h => exact .some h.symm
  | none => exact .none

theorem MO.same {N : ℤ} {a b c : Option JIncs} (h : MO N a b) (h' : SO a c) : MO N c b := by
  cases h with
  | none => cases h'; exact .none
  | some h =>
    cases h' with
    | some h' => exact .some fun i k => ⟨by rw [(h i k).1, (h' i _).1], by rw [(h i k).2, (h' i _).2]⟩

theorem SO.refl (a : Option JIncs) : SO a a := by
  cases a
  · exact .none
  · exact .some fun _ _ => ⟨rfl, rfl⟩

theorem SO.trans {a b c : Option JIncs} (h : SO a b) (h' : SO b c) : SO a c := by
  cases h with
  | none => exact h'
  | some h =>
    cases h' with
    | some h' => exact .some fun i k => ⟨(h' i k).1.trans (h i k).1, (h' i k).2.trans (h i k).2⟩

theorem SO.symm {a b : Option JIncs} (h : SO a b) : SO b a := by
  cases h with
  | none => exact .none
  | some h => exact .some fun i k => ⟨(h i k).1.symm, (h i k).2.symm⟩

theorem MO.seq {N : ℤ} {a b a' b' : Option JIncs} (h : MO N a a') (h' : MO N b b') : MO N (seqJ a b) (seqJ a' b') := by
  cases h with
  | none => exact .none
  | some h =>
    cases h' with
    | none => exact .none
    | some h' =>
      refine .some fun i k => ?_
      simp only [JIncs.append, sumAt_append, (h i k).1, (h' i k).1, (h i k).2, (h' i k).2, true_and]
      ring

theorem MO.empty {N : ℤ} : MO N (some JIncs.empty) (some JIncs.empty) := .some (.of_perm (.refl _) (.refl _))

theorem simple_mirror (G : Geom) (dt q rN zN rO zO : ℝ) (i k N : ℤ) :
    MO N (simpleCurrent G dt q rN zN rO zO i k)
      (simpleCurrent G dt q rN ((N + 1) * G.dz - zN) rO ((N + 1) * G.dz - zO) i (N - k)) := by
  unfold simpleCurrent
  dsimp only
  have e : (N + 1) * G.dz - zN - ((N + 1) * G.dz - zO) = -(zN - zO) := by ring
  rw [e, abs_neg]
  generalize zN - zO = d
  generalize rN - rO = c
  split_ifs
  · exact .empty
  · exact .none
  · refine .some (.of_perm ?_ ?_)
    · simp only [List.map_cons, List.map_nil, incR]
      refine .trans (List.Perm.swap _ _ _) ?_
      apply List.Perm.of_eq
      congr 1
      · congr 1
        · ring
        · push_cast; ring
      · congr 2
        · ring
        · push_cast; ring
    · apply List.Perm.of_eq
      simp only [List.map_cons, List.map_nil, incZ]
      have e1 : c / -d * -d = c / d * d := by rw [div_neg]; ring
      rw [e1]
      simp only [div_neg]
      congr 2
      · ring
      · congr 1
        ring
  · refine .some (.of_perm ?_ ?_)
    · simp only [List.map_cons, List.map_nil, incR]
      refine .trans (List.Perm.swap _ _ _) ?_
      apply List.Perm.of_eq
      congr 1
      · congr 1
        · ring
        · push_cast; ring
      · congr 2
        · ring
        · push_cast; ring
    · apply List.Perm.of_eq
      simp only [List.map_cons, List.map_nil, incZ]
      simp only [div_neg]
      congr 2
      · ring
      · congr 1
        ring

/-- `strictMotion` with the cells as arguments -/
noncomputable def strictCells (G : Geom) (delta_t q rN zN rO zO : ℝ) (i_n k_n i_o k_o : ℤ) : Option JIncs :=
  let dr := G.dr
  let dz := G.dz
  -- lines 809-811
  if |rN - rO| < MNZL ∧ |zN - zO| < MNZL then some JIncs.empty
  -- strict axial motion, lines 814-884
  else if |rN - rO| < MNZL then
    if rN = 0 then none else
    let value_part := 2 * PI * rN * dr * dz
    let r1 := rN - 0.5 * dr
    let r2 := ((i_n : ℝ) + 0.5) * dr
    let r3 := rN + 0.5 * dr
    let wj_lower := if i_n = 0 then
        q / (delta_t * PI * dr * dr / 4) * PI * (r2 * r2 - r1 * r1) / value_part
      else
        q / (delta_t * 2 * PI * (i_n : ℝ) * dr * dr) * PI * (r2 * r2 - r1 * r1) / value_part
    let wj_upper := q / (delta_t * 2 * PI * ((i_n : ℝ) + 1) * dr * dr)
        * PI * (r3 * r3 - r2 * r2) / value_part
    -- lines 836-837
    let zeros : List Inc := [⟨i_n, k_n, 0⟩, ⟨i_n, k_n + 1, 0⟩]
    let res_k := k_n - k_o
    if res_k = 0 then
      let delta_z := zN - zO
      some ⟨zeros, [⟨i_n, k_n, wj_lower * delta_z⟩, ⟨i_n + 1, k_n, wj_upper * delta_z⟩]⟩
    else if res_k = 1 then
      let delta_z := (k_n : ℝ) * dz - zO
      let delta_z' := zN - (k_n : ℝ) * dz
      some ⟨zeros,
        [⟨i_n, k_n - 1, wj_lower * delta_z⟩, ⟨i_n + 1, k_n - 1, wj_upper * delta_z⟩,
         ⟨i_n, k_n, wj_lower * delta_z'⟩, ⟨i_n + 1, k_n, wj_upper * delta_z'⟩]⟩
    else if res_k = -1 then
      let delta_z := ((k_n : ℝ) + 1) * dz - zO
      let delta_z' := zN - ((k_n : ℝ) + 1) * dz
      some ⟨zeros,
        [⟨i_n, k_n + 1, wj_lower * delta_z⟩, ⟨i_n + 1, k_n + 1, wj_upper * delta_z⟩,
         ⟨i_n, k_n, wj_lower * delta_z'⟩, ⟨i_n + 1, k_n, wj_upper * delta_z'⟩]⟩
    else some ⟨zeros, []⟩
  -- strict radial motion, lines 887-987
  else if |zN - zO| < MNZL then
    if rO = 0 ∨ rN = 0 then none else
    let res_i := i_n - i_o
    let left_delta_z := ((k_n : ℝ) + 1) * dz - zN
    let right_delta_z := zN - (k_n : ℝ) * dz
    if res_i = 0 then
      -- lines 897-913
      let delta_r := rN - rO
      let r0 := ((i_n : ℝ) + 0.5) * dr
      let wj := DENSITY_STRICT q r0 dr dz delta_t
        * (delta_r - r0 * r0 / (rO + delta_r) + r0 * r0 / rO
           + dr * dr / (4 * (rO + delta_r)) - dr * dr / (4 * rO))
      some ⟨[⟨i_n, k_n, wj * left_delta_z⟩, ⟨i_n, k_n + 1, wj * right_delta_z⟩], []⟩
    else if res_i = 1 then
      -- lines 918-948
      let delta_r := (i_n : ℝ) * dr - rO
      let r0 := ((i_n : ℝ) - 0.5) * dr
      let wj := DENSITY_STRICT q r0 dr dz delta_t
        * (delta_r - r0 * r0 / (rO + delta_r) + r0 * r0 / rO
           + dr * dr / (4 * (rO + delta_r)) - dr * dr / (4 * rO))
      let delta_r' := rN - (i_n : ℝ) * dr
      let r0' := ((i_n : ℝ) + 0.5) * dr
      let wj' := DENSITY_STRICT q r0' dr dz delta_t
        * (delta_r' - r0' * r0' / ((i_n : ℝ) * dr + delta_r')
           + r0' * r0' / (i_n : ℝ) * dr
           + dr * dr / (4 * ((i_n : ℝ) * dr + delta_r')) - dr * dr / (4 * (i_n : ℝ) * dr))
      some ⟨[⟨i_n - 1, k_n, wj * left_delta_z⟩, ⟨i_n - 1, k_n + 1, wj * right_delta_z⟩,
             ⟨i_n, k_n, wj' * left_delta_z⟩, ⟨i_n, k_n + 1, wj' * right_delta_z⟩], []⟩
    else if res_i = -1 then
      -- lines 953-983
      let delta_r := ((i_n : ℝ) + 1) * dr - rO
      let r0 := ((i_n : ℝ) + 1.5) * dr
      let wj := DENSITY_STRICT q r0 dr dz delta_t
        * (delta_r - r0 * r0 / (rO + delta_r) + r0 * r0 / rO
           + dr * dr / (4 * (rO + delta_r)) - dr * dr / (4 * rO))
      let delta_r' := rN - ((i_n : ℝ) + 1) * dr
      let r0' := ((i_n : ℝ) + 0.5) * dr
      let wj' := DENSITY_STRICT q r0' dr dz delta_t
        * (delta_r' - r0' * r0' / (((i_n : ℝ) + 1) * dr + delta_r')
           + r0' * r0' / ((i_n : ℝ) + 1) * dr
           + dr * dr / (4 * (((i_n : ℝ) + 1) * dr + delta_r'))
           - dr * dr / (4 * ((i_n : ℝ) + 1) * dr))
      some ⟨[⟨i_n + 1, k_n, wj * left_delta_z⟩, ⟨i_n + 1, k_n + 1, wj * right_delta_z⟩,
             ⟨i_n, k_n, wj' * left_delta_z⟩, ⟨i_n, k_n + 1, wj' * right_delta_z⟩], []⟩
    else some JIncs.empty
  else some JIncs.empty

theorem strict_eq (G : Geom) (dt q rN zN rO zO : ℝ) : strictMotion G dt q rN zN rO zO = strictCells G dt q rN zN rO zO (clamp0 (CELL_NUMBER rN G.dr))
    (clamp0 (CELL_NUMBER zN G.dz)) (clamp0 (CELL_NUMBER rO G.dr)) (clamp0 (CELL_NUMBER zO G.dz)) := rfl

theorem cells_mirror (G : Geom) (dt q rN rO zN zO : ℝ) (N i j k l : ℤ) :
    MO N (strictCells G dt q rN zN rO zO i k j l) (strictCells G dt q rN ((N + 1) * G.dz - zN) rO ((N + 1) * G.dz - zO) i (N - k) j (N - l)) := by
  unfold strictCells
  dsimp only
  have e : (N + 1) * G.dz - zN - ((N + 1) * G.dz - zO) = -(zN - zO) := by ring
  rw [e, abs_neg, show N - k - (N - l) = -(k - l) by ring]
  by_cases c1 : |rN - rO| < MNZL ∧ |zN - zO| < MNZL
  · rw [if_pos c1, if_pos c1]
    exact .empty
  rw [if_neg c1, if_neg c1]
  by_cases c2 : |rN - rO| < MNZL
  · rw [if_pos c2, if_pos c2]
    by_cases c3 : rN = 0
    · rw [if_pos c3, if_pos c3]
      exact .none
    rw [if_neg c3, if_neg c3]
    generalize (if i = 0 then _ else _ : ℝ) = w
    generalize q / (dt * 2 * PI * ((i : ℝ) + 1) * G.dr * G.dr) * PI * _ / _ = u
    have zeros : [(⟨i, N - k, 0⟩ : Inc), ⟨i, N - k + 1, 0⟩].Perm (List.map (incR N) [⟨i, k, 0⟩, ⟨i, k + 1, 0⟩]) := by
      simp only [List.map_cons, List.map_nil, incR]
      refine .trans (List.Perm.swap _ _ _) ?_
      apply List.Perm.of_eq
      congr 2
      · ring
      · congr 1; ring
    by_cases d0 : k - l = 0
    · rw [if_pos d0, if_pos (show -(k - l) = 0 by omega)]
      refine .some (.of_perm zeros ?_)
      apply List.Perm.of_eq
      simp only [List.map_cons, List.map_nil, incZ, mul_neg]
    · rw [if_neg d0, if_neg (show ¬ -(k - l) = 0 by omega)]
      by_cases d1 : k - l = 1
      · rw [if_pos d1, if_neg (show ¬ -(k - l) = 1 by omega), if_pos (show -(k - l) = -1 by omega)]
        refine .some (.of_perm zeros ?_)
        apply List.Perm.of_eq
        simp only [List.map_cons, List.map_nil, incZ]
        push_cast
        congr 1
        · congr 1
          · ring
          · ring
        · congr 1
          · congr 1
            · ring
            · ring
          · congr 1
            · congr 1; ring
            · congr 2; ring
      · rw [if_neg d1]
        by_cases d2 : k - l = -1
        · rw [if_pos d2, if_pos (show -(k - l) = 1 by omega)]
          refine .some (.of_perm zeros ?_)
          apply List.Perm.of_eq
          simp only [List.map_cons, List.map_nil, incZ]
          push_cast
          congr 1
          · congr 1
            · ring
            · ring
          · congr 1
            · congr 1
              · ring
              · ring
            · congr 1
              · congr 1; ring
              · congr 2; ring
        · rw [if_neg d2, if_neg (show ¬ -(k - l) = 1 by omega), if_neg (show ¬ -(k - l) = -1 by omega)]
          exact .some (.of_perm zeros (.refl _))
  rw [if_neg c2, if_neg c2]
  by_cases c3 : |zN - zO| < MNZL
  · rw [if_pos c3, if_pos c3]
    by_cases c4 : rO = 0 ∨ rN = 0
    · rw [if_pos c4, if_pos c4]
      exact .none
    rw [if_neg c4, if_neg c4]
    have e1 : (((N - k : ℤ) : ℝ) + 1) * G.dz - ((N + 1) * G.dz - zN) = zN - k * G.dz := by push_cast; ring
    have e2 : (N + 1) * G.dz - zN - ((N - k : ℤ) : ℝ) * G.dz = (k + 1) * G.dz - zN := by push_cast; ring
    rw [e1, e2]
    generalize zN - k * G.dz = x
    generalize (k + 1) * G.dz - zN = y
    have pair : ∀ (a : ℤ) (w : ℝ), [(⟨a, N - k, w * x⟩ : Inc), ⟨a, N - k + 1, w * y⟩].Perm
        (List.map (incR N) [⟨a, k, w * y⟩, ⟨a, k + 1, w * x⟩]) := by
      intro a w
      simp only [List.map_cons, List.map_nil, incR]
      refine .trans (List.Perm.swap _ _ _) ?_
      apply List.Perm.of_eq
      congr 2
      · ring
      · congr 1; ring
    split_ifs
    · exact .some (.of_perm (pair _ _) (.refl _))
    · exact .some (.of_perm ((pair _ _).append (pair _ _)) (.refl _))
    · exact .some (.of_perm ((pair _ _).append (pair _ _)) (.refl _))
    · exact .empty
  · rw [if_neg c3, if_neg c3]
    exact .empty

open Translate (afterCells move_eq)

/-- the cases of `current_distribution` for moves towards the far end or within a column of cells -/
theorem after_forward {G : Geom} (hG : G.Valid) (dt q rN rO : ℝ) {zN zO : ℝ} {N i j k l : ℤ}
    (hs : MO N (strictMotion G dt q rN zN rO zO) (strictMotion G dt q rN ((N + 1) * G.dz - zN) rO ((N + 1) * G.dz - zO)))
    (hij : |i - j| ≤ 1) (hkl : l ≤ k) (hO : l < k → zO < (l + 1) * G.dz) :
    MO N (afterCells G dt q rN zN rO zO i k j l)
      (afterCells G dt q rN ((N + 1) * G.dz - zN) rO ((N + 1) * G.dz - zO) i (N - k) j (N - l)) := by
  have dz := hG.dz_pos
  have mn : (0 : ℝ) < MNZL := by norm_num [MNZL]
  unfold afterCells
  dsimp only
  have e1 : (N + 1) * G.dz - zN - ((N + 1) * G.dz - zO) = -(zN - zO) := by ring
  have e2 : N - k - (N - l) = -(k - l) := by ring
  rw [e1, e2, abs_neg, abs_neg]
  by_cases c1 : |rN - rO| < MNZL ∨ |zN - zO| < MNZL
  · rw [if_pos c1, if_pos c1]
    exact hs
  rw [if_neg c1, if_neg c1]
  push Not at c1
  have hr : rN - rO ≠ 0 := by intro h; rw [h, abs_zero] at c1; linarith [c1.1]
  have hz : zN - zO ≠ 0 := by intro h; rw [h, abs_zero] at c1; linarith [c1.2]
  have hr' : rO - rN ≠ 0 := by intro h; apply hr; linarith
  have hz' : zO - zN ≠ 0 := by intro h; apply hz; linarith
  by_cases c2 : |i - j| + |k - l| = 0
  · rw [if_pos c2, if_pos c2]
    exact simple_mirror G dt q rN zN rO zO i k N
  rw [if_neg c2, if_neg c2]
  have e3 : (N + 1) * G.dz - zO - ((N + 1) * G.dz - zN) = -(zO - zN) := by ring
  have e4 : (((N - k : ℤ) : ℝ) + 1) * G.dz = (N + 1) * G.dz - k * G.dz := by push_cast; ring
  have e5 : ((N - k : ℤ) : ℝ) * G.dz = (N + 1) * G.dz - (k + 1) * G.dz := by push_cast; ring
  have e6 : N - k + 1 = N - (k - 1) := by ring
  rw [e3, e4, e5, e6]
  have sm : ∀ {a b a' b' b1 b1' : ℝ} {u v w : ℤ}, b1 = (N + 1) * G.dz - b → b1' = (N + 1) * G.dz - b' → w = N - v →
      MO N (simpleCurrent G dt q a b a' b' u v) (simpleCurrent G dt q a b1 a' b1' u w) := by
    rintro a b a' b' b1 b1' u v w rfl rfl rfl
    exact simple_mirror G dt q a b a' b' u v N
  by_cases c3 : |i - j| + |k - l| = 1
  · rw [if_pos c3, if_pos c3]
    by_cases c4 : i ≠ j ∧ k = l
    · rw [if_pos c4, if_pos (show i ≠ j ∧ N - k = N - l from ⟨c4.1, by rw [c4.2]⟩)]
      by_cases c5 : rO > ((i : ℝ) + 1) * G.dr
      · rw [if_pos c5, if_pos c5]
        have z : (N + 1) * G.dz - zN + ((i + 1) * G.dr - rN) / ((rO - rN) / -(zO - zN)) =
            (N + 1) * G.dz - (zN + ((i + 1) * G.dr - rN) / ((rO - rN) / (zO - zN))) := by
          rw [div_neg, div_neg]; ring
        exact .seq (sm z rfl rfl) (sm rfl z rfl)
      · rw [if_neg c5, if_neg c5]
        have z : (N + 1) * G.dz - zO + (i * G.dr - rO) / ((rN - rO) / -(zN - zO)) =
            (N + 1) * G.dz - (zO + (i * G.dr - rO) / ((rN - rO) / (zN - zO))) := by
          rw [div_neg, div_neg]; ring
        exact .seq (sm z rfl rfl) (sm rfl z rfl)
    · rw [if_neg c4, if_neg (show ¬ (i ≠ j ∧ N - k = N - l) by intro h; exact c4 ⟨h.1, by omega⟩)]
      by_cases c5 : i = j ∧ k ≠ l
      · rw [if_pos c5, if_pos (show i = j ∧ N - k ≠ N - l from ⟨c5.1, by have := c5.2; omega⟩)]
        have kl : (l : ℝ) + 1 ≤ k := by exact_mod_cast (by have := c5.2; omega : l + 1 ≤ k)
        have zk := (hO (by have := c5.2; omega)).trans_le (mul_le_mul_of_nonneg_right kl dz.le)
        rw [if_pos zk, if_neg (by have := mul_le_mul_of_nonneg_right (by linarith : (k : ℝ) ≤ k + 1) dz.le; linarith)]
        have r : rN + (rO - rN) / -(zO - zN) * ((N + 1) * G.dz - k * G.dz - ((N + 1) * G.dz - zN)) =
            rO + (rN - rO) / (zN - zO) * (k * G.dz - zO) := by
          rw [← neg_sub zN zO, neg_neg]
          field_simp
          ring
        rw [r]
        exact .seq (sm rfl rfl (by ring)) (sm rfl rfl rfl)
      · rw [if_neg c5, if_neg (show ¬ (i = j ∧ N - k ≠ N - l) by intro h; exact c5 ⟨h.1, fun e => h.2 (by rw [e])⟩)]
        exact .empty
  rw [if_neg c3, if_neg c3]
  by_cases c4 : |i - j| + |k - l| = 2
  · rw [if_pos c4, if_pos c4]
    have kl : l < k := by
      rcases hkl.lt_or_eq with h | h
      · exact h
      · rw [h] at c4; simp at c4; omega
    by_cases c5 : j < i
    · rw [if_pos c5, if_pos c5, if_pos kl, if_neg (show ¬ N - l < N - k by omega)]
      have z : (N + 1) * G.dz - zO + (i * G.dr - rO) / ((rN - rO) / -(zN - zO)) =
          (N + 1) * G.dz - (zO + (i * G.dr - rO) / ((rN - rO) / (zN - zO))) := by
        rw [div_neg, div_neg]; ring
      have r : rO + -((N + 1) * G.dz - zO - ((N + 1) * G.dz - k * G.dz)) * ((rN - rO) / -(zN - zO)) =
          rO + (k * G.dz - zO) * ((rN - rO) / (zN - zO)) := by
        rw [div_neg]; ring
      rw [z, r]
      generalize zO + (i * G.dr - rO) / ((rN - rO) / (zN - zO)) = z1
      by_cases c6 : z1 < k * G.dz
      · rw [if_pos c6, if_pos (show (N + 1) * G.dz - z1 > (N + 1) * G.dz - k * G.dz by linarith)]
        exact .seq (sm rfl rfl rfl) (.seq (sm rfl rfl rfl) (sm rfl rfl rfl))
      · rw [if_neg c6, if_neg (show ¬ (N + 1) * G.dz - z1 > (N + 1) * G.dz - k * G.dz by linarith)]
        by_cases c7 : z1 > k * G.dz
        · rw [if_pos c7, if_pos (show (N + 1) * G.dz - z1 < (N + 1) * G.dz - k * G.dz by linarith)]
          exact .seq (sm rfl rfl rfl) (.seq (sm rfl rfl rfl) (sm rfl rfl rfl))
        · rw [if_neg c7, if_neg (show ¬ (N + 1) * G.dz - z1 < (N + 1) * G.dz - k * G.dz by linarith)]
          exact .empty
    · rw [if_neg c5, if_neg c5]
      by_cases c6 : j > i
      · rw [if_pos c6, if_pos c6, if_pos kl, if_neg (show ¬ N - l < N - k by omega), if_pos (show N - l > N - k by omega)]
        have z : (N + 1) * G.dz - zN + ((i + 1) * G.dr - rN) / ((rO - rN) / -(zO - zN)) =
            (N + 1) * G.dz - (zO + -(rO - (i + 1) * G.dr) / ((rN - rO) / (zN - zO))) := by
          rw [← neg_sub zN zO, neg_neg, ← neg_sub rN rO]
          field_simp
          ring
        have r : rN + ((N + 1) * G.dz - k * G.dz - ((N + 1) * G.dz - zN)) * ((rO - rN) / -(zO - zN)) =
            rO - -(k * G.dz - zO) * ((rN - rO) / (zN - zO)) := by
          rw [← neg_sub zN zO, neg_neg]
          field_simp
          ring
        rw [z, r]
        generalize zO + -(rO - (i + 1) * G.dr) / ((rN - rO) / (zN - zO)) = z1
        by_cases c6 : z1 < k * G.dz
        · rw [if_pos c6, if_pos (show (N + 1) * G.dz - z1 > (N + 1) * G.dz - k * G.dz by linarith)]
          exact .seq (sm rfl rfl rfl) (.seq (sm rfl rfl rfl) (sm rfl rfl rfl))
        · rw [if_neg c6, if_neg (show ¬ (N + 1) * G.dz - z1 > (N + 1) * G.dz - k * G.dz by linarith)]
          by_cases c7 : z1 > k * G.dz
          · rw [if_pos c7, if_pos (show (N + 1) * G.dz - z1 < (N + 1) * G.dz - k * G.dz by linarith)]
            exact .seq (sm rfl rfl rfl) (.seq (sm rfl rfl rfl) (sm rfl rfl rfl))
          · rw [if_neg c7, if_neg (show ¬ (N + 1) * G.dz - z1 < (N + 1) * G.dz - k * G.dz by linarith)]
            exact .empty
      · rw [if_neg c6, if_neg c6]
        exact .empty
  · rw [if_neg c4, if_neg c4]
    exact .empty

/-- the cell of a place within a cell of another is its cell or a neighbour -/
theorem cell_near {dx x y : ℝ} (hdx : 0 < dx) (h : |x - y| < dx) : |clamp0 (CELL_NUMBER x dx) - clamp0 (CELL_NUMBER y dx)| ≤ 1 := by
  obtain ⟨a1, a2⟩ := CELL_NUMBER_spec (x := x) hdx
  obtain ⟨b1, b2⟩ := CELL_NUMBER_spec (x := y) hdx
  obtain ⟨h1, h2⟩ := abs_lt.1 h
  have k1 : CELL_NUMBER x dx < CELL_NUMBER y dx + 2 := by
    by_contra hc
    have : (CELL_NUMBER y dx : ℝ) + 2 ≤ CELL_NUMBER x dx := by exact_mod_cast (by omega : CELL_NUMBER y dx + 2 ≤ CELL_NUMBER x dx)
    nlinarith
  have k2 : CELL_NUMBER y dx < CELL_NUMBER x dx + 2 := by
    by_contra hc
    have : (CELL_NUMBER x dx : ℝ) + 2 ≤ CELL_NUMBER y dx := by exact_mod_cast (by omega : CELL_NUMBER x dx + 2 ≤ CELL_NUMBER y dx)
    nlinarith
  unfold clamp0
  rw [abs_le]
  split_ifs <;> omega

/-- the cell of a place and that of its mirror image -/
theorem cell_image {dx z : ℝ} (hdx : 0 < dx) {N : ℤ} (h1 : 0 < z) (h2 : z < (N + 1) * dx) :
    ∃ k s : ℤ, clamp0 (CELL_NUMBER z dx) = k ∧ clamp0 (CELL_NUMBER ((N + 1) * dx - z) dx) = N - (k + s) ∧ 0 ≤ k ∧ k + s ≤ N ∧ k * dx < z ∧
      ((s = 0 ∧ z < (k + 1) * dx) ∨ (s = 1 ∧ z = (k + 1) * dx)) := by
  obtain ⟨a, b⟩ := CELL_NUMBER_spec (x := z) hdx
  obtain ⟨k, hk⟩ : ∃ k, k = CELL_NUMBER z dx := ⟨_, rfl⟩
  rw [← hk] at a b
  have k0 : 0 ≤ k := by
    by_contra h
    have : (k : ℝ) + 1 ≤ 0 := by exact_mod_cast (by omega : k + 1 ≤ 0)
    nlinarith
  rcases b.lt_or_eq with b' | b'
  · have k1 : k ≤ N := by
      by_contra h
      have : (N : ℝ) + 1 ≤ k := by exact_mod_cast (by omega : N + 1 ≤ k)
      nlinarith
    refine ⟨k, 0, cell_is hdx k0 a b, cell_is hdx (by omega) ?_ ?_, k0, by omega, a, Or.inl ⟨rfl, b'⟩⟩ <;> push_cast <;> nlinarith
  · have k1 : k + 1 ≤ N := by
      by_contra h
      have : (N : ℝ) ≤ k := by exact_mod_cast (by omega : N ≤ k)
      nlinarith
    refine ⟨k, 1, cell_is hdx k0 a b, cell_is hdx (by omega) ?_ ?_, k0, by omega, a, Or.inr ⟨rfl, b'⟩⟩ <;> push_cast <;> nlinarith

theorem sumAt_nil (i k : ℤ) : sumAt [] i k = 0 := rfl

theorem sumAt_cons (c : Inc) (l : List Inc) (i k : ℤ) : sumAt (c :: l) i k = (if c.i = i ∧ c.k = k then c.v else 0) + sumAt l i k := by
  simp [sumAt]

/-- a place on a column belongs to both cells: at the end of the move -/
theorem cells_end (G : Geom) (dt q rN rO zO : ℝ) (i j : ℤ) {k l : ℤ} (h : l = k ∨ l = k + 1) :
    SO (strictCells G dt q rN ((k + 1) * G.dz) rO zO i k j l) (strictCells G dt q rN ((k + 1) * G.dz) rO zO i (k + 1) j l) := by
  unfold strictCells
  dsimp only
  by_cases c1 : |rN - rO| < MNZL ∧ |((k : ℝ) + 1) * G.dz - zO| < MNZL
  · rw [if_pos c1, if_pos c1]
    exact .refl _
  rw [if_neg c1, if_neg c1]
  by_cases c2 : |rN - rO| < MNZL
  · rw [if_pos c2, if_pos c2]
    by_cases c3 : rN = 0
    · rw [if_pos c3, if_pos c3]
      exact .none
    rw [if_neg c3, if_neg c3]
    generalize (if i = 0 then _ else _ : ℝ) = w
    generalize q / (dt * 2 * PI * ((i : ℝ) + 1) * G.dr * G.dr) * PI * _ / _ = u
    rcases h with rfl | rfl
    · rw [if_pos (by omega), if_neg (show ¬ l + 1 - l = 0 by omega), if_pos (show l + 1 - l = 1 by omega)]
      refine .some fun a b => ⟨?_, ?_⟩
      · simp [sumAt_cons, sumAt_nil]
      · simp only [sumAt_cons, sumAt_nil]
        push_cast
        rw [sub_self, mul_zero, mul_zero, show l + 1 - 1 = l by ring]
        simp only [ite_self, add_zero]
    · rw [if_neg (show ¬ k - (k + 1) = 0 by omega), if_neg (show ¬ k - (k + 1) = 1 by omega), if_pos (show k - (k + 1) = -1 by omega),
        if_pos (show k + 1 - (k + 1) = 0 by omega)]
      refine .some fun a b => ⟨?_, ?_⟩
      · simp [sumAt_cons, sumAt_nil]
      · simp only [sumAt_cons, sumAt_nil]
        rw [sub_self, mul_zero, mul_zero]
        simp only [ite_self, add_zero]
  rw [if_neg c2, if_neg c2]
  by_cases c3 : |((k : ℝ) + 1) * G.dz - zO| < MNZL
  · rw [if_pos c3, if_pos c3]
    by_cases c4 : rO = 0 ∨ rN = 0
    · rw [if_pos c4, if_pos c4]
      exact .none
    rw [if_neg c4, if_neg c4]
    push_cast
    rw [show ((k : ℝ) + 1) * G.dz - (k + 1) * G.dz = 0 by ring, show ((k : ℝ) + 1) * G.dz - k * G.dz = G.dz by ring,
      show ((k : ℝ) + 1 + 1) * G.dz - (k + 1) * G.dz = G.dz by ring]
    split_ifs
    · refine .some fun a b => ⟨?_, rfl⟩
      simp only [sumAt_cons, sumAt_nil, mul_zero, ite_self]
      ring
    · refine .some fun a b => ⟨?_, rfl⟩
      simp only [sumAt_cons, sumAt_nil, mul_zero, ite_self]
      ring
    · refine .some fun a b => ⟨?_, rfl⟩
      simp only [sumAt_cons, sumAt_nil, mul_zero, ite_self]
      ring
    · exact .refl _
  · rw [if_neg c3, if_neg c3]
    exact .refl _

/-- the same at the start of the move -/
theorem cells_start (G : Geom) (dt q rN zN rO : ℝ) (i j : ℤ) {k l : ℤ} (h : k = l ∨ k = l + 1) :
    SO (strictCells G dt q rN zN rO ((l + 1) * G.dz) i k j l) (strictCells G dt q rN zN rO ((l + 1) * G.dz) i k j (l + 1)) := by
  unfold strictCells
  dsimp only
  by_cases c1 : |rN - rO| < MNZL ∧ |zN - ((l : ℝ) + 1) * G.dz| < MNZL
  · rw [if_pos c1, if_pos c1]
    exact .refl _
  rw [if_neg c1, if_neg c1]
  by_cases c2 : |rN - rO| < MNZL
  · rw [if_pos c2, if_pos c2]
    by_cases c3 : rN = 0
    · rw [if_pos c3, if_pos c3]
      exact .none
    rw [if_neg c3, if_neg c3]
    generalize (if i = 0 then _ else _ : ℝ) = w
    generalize q / (dt * 2 * PI * ((i : ℝ) + 1) * G.dr * G.dr) * PI * _ / _ = u
    rcases h with rfl | rfl
    · rw [if_pos (by omega), if_neg (show ¬ k - (k + 1) = 0 by omega), if_neg (show ¬ k - (k + 1) = 1 by omega), if_pos (show k - (k + 1) = -1 by omega)]
      refine .some fun a b => ⟨rfl, ?_⟩
      simp only [sumAt_cons, sumAt_nil]
      rw [sub_self, mul_zero, mul_zero]
      simp only [ite_self, zero_add]
    · rw [if_neg (show ¬ l + 1 - l = 0 by omega), if_pos (show l + 1 - l = 1 by omega), if_pos (show l + 1 - (l + 1) = 0 by omega)]
      refine .some fun a b => ⟨rfl, ?_⟩
      simp only [sumAt_cons, sumAt_nil]
      push_cast
      rw [sub_self, mul_zero, mul_zero]
      simp only [ite_self, zero_add]
  rw [if_neg c2, if_neg c2]
  exact .refl _

theorem strict_mirror {G : Geom} (dt q rN rO : ℝ) {zN zO : ℝ} {N k l s t : ℤ} (n1 : clamp0 (CELL_NUMBER zN G.dz) = k)
    (n2 : clamp0 (CELL_NUMBER ((N + 1) * G.dz - zN) G.dz) = N - (k + s)) (o1 : clamp0 (CELL_NUMBER zO G.dz) = l)
    (o2 : clamp0 (CELL_NUMBER ((N + 1) * G.dz - zO) G.dz) = N - (l + t)) (hs : s = 0 ∨ (s = 1 ∧ zN = (k + 1) * G.dz ∧ (l = k ∨ l = k + 1)))
    (ht : t = 0 ∨ (t = 1 ∧ zO = (l + 1) * G.dz ∧ (k + s = l ∨ k + s = l + 1))) :
    MO N (strictMotion G dt q rN zN rO zO) (strictMotion G dt q rN ((N + 1) * G.dz - zN) rO ((N + 1) * G.dz - zO)) := by
  rw [strict_eq, strict_eq, n1, n2, o1, o2]
  generalize clamp0 (CELL_NUMBER rN G.dr) = i
  generalize clamp0 (CELL_NUMBER rO G.dr) = j
  refine (cells_mirror G dt q rN rO zN zO N i j (k + s) (l + t)).same (SO.symm ?_)
  refine SO.trans (b := strictCells G dt q rN zN rO zO i (k + s) j l) ?_ ?_
  · rcases hs with rfl | ⟨rfl, rfl, h⟩
    · rw [add_zero]
      exact .refl _
    · exact cells_end G dt q rN rO zO i j h
  · rcases ht with rfl | ⟨rfl, rfl, h⟩
    · rw [add_zero]
      exact .refl _
    · exact cells_start G dt q rN zN rO i j h

/-- the current of a move and that of the mirrored move -/
theorem current_mirror {G : Geom} (hG : G.Valid) (dt q : ℝ) {rN rO zN zO : ℝ} {N : ℤ} (hr : |rN - rO| < G.dr) (hz : |zN - zO| < G.dz)
    (a1 : 0 < zN) (a2 : zN < (N + 1) * G.dz) (b1 : 0 < zO) (b2 : zO < (N + 1) * G.dz) :
    MO N (currentOfMove G dt q rN zN rO zO) (currentOfMove G dt q rN ((N + 1) * G.dz - zN) rO ((N + 1) * G.dz - zO)) := by
  have dz := hG.dz_pos
  obtain ⟨z1, z2⟩ := abs_lt.1 hz
  obtain ⟨k, s, k2, k3, k0, k1, k4, k5⟩ := cell_image dz a1 a2
  obtain ⟨l, t, l2, l3, l0, l1, l4, l5⟩ := cell_image dz b1 b2
  have near := cell_near hG.dr_pos hr
  have nearz := cell_near dz hz
  rw [k2, l2, abs_le] at nearz
  -- what the strict motions need
  have sk : s = 0 ∨ (s = 1 ∧ zN = (k + 1) * G.dz ∧ (l = k ∨ l = k + 1)) := by
    rcases k5 with ⟨h, -⟩ | ⟨h, h'⟩
    · exact Or.inl h
    · refine Or.inr ⟨h, h', ?_⟩
      have : ¬ l + 1 ≤ k := by
        intro hc
        have : (l : ℝ) + 1 ≤ k := by exact_mod_cast hc
        have : zO ≤ (l + 1) * G.dz := by rcases l5 with ⟨-, h⟩ | ⟨-, h⟩ <;> linarith
        nlinarith
      omega
  have tl : t = 0 ∨ (t = 1 ∧ zO = (l + 1) * G.dz ∧ (k + s = l ∨ k + s = l + 1)) := by
    rcases l5 with ⟨h, -⟩ | ⟨h, h'⟩
    · exact Or.inl h
    · refine Or.inr ⟨h, h', ?_⟩
      have : ¬ k + 1 ≤ l := by
        intro hc
        have : (k : ℝ) + 1 ≤ l := by exact_mod_cast hc
        have : zN ≤ (k + 1) * G.dz := by rcases k5 with ⟨-, h⟩ | ⟨-, h⟩ <;> linarith
        nlinarith
      rcases k5 with ⟨hs, -⟩ | ⟨hs, hs'⟩
      · omega
      · have : ¬ l + 1 ≤ k := by
          intro hc
          have : (l : ℝ) + 1 ≤ k := by exact_mod_cast hc
          nlinarith
        omega
  have hs := strict_mirror dt q rN rO (G := G) k2 k3 l2 l3 sk tl
  rw [move_eq, move_eq]
  dsimp only
  rw [k2, k3, l2, l3]
  generalize clamp0 (CELL_NUMBER rN G.dr) = i at near
  generalize clamp0 (CELL_NUMBER rO G.dr) = j at near
  obtain ⟨j', hj'⟩ : ∃ j', j' = if rO = ((j : ℝ) + 1) * G.dr then i else j := ⟨_, rfl⟩
  obtain ⟨i', hi'⟩ : ∃ i', i' = if rN = ((i : ℝ) + 1) * G.dr then j' else i := ⟨_, rfl⟩
  rw [← hj', ← hi']
  have near' : |i' - j'| ≤ 1 := by
    rw [abs_le] at near ⊢
    rw [hi', hj']
    split_ifs <;> omega
  -- the same cell at the start and at the end
  have same : ∀ c, MO N (afterCells G dt q rN zN rO zO i' c j' c)
      (afterCells G dt q rN ((N + 1) * G.dz - zN) rO ((N + 1) * G.dz - zO) i' (N - c) j' (N - c)) := fun c =>
    after_forward hG dt q rN rO hs near' le_rfl fun h => absurd h (lt_irrefl _)
  rcases k5 with ⟨rfl, k5⟩ | ⟨rfl, k5⟩ <;> rcases l5 with ⟨rfl, l5⟩ | ⟨rfl, l5⟩
  · rw [if_neg k5.ne, if_neg l5.ne, if_neg (show ¬ (N + 1) * G.dz - zN = (((N - (k + 0) : ℤ) : ℝ) + 1) * G.dz by push_cast; intro h; linarith),
      if_neg (show ¬ (N + 1) * G.dz - zO = (((N - (l + 0) : ℤ) : ℝ) + 1) * G.dz by push_cast; intro h; linarith), add_zero, add_zero]
    rcases le_total l k with h | h
    · exact after_forward hG dt q rN rO hs near' h fun _ => l5
    · have e : ∀ z : ℝ, (N + 1) * G.dz - ((N + 1) * G.dz - z) = z := fun z => by ring
      have t := after_forward hG dt q rN rO (zN := (N + 1) * G.dz - zN) (zO := (N + 1) * G.dz - zO) (N := N) (i := i') (j := j') (k := N - k) (l := N - l)
        (by rw [e, e]; exact hs.symm) near' (by omega) (fun _ => by push_cast; linarith)
      rw [e, e, show N - (N - k) = k by ring, show N - (N - l) = l by ring] at t
      exact t.symm
  · rw [if_neg k5.ne, if_pos l5, if_neg (show ¬ (N + 1) * G.dz - zN = (((N - (k + 0) : ℤ) : ℝ) + 1) * G.dz by push_cast; intro h; linarith),
      if_pos (show (N + 1) * G.dz - zO = (((N - (l + 1) : ℤ) : ℝ) + 1) * G.dz by push_cast; linarith), add_zero]
    exact same k
  · rw [if_pos k5, if_neg l5.ne, if_pos (show (N + 1) * G.dz - zN = (((N - (k + 1) : ℤ) : ℝ) + 1) * G.dz by push_cast; linarith),
      if_neg (show ¬ (N + 1) * G.dz - zO = (((N - (l + 0) : ℤ) : ℝ) + 1) * G.dz by push_cast; intro h; linarith), add_zero]
    exact same l
  · have kl : k = l := by
      have h1 : ¬ l + 1 ≤ k := by
        intro hc
        have : (l : ℝ) + 1 ≤ k := by exact_mod_cast hc
        nlinarith
      have h2 : ¬ k + 1 ≤ l := by
        intro hc
        have : (k : ℝ) + 1 ≤ l := by exact_mod_cast hc
        nlinarith
      omega
    subst kl
    rw [if_pos k5, if_pos l5, if_pos (show (N + 1) * G.dz - zO = (((N - (k + 1) : ℤ) : ℝ) + 1) * G.dz by push_cast; linarith),
      if_pos (show (N + 1) * G.dz - zN = (((N - (k + 1) : ℤ) : ℝ) + 1) * G.dz by push_cast; linarith)]
    have t := same k
    unfold afterCells at t ⊢
    dsimp only at t ⊢
    have z0 : |zN - zO| < MNZL := by
      rw [k5, l5, sub_self, abs_zero]
      norm_num [MNZL]
    have z0' : |(N + 1) * G.dz - zN - ((N + 1) * G.dz - zO)| < MNZL := by
      rw [k5, l5, sub_self, abs_zero]
      norm_num [MNZL]
    rw [if_pos (Or.inr z0), if_pos (Or.inr z0')]
    exact hs

end Mirror

end Verif
