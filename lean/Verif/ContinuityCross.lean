import Verif.ContinuityMove

/-!
# Continuity of moves that may cross cell faces (support for C05 and C06)
-/

namespace Verif

/-! ## Specification: where a straight path meets the cell faces -/

/-- At time `t` of the straight path from `xo` to `xn` the coordinate is on a cell face. -/
def FaceTime (dx xo xn t : ℝ) : Prop := ∃ m : ℤ, xo + t * (xn - xo) = m * dx

/-- The times at which the path starts, ends or meets a cell face in between. -/
def CutTime (G : Geom) (rO zO rN zN t : ℝ) : Prop :=
  t = 0 ∨ t = 1 ∨ (0 < t ∧ t < 1 ∧ (FaceTime G.dr rO rN t ∨ FaceTime G.dz zO zN t))

/-- Every piece into which the cell faces cut the path is at least `MNZL` (1e-15) long both
radially and axially. -/
def PiecesLong (G : Geom) (rO zO rN zN : ℝ) : Prop :=
  ∀ s t, CutTime G rO zO rN zN s → CutTime G rO zO rN zN t → s < t →
    MNZL ≤ (t - s) * |rN - rO| ∧ MNZL ≤ (t - s) * |zN - zO|

/-- The path does not pass exactly through a grid node line (a corner of cells). -/
def NoCorner (G : Geom) (rO zO rN zN : ℝ) : Prop :=
  ∀ t, 0 < t → t < 1 → ¬ (FaceTime G.dr rO rN t ∧ FaceTime G.dz zO zN t)

/-! ## Proof -/

section
variable {G : Geom} {rO zO rN zN : ℝ}

theorem glue_r' (hG : G.Valid) (q : ℝ) {i k : ℤ} (hi : 1 ≤ i) {r : ℝ} (z : ℝ)
    (hr : r = (i : ℝ) * G.dr) : cellRho G q (i - 1) k r z = cellRho G q i k r z := by
  have := cellRho_glue_r G hG q (i - 1) k (by omega) z
  have e : (((i - 1 : ℤ) : ℝ) + 1) * G.dr = r := by rw [hr]; push_cast; ring
  rwa [e, sub_add_cancel] at this

theorem glue_z' (hG : G.Valid) (q : ℝ) {i k : ℤ} {z : ℝ} (r : ℝ)
    (hz : z = (k : ℝ) * G.dz) : cellRho G q i (k - 1) r z = cellRho G q i k r z := by
  have := cellRho_glue_z G hG q i (k - 1) r
  have e : (((k - 1 : ℤ) : ℝ) + 1) * G.dz = z := by rw [hz]; push_cast; ring
  rwa [e, sub_add_cancel] at this

/-- a piece of the path between two cut times -/
theorem path_piece (hG : G.Valid) {dt : ℝ} (hdt : dt ≠ 0) (q : ℝ)
    (hrO : 0 < rO) (hrN : 0 < rN) (hlong : PiecesLong G rO zO rN zN)
    {i k : ℤ} (hi : 0 ≤ i) (hi1 : i + 1 < G.nr) (hk : 0 ≤ k) (hk1 : k + 1 < G.nz)
    {s t r1 z1 r2 z2 : ℝ} (hs : CutTime G rO zO rN zN s) (ht : CutTime G rO zO rN zN t)
    (hst : s < t)
    (e1 : r1 = rO + s * (rN - rO)) (e2 : z1 = zO + s * (zN - zO))
    (e3 : r2 = rO + t * (rN - rO)) (e4 : z2 = zO + t * (zN - zO)) :
    Balanced G dt (cellRho G q i k r1 z1) (cellRho G q i k r2 z2)
      (simpleCurrent G dt q r2 z2 r1 z1 i k) := by
  have range : ∀ {u}, CutTime G rO zO rN zN u → 0 ≤ u ∧ u ≤ 1 := by
    rintro u (h | h | ⟨h1, h2, _⟩)
    · subst h; norm_num
    · subst h; norm_num
    · exact ⟨h1.le, h2.le⟩
  have pos : ∀ {u}, 0 ≤ u → u ≤ 1 → 0 < rO + u * (rN - rO) := by
    intro u h0 h1
    have : rO + u * (rN - rO) = (1 - u) * rO + u * rN := by ring
    rw [this]
    rcases h0.lt_or_eq with h | h
    · have := mul_pos h hrN
      have := mul_nonneg (sub_nonneg.2 h1) hrO.le
      linarith
    · rw [← h]; linarith
  obtain ⟨l1, l2⟩ := hlong s t hs ht hst
  apply Balanced.piece G hG hdt q hi hi1 hk hk1
  · rw [e3]; exact pos (range ht).1 (range ht).2
  · rw [e1]; exact pos (range hs).1 (range hs).2
  · have : r2 - r1 = (t - s) * (rN - rO) := by rw [e1, e3]; ring
    rw [this, abs_mul, abs_of_pos (sub_pos.2 hst)]; exact l1
  · have : z2 - z1 = (t - s) * (zN - zO) := by rw [e2, e4]; ring
    rw [this, abs_mul, abs_of_pos (sub_pos.2 hst)]; exact l2

/-- the crossing time of a face strictly between the end points -/
theorem cross_time {xo xn f : ℝ} (h : (xo < f ∧ f < xn) ∨ (xn < f ∧ f < xo)) :
    0 < (f - xo) / (xn - xo) ∧ (f - xo) / (xn - xo) < 1 ∧
      xo + (f - xo) / (xn - xo) * (xn - xo) = f := by
  rcases h with ⟨h1, h2⟩ | ⟨h1, h2⟩
  · have hd : 0 < xn - xo := by linarith
    refine ⟨div_pos (by linarith) hd, ?_, by field_simp; ring⟩
    rw [div_lt_one hd]; linarith
  · have hd : xn - xo < 0 := by linarith
    refine ⟨div_pos_of_neg_of_neg (by linarith) hd, ?_, by field_simp [hd.ne]; ring⟩
    rw [div_lt_one_of_neg hd]; linarith

end

set_option maxHeartbeats 1600000 in
/-- Every move of less than a cell in each direction, off the axial half cell, whose pieces are
longer than the dropping threshold and which does not hit a cell corner, is balanced. -/
theorem move_balanced (G : Geom) (hG : G.Valid) {dt : ℝ} (hdt : dt ≠ 0) (q rO zO rN zN : ℝ)
    (hrO : G.dr / 2 ≤ rO) (hrN : G.dr / 2 ≤ rN) (hRO : rO ≤ G.r_size) (hRN : rN ≤ G.r_size)
    (hzO : 0 ≤ zO) (hzN : 0 ≤ zN) (hZO : zO ≤ G.z_size) (hZN : zN ≤ G.z_size)
    (hsr : |rN - rO| < G.dr) (hsz : |zN - zO| < G.dz)
    (hlong : PiecesLong G rO zO rN zN) (hcor : NoCorner G rO zO rN zN) :
    Balanced G dt (contrib (chargeIncs G q rO zO)) (contrib (chargeIncs G q rN zN))
      (currentOfMove G dt q rN zN rO zO) := by
  have hdr := hG.dr_pos
  have hdz := hG.dz_pos
  have hm := MNZL_pos
  have hrO0 : 0 < rO := by linarith
  have hrN0 : 0 < rN := by linarith
  have c0 : CutTime G rO zO rN zN 0 := Or.inl rfl
  have c1 : CutTime G rO zO rN zN 1 := Or.inr (Or.inl rfl)
  obtain ⟨l1, l2⟩ := hlong 0 1 c0 c1 one_pos
  rw [sub_zero, one_mul] at l1 l2
  have hΔr : rN - rO ≠ 0 := fun h => by rw [h, abs_zero] at l1; linarith
  have hΔz : zN - zO ≠ 0 := fun h => by rw [h, abs_zero] at l2; linarith
  have hg : ¬ (|rN - rO| < MNZL ∨ |zN - zO| < MNZL) := by
    rintro (h | h) <;> linarith
  -- the code's indices
  set co := clamp0 (CELL_NUMBER rO G.dr) with hco
  set cn := clamp0 (CELL_NUMBER rN G.dr) with hcn
  set ko := clamp0 (CELL_NUMBER zO G.dz) with hko
  set kn := clamp0 (CELL_NUMBER zN G.dz) with hkn
  obtain ⟨io, hio⟩ : ∃ io, io = if rO = ((co : ℝ) + 1) * G.dr then cn else co := ⟨_, rfl⟩
  obtain ⟨i, hi⟩ : ∃ i, i = if rN = ((cn : ℝ) + 1) * G.dr then io else cn := ⟨_, rfl⟩
  obtain ⟨k', hk'⟩ : ∃ k', k' = if zO = ((ko : ℝ) + 1) * G.dz then kn else ko := ⟨_, rfl⟩
  obtain ⟨k, hk⟩ : ∃ k, k = if zN = ((kn : ℝ) + 1) * G.dz then k' else kn := ⟨_, rfl⟩
  obtain ⟨io0, i0, io1, i1, hR⟩ := adjust_spec hdr hrO0.le hrN0.le hsr (sub_ne_zero.1 hΔr)
    hG.r_size_eq hG.nr_ge hRO hRN hco hcn hio hi
  obtain ⟨ko0, k0, ko1, k1, hZ⟩ := adjust_spec hdz hzO hzN hsz (sub_ne_zero.1 hΔz)
    hG.z_size_eq hG.nz_ge hZO hZN hko hkn hk' hk
  unfold currentOfMove
  simp only [hg, if_false]
  rw [← hco, ← hcn, ← hko, ← hkn, ← hio, ← hi, ← hk', ← hk]
  clear_value co cn ko kn
  have piece := @path_piece G rO zO rN zN hG dt hdt q hrO0 hrN0 hlong
  have rI : ∀ {m : ℤ}, 1 ≤ m → (0:ℝ) < (m : ℝ) * G.dr := by
    intro m hm; have : (1:ℝ) ≤ m := by exact_mod_cast hm
    positivity
  -- end points as path points
  have pr0 : rO = rO + 0 * (rN - rO) := by ring
  have pz0 : zO = zO + 0 * (zN - zO) := by ring
  have pr1 : rN = rO + 1 * (rN - rO) := by ring
  have pz1 : zN = zO + 1 * (zN - zO) := by ring
  rcases hR with ⟨eR, a1, a2, a3, a4⟩ | ⟨eR, a1, a2, a3, a4⟩ | ⟨eR, a1, a2, a3, a4⟩
  · rcases hZ with ⟨eZ, b1, b2, b3, b4⟩ | ⟨eZ, b1, b2, b3, b4⟩ | ⟨eZ, b1, b2, b3, b4⟩
    · -- same cell
      rw [if_pos (by rw [eR, eZ]; simp)]
      rw [contrib_chargeIncs_cell G hG q rO zO hrO hzO i0 k0 a1 a2 b1 b2,
        contrib_chargeIncs_cell G hG q rN zN hrN hzN i0 k0 a3 a4 b3 b4]
      exact piece i0 i1 k0 k1 c0 c1 one_pos pr0 pz0 pr1 pz1
    · -- forward in z
      have hkr : (k' : ℝ) = (k : ℝ) - 1 := by rw [eZ]; push_cast; ring
      rw [if_neg (by rw [eR, eZ]; simp), if_pos (by rw [eR, eZ]; simp),
        if_neg (by rw [eR]; simp), if_pos ⟨eR, by omega⟩, if_pos b2]
      obtain ⟨t0, t1, te⟩ := cross_time (Or.inl ⟨b2, b3⟩ : (zO < (k:ℝ) * G.dz ∧ _) ∨ _)
      set t := ((k:ℝ) * G.dz - zO) / (zN - zO) with ht
      have ct : CutTime G rO zO rN zN t := Or.inr (Or.inr ⟨t0, t1, Or.inr ⟨k, te⟩⟩)
      rw [contrib_chargeIncs_cell G hG q rO zO hrO hzO i0 (by omega : 0 ≤ k - 1) a1 a2
          (by push_cast; rw [← hkr]; exact b1) (by push_cast; rw [sub_add_cancel]; exact b2.le),
        contrib_chargeIncs_cell G hG q rN zN hrN hzN i0 k0 a3 a4 b3.le b4]
      have er : rO + (rN - rO) / (zN - zO) * ((k:ℝ) * G.dz - zO) = rO + t * (rN - rO) := by
        rw [ht]; field_simp
      refine Balanced.seq (B := cellRho G q i k (rO + t * (rN - rO)) ((k:ℝ) * G.dz)) ?_ ?_
      · rw [← glue_z' hG q _ rfl]
        rw [er]
        exact piece i0 i1 (by omega) (by omega) c0 ct t0 pr0 pz0 rfl te.symm
      · rw [er]
        exact piece i0 i1 k0 k1 ct c1 t1 rfl te.symm pr1 pz1
    · -- backward in z
      have hkr : (k' : ℝ) = (k : ℝ) + 1 := by rw [eZ]; push_cast; ring
      have hnlt : ¬ zO < (k : ℝ) * G.dz := by
        have : ((k:ℝ) + 1) * G.dz = (k:ℝ) * G.dz + G.dz := by ring
        linarith
      rw [if_neg (by rw [eR, eZ]; simp), if_pos (by rw [eR, eZ]; simp),
        if_neg (by rw [eR]; simp), if_pos ⟨eR, by omega⟩, if_neg hnlt]
      obtain ⟨t0, t1, te⟩ := cross_time (Or.inr ⟨b4, b1⟩ : _ ∨ (zN < ((k:ℝ) + 1) * G.dz ∧ _))
      set t := (((k:ℝ) + 1) * G.dz - zO) / (zN - zO) with ht
      have ct : CutTime G rO zO rN zN t :=
        Or.inr (Or.inr ⟨t0, t1, Or.inr ⟨k + 1, by push_cast; exact te⟩⟩)
      rw [contrib_chargeIncs_cell G hG q rO zO hrO hzO i0 (by omega : 0 ≤ k + 1) a1 a2
          (by push_cast; exact b1.le) (by push_cast; rw [← hkr]; exact b2),
        contrib_chargeIncs_cell G hG q rN zN hrN hzN i0 k0 a3 a4 b3 b4.le]
      have hne : zO - zN ≠ 0 := fun h => hΔz (by linarith)
      have er : rN + (rO - rN) / (zO - zN) * (((k:ℝ) + 1) * G.dz - zN) = rO + t * (rN - rO) := by
        rw [ht]; field_simp; ring
      refine Balanced.seq (B := cellRho G q i k (rO + t * (rN - rO)) (((k:ℝ) + 1) * G.dz)) ?_ ?_
      · rw [cellRho_glue_z G hG q i k]
        rw [er]
        exact piece i0 i1 (by omega) (by omega) c0 ct t0 pr0 pz0 rfl te.symm
      · rw [er]
        exact piece i0 i1 k0 k1 ct c1 t1 rfl te.symm pr1 pz1
  · -- outward in r
    have hir : (io : ℝ) = (i : ℝ) - 1 := by rw [eR]; push_cast; ring
    have hngt : ¬ rO > ((i : ℝ) + 1) * G.dr := by
      have : ((i:ℝ) + 1) * G.dr = (i:ℝ) * G.dr + G.dr := by ring
      linarith
    obtain ⟨t0, t1, te⟩ := cross_time (Or.inl ⟨a2, a3⟩ : (rO < (i:ℝ) * G.dr ∧ _) ∨ _)
    obtain ⟨t, ht⟩ : ∃ t, t = ((i:ℝ) * G.dr - rO) / (rN - rO) := ⟨_, rfl⟩
    rw [← ht] at t0 t1 te
    have ct : CutTime G rO zO rN zN t := Or.inr (Or.inr ⟨t0, t1, Or.inl ⟨i, te⟩⟩)
    have ez : zO + ((i:ℝ) * G.dr - rO) / ((rN - rO) / (zN - zO)) = zO + t * (zN - zO) := by
      rw [ht]; field_simp
    have o1 : ((i - 1 : ℤ) : ℝ) * G.dr ≤ rO := by push_cast; rw [← hir]; exact a1
    have o2 : rO ≤ (((i - 1 : ℤ) : ℝ) + 1) * G.dr := by
      push_cast; rw [sub_add_cancel]; exact a2.le
    rcases hZ with ⟨eZ, b1, b2, b3, b4⟩ | ⟨eZ, b1, b2, b3, b4⟩ | ⟨eZ, b1, b2, b3, b4⟩
    · rw [if_neg (by rw [eR, eZ]; simp), if_pos (by rw [eR, eZ]; simp),
        if_pos ⟨by omega, eZ⟩, if_neg hngt]
      rw [contrib_chargeIncs_cell G hG q rO zO hrO hzO (by omega : 0 ≤ i - 1) k0 o1 o2 b1 b2,
        contrib_chargeIncs_cell G hG q rN zN hrN hzN i0 k0 a3.le a4 b3 b4]
      rw [ez]
      refine Balanced.seq (B := cellRho G q i k ((i:ℝ) * G.dr) (zO + t * (zN - zO))) ?_ ?_
      · rw [← glue_r' hG q (by omega) _ rfl]
        exact piece (by omega) (by omega) k0 k1 c0 ct t0 pr0 pz0 te.symm rfl
      · exact piece i0 i1 k0 k1 ct c1 t1 te.symm rfl pr1 pz1
    · -- diagonal: outward, forward
      have hkr : (k' : ℝ) = (k : ℝ) - 1 := by rw [eZ]; push_cast; ring
      obtain ⟨s0, s1, se⟩ := cross_time (Or.inl ⟨b2, b3⟩ : (zO < (k:ℝ) * G.dz ∧ _) ∨ _)
      obtain ⟨s, hs⟩ : ∃ s, s = ((k:ℝ) * G.dz - zO) / (zN - zO) := ⟨_, rfl⟩
      rw [← hs] at s0 s1 se
      have cs : CutTime G rO zO rN zN s := Or.inr (Or.inr ⟨s0, s1, Or.inr ⟨k, se⟩⟩)
      have er : rO + ((k:ℝ) * G.dz - zO) * ((rN - rO) / (zN - zO)) = rO + s * (rN - rO) := by
        rw [hs]; field_simp
      have hzpos : 0 < zN - zO := by linarith
      have hst : t ≠ s := by
        intro h; exact hcor t t0 t1 ⟨⟨i, te⟩, ⟨k, by rw [h]; exact se⟩⟩
      rw [if_neg (by rw [eR, eZ]; simp), if_neg (by rw [eR, eZ]; simp),
        if_pos (by rw [eR, eZ]; simp), if_pos (by omega), if_pos (by omega)]
      rw [contrib_chargeIncs_cell G hG q rO zO hrO hzO (by omega : 0 ≤ i - 1) (by omega : 0 ≤ k - 1)
          o1 o2 (by push_cast; rw [← hkr]; exact b1) (by push_cast; rw [sub_add_cancel]; exact b2.le),
        contrib_chargeIncs_cell G hG q rN zN hrN hzN i0 k0 a3.le a4 b3.le b4]
      rw [ez, er]
      rcases lt_or_gt_of_ne hst with h | h
      · rw [if_pos (by rw [← se]; nlinarith)]
        refine Balanced.seq (B := cellRho G q i (k - 1) ((i:ℝ) * G.dr) (zO + t * (zN - zO))) ?_
          (Balanced.seq (B := cellRho G q i k (rO + s * (rN - rO)) ((k:ℝ) * G.dz)) ?_ ?_)
        · rw [← glue_r' hG q (by omega) _ rfl]
          exact piece (by omega) (by omega) (by omega) (by omega) c0 ct t0 pr0 pz0 te.symm rfl
        · rw [← glue_z' hG q _ rfl]
          exact piece i0 i1 (by omega) (by omega) ct cs h te.symm rfl rfl se.symm
        · exact piece i0 i1 k0 k1 cs c1 s1 rfl se.symm pr1 pz1
      · rw [if_neg (by rw [← se]; nlinarith), if_pos (by rw [← se]; nlinarith)]
        refine Balanced.seq (B := cellRho G q (i - 1) k (rO + s * (rN - rO)) ((k:ℝ) * G.dz)) ?_
          (Balanced.seq (B := cellRho G q i k ((i:ℝ) * G.dr) (zO + t * (zN - zO))) ?_ ?_)
        · rw [← glue_z' hG q _ rfl]
          exact piece (by omega) (by omega) (by omega) (by omega) c0 cs s0 pr0 pz0 rfl se.symm
        · rw [← glue_r' hG q (by omega) _ rfl]
          exact piece (by omega) (by omega) k0 k1 cs ct h rfl se.symm te.symm rfl
        · exact piece i0 i1 k0 k1 ct c1 t1 te.symm rfl pr1 pz1
    · -- diagonal: outward, backward
      have hkr : (k' : ℝ) = (k : ℝ) + 1 := by rw [eZ]; push_cast; ring
      obtain ⟨s0, s1, se⟩ := cross_time (Or.inr ⟨b4, b1⟩ : _ ∨ (zN < ((k:ℝ) + 1) * G.dz ∧ _))
      obtain ⟨s, hs⟩ : ∃ s, s = (((k:ℝ) + 1) * G.dz - zO) / (zN - zO) := ⟨_, rfl⟩
      rw [← hs] at s0 s1 se
      have se' : FaceTime G.dz zO zN s := ⟨k + 1, by push_cast; exact se⟩
      have cs : CutTime G rO zO rN zN s := Or.inr (Or.inr ⟨s0, s1, Or.inr se'⟩)
      have er : rO + -(zO - ((k:ℝ) + 1) * G.dz) * ((rN - rO) / (zN - zO)) = rO + s * (rN - rO) := by
        rw [hs]; field_simp; ring
      have hzneg : zN - zO < 0 := by linarith
      have hst : t ≠ s := by
        intro h; exact hcor t t0 t1 ⟨⟨i, te⟩, by rw [h]; exact se'⟩
      rw [if_neg (by rw [eR, eZ]; simp), if_neg (by rw [eR, eZ]; simp),
        if_pos (by rw [eR, eZ]; simp), if_pos (by omega), if_neg (by omega)]
      rw [contrib_chargeIncs_cell G hG q rO zO hrO hzO (by omega : 0 ≤ i - 1) (by omega : 0 ≤ k + 1)
          o1 o2 (by push_cast; exact b1.le) (by push_cast; rw [← hkr]; exact b2),
        contrib_chargeIncs_cell G hG q rN zN hrN hzN i0 k0 a3.le a4 b3 b4.le]
      rw [ez, er]
      rcases lt_or_gt_of_ne hst with h | h
      · rw [if_pos (by rw [← se]; nlinarith)]
        refine Balanced.seq (B := cellRho G q i (k + 1) ((i:ℝ) * G.dr) (zO + t * (zN - zO))) ?_
          (Balanced.seq (B := cellRho G q i k (rO + s * (rN - rO)) (((k:ℝ) + 1) * G.dz)) ?_ ?_)
        · rw [← glue_r' hG q (by omega) _ rfl]
          exact piece (by omega) (by omega) (by omega) (by omega) c0 ct t0 pr0 pz0 te.symm rfl
        · rw [cellRho_glue_z G hG q i k]
          exact piece i0 i1 (by omega) (by omega) ct cs h te.symm rfl rfl se.symm
        · exact piece i0 i1 k0 k1 cs c1 s1 rfl se.symm pr1 pz1
      · rw [if_neg (by rw [← se]; nlinarith), if_pos (by rw [← se]; nlinarith)]
        refine Balanced.seq (B := cellRho G q (i - 1) k (rO + s * (rN - rO)) (((k:ℝ) + 1) * G.dz)) ?_
          (Balanced.seq (B := cellRho G q i k ((i:ℝ) * G.dr) (zO + t * (zN - zO))) ?_ ?_)
        · rw [cellRho_glue_z G hG q (i - 1) k]
          exact piece (by omega) (by omega) (by omega) (by omega) c0 cs s0 pr0 pz0 rfl se.symm
        · rw [← glue_r' hG q (by omega) _ rfl]
          exact piece (by omega) (by omega) k0 k1 cs ct h rfl se.symm te.symm rfl
        · exact piece i0 i1 k0 k1 ct c1 t1 te.symm rfl pr1 pz1
  · -- inward in r
    have hir : (io : ℝ) = (i : ℝ) + 1 := by rw [eR]; push_cast; ring
    obtain ⟨t0, t1, te⟩ := cross_time (Or.inr ⟨a4, a1⟩ : _ ∨ (rN < ((i:ℝ) + 1) * G.dr ∧ _))
    obtain ⟨t, ht⟩ : ∃ t, t = (((i:ℝ) + 1) * G.dr - rO) / (rN - rO) := ⟨_, rfl⟩
    rw [← ht] at t0 t1 te
    have te' : FaceTime G.dr rO rN t := ⟨i + 1, by push_cast; exact te⟩
    have ct : CutTime G rO zO rN zN t := Or.inr (Or.inr ⟨t0, t1, Or.inl te'⟩)
    have hne : zO - zN ≠ 0 := fun h => hΔz (by linarith)
    have hne' : rO - rN ≠ 0 := fun h => hΔr (by linarith)
    have ez : zN + (((i:ℝ) + 1) * G.dr - rN) / ((rO - rN) / (zO - zN)) = zO + t * (zN - zO) := by
      rw [ht]; field_simp; ring
    have ez' : zO + -(rO - ((i:ℝ) + 1) * G.dr) / ((rN - rO) / (zN - zO)) = zO + t * (zN - zO) := by
      rw [ht]; field_simp; ring
    have o1 : ((i + 1 : ℤ) : ℝ) * G.dr ≤ rO := by push_cast; exact a1.le
    have o2 : rO ≤ (((i + 1 : ℤ) : ℝ) + 1) * G.dr := by push_cast; rw [← hir]; exact a2
    rcases hZ with ⟨eZ, b1, b2, b3, b4⟩ | ⟨eZ, b1, b2, b3, b4⟩ | ⟨eZ, b1, b2, b3, b4⟩
    · rw [if_neg (by rw [eR, eZ]; simp), if_pos (by rw [eR, eZ]; simp),
        if_pos ⟨by omega, eZ⟩, if_pos a1]
      rw [contrib_chargeIncs_cell G hG q rO zO hrO hzO (by omega : 0 ≤ i + 1) k0 o1 o2 b1 b2,
        contrib_chargeIncs_cell G hG q rN zN hrN hzN i0 k0 a3 a4.le b3 b4]
      rw [ez]
      refine Balanced.seq (B := cellRho G q i k (((i:ℝ) + 1) * G.dr) (zO + t * (zN - zO))) ?_ ?_
      · rw [cellRho_glue_r G hG q i k i0]
        exact piece (by omega) (by omega) k0 k1 c0 ct t0 pr0 pz0 te.symm rfl
      · exact piece i0 i1 k0 k1 ct c1 t1 te.symm rfl pr1 pz1
    · -- diagonal: inward, forward
      have hkr : (k' : ℝ) = (k : ℝ) - 1 := by rw [eZ]; push_cast; ring
      obtain ⟨s0, s1, se⟩ := cross_time (Or.inl ⟨b2, b3⟩ : (zO < (k:ℝ) * G.dz ∧ _) ∨ _)
      obtain ⟨s, hs⟩ : ∃ s, s = ((k:ℝ) * G.dz - zO) / (zN - zO) := ⟨_, rfl⟩
      rw [← hs] at s0 s1 se
      have cs : CutTime G rO zO rN zN s := Or.inr (Or.inr ⟨s0, s1, Or.inr ⟨k, se⟩⟩)
      have er : rO - -((k:ℝ) * G.dz - zO) * ((rN - rO) / (zN - zO)) = rO + s * (rN - rO) := by
        rw [hs]; field_simp; ring
      have hzpos : 0 < zN - zO := by linarith
      have hst : t ≠ s := by
        intro h; exact hcor t t0 t1 ⟨te', ⟨k, by rw [h]; exact se⟩⟩
      rw [if_neg (by rw [eR, eZ]; simp), if_neg (by rw [eR, eZ]; simp),
        if_pos (by rw [eR, eZ]; simp), if_neg (by omega), if_pos (by omega), if_pos (by omega)]
      rw [contrib_chargeIncs_cell G hG q rO zO hrO hzO (by omega : 0 ≤ i + 1) (by omega : 0 ≤ k - 1)
          o1 o2 (by push_cast; rw [← hkr]; exact b1) (by push_cast; rw [sub_add_cancel]; exact b2.le),
        contrib_chargeIncs_cell G hG q rN zN hrN hzN i0 k0 a3 a4.le b3.le b4]
      rw [ez', er]
      rcases lt_or_gt_of_ne hst with h | h
      · rw [if_pos (by rw [← se]; nlinarith)]
        refine Balanced.seq (B := cellRho G q i (k - 1) (((i:ℝ) + 1) * G.dr) (zO + t * (zN - zO))) ?_
          (Balanced.seq (B := cellRho G q i k (rO + s * (rN - rO)) ((k:ℝ) * G.dz)) ?_ ?_)
        · rw [cellRho_glue_r G hG q i _ i0]
          exact piece (by omega) (by omega) (by omega) (by omega) c0 ct t0 pr0 pz0 te.symm rfl
        · rw [← glue_z' hG q _ rfl]
          exact piece i0 i1 (by omega) (by omega) ct cs h te.symm rfl rfl se.symm
        · exact piece i0 i1 k0 k1 cs c1 s1 rfl se.symm pr1 pz1
      · rw [if_neg (by rw [← se]; nlinarith), if_pos (by rw [← se]; nlinarith)]
        refine Balanced.seq (B := cellRho G q (i + 1) k (rO + s * (rN - rO)) ((k:ℝ) * G.dz)) ?_
          (Balanced.seq (B := cellRho G q i k (((i:ℝ) + 1) * G.dr) (zO + t * (zN - zO))) ?_ ?_)
        · rw [← glue_z' hG q _ rfl]
          exact piece (by omega) (by omega) (by omega) (by omega) c0 cs s0 pr0 pz0 rfl se.symm
        · rw [cellRho_glue_r G hG q i _ i0]
          exact piece (by omega) (by omega) k0 k1 cs ct h rfl se.symm te.symm rfl
        · exact piece i0 i1 k0 k1 ct c1 t1 te.symm rfl pr1 pz1
    · -- diagonal: inward, backward
      have hkr : (k' : ℝ) = (k : ℝ) + 1 := by rw [eZ]; push_cast; ring
      obtain ⟨s0, s1, se⟩ := cross_time (Or.inr ⟨b4, b1⟩ : _ ∨ (zN < ((k:ℝ) + 1) * G.dz ∧ _))
      obtain ⟨s, hs⟩ : ∃ s, s = (((k:ℝ) + 1) * G.dz - zO) / (zN - zO) := ⟨_, rfl⟩
      rw [← hs] at s0 s1 se
      have se' : FaceTime G.dz zO zN s := ⟨k + 1, by push_cast; exact se⟩
      have cs : CutTime G rO zO rN zN s := Or.inr (Or.inr ⟨s0, s1, Or.inr se'⟩)
      have er : rN + (((k:ℝ) + 1) * G.dz - zN) * ((rO - rN) / (zO - zN)) = rO + s * (rN - rO) := by
        rw [hs]; field_simp; ring
      have hzneg : zN - zO < 0 := by linarith
      have hst : t ≠ s := by
        intro h; exact hcor t t0 t1 ⟨te', by rw [h]; exact se'⟩
      rw [if_neg (by rw [eR, eZ]; simp), if_neg (by rw [eR, eZ]; simp),
        if_pos (by rw [eR, eZ]; simp), if_neg (by omega), if_pos (by omega), if_neg (by omega),
        if_pos (by omega)]
      rw [contrib_chargeIncs_cell G hG q rO zO hrO hzO (by omega : 0 ≤ i + 1) (by omega : 0 ≤ k + 1)
          o1 o2 (by push_cast; exact b1.le) (by push_cast; rw [← hkr]; exact b2),
        contrib_chargeIncs_cell G hG q rN zN hrN hzN i0 k0 a3 a4.le b3 b4.le]
      rw [ez, er]
      rcases lt_or_gt_of_ne hst with h | h
      · rw [if_pos (by rw [← se]; nlinarith)]
        refine Balanced.seq (B := cellRho G q i (k + 1) (((i:ℝ) + 1) * G.dr) (zO + t * (zN - zO))) ?_
          (Balanced.seq (B := cellRho G q i k (rO + s * (rN - rO)) (((k:ℝ) + 1) * G.dz)) ?_ ?_)
        · rw [cellRho_glue_r G hG q i _ i0]
          exact piece (by omega) (by omega) (by omega) (by omega) c0 ct t0 pr0 pz0 te.symm rfl
        · rw [cellRho_glue_z G hG q i k]
          exact piece i0 i1 (by omega) (by omega) ct cs h te.symm rfl rfl se.symm
        · exact piece i0 i1 k0 k1 cs c1 s1 rfl se.symm pr1 pz1
      · rw [if_neg (by rw [← se]; nlinarith), if_pos (by rw [← se]; nlinarith)]
        refine Balanced.seq (B := cellRho G q (i + 1) k (rO + s * (rN - rO)) (((k:ℝ) + 1) * G.dz)) ?_
          (Balanced.seq (B := cellRho G q i k (((i:ℝ) + 1) * G.dr) (zO + t * (zN - zO))) ?_ ?_)
        · rw [cellRho_glue_z G hG q (i + 1) k]
          exact piece (by omega) (by omega) (by omega) (by omega) c0 cs s0 pr0 pz0 rfl se.symm
        · rw [cellRho_glue_r G hG q i _ i0]
          exact piece (by omega) (by omega) k0 k1 cs ct h rfl se.symm te.symm rfl
        · exact piece i0 i1 k0 k1 ct c1 t1 te.symm rfl pr1 pz1

end Verif
