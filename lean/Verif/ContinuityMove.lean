import Verif.ContinuityPiece

/-!
# Continuity of whole moves (C05, C06, C07): supporting lemmas
-/

namespace Verif

/-- All calls are inside the current arrays. -/
def JIncs.InArr (G : Geom) (J : JIncs) : Prop :=
  (∀ d ∈ J.jr, InGrid G.nr G.nz d.i d.k) ∧ (∀ d ∈ J.jz, InGrid G.nr G.nz d.i d.k)

/-- A routine ran without fault, stayed in the arrays, and its current balances the change of
density from `A` to `B`. -/
def Balanced (G : Geom) (dt : ℝ) (A B : Grid) (o : Option JIncs) : Prop :=
  ∃ J, o = some J ∧ J.InArr G ∧ Continuity G dt A B J.rGrid J.zGrid

theorem Balanced.seq {G : Geom} {dt : ℝ} {A B C : Grid} {x y : Option JIncs}
    (h1 : Balanced G dt A B x) (h2 : Balanced G dt B C y) : Balanced G dt A C (seqJ x y) := by
  obtain ⟨J, rfl, ⟨a1, a2⟩, c1⟩ := h1
  obtain ⟨K, rfl, ⟨b1, b2⟩, c2⟩ := h2
  refine ⟨J.append K, rfl, ⟨?_, ?_⟩, ?_⟩
  · intro d hd
    rcases List.mem_append.1 hd with h | h
    · exact a1 d h
    · exact b1 d h
  · intro d hd
    rcases List.mem_append.1 hd with h | h
    · exact a2 d h
    · exact b2 d h
  · have := c1.trans c2
    intro a b ha
    rw [← this a b ha]
    unfold JIncs.rGrid JIncs.zGrid netOutflow JIncs.append
    simp only [contrib_append]

theorem Balanced.piece (G : Geom) (hG : G.Valid) {dt : ℝ} (hdt : dt ≠ 0) (q : ℝ)
    {rN zN rO zO : ℝ} {i k : ℤ} (hi : 0 ≤ i) (hi1 : i + 1 < G.nr) (hk : 0 ≤ k) (hk1 : k + 1 < G.nz)
    (hrN : 0 < rN) (hrO : 0 < rO)
    (hmr : MNZL ≤ |rN - rO|) (hmz : MNZL ≤ |zN - zO|) :
    Balanced G dt (cellRho G q i k rO zO) (cellRho G q i k rN zN)
      (simpleCurrent G dt q rN zN rO zO i k) := by
  obtain ⟨J, hJ, hc⟩ := simpleCurrent_continuity G hG hdt q hi hrN hrO hmr hmz (k := k)
  refine ⟨J, hJ, ?_, hc⟩
  have hg1 : ¬ (|rN - rO| < MNZL ∨ |zN - zO| < MNZL) := by
    rintro (h | h) <;> linarith
  have hg2 : ¬ (rO * rN ≤ 0) := not_le.2 (mul_pos hrO hrN)
  unfold simpleCurrent at hJ
  simp only [hg1, hg2, if_false] at hJ
  by_cases h1 : i ≥ 1
  · simp only [h1, if_true, Option.some.injEq] at hJ
    subst hJ
    constructor <;>
    · simp only [List.mem_cons, List.not_mem_nil, or_false, forall_eq_or_imp, forall_eq, InGrid]
      omega
  · simp only [h1, if_false, Option.some.injEq] at hJ
    subst hJ
    constructor <;>
    · simp only [List.mem_cons, List.not_mem_nil, or_false, forall_eq_or_imp, forall_eq, InGrid]
      omega

/-- The deposit of a position off the axial half cell is the weighting of any closed cell that
contains the position. -/
theorem contrib_chargeIncs_cell (G : Geom) (hG : G.Valid) (q r z : ℝ) (hr : G.dr / 2 ≤ r)
    (hz : 0 ≤ z) {i k : ℤ} (hi : 0 ≤ i) (hk : 0 ≤ k)
    (hr1 : (i : ℝ) * G.dr ≤ r) (hr2 : r ≤ ((i : ℝ) + 1) * G.dr)
    (hz1 : (k : ℝ) * G.dz ≤ z) (hz2 : z ≤ ((k : ℝ) + 1) * G.dz) :
    contrib (chargeIncs G q r z) = cellRho G q i k r z := by
  have hdr := hG.dr_pos
  have hdz := hG.dz_pos
  rw [contrib_chargeIncs G hG q r z hr]
  -- radial index
  have hR : cellRho G q (clamp0 (CELL_NUMBER r G.dr)) (clamp0 (CELL_NUMBER z G.dz)) r z =
      cellRho G q i (clamp0 (CELL_NUMBER z G.dz)) r z := by
    rcases hr1.lt_or_eq with h | h
    · rw [CELL_NUMBER_unique hdr i h hr2]
      congr 1; unfold clamp0; split_ifs <;> omega
    · -- r is on the inner face of cell i, so i ≥ 1 and the code uses i - 1
      have hi1 : 1 ≤ i := by
        by_contra hcon
        have : i = 0 := by omega
        subst this
        simp at h
        linarith
      have e : CELL_NUMBER r G.dr = i - 1 := by
        apply CELL_NUMBER_unique hdr
        · push_cast; rw [← h]; nlinarith
        · push_cast; rw [← h]; apply le_of_eq; ring
      have e2 : clamp0 (CELL_NUMBER r G.dr) = i - 1 := by
        rw [e]; unfold clamp0; split_ifs <;> omega
      rw [e2]
      have := cellRho_glue_r G hG q (i - 1) (clamp0 (CELL_NUMBER z G.dz)) (by omega) z
      have e3 : (((i - 1 : ℤ) : ℝ) + 1) * G.dr = r := by rw [← h]; push_cast; ring
      rw [e3, sub_add_cancel] at this
      exact this
  rw [hR]
  rcases hz1.lt_or_eq with h | h
  · rw [CELL_NUMBER_unique hdz k h hz2]
    congr 1; unfold clamp0; split_ifs <;> omega
  · rcases hk.lt_or_eq with hk1 | hk1
    · have e : CELL_NUMBER z G.dz = k - 1 := by
        apply CELL_NUMBER_unique hdz
        · push_cast; rw [← h]; nlinarith
        · push_cast; rw [← h]; apply le_of_eq; ring
      have e2 : clamp0 (CELL_NUMBER z G.dz) = k - 1 := by
        rw [e]; unfold clamp0; split_ifs <;> omega
      rw [e2]
      have := cellRho_glue_z G hG q i (k - 1) r
      have e3 : (((k - 1 : ℤ) : ℝ) + 1) * G.dz = z := by rw [← h]; push_cast; ring
      rw [e3, sub_add_cancel] at this
      exact this
    · subst hk1
      rw [cell_eq_zero hdz (by simp at hz2; linarith)]

/-! ### The index adjustment of lines 485-499 -/

/-- Old and new cell index along one axis after the adjustments of src/particles.cpp:485-499. -/
theorem adjust_spec {xo xn dx : ℝ} (hdx : 0 < dx) (ho : 0 ≤ xo) (hn : 0 ≤ xn)
    (hd : |xn - xo| < dx) (hne : xn ≠ xo) {s : ℝ} {n : ℕ} (hs : s = dx * ((n : ℝ) - 1))
    (hn2 : 2 ≤ n) (hso : xo ≤ s) (hsn : xn ≤ s)
    {co cn io i_n : ℤ} (hco : co = clamp0 (CELL_NUMBER xo dx)) (hcn : cn = clamp0 (CELL_NUMBER xn dx))
    (hio : io = if xo = ((co : ℝ) + 1) * dx then cn else co)
    (hin : i_n = if xn = ((cn : ℝ) + 1) * dx then io else cn) :
    0 ≤ io ∧ 0 ≤ i_n ∧ io + 1 < n ∧ i_n + 1 < n ∧
    ((i_n = io ∧ (i_n : ℝ) * dx ≤ xo ∧ xo ≤ ((i_n : ℝ) + 1) * dx ∧
        (i_n : ℝ) * dx ≤ xn ∧ xn ≤ ((i_n : ℝ) + 1) * dx) ∨
     (i_n = io + 1 ∧ (io : ℝ) * dx ≤ xo ∧ xo < (i_n : ℝ) * dx ∧
        (i_n : ℝ) * dx < xn ∧ xn ≤ ((i_n : ℝ) + 1) * dx) ∨
     (io = i_n + 1 ∧ ((i_n : ℝ) + 1) * dx < xo ∧ xo ≤ ((io : ℝ) + 1) * dx ∧
        (i_n : ℝ) * dx ≤ xn ∧ xn < ((i_n : ℝ) + 1) * dx)) := by
  have bo := cell_bounds hdx ho
  have bn := cell_bounds hdx hn
  have ro := cell_range (x := xo) hdx hn2 hs
  have rn := cell_range (x := xn) hdx hn2 hs
  rw [← hco] at bo ro
  rw [← hcn] at bn rn
  have ro2 := ro.2.2 hso
  have rn2 := rn.2.2 hsn
  -- strict lower bounds for positive cells
  have so : 1 ≤ co → (co : ℝ) * dx < xo := by
    intro h
    have hsp := (CELL_NUMBER_spec (x := xo) hdx).1
    have : CELL_NUMBER xo dx = co := by
      rw [hco]; unfold clamp0; rw [hco] at h; unfold clamp0 at h; split_ifs at * <;> omega
    rwa [this] at hsp
  have sn : 1 ≤ cn → (cn : ℝ) * dx < xn := by
    intro h
    have hsp := (CELL_NUMBER_spec (x := xn) hdx).1
    have : CELL_NUMBER xn dx = cn := by
      rw [hcn]; unfold clamp0; rw [hcn] at h; unfold clamp0 at h; split_ifs at * <;> omega
    rwa [this] at hsp
  have hd' := abs_lt.1 hd
  have h1 : cn < co + 2 := by
    have : (cn : ℝ) * dx < ((co : ℝ) + 2) * dx := by nlinarith
    have : (cn : ℝ) < (co : ℝ) + 2 := lt_of_mul_lt_mul_right this hdx.le
    exact_mod_cast this
  have h2 : co < cn + 2 := by
    have : (co : ℝ) * dx < ((cn : ℝ) + 2) * dx := by nlinarith
    have : (co : ℝ) < (cn : ℝ) + 2 := lt_of_mul_lt_mul_right this hdx.le
    exact_mod_cast this
  have h3 : cn = co ∨ cn = co + 1 ∨ co = cn + 1 := by omega
  have key : ∀ m : ℤ, (((m + 1 : ℤ) : ℝ)) * dx = (m : ℝ) * dx + dx := by
    intro m; push_cast; ring
  rcases h3 with h | h | h
  · -- same raw cell
    have e1 : io = co := by rw [hio]; split_ifs <;> omega
    have e2 : i_n = co := by rw [hin]; split_ifs <;> omega
    refine ⟨by omega, by omega, by omega, by omega, Or.inl ⟨by omega, ?_⟩⟩
    rw [e2]; rw [h] at bn
    exact ⟨bo.1, bo.2, bn.1, bn.2⟩
  · -- forward
    have sn' := sn (by omega)
    have hcnr : (cn : ℝ) = (co : ℝ) + 1 := by exact_mod_cast h
    by_cases hf : xo = ((co : ℝ) + 1) * dx
    · have e1 : io = cn := by rw [hio, if_pos hf]
      have e2 : i_n = cn := by rw [hin]; split_ifs <;> omega
      refine ⟨by omega, by omega, by omega, by omega, Or.inl ⟨by omega, ?_⟩⟩
      rw [e2]
      refine ⟨?_, ?_, bn.1, bn.2⟩
      · rw [hcnr, hf]
      · rw [hcnr, hf]; nlinarith
    · have e1 : io = co := by rw [hio, if_neg hf]
      have hxo : xo < ((co : ℝ) + 1) * dx := lt_of_le_of_ne bo.2 hf
      have hne' : xn ≠ ((cn : ℝ) + 1) * dx ∨ xn = ((cn : ℝ) + 1) * dx := by
        by_cases h : xn = ((cn : ℝ) + 1) * dx
        · right; exact h
        · left; exact h
      rcases hne' with hx | hx
      · have e2 : i_n = cn := by rw [hin, if_neg hx]
        refine ⟨by omega, by omega, by omega, by omega, Or.inr (Or.inl ⟨by omega, ?_⟩)⟩
        rw [e2, e1]
        refine ⟨bo.1, ?_, sn', bn.2⟩
        rw [hcnr]; exact hxo
      · exfalso
        rw [hx, hcnr] at hd'
        nlinarith
  · -- backward
    have so' := so (by omega)
    have hcor : (co : ℝ) = (cn : ℝ) + 1 := by exact_mod_cast h
    by_cases hf : xo = ((co : ℝ) + 1) * dx
    · exfalso
      rw [hf, hcor] at hd'
      nlinarith [bn.2]
    · have e1 : io = co := by rw [hio, if_neg hf]
      by_cases hx : xn = ((cn : ℝ) + 1) * dx
      · have e2 : i_n = co := by rw [hin, if_pos hx, e1]
        refine ⟨by omega, by omega, by omega, by omega, Or.inl ⟨by omega, ?_⟩⟩
        rw [e2]
        refine ⟨bo.1, bo.2, ?_, ?_⟩
        · rw [hcor, hx]
        · rw [hcor, hx]; nlinarith
      · have e2 : i_n = cn := by rw [hin, if_neg hx]
        refine ⟨by omega, by omega, by omega, by omega, Or.inr (Or.inr ⟨by omega, ?_⟩)⟩
        rw [e2, e1]
        refine ⟨?_, bo.2, bn.1, lt_of_le_of_ne bn.2 hx⟩
        rw [← hcor]; exact so'

end Verif
