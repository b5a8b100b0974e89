import Verif.ContinuityMove

/-!
# Continuity of the strict-motion routine (support for C07)
-/

namespace Verif

/-- two identical continuity statements up to how the currents are written -/
theorem Continuity.congr {G : Geom} {dt : ℝ} {A B jr jz jr' jz' : Grid}
    (h : Continuity G dt A B jr jz) (hr : ∀ a b, jr' a b = jr a b) (hz : ∀ a b, jz' a b = jz a b) :
    Continuity G dt A B jr' jz' := by
  have e1 : jr' = jr := by funext a b; exact hr a b
  have e2 : jz' = jz := by funext a b; exact hz a b
  rw [e1, e2]; exact h

/-- the code's lower axial weight -/
noncomputable def wLower (G : Geom) (dt q r : ℝ) (i : ℤ) : ℝ :=
  if i = 0 then
    q / (dt * PI * G.dr * G.dr / 4) * PI *
      (((i : ℝ) + 0.5) * G.dr * (((i : ℝ) + 0.5) * G.dr) - (r - 0.5 * G.dr) * (r - 0.5 * G.dr)) /
      (2 * PI * r * G.dr * G.dz)
  else
    q / (dt * 2 * PI * (i : ℝ) * G.dr * G.dr) * PI *
      (((i : ℝ) + 0.5) * G.dr * (((i : ℝ) + 0.5) * G.dr) - (r - 0.5 * G.dr) * (r - 0.5 * G.dr)) /
      (2 * PI * r * G.dr * G.dz)

/-- the code's upper axial weight -/
noncomputable def wUpper (G : Geom) (dt q r : ℝ) (i : ℤ) : ℝ :=
  q / (dt * 2 * PI * ((i : ℝ) + 1) * G.dr * G.dr) * PI *
      ((r + 0.5 * G.dr) * (r + 0.5 * G.dr) - ((i : ℝ) + 0.5) * G.dr * (((i : ℝ) + 0.5) * G.dr)) /
      (2 * PI * r * G.dr * G.dz)

/-- a purely axial piece inside one cell -/
theorem axial_piece (G : Geom) (hG : G.Valid) {dt : ℝ} (hdt : dt ≠ 0) (q : ℝ) {i k : ℤ}
    (hi : 0 ≤ i) {r z1 z2 : ℝ} (hr : 0 < r) :
    Continuity G dt (cellRho G q i k r z1) (cellRho G q i k r z2) (fun _ _ => 0)
      (contrib [⟨i, k, wLower G dt q r i * (z2 - z1)⟩, ⟨i + 1, k, wUpper G dt q r i * (z2 - z1)⟩]) := by
  have hdr := hG.dr_pos.ne'
  have hdz := hG.dz_pos.ne'
  have hpi := PI_ne
  have hr' := hr.ne'
  have hi' : (0 : ℝ) ≤ i := by exact_mod_cast hi
  have hi2 : (i : ℝ) + 1 ≠ 0 := by linarith
  have v1 := nodeVolume_pos_idx G hG (by omega : 1 ≤ i + 1)
  push_cast at v1
  have key : Continuity G dt (cellRho G q i k r z1) (cellRho G q i k r z2)
      (contrib [⟨i, k, 0⟩, ⟨i, k + 1, 0⟩])
      (contrib [⟨i, k, wLower G dt q r i * (z2 - z1)⟩,
        ⟨i + 1, k, wUpper G dt q r i * (z2 - z1)⟩]) := by
    obtain ⟨o00, o10, o01, o11⟩ := cellRho_corners G hG q i k hi r z1
    obtain ⟨n00, n10, n01, n11⟩ := cellRho_corners G hG q i k hi r z2
    have low : nodeVolume G i * wLower G dt q r i =
        q * ((((i : ℝ) + 1 / 2) * G.dr) ^ 2 - (r - G.dr / 2) ^ 2) / (2 * r * G.dr) / dt := by
      unfold wLower
      rcases hi.lt_or_eq with h | h
      · have hi1 : (i : ℝ) ≠ 0 := by
          have : (0 : ℝ) < i := by exact_mod_cast h
          exact this.ne'
        rw [if_neg (by omega), nodeVolume_pos_idx G hG h]
        unfold CELL_VOLUME
        field_simp; ring
      · rw [if_pos h.symm, ← h, nodeVolume_zero G hG]
        unfold CYL_VOL
        push_cast
        field_simp; ring
    have up : nodeVolume G (i + 1) * wUpper G dt q r i =
        q * ((r + G.dr / 2) ^ 2 - (((i : ℝ) + 1 / 2) * G.dr) ^ 2) / (2 * r * G.dr) / dt := by
      rw [v1]; unfold wUpper CELL_VOLUME
      field_simp; ring
    apply continuity_of_four hG hi
    · intro a b hab; rw [cellRho_supp G q i k _ _ a b hab, cellRho_supp G q i k _ _ a b hab]
    · rw [sub_mul, o00, n00]
      have : nodeVolume G i / G.dz * (wLower G dt q r i * (z2 - z1)) =
          nodeVolume G i * wLower G dt q r i * (z2 - z1) / G.dz := by ring
      rw [this, low]; field_simp; ring
    · rw [sub_mul, o10, n10]
      have : nodeVolume G (i + 1) / G.dz * (wUpper G dt q r i * (z2 - z1)) =
          nodeVolume G (i + 1) * wUpper G dt q r i * (z2 - z1) / G.dz := by ring
      rw [this, up]; field_simp; ring
    · rw [sub_mul, o01, n01]
      have : nodeVolume G i / G.dz * (wLower G dt q r i * (z2 - z1)) =
          nodeVolume G i * wLower G dt q r i * (z2 - z1) / G.dz := by ring
      rw [this, low]; field_simp; ring
    · rw [sub_mul, o11, n11]
      have : nodeVolume G (i + 1) / G.dz * (wUpper G dt q r i * (z2 - z1)) =
          nodeVolume G (i + 1) * wUpper G dt q r i * (z2 - z1) / G.dz := by ring
      rw [this, up]; field_simp; ring
  exact key.congr (by intro a b; simp [contrib_cons]) (by intros; rfl)

/-- Range of the raw cell indices of a position inside the chamber. -/
theorem raw_cell {x dx s : ℝ} {n : ℕ} (hdx : 0 < dx) (hn : 2 ≤ n) (hs : s = dx * ((n : ℝ) - 1))
    (h0 : 0 ≤ x) (h1 : x ≤ s) :
    0 ≤ clamp0 (CELL_NUMBER x dx) ∧ clamp0 (CELL_NUMBER x dx) + 1 < n ∧
      (clamp0 (CELL_NUMBER x dx) : ℝ) * dx ≤ x ∧ x ≤ ((clamp0 (CELL_NUMBER x dx) : ℝ) + 1) * dx := by
  have r := cell_range (x := x) hdx hn hs
  have b := cell_bounds hdx h0
  exact ⟨r.1, r.2.2 h1, b.1, b.2⟩

/-- raw cells of two points less than one cell apart differ by at most one -/
theorem raw_cell_diff {xo xn dx : ℝ} (hdx : 0 < dx) (ho : 0 ≤ xo) (hn : 0 ≤ xn)
    (hd : |xn - xo| < dx) :
    clamp0 (CELL_NUMBER xn dx) - clamp0 (CELL_NUMBER xo dx) = 0 ∨
    clamp0 (CELL_NUMBER xn dx) - clamp0 (CELL_NUMBER xo dx) = 1 ∨
    clamp0 (CELL_NUMBER xn dx) - clamp0 (CELL_NUMBER xo dx) = -1 := by
  have bo := cell_bounds hdx ho
  have bn := cell_bounds hdx hn
  have hd' := abs_lt.1 hd
  generalize clamp0 (CELL_NUMBER xn dx) = cn at *
  generalize clamp0 (CELL_NUMBER xo dx) = co at *
  have h1 : cn < co + 2 := by
    have : (cn : ℝ) * dx < ((co : ℝ) + 2) * dx := by nlinarith
    have : (cn : ℝ) < (co : ℝ) + 2 := lt_of_mul_lt_mul_right this hdx.le
    exact_mod_cast this
  have h2 : co < cn + 2 := by
    have : (co : ℝ) * dx < ((cn : ℝ) + 2) * dx := by nlinarith
    have : (co : ℝ) < (cn : ℝ) + 2 := lt_of_mul_lt_mul_right this hdx.le
    exact_mod_cast this
  omega

/-- A purely axial move of less than a cell is balanced. -/
theorem axial_balanced (G : Geom) (hG : G.Valid) {dt : ℝ} (hdt : dt ≠ 0) (q r zO zN : ℝ)
    (hr : G.dr / 2 ≤ r) (hR : r ≤ G.r_size)
    (hzO : 0 ≤ zO) (hzN : 0 ≤ zN) (hZO : zO ≤ G.z_size) (hZN : zN ≤ G.z_size)
    (hsz : |zN - zO| < G.dz) (hmz : MNZL ≤ |zN - zO|) :
    Balanced G dt (contrib (chargeIncs G q r zO)) (contrib (chargeIncs G q r zN))
      (currentOfMove G dt q r zN r zO) := by
  have hdr := hG.dr_pos
  have hdz := hG.dz_pos
  have hm := MNZL_pos
  have hr0 : 0 < r := by linarith
  have g0 : |r - r| < MNZL := by simpa using hm
  have g1 : |r - r| < MNZL ∨ |zN - zO| < MNZL := Or.inl g0
  have g2 : ¬ (|r - r| < MNZL ∧ |zN - zO| < MNZL) := by
    rintro ⟨_, h⟩; linarith
  obtain ⟨i0, i1, bi1, bi2⟩ := raw_cell hdr hG.nr_ge hG.r_size_eq hr0.le hR
  obtain ⟨ko0, ko1, bo1, bo2⟩ := raw_cell hdz hG.nz_ge hG.z_size_eq hzO hZO
  obtain ⟨k0, k1, bk1, bk2⟩ := raw_cell hdz hG.nz_ge hG.z_size_eq hzN hZN
  have hdiff := raw_cell_diff hdz hzO hzN hsz
  have hcur : currentOfMove G dt q r zN r zO = strictMotion G dt q r zN r zO := by
    unfold currentOfMove
    simp only [g1, if_true]
  rw [hcur, contrib_chargeIncs G hG q r zO hr, contrib_chargeIncs G hG q r zN hr]
  unfold strictMotion
  have g5 : ¬ |zN - zO| < MNZL := not_lt.2 hmz
  simp only [g0, g5, true_and, if_false, if_true, hr0.ne']
  have piece := fun (k : ℤ) (z1 z2 : ℝ) =>
    axial_piece G hG hdt q (k := k) (z1 := z1) (z2 := z2) i0 hr0
  generalize clamp0 (CELL_NUMBER r G.dr) = i at *
  generalize clamp0 (CELL_NUMBER zN G.dz) = kn at *
  generalize clamp0 (CELL_NUMBER zO G.dz) = ko at *
  change Balanced G dt _ _ (if kn - ko = 0 then
      some ⟨[⟨i, kn, 0⟩, ⟨i, kn + 1, 0⟩], [⟨i, kn, wLower G dt q r i * (zN - zO)⟩,
        ⟨i + 1, kn, wUpper G dt q r i * (zN - zO)⟩]⟩
    else if kn - ko = 1 then
      some ⟨[⟨i, kn, 0⟩, ⟨i, kn + 1, 0⟩],
        [⟨i, kn - 1, wLower G dt q r i * ((kn : ℝ) * G.dz - zO)⟩,
         ⟨i + 1, kn - 1, wUpper G dt q r i * ((kn : ℝ) * G.dz - zO)⟩,
         ⟨i, kn, wLower G dt q r i * (zN - (kn : ℝ) * G.dz)⟩,
         ⟨i + 1, kn, wUpper G dt q r i * (zN - (kn : ℝ) * G.dz)⟩]⟩
    else if kn - ko = -1 then
      some ⟨[⟨i, kn, 0⟩, ⟨i, kn + 1, 0⟩],
        [⟨i, kn + 1, wLower G dt q r i * (((kn : ℝ) + 1) * G.dz - zO)⟩,
         ⟨i + 1, kn + 1, wUpper G dt q r i * (((kn : ℝ) + 1) * G.dz - zO)⟩,
         ⟨i, kn, wLower G dt q r i * (zN - ((kn : ℝ) + 1) * G.dz)⟩,
         ⟨i + 1, kn, wUpper G dt q r i * (zN - ((kn : ℝ) + 1) * G.dz)⟩]⟩
    else some ⟨[⟨i, kn, 0⟩, ⟨i, kn + 1, 0⟩], []⟩)
  rcases hdiff with h | h | h
  · have e : ko = kn := by omega
    subst e
    rw [if_pos h]
    refine ⟨_, rfl, ?_, ?_⟩
    · constructor <;>
      · simp only [List.mem_cons, List.not_mem_nil, or_false, forall_eq_or_imp, forall_eq, InGrid]
        omega
    · exact (piece ko zO zN).congr (by intro a b; simp [JIncs.rGrid, contrib_cons])
        (by intros; rfl)
  · have e : ko = kn - 1 := by omega
    subst e
    rw [if_neg (by omega), if_pos h]
    refine ⟨_, rfl, ?_, ?_⟩
    · constructor <;>
      · simp only [List.mem_cons, List.not_mem_nil, or_false, forall_eq_or_imp, forall_eq, InGrid]
        omega
    · have p1 := piece (kn - 1) zO ((kn : ℝ) * G.dz)
      have p2 := piece kn ((kn : ℝ) * G.dz) zN
      have gl := cellRho_glue_z G hG q i (kn - 1) r
      have e3 : (((kn - 1 : ℤ) : ℝ) + 1) * G.dz = (kn : ℝ) * G.dz := by push_cast; ring
      rw [e3, sub_add_cancel] at gl
      rw [gl] at p1
      exact (p1.trans p2).congr (by intro a b; simp [JIncs.rGrid, contrib_cons])
        (by intro a b; simp only [JIncs.zGrid, contrib_cons, contrib_nil]; ring)
  · have e : ko = kn + 1 := by omega
    subst e
    rw [if_neg (by omega), if_neg (by omega), if_pos h]
    refine ⟨_, rfl, ?_, ?_⟩
    · constructor <;>
      · simp only [List.mem_cons, List.not_mem_nil, or_false, forall_eq_or_imp, forall_eq, InGrid]
        omega
    · have p1 := piece (kn + 1) zO (((kn : ℝ) + 1) * G.dz)
      have p2 := piece kn (((kn : ℝ) + 1) * G.dz) zN
      rw [← cellRho_glue_z G hG q i kn r] at p1
      exact (p1.trans p2).congr (by intro a b; simp [JIncs.rGrid, contrib_cons])
        (by intro a b; simp only [JIncs.zGrid, contrib_cons, contrib_nil]; ring)

/-- A purely radial move that stays in one radial cell is balanced. -/
theorem radial_balanced (G : Geom) (hG : G.Valid) {dt : ℝ} (hdt : dt ≠ 0) (q rO rN z : ℝ)
    (hrO : G.dr / 2 ≤ rO) (hrN : G.dr / 2 ≤ rN) (hRO : rO ≤ G.r_size) (hRN : rN ≤ G.r_size)
    (hz : 0 ≤ z) (hZ : z ≤ G.z_size) (hmr : MNZL ≤ |rN - rO|)
    (hsame : CELL_NUMBER rO G.dr = CELL_NUMBER rN G.dr) :
    Balanced G dt (contrib (chargeIncs G q rO z)) (contrib (chargeIncs G q rN z))
      (currentOfMove G dt q rN z rO z) := by
  have hdr := hG.dr_pos
  have hdz := hG.dz_pos
  have hm := MNZL_pos
  have hpi := PI_ne
  have hrO0 : rO ≠ 0 := by linarith
  have hrN0 : rN ≠ 0 := by linarith
  have g0 : |z - z| < MNZL := by simpa using hm
  have g1 : |rN - rO| < MNZL ∨ |z - z| < MNZL := Or.inr g0
  have g3 : ¬ |rN - rO| < MNZL := not_lt.2 hmr
  have g4 : ¬ (rO = 0 ∨ rN = 0) := by rintro (h | h) <;> contradiction
  obtain ⟨i0, i1, -, -⟩ := raw_cell hdr hG.nr_ge hG.r_size_eq (by linarith) hRN
  obtain ⟨k0, k1, -, -⟩ := raw_cell hdz hG.nz_ge hG.z_size_eq hz hZ
  have hcur : currentOfMove G dt q rN z rO z = strictMotion G dt q rN z rO z := by
    unfold currentOfMove
    simp only [g1, if_true]
  rw [hcur, contrib_chargeIncs G hG q rO z hrO, contrib_chargeIncs G hG q rN z hrN]
  unfold strictMotion
  simp only [hm, abs_zero, g3, g4, if_false, if_true, hsame, sub_self, false_and]
  generalize clamp0 (CELL_NUMBER rN G.dr) = i at *
  generalize clamp0 (CELL_NUMBER z G.dz) = k at *
  refine ⟨_, rfl, ?_, ?_⟩
  · constructor
    · simp only [List.mem_cons, List.not_mem_nil, or_false, forall_eq_or_imp, forall_eq, InGrid]
      omega
    · simp
  · have hi' : (0 : ℝ) ≤ i := by exact_mod_cast i0
    have hhalf2 : 2 * (i : ℝ) + 1 ≠ 0 := by positivity
    have hhalf : (i : ℝ) + 0.5 ≠ 0 := by
      have : (0:ℝ) < (i : ℝ) + 0.5 := by positivity
      exact this.ne'
    have hadd : rO + (rN - rO) = rN := by ring
    obtain ⟨o00, o10, o01, o11⟩ := cellRho_corners G hG q i k i0 rO z
    obtain ⟨n00, n10, n01, n11⟩ := cellRho_corners G hG q i k i0 rN z
    simp only [hadd]
    have key := continuity_of_four hG (dt := dt) i0 (k := k)
      (rhoO := cellRho G q i k rO z) (rhoN := cellRho G q i k rN z)
      (A := DENSITY_STRICT q (((i : ℝ) + 0.5) * G.dr) G.dr G.dz dt *
        (rN - rO - ((i : ℝ) + 0.5) * G.dr * (((i : ℝ) + 0.5) * G.dr) / rN
          + ((i : ℝ) + 0.5) * G.dr * (((i : ℝ) + 0.5) * G.dr) / rO
          + G.dr * G.dr / (4 * rN) - G.dr * G.dr / (4 * rO)) * (((k : ℝ) + 1) * G.dz - z))
      (B := DENSITY_STRICT q (((i : ℝ) + 0.5) * G.dr) G.dr G.dz dt *
        (rN - rO - ((i : ℝ) + 0.5) * G.dr * (((i : ℝ) + 0.5) * G.dr) / rN
          + ((i : ℝ) + 0.5) * G.dr * (((i : ℝ) + 0.5) * G.dr) / rO
          + G.dr * G.dr / (4 * rN) - G.dr * G.dr / (4 * rO)) * (z - (k : ℝ) * G.dz))
      (C := 0) (D := 0)
      (by intro a b hab; rw [cellRho_supp G q i k _ _ a b hab, cellRho_supp G q i k _ _ a b hab])
      (by rw [sub_mul, o00, n00]; unfold DENSITY_STRICT; field_simp; ring)
      (by rw [sub_mul, o10, n10]; unfold DENSITY_STRICT; field_simp; ring)
      (by rw [sub_mul, o01, n01]; unfold DENSITY_STRICT; field_simp; ring)
      (by rw [sub_mul, o11, n11]; unfold DENSITY_STRICT; field_simp; ring)
    exact key.congr (by intros; rfl) (by intro a b; simp [JIncs.zGrid, contrib_cons])

end Verif
