import Verif.Deposit
import Mathlib.Tactic.Linarith
import Mathlib.Tactic.LinearCombination

/-!
# Properties of charge and azimuthal current deposition (C01-C04)

Specification vocabulary: the control volume of a node, the position of a particle relative to
the grid and the total charge of a list of particles.
-/

namespace Verif

/-! ## Specification -/

/-- Control volume of radial node `i`: the ring between `(i-1/2)dr` and `(i+1/2)dr`
(cut off at the axis) of axial length `dz`. -/
noncomputable def nodeVolume (G : Geom) (i : ℤ) : ℝ :=
  PI * G.dz * ((((i : ℝ) + 1 / 2) * G.dr) ^ 2 - (max 0 (((i : ℝ) - 1 / 2) * G.dr)) ^ 2)

/-- Total charge on a density grid. -/
noncomputable def totalCharge (G : Geom) (rho : Grid) : ℝ :=
  gridTotal G.nr G.nz (nodeVolume G) rho

/-- Total charge of the live particles of a list. -/
noncomputable def liveCharge (ps : List Particle) : ℝ :=
  ((ps.filter (fun p => p.alive)).map (fun p => p.charge)).sum

/-- Total charge times azimuthal velocity of the live particles of a list. -/
noncomputable def liveMomentPhi (ps : List Particle) : ℝ :=
  ((ps.filter (fun p => p.alive)).map (fun p => p.charge * p.vel.c1)).sum

/-- All live particles are within the far walls. -/
def WithinFarWalls (G : Geom) (ps : List Particle) : Prop :=
  ∀ p ∈ ps, p.alive = true → p.pos.c0 ≤ G.r_size ∧ p.pos.c2 ≤ G.z_size

/-! ## Supporting facts -/

theorem nodeVolume_zero (G : Geom) (hG : G.Valid) : nodeVolume G 0 = CYL_VOL G.dz G.dr := by
  have := hG.dr_pos
  unfold nodeVolume CYL_VOL
  rw [max_eq_left]
  · push_cast; ring
  · push_cast; linarith

theorem nodeVolume_pos_idx (G : Geom) (hG : G.Valid) {i : ℤ} (hi : 1 ≤ i) :
    nodeVolume G i = CELL_VOLUME i G.dr G.dz := by
  have := hG.dr_pos
  have hi' : (1 : ℝ) ≤ i := by exact_mod_cast hi
  unfold nodeVolume CELL_VOLUME
  rw [max_eq_right]
  · ring
  · apply mul_nonneg <;> linarith

/-- the cell index used by the code is in range. -/
theorem cell_range {x dx s : ℝ} {n : ℕ} (hdx : 0 < dx) (hn : 2 ≤ n)
    (hs : s = dx * ((n : ℝ) - 1)) :
    0 ≤ clamp0 (CELL_NUMBER x dx) ∧ (clamp0 (CELL_NUMBER x dx) + 1 < n ↔ x ≤ s) := by
  have hspec := CELL_NUMBER_spec (x := x) hdx
  set c := CELL_NUMBER x dx with hc
  refine ⟨by unfold clamp0; split_ifs <;> omega, ?_⟩
  have hn' : (2 : ℝ) ≤ n := by exact_mod_cast hn
  unfold clamp0
  constructor
  · intro h
    split_ifs at h with h0
    · have h0' : (c : ℝ) + 1 ≤ 0 := by exact_mod_cast h0
      have : ((c : ℝ) + 1) * dx ≤ 0 := by nlinarith
      have : 0 ≤ s := by rw [hs]; apply mul_nonneg <;> linarith
      linarith [hspec.2]
    · have h' : (c : ℝ) + 1 + 1 ≤ n := by exact_mod_cast h
      have : ((c : ℝ) + 1) * dx ≤ dx * ((n : ℝ) - 1) := by nlinarith
      linarith [hspec.2]
  · intro h
    split_ifs with h0
    · omega
    · have h1 : (c : ℝ) * dx < dx * ((n : ℝ) - 1) := by linarith [hspec.1]
      have h2 : (c : ℝ) < (n : ℝ) - 1 := by
        by_contra hcon
        push Not at hcon
        nlinarith
      have h3 : (c : ℝ) + 1 < n := by linarith
      exact_mod_cast h3

/-- a position above one cell is in a cell with index at least one. -/
theorem cell_ge_one {x dx : ℝ} (hdx : 0 < dx) (h : dx < x) :
    1 ≤ clamp0 (CELL_NUMBER x dx) := by
  have hspec := CELL_NUMBER_spec (x := x) hdx
  have : (0 : ℝ) < CELL_NUMBER x dx := by
    by_contra hcon
    push Not at hcon
    nlinarith [hspec.2]
  have : 0 < CELL_NUMBER x dx := by exact_mod_cast this
  unfold clamp0; split_ifs <;> omega

theorem cell_eq_zero {x dx : ℝ} (hdx : 0 < dx) (h : x ≤ dx) :
    clamp0 (CELL_NUMBER x dx) = 0 := by
  have hspec := CELL_NUMBER_spec (x := x) hdx
  have : (CELL_NUMBER x dx : ℝ) < 1 := by
    by_contra hcon
    push Not at hcon
    nlinarith [hspec.1]
  have : CELL_NUMBER x dx < 1 := by exact_mod_cast this
  unfold clamp0; split_ifs <;> omega

/-- clamped cell bounds for non-negative positions -/
theorem cell_bounds {x dx : ℝ} (hdx : 0 < dx) (h : 0 ≤ x) :
    (clamp0 (CELL_NUMBER x dx) : ℝ) * dx ≤ x ∧ x ≤ ((clamp0 (CELL_NUMBER x dx) : ℝ) + 1) * dx := by
  have hspec := CELL_NUMBER_spec (x := x) hdx
  unfold clamp0
  split_ifs with h0
  · have h0' : (CELL_NUMBER x dx : ℝ) + 1 ≤ 0 := by exact_mod_cast h0
    have : ((CELL_NUMBER x dx : ℝ) + 1) * dx ≤ 0 := by nlinarith
    push_cast
    constructor <;> linarith [hspec.2]
  · exact ⟨hspec.1.le, hspec.2⟩

/-- The four nodes written by one deposit. -/
theorem chargeIncs_nodes (G : Geom) (hG : G.Valid) (q r z : ℝ) :
    (chargeIncs G q r z).map (fun d => (d.i, d.k)) =
      [(clamp0 (CELL_NUMBER r G.dr), clamp0 (CELL_NUMBER z G.dz)),
       (clamp0 (CELL_NUMBER r G.dr) + 1, clamp0 (CELL_NUMBER z G.dz)),
       (clamp0 (CELL_NUMBER r G.dr), clamp0 (CELL_NUMBER z G.dz) + 1),
       (clamp0 (CELL_NUMBER r G.dr) + 1, clamp0 (CELL_NUMBER z G.dz) + 1)] := by
  unfold chargeIncs
  by_cases h1 : r > G.dr
  · simp [h1]
  · by_cases h2 : r ≤ G.dr / 2
    · have := cell_eq_zero hG.dr_pos (not_lt.1 h1)
      simp [h1, h2, this]
    · simp [h1, h2]

/-- Volume-weighted sum of the increments of one particle. -/
theorem chargeIncs_sum (G : Geom) (hG : G.Valid) (q r z : ℝ) :
    ((chargeIncs G q r z).map (fun d => d.v * nodeVolume G d.i)).sum = q := by
  have hdr := hG.dr_pos
  have hdz := hG.dz_pos
  have hpi := PI_ne
  unfold chargeIncs
  by_cases h1 : r > G.dr
  · have hi := cell_ge_one hG.dr_pos h1
    have hi' : (1 : ℝ) ≤ (clamp0 (CELL_NUMBER r G.dr) : ℝ) := by exact_mod_cast hi
    simp only [h1, if_true, List.map_cons, List.map_nil, List.sum_cons, List.sum_nil]
    rw [nodeVolume_pos_idx G hG hi, nodeVolume_pos_idx G hG (by omega : 1 ≤ clamp0 (CELL_NUMBER r G.dr) + 1)]
    push_cast
    unfold CELL_VOLUME CYL_RNG_VOL
    have hr : r ≠ 0 := by linarith
    have : (clamp0 (CELL_NUMBER r G.dr) : ℝ) ≠ 0 := by linarith
    have : (clamp0 (CELL_NUMBER r G.dr) : ℝ) + 1 ≠ 0 := by linarith
    generalize (clamp0 (CELL_NUMBER r G.dr) : ℝ) = a at *
    generalize (clamp0 (CELL_NUMBER z G.dz) : ℝ) = b at *
    field_simp
    ring
  · have hi := cell_eq_zero hG.dr_pos (not_lt.1 h1)
    have e1 : nodeVolume G (0 + 1) = CELL_VOLUME ((0:ℝ) + 1) G.dr G.dz := by
      have := nodeVolume_pos_idx G hG (i := 1) (by omega)
      simpa using this
    by_cases h2 : r ≤ G.dr / 2
    · simp only [h1, h2, if_true, if_false, List.map_cons, List.map_nil, List.sum_cons,
        List.sum_nil, Int.cast_zero]
      rw [nodeVolume_zero G hG, e1]
      unfold CELL_VOLUME CYL_RNG_VOL CYL_VOL
      have : 2 * r * r + G.dr * G.dr / 2 ≠ 0 := by nlinarith [mul_pos hdr hdr, mul_self_nonneg r]
      generalize (clamp0 (CELL_NUMBER z G.dz) : ℝ) = b at *
      field_simp
      ring
    · simp only [h1, h2, if_false, List.map_cons, List.map_nil, List.sum_cons,
        List.sum_nil, hi, Int.cast_zero]
      rw [nodeVolume_zero G hG, e1]
      unfold CELL_VOLUME CYL_RNG_VOL CYL_VOL
      have hr : r ≠ 0 := by intro h; apply h2; rw [h]; linarith
      generalize (clamp0 (CELL_NUMBER z G.dz) : ℝ) = b at *
      field_simp
      ring

theorem chargeIncs_inGrid_iff (G : Geom) (hG : G.Valid) (q r z : ℝ) :
    (∀ d ∈ chargeIncs G q r z, InGrid G.nr G.nz d.i d.k) ↔ r ≤ G.r_size ∧ z ≤ G.z_size := by
  have hr := cell_range (x := r) hG.dr_pos hG.nr_ge hG.r_size_eq
  have hz := cell_range (x := z) hG.dz_pos hG.nz_ge hG.z_size_eq
  have key : (∀ d ∈ chargeIncs G q r z, InGrid G.nr G.nz d.i d.k) ↔
      ∀ p ∈ (chargeIncs G q r z).map (fun d => (d.i, d.k)), InGrid G.nr G.nz p.1 p.2 := by
    simp only [List.mem_map]
    constructor
    · rintro h p ⟨d, hd, rfl⟩; exact h d hd
    · intro h d hd; exact h _ ⟨d, hd, rfl⟩
  rw [key, chargeIncs_nodes G hG, ← hr.2, ← hz.2]
  generalize clamp0 (CELL_NUMBER r G.dr) = a at *
  generalize clamp0 (CELL_NUMBER z G.dz) = b at *
  simp only [List.mem_cons, List.not_mem_nil, or_false, forall_eq_or_imp, forall_eq, InGrid]
  omega

/-- One particle's increments, dead particles give none. -/
noncomputable def particleIncs (G : Geom) (p : Particle) : List Inc :=
  if p.alive then chargeIncs G p.charge p.pos.c0 p.pos.c2 else []

theorem chargeWeighting_eq (G : Geom) (ps : List Particle) (rho : Grid) :
    chargeWeighting G ps rho = applyIncs G.nr G.nz (ps.flatMap (particleIncs G)) rho := by
  induction ps generalizing rho with
  | nil => rfl
  | cons p ps ih =>
    rw [List.flatMap_cons, applyIncs_append]
    simp only [chargeWeighting, List.foldlM_cons] at ih ⊢
    unfold particleIncs at *
    cases hp : p.alive
    · simp [applyIncs, List.foldlM_nil] at *
      simpa using ih rho
    · simp only [if_true]
      cases applyIncs G.nr G.nz (chargeIncs G p.charge p.pos.c0 p.pos.c2) rho with
      | none => rfl
      | some g => exact ih g

theorem particleIncs_inGrid (G : Geom) (hG : G.Valid) (ps : List Particle) :
    (∀ d ∈ ps.flatMap (particleIncs G), InGrid G.nr G.nz d.i d.k) ↔ WithinFarWalls G ps := by
  unfold WithinFarWalls
  constructor
  · intro h p hp ha
    rw [← chargeIncs_inGrid_iff G hG p.charge]
    intro d hd
    exact h d (List.mem_flatMap.2 ⟨p, hp, by simp [particleIncs, ha, hd]⟩)
  · intro h d hd
    obtain ⟨p, hp, hd⟩ := List.mem_flatMap.1 hd
    unfold particleIncs at hd
    split_ifs at hd with ha
    · exact (chargeIncs_inGrid_iff G hG p.charge _ _).2 (h p hp ha) d hd
    · simp at hd

/-- the value of the density grid after a deposit, node by node -/
theorem chargeWeighting_some (G : Geom) (hG : G.Valid) (ps : List Particle)
    (h : WithinFarWalls G ps) (rho : Grid) :
    chargeWeighting G ps rho =
      some (fun a b => rho a b + contrib (ps.flatMap (particleIncs G)) a b) := by
  rw [chargeWeighting_eq, applyIncs_some ((particleIncs_inGrid G hG ps).2 h)]

/-! ## C01: total charge -/

/-- **C01**. Depositing any list of particles onto any density grid succeeds when the live
particles are within the far walls, and raises the total charge on the grid by exactly the
total charge of the live particles. -/
theorem C01_charge_conserved (G : Geom) (hG : G.Valid) (ps : List Particle)
    (hin : WithinFarWalls G ps) (rho : Grid) :
    ∃ rho', chargeWeighting G ps rho = some rho' ∧
      totalCharge G rho' = totalCharge G rho + liveCharge ps := by
  refine ⟨_, chargeWeighting_some G hG ps hin rho, ?_⟩
  unfold totalCharge
  rw [gridTotal_add, gridTotal_contrib _ ((particleIncs_inGrid G hG ps).2 hin)]
  congr 1
  unfold liveCharge
  clear hin
  induction ps with
  | nil => rfl
  | cons p ps ih =>
    rw [List.flatMap_cons, List.map_append, List.sum_append, ih]
    unfold particleIncs
    cases hp : p.alive
    · simp [hp]
    · simp only [if_true]
      rw [chargeIncs_sum G hG]
      simp [hp]

/-- The deposit faults (writes outside the density array) exactly when some live particle is
beyond a far wall. -/
theorem C02_deposit_in_bounds_iff (G : Geom) (hG : G.Valid) (ps : List Particle) (rho : Grid) :
    chargeWeighting G ps rho ≠ none ↔
      ∀ p ∈ ps, p.alive = true → p.pos.c0 ≤ G.r_size ∧ p.pos.c2 ≤ G.z_size := by
  constructor
  · intro h
    by_contra hcon
    apply h
    rw [chargeWeighting_eq]
    apply applyIncs_none
    by_contra h2
    push Not at h2
    exact hcon ((particleIncs_inGrid G hG ps).1 h2)
  · intro h
    rw [chargeWeighting_some G hG ps h]
    simp

/-! ## C02: locality and sign -/

/-- sign of each increment of one positive charge at an admissible position -/
theorem chargeIncs_sign (G : Geom) (hG : G.Valid) (q r z : ℝ) (hq : 0 ≤ q)
    (hr : 0 ≤ r) (hz : 0 ≤ z) : ∀ d ∈ chargeIncs G q r z, 0 ≤ d.v := by
  have hdr := hG.dr_pos
  have hdz := hG.dz_pos
  have hpi := PI_pos
  have bz := cell_bounds hdz hz
  have br := cell_bounds hdr hr
  set k : ℝ := (clamp0 (CELL_NUMBER z G.dz) : ℝ) with hk
  set a : ℝ := (clamp0 (CELL_NUMBER r G.dr) : ℝ) with ha
  have d1 : 0 ≤ (k + 0.5) * G.dz - (z - 0.5 * G.dz) := by nlinarith [bz.2]
  have d2 : 0 ≤ (z + 0.5 * G.dz) - (k + 0.5) * G.dz := by nlinarith [bz.1]
  unfold chargeIncs
  by_cases h1 : r > G.dr
  · have hi := cell_ge_one hdr h1
    have hi' : (1 : ℝ) ≤ a := by rw [ha]; exact_mod_cast hi
    have e1 : 0 ≤ (a + 0.5) * G.dr * ((a + 0.5) * G.dr) - (r - 0.5 * G.dr) * (r - 0.5 * G.dr) := by
      nlinarith [br.2]
    have e2 : 0 ≤ (r + 0.5 * G.dr) * (r + 0.5 * G.dr) - (a + 0.5) * G.dr * ((a + 0.5) * G.dr) := by
      nlinarith [br.1]
    simp only [h1, if_true, List.mem_cons, List.not_mem_nil, or_false, forall_eq_or_imp,
      forall_eq, CELL_VOLUME, CYL_RNG_VOL, ← hk, ← ha]
    refine ⟨?_, ?_, ?_, ?_⟩ <;> positivity
  · have hi := cell_eq_zero hdr (not_lt.1 h1)
    have hr1 : r ≤ G.dr := not_lt.1 h1
    by_cases h2 : r ≤ G.dr / 2
    · have e1 : 0 ≤ G.dr * G.dr / 2 - r * G.dr + r * r := by nlinarith [mul_self_nonneg (r - G.dr)]
      have e2 : 0 ≤ (r + 0.5 * G.dr) * (r + 0.5 * G.dr) - (0 + 0.5) * G.dr * ((0 + 0.5) * G.dr) := by
        nlinarith
      simp only [h1, h2, if_true, if_false, List.mem_cons, List.not_mem_nil, or_false,
        forall_eq_or_imp, forall_eq, CELL_VOLUME, CYL_RNG_VOL, CYL_VOL, ← hk, Int.cast_zero]
      refine ⟨?_, ?_, ?_, ?_⟩ <;> positivity
    · have h0 : a = 0 := by rw [ha, hi]; simp
      have hrp : 0 < r := by linarith [not_le.1 h2]
      have e1 : 0 ≤ (a + 0.5) * G.dr * ((a + 0.5) * G.dr) - (r - 0.5 * G.dr) * (r - 0.5 * G.dr) := by
        rw [h0]; nlinarith [not_le.1 h2]
      have e2 : 0 ≤ (r + 0.5 * G.dr) * (r + 0.5 * G.dr) - (a + 0.5) * G.dr * ((a + 0.5) * G.dr) := by
        rw [h0]; nlinarith [not_le.1 h2]
      have ha0 : 0 ≤ a + 1 := by linarith
      simp only [h1, h2, if_false, List.mem_cons, List.not_mem_nil, or_false,
        forall_eq_or_imp, forall_eq, CELL_VOLUME, CYL_RNG_VOL, CYL_VOL, ← hk, ← ha]
      refine ⟨?_, ?_, ?_, ?_⟩ <;> positivity

/-- increments are linear in the charge -/
theorem chargeIncs_neg (G : Geom) (q r z : ℝ) (a b : ℤ) :
    contrib (chargeIncs G (-q) r z) a b = - contrib (chargeIncs G q r z) a b := by
  unfold chargeIncs
  by_cases h1 : r > G.dr
  · simp only [h1, if_true, contrib_cons, contrib_nil]
    split_ifs <;> ring
  · by_cases h2 : r ≤ G.dr / 2
    · simp only [h1, h2, if_true, if_false, contrib_cons, contrib_nil]
      split_ifs <;> ring
    · simp only [h1, h2, if_false, contrib_cons, contrib_nil]
      split_ifs <;> ring

theorem contrib_nonneg {l : List Inc} (h : ∀ d ∈ l, 0 ≤ d.v) (a b : ℤ) : 0 ≤ contrib l a b := by
  unfold contrib
  apply List.sum_nonneg
  intro x hx
  obtain ⟨d, hd, rfl⟩ := List.mem_map.1 hx
  split_ifs
  · exact h d hd
  · exact le_refl _

theorem contrib_eq_zero {l : List Inc} {a b : ℤ} (h : ∀ d ∈ l, ¬ (a = d.i ∧ b = d.k)) :
    contrib l a b = 0 := by
  unfold contrib
  apply List.sum_eq_zero
  intro x hx
  obtain ⟨d, hd, rfl⟩ := List.mem_map.1 hx
  rw [if_neg (h d hd)]

/-- **C02**. Depositing one live particle at a position of the closed chamber succeeds; there is
a cell `[i dr, (i+1) dr] x [k dz, (k+1) dz]` containing the particle such that only the four
corner nodes of that cell change, and every node changes by an amount of the sign of the
charge. -/
theorem C02_deposit_local_and_signed (G : Geom) (hG : G.Valid) (p : Particle) (rho : Grid)
    (halive : p.alive = true)
    (hr0 : 0 ≤ p.pos.c0) (hr1 : p.pos.c0 ≤ G.r_size)
    (hz0 : 0 ≤ p.pos.c2) (hz1 : p.pos.c2 ≤ G.z_size) :
    ∃ rho', chargeWeighting G [p] rho = some rho' ∧
      (∃ i k : ℤ, 0 ≤ i ∧ i + 1 < G.nr ∧ 0 ≤ k ∧ k + 1 < G.nz ∧
        (i : ℝ) * G.dr ≤ p.pos.c0 ∧ p.pos.c0 ≤ ((i : ℝ) + 1) * G.dr ∧
        (k : ℝ) * G.dz ≤ p.pos.c2 ∧ p.pos.c2 ≤ ((k : ℝ) + 1) * G.dz ∧
        ∀ a b : ℤ, ¬ ((a = i ∨ a = i + 1) ∧ (b = k ∨ b = k + 1)) → rho' a b = rho a b) ∧
      (0 ≤ p.charge → ∀ a b, rho a b ≤ rho' a b) ∧
      (p.charge ≤ 0 → ∀ a b, rho' a b ≤ rho a b) := by
  have hin : WithinFarWalls G [p] := by
    intro p' hp' _
    rw [List.mem_singleton] at hp'
    subst hp'
    exact ⟨hr1, hz1⟩
  have hinc : ([p] : List Particle).flatMap (particleIncs G) =
      chargeIncs G p.charge p.pos.c0 p.pos.c2 := by
    simp [particleIncs, halive]
  refine ⟨_, chargeWeighting_some G hG [p] hin rho, ?_, ?_, ?_⟩
  · refine ⟨clamp0 (CELL_NUMBER p.pos.c0 G.dr), clamp0 (CELL_NUMBER p.pos.c2 G.dz), ?_⟩
    have hr := cell_range (x := p.pos.c0) hG.dr_pos hG.nr_ge hG.r_size_eq
    have hz := cell_range (x := p.pos.c2) hG.dz_pos hG.nz_ge hG.z_size_eq
    have br := cell_bounds hG.dr_pos hr0
    have bz := cell_bounds hG.dz_pos hz0
    refine ⟨hr.1, hr.2.2 hr1, hz.1, hz.2.2 hz1, br.1, br.2, bz.1, bz.2, ?_⟩
    intro a b hab
    rw [hinc, contrib_eq_zero, add_zero]
    intro d hd hab'
    have hm : (d.i, d.k) ∈ (chargeIncs G p.charge p.pos.c0 p.pos.c2).map (fun d => (d.i, d.k)) :=
      List.mem_map.2 ⟨d, hd, rfl⟩
    rw [chargeIncs_nodes G hG, ← hab'.1, ← hab'.2] at hm
    simp only [List.mem_cons, Prod.mk.injEq, List.not_mem_nil, or_false] at hm
    apply hab
    omega
  · intro hq a b
    rw [hinc]
    have := contrib_nonneg (chargeIncs_sign G hG p.charge _ _ hq hr0 hz0) a b
    linarith
  · intro hq a b
    rw [hinc]
    have := contrib_nonneg (chargeIncs_sign G hG (-p.charge) _ _ (by linarith) hr0 hz0) a b
    rw [chargeIncs_neg] at this
    linarith

/-! ## C03: order independence -/

theorem flatMap_perm_incs {α : Type*} (f : α → List Inc) {l₁ l₂ : List α} (h : l₁.Perm l₂) :
    (l₁.flatMap f).Perm (l₂.flatMap f) := h.flatMap_right f

theorem applyIncs_perm {nr nz : ℕ} {l₁ l₂ : List Inc} (h : l₁.Perm l₂) (g : Grid) :
    applyIncs nr nz l₁ g = applyIncs nr nz l₂ g := by
  by_cases hin : ∀ d ∈ l₁, InGrid nr nz d.i d.k
  · rw [applyIncs_some hin, applyIncs_some (fun d hd => hin d (h.mem_iff.2 hd))]
    congr 1; funext a b; rw [contrib_perm h]
  · push Not at hin
    obtain ⟨d, hd, hne⟩ := hin
    rw [applyIncs_none ⟨d, hd, hne⟩, applyIncs_none ⟨d, h.mem_iff.1 hd, hne⟩]

/-- **C03**. The density after a deposit (and whether the deposit faults) does not depend on the
order of the particles. -/
theorem C03_deposit_order_independent (G : Geom) {ps qs : List Particle} (h : ps.Perm qs)
    (rho : Grid) : chargeWeighting G ps rho = chargeWeighting G qs rho := by
  rw [chargeWeighting_eq, chargeWeighting_eq]
  exact applyIncs_perm (flatMap_perm_incs _ h) rho

/-- **C03**. The finer statement behind it: a concurrent deposit in which the individual
increments of all particles are interleaved arbitrarily (any permutation of the increment
calls) gives the sequential result. -/
theorem C03_increments_any_interleaving (G : Geom) (ps : List Particle) (rho : Grid)
    (l : List Inc) (h : l.Perm (ps.flatMap (particleIncs G))) :
    applyIncs G.nr G.nz l rho = chargeWeighting G ps rho := by
  rw [chargeWeighting_eq]; exact applyIncs_perm h rho

/-- **C03**. Depositing the species one after another equals depositing their concatenation. -/
theorem C03_species_union (G : Geom) (species : List (List Particle)) (rho : Grid) :
    chargeWeightingList G species rho = chargeWeighting G species.flatten rho := by
  induction species generalizing rho with
  | nil => rfl
  | cons ps ss ih =>
    rw [List.flatten_cons, chargeWeighting_eq, List.flatMap_append, applyIncs_append,
      ← chargeWeighting_eq]
    simp only [chargeWeightingList, List.foldlM_cons] at ih ⊢
    cases chargeWeighting G ps rho with
    | none => rfl
    | some g =>
      change (List.foldlM _ g ss) = applyIncs _ _ _ g
      rw [ih, chargeWeighting_eq]

/-- **C03**. Dead particles contribute nothing: removing them changes neither the density nor
whether the deposit faults. -/
theorem C03_dead_contribute_nothing (G : Geom) (ps : List Particle) (rho : Grid) :
    chargeWeighting G ps rho = chargeWeighting G (ps.filter (fun p => p.alive)) rho := by
  rw [chargeWeighting_eq, chargeWeighting_eq]
  congr 1
  induction ps with
  | nil => rfl
  | cons p ps ih =>
    cases hp : p.alive
    · simp [List.flatMap_cons, particleIncs, hp]
      simpa [particleIncs] using ih
    · simp [List.flatMap_cons, particleIncs, hp]
      simpa [particleIncs] using ih

/-! ## C04: azimuthal current -/

/-- all live particles are off the axis and within the far walls -/
def OffAxisWithinFarWalls (G : Geom) (ps : List Particle) : Prop :=
  ∀ p ∈ ps, p.alive = true → 0 < p.pos.c0 ∧ p.pos.c0 ≤ G.r_size ∧ p.pos.c2 ≤ G.z_size

/-- increments of a live particle, `[]` otherwise -/
noncomputable def azimIncsOf (G : Geom) (p : Particle) : List Inc :=
  if p.alive then (azimuthalIncs G p.charge p.vel.c1 p.pos.c0 p.pos.c2).getD [] else []

theorem azimuthalIncs_nodes (G : Geom) (q v r z : ℝ) {l : List Inc}
    (h : azimuthalIncs G q v r z = some l) :
    l.map (fun d => (d.i, d.k)) =
      [(clamp0 (CELL_NUMBER r G.dr), clamp0 (CELL_NUMBER z G.dz)),
       (clamp0 (CELL_NUMBER r G.dr) + 1, clamp0 (CELL_NUMBER z G.dz)),
       (clamp0 (CELL_NUMBER r G.dr), clamp0 (CELL_NUMBER z G.dz) + 1),
       (clamp0 (CELL_NUMBER r G.dr) + 1, clamp0 (CELL_NUMBER z G.dz) + 1)] := by
  unfold azimuthalIncs at h
  by_cases h0 : r = 0
  · simp [h0] at h
  · by_cases h1 : r > G.dr
    · simp [h0, h1] at h; subst h; simp
    · simp [h0, h1] at h; subst h; simp

theorem azimuthalIncs_sum (G : Geom) (hG : G.Valid) (q v r z : ℝ) {l : List Inc}
    (h : azimuthalIncs G q v r z = some l) :
    (l.map (fun d => d.v * nodeVolume G d.i)).sum = q * v := by
  have hdr := hG.dr_pos
  have hdz := hG.dz_pos
  have hpi := PI_ne
  unfold azimuthalIncs at h
  by_cases h0 : r = 0
  · simp [h0] at h
  by_cases h1 : r > G.dr
  · have hi := cell_ge_one hG.dr_pos h1
    have hi' : (1 : ℝ) ≤ (clamp0 (CELL_NUMBER r G.dr) : ℝ) := by exact_mod_cast hi
    simp only [h0, h1, if_true, if_false, Option.some.injEq] at h
    subst h
    simp only [List.map_cons, List.map_nil, List.sum_cons, List.sum_nil]
    rw [nodeVolume_pos_idx G hG hi, nodeVolume_pos_idx G hG (by omega : 1 ≤ clamp0 (CELL_NUMBER r G.dr) + 1)]
    push_cast
    unfold CELL_VOLUME CYL_RNG_VOL
    have : (clamp0 (CELL_NUMBER r G.dr) : ℝ) ≠ 0 := by linarith
    have : (clamp0 (CELL_NUMBER r G.dr) : ℝ) + 1 ≠ 0 := by linarith
    generalize (clamp0 (CELL_NUMBER r G.dr) : ℝ) = a at *
    generalize (clamp0 (CELL_NUMBER z G.dz) : ℝ) = b at *
    field_simp
    ring
  · have hi := cell_eq_zero hG.dr_pos (not_lt.1 h1)
    have e1 : nodeVolume G (0 + 1) = CELL_VOLUME ((0:ℝ) + 1) G.dr G.dz := by
      have := nodeVolume_pos_idx G hG (i := 1) (by omega)
      simpa using this
    simp only [h0, h1, if_false, Option.some.injEq] at h
    subst h
    simp only [List.map_cons, List.map_nil, List.sum_cons, List.sum_nil, hi, Int.cast_zero]
    rw [nodeVolume_zero G hG, e1]
    unfold CELL_VOLUME CYL_RNG_VOL CYL_VOL
    generalize (clamp0 (CELL_NUMBER z G.dz) : ℝ) = b at *
    field_simp
    ring

theorem azimuthalCurrent_eq (G : Geom) (ps : List Particle) (hin : OffAxisWithinFarWalls G ps)
    (j : Grid) :
    azimuthalCurrent G ps j = applyIncs G.nr G.nz (ps.flatMap (azimIncsOf G)) j := by
  induction ps generalizing j with
  | nil => rfl
  | cons p ps ih =>
    have hps : OffAxisWithinFarWalls G ps := fun p' hp' => hin p' (by simp [hp'])
    rw [List.flatMap_cons, applyIncs_append]
    simp only [azimuthalCurrent, List.foldlM_cons] at ih ⊢
    unfold azimIncsOf at *
    cases hp : p.alive
    · simp [applyIncs, List.foldlM_nil] at *
      simpa using ih hps j
    · have hne : p.pos.c0 ≠ 0 := (hin p (by simp) hp).1.ne'
      have : ∃ l, azimuthalIncs G p.charge p.vel.c1 p.pos.c0 p.pos.c2 = some l := by
        unfold azimuthalIncs; simp [hne]
      obtain ⟨l, hl⟩ := this
      simp only [if_true, hl, Option.bind_some, Option.getD_some]
      cases applyIncs G.nr G.nz l j with
      | none => rfl
      | some g => exact ih hps g

theorem azimIncs_inGrid (G : Geom) (hG : G.Valid) (ps : List Particle)
    (hin : OffAxisWithinFarWalls G ps) :
    ∀ d ∈ ps.flatMap (azimIncsOf G), InGrid G.nr G.nz d.i d.k := by
  intro d hd
  obtain ⟨p, hp, hd⟩ := List.mem_flatMap.1 hd
  unfold azimIncsOf at hd
  split_ifs at hd with ha
  · obtain ⟨h0, h1, h2⟩ := hin p hp ha
    have hr := cell_range (x := p.pos.c0) hG.dr_pos hG.nr_ge hG.r_size_eq
    have hz := cell_range (x := p.pos.c2) hG.dz_pos hG.nz_ge hG.z_size_eq
    have hr2 := hr.2.2 h1
    have hz2 := hz.2.2 h2
    cases hl : azimuthalIncs G p.charge p.vel.c1 p.pos.c0 p.pos.c2 with
    | none => rw [hl] at hd; simp at hd
    | some l =>
      rw [hl] at hd
      simp only [Option.getD_some] at hd
      have hm : (d.i, d.k) ∈ l.map (fun d => (d.i, d.k)) := List.mem_map.2 ⟨d, hd, rfl⟩
      rw [azimuthalIncs_nodes G _ _ _ _ hl] at hm
      simp only [List.mem_cons, Prod.mk.injEq, List.not_mem_nil, or_false] at hm
      unfold InGrid
      omega
  · simp at hd

/-- **C04**. Depositing the azimuthal current of any list of particles that are off the axis and
within the far walls succeeds and raises the volume-weighted total of `J_phi` by exactly
the sum of charge times azimuthal velocity of the live particles. -/
theorem C04_azimuthal_current_total (G : Geom) (hG : G.Valid) (ps : List Particle)
    (hin : OffAxisWithinFarWalls G ps) (j : Grid) :
    ∃ j', azimuthalCurrent G ps j = some j' ∧
      gridTotal G.nr G.nz (nodeVolume G) j' =
        gridTotal G.nr G.nz (nodeVolume G) j + liveMomentPhi ps := by
  have hb := azimIncs_inGrid G hG ps hin
  refine ⟨_, (azimuthalCurrent_eq G ps hin j).trans (applyIncs_some hb j), ?_⟩
  rw [gridTotal_add, gridTotal_contrib _ hb]
  congr 1
  unfold liveMomentPhi
  clear hb
  induction ps with
  | nil => rfl
  | cons p ps ih =>
    have hps : OffAxisWithinFarWalls G ps := fun p' hp' => hin p' (by simp [hp'])
    rw [List.flatMap_cons, List.map_append, List.sum_append, ih hps]
    unfold azimIncsOf
    cases hp : p.alive
    · simp [hp]
    · have hne : p.pos.c0 ≠ 0 := (hin p (by simp) hp).1.ne'
      have : ∃ l, azimuthalIncs G p.charge p.vel.c1 p.pos.c0 p.pos.c2 = some l := by
        unfold azimuthalIncs; simp [hne]
      obtain ⟨l, hl⟩ := this
      simp only [if_true, hl, Option.getD_some]
      rw [azimuthalIncs_sum G hG _ _ _ _ hl]
      simp [hp]

/-- **C04** (what happens on the axis): a live particle exactly on the axis makes the azimuthal
deposit divide by zero. -/
theorem C04_axis_faults (G : Geom) (p : Particle) (ps : List Particle) (j : Grid)
    (ha : p.alive = true) (h0 : p.pos.c0 = 0) : azimuthalCurrent G (p :: ps) j = none := by
  simp [azimuthalCurrent, ha, azimuthalIncs, h0]

/-! ## Concrete instances: the hypotheses are satisfiable -/

/-- a 3x4 grid with unit cells -/
noncomputable def demoGeom : Geom :=
  { r_size := 2, z_size := 3, nr := 3, nz := 4, dr := 1, dz := 1 }

theorem demoGeom_valid : demoGeom.Valid := by
  constructor <;> simp [demoGeom] <;> norm_num

/-- a particle at r = 1.5, z = 0.25 -/
noncomputable def demoParticle (q r z : ℝ) : Particle :=
  { alive := true, pos := ⟨r, 0, z⟩, posOld := ⟨r, 0, z⟩, vel := ⟨1, 2, 3⟩, charge := q,
    mass := 1, sinTheta := 0, cosTheta := 1 }

/-- non-vacuity of C01/C02/C03/C04: two live particles (one outside the axis half cell, one on a
cell face) and one dead particle far outside the chamber. -/
example : WithinFarWalls demoGeom
    [demoParticle 2 1.5 0.25, demoParticle (-1) 1 3, { demoParticle 5 9 9 with alive := false }] := by
  intro p hp ha
  simp only [List.mem_cons, List.not_mem_nil, or_false] at hp
  rcases hp with rfl | rfl | rfl
  · simp [demoParticle, demoGeom]; norm_num
  · simp [demoParticle, demoGeom]
  · simp at ha

example : OffAxisWithinFarWalls demoGeom [demoParticle 2 1.5 0.25, demoParticle (-1) 0.25 3] := by
  intro p hp ha
  simp only [List.mem_cons, List.not_mem_nil, or_false] at hp
  rcases hp with rfl | rfl
  · simp [demoParticle, demoGeom]; norm_num
  · simp [demoParticle, demoGeom]; norm_num

example : liveCharge
    [demoParticle 2 1.5 0.25, demoParticle (-5) 1 3, { demoParticle 5 9 9 with alive := false }]
      = -3 := by
  simp [liveCharge, demoParticle]; norm_num

end Verif
