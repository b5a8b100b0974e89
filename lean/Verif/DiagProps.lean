import Verif.Diag
import Verif.DepositProps
import Mathlib.Tactic.Linarith
import Mathlib.Analysis.Real.Sqrt

/-!
# Density, temperature and smoothing (C37-C39)
-/

namespace Verif

/-! ## Specification -/

/-- Volume-weighted total of a density grid. -/
noncomputable def totalCount (G : Geom) (g : Grid) : ℝ := gridTotal G.nr G.nz (nodeVolume G) g

/-- Particles strictly inside the lower axial wall and inside the far walls. -/
def InsideForDensity (G : Geom) (ps : List Particle) : Prop :=
  ∀ p ∈ ps, p.pos.c0 ≤ G.r_size ∧ 0 < p.pos.c2 ∧ p.pos.c2 ≤ G.z_size

/-- Physical particles represented by a list, if each has the mass `m`. -/
noncomputable def represented (m : ℝ) (ps : List Particle) : ℝ := (ps.map fun p => p.mass / m).sum

/-- The grid has a size that fits its counter type. -/
def Geom.Fits (G : Geom) : Prop := G.nr < 2 ^ 32 ∧ G.nz < 2 ^ 32

/-! ## The increments are those of the charge deposition -/

theorem u32_of_range {x : ℤ} (h0 : 0 ≤ x) (h1 : x < 2 ^ 32) : u32 x = x := Int.emod_eq_of_lt h0 h1

theorem cell_nonneg {x dx : ℝ} (hdx : 0 < dx) (h : 0 < x) : 0 ≤ CELL_NUMBER x dx := by
  have := (CELL_NUMBER_spec (x := x) hdx).2
  by_contra hc
  push Not at hc
  have h1 : (CELL_NUMBER x dx : ℝ) + 1 ≤ 0 := by exact_mod_cast hc
  nlinarith

theorem u32_cell {x dx s : ℝ} {n : ℕ} (hdx : 0 < dx) (hn : 2 ≤ n) (hn' : n < 2 ^ 32)
    (hs : s = dx * ((n : ℝ) - 1)) (h0 : 0 < x) (h1 : x ≤ s) :
    u32 (CELL_NUMBER x dx) = clamp0 (CELL_NUMBER x dx) ∧
      u32 (clamp0 (CELL_NUMBER x dx) + 1) = clamp0 (CELL_NUMBER x dx) + 1 := by
  have hc := cell_nonneg hdx h0
  have h2 := ((cell_range (x := x) hdx hn hs).2).2 h1
  have e : clamp0 (CELL_NUMBER x dx) = CELL_NUMBER x dx := by unfold clamp0; rw [if_neg (by omega)]
  rw [e] at h2 ⊢
  exact ⟨u32_of_range hc (by omega), u32_of_range (by omega) (by omega)⟩

theorem shapeIncs_eq (G : Geom) (hG : G.Valid) (hF : G.Fits) (Q r z : ℝ) (hr : r ≤ G.r_size) (hz0 : 0 < z)
    (hz : z ≤ G.z_size) : shapeIncs G Q r z = chargeIncs G Q r z := by
  obtain ⟨ez, ez'⟩ := u32_cell hG.dz_pos hG.nz_ge hF.2 hG.z_size_eq hz0 hz
  have e1 : u32 (0 + 1) = 0 + 1 := u32_of_range (by norm_num) (by norm_num)
  have hdr := hG.dr_pos
  unfold shapeIncs chargeIncs
  by_cases h1 : r > G.dr
  · obtain ⟨er, er'⟩ := u32_cell hG.dr_pos hG.nr_ge hF.1 hG.r_size_eq (by linarith : 0 < r) hr
    simp only [h1, if_true, er, er', ez, ez', mul_div_assoc]
    push_cast
    rfl
  · by_cases h2 : r ≤ G.dr / 2
    · simp only [h1, h2, if_true, if_false, ez, ez', e1]
      push_cast
      simp only [List.cons.injEq, Inc.mk.injEq, true_and, and_true]
      refine ⟨by ring, by ring, by ring, by ring⟩
    · obtain ⟨er, er'⟩ := u32_cell hG.dr_pos hG.nr_ge hF.1 hG.r_size_eq (by linarith : 0 < r) hr
      simp only [h1, h2, if_false, er, er', ez, ez', mul_div_assoc]
      push_cast
      rfl

/-- increments are linear in the deposited quantity -/
theorem chargeIncs_scale (G : Geom) (c q r z : ℝ) (a b : ℤ) :
    contrib (chargeIncs G (c * q) r z) a b = c * contrib (chargeIncs G q r z) a b := by
  unfold chargeIncs
  by_cases h1 : r > G.dr
  · simp only [h1, if_true, contrib_cons, contrib_nil]
    split_ifs <;> ring
  · by_cases h2 : r ≤ G.dr / 2
    · simp only [h1, h2, if_true, if_false, contrib_cons, contrib_nil]
      split_ifs <;> ring
    · simp only [h1, h2, if_false, contrib_cons, contrib_nil]
      split_ifs <;> ring

theorem foldlM_incs {α : Type*} (nr nz : ℕ) (f : α → List Inc) (l : List α) (g : Grid) :
    l.foldlM (fun g p => applyIncs nr nz (f p) g) g = applyIncs nr nz (l.flatMap f) g := by
  induction l generalizing g with
  | nil => rfl
  | cons p l ih =>
    rw [List.flatMap_cons, applyIncs_append, List.foldlM_cons]
    cases applyIncs nr nz (f p) g with
    | none => rfl
    | some g' => exact ih g'

/-! ## C37: number density -/

theorem calcDensity_some (G : Geom) (hG : G.Valid) (hF : G.Fits) (A : ArrSize) (hA : A = ⟨G.nr, G.nz⟩)
    (ps : List Particle) (hin : InsideForDensity G ps) :
    calcDensity G A ps =
      some (contrib (ps.flatMap fun p => chargeIncs G (p.mass / EL_MASS) p.pos.c0 p.pos.c2)) ∧
    ∀ d ∈ ps.flatMap (fun p => chargeIncs G (p.mass / EL_MASS) p.pos.c0 p.pos.c2), InGrid G.nr G.nz d.i d.k := by
  subst hA
  have hmem : ∀ d ∈ ps.flatMap (fun p => chargeIncs G (p.mass / EL_MASS) p.pos.c0 p.pos.c2),
      InGrid G.nr G.nz d.i d.k := by
    intro d hd
    obtain ⟨p, hp, hd⟩ := List.mem_flatMap.1 hd
    exact (chargeIncs_inGrid_iff G hG _ _ _).2 ⟨(hin p hp).1, (hin p hp).2.2⟩ d hd
  refine ⟨?_, hmem⟩
  unfold calcDensity resetGrid
  rw [if_pos ⟨le_rfl, le_rfl⟩, Option.bind_some, foldlM_incs]
  have e : ps.flatMap (fun p => shapeIncs G (p.mass / EL_MASS) p.pos.c0 p.pos.c2)
      = ps.flatMap (fun p => chargeIncs G (p.mass / EL_MASS) p.pos.c0 p.pos.c2) := by
    apply List.flatMap_congr
    intro p hp
    exact shapeIncs_eq G hG hF _ _ _ (hin p hp).1 (hin p hp).2.1 (hin p hp).2.2
  rw [e, applyIncs_some hmem]
  simp

/-- **C37** (partial) If the density array is as large as the grid and every particle of the species is inside, the
volume-weighted sum of the density is the number of electrons with the mass of the macroparticles, and the result does
not depend on the order of the particles. Missing: the array is allocated too small (`C37_memory_violated`), for other
species the mass of the electron is the wrong divisor (`C37_ions_violated`), absorbed particles count too
(`C37_dead_violated`), a particle on the lower wall faults (`C37_wall_violated`). -/
theorem C37_density_total_partial (G : Geom) (hG : G.Valid) (hF : G.Fits) (ps : List Particle)
    (hin : InsideForDensity G ps) :
    ∃ g, calcDensity G ⟨G.nr, G.nz⟩ ps = some g ∧ totalCount G g = represented EL_MASS ps ∧
      ∀ qs, ps.Perm qs → calcDensity G ⟨G.nr, G.nz⟩ qs = some g := by
  obtain ⟨h, hm⟩ := calcDensity_some G hG hF _ rfl ps hin
  refine ⟨_, h, ?_, ?_⟩
  · unfold totalCount
    rw [gridTotal_contrib _ hm]
    unfold represented
    clear h hm hin
    induction ps with
    | nil => rfl
    | cons p ps ih =>
      rw [List.flatMap_cons, List.map_append, List.sum_append, ih, chargeIncs_sum G hG]
      simp
  · intro qs hq
    have hin' : InsideForDensity G qs := fun p hp => hin p (hq.symm.subset hp)
    rw [(calcDensity_some G hG hF _ rfl qs hin').1]
    congr 1
    funext a b
    exact contrib_perm (flatMap_perm_incs _ hq.symm) a b

/-- The density is nowhere negative. -/
theorem C37_density_nonneg_partial (G : Geom) (hG : G.Valid) (hF : G.Fits) (ps : List Particle)
    (hin : InsideForDensity G ps) (hr : ∀ p ∈ ps, 0 ≤ p.pos.c0) (hm : ∀ p ∈ ps, 0 ≤ p.mass) :
    ∃ g, calcDensity G ⟨G.nr, G.nz⟩ ps = some g ∧ ∀ i k : ℤ, 0 ≤ g i k := by
  refine ⟨_, (calcDensity_some G hG hF _ rfl ps hin).1, fun i k => contrib_nonneg ?_ i k⟩
  intro d hd
  obtain ⟨p, hp, hd⟩ := List.mem_flatMap.1 hd
  exact chargeIncs_sign G hG _ _ _ (div_nonneg (hm p hp) EL_MASS_pos.le) (hr p hp) (hin p hp).2.1.le d hd

/-- **C37** violated, memory: with any grid, constructing the density diagnostic (done at every start) writes
beyond its pointer array, and so does every reset of an array with the allocated number of columns. -/
theorem C37_memory_violated (G : Geom) (hG : G.Valid) :
    newDensity G = none ∧ ∀ ptrs ps, calcDensity G ⟨ptrs, G.nz - 1⟩ ps = none := by
  have h1 := hG.nr_ge
  have h2 := hG.nz_ge
  constructor
  · unfold newDensity
    exact if_neg (by omega)
  · intro ptrs ps
    unfold calcDensity resetGrid
    rw [if_neg (by dsimp only; omega)]
    rfl

/-- **C37** violated for species other than electrons: particles whose mass is `m` times the electron mass are
reported `m` times too dense. -/
theorem C37_ions_violated (G : Geom) (hG : G.Valid) (hF : G.Fits) (ps : List Particle) (hin : InsideForDensity G ps)
    (m : ℝ) (hm : m ≠ 0) :
    ∃ g, calcDensity G ⟨G.nr, G.nz⟩ ps = some g ∧
      totalCount G g = m * represented (m * EL_MASS) ps := by
  obtain ⟨g, h, ht, _⟩ := C37_density_total_partial G hG hF ps hin
  refine ⟨g, h, ?_⟩
  rw [ht]
  unfold represented
  rw [← List.sum_map_mul_left]
  congr 1
  apply List.map_congr_left
  intro p _
  have := EL_MASS_pos.ne'
  field_simp

/-- **C37** violated for absorbed particles: the flag makes no difference. -/
theorem C37_dead_violated (G : Geom) (A : ArrSize) (ps : List Particle) :
    calcDensity G A (ps.map fun p => { p with alive := false }) = calcDensity G A ps := by
  unfold calcDensity
  congr 1
  funext g
  rw [foldlM_incs, foldlM_incs, List.flatMap_map]

/-- **C37** violated at the wall: a single particle at `z = 0` makes the diagnostic write outside of the array
(the cell number is minus one converted to unsigned). -/
theorem C37_wall_violated (G : Geom) (hG : G.Valid) (hF : G.Fits) (p : Particle) (hz : p.pos.c2 = 0) :
    calcDensity G ⟨G.nr, G.nz⟩ [p] = none := by
  have hk : u32 (CELL_NUMBER p.pos.c2 G.dz) = 2 ^ 32 - 1 := by
    have : CELL_NUMBER p.pos.c2 G.dz = -1 := by rw [hz]; simp [CELL_NUMBER]
    rw [this]; rfl
  unfold calcDensity resetGrid
  rw [if_pos ⟨le_rfl, le_rfl⟩, Option.bind_some, foldlM_incs]
  apply applyIncs_none
  have hF2 := hF.2
  simp only [List.flatMap_cons, List.flatMap_nil, List.append_nil]
  unfold shapeIncs
  simp only [hk]
  split_ifs
  all_goals
    refine ⟨_, List.mem_cons_self, ?_⟩
    simp only [InGrid]
    omega

/-! ## C38: temperature -/

/-- The triangle inequality in the form that is needed. -/
theorem weighted_triangle (l : List (ℝ × V3)) (hw : ∀ x ∈ l, 0 ≤ x.1) :
    let S := fun f : ℝ × V3 → ℝ => (l.map f).sum
    0 ≤ S (fun x => x.1 * Real.sqrt x.2.sq) ∧
    S (fun x => x.1 * x.2.c0) ^ 2 + S (fun x => x.1 * x.2.c1) ^ 2 + S (fun x => x.1 * x.2.c2) ^ 2
      ≤ S (fun x => x.1 * Real.sqrt x.2.sq) ^ 2 := by
  induction l with
  | nil => simp
  | cons x l ih =>
    obtain ⟨h0, h1⟩ := ih fun y hy => hw y (by simp [hy])
    have hx := hw x (by simp)
    dsimp only at *
    simp only [List.map_cons, List.sum_cons]
    generalize (l.map fun x => x.1 * Real.sqrt x.2.sq).sum = T at *
    generalize (l.map fun x => x.1 * x.2.c0).sum = a at *
    generalize (l.map fun x => x.1 * x.2.c1).sum = b at *
    generalize (l.map fun x => x.1 * x.2.c2).sum = c at *
    obtain ⟨w, v⟩ := x
    dsimp only at *
    have hs : 0 ≤ v.sq := by unfold V3.sq; nlinarith [mul_self_nonneg v.c0, mul_self_nonneg v.c1, mul_self_nonneg v.c2]
    set s := Real.sqrt v.sq with hsd
    have hs0 : 0 ≤ s := Real.sqrt_nonneg _
    have hss : s ^ 2 = v.c0 * v.c0 + v.c1 * v.c1 + v.c2 * v.c2 := by rw [hsd, Real.sq_sqrt hs]; rfl
    refine ⟨by positivity, ?_⟩
    -- dot product at most the product of the lengths
    have hdot : a * v.c0 + b * v.c1 + c * v.c2 ≤ T * s := by
      refine (abs_le.1 (abs_le_of_sq_le_sq ?_ (mul_nonneg h0 hs0))).2
      have : (a * v.c0 + b * v.c1 + c * v.c2) ^ 2 ≤ (a ^ 2 + b ^ 2 + c ^ 2) * s ^ 2 := by
        rw [hss]
        nlinarith [sq_nonneg (a * v.c1 - b * v.c0), sq_nonneg (a * v.c2 - c * v.c0), sq_nonneg (b * v.c2 - c * v.c1)]
      calc _ ≤ (a ^ 2 + b ^ 2 + c ^ 2) * s ^ 2 := this
        _ ≤ T ^ 2 * s ^ 2 := by apply mul_le_mul_of_nonneg_right h1 (sq_nonneg s)
        _ = (T * s) ^ 2 := by ring
    have := mul_le_mul_of_nonneg_left hdot hx
    have e : (w * v.c0 + a) ^ 2 + (w * v.c1 + b) ^ 2 + (w * v.c2 + c) ^ 2
        = w ^ 2 * s ^ 2 + 2 * (w * (a * v.c0 + b * v.c1 + c * v.c2)) + (a ^ 2 + b ^ 2 + c ^ 2) := by rw [hss]; ring
    rw [e]
    nlinarith

theorem weighted_common (l : List (ℝ × V3)) (v : V3) (hv : ∀ x ∈ l, x.2 = v) (f : V3 → ℝ) :
    (l.map fun x => x.1 * f x.2).sum = (l.map Prod.fst).sum * f v := by
  rw [← List.sum_map_mul_right]
  congr 1
  apply List.map_congr_left
  intro x hx
  rw [hv x hx]

/-- What the accumulation of the five quantities amounts to, when the increments of one particle are inside and
linear in the accumulated quantity. -/
theorem acc_fold (G : Geom) (F : Particle → ℝ → List Inc) (W : Particle → ℤ → ℤ → ℝ) (A B C D E : Particle → ℝ)
    (ps : List Particle) (hin : ∀ p ∈ ps, ∀ Q, ∀ d ∈ F p Q, InGrid G.nr G.nz d.i d.k)
    (hlin : ∀ p ∈ ps, ∀ Q i k, contrib (F p Q) i k = Q * W p i k) (s : TempAcc) :
    ps.foldlM (fun s p => s.inc G (F p) (A p) (B p) (C p) (D p) (E p)) s = some
      ⟨fun i k => s.tsum i k + (ps.map fun p => A p * W p i k).sum,
       fun i k => s.vr i k + (ps.map fun p => B p * W p i k).sum,
       fun i k => s.vphi i k + (ps.map fun p => C p * W p i k).sum,
       fun i k => s.vz i k + (ps.map fun p => D p * W p i k).sum,
       fun i k => s.count i k + (ps.map fun p => E p * W p i k).sum⟩ := by
  induction ps generalizing s with
  | nil => simp
  | cons p ps ih =>
    have h1 := hin p (by simp)
    have h2 := hlin p (by simp)
    rw [List.foldlM_cons]
    unfold TempAcc.inc
    rw [applyIncs_some (h1 _), applyIncs_some (h1 _), applyIncs_some (h1 _), applyIncs_some (h1 _),
      applyIncs_some (h1 _)]
    simp only [Option.bind_eq_bind, Option.bind_some, Option.pure_def]
    have := ih (fun q hq => hin q (by simp [hq])) (fun q hq => hlin q (by simp [hq]))
    unfold TempAcc.inc at this
    simp only [Option.bind_eq_bind, Option.pure_def] at this
    rw [this]
    simp only [h2, List.map_cons, List.sum_cons, add_assoc]

/-- Positions for which the temperature diagnostics stay in bounds. -/
def StrictlyInside (G : Geom) (ps : List Particle) : Prop :=
  ∀ p ∈ ps, 0 < p.pos.c0 ∧ p.pos.c0 ≤ G.r_size ∧ 0 < p.pos.c2 ∧ p.pos.c2 ≤ G.z_size

/-- The particle is in cell `(i,k)`. -/
def InCell (G : Geom) (i k : ℤ) (p : Particle) : Prop :=
  (i : ℝ) * G.dr < p.pos.c0 ∧ p.pos.c0 ≤ ((i : ℝ) + 1) * G.dr ∧
  (k : ℝ) * G.dz < p.pos.c2 ∧ p.pos.c2 ≤ ((k : ℝ) + 1) * G.dz

open Classical in
theorem calcTClassic_some (G : Geom) (hG : G.Valid) (hF : G.Fits) (ps : List Particle) (hin : StrictlyInside G ps) :
    calcTClassic G ps = some
      ⟨fun i k => (ps.map fun p => Real.sqrt p.vel.sq * if InCell G i k p then 1 else 0).sum,
       fun i k => (ps.map fun p => p.vel.c0 * if InCell G i k p then 1 else 0).sum,
       fun i k => (ps.map fun p => p.vel.c1 * if InCell G i k p then 1 else 0).sum,
       fun i k => (ps.map fun p => p.vel.c2 * if InCell G i k p then 1 else 0).sum,
       fun i k => (ps.map fun p => 1 * if InCell G i k p then (1 : ℝ) else 0).sum⟩ := by
  unfold calcTClassic
  have key := acc_fold G
    (fun p v => [⟨u32 (CELL_NUMBER p.pos.c0 G.dr), u32 (CELL_NUMBER p.pos.c2 G.dz), v⟩])
    (fun p i k => if InCell G i k p then 1 else 0)
    (fun p => Real.sqrt p.vel.sq) (fun p => p.vel.c0) (fun p => p.vel.c1) (fun p => p.vel.c2) (fun _ => 1) ps ?_ ?_
    TempAcc.zero
  · unfold V3.sq at *
    rw [key]
    simp [TempAcc.zero]
  · intro p hp Q d hd
    obtain ⟨h1, h2, h3, h4⟩ := hin p hp
    simp only [List.mem_singleton] at hd
    subst hd
    have e1 := (u32_cell hG.dr_pos hG.nr_ge hF.1 hG.r_size_eq h1 h2).1
    have e2 := (u32_cell hG.dz_pos hG.nz_ge hF.2 hG.z_size_eq h3 h4).1
    have r1 := cell_range (x := p.pos.c0) hG.dr_pos hG.nr_ge hG.r_size_eq
    have r2 := cell_range (x := p.pos.c2) hG.dz_pos hG.nz_ge hG.z_size_eq
    have := r1.2.2 h2; have := r2.2.2 h4; have := r1.1; have := r2.1
    simp only [InGrid, e1, e2]
    omega
  · intro p hp Q i k
    obtain ⟨h1, h2, h3, h4⟩ := hin p hp
    have e1 := (u32_cell hG.dr_pos hG.nr_ge hF.1 hG.r_size_eq h1 h2).1
    have e2 := (u32_cell hG.dz_pos hG.nz_ge hF.2 hG.z_size_eq h3 h4).1
    have c1 : clamp0 (CELL_NUMBER p.pos.c0 G.dr) = CELL_NUMBER p.pos.c0 G.dr := by
      have := cell_nonneg hG.dr_pos h1
      unfold clamp0; rw [if_neg (by omega)]
    have c2 : clamp0 (CELL_NUMBER p.pos.c2 G.dz) = CELL_NUMBER p.pos.c2 G.dz := by
      have := cell_nonneg hG.dz_pos h3
      unfold clamp0; rw [if_neg (by omega)]
    have hiff : (i = CELL_NUMBER p.pos.c0 G.dr ∧ k = CELL_NUMBER p.pos.c2 G.dz) ↔ InCell G i k p := by
      constructor
      · rintro ⟨rfl, rfl⟩
        have a := CELL_NUMBER_spec (x := p.pos.c0) hG.dr_pos
        have b := CELL_NUMBER_spec (x := p.pos.c2) hG.dz_pos
        exact ⟨a.1, a.2, b.1, b.2⟩
      · rintro ⟨a1, a2, b1, b2⟩
        exact ⟨(CELL_NUMBER_unique hG.dr_pos i a1 a2).symm, (CELL_NUMBER_unique hG.dz_pos k b1 b2).symm⟩
    simp only [contrib_cons, contrib_nil, e1, e2, c1, c2, hiff]
    split_ifs <;> simp

theorem classicT_of {mass charge : ℝ} {s : TempAcc} {i k : ℤ} {S a b c N : ℝ} (hS : s.tsum i k = S)
    (ha : s.vr i k = a) (hb : s.vphi i k = b) (hc : s.vz i k = c) (hN : s.count i k = N) :
    classicT mass charge s i k =
      if N * N = 0 ∨ charge = 0 then none
      else if (S * S - (a * a + b * b + c * c)) / (N * N) < REL_LIMIT_POW_2 then
        some (mass * ((S * S - (a * a + b * b + c * c)) / (N * N)) / 2 / |charge|)
      else (getGamma ((S * S - (a * a + b * b + c * c)) / (N * N))).map fun gamma =>
        mass * LIGHT_SPEED_POW_2 * (gamma - 1) / |charge| := by
  subst hS ha hb hc hN; rfl

open Classical in
/-- **C38**, counting version (the default). In every cell that contains a particle the reported temperature is
defined and non-negative, and it is zero when all particles of the cell have the same velocity, for any list of particles
inside the walls and slower than light. -/
theorem C38_classic_partial (G : Geom) (hG : G.Valid) (hF : G.Fits) (ps : List Particle) (hin : StrictlyInside G ps)
    (hc : ∀ p ∈ ps, p.vel.sq < LIGHT_SPEED ^ 2) (mass charge : ℝ) (hm : 0 < mass) (hq : charge ≠ 0) :
    ∃ s, calcTClassic G ps = some s ∧ ∀ i k : ℤ, (∃ p ∈ ps, InCell G i k p) →
      ∃ T, classicT mass charge s i k = some T ∧ 0 ≤ T ∧
        ((∃ v, ∀ p ∈ ps, InCell G i k p → p.vel = v) → T = 0) := by
  refine ⟨_, calcTClassic_some G hG hF ps hin, ?_⟩
  rintro i k ⟨p0, hp0, hcell⟩
  set W : Particle → ℝ := fun p => if InCell G i k p then 1 else 0 with hW
  have hW0 : ∀ p, 0 ≤ W p := by intro p; rw [hW]; dsimp only; split_ifs <;> norm_num
  set l : List (ℝ × V3) := ps.map fun p => (W p, p.vel) with hl
  have htri := weighted_triangle l (by
    intro x hx; rw [hl] at hx; obtain ⟨p, _, rfl⟩ := List.mem_map.1 hx; exact hW0 p)
  dsimp only at htri
  have hsum : ∀ f : V3 → ℝ, (ps.map fun p => f p.vel * W p).sum = (l.map fun x => x.1 * f x.2).sum := by
    intro f; rw [hl, List.map_map]; congr 1; apply List.map_congr_left; intro p _; simp [mul_comm]
  have hN : (ps.map fun p => (1 : ℝ) * W p).sum = (l.map Prod.fst).sum := by
    rw [hl, List.map_map]; congr 1; apply List.map_congr_left; intro p _; simp
  set N : ℝ := (l.map Prod.fst).sum with hNd
  have hNpos : 0 < N := by
    rw [← hN]
    have h1 : (1 : ℝ) * W p0 ≤ (ps.map fun p => (1 : ℝ) * W p).sum := by
      apply List.single_le_sum
      · intro x hx; obtain ⟨p, _, rfl⟩ := List.mem_map.1 hx; rw [one_mul]; exact hW0 p
      · exact List.mem_map.2 ⟨p0, hp0, rfl⟩
    have h2 : W p0 = 1 := if_pos hcell
    linarith
  set S : ℝ := (l.map fun x => x.1 * Real.sqrt x.2.sq).sum with hSd
  set a : ℝ := (l.map fun x => x.1 * x.2.c0).sum with had
  set b : ℝ := (l.map fun x => x.1 * x.2.c1).sum with hbd
  set c : ℝ := (l.map fun x => x.1 * x.2.c2).sum with hcd
  have hSN : S ≤ LIGHT_SPEED * N ∧ (S < LIGHT_SPEED * N) := by
    have hlt : S < LIGHT_SPEED * N := by
      have e1 : S = (ps.map fun p => W p * Real.sqrt p.vel.sq).sum := by
        rw [hSd, hl, List.map_map]; rfl
      have e2 : LIGHT_SPEED * N = (ps.map fun p => W p * LIGHT_SPEED).sum := by
        rw [← hN, ← List.sum_map_mul_left]; congr 1; apply List.map_congr_left; intro p _; ring
      rw [e1, e2]
      have hs : ∀ p ∈ ps, Real.sqrt p.vel.sq < LIGHT_SPEED := by
        intro p hp
        rw [Real.sqrt_lt' LIGHT_SPEED_pos]; exact hc p hp
      apply List.sum_lt_sum
      · intro p hp; exact mul_le_mul_of_nonneg_left (hs p hp).le (hW0 p)
      · refine ⟨p0, hp0, ?_⟩
        have h2 : W p0 = 1 := if_pos hcell
        rw [h2, one_mul, one_mul]; exact hs p0 hp0
    exact ⟨hlt.le, hlt⟩
  have hx0 : 0 ≤ (S * S - (a * a + b * b + c * c)) / (N * N) := by
    apply div_nonneg _ (by positivity)
    nlinarith [htri.2]
  have hx1 : (S * S - (a * a + b * b + c * c)) / (N * N) < LIGHT_SPEED_POW_2 := by
    rw [div_lt_iff₀ (by positivity)]
    unfold LIGHT_SPEED_POW_2
    have := mul_self_nonneg a; have := mul_self_nonneg b; have := mul_self_nonneg c
    nlinarith [htri.1, hSN.2]
  have hz : (∃ v, ∀ p ∈ ps, InCell G i k p → p.vel = v) → (S * S - (a * a + b * b + c * c)) / (N * N) = 0 := by
    rintro ⟨v, hv⟩
    have hcom : ∀ f : V3 → ℝ, (l.map fun x => x.1 * f x.2).sum = N * f v := by
      intro f
      rw [hNd, ← List.sum_map_mul_right]
      congr 1
      rw [hl, List.map_map, List.map_map]
      apply List.map_congr_left
      intro p hp
      simp only [Function.comp_apply]
      by_cases h : InCell G i k p
      · rw [hv p hp h]
      · have : W p = 0 := if_neg h
        rw [this]; simp
    have hS' : S = N * Real.sqrt v.sq := hcom fun v => Real.sqrt v.sq
    have ha' : a = N * v.c0 := hcom fun v => v.c0
    have hb' : b = N * v.c1 := hcom fun v => v.c1
    have hc' : c = N * v.c2 := hcom fun v => v.c2
    have hsq : Real.sqrt v.sq * Real.sqrt v.sq = v.sq := Real.mul_self_sqrt (by
      unfold V3.sq; nlinarith [mul_self_nonneg v.c0, mul_self_nonneg v.c1, mul_self_nonneg v.c2])
    have : S * S - (a * a + b * b + c * c) = N * N * (Real.sqrt v.sq * Real.sqrt v.sq - v.sq) := by
      rw [hS', ha', hb', hc']; unfold V3.sq; ring
    rw [this, hsq]; simp
  rw [classicT_of (S := S) (a := a) (b := b) (c := c) (N := N) (hsum fun v => Real.sqrt v.sq)
    (hsum fun v => v.c0) (hsum fun v => v.c1) (hsum fun v => v.c2) hN]
  rw [if_neg (by push Not; exact ⟨by positivity, hq⟩)]
  set x : ℝ := (S * S - (a * a + b * b + c * c)) / (N * N) with hxd
  have hqa : 0 < |charge| := abs_pos.2 hq
  split_ifs with h
  · refine ⟨_, rfl, by positivity, ?_⟩
    intro hv; rw [hz hv]; simp
  · have hb1 : x / LIGHT_SPEED_POW_2 < 1 := by
      rw [div_lt_one (by unfold LIGHT_SPEED_POW_2; exact pow_pos LIGHT_SPEED_pos 2)]; exact hx1
    have hL : 0 < LIGHT_SPEED_POW_2 := by unfold LIGHT_SPEED_POW_2; exact pow_pos LIGHT_SPEED_pos 2
    have hb0 : 0 ≤ x / LIGHT_SPEED_POW_2 := div_nonneg hx0 hL.le
    have hg : getGamma x = some (1 / Real.sqrt (1 - x / LIGHT_SPEED_POW_2)) := by
      unfold getGamma
      dsimp only
      rw [if_neg (by linarith), if_neg (by linarith)]
    rw [hg, Option.map_some]
    refine ⟨_, rfl, ?_, ?_⟩
    · have h1 : Real.sqrt (1 - x / LIGHT_SPEED_POW_2) ≤ 1 := by
        exact Real.sqrt_le_iff.2 ⟨by norm_num, by linarith⟩
      have h2 : 0 < Real.sqrt (1 - x / LIGHT_SPEED_POW_2) := Real.sqrt_pos.2 (by linarith)
      have h3 : 1 ≤ 1 / Real.sqrt (1 - x / LIGHT_SPEED_POW_2) := by rw [le_div_iff₀ h2]; linarith
      have : 0 ≤ 1 / Real.sqrt (1 - x / LIGHT_SPEED_POW_2) - 1 := by linarith
      positivity
    · intro hv
      exfalso
      apply h
      rw [hz hv]
      unfold REL_LIMIT_POW_2; norm_num

/-- **C38** violated, memory: constructing the temperature diagnostic (done at every start) writes beyond two pointer
arrays. -/
theorem C38_memory_violated (G : Geom) (hG : G.Valid) : newTemperature G = none := by
  have h1 := hG.nr_ge
  unfold newTemperature
  exact if_neg (by omega)

/-- **C38** violated on the axis and on the lower wall: one particle there makes the counting diagnostic write
outside of its arrays. -/
theorem C38_wall_violated (G : Geom) (hF : G.Fits) (p : Particle) (hz : p.pos.c0 = 0 ∨ p.pos.c2 = 0) :
    calcTClassic G [p] = none := by
  unfold calcTClassic TempAcc.inc
  simp only [List.foldlM_cons, List.foldlM_nil]
  have hk : ∀ dx : ℝ, u32 (CELL_NUMBER 0 dx) = 2 ^ 32 - 1 := by
    intro dx
    have : CELL_NUMBER 0 dx = -1 := by simp [CELL_NUMBER]
    rw [this]; rfl
  rw [applyIncs_none]
  · rfl
  · refine ⟨_, List.mem_singleton.2 rfl, ?_⟩
    have h1 := hF.1; have h2 := hF.2
    rcases hz with hz | hz <;> simp only [hz, hk, InGrid] <;> omega

theorem weightedT_of {mass charge : ℝ} {s : TempAcc} {i k : ℤ} {S a b c N : ℝ} (hS : s.tsum i k = S)
    (ha : s.vr i k = a) (hb : s.vphi i k = b) (hc : s.vz i k = c) (hN : s.count i k = N) :
    weightedT mass charge s i k =
      if N * N = 0 ∨ charge = 0 then none
      else if a * a + b * b + c * c < 5e7 * 5e7 * mass * mass then
        some ((S * S - (a * a + b * b + c * c)) / (2 * mass * N * N) / |charge|)
      else some ((Real.sqrt ((S * S - (a * a + b * b + c * c)) * LIGHT_SPEED_POW_2 / (N * N)
        + mass * LIGHT_SPEED_POW_2 * (mass * LIGHT_SPEED_POW_2)) - mass * LIGHT_SPEED_POW_2) / |charge|) := by
  subst hS ha hb hc hN; rfl

theorem calcTWeighted_some (G : Geom) (hG : G.Valid) (hF : G.Fits) (mass : ℝ) (ps : List Particle)
    (hin : InsideForDensity G ps) :
    let W := fun (p : Particle) (i k : ℤ) => contrib (chargeIncs G 1 p.pos.c0 p.pos.c2) i k
    calcTWeighted G mass ps = some
      ⟨fun i k => (ps.map fun p => p.mass * Real.sqrt p.vel.sq * W p i k).sum,
       fun i k => (ps.map fun p => p.mass * p.vel.c0 * W p i k).sum,
       fun i k => (ps.map fun p => p.mass * p.vel.c1 * W p i k).sum,
       fun i k => (ps.map fun p => p.mass * p.vel.c2 * W p i k).sum,
       fun i k => (ps.map fun p => p.mass / mass * W p i k).sum⟩ := by
  intro W
  unfold calcTWeighted
  have key := acc_fold G (fun p Q => shapeIncs G Q p.pos.c0 p.pos.c2) W
    (fun p => p.mass * Real.sqrt p.vel.sq) (fun p => p.mass * p.vel.c0) (fun p => p.mass * p.vel.c1)
    (fun p => p.mass * p.vel.c2) (fun p => p.mass / mass) ps ?_ ?_ TempAcc.zero
  · unfold V3.sq at *
    rw [key]
    simp [TempAcc.zero]
  · intro p hp Q d hd
    obtain ⟨h1, h2, h3⟩ := hin p hp
    rw [shapeIncs_eq G hG hF _ _ _ h1 h2 h3] at hd
    exact (chargeIncs_inGrid_iff G hG _ _ _).2 ⟨h1, h3⟩ d hd
  · intro p hp Q i k
    obtain ⟨h1, h2, h3⟩ := hin p hp
    rw [shapeIncs_eq G hG hF _ _ _ h1 h2 h3]
    have := chargeIncs_scale G Q 1 p.pos.c0 p.pos.c2 i k
    rwa [mul_one] at this

/-- Within one cell of a node. -/
def NearNode (G : Geom) (i k : ℤ) (p : Particle) : Prop :=
  |p.pos.c0 - i * G.dr| ≤ G.dr ∧ |p.pos.c2 - k * G.dz| ≤ G.dz

theorem far_no_weight (G : Geom) (hG : G.Valid) (r z : ℝ) (hr : 0 ≤ r) (hz : 0 ≤ z) (i k : ℤ)
    (h : ¬ (|r - i * G.dr| ≤ G.dr ∧ |z - k * G.dz| ≤ G.dz)) : contrib (chargeIncs G 1 r z) i k = 0 := by
  apply contrib_eq_zero
  intro d hd hik
  apply h
  have hm : (d.i, d.k) ∈ (chargeIncs G 1 r z).map (fun d => (d.i, d.k)) := List.mem_map.2 ⟨d, hd, rfl⟩
  rw [chargeIncs_nodes G hG, ← hik.1, ← hik.2] at hm
  have br := cell_bounds hG.dr_pos hr
  have bz := cell_bounds hG.dz_pos hz
  have hdr := hG.dr_pos
  have hdz := hG.dz_pos
  have h1 : i = clamp0 (CELL_NUMBER r G.dr) ∨ i = clamp0 (CELL_NUMBER r G.dr) + 1 := by
    simp only [List.mem_cons, Prod.mk.injEq, List.not_mem_nil, or_false] at hm; tauto
  have h2 : k = clamp0 (CELL_NUMBER z G.dz) ∨ k = clamp0 (CELL_NUMBER z G.dz) + 1 := by
    simp only [List.mem_cons, Prod.mk.injEq, List.not_mem_nil, or_false] at hm; tauto
  constructor
  · rw [abs_le]
    rcases h1 with rfl | rfl
    · constructor <;> nlinarith
    · push_cast; constructor <;> nlinarith
  · rw [abs_le]
    rcases h2 with rfl | rfl
    · constructor <;> nlinarith
    · push_cast; constructor <;> nlinarith

/-- **C38**, weighting version. At every node to which some mass was assigned the reported temperature is defined and
non-negative, and it is zero when all particles within one cell of the node have the same velocity. -/
theorem C38_weighted_partial (G : Geom) (hG : G.Valid) (hF : G.Fits) (ps : List Particle)
    (hin : InsideForDensity G ps) (hr : ∀ p ∈ ps, 0 ≤ p.pos.c0) (hpm : ∀ p ∈ ps, 0 ≤ p.mass)
    (mass charge : ℝ) (hm : 0 < mass) (hq : charge ≠ 0) :
    ∃ s, calcTWeighted G mass ps = some s ∧ ∀ i k : ℤ, s.count i k ≠ 0 →
      ∃ T, weightedT mass charge s i k = some T ∧ 0 ≤ T ∧
        ((∃ v, ∀ p ∈ ps, NearNode G i k p → p.vel = v) → T = 0) := by
  have hsome := calcTWeighted_some G hG hF mass ps hin
  dsimp only at hsome
  refine ⟨_, hsome, ?_⟩
  intro i k hcount
  set W : Particle → ℝ := fun p => p.mass * contrib (chargeIncs G 1 p.pos.c0 p.pos.c2) i k with hW
  have hW0 : ∀ p ∈ ps, 0 ≤ W p := fun p hp => mul_nonneg (hpm p hp)
    (contrib_nonneg (chargeIncs_sign G hG _ _ _ zero_le_one (hr p hp) (hin p hp).2.1.le) i k)
  set l : List (ℝ × V3) := ps.map fun p => (W p, p.vel) with hl
  have htri := weighted_triangle l (by
    intro x hx; rw [hl] at hx; obtain ⟨p, hp, rfl⟩ := List.mem_map.1 hx; exact hW0 p hp)
  dsimp only at htri
  have hsum : ∀ f : V3 → ℝ, (ps.map fun p => p.mass * f p.vel *
      contrib (chargeIncs G 1 p.pos.c0 p.pos.c2) i k).sum = (l.map fun x => x.1 * f x.2).sum := by
    intro f; rw [hl, List.map_map]; congr 1; apply List.map_congr_left; intro p _; simp [hW]; ring
  set N : ℝ := (ps.map fun p => p.mass / mass * contrib (chargeIncs G 1 p.pos.c0 p.pos.c2) i k).sum with hNd
  set S : ℝ := (l.map fun x => x.1 * Real.sqrt x.2.sq).sum with hSd
  set a : ℝ := (l.map fun x => x.1 * x.2.c0).sum with had
  set b : ℝ := (l.map fun x => x.1 * x.2.c1).sum with hbd
  set c : ℝ := (l.map fun x => x.1 * x.2.c2).sum with hcd
  have hx0 : 0 ≤ S * S - (a * a + b * b + c * c) := by nlinarith [htri.2]
  have hz : (∃ v, ∀ p ∈ ps, NearNode G i k p → p.vel = v) → S * S - (a * a + b * b + c * c) = 0 := by
    rintro ⟨v, hv⟩
    have hcom : ∀ f : V3 → ℝ, (l.map fun x => x.1 * f x.2).sum = (l.map Prod.fst).sum * f v := by
      intro f
      rw [← List.sum_map_mul_right]
      congr 1
      rw [hl, List.map_map, List.map_map]
      apply List.map_congr_left
      intro p hp
      simp only [Function.comp_apply]
      by_cases h : NearNode G i k p
      · rw [hv p hp h]
      · have : W p = 0 := by
          rw [hW]; dsimp only
          rw [far_no_weight G hG _ _ (hr p hp) (hin p hp).2.1.le i k h, mul_zero]
        rw [this]; simp
    have hS' := hcom fun v => Real.sqrt v.sq
    have ha' := hcom fun v => v.c0
    have hb' := hcom fun v => v.c1
    have hc' := hcom fun v => v.c2
    have hsq : Real.sqrt v.sq * Real.sqrt v.sq = v.sq := Real.mul_self_sqrt (by
      unfold V3.sq; nlinarith [mul_self_nonneg v.c0, mul_self_nonneg v.c1, mul_self_nonneg v.c2])
    generalize (l.map Prod.fst).sum = M at *
    have : S * S - (a * a + b * b + c * c) = M * M * (Real.sqrt v.sq * Real.sqrt v.sq - v.sq) := by
      rw [hSd, had, hbd, hcd, hS', ha', hb', hc']; unfold V3.sq; ring
    rw [this, hsq]; simp
  rw [weightedT_of (S := S) (a := a) (b := b) (c := c) (N := N) (hsum fun v => Real.sqrt v.sq)
    (hsum fun v => v.c0) (hsum fun v => v.c1) (hsum fun v => v.c2) rfl]
  have hN0 : N ≠ 0 := hcount
  rw [if_neg (by push Not; exact ⟨mul_self_ne_zero.2 hN0, hq⟩)]
  have hqa : 0 < |charge| := abs_pos.2 hq
  have hL : 0 < LIGHT_SPEED_POW_2 := by unfold LIGHT_SPEED_POW_2; exact pow_pos LIGHT_SPEED_pos 2
  have hNN : 0 < N * N := mul_self_pos.2 hN0
  split_ifs with h
  · refine ⟨_, rfl, ?_, ?_⟩
    · apply div_nonneg _ hqa.le
      apply div_nonneg hx0
      rw [mul_assoc]; positivity
    · intro hv; rw [hz hv]; simp
  · refine ⟨_, rfl, ?_, ?_⟩
    · apply div_nonneg _ hqa.le
      rw [sub_nonneg]
      apply Real.le_sqrt_of_sq_le
      have : 0 ≤ (S * S - (a * a + b * b + c * c)) * LIGHT_SPEED_POW_2 / (N * N) := by positivity
      nlinarith
    · intro hv
      rw [hz hv, zero_mul, zero_div, zero_add, Real.sqrt_mul_self (by positivity)]
      simp

/-! ## C39: smoothing -/

/-- **C39** (partial) If the arrays are at least as large as the sizes passed, the smoothing stays in bounds and every
element that it assigns lies between any bounds of the source; in particular constants are preserved there. Assigned
are all elements but those of the last column between its corners (`C39_last_column_violated`), and the arrays it is
used on are smaller (`C39_memory_violated`). -/
theorem C39_average_partial (A : ArrSize) (x y : ℕ) (hx : 2 ≤ x) (hy : 2 ≤ y) (hA : x ≤ A.ptrs ∧ y ≤ A.cols)
    (a b : Grid) (lo hi : ℝ) (h : ∀ i j : ℤ, 0 ≤ i → i < x → 0 ≤ j → j < y → lo ≤ a i j ∧ a i j ≤ hi) :
    ∃ g, bilinear A x y a b = some g ∧ ∀ i j : ℤ, 0 ≤ i → i < x → 0 ≤ j → j < y →
      ¬ (j = y - 1 ∧ 0 < i ∧ i < x - 1) → lo ≤ g i j ∧ g i j ≤ hi := by
  refine ⟨_, if_pos hA, ?_⟩
  intro i j h1 h2 h3 h4 hne
  unfold bilinearAt
  split_ifs with c1 c2 c3 c4
  · exact h i j h1 h2 h3 h4
  · have e1 := h 0 (j - 1) le_rfl (by omega) (by omega) (by omega)
    have e2 := h 0 j le_rfl (by omega) h3 h4
    simp only [Option.getD_some]
    constructor <;> linarith
  · have e1 := h (i - 1) 0 (by omega) (by omega) le_rfl (by omega)
    have e2 := h i 0 h1 h2 le_rfl (by omega)
    simp only [Option.getD_some]
    constructor <;> linarith
  · have e1 := h (i - 1) (j - 1) (by omega) (by omega) (by omega) (by omega)
    have e2 := h i (j - 1) (by omega) (by omega) (by omega) (by omega)
    have e3 := h (i - 1) j (by omega) (by omega) (by omega) (by omega)
    have e4 := h i j h1 h2 h3 h4
    simp only [Option.getD_some]
    constructor <;> linarith
  · exfalso; omega

/-- **C39**: the smoothed value depends only on the four source elements around it, and is monotone in the source. -/
theorem C39_monotone_partial (A : ArrSize) (x y : ℕ) (hA : x ≤ A.ptrs ∧ y ≤ A.cols) (a a' b : Grid)
    (h : ∀ i j : ℤ, a i j ≤ a' i j) :
    ∃ g g', bilinear A x y a b = some g ∧ bilinear A x y a' b = some g' ∧ ∀ i j : ℤ, g i j ≤ g' i j := by
  refine ⟨_, _, if_pos hA, if_pos hA, ?_⟩
  intro i j
  unfold bilinearAt
  split_ifs <;> simp only [Option.getD_some, Option.getD_none, le_refl, h]
  · linarith [h 0 (j - 1), h 0 j]
  · linarith [h (i - 1) 0, h i 0]
  · linarith [h (i - 1) (j - 1), h i (j - 1), h (i - 1) j, h i j]

/-- **C39** violated in the last column: between its corners it keeps what the destination held, so that the constant
`1` becomes `0` there. -/
theorem C39_last_column_violated (A : ArrSize) (x y : ℕ) (hx : 3 ≤ x) (hy : 2 ≤ y) (hA : x ≤ A.ptrs ∧ y ≤ A.cols)
    (a b : Grid) : ∃ g, bilinear A x y a b = some g ∧ ∀ i : ℤ, 0 < i → i < x - 1 → g i (y - 1) = b i (y - 1) := by
  refine ⟨_, if_pos hA, ?_⟩
  intro i h1 h2
  unfold bilinearAt
  rw [if_neg (by omega), if_neg (by omega), if_neg (by omega), if_neg (by omega)]
  rfl

/-- **C39** violated in use: on the arrays of the temperature diagnostic, which have one column less than the sizes
passed, the smoothing accesses memory out of bounds. -/
theorem C39_memory_violated (G : Geom) (hG : G.Valid) (ptrs : ℕ) (a b : Grid) :
    bilinear ⟨ptrs, G.nz - 1⟩ G.nr G.nz a b = none := by
  have := hG.nz_ge
  exact if_neg (by dsimp only; omega)

/-! ## The hypotheses are met -/

/-- Two particles on a small grid. -/
noncomputable def diagParticles : List Particle :=
  [{ demoParticle 1 1.5 0.25 with vel := ⟨1, 0, 0⟩, mass := 2 },
   { demoParticle 1 0.25 3 with vel := ⟨0, 5, 0⟩, mass := 1 }]

example : demoGeom.Fits ∧ InsideForDensity demoGeom diagParticles ∧ StrictlyInside demoGeom diagParticles ∧
    (∀ p ∈ diagParticles, p.vel.sq < LIGHT_SPEED ^ 2) ∧ represented EL_MASS diagParticles ≠ 0 ∧
    (∃ p ∈ diagParticles, InCell demoGeom 1 0 p) := by
  have := EL_MASS_pos
  refine ⟨⟨by norm_num [demoGeom], by norm_num [demoGeom]⟩, ?_, ?_, ?_, ?_, ?_⟩
  · intro p hp
    simp only [diagParticles, List.mem_cons, List.not_mem_nil, or_false] at hp
    rcases hp with rfl | rfl <;> norm_num [demoParticle, demoGeom]
  · intro p hp
    simp only [diagParticles, List.mem_cons, List.not_mem_nil, or_false] at hp
    rcases hp with rfl | rfl <;> norm_num [demoParticle, demoGeom]
  · intro p hp
    simp only [diagParticles, List.mem_cons, List.not_mem_nil, or_false] at hp
    rcases hp with rfl | rfl <;> norm_num [demoParticle, V3.sq, LIGHT_SPEED]
  · have : 0 < represented EL_MASS diagParticles := by
      simp only [represented, diagParticles, List.map_cons, List.map_nil, List.sum_cons, List.sum_nil]
      positivity
    exact this.ne'
  · refine ⟨_, List.mem_cons_self, ?_⟩
    norm_num [InCell, demoParticle, demoGeom]

end Verif
