import Verif.ContinuityCross
import Verif.ContinuityStrict

/-!
# Discrete charge continuity of the deposited current (C05, C06, C07)

The specification (`netOutflow`, `Continuity`) is in `Verif/Continuity.lean`; `FaceTime`,
`CutTime`, `PiecesLong`, `NoCorner` are in `Verif/ContinuityCross.lean`.
-/

namespace Verif

/-! ## Specification -/

/-- The particle as it was before the move: its position is `pos_old`. -/
def Particle.before (p : Particle) : Particle := { p with pos := p.posOld }

/-- Depositing the charge of the particles before the move, their charge after the move and the
current of the move all succeed, and the three satisfy discrete charge continuity at every node. -/
def StepContinuity (G : Geom) (dt : ℝ) (ps : List Particle) : Prop :=
  ∀ rho0 jr0 jz0 : Grid, ∃ rhoOld rhoNew jr jz : Grid,
    chargeWeighting G (ps.map Particle.before) rho0 = some rhoOld ∧
    chargeWeighting G ps rho0 = some rhoNew ∧
    currentDistribution G dt ps (jr0, jz0) = some (jr, jz) ∧
    Continuity G dt rhoOld rhoNew (fun a b => jr a b - jr0 a b) (fun a b => jz a b - jz0 a b)

/-- Both end points of the move are in the chamber, off the half cell next to the axis. -/
structure InChamber (G : Geom) (p : Particle) : Prop where
  rO : G.dr / 2 ≤ p.posOld.c0
  rN : G.dr / 2 ≤ p.pos.c0
  rO' : p.posOld.c0 ≤ G.r_size
  rN' : p.pos.c0 ≤ G.r_size
  zO : 0 ≤ p.posOld.c2
  zN : 0 ≤ p.pos.c2
  zO' : p.posOld.c2 ≤ G.z_size
  zN' : p.pos.c2 ≤ G.z_size

/-- The kinds of moves for which continuity is proved. -/
inductive GoodMove (G : Geom) (p : Particle) : Prop where
  /-- the particle rests (in the r-z plane) -/
  | rest (hr : p.pos.c0 = p.posOld.c0) (hz : p.pos.c2 = p.posOld.c2)
  /-- oblique move of less than a cell in each direction, not through a corner of cells, and every
  piece between faces longer than the dropping threshold -/
  | oblique (hr : |p.pos.c0 - p.posOld.c0| < G.dr) (hz : |p.pos.c2 - p.posOld.c2| < G.dz)
      (hl : PiecesLong G p.posOld.c0 p.posOld.c2 p.pos.c0 p.pos.c2)
      (hc : NoCorner G p.posOld.c0 p.posOld.c2 p.pos.c0 p.pos.c2)
  /-- axial move of less than a cell -/
  | axial (hr : p.pos.c0 = p.posOld.c0) (hz : |p.pos.c2 - p.posOld.c2| < G.dz)
      (hm : MNZL ≤ |p.pos.c2 - p.posOld.c2|)
  /-- radial move inside one cell -/
  | radial (hz : p.pos.c2 = p.posOld.c2) (hm : MNZL ≤ |p.pos.c0 - p.posOld.c0|)
      (hs : CELL_NUMBER p.posOld.c0 G.dr = CELL_NUMBER p.pos.c0 G.dr)

/-! ## Composition over particles -/

theorem goodMove_balanced (G : Geom) (hG : G.Valid) {dt : ℝ} (hdt : dt ≠ 0) (p : Particle)
    (hin : InChamber G p) (hg : GoodMove G p) :
    Balanced G dt (contrib (chargeIncs G p.charge p.posOld.c0 p.posOld.c2))
      (contrib (chargeIncs G p.charge p.pos.c0 p.pos.c2))
      (currentOfMove G dt p.charge p.pos.c0 p.pos.c2 p.posOld.c0 p.posOld.c2) := by
  obtain ⟨h1, h2, h3, h4, h5, h6, h7, h8⟩ := hin
  rcases hg with ⟨hr, hz⟩ | ⟨hr, hz, hl, hc⟩ | ⟨hr, hz, hm⟩ | ⟨hz, hm, hs⟩
  · rw [hr, hz]
    refine ⟨JIncs.empty, ?_, ?_, ?_⟩
    · have h0 : ∀ x : ℝ, |x - x| < MNZL := fun x => by simpa using MNZL_pos
      unfold currentOfMove strictMotion
      simp only [h0, true_or, and_self, if_true]
    · constructor <;> intro d hd <;> cases hd
    · exact (Continuity.refl G dt _).congr (by intros; rfl) (by intros; rfl)
  · exact move_balanced G hG hdt p.charge _ _ _ _ h1 h2 h3 h4 h5 h6 h7 h8 hr hz hl hc
  · rw [hr]
    exact axial_balanced G hG hdt p.charge _ _ _ h1 h3 h5 h6 h7 h8 hz hm
  · rw [hz]
    exact radial_balanced G hG hdt p.charge _ _ _ h1 h2 h3 h4 h5 h7 hm hs

theorem currentDistribution_balanced (G : Geom) {dt : ℝ} (ps : List Particle)
    (h : ∀ p ∈ ps, p.alive = true →
      Balanced G dt (contrib (chargeIncs G p.charge p.posOld.c0 p.posOld.c2))
        (contrib (chargeIncs G p.charge p.pos.c0 p.pos.c2))
        (currentOfMove G dt p.charge p.pos.c0 p.pos.c2 p.posOld.c0 p.posOld.c2)) :
    ∃ J : JIncs, J.InArr G ∧
      (∀ jr jz, currentDistribution G dt ps (jr, jz) =
        some (fun a b => jr a b + J.rGrid a b, fun a b => jz a b + J.zGrid a b)) ∧
      Continuity G dt (contrib ((ps.map Particle.before).flatMap (particleIncs G)))
        (contrib (ps.flatMap (particleIncs G))) J.rGrid J.zGrid := by
  induction ps with
  | nil =>
    refine ⟨JIncs.empty, ⟨(fun d hd => by cases hd), (fun d hd => by cases hd)⟩, ?_, ?_⟩
    · intro jr jz
      simp [currentDistribution, JIncs.rGrid, JIncs.zGrid, JIncs.empty]
    · exact (Continuity.refl G dt _).congr (by intros; rfl) (by intros; rfl)
  | cons p ps ih =>
    obtain ⟨K, hKin, hKrun, hKc⟩ := ih (fun q hq => h q (by simp [hq]))
    have hrun : ∀ j, currentDistribution G dt (p :: ps) j =
        (if p.alive then
          (currentOfMove G dt p.charge p.pos.c0 p.pos.c2 p.posOld.c0 p.posOld.c2).bind
            (fun J => applyJ G J j) else some j).bind (currentDistribution G dt ps) := by
      intro j; simp only [currentDistribution, List.foldlM_cons]; rfl
    by_cases ha : p.alive = true
    · obtain ⟨J, hJ, hJin, hJc⟩ := h p (by simp) ha
      refine ⟨J.append K, ⟨?_, ?_⟩, ?_, ?_⟩
      · intro d hd
        rcases List.mem_append.1 hd with h | h
        · exact hJin.1 d h
        · exact hKin.1 d h
      · intro d hd
        rcases List.mem_append.1 hd with h | h
        · exact hJin.2 d h
        · exact hKin.2 d h
      · intro jr jz
        rw [hrun, if_pos ha, hJ]
        simp only [Option.bind_some, applyJ, applyIncs_some hJin.1, applyIncs_some hJin.2,
          Option.map_some, hKrun]
        simp only [JIncs.rGrid, JIncs.zGrid, JIncs.append, contrib_append, add_assoc]
      · have := hJc.add hKc
        intro a b hab
        rw [← this a b hab]
        have e1 : particleIncs G p = chargeIncs G p.charge p.pos.c0 p.pos.c2 := by
          simp [particleIncs, ha]
        have e2 : particleIncs G p.before =
            chargeIncs G p.charge p.posOld.c0 p.posOld.c2 := by
          simp [particleIncs, Particle.before, ha]
        simp only [List.map_cons, List.flatMap_cons, contrib_append, e1, e2]
        unfold netOutflow JIncs.rGrid JIncs.zGrid JIncs.append
        simp only [contrib_append]
    · refine ⟨K, hKin, ?_, ?_⟩
      · intro jr jz
        rw [hrun, if_neg ha]; exact hKrun jr jz
      · have e1 : particleIncs G p = [] := by simp [particleIncs, ha]
        have e2 : particleIncs G p.before = [] := by simp [particleIncs, Particle.before, ha]
        simpa only [List.map_cons, List.flatMap_cons, e1, e2, List.nil_append] using hKc

/-- **C06/C49**. Any number of particles, each making a move of one of the good kinds: the
deposits succeed and the total current satisfies discrete charge continuity at every node. -/
theorem C06_many_particles_continuity_partial (G : Geom) (hG : G.Valid) {dt : ℝ} (hdt : 0 < dt)
    (ps : List Particle) (hin : ∀ p ∈ ps, p.alive = true → InChamber G p)
    (hg : ∀ p ∈ ps, p.alive = true → GoodMove G p) : StepContinuity G dt ps := by
  obtain ⟨J, -, hrun, hc⟩ := currentDistribution_balanced G (dt := dt) ps
    (fun p hp ha => goodMove_balanced G hG hdt.ne' p (hin p hp ha) (hg p hp ha))
  intro rho0 jr0 jz0
  have w1 : WithinFarWalls G ps := fun p hp ha => ⟨(hin p hp ha).rN', (hin p hp ha).zN'⟩
  have w2 : WithinFarWalls G (ps.map Particle.before) := by
    intro p hp ha
    obtain ⟨q, hq, rfl⟩ := List.mem_map.1 hp
    exact ⟨(hin q hq ha).rO', (hin q hq ha).zO'⟩
  refine ⟨_, _, _, _, chargeWeighting_some G hG _ w2 rho0, chargeWeighting_some G hG _ w1 rho0,
    hrun jr0 jz0, ?_⟩
  intro a b hab
  rw [← hc a b hab]
  simp only [add_sub_add_left_eq_sub, add_sub_cancel_left]

theorem single_continuity (G : Geom) (hG : G.Valid) {dt : ℝ} (hdt : 0 < dt) (p : Particle)
    (hin : InChamber G p) (hg : GoodMove G p) : StepContinuity G dt [p] := by
  apply C06_many_particles_continuity_partial G hG hdt
  · intro q hq _; rw [List.mem_singleton] at hq; subst hq; exact hin
  · intro q hq _; rw [List.mem_singleton] at hq; subst hq; exact hg

/-! ## C05: moves inside one cell -/

/-- the interior of a non-degenerate path inside a closed cell meets no face -/
theorem no_face_inside {dx xo xn : ℝ} (hdx : 0 < dx) {i : ℤ} (ho1 : (i : ℝ) * dx ≤ xo)
    (ho2 : xo ≤ ((i : ℝ) + 1) * dx) (hn1 : (i : ℝ) * dx ≤ xn) (hn2 : xn ≤ ((i : ℝ) + 1) * dx)
    (hne : xn ≠ xo) {t : ℝ} (h0 : 0 < t) (h1 : t < 1) : ¬ FaceTime dx xo xn t := by
  rintro ⟨m, hm⟩
  have e : xo + t * (xn - xo) = (1 - t) * xo + t * xn := by ring
  have h1' : 0 < 1 - t := by linarith
  have low : (i : ℝ) * dx < xo + t * (xn - xo) := by
    rw [e]
    rcases lt_or_gt_of_ne hne with h | h
    · nlinarith
    · nlinarith
  have up : xo + t * (xn - xo) < ((i : ℝ) + 1) * dx := by
    rw [e]
    rcases lt_or_gt_of_ne hne with h | h
    · nlinarith
    · nlinarith
  rw [hm] at low up
  have a1 : (i : ℝ) < m := lt_of_mul_lt_mul_right low hdx.le
  have a2 : (m : ℝ) < (i : ℝ) + 1 := lt_of_mul_lt_mul_right up hdx.le
  have b1 : i < m := by exact_mod_cast a1
  have b2 : m < i + 1 := by exact_mod_cast a2
  omega

/-- **C05**. A live particle that moves from one point to another of the same closed cell `(i,k)`
(by less than the cell size and by at least `MNZL` in each direction), off the half cell next to
the axis: the deposits succeed and the current satisfies continuity at every node. -/
theorem C05_in_cell_continuity (G : Geom) (hG : G.Valid) {dt : ℝ} (hdt : 0 < dt) (p : Particle)
    (hin : InChamber G p) (i k : ℤ)
    (r1 : (i : ℝ) * G.dr ≤ p.posOld.c0) (r2 : p.posOld.c0 ≤ ((i : ℝ) + 1) * G.dr)
    (r3 : (i : ℝ) * G.dr ≤ p.pos.c0) (r4 : p.pos.c0 ≤ ((i : ℝ) + 1) * G.dr)
    (z1 : (k : ℝ) * G.dz ≤ p.posOld.c2) (z2 : p.posOld.c2 ≤ ((k : ℝ) + 1) * G.dz)
    (z3 : (k : ℝ) * G.dz ≤ p.pos.c2) (z4 : p.pos.c2 ≤ ((k : ℝ) + 1) * G.dz)
    (hr : |p.pos.c0 - p.posOld.c0| < G.dr) (hz : |p.pos.c2 - p.posOld.c2| < G.dz)
    (hmr : MNZL ≤ |p.pos.c0 - p.posOld.c0|) (hmz : MNZL ≤ |p.pos.c2 - p.posOld.c2|) :
    StepContinuity G dt [p] := by
  have hm := MNZL_pos
  have ner : p.pos.c0 ≠ p.posOld.c0 := by
    intro h; rw [h, sub_self, abs_zero] at hmr; linarith
  have nez : p.pos.c2 ≠ p.posOld.c2 := by
    intro h; rw [h, sub_self, abs_zero] at hmz; linarith
  have nor := fun {t : ℝ} => @no_face_inside G.dr _ _ hG.dr_pos i r1 r2 r3 r4 ner t
  have noz := fun {t : ℝ} => @no_face_inside G.dz _ _ hG.dz_pos k z1 z2 z3 z4 nez t
  apply single_continuity G hG hdt p hin
  refine GoodMove.oblique hr hz ?_ ?_
  · have cut : ∀ s, CutTime G p.posOld.c0 p.posOld.c2 p.pos.c0 p.pos.c2 s → s = 0 ∨ s = 1 := by
      rintro s (h | h | ⟨h0, h1, h | h⟩)
      · exact Or.inl h
      · exact Or.inr h
      · exact absurd h (nor h0 h1)
      · exact absurd h (noz h0 h1)
    intro s t hs ht hst
    rcases cut s hs with rfl | rfl <;> rcases cut t ht with rfl | rfl <;>
      first
        | (exfalso; linarith)
        | (rw [sub_zero, one_mul, one_mul]; exact ⟨hmr, hmz⟩)
  · rintro t h0 h1 ⟨h, -⟩
    exact nor h0 h1 h

/-! ## C06: moves across faces -/

/-- **C06** (partial: excludes paths exactly through a corner of cells, for which the claim is
false, see `C06_corner_violated`, and paths one of whose pieces is shorter than `MNZL`, which the
code drops). -/
theorem C06_cross_cell_continuity_partial (G : Geom) (hG : G.Valid) {dt : ℝ} (hdt : 0 < dt)
    (p : Particle) (hin : InChamber G p)
    (hr : |p.pos.c0 - p.posOld.c0| < G.dr) (hz : |p.pos.c2 - p.posOld.c2| < G.dz)
    (hl : PiecesLong G p.posOld.c0 p.posOld.c2 p.pos.c0 p.pos.c2)
    (hc : NoCorner G p.posOld.c0 p.posOld.c2 p.pos.c0 p.pos.c2) :
    StepContinuity G dt [p] :=
  single_continuity G hG hdt p hin (.oblique hr hz hl hc)

/-- **C07** (axial moves). -/
theorem C07_axial_continuity (G : Geom) (hG : G.Valid) {dt : ℝ} (hdt : 0 < dt)
    (p : Particle) (hin : InChamber G p) (hr : p.pos.c0 = p.posOld.c0)
    (hz : |p.pos.c2 - p.posOld.c2| < G.dz) (hm : MNZL ≤ |p.pos.c2 - p.posOld.c2|) :
    StepContinuity G dt [p] :=
  single_continuity G hG hdt p hin (.axial hr hz hm)

/-- **C07** (partial: radial moves that stay in one cell; for moves to the next cell the claim is
false, see `C07_radial_crossing_violated`). -/
theorem C07_radial_continuity_partial (G : Geom) (hG : G.Valid) {dt : ℝ} (hdt : 0 < dt)
    (p : Particle) (hin : InChamber G p) (hz : p.pos.c2 = p.posOld.c2)
    (hm : MNZL ≤ |p.pos.c0 - p.posOld.c0|)
    (hs : CELL_NUMBER p.posOld.c0 G.dr = CELL_NUMBER p.pos.c0 G.dr) :
    StepContinuity G dt [p] :=
  single_continuity G hG hdt p hin (.radial hz hm hs)

/-! ## Witnesses -/

/-- unit cells, 5 x 5 nodes -/
noncomputable def unitGeom : Geom := ⟨4, 4, 5, 5, 1, 1⟩
theorem unitGeom_valid : unitGeom.Valid := by
  constructor <;> norm_num [unitGeom]

/-- a particle that moved from `(rO,zO)` to `(rN,zN)` -/
def mover (q rO zO rN zN : ℝ) : Particle :=
  { alive := true, pos := ⟨rN, 0, zN⟩, posOld := ⟨rO, 0, zO⟩, vel := ⟨0, 0, 0⟩, charge := q,
    mass := 1, sinTheta := 0, cosTheta := 1 }

theorem mover_inChamber {q rO zO rN zN : ℝ} {G : Geom}
    (h1 : G.dr / 2 ≤ rO) (h2 : G.dr / 2 ≤ rN) (h3 : rO ≤ G.r_size) (h4 : rN ≤ G.r_size)
    (h5 : 0 ≤ zO) (h6 : 0 ≤ zN) (h7 : zO ≤ G.z_size) (h8 : zN ≤ G.z_size) :
    InChamber G (mover q rO zO rN zN) := ⟨h1, h2, h3, h4, h5, h6, h7, h8⟩

theorem unit_inChamber {q rO zO rN zN : ℝ} (h : (1/2 ≤ rO ∧ rO ≤ 4) ∧ (1/2 ≤ rN ∧ rN ≤ 4) ∧
    (0 ≤ zO ∧ zO ≤ 4) ∧ (0 ≤ zN ∧ zN ≤ 4)) : InChamber unitGeom (mover q rO zO rN zN) := by
  obtain ⟨⟨a, b⟩, ⟨c, d⟩, ⟨e, f⟩, ⟨g, i⟩⟩ := h
  exact mover_inChamber a c b d e g f i

/-- C05 applies to a concrete move. -/
example : StepContinuity unitGeom 1 [mover 2 1.25 0.25 1.75 0.5] := by
  have hm : MNZL ≤ 1/8 := by unfold MNZL; norm_num
  have e1 : (|1.75 - 1.25| : ℝ) = 1/2 := by norm_num
  have e2 : (|0.5 - 0.25| : ℝ) = 1/4 := by norm_num
  apply C05_in_cell_continuity unitGeom unitGeom_valid one_pos _
    (unit_inChamber (by norm_num)) 1 0 <;> simp only [mover, unitGeom] <;>
    first
      | (rw [e1]; linarith)
      | (rw [e2]; linarith)
      | norm_num

/-- C06 applies to a concrete move that crosses two faces (outward at t = 1/2, forward at
t = 3/4). -/
example : StepContinuity unitGeom 1 [mover (-3) 1.75 0.625 2.25 1.125] := by
  have hm : MNZL ≤ 1/16 := by unfold MNZL; norm_num
  have e1 : (|2.25 - 1.75| : ℝ) = 1/2 := by norm_num
  have e2 : (|1.125 - 0.625| : ℝ) = 1/2 := by norm_num
  have ft : ∀ t : ℝ, 0 < t → t < 1 → FaceTime 1 1.75 2.25 t → t = 1/2 := by
    rintro t h0 h1 ⟨m, h⟩
    norm_num at h
    have a1 : (1:ℝ) < m := by linarith
    have a2 : (m:ℝ) < 3 := by linarith
    have b1 : 1 < m := by exact_mod_cast a1
    have b2 : m < 3 := by exact_mod_cast a2
    have : m = 2 := by omega
    subst this; push_cast at h; linarith
  have fz : ∀ t : ℝ, 0 < t → t < 1 → FaceTime 1 0.625 1.125 t → t = 3/4 := by
    rintro t h0 h1 ⟨m, h⟩
    norm_num at h
    have a1 : (0:ℝ) < m := by linarith
    have a2 : (m:ℝ) < 2 := by linarith
    have b1 : 0 < m := by exact_mod_cast a1
    have b2 : m < 2 := by exact_mod_cast a2
    have : m = 1 := by omega
    subst this; push_cast at h; linarith
  apply C06_cross_cell_continuity_partial unitGeom unitGeom_valid one_pos _
    (unit_inChamber (by norm_num))
  · simp only [mover, unitGeom]; rw [e1]; norm_num
  · simp only [mover, unitGeom]; rw [e2]; norm_num
  · have cut : ∀ s, CutTime unitGeom 1.75 0.625 2.25 1.125 s → s = 0 ∨ s = 1/2 ∨ s = 3/4 ∨ s = 1 := by
      rintro s (h | h | ⟨h0, h1, h | h⟩)
      · exact Or.inl h
      · exact Or.inr (Or.inr (Or.inr h))
      · exact Or.inr (Or.inl (ft s h0 h1 h))
      · exact Or.inr (Or.inr (Or.inl (fz s h0 h1 h)))
    intro s t hs ht hst
    simp only [mover]
    rw [e1, e2]
    rcases cut s hs with rfl | rfl | rfl | rfl <;> rcases cut t ht with rfl | rfl | rfl | rfl <;>
      first
        | (exfalso; linarith)
        | (constructor <;> linarith)
  · rintro t h0 h1 ⟨a, b⟩
    have := ft t h0 h1 a
    have := fz t h0 h1 b
    linarith

/-- C07 applies to a concrete axial move across a face and a radial move in a cell. -/
example : StepContinuity unitGeom 1 [mover 1 1.75 0.75 1.75 1.25] := by
  have hm : MNZL ≤ 1/16 := by unfold MNZL; norm_num
  have e1 : (|1.25 - 0.75| : ℝ) = 1/2 := by norm_num
  apply C07_axial_continuity unitGeom unitGeom_valid one_pos (mover 1 1.75 0.75 1.75 1.25) (unit_inChamber (by norm_num)) rfl
  · simp only [mover, unitGeom]; rw [e1]; norm_num
  · simp only [mover]; rw [e1]; linarith

theorem cellNumber_lit {x dx : ℝ} (i : ℤ) (hdx : 0 < dx) (h1 : (i : ℝ) * dx < x)
    (h2 : x ≤ ((i : ℝ) + 1) * dx) : CELL_NUMBER x dx = i := CELL_NUMBER_unique hdx i h1 h2

example : StepContinuity unitGeom 1 [mover 1 1.25 0.75 1.75 0.75] := by
  have hm : MNZL ≤ 1/16 := by unfold MNZL; norm_num
  have e1 : (|1.75 - 1.25| : ℝ) = 1/2 := by norm_num
  apply C07_radial_continuity_partial unitGeom unitGeom_valid one_pos
    (mover 1 1.25 0.75 1.75 0.75) (unit_inChamber (by norm_num)) rfl
  · simp only [mover]; rw [e1]; linarith
  · simp only [mover, unitGeom]
    rw [cellNumber_lit 1 one_pos (by norm_num) (by norm_num),
      cellNumber_lit 1 one_pos (by norm_num) (by norm_num)]

/-! ## Where continuity fails -/

/-- refuting continuity for one particle from one node -/
theorem not_stepContinuity {G : Geom} (hG : G.Valid) {dt : ℝ} {p : Particle} {J : JIncs}
    (ha : p.alive = true) (hrN : p.pos.c0 ≤ G.r_size) (hzN : p.pos.c2 ≤ G.z_size)
    (hrO : p.posOld.c0 ≤ G.r_size) (hzO : p.posOld.c2 ≤ G.z_size)
    (hJ : currentOfMove G dt p.charge p.pos.c0 p.pos.c2 p.posOld.c0 p.posOld.c2 = some J)
    (a b : ℤ) (hab : 0 ≤ a)
    (hne : (contrib (chargeIncs G p.charge p.pos.c0 p.pos.c2) a b -
        contrib (chargeIncs G p.charge p.posOld.c0 p.posOld.c2) a b) * nodeVolume G a +
      dt * netOutflow G J.rGrid J.zGrid a b ≠ 0) : ¬ StepContinuity G dt [p] := by
  intro h
  obtain ⟨ro, rn, jr, jz, h1, h2, h3, hc⟩ := h (fun _ _ => 0) (fun _ _ => 0) (fun _ _ => 0)
  have w1 : WithinFarWalls G [p] := by
    intro q hq _; rw [List.mem_singleton] at hq; subst hq; exact ⟨hrN, hzN⟩
  have w2 : WithinFarWalls G ([p].map Particle.before) := by
    intro q hq _
    simp only [List.map_cons, List.map_nil, List.mem_singleton] at hq
    subst hq; exact ⟨hrO, hzO⟩
  have e1 : particleIncs G p = chargeIncs G p.charge p.pos.c0 p.pos.c2 := by
    simp [particleIncs, ha]
  have e2 : particleIncs G p.before = chargeIncs G p.charge p.posOld.c0 p.posOld.c2 := by
    simp [particleIncs, Particle.before, ha]
  rw [chargeWeighting_some G hG _ w2] at h1
  rw [chargeWeighting_some G hG _ w1] at h2
  simp only [currentDistribution, List.foldlM_cons, List.foldlM_nil, ha, if_true, hJ,
    Option.bind_some] at h3
  have hin : J.InArr G := by
    by_contra hcon
    unfold JIncs.InArr at hcon
    by_cases hr : ∀ d ∈ J.jr, InGrid G.nr G.nz d.i d.k
    · have hz : ∃ d ∈ J.jz, ¬ InGrid G.nr G.nz d.i d.k := by
        by_contra hz; push Not at hz; exact hcon ⟨hr, hz⟩
      rw [applyJ, applyIncs_some hr, applyIncs_none hz] at h3
      simp at h3
    · push Not at hr
      rw [applyJ, applyIncs_none hr] at h3
      simp at h3
  rw [applyJ, applyIncs_some hin.1, applyIncs_some hin.2] at h3
  simp only [Option.bind_some, Option.map_some, Option.bind_eq_bind, Option.pure_def,
    Option.some.injEq, Prod.mk.injEq, zero_add] at h3 h1 h2
  obtain ⟨rfl, rfl⟩ := h3
  subst h1 h2
  apply hne
  have := hc a b hab
  simp only [List.map_cons, List.map_nil, List.flatMap_cons, List.flatMap_nil, List.append_nil,
    e1, e2, sub_zero] at this
  exact this

/-- **C06 is violated at corners**: a unit charge that moves diagonally exactly through a node
line leaves no current at all, although its charge moved to other nodes. -/
theorem C06_corner_violated : ¬ StepContinuity unitGeom 1 [mover 1 (7/4) (3/4) (9/4) (5/4)] := by
  have hm : MNZL < 1/16 := by unfold MNZL; norm_num
  have g : ¬ ((|(9/4) - (7/4)| : ℝ) < MNZL ∨ (|(5/4) - (3/4)| : ℝ) < MNZL) := by
    have e1 : (|(9/4) - (7/4)| : ℝ) = 1/2 := by norm_num
    have e2 : (|(5/4) - (3/4)| : ℝ) = 1/2 := by norm_num
    rw [e1, e2]; rintro (h | h) <;> linarith
  have c1 : clamp0 (CELL_NUMBER (9/4) 1) = 2 := by
    rw [cellNumber_lit 2 one_pos (by norm_num) (by norm_num)]; rfl
  have c2 : clamp0 (CELL_NUMBER (7/4) 1) = 1 := by
    rw [cellNumber_lit 1 one_pos (by norm_num) (by norm_num)]; rfl
  have c3 : clamp0 (CELL_NUMBER (5/4) 1) = 1 := by
    rw [cellNumber_lit 1 one_pos (by norm_num) (by norm_num)]; rfl
  have c4 : clamp0 (CELL_NUMBER (3/4) 1) = 0 := by
    rw [cellNumber_lit 0 one_pos (by norm_num) (by norm_num)]; rfl
  refine not_stepContinuity unitGeom_valid (J := JIncs.empty) rfl ?_ ?_ ?_ ?_ ?_ 3 2 (by norm_num) ?_
  · simp [mover, unitGeom]; norm_num
  · simp [mover, unitGeom]; norm_num
  · simp [mover, unitGeom]; norm_num
  · simp [mover, unitGeom]; norm_num
  · simp only [mover, unitGeom, currentOfMove, g, if_false, c1, c2, c3, c4]
    norm_num
  · simp only [mover]
    rw [contrib_chargeIncs_cell unitGeom unitGeom_valid 1 (9/4) (5/4) (by norm_num [unitGeom])
        (by norm_num) (i := 2) (k := 1) (by norm_num) (by norm_num)
        (by norm_num [unitGeom]) (by norm_num [unitGeom]) (by norm_num [unitGeom])
        (by norm_num [unitGeom]),
      contrib_chargeIncs_cell unitGeom unitGeom_valid 1 (7/4) (3/4) (by norm_num [unitGeom])
        (by norm_num) (i := 1) (k := 0) (by norm_num) (by norm_num)
        (by norm_num [unitGeom]) (by norm_num [unitGeom]) (by norm_num [unitGeom])
        (by norm_num [unitGeom])]
    rw [cellRho_supp unitGeom 1 1 0 _ _ 3 2 (by omega), sub_zero]
    have hc := (cellRho_corners unitGeom unitGeom_valid 1 2 1 (by norm_num) (9/4) (5/4)).2.2.2
    norm_num at hc
    rw [hc]
    simp [JIncs.rGrid, JIncs.zGrid, JIncs.empty, netOutflow, unitGeom]
    norm_num

/-- cells of radial size 1/2 and axial size 1, 5 x 5 nodes -/
noncomputable def halfGeom : Geom := ⟨2, 4, 5, 5, 1/2, 1⟩
theorem halfGeom_valid : halfGeom.Valid := by
  constructor <;> norm_num [halfGeom]

/-- **C07 is violated by radial moves to the next cell**: a unit charge that moves radially
outwards from the second to the third cell. -/
theorem C07_radial_crossing_violated :
    ¬ StepContinuity halfGeom 1 [mover 1 (7/8) (3/2) (9/8) (3/2)] := by
  have hm : MNZL < 1/16 := by unfold MNZL; norm_num
  have hm0 := MNZL_pos
  have e1 : (|(9/8) - (7/8)| : ℝ) = 1/4 := by norm_num
  have e2 : (|(3/2) - (3/2)| : ℝ) = 0 := by norm_num
  have g1 : ((|(9/8) - (7/8)| : ℝ) < MNZL ∨ (|(3/2) - (3/2)| : ℝ) < MNZL) := by
    rw [e2]; right; exact hm0
  have g2 : ¬ ((|(9/8) - (7/8)| : ℝ) < MNZL) := by rw [e1]; intro h; linarith
  have g3 : (|(3/2) - (3/2)| : ℝ) < MNZL := by rw [e2]; exact hm0
  have hh : (0:ℝ) < 1/2 := by norm_num
  have c1 : clamp0 (CELL_NUMBER (9/8) (1/2)) = 2 := by
    rw [cellNumber_lit 2 hh (by norm_num) (by norm_num)]; rfl
  have c2 : clamp0 (CELL_NUMBER (7/8) (1/2)) = 1 := by
    rw [cellNumber_lit 1 hh (by norm_num) (by norm_num)]; rfl
  have c3 : clamp0 (CELL_NUMBER (3/2) 1) = 1 := by
    rw [cellNumber_lit 1 one_pos (by norm_num) (by norm_num)]; rfl
  have n1 : ((9/8) : ℝ) ≠ 0 := by norm_num
  have n2 : ((7/8) : ℝ) ≠ 0 := by norm_num
  have hpi := PI_ne
  obtain ⟨J, hJ⟩ : ∃ J, currentOfMove halfGeom 1 1 (9/8) (3/2) (7/8) (3/2) = some J := by
    simp only [currentOfMove, halfGeom, g1, if_true, strictMotion, g2, g3, c1, c2, c3, n1, n2,
      false_and, if_false, or_self]
    norm_num
  refine not_stepContinuity halfGeom_valid (J := J) rfl ?_ ?_ ?_ ?_ hJ 3 1 (by norm_num) ?_
  · simp [mover, halfGeom]; norm_num
  · simp [mover, halfGeom]; norm_num
  · simp [mover, halfGeom]; norm_num
  · simp [mover, halfGeom]; norm_num
  · simp only [mover]
    rw [contrib_chargeIncs_cell halfGeom halfGeom_valid 1 (9/8) (3/2) (by norm_num [halfGeom])
        (by norm_num) (i := 2) (k := 1) (by norm_num) (by norm_num)
        (by norm_num [halfGeom]) (by norm_num [halfGeom]) (by norm_num [halfGeom])
        (by norm_num [halfGeom]),
      contrib_chargeIncs_cell halfGeom halfGeom_valid 1 (7/8) (3/2) (by norm_num [halfGeom])
        (by norm_num) (i := 1) (k := 1) (by norm_num) (by norm_num)
        (by norm_num [halfGeom]) (by norm_num [halfGeom]) (by norm_num [halfGeom])
        (by norm_num [halfGeom])]
    rw [cellRho_supp halfGeom 1 1 1 _ _ 3 1 (by omega), sub_zero]
    have hc := (cellRho_corners halfGeom halfGeom_valid 1 2 1 (by norm_num) (9/8) (3/2)).2.1
    norm_num at hc
    rw [hc]
    simp only [currentOfMove, halfGeom, g1, if_true, strictMotion, g2, g3, c1, c2, c3, n1, n2,
      false_and, if_false, or_self] at hJ
    norm_num at hJ
    subst hJ
    simp only [JIncs.rGrid, JIncs.zGrid, netOutflow, halfGeom, contrib_cons, contrib_nil,
      DENSITY_STRICT]
    norm_num
    field_simp
    norm_num

/-- **C07 is violated in the half cell next to the axis**: a unit charge at `r = dr/4` that moves
axially inside one cell. -/
theorem C07_near_axis_violated :
    ¬ StepContinuity unitGeom 1 [mover 1 0.25 1.25 0.25 1.75] := by
  have hm : MNZL < 1/16 := by unfold MNZL; norm_num
  have hm0 := MNZL_pos
  have e1 : (|0.25 - 0.25| : ℝ) = 0 := by norm_num
  have e2 : (|1.75 - 1.25| : ℝ) = 1/2 := by norm_num
  have g1 : ((|0.25 - 0.25| : ℝ) < MNZL ∨ (|1.75 - 1.25| : ℝ) < MNZL) := by
    rw [e1]; left; exact hm0
  have g2 : (|0.25 - 0.25| : ℝ) < MNZL := by rw [e1]; exact hm0
  have g3 : ¬ (|1.75 - 1.25| : ℝ) < MNZL := by rw [e2]; intro h; linarith
  have c1 : clamp0 (CELL_NUMBER 0.25 1) = 0 := by
    rw [cellNumber_lit 0 one_pos (by norm_num) (by norm_num)]; rfl
  have c2 : clamp0 (CELL_NUMBER 1.75 1) = 1 := by
    rw [cellNumber_lit 1 one_pos (by norm_num) (by norm_num)]; rfl
  have c3 : clamp0 (CELL_NUMBER 1.25 1) = 1 := by
    rw [cellNumber_lit 1 one_pos (by norm_num) (by norm_num)]; rfl
  have n1 : (0.25 : ℝ) ≠ 0 := by norm_num
  have n2 : ¬ ((0.25 : ℝ) > 1) := by norm_num
  have n3 : (0.25 : ℝ) ≤ 1/2 := by norm_num
  have hpi := PI_ne
  have hcur : currentOfMove unitGeom 1 1 0.25 1.75 0.25 1.25 =
      strictMotion unitGeom 1 1 0.25 1.75 0.25 1.25 := by
    simp only [currentOfMove, g1, if_true]
  obtain ⟨J, hJ⟩ : ∃ J, currentOfMove unitGeom 1 1 0.25 1.75 0.25 1.25 = some J := by
    rw [hcur]
    simp only [strictMotion, unitGeom, g2, g3, c1, c2, c3, n1, and_false, if_true, if_false]
    simp
  have hv := nodeVolume_zero unitGeom unitGeom_valid
  refine not_stepContinuity unitGeom_valid (J := J) rfl ?_ ?_ ?_ ?_ hJ 0 1 (by norm_num) ?_
  · simp [mover, unitGeom]; norm_num
  · simp [mover, unitGeom]; norm_num
  · simp [mover, unitGeom]; norm_num
  · simp [mover, unitGeom]; norm_num
  · simp only [mover]
    rw [hcur] at hJ
    simp only [strictMotion, unitGeom, g2, g3, c1, c2, c3, n1, and_false, if_true, if_false] at hJ
    simp at hJ
    subst hJ
    unfold netOutflow
    rw [hv]
    simp only [chargeIncs, unitGeom, n2, n3, if_true, if_false, c1, c2, c3, JIncs.rGrid,
      JIncs.zGrid, contrib_cons, contrib_nil, CYL_VOL, CELL_VOLUME, CYL_RNG_VOL]
    norm_num
    field_simp
    norm_num

end Verif
