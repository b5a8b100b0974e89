import Verif.MirrorParts
import Verif.PusherSym
import Verif.SystemProps
import Verif.TestModeProps
import Verif.Causality

/-!
# Both directions along the axis (C117): the cycle of a macroparticle
-/

namespace Verif

namespace Mirror

/-! ## Sums of increments -/

theorem callSum_callsOf (x a : Arr) (l : List Inc) (i k : ℤ) :
    callSum (callsOf x l) a i k = if x = a then sumAt l i k else 0 := by
  unfold callSum callsOf sumAt
  rw [List.map_map]
  split_ifs with h
  · congr 1
    apply List.map_congr_left
    intro c _
    simp [h]
  · apply List.sum_eq_zero
    intro y hy
    obtain ⟨c, -, rfl⟩ := List.mem_map.1 hy
    simp [h]

/-- the increments of the one are mirror images of those of the other -/
def Sums (G : Geom) (K K' : List JCall) : Prop := ∀ a i k, callSum K' a i k = a.mirrorSign * callSum K a i (a.mirrorCol G k)

theorem Sums.append {G : Geom} {K L K' L' : List JCall} (h : Sums G K K') (h' : Sums G L L') : Sums G (K ++ L) (K' ++ L') := by
  intro a i k
  rw [callSum_append, callSum_append, h a i k, h' a i k]
  ring

theorem Sums.nil {G : Geom} : Sums G [] [] := fun _ _ _ => by simp

/-! ## Currents -/

theorem moveCalls_mirror {G : Geom} (hG : G.Valid) (dt : ℝ) {p : Particle} {l : List JCall}
    (h : p.alive = true → |p.pos.c0 - p.posOld.c0| < G.dr ∧ |p.pos.c2 - p.posOld.c2| < G.dz ∧ 0 < p.pos.c2 ∧ p.pos.c2 < G.z_size ∧
      0 < p.posOld.c2 ∧ p.posOld.c2 < G.z_size) (hl : moveCalls G dt p = some l) :
    ∃ l', moveCalls G dt (p.mirror G) = some l' ∧ Sums G l l' := by
  have zs : G.z_size = (((G.nz : ℤ) - 2 : ℤ) + 1) * G.dz := by rw [hG.z_size_eq]; push_cast; ring
  unfold moveCalls at hl ⊢
  by_cases ha : p.alive = true
  · rw [if_pos ha] at hl
    rw [if_pos (show (p.mirror G).alive = true from ha)]
    obtain ⟨h1, h2, h4, h5, h6, h7⟩ := h ha
    rw [zs] at h5 h7
    have t := current_mirror hG dt p.charge h1 h2 h4 h5 h6 h7
    rw [← zs] at t
    obtain ⟨J, hJ, rfl⟩ := Option.map_eq_some_iff.1 hl
    rw [hJ] at t
    show ∃ l', (currentOfMove G dt p.charge p.pos.c0 (G.z_size - p.pos.c2) p.posOld.c0 (G.z_size - p.posOld.c2)).map _ = some l' ∧ _
    generalize currentOfMove G dt p.charge p.pos.c0 (G.z_size - p.pos.c2) p.posOld.c0 (G.z_size - p.posOld.c2) = o at t
    cases t with
    | @some _ J' t =>
    refine ⟨_, rfl, ?_⟩
    intro a i k
    rw [callSum_append, callSum_append, callSum_callsOf, callSum_callsOf, callSum_callsOf, callSum_callsOf, (t i k).1, (t i k).2]
    obtain ⟨c, hc⟩ : ∃ c, c = a.mirrorCol G k := ⟨_, rfl⟩
    obtain ⟨s, hs⟩ : ∃ s, s = a.mirrorSign := ⟨_, rfl⟩
    rw [← hc, ← hs]
    cases a
    case jr =>
      simp only [Arr.mirrorCol, Arr.mirrorSign] at hc hs
      rw [hs, show (G.nz : ℤ) - 2 + 1 - k = c by omega]
      simp
    case jz =>
      simp only [Arr.mirrorCol, Arr.mirrorSign] at hc hs
      rw [hs, show (G.nz : ℤ) - 2 - k = c by omega]
      simp
    all_goals simp
  · rw [if_neg ha] at hl
    rw [if_neg (show ¬ (p.mirror G).alive = true from ha)]
    cases hl
    exact ⟨_, rfl, .nil⟩

/-- the increments of the azimuthal current, with the cell and the distances to its columns -/
def quad (i k : ℤ) (A B x y : ℝ) : List Inc := [⟨i, k, A * x⟩, ⟨i + 1, k, B * x⟩, ⟨i, k + 1, A * y⟩, ⟨i + 1, k + 1, B * y⟩]

theorem azimuthal_quad (G : Geom) (q v r : ℝ) : ∃ i A B, ∀ z, azimuthalIncs G q v r z = if r = 0 then none else
    some (quad i (clamp0 (CELL_NUMBER z G.dz)) A B (((clamp0 (CELL_NUMBER z G.dz) : ℤ) + 1) * G.dz - z) (z - (clamp0 (CELL_NUMBER z G.dz) : ℤ) * G.dz)) := by
  unfold azimuthalIncs
  dsimp only
  refine ⟨clamp0 (CELL_NUMBER r G.dr),
    if r > G.dr then q / (2 * PI * G.dz * G.dr * r) * CYL_RNG_VOL 1 (r - 0.5 * G.dr) ((((clamp0 (CELL_NUMBER r G.dr) : ℤ) : ℝ) + 0.5) * G.dr) /
      CELL_VOLUME (clamp0 (CELL_NUMBER r G.dr) : ℤ) G.dr G.dz * v
    else q / (2 * PI * G.dz * G.dr * r) * CYL_RNG_VOL 1 (r - 0.5 * G.dr) ((((clamp0 (CELL_NUMBER r G.dr) : ℤ) : ℝ) + 0.5) * G.dr) / CYL_VOL G.dz G.dr * v,
    q / (2 * PI * G.dz * G.dr * r) * CYL_RNG_VOL 1 ((((clamp0 (CELL_NUMBER r G.dr) : ℤ) : ℝ) + 0.5) * G.dr) (r + 0.5 * G.dr) /
      CELL_VOLUME (((clamp0 (CELL_NUMBER r G.dr) : ℤ) : ℝ) + 1) G.dr G.dz * v, fun z => ?_⟩
  generalize clamp0 (CELL_NUMBER z G.dz) = k
  generalize clamp0 (CELL_NUMBER r G.dr) = i
  unfold quad CYL_RNG_VOL
  split_ifs
  · rfl
  · simp only [Option.some.injEq, List.cons.injEq, Inc.mk.injEq, true_and, and_true]
    refine ⟨?_, ?_, ?_, ?_⟩ <;> ring
  · simp only [Option.some.injEq, List.cons.injEq, Inc.mk.injEq, true_and, and_true]
    refine ⟨?_, ?_, ?_, ?_⟩ <;> ring

theorem quad_sum (i k : ℤ) (A B x y : ℝ) (a b : ℤ) : sumAt (quad i k A B x y) a b =
    ((if i = a then A else 0) + if i + 1 = a then B else 0) * ((if k = b then x else 0) + if k + 1 = b then y else 0) := by
  simp only [sumAt, quad, List.map_cons, List.map_nil, List.sum_cons, List.sum_nil]
  split_ifs <;> first | (exfalso; omega) | ring

theorem azimuthalCalls_mirror {G : Geom} (hG : G.Valid) {p : Particle} {l : List JCall} (h : p.alive = true → 0 < p.pos.c2 ∧ p.pos.c2 < G.z_size)
    (hl : azimuthalCalls G p = some l) : ∃ l', azimuthalCalls G (p.mirror G) = some l' ∧ Sums G l l' := by
  have dz := hG.dz_pos
  have zs := hG.z_size_eq
  unfold azimuthalCalls at hl ⊢
  by_cases ha : p.alive = true
  · rw [if_pos ha] at hl
    rw [if_pos (show (p.mirror G).alive = true from ha)]
    obtain ⟨h1, h2⟩ := h ha
    obtain ⟨i, A, B, e⟩ := azimuthal_quad G p.charge p.vel.c1 p.pos.c0
    obtain ⟨L, hL, rfl⟩ := Option.map_eq_some_iff.1 hl
    show ∃ l', (azimuthalIncs G p.charge p.vel.c1 p.pos.c0 (G.z_size - p.pos.c2)).map _ = some l' ∧ _
    rw [e] at hL ⊢
    split_ifs at hL ⊢ with h0
    rw [Option.some.injEq] at hL
    subst hL
    refine ⟨_, rfl, ?_⟩
    obtain ⟨z, hz⟩ : ∃ z, z = p.pos.c2 := ⟨_, rfl⟩
    rw [← hz] at h1 h2 ⊢
    obtain ⟨b1, b2⟩ := CELL_NUMBER_spec (x := z) dz
    obtain ⟨k, hk⟩ : ∃ k, k = CELL_NUMBER z G.dz := ⟨_, rfl⟩
    rw [← hk] at b1 b2
    have k0 : 0 ≤ k := by
      by_contra hc
      have : (k : ℝ) + 1 ≤ 0 := by exact_mod_cast (by omega : k + 1 ≤ 0)
      nlinarith
    rw [cell_is dz k0 b1 b2]
    intro a i' k'
    rw [callSum_callsOf, callSum_callsOf, quad_sum, quad_sum]
    by_cases hj : Arr.jphi = a
    · rw [if_pos hj, if_pos hj]
      subst hj
      obtain ⟨c', hc'⟩ : ∃ c', c' = Arr.mirrorCol G .jphi k' := ⟨_, rfl⟩
      rw [← hc', show Arr.mirrorSign .jphi = 1 from rfl, one_mul]
      replace hc' : c' = G.nz - 1 - k' := hc'
      congr 1
      rcases b2.lt_or_eq with b2 | b2
      · have k1 : k + 2 ≤ G.nz := by
          by_contra hc
          have : (G.nz : ℝ) ≤ k + 1 := by exact_mod_cast (by omega : (G.nz : ℤ) ≤ k + 1)
          nlinarith
        have c := cell_is (x := G.z_size - z) (k := G.nz - 2 - k) dz (by omega) (by push_cast; nlinarith) (by push_cast; nlinarith)
        rw [c]
        push_cast
        by_cases e1 : k = c'
        · rw [if_pos e1, if_neg (show ¬ k + 1 = c' by omega), if_neg (show ¬ (G.nz : ℤ) - 2 - k = k' by omega),
            if_pos (show (G.nz : ℤ) - 2 - k + 1 = k' by omega), zs]
          ring
        · rw [if_neg e1, if_neg (show ¬ (G.nz : ℤ) - 2 - k + 1 = k' by omega)]
          by_cases e2 : k + 1 = c'
          · rw [if_pos e2, if_pos (show (G.nz : ℤ) - 2 - k = k' by omega), zs]
            ring
          · rw [if_neg e2, if_neg (show ¬ (G.nz : ℤ) - 2 - k = k' by omega)]
      · have k1 : k + 3 ≤ G.nz := by
          by_contra hc
          have : (G.nz : ℝ) ≤ k + 2 := by exact_mod_cast (by omega : (G.nz : ℤ) ≤ k + 2)
          nlinarith
        have c := cell_is (x := G.z_size - z) (k := G.nz - 3 - k) dz (by omega) (by push_cast; nlinarith) (by push_cast; nlinarith)
        rw [c]
        push_cast
        rw [b2, zs]
        rw [show ((G.nz : ℝ) - 3 - k + 1) * G.dz - (G.dz * (G.nz - 1) - (k + 1) * G.dz) = 0 by ring,
          show ((k : ℝ) + 1) * G.dz - (k + 1) * G.dz = 0 by ring,
          show G.dz * ((G.nz : ℝ) - 1) - (k + 1) * G.dz - (G.nz - 3 - k) * G.dz = G.dz by ring,
          show ((k : ℝ) + 1) * G.dz - k * G.dz = G.dz by ring]
        simp only [ite_self, zero_add]
        congr 1
        rw [eq_iff_iff]
        omega
    · rw [if_neg hj, if_neg hj, mul_zero]
  · rw [if_neg ha] at hl
    rw [if_neg (show ¬ (p.mirror G).alive = true from ha)]
    cases hl
    exact ⟨_, rfl, .nil⟩

/-! ## Motion -/

/-- the mirror, for `Signs.push` -/
def signs : Signs where
  p0 := 1
  p1 := 1
  p2 := -1
  a0 := -1
  a1 := -1
  a2 := 1
  h0 := by norm_num
  h1 := by norm_num
  h2 := by norm_num
  k0 := by norm_num
  k1 := by norm_num
  k2 := by norm_num
  x01 := by norm_num
  x02 := by norm_num
  x10 := by norm_num
  x12 := by norm_num
  x20 := by norm_num
  x21 := by norm_num

theorem stepV_mirror {G : Geom} (hG : G.Valid) (hnr : 3 ≤ G.nr) (hnz : 3 ≤ G.nz) {F F' : Fields} (h : MirF G F F') (mode : PusherMode) (g : Bool) (dt : ℝ)
    {p : Particle} (hp : p.alive = true → InRegion G p.pos.c0 p.pos.c2) :
    stepVSingle G F' mode g dt (p.mirror G) = (stepVSingle G F mode g dt p).map fun q => q.mirror G := by
  unfold stepVSingle
  by_cases ha : p.alive = true
  · rw [if_pos ha, if_pos (show (p.mirror G).alive = true from ha)]
    obtain ⟨i1, i2, i3, i4⟩ := hp ha
    obtain ⟨e1, e2⟩ := val_mirror hG hnz F (r := p.pos.c0) i3 i4
    obtain ⟨c1, c2⟩ := val_congr hG hnr hnz (F := F') (F' := image G F) (fun a i k hI => h a i k hI) (r := p.pos.c0) (z := G.z_size - p.pos.c2)
      ⟨i1, i2, by linarith, by linarith⟩
    show (push mode g dt p.charge p.mass (valE G F' p.pos.c0 (G.z_size - p.pos.c2)) (valH G F' p.pos.c0 (G.z_size - p.pos.c2))
      ⟨p.vel.c0, p.vel.c1, -p.vel.c2⟩).bind _ = _
    rw [c1, c2, e1, e2]
    have t := signs.push mode g dt dt p.charge p.charge p.mass p.mass (valE G F p.pos.c0 p.pos.c2)
      ⟨(valE G F p.pos.c0 p.pos.c2).c0, (valE G F p.pos.c0 p.pos.c2).c1, -(valE G F p.pos.c0 p.pos.c2).c2⟩ (valH G F p.pos.c0 p.pos.c2)
      ⟨-(valH G F p.pos.c0 p.pos.c2).c0, -(valH G F p.pos.c0 p.pos.c2).c1, (valH G F p.pos.c0 p.pos.c2).c2⟩ p.vel Iff.rfl
      (by simp only [V3.smul, Signs.pol, signs, V3.mk.injEq]; refine ⟨by ring, by ring, by ring⟩)
      (by simp only [V3.smul, Signs.ax, signs, V3.mk.injEq]; refine ⟨by ring, by ring, by ring⟩) (fun _ => rfl)
    have ev : ∀ v : V3, signs.pol v = ⟨v.c0, v.c1, -v.c2⟩ := by
      intro v
      simp only [Signs.pol, signs, V3.mk.injEq]
      refine ⟨by ring, by ring, by ring⟩
    rw [ev] at t
    rw [t, Option.bind_map, Option.map_bind]
    congr 1
    funext v
    simp only [Function.comp]
    rw [ev]
    unfold backPosition halfStep dumpOld Particle.mirror
    dsimp only
    split_ifs
    · rfl
    · simp only [Option.map_some, Option.some.injEq, Particle.mk.injEq, V3.mk.injEq, true_and, and_true]
      ring
  · rw [if_neg ha, if_neg (show ¬ (p.mirror G).alive = true from ha)]
    rfl

theorem half_mirror (G : Geom) (dt : ℝ) (p : Particle) : halfStep dt (p.mirror G) = (halfStep dt p).mirror G := by
  unfold halfStep Particle.mirror
  simp only [Particle.mk.injEq, V3.mk.injEq, true_and, and_true]
  ring

theorem backPos_mirror (G : Geom) (p : Particle) : backPosition (p.mirror G) = (backPosition p).map fun q => q.mirror G := by
  unfold backPosition Particle.mirror
  dsimp only
  split_ifs <;> rfl

theorem backV_mirror (G : Geom) (p : Particle) : backVelocitySingle (p.mirror G) = (backVelocitySingle p).mirror G := by
  unfold backVelocitySingle backVelocity Particle.mirror
  dsimp only
  split_ifs <;> rfl

/-- the four tests of `reflection_single`, one by one -/
noncomputable def hiR (G : Geom) (p : Particle) : Particle :=
  if p.pos.c0 > G.r_size - G.dr / 2 then
    { p with pos := ⟨(G.r_size - G.dr / 2) * 2 - p.pos.c0, p.pos.c1, p.pos.c2⟩, vel := ⟨-p.vel.c0, p.vel.c1, p.vel.c2⟩ } else p
@[inherit_doc hiR] noncomputable def hiZ (G : Geom) (p : Particle) : Particle :=
  if p.pos.c2 > G.z_size - G.dz / 2 then
    { p with pos := ⟨p.pos.c0, p.pos.c1, (G.z_size - G.dz / 2) * 2 - p.pos.c2⟩, vel := ⟨p.vel.c0, p.vel.c1, -p.vel.c2⟩ } else p
@[inherit_doc hiR] noncomputable def loR (G : Geom) (p : Particle) : Particle :=
  if p.pos.c0 < G.dr / 2 then { p with pos := ⟨G.dr - p.pos.c0, p.pos.c1, p.pos.c2⟩, vel := ⟨-p.vel.c0, p.vel.c1, p.vel.c2⟩ } else p
@[inherit_doc hiR] noncomputable def loZ (G : Geom) (p : Particle) : Particle :=
  if p.pos.c2 < G.dz / 2 then { p with pos := ⟨p.pos.c0, p.pos.c1, G.dz - p.pos.c2⟩, vel := ⟨p.vel.c0, p.vel.c1, -p.vel.c2⟩ } else p
/-- the test of the outer wall for a bunch -/
noncomputable def killR (G : Geom) (p : Particle) : Particle := if p.pos.c0 > G.r_size - G.dr / 2 then { p with alive := false } else p
@[inherit_doc killR] noncomputable def killZ (G : Geom) (p : Particle) : Particle := if p.pos.c2 > G.z_size - G.dz / 2 then { p with alive := false } else p

theorem hiR_mirror (G : Geom) (p : Particle) : hiR G (p.mirror G) = (hiR G p).mirror G ∧ (hiR G p).pos.c2 = p.pos.c2 := by
  unfold hiR Particle.mirror
  dsimp only
  split_ifs <;> exact ⟨rfl, rfl⟩

theorem loR_mirror (G : Geom) (p : Particle) : loR G (p.mirror G) = (loR G p).mirror G ∧ (loR G p).pos.c2 = p.pos.c2 := by
  unfold loR Particle.mirror
  dsimp only
  split_ifs <;> exact ⟨rfl, rfl⟩

theorem killR_mirror (G : Geom) (p : Particle) : killR G (p.mirror G) = (killR G p).mirror G ∧ (killR G p).pos.c2 = p.pos.c2 := by
  unfold killR Particle.mirror
  dsimp only
  split_ifs <;> exact ⟨rfl, rfl⟩

theorem loR_hiZ (G : Geom) (p : Particle) : loR G (hiZ G p) = hiZ G (loR G p) := by
  unfold loR hiZ
  by_cases h1 : p.pos.c0 < G.dr / 2 <;> by_cases h2 : p.pos.c2 > G.z_size - G.dz / 2 <;> simp only [h1, h2, if_true, if_false]

theorem reflect_mirror {G : Geom} (hG : G.Valid) (hnz : 3 ≤ G.nz) {p : Particle} (h1 : -(G.dz / 2) < p.pos.c2) (h2 : p.pos.c2 < G.z_size + G.dz / 2) :
    reflection G (p.mirror G) = (reflection G p).mirror G := by
  have dz := hG.dz_pos
  have zs : 2 * G.dz ≤ G.z_size := by
    have : (3 : ℝ) ≤ G.nz := by exact_mod_cast hnz
    rw [hG.z_size_eq]; nlinarith
  have e : ∀ q, reflection G q = loZ G (loR G (hiZ G (hiR G q))) := fun _ => rfl
  rw [e, e, loR_hiZ, loR_hiZ, (hiR_mirror G p).1, (loR_mirror G _).1]
  obtain ⟨w, hw⟩ : ∃ w, w = loR G (hiR G p) := ⟨_, rfl⟩
  have hz : w.pos.c2 = p.pos.c2 := by rw [hw, (loR_mirror G _).2, (hiR_mirror G _).2]
  rw [← hw]
  rw [← hz] at h1 h2
  clear hz hw
  have hp : ∀ q : Particle, q.pos.c2 > G.z_size - G.dz / 2 → hiZ G q =
      { q with pos := ⟨q.pos.c0, q.pos.c1, (G.z_size - G.dz / 2) * 2 - q.pos.c2⟩, vel := ⟨q.vel.c0, q.vel.c1, -q.vel.c2⟩ } := fun q h => if_pos h
  have hn : ∀ q : Particle, ¬ q.pos.c2 > G.z_size - G.dz / 2 → hiZ G q = q := fun q h => if_neg h
  have lp : ∀ q : Particle, q.pos.c2 < G.dz / 2 → loZ G q =
      { q with pos := ⟨q.pos.c0, q.pos.c1, G.dz - q.pos.c2⟩, vel := ⟨q.vel.c0, q.vel.c1, -q.vel.c2⟩ } := fun q h => if_pos h
  have ln : ∀ q : Particle, ¬ q.pos.c2 < G.dz / 2 → loZ G q = q := fun q h => if_neg h
  by_cases c1 : w.pos.c2 > G.z_size - G.dz / 2
  · rw [hp w c1, hn (w.mirror G) (show ¬ G.z_size - w.pos.c2 > _ by linarith), lp (w.mirror G) (show G.z_size - w.pos.c2 < _ by linarith),
      ln _ (show ¬ (G.z_size - G.dz / 2) * 2 - w.pos.c2 < _ by linarith)]
    simp only [Particle.mirror, Particle.mk.injEq, V3.mk.injEq, true_and, and_true]
    ring
  · rw [hn w c1]
    by_cases c2 : w.pos.c2 < G.dz / 2
    · rw [hp (w.mirror G) (show G.z_size - w.pos.c2 > _ by linarith), lp w c2,
        ln _ (show ¬ (G.z_size - G.dz / 2) * 2 - (G.z_size - w.pos.c2) < _ by linarith)]
      simp only [Particle.mirror, Particle.mk.injEq, V3.mk.injEq, true_and, and_true]
      ring
    · rw [hn (w.mirror G) (show ¬ G.z_size - w.pos.c2 > _ by linarith), ln (w.mirror G) (show ¬ G.z_size - w.pos.c2 < _ by linarith), ln w c2]

theorem bunch_mirror {G : Geom} {p : Particle} (h1 : G.dz / 2 ≤ p.pos.c2) (h2 : p.pos.c2 ≤ G.z_size - G.dz / 2) :
    bunchReflection G (p.mirror G) = (bunchReflection G p).mirror G := by
  have e : ∀ q, bunchReflection G q = loZ G (loR G (killZ G (killR G q))) := fun _ => rfl
  have k : ∀ q : Particle, q.pos.c2 ≤ G.z_size - G.dz / 2 → killZ G q = q := by
    intro q hq
    unfold killZ
    rw [if_neg (by linarith)]
  have l : ∀ q : Particle, G.dz / 2 ≤ q.pos.c2 → loZ G q = q := by
    intro q hq
    unfold loZ
    rw [if_neg (by linarith)]
  have z := (killR_mirror G p).2
  have z' := (loR_mirror G (killR G p)).2
  rw [z] at z'
  rw [e, e, (killR_mirror G p).1, k _ (show G.z_size - (killR G p).pos.c2 ≤ _ by rw [z]; linarith), k (killR G p) (by rw [z]; exact h2), (loR_mirror G _).1,
    l _ (show _ ≤ G.z_size - (loR G (killR G p)).pos.c2 by rw [z']; linarith), l _ (by rw [z']; exact h1)]

theorem reflectionOf_old (b : Bool) (G : Geom) (p : Particle) : (reflectionOf b G p).posOld = p.posOld := by
  have l1 : ∀ p, (loZ G p).posOld = p.posOld := by intro p; unfold loZ; split_ifs <;> rfl
  have l2 : ∀ p, (loR G p).posOld = p.posOld := by intro p; unfold loR; split_ifs <;> rfl
  have l3 : ∀ p, (hiZ G p).posOld = p.posOld := by intro p; unfold hiZ; split_ifs <;> rfl
  have l4 : ∀ p, (hiR G p).posOld = p.posOld := by intro p; unfold hiR; split_ifs <;> rfl
  have l5 : ∀ p, (killZ G p).posOld = p.posOld := by intro p; unfold killZ; split_ifs <;> rfl
  have l6 : ∀ p, (killR G p).posOld = p.posOld := by intro p; unfold killR; split_ifs <;> rfl
  cases b
  · show (loZ G (loR G (hiZ G (hiR G p)))).posOld = _
    rw [l1, l2, l3, l4]
  · show (loZ G (loR G (killZ G (killR G p)))).posOld = _
    rw [l1, l2, l5, l6]

/-- the cycle of a macroparticle in the mirror -/
theorem part_mirror {G : Geom} (hG : G.Valid) (hnr : 3 ≤ G.nr) (hnz : 3 ≤ G.nz) {F F' : Fields} (hF : MirF G F F')
    {mode : PusherMode} (hmode : mode = .borisRelativistic ∨ mode = .vay) {dt : ℝ} (hdt : 0 < dt) (hdr : LIGHT_SPEED * dt ≤ G.dr) (hdz : LIGHT_SPEED * dt ≤ G.dz)
    {b : Bool} {p p' : Particle} {K : List JCall} (hp : Inside G p) (hb : b = true → p.alive = true → 3 / 2 * G.dz ≤ p.pos.c2 ∧ p.pos.c2 ≤ G.z_size - 3 / 2 * G.dz) (hc : PartCycle G F mode dt b p K p') :
    ∃ K', PartCycle G F' mode dt b (p.mirror G) K' (p'.mirror G) ∧ Sums G K K' := by
  have dz := hG.dz_pos
  obtain ⟨hreg, g, q, hq, q2, la, lc, c1, c2, c3, rfl, rfl⟩ := hc
  obtain ⟨q', e, hmid⟩ := stepV_mid hG hdt hdr hmode (F := F) hp hreg g
  rw [hq, Option.some.injEq] at e
  subst e
  obtain ⟨o1, o2⟩ := stepV_old hq
  obtain ⟨q2', w1, -, w3, w2⟩ := move_where b hG hnr hnz hdt hdr hdz hmid
  rw [c2, Option.some.injEq] at w1
  subst w1
  have zmid : q.alive = true → p.pos.c2 - G.dz < (halfStep dt q).pos.c2 ∧ (halfStep dt q).pos.c2 < p.pos.c2 + G.dz ∧ 0 < q.pos.c2 ∧ q.pos.c2 < G.z_size ∧
      InRegion G p.pos.c0 p.pos.c2 := by
    intro ha
    have ha' : p.alive = true := by rw [← o1]; exact ha
    obtain ⟨-, -, -, m4, -, m6⟩ := hmid ha
    have m2 := abs_lt.1 (disp_lt hdt (comp_lt m6).2 hdz)
    rw [(o2 ha').2] at m4
    have i := hreg ha'
    obtain ⟨i1, i2, i3, i4⟩ := i
    have z2 : (halfStep dt q).pos.c2 = q.pos.c2 + q.vel.c2 * (dt / 2) := rfl
    exact ⟨by linarith, by linarith, by linarith, by linarith, i1, i2, i3, i4⟩
  have hm := c2
  unfold moveHalfReflectSingle at hm
  have old : q2.posOld = q.posOld := by
    split_ifs at hm with ha
    · unfold backPosition at hm
      dsimp only at hm
      split_ifs at hm
      cases hm
      exact reflectionOf_old b G _
    · cases hm
      rfl
  obtain ⟨la', a1, a2⟩ := azimuthalCalls_mirror hG (fun ha => ⟨(zmid ha).2.2.1, (zmid ha).2.2.2.1⟩) c1
  have back := backV_props q2
  obtain ⟨lc', b1, b2⟩ := moveCalls_mirror hG dt (p := q2) (by
    intro ha
    obtain ⟨qa, x1, x2⟩ := w2 ha
    have pa : p.alive = true := by rw [← o1]; exact qa
    obtain ⟨⟨-, -, y1, y2⟩, -⟩ := w3 (by rw [back.1]; exact ha)
    rw [back.2.2.2] at y1 y2
    obtain ⟨-, -, i3, i4⟩ := hreg pa
    rw [old]
    refine ⟨x1, x2, by linarith, by linarith, by rw [(o2 pa).2]; linarith, by rw [(o2 pa).2]; linarith⟩) c3
  refine ⟨la' ++ lc', ⟨?_, g, q.mirror G, ?_, q2.mirror G, la', lc', a1, ?_, b1, rfl, (backV_mirror G q2).symm⟩, a2.append b2⟩
  · intro ha
    obtain ⟨i1, i2, i3, i4⟩ := hreg ha
    exact ⟨i1, i2, show _ ≤ G.z_size - p.pos.c2 by linarith, show G.z_size - p.pos.c2 ≤ _ by linarith⟩
  · rw [stepV_mirror hG hnr hnz hF mode g dt hreg, hq]
    rfl
  · unfold moveHalfReflectSingle
    by_cases ha : q.alive = true
    · rw [if_pos ha] at hm
      rw [if_pos (show (q.mirror G).alive = true from ha), half_mirror]
      obtain ⟨z1, z2, -, -, -, -, i3, i4⟩ := zmid ha
      have r : reflectionOf b G ((halfStep dt q).mirror G) = (reflectionOf b G (halfStep dt q)).mirror G := by
        cases b
        · exact reflect_mirror hG hnz (by linarith) (by linarith)
        · obtain ⟨x1, x2⟩ := hb rfl (by rw [← o1]; exact ha)
          exact bunch_mirror (by linarith) (by linarith)
      rw [r, backPos_mirror, hm]
      rfl
    · rw [if_neg ha] at hm
      rw [if_neg (show ¬ (q.mirror G).alive = true from ha)]
      cases hm
      rfl

/-- the same macroparticle in two simulations with the same fields -/
theorem part_det {G : Geom} {F : Fields} {mode : PusherMode} (hmode : mode ≠ .borisAdaptive) {dt : ℝ} {b : Bool} {p q p' q' : Particle} {K L : List JCall}
    (hpq : SamePart p q) (hp : PartCycle G F mode dt b p K p') (hq : PartCycle G F mode dt b q L q') : K = L ∧ SamePart p' q' := by
  obtain ⟨-, g, u, hu, u2, la, lc, a1, a2, a3, rfl, rfl⟩ := hp
  obtain ⟨-, g', v, hv, v2, la', lc', b1, b2, b3, rfl, rfl⟩ := hq
  have s1 := stepV_same hmode hpq hu hv
  have s2 := move_same s1 a2 b2
  rw [azimuthal_same G s1.toSamePart, b1, Option.some.injEq] at a1
  rw [moveCalls_same G dt s2, b3, Option.some.injEq] at a3
  exact ⟨by rw [a1, a3], backV_same s2⟩

end Mirror

end Verif
