import Verif.AzimuthalFault

/-!
# Runs with azimuthal motion: the only cause of a fault (C76)
-/

namespace Verif

/-! ## Specification -/

/-- A live macroparticle is inside the chamber (off the inner half cells), in the half plane, has a
mass and is slower than light. -/
def Inside (G : Geom) (p : Particle) : Prop :=
  p.alive = true → (G.dr / 2 ≤ p.pos.c0 ∧ p.pos.c0 < G.r_size ∧ G.dz / 2 ≤ p.pos.c2 ∧
    p.pos.c2 ≤ G.z_size - G.dz / 2) ∧ p.pos.c1 = 0 ∧ p.mass ≠ 0 ∧ speedSq p.vel < LIGHT_SPEED ^ 2

/-- A live macroparticle is in the last half cell before the outer wall. -/
def InLastHalfCell (G : Geom) (p : Particle) : Prop :=
  p.alive = true ∧ G.r_size - G.dr / 2 < p.pos.c0

/-! ## The radius during a step -/

/-- what the second half of the step does to the radius: mirrored or not -/
inductive Mirrored (lo hi c : ℝ) : ℝ → Prop
  | none (h1 : lo ≤ c) (h2 : c ≤ hi) : Mirrored lo hi c c
  | far (h : hi < c) : Mirrored lo hi c (2 * hi - c)
  | near (h : c < lo) : Mirrored lo hi c (2 * lo - c)

theorem sqrt_near {r a b s : ℝ} (hr : 0 ≤ r) (hs : 0 ≤ s) (e : a ^ 2 + b ^ 2 = s ^ 2) :
    |a| ≤ s ∧ r - s ≤ Real.sqrt ((r + a) * (r + a) + b * b) ∧
      Real.sqrt ((r + a) * (r + a) + b * b) ≤ r + s ∧ r + a ≤ Real.sqrt ((r + a) * (r + a) + b * b) := by
  have ha : |a| ≤ s := abs_le_of_sq_le_sq (by nlinarith [sq_nonneg b]) hs
  obtain ⟨a1, a2⟩ := abs_le.1 ha
  refine ⟨ha, ?_, ?_, ?_⟩
  · apply Real.le_sqrt_of_sq_le; nlinarith
  · rw [Real.sqrt_le_left (by linarith)]; nlinarith
  · apply Real.le_sqrt_of_sq_le; nlinarith [mul_self_nonneg b]

theorem radius_bounds {d R r0 a b s : ℝ} (hd : 0 < d) (hR : 2 * d ≤ R) (h1 : d / 2 ≤ r0)
    (h2 : r0 ≤ R - d / 2) (hs : 0 ≤ s) (hsd : 2 * s < d) (e : a ^ 2 + b ^ 2 = s ^ 2) {c' : ℝ}
    (hc : Mirrored (d / 2) (R - d / 2) (Real.sqrt ((r0 + a) * (r0 + a) + b * b) + a) c') :
    d / 2 ≤ c' ∧ d / 2 ≤ Real.sqrt (c' * c' + b * b) ∧ Real.sqrt (c' * c' + b * b) < R ∧
      |Real.sqrt (c' * c' + b * b) - r0| < d := by
  obtain ⟨ha, f1, f2, f3⟩ := sqrt_near (r := r0) (by linarith) hs e
  obtain ⟨t, ht⟩ : ∃ t, t = Real.sqrt ((r0 + a) * (r0 + a) + b * b) := ⟨_, rfl⟩
  rw [← ht] at hc f1 f2 f3
  obtain ⟨a1, a2⟩ := abs_le.1 ha
  have ht0 : 0 ≤ t := by rw [ht]; exact Real.sqrt_nonneg _
  have hb : b ^ 2 ≤ s ^ 2 := by nlinarith [sq_nonneg a]
  obtain ⟨-, g1, g2, -⟩ := sqrt_near (r := t) ht0 hs e
  -- the radius without mirrors
  obtain ⟨w, hw⟩ : ∃ w, w = Real.sqrt ((t + a) * (t + a) + b * b) := ⟨_, rfl⟩
  rw [← hw] at g1 g2
  have key : d / 2 ≤ c' ∧ c' ≤ R - d / 2 ∧ Real.sqrt (c' * c' + b * b) ≤ r0 + 2 * s ∧
      r0 - 2 * s ≤ Real.sqrt (c' * c' + b * b) := by
    have low : c' ≤ Real.sqrt (c' * c' + b * b) := by
      apply Real.le_sqrt_of_sq_le; nlinarith [mul_self_nonneg b]
    cases hc with
    | none h1 h2 =>
      rw [← hw]
      exact ⟨h1, h2, by linarith, by linarith⟩
    | far h =>
      refine ⟨by linarith, by linarith, ?_, by linarith⟩
      refine le_trans (Real.sqrt_le_sqrt (y := (t + a) * (t + a) + b * b) ?_) (by rw [← hw]; linarith)
      nlinarith
    | near h =>
      refine ⟨by linarith, by linarith, ?_, by linarith⟩
      rw [Real.sqrt_le_left (by linarith)]
      have k1 : 0 ≤ 2 * (d / 2) - (t + a) := by linarith
      have k2 : 2 * (d / 2) - (t + a) ≤ r0 - 2 * a := by linarith
      nlinarith [mul_self_le_mul_self k1 k2]
  obtain ⟨k1, k2, k3, k4⟩ := key
  have up : Real.sqrt (c' * c' + b * b) ≤ c' + s := by
    rw [Real.sqrt_le_left (by linarith)]; nlinarith
  refine ⟨k1, ?_, by linarith, abs_lt.2 ⟨by linarith, by linarith⟩⟩
  apply Real.le_sqrt_of_sq_le; nlinarith [mul_self_nonneg b]

/-! ## One particle -/

/-- A live particle between the two halves of the step. -/
def MidStep (G : Geom) (dt : ℝ) (p : Particle) : Prop :=
  p.alive = true → InRegion G p.posOld.c0 p.posOld.c2 ∧
    p.pos.c0 = Real.sqrt ((p.posOld.c0 + p.vel.c0 * (dt / 2)) * (p.posOld.c0 + p.vel.c0 * (dt / 2))
      + p.vel.c1 * (dt / 2) * (p.vel.c1 * (dt / 2))) ∧ p.pos.c1 = 0 ∧
    p.pos.c2 = p.posOld.c2 + p.vel.c2 * (dt / 2) ∧ p.mass ≠ 0 ∧ speedSq p.vel < LIGHT_SPEED ^ 2

/-- the length of the half step across the axis -/
theorem half_disp {v : V3} {dt d : ℝ} (hdt : 0 < dt) (hv : speedSq v < LIGHT_SPEED ^ 2)
    (hc : LIGHT_SPEED * dt ≤ d) : ∃ s, 0 ≤ s ∧ 2 * s < d ∧
      (v.c0 * (dt / 2)) ^ 2 + (v.c1 * (dt / 2)) ^ 2 = s ^ 2 := by
  have hL : (0:ℝ) < LIGHT_SPEED := by unfold LIGHT_SPEED; norm_num
  have hn : 0 ≤ (v.c0 * (dt / 2)) ^ 2 + (v.c1 * (dt / 2)) ^ 2 := by positivity
  refine ⟨Real.sqrt ((v.c0 * (dt / 2)) ^ 2 + (v.c1 * (dt / 2)) ^ 2), Real.sqrt_nonneg _, ?_,
    (Real.sq_sqrt hn).symm⟩
  have : Real.sqrt ((v.c0 * (dt / 2)) ^ 2 + (v.c1 * (dt / 2)) ^ 2) < LIGHT_SPEED * (dt / 2) := by
    rw [Real.sqrt_lt' (by positivity)]
    have e : (v.c0 * (dt / 2)) ^ 2 + (v.c1 * (dt / 2)) ^ 2 = (v.c0 ^ 2 + v.c1 ^ 2) * (dt / 2) ^ 2 := by
      ring
    rw [e, mul_pow]
    apply mul_lt_mul_of_pos_right _ (by positivity)
    unfold speedSq at hv
    nlinarith [sq_nonneg v.c2]
  linarith

theorem backPosition_some {p : Particle} (h0 : 0 < p.pos.c0) :
    backPosition p = some { p with
      sinTheta := p.pos.c1 / Real.sqrt (p.pos.c0 * p.pos.c0 + p.pos.c1 * p.pos.c1)
      pos := ⟨Real.sqrt (p.pos.c0 * p.pos.c0 + p.pos.c1 * p.pos.c1), 0, p.pos.c2⟩ } := by
  have : 0 < Real.sqrt (p.pos.c0 * p.pos.c0 + p.pos.c1 * p.pos.c1) := by
    apply Real.sqrt_pos.2; nlinarith [mul_self_nonneg p.pos.c1]
  unfold backPosition
  dsimp only
  rw [if_neg this.ne']

/-- the first half of the step -/
theorem stepV_mid {G : Geom} (hG : G.Valid) {F : Fields} {mode : PusherMode} {dt : ℝ}
    (hdt : 0 < dt) (hdr : LIGHT_SPEED * dt ≤ G.dr)
    (hmode : mode = .borisRelativistic ∨ mode = .vay) {p : Particle} (hp : Inside G p)
    (hreg : p.alive = true → InRegion G p.pos.c0 p.pos.c2) (g : Bool) :
    ∃ p1, stepVSingle G F mode g dt p = some p1 ∧ MidStep G dt p1 := by
  unfold stepVSingle
  by_cases ha : p.alive = true
  swap
  · rw [if_neg ha]; exact ⟨p, rfl, fun h => absurd h ha⟩
  rw [if_pos ha]
  obtain ⟨-, h2, h4, h5⟩ := hp ha
  have h1 := hreg ha
  obtain ⟨v, hv, hs⟩ := C19_push_subluminal mode g dt p.charge p.mass h4
    (valE G F p.pos.c0 p.pos.c2) (valH G F p.pos.c0 p.pos.c2) p.vel
    (by rcases hmode with h | h; exacts [Or.inl h, Or.inr (Or.inl h)]) h5.le
  rw [hv, Option.bind_some]
  obtain ⟨c0, c2⟩ := comp_lt hs
  have d0 := abs_lt.1 (disp_lt hdt c0 hdr)
  have hpos : 0 < p.pos.c0 + v.c0 * (dt / 2) := by
    have := h1.1
    have e : v.c0 * (dt / 2) = v.c0 * dt / 2 := by ring
    rw [e]; linarith [d0.1]
  have hc1 : (halfStep dt (dumpOld { p with vel := v })).pos.c1 = v.c1 * (dt / 2) := by
    simp [halfStep, dumpOld, h2]
  rw [backPosition_some (p := halfStep dt (dumpOld { p with vel := v })) hpos, hc1]
  exact ⟨_, rfl, fun _ => ⟨h1, rfl, rfl, rfl, h4, hs⟩⟩

/-- the radius after the reflections -/
theorem reflectionOf_mirrored (b : Bool) {G : Geom} (hG : G.Valid) (hnr : 3 ≤ G.nr) (p : Particle)
    {r0 : ℝ} (h1 : G.dr / 2 ≤ r0) (h2 : r0 ≤ G.r_size - G.dr / 2) (hr : |p.pos.c0 - r0| < G.dr)
    (ha : (reflectionOf b G p).alive = true) :
    Mirrored (G.dr / 2) (G.r_size - G.dr / 2) p.pos.c0 (reflectionOf b G p).pos.c0 := by
  have hdr := hG.dr_pos
  have hnr' : (3:ℝ) ≤ G.nr := by exact_mod_cast hnr
  have hR : 2 * G.dr ≤ G.r_size := by rw [hG.r_size_eq]; nlinarith
  rw [abs_lt] at hr
  cases b
  · have e : (reflectionOf false G p).pos.c0
        = mirrorX (G.dr / 2) (G.r_size - G.dr / 2) p.pos.c0 := by
      simp only [reflectionOf, Bool.false_eq_true, if_false]
      rw [(reflection_fields G p).1]
    rw [e]
    unfold mirrorX
    dsimp only
    by_cases h : p.pos.c0 > G.r_size - G.dr / 2
    · rw [if_pos h, if_neg (by linarith)]
      have := Mirrored.far (lo := G.dr / 2) h
      rwa [mul_comm] at this
    · rw [if_neg h]
      by_cases h' : p.pos.c0 < G.dr / 2
      · rw [if_pos h']
        have := Mirrored.near (hi := G.r_size - G.dr / 2) h'
        rwa [mul_comm] at this
      · rw [if_neg h']
        exact .none (by linarith) (by linarith)
  · simp only [reflectionOf, if_true] at ha ⊢
    obtain ⟨-, w1, -⟩ := (C24_absorbed_iff G p).1 ha
    have hpos : (bunchReflection G p).pos.c0
        = if p.pos.c0 < G.dr / 2 then G.dr - p.pos.c0 else p.pos.c0 := by
      unfold bunchReflection reflectLow
      dsimp only
      split_ifs <;> first | rfl | (exfalso; simp_all)
    rw [hpos]
    split_ifs with h
    · have := Mirrored.near (hi := G.r_size - G.dr / 2) h
      rwa [show 2 * (G.dr / 2) = G.dr by ring] at this
    · exact .none (by linarith) (by linarith)

/-- a node near the path of a move of less than a cell is less than two cells from the start -/
theorem NearPath.close {G : Geom} {rO zO rN zN : ℝ} {i k : ℤ} (h : NearPath G rO zO rN zN i k)
    (hr : |rN - rO| < G.dr) (hz : |zN - zO| < G.dz) :
    |(i : ℝ) * G.dr - rO| < 2 * G.dr ∧ |(k : ℝ) * G.dz - zO| < 2 * G.dz := by
  obtain ⟨h1, h2, h3, h4⟩ := h
  rw [abs_lt] at hr hz
  have a1 : rO - G.dr < min rO rN := lt_min (by linarith) (by linarith)
  have a2 : max rO rN < rO + G.dr := max_lt (by linarith) (by linarith)
  have a3 : zO - G.dz < min zO zN := lt_min (by linarith) (by linarith)
  have a4 : max zO zN < zO + G.dz := max_lt (by linarith) (by linarith)
  exact ⟨abs_lt.2 ⟨by linarith, by linarith⟩, abs_lt.2 ⟨by linarith, by linarith⟩⟩

/-- The node is less than two cells away from the point. -/
def Close (G : Geom) (r z : ℝ) (i k : ℤ) : Prop :=
  |(i : ℝ) * G.dr - r| < 2 * G.dr ∧ |(k : ℝ) * G.dz - z| < 2 * G.dz

/-- the second half of the step, its current and where both are -/
theorem move_where (b : Bool) {G : Geom} (hG : G.Valid) (hnr : 3 ≤ G.nr) (hnz : 3 ≤ G.nz) {dt : ℝ}
    (hdt : 0 < dt) (hdr : LIGHT_SPEED * dt ≤ G.dr) (hdz : LIGHT_SPEED * dt ≤ G.dz) {p : Particle}
    (hp : MidStep G dt p) :
    ∃ q, moveHalfReflectSingle b G dt p = some q ∧
      (∃ l, moveCalls G dt q = some l ∧
        ∀ c ∈ l, c.Ok G ∧ p.alive = true ∧ Close G p.posOld.c0 p.posOld.c2 c.i c.k) ∧
      Inside G (backVelocitySingle q) ∧
      (q.alive = true → p.alive = true ∧ |q.pos.c0 - p.posOld.c0| < G.dr ∧
        |q.pos.c2 - p.posOld.c2| < G.dz) := by
  unfold moveHalfReflectSingle
  by_cases ha : p.alive = true
  swap
  · rw [if_neg ha]
    refine ⟨p, rfl, ⟨[], ?_, by simp⟩, ?_, fun h => absurd h ha⟩
    · unfold moveCalls; rw [if_neg ha]
    · intro h
      rw [(backV_props p).1] at h; exact absurd h ha
  rw [if_pos ha]
  obtain ⟨h1, h2, h3, h4, h6, h7⟩ := hp ha
  obtain ⟨c0, c2⟩ := comp_lt h7
  have d2 := disp_lt hdt c2 hdz
  obtain ⟨s, hs0, hsd, hse⟩ := half_disp hdt h7 hdr
  have hd := hG.dr_pos
  have hnr' : (3:ℝ) ≤ G.nr := by exact_mod_cast hnr
  have hR : 2 * G.dr ≤ G.r_size := by rw [hG.r_size_eq]; nlinarith
  obtain ⟨na, n1, n2, -⟩ := sqrt_near (r := p.posOld.c0) (by linarith [h1.1]) hs0 hse
  rw [← h2] at n1 n2
  obtain ⟨na1, na2⟩ := abs_le.1 na
  have er : |(halfStep dt p).pos.c0 - p.posOld.c0| < G.dr := by
    simp only [halfStep]
    rw [abs_lt]; constructor <;> linarith
  have ez : (halfStep dt p).pos.c2 - p.posOld.c2 = p.vel.c2 * dt := by
    simp only [halfStep, h4]; ring
  obtain ⟨q1, q2, q3, q4, q5, q6, q7, q8⟩ := reflectionOf_safe b hG hnr hnz (halfStep dt p) h1 er
    (by rw [ez]; exact d2)
  have hc1 : (halfStep dt p).pos.c1 = p.vel.c1 * (dt / 2) := by simp [halfStep, h3]
  have ev : (halfStep dt p).vel = p.vel := rfl
  have em : (halfStep dt p).mass = p.mass := rfl
  have eo : (halfStep dt p).posOld = p.posOld := rfl
  rw [ev] at q3 q4 q5
  rw [em] at q6
  rw [eo] at q7
  rw [hc1] at q2
  -- where it ends
  have fin : (reflectionOf b G (halfStep dt p)).alive = true →
      G.dr / 2 ≤ Real.sqrt ((reflectionOf b G (halfStep dt p)).pos.c0 *
        (reflectionOf b G (halfStep dt p)).pos.c0 + (reflectionOf b G (halfStep dt p)).pos.c1 *
        (reflectionOf b G (halfStep dt p)).pos.c1) ∧
      Real.sqrt ((reflectionOf b G (halfStep dt p)).pos.c0 *
        (reflectionOf b G (halfStep dt p)).pos.c0 + (reflectionOf b G (halfStep dt p)).pos.c1 *
        (reflectionOf b G (halfStep dt p)).pos.c1) < G.r_size ∧
      |Real.sqrt ((reflectionOf b G (halfStep dt p)).pos.c0 *
        (reflectionOf b G (halfStep dt p)).pos.c0 + (reflectionOf b G (halfStep dt p)).pos.c1 *
        (reflectionOf b G (halfStep dt p)).pos.c1) - p.posOld.c0| < G.dr := by
    intro hqa
    have hm := reflectionOf_mirrored b hG hnr (halfStep dt p) h1.1 h1.2.1 er hqa
    have e0 : (halfStep dt p).pos.c0 = Real.sqrt ((p.posOld.c0 + p.vel.c0 * (dt / 2)) *
        (p.posOld.c0 + p.vel.c0 * (dt / 2)) + p.vel.c1 * (dt / 2) * (p.vel.c1 * (dt / 2)))
        + p.vel.c0 * (dt / 2) := by
      simp only [halfStep, h2]
    rw [e0] at hm
    rw [q2]
    exact (radius_bounds hd hR h1.1 h1.2.1 hs0 hsd hse hm).2
  obtain ⟨p', hp', -, -, -, -, hsp, -, -⟩ := C23_rotation_keeps_distance_and_speed
    (reflectionOf b G (halfStep dt p)) (Or.inl q1.ne')
  have hbp := backPosition_some q1
  rw [hbp] at hp'
  have ep := Option.some.inj hp'
  rw [hbp]
  refine ⟨_, rfl, ?_, ?_, ?_⟩
  · unfold moveCalls
    by_cases hqa : (reflectionOf b G (halfStep dt p)).alive = true
    · rw [if_pos hqa]
      obtain ⟨r1, -, r3⟩ := q8 hqa
      obtain ⟨f1, f2, f3⟩ := fin hqa
      dsimp only
      rw [q7]
      obtain ⟨J, hJ, hin⟩ := C74_current_safe G hG dt
        (reflectionOf b G (halfStep dt p)).charge (h1.offAxis hG)
        ⟨by linarith, f2.le, (r1.offAxis hG).2.2.1, (r1.offAxis hG).2.2.2⟩ f3 r3
      rw [hJ]
      refine ⟨_, rfl, ?_⟩
      intro c hc
      rcases List.mem_append.1 hc with hc | hc <;> obtain ⟨d, hd, rfl⟩ := List.mem_map.1 hc
      · obtain ⟨⟨g1, g2, g3, g4⟩, gn⟩ := hin d (by simp [hd])
        exact ⟨⟨Or.inl rfl, g1, g2, g3, g4⟩, ha, gn.close f3 r3⟩
      · obtain ⟨⟨g1, g2, g3, g4⟩, gn⟩ := hin d (by simp [hd])
        exact ⟨⟨Or.inr (Or.inr rfl), g1, g2, g3, g4⟩, ha, gn.close f3 r3⟩
    · rw [if_neg hqa]; exact ⟨[], rfl, by simp⟩
  · intro hqa
    have hqa' : (reflectionOf b G (halfStep dt p)).alive = true := by
      rw [(backV_props _).1] at hqa; exact hqa
    obtain ⟨r1, -, -⟩ := q8 hqa'
    obtain ⟨f1, f2, -⟩ := fin hqa'
    refine ⟨?_, ?_, ?_, ?_⟩
    · rw [(backV_props _).2.2.2]
      exact ⟨f1, f2, r1.2.2.1, r1.2.2.2⟩
    · rw [(backV_props _).2.2.2]
    · unfold backVelocitySingle backVelocity
      split_ifs <;> (dsimp only; rw [q6]; exact h6)
    · unfold backVelocitySingle
      rw [if_pos (by exact hqa'), ep, hsp]
      unfold speedSq at h7 ⊢
      rw [q4, q3, q5]
      exact h7
  · intro hqa
    exact ⟨ha, (fin hqa).2.2, (q8 hqa).2.2⟩

theorem move_inside (b : Bool) {G : Geom} (hG : G.Valid) (hnr : 3 ≤ G.nr) (hnz : 3 ≤ G.nz) {dt : ℝ}
    (hdt : 0 < dt) (hdr : LIGHT_SPEED * dt ≤ G.dr) (hdz : LIGHT_SPEED * dt ≤ G.dz) {p : Particle}
    (hp : MidStep G dt p) :
    ∃ q, moveHalfReflectSingle b G dt p = some q ∧
      (∃ l, moveCalls G dt q = some l ∧ ∀ c ∈ l, c.Ok G) ∧ Inside G (backVelocitySingle q) := by
  obtain ⟨q, h1, ⟨l, h2, h3⟩, h4, -⟩ := move_where b hG hnr hnz hdt hdr hdz hp
  exact ⟨q, h1, ⟨l, h2, fun c hc => (h3 c hc).1⟩, h4⟩

/-- the azimuthal current and where it is -/
theorem azimuthal_where {G : Geom} (hG : G.Valid) {dt : ℝ} (hdt : 0 < dt)
    (hdr : LIGHT_SPEED * dt ≤ G.dr) (hdz : LIGHT_SPEED * dt ≤ G.dz) {p : Particle}
    (hp : MidStep G dt p) : ∃ l, azimuthalCalls G p = some l ∧
      ∀ c ∈ l, c.Ok G ∧ p.alive = true ∧ Close G p.posOld.c0 p.posOld.c2 c.i c.k := by
  unfold azimuthalCalls
  by_cases ha : p.alive = true
  swap
  · rw [if_neg ha]; exact ⟨[], rfl, by simp⟩
  rw [if_pos ha]
  obtain ⟨h1, h2, h3, h4, h6, h7⟩ := hp ha
  obtain ⟨c0, c2⟩ := comp_lt h7
  have d2 := abs_lt.1 (disp_lt hdt c2 hdz)
  obtain ⟨s, hs0, hsd, hse⟩ := half_disp hdt h7 hdr
  have hd' := hG.dr_pos
  obtain ⟨i1, i2, i3, i4⟩ := h1
  obtain ⟨na, n1, n2, n3⟩ := sqrt_near (r := p.posOld.c0) (by linarith) hs0 hse
  obtain ⟨na1, na2⟩ := abs_le.1 na
  rw [← h2] at n1 n2 n3
  have e2 : p.vel.c2 * (dt / 2) = p.vel.c2 * dt / 2 := by ring
  have hoff : OffAxisWithinFarWalls G [p] := by
    intro q hq _
    rw [List.mem_singleton.1 hq]
    refine ⟨by linarith, by linarith, ?_⟩
    rw [h4, e2]; linarith
  have hne : ¬ (p.pos.c0 = 0) := by
    have := (hoff p (by simp) ha).1
    exact this.ne'
  obtain ⟨l, hl⟩ : ∃ l, azimuthalIncs G p.charge p.vel.c1 p.pos.c0 p.pos.c2 = some l := by
    unfold azimuthalIncs
    simp [hne]
  rw [hl]
  refine ⟨_, rfl, ?_⟩
  intro c hc
  obtain ⟨d, hd, rfl⟩ := List.mem_map.1 hc
  have := azimIncs_inGrid G hG [p] hoff d (by
    simp only [List.flatMap_cons, List.flatMap_nil, List.append_nil, azimIncsOf]
    rw [if_pos ha, hl]; exact hd)
  refine ⟨⟨Or.inr (Or.inl rfl), this.1, this.2.1, this.2.2.1, this.2.2.2⟩, ha, ?_⟩
  -- the corners of the cell of the particle
  have hz0 : 0 ≤ p.pos.c2 := by rw [h4, e2]; linarith
  have hz2 := hG.dz_pos
  obtain ⟨u1, u2⟩ := clampCell_spec hd' (show 0 ≤ p.pos.c0 by linarith)
  obtain ⟨w1, w2⟩ := clampCell_spec hz2 hz0
  have hnode : (d.i, d.k) ∈ l.map (fun d => (d.i, d.k)) := List.mem_map.2 ⟨d, hd, rfl⟩
  rw [azimuthalIncs_nodes G _ _ _ _ hl] at hnode
  generalize clamp0 (CELL_NUMBER p.pos.c0 G.dr) = ci at *
  generalize clamp0 (CELL_NUMBER p.pos.c2 G.dz) = ck at *
  have hz1 : |p.pos.c2 - p.posOld.c2| < G.dz := by
    rw [h4, e2, abs_lt]; constructor <;> linarith
  have hr1 : |p.pos.c0 - p.posOld.c0| < G.dr := by
    rw [abs_lt]; constructor <;> linarith
  rw [abs_lt] at hz1 hr1
  simp only [List.mem_cons, List.not_mem_nil, or_false, Prod.mk.injEq] at hnode
  have hi : ((d.i : ℝ) = ci ∨ (d.i : ℝ) = ci + 1) ∧ ((d.k : ℝ) = ck ∨ (d.k : ℝ) = ck + 1) := by
    rcases hnode with ⟨x, y⟩ | ⟨x, y⟩ | ⟨x, y⟩ | ⟨x, y⟩ <;> rw [x, y] <;> push_cast <;> simp
  unfold Close
  refine ⟨?_, ?_⟩
  · rcases hi.1 with e | e <;> rw [e, abs_lt] <;> constructor <;> linarith
  · rcases hi.2 with e | e <;> rw [e, abs_lt] <;> constructor <;> linarith

theorem azimuthal_mid {G : Geom} (hG : G.Valid) {dt : ℝ} (hdt : 0 < dt)
    (hdr : LIGHT_SPEED * dt ≤ G.dr) (hdz : LIGHT_SPEED * dt ≤ G.dz) {p : Particle}
    (hp : MidStep G dt p) : ∃ l, azimuthalCalls G p = some l ∧ ∀ c ∈ l, c.Ok G := by
  obtain ⟨l, h1, h2⟩ := azimuthal_where hG hdt hdr hdz hp
  exact ⟨l, h1, fun c hc => (h2 c hc).1⟩

/-! ## C76 -/

/-- **C76** (any motion, one cycle). If the macroparticles are inside, in the half plane and slower
than light, and none is in the last half cell, the cycle cannot fault, has a result, and afterwards the
macroparticles are again inside, in the half plane and slower than light (but one may be in the last
half cell). -/
theorem C76_any_cycle_partial (G : Geom) (hG : G.Valid) (hnr : 3 ≤ G.nr) (hnz : 3 ≤ G.nz)
    (mode : PusherMode) (hmode : mode = .borisRelativistic ∨ mode = .vay) (dt : ℝ) (hdt : 0 < dt)
    (hdr : LIGHT_SPEED * dt ≤ G.dr) (hdz : LIGHT_SPEED * dt ≤ G.dz) (m : Mem Loc)
    (hm : Initialised G m) (S : List Species) (hS : ∀ p ∈ parts S, Inside G p)
    (hlast : ∀ p ∈ parts S, ¬ InLastHalfCell G p) :
    ¬ CycleFault G mode dt m S ∧ (∃ m' S', Cycle G mode dt m S m' S') ∧
      ∀ m' S', Cycle G mode dt m S m' S' → Initialised G m' ∧ ∀ p ∈ parts S', Inside G p := by
  have hreg : ∀ p ∈ parts S, p.alive = true → InRegion G p.pos.c0 p.pos.c2 := by
    intro p hp ha
    obtain ⟨⟨h1, -, h3, h4⟩, -⟩ := hS p hp ha
    refine ⟨h1, ?_, h3, h4⟩
    by_contra hcon
    exact hlast p hp ⟨ha, not_le.1 hcon⟩
  exact cycle_core hG (Mid := MidStep G dt) (Rdy := Inside G)
    (fun p hp => azimuthal_mid hG hdt hdr hdz hp)
    (fun b p hp => move_inside b hG hnr hnz hdt hdr hdz hp) hm hreg
    (fun _ _ _ _ p hp g => stepV_mid hG hdt hdr hmode (hS p hp) (hreg p hp) g)

/-- **C76** (any motion, whole simulations). With any azimuthal motion, a simulation can fault in
exactly one way: a cycle faults if and only if it starts with a live macroparticle in the last half
cell before the outer wall. -/
theorem C76_only_fault_partial (G : Geom) (hG : G.Valid) (hnr : 3 ≤ G.nr) (hnz : 3 ≤ G.nz)
    (mode : PusherMode) (hmode : mode = .borisRelativistic ∨ mode = .vay) (dt : ℝ) (hdt : 0 < dt)
    (hdr : LIGHT_SPEED * dt ≤ G.dr) (hdz : LIGHT_SPEED * dt ≤ G.dz) (tbl : ℤ → ℤ → Option ℝ)
    (inject : ℕ → List Species → List Species)
    (hinj : ∀ n S, (∀ p ∈ parts S, Inside G p) → ∀ p ∈ parts (inject n S), Inside G p)
    (S0 : List Species) (hS0 : ∀ p ∈ parts S0, Inside G p) (n : ℕ) (m : Mem Loc) (S : List Species)
    (h : SimReaches G mode dt tbl inject S0 n m S) :
    (∀ p ∈ parts S, Inside G p) ∧
    (CycleFault G mode dt m (inject n S) ↔ ∃ p ∈ parts (inject n S), InLastHalfCell G p) ∧
    ((∀ p ∈ parts (inject n S), ¬ InLastHalfCell G p) →
      ∃ m' S', SimReaches G mode dt tbl inject S0 (n + 1) m' S') := by
  obtain ⟨m1, m0, r1, r2, hr⟩ := h
  have hst : Initialised G m0 := by
    have hrep := Started.rep hG ⟨_, m1, r1, r2⟩
    exact fun l hl => by rw [hrep l hl]; rfl
  have inv : Initialised G m ∧ ∀ p ∈ parts S, Inside G p := by
    clear r2 r1
    induction hr with
    | start m S => exact ⟨hst, hS0⟩
    | @step n _ m1 m2 _ S1 S2 _ c ih =>
      obtain ⟨i1, i2⟩ := ih hS0 hst
      have hreg : ∀ p ∈ parts (inject n S1), ¬ InLastHalfCell G p := by
        intro p hp ⟨ha, hl⟩
        obtain ⟨_, _, _, S1', _, _, r3, _, _⟩ := c
        obtain ⟨s, hs, hp⟩ := List.mem_flatMap.1 hp
        obtain ⟨s', -, hss⟩ := forall2_left r3 hs
        obtain ⟨p', -, hpp⟩ := forall2_left hss.2 hp
        have := (hpp.1 ha).2.1
        linarith
      exact (C76_any_cycle_partial G hG hnr hnz mode hmode dt hdt hdr hdz m1 i1 _ (hinj n S1 i2)
        hreg).2.2 _ _ c
  obtain ⟨i1, i2⟩ := inv
  have i3 := hinj n S i2
  refine ⟨i2, ⟨?_, ?_⟩, ?_⟩
  · intro hf
    by_contra hcon
    push Not at hcon
    exact (C76_any_cycle_partial G hG hnr hnz mode hmode dt hdt hdr hdz m i1 _ i3 hcon).1 hf
  · rintro ⟨p, hp, ha, hl⟩
    obtain ⟨n1, s1, q1⟩ := hRegion_spec hG dt i1.rep
    obtain ⟨s2, -⟩ := resetJ_spec hG q1
    refine Or.inr ⟨n1, s1.sound.2.1, Or.inr ⟨_, s2.sound.2.1, Or.inl ⟨p, hp, ha, Or.inl ?_⟩⟩⟩
    rintro ⟨-, h, -⟩
    linarith
  · intro hn
    obtain ⟨-, ⟨m', S', c⟩, -⟩ :=
      C76_any_cycle_partial G hG hnr hnz mode hmode dt hdt hdr hdz m i1 _ i3 hn
    exact ⟨m', S', m1, m0, r1, r2, .step hr c⟩

/-- Hypotheses: a particle that moves around the axis at 0.8 c can be simulated for a cycle. -/
example : ∃ m S, SimReaches demoGeom .vay dtLight (fun _ _ => none) (fun _ S => S)
    [⟨false, [spinner]⟩] 1 m S ∧ ∀ p ∈ parts S, Inside demoGeom p := by
  have hin : ∀ p ∈ parts [⟨false, [spinner]⟩], Inside demoGeom p := by
    intro p hp
    simp only [parts, List.flatMap_cons, List.flatMap_nil, List.append_nil, List.mem_singleton] at hp
    subst hp
    intro _
    refine ⟨⟨?_, ?_, ?_, ?_⟩, rfl, ?_, ?_⟩ <;> norm_num [spinner, demoGeom, speedSq, LIGHT_SPEED]
  obtain ⟨x, s1, q1⟩ := setup_spec demoGeom_valid (fun _ => none)
  obtain ⟨y, s2, q2⟩ := pml_spec (fun _ _ => none) q1
  have key := C76_only_fault_partial demoGeom demoGeom_valid (by norm_num [demoGeom])
    (by norm_num [demoGeom]) .vay (Or.inr rfl) dtLight (by norm_num [dtLight])
    (by norm_num [dtLight, demoGeom, LIGHT_SPEED]) (by norm_num [dtLight, demoGeom, LIGHT_SPEED])
    (fun _ _ => none) (fun _ S => S) (fun _ _ h => h) _ hin
  obtain ⟨-, -, h⟩ := key 0 y _ ⟨x, y, s1.sound.2.1, s2.sound.2.1, .start _ _⟩
  obtain ⟨m, S, hr⟩ := h (by
    intro p hp
    simp only [parts, List.flatMap_cons, List.flatMap_nil, List.append_nil, List.mem_singleton] at hp
    subst hp
    rintro ⟨-, hl⟩
    norm_num [spinner, demoGeom] at hl)
  exact ⟨m, S, hr, (key 1 m S hr).1⟩

end Verif
