import Verif.CycleParts
import Verif.PusherSym

/-!
# Images of macroparticles

A macroparticle with another weight, in fields of another strength, or reflected in the plane of the grid, goes through the same
cycle.
-/

namespace Verif

/-! ## Specification -/

/-- charge times `κ`, mass times `κ λ`, azimuthal components times `σ` -/
def imageOf (κ lam σ : ℝ) (p : Particle) : Particle where
  alive := p.alive
  pos := ⟨p.pos.c0, σ * p.pos.c1, p.pos.c2⟩
  posOld := p.posOld
  vel := ⟨p.vel.c0, σ * p.vel.c1, p.vel.c2⟩
  charge := κ * p.charge
  mass := κ * lam * p.mass
  sinTheta := σ * p.sinTheta
  cosTheta := p.cosTheta

/-- an increment of a current, for charges times `κ` and azimuthal components times `σ` -/
def imageCall (κ σ : ℝ) (c : JCall) : JCall := ⟨c.arr, c.i, c.k, (if c.arr = .jphi then κ * σ else κ) * c.v⟩

/-! ## Push -/

/-- the reflection as signs of polar and axial vectors -/
def Signs.ofPhi (σ : ℝ) (h : σ * σ = 1) : Signs where
  p0 := 1
  p1 := σ
  p2 := 1
  a0 := σ
  a1 := 1
  a2 := σ
  h0 := by norm_num
  h1 := h
  h2 := by norm_num
  k0 := h
  k1 := by norm_num
  k2 := h
  x01 := by norm_num
  x02 := by ring
  x10 := h
  x12 := h
  x20 := by ring
  x21 := by norm_num

theorem push_image {κ lam σ : ℝ} (hκ : κ ≠ 0) (hl : lam ≠ 0) (hσ : σ * σ = 1) {mode : PusherMode}
    (hv : mode = .vay → lam ^ 2 = 1) (g : Bool) (dt q m : ℝ) (e h v : V3) :
    push mode g dt (κ * q) (κ * lam * m) ⟨lam * e.c0, lam * (σ * e.c1), lam * e.c2⟩
        ⟨lam * (σ * h.c0), lam * h.c1, lam * (σ * h.c2)⟩ ⟨v.c0, σ * v.c1, v.c2⟩
      = (push mode g dt q m e h v).map fun v => ⟨v.c0, σ * v.c1, v.c2⟩ := by
  have hpol : ∀ v : V3, (Signs.ofPhi σ hσ).pol v = ⟨v.c0, σ * v.c1, v.c2⟩ := by
    intro v; unfold Signs.pol Signs.ofPhi; simp
  have hax : ∀ v : V3, (Signs.ofPhi σ hσ).ax v = ⟨σ * v.c0, v.c1, σ * v.c2⟩ := by
    intro v; unfold Signs.ax Signs.ofPhi; simp
  have hk : κ * q * dt / (2 * (κ * lam * m)) = (q * dt / (2 * m)) / lam := by
    rw [show κ * q * dt = κ * (q * dt) by ring, show 2 * (κ * lam * m) = κ * (2 * m * lam) by ring,
      mul_div_mul_left _ _ hκ, div_mul_eq_div_div]
  have h1 : ∀ x y : ℝ, lam * x * (y / lam) = x * y := by
    intro x y; rw [mul_comm lam x, mul_assoc, mul_div_cancel₀ _ hl]
  have h2 : ∀ x y : ℝ, lam * x * (MAGN_CONST * (y / lam)) = x * (MAGN_CONST * y) := by
    intro x y; rw [← mul_div_assoc, h1]
  have := (Signs.ofPhi σ hσ).push mode g dt dt q (κ * q) m (κ * lam * m) e
    ⟨lam * e.c0, lam * (σ * e.c1), lam * e.c2⟩ h ⟨lam * (σ * h.c0), lam * h.c1, lam * (σ * h.c2)⟩ v ?_ ?_ ?_ ?_
  · simp only [hpol] at this
    rw [this]
    congr 1
    funext v
    exact hpol v
  · have : κ * lam ≠ 0 := mul_ne_zero hκ hl
    constructor
    · intro h; rw [show 2 * (κ * lam * m) = κ * lam * (2 * m) by ring, h, mul_zero]
    · intro h
      rw [show 2 * (κ * lam * m) = κ * lam * (2 * m) by ring] at h
      exact (mul_eq_zero.1 h).resolve_left this
  · rw [hk, hpol]
    unfold V3.smul
    dsimp only
    simp only [h1]
    ext <;> dsimp only <;> ring
  · rw [hk, hax]
    unfold V3.smul
    dsimp only
    simp only [h2]
    ext <;> dsimp only <;> ring
  · intro hm
    rw [hk, div_pow, hv hm, div_one]

theorem sq_image {σ : ℝ} (hσ : σ * σ = 1) (x y : ℝ) : x * x + σ * y * (σ * y) = x * x + y * y := by
  have : σ * y * (σ * y) = (σ * σ) * (y * y) := by ring
  rw [this, hσ, one_mul]

theorem backPosition_image {κ lam σ : ℝ} (hσ : σ * σ = 1) (p : Particle) :
    backPosition (imageOf κ lam σ p) = (backPosition p).map (imageOf κ lam σ) := by
  unfold backPosition imageOf
  dsimp only
  rw [sq_image hσ]
  split_ifs
  · rfl
  · simp only [Option.map_some, mul_zero, mul_div_assoc]

theorem stepV_image {κ lam σ : ℝ} (hκ : κ ≠ 0) (hl : lam ≠ 0) (hσ : σ * σ = 1) {mode : PusherMode}
    (hv : mode = .vay → lam ^ 2 = 1) {G : Geom} {F F' : Fields} (g : Bool) (dt : ℝ) (p : Particle)
    (hE : p.alive = true → valE G F' p.pos.c0 p.pos.c2 = ⟨lam * (valE G F p.pos.c0 p.pos.c2).c0,
      lam * (σ * (valE G F p.pos.c0 p.pos.c2).c1), lam * (valE G F p.pos.c0 p.pos.c2).c2⟩)
    (hH : p.alive = true → valH G F' p.pos.c0 p.pos.c2 = ⟨lam * (σ * (valH G F p.pos.c0 p.pos.c2).c0),
      lam * (valH G F p.pos.c0 p.pos.c2).c1, lam * (σ * (valH G F p.pos.c0 p.pos.c2).c2)⟩) :
    stepVSingle G F' mode g dt (imageOf κ lam σ p) = (stepVSingle G F mode g dt p).map (imageOf κ lam σ) := by
  unfold stepVSingle
  by_cases ha : p.alive = true
  · have ha' : (imageOf κ lam σ p).alive = true := ha
    rw [if_pos ha, if_pos ha']
    have := push_image hκ hl hσ hv g dt p.charge p.mass (valE G F p.pos.c0 p.pos.c2) (valH G F p.pos.c0 p.pos.c2) p.vel
    rw [← hE ha, ← hH ha] at this
    show (push mode g dt (κ * p.charge) (κ * lam * p.mass) (valE G F' p.pos.c0 p.pos.c2) (valH G F' p.pos.c0 p.pos.c2)
      ⟨p.vel.c0, σ * p.vel.c1, p.vel.c2⟩).bind _ = _
    rw [this, Option.bind_map, Option.map_bind]
    congr 1
    funext v
    simp only [Function.comp]
    rw [← backPosition_image hσ]
    congr 1
    unfold imageOf halfStep dumpOld
    dsimp only
    congr 2
    ring
  · have ha' : ¬ (imageOf κ lam σ p).alive = true := ha
    rw [if_neg ha, if_neg ha']
    rfl

/-! ## Second half -/

theorem reflectionOf_image (κ lam σ : ℝ) (b : Bool) (G : Geom) (p : Particle) :
    reflectionOf b G (imageOf κ lam σ p) = imageOf κ lam σ (reflectionOf b G p) := by
  unfold reflectionOf bunchReflection reflection reflectLow imageOf
  dsimp only
  cases b
  · simp only [Bool.false_eq_true, if_false]
    split_ifs <;> first | rfl | (exfalso; simp_all)
  · simp only [if_true]
    split_ifs <;> first | rfl | (exfalso; simp_all)

theorem move_image {κ lam σ : ℝ} (hσ : σ * σ = 1) (b : Bool) (G : Geom) (dt : ℝ) (p : Particle) :
    moveHalfReflectSingle b G dt (imageOf κ lam σ p) = (moveHalfReflectSingle b G dt p).map (imageOf κ lam σ) := by
  unfold moveHalfReflectSingle
  by_cases ha : p.alive = true
  · have ha' : (imageOf κ lam σ p).alive = true := ha
    rw [if_pos ha, if_pos ha', ← backPosition_image hσ, ← reflectionOf_image]
    congr 2
    unfold imageOf halfStep
    dsimp only
    congr 2
    ring
  · have ha' : ¬ (imageOf κ lam σ p).alive = true := ha
    rw [if_neg ha, if_neg ha']
    rfl

theorem back_image {κ lam σ : ℝ} (hσ : σ * σ = 1) (p : Particle) :
    backVelocitySingle (imageOf κ lam σ p) = imageOf κ lam σ (backVelocitySingle p) := by
  unfold backVelocitySingle
  by_cases ha : p.alive = true
  · have ha' : (imageOf κ lam σ p).alive = true := ha
    rw [if_pos ha, if_pos ha']
    unfold backVelocity imageOf
    dsimp only
    have e : ∀ s v : ℝ, σ * s * (σ * v) = s * v := by
      intro s v
      have : σ * s * (σ * v) = (σ * σ) * (s * v) := by ring
      rw [this, hσ, one_mul]
    rw [e, e]
    congr 2
    ring
  · have ha' : ¬ (imageOf κ lam σ p).alive = true := ha
    rw [if_neg ha, if_neg ha']

/-! ## Currents -/

/-- increments times `w` -/
def scaleIncs (w : ℝ) (l : List Inc) : List Inc := l.map fun d => ⟨d.i, d.k, w * d.v⟩

theorem azimuthal_scale (G : Geom) (κ σ q v r z : ℝ) :
    azimuthalIncs G (κ * q) (σ * v) r z = (azimuthalIncs G q v r z).map (scaleIncs (κ * σ)) := by
  unfold azimuthalIncs scaleIncs
  dsimp only
  split_ifs
  · rfl
  · simp only [Option.map_some, List.map_cons, List.map_nil]
    congr 2 <;> congr 1 <;> ring_nf
  · simp only [Option.map_some, List.map_cons, List.map_nil]
    congr 2 <;> congr 1 <;> ring_nf

/-- the same for both arrays -/
def JIncs.scale (w : ℝ) (J : JIncs) : JIncs := ⟨scaleIncs w J.jr, scaleIncs w J.jz⟩

theorem scale_density_z (w q r dr dz dt : ℝ) : DENSITY_Z (w * q) r dr dz dt = w * DENSITY_Z q r dr dz dt := by
  unfold DENSITY_Z; rw [mul_div_assoc]
theorem scale_density_r (w q r dr dz dt : ℝ) : DENSITY_R (w * q) r dr dz dt = w * DENSITY_R q r dr dz dt := by
  unfold DENSITY_R; rw [mul_div_assoc]
theorem scale_density_strict (w q r dr dz dt : ℝ) : DENSITY_STRICT (w * q) r dr dz dt = w * DENSITY_STRICT q r dr dz dt := by
  unfold DENSITY_STRICT; rw [mul_div_assoc]

theorem simple_scale (G : Geom) (dt w q rN zN rO zO : ℝ) (i k : ℤ) :
    simpleCurrent G dt (w * q) rN zN rO zO i k = (simpleCurrent G dt q rN zN rO zO i k).map (JIncs.scale w) := by
  unfold simpleCurrent
  simp only [scale_density_z, scale_density_r, mul_div_assoc w, mul_assoc w]
  split_ifs <;> rfl

theorem strict_scale (G : Geom) (dt w q rN zN rO zO : ℝ) :
    strictMotion G dt (w * q) rN zN rO zO = (strictMotion G dt q rN zN rO zO).map (JIncs.scale w) := by
  unfold strictMotion
  simp only [scale_density_strict, mul_div_assoc w, mul_assoc w, ← mul_ite]
  split_ifs <;> first
    | rfl
    | simp [JIncs.scale, scaleIncs, JIncs.empty]

theorem seqJ_scale (w : ℝ) (a b : Option JIncs) :
    seqJ (a.map (JIncs.scale w)) (b.map (JIncs.scale w)) = (seqJ a b).map (JIncs.scale w) := by
  unfold seqJ
  cases a with
  | none => rfl
  | some a =>
    cases b with
    | none => rfl
    | some b => simp [JIncs.scale, JIncs.append, scaleIncs]

theorem current_scale (G : Geom) (dt w q rN zN rO zO : ℝ) :
    currentOfMove G dt (w * q) rN zN rO zO = (currentOfMove G dt q rN zN rO zO).map (JIncs.scale w) := by
  unfold currentOfMove
  simp only [simple_scale, strict_scale, seqJ_scale]
  have e : some JIncs.empty = (some JIncs.empty).map (JIncs.scale w) := rfl
  conv_lhs => rw [e]
  simp only [← apply_ite (Option.map (JIncs.scale w))]

theorem callsOf_scale_phi (κ σ : ℝ) (l : List Inc) :
    callsOf .jphi (scaleIncs (κ * σ) l) = (callsOf .jphi l).map (imageCall κ σ) := by
  unfold callsOf scaleIncs imageCall
  rw [List.map_map, List.map_map]
  rfl

theorem callsOf_scale {a : Arr} (ha : a ≠ .jphi) (κ σ : ℝ) (l : List Inc) :
    callsOf a (scaleIncs κ l) = (callsOf a l).map (imageCall κ σ) := by
  unfold callsOf scaleIncs imageCall
  rw [List.map_map, List.map_map]
  apply List.map_congr_left
  intro d _
  simp [ha]

theorem azimuthalCalls_image (G : Geom) (κ lam σ : ℝ) (p : Particle) :
    azimuthalCalls G (imageOf κ lam σ p) = (azimuthalCalls G p).map (List.map (imageCall κ σ)) := by
  unfold azimuthalCalls
  by_cases ha : p.alive = true
  · have ha' : (imageOf κ lam σ p).alive = true := ha
    rw [if_pos ha, if_pos ha']
    show (azimuthalIncs G (κ * p.charge) (σ * p.vel.c1) p.pos.c0 p.pos.c2).map _ = _
    rw [azimuthal_scale, Option.map_map, Option.map_map]
    congr 1
    funext l
    exact callsOf_scale_phi κ σ l
  · have ha' : ¬ (imageOf κ lam σ p).alive = true := ha
    rw [if_neg ha, if_neg ha']
    rfl

theorem moveCalls_image (G : Geom) (dt κ lam σ : ℝ) (p : Particle) :
    moveCalls G dt (imageOf κ lam σ p) = (moveCalls G dt p).map (List.map (imageCall κ σ)) := by
  unfold moveCalls
  by_cases ha : p.alive = true
  · have ha' : (imageOf κ lam σ p).alive = true := ha
    rw [if_pos ha, if_pos ha']
    show (currentOfMove G dt (κ * p.charge) p.pos.c0 p.pos.c2 p.posOld.c0 p.posOld.c2).map _ = _
    rw [current_scale, Option.map_map, Option.map_map]
    congr 1
    funext J
    simp only [Function.comp, JIncs.scale, List.map_append]
    rw [callsOf_scale (by decide), callsOf_scale (by decide)]
  · have ha' : ¬ (imageOf κ lam σ p).alive = true := ha
    rw [if_neg ha, if_neg ha']
    rfl

/-! ## The cycle of a macroparticle -/

theorem partCycle_image {κ lam σ : ℝ} (hκ : κ ≠ 0) (hl : lam ≠ 0) (hσ : σ * σ = 1) {mode : PusherMode}
    (hv : mode = .vay → lam ^ 2 = 1) {G : Geom} {F F' : Fields} {dt : ℝ}
    (hE : ∀ r z, InRegion G r z → valE G F' r z = ⟨lam * (valE G F r z).c0, lam * (σ * (valE G F r z).c1),
      lam * (valE G F r z).c2⟩ ∧ valH G F' r z = ⟨lam * (σ * (valH G F r z).c0), lam * (valH G F r z).c1,
      lam * (σ * (valH G F r z).c2)⟩) {b : Bool} {p p' : Particle} {K : List JCall}
    (h : PartCycle G F mode dt b p K p') :
    PartCycle G F' mode dt b (imageOf κ lam σ p) (K.map (imageCall κ σ)) (imageOf κ lam σ p') := by
  obtain ⟨h1, g, q, h2, q2, la, lc, h3, h4, h5, rfl, rfl⟩ := h
  refine ⟨h1, g, imageOf κ lam σ q, ?_, imageOf κ lam σ q2, la.map (imageCall κ σ), lc.map (imageCall κ σ), ?_, ?_, ?_,
    List.map_append, ?_⟩
  · rw [stepV_image hκ hl hσ hv g dt p (fun ha => (hE _ _ (h1 ha)).1) (fun ha => (hE _ _ (h1 ha)).2), h2]
    rfl
  · rw [azimuthalCalls_image, h3]; rfl
  · rw [move_image hσ, h4]; rfl
  · rw [moveCalls_image, h5]; rfl
  · rw [back_image hσ]

/-- what is not used before it is set makes no difference -/
theorem partCycle_same {G : Geom} {F : Fields} {mode : PusherMode} {dt : ℝ} {b : Bool} {p q p' : Particle}
    {K : List JCall} (hpq : SamePart p q) (h : PartCycle G F mode dt b p K p') :
    ∃ q', PartCycle G F mode dt b q K q' ∧ SamePart p' q' := by
  obtain ⟨h1, g, p1, h2, p2, la, lc, h3, h4, h5, rfl, rfl⟩ := h
  obtain ⟨q1, e1, e2⟩ : ∃ q1, stepVSingle G F mode g dt q = some q1 ∧ SameMid p1 q1 := by
    rw [hpq.form]
    obtain ⟨o, ho⟩ : ∃ o, o = q.posOld := ⟨_, rfl⟩
    obtain ⟨s, hs⟩ : ∃ s, s = q.sinTheta := ⟨_, rfl⟩
    obtain ⟨c, hc⟩ : ∃ c, c = q.cosTheta := ⟨_, rfl⟩
    rw [← ho, ← hs, ← hc]
    clear hpq ho hs hc h3 h4 h5 h1
    unfold stepVSingle at h2 ⊢
    dsimp only at h2 ⊢
    by_cases ha : p.alive = true
    · rw [if_pos ha] at h2 ⊢
      obtain ⟨v, hv, h2⟩ := Option.bind_eq_some_iff.1 h2
      rw [hv, Option.bind_some]
      unfold backPosition halfStep dumpOld at h2 ⊢
      dsimp only at h2 ⊢
      split_ifs at h2 ⊢
      cases h2
      exact ⟨_, rfl, ⟨rfl, rfl, rfl, rfl, rfl⟩, fun _ => rfl, fun _ => rfl, fun _ => rfl⟩
    · rw [if_neg ha] at h2 ⊢
      cases h2
      exact ⟨_, rfl, ⟨rfl, rfl, rfl, rfl, rfl⟩, fun h => absurd h ha, fun h => absurd h ha, fun h => absurd h ha⟩
  obtain ⟨q2, f1⟩ : ∃ q2, moveHalfReflectSingle b G dt q1 = some q2 := by
    unfold moveHalfReflectSingle at h4 ⊢
    by_cases ha : p1.alive = true
    · rw [← e2.alive, if_pos ha]
      rw [if_pos ha] at h4
      have e : halfStep dt q1 = { halfStep dt p1 with posOld := q1.posOld, sinTheta := q1.sinTheta, cosTheta := q1.cosTheta } := by
        conv_lhs => rw [e2.form]
        rfl
      rw [e, reflectionOf_congr]
      unfold backPosition at h4 ⊢
      dsimp only at h4 ⊢
      split_ifs at h4 ⊢
      exact ⟨_, rfl⟩
    · rw [← e2.alive, if_neg ha]
      exact ⟨_, rfl⟩
  have f2 := move_same e2 h4 f1
  refine ⟨backVelocitySingle q2, ⟨?_, g, q1, e1, q2, la, lc, ?_, f1, ?_, rfl, rfl⟩, backV_same f2⟩
  · rw [← hpq.alive, ← hpq.pos]; exact h1
  · rw [← azimuthal_same G e2.toSamePart, h3]
  · rw [← moveCalls_same G dt f2, h5]

end Verif
