import Verif.CycleImage
import Verif.Population

/-!
# C95: symmetries of the whole simulation

If all charges are multiplied by a number and all masses by its square, or if the simulation is reflected in the plane of the grid,
then the whole run goes as before: fields and currents are multiplied by this number and reflected.
-/

namespace Verif

/-! ## Specification -/

/-- What an array is multiplied by, if fields and currents become `lam` times as strong and what is azimuthal (or, for the
magnetic field, in the plane of the grid) is multiplied by `σ`. -/
def imageFactor (lam σ : ℝ) : Arr → ℝ
  | .er | .ez | .hphi | .hphih | .jr | .jz => lam
  | .ephi | .hr | .hrh | .hz | .hzh | .jphi => lam * σ
  | .eps | .sig => 1

/-- On all nodes of the grid the arrays of `n` are those of `m`, multiplied. -/
def FieldImage (G : Geom) (lam σ : ℝ) (m n : Mem Loc) : Prop :=
  ∀ a i k, Init G ⟨a, i, k⟩ → ∃ v, m ⟨a, i, k⟩ = some v ∧ n ⟨a, i, k⟩ = some (imageFactor lam σ a * v)

/-- `q` is at the place of `p` and moves in the same way, up to the sign of the azimuthal velocity; its charge is `lam` times and
its mass `lam ^ 2` times that of `p`. -/
structure ParticleImage (lam σ : ℝ) (p q : Particle) : Prop where
  alive : q.alive = p.alive
  pos : q.pos = ⟨p.pos.c0, σ * p.pos.c1, p.pos.c2⟩
  vel : q.vel = ⟨p.vel.c0, σ * p.vel.c1, p.vel.c2⟩
  charge : q.charge = lam * p.charge
  mass : q.mass = lam ^ 2 * p.mass

/-- The macroparticles of `T`, one after the other, are images of those of `S`. -/
def MatterImage (lam σ : ℝ) (S T : List Species) : Prop :=
  List.Forall₂ (fun x y => y.1 = x.1 ∧ ParticleImage lam σ x.2 y.2) (tagged S) (tagged T)

/-! ## Fields -/

/-- the multiplied fields -/
def Fields.image (lam σ : ℝ) (F : Fields) : Fields := fun a i k => imageFactor lam σ a * F a i k

theorem hStep_image (G : Geom) (dt lam σ : ℝ) (F : Fields) :
    hStep G dt (F.image lam σ) = (hStep G dt F).image lam σ := by
  funext a i k
  cases a <;> simp only [hStep, Fields.image, imageFactor, alphaR, alphaPhi, alphaZ] <;> split_ifs <;> ring

theorem eStep_image (G : Geom) (dt lam σ : ℝ) (F : Fields) :
    eStep G dt (F.image lam σ) = (eStep G dt F).image lam σ := by
  funext a i k
  cases a <;> simp only [eStep, Fields.image, imageFactor, newEr, newEphi, newEz, newEz0, kE, kH, one_mul] <;> split_ifs <;> ring

theorem reset_image (G : Geom) (lam σ : ℝ) (F : Fields) :
    (F.image lam σ).write (wResetJ G) = (F.write (wResetJ G)).image lam σ := by
  funext a i k
  cases a <;> simp only [Fields.write, wResetJ, Fields.image, Option.getD_none] <;> split_ifs <;> simp

theorem FieldImage.rep {G : Geom} {lam σ : ℝ} {m n : Mem Loc} (h : FieldImage G lam σ m n) :
    Rep G (fieldsOf m) m ∧ Rep G ((fieldsOf m).image lam σ) n := by
  constructor
  · rintro ⟨a, i, k⟩ hl
    obtain ⟨v, h1, -⟩ := h a i k hl
    rw [h1]
    simp only [Fields.at, fieldsOf, h1, Option.getD_some]
  · rintro ⟨a, i, k⟩ hl
    obtain ⟨v, h1, h2⟩ := h a i k hl
    rw [h2]
    simp only [Fields.at, Fields.image, fieldsOf, h1, Option.getD_some]

theorem FieldImage.of {G : Geom} {lam σ : ℝ} {m n : Mem Loc} {F : Fields} (h1 : Rep G F m) (h2 : Rep G (F.image lam σ) n) :
    FieldImage G lam σ m n := fun a i k hl => ⟨F a i k, h1 _ hl, h2 _ hl⟩

theorem val4_mul (c : ℝ) (f : ℤ → ℤ → ℝ) (i k : ℤ) (x1 x2 x3 x4 x5 x6 x7 : ℝ) :
    val4 (fun i k => c * f i k) i k x1 x2 x3 x4 x5 x6 x7 = c * val4 f i k x1 x2 x3 x4 x5 x6 x7 := by
  unfold val4; ring

theorem val_image (G : Geom) (lam σ : ℝ) (F : Fields) (r z : ℝ) :
    valE G (F.image lam σ) r z = ⟨lam * (valE G F r z).c0, lam * (σ * (valE G F r z).c1), lam * (valE G F r z).c2⟩ ∧
    valH G (F.image lam σ) r z = ⟨lam * (σ * (valH G F r z).c0), lam * (valH G F r z).c1, lam * (σ * (valH G F r z).c2)⟩ := by
  have hH : ∀ c f zs, valHalf G (fun i k => c * f i k) zs r z = c * valHalf G f zs r z := fun c f zs => val4_mul c f _ _ _ _ _ _ _ _ _
  have hI : ∀ c f zs, valInt G (fun i k => c * f i k) zs r z = c * valInt G f zs r z := fun c f zs => val4_mul c f _ _ _ _ _ _ _ _ _
  constructor
  · unfold valE
    have e1 : (F.image lam σ) .er = fun i k => lam * F .er i k := rfl
    have e2 : (F.image lam σ) .ephi = fun i k => lam * σ * F .ephi i k := rfl
    have e3 : (F.image lam σ) .ez = fun i k => lam * F .ez i k := rfl
    rw [e1, e2, e3, hH, hI, hI, mul_assoc]
  · unfold valH
    have e1 : (F.image lam σ) .hrh = fun i k => lam * σ * F .hrh i k := rfl
    have e2 : (F.image lam σ) .hphih = fun i k => lam * F .hphih i k := rfl
    have e3 : (F.image lam σ) .hzh = fun i k => lam * σ * F .hzh i k := rfl
    rw [e1, e2, e3, hH, hI, hH, mul_assoc, mul_assoc]

/-! ## Increments -/

theorem callSum_image {lam σ : ℝ} {l : List JCall} (h : ∀ c ∈ l, Arr.isCurrent c.arr) (a : Arr) (i k : ℤ) :
    callSum (l.map (imageCall lam σ)) a i k = imageFactor lam σ a * callSum l a i k := by
  induction l with
  | nil => simp
  | cons c l ih =>
    rw [List.map_cons, callSum_cons, callSum_cons, ih (fun d hd => h d (by simp [hd])), mul_add]
    congr 1
    have e : imageCall lam σ c = ⟨c.arr, c.i, c.k, (if c.arr = .jphi then lam * σ else lam) * c.v⟩ := rfl
    rw [e]
    dsimp only
    split_ifs with h1 h2 h2
    · rw [← h1.1, h2]; rfl
    · rcases h c (by simp) with h3 | h3 | h3
      · rw [← h1.1, h3]; rfl
      · exact absurd h3 h2
      · rw [← h1.1, h3]; rfl
    · rw [mul_zero]

theorem partCycle_current {G : Geom} {F : Fields} {mode : PusherMode} {dt : ℝ} {b : Bool} {p p' : Particle} {K : List JCall}
    (h : PartCycle G F mode dt b p K p') : ∀ c ∈ K, Arr.isCurrent c.arr := by
  obtain ⟨-, g, q, -, q2, la, lc, h1, -, h2, rfl, -⟩ := h
  intro c hc
  rcases List.mem_append.1 hc with hc | hc
  · exact azimuthalCalls_current q la h1 c hc
  · exact moveCalls_current q2 lc h2 c hc

/-! ## Macroparticles -/

theorem particleImage_iff {lam σ : ℝ} {p q : Particle} : ParticleImage lam σ p q ↔ SamePart (imageOf lam lam σ p) q := by
  constructor
  · intro h
    refine ⟨h.alive.symm, h.pos.symm, h.vel.symm, h.charge.symm, ?_⟩
    rw [h.mass]; show lam * lam * p.mass = _; ring
  · intro h
    refine ⟨h.alive.symm, h.pos.symm, h.vel.symm, h.charge.symm, ?_⟩
    rw [← h.mass]; show lam * lam * p.mass = _; ring

theorem rows_image {lam σ : ℝ} (hl : lam ≠ 0) (hσ : σ * σ = 1) {mode : PusherMode} (hv : mode = .vay → lam ^ 2 = 1) {G : Geom}
    {F F' : Fields} {dt : ℝ} (hE : ∀ r z, InRegion G r z →
      valE G F' r z = ⟨lam * (valE G F r z).c0, lam * (σ * (valE G F r z).c1), lam * (valE G F r z).c2⟩ ∧
      valH G F' r z = ⟨lam * (σ * (valH G F r z).c0), lam * (valH G F r z).c1, lam * (σ * (valH G F r z).c2)⟩)
    {x y : List (Bool × Particle)} {R : List (Bool × List JCall × Particle)}
    (hxy : List.Forall₂ (fun x y => y.1 = x.1 ∧ ParticleImage lam σ x.2 y.2) x y) :
    List.Forall₂ (CycleRow G F mode dt) x R → ∃ Q, List.Forall₂ (CycleRow G F' mode dt) y Q ∧
      (Q.flatMap fun y => y.2.1) = (R.flatMap fun y => y.2.1).map (imageCall lam σ) ∧
      List.Forall₂ (fun x y => y.1 = x.1 ∧ ParticleImage lam σ x.2 y.2) (R.map fun y => (y.1, y.2.2))
        (Q.map fun y => (y.1, y.2.2)) := by
  induction hxy generalizing R with
  | nil =>
    intro h
    cases h
    exact ⟨[], .nil, rfl, .nil⟩
  | @cons a b x y hab _ ih =>
    intro h
    cases h with
    | @cons _ r _ R hr hR =>
    obtain ⟨Q, q1, q2, q3⟩ := ih hR
    have h1 := partCycle_image hl hl hσ hv hE hr.2
    obtain ⟨p', h2, h3⟩ := partCycle_same (particleImage_iff.1 hab.2) h1
    refine ⟨(b.1, r.2.1.map (imageCall lam σ), p') :: Q, .cons ⟨rfl, ?_⟩ q1, ?_, ?_⟩
    · rw [hab.1]; exact h2
    · rw [List.flatMap_cons, List.flatMap_cons, List.map_append, q2]
    · rw [List.map_cons, List.map_cons]
      refine .cons ⟨?_, particleImage_iff.2 h3⟩ q3
      show b.1 = r.1
      rw [hab.1, hr.1]

/-! ## The property -/

/-- **C95** (one cycle). A cycle that can be completed can be completed from the image of its start, and leads to the image of its
end: with charges multiplied by `lam` and masses by `lam ^ 2` all macroparticles move as before, in fields and currents that are
`lam` times as strong; `lam = -1` exchanges the signs of all charges; with `σ = -1` the azimuthal velocities are reversed.
Missing: the pusher of Vay, unless `lam ^ 2 = 1`, see `C95_vay_violated`. -/
theorem C95_cycle_partial (G : Geom) (hG : G.Valid) (hnr : 3 ≤ G.nr) (hnz : 3 ≤ G.nz) (lam σ : ℝ) (hl : lam ≠ 0)
    (hσ : σ * σ = 1) (mode : PusherMode) (hv : mode = .vay → lam ^ 2 = 1) (dt : ℝ) (m n m' : Mem Loc) (S T S' : List Species)
    (hmn : FieldImage G lam σ m n) (hST : MatterImage lam σ S T) (hc : Cycle G mode dt m S m' S') :
    ∃ n' T', Cycle G mode dt n T n' T' ∧ FieldImage G lam σ m' n' ∧ MatterImage lam σ S' T' := by
  obtain ⟨m1, m2, m3, R, r1, r2, c1, c2, c3, r5⟩ := cycle_parts hc
  obtain ⟨hm, hn⟩ := hmn.rep
  obtain ⟨_, s1, p1⟩ := hRegion_spec hG dt hm
  obtain rfl := s1.sound.2.2 _ r1
  obtain ⟨n1, t1, q1⟩ := hRegion_spec hG dt hn
  obtain ⟨s2, p2⟩ := resetJ_spec hG p1
  obtain rfl := s2.sound.2.2 _ r2
  obtain ⟨t2, q2⟩ := resetJ_spec hG q1
  rw [hStep_image, reset_image] at q2
  obtain ⟨F2, hF2⟩ : ∃ F2, F2 = (hStep G dt (fieldsOf m)).write (wResetJ G) := ⟨_, rfl⟩
  rw [← hF2] at p2 q2
  obtain ⟨m2, hm2⟩ : ∃ m2, m2 = memWrite (wResetJ G) m1 := ⟨_, rfl⟩
  rw [← hm2] at p2 c1 c3
  obtain ⟨n2, hn2⟩ : ∃ n2, n2 = memWrite (wResetJ G) n1 := ⟨_, rfl⟩
  rw [← hn2] at q2
  have hE : ∀ r z, InRegion G r z →
      valE G (fieldsOf n2) r z = ⟨lam * (valE G (fieldsOf m2) r z).c0, lam * (σ * (valE G (fieldsOf m2) r z).c1),
        lam * (valE G (fieldsOf m2) r z).c2⟩ ∧
      valH G (fieldsOf n2) r z = ⟨lam * (σ * (valH G (fieldsOf m2) r z).c0), lam * (valH G (fieldsOf m2) r z).c1,
        lam * (σ * (valH G (fieldsOf m2) r z).c2)⟩ := by
    intro r z hrz
    obtain ⟨a1, a2⟩ := val_congr hG hnr hnz (Rep.ofAdd p2).agree hrz
    obtain ⟨b1, b2⟩ := val_congr hG hnr hnz (Rep.ofAdd q2).agree hrz
    rw [a1, a2, b1, b2]
    exact val_image G lam σ F2 r z
  obtain ⟨Q, k1, k2, k3⟩ := rows_image hl hσ hv hE hST c1
  have hcur : ∀ c ∈ R.flatMap fun y => y.2.1, Arr.isCurrent c.arr := by
    intro c hc
    obtain ⟨r, hr, hc⟩ := List.mem_flatMap.1 hc
    obtain ⟨y, -, hy⟩ := forall2_right c1 hr
    exact partCycle_current hy.2 c hc
  obtain ⟨i1, i2⟩ := (incsMem_iff _ _ _).1 c3
  obtain ⟨n3, hn3⟩ : ∃ n3 : Mem Loc, n3 = fun x => (n2 x).map (· + callSum (Q.flatMap fun y => y.2.1) x.arr x.i x.k) := ⟨_, rfl⟩
  have j : incsMem G (Q.flatMap fun y => y.2.1) n2 = some n3 := by
    refine (incsMem_iff _ _ _).2 ⟨?_, hn3⟩
    intro c hc
    rw [k2] at hc
    obtain ⟨d, hd, rfl⟩ := List.mem_map.1 hc
    have ha := (i1 d hd).1
    refine ⟨ha, ?_⟩
    show (n2 ⟨d.arr, d.i, d.k⟩).isSome
    rw [hn2]
    obtain ⟨x1, x2, x3, x4⟩ := ha
    dsimp only at x1 x2 x3 x4
    rcases hcur d hd with h | h | h <;> rw [h] at x2 x4 ⊢ <;> simp only [Arr.rows, Arr.cols] at x2 x4 <;>
      simp [memWrite, wResetJ, x1, x2, x3, x4, Box]
  have p3 : Rep G (fun a i k => F2 a i k + callSum (R.flatMap fun y => y.2.1) a i k) m3 := by
    rintro ⟨a, i, k⟩ hl
    rw [i2]
    show (m2 ⟨a, i, k⟩).map _ = _
    rw [p2 ⟨a, i, k⟩ (Or.inl hl)]
    rfl
  have q3 : Rep G (Fields.image lam σ fun a i k => F2 a i k + callSum (R.flatMap fun y => y.2.1) a i k) n3 := by
    rintro ⟨a, i, k⟩ hl
    rw [hn3]
    show (n2 ⟨a, i, k⟩).map _ = _
    rw [q2 ⟨a, i, k⟩ (Or.inl hl)]
    show some (imageFactor lam σ a * F2 a i k + callSum (Q.flatMap fun y => y.2.1) a i k) =
      some (imageFactor lam σ a * (F2 a i k + callSum (R.flatMap fun y => y.2.1) a i k))
    rw [k2, callSum_image hcur, mul_add]
  obtain ⟨_, s4, p4, -⟩ := eRegion_spec hG dt p3
  obtain rfl := s4.sound.2.2 _ r5
  obtain ⟨n', t4, q4, -⟩ := eRegion_spec hG dt q3
  rw [eStep_image] at q4
  obtain ⟨T', f1, f2⟩ := parts_cycle t1.sound.2.1 (hn2 ▸ t2.sound.2.1) k1 j t4.sound.2.1
  refine ⟨n', T', f1, FieldImage.of p4 q4, ?_⟩
  unfold MatterImage
  rw [c2, f2]
  exact k3

theorem MatterImage.same {lam σ : ℝ} {S T U : List Species} (h : MatterImage lam σ S T) (h' : List.Forall₂ SameSpecies T U) :
    MatterImage lam σ S U := by
  have ht : List.Forall₂ (fun x y : Bool × Particle => x.1 = y.1 ∧ SamePart x.2 y.2) (tagged T) (tagged U) := by
    clear h
    induction h' with
    | nil => exact .nil
    | @cons s t S T h _ ih =>
      rw [tagged_cons, tagged_cons]
      refine List.rel_append ?_ ih
      rw [List.forall₂_map_left_iff, List.forall₂_map_right_iff]
      exact h.2.imp fun p q hpq => ⟨h.1, hpq⟩
  refine forall2_chain ?_ h ht
  rintro a b c ⟨h1, h2⟩ ⟨h3, h4⟩
  exact ⟨h3.symm.trans h1, particleImage_iff.2 (samePart_trans (particleImage_iff.1 h2) h4)⟩

/-- **C95** (all schedules). All completed cycles from a state and its image lead to a state and its image.
Missing: as above, and the adaptive pusher, whose branch is not determined by the macroparticle (`C88_adaptive_violated`). -/
theorem C95_determined_partial (G : Geom) (hG : G.Valid) (hnr : 3 ≤ G.nr) (hnz : 3 ≤ G.nz) (lam σ : ℝ) (hl : lam ≠ 0)
    (hσ : σ * σ = 1) (mode : PusherMode) (hmode : mode ≠ .borisAdaptive) (hv : mode = .vay → lam ^ 2 = 1) (dt : ℝ)
    (m n m' n' : Mem Loc) (S T S' T' : List Species) (hmn : FieldImage G lam σ m n) (hST : MatterImage lam σ S T)
    (h1 : Cycle G mode dt m S m' S') (h2 : Cycle G mode dt n T n' T') :
    FieldImage G lam σ m' n' ∧ MatterImage lam σ S' T' := by
  obtain ⟨n2, T2, k1, k2, k3⟩ := C95_cycle_partial G hG hnr hnz lam σ hl hσ mode hv dt m n m' S T S' hmn hST h1
  have hn : Initialised G n := fun l hl => by rw [hmn.rep.2 l hl]; rfl
  obtain ⟨rfl, e2, -⟩ := C88_cycle_partial G hG mode hmode dt n n2 n' T T T2 T' hn
    (List.forall₂_same.2 fun s _ => ⟨rfl, List.forall₂_same.2 fun p _ => ⟨rfl, rfl, rfl, rfl, rfl⟩⟩) k1 h2
  exact ⟨k2, k3.same e2⟩

/-- **C95** (whole runs). This is so after any number of cycles, if what is injected in between is the image of what was injected. -/
theorem C95_run_partial (G : Geom) (hG : G.Valid) (hnr : 3 ≤ G.nr) (hnz : 3 ≤ G.nz) (lam σ : ℝ) (hl : lam ≠ 0)
    (hσ : σ * σ = 1) (mode : PusherMode) (hv : mode = .vay → lam ^ 2 = 1) (dt : ℝ)
    (inj inj' : ℕ → List Species → List Species)
    (hinj : ∀ n S T, MatterImage lam σ S T → MatterImage lam σ (inj n S) (inj' n T))
    (m n m' : Mem Loc) (S T S' : List Species) (hmn : FieldImage G lam σ m n) (hST : MatterImage lam σ S T) (c : ℕ)
    (h : Reaches G mode dt inj c m S m' S') :
    ∃ n' T', Reaches G mode dt inj' c n T n' T' ∧ FieldImage G lam σ m' n' ∧ MatterImage lam σ S' T' := by
  induction h with
  | start m S => exact ⟨n, T, .start n T, hmn, hST⟩
  | @step c _ m1 m2 _ S1 S2 _ hc ih =>
    obtain ⟨n1, T1, k1, k2, k3⟩ := ih hmn hST
    obtain ⟨n2, T2, l1, l2, l3⟩ := C95_cycle_partial G hG hnr hnz lam σ hl hσ mode hv dt m1 n1 m2 _ _ S2 k2 (hinj c _ _ k3) hc
    exact ⟨n2, T2, .step k1 l1, l2, l3⟩

/-- **C95** (start). The fields right after set-up are their own images, so that the image of a run is the run with the image of
the plasma and of the beam. -/
theorem C95_start (G : Geom) (hG : G.Valid) (lam σ : ℝ) (tbl : ℤ → ℤ → Option ℝ) (m n : Mem Loc) (h : Started G tbl m)
    (h' : Started G tbl n) : FieldImage G lam σ m n := by
  refine FieldImage.of (h.rep hG) ((h'.rep hG).congr ?_)
  intro a i k _
  cases a <;> simp [Fields.image, imageFactor, setupFields]

/-! ## The pusher of Vay -/

/-- the tangent of the angle by which the pusher turns the velocity -/
noncomputable def vayTan (α β : ℝ) : ℝ :=
  β * (1 / Real.sqrt (1 / 2 * (α - β * β + Real.sqrt ((α - β * β) * (α - β * β) + 4 * (β * β)))))

theorem vayTan_spec (α β : ℝ) (hβ : 0 < β) : vayTan α β ^ 2 * (vayTan α β ^ 2 + α) = β ^ 2 * (1 + vayTan α β ^ 2) := by
  obtain ⟨s, hs⟩ : ∃ s, s = α - β * β := ⟨_, rfl⟩
  obtain ⟨r, hr⟩ : ∃ r, r = Real.sqrt (s * s + 4 * (β * β)) := ⟨_, rfl⟩
  have hr2 : r ^ 2 = s * s + 4 * (β * β) := by rw [hr, Real.sq_sqrt (by nlinarith [mul_self_nonneg s])]
  have hrs : |s| < r := by
    rw [hr, ← Real.sqrt_mul_self_eq_abs]
    exact Real.sqrt_lt_sqrt (mul_self_nonneg s) (by nlinarith)
  have hg : 0 < 1 / 2 * (s + r) := by
    have := neg_abs_le s
    linarith
  have ht : vayTan α β ^ 2 = β ^ 2 / (1 / 2 * (s + r)) := by
    unfold vayTan
    rw [← hs, ← hr, mul_pow, div_pow, one_pow, Real.sq_sqrt hg.le]
    ring
  rw [ht]
  have hα : α = s + β * β := by rw [hs]; ring
  rw [hα]
  have hg' : s + r ≠ 0 := by linarith
  field_simp
  nlinarith [hr2]

theorem vay_from_rest (dt charge mass E h : ℝ) (hm : mass ≠ 0) : ∃ w : V3, w.c1 = - vayTan
      (1 / getGammaInv ((charge * dt / mass * E) ^ 2) / getGammaInv ((charge * dt / mass * E) ^ 2))
      (MAGN_CONST * (charge * dt / (2 * mass)) ^ 3 * 2 * h) * w.c0 ∧
    (charge * dt / mass * E ≠ 0 → w.c0 ≠ 0) ∧
    push .vay false dt charge mass ⟨E, 0, 0⟩ ⟨0, 0, h⟩ V3.zero = some w := by
  have hs : snap V3.zero = V3.zero := snap_eq ⟨Or.inl rfl, Or.inl rfl, Or.inl rfl⟩
  have hg : getGamma (V3.dot V3.zero V3.zero) = some 1 := by
    unfold getGamma V3.dot V3.zero; norm_num
  unfold push vayCore
  dsimp only
  rw [if_neg (by simpa using hm), hs]
  rw [hg, Option.map_some]
  obtain ⟨X, hX⟩ : ∃ X, X = charge * dt / mass * E := ⟨_, rfl⟩
  obtain ⟨B, hB⟩ : ∃ B, B = MAGN_CONST * (charge * dt / (2 * mass)) ^ 3 * 2 * h := ⟨_, rfl⟩
  have eX : E * (2 * (charge * dt / (2 * mass))) = X := by rw [hX]; field_simp
  have eB : h * (MAGN_CONST * (charge * dt / (2 * mass))) * (2 * (charge * dt / (2 * mass))) * (charge * dt / (2 * mass)) = B := by
    rw [hB]; ring
  rw [← hX, ← hB]
  simp only [V3.smul, V3.add, V3.dot, V3.zero, mul_zero, zero_mul, add_zero, zero_add, sub_zero, eX, eB]
  obtain ⟨al, hal⟩ : ∃ al, al = 1 / getGammaInv (X * X) / getGammaInv (X * X) := ⟨_, rfl⟩
  rw [pow_two X, ← hal]
  simp only [ne_eq, OfNat.ofNat_ne_zero, not_false_eq_true, zero_pow, add_zero]
  obtain ⟨t, ht⟩ : ∃ t, t = 1 / Real.sqrt (1 / 2 * (al - B * B + Real.sqrt ((al - B * B) * (al - B * B) + 4 * (B * B)))) :=
    ⟨_, rfl⟩
  have htan : vayTan al B = B * t := by unfold vayTan; rw [ht]
  rw [htan, ← ht]
  refine ⟨_, ?_, ?_, rfl⟩
  · dsimp only
    ring
  · intro h0
    dsimp only
    refine mul_ne_zero (mul_ne_zero ?_ h0) ?_
    · have : 0 < 1 + B * t * (B * t) := by nlinarith [mul_self_nonneg (B * t)]
      exact (one_div_pos.2 this).ne'
    · unfold getGammaInv
      refine (Real.rpow_pos_of_pos ?_ _).ne'
      have : 0 < LIGHT_SPEED_POW_2 := by unfold LIGHT_SPEED_POW_2 LIGHT_SPEED; norm_num
      have := div_nonneg (add_nonneg (mul_self_nonneg (1 / (1 + B * t * (B * t)) * X))
        (mul_self_nonneg (1 / (1 + B * t * (B * t)) * (0 - B * t * X)))) this.le
      linarith

/-- **C95, violated** for the pusher of Vay: it multiplies the magnetic field by charge over mass three times, so with twice the
charges, four times the masses and twice the fields a macroparticle is turned by another angle. -/
theorem C95_vay_violated : ∃ (lam dt charge mass : ℝ) (e h v : V3), 0 < lam ∧ 0 < mass ∧
    push .vay false dt (lam * charge) (lam ^ 2 * mass) (e.smul lam) (h.smul lam) v ≠ push .vay false dt charge mass e h v := by
  have hM : 0 < MAGN_CONST := by unfold MAGN_CONST; positivity
  refine ⟨2, 1, 2, 1, ⟨1, 0, 0⟩, ⟨0, 0, 1 / (2 * MAGN_CONST)⟩, V3.zero, by norm_num, by norm_num, ?_⟩
  obtain ⟨w, a1, a2, a3⟩ := vay_from_rest 1 2 1 1 (1 / (2 * MAGN_CONST)) (by norm_num)
  obtain ⟨w', b1, b2, b3⟩ := vay_from_rest 1 (2 * 2) (2 ^ 2 * 1) (2 * 1) (2 * (1 / (2 * MAGN_CONST))) (by norm_num)
  have e1 : MAGN_CONST * ((2 : ℝ) * 1 / (2 * 1)) ^ 3 * 2 * (1 / (2 * MAGN_CONST)) = 1 := by field_simp
  have e2 : MAGN_CONST * ((2 : ℝ) * 2 * 1 / (2 * (2 ^ 2 * 1))) ^ 3 * 2 * (2 * (1 / (2 * MAGN_CONST))) = 1 / 4 := by
    field_simp; norm_num
  have e3 : ((2 : ℝ) * 2 * 1 / (2 ^ 2 * 1) * (2 * 1)) = 2 := by norm_num
  have e4 : ((2 : ℝ) * 1 / 1 * 1) = 2 := by norm_num
  rw [e1, e4] at a1
  rw [e2, e3] at b1
  rw [e4] at a2
  rw [e3] at b2
  intro heq
  have e5 : V3.smul 2 ⟨1, 0, 0⟩ = ⟨2 * 1, 0, 0⟩ := by unfold V3.smul; simp
  have e6 : V3.smul 2 ⟨0, 0, 1 / (2 * MAGN_CONST)⟩ = ⟨0, 0, 2 * (1 / (2 * MAGN_CONST))⟩ := by
    unfold V3.smul; rw [zero_mul, mul_comm]
  rw [e5, e6, b3, a3, Option.some.injEq] at heq
  subst heq
  obtain ⟨al, hal⟩ : ∃ al, al = 1 / getGammaInv ((2 : ℝ) ^ 2) / getGammaInv ((2 : ℝ) ^ 2) := ⟨_, rfl⟩
  rw [← hal] at a1 b1
  rw [a1] at b1
  have ht : vayTan al 1 = vayTan al (1 / 4) := by
    have := mul_right_cancel₀ (a2 (by norm_num)) b1
    linarith
  have h1 := vayTan_spec al 1 (by norm_num)
  have h2 := vayTan_spec al (1 / 4) (by norm_num)
  rw [← ht, h1] at h2
  nlinarith [sq_nonneg (vayTan al 1)]

/-! ## Examples -/

/-- The hypotheses of C95 are met: the run of C76, with three times the charges and nine times the masses. -/
example : ∃ T m' S' n' T', MatterImage 3 (-1) [⟨false, [drifter]⟩, ⟨true, [runner, drifter]⟩] T ∧
    Reaches demoGeom .borisRelativistic 1e-9 (fun _ S => S) 1000 emptyMem [⟨false, [drifter]⟩, ⟨true, [runner, drifter]⟩] m' S' ∧
    Reaches demoGeom .borisRelativistic 1e-9 (fun _ S => S) 1000 emptyMem T n' T' ∧
    FieldImage demoGeom 3 (-1) m' n' ∧ MatterImage 3 (-1) S' T' := by
  have key := C76_run_safe_partial demoGeom demoGeom_valid (by norm_num [demoGeom]) (by norm_num [demoGeom])
    .borisRelativistic (Or.inl rfl) 1e-9 (by norm_num) (by norm_num [demoGeom, LIGHT_SPEED])
    (by norm_num [demoGeom, LIGHT_SPEED]) (fun _ S => S) (fun _ _ h => h) emptyMem
  have : ∀ n, ∃ m' S', Reaches demoGeom .borisRelativistic 1e-9 (fun _ S => S) n emptyMem
      [⟨false, [drifter]⟩, ⟨true, [runner, drifter]⟩] m' S' := by
    intro n
    induction n with
    | zero => exact ⟨_, _, .start _ _⟩
    | succ n ih =>
      obtain ⟨m', S', h⟩ := ih
      exact (key m' _ S' drifter_safe n h).2.2
  obtain ⟨m', S', h⟩ := this 1000
  obtain ⟨T, hT⟩ : ∃ T : List Species, T = [⟨false, [imageOf 3 3 (-1) drifter]⟩,
    ⟨true, [imageOf 3 3 (-1) runner, imageOf 3 3 (-1) drifter]⟩] := ⟨_, rfl⟩
  have self : ∀ p, ParticleImage 3 (-1) p (imageOf 3 3 (-1) p) := fun p =>
    particleImage_iff.2 ⟨rfl, rfl, rfl, rfl, rfl⟩
  have hM : MatterImage 3 (-1) [⟨false, [drifter]⟩, ⟨true, [runner, drifter]⟩] T := by
    rw [hT]
    exact .cons ⟨rfl, self _⟩ (.cons ⟨rfl, self _⟩ (.cons ⟨rfl, self _⟩ .nil))
  have hF : FieldImage demoGeom 3 (-1) emptyMem emptyMem := by
    intro a i k _
    refine ⟨_, rfl, ?_⟩
    cases a <;> simp [emptyMem, emptyFields, imageFactor]
  obtain ⟨n', T', k1, k2, k3⟩ := C95_run_partial demoGeom demoGeom_valid (by norm_num [demoGeom]) (by norm_num [demoGeom]) 3 (-1)
    (by norm_num) (by norm_num) .borisRelativistic (by simp) 1e-9 (fun _ S => S) (fun _ S => S) (fun _ _ _ h => h)
    emptyMem emptyMem m' _ T S' hF hM 1000 h
  exact ⟨T, m', S', n', T', hM, h, k1, k2, k3⟩

end Verif
