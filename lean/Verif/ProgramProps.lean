import Verif.Program
import Verif.BunchProps
import Verif.ConfigProps
import Verif.RunAny

/-!
# The program as a whole (C78)
-/

namespace Verif

/-! ## Specification -/

/-- Usable settings of a beam: it lasts, has density and mass, is at least a cell and at most the
chamber wide and slower than light. -/
structure BeamSetup.Usable (G : Geom) (P : BeamSetup) : Prop where
  duration_pos : 0 < P.duration
  hole_nonneg : 0 ≤ P.hole_duration
  density_pos : 0 < P.density
  mass_ne : P.mass ≠ 0
  velocity_pos : 0 < P.velocity
  velocity_lt : P.velocity < LIGHT_SPEED
  radius_ge : G.dr ≤ P.radius
  radius_le : P.radius ≤ G.r_size

/-! ## Macroparticles waiting for their injection -/

/-- A macroparticle that was not injected yet. -/
def Waiting (G : Geom) (p : Particle) : Prop :=
  p.alive = false ∧ G.dr / 2 ≤ p.pos.c0 ∧ p.pos.c0 ≤ G.r_size - G.dr / 2 ∧ p.pos.c1 = 0 ∧
    p.vel.c0 = 0 ∧ p.vel.c1 = 0 ∧ p.mass ≠ 0

theorem fresh_waiting {G : Geom} (hG : G.Valid) {P : BeamSetup} (hP : P.Usable G)
    {fresh : ℕ → Particle} (h : FreshBunch G P fresh) {i : ℕ} (hi : i < P.number) :
    Waiting G (fresh i) := by
  obtain ⟨hd, draws, hl, hu, hf⟩ := h
  have hdr := hG.dr_pos
  have hdz := hG.dz_pos
  have hpi : (0:ℝ) < PI := by unfold PI; norm_num
  have hi' : i < draws.length := by rw [hl]; exact hi
  have hpos : ∀ u ∈ draws, G.dr / 2 ≤ (P.radius - G.dr) * u + G.dr / 2 ∧
      (P.radius - G.dr) * u + G.dr / 2 ≤ G.r_size - G.dr / 2 := by
    intro u hu'
    obtain ⟨u0, u1⟩ := hu u hu'
    have h1 := hP.radius_ge
    have h2 := hP.radius_le
    constructor <;> nlinarith
  have hv : 0 < ((draws.map fun u => (P.radius - G.dr) * u + G.dr / 2).map fun r =>
      if r > G.dr then 2 * PI * r * G.dr * G.dz else PI * r * r * G.dz).sum := by
    apply List.sum_pos
    · intro x hx
      simp only [List.mem_map, exists_exists_and_eq_and] at hx
      obtain ⟨u, hu', rfl⟩ := hx
      have := (hpos u hu').1
      have hr : 0 < (P.radius - G.dr) * u + G.dr / 2 := by linarith
      split_ifs <;> positivity
    · intro hx
      have := congrArg List.length hx
      simp at this
      rw [this] at hi'; simp at hi'
  have hn : (0:ℝ) < (draws.length : ℝ) := by exact_mod_cast (by omega : 0 < draws.length)
  obtain ⟨q1, q2⟩ := hpos draws[i] (List.getElem_mem hi')
  obtain ⟨p1, p2, p3, p4⟩ := hf i _ (by
    unfold newBunch
    dsimp only
    rw [List.getElem?_map, List.getElem?_map, List.getElem?_eq_getElem hi', Option.map_some,
      Option.map_some])
  refine ⟨hd i, by rw [p1]; exact q1, by rw [p1]; exact q2, by rw [p1], by rw [p2], by rw [p2], ?_⟩
  rw [p4]
  have hr : 0 < (P.radius - G.dr) * draws[i] + G.dr / 2 := by linarith
  have hR : 0 < P.radius := by linarith [hP.radius_ge]
  have hnorm : ∀ v : ℝ, 0 < v → 0 < macroNorm G v ((P.radius - G.dr) * draws[i] + G.dr / 2) := by
    intro v hv
    unfold macroNorm
    split_ifs <;> positivity
  refine mul_ne_zero hP.mass_ne (mul_pos ?_ (hnorm _ (div_pos hv hn))).ne'
  have := hP.duration_pos
  have := hP.density_pos
  have := hP.velocity_pos
  positivity

theorem injected_ready {G : Geom} (hG : G.Valid) {P : BeamSetup} (hP : P.Usable G) {dt : ℝ}
    (hdt : 0 < dt) (hdz : LIGHT_SPEED * dt ≤ G.dz) (hnz : 3 ≤ G.nz) {p : Particle} (h : Waiting G p)
    {u : ℝ} (u0 : 0 ≤ u) (u1 : u < 1) : Ready G (injectOne G P.toBunchCfg dt u p) := by
  obtain ⟨-, h1, h2, h3, h4, h5, h6⟩ := h
  intro _
  have hv := hP.velocity_pos
  have hv' := hP.velocity_lt
  have hd := hG.dz_pos
  have hnz' : (3:ℝ) ≤ G.nz := by exact_mod_cast hnz
  have hZ : 2 * G.dz ≤ G.z_size := by rw [hG.z_size_eq]; nlinarith
  have a1 : P.velocity * dt ≤ G.dz := le_trans (by nlinarith) hdz
  have a0 : 0 ≤ P.velocity * dt := by positivity
  have a2 : P.velocity * dt * u ≤ P.velocity * dt := by nlinarith
  have a3 : 0 ≤ P.velocity * dt * u := by positivity
  refine ⟨⟨h1, h2, ?_, ?_⟩, h3, h5, h6, ?_⟩
  · show G.dz / 2 ≤ P.velocity * dt * u + G.dz / 2; linarith
  · show P.velocity * dt * u + G.dz / 2 ≤ G.z_size - G.dz / 2; linarith
  · unfold speedSq injectOne
    dsimp only
    rw [h4, h5]
    nlinarith

/-! ## Lists -/

theorem forall2_comp {α β γ : Type} {R : α → β → Prop} {S : β → γ → Prop} {T : α → γ → Prop}
    (hT : ∀ x y z, R x y → S y z → T x z) {a : List α} {b : List β} (h : List.Forall₂ R a b) :
    ∀ {c : List γ}, List.Forall₂ S b c → List.Forall₂ T a c := by
  induction h with
  | nil => intro c hc; cases hc; exact .nil
  | cons h _ ih =>
    intro c hc
    cases hc with
    | cons h' t' => exact .cons (hT _ _ _ h h') (ih t')

/-- What a cycle keeps: the classes, the numbers of macroparticles, and the dead ones. -/
def KeepsDead (s s' : Species) : Prop :=
  s'.bunch = s.bunch ∧ List.Forall₂ (fun p p' : Particle => p.alive = false → p' = p) s.ps s'.ps

theorem stepVAll_dead {G : Geom} {F : Fields} {mode : PusherMode} {dt : ℝ} {S S1 : List Species}
    (h : StepVAll G F mode dt S S1) : List.Forall₂ KeepsDead S S1 := by
  refine List.Forall₂.imp ?_ h
  rintro s s1 ⟨h1, h2⟩
  refine ⟨h1, List.Forall₂.imp ?_ h2⟩
  rintro p p1 ⟨-, g, hg⟩ hd
  unfold stepVSingle at hg
  rw [hd] at hg
  simpa using hg.symm

theorem fullCurrent_dead {G : Geom} {dt : ℝ} {s s' : Species} {m m' : Mem Loc}
    (h : FullCurrent G dt s m s' m') : KeepsDead s s' := by
  obtain ⟨la, lc, ma, moved, -, -, h3, -, -, rfl⟩ := h
  refine ⟨rfl, ?_⟩
  dsimp only
  rw [List.forall₂_map_right_iff]
  refine List.Forall₂.imp ?_ h3
  intro p q hq hd
  unfold moveHalfReflectSingle at hq
  rw [hd] at hq
  have : q = p := by simpa using hq.symm
  subst this
  unfold backVelocitySingle
  rw [hd]; simp

theorem fullCurrentAll_dead {G : Geom} {dt : ℝ} {S S' : List Species} {m m' : Mem Loc}
    (h : FullCurrentAll G dt S m S' m') : List.Forall₂ KeepsDead S S' := by
  induction h with
  | nil => exact .nil
  | cons h _ ih => exact .cons (fullCurrent_dead h) ih

theorem cycle_dead {G : Geom} {mode : PusherMode} {dt : ℝ} {m m' : Mem Loc} {S S' : List Species}
    (h : Cycle G mode dt m S m' S') : List.Forall₂ KeepsDead S S' := by
  obtain ⟨m1, m2, m3, S1, -, -, h3, h4, -⟩ := h
  refine forall2_comp ?_ (stepVAll_dead h3) (fullCurrentAll_dead h4)
  rintro s1 s2 s3 ⟨a1, a2⟩ ⟨b1, b2⟩
  refine ⟨b1.trans a1, forall2_comp ?_ a2 b2⟩
  intro p q r hpq hqr hd
  have := hpq hd
  subst this
  exact hqr hd

/-- the bunches after a cycle -/
theorem bunches_after {number : ℕ} {B B' : List BunchObj}
    (h : List.Forall₂ KeepsDead (B.map (BunchObj.species number)) (B'.map (BunchObj.species number)))
    (hn : B'.map BunchObj.bunch_number = B.map BunchObj.bunch_number) :
    ∀ b' ∈ B', ∃ b ∈ B, b'.bunch_number = b.bunch_number ∧
      ∀ i < number, (b.ps i).alive = false → b'.ps i = b.ps i := by
  induction B generalizing B' with
  | nil => cases B' with
    | nil => intro b' hb'; cases hb'
    | cons => simp at hn
  | cons b B ih =>
    cases B' with
    | nil => simp at hn
    | cons c C =>
      simp only [List.map_cons, List.cons.injEq] at hn
      simp only [List.map_cons, List.forall₂_cons] at h
      intro b' hb'
      rcases List.mem_cons.1 hb' with rfl | hb'
      · refine ⟨b, by simp, hn.1, ?_⟩
        intro i hi hd
        have h2 := h.1.2
        simp only [BunchObj.species] at h2
        rw [List.forall₂_map_left_iff, List.forall₂_map_right_iff, List.forall₂_same] at h2
        exact h2 i (List.mem_range.2 hi) hd
      · obtain ⟨d, hd, h1, h2⟩ := ih h.2 hn.2 b' hb'
        exact ⟨d, by simp [hd], h1, h2⟩

theorem species_of_list {number : ℕ} {l : List Particle} (h : l.length = number) :
    ∃ ps : ℕ → Particle, (List.range number).map ps = l := by
  refine ⟨fun i => l.getD i ⟨false, ⟨0, 0, 0⟩, ⟨0, 0, 0⟩, ⟨0, 0, 0⟩, 0, 0, 0, 0⟩, ?_⟩
  apply List.ext_getElem
  · simp [h]
  · intro i h1 h2
    simp [List.getElem?_eq_getElem h2]

theorem exists_bunches {number : ℕ} {B : List BunchObj} {T : List Species}
    (h : List.Forall₂ KeepsDead (B.map (BunchObj.species number)) T) :
    ∃ B' : List BunchObj, B'.map (BunchObj.species number) = T ∧
      B'.map BunchObj.bunch_number = B.map BunchObj.bunch_number := by
  induction B generalizing T with
  | nil => cases h; exact ⟨[], rfl, rfl⟩
  | cons b B ih =>
    cases T with
    | nil => cases h
    | cons t T =>
      simp only [List.map_cons, List.forall₂_cons] at h
      obtain ⟨B', e1, e2⟩ := ih h.2
      obtain ⟨ps, hps⟩ := species_of_list (number := number) (l := t.ps) (by
        have := h.1.2.length_eq
        simp only [BunchObj.species, List.length_map, List.length_range] at this
        exact this.symm)
      refine ⟨⟨b.bunch_number, ps⟩ :: B', ?_, by simp [e2]⟩
      simp only [List.map_cons, e1, List.cons.injEq, and_true]
      have hb := h.1.1
      cases t with
      | mk tb tp =>
        simp only [BunchObj.species] at hb hps ⊢
        rw [hb, hps]

theorem injectAll_forall2 {G : Geom} {B : BunchCfg} {t dt : ℝ} {bs : List BunchObj}
    {r : Option (List BunchObj)} (h : InjectAll G B t dt bs r) : ∀ {bs'}, r = some bs' →
      List.Forall₂ (fun b b' : BunchObj => b'.bunch_number = b.bunch_number ∧
        Inject G B b.bunch_number t dt b.ps (some b'.ps)) bs bs' := by
  induction h with
  | nil => intro bs' e; cases e; exact .nil
  | fail => intro bs' e; cases e
  | failTail => intro bs' e; cases e
  | cons b bs ps bs2 h _ ih => intro bs' e; cases e; exact .cons ⟨rfl, h⟩ (ih rfl)

theorem injectAll_total {G : Geom} {B : BunchCfg} {t dt : ℝ} (hdt : 0 < dt) (hd : 0 < B.duration)
    (bs : List BunchObj) : (∃ bs', InjectAll G B t dt bs (some bs')) ∧ ¬ InjectAll G B t dt bs none := by
  induction bs with
  | nil => exact ⟨⟨[], .nil⟩, fun h => by cases h⟩
  | cons b bs ih =>
    obtain ⟨⟨bs', h1⟩, h2⟩ := ih
    obtain ⟨⟨ps, h3⟩, h4⟩ := inject_total G B b.bunch_number t dt hdt hd b.ps
    refine ⟨⟨_, .cons b bs ps bs' h3 h1⟩, ?_⟩
    intro h
    cases h
    · exact h4 ‹_›
    · exact h2 ‹_›

theorem cleanup_total (G : Geom) (C : BeamCfg) (t : ℝ) (bs : List BunchObj) :
    Cleanup G C t bs none ∨ Cleanup G C t bs (some ()) := by
  induction bs with
  | nil => exact Or.inr .nil
  | cons b bs ih =>
    by_cases h : (b.bunch_number : ℝ) < eraseNumber G C t
    · by_cases hs : scanDead C 0 b
      · exact Or.inl (.erase b bs 0 h hs)
      · exact ih.imp (.alive b bs _ 0 h hs) (.alive b bs _ 0 h hs)
    · exact ih.imp (.young b bs _ h) (.young b bs _ h)

theorem fresh_exists (G : Geom) (P : BeamSetup) : ∃ f, FreshBunch G P f := by
  obtain ⟨L, hL⟩ : ∃ L, L = newBunch G P.charge P.mass P.duration P.radius P.density P.velocity
    (List.replicate P.number 0) := ⟨_, rfl⟩
  refine ⟨fun i => ⟨false, (L[i]?.getD ⟨⟨0, 0, 0⟩, 0, 0⟩).pos, ⟨0, 0, 0⟩, ⟨0, 0, 0⟩,
    (L[i]?.getD ⟨⟨0, 0, 0⟩, 0, 0⟩).charge, (L[i]?.getD ⟨⟨0, 0, 0⟩, 0, 0⟩).mass, 0, 0⟩, fun _ => rfl,
    List.replicate P.number 0, by simp, ?_, ?_⟩
  · intro u hu
    rw [(List.mem_replicate.1 hu).2]; norm_num
  · intro i l hl
    rw [← hL] at hl
    simp [hl]

/-! ## The invariant of the beam -/

/-- Before the iteration at time `t`: the macroparticles of all bunches are in order, and those whose
turn has not come are waiting. -/
def BeamInv (Q : Particle → Prop) (G : Geom) (P : BeamSetup) (dt : ℝ) (shift : ℤ) (t : ℝ)
    (bs : List BunchObj) : Prop :=
  ∀ b ∈ bs, (∀ i < P.number, Q (b.ps i)) ∧ ∀ i < P.number,
    ⌊(t - P.begin b.bunch_number) / dt * perStep P.toBunchCfg dt⌋ + shift ≤ (i : ℤ) → Waiting G (b.ps i)

theorem waiting_ready {G : Geom} {p : Particle} (h : Waiting G p) : Ready G p := fun ha => by
  rw [h.1] at ha; cases ha

theorem beamStep_inv {Q : Particle → Prop} {G : Geom} (hG : G.Valid) {P : BeamSetup}
    (hP : P.Usable G) {dt t : ℝ} (hdt : 0 < dt) (hdz : LIGHT_SPEED * dt ≤ G.dz) (hnz : 3 ≤ G.nz)
    (hQ : ∀ p, Ready G p → Q p) {s b : BeamState} (hs : BeamInv Q G P dt 0 t s.bunches)
    (h : BeamStep G P t dt s (some b)) :
    BeamInv Q G P dt (perStep P.toBunchCfg dt) t b.bunches := by
  cases h with
  | ok fresh bs hf _ hi =>
  have hc : BeamInv Q G P dt 0 t (create P.toBeamCfg t fresh s).bunches := by
    unfold create
    split_ifs
    · intro c hc
      rcases List.mem_append.1 hc with hc | hc
      · exact hs c hc
      · rw [List.mem_singleton.1 hc]
        exact ⟨fun i hi => hQ _ (waiting_ready (fresh_waiting hG hP hf hi)),
          fun i hi _ => fresh_waiting hG hP hf hi⟩
    · exact hs
  intro b' hb'
  obtain ⟨c, hcm, hn, hin⟩ := forall2_right (injectAll_forall2 hi rfl) hb'
  obtain ⟨h1, h2⟩ := hc c hcm
  rw [hn]
  constructor
  · intro i hi
    obtain ⟨u, u0, u1, e⟩ := inject_effect hdt hin i
    rw [e]
    split_ifs with hcond
    · exact hQ _ (injected_ready hG hP hdt hdz hnz (h2 i hi (by simpa using hcond.2.2.1)) u0 u1)
    · exact h1 i hi
  · intro i hi hle
    obtain ⟨u, u0, u1, e⟩ := inject_effect hdt hin i
    rw [e, if_neg (by rintro ⟨-, -, -, hlt⟩; omega)]
    exact h2 i hi (by omega)

theorem parts_partList {number : ℕ} {plasma : List Species} {b : BeamState} {p : Particle} :
    p ∈ parts (partList number plasma b) ↔ p ∈ parts plasma ∨ ∃ c ∈ b.bunches, ∃ i < number, p = c.ps i := by
  unfold parts partList
  rw [List.flatMap_append, List.mem_append]
  refine or_congr Iff.rfl ?_
  simp only [List.mem_flatMap, List.mem_map, exists_exists_and_eq_and, BunchObj.species, List.mem_range]
  constructor
  · rintro ⟨c, hc, i, hi, rfl⟩; exact ⟨c, hc, i, hi, rfl⟩
  · rintro ⟨c, hc, i, hi, rfl⟩; exact ⟨c, hc, i, hi, rfl⟩

section
variable {Q : Particle → Prop} {Good : Mem Loc → Prop} {Okay : List Species → Prop} {G : Geom}
  {mode : PusherMode} {P : BeamSetup} {dt : ℝ}

/-- one iteration -/
theorem prog_step (hG : G.Valid) (hP : P.Usable G) (hdt : 0 < dt) (hdz : LIGHT_SPEED * dt ≤ G.dz)
    (hnz : 3 ≤ G.nz) (hQ : ∀ p, Ready G p → Q p)
    (hcyc : ∀ m S, Good m → (∀ p ∈ parts S, Q p) → Okay S → ¬ CycleFault G mode dt m S ∧
      (∃ m' S', Cycle G mode dt m S m' S') ∧
      ∀ m' S', Cycle G mode dt m S m' S' → Good m' ∧ ∀ p ∈ parts S', Q p)
    (hok : ∀ m S m' S', Cycle G mode dt m S m' S' → Okay S)
    {t : ℝ} {s : ProgState} (h1 : Good s.mem) (h2 : ∀ p ∈ parts s.plasma, Q p)
    (h3 : BeamInv Q G P dt 0 t s.beam.bunches) :
    (∀ s', ProgStep G mode P t dt s s' → Good s'.mem ∧ (∀ p ∈ parts s'.plasma, Q p) ∧
      BeamInv Q G P dt 0 (t + dt) s'.beam.bunches) ∧
    (ProgFault G mode P t dt s → CleanupAll G P.toBeamCfg t s.beam none ∨
      ∃ b, BeamStep G P t dt s.beam (some b) ∧ ¬ Okay (partList P.number s.plasma b)) ∧
    ((¬ CleanupAll G P.toBeamCfg t s.beam none ∧
      ∀ b, BeamStep G P t dt s.beam (some b) → Okay (partList P.number s.plasma b)) →
      ∃ s', ProgStep G mode P t dt s s') := by
  have hpart : ∀ b, BeamStep G P t dt s.beam (some b) →
      ∀ p ∈ parts (partList P.number s.plasma b), Q p := by
    intro b hb p hp
    rcases parts_partList.1 hp with hp | ⟨c, hc, i, hi, rfl⟩
    · exact h2 p hp
    · exact (beamStep_inv hG hP hdt hdz hnz hQ h3 hb c hc).1 i hi
  refine ⟨?_, ?_, ?_⟩
  · rintro s' ⟨b, hb, hc, hl, -, hn⟩
    obtain ⟨g1, g2⟩ := (hcyc _ _ h1 (hpart b hb) (hok _ _ _ _ hc)).2.2 _ _ hc
    have hd := cycle_dead hc
    unfold partList at hd
    have hd' := List.forall₂_drop_append _ _ _ hd
    rw [hl, List.drop_left] at hd'
    refine ⟨g1, fun p hp => g2 p (parts_partList.2 (Or.inl hp)), ?_⟩
    intro b' hb'
    refine ⟨fun i hi => g2 _ (parts_partList.2 (Or.inr ⟨b', hb', i, hi, rfl⟩)), ?_⟩
    intro i hi hle
    obtain ⟨c, hcm, hcn, hce⟩ := bunches_after hd' hn b' hb'
    have hw : Waiting G (c.ps i) := by
      refine (beamStep_inv hG hP hdt hdz hnz hQ h3 hb c hcm).2 i hi ?_
      rw [hcn] at hle
      have e : (t + dt - P.begin c.bunch_number) / dt
          = (t - P.begin c.bunch_number) / dt + ((1 : ℕ) : ℝ) := by
        push_cast; field_simp; ring
      rw [e, floor_shift] at hle
      push_cast at hle
      omega
    rw [hce i hi hw.1]; exact hw
  · rintro (hf | ⟨b, hb, hf⟩)
    · cases hf with
      | cleanupFail h => exact Or.inl h
      | injectFail fresh hf h hi =>
        exact absurd hi (injectAll_total hdt hP.duration_pos _).2
    · by_cases ho : Okay (partList P.number s.plasma b)
      · exact absurd hf (hcyc _ _ h1 (hpart b hb) ho).1
      · exact Or.inr ⟨b, hb, ho⟩
  · rintro ⟨hn, ho⟩
    have hcl : CleanupAll G P.toBeamCfg t s.beam (some ()) := by
      by_cases hlen : s.beam.bunches.length > 1
      · rcases cleanup_total G P.toBeamCfg t s.beam.bunches with h | h
        · exact absurd (Or.inl ⟨hlen, h⟩) hn
        · exact Or.inl ⟨hlen, h⟩
      · exact Or.inr ⟨hlen, rfl⟩
    obtain ⟨fresh, hfr⟩ := fresh_exists G P
    obtain ⟨bs, hbs⟩ := (injectAll_total (G := G) (t := t) hdt hP.duration_pos
      (create P.toBeamCfg t fresh s.beam).bunches).1
    have hb := BeamStep.ok fresh bs hfr hcl hbs
    obtain ⟨-, ⟨m', S', hc⟩, -⟩ := hcyc _ _ h1 (hpart _ hb) (ho _ hb)
    have hd := cycle_dead hc
    unfold partList at hd
    have hd' := List.forall₂_drop_append _ _ _ (List.Forall₂.flip hd)
    obtain ⟨B', e1, e2⟩ := exists_bunches (number := P.number) (B := bs)
      (T := S'.drop s.plasma.length) (List.Forall₂.flip hd')
    refine ⟨⟨m', S'.take s.plasma.length, ⟨_, B'⟩⟩, _, hb, ?_, ?_, rfl, e2⟩
    · unfold partList
      dsimp only
      rw [e1, List.take_append_drop]
      exact hc
    · have := hd.length_eq
      simp only [List.length_append, List.length_map, List.length_take] at this ⊢
      omega

end

/-! ## The clean-up -/

theorem cleanup_none_of {G : Geom} {C : BeamCfg} {t : ℝ} {bs : List BunchObj} {b : BunchObj} (hb : b ∈ bs)
    (h : (b.bunch_number : ℝ) < eraseNumber G C t) : Cleanup G C t bs none := by
  induction bs with
  | nil => cases hb
  | cons c bs ih =>
    by_cases hc : (c.bunch_number : ℝ) < eraseNumber G C t
    · exact .erase c bs C.number hc fun i h1 h2 => by omega
    · rcases List.mem_cons.1 hb with rfl | hb
      · exact absurd h hc
      · exact .young c bs _ hc (ih hb)

theorem of_cleanup_none {G : Geom} {C : BeamCfg} {t : ℝ} {bs : List BunchObj} {r : Option Unit}
    (h : Cleanup G C t bs r) : r = none → ∃ b ∈ bs, (b.bunch_number : ℝ) < eraseNumber G C t := by
  induction h with
  | nil => intro e; cases e
  | young b bs r _ _ ih => intro e; obtain ⟨c, hc, h⟩ := ih e; exact ⟨c, by simp [hc], h⟩
  | alive b bs r _ _ _ _ ih => intro e; obtain ⟨c, hc, h⟩ := ih e; exact ⟨c, by simp [hc], h⟩
  | erase b bs _ h _ => intro _; exact ⟨b, by simp, h⟩

theorem beamStep_initBeam {G : Geom} {P : BeamSetup} {t dt : ℝ} {s : BeamState} {r : Option BeamState}
    (h : BeamStep G P t dt s r) : InitBeam G P.toBeamCfg t dt s r := by
  cases h with
  | cleanupFail h => exact .cleanupFail h
  | injectFail fresh hf h hi => exact .injectFail fresh hf.1 h hi
  | ok fresh bs hf h hi => exact .ok fresh bs hf.1 h hi

theorem progRun_beamRun {G : Geom} {mode : PusherMode} {P : BeamSetup} {tbl : ℤ → ℤ → Option ℝ}
    {t0 dt : ℝ} {plasma : List Species} {n : ℕ} {s : ProgState}
    (h : ProgRun G mode P tbl t0 dt plasma n s) : BeamRun G P.toBeamCfg t0 dt n s.beam := by
  induction h with
  | start => exact .start
  | step n s s' _ hs ih =>
    obtain ⟨b, hb, -, -, h1, h2⟩ := hs
    exact .step n _ b _ ih (beamStep_initBeam hb) h1 h2

theorem beamRun_current_le {G : Geom} {C : BeamCfg} {t0 dt : ℝ} {n : ℕ} {b : BeamState}
    (h : BeamRun G C t0 dt n b) : b.current ≤ C.number_bunches := by
  induction h with
  | start => exact Nat.zero_le _
  | step j s s' s'' _ hi hc _ ih =>
    obtain ⟨fresh, h1, -⟩ := initBeam_create hi
    rw [hc, h1, create_current]
    split_ifs with hcond
    · exact hcond.2
    · exact ih

theorem cleanupAll_iff {G : Geom} {P : BeamSetup} (hP : P.Usable G) {t0 dt : ℝ} {n : ℕ} {b : BeamState}
    (h : BeamRun G P.toBeamCfg t0 dt n b) {t : ℝ} : CleanupAll G P.toBeamCfg t b none ↔
      1 < b.bunches.length ∧ G.z_size / P.velocity + P.duration < t := by
  have hp : 0 < P.duration + P.hole_duration := by linarith [hP.duration_pos, hP.hole_nonneg]
  have hnum := beamRun_numbers h
  have key : ∀ x : ℝ, 0 ≤ x → x < eraseNumber G P.toBeamCfg t →
      G.z_size / P.velocity + P.duration < t := by
    intro x h0 hx
    have : 0 < eraseNumber G P.toBeamCfg t := lt_of_le_of_lt h0 hx
    unfold eraseNumber at this
    rw [div_pos_iff_of_pos_right hp] at this
    linarith
  constructor
  · rintro (⟨h1, h2⟩ | ⟨-, h2⟩)
    · obtain ⟨c, -, hc⟩ := of_cleanup_none h2 rfl
      exact ⟨h1, key _ (Nat.cast_nonneg _) hc⟩
    · cases h2
  · rintro ⟨h1, h2⟩
    refine Or.inl ⟨h1, ?_⟩
    have h0 : 0 ∈ b.bunches.map BunchObj.bunch_number := by
      rw [hnum, List.mem_range]
      have := congrArg List.length hnum
      simp at this
      omega
    obtain ⟨c, hc, hc0⟩ := List.mem_map.1 h0
    refine cleanup_none_of hc ?_
    rw [hc0]
    unfold eraseNumber
    push_cast
    apply div_pos _ hp
    linarith

/-! ## C78 -/

/-- **C78** (no azimuthal motion in the plasma). The program with a usable beam can go wrong in exactly
one way: in an iteration that begins with two bunches or more, at a time when the first one should
have left the chamber.  As long as this is not so, the run goes on. -/
theorem C78_planar_partial (G : Geom) (hG : G.Valid) (hnr : 3 ≤ G.nr) (hnz : 3 ≤ G.nz) (mode : PusherMode)
    (hmode : mode = .borisRelativistic ∨ mode = .vay) (t0 dt : ℝ) (hdt : 0 < dt)
    (hdr : LIGHT_SPEED * dt ≤ G.dr) (hdz : LIGHT_SPEED * dt ≤ G.dz) (tbl : ℤ → ℤ → Option ℝ)
    (P : BeamSetup) (hP : P.Usable G) (plasma : List Species) (hS : ∀ p ∈ parts plasma, Ready G p)
    (n : ℕ) (s : ProgState) (h : ProgRun G mode P tbl t0 dt plasma n s) :
    (ProgFault G mode P (t0 + n * dt) dt s ↔
      1 < s.beam.bunches.length ∧ G.z_size / P.velocity + P.duration < t0 + n * dt) ∧
    (¬ ProgFault G mode P (t0 + n * dt) dt s → ∃ s', ProgRun G mode P tbl t0 dt plasma (n + 1) s') := by
  have hcl := cleanupAll_iff hP (progRun_beamRun h) (t := t0 + n * dt)
  have core := fun {t : ℝ} {s : ProgState} => prog_step (G := G) (mode := mode) (P := P) (t := t) (s := s)
    (Q := Ready G) (Good := fun m => Initialised G m ∧ NoAzimuthalField G m) (Okay := fun _ => True)
    hG hP hdt hdz hnz (fun _ h => h)
    (fun m S hm hQ _ => by
      obtain ⟨c1, c2, c3⟩ := C76_cycle_partial G hG hnr hnz mode hmode dt hdt hdr hdz m S ⟨hm.1, hm.2, hQ⟩
      exact ⟨c1, c2, fun m' S' hc => ⟨⟨(c3 _ _ hc).init, (c3 _ _ hc).field⟩, (c3 _ _ hc).ready⟩⟩)
    (fun _ _ _ _ _ => trivial)
  have inv : (Initialised G s.mem ∧ NoAzimuthalField G s.mem) ∧ (∀ p ∈ parts s.plasma, Ready G p) ∧
      BeamInv (Ready G) G P dt 0 (t0 + n * dt) s.beam.bunches := by
    clear hcl
    induction h with
    | start m1 m0 h1 h0 =>
      have := started_safe hG ⟨_, m1, h1, h0⟩ hS
      exact ⟨⟨this.init, this.field⟩, hS, fun b hb => by cases hb⟩
    | step n s s' _ hs ih =>
      obtain ⟨i1, i2, i3⟩ := ih
      obtain ⟨j1, j2, j3⟩ := (core i1 i2 i3).1 s' hs
      refine ⟨j1, j2, ?_⟩
      rw [show t0 + ((n + 1 : ℕ) : ℝ) * dt = t0 + n * dt + dt by push_cast; ring]
      exact j3
  obtain ⟨i1, i2, i3⟩ := inv
  obtain ⟨-, k2, k3⟩ := core i1 i2 i3
  refine ⟨⟨fun hf => ?_, fun hf => Or.inl (.cleanupFail (hcl.2 hf))⟩, ?_⟩
  · rcases k2 hf with hc | ⟨-, -, hc⟩
    · exact hcl.1 hc
    · exact absurd trivial hc
  · intro hnf
    obtain ⟨s', hs'⟩ := k3 ⟨fun hc => hnf (Or.inl (.cleanupFail hc)), fun _ _ => trivial⟩
    exact ⟨s', .step n s s' h hs'⟩

/-- **C78** (one bunch). With a single bunch (or none) and no azimuthal motion in the plasma the program
never goes wrong, and runs as long as wanted. -/
theorem C78_single_bunch_partial (G : Geom) (hG : G.Valid) (hnr : 3 ≤ G.nr) (hnz : 3 ≤ G.nz)
    (mode : PusherMode) (hmode : mode = .borisRelativistic ∨ mode = .vay) (t0 dt : ℝ) (hdt : 0 < dt)
    (hdr : LIGHT_SPEED * dt ≤ G.dr) (hdz : LIGHT_SPEED * dt ≤ G.dz) (tbl : ℤ → ℤ → Option ℝ)
    (P : BeamSetup) (hP : P.Usable G) (h1 : P.number_bunches ≤ 1) (plasma : List Species)
    (hS : ∀ p ∈ parts plasma, Ready G p) :
    (∀ n s, ProgRun G mode P tbl t0 dt plasma n s → ¬ ProgFault G mode P (t0 + n * dt) dt s) ∧
    ∀ n, ∃ s, ProgRun G mode P tbl t0 dt plasma n s := by
  have key := C78_planar_partial G hG hnr hnz mode hmode t0 dt hdt hdr hdz tbl P hP plasma hS
  have nf : ∀ n s, ProgRun G mode P tbl t0 dt plasma n s → ¬ ProgFault G mode P (t0 + n * dt) dt s := by
    intro n s h hf
    have hlen := ((key n s h).1.1 hf).1
    have hb := progRun_beamRun h
    have hnum := congrArg List.length (beamRun_numbers hb)
    simp only [List.length_map, List.length_range] at hnum
    have := beamRun_current_le hb
    omega
  refine ⟨nf, ?_⟩
  intro n
  induction n with
  | zero =>
    obtain ⟨x, s1, q1⟩ := setup_spec hG (fun _ => none)
    obtain ⟨y, s2, q2⟩ := pml_spec tbl q1
    exact ⟨_, .start x y s1.sound.2.1 s2.sound.2.1⟩
  | succ n ih =>
    obtain ⟨s, h⟩ := ih
    exact (key n s h).2 (nf n s h)

theorem cycle_not_last {G : Geom} {mode : PusherMode} {dt : ℝ} {m m' : Mem Loc} {S S' : List Species}
    (c : Cycle G mode dt m S m' S') : ∀ p ∈ parts S, ¬ InLastHalfCell G p := by
  intro p hp ⟨ha, hl⟩
  obtain ⟨_, _, _, S1', _, _, r3, _, _⟩ := c
  obtain ⟨s, hs, hp⟩ := List.mem_flatMap.1 hp
  obtain ⟨s', -, hss⟩ := forall2_left r3 hs
  obtain ⟨p', -, hpp⟩ := forall2_left hss.2 hp
  have := (hpp.1 ha).2.1
  linarith

/-- **C78** (any motion of the plasma). The program with a usable beam can go wrong in exactly two ways:
in the clean-up (as in `C78_planar_partial`), or because after the injection a live macroparticle is in
the last half cell before the outer wall.  If neither can happen, the run goes on. -/
theorem C78_any_plasma_partial (G : Geom) (hG : G.Valid) (hnr : 3 ≤ G.nr) (hnz : 3 ≤ G.nz)
    (mode : PusherMode) (hmode : mode = .borisRelativistic ∨ mode = .vay) (t0 dt : ℝ) (hdt : 0 < dt)
    (hdr : LIGHT_SPEED * dt ≤ G.dr) (hdz : LIGHT_SPEED * dt ≤ G.dz) (tbl : ℤ → ℤ → Option ℝ)
    (P : BeamSetup) (hP : P.Usable G) (plasma : List Species) (hS : ∀ p ∈ parts plasma, Inside G p)
    (n : ℕ) (s : ProgState) (h : ProgRun G mode P tbl t0 dt plasma n s) :
    ((∀ p ∈ parts s.plasma, Inside G p) ∧ ∀ b ∈ s.beam.bunches, ∀ i < P.number, Inside G (b.ps i)) ∧
    (ProgFault G mode P (t0 + n * dt) dt s ↔
      (1 < s.beam.bunches.length ∧ G.z_size / P.velocity + P.duration < t0 + n * dt) ∨
      ∃ b, BeamStep G P (t0 + n * dt) dt s.beam (some b) ∧
        ∃ p ∈ parts (partList P.number s.plasma b), InLastHalfCell G p) ∧
    (¬ ProgFault G mode P (t0 + n * dt) dt s → ∃ s', ProgRun G mode P tbl t0 dt plasma (n + 1) s') := by
  have hcl := cleanupAll_iff hP (progRun_beamRun h) (t := t0 + n * dt)
  have hready : ∀ p, Ready G p → Inside G p := by
    intro p hp ha
    obtain ⟨⟨a1, a2, a3, a4⟩, b1, -, b3, b4⟩ := hp ha
    exact ⟨⟨a1, by linarith [hG.dr_pos], a3, a4⟩, b1, b3, b4⟩
  have core := fun {t : ℝ} {s : ProgState} => prog_step (G := G) (mode := mode) (P := P) (t := t) (s := s)
    (Q := Inside G) (Good := Initialised G) (Okay := fun S => ∀ p ∈ parts S, ¬ InLastHalfCell G p)
    hG hP hdt hdz hnz hready
    (fun m S hm hQ ho => C76_any_cycle_partial G hG hnr hnz mode hmode dt hdt hdr hdz m hm S hQ ho)
    (fun _ _ _ _ hc => cycle_not_last hc)
  have inv : Initialised G s.mem ∧ (∀ p ∈ parts s.plasma, Inside G p) ∧
      BeamInv (Inside G) G P dt 0 (t0 + n * dt) s.beam.bunches := by
    clear hcl
    induction h with
    | start m1 m0 h1 h0 =>
      have hrep := Started.rep hG ⟨_, m1, h1, h0⟩
      exact ⟨fun l hl => by dsimp only; rw [hrep l hl]; rfl, hS, fun b hb => by cases hb⟩
    | step n s s' _ hs ih =>
      obtain ⟨i1, i2, i3⟩ := ih
      obtain ⟨j1, j2, j3⟩ := (core i1 i2 i3).1 s' hs
      refine ⟨j1, j2, ?_⟩
      rw [show t0 + ((n + 1 : ℕ) : ℝ) * dt = t0 + n * dt + dt by push_cast; ring]
      exact j3
  obtain ⟨i1, i2, i3⟩ := inv
  obtain ⟨-, k2, k3⟩ := core i1 i2 i3
  have hlastFault : ∀ b, BeamStep G P (t0 + n * dt) dt s.beam (some b) →
      (∃ p ∈ parts (partList P.number s.plasma b), InLastHalfCell G p) →
      ProgFault G mode P (t0 + n * dt) dt s := by
    rintro b hb ⟨p, hp, ha, hl⟩
    refine Or.inr ⟨b, hb, ?_⟩
    obtain ⟨n1, s1, q1⟩ := hRegion_spec hG dt i1.rep
    obtain ⟨s2, -⟩ := resetJ_spec hG q1
    refine Or.inr ⟨n1, s1.sound.2.1, Or.inr ⟨_, s2.sound.2.1, Or.inl ⟨p, hp, ha, Or.inl ?_⟩⟩⟩
    rintro ⟨-, h, -⟩
    linarith
  refine ⟨⟨i2, fun b hb => (i3 b hb).1⟩, ⟨fun hf => ?_, ?_⟩, ?_⟩
  · rcases k2 hf with hc | ⟨b, hb, hc⟩
    · exact Or.inl (hcl.1 hc)
    · push Not at hc
      exact Or.inr ⟨b, hb, hc⟩
  · rintro (hf | ⟨b, hb, hp⟩)
    · exact Or.inl (.cleanupFail (hcl.2 hf))
    · exact hlastFault b hb hp
  · intro hnf
    obtain ⟨s', hs'⟩ := k3 ⟨fun hc => hnf (Or.inl (.cleanupFail hc)),
      fun b hb p hp hl => hnf (hlastFault b hb ⟨p, hp, hl⟩)⟩
    exact ⟨s', .step n s s' h hs'⟩

/-! ## The configuration that comes with the program -/

theorem shipped_setup (debug : Bool) : ∃ G, (shipped debug).meaning.geometry = some G ∧ G.Valid ∧
    3 ≤ G.nr ∧ 3 ≤ G.nz ∧ G.z_size = 2 ∧ LIGHT_SPEED * (1 / 10 ^ 13) ≤ G.dr ∧
    LIGHT_SPEED * (1 / 10 ^ 13) ≤ G.dz ∧ (shipped debug).meaning.beamSetup.Usable G := by
  have hr : (shipped debug).meaning.geom.r_size = 1 / 4 := by
    norm_num [Desc.meaning, shipped, litF, Lit.value, fracValue]
  have hz : (shipped debug).meaning.geom.z_size = 2 := by
    norm_num [Desc.meaning, shipped, litF, Lit.value, fracValue]
  have hnr : (shipped debug).meaning.geom.n_grid_r.toNat = if debug then 31 else 255 := by
    cases debug <;> rfl
  have hnz : (shipped debug).meaning.geom.n_grid_z.toNat = if debug then 255 else 2047 := by
    cases debug <;> rfl
  obtain ⟨G, hg, hv, h1, h2, h3, h4⟩ := mkGeom_valid (rs := 1 / 4) (zs := 2)
    (ngr := if debug then 31 else 255) (ngz := if debug then 255 else 2047) (by norm_num) (by norm_num)
    (by cases debug <;> norm_num) (by cases debug <;> norm_num)
  have hdr : G.dr = if debug then 1 / 120 else 1 / 1016 := by
    have := hv.r_size_eq
    rw [h1, h3] at this
    cases debug <;> norm_num at this ⊢ <;> linarith
  have hdz : G.dz = if debug then 1 / 127 else 1 / 1023 := by
    have := hv.z_size_eq
    rw [h2, h4] at this
    cases debug <;> norm_num at this ⊢ <;> linarith
  refine ⟨G, ?_, hv, ?_, ?_, h2, ?_, ?_, ?_⟩
  · unfold Config.geometry
    rw [hr, hz, hnr, hnz, hg]
  · rw [h3]; cases debug <;> norm_num
  · rw [h4]; cases debug <;> norm_num
  · rw [hdr]; cases debug <;> norm_num [LIGHT_SPEED]
  · rw [hdz]; cases debug <;> norm_num [LIGHT_SPEED]
  · constructor
    · norm_num [Config.beamSetup, Desc.meaning, shipped, litF, litE, Lit.value, fracValue]
    · norm_num [Config.beamSetup, Desc.meaning, shipped, litF, litE, Lit.value, fracValue]
    · norm_num [Config.beamSetup, Desc.meaning, shipped, litF, litE, Lit.value, fracValue]
    · norm_num [Config.beamSetup, Desc.meaning, shipped, EL_MASS]
    · norm_num [Config.beamSetup, Desc.meaning, shipped, litF, litE, Lit.value, fracValue]
    · norm_num [Config.beamSetup, Desc.meaning, shipped, litF, litE, Lit.value, fracValue, LIGHT_SPEED]
    · rw [hdr]
      cases debug <;>
        norm_num [Config.beamSetup, Desc.meaning, shipped, litF, litE, Lit.value, fracValue]
    · rw [h1]
      norm_num [Config.beamSetup, Desc.meaning, shipped, litF, litE, Lit.value, fracValue]

/-- **C78, violated** The configuration that comes with the program, in debug mode or not: with a plasma
that does not move around the axis the iterations 0 to 101000 cannot go wrong, but iteration 101001 is
reached (long before the end of the run), and from then on every iteration can go wrong, whatever the
plasma does. -/
theorem C78_shipped_violated (debug : Bool) : ∃ c G, loadConfig (some (shipped debug).xml) = .ok c ∧
    c.geometry = some G ∧ c.time.current_time = 0 ∧
    c.time.current_time + (101001 : ℕ) * c.time.delta_t < c.time.end_time ∧
    ∀ (mode : PusherMode) (tbl : ℤ → ℤ → Option ℝ) (plasma : List Species),
      (∀ n s, ProgRun G mode c.beamSetup tbl c.time.current_time c.time.delta_t plasma n s → 101001 ≤ n →
        ProgFault G mode c.beamSetup (c.time.current_time + n * c.time.delta_t) c.time.delta_t s) ∧
      ((mode = .borisRelativistic ∨ mode = .vay) → (∀ p ∈ parts plasma, Ready G p) →
        (∀ n s, ProgRun G mode c.beamSetup tbl c.time.current_time c.time.delta_t plasma n s → n ≤ 101000 →
          ¬ ProgFault G mode c.beamSetup (c.time.current_time + n * c.time.delta_t) c.time.delta_t s) ∧
        ∃ s, ProgRun G mode c.beamSetup tbl c.time.current_time c.time.delta_t plasma 101001 s) := by
  obtain ⟨G, hg, hv, hnr, hnz, hz, hdr, hdz, hP⟩ := shipped_setup debug
  obtain ⟨c, hc⟩ : ∃ c, c = (shipped debug).meaning := ⟨_, rfl⟩
  have ht : c.time.current_time = 0 := by
    rw [hc]; norm_num [Desc.meaning, shipped, litI, Lit.value, fracValue]
  have hdt : c.time.delta_t = 1 / 10 ^ 13 := by
    rw [hc]; norm_num [Desc.meaning, shipped, litE, Lit.value, fracValue]
  have hend : c.time.end_time = 5 / 10 ^ 8 := by
    rw [hc]; norm_num [Desc.meaning, shipped, litE, Lit.value, fracValue]
  have hvel : c.beamSetup.velocity = 2 * 10 ^ 8 := by
    rw [hc]; norm_num [Config.beamSetup, Desc.meaning, shipped, litE, Lit.value, fracValue]
  have hdur : c.beamSetup.duration = 1 / 10 ^ 10 := by
    rw [hc]; norm_num [Config.beamSetup, Desc.meaning, shipped, litE, litF, Lit.value, fracValue]
  have hhole : c.beamSetup.hole_duration = 1 / 10 ^ 9 := by
    rw [hc]; norm_num [Config.beamSetup, Desc.meaning, shipped, litE, litF, Lit.value, fracValue]
  have hnb : c.beamSetup.number_bunches = 2 := by rw [hc]; rfl
  rw [← hc] at hP hg
  refine ⟨c, G, by rw [hc]; exact C68_read_back _ (shipped_ok debug), hg, ht, ?_, ?_⟩
  · rw [ht, hdt, hend]; norm_num
  intro mode tbl plasma
  rw [ht, hdt]
  constructor
  · intro n s h hn
    have hb := progRun_beamRun h
    have hn' : (101001 : ℝ) ≤ n := by exact_mod_cast hn
    refine Or.inl (.cleanupFail ((cleanupAll_iff hP hb).2 ⟨?_, ?_⟩))
    · obtain ⟨j, rfl⟩ : ∃ j, n = j + 1 := ⟨n - 1, by omega⟩
      have hj : (101000 : ℝ) ≤ j := by push_cast at hn'; linarith
      have hex := (C30_schedule_usual G c.beamSetup.toBeamCfg 0 (1 / 10 ^ 13) le_rfl (by norm_num)
        (by rw [hdur, hhole]; norm_num) (by rw [hdur, hhole]; norm_num) j s.beam hb 1).2
        ⟨by rw [hnb]; norm_num, by rw [hdur, hhole]; push_cast; linarith⟩
      obtain ⟨b, hbm, hb1⟩ := hex
      have hnum := beamRun_numbers hb
      have hmem : 1 ∈ List.range s.beam.current := by
        rw [← hnum]; exact List.mem_map.2 ⟨b, hbm, hb1⟩
      have hlen := congrArg List.length hnum
      simp only [List.length_map, List.length_range, List.mem_range] at hlen hmem
      omega
    · rw [hz, hvel, hdur]; linarith
  · intro hmode hS
    have key := C78_planar_partial G hv hnr hnz mode hmode 0 (1 / 10 ^ 13) (by norm_num) hdr hdz tbl
      c.beamSetup hP plasma hS
    have nf : ∀ n s, ProgRun G mode c.beamSetup tbl 0 (1 / 10 ^ 13) plasma n s → n ≤ 101000 →
        ¬ ProgFault G mode c.beamSetup (0 + n * (1 / 10 ^ 13)) (1 / 10 ^ 13) s := by
      intro n s h hn hf
      have := ((key n s h).1.1 hf).2
      have hn' : (n : ℝ) ≤ 101000 := by exact_mod_cast hn
      rw [hz, hvel, hdur] at this
      linarith
    refine ⟨nf, ?_⟩
    have ex : ∀ n, n ≤ 101001 → ∃ s, ProgRun G mode c.beamSetup tbl 0 (1 / 10 ^ 13) plasma n s := by
      intro n
      induction n with
      | zero =>
        intro _
        obtain ⟨x, s1, q1⟩ := setup_spec hv (fun _ => none)
        obtain ⟨y, s2, q2⟩ := pml_spec tbl q1
        exact ⟨_, .start x y s1.sound.2.1 s2.sound.2.1⟩
      | succ n ih =>
        intro hn
        obtain ⟨s, h⟩ := ih (by omega)
        exact (key n s h).2 (nf n s h (by omega))
    exact ex _ le_rfl

/-- Hypotheses: the geometry and the beam that come with the program; with one of its bunches only, the
program runs without end. -/
example : ∃ (G : Geom) (P : BeamSetup), P.Usable G ∧ P.number_bunches = 1 ∧ P.number = 1000000 ∧
    ∀ n, ∃ s, ProgRun G .vay P (fun _ _ => none) 0 (1 / 10 ^ 13) [] n s := by
  obtain ⟨G, hg, hv, hnr, hnz, hz, hdr, hdz, hP⟩ := shipped_setup false
  have hP' : BeamSetup.Usable G { (shipped false).meaning.beamSetup with number_bunches := 1 } :=
    ⟨hP.1, hP.2, hP.3, hP.4, hP.5, hP.6, hP.7, hP.8⟩
  refine ⟨G, _, hP', rfl, ?_, ?_⟩
  · norm_num [Config.beamSetup, Desc.meaning, shipped, litE, Lit.value, fracValue]
    rfl
  · exact (C78_single_bunch_partial G hv hnr hnz .vay (Or.inr rfl) 0 (1 / 10 ^ 13) (by norm_num) hdr hdz
      _ _ hP' le_rfl [] (fun p hp => by simp [parts] at hp)).2

end Verif
