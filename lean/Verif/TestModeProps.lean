import Verif.TestMode
import Verif.PlasmaProps
import Verif.GatherProps

/-!
# C88: runs of a program built for tests can be repeated
-/

namespace Verif

/-! ## Specification -/

/-- Two macroparticles that differ at most in what is not used before it is set again: the old position and the angle. -/
structure SamePart (p q : Particle) : Prop where
  alive : p.alive = q.alive
  pos : p.pos = q.pos
  vel : p.vel = q.vel
  charge : p.charge = q.charge
  mass : p.mass = q.mass

/-- Two species with the same macroparticles in the same order -/
def SameSpecies (s t : Species) : Prop := s.bunch = t.bunch ∧ List.Forall₂ SamePart s.ps t.ps

/-- Two bunches with the same macroparticles -/
def SameBunch (number : ℕ) (b c : BunchObj) : Prop :=
  b.bunch_number = c.bunch_number ∧ ∀ i < number, SamePart (b.ps i) (c.ps i)

/-- Two states of the program with the same fields, currents, plasma and beam -/
structure SameState (number : ℕ) (s t : ProgState) : Prop where
  mem : s.mem = t.mem
  plasma : List.Forall₂ SameSpecies s.plasma t.plasma
  current : s.beam.current = t.beam.current
  bunches : List.Forall₂ (SameBunch number) s.beam.bunches t.beam.bunches

/-! ## One macroparticle -/

/-- The same, after the first half of the step: where it was and the angle are now set for those alive. -/
structure SameMid (p q : Particle) : Prop extends SamePart p q where
  old0 : p.alive = true → p.posOld.c0 = q.posOld.c0
  old2 : p.alive = true → p.posOld.c2 = q.posOld.c2
  sin : p.alive = true → p.sinTheta = q.sinTheta

theorem SamePart.form {p q : Particle} (h : SamePart p q) :
    q = { p with posOld := q.posOld, sinTheta := q.sinTheta, cosTheta := q.cosTheta } := by
  cases p; cases q
  obtain ⟨h1, h2, h3, h4, h5⟩ := h
  dsimp only at *
  subst h1 h2 h3 h4 h5
  rfl

theorem push_garbage {mode : PusherMode} (hmode : mode ≠ .borisAdaptive) (g g' : Bool) (dt q m : ℝ) (e h v : V3) :
    push mode g dt q m e h v = push mode g' dt q m e h v := by
  cases mode <;> first | rfl | exact absurd rfl hmode

theorem stepV_same {G : Geom} {F : Fields} {mode : PusherMode} (hmode : mode ≠ .borisAdaptive) {g g' : Bool} {dt : ℝ}
    {p q p1 q1 : Particle} (h : SamePart p q) (hp : stepVSingle G F mode g dt p = some p1)
    (hq : stepVSingle G F mode g' dt q = some q1) : SameMid p1 q1 := by
  rw [h.form] at hq
  obtain ⟨o, ho⟩ : ∃ o, o = q.posOld := ⟨_, rfl⟩
  obtain ⟨s, hs⟩ : ∃ s, s = q.sinTheta := ⟨_, rfl⟩
  obtain ⟨c, hc⟩ : ∃ c, c = q.cosTheta := ⟨_, rfl⟩
  rw [← ho, ← hs, ← hc] at hq
  clear h ho hs hc
  unfold stepVSingle at hp hq
  dsimp only at hp hq
  by_cases ha : p.alive = true
  · rw [if_pos ha] at hp hq
    rw [push_garbage hmode g' g] at hq
    obtain ⟨v, hv, hp⟩ := Option.bind_eq_some_iff.1 hp
    obtain ⟨v', hv', hq⟩ := Option.bind_eq_some_iff.1 hq
    rw [hv, Option.some.injEq] at hv'
    subst hv'
    unfold backPosition halfStep dumpOld at hp hq
    dsimp only at hp hq
    split_ifs at hp hq
    cases hp
    cases hq
    exact ⟨⟨rfl, rfl, rfl, rfl, rfl⟩, fun _ => rfl, fun _ => rfl, fun _ => rfl⟩
  · rw [if_neg ha] at hp hq
    cases hp
    cases hq
    exact ⟨⟨rfl, rfl, rfl, rfl, rfl⟩, fun h => absurd h ha, fun h => absurd h ha, fun h => absurd h ha⟩

theorem reflectionOf_congr (b : Bool) (G : Geom) (p : Particle) (o : V3) (s c : ℝ) :
    reflectionOf b G { p with posOld := o, sinTheta := s, cosTheta := c } =
      { reflectionOf b G p with posOld := o, sinTheta := s, cosTheta := c } := by
  unfold reflectionOf bunchReflection reflection reflectLow
  dsimp only
  cases b
  · simp only [Bool.false_eq_true, if_false]
    split_ifs <;> first | rfl | (exfalso; simp_all)
  · simp only [if_true]
    split_ifs <;> first | rfl | (exfalso; simp_all)

theorem move_same {G : Geom} {b : Bool} {dt : ℝ} {p q p1 q1 : Particle} (h : SameMid p q)
    (hp : moveHalfReflectSingle b G dt p = some p1) (hq : moveHalfReflectSingle b G dt q = some q1) :
    SameMid p1 q1 := by
  unfold moveHalfReflectSingle at hp hq
  by_cases ha : p.alive = true
  · rw [← h.alive, if_pos ha] at hq
    rw [if_pos ha] at hp
    have e : halfStep dt q = { halfStep dt p with posOld := q.posOld, sinTheta := q.sinTheta, cosTheta := q.cosTheta } := by
      conv_lhs => rw [h.form]
      rfl
    rw [e, reflectionOf_congr] at hq
    have hold : (reflectionOf b G (halfStep dt p)).posOld = p.posOld := by
      rw [(reflectionOf_props b G _).2]
      rfl
    unfold backPosition at hp hq
    dsimp only at hp hq
    split_ifs at hp hq
    cases hp
    cases hq
    refine ⟨⟨rfl, rfl, rfl, rfl, rfl⟩, fun _ => ?_, fun _ => ?_, fun _ => rfl⟩
    · dsimp only; rw [hold, h.old0 ha]
    · dsimp only; rw [hold, h.old2 ha]
  · rw [← h.alive, if_neg ha] at hq
    rw [if_neg ha] at hp
    cases hp
    cases hq
    exact h

theorem backV_same {p q : Particle} (h : SameMid p q) : SamePart (backVelocitySingle p) (backVelocitySingle q) := by
  unfold backVelocitySingle
  rw [← h.alive]
  by_cases ha : p.alive = true
  · rw [if_pos ha, if_pos ha]
    unfold backVelocity
    rw [← h.sin ha, ← h.vel]
    exact ⟨h.alive, h.pos, rfl, h.charge, h.mass⟩
  · rw [if_neg ha, if_neg ha]
    exact h.toSamePart

theorem azimuthal_same (G : Geom) {p q : Particle} (h : SamePart p q) : azimuthalCalls G p = azimuthalCalls G q := by
  unfold azimuthalCalls
  rw [h.alive, h.charge, h.vel, h.pos]

theorem moveCalls_same (G : Geom) (dt : ℝ) {p q : Particle} (h : SameMid p q) :
    moveCalls G dt p = moveCalls G dt q := by
  unfold moveCalls
  by_cases ha : p.alive = true
  · rw [← h.alive, if_pos ha, if_pos ha, h.charge, h.pos, h.old0 ha, h.old2 ha]
  · rw [← h.alive, if_neg ha, if_neg ha]

/-! ## Lists -/

theorem forall2_square {α β γ δ : Type} {A : α → β → Prop} {R : α → γ → Prop} {R' : β → δ → Prop} {B : γ → δ → Prop}
    (hB : ∀ x y u v, A x y → R x u → R' y v → B u v) {a : List α} {b : List β} (h : List.Forall₂ A a b) :
    ∀ {c : List γ} {d : List δ}, List.Forall₂ R a c → List.Forall₂ R' b d → List.Forall₂ B c d := by
  induction h with
  | nil => intro c d h1 h2; cases h1; cases h2; exact .nil
  | cons h _ ih =>
    intro c d h1 h2
    cases h1 with
    | cons h1 t1 => cases h2 with
      | cons h2 t2 => exact .cons (hB _ _ _ _ h h1 h2) (ih t1 t2)

theorem forall2_map_eq {α β : Type} {A : α → α → Prop} {f : α → β} (hf : ∀ x y, A x y → f x = f y) {a b : List α}
    (h : List.Forall₂ A a b) : a.map f = b.map f := by
  induction h with
  | nil => rfl
  | cons h _ ih => rw [List.map_cons, List.map_cons, hf _ _ h, ih]

/-- between the two halves of the step -/
def SameMidSpecies (s t : Species) : Prop := s.bunch = t.bunch ∧ List.Forall₂ SameMid s.ps t.ps

theorem fullCurrent_same {G : Geom} {dt : ℝ} {s t s' t' : Species} {m m1 m2 : Mem Loc} (h : SameMidSpecies s t)
    (hs : FullCurrent G dt s m s' m1) (ht : FullCurrent G dt t m t' m2) : m1 = m2 ∧ SameSpecies s' t' := by
  obtain ⟨la, lc, ma, moved, a1, a2, a3, a4, a5, rfl⟩ := hs
  obtain ⟨lb, ld, mb, moved', b1, b2, b3, b4, b5, rfl⟩ := ht
  have hmv : List.Forall₂ SameMid moved moved' := by
    rw [← h.1] at b3
    refine forall2_square ?_ h.2 a3 b3
    intro _ _ _ _ h1 h2 h3
    exact move_same h1 h2 h3
  rw [← forall2_map_eq (fun _ _ h => azimuthal_same G h.toSamePart) h.2, a1, Option.some.injEq] at b1
  subst b1
  rw [a2, Option.some.injEq] at b2
  subst b2
  rw [← forall2_map_eq (fun _ _ h => moveCalls_same G dt h) hmv, a4, Option.some.injEq] at b4
  subst b4
  rw [a5, Option.some.injEq] at b5
  refine ⟨b5, h.1, ?_⟩
  dsimp only
  rw [List.forall₂_map_left_iff, List.forall₂_map_right_iff]
  exact hmv.imp fun _ _ => backV_same

theorem fullCurrentAll_same {G : Geom} {dt : ℝ} {S T : List Species} (h : List.Forall₂ SameMidSpecies S T) :
    ∀ {S' T' : List Species} {m m1 m2 : Mem Loc}, FullCurrentAll G dt S m S' m1 → FullCurrentAll G dt T m T' m2 →
      m1 = m2 ∧ List.Forall₂ SameSpecies S' T' := by
  induction h with
  | nil => intro S' T' m m1 m2 h1 h2; cases h1; cases h2; exact ⟨rfl, .nil⟩
  | cons h _ ih =>
    intro S' T' m m1 m2 h1 h2
    cases h1 with
    | cons h1 t1 => cases h2 with
      | cons h2 t2 =>
        obtain ⟨rfl, e⟩ := fullCurrent_same h h1 h2
        obtain ⟨e1, e2⟩ := ih t1 t2
        exact ⟨e1, .cons e e2⟩

theorem move_arr {G : Geom} {dt : ℝ} (ps : List Particle) : ∀ (l : List JCall),
    seqCalls (ps.map (moveCalls G dt)) = some l → ∀ c ∈ l, c.arr = .jr ∨ c.arr = .jz := by
  induction ps with
  | nil => intro l h c hc; simp [seqCalls] at h; subst h; cases hc
  | cons p ps ih =>
    intro l h c hc
    obtain ⟨x, y, hx, hy, rfl⟩ := seqCalls_cons h
    rcases List.mem_append.1 hc with hc | hc
    · unfold moveCalls at hx
      split_ifs at hx
      · obtain ⟨J, -, rfl⟩ := Option.map_eq_some_iff.1 hx
        rcases List.mem_append.1 hc with hc | hc
        · obtain ⟨d, -, rfl⟩ := List.mem_map.1 hc
          exact Or.inl rfl
        · obtain ⟨d, -, rfl⟩ := List.mem_map.1 hc
          exact Or.inr rfl
      · rw [Option.some.injEq] at hx; subst hx; cases hc
    · exact ih y hy c hc

/-- the deposition as a list of increments -/
theorem fullCurrentAll_incs {G : Geom} {dt : ℝ} {S S' : List Species} {m m' : Mem Loc}
    (h : FullCurrentAll G dt S m S' m') :
    ∃ l, incsMem G l m = some m' ∧ ∀ c ∈ l, c.arr = .jr ∨ c.arr = .jphi ∨ c.arr = .jz := by
  induction h with
  | nil m => exact ⟨[], rfl, fun c hc => by cases hc⟩
  | cons h _ ih =>
    obtain ⟨la, lc, ma, moved, a1, a2, -, a4, a5, -⟩ := h
    obtain ⟨l, e1, e2⟩ := ih
    refine ⟨la ++ (lc ++ l), ?_, ?_⟩
    · rw [incsMem_append, a2, Option.bind_some, incsMem_append, a5, Option.bind_some, e1]
    · intro c hc
      rcases List.mem_append.1 hc with hc | hc
      · exact Or.inr (Or.inl (azimuthal_arr _ _ a1 c hc))
      · rcases List.mem_append.1 hc with hc | hc
        · rcases move_arr _ _ a4 c hc with h | h
          · exact Or.inl h
          · exact Or.inr (Or.inr h)
        · exact e2 c hc

/-! ## The cycle -/

/-- **C88 (partial)**, one cycle of any build. From the same fields and macroparticles, in arrays that have values where the
program reads them, all completed cycles lead to the same fields, currents and macroparticles, whatever the schedule and
whatever was in the values not set.
Missing: the adaptive pusher, see `C88_adaptive_violated`. -/
theorem C88_cycle_partial (G : Geom) (hG : G.Valid) (mode : PusherMode) (hmode : mode ≠ .borisAdaptive) (dt : ℝ)
    (m m1 m2 : Mem Loc) (S T S1 T1 : List Species) (hm : Initialised G m) (hST : List.Forall₂ SameSpecies S T)
    (h1 : Cycle G mode dt m S m1 S1) (h2 : Cycle G mode dt m T m2 T1) :
    m1 = m2 ∧ List.Forall₂ SameSpecies S1 T1 ∧ Initialised G m1 := by
  obtain ⟨a1, a2, a3, A, r1, r2, r3, r4, r5⟩ := h1
  obtain ⟨b1, b2, b3, B, q1, q2, q3, q4, q5⟩ := h2
  obtain ⟨n1, s1, w1⟩ := hRegion_spec hG dt hm.rep
  have e1 : b1 = a1 := (s1.sound.2.2 _ q1).trans (s1.sound.2.2 _ r1).symm
  subst e1
  obtain rfl := s1.sound.2.2 _ r1
  obtain ⟨s2, w2⟩ := resetJ_spec hG w1
  have e2 : b2 = a2 := (s2.sound.2.2 _ q2).trans (s2.sound.2.2 _ r2).symm
  subst e2
  have hAB : List.Forall₂ SameMidSpecies A B := by
    refine forall2_square ?_ hST r3 q3
    rintro s t s1 t1 ⟨c1, c2⟩ ⟨d1, d2⟩ ⟨f1, f2⟩
    refine ⟨d1.trans (c1.trans f1.symm), forall2_square ?_ c2 d2 f2⟩
    rintro p q p1 q1 hpq ⟨-, g, hg⟩ ⟨-, g', hg'⟩
    exact stepV_same hmode hpq hg hg'
  obtain ⟨rfl, hS⟩ := fullCurrentAll_same hAB r4 q4
  obtain ⟨l, i1, i2⟩ := fullCurrentAll_incs r4
  obtain ⟨-, n', -, u, rep, -⟩ := fieldStep_spec hG dt (incsMem_ok l i2 _ _ i1) hm.rep
  have u1 := u _ ⟨_, _, _, r1, r2, ⟨l, .refl l, i1⟩, r5⟩
  have u2 := u _ ⟨_, _, _, r1, r2, ⟨l, .refl l, i1⟩, q5⟩
  refine ⟨u1.trans u2.symm, hS, ?_⟩
  rw [u1]
  exact rep.initialised

/-! ## The beam -/

theorem randomReverse_unique {v : ℝ} {b : ℤ} {x y : ℝ} (hx : RandomReverse v b x) (hy : RandomReverse v b y) : x = y :=
  rrloop_unique hx hy

theorem newBunch_length (G : Geom) (a b c d e f : ℝ) (draws : List ℝ) :
    (newBunch G a b c d e f draws).length = draws.length := by
  unfold newBunch; simp

theorem testFresh_same {G : Geom} {P : BeamSetup} {f f' : ℕ → Particle} (h : TestFresh G P f) (h' : TestFresh G P f') :
    ∀ i < P.number, SamePart (f i) (f' i) := by
  obtain ⟨a1, d, a2, a3, a4⟩ := h
  obtain ⟨b1, d', b2, b3, b4⟩ := h'
  have : d = d' := by
    apply List.ext_getElem (a2.trans b2.symm)
    intro i h1 h2
    exact randomReverse_unique (a3 i _ (List.getElem?_eq_getElem h1)) (b3 i _ (List.getElem?_eq_getElem h2))
  subst this
  intro i hi
  have hl : i < (newBunch G P.charge P.mass P.duration P.radius P.density P.velocity d).length := by
    rw [newBunch_length, a2]; exact hi
  obtain ⟨p1, p2, p3, p4⟩ := a4 i _ (List.getElem?_eq_getElem hl)
  obtain ⟨q1, q2, q3, q4⟩ := b4 i _ (List.getElem?_eq_getElem hl)
  exact ⟨(a1 i).trans (b1 i).symm, p1.trans q1.symm, p2.trans q2.symm, p3.trans q3.symm, p4.trans q4.symm⟩

theorem injectOne_same {G : Geom} {B : BunchCfg} {dt u : ℝ} {p q : Particle} (h : SamePart p q) :
    SamePart (injectOne G B dt u p) (injectOne G B dt u q) := by
  refine ⟨rfl, ?_, ?_, h.charge, h.mass⟩
  · unfold injectOne; rw [h.pos]
  · unfold injectOne; rw [h.vel]

theorem testInject_same {G : Geom} {B : BunchCfg} {bn : ℕ} {t dt : ℝ} (hdt : 0 < dt) {ps qs ps' qs' : ℕ → Particle}
    (h : ∀ i < B.number, SamePart (ps i) (qs i)) (hp : TestInject G B bn t dt ps ps')
    (hq : TestInject G B bn t dt qs qs') : ∀ i < B.number, SamePart (ps' i) (qs' i) := by
  cases hp with
  | skip h1 hw => cases hq with
    | skip => exact h
    | run _ _ _ _ hw' => exact absurd hw' hw
  | run rand order start h1 hw hst hrand horder => cases hq with
    | skip _ hw' => exact absurd hw hw'
    | run rand' order' start' h1' hw' hst' hrand' horder' =>
      have hs : start = start' := hst.trans hst'.symm
      subst hs
      have hr : rand = rand' := funext fun i => randomReverse_unique (hrand i) (hrand' i)
      subst hr
      have h0 : 0 ≤ start := by
        rw [hst, truncZ_nonneg]
        · apply Int.floor_nonneg.2
          have : 0 ≤ t - B.begin bn := by linarith [hw.1]
          positivity
        · have : 0 ≤ t - B.begin bn := by linarith [hw.1]
          positivity
      have n1 : order.Nodup := horder.nodup_iff.2 List.nodup_range
      have n2 : order'.Nodup := horder'.nodup_iff.2 List.nodup_range
      intro i hi
      rw [inject_fold G B dt rand start h0 order n1 ps i, inject_fold G B dt rand start h0 order' n2 qs i]
      simp only [horder.mem_iff, horder'.mem_iff]
      split_ifs
      · exact injectOne_same (h i hi)
      · exact h i hi

theorem create_same {G : Geom} {P : BeamSetup} {t : ℝ} {f f' : ℕ → Particle} (hf : TestFresh G P f)
    (hf' : TestFresh G P f') {s s' : BeamState} (hc : s.current = s'.current)
    (h : List.Forall₂ (SameBunch P.number) s.bunches s'.bunches) :
    (create P.toBeamCfg t f s).current = (create P.toBeamCfg t f' s').current ∧
    List.Forall₂ (SameBunch P.number) (create P.toBeamCfg t f s).bunches (create P.toBeamCfg t f' s').bunches := by
  unfold create
  rw [hc]
  split_ifs
  · exact ⟨rfl, List.rel_append h (.cons ⟨rfl, testFresh_same hf hf'⟩ .nil)⟩
  · exact ⟨hc, h⟩

theorem testBeamStep_same {G : Geom} {P : BeamSetup} {t dt : ℝ} (hdt : 0 < dt) {s s' b b' : BeamState}
    (hc : s.current = s'.current) (h : List.Forall₂ (SameBunch P.number) s.bunches s'.bunches)
    (hb : TestBeamStep G P t dt s b) (hb' : TestBeamStep G P t dt s' b') :
    b.current = b'.current ∧ List.Forall₂ (SameBunch P.number) b.bunches b'.bunches := by
  cases hb with
  | ok f bs hf hcl hi => cases hb' with
    | ok f' bs' hf' hcl' hi' =>
      obtain ⟨e1, e2⟩ := create_same (t := t) hf hf' hc h
      refine ⟨e1, forall2_square ?_ e2 hi hi'⟩
      rintro x y u v ⟨c1, c2⟩ ⟨d1, d2⟩ ⟨f1, f2⟩
      refine ⟨d1.trans (c1.trans f1.symm), ?_⟩
      rw [← c1] at f2
      exact testInject_same hdt c2 d2 f2

theorem partList_same {number : ℕ} {p q : List Species} {b c : BeamState} (h : List.Forall₂ SameSpecies p q)
    (hb : List.Forall₂ (SameBunch number) b.bunches c.bunches) :
    List.Forall₂ SameSpecies (partList number p b) (partList number q c) := by
  unfold partList
  refine List.rel_append h ?_
  rw [List.forall₂_map_left_iff, List.forall₂_map_right_iff]
  refine hb.imp ?_
  rintro x y ⟨-, hxy⟩
  refine ⟨rfl, ?_⟩
  unfold BunchObj.species
  dsimp only
  rw [List.forall₂_map_left_iff, List.forall₂_map_right_iff, List.forall₂_same]
  exact fun i hi => hxy i (List.mem_range.1 hi)

theorem bunches_same {number : ℕ} {B C : List BunchObj}
    (h : List.Forall₂ SameSpecies (B.map (BunchObj.species number)) (C.map (BunchObj.species number)))
    (hn : B.map BunchObj.bunch_number = C.map BunchObj.bunch_number) : List.Forall₂ (SameBunch number) B C := by
  induction B generalizing C with
  | nil => cases C with
    | nil => exact .nil
    | cons => cases h
  | cons b B ih => cases C with
    | nil => cases h
    | cons c C =>
      simp only [List.map_cons, List.cons.injEq] at hn
      simp only [List.map_cons, List.forall₂_cons] at h
      refine .cons ⟨hn.1, ?_⟩ (ih h.2 hn.2)
      have h2 := h.1.2
      simp only [BunchObj.species] at h2
      rw [List.forall₂_map_left_iff, List.forall₂_map_right_iff, List.forall₂_same] at h2
      exact fun i hi => h2 i (List.mem_range.2 hi)

/-! ## The plasma -/

theorem sampleRel_same {T : ℝ} {us : List (ℝ × ℝ)} {e : Option ℝ} (h : SampleRel T us e) :
    ∀ {vs : List (ℝ × ℝ)} {e' : Option ℝ}, SampleRel T vs e' →
      (∀ (k : ℕ) (d d' : ℝ × ℝ), us[k]? = some d → vs[k]? = some d' → d = d') → e = e' := by
  induction h with
  | accept U V gamma hg hV =>
    intro vs e' h' hk
    cases h' with
    | accept U' V' gamma' hg' hV' =>
      have := hk 0 _ _ rfl rfl
      cases this
      rw [hg, Option.some.injEq] at hg'
      rw [hg']
    | again U' V' gamma' hg' hV' =>
      have := hk 0 _ _ rfl rfl
      cases this
      rw [hg, Option.some.injEq] at hg'
      subst hg'
      exact absurd hV' hV
  | again U V gamma hg hV l e _ ih =>
    intro vs e' h' hk
    cases h' with
    | accept U' V' gamma' hg' hV' =>
      have := hk 0 _ _ rfl rfl
      cases this
      rw [hg, Option.some.injEq] at hg'
      subst hg'
      exact absurd hV hV'
    | again U' V' gamma' hg' hV' l' _ t' =>
      exact ih t' fun k d d' h1 h2 => hk (k + 1) d d' h1 h2

theorem energy_same {T : ℝ} {number i : ℕ} {us vs : List (ℝ × ℝ)} {e e' : ℝ} (hu : TestEnergyDraws T number i us)
    (hv : TestEnergyDraws T number i vs) (h : Sample T us (some e)) (h' : Sample T vs (some e')) : e = e' := by
  unfold TestEnergyDraws at hu hv
  unfold Sample at h h'
  split_ifs at hu hv h h' with hT
  · obtain ⟨d, rfl, hd⟩ := hu
    obtain ⟨d', rfl, hd'⟩ := hv
    obtain ⟨U, V, x, e1, e2, e3⟩ := h
    obtain ⟨U', V', x', f1, f2, f3⟩ := h'
    simp only [List.cons.injEq, and_true] at e1 f1
    subst e1 f1
    have : U = U' := randomReverse_unique hd hd'
    subst this
    rw [e2, Option.some.injEq] at f2
    cases e3
    cases f3
    exact f2
  · have := sampleRel_same h h' fun k d d' h1 h2 => by
      obtain ⟨-, a1, a2⟩ := hu k d h1
      obtain ⟨-, b1, b2⟩ := hv k d' h2
      exact Prod.ext (randomReverse_unique a1 b1) (randomReverse_unique a2 b2)
    exact Option.some.inj this

theorem direction_same {p : ℕ} {x y : V3} (hx : TestDirection p x) (hy : TestDirection p y) : x = y := by
  obtain ⟨r0, r1, r2, k0, k1, k2, a0, a1, a2, b0, b1, b2, rfl⟩ := hx
  obtain ⟨s0, s1, s2, l0, l1, l2, c0, c1, c2, d0, d1, d2, rfl⟩ := hy
  rw [randomReverse_unique a0 c0, randomReverse_unique a1 c1, randomReverse_unique a2 c2, randomReverse_unique b0 d0,
    randomReverse_unique b1 d1, randomReverse_unique b2 d2]

theorem loadCylindrical_length (G : Geom) (a b c d e : ℝ) (draws : List (ℝ × ℝ)) :
    (loadCylindrical G a b c d e draws).length = draws.length := by
  unfold loadCylindrical; simp

theorem codeDraws_unique {n : ℕ} {d d' : List (ℝ × ℝ)} (h : CodeDraws n d) (h' : CodeDraws n d') : d = d' := by
  apply List.ext_getElem (h.1.trans h'.1.symm)
  intro i h1 h2
  obtain ⟨a1, a2⟩ := h.2 i _ (List.getElem?_eq_getElem h1)
  obtain ⟨b1, b2⟩ := h'.2 i _ (List.getElem?_eq_getElem h2)
  exact Prod.ext (randomReverse_unique a1 b1) (randomReverse_unique a2 b2)

theorem testSpecies_same {G : Geom} {sp : SpecieSettings} {ps qs : List Particle} (h : TestSpecies G sp ps)
    (h' : TestSpecies G sp qs) : List.Forall₂ SamePart ps qs := by
  obtain ⟨d, hd, a1, a2⟩ := h
  obtain ⟨d', hd', b1, b2⟩ := h'
  have := codeDraws_unique hd hd'
  subst this
  rw [List.forall₂_iff_get]
  refine ⟨a1.trans b1.symm, fun i h1 h2 => ?_⟩
  have hl : i < (loadCylindrical G (sp.charge * EL_CHARGE) (sp.mass * EL_MASS) sp.left_density sp.right_density 0
      d).length := by rw [loadCylindrical_length, hd.1, ← a1]; exact h1
  obtain ⟨us, e, rnd, p1, p2, p3, p4, p5, p6, p7, p8⟩ := a2 i _ _ (List.getElem?_eq_getElem hl)
    (List.getElem?_eq_getElem h1)
  obtain ⟨vs, e', rnd', q1, q2, q3, q4, q5, q6, q7, q8⟩ := b2 i _ _ (List.getElem?_eq_getElem hl)
    (List.getElem?_eq_getElem h2)
  have := energy_same p1 q1 p2 q2
  subst this
  have := direction_same p3 q3
  subst this
  exact ⟨p4.trans q4.symm, p5.trans q5.symm, p6.trans q6.symm, p7.trans q7.symm, p8.trans q8.symm⟩

/-- **C88** (plasma). In a build for tests the settings fix the plasma that the run starts with. -/
theorem C88_plasma (G : Geom) (sps : List SpecieSettings) (S T : List Species) (hS : TestPlasma G sps S)
    (hT : TestPlasma G sps T) : List.Forall₂ SameSpecies S T := by
  unfold TestPlasma at hS hT
  refine forall2_square (A := Eq) ?_ (List.forall₂_same.2 fun _ _ => rfl) hS hT
  rintro x _ u v rfl ⟨h1, h2⟩ ⟨h3, h4⟩
  exact ⟨h1.trans h3.symm, testSpecies_same h2 h4⟩

/-! ## The run -/

/-- **C88 (partial)** (run). In a build for tests all runs with the same settings are in the same state before every
iteration that they reach: the same fields and currents, and the same macroparticles of plasma and beam, whatever the
threads did and whatever was in memory that the program had not set.
Missing: the adaptive pusher, see `C88_adaptive_violated`; a run may reach an iteration that another one does not, if
it faults (C78). -/
theorem C88_run_partial (G : Geom) (hG : G.Valid) (mode : PusherMode) (hmode : mode ≠ .borisAdaptive)
    (sps : List SpecieSettings) (P : BeamSetup) (tbl : ℤ → ℤ → Option ℝ) (t0 dt : ℝ) (hdt : 0 < dt) (n : ℕ)
    (s t : ProgState) (hs : TestRun G mode sps P tbl t0 dt n s) (ht : TestRun G mode sps P tbl t0 dt n t) :
    SameState P.number s t := by
  suffices h : SameState P.number s t ∧ Initialised G s.mem from h.1
  induction n generalizing s t with
  | zero =>
    cases hs with
    | start m1 m0 S h1 h0 hp => cases ht with
      | start m1' m0' T h1' h0' hp' =>
        obtain ⟨x, s1, r1⟩ := setup_spec hG (fun _ => none)
        have e1 : m1' = m1 := (s1.sound.2.2 _ h1').trans (s1.sound.2.2 _ h1).symm
        subst e1
        obtain rfl := s1.sound.2.2 _ h1
        obtain ⟨y, s2, r2⟩ := pml_spec tbl r1
        have e2 : m0' = m0 := (s2.sound.2.2 _ h0').trans (s2.sound.2.2 _ h0).symm
        subst e2
        obtain rfl := s2.sound.2.2 _ h0
        exact ⟨⟨rfl, C88_plasma G sps S T hp hp', rfl, .nil⟩, r2.initialised⟩
  | succ n ih =>
    cases hs with
    | step _ s0 _ hs0 hst => cases ht with
      | step _ u0 _ hu0 hut =>
        obtain ⟨⟨e1, e2, e3, e4⟩, hi⟩ := ih s0 u0 hs0 hu0
        obtain ⟨b, b1, b2, b3, b4, b5⟩ := hst
        obtain ⟨c, c1, c2, c3, c4, c5⟩ := hut
        obtain ⟨f1, f2⟩ := testBeamStep_same hdt e3 e4 b1 c1
        rw [← e1] at c2
        obtain ⟨g1, g2, g3⟩ := C88_cycle_partial G hG mode hmode dt _ _ _ _ _ _ _ hi (partList_same e2 f2) b2 c2
        have hl : s.plasma.length = t.plasma.length := by
          rw [b3, c3, e2.length_eq]
        unfold partList at g2
        refine ⟨⟨g1, ?_, by rw [b4, c4, f1], bunches_same ?_ ?_⟩, g3⟩
        · have := List.forall₂_take_append _ _ _ g2
          rwa [← hl, List.take_left] at this
        · have := List.forall₂_drop_append _ _ _ g2
          rwa [← hl, List.drop_left] at this
        · rw [b5, c5]
          exact forall2_map_eq (fun _ _ h => h.1) f2

/-! ## The program of Program.lean -/

theorem testFresh_fresh {G : Geom} {P : BeamSetup} {f : ℕ → Particle} (h : TestFresh G P f) : FreshBunch G P f := by
  obtain ⟨h1, d, h2, h3, h4⟩ := h
  refine ⟨h1, d, h2, ?_, h4⟩
  intro u hu
  obtain ⟨i, hi⟩ := List.getElem?_of_mem hu
  exact (C27_total (by norm_num) _).2 _ (h3 i u hi)

theorem testInject_inject {G : Geom} {B : BunchCfg} {bn : ℕ} {t dt : ℝ} {ps ps' : ℕ → Particle}
    (h : TestInject G B bn t dt ps ps') : Inject G B bn t dt ps (some ps') := by
  cases h with
  | skip h hw => exact .skip ps h hw
  | run rand order start h hw hst hr ho =>
    subst hst
    exact .run ps rand order h hw (fun i => (C27_total (by norm_num) _).2 _ (hr i)) ho

theorem injectAll_of {G : Geom} {B : BunchCfg} {t dt : ℝ} {bs bs' : List BunchObj}
    (h : List.Forall₂ (fun b b' : BunchObj => b'.bunch_number = b.bunch_number ∧
      TestInject G B b.bunch_number t dt b.ps b'.ps) bs bs') : InjectAll G B t dt bs (some bs') := by
  induction h with
  | nil => exact .nil
  | @cons b b' bs bs' h _ ih =>
    obtain ⟨h1, h2⟩ := h
    have := InjectAll.cons b bs b'.ps bs' (testInject_inject h2) ih
    rwa [← h1] at this

theorem testBeamStep_beamStep {G : Geom} {P : BeamSetup} {t dt : ℝ} {s b : BeamState}
    (h : TestBeamStep G P t dt s b) : BeamStep G P t dt s (some b) := by
  cases h with
  | ok f bs hf hc hi => exact .ok f bs (testFresh_fresh hf) hc (injectAll_of hi)

theorem testStep_progStep {G : Geom} {mode : PusherMode} {P : BeamSetup} {t dt : ℝ} {s s' : ProgState}
    (h : TestStep G mode P t dt s s') : ProgStep G mode P t dt s s' := by
  obtain ⟨b, h1, h2⟩ := h
  exact ⟨b, testBeamStep_beamStep h1, h2⟩

/-- **C88** (the same program). Every run of a build for tests is a run that the program can make in a build for use with the
same plasma: what holds for all runs of the program (C46, C49, C76, C78) holds for those as well. -/
theorem C88_program (G : Geom) (mode : PusherMode) (sps : List SpecieSettings) (P : BeamSetup) (tbl : ℤ → ℤ → Option ℝ)
    (t0 dt : ℝ) (n : ℕ) (s : ProgState) (h : TestRun G mode sps P tbl t0 dt n s) :
    ∃ plasma, TestPlasma G sps plasma ∧ ProgRun G mode P tbl t0 dt plasma n s := by
  induction h with
  | start m1 m0 S h1 h0 hp => exact ⟨S, hp, .start m1 m0 h1 h0⟩
  | step n s s' _ hs ih =>
    obtain ⟨S, hp, h⟩ := ih
    exact ⟨S, hp, .step n s s' h (testStep_progStep hs)⟩

/-! ## Runs exist -/

theorem testFresh_exists (G : Geom) (P : BeamSetup) : ∃ f, TestFresh G P f := by
  choose d hd _ using fun (v : ℕ) => (C27_total (p := 9) (by norm_num) (v : ℝ)).1
  obtain ⟨D, hD⟩ : ∃ D, D = (List.range P.number).map d := ⟨_, rfl⟩
  obtain ⟨L, hL⟩ : ∃ L, L = newBunch G P.charge P.mass P.duration P.radius P.density P.velocity D := ⟨_, rfl⟩
  refine ⟨fun i => ⟨false, (L[i]?.getD ⟨⟨0, 0, 0⟩, 0, 0⟩).pos, ⟨0, 0, 0⟩, ⟨0, 0, 0⟩,
    (L[i]?.getD ⟨⟨0, 0, 0⟩, 0, 0⟩).charge, (L[i]?.getD ⟨⟨0, 0, 0⟩, 0, 0⟩).mass, 0, 0⟩, fun _ => rfl,
    D, by simp [hD], ?_, ?_⟩
  · intro i u hu
    rw [hD, List.getElem?_map] at hu
    obtain ⟨j, hj, rfl⟩ := Option.map_eq_some_iff.1 hu
    obtain ⟨hlt, rfl⟩ := List.getElem?_eq_some_iff.1 hj
    rw [List.getElem_range]
    exact hd _
  · intro i l hl
    rw [← hL] at hl
    simp [hl]

theorem testInject_exists (G : Geom) (B : BunchCfg) (bn : ℕ) (t dt : ℝ) (hdt : 0 < dt) (hd : 0 < B.duration)
    (ps : ℕ → Particle) : ∃ ps', TestInject G B bn t dt ps ps' := by
  have h0 : ⌈B.duration / dt⌉ ≠ 0 := (Int.ceil_pos.2 (div_pos hd hdt)).ne'
  by_cases hw : t ≥ B.begin bn ∧ t < B.finish bn
  · choose d hd _ using fun (v : ℝ) => (C27_total (p := 11) (by norm_num) v).1
    exact ⟨_, .run ps (fun i => d _) _ _ h0 hw rfl (fun i => hd _) (.refl _)⟩
  · exact ⟨ps, .skip ps h0 hw⟩

theorem testInjectAll_exists (G : Geom) (B : BunchCfg) (t dt : ℝ) (hdt : 0 < dt) (hd : 0 < B.duration)
    (bs : List BunchObj) : ∃ bs', List.Forall₂ (fun b b' : BunchObj => b'.bunch_number = b.bunch_number ∧
      TestInject G B b.bunch_number t dt b.ps b'.ps) bs bs' := by
  induction bs with
  | nil => exact ⟨[], .nil⟩
  | cons b bs ih =>
    obtain ⟨bs', h⟩ := ih
    obtain ⟨ps, hp⟩ := testInject_exists G B b.bunch_number t dt hdt hd b.ps
    exact ⟨⟨b.bunch_number, ps⟩ :: bs', .cons ⟨rfl, hp⟩ h⟩

/-- **C88 (partial)** (runs exist). With a usable beam of at most one bunch and a plasma without azimuthal motion a build for
tests makes iterations without end.
Missing: other plasmas, which may fault as in C78. -/
theorem C88_goes_on_partial (G : Geom) (hG : G.Valid) (hnr : 3 ≤ G.nr) (hnz : 3 ≤ G.nz) (mode : PusherMode)
    (hmode : mode = .borisRelativistic ∨ mode = .vay) (t0 dt : ℝ) (hdt : 0 < dt) (hdr : LIGHT_SPEED * dt ≤ G.dr)
    (hdz : LIGHT_SPEED * dt ≤ G.dz) (tbl : ℤ → ℤ → Option ℝ) (P : BeamSetup) (hP : P.Usable G)
    (h1 : P.number_bunches ≤ 1) (sps : List SpecieSettings) (plasma : List Species) (hp : TestPlasma G sps plasma)
    (hS : ∀ p ∈ parts plasma, Ready G p) (n : ℕ) : ∃ s, TestRun G mode sps P tbl t0 dt n s := by
  have core := fun {t : ℝ} {s : ProgState} => prog_step (G := G) (mode := mode) (P := P) (t := t) (s := s)
    (Q := Ready G) (Good := fun m => Initialised G m ∧ NoAzimuthalField G m) (Okay := fun _ => True)
    hG hP hdt hdz hnz (fun _ h => h)
    (fun m S hm hQ _ => by
      obtain ⟨c1, c2, c3⟩ := C76_cycle_partial G hG hnr hnz mode hmode dt hdt hdr hdz m S ⟨hm.1, hm.2, hQ⟩
      exact ⟨c1, c2, fun m' S' hc => ⟨⟨(c3 _ _ hc).init, (c3 _ _ hc).field⟩, (c3 _ _ hc).ready⟩⟩)
    (fun _ _ _ _ _ => trivial)
  suffices h : ∃ s, TestRun G mode sps P tbl t0 dt n s ∧ ProgRun G mode P tbl t0 dt plasma n s ∧
      (Initialised G s.mem ∧ NoAzimuthalField G s.mem) ∧ (∀ p ∈ parts s.plasma, Ready G p) ∧
      BeamInv (Ready G) G P dt 0 (t0 + n * dt) s.beam.bunches by
    obtain ⟨s, h, -⟩ := h; exact ⟨s, h⟩
  induction n with
  | zero =>
    obtain ⟨s0, hs0⟩ := (C78_single_bunch_partial G hG hnr hnz mode hmode t0 dt hdt hdr hdz tbl P hP h1 plasma hS).2 0
    cases hs0 with
    | start m1 m0 r1 r0 =>
      have := started_safe hG ⟨_, m1, r1, r0⟩ hS
      exact ⟨_, .start m1 m0 plasma r1 r0 hp, .start m1 m0 r1 r0, ⟨this.init, this.field⟩, hS, fun b hb => by cases hb⟩
  | succ n ih =>
    obtain ⟨s, ht, hr, g1, g2, g3⟩ := ih
    have hnf := (C78_single_bunch_partial G hG hnr hnz mode hmode t0 dt hdt hdr hdz tbl P hP h1 plasma hS).1 n s hr
    have hcl : CleanupAll G P.toBeamCfg (t0 + n * dt) s.beam (some ()) := by
      by_cases hlen : s.beam.bunches.length > 1
      · rcases cleanup_total G P.toBeamCfg (t0 + n * dt) s.beam.bunches with h | h
        · exact absurd (Or.inl (.cleanupFail (Or.inl ⟨hlen, h⟩))) hnf
        · exact Or.inl ⟨hlen, h⟩
      · exact Or.inr ⟨hlen, rfl⟩
    obtain ⟨fresh, hfr⟩ := testFresh_exists G P
    obtain ⟨bs, hbs⟩ := testInjectAll_exists G P.toBunchCfg (t0 + n * dt) dt hdt hP.duration_pos
      (create P.toBeamCfg (t0 + n * dt) fresh s.beam).bunches
    have hb := TestBeamStep.ok fresh bs hfr hcl hbs
    have hq : ∀ p ∈ parts (partList P.number s.plasma ⟨(create P.toBeamCfg (t0 + n * dt) fresh s.beam).current, bs⟩),
        Ready G p := by
      intro p hp
      rcases parts_partList.1 hp with hp | ⟨c, hc, i, hi, rfl⟩
      · exact g2 p hp
      · exact (beamStep_inv hG hP hdt hdz hnz (fun _ h => h) g3 (testBeamStep_beamStep hb) c hc).1 i hi
    obtain ⟨-, ⟨m', S', hc⟩, -⟩ := C76_cycle_partial G hG hnr hnz mode hmode dt hdt hdr hdz _ _ ⟨g1.1, g1.2, hq⟩
    have hd := cycle_dead hc
    unfold partList at hd
    have hd' := List.forall₂_drop_append _ _ _ (List.Forall₂.flip hd)
    obtain ⟨B', e1, e2⟩ := exists_bunches (number := P.number) (B := bs)
      (T := S'.drop s.plasma.length) (List.Forall₂.flip hd')
    have hstep : TestStep G mode P (t0 + n * dt) dt s
        ⟨m', S'.take s.plasma.length, ⟨(create P.toBeamCfg (t0 + n * dt) fresh s.beam).current, B'⟩⟩ := by
      refine ⟨_, hb, ?_, ?_, rfl, e2⟩
      · unfold partList
        dsimp only
        rw [e1, List.take_append_drop]
        exact hc
      · have := hd.length_eq
        simp only [List.length_append, List.length_map, List.length_take] at this ⊢
        omega
    obtain ⟨k1, k2, k3⟩ := (core g1 g2 g3).1 _ (testStep_progStep hstep)
    refine ⟨_, .step n s _ ht hstep, .step n s _ hr (testStep_progStep hstep), k1, k2, ?_⟩
    have : t0 + ((n + 1 : ℕ) : ℝ) * dt = t0 + n * dt + dt := by push_cast; ring
    rw [this]
    exact k3

/-! ## The adaptive pusher -/

theorem adaptive_true : push .borisAdaptive true 1 1 1 ⟨1e9, 0, 0⟩ V3.zero V3.zero =
    some ⟨1e9 * getGammaInv (1e9 * 1e9), 0, 0⟩ := by
  have hs : snap V3.zero = V3.zero := snap_eq ⟨Or.inl rfl, Or.inl rfl, Or.inl rfl⟩
  have hu : useRel true V3.zero = true := by unfold useRel; split_ifs <;> rfl
  have hg : getGamma (V3.dot V3.zero V3.zero) = some 1 := by
    unfold getGamma V3.dot V3.zero; norm_num
  unfold push
  simp only [hu]
  unfold borisCore
  rw [if_neg (by norm_num), hs]
  simp only [smul_zero', if_true, hg, Option.map_some, borisRotate_zero]
  unfold V3.add V3.zero V3.smul V3.dot
  norm_num

theorem adaptive_false : push .borisAdaptive false 1 1 1 ⟨1e9, 0, 0⟩ V3.zero V3.zero = some ⟨1e9, 0, 0⟩ := by
  have hs : snap V3.zero = V3.zero := snap_eq ⟨Or.inl rfl, Or.inl rfl, Or.inl rfl⟩
  have hu : useRel false V3.zero = false := by
    unfold useRel
    rw [hs, if_neg]
    unfold V3.zero REL_LIMIT_POW_2; norm_num
  unfold push
  simp only [hu]
  unfold borisCore
  rw [if_neg (by norm_num), hs]
  simp only [smul_zero', Bool.false_eq_true, if_false, Option.map_some, borisRotate_zero]
  unfold V3.add V3.zero V3.smul
  norm_num

/-- **C88, violated** for the adaptive pusher: from the same fields and the same macroparticle the push of one build has two
results, because the pusher reads a variable that nobody has set. -/
theorem C88_adaptive_violated : ∃ (F : Fields) (dt : ℝ) (p : Particle) (S1 S2 : List Species),
    p.alive = true ∧ InRegion demoGeom p.pos.c0 p.pos.c2 ∧
    StepVAll demoGeom F .borisAdaptive dt [⟨false, [p]⟩] S1 ∧ StepVAll demoGeom F .borisAdaptive dt [⟨false, [p]⟩] S2 ∧
    ¬ List.Forall₂ SameSpecies S1 S2 := by
  have hreg : InRegion demoGeom 1 1 := by unfold InRegion demoGeom; norm_num
  have hw : weightHalf demoGeom 1 = 7 / 12 := by
    have : CELL_NUMBER (1 - 1 / 2 * (1 : ℝ)) 1 = 0 := by
      unfold CELL_NUMBER
      rw [show (1 - 1 / 2 * (1 : ℝ)) / 1 = 1 / 2 by norm_num, show ⌈(1 / 2 : ℝ)⌉ = 1 by
        rw [Int.ceil_eq_iff]; norm_num]
      rfl
    unfold weightHalf demoGeom
    dsimp only
    rw [this]
    norm_num [clamp0]
  obtain ⟨F, hF⟩ : ∃ F : Fields, F = fun a _ _ => if a = .er then 12e9 / 7 else 0 := ⟨_, rfl⟩
  have he : valE demoGeom F 1 1 = ⟨1e9, 0, 0⟩ := by
    unfold valE
    rw [hF]
    simp only [if_true, reduceCtorEq, if_false]
    rw [valHalf_uniform demoGeom_valid, valInt_uniform demoGeom_valid, valInt_uniform demoGeom_valid, hw]
    norm_num
  have hh : valH demoGeom F 1 1 = V3.zero := by
    unfold valH
    rw [hF]
    simp only [reduceCtorEq, if_false]
    rw [valHalf_uniform demoGeom_valid, valInt_uniform demoGeom_valid, valHalf_uniform demoGeom_valid]
    unfold V3.zero
    norm_num
  have hpos : ∀ x : ℝ, 0 < x → ∃ q, backPosition (halfStep 1 (dumpOld ⟨true, ⟨1, 0, 1⟩, V3.zero, ⟨x, 0, 0⟩, 1, 1, 0, 0⟩)) =
      some q ∧ q.vel = ⟨x, 0, 0⟩ := by
    intro x hx
    unfold backPosition halfStep dumpOld
    dsimp only
    rw [if_neg]
    · exact ⟨_, rfl, rfl⟩
    · rw [Real.sqrt_eq_zero']
      nlinarith
  have hgi : 0 < getGammaInv (1e9 * 1e9) ∧ getGammaInv (1e9 * 1e9) < 1 := by
    have h1 : (1 : ℝ) < 1 + 1e9 * 1e9 / LIGHT_SPEED_POW_2 := by
      unfold LIGHT_SPEED_POW_2 LIGHT_SPEED; norm_num
    unfold getGammaInv
    exact ⟨Real.rpow_pos_of_pos (by linarith) _, Real.rpow_lt_one_of_one_lt_of_neg h1 (by norm_num)⟩
  obtain ⟨q1, a1, b1⟩ := hpos (1e9 * getGammaInv (1e9 * 1e9)) (by have := hgi.1; positivity)
  obtain ⟨q2, a2, b2⟩ := hpos 1e9 (by norm_num)
  refine ⟨F, 1, ⟨true, ⟨1, 0, 1⟩, V3.zero, V3.zero, 1, 1, 0, 0⟩, [⟨false, [q1]⟩], [⟨false, [q2]⟩], rfl, hreg, ?_, ?_, ?_⟩
  · refine .cons ⟨rfl, .cons ⟨fun _ => hreg, true, ?_⟩ .nil⟩ .nil
    unfold stepVSingle
    rw [if_pos rfl]
    dsimp only
    rw [he, hh, adaptive_true, Option.bind_some, a1]
  · refine .cons ⟨rfl, .cons ⟨fun _ => hreg, false, ?_⟩ .nil⟩ .nil
    unfold stepVSingle
    rw [if_pos rfl]
    dsimp only
    rw [he, hh, adaptive_false, Option.bind_some, a2]
  · intro h
    cases h with
    | cons h _ =>
      have h2 := h.2
      cases h2 with
      | cons h _ =>
        have := h.vel
        rw [b1, b2] at this
        have := congrArg V3.c0 this
        dsimp only at this
        have := hgi.2
        linarith

/-! ## Examples -/

/-- the beam of the shipped file with one bunch, no plasma: the state before every iteration exists and is the only one -/
example : ∃ (G : Geom) (P : BeamSetup), P.number = 1000000 ∧ ∀ n, ∃ s, TestRun G .vay [] P (fun _ _ => none) 0 (1 / 10 ^ 13) n s ∧
    ∀ t, TestRun G .vay [] P (fun _ _ => none) 0 (1 / 10 ^ 13) n t → SameState P.number s t := by
  obtain ⟨G, hg, hv, hnr, hnz, hz, hdr, hdz, hP⟩ := shipped_setup false
  have hP' : BeamSetup.Usable G { (shipped false).meaning.beamSetup with number_bunches := 1 } :=
    ⟨hP.1, hP.2, hP.3, hP.4, hP.5, hP.6, hP.7, hP.8⟩
  refine ⟨G, { (shipped false).meaning.beamSetup with number_bunches := 1 }, ?_, fun n => ?_⟩
  · norm_num [Config.beamSetup, Desc.meaning, shipped, litE, Lit.value, fracValue]
    rfl
  · obtain ⟨s, hs⟩ := C88_goes_on_partial G hv hnr hnz .vay (Or.inr rfl) 0 (1 / 10 ^ 13) (by norm_num) hdr hdz
      (fun _ _ => none) _ hP' le_rfl [] [] .nil (fun p hp => by simp [parts] at hp) n
    exact ⟨s, hs, fun t ht => C88_run_partial G hv .vay (by simp) _ _ _ 0 _ (by norm_num) n s t hs ht⟩

/-- a cold species with one macroparticle can be loaded, so that `C88_plasma` speaks about something -/
example (G : Geom) : ∃ (sp : SpecieSettings) (S : List Species), sp.number = 1 ∧ sp.temperature = 1 / 20 ∧
    TestPlasma G [sp] S := by
  obtain ⟨sp, hn, hT⟩ : ∃ sp : SpecieSettings, sp.number_macro = 1 ∧ sp.temperature = 1 / 20 :=
    ⟨⟨[], -1, 1, 1, 1, 1, 1 / 20⟩, rfl, rfl⟩
  have hnum : sp.number = 1 := by unfold SpecieSettings.number; rw [hn]; norm_num
  have hU : RandomReverse (((1 : ℕ) : ℝ) - (0 : ℕ)) (9 + (0 : ℕ)) (1 / 9) := by
    unfold RandomReverse
    have e : ⌊((1 : ℕ) : ℝ) - (0 : ℕ)⌋ = 1 := by norm_num
    rw [e]
    refine RRLoop.step _ _ _ _ (by norm_num) (by norm_num) ?_
    have := RRLoop.done (power := 9) 0 (1 / 9) 2 (by decide)
    convert this using 1 <;> norm_num <;> decide
  have hexp : (1 / 9 : ℝ) ≠ Real.exp (-Real.exp 2) := by
    have h2 : (5 : ℝ) ≤ Real.exp 2 := by
      have := Real.quadratic_le_exp_of_nonneg (x := 2) (by norm_num)
      linarith
    have h5 : (18 : ℝ) ≤ Real.exp (Real.exp 2) := by
      have := Real.quadratic_le_exp_of_nonneg (x := Real.exp 2) (by linarith)
      nlinarith
    rw [Real.exp_neg]
    intro h
    have h6 : (0 : ℝ) < Real.exp (Real.exp 2) := Real.exp_pos _
    field_simp at h
    linarith
  obtain ⟨e, he, -⟩ := C60_classic_partial (1 / 20) (1 / 9) (by norm_num) (by norm_num) (by norm_num) hexp
  choose rr hr _ using fun (b : ℕ) => (C27_total (p := (b : ℤ) + 2) (by omega) ((0 : ℕ) : ℝ)).1
  obtain ⟨draws, hd⟩ := codeDraws_exists 1
  obtain ⟨L, hL⟩ : ∃ L, L = loadCylindrical G (sp.charge * EL_CHARGE) (sp.mass * EL_MASS) sp.left_density
    sp.right_density 0 draws := ⟨_, rfl⟩
  have hlen : L.length = 1 := by rw [hL, loadCylindrical_length, hd.1]
  obtain ⟨l, rfl⟩ := List.length_eq_one_iff.1 hlen
  obtain ⟨rnd, hrnd⟩ : ∃ rnd, TestDirection 0 rnd :=
    ⟨_, rr 1, rr 3, rr 5, rr 2, rr 4, rr 6, hr 1, hr 3, hr 5, hr 2, hr 4, hr 6, rfl⟩
  refine ⟨sp, [⟨false, [⟨true, l.pos, V3.zero, thermalVelocity (sp.mass * EL_MASS) e rnd, l.charge, l.mass, 0, 0⟩]⟩],
    hnum, hT, .cons ⟨rfl, draws, ?_, ?_, ?_⟩ .nil⟩
  · rw [hnum]; exact hd
  · rw [hnum]; rfl
  · intro i l' p h1 h2
    rw [← hL] at h1
    have hi : i = 0 := by
      have := (List.getElem?_eq_some_iff.1 h1).1
      simp at this
      exact this
    subst hi
    simp only [List.getElem?_cons_zero, Option.some.injEq] at h1 h2
    subst h1 h2
    refine ⟨[(1 / 9, 0)], e, rnd, ?_, ?_, hrnd, rfl, rfl, rfl, rfl, rfl⟩
    · unfold TestEnergyDraws
      rw [hT, if_pos (by norm_num), hnum]
      exact ⟨_, rfl, hU⟩
    · unfold Sample
      rw [hT, if_pos (by norm_num)]
      exact ⟨_, _, _, rfl, he, rfl⟩

end Verif
