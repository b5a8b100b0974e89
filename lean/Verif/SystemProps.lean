import Verif.System
import Verif.ContinuityProps
import Verif.MotionProps

/-!
# Gauss's law for the whole particle-field cycle (C49)
-/

namespace Verif

/-- discharge range conditions -/
macro "rng'" : tactic =>
  `(tactic| (simp only [Init, Arr.initRows, Arr.initCols, Box] at *; omega))

/-! ## Specification -/

/-- all macroparticles of all species -/
def parts (S : List Species) : List Particle := S.flatMap (·.ps)

/-- the charge density that charge weighting of these particles gives -/
noncomputable def rhoOf (G : Geom) (ps : List Particle) : Grid :=
  (chargeWeighting G ps (fun _ _ => 0)).getD (fun _ _ => 0)

/-- what may happen to a macroparticle in a cycle, by its states before and after -/
inductive ParticleMove (G : Geom) (p p' : Particle) : Prop
  /-- not alive -/
  | dead (h : p.alive = false)
  /-- moved in the chamber by a move for which continuity holds -/
  | good (h : p'.alive = true) (hin : InChamber G p') (hg : GoodMove G p')
  /-- absorbed by a wall -/
  | absorbed (h : p.alive = true) (h' : p'.alive = false) (hr : p.pos.c0 ≤ G.r_size)
      (hz : p.pos.c2 ≤ G.z_size)

/-- the particles that were absorbed, in their states before the cycle -/
def absorbed (ps ps' : List Particle) : List Particle :=
  ((ps.zip ps').filter fun x => x.1.alive && !x.2.alive).map (·.1)

/-! ## One particle -/

theorem stepVSingle_props {G : Geom} {F : Fields} {mode : PusherMode} {g : Bool} {dt : ℝ}
    {p p1 : Particle} (h : stepVSingle G F mode g dt p = some p1) (ha : p.alive = true) :
    p1.alive = true ∧ p1.charge = p.charge ∧ p1.posOld.c0 = p.pos.c0 ∧
      p1.posOld.c2 = p.pos.c2 := by
  unfold stepVSingle at h
  rw [if_pos ha] at h
  obtain ⟨v, -, hb⟩ := Option.bind_eq_some_iff.1 h
  unfold backPosition at hb
  dsimp only at hb
  split_ifs at hb
  rw [Option.some.injEq] at hb
  rw [← hb]
  exact ⟨ha, rfl, rfl, rfl⟩

theorem reflectionOf_props (bunch : Bool) (G : Geom) (p : Particle) :
    (reflectionOf bunch G p).charge = p.charge ∧ (reflectionOf bunch G p).posOld = p.posOld := by
  unfold reflectionOf
  cases bunch
  · obtain ⟨-, -, -, h1, h2, -⟩ := reflection_fields G p
    exact ⟨h2, h1⟩
  · have low : ∀ q : Particle, (reflectLow G q).charge = q.charge ∧
        (reflectLow G q).posOld = q.posOld := by
      intro q; unfold reflectLow; dsimp only; split_ifs <;> exact ⟨rfl, rfl⟩
    unfold bunchReflection
    simp only [if_true]
    rw [(low _).1, (low _).2]
    split_ifs <;> exact ⟨rfl, rfl⟩

theorem move_props {bunch : Bool} {G : Geom} {dt : ℝ} {p q : Particle}
    (h : moveHalfReflectSingle bunch G dt p = some q) (ha : p.alive = true) :
    q.charge = p.charge ∧ q.posOld = p.posOld := by
  unfold moveHalfReflectSingle at h
  rw [if_pos ha] at h
  unfold backPosition at h
  dsimp only at h
  split_ifs at h
  rw [Option.some.injEq] at h
  rw [← h]
  exact reflectionOf_props bunch G (halfStep dt p)

theorem backV_props (p : Particle) : (backVelocitySingle p).alive = p.alive ∧
    (backVelocitySingle p).charge = p.charge ∧ (backVelocitySingle p).posOld = p.posOld ∧
    (backVelocitySingle p).pos = p.pos := by
  unfold backVelocitySingle backVelocity
  split_ifs <;> exact ⟨rfl, rfl, rfl, rfl⟩

/-! ## Calls and their sums -/

theorem callSum_append (l l' : List JCall) (a : Arr) (i k : ℤ) :
    callSum (l ++ l') a i k = callSum l a i k + callSum l' a i k := by
  simp [callSum]

theorem callSum_callsOf (a b : Arr) (l : List Inc) (i k : ℤ) :
    callSum (callsOf a l) b i k = if a = b then contrib l i k else 0 := by
  induction l with
  | nil => simp [callsOf]
  | cons d l ih =>
    have : callsOf a (d :: l) = ⟨a, d.i, d.k, d.v⟩ :: callsOf a l := rfl
    rw [this, callSum_cons, ih, contrib_cons]
    by_cases h : a = b
    · simp only [h, true_and, if_true, eq_comm]
    · simp [h]

theorem incsMem_append (G : Geom) (l l' : List JCall) (m : Mem Loc) :
    incsMem G (l ++ l') m = (incsMem G l m).bind (incsMem G l') := by
  unfold incsMem
  rw [List.foldlM_append]; rfl

theorem incsMem_ok {G : Geom} (l : List JCall) (hj : ∀ c ∈ l, c.arr = .jr ∨ c.arr = .jphi ∨
    c.arr = .jz) : ∀ m m', incsMem G l m = some m' → ∀ c ∈ l, c.Ok G := by
  induction l with
  | nil => intro m m' _ c hc; cases hc
  | cons d l ih =>
    intro m m' h c hc
    have h' : (incMem G m d).bind (incsMem G l) = some m' := h
    obtain ⟨m1, h1, h2⟩ := Option.bind_eq_some_iff.1 h'
    rcases List.mem_cons.1 hc with rfl | hc
    · unfold incMem at h1
      split_ifs at h1 with ha
      obtain ⟨a1, a2, a3, a4⟩ := ha
      have hj' := hj c (by simp)
      refine ⟨hj', a1, ?_, a3, ?_⟩
      · rcases hj' with e | e | e <;> simpa [e, Arr.rows] using a2
      · rcases hj' with e | e | e <;> simpa [e, Arr.cols] using a4
    · exact ih (fun c hc => hj c (by simp [hc])) m1 m' h2 c hc

/-- density of one particle -/
noncomputable def dens (G : Geom) (p : Particle) : Grid := contrib (particleIncs G p)

/-- density of a list of particles -/
noncomputable def densAll (G : Geom) (ps : List Particle) : Grid :=
  contrib (ps.flatMap (particleIncs G))

theorem densAll_cons (G : Geom) (p : Particle) (ps : List Particle) (a b : ℤ) :
    densAll G (p :: ps) a b = dens G p a b + densAll G ps a b := by
  simp [densAll, dens, contrib_append]

theorem densAll_append (G : Geom) (ps qs : List Particle) (a b : ℤ) :
    densAll G (ps ++ qs) a b = densAll G ps a b + densAll G qs a b := by
  simp [densAll, contrib_append]

/-- the density that vanishes with an absorbed particle -/
noncomputable def lost (G : Geom) (p p' : Particle) : Grid :=
  if p.alive && !p'.alive then dens G p else fun _ _ => 0

theorem WithinFarWalls.append {G : Geom} {ps qs : List Particle} (h : WithinFarWalls G ps)
    (h' : WithinFarWalls G qs) : WithinFarWalls G (ps ++ qs) := fun p hp =>
  (List.mem_append.1 hp).elim (h p) (h' p)

/-- One particle through the cycle: its calls balance the change of its density. -/
theorem particle_balance {G : Geom} (hG : G.Valid) {dt : ℝ} (hdt : dt ≠ 0) {F : Fields}
    {mode : PusherMode} {bunch : Bool} {p p1 p2 : Particle} (h1 : StepVRel G F mode dt p p1)
    (h2 : moveHalfReflectSingle bunch G dt p1 = some p2)
    (hm : ParticleMove G p (backVelocitySingle p2)) {l : List JCall}
    (hl : moveCalls G dt p2 = some l) :
    (WithinFarWalls G [p] ∧ WithinFarWalls G [backVelocitySingle p2]) ∧
    (∀ c ∈ l, c.arr = .jr ∨ c.arr = .jphi ∨ c.arr = .jz) ∧
    Continuity G dt (fun a b => dens G p a b - lost G p (backVelocitySingle p2) a b)
      (dens G (backVelocitySingle p2)) (callSum l .jr) (callSum l .jz) := by
  obtain ⟨-, g, h1⟩ := h1
  obtain ⟨b1, b2, b3, b4⟩ := backV_props p2
  have hj : ∀ J : JIncs, ∀ c ∈ callsOf .jr J.jr ++ callsOf .jz J.jz,
      c.arr = .jr ∨ c.arr = .jphi ∨ c.arr = .jz := by
    intro J c hc
    rcases List.mem_append.1 hc with h | h <;> obtain ⟨d, -, rfl⟩ := List.mem_map.1 h
    · exact Or.inl rfl
    · exact Or.inr (Or.inr rfl)
  have zero : Continuity G dt (fun _ _ => 0) (fun _ _ => 0) (callSum [] .jr) (callSum [] .jz) := by
    intro a b _
    simp [netOutflow]
  have nil : p2.alive = false → l = [] := by
    intro h
    unfold moveCalls at hl
    simp [h] at hl
    exact hl
  by_cases ha : p.alive = true
  · obtain ⟨c1, c2, c3, c4⟩ := stepVSingle_props h1 ha
    obtain ⟨d1, d2⟩ := move_props h2 c1
    cases hm with
    | dead h => rw [ha] at h; cases h
    | absorbed _ h' hr hz =>
      have h2a : p2.alive = false := by rw [← b1]; exact h'
      rw [nil h2a]
      refine ⟨⟨fun q hq _ => ?_, fun q hq hq' => ?_⟩, (fun c hc => by cases hc), ?_⟩
      · rw [List.mem_singleton.1 hq]; exact ⟨hr, hz⟩
      · rw [List.mem_singleton.1 hq, h'] at hq'; cases hq'
      intro a b hab
      rw [← zero a b hab]
      have e1 : lost G p (backVelocitySingle p2) = dens G p := by simp [lost, ha, h']
      have e2 : dens G (backVelocitySingle p2) = fun _ _ => 0 := by
        funext a b; simp [dens, particleIncs, h']
      rw [e1, e2]
      simp
    | good h hin hg =>
      have h2a : p2.alive = true := by rw [← b1]; exact h
      obtain ⟨J, e, -, hc⟩ := goodMove_balanced G hG hdt _ hin hg
      rw [b2, b3, b4] at e
      unfold moveCalls at hl
      rw [if_pos h2a, e, Option.map_some, Option.some.injEq] at hl
      subst hl
      refine ⟨⟨fun q hq _ => ?_, fun q hq _ => ?_⟩, hj J, ?_⟩
      · rw [List.mem_singleton.1 hq, ← c3, ← c4, ← d2, ← b3]; exact ⟨hin.rO', hin.zO'⟩
      · rw [List.mem_singleton.1 hq]; exact ⟨hin.rN', hin.zN'⟩
      intro a b hab
      rw [← hc a b hab]
      have e1 : lost G p (backVelocitySingle p2) = fun _ _ => 0 := by simp [lost, h]
      have e2 : dens G p = contrib (chargeIncs G (backVelocitySingle p2).charge
          (backVelocitySingle p2).posOld.c0 (backVelocitySingle p2).posOld.c2) := by
        unfold dens particleIncs
        rw [if_pos ha, b2, b3, d1, d2, c2, c3, c4]
      have e3 : dens G (backVelocitySingle p2) = contrib (chargeIncs G
          (backVelocitySingle p2).charge (backVelocitySingle p2).pos.c0
          (backVelocitySingle p2).pos.c2) := by
        unfold dens particleIncs
        rw [if_pos h]
      have e4 : callSum (callsOf .jr J.jr ++ callsOf .jz J.jz) .jr = J.rGrid := by
        funext i k; simp [callSum_append, callSum_callsOf, JIncs.rGrid]
      have e5 : callSum (callsOf .jr J.jr ++ callsOf .jz J.jz) .jz = J.zGrid := by
        funext i k; simp [callSum_append, callSum_callsOf, JIncs.zGrid]
      rw [e1, e2, e3, e4, e5]
      simp
  · have ha' : p.alive = false := by simpa using ha
    have e1 : p1 = p := by
      unfold stepVSingle at h1
      rw [if_neg ha, Option.some.injEq] at h1
      exact h1.symm
    subst e1
    have e2 : p2 = p1 := by
      unfold moveHalfReflectSingle at h2
      rw [if_neg ha, Option.some.injEq] at h2
      exact h2.symm
    subst e2
    rw [nil ha']
    refine ⟨⟨fun q hq hq' => ?_, fun q hq hq' => ?_⟩, (fun c hc => by cases hc), ?_⟩
    · rw [List.mem_singleton.1 hq, ha'] at hq'; cases hq'
    · rw [List.mem_singleton.1 hq, b1, ha'] at hq'; cases hq'
    have e3 : dens G p2 = fun _ _ => 0 := by funext a b; simp [dens, particleIncs, ha']
    have e4 : dens G (backVelocitySingle p2) = fun _ _ => 0 := by
      funext a b; simp [dens, particleIncs, b1, ha']
    have e5 : lost G p2 (backVelocitySingle p2) = fun _ _ => 0 := by simp [lost, ha']
    intro a b hab
    rw [← zero a b hab, e3, e4, e5]
    simp

/-! ## One species, all species -/

theorem lost_all (G : Geom) : ∀ ps ps' : List Particle, ps.length = ps'.length → ∀ a b,
    densAll G (absorbed ps ps') a b
      = ((ps.zip ps').map fun x => lost G x.1 x.2 a b).sum := by
  intro ps
  induction ps with
  | nil => intro ps' _ a b; simp [absorbed, densAll]
  | cons p ps ih =>
    intro ps' hlen a b
    cases ps' with
    | nil => simp at hlen
    | cons p' ps' =>
      have := ih ps' (by simpa using hlen) a b
      unfold absorbed at this ⊢
      simp only [List.zip_cons_cons, List.filter_cons, List.map_cons, List.sum_cons]
      by_cases h : (p.alive && !p'.alive) = true
      · rw [if_pos h, List.map_cons, densAll_cons, this]
        simp [lost, h]
      · rw [if_neg h, this]
        simp [lost, h]

theorem seqCalls_cons {o : Option (List JCall)} {os : List (Option (List JCall))} {l : List JCall}
    (h : seqCalls (o :: os) = some l) : ∃ x y, o = some x ∧ seqCalls os = some y ∧ l = x ++ y := by
  obtain ⟨x, hx, h⟩ := Option.bind_eq_some_iff.1 h
  obtain ⟨y, hy, h⟩ := Option.map_eq_some_iff.1 h
  exact ⟨x, y, hx, hy, h.symm⟩

theorem azimuthal_arr {G : Geom} : ∀ (ps : List Particle) (la : List JCall),
    seqCalls (ps.map (azimuthalCalls G)) = some la → ∀ c ∈ la, c.arr = .jphi := by
  intro ps
  induction ps with
  | nil => intro la h c hc; simp [seqCalls] at h; subst h; cases hc
  | cons p ps ih =>
    intro la h c hc
    obtain ⟨x, y, hx, hy, rfl⟩ := seqCalls_cons h
    rcases List.mem_append.1 hc with hc | hc
    · unfold azimuthalCalls at hx
      split_ifs at hx
      · obtain ⟨l, -, rfl⟩ := Option.map_eq_some_iff.1 hx
        obtain ⟨d, -, rfl⟩ := List.mem_map.1 hc
        rfl
      · rw [Option.some.injEq] at hx; subst hx; cases hc
    · exact ih y hy c hc

theorem callSum_array {l : List JCall} {a b : Arr} (h : ∀ c ∈ l, c.arr = b) (hab : b ≠ a)
    (i k : ℤ) : callSum l a i k = 0 := by
  unfold callSum
  apply List.sum_eq_zero
  intro x hx
  obtain ⟨c, hc, rfl⟩ := List.mem_map.1 hx
  rw [if_neg]
  rw [h c hc]
  exact fun h => hab h.1

theorem Continuity.sum {G : Geom} {dt : ℝ} {A B jr jz A' B' jr' jz' : Grid}
    (h : Continuity G dt A B jr jz) (h' : Continuity G dt A' B' jr' jz') {A2 B2 jr2 jz2 : Grid}
    (hA : ∀ a b, A2 a b = A a b + A' a b) (hB : ∀ a b, B2 a b = B a b + B' a b)
    (hr : ∀ a b, jr2 a b = jr a b + jr' a b) (hz : ∀ a b, jz2 a b = jz a b + jz' a b) :
    Continuity G dt A2 B2 jr2 jz2 := by
  intro a b hab
  have h1 := h a b hab
  have h2 := h' a b hab
  unfold netOutflow at *
  rw [hA, hB, hr, hr, hz, hz]
  linear_combination h1 + h2

theorem continuity_zero (G : Geom) (dt : ℝ) :
    Continuity G dt (fun _ _ => 0) (fun _ _ => 0) (fun _ _ => 0) (fun _ _ => 0) := by
  intro a b _; simp [netOutflow]

theorem list_balance {G : Geom} (hG : G.Valid) {dt : ℝ} (hdt : dt ≠ 0) {F : Fields}
    {mode : PusherMode} {bunch : Bool} : ∀ (ps ps1 moved : List Particle) (lc : List JCall),
    List.Forall₂ (StepVRel G F mode dt) ps ps1 →
    List.Forall₂ (fun p q => moveHalfReflectSingle bunch G dt p = some q) ps1 moved →
    List.Forall₂ (ParticleMove G) ps (moved.map backVelocitySingle) →
    seqCalls (moved.map (moveCalls G dt)) = some lc →
    (WithinFarWalls G ps ∧ WithinFarWalls G (moved.map backVelocitySingle)) ∧
    (∀ c ∈ lc, c.arr = .jr ∨ c.arr = .jphi ∨ c.arr = .jz) ∧
    Continuity G dt
      (fun a b => densAll G ps a b - densAll G (absorbed ps (moved.map backVelocitySingle)) a b)
      (densAll G (moved.map backVelocitySingle)) (callSum lc .jr) (callSum lc .jz) := by
  intro ps
  induction ps with
  | nil =>
    intro ps1 moved lc h1 h2 h3 h4
    cases h1
    cases h2
    simp only [List.map_nil, seqCalls, Option.some.injEq] at h4
    subst h4
    refine ⟨⟨(fun c hc => by cases hc), (fun c hc => by cases hc)⟩, (fun c hc => by cases hc), ?_⟩
    intro a b hab
    rw [← continuity_zero G dt a b hab]
    simp [densAll, absorbed, netOutflow]
  | cons p ps ih =>
    intro ps1 moved lc h1 h2 h3 h4
    cases h1 with
    | cons h1 t1 =>
    cases h2 with
    | cons h2 t2 =>
    simp only [List.map_cons] at h3 h4 ⊢
    cases h3 with
    | cons h3 t3 =>
    obtain ⟨x, y, hx, hy, rfl⟩ := seqCalls_cons h4
    obtain ⟨w1, a1, c1⟩ := particle_balance hG hdt h1 h2 h3 hx
    obtain ⟨w2, a2, c2⟩ := ih _ _ _ t1 t2 t3 hy
    refine ⟨⟨w1.1.append w2.1, w1.2.append w2.2⟩, fun c hc => (List.mem_append.1 hc).elim (a1 c) (a2 c), ?_⟩
    have hlen := t3.length_eq
    refine c1.sum c2 ?_ ?_ (fun _ _ => callSum_append ..) (fun _ _ => callSum_append ..)
    · intro a b
      rw [densAll_cons, lost_all G _ _ (by simpa using hlen), lost_all G _ _ hlen]
      simp only [List.zip_cons_cons, List.map_cons, List.sum_cons]
      ring
    · intro a b; rw [densAll_cons]

theorem absorbed_append {ps qs ps' qs' : List Particle} (h : ps.length = ps'.length) :
    absorbed (ps ++ qs) (ps' ++ qs') = absorbed ps ps' ++ absorbed qs qs' := by
  unfold absorbed
  rw [List.zip_append h, List.filter_append, List.map_append]

theorem species_balance {G : Geom} (hG : G.Valid) {dt : ℝ} (hdt : dt ≠ 0) {F : Fields}
    {mode : PusherMode} : ∀ (S S1 S' : List Species) (m m' : Mem Loc),
    StepVAll G F mode dt S S1 → FullCurrentAll G dt S1 m S' m' →
    List.Forall₂ (ParticleMove G) (parts S) (parts S') →
    (WithinFarWalls G (parts S) ∧ WithinFarWalls G (parts S')) ∧
    ∃ l : List JCall, incsMem G l m = some m' ∧
      (∀ c ∈ l, c.arr = .jr ∨ c.arr = .jphi ∨ c.arr = .jz) ∧
      Continuity G dt
        (fun a b => densAll G (parts S) a b - densAll G (absorbed (parts S) (parts S')) a b)
        (densAll G (parts S')) (callSum l .jr) (callSum l .jz) := by
  intro S
  induction S with
  | nil =>
    intro S1 S' m m' h1 h2 _
    cases h1
    cases h2
    refine ⟨⟨(fun c hc => by cases hc), (fun c hc => by cases hc)⟩, [], rfl, (fun c hc => by cases hc), ?_⟩
    intro a b hab
    rw [← continuity_zero G dt a b hab]
    simp [densAll, absorbed, parts, netOutflow]
  | cons s S ih =>
    intro S1 S' m m' h1 h2 h3
    cases h1 with
    | cons h1 t1 =>
    cases h2 with
    | cons h2 t2 =>
    rename_i s1 S1 s' S' m1
    obtain ⟨hb, h1⟩ := h1
    obtain ⟨la, lc, ma, moved, e1, e2, e3, e4, e5, rfl⟩ := h2
    have p1 : parts (s :: S) = s.ps ++ parts S := rfl
    have p2 : parts (⟨s1.bunch, moved.map backVelocitySingle⟩ :: S')
        = moved.map backVelocitySingle ++ parts S' := rfl
    rw [p1, p2] at h3 ⊢
    have hlen : s.ps.length = (moved.map backVelocitySingle).length := by
      rw [List.length_map, h1.length_eq, e3.length_eq]
    have h3a : List.Forall₂ (ParticleMove G) s.ps (moved.map backVelocitySingle) := by
      have := List.forall₂_take s.ps.length h3
      rw [List.take_left] at this
      rw [hlen, List.take_left] at this
      exact this
    have h3b : List.Forall₂ (ParticleMove G) (parts S) (parts S') := by
      have := List.forall₂_drop s.ps.length h3
      rw [List.drop_left] at this
      rw [hlen, List.drop_left] at this
      exact this
    obtain ⟨w1, a1, c1⟩ := list_balance hG hdt _ _ _ _ h1 e3 h3a e4
    obtain ⟨w2, l, i1, a2, c2⟩ := ih _ _ _ _ t1 t2 h3b
    have az := azimuthal_arr _ _ e1
    refine ⟨⟨w1.1.append w2.1, w1.2.append w2.2⟩, la ++ lc ++ l, ?_, ?_, ?_⟩
    · rw [incsMem_append, incsMem_append, e2, Option.bind_some, e5, Option.bind_some, i1]
    · intro c hc
      rcases List.mem_append.1 hc with hc | hc
      · rcases List.mem_append.1 hc with hc | hc
        · exact Or.inr (Or.inl (az c hc))
        · exact a1 c hc
      · exact a2 c hc
    · refine c1.sum c2 ?_ ?_ ?_ ?_
      · intro a b
        rw [absorbed_append hlen, densAll_append, densAll_append]; ring
      · intro a b; rw [densAll_append]
      · intro a b
        rw [callSum_append, callSum_append, callSum_array az (by simp)]; ring
      · intro a b
        rw [callSum_append, callSum_append, callSum_array az (by simp)]; ring

/-! ## C49 -/

theorem rhoOf_eq {G : Geom} (hG : G.Valid) {ps : List Particle} (h : WithinFarWalls G ps) :
    rhoOf G ps = densAll G ps := by
  unfold rhoOf
  rw [chargeWeighting_some G hG ps h]
  funext a b
  simp [densAll]

/-- **C49** (one cycle). Uniform lossless medium, any species with any number of macroparticles,
each of which is dead, makes a good move or is absorbed: the defect of Gauss's law at every node off
the walls changes only by the charge that was absorbed. -/
theorem C49_cycle_gauss (G : Geom) (hG : G.Valid) (mode : PusherMode) (dt e : ℝ) (hdt : dt ≠ 0)
    (he : 0 < e) (m m' : Mem Loc) (S S' : List Species) (hm : Initialised G m)
    (heps : ∀ i k, Box 0 G.nr 0 G.nz i k → fieldsOf m .eps i k = e)
    (hsig : ∀ i k, Box 0 G.nr 0 G.nz i k → fieldsOf m .sig i k = 0)
    (hc : Cycle G mode dt m S m' S')
    (hp : List.Forall₂ (ParticleMove G) (parts S) (parts S')) :
    (∀ a b : ℤ, 0 ≤ a → a < G.nr - 1 → 1 ≤ b → b < G.nz - 1 →
      gaussDefect G e (fieldsOf m') (rhoOf G (parts S')) a b
        = gaussDefect G e (fieldsOf m) (rhoOf G (parts S)) a b
          + nodeVolume G a * rhoOf G (absorbed (parts S) (parts S')) a b) ∧
    Initialised G m' ∧
    (∀ i k, Box 0 G.nr 0 G.nz i k → fieldsOf m' .eps i k = e) ∧
    (∀ i k, Box 0 G.nr 0 G.nz i k → fieldsOf m' .sig i k = 0) := by
  obtain ⟨m1, m2, m3, S1, r1, r2, r3, r4, r5⟩ := hc
  obtain ⟨⟨w1, w2⟩, l, i1, a1, c1⟩ := species_balance hG hdt S S1 S' m2 m3 r3 r4 hp
  have hok := incsMem_ok l a1 m2 m3 i1
  have hstep : FieldStep G dt l m m' := ⟨m1, m2, m3, r1, r2, ⟨l, .refl l, i1⟩, r5⟩
  have hrun : FieldRun G dt (fun _ => l) 1 m m' := .succ 0 _ _ _ (.zero _) hstep
  have hco : CallsOk G (fun _ => l) := fun _ => hok
  have hrep := run_rep hG hco hm.rep hrun
  have w3 : WithinFarWalls G (absorbed (parts S) (parts S')) := by
    intro q hq
    obtain ⟨x, hx, rfl⟩ := List.mem_map.1 hq
    exact w1 _ (List.of_mem_zip (List.mem_of_mem_filter hx)).1
  obtain ⟨m1, m2⟩ := fRun_material G dt (fun _ => l) (fieldsOf m) 1
  refine ⟨?_, ?_, ?_, ?_⟩
  · intro a b h1 h2 h3 h4
    have hg := C10_gauss_preserved G hG dt e he (fun _ => l) hco m m' hm heps hsig
      (fun n => if n = 0 then fun a b => densAll G (parts S) a b
          - densAll G (absorbed (parts S) (parts S')) a b else densAll G (parts S')) 1
      (by
        intro j hj
        obtain rfl : j = 0 := by omega
        simpa using c1) hrun a b h1 h2 h3 h4
    simp only [one_ne_zero, if_false, if_true] at hg
    rw [rhoOf_eq hG w1, rhoOf_eq hG w2, rhoOf_eq hG w3, hg]
    unfold gaussDefect
    ring
  · exact fun x hx => by rw [hrep x hx]; rfl
  · intro i k h
    rw [hrep.agree .eps i k (by rng'), m1]; exact heps i k h
  · intro i k h
    rw [hrep.agree .sig i k (by rng'), m2]; exact hsig i k h

/-- **C49** (any number of cycles). `S j` are the particles at the end of cycle `j`, `T j` those at
the start of cycle `j` after injection.  The defect of Gauss's law at a node off the walls changes
only by charge injected there and charge absorbed there; without either it never changes. -/
theorem C49_run_gauss (G : Geom) (hG : G.Valid) (mode : PusherMode) (dt e : ℝ) (hdt : dt ≠ 0)
    (he : 0 < e) (m : ℕ → Mem Loc) (S T : ℕ → List Species) (hm : Initialised G (m 0))
    (heps : ∀ i k, Box 0 G.nr 0 G.nz i k → fieldsOf (m 0) .eps i k = e)
    (hsig : ∀ i k, Box 0 G.nr 0 G.nz i k → fieldsOf (m 0) .sig i k = 0)
    (hc : ∀ j, Cycle G mode dt (m j) (T j) (m (j + 1)) (S (j + 1)))
    (hp : ∀ j, List.Forall₂ (ParticleMove G) (parts (T j)) (parts (S (j + 1))))
    (a b : ℤ) (ha : 0 ≤ a) (ha' : a < G.nr - 1) (hb : 1 ≤ b) (hb' : b < G.nz - 1) (n : ℕ) :
    gaussDefect G e (fieldsOf (m n)) (rhoOf G (parts (S n))) a b
      = gaussDefect G e (fieldsOf (m 0)) (rhoOf G (parts (S 0))) a b
        - nodeVolume G a * ∑ j ∈ Finset.range n,
          (rhoOf G (parts (T j)) a b - rhoOf G (parts (S j)) a b
            - rhoOf G (absorbed (parts (T j)) (parts (S (j + 1)))) a b) := by
  have inv : ∀ n, Initialised G (m n) ∧
      (∀ i k, Box 0 G.nr 0 G.nz i k → fieldsOf (m n) .eps i k = e) ∧
      (∀ i k, Box 0 G.nr 0 G.nz i k → fieldsOf (m n) .sig i k = 0) := by
    intro n
    induction n with
    | zero => exact ⟨hm, heps, hsig⟩
    | succ n ih =>
      exact (C49_cycle_gauss G hG mode dt e hdt he _ _ _ _ ih.1 ih.2.1 ih.2.2 (hc n) (hp n)).2
  induction n with
  | zero => simp
  | succ n ih =>
    obtain ⟨i1, i2, i3⟩ := inv n
    rw [(C49_cycle_gauss G hG mode dt e hdt he _ _ _ _ i1 i2 i3 (hc n) (hp n)).1 a b ha ha' hb hb',
      Finset.sum_range_succ]
    have e1 : gaussDefect G e (fieldsOf (m n)) (rhoOf G (parts (T n))) a b
        = gaussDefect G e (fieldsOf (m n)) (rhoOf G (parts (S n))) a b
          - nodeVolume G a * (rhoOf G (parts (T n)) a b - rhoOf G (parts (S n)) a b) := by
      unfold gaussDefect; ring
    rw [e1, ih]
    ring

/-- **C49**, closed system: nothing injected, nothing absorbed. -/
theorem C49_closed_system (G : Geom) (hG : G.Valid) (mode : PusherMode) (dt e : ℝ) (hdt : dt ≠ 0)
    (he : 0 < e) (m : ℕ → Mem Loc) (S : ℕ → List Species) (hm : Initialised G (m 0))
    (heps : ∀ i k, Box 0 G.nr 0 G.nz i k → fieldsOf (m 0) .eps i k = e)
    (hsig : ∀ i k, Box 0 G.nr 0 G.nz i k → fieldsOf (m 0) .sig i k = 0)
    (hc : ∀ j, Cycle G mode dt (m j) (S j) (m (j + 1)) (S (j + 1)))
    (hp : ∀ j, List.Forall₂ (fun p p' => p.alive = false ∨
      (p'.alive = true ∧ InChamber G p' ∧ GoodMove G p')) (parts (S j)) (parts (S (j + 1))))
    (a b : ℤ) (ha : 0 ≤ a) (ha' : a < G.nr - 1) (hb : 1 ≤ b) (hb' : b < G.nz - 1) (n : ℕ) :
    gaussDefect G e (fieldsOf (m n)) (rhoOf G (parts (S n))) a b
      = gaussDefect G e (fieldsOf (m 0)) (rhoOf G (parts (S 0))) a b := by
  have hp' : ∀ j, List.Forall₂ (ParticleMove G) (parts (S j)) (parts (S (j + 1))) := fun j =>
    (hp j).imp fun p p' h => h.elim .dead fun h => .good h.1 h.2.1 h.2.2
  rw [C49_run_gauss G hG mode dt e hdt he m S S hm heps hsig hc hp' a b ha ha' hb hb' n]
  have : ∀ j, absorbed (parts (S j)) (parts (S (j + 1))) = [] := by
    intro j
    unfold absorbed
    rw [List.map_eq_nil_iff, List.filter_eq_nil_iff]
    intro x hx
    obtain ⟨k, hk, rfl⟩ := List.mem_iff_getElem.1 hx
    have := (List.forall₂_iff_get.1 (hp j)).2 k (by simp at hk; omega) (by simp at hk; omega)
    simp only [List.getElem_zip]
    simp only [List.get_eq_getElem] at this
    rcases this with h | h
    · simp [h]
    · simp [h.1]
  simp only [this]
  simp [rhoOf, chargeWeighting]

/-! ## A concrete cycle -/

theorem val_congr {G : Geom} (hG : G.Valid) (hnr : 3 ≤ G.nr) (hnz : 3 ≤ G.nz) {F F' : Fields}
    (h : Agree G F F') {r z : ℝ} (hp : InRegion G r z) :
    valE G F r z = valE G F' r z ∧ valH G F r z = valH G F' r z := by
  let mem : Mem PLoc := fun l => match l with
    | .fld l => some (F.at l)
    | _ => none
  have h1 : PRep G F mem := fun l _ => rfl
  have h2 : PRep G F' mem := by
    rintro ⟨a, i, k⟩ hl
    show some (F a i k) = some (F' a i k)
    rw [h a i k hl]
  obtain ⟨a1, a2⟩ := gather_eval hG hnr hnz (num := fun _ => 0) h1 hp
  obtain ⟨b1, b2⟩ := gather_eval hG hnr hnz (num := fun _ => 0) h2 hp
  rw [b1] at a1
  rw [b2] at a2
  simp only [Option.some.injEq, Prod.mk.injEq, and_true] at a1 a2
  exact ⟨a1.symm, a2.symm⟩

/-- vacuum without fields -/
noncomputable def emptyFields : Fields
  | .eps, _, _ => 1
  | _, _, _ => 0

noncomputable def emptyMem : Mem Loc := fun l => some (emptyFields l.arr l.i l.k)

theorem emptyMem_rep : Rep demoGeom emptyFields emptyMem := fun _ _ => rfl

/-- the runner after the first half of the step, after the second half -/
noncomputable def runner1 : Particle :=
  { runner with pos := ⟨1, 0, 1 + 1e8 * (1e-9 / 2)⟩, posOld := ⟨1, 0, 1⟩, sinTheta := 0 }
noncomputable def runner2 : Particle :=
  { runner1 with pos := ⟨1, 0, 1 + 1e8 * (1e-9 / 2) + 1e8 * (1e-9 / 2)⟩ }

theorem runner_flies {F : Fields} (h : Agree demoGeom F emptyFields) :
    StepVRel demoGeom F .borisRelativistic 1e-9 runner runner1 := by
  refine ⟨fun _ => runner_region, true, ?_⟩
  obtain ⟨e1, e2⟩ := val_congr demoGeom_valid (by norm_num [demoGeom]) (by norm_num [demoGeom]) h
    runner_region
  have hE : valE demoGeom emptyFields runner.pos.c0 runner.pos.c2 = V3.zero := by
    unfold valE valHalf valInt val4 V3.zero; simp [emptyFields]
  have hH : valH demoGeom emptyFields runner.pos.c0 runner.pos.c2 = V3.zero := by
    unfold valH valHalf valInt val4 V3.zero; simp [emptyFields]
  unfold stepVSingle
  rw [e1, e2, hE, hH, if_pos (show runner.alive = true from rfl), C20_free_streaming]
  · rw [Option.bind_some]
    unfold backPosition halfStep dumpOld runner1
    simp [runner]
  · norm_num [runner]
  · unfold speedSq LIGHT_SPEED; norm_num [runner]
  · refine ⟨Or.inl rfl, Or.inl rfl, Or.inr ?_⟩
    unfold MNZL runner; rw [abs_of_nonneg] <;> norm_num

theorem runner_moves : moveHalfReflectSingle false demoGeom 1e-9 runner1 = some runner2 := by
  unfold moveHalfReflectSingle
  rw [if_pos (show runner1.alive = true from rfl)]
  have e : reflectionOf false demoGeom (halfStep 1e-9 runner1) = halfStep 1e-9 runner1 := by
    unfold reflectionOf reflection reflectLow halfStep runner1 runner demoGeom
    simp only [Bool.false_eq_true, if_false]
    norm_num
  rw [e]
  unfold backPosition halfStep runner2 runner1 runner
  simp

theorem runner_good : InChamber demoGeom (backVelocitySingle runner2) ∧
    GoodMove demoGeom (backVelocitySingle runner2) := by
  obtain ⟨-, -, b3, b4⟩ := backV_props runner2
  constructor
  · constructor <;> (try rw [b3]) <;> (try rw [b4]) <;>
      norm_num [runner2, runner1, runner, demoGeom]
  · refine .axial ?_ ?_ ?_
    · rw [b3, b4]; rfl
    · rw [b3, b4]
      simp only [runner2, runner1, demoGeom]
      rw [abs_of_pos] <;> norm_num
    · rw [b3, b4]
      simp only [runner2, runner1, MNZL]
      rw [abs_of_pos] <;> norm_num

/-- fields and currents are initialised -/
def JInit (G : Geom) (m : Mem Loc) : Prop := Initialised G m ∧
  ∀ a i k, (a = .jr ∨ a = .jphi ∨ a = .jz) → Box 0 G.nr 0 G.nz i k → (m ⟨a, i, k⟩).isSome

theorem JInit.incs {G : Geom} {m : Mem Loc} (h : JInit G m) {l : List JCall}
    (hok : ∀ c ∈ l, c.Ok G) : ∃ m', incsMem G l m = some m' ∧ JInit G m' := by
  refine ⟨_, incsMem_some l m ?_, ?_, ?_⟩
  · intro c hc
    obtain ⟨ha, b1, b2, b3, b4⟩ := hok c hc
    constructor
    · rcases ha with ha | ha | ha <;> simp [Alloc, Arr.rows, Arr.cols, ha] <;> omega
    · exact h.2 _ _ _ ha ⟨b1, b2, b3, b4⟩
  · intro x hx
    rw [Option.isSome_map]; exact h.1 x hx
  · intro a i k ha hb
    rw [Option.isSome_map]; exact h.2 a i k ha hb

/-- The hypotheses of `C49_cycle_gauss` are met by a moving particle. -/
example : ∃ m', Cycle demoGeom .borisRelativistic 1e-9 emptyMem [⟨false, [runner]⟩] m'
      [⟨false, [backVelocitySingle runner2]⟩] ∧
    List.Forall₂ (ParticleMove demoGeom) (parts [⟨false, [runner]⟩])
      (parts [⟨false, [backVelocitySingle runner2]⟩]) ∧
    Initialised demoGeom emptyMem ∧
    (∀ i k, Box 0 demoGeom.nr 0 demoGeom.nz i k → fieldsOf emptyMem .eps i k = 1) ∧
    (∀ i k, Box 0 demoGeom.nr 0 demoGeom.nz i k → fieldsOf emptyMem .sig i k = 0) := by
  have hG := demoGeom_valid
  obtain ⟨m1, s1, r1⟩ := hRegion_spec hG 1e-9 emptyMem_rep
  obtain ⟨s2, r2⟩ := resetJ_spec hG r1
  have hag : Agree demoGeom (fieldsOf (memWrite (wResetJ demoGeom) m1)) emptyFields := by
    intro a i k hl
    have := r2 ⟨a, i, k⟩ (Or.inl hl)
    simp only [fieldsOf, this, Option.getD_some]
    cases a <;> simp [Fields.at, Fields.write, wResetJ, hStep, emptyFields, alphaR, alphaPhi, alphaZ] <;>
      split_ifs <;> rfl
  obtain ⟨hin, hg⟩ := runner_good
  obtain ⟨J, hJ, hJin, -⟩ := goodMove_balanced demoGeom hG (dt := 1e-9) (by norm_num) _ hin hg
  obtain ⟨-, b2, b3, b4⟩ := backV_props runner2
  rw [b2, b3, b4] at hJ
  have hmc : moveCalls demoGeom 1e-9 runner2 = some (callsOf .jr J.jr ++ callsOf .jz J.jz) := by
    unfold moveCalls
    rw [if_pos (show runner2.alive = true from rfl), hJ]; rfl
  have hoff : OffAxisWithinFarWalls demoGeom [runner1] := by
    intro p hp _
    rw [List.mem_singleton.1 hp]
    norm_num [runner1, demoGeom]
  have hz : ∃ la, azimuthalIncs demoGeom runner1.charge runner1.vel.c1 runner1.pos.c0
      runner1.pos.c2 = some la := by
    unfold azimuthalIncs
    have : ¬ (runner1.pos.c0 = 0) := by norm_num [runner1]
    simp [this]
  obtain ⟨la, hla⟩ := hz
  have hac : azimuthalCalls demoGeom runner1 = some (callsOf .jphi la) := by
    unfold azimuthalCalls
    rw [if_pos (show runner1.alive = true from rfl), hla]; rfl
  have init2 : JInit demoGeom (memWrite (wResetJ demoGeom) m1) := by
    refine ⟨fun x hx => by rw [r2 x (Or.inl hx)]; rfl, ?_⟩
    rintro a i k ha hb
    have hb' : Box 0 demoGeom.nr 0 demoGeom.nz i k := hb
    rcases ha with rfl | rfl | rfl <;> simp only [memWrite, wResetJ, if_pos hb', if_true,
      Option.isSome_some]
  have okz : ∀ c ∈ callsOf .jphi la, c.Ok demoGeom := by
    intro c hc
    obtain ⟨d, hd, rfl⟩ := List.mem_map.1 hc
    have := azimIncs_inGrid demoGeom hG [runner1] hoff d (by
      simp only [List.flatMap_cons, List.flatMap_nil, List.append_nil, azimIncsOf]
      rw [if_pos (show runner1.alive = true from rfl), hla]; exact hd)
    exact ⟨Or.inr (Or.inl rfl), this.1, this.2.1, this.2.2.1, this.2.2.2⟩
  have okj : ∀ c ∈ callsOf .jr J.jr ++ callsOf .jz J.jz, c.Ok demoGeom := by
    intro c hc
    rcases List.mem_append.1 hc with hc | hc <;> obtain ⟨d, hd, rfl⟩ := List.mem_map.1 hc
    · have := hJin.1 d hd
      exact ⟨Or.inl rfl, this.1, this.2.1, this.2.2.1, this.2.2.2⟩
    · have := hJin.2 d hd
      exact ⟨Or.inr (Or.inr rfl), this.1, this.2.1, this.2.2.1, this.2.2.2⟩
  obtain ⟨ma, i1, init3⟩ := init2.incs okz
  obtain ⟨mb, i2, init4⟩ := init3.incs okj
  obtain ⟨m4, s4, -⟩ := eRegion_spec hG 1e-9 (Initialised.rep init4.1)
  refine ⟨m4, ⟨m1, _, mb, [⟨false, [runner1]⟩], s1.sound.2.1, s2.sound.2.1, ?_, ?_, s4.sound.2.1⟩,
    ?_, fun _ _ => rfl, fun _ _ _ => rfl, fun _ _ _ => rfl⟩
  · exact .cons ⟨rfl, .cons (runner_flies hag) .nil⟩ .nil
  · refine .cons ⟨callsOf .jphi la, callsOf .jr J.jr ++ callsOf .jz J.jz, ma, [runner2], ?_, i1,
      .cons runner_moves .nil, ?_, i2, rfl⟩ (.nil _)
    · simp [seqCalls, hac]
    · simp [seqCalls, hmc]
  · exact .cons (.good rfl hin hg) .nil

end Verif
