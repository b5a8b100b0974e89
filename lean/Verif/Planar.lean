import Verif.SystemProps

/-!
# Runs without azimuthal motion (C75)

If no macroparticle has azimuthal velocity and the field components that couple to it (`E_phi`,
`H_r`, `H_z`) are zero, one cycle of the main loop leaves it so, for every pusher and every schedule
of the parallel loops.
-/

namespace Verif

/-! ## Specification -/

/-- The arrays of the field components that couple to azimuthal motion. -/
def Arr.azimuthal (a : Arr) : Prop := a = .ephi ∨ a = .hr ∨ a = .hz ∨ a = .hrh ∨ a = .hzh

/-- All these components are zero at all their nodes. -/
def NoAzimuthalField (G : Geom) (m : Mem Loc) : Prop :=
  ∀ a i k, Arr.azimuthal a → Init G ⟨a, i, k⟩ → m ⟨a, i, k⟩ = some 0

/-- No live macroparticle is off the r-z half plane or moves out of it. -/
def NoAzimuthalMotion (ps : List Particle) : Prop :=
  ∀ p ∈ ps, p.alive = true → p.pos.c1 = 0 ∧ p.vel.c1 = 0

/-! ## Pushers -/

theorem snap1_zero : snap1 0 = 0 := by unfold snap1; simp

theorem boris_planar {b : Bool} {dt q m : ℝ} {e h v v' : V3} (he : e.c1 = 0) (h0 : h.c0 = 0)
    (h2 : h.c2 = 0) (hv : v.c1 = 0) (hp : borisCore b dt q m e h v = some v') : v'.c1 = 0 := by
  have rot : ∀ u w : V3, u.c1 = 0 → w.c0 = 0 → w.c2 = 0 → (borisRotate u w).c1 = 0 := by
    intro u w a1 a2 a3
    unfold borisRotate
    simp [a1, a2, a3]
  unfold borisCore at hp
  by_cases hm : 2 * m = 0
  · simp [hm] at hp
  rw [if_neg hm] at hp
  dsimp only at hp
  rw [Option.map_eq_some_iff] at hp
  obtain ⟨u, hu, rfl⟩ := hp
  have hu1 : u.c1 = 0 := by
    cases b
    · simp at hu; rw [← hu]; simp [snap, hv, snap1_zero]
    · simp at hu
      obtain ⟨g, -, rfl⟩ := hu
      simp [V3.smul, snap, hv, snap1_zero]
  have key : ∀ w : V3, w.c0 = 0 → w.c2 = 0 →
      ((borisRotate (u.add (e.smul (q * dt / (2 * m)))) w).add (e.smul (q * dt / (2 * m)))).c1 = 0 := by
    intro w w0 w2
    have := rot (u.add (e.smul (q * dt / (2 * m)))) w (by simp [V3.add, V3.smul, hu1, he]) w0 w2
    simp [V3.add, V3.smul, he] at this ⊢
    exact this
  cases b
  · simp only [Bool.false_eq_true, if_false]
    exact key _ (by simp [V3.smul, h0]) (by simp [V3.smul, h2])
  · simp only [if_true]
    show _ * _ = (0:ℝ)
    rw [key _ (by simp [V3.smul, h0]) (by simp [V3.smul, h2]), zero_mul]

theorem vay_planar {dt q m : ℝ} {e h v v' : V3} (he : e.c1 = 0) (h0 : h.c0 = 0)
    (h2 : h.c2 = 0) (hv : v.c1 = 0) (hp : vayCore dt q m e h v = some v') : v'.c1 = 0 := by
  unfold vayCore at hp
  by_cases hm : 2 * m = 0
  · simp [hm] at hp
  rw [if_neg hm] at hp
  dsimp only at hp
  rw [Option.map_eq_some_iff] at hp
  obtain ⟨g, -, rfl⟩ := hp
  simp [V3.smul, V3.add, V3.dot, snap, snap1_zero, hv, he, h0, h2]

theorem push_planar {mode : PusherMode} {g : Bool} {dt q m : ℝ} {e h v v' : V3} (he : e.c1 = 0)
    (h0 : h.c0 = 0) (h2 : h.c2 = 0) (hv : v.c1 = 0) (hp : push mode g dt q m e h v = some v') :
    v'.c1 = 0 := by
  cases mode
  · exact boris_planar he h0 h2 hv hp
  · exact boris_planar he h0 h2 hv hp
  · exact boris_planar he h0 h2 hv hp
  · exact vay_planar he h0 h2 hv hp

/-! ## Fields -/

/-- the fields with the azimuthal group set to zero -/
noncomputable def planarise (F : Fields) : Fields
  | .ephi, _, _ => 0
  | .hr, _, _ => 0
  | .hz, _, _ => 0
  | .hrh, _, _ => 0
  | .hzh, _, _ => 0
  | a, i, k => F a i k

theorem NoAzimuthalField.rep {G : Geom} {F : Fields} {m : Mem Loc} (h : NoAzimuthalField G m)
    (hm : Rep G F m) : Rep G (planarise F) m := by
  refine hm.congr ?_
  intro a i k hI
  by_cases ha : Arr.azimuthal a
  · have e1 := hm ⟨a, i, k⟩ hI
    rw [h a i k ha hI] at e1
    have e2 : F a i k = 0 := (Option.some.inj e1).symm
    rw [e2]
    rcases ha with rfl | rfl | rfl | rfl | rfl <;> rfl
  · cases a <;> first | rfl | exact absurd (by simp [Arr.azimuthal]) ha

theorem hStep_planar (G : Geom) (dt : ℝ) (F : Fields) {a : Arr} (ha : Arr.azimuthal a) (i k : ℤ) :
    hStep G dt (planarise F) a i k = 0 := by
  rcases ha with rfl | rfl | rfl | rfl | rfl <;>
    simp [hStep, planarise, alphaR, alphaZ]

theorem fStep_planar (G : Geom) (dt : ℝ) (jr jphi jz : Grid) (hj : ∀ i k, jphi i k = 0) (F : Fields)
    {a : Arr} (ha : Arr.azimuthal a) (i k : ℤ) :
    fStep G dt jr jphi jz (planarise F) a i k = 0 := by
  have key : ∀ {b : Arr}, Arr.azimuthal b → ∀ i k,
      withJ (hStep G dt (planarise F)) jr jphi jz b i k = 0 := by
    intro b hb i k
    have := hStep_planar G dt F hb i k
    rcases hb with rfl | rfl | rfl | rfl | rfl <;> exact this
  have k1 := fun i k => key (b := .ephi) (by simp [Arr.azimuthal]) i k
  have k2 := fun i k => key (b := .hr) (by simp [Arr.azimuthal]) i k
  have k3 := fun i k => key (b := .hz) (by simp [Arr.azimuthal]) i k
  have k4 : ∀ i k, withJ (hStep G dt (planarise F)) jr jphi jz .jphi i k = 0 := fun i k => hj i k
  unfold fStep
  rcases ha with rfl | rfl | rfl | rfl | rfl
  · simp only [eStep, newEphi, k1, k2, k3, k4]
    simp
  · exact k2 i k
  · exact k3 i k
  · exact key (b := .hrh) (by simp [Arr.azimuthal]) i k
  · exact key (b := .hzh) (by simp [Arr.azimuthal]) i k

/-- interpolation of a planar field -/
theorem val_planar {G : Geom} (hG : G.Valid) (hnr : 3 ≤ G.nr) (hnz : 3 ≤ G.nz) {F F' : Fields}
    (h : Agree G F F') (h0 : ∀ a, Arr.azimuthal a → ∀ i k, F' a i k = 0) {r z : ℝ}
    (hp : InRegion G r z) :
    (valE G F r z).c1 = 0 ∧ (valH G F r z).c0 = 0 ∧ (valH G F r z).c2 = 0 := by
  obtain ⟨e1, e2⟩ := val_congr hG hnr hnz h hp
  rw [e1, e2]
  have k1 := h0 .ephi (by simp [Arr.azimuthal])
  have k2 := h0 .hrh (by simp [Arr.azimuthal])
  have k3 := h0 .hzh (by simp [Arr.azimuthal])
  refine ⟨?_, ?_, ?_⟩
  · simp [valE, valInt, val4, k1]
  · simp [valH, valInt, val4, k2]
  · simp [valH, valHalf, val4, k3]

/-! ## Particles -/

theorem backPosition_planar {p q : Particle} (h1 : p.pos.c1 = 0) (h : backPosition p = some q) :
    q.pos.c1 = 0 ∧ q.sinTheta = 0 ∧ q.vel = p.vel := by
  unfold backPosition at h
  dsimp only at h
  split_ifs at h with hr
  rw [Option.some.injEq] at h
  subst h
  simp [h1]

theorem stepV_planar {G : Geom} {F : Fields} {mode : PusherMode} {g : Bool} {dt : ℝ}
    {p p1 : Particle} (ha : p.alive = true)
    (hE : (valE G F p.pos.c0 p.pos.c2).c1 = 0) (hH : (valH G F p.pos.c0 p.pos.c2).c0 = 0)
    (hH2 : (valH G F p.pos.c0 p.pos.c2).c2 = 0) (h1 : p.pos.c1 = 0) (hv : p.vel.c1 = 0)
    (h : stepVSingle G F mode g dt p = some p1) :
    p1.pos.c1 = 0 ∧ p1.vel.c1 = 0 := by
  unfold stepVSingle at h
  rw [if_pos ha] at h
  obtain ⟨v, hv', hb⟩ := Option.bind_eq_some_iff.1 h
  have hv0 := push_planar hE hH hH2 hv hv'
  obtain ⟨a1, -, a3⟩ := backPosition_planar (by simp [halfStep, dumpOld, h1, hv0]) hb
  refine ⟨a1, ?_⟩
  rw [a3]
  exact hv0

theorem reflectionOf_c1 (bunch : Bool) (G : Geom) (p : Particle) :
    (reflectionOf bunch G p).pos.c1 = p.pos.c1 ∧ (reflectionOf bunch G p).vel.c1 = p.vel.c1 := by
  unfold reflectionOf bunchReflection reflection reflectLow
  dsimp only
  constructor <;> split_ifs <;> rfl

theorem move_planar {bunch : Bool} {G : Geom} {dt : ℝ} {p q : Particle} (ha : p.alive = true)
    (h1 : p.pos.c1 = 0) (hv : p.vel.c1 = 0) (h : moveHalfReflectSingle bunch G dt p = some q) :
    q.pos.c1 = 0 ∧ q.vel.c1 = 0 ∧ q.sinTheta = 0 := by
  unfold moveHalfReflectSingle at h
  rw [if_pos ha] at h
  obtain ⟨r1, r2⟩ := reflectionOf_c1 bunch G (halfStep dt p)
  obtain ⟨a1, a2, a3⟩ := backPosition_planar (by rw [r1]; simp [halfStep, h1, hv]) h
  exact ⟨a1, by rw [a3, r2]; exact hv, a2⟩

theorem backV_planar {p : Particle} (h1 : p.pos.c1 = 0) (hv : p.vel.c1 = 0) (hs : p.sinTheta = 0) :
    (backVelocitySingle p).pos.c1 = 0 ∧ (backVelocitySingle p).vel.c1 = 0 := by
  unfold backVelocitySingle backVelocity
  split_ifs
  · simp [h1, hv, hs]
  · exact ⟨h1, hv⟩

/-- currents of a planar particle: no azimuthal one -/
theorem azimuthal_zero {G : Geom} : ∀ (ps : List Particle) (la : List JCall),
    NoAzimuthalMotion ps → seqCalls (ps.map (azimuthalCalls G)) = some la → ∀ c ∈ la, c.v = 0 := by
  intro ps
  induction ps with
  | nil => intro la _ h c hc; simp [seqCalls] at h; rw [h] at hc; cases hc
  | cons p ps ih =>
    intro la hn h c hc
    obtain ⟨l1, l2, e1, e2, rfl⟩ := seqCalls_cons h
    rcases List.mem_append.1 hc with hc | hc
    · unfold azimuthalCalls at e1
      split_ifs at e1 with ha
      · obtain ⟨li, hli, rfl⟩ := Option.map_eq_some_iff.1 e1
        obtain ⟨d, hd, rfl⟩ := List.mem_map.1 hc
        rw [(hn p (by simp) ha).2] at hli
        unfold azimuthalIncs at hli
        dsimp only at hli
        split_ifs at hli with h1 h2
        · rw [Option.some.injEq] at hli; subst hli
          simp at hd
          rcases hd with rfl | rfl | rfl | rfl <;> rfl
        · rw [Option.some.injEq] at hli; subst hli
          simp at hd
          rcases hd with rfl | rfl | rfl | rfl <;> rfl
      · rw [Option.some.injEq] at e1; subst e1; cases hc
    · exact ih l2 (fun q hq => hn q (by simp [hq])) e2 c hc

theorem moveCalls_arr {G : Geom} {dt : ℝ} : ∀ (ps : List Particle) (lc : List JCall),
    seqCalls (ps.map (moveCalls G dt)) = some lc → ∀ c ∈ lc, c.arr = .jr ∨ c.arr = .jz := by
  intro ps
  induction ps with
  | nil => intro la h c hc; simp [seqCalls] at h; rw [h] at hc; cases hc
  | cons p ps ih =>
    intro la h c hc
    obtain ⟨l1, l2, e1, e2, rfl⟩ := seqCalls_cons h
    rcases List.mem_append.1 hc with hc | hc
    · unfold moveCalls at e1
      split_ifs at e1 with ha
      · obtain ⟨li, hli, rfl⟩ := Option.map_eq_some_iff.1 e1
        rcases List.mem_append.1 hc with hc | hc <;> obtain ⟨d, hd, rfl⟩ := List.mem_map.1 hc
        · exact Or.inl rfl
        · exact Or.inr rfl
      · rw [Option.some.injEq] at e1; subst e1; cases hc
    · exact ih l2 e2 c hc

/-- All calls of `full_current_distribution`, in the order in which they are made. -/
theorem fullCurrent_calls {G : Geom} {dt : ℝ} {S S' : List Species} {m m' : Mem Loc}
    (h : FullCurrentAll G dt S m S' m') :
    NoAzimuthalMotion (parts S) →
    NoAzimuthalMotion (parts S') ∧ ∃ l, incsMem G l m = some m' ∧ (∀ c ∈ l, c.Ok G) ∧
      ∀ i k, callSum l .jphi i k = 0 := by
  induction h with
  | nil m => exact fun _ => ⟨(fun p hp => by cases hp), [], rfl, (by simp), (by simp)⟩
  | @cons s s' S S' m m1 m' h t ih =>
    intro hn
    obtain ⟨la, lc, ma, moved, e1, e2, e3, e4, e5, rfl⟩ := h
    have hs : NoAzimuthalMotion s.ps := fun p hp =>
      hn p (List.mem_flatMap.2 ⟨s, by simp, hp⟩)
    have hS : NoAzimuthalMotion (parts S) := fun p hp => by
      obtain ⟨x, hx, hp⟩ := List.mem_flatMap.1 hp
      exact hn p (List.mem_flatMap.2 ⟨x, by simp [hx], hp⟩)
    obtain ⟨i1, l, i2, i3, i4⟩ := ih hS
    have z := azimuthal_zero s.ps la hs e1
    have za := azimuthal_arr s.ps la e1
    have zc := moveCalls_arr moved lc e4
    refine ⟨?_, la ++ lc ++ l, ?_, ?_, ?_⟩
    · intro p hp ha
      obtain ⟨x, hx, hp⟩ := List.mem_flatMap.1 hp
      rcases List.mem_cons.1 hx with rfl | hx
      · obtain ⟨q, hq, rfl⟩ := List.mem_map.1 hp
        have hqa : q.alive = true := by rw [← (backV_props q).1]; exact ha
        obtain ⟨j, hj, rfl⟩ := List.mem_iff_getElem.1 hq
        have hj' : j < s.ps.length := by rw [e3.length_eq]; exact hj
        have hmv := (List.forall₂_iff_get.1 e3).2 j hj' hj
        simp only [List.get_eq_getElem] at hmv
        have hpa : (s.ps[j]).alive = true := by
          by_contra hcon
          unfold moveHalfReflectSingle at hmv
          rw [if_neg hcon, Option.some.injEq] at hmv
          rw [hmv] at hcon; exact hcon hqa
        obtain ⟨c1, c2⟩ := hs _ (List.getElem_mem hj') hpa
        obtain ⟨d1, d2, d3⟩ := move_planar hpa c1 c2 hmv
        exact backV_planar d1 d2 d3
      · exact i1 p (List.mem_flatMap.2 ⟨x, hx, hp⟩) ha
    · rw [incsMem_append, incsMem_append, e2, Option.bind_some, e5, Option.bind_some, i2]
    · intro c hc
      rcases List.mem_append.1 hc with hc | hc
      · rcases List.mem_append.1 hc with hc | hc
        · exact incsMem_ok la (fun c hc => Or.inr (Or.inl (za c hc))) m ma e2 c hc
        · refine incsMem_ok lc (fun c hc => ?_) ma m1 e5 c hc
          rcases zc c hc with h | h
          · exact Or.inl h
          · exact Or.inr (Or.inr h)
      · exact i3 c hc
    · intro i k
      rw [callSum_append, callSum_append, i4, add_zero]
      have h1 : callSum la .jphi i k = 0 := by
        unfold callSum
        apply List.sum_eq_zero
        intro x hx
        obtain ⟨c, hc, rfl⟩ := List.mem_map.1 hx
        split_ifs
        · exact z c hc
        · rfl
      have h2 : callSum lc .jphi i k = 0 := by
        unfold callSum
        apply List.sum_eq_zero
        intro x hx
        obtain ⟨c, hc, rfl⟩ := List.mem_map.1 hx
        rw [if_neg]
        rintro ⟨h, -⟩
        rcases zc c hc with h' | h' <;> rw [h'] at h <;> cases h
      rw [h1, h2, add_zero]

/-- the push keeps particles planar -/
theorem stepVAll_planar {G : Geom} (hG : G.Valid) (hnr : 3 ≤ G.nr) (hnz : 3 ≤ G.nz) {F F' : Fields}
    (h : Agree G F F') (h0 : ∀ a, Arr.azimuthal a → ∀ i k, F' a i k = 0) {mode : PusherMode}
    {dt : ℝ} {S S1 : List Species} (hS : StepVAll G F mode dt S S1)
    (hn : NoAzimuthalMotion (parts S)) : NoAzimuthalMotion (parts S1) := by
  intro p1 hp1 ha
  obtain ⟨s1, hs1, hp1⟩ := List.mem_flatMap.1 hp1
  obtain ⟨j, hj, rfl⟩ := List.mem_iff_getElem.1 hs1
  have hj' : j < S.length := by rw [hS.length_eq]; exact hj
  have hss := (List.forall₂_iff_get.1 hS).2 j hj' hj
  simp only [List.get_eq_getElem] at hss
  obtain ⟨n, hn1, rfl⟩ := List.mem_iff_getElem.1 hp1
  have hn' : n < S[j].ps.length := by rw [hss.2.length_eq]; exact hn1
  have hpp := (List.forall₂_iff_get.1 hss.2).2 n hn' hn1
  simp only [List.get_eq_getElem] at hpp
  obtain ⟨hreg, g, hg⟩ := hpp
  have hpa : (S[j].ps[n]).alive = true := by
    by_contra hcon
    unfold stepVSingle at hg
    rw [if_neg hcon, Option.some.injEq] at hg
    rw [hg] at hcon; exact hcon ha
  obtain ⟨c1, c2⟩ := hn _ (List.mem_flatMap.2 ⟨S[j], List.getElem_mem hj', List.getElem_mem hn'⟩) hpa
  obtain ⟨v1, v2, v3⟩ := val_planar hG hnr hnz h h0 (hreg hpa)
  exact stepV_planar hpa v1 v2 v3 c1 c2 hg

/-- memory after the magnetic update and the reset of the currents -/
theorem after_reset {G : Geom} (hG : G.Valid) (dt : ℝ) {m m1 m2 : Mem Loc} (hm : Initialised G m)
    (hf : NoAzimuthalField G m) (r1 : RegionRun (Alloc G) (hRegion G dt) m m1)
    (r2 : RegionRun (Alloc G) (resetJRegion G) m1 m2) :
    ∃ F', Agree G (fieldsOf m2) F' ∧ ∀ a, Arr.azimuthal a → ∀ i k, F' a i k = 0 := by
  have hrep := hf.rep hm.rep
  obtain ⟨n1, s1, q1⟩ := hRegion_spec hG dt hrep
  obtain rfl := s1.sound.2.2 _ r1
  obtain ⟨s2, q2⟩ := resetJ_spec hG q1
  obtain rfl := s2.sound.2.2 _ r2
  refine ⟨(hStep G dt (planarise (fieldsOf m))).write (wResetJ G), ?_, ?_⟩
  · intro a i k hl
    have := q2 ⟨a, i, k⟩ (Or.inl hl)
    simp only [fieldsOf, this, Option.getD_some]
    rfl
  · intro a ha i k
    have := hStep_planar G dt (fieldsOf m) ha i k
    rcases ha with rfl | rfl | rfl | rfl | rfl <;>
      simpa [Fields.write, wResetJ] using this

/-! ## The property -/

/-- **C75** (one cycle). If the azimuthal field components are zero and no live macroparticle moves
azimuthally, the same holds after every completed cycle, whatever the pusher, the time step and the
schedule. -/
theorem C75_planar_cycle (G : Geom) (hG : G.Valid) (hnr : 3 ≤ G.nr) (hnz : 3 ≤ G.nz)
    (mode : PusherMode) (dt : ℝ) (m m' : Mem Loc) (S S' : List Species) (hm : Initialised G m)
    (hf : NoAzimuthalField G m) (hn : NoAzimuthalMotion (parts S))
    (hc : Cycle G mode dt m S m' S') :
    Initialised G m' ∧ NoAzimuthalField G m' ∧ NoAzimuthalMotion (parts S') := by
  obtain ⟨m1, m2, m3, S1, r1, r2, r3, r4, r5⟩ := hc
  obtain ⟨F', ag, z⟩ := after_reset hG dt hm hf r1 r2
  have hn1 := stepVAll_planar hG hnr hnz ag z r3 hn
  obtain ⟨hn2, l, i1, i2, i3⟩ := fullCurrent_calls r4 hn1
  have hstep : FieldStep G dt l m m' := ⟨m1, m2, m3, r1, r2, ⟨l, .refl l, i1⟩, r5⟩
  obtain ⟨-, n', -, u, rep, -⟩ := fieldStep_spec hG dt i2 (hf.rep hm.rep)
  obtain rfl := u _ hstep
  refine ⟨rep.initialised, ?_, hn2⟩
  intro a i k ha hI
  rw [rep ⟨a, i, k⟩ hI]
  exact congrArg some (fStep_planar G dt _ _ _ i3 _ ha i k)

/-- **C75** (any number of cycles, with injection between them). `S j` are the particles at the end
of cycle `j`, `T j` those at the start of the next one. If injection adds no azimuthal motion, there
never is any, and `E_phi`, `H_r` and `H_z` stay zero. -/
theorem C75_planar_run (G : Geom) (hG : G.Valid) (hnr : 3 ≤ G.nr) (hnz : 3 ≤ G.nz)
    (mode : PusherMode) (dt : ℝ) (m : ℕ → Mem Loc) (S T : ℕ → List Species)
    (hm : Initialised G (m 0)) (hf : NoAzimuthalField G (m 0)) (hn : NoAzimuthalMotion (parts (S 0)))
    (hinj : ∀ j, NoAzimuthalMotion (parts (S j)) → NoAzimuthalMotion (parts (T j)))
    (hc : ∀ j, Cycle G mode dt (m j) (T j) (m (j + 1)) (S (j + 1))) (n : ℕ) :
    NoAzimuthalField G (m n) ∧ NoAzimuthalMotion (parts (S n)) := by
  have key : Initialised G (m n) ∧ NoAzimuthalField G (m n) ∧ NoAzimuthalMotion (parts (S n)) := by
    induction n with
    | zero => exact ⟨hm, hf, hn⟩
    | succ n ih =>
      exact C75_planar_cycle G hG hnr hnz mode dt _ _ _ _ ih.1 ih.2.1 (hinj n ih.2.2) (hc n)
  exact key.2

end Verif
