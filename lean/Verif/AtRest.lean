import Verif.PlasmaProps

/-!
# C90: macroparticles at rest in a chamber without fields

The program starts with zero fields and never computes the field of the charges that it starts with
(src/loadInitParam.cpp:250-259; `Poisson` is called by nothing there). So charges at rest do not feel each other.
-/

namespace Verif

/-! ## Specification -/

/-- a component of the electric or magnetic field -/
def Arr.isEH : Arr → Prop
  | .er | .ephi | .ez | .hr | .hphi | .hz | .hrh | .hphih | .hzh => True
  | _ => False

/-- all fields have values, and these are zero -/
def FieldFree (G : Geom) (m : Mem Loc) : Prop :=
  Initialised G m ∧ ∀ a i k, a.isEH → Init G ⟨a, i, k⟩ → m ⟨a, i, k⟩ = some 0

/-- a live macroparticle rests at a place where fields can be interpolated -/
def AtRest (G : Geom) (p : Particle) : Prop :=
  p.alive = true → InRegion G p.pos.c0 p.pos.c2 ∧ p.pos.c1 = 0 ∧ p.vel = ⟨0, 0, 0⟩ ∧ p.mass ≠ 0

/-- nothing about the macroparticle has changed that matters: neither place nor velocity, charge, mass and life -/
def Unmoved (p p' : Particle) : Prop :=
  p'.alive = p.alive ∧ p'.pos = p.pos ∧ p'.vel = p.vel ∧ p'.charge = p.charge ∧ p'.mass = p.mass

/-! ## Fields -/

/-- without the fields -/
noncomputable def noFields (F : Fields) : Fields
  | .jr, i, k => F .jr i k
  | .jphi, i, k => F .jphi i k
  | .jz, i, k => F .jz i k
  | .eps, i, k => F .eps i k
  | .sig, i, k => F .sig i k
  | _, _, _ => 0

theorem noFields_zero (F : Fields) {a : Arr} (ha : a.isEH) (i k : ℤ) : noFields F a i k = 0 := by
  cases a <;> first | rfl | exact False.elim ha

theorem FieldFree.rep {G : Geom} {m : Mem Loc} (h : FieldFree G m) : Rep G (noFields (fieldsOf m)) m := by
  refine h.1.rep.congr ?_
  intro a i k hI
  by_cases ha : a.isEH
  · have e1 := h.1.rep ⟨a, i, k⟩ hI
    rw [h.2 a i k ha hI] at e1
    rw [noFields_zero _ ha]
    exact (Option.some.inj e1).symm
  · cases a <;> first | rfl | exact absurd trivial ha

theorem hStep_noFields (G : Geom) (dt : ℝ) (F : Fields) {a : Arr} (ha : a.isEH) (i k : ℤ) :
    hStep G dt (noFields F) a i k = 0 := by
  cases a <;> first
    | (exact False.elim ha)
    | simp [hStep, noFields, alphaR, alphaPhi, alphaZ]

theorem fStep_noFields (G : Geom) (dt : ℝ) (jr jphi jz : Grid) (h1 : ∀ i k, jr i k = 0) (h2 : ∀ i k, jphi i k = 0)
    (h3 : ∀ i k, jz i k = 0) (F : Fields) {a : Arr} (ha : a.isEH) (i k : ℤ) :
    fStep G dt jr jphi jz (noFields F) a i k = 0 := by
  have key : ∀ {b : Arr}, b.isEH → ∀ i k, withJ (hStep G dt (noFields F)) jr jphi jz b i k = 0 := by
    intro b hb i k
    have := hStep_noFields G dt F hb i k
    cases b <;> first | exact False.elim hb | exact this
  have k1 := fun i k => key (b := .er) trivial i k
  have k2 := fun i k => key (b := .ephi) trivial i k
  have k3 := fun i k => key (b := .ez) trivial i k
  have k4 := fun i k => key (b := .hr) trivial i k
  have k5 := fun i k => key (b := .hphi) trivial i k
  have k6 := fun i k => key (b := .hz) trivial i k
  have j1 : ∀ i k, withJ (hStep G dt (noFields F)) jr jphi jz .jr i k = 0 := fun i k => h1 i k
  have j2 : ∀ i k, withJ (hStep G dt (noFields F)) jr jphi jz .jphi i k = 0 := fun i k => h2 i k
  have j3 : ∀ i k, withJ (hStep G dt (noFields F)) jr jphi jz .jz i k = 0 := fun i k => h3 i k
  unfold fStep
  cases a <;> first
    | (exact False.elim ha)
    | exact key (b := .hr) trivial i k
    | exact key (b := .hphi) trivial i k
    | exact key (b := .hz) trivial i k
    | exact key (b := .hrh) trivial i k
    | exact key (b := .hphih) trivial i k
    | exact key (b := .hzh) trivial i k
    | (simp only [eStep, newEr, newEphi, newEz, newEz0, k1, k2, k3, k4, k5, k6, j1, j2, j3]; simp)

/-- what the pushers see -/
theorem val_noFields {G : Geom} (hG : G.Valid) (hnr : 3 ≤ G.nr) (hnz : 3 ≤ G.nz) (dt : ℝ) {m m1 m2 : Mem Loc}
    (hm : FieldFree G m) (r1 : RegionRun (Alloc G) (hRegion G dt) m m1)
    (r2 : RegionRun (Alloc G) (resetJRegion G) m1 m2) {r z : ℝ} (hp : InRegion G r z) :
    valE G (fieldsOf m2) r z = V3.zero ∧ valH G (fieldsOf m2) r z = V3.zero := by
  obtain ⟨n1, s1, q1⟩ := hRegion_spec hG dt hm.rep
  obtain rfl := s1.sound.2.2 _ r1
  obtain ⟨s2, q2⟩ := resetJ_spec hG q1
  obtain rfl := s2.sound.2.2 _ r2
  obtain ⟨F', hF'⟩ : ∃ F', F' = (hStep G dt (noFields (fieldsOf m))).write (wResetJ G) := ⟨_, rfl⟩
  have hag : Agree G (fieldsOf (memWrite (wResetJ G) m1)) F' := by
    intro a i k hl
    have := q2 ⟨a, i, k⟩ (Or.inl hl)
    simp only [fieldsOf, this, Option.getD_some, hF']
    rfl
  obtain ⟨e1, e2⟩ := val_congr hG hnr hnz hag hp
  have z : ∀ a, Arr.isEH a → ∀ i k, F' a i k = 0 := by
    intro a ha i k
    have := hStep_noFields G dt (fieldsOf m) ha i k
    rw [hF']
    cases a <;> first | exact False.elim ha | simpa [Fields.write, wResetJ] using this
  have k1 := z .er trivial
  have k2 := z .ephi trivial
  have k3 := z .ez trivial
  have k4 := z .hrh trivial
  have k5 := z .hphih trivial
  have k6 := z .hzh trivial
  rw [e1, e2]
  constructor
  · simp [valE, valHalf, valInt, val4, V3.zero, k1, k2, k3]
  · simp [valH, valHalf, valInt, val4, V3.zero, k4, k5, k6]

/-! ## Macroparticles -/

/-- a resting macroparticle after a cycle: its old place and angle are set -/
noncomputable def settleMid (p : Particle) : Particle :=
  if p.alive then { p with posOld := ⟨p.pos.c0, p.posOld.c1, p.pos.c2⟩, sinTheta := 0 } else p
noncomputable def settle (p : Particle) : Particle :=
  if p.alive then { p with posOld := ⟨p.pos.c0, p.posOld.c1, p.pos.c2⟩, sinTheta := 0, cosTheta := 1 } else p

theorem settle_unmoved (p : Particle) : Unmoved p (settle p) := by
  unfold settle
  split_ifs <;> exact ⟨rfl, rfl, rfl, rfl, rfl⟩

theorem backPosition_rest {p : Particle} (h0 : 0 < p.pos.c0) (h1 : p.pos.c1 = 0) :
    backPosition p = some { p with sinTheta := 0 } := by
  obtain ⟨al, ⟨a, b, c⟩, po, v, q, m, s, co⟩ := p
  dsimp only at h0 h1
  subst h1
  have : Real.sqrt (a * a + 0 * 0) = a := by rw [mul_zero, add_zero, Real.sqrt_mul_self h0.le]
  unfold backPosition
  dsimp only
  rw [this, if_neg h0.ne', zero_div]

theorem rest_push {G : Geom} (hG : G.Valid) {F : Fields} {mode : PusherMode} {g : Bool} {dt : ℝ} {p : Particle}
    (hp : AtRest G p) (hE : InRegion G p.pos.c0 p.pos.c2 → valE G F p.pos.c0 p.pos.c2 = V3.zero ∧
      valH G F p.pos.c0 p.pos.c2 = V3.zero) : stepVSingle G F mode g dt p = some (settleMid p) := by
  unfold stepVSingle settleMid
  split_ifs with ha
  swap
  · rfl
  obtain ⟨h1, h2, h3, h4⟩ := hp ha
  obtain ⟨e1, e2⟩ := hE h1
  have hdr := hG.dr_pos
  have h0 : 0 < p.pos.c0 := by have := h1.1; linarith
  rw [e1, e2, h3, C20_free_streaming mode g dt _ _ h4]
  · rw [Option.bind_some, backPosition_rest]
    · congr 1
      obtain ⟨al, ⟨a, b, c⟩, po, v, q, m, s, co⟩ := p
      dsimp only at h3
      subst h3
      simp [halfStep, dumpOld]
    · simpa [halfStep, dumpOld] using h0
    · simpa [halfStep, dumpOld] using h2
  · norm_num [speedSq, LIGHT_SPEED]
  · exact ⟨Or.inl rfl, Or.inl rfl, Or.inl rfl⟩

theorem rest_mid {G : Geom} {p : Particle} (hp : AtRest G p) : AtRest G (settleMid p) := by
  unfold settleMid
  split_ifs with ha
  · exact fun _ => hp ha
  · exact hp

theorem rest_move {G : Geom} (hG : G.Valid) (b : Bool) {dt : ℝ} {p : Particle} (hp : AtRest G p) :
    moveHalfReflectSingle b G dt (settleMid p) = some (settleMid p) := by
  have hq := rest_mid hp
  unfold moveHalfReflectSingle
  by_cases ha : p.alive = true
  swap
  · have : settleMid p = p := by unfold settleMid; rw [if_neg ha]
    rw [this, if_neg ha]
  have hs : settleMid p = { p with posOld := ⟨p.pos.c0, p.posOld.c1, p.pos.c2⟩, sinTheta := 0 } := by
    unfold settleMid; rw [if_pos ha]
  have ha' : (settleMid p).alive = true := by rw [hs]; exact ha
  obtain ⟨h1, h2, h3, h4⟩ := hq ha'
  have hsin : (settleMid p).sinTheta = 0 := by rw [hs]
  obtain ⟨q, hqd⟩ : ∃ q, q = settleMid p := ⟨_, rfl⟩
  rw [← hqd] at h1 h2 h3 h4 ha' hsin ⊢
  rw [if_pos ha']
  have hdr := hG.dr_pos
  obtain ⟨i1, i2, i3, i4⟩ := h1
  have e1 : halfStep dt q = q := by
    obtain ⟨al, ⟨a, b, c⟩, po, v, qq, m, s, co⟩ := q
    dsimp only at h3
    subst h3
    simp [halfStep]
  have e2 : reflectLow G q = q := by
    unfold reflectLow
    rw [if_neg (not_lt.2 i1)]
    dsimp only
    rw [if_neg (not_lt.2 i3)]
  have e3 : reflectionOf b G q = q := by
    unfold reflectionOf
    cases b
    · simp only [Bool.false_eq_true, if_false]
      unfold reflection
      dsimp only
      rw [if_neg (not_lt.2 i2), if_neg (not_lt.2 i4), e2]
    · simp only [if_true]
      unfold bunchReflection
      dsimp only
      rw [if_neg (not_lt.2 i2), if_neg (not_lt.2 i4), e2]
  rw [e1, e3, backPosition_rest (by linarith) h2, ← hsin]

theorem rest_back {G : Geom} {p : Particle} (hp : AtRest G p) : backVelocitySingle (settleMid p) = settle p := by
  unfold backVelocitySingle settle settleMid
  split_ifs with ha
  · obtain ⟨-, -, h3, -⟩ := hp ha
    obtain ⟨al, pos, po, v, q, m, s, co⟩ := p
    dsimp only at h3
    subst h3
    simp [backVelocity]
  · rfl

theorem settle_rest {G : Geom} {p : Particle} (hp : AtRest G p) : AtRest G (settle p) := by
  obtain ⟨e1, e2, e3, e4, e5⟩ := settle_unmoved p
  intro ha
  rw [e1] at ha
  rw [e2, e3, e5]
  exact hp ha

theorem rest_calls {G : Geom} {dt : ℝ} (p : Particle) : moveCalls G dt (settleMid p) = some [] := by
  unfold moveCalls settleMid
  split_ifs with ha
  · have h0 : ∀ x : ℝ, |x - x| < MNZL := fun x => by simpa using MNZL_pos
    unfold currentOfMove strictMotion
    simp only [h0, true_or, and_self, if_true]
    simp [JIncs.empty, callsOf]
  · rfl

theorem rest_azimuthal {G : Geom} (hG : G.Valid) {p : Particle} (hp : AtRest G p) :
    ∃ l, azimuthalCalls G p = some l ∧ (∀ c ∈ l, c.Ok G) ∧ ∀ c ∈ l, c.v = 0 := by
  have hdr := hG.dr_pos
  have hdz := hG.dz_pos
  unfold azimuthalCalls
  by_cases ha : p.alive = true
  swap
  · rw [if_neg ha]; exact ⟨[], rfl, by simp, by simp⟩
  obtain ⟨⟨i1, i2, i3, i4⟩, h2, h3, h4⟩ := hp ha
  have hoff : OffAxisWithinFarWalls G [p] := by
    intro q hq _
    rw [List.mem_singleton.1 hq]
    exact ⟨by linarith, by linarith, by linarith⟩
  have hne : ¬ (p.pos.c0 = 0) := (hoff p (by simp) ha).1.ne'
  obtain ⟨l, hl⟩ : ∃ l, azimuthalIncs G p.charge p.vel.c1 p.pos.c0 p.pos.c2 = some l := by
    unfold azimuthalIncs
    simp [hne]
  have hz : seqCalls ([p].map (azimuthalCalls G)) = some (callsOf .jphi l) := by
    simp [seqCalls, azimuthalCalls, ha, hl]
  rw [if_pos ha, hl]
  refine ⟨_, rfl, ?_, azimuthal_zero [p] _ (fun q hq _ => by
    rw [List.mem_singleton.1 hq]; exact ⟨h2, by rw [h3]⟩) hz⟩
  intro c hc
  obtain ⟨d, hd, rfl⟩ := List.mem_map.1 hc
  have := azimIncs_inGrid G hG [p] hoff d (by
    simp only [List.flatMap_cons, List.flatMap_nil, List.append_nil, azimIncsOf]
    rw [if_pos ha, hl]; exact hd)
  exact ⟨Or.inr (Or.inl rfl), this.1, this.2.1, this.2.2.1, this.2.2.2⟩

/-! ## Species -/

theorem rest_push_list {G : Geom} (hG : G.Valid) {F : Fields} {mode : PusherMode} {dt : ℝ} :
    ∀ (ps ps1 : List Particle), (∀ p ∈ ps, AtRest G p) →
    (∀ r z, InRegion G r z → valE G F r z = V3.zero ∧ valH G F r z = V3.zero) →
    List.Forall₂ (StepVRel G F mode dt) ps ps1 → ps1 = ps.map settleMid := by
  intro ps ps1 hp hF h
  induction h with
  | nil => rfl
  | @cons p p1 ps ps1 h _ ih =>
    obtain ⟨-, g, hg⟩ := h
    rw [rest_push hG (hp p (by simp)) (hF _ _), Option.some.injEq] at hg
    rw [List.map_cons, ← hg, ← ih (fun q hq => hp q (by simp [hq]))]

theorem rest_move_list {G : Geom} (hG : G.Valid) (b : Bool) {dt : ℝ} : ∀ (ps qs : List Particle), (∀ p ∈ ps, AtRest G p) →
    List.Forall₂ (fun p q => moveHalfReflectSingle b G dt p = some q) (ps.map settleMid) qs → qs = ps.map settleMid := by
  intro ps
  induction ps with
  | nil => intro qs _ h; cases h; rfl
  | cons p ps ih =>
    intro qs hp h
    obtain ⟨q, Q, h1, t, rfl⟩ := List.forall₂_cons_left_iff.1 h
    rw [rest_move hG b (hp p (by simp)), Option.some.injEq] at h1
    rw [← h1, ih Q (fun q hq => hp q (by simp [hq])) t]
    rfl

theorem rest_calls_list {G : Geom} {dt : ℝ} (ps : List Particle) :
    seqCalls ((ps.map settleMid).map (moveCalls G dt)) = some [] := by
  induction ps with
  | nil => rfl
  | cons p ps ih =>
    rw [List.map_cons, List.map_cons, rest_calls, seqCalls, ih]
    rfl

theorem rest_back_list {G : Geom} (ps : List Particle) (hp : ∀ p ∈ ps, AtRest G p) :
    (ps.map settleMid).map backVelocitySingle = ps.map settle := by
  rw [List.map_map]
  exact List.map_congr_left fun p h => rest_back (hp p h)

/-- a species after a cycle -/
noncomputable def Species.settle (s : Species) : Species := ⟨s.bunch, s.ps.map Verif.settle⟩

theorem rest_push_all {G : Geom} (hG : G.Valid) {F : Fields} {mode : PusherMode} {dt : ℝ} {S S1 : List Species}
    (hp : ∀ p ∈ parts S, AtRest G p)
    (hF : ∀ r z, InRegion G r z → valE G F r z = V3.zero ∧ valH G F r z = V3.zero)
    (h : StepVAll G F mode dt S S1) : S1 = S.map fun s => ⟨s.bunch, s.ps.map settleMid⟩ := by
  unfold StepVAll at h
  induction h with
  | nil => rfl
  | @cons s s1 S S1 h _ ih =>
    obtain ⟨h1, h2⟩ := h
    have e := rest_push_list hG s.ps s1.ps (fun p h => hp p (List.mem_flatMap.2 ⟨s, by simp, h⟩)) hF h2
    rw [List.map_cons, ← ih (fun p h => by
      obtain ⟨x, hx, h⟩ := List.mem_flatMap.1 h
      exact hp p (List.mem_flatMap.2 ⟨x, by simp [hx], h⟩)), ← e, ← h1]

theorem rest_current_all {G : Geom} (hG : G.Valid) {dt : ℝ} : ∀ {S S' : List Species} {m m' : Mem Loc},
    (∀ p ∈ parts S, AtRest G p) →
    FullCurrentAll G dt (S.map fun s => ⟨s.bunch, s.ps.map settleMid⟩) m S' m' →
    S' = S.map Species.settle ∧ ∃ l, incsMem G l m = some m' ∧ (∀ c ∈ l, c.Ok G) ∧ ∀ c ∈ l, c.v = 0 := by
  intro S
  induction S with
  | nil =>
    intro S' m m' _ h
    cases h
    exact ⟨rfl, [], rfl, by simp, by simp⟩
  | cons s S ih =>
    intro S' m m' hp h
    rw [List.map_cons] at h
    cases h with
    | @cons _ s' _ S' _ m1 _ h t =>
    obtain ⟨la, lc, ma, moved, e1, e2, e3, e4, e5, rfl⟩ := h
    have hs : ∀ p ∈ s.ps, AtRest G p := fun p h => hp p (List.mem_flatMap.2 ⟨s, by simp, h⟩)
    obtain ⟨i1, l, i2, i3, i4⟩ := ih (fun p h => by
      obtain ⟨x, hx, h⟩ := List.mem_flatMap.1 h
      exact hp p (List.mem_flatMap.2 ⟨x, by simp [hx], h⟩)) t
    dsimp only at e1 e3 e4
    have emv := rest_move_list hG s.bunch s.ps moved hs e3
    subst emv
    rw [rest_calls_list, Option.some.injEq] at e4
    subst e4
    have hz := azimuthal_zero _ la (fun p hp ha => by
      obtain ⟨q, hq, rfl⟩ := List.mem_map.1 hp
      obtain ⟨-, h2, h3, -⟩ := rest_mid (hs q hq) ha
      exact ⟨h2, by rw [h3]⟩) e1
    have za := azimuthal_arr _ la e1
    refine ⟨?_, la ++ l, ?_, ?_, ?_⟩
    · rw [i1, List.map_cons]
      congr 1
      unfold Species.settle
      rw [rest_back_list s.ps hs]
    · have : m1 = ma := by
        have : incsMem G [] ma = some ma := rfl
        rw [this, Option.some.injEq] at e5
        exact e5.symm
      subst this
      rw [incsMem_append, e2, Option.bind_some, i2]
    · intro c hc
      rcases List.mem_append.1 hc with hc | hc
      · exact incsMem_ok la (fun c hc => Or.inr (Or.inl (za c hc))) m ma e2 c hc
      · exact i3 c hc
    · intro c hc
      rcases List.mem_append.1 hc with hc | hc
      · exact hz c hc
      · exact i4 c hc

theorem callSum_values {l : List JCall} (h : ∀ c ∈ l, c.v = 0) (a : Arr) (i k : ℤ) : callSum l a i k = 0 := by
  unfold callSum
  apply List.sum_eq_zero
  intro x hx
  obtain ⟨c, hc, rfl⟩ := List.mem_map.1 hx
  split_ifs
  · exact h c hc
  · rfl

theorem parts_settle (S : List Species) : parts (S.map Species.settle) = (parts S).map settle := by
  induction S with
  | nil => rfl
  | cons s S ih =>
    have h1 : parts (s :: S) = s.ps ++ parts S := rfl
    have h2 : parts ((s :: S).map Species.settle) = s.ps.map settle ++ parts (S.map Species.settle) := rfl
    rw [h1, h2, ih, List.map_append]

theorem settle_all (ps : List Particle) : List.Forall₂ Unmoved ps (ps.map settle) := by
  induction ps with
  | nil => exact .nil
  | cons p ps ih => exact .cons (settle_unmoved p) ih

theorem rest_cycle {G : Geom} (hG : G.Valid) (hnr : 3 ≤ G.nr) (hnz : 3 ≤ G.nz) {mode : PusherMode} {dt : ℝ} {m m' : Mem Loc}
    {S S' : List Species} (hm : FieldFree G m) (hS : ∀ p ∈ parts S, AtRest G p) (hc : Cycle G mode dt m S m' S') :
    FieldFree G m' ∧ S' = S.map Species.settle := by
  obtain ⟨m1, m2, m3, S1, r1, r2, r3, r4, r5⟩ := hc
  have hF : ∀ r z, InRegion G r z → valE G (fieldsOf m2) r z = V3.zero ∧ valH G (fieldsOf m2) r z = V3.zero :=
    fun r z h => val_noFields hG hnr hnz dt hm r1 r2 h
  have e := rest_push_all hG hS hF r3
  subst e
  obtain ⟨rfl, l, i1, i2, i3⟩ := rest_current_all hG hS r4
  have hstep : FieldStep G dt l m m' := ⟨m1, m2, m3, r1, r2, ⟨l, .refl l, i1⟩, r5⟩
  obtain ⟨-, n', -, u, rep, -⟩ := fieldStep_spec hG dt i2 hm.rep
  obtain rfl := u _ hstep
  refine ⟨⟨rep.initialised, ?_⟩, rfl⟩
  intro a i k ha hI
  rw [rep ⟨a, i, k⟩ hI]
  exact congrArg some (fStep_noFields G dt _ _ _ (callSum_values i3 .jr) (callSum_values i3 .jphi)
    (callSum_values i3 .jz) _ ha i k)

/-! ## The property -/

/-- **C90** (one cycle). If no field is there and all live macroparticles rest, then after every completed cycle this is so
again, and every macroparticle is where it was: whatever their charges, the pusher, the time step and the schedule. -/
theorem C90_cycle (G : Geom) (hG : G.Valid) (hnr : 3 ≤ G.nr) (hnz : 3 ≤ G.nz) (mode : PusherMode) (dt : ℝ) (m m' : Mem Loc)
    (S S' : List Species) (hm : FieldFree G m) (hS : ∀ p ∈ parts S, AtRest G p) (hc : Cycle G mode dt m S m' S') :
    FieldFree G m' ∧ (∀ p ∈ parts S', AtRest G p) ∧ List.Forall₂ Unmoved (parts S) (parts S') := by
  obtain ⟨h1, rfl⟩ := rest_cycle hG hnr hnz hm hS hc
  refine ⟨h1, ?_, ?_⟩
  · rw [parts_settle]
    intro p hp
    obtain ⟨q, hq, rfl⟩ := List.mem_map.1 hp
    exact settle_rest (hS q hq)
  · rw [parts_settle]
    exact settle_all _

/-- **C90** (the cycle goes through). Such a state can be left by a cycle, and no cycle from it can go wrong, with every pusher and
every time step. -/
theorem C90_goes_on (G : Geom) (hG : G.Valid) (hnr : 3 ≤ G.nr) (hnz : 3 ≤ G.nz) (mode : PusherMode) (dt : ℝ) (m : Mem Loc)
    (S : List Species) (hm : FieldFree G m) (hS : ∀ p ∈ parts S, AtRest G p) :
    ¬ CycleFault G mode dt m S ∧ ∃ m' S', Cycle G mode dt m S m' S' := by
  obtain ⟨c1, c2, -⟩ := cycle_core hG (mode := mode) (dt := dt) (Mid := fun q => ∃ p, AtRest G p ∧ q = settleMid p)
    (Rdy := AtRest G) (m := m) (S := S)
    (fun p hp => by
      obtain ⟨p, hp, rfl⟩ := hp
      obtain ⟨l, h1, h2, -⟩ := rest_azimuthal hG (rest_mid hp)
      exact ⟨l, h1, h2⟩)
    (fun b p hp => by
      obtain ⟨p, hp, rfl⟩ := hp
      refine ⟨_, rest_move hG b hp, ⟨[], rest_calls p, by simp⟩, ?_⟩
      rw [rest_back hp]
      exact settle_rest hp)
    hm.1 (fun p hp ha => (hS p hp ha).1)
    (fun m1 m2 r1 r2 p hp g => ⟨_, rest_push hG (hS p hp) (fun h => val_noFields hG hnr hnz dt hm r1 r2 h), p, hS p hp, rfl⟩)
  exact ⟨c1, c2⟩

theorem unmoved_trans {a b c : List Particle} (h1 : List.Forall₂ Unmoved a b) (h2 : List.Forall₂ Unmoved b c) :
    List.Forall₂ Unmoved a c := by
  induction h1 generalizing c with
  | nil => cases h2; exact .nil
  | cons h _ ih =>
    obtain ⟨x, X, h', t', rfl⟩ := List.forall₂_cons_left_iff.1 h2
    obtain ⟨a1, a2, a3, a4, a5⟩ := h
    obtain ⟨b1, b2, b3, b4, b5⟩ := h'
    exact .cons ⟨b1.trans a1, b2.trans a2, b3.trans a3, b4.trans a4, b5.trans a5⟩ (ih t')

/-- **C90** (any number of cycles). From such a state any number of cycles can be made, none of them can go wrong, and after any
number of them no field has appeared and no macroparticle has moved. -/
theorem C90_run (G : Geom) (hG : G.Valid) (hnr : 3 ≤ G.nr) (hnz : 3 ≤ G.nz) (mode : PusherMode) (dt : ℝ) (m : Mem Loc)
    (S : List Species) (hm : FieldFree G m) (hS : ∀ p ∈ parts S, AtRest G p) (n : ℕ) :
    (∃ m' S', Reaches G mode dt (fun _ S => S) n m S m' S') ∧
    ∀ m' S', Reaches G mode dt (fun _ S => S) n m S m' S' →
      FieldFree G m' ∧ List.Forall₂ Unmoved (parts S) (parts S') ∧ ¬ CycleFault G mode dt m' S' := by
  have inv : ∀ n m' S', Reaches G mode dt (fun _ S => S) n m S m' S' → FieldFree G m' ∧ (∀ p ∈ parts S', AtRest G p) ∧
      List.Forall₂ Unmoved (parts S) (parts S') := by
    intro n m' S' h
    induction h with
    | start m S => exact ⟨hm, hS, List.forall₂_same.2 fun p _ => ⟨rfl, rfl, rfl, rfl, rfl⟩⟩
    | step h c ih =>
      obtain ⟨a, b, d⟩ := ih hm hS
      obtain ⟨x, y, z⟩ := C90_cycle G hG hnr hnz mode dt _ _ _ _ a b c
      exact ⟨x, y, unmoved_trans d z⟩
  constructor
  · induction n with
    | zero => exact ⟨m, S, .start m S⟩
    | succ n ih =>
      obtain ⟨m', S', h⟩ := ih
      obtain ⟨a, b, -⟩ := inv n m' S' h
      obtain ⟨-, m2, S2, c⟩ := C90_goes_on G hG hnr hnz mode dt m' S' a b
      exact ⟨m2, S2, .step h c⟩
  · intro m' S' h
    obtain ⟨a, b, c⟩ := inv n m' S' h
    exact ⟨a, c, (C90_goes_on G hG hnr hnz mode dt m' S' a b).1⟩

/-! ## The states are those the program starts with -/

theorem started_free {G : Geom} (hG : G.Valid) {tbl : ℤ → ℤ → Option ℝ} {m : Mem Loc} (h : Started G tbl m) :
    FieldFree G m := by
  have hr := h.rep hG
  refine ⟨hr.initialised, ?_⟩
  intro a i k ha hI
  rw [hr ⟨a, i, k⟩ hI]
  cases a <;> first | exact False.elim ha | rfl

/-- **C90** (reachable). Every usable plasma can come out of the draws with all macroparticles at rest. -/
theorem C90_reachable (G : Geom) (hG : G.Valid) (hnr : 3 ≤ G.nr) (hnz : 3 ≤ G.nz) (sps : List SpecieSettings)
    (hs : ∀ sp ∈ sps, sp.Usable) : ∃ S, InitPlasma G sps (some S) ∧ ∀ p ∈ parts S, AtRest G p ∧ p.alive = true := by
  obtain ⟨-, ⟨S, hS⟩, hall⟩ := C79_plasma_partial G hG hnr hnz sps hs
  obtain ⟨S', hS'⟩ : ∃ S' : List Species, S' = S.map fun s => ⟨s.bunch, s.ps.map fun p => { p with vel := ⟨0, 0, 0⟩ }⟩ := ⟨_, rfl⟩
  have hi : InitPlasma G sps (some S') := by
    rcases hS with ⟨h, -⟩ | ⟨S0, e, h⟩
    · cases h
    cases e
    refine Or.inr ⟨S', rfl, ?_⟩
    subst hS'
    clear hall hs
    induction h with
    | nil => exact .nil
    | @cons sp s sps S h _ ih =>
      refine .cons ⟨h.1, ?_⟩ ih
      obtain ⟨-, h⟩ := h
      cases h with
      | ok draws hd _ hl =>
        refine .ok draws hd _ ?_
        dsimp only
        obtain ⟨L, hL⟩ : ∃ L, L = loadCylindrical G (sp.charge * EL_CHARGE) (sp.mass * EL_MASS) sp.left_density
          sp.right_density 0 draws := ⟨_, rfl⟩
        rw [← hL] at hl ⊢
        clear hL ih
        obtain ⟨ps, hps⟩ : ∃ ps, ps = s.ps := ⟨_, rfl⟩
        rw [← hps] at hl ⊢
        clear hps
        induction hl with
        | nil => exact .nil
        | cons h _ ih =>
          obtain ⟨us, e, rnd, a1, a2, a3, a4, a5, a6, a7, a8, a9⟩ := h
          refine .cons ⟨us, e, ⟨0, 0, 0⟩, a1, a2, a3, by simp [Uniform2Draw], a5, a6, ?_, a8, a9⟩ ih
          simp [thermalVelocity, V3.smul]
  refine ⟨S', hi, ?_⟩
  intro p hp
  obtain ⟨b1, b2, b3, b4, b5⟩ := (hall S' hi).2 p hp
  refine ⟨fun _ => ⟨b2, b3, ?_, b4.ne'⟩, b1⟩
  rw [hS'] at hp
  obtain ⟨s, hs, hp⟩ := List.mem_flatMap.1 hp
  obtain ⟨s, -, rfl⟩ := List.mem_map.1 hs
  obtain ⟨p, -, rfl⟩ := List.mem_map.1 hp
  rfl

end Verif
