import Verif.MirrorCycle
import Verif.MirrorProps
import Verif.TranslationProps
import Verif.AtRest

/-!
# C117: a whole simulation in the mirror
-/

namespace Verif

/-! ## Specification -/

/-- The second simulation is the mirror image of the first: fields, currents, and macroparticles in the same order. -/
structure MirrorState (G : Geom) (m : Mem Loc) (S : List Species) (M : Mem Loc) (T : List Species) : Prop where
  mem : MirrorImage G m M
  parts : List.Forall₂ (fun x y => x.1 = y.1 ∧ SamePart (x.2.mirror G) y.2) (tagged S) (tagged T)

/-- The macroparticles of the bunches are at least a cell and a half away from the end walls. -/
def BunchesAway (G : Geom) (S : List Species) : Prop :=
  ∀ x ∈ tagged S, x.1 = true → x.2.alive = true → 3 / 2 * G.dz ≤ x.2.pos.c2 ∧ x.2.pos.c2 ≤ G.z_size - 3 / 2 * G.dz

namespace Mirror

theorem inside_mirror {G : Geom} {p q : Particle} (h : SamePart (p.mirror G) q) (hp : Inside G p) : Inside G q := by
  intro ha
  have ha' : p.alive = true := by rw [show p.alive = q.alive from h.alive]; exact ha
  obtain ⟨⟨h1, h2, h3, h4⟩, h5, h6, h7⟩ := hp ha'
  rw [← h.pos, ← h.vel, ← h.mass]
  refine ⟨⟨h1, h2, show _ ≤ G.z_size - p.pos.c2 by linarith, show G.z_size - p.pos.c2 ≤ _ by linarith⟩, h5, h6, ?_⟩
  have e : speedSq (p.mirror G).vel = speedSq p.vel := by
    simp only [speedSq, Particle.mirror]
    ring
  rw [e]
  exact h7

theorem all_inside {G : Geom} {S T : List Species}
    (h : List.Forall₂ (fun x y => x.1 = y.1 ∧ SamePart (x.2.mirror G) y.2) (tagged S) (tagged T)) (hS : ∀ p ∈ parts S, Inside G p) :
    ∀ p ∈ parts T, Inside G p := by
  intro p hp
  rw [← tagged_parts] at hp
  obtain ⟨y, hy, rfl⟩ := List.mem_map.1 hp
  obtain ⟨x, hx, -, e⟩ := forall2_right h hy
  exact inside_mirror e (hS _ (by rw [← tagged_parts]; exact List.mem_map.2 ⟨x, hx, rfl⟩))

theorem forall2_mem {α β : Type} {R : α → β → Prop} {l : List α} {l' : List β} (h : List.Forall₂ R l l') : List.Forall₂ (fun x y => R x y ∧ x ∈ l) l l' := by
  induction h with
  | nil => exact .nil
  | cons h _ ih => exact .cons ⟨h, by simp⟩ (ih.imp fun _ _ e => ⟨e.1, by simp [e.2]⟩)

/-- the fields the macroparticles see -/
theorem seen_mirror {G : Geom} (hG : G.Valid) {dt : ℝ} {m m1 m2 M M1 M2 : Mem Loc} (hm : Initialised G m) (hM : Initialised G M)
    (h : MirrorImage G m M) (w : EndWalls G (fieldsOf m)) (r1 : RegionRun (Alloc G) (hRegion G dt) m m1) (r2 : RegionRun (Alloc G) (resetJRegion G) m1 m2)
    (q1 : RegionRun (Alloc G) (hRegion G dt) M M1) (q2 : RegionRun (Alloc G) (resetJRegion G) M1 M2) : MirF G (fieldsOf m2) (fieldsOf M2) := by
  have after : ∀ {x x1 x2 : Mem Loc}, Initialised G x → RegionRun (Alloc G) (hRegion G dt) x x1 → RegionRun (Alloc G) (resetJRegion G) x1 x2 →
      Agree G (fieldsOf x2) (withJ (hStep G dt (fieldsOf x)) (fun _ _ => 0) (fun _ _ => 0) (fun _ _ => 0)) := by
    intro x x1 x2 hx a1 a2 a i k hI
    obtain ⟨n1, s1, w1⟩ := hRegion_spec hG dt hx.rep
    rw [s1.sound.2.2 _ a1] at a2
    obtain ⟨s2, w2⟩ := resetJ_spec hG w1
    rw [s2.sound.2.2 _ a2, (Rep.ofAdd w2).agree a i k hI]
    cases a
    case jr | jphi | jz =>
      show (if Box 0 G.nr 0 G.nz i k then some 0 else none : Option ℝ).getD _ = 0
      rw [if_pos (by simp only [Init, Arr.initRows, Arr.initCols] at hI; simp only [Box]; omega)]
      rfl
    all_goals rfl
  have n1 := hG.nr_ge
  have n2 := hG.nz_ge
  have s := hStep_mirror hG dt (F := fieldsOf m) (F' := fieldsOf M) h w
  intro a i k hI
  have hI' : Init G ⟨a, i, a.mirrorCol G k⟩ := by
    simp only [Init] at hI ⊢
    cases a <;> simp only [Arr.initRows, Arr.initCols, Arr.mirrorCol] at hI ⊢ <;> omega
  rw [after hM q1 q2 a i k hI, after hm r1 r2 a i _ hI']
  have t := s a i k hI
  cases a
  case jr => simp [withJ]
  case jphi => simp [withJ]
  case jz => simp [withJ]
  all_goals exact t

theorem fStep_mirror {G : Geom} (hG : G.Valid) (dt : ℝ) {K K' : List JCall} (hK : Sums G K K') {F F' : Fields} (h : MirF G F F') (u : UniF G F) (w : EndWalls G F) :
    MirF G (fStep G dt (callSum K .jr) (callSum K .jphi) (callSum K .jz) F) (fStep G dt (callSum K' .jr) (callSum K' .jphi) (callSum K' .jz) F') := by
  refine eStep_mirror hG dt ?_ u
  have s := hStep_mirror hG dt h w
  intro x i k hI
  have t := s x i k hI
  cases x
  case jr => exact hK .jr i k
  case jphi => exact hK .jphi i k
  case jz => exact hK .jz i k
  all_goals exact t

end Mirror

open Mirror

/-! ## Cycles -/

/-- **C117** (one cycle). If permittivity and conductivity do not change along the axis, and the bunches are more than a cell away from the end walls: two simulations that are mirror images of each
other are mirror images of each other after a cycle of the main loop, whatever the schedules.

The full statement is also for bunches at the end walls (violated, `C117_bunch_violated`) and for all conductivities that are mirror images of each other (violated, `C117_layers_violated`). -/
theorem C117_cycle_partial (G : Geom) (hG : G.Valid) (hnr : 3 ≤ G.nr) (hnz : 3 ≤ G.nz) (mode : PusherMode) (hmode : mode = .borisRelativistic ∨ mode = .vay) (dt : ℝ)
    (hdt : 0 < dt) (hdr : LIGHT_SPEED * dt ≤ G.dr) (hdz : LIGHT_SPEED * dt ≤ G.dz) (m M m' M' : Mem Loc) (S T S' T' : List Species) (hm : Initialised G m)
    (hM : Initialised G M) (walls : EndWalls G (fieldsOf m)) (uniform : AxiallyUniform G m) (hS : ∀ p ∈ parts S, Inside G p) (bunches : BunchesAway G S)
    (h : MirrorState G m S M T) (h1 : Cycle G mode dt m S m' S') (h2 : Cycle G mode dt M T M' T') :
    MirrorState G m' S' M' T' ∧ EndWalls G (fieldsOf m') ∧ AxiallyUniform G m' := by
  have hne : mode ≠ .borisAdaptive := by rcases hmode with rfl | rfl <;> simp
  have hT := all_inside h.parts hS
  obtain ⟨m1, m2, m3, R, r1, r2, r3, r4, r5, r6⟩ := cycle_parts h1
  obtain ⟨M1, M2, M3, Q, q1, q2, q3, q4, q5, q6⟩ := cycle_parts h2
  have hF := seen_mirror hG hm hM h.mem walls r1 r2 q1 q2
  have both : List.Forall₂ (fun y z : Bool × List JCall × Particle => y.1 = z.1 ∧ Sums G y.2.1 z.2.1 ∧ SamePart (y.2.2.mirror G) z.2.2) R Q := by
    refine forall2_square ?_ h.parts (forall2_mem r3) q3
    rintro x y u v ⟨e1, e2⟩ ⟨⟨f1, f2⟩, fm⟩ ⟨g1, g2⟩
    rw [← e1] at g1 g2
    have hx : Inside G x.2 := hS _ (by rw [← tagged_parts]; exact List.mem_map.2 ⟨x, fm, rfl⟩)
    obtain ⟨K', k1, k2⟩ := part_mirror hG hnr hnz hF hmode hdt hdr hdz hx (fun hb ha => bunches x fm hb ha) f2
    obtain ⟨rfl, l2⟩ := part_det hne e2 k1 g2
    exact ⟨f1.trans g1.symm, k2, l2⟩
  have hcalls : Sums G (R.flatMap fun y => y.2.1) (Q.flatMap fun y => y.2.1) := by
    clear r3 r4 r5 q3 q4 q5
    induction both with
    | nil => exact .nil
    | cons e _ ih =>
      rw [List.flatMap_cons, List.flatMap_cons]
      exact e.2.1.append ih
  have ok : ∀ {U : List Species} {F : Fields} {X : List (Bool × List JCall × Particle)}, (∀ p ∈ parts U, Inside G p) → List.Forall₂ (CycleRow G F mode dt) (tagged U) X →
      ∀ c ∈ X.flatMap (fun y => y.2.1), c.Ok G := by
    intro U F X hU hX c hc
    obtain ⟨y, hy, hc⟩ := List.mem_flatMap.1 hc
    obtain ⟨x, hx, -, hxy⟩ := forall2_right hX hy
    exact ((part_where hG hnr hnz hmode hdt hdr hdz (hU _ (by rw [← tagged_parts]; exact List.mem_map.2 ⟨x, hx, rfl⟩)) hxy).2.1 c hc).1
  obtain ⟨-, u, -, u2, u3, -⟩ := fieldStep_spec hG dt (ok hS r3) hm.rep
  obtain ⟨-, v, -, v2, v3, -⟩ := fieldStep_spec hG dt (ok hT q3) hM.rep
  have n1 := hG.nr_ge
  have n2 := hG.nz_ge
  rw [u2 m' ⟨m1, m2, m3, r1, r2, ⟨_, .refl _, r5⟩, r6⟩, v2 M' ⟨M1, M2, M3, q1, q2, ⟨_, .refl _, q5⟩, q6⟩]
  refine ⟨⟨?_, ?_⟩, ?_, ?_⟩
  · intro a i k hI
    have hI' : Init G ⟨a, i, a.mirrorCol G k⟩ := by
      simp only [Init] at hI ⊢
      cases a <;> simp only [Arr.initRows, Arr.initCols, Arr.mirrorCol] at hI ⊢ <;> omega
    rw [v3.agree a i k hI, u3.agree a i _ hI']
    exact fStep_mirror hG dt hcalls (F := fieldsOf m) (F' := fieldsOf M) h.mem uniform walls a i k hI
  · rw [r4, q4, List.forall₂_map_left_iff, List.forall₂_map_right_iff]
    exact both.imp fun _ _ e => ⟨e.1, e.2.2⟩
  · exact walls_congr hG (fun a i k hI => (u3.agree a i k hI).symm) (walls_step hG dt _ _ _ walls)
  · intro i k hb
    rw [agree_at u3.agree .eps i k hb.1 hb.2.1 hb.2.2.1 hb.2.2.2, agree_at u3.agree .eps i 0 hb.1 hb.2.1 le_rfl (by rng),
      agree_at u3.agree .sig i k hb.1 hb.2.1 hb.2.2.1 hb.2.2.2, agree_at u3.agree .sig i 0 hb.1 hb.2.1 le_rfl (by rng)]
    exact uniform i k hb

/-- **C117** (runs). With injections that are mirror images of each other, as long as the bunches are more than a cell away from the end walls: the simulations stay mirror images of each other. -/
theorem C117_run_partial (G : Geom) (hG : G.Valid) (hnr : 3 ≤ G.nr) (hnz : 3 ≤ G.nz) (mode : PusherMode) (hmode : mode = .borisRelativistic ∨ mode = .vay) (dt : ℝ)
    (hdt : 0 < dt) (hdr : LIGHT_SPEED * dt ≤ G.dr) (hdz : LIGHT_SPEED * dt ≤ G.dz) (inject inject' : ℕ → List Species → List Species)
    (hin : ∀ n S, (∀ p ∈ parts S, Inside G p) → ∀ p ∈ parts (inject n S), Inside G p)
    (hsame : ∀ n m S M T, MirrorState G m S M T → MirrorState G m (inject n S) M (inject' n T)) (m M m' M' : Mem Loc) (S T S' T' : List Species) (hm : Initialised G m)
    (hM : Initialised G M) (walls : EndWalls G (fieldsOf m)) (uniform : AxiallyUniform G m) (hS : ∀ p ∈ parts S, Inside G p) (h : MirrorState G m S M T) (n : ℕ)
    (bunches : ∀ k x U, k < n → Reaches G mode dt inject k m S x U → BunchesAway G (inject k U))
    (h1 : Reaches G mode dt inject n m S m' S') (h2 : Reaches G mode dt inject' n M T M' T') : MirrorState G m' S' M' T' := by
  suffices key : MirrorState G m' S' M' T' ∧ EndWalls G (fieldsOf m') ∧ AxiallyUniform G m' ∧ Initialised G m' ∧ Initialised G M' ∧
      ∀ p ∈ parts S', Inside G p from key.1
  induction n generalizing m' M' S' T' with
  | zero =>
    cases h1
    cases h2
    exact ⟨h, walls, uniform, hm, hM, hS⟩
  | succ n ih =>
    cases h1 with
    | step h1 c1 => cases h2 with
      | step h2 c2 =>
        obtain ⟨i1, i2, i3, i4, i5, i6⟩ := ih _ _ _ _ (fun k x U hk => bunches k x U (by omega)) h1 h2
        have j1 := hsame n _ _ _ _ i1
        have j6 := hin n _ i6
        obtain ⟨a1, a2⟩ := cycle_inside hG hnr hnz hmode hdt hdr hdz i4 j6 c1
        obtain ⟨b1, -⟩ := cycle_inside hG hnr hnz hmode hdt hdr hdz i5 (all_inside j1.parts j6) c2
        obtain ⟨k1, k2, k3⟩ := C117_cycle_partial G hG hnr hnz mode hmode dt hdt hdr hdz _ _ _ _ _ _ _ _ i4 i5 i2 i3 j6 (bunches n _ _ (by omega) h1) j1 c1 c2
        exact ⟨k1, k2, k3, a1, b1, a2⟩

/-- **C117** (whole simulations). If the conductivity does not change along the axis, the macroparticles at the start and the injections are mirror images of each other, and as long as the
bunches are more than a cell away from the end walls: after any number of cycles all fields, currents and macroparticles of the one are the mirror image of those of the other. -/
theorem C117_simulation_partial (G : Geom) (hG : G.Valid) (hnr : 3 ≤ G.nr) (hnz : 3 ≤ G.nz) (mode : PusherMode) (hmode : mode = .borisRelativistic ∨ mode = .vay) (dt : ℝ)
    (hdt : 0 < dt) (hdr : LIGHT_SPEED * dt ≤ G.dr) (hdz : LIGHT_SPEED * dt ≤ G.dz) (tbl : ℤ → ℤ → Option ℝ) (uniform : ∀ i k, tbl i k = tbl i 0)
    (inject inject' : ℕ → List Species → List Species)
    (hin : ∀ n S, (∀ p ∈ parts S, Inside G p) → ∀ p ∈ parts (inject n S), Inside G p)
    (hsame : ∀ n m S M T, MirrorState G m S M T → MirrorState G m (inject n S) M (inject' n T)) (S0 T0 S T : List Species) (hS : ∀ p ∈ parts S0, Inside G p)
    (h : List.Forall₂ (fun x y => x.1 = y.1 ∧ SamePart (x.2.mirror G) y.2) (tagged S0) (tagged T0)) (n : ℕ) (m M : Mem Loc)
    (bunches : ∀ k x U, k < n → SimReaches G mode dt tbl inject S0 k x U → BunchesAway G (inject k U))
    (h1 : SimReaches G mode dt tbl inject S0 n m S) (h2 : SimReaches G mode dt tbl inject' T0 n M T) : MirrorState G m S M T := by
  obtain ⟨a1, a0, r1, r2, r3⟩ := h1
  obtain ⟨b1, b0, q1, q2, q3⟩ := h2
  have ra := Started.rep hG ⟨_, a1, r1, r2⟩
  have rb := Started.rep hG ⟨_, b1, q1, q2⟩
  have n1 := hG.nr_ge
  have n2 := hG.nz_ge
  refine C117_run_partial G hG hnr hnz mode hmode dt hdt hdr hdz inject inject' hin hsame a0 b0 m M S0 T0 S T ra.initialised rb.initialised
    (walls_congr hG (fun a i k hI => (ra.agree a i k hI).symm) ⟨fun _ _ _ => ⟨rfl, rfl⟩, fun _ _ _ => ⟨rfl, rfl⟩⟩) ?_ hS ⟨?_, h⟩ n
    (fun k x U hk hr => bunches k x U hk ⟨a1, a0, r1, r2, hr⟩) r3 q3
  · intro i k hb
    rw [agree_at ra.agree .eps i k hb.1 hb.2.1 hb.2.2.1 hb.2.2.2, agree_at ra.agree .eps i 0 hb.1 hb.2.1 le_rfl (by rng),
      agree_at ra.agree .sig i k hb.1 hb.2.1 hb.2.2.1 hb.2.2.2, agree_at ra.agree .sig i 0 hb.1 hb.2.1 le_rfl (by rng)]
    simp only [setupFields, true_and]
    rw [uniform i k]
  · intro a i k hI
    have hI' : Init G ⟨a, i, a.mirrorCol G k⟩ := by
      simp only [Init] at hI ⊢
      cases a <;> simp only [Arr.initRows, Arr.initCols, Arr.mirrorCol] at hI ⊢ <;> omega
    rw [rb.agree a i k hI, ra.agree a i _ hI']
    cases a <;> simp [setupFields, Arr.mirrorSign, Arr.mirrorCol]
    rw [uniform i k, uniform i (G.nz - 1 - k)]

/-! ## Bunches at the end walls -/

namespace Mirror

/-- a macroparticle of a bunch that flies along the axis and meets no field -/
theorem bunch_flight {G : Geom} (hG : G.Valid) {F : Fields} {mode : PusherMode} {dt : ℝ} {p p' : Particle} {K : List JCall} {r z v : ℝ}
    (hE : valE G F r z = V3.zero ∧ valH G F r z = V3.zero) (ha : p.alive = true) (hp : p.pos = ⟨r, 0, z⟩) (hv : p.vel = ⟨0, 0, v⟩) (hm : p.mass ≠ 0)
    (slow : |v| < LIGHT_SPEED) (fast : MNZL ≤ |v|) (r1 : G.dr / 2 ≤ r) (r2 : r ≤ G.r_size - G.dr / 2) (h : PartCycle G F mode dt true p K p') :
    p'.alive = true ↔ z + v * dt ≤ G.z_size - G.dz / 2 := by
  have dr := hG.dr_pos
  have r0 : 0 < r := by linarith
  obtain ⟨-, g, q, hq, q2, -, -, -, hm2, -, -, rfl⟩ := h
  unfold stepVSingle at hq
  rw [if_pos ha, hp, hE.1, hE.2, hv, C20_free_streaming mode g dt _ _ hm _ (by
    simp only [speedSq]
    have := sq_lt_sq' (by linarith [abs_nonneg v]) slow
    rw [sq_abs] at this
    nlinarith) ⟨Or.inl rfl, Or.inl rfl, Or.inr fast⟩, Option.bind_some,
    backPosition_rest (by simp [halfStep, dumpOld]; exact r0) (by simp [halfStep, dumpOld]), Option.some.injEq] at hq
  have qa : q.alive = true := by rw [← hq]; exact ha
  have qr : q.pos.c0 = r := by rw [← hq]; simp [halfStep, dumpOld]
  have qz : q.pos.c2 = z + v * (dt / 2) := by rw [← hq]; simp [halfStep, dumpOld]
  have qv : q.vel = ⟨0, 0, v⟩ := by rw [← hq]; simp [halfStep, dumpOld]
  clear hq
  unfold moveHalfReflectSingle at hm2
  rw [if_pos qa] at hm2
  rw [(backV_props q2).1]
  have back : ∀ x y : Particle, backPosition x = some y → y.alive = x.alive := by
    intro x y h
    unfold backPosition at h
    dsimp only at h
    split_ifs at h
    cases h
    rfl
  rw [back _ _ hm2]
  have e : ∀ x, reflectionOf true G x = loZ G (loR G (killZ G (killR G x))) := fun _ => rfl
  have l1 : ∀ x, (loZ G x).alive = x.alive := by intro x; unfold loZ; split_ifs <;> rfl
  have l2 : ∀ x, (loR G x).alive = x.alive := by intro x; unfold loR; split_ifs <;> rfl
  rw [e, l1, l2]
  obtain ⟨w, hw⟩ : ∃ w, w = halfStep dt q := ⟨_, rfl⟩
  rw [← hw]
  have w1 : w.alive = true := by rw [hw]; exact qa
  have w2 : w.pos.c0 = r := by rw [hw]; simp [halfStep, qr, qv]
  have w3 : w.pos.c2 = z + v * dt := by rw [hw]; simp only [halfStep, qz, qv]; ring
  rw [show killR G w = w from if_neg (by rw [w2]; linarith)]
  unfold killZ
  rw [w3]
  split_ifs with c
  · simp only [false_iff]
    linarith
  · simp only [w1, true_iff]
    linarith

end Mirror

/-- **C117 is violated by bunches at the end walls**: one of a bunch that reaches the near wall is reflected there, its mirror image, which reaches the far wall, is removed.  From the start on, for
every chamber and all pushers, a single macroparticle and its mirror image are not mirror images of each other after a cycle, whatever the schedules. -/
theorem C117_bunch_violated (G : Geom) (hG : G.Valid) (hnr : 3 ≤ G.nr) (hnz : 3 ≤ G.nz) (mode : PusherMode) (dt : ℝ) (tbl : ℤ → ℤ → Option ℝ) (m M m' M' : Mem Loc)
    (hm : Started G tbl m) (hM : Started G tbl M) (p : Particle) (r z v : ℝ) (ha : p.alive = true) (hp : p.pos = ⟨r, 0, z⟩) (hv : p.vel = ⟨0, 0, -v⟩)
    (hmass : p.mass ≠ 0) (slow : v < LIGHT_SPEED) (fast : MNZL ≤ v) (place : InRegion G r z) (near : z - v * dt < G.dz / 2)
    (S' T' : List Species) (h1 : Cycle G mode dt m [⟨true, [p]⟩] m' S') (h2 : Cycle G mode dt M [⟨true, [p.mirror G]⟩] M' T') :
    (∀ x ∈ parts S', x.alive = true) ∧ (∀ x ∈ parts T', x.alive = false) ∧ ¬ MirrorState G m' S' M' T' := by
  have dz := hG.dz_pos
  have v0 : 0 < v := lt_of_lt_of_le (by norm_num [MNZL]) fast
  have zs : 2 * G.dz ≤ G.z_size := by
    have : (3 : ℝ) ≤ G.nz := by exact_mod_cast hnz
    rw [hG.z_size_eq]; nlinarith
  obtain ⟨p1, p2, p3, p4⟩ := place
  have one : ∀ {x x' : Mem Loc} {U : List Species} {q : Particle} {y w : ℝ}, Started G tbl x → Cycle G mode dt x [⟨true, [q]⟩] x' U → q.alive = true → q.pos = ⟨r, 0, y⟩ →
      q.vel = ⟨0, 0, w⟩ → q.mass ≠ 0 → |w| = v → InRegion G r y → ∃ q', tagged U = [(true, q')] ∧ (q'.alive = true ↔ y + w * dt ≤ G.z_size - G.dz / 2) := by
    intro x x' U q y w hx hc b1 b2 b3 b4 b5 b6
    obtain ⟨x1, x2, x3, R, r1, r2, r3, r4, -⟩ := cycle_parts hc
    have free := val_noFields hG hnr hnz dt (started_free hG hx) r1 r2 b6
    rw [show tagged [⟨true, [q]⟩] = [(true, q)] from rfl] at r3
    cases r3 with
    | cons hrow ht =>
      cases ht
      obtain ⟨c1, c2⟩ := hrow
      rename_i y'
      refine ⟨y'.2.2, by rw [r4]; simp [c1], ?_⟩
      exact bunch_flight hG free b1 b2 b3 b4 (by rw [b5]; exact slow) (by rw [b5]; exact fast) p1 p2 c2
  obtain ⟨q1, e1, f1⟩ := one hm h1 ha hp hv hmass (by rw [abs_neg, abs_of_pos v0]) ⟨p1, p2, p3, p4⟩
  obtain ⟨q2, e2, f2⟩ := one (y := G.z_size - z) (w := v) hM h2 ha (by simp [Particle.mirror, hp]) (by simp [Particle.mirror, hv]) hmass (abs_of_pos v0)
    ⟨p1, p2, by linarith, by linarith⟩
  have g1 : q1.alive = true := f1.2 (by linarith)
  have g2 : q2.alive = false := by
    rw [← Bool.not_eq_true, f2]
    intro h
    linarith
  refine ⟨?_, ?_, ?_⟩
  · rw [← tagged_parts, e1]
    simpa using g1
  · rw [← tagged_parts, e2]
    simpa using g2
  · intro h
    have := h.parts
    rw [e1, e2] at this
    cases this with
    | cons k _ =>
      have := k.2.alive
      rw [show (q1.mirror G).alive = q1.alive from rfl, g1, g2] at this
      cases this

/-! ## Examples -/

/-- A macroparticle in one chamber and its mirror image in another: a cycle later mirror images of each other. -/
example : ∃ m S M T, SimReaches longGeom .vay dtLight (fun _ _ => none) (fun _ S => S) [⟨false, [midSpinner]⟩] 1 m S ∧
    SimReaches longGeom .vay dtLight (fun _ _ => none) (fun _ S => S) [⟨false, [midSpinner.mirror longGeom]⟩] 1 M T ∧
    MirrorState longGeom m S M T ∧ tagged S ≠ [] := by
  have in1 : Inside longGeom midSpinner := by
    intro _
    refine ⟨⟨?_, ?_, ?_, ?_⟩, rfl, ?_, ?_⟩ <;> norm_num [midSpinner, spinner, longGeom, speedSq, LIGHT_SPEED]
  have in2 : Inside longGeom (midSpinner.mirror longGeom) := inside_mirror ⟨rfl, rfl, rfl, rfl, rfl⟩ in1
  obtain ⟨m, S, h1⟩ := Translate.sim_exists longGeom_valid (by norm_num [longGeom]) (by norm_num [longGeom]) rfl rfl _
    (Translate.one_part in1) (Translate.one_part (P := fun p => ¬ InLastHalfCell longGeom p) (by
      rintro ⟨-, hl⟩
      norm_num [midSpinner, spinner, longGeom] at hl))
  obtain ⟨M, T, h2⟩ := Translate.sim_exists longGeom_valid (by norm_num [longGeom]) (by norm_num [longGeom]) rfl rfl _
    (Translate.one_part in2) (Translate.one_part (P := fun p => ¬ InLastHalfCell longGeom p) (by
      rintro ⟨-, hl⟩
      norm_num [Particle.mirror, midSpinner, spinner, longGeom] at hl))
  refine ⟨m, S, M, T, h1, h2, ?_, ?_⟩
  · refine C117_simulation_partial longGeom longGeom_valid (by norm_num [longGeom]) (by norm_num [longGeom]) .vay (Or.inr rfl) dtLight (by norm_num [dtLight])
      (by norm_num [dtLight, longGeom, LIGHT_SPEED]) (by norm_num [dtLight, longGeom, LIGHT_SPEED]) _ (fun _ _ => rfl) _ _ (fun _ _ h => h) (fun _ _ _ _ _ h => h) _ _ S T
      (Translate.one_part in1) (.cons ⟨rfl, rfl, rfl, rfl, rfl, rfl⟩ .nil) 1 m M ?_ h1 h2
    intro k x U hk hr
    obtain rfl : k = 0 := by omega
    obtain ⟨_, _, _, _, hr⟩ := hr
    cases hr
    intro y hy hb
    simp [tagged] at hy
    rw [hy] at hb
    simp at hb
  · obtain ⟨_, _, _, _, hr⟩ := h1
    cases hr with
    | step h c =>
      cases h
      obtain ⟨_, _, _, R, -, -, r3, r4, -⟩ := cycle_parts c
      rw [r4]
      intro e
      rw [List.map_eq_nil_iff] at e
      subst e
      cases r3

/-- one of a bunch, next to the near wall -/
noncomputable def wallFlyer : Particle := { midSpinner with pos := ⟨3 / 2, 0, 1 / 2⟩, vel := ⟨0, 0, -(10 ^ 8)⟩ }

example : ∃ m m' M', Started longGeom (fun _ _ => none) m ∧ ∃ S' T', Cycle longGeom .vay dtLight m [⟨true, [wallFlyer]⟩] m' S' ∧
    Cycle longGeom .vay dtLight m [⟨true, [wallFlyer.mirror longGeom]⟩] M' T' ∧ ¬ MirrorState longGeom m' S' M' T' := by
  have in1 : Inside longGeom wallFlyer := by
    intro _
    refine ⟨⟨?_, ?_, ?_, ?_⟩, rfl, ?_, ?_⟩ <;> norm_num [wallFlyer, midSpinner, spinner, longGeom, speedSq, LIGHT_SPEED]
  have in2 : Inside longGeom (wallFlyer.mirror longGeom) := inside_mirror ⟨rfl, rfl, rfl, rfl, rfl⟩ in1
  obtain ⟨-, -, m, hm⟩ := C13_setup_safe longGeom longGeom_valid (fun _ _ => none) fun _ => none
  have go : ∀ p : Particle, Inside longGeom p → ¬ InLastHalfCell longGeom p → ∃ m' S', Cycle longGeom .vay dtLight m [⟨true, [p]⟩] m' S' := by
    intro p h1 h2
    have all : ∀ {P : Particle → Prop}, P p → ∀ q ∈ parts [⟨true, [p]⟩], P q := by
      intro P hP q hq
      simp only [parts, List.flatMap_cons, List.flatMap_nil, List.append_nil, List.mem_singleton] at hq
      subst hq
      exact hP
    obtain ⟨-, ⟨m', S', h⟩, -⟩ := C76_any_cycle_partial longGeom longGeom_valid (by norm_num [longGeom]) (by norm_num [longGeom]) .vay (Or.inr rfl) dtLight
      (by norm_num [dtLight]) (by norm_num [dtLight, longGeom, LIGHT_SPEED]) (by norm_num [dtLight, longGeom, LIGHT_SPEED]) m (hm.rep longGeom_valid).initialised
      [⟨true, [p]⟩] (all h1) (all h2)
    exact ⟨m', S', h⟩
  obtain ⟨m', S', h1⟩ := go wallFlyer in1 (by rintro ⟨-, hl⟩; norm_num [wallFlyer, midSpinner, spinner, longGeom] at hl)
  obtain ⟨M', T', h2⟩ := go _ in2 (by rintro ⟨-, hl⟩; norm_num [Particle.mirror, wallFlyer, midSpinner, spinner, longGeom] at hl)
  refine ⟨m, m', M', hm, S', T', h1, h2, (C117_bunch_violated longGeom longGeom_valid (by norm_num [longGeom]) (by norm_num [longGeom]) .vay dtLight _ m m m' M' hm hm
    wallFlyer (3 / 2) (1 / 2) (10 ^ 8) rfl rfl rfl (by norm_num [wallFlyer, midSpinner, spinner]) (by norm_num [LIGHT_SPEED]) (by norm_num [MNZL])
    ⟨by norm_num [longGeom], by norm_num [longGeom], by norm_num [longGeom], by norm_num [longGeom]⟩ (by norm_num [longGeom, dtLight]) S' T' h1 h2).2.2⟩

end Verif
