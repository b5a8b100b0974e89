import Verif.Causality
import Verif.Unset

/-!
# C103: influence spreads at a finite speed
-/

namespace Verif

theorem fStep_agree {G : Geom} (hG : G.Valid) (dt : ℝ) {W : Patch} {d : ℕ} (hd : 1 ≤ d) {F F' : Fields}
    {jr jphi jz jr' jphi' jz' : Grid} (h : SameNodes G (fun _ => True) W F F')
    (h1 : ∀ i k, (W.inner d).Node i k → jr i k = jr' i k) (h2 : ∀ i k, (W.inner d).Node i k → jphi i k = jphi' i k)
    (h3 : ∀ i k, (W.inner d).Node i k → jz i k = jz' i k) :
    SameNodes G (fun _ => True) (W.inner d) (fStep G dt jr jphi jz F) (fStep G dt jr' jphi' jz' F') := by
  have hh := hStep_agree dt h
  unfold fStep
  refine eStep_agree hG dt (V := ⟨W.i0, W.i1 - 1, W.k0, W.k1 - 1⟩) ?_ ?_ ?_
  · intro a i k ha hI hW
    have := hh a i k trivial hI hW
    cases a <;> first | exact this | exact absurd (by simp [Arr.isJ]) ha
  · rintro a i k (rfl | rfl | rfl) _ hW
    exacts [h1 i k hW, h2 i k hW, h3 i k hW]
  · intro i k hW i' k' e1 e2 e3 e4
    unfold Patch.inner Patch.Node at *
    dsimp only at *
    omega

theorem mem_agree {G : Geom} {W : Patch} {m M : Mem Loc} (h : ∀ a i k, Init G ⟨a, i, k⟩ → W.Node i k → m ⟨a, i, k⟩ = M ⟨a, i, k⟩) :
    SameNodes G (fun _ => True) W (fieldsOf m) (fieldsOf M) := by
  intro a i k _ hI hW
  unfold fieldsOf
  rw [h a i k hI hW]

theorem agree_mem {G : Geom} {W : Patch} {F F' : Fields} {m M : Mem Loc} (hm : Rep G F m) (hM : Rep G F' M)
    (h : SameNodes G (fun _ => True) W F F') : ∀ a i k, Init G ⟨a, i, k⟩ → W.Node i k → m ⟨a, i, k⟩ = M ⟨a, i, k⟩ := by
  intro a i k hI hW
  rw [hm _ hI, hM _ hI]
  exact congrArg some (h a i k trivial hI hW)

/-! ## Fields alone -/

/-- **C103** (electromagnetic waves). Two runs of the field solver, of any length and under any schedules, that start with the
same fields inside a patch of the grid and get the same currents inside the part of it that is left: after `n` steps the
fields and currents are the same on all nodes more than `n` cells inside. Influence spreads one cell a step. -/
theorem C103_waves (G : Geom) (hG : G.Valid) (dt : ℝ) (W : Patch) (calls calls' : ℕ → List JCall) (hc : CallsOk G calls)
    (hc' : CallsOk G calls') (m M : Mem Loc) (hm : Initialised G m) (hM : Initialised G M)
    (h : ∀ a i k, Init G ⟨a, i, k⟩ → W.Node i k → m ⟨a, i, k⟩ = M ⟨a, i, k⟩)
    (hJ : ∀ n a i k, (W.inner (n + 1)).Node i k → callSum (calls n) a i k = callSum (calls' n) a i k)
    (n : ℕ) (m' M' : Mem Loc) (h1 : FieldRun G dt calls n m m') (h2 : FieldRun G dt calls' n M M') :
    ∀ a i k, Init G ⟨a, i, k⟩ → (W.inner n).Node i k → m' ⟨a, i, k⟩ = M' ⟨a, i, k⟩ := by
  induction n generalizing m' M' with
  | zero =>
    cases h1
    cases h2
    rw [Patch.inner_zero]
    exact h
  | succ n ih =>
    cases h1 with
    | succ _ _ m1 _ h1 s1 => cases h2 with
      | succ _ _ M1 _ h2 s2 =>
        have := ih m1 M1 h1 h2
        obtain ⟨x, x1, x2, x3⟩ := fieldRun_spec hG dt hc hm.rep n
        obtain ⟨y, y1, y2, y3⟩ := fieldRun_spec hG dt hc' hM.rep n
        rw [x2 _ h1] at s1 this
        rw [y2 _ h2] at s2 this
        obtain ⟨-, u, -, u2, u3, -⟩ := fieldStep_spec hG dt (hc n) x3.initialised.rep
        obtain ⟨-, v, -, v2, v3, -⟩ := fieldStep_spec hG dt (hc' n) y3.initialised.rep
        rw [u2 _ s1, v2 _ s2]
        rw [← Patch.inner_inner W n 1]
        refine agree_mem u3 v3 (fStep_agree hG dt le_rfl (mem_agree this) ?_ ?_ ?_) <;>
        · intro i k hW
          rw [Patch.inner_inner] at hW
          exact hJ n _ i k hW

/-! ## Whole cycles -/

theorem seen_inner {G : Geom} (hG : G.Valid) {W : Patch} {S T : List Species} (d : ℕ)
    (h : List.Forall₂ (fun x y : Bool × Particle => x.1 = y.1 ∧ SamePart x.2 y.2) (W.seen G S) (W.seen G T)) :
    List.Forall₂ (fun x y : Bool × Particle => x.1 = y.1 ∧ SamePart x.2 y.2) ((W.inner d).seen G S) ((W.inner d).seen G T) := by
  classical
  have dr := hG.dr_pos
  have dz := hG.dz_pos
  have sub : ∀ r z, (W.inner d).Point G r z → W.Point G r z := by
    rintro r z ⟨w1, w2, w3, w4⟩
    simp only [Patch.inner] at w1 w2 w3 w4
    push_cast at w1 w2 w3 w4
    have hd : (0:ℝ) ≤ d := by positivity
    have e1 := mul_nonneg hd dr.le
    have e2 := mul_nonneg hd dz.le
    refine ⟨?_, ?_, ?_, ?_⟩ <;> linarith
  have key : ∀ U, (W.inner d).seen G U = (W.seen G U).filter fun x => x.2.alive = true ∧
      (W.inner d).Point G x.2.pos.c0 x.2.pos.c2 := by
    intro U
    unfold Patch.seen
    rw [List.filter_filter]
    apply List.filter_congr
    intro x _
    rw [eq_comm, ← Bool.decide_and, decide_eq_decide]
    constructor
    · exact fun h => h.1
    · exact fun h => ⟨h, h.1, sub _ _ h.2⟩
  rw [key S, key T]
  apply forall2_filter h
  rintro x y ⟨-, e⟩
  rw [e.alive, e.pos]

/-- **C103** (one cycle). Two simulations, with any fields and macroparticles outside, that look the same inside a patch of
the grid: after a cycle of the main loop, whatever the schedules, they look the same inside the patch without its outer four
rows and columns. -/
theorem C103_cycle (G : Geom) (hG : G.Valid) (hnr : 3 ≤ G.nr) (hnz : 3 ≤ G.nz) (mode : PusherMode)
    (hmode : mode = .borisRelativistic ∨ mode = .vay) (dt : ℝ) (hdt : 0 < dt) (hdr : LIGHT_SPEED * dt ≤ G.dr)
    (hdz : LIGHT_SPEED * dt ≤ G.dz) (W : Patch) (m M m' M' : Mem Loc) (S T S' T' : List Species) (hm : Initialised G m)
    (hM : Initialised G M) (hS : ∀ p ∈ parts S, Inside G p) (hT : ∀ p ∈ parts T, Inside G p)
    (h : SameInside G W m S M T) (h1 : Cycle G mode dt m S m' S') (h2 : Cycle G mode dt M T M' T') :
    SameInside G (W.inner 4) m' S' M' T' := by
  classical
  have hne : mode ≠ .borisAdaptive := by rcases hmode with rfl | rfl <;> simp
  have dr := hG.dr_pos
  have dz := hG.dz_pos
  obtain ⟨m1, m2, m3, R, r1, r2, r3, r4, r5, r6⟩ := cycle_parts h1
  obtain ⟨M1, M2, M3, Q, q1, q2, q3, q4, q5, q6⟩ := cycle_parts h2
  -- the fields the macroparticles see
  have hF : SameNodes G (fun a => ¬ a.isJ) ⟨W.i0, W.i1 - 1, W.k0, W.k1 - 1⟩ (fieldsOf m2) (fieldsOf M2) := by
    have after : ∀ {x x1 x2 : Mem Loc}, Initialised G x → RegionRun (Alloc G) (hRegion G dt) x x1 →
        RegionRun (Alloc G) (resetJRegion G) x1 x2 → ∀ a i k, ¬ Arr.isJ a → Init G ⟨a, i, k⟩ →
          fieldsOf x2 a i k = hStep G dt (fieldsOf x) a i k := by
      intro x x1 x2 hx a1 a2 a i k ha hI
      obtain ⟨n1, s1, w1⟩ := hRegion_spec hG dt hx.rep
      rw [s1.sound.2.2 _ a1] at a2
      obtain ⟨s2, w2⟩ := resetJ_spec hG w1
      rw [s2.sound.2.2 _ a2, (Rep.ofAdd w2).agree a i k hI]
      cases a <;> first | rfl | exact absurd (by simp [Arr.isJ]) ha
    intro a i k ha hI hW
    rw [after hm r1 r2 a i k ha hI, after hM q1 q2 a i k ha hI]
    exact hStep_agree dt (mem_agree h.mem) a i k trivial hI hW
  -- rows
  have tag : ∀ {U : List Species} {x : Bool × Particle}, x ∈ tagged U → x.2 ∈ parts U := by
    intro U x hx
    rw [← tagged_parts]
    exact List.mem_map.2 ⟨x, hx, rfl⟩
  have hrow : ∀ {U : List Species} {F : Fields}, (∀ p ∈ parts U, Inside G p) → ∀ x ∈ tagged U, ∀ y,
      CycleRow G F mode dt x y →
      ((y.2.2.alive = true ∧ (W.inner 4).Point G y.2.2.pos.c0 y.2.2.pos.c2) →
        x.2.alive = true ∧ (W.inner 2).Point G x.2.pos.c0 x.2.pos.c2) ∧
      (¬ (x.2.alive = true ∧ (W.inner 2).Point G x.2.pos.c0 x.2.pos.c2) → ∀ c ∈ y.2.1, ¬ (W.inner 4).Node c.i c.k) ∧
      ∀ c ∈ y.2.1, c.Ok G := by
    rintro U F hU x hx y ⟨-, hy⟩
    obtain ⟨-, w2, w3⟩ := part_where hG hnr hnz hmode hdt hdr hdz (hU _ (tag hx)) hy
    refine ⟨?_, ?_, fun c hc => (w2 c hc).1⟩
    · rintro ⟨ha, p1, p2, p3, p4⟩
      obtain ⟨a1, a2, a3⟩ := w3 ha
      rw [abs_lt] at a2 a3
      simp only [Patch.inner] at p1 p2 p3 p4
      push_cast at p1 p2 p3 p4
      refine ⟨a1, ?_, ?_, ?_, ?_⟩ <;> simp only [Patch.inner] <;> push_cast <;> linarith
    · intro hP c hc hn
      obtain ⟨-, a1, a2, a3⟩ := w2 c hc
      apply hP
      rw [abs_lt] at a2 a3
      obtain ⟨n1, n2, n3, n4⟩ := hn
      simp only [Patch.inner] at n1 n2 n3 n4
      have n1' : (W.i0 : ℝ) + 4 ≤ c.i := by exact_mod_cast n1
      have n2' : (c.i : ℝ) ≤ W.i1 - 4 := by exact_mod_cast n2
      have n3' : (W.k0 : ℝ) + 4 ≤ c.k := by exact_mod_cast n3
      have n4' : (c.k : ℝ) ≤ W.k1 - 4 := by exact_mod_cast n4
      have b1 := mul_le_mul_of_nonneg_right n1' dr.le
      have b2 := mul_le_mul_of_nonneg_right n2' dr.le
      have b3 := mul_le_mul_of_nonneg_right n3' dz.le
      have b4 := mul_le_mul_of_nonneg_right n4' dz.le
      refine ⟨a1, ?_, ?_, ?_, ?_⟩ <;> simp only [Patch.inner] <;> push_cast <;> linarith
  obtain ⟨L, l1, l2, l3⟩ := rows_filter (fun x : Bool × Particle => x.2.alive = true ∧ (W.inner 2).Point G x.2.pos.c0 x.2.pos.c2)
    (fun y : Bool × List JCall × Particle => y.2.2.alive = true ∧ (W.inner 4).Point G y.2.2.pos.c0 y.2.2.pos.c2)
    (fun y => y.2.1) (fun c => (W.inner 4).Node c.i c.k) r3 (fun x hx y hy => (hrow hS x hx y hy).1)
    (fun x hx y hy => (hrow hS x hx y hy).2.1)
  obtain ⟨L', l1', l2', l3'⟩ := rows_filter (fun x : Bool × Particle => x.2.alive = true ∧ (W.inner 2).Point G x.2.pos.c0 x.2.pos.c2)
    (fun y : Bool × List JCall × Particle => y.2.2.alive = true ∧ (W.inner 4).Point G y.2.2.pos.c0 y.2.2.pos.c2)
    (fun y => y.2.1) (fun c => (W.inner 4).Node c.i c.k) q3 (fun x hx y hy => (hrow hT x hx y hy).1)
    (fun x hx y hy => (hrow hT x hx y hy).2.1)
  have hseen := seen_inner hG 2 h.parts
  unfold Patch.seen at hseen
  -- the macroparticles two cells inside do the same
  have both : List.Forall₂ (fun y z : Bool × List JCall × Particle => y.1 = z.1 ∧ y.2.1 = z.2.1 ∧ SamePart y.2.2 z.2.2) L L' := by
    have l1a : List.Forall₂ (fun x y => CycleRow G (fieldsOf m2) mode dt x y ∧ x.2.alive = true ∧
        (W.inner 2).Point G x.2.pos.c0 x.2.pos.c2) ((tagged S).filter fun x => x.2.alive = true ∧
        (W.inner 2).Point G x.2.pos.c0 x.2.pos.c2) L := by
      have mem : ∀ x ∈ (tagged S).filter fun x => x.2.alive = true ∧ (W.inner 2).Point G x.2.pos.c0 x.2.pos.c2,
          x.2.alive = true ∧ (W.inner 2).Point G x.2.pos.c0 x.2.pos.c2 := by
        intro x hx
        simpa using (List.mem_filter.1 hx).2
      clear hseen l2 l3
      revert mem l1
      generalize ((tagged S).filter fun x => x.2.alive = true ∧ (W.inner 2).Point G x.2.pos.c0 x.2.pos.c2) = X
      intro l1 mem
      induction l1 with
      | nil => exact .nil
      | cons hxy _ ih => exact .cons ⟨hxy, mem _ (by simp)⟩ (ih fun x hx => mem x (by simp [hx]))
    refine forall2_square ?_ hseen l1a l1'
    rintro x y u v ⟨e1, e2⟩ ⟨⟨f1, f2⟩, fa, fW⟩ ⟨g1, g2⟩
    rw [← e1] at g1 g2
    obtain ⟨k1, k2⟩ := part_same hG hnr hnz hF hne e2 fW fa f2 g2
    exact ⟨f1.trans g1.symm, k1, k2⟩
  have hcalls : L.flatMap (fun y => y.2.1) = L'.flatMap (fun y => y.2.1) := by
    clear l1 l2 l3 l1' l2' l3'
    induction both with
    | nil => rfl
    | cons e _ ih => rw [List.flatMap_cons, List.flatMap_cons, e.2.1, ih]
  constructor
  · -- fields
    have ok : ∀ {U : List Species} {F : Fields} {Y : List (Bool × List JCall × Particle)}, (∀ p ∈ parts U, Inside G p) →
        List.Forall₂ (CycleRow G F mode dt) (tagged U) Y → ∀ c ∈ Y.flatMap (fun y => y.2.1), c.Ok G := by
      intro U F Y hU hY c hc
      obtain ⟨y, hy, hc⟩ := List.mem_flatMap.1 hc
      obtain ⟨x, hx, hxy⟩ := forall2_right hY hy
      exact (hrow hU x hx y hxy).2.2 c hc
    obtain ⟨-, u, -, u2, u3, -⟩ := fieldStep_spec hG dt (ok hS r3) hm.rep
    obtain ⟨-, v, -, v2, v3, -⟩ := fieldStep_spec hG dt (ok hT q3) hM.rep
    rw [u2 m' ⟨m1, m2, m3, r1, r2, ⟨_, .refl _, r5⟩, r6⟩, v2 M' ⟨M1, M2, M3, q1, q2, ⟨_, .refl _, q5⟩, q6⟩]
    refine agree_mem u3 v3 (fStep_agree hG dt (by norm_num) (mem_agree h.mem) ?_ ?_ ?_) <;>
    · intro i k hW
      rw [l3 _ i k (fun _ => hW), l3' _ i k (fun _ => hW), hcalls]
  · -- macroparticles
    unfold Patch.seen
    rw [r4, q4, List.filter_map, List.filter_map, List.forall₂_map_left_iff, List.forall₂_map_right_iff]
    have c1 : R.filter ((fun x : Bool × Particle => decide (x.2.alive = true ∧ (W.inner 4).Point G x.2.pos.c0 x.2.pos.c2)) ∘
        fun y => (y.1, y.2.2)) = R.filter fun y => y.2.2.alive = true ∧ (W.inner 4).Point G y.2.2.pos.c0 y.2.2.pos.c2 := rfl
    have c2 : Q.filter ((fun x : Bool × Particle => decide (x.2.alive = true ∧ (W.inner 4).Point G x.2.pos.c0 x.2.pos.c2)) ∘
        fun y => (y.1, y.2.2)) = Q.filter fun y => y.2.2.alive = true ∧ (W.inner 4).Point G y.2.2.pos.c0 y.2.2.pos.c2 := rfl
    rw [c1, c2, l2, l2']
    have := forall2_filter (P := fun y : Bool × List JCall × Particle => y.2.2.alive = true ∧
        (W.inner 4).Point G y.2.2.pos.c0 y.2.2.pos.c2) (Q := fun y : Bool × List JCall × Particle => y.2.2.alive = true ∧
        (W.inner 4).Point G y.2.2.pos.c0 y.2.2.pos.c2) both (by
      rintro y z ⟨-, -, e⟩
      rw [e.alive, e.pos])
    exact this.imp fun _ _ e => ⟨e.1, e.2.2⟩

/-- the invariant of a completed cycle -/
theorem cycle_inside {G : Geom} (hG : G.Valid) (hnr : 3 ≤ G.nr) (hnz : 3 ≤ G.nz) {mode : PusherMode}
    (hmode : mode = .borisRelativistic ∨ mode = .vay) {dt : ℝ} (hdt : 0 < dt) (hdr : LIGHT_SPEED * dt ≤ G.dr)
    (hdz : LIGHT_SPEED * dt ≤ G.dz) {m m' : Mem Loc} {S S' : List Species} (hm : Initialised G m)
    (hS : ∀ p ∈ parts S, Inside G p) (h : Cycle G mode dt m S m' S') : Initialised G m' ∧ ∀ p ∈ parts S', Inside G p := by
  refine (C76_any_cycle_partial G hG hnr hnz mode hmode dt hdt hdr hdz m hm S hS ?_).2.2 _ _ h
  intro p hp ⟨ha, hl⟩
  obtain ⟨_, _, _, S1', _, _, r3, _, _⟩ := h
  obtain ⟨s, hs, hp⟩ := List.mem_flatMap.1 hp
  obtain ⟨s', -, hss⟩ := forall2_left r3 hs
  obtain ⟨p', -, hpp⟩ := forall2_left hss.2 hp
  have := (hpp.1 ha).2.1
  linarith

/-- **C103** (runs). Two runs that look the same inside a patch, with the same injection inside the part of it that is left:
after `n` cycles they look the same more than `4 n` cells inside. -/
theorem C103_run (G : Geom) (hG : G.Valid) (hnr : 3 ≤ G.nr) (hnz : 3 ≤ G.nz) (mode : PusherMode)
    (hmode : mode = .borisRelativistic ∨ mode = .vay) (dt : ℝ) (hdt : 0 < dt) (hdr : LIGHT_SPEED * dt ≤ G.dr)
    (hdz : LIGHT_SPEED * dt ≤ G.dz) (W : Patch) (inject inject' : ℕ → List Species → List Species)
    (hin : ∀ n S, (∀ p ∈ parts S, Inside G p) → ∀ p ∈ parts (inject n S), Inside G p)
    (hin' : ∀ n S, (∀ p ∈ parts S, Inside G p) → ∀ p ∈ parts (inject' n S), Inside G p)
    (hsame : ∀ n m S M T, SameInside G (W.inner (4 * n)) m S M T →
      SameInside G (W.inner (4 * n)) m (inject n S) M (inject' n T))
    (m M m' M' : Mem Loc) (S T S' T' : List Species) (hm : Initialised G m) (hM : Initialised G M)
    (hS : ∀ p ∈ parts S, Inside G p) (hT : ∀ p ∈ parts T, Inside G p) (h : SameInside G W m S M T) (n : ℕ)
    (h1 : Reaches G mode dt inject n m S m' S') (h2 : Reaches G mode dt inject' n M T M' T') :
    SameInside G (W.inner (4 * n)) m' S' M' T' := by
  suffices key : SameInside G (W.inner (4 * n)) m' S' M' T' ∧ Initialised G m' ∧ Initialised G M' ∧
      (∀ p ∈ parts S', Inside G p) ∧ ∀ p ∈ parts T', Inside G p from key.1
  induction n generalizing m' M' S' T' with
  | zero =>
    cases h1
    cases h2
    rw [Nat.mul_zero, Patch.inner_zero]
    exact ⟨h, hm, hM, hS, hT⟩
  | succ n ih =>
    cases h1 with
    | step h1 c1 => cases h2 with
      | step h2 c2 =>
        obtain ⟨i1, i2, i3, i4, i5⟩ := ih _ _ _ _ h1 h2
        have j4 := hin n _ i4
        have j5 := hin' n _ i5
        obtain ⟨a1, a2⟩ := cycle_inside hG hnr hnz hmode hdt hdr hdz i2 j4 c1
        obtain ⟨b1, b2⟩ := cycle_inside hG hnr hnz hmode hdt hdr hdz i3 j5 c2
        refine ⟨?_, a1, b1, a2, b2⟩
        have := C103_cycle G hG hnr hnz mode hmode dt hdt hdr hdz _ _ _ _ _ _ _ _ _ i2 i3 j4 j5 (hsame n _ _ _ _ i1) c1 c2
        rw [Patch.inner_inner] at this
        exact this

/-- **C103** (whole simulations). Two simulations, whatever their conductivities, their macroparticles and their injection
are outside a patch of the grid: if these are the same inside, then after `n` cycles all fields, currents and macroparticles
are the same more than `4 n` cells inside. -/
theorem C103_simulation (G : Geom) (hG : G.Valid) (hnr : 3 ≤ G.nr) (hnz : 3 ≤ G.nz) (mode : PusherMode)
    (hmode : mode = .borisRelativistic ∨ mode = .vay) (dt : ℝ) (hdt : 0 < dt) (hdr : LIGHT_SPEED * dt ≤ G.dr)
    (hdz : LIGHT_SPEED * dt ≤ G.dz) (W : Patch) (tbl tbl' : ℤ → ℤ → Option ℝ)
    (htbl : ∀ i k, W.Node i k → tbl i k = tbl' i k) (inject inject' : ℕ → List Species → List Species)
    (hin : ∀ n S, (∀ p ∈ parts S, Inside G p) → ∀ p ∈ parts (inject n S), Inside G p)
    (hin' : ∀ n S, (∀ p ∈ parts S, Inside G p) → ∀ p ∈ parts (inject' n S), Inside G p)
    (hsame : ∀ n m S M T, SameInside G (W.inner (4 * n)) m S M T →
      SameInside G (W.inner (4 * n)) m (inject n S) M (inject' n T))
    (S0 T0 S T : List Species) (hS : ∀ p ∈ parts S0, Inside G p) (hT : ∀ p ∈ parts T0, Inside G p)
    (h : List.Forall₂ (fun x y => x.1 = y.1 ∧ SamePart x.2 y.2) (W.seen G S0) (W.seen G T0)) (n : ℕ) (m M : Mem Loc)
    (h1 : SimReaches G mode dt tbl inject S0 n m S) (h2 : SimReaches G mode dt tbl' inject' T0 n M T) :
    SameInside G (W.inner (4 * n)) m S M T := by
  obtain ⟨a1, a0, r1, r2, r3⟩ := h1
  obtain ⟨b1, b0, q1, q2, q3⟩ := h2
  have ra := Started.rep hG ⟨_, a1, r1, r2⟩
  have rb := Started.rep hG ⟨_, b1, q1, q2⟩
  refine C103_run G hG hnr hnz mode hmode dt hdt hdr hdz W inject inject' hin hin' hsame a0 b0 m M S0 T0 S T ra.initialised
    rb.initialised hS hT ⟨agree_mem ra rb ?_, h⟩ n r3 q3
  intro a i k _ _ hW
  cases a <;> simp only [setupFields]
  rw [htbl i k hW]

/-! ## Concrete instances -/

/-- a long chamber with unit cells -/
noncomputable def longGeom : Geom :=
  { r_size := 2, z_size := 19, nr := 3, nz := 20, dr := 1, dz := 1 }

theorem longGeom_valid : longGeom.Valid := by
  constructor <;> simp [longGeom] <;> norm_num

/-- the left part of the chamber -/
def leftPatch : Patch := ⟨-20, 20, -20, 12⟩

/-- a macroparticle at the right -/
noncomputable def farSpinner : Particle := { spinner with pos := ⟨3 / 2, 0, 16⟩ }

/-- A current that is switched on at the right is not felt three steps later in columns 0 to 9. -/
example : ∃ m' M', FieldRun longGeom dtLight (fun _ => []) 3 emptyMem m' ∧
    FieldRun longGeom dtLight (fun _ => [⟨.jz, 1, 13, 1⟩]) 3 emptyMem M' ∧
    (∀ a i k, Init longGeom ⟨a, i, k⟩ → i ≤ 17 → k ≤ 9 → m' ⟨a, i, k⟩ = M' ⟨a, i, k⟩) ∧ m' ⟨.jz, 1, 13⟩ ≠ M' ⟨.jz, 1, 13⟩ := by
  have hc : CallsOk longGeom fun _ => [] := by intro n c hc; simp at hc
  have hc' : CallsOk longGeom fun _ => [⟨.jz, 1, 13, 1⟩] := by
    intro n c hc
    simp only [List.mem_singleton] at hc
    subst hc
    simp [JCall.Ok, longGeom]
  have hrep : Rep longGeom emptyFields emptyMem := fun _ _ => rfl
  obtain ⟨x, x1, -, x3⟩ := fieldRun_spec longGeom_valid dtLight hc hrep 3
  obtain ⟨y, y1, -, y3⟩ := fieldRun_spec longGeom_valid dtLight hc' hrep 3
  refine ⟨x, y, x1, y1, ?_, ?_⟩
  · have := C103_waves longGeom longGeom_valid dtLight leftPatch _ _ hc hc' emptyMem emptyMem hrep.initialised hrep.initialised
      (fun _ _ _ _ _ => rfl) (by
        intro n a i k hW
        simp only [Patch.inner, Patch.Node, leftPatch] at hW
        have : ¬ (13 = k) := by push_cast at hW; omega
        simp [callSum, this]) 3 x y x1 y1
    intro a i k hI hi hk
    apply this a i k hI
    have h0 : 0 ≤ i ∧ 0 ≤ k := by
      cases a <;> simp only [Init, Arr.initRows, Arr.initCols] at hI <;> omega
    simp only [Patch.inner, Patch.Node, leftPatch]
    push_cast
    omega
  · have hI : Init longGeom ⟨.jz, 1, 13⟩ := by simp [Init, Arr.initRows, Arr.initCols, longGeom]
    rw [x3 _ hI, y3 _ hI]
    change some (callSum [] .jz 1 13) ≠ some (callSum [⟨.jz, 1, 13, 1⟩] .jz 1 13)
    simp [callSum]

/-- Two simulations that differ in a macroparticle at the right: a cycle later they are the same in columns 0 to 8. -/
example : ∃ m S M T, SimReaches longGeom .vay dtLight (fun _ _ => none) (fun _ S => S) [⟨false, [spinner]⟩] 1 m S ∧
    SimReaches longGeom .vay dtLight (fun _ _ => none) (fun _ S => S) [⟨false, [spinner, farSpinner]⟩] 1 M T ∧
    SameInside longGeom (leftPatch.inner 4) m S M T ∧ (leftPatch.seen longGeom [⟨false, [spinner]⟩]).length = 1 := by
  classical
  have d1 : 0 < dtLight := by norm_num [dtLight]
  have d2 : LIGHT_SPEED * dtLight ≤ longGeom.dr := by norm_num [dtLight, longGeom, LIGHT_SPEED]
  have d3 : LIGHT_SPEED * dtLight ≤ longGeom.dz := by norm_num [dtLight, longGeom, LIGHT_SPEED]
  have in1 : Inside longGeom spinner := by
    intro _
    refine ⟨⟨?_, ?_, ?_, ?_⟩, rfl, ?_, ?_⟩ <;> norm_num [spinner, longGeom, speedSq, LIGHT_SPEED]
  have in2 : Inside longGeom farSpinner := by
    intro _
    refine ⟨⟨?_, ?_, ?_, ?_⟩, rfl, ?_, ?_⟩ <;> norm_num [farSpinner, spinner, longGeom, speedSq, LIGHT_SPEED]
  have hS : ∀ p ∈ parts [⟨false, [spinner]⟩], Inside longGeom p := by
    intro p hp
    simp only [parts, List.flatMap_cons, List.flatMap_nil, List.append_nil, List.mem_singleton] at hp
    subst hp
    exact in1
  have hT : ∀ p ∈ parts [⟨false, [spinner, farSpinner]⟩], Inside longGeom p := by
    intro p hp
    simp only [parts, List.flatMap_cons, List.flatMap_nil, List.append_nil, List.mem_cons, List.not_mem_nil, or_false] at hp
    rcases hp with rfl | rfl
    exacts [in1, in2]
  have sim : ∀ U : List Species, (∀ p ∈ parts U, Inside longGeom p) → (∀ p ∈ parts U, ¬ InLastHalfCell longGeom p) →
      ∃ m S, SimReaches longGeom .vay dtLight (fun _ _ => none) (fun _ S => S) U 1 m S := by
    intro U hU hl
    obtain ⟨x, s1, q1⟩ := setup_spec longGeom_valid (fun _ => none)
    obtain ⟨y, s2, q2⟩ := pml_spec (fun _ _ => none) q1
    obtain ⟨-, -, h⟩ := C76_only_fault_partial longGeom longGeom_valid (by norm_num [longGeom]) (by norm_num [longGeom]) .vay
      (Or.inr rfl) dtLight d1 d2 d3 (fun _ _ => none) (fun _ S => S) (fun _ _ h => h) _ hU 0 y _
      ⟨x, y, s1.sound.2.1, s2.sound.2.1, .start _ _⟩
    exact h hl
  obtain ⟨m, S, h1⟩ := sim _ hS (by
    intro p hp
    simp only [parts, List.flatMap_cons, List.flatMap_nil, List.append_nil, List.mem_singleton] at hp
    subst hp
    rintro ⟨-, hl⟩
    norm_num [spinner, longGeom] at hl)
  obtain ⟨M, T, h2⟩ := sim _ hT (by
    intro p hp
    simp only [parts, List.flatMap_cons, List.flatMap_nil, List.append_nil, List.mem_cons, List.not_mem_nil, or_false] at hp
    rcases hp with rfl | rfl
    · rintro ⟨-, hl⟩
      norm_num [spinner, longGeom] at hl
    · rintro ⟨-, hl⟩
      norm_num [farSpinner, spinner, longGeom] at hl)
  have s1 : leftPatch.seen longGeom [⟨false, [spinner]⟩] = [(false, spinner)] := by
    unfold Patch.seen
    simp [tagged, Patch.Point, leftPatch, longGeom, spinner]
    norm_num
  have s2 : leftPatch.seen longGeom [⟨false, [spinner, farSpinner]⟩] = [(false, spinner)] := by
    unfold Patch.seen
    simp [tagged, Patch.Point, leftPatch, longGeom, farSpinner, spinner]
    norm_num
  refine ⟨m, S, M, T, h1, h2, ?_, by rw [s1]; rfl⟩
  refine C103_simulation longGeom longGeom_valid (by norm_num [longGeom]) (by norm_num [longGeom]) .vay (Or.inr rfl) dtLight d1 d2
    d3 leftPatch _ _ (fun _ _ _ => rfl) _ _ (fun _ _ h => h) (fun _ _ h => h) (fun _ _ _ _ _ h => h) _ _ S T hS hT ?_ 1 m M h1 h2
  rw [s1, s2]
  exact .cons ⟨rfl, ⟨rfl, rfl, rfl, rfl, rfl⟩⟩ .nil

end Verif
