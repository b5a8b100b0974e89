import Verif.Translation

/-!
# C115: the place along the axis and the length of the chamber do not matter
-/

namespace Verif

namespace Translate

theorem callSum_along (d : ℤ) (l : List JCall) (a : Arr) (i k : ℤ) : callSum (l.map (call d)) a i (k + d) = callSum l a i k := by
  unfold callSum
  rw [List.map_map]
  congr 1
  apply List.map_congr_left
  intro c _
  simp [call]

theorem init_along {G G' : Geom} (h : SameSection G G') {W : Patch} {d : ℤ} (hW : W.Fits G G' d) {a : Arr} {i k : ℤ}
    (hI : Init G ⟨a, i, k⟩) (hn : W.Node i k) : Init G' ⟨a, i, k + d⟩ := by
  obtain ⟨h1, h2⟩ := hW
  unfold Patch.Node at hn
  cases a <;> simp only [Init, Arr.initRows, Arr.initCols, h.nr] at * <;> omega

theorem fits_inner {G G' : Geom} {W : Patch} {d : ℤ} (h : W.Fits G G' d) (n : ℕ) : (W.inner n).Fits G G' d := by
  obtain ⟨h1, h2⟩ := h
  unfold Patch.inner
  constructor <;> dsimp only <;> omega

/-- a field step in the two chambers -/
theorem fStep_along {G G' : Geom} (hG : G.Valid) (h : SameSection G G') (dt : ℝ) {W : Patch} {d : ℤ}
    (hW : W.Fits G G' d) {n : ℕ} (hn : 1 ≤ n) {F F' : Fields} {jr jphi jz jr' jphi' jz' : Grid}
    (hF : SameNodes G (fun _ => True) W F (F'.along d)) (h1 : ∀ i k, (W.inner n).Node i k → jr i k = jr' i (k + d))
    (h2 : ∀ i k, (W.inner n).Node i k → jphi i k = jphi' i (k + d))
    (h3 : ∀ i k, (W.inner n).Node i k → jz i k = jz' i (k + d)) :
    SameNodes G (fun _ => True) (W.inner n) (fStep G dt jr jphi jz F) ((fStep G' dt jr' jphi' jz' F').along d) := by
  have hh := hStep_agree dt hF
  obtain ⟨f1, f2⟩ := hW
  have key : SameNodes G (fun _ => True) (W.inner n) (eStep G dt (withJ (hStep G dt F) jr jphi jz))
      (eStep G dt ((withJ (hStep G' dt F') jr' jphi' jz').along d)) := by
    refine eStep_agree hG dt (V := ⟨W.i0, W.i1 - 1, W.k0, W.k1 - 1⟩) ?_ ?_ ?_
    · intro a i k ha hI hV
      have e := hh a i k trivial hI hV
      unfold Patch.Node at hV
      dsimp only at hV
      rw [← hStep_along h dt F' d a i k (by omega) (by omega)] at e
      cases a <;> first | exact e | exact absurd (by simp [Arr.isJ]) ha
    · rintro a i k (rfl | rfl | rfl) _ hk
      exacts [h1 i k hk, h2 i k hk, h3 i k hk]
    · intro i k hk i' k' e1 e2 e3 e4
      unfold Patch.inner Patch.Node at *
      dsimp only at *
      omega
  intro a i k _ hI hk
  unfold fStep
  rw [key a i k trivial hI hk]
  unfold Patch.Node Patch.inner at hk
  dsimp only at hk
  exact (eStep_along h dt _ d a i k (by omega) (by omega)).symm

theorem mem_along {G G' : Geom} (h : SameSection G G') {W : Patch} {d : ℤ} (hW : W.Fits G G' d) {F F' : Fields}
    {m M : Mem Loc} (hm : Rep G F m) (hM : Rep G' F' M) (hF : SameNodes G (fun _ => True) W F (F'.along d)) :
    ∀ a i k, Init G ⟨a, i, k⟩ → W.Node i k → m ⟨a, i, k⟩ = M ⟨a, i, k + d⟩ := by
  intro a i k hI hk
  rw [hm _ hI, hM _ (init_along h hW hI hk)]
  exact congrArg some (hF a i k trivial hI hk)

theorem along_mem {G : Geom} {W : Patch} {d : ℤ} {m M : Mem Loc}
    (h : ∀ a i k, Init G ⟨a, i, k⟩ → W.Node i k → m ⟨a, i, k⟩ = M ⟨a, i, k + d⟩) :
    SameNodes G (fun _ => True) W (fieldsOf m) ((fieldsOf M).along d) := by
  intro a i k _ hI hW
  unfold Fields.along fieldsOf
  rw [h a i k hI hW]

/-- which rows of a cycle matter inside a window -/
theorem row_where {G : Geom} (hG : G.Valid) (hnr : 3 ≤ G.nr) (hnz : 3 ≤ G.nz) {mode : PusherMode}
    (hmode : mode = .borisRelativistic ∨ mode = .vay) {dt : ℝ} (hdt : 0 < dt) (hdr : LIGHT_SPEED * dt ≤ G.dr)
    (hdz : LIGHT_SPEED * dt ≤ G.dz) (W : Patch) {U : List Species} {F : Fields} (hU : ∀ p ∈ parts U, Inside G p) :
    ∀ x ∈ tagged U, ∀ y, CycleRow G F mode dt x y →
      ((y.2.2.alive = true ∧ (W.inner 4).Point G y.2.2.pos.c0 y.2.2.pos.c2) →
        x.2.alive = true ∧ (W.inner 2).Point G x.2.pos.c0 x.2.pos.c2) ∧
      (¬ (x.2.alive = true ∧ (W.inner 2).Point G x.2.pos.c0 x.2.pos.c2) → ∀ c ∈ y.2.1, ¬ (W.inner 4).Node c.i c.k) ∧
      ∀ c ∈ y.2.1, c.Ok G := by
  have dr := hG.dr_pos
  have dz := hG.dz_pos
  rintro x hx y ⟨-, hy⟩
  have hx' : x.2 ∈ parts U := by
    rw [← tagged_parts]
    exact List.mem_map.2 ⟨x, hx, rfl⟩
  obtain ⟨-, w2, w3⟩ := part_where hG hnr hnz hmode hdt hdr hdz (hU _ hx') hy
  refine ⟨?_, ?_, fun c hc => (w2 c hc).1⟩
  · rintro ⟨ha, p1, p2, p3, p4⟩
    obtain ⟨a1, a2, a3⟩ := w3 ha
    rw [abs_lt] at a2 a3
    simp only [Patch.inner] at p1 p2 p3 p4
    push_cast at p1 p2 p3 p4
    refine ⟨a1, ?_, ?_, ?_, ?_⟩ <;> simp only [Patch.inner] <;> push_cast <;> linarith
  · intro hP c hc hn
    obtain ⟨-, a1, a2, a3⟩ := w2 c hc
    apply hP
    rw [abs_lt] at a2 a3
    obtain ⟨n1, n2, n3, n4⟩ := hn
    simp only [Patch.inner] at n1 n2 n3 n4
    have n1' : (W.i0 : ℝ) + 4 ≤ c.i := by exact_mod_cast n1
    have n2' : (c.i : ℝ) ≤ W.i1 - 4 := by exact_mod_cast n2
    have n3' : (W.k0 : ℝ) + 4 ≤ c.k := by exact_mod_cast n3
    have n4' : (c.k : ℝ) ≤ W.k1 - 4 := by exact_mod_cast n4
    have b1 := mul_le_mul_of_nonneg_right n1' dr.le
    have b2 := mul_le_mul_of_nonneg_right n2' dr.le
    have b3 := mul_le_mul_of_nonneg_right n3' dz.le
    have b4 := mul_le_mul_of_nonneg_right n4' dz.le
    refine ⟨a1, ?_, ?_, ?_, ?_⟩ <;> simp only [Patch.inner] <;> push_cast <;> linarith

theorem point_along {G G' : Geom} (h : SameSection G G') (W : Patch) (d : ℤ) (r z : ℝ) :
    (W.along d).Point G' r (z + d * G.dz) ↔ W.Point G r z := by
  unfold Patch.Point Patch.along
  dsimp only
  rw [h.dr, h.dz]
  push_cast
  constructor <;> rintro ⟨h1, h2, h3, h4⟩ <;> refine ⟨h1, h2, ?_, ?_⟩ <;> linarith

theorem seen_smaller {G : Geom} (hG : G.Valid) (W : Patch) (d : ℕ) (U : List Species) [DecidablePred fun x : Bool × Particle =>
    x.2.alive = true ∧ (W.inner d).Point G x.2.pos.c0 x.2.pos.c2] : (W.inner d).seen G U =
      (W.seen G U).filter fun x => x.2.alive = true ∧ (W.inner d).Point G x.2.pos.c0 x.2.pos.c2 := by
  classical
  have dr := hG.dr_pos
  have dz := hG.dz_pos
  have sub : ∀ r z, (W.inner d).Point G r z → W.Point G r z := by
    rintro r z ⟨w1, w2, w3, w4⟩
    simp only [Patch.inner] at w1 w2 w3 w4
    push_cast at w1 w2 w3 w4
    have hd : (0:ℝ) ≤ d := by positivity
    have e1 := mul_nonneg hd dr.le
    have e2 := mul_nonneg hd dz.le
    refine ⟨?_, ?_, ?_, ?_⟩ <;> linarith
  unfold Patch.seen
  rw [List.filter_filter]
  apply List.filter_congr
  intro x _
  rw [eq_comm, ← Bool.decide_and, decide_eq_decide]
  constructor
  · exact fun h => h.1
  · exact fun h => ⟨h, h.1, sub _ _ h.2⟩

theorem seen_along {G G' : Geom} (hG : G.Valid) (hG' : G'.Valid) (h : SameSection G G') {W : Patch} {d : ℤ} {S T : List Species}
    (n : ℕ) (hs : List.Forall₂ (fun x y : Bool × Particle => x.1 = y.1 ∧ SamePart (x.2.along (d * G.dz)) y.2) (W.seen G S)
      ((W.along d).seen G' T)) :
    List.Forall₂ (fun x y : Bool × Particle => x.1 = y.1 ∧ SamePart (x.2.along (d * G.dz)) y.2) ((W.inner n).seen G S)
      (((W.inner n).along d).seen G' T) := by
  classical
  rw [← Patch.along_inner, seen_smaller hG, seen_smaller hG']
  apply forall2_filter hs
  rintro x y ⟨-, e⟩
  rw [← e.alive, ← e.pos, Patch.along_inner]
  show _ ↔ _ ∧ ((W.inner n).along d).Point G' x.2.pos.c0 (x.2.pos.c2 + d * G.dz)
  rw [point_along h]
  rfl

end Translate

open Translate

/-! ## Fields alone -/

/-- **C115** (electromagnetic waves). Two runs of the field solver in chambers of the same radius and cells, of any lengths, that
start with the same fields in a window and in the window `d` cells further, with the same walls in both, and get the same
currents there: after `n` steps the fields and currents are the same more than `n` cells inside. -/
theorem C115_waves (G G' : Geom) (hG : G.Valid) (hG' : G'.Valid) (hsec : SameSection G G') (dt : ℝ) (W : Patch) (d : ℤ)
    (hW : W.Fits G G' d) (calls calls' : ℕ → List JCall) (hc : CallsOk G calls)
    (hc' : CallsOk G' calls') (m M : Mem Loc) (hm : Initialised G m) (hM : Initialised G' M)
    (h : ∀ a i k, Init G ⟨a, i, k⟩ → W.Node i k → m ⟨a, i, k⟩ = M ⟨a, i, k + d⟩)
    (hJ : ∀ n a i k, (W.inner (n + 1)).Node i k → callSum (calls n) a i k = callSum (calls' n) a i (k + d))
    (n : ℕ) (m' M' : Mem Loc) (h1 : FieldRun G dt calls n m m') (h2 : FieldRun G' dt calls' n M M') :
    ∀ a i k, Init G ⟨a, i, k⟩ → (W.inner n).Node i k → m' ⟨a, i, k⟩ = M' ⟨a, i, k + d⟩ := by
  induction n generalizing m' M' with
  | zero =>
    cases h1
    cases h2
    rw [Patch.inner_zero]
    exact h
  | succ n ih =>
    cases h1 with
    | succ _ _ m1 _ h1 s1 => cases h2 with
      | succ _ _ M1 _ h2 s2 =>
        have := ih m1 M1 h1 h2
        obtain ⟨x, x1, x2, x3⟩ := fieldRun_spec hG dt hc hm.rep n
        obtain ⟨y, y1, y2, y3⟩ := fieldRun_spec hG' dt hc' hM.rep n
        rw [x2 _ h1] at s1 this
        rw [y2 _ h2] at s2 this
        obtain ⟨-, u, -, u2, u3, -⟩ := fieldStep_spec hG dt (hc n) x3.initialised.rep
        obtain ⟨-, v, -, v2, v3, -⟩ := fieldStep_spec hG' dt (hc' n) y3.initialised.rep
        rw [u2 _ s1, v2 _ s2]
        have k1 := fits_inner hW n
        rw [← Patch.inner_inner W n 1]
        refine mem_along hsec (fits_inner k1 1) u3 v3 (fStep_along hG hsec dt k1 le_rfl (along_mem this) ?_ ?_ ?_) <;>
        · intro i k hk
          rw [Patch.inner_inner] at hk
          exact hJ n _ i k hk

/-! ## Whole cycles -/

/-- **C115** (one cycle). Two simulations in chambers of the same radius and cells: if what the first has in a window, the
second has `d` cells further along the axis, with the same walls in both windows, then after a cycle of the main loop, whatever
the schedules, this holds for the window without its outer four rows and columns. -/
theorem C115_cycle (G G' : Geom) (hG : G.Valid) (hG' : G'.Valid) (hsec : SameSection G G') (hnr : 3 ≤ G.nr) (hnz : 3 ≤ G.nz)
    (hnz' : 3 ≤ G'.nz) (mode : PusherMode) (hmode : mode = .borisRelativistic ∨ mode = .vay) (dt : ℝ) (hdt : 0 < dt)
    (hdr : LIGHT_SPEED * dt ≤ G.dr) (hdz : LIGHT_SPEED * dt ≤ G.dz) (W : Patch) (d : ℤ)
    (hW : W.Fits G G' d) (m M m' M' : Mem Loc) (S T S' T' : List Species) (hm : Initialised G m)
    (hM : Initialised G' M) (hS : ∀ p ∈ parts S, Inside G p) (hT : ∀ p ∈ parts T, Inside G' p)
    (h : SameShifted G G' d W m S M T) (h1 : Cycle G mode dt m S m' S') (h2 : Cycle G' mode dt M T M' T') :
    SameShifted G G' d (W.inner 4) m' S' M' T' := by
  classical
  have hne : mode ≠ .borisAdaptive := by rcases hmode with rfl | rfl <;> simp
  have hnr' : 3 ≤ G'.nr := by rw [hsec.nr]; exact hnr
  have hdr' : LIGHT_SPEED * dt ≤ G'.dr := by rw [hsec.dr]; exact hdr
  have hdz' : LIGHT_SPEED * dt ≤ G'.dz := by rw [hsec.dz]; exact hdz
  have dr := hG.dr_pos
  have dz := hG.dz_pos
  obtain ⟨m1, m2, m3, R, r1, r2, r3, r4, r5, r6⟩ := cycle_parts h1
  obtain ⟨M1, M2, M3, Q, q1, q2, q3, q4, q5, q6⟩ := cycle_parts h2
  -- the fields the macroparticles see
  have hF : SameNodes G (fun a => ¬ a.isJ) ⟨W.i0, W.i1 - 1, W.k0, W.k1 - 1⟩ (fieldsOf m2) ((fieldsOf M2).along d) := by
    have after : ∀ {H : Geom} {x x1 x2 : Mem Loc}, H.Valid → Initialised H x → RegionRun (Alloc H) (hRegion H dt) x x1 →
        RegionRun (Alloc H) (resetJRegion H) x1 x2 → ∀ a i k, ¬ Arr.isJ a → Init H ⟨a, i, k⟩ →
          fieldsOf x2 a i k = hStep H dt (fieldsOf x) a i k := by
      intro H x x1 x2 hH hx a1 a2 a i k ha hI
      obtain ⟨n1, s1, w1⟩ := hRegion_spec hH dt hx.rep
      rw [s1.sound.2.2 _ a1] at a2
      obtain ⟨s2, w2⟩ := resetJ_spec hH w1
      rw [s2.sound.2.2 _ a2, (Rep.ofAdd w2).agree a i k hI]
      cases a <;> first | rfl | exact absurd (by simp [Arr.isJ]) ha
    intro a i k ha hI hV
    have hk : W.Node i k := by
      unfold Patch.Node at *
      dsimp only at *
      omega
    have c : (d = 0 ∨ (0 ≤ k ∧ 0 ≤ k + d)) ∧ ((G'.nz : ℤ) = G.nz + d ∨ (k + 2 ≤ G.nz ∧ k + d + 2 ≤ G'.nz)) := by
      obtain ⟨f1, f2⟩ := hW
      unfold Patch.Node at hk
      omega
    unfold Fields.along
    rw [after hG hm r1 r2 a i k ha hI, after hG' hM q1 q2 a i (k + d) ha (init_along hsec hW hI hk),
      hStep_along hsec dt _ d a i k c.1 c.2]
    exact hStep_agree dt (along_mem h.mem) a i k trivial hI hV
  -- rows
  have rowS := row_where hG hnr hnz hmode hdt hdr hdz W (F := fieldsOf m2) hS
  have rowT := row_where hG' hnr' hnz' hmode hdt hdr' hdz' (W.along d) (F := fieldsOf M2) hT
  obtain ⟨L, l1, l2, l3⟩ := rows_filter (fun x : Bool × Particle => x.2.alive = true ∧ (W.inner 2).Point G x.2.pos.c0 x.2.pos.c2)
    (fun y : Bool × List JCall × Particle => y.2.2.alive = true ∧ (W.inner 4).Point G y.2.2.pos.c0 y.2.2.pos.c2)
    (fun y => y.2.1) (fun c => (W.inner 4).Node c.i c.k) r3 (fun x hx y hy => (rowS x hx y hy).1)
    (fun x hx y hy => (rowS x hx y hy).2.1)
  obtain ⟨L', l1', l2', l3'⟩ := rows_filter
    (fun x : Bool × Particle => x.2.alive = true ∧ ((W.along d).inner 2).Point G' x.2.pos.c0 x.2.pos.c2)
    (fun y : Bool × List JCall × Particle => y.2.2.alive = true ∧ ((W.along d).inner 4).Point G' y.2.2.pos.c0 y.2.2.pos.c2)
    (fun y => y.2.1) (fun c => ((W.along d).inner 4).Node c.i c.k) q3 (fun x hx y hy => (rowT x hx y hy).1)
    (fun x hx y hy => (rowT x hx y hy).2.1)
  have hseen := seen_along hG hG' hsec 2 h.parts
  rw [← Patch.along_inner] at hseen
  unfold Patch.seen at hseen
  -- the macroparticles two cells inside do the same
  have both : List.Forall₂ (fun y z : Bool × List JCall × Particle => y.1 = z.1 ∧ y.2.1.map (call d) = z.2.1 ∧
      SamePart (y.2.2.along (d * G.dz)) z.2.2) L L' := by
    have l1a : List.Forall₂ (fun x y => CycleRow G (fieldsOf m2) mode dt x y ∧ x.2 ∈ parts S ∧ x.2.alive = true ∧
        (W.inner 2).Point G x.2.pos.c0 x.2.pos.c2) ((tagged S).filter fun x => x.2.alive = true ∧
        (W.inner 2).Point G x.2.pos.c0 x.2.pos.c2) L := by
      have mem : ∀ x ∈ (tagged S).filter fun x => x.2.alive = true ∧ (W.inner 2).Point G x.2.pos.c0 x.2.pos.c2,
          x.2 ∈ parts S ∧ x.2.alive = true ∧ (W.inner 2).Point G x.2.pos.c0 x.2.pos.c2 := by
        intro x hx
        refine ⟨?_, by simpa using (List.mem_filter.1 hx).2⟩
        rw [← tagged_parts]
        exact List.mem_map.2 ⟨x, (List.mem_filter.1 hx).1, rfl⟩
      clear hseen l2 l3
      revert mem l1
      generalize ((tagged S).filter fun x => x.2.alive = true ∧ (W.inner 2).Point G x.2.pos.c0 x.2.pos.c2) = X
      intro l1 mem
      induction l1 with
      | nil => exact .nil
      | cons hxy _ ih => exact .cons ⟨hxy, mem _ (by simp)⟩ (ih fun x hx => mem x (by simp [hx]))
    refine forall2_square ?_ hseen l1a l1'
    rintro x y u v ⟨e1, e2⟩ ⟨⟨f1, f2⟩, fm, fa, fW⟩ ⟨g1, g2⟩
    rw [← e1] at g1 g2
    -- in the first chamber with the fields of the second
    have f3 : PartCycle G ((fieldsOf M2).along d) mode dt x.1 x.2 u.2.1 u.2.2 := by
      obtain ⟨b1, g, b2, b3, b4⟩ := f2
      exact ⟨b1, g, b2, by rw [← stepV_inside hG hnr hnz hF (b1 fa) fW]; exact b3, b4⟩
    have fW' := fW
    obtain ⟨-, -, w3, w4⟩ := fW
    simp only [Patch.inner] at w3 w4
    push_cast at w3 w4
    have zs := hG.z_size_eq
    have zs' := hG'.z_size_eq
    rw [hsec.dz] at zs'
    have hL : d = 0 ∨ (3 * G.dz ≤ x.2.pos.c2 ∧ 3 * G.dz ≤ x.2.pos.c2 + d * G.dz) := by
      refine hW.near.imp_right ?_
      rintro ⟨c1, c2⟩
      have c1' : (1:ℝ) ≤ W.k0 := by exact_mod_cast c1
      have c2' : (1:ℝ) ≤ W.k0 + d := by exact_mod_cast c2
      have b1 := mul_le_mul_of_nonneg_right c1' dz.le
      have b2 := mul_le_mul_of_nonneg_right c2' dz.le
      constructor <;> linarith
    have hR : G'.z_size = G.z_size + d * G.dz ∨
        (x.2.pos.c2 ≤ G.z_size - 3 * G.dz ∧ x.2.pos.c2 + d * G.dz ≤ G'.z_size - 3 * G.dz) := by
      refine hW.far.imp ?_ ?_
      · intro c
        have c' : (G'.nz : ℝ) = G.nz + d := by exact_mod_cast c
        rw [zs, zs', c']
        ring
      · rintro ⟨c1, c2⟩
        have c1' : (W.k1 : ℝ) + 2 ≤ G.nz := by exact_mod_cast c1
        have c2' : (W.k1 : ℝ) + d + 2 ≤ G'.nz := by exact_mod_cast c2
        have b1 := mul_le_mul_of_nonneg_right c1' dz.le
        have b2 := mul_le_mul_of_nonneg_right c2' dz.le
        constructor <;> linarith
    have f4 := part_along hG hnr hnz hsec hmode hdt hdr hdz d (hS _ fm) fa hL hR f3
    obtain ⟨k1, k2⟩ := part_same hG' hnr' hnz' (W := W.along d) (F := fieldsOf M2) (fun _ _ _ _ _ _ => rfl) hne e2
      (by rw [Patch.along_inner]; exact (point_along hsec _ d _ _).2 fW') fa f4 g2
    exact ⟨f1.trans g1.symm, k1, k2⟩
  have hcalls : (L.flatMap (fun y => y.2.1)).map (call d) = L'.flatMap (fun y => y.2.1) := by
    clear l1 l2 l3 l1' l2' l3'
    induction both with
    | nil => rfl
    | cons e _ ih => rw [List.flatMap_cons, List.flatMap_cons, List.map_append, e.2.1, ih]
  constructor
  · -- fields
    have okS : ∀ c ∈ R.flatMap (fun y => y.2.1), c.Ok G := by
      intro c hc
      obtain ⟨y, hy, hc⟩ := List.mem_flatMap.1 hc
      obtain ⟨x, hx, hxy⟩ := forall2_right r3 hy
      exact (rowS x hx y hxy).2.2 c hc
    have okT : ∀ c ∈ Q.flatMap (fun y => y.2.1), c.Ok G' := by
      intro c hc
      obtain ⟨y, hy, hc⟩ := List.mem_flatMap.1 hc
      obtain ⟨x, hx, hxy⟩ := forall2_right q3 hy
      exact (rowT x hx y hxy).2.2 c hc
    obtain ⟨-, u, -, u2, u3, -⟩ := fieldStep_spec hG dt okS hm.rep
    obtain ⟨-, v, -, v2, v3, -⟩ := fieldStep_spec hG' dt okT hM.rep
    rw [u2 m' ⟨m1, m2, m3, r1, r2, ⟨_, .refl _, r5⟩, r6⟩, v2 M' ⟨M1, M2, M3, q1, q2, ⟨_, .refl _, q5⟩, q6⟩]
    refine mem_along hsec (fits_inner hW 4) u3 v3 (fStep_along hG hsec dt hW (by norm_num) (along_mem h.mem) ?_ ?_ ?_) <;>
    · intro i k hk
      have hk' : ((W.along d).inner 4).Node i (k + d) := by
        unfold Patch.Node Patch.along Patch.inner at *
        dsimp only at *
        omega
      rw [l3 _ i k (fun _ => hk), l3' _ i (k + d) (fun _ => hk'), ← hcalls, callSum_along]
  · -- macroparticles
    unfold Patch.seen
    rw [r4, q4, List.filter_map, List.filter_map, List.forall₂_map_left_iff, List.forall₂_map_right_iff, ← Patch.along_inner]
    have c1 : R.filter ((fun x : Bool × Particle => decide (x.2.alive = true ∧ (W.inner 4).Point G x.2.pos.c0 x.2.pos.c2)) ∘
        fun y => (y.1, y.2.2)) = R.filter fun y => y.2.2.alive = true ∧ (W.inner 4).Point G y.2.2.pos.c0 y.2.2.pos.c2 := rfl
    have c2 : Q.filter ((fun x : Bool × Particle => decide (x.2.alive = true ∧
        ((W.along d).inner 4).Point G' x.2.pos.c0 x.2.pos.c2)) ∘ fun y => (y.1, y.2.2)) =
        Q.filter fun y => y.2.2.alive = true ∧ ((W.along d).inner 4).Point G' y.2.2.pos.c0 y.2.2.pos.c2 := rfl
    rw [c1, c2, l2, l2']
    have := forall2_filter (P := fun y : Bool × List JCall × Particle => y.2.2.alive = true ∧
        (W.inner 4).Point G y.2.2.pos.c0 y.2.2.pos.c2) (Q := fun y : Bool × List JCall × Particle => y.2.2.alive = true ∧
        ((W.along d).inner 4).Point G' y.2.2.pos.c0 y.2.2.pos.c2) both (by
      rintro y z ⟨-, -, e⟩
      rw [← e.alive, ← e.pos, Patch.along_inner]
      show _ ↔ _ ∧ ((W.inner 4).along d).Point G' y.2.2.pos.c0 (y.2.2.pos.c2 + d * G.dz)
      rw [point_along hsec]
      rfl)
    exact this.imp fun _ _ e => ⟨e.1, e.2.2⟩

/-- **C115** (runs). With the same injection in the part of the windows that is left: after `n` cycles what the first has more
than `4 n` cells inside the window, the second has `d` cells further. -/
theorem C115_run (G G' : Geom) (hG : G.Valid) (hG' : G'.Valid) (hsec : SameSection G G') (hnr : 3 ≤ G.nr) (hnz : 3 ≤ G.nz)
    (hnz' : 3 ≤ G'.nz) (mode : PusherMode) (hmode : mode = .borisRelativistic ∨ mode = .vay) (dt : ℝ) (hdt : 0 < dt)
    (hdr : LIGHT_SPEED * dt ≤ G.dr) (hdz : LIGHT_SPEED * dt ≤ G.dz) (W : Patch) (d : ℤ)
    (hW : W.Fits G G' d) (inject inject' : ℕ → List Species → List Species)
    (hin : ∀ n S, (∀ p ∈ parts S, Inside G p) → ∀ p ∈ parts (inject n S), Inside G p)
    (hin' : ∀ n S, (∀ p ∈ parts S, Inside G' p) → ∀ p ∈ parts (inject' n S), Inside G' p)
    (hsame : ∀ n m S M T, SameShifted G G' d (W.inner (4 * n)) m S M T →
      SameShifted G G' d (W.inner (4 * n)) m (inject n S) M (inject' n T))
    (m M m' M' : Mem Loc) (S T S' T' : List Species) (hm : Initialised G m) (hM : Initialised G' M)
    (hS : ∀ p ∈ parts S, Inside G p) (hT : ∀ p ∈ parts T, Inside G' p) (h : SameShifted G G' d W m S M T) (n : ℕ)
    (h1 : Reaches G mode dt inject n m S m' S') (h2 : Reaches G' mode dt inject' n M T M' T') :
    SameShifted G G' d (W.inner (4 * n)) m' S' M' T' := by
  have hnr' : 3 ≤ G'.nr := by rw [hsec.nr]; exact hnr
  have hdr' : LIGHT_SPEED * dt ≤ G'.dr := by rw [hsec.dr]; exact hdr
  have hdz' : LIGHT_SPEED * dt ≤ G'.dz := by rw [hsec.dz]; exact hdz
  suffices key : SameShifted G G' d (W.inner (4 * n)) m' S' M' T' ∧ Initialised G m' ∧ Initialised G' M' ∧
      (∀ p ∈ parts S', Inside G p) ∧ ∀ p ∈ parts T', Inside G' p from key.1
  induction n generalizing m' M' S' T' with
  | zero =>
    cases h1
    cases h2
    rw [Nat.mul_zero, Patch.inner_zero]
    exact ⟨h, hm, hM, hS, hT⟩
  | succ n ih =>
    cases h1 with
    | step h1 c1 => cases h2 with
      | step h2 c2 =>
        obtain ⟨i1, i2, i3, i4, i5⟩ := ih _ _ _ _ h1 h2
        have j4 := hin n _ i4
        have j5 := hin' n _ i5
        obtain ⟨a1, a2⟩ := cycle_inside hG hnr hnz hmode hdt hdr hdz i2 j4 c1
        obtain ⟨b1, b2⟩ := cycle_inside hG' hnr' hnz' hmode hdt hdr' hdz' i3 j5 c2
        refine ⟨?_, a1, b1, a2, b2⟩
        have := C115_cycle G G' hG hG' hsec hnr hnz hnz' mode hmode dt hdt hdr hdz _ d (fits_inner hW (4 * n))
          _ _ _ _ _ _ _ _ i2 i3 j4 j5 (hsame n _ _ _ _ i1) c1 c2
        rw [Patch.inner_inner] at this
        exact this

/-- **C115** (whole simulations). Two simulations in chambers of the same radius and cells but any lengths: if the
conductivities, the macroparticles and the injection in a window of the first are those in the window `d` cells further along
the axis of the second, with the same walls in both windows, then after `n` cycles all fields, currents and macroparticles more
than `4 n` cells inside the one are those in the other. -/
theorem C115_simulation (G G' : Geom) (hG : G.Valid) (hG' : G'.Valid) (hsec : SameSection G G') (hnr : 3 ≤ G.nr)
    (hnz : 3 ≤ G.nz) (hnz' : 3 ≤ G'.nz) (mode : PusherMode) (hmode : mode = .borisRelativistic ∨ mode = .vay) (dt : ℝ)
    (hdt : 0 < dt) (hdr : LIGHT_SPEED * dt ≤ G.dr) (hdz : LIGHT_SPEED * dt ≤ G.dz) (W : Patch) (d : ℤ)
    (hW : W.Fits G G' d) (tbl tbl' : ℤ → ℤ → Option ℝ) (htbl : ∀ i k, W.Node i k → tbl i k = tbl' i (k + d))
    (inject inject' : ℕ → List Species → List Species)
    (hin : ∀ n S, (∀ p ∈ parts S, Inside G p) → ∀ p ∈ parts (inject n S), Inside G p)
    (hin' : ∀ n S, (∀ p ∈ parts S, Inside G' p) → ∀ p ∈ parts (inject' n S), Inside G' p)
    (hsame : ∀ n m S M T, SameShifted G G' d (W.inner (4 * n)) m S M T →
      SameShifted G G' d (W.inner (4 * n)) m (inject n S) M (inject' n T))
    (S0 T0 S T : List Species) (hS : ∀ p ∈ parts S0, Inside G p) (hT : ∀ p ∈ parts T0, Inside G' p)
    (h : List.Forall₂ (fun x y => x.1 = y.1 ∧ SamePart (x.2.along (d * G.dz)) y.2) (W.seen G S0) ((W.along d).seen G' T0))
    (n : ℕ) (m M : Mem Loc) (h1 : SimReaches G mode dt tbl inject S0 n m S)
    (h2 : SimReaches G' mode dt tbl' inject' T0 n M T) : SameShifted G G' d (W.inner (4 * n)) m S M T := by
  obtain ⟨a1, a0, r1, r2, r3⟩ := h1
  obtain ⟨b1, b0, q1, q2, q3⟩ := h2
  have ra := Started.rep hG ⟨_, a1, r1, r2⟩
  have rb := Started.rep hG' ⟨_, b1, q1, q2⟩
  refine C115_run G G' hG hG' hsec hnr hnz hnz' mode hmode dt hdt hdr hdz W d hW inject inject' hin hin' hsame a0 b0 m M S0 T0
    S T ra.initialised rb.initialised hS hT ⟨mem_along hsec hW ra rb ?_, h⟩ n r3 q3
  intro a i k _ _ hk
  unfold Fields.along
  cases a <;> simp only [setupFields]
  rw [htbl i k hk]

/-- **C115** (a longer chamber). The same macroparticles in two chambers of the same radius and cells, the second at least as long
as the first, with the same conductivities up to column `c`, before the far wall of the first: after `n` cycles all fields,
currents and macroparticles more than `4 n` cells before that column are the same in both. -/
theorem C115_longer (G G' : Geom) (hG : G.Valid) (hG' : G'.Valid) (hsec : SameSection G G') (hlong : G.nz ≤ G'.nz)
    (hnr : 3 ≤ G.nr) (hnz : 3 ≤ G.nz) (mode : PusherMode) (hmode : mode = .borisRelativistic ∨ mode = .vay) (dt : ℝ)
    (hdt : 0 < dt) (hdr : LIGHT_SPEED * dt ≤ G.dr) (hdz : LIGHT_SPEED * dt ≤ G.dz) (tbl tbl' : ℤ → ℤ → Option ℝ)
    (c : ℤ) (hc : c + 2 ≤ G.nz) (htbl : ∀ i k, k ≤ c → tbl i k = tbl' i k) (S0 S T : List Species) (hS : ∀ p ∈ parts S0, Inside G p) (n : ℕ)
    (m M : Mem Loc) (h1 : SimReaches G mode dt tbl (fun _ S => S) S0 n m S)
    (h2 : SimReaches G' mode dt tbl' (fun _ S => S) S0 n M T) :
    SameShifted G G' 0 ⟨0, G.nr, 0, c - 4 * n⟩ m S M T := by
  have hT : ∀ p ∈ parts S0, Inside G' p := by
    intro p hp ha
    obtain ⟨⟨a1, a2, a3, a4⟩, b1, b2, b3⟩ := hS p hp ha
    refine ⟨⟨by rw [hsec.dr]; exact a1, by rw [hsec.r_size]; exact a2, by rw [hsec.dz]; exact a3, ?_⟩, b1, b2, b3⟩
    have e : (G.nz : ℝ) ≤ G'.nz := by exact_mod_cast hlong
    have e' := mul_le_mul_of_nonneg_right e hG.dz_pos.le
    rw [hG'.z_size_eq, hsec.dz]
    rw [hG.z_size_eq] at a4
    linarith
  have := C115_simulation G G' hG hG' hsec hnr hnz (hnz.trans hlong) mode hmode dt hdt hdr hdz
    ⟨-(4 * n), G.nr + 4 * n, -(4 * n), c⟩ 0 ⟨Or.inl rfl, Or.inr ⟨by dsimp only; omega, by dsimp only; omega⟩⟩ tbl tbl' (by
      intro i k hk
      unfold Patch.Node at hk
      dsimp only at hk
      rw [add_zero]
      exact htbl i k (by omega)) _ _ (fun _ _ h => h) (fun _ _ h => h) (fun _ _ _ _ _ h => h) S0 S0 S T hS hT (by
      have e : ∀ W : Patch, (W.along 0).seen G' S0 = W.seen G S0 := by
        intro W
        unfold Patch.seen
        apply List.filter_congr
        intro x _
        rw [decide_eq_decide]
        unfold Patch.along Patch.Point
        rw [hsec.dr, hsec.dz]
        simp only [add_zero]
      rw [e]
      apply List.forall₂_same.2
      intro x _
      refine ⟨rfl, ?_⟩
      rw [Int.cast_zero, zero_mul, along_zero]
      exact ⟨rfl, rfl, rfl, rfl, rfl⟩) n m M h1 h2
  unfold Patch.inner at this
  dsimp only at this
  push_cast at this
  convert this using 2 <;> ring

/-! ## Concrete instances -/

/-- the chamber `longGeom` with ten more cells -/
noncomputable def longerGeom : Geom :=
  { r_size := 2, z_size := 29, nr := 3, nz := 30, dr := 1, dz := 1 }

theorem longerGeom_valid : longerGeom.Valid := by
  constructor <;> simp [longerGeom] <;> norm_num

theorem longer_section : SameSection longGeom longerGeom := ⟨rfl, rfl, rfl, rfl⟩

/-- columns 1 to 17 -/
def middlePatch : Patch := ⟨-20, 20, 1, 17⟩

theorem middle_fits : middlePatch.Fits longGeom longerGeom 6 :=
  ⟨Or.inr (by simp [middlePatch]), Or.inr (by simp [middlePatch, longGeom, longerGeom])⟩

/-- a macroparticle in the middle of the chamber -/
noncomputable def midSpinner : Particle := { spinner with pos := ⟨3 / 2, 0, 9⟩ }

namespace Translate

theorem sim_exists {G : Geom} (hG : G.Valid) (hnr : 3 ≤ G.nr) (hnz : 3 ≤ G.nz) (h1 : G.dr = 1) (h2 : G.dz = 1) (U : List Species)
    (hU : ∀ p ∈ parts U, Inside G p) (hl : ∀ p ∈ parts U, ¬ InLastHalfCell G p) :
    ∃ m S, SimReaches G .vay dtLight (fun _ _ => none) (fun _ S => S) U 1 m S := by
  obtain ⟨x, s1, q1⟩ := setup_spec hG (fun _ => none)
  obtain ⟨y, s2, q2⟩ := pml_spec (fun _ _ => none) q1
  obtain ⟨-, -, h⟩ := C76_only_fault_partial G hG hnr hnz .vay (Or.inr rfl) dtLight (by norm_num [dtLight])
    (by norm_num [dtLight, h1, LIGHT_SPEED]) (by norm_num [dtLight, h2, LIGHT_SPEED]) (fun _ _ => none) (fun _ S => S)
    (fun _ _ h => h) _ hU 0 y _ ⟨x, y, s1.sound.2.1, s2.sound.2.1, .start _ _⟩
  exact h hl

theorem one_part {P : Particle → Prop} {p : Particle} (h : P p) : ∀ q ∈ parts [⟨false, [p]⟩], P q := by
  intro q hq
  simp only [parts, List.flatMap_cons, List.flatMap_nil, List.append_nil, List.mem_singleton] at hq
  subst hq
  exact h

end Translate

/-- A current in the middle of one chamber and six cells further in a longer one: three steps later the same fields. -/
example : ∃ m' M', FieldRun longGeom dtLight (fun _ => [⟨.jz, 1, 9, 1⟩]) 3 emptyMem m' ∧
    FieldRun longerGeom dtLight (fun _ => [⟨.jz, 1, 15, 1⟩]) 3 emptyMem M' ∧
    (∀ a i k, Init longGeom ⟨a, i, k⟩ → 4 ≤ k → k ≤ 14 → m' ⟨a, i, k⟩ = M' ⟨a, i, k + 6⟩) ∧ m' ⟨.jz, 1, 9⟩ = some 1 := by
  have hc : CallsOk longGeom fun _ => [⟨.jz, 1, 9, 1⟩] := by
    intro n c hc
    simp only [List.mem_singleton] at hc
    subst hc
    simp [JCall.Ok, longGeom]
  have hc' : CallsOk longerGeom fun _ => [⟨.jz, 1, 15, 1⟩] := by
    intro n c hc
    simp only [List.mem_singleton] at hc
    subst hc
    simp [JCall.Ok, longerGeom]
  have hrep : Rep longGeom emptyFields emptyMem := fun _ _ => rfl
  have hrep' : Rep longerGeom emptyFields emptyMem := fun _ _ => rfl
  obtain ⟨x, x1, -, x3⟩ := fieldRun_spec longGeom_valid dtLight hc hrep 3
  obtain ⟨y, y1, -, y3⟩ := fieldRun_spec longerGeom_valid dtLight hc' hrep' 3
  refine ⟨x, y, x1, y1, ?_, ?_⟩
  · have := C115_waves longGeom longerGeom longGeom_valid longerGeom_valid longer_section dtLight middlePatch 6 middle_fits _ _ hc
      hc' emptyMem emptyMem hrep.initialised hrep'.initialised (fun a _ _ _ _ => by cases a <;> rfl) (by
        intro n a i k _
        have e : (9 : ℤ) = k ↔ 15 = k + 6 := by omega
        simp [callSum, e]) 3 x y x1 y1
    intro a i k hI h1 h2
    apply this a i k hI
    have h0 : 0 ≤ i ∧ i < 3 := by
      cases a <;> simp only [Init, Arr.initRows, Arr.initCols, longGeom] at hI <;> omega
    simp only [Patch.inner, Patch.Node, middlePatch]
    push_cast
    omega
  · have hI : Init longGeom ⟨.jz, 1, 9⟩ := by simp [Init, Arr.initRows, Arr.initCols, longGeom]
    rw [x3 _ hI]
    change some (callSum [⟨.jz, 1, 9, 1⟩] .jz 1 9) = some 1
    simp [callSum]

/-- A macroparticle in the middle of one chamber and six cells further in a longer one: a cycle later the same fields, currents and
macroparticles in columns 5 to 13 of the one and 11 to 19 of the other. -/
example : ∃ m S M T, SimReaches longGeom .vay dtLight (fun _ _ => none) (fun _ S => S) [⟨false, [midSpinner]⟩] 1 m S ∧
    SimReaches longerGeom .vay dtLight (fun _ _ => none) (fun _ S => S) [⟨false, [midSpinner.along 6]⟩] 1 M T ∧
    SameShifted longGeom longerGeom 6 (middlePatch.inner 4) m S M T ∧
    (middlePatch.seen longGeom [⟨false, [midSpinner]⟩]).length = 1 := by
  classical
  have in1 : Inside longGeom midSpinner := by
    intro _
    refine ⟨⟨?_, ?_, ?_, ?_⟩, rfl, ?_, ?_⟩ <;> norm_num [midSpinner, spinner, longGeom, speedSq, LIGHT_SPEED]
  have in2 : Inside longerGeom (midSpinner.along 6) := by
    intro _
    refine ⟨⟨?_, ?_, ?_, ?_⟩, rfl, ?_, ?_⟩ <;>
      norm_num [Particle.along, midSpinner, spinner, longerGeom, speedSq, LIGHT_SPEED]
  obtain ⟨m, S, h1⟩ := sim_exists longGeom_valid (by norm_num [longGeom]) (by norm_num [longGeom]) rfl rfl _
    (one_part in1) (one_part (P := fun p => ¬ InLastHalfCell longGeom p) (by
      rintro ⟨-, hl⟩
      norm_num [midSpinner, spinner, longGeom] at hl))
  obtain ⟨M, T, h2⟩ := sim_exists longerGeom_valid (by norm_num [longerGeom]) (by norm_num [longerGeom]) rfl rfl _
    (one_part in2) (one_part (P := fun p => ¬ InLastHalfCell longerGeom p) (by
      rintro ⟨-, hl⟩
      norm_num [Particle.along, midSpinner, spinner, longerGeom] at hl))
  have s1 : middlePatch.seen longGeom [⟨false, [midSpinner]⟩] = [(false, midSpinner)] := by
    unfold Patch.seen
    simp [tagged, Patch.Point, middlePatch, longGeom, midSpinner, spinner]
    norm_num
  have s2 : (middlePatch.along 6).seen longerGeom [⟨false, [midSpinner.along 6]⟩] = [(false, midSpinner.along 6)] := by
    unfold Patch.seen
    simp [tagged, Patch.Point, Patch.along, middlePatch, longerGeom, Particle.along, midSpinner, spinner]
    norm_num
  refine ⟨m, S, M, T, h1, h2, ?_, by rw [s1]; rfl⟩
  refine C115_simulation longGeom longerGeom longGeom_valid longerGeom_valid longer_section (by norm_num [longGeom])
    (by norm_num [longGeom]) (by norm_num [longerGeom]) .vay (Or.inr rfl) dtLight (by norm_num [dtLight])
    (by norm_num [dtLight, longGeom, LIGHT_SPEED]) (by norm_num [dtLight, longGeom, LIGHT_SPEED]) middlePatch 6 middle_fits _ _
    (fun _ _ _ => rfl) _ _ (fun _ _ h => h) (fun _ _ h => h) (fun _ _ _ _ _ h => h) _ _ S T (one_part in1) (one_part in2) ?_ 1
    m M h1 h2
  rw [s1, s2]
  refine .cons ⟨rfl, ?_⟩ .nil
  rw [show ((6 : ℤ) : ℝ) * longGeom.dz = 6 by norm_num [longGeom]]
  exact ⟨rfl, rfl, rfl, rfl, rfl⟩

/-- A macroparticle next to the near wall of a chamber and of a longer one: a cycle later the same in columns 0 to 14. -/
example : ∃ m S M T, SimReaches longGeom .vay dtLight (fun _ _ => none) (fun _ S => S) [⟨false, [spinner]⟩] 1 m S ∧
    SimReaches longerGeom .vay dtLight (fun _ _ => none) (fun _ S => S) [⟨false, [spinner]⟩] 1 M T ∧
    SameShifted longGeom longerGeom 0 ⟨0, 3, 0, 14⟩ m S M T := by
  have in1 : Inside longGeom spinner := by
    intro _
    refine ⟨⟨?_, ?_, ?_, ?_⟩, rfl, ?_, ?_⟩ <;> norm_num [spinner, longGeom, speedSq, LIGHT_SPEED]
  have in2 : Inside longerGeom spinner := by
    intro _
    refine ⟨⟨?_, ?_, ?_, ?_⟩, rfl, ?_, ?_⟩ <;> norm_num [spinner, longerGeom, speedSq, LIGHT_SPEED]
  obtain ⟨m, S, h1⟩ := sim_exists longGeom_valid (by norm_num [longGeom]) (by norm_num [longGeom]) rfl rfl _
    (one_part in1) (one_part (P := fun p => ¬ InLastHalfCell longGeom p) (by
      rintro ⟨-, hl⟩
      norm_num [spinner, longGeom] at hl))
  obtain ⟨M, T, h2⟩ := sim_exists longerGeom_valid (by norm_num [longerGeom]) (by norm_num [longerGeom]) rfl rfl _
    (one_part in2) (one_part (P := fun p => ¬ InLastHalfCell longerGeom p) (by
      rintro ⟨-, hl⟩
      norm_num [spinner, longerGeom] at hl))
  refine ⟨m, S, M, T, h1, h2, ?_⟩
  exact C115_longer longGeom longerGeom longGeom_valid longerGeom_valid longer_section (by norm_num [longGeom, longerGeom])
    (by norm_num [longGeom]) (by norm_num [longGeom]) .vay (Or.inr rfl) dtLight (by norm_num [dtLight])
    (by norm_num [dtLight, longGeom, LIGHT_SPEED]) (by norm_num [dtLight, longGeom, LIGHT_SPEED]) _ _ 18
    (by norm_num [longGeom]) (fun _ _ _ => rfl) _ S T (one_part in1) 1 m M h1 h2

end Verif
